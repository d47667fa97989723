/-
C122: the default trains as mechanical systems.
-/
import Verif.Model.FullTrains
import Verif.Spec.TrainSheet
import Verif.Props.DefaultTrains
import Verif.Props.TrainStatics
import Mathlib.Tactic.IntervalCases

set_option linter.unusedSectionVars false

namespace Rose
open Rose.Spec

variable {K : Type*} [Field K] [LinearOrder K] [IsStrictOrderedRing K]

/-! ### Rows of carts with two bogies of their own -/

/-- `n` carts, cart `i` made of the data `ds i`. -/
def dataRow (ds : ℕ → TrainData K × BodyData K) (n : ℕ) : List (BodyData K × DCart K) :=
  (List.range n).map fun i => ((ds i).2, dataCart (ds i).1 i)

/-- The bogie objects of a list of carts. -/
def bogieObjects (l : List (BodyData K × DCart K)) : List (BodyData K × DBogie K) :=
  l.flatMap fun p => p.2.bogies.map fun d => (p.1, d)

theorem lookupBogie_eq (l : List (BodyData K × DCart K)) (b : ℕ) (r : Bogie K)
    (hex : ∃ q ∈ bogieObjects l, q.2.id = b) (hall : ∀ q ∈ bogieObjects l, q.2.id = b → fullBogie q.1 q.2 = r) :
    lookupBogie l b = r := by
  unfold lookupBogie
  have h : ((bogieObjects l).find? fun q => q.2.id = b).isSome := by
    rw [List.find?_isSome]
    obtain ⟨q, hq, hb⟩ := hex
    exact ⟨q, hq, by simp [hb]⟩
  obtain ⟨q, hq⟩ := Option.isSome_iff_exists.1 h
  have hq' : (l.flatMap fun p => p.2.bogies.map fun d => (p.1, d)).find? (fun q => q.2.id = b) = some q := hq
  rw [hq']
  exact hall q (List.mem_of_find?_eq_some hq) (by simpa using List.find?_some hq)

theorem mem_bogieObjects_row (ds : ℕ → TrainData K × BodyData K) (n : ℕ) (q : BodyData K × DBogie K) :
    q ∈ bogieObjects (dataRow ds n) ↔ ∃ i < n, ∃ k < 2, q = ((ds i).2, ⟨2 * i + k, [-(ds i).1.wheel, (ds i).1.wheel], 2,
      (ds i).1.bogieLength⟩) := by
  simp only [bogieObjects, dataRow, List.mem_flatMap, List.mem_map, List.mem_range, dataCart]
  constructor
  · rintro ⟨p, ⟨i, hi, rfl⟩, d, hd, rfl⟩
    simp only [List.mem_cons, List.not_mem_nil, or_false] at hd
    rcases hd with rfl | rfl
    · exact ⟨i, hi, 0, by norm_num, rfl⟩
    · exact ⟨i, hi, 1, by norm_num, rfl⟩
  · rintro ⟨i, hi, k, hk, rfl⟩
    refine ⟨_, ⟨i, hi, rfl⟩, _, ?_, rfl⟩
    interval_cases k <;> simp

/-- The bogies of a row. -/
theorem row_bogie (ds : ℕ → TrainData K × BodyData K) (n i k : ℕ) (hi : i < n) (hk : k < 2) :
    (fullTrain (dataRow ds n)).bogie (2 * i + k) = ⟨(ds i).2.bogieMass, (ds i).2.bogieInertia, (ds i).2.bogieStiffness,
      (ds i).2.bogieDamping, [((ds i).2.wheelMass, -(ds i).1.wheel), ((ds i).2.wheelMass, (ds i).1.wheel)], []⟩ := by
  refine lookupBogie_eq _ _ _ ⟨_, (mem_bogieObjects_row ds n _).2 ⟨i, hi, k, hk, rfl⟩, rfl⟩ ?_
  intro q hq hb
  obtain ⟨i', -, k', hk', rfl⟩ := (mem_bogieObjects_row ds n q).1 hq
  simp only at hb
  obtain rfl : i' = i := (by omega)
  rfl

/-- The carts of a row. -/
theorem row_cart (ds : ℕ → TrainData K × BodyData K) (n i : ℕ) (c : Cart K) :
    (fullTrain (dataRow ds n)).carts[i]? = some c ↔ i < n ∧ c = ⟨(ds i).1.mass, (ds i).2.cartInertia, (ds i).2.cartStiffness,
      (ds i).2.cartDamping, [(2 * i, -(ds i).1.bogie), (2 * i + 1, (ds i).1.bogie)], [1, 1]⟩ := by
  simp only [fullTrain, dataRow, List.map_map, List.getElem?_map, Option.map_eq_some_iff, List.getElem?_eq_some_iff,
    List.length_range, List.getElem_range]
  constructor
  · rintro ⟨a, ⟨hi, rfl⟩, rfl⟩
    exact ⟨hi, rfl⟩
  · rintro ⟨hi, rfl⟩
    exact ⟨i, ⟨hi, rfl⟩, rfl⟩

theorem row_length (ds : ℕ → TrainData K × BodyData K) (n : ℕ) : (fullTrain (dataRow ds n)).carts.length = n := by
  simp [fullTrain, dataRow]

theorem row_mem_cart (ds : ℕ → TrainData K × BodyData K) (n : ℕ) (c : Cart K) (h : c ∈ (fullTrain (dataRow ds n)).carts) :
    ∃ i < n, c = ⟨(ds i).1.mass, (ds i).2.cartInertia, (ds i).2.cartStiffness,
      (ds i).2.cartDamping, [(2 * i, -(ds i).1.bogie), (2 * i + 1, (ds i).1.bogie)], [1, 1]⟩ := by
  obtain ⟨i, hi, he⟩ := List.mem_iff_getElem.1 h
  have := (row_cart ds n i c).1 (by rw [List.getElem?_eq_getElem hi, he])
  exact ⟨i, this⟩

theorem row_mem_bogies (ds : ℕ → TrainData K × BodyData K) (n b : ℕ) :
    b ∈ (fullTrain (dataRow ds n)).bogies ↔ ∃ i < n, ∃ k < 2, b = 2 * i + k := by
  rw [Train.mem_bogies]
  constructor
  · rintro ⟨c, hc, d, hd⟩
    obtain ⟨i, hi, rfl⟩ := row_mem_cart ds n c hc
    simp only [List.mem_cons, Prod.mk.injEq, List.not_mem_nil, or_false] at hd
    rcases hd with ⟨rfl, -⟩ | ⟨rfl, -⟩
    · exact ⟨i, hi, 0, by norm_num, rfl⟩
    · exact ⟨i, hi, 1, by norm_num, rfl⟩
  · rintro ⟨i, hi, k, hk, rfl⟩
    refine ⟨_, List.mem_of_getElem? ((row_cart ds n i _).2 ⟨hi, rfl⟩), ?_⟩
    interval_cases k
    · exact ⟨_, List.mem_cons_self ..⟩
    · exact ⟨_, List.mem_cons_of_mem _ (List.mem_cons_self ..)⟩

theorem row_statics (ds : ℕ → TrainData K × BodyData K) (n : ℕ) (hd : ∀ i < n, 0 < (ds i).1.bogie ∧ 0 < (ds i).1.wheel) :
    (fullTrain (dataRow ds n)).FactorsFit ∧ (fullTrain (dataRow ds n)).Balanced ∧ (fullTrain (dataRow ds n)).TwoAndTwo := by
  refine ⟨⟨?_, ?_⟩, ⟨?_, ?_⟩, ?_, ?_⟩
  · intro c hc
    obtain ⟨i, hi, rfl⟩ := row_mem_cart ds n c hc
    exact Or.inr rfl
  · intro b hb
    obtain ⟨i, hi, k, hk, rfl⟩ := (row_mem_bogies ds n b).1 hb
    rw [row_bogie ds n i k hi hk]
    exact Or.inl rfl
  · intro c hc
    obtain ⟨i, hi, rfl⟩ := row_mem_cart ds n c hc
    simp [factorsOrOnes]
  · intro b hb
    obtain ⟨i, hi, k, hk, rfl⟩ := (row_mem_bogies ds n b).1 hb
    rw [row_bogie ds n i k hi hk]
    simp [factorsOrOnes, List.replicate]
  · intro c hc
    obtain ⟨i, hi, rfl⟩ := row_mem_cart ds n c hc
    exact ⟨2 * i, 2 * i + 1, -(ds i).1.bogie, neg_ne_zero.2 (hd i hi).1.ne', by rw [neg_neg]⟩
  · intro b hb
    obtain ⟨i, hi, k, hk, rfl⟩ := (row_mem_bogies ds n b).1 hb
    rw [row_bogie ds n i k hi hk]
    exact ⟨_, _, -(ds i).1.wheel, neg_ne_zero.2 (hd i hi).2.ne', by rw [neg_neg]⟩

theorem sum_range_single (n i : ℕ) (hi : i < n) (f : ℕ → K) (h : ∀ j < n, j ≠ i → f j = 0) :
    ((List.range n).map f).sum = f i := by
  have e : ((List.range n).map f).sum = ∑ j ∈ Finset.range n, f j := rfl
  rw [e, Finset.sum_eq_single i]
  · intro j hj hne
    exact h j (Finset.mem_range.1 hj) hne
  · intro hni
    exact absurd (Finset.mem_range.2 hi) hni

/-- The static load of every wheel of a row. -/
theorem row_load (ds : ℕ → TrainData K × BodyData K) (n i k j : ℕ) (hi : i < n) (hk : k < 2) (hj : j < 2) (g : K) :
    (totalStaticLoad (fullTrain (dataRow ds n)) g StaticLoads.fresh).wheel (2 * i + k) j =
      some (-((ds i).1.mass / 4 + (ds i).2.bogieMass / 2 + (ds i).2.wheelMass) * g) := by
  have hb : 2 * i + k ∈ (fullTrain (dataRow ds n)).bogies := (row_mem_bogies ds n _).2 ⟨i, hi, k, hk, rfl⟩
  have hbog := row_bogie ds n i k hi hk
  have h := (totalStaticLoad_spec (fullTrain (dataRow ds n)) g StaticLoads.fresh _ hb).2 j (by rw [hbog]; exact hj)
  have hshare : cartShare (fullTrain (dataRow ds n)) g (2 * i + k) = -(ds i).1.mass * g / 2 := by
    unfold cartShare
    simp only [fullTrain, dataRow, List.map_map]
    rw [sum_range_single n i hi]
    · simp only [Function.comp, fullCart, dataCart, List.map_cons, List.map_nil, List.zip_cons_cons, List.zip_nil_left]
      interval_cases k <;> simp
    · intro j' _ hne
      have hc : (List.map Prod.fst (fullCart (ds j').2 (dataCart (ds j').1 j')).bogies).count (2 * i + k) = 0 := by
        rw [List.count_eq_zero]
        simp only [fullCart, dataCart, List.map_cons, List.map_nil, List.zip_cons_cons, List.zip_nil_left, List.mem_cons,
          List.not_mem_nil, or_false]
        omega
      simp only [Function.comp, hc, Nat.cast_zero, zero_mul]
  rw [h, hshare, hbog]
  simp only [StaticLoads.fresh, Option.getD_none, wheelOwn, hbog, Option.some.injEq, List.length_cons, List.length_nil]
  interval_cases j <;> (simp; ring)

/-- The start places of the parts of a row. -/
theorem row_places (ds : ℕ → TrainData K × BodyData K) (n : ℕ) (x0 : ℕ → K) (i : ℕ) (hi : i < n) :
    (fullTrain (dataRow ds n)).startX x0 (.cart i) = x0 i ∧
    (∀ k < 2, (fullTrain (dataRow ds n)).startX x0 (.bogie (2 * i + k)) = x0 i + [-(ds i).1.bogie, (ds i).1.bogie].getD k 0) ∧
    ∀ k < 2, ∀ j < 2, (fullTrain (dataRow ds n)).startX x0 (.wheel (2 * i + k) j) =
      x0 i + [-(ds i).1.bogie, (ds i).1.bogie].getD k 0 + [-(ds i).1.wheel, (ds i).1.wheel].getD j 0 := by
  have hc := (row_cart ds n i _).2 ⟨hi, rfl⟩
  refine ⟨?_, ?_, ?_⟩
  · apply writes_eq_of_mem
    · intro w hw he
      obtain ⟨k, c, hc, rfl | ⟨b, hb, rfl | ⟨j, hj, rfl⟩⟩⟩ := (mem_startWrites _ x0 w).1 hw
      · cases he; rfl
      · cases he
      · cases he
    · exact ⟨_, (mem_startWrites _ x0 _).2 ⟨i, _, hc, Or.inl rfl⟩, rfl⟩
  · intro k hk
    apply writes_eq_of_mem
    · intro w hw he
      obtain ⟨i', c, hc', rfl | ⟨b, hb, rfl | ⟨j, hj, rfl⟩⟩⟩ := (mem_startWrites _ x0 w).1 hw
      · cases he
      · obtain ⟨-, rfl⟩ := (row_cart ds n i' c).1 hc'
        simp only [List.mem_cons, List.not_mem_nil, or_false] at hb
        simp only [TrainPart.bogie.injEq] at he
        rcases hb with rfl | rfl
        · simp only at he
          obtain rfl : i = i' := (by omega)
          obtain rfl : k = 0 := (by omega)
          rfl
        · simp only at he
          obtain rfl : i = i' := (by omega)
          obtain rfl : k = 1 := (by omega)
          rfl
      · cases he
    · refine ⟨(TrainPart.bogie (2 * i + k), x0 i + [-(ds i).1.bogie, (ds i).1.bogie].getD k 0),
        (mem_startWrites _ x0 _).2 ⟨i, _, hc, Or.inr ⟨(2 * i + k, [-(ds i).1.bogie, (ds i).1.bogie].getD k 0), ?_, Or.inl rfl⟩⟩, rfl⟩
      interval_cases k <;> simp
  · intro k hk j hj
    apply writes_eq_of_mem
    · intro w hw he
      obtain ⟨i', c, hc', rfl | ⟨b, hb, rfl | ⟨j', hj', rfl⟩⟩⟩ := (mem_startWrites _ x0 w).1 hw
      · cases he
      · cases he
      · obtain ⟨hi', rfl⟩ := (row_cart ds n i' c).1 hc'
        simp only [List.mem_cons, List.not_mem_nil, or_false] at hb
        simp only [TrainPart.wheel.injEq] at he
        obtain ⟨he, rfl⟩ := he
        rcases hb with rfl | rfl
        · simp only at he
          obtain rfl : i = i' := (by omega)
          obtain rfl : k = 0 := (by omega)
          have := row_bogie ds n i 0 hi hk
          rw [add_zero] at this
          simp only [this]
          interval_cases j' <;> rfl
        · simp only at he
          obtain rfl : i = i' := (by omega)
          obtain rfl : k = 1 := (by omega)
          simp only [row_bogie ds n i 1 hi hk]
          interval_cases j' <;> rfl
    · refine ⟨(TrainPart.wheel (2 * i + k) j,
          x0 i + [-(ds i).1.bogie, (ds i).1.bogie].getD k 0 + [-(ds i).1.wheel, (ds i).1.wheel].getD j 0),
        (mem_startWrites _ x0 _).2 ⟨i, _, hc, Or.inr ⟨(2 * i + k, [-(ds i).1.bogie, (ds i).1.bogie].getD k 0), ?_, Or.inr
          ⟨j, ?_, ?_⟩⟩⟩, rfl⟩
      · interval_cases k <;> simp
      · simp only [row_bogie ds n i k hi hk]; exact hj
      · simp only [row_bogie ds n i k hi hk]
        interval_cases j <;> rfl

/-- Parts of a row. -/
theorem row_parts (ds : ℕ → TrainData K × BodyData K) (n : ℕ) (p : TrainPart) :
    (fullTrain (dataRow ds n)).HasPart p ↔ match p with
      | .cart i => i < n
      | .bogie b => ∃ i < n, ∃ k < 2, b = 2 * i + k
      | .wheel b j => (∃ i < n, ∃ k < 2, b = 2 * i + k) ∧ j < 2 := by
  cases p with
  | cart i => simp only [Train.HasPart, row_length]
  | bogie b => simp only [Train.HasPart, row_mem_bogies]
  | wheel b j =>
    simp only [Train.HasPart, row_mem_bogies]
    constructor
    · rintro ⟨⟨i, hi, k, hk, rfl⟩, hj⟩
      rw [row_bogie ds n i k hi hk] at hj
      exact ⟨⟨i, hi, k, hk, rfl⟩, hj⟩
    · rintro ⟨⟨i, hi, k, hk, rfl⟩, hj⟩
      refine ⟨⟨i, hi, k, hk, rfl⟩, ?_⟩
      rw [row_bogie ds n i k hi hk]
      exact hj

/-- Specification: parts of the same kind start at least one metre apart. -/
def Train.Apart (t : Train K) (x0 : ℕ → K) : Prop :=
  ∀ p q, t.HasPart p → t.HasPart q → p ≠ q → p.kind = q.kind → 1 ≤ |t.startX x0 p - t.startX x0 q|

theorem Train.Apart.separated {t : Train K} {x0 : ℕ → K} (h : t.Apart x0) : t.Separated x0 := by
  intro p q hp hq hne hk
  refine lt_of_lt_of_le ?_ (h p q hp hq hne hk)
  norm_num

theorem row_apart (ds : ℕ → TrainData K × BodyData K) (n : ℕ) (x0 : ℕ → K)
    (hd : ∀ i < n, 1 ≤ 2 * (ds i).1.wheel ∧ 1 ≤ 2 * (ds i).1.bogie - 2 * (ds i).1.wheel)
    (hx : ∀ i j, i < j → j < n → x0 j + ((ds j).1.bogie + (ds j).1.wheel) + 1 ≤ x0 i - ((ds i).1.bogie + (ds i).1.wheel)) :
    (fullTrain (dataRow ds n)).Apart x0 := by
  -- every part stands within its cart
  have off : ∀ i < n, ∀ k < 2, ∀ j < 2,
      |[-(ds i).1.bogie, (ds i).1.bogie].getD k 0| ≤ (ds i).1.bogie + (ds i).1.wheel ∧
      |[-(ds i).1.bogie, (ds i).1.bogie].getD k 0 + [-(ds i).1.wheel, (ds i).1.wheel].getD j 0| ≤
        (ds i).1.bogie + (ds i).1.wheel := by
    intro i hi k hk j hj
    obtain ⟨h1, h2⟩ := hd i hi
    interval_cases k <;> interval_cases j <;> simp only [List.getD_cons_zero, List.getD_cons_succ, abs_le] <;>
      refine ⟨⟨?_, ?_⟩, ?_, ?_⟩ <;> linarith
  have far : ∀ i < n, ∀ i' < n, i ≠ i' → ∀ d d', |d| ≤ (ds i).1.bogie + (ds i).1.wheel →
      |d'| ≤ (ds i').1.bogie + (ds i').1.wheel → 1 ≤ |(x0 i + d) - (x0 i' + d')| := by
    intro i hi i' hi' hne d d' h1 h2
    rw [abs_le] at h1 h2
    rcases Nat.lt_or_gt_of_ne hne with h | h
    · have := hx i i' h hi'
      rw [le_abs]; left; linarith
    · have := hx i' i h hi
      rw [le_abs]; right; linarith
  intro p q hp hq hne hkind
  rw [row_parts] at hp hq
  cases p with
  | cart i =>
    cases q with
    | cart i' =>
      rw [(row_places ds n x0 i hp).1, (row_places ds n x0 i' hq).1]
      have := far i hp i' hq (fun h => hne (by rw [h])) 0 0
        (by rw [abs_zero]; have := hd i hp; linarith) (by rw [abs_zero]; have := hd i' hq; linarith)
      simpa using this
    | bogie b => simp [TrainPart.kind] at hkind
    | wheel b j => simp [TrainPart.kind] at hkind
  | bogie b =>
    cases q with
    | cart i' => simp [TrainPart.kind] at hkind
    | wheel b j => simp [TrainPart.kind] at hkind
    | bogie b' =>
      obtain ⟨i, hi, k, hk, rfl⟩ := hp
      obtain ⟨i', hi', k', hk', rfl⟩ := hq
      rw [(row_places ds n x0 i hi).2.1 k hk, (row_places ds n x0 i' hi').2.1 k' hk']
      by_cases h : i = i'
      · subst h
        have h2 := hd i hi
        have hkk : k ≠ k' := fun h => hne (by rw [h])
        interval_cases k <;> interval_cases k' <;> first | exact absurd rfl hkk | skip
        · simp only [List.getD_cons_zero, List.getD_cons_succ]; rw [le_abs]; right; linarith
        · simp only [List.getD_cons_zero, List.getD_cons_succ]; rw [le_abs]; left; linarith
      · exact far i hi i' hi' h _ _ (off i hi k hk 0 (by norm_num)).1 (off i' hi' k' hk' 0 (by norm_num)).1
  | wheel b j =>
    cases q with
    | cart i' => simp [TrainPart.kind] at hkind
    | bogie b => simp [TrainPart.kind] at hkind
    | wheel b' j' =>
      obtain ⟨⟨i, hi, k, hk, rfl⟩, hj⟩ := hp
      obtain ⟨⟨i', hi', k', hk', rfl⟩, hj'⟩ := hq
      rw [(row_places ds n x0 i hi).2.2 k hk j hj, (row_places ds n x0 i' hi').2.2 k' hk' j' hj']
      by_cases h : i = i'
      · subst h
        have h2 := hd i hi
        have hkk : ¬ (k = k' ∧ j = j') := fun h => hne (by rw [h.1, h.2])
        interval_cases k <;> interval_cases k' <;> interval_cases j <;> interval_cases j' <;>
          first
          | exact absurd ⟨rfl, rfl⟩ hkk
          | (simp only [List.getD_cons_zero, List.getD_cons_succ]; rw [le_abs]; left; linarith)
          | (simp only [List.getD_cons_zero, List.getD_cons_succ]; rw [le_abs]; right; linarith)
      · rw [add_assoc, add_assoc]
        exact far i hi i' hi' h _ _ (off i hi k hk j hj).2 (off i' hi' k' hk' j' hj').2

/-! ### C122: trains with two bogies per cart -/

/-- The geometry of a type of train, as `set_train` selects it. -/
def typeData : TrainType → TrainData K
  | .doubleDekker => doubleDekkerData
  | .sprinterSLT => sgmData
  | .sprinterSGM => sgmData
  | .icm => icmData
  | .cargoFALNS5 => falns5Data
  | .cargoSGNS => sgnsData
  | .cargoTAPPS => tappsData
  | .traxx => traxxData
  | .br189 => br189Data

theorem setFullTrain_eq (ty : TrainType) (hty : ty ≠ .sprinterSLT) (start : K) (n : ℕ) :
    setFullTrain ty start n =
      .ok (fullTrain (dataRow (fun _ => (typeData ty, bodyData ty)) n), cartPositions start (typeData ty).length n) := by
  cases ty <;> first | exact absurd rfl hty | (simp [setFullTrain, setTrain, dataTrain, dataRow, typeData]; rfl)

theorem typeData_good (ty : TrainType) (hty : ty ≠ .sprinterSLT) :
    1 ≤ 2 * (typeData ty : TrainData K).wheel ∧ 1 ≤ 2 * (typeData ty : TrainData K).bogie - 2 * (typeData ty : TrainData K).wheel ∧
    (typeData ty : TrainData K).bogie + (typeData ty : TrainData K).wheel + 1 / 2 ≤ (typeData ty : TrainData K).length / 2 := by
  cases ty <;> first | exact absurd rfl hty | (
    simp only [typeData, traxxData, br189Data, doubleDekkerData, sgmData, icmData, sgnsData, falns5Data, tappsData]; norm_num)

theorem cartPositions_getD (start L : K) (n i : ℕ) (hi : i < n) : (cartPositions start L n).getD i 0 = start - i * L := by
  simp [cartPositions, hi]

/-- **C122, measuring and weighing** Every default train other than the SLT, with any number of carts, has the measures and weights of its
data sheet: the carts at their pitch behind the start coordinate, in each cart four wheels on two bogies at the places of the
sheet, and every wheel carrying the mass of the sheet. -/
theorem C122_sheet (ty : TrainType) (hty : ty ≠ .sprinterSLT) (start : K) (n : ℕ) (t : Train K) (x : List K)
    (h : setFullTrain ty start n = .ok (t, x)) :
    let s : TrainSheet K := trainSheet ty
    t.carts.length = n ∧ x.length = n ∧ (∀ i < n, x[i]? = some (start - i * s.pitch)) ∧
    (∀ b j, t.HasPart (.wheel b j) ↔ b < 2 * n ∧ j < 2) ∧ s.axles.length = 4 ∧
    ∀ i < n, ∀ a < 4,
      t.startX (fun i => x.getD i 0) (.wheel (2 * i + a / 2) (a % 2)) = start - i * s.pitch + s.axles.getD a 0 ∧
      ∀ g, (totalStaticLoad t g StaticLoads.fresh).wheel (2 * i + a / 2) (a % 2) = some (-s.carried * g) := by
  rw [setFullTrain_eq ty hty] at h
  simp only [Except.ok.injEq, Prod.mk.injEq] at h
  obtain ⟨rfl, rfl⟩ := h
  intro s
  have hpitch : (typeData ty : TrainData K).length = s.pitch := by
    cases ty <;> first | exact absurd rfl hty | (
      simp only [s, trainSheet, typeData, traxxData, br189Data, doubleDekkerData, sgmData, icmData, sgnsData, falns5Data, tappsData]
      norm_num)
  refine ⟨row_length _ _, by simp [cartPositions], ?_, ?_, ?_, ?_⟩
  · intro i hi
    simp [cartPositions, hi, hpitch]
  · intro b j
    rw [row_parts]
    simp only
    constructor
    · rintro ⟨⟨i, hi, k, hk, rfl⟩, hj⟩
      exact ⟨by omega, hj⟩
    · rintro ⟨hb, hj⟩
      exact ⟨⟨b / 2, by omega, b % 2, by omega, by omega⟩, hj⟩
  · cases ty <;> first | exact absurd rfl hty | rfl
  · intro i hi a ha
    constructor
    · rw [(row_places _ n _ i hi).2.2 (a / 2) (by omega) (a % 2) (by omega), cartPositions_getD _ _ _ _ hi, hpitch, add_assoc]
      congr 1
      interval_cases a <;> cases ty <;> first | exact absurd rfl hty | (
        simp only [s, trainSheet, typeData, traxxData, br189Data, doubleDekkerData, sgmData, icmData, sgnsData, falns5Data, tappsData]
        norm_num)
    · intro g
      rw [row_load _ n i (a / 2) (a % 2) hi (by omega) (by omega)]
      congr 2
      cases ty <;> first | exact absurd rfl hty | (
        simp only [s, trainSheet, typeData, bodyData, traxxData, br189Data, doubleDekkerData, sgmData, icmData, sgnsData, falns5Data,
          tappsData]
        norm_num)

/-- **C122, the parts stand apart** In every default train other than the SLT different carts, bogies and wheels start at least one metre
apart (so that the train mesh is that of `C101_mesh`). -/
theorem C122_apart (ty : TrainType) (hty : ty ≠ .sprinterSLT) (start : K) (n : ℕ) (t : Train K) (x : List K)
    (h : setFullTrain ty start n = .ok (t, x)) :
    t.Apart (fun i => x.getD i 0) ∧ t.Separated (fun i => x.getD i 0) := by
  have key : t.Apart (fun i => x.getD i 0) := by
    rw [setFullTrain_eq ty hty] at h
    simp only [Except.ok.injEq, Prod.mk.injEq] at h
    obtain ⟨rfl, rfl⟩ := h
    obtain ⟨h1, h2, h3⟩ := typeData_good (K := K) ty hty
    apply row_apart
    · exact fun _ _ => ⟨h1, h2⟩
    · intro i j hij hj
      rw [cartPositions_getD _ _ _ _ hj, cartPositions_getD _ _ _ _ (by omega)]
      have : (i : K) + 1 ≤ j := by exact_mod_cast hij
      simp only
      nlinarith
  exact ⟨key, key.separated⟩

/-- **C122, behaviour** Every default train other than the SLT, with any number of carts: raising it costs no force, its springs never store
negative energy, and when it is at rest under gravity its wheels press on the rail with the mass of the data sheet. -/
theorem C122_behaviour (ty : TrainType) (hty : ty ≠ .sprinterSLT) (start : K) (n : ℕ) (t : Train K) (x : List K)
    (h : setFullTrain ty start n = .ok (t, x)) (m : ℕ) (hm : t.numbering.next ≤ m) (u : ℕ → K) :
    (∀ d, t.Raised u d → ∀ a, matForce m t.stiffness u a = 0 ∧ matForce m t.damping u a = 0) ∧
    0 ≤ matEnergy m t.stiffness u ∧
    ∀ g, t.AtRest g m u → ∀ b j, t.HasPart (.wheel b j) →
      t.forceVector g (t.dof (.wheelY b j)) - matForce m t.stiffness u (t.dof (.wheelY b j)) =
        -(trainSheet ty : TrainSheet K).carried * g := by
  have hs := C122_sheet ty hty start n t x h
  rw [setFullTrain_eq ty hty] at h
  simp only [Except.ok.injEq, Prod.mk.injEq] at h
  obtain ⟨rfl, rfl⟩ := h
  obtain ⟨h1, h2, h3⟩ := typeData_good (K := K) ty hty
  obtain ⟨f1, f2, f3⟩ := row_statics (fun _ => ((typeData ty : TrainData K), bodyData ty)) n
    (fun _ _ => ⟨by simp only; linarith, by simp only; linarith⟩)
  refine ⟨fun d hd a => C35_translation_partial _ f1 f2 m hm u d hd a, C36_nonneg_partial _ f1 f2 m hm u ?_ ?_, ?_⟩
  · intro c hc
    obtain ⟨i, hi, rfl⟩ := row_mem_cart _ n c hc
    refine ⟨?_, ?_⟩
    · cases ty <;> simp only [bodyData] <;> norm_num
    · intro f hf
      simp only [List.mem_cons, List.not_mem_nil, or_false, or_self] at hf
      rw [hf]; exact zero_le_one
  · intro b hb
    obtain ⟨i, hi, k, hk, rfl⟩ := (row_mem_bogies _ n b).1 hb
    rw [row_bogie _ n i k hi hk]
    refine ⟨?_, ?_⟩
    · cases ty <;> simp only [bodyData] <;> norm_num
    · intro f hf
      simp at hf
  · intro g hu b j hp
    obtain ⟨-, -, -, s4, -, s6⟩ := hs
    obtain ⟨hb, hj⟩ := (s4 b j).1 hp
    have hr := C114_reactions_partial _ f1 f2 f3 g m hm u hu b hp.1 j hp.2
    have hl := (s6 (b / 2) (by omega) (2 * (b % 2) + j) (by omega)).2 g
    rw [show 2 * (b / 2) + (2 * (b % 2) + j) / 2 = b by omega, show (2 * (b % 2) + j) % 2 = j by omega] at hl
    rw [hl] at hr
    simpa using hr.symm

/-- A double dekker of two carts. -/
example : ∃ (t : Train ℚ) (x : List ℚ), setFullTrain .doubleDekker 100 2 = .ok (t, x) ∧ x = [100, 759 / 10] ∧
    t.startX (fun i => x.getD i 0) (.wheel 3 1) = 759 / 10 + 56 / 5 ∧
    (totalStaticLoad t 10 StaticLoads.fresh).wheel 3 1 = some (-92500) :=
  ⟨_, _, rfl, by decide +kernel, by decide +kernel, by decide +kernel⟩

/-! ### C122: cargo trains -/

/-- Data of cart `i` of a cargo train. -/
def cargoData (loco wagon : TrainType) (nLoco : ℕ) (i : ℕ) : TrainData K × BodyData K :=
  if i < nLoco then (typeData loco, bodyData loco) else (typeData wagon, bodyData wagon)

/-- Place of cart `i` of a cargo train. -/
def cargoPlace (start : K) (loco wagon : TrainType) (nLoco : ℕ) (i : ℕ) : K :=
  if i < nLoco then start - i * (typeData loco : TrainData K).length
  else start - (typeData loco : TrainData K).length / 2 - (typeData wagon : TrainData K).length / 2 -
    (typeData wagon : TrainData K).length * ((i - nLoco : ℕ) : K)

theorem buildFullCargo_eq (start : K) (loco wagon : TrainType) (nLoco nWagon : ℕ) (t : Train K) (x : List K)
    (h : buildFullCargo start loco wagon nLoco nWagon = .ok (t, x)) :
    t = fullTrain (dataRow (cargoData loco wagon nLoco) (nLoco + nWagon)) ∧
      x = (List.range (nLoco + nWagon)).map (cargoPlace start loco wagon nLoco) ∧
      (loco = .traxx ∨ loco = .br189) ∧ (wagon = .cargoTAPPS ∨ wagon = .cargoFALNS5 ∨ wagon = .cargoSGNS) ∧ 1 ≤ nLoco := by
  unfold buildFullCargo at h
  cases hc : buildCargo start loco wagon nLoco nWagon with
  | error e => rw [hc] at h; cases h
  | ok d =>
    obtain ⟨r1, r2, r3⟩ := C67_rejects start loco wagon nLoco nWagon d hc
    rw [hc] at h
    simp only [Except.ok.injEq, Prod.mk.injEq] at h
    obtain ⟨rfl, rfl⟩ := h
    have hd : d = ⟨(List.range nLoco).map (fun (i : ℕ) => start - (i : K) * (typeData loco : TrainData K).length) ++
        (List.range nWagon).map (fun (i : ℕ) => start - (typeData loco : TrainData K).length / 2 -
          (typeData wagon : TrainData K).length / 2 - (typeData wagon : TrainData K).length * (i : K)),
        (List.range nLoco).map (dataCart (typeData loco)) ++ (List.range nWagon).map fun i => dataCart (typeData wagon) (nLoco + i)⟩ := by
      have h0 : nLoco ≠ 0 := by omega
      rcases r1 with rfl | rfl <;> rcases r2 with rfl | rfl | rfl <;>
        (simp only [buildCargo, locoData, wagonData, if_neg h0, Except.ok.injEq] at hc; rw [← hc]; rfl)
    refine ⟨?_, ?_, r1, r2, r3⟩
    · rw [hd]
      congr 1
      unfold dataRow cargoData
      apply List.ext_getElem
      · simp
      · intro i h1 h2
        have hi : i < nLoco + nWagon := by simpa using h2
        simp only [List.getElem_zip, List.getElem_map, List.getElem_range]
        by_cases hl : i < nLoco
        · rw [List.getElem_append_left (by simpa using hl), List.getElem_append_left (by simpa using hl)]
          simp [hl]
        · rw [List.getElem_append_right (by simpa using hl), List.getElem_append_right (by simpa using hl)]
          simp only [List.getElem_replicate, List.length_map, List.length_range, List.getElem_map, List.getElem_range, hl, if_false]
          rw [show nLoco + (i - nLoco) = i by omega]
    · rw [hd]
      unfold cargoPlace
      apply List.ext_getElem
      · simp
      · intro i h1 h2
        simp only [List.getElem_map, List.getElem_range]
        by_cases hl : i < nLoco
        · rw [List.getElem_append_left (by simpa using hl)]
          simp [hl]
        · rw [List.getElem_append_right (by simpa using hl)]
          simp [hl]

theorem cargo_notSLT {loco wagon : TrainType} (r1 : loco = .traxx ∨ loco = .br189)
    (r2 : wagon = .cargoTAPPS ∨ wagon = .cargoFALNS5 ∨ wagon = .cargoSGNS) : loco ≠ .sprinterSLT ∧ wagon ≠ .sprinterSLT := by
  constructor
  · rcases r1 with rfl | rfl <;> decide
  · rcases r2 with rfl | rfl | rfl <;> decide

theorem sheet_eq (ty : TrainType) (hty : ty ≠ .sprinterSLT) :
    (typeData ty : TrainData K).length = (trainSheet ty : TrainSheet K).pitch ∧
    (∀ a < 4, [-(typeData ty : TrainData K).bogie, (typeData ty : TrainData K).bogie].getD (a / 2) 0 +
      [-(typeData ty : TrainData K).wheel, (typeData ty : TrainData K).wheel].getD (a % 2) 0 =
        (trainSheet ty : TrainSheet K).axles.getD a 0) ∧
    (typeData ty : TrainData K).mass / 4 + (bodyData ty : BodyData K).bogieMass / 2 + (bodyData ty : BodyData K).wheelMass =
      (trainSheet ty : TrainSheet K).carried := by
  refine ⟨?_, ?_, ?_⟩
  · cases ty <;> first | exact absurd rfl hty | (
      simp only [trainSheet, typeData, traxxData, br189Data, doubleDekkerData, sgmData, icmData, sgnsData, falns5Data, tappsData]
      norm_num)
  · intro a ha
    interval_cases a <;> cases ty <;> first | exact absurd rfl hty | (
      simp only [trainSheet, typeData, traxxData, br189Data, doubleDekkerData, sgmData, icmData, sgnsData, falns5Data, tappsData]
      norm_num)
  · cases ty <;> first | exact absurd rfl hty | (
      simp only [trainSheet, typeData, bodyData, traxxData, br189Data, doubleDekkerData, sgmData, icmData, sgnsData, falns5Data,
        tappsData]
      norm_num)

/-- **C122, cargo trains** A cargo train consists of its locomotives followed by its wagons. Locomotive `i` stands `i` pitches behind the
start coordinate, wagon `i` half a locomotive, half a wagon and `i` wagons behind it (see `C67_violated` for several
locomotives); the wheels of every cart stand at the places of its data sheet and carry the mass of the sheet. -/
theorem C122_cargo (start : K) (loco wagon : TrainType) (nLoco nWagon : ℕ) (t : Train K) (x : List K)
    (h : buildFullCargo start loco wagon nLoco nWagon = .ok (t, x)) :
    let l : TrainSheet K := trainSheet loco
    let w : TrainSheet K := trainSheet wagon
    t.carts.length = nLoco + nWagon ∧ x.length = nLoco + nWagon ∧
    (∀ i < nLoco, ∀ a < 4,
      t.startX (fun i => x.getD i 0) (.wheel (2 * i + a / 2) (a % 2)) = start - i * l.pitch + l.axles.getD a 0 ∧
      ∀ g, (totalStaticLoad t g StaticLoads.fresh).wheel (2 * i + a / 2) (a % 2) = some (-l.carried * g)) ∧
    ∀ i < nWagon, ∀ a < 4,
      t.startX (fun i => x.getD i 0) (.wheel (2 * (nLoco + i) + a / 2) (a % 2)) =
        start - l.pitch / 2 - w.pitch / 2 - i * w.pitch + w.axles.getD a 0 ∧
      ∀ g, (totalStaticLoad t g StaticLoads.fresh).wheel (2 * (nLoco + i) + a / 2) (a % 2) = some (-w.carried * g) := by
  obtain ⟨rfl, rfl, r1, r2, r3⟩ := buildFullCargo_eq start loco wagon nLoco nWagon t x h
  obtain ⟨n1, n2⟩ := cargo_notSLT r1 r2
  obtain ⟨a1, a2, a3⟩ := sheet_eq (K := K) loco n1
  obtain ⟨b1, b2, b3⟩ := sheet_eq (K := K) wagon n2
  have hx : ∀ i < nLoco + nWagon, ((List.range (nLoco + nWagon)).map (cargoPlace start loco wagon nLoco)).getD i 0 =
      cargoPlace start loco wagon nLoco i := by
    intro i hi
    simp [hi]
  refine ⟨row_length _ _, by simp, ?_, ?_⟩
  · intro i hi a ha
    have hd : cargoData loco wagon nLoco i = ((typeData loco : TrainData K), bodyData loco) := if_pos hi
    refine ⟨?_, ?_⟩
    · rw [(row_places _ _ _ i (by omega)).2.2 (a / 2) (by omega) (a % 2) (by omega), hx i (by omega), hd, add_assoc, a2 a ha, ← a1,
        cargoPlace, if_pos hi]
    · intro g
      rw [row_load _ _ i (a / 2) (a % 2) (by omega) (by omega) (by omega), hd, a3]
  · intro i hi a ha
    have hni : ¬ nLoco + i < nLoco := by omega
    have hd : cargoData loco wagon nLoco (nLoco + i) = ((typeData wagon : TrainData K), bodyData wagon) := if_neg hni
    refine ⟨?_, ?_⟩
    · rw [(row_places _ _ _ (nLoco + i) (by omega)).2.2 (a / 2) (by omega) (a % 2) (by omega), hx _ (by omega), hd, add_assoc,
        b2 a ha, ← a1, ← b1, cargoPlace, if_neg hni, Nat.add_sub_cancel_left]
      ring
    · intro g
      rw [row_load _ _ (nLoco + i) (a / 2) (a % 2) (by omega) (by omega) (by omega), hd, b3]

/-- **C122, cargo trains: parts apart and behaviour** With one locomotive the parts stand at least a metre apart; with any number raising
the train costs no force and the springs never store negative energy. Missing: several locomotives, which the wagons overlap
(`C67_violated`). -/
theorem C122_cargo_behaviour_partial (start : K) (loco wagon : TrainType) (nLoco nWagon : ℕ) (t : Train K) (x : List K)
    (h : buildFullCargo start loco wagon nLoco nWagon = .ok (t, x)) :
    (nLoco = 1 → t.Apart (fun i => x.getD i 0)) ∧
    ∀ m, t.numbering.next ≤ m → ∀ u : ℕ → K,
      (∀ d, t.Raised u d → ∀ a, matForce m t.stiffness u a = 0 ∧ matForce m t.damping u a = 0) ∧
      0 ≤ matEnergy m t.stiffness u ∧
      ∀ g, t.AtRest g m u → ∀ b j, t.HasPart (.wheel b j) →
        (totalStaticLoad t g StaticLoads.fresh).wheel b j =
          some (t.forceVector g (t.dof (.wheelY b j)) - matForce m t.stiffness u (t.dof (.wheelY b j))) := by
  obtain ⟨rfl, rfl, r1, r2, r3⟩ := buildFullCargo_eq start loco wagon nLoco nWagon t x h
  obtain ⟨n1, n2⟩ := cargo_notSLT r1 r2
  obtain ⟨a1, a2, a3⟩ := typeData_good (K := K) loco n1
  obtain ⟨b1, b2, b3⟩ := typeData_good (K := K) wagon n2
  have good : ∀ i, 1 ≤ 2 * (cargoData loco wagon nLoco i : TrainData K × BodyData K).1.wheel ∧
      1 ≤ 2 * (cargoData loco wagon nLoco i : TrainData K × BodyData K).1.bogie -
        2 * (cargoData loco wagon nLoco i : TrainData K × BodyData K).1.wheel := by
    intro i
    unfold cargoData
    split_ifs
    · exact ⟨a1, a2⟩
    · exact ⟨b1, b2⟩
  constructor
  · rintro rfl
    apply row_apart
    · exact fun i _ => good i
    · intro i j hij hj
      have hj0 : ¬ j < 1 := by omega
      have hx : ∀ i < 1 + nWagon, ((List.range (1 + nWagon)).map (cargoPlace start loco wagon 1)).getD i 0 =
          cargoPlace start loco wagon 1 i := by
        intro i hi
        simp [hi]
      rw [hx j hj, hx i (by omega)]
      unfold cargoPlace cargoData
      rw [if_neg hj0, if_neg hj0]
      by_cases hi : i < 1
      · obtain rfl : i = 0 := (by omega)
        rw [if_pos hi, if_pos hi]
        have : (0 : K) ≤ ((j - 1 : ℕ) : K) := Nat.cast_nonneg _
        simp only [Nat.cast_zero, zero_mul, sub_zero]
        nlinarith
      · rw [if_neg hi, if_neg hi]
        have : ((i - 1 : ℕ) : K) + 1 ≤ ((j - 1 : ℕ) : K) := by exact_mod_cast (by omega)
        simp only
        nlinarith
  · intro m hm u
    obtain ⟨f1, f2, f3⟩ := row_statics (cargoData loco wagon nLoco : ℕ → TrainData K × BodyData K) (nLoco + nWagon)
      (fun i _ => ⟨by have := good i; linarith, by have := good i; linarith⟩)
    refine ⟨fun d hd a => C35_translation_partial _ f1 f2 m hm u d hd a, C36_nonneg_partial _ f1 f2 m hm u ?_ ?_, ?_⟩
    · intro c hc
      obtain ⟨i, hi, rfl⟩ := row_mem_cart _ _ c hc
      refine ⟨?_, ?_⟩
      · unfold cargoData
        split_ifs
        · cases loco <;> simp only [bodyData] <;> norm_num
        · cases wagon <;> simp only [bodyData] <;> norm_num
      · intro f hf
        simp only [List.mem_cons, List.not_mem_nil, or_false, or_self] at hf
        rw [hf]; exact zero_le_one
    · intro b hb
      obtain ⟨i, hi, k, hk, rfl⟩ := (row_mem_bogies _ _ b).1 hb
      rw [row_bogie _ _ i k hi hk]
      refine ⟨?_, ?_⟩
      · unfold cargoData
        split_ifs
        · cases loco <;> simp only [bodyData] <;> norm_num
        · cases wagon <;> simp only [bodyData] <;> norm_num
      · intro f hf
        simp at hf
    · intro g hu b j hp
      exact C114_reactions_partial _ f1 f2 f3 g m hm u hu b hp.1 j hp.2

example : ∃ (t : Train ℚ) (x : List ℚ), buildFullCargo 100 .traxx .cargoTAPPS 1 2 = .ok (t, x) ∧ x.length = 3 ∧
    (totalStaticLoad t 1 StaticLoads.fresh).wheel 5 0 = some (-518333 / 40) := ⟨_, _, rfl, by decide +kernel, by decide +kernel⟩

end Rose
