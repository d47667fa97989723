/-
C122 and C123 for the SLT, the default train with shared bogies.
-/
import Verif.Props.FullTrains
import Verif.Props.TrainRest

set_option linter.unusedSectionVars false

namespace Rose
open Rose.Spec

variable {K : Type*} [Field K] [LinearOrder K] [IsStrictOrderedRing K]

/-- The carts of an SLT with their constants. -/
def sltRow (n : ℕ) : List (BodyData K × DCart K) := (List.range n).map fun i => (bodyData .sprinterSLT, sltCart n i)

theorem setFullTrain_slt (start : K) (n : ℕ) (hn : 2 ≤ n) :
    setFullTrain .sprinterSLT start n = .ok (fullTrain (sltRow n), cartPositions start sltLength n) := by
  have : ¬ n < 2 := by omega
  simp [setFullTrain, setTrain, sltTrain, this, sltRow, Function.comp_def]

/-- Distribution factors of cart `i` of an SLT with `n` carts. -/
def sltFactors (n i : ℕ) : List K := if i = 0 then [1, 1 / 2] else if i = n - 1 then [1 / 2, 1] else [1 / 2, 1 / 2]

theorem slt_cart (n i : ℕ) (c : Cart K) :
    (fullTrain (sltRow n)).carts[i]? = some c ↔ i < n ∧ c = ⟨23000, 36700, 2468000, 50200,
      [(i, sltLength / 2), (i + 1, -(sltLength / 2))], sltFactors n i⟩ := by
  simp only [fullTrain, sltRow, List.map_map, List.getElem?_map, Option.map_eq_some_iff, List.getElem?_eq_some_iff,
    List.length_range, List.getElem_range]
  have e : ∀ i, fullCart (bodyData .sprinterSLT) (sltCart n i : DCart K) = ⟨23000, 36700, 2468000, 50200,
      [(i, sltLength / 2), (i + 1, -(sltLength / 2))], sltFactors n i⟩ := by
    intro i
    simp only [fullCart, bodyData, sltCart, sltBogie, List.map_cons, List.map_nil, List.zip_cons_cons, List.zip_nil_left,
      sltFactors, Cart.mk.injEq, neg_div, and_true, true_and]
    norm_num
  constructor
  · rintro ⟨a, ⟨hi, rfl⟩, rfl⟩
    exact ⟨hi, e _⟩
  · rintro ⟨hi, rfl⟩
    exact ⟨i, ⟨hi, rfl⟩, e i⟩

theorem slt_length (n : ℕ) : (fullTrain (sltRow n : List (BodyData K × DCart K))).carts.length = n := by
  simp [fullTrain, sltRow]

theorem slt_mem_cart (n : ℕ) (c : Cart K) (h : c ∈ (fullTrain (sltRow n)).carts) : ∃ i < n, c = ⟨23000, 36700, 2468000, 50200,
      [(i, sltLength / 2), (i + 1, -(sltLength / 2))], sltFactors n i⟩ := by
  obtain ⟨i, hi, he⟩ := List.mem_iff_getElem.1 h
  exact ⟨i, (slt_cart n i c).1 (by rw [List.getElem?_eq_getElem hi, he])⟩

theorem slt_mem_bogies (n : ℕ) (hn : 1 ≤ n) (b : ℕ) : b ∈ (fullTrain (sltRow n : List (BodyData K × DCart K))).bogies ↔ b ≤ n := by
  rw [Train.mem_bogies]
  constructor
  · rintro ⟨c, hc, d, hd⟩
    obtain ⟨i, hi, rfl⟩ := slt_mem_cart n c hc
    simp only [List.mem_cons, Prod.mk.injEq, List.not_mem_nil, or_false] at hd
    omega
  · intro hb
    by_cases h : b = n
    · subst h
      refine ⟨_, List.mem_of_getElem? ((slt_cart b (b - 1) _).2 ⟨by omega, rfl⟩), -(sltLength / 2), ?_⟩
      rw [Nat.sub_add_cancel hn]
      simp
    · exact ⟨_, List.mem_of_getElem? ((slt_cart n b _).2 ⟨by omega, rfl⟩), sltLength / 2, by simp⟩

theorem slt_bogie (n : ℕ) (hn : 1 ≤ n) (b : ℕ) (hb : b ≤ n) : (fullTrain (sltRow n : List (BodyData K × DCart K))).bogie b =
    ⟨1600, 85, 4400000, 590, [(1500, -(7 / 5)), (1500, 7 / 5)], []⟩ := by
  have hobj : ∀ q : BodyData K × DBogie K, q ∈ bogieObjects (sltRow n) ↔ ∃ i < n, q = (bodyData .sprinterSLT, sltBogie i) ∨
      q = (bodyData .sprinterSLT, sltBogie (i + 1)) := by
    intro q
    simp only [bogieObjects, sltRow, List.mem_flatMap, List.mem_map, List.mem_range, sltCart]
    constructor
    · rintro ⟨p, ⟨i, hi, rfl⟩, d, hd, rfl⟩
      simp only [List.mem_cons, List.not_mem_nil, or_false] at hd
      rcases hd with rfl | rfl
      · exact ⟨i, hi, Or.inl rfl⟩
      · exact ⟨i, hi, Or.inr rfl⟩
    · rintro ⟨i, hi, rfl | rfl⟩
      · exact ⟨_, ⟨i, hi, rfl⟩, sltBogie i, by simp, rfl⟩
      · exact ⟨_, ⟨i, hi, rfl⟩, sltBogie (i + 1), by simp, rfl⟩
  refine lookupBogie_eq _ _ _ ?_ ?_
  · by_cases h : b = n
    · exact ⟨_, (hobj _).2 ⟨b - 1, by omega, Or.inr rfl⟩, by simp only [sltBogie]; omega⟩
    · exact ⟨_, (hobj _).2 ⟨b, by omega, Or.inl rfl⟩, rfl⟩
  · intro q hq _
    obtain ⟨i, -, rfl | rfl⟩ := (hobj q).1 hq <;>
    · simp only [fullBogie, bodyData, sltBogie, List.map_cons, List.map_nil, Bogie.mk.injEq, and_true, true_and, List.cons.injEq,
        Prod.mk.injEq]
      norm_num

theorem sltFactors_two (n i : ℕ) : ∃ f f' : K, sltFactors n i = [f, f'] ∧ 0 < f ∧ 0 < f' ∧ f * (f - f') / (f + f') ≤ 1 / 3 ∧
    f' * (f' - f) / (f + f') ≤ 1 / 3 := by
  unfold sltFactors
  split_ifs
  · exact ⟨1, 1 / 2, rfl, by norm_num, by norm_num, by norm_num, by norm_num⟩
  · exact ⟨1 / 2, 1, rfl, by norm_num, by norm_num, by norm_num, by norm_num⟩
  · exact ⟨1 / 2, 1 / 2, rfl, by norm_num, by norm_num, by norm_num, by norm_num⟩

theorem slt_fit (n : ℕ) (hn : 1 ≤ n) : (fullTrain (sltRow n : List (BodyData K × DCart K))).FactorsFit := by
  refine ⟨?_, ?_⟩
  · intro c hc
    obtain ⟨i, hi, rfl⟩ := slt_mem_cart n c hc
    obtain ⟨f, f', h, -⟩ := sltFactors_two (K := K) n i
    right
    simp only [h]
    rfl
  · intro b hb
    rw [slt_bogie n hn b ((slt_mem_bogies n hn b).1 hb)]
    exact Or.inl rfl

/-- Parts of an SLT. -/
theorem slt_parts (n : ℕ) (hn : 1 ≤ n) (p : TrainPart) : (fullTrain (sltRow n : List (BodyData K × DCart K))).HasPart p ↔ match p with
      | .cart i => i < n
      | .bogie b => b ≤ n
      | .wheel b j => b ≤ n ∧ j < 2 := by
  cases p with
  | cart i => simp only [Train.HasPart, slt_length]
  | bogie b => simp only [Train.HasPart, slt_mem_bogies n hn]
  | wheel b j =>
    simp only [Train.HasPart, slt_mem_bogies n hn]
    constructor
    · rintro ⟨hb, hj⟩
      rw [slt_bogie n hn b hb] at hj
      exact ⟨hb, hj⟩
    · rintro ⟨hb, hj⟩
      rw [slt_bogie n hn b hb]
      exact ⟨hb, hj⟩

/-- Place of bogie `b` of an SLT. -/
def sltPlace (start : K) (b : ℕ) : K := start + 7.785 - b * 15.57

theorem slt_places (start : K) (n : ℕ) (hn : 1 ≤ n) :
    (∀ i < n, (fullTrain (sltRow n)).startX (fun i => (cartPositions start sltLength n).getD i 0) (.cart i) = start - i * 15.57) ∧
    (∀ b ≤ n, (fullTrain (sltRow n)).startX (fun i => (cartPositions start sltLength n).getD i 0) (.bogie b) = sltPlace start b) ∧
    ∀ b ≤ n, ∀ j < 2, (fullTrain (sltRow n)).startX (fun i => (cartPositions start sltLength n).getD i 0) (.wheel b j) =
      sltPlace start b + [-1.4, 1.4].getD j 0 := by
  set x0 : ℕ → K := fun i => (cartPositions start sltLength n).getD i 0 with hx0
  have hx : ∀ i < n, x0 i = start - i * 15.57 := by
    intro i hi
    rw [hx0]
    simp only
    rw [cartPositions_getD _ _ _ _ hi, sltLength]
    norm_num
  -- both carts of a bogie agree on its place
  have agree : ∀ (i : ℕ) (c : Cart K) (p : ℕ × K), (fullTrain (sltRow n)).carts[i]? = some c → p ∈ c.bogies →
      x0 i + p.2 = sltPlace start p.1 := by
    intro i c p hc hp
    obtain ⟨hi, rfl⟩ := (slt_cart n i c).1 hc
    simp only [List.mem_cons, List.not_mem_nil, or_false] at hp
    rw [hx i hi]
    rcases hp with rfl | rfl
    · simp only [sltPlace, sltLength]; norm_num; ring
    · simp only [sltPlace, sltLength]; push_cast; norm_num; ring
  have cartOf : ∀ b ≤ n, ∃ (i : ℕ) (c : Cart K) (d : K), (fullTrain (sltRow n)).carts[i]? = some c ∧ (b, d) ∈ c.bogies := by
    intro b hb
    obtain ⟨c, hc, d, hd⟩ := ((fullTrain (sltRow n : List (BodyData K × DCart K))).mem_bogies b).1 ((slt_mem_bogies n hn b).2 hb)
    obtain ⟨i, hi, he⟩ := List.mem_iff_getElem.1 hc
    exact ⟨i, c, d, by rw [List.getElem?_eq_getElem hi, he], hd⟩
  refine ⟨?_, ?_, ?_⟩
  · intro i hi
    apply writes_eq_of_mem
    · intro w hw he
      obtain ⟨k, c, hc, rfl | ⟨b, hb, rfl | ⟨j, hj, rfl⟩⟩⟩ := (mem_startWrites _ x0 w).1 hw
      · cases he; exact hx i hi
      · cases he
      · cases he
    · exact ⟨(TrainPart.cart i, x0 i), (mem_startWrites _ x0 _).2 ⟨i, _, (slt_cart n i _).2 ⟨hi, rfl⟩, Or.inl rfl⟩, rfl⟩
  · intro b hb
    obtain ⟨i, c, d, hc, hd⟩ := cartOf b hb
    apply writes_eq_of_mem
    · intro w hw he
      obtain ⟨k, c', hc', rfl | ⟨b', hb', rfl | ⟨j, hj, rfl⟩⟩⟩ := (mem_startWrites _ x0 w).1 hw
      · cases he
      · cases he; exact agree k c' b' hc' hb'
      · cases he
    · exact ⟨(TrainPart.bogie b, x0 i + d), (mem_startWrites _ x0 _).2 ⟨i, c, hc, Or.inr ⟨(b, d), hd, Or.inl rfl⟩⟩, rfl⟩
  · intro b hb j hj
    obtain ⟨i, c, d, hc, hd⟩ := cartOf b hb
    have wheels : ∀ b ≤ n, ∀ j < 2, (((fullTrain (sltRow n : List (BodyData K × DCart K))).bogie b).wheels.getD j (0, 0)).2 =
        [-1.4, 1.4].getD j 0 := by
      intro b hb j hj
      rw [slt_bogie n hn b hb]
      interval_cases j <;> simp <;> norm_num
    apply writes_eq_of_mem
    · intro w hw he
      obtain ⟨k, c', hc', rfl | ⟨b', hb', rfl | ⟨j', hj', rfl⟩⟩⟩ := (mem_startWrites _ x0 w).1 hw
      · cases he
      · cases he
      · cases he
        simp only
        rw [agree k c' b' hc' hb', wheels _ hb _ hj]
    · refine ⟨(TrainPart.wheel b j, x0 i + d + (((fullTrain (sltRow n : List (BodyData K × DCart K))).bogie b).wheels.getD j (0, 0)).2),
        (mem_startWrites _ x0 _).2 ⟨i, c, hc, Or.inr ⟨(b, d), hd, Or.inr ⟨j, ?_, rfl⟩⟩⟩, rfl⟩
      simp only
      rw [slt_bogie n hn b hb]
      exact hj

/-- **C122, measuring and weighing the SLT** An SLT of `n` carts has `n + 1` bogies: the first 7.785 m ahead of the start coordinate, the others
15.57 m behind each other, each with wheels 1.4 m behind and ahead of it. The wheels of the first and last bogie carry 8050 kg each, all
others 13800 kg. -/
theorem C122_slt (start : K) (n : ℕ) (t : Train K) (x : List K) (h : setFullTrain .sprinterSLT start n = .ok (t, x)) :
    2 ≤ n ∧ t.carts.length = n ∧ x.length = n ∧ (∀ i < n, x[i]? = some (start - i * 15.57)) ∧
    (∀ b j, t.HasPart (.wheel b j) ↔ b ≤ n ∧ j < 2) ∧
    ∀ b ≤ n, ∀ j < 2,
      t.startX (fun i => x.getD i 0) (.wheel b j) = start + 7.785 - b * 15.57 + [-1.4, 1.4].getD j 0 ∧
      ∀ g, (totalStaticLoad t g StaticLoads.fresh).wheel b j = some (-(if b = 0 ∨ b = n then 8050 else 13800) * g) := by
  have hn : 2 ≤ n := by
    by_contra hlt
    have : n < 2 := by omega
    simp [setFullTrain, setTrain, sltTrain, this] at h
  rw [setFullTrain_slt start n hn] at h
  simp only [Except.ok.injEq, Prod.mk.injEq] at h
  obtain ⟨rfl, rfl⟩ := h
  refine ⟨hn, slt_length n, by simp [cartPositions], ?_, ?_, ?_⟩
  · intro i hi
    simp only [cartPositions, sltLength]
    rw [List.getElem?_map, List.getElem?_range hi]
    simp only [Option.map_some, Option.some.injEq]
    norm_num
  · intro b j
    rw [slt_parts n (by omega)]
  · intro b hb j hj
    refine ⟨(slt_places start n (by omega)).2.2 b hb j hj, ?_⟩
    intro g
    have hbm := (slt_mem_bogies (K := K) n (by omega) b).2 hb
    have hbog := slt_bogie (K := K) n (by omega) b hb
    have h := (totalStaticLoad_spec (fullTrain (sltRow n)) g StaticLoads.fresh _ hbm).2 j (by rw [hbog]; exact hj)
    have hshare : cartShare (fullTrain (sltRow n)) g b = -(if b = 0 ∨ b = n then 1 else 2 : K) * (11500 * g) := by
      unfold cartShare
      have e : (fullTrain (sltRow n : List (BodyData K × DCart K))).carts = (List.range n).map fun i => ⟨23000, 36700, 2468000, 50200,
          [(i, sltLength / 2), (i + 1, -(sltLength / 2))], sltFactors n i⟩ := by
        apply List.ext_getElem?
        intro i
        by_cases hi : i < n
        · rw [(slt_cart n i _).2 ⟨hi, rfl⟩]
          simp [hi]
        · rw [List.getElem?_eq_none (by rw [slt_length]; omega), List.getElem?_eq_none (by simpa using hi)]
      rw [e, List.map_map]
      have e2 : ((List.range n).map ((fun c : Cart K => ((c.bogies.map Prod.fst).count b : K) * (-c.mass * g / c.bogies.length)) ∘
          fun i => (⟨23000, 36700, 2468000, 50200, [(i, sltLength / 2), (i + 1, -(sltLength / 2))], sltFactors n i⟩ : Cart K))) =
          (List.range n).map fun i => (if i = b then -(11500 * g) else 0) + if i + 1 = b then -(11500 * g) else 0 := by
        apply List.map_congr_left
        intro i _
        simp only [Function.comp, List.map_cons, List.map_nil, List.count_cons, List.count_nil, List.length_cons, List.length_nil,
          beq_iff_eq]
        split_ifs <;> (push_cast; try ring)
      have e3 : ((List.range n).map fun i => if i + 1 = b then -(11500 * g) else 0).sum = if b = 0 then 0 else -(11500 * g) := by
        by_cases hb0 : b = 0
        · rw [if_pos hb0]
          apply map_zero_sum
          intro i _
          rw [if_neg (by omega)]
        · rw [if_neg hb0]
          refine Eq.trans ?_ (sum_range_ite n (b - 1) (by omega) fun _ => -(11500 * g))
          congr 1
          apply List.map_congr_left
          intro i _
          have : (i + 1 = b) ↔ (i = b - 1) := by omega
          simp only [this]
      have e4 : ((List.range n).map fun i => if i = b then -(11500 * g) else 0).sum = if b = n then 0 else -(11500 * g) := by
        by_cases hbn : b = n
        · rw [if_pos hbn]
          apply map_zero_sum
          intro i hi
          rw [List.mem_range] at hi
          rw [if_neg (by omega)]
        · rw [if_neg hbn]
          exact sum_range_ite n b (by omega) fun _ => -(11500 * g)
      rw [e2, List.sum_map_add, e3, e4]
      by_cases h0 : b = 0
      · have hbn : ¬ b = n := by omega
        rw [if_pos h0, if_neg hbn, if_pos (Or.inl h0)]; ring
      · by_cases h1 : b = n
        · rw [if_neg h0, if_pos h1, if_pos (Or.inr h1)]; ring
        · rw [if_neg h0, if_neg h1, if_neg (by tauto)]; ring
    rw [h, hshare]
    have hw : wheelOwn (fullTrain (sltRow n)) g b j = -1500 * g := by
      unfold wheelOwn
      rw [hbog]
      interval_cases j <;> rfl
    rw [hw, hbog]
    simp only [StaticLoads.fresh, Option.getD_none, Option.some.injEq, List.length_cons, List.length_nil]
    split_ifs <;> (push_cast; ring)

/-- **C122, the SLT's nodes** Like the other default trains: parts of one kind stand at least one metre apart. -/
theorem C122_slt_apart (start : K) (n : ℕ) (t : Train K) (x : List K) (h : setFullTrain .sprinterSLT start n = .ok (t, x)) :
    t.Apart (fun i => x.getD i 0) ∧ t.Separated (fun i => x.getD i 0) := by
  have hn := (C122_slt start n t x h).1
  rw [setFullTrain_slt start n hn] at h
  simp only [Except.ok.injEq, Prod.mk.injEq] at h
  obtain ⟨rfl, rfl⟩ := h
  obtain ⟨p1, p2, p3⟩ := slt_places start n (by omega)
  have gap : ∀ a b : ℕ, a ≠ b → (1 : K) ≤ |(a : K) - b| := by
    intro a b hab
    rcases lt_or_gt_of_ne hab with h | h
    · have : (a : K) + 1 ≤ b := by exact_mod_cast h
      rw [abs_sub_comm]
      exact le_trans (by linarith) (le_abs_self _)
    · have : (b : K) + 1 ≤ a := by exact_mod_cast h
      exact le_trans (by linarith) (le_abs_self _)
  have far : ∀ a b : ℕ, a ≠ b → ∀ e : K, |e| ≤ 2.8 → 1 ≤ |(b - a) * 15.57 + e| := by
    intro a b hab e he
    have h1 := gap b a (Ne.symm hab)
    have h2 : |((b : K) - a) * 15.57| ≤ |(b - a) * 15.57 + e| + |e| := by
      have := abs_sub ((b - a) * 15.57 + e : K) e
      rwa [add_sub_cancel_right] at this
    rw [abs_mul, abs_of_pos (by norm_num : (0 : K) < 15.57)] at h2
    norm_num at h2 he ⊢
    linarith
  have key : (fullTrain (sltRow n)).Apart fun i => (cartPositions start sltLength n).getD i 0 := by
    intro p q hp hq hne hk
    rw [slt_parts n (by omega)] at hp hq
    cases p with
    | cart i =>
      cases q with
      | cart k =>
        rw [p1 i hp, p1 k hq]
        have := far i k (fun h => hne (by rw [h])) 0 (by norm_num)
        rw [show start - (i : K) * 15.57 - (start - k * 15.57) = (k - i) * 15.57 + 0 by ring]
        exact this
      | bogie _ => simp [TrainPart.kind] at hk
      | wheel _ _ => simp [TrainPart.kind] at hk
    | bogie i =>
      cases q with
      | bogie k =>
        rw [p2 i hp, p2 k hq]
        have := far i k (fun h => hne (by rw [h])) 0 (by norm_num)
        rw [show sltPlace start i - sltPlace start k = (k - i) * 15.57 + 0 by unfold sltPlace; ring]
        exact this
      | cart _ => simp [TrainPart.kind] at hk
      | wheel _ _ => simp [TrainPart.kind] at hk
    | wheel i j =>
      cases q with
      | wheel k l =>
        obtain ⟨hi, hj⟩ := hp
        obtain ⟨hk', hl⟩ := hq
        rw [p3 i hi j hj, p3 k hk' l hl]
        by_cases hik : i = k
        · subst hik
          have hjl : j ≠ l := fun h => hne (by rw [h])
          rw [add_sub_add_left_eq_sub]
          interval_cases j <;> interval_cases l <;> first | exact absurd rfl hjl | (norm_num [abs_of_neg, abs_of_pos])
        · rw [show sltPlace start i + [-1.4, 1.4].getD j 0 - (sltPlace start k + [-1.4, 1.4].getD l 0) =
            (k - i) * 15.57 + ([-1.4, 1.4].getD j 0 - [-1.4, 1.4].getD l 0) by unfold sltPlace; ring]
          apply far i k hik
          interval_cases j <;> interval_cases l <;> norm_num [abs_of_neg, abs_of_pos]
      | cart _ => simp [TrainPart.kind] at hk
      | bogie _ => simp [TrainPart.kind] at hk
  exact ⟨key, key.separated⟩

theorem slt_imbalance (n i : ℕ) : (⟨23000, 36700, 2468000, 50200, [(i, sltLength / 2), (i + 1, -(sltLength / 2))],
    sltFactors n i⟩ : Cart K).imbalance = ((sltFactors n i).getD 0 0 - (sltFactors n i).getD 1 0) * (sltLength / 2) := by
  obtain ⟨f, f', h, -⟩ := sltFactors_two (K := K) n i
  simp only [Cart.imbalance, factorsOrOnes, h]
  simp
  ring

/-- **C122 fails for the behaviour of the SLT** In every SLT the springs under the first cart are not balanced about its centre, which the matrices do
not take into account: raising the whole train by `h` gives a moment of 9 606 690 `h` on the first cart, and there are displacements
with negative energy. -/
theorem C122_slt_violated (start : K) (n : ℕ) (t : Train K) (x : List K) (h : setFullTrain .sprinterSLT start n = .ok (t, x)) (m : ℕ)
    (hm : t.numbering.next ≤ m) :
    (∀ u d, t.Raised u d → matForce m t.stiffness u (t.dof (.cartRot 0)) = 9606690 * d) ∧
    ∃ u : ℕ → K, matEnergy m t.stiffness u < 0 := by
  have hn := (C122_slt start n t x h).1
  rw [setFullTrain_slt start n hn] at h
  simp only [Except.ok.injEq, Prod.mk.injEq] at h
  obtain ⟨rfl, rfl⟩ := h
  have hc := (slt_cart (K := K) n 0 _).2 ⟨by omega, rfl⟩
  have hmom : ∀ (u : ℕ → K) (d : K), (fullTrain (sltRow n)).Raised u d → matForce m (fullTrain (sltRow n)).stiffness u
      ((fullTrain (sltRow n : List (BodyData K × DCart K))).dof (.cartRot 0)) = 9606690 * d := by
    intro u d hu
    rw [(raise_moments _ (slt_fit n (by omega)) m hm u d hu).1 0 _ hc, slt_imbalance]
    simp [sltFactors, sltLength]
    norm_num
    ring
  refine ⟨hmom, ?_⟩
  have hneg := unbalanced_negative (fullTrain (sltRow n : List (BodyData K × DCart K))) (slt_fit n (by omega)) m hm ?_ ?_ ?_
  · obtain ⟨u, hu, -⟩ := hneg
    exact ⟨u, hu⟩
  · intro c hc
    obtain ⟨i, -, rfl⟩ := slt_mem_cart n c hc
    norm_num
  · intro b hb
    rw [slt_bogie n (by omega) b ((slt_mem_bogies n (by omega) b).1 hb)]
    norm_num
  · intro hb
    obtain ⟨u, hu⟩ := (fullTrain (sltRow n : List (BodyData K × DCart K))).exists_vector fun d => match d with
      | .cartY _ | .bogieY _ | .wheelY _ _ => 1
      | .cartRot _ | .bogieRot _ => 0
    have hr : (fullTrain (sltRow n)).Raised u 1 := ⟨fun i hi => ⟨hu (.cartY i) hi, hu (.cartRot i) hi⟩,
      fun b hb => ⟨hu (.bogieY b) hb, hu (.bogieRot b) hb, fun j hj => hu (.wheelY b j) ⟨hb, hj⟩⟩⟩
    have h1 := hmom u 1 hr
    rw [(C35_translation_partial _ (slt_fit n (by omega)) hb m hm u 1 hr _).1] at h1
    norm_num at h1

/-! ### The SLT at rest -/

/-- The forces of two springs at equal distances of the centre of a cart in the equilibrium the matrices describe. -/
theorem pair_share (k f f' d y r y₁ y₂ W : K) (hd : d ≠ 0) (hf : f + f' ≠ 0)
    (h1 : k * f * (y - d * r - y₁) + k * f' * (y - -d * r - y₂) + k * ((f - f') * d) * r = W)
    (h2 : -(d * (k * f * (y - d * r - y₁)) + -d * (k * f' * (y - -d * r - y₂))) + k * ((f - f') * d) * y = 0) :
    k * f * (y - d * r - y₁) = f / (f + f') * (W + k * (f - f') * y₁) ∧
    k * f' * (y - -d * r - y₂) = f' / (f + f') * (W + k * (f' - f) * y₂) := by
  have h2' : k * (f + f') * d * r + k * f * y₁ - k * f' * y₂ = 0 := by
    apply mul_left_cancel₀ hd
    linear_combination h2
  constructor
  · rw [div_mul_eq_mul_div, eq_div_iff hf]
    linear_combination f * h1 - f * h2'
  · rw [div_mul_eq_mul_div, eq_div_iff hf]
    linear_combination f' * h1 + f' * h2'

/-- The force of the carts on bogie `b`, when the carts carry a weight `W` each. -/
def sltAbove (n : ℕ) (W yb : K) (b : ℕ) : K :=
  ((List.range n).map fun i => 
    (if i = b then (sltFactors n i).getD 0 0 / ((sltFactors n i).getD 0 0 + (sltFactors n i).getD 1 0) *
      (W + 2468000 * ((sltFactors n i).getD 0 0 - (sltFactors n i).getD 1 0) * yb) else 0) +
    if i + 1 = b then (sltFactors n i).getD 1 0 / ((sltFactors n i).getD 0 0 + (sltFactors n i).getD 1 0) *
      (W + 2468000 * ((sltFactors n i).getD 1 0 - (sltFactors n i).getD 0 0) * yb) else 0).sum

/-- Equations of an SLT whose carts are in equilibrium. -/
theorem slt_equations (n : ℕ) (hn : 1 ≤ n) (m : ℕ) (t : Train K) (ht : t = fullTrain (sltRow n)) (hm : t.numbering.next ≤ m)
    (u : ℕ → K) (W : K)
    (h1 : ∀ i < n, matForce m t.stiffness u (t.dof (.cartY i)) = W)
    (h2 : ∀ i < n, matForce m t.stiffness u (t.dof (.cartRot i)) = 0) :
    let v : TrainDof → K := fun e => u (t.dof e)
    (∀ b ≤ n, matForce m t.stiffness u (t.dof (.bogieY b)) =
      4400000 * (v (.bogieY b) + 7 / 5 * v (.bogieRot b) - v (.wheelY b 0)) +
      4400000 * (v (.bogieY b) - 7 / 5 * v (.bogieRot b) - v (.wheelY b 1)) - sltAbove n W (v (.bogieY b)) b) ∧
    (∀ b ≤ n, matForce m t.stiffness u (t.dof (.bogieRot b)) =
      7 / 5 * (4400000 * (v (.bogieY b) + 7 / 5 * v (.bogieRot b) - v (.wheelY b 0))) -
      7 / 5 * (4400000 * (v (.bogieY b) - 7 / 5 * v (.bogieRot b) - v (.wheelY b 1)))) ∧
    (∀ b ≤ n, matForce m t.stiffness u (t.dof (.wheelY b 0)) =
      -(4400000 * (v (.bogieY b) + 7 / 5 * v (.bogieRot b) - v (.wheelY b 0)))) ∧
    (∀ b ≤ n, matForce m t.stiffness u (t.dof (.wheelY b 1)) =
      -(4400000 * (v (.bogieY b) - 7 / 5 * v (.bogieRot b) - v (.wheelY b 1)))) ∧
    ∀ i < n, ∃ f f' : K, 0 < f ∧ 0 < f' ∧
      2468000 * f * (v (.cartY i) - sltLength / 2 * v (.cartRot i) - v (.bogieY i)) +
        2468000 * f' * (v (.cartY i) - -(sltLength / 2) * v (.cartRot i) - v (.bogieY (i + 1))) +
        2468000 * ((f - f') * (sltLength / 2)) * v (.cartRot i) = W ∧
      -(sltLength / 2 * (2468000 * f * (v (.cartY i) - sltLength / 2 * v (.cartRot i) - v (.bogieY i))) +
        -(sltLength / 2) * (2468000 * f' * (v (.cartY i) - -(sltLength / 2) * v (.cartRot i) - v (.bogieY (i + 1))))) +
        2468000 * ((f - f') * (sltLength / 2)) * v (.cartY i) = 0 := by
  intro v
  have hf : t.FactorsFit := ht ▸ slt_fit n hn
  have hL : (sltLength / 2 : K) ≠ 0 := by norm_num [sltLength]
  have forces := C114_forces t hf m hm u
  -- the springs of a cart
  have springs : ∀ i < n, ∃ f f' : K, sltFactors n i = [f, f'] ∧ 0 < f ∧ 0 < f' ∧
      (t.carts[i]?.toList).flatMap (cartSprings v i) =
        [(i, sltLength / 2, 2468000 * f * (v (.cartY i) - sltLength / 2 * v (.cartRot i) - v (.bogieY i))),
         (i + 1, -(sltLength / 2), 2468000 * f' * (v (.cartY i) - -(sltLength / 2) * v (.cartRot i) - v (.bogieY (i + 1))))] ∧
      2468000 * f * (v (.cartY i) - sltLength / 2 * v (.cartRot i) - v (.bogieY i)) +
        2468000 * f' * (v (.cartY i) - -(sltLength / 2) * v (.cartRot i) - v (.bogieY (i + 1))) +
        2468000 * ((f - f') * (sltLength / 2)) * v (.cartRot i) = W ∧
      -(sltLength / 2 * (2468000 * f * (v (.cartY i) - sltLength / 2 * v (.cartRot i) - v (.bogieY i))) +
        -(sltLength / 2) * (2468000 * f' * (v (.cartY i) - -(sltLength / 2) * v (.cartRot i) - v (.bogieY (i + 1))))) +
        2468000 * ((f - f') * (sltLength / 2)) * v (.cartY i) = 0 := by
    intro i hi
    have hi' : i < t.carts.length := by rw [ht, slt_length]; exact hi
    obtain ⟨f, f', h, hf0, hf1, -⟩ := sltFactors_two (K := K) n i
    have hc := (slt_cart (K := K) n i _).2 ⟨hi, rfl⟩
    rw [← ht] at hc
    have e : (t.carts[i]?.toList).flatMap (cartSprings v i) =
        [(i, sltLength / 2, 2468000 * f * (v (.cartY i) - sltLength / 2 * v (.cartRot i) - v (.bogieY i))),
         (i + 1, -(sltLength / 2), 2468000 * f' * (v (.cartY i) - -(sltLength / 2) * v (.cartRot i) - v (.bogieY (i + 1))))] := by
      rw [hc]
      simp only [Option.toList_some, List.flatMap_cons, List.flatMap_nil, List.append_nil, cartSprings, factorsOrOnes, h]
      simp
    have him : (⟨23000, 36700, 2468000, 50200, [(i, sltLength / 2), (i + 1, -(sltLength / 2))],
        sltFactors n i⟩ : Cart K).imbalance = (f - f') * (sltLength / 2) := by
      rw [slt_imbalance, h]; rfl
    have e1 := (forces (.cartY i) hi').symm.trans (h1 i hi)
    have e2 := (forces (.cartRot i) hi').symm.trans (h2 i hi)
    refine ⟨f, f', h, hf0, hf1, e, ?_, ?_⟩
    · have e1' : springForceAt t v (.cartY i) + imbalanceForce t v (.cartY i) = W := e1
      simp only [springForceAt, imbalanceForce, e] at e1'
      rw [hc] at e1'
      simp only [Option.toList_some, List.map_cons, List.map_nil, List.sum_cons, List.sum_nil, add_zero, him] at e1'
      exact e1'
    · have e2' : springForceAt t v (.cartRot i) + imbalanceForce t v (.cartRot i) = 0 := e2
      simp only [springForceAt, imbalanceForce, e] at e2'
      rw [hc] at e2'
      simp only [Option.toList_some, List.map_cons, List.map_nil, List.sum_cons, List.sum_nil, add_zero, him] at e2'
      exact e2'
  -- the springs above a bogie
  have above : ∀ b, ((List.range t.carts.length).flatMap fun i => (t.carts[i]?.toList).flatMap fun c =>
      (cartSprings v i c).map fun p => if p.1 = b then p.2.2 else 0).sum = sltAbove n W (v (.bogieY b)) b := by
    intro b
    rw [sum_flat, ht, slt_length, ← ht]
    unfold sltAbove
    congr 1
    apply List.map_congr_left
    intro i hi
    rw [List.mem_range] at hi
    obtain ⟨f, f', h, hf0, hf1, e, e1, e2⟩ := springs i hi
    obtain ⟨s1, s2⟩ := pair_share _ f f' _ _ _ _ _ _ hL (by positivity) e1 e2
    have hmap : ((t.carts[i]?.toList).flatMap fun c => (cartSprings v i c).map fun p => if p.1 = b then p.2.2 else 0) =
        ((t.carts[i]?.toList).flatMap (cartSprings v i)).map fun p => if p.1 = b then p.2.2 else 0 := by
      rw [List.map_flatMap]
    rw [hmap, e, h]
    simp only [List.map_cons, List.map_nil, List.sum_cons, List.sum_nil, add_zero, List.getD_cons_zero, List.getD_cons_succ]
    congr 1
    · by_cases hb : i = b
      · subst hb; rw [if_pos rfl, if_pos rfl, s1]
      · rw [if_neg hb, if_neg hb]
    · by_cases hb : i + 1 = b
      · subst hb; rw [if_pos rfl, if_pos rfl, s2]
      · rw [if_neg hb, if_neg hb]
  -- the springs of a bogie
  have low : ∀ b ≤ n, bogieSprings v b (t.bogie b) =
      [(0, -(7 / 5), 4400000 * (v (.bogieY b) + 7 / 5 * v (.bogieRot b) - v (.wheelY b 0))),
       (1, 7 / 5, 4400000 * (v (.bogieY b) - 7 / 5 * v (.bogieRot b) - v (.wheelY b 1)))] := by
    intro b hb
    rw [ht, slt_bogie n hn b hb]
    simp [bogieSprings, factorsOrOnes, List.range_succ, List.replicate]
  have him : ∀ b ≤ n, (t.bogie b).imbalance = 0 := by
    intro b hb
    rw [ht, slt_bogie n hn b hb]
    simp [Bogie.imbalance, factorsOrOnes, List.replicate]
  have part : ∀ b ≤ n, b ∈ t.bogies ∧ ∀ j < 2, t.HasDof (.wheelY b j) := by
    intro b hb
    have := (slt_mem_bogies (K := K) n hn b).2 hb
    rw [← ht] at this
    refine ⟨this, fun j hj => ⟨this, ?_⟩⟩
    rw [ht, slt_bogie n hn b hb]
    exact hj
  refine ⟨?_, ?_, ?_, ?_, ?_⟩
  · intro b hb
    rw [forces (.bogieY b) (part b hb).1]
    change springForceAt t v (.bogieY b) + imbalanceForce t v (.bogieY b) = _
    simp only [springForceAt, imbalanceForce, low b hb, him b hb, above b]
    simp
  · intro b hb
    rw [forces (.bogieRot b) (part b hb).1]
    change springForceAt t v (.bogieRot b) + imbalanceForce t v (.bogieRot b) = _
    simp only [springForceAt, imbalanceForce, low b hb, him b hb]
    simp
    ring
  · intro b hb
    rw [forces (.wheelY b 0) ((part b hb).2 0 (by omega))]
    change springForceAt t v (.wheelY b 0) + imbalanceForce t v (.wheelY b 0) = _
    simp only [springForceAt, imbalanceForce, low b hb]
    simp
  · intro b hb
    rw [forces (.wheelY b 1) ((part b hb).2 1 (by omega))]
    change springForceAt t v (.wheelY b 1) + imbalanceForce t v (.wheelY b 1) = _
    simp only [springForceAt, imbalanceForce, low b hb]
    simp
  · intro i hi
    obtain ⟨f, f', -, hf0, hf1, -, e1, e2⟩ := springs i hi
    exact ⟨f, f', hf0, hf1, e1, e2⟩

theorem sum_range_hit (n b : ℕ) (g : ℕ → K) : ((List.range n).map fun i => if i = b then g i else 0).sum = if b < n then g b else 0 := by
  by_cases h : b < n
  · rw [if_pos h, sum_range_ite n b h]
  · rw [if_neg h]
    apply map_zero_sum
    intro i hi
    rw [List.mem_range] at hi
    rw [if_neg (by omega)]

theorem sum_range_hit_succ (n b : ℕ) (g : ℕ → K) :
    ((List.range n).map fun i => if i + 1 = b then g i else 0).sum = if 1 ≤ b ∧ b ≤ n then g (b - 1) else 0 := by
  by_cases h : 1 ≤ b ∧ b ≤ n
  · rw [if_pos h]
    refine Eq.trans ?_ (sum_range_ite n (b - 1) (by omega) g)
    congr 1
    apply List.map_congr_left
    intro i _
    have : (i + 1 = b) ↔ (i = b - 1) := by omega
    simp only [this]
  · rw [if_neg h]
    apply map_zero_sum
    intro i hi
    rw [List.mem_range] at hi
    rw [if_neg (by omega)]

theorem sltAbove_eq (n : ℕ) (W yb : K) (b : ℕ) : sltAbove n W yb b =
    (if b < n then (sltFactors n b).getD 0 0 / ((sltFactors n b).getD 0 0 + (sltFactors n b).getD 1 0) *
      (W + 2468000 * ((sltFactors n b).getD 0 0 - (sltFactors n b).getD 1 0) * yb) else 0) +
    if 1 ≤ b ∧ b ≤ n then (sltFactors n (b - 1)).getD 1 0 / ((sltFactors n (b - 1)).getD 0 0 + (sltFactors n (b - 1)).getD 1 0) *
      (W + 2468000 * ((sltFactors n (b - 1)).getD 1 0 - (sltFactors n (b - 1)).getD 0 0) * yb) else 0 := by
  unfold sltAbove
  rw [List.sum_map_add]
  congr 1
  · exact sum_range_hit n b fun i => (sltFactors n i).getD 0 0 / ((sltFactors n i).getD 0 0 + (sltFactors n i).getD 1 0) *
      (W + 2468000 * ((sltFactors n i).getD 0 0 - (sltFactors n i).getD 1 0) * yb)
  · exact sum_range_hit_succ n b fun i => (sltFactors n i).getD 1 0 / ((sltFactors n i).getD 0 0 + (sltFactors n i).getD 1 0) *
      (W + 2468000 * ((sltFactors n i).getD 1 0 - (sltFactors n i).getD 0 0) * yb)

theorem sltAbove_zero (n : ℕ) (yb : K) (b : ℕ) : ∃ c : K, c < 8800000 ∧ sltAbove n 0 yb b = c * yb := by
  rw [sltAbove_eq]
  obtain ⟨f, f', h, hf, hf', h1, -⟩ := sltFactors_two (K := K) n b
  obtain ⟨e, e', k, he, he', -, k1⟩ := sltFactors_two (K := K) n (b - 1)
  rw [h, k]
  simp only [List.getD_cons_zero, List.getD_cons_succ, zero_add]
  refine ⟨(if b < n then 2468000 * (f * (f - f') / (f + f')) else 0) +
    if 1 ≤ b ∧ b ≤ n then 2468000 * (e' * (e' - e) / (e + e')) else 0, ?_, ?_⟩
  · split_ifs <;> linarith
  · split_ifs <;> ring

/-- **C123 for the SLT** Every SLT, although its springs are not balanced, has exactly one position of rest for every displacement of its wheels and
every force on its bodies. -/
theorem C123_slt (start : K) (n : ℕ) (t : Train K) (x : List K) (h : setFullTrain .sprinterSLT start n = .ok (t, x))
    (F : TrainDof → K) (w : ℕ → ℕ → K) :
    ∃ u, t.RestsOn F w u ∧ ∀ u', t.RestsOn F w u' → ∀ d, t.HasDof d → u' (t.dof d) = u (t.dof d) := by
  have hn := (C122_slt start n t x h).1
  rw [setFullTrain_slt start n hn] at h
  simp only [Except.ok.injEq, Prod.mk.injEq] at h
  obtain ⟨ht, rfl⟩ := h
  have ht := ht.symm
  have hn1 : 1 ≤ n := by omega
  have hcart : ∀ i, i < t.carts.length ↔ i < n := fun i => by rw [ht, slt_length]
  have hbog : ∀ b, b ∈ t.bogies ↔ b ≤ n := fun b => by rw [ht, slt_mem_bogies n hn1]
  have hwheel : ∀ b j, t.HasDof (.wheelY b j) ↔ b ≤ n ∧ j < 2 := by
    intro b j
    have := slt_parts (K := K) n hn1 (.wheel b j)
    rw [← ht] at this
    exact this
  apply rest_of_still
  intro U hW hU
  obtain ⟨q1, q2, -, -, q5⟩ := slt_equations n hn1 _ t ht le_rfl U 0
    (fun i hi => hU (.cartY i) ((hcart i).2 hi) (by intro b j h; cases h))
    (fun i hi => hU (.cartRot i) ((hcart i).2 hi) (by intro b j h; cases h))
  have bog : ∀ b ≤ n, U (t.dof (.bogieY b)) = 0 ∧ U (t.dof (.bogieRot b)) = 0 := by
    intro b hb
    have e1 := (q1 b hb).symm.trans (hU (.bogieY b) ((hbog b).2 hb) (by intro b j h; cases h))
    have e2 := (q2 b hb).symm.trans (hU (.bogieRot b) ((hbog b).2 hb) (by intro b j h; cases h))
    obtain ⟨c, hc, hA⟩ := sltAbove_zero n (U (t.dof (.bogieY b))) b
    simp only [hW b 0 ((hwheel b 0).2 ⟨hb, by omega⟩), hW b 1 ((hwheel b 1).2 ⟨hb, by omega⟩), hA] at e1 e2
    constructor
    · have : (8800000 - c) * U (t.dof (.bogieY b)) = 0 := by linear_combination e1
      rcases mul_eq_zero.1 this with h | h
      · linarith
      · exact h
    · linear_combination (1 / 17248000) * e2
  intro d hd
  cases d with
  | wheelY b j => exact hW b j hd
  | bogieY b => exact (bog b ((hbog b).1 hd)).1
  | bogieRot b => exact (bog b ((hbog b).1 hd)).2
  | cartY i =>
    have hi := (hcart i).1 hd
    obtain ⟨f, f', hf, hf', e1, e2⟩ := q5 i hi
    simp only [(bog i (by omega)).1, (bog (i + 1) (by omega)).1] at e1
    have : (2468000 * (f + f')) * U (t.dof (.cartY i)) = 0 := by linear_combination e1
    exact (mul_eq_zero.1 this).resolve_left (by positivity)
  | cartRot i =>
    have hi := (hcart i).1 hd
    obtain ⟨f, f', hf, hf', e1, e2⟩ := q5 i hi
    simp only [(bog i (by omega)).1, (bog (i + 1) (by omega)).1] at e2
    have : (2468000 * (f + f') * (sltLength / 2) ^ 2) * U (t.dof (.cartRot i)) = 0 := by linear_combination e2
    refine (mul_eq_zero.1 this).resolve_left ?_
    have : (0 : K) < sltLength := by norm_num [sltLength]
    positivity

/-- **C122 fails for the weights of the SLT** Standing on level wheels, every SLT presses with 64854500/5983 ≈ 10840 kg under each wheel of its first
bogie, where the loads it reports, and applies to the track, are 8050 kg. -/
theorem C122_slt_loads_violated (start : K) (n : ℕ) (t : Train K) (x : List K) (h : setFullTrain .sprinterSLT start n = .ok (t, x)) (g : K) :
    (∃ u, t.AtRest g t.numbering.next u ∧ ∀ b j, t.HasPart (.wheel b j) → u (t.dof (.wheelY b j)) = 0) ∧
    ∀ u, t.AtRest g t.numbering.next u → (∀ b j, t.HasPart (.wheel b j) → u (t.dof (.wheelY b j)) = 0) → ∀ j < 2,
      t.forceVector g (t.dof (.wheelY 0 j)) - matForce t.numbering.next t.stiffness u (t.dof (.wheelY 0 j)) = -(64854500 / 5983) * g ∧
      (totalStaticLoad t g StaticLoads.fresh).wheel 0 j = some (-8050 * g) := by
  obtain ⟨hn, -, -, -, hp, hw⟩ := C122_slt start n t x h
  have hrest := C123_slt start n t x h (fun d => t.forceVector g (t.dof d)) fun _ _ => 0
  have hload : ∀ j < 2, (totalStaticLoad t g StaticLoads.fresh).wheel 0 j = some (-8050 * g) := by
    intro j hj
    rw [(hw 0 (by omega) j hj).2 g, if_pos (Or.inl rfl)]
  rw [setFullTrain_slt start n hn] at h
  simp only [Except.ok.injEq, Prod.mk.injEq] at h
  obtain ⟨ht, rfl⟩ := h
  have ht := ht.symm
  have hn1 : 1 ≤ n := by omega
  refine ⟨?_, ?_⟩
  · obtain ⟨u, ⟨h1, h2⟩, -⟩ := hrest
    exact ⟨u, h2, h1⟩
  · intro u hu hu0 j hj
    refine ⟨?_, hload j hj⟩
    obtain ⟨w1, w2, -, -⟩ := C100_weight t g
    have hcart : ∀ i, i < t.carts.length ↔ i < n := fun i => by rw [ht, slt_length]
    have hbog : 0 ∈ t.bogies := by rw [ht, slt_mem_bogies n hn1]; omega
    have hb0 := slt_bogie (K := K) n hn1 0 (by omega)
    rw [← ht] at hb0
    obtain ⟨q1, q2, q3, q4, -⟩ := slt_equations n hn1 _ t ht le_rfl u (-23000 * g)
      (fun i hi => by
        have hc := (slt_cart (K := K) n i _).2 ⟨hi, rfl⟩
        rw [← ht] at hc
        rw [hu (.cartY i) ((hcart i).2 hi) (by intro b j h; cases h), w1 (.cartY i) ((hcart i).2 hi) trivial]
        simp only [Train.bodyInertia, hc, Option.map_some, Option.getD_some])
      (fun i hi => by
        rw [hu (.cartRot i) ((hcart i).2 hi) (by intro b j h; cases h), w2 (.cartRot i) ((hcart i).2 hi) (fun h => h)])
    have e1 := (q1 0 (by omega)).symm.trans (hu (.bogieY 0) hbog (by intro b j h; cases h))
    have e2 := (q2 0 (by omega)).symm.trans (hu (.bogieRot 0) hbog (by intro b j h; cases h))
    rw [w1 (.bogieY 0) hbog trivial] at e1
    rw [w2 (.bogieRot 0) hbog (fun h => h)] at e2
    simp only [Train.bodyInertia, hb0, hu0 0 0 ((hp 0 0).2 ⟨by omega, by omega⟩), hu0 0 1 ((hp 0 1).2 ⟨by omega, by omega⟩)] at e1 e2
    have hA : ∀ W y : K, sltAbove n W y 0 = 2 / 3 * (W + 1234000 * y) := by
      intro W y
      rw [sltAbove_eq, if_pos (by omega), if_neg (by omega)]
      simp only [sltFactors, if_true, List.getD_cons_zero, List.getD_cons_succ]
      norm_num
    rw [hA] at e1
    have hj' : t.HasDof (.wheelY 0 j) := (hp 0 j).2 ⟨by omega, hj⟩
    rw [w1 (.wheelY 0 j) hj' trivial]
    have hy : u (t.dof (.bogieY 0)) = -(127 / 59830) * g := by linear_combination (3 / 23932000) * e1
    have hr : u (t.dof (.bogieRot 0)) = 0 := by linear_combination (1 / 17248000) * e2
    interval_cases j
    · rw [q3 0 (by omega)]
      simp only [hu0 0 0 ((hp 0 0).2 ⟨by omega, by omega⟩), hy, hr, Train.bodyInertia, hb0, List.getElem?_cons_zero, Option.map_some, Option.getD_some]
      ring
    · rw [q4 0 (by omega)]
      simp only [hu0 0 1 ((hp 0 1).2 ⟨by omega, by omega⟩), hy, hr, Train.bodyInertia, hb0, List.getElem?_cons_succ, List.getElem?_cons_zero, Option.map_some, Option.getD_some]
      ring

theorem constants_positive (ty : TrainType) (hty : ty ≠ .sprinterSLT) :
    0 < (typeData ty : TrainData K).mass ∧ 0 < (bodyData ty : BodyData K).cartInertia ∧ 0 < (bodyData ty : BodyData K).cartStiffness ∧
    0 < (bodyData ty : BodyData K).cartDamping ∧ 0 < (bodyData ty : BodyData K).bogieMass ∧ 0 < (bodyData ty : BodyData K).bogieInertia ∧
    0 < (bodyData ty : BodyData K).bogieStiffness ∧ 0 < (bodyData ty : BodyData K).bogieDamping ∧
    0 < (bodyData ty : BodyData K).wheelMass := by
  cases ty <;> first | exact absurd rfl hty | (
    simp only [typeData, bodyData, traxxData, br189Data, doubleDekkerData, sgmData, icmData, sgnsData, falns5Data, tappsData]; norm_num)

/-- C123 for the other default trains: one position of rest, and one solution of every time step. -/
theorem C123_default (ty : TrainType) (hty : ty ≠ .sprinterSLT) (start : K) (n : ℕ) (t : Train K) (x : List K)
    (h : setFullTrain ty start n = .ok (t, x)) :
    (∀ (F : TrainDof → K) (w : ℕ → ℕ → K),
      ∃ u, t.RestsOn F w u ∧ ∀ u', t.RestsOn F w u' → ∀ d, t.HasDof d → u' (t.dof d) = u (t.dof d)) ∧
    ∀ a b c : K, 0 < a → 0 ≤ b → 0 ≤ c →
      Spec.UniquelySolvable t.numbering.next fun i j => a * t.massMatrix i j + b * t.damping i j + c * t.stiffness i j := by
  rw [setFullTrain_eq ty hty] at h
  simp only [Except.ok.injEq, Prod.mk.injEq] at h
  obtain ⟨rfl, -⟩ := h
  obtain ⟨h1, h2, -⟩ := typeData_good (K := K) ty hty
  have hbog : 0 < (typeData ty : TrainData K).bogie := by linarith
  have hwh : 0 < (typeData ty : TrainData K).wheel := by linarith
  obtain ⟨m1, m2, m3, m4, m5, m6, m7, m8, m9⟩ := constants_positive (K := K) ty hty
  obtain ⟨f1, f2, -⟩ := row_statics (fun _ => ((typeData ty : TrainData K), bodyData ty)) n fun _ _ => ⟨hbog, hwh⟩
  have hs : (fullTrain (dataRow (fun _ => ((typeData ty : TrainData K), bodyData ty)) n)).Sprung := by
    constructor
    · intro c hc
      obtain ⟨i, hi, rfl⟩ := row_mem_cart _ n c hc
      refine ⟨m3, ?_, _, List.mem_cons_self .., _, List.mem_cons_of_mem _ (List.mem_cons_self ..), ?_⟩
      · intro f hf
        simp only [List.mem_cons, List.not_mem_nil, or_false] at hf
        rcases hf with rfl | rfl <;> exact zero_lt_one
      · simp only; intro h; linarith
    · intro b hb
      obtain ⟨i, hi, k, hk, rfl⟩ := (row_mem_bogies _ n b).1 hb
      rw [row_bogie _ n i k hi hk]
      refine ⟨m7, by simp, _, List.mem_cons_self .., _, List.mem_cons_of_mem _ (List.mem_cons_self ..), ?_⟩
      simp only; intro h; linarith
  refine ⟨fun F w => C123_rest_partial _ f1 f2 hs F w, fun a b c ha hb hc => C123_steps_partial _ f1 f2 hs ?_ ?_ a b c ha hb hc⟩
  · intro c hc
    obtain ⟨i, hi, rfl⟩ := row_mem_cart _ n c hc
    exact ⟨m1, m2, m4.le⟩
  · intro b hb
    obtain ⟨i, hi, k, hk, rfl⟩ := (row_mem_bogies _ n b).1 hb
    rw [row_bogie _ n i k hi hk]
    refine ⟨m5, m6, m8.le, ?_⟩
    intro w hw
    simp only [List.mem_cons, List.not_mem_nil, or_false] at hw
    rcases hw with rfl | rfl <;> exact m9

/-- The SLT with two carts. -/
example : ∃ t x, setFullTrain .sprinterSLT (100 : ℚ) 2 = .ok (t, x) := ⟨_, _, setFullTrain_slt 100 2 le_rfl⟩

end Rose
