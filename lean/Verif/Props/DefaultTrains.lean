import Verif.Model.DefaultTrains
import Mathlib.Tactic.Linarith
import Mathlib.Tactic.NormNum
import Mathlib.Tactic.Ring
import Mathlib.Data.List.GetD
import Mathlib.Tactic.FieldSimp

set_option linter.unusedSectionVars false

namespace Rose

variable {K : Type*} [Field K] [LinearOrder K] [IsStrictOrderedRing K]

/-! ### C65: default trains are couplable -/

/-- A cart whose lists match: as many bogie offsets and distribution factors as bogies, in each bogie as many wheel offsets as
wheels, a bogie as long as its wheels are apart. -/
structure DCart.Consistent (c : DCart K) : Prop where
  positive : 0 < c.length
  bogies : c.bogieDistances.length = c.bogies.length ∧ c.distribution.length = c.bogies.length
  centred : c.bogieDistances.sum = 0
  inside : ∀ d ∈ c.bogieDistances, -(c.length / 2) ≤ d ∧ d ≤ c.length / 2
  wheels : ∀ b ∈ c.bogies, b.wheelDistances.length = b.wheels ∧ b.wheelDistances.sum = 0 ∧
    ∃ w, b.wheelDistances = [-w, w] ∧ 0 < w ∧ b.length = 2 * w

/-- Data that make sense. -/
structure TrainData.Good (d : TrainData K) : Prop where
  length : 0 < d.length
  bogie : 0 ≤ d.bogie
  inside : d.bogie + d.wheel ≤ d.length / 2
  wheel : 0 < d.wheel
  bogieLength : d.bogieLength = 2 * d.wheel

theorem dataCart_consistent (d : TrainData K) (h : d.Good) (i : ℕ) : (dataCart d i).Consistent := by
  obtain ⟨h1, h2, h3, h4, h5⟩ := h
  refine ⟨h1, ⟨rfl, rfl⟩, by simp [dataCart], ?_, ?_⟩
  · intro x hx
    simp only [dataCart, List.mem_cons, List.not_mem_nil, or_false] at hx ⊢
    rcases hx with rfl | rfl <;> constructor <;> linarith
  · intro b hb
    simp only [dataCart, List.mem_cons, List.not_mem_nil, or_false] at hb
    rcases hb with rfl | rfl <;> exact ⟨rfl, by simp, d.wheel, rfl, h4, h5⟩

theorem sltCart_consistent (n i : ℕ) : (sltCart n i : DCart K).Consistent := by
  refine ⟨by simp only [sltCart, sltLength]; norm_num, ⟨rfl, ?_⟩, ?_, ?_, ?_⟩
  · unfold sltCart; simp only; split_ifs <;> rfl
  · simp only [sltCart, List.sum_cons, List.sum_nil]; ring
  · intro x hx
    simp only [sltCart, sltLength, List.mem_cons, List.not_mem_nil, or_false] at hx ⊢
    rcases hx with rfl | rfl <;> constructor <;> norm_num
  · intro b hb
    simp only [sltCart, List.mem_cons, List.not_mem_nil, or_false] at hb
    rcases hb with rfl | rfl <;> exact ⟨rfl, by simp [sltBogie], 14 / 10, rfl, by norm_num, by simp only [sltBogie]; norm_num⟩

theorem good_data : (traxxData : TrainData K).Good ∧ (br189Data : TrainData K).Good ∧ (doubleDekkerData : TrainData K).Good ∧
    (sgmData : TrainData K).Good ∧ (icmData : TrainData K).Good ∧ (sgnsData : TrainData K).Good ∧
    (falns5Data : TrainData K).Good ∧ (tappsData : TrainData K).Good := by
  refine ⟨?_, ?_, ?_, ?_, ?_, ?_, ?_, ?_⟩ <;> constructor <;>
    simp only [traxxData, br189Data, doubleDekkerData, sgmData, icmData, sgnsData, falns5Data, tappsData] <;> norm_num

theorem dataTrain_spec (d : TrainData K) (h : d.Good) (start : K) (n : ℕ) :
    (dataTrain d start n).carts.length = n ∧ (dataTrain d start n).cartDistances.length = n ∧
    ∃ L, (∀ c ∈ (dataTrain d start n).carts, c.length = L ∧ c.Consistent) ∧
      ∀ i, i < n → (dataTrain d start n).cartDistances[i]? = some (start - i * L) := by
  refine ⟨by simp [dataTrain], by simp [dataTrain, cartPositions], d.length, ?_, ?_⟩
  · intro c hc
    simp only [dataTrain, List.mem_map] at hc
    obtain ⟨i, -, rfl⟩ := hc
    exact ⟨rfl, dataCart_consistent d h i⟩
  · intro i hi
    simp only [dataTrain, cartPositions]
    rw [List.getElem?_map, List.getElem?_range hi]; rfl

/-- **C65** Every default train, for every type, start coordinate and number of carts for which it is built: as many carts as asked for, all
of the same length `L`, the `i`-th one at the start coordinate minus `i * L`, and every cart consistent. -/
theorem C65_couplable (ty : TrainType) (start : K) (n : ℕ) (t : DTrain K) (h : setTrain ty start n = .ok t) :
    t.carts.length = n ∧ t.cartDistances.length = n ∧
    ∃ L, (∀ c ∈ t.carts, c.length = L ∧ c.Consistent) ∧ ∀ i, i < n → t.cartDistances[i]? = some (start - i * L) := by
  obtain ⟨g1, g2, g3, g4, g5, g6, g7, g8⟩ := good_data (K := K)
  cases ty with
  | doubleDekker => cases h; exact dataTrain_spec _ g3 start n
  | sprinterSGM => cases h; exact dataTrain_spec _ g4 start n
  | icm => cases h; exact dataTrain_spec _ g5 start n
  | cargoFALNS5 => cases h; exact dataTrain_spec _ g7 start n
  | cargoSGNS => cases h; exact dataTrain_spec _ g6 start n
  | cargoTAPPS => cases h; exact dataTrain_spec _ g8 start n
  | traxx => cases h; exact dataTrain_spec _ g1 start n
  | br189 => cases h; exact dataTrain_spec _ g2 start n
  | sprinterSLT =>
    simp only [setTrain, sltTrain] at h
    split_ifs at h with hn
    cases h
    refine ⟨by simp, by simp [cartPositions], sltLength, ?_, ?_⟩
    · intro c hc
      simp only [List.mem_map] at hc
      obtain ⟨i, -, rfl⟩ := hc
      exact ⟨rfl, sltCart_consistent n i⟩
    · intro i hi
      simp only [cartPositions]
      rw [List.getElem?_map, List.getElem?_range hi]; rfl

/-- Every type other than the SLT can be built with any number of carts. -/
theorem C65_built (ty : TrainType) (hty : ty ≠ .sprinterSLT) (start : K) (n : ℕ) : ∃ t, setTrain ty start n = .ok t := by
  cases ty <;> first | exact absurd rfl hty | exact ⟨_, rfl⟩

/-- The identities of the bogies of all carts, in order. -/
def DTrain.bogieIds (t : DTrain K) : List ℕ := t.carts.flatMap fun c => c.bogies.map DBogie.id

theorem pairs_nodup (n : ℕ) : ((List.range n).flatMap fun i => [2 * i, 2 * i + 1]).Nodup := by
  rw [List.nodup_flatMap]
  refine ⟨fun i _ => by simp, ?_⟩
  refine List.Pairwise.imp_of_mem ?_ List.nodup_range
  intro a b _ _ hab x hx hx'
  simp only [List.mem_cons, List.not_mem_nil, or_false] at hx hx'
  omega

theorem dataTrain_ids (d : TrainData K) (start : K) (n : ℕ) :
    (dataTrain d start n).bogieIds = (List.range n).flatMap fun i => [2 * i, 2 * i + 1] := by
  simp [DTrain.bogieIds, dataTrain, dataCart, List.flatMap_map]

/-- In every default train other than the SLT, and in every cargo train, no bogie object occurs twice: every cart stands on
bogies of its own. -/
theorem C65_own_bogies (ty : TrainType) (hty : ty ≠ .sprinterSLT) (start : K) (n : ℕ) (t : DTrain K)
    (h : setTrain ty start n = .ok t) : t.bogieIds.Nodup := by
  cases ty <;> first | exact absurd rfl hty | (cases h; rw [dataTrain_ids]; exact pairs_nodup n)

theorem C65_own_bogies_cargo (start : K) (loco wagon : TrainType) (nLoco nWagon : ℕ) (t : DTrain K)
    (h : buildCargo start loco wagon nLoco nWagon = .ok t) : t.bogieIds.Nodup := by
  unfold buildCargo at h
  split at h
  · cases h
  · cases h
  · split_ifs at h
    cases h
    have e : (List.range nLoco ++ (List.range nWagon).map (nLoco + ·)) = List.range (nLoco + nWagon) := (List.range_add ..).symm
    have := pairs_nodup (nLoco + nWagon)
    rw [← e] at this
    simpa [DTrain.bogieIds, dataCart, List.flatMap_map, List.flatMap_append] using this

example : ∃ t, setTrain .icm (100 : ℚ) 3 = .ok t ∧ t.cartDistances = [100 - 0 * (273 / 10), 100 - 1 * (273 / 10), 100 - 2 * (273 / 10)] :=
  ⟨_, rfl, by simp [dataTrain, cartPositions, icmData, List.range_succ]⟩

/-! ### C66: shared bogies -/

/-- Position of bogie `j` of the cart at `x`. -/
def DCart.bogiePos (c : DCart K) (x : K) (j : ℕ) : K := x + c.bogieDistances.getD j 0

/-- **C66** An SLT train is rejected for fewer than two carts. Otherwise cart `i` and `i + 1` share one bogie object: the second of
cart `i` is the first of cart `i + 1`, both carts put it at the same position, all other bogies are different, and the
shares of the carts in each bogie add up to one. -/
theorem C66_shared_bogies (start : K) (n : ℕ) :
    (n < 2 → setTrain .sprinterSLT start n = .error .valueError) ∧
    (2 ≤ n → ∃ t, setTrain .sprinterSLT start n = .ok t ∧
      (∀ i c, t.carts[i]? = some c → c.bogies.map DBogie.id = [i, i + 1]) ∧
      (∀ i c c' x x', t.carts[i]? = some c → t.carts[i + 1]? = some c' → t.cartDistances[i]? = some x →
        t.cartDistances[i + 1]? = some x' → c.bogies[1]? = c'.bogies[0]? ∧ c.bogiePos x 1 = c'.bogiePos x' 0 ∧
        c.distribution.getD 1 0 + c'.distribution.getD 0 0 = 1) ∧
      (∀ c, t.carts[0]? = some c → c.distribution.getD 0 0 = 1) ∧
      (∀ c, t.carts[n - 1]? = some c → c.distribution.getD 1 0 = 1)) := by
  constructor
  · intro h; simp only [setTrain, sltTrain]; rw [if_pos h]
  · intro h
    have hn : ¬ n < 2 := by omega
    refine ⟨_, by simp only [setTrain, sltTrain]; rw [if_neg hn], ?_, ?_, ?_, ?_⟩
    · intro i c hc
      simp only [List.getElem?_map, Option.map_eq_some_iff] at hc
      obtain ⟨a, ha, rfl⟩ := hc
      obtain ⟨-, rfl⟩ := List.getElem?_eq_some_iff.1 ha
      simp [sltCart, sltBogie]
    · intro i c c' x x' hc hc' hx hx'
      simp only [List.getElem?_map, Option.map_eq_some_iff, cartPositions] at hc hc' hx hx'
      obtain ⟨a, ha, rfl⟩ := hc
      obtain ⟨a', ha', rfl⟩ := hc'
      obtain ⟨b, hb, rfl⟩ := hx
      obtain ⟨b', hb', rfl⟩ := hx'
      obtain ⟨hl, rfl⟩ := List.getElem?_eq_some_iff.1 ha
      obtain ⟨hl', rfl⟩ := List.getElem?_eq_some_iff.1 ha'
      obtain ⟨-, rfl⟩ := List.getElem?_eq_some_iff.1 hb
      obtain ⟨-, rfl⟩ := List.getElem?_eq_some_iff.1 hb'
      simp only [List.length_range] at hl hl'
      simp only [List.getElem_range]
      refine ⟨by simp [sltCart], ?_, ?_⟩
      · simp only [DCart.bogiePos, sltCart, List.getD_cons_succ, List.getD_cons_zero]
        push_cast; ring
      · simp only [sltCart]
        have h1 : ¬ (i + 1 = 0) := by omega
        have h2 : ¬ (i = n - 1) := by omega
        rw [if_neg h1]
        split_ifs <;> (simp; norm_num)
    · intro c hc
      simp only [List.getElem?_map, Option.map_eq_some_iff] at hc
      obtain ⟨a, ha, rfl⟩ := hc
      obtain ⟨-, rfl⟩ := List.getElem?_eq_some_iff.1 ha
      simp [sltCart]
    · intro c hc
      simp only [List.getElem?_map, Option.map_eq_some_iff] at hc
      obtain ⟨a, ha, rfl⟩ := hc
      obtain ⟨-, rfl⟩ := List.getElem?_eq_some_iff.1 ha
      simp only [List.getElem_range, sltCart]
      have h1 : ¬ (n - 1 = 0) := by omega
      rw [if_neg h1, if_pos trivial]; rfl

/-- The default number of carts of `set_train` does not build an SLT train. -/
example : setTrain .sprinterSLT (0 : ℚ) 1 = .error .valueError := (C66_shared_bogies 0 1).1 (by norm_num)

/-! ### C67: cargo trains -/

/-- The stretches of track the carts occupy: middle and length. -/
def DTrain.stretches (t : DTrain K) : List (K × K) := List.zipWith (fun x c => (x - c.length / 2, x + c.length / 2)) t.cartDistances t.carts

theorem locoData_pos (ty : TrainType) (d : TrainData K) (h : locoData ty = .ok d) : 0 < d.length := by
  obtain ⟨g1, g2, -⟩ := good_data (K := K)
  cases ty <;> simp only [locoData] at h <;> cases h
  · exact g1.length
  · exact g2.length

theorem wagonData_pos (ty : TrainType) (d : TrainData K) (h : wagonData ty = .ok d) : 0 < d.length := by
  obtain ⟨-, -, -, -, -, g6, g7, g8⟩ := good_data (K := K)
  cases ty <;> simp only [wagonData] at h <;> cases h
  · exact g7.length
  · exact g6.length
  · exact g8.length

/-- The stretches of the locomotives followed by those of the wagons. -/
theorem buildCargo_stretches (start : K) (loco wagon : TrainType) (nLoco nWagon : ℕ) (l w : TrainData K)
    (hl : locoData loco = .ok l) (hw : wagonData wagon = .ok w) (h0 : nLoco ≠ 0) :
    ∃ t, buildCargo start loco wagon nLoco nWagon = .ok t ∧ t.carts.length = nLoco + nWagon ∧
      t.cartDistances.length = nLoco + nWagon ∧ t.stretches =
      (List.range nLoco).map (fun (i : ℕ) => (start - (i : K) * l.length - l.length / 2, start - (i : K) * l.length + l.length / 2)) ++
      (List.range nWagon).map (fun (i : ℕ) => (start - l.length / 2 - w.length - w.length * (i : K), start - l.length / 2 - w.length * (i : K))) := by
  refine ⟨_, by unfold buildCargo; rw [hl, hw]; simp only; rw [if_neg h0], by simp, by simp [cartPositions], ?_⟩
  unfold DTrain.stretches
  simp only
  rw [List.zipWith_append (by simp [cartPositions])]
  congr 1
  · unfold cartPositions
    rw [List.zipWith_map, List.zipWith_self]
    rfl
  · rw [List.zipWith_map, List.zipWith_self]
    apply List.map_congr_left
    intro i _
    simp only [dataCart, Prod.mk.injEq]
    constructor <;> ring

/-- **C67, the part that holds** With one locomotive and any number of wagons of any supported types, the carts occupy stretches that follow
each other without overlap (the front of each is at or behind the rear of the previous ones). -/
theorem C67_disjoint_partial (start : K) (loco wagon : TrainType) (nWagon : ℕ) (l w : TrainData K)
    (hl : locoData loco = .ok l) (hw : wagonData wagon = .ok w) :
    ∃ t, buildCargo start loco wagon 1 nWagon = .ok t ∧ t.carts.length = 1 + nWagon ∧ t.stretches.length = 1 + nWagon ∧
      (∀ s ∈ t.stretches, s.1 < s.2) ∧ t.stretches.Pairwise (fun a b => b.2 ≤ a.1) := by
  have hlp := locoData_pos loco l hl
  have hwp := wagonData_pos wagon w hw
  obtain ⟨t, h1, h2, -, h3⟩ := buildCargo_stretches start loco wagon 1 nWagon l w hl hw one_ne_zero
  refine ⟨t, h1, h2, by rw [h3]; simp [add_comm], ?_, ?_⟩
  · intro s hs
    rw [h3] at hs
    simp only [List.mem_append, List.mem_map] at hs
    rcases hs with ⟨i, -, rfl⟩ | ⟨i, -, rfl⟩
    · simp only; linarith
    · simp only; linarith
  · rw [h3, List.pairwise_append]
    refine ⟨by simp, ?_, ?_⟩
    · rw [List.pairwise_map]
      refine List.Pairwise.imp (fun {i j} hij => ?_) List.pairwise_lt_range
      have : (i : K) + 1 ≤ j := by exact_mod_cast hij
      simp only
      nlinarith
    · intro a ha b hb
      simp only [List.mem_map, List.mem_range] at ha hb
      obtain ⟨i, hi, rfl⟩ := ha
      obtain ⟨j, -, rfl⟩ := hb
      have : i = 0 := by omega
      subst this
      have hj : (0 : K) ≤ j := Nat.cast_nonneg _
      simp only [Nat.cast_zero, zero_mul, sub_zero]
      nlinarith

/-- **C67 is violated** With two or more locomotives the first wagon and the second locomotive overlap, for all supported types. -/
theorem C67_violated (start : K) (loco wagon : TrainType) (nLoco nWagon : ℕ) (l w : TrainData K)
    (hl : locoData loco = .ok l) (hw : wagonData wagon = .ok w) (h2 : 2 ≤ nLoco) (hw1 : 1 ≤ nWagon) :
    ∃ t a b, buildCargo start loco wagon nLoco nWagon = .ok t ∧ t.stretches[1]? = some a ∧ t.stretches[nLoco]? = some b ∧
      ∃ x, a.1 < x ∧ x < a.2 ∧ b.1 < x ∧ x < b.2 := by
  have hlp := locoData_pos loco l hl
  have hwp := wagonData_pos wagon w hw
  obtain ⟨t, h1, -, -, h3⟩ := buildCargo_stretches start loco wagon nLoco nWagon l w hl hw (by omega)
  refine ⟨t, (start - ((1 : ℕ) : K) * l.length - l.length / 2, start - ((1 : ℕ) : K) * l.length + l.length / 2),
    (start - l.length / 2 - w.length - w.length * ((0 : ℕ) : K), start - l.length / 2 - w.length * ((0 : ℕ) : K)), h1, ?_, ?_, start - l.length / 2 - min l.length w.length / 2, ?_⟩
  · rw [h3, List.getElem?_append_left (by simp; omega), List.getElem?_map, List.getElem?_range (by omega)]; rfl
  · rw [h3, List.getElem?_append_right (by simp)]
    simp only [List.length_map, List.length_range, Nat.sub_self]
    rw [List.getElem?_map, List.getElem?_range (by omega)]; rfl
  · have hm : 0 < min l.length w.length := lt_min hlp hwp
    have hm1 := min_le_left l.length w.length
    have hm2 := min_le_right l.length w.length
    simp only [Nat.cast_one, one_mul, Nat.cast_zero, mul_zero, sub_zero]
    refine ⟨?_, ?_, ?_, ?_⟩ <;> linarith

example : ∃ (l w : TrainData ℚ), locoData .traxx = .ok l ∧ wagonData .cargoSGNS = .ok w := ⟨_, _, rfl, rfl⟩

/-- Other locomotives and wagons are rejected, and a cargo train needs a locomotive. -/
theorem C67_rejects (start : K) (loco wagon : TrainType) (nLoco nWagon : ℕ) (t : DTrain K)
    (h : buildCargo start loco wagon nLoco nWagon = .ok t) :
    (loco = .traxx ∨ loco = .br189) ∧ (wagon = .cargoTAPPS ∨ wagon = .cargoFALNS5 ∨ wagon = .cargoSGNS) ∧ 1 ≤ nLoco := by
  unfold buildCargo at h
  cases hl : (locoData loco : Except Err (TrainData K)) with
  | error e => rw [hl] at h; cases h
  | ok l =>
    cases hw : (wagonData wagon : Except Err (TrainData K)) with
    | error e => rw [hl, hw] at h; cases h
    | ok w =>
      rw [hl, hw] at h
      simp only at h
      split_ifs at h with h0
      refine ⟨?_, ?_, by omega⟩
      · cases loco <;> simp [locoData] at hl ⊢
      · cases wagon <;> simp [wagonData] at hw ⊢

/-! ### C84: the dictionary of a train -/

/-- The dictionary describes cart `c` of the train. -/
def TrainDict.Describes (d : TrainDict K) (c : DCart K) : Prop :=
  c.length = d.cartLength ∧ c.mass = d.cartMass ∧ c.bogieDistances = d.bogieDistances ∧
    ∀ b ∈ c.bogies, b.wheelDistances = d.wheelDistances ∧ b.length = d.bogieLength

/-- **C84, the part that holds** For every default train with at least one cart the dictionary describes every cart, and has the cart
positions. -/
theorem C84_dict_partial (ty : TrainType) (start : K) (n : ℕ) (hn : 1 ≤ n) (t : DTrain K) (h : setTrain ty start n = .ok t) :
    ∃ d, trainToDict t = .ok d ∧ d.cartDistances = t.cartDistances ∧ ∀ c ∈ t.carts, d.Describes c := by
  have key : ∀ (f : ℕ → DCart K) (pos : List K), (∀ i, ∃ b bs, (f i).bogies = b :: bs) →
      (∀ i j, (f i).length = (f j).length ∧ (f i).mass = (f j).mass ∧ (f i).bogieDistances = (f j).bogieDistances ∧
        ∀ b ∈ (f i).bogies, ∀ b' ∈ (f j).bogies, b.wheelDistances = b'.wheelDistances ∧ b.length = b'.length) →
      ∃ d, trainToDict ⟨pos, (List.range n).map f⟩ = .ok d ∧ d.cartDistances = pos ∧
        ∀ c ∈ (List.range n).map f, d.Describes c := by
    intro f pos hf hu
    obtain ⟨k, rfl⟩ : ∃ k, n = k + 1 := ⟨n - 1, by omega⟩
    obtain ⟨b, bs, hb⟩ := hf 0
    refine ⟨⟨b.wheelDistances, b.length, (f 0).bogieDistances, (f 0).length, pos, (f 0).mass⟩, ?_, rfl, ?_⟩
    · unfold trainToDict
      rw [List.range_succ_eq_map, List.map_cons]
      simp only [hb]
    · intro c hc
      rw [List.mem_map] at hc
      obtain ⟨i, -, rfl⟩ := hc
      obtain ⟨u1, u2, u3, u4⟩ := hu i 0
      exact ⟨u1, u2, u3, fun b' hb' => u4 b' hb' b (by rw [hb]; simp)⟩
  have hdata : ∀ d : TrainData K, ∃ dd, trainToDict (dataTrain d start n) = .ok dd ∧
      dd.cartDistances = (dataTrain d start n).cartDistances ∧ ∀ c ∈ (dataTrain d start n).carts, dd.Describes c := by
    intro d
    refine key (dataCart d) _ (fun i => ⟨_, _, rfl⟩) (fun i j => ⟨rfl, rfl, rfl, ?_⟩)
    intro b hb b' hb'
    simp only [dataCart, List.mem_cons, List.not_mem_nil, or_false] at hb hb'
    rcases hb with rfl | rfl <;> rcases hb' with rfl | rfl <;> exact ⟨rfl, rfl⟩
  cases ty with
  | sprinterSLT =>
    simp only [setTrain, sltTrain] at h
    split_ifs at h with hn
    cases h
    refine key (sltCart n) _ (fun i => ⟨_, _, rfl⟩) (fun i j => ⟨rfl, rfl, rfl, ?_⟩)
    intro b hb b' hb'
    simp only [sltCart, List.mem_cons, List.not_mem_nil, or_false] at hb hb'
    rcases hb with rfl | rfl <;> rcases hb' with rfl | rfl <;> exact ⟨rfl, rfl⟩
  | _ => cases h; exact hdata _

/-- **C84 is violated** The dictionary of a cargo train describes no wagon: it has the data of the locomotive only. -/
theorem C84_violated (start : K) (loco wagon : TrainType) (nLoco nWagon : ℕ) (l w : TrainData K)
    (hl : locoData loco = .ok l) (hw : wagonData wagon = .ok w) (h1 : 1 ≤ nLoco) (hw1 : 1 ≤ nWagon) :
    ∃ t d c, buildCargo start loco wagon nLoco nWagon = .ok t ∧ trainToDict t = .ok d ∧ c ∈ t.carts ∧ ¬ d.Describes c := by
  have hne : l.bogieLength ≠ w.bogieLength := by
    cases loco <;> simp only [locoData] at hl <;> cases hl <;> cases wagon <;> simp only [wagonData] at hw <;> cases hw <;>
      simp only [traxxData, br189Data, tappsData, falns5Data, sgnsData] <;> norm_num
  obtain ⟨k, rfl⟩ : ∃ k, nLoco = k + 1 := ⟨nLoco - 1, by omega⟩
  refine ⟨⟨cartPositions start l.length (k + 1) ++
        (List.range nWagon).map (fun (i : ℕ) => start - l.length / 2 - w.length / 2 - w.length * (i : K)),
      (List.range (k + 1)).map (dataCart l) ++ (List.range nWagon).map fun i => dataCart w (k + 1 + i)⟩,
    ⟨[-l.wheel, l.wheel], l.bogieLength, [-l.bogie, l.bogie], l.length, cartPositions start l.length (k + 1) ++
        (List.range nWagon).map (fun (i : ℕ) => start - l.length / 2 - w.length / 2 - w.length * (i : K)), l.mass⟩,
    dataCart w (k + 1 + 0), ?_, ?_, ?_, ?_⟩
  · unfold buildCargo; rw [hl, hw]; simp
  · unfold trainToDict
    simp only
    rw [List.range_succ_eq_map, List.map_cons, List.cons_append]
    rfl
  · simp only [List.mem_append, List.mem_map]
    right
    exact ⟨0, List.mem_range.2 hw1, rfl⟩
  · rintro ⟨-, -, -, hb⟩
    have := (hb ⟨2 * (k + 1 + 0), [-w.wheel, w.wheel], 2, w.bogieLength⟩ (by simp [dataCart])).2
    exact hne this.symm

end Rose
