import Verif.Props.Accumulation
import Verif.Props.DefaultTrains
import Verif.Props.System
import Verif.Props.Coupled
import Verif.Props.MeshUtils
import Verif.Props.Irregularities
import Verif.Props.MovingLoad
import Verif.Props.Calculation
import Verif.Props.BeamShape
import Mathlib.Analysis.Real.Pi.Bounds

/-!
# Exactly when C10, C15, C27, C33, C41, C43, C49, C50, C52, C55, C61, C62, C78, C84 and C110 hold

The files of these properties prove part of them and show a failing case. Here the failing cases are described completely.
-/

set_option linter.unusedSectionVars false

namespace Rose

/-! ### C10 -/

/-- **C10, exactly when it holds** Let `p` be the last constraint part with node `n`. A degree of freedom of `n` is fixed
exactly if some constraint part fixes it, if and only if `p` fixes it or no earlier part does. -/
theorem C10_iff (flags : ℕ → Fin 3 → Bool) (before after : List ConstraintPart) (p : ConstraintPart) (n : ℕ) (d : Fin 3)
    (hp : n ∈ p.nodes) (hafter : ∀ q ∈ after, n ∉ q.nodes) :
    (setConstraints flags (before ++ p :: after) n d = false ↔
      ∃ q ∈ before ++ p :: after, n ∈ q.nodes ∧ q.free d = false) ↔
    (p.free d = false ∨ ∀ q ∈ before, n ∈ q.nodes → q.free d = true) := by
  rw [C10_last_wins flags before after p n hp hafter]
  constructor
  · intro h
    by_cases hd : p.free d = false
    · exact Or.inl hd
    · right
      intro q hq hn
      by_contra hc
      exact hd (h.2 ⟨q, by simp [hq], hn, by simpa using hc⟩)
  · rintro h
    constructor
    · exact fun hd => ⟨p, by simp, hp, hd⟩
    · rintro ⟨q, hq, hn, hd⟩
      rcases h with h | h
      · exact h
      · rw [List.mem_append, List.mem_cons] at hq
        rcases hq with hq | rfl | hq
        · rw [h q hq hn] at hd; cases hd
        · exact hd
        · exact absurd hn (hafter q hq)

/-- A node in two parts: both kinds of behaviour occur. -/
example : (∃ p q : ConstraintPart, 1 ∈ p.nodes ∧ 1 ∈ q.nodes ∧ q.free 1 = false ∧ p.free 1 = true) ∧
    ∃ p q : ConstraintPart, 1 ∈ p.nodes ∧ 1 ∈ q.nodes ∧ q.free 1 = false ∧ p.free 1 = false :=
  ⟨⟨⟨[1], fun _ => true⟩, ⟨[1, 2], fun _ => false⟩, by simp, by simp, rfl, rfl⟩,
    ⟨⟨[1], fun _ => false⟩, ⟨[1, 2], fun _ => false⟩, by simp, by simp, rfl, rfl⟩⟩

/-! ### C41 -/

/-- **C41, exactly when it holds** For a positive Hertz power, a wheel off the rail has no contact force if and only if the
power is not an integer. -/
theorem C41_iff (G p irr du : ℝ) (hG : 0 < G) (hp : 0 < p) (h : -irr - du < 0) :
    contactForce G p irr (some du) = .ok 0 ↔ ¬ ∃ n : ℤ, p = n := by
  constructor
  · rintro h0 ⟨n, rfl⟩
    have hn : 0 < n := by exact_mod_cast hp
    obtain ⟨k, rfl⟩ := Int.eq_ofNat_of_zero_le hn.le
    have hcast : (((k : ℕ) : ℤ) : ℝ) = (k : ℝ) := by simp
    rw [hcast] at h0
    rcases Nat.even_or_odd k with he | ho
    · obtain ⟨f, hf, hneg⟩ := C41_even_violated G irr du k he hG h
      rw [hf] at h0
      cases h0
      exact lt_irrefl _ hneg
    · obtain ⟨f, hf, hpos⟩ := C41_odd_violated G irr du k ho hG h
      rw [hf] at h0
      cases h0
      exact lt_irrefl _ hpos
  · exact fun hn => C41_separated_partial G p irr du hG hn h

/-- The default Hertz power 3/2 is not an integer, the linear law is. -/
example : (¬ ∃ n : ℤ, (3 / 2 : ℝ) = n) ∧ ∃ n : ℤ, (1 : ℝ) = n := by
  refine ⟨?_, 1, by simp⟩
  rintro ⟨n, hn⟩
  have : (3 : ℝ) = ((2 * n : ℤ) : ℝ) := by push_cast; linarith
  have : (3 : ℤ) = 2 * n := by exact_mod_cast this
  omega

/-! ### C52 -/

/-- **C52, exactly when nothing above the bottom is fixed** Let `y0` be a level below which the part has no nodes. All nodes
of the bottom boundary are at that level if and only if every element has a node at it. -/
theorem C52_iff {K : Type*} [Field K] [LinearOrder K] [IsStrictOrderedRing K] (y : ℕ → K) (elements : List (List ℕ)) (y0 : K)
    (hlow : ∀ e ∈ elements, ∀ m ∈ e, y0 ≤ y m) (ns : List ℕ) (h : bottomBoundary y elements = .ok ns) :
    (∀ n ∈ ns, y n = y0) ↔ ∀ e ∈ elements, ∃ m ∈ e, y m = y0 := by
  have hf := (C52_per_element y elements).1 ns h
  clear h
  induction hf with
  | nil => simp
  | @cons e n es ns hen _ ih =>
    have ih := ih (fun e' he' => hlow e' (by simp [he']))
    simp only [List.mem_cons, forall_eq_or_imp, ih]
    refine and_congr_left fun _ => ⟨fun hy => ⟨n, hen.1, hy⟩, ?_⟩
    rintro ⟨m, hm, hy⟩
    exact le_antisymm (hy ▸ hen.2 m hm) (hlow e (by simp) n hen.1)

/-- Two elements side by side have a node at the bottom each, two stacked elements do not. -/
example : (∀ e ∈ [[0, 2], [1, 2]], ∃ m ∈ e, (fun m : ℕ => if m = 2 then (-1 : ℚ) else 0) m = -1) ∧
    ¬ ∀ e ∈ [[0, 1], [1, 2]], ∃ m ∈ e, (fun m : ℕ => -(m : ℚ)) m = -2 := by
  norm_num

/-! ### C55 -/

/-- **C55, exactly when it holds for a single train** A train passing `N ≥ 2` times: the final settlement is that of
output step 1 if and only if the output step is at most half the number of passages. -/
theorem C55_iff (p : VarandasPar) (hγ : 0 < p.gamma) (hF : 0 < p.F0) (hα : 0 ≤ p.alpha) (hN : 2 ≤ p.N0)
    (N steps : ℕ) (h2 : 2 ≤ N) (hs : 1 ≤ steps) (f : ℝ) (hf : 0 < f) :
    (varandasStage p ⟨[N], 0, steps⟩ (fun _ => f) VarState.zero 0).2.getLast? =
      (varandasStage p ⟨[N], 0, 1⟩ (fun _ => f) VarState.zero 0).2.getLast? ↔ 2 * steps ≤ N := by
  have hm : ∀ k, (⟨[N], 0, k⟩ : Traffic).maxCycles = N := by intro k; simp [Traffic.maxCycles]
  have ho : ∀ k, (⟨[N], 0, k⟩ : Traffic).outputs = N / k := by intro k; unfold Traffic.outputs; rw [hm]
  have ho1 : 2 ≤ (⟨[N], 0, 1⟩ : Traffic).outputs := by rw [ho, Nat.div_one]; exact h2
  constructor
  · intro h
    by_contra hc
    push Not at hc
    by_cases hle : steps ≤ N
    · obtain ⟨a, b, ha, hb, hab⟩ := C55_violated p hγ hF hα hN N steps h2 hle hc f hf
      rw [ha, hb] at h
      cases h
      exact lt_irrefl _ hab
    · have h0 : (⟨[N], 0, steps⟩ : Traffic).outputs = 0 := by rw [ho]; exact Nat.div_eq_of_lt (by omega)
      have hnil : (varandasStage p ⟨[N], 0, steps⟩ (fun _ => f) VarState.zero 0).2.getLast? = none := by
        unfold varandasStage
        simp [h0, cumsum]
      have := (C55_output_step_partial p [N] 0 1 1 (fun _ => f) VarState.zero 0 ho1 ho1).2
      rw [← h, hnil] at this
      cases this
  · intro h
    refine (C55_output_step_partial p [N] 0 steps 1 (fun _ => f) VarState.zero 0 ?_ ho1).1
    rw [ho, Nat.le_div_iff_mul_le (by omega)]
    exact h

example : ∃ p : VarandasPar, 0 < p.gamma ∧ 0 < p.F0 ∧ 0 ≤ p.alpha ∧ 2 ≤ p.N0 ∧ 2 * 50 ≤ 100 ∧ ¬ 2 * 51 ≤ 100 :=
  ⟨⟨0.6, 0.82, 10, 1000000, 50⟩, by norm_num⟩

/-! ### C62 -/

/-- **C62, exactly when a wheel flat can be generated** The profile is produced if and only if the flat comes by at a sample
that is neither the first nor the last; otherwise the call fails with an `IndexError`. -/
theorem C62_iff (xs : List ℝ) (diameter length shift : ℝ) (hd : 0 < diameter) :
    ((∃ ys, wheelFlat xs diameter length shift = .ok ys) ↔
      ∃ i k, 1 ≤ i ∧ i + 1 < xs.length ∧ FlatPasses xs shift (Real.pi * diameter) i k) ∧
    (wheelFlat xs diameter length shift = .error .indexError ↔
      ¬ ∃ i k, 1 ≤ i ∧ i + 1 < xs.length ∧ FlatPasses xs shift (Real.pi * diameter) i k) := by
  have hc : 0 < Real.pi * diameter := mul_pos Real.pi_pos hd
  by_cases h : ∃ i k, 1 ≤ i ∧ i + 1 < xs.length ∧ FlatPasses xs shift (Real.pi * diameter) i k
  · obtain ⟨i, k, h1, h2, hk⟩ := h
    have hmem : i ∈ flatIndices xs shift (Real.pi * diameter) := (mem_flatIndices xs shift _ hc i).2 ⟨h1, h2, k, hk⟩
    have hne : flatIndices xs shift (Real.pi * diameter) ≠ [] := List.ne_nil_of_mem hmem
    have hok : ∃ ys, wheelFlat xs diameter length shift = .ok ys := by
      unfold wheelFlat
      simp only [if_neg hne]
      exact ⟨_, rfl⟩
    refine ⟨⟨fun _ => ⟨i, k, h1, h2, hk⟩, fun _ => hok⟩, ⟨fun he => ?_, fun hn => absurd ⟨i, k, h1, h2, hk⟩ hn⟩⟩
    obtain ⟨ys, hys⟩ := hok
    rw [he] at hys
    cases hys
  · have herr := C62_short_violated xs diameter length shift hd (fun i k h1 h2 hk => h ⟨i, k, h1, h2, hk⟩)
    refine ⟨⟨?_, fun hx => absurd hx h⟩, ⟨fun _ => h, fun _ => herr⟩⟩
    rintro ⟨ys, hys⟩
    rw [herr] at hys
    cases hys

/-- A wheel of diameter 1 on five samples of 1 m: the flat comes by between the third and the fourth sample. -/
example : ∃ ys, wheelFlat [1, 2, 3, 4, 5] 1 0.1 0 = .ok ys := by
  refine (C62_iff _ _ _ _ (by norm_num)).1.2 ⟨3, 1, by norm_num, by norm_num, ?_⟩
  have h3 := Real.pi_gt_three
  have h4 := Real.pi_lt_d2
  constructor <;> simp <;> norm_num at h4 <;> linarith

/-! ### C78 -/

/-- **C78, exactly when it holds** Validation raises if and only if an error or critical message was logged before in the
process or a model part is invalid. So it tells valid from invalid models if and only if nothing was logged before at those
levels. -/
theorem C78_iff (cache : List ℕ) :
    (∀ parts, (validateInput cache parts).2 = true ↔ (40 ∈ cache ∨ 50 ∈ cache) ∨ ∃ p ∈ parts, ¬ p.Valid) ∧
    ((∀ parts, (validateInput cache parts).2 = true ↔ ∃ p ∈ parts, ¬ p.Valid) ↔ 40 ∉ cache ∧ 50 ∉ cache) := by
  have key : ∀ parts, (validateInput cache parts).2 = true ↔ (40 ∈ cache ∨ 50 ∈ cache) ∨ ∃ p ∈ parts, ¬ p.Valid := by
    intro parts
    by_cases hl : 40 ∈ cache ∨ 50 ∈ cache
    · simp only [hl, true_or, iff_true, validateInput, Bool.or_eq_true, List.contains_iff_mem, List.mem_append]
      exact hl.imp Or.inl Or.inl
    · push Not at hl
      rw [C78_clean_log_partial cache parts hl.1 hl.2]
      simp [hl.1, hl.2]
  refine ⟨key, fun h => ?_, fun h parts => C78_clean_log_partial cache parts h.1 h.2⟩
  have := (key []).symm.trans (h [])
  simp only [List.not_mem_nil, false_and, exists_false, or_false, iff_false, not_or] at this
  exact this

example : (∀ p ∈ [PartInput.rod true 3 4], p.Valid) ∧ 40 ∈ [30, 40] ∧ 40 ∉ [30] ∧ 50 ∉ [30] := by simp [PartInput.Valid]

/-! ### C84 -/

/-- **C84, exactly when it holds for a cargo train** The dictionary of a cargo train describes every cart if and only if the
train has no wagons. -/
theorem C84_iff {K : Type*} [Field K] [LinearOrder K] [IsStrictOrderedRing K] (start : K) (loco wagon : TrainType)
    (nLoco nWagon : ℕ) (l w : TrainData K) (hl : locoData loco = .ok l) (hw : wagonData wagon = .ok w) (h1 : 1 ≤ nLoco) :
    ∃ t d, buildCargo start loco wagon nLoco nWagon = .ok t ∧ trainToDict t = .ok d ∧
      ((∀ c ∈ t.carts, d.Describes c) ↔ nWagon = 0) := by
  rcases Nat.eq_zero_or_pos nWagon with rfl | hpos
  · obtain ⟨k, rfl⟩ : ∃ k, nLoco = k + 1 := ⟨nLoco - 1, by omega⟩
    refine ⟨⟨cartPositions start l.length (k + 1), (List.range (k + 1)).map (dataCart l)⟩,
      ⟨[-l.wheel, l.wheel], l.bogieLength, [-l.bogie, l.bogie], l.length, cartPositions start l.length (k + 1), l.mass⟩,
      ?_, ?_, ?_⟩
    · unfold buildCargo; rw [hl, hw]; simp
    · unfold trainToDict
      simp only
      rw [List.range_succ_eq_map, List.map_cons]
      rfl
    · simp only [iff_true]
      intro c hc
      rw [List.mem_map] at hc
      obtain ⟨i, -, rfl⟩ := hc
      refine ⟨rfl, rfl, rfl, ?_⟩
      intro b hb
      simp only [dataCart, List.mem_cons, List.not_mem_nil, or_false] at hb
      rcases hb with rfl | rfl <;> exact ⟨rfl, rfl⟩
  · obtain ⟨t, d, c, ht, hd, hc, hnot⟩ := C84_violated start loco wagon nLoco nWagon l w hl hw h1 hpos
    exact ⟨t, d, ht, hd, ⟨fun h => absurd (h c hc) hnot, fun h => by omega⟩⟩

example : ∃ (l : TrainData ℚ) (w : TrainData ℚ) (loco wagon : TrainType), locoData loco = .ok l ∧ wagonData wagon = .ok w :=
  ⟨traxxData, tappsData, .traxx, .cargoTAPPS, rfl, rfl⟩

/-! ### C15 -/

/-- Position `(i, d)` of a load condition (its node number `i`, direction `d`) is active and carries equation `e`. -/
def LoadPart.Reaches {K : Type*} (c : LoadPart K) (e i : ℕ) (d : Fin 3) : Prop :=
  i < c.nodes.length ∧ c.act d = true ∧ (c.nodes.getD i fun _ => none) d = some e

/-- `v` is the force at the last position of the condition that carries equation `e`, or zero if no position does. -/
def LoadPart.LastForce {K : Type*} [Zero K] (c : LoadPart K) (e : ℕ) (v : K) : Prop :=
  (∃ i d, c.Reaches e i d ∧ v = (c.force.getD i fun _ => 0) d ∧ ∀ i' d', c.Reaches e i' d' → i' < i ∨ i' = i ∧ d' ≤ d) ∨
    (¬ ∃ i d, c.Reaches e i d) ∧ v = 0

theorem flatPositions_sorted (n : ℕ) :
    (flatPositions n).Pairwise fun p q => p.1 < q.1 ∨ p.1 = q.1 ∧ p.2 < q.2 := by
  unfold flatPositions
  rw [List.pairwise_flatMap]
  refine ⟨fun i _ => by simp, ?_⟩
  refine List.pairwise_lt_range.imp ?_
  intro a b hab x hx y hy
  simp only [List.mem_map] at hx hy
  obtain ⟨_, _, rfl⟩ := hx
  obtain ⟨_, _, rfl⟩ := hy
  exact Or.inl hab

theorem mem_flatPositions (n i : ℕ) (d : Fin 3) : (i, d) ∈ flatPositions n ↔ i < n := by
  unfold flatPositions
  rw [List.mem_flatMap]
  constructor
  · rintro ⟨j, hj, h⟩
    simp only [List.mem_map] at h
    obtain ⟨_, _, h⟩ := h
    cases h
    exact List.mem_range.1 hj
  · intro h
    refine ⟨i, List.mem_range.2 h, List.mem_map.2 ⟨d, ?_, rfl⟩⟩
    fin_cases d <;> simp

theorem addCondition_last {K : Type*} [Field K] (F : ℕ → K) (c : LoadPart K) (e : ℕ) (v : K) (h : c.LastForce e v) :
    addCondition F c e = F e + v := by
  have hreach : ∀ p ∈ flatPositions c.nodes.length, ∀ q : ℕ × K,
      (if c.act p.2 then ((c.nodes.getD p.1 fun _ => none) p.2).map fun e => (e, (c.force.getD p.1 fun _ => 0) p.2)
        else none) = some q → q.1 = e → c.Reaches e p.1 p.2 := by
    intro p hp q hq he
    split_ifs at hq with ha
    rw [Option.map_eq_some_iff] at hq
    obtain ⟨e', he', rfl⟩ := hq
    simp only at he
    subst he
    exact ⟨(mem_flatPositions _ p.1 p.2).1 hp, ha, he'⟩
  unfold addCondition fancyAdd writes
  rcases h with ⟨i, d, ⟨hi, ha, hn⟩, rfl, hlast⟩ | ⟨hnone, rfl⟩
  · obtain ⟨A, B, hAB⟩ := List.append_of_mem ((mem_flatPositions _ i d).2 hi)
    have hsorted := flatPositions_sorted c.nodes.length
    have hB : ∀ p ∈ B, p ∈ flatPositions c.nodes.length := by intro p hp; rw [hAB]; simp [hp]
    rw [hAB] at hsorted
    have hlater := (List.pairwise_cons.1 (List.pairwise_append.1 hsorted).2.1).1
    unfold LoadPart.masked
    rw [hAB, List.filterMap_append, List.filterMap_cons]
    simp only [ha, if_true, hn, Option.map_some, List.map_append, List.map_cons, List.foldl_append, List.foldl_cons]
    have key : ∀ (l : List (ℕ × K)) (G : ℕ → K), (∀ q ∈ l, q.1 ≠ e) → l.foldl write G e = G e := by
      intro l
      induction l with
      | nil => intro G _; rfl
      | cons q l ih =>
        intro G hl
        rw [List.foldl_cons, ih _ fun q hq => hl q (by simp [hq])]
        simp [write, Ne.symm (hl q (by simp))]
    rw [key]
    · simp [write]
    · intro q hq he
      rw [List.mem_map] at hq
      obtain ⟨q', hq', rfl⟩ := hq
      rw [List.mem_filterMap] at hq'
      obtain ⟨p, hp, hpq⟩ := hq'
      have h1 := hlast _ _ (hreach p (hB p hp) q' hpq he)
      have h2 := hlater p hp
      simp only at h2
      rcases h1 with h1 | ⟨h1, h1'⟩ <;> rcases h2 with h2 | ⟨h2, h2'⟩
      · omega
      · omega
      · omega
      · exact absurd h2' (not_lt.2 h1')
  · have key : ∀ (l : List (ℕ × K)) (G : ℕ → K), (∀ q ∈ l, q.1 ≠ e) → l.foldl write G e = G e := by
      intro l
      induction l with
      | nil => intro G _; rfl
      | cons q l ih =>
        intro G hl
        rw [List.foldl_cons, ih _ fun q hq => hl q (by simp [hq])]
        simp [write, Ne.symm (hl q (by simp))]
    rw [key, add_zero]
    intro q hq he
    rw [List.mem_map] at hq
    obtain ⟨q', hq', rfl⟩ := hq
    unfold LoadPart.masked at hq'
    rw [List.mem_filterMap] at hq'
    obtain ⟨p, hp, hpq⟩ := hq'
    exact hnone ⟨_, _, hreach p hp q' hpq he⟩

/-- **C15, exactly what is applied** For all load conditions, also with repeated nodes: the force on an equation is the sum over the
conditions of the force at the last position of the condition that carries the equation. -/
theorem C15_exact {K : Type*} [Field K] (cs : List (LoadPart K)) (e : ℕ) (vs : List K)
    (h : List.Forall₂ (fun c v => LoadPart.LastForce c e v) cs vs) : timeStepRhs cs e = vs.sum := by
  have key : ∀ F : ℕ → K, cs.foldl addCondition F e = F e + vs.sum := by
    induction h with
    | nil => intro F; simp
    | cons hcv _ ih => intro F; rw [List.foldl_cons, ih, addCondition_last F _ e _ hcv, List.sum_cons, add_assoc]
  have := key fun _ => 0
  rw [zero_add] at this
  exact this

/-- **C15, exactly when it holds** For all load conditions: the force on an equation is the sum of all the forces put on it if and only
if the last ones of each condition add up to that sum. -/
theorem C15_iff {K : Type*} [Field K] (cs : List (LoadPart K)) (e : ℕ) (vs : List K)
    (h : List.Forall₂ (fun c v => LoadPart.LastForce c e v) cs vs) :
    timeStepRhs cs e = (cs.map fun c => conditionForce c e).sum ↔ (cs.map fun c => conditionForce c e).sum = vs.sum := by
  rw [C15_exact cs e vs h]
  exact eq_comm

/-- A condition that lists a node with equation 0 twice, with the loads 5 and 7. -/
example : LoadPart.LastForce (⟨[![none, some 0, none], ![none, some 0, none]], ![false, true, false],
    [![0, 5, 0], ![0, 7, 0]]⟩ : LoadPart ℚ) 0 7 := by
  refine Or.inl ⟨1, 1, ⟨by simp, by simp, by simp⟩, by simp, ?_⟩
  rintro i' d' ⟨h1, h2, -⟩
  simp at h1
  have : d' = 1 := by fin_cases d' <;> simp at h2 ⊢
  subst this
  omega

/-! ### C33 -/

/-- **C33, exactly when it holds** A force along the element, one across it and a moment superpose if and only if there is no force
across the element or no moment. -/
theorem C33_iff {K : Type*} [Field K] [LinearOrder K] [IsStrictOrderedRing K] {phi l : K} (hphi : 1 + phi ≠ 0) (hl : l ≠ 0)
    (x n v m : K) (b : Buffers K) :
    localNodalLoads phi l x (n, v, m) b =
      addLoads (localNodalLoads phi l x (n, 0, 0) b)
        (addLoads (localNodalLoads phi l x (0, v, 0) b) (localNodalLoads phi l x (0, 0, m) b)) ↔ v = 0 ∨ m = 0 := by
  refine ⟨fun h => ?_, C33_superposition_partial phi l x n v m b⟩
  by_contra hc
  push Not at hc
  rw [C33_combined phi l x n v m b hc.1 hc.2] at h
  have hadd : ∀ p q, (resultant l (addLoads p q : (Fin 2 → K) × (Fin 2 → K) × (Fin 2 → K))).2.1 =
      (resultant l p).2.1 + (resultant l q).2.1 := by
    intro p q
    simp only [resultant, addLoads, Pi.add_apply]
    ring
  have h1 := congrArg (fun p => (resultant l p).2.1) h
  simp only [hadd] at h1
  rw [C32_local hphi hl x (n, 0, m) b (Or.inl rfl), C32_local hphi hl x (0, 0, m) b (Or.inl rfl),
    C32_local hphi hl x (n, 0, 0) b (Or.inl rfl), C32_local hphi hl x (0, v, 0) b (Or.inr rfl)] at h1
  simp at h1
  exact hc.1 h1.symm

/-! ### C49 -/

/-- **C49, exactly when it holds** For two or more generated segments all sleepers are one sleeper distance apart if and only if there is
one rail element per sleeper. -/
theorem C49_iff {K : Type*} [Field K] [LinearOrder K] [IsStrictOrderedRing K] {H : Type*} [DecidableEq H]
    {hash : (Fin 3 → K) → H} {r : ℕ} {d : K} {n : ℕ → ℕ} {h : ℕ → K} {t : ℕ → HorizontalTrack K}
    (g : GeneratedTracks hash r d n h t) (m : ℕ) (hm : 1 ≤ m) :
    ∃ pos' res, combineTracks r d TrackNode.joint (trackPos t) ((List.range (m + 1)).map fun j => ofTrack j (t j)) = .ok (pos', res) ∧
      ((∀ i, i + 1 < res.sleepers.length → pos' (res.sleepers.getD (i + 1) (.joint 0 0)) 0 -
        pos' (res.sleepers.getD i (.joint 0 0)) 0 = d) ↔ r = 1) := by
  by_cases hr : r = 1
  · subst hr
    obtain ⟨pos', res, h1, h2⟩ := C49_sleepers_partial g m
    refine ⟨pos', res, h1, ⟨fun _ => rfl, fun _ i hi => ?_⟩⟩
    rw [h2 _ hi, h2 _ (by omega)]
    simp only [Matrix.cons_val_zero]
    push_cast
    ring
  · have hr2 : 2 ≤ r := by have := g.r_pos; omega
    obtain ⟨pos', res, h1, h2, h3⟩ := C49_violated g hr2 m 0 (by omega)
    refine ⟨pos', res, h1, ⟨fun hall => ?_, fun h => absurd h hr⟩⟩
    exfalso
    have hts : ∀ s ∈ (List.range (m + 1)).map (fun j => ofTrack j (t j)), s.railElements = chainOf s.rail := by
      intro s hs
      rw [List.mem_map] at hs
      obtain ⟨j, -, rfl⟩ := hs
      have hj : (t j).railElements = chainOf (t j).rail := by
        obtain ⟨t', h1, -, -, h4, -⟩ := C48_structure hash (n j) r g.r_pos d (h j)
        rw [g.created j] at h1
        cases h1
        exact h4
      simp only [ofTrack, hj, chainOf, ← List.map_tail, List.zip_map]
      rfl
    have hsl := (C49_chain r d TrackNode.joint (trackPos t) pos' _ res h1 hts).2.2.2.1
    have hlen : ∀ j, (ofTrack j (t j)).sleepers.length = n j := by intro j; simp [ofTrack, (g.facts j).2.2.2.2]
    obtain ⟨k, rfl⟩ : ∃ k, m = k + 1 := ⟨m - 1, by omega⟩
    have hsplit : ∃ rest, res.sleepers = (ofTrack 0 (t 0)).sleepers ++ ((ofTrack 1 (t 1)).sleepers ++ rest) := by
      rw [hsl, List.range_succ_eq_map, List.range_succ_eq_map]
      exact ⟨_, rfl⟩
    obtain ⟨rest, hsplit⟩ := hsplit
    have n0 := g.n_pos 0
    have n1 := g.n_pos 1
    have e1 : res.sleepers.getD (n 0 - 1 + 1) (.joint 0 0) = (ofTrack (0 + 1) (t (0 + 1))).sleepers.getD 0 (.joint 0 0) := by
      rw [hsplit, List.getD_append_right _ _ _ _ (by rw [hlen]; omega), hlen,
        List.getD_append _ _ _ _ (by rw [hlen]; omega), show n 0 - 1 + 1 - n 0 = 0 by omega]
    have e0 : res.sleepers.getD (n 0 - 1) (.joint 0 0) = (ofTrack 0 (t 0)).sleepers.getD (n 0 - 1) (.joint 0 0) := by
      rw [hsplit, List.getD_append _ _ _ _ (by rw [hlen]; omega)]
    have := hall (n 0 - 1) (by
      rw [hsplit, List.length_append, List.length_append, hlen, hlen]
      omega)
    rw [e1, e0, h2] at this
    exact h3 this

/-! ### C50 -/

/-- **C50, exactly when it holds** A rail of at least three nodes, the hinge at node `h`: the parts together have the elements of the rail
in order if and only if `h` is neither the first nor the last node. -/
theorem C50_iff {K : Type*} [Field K] [LinearOrder K] [IsStrictOrderedRing K] (x : ℕ → K) (stiff xh : K) (A B : List ℕ) (h : ℕ)
    (nodes : List ℕ) (hnodes : nodes = A ++ h :: B) (hlen : 3 ≤ nodes.length) (hnd : nodes.Nodup)
    (hclose : npIsClose (x h) xh) (hfirst : ∀ n ∈ A, ¬ npIsClose (x n) xh) :
    (∃ parts, addHinge x stiff nodes (chainOf nodes) xh = .ok parts ∧ (parts.flatMap fun p => p.elements) = chainOf nodes) ↔
      A ≠ [] ∧ B ≠ [] := by
  constructor
  · rintro ⟨parts, hok, hel⟩
    constructor
    · rintro rfl
      obtain ⟨q, c, B', rfl⟩ : ∃ q c B', B = q :: c :: B' := by
        subst hnodes
        match B with
        | [] => simp at hlen
        | [_] => simp at hlen
        | q :: c :: B' => exact ⟨q, c, B', rfl⟩
      simp only [List.nil_append] at hnodes
      subst hnodes
      obtain ⟨p1, r, p2, h1, -, h3, h4, h5⟩ := C50_first_violated x stiff xh h q c B' hnd hclose
      rw [h1] at hok
      cases hok
      simp only [List.flatMap_cons, List.flatMap_nil, h3, h4, chainOf, List.singleton_append, List.tail_cons,
        List.zip_cons_cons, List.cons.injEq, Prod.mk.injEq] at hel
      simp only [List.nodup_cons, List.mem_cons] at hnd
      exact hnd.1 (Or.inl hel.1.1.symm)
    · rintro rfl
      rcases List.eq_nil_or_concat A with rfl | ⟨A', p, rfl⟩
      · subst hnodes; simp at hlen
      · rw [List.concat_eq_append] at hnodes hfirst
        have := C50_last_violated x stiff xh A' p h (hnodes ▸ hnd) hclose hfirst
        rw [← hnodes] at this
        rw [this] at hok
        cases hok
  · rintro ⟨hA, hB⟩
    rcases List.eq_nil_or_concat A with rfl | ⟨A', p, rfl⟩
    · exact absurd rfl hA
    · obtain ⟨q, B', rfl⟩ := List.exists_cons_of_ne_nil hB
      rw [List.concat_eq_append] at hnodes hfirst
      obtain ⟨p1, l, r, p2, h1, h2, -⟩ := C50_split_partial x stiff xh A' B' p h q nodes (by rw [hnodes]; simp) hnd hclose hfirst
      refine ⟨_, h1, ?_⟩
      rw [← h2]
      simp [List.append_assoc]

/-- A rail of four nodes at 0, 1, 2, 3 m: a hinge at the third node. -/
example : npIsClose ((fun n : ℕ => (n : ℚ)) 2) 2 ∧ (∀ n ∈ [0, 1], ¬ npIsClose ((fun n : ℕ => (n : ℚ)) n) 2) ∧
    [0, 1, 2, 3] = [0, 1] ++ 2 :: [3] := by
  refine ⟨?_, ?_, rfl⟩
  · unfold npIsClose; norm_num
  · intro n hn
    simp only [List.mem_cons, List.not_mem_nil, or_false] at hn
    rcases hn with rfl | rfl <;> unfold npIsClose <;> norm_num [abs_of_nonneg, abs_of_neg]

/-! ### C110 -/

/-- **C110, exactly when it holds** With distinct contact dofs in the train, repeating the update of the force vector changes nothing if
and only if no wheel has a contact force. -/
theorem C110_iff {K : Type*} [Field K] [LinearOrder K] [IsStrictOrderedRing K] (d : CoupledData K) (t : ℕ) (u : ℕ → K)
    (s : CoupledForces K) (hnd : ((d.wheels t).map WheelAt.dof).Nodup) (hdof : ∀ w ∈ d.wheels t, d.nt ≤ w.dof) :
    (∀ i, (d.updateForceVector t u (d.updateForceVector t u s).2).1 i = (d.updateForceVector t u s).1 i) ↔
      ∀ w ∈ d.wheels t, contactForceAt u w = 0 := by
  constructor
  · intro h w hw
    have h1 := C110_second d t u s hnd w hw (hdof w hw)
    rw [h] at h1
    linarith
  · intro h i
    by_cases hi : i < d.nt
    · exact (C110_partial d t u s).1 i hi
    · by_cases hw : ∃ w ∈ d.wheels t, w.dof = i
      · obtain ⟨w, hw, rfl⟩ := hw
        exact (C110_partial d t u s).2 hnd w hw (hdof w hw) (h w hw)
      · simp only [CoupledData.updateForceVector, CoupledData.contact, updateContactForces, List.map_map, Function.comp_def]
        rw [if_neg hi, if_neg hi]
        unfold addAtDofs
        rw [writes_eq_of_not_mem, if_neg hi]
        intro p hp hpi
        rw [List.mem_map] at hp
        obtain ⟨q, hq, rfl⟩ := hp
        rw [List.mem_map] at hq
        obtain ⟨w, hw', rfl⟩ := hq
        exact hw ⟨w, hw', hpi⟩

/-- The wheel of the example of C110 with the rail and wheel at rest has a contact force. -/
example : ((coupledExample.1.wheels 0).map WheelAt.dof).Nodup ∧ (∀ w ∈ coupledExample.1.wheels 0, coupledExample.1.nt ≤ w.dof) := by
  decide +kernel

/-! ### C27 -/

/-- **C27, exactly when the moment is right** In a shear-rigid element with equal end shear forces, the reported moment at `x` is on the
line between the end moments if and only if `x` is an end of the element or the end moments add up to zero. -/
theorem C27_iff {K : Type*} [Field K] [LinearOrder K] [IsStrictOrderedRing K] (Kel : Matrix (Fin 6) (Fin 6) K) {l : K} (hl : l ≠ 0)
    (u : Fin 6 → K) (hV : (endForces Kel u).1.2.1 = (endForces Kel u).2.2.1) (x : K) :
    (localForcesAt Kel 0 l x u).2.2 = (endForces Kel u).1.2.2 * (1 - x / l) + (endForces Kel u).2.2.2 * (x / l) ↔
      x = 0 ∨ x = l ∨ (endForces Kel u).1.2.2 + (endForces Kel u).2.2.2 = 0 := by
  rw [← sub_eq_zero, C27_moment_error Kel hl u hV x]
  simp only [mul_eq_zero, neg_eq_zero, OfNat.ofNat_ne_zero, false_or, div_eq_zero_iff, hl, or_false, sub_eq_zero]
  rw [eq_comm (a := (1 : K)), div_eq_one_iff_eq hl]
  tauto

/-! ### C43 -/

/-- **C43, exactly what the rail gets** For all wheels, also with common dofs: a rail dof gets the share of the last wheel that touches it
and nothing else; a dof that no wheel touches keeps its load. -/
theorem C43_exact {K : Type*} [Field K] (F : ℕ → K) (before after : List (WheelContact K × K)) (w : WheelContact K × K)
    (k : Fin 4) (i : ℕ) (hk : w.1.dofs k = some i) (hinj : ∀ k', w.1.dofs k' = some i → k' = k)
    (hafter : ∀ w' ∈ after, ∀ k', w'.1.dofs k' ≠ some i) :
    setWheelLoads F (before ++ w :: after) i = w.1.shape k * w.2 ∧
      ∀ j, (∀ w' ∈ before ++ w :: after, ∀ k', w'.1.dofs k' ≠ some j) → setWheelLoads F (before ++ w :: after) j = F j := by
  have hkey : ∀ (v : WheelContact K × K) (k' : Fin 4) (q : ℕ × K), q ∈ wheelDofWrite v k' →
      v.1.dofs k' = some q.1 ∧ q.2 = v.1.shape k' * v.2 := by
    intro v k' q hq
    unfold wheelDofWrite at hq
    cases hd : v.1.dofs k' with
    | none => rw [hd] at hq; simp at hq
    | some j => rw [hd] at hq; simp at hq; subst hq; exact ⟨rfl, rfl⟩
  have hin : ∀ (l : List (WheelContact K × K)) (q : ℕ × K), q ∈ wheelLoadWrites l → ∃ v ∈ l, ∃ k', q ∈ wheelDofWrite v k' := by
    intro l q hq
    unfold wheelLoadWrites at hq
    rw [List.mem_flatMap] at hq
    obtain ⟨v, hv, hq⟩ := hq
    rw [List.mem_flatMap] at hq
    obtain ⟨k', -, hq⟩ := hq
    exact ⟨v, hv, k', hq⟩
  constructor
  · have hsplit : setWheelLoads F (before ++ w :: after) =
        writes (writes (writes F (wheelLoadWrites before)) (wheelLoadWrites [w])) (wheelLoadWrites after) := by
      simp [setWheelLoads, wheelLoadWrites, writes, List.foldl_append]
    rw [hsplit, writes_eq_of_not_mem]
    · apply writes_eq_of_mem
      · intro q hq hqi
        obtain ⟨v, hv, k', hq'⟩ := hin _ _ hq
        rw [List.mem_singleton] at hv
        rw [hv] at hq'
        obtain ⟨h1, h2⟩ := hkey _ _ _ hq'
        rw [hqi] at h1
        rw [h2, hinj k' h1]
      · refine ⟨(i, w.1.shape k * w.2), ?_, rfl⟩
        unfold wheelLoadWrites
        rw [List.mem_flatMap]
        refine ⟨w, by simp, ?_⟩
        rw [List.mem_flatMap]
        refine ⟨k, by fin_cases k <;> simp, ?_⟩
        simp [wheelDofWrite, hk]
    · intro q hq hqi
      obtain ⟨v, hv, k', hq⟩ := hin _ _ hq
      exact hafter v hv k' (hqi ▸ (hkey _ _ _ hq).1)
  · intro j hj
    unfold setWheelLoads
    apply writes_eq_of_not_mem
    intro q hq hqj
    obtain ⟨v, hv, k', hq⟩ := hin _ _ hq
    exact hj v hv k' (hqj ▸ (hkey _ _ _ hq).1)

/-- Two wheels on one element: the second one is the last that touches its four dofs. -/
example : ∃ w w' : WheelContact ℚ × ℚ, (∃ i, w.1.dofs 0 = some i ∧ w'.1.dofs 0 = some i) ∧
    (∀ k k', w'.1.dofs k' = w'.1.dofs k → k' = k) ∧ w.2 ≠ w'.2 :=
  ⟨(⟨![some 0, some 1, some 2, some 3], ![1, 0, 0, 0]⟩, 5), (⟨![some 0, some 1, some 2, some 3], ![1 / 2, 1 / 8, 1 / 2, -1 / 8]⟩, 7),
    ⟨0, rfl, rfl⟩, by decide, by norm_num⟩

/-! ### C61 -/

/-- **C61, exactly when it holds for a single train** Of the `N ≥ 1` passages of a train all are applied if and only if the period starts
at a day not after `N`. -/
theorem C61_iff (N : ℕ) (hN : 1 ≤ N) (start : ℝ) (steps : ℕ) :
    (⟨[N], start, steps⟩ : Traffic).applied 0 = N ↔ start ≤ N := by
  constructor
  · intro h
    by_contra hc
    have := C61_lost N hN start (not_le.1 hc) steps
    omega
  · exact fun h => C61_start_partial [N] N (by simp) start h steps 0 (by simp)

end Rose
