/-
C10 supports, C12 Rayleigh damping, C13 time stages, C14 load ramp, C15 right hand side, C78 validation.
-/
import Verif.Model.System
import Mathlib.Tactic.FieldSimp
import Mathlib.Tactic.LinearCombination
import Mathlib.Tactic.Positivity
import Mathlib.Tactic.Linarith
import Mathlib.Tactic.IntervalCases
import Mathlib.Data.List.GetD
import Mathlib.Algebra.BigOperators.Fin

set_option linter.unusedSectionVars false

namespace Rose

/-! ### C10 -/

theorem setConstraint_apply (flags : ℕ → Fin 3 → Bool) (p : ConstraintPart) (n : ℕ) :
    setConstraint flags p n = if n ∈ p.nodes then p.free else flags n := by
  unfold setConstraint
  induction p.nodes generalizing flags with
  | nil => simp
  | cons m ms ih =>
    rw [List.foldl_cons, ih]
    by_cases h : n ∈ ms
    · simp [h]
    · by_cases h2 : n = m
      · subst h2; simp [h]
      · simp [h, h2]

/-- What the code does for supports: the LAST constraint part that contains the node determines all its flags; a node
in none of them keeps its own. -/
theorem C10_last_wins (flags : ℕ → Fin 3 → Bool) (before after : List ConstraintPart) (p : ConstraintPart) (n : ℕ)
    (hp : n ∈ p.nodes) (hafter : ∀ q ∈ after, n ∉ q.nodes) :
    setConstraints flags (before ++ p :: after) n = p.free := by
  unfold setConstraints
  rw [List.foldl_append, List.foldl_cons]
  generalize before.foldl setConstraint flags = f
  have : ∀ (qs : List ConstraintPart) (g : ℕ → Fin 3 → Bool), (∀ q ∈ qs, n ∉ q.nodes) →
      qs.foldl setConstraint g n = g n := by
    intro qs
    induction qs with
    | nil => intro g _; rfl
    | cons q qs ih =>
      intro g h
      rw [List.foldl_cons, ih _ (fun r hr => h r (by simp [hr])), setConstraint_apply]
      simp [h q (by simp)]
  rw [this after _ hafter, setConstraint_apply]
  simp [hp]

theorem C10_untouched (flags : ℕ → Fin 3 → Bool) (ps : List ConstraintPart) (n : ℕ) (h : ∀ q ∈ ps, n ∉ q.nodes) :
    setConstraints flags ps n = flags n := by
  unfold setConstraints
  induction ps generalizing flags with
  | nil => rfl
  | cons q qs ih =>
    rw [List.foldl_cons, ih _ (fun r hr => h r (by simp [hr])), setConstraint_apply]
    simp [h q (by simp)]

/-- C10 as far as it holds: a dof that was free before is fixed exactly if some constraint part fixes it, provided
that of two constraint parts sharing the node the later one fixes at least what the earlier one fixes.
Missing: without that hypothesis a later part releases what an earlier part fixed (`C10_violated`). -/
theorem C10_accumulate_partial (flags : ℕ → Fin 3 → Bool) (ps : List ConstraintPart) (n : ℕ) (d : Fin 3)
    (hfree : flags n d = true)
    (hord : ps.Pairwise fun p q => n ∈ p.nodes → n ∈ q.nodes → p.free d = false → q.free d = false) :
    setConstraints flags ps n d = false ↔ ∃ p ∈ ps, n ∈ p.nodes ∧ p.free d = false := by
  have key : ∀ (ps : List ConstraintPart) (g : ℕ → Fin 3 → Bool),
      (ps.Pairwise fun p q => n ∈ p.nodes → n ∈ q.nodes → p.free d = false → q.free d = false) →
      (g n d = false → ∀ q ∈ ps, n ∈ q.nodes → q.free d = false) →
      (ps.foldl setConstraint g n d = false ↔ g n d = false ∨ ∃ p ∈ ps, n ∈ p.nodes ∧ p.free d = false) := by
    intro ps
    induction ps with
    | nil => intro g _ _; simp
    | cons p ps ih =>
      intro g hp hg
      rw [List.pairwise_cons] at hp
      rw [List.foldl_cons, ih _ hp.2]
      · rw [setConstraint_apply]
        by_cases hn : n ∈ p.nodes
        · simp only [hn, if_true, List.mem_cons, exists_eq_or_imp, true_and]
          constructor
          · rintro (h | h)
            · exact Or.inr (Or.inl h)
            · exact Or.inr (Or.inr h)
          · rintro (h | h | h)
            · exact Or.inl (hg h p (by simp) hn)
            · exact Or.inl h
            · exact Or.inr h
        · simp [hn]
      · rw [setConstraint_apply]
        intro h q hq hqn
        by_cases hn : n ∈ p.nodes
        · simp only [hn, if_true] at h
          exact hp.1 q hq hn hqn h
        · simp only [hn, if_false] at h
          exact hg h q (by simp [hq]) hqn
  have := key ps flags hord (by simp [hfree])
  unfold setConstraints
  rw [this]
  simp [hfree]

example : [(⟨[0, 1], ![false, true, true]⟩ : ConstraintPart), ⟨[1, 2], ![false, false, true]⟩].Pairwise
    fun p q => 1 ∈ p.nodes → 1 ∈ q.nodes → p.free 0 = false → q.free 0 = false := by
  simp

/-- C10 fails: node 1 is fixed in y by the first part; a second part that fixes x (and leaves y free) releases it. -/
theorem C10_violated :
    let first : ConstraintPart := ⟨[0, 1], ![true, false, true]⟩
    let second : ConstraintPart := ⟨[1], ![false, true, true]⟩
    1 ∈ first.nodes ∧ first.free 1 = false ∧ setConstraints (fun _ _ => true) [first, second] 1 1 = true := by
  decide

/-! ### C12 -/

section rayleigh
variable {K : Type*} [Field K] [LinearOrder K] [IsStrictOrderedRing K] {n : ℕ}

/-- Specification: `phi` is an undamped mode with radial frequency `w`. -/
def UndampedMode (M Kg : Matrix (Fin n) (Fin n) K) (w : K) (phi : Fin n → K) : Prop :=
  Kg.mulVec phi = w ^ 2 • M.mulVec phi

/-- Specification: the damping matrix `D` damps the mode `phi` of frequency `w` with damping ratio `z`: the modal
equation is `q'' + 2 z w q' + w² q = 0`. -/
def HasDampingRatio (M D : Matrix (Fin n) (Fin n) K) (w : K) (phi : Fin n → K) (z : K) : Prop :=
  D.mulVec phi = (2 * z * w) • M.mulVec phi

/-- The damping matrix that the calculation adds. -/
def addedDamping (ratio w1 w2 : K) (M C Kg : Matrix (Fin n) (Fin n) K) : Matrix (Fin n) (Fin n) K :=
  rayleighDamping true ratio w1 w2 M C Kg - C

theorem addedDamping_mode (ratio w1 w2 w : K) (M C Kg : Matrix (Fin n) (Fin n) K) (phi : Fin n → K)
    (h : UndampedMode M Kg w phi) :
    (addedDamping ratio w1 w2 M C Kg).mulVec phi =
      ((rayleighFactors ratio w1 w2).1 + (rayleighFactors ratio w1 w2).2 * w ^ 2) • M.mulVec phi := by
  simp only [addedDamping, rayleighDamping, if_true, add_sub_cancel_left, Matrix.add_mulVec, Matrix.smul_mulVec]
  rw [h, smul_smul, ← add_smul]

/-- C12: a mode at either control frequency gets exactly the requested damping ratio. -/
theorem C12_control_frequencies (ratio : K) {w1 w2 : K} (h1 : 0 < w1) (h2 : 0 < w2)
    (M C Kg : Matrix (Fin n) (Fin n) K) (phi : Fin n → K) :
    (UndampedMode M Kg w1 phi → HasDampingRatio M (addedDamping ratio w1 w2 M C Kg) w1 phi ratio) ∧
    (UndampedMode M Kg w2 phi → HasDampingRatio M (addedDamping ratio w1 w2 M C Kg) w2 phi ratio) := by
  have hs : w1 + w2 ≠ 0 := (add_pos h1 h2).ne'
  constructor <;> intro h <;> unfold HasDampingRatio <;> rw [addedDamping_mode _ _ _ _ _ _ _ _ h] <;> congr 1 <;>
    simp only [rayleighFactors] <;> field_simp <;> ring

/-- C12: every mode has a damping ratio; it is below the requested ratio strictly between the control frequencies and
above it strictly outside. -/
theorem C12_other_frequencies {ratio w1 w2 w : K} (hr : 0 < ratio) (h1 : 0 < w1) (h2 : 0 < w2) (hw : 0 < w)
    (M C Kg : Matrix (Fin n) (Fin n) K) (phi : Fin n → K) (h : UndampedMode M Kg w phi) :
    ∃ z, HasDampingRatio M (addedDamping ratio w1 w2 M C Kg) w phi z ∧
      ((w1 < w ∧ w < w2 ∨ w2 < w ∧ w < w1) → z < ratio) ∧
      ((w < w1 ∧ w < w2 ∨ w1 < w ∧ w2 < w) → ratio < z) := by
  have hs : 0 < w1 + w2 := add_pos h1 h2
  refine ⟨ratio * (w1 * w2 + w ^ 2) / ((w1 + w2) * w), ?_, ?_, ?_⟩
  · unfold HasDampingRatio
    rw [addedDamping_mode _ _ _ _ _ _ _ _ h]
    congr 1
    simp only [rayleighFactors]
    field_simp
  · intro hc
    rw [div_lt_iff₀ (by positivity)]
    have : (w - w1) * (w - w2) < 0 := by
      rcases hc with ⟨a, b⟩ | ⟨a, b⟩
      · exact mul_neg_of_pos_of_neg (by linarith) (by linarith)
      · exact mul_neg_of_neg_of_pos (by linarith) (by linarith)
    nlinarith [mul_neg_of_pos_of_neg hr this]
  · intro hc
    rw [lt_div_iff₀ (by positivity)]
    have : 0 < (w - w1) * (w - w2) := by
      rcases hc with ⟨a, b⟩ | ⟨a, b⟩
      · exact mul_pos_of_neg_of_neg (by linarith) (by linarith)
      · exact mul_pos (by linarith) (by linarith)
    nlinarith [mul_pos hr this]

/-- C12: with Rayleigh damping off, nothing is added. -/
theorem C12_off (ratio w1 w2 : K) (M C Kg : Matrix (Fin n) (Fin n) K) :
    rayleighDamping false ratio w1 w2 M C Kg = C := by simp [rayleighDamping]

/-- The hypotheses are met by a mode of a two-degree-of-freedom system that does have non-zero inertia. -/
example : UndampedMode (!![1, 0; 0, 4] : Matrix (Fin 2) (Fin 2) ℚ) !![9, 0; 0, 16] 3 ![1, 0] ∧
    (!![1, 0; 0, 4] : Matrix (Fin 2) (Fin 2) ℚ).mulVec ![1, 0] ≠ 0 := by
  constructor
  · ext i; fin_cases i <;> simp [Matrix.mulVec, dotProduct, Fin.sum_univ_two]; norm_num
  · intro h; have := congrFun h 0; simp [Matrix.mulVec, dotProduct] at this

end rayleigh

/-! ### C13 -/

section stages
variable {K : Type*} [Field K] [DecidableEq K]

theorem npDiff_length (l : List K) : (npDiff l).length = l.length - 1 := by
  induction l with
  | nil => rfl
  | cons a l ih =>
    cases l with
    | nil => rfl
    | cons b l => simp [npDiff] at ih ⊢; omega

theorem npDiff_getD (l : List K) (i : ℕ) (h : i + 1 < l.length) :
    (npDiff l).getD i 0 = l.getD (i + 1) 0 - l.getD i 0 := by
  induction l generalizing i with
  | nil => simp at h
  | cons a l ih =>
    cases l with
    | nil => simp at h
    | cons b l =>
      cases i with
      | zero => simp [npDiff]
      | succ i =>
        simp only [npDiff, List.getD_cons_succ]
        simp only [List.length_cons] at h ih
        exact ih i (by omega)

/-- Specification: rounded size of time step `i` (from time `i` to time `i+1`). -/
def stepSize (rnd : K → K) (time : List K) (i : ℕ) : K := rnd (time.getD (i + 1) 0 - time.getD i 0)

theorem mem_firstOccurrences (rnd : K → K) (time : List K) (i : ℕ) :
    i ∈ firstOccurrences ((npDiff time).map rnd) ↔
      i < time.length - 1 ∧ ∀ j < i, stepSize rnd time j ≠ stepSize rnd time i := by
  unfold firstOccurrences
  have hlen : ((npDiff time).map rnd).length = time.length - 1 := by simp [npDiff_length]
  rw [List.mem_filter, List.mem_range, hlen]
  have hget : ∀ j, j < time.length - 1 → ((npDiff time).map rnd).getD j 0 = stepSize rnd time j := by
    intro j hj
    have h1 : j < (npDiff time).length := by rw [npDiff_length]; exact hj
    rw [List.getD_eq_getElem _ _ (by simpa using h1), List.getElem_map]
    rw [stepSize, ← npDiff_getD time j (by omega), List.getD_eq_getElem _ _ h1]
  constructor
  · rintro ⟨hi, h⟩
    refine ⟨hi, ?_⟩
    intro j hj he
    simp only [decide_eq_true_eq] at h
    apply h
    rw [hget i hi, ← he, ← hget j (by omega)]
    rw [List.getD_eq_getElem _ _ (by omega)]
    rw [List.mem_iff_getElem]
    exact ⟨j, by rw [List.length_take]; omega, by rw [List.getElem_take]⟩
  · rintro ⟨hi, h⟩
    refine ⟨hi, ?_⟩
    simp only [decide_eq_true_eq]
    intro hm
    rw [List.mem_iff_getElem] at hm
    obtain ⟨j, hj, he⟩ := hm
    rw [List.length_take] at hj
    rw [List.getElem_take] at he
    apply h j (by omega)
    rw [← hget j (by omega), ← hget i hi, ← he, List.getD_eq_getElem _ _ (by omega)]

/-- C13: the stage boundaries start at the first time index, end at the last and increase strictly. -/
theorem C13_contiguous (rnd : K → K) (time : List K) (h : 2 ≤ time.length) :
    (stageTimeIds rnd time).head? = some 0 ∧ (stageTimeIds rnd time).getLast? = some (time.length - 1) ∧
      (stageTimeIds rnd time).Pairwise (· < ·) := by
  refine ⟨?_, by simp [stageTimeIds], ?_⟩
  · have h0 : 0 ∈ firstOccurrences ((npDiff time).map rnd) := by
      rw [mem_firstOccurrences]; exact ⟨by omega, by simp⟩
    have hlen : ((npDiff time).map rnd).length = time.length - 1 := by simp [npDiff_length]
    unfold stageTimeIds firstOccurrences
    obtain ⟨k, hk⟩ : ∃ k, ((npDiff time).map rnd).length = k + 1 := ⟨time.length - 2, by omega⟩
    rw [hk, List.range_succ_eq_map, List.filter_cons]
    simp
  · unfold stageTimeIds
    rw [List.pairwise_append]
    refine ⟨(List.pairwise_lt_range).filter _, List.pairwise_singleton _ _, ?_⟩
    intro a ha b hb
    rw [List.mem_singleton] at hb
    rw [mem_firstOccurrences] at ha
    omega

/-- Specification: all time steps inside each stage are equal (after rounding). A stage is the set of steps between
two consecutive boundaries. -/
def UniformStages (rnd : K → K) (time : List K) (ids : List ℕ) : Prop :=
  ∀ k (hk : k + 1 < ids.length), ∀ i, ids[k] ≤ i → i < ids[k + 1] → stepSize rnd time i = stepSize rnd time ids[k]

/-- Exact characterisation of C13: the stages have one step size each if and only if no step size recurs after a
different one. -/
theorem C13_uniform_iff (rnd : K → K) (time : List K) :
    UniformStages rnd time (stageTimeIds rnd time) ↔
      ∀ i j k, i < j → j < k → k < time.length - 1 → stepSize rnd time i = stepSize rnd time k →
        stepSize rnd time j = stepSize rnd time i := by
  set ids := stageTimeIds rnd time with hids
  have hsort : 2 ≤ time.length → ids.Pairwise (· < ·) := fun h => (C13_contiguous rnd time h).2.2
  have hmem : ∀ i, i ∈ ids ↔ (i < time.length - 1 ∧ ∀ j < i, stepSize rnd time j ≠ stepSize rnd time i) ∨
      i = time.length - 1 := by
    intro i; rw [hids, stageTimeIds, List.mem_append, mem_firstOccurrences, List.mem_singleton]
  have hlast : ∀ k (hk : k < ids.length), k + 1 = ids.length → ids[k] = time.length - 1 := by
    intro k hk he
    have hl : ids.getLast? = some (time.length - 1) := by rw [hids]; simp [stageTimeIds]
    rw [List.getLast?_eq_getElem?] at hl
    have : ids.length - 1 = k := by omega
    rw [this, List.getElem?_eq_getElem hk] at hl
    simpa using hl
  constructor
  · intro hu i j k hij hjk hk he
    have hlen : 2 ≤ time.length := by omega
    have hs := hsort hlen
    -- every step has the size of the last boundary at or before it
    have hb : ∀ m, m < time.length - 1 → ∃ a, ∃ (ha : a + 1 < ids.length), ids[a] ≤ m ∧ m < ids[a + 1] := by
      intro m hm
      have h0 : ids.head? = some 0 := (C13_contiguous rnd time hlen).1
      have hpos : 0 < ids.length := by
        rcases hc : ids with _ | ⟨x, xs⟩
        · rw [hc] at h0; simp at h0
        · simp
      have hz : ids[0] = 0 := by
        rw [List.head?_eq_getElem?, List.getElem?_eq_getElem hpos] at h0; simpa using h0
      have key : ∀ a (ha : a < ids.length), ids[a] ≤ m → ∃ b, ∃ (hb : b + 1 < ids.length), ids[b] ≤ m ∧ m < ids[b + 1] := by
        intro a ha
        induction hn : ids.length - a generalizing a with
        | zero => omega
        | succ n ih =>
          intro hle
          by_cases h1 : a + 1 < ids.length
          · by_cases h2 : m < ids[a + 1]
            · exact ⟨a, h1, hle, h2⟩
            · exact ih (a + 1) h1 (by omega) (by omega)
          · have := hlast a ha (by omega)
            omega
      exact key 0 hpos (by omega)
    -- boundaries of the steps
    obtain ⟨a, ha, ha1, ha2⟩ := hb i (by omega)
    obtain ⟨c, hc, hc1, hc2⟩ := hb k (by omega)
    have hai := hu a ha i ha1 ha2
    have hck := hu c hc k hc1 hc2
    have hlt : ∀ p q (hp : p < ids.length) (hq : q < ids.length), p < q → ids[p] < ids[q] := by
      intro p q hp hq hpq
      exact List.pairwise_iff_getElem.1 hs p q hp hq hpq
    -- the two boundaries are the same
    have hac : a = c := by
      rcases lt_trichotomy a c with h | h | h
      · exfalso
        have hm : ids[c] ∈ ids := List.getElem_mem _
        rcases (hmem _).1 hm with h1 | h1
        · exact h1.2 ids[a] (hlt a c (by omega) (by omega) h) (by rw [← hai, ← hck, he])
        · have := hlt c (c + 1) (by omega) hc (by omega)
          rcases (hmem ids[c + 1]).1 (List.getElem_mem _) with h2 | h2 <;> omega
      · exact h
      · exfalso
        have : ids[c + 1] ≤ ids[a] := by
          rcases (show c + 1 < a ∨ c + 1 = a by omega) with h1 | h1
          · exact (hlt (c + 1) a hc (by omega) h1).le
          · subst h1; exact le_refl _
        omega
    subst hac
    rw [hu a ha j (by omega) (by omega), hai]
  · intro hno a ha i h1 h2
    have hlen : 2 ≤ time.length := by
      by_contra hc
      have : ids.length = 1 := by
        rw [hids, stageTimeIds, List.length_append, List.length_singleton]
        have : firstOccurrences ((npDiff time).map rnd) = [] := by
          rw [List.eq_nil_iff_forall_not_mem]
          intro x hx; rw [mem_firstOccurrences] at hx; omega
        rw [this]; rfl
      omega
    have hs := hsort hlen
    have hi : i < time.length - 1 := by
      rcases (hmem ids[a + 1]).1 (List.getElem_mem _) with h | h <;> omega
    by_contra hne
    have hgt : ids[a] < i := by
      rcases (show ids[a] < i ∨ ids[a] = i by omega) with h | h
      · exact h
      · exfalso; exact hne (by rw [h])
    -- the first occurrence of the size of step i
    have hex : ∃ j, stepSize rnd time j = stepSize rnd time i := ⟨i, rfl⟩
    classical
    have hf := Nat.find_spec hex
    have hfmin := fun m => Nat.find_min hex (m := m)
    set f := Nat.find hex with hfdef
    have hfi : f ≤ i := Nat.find_min' hex rfl
    have hfmem : f ∈ ids := (hmem f).2 (Or.inl ⟨by omega, by
      intro j hj he
      exact hfmin j hj (he.trans hf)⟩)
    obtain ⟨b, hb, hbe⟩ := List.mem_iff_getElem.1 hfmem
    have hle : f ≤ ids[a] := by
      rcases (show b ≤ a ∨ a + 1 ≤ b by omega) with h | h
      · rcases (show b < a ∨ b = a by omega) with h' | h'
        · have := List.pairwise_iff_getElem.1 hs b a hb (by omega) h'; omega
        · subst h'; omega
      · exfalso
        rcases (show a + 1 < b ∨ a + 1 = b by omega) with h' | h'
        · have := List.pairwise_iff_getElem.1 hs (a + 1) b ha hb h'; omega
        · subst h'; omega
    rcases (show f < ids[a] ∨ f = ids[a] by omega) with h | h
    · have := hno f ids[a] i h hgt hi hf
      exact hne (by rw [this, hf])
    · exact hne (by rw [← h, hf])

/-- C13 as far as it holds. Missing: a time array whose step size returns to an earlier value, `C13_violated`. -/
theorem C13_uniform_partial (rnd : K → K) (time : List K)
    (h : ∀ i j k, i < j → j < k → k < time.length - 1 → stepSize rnd time i = stepSize rnd time k →
        stepSize rnd time j = stepSize rnd time i) :
    UniformStages rnd time (stageTimeIds rnd time) := (C13_uniform_iff rnd time).2 h

/-- A time array with two stages. -/
example : stageTimeIds id [0, 1, 2, 4, 6, (8 : ℚ)] = [0, 2, 5] := by decide +kernel

/-- C13 fails when a step size recurs: for the times 0, 1, 3, 4 the stages are 0-1 and 1-3; the second stage has steps
2 and 1. -/
theorem C13_violated : stageTimeIds id [0, 1, 3, (4 : ℚ)] = [0, 1, 3] ∧
    ¬ UniformStages id [0, 1, 3, (4 : ℚ)] (stageTimeIds id [0, 1, 3, (4 : ℚ)]) := by
  have h : stageTimeIds id [0, 1, 3, (4 : ℚ)] = [0, 1, 3] := by decide +kernel
  refine ⟨h, ?_⟩
  rw [h]
  intro hu
  have := hu 1 (by simp) 2 (by simp) (by simp)
  norm_num [stepSize] at this

end stages

/-! ### C14 -/

section ramp
variable {K : Type*} [Field K] [LinearOrder K] [IsStrictOrderedRing K]

/-- C14: with an initialisation phase of `m` time steps (not longer than the whole time array) the load at index `i` is
linear in `i` during the phase, from zero, and equals the given load afterwards; with `m ≥ 2` the load is reached at
the last step of the phase; with `m = 0` the load is constant. -/
theorem C14_ramp (n m : ℕ) (load : K) (hm : m ≤ n) :
    ∃ l, loadRamp n m m load = .ok l ∧ l.length = n ∧
      (∀ i < n, m ≤ i → l.getD i 0 = load) ∧
      (∀ i < m, l.getD i 0 * (m - 1) = load * i) ∧
      (0 < m → l.getD 0 0 = 0) ∧ (2 ≤ m → l.getD (m - 1) 0 = load) := by
  have hlin : (linspaceFromZero load m).length = m := by simp [linspaceFromZero]
  refine ⟨linspaceFromZero load m ++ (List.replicate n load).drop m, ?_, ?_, ?_, ?_, ?_, ?_⟩
  · simp [loadRamp, hlin, hm]
  · simp [hlin]; omega
  · intro i hi hmi
    rw [List.getD_append_right _ _ _ _ (by omega), hlin]
    rw [List.getD_eq_getElem _ _ (by simp; omega)]
    simp
  · intro i hi
    rw [List.getD_append _ _ _ _ (by omega), List.getD_eq_getElem _ _ (by omega)]
    simp only [linspaceFromZero, List.getElem_map, List.getElem_range]
    split_ifs with h1
    · subst h1; have : i = 0 := by omega
      simp [this]
    · have : (m : K) - 1 ≠ 0 := by
        rw [sub_ne_zero]; exact_mod_cast h1
      field_simp
  · intro hpos
    rw [List.getD_append _ _ _ _ (by omega), List.getD_eq_getElem _ _ (by omega)]
    simp [linspaceFromZero]
  · intro h2
    rw [List.getD_append _ _ _ _ (by omega), List.getD_eq_getElem _ _ (by omega)]
    simp only [linspaceFromZero, List.getElem_map, List.getElem_range]
    have : (m : K) - 1 ≠ 0 := by rw [sub_ne_zero]; exact_mod_cast (by omega : m ≠ 1)
    rw [if_neg (by omega), Nat.cast_sub (by omega)]
    push_cast
    field_simp

/-- C14: the load never exceeds the given load in absolute value, and never has the opposite sign. -/
theorem C14_bounded (n m b : ℕ) (load : K) (l : List K) (h : loadRamp n m b load = .ok l) :
    ∀ v ∈ l, |v| ≤ |load| ∧ 0 ≤ v * load := by
  have hlin : ∀ v ∈ linspaceFromZero load m, |v| ≤ |load| ∧ 0 ≤ v * load := by
    intro v hv
    simp only [linspaceFromZero, List.mem_map, List.mem_range] at hv
    obtain ⟨i, hi, rfl⟩ := hv
    split_ifs with h1
    · simp
    · have hm : (1 : K) < m := by exact_mod_cast (by omega : 1 < m)
      have hpos : (0 : K) < m - 1 := by linarith
      have hi' : (i : K) ≤ m - 1 := by
        have : (i : K) + 1 ≤ m := by exact_mod_cast hi
        linarith
      have hf0 : 0 ≤ (i : K) / (m - 1) := div_nonneg (Nat.cast_nonneg i) hpos.le
      have hf1 : (i : K) / (m - 1) ≤ 1 := by rw [div_le_one hpos]; exact hi'
      rw [mul_div_assoc]
      constructor
      · rw [abs_mul, abs_of_nonneg hf0]
        exact mul_le_of_le_one_right (abs_nonneg _) hf1
      · have := mul_nonneg hf0 (mul_self_nonneg load)
        nlinarith
  have hbase : ∀ v ∈ (List.replicate n load).drop (min b n), |v| ≤ |load| ∧ 0 ≤ v * load := by
    intro v hv
    have := List.eq_of_mem_replicate (List.mem_of_mem_drop hv)
    subst this
    exact ⟨le_refl _, mul_self_nonneg _⟩
  unfold loadRamp at h
  simp only at h
  split_ifs at h with h1
  · injection h with h; subst h
    intro v hv
    rcases List.mem_append.1 hv with h | h
    · exact hlin v h
    · exact hbase v h
  · split at h
    · next v' hv' =>
      injection h with h; subst h
      intro v hv
      rcases List.mem_append.1 hv with h | h
      · rw [List.eq_of_mem_replicate h]
        exact hlin v' (by rw [hv']; simp)
      · exact hbase v h
    · exact absurd h (by simp)

/-- C14: an initialisation phase longer than the whole time array is rejected with an error. -/
theorem C14_too_long (n m : ℕ) (load : K) (h : n < m) (h2 : 2 ≤ m) : loadRamp n m m load = .error .valueError := by
  have hlin : (linspaceFromZero load m).length = m := by simp [linspaceFromZero]
  unfold loadRamp
  simp only [hlin]
  rw [if_neg (by omega)]
  split
  · next v hv => rw [hv] at hlin; simp at hlin; omega
  · rfl

example : loadRamp 5 3 3 (8 : ℚ) = .ok [0, 4, 8, 8, 8] := by
  simp only [loadRamp, linspaceFromZero]
  norm_num [List.range_succ, List.replicate]

end ramp

/-! ### C15 -/

section rhs
variable {K : Type*} [Field K]

/-- Specification: the force that a condition puts on equation `e`: the sum over its nodes and its active dofs that
carry this equation. -/
def conditionForce (c : LoadPart K) (e : ℕ) : K :=
  ∑ i ∈ Finset.range c.nodes.length, ∑ d : Fin 3,
    if c.act d = true ∧ (c.nodes.getD i fun _ => none) d = some e then (c.force.getD i fun _ => 0) d else 0

/-- Specification: no equation is listed twice by the condition (its nodes are distinct). -/
def DistinctDofs (c : LoadPart K) : Prop :=
  ∀ i < c.nodes.length, ∀ j < c.nodes.length, ∀ d d' : Fin 3, ∀ e : ℕ, c.act d = true → c.act d' = true →
    (c.nodes.getD i fun _ => none) d = some e → (c.nodes.getD j fun _ => none) d' = some e → i = j ∧ d = d'

theorem fancyAdd_apply (F : ℕ → K) (ivs : List (ℕ × K)) (hnd : (ivs.map Prod.fst).Nodup) (e : ℕ) :
    fancyAdd F ivs e = F e + (ivs.map fun p => if p.1 = e then p.2 else 0).sum := by
  have key : ∀ (ivs : List (ℕ × K)) (G : ℕ → K), (ivs.map Prod.fst).Nodup →
      (∀ p ∈ ivs, G p.1 = F p.1) →
      (ivs.map fun p => (p.1, F p.1 + p.2)).foldl write G e =
        G e + (ivs.map fun p => if p.1 = e then p.2 else 0).sum := by
    intro ivs
    induction ivs with
    | nil => intro G _ _; simp
    | cons p ps ih =>
      intro G hnd hG
      simp only [List.map_cons, List.nodup_cons] at hnd
      rw [List.map_cons, List.foldl_cons, ih _ hnd.2]
      · simp only [write, List.map_cons, List.sum_cons]
        by_cases h : e = p.1
        · subst h
          have := hG p (by simp)
          simp [this, add_assoc]
        · simp [h, Ne.symm h]
      · intro q hq
        have hne : q.1 ≠ p.1 := by
          intro h; exact hnd.1 (by rw [← h]; exact List.mem_map_of_mem hq)
        simp only [write, if_neg hne]
        exact hG q (by simp [hq])
  exact key ivs F hnd (fun _ _ => rfl)

theorem masked_sum (c : LoadPart K) (e : ℕ) :
    (c.masked.map fun p => if p.1 = e then p.2 else 0).sum = conditionForce c e := by
  unfold LoadPart.masked conditionForce flatPositions
  have h1 : ∀ (l : List (ℕ × Fin 3)) (f : ℕ × Fin 3 → Option (ℕ × K)),
      ((l.filterMap f).map fun p => if p.1 = e then p.2 else 0).sum =
        (l.map fun p => match f p with | some q => if q.1 = e then q.2 else 0 | none => 0).sum := by
    intro l f
    induction l with
    | nil => simp
    | cons a l ih =>
      rw [List.filterMap_cons]
      cases hf : f a with
      | none => simp [hf, ih]
      | some q => simp [hf, ih]
  rw [h1, List.map_flatMap, List.flatMap_def, List.sum_flatten, List.map_map, Finset.sum_range]
  rw [Fin.sum_univ_def, ← List.map_coe_finRange_eq_range, List.map_map]
  congr 1
  apply List.map_congr_left
  intro i _
  simp only [Function.comp, List.map_cons, List.map_nil, List.sum_cons, List.sum_nil, Fin.sum_univ_three, add_zero]
  have h2 : ∀ d : Fin 3,
      (match (if c.act d = true then
          ((c.nodes.getD (↑i) fun _ => none) d).map fun e' => (e', (c.force.getD (↑i) fun _ => 0) d) else none) with
        | some q => if q.1 = e then q.2 else 0
        | none => 0) =
      if c.act d = true ∧ (c.nodes.getD (↑i) fun _ => none) d = some e then (c.force.getD (↑i) fun _ => 0) d else 0 := by
    intro d
    by_cases ha : c.act d = true
    · simp only [ha, if_true, true_and]
      cases (c.nodes.getD (↑i) fun _ => none) d with
      | none => simp
      | some k => simp
    · simp [ha]
  rw [h2, h2, h2]
  ring

theorem masked_nodup (c : LoadPart K) (h : DistinctDofs c) : (c.masked.map Prod.fst).Nodup := by
  have hpos : (flatPositions c.nodes.length).Nodup := by
    unfold flatPositions
    rw [List.nodup_flatMap]
    refine ⟨?_, ?_⟩
    · intro i _; simp
    · refine List.nodup_range.imp ?_
      intro a b hab
      rw [Function.onFun, List.disjoint_left]
      intro x hx hx'
      simp at hx hx'
      rcases hx with rfl | rfl | rfl <;> simp_all
  have hlt : ∀ p ∈ flatPositions c.nodes.length, p.1 < c.nodes.length := by
    intro p hp
    unfold flatPositions at hp
    rw [List.mem_flatMap] at hp
    obtain ⟨i, hi, hp⟩ := hp
    rw [List.mem_range] at hi
    simp at hp
    rcases hp with rfl | rfl | rfl <;> exact hi
  unfold LoadPart.masked
  rw [List.map_filterMap]
  apply List.Pairwise.filterMap (R := fun p q : ℕ × Fin 3 => p ≠ q ∧ p.1 < c.nodes.length ∧ q.1 < c.nodes.length)
  · rintro p q ⟨hne, hp, hq⟩ e he e' he' hee
    subst hee
    simp only [Option.map_eq_some_iff] at he he'
    obtain ⟨a, ha, hae⟩ := he
    obtain ⟨b, hb, hbe⟩ := he'
    split_ifs at ha with hap
    split_ifs at hb with hbq
    simp only [Option.map_eq_some_iff] at ha hb
    obtain ⟨a', ha', rfl⟩ := ha
    obtain ⟨b', hb', rfl⟩ := hb
    simp only at hae hbe
    subst hae
    subst hbe
    have := h p.1 hp q.1 hq p.2 q.2 _ hap hbq ha' hb'
    exact hne (Prod.ext this.1 this.2)
  · exact List.Pairwise.imp_of_mem (fun ha hb hne => ⟨hne, hlt _ ha, hlt _ hb⟩) hpos

/-- C15 as far as it holds: if no condition lists a nodal dof twice, the force on each equation is the sum over all
load conditions of the forces on the nodal dofs carrying that equation. Missing: a condition that contains a node
twice, `C15_violated`. -/
theorem C15_superposition_partial (cs : List (LoadPart K)) (h : ∀ c ∈ cs, DistinctDofs c) (e : ℕ) :
    timeStepRhs cs e = (cs.map fun c => conditionForce c e).sum := by
  have key : ∀ (cs : List (LoadPart K)) (F : ℕ → K), (∀ c ∈ cs, DistinctDofs c) →
      cs.foldl addCondition F e = F e + (cs.map fun c => conditionForce c e).sum := by
    intro cs
    induction cs with
    | nil => intro F _; simp
    | cons c cs ih =>
      intro F h
      rw [List.foldl_cons, ih _ (fun x hx => h x (by simp [hx]))]
      rw [addCondition, fancyAdd_apply _ _ (masked_nodup c (h c (by simp))), masked_sum]
      simp [add_assoc]
  unfold timeStepRhs
  rw [key cs _ h]
  simp

/-- C15: loads on removed dofs are dropped: an equation that no node of a condition carries gets nothing from it (no
hypothesis on repeated nodes). -/
theorem C15_removed_dropped (cs : List (LoadPart K)) (e : ℕ)
    (h : ∀ c ∈ cs, ∀ n ∈ c.nodes, ∀ d, c.act d = true → n d ≠ some e) : timeStepRhs cs e = 0 := by
  have key : ∀ (cs : List (LoadPart K)) (F : ℕ → K),
      (∀ c ∈ cs, ∀ n ∈ c.nodes, ∀ d, c.act d = true → n d ≠ some e) → cs.foldl addCondition F e = F e := by
    intro cs
    induction cs with
    | nil => intro F _; rfl
    | cons c cs ih =>
      intro F h
      rw [List.foldl_cons, ih _ (fun x hx => h x (by simp [hx]))]
      have hc := h c (by simp)
      have hne : ∀ p ∈ c.masked, p.1 ≠ e := by
        intro p hp he
        unfold LoadPart.masked at hp
        rw [List.mem_filterMap] at hp
        obtain ⟨q, hq, hq2⟩ := hp
        split_ifs at hq2 with ha
        rw [Option.map_eq_some_iff] at hq2
        obtain ⟨e', he', rfl⟩ := hq2
        simp only at he
        subst he
        by_cases hlt : q.1 < c.nodes.length
        · rw [List.getD_eq_getElem _ _ hlt] at he'
          exact hc _ (List.getElem_mem _) q.2 ha he'
        · rw [List.getD_eq_default _ _ (by omega)] at he'; simp at he'
      have hw : ∀ (ws : List (ℕ × K)) (G : ℕ → K), (∀ w ∈ ws, w.1 ≠ e) → ws.foldl write G e = G e := by
        intro ws
        induction ws with
        | nil => intro G _; rfl
        | cons w ws ih =>
          intro G h
          rw [List.foldl_cons, ih _ (fun x hx => h x (by simp [hx]))]
          simp [write, Ne.symm (h w (by simp))]
      unfold addCondition fancyAdd writes
      apply hw
      intro w hw'
      rw [List.mem_map] at hw'
      obtain ⟨p, hp, rfl⟩ := hw'
      exact hne p hp
  exact key cs _ h

/-- Two conditions acting on the same node: distinct dofs within each. -/
def exampleLoads : List (LoadPart ℚ) :=
  [⟨[![some 0, some 1, none], ![some 2, some 3, some 4]], ![false, true, true], [![0, 5, 1], ![0, 7, 2]]⟩,
   ⟨[![some 2, some 3, some 4]], ![true, true, false], [![1, 10, 9]]⟩]

example : (∀ c ∈ exampleLoads, DistinctDofs c) ∧ timeStepRhs exampleLoads 3 = 17 := by
  constructor
  · intro c hc
    simp [exampleLoads] at hc
    rcases hc with rfl | rfl
    · intro i hi j hj d d' e h1 h2 h3 h4
      have h5 := h3.trans h4.symm
      have h6 := Option.isSome_of_eq_some h3
      clear h3 h4
      change i < 2 at hi
      change j < 2 at hj
      interval_cases i <;> interval_cases j <;> revert d d' <;> decide
    · intro i hi j hj d d' e h1 h2 h3 h4
      have h5 := h3.trans h4.symm
      have h6 := Option.isSome_of_eq_some h3
      clear h3 h4
      change i < 1 at hi
      change j < 1 at hj
      interval_cases i; interval_cases j; revert d d'; decide
  · decide +kernel

/-- C15 fails for a condition that contains a node twice: the two loads 5 and 7 on equation 0 do not add up to 12; the
fancy-indexed `+=` keeps the last one only. -/
theorem C15_violated :
    let c : LoadPart ℚ := ⟨[![none, some 0, none], ![none, some 0, none]], ![false, true, false], [![0, 5, 0], ![0, 7, 0]]⟩
    timeStepRhs [c] 0 = 7 ∧ conditionForce c 0 = 12 := by
  constructor
  · decide +kernel
  · simp [conditionForce, Finset.sum_range_succ, Fin.sum_univ_three]; norm_num

end rhs

/-! ### C78 -/

/-- Specification: what a model part needs before a calculation. -/
def PartInput.Valid : PartInput → Prop
  | .rod stiffness e n => stiffness = true ∧ 0 < e ∧ 0 < n
  | .beam m s e n => (∃ m', m = some m' ∧ m'.youngs = true ∧ m'.poisson = true ∧ m'.density = true) ∧
      (∃ s', s = some s' ∧ s'.area = true ∧ s'.inertia = true ∧ s'.shear = true ∧
        ∀ h y, s'.height = some h → s'.neutral = some y → y ≤ h) ∧ 0 < e ∧ 0 < n
  | .other nl el => nl = true ∧ el = true

theorem log_iff (p : PartInput) : 40 ∈ p.log ↔ ¬ p.Valid := by
  have hl : ∀ (c : Bool) (a b : ℕ), a ∈ logIf c b ↔ c = true ∧ a = b := by
    intro c a b; cases c <;> simp [logIf]
  cases p with
  | rod k e n =>
    simp [PartInput.log, PartInput.Valid, hl]
    cases k <;> simp <;> omega
  | other nl el => simp [PartInput.log, PartInput.Valid, hl]; cases nl <;> cases el <;> simp
  | beam m s e n =>
    have hm : 40 ∈ materialLog m ↔
        ¬ ∃ m', m = some m' ∧ m'.youngs = true ∧ m'.poisson = true ∧ m'.density = true := by
      cases m with
      | none => simp [materialLog]
      | some m => rcases m with ⟨a, b, c⟩; cases a <;> cases b <;> cases c <;> simp [materialLog, MaterialInput.log, hl]
    have hs : 40 ∈ sectionLog s ↔
        ¬ ∃ s', s = some s' ∧ s'.area = true ∧ s'.inertia = true ∧ s'.shear = true ∧
          ∀ h y, s'.height = some h → s'.neutral = some y → y ≤ h := by
      cases s with
      | none => simp [sectionLog]
      | some s =>
        rcases s with ⟨a, b, c, h, y⟩
        cases h <;> cases y <;> cases a <;> cases b <;> cases c <;> simp [sectionLog, SectionInput.log, hl]
    simp only [PartInput.log, PartInput.Valid, List.mem_append, hm, hs, hl]
    simp only [beq_iff_eq, and_true]
    constructor
    · rintro (((h | h) | h) | h) hv
      · exact h hv.1
      · exact h hv.2.1
      · omega
      · omega
    · intro h
      by_contra hc
      push Not at hc
      exact h ⟨hc.1.1.1, hc.1.1.2, by omega, by omega⟩

theorem log_no_critical (p : PartInput) : 50 ∉ p.log := by
  have hl : ∀ (c : Bool) (a b : ℕ), a ∈ logIf c b ↔ c = true ∧ a = b := by
    intro c a b; cases c <;> simp [logIf]
  cases p with
  | rod k e n => simp [PartInput.log, hl]
  | other nl el => simp [PartInput.log, hl]
  | beam m s e n =>
    rcases m with _ | m <;> rcases s with _ | s <;> simp [PartInput.log, materialLog, sectionLog, MaterialInput.log, SectionInput.log, hl]
    all_goals rcases s with ⟨a, b, c, h, y⟩; cases h <;> cases y <;> simp [hl]

/-- C78 in full under the exact extra hypothesis: as long as nothing in the process has logged an error before,
validation raises an error exactly if some part violates a requirement. Missing: any history with an earlier logged
error, `C78_violated`. -/
theorem C78_clean_log_partial (cache : List ℕ) (parts : List PartInput) (h40 : 40 ∉ cache) (h50 : 50 ∉ cache) :
    (validateInput cache parts).2 = true ↔ ∃ p ∈ parts, ¬ p.Valid := by
  simp only [validateInput, Bool.or_eq_true, List.contains_iff_mem, List.mem_append, List.mem_flatMap, h40, h50,
    false_or, log_iff]
  constructor
  · rintro (h | ⟨p, _, h⟩)
    · exact h
    · exact absurd h (log_no_critical p)
  · exact Or.inl

/-- An invalid model is rejected whatever happened before. -/
theorem C78_invalid_rejected (cache : List ℕ) (parts : List PartInput) (h : ∃ p ∈ parts, ¬ p.Valid) :
    (validateInput cache parts).2 = true := by
  obtain ⟨p, hp, hv⟩ := h
  simp only [validateInput, Bool.or_eq_true, List.contains_iff_mem, List.mem_append, List.mem_flatMap]
  exact Or.inl (Or.inr ⟨p, hp, (log_iff p).2 hv⟩)

example : 40 ∉ [30] ∧ 50 ∉ [30] ∧ (PartInput.rod true 3 4).Valid := by simp [PartInput.Valid]

/-- C78 fails: validating one invalid model makes validation of every later model fail, even of a valid one. -/
theorem C78_violated (valid : List PartInput) :
    let bad : List PartInput := [.rod false 1 2]
    let (cache, raised) := validateInput [] bad
    raised = true ∧ (validateInput cache valid).2 = true := by
  refine ⟨rfl, ?_⟩
  simp [validateInput, PartInput.log, logIf]

end Rose
