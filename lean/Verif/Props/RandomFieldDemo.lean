/-
C165: the soil values of the demo scripts with random fields.
-/
import Verif.Model.RandomFieldDemo
import Verif.Props.Demo
import Verif.Props.HingedCombined

set_option linter.unusedSectionVars false

namespace Rose

theorem rfPlaces_length (n : ℕ) : (rfPlaces n).length = n := by simp [rfPlaces, linspace]

theorem rfPlaces_getD (n k : ℕ) (hn : 2 ≤ n) (hk : k < n) : (rfPlaces n).getD k 0 = (3 / 5 : ℝ) * k * (n / (n - 1)) := by
  rw [List.getD_eq_getElem _ _ (by rw [rfPlaces_length]; exact hk)]
  simp only [rfPlaces, linspace, List.getElem_map, List.getElem_range, linspaceAt, if_neg (show ¬ n ≤ 1 by omega)]
  ring

theorem createRf_normal (z : ℝ → ℝ) (m cv : ℝ) (hm : 0 ≤ m * cv) (nodes : List ℝ) :
    createRf z m cv false nodes = nodes.map fun x => m * (1 + cv * z x) := by
  unfold createRf
  apply List.map_congr_left
  intro x _
  simp only [rfParams, rfValue, Bool.false_eq_true, if_false, Real.sqrt_sq hm]
  ring

theorem rfSegments_eq (z : ℝ → ℝ) (L : List (ℕ × ℝ)) (h : ∀ s ∈ L, 0 ≤ s.2) :
    rfSegments z L = L.flatMap fun s => (rfPlaces s.1).map fun x => s.2 * (1 + z x / 4) := by
  unfold rfSegments
  apply List.flatMap_congr
  intro s hs
  rw [createRf_normal z s.2 0.25 (mul_nonneg (h s hs) (by norm_num))]
  apply List.map_congr_left
  intro x _
  ring

theorem rfSegments_length (z : ℝ → ℝ) (L : List (ℕ × ℝ)) : (rfSegments z L).length = (L.map Prod.fst).sum := by
  simp [rfSegments, createRf, List.length_flatMap, rfPlaces_length]

/-- **C165, values** For any segments, the sleeper `k` of a segment of `n` sleepers with mean value `m` gets `m (1 + z / 4)`, where `z` is the standard field at
`0.6 k n / (n - 1)` from the beginning of the segment; the values of the segments follow one another. -/
theorem C165_values (z : ℝ → ℝ) (n : ℕ) (m : ℝ) (L : List (ℕ × ℝ)) (hm : 0 ≤ m) (hn : 2 ≤ n) :
    (∀ k < n, (rfSegments z ((n, m) :: L)).getD k 0 = m * (1 + z (3 / 5 * k * (n / (n - 1))) / 4)) ∧
      ∀ k, (rfSegments z ((n, m) :: L)).getD (n + k) 0 = (rfSegments z L).getD k 0 := by
  have hsplit : rfSegments z ((n, m) :: L) = (rfPlaces n).map (fun x => m * (1 + z x / 4)) ++ rfSegments z L := by
    have := rfSegments_eq z [(n, m)] (by simpa using hm)
    simp only [rfSegments, List.flatMap_cons, List.flatMap_nil, List.append_nil] at this ⊢
    rw [this]
  have hlen : ((rfPlaces n).map fun x => m * (1 + z x / 4)).length = n := by rw [List.length_map, rfPlaces_length]
  rw [hsplit]
  constructor
  · intro k hk
    rw [List.getD_append _ _ _ _ (by rw [hlen]; exact hk), List.getD_eq_getElem _ _ (by rw [hlen]; exact hk), List.getElem_map,
      ← rfPlaces_getD n k hn hk, List.getD_eq_getElem _ _ (by rw [rfPlaces_length]; exact hk)]
  · intro k
    rw [List.getD_append_right _ _ _ _ (by rw [hlen]; omega), hlen, Nat.add_sub_cancel_left]

/-- **C165 is violated** The place at which the field is taken is that of the sleeper only for the first sleeper of a segment. -/
theorem C165_place_violated (n k : ℕ) (hn : 2 ≤ n) (hk : k < n) :
    ((rfPlaces n).getD k 0 = k * (3 / 5) ↔ k = 0) ∧ (rfPlaces n).getD (n - 1) 0 = (n - 1 : ℕ) * (3 / 5 : ℝ) + 3 / 5 := by
  have hn1 : (0 : ℝ) < n - 1 := by
    have : (2 : ℝ) ≤ n := by exact_mod_cast hn
    linarith
  constructor
  · rw [rfPlaces_getD n k hn hk]
    constructor
    · intro h
      by_contra h0
      have hk0 : (0 : ℝ) < k := by exact_mod_cast Nat.pos_of_ne_zero h0
      field_simp at h
      nlinarith
    · rintro rfl
      simp
  · rw [rfPlaces_getD n (n - 1) hn (by omega)]
    rw [Nat.cast_sub (by omega)]
    push_cast
    field_simp
    ring

/-- **C165, positive values** All values are positive exactly if the standard field stays above -4 at the places used. -/
theorem C165_positive_iff (z : ℝ → ℝ) (L : List (ℕ × ℝ)) (h : ∀ s ∈ L, 0 < s.2) :
    (∀ v ∈ rfSegments z L, 0 < v) ↔ ∀ s ∈ L, ∀ x ∈ rfPlaces s.1, -4 < z x := by
  rw [rfSegments_eq z L fun s hs => (h s hs).le]
  simp only [List.mem_flatMap, List.mem_map]
  constructor
  · intro hv s hs x hx
    have := (mul_pos_iff_of_pos_left (h s hs)).mp (hv _ ⟨s, hs, x, hx, rfl⟩)
    linarith
  · rintro hv _ ⟨s, hs, x, hx, rfl⟩
    have := hv s hs x hx
    exact mul_pos (h s hs) (by linarith)

/-- **C165 is violated by the scripts: copies** Whatever the standard field is, the second half of the track of `demo_rf.py` repeats the variations of
the first half, and the damping varies exactly as the stiffness. -/
theorem C165_copies_violated (z : ℝ → ℝ) (k : ℕ) (hk : k < 500) :
    (demoRfInput z).stiffness.getD (500 + k) 0 / (214 * 10 ^ 7) = (demoRfInput z).stiffness.getD k 0 / (132 * 10 ^ 6) ∧
    (demoRfInput z).damping.getD k 0 / (30 * 10 ^ 3) = (demoRfInput z).stiffness.getD k 0 / (132 * 10 ^ 6) ∧
    (demoRfInput z).damping.getD (500 + k) 0 / (20 * 10 ^ 3) = (demoRfInput z).stiffness.getD (500 + k) 0 / (214 * 10 ^ 7) := by
  simp only [demoRfInput, rfInput]
  rw [(C165_values z 500 (132 * 10 ^ 6) [(500, 214 * 10 ^ 7)] (by norm_num) (by norm_num)).1 k hk,
    (C165_values z 500 (132 * 10 ^ 6) [(500, 214 * 10 ^ 7)] (by norm_num) (by norm_num)).2 k,
    (C165_values z 500 (30 * 10 ^ 3) [(500, 20 * 10 ^ 3)] (by norm_num) (by norm_num)).1 k hk,
    (C165_values z 500 (30 * 10 ^ 3) [(500, 20 * 10 ^ 3)] (by norm_num) (by norm_num)).2 k,
    (C165_values z 500 (214 * 10 ^ 7) [] (by norm_num) (by norm_num)).1 k hk,
    (C165_values z 500 (20 * 10 ^ 3) [] (by norm_num) (by norm_num)).1 k hk]
  refine ⟨?_, ?_, ?_⟩ <;> ring

/-- If the standard field stays above -4, every train of the scripts other than the SLT fits the tracks with random fields. -/
theorem rf_fits (z : ℝ → ℝ) (hz : ∀ x, -4 < z x) (j : DemoJob) (hj : j ∈ demoJobs) (hslt : j.train ≠ .sprinterSLT) :
    (demoRfInput z).Fits j ∧ (semiRigidRfInput z).FitsHinge j 500 := by
  constructor
  · exact C139_shipped_rf _ _ (by rw [rfSegments_length]; rfl) (by rw [rfSegments_length]; rfl)
      ((C165_positive_iff z _ (by
        intro s hs
        simp only [List.mem_cons, List.not_mem_nil, or_false] at hs
        rcases hs with rfl | rfl <;> norm_num)).mpr fun _ _ x _ => hz x) j hj hslt
  · exact C162_shipped_rf _ _ (by rw [rfSegments_length]; rfl) (by rw [rfSegments_length]; rfl)
      ((C165_positive_iff z _ (by
        intro s hs
        simp only [List.mem_cons, List.not_mem_nil, or_false] at hs
        subst hs
        norm_num)).mpr fun _ _ x _ => hz x) j hj hslt

/-- **C165, the runs of `demo_rf.py`** If the standard field stays above -4, every train of the script other than the SLT is calculated and obeys the laws of motion on a track
whose sleepers have their own soil, with a solver that solves what it is given. -/
theorem C165_runs_partial {H : Type*} [DecidableEq H] (hash : (Fin 3 → ℝ) → H) (z : ℝ → ℝ) (hz : ∀ x, -4 < z x) (j : DemoJob) (hj : j ∈ demoJobs)
    (hslt : j.train ≠ .sprinterSLT) (irr : ℕ → ℕ → ℝ) :
    (∃ solver, (demoRfInput z).Solves hash irr solver j) ∧
    ∀ solver, (demoRfInput z).Solves hash irr solver j →
      ∃ c train sys res, combinedTrack hash 1 (3 / 5) (List.replicate 1000 (1, 1)) = .ok c ∧ setFullTrain j.train 20 1 = .ok train ∧
        c.system (3 / 5) demoValues (demoSoils (3 / 5) (demoRfInput z).stiffness (demoRfInput z).damping) true = .ok sys ∧
        (demoRfInput z).calculate hash irr solver j = .ok res ∧
        Spec.ObeysLaws hash ((demoRfInput z).ride j (c.numbered (3 / 5)) train irr) sys (3 / 5)
          (railCount 1 (List.replicate 1000 (1, 1))) c.railNumber res := by
  have f := (rf_fits z hz j hj hslt).1
  refine ⟨C139_solvable hash _ _ f irr, fun solver hs => ?_⟩
  obtain ⟨c, train, sys, res, h1, h2, h3, h4, -, -, h5⟩ := C139_motion_partial hash _ _ f irr solver hs
  have e : (demoRfInput z).sleepers.map (fun n => (n, (1 : ℝ))) = List.replicate 1000 (1, 1) := by
    show (List.replicate 1000 1).map _ = _
    rw [List.map_replicate]
  have e1 : (demoRfInput z).perSleeper = 1 := rfl
  rw [e, e1] at h1 h5
  rw [Nat.cast_one, div_one] at h5
  exact ⟨c, train, sys, res, h1, h2, h3, h4, h5⟩

/-! ### Examples -/

/-- A standard field of one wave. -/
example (hash : (Fin 3 → ℝ) → ℕ) (irr : ℕ → ℕ → ℝ) : ∃ solver, ∃ res,
    (demoRfInput Real.sin).calculate hash irr solver ⟨.doubleDekker, 140 / 3.6, 14⟩ = .ok res := by
  obtain ⟨⟨solver, hs⟩, h⟩ := C165_runs_partial hash Real.sin (fun x => by linarith [Real.neg_one_le_sin x])
    ⟨.doubleDekker, 140 / 3.6, 14⟩ (by simp [demoJobs]) (by simp) irr
  obtain ⟨_, _, _, res, -, -, -, hres, -⟩ := h solver hs
  exact ⟨solver, res, hres⟩

/-- A field that falls to -8 gives negative stiffnesses. -/
example : ¬ ∀ v ∈ rfSegments (fun x => -8 * x) [(3, 100)], 0 < v := by
  rw [C165_positive_iff _ _ (by simp)]
  intro h
  have := h (3, 100) (by simp) (9 / 5) (by norm_num [rfPlaces, linspace, linspaceAt, List.range_succ])
  norm_num at this

example : (rfPlaces 3).getD 1 0 ≠ (1 : ℕ) * (3 / 5 : ℝ) := fun h => by
  have := (C165_place_violated 3 1 (by norm_num) (by norm_num)).1.mp h
  simp at this

end Rose
