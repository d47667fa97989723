import Verif.Props.HingedTrack

set_option linter.unusedSectionVars false

namespace Rose

/-! ### C140: which wheels start on their contact element -/

/-- **C140, the first time step, exactly** For a rail with a hinge and a wheel that starts on the rail before its last node: the calculation gives the
wheel at its start an element on which it stands if and only if it starts in front of the last node before the hinge. -/
theorem C140_start_iff {t : HorizontalTrack ℝ} {m k : ℕ} {l : ℝ} {parts : List (RailPart ℝ)} (h : HingedRail t m l k parts) (s : ℝ)
    (h0 : 0 ≤ s) (h1 : s < ((m : ℝ) - 1) * l) :
    (∃ els, railContact t parts [s] = .ok els ∧ Spec.StandsOn t (els.getD 0 (0, 0)) s) ↔ s < ((k : ℝ) - 1) * l := by
  constructor
  · rintro ⟨els, hok, hs⟩
    by_contra hc
    have ha := C140_start_violated h [s] (by simp) (by simpa using not_lt.1 hc) (by simpa using h1) els hok
    exact absurd hs.1 (not_le.2 ha)
  · intro hs
    obtain ⟨els, hok, -, hall⟩ := C140_before_partial h [s] (by simp) (by simpa using h0) (by simpa using hs) (by simp)
      (by intro j hj; simp at hj) (by intro x hx; rw [List.mem_singleton] at hx; rw [hx]; exact hs.le)
    exact ⟨els, hok, by simpa using hall 0 (by simp)⟩

/-- A rail of twelve nodes with a hinge at the node three metres from its beginning: wheels that start at 1 m and at 2 m. -/
example : ∃ (t : HorizontalTrack ℝ) (parts : List (RailPart ℝ)), HingedRail t 12 1 3 parts ∧ (0 : ℝ) ≤ 1 ∧ (2 : ℝ) < ((12 : ℕ) - 1) * 1 ∧
    (1 : ℝ) < ((3 : ℕ) - 1) * 1 ∧ ¬ (2 : ℝ) < ((3 : ℕ) - 1) * 1 := by
  obtain ⟨t, ht, -⟩ := C48_structure (fun p : Fin 3 → ℝ => p) 6 2 (by norm_num) 2 1
  have g : EvenRail t 12 1 := by
    have := (Generated.mk (by norm_num) (by norm_num) (by norm_num) ht : Generated _ 6 2 2 1 t).even
    norm_num at this
    exact this
  obtain ⟨parts, -, hr⟩ := HingedRail.make (k := 3) g (by norm_num) (by norm_num) (by norm_num) 1 1 0 1 le_rfl one_pos
  exact ⟨t, parts, hr, by norm_num, by norm_num, by norm_num, by norm_num⟩

end Rose
