import Verif.Props.TrackForces

set_option linter.unusedSectionVars false

namespace Rose

/-! ### C127: when the pad forces of the demo script are right -/

/-- **C127, the pads, exactly** The pad forces in the result file are stiffness times elongation of the pads if and only if every sleeper
moves as much as the rail node above it. -/
theorem C127_pads_iff {H : Type*} [DecidableEq H] (hash : (Fin 3 → ℝ) → H) (n r : ℕ) (hn : 2 ≤ n * r) (d h : ℝ)
    (hd : 1 / 1000000000 < d / r) (hh : 1 / 1000000000 < h) (track : HorizontalTrack ℝ)
    (ht : createHorizontalTrack hash n r d h = .ok track) (v : TrackValues) (hk : v.pad.stiffness ≠ 0) (inp : SystemInput ℝ)
    (hinp : track.system v true = .ok inp) (row : List (NodeRow ℝ)) :
    demoPadForces (inp.parts.map fun p => p.elementForces row) = track.pads.map (fun e =>
      v.pad.stiffness * (Spec.fieldOfRows row NodeRow.displacement (track.position e.1) 1 -
        Spec.fieldOfRows row NodeRow.displacement (track.position e.2) 1)) ↔
    ∀ e ∈ track.pads, Spec.fieldOfRows row NodeRow.displacement (track.position e.2) 1 =
      Spec.fieldOfRows row NodeRow.displacement (track.position e.1) 1 := by
  have hr : 0 < r := Nat.pos_of_ne_zero (by rintro rfl; omega)
  have hlen : track.pads.length = n := by
    obtain ⟨t, ht', h1⟩ := C48_structure hash n r hr d h
    rw [ht] at ht'
    cases ht'
    exact h1.2.2.2.2.2.1
  rw [C127_pads_violated hash n r hn d h hd hh track ht v inp hinp row, eq_comm, List.eq_replicate_iff]
  simp only [List.length_map, hlen, true_and, List.mem_map, forall_exists_index, and_imp, forall_apply_eq_imp_iff₂, mul_eq_zero, hk, false_or,
    sub_eq_zero]
  exact forall₂_congr fun e _ => eq_comm

/-- A track of two sleepers with one rail element between them. -/
example : ∃ track : HorizontalTrack ℝ, createHorizontalTrack (fun p : Fin 3 → ℝ => p) 2 1 1 1 = .ok track ∧ 2 ≤ 2 * 1 ∧
    (1 : ℝ) / 1000000000 < 1 / (1 : ℕ) ∧ track.pads.length = 2 := by
  obtain ⟨t, ht, h1⟩ := C48_structure (fun p : Fin 3 → ℝ => p) 2 1 one_pos 1 1
  exact ⟨t, ht, le_rfl, by norm_num, h1.2.2.2.2.2.1⟩

end Rose
