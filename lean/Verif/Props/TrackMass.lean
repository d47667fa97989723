/-
C144: the inertia of a track that moves straight up is the mass of its rail, pads, sleepers and soil; the mass of a hinge is left out.
-/
import Verif.Model.HingeMass
import Verif.Props.HingedGenerated
import Verif.Props.BeamMass

set_option linter.unusedSectionVars false

namespace Rose
open Finset

/-- Specification: all nodes move up by one, without rotation. -/
def Spec.lift : Spec.NodalField ℝ := fun _ c => if c = 1 then 1 else 0

section
variable {H : Type*} [DecidableEq H] {hash : (Fin 3 → ℝ) → H} {n r : ℕ} {d h : ℝ} {t : HorizontalTrack ℝ} {k : ℕ}

theorem rodWork_lift (m : Option ℝ) (es : List (ℕ × ℕ)) :
    rodWork (m.map rodMass) es Spec.lift Spec.lift = es.length * m.getD 0 := by
  cases m with
  | none => simp [rodWork]
  | some m =>
    have : ∀ e : ℕ × ℕ, bilinear (rodMass m) ![Spec.lift e.1 1, Spec.lift e.2 1] ![Spec.lift e.1 1, Spec.lift e.2 1] = m := by
      intro e
      have h := C20_rod_mass m 1
      have e0 : (![Spec.lift e.1 1, Spec.lift e.2 1] : Fin 2 → ℝ) = fun _ => 1 := by
        funext i
        fin_cases i <;> simp [Spec.lift]
      rw [e0]
      refine Eq.trans ?_ (h.trans (by ring))
      rfl
    simp [rodWork, this]

theorem Generated.massLift (g : Generated hash n r d h t) (v : TrackValues) (hv : v.Valid) :
    Spec.systemWork AssemblyPart.mass (generatedParts t n r d v).parts Spec.lift Spec.lift =
      v.rail.rho * v.rail.A * (((n * r - 1 : ℕ) : ℝ) * (d / r)) +
        n * (v.pad.mass.getD 0 + v.sleeperMass + v.soil.mass.getD 0) := by
  rw [track_mass _ (g.nonEmpty v)]
  have hb := hv.beam g.l_pos
  have hbeam : ∀ e, Spec.energy (generatedParts t n r d v).beam.massMatrix (sixValues Spec.lift e) =
      v.rail.rho * v.rail.A * (d / r) := by
    intro e
    have h := C20_beam_translation _ hb 0 1
    have e6 : sixValues Spec.lift e = Spec.translation 0 1 := by
      funext i
      fin_cases i <;> simp [sixValues, Spec.lift, Spec.translation]
    rw [e6]
    exact h.trans (by simp)
  simp only [hbeam, rodWork_lift]
  have hchain : (chainOf (generatedParts t n r d v).rail).length = n * r - 1 := by
    simp [generatedParts, chainOf_map, chainOf_range]
  rw [List.map_const', List.sum_replicate, hchain]
  have hs : ((generatedParts t n r d v).sleepers.map fun m => (generatedParts t n r d v).sleeperMass * Spec.lift m 1 ^ 2).sum =
      n * v.sleeperMass := by
    simp only [generatedParts, Spec.lift, if_true, one_pow, mul_one]
    rw [List.map_const', List.sum_replicate]
    simp
  rw [hs]
  simp [generatedParts]
  ring

/-- **C144 for a track without hinge** The inertia of a generated track that moves straight up is the mass of the rail over its whole
length, and of the pads, the sleepers and the soil at each sleeper. -/
theorem C144_track (g : Generated hash n r d h t) (v : TrackValues) (hv : v.Valid) (held : Bool) :
    ∃ inp, t.system v held = .ok inp ∧
      Spec.systemWork AssemblyPart.mass inp.parts Spec.lift Spec.lift =
        v.rail.rho * v.rail.A * (((n * r - 1 : ℕ) : ℝ) * (d / r)) +
          n * (v.pad.mass.getD 0 + v.sleeperMass + v.soil.mass.getD 0) :=
  ⟨_, g.system v held, g.massLift v hv⟩

theorem Generated.demoMass (g : Generated hash n r d h t) (hk : 2 ≤ k) (hkm : k + 3 ≤ n * r)
    (near : 1 / 100000000 + 1 / 100000 * ((k : ℝ) * (d / r)) < d / r) (v : TrackValues) (held : Bool) (hinge : HingeData)
    (hx : hinge.coord = (k : ℝ) * (d / r)) (hf : 0 ≤ hinge.fixity) (hf' : hinge.fixity ≤ 1) :
    ∃ inp inp', t.demoSystem v hinge held = .ok inp ∧ t.system v held = .ok inp' ∧
      ∀ u w, Spec.systemWork AssemblyPart.mass inp.parts u w = Spec.systemWork AssemblyPart.mass inp'.parts u w := by
  obtain ⟨s, hs⟩ : ∃ s, hingeStiffness v.rail.E v.rail.I d hinge.fixity none = some s := by
    unfold hingeStiffness
    split_ifs with h1 h2
    · exact ⟨_, rfl⟩
    · exact ⟨_, rfl⟩
    · refine absurd ?_ h2
      have : hinge.fixity = 1 := le_antisymm hf' (not_lt.mp fun h => h1 ⟨hf, h⟩)
      rw [this]
      norm_num [npIsCloseOne]
  refine ⟨(generatedInput t n r d v held).withHinge (generatedParts t n r d v) (generatedCut t n r k (s / 2)), _, ?_,
    g.system v held, fun u w => ?_⟩
  · unfold HorizontalTrack.demoSystem
    rw [hx]
    exact g.hingedSystem hk hkm near v held _ s hs
  · have hin : (generatedCut t n r k (s / 2)).Inner := by
      constructor <;> simp [generatedCut] <;> omega
    exact hinged_work_same AssemblyPart.mass _ _ hin (generatedCut_rail (by omega) (by omega) v _) BeamPart.massMatrix
      (fun _ _ _ => rfl) (fun b s1 s2 => massMatrix_springs b s1 s2) u w

/-- **C144, a hinge without mass** With a hinge in the rail the inertia of the track is that without the hinge: the mass of the hinge is
missing, so the inertia is right if and only if the hinge has none. -/
theorem C144_hinge_partial (g : Generated hash n r d h t) (hk : 2 ≤ k) (hkm : k + 3 ≤ n * r)
    (near : 1 / 100000000 + 1 / 100000 * ((k : ℝ) * (d / r)) < d / r) (v : TrackValues) (hv : v.Valid) (held : Bool) (hinge : HingeData)
    (hx : hinge.coord = (k : ℝ) * (d / r)) (hf : 0 ≤ hinge.fixity) (hf' : hinge.fixity ≤ 1) :
    ∃ inp, t.demoSystem v hinge held = .ok inp ∧
      (Spec.systemWork AssemblyPart.mass inp.parts Spec.lift Spec.lift =
        v.rail.rho * v.rail.A * (((n * r - 1 : ℕ) : ℝ) * (d / r)) +
          n * (v.pad.mass.getD 0 + v.sleeperMass + v.soil.mass.getD 0) + hinge.mass ↔ hinge.mass = 0) := by
  obtain ⟨inp, inp', h1, h2, h3⟩ := g.demoMass hk hkm near v held hinge hx hf hf'
  refine ⟨inp, h1, ?_⟩
  have e : inp'.parts = (generatedParts t n r d v).parts := by
    rw [g.system v held] at h2
    cases h2
    rfl
  rw [h3, e, g.massLift v hv]
  constructor
  · intro h
    linarith
  · intro h
    rw [h, add_zero]

/-- C144 is violated: for a track with a hinge of any mass, whatever its nodes do, the inertia is that of the track without hinge; it
lacks the inertia of the hinge, which the hinge as a part of the system would have added. -/
theorem C144_hinge_violated (g : Generated hash n r d h t) (hk : 2 ≤ k) (hkm : k + 3 ≤ n * r)
    (near : 1 / 100000000 + 1 / 100000 * ((k : ℝ) * (d / r)) < d / r) (v : TrackValues) (held : Bool) (hinge : HingeData)
    (hx : hinge.coord = (k : ℝ) * (d / r)) (hf : 0 ≤ hinge.fixity) (hf' : hinge.fixity ≤ 1) :
    ∃ inp inp', t.demoSystem v hinge held = .ok inp ∧ t.system v held = .ok inp' ∧ ∀ u : Spec.NodalField ℝ,
      Spec.systemWork AssemblyPart.mass inp.parts u u = Spec.systemWork AssemblyPart.mass inp'.parts u u ∧
      Spec.systemWork AssemblyPart.mass (hingeAssembly hinge.mass [t.position k] :: inp.parts) u u =
        Spec.systemWork AssemblyPart.mass inp.parts u u + hinge.mass * u (t.position k) 1 ^ 2 := by
  obtain ⟨inp, inp', h1, h2, h3⟩ := g.demoMass hk hkm near v held hinge hx hf hf'
  refine ⟨inp, inp', h1, h2, fun u => ⟨h3 u u, ?_⟩⟩
  rw [systemWork_cons_some AssemblyPart.mass _ _ (matrixEntries (pointMass hinge.mass)) rfl,
    point_partWork (hingeAssembly hinge.mass [t.position k]) rfl rfl (pointMass hinge.mass) u u]
  simp [hingeAssembly, sleeperAssembly, pointMass]
  ring

end

/-- The hinge of the demo with a mass in the middle of three sleepers. -/
example : ∃ t, createHorizontalTrack (fun p : Fin 3 → ℝ => p) 3 2 (3 / 5) 1 = .ok t ∧
    ∃ inp, t.demoSystem exampleTrack ⟨(3 : ℕ) * (3 / 5 / (2 : ℕ)), 3 / 4, 5⟩ true = .ok inp ∧
      Spec.systemWork AssemblyPart.mass inp.parts Spec.lift Spec.lift ≠
        exampleTrack.rail.rho * exampleTrack.rail.A * (((3 * 2 - 1 : ℕ) : ℝ) * (3 / 5 / (2 : ℕ))) +
          (3 : ℕ) * (exampleTrack.pad.mass.getD 0 + exampleTrack.sleeperMass + exampleTrack.soil.mass.getD 0) + 5 := by
  obtain ⟨t, ht, -⟩ := C48_structure (fun p : Fin 3 → ℝ => p) 3 2 (by norm_num) (3 / 5) 1
  have g : Generated (fun p : Fin 3 → ℝ => p) 3 2 (3 / 5) 1 t := ⟨by norm_num, by norm_num, by norm_num, ht⟩
  obtain ⟨inp, h1, h2⟩ := C144_hinge_partial g (k := 3) (by norm_num) (by norm_num) (by norm_num) exampleTrack exampleTrack_valid true
    ⟨(3 : ℕ) * (3 / 5 / (2 : ℕ)), 3 / 4, 5⟩ rfl (by norm_num) (by norm_num)
  exact ⟨t, ht, inp, h1, fun h => absurd (h2.mp h) (by norm_num)⟩

end Rose
