/-
Properties C21, C22, C23, C27: shape functions and internal forces of the beam.
-/
import Verif.Props.Beam
import Mathlib.Analysis.Calculus.Deriv.Pow
import Mathlib.Analysis.Calculus.Deriv.Mul
import Mathlib.Analysis.Calculus.Deriv.Add

set_option linter.unusedSectionVars false

namespace Rose
open Spec

variable {K : Type*} [Field K] [LinearOrder K] [IsStrictOrderedRing K]

/-! ## C21 Interpolation of nodal values and rigid motions -/

/-- C21: at the first node the interpolation returns the first nodal deflection, at the second node the second. -/
theorem C21_nodal_values {phi l : K} (hp : 1 + phi ≠ 0) (hl : l ≠ 0) (w1 t1 w2 t2 : K) :
    interp4 (yShape phi l 0) w1 t1 w2 t2 = w1 ∧ interp4 (yShape phi l l) w1 t1 w2 t2 = w2 := by
  constructor
  · simp [interp4, yShape]; field_simp
  · simp [interp4, yShape]; field_simp; ring

/-- C21: any rigid motion `ty + w x` (with the matching nodal values) is reproduced at every position. -/
theorem C21_rigid_motion {phi l : K} (hp : 1 + phi ≠ 0) (hl : l ≠ 0) (ty w x : K) :
    interp4 (yShape phi l x) ty w (ty + w * l) w = ty + w * x := by
  simp [interp4, yShape]; field_simp; ring

/-- C21: the axial interpolation is linear and takes the nodal values. -/
theorem C21_axial {l : K} (hl : l ≠ 0) (u1 u2 x : K) :
    normalShape l x 0 * u1 + normalShape l x 1 * u2 = axialDisplacement l u1 u2 x ∧
      axialDisplacement l u1 u2 0 = u1 ∧ axialDisplacement l u1 u2 l = u2 := by
  refine ⟨?_, ?_, ?_⟩ <;> simp [normalShape, axialDisplacement, hl]
  ring

/-- C21: for a shear-rigid beam the coded functions are the textbook cubic interpolation. -/
theorem C21_euler {l : K} (hl : l ≠ 0) (w1 t1 w2 t2 x : K) :
    interp4 (yShape 0 l x) w1 t1 w2 t2 = timoDeflection 0 l w1 t1 w2 t2 x := by
  simp [interp4, yShape, timoDeflection]; field_simp; ring

/-- A valid beam meets the hypotheses used in this file. -/
example (b : BeamPart K) (hb : b.Valid) : 1 + timoshenkoFactor b ≠ 0 ∧ b.l ≠ 0 := by
  have := timoshenkoFactor_nonneg b hb
  exact ⟨by positivity, hb.l.ne'⟩

/-! ## C22 The rotation shape functions are the slope of the deflection shape functions -/

/-- C22: for all nodal values the interpolated slope is the derivative of the interpolated deflection. -/
theorem C22_slope (phi l w1 t1 w2 t2 x : ℝ) :
    HasDerivAt (fun y => interp4 (yShape phi l y) w1 t1 w2 t2) (interp4 (zRotShape phi l x) w1 t1 w2 t2) x := by
  have h1 : HasDerivAt (fun y : ℝ => y / l) (1 / l) x := (hasDerivAt_id x).div_const l
  have h2 : HasDerivAt (fun y : ℝ => (y / l) ^ 2) (2 * (x / l) * (1 / l)) x :=
    HasDerivAt.congr_deriv (h1.pow 2) (by simp)
  have h3 : HasDerivAt (fun y : ℝ => (y / l) ^ 3) (3 * (x / l) ^ 2 * (1 / l)) x :=
    HasDerivAt.congr_deriv (h1.pow 3) (by simp)
  have g1 : HasDerivAt (fun y : ℝ => y) 1 x := hasDerivAt_id x
  have g2 : HasDerivAt (fun y : ℝ => y ^ 2) (2 * x) x := HasDerivAt.congr_deriv (g1.pow 2) (by simp)
  have g3 : HasDerivAt (fun y : ℝ => y ^ 3) (3 * x ^ 2) x := HasDerivAt.congr_deriv (g1.pow 3) (by simp)
  have k0 : HasDerivAt (fun y => yShape phi l y 0) (zRotShape phi l x 0) x :=
    HasDerivAt.congr_deriv (((((h3.const_mul 2).const_add 1).sub (h2.const_mul 3)).add
      ((h1.const_sub 1).const_mul phi)).const_mul (1 / (1 + phi))) (by simp only [zRotShape, Matrix.cons_val]; ring)
  have k1 : HasDerivAt (fun y => yShape phi l y 1) (zRotShape phi l x 1) x :=
    HasDerivAt.congr_deriv ((((g1.add (g3.div_const (l ^ 2))).sub ((g2.div_const l).const_mul 2)).add
      ((h1.sub h2).const_mul (phi / 2))).const_mul (1 / (1 + phi))) (by simp only [zRotShape, Matrix.cons_val]; ring)
  have k2 : HasDerivAt (fun y => yShape phi l y 2) (zRotShape phi l x 2) x :=
    HasDerivAt.congr_deriv ((((h3.const_mul (-2)).add (h2.const_mul 3)).add
      (h1.const_mul phi)).const_mul (1 / (1 + phi))) (by simp only [zRotShape, Matrix.cons_val]; ring)
  have k3 : HasDerivAt (fun y => yShape phi l y 3) (zRotShape phi l x 3) x :=
    HasDerivAt.congr_deriv ((((g3.div_const (l ^ 2)).sub (g2.div_const l)).add
      ((h2.sub h1).const_mul (phi / 2))).const_mul (1 / (1 + phi))) (by simp only [zRotShape, Matrix.cons_val]; ring)
  exact (((k0.mul_const w1).add (k1.mul_const t1)).add (k2.mul_const w2)).add (k3.mul_const t2)

/-! ## C23 Pure bending -/

/-- C23, exact characterisation: constant curvature `x²/2` (nodal values `0, 0, l²/2, l`) is reproduced at every
position exactly if the beam is shear-rigid or has length one. -/
theorem C23_pure_bending_iff {phi l : K} (hp : 1 + phi ≠ 0) (hl : l ≠ 0) :
    (∀ x, interp4 (yShape phi l x) 0 0 (l ^ 2 / 2) l = x ^ 2 / 2) ↔ phi = 0 ∨ l = 1 := by
  have key : ∀ x, interp4 (yShape phi l x) 0 0 (l ^ 2 / 2) l - x ^ 2 / 2 =
      phi * (l - 1) * x * (l - x) / (2 * l * (1 + phi)) := by
    intro x; simp [interp4, yShape]; field_simp; ring
  constructor
  · intro h
    have h1 := key (l / 2)
    rw [h, sub_self] at h1
    have h2 : phi * (l - 1) * (l / 2) * (l - l / 2) = 0 := by
      have h3 : (2 * l * (1 + phi)) ≠ 0 := by simp [hp, hl]
      rw [eq_comm, div_eq_zero_iff] at h1
      exact h1.resolve_right h3
    have h4 : (l / 2) * (l - l / 2) ≠ 0 := by
      have : l - l / 2 = l / 2 := by ring
      rw [this]; simp [hl]
    have h5 : phi * (l - 1) = 0 := by
      have : (phi * (l - 1)) * ((l / 2) * (l - l / 2)) = 0 := by linear_combination h2
      exact (mul_eq_zero.mp this).resolve_right h4
    rcases mul_eq_zero.mp h5 with h | h
    · exact Or.inl h
    · exact Or.inr (by linear_combination h)
  · rintro h x
    have := key x
    rw [← sub_eq_zero, this]
    rcases h with h | h <;> simp [h]

/-- C23 (partial: shear-rigid beams of any length). -/
theorem C23_pure_bending_partial (b : BeamPart K) (hb : b.Valid) (hk : b.kappa = 0) (x : K) :
    interp4 (yShape (timoshenkoFactor b) b.l x) 0 0 (b.l ^ 2 / 2) b.l = x ^ 2 / 2 := by
  have h0 : timoshenkoFactor b = 0 := by simp [timoshenkoFactor, hk]
  exact (C23_pure_bending_iff (by simp [h0]) hb.l.ne').mpr (Or.inl h0) x

/-- C23 fails for the shear-flexible example beam (length 2) at its middle. -/
theorem C23_violated :
    exampleBeam.Valid ∧
      interp4 (yShape (timoshenkoFactor exampleBeam) exampleBeam.l 1) 0 0 (exampleBeam.l ^ 2 / 2) exampleBeam.l
        ≠ (1 : ℚ) ^ 2 / 2 := by
  refine ⟨exampleBeam_valid, ?_⟩
  simp [interp4, yShape, exampleBeam, timoshenkoFactor, shearModulus]
  norm_num

/-- The textbook field (with the factor `l` the code omits) does reproduce pure bending: the property is attainable. -/
example {phi l : K} (hp : 1 + phi ≠ 0) (hl : l ≠ 0) (x : K) :
    timoDeflection phi l 0 0 (l ^ 2 / 2) l x = x ^ 2 / 2 := by
  simp [timoDeflection]; field_simp; ring

/-! ## C27 Internal forces -/

/-- The element end forces in the sign convention of internal forces: positive as on the first node, reversed on the
second. -/
def endForces (Kel : Matrix (Fin 6) (Fin 6) K) (u : Fin 6 → K) : (K × K × K) × (K × K × K) :=
  let F : Fin 6 → K := fun i => ∑ j, Kel i j * u j
  ((F 0, F 1, F 2), (-F 3, -F 4, -F 5))

/-- C27 (partial: shear-rigid beams; end values only, see `C27_linear_violated` for the interior and
`C27_shear_flexible_violated` for shear-flexible beams). The reported internal forces at both ends of an element with
any stiffness matrix are the element end forces. -/
theorem C27_end_forces_partial (Kel : Matrix (Fin 6) (Fin 6) K) {l : K} (hl : l ≠ 0) (u : Fin 6 → K) :
    localForcesAt Kel 0 l 0 u = (endForces Kel u).1 ∧ localForcesAt Kel 0 l l u = (endForces Kel u).2 := by
  constructor <;> ext <;>
    simp [localForcesAt, endForces, normalShape, yShape, zRotShape, Matrix.mulVec, dotProduct, hl] <;>
    field_simp <;> ring

/-- C27: the reported normal force is the same at every position (any beam). -/
theorem C27_normal_force (b : BeamPart K) (hb : b.Valid) (u : Fin 6 → K) (x : K) :
    (localForcesAt b.stiffness (timoshenkoFactor b) b.l x u).1 = b.E * b.A / b.l * (u 0 - u 3) := by
  have hphi := timoshenkoFactor_nonneg b hb
  have hl := hb.l.ne'; have hI := hb.I.ne'
  have hp : 1 + timoshenkoFactor b ≠ 0 := by positivity
  unfold BeamPart.stiffness
  rw [beamStiffness_eq]
  simp [localForcesAt, normalShape, Matrix.mulVec, dotProduct, Fin.sum_univ_six]
  field_simp
  ring

/-- Shear-rigid example beam of length 2. -/
def eulerBeam : BeamPart ℚ := { exampleBeam with kappa := 0, s2 := .inf }

theorem eulerBeam_valid : eulerBeam.Valid := by constructor <;> norm_num [eulerBeam, exampleBeam]

/-- C27 fails in the interior: under pure bending (end rotations `-1` and `1`, constant moment) the reported moment at
midspan is minus one half of the end moments instead of equal to them. -/
theorem C27_linear_violated :
    let u : Fin 6 → ℚ := ![0, 0, -1, 0, 0, 1]
    let M := fun x => (localForcesAt eulerBeam.stiffness (timoshenkoFactor eulerBeam) eulerBeam.l x u).2.2
    eulerBeam.Valid ∧ M 0 = -1000 ∧ M 2 = -1000 ∧ M 1 = 500 := by
  refine ⟨eulerBeam_valid, ?_, ?_, ?_⟩ <;>
  · rw [BeamPart.stiffness, beamStiffness_eq]
    simp [localForcesAt, zRotShape, eulerBeam, exampleBeam, timoshenkoFactor, fixity, Matrix.mulVec, dotProduct,
      Fin.sum_univ_six]
    norm_num

/-- C27: what the code reports in the interior of a shear-rigid element with the end moments `M1`, `M2` and equal end
shear forces: a parabola that agrees with the linear moment line exactly if `x` is an end or `M1 + M2 = 0`. -/
theorem C27_moment_error (Kel : Matrix (Fin 6) (Fin 6) K) {l : K} (hl : l ≠ 0) (u : Fin 6 → K)
    (hV : (endForces Kel u).1.2.1 = (endForces Kel u).2.2.1) (x : K) :
    (localForcesAt Kel 0 l x u).2.2 -
        ((endForces Kel u).1.2.2 * (1 - x / l) + (endForces Kel u).2.2.2 * (x / l)) =
      -3 * ((endForces Kel u).1.2.2 + (endForces Kel u).2.2.2) * (x / l) * (1 - x / l) := by
  simp only [endForces] at *
  simp [localForcesAt, zRotShape, Matrix.mulVec, dotProduct]
  field_simp
  linear_combination (6 * x * (x - l)) * hV

/-- C27 fails for shear-flexible beams already at the ends: the reported moment at the first node of the example beam
is not the end moment. -/
theorem C27_shear_flexible_violated :
    let u : Fin 6 → ℚ := ![0, 0, -1, 0, 0, 1]
    exampleBeam.Valid ∧
      (localForcesAt exampleBeam.stiffness (timoshenkoFactor exampleBeam) exampleBeam.l 0 u).2.2 ≠
        (endForces exampleBeam.stiffness u).1.2.2 := by
  refine ⟨exampleBeam_valid, ?_⟩
  rw [BeamPart.stiffness, beamStiffness_eq]
  simp [localForcesAt, endForces, zRotShape, exampleBeam, timoshenkoFactor, shearModulus, fixity, Matrix.mulVec,
    dotProduct, Fin.sum_univ_six]
  norm_num

end Rose
