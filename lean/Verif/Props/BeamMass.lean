/-
Property C20: rod and beam mass matrices.
-/
import Verif.Props.Beam
import Verif.Lemmas.PolyIntegral

set_option linter.unusedSectionVars false

namespace Rose
open Spec

variable {K : Type*} [Field K] [LinearOrder K] [IsStrictOrderedRing K]

/-! ## C20 The mass matrices carry exactly the element mass -/

theorem timoshenkoFactor_ne_zero_iff (b : BeamPart K) (h : b.Valid) : timoshenkoFactor b ≠ 0 ↔ 0 < b.kappa := by
  have h1 := h.E; have h2 := h.nu; have h3 := h.A; have h4 := h.I; have h6 := h.l
  unfold timoshenkoFactor shearModulus
  have : 0 < 1 + b.nu := by linarith
  split_ifs with hk
  · have hk' : 0 < b.kappa := hk
    exact ⟨fun _ => hk', fun _ => by positivity⟩
  · simp_all

/-- C20: accelerating a rod along its axis by `a` costs its mass. -/
theorem C20_rod_mass (m a : K) : energy (rodMass m) (fun _ => a) = m * a ^ 2 := by
  rw [rodMass_eq]; simp [energy, Fin.sum_univ_two]; ring

/-- C20: the rod's inertia form is positive definite. -/
theorem C20_rod_mass_pos (m : K) (hm : 0 < m) (u : Fin 2 → K) (hu : u ≠ 0) : 0 < energy (rodMass m) u := by
  have e : energy (rodMass m) u = m / 6 * ((u 0 + u 1) ^ 2 + u 0 ^ 2 + u 1 ^ 2) := by
    rw [rodMass_eq]; simp [energy, Fin.sum_univ_two]; ring
  rw [e]
  have : u 0 ≠ 0 ∨ u 1 ≠ 0 := by
    by_contra h
    push Not at h
    exact hu (by ext i; fin_cases i <;> simp [h.1, h.2])
  rcases this with h | h
  · have : 0 < u 0 ^ 2 := by positivity
    positivity
  · have : 0 < u 1 ^ 2 := by positivity
    positivity

/-- C20: accelerating a valid beam uniformly by `(ax, ay)` costs exactly its mass `rho A l`. -/
theorem C20_beam_translation (b : BeamPart K) (hb : b.Valid) (ax ay : K) :
    energy b.massMatrix (translation ax ay) = b.rho * b.A * b.l * (ax ^ 2 + ay ^ 2) := by
  have hphi := timoshenkoFactor_nonneg b hb
  have hl := hb.l
  have hp : 1 + timoshenkoFactor b ≠ 0 := by positivity
  unfold BeamPart.massMatrix beamMass
  generalize timoshenkoFactor b = phi at *
  rw [beamTransMass_eq, beamRotMass_eq]
  split_ifs <;>
    · simp [energy, Fin.sum_univ_six, translation]
      field_simp
      ring

/-- C20: turning a valid beam about its first node with angular acceleration `w` costs `rho A l³ / 3`, plus the rotary
inertia `rho I l` if (and only if) the beam is shear-flexible. -/
theorem C20_beam_rotation (b : BeamPart K) (hb : b.Valid) (w : K) :
    energy b.massMatrix (rotationAbout w 0 0 0 0 b.l 0) =
      (b.rho * b.A * b.l ^ 3 / 3 + if 0 < b.kappa then b.rho * b.I * b.l else 0) * w ^ 2 := by
  have hphi := timoshenkoFactor_nonneg b hb
  have hl := hb.l
  have hp : 1 + timoshenkoFactor b ≠ 0 := by positivity
  have hiff := timoshenkoFactor_ne_zero_iff b hb
  unfold BeamPart.massMatrix beamMass
  rw [← if_congr hiff rfl rfl]
  generalize timoshenkoFactor b = phi at *
  rw [beamTransMass_eq, beamRotMass_eq]
  split_ifs <;>
    · simp [energy, Fin.sum_univ_six, rotationAbout]
      field_simp
      ring

theorem beamTransMass_symm (rho A phi l : K) : (beamTransMass rho A phi l).IsSymm := by
  unfold Matrix.IsSymm
  rw [beamTransMass_eq]
  ext i j
  fin_cases i <;> fin_cases j <;> simp [Matrix.transpose]

theorem beamRotMass_symm (rho I phi l : K) : (beamRotMass rho I phi l).IsSymm := by
  unfold Matrix.IsSymm
  rw [beamRotMass_eq]
  ext i j
  fin_cases i <;> fin_cases j <;> simp [Matrix.transpose]

/-- C20: the beam mass matrix is symmetric. -/
theorem C20_beam_mass_symmetric (b : BeamPart K) : b.massMatrix.IsSymm := by
  unfold BeamPart.massMatrix beamMass
  split_ifs
  · exact (beamTransMass_symm _ _ _ _).add (beamRotMass_symm _ _ _ _)
  · exact beamTransMass_symm _ _ _ _

/-- C20: the mass matrix of a valid beam is the consistent mass matrix of the textbook Timoshenko field: the inertia of
any nodal acceleration is the integral over the element of `rho A (axial² + deflection²)`, plus `rho I rotation²` if
the beam is shear-flexible. -/
theorem C20_consistent_mass (b : BeamPart ℝ) (hb : b.Valid) (u : Fin 6 → ℝ) :
    energy b.massMatrix u =
      ∫ x in (0:ℝ)..b.l, (b.rho * b.A *
          (axialDisplacement b.l (u 0) (u 3) x ^ 2
            + timoDeflection (timoshenkoFactor b) b.l (u 1) (u 2) (u 4) (u 5) x ^ 2)
        + if 0 < b.kappa then
            b.rho * b.I * timoRotation (timoshenkoFactor b) b.l (u 1) (u 2) (u 4) (u 5) x ^ 2 else 0) := by
  have hphi := timoshenkoFactor_nonneg b hb
  have hl := hb.l
  have hp : 1 + timoshenkoFactor b ≠ 0 := by positivity
  have hiff := timoshenkoFactor_ne_zero_iff b hb
  unfold BeamPart.massMatrix beamMass
  simp_rw [← if_congr hiff rfl rfl]
  generalize timoshenkoFactor b = phi at *
  generalize b.l = l at *
  have hl0 : l ≠ 0 := hl.ne'
  -- coefficients of the deflection, rotation and axial displacement as polynomials in x
  let w0 := u 1
  let w1 := (-phi * u 1 / l + u 2 * (1 + phi / 2) + phi * u 4 / l - u 5 * phi / 2) / (1 + phi)
  let w2 := (-3 * u 1 / l ^ 2 + u 2 * (-2 - phi / 2) / l + 3 * u 4 / l ^ 2 + u 5 * (-1 + phi / 2) / l) / (1 + phi)
  let w3 := (2 * u 1 / l ^ 3 + u 2 / l ^ 2 - 2 * u 4 / l ^ 3 + u 5 / l ^ 2) / (1 + phi)
  let r0 := u 2
  let r1 := (-6 * u 1 / l ^ 2 - (4 + phi) * u 2 / l + 6 * u 4 / l ^ 2 + (-2 + phi) * u 5 / l) / (1 + phi)
  let r2 := (6 * u 1 / l ^ 3 + 3 * u 2 / l ^ 2 - 6 * u 4 / l ^ 3 + 3 * u 5 / l ^ 2) / (1 + phi)
  have hw : ∀ x, timoDeflection phi l (u 1) (u 2) (u 4) (u 5) x = w0 + w1 * x + w2 * x ^ 2 + w3 * x ^ 3 := by
    intro x; simp only [timoDeflection, w0, w1, w2, w3]; field_simp; ring
  have hr : ∀ x, timoRotation phi l (u 1) (u 2) (u 4) (u 5) x = r0 + r1 * x + r2 * x ^ 2 := by
    intro x; simp only [timoRotation, r0, r1, r2]; field_simp; ring
  have ha : ∀ x, axialDisplacement l (u 0) (u 3) x = u 0 + (u 3 - u 0) / l * x := by
    intro x; simp only [axialDisplacement]; field_simp; ring
  let q : ℝ := if phi ≠ 0 then b.rho * b.I else 0
  let c : ℕ → ℝ := fun i => match i with
    | 0 => b.rho * b.A * (u 0 ^ 2 + w0 ^ 2) + q * r0 ^ 2
    | 1 => b.rho * b.A * (2 * u 0 * ((u 3 - u 0) / l) + 2 * w0 * w1) + q * (2 * r0 * r1)
    | 2 => b.rho * b.A * (((u 3 - u 0) / l) ^ 2 + w1 ^ 2 + 2 * w0 * w2) + q * (r1 ^ 2 + 2 * r0 * r2)
    | 3 => b.rho * b.A * (2 * w0 * w3 + 2 * w1 * w2) + q * (2 * r1 * r2)
    | 4 => b.rho * b.A * (w2 ^ 2 + 2 * w1 * w3) + q * r2 ^ 2
    | 5 => b.rho * b.A * (2 * w2 * w3)
    | 6 => b.rho * b.A * (w3 ^ 2)
    | _ => 0
  have hint : ∀ x, (b.rho * b.A * (axialDisplacement l (u 0) (u 3) x ^ 2
            + timoDeflection phi l (u 1) (u 2) (u 4) (u 5) x ^ 2)
        + if phi ≠ 0 then b.rho * b.I * timoRotation phi l (u 1) (u 2) (u 4) (u 5) x ^ 2 else 0)
      = ∑ i ∈ Finset.range 7, c i * x ^ i := by
    intro x
    have : (if phi ≠ 0 then b.rho * b.I * timoRotation phi l (u 1) (u 2) (u 4) (u 5) x ^ 2 else 0)
        = q * timoRotation phi l (u 1) (u 2) (u 4) (u 5) x ^ 2 := by
      simp only [q]; split_ifs <;> ring
    rw [this, ha, hw, hr]
    simp only [Finset.sum_range_succ, Finset.sum_range_zero, c]
    ring
  simp_rw [hint]
  rw [integral_poly]
  simp only [Finset.sum_range_succ, Finset.sum_range_zero, c]
  rw [beamTransMass_eq, beamRotMass_eq]
  by_cases h0 : phi = 0
  · subst h0
    simp [energy, Fin.sum_univ_six, q, w0, w1, w2, w3, r0, r1, r2]
    field_simp
    ring
  · simp [h0, energy, Fin.sum_univ_six, q, w0, w1, w2, w3, r0, r1, r2]
    field_simp
    ring

/-- The hypotheses of C20 hold for a shear-flexible beam with positive mass. -/
example : exampleBeam.Valid ∧ exampleBeam.rho * exampleBeam.A * exampleBeam.l = 48 ∧ 0 < exampleBeam.kappa := by
  refine ⟨exampleBeam_valid, ?_, ?_⟩ <;> norm_num [exampleBeam]

end Rose
