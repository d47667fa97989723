/-
C119: a beam element clamped at one end is a Timoshenko cantilever.
-/
import Verif.Props.Hinge
import Verif.Spec.Cantilever

set_option linter.unusedSectionVars false

namespace Rose
open Spec

variable {K : Type*} [Field K] [LinearOrder K] [IsStrictOrderedRing K]

/-- Shear flexibility per length of a beam part: `1 / (G A κ)` for a positive shear factor `κ`, else 0; `G` is the shear
modulus `E / (2 (1 + ν))`. -/
def BeamPart.shearFlexibility (b : BeamPart K) : K :=
  if 0 < b.kappa then 1 / (b.E / (2 * (1 + b.nu)) * b.A * b.kappa) else 0

theorem timoshenkoFactor_eq (b : BeamPart K) (hb : b.Valid) :
    timoshenkoFactor b = 12 * b.E * b.I * b.shearFlexibility / b.l ^ 2 := by
  unfold timoshenkoFactor BeamPart.shearFlexibility shearModulus
  have h1 := hb.E; have h2 := hb.A; have h3 := hb.l
  have h4 : 0 < 1 + b.nu := by have := hb.nu; linarith
  split_ifs with h
  · field_simp
  · simp

theorem shearFlexibility_nonneg (b : BeamPart K) (hb : b.Valid) : 0 ≤ b.shearFlexibility := by
  unfold BeamPart.shearFlexibility
  have h1 := hb.E; have h2 := hb.A
  have h4 : 0 < 1 + b.nu := by have := hb.nu; linarith
  split_ifs with h
  · positivity
  · exact le_refl _

/-- **C119** The forces of the stiffness matrix of a valid beam with rigid ends, for the displacements of a cantilever in
Timoshenko's theory, are the loads at the free end and the reactions of the clamp. -/
theorem C119_cantilever (b : BeamPart K) (hb : b.Valid) (h1 : b.s1 = .inf) (h2 : b.s2 = .inf) (N V M : K) (i : Fin 6) :
    ∑ j, b.stiffness i j * cantilever (b.E * b.A) (b.E * b.I) b.shearFlexibility b.l N V M j =
      cantileverForces b.l N V M i := by
  have hs := shearFlexibility_nonneg b hb
  have hE := hb.E; have hA := hb.A; have hI := hb.I; have hl := hb.l
  have hp : 0 < b.l ^ 2 + 12 * b.E * b.I * b.shearFlexibility := by positivity
  have e1 : 1 + timoshenkoFactor b = (b.l ^ 2 + 12 * b.E * b.I * b.shearFlexibility) / b.l ^ 2 := by
    rw [timoshenkoFactor_eq b hb]; field_simp
  have e2 : 4 + timoshenkoFactor b = (4 * b.l ^ 2 + 12 * b.E * b.I * b.shearFlexibility) / b.l ^ 2 := by
    rw [timoshenkoFactor_eq b hb]; field_simp
  have e3 : 2 - timoshenkoFactor b = (2 * b.l ^ 2 - 12 * b.E * b.I * b.shearFlexibility) / b.l ^ 2 := by
    rw [timoshenkoFactor_eq b hb]; field_simp
  rw [BeamPart.stiffness, h1, h2, beamStiffness_eq]
  simp only [fixity, e1, e2, e3]
  generalize b.shearFlexibility = s at *
  rw [Fin.sum_univ_six]
  fin_cases i <;> simp [cantilever, cantileverForces] <;> norm_num <;> field_simp <;> ring

/-- **C119** These are the only displacements of the free end that balance the loads. -/
theorem C119_unique (b : BeamPart K) (hb : b.Valid) (h1 : b.s1 = .inf) (h2 : b.s2 = .inf) (N V M : K) (u : Fin 6 → K)
    (hu : u 0 = 0 ∧ u 1 = 0 ∧ u 2 = 0)
    (hf : ∀ i, 3 ≤ i → ∑ j, b.stiffness i j * u j = cantileverForces b.l N V M i) :
    u = cantilever (b.E * b.A) (b.E * b.I) b.shearFlexibility b.l N V M := by
  set c := cantilever (b.E * b.A) (b.E * b.I) b.shearFlexibility b.l N V M with hc
  have hz : energy b.stiffness (fun i => u i - c i) = 0 := by
    unfold energy
    apply Finset.sum_eq_zero
    intro i _
    by_cases hi : 3 ≤ i
    · have e := C119_cantilever b hb h1 h2 N V M i
      rw [← hc, ← hf i hi] at e
      have : ∑ j, (u i - c i) * b.stiffness i j * (u j - c j) =
          (u i - c i) * (∑ j, b.stiffness i j * u j - ∑ j, b.stiffness i j * c j) := by
        rw [← Finset.sum_sub_distrib, Finset.mul_sum]
        refine Finset.sum_congr rfl fun j _ => ?_
        ring
      rw [this, e]
      ring
    · have hi' : u i - c i = 0 := by
        obtain ⟨a, a1, a2⟩ := hu
        rw [hc]
        fin_cases i
        · simp [cantilever, a]
        · simp [cantilever, a1]
        · simpa [cantilever] using a2
        all_goals exact absurd (by decide) hi
      simp [hi']
  obtain ⟨tx, ty, w, hr⟩ := (C19_beam_kernel b hb h1 h2 _).mp hz
  obtain ⟨a, a1, a2⟩ := hu
  have r : ∀ i, u i - c i = (![tx, ty, w, tx, ty + w * b.l, w] : Fin 6 → K) i := fun i => congrFun hr i
  have r0 := r 0
  have r1 := r 1
  have r2 := r 2
  simp [a, a1, a2, hc, cantilever] at r0 r1 r2
  subst r0 r1 r2
  ext i
  have := r i
  fin_cases i <;> simp at this <;> exact sub_eq_zero.mp this

/-- A shear-flexible beam of length 2 with rigid ends: the hypotheses hold, and shear adds to the deflection. -/
example : ({ exampleBeam with s1 := .inf, s2 := .inf } : BeamPart ℚ).Valid ∧
    0 < ({ exampleBeam with s1 := .inf, s2 := .inf } : BeamPart ℚ).shearFlexibility := by
  constructor
  · constructor <;> norm_num [exampleBeam]
  · norm_num [BeamPart.shearFlexibility, exampleBeam]

/-! ## C20, C17: sleepers and hinges -/

/-- C20: accelerating a sleeper or a hinge by `a` costs its mass. -/
theorem C20_point_mass (m a : K) : energy (pointMass m) (fun _ => a) = m * a ^ 2 := by
  simp [energy, pointMass]; ring

/-- C17: a sleeper or hinge itself causes no force in any displacement. -/
theorem C17_point (u : Fin 1 → K) : ForceFree pointStiffness u := by
  intro i; simp [pointStiffness]

end Rose
