/-
Specification of the motion of a beam on two supports in its first modes, under a load `F` that acts at `xF` from time 0 on:
the principle of virtual work for all combinations of the first `N` sine shapes.
-/
import Mathlib.Analysis.SpecialFunctions.Integrals.Basic

namespace Rose.Spec
open Finset

/-- The `k`-th shape of a beam on two supports and its second derivative. -/
noncomputable def sine (L : ℝ) (k : ℕ) (x : ℝ) : ℝ := Real.sin (k * Real.pi * x / L)

noncomputable def sineCurvature (L : ℝ) (k : ℕ) (x : ℝ) : ℝ := -((k * Real.pi / L) ^ 2 * Real.sin (k * Real.pi * x / L))

/-- `u x t` is the motion in the first `N` shapes of a beam with bending stiffness `EI` and mass `m` per length, with a damping of
`a` times its mass plus `b` times its stiffness: `u` starts at rest and is a combination of the shapes with amplitudes `q k`,
and in each of the shapes as virtual displacement the inertia, damping and bending do the work of the load. -/
def ModalMotion (EI m a b L F xF : ℝ) (N : ℕ) (u : ℝ → ℝ → ℝ) : Prop :=
  ∃ q q' q'' : ℕ → ℝ → ℝ,
    (∀ k t, HasDerivAt (q k) (q' k t) t ∧ HasDerivAt (q' k) (q'' k t) t) ∧
    (∀ k, q k 0 = 0 ∧ q' k 0 = 0) ∧
    (∀ x t, u x t = ∑ k ∈ Icc 1 N, q k t * sine L k x) ∧
    ∀ t, ∀ j ∈ Icc 1 N,
      (∫ x in (0 : ℝ)..L, m * (∑ k ∈ Icc 1 N, q'' k t * sine L k x) * sine L j x) +
      (a * (∫ x in (0 : ℝ)..L, m * (∑ k ∈ Icc 1 N, q' k t * sine L k x) * sine L j x) +
        b * ∫ x in (0 : ℝ)..L, EI * (∑ k ∈ Icc 1 N, q' k t * sineCurvature L k x) * sineCurvature L j x) +
      (∫ x in (0 : ℝ)..L, EI * (∑ k ∈ Icc 1 N, q k t * sineCurvature L k x) * sineCurvature L j x) = F * sine L j xF

/-- The second derivative of a shape. -/
theorem sine_curvature (L : ℝ) (k : ℕ) (x : ℝ) :
    HasDerivAt (sine L k) (k * Real.pi / L * Real.cos (k * Real.pi * x / L)) x ∧
    HasDerivAt (fun x => k * Real.pi / L * Real.cos (k * Real.pi * x / L)) (sineCurvature L k x) x := by
  have h : HasDerivAt (fun x : ℝ => k * Real.pi * x / L) (k * Real.pi * 1 / L) x :=
    ((hasDerivAt_id x).const_mul (k * Real.pi)).div_const L
  constructor
  · exact h.sin.congr_deriv (by ring)
  · exact (h.cos.const_mul (k * Real.pi / L)).congr_deriv (by unfold sineCurvature; ring)

end Rose.Spec
