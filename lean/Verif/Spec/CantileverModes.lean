/-
Specification of a beam that is clamped at `x = 0` and free at `x = L`: its modes, and its motion in modes under a load at its end.
-/
import Mathlib.Analysis.SpecialFunctions.Integrals.Basic

namespace Rose.Spec
open Finset

/-- `f` with the derivatives `f1`, `f2`, `f3` is a mode of free vibration with the frequency `w`: it is clamped at `0`, has no
moment and no shear force at `L`, and the bending forces are those of the inertia. -/
structure CantileverMode (EI m L w : ℝ) (f f1 f2 f3 : ℝ → ℝ) : Prop where
  first : ∀ x, HasDerivAt f (f1 x) x
  second : ∀ x, HasDerivAt f1 (f2 x) x
  third : ∀ x, HasDerivAt f2 (f3 x) x
  fourth : ∀ x, ∃ f4, HasDerivAt f3 f4 x ∧ EI * f4 = m * w ^ 2 * f x
  clamped : f 0 = 0 ∧ f1 0 = 0
  free : f2 L = 0 ∧ f3 L = 0

/-- `u x t` is the motion from rest in the shapes `f 1`, …, `f N` (second derivatives `c 1`, …, `c N`) of a beam with bending
stiffness `EI` and mass `m` per length after a load `F` at `L` is applied at time 0: in each of the shapes as virtual displacement
the inertia and the bending do the work of the load. -/
def ShapeMotion (EI m L F : ℝ) (N : ℕ) (f c : ℕ → ℝ → ℝ) (u : ℝ → ℝ → ℝ) : Prop :=
  ∃ q q' q'' : ℕ → ℝ → ℝ,
    (∀ k t, HasDerivAt (q k) (q' k t) t ∧ HasDerivAt (q' k) (q'' k t) t) ∧
    (∀ k, q k 0 = 0 ∧ q' k 0 = 0) ∧
    (∀ x t, u x t = ∑ k ∈ Icc 1 N, q k t * f k x) ∧
    ∀ t, ∀ j ∈ Icc 1 N,
      (∫ x in (0 : ℝ)..L, m * (∑ k ∈ Icc 1 N, q'' k t * f k x) * f j x) +
      (∫ x in (0 : ℝ)..L, EI * (∑ k ∈ Icc 1 N, q k t * c k x) * c j x) = F * f j L

end Rose.Spec
