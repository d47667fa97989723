/-
Specification of a beam on two supports under a point load: the principle of virtual work of Euler-Bernoulli beam theory.
-/
import Mathlib.Analysis.SpecialFunctions.Integrals.Basic

namespace Rose.Spec
open Set

/-- `w` is twice continuously differentiable on `[0, L]` with derivatives `w'` and `w''`. -/
structure TwiceSmooth (L : ℝ) (w w' w'' : ℝ → ℝ) : Prop where
  first : ∀ x ∈ Icc 0 L, HasDerivWithinAt w (w' x) (Icc 0 L) x
  second : ∀ x ∈ Icc 0 L, HasDerivWithinAt w' (w'' x) (Icc 0 L) x
  continuous : ContinuousOn w'' (Icc 0 L)

/-- `w` is the deflection of a beam of length `L` and bending stiffness `EI` on two supports with a point load `F` at `a`:
it is smooth enough to bend, it is zero at the supports, and in every virtual deflection that is zero at the supports the
bending moments do the work of the load. -/
def BeamDeflection (EI L F a : ℝ) (w : ℝ → ℝ) : Prop :=
  w 0 = 0 ∧ w L = 0 ∧ ∃ w' w'', TwiceSmooth L w w' w'' ∧
    ∀ v v' v'', TwiceSmooth L v v' v'' → v 0 = 0 → v L = 0 → ∫ x in (0 : ℝ)..L, EI * w'' x * v'' x = F * v a

end Rose.Spec
