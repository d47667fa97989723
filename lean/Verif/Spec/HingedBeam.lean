/-
Specification of a beam with a hinge, clamped at its left end and supported at its right end, under a point load: the principle of
virtual work of Euler-Bernoulli beam theory.
-/
import Verif.Spec.SimpleBeam

namespace Rose.Spec
open Set

/-- A deflection that the supports and the hinge admit: `w` of the left part at a distance from the clamped end, `z` of the right part
at a distance from the hinge. The left end does not move and does not rotate, the right end does not move, and the two parts
stay together at the hinge, where they may have different slopes. -/
structure HingedShape (a b : ℝ) (w w' w'' z z' z'' : ℝ → ℝ) : Prop where
  left : TwiceSmooth a w w' w''
  right : TwiceSmooth b z z' z''
  clamped : w 0 = 0 ∧ w' 0 = 0
  support : z b = 0
  hinge : w a = z 0

/-- `w` and `z` are the deflection of a beam with bending stiffness `EI` with a hinge between a part of length `a` and a part of
length `b` under a load `F` at the distance `x` from the clamped end: in every admitted virtual deflection the bending
moments do the work of the load. -/
def HingedDeflection (EI a b F x : ℝ) (w z : ℝ → ℝ) : Prop :=
  ∃ w' w'' z' z'', HingedShape a b w w' w'' z z' z'' ∧
    ∀ v v' v'' y y' y'', HingedShape a b v v' v'' y y' y'' →
      (∫ s in (0 : ℝ)..a, EI * w'' s * v'' s) + (∫ s in (0 : ℝ)..b, EI * z'' s * y'' s) = F * (if x ≤ a then v x else y (x - a))

end Rose.Spec
