/-
Model of the deflection of a beam with a hinge (`analytical_solutions/beam_with_hinge.py`).
-/
import Mathlib.Algebra.Order.Field.Basic

namespace Rose

/-- The attributes of `BeamWithHinge`, `analytical_solutions/beam_with_hinge.py:13-17`. -/
structure HingedBeamFormula (K : Type*) where
  leftLength : K
  rightLength : K
  EI : K
  load : K

variable {K : Type*} [Field K] [LinearOrder K]

/-- `__calculate_left_part`, `analytical_solutions/beam_with_hinge.py:19-26`. -/
def HingedBeamFormula.leftPart (s : HingedBeamFormula K) (x : K) : K := s.load * x ^ 2 / (6 * s.EI) * (3 * s.leftLength - x)

/-- `__calculate_right_part`, `analytical_solutions/beam_with_hinge.py:28-37`. -/
def HingedBeamFormula.rightPart (s : HingedBeamFormula K) (x : K) : K :=
  let loadAtHinge := (1 - x / s.rightLength) * s.load
  loadAtHinge * s.leftLength ^ 3 / (3 * s.EI)

/-- `calculate_max_disp`, `analytical_solutions/beam_with_hinge.py:39-52`. -/
def HingedBeamFormula.maxDisp (s : HingedBeamFormula K) (x : K) : K :=
  if 0 < x ∧ x < s.leftLength then s.leftPart x
  else if s.leftLength ≤ x ∧ x ≤ s.rightLength + s.leftLength then s.rightPart (x - s.leftLength)
  else 0

end Rose
