/-
Specification: a wheel on an element of the rail.
-/
import Verif.Model.TrainOnTrack

namespace Rose.Spec

/-- A wheel at place `s` stands on an element with end nodes `e`: it is not before its first node and not beyond its second. -/
def StandsOn (t : HorizontalTrack ℝ) (e : ℕ × ℕ) (s : ℝ) : Prop :=
  (t.store e.1).pos 0 ≤ s ∧ s ≤ (t.store e.2).pos 0

/-- The element with end nodes `e` lies ahead of a wheel at `s`: the wheel has not reached its first node. -/
def LiesAhead (t : HorizontalTrack ℝ) (e : ℕ × ℕ) (s : ℝ) : Prop := s < (t.store e.1).pos 0

end Rose.Spec
