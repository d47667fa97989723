/-
Specification: the axles that pass in a period.
-/
import Mathlib.Data.Int.Interval
import Mathlib.Data.Finset.Prod
import Mathlib.Data.Fintype.Prod

namespace Rose.Spec

/-- The passages of the axles of one train type in the days from `startDay` up to but not including `endDay`: on every
day, in each of `hours` hours, `perHour` trains with `axles` axles. A passage is a day, an hour of operation, a train of that
hour and an axle of that train. -/
def axlePassages (perHour hours axles : ℕ) (startDay endDay : ℤ) : Finset (ℤ × ℕ × ℕ × ℕ) :=
  Finset.Ico startDay endDay ×ˢ Finset.range hours ×ˢ Finset.range perHour ×ˢ Finset.range axles

end Rose.Spec
