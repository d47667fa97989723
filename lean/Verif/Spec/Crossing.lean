/-
Specification of a vehicle of two masses, connected by a spring and a damper, that crosses a beam on two supports which moves in its
first shape.
-/
import Mathlib.Analysis.SpecialFunctions.Trigonometric.Basic

namespace Rose.Spec

/-- The beam (mass `mb` and frequency `omega` of its first shape), the mass `mv` of the vehicle, the mass `mw` of the wheel, the
spring `k` and the damper. The damper acts with the coefficient `c` on the vehicle and with `cw` on the wheel: action is
reaction if the two are the same. -/
structure CrossingValues where
  mb : ℝ
  omega : ℝ
  mv : ℝ
  mw : ℝ
  k : ℝ
  c : ℝ
  cw : ℝ
  g : ℝ

/-- The laws of motion at a time at which the shape of the beam has the value `sigma` at the wheel: `w` is the amplitude of the
beam and `z` the displacement of the vehicle, both downwards; `w'`, `w''`, `z'` and `z''` are velocities and accelerations.
`R` is the force of the wheel on the beam. As in the source of the solution the velocity of the wheel is `sigma * w'`. -/
def CrossingValues.Laws (p : CrossingValues) (sigma w w' w'' z z' z'' : ℝ) : Prop :=
  p.mv * z'' = -(p.k * (z - sigma * w) + p.c * (z' - sigma * w')) ∧
  ∃ R,
    p.mw * (sigma * w'') = p.mw * p.g + p.mv * p.g + (p.k * (z - sigma * w) + p.cw * (z' - sigma * w')) - R ∧
    p.mb * (w'' + p.omega ^ 2 * w) = R * sigma

/-- Constant average acceleration over a time step `dt`. -/
def AverageAcceleration (dt : ℝ) (u u' u'' : ℕ → ℝ) (i : ℕ) : Prop :=
  u' (i + 1) = u' i + dt * (u'' i + u'' (i + 1)) / 2 ∧
  u (i + 1) = u i + dt * u' i + dt ^ 2 * (u'' i + u'' (i + 1)) / 4

/-- The rows are a passage in `n` equal steps, the first at one end and the last at the other end of the beam: it starts without
displacement, velocity and acceleration, the acceleration is averaged over a time step, and the laws of motion hold at
every later time. `duration` is the time of the passage. -/
def CrossingValues.Passage (p : CrossingValues) (duration : ℝ) (n : ℕ) (rows : List (ℝ × ℝ)) : Prop :=
  ∃ w w' w'' z z' z'' : ℕ → ℝ,
    rows = (List.range n).map (fun i => (w i, z i)) ∧
    (w 0 = 0 ∧ w' 0 = 0 ∧ w'' 0 = 0 ∧ z 0 = 0 ∧ z' 0 = 0 ∧ z'' 0 = 0) ∧
    ∀ i, i + 1 < n →
      AverageAcceleration (duration / (n - 1)) w w' w'' i ∧ AverageAcceleration (duration / (n - 1)) z z' z'' i ∧
      p.Laws (Real.sin (Real.pi * ((i + 1) / (n - 1)))) (w (i + 1)) (w' (i + 1)) (w'' (i + 1)) (z (i + 1)) (z' (i + 1)) (z'' (i + 1))

end Rose.Spec
