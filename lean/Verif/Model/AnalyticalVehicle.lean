/-
Model of the solution of a vehicle that crosses a beam (`analytical_solutions/moving_vehicle.py`).
-/
import Verif.Model.Accumulation

set_option linter.unusedSectionVars false

namespace Rose

/-- What `__init__`, `vehicle` and `beam` of `TwoDofVehicle` get, `analytical_solutions/moving_vehicle.py:12-78`. -/
structure VehicleCrossing where
  tStep : ℝ
  mv : ℝ
  mw : ℝ
  speed : ℝ
  k : ℝ
  c : ℝ
  EI : ℝ
  mass : ℝ
  length : ℝ

/-- `g`, `beta` and `gamma`, `analytical_solutions/moving_vehicle.py:39-42`. -/
noncomputable def VehicleCrossing.g (_ : VehicleCrossing) : ℝ := 9.81
noncomputable def VehicleCrossing.beta (_ : VehicleCrossing) : ℝ := 0.25
noncomputable def VehicleCrossing.gamma (_ : VehicleCrossing) : ℝ := 0.5

/-- `eigen_freq(1)`, `analytical_solutions/moving_vehicle.py:80-87`. -/
noncomputable def VehicleCrossing.eig (s : VehicleCrossing) : ℝ :=
  1 ^ 2 * Real.pi ^ 2 * √(s.EI / (s.mass * s.length ^ 4))

/-- The number of time steps, `analytical_solutions/moving_vehicle.py:102-105`; `int` of a negative number gives an error in
`np.linspace`, here zero steps and with that the error below. -/
noncomputable def VehicleCrossing.steps (s : VehicleCrossing) : ℕ := ⌊s.length / s.speed / s.tStep⌋₊

/-- The attribute `time`, `analytical_solutions/moving_vehicle.py:102-105`. -/
noncomputable def VehicleCrossing.time (s : VehicleCrossing) : List ℝ := linspace 0 (s.length / s.speed) s.steps

/-- A row of `res`, `vel` and `acc`: the amplitude of the beam and the displacement of the vehicle,
`analytical_solutions/moving_vehicle.py:98-99, 108`. -/
structure CrossingState where
  u : ℝ × ℝ
  v : ℝ × ℝ
  a : ℝ × ℝ

/-- The body of the loop over the time steps, `analytical_solutions/moving_vehicle.py:114-146`; `none` is the exception of
`np.linalg.inv` for a singular matrix. -/
noncomputable def VehicleCrossing.step (s : VehicleCrossing) (dt t : ℝ) (o : CrossingState) : Option CrossingState :=
  let a1 := 1 / (s.beta * dt ^ 2)
  let a2 := 1 / (s.beta * dt)
  let a3 := 1 / (2 * s.beta) - 1
  let a4 := s.gamma / (s.beta * dt)
  let a5 := 1 - s.gamma / s.beta
  let a6 := (1 - s.gamma / (2 * s.beta)) * dt
  let sin := Real.sin (Real.pi * s.speed * t / s.length)
  let k11 := a1 * (s.mass * s.length / 2 + s.mw * sin ^ 2) + s.mass * s.length / 2 * s.eig ^ 2 + s.k * sin ^ 2
  let k12 := -s.k * sin
  let k21 := -s.k * sin - s.c * a4 * sin
  let k22 := a1 * s.mv + s.k + s.c * a4
  let f1 := (s.mv + s.mw) * s.g * sin + (a1 * o.u.1 + a2 * o.v.1 + a3 * o.a.1) * (s.mass * s.length / 2 + s.mw * sin ^ 2)
  let f2 := -s.mv * (-a1 * o.u.2 - a2 * o.v.2 - a3 * o.a.2) -
    s.c * (-a4 * o.u.2 + a5 * o.v.2 + a6 * o.a.2 - (-a4 * o.u.1 + a5 * o.v.1 + a6 * o.a.1) * sin)
  let det := k11 * k22 - k12 * k21
  if det = 0 then none
  else
    let u1 := k22 / det * f1 + -k12 / det * f2
    let u2 := -k21 / det * f1 + k11 / det * f2
    some
      { u := (u1, u2)
        v := (a4 * (u1 - o.u.1) + a5 * o.v.1 + a6 * o.a.1, a4 * (u2 - o.u.2) + a5 * o.v.2 + a6 * o.a.2)
        a := (a1 * (u1 - o.u.1) - a2 * o.v.1 - a3 * o.a.1, a1 * (u2 - o.u.2) - a2 * o.v.2 - a3 * o.a.2) }

/-- The loop over the remaining time steps: the rows of `res` from the current one on,
`analytical_solutions/moving_vehicle.py:122-149`. -/
noncomputable def VehicleCrossing.loop (s : VehicleCrossing) (dt : ℝ) : List ℝ → CrossingState → Option (List (ℝ × ℝ))
  | [], o => some [o.u]
  | t :: ts, o => (s.step dt t o).bind fun o' => (s.loop dt ts o').map (o.u :: ·)

/-- `compute`: the attribute `displacement`, `analytical_solutions/moving_vehicle.py:89-150`; `none` is the exception of
`self.time[1]` for less than two time steps or that of `step`. -/
noncomputable def VehicleCrossing.compute (s : VehicleCrossing) : Option (List (ℝ × ℝ)) :=
  match s.time with
  | t0 :: t1 :: ts => s.loop (t1 - t0) (t1 :: ts) ⟨(0, 0), (0, 0), (0, 0)⟩
  | _ => none

end Rose
