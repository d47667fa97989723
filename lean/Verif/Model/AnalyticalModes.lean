/-
Model of the modal solutions of a beam on two supports under a suddenly applied load
(`analytical_solutions/simple_supported.py`).
-/
import Verif.Model.Analytical

set_option linter.unusedSectionVars false

namespace Rose

/-- What `properties` sets, `analytical_solutions/simple_supported.py:108-130, 229-253`: `EI`, the mass per length, the length, the
force, and the discretisation `x` (C145). -/
structure ModalBeam where
  n : ℕ
  eleSize : ℝ
  EI : ℝ
  mass : ℝ
  length : ℝ
  force : ℝ

/-- The attribute `x`, `analytical_solutions/simple_supported.py:126, 249`. -/
noncomputable def ModalBeam.x (s : ModalBeam) : List ℝ := simpleSupportMesh s.length s.eleSize

/-- `eigen_freq`, `analytical_solutions/simple_supported.py:132-139, 255-264`: the attribute `eig`. -/
noncomputable def ModalBeam.eig (s : ModalBeam) (n : ℕ) : ℝ :=
  (n : ℝ) ^ 2 * Real.pi ^ 2 * √(s.EI / (s.mass * s.length ^ 4))

/-- `mode_shape` at a coordinate, `analytical_solutions/simple_supported.py:141-148, 266-273`. -/
noncomputable def ModalBeam.shape (s : ModalBeam) (n : ℕ) (x : ℝ) : ℝ := Real.sin (n * Real.pi / s.length * x)

/-- The force on a mode, `self.eig_shape[int((len(self.x)-1) / 2)] * self.force`,
`analytical_solutions/simple_supported.py:164-165, 293-294`. -/
noncomputable def ModalBeam.modeForce (s : ModalBeam) (n : ℕ) : ℝ :=
  (s.x.map (s.shape n)).getD ((s.x.length - 1) / 2) 0 * s.force

/-- `SimpleSupportEulerNoDamping.compute` at a coordinate and a time, `analytical_solutions/simple_supported.py:150-171`. -/
noncomputable def ModalBeam.undampedAt (s : ModalBeam) (x t : ℝ) : ℝ :=
  2 * s.length ^ 3 / (Real.pi ^ 4 * s.EI) *
    (List.range' 1 (s.n - 1)).foldl
      (fun aux n => aux + s.modeForce n / (n : ℝ) ^ 4 * (1 - Real.cos (s.eig n * t)) * s.shape n x) 0

/-- `self.u` of `SimpleSupportEulerNoDamping`: a row per coordinate, a column per time,
`analytical_solutions/simple_supported.py:128, 169`. -/
noncomputable def ModalBeam.undamped (s : ModalBeam) (time : List ℝ) : List (List ℝ) :=
  s.x.map fun x => time.map fun t => s.undampedAt x t

/-- The damping ratio of `eigen_freq`, `analytical_solutions/simple_supported.py:262`. -/
noncomputable def ModalBeam.qsi (s : ModalBeam) (c0 c1 : ℝ) (n : ℕ) : ℝ := c0 / (2 * s.eig n) + c1 * s.eig n / 2

/-- `SimpleSupportEulerWithDamping.compute` at a coordinate and a time, `analytical_solutions/simple_supported.py:275-302`; the square
root of `1 - qsi ** 2` is `nan` in numpy for a damping ratio above 1, here it is 0. -/
noncomputable def ModalBeam.dampedAt (s : ModalBeam) (c0 c1 x t : ℝ) : ℝ :=
  (List.range' 1 (s.n - 1)).foldl
    (fun aux n =>
      let eig := s.eig n
      let qsi := s.qsi c0 c1 n
      let eigD := eig * √(1 - qsi ^ 2)
      let mass := s.mass * s.length / 2
      let stiff := eig ^ 2 * mass
      aux + s.modeForce n / stiff *
        (1 - Real.exp (-qsi * eig * t) * (Real.cos (eigD * t) + qsi / √(1 - qsi ^ 2) * Real.sin (eigD * t))) * s.shape n x) 0

/-- `self.u` of `SimpleSupportEulerWithDamping`, `analytical_solutions/simple_supported.py:251, 300`. -/
noncomputable def ModalBeam.damped (s : ModalBeam) (c0 c1 : ℝ) (time : List ℝ) : List (List ℝ) :=
  s.x.map fun x => time.map fun t => s.dampedAt c0 c1 x t

end Rose
