/-
Model of the solution of a cantilever under a suddenly applied load at its end (`analytical_solutions/cantilever_beam.py`).
-/
import Verif.Model.Analytical

set_option linter.unusedSectionVars false

namespace Rose

/-- What `__init__` and `properties` of `PulseLoadNoDamping` get, `analytical_solutions/cantilever_beam.py:13-66`. -/
structure CantileverModal where
  n : ℕ
  eleSize : ℝ
  intSteps : ℕ
  EI : ℝ
  mass : ℝ
  length : ℝ
  force : ℝ

/-- The attribute `x`, `analytical_solutions/cantilever_beam.py:61`. -/
noncomputable def CantileverModal.x (s : CantileverModal) : List ℝ := simpleSupportMesh s.length s.eleSize

/-- `find_eigen`, `analytical_solutions/cantilever_beam.py:158-160`. -/
noncomputable def findEigen (aL : ℝ) : ℝ := 1 + Real.cos aL * Real.cosh aL

/-- The attribute `a` after `eigen_freq(n)`, `analytical_solutions/cantilever_beam.py:76-81`; `root n` is what `scipy.optimize.root`
returns. -/
noncomputable def CantileverModal.a (s : CantileverModal) (root : ℕ → ℝ) (n : ℕ) : ℝ := root n / s.length

/-- The attribute `eig` after `eigen_freq(n)`, `analytical_solutions/cantilever_beam.py:82`. -/
noncomputable def CantileverModal.eig (s : CantileverModal) (root : ℕ → ℝ) (n : ℕ) : ℝ :=
  (s.a root n * s.length) ^ 2 * √(s.EI / (s.mass * s.length ^ 4))

/-- `mode_shape` at a coordinate, `analytical_solutions/cantilever_beam.py:85-92`, and `aux` of `mass_modal`, lines 99-101. -/
noncomputable def CantileverModal.shape (s : CantileverModal) (root : ℕ → ℝ) (n : ℕ) (x : ℝ) : ℝ :=
  let a := s.a root n
  Real.cos (a * x) - Real.cosh (a * x) -
    (Real.cos (a * s.length) + Real.cosh (a * s.length)) / (Real.sin (a * s.length) + Real.sinh (a * s.length)) *
      (Real.sin (a * x) - Real.sinh (a * x))

/-- `mass_modal`, `analytical_solutions/cantilever_beam.py:94-103`. -/
noncomputable def CantileverModal.massModal (s : CantileverModal) (root : ℕ → ℝ) (n : ℕ) : ℝ :=
  s.mass * trapezoid ((linspace 0 s.length s.intSteps).map fun x => (x, s.shape root n x ^ 2))

/-- `eig_shape[-1] * force`, `analytical_solutions/cantilever_beam.py:126`. -/
noncomputable def CantileverModal.modeForce (s : CantileverModal) (root : ℕ → ℝ) (n : ℕ) : ℝ :=
  s.shape root n (s.x.getLast?.getD 0) * s.force

/-- `compute` at a coordinate and a time, displacement, `analytical_solutions/cantilever_beam.py:111-133`. -/
noncomputable def CantileverModal.uAt (s : CantileverModal) (root : ℕ → ℝ) (x t : ℝ) : ℝ :=
  (List.range' 1 (s.n - 1)).foldl
    (fun aux n =>
      let stiff := s.eig root n ^ 2 * s.massModal root n
      aux + s.modeForce root n / stiff * (1 - Real.cos (s.eig root n * t)) * s.shape root n x) 0

/-- `compute` at a coordinate and a time, velocity, `analytical_solutions/cantilever_beam.py:111-135`. -/
noncomputable def CantileverModal.vAt (s : CantileverModal) (root : ℕ → ℝ) (x t : ℝ) : ℝ :=
  (List.range' 1 (s.n - 1)).foldl
    (fun aux n =>
      let stiff := s.eig root n ^ 2 * s.massModal root n
      aux + s.modeForce root n / stiff * (1 + s.eig root n * Real.sin (s.eig root n * t)) * s.shape root n x) 0

/-- `properties` and `compute`: the attributes `u` and `v`, `analytical_solutions/cantilever_beam.py:61-64, 105-137`. -/
noncomputable def CantileverModal.compute (s : CantileverModal) (root : ℕ → ℝ) (time : List ℝ) :
    List (List ℝ) × List (List ℝ) :=
  (s.x.map fun x => time.map fun t => s.uAt root x t, s.x.map fun x => time.map fun t => s.vAt root x t)

end Rose
