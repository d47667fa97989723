/-
Model of the solution of a Timoshenko beam on two supports under a suddenly applied load
(`analytical_solutions/simple_supported.py`, `SimpleSupportTimoshenkoNoDamping`).
-/
import Verif.Model.AnalyticalModes

set_option linter.unusedSectionVars false

namespace Rose

/-- What `properties` of `SimpleSupportTimoshenkoNoDamping` gets, `analytical_solutions/simple_supported.py:354-385`. -/
structure TimoshenkoModal where
  n : ℕ
  eleSize : ℝ
  E : ℝ
  G : ℝ
  k : ℝ
  I : ℝ
  rho : ℝ
  A : ℝ
  length : ℝ
  force : ℝ

/-- `EI`, the mass, the discretisation, the mode shapes and the force on a mode are those of the Euler beam,
`analytical_solutions/simple_supported.py:368, 374, 380, 403-410, 428`. -/
noncomputable def TimoshenkoModal.euler (s : TimoshenkoModal) : ModalBeam :=
  { n := s.n, eleSize := s.eleSize, EI := s.E * s.I, mass := s.rho * s.A, length := s.length, force := s.force }

/-- The attribute `phi`, `analytical_solutions/simple_supported.py:376`. -/
noncomputable def TimoshenkoModal.phi (s : TimoshenkoModal) : ℝ := 12 / s.length ^ 2 * (s.E * s.I / (s.k * s.G * s.A))

/-- The attribute `r`, `analytical_solutions/simple_supported.py:373`. -/
noncomputable def TimoshenkoModal.r (s : TimoshenkoModal) : ℝ := √(s.I / s.A)

/-- `find_omega`, `analytical_solutions/simple_supported.py:457-460`. -/
noncomputable def TimoshenkoModal.findOmega (s : TimoshenkoModal) (omega : ℝ) (n : ℕ) : ℝ :=
  (1 - omega ^ 2) - omega ^ 2 * (n * Real.pi * s.r / s.length) ^ 2 * (1 + s.E / (s.k * s.G)) +
    omega ^ 4 * (n * Real.pi * s.r / s.length) ^ 4 * s.E / (s.k * s.G)

/-- `eigen_freq`, `analytical_solutions/simple_supported.py:387-401`; `root n` is what `scipy.optimize.root` returns for mode `n`. -/
noncomputable def TimoshenkoModal.eig (s : TimoshenkoModal) (root : ℕ → ℝ) (n : ℕ) : ℝ := root n * s.euler.eig n

/-- `compute` at a coordinate and a time, displacement, `analytical_solutions/simple_supported.py:412-436`. -/
noncomputable def TimoshenkoModal.uAt (s : TimoshenkoModal) (root : ℕ → ℝ) (x t : ℝ) : ℝ :=
  2 * s.length ^ 3 * (1 + s.phi) / (Real.pi ^ 4 * s.euler.EI) *
    (List.range' 1 (s.n - 1)).foldl
      (fun aux n => aux + s.euler.modeForce n / (n : ℝ) ^ 4 * (1 - Real.cos (s.eig root n * t)) * s.euler.shape n x) 0

/-- `compute` at a coordinate and a time, velocity, `analytical_solutions/simple_supported.py:412-436`. -/
noncomputable def TimoshenkoModal.vAt (s : TimoshenkoModal) (root : ℕ → ℝ) (x t : ℝ) : ℝ :=
  2 * s.length ^ 3 * (1 + s.phi) / (Real.pi ^ 4 * s.euler.EI) *
    (List.range' 1 (s.n - 1)).foldl
      (fun aux n => aux + s.euler.modeForce n / (n : ℝ) ^ 4 * s.eig root n * Real.sin (s.eig root n * t) * s.euler.shape n x) 0

end Rose
