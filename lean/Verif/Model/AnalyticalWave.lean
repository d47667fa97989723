/-
Model of the analytical solution for waves in a column (`analytical_solutions/analytical_wave_prop.py`).
-/
import Verif.Model.Accumulation

set_option linter.unusedSectionVars false

namespace Rose

/-- What `__init__` and `properties` of `OneDimWavePropagation` get, `analytical_solutions/analytical_wave_prop.py:8-47`. -/
structure WaveColumn where
  nbCycles : ℕ
  nbTerms : ℕ
  rho : ℝ
  K : ℝ
  p0 : ℝ
  L : ℝ
  nbElements : ℕ

/-- The attribute `c`, `analytical_solutions/analytical_wave_prop.py:55`. -/
noncomputable def WaveColumn.c (s : WaveColumn) : ℝ := √(s.K / s.rho)

/-- `H_discre`, `analytical_solutions/analytical_wave_prop.py:57`. -/
noncomputable def WaveColumn.x (s : WaveColumn) : List ℝ := linspace 0 s.L s.nbElements

/-- The time steps if none are given, `analytical_solutions/analytical_wave_prop.py:59-60`. -/
noncomputable def WaveColumn.defaultTime (s : WaveColumn) : List ℝ :=
  linspace 0 (s.nbCycles * s.L / s.c) (⌈s.c / s.L⌉₊ * 10)

/-- `lambda_k`, `analytical_solutions/analytical_wave_prop.py:74`. -/
noncomputable def WaveColumn.lam (s : WaveColumn) (k : ℕ) : ℝ := (2 * (k : ℝ) - 1) * Real.pi / (2 * s.L)

/-- The displacement at a coordinate and a time, `analytical_solutions/analytical_wave_prop.py:69, 72-75, 81`. -/
noncomputable def WaveColumn.uAt (s : WaveColumn) (x t : ℝ) : ℝ :=
  s.p0 / s.K * (x + 8 * s.L / Real.pi ^ 2 * (List.range' 1 (s.nbTerms - 1)).foldl
    (fun summation (k : ℕ) => summation + (-1) ^ k / (2 * (k : ℝ) - 1) ^ 2 * Real.sin (s.lam k * x) * Real.cos (s.lam k * s.c * t)) 0)

/-- The stress at a coordinate and a time, `analytical_solutions/analytical_wave_prop.py:70, 72-77, 82`. -/
noncomputable def WaveColumn.pAt (s : WaveColumn) (x t : ℝ) : ℝ :=
  s.p0 / s.K * (1 + 8 * s.L / Real.pi ^ 2 * (List.range' 1 (s.nbTerms - 1)).foldl
    (fun summation (k : ℕ) => summation +
      (-1) ^ k * s.lam k / (2 * (k : ℝ) - 1) ^ 2 * Real.cos (s.lam k * x) * Real.cos (s.lam k * s.c * t)) 0) * s.K

/-- The velocity at a coordinate and a time, `analytical_solutions/analytical_wave_prop.py:71-74, 78-79, 83`. -/
noncomputable def WaveColumn.vAt (s : WaveColumn) (x t : ℝ) : ℝ :=
  s.p0 / s.K * (8 * s.L / Real.pi ^ 2 * (List.range' 1 (s.nbTerms - 1)).foldl
    (fun summation (k : ℕ) => summation -
      (-1) ^ k * s.lam k * s.c / (2 * (k : ℝ) - 1) ^ 2 * Real.sin (s.lam k * x) * Real.sin (s.lam k * s.c * t)) 0)

/-- `properties` and `solution`: the attributes `time`, `u`, `v` and `p`, `analytical_solutions/analytical_wave_prop.py:31-85`. -/
noncomputable def WaveColumn.solution (s : WaveColumn) (time : Option (List ℝ)) :
    List ℝ × List (List ℝ) × List (List ℝ) × List (List ℝ) :=
  let time := time.getD s.defaultTime
  let table (f : ℝ → ℝ → ℝ) := s.x.map fun x => time.map fun t => f x t
  (time, table s.uAt, table s.vAt, table s.pAt)

end Rose
