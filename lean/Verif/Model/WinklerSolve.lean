/-
Model of `MovingLoad.solve` (`analytical_solutions/winkler.py:85-157`): which column of the reported matrix each time writes.
-/
import Verif.Model.AnalyticalWinkler

set_option linter.unusedSectionVars false

namespace Rose

namespace Winkler
variable (m : Winkler)

/-- `self.u` in column `c` for a coordinate: `enumerate(self.tau[self.tau < [0]])` numbers the negative times from zero, the other columns keep the zeros of
`np.zeros`, `analytical_solutions/winkler.py:69, 100-118`. -/
noncomputable def lowColumn (c : ℕ) (x : ℝ) : ℝ :=
  match (m.tau.filter (· < 0))[c]? with
  | some t => m.lowAt x t
  | none => 0

/-- `self.uu` in column `c` for a coordinate: a time that is not negative writes the first column with this time, `np.where(self.tau == t)[0][0]`, the
other columns keep the zeros of `np.zeros`, `analytical_solutions/winkler.py:70, 122-157`. A time that occurs twice is written twice into the same column; `F1`
and `F2` of this column are then summed twice, which is not modelled: the theorems are about the other columns or about times that occur once. -/
noncomputable def highColumn (c : ℕ) (x : ℝ) : ℝ :=
  match m.tau[c]? with
  | some t => if 0 ≤ t ∧ m.tau.idxOf t = c then m.highAt x t else 0
  | none => 0

/-- `solve`, `analytical_solutions/winkler.py:85-98`: `self.displacement`, one row for each coordinate and one column for each time. -/
noncomputable def solve : List (List ℝ) :=
  m.qsi.map fun x => (List.range m.tau.length).map fun c => m.lowColumn c x + m.highColumn c x

end Winkler

end Rose
