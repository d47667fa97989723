/-
Model of the soil values of the demo scripts with random fields (`run_rose/demo_rf.py`, `run_rose/demo_semi_rigid_rf.py`,
`rose/utils/random_field.py`).
External: `gstools`. A field of variance `s ^ 2` and mean `m` with a given seed, length scale and angle has the value `m + s * z x` at the
place `x`, where `z` is the standard field of this seed, length scale and angle (the field is a sum of random waves whose amplitude is the
square root of the variance). `z` is a parameter.
-/
import Verif.Model.Signal
import Verif.Model.Accumulation
import Verif.Model.HingedCombined

set_option linter.unusedSectionVars false

namespace Rose

/-- `create_rf`, `rose/utils/random_field.py:6-45`, at the places `nodes`, with the standard field `z`. -/
noncomputable def createRf (z : ℝ → ℝ) (mean cv : ℝ) (logNormal : Bool) (nodes : List ℝ) : List ℝ :=
  let p := rfParams mean cv logNormal
  nodes.map fun x => rfValue logNormal (p.1 + Real.sqrt (p.2 ^ 2) * z x)

/-- `np.linspace(0, n, n) * 0.6`, `run_rose/demo_rf.py:303-304, 307-308`, `run_rose/demo_semi_rigid_rf.py:327-328`. -/
noncomputable def rfPlaces (n : ℕ) : List ℝ := (linspace 0 n n).map fun x => x * 0.6

/-- `stiffness` or `damping` of `demo_rf.py`, `run_rose/demo_rf.py:298-309`: a field for each of the segments with the mean values `means`, all with
coefficient of variation 0.25, length scale 20 and seed 14. -/
noncomputable def rfSegments (z : ℝ → ℝ) (segments : List (ℕ × ℝ)) : List ℝ :=
  segments.flatMap fun s => createRf z s.2 0.25 false (rfPlaces s.1)

/-- `main` of `demo_rf.py`, `run_rose/demo_rf.py:298-319`: the input of the calculations. -/
noncomputable def demoRfInput (z : ℝ → ℝ) : DemoInput :=
  rfInput (rfSegments z [(500, 132 * 10 ^ 6), (500, 214 * 10 ^ 7)]) (rfSegments z [(500, 30 * 10 ^ 3), (500, 20 * 10 ^ 3)])

/-- `main` of `demo_semi_rigid_rf.py`, `run_rose/demo_semi_rigid_rf.py:321-334`. -/
noncomputable def semiRigidRfInput (z : ℝ → ℝ) : DemoInput :=
  rfInput (rfSegments z [(1000, 132 * 10 ^ 6)]) (rfSegments z [(1000, 30 * 10 ^ 3)])

end Rose
