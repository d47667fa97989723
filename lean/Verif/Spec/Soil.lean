/-
Specification for layered soil and strip loads, independent of the model.
-/
import Verif.Model.Accumulation

set_option linter.unusedSectionVars false

namespace Rose

/-- Level of interface `i` of a soil of given top levels whose last layer ends at `zLast`. -/
def interface (tops : List ℝ) (zLast : ℝ) (i : ℕ) : ℝ := if i < tops.length then tops.getD i 0 else zLast

/-- The tops are in order from high to low, and the last layer ends below its top. -/
def Descending (tops : List ℝ) (zLast : ℝ) : Prop := ∀ i, i < tops.length → interface tops zLast (i + 1) < interface tops zLast i

/-- Vertical stress in the middle of layer `i`: the weight of the layers above it and of its upper half. -/
noncomputable def overburden (soil : List SoilLayer) (zLast : ℝ) (i : ℕ) : ℝ :=
  let z := interface (soil.map SoilLayer.top) zLast
  let weight := fun j => (soil.map SoilLayer.gamma).getD j 0
  ((List.range i).map fun j => weight j * (z j - z (j + 1))).sum + weight i * ((z i - z (i + 1)) / 2)

/-- The largest shear stress in a half space under a strip load `q` on `-a < x < a`, at depth `z` and position `x`:
`q / pi` times the sine of the angle under which the strip is seen, the area `2 a z / 2` of the triangle being half the product of the two
distances to the edges and that sine. -/
noncomputable def stripShear (q a z x : ℝ) : ℝ :=
  q / Real.pi * (2 * a * z / (Real.sqrt (z ^ 2 + (x + a) ^ 2) * Real.sqrt (z ^ 2 + (x - a) ^ 2)))

end Rose
