/-
C120: the strains reported for a beam section are those of a plane section in equilibrium with the internal forces.
-/
import Verif.Props.BeamShape
import Mathlib.Analysis.SpecialFunctions.Integrals.Basic

set_option linter.unusedSectionVars false

namespace Rose
open intervalIntegral

/-- The strain at height `z` above the neutral axis that varies linearly between the strain `top` at `z = h - y` and the
strain `bottom` at `z = -y`. -/
noncomputable def planeStrain (h y top bottom z : ℝ) : ℝ := bottom + (z + y) / h * (top - bottom)

/-- **C120** The reported strains belong to a plane section: interpolated linearly over the height, the strain is the one of
the normal force at the neutral axis, plus height times curvature `M / (E I)`. -/
theorem C120_plane (E A I h y : ℝ) (hh : 0 < h) (NVM : ℝ × ℝ × ℝ) (z : ℝ) :
    planeStrain h y (strainAt E A I h y NVM).1 (strainAt E A I h y NVM).2 z =
      NVM.1 / (E * A) + z * (NVM.2.2 / (E * I)) := by
  unfold planeStrain strainAt
  simp only
  have : (NVM.1 / (E * A) + (h - y) * NVM.2.2 / (E * I) - (NVM.1 / (E * A) - y * NVM.2.2 / (E * I))) =
      h * (NVM.2.2 / (E * I)) := by ring
  rw [this]
  field_simp
  ring

/-- **C120** The stresses of these strains have the internal forces as resultants, for every section whose width `w` gives
the area `A`, the second moment of area `I` and a neutral axis through the centroid. -/
theorem C120_resultants (E A I h y : ℝ) (hE : 0 < E) (hA : 0 < A) (hI : 0 < I) (hh : 0 < h) (w : ℝ → ℝ)
    (hw : Continuous w) (area : ∫ z in (-y)..(h - y), w z = A) (centroid : ∫ z in (-y)..(h - y), z * w z = 0)
    (moment : ∫ z in (-y)..(h - y), z ^ 2 * w z = I) (NVM : ℝ × ℝ × ℝ) :
    let strain := planeStrain h y (strainAt E A I h y NVM).1 (strainAt E A I h y NVM).2
    (∫ z in (-y)..(h - y), E * strain z * w z) = NVM.1 ∧ (∫ z in (-y)..(h - y), z * (E * strain z * w z)) = NVM.2.2 := by
  intro strain
  have hs : ∀ z, strain z = NVM.1 / (E * A) + z * (NVM.2.2 / (E * I)) := C120_plane E A I h y hh NVM
  have c0 : IntervalIntegrable w MeasureTheory.volume (-y) (h - y) := hw.intervalIntegrable _ _
  have c1 : IntervalIntegrable (fun z => z * w z) MeasureTheory.volume (-y) (h - y) :=
    (continuous_id.mul hw).intervalIntegrable _ _
  have c2 : IntervalIntegrable (fun z => z ^ 2 * w z) MeasureTheory.volume (-y) (h - y) :=
    ((continuous_pow 2).mul hw).intervalIntegrable _ _
  constructor
  · have e : ∀ z, E * strain z * w z = NVM.1 / A * w z + NVM.2.2 / I * (z * w z) := by
      intro z; rw [hs z]; field_simp
    simp only [e]
    rw [integral_add (c0.const_mul _) (c1.const_mul _), integral_const_mul, integral_const_mul, area, centroid]
    field_simp
    ring
  · have e : ∀ z, z * (E * strain z * w z) = NVM.1 / A * (z * w z) + NVM.2.2 / I * (z ^ 2 * w z) := by
      intro z; rw [hs z]; field_simp
    simp only [e]
    rw [integral_add (c1.const_mul _) (c2.const_mul _), integral_const_mul, integral_const_mul, centroid, moment]
    field_simp
    ring

/-- A rectangle of width 2 and height 6 with the neutral axis at half height. -/
example : (∫ _ in (-3 : ℝ)..(6 - 3), (2 : ℝ)) = 12 ∧ (∫ z in (-3 : ℝ)..(6 - 3), z * 2) = 0 ∧
    (∫ z in (-3 : ℝ)..(6 - 3), z ^ 2 * 2) = 36 := by
  refine ⟨?_, ?_, ?_⟩
  · rw [integral_const]; norm_num
  · rw [integral_mul_const, integral_id]; norm_num
  · rw [integral_mul_const, integral_pow]; norm_num

end Rose
