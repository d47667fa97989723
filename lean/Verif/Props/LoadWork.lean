/-
C98: the nodal loads of a load inside an element do the work of the load.
-/
import Verif.Props.MovingLoad
import Verif.Props.Beam
import Verif.Spec.Mechanics
import Mathlib.Tactic.LinearCombination

set_option linter.unusedSectionVars false

namespace Rose

open Spec

variable {K : Type*} [Field K] [LinearOrder K] [IsStrictOrderedRing K]

/-- Work of nodal loads (axial, transverse, moment, at both nodes) over nodal displacements. -/
def nodalWork (g : (Fin 2 → K) × (Fin 2 → K) × (Fin 2 → K)) (u1 w1 t1 u2 w2 t2 : K) : K :=
  g.1 0 * u1 + g.2.1 0 * w1 + g.2.2 0 * t1 + g.1 1 * u2 + g.2.1 1 * w2 + g.2.2 1 * t2

/-- Work of an axial force, a transverse force and a moment at distance `x`, for the textbook displacement field of the element with these
nodal displacements. -/
def loadWork (phi l x : K) (f : K × K × K) (u1 w1 t1 u2 w2 t2 : K) : K :=
  f.1 * axialDisplacement l u1 u2 x + f.2.1 * timoDeflection phi l w1 t1 w2 t2 x + f.2.2 * timoRotation phi l w1 t1 w2 t2 x

theorem localNodalLoads_force (phi l x n v : K) (b : Buffers K) :
    localNodalLoads phi l x (n, v, 0) b = (![n * normalShape l x 0, n * normalShape l x 1],
      ![v * yShape phi l x 0, v * yShape phi l x 2], ![v * yShape phi l x 1, v * yShape phi l x 3]) := by
  have z : (0 : Fin 2 → K) = ![0, 0] := by ext i; fin_cases i <;> rfl
  by_cases hn : n = 0 <;> by_cases hv : v = 0 <;>
    simp [localNodalLoads, hn, hv, Ref.read, distributeNormal, distributeShear, z]

theorem localNodalLoads_moment (phi l x n m : K) (b : Buffers K) :
    localNodalLoads phi l x (n, 0, m) b = (![n * normalShape l x 0, n * normalShape l x 1],
      ![m * zRotShape phi l x 0, m * zRotShape phi l x 2], ![m * zRotShape phi l x 1, m * zRotShape phi l x 3]) := by
  have z : (0 : Fin 2 → K) = ![0, 0] := by ext i; fin_cases i <;> rfl
  by_cases hn : n = 0 <;> by_cases hm : m = 0 <;>
    simp [localNodalLoads, hn, hm, Ref.read, distributeNormal, distributeMoment, z]

/-- **C98, shear-rigid elements** For an axial force with a transverse force or with a moment the nodal loads do the work of the load, for
every deformation of the element. Missing: shear-flexible elements (`C98_force_iff`, `C98_moment_iff`) and both at once (C33). -/
theorem C98_work_partial {l : K} (hl : l ≠ 0) (x : K) (f : K × K × K) (h : f.2.1 = 0 ∨ f.2.2 = 0) (b : Buffers K) (u1 w1 t1 u2 w2 t2 : K) :
    nodalWork (localNodalLoads 0 l x f b) u1 w1 t1 u2 w2 t2 = loadWork 0 l x f u1 w1 t1 u2 w2 t2 := by
  obtain ⟨n, v, m⟩ := f
  simp only at h
  rcases h with rfl | rfl
  · rw [localNodalLoads_moment]
    simp [nodalWork, loadWork, zRotShape, normalShape, axialDisplacement, timoRotation]
    field_simp; ring
  · rw [localNodalLoads_force]
    simp [nodalWork, loadWork, yShape, normalShape, axialDisplacement, timoDeflection]
    field_simp; ring

/-- **C98, transverse force** Exact condition: the nodal loads of a transverse force do its work for every position and deformation exactly
if the element is shear-rigid or has length one. -/
theorem C98_force_iff {phi l : K} (hp : 1 + phi ≠ 0) (hl : l ≠ 0) (v : K) (hv : v ≠ 0) (b : Buffers K) :
    (∀ x u1 w1 t1 u2 w2 t2 : K, nodalWork (localNodalLoads phi l x (0, v, 0) b) u1 w1 t1 u2 w2 t2 = loadWork phi l x (0, v, 0) u1 w1 t1 u2 w2 t2) ↔
      phi = 0 ∨ l = 1 := by
  have key : ∀ x u1 w1 t1 u2 w2 t2 : K,
      nodalWork (localNodalLoads phi l x (0, v, 0) b) u1 w1 t1 u2 w2 t2 - loadWork phi l x (0, v, 0) u1 w1 t1 u2 w2 t2 =
        v * (phi * (1 - l)) * ((x / l - x ^ 2 / l ^ 2) * (t1 - t2)) / (2 * (1 + phi)) := by
    intro x u1 w1 t1 u2 w2 t2
    rw [localNodalLoads_force]
    simp [nodalWork, loadWork, yShape, normalShape, axialDisplacement, timoDeflection]
    field_simp; ring
  constructor
  · intro h
    have := key (l / 2) 0 0 1 0 0 0
    rw [h, sub_self] at this
    have h4 : (l / 2 / l - (l / 2) ^ 2 / l ^ 2) * (1 - 0) = (1 / 4 : K) := by field_simp; norm_num
    rw [h4, eq_comm, div_eq_zero_iff] at this
    rcases this with h5 | h5
    · have h6 : phi * (1 - l) = 0 := by
        rcases mul_eq_zero.1 h5 with h6 | h6
        · exact (mul_eq_zero.1 h6).resolve_left hv
        · norm_num at h6
      rcases mul_eq_zero.1 h6 with h7 | h7
      · exact Or.inl h7
      · exact Or.inr (by linear_combination -h7)
    · exact absurd h5 (by simp [hp])
  · intro h x u1 w1 t1 u2 w2 t2
    have := key x u1 w1 t1 u2 w2 t2
    rw [← sub_eq_zero, this]
    rcases h with h | h <;> simp [h]

/-- **C98, moment** Exact condition: the nodal loads of a moment do its work for every position and deformation exactly if the element is
shear-rigid: the code uses the slope of the deflection line instead of the rotation of the cross-section. -/
theorem C98_moment_iff {phi l : K} (hp : 1 + phi ≠ 0) (hl : l ≠ 0) (m : K) (hm : m ≠ 0) (b : Buffers K) :
    (∀ x u1 w1 t1 u2 w2 t2 : K, nodalWork (localNodalLoads phi l x (0, 0, m) b) u1 w1 t1 u2 w2 t2 = loadWork phi l x (0, 0, m) u1 w1 t1 u2 w2 t2) ↔
      phi = 0 := by
  constructor
  · intro h
    have h1 := h 0 0 1 0 0 0 0
    rw [localNodalLoads_moment] at h1
    simp [nodalWork, loadWork, zRotShape, normalShape, axialDisplacement, timoRotation, hm] at h1
    rcases h1 with h1 | h1
    · exact absurd h1 hp
    · exact h1.resolve_right hl
  · rintro rfl x u1 w1 t1 u2 w2 t2
    exact C98_work_partial hl x (0, 0, m) (Or.inl rfl) b u1 w1 t1 u2 w2 t2

/-- **C98 is violated** for the shear-flexible example beam: force 1 at the middle, nodal rotation 1 at the first node. -/
theorem C98_violated : exampleBeam.Valid ∧
    nodalWork (localNodalLoads (timoshenkoFactor exampleBeam) exampleBeam.l 1 (0, 1, 0) ⟨0, 0⟩) 0 0 1 0 0 0 ≠
      loadWork (timoshenkoFactor exampleBeam) exampleBeam.l (1 : ℚ) (0, 1, 0) 0 0 1 0 0 0 := by
  refine ⟨exampleBeam_valid, ?_⟩
  rw [localNodalLoads_force]
  simp [nodalWork, loadWork, yShape, axialDisplacement, timoDeflection, exampleBeam, timoshenkoFactor, shearModulus]
  norm_num

end Rose
