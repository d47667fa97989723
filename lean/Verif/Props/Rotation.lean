/-
Properties C16, C24, C25: rotation of matrices, points and element forces.
-/
import Verif.Model.Rotation
import Verif.Props.Beam

set_option linter.unusedSectionVars false

namespace Rose
open Spec

variable {K : Type*} [Field K] [LinearOrder K] [IsStrictOrderedRing K]

/-! ## C24 Rotating an element matrix to global axes is a change of coordinates -/

/-- C24 for one orientation: the energy of every global displacement equals the local energy of the displacement
expressed in the element's axes. -/
def ChangeOfCoordinates (c s : K) (a : Matrix (Fin 6) (Fin 6) K) : Prop :=
  ∀ u, energy (rotateAux c s a) u = energy a (toLocal c s u)

/-- C24 (partial: elements along the global x axis, in either direction; any element matrix). -/
theorem C24_horizontal_partial (c : K) (a : Matrix (Fin 6) (Fin 6) K) : ChangeOfCoordinates c 0 a := by
  intro u
  rw [energy_rotateAux]
  congr 1
  ext i
  fin_cases i <;> simp [toGlobal, toLocal]

/-- C24, exact characterisation for rods: the coded rotation is a change of coordinates exactly for elements along
one of the global axes. -/
theorem C24_rod_iff {k c s : K} (hk : k ≠ 0) :
    ChangeOfCoordinates c s (rodEmbed (rodStiffness k)) ↔ c = 0 ∨ s = 0 := by
  have key : ∀ u, energy (rotateAux c s (rodEmbed (rodStiffness k))) u -
      energy (rodEmbed (rodStiffness k)) (toLocal c s u) = -4 * k * c * s * (u 0 - u 3) * (u 1 - u 4) := by
    intro u
    rw [energy_rotateAux, rodStiffness_eq, rodEmbed_eq]
    simp [energy, Fin.sum_univ_six, toGlobal, toLocal]
    ring
  constructor
  · intro h
    have := key ![1, 1, 0, 0, 0, 0]
    rw [h, sub_self] at this
    simp [hk] at this
    exact this
  · intro h u
    rw [← sub_eq_zero, key]
    rcases h with h | h <;> simp [h]

/-- C24, exact characterisation for beams with rigid ends: only elements along the global x axis are right (a vertical
beam already gets the wrong coupling between displacements and rotations). -/
theorem C24_beam_iff (b : BeamPart K) (hb : b.Valid) (h1 : b.s1 = .inf) (h2 : b.s2 = .inf) {c s : K}
    (hcs : c ^ 2 + s ^ 2 = 1) : ChangeOfCoordinates c s b.stiffness ↔ s = 0 := by
  constructor
  · intro h
    by_contra hs
    -- the rigid rotation about node 1 in the element's true direction
    have hz : energy b.stiffness ![0, 0, 1, 0, b.l, 1] = 0 :=
      (C19_beam_kernel b hb h1 h2 _).mpr ⟨0, 0, 1, by ext i; fin_cases i <;> simp⟩
    have hu := h (toGlobal c s ![0, 0, 1, 0, b.l, 1])
    have e1 : toLocal c s (toGlobal c s ![0, 0, 1, 0, b.l, 1]) = ![0, 0, 1, 0, b.l, 1] := by
      ext i
      fin_cases i <;> simp [toGlobal, toLocal]
      · ring
      · linear_combination b.l * hcs
    rw [e1, hz, energy_rotateAux, C19_beam_kernel b hb h1 h2] at hu
    obtain ⟨tx, ty, w, hw⟩ := hu
    have w0 := congrFun hw 0; have w1 := congrFun hw 1; have w2 := congrFun hw 2
    have w3 := congrFun hw 3; have w4 := congrFun hw 4
    simp [toGlobal] at w0 w1 w2 w3 w4
    rw [← w0] at w3
    rw [← w1, ← w2] at w4
    have hl := hb.l.ne'
    have : 2 * s ^ 2 * b.l = 0 := by linear_combination b.l * hcs - w4
    simp [hs, hl] at this
  · rintro rfl
    exact C24_horizontal_partial c _

/-- C24 fails for a rod at the angle with cosine 4/5 and sine 3/5. -/
theorem C24_violated : ¬ ChangeOfCoordinates (4 / 5 : ℚ) (3 / 5) (rodEmbed (rodStiffness 1)) := by
  rw [C24_rod_iff one_ne_zero]; norm_num

/-- The direction of `C24_violated` is one of an element: its squares sum to one. -/
example : (4 / 5 : ℚ) ^ 2 + (3 / 5) ^ 2 = 1 := by norm_num

/-! ## C25 Rotation of points and forces -/

/-- C25: rotating by an angle and back is the identity, in both orders. -/
theorem C25_round_trip (a : ℝ) (p : ℝ × ℝ × ℝ) : rotatePoint (-a) (rotatePoint a p) = p := by
  obtain ⟨x, y, z⟩ := p
  have := Real.sin_sq_add_cos_sq a
  ext
  · simp [rotatePoint]; linear_combination x * this
  · simp [rotatePoint]; linear_combination y * this
  · simp [rotatePoint]

/-- C25: lengths and the moment component are preserved. -/
theorem C25_isometry (a : ℝ) (p : ℝ × ℝ × ℝ) :
    (rotatePoint a p).1 ^ 2 + (rotatePoint a p).2.1 ^ 2 = p.1 ^ 2 + p.2.1 ^ 2 ∧ (rotatePoint a p).2.2 = p.2.2 := by
  obtain ⟨x, y, z⟩ := p
  have := Real.sin_sq_add_cos_sq a
  refine ⟨?_, by simp [rotatePoint]⟩
  simp [rotatePoint]; linear_combination (x ^ 2 + y ^ 2) * this

/-- A point pair of positive distance whose x distance is either exactly zero or larger than the tolerance of the
vertical case. -/
def ProperDirection (dx dy : ℝ) : Prop := (dx = 0 ∧ dy ≠ 0) ∨ 1 / 100000000 < |dx|

theorem cos_sin_of_arctan {dx dy : ℝ} (hdx : dx ≠ 0) :
    Real.cos (Real.arctan (dy / dx)) = |dx| / Real.sqrt (dx ^ 2 + dy ^ 2) ∧
      Real.sin (Real.arctan (dy / dx)) = dy / dx * (|dx| / Real.sqrt (dx ^ 2 + dy ^ 2)) := by
  have h1 : Real.sqrt (1 + (dy / dx) ^ 2) = Real.sqrt (dx ^ 2 + dy ^ 2) / |dx| := by
    rw [eq_div_iff (abs_ne_zero.mpr hdx), ← Real.sqrt_sq_eq_abs, ← Real.sqrt_mul (by positivity)]
    congr 1
    field_simp
  have h2 : 0 < dx ^ 2 + dy ^ 2 := by positivity
  have h3 := Real.sqrt_pos.mpr h2
  have h4 := abs_pos.mpr hdx
  rw [Real.cos_arctan, Real.sin_arctan, h1]
  constructor <;> field_simp

theorem rotation_direction {dx dy rot : ℝ}
    (h : (dx = 0 ∧ dy ≠ 0 ∧ rot = Real.pi / 2 * npSign dy) ∨ (0 < dx ∧ rot = Real.arctan (dy / dx)) ∨
      (dx < 0 ∧ rot = Real.pi + Real.arctan (dy / dx))) (z : ℝ) :
    rotatePoint rot (dx, dy, z) = (Real.sqrt (dx ^ 2 + dy ^ 2), 0, z) := by
  rcases h with ⟨rfl, hy, rfl⟩ | ⟨hx, rfl⟩ | ⟨hx, rfl⟩
  · have hsq : Real.sqrt ((0 : ℝ) ^ 2 + dy ^ 2) = |dy| := by rw [← Real.sqrt_sq_eq_abs]; simp
    rcases lt_or_gt_of_ne hy with h | h
    · have e : Real.pi / 2 * npSign dy = -(Real.pi / 2) := by simp [npSign, sign_neg h]
      rw [hsq, abs_of_neg h]
      simp [rotatePoint, e]
    · have e : Real.pi / 2 * npSign dy = Real.pi / 2 := by simp [npSign, sign_pos h]
      rw [hsq, abs_of_pos h]
      simp [rotatePoint, e]
  · obtain ⟨hc, hs⟩ := cos_sin_of_arctan (dy := dy) hx.ne'
    have h2 : 0 < dx ^ 2 + dy ^ 2 := by positivity
    have h3 := Real.sqrt_pos.mpr h2
    have h4 := Real.sq_sqrt h2.le
    rw [abs_of_pos hx] at hc hs
    ext
    · simp only [rotatePoint, hc, hs]; field_simp; linear_combination -h4
    · simp only [rotatePoint, hc, hs]; field_simp; ring
    · simp [rotatePoint]
  · obtain ⟨hc, hs⟩ := cos_sin_of_arctan (dy := dy) hx.ne
    have h2 : 0 < dx ^ 2 + dy ^ 2 := by have := hx.ne; positivity
    have h3 := Real.sqrt_pos.mpr h2
    have h4 := Real.sq_sqrt h2.le
    have hx' := hx.ne
    rw [abs_of_neg hx] at hc hs
    rw [add_comm]
    ext
    · simp only [rotatePoint, Real.cos_add_pi, Real.sin_add_pi, hc, hs]; field_simp; linear_combination -h4
    · simp only [rotatePoint, Real.cos_add_pi, Real.sin_add_pi, hc, hs]; field_simp; ring
    · simp [rotatePoint]

/-- C25 (partial: the x coordinates must be equal or differ by more than the tolerance `1e-8`; the rest is refuted by
`C25_direction_violated`). The computed angle takes the vector from the first to the second point onto the positive
local x axis, keeping its length. -/
theorem C25_direction_partial {x1 y1 x2 y2 : ℝ} (h : ProperDirection (x2 - x1) (y2 - y1)) (z : ℝ) :
    rotatePoint (calculateRotation x1 y1 x2 y2) (x2 - x1, y2 - y1, z) =
      (Real.sqrt ((x2 - x1) ^ 2 + (y2 - y1) ^ 2), 0, z) := by
  apply rotation_direction
  rcases h with ⟨h, hy⟩ | h
  · left
    refine ⟨h, hy, ?_⟩
    have h0 : npIsCloseZero (x2 - x1) := by rw [h]; norm_num [npIsCloseZero]
    have h1 : ¬ x2 < x1 := by linarith
    simp [calculateRotation, h0, h1]
  · right
    have h0 : ¬ npIsCloseZero (x2 - x1) := not_le.mpr h
    rcases lt_trichotomy x2 x1 with hx | hx | hx
    · right; exact ⟨by linarith, by simp [calculateRotation, h0, hx]⟩
    · exfalso; rw [hx] at h; norm_num at h
    · left; exact ⟨by linarith, by simp [calculateRotation, h0, not_lt.mpr hx.le]⟩

/-- C25: the scalar version of the angle, for points on a vertical line or further apart in x than one part in 10⁹. Missing: points
which nearly stand on a vertical line. -/
theorem C25_point_rotation_partial {x1 y1 x2 y2 : ℝ}
    (h : (x1 = x2 ∧ y1 ≠ y2) ∨ 1 / 10 ^ 9 * max |x2| |x1| < |x2 - x1|) (z : ℝ) :
    rotatePoint (calculatePointRotation x1 y1 x2 y2) (x2 - x1, y2 - y1, z) =
      (Real.sqrt ((x2 - x1) ^ 2 + (y2 - y1) ^ 2), 0, z) := by
  apply rotation_direction
  rcases h with ⟨h, hy⟩ | h9
  · left
    refine ⟨by linarith, sub_ne_zero.mpr hy.symm, ?_⟩
    have h0 : mathIsClose x2 x1 := by rw [h]; simp [mathIsClose]
    simp [calculatePointRotation, h0]
  · have h0 : ¬ mathIsClose x2 x1 := by
      unfold mathIsClose
      norm_num at h9 ⊢
      exact h9
    right
    rcases lt_trichotomy x2 x1 with hx | hx | hx
    · right; exact ⟨by linarith, by simp [calculatePointRotation, h0, hx]⟩
    · exfalso; apply h0; rw [hx]; simp [mathIsClose]
    · left; exact ⟨by linarith, by simp [calculatePointRotation, h0, not_lt.mpr hx.le]⟩

/-- C25 fails for an upward element whose second node lies `1e-9` to the left of the first one: its direction is
reversed (the second node is mapped one unit to the wrong side). -/
theorem C25_direction_violated :
    (rotatePoint (calculateRotation 0 0 (-1 / 1000000000) 1) (-1 / 1000000000, 1, 0)).1 = -1 := by
  have h0 : npIsCloseZero ((-1 / 1000000000 : ℝ) - 0) := by norm_num [npIsCloseZero, abs_le]
  have h1 : ((-1 / 1000000000 : ℝ) < 0) := by norm_num
  have h2 : npSign (1 - 0) = 1 := by simp [npSign]
  have e : calculateRotation 0 0 (-1 / 1000000000) 1 = Real.pi / 2 + Real.pi := by
    rw [calculateRotation]
    simp only [h0, h1, if_true, not_true, if_false, h2]
    ring
  rw [e]
  simp [rotatePoint, Real.cos_add_pi, Real.sin_add_pi]

example : ProperDirection (3 - 1) (5 - 2) := Or.inr (by norm_num)
example : 1 / 10 ^ 9 * max |(1.5 : ℝ)| |1| < |1.5 - 1| := by norm_num [abs_of_pos]

/-! ## C16 Element forces -/

/-- C16 specification: the axial force, shear force and moment of an element with stiffness matrix `k` and direction
cosines `(c, s)`: half the difference of its end forces in its own axes, for the active dofs. -/
def trueElementForce (k : Matrix (Fin 6) (Fin 6) K) (mask : Fin 3 → Bool) (c s : K) (u : Fin 6 → K) : Fin 3 → K :=
  fun d => if mask d then
    ((∑ j, k ⟨d, by omega⟩ j * toLocal c s u j) - (∑ j, k ⟨d + 3, by omega⟩ j * toLocal c s u j)) / 2 else 0

theorem rotationMatrix_inv {c s : K} (h : c ^ 2 + s ^ 2 = 1) :
    (rotationMatrix c s)⁻¹ = (rotationMatrix c s).transpose := by
  apply Matrix.inv_eq_right_inv
  rw [rotationMatrix_eq]
  ext i j
  fin_cases i <;> fin_cases j <;>
    simp [Matrix.mul_apply, Fin.sum_univ_six, Matrix.transpose] <;>
    first | (linear_combination h) | ring

/-- What the code reports for any element of a part whose last element has direction `(c, s)`: the stiffness is applied
to the displacements turned by the direction of the LAST element, and in the opposite sense. -/
theorem C16_reported (p : ElementPartForces K) {c s : K} (hd : p.dirs.getLast? = some (c, s))
    (hcs : c ^ 2 + s ^ 2 = 1) (u : Fin 6 → K) :
    elementForce p u = trueElementForce p.stiffness p.mask c (-s) u := by
  have e : toGlobal c s u = toLocal c (-s) u := by
    ext i; fin_cases i <;> simp [toGlobal, toLocal] <;> ring
  ext d
  simp only [elementForce, ElementPartForces.rotation, hd, Option.map_some, rotationMatrix_inv hcs, rotT_mulVec,
    trueElementForce, e]
  rfl

/-- C16 (partial: all elements of the part lie along the global x axis in one direction). -/
theorem C16_horizontal_partial (p : ElementPartForces K) {c : K} (hc : c ^ 2 = 1) (hne : p.dirs ≠ [])
    (hall : ∀ d ∈ p.dirs, d = (c, 0)) (d : K × K) (hd : d ∈ p.dirs) (u : Fin 6 → K) :
    elementForce p u = trueElementForce p.stiffness p.mask d.1 d.2 u := by
  have hl : p.dirs.getLast? = some (c, 0) := by
    rw [List.getLast?_eq_some_getLast hne, hall _ (List.getLast_mem hne)]
  rw [C16_reported p hl (by simp [hc]), hall d hd]
  simp

/-- A vertical rod part with one element, pointing upwards. -/
def verticalRod : ElementPartForces ℚ :=
  { stiffness := rodEmbed (rodStiffness 10), mask := ![true, false, false], dirs := [(0, 1)] }

/-- A rod part with two elements: the first horizontal, the second vertical. -/
def cornerRod : ElementPartForces ℚ :=
  { stiffness := rodEmbed (rodStiffness 10), mask := ![true, false, false], dirs := [(1, 0), (0, 1)] }

/-- C16 fails for a vertical element: stretching the rod by 1 is reported with the opposite sign of its own-axes force
(tension and compression are exchanged). -/
theorem C16_sign_violated :
    elementForce verticalRod ![0, 0, 0, 0, 1, 0] 0 = 10 ∧
      trueElementForce verticalRod.stiffness verticalRod.mask 0 1 ![0, 0, 0, 0, 1, 0] 0 = -10 := by
  constructor
  · rw [C16_reported verticalRod (c := 0) (s := 1) rfl (by norm_num)]
    simp only [trueElementForce, verticalRod]
    rw [rodStiffness_eq, rodEmbed_eq]
    simp [Fin.sum_univ_six, toLocal]
  · simp only [trueElementForce, verticalRod]
    rw [rodStiffness_eq, rodEmbed_eq]
    simp [Fin.sum_univ_six, toLocal]; norm_num

/-- C16 fails for the first element of a part with two orientations: stretching the horizontal rod reports no force. -/
theorem C16_orientation_violated :
    elementForce cornerRod ![0, 0, 0, 1, 0, 0] 0 = 0 ∧
      trueElementForce cornerRod.stiffness cornerRod.mask 1 0 ![0, 0, 0, 1, 0, 0] 0 = -10 := by
  constructor
  · rw [C16_reported cornerRod (c := 0) (s := 1) rfl (by norm_num)]
    simp only [trueElementForce, cornerRod]
    rw [rodStiffness_eq, rodEmbed_eq]
    simp [Fin.sum_univ_six, toLocal]
  · simp only [trueElementForce, cornerRod]
    rw [rodStiffness_eq, rodEmbed_eq]
    simp [Fin.sum_univ_six, toLocal]; norm_num

/-- Non-vacuity of `C16_horizontal_partial`: a horizontal part with two elements. -/
example : ({ cornerRod with dirs := [(1, 0), (1, 0)] } : ElementPartForces ℚ).dirs ≠ [] ∧
    ∀ d ∈ ({ cornerRod with dirs := [(1, 0), (1, 0)] } : ElementPartForces ℚ).dirs, d = (1, 0) := by simp

end Rose
