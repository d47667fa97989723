/-
C152: the solution of a cantilever under a suddenly applied load at its end.
-/
import Verif.Model.AnalyticalCantilever
import Verif.Spec.CantileverModes
import Verif.Props.AnalyticalModes
import Mathlib.Analysis.SpecialFunctions.Trigonometric.DerivHyp
import Mathlib.Analysis.SpecialFunctions.Trigonometric.Bounds

set_option linter.unusedSectionVars false

namespace Rose
open Rose.Spec Finset

/-! ### Modes -/

section modes
variable {EI m L : ℝ} {w v : ℝ} {f f1 f2 f3 g g1 g2 g3 : ℝ → ℝ}

theorem _root_.Rose.Spec.CantileverMode.cont (h : CantileverMode EI m L w f f1 f2 f3) : Continuous f ∧ Continuous f1 ∧ Continuous f2 ∧ Continuous f3 := by
  refine ⟨continuous_iff_continuousAt.mpr fun x => (h.first x).continuousAt, continuous_iff_continuousAt.mpr fun x => (h.second x).continuousAt,
    continuous_iff_continuousAt.mpr fun x => (h.third x).continuousAt, continuous_iff_continuousAt.mpr fun x => ?_⟩
  obtain ⟨d, hd, -⟩ := h.fourth x
  exact hd.continuousAt

theorem _root_.Rose.Spec.CantileverMode.four (h : CantileverMode EI m L w f f1 f2 f3) (hE : EI ≠ 0) (x : ℝ) : HasDerivAt f3 (m * w ^ 2 / EI * f x) x := by
  obtain ⟨d, hd, e⟩ := h.fourth x
  refine hd.congr_deriv ?_
  field_simp
  linarith

/-- Bending does the same work as inertia. -/
theorem mode_work (hE : EI ≠ 0) (hf : CantileverMode EI m L w f f1 f2 f3) (hg : CantileverMode EI m L v g g1 g2 g3) :
    ∫ x in (0 : ℝ)..L, f2 x * g2 x = m * w ^ 2 / EI * ∫ x in (0 : ℝ)..L, f x * g x := by
  obtain ⟨c0, c1, c2, c3⟩ := hf.cont
  obtain ⟨d0, d1, d2, d3⟩ := hg.cont
  have hd : ∀ x, HasDerivAt (fun x => f3 x * g x - f2 x * g1 x) (m * w ^ 2 / EI * (f x * g x) - f2 x * g2 x) x := by
    intro x
    refine (((hf.four hE x).mul (hg.first x)).sub ((hf.third x).mul (hg.second x))).congr_deriv ?_
    ring
  have hi : IntervalIntegrable (fun x => m * w ^ 2 / EI * (f x * g x) - f2 x * g2 x) MeasureTheory.volume 0 L :=
    Continuous.intervalIntegrable (by fun_prop) _ _
  have e := intervalIntegral.integral_eq_sub_of_hasDerivAt (fun x _ => hd x) hi
  rw [intervalIntegral.integral_sub (Continuous.intervalIntegrable (by fun_prop) _ _) (Continuous.intervalIntegrable (by fun_prop) _ _),
    intervalIntegral.integral_const_mul] at e
  simp only [hf.free.1, hf.free.2, hg.clamped.1, hg.clamped.2, mul_zero, zero_mul, sub_zero] at e
  linarith

theorem mode_orthogonal (hE : EI ≠ 0) (hm : m ≠ 0) (hwv : w ^ 2 ≠ v ^ 2) (hf : CantileverMode EI m L w f f1 f2 f3)
    (hg : CantileverMode EI m L v g g1 g2 g3) : ∫ x in (0 : ℝ)..L, f x * g x = 0 := by
  have a := mode_work hE hf hg
  have b := mode_work hE hg hf
  simp only [mul_comm (g _), mul_comm (g2 _)] at b
  have : (m / EI * (w ^ 2 - v ^ 2)) * ∫ x in (0 : ℝ)..L, f x * g x = 0 := by
    rw [a] at b
    linear_combination b
  refine (mul_eq_zero.mp this).resolve_left (mul_ne_zero (div_ne_zero hm hE) (sub_ne_zero.mpr hwv))

/-- The mass of a mode is a quarter of that of a beam which moves like its end. -/
theorem mode_square (hE : EI ≠ 0) (hm : m ≠ 0) (hw : w ≠ 0) (hf : CantileverMode EI m L w f f1 f2 f3) :
    ∫ x in (0 : ℝ)..L, f x * f x = L * f L ^ 2 / 4 := by
  obtain ⟨c0, c1, c2, c3⟩ := hf.cont
  set κ := m * w ^ 2 / EI with hκ
  have hκ0 : κ ≠ 0 := div_ne_zero (mul_ne_zero hm (pow_ne_zero 2 hw)) hE
  have hd : ∀ x, HasDerivAt (fun x => 3 * (f x * f3 x) + κ * (x * (f x * f x)) - 2 * (x * (f1 x * f3 x)) - f1 x * f2 x + x * (f2 x * f2 x))
      (4 * κ * (f x * f x)) x := by
    intro x
    have a0 := hf.first x
    have a1 := hf.second x
    have a2 := hf.third x
    have a3 := hf.four hE x
    have id := hasDerivAt_id' x
    refine (((((a0.mul a3).const_mul 3).add ((id.mul (a0.mul a0)).const_mul κ)).sub ((id.mul (a1.mul a3)).const_mul 2)).sub
      (a1.mul a2) |>.add (id.mul (a2.mul a2))).congr_deriv ?_
    simp only [Pi.mul_apply]
    rw [← hκ]
    ring
  have hi : IntervalIntegrable (fun x => 4 * κ * (f x * f x)) MeasureTheory.volume 0 L :=
    Continuous.intervalIntegrable (by fun_prop) _ _
  have e := intervalIntegral.integral_eq_sub_of_hasDerivAt (fun x _ => hd x) hi
  rw [intervalIntegral.integral_const_mul] at e
  simp only [hf.free.1, hf.free.2, hf.clamped.1, hf.clamped.2, mul_zero, zero_mul, sub_zero, add_zero, zero_add] at e
  have : 4 * κ * (∫ x in (0 : ℝ)..L, f x * f x) = 4 * κ * (L * f L ^ 2 / 4) := by rw [e]; ring
  exact mul_left_cancel₀ (mul_ne_zero (by norm_num) hκ0) this

end modes

/-- The virtual work in shapes that are modes with different frequencies. -/
theorem shape_projection (EI m L : ℝ) (hE : EI ≠ 0) (hm : m ≠ 0) (N : ℕ) (w : ℕ → ℝ) (f f1 f2 f3 : ℕ → ℝ → ℝ)
    (hf : ∀ k ∈ Icc 1 N, CantileverMode EI m L (w k) (f k) (f1 k) (f2 k) (f3 k)) (hw : ∀ k ∈ Icc 1 N, w k ≠ 0)
    (hd : ∀ i ∈ Icc 1 N, ∀ j ∈ Icc 1 N, i ≠ j → w i ^ 2 ≠ w j ^ 2) (p : ℕ → ℝ) (j : ℕ) (hj : j ∈ Icc 1 N) :
    (∫ x in (0 : ℝ)..L, m * (∑ k ∈ Icc 1 N, p k * f k x) * f j x = m * (L * f j L ^ 2 / 4) * p j) ∧
    (∫ x in (0 : ℝ)..L, EI * (∑ k ∈ Icc 1 N, p k * f2 k x) * f2 j x = m * (L * f j L ^ 2 / 4) * w j ^ 2 * p j) := by
  have key : ∀ (c : ℝ) (s : ℕ → ℝ → ℝ), (∀ k ∈ Icc 1 N, Continuous (s k)) →
      (∀ k ∈ Icc 1 N, k ≠ j → ∫ x in (0 : ℝ)..L, s k x * s j x = 0) →
      ∫ x in (0 : ℝ)..L, c * (∑ k ∈ Icc 1 N, p k * s k x) * s j x = c * p j * ∫ x in (0 : ℝ)..L, s j x * s j x := by
    intro c s hs ho
    have e : ∀ x, c * (∑ k ∈ Icc 1 N, p k * s k x) * s j x = ∑ k ∈ Icc 1 N, c * p k * (s k x * s j x) := by
      intro x
      rw [Finset.mul_sum, Finset.sum_mul]
      exact Finset.sum_congr rfl fun k _ => by ring
    simp only [e]
    have hint : ∀ k ∈ Icc 1 N, IntervalIntegrable (fun x => c * p k * (s k x * s j x)) MeasureTheory.volume 0 L :=
      fun k hk => Continuous.intervalIntegrable (continuous_const.mul ((hs k hk).mul (hs j hj))) _ _
    rw [intervalIntegral.integral_finsetSum hint, Finset.sum_eq_single_of_mem j hj]
    · rw [intervalIntegral.integral_const_mul]
    · intro k hk hkj
      rw [intervalIntegral.integral_const_mul, ho k hk hkj, mul_zero]
  have sq := mode_square hE hm (hw j hj) (hf j hj)
  constructor
  · rw [key m f (fun k hk => (hf k hk).cont.1) fun k hk hkj => mode_orthogonal hE hm (hd k hk j hj hkj) (hf k hk) (hf j hj), sq]
    ring
  · rw [key EI f2 (fun k hk => (hf k hk).cont.2.2.1) fun k hk hkj => by
      rw [mode_work hE (hf k hk) (hf j hj), mode_orthogonal hE hm (hd k hk j hj hkj) (hf k hk) (hf j hj), mul_zero],
      mode_work hE (hf j hj) (hf j hj), sq]
    field_simp

/-- There is one motion in such shapes. -/
theorem shapeMotion_unique (EI m L F : ℝ) (hE : EI ≠ 0) (hm : m ≠ 0) (hL : L ≠ 0) (N : ℕ) (w : ℕ → ℝ) (f f1 f2 f3 : ℕ → ℝ → ℝ)
    (hf : ∀ k ∈ Icc 1 N, CantileverMode EI m L (w k) (f k) (f1 k) (f2 k) (f3 k)) (hw : ∀ k ∈ Icc 1 N, w k ≠ 0)
    (hd : ∀ i ∈ Icc 1 N, ∀ j ∈ Icc 1 N, i ≠ j → w i ^ 2 ≠ w j ^ 2) (hend : ∀ k ∈ Icc 1 N, f k L ≠ 0) (u v : ℝ → ℝ → ℝ)
    (hu : ShapeMotion EI m L F N f f2 u) (hv : ShapeMotion EI m L F N f f2 v) (x t : ℝ) (ht : 0 ≤ t) : u x t = v x t := by
  obtain ⟨q, q', q'', q1, q2, q3, q4⟩ := hu
  obtain ⟨p, p', p'', p1, p2, p3, p4⟩ := hv
  rw [q3, p3]
  refine Finset.sum_congr rfl fun j hj => ?_
  congr 1
  have hM : m * (L * f j L ^ 2 / 4) ≠ 0 :=
    mul_ne_zero hm (div_ne_zero (mul_ne_zero hL (pow_ne_zero 2 (hend j hj))) (by norm_num))
  have h := oscillator_rest (w j ^ 2) 0 (by have := hw j hj; positivity) le_rfl (fun t => q j t - p j t) (fun t => q' j t - p' j t)
    (fun t => q'' j t - p'' j t) (fun t => (q1 j t).1.sub (p1 j t).1) (fun t => (q1 j t).2.sub (p1 j t).2)
    (by simp [(q2 j).1, (p2 j).1]) (by simp [(q2 j).2, (p2 j).2]) (fun t => by
      have a := q4 t j hj
      have b := p4 t j hj
      rw [(shape_projection EI m L hE hm N w f f1 f2 f3 hf hw hd (fun k => q'' k t) j hj).1,
        (shape_projection EI m L hE hm N w f f1 f2 f3 hf hw hd (fun k => q k t) j hj).2] at a
      rw [(shape_projection EI m L hE hm N w f f1 f2 f3 hf hw hd (fun k => p'' k t) j hj).1,
        (shape_projection EI m L hE hm N w f f1 f2 f3 hf hw hd (fun k => p k t) j hj).2] at b
      refine mul_left_cancel₀ hM ?_
      linear_combination a - b) t ht
  linarith

/-! ### The shapes of the code -/

theorem sin_add_sinh_pos {r : ℝ} (hr : 0 < r) : 0 < Real.sin r + Real.sinh r := by
  have h1 := Real.self_lt_sinh_iff.mpr hr
  have h2 := abs_le.mp (Real.abs_sin_le_abs (x := r))
  rw [abs_of_pos hr] at h2
  linarith [h2.1]

/-- The second derivative of a shape. -/
noncomputable def CantileverModal.curvature (s : CantileverModal) (root : ℕ → ℝ) (n : ℕ) (x : ℝ) : ℝ :=
  let a := s.a root n
  a ^ 2 * (-Real.cos (a * x) - Real.cosh (a * x) +
    (Real.cos (a * s.length) + Real.cosh (a * s.length)) / (Real.sin (a * s.length) + Real.sinh (a * s.length)) *
      (Real.sin (a * x) + Real.sinh (a * x)))

theorem shape_derivs (s : CantileverModal) (root : ℕ → ℝ) (n : ℕ) : ∃ f1 f3 : ℝ → ℝ, f1 0 = 0 ∧
    f3 s.length = s.a root n ^ 3 * (Real.sin (s.a root n * s.length) - Real.sinh (s.a root n * s.length) +
      (Real.cos (s.a root n * s.length) + Real.cosh (s.a root n * s.length)) /
        (Real.sin (s.a root n * s.length) + Real.sinh (s.a root n * s.length)) *
      (Real.cos (s.a root n * s.length) + Real.cosh (s.a root n * s.length))) ∧
    ∀ x, HasDerivAt (s.shape root n) (f1 x) x ∧ HasDerivAt f1 (s.curvature root n x) x ∧
      HasDerivAt (s.curvature root n) (f3 x) x ∧ HasDerivAt f3 (s.a root n ^ 4 * s.shape root n x) x := by
  unfold CantileverModal.shape CantileverModal.curvature
  simp only
  generalize s.a root n = a
  generalize (Real.cos (a * s.length) + Real.cosh (a * s.length)) / (Real.sin (a * s.length) + Real.sinh (a * s.length)) = σ
  refine ⟨fun x => a * (-Real.sin (a * x) - Real.sinh (a * x) - σ * (Real.cos (a * x) - Real.cosh (a * x))),
    fun x => a ^ 3 * (Real.sin (a * x) - Real.sinh (a * x) + σ * (Real.cos (a * x) + Real.cosh (a * x))), ?_, rfl, fun x => ?_⟩
  · simp
  have l : HasDerivAt (fun x : ℝ => a * x) (a * 1) x := (hasDerivAt_id x).const_mul a
  refine ⟨?_, ?_, ?_, ?_⟩
  · exact ((l.cos.sub l.cosh).sub ((l.sin.sub l.sinh).const_mul σ)).congr_deriv (by ring)
  · exact (((l.sin.neg.sub l.sinh).sub ((l.cos.sub l.cosh).const_mul σ)).const_mul a).congr_deriv (by ring)
  · exact (((l.cos.neg.sub l.cosh).add ((l.sin.add l.sinh).const_mul σ)).const_mul (a ^ 2)).congr_deriv (by ring)
  · exact (((l.sin.sub l.sinh).add ((l.cos.add l.cosh).const_mul σ)).const_mul (a ^ 3)).congr_deriv (by ring)

/-- Stiffness, mass, length and element size are positive. -/
structure CantileverModal.Valid (s : CantileverModal) : Prop where
  EI : 0 < s.EI
  mass : 0 < s.mass
  length : 0 < s.length
  eleSize : 0 < s.eleSize

theorem CantileverModal.aL (s : CantileverModal) (h : s.Valid) (root : ℕ → ℝ) (n : ℕ) : s.a root n * s.length = root n :=
  div_mul_cancel₀ _ h.length.ne'

theorem cantilever_eig (s : CantileverModal) (h : s.Valid) (root : ℕ → ℝ) (n : ℕ) (hr : 0 < root n) :
    0 < s.eig root n ∧ s.eig root n ^ 2 = s.EI / s.mass * s.a root n ^ 4 := by
  have h1 := h.EI; have h2 := h.mass; have h3 := h.length
  unfold CantileverModal.eig
  rw [s.aL h]
  constructor
  · positivity
  · rw [mul_pow, Real.sq_sqrt (by positivity)]
    unfold CantileverModal.a
    field_simp

theorem cantilever_mode (s : CantileverModal) (h : s.Valid) (root : ℕ → ℝ) (n : ℕ) (hr : 0 < root n) (hz : findEigen (root n) = 0) :
    ∃ f1 f3, CantileverMode s.EI s.mass s.length (s.eig root n) (s.shape root n) f1 (s.curvature root n) f3 := by
  have h1 := h.EI; have h2 := h.mass; have h3 := h.length
  obtain ⟨f1, f3, c1, c3, hd⟩ := shape_derivs s root n
  have hp := sin_add_sinh_pos hr
  rw [s.aL h] at c3
  refine ⟨f1, f3, ⟨fun x => (hd x).1, fun x => (hd x).2.1, fun x => (hd x).2.2.1, fun x => ⟨_, (hd x).2.2.2, ?_⟩, ⟨?_, c1⟩, ?_, ?_⟩⟩
  · rw [(cantilever_eig s h root n hr).2]
    field_simp
  · simp [CantileverModal.shape]
  · unfold CantileverModal.curvature
    simp only [s.aL h]
    field_simp
    ring
  · rw [c3]
    unfold findEigen at hz
    have e1 := Real.sin_sq_add_cos_sq (root n)
    have e2 := Real.cosh_sq (root n)
    field_simp
    have : Real.sin (root n) ^ 2 - Real.sinh (root n) ^ 2 + (Real.cos (root n) + Real.cosh (root n)) ^ 2 = 0 := by
      linear_combination 2 * hz + e1 + e2
    linear_combination s.a root n ^ 3 * this

/-- **C152** The shape that the code uses is a mode of free vibration of the cantilever with the frequency that it uses exactly if
the root it found is a zero of `find_eigen`. -/
theorem C152_mode (s : CantileverModal) (h : s.Valid) (root : ℕ → ℝ) (n : ℕ) (hr : 0 < root n) :
    (∃ f1 f2 f3, CantileverMode s.EI s.mass s.length (s.eig root n) (s.shape root n) f1 f2 f3) ↔ findEigen (root n) = 0 := by
  constructor
  · rintro ⟨g1, g2, g3, hg⟩
    obtain ⟨f1, f3, c1, c3, hd⟩ := shape_derivs s root n
    have hp := sin_add_sinh_pos hr
    have h3 := h.length
    have ha : 0 < s.a root n := by unfold CantileverModal.a; positivity
    have e1 : g1 = f1 := funext fun x => (hg.first x).unique (hd x).1
    subst e1
    have e2 : g2 = s.curvature root n := funext fun x => (hg.second x).unique (hd x).2.1
    subst e2
    have e3 : g3 = f3 := funext fun x => (hg.third x).unique (hd x).2.2.1
    subst e3
    have hfree := hg.free.2
    rw [c3, s.aL h] at hfree
    have hfree := (mul_eq_zero.mp hfree).resolve_left (by positivity)
    field_simp at hfree
    have e1 := Real.sin_sq_add_cos_sq (root n)
    have e2 := Real.cosh_sq (root n)
    unfold findEigen
    linear_combination (1 / 2) * hfree - (1 / 2) * e1 - (1 / 2) * e2
  · intro hz
    obtain ⟨f1, f3, hm⟩ := cantilever_mode s h root n hr hz
    exact ⟨f1, _, f3, hm⟩

theorem shape_end (s : CantileverModal) (h : s.Valid) (root : ℕ → ℝ) (n : ℕ) (hr : 0 < root n) (hz : findEigen (root n) = 0) :
    s.shape root n s.length ^ 2 = 4 := by
  have hp := sin_add_sinh_pos hr
  unfold CantileverModal.shape
  simp only [s.aL h]
  unfold findEigen at hz
  have e1 := Real.sin_sq_add_cos_sq (root n)
  have e2 := Real.cosh_sq (root n)
  generalize Real.sin (root n) = a at *
  generalize Real.cos (root n) = b at *
  generalize Real.sinh (root n) = c at *
  generalize Real.cosh (root n) = d at *
  have e : b - d - (b + d) / (a + c) * (a - c) = 2 * (b * c - d * a) / (a + c) := by
    field_simp
    ring
  rw [e, div_pow, div_eq_iff (by positivity)]
  have hbd : b * d = -1 := by linarith
  have hb2 : b ^ 2 = 1 - a ^ 2 := by linarith
  have hd2 : d ^ 2 = c ^ 2 + 1 := e2
  have : (b * c - d * a) ^ 2 = b ^ 2 * c ^ 2 - 2 * (b * d) * (a * c) + d ^ 2 * a ^ 2 := by ring
  rw [mul_pow, this, hbd, hb2, hd2]
  ring

/-! ### The modal mass -/

theorem trapezoid_sum (X Y : ℕ → ℝ) (k : ℕ) : ∀ i, trapezoid ((List.range' i (k + 1)).map fun j => (X j, Y j)) =
    ∑ j ∈ range k, (X (i + j + 1) - X (i + j)) * (Y (i + j + 1) + Y (i + j)) / 2 := by
  induction k with
  | zero => intro i; simp [trapezoid]
  | succ k ih =>
    intro i
    rw [Finset.sum_range_succ', show k + 1 + 1 = (k + 1) + 1 from rfl, List.range'_succ, List.map_cons]
    have := ih (i + 1)
    rw [List.range'_succ, List.map_cons] at this ⊢
    rw [trapezoid, this, add_comm]
    congr 1
    refine Finset.sum_congr rfl fun j _ => ?_
    rw [show i + 1 + j = i + (j + 1) by ring]

theorem trapezoid_linspace (L : ℝ) (f : ℝ → ℝ) (N : ℕ) (hN : 1 ≤ N) : trapezoid ((linspace 0 L (N + 1)).map fun x => (x, f x)) =
    ∑ j ∈ range N, L / N * (f ((j + 1 : ℕ) * (L / N)) + f (j * (L / N))) / 2 := by
  have e : (linspace 0 L (N + 1)).map (fun x => (x, f x)) =
      (List.range' 0 (N + 1)).map fun j : ℕ => ((j : ℝ) * (L / N), f (j * (L / N))) := by
    unfold linspace
    rw [List.map_map, List.range_eq_range']
    refine List.map_congr_left fun j _ => ?_
    have : linspaceAt 0 L (N + 1) j = j * (L / N) := by
      unfold linspaceAt
      rw [if_neg (by omega)]
      push_cast
      ring
    simp only [Function.comp, this]
  rw [e, trapezoid_sum]
  refine Finset.sum_congr rfl fun j _ => ?_
  rw [zero_add]
  push_cast
  ring

/-- The trapezoidal rule converges for a function with a bounded derivative. -/
theorem trapezoid_tendsto (L : ℝ) (hL : 0 ≤ L) (f f' : ℝ → ℝ) (hf : ∀ x, HasDerivAt f (f' x) x) (hc : Continuous f') :
    Filter.Tendsto (fun N => trapezoid ((linspace 0 L N).map fun x => (x, f x))) Filter.atTop (nhds (∫ x in (0 : ℝ)..L, f x)) := by
  have hcf : Continuous f := continuous_iff_continuousAt.mpr fun x => (hf x).continuousAt
  obtain ⟨C, hC⟩ := (isCompact_Icc (a := (0 : ℝ)) (b := L)).exists_bound_of_continuousOn hc.continuousOn
  have hC0 : 0 ≤ C := (norm_nonneg _).trans (hC 0 ⟨le_rfl, hL⟩)
  have lip : ∀ x ∈ Set.Icc 0 L, ∀ y ∈ Set.Icc 0 L, ‖f y - f x‖ ≤ C * ‖y - x‖ := fun x hx y hy =>
    Convex.norm_image_sub_le_of_norm_hasDerivWithin_le (fun z _ => (hf z).hasDerivWithinAt) hC (convex_Icc 0 L) hx hy
  have bound : ∀ N, 1 ≤ N → |trapezoid ((linspace 0 L (N + 1)).map fun x => (x, f x)) - ∫ x in (0 : ℝ)..L, f x| ≤ C * L ^ 2 / N := by
    intro N hN
    have hN0 : (0 : ℝ) < N := by exact_mod_cast hN
    set h := L / N with hh
    have hh0 : 0 ≤ h := by positivity
    have hNh : N * h = L := by rw [hh]; field_simp
    rw [trapezoid_linspace L f N hN]
    have step : ∀ k, k ≤ N → |∑ j ∈ range k, h * (f ((j + 1 : ℕ) * h) + f (j * h)) / 2 - ∫ x in (0 : ℝ)..(k * h), f x| ≤ k * (C * h ^ 2) := by
      intro k
      induction k with
      | zero => intro _; simp
      | succ k ih =>
        intro hk
        have hk' : ((k : ℝ) + 1) * h ≤ L := by
          rw [← hNh]
          have : (k : ℝ) + 1 ≤ N := by exact_mod_cast hk
          exact mul_le_mul_of_nonneg_right this hh0
        have hkh : (0 : ℝ) ≤ k * h := by positivity
        have hle : (k : ℝ) * h ≤ (k + 1) * h := by linarith
        rw [Finset.sum_range_succ, ← intervalIntegral.integral_add_adjacent_intervals
          (hcf.intervalIntegrable 0 (k * h)) (hcf.intervalIntegrable (k * h) ((k + 1 : ℕ) * h))]
        have a := ih (by omega)
        have b : |h * (f ((k + 1 : ℕ) * h) + f (k * h)) / 2 - ∫ x in (k * h)..((k + 1 : ℕ) * h), f x| ≤ C * h ^ 2 := by
          have e : h * (f ((k + 1 : ℕ) * h) + f (k * h)) / 2 - ∫ x in (k * h)..((k + 1 : ℕ) * h), f x =
              ∫ x in (k * h)..((k + 1 : ℕ) * h), ((f ((k + 1 : ℕ) * h) + f (k * h)) / 2 - f x) := by
            rw [intervalIntegral.integral_sub (continuous_const.intervalIntegrable _ _) (hcf.intervalIntegrable _ _),
              intervalIntegral.integral_const, smul_eq_mul]
            push_cast
            ring
          rw [e]
          have := intervalIntegral.norm_integral_le_of_norm_le_const (a := k * h) (b := (k + 1 : ℕ) * h)
            (f := fun x => (f ((k + 1 : ℕ) * h) + f (k * h)) / 2 - f x) (C := C * h) (by
            intro x hx
            push_cast at hx ⊢
            rw [Set.uIoc_of_le hle] at hx
            have hx0 : x ∈ Set.Icc 0 L := ⟨by linarith [hx.1], by linarith [hx.2]⟩
            have l1 := lip x hx0 ((k + 1) * h) ⟨by linarith, hk'⟩
            have l2 := lip x hx0 (k * h) ⟨hkh, by linarith⟩
            rw [Real.norm_eq_abs, Real.norm_eq_abs] at l1 l2
            have d1 : |(k + 1) * h - x| ≤ h := by rw [abs_le]; constructor <;> linarith [hx.1, hx.2]
            have d2 : |k * h - x| ≤ h := by rw [abs_le]; constructor <;> linarith [hx.1, hx.2]
            have l1' := l1.trans (mul_le_mul_of_nonneg_left d1 hC0)
            have l2' := l2.trans (mul_le_mul_of_nonneg_left d2 hC0)
            rw [Real.norm_eq_abs, abs_le]
            rw [abs_le] at l1' l2'
            constructor <;> linarith [l1'.1, l1'.2, l2'.1, l2'.2])
          rw [Real.norm_eq_abs] at this
          refine this.trans_eq ?_
          push_cast
          rw [show ((k : ℝ) + 1) * h - k * h = h by ring, abs_of_nonneg hh0]
          ring
        have t := abs_add_le (∑ j ∈ range k, h * (f ((j + 1 : ℕ) * h) + f (j * h)) / 2 - ∫ x in (0 : ℝ)..(k * h), f x)
          (h * (f ((k + 1 : ℕ) * h) + f (k * h)) / 2 - ∫ x in (k * h)..((k + 1 : ℕ) * h), f x)
        have e : ∑ j ∈ range k, h * (f ((j + 1 : ℕ) * h) + f (j * h)) / 2 + h * (f ((k + 1 : ℕ) * h) + f (k * h)) / 2 -
            ((∫ x in (0 : ℝ)..(k * h), f x) + ∫ x in (k * h)..((k + 1 : ℕ) * h), f x) =
            (∑ j ∈ range k, h * (f ((j + 1 : ℕ) * h) + f (j * h)) / 2 - ∫ x in (0 : ℝ)..(k * h), f x) +
            (h * (f ((k + 1 : ℕ) * h) + f (k * h)) / 2 - ∫ x in (k * h)..((k + 1 : ℕ) * h), f x) := by ring
        rw [e]
        refine t.trans ?_
        push_cast at a b ⊢
        linarith
    have := step N le_rfl
    rw [hNh] at this
    refine this.trans_eq ?_
    rw [hh]
    field_simp
  have hz : Filter.Tendsto (fun N : ℕ => C * L ^ 2 / (N : ℝ)) Filter.atTop (nhds 0) := tendsto_const_div_atTop_nhds_zero_nat _
  rw [← Filter.tendsto_add_atTop_iff_nat 1]
  rw [tendsto_iff_norm_sub_tendsto_zero]
  refine squeeze_zero' (Filter.Eventually.of_forall fun _ => norm_nonneg _) (Filter.eventually_atTop.mpr ⟨1, fun N hN => bound N hN⟩) hz

theorem massModal_tendsto (s : CantileverModal) (h : s.Valid) (root : ℕ → ℝ) (n : ℕ) (hr : 0 < root n) (hz : findEigen (root n) = 0) :
    Filter.Tendsto (fun N => CantileverModal.massModal { s with intSteps := N } root n) Filter.atTop (nhds (s.mass * s.length)) := by
  obtain ⟨f1, f3, hm⟩ := cantilever_mode s h root n hr hz
  have hc := hm.cont
  have := trapezoid_tendsto s.length h.length.le (fun x => s.shape root n x ^ 2) (fun x => 2 * s.shape root n x * f1 x) (fun x => by
    refine ((hm.first x).pow 2).congr_deriv ?_
    push_cast
    ring) (by have a := hc.1; have b := hc.2.1; fun_prop)
  have e : ∫ x in (0 : ℝ)..s.length, s.shape root n x ^ 2 = s.length := by
    have := mode_square h.EI.ne' h.mass.ne' (cantilever_eig s h root n hr).1.ne' hm
    simp only [← sq] at this
    rw [this, shape_end s h root n hr hz]
    ring
  rw [e] at this
  exact this.const_mul s.mass

theorem massModal_pos (s : CantileverModal) (h : s.Valid) (hs : 2 ≤ s.intSteps) (root : ℕ → ℝ) (n : ℕ) (hr : 0 < root n)
    (hz : findEigen (root n) = 0) : 0 < s.massModal root n := by
  obtain ⟨N, hN⟩ : ∃ N, s.intSteps = N + 1 + 1 := ⟨s.intSteps - 2, by omega⟩
  have hL := h.length
  refine mul_pos h.mass ?_
  rw [hN, trapezoid_linspace _ _ _ (by omega), Finset.sum_range_succ]
  refine add_pos_of_nonneg_of_pos (Finset.sum_nonneg fun j _ => by positivity) ?_
  have e : ((N + 1 : ℕ) : ℝ) * (s.length / ((N + 1 : ℕ) : ℝ)) = s.length := by
    have : ((N + 1 : ℕ) : ℝ) ≠ 0 := by positivity
    field_simp
  rw [e, shape_end s h root n hr hz]
  positivity

/-! ### C152 -/

theorem cantilever_end (s : CantileverModal) (h : s.Valid) : s.x.getLast?.getD 0 = s.length := by
  have hpos : 0 < ⌈s.length / s.eleSize⌉₊ := Nat.ceil_pos.mpr (div_pos h.length h.eleSize)
  unfold CantileverModal.x simpleSupportMesh
  rw [List.getLast?_eq_getElem?]
  have h1 : (linspace 0 s.length (⌈s.length / s.eleSize⌉₊ + 1)).length = ⌈s.length / s.eleSize⌉₊ + 1 := by simp [linspace]
  rw [h1, List.getElem?_eq_getElem (by rw [h1]; omega), Option.getD_some]
  simp only [linspace, List.getElem_map, List.getElem_range]
  unfold linspaceAt
  rw [if_neg (by omega)]
  have : (⌈s.length / s.eleSize⌉₊ : ℝ) ≠ 0 := by exact_mod_cast hpos.ne'
  rw [show ((⌈s.length / s.eleSize⌉₊ + 1 - 1 : ℕ) : ℝ) = (⌈s.length / s.eleSize⌉₊ : ℝ) by norm_num]
  push_cast
  field_simp
  simp only [add_sub_cancel_right, sub_zero, zero_add]
  exact mul_div_cancel_left₀ _ this

theorem cantilever_u (s : CantileverModal) (h : s.Valid) (root : ℕ → ℝ) (x t : ℝ) : s.uAt root x t = ∑ k ∈ Icc 1 (s.n - 1),
    s.shape root k s.length * s.force / (s.eig root k ^ 2 * s.massModal root k) * (1 - Real.cos (s.eig root k * t)) * s.shape root k x := by
  unfold CantileverModal.uAt CantileverModal.modeForce
  rw [cantilever_end s h]
  exact foldl_modes s.n _

theorem cantilever_v (s : CantileverModal) (h : s.Valid) (root : ℕ → ℝ) (x t : ℝ) : s.vAt root x t = ∑ k ∈ Icc 1 (s.n - 1),
    s.shape root k s.length * s.force / (s.eig root k ^ 2 * s.massModal root k) * (1 + s.eig root k * Real.sin (s.eig root k * t)) *
      s.shape root k x := by
  unfold CantileverModal.vAt CantileverModal.modeForce
  rw [cantilever_end s h]
  exact foldl_modes s.n _

/-- The roots found for the used modes are different positive zeros of `find_eigen`. -/
structure CantileverModal.Roots (s : CantileverModal) (root : ℕ → ℝ) : Prop where
  zero : ∀ k ∈ Icc 1 (s.n - 1), 0 < root k ∧ findEigen (root k) = 0
  distinct : ∀ i ∈ Icc 1 (s.n - 1), ∀ j ∈ Icc 1 (s.n - 1), root i = root j → i = j

theorem cantilever_distinct (s : CantileverModal) (h : s.Valid) (root : ℕ → ℝ) (hr : s.Roots root) :
    ∀ i ∈ Icc 1 (s.n - 1), ∀ j ∈ Icc 1 (s.n - 1), i ≠ j → s.eig root i ^ 2 ≠ s.eig root j ^ 2 := by
  intro i hi j hj hij e
  have h1 := h.EI; have h2 := h.mass; have h3 := h.length
  have ri := (hr.zero i hi).1
  have rj := (hr.zero j hj).1
  rw [(cantilever_eig s h root i ri).2, (cantilever_eig s h root j rj).2] at e
  have e := mul_left_cancel₀ (by positivity) e
  unfold CantileverModal.a at e
  have e := (pow_left_inj₀ (by positivity) (by positivity) (by norm_num)).mp e
  exact hij (hr.distinct i hi j hj ((div_left_inj' h3.ne').mp e))

/-- **C152** The displacements converge, when the number of integration steps grows, to the motion of the cantilever in its first
`n - 1` modes after the load at its end is applied; there is one such motion. Missing: `n` modes, and the motion itself
instead of an approximation. -/
theorem C152_motion_partial (s : CantileverModal) (h : s.Valid) (root : ℕ → ℝ) (hr : s.Roots root) :
    ∃ u, ShapeMotion s.EI s.mass s.length s.force (s.n - 1) (s.shape root) (s.curvature root) u ∧
      (∀ v, ShapeMotion s.EI s.mass s.length s.force (s.n - 1) (s.shape root) (s.curvature root) v → ∀ x t, 0 ≤ t → v x t = u x t) ∧
      ∀ x t, Filter.Tendsto (fun N => CantileverModal.uAt { s with intSteps := N } root x t) Filter.atTop (nhds (u x t)) := by
  have hL := h.length
  have hm := h.mass
  choose! f1 f3 hf using fun k (hk : k ∈ Icc 1 (s.n - 1)) => cantilever_mode s h root k (hr.zero k hk).1 (hr.zero k hk).2
  have hw : ∀ k ∈ Icc 1 (s.n - 1), s.eig root k ≠ 0 := fun k hk => (cantilever_eig s h root k (hr.zero k hk).1).1.ne'
  have hd := cantilever_distinct s h root hr
  have hend : ∀ k ∈ Icc 1 (s.n - 1), s.shape root k s.length ≠ 0 := by
    intro k hk e
    have := shape_end s h root k (hr.zero k hk).1 (hr.zero k hk).2
    rw [e] at this
    norm_num at this
  have hu : ShapeMotion s.EI s.mass s.length s.force (s.n - 1) (s.shape root) (s.curvature root) (fun x t => ∑ k ∈ Icc 1 (s.n - 1),
      s.shape root k s.length * s.force / (s.eig root k ^ 2 * (s.mass * s.length)) * (1 - Real.cos (s.eig root k * t)) * s.shape root k x) := by
    refine ⟨fun k t => s.shape root k s.length * s.force / (s.eig root k ^ 2 * (s.mass * s.length)) * (1 - Real.cos (s.eig root k * t)),
      fun k t => s.shape root k s.length * s.force / (s.eig root k ^ 2 * (s.mass * s.length)) * (s.eig root k * Real.sin (s.eig root k * t)),
      fun k t => s.shape root k s.length * s.force / (s.eig root k ^ 2 * (s.mass * s.length)) *
        (s.eig root k ^ 2 * Real.cos (s.eig root k * t)), fun k t => ?_, fun k => by simp, fun x t => rfl, fun t j hj => ?_⟩
    · have l : HasDerivAt (fun t : ℝ => s.eig root k * t) (s.eig root k * 1) t := (hasDerivAt_id t).const_mul _
      constructor
      · exact ((l.cos.const_sub 1).const_mul _).congr_deriv (by ring)
      · exact ((l.sin.const_mul _).const_mul _).congr_deriv (by ring)
    · rw [(shape_projection _ _ _ h.EI.ne' hm.ne' _ _ _ f1 _ f3 hf hw hd (fun k => s.shape root k s.length * s.force /
          (s.eig root k ^ 2 * (s.mass * s.length)) * (s.eig root k ^ 2 * Real.cos (s.eig root k * t))) j hj).1,
        (shape_projection _ _ _ h.EI.ne' hm.ne' _ _ _ f1 _ f3 hf hw hd (fun k => s.shape root k s.length * s.force /
          (s.eig root k ^ 2 * (s.mass * s.length)) * (1 - Real.cos (s.eig root k * t))) j hj).2,
        shape_end s h root j (hr.zero j hj).1 (hr.zero j hj).2]
      have := hw j hj
      field_simp
      ring
  refine ⟨_, hu, fun v hv x t ht => ?_, fun x t => ?_⟩
  · exact shapeMotion_unique _ _ _ _ h.EI.ne' hm.ne' hL.ne' _ _ _ f1 _ f3 hf hw hd hend _ _ hv hu x t ht
  · simp only [fun N => cantilever_u { s with intSteps := N } ⟨h.EI, h.mass, h.length, h.eleSize⟩ root x t]
    refine tendsto_finsetSum _ fun k hk => ?_
    refine Filter.Tendsto.mul_const _ (Filter.Tendsto.mul_const _ (Filter.Tendsto.div tendsto_const_nhds
      (Filter.Tendsto.mul tendsto_const_nhds (massModal_tendsto s h root k (hr.zero k hk).1 (hr.zero k hk).2)) ?_))
    have := hw k hk
    positivity

/-- **C152** At the free end of a loaded cantilever the reported velocity is at no time the derivative of the displacement. -/
theorem C152_velocity_violated (s : CantileverModal) (h : s.Valid) (hn : 2 ≤ s.n) (hs : 2 ≤ s.intSteps) (hF : s.force ≠ 0)
    (root : ℕ → ℝ) (hr : s.Roots root) (t : ℝ) :
    ¬ HasDerivAt (fun t => s.uAt root s.length t) (s.vAt root s.length t) t := by
  intro hd
  have hu : HasDerivAt (fun t => s.uAt root s.length t) (s.vAt root s.length t - ∑ k ∈ Icc 1 (s.n - 1),
      s.force * (4 / (s.eig root k ^ 2 * s.massModal root k))) t := by
    simp only [cantilever_u s h, cantilever_v s h]
    rw [← Finset.sum_sub_distrib]
    refine HasDerivAt.fun_sum fun k hk => ?_
    have l : HasDerivAt (fun t : ℝ => s.eig root k * t) (s.eig root k * 1) t := (hasDerivAt_id t).const_mul _
    refine (((l.cos.const_sub 1).const_mul _).mul_const _).congr_deriv ?_
    rw [← shape_end s h root k (hr.zero k hk).1 (hr.zero k hk).2]
    ring
  have e := hd.unique hu
  have hsum : 0 < ∑ k ∈ Icc 1 (s.n - 1), 4 / (s.eig root k ^ 2 * s.massModal root k) := by
    refine Finset.sum_pos (fun k hk => ?_) ⟨1, Finset.mem_Icc.mpr ⟨le_rfl, by omega⟩⟩
    have a := massModal_pos s h hs root k (hr.zero k hk).1 (hr.zero k hk).2
    have b := (cantilever_eig s h root k (hr.zero k hk).1).1
    positivity
  have : s.force * ∑ k ∈ Icc 1 (s.n - 1), 4 / (s.eig root k ^ 2 * s.massModal root k) = 0 := by
    rw [Finset.mul_sum]
    linarith
  exact (mul_ne_zero hF hsum.ne') this

/-- `find_eigen` has a zero in every interval between multiples of π, so that there are roots as the theorems ask for. -/
theorem cantilever_roots : ∃ root : ℕ → ℝ, ∀ s : CantileverModal, s.Roots root := by
  have hz : ∀ k : ℕ, ∃ r : ℝ, k * Real.pi < r ∧ r < (k + 1) * Real.pi ∧ findEigen r = 0 := by
    intro k
    have hpi := Real.pi_pos
    have hc : ∀ s, ContinuousOn findEigen s := fun s => by unfold findEigen; fun_prop
    have v : ∀ j : ℕ, findEigen (j * Real.pi) = 1 + (-1) ^ j * Real.cosh (j * Real.pi) := by
      intro j
      unfold findEigen
      rw [Real.cos_nat_mul_pi]
    have hle : (k : ℝ) * Real.pi ≤ (k + 1) * Real.pi := by nlinarith
    have v1 := v (k + 1)
    push_cast at v1
    have c1 : 1 < Real.cosh (((k : ℝ) + 1) * Real.pi) := Real.one_lt_cosh.mpr (by positivity)
    rcases Nat.even_or_odd k with he | ho
    · have := intermediate_value_Ioo' hle (hc _)
      have m : (0 : ℝ) ∈ Set.Ioo (findEigen ((k + 1) * Real.pi)) (findEigen (k * Real.pi)) := by
        rw [v, v1, he.neg_one_pow, he.add_one.neg_one_pow]
        have := Real.cosh_pos (k * Real.pi)
        constructor <;> linarith
      obtain ⟨r, hr, e⟩ := this m
      exact ⟨r, hr.1, hr.2, e⟩
    · have := intermediate_value_Ioo hle (hc _)
      have m : (0 : ℝ) ∈ Set.Ioo (findEigen (k * Real.pi)) (findEigen ((k + 1) * Real.pi)) := by
        rw [v, v1, ho.neg_one_pow, ho.add_one.neg_one_pow]
        have hk : (0 : ℝ) < k := by exact_mod_cast ho.pos
        have : 1 < Real.cosh ((k : ℝ) * Real.pi) := Real.one_lt_cosh.mpr (by positivity)
        constructor <;> linarith
      obtain ⟨r, hr, e⟩ := this m
      exact ⟨r, hr.1, hr.2, e⟩
  choose r h1 h2 h3 using hz
  have hpi := Real.pi_pos
  refine ⟨fun k => r (k - 1), fun s => ⟨fun k _ => ⟨?_, h3 _⟩, fun i hi j hj e => ?_⟩⟩
  · exact lt_of_le_of_lt (by positivity) (h1 (k - 1))
  · by_contra hij
    have hi1 := (Finset.mem_Icc.mp hi).1
    have hj1 := (Finset.mem_Icc.mp hj).1
    rcases Nat.lt_or_gt_of_ne hij with hlt | hlt
    · have a := h2 (i - 1)
      have b := h1 (j - 1)
      have : ((i - 1 : ℕ) : ℝ) + 1 ≤ ((j - 1 : ℕ) : ℝ) := by exact_mod_cast (show i - 1 + 1 ≤ j - 1 by omega)
      have := mul_le_mul_of_nonneg_right this hpi.le
      linarith
    · have a := h2 (j - 1)
      have b := h1 (i - 1)
      have : ((j - 1 : ℕ) : ℝ) + 1 ≤ ((i - 1 : ℕ) : ℝ) := by exact_mod_cast (show j - 1 + 1 ≤ i - 1 by omega)
      have := mul_le_mul_of_nonneg_right this hpi.le
      linarith

/-- The beam of the script: its last coordinate is its end, and it is loaded in the used modes. -/
example : ∃ root, ∀ t, ¬ HasDerivAt
    (fun t => CantileverModal.uAt { n := 100, eleSize := 1 / 100, intSteps := 100, EI := 2000, mass := 20, length := 1, force := -1000 } root 1 t)
    (CantileverModal.vAt { n := 100, eleSize := 1 / 100, intSteps := 100, EI := 2000, mass := 20, length := 1, force := -1000 } root 1 t) t := by
  obtain ⟨root, hr⟩ := cantilever_roots
  exact ⟨root, fun t => C152_velocity_violated _ (by constructor <;> norm_num) (by norm_num) (by norm_num) (by norm_num) root (hr _) t⟩

end Rose
