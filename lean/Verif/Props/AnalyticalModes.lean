/-
C147, C148: the modal solutions of a beam on two supports under a suddenly applied load.
-/
import Mathlib.Analysis.Real.Pi.Bounds
import Verif.Model.AnalyticalModes
import Verif.Spec.Modes
import Verif.Props.AnalyticalBeam

set_option linter.unusedSectionVars false

namespace Rose
open Finset Spec

/-! ### Orthogonality of the shapes -/

theorem integral_cos_pi (L : ℝ) (hL : 0 < L) (k : ℤ) (hk : k ≠ 0) :
    ∫ x in (0 : ℝ)..L, Real.cos (k * Real.pi / L * x) = 0 := by
  have hc : (k : ℝ) * Real.pi / L ≠ 0 := by
    have : (k : ℝ) ≠ 0 := by exact_mod_cast hk
    have := Real.pi_pos
    positivity
  rw [intervalIntegral.integral_comp_mul_left (fun x => Real.cos x) hc, integral_cos]
  have : (k : ℝ) * Real.pi / L * L = k * Real.pi := by field_simp
  simp [this, Real.sin_int_mul_pi]

theorem sine_orthogonal (L : ℝ) (hL : 0 < L) (j k : ℕ) (hj : 1 ≤ j) (hk : 1 ≤ k) :
    ∫ x in (0 : ℝ)..L, sine L k x * sine L j x = if k = j then L / 2 else 0 := by
  have e : ∀ x, sine L k x * sine L j x =
      1 / 2 * Real.cos (((k : ℤ) - (j : ℤ) : ℤ) * Real.pi / L * x) - 1 / 2 * Real.cos (((k : ℤ) + (j : ℤ) : ℤ) * Real.pi / L * x) := by
    intro x
    unfold sine
    have h1 : (((k : ℤ) - (j : ℤ) : ℤ) : ℝ) * Real.pi / L * x = k * Real.pi * x / L - j * Real.pi * x / L := by
      push_cast; ring
    have h2 : (((k : ℤ) + (j : ℤ) : ℤ) : ℝ) * Real.pi / L * x = k * Real.pi * x / L + j * Real.pi * x / L := by
      push_cast; ring
    rw [h1, h2, Real.cos_sub, Real.cos_add]
    ring
  simp only [e]
  rw [intervalIntegral.integral_sub (Continuous.intervalIntegrable (by fun_prop) _ _)
    (Continuous.intervalIntegrable (by fun_prop) _ _), intervalIntegral.integral_const_mul, intervalIntegral.integral_const_mul,
    integral_cos_pi L hL ((k : ℤ) + j) (by omega)]
  split_ifs with h
  · subst h
    simp
    ring
  · rw [integral_cos_pi L hL ((k : ℤ) - j) (by omega)]
    ring

theorem continuous_sine (L : ℝ) (k : ℕ) : Continuous (sine L k) := by
  unfold sine
  fun_prop

theorem mass_projection (L : ℝ) (hL : 0 < L) (N j : ℕ) (hj : j ∈ Icc 1 N) (c : ℝ) (p : ℕ → ℝ) :
    ∫ x in (0 : ℝ)..L, c * (∑ k ∈ Icc 1 N, p k * sine L k x) * sine L j x = c * p j * (L / 2) := by
  have e : ∀ x, c * (∑ k ∈ Icc 1 N, p k * sine L k x) * sine L j x =
      ∑ k ∈ Icc 1 N, c * p k * (sine L k x * sine L j x) := by
    intro x
    rw [Finset.mul_sum, Finset.sum_mul]
    exact Finset.sum_congr rfl fun k _ => by ring
  simp only [e]
  have hint : ∀ k ∈ Icc 1 N, IntervalIntegrable (fun x => c * p k * (sine L k x * sine L j x)) MeasureTheory.volume 0 L :=
    fun k _ => Continuous.intervalIntegrable (continuous_const.mul ((continuous_sine L k).mul (continuous_sine L j))) _ _
  rw [intervalIntegral.integral_finsetSum hint]
  rw [Finset.sum_eq_single_of_mem j hj]
  · rw [intervalIntegral.integral_const_mul, sine_orthogonal L hL j j (Finset.mem_Icc.mp hj).1 (Finset.mem_Icc.mp hj).1, if_pos rfl]
  · intro k hk hkj
    rw [intervalIntegral.integral_const_mul, sine_orthogonal L hL j k (Finset.mem_Icc.mp hj).1 (Finset.mem_Icc.mp hk).1, if_neg hkj,
      mul_zero]

theorem bending_projection (L : ℝ) (hL : 0 < L) (N j : ℕ) (hj : j ∈ Icc 1 N) (c : ℝ) (p : ℕ → ℝ) :
    ∫ x in (0 : ℝ)..L, c * (∑ k ∈ Icc 1 N, p k * sineCurvature L k x) * sineCurvature L j x =
      c * p j * ((j * Real.pi / L) ^ 4 * (L / 2)) := by
  have h := mass_projection L hL N j hj (c * (j * Real.pi / L) ^ 2) (fun k => p k * (k * Real.pi / L) ^ 2)
  have e : ∀ x, c * (∑ k ∈ Icc 1 N, p k * sineCurvature L k x) * sineCurvature L j x =
      c * (j * Real.pi / L) ^ 2 * (∑ k ∈ Icc 1 N, p k * (k * Real.pi / L) ^ 2 * sine L k x) * sine L j x := by
    intro x
    unfold sineCurvature sine
    simp only [mul_neg, Finset.sum_neg_distrib]
    have : ∑ k ∈ Icc 1 N, p k * (((k : ℝ) * Real.pi / L) ^ 2 * Real.sin (k * Real.pi * x / L)) =
        ∑ k ∈ Icc 1 N, p k * (k * Real.pi / L) ^ 2 * Real.sin (k * Real.pi * x / L) :=
      Finset.sum_congr rfl fun k _ => by ring
    rw [this]
    ring
  simp only [e]
  rw [h]
  ring

/-- The principle of virtual work in the first shapes is one oscillator per shape. -/
theorem modal_equations (EI m a b L : ℝ) (hL : 0 < L) (N : ℕ) (q q' q'' : ℕ → ℝ → ℝ) (t : ℝ) (j : ℕ) (hj : j ∈ Icc 1 N) :
    (∫ x in (0 : ℝ)..L, m * (∑ k ∈ Icc 1 N, q'' k t * sine L k x) * sine L j x) +
      (a * (∫ x in (0 : ℝ)..L, m * (∑ k ∈ Icc 1 N, q' k t * sine L k x) * sine L j x) +
        b * ∫ x in (0 : ℝ)..L, EI * (∑ k ∈ Icc 1 N, q' k t * sineCurvature L k x) * sineCurvature L j x) +
      (∫ x in (0 : ℝ)..L, EI * (∑ k ∈ Icc 1 N, q k t * sineCurvature L k x) * sineCurvature L j x) =
    m * (L / 2) * q'' j t + (a * (m * (L / 2)) + b * (EI * ((j * Real.pi / L) ^ 4 * (L / 2)))) * q' j t +
      EI * ((j * Real.pi / L) ^ 4 * (L / 2)) * q j t := by
  rw [mass_projection L hL N j hj m fun k => q'' k t, mass_projection L hL N j hj m fun k => q' k t,
    bending_projection L hL N j hj EI fun k => q' k t, bending_projection L hL N j hj EI fun k => q k t]
  ring

/-! ### The response of one oscillator -/

/-- The displacement of a damped oscillator that is at rest when the load is applied. -/
noncomputable def stepResponse (f w z t : ℝ) : ℝ :=
  f / w ^ 2 * (1 - Real.exp (-z * w * t) *
    (Real.cos (w * √(1 - z ^ 2) * t) + z / √(1 - z ^ 2) * Real.sin (w * √(1 - z ^ 2) * t)))

noncomputable def stepVelocity (f w z t : ℝ) : ℝ :=
  f / (w * √(1 - z ^ 2)) * (Real.exp (-z * w * t) * Real.sin (w * √(1 - z ^ 2) * t))

noncomputable def stepAcceleration (f w z t : ℝ) : ℝ :=
  f / (w * √(1 - z ^ 2)) * (Real.exp (-z * w * t) *
    (w * √(1 - z ^ 2) * Real.cos (w * √(1 - z ^ 2) * t) - z * w * Real.sin (w * √(1 - z ^ 2) * t)))

theorem stepResponse_spec (f w z : ℝ) (hw : 0 < w) (hz : |z| < 1) (t : ℝ) :
    HasDerivAt (stepResponse f w z) (stepVelocity f w z t) t ∧ HasDerivAt (stepVelocity f w z) (stepAcceleration f w z t) t ∧
      stepResponse f w z 0 = 0 ∧ stepVelocity f w z 0 = 0 ∧
      stepAcceleration f w z t + 2 * z * w * stepVelocity f w z t + w ^ 2 * stepResponse f w z t = f := by
  have hz2 : 0 < 1 - z ^ 2 := by
    have := abs_lt.mp hz
    nlinarith
  unfold stepResponse stepVelocity stepAcceleration
  have hs := Real.sqrt_pos.mpr hz2
  have hsq := Real.sq_sqrt hz2.le
  generalize √(1 - z ^ 2) = s at *
  have hexp : HasDerivAt (fun t => Real.exp (-z * w * t)) (Real.exp (-z * w * t) * (-z * w * 1)) t :=
    ((hasDerivAt_id t).const_mul (-z * w)).exp
  have hlin : HasDerivAt (fun t : ℝ => w * s * t) (w * s * 1) t := (hasDerivAt_id t).const_mul (w * s)
  refine ⟨?_, ?_, by simp, by simp, ?_⟩
  · refine (((hexp.mul (hlin.cos.add (hlin.sin.const_mul (z / s)))).const_sub 1).const_mul (f / w ^ 2)).congr_deriv ?_
    simp only [Pi.add_apply]
    generalize Real.sin (w * s * t) = S
    generalize Real.cos (w * s * t) = C
    generalize Real.exp (-z * w * t) = X
    field_simp
    linear_combination (f * S * X) * hsq
  · refine ((hexp.mul hlin.sin).const_mul (f / (w * s))).congr_deriv ?_
    ring
  · field_simp
    ring

/-- An oscillator without load that starts at rest stays at rest. -/
theorem oscillator_rest (w2 c : ℝ) (hw : 0 < w2) (hc : 0 ≤ c) (q q' q'' : ℝ → ℝ)
    (h1 : ∀ t, HasDerivAt q (q' t) t) (h2 : ∀ t, HasDerivAt q' (q'' t) t) (h0 : q 0 = 0) (h0' : q' 0 = 0)
    (h : ∀ t, q'' t + c * q' t + w2 * q t = 0) (t : ℝ) (ht : 0 ≤ t) : q t = 0 := by
  have hd : ∀ t, HasDerivAt (fun t => q' t ^ 2 + w2 * q t ^ 2) (-(2 * c * q' t ^ 2)) t := by
    intro t
    refine (((h2 t).pow 2).add (((h1 t).pow 2).const_mul w2)).congr_deriv ?_
    have := h t
    push_cast
    linear_combination (2 * q' t) * this
  have hanti : Antitone (fun t => q' t ^ 2 + w2 * q t ^ 2) := by
    refine antitone_of_deriv_nonpos (fun t => (hd t).differentiableAt) fun t => ?_
    rw [(hd t).deriv]
    have := mul_nonneg hc (sq_nonneg (q' t))
    linarith
  have hle : q' t ^ 2 + w2 * q t ^ 2 ≤ q' 0 ^ 2 + w2 * q 0 ^ 2 := hanti ht
  rw [h0, h0'] at hle
  have : q t ^ 2 ≤ 0 := by
    by_contra hpos
    push Not at hpos
    have := mul_pos hw hpos
    nlinarith [sq_nonneg (q' t)]
  exact pow_eq_zero_iff two_ne_zero |>.mp (le_antisymm this (sq_nonneg _))

/-- There is at most one motion in the first shapes. -/
theorem modalMotion_unique (EI m a b L F xF : ℝ) (hEI : 0 < EI) (hm : 0 < m) (ha : 0 ≤ a) (hb : 0 ≤ b) (hL : 0 < L) (N : ℕ)
    (u v : ℝ → ℝ → ℝ) (hu : ModalMotion EI m a b L F xF N u) (hv : ModalMotion EI m a b L F xF N v) (x t : ℝ) (ht : 0 ≤ t) :
    u x t = v x t := by
  obtain ⟨q, q', q'', q1, q2, q3, q4⟩ := hu
  obtain ⟨p, p', p'', p1, p2, p3, p4⟩ := hv
  rw [q3, p3]
  refine Finset.sum_congr rfl fun j hj => ?_
  congr 1
  have hj1 : (1 : ℝ) ≤ j := by exact_mod_cast (Finset.mem_Icc.mp hj).1
  have hpi := Real.pi_pos
  have hjp : (0 : ℝ) < j := by linarith
  have key : ∀ t, (q'' j t - p'' j t) + (a + b * (EI / m * (j * Real.pi / L) ^ 4)) * (q' j t - p' j t) +
      EI / m * (j * Real.pi / L) ^ 4 * (q j t - p j t) = 0 := by
    intro t
    have e1 := q4 t j hj
    have e2 := p4 t j hj
    rw [modal_equations EI m a b L hL N q q' q'' t j hj] at e1
    rw [modal_equations EI m a b L hL N p p' p'' t j hj] at e2
    have hmL : m * (L / 2) ≠ 0 := by positivity
    refine (mul_eq_zero.mp (?_ : m * (L / 2) * _ = 0)).resolve_left hmL
    have e3 : m * (L / 2) * (EI / m * (j * Real.pi / L) ^ 4) = EI * ((j * Real.pi / L) ^ 4 * (L / 2)) := by
      field_simp
    linear_combination e1 - e2 + (b * (q' j t - p' j t) + (q j t - p j t)) * e3
  have := oscillator_rest (EI / m * (j * Real.pi / L) ^ 4) (a + b * (EI / m * (j * Real.pi / L) ^ 4)) (by positivity)
    (by positivity) (fun t => q j t - p j t) (fun t => q' j t - p' j t) (fun t => q'' j t - p'' j t)
    (fun t => (q1 j t).1.sub (p1 j t).1) (fun t => (q1 j t).2.sub (p1 j t).2) (by simp [(q2 j).1, (p2 j).1])
    (by simp [(q2 j).2, (p2 j).2]) key t ht
  linarith

/-! ### The code -/

theorem foldl_modes (n : ℕ) (g : ℕ → ℝ) :
    (List.range' 1 (n - 1)).foldl (fun aux k => aux + g k) 0 = ∑ k ∈ Icc 1 (n - 1), g k := by
  have h : ∀ (l : List ℕ) (c : ℝ), l.foldl (fun aux k => aux + g k) c = c + (l.map g).sum := by
    intro l
    induction l with
    | nil => simp
    | cons a l ih => intro c; rw [List.foldl_cons, ih, List.map_cons, List.sum_cons]; ring
  rw [h, zero_add]
  have : Icc 1 (n - 1) = (List.range' 1 (n - 1)).toFinset := by
    ext k
    simp [List.mem_range'_1]
    omega
  rw [this, List.sum_toFinset _ List.nodup_range']

/-- The coordinate at which the load acts: the node in the middle, or the left one of the two nodes in the middle. -/
noncomputable def ModalBeam.loadAt (s : ModalBeam) : ℝ :=
  ((⌈s.length / s.eleSize⌉₊ / 2 : ℕ) : ℝ) * (s.length / ⌈s.length / s.eleSize⌉₊)

/-- Positive stiffness, mass, length and element size. -/
structure ModalBeam.Valid (s : ModalBeam) : Prop where
  EI : 0 < s.EI
  mass : 0 < s.mass
  length : 0 < s.length
  eleSize : 0 < s.eleSize

theorem ModalBeam.Valid.ceil_pos {s : ModalBeam} (h : s.Valid) : 0 < ⌈s.length / s.eleSize⌉₊ :=
  Nat.ceil_pos.mpr (div_pos h.length h.eleSize)

theorem modal_shape (s : ModalBeam) (n : ℕ) (x : ℝ) : s.shape n x = sine s.length n x := by
  unfold ModalBeam.shape sine
  congr 1
  ring

theorem modal_force (s : ModalBeam) (h : s.Valid) (n : ℕ) : s.modeForce n = s.force * sine s.length n s.loadAt := by
  have hlen : s.x.length = ⌈s.length / s.eleSize⌉₊ + 1 := by simp [ModalBeam.x, simpleSupportMesh, linspace]
  have hi : (s.x.length - 1) / 2 < s.x.length := by omega
  unfold ModalBeam.modeForce
  rw [List.getD_eq_getElem?_getD, List.getElem?_map, List.getElem?_eq_getElem hi, Option.map_some, Option.getD_some, modal_shape,
    mul_comm]
  congr 2
  have := simpleSupportMesh_getElem s.length s.eleSize ((s.x.length - 1) / 2) hi h.ceil_pos
  unfold ModalBeam.loadAt
  refine this.trans ?_
  rw [hlen, Nat.add_sub_cancel]

theorem modal_eig (s : ModalBeam) (h : s.Valid) (n : ℕ) (hn : 1 ≤ n) :
    0 < s.eig n ∧ s.eig n ^ 2 = s.EI / s.mass * (n * Real.pi / s.length) ^ 4 := by
  have h1 := h.EI; have h2 := h.mass; have h3 := h.length
  have hpi := Real.pi_pos
  have hn' : (0 : ℝ) < n := by exact_mod_cast hn
  have hq : 0 < s.EI / (s.mass * s.length ^ 4) := by positivity
  constructor
  · have := Real.sqrt_pos.mpr hq
    unfold ModalBeam.eig
    positivity
  · unfold ModalBeam.eig
    rw [mul_pow, Real.sq_sqrt hq.le]
    field_simp

theorem damped_sum (s : ModalBeam) (h : s.Valid) (c0 c1 x t : ℝ) :
    s.dampedAt c0 c1 x t = ∑ k ∈ Icc 1 (s.n - 1),
      stepResponse (s.force * sine s.length k s.loadAt / (s.mass * (s.length / 2))) (s.eig k) (s.qsi c0 c1 k) t *
        sine s.length k x := by
  unfold ModalBeam.dampedAt
  dsimp only
  rw [foldl_modes s.n (fun n => s.modeForce n / (s.eig n ^ 2 * (s.mass * s.length / 2)) *
        (1 - Real.exp (-s.qsi c0 c1 n * s.eig n * t) * (Real.cos (s.eig n * √(1 - s.qsi c0 c1 n ^ 2) * t) +
          s.qsi c0 c1 n / √(1 - s.qsi c0 c1 n ^ 2) * Real.sin (s.eig n * √(1 - s.qsi c0 c1 n ^ 2) * t))) * s.shape n x)]
  refine Finset.sum_congr rfl fun k hk => ?_
  have h2 := h.mass; have h3 := h.length
  have h4 := (modal_eig s h k (Finset.mem_Icc.mp hk).1).1
  rw [modal_force s h, modal_shape]
  unfold stepResponse
  congr 2
  field_simp

theorem undamped_sum (s : ModalBeam) (h : s.Valid) (x t : ℝ) : s.undampedAt x t = s.dampedAt 0 0 x t := by
  rw [damped_sum s h]
  unfold ModalBeam.undampedAt
  rw [foldl_modes s.n (fun n => s.modeForce n / (n : ℝ) ^ 4 * (1 - Real.cos (s.eig n * t)) * s.shape n x), Finset.mul_sum]
  refine Finset.sum_congr rfl fun k hk => ?_
  have h1 := h.EI; have h2 := h.mass; have h3 := h.length
  have hpi := Real.pi_pos
  have hk' : (0 : ℝ) < k := by exact_mod_cast (Finset.mem_Icc.mp hk).1
  rw [modal_force s h, modal_shape]
  unfold stepResponse
  rw [(modal_eig s h k (Finset.mem_Icc.mp hk).1).2]
  have hz : s.qsi 0 0 k = 0 := by simp [ModalBeam.qsi]
  rw [hz]
  simp only [ne_eq, OfNat.ofNat_ne_zero, not_false_eq_true, zero_pow, sub_zero, Real.sqrt_one, mul_one, neg_zero, zero_mul,
    Real.exp_zero, zero_div, add_zero, one_mul]
  field_simp

theorem damped_motion (s : ModalBeam) (h : s.Valid) (c0 c1 : ℝ) (hz : ∀ k, 1 ≤ k → k < s.n → |s.qsi c0 c1 k| < 1) :
    ModalMotion s.EI s.mass c0 c1 s.length s.force s.loadAt (s.n - 1) (s.dampedAt c0 c1) := by
  have h1 := h.EI; have h2 := h.mass; have h3 := h.length
  have hpi := Real.pi_pos
  set f : ℕ → ℝ := fun k => s.force * sine s.length k s.loadAt / (s.mass * (s.length / 2)) with hf
  have spec : ∀ k ∈ Icc 1 (s.n - 1), ∀ t, _ := fun k hk t => stepResponse_spec (f k) (s.eig k) (s.qsi c0 c1 k)
    (modal_eig s h k (Finset.mem_Icc.mp hk).1).1 (hz k (Finset.mem_Icc.mp hk).1 (by have := Finset.mem_Icc.mp hk; omega)) t
  refine ⟨fun k => if k ∈ Icc 1 (s.n - 1) then stepResponse (f k) (s.eig k) (s.qsi c0 c1 k) else fun _ => 0,
    fun k => if k ∈ Icc 1 (s.n - 1) then stepVelocity (f k) (s.eig k) (s.qsi c0 c1 k) else fun _ => 0,
    fun k => if k ∈ Icc 1 (s.n - 1) then stepAcceleration (f k) (s.eig k) (s.qsi c0 c1 k) else fun _ => 0, ?_, ?_, ?_, ?_⟩
  · intro k t
    by_cases hk : k ∈ Icc 1 (s.n - 1)
    · simp only [if_pos hk]
      exact ⟨(spec k hk t).1, (spec k hk t).2.1⟩
    · simp only [if_neg hk]
      exact ⟨hasDerivAt_const t 0, hasDerivAt_const t 0⟩
  · intro k
    by_cases hk : k ∈ Icc 1 (s.n - 1)
    · simp only [if_pos hk]
      exact ⟨(spec k hk 0).2.2.1, (spec k hk 0).2.2.2.1⟩
    · simp only [if_neg hk, and_self]
  · intro x t
    rw [damped_sum s h]
    refine Finset.sum_congr rfl fun k hk => ?_
    simp only [if_pos hk, hf]
  · intro t j hj
    rw [modal_equations s.EI s.mass c0 c1 s.length h3]
    · simp only [if_pos hj]
      have e := (spec j hj t).2.2.2.2
      obtain ⟨hw, hw2⟩ := modal_eig s h j (Finset.mem_Icc.mp hj).1
      have e2 : 2 * s.qsi c0 c1 j * s.eig j = c0 + c1 * s.eig j ^ 2 := by
        unfold ModalBeam.qsi
        field_simp
      rw [e2, hw2] at e
      have hmL : s.mass * (s.length / 2) ≠ 0 := by positivity
      have e3 : s.mass * (s.length / 2) * (s.EI / s.mass * (j * Real.pi / s.length) ^ 4) =
          s.EI * ((j * Real.pi / s.length) ^ 4 * (s.length / 2)) := by field_simp
      have e4 : s.mass * (s.length / 2) * f j = s.force * sine s.length j s.loadAt := by
        simp only [hf]
        field_simp
      linear_combination (s.mass * (s.length / 2)) * e + e4 + (-(c1 * stepVelocity (f j) (s.eig j) (s.qsi c0 c1 j) t) -
        stepResponse (f j) (s.eig j) (s.qsi c0 c1 j) t) * e3
    · exact hj

/-! ### Which load and how many shapes a motion belongs to -/

/-- A motion determines the force on each shape. -/
theorem modalMotion_forces (EI m a b L F xF F' xF' : ℝ) (hL : 0 < L) (N N' : ℕ) (u : ℝ → ℝ → ℝ)
    (hu : ModalMotion EI m a b L F xF N u) (hv : ModalMotion EI m a b L F' xF' N' u) (j : ℕ) (hj : 1 ≤ j) :
    (if j ≤ N then F * sine L j xF else 0) = if j ≤ N' then F' * sine L j xF' else 0 := by
  have amp : ∀ (q : ℕ → ℝ → ℝ) (N : ℕ), (∀ x t, u x t = ∑ k ∈ Icc 1 N, q k t * sine L k x) → ∀ t,
      ∫ x in (0 : ℝ)..L, 1 * u x t * sine L j x = if j ≤ N then q j t * (L / 2) else 0 := by
    intro q N h t
    simp only [h]
    have hsum : ∀ x, ∑ k ∈ Icc 1 N, q k t * sine L k x =
        ∑ k ∈ Icc 1 (max N j), (if k ≤ N then q k t else 0) * sine L k x := by
      intro x
      have hsub : Icc 1 N ⊆ Icc 1 (max N j) := Finset.Icc_subset_Icc_right (le_max_left _ _)
      rw [← Finset.sum_subset hsub]
      · refine Finset.sum_congr rfl fun k hk => ?_
        rw [if_pos (Finset.mem_Icc.mp hk).2]
      · intro k hk hk'
        have h1 := Finset.mem_Icc.mp hk
        rw [if_neg (fun h => hk' (Finset.mem_Icc.mpr ⟨h1.1, h⟩)), zero_mul]
    simp only [hsum]
    rw [mass_projection L hL (max N j) j (Finset.mem_Icc.mpr ⟨hj, le_max_right _ _⟩) 1 fun k => if k ≤ N then q k t else 0]
    split_ifs <;> ring
  obtain ⟨q, q', q'', q1, q2, q3, q4⟩ := hu
  obtain ⟨p, p', p'', p1, p2, p3, p4⟩ := hv
  have key : ∀ t, (if j ≤ N then q j t * (L / 2) else 0) = if j ≤ N' then p j t * (L / 2) else 0 := fun t => by
    rw [← amp q N q3 t, ← amp p N' p3 t]
  have hL2 : L / 2 ≠ 0 := by positivity
  have zero : ∀ (q q' q'' : ℕ → ℝ → ℝ), (∀ k t, HasDerivAt (q k) (q' k t) t ∧ HasDerivAt (q' k) (q'' k t) t) →
      (∀ t, q j t = 0) → ∀ t, q' j t = 0 ∧ q'' j t = 0 := by
    intro q q' q'' h1 h0
    have e1 : ∀ t, q' j t = 0 := fun t => by
      have e : q j = fun _ => 0 := funext h0
      have := (h1 j t).1
      rw [e] at this
      exact this.unique (hasDerivAt_const t 0)
    refine fun t => ⟨e1 t, ?_⟩
    have e : q' j = fun _ => 0 := funext e1
    have := (h1 j t).2
    rw [e] at this
    exact this.unique (hasDerivAt_const t 0)
  by_cases h1 : j ≤ N <;> by_cases h2 : j ≤ N'
  · simp only [h1, h2, if_true] at key ⊢
    have e1 := q4 0 j (Finset.mem_Icc.mpr ⟨hj, h1⟩)
    have e2 := p4 0 j (Finset.mem_Icc.mpr ⟨hj, h2⟩)
    rw [modal_equations EI m a b L hL N q q' q'' 0 j (Finset.mem_Icc.mpr ⟨hj, h1⟩)] at e1
    rw [modal_equations EI m a b L hL N' p p' p'' 0 j (Finset.mem_Icc.mpr ⟨hj, h2⟩)] at e2
    have d0 : ∀ t, q j t = p j t := fun t => mul_right_cancel₀ hL2 (key t)
    have d := zero (fun k t => q k t - p k t) (fun k t => q' k t - p' k t) (fun k t => q'' k t - p'' k t)
      (fun k t => ⟨(q1 k t).1.sub (p1 k t).1, (q1 k t).2.sub (p1 k t).2⟩) (fun t => by simp [d0 t]) 0
    rw [d0 0, sub_eq_zero.mp d.1, sub_eq_zero.mp d.2] at e1
    exact e1.symm.trans e2
  · simp only [h1, h2, if_true, if_false] at key ⊢
    have e1 := q4 0 j (Finset.mem_Icc.mpr ⟨hj, h1⟩)
    rw [modal_equations EI m a b L hL N q q' q'' 0 j (Finset.mem_Icc.mpr ⟨hj, h1⟩)] at e1
    have d0 : ∀ t, q j t = 0 := fun t => (mul_eq_zero.mp (key t)).resolve_right hL2
    have d := zero q q' q'' q1 d0 0
    rw [d0, d.1, d.2] at e1
    linarith
  · simp only [h1, h2, if_true, if_false] at key ⊢
    have e2 := p4 0 j (Finset.mem_Icc.mpr ⟨hj, h2⟩)
    rw [modal_equations EI m a b L hL N' p p' p'' 0 j (Finset.mem_Icc.mpr ⟨hj, h2⟩)] at e2
    have d0 : ∀ t, p j t = 0 := fun t => (mul_eq_zero.mp (key t).symm).resolve_right hL2
    have d := zero p p' p'' p1 d0 0
    rw [d0, d.1, d.2] at e2
    linarith
  · simp only [h1, h2, if_false]

/-- Only the forces on the shapes matter, and shapes without force do not move. -/
theorem modalMotion_congr (EI m a b L F xF F' xF' : ℝ) (hL : 0 < L) (N N' : ℕ) (hN : N ≤ N') (u : ℝ → ℝ → ℝ)
    (hu : ModalMotion EI m a b L F xF N u) (h : ∀ j, 1 ≤ j → j ≤ N → F * sine L j xF = F' * sine L j xF')
    (h' : ∀ j, N < j → j ≤ N' → F' * sine L j xF' = 0) : ModalMotion EI m a b L F' xF' N' u := by
  obtain ⟨q, q', q'', q1, q2, q3, q4⟩ := hu
  refine ⟨fun k t => if k ≤ N then q k t else 0, fun k t => if k ≤ N then q' k t else 0,
    fun k t => if k ≤ N then q'' k t else 0, fun k t => ?_, fun k => ?_, fun x t => ?_, fun t j hj => ?_⟩
  · by_cases hk : k ≤ N
    · simpa only [if_pos hk] using q1 k t
    · simp only [if_neg hk]
      exact ⟨hasDerivAt_const t 0, hasDerivAt_const t 0⟩
  · by_cases hk : k ≤ N
    · simpa only [if_pos hk] using q2 k
    · simp only [if_neg hk, and_self]
  · rw [q3, ← Finset.sum_subset (Finset.Icc_subset_Icc_right hN)]
    · refine Finset.sum_congr rfl fun k hk => ?_
      simp only [if_pos (Finset.mem_Icc.mp hk).2]
    · intro k hk hk'
      simp only [if_neg (fun h => hk' (Finset.mem_Icc.mpr ⟨(Finset.mem_Icc.mp hk).1, h⟩)), zero_mul]
  · rw [modal_equations EI m a b L hL N' (fun k t => if k ≤ N then q k t else 0) (fun k t => if k ≤ N then q' k t else 0)
      (fun k t => if k ≤ N then q'' k t else 0) t j hj]
    have h1 := Finset.mem_Icc.mp hj
    by_cases hk : j ≤ N
    · simp only [if_pos hk]
      rw [← h j h1.1 hk, ← q4 t j (Finset.mem_Icc.mpr ⟨h1.1, hk⟩),
        modal_equations EI m a b L hL N q q' q'' t j (Finset.mem_Icc.mpr ⟨h1.1, hk⟩)]
    · simp only [if_neg hk]
      rw [h' j (by omega) h1.2]
      ring

theorem loadAt_middle (s : ModalBeam) (h : s.Valid) :
    (Even ⌈s.length / s.eleSize⌉₊ → s.loadAt = s.length / 2) ∧
      (¬ Even ⌈s.length / s.eleSize⌉₊ → s.loadAt = s.length / 2 - s.length / ⌈s.length / s.eleSize⌉₊ / 2) := by
  have hpos := h.ceil_pos
  unfold ModalBeam.loadAt
  generalize ⌈s.length / s.eleSize⌉₊ = m at *
  have hm : (m : ℝ) ≠ 0 := by exact_mod_cast hpos.ne'
  constructor
  · rintro ⟨r, hr⟩
    have h2 : m / 2 = r := by omega
    have h3 : (m : ℝ) = r + r := by exact_mod_cast hr
    have hr0 : (r : ℝ) ≠ 0 := by
      intro h0
      rw [h0] at h3
      exact hm (by simpa using h3)
    rw [h2, h3]
    field_simp
    ring
  · intro ho
    obtain ⟨r, hr⟩ := Nat.not_even_iff_odd.mp ho
    have h2 : m / 2 = r := by omega
    have h3 : (m : ℝ) = 2 * r + 1 := by exact_mod_cast hr
    rw [h3] at hm
    rw [h2, h3]
    field_simp
    ring

theorem sine_middle (L : ℝ) (hL : 0 < L) (n : ℕ) : sine L n (L / 2) = 0 ↔ Even n := by
  unfold sine
  have e : (n : ℝ) * Real.pi * (L / 2) / L = n * Real.pi / 2 := by field_simp
  rw [e, Real.sin_eq_zero_iff]
  have hpi := Real.pi_pos.ne'
  constructor
  · rintro ⟨k, hk⟩
    have h1 : (n : ℝ) = ((2 * k : ℤ) : ℝ) := by
      push_cast
      field_simp at hk
      linarith
    have h2 : (n : ℤ) = 2 * k := by exact_mod_cast h1
    have h3 : Even (n : ℤ) := ⟨k, by omega⟩
    exact_mod_cast h3
  · rintro ⟨r, rfl⟩
    exact ⟨r, by push_cast; ring⟩

theorem damped_iff (s : ModalBeam) (h : s.Valid) (c0 c1 : ℝ) (hz : ∀ k, 1 ≤ k → k < s.n → |s.qsi c0 c1 k| < 1) :
    ModalMotion s.EI s.mass c0 c1 s.length s.force (s.length / 2) s.n (s.dampedAt c0 c1) ↔
      s.force = 0 ∨ s.n = 0 ∨ (Even s.n ∧ Even ⌈s.length / s.eleSize⌉₊) := by
  have hu := damped_motion s h c0 c1 hz
  have hL := h.length
  constructor
  · intro hv
    by_contra hne
    push Not at hne
    obtain ⟨hF, hn0, hev⟩ := hne
    have hf := modalMotion_forces s.EI s.mass c0 c1 s.length s.force s.loadAt s.force (s.length / 2) hL _ _ _ hu hv
    have hn := hf s.n (by omega)
    rw [if_neg (by omega), if_pos le_rfl] at hn
    have hen : Even s.n := (sine_middle s.length hL s.n).mp ((mul_eq_zero.mp hn.symm).resolve_left hF)
    have h1 := hf 1 le_rfl
    rw [if_pos (by have := hen.two_dvd; omega), if_pos (by omega)] at h1
    have h2 := mul_left_cancel₀ hF h1
    have hodd := (loadAt_middle s h).2 (hev hen)
    have e2 : sine s.length 1 (s.length / 2) = 1 := by
      unfold sine
      rw [show ((1 : ℕ) : ℝ) * Real.pi * (s.length / 2) / s.length = Real.pi / 2 by field_simp; norm_num]
      exact Real.sin_pi_div_two
    rw [e2, hodd] at h2
    have hm : (1 : ℝ) ≤ ⌈s.length / s.eleSize⌉₊ := by exact_mod_cast h.ceil_pos
    have hpi := Real.pi_pos
    unfold sine at h2
    generalize (⌈s.length / s.eleSize⌉₊ : ℝ) = m at *
    have e3 : ((1 : ℕ) : ℝ) * Real.pi * (s.length / 2 - s.length / m / 2) / s.length = Real.pi / 2 - Real.pi / (2 * m) := by
      field_simp
      norm_num
    rw [e3] at h2
    have h4 : Real.pi / (2 * m) ≤ Real.pi / 2 := by
      apply div_le_div_of_nonneg_left hpi.le (by norm_num) (by linarith)
    have h5 : 0 < Real.pi / (2 * m) := by positivity
    have := Real.sin_lt_sin_of_lt_of_le_pi_div_two (x := Real.pi / 2 - Real.pi / (2 * m)) (y := Real.pi / 2)
      (by linarith) le_rfl (by linarith)
    rw [h2, Real.sin_pi_div_two] at this
    exact lt_irrefl _ this
  · rintro (hF | hn | ⟨hn, hm⟩)
    · refine modalMotion_congr _ _ _ _ _ _ _ _ _ hL _ _ (Nat.sub_le _ _) _ hu (fun j _ _ => ?_) (fun j _ _ => ?_) <;> simp [hF]
    · refine modalMotion_congr _ _ _ _ _ _ _ _ _ hL _ _ (Nat.sub_le _ _) _ hu (fun j _ _ => ?_) (fun j _ _ => ?_) <;> omega
    · refine modalMotion_congr _ _ _ _ _ _ _ _ _ hL _ _ (Nat.sub_le _ _) _ hu (fun j _ _ => ?_) (fun j h1 h2 => ?_)
      · rw [(loadAt_middle s h).1 hm]
      · obtain rfl : j = s.n := by omega
        rw [(sine_middle s.length hL s.n).mpr hn, mul_zero]

/-! ### C147 -/

/-- **C147** The result without damping is the motion of the beam in its first `n - 1` shapes under a load at the node in the
middle, or at the left one of the two nodes in the middle; there is one such motion. Missing: `n` shapes and the load at
midspan, see `C147_iff`. -/
theorem C147_motion_partial (s : ModalBeam) (h : s.Valid) (time : List ℝ) :
    ∃ u, ModalMotion s.EI s.mass 0 0 s.length s.force s.loadAt (s.n - 1) u ∧
      (∀ v, ModalMotion s.EI s.mass 0 0 s.length s.force s.loadAt (s.n - 1) v → ∀ x t, 0 ≤ t → v x t = u x t) ∧
      s.undamped time = s.x.map fun x => time.map fun t => u x t := by
  have hz : ∀ k, 1 ≤ k → k < s.n → |s.qsi 0 0 k| < 1 := fun k _ _ => by simp [ModalBeam.qsi]
  have hu := damped_motion s h 0 0 hz
  refine ⟨_, hu, fun v hv x t ht => modalMotion_unique _ _ _ _ _ _ _ h.EI h.mass le_rfl le_rfl h.length _ _ _ hv hu x t ht, ?_⟩
  unfold ModalBeam.undamped
  refine List.map_congr_left fun x _ => List.map_congr_left fun t _ => undamped_sum s h x t

/-- **C147** The result without damping is the motion in the first `n` shapes, as the parameter `n` says, under a load at
midspan, exactly if there is no load, no shape, or both `n` and the number of elements are even. -/
theorem C147_iff (s : ModalBeam) (h : s.Valid) :
    ModalMotion s.EI s.mass 0 0 s.length s.force (s.length / 2) s.n s.undampedAt ↔
      s.force = 0 ∨ s.n = 0 ∨ (Even s.n ∧ Even ⌈s.length / s.eleSize⌉₊) := by
  have e : s.undampedAt = s.dampedAt 0 0 := by
    funext x t
    exact undamped_sum s h x t
  rw [e]
  exact damped_iff s h 0 0 fun k _ _ => by simp [ModalBeam.qsi]

/-- A beam of 10 m in 5 elements, one mode. -/
noncomputable def exampleModal : ModalBeam := { n := 1, eleSize := 2, EI := 1, mass := 1, length := 10, force := 1 }

theorem exampleModal_valid : exampleModal.Valid := by constructor <;> norm_num [exampleModal]

/-- C147 fails for one mode: the result is zero although the beam is loaded. -/
theorem C147_violated : exampleModal.Valid ∧ (∀ x t, exampleModal.undampedAt x t = 0) ∧
    ¬ ModalMotion exampleModal.EI exampleModal.mass 0 0 exampleModal.length exampleModal.force (exampleModal.length / 2)
      exampleModal.n exampleModal.undampedAt := by
  refine ⟨exampleModal_valid, fun x t => by simp [ModalBeam.undampedAt, exampleModal], ?_⟩
  rw [C147_iff _ exampleModal_valid]
  norm_num [exampleModal]

/-- The values of the class by default, 100 modes, for the beam of the benchmark in elements of 0.1 m. -/
example : ModalMotion 1 1 0 0 10 1 (10 / 2) 100
    (ModalBeam.undampedAt { n := 100, eleSize := 1 / 10, EI := 1, mass := 1, length := 10, force := 1 }) := by
  have h := C147_iff { n := 100, eleSize := 1 / 10, EI := 1, mass := 1, length := 10, force := 1 }
    (by constructor <;> norm_num)
  refine h.mpr (Or.inr (Or.inr ⟨⟨50, rfl⟩, ?_⟩))
  have : ⌈((10 : ℝ)) / (1 / 10)⌉₊ = 100 := by
    rw [show (10 : ℝ) / (1 / 10) = (100 : ℕ) by norm_num, Nat.ceil_natCast]
  rw [this]
  exact ⟨50, rfl⟩

/-! ### C148 -/

/-- **C148** The result with damping is the motion of the beam in its first `n - 1` shapes under a load at the node in the
middle (or at the left one of the two), with the given multiples of mass and stiffness as damping, if no used shape is
damped critically; there is one such motion. Missing: shapes with critical damping or more, for which the code has no
result (`C148_overdamped_violated`), and see `C148_iff`. -/
theorem C148_motion_partial (s : ModalBeam) (h : s.Valid) (c0 c1 : ℝ) (h0 : 0 ≤ c0) (h1 : 0 ≤ c1)
    (hz : ∀ k, 1 ≤ k → k < s.n → |s.qsi c0 c1 k| < 1) (time : List ℝ) :
    ∃ u, ModalMotion s.EI s.mass c0 c1 s.length s.force s.loadAt (s.n - 1) u ∧
      (∀ v, ModalMotion s.EI s.mass c0 c1 s.length s.force s.loadAt (s.n - 1) v → ∀ x t, 0 ≤ t → v x t = u x t) ∧
      s.damped c0 c1 time = s.x.map fun x => time.map fun t => u x t :=
  ⟨_, damped_motion s h c0 c1 hz, fun _ hv x t ht =>
    modalMotion_unique _ _ _ _ _ _ _ h.EI h.mass h0 h1 h.length _ _ _ hv (damped_motion s h c0 c1 hz) x t ht, rfl⟩

/-- **C148** It is the motion in the first `n` shapes under a load at midspan exactly if there is no load, no shape, or both `n`
and the number of elements are even. -/
theorem C148_iff (s : ModalBeam) (h : s.Valid) (c0 c1 : ℝ) (hz : ∀ k, 1 ≤ k → k < s.n → |s.qsi c0 c1 k| < 1) :
    ModalMotion s.EI s.mass c0 c1 s.length s.force (s.length / 2) s.n (s.dampedAt c0 c1) ↔
      s.force = 0 ∨ s.n = 0 ∨ (Even s.n ∧ Even ⌈s.length / s.eleSize⌉₊) := damped_iff s h c0 c1 hz

/-- **C148** With any stiffness damping there is a number of modes from which on the code takes the square root of a negative
number. -/
theorem C148_overdamped_violated (s : ModalBeam) (h : s.Valid) (c0 c1 : ℝ) (h0 : 0 ≤ c0) (h1 : 0 < c1) :
    ∃ N, ∀ n ≥ N, 1 - s.qsi c0 c1 n ^ 2 < 0 := by
  obtain ⟨hw, -⟩ := modal_eig s h 1 le_rfl
  obtain ⟨N, hN⟩ := exists_nat_gt (2 / (c1 * s.eig 1))
  refine ⟨N + 1, fun n hn => ?_⟩
  have hn1 : (1 : ℝ) ≤ n := by exact_mod_cast (show 1 ≤ n by omega)
  have hnN : (N : ℝ) < n := by exact_mod_cast (show N < n by omega)
  have he : s.eig n = (n : ℝ) ^ 2 * s.eig 1 := by unfold ModalBeam.eig; push_cast; ring
  have hwn : 0 < s.eig n := (modal_eig s h n (by omega)).1
  have hq : 1 < s.qsi c0 c1 n := by
    unfold ModalBeam.qsi
    have p1 : 0 ≤ c0 / (2 * s.eig n) := by positivity
    have p2 : 2 < c1 * s.eig n := by
      rw [he]
      have p3 : 2 / (c1 * s.eig 1) < (n : ℝ) ^ 2 := by nlinarith
      rw [div_lt_iff₀ (by positivity)] at p3
      linarith
    linarith
  nlinarith

/-- A beam with damping by its mass and by its stiffness, in two modes of which the first one is used. -/
example : ModalMotion 1 1 1 (1 / 100) 1 1 (1 / 2) 2
    (ModalBeam.dampedAt { n := 2, eleSize := 1 / 2, EI := 1, mass := 1, length := 1, force := 1 } 1 (1 / 100)) := by
  have h := C148_iff { n := 2, eleSize := 1 / 2, EI := 1, mass := 1, length := 1, force := 1 }
    (by constructor <;> norm_num) 1 (1 / 100) (by
      intro k h1 h2
      obtain rfl : k = 1 := by
        have : k < 2 := h2
        omega
      have e : ModalBeam.eig { n := 2, eleSize := 1 / 2, EI := 1, mass := 1, length := 1, force := 1 } 1 = Real.pi ^ 2 := by
        simp [ModalBeam.eig]
      unfold ModalBeam.qsi
      rw [e]
      have p3 := Real.pi_gt_three
      have p4 := Real.pi_lt_four
      have q1 : 9 ≤ Real.pi ^ 2 := by nlinarith
      have q2 : Real.pi ^ 2 ≤ 16 := by nlinarith
      have q3 : 1 / (2 * Real.pi ^ 2) ≤ 1 / 18 := one_div_le_one_div_of_le (by norm_num) (by linarith)
      have q4 : 0 ≤ 1 / (2 * Real.pi ^ 2) := by positivity
      rw [abs_lt]
      constructor <;> linarith)
  refine h.mpr (Or.inr (Or.inr ⟨⟨1, rfl⟩, ?_⟩))
  have : ⌈((1 : ℝ)) / (1 / 2)⌉₊ = 2 := by
    rw [show (1 : ℝ) / (1 / 2) = (2 : ℕ) by norm_num, Nat.ceil_natCast]
  rw [this]
  exact ⟨1, rfl⟩

end Rose
