/-
C149: the modal solution of a Timoshenko beam on two supports.
-/
import Verif.Model.AnalyticalTimoshenko
import Verif.Spec.TimoshenkoModes
import Verif.Props.AnalyticalModes
import Mathlib.NumberTheory.ZetaValues
import Mathlib.Analysis.Real.Pi.Bounds

set_option linter.unusedSectionVars false

namespace Rose
open Finset Spec

theorem cosine_orthogonal (L : ℝ) (hL : 0 < L) (j k : ℕ) (hj : 1 ≤ j) (hk : 1 ≤ k) :
    ∫ x in (0 : ℝ)..L, cosine L k x * cosine L j x = if k = j then L / 2 else 0 := by
  have e : ∀ x, cosine L k x * cosine L j x =
      1 / 2 * Real.cos (((k : ℤ) - (j : ℤ) : ℤ) * Real.pi / L * x) + 1 / 2 * Real.cos (((k : ℤ) + (j : ℤ) : ℤ) * Real.pi / L * x) := by
    intro x
    unfold cosine
    have h1 : (((k : ℤ) - (j : ℤ) : ℤ) : ℝ) * Real.pi / L * x = k * Real.pi * x / L - j * Real.pi * x / L := by
      push_cast; ring
    have h2 : (((k : ℤ) + (j : ℤ) : ℤ) : ℝ) * Real.pi / L * x = k * Real.pi * x / L + j * Real.pi * x / L := by
      push_cast; ring
    rw [h1, h2, Real.cos_sub, Real.cos_add]
    ring
  simp only [e]
  rw [intervalIntegral.integral_add (Continuous.intervalIntegrable (by fun_prop) _ _)
    (Continuous.intervalIntegrable (by fun_prop) _ _), intervalIntegral.integral_const_mul, intervalIntegral.integral_const_mul,
    integral_cos_pi L hL ((k : ℤ) + j) (by omega)]
  split_ifs with h
  · subst h
    simp
    ring
  · rw [integral_cos_pi L hL ((k : ℤ) - j) (by omega)]
    ring

theorem cosine_projection (L : ℝ) (hL : 0 < L) (N j : ℕ) (hj : j ∈ Icc 1 N) (c : ℝ) (p : ℕ → ℝ) :
    ∫ x in (0 : ℝ)..L, c * (∑ k ∈ Icc 1 N, p k * cosine L k x) * cosine L j x = c * p j * (L / 2) := by
  have hcont : ∀ k, Continuous (cosine L k) := fun k => by unfold cosine; fun_prop
  have e : ∀ x, c * (∑ k ∈ Icc 1 N, p k * cosine L k x) * cosine L j x =
      ∑ k ∈ Icc 1 N, c * p k * (cosine L k x * cosine L j x) := by
    intro x
    rw [Finset.mul_sum, Finset.sum_mul]
    exact Finset.sum_congr rfl fun k _ => by ring
  simp only [e]
  have hint : ∀ k ∈ Icc 1 N, IntervalIntegrable (fun x => c * p k * (cosine L k x * cosine L j x)) MeasureTheory.volume 0 L :=
    fun k _ => Continuous.intervalIntegrable (continuous_const.mul ((hcont k).mul (hcont j))) _ _
  rw [intervalIntegral.integral_finsetSum hint]
  rw [Finset.sum_eq_single_of_mem j hj]
  · rw [intervalIntegral.integral_const_mul, cosine_orthogonal L hL j j (Finset.mem_Icc.mp hj).1 (Finset.mem_Icc.mp hj).1, if_pos rfl]
  · intro k hk hkj
    rw [intervalIntegral.integral_const_mul, cosine_orthogonal L hL j k (Finset.mem_Icc.mp hj).1 (Finset.mem_Icc.mp hk).1, if_neg hkj,
      mul_zero]

/-- The two equations of a shape. -/
theorem timoshenko_equations (EI S m J L : ℝ) (hL : 0 < L) (N : ℕ) (q q'' p p'' : ℕ → ℝ → ℝ) (t : ℝ) (j : ℕ) (hj : j ∈ Icc 1 N) :
    ((∫ x in (0 : ℝ)..L, m * (∑ k ∈ Icc 1 N, q'' k t * sine L k x) * sine L j x) +
        (∫ x in (0 : ℝ)..L, S * (∑ k ∈ Icc 1 N, (q k t * (k * Real.pi / L) - p k t) * cosine L k x) *
          (j * Real.pi / L * cosine L j x)) =
      (m * q'' j t + S * (j * Real.pi / L) * (q j t * (j * Real.pi / L) - p j t)) * (L / 2)) ∧
    ((∫ x in (0 : ℝ)..L, J * (∑ k ∈ Icc 1 N, p'' k t * cosine L k x) * cosine L j x) +
        (∫ x in (0 : ℝ)..L, EI * (∑ k ∈ Icc 1 N, p k t * (-(k * Real.pi / L) * sine L k x)) *
          (-(j * Real.pi / L) * sine L j x)) +
        (∫ x in (0 : ℝ)..L, S * (∑ k ∈ Icc 1 N, (q k t * (k * Real.pi / L) - p k t) * cosine L k x) * (-cosine L j x)) =
      (J * p'' j t + EI * (j * Real.pi / L) ^ 2 * p j t - S * (q j t * (j * Real.pi / L) - p j t)) * (L / 2)) := by
  have i1 := mass_projection L hL N j hj m fun k => q'' k t
  have i2 := cosine_projection L hL N j hj (S * (j * Real.pi / L)) fun k => q k t * (k * Real.pi / L) - p k t
  have i3 := cosine_projection L hL N j hj J fun k => p'' k t
  have i4 := mass_projection L hL N j hj (EI * (j * Real.pi / L)) fun k => p k t * (k * Real.pi / L)
  have i5 := cosine_projection L hL N j hj (-S) fun k => q k t * (k * Real.pi / L) - p k t
  constructor
  · rw [i1, show (∫ x in (0 : ℝ)..L, S * (∑ k ∈ Icc 1 N, (q k t * (k * Real.pi / L) - p k t) * cosine L k x) *
        (j * Real.pi / L * cosine L j x)) = ∫ x in (0 : ℝ)..L, S * (j * Real.pi / L) *
        (∑ k ∈ Icc 1 N, (q k t * (k * Real.pi / L) - p k t) * cosine L k x) * cosine L j x from
        intervalIntegral.integral_congr fun x _ => by ring, i2]
    ring
  · rw [i3, show (∫ x in (0 : ℝ)..L, EI * (∑ k ∈ Icc 1 N, p k t * (-(k * Real.pi / L) * sine L k x)) *
        (-(j * Real.pi / L) * sine L j x)) = ∫ x in (0 : ℝ)..L, EI * (j * Real.pi / L) *
        (∑ k ∈ Icc 1 N, p k t * (k * Real.pi / L) * sine L k x) * sine L j x from
        intervalIntegral.integral_congr fun x _ => by
          have : ∑ k ∈ Icc 1 N, p k t * (-(k * Real.pi / L) * sine L k x) = -∑ k ∈ Icc 1 N, p k t * (k * Real.pi / L) * sine L k x := by
            rw [← Finset.sum_neg_distrib]
            exact Finset.sum_congr rfl fun k _ => by ring
          simp only [this]
          ring, i4,
      show (∫ x in (0 : ℝ)..L, S * (∑ k ∈ Icc 1 N, (q k t * (k * Real.pi / L) - p k t) * cosine L k x) * (-cosine L j x)) =
        ∫ x in (0 : ℝ)..L, -S * (∑ k ∈ Icc 1 N, (q k t * (k * Real.pi / L) - p k t) * cosine L k x) * cosine L j x from
        intervalIntegral.integral_congr fun x _ => by ring, i5]
    ring

/-! ### The code -/

/-- Positive parameters. -/
structure TimoshenkoModal.Valid (s : TimoshenkoModal) : Prop where
  E : 0 < s.E
  G : 0 < s.G
  k : 0 < s.k
  I : 0 < s.I
  rho : 0 < s.rho
  A : 0 < s.A
  length : 0 < s.length
  eleSize : 0 < s.eleSize

theorem TimoshenkoModal.Valid.euler {s : TimoshenkoModal} (h : s.Valid) : s.euler.Valid :=
  ⟨mul_pos h.E h.I, mul_pos h.rho h.A, h.length, h.eleSize⟩

theorem timoshenko_sum (s : TimoshenkoModal) (h : s.Valid) (root : ℕ → ℝ) (x t : ℝ) :
    s.uAt root x t = ∑ k ∈ Icc 1 (s.n - 1), (2 * s.length ^ 3 * (1 + s.phi) / (Real.pi ^ 4 * (s.E * s.I)) *
      (s.force * sine s.length k s.euler.loadAt / (k : ℝ) ^ 4) * (1 - Real.cos (s.eig root k * t))) * sine s.length k x := by
  unfold TimoshenkoModal.uAt
  rw [foldl_modes s.n (fun n => s.euler.modeForce n / (n : ℝ) ^ 4 * (1 - Real.cos (s.eig root n * t)) * s.euler.shape n x),
    Finset.mul_sum]
  refine Finset.sum_congr rfl fun k _ => ?_
  rw [modal_force s.euler h.euler, modal_shape]
  show 2 * s.length ^ 3 * (1 + s.phi) / (Real.pi ^ 4 * (s.E * s.I)) * (s.force * sine s.length k s.euler.loadAt / (k : ℝ) ^ 4 *
    (1 - Real.cos (s.eig root k * t)) * sine s.length k x) = _
  ring

/-- **C149** The reported velocity is the time derivative of the reported displacement. -/
theorem C149_velocity (s : TimoshenkoModal) (root : ℕ → ℝ) (x t : ℝ) : HasDerivAt (fun t => s.uAt root x t) (s.vAt root x t) t := by
  unfold TimoshenkoModal.uAt TimoshenkoModal.vAt
  refine HasDerivAt.const_mul _ ?_
  have h1 : ∀ t, (List.range' 1 (s.n - 1)).foldl (fun aux n => aux + s.euler.modeForce n / (n : ℝ) ^ 4 *
      (1 - Real.cos (s.eig root n * t)) * s.euler.shape n x) 0 = ∑ n ∈ Icc 1 (s.n - 1), s.euler.modeForce n / (n : ℝ) ^ 4 *
      (1 - Real.cos (s.eig root n * t)) * s.euler.shape n x := fun t => foldl_modes s.n _
  have h2 : (List.range' 1 (s.n - 1)).foldl (fun aux n => aux + s.euler.modeForce n / (n : ℝ) ^ 4 * s.eig root n *
      Real.sin (s.eig root n * t) * s.euler.shape n x) 0 = ∑ n ∈ Icc 1 (s.n - 1), s.euler.modeForce n / (n : ℝ) ^ 4 *
      s.eig root n * Real.sin (s.eig root n * t) * s.euler.shape n x := foldl_modes s.n _
  simp only [h1]
  rw [h2]
  refine HasDerivAt.fun_sum fun n _ => ?_
  have hl : HasDerivAt (fun t : ℝ => s.eig root n * t) (s.eig root n * 1) t := (hasDerivAt_id t).const_mul _
  refine (((hl.cos.const_sub 1).const_mul (s.euler.modeForce n / (n : ℝ) ^ 4)).mul_const (s.euler.shape n x)).congr_deriv ?_
  ring

/-- **C149** The roots that the code looks for are the frequencies of Timoshenko's theory: for every ratio `omega`,
`find_omega` is zero exactly if `omega` times the frequency of the Euler beam is a frequency of free vibration of the mode. -/
theorem C149_frequency (s : TimoshenkoModal) (h : s.Valid) (omega : ℝ) (j : ℕ) (hj : 1 ≤ j) :
    s.findOmega omega j = 0 ↔ TimoshenkoFrequency (s.E * s.I) (s.k * s.G * s.A) (s.rho * s.A) (s.rho * s.I) s.length j
      (omega * s.euler.eig j) := by
  have h1 := h.E; have h2 := h.G; have h3 := h.k; have h4 := h.I; have h5 := h.rho; have h6 := h.A; have h7 := h.length
  have hj' : (0 : ℝ) < j := by exact_mod_cast hj
  have hpi := Real.pi_pos
  have hr : s.r ^ 2 = s.I / s.A := Real.sq_sqrt (div_nonneg h4.le h6.le)
  have hw : s.euler.eig j ^ 2 = s.E * s.I / (s.rho * s.A) * (j * Real.pi / s.length) ^ 4 := (modal_eig s.euler h.euler j hj).2
  set κ := (j : ℝ) * Real.pi / s.length with hκ
  have hκ0 : 0 < κ := by positivity
  set S := s.k * s.G * s.A with hS
  have hS0 : 0 < S := by positivity
  set W := (omega * s.euler.eig j) ^ 2 with hW
  have hWe : W = omega ^ 2 * (s.E * s.I / (s.rho * s.A) * κ ^ 4) := by rw [hW, mul_pow, hw]
  have det : s.findOmega omega j * (S * (s.E * s.I) * κ ^ 4) =
      (S * κ ^ 2 - s.rho * s.A * W) * (s.E * s.I * κ ^ 2 + S - s.rho * s.I * W) - S ^ 2 * κ ^ 2 := by
    unfold TimoshenkoModal.findOmega
    have e1 : (j * Real.pi * s.r / s.length) ^ 2 = κ ^ 2 * (s.I / s.A) := by
      rw [← hr, hκ]; ring
    have e2 : (j * Real.pi * s.r / s.length) ^ 4 = (κ ^ 2 * (s.I / s.A)) ^ 2 := by
      rw [← e1]; ring
    rw [e1, e2, hWe, hS]
    field_simp
    ring
  have hd : 0 < S * (s.E * s.I) * κ ^ 4 := by positivity
  have hiff : s.findOmega omega j = 0 ↔
      (S * κ ^ 2 - s.rho * s.A * W) * (s.E * s.I * κ ^ 2 + S - s.rho * s.I * W) - S ^ 2 * κ ^ 2 = 0 := by
    rw [← det, mul_eq_zero, or_iff_left hd.ne']
  rw [hiff]
  constructor
  · intro hz
    refine ⟨S * κ, S * κ ^ 2 - s.rho * s.A * W, Or.inl (by positivity), ?_, ?_⟩
    · rw [← hW]; ring
    · rw [← hW]
      linear_combination hz
  · rintro ⟨a, b, hab, e1, e2⟩
    rw [← hW] at e1 e2
    have d1 : ((S * κ ^ 2 - s.rho * s.A * W) * (s.E * s.I * κ ^ 2 + S - s.rho * s.I * W) - S ^ 2 * κ ^ 2) * a = 0 := by
      linear_combination (s.E * s.I * κ ^ 2 + S - s.rho * s.I * W) * e1 + (S * κ) * e2
    have d2 : ((S * κ ^ 2 - s.rho * s.A * W) * (s.E * s.I * κ ^ 2 + S - s.rho * s.I * W) - S ^ 2 * κ ^ 2) * b = 0 := by
      linear_combination (S * κ) * e1 + (S * κ ^ 2 - s.rho * s.A * W) * e2
    rcases hab with ha | hb
    · exact (mul_eq_zero.mp d1).resolve_right ha
    · exact (mul_eq_zero.mp d2).resolve_right hb

/-! ### The amplitudes -/

theorem sine_amplitude (L : ℝ) (hL : 0 < L) (N : ℕ) (q p : ℕ → ℝ) (h : ∀ x, ∑ k ∈ Icc 1 N, q k * sine L k x = ∑ k ∈ Icc 1 N, p k * sine L k x)
    (j : ℕ) (hj : j ∈ Icc 1 N) : q j = p j := by
  have h1 := mass_projection L hL N j hj 1 q
  have h2 := mass_projection L hL N j hj 1 p
  simp only [h] at h1
  rw [h2] at h1
  have hL2 : L / 2 ≠ 0 := by positivity
  have := mul_right_cancel₀ hL2 h1
  linarith

/-- **C149** The result is never the motion of a Timoshenko beam, neither with the `n - 1` used shapes nor with any other values
of the roots: for every beam with positive parameters in at least two elements, every load and at least one used mode. The
factor `1 + phi` of all modes is the one of the static deflection at midspan; in a single mode `j` it has to be
`1 + phi * (j π) ^ 2 / 12`. -/
theorem C149_violated (s : TimoshenkoModal) (h : s.Valid) (hn : 2 ≤ s.n) (hF : s.force ≠ 0)
    (hm : 2 ≤ ⌈s.length / s.eleSize⌉₊) (root : ℕ → ℝ) (hroot : ∀ k, s.findOmega (root k) k = 0) :
    ¬ TimoshenkoMotion (s.E * s.I) (s.k * s.G * s.A) (s.rho * s.A) (s.rho * s.I) s.length s.force s.euler.loadAt (s.n - 1)
      (s.uAt root) := by
  rintro ⟨q, q', q'', p, p', p'', hq, hp, h0, hu, heq⟩
  have h1 := h.E; have h2 := h.G; have h3 := h.k; have h4 := h.I; have h5 := h.rho; have h6 := h.A; have h7 := h.length
  have hpi := Real.pi_pos
  have hj : 1 ∈ Icc 1 (s.n - 1) := Finset.mem_Icc.mpr ⟨le_rfl, by omega⟩
  set f := s.force * sine s.length 1 s.euler.loadAt with hf
  set A := 2 * s.length ^ 3 * (1 + s.phi) / (Real.pi ^ 4 * (s.E * s.I)) * f with hA
  set w := s.eig root 1 with hw
  have hf0 : f ≠ 0 := by
    refine mul_ne_zero hF ?_
    have hmR : (2 : ℝ) ≤ ⌈s.length / s.eleSize⌉₊ := by exact_mod_cast hm
    have hl : 0 < s.euler.loadAt ∧ s.euler.loadAt < s.length := by
      unfold ModalBeam.loadAt
      show 0 < ((⌈s.length / s.eleSize⌉₊ / 2 : ℕ) : ℝ) * (s.length / ⌈s.length / s.eleSize⌉₊) ∧
        ((⌈s.length / s.eleSize⌉₊ / 2 : ℕ) : ℝ) * (s.length / ⌈s.length / s.eleSize⌉₊) < s.length
      generalize ⌈s.length / s.eleSize⌉₊ = m at *
      have a1 : (0 : ℝ) < ((m / 2 : ℕ) : ℝ) := by exact_mod_cast (show 0 < m / 2 by omega)
      have a2 : ((m / 2 : ℕ) : ℝ) < m := by exact_mod_cast (show m / 2 < m by omega)
      constructor
      · positivity
      · rw [← mul_div_assoc, div_lt_iff₀ (by positivity)]
        nlinarith
    unfold sine
    refine (Real.sin_pos_of_pos_of_lt_pi ?_ ?_).ne'
    · have := hl.1
      positivity
    · rw [div_lt_iff₀ h7]
      push_cast
      nlinarith [hl.2]
  have hw0 : w ≠ 0 := by
    refine mul_ne_zero ?_ (modal_eig s.euler h.euler 1 le_rfl).1.ne'
    intro hr
    have := hroot 1
    rw [hr] at this
    norm_num [TimoshenkoModal.findOmega] at this
  have hq1 : ∀ t, q 1 t = A * (1 - Real.cos (w * t)) := by
    intro t
    have := sine_amplitude s.length h7 (s.n - 1) (fun k => q k t) (fun k => 2 * s.length ^ 3 * (1 + s.phi) /
      (Real.pi ^ 4 * (s.E * s.I)) * (s.force * sine s.length k s.euler.loadAt / (k : ℝ) ^ 4) * (1 - Real.cos (s.eig root k * t)))
      (fun x => by rw [← hu, timoshenko_sum s h]) 1 hj
    rw [this, hA, hf, hw]
    push_cast
    ring
  have lin : ∀ t, HasDerivAt (fun t : ℝ => w * t) (w * 1) t := fun t => (hasDerivAt_id t).const_mul w
  have hq1' : ∀ t, q' 1 t = A * (w * Real.sin (w * t)) := by
    intro t
    have e : q 1 = fun t => A * (1 - Real.cos (w * t)) := funext hq1
    have d := (hq 1 t).1
    rw [e] at d
    refine d.unique ((((lin t).cos.const_sub 1).const_mul A).congr_deriv ?_)
    ring
  have hq1'' : ∀ t, q'' 1 t = A * (w ^ 2 * Real.cos (w * t)) := by
    intro t
    have e : q' 1 = fun t => A * (w * Real.sin (w * t)) := funext hq1'
    have d := (hq 1 t).2
    rw [e] at d
    refine d.unique ((((lin t).sin.const_mul w).const_mul A).congr_deriv ?_)
    ring
  set κ := Real.pi / s.length with hκ
  have hκ0 : 0 < κ := by positivity
  have hκ1 : ((1 : ℕ) : ℝ) * Real.pi / s.length = κ := by push_cast; rw [one_mul]
  set S := s.k * s.G * s.A with hS
  have hS0 : 0 < S := by positivity
  have e1 : ∀ t, s.rho * s.A * (A * (w ^ 2 * Real.cos (w * t))) + S * κ * (A * (1 - Real.cos (w * t)) * κ - p 1 t) =
      f * (2 / s.length) := by
    intro t
    have e := (heq t 1 hj).1
    rw [(timoshenko_equations (s.E * s.I) S (s.rho * s.A) (s.rho * s.I) s.length h7 (s.n - 1) q q'' p p'' t 1 hj).1, hκ1, hq1,
      hq1''] at e
    rw [hf, ← e]
    field_simp
  have e2 : ∀ t, s.rho * s.I * p'' 1 t + s.E * s.I * κ ^ 2 * p 1 t - S * (A * (1 - Real.cos (w * t)) * κ - p 1 t) = 0 := by
    intro t
    have e := (heq t 1 hj).2
    rw [(timoshenko_equations (s.E * s.I) S (s.rho * s.A) (s.rho * s.I) s.length h7 (s.n - 1) q q'' p p'' t 1 hj).2, hκ1, hq1] at e
    have hL2 : s.length / 2 ≠ 0 := by positivity
    exact (mul_eq_zero.mp e).resolve_right hL2
  set P1 := (s.rho * s.A * (A * w ^ 2) - S * κ ^ 2 * A) / (S * κ) with hP1
  set P0 := (S * κ ^ 2 * A - f * (2 / s.length)) / (S * κ) with hP0
  have hp1 : ∀ t, p 1 t = P0 + P1 * Real.cos (w * t) := by
    intro t
    rw [hP0, hP1]
    field_simp
    have := e1 t
    field_simp at this
    linear_combination -this
  have hp1' : ∀ t, p' 1 t = -(P1 * (w * Real.sin (w * t))) := by
    intro t
    have e : p 1 = fun t => P0 + P1 * Real.cos (w * t) := funext hp1
    have d := (hp 1 t).1
    rw [e] at d
    refine d.unique ((((lin t).cos.const_mul P1).const_add P0).congr_deriv ?_)
    ring
  have hp1'' : ∀ t, p'' 1 t = -(P1 * (w ^ 2 * Real.cos (w * t))) := by
    intro t
    have e : p' 1 = fun t => -(P1 * (w * Real.sin (w * t))) := funext hp1'
    have d := (hp 1 t).2
    rw [e] at d
    refine d.unique (((((lin t).sin.const_mul w).const_mul P1).neg).congr_deriv ?_)
    ring
  have a0 := e2 0
  have a1 := e2 (Real.pi / w)
  rw [hp1, hp1''] at a0 a1
  have c1 : Real.cos (w * (Real.pi / w)) = -1 := by
    rw [mul_div_cancel₀ _ hw0]
    exact Real.cos_pi
  rw [c1] at a1
  rw [mul_zero, Real.cos_zero] at a0
  have a2 : (s.E * s.I * κ ^ 2 + S) * P0 = S * κ * A := by linear_combination (1 / 2) * a0 + (1 / 2) * a1
  have a3 : s.E * s.I * κ ^ 4 * S * A = f * (2 / s.length) * (s.E * s.I * κ ^ 2 + S) := by
    rw [hP0] at a2
    field_simp at a2
    field_simp
    linear_combination a2
  have hphi : s.phi = 12 / s.length ^ 2 * (s.E * s.I / S) := rfl
  rw [hA, hphi, hκ] at a3
  field_simp at a3
  have a4 : Real.pi ^ 2 = 12 := by
    have : s.E * s.I * (Real.pi ^ 2 - 12) = 0 := by linear_combination -a3
    have := (mul_eq_zero.mp this).resolve_left (by positivity)
    linarith
  have := Real.pi_lt_d2
  nlinarith

theorem sin_half_sq (k : ℕ) : Real.sin (k * Real.pi / 2) ^ 2 = if Even k then 0 else 1 := by
  rcases Nat.even_or_odd k with hk | hk
  · rw [if_pos hk]
    obtain ⟨i, rfl⟩ := hk
    rw [show ((i + i : ℕ) : ℝ) * Real.pi / 2 = i * Real.pi by push_cast; ring, Real.sin_nat_mul_pi]
    norm_num
  · rw [if_neg (Nat.not_even_iff_odd.mpr hk)]
    obtain ⟨i, rfl⟩ := hk
    rw [show ((2 * i + 1 : ℕ) : ℝ) * Real.pi / 2 = Real.pi / 2 + i * Real.pi by push_cast; ring, Real.sin_add_nat_mul_pi,
      Real.sin_pi_div_two, mul_one, ← pow_mul, mul_comm, pow_mul]
    norm_num

theorem hasSum_odd_four : HasSum (fun k : ℕ => Real.sin (k * Real.pi / 2) ^ 2 / (k : ℝ) ^ 4) (Real.pi ^ 4 / 96) := by
  have h := hasSum_zeta_four
  have he : HasSum (fun k : ℕ => 1 / ((2 * k : ℕ) : ℝ) ^ 4) (Real.pi ^ 4 / 90 / 16) := by
    have h16 := h.div_const 16
    have e : (fun k : ℕ => 1 / ((2 * k : ℕ) : ℝ) ^ 4) = fun k : ℕ => 1 / (k : ℝ) ^ 4 / 16 := by
      funext k
      push_cast
      rw [mul_pow, div_div, mul_comm]
      norm_num
    rw [e]
    exact h16
  have hev : HasSum (fun k : ℕ => if Even k then 1 / (k : ℝ) ^ 4 else 0) (Real.pi ^ 4 / 90 / 16) := by
    have hinj : Function.Injective fun k : ℕ => 2 * k := fun a b hab => by simpa using hab
    refine (hinj.hasSum_iff ?_).mp ?_
    · intro k hk
      rw [if_neg]
      rintro ⟨i, rfl⟩
      exact hk ⟨i, by simp only; omega⟩
    · have e : (fun k : ℕ => if Even k then 1 / (k : ℝ) ^ 4 else 0) ∘ (fun k : ℕ => 2 * k) = fun k : ℕ => 1 / ((2 * k : ℕ) : ℝ) ^ 4 := by
        funext k
        simp
      rw [e]
      exact he
  have := h.sub hev
  have e : (fun k : ℕ => Real.sin (k * Real.pi / 2) ^ 2 / (k : ℝ) ^ 4) =
      fun k : ℕ => 1 / (k : ℝ) ^ 4 - if Even k then 1 / (k : ℝ) ^ 4 else 0 := by
    funext k
    rw [sin_half_sq]
    split_ifs <;> simp
  rw [e]
  rw [show Real.pi ^ 4 / 96 = Real.pi ^ 4 / 90 - Real.pi ^ 4 / 90 / 16 by ring]
  exact this

/-- **C149** At midspan the result oscillates around the right static deflection: its modes there have the form
`c (1 - cos (ω t))`, and the amplitudes `c` of all modes add up to the deflection `F L³ / (48 EI)` by bending plus the
deflection `F L / (4 k G A)` by shear, if the number of elements is even. -/
theorem C149_midspan (s : TimoshenkoModal) (h : s.Valid) (hm : Even ⌈s.length / s.eleSize⌉₊) :
    ∃ c : ℕ → ℝ, (∀ (n : ℕ) (root : ℕ → ℝ) (t : ℝ), TimoshenkoModal.uAt { s with n := n } root (s.length / 2) t =
        ∑ k ∈ Icc 1 (n - 1), c k * (1 - Real.cos (s.eig root k * t))) ∧
      HasSum c (s.force * s.length ^ 3 / (48 * (s.E * s.I)) + s.force * s.length / (4 * (s.k * s.G * s.A))) := by
  have h1 := h.E; have h2 := h.G; have h3 := h.k; have h4 := h.I; have h5 := h.rho; have h6 := h.A; have h7 := h.length
  have hpi := Real.pi_pos
  have mid : s.euler.loadAt = s.length / 2 := (loadAt_middle s.euler h.euler).1 hm
  have es : ∀ k : ℕ, sine s.length k (s.length / 2) = Real.sin (k * Real.pi / 2) := by
    intro k
    unfold sine
    congr 1
    field_simp
  refine ⟨fun k => 2 * s.length ^ 3 * (1 + s.phi) / (Real.pi ^ 4 * (s.E * s.I)) * s.force *
    (Real.sin (k * Real.pi / 2) ^ 2 / (k : ℝ) ^ 4), fun n root t => ?_, ?_⟩
  · have hv : TimoshenkoModal.Valid { s with n := n } := ⟨h.E, h.G, h.k, h.I, h.rho, h.A, h.length, h.eleSize⟩
    rw [timoshenko_sum _ hv]
    refine Finset.sum_congr rfl fun k _ => ?_
    show 2 * s.length ^ 3 * (1 + s.phi) / (Real.pi ^ 4 * (s.E * s.I)) * (s.force * sine s.length k s.euler.loadAt / (k : ℝ) ^ 4) *
      (1 - Real.cos (s.eig root k * t)) * sine s.length k (s.length / 2) = _
    rw [mid, es]
    ring
  · have e : s.force * s.length ^ 3 / (48 * (s.E * s.I)) + s.force * s.length / (4 * (s.k * s.G * s.A)) =
        2 * s.length ^ 3 * (1 + s.phi) / (Real.pi ^ 4 * (s.E * s.I)) * s.force * (Real.pi ^ 4 / 96) := by
      unfold TimoshenkoModal.phi
      field_simp
      ring
    rw [e]
    exact hasSum_odd_four.mul_left _

/-- The beam of the benchmark, shortened to round numbers. -/
noncomputable def exampleTimoshenkoModal : TimoshenkoModal :=
  { n := 100, eleSize := 1 / 2, E := 2, G := 1, k := 5 / 6, I := 1, rho := 1, A := 1, length := 10, force := -1 }

theorem exampleTimoshenkoModal_valid : exampleTimoshenkoModal.Valid := by constructor <;> norm_num [exampleTimoshenkoModal]

example : ∃ root : ℕ → ℝ, ∀ k, exampleTimoshenkoModal.findOmega (root k) k = 0 := by
  suffices h : ∀ k : ℕ, ∃ w, exampleTimoshenkoModal.findOmega w k = 0 from ⟨fun k => (h k).choose, fun k => (h k).choose_spec⟩
  intro k
  have e : ∃ z : ℝ, 0 ≤ z ∧ ∀ w, exampleTimoshenkoModal.findOmega w k = (1 - w ^ 2) - w ^ 2 * z * (17 / 5) + w ^ 4 * z ^ 2 * (12 / 5) := by
    refine ⟨(k * Real.pi * exampleTimoshenkoModal.r / 10) ^ 2, sq_nonneg _, fun w => ?_⟩
    unfold TimoshenkoModal.findOmega
    norm_num [exampleTimoshenkoModal]
    ring
  obtain ⟨z, hz, e⟩ := e
  have hc : ContinuousOn (fun w : ℝ => (1 - w ^ 2) - w ^ 2 * z * (17 / 5) + w ^ 4 * z ^ 2 * (12 / 5)) (Set.Icc 0 (1 / √(1 + z))) := by
    fun_prop
  have := intermediate_value_Icc' (by positivity) hc
  have hs : √(1 + z) ^ 2 = 1 + z := Real.sq_sqrt (by linarith)
  obtain ⟨w, -, hw⟩ := this (show (0 : ℝ) ∈ Set.Icc _ _ by
    constructor
    · have a : (1 / √(1 + z)) ^ 2 = 1 / (1 + z) := by rw [div_pow, hs, one_pow]
      have b : (1 / √(1 + z)) ^ 4 = 1 / (1 + z) ^ 2 := by
        rw [show (1 / √(1 + z)) ^ 4 = ((1 / √(1 + z)) ^ 2) ^ 2 by ring, a, div_pow, one_pow]
      simp only [a, b]
      have hz1 : 0 < 1 + z := by linarith
      have : 1 - 1 / (1 + z) - 1 / (1 + z) * z * (17 / 5) + 1 / (1 + z) ^ 2 * z ^ 2 * (12 / 5) = -(12 / 5) * z / (1 + z) ^ 2 := by
        field_simp
        ring
      rw [this]
      have : 0 ≤ z / (1 + z) ^ 2 := by positivity
      have e2 : -(12 / 5) * z / (1 + z) ^ 2 = -(12 / 5) * (z / (1 + z) ^ 2) := by ring
      rw [e2]
      linarith
    · norm_num)
  exact ⟨w, by rw [e]; exact hw⟩

end Rose
