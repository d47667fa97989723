/-
C150: the solution for waves in a column.
-/
import Verif.Model.AnalyticalWave
import Verif.Spec.Wave
import Verif.Props.AnalyticalModes
import Mathlib.NumberTheory.ZetaValues

set_option linter.unusedSectionVars false

namespace Rose
open Rose.Spec Finset

/-- Density, stiffness and length of the column are positive. -/
structure WaveColumn.Valid (s : WaveColumn) : Prop where
  rho : 0 < s.rho
  K : 0 < s.K
  L : 0 < s.L

theorem wave_u (s : WaveColumn) (x t : ℝ) : s.uAt x t = s.p0 / s.K * (x + 8 * s.L / Real.pi ^ 2 * ∑ k ∈ Icc 1 (s.nbTerms - 1),
    (-1) ^ k / (2 * (k : ℝ) - 1) ^ 2 * Real.sin (s.lam k * x) * Real.cos (s.lam k * s.c * t)) := by
  unfold WaveColumn.uAt
  rw [foldl_modes s.nbTerms fun k => (-1) ^ k / (2 * (k : ℝ) - 1) ^ 2 * Real.sin (s.lam k * x) * Real.cos (s.lam k * s.c * t)]

theorem wave_p (s : WaveColumn) (x t : ℝ) : s.pAt x t = s.p0 / s.K * (1 + 8 * s.L / Real.pi ^ 2 * ∑ k ∈ Icc 1 (s.nbTerms - 1),
    (-1) ^ k * s.lam k / (2 * (k : ℝ) - 1) ^ 2 * Real.cos (s.lam k * x) * Real.cos (s.lam k * s.c * t)) * s.K := by
  unfold WaveColumn.pAt
  rw [foldl_modes s.nbTerms fun k =>
    (-1) ^ k * s.lam k / (2 * (k : ℝ) - 1) ^ 2 * Real.cos (s.lam k * x) * Real.cos (s.lam k * s.c * t)]

theorem wave_v (s : WaveColumn) (x t : ℝ) : s.vAt x t = s.p0 / s.K * (8 * s.L / Real.pi ^ 2 * ∑ k ∈ Icc 1 (s.nbTerms - 1),
    -((-1) ^ k * s.lam k * s.c / (2 * (k : ℝ) - 1) ^ 2 * Real.sin (s.lam k * x) * Real.sin (s.lam k * s.c * t))) := by
  unfold WaveColumn.vAt
  rw [← foldl_modes s.nbTerms fun k =>
    -((-1) ^ k * s.lam k * s.c / (2 * (k : ℝ) - 1) ^ 2 * Real.sin (s.lam k * x) * Real.sin (s.lam k * s.c * t))]
  congr 3

theorem WaveColumn.lam_end (s : WaveColumn) (hL : 0 < s.L) (k : ℕ) : Real.cos (s.lam k * s.L) = 0 := by
  rw [Real.cos_eq_zero_iff]
  refine ⟨(k : ℤ) - 1, ?_⟩
  unfold WaveColumn.lam
  push_cast
  field_simp
  ring

/-- **C150** For every number of terms the reported values are those of functions that satisfy the laws of motion of the column, with the load at its end, and
start without velocity. -/
theorem C150_motion (s : WaveColumn) (h : s.Valid) :
    ColumnMotion s.rho s.K s.L s.p0 s.uAt s.vAt s.pAt ∧ (∀ x, s.vAt x 0 = 0) ∧
      ∀ time, s.solution (some time) = (time, (linspace 0 s.L s.nbElements).map (fun x => time.map fun t => s.uAt x t),
        (linspace 0 s.L s.nbElements).map (fun x => time.map fun t => s.vAt x t),
        (linspace 0 s.L s.nbElements).map (fun x => time.map fun t => s.pAt x t)) := by
  have h1 := h.rho; have h2 := h.K; have h3 := h.L
  have hc : s.c ^ 2 = s.K / s.rho := Real.sq_sqrt (by positivity)
  have lx : ∀ (k : ℕ) x, HasDerivAt (fun x : ℝ => s.lam k * x) (s.lam k * 1) x := fun k x => (hasDerivAt_id x).const_mul _
  have lt : ∀ (k : ℕ) t, HasDerivAt (fun t : ℝ => s.lam k * s.c * t) (s.lam k * s.c * 1) t := fun k t =>
    (hasDerivAt_id t).const_mul _
  refine ⟨⟨fun x t => ?_, fun x t => ⟨s.pAt x t / s.K, ?_, by field_simp⟩, fun x t => ⟨s.p0 / s.K * (8 * s.L / Real.pi ^ 2 *
    ∑ k ∈ Icc 1 (s.nbTerms - 1), -((-1) ^ k * s.lam k * s.c / (2 * (k : ℝ) - 1) ^ 2 * Real.sin (s.lam k * x) *
      (s.lam k * s.c * Real.cos (s.lam k * s.c * t)))), ?_, ?_⟩, fun t => ?_, fun t => ?_⟩, fun x => ?_, fun _ => rfl⟩
  · simp only [wave_u]
    rw [wave_v]
    refine HasDerivAt.const_mul _ (HasDerivAt.const_add _ (HasDerivAt.const_mul _ (HasDerivAt.fun_sum fun k _ => ?_)))
    exact ((lt k t).cos.const_mul ((-1) ^ k / (2 * (k : ℝ) - 1) ^ 2 * Real.sin (s.lam k * x))).congr_deriv (by ring)
  · simp only [wave_u]
    rw [wave_p, mul_div_cancel_right₀ _ h2.ne']
    refine HasDerivAt.const_mul _ (HasDerivAt.add (hasDerivAt_id' x) (HasDerivAt.const_mul _ (HasDerivAt.fun_sum fun k _ => ?_)))
    exact (((lx k x).sin.const_mul ((-1) ^ k / (2 * (k : ℝ) - 1) ^ 2)).mul_const (Real.cos (s.lam k * s.c * t))).congr_deriv
      (by ring)
  · simp only [wave_v]
    refine HasDerivAt.const_mul _ (HasDerivAt.const_mul _ (HasDerivAt.fun_sum fun k _ => ?_))
    exact (((lt k t).sin.const_mul ((-1) ^ k * s.lam k * s.c / (2 * (k : ℝ) - 1) ^ 2 * Real.sin (s.lam k * x))).neg).congr_deriv
      (by ring)
  · simp only [wave_p]
    have e : s.rho * (s.p0 / s.K * (8 * s.L / Real.pi ^ 2 * ∑ k ∈ Icc 1 (s.nbTerms - 1), -((-1) ^ k * s.lam k * s.c /
        (2 * (k : ℝ) - 1) ^ 2 * Real.sin (s.lam k * x) * (s.lam k * s.c * Real.cos (s.lam k * s.c * t))))) =
        s.p0 / s.K * (8 * s.L / Real.pi ^ 2 * ∑ k ∈ Icc 1 (s.nbTerms - 1), -((-1) ^ k * s.lam k /
        (2 * (k : ℝ) - 1) ^ 2 * (s.lam k * Real.sin (s.lam k * x)) * Real.cos (s.lam k * s.c * t))) * s.K := by
      rw [Finset.mul_sum, Finset.mul_sum, Finset.mul_sum, Finset.mul_sum, Finset.mul_sum, Finset.sum_mul]
      refine Finset.sum_congr rfl fun k _ => ?_
      have hr : s.rho * s.c ^ 2 = s.K := by rw [hc]; field_simp
      linear_combination -(s.p0 / s.K * (8 * s.L / Real.pi ^ 2 * ((-1) ^ k * s.lam k / (2 * (k : ℝ) - 1) ^ 2 *
        (s.lam k * Real.sin (s.lam k * x)) * Real.cos (s.lam k * s.c * t)))) * hr
    rw [e]
    refine HasDerivAt.mul_const (HasDerivAt.const_mul _ (HasDerivAt.const_add _ (HasDerivAt.const_mul _
      (HasDerivAt.fun_sum fun k _ => ?_)))) _
    exact (((lx k x).cos.const_mul ((-1) ^ k * s.lam k / (2 * (k : ℝ) - 1) ^ 2)).mul_const
      (Real.cos (s.lam k * s.c * t))).congr_deriv (by ring)
  · rw [wave_u]
    simp
  · rw [wave_p]
    simp only [s.lam_end h3]
    field_simp
    simp
  · rw [wave_v]
    simp

/-! ### The front -/

theorem hasSum_cos_sq {y : ℝ} (hy : y ∈ Set.Icc (0 : ℝ) 1) :
    HasSum (fun n : ℕ => 1 / (n : ℝ) ^ 2 * Real.cos (2 * Real.pi * n * y)) (Real.pi ^ 2 * (y ^ 2 - y + 1 / 6)) := by
  have h := hasSum_one_div_nat_pow_mul_cos one_ne_zero hy
  have e : (-1 : ℝ) ^ (1 + 1) * (2 * Real.pi) ^ (2 * 1) / 2 / ((2 * 1).factorial : ℝ) *
      (Polynomial.map (algebraMap ℚ ℝ) (Polynomial.bernoulli (2 * 1))).eval y = Real.pi ^ 2 * (y ^ 2 - y + 1 / 6) := by
    have hb : (Polynomial.map (algebraMap ℚ ℝ) (Polynomial.bernoulli (2 * 1))).eval y = y ^ 2 - y + 6⁻¹ := bernoulliFun_two y
    rw [hb]
    rw [show Nat.factorial (2 * 1) = 2 from rfl]
    push_cast
    ring
  rw [e] at h
  simpa using h

theorem hasSum_cos_odd {y : ℝ} (h0 : 0 ≤ y) (h1 : y ≤ 1 / 2) :
    HasSum (fun i : ℕ => 1 / (2 * (i : ℝ) + 1) ^ 2 * Real.cos (2 * Real.pi * (2 * i + 1) * y)) (Real.pi ^ 2 * (1 / 8 - y / 2)) := by
  have h := hasSum_cos_sq (y := y) ⟨h0, by linarith⟩
  have he := (hasSum_cos_sq (y := 2 * y) ⟨by linarith, by linarith⟩).div_const 4
  have hinj : Function.Injective fun k : ℕ => 2 * k := fun a b hab => by simpa using hab
  have hinj' : Function.Injective fun k : ℕ => 2 * k + 1 := fun a b hab => by simpa using hab
  have hev : HasSum (fun n : ℕ => if Even n then 1 / (n : ℝ) ^ 2 * Real.cos (2 * Real.pi * n * y) else 0)
      (Real.pi ^ 2 * ((2 * y) ^ 2 - 2 * y + 1 / 6) / 4) := by
    refine (hinj.hasSum_iff ?_).mp ?_
    · intro k hk
      rw [if_neg]
      rintro ⟨i, rfl⟩
      exact hk ⟨i, by simp only; omega⟩
    · have e : (fun n : ℕ => if Even n then 1 / (n : ℝ) ^ 2 * Real.cos (2 * Real.pi * n * y) else 0) ∘ (fun k : ℕ => 2 * k) =
          fun n : ℕ => 1 / (n : ℝ) ^ 2 * Real.cos (2 * Real.pi * n * (2 * y)) / 4 := by
        funext k
        have hk : Even (2 * k) := even_two_mul k
        simp only [Function.comp, if_pos hk]
        push_cast
        rw [show 2 * Real.pi * (2 * (k : ℝ)) * y = 2 * Real.pi * k * (2 * y) by ring]
        ring
      rw [e]
      exact he
  have hodd := h.sub hev
  have e : Real.pi ^ 2 * (y ^ 2 - y + 1 / 6) - Real.pi ^ 2 * ((2 * y) ^ 2 - 2 * y + 1 / 6) / 4 = Real.pi ^ 2 * (1 / 8 - y / 2) := by
    ring
  rw [e] at hodd
  have := (hinj'.hasSum_iff (f := fun n : ℕ => 1 / (n : ℝ) ^ 2 * Real.cos (2 * Real.pi * n * y) -
    if Even n then 1 / (n : ℝ) ^ 2 * Real.cos (2 * Real.pi * n * y) else 0) (a := Real.pi ^ 2 * (1 / 8 - y / 2)) ?_).mpr hodd
  · have e2 : (fun n : ℕ => 1 / (n : ℝ) ^ 2 * Real.cos (2 * Real.pi * n * y) -
        if Even n then 1 / (n : ℝ) ^ 2 * Real.cos (2 * Real.pi * n * y) else 0) ∘ (fun k : ℕ => 2 * k + 1) =
        fun i : ℕ => 1 / (2 * (i : ℝ) + 1) ^ 2 * Real.cos (2 * Real.pi * (2 * i + 1) * y) := by
      funext i
      have ho : ¬ Even (2 * i + 1) := by simp
      simp only [Function.comp, if_neg ho]
      push_cast
      ring
    rw [e2] at this
    exact this
  · intro k hk
    have hk2 : Even k := by
      by_contra ho
      obtain ⟨i, rfl⟩ := Nat.not_even_iff_odd.mp ho
      exact hk ⟨i, rfl⟩
    rw [if_pos hk2, sub_self]

/-- The sum of the terms without the time: a wave with the shape of a triangle. -/
noncomputable def waveTerm (L : ℝ) (k : ℕ) (z : ℝ) : ℝ := (-1) ^ k / (2 * (k : ℝ) - 1) ^ 2 * Real.sin ((2 * (k : ℝ) - 1) * Real.pi / (2 * L) * z)

theorem hasSum_wave {L z : ℝ} (hL : 0 < L) (h0 : -L ≤ z) (h1 : z ≤ L) :
    HasSum (fun i : ℕ => waveTerm L (i + 1) z) (-(Real.pi ^ 2 * z / (8 * L))) := by
  have hy0 : 0 ≤ 1 / 4 - z / (4 * L) := by
    rw [sub_nonneg, div_le_div_iff₀ (by positivity) (by norm_num)]
    linarith
  have hy1 : 1 / 4 - z / (4 * L) ≤ 1 / 2 := by
    rw [sub_le_iff_le_add, ← sub_le_iff_le_add', le_div_iff₀ (by positivity)]
    linarith
  have h := (hasSum_cos_odd hy0 hy1).neg
  have e : -(Real.pi ^ 2 * (1 / 8 - (1 / 4 - z / (4 * L)) / 2)) = -(Real.pi ^ 2 * z / (8 * L)) := by
    field_simp
    ring
  rw [e] at h
  have e2 : (fun i : ℕ => waveTerm L (i + 1) z) = fun i : ℕ =>
      -(1 / (2 * (i : ℝ) + 1) ^ 2 * Real.cos (2 * Real.pi * (2 * i + 1) * (1 / 4 - z / (4 * L)))) := by
    funext i
    have a : 2 * Real.pi * (2 * (i : ℝ) + 1) * (1 / 4 - z / (4 * L)) =
        Real.pi / 2 - ((2 * (i : ℝ) + 1) * Real.pi / (2 * L) * z) + i * Real.pi := by
      field_simp
      ring
    rw [a, Real.cos_add_nat_mul_pi, Real.cos_pi_div_two_sub]
    unfold waveTerm
    push_cast
    rw [show 2 * ((i : ℝ) + 1) - 1 = 2 * i + 1 by ring, pow_succ]
    ring
  rw [e2]
  exact h

theorem waveTerm_mirror {L : ℝ} (hL : 0 < L) (i : ℕ) (z : ℝ) : waveTerm L (i + 1) (2 * L - z) = waveTerm L (i + 1) z := by
  unfold waveTerm
  have a : (2 * ((i + 1 : ℕ) : ℝ) - 1) * Real.pi / (2 * L) * (2 * L - z) =
      (Real.pi - (2 * ((i + 1 : ℕ) : ℝ) - 1) * Real.pi / (2 * L) * z) + i * (2 * Real.pi) := by
    push_cast
    field_simp
    ring
  rw [a, Real.sin_add_nat_mul_two_pi, Real.sin_pi_sub]

theorem waveTerm_neg (L : ℝ) (k : ℕ) (z : ℝ) : waveTerm L k (-z) = -waveTerm L k z := by
  unfold waveTerm
  rw [mul_neg, Real.sin_neg]
  ring

theorem hasSum_wave_front {L x d : ℝ} (hL : 0 < L) (h0 : 0 ≤ x) (h1 : x ≤ L) (d0 : 0 ≤ d) (d1 : d ≤ 2 * L) :
    HasSum (fun i : ℕ => (waveTerm L (i + 1) (x + d) + waveTerm L (i + 1) (x - d)) / 2)
      (Real.pi ^ 2 / (8 * L) * (min (max 0 (x + d - L)) (2 * x) - x)) := by
  have up : ∀ z, L ≤ z → z ≤ 3 * L → HasSum (fun i : ℕ => waveTerm L (i + 1) z) (-(Real.pi ^ 2 * (2 * L - z) / (8 * L))) := by
    intro z h2 h3
    have := hasSum_wave (z := 2 * L - z) hL (by linarith) (by linarith)
    simp only [waveTerm_mirror hL] at this
    exact this
  have down : ∀ z, -(3 * L) ≤ z → z ≤ -L → HasSum (fun i : ℕ => waveTerm L (i + 1) z) (Real.pi ^ 2 * (2 * L + z) / (8 * L)) := by
    intro z h2 h3
    have := (up (-z) (by linarith) (by linarith)).neg
    simp only [waveTerm_neg, neg_neg, sub_neg_eq_add] at this
    exact this
  rcases le_total (x + d) L with hA | hA
  · rw [max_eq_left (by linarith), min_eq_left (by linarith)]
    have := ((hasSum_wave (z := x + d) hL (by linarith) hA).add (hasSum_wave (z := x - d) hL (by linarith) (by linarith))).div_const 2
    rw [show Real.pi ^ 2 / (8 * L) * (0 - x) =
      (-(Real.pi ^ 2 * (x + d) / (8 * L)) + -(Real.pi ^ 2 * (x - d) / (8 * L))) / 2 by ring]
    exact this
  · rw [max_eq_right (by linarith)]
    rcases le_total (-L) (x - d) with hB | hB
    · rw [min_eq_left (by linarith)]
      have := ((up (x + d) hA (by linarith)).add (hasSum_wave (z := x - d) hL hB (by linarith))).div_const 2
      rw [show Real.pi ^ 2 / (8 * L) * (x + d - L - x) =
        (-(Real.pi ^ 2 * (2 * L - (x + d)) / (8 * L)) + -(Real.pi ^ 2 * (x - d) / (8 * L))) / 2 by ring]
      exact this
    · rw [min_eq_right (by linarith)]
      have := ((up (x + d) hA (by linarith)).add (down (x - d) (by linarith) hB)).div_const 2
      rw [show Real.pi ^ 2 / (8 * L) * (2 * x - x) =
        (-(Real.pi ^ 2 * (2 * L - (x + d)) / (8 * L)) + Real.pi ^ 2 * (2 * L + (x - d)) / (8 * L)) / 2 by ring]
      exact this

theorem wave_tail (f : ℕ → ℝ) (S : ℝ) (hf : ∀ i : ℕ, |f i| ≤ 1 / (2 * (i : ℝ) + 1) ^ 2) (hS : HasSum f S) (n : ℕ) (hn : 1 ≤ n) :
    |∑ i ∈ range n, f i - S| ≤ 1 / (4 * n) := by
  have hb : ∀ m, n ≤ m → |∑ i ∈ range n, f i - ∑ i ∈ range m, f i| ≤ 1 / (4 * n) - 1 / (4 * m) := by
    intro m hm
    induction m, hm using Nat.le_induction with
    | base => simp
    | succ m hm ih =>
      rw [Finset.sum_range_succ]
      have hm0 : (0 : ℝ) < m := by exact_mod_cast (show 0 < m by omega)
      have a : 1 / (2 * (m : ℝ) + 1) ^ 2 ≤ 1 / (4 * m) - 1 / (4 * (m + 1 : ℕ)) := by
        push_cast
        have : 1 / (4 * (m : ℝ)) - 1 / (4 * (m + 1)) = 1 / (4 * m * (m + 1)) := by
          field_simp
          ring
        rw [this]
        exact one_div_le_one_div_of_le (by positivity) (by nlinarith)
      have b := hf m
      have c : ∑ i ∈ range n, f i - (∑ i ∈ range m, f i + f m) = (∑ i ∈ range n, f i - ∑ i ∈ range m, f i) - f m := by ring
      rw [c]
      have := abs_sub (∑ i ∈ range n, f i - ∑ i ∈ range m, f i) (f m)
      linarith
  have ht := hS.tendsto_sum_nat
  have ht2 : Filter.Tendsto (fun m => |∑ i ∈ range n, f i - ∑ i ∈ range m, f i|) Filter.atTop (nhds |∑ i ∈ range n, f i - S|) :=
    (ht.const_sub _).abs
  refine le_of_tendsto ht2 (Filter.eventually_atTop.mpr ⟨n, fun m hm => (hb m hm).trans ?_⟩)
  have : (0 : ℝ) ≤ 1 / (4 * m) := by positivity
  linarith

theorem sum_Icc_shift (N : ℕ) (f : ℕ → ℝ) : ∑ k ∈ Icc 1 (N - 1), f k = ∑ i ∈ range (N - 1), f (i + 1) := by
  rw [Finset.range_eq_Ico, Finset.sum_Ico_add' f 0 (N - 1) 1]
  rfl

theorem wave_terms (s : WaveColumn) (x t : ℝ) : s.uAt x t = s.p0 / s.K * (x + 8 * s.L / Real.pi ^ 2 * ∑ i ∈ range (s.nbTerms - 1),
    (waveTerm s.L (i + 1) (x + s.c * t) + waveTerm s.L (i + 1) (x - s.c * t)) / 2) := by
  rw [wave_u, sum_Icc_shift]
  congr 3
  refine Finset.sum_congr rfl fun i _ => ?_
  unfold waveTerm WaveColumn.lam
  rw [mul_add, mul_sub, Real.sin_add, Real.sin_sub, mul_assoc ((2 * ((i + 1 : ℕ) : ℝ) - 1) * Real.pi / (2 * s.L)) s.c t]
  ring

/-- **C150** The displacement is that of the front within an error of `2 p0 L / (π² K)` divided by the number of used terms, for every
point of the column and every time until the front is back; the result has the period of the column and is symmetric in
time, which gives all other times. -/
theorem C150_front (s : WaveColumn) (h : s.Valid) (hn : 2 ≤ s.nbTerms) (x t : ℝ) (h0 : 0 ≤ x) (h1 : x ≤ s.L) :
    (0 ≤ t → s.c * t ≤ 2 * s.L → |s.uAt x t - frontDisplacement s.K s.L s.p0 x (s.c * t)| ≤
      2 * |s.p0| * s.L / (Real.pi ^ 2 * s.K) / ((s.nbTerms : ℝ) - 1)) ∧
    s.uAt x (t + 4 * s.L / s.c) = s.uAt x t ∧ s.uAt x (-t) = s.uAt x t := by
  have g1 := h.rho; have g2 := h.K; have g3 := h.L
  have hc : 0 < s.c := Real.sqrt_pos.mpr (by positivity)
  have hpi := Real.pi_pos
  refine ⟨fun ht hd => ?_, ?_, ?_⟩
  · have hs := hasSum_wave_front g3 h0 h1 (d := s.c * t) (by positivity) hd
    have hb := wave_tail _ _ (fun i => ?_) hs (s.nbTerms - 1) (by omega)
    · rw [wave_terms]
      unfold frontDisplacement
      set S := ∑ i ∈ range (s.nbTerms - 1), (waveTerm s.L (i + 1) (x + s.c * t) + waveTerm s.L (i + 1) (x - s.c * t)) / 2
      set m := min (max 0 (x + s.c * t - s.L)) (2 * x)
      have e : s.p0 / s.K * (x + 8 * s.L / Real.pi ^ 2 * S) - s.p0 / s.K * m =
          s.p0 / s.K * (8 * s.L / Real.pi ^ 2) * (S - Real.pi ^ 2 / (8 * s.L) * (m - x)) := by
        field_simp
        ring
      rw [e, abs_mul, abs_mul, abs_div, abs_of_pos g2, abs_of_pos (by positivity : 0 < 8 * s.L / Real.pi ^ 2)]
      have hcast : ((s.nbTerms - 1 : ℕ) : ℝ) = s.nbTerms - 1 := by
        rw [Nat.cast_sub (by omega), Nat.cast_one]
      rw [hcast] at hb
      have hpos : (0 : ℝ) < s.nbTerms - 1 := by
        have : (2 : ℝ) ≤ s.nbTerms := by exact_mod_cast hn
        linarith
      calc |s.p0| / s.K * (8 * s.L / Real.pi ^ 2) * |S - Real.pi ^ 2 / (8 * s.L) * (m - x)|
          ≤ |s.p0| / s.K * (8 * s.L / Real.pi ^ 2) * (1 / (4 * (s.nbTerms - 1))) :=
            mul_le_mul_of_nonneg_left hb (by positivity)
        _ = 2 * |s.p0| * s.L / (Real.pi ^ 2 * s.K) / ((s.nbTerms : ℝ) - 1) := by
          field_simp
          ring
    · have bd : ∀ z, |waveTerm s.L (i + 1) z| ≤ 1 / (2 * (i : ℝ) + 1) ^ 2 := by
        intro z
        unfold waveTerm
        rw [abs_mul, abs_div, abs_pow, abs_neg, abs_one, one_pow, abs_of_nonneg (sq_nonneg _)]
        have e : (2 * ((i + 1 : ℕ) : ℝ) - 1) = 2 * i + 1 := by push_cast; ring
        rw [e]
        exact mul_le_of_le_one_right (by positivity) (Real.abs_sin_le_one _)
      rw [abs_div, abs_of_pos (by norm_num : (0 : ℝ) < 2)]
      have := abs_add_le (waveTerm s.L (i + 1) (x + s.c * t)) (waveTerm s.L (i + 1) (x - s.c * t))
      linarith [bd (x + s.c * t), bd (x - s.c * t)]
  · rw [wave_u, wave_u, sum_Icc_shift, sum_Icc_shift]
    congr 3
    refine Finset.sum_congr rfl fun i _ => ?_
    congr 1
    have a : s.lam (i + 1) * s.c * (t + 4 * s.L / s.c) = s.lam (i + 1) * s.c * t + (2 * i + 1 : ℕ) * (2 * Real.pi) := by
      unfold WaveColumn.lam
      push_cast
      field_simp
      ring
    rw [a, Real.cos_add_nat_mul_two_pi]
  · rw [wave_u, wave_u]
    simp only [mul_neg, Real.cos_neg]

/-- **C150, time.** Without given times the solution is reported at equally spaced times from zero to the requested number of travel times `L / c`, at
least ten of them. -/
theorem C150_time (s : WaveColumn) (h : s.Valid) :
    let ts := (s.solution none).1
    ∃ dt : ℝ, 10 ≤ ts.length ∧ (∀ i (hi : i < ts.length), ts[i] = i * dt) ∧
      ((ts.length : ℝ) - 1) * dt = s.nbCycles * (s.L / Real.sqrt (s.K / s.rho)) := by
  have hK := h.K; have hr := h.rho; have hL := h.L
  have hc : 0 < s.c := Real.sqrt_pos.2 (div_pos hK hr)
  have h1 : 1 ≤ ⌈s.c / s.L⌉₊ := Nat.ceil_pos.2 (div_pos hc hL)
  have h10 : 10 ≤ ⌈s.c / s.L⌉₊ * 10 := by omega
  have hm : ¬⌈s.c / s.L⌉₊ * 10 ≤ 1 := by omega
  have hm' : (0 : ℝ) < ((⌈s.c / s.L⌉₊ * 10 : ℕ) : ℝ) - 1 := by
    have : (10 : ℝ) ≤ ((⌈s.c / s.L⌉₊ * 10 : ℕ) : ℝ) := by exact_mod_cast h10
    linarith
  have hlen : (s.solution none).1.length = ⌈s.c / s.L⌉₊ * 10 := by simp [WaveColumn.solution, WaveColumn.defaultTime, linspace]
  refine ⟨s.nbCycles * s.L / s.c / (((⌈s.c / s.L⌉₊ * 10 : ℕ) : ℝ) - 1), hlen.symm ▸ h10, ?_, ?_⟩
  · intro i hi
    simp only [WaveColumn.solution, WaveColumn.defaultTime, linspace, Option.getD_none, List.getElem_map, List.getElem_range, linspaceAt, if_neg hm]
    ring
  · rw [hlen, mul_div_cancel₀ _ hm'.ne', mul_div_assoc]
    rfl

/-- The column of the script, with 250 terms. -/
noncomputable def exampleColumn : WaveColumn :=
  { nbCycles := 10, nbTerms := 250, rho := 1000, K := 20000000, p0 := 10, L := 1, nbElements := 11 }

example : exampleColumn.Valid ∧ 2 ≤ exampleColumn.nbTerms ∧ exampleColumn.x.length = 11 := by
  refine ⟨by constructor <;> norm_num [exampleColumn], by decide, ?_⟩
  simp [WaveColumn.x, linspace, exampleColumn]

end Rose
