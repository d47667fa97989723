/-
The steps with the average acceleration approach the motion.
-/
import Verif.Lemmas.TimeStepping

set_option linter.unusedSectionVars false

namespace Rose
open Finset

variable {N : ℕ} {M C K : ℕ → ℕ → ℝ}

/-- Errors that start at zero and are fed by at most `ω` in every step grow at most in proportion to the number of steps. -/
theorem Oscillator.error_growth (o : Oscillator N M C K) : ∃ c ≥ 0, ∀ (dt ω : ℝ) (p q r : ℕ → ℕ → ℝ) (m : ℕ), 0 < dt → 0 ≤ ω →
    (∀ n ≤ m, ∀ k < N, ∑ j ∈ range N, (M k j * r n j + C k j * q n j + K k j * p n j) = 0) →
    (∀ k < N, p 0 k = 0 ∧ q 0 k = 0) →
    (∀ n < m, ∀ k < N, |p (n + 1) k - p n k - dt / 2 * (q n k + q (n + 1) k)| ≤ ω) →
    (∀ n < m, ∀ k < N, |q (n + 1) k - q n k - dt / 2 * (r n k + r (n + 1) k)| ≤ ω) →
    ∀ k < N, |p m k| ≤ c * (m * ω) ∧ |q m k| ≤ c * (m * ω) ∧ |r m k| ≤ c * (m * ω) := by
  obtain ⟨cM, cM0, hcM⟩ := form_bounds M o.massSymm o.mass
  obtain ⟨cK, cK0, hcK⟩ := form_bounds K o.stiffSymm o.stiff
  obtain ⟨sM, sM0, hsM⟩ := form_small (N := N) M
  obtain ⟨sK, sK0, hsK⟩ := form_small (N := N) K
  obtain ⟨rC, rC0, hrC⟩ := rows_small (N := N) C
  obtain ⟨rK, rK0, hrK⟩ := rows_small (N := N) K
  obtain ⟨s, s0, hs⟩ := definite_small M o.massSymm fun U => (o.mass U).2
  set S := √(sK + sM) with hS
  have S0 : 0 ≤ S := Real.sqrt_nonneg _
  set B := pairForm N K M with hB
  have Bs : ∀ x y, B x y = B y x := fun x y => by
    simp only [hB, pairForm_apply]
    rw [form_swap K o.stiffSymm, form_swap M o.massSymm]
  have Bp : ∀ x, 0 ≤ B x x := fun x => by
    simp only [hB, pairForm_apply]
    exact add_nonneg (o.stiff _).1 (o.mass _).1
  set c1 := (cK + cM) * S with hc1
  have c10 : 0 ≤ c1 := mul_nonneg (add_nonneg cK0 cM0) S0
  refine ⟨c1 + s * ((rC + rK) * c1), add_nonneg c10 (mul_nonneg s0 (mul_nonneg (add_nonneg rC0 rK0) c10)), ?_⟩
  intro dt ω p q r m hdt hω hb h0 hp hq
  have step : ∀ n ≤ m, √(B (p n, q n) (p n, q n)) ≤ n * (S * ω) := by
    intro n
    induction n with
    | zero =>
      intro _
      have : B (p 0, q 0) (p 0, q 0) = 0 := by
        simp only [hB, pairForm_apply]
        rw [form_congr K (v' := 0) (u' := 0) (fun k hk => (h0 k hk).1) (fun k hk => (h0 k hk).1),
          form_congr M (v' := 0) (u' := 0) (fun k hk => (h0 k hk).2) (fun k hk => (h0 k hk).2), form_zero_left, form_zero_left, add_zero]
      rw [this]
      simp
    | succ n ih =>
      intro hn
      have hn' : n < m := by omega
      set σ : ℕ → ℝ := fun k => q (n + 1) k - q n k - dt / 2 * (r n k + r (n + 1) k) with hσ
      set τ : ℕ → ℝ := fun k => p (n + 1) k - p n k - dt / 2 * (q n k + q (n + 1) k) with hτ
      have eq : q (n + 1) - q n = (dt / 2) • (r n + r (n + 1)) + σ := by
        ext k
        simp only [hσ, Pi.sub_apply, Pi.add_apply, Pi.smul_apply, smul_eq_mul]
        ring
      have ep : p (n + 1) - p n = (dt / 2) • (q n + q (n + 1)) + τ := by
        ext k
        simp only [hτ, Pi.sub_apply, Pi.add_apply, Pi.smul_apply, smul_eq_mul]
        ring
      have d1 : form N M (q (n + 1)) (q (n + 1)) - form N M (q n) (q n) =
          dt / 2 * form N M (q n + q (n + 1)) (r n + r (n + 1)) + form N M (q n + q (n + 1)) σ := by
        rw [← form_diff M o.massSymm, eq, form_add_right, form_smul_right]
      have d2 : form N K (p (n + 1)) (p (n + 1)) - form N K (p n) (p n) =
          dt / 2 * form N K (q n + q (n + 1)) (p n + p (n + 1)) + form N K (p n + p (n + 1)) τ := by
        rw [← form_diff K o.stiffSymm, ep, form_add_right, form_smul_right, form_swap K o.stiffSymm (q n + q (n + 1))]
      have d3 : form N M (q n + q (n + 1)) (r n + r (n + 1)) + form N C (q n + q (n + 1)) (q n + q (n + 1)) +
          form N K (q n + q (n + 1)) (p n + p (n + 1)) = 0 := by
        rw [form_rows, form_rows, form_rows, ← sum_add_distrib, ← sum_add_distrib]
        refine sum_eq_zero fun k hk => ?_
        have h1 := hb n hn'.le k (mem_range.mp hk)
        have h2 := hb (n + 1) hn k (mem_range.mp hk)
        rw [sum_three] at h1 h2
        simp only [Pi.add_apply, mul_add, sum_add_distrib]
        linear_combination ((q n k + q (n + 1) k) * (h2 + h1))
      have d4 := mul_nonneg (half_pos hdt).le (o.damp (q n + q (n + 1)))
      have key := psd_step B Bs Bp (p n, q n) (p (n + 1), q (n + 1)) (τ, σ) (by
        simp only [hB, pairForm_apply, Prod.mk_add_mk]
        rw [add_comm (p (n + 1)), add_comm (q (n + 1))]
        have d5 : dt / 2 * form N M (q n + q (n + 1)) (r n + r (n + 1)) + dt / 2 * form N K (q n + q (n + 1)) (p n + p (n + 1)) =
            -(dt / 2 * form N C (q n + q (n + 1)) (q n + q (n + 1))) := by linear_combination dt / 2 * d3
        linarith)
      have small : √(B (τ, σ) (τ, σ)) ≤ S * ω := by
        refine Real.sqrt_le_iff.mpr ⟨mul_nonneg S0 hω, ?_⟩
        rw [mul_pow, hS, Real.sq_sqrt (add_nonneg sK0 sM0), add_mul]
        simp only [hB, pairForm_apply]
        exact add_le_add (hsK τ ω hω (hp n hn')) (hsM σ ω hω (hq n hn'))
      have := ih hn'.le
      push_cast
      linarith
  have hE := step m le_rfl
  have mω : 0 ≤ (m : ℝ) * ω := mul_nonneg (Nat.cast_nonneg m) hω
  have hbase : ∀ k < N, |p m k| ≤ c1 * (m * ω) ∧ |q m k| ≤ c1 * (m * ω) := by
    intro k hk
    have e1 : √(form N K (p m) (p m)) ≤ m * (S * ω) := (Real.sqrt_le_sqrt (by
      simp only [hB, pairForm_apply]; linarith [(o.mass (q m)).1])).trans hE
    have e2 : √(form N M (q m) (q m)) ≤ m * (S * ω) := (Real.sqrt_le_sqrt (by
      simp only [hB, pairForm_apply]; linarith [(o.stiff (p m)).1])).trans hE
    have e3 := (hcK (p m) k hk).trans (mul_le_mul_of_nonneg_left e1 cK0)
    have e4 := (hcM (q m) k hk).trans (mul_le_mul_of_nonneg_left e2 cM0)
    have e5 := mul_nonneg (mul_nonneg cM0 S0) mω
    have e6 := mul_nonneg (mul_nonneg cK0 S0) mω
    constructor <;> rw [hc1] <;> nlinarith
  intro k hk
  have hr := hs (r m) ((rC + rK) * c1 * (m * ω)) (fun i hi => by
    have h1 := hb m le_rfl i hi
    rw [sum_three] at h1
    have h2 := hrC (q m) _ (fun k hk => (hbase k hk).2) i hi
    have h3 := hrK (p m) _ (fun k hk => (hbase k hk).1) i hi
    rw [show ∑ j ∈ range N, M i j * r m j = -(∑ j ∈ range N, C i j * q m j + ∑ j ∈ range N, K i j * p m j) by linarith, abs_neg]
    refine (abs_add_le _ _).trans ?_
    linarith) k hk
  have t1 : 0 ≤ c1 * (m * ω) := mul_nonneg c10 mω
  have t2 : 0 ≤ s * ((rC + rK) * c1) * (m * ω) := mul_nonneg (mul_nonneg s0 (mul_nonneg (add_nonneg rC0 rK0) c10)) mω
  refine ⟨?_, ?_, ?_⟩
  · linarith [(hbase k hk).1]
  · linarith [(hbase k hk).2]
  · linarith

section motion
variable {F u v a : ℝ → ℕ → ℝ}

/-- The accelerations of a motion follow from its load, velocity and displacement. -/
theorem motion_acceleration (h : ∀ U, form N M U U = 0 → ∀ k < N, U k = 0) (hM : ∀ i < N, ∀ j < N, M i j = M j i)
    (m : Spec.Motion N M C K F u v a) (k : ℕ) (hk : k < N) : ∃ w : ℕ → ℝ, ∀ t ≥ 0,
      a t k = ∑ i ∈ range N, w i * (F t i - ∑ j ∈ range N, C i j * v t j - ∑ j ∈ range N, K i j * u t j) := by
  obtain ⟨w, hw⟩ := form_reads M hM h k hk
  refine ⟨w, fun t ht => ?_⟩
  rw [← hw (a t), form_rows]
  refine sum_congr rfl fun i hi => ?_
  have := m.balance t ht i (mem_range.mp hi)
  rw [sum_three] at this
  rw [← this]
  ring

theorem Motion.continuous_u (m : Spec.Motion N M C K F u v a) (k : ℕ) (hk : k < N) : ContinuousOn (fun t => u t k) (Set.Ici 0) :=
  fun t ht => (m.velocity t ht k hk).continuousWithinAt

theorem Motion.continuous_v (m : Spec.Motion N M C K F u v a) (k : ℕ) (hk : k < N) : ContinuousOn (fun t => v t k) (Set.Ici 0) :=
  fun t ht => (m.acceleration t ht k hk).continuousWithinAt

theorem Oscillator.continuous_a (o : Oscillator N M C K) (hF : ∀ k < N, ContinuousOn (fun t => F t k) (Set.Ici 0))
    (m : Spec.Motion N M C K F u v a) (k : ℕ) (hk : k < N) : ContinuousOn (fun t => a t k) (Set.Ici 0) := by
  obtain ⟨w, hw⟩ := motion_acceleration (fun U => (o.mass U).2) o.massSymm m k hk
  refine ContinuousOn.congr ?_ (fun t ht => hw t ht)
  refine continuousOn_finsetSum _ fun i hi => continuousOn_const.mul ?_
  refine ((hF i (mem_range.mp hi)).sub ?_).sub ?_
  · exact continuousOn_finsetSum _ fun j hj => continuousOn_const.mul (Motion.continuous_v m j (mem_range.mp hj))
  · exact continuousOn_finsetSum _ fun j hj => continuousOn_const.mul (Motion.continuous_u m j (mem_range.mp hj))

/-- The trapezoidal rule over a step for a function whose rate varies by no more than `η`. -/
theorem trapezoid_first {f f' : ℝ → ℝ} (hf : ∀ t ≥ 0, HasDerivWithinAt f (f' t) (Set.Ici 0) t) {s dt η : ℝ} (hs : 0 ≤ s) (hdt : 0 < dt)
    (hη : ∀ x ∈ Set.Icc s (s + dt), ∀ y ∈ Set.Icc s (s + dt), |f' x - f' y| ≤ η) :
    |f (s + dt) - f s - dt / 2 * (f' s + f' (s + dt))| ≤ dt * η := by
  obtain ⟨c, hc, he⟩ := exists_hasDerivAt_eq_slope f f' (a := s) (b := s + dt) (by linarith)
    (fun x hx => ((hf x (hs.trans hx.1)).continuousWithinAt).mono fun y hy => hs.trans hy.1)
    (fun x hx => (hf x (hs.trans hx.1.le)).hasDerivAt (Ici_mem_nhds (lt_of_le_of_lt hs hx.1)))
  have e : f (s + dt) - f s = dt * f' c := by
    rw [he, add_sub_cancel_left]
    field_simp
  have hc' : c ∈ Set.Icc s (s + dt) := ⟨hc.1.le, hc.2.le⟩
  have h1 := hη c hc' s ⟨le_refl _, by linarith⟩
  have h2 := hη c hc' (s + dt) ⟨by linarith, le_refl _⟩
  rw [e, show dt * f' c - dt / 2 * (f' s + f' (s + dt)) = dt * (((f' c - f' s) + (f' c - f' (s + dt))) / 2) by ring, abs_mul,
    abs_of_pos hdt]
  refine mul_le_mul_of_nonneg_left ?_ hdt.le
  rw [abs_div, abs_two]
  have := abs_add_le (f' c - f' s) (f' c - f' (s + dt))
  linarith

/-- Steps and motion differ by errors to which `Oscillator.error_growth` applies. -/
theorem error_balance (m : Spec.Motion N M C K F u v a) {dt : ℝ} (hdt : 0 < dt) {U V A : ℕ → ℕ → ℝ}
    {l : ℕ} (st : Spec.NewmarkSteps N M C K (1 / 4) (1 / 2) dt l (fun n => F (n * dt)) U V A) (n : ℕ) (hn : n ≤ l) (k : ℕ) (hk : k < N) :
    ∑ j ∈ range N, (M k j * (A n j - a (n * dt) j) + C k j * (V n j - v (n * dt) j) + K k j * (U n j - u (n * dt) j)) = 0 := by
  have h1 := st.balance n hn k hk
  have h2 := m.balance (n * dt) (by positivity) k hk
  rw [show (0 : ℝ) = F (n * dt) k - F (n * dt) k by ring]
  nth_rewrite 1 [← h1]
  rw [← h2, ← sum_sub_distrib]
  exact sum_congr rfl fun j _ => by ring

theorem error_u {dt : ℝ} {U V A : ℕ → ℕ → ℝ} {F : ℕ → ℕ → ℝ} {l : ℕ}
    (st : Spec.NewmarkSteps N M C K (1 / 4) (1 / 2) dt l F U V A) (n : ℕ) (hn : n < l) (k : ℕ) (hk : k < N) :
    U (n + 1) k - u ((n + 1 : ℕ) * dt) k - (U n k - u (n * dt) k) -
        dt / 2 * ((V n k - v (n * dt) k) + (V (n + 1) k - v ((n + 1 : ℕ) * dt) k)) =
      -(u (n * dt + dt) k - u (n * dt) k - dt / 2 * (v (n * dt) k + v (n * dt + dt) k)) := by
  have h1 := st.velocity n hn k hk
  have h2 := st.displacement n hn k hk
  rw [h2, h1, show ((n + 1 : ℕ) : ℝ) * dt = n * dt + dt by push_cast; ring]
  ring

theorem error_v {dt : ℝ} {U V A : ℕ → ℕ → ℝ} {F : ℕ → ℕ → ℝ} {l : ℕ}
    (st : Spec.NewmarkSteps N M C K (1 / 4) (1 / 2) dt l F U V A) (n : ℕ) (hn : n < l) (k : ℕ) (hk : k < N) :
    V (n + 1) k - v ((n + 1 : ℕ) * dt) k - (V n k - v (n * dt) k) -
        dt / 2 * ((A n k - a (n * dt) k) + (A (n + 1) k - a ((n + 1 : ℕ) * dt) k)) =
      -(v (n * dt + dt) k - v (n * dt) k - dt / 2 * (a (n * dt) k + a (n * dt + dt) k)) := by
  have h1 := st.velocity n hn k hk
  rw [h1, show ((n + 1 : ℕ) : ℝ) * dt = n * dt + dt by push_cast; ring]
  ring

theorem step_end {dt T : ℝ} (hdt : 0 < dt) {m n : ℕ} (hmT : (m : ℝ) * dt ≤ T) (hn : n < m) : (n : ℝ) * dt + dt ≤ T := by
  have : ((n + 1 : ℕ) : ℝ) ≤ m := by exact_mod_cast hn
  have := mul_le_mul_of_nonneg_right this hdt.le
  push_cast at this
  linarith

theorem uniform_on (f : ℝ → ℕ → ℝ) (hf : ∀ k < N, ContinuousOn (fun t => f t k) (Set.Ici 0)) (T ε : ℝ) (hε : 0 < ε) :
    ∃ δ > 0, ∀ k < N, ∀ x ∈ Set.Icc 0 T, ∀ y ∈ Set.Icc 0 T, |x - y| < δ → |f x k - f y k| ≤ ε := by
  have h : ∀ k : Fin N, ∃ δ > 0, ∀ x ∈ Set.Icc 0 T, ∀ y ∈ Set.Icc 0 T, |x - y| < δ → |f x k - f y k| ≤ ε := by
    intro k
    have hc : ContinuousOn (fun t => f t k) (Set.Icc 0 T) := (hf k k.2).mono fun x hx => hx.1
    have hu := isCompact_Icc.uniformContinuousOn_of_continuous hc
    obtain ⟨δ, hδ, h⟩ := Metric.uniformContinuousOn_iff.mp hu ε hε
    exact ⟨δ, hδ, fun x hx y hy hxy => (h x hx y hy hxy).le⟩
  choose δ hδ h using h
  rcases Nat.eq_zero_or_pos N with h0 | hN
  · exact ⟨1, one_pos, fun k hk => absurd hk (by omega)⟩
  · have hne : (univ : Finset (Fin N)).Nonempty := ⟨⟨0, hN⟩, mem_univ _⟩
    refine ⟨univ.inf' hne δ, (lt_inf'_iff hne).mpr fun k _ => hδ k, fun k hk x hx y hy hxy => ?_⟩
    exact h ⟨k, hk⟩ x hx y hy (lt_of_lt_of_le hxy (inf'_le δ (mem_univ _)))

theorem Oscillator.stepsConverge (o : Oscillator N M C K) : Spec.StepsConverge N M C K := by
  intro F u v a hF m T hT ε hε
  obtain ⟨c, c0, hc⟩ := o.error_growth
  set η := ε / (c * T + 1) with hη
  have hpos : 0 < c * T + 1 := by have := mul_nonneg c0 hT.le; linarith
  have hη0 : 0 < η := div_pos hε hpos
  obtain ⟨δ1, hδ1, h1⟩ := uniform_on v (fun k hk => Motion.continuous_v m k hk) T η hη0
  obtain ⟨δ2, hδ2, h2⟩ := uniform_on a (fun k hk => o.continuous_a hF m k hk) T η hη0
  refine ⟨min δ1 δ2, lt_min hδ1 hδ2, fun dt hdt hlt n U V A hn st h0 k hk => ?_⟩
  have key := hc dt (dt * η) (fun n k => U n k - u (n * dt) k) (fun n k => V n k - v (n * dt) k) (fun n k => A n k - a (n * dt) k) n hdt
    (mul_nonneg hdt.le hη0.le) (fun i hi k hk => error_balance m hdt st i hi k hk)
    (fun k hk => by
      simp only [Nat.cast_zero, zero_mul]
      exact ⟨sub_eq_zero.mpr (h0 k hk).1, sub_eq_zero.mpr (h0 k hk).2⟩)
    (fun i hi k hk => by
      rw [error_u st i hi k hk, abs_neg]
      have hs : (0 : ℝ) ≤ i * dt := by positivity
      refine trapezoid_first (f := fun t => u t k) (f' := fun t => v t k) (fun t ht => m.velocity t ht k hk) hs hdt fun x hx y hy => ?_
      have he := step_end hdt hn hi
      exact h1 k hk x ⟨hs.trans hx.1, hx.2.trans he⟩ y ⟨hs.trans hy.1, hy.2.trans he⟩
        (lt_of_le_of_lt (abs_le.mpr ⟨by linarith [hx.1, hy.2], by linarith [hx.2, hy.1]⟩) (lt_of_lt_of_le hlt (min_le_left _ _))))
    (fun i hi k hk => by
      rw [error_v st i hi k hk, abs_neg]
      have hs : (0 : ℝ) ≤ i * dt := by positivity
      refine trapezoid_first (f := fun t => v t k) (f' := fun t => a t k) (fun t ht => m.acceleration t ht k hk) hs hdt fun x hx y hy => ?_
      have he := step_end hdt hn hi
      exact h2 k hk x ⟨hs.trans hx.1, hx.2.trans he⟩ y ⟨hs.trans hy.1, hy.2.trans he⟩
        (lt_of_le_of_lt (abs_le.mpr ⟨by linarith [hx.1, hy.2], by linarith [hx.2, hy.1]⟩) (lt_of_lt_of_le hlt (min_le_right _ _)))) k hk
  have bound : c * (n * (dt * η)) ≤ ε := by
    have e1 : c * (n * (dt * η)) = (c * (n * dt)) * η := by ring
    have e2 : c * (n * dt) ≤ c * T + 1 := by
      have := mul_le_mul_of_nonneg_left hn c0
      linarith
    rw [e1]
    refine (mul_le_mul_of_nonneg_right e2 hη0.le).trans (le_of_eq ?_)
    rw [hη]
    field_simp
  exact ⟨key.1.trans bound, key.2.1.trans bound, key.2.2.trans bound⟩

/-- The trapezoidal rule over a step for a smooth function. -/
theorem trapezoid_second {f f1 f2 f3 : ℝ → ℝ} (h1 : ∀ t ≥ 0, HasDerivWithinAt f (f1 t) (Set.Ici 0) t)
    (h2 : ∀ t ≥ 0, HasDerivWithinAt f1 (f2 t) (Set.Ici 0) t) (h3 : ∀ t ≥ 0, HasDerivWithinAt f2 (f3 t) (Set.Ici 0) t) {s dt b : ℝ} (hs : 0 ≤ s)
    (hdt : 0 < dt) (hb : ∀ x ∈ Set.Icc s (s + dt), |f3 x| ≤ b) :
    |f (s + dt) - f s - dt / 2 * (f1 s + f1 (s + dt))| ≤ b * dt ^ 3 := by
  have b0 : 0 ≤ b := (abs_nonneg _).trans (hb s ⟨le_refl _, by linarith⟩)
  have shift : ∀ g g' : ℝ → ℝ, (∀ t ≥ 0, HasDerivWithinAt g (g' t) (Set.Ici 0) t) → ∀ x ≥ 0,
      HasDerivWithinAt (fun x => g (s + x)) (g' (s + x)) (Set.Ici 0) x := by
    intro g g' hg x hx
    have := (hg (s + x) (by linarith)).comp_of_eq (s := Set.Ici 0) x ((hasDerivAt_id x).const_add s).hasDerivWithinAt
      (fun y hy => by simp only [Set.mem_Ici] at hy ⊢; simp only [id]; linarith) rfl
    exact this.congr_deriv (by simp)
  let φ := fun x => f (s + x) - f s - x / 2 * (f1 s + f1 (s + x))
  let φ1 := fun x => (f1 (s + x) - f1 s) / 2 - x / 2 * f2 (s + x)
  have d1 : ∀ x ≥ 0, HasDerivWithinAt φ (φ1 x) (Set.Ici 0) x := by
    intro x hx
    have e1 := shift f f1 h1 x hx
    have e2 := shift f1 f2 h2 x hx
    have e3 := ((hasDerivAt_id x).hasDerivWithinAt (s := Set.Ici 0)).div_const 2
    refine ((e1.sub_const (f s)).sub (e3.mul (e2.const_add (f1 s)))).congr_deriv ?_
    simp only [φ1, id]
    ring
  have d2 : ∀ x ≥ 0, HasDerivWithinAt φ1 (-(x / 2 * f3 (s + x))) (Set.Ici 0) x := by
    intro x hx
    have e1 := shift f1 f2 h2 x hx
    have e2 := shift f2 f3 h3 x hx
    have e3 := ((hasDerivAt_id x).hasDerivWithinAt (s := Set.Ici 0)).div_const 2
    refine (((e1.sub_const (f1 s)).div_const 2).sub (e3.mul e2)).congr_deriv ?_
    simp only [id]
    ring
  have meanvalue : ∀ (g g' : ℝ → ℝ), (∀ x ≥ 0, HasDerivWithinAt g (g' x) (Set.Ici 0) x) → g 0 = 0 → ∀ x ∈ Set.Icc 0 dt, ∀ B,
      (∀ y ∈ Set.Icc 0 x, |g' y| ≤ B) → |g x| ≤ B * x := by
    intro g g' hg hg0 x hx B hB
    rcases eq_or_lt_of_le hx.1 with rfl | hx0
    · simp [hg0]
    obtain ⟨c, hc, he⟩ := exists_hasDerivAt_eq_slope g g' hx0 (fun y hy => ((hg y hy.1).continuousWithinAt).mono fun z hz => hz.1)
      (fun y hy => (hg y hy.1.le).hasDerivAt (Ici_mem_nhds hy.1))
    have : g x = g' c * x := by
      rw [he, hg0]
      field_simp
      ring
    rw [this, abs_mul, abs_of_pos hx0]
    exact mul_le_mul_of_nonneg_right (hB c ⟨hc.1.le, hc.2.le⟩) hx0.le
  have g1 : ∀ x ∈ Set.Icc 0 dt, |φ1 x| ≤ b * dt * dt := by
    intro x hx
    refine (meanvalue φ1 _ d2 (by simp [φ1]) x hx (b * dt) fun y hy => ?_).trans
      (mul_le_mul_of_nonneg_left hx.2 (mul_nonneg b0 hdt.le))
    have hy2 : y ≤ dt := hy.2.trans hx.2
    have := hb (s + y) ⟨by linarith [hy.1], by linarith⟩
    rw [abs_neg, abs_mul, abs_of_nonneg (by linarith [hy.1] : 0 ≤ y / 2), mul_comm]
    exact mul_le_mul this (by linarith [hy.1]) (by linarith [hy.1]) b0
  have g2 := meanvalue φ φ1 d1 (by simp [φ]) dt ⟨hdt.le, le_refl _⟩ (b * dt * dt) g1
  calc _ = |φ dt| := rfl
    _ ≤ b * dt * dt * dt := g2
    _ = b * dt ^ 3 := by ring

theorem bounded_on (f : ℝ → ℕ → ℝ) (hf : ∀ k < N, ContinuousOn (fun t => f t k) (Set.Ici 0)) (T : ℝ) :
    ∃ b ≥ 0, ∀ k < N, ∀ x ∈ Set.Icc 0 T, |f x k| ≤ b := by
  have h : ∀ k : Fin N, ∃ b ≥ 0, ∀ x ∈ Set.Icc 0 T, |f x k| ≤ b := by
    intro k
    have hc : ContinuousOn (fun t => f t k) (Set.Icc 0 T) := (hf k k.2).mono fun x hx => hx.1
    obtain ⟨b, hb⟩ := isCompact_Icc.exists_bound_of_continuousOn hc
    exact ⟨max b 0, le_max_right _ _, fun x hx => (hb x hx).trans (le_max_left _ _)⟩
  choose b b0 h using h
  refine ⟨∑ k, b k, sum_nonneg fun k _ => b0 k, fun k hk x hx => (h ⟨k, hk⟩ x hx).trans ?_⟩
  exact single_le_sum (fun k _ => b0 k) (mem_univ _)

/-- The accelerations are as smooth as the load. -/
theorem Oscillator.deriv_a (o : Oscillator N M C K) {F' : ℝ → ℕ → ℝ}
    (hF : ∀ k < N, ∀ t ≥ 0, HasDerivWithinAt (fun s => F s k) (F' t k) (Set.Ici 0) t) (m : Spec.Motion N M C K F u v a) :
    ∃ b : ℝ → ℕ → ℝ, Spec.Motion N M C K F' v a b := by
  choose! w hw using fun k hk => motion_acceleration (fun U => (o.mass U).2) o.massSymm m k hk
  let b := fun (t : ℝ) (k : ℕ) => ∑ i ∈ range N, w k i * (F' t i - ∑ j ∈ range N, C i j * a t j - ∑ j ∈ range N, K i j * v t j)
  have hb : ∀ t ≥ 0, ∀ k < N, HasDerivWithinAt (fun s => a s k) (b t k) (Set.Ici 0) t := by
    intro t ht k hk
    have hd : HasDerivWithinAt (fun s => ∑ i ∈ range N, w k i * (F s i - ∑ j ∈ range N, C i j * v s j - ∑ j ∈ range N, K i j * u s j))
        (b t k) (Set.Ici 0) t := by
      refine HasDerivWithinAt.fun_sum fun i hi => HasDerivWithinAt.const_mul (w k i) ?_
      refine ((hF i (mem_range.mp hi) t ht).sub ?_).sub ?_
      · exact HasDerivWithinAt.fun_sum fun j hj => (m.acceleration t ht j (mem_range.mp hj)).const_mul _
      · exact HasDerivWithinAt.fun_sum fun j hj => (m.velocity t ht j (mem_range.mp hj)).const_mul _
    exact hd.congr (fun s hs => hw k hk s hs) (hw k hk t ht)
  refine ⟨b, m.acceleration, hb, fun t ht k hk => ?_⟩
  have h1 : HasDerivWithinAt (fun s => ∑ j ∈ range N, (M k j * a s j + C k j * v s j + K k j * u s j))
      (∑ j ∈ range N, (M k j * b t j + C k j * a t j + K k j * v t j)) (Set.Ici 0) t := by
    refine HasDerivWithinAt.fun_sum fun j hj => ?_
    have hj := mem_range.mp hj
    exact (((hb t ht j hj).const_mul _).add ((m.acceleration t ht j hj).const_mul _)).add ((m.velocity t ht j hj).const_mul _)
  have h2 := (hF k hk t ht).congr (fun s hs => m.balance s hs k hk) (m.balance t ht k hk)
  exact (uniqueDiffOn_Ici (0 : ℝ) t ht).eq_deriv _ h1 h2

theorem Oscillator.stepsSecondOrder (o : Oscillator N M C K) : Spec.StepsSecondOrder N M C K := by
  intro F F' F'' u v a hF hF' hF'' m T hT
  obtain ⟨c, c0, hc⟩ := o.error_growth
  obtain ⟨j, mj⟩ := o.deriv_a hF m
  obtain ⟨l, ml⟩ := o.deriv_a hF' mj
  obtain ⟨b1, b10, hb1⟩ := bounded_on j (fun k hk => Motion.continuous_v ml k hk) T
  obtain ⟨b2, b20, hb2⟩ := bounded_on l (fun k hk => o.continuous_a hF'' ml k hk) T
  refine ⟨c * T * max b1 b2, fun dt hdt n U V A hn st h0 k hk => ?_⟩
  have bm : 0 ≤ max b1 b2 := b10.trans (le_max_left _ _)
  have key := hc dt (max b1 b2 * dt ^ 3) (fun n k => U n k - u (n * dt) k) (fun n k => V n k - v (n * dt) k)
    (fun n k => A n k - a (n * dt) k) n hdt (mul_nonneg bm (by positivity)) (fun i hi k hk => error_balance m hdt st i hi k hk)
    (fun k hk => by
      simp only [Nat.cast_zero, zero_mul]
      exact ⟨sub_eq_zero.mpr (h0 k hk).1, sub_eq_zero.mpr (h0 k hk).2⟩)
    (fun i hi k hk => by
      rw [error_u st i hi k hk, abs_neg]
      have hs : (0 : ℝ) ≤ i * dt := by positivity
      have he := step_end hdt hn hi
      exact trapezoid_second (f := fun t => u t k) (f1 := fun t => v t k) (f2 := fun t => a t k) (f3 := fun t => j t k)
        (fun t ht => m.velocity t ht k hk) (fun t ht => m.acceleration t ht k hk) (fun t ht => mj.acceleration t ht k hk) hs hdt
        fun x hx => (hb1 k hk x ⟨hs.trans hx.1, hx.2.trans he⟩).trans (le_max_left _ _))
    (fun i hi k hk => by
      rw [error_v st i hi k hk, abs_neg]
      have hs : (0 : ℝ) ≤ i * dt := by positivity
      have he := step_end hdt hn hi
      exact trapezoid_second (f := fun t => v t k) (f1 := fun t => a t k) (f2 := fun t => j t k) (f3 := fun t => l t k)
        (fun t ht => m.acceleration t ht k hk) (fun t ht => mj.acceleration t ht k hk) (fun t ht => ml.acceleration t ht k hk) hs hdt
        fun x hx => (hb2 k hk x ⟨hs.trans hx.1, hx.2.trans he⟩).trans (le_max_right _ _)) k hk
  have bound : c * (n * (max b1 b2 * dt ^ 3)) ≤ c * T * max b1 b2 * dt ^ 2 := by
    have e1 : c * (n * (max b1 b2 * dt ^ 3)) = (n * dt) * (c * max b1 b2 * dt ^ 2) := by ring
    rw [e1, show c * T * max b1 b2 * dt ^ 2 = T * (c * max b1 b2 * dt ^ 2) by ring]
    exact mul_le_mul_of_nonneg_right hn (by positivity)
  exact ⟨key.1.trans bound, key.2.1.trans bound, key.2.2.trans bound⟩

end motion

end Rose
