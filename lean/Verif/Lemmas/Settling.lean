/-
Average acceleration steps of a damped system under a constant load approach the static solution.
-/
import Verif.Lemmas.TimeStepping

set_option linter.unusedSectionVars false

namespace Rose
open Finset Filter Topology

variable {N : ℕ} {M C K : ℕ → ℕ → ℝ}

theorem rows_vanish (g : ℕ → ℕ → ℝ) (x : ℕ → ℕ → ℝ) (h : ∀ j < N, Tendsto (fun n => x n j) atTop (𝓝 0)) (k : ℕ) :
    Tendsto (fun n => ∑ j ∈ range N, g k j * x n j) atTop (𝓝 0) := by
  have := tendsto_finsetSum (range N) (f := fun j n => g k j * x n j) (a := fun j => g k j * 0) (x := atTop)
    fun j hj => (h j (mem_range.mp hj)).const_mul (g k j)
  simpa using this

theorem vanish_of_rows (g : ℕ → ℕ → ℝ) (hg : ∀ i < N, ∀ j < N, g i j = g j i) (hd : ∀ U, form N g U U = 0 → ∀ k < N, U k = 0)
    (x : ℕ → ℕ → ℝ) (h : ∀ k < N, Tendsto (fun n => ∑ j ∈ range N, g k j * x n j) atTop (𝓝 0)) (k : ℕ) (hk : k < N) :
    Tendsto (fun n => x n k) atTop (𝓝 0) := by
  obtain ⟨w, hw⟩ := form_reads g hg hd k hk
  have := tendsto_finsetSum (range N) (f := fun i n => w i * ∑ j ∈ range N, g i j * x n j) (a := fun i => w i * 0) (x := atTop)
    fun i hi => (h i (mem_range.mp hi)).const_mul (w i)
  simp only [mul_zero, sum_const_zero] at this
  refine this.congr fun n => ?_
  rw [← hw (x n), form_rows]

/-- Without load, everything comes to rest. -/
theorem Oscillator.rest (o : Oscillator N M C K) (hC : ∀ U, form N C U U = 0 → ∀ k < N, U k = 0) {dt : ℝ} (hdt : 0 < dt)
    {u v a : ℕ → ℕ → ℝ} (st : ∀ m, Spec.NewmarkSteps N M C K (1 / 4) (1 / 2) dt m (fun _ _ => 0) u v a) (k : ℕ) (hk : k < N) :
    Tendsto (fun n => u n k) atTop (𝓝 0) ∧ Tendsto (fun n => v n k) atTop (𝓝 0) ∧ Tendsto (fun n => a n k) atTop (𝓝 0) := by
  have hne : dt ≠ 0 := hdt.ne'
  -- energy
  set E : ℕ → ℝ := fun n => Spec.vibrationEnergy N M K (u n) (v n) with hE
  set D : ℕ → ℝ := fun n => form N C (fun k => (v n k + v (n + 1) k) / 2) (fun k => (v n k + v (n + 1) k) / 2) with hD
  have hstep : ∀ n, E n - E (n + 1) = dt * D n := by
    intro n
    have := o.stepsEnergy dt (n + 1) _ u v a (st (n + 1)) n (Nat.lt_succ_self n)
    have hs : ∑ k ∈ range N, ((0 : ℝ) + 0) / 2 * (u (n + 1) k - u n k) = 0 := by simp
    rw [hs] at this
    simp only [hE, hD, form]
    linarith
  have hD0 : ∀ n, 0 ≤ D n := fun n => o.damp _
  have hanti : Antitone E := antitone_nat_of_succ_le fun n => by
    have := hstep n
    have := mul_nonneg hdt.le (hD0 n)
    linarith
  have hE0 : ∀ n, 0 ≤ E n := fun n => o.energyLaw.nonneg _ _
  have hlim := tendsto_atTop_ciInf hanti ⟨0, by rintro _ ⟨n, rfl⟩; exact hE0 n⟩
  have hDlim : Tendsto D atTop (𝓝 0) := by
    have h1 := hlim.sub ((tendsto_add_atTop_iff_nat 1).mpr hlim)
    rw [sub_self] at h1
    have h2 := h1.const_mul (1 / dt)
    rw [mul_zero] at h2
    refine h2.congr fun n => ?_
    rw [hstep n]
    field_simp
  -- mean velocities
  obtain ⟨c, hc, hb⟩ := form_bounds C o.dampSymm fun U => ⟨o.damp U, hC U⟩
  have hmean : ∀ k < N, Tendsto (fun n => v n k + v (n + 1) k) atTop (𝓝 0) := by
    intro k hk
    have h1 : Tendsto (fun n => c * √(D n)) atTop (𝓝 0) := by
      have := (hDlim.sqrt).const_mul c
      simpa using this
    have h2 : Tendsto (fun n => (v n k + v (n + 1) k) / 2) atTop (𝓝 0) :=
      squeeze_zero_norm (fun n => by rw [Real.norm_eq_abs]; exact hb (fun k => (v n k + v (n + 1) k) / 2) k hk) h1
    have h3 := h2.const_mul 2
    rw [mul_zero] at h3
    exact h3.congr fun n => by ring
  have hdu : ∀ n, ∀ k < N, u (n + 1) k - u n k = dt / 2 * (v n k + v (n + 1) k) := by
    intro n k hk
    have h1 := (st (n + 1)).displacement n (Nat.lt_succ_self n) k hk
    have h2 := (st (n + 1)).velocity n (Nat.lt_succ_self n) k hk
    linear_combination h1 - dt / 2 * h2
  have hud : ∀ k < N, Tendsto (fun n => u (n + 1) k - u n k) atTop (𝓝 0) := by
    intro k hk
    have := (hmean k hk).const_mul (dt / 2)
    rw [mul_zero] at this
    exact this.congr fun n => (hdu n k hk).symm
  have hav : ∀ n, ∀ k < N, a n k + a (n + 1) k = 2 / dt * (v (n + 1) k - v n k) := by
    intro n k hk
    have h2 := (st (n + 1)).velocity n (Nat.lt_succ_self n) k hk
    rw [h2]
    field_simp
    ring
  have row : ∀ n, ∀ k < N, ∑ j ∈ range N, M k j * a n j + ∑ j ∈ range N, C k j * v n j + ∑ j ∈ range N, K k j * u n j = 0 := by
    intro n k hk
    have := (st n).balance n le_rfl k hk
    rwa [sum_three] at this
  -- the mode of sign changes
  have hZ : ∀ k < N, Tendsto (fun n => ∑ j ∈ range N, K k j * u n j - 2 / dt * ∑ j ∈ range N, M k j * v n j) atTop (𝓝 0) := by
    intro k hk
    have h1 := rows_vanish C (fun n k => v n k + v (n + 1) k) hmean k
    have h2 := rows_vanish K (fun n k => u (n + 1) k - u n k) hud k
    have h3 := rows_vanish M (fun n k => v n k + v (n + 1) k) hmean k
    have h4 := ((h1.const_mul (-1 / 2)).add (h2.const_mul (-1 / 2))).add (h3.const_mul (-1 / dt))
    simp only [mul_zero, add_zero] at h4
    refine h4.congr fun n => ?_
    have e1 := row n k hk
    have e2 := row (n + 1) k hk
    have e3 : ∑ j ∈ range N, M k j * a n j + ∑ j ∈ range N, M k j * a (n + 1) j =
        2 / dt * (∑ j ∈ range N, M k j * v (n + 1) j - ∑ j ∈ range N, M k j * v n j) := by
      rw [← sum_add_distrib, ← sum_sub_distrib, mul_sum]
      refine sum_congr rfl fun j hj => ?_
      rw [← mul_add, hav n j (mem_range.mp hj)]
      ring
    simp only [mul_add, mul_sub, sum_add_distrib, sum_sub_distrib]
    field_simp at e3 ⊢
    linear_combination (-dt) * e1 + (-dt) * e2 + e3
  have hdv : ∀ k < N, Tendsto (fun n => v (n + 1) k - v n k) atTop (𝓝 0) := by
    refine vanish_of_rows M o.massSymm (fun U => (o.mass U).2) (fun n k => v (n + 1) k - v n k) fun k hk => ?_
    have h1 := ((tendsto_add_atTop_iff_nat 1).mpr (hZ k hk)).sub (hZ k hk)
    have h2 := rows_vanish K (fun n k => u (n + 1) k - u n k) hud k
    have h3 := (h2.sub h1).const_mul (dt / 2)
    simp only [sub_self, mul_zero] at h3
    refine h3.congr fun n => ?_
    simp only [mul_sub, sum_sub_distrib]
    field_simp
    ring
  have hv : ∀ k < N, Tendsto (fun n => v n k) atTop (𝓝 0) := by
    intro k hk
    have := ((hmean k hk).sub (hdv k hk)).const_mul (1 / 2)
    simp only [sub_self, mul_zero] at this
    exact this.congr fun n => by ring
  have hKu : ∀ k < N, Tendsto (fun n => ∑ j ∈ range N, K k j * u n j) atTop (𝓝 0) := by
    intro k hk
    have h1 := (hZ k hk).add ((rows_vanish M v hv k).const_mul (2 / dt))
    simp only [mul_zero, add_zero] at h1
    exact h1.congr fun n => by ring
  have hMa : ∀ k < N, Tendsto (fun n => ∑ j ∈ range N, M k j * a n j) atTop (𝓝 0) := by
    intro k hk
    have h1 := ((rows_vanish C v hv k).add (hKu k hk)).const_mul (-1)
    simp only [mul_zero, add_zero] at h1
    refine h1.congr fun n => ?_
    have := row n k hk
    linarith
  exact ⟨vanish_of_rows K o.stiffSymm (fun U => (o.stiff U).2) u hKu k hk, hv k hk,
    vanish_of_rows M o.massSymm (fun U => (o.mass U).2) a hMa k hk⟩

/-- Under a load that stays constant, the steps approach the static solution. -/
theorem Oscillator.settles (o : Oscillator N M C K) (hC : ∀ U, form N C U U = 0 → ∀ k < N, U k = 0) {dt : ℝ} (hdt : 0 < dt)
    {F u v a : ℕ → ℕ → ℝ} (st : ∀ m, Spec.NewmarkSteps N M C K (1 / 4) (1 / 2) dt m F u v a) {s : ℕ}
    (hF : ∀ t ≥ s, ∀ k < N, F t k = F s k) {w : ℕ → ℝ} (hw : ∀ k < N, ∑ j ∈ range N, K k j * w j = F s k) (k : ℕ) (hk : k < N) :
    Tendsto (fun n => u n k) atTop (𝓝 (w k)) ∧ Tendsto (fun n => v n k) atTop (𝓝 0) ∧ Tendsto (fun n => a n k) atTop (𝓝 0) := by
  have steps : ∀ m, Spec.NewmarkSteps N M C K (1 / 4) (1 / 2) dt m (fun _ _ => 0) (fun n k => u (n + s) k - w k) (fun n => v (n + s))
      (fun n => a (n + s)) := by
    intro m
    refine ⟨fun n hn k hk => ?_, fun n hn k hk => ?_, fun n hn k hk => ?_⟩
    · have h1 := (st (n + s)).balance (n + s) le_rfl k hk
      have h2 := hw k hk
      rw [sum_three] at h1 ⊢
      rw [hF (n + s) (by omega) k hk, ← h2] at h1
      simp only [mul_sub, sum_sub_distrib]
      linarith
    · have := (st (n + s + 1)).displacement (n + s) (Nat.lt_succ_self _) k hk
      have e : n + 1 + s = n + s + 1 := by omega
      simp only [e]
      rw [this]
      ring
    · have := (st (n + s + 1)).velocity (n + s) (Nat.lt_succ_self _) k hk
      have e : n + 1 + s = n + s + 1 := by omega
      simp only [e]
      rw [this]
  obtain ⟨h1, h2, h3⟩ := o.rest hC hdt steps k hk
  refine ⟨?_, (tendsto_add_atTop_iff_nat (f := fun n => v n k) s).mp h2, (tendsto_add_atTop_iff_nat (f := fun n => a n k) s).mp h3⟩
  have h4 := h1.add_const (w k)
  simp only [zero_add, sub_add_cancel] at h4
  exact (tendsto_add_atTop_iff_nat (f := fun n => u n k) s).mp h4

end Rose
