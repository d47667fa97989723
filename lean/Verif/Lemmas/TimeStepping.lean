/-
Newmark steps of systems with a positive definite mass and stiffness matrix: existence, stability and convergence.
-/
import Verif.Lemmas.TimeSteps

set_option linter.unusedSectionVars false

namespace Rose
open Finset

variable {N : ℕ} {M C K : ℕ → ℕ → ℝ}

/-! ### Equations with a definite matrix -/

theorem definite_solve (g : ℕ → ℕ → ℝ) (h : ∀ U, form N g U U = 0 → ∀ k < N, U k = 0) :
    ∃ f : (ℕ → ℝ) → ℕ → ℝ, ∀ b, ∀ k < N, ∑ j ∈ range N, g k j * f b j = b k := by
  let L := LinearEquiv.ofInjectiveEndo (rowsMap N g) (mass_injective h)
  refine ⟨fun b => spread (L.symm fun k => b k), fun b k hk => ?_⟩
  have h1 : rowsMap N g (L.symm fun k => b k) = fun k : Fin N => b k := L.apply_symm_apply _
  have := congrFun h1 ⟨k, hk⟩
  rw [rowsMap_apply] at this
  rw [Finset.sum_range]
  simpa [spread_fin] using this

theorem definite_unique (g : ℕ → ℕ → ℝ) (h : ∀ U, form N g U U = 0 → ∀ k < N, U k = 0) (x y : ℕ → ℝ)
    (hxy : ∀ k < N, ∑ j ∈ range N, g k j * x j = ∑ j ∈ range N, g k j * y j) : ∀ k < N, x k = y k := by
  intro k hk
  have := h (x - y) (by
    rw [form_rows]
    refine sum_eq_zero fun i hi => ?_
    have : ∑ j ∈ range N, g i j * (x - y) j = 0 := by
      simp only [Pi.sub_apply, mul_sub, sum_sub_distrib, hxy i (mem_range.mp hi), sub_self]
    rw [this, mul_zero]) k hk
  exact sub_eq_zero.mp this

theorem definite_small (g : ℕ → ℕ → ℝ) (hg : ∀ i < N, ∀ j < N, g i j = g j i) (h : ∀ U, form N g U U = 0 → ∀ k < N, U k = 0) :
    ∃ c ≥ 0, ∀ (x : ℕ → ℝ) (ε : ℝ), (∀ k < N, |∑ j ∈ range N, g k j * x j| ≤ ε) → ∀ k < N, |x k| ≤ c * ε := by
  choose w hw using fun k : Fin N => form_reads g hg h k k.2
  refine ⟨∑ k : Fin N, ∑ i ∈ range N, |w k i|, sum_nonneg fun _ _ => sum_nonneg fun _ _ => abs_nonneg _, fun x ε hx k hk => ?_⟩
  have hε : 0 ≤ ε := (abs_nonneg _).trans (hx k hk)
  rw [← hw ⟨k, hk⟩ x, form_rows]
  refine (abs_sum_le_sum_abs _ _).trans ?_
  refine le_trans ?_ (mul_le_mul_of_nonneg_right
    (single_le_sum (f := fun k : Fin N => ∑ i ∈ range N, |w k i|) (fun _ _ => sum_nonneg fun _ _ => abs_nonneg _) (mem_univ ⟨k, hk⟩)) hε)
  rw [sum_mul]
  refine sum_le_sum fun i hi => ?_
  rw [abs_mul]
  exact mul_le_mul_of_nonneg_left (hx i (mem_range.mp hi)) (abs_nonneg _)

theorem rows_small (g : ℕ → ℕ → ℝ) :
    ∃ c ≥ 0, ∀ (x : ℕ → ℝ) (ε : ℝ), (∀ k < N, |x k| ≤ ε) → ∀ k < N, |∑ j ∈ range N, g k j * x j| ≤ c * ε := by
  refine ⟨∑ i ∈ range N, ∑ j ∈ range N, |g i j|, sum_nonneg fun _ _ => sum_nonneg fun _ _ => abs_nonneg _, fun x ε hx k hk => ?_⟩
  have hε : 0 ≤ ε := (abs_nonneg _).trans (hx k hk)
  refine (abs_sum_le_sum_abs _ _).trans ?_
  refine le_trans ?_ (mul_le_mul_of_nonneg_right
    (single_le_sum (f := fun i => ∑ j ∈ range N, |g i j|) (fun _ _ => sum_nonneg fun _ _ => abs_nonneg _) (mem_range.mpr hk)) hε)
  rw [sum_mul]
  refine sum_le_sum fun j hj => ?_
  rw [abs_mul]
  exact mul_le_mul_of_nonneg_left (hx j (mem_range.mp hj)) (abs_nonneg _)

/-! ### Existence -/

/-- The matrix of the accelerations at the end of a step. -/
def stepMatrix (M C K : ℕ → ℕ → ℝ) (β γ dt : ℝ) (i j : ℕ) : ℝ := M i j + γ * dt * C i j + β * dt ^ 2 * K i j

theorem stepMatrix_rows (β γ dt : ℝ) (k : ℕ) (x : ℕ → ℝ) : ∑ j ∈ range N, stepMatrix M C K β γ dt k j * x j =
    ∑ j ∈ range N, M k j * x j + γ * dt * ∑ j ∈ range N, C k j * x j + β * dt ^ 2 * ∑ j ∈ range N, K k j * x j := by
  rw [mul_sum, mul_sum, ← sum_add_distrib, ← sum_add_distrib]
  exact sum_congr rfl fun j _ => by unfold stepMatrix; ring

theorem stepMatrix_form (β γ dt : ℝ) (x : ℕ → ℝ) : form N (stepMatrix M C K β γ dt) x x =
    form N M x x + γ * dt * form N C x x + β * dt ^ 2 * form N K x x := by
  simp only [form_rows, stepMatrix_rows, mul_add, sum_add_distrib]
  rw [mul_sum, mul_sum]
  refine congrArg₂ _ (congrArg₂ _ rfl ?_) ?_ <;> exact sum_congr rfl fun j _ => by ring

theorem Oscillator.step_definite (o : Oscillator N M C K) {β γ dt : ℝ} (hβ : 0 ≤ β) (hγ : 0 ≤ γ) (hdt : 0 < dt) (U : ℕ → ℝ)
    (h : form N (stepMatrix M C K β γ dt) U U = 0) : ∀ k < N, U k = 0 := by
  rw [stepMatrix_form] at h
  have h1 := (o.mass U).1
  have h2 := mul_nonneg (mul_nonneg hγ hdt.le) (o.damp U)
  have h3 := mul_nonneg (mul_nonneg hβ (sq_nonneg dt)) (o.stiff U).1
  exact (o.mass U).2 (by linarith)

theorem sum_three (k : ℕ) (a v u : ℕ → ℝ) : ∑ j ∈ range N, (M k j * a j + C k j * v j + K k j * u j) =
    ∑ j ∈ range N, M k j * a j + ∑ j ∈ range N, C k j * v j + ∑ j ∈ range N, K k j * u j := by
  rw [sum_add_distrib, sum_add_distrib]

theorem rows_affine (g : ℕ → ℕ → ℝ) (k : ℕ) (c : ℝ) (x y z : ℕ → ℝ) (h : ∀ j < N, z j = x j + c * y j) :
    ∑ j ∈ range N, g k j * z j = ∑ j ∈ range N, g k j * x j + c * ∑ j ∈ range N, g k j * y j := by
  rw [mul_sum, ← sum_add_distrib]
  exact sum_congr rfl fun j hj => by rw [h j (mem_range.mp hj)]; ring

theorem Oscillator.stepsDefined (o : Oscillator N M C K) {β γ dt : ℝ} (hβ : 0 ≤ β) (hγ : 0 ≤ γ) (hdt : 0 < dt) :
    Spec.StepsDefined N M C K β γ dt := by
  intro F u₀ v₀
  obtain ⟨f, hf⟩ := definite_solve (N := N) M fun U => (o.mass U).2
  obtain ⟨s, hs⟩ := definite_solve (N := N) (stepMatrix M C K β γ dt) (o.step_definite hβ hγ hdt)
  let rows := fun (g : ℕ → ℕ → ℝ) (x : ℕ → ℝ) (k : ℕ) => ∑ j ∈ range N, g k j * x j
  let up := fun x : (ℕ → ℝ) × (ℕ → ℝ) × (ℕ → ℝ) => fun k => x.1 k + dt * x.2.1 k + dt ^ 2 * ((1 / 2 - β) * x.2.2 k)
  let vp := fun x : (ℕ → ℝ) × (ℕ → ℝ) × (ℕ → ℝ) => fun k => x.2.1 k + dt * ((1 - γ) * x.2.2 k)
  let acc := fun (n : ℕ) (x : (ℕ → ℝ) × (ℕ → ℝ) × (ℕ → ℝ)) => s fun k => F (n + 1) k - rows C (vp x) k - rows K (up x) k
  let X : ℕ → (ℕ → ℝ) × (ℕ → ℝ) × (ℕ → ℝ) := fun n => Nat.rec (u₀, v₀, f fun k => F 0 k - rows C v₀ k - rows K u₀ k)
    (fun n x => (fun k => up x k + β * dt ^ 2 * acc n x k, fun k => vp x k + γ * dt * acc n x k, acc n x)) n
  have hX : ∀ n, X (n + 1) = (fun k => up (X n) k + β * dt ^ 2 * acc n (X n) k, fun k => vp (X n) k + γ * dt * acc n (X n) k, acc n (X n)) :=
    fun n => rfl
  refine ⟨fun n => (X n).1, fun n => (X n).2.1, fun n => (X n).2.2, fun m => ⟨?_, ?_, ?_⟩, fun k _ => ⟨rfl, rfl⟩, ?_⟩
  · rintro (_ | n) - k hk
    · rw [sum_three, show (X 0).2.2 = f fun k => F 0 k - rows C v₀ k - rows K u₀ k from rfl, hf _ k hk]
      show F 0 k - rows C v₀ k - rows K u₀ k + rows C v₀ k + rows K u₀ k = F 0 k
      ring
    · have h1 := hs (fun k => F (n + 1) k - rows C (vp (X n)) k - rows K (up (X n)) k) k hk
      rw [stepMatrix_rows] at h1
      rw [sum_three, rows_affine C k _ (vp (X n)) (acc n (X n)) (X (n + 1)).2.1 (fun j _ => by rw [hX]),
        rows_affine K k _ (up (X n)) (acc n (X n)) (X (n + 1)).1 (fun j _ => by rw [hX]), show (X (n + 1)).2.2 = acc n (X n) by rw [hX]]
      have h2 : ∑ j ∈ range N, M k j * acc n (X n) j + γ * dt * ∑ j ∈ range N, C k j * acc n (X n) j +
        β * dt ^ 2 * ∑ j ∈ range N, K k j * acc n (X n) j = F (n + 1) k - rows C (vp (X n)) k - rows K (up (X n)) k := h1
      simp only [rows] at h2
      linarith
  · intro n _ k _
    simp only [hX, up]
    ring
  · intro n _ k _
    simp only [hX, vp]
    ring
  · intro m u' v' a' st h0 n
    induction n with
    | zero =>
      intro _ k hk
      refine ⟨(h0 k hk).1, (h0 k hk).2, definite_unique M (fun U => (o.mass U).2) (a' 0) (X 0).2.2 (fun i hi => ?_) k hk⟩
      rw [show (X 0).2.2 = f fun k => F 0 k - rows C v₀ k - rows K u₀ k from rfl, hf _ i hi]
      have := st.balance 0 (Nat.zero_le _) i hi
      rw [sum_three] at this
      have e1 := sum_congr rfl fun j (hj : j ∈ range N) => congrArg (C i j * ·) (h0 j (mem_range.mp hj)).2
      have e2 := sum_congr rfl fun j (hj : j ∈ range N) => congrArg (K i j * ·) (h0 j (mem_range.mp hj)).1
      rw [e1, e2] at this
      simp only [rows]
      linarith
    | succ n ih =>
      intro hn
      have ih := ih (by omega)
      have ha : ∀ k < N, a' (n + 1) k = (X (n + 1)).2.2 k := by
        refine definite_unique (stepMatrix M C K β γ dt) (o.step_definite hβ hγ hdt) _ _ fun i hi => ?_
        rw [show (X (n + 1)).2.2 = acc n (X n) by rw [hX], hs _ i hi, stepMatrix_rows]
        have := st.balance (n + 1) hn i hi
        rw [sum_three, rows_affine C i (γ * dt) (vp (X n)) (a' (n + 1)) (v' (n + 1)) (fun j hj => by
            rw [st.velocity n hn j hj, (ih j hj).2.1, (ih j hj).2.2]; simp only [vp]; ring),
          rows_affine K i (β * dt ^ 2) (up (X n)) (a' (n + 1)) (u' (n + 1)) (fun j hj => by
            rw [st.displacement n hn j hj, (ih j hj).1, (ih j hj).2.1, (ih j hj).2.2]; simp only [up]; ring)] at this
        simp only [rows]
        linarith
      intro k hk
      refine ⟨?_, ?_, ha k hk⟩
      · rw [st.displacement n hn k hk, ha k hk, (ih k hk).1, (ih k hk).2.1, (ih k hk).2.2]
        simp only [hX, up]
        ring
      · rw [st.velocity n hn k hk, ha k hk, (ih k hk).2.1, (ih k hk).2.2]
        simp only [hX, vp]
        ring

/-! ### Stability -/

theorem form_diff (g : ℕ → ℕ → ℝ) (hg : ∀ i < N, ∀ j < N, g i j = g j i) (x y : ℕ → ℝ) :
    form N g (x + y) (y - x) = form N g y y - form N g x x := by
  rw [form_add_left, form_sub_right, form_sub_right, form_swap g hg y x]
  ring

theorem Oscillator.stepsBounded (o : Oscillator N M C K) {β γ dt : ℝ} (hγ : 1 / 2 ≤ γ) (hβ : γ ≤ 2 * β) (hdt : 0 < dt) :
    Spec.StepsBounded N M C K β γ dt := by
  intro F₀ u v a st
  set η := β - γ / 2 with hη
  set δ := γ - 1 / 2 with hδ
  have hη0 : 0 ≤ η := by rw [hη]; linarith
  have hδ0 : 0 ≤ δ := by rw [hδ]; linarith
  let Q := fun n => form N M (a n) (a n) + dt ^ 2 * η * form N K (a n) (a n) + form N K (v n) (v n)
  have step : ∀ n, Q (n + 1) ≤ Q n := by
    intro n
    set x := a n
    set y := a (n + 1)
    set p := v n
    set q := v (n + 1)
    have hb : form N M (q - p) (y - x) + form N C (q - p) (q - p) + form N K (q - p) (u (n + 1) - u n) = 0 := by
      rw [form_rows, form_rows, form_rows, ← sum_add_distrib, ← sum_add_distrib]
      refine sum_eq_zero fun k hk => ?_
      have h1 := (st n).balance n le_rfl k (mem_range.mp hk)
      have h2 := (st (n + 1)).balance (n + 1) le_rfl k (mem_range.mp hk)
      rw [sum_three] at h1 h2
      simp only [Pi.sub_apply, mul_sub, sum_sub_distrib]
      linear_combination ((q k - p k) * (h2 - h1))
    have ev : ∀ k < N, (q - p) k = ((dt / 2) • (x + y) + (dt * δ) • (y - x)) k := by
      intro k hk
      simp only [Pi.sub_apply, Pi.add_apply, Pi.smul_apply, smul_eq_mul]
      have := (st (n + 1)).velocity n (Nat.lt_succ_self n) k hk
      simp only [q, p, x, y, this, hδ]
      ring
    have eu : ∀ k < N, (u (n + 1) - u n) k = ((dt / 2) • (p + q) + (dt ^ 2 * η) • (y - x)) k := by
      intro k hk
      simp only [Pi.sub_apply, Pi.add_apply, Pi.smul_apply, smul_eq_mul]
      have h1 := (st (n + 1)).velocity n (Nat.lt_succ_self n) k hk
      have h2 := (st (n + 1)).displacement n (Nat.lt_succ_self n) k hk
      simp only [q, p, x, y, h1, h2, hη]
      ring
    have part : ∀ g : ℕ → ℕ → ℝ, (∀ i < N, ∀ j < N, g i j = g j i) →
        form N g (q - p) (y - x) = dt / 2 * (form N g y y - form N g x x) + dt * δ * form N g (y - x) (y - x) := by
      intro g hg
      rw [form_congr g ev (fun _ _ => rfl), form_add_left, form_smul_left, form_smul_left, form_diff g hg]
    have hK : form N K (q - p) (u (n + 1) - u n) = dt / 2 * (form N K q q - form N K p p) + dt ^ 2 * η * form N K (q - p) (y - x) := by
      rw [form_congr K (fun _ _ => rfl) eu, form_add_right, form_smul_right, form_smul_right, form_swap K o.stiffSymm (q - p) (p + q),
        form_diff K o.stiffSymm]
    rw [hK, part M o.massSymm, part K o.stiffSymm] at hb
    have n1 := o.damp (q - p)
    have n2 := mul_nonneg (mul_nonneg hdt.le hδ0) (o.mass (y - x)).1
    have n3 := mul_nonneg (mul_nonneg (sq_nonneg dt) hη0) (mul_nonneg (mul_nonneg hdt.le hδ0) (o.stiff (y - x)).1)
    have : dt / 2 * (Q (n + 1) - Q n) ≤ 0 := by
      simp only [Q]
      nlinarith
    have := nonpos_of_mul_nonpos_right this (by positivity)
    linarith
  have hQ : ∀ n, Q n ≤ Q 0 := by
    intro n
    induction n with
    | zero => exact le_refl _
    | succ n ih => exact (step n).trans ih
  obtain ⟨cM, cM0, hcM⟩ := form_bounds M o.massSymm o.mass
  obtain ⟨cK, cK0, hcK⟩ := form_bounds K o.stiffSymm o.stiff
  obtain ⟨rM, rM0, hrM⟩ := rows_small (N := N) M
  obtain ⟨rC, rC0, hrC⟩ := rows_small (N := N) C
  obtain ⟨s, s0, hs⟩ := definite_small K o.stiffSymm fun U => (o.stiff U).2
  have ha : ∀ n, ∀ k < N, |a n k| ≤ cM * √(Q 0) := by
    intro n k hk
    refine (hcM (a n) k hk).trans (mul_le_mul_of_nonneg_left (Real.sqrt_le_sqrt ?_) cM0)
    refine le_trans ?_ (hQ n)
    have h1 := mul_nonneg (mul_nonneg (sq_nonneg dt) hη0) (o.stiff (a n)).1
    have h2 := (o.stiff (v n)).1
    simp only [Q]
    linarith
  have hv : ∀ n, ∀ k < N, |v n k| ≤ cK * √(Q 0) := by
    intro n k hk
    refine (hcK (v n) k hk).trans (mul_le_mul_of_nonneg_left (Real.sqrt_le_sqrt ?_) cK0)
    refine le_trans ?_ (hQ n)
    have h1 := mul_nonneg (mul_nonneg (sq_nonneg dt) hη0) (o.stiff (a n)).1
    have h2 := (o.mass (a n)).1
    simp only [Q]
    linarith
  set A := cM * √(Q 0)
  set V := cK * √(Q 0)
  set f := ∑ k ∈ range N, |F₀ k|
  set U := s * (f + rM * A + rC * V)
  have hu : ∀ n, ∀ k < N, |u n k| ≤ U := by
    intro n
    refine hs (u n) _ fun k hk => ?_
    have h1 := (st n).balance n le_rfl k hk
    rw [sum_three] at h1
    have h2 := hrM (a n) A (ha n) k hk
    have h3 := hrC (v n) V (hv n) k hk
    have h4 : |F₀ k| ≤ f := single_le_sum (f := fun k => |F₀ k|) (fun _ _ => abs_nonneg _) (mem_range.mpr hk)
    rw [show ∑ j ∈ range N, K k j * u n j = F₀ k - ∑ j ∈ range N, M k j * a n j - ∑ j ∈ range N, C k j * v n j by linarith]
    refine (abs_sub _ _).trans ?_
    have := abs_sub (F₀ k) (∑ j ∈ range N, M k j * a n j)
    linarith
  exact ⟨max U (max V A), fun n k hk => ⟨(hu n k hk).trans (le_max_left _ _),
    (hv n k hk).trans ((le_max_left _ _).trans (le_max_right _ _)), (ha n k hk).trans ((le_max_right _ _).trans (le_max_right _ _))⟩⟩

theorem Oscillator.stepsEnergy (o : Oscillator N M C K) : Spec.StepsEnergy N M C K := by
  intro dt m F u v a st n hn
  rw [energy_form, energy_form]
  set x := a n
  set y := a (n + 1)
  set p := v n
  set q := v (n + 1)
  have ev : ∀ k < N, (q - p) k = ((dt / 2) • (x + y)) k := by
    intro k hk
    simp only [Pi.sub_apply, Pi.add_apply, Pi.smul_apply, smul_eq_mul]
    have := st.velocity n hn k hk
    simp only [q, p, x, y, this]
    ring
  have eu : ∀ k < N, (u (n + 1) - u n) k = ((dt / 2) • (p + q)) k := by
    intro k hk
    simp only [Pi.sub_apply, Pi.add_apply, Pi.smul_apply, smul_eq_mul]
    have h1 := st.velocity n hn k hk
    have h2 := st.displacement n hn k hk
    simp only [q, p, h1, h2]
    ring
  have h1 : form N M q q - form N M p p = dt / 2 * form N M (p + q) (x + y) := by
    rw [← form_diff M o.massSymm, form_congr M (fun _ _ => rfl) ev, form_smul_right]
  have h2 : form N K (u (n + 1)) (u (n + 1)) - form N K (u n) (u n) = dt / 2 * form N K (p + q) (u n + u (n + 1)) := by
    rw [← form_diff K o.stiffSymm, form_congr K (fun _ _ => rfl) eu, form_smul_right, form_swap K o.stiffSymm]
  have h3 : form N M (p + q) (x + y) + form N C (p + q) (p + q) + form N K (p + q) (u n + u (n + 1)) =
      ∑ k ∈ range N, (p k + q k) * (F n k + F (n + 1) k) := by
    rw [form_rows, form_rows, form_rows, ← sum_add_distrib, ← sum_add_distrib]
    refine sum_congr rfl fun k hk => ?_
    have h1 := st.balance n hn.le k (mem_range.mp hk)
    have h2 := st.balance (n + 1) hn k (mem_range.mp hk)
    rw [sum_three] at h1 h2
    simp only [Pi.add_apply, mul_add, sum_add_distrib]
    linear_combination ((q k + p k) * (h2 + h1))
  have h4 : ∑ k ∈ range N, (F n k + F (n + 1) k) / 2 * (u (n + 1) k - u n k) =
      dt / 4 * ∑ k ∈ range N, (p k + q k) * (F n k + F (n + 1) k) := by
    rw [mul_sum]
    refine sum_congr rfl fun k hk => ?_
    have := eu k (mem_range.mp hk)
    simp only [Pi.sub_apply, Pi.add_apply, Pi.smul_apply, smul_eq_mul] at this
    rw [this]
    ring
  have h5 : ∑ i ∈ range N, ∑ j ∈ range N, ((p i + q i) / 2) * C i j * ((p j + q j) / 2) = form N C (p + q) (p + q) / 4 := by
    unfold form
    simp only [sum_div]
    exact sum_congr rfl fun i _ => sum_congr rfl fun j _ => by simp only [Pi.add_apply]; ring
  rw [h4, h5, ← h3]
  linear_combination (h1 + h2) / 2

end Rose
