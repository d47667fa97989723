/-
Equations with a positive definite matrix and forces that decrease with the distance they act over, and the Newmark steps of systems with
such forces.
-/
import Verif.Lemmas.TimeStepping
import Verif.Spec.CoupledSteps
import Mathlib.MeasureTheory.Integral.IntervalIntegral.FundThmCalculus

set_option linter.unusedSectionVars false

namespace Rose
open Finset

variable {N : ℕ}

/-- The sum of the values weighted with `l`. -/
def weighted (N : ℕ) (l x : ℕ → ℝ) : ℝ := ∑ j ∈ range N, l j * x j

theorem weighted_add (l x y : ℕ → ℝ) : weighted N l (x + y) = weighted N l x + weighted N l y := by
  simp [weighted, mul_add, sum_add_distrib]

theorem weighted_sub (l x y : ℕ → ℝ) : weighted N l (x - y) = weighted N l x - weighted N l y := by
  simp [weighted, mul_sub, sum_sub_distrib]

theorem weighted_smul (l x : ℕ → ℝ) (c : ℝ) : weighted N l (c • x) = c * weighted N l x := by
  simp only [weighted, Pi.smul_apply, smul_eq_mul, mul_sum]
  exact sum_congr rfl fun j _ => by ring

theorem weighted_single (l : ℕ → ℝ) (k : ℕ) (hk : k < N) : weighted N l (Pi.single k 1) = l k := by
  unfold weighted
  rw [sum_eq_single_of_mem k (mem_range.mpr hk)]
  · simp
  · intro j _ hj
    simp [hj]

theorem weighted_small (l : ℕ → ℝ) {c : ℝ} {x : ℕ → ℝ} (h : ∀ k < N, |x k| ≤ c) : |weighted N l x| ≤ (∑ j ∈ range N, |l j|) * c := by
  refine (abs_sum_le_sum_abs _ _).trans ?_
  rw [sum_mul]
  refine sum_le_sum fun j hj => ?_
  rw [abs_mul]
  exact mul_le_mul_of_nonneg_left (h j (mem_range.mp hj)) (abs_nonneg _)

/-- The work of a decreasing force over a distance is at most that of its initial value. -/
theorem integral_antitone_le {f : ℝ → ℝ} (hc : Continuous f) (ha : Antitone f) (d : ℝ) : ∫ s in (0 : ℝ)..d, f s ≤ f 0 * d := by
  rcases le_total 0 d with h | h
  · calc ∫ s in (0 : ℝ)..d, f s ≤ ∫ _ in (0 : ℝ)..d, f 0 :=
        intervalIntegral.integral_mono_on h (hc.intervalIntegrable _ _) (by simp) fun s hs => ha hs.1
      _ = f 0 * d := by rw [intervalIntegral.integral_const, smul_eq_mul, sub_zero, mul_comm]
  · rw [intervalIntegral.integral_symm]
    have : ∫ _ in d..(0 : ℝ), f 0 ≤ ∫ s in d..(0 : ℝ), f s :=
      intervalIntegral.integral_mono_on h (by simp) (hc.intervalIntegrable _ _) fun s hs => ha hs.2
    rw [intervalIntegral.integral_const, smul_eq_mul, zero_sub] at this
    linarith

/-- The potential of the matrix, the load and the forces. -/
noncomputable def potential (N : ℕ) (S : ℕ → ℕ → ℝ) (b : ℕ → ℝ) (W : ℕ) (l : ℕ → ℕ → ℝ) (law : ℕ → ℝ → ℝ) (x : ℕ → ℝ) : ℝ :=
  form N S x x / 2 - weighted N b x - ∑ w ∈ range W, ∫ s in (0 : ℝ)..weighted N (l w) x, law w s

theorem potential_deriv {S : ℕ → ℕ → ℝ} (hS : ∀ i < N, ∀ j < N, S i j = S j i) (b : ℕ → ℝ) (W : ℕ) (l : ℕ → ℕ → ℝ) (law : ℕ → ℝ → ℝ)
    (hc : ∀ w < W, Continuous (law w)) (x : ℕ → ℝ) (k : ℕ) (hk : k < N) :
    HasDerivAt (fun s : ℝ => potential N S b W l law (x + s • Pi.single k 1))
      (∑ j ∈ range N, S k j * x j - b k - ∑ w ∈ range W, l w k * law w (weighted N (l w) x)) 0 := by
  set e : ℕ → ℝ := Pi.single k 1 with he
  have h1 : ∀ s : ℝ, form N S (x + s • e) (x + s • e) = form N S x x + s * (2 * form N S e x) + s * s * form N S e e := by
    intro s
    rw [form_add_left, form_add_right, form_add_right, form_smul_left, form_smul_left, form_smul_right, form_smul_right, form_swap S hS x e]
    ring
  have h2 : form N S e x = ∑ j ∈ range N, S k j * x j := by
    have := weighted_single (N := N) (fun i => ∑ j ∈ range N, S i j * x j) k hk
    rw [form_rows, ← this]
    exact sum_congr rfl fun i _ => mul_comm _ _
  have d1 : HasDerivAt (fun s : ℝ => form N S (x + s • e) (x + s • e) / 2) (∑ j ∈ range N, S k j * x j) 0 := by
    simp only [h1]
    have a1 : HasDerivAt (fun s : ℝ => form N S x x + s * (2 * form N S e x) + s * s * form N S e e)
        (1 * (2 * form N S e x) + (1 * (0 : ℝ) + (0 : ℝ) * 1) * form N S e e) 0 :=
      HasDerivAt.add (HasDerivAt.const_add _ ((hasDerivAt_id' 0).mul_const _)) (((hasDerivAt_id' 0).mul (hasDerivAt_id' 0)).mul_const _)
    have := a1.div_const 2
    rw [show (1 * (2 * form N S e x) + (1 * (0 : ℝ) + (0 : ℝ) * 1) * form N S e e) / 2 = form N S e x by ring] at this
    rw [← h2]
    exact this
  have d2 : ∀ c : ℕ → ℝ, HasDerivAt (fun s : ℝ => weighted N c (x + s • e)) (c k) 0 := by
    intro c
    simp only [weighted_add, weighted_smul, he, weighted_single c k hk]
    simpa using ((hasDerivAt_id (0 : ℝ)).mul_const (c k)).const_add (weighted N c x)
  have d3 : ∀ w ∈ range W, HasDerivAt (fun s : ℝ => ∫ r in (0 : ℝ)..weighted N (l w) (x + s • e), law w r)
      (l w k * law w (weighted N (l w) x)) 0 := by
    intro w hw
    have h3 := ((hc w (mem_range.mp hw)).integral_hasStrictDerivAt 0 (weighted N (l w) (x + (0 : ℝ) • e))).hasDerivAt
    have := h3.comp (0 : ℝ) (d2 (l w))
    rw [zero_smul, add_zero, mul_comm] at this
    exact this
  exact (d1.sub (d2 b)).sub (HasDerivAt.fun_sum d3)

theorem potential_large {S : ℕ → ℕ → ℝ} (hS : ∀ i < N, ∀ j < N, S i j = S j i)
    (hpd : ∀ U, 0 ≤ form N S U U ∧ (form N S U U = 0 → ∀ k < N, U k = 0)) (b : ℕ → ℝ) (W : ℕ) (l : ℕ → ℕ → ℝ) (law : ℕ → ℝ → ℝ)
    (hc : ∀ w < W, Continuous (law w)) (ha : ∀ w < W, Antitone (law w)) :
    ∃ R, ∀ x, (∃ k < N, R < |x k|) → 0 ≤ potential N S b W l law x := by
  obtain ⟨c, hc0, hcb⟩ := form_bounds S hS hpd
  set B := (∑ j ∈ range N, |b j|) * c + ∑ w ∈ range W, |law w 0| * ((∑ j ∈ range N, |l w j|) * c) with hB
  have hB0 : 0 ≤ B := add_nonneg (mul_nonneg (sum_nonneg fun _ _ => abs_nonneg _) hc0)
    (sum_nonneg fun w _ => mul_nonneg (abs_nonneg _) (mul_nonneg (sum_nonneg fun _ _ => abs_nonneg _) hc0))
  refine ⟨c * (2 * B), fun x ⟨k, hk, hx⟩ => ?_⟩
  set s := √(form N S x x) with hs
  have hs0 : 0 ≤ s := Real.sqrt_nonneg _
  have hsq : form N S x x = s ^ 2 := (Real.sq_sqrt (hpd x).1).symm
  have hxs : ∀ k < N, |x k| ≤ c * s := hcb x
  have hbig : 2 * B ≤ s := by
    by_contra hlt
    have := mul_le_mul_of_nonneg_left (not_le.mp hlt).le hc0
    linarith [hxs k hk]
  have h1 : weighted N b x ≤ (∑ j ∈ range N, |b j|) * (c * s) := (abs_le.mp (weighted_small b hxs)).2
  have h2 : ∑ w ∈ range W, ∫ r in (0 : ℝ)..weighted N (l w) x, law w r ≤ ∑ w ∈ range W, |law w 0| * ((∑ j ∈ range N, |l w j|) * c) * s := by
    refine sum_le_sum fun w hw => ?_
    have hw := mem_range.mp hw
    refine (integral_antitone_le (hc w hw) (ha w hw) _).trans ((le_abs_self _).trans ?_)
    rw [abs_mul, mul_assoc, mul_assoc]
    exact mul_le_mul_of_nonneg_left (weighted_small (l w) hxs) (abs_nonneg _)
  rw [← sum_mul] at h2
  have h3 : (∑ j ∈ range N, |b j|) * (c * s) + (∑ w ∈ range W, |law w 0| * ((∑ j ∈ range N, |l w j|) * c)) * s = B * s := by rw [hB]; ring
  unfold potential
  rw [hsq]
  nlinarith

/-- Equations with a positive definite matrix, a load and forces that decrease with the distance have a solution. -/
theorem contact_exists {S : ℕ → ℕ → ℝ} (hS : ∀ i < N, ∀ j < N, S i j = S j i)
    (hpd : ∀ U, 0 ≤ form N S U U ∧ (form N S U U = 0 → ∀ k < N, U k = 0)) (b : ℕ → ℝ) (W : ℕ) (l : ℕ → ℕ → ℝ) (law : ℕ → ℝ → ℝ)
    (hc : ∀ w < W, Continuous (law w)) (ha : ∀ w < W, Antitone (law w)) :
    ∃ x : ℕ → ℝ, ∀ k < N, ∑ j ∈ range N, S k j * x j = b k + ∑ w ∈ range W, l w k * law w (weighted N (l w) x) := by
  obtain ⟨R, hR⟩ := potential_large hS hpd b W l law hc ha
  have hsp : ∀ k, Continuous fun y : Fin N → ℝ => spread y k := by
    intro k
    unfold spread
    split_ifs with h
    · exact continuous_apply _
    · exact continuous_const
  have hw : ∀ c : ℕ → ℝ, Continuous fun y : Fin N → ℝ => weighted N c (spread y) := fun c =>
    continuous_finsetSum _ fun j _ => continuous_const.mul (hsp j)
  have hcont : Continuous fun y : Fin N → ℝ => potential N S b W l law (spread y) := by
    unfold potential
    refine ((Continuous.div_const ?_ _).sub (hw b)).sub (continuous_finsetSum _ fun w hw' => ?_)
    · unfold form
      exact continuous_finsetSum _ fun i _ => continuous_finsetSum _ fun j _ => ((hsp i).mul continuous_const).mul (hsp j)
    · exact (intervalIntegral.continuous_primitive (fun a b => (hc w (mem_range.mp hw')).intervalIntegrable a b) 0).comp (hw (l w))
  have hzero : potential N S b W l law (spread (0 : Fin N → ℝ)) = 0 := by
    have : spread (0 : Fin N → ℝ) = 0 := by funext k; simp [spread]
    rw [this]
    simp [potential, weighted, form]
  obtain ⟨y, hy⟩ := hcont.exists_forall_le' 0 (by
    filter_upwards [(isCompact_closedBall (0 : Fin N → ℝ) |R|).compl_mem_cocompact] with y hy
    rw [hzero]
    refine hR _ ?_
    by_contra hno
    push Not at hno
    refine hy ?_
    rw [mem_closedBall_zero_iff, pi_norm_le_iff_of_nonneg (abs_nonneg _)]
    intro i
    rw [Real.norm_eq_abs, ← spread_fin y i]
    exact (hno i i.2).trans (le_abs_self _))
  have hmin : ∀ x, potential N S b W l law (spread y) ≤ potential N S b W l law x := by
    intro x
    have h1 := hy fun i => x i
    have h2 : ∀ k < N, spread (fun i : Fin N => x i) k = x k := fun k hk => spread_lt _ k hk
    have h3 : ∀ c, weighted N c (spread fun i : Fin N => x i) = weighted N c x := fun c =>
      sum_congr rfl fun j hj => by rw [h2 j (mem_range.mp hj)]
    unfold potential at h1 ⊢
    rw [form_congr S h2 h2] at h1
    simp only [h3] at h1
    exact h1
  refine ⟨spread y, fun k hk => ?_⟩
  have hd := potential_deriv hS b W l law hc (spread y) k hk
  have h0 : IsLocalMin (fun s : ℝ => potential N S b W l law (spread y + s • Pi.single k 1)) 0 := by
    refine Filter.Eventually.of_forall fun s => ?_
    simp only [zero_smul, add_zero]
    exact hmin _
  have := h0.hasDerivAt_eq_zero hd
  linarith

/-- Such equations have no more than one solution. -/
theorem contact_unique {S : ℕ → ℕ → ℝ} (hpd : ∀ U, 0 ≤ form N S U U ∧ (form N S U U = 0 → ∀ k < N, U k = 0)) (b : ℕ → ℝ) (W : ℕ)
    (l : ℕ → ℕ → ℝ) (law : ℕ → ℝ → ℝ) (ha : ∀ w < W, Antitone (law w)) (x y : ℕ → ℝ)
    (hx : ∀ k < N, ∑ j ∈ range N, S k j * x j = b k + ∑ w ∈ range W, l w k * law w (weighted N (l w) x))
    (hy : ∀ k < N, ∑ j ∈ range N, S k j * y j = b k + ∑ w ∈ range W, l w k * law w (weighted N (l w) y)) : ∀ k < N, x k = y k := by
  have h1 : form N S (x - y) (x - y) = ∑ w ∈ range W, (law w (weighted N (l w) x) - law w (weighted N (l w) y)) *
      (weighted N (l w) x - weighted N (l w) y) := by
    rw [form_rows]
    have e : ∀ k ∈ range N, (x - y) k * ∑ j ∈ range N, S k j * (x - y) j =
        ∑ w ∈ range W, (law w (weighted N (l w) x) - law w (weighted N (l w) y)) * (l w k * (x - y) k) := by
      intro k hk
      have hk := mem_range.mp hk
      have e1 : ∑ j ∈ range N, S k j * (x - y) j =
          ∑ w ∈ range W, (l w k * law w (weighted N (l w) x) - l w k * law w (weighted N (l w) y)) := by
        have h := weighted_sub (N := N) (S k) x y
        unfold weighted at h
        rw [h, hx k hk, hy k hk, sum_sub_distrib]
        unfold weighted
        ring
      rw [e1, mul_sum]
      exact sum_congr rfl fun w _ => by ring
    rw [sum_congr rfl e, sum_comm]
    refine sum_congr rfl fun w _ => ?_
    rw [← mul_sum, ← weighted_sub]
    rfl
  have h2 : form N S (x - y) (x - y) ≤ 0 := by
    rw [h1]
    refine sum_nonpos fun w hw => ?_
    rcases le_total (weighted N (l w) x) (weighted N (l w) y) with h | h
    · exact mul_nonpos_of_nonneg_of_nonpos (by linarith [ha w (mem_range.mp hw) h]) (by linarith)
    · exact mul_nonpos_of_nonpos_of_nonneg (by linarith [ha w (mem_range.mp hw) h]) (by linarith)
  intro k hk
  exact sub_eq_zero.mp ((hpd _).2 (le_antisymm h2 (hpd _).1) k hk)

/-! ### Steps -/

/-- Symmetric matrices with a positive definite mass, and stiffness and damping that take no negative energy. -/
structure Passive (N : ℕ) (M C K : ℕ → ℕ → ℝ) : Prop where
  massSymm : ∀ i < N, ∀ j < N, M i j = M j i
  dampSymm : ∀ i < N, ∀ j < N, C i j = C j i
  stiffSymm : ∀ i < N, ∀ j < N, K i j = K j i
  mass : ∀ U, 0 ≤ form N M U U ∧ (form N M U U = 0 → ∀ k < N, U k = 0)
  damp : ∀ U, 0 ≤ form N C U U
  stiff : ∀ U, 0 ≤ form N K U U

variable {M C K : ℕ → ℕ → ℝ}

theorem Passive.step_symm (o : Passive N M C K) (β γ dt : ℝ) : ∀ i < N, ∀ j < N, stepMatrix M C K β γ dt i j = stepMatrix M C K β γ dt j i := by
  intro i hi j hj
  unfold stepMatrix
  rw [o.massSymm i hi j hj, o.dampSymm i hi j hj, o.stiffSymm i hi j hj]

theorem Passive.step_definite (o : Passive N M C K) {β γ dt : ℝ} (hβ : 0 ≤ β) (hγ : 0 ≤ γ) (hdt : 0 ≤ dt) (U : ℕ → ℝ) :
    0 ≤ form N (stepMatrix M C K β γ dt) U U ∧ (form N (stepMatrix M C K β γ dt) U U = 0 → ∀ k < N, U k = 0) := by
  rw [stepMatrix_form]
  have h1 := (o.mass U).1
  have h2 := mul_nonneg (mul_nonneg hγ hdt) (o.damp U)
  have h3 := mul_nonneg (mul_nonneg hβ (sq_nonneg dt)) (o.stiff U)
  exact ⟨by linarith, fun h => (o.mass U).2 (by linarith)⟩

/-- Forces that are, at each time index, a load and the forces of contacts that decrease with the distance they act over. -/
structure ContactForces (N times : ℕ) (rhs : ℕ → (ℕ → ℝ) → ℕ → ℝ) (W : ℕ) (b : ℕ → ℕ → ℝ) (l : ℕ → ℕ → ℕ → ℝ) (law : ℕ → ℕ → ℝ → ℝ) :
    Prop where
  rhs_eq : ∀ t < times, ∀ U, ∀ k < N, rhs t U k = b t k + ∑ w ∈ range W, l t w k * law t w (weighted N (l t w) U)
  cont : ∀ t < times, ∀ w < W, Continuous (law t w)
  anti : ∀ t < times, ∀ w < W, Antitone (law t w)

section steps
variable {times W : ℕ} {rhs : ℕ → (ℕ → ℝ) → ℕ → ℝ} {b : ℕ → ℕ → ℝ} {l : ℕ → ℕ → ℕ → ℝ} {law : ℕ → ℕ → ℝ → ℝ}

theorem ContactForces.congr (f : ContactForces N times rhs W b l law) {t : ℕ} (ht : t < times) {U U' : ℕ → ℝ} (h : ∀ k < N, U k = U' k)
    (k : ℕ) (hk : k < N) : rhs t U k = rhs t U' k := by
  rw [f.rhs_eq t ht U k hk, f.rhs_eq t ht U' k hk]
  have : ∀ w, weighted N (l t w) U = weighted N (l t w) U' := fun w => sum_congr rfl fun j hj => by rw [h j (mem_range.mp hj)]
  simp only [this]

/-- The equations of one step have a solution. -/
theorem ContactForces.step_exists (f : ContactForces N times rhs W b l law) (o : Passive N M C K) {β γ dt : ℝ} (hβ : 0 ≤ β) (hγ : 0 ≤ γ)
    (hdt : 0 ≤ dt) {t : ℕ} (ht : t < times) (p q : ℕ → ℝ) :
    ∃ a : ℕ → ℝ, ∀ k < N, ∑ j ∈ range N, (M k j * a j + C k j * (q j + γ * dt * a j) + K k j * (p j + β * dt ^ 2 * a j)) =
      rhs t (fun j => p j + β * dt ^ 2 * a j) k := by
  have hb : 0 ≤ β * dt ^ 2 := mul_nonneg hβ (sq_nonneg _)
  obtain ⟨a, h⟩ := contact_exists (o.step_symm β γ dt) (o.step_definite hβ hγ hdt)
    (fun k => b t k - ∑ j ∈ range N, C k j * q j - ∑ j ∈ range N, K k j * p j) W (l t)
    (fun w s => law t w (weighted N (l t w) p + β * dt ^ 2 * s))
    (fun w hw => (f.cont t ht w hw).comp (continuous_const.add (continuous_const.mul continuous_id)))
    (fun w hw s s' hs => f.anti t ht w hw (by linarith [mul_le_mul_of_nonneg_left hs hb]))
  refine ⟨a, fun k hk => ?_⟩
  have h1 := h k hk
  rw [stepMatrix_rows] at h1
  rw [f.rhs_eq t ht _ k hk, sum_three, rows_affine C k (γ * dt) q a _ (fun _ _ => rfl), rows_affine K k (β * dt ^ 2) p a _ (fun _ _ => rfl)]
  have h2 : ∀ w, weighted N (l t w) (fun j => p j + β * dt ^ 2 * a j) = weighted N (l t w) p + β * dt ^ 2 * weighted N (l t w) a := by
    intro w
    have : (fun j => p j + β * dt ^ 2 * a j) = p + (β * dt ^ 2) • a := rfl
    rw [this, weighted_add, weighted_smul]
  simp only [h2]
  linarith

/-- The equations of one step have no more than one solution. -/
theorem ContactForces.step_unique (f : ContactForces N times rhs W b l law) (o : Passive N M C K) {β γ dt : ℝ} (hβ : 0 ≤ β) (hγ : 0 ≤ γ)
    (hdt : 0 ≤ dt) {t : ℕ} (ht : t < times) (p q a a' : ℕ → ℝ)
    (h : ∀ k < N, ∑ j ∈ range N, (M k j * a j + C k j * (q j + γ * dt * a j) + K k j * (p j + β * dt ^ 2 * a j)) =
      rhs t (fun j => p j + β * dt ^ 2 * a j) k)
    (h' : ∀ k < N, ∑ j ∈ range N, (M k j * a' j + C k j * (q j + γ * dt * a' j) + K k j * (p j + β * dt ^ 2 * a' j)) =
      rhs t (fun j => p j + β * dt ^ 2 * a' j) k) : ∀ k < N, a k = a' k := by
  have hb : 0 ≤ β * dt ^ 2 := mul_nonneg hβ (sq_nonneg _)
  have key : ∀ a : ℕ → ℝ, (∀ k < N, ∑ j ∈ range N, (M k j * a j + C k j * (q j + γ * dt * a j) + K k j * (p j + β * dt ^ 2 * a j)) =
      rhs t (fun j => p j + β * dt ^ 2 * a j) k) → ∀ k < N, ∑ j ∈ range N, stepMatrix M C K β γ dt k j * a j =
      (b t k - ∑ j ∈ range N, C k j * q j - ∑ j ∈ range N, K k j * p j) +
        ∑ w ∈ range W, l t w k * law t w (weighted N (l t w) p + β * dt ^ 2 * weighted N (l t w) a) := by
    intro a h k hk
    have h1 := h k hk
    rw [f.rhs_eq t ht _ k hk, sum_three, rows_affine C k (γ * dt) q a _ (fun _ _ => rfl), rows_affine K k (β * dt ^ 2) p a _ (fun _ _ => rfl)] at h1
    have h2 : ∀ w, weighted N (l t w) (fun j => p j + β * dt ^ 2 * a j) = weighted N (l t w) p + β * dt ^ 2 * weighted N (l t w) a := by
      intro w
      have : (fun j => p j + β * dt ^ 2 * a j) = p + (β * dt ^ 2) • a := rfl
      rw [this, weighted_add, weighted_smul]
    simp only [h2] at h1
    rw [stepMatrix_rows]
    linarith
  exact contact_unique (o.step_definite hβ hγ hdt)
    (fun k => b t k - ∑ j ∈ range N, C k j * q j - ∑ j ∈ range N, K k j * p j) W (l t)
    (fun w s => law t w (weighted N (l t w) p + β * dt ^ 2 * s))
    (fun w hw s s' hs => f.anti t ht w hw (by linarith [mul_le_mul_of_nonneg_left hs hb])) a a' (key a h) (key a' h')

/-- The steps with such forces have exactly one result. -/
theorem ContactForces.steps (f : ContactForces N times rhs W b l law) (o : Passive N M C K) {β γ : ℝ} (hβ : 0 ≤ β) (hγ : 0 ≤ γ)
    (dt : ℕ → ℝ) (hdt : ∀ n, n + 1 < times → 0 ≤ dt n) (u₀ v₀ : ℕ → ℝ) :
    ∃ u v a : ℕ → ℕ → ℝ,
      (∀ n < times, ∀ k < N, ∑ j ∈ range N, (M k j * a n j + C k j * v n j + K k j * u n j) = rhs n (u n) k) ∧
      (∀ n, n + 1 < times → ∀ k < N, u (n + 1) k = u n k + dt n * v n k + dt n ^ 2 * ((1 / 2 - β) * a n k + β * a (n + 1) k)) ∧
      (∀ n, n + 1 < times → ∀ k < N, v (n + 1) k = v n k + dt n * ((1 - γ) * a n k + γ * a (n + 1) k)) ∧
      (∀ k < N, u 0 k = u₀ k ∧ v 0 k = v₀ k) ∧
      ∀ u' v' a' : ℕ → ℕ → ℝ,
        (∀ n < times, ∀ k < N, ∑ j ∈ range N, (M k j * a' n j + C k j * v' n j + K k j * u' n j) = rhs n (u' n) k) →
        (∀ n, n + 1 < times → ∀ k < N, u' (n + 1) k = u' n k + dt n * v' n k + dt n ^ 2 * ((1 / 2 - β) * a' n k + β * a' (n + 1) k)) →
        (∀ n, n + 1 < times → ∀ k < N, v' (n + 1) k = v' n k + dt n * ((1 - γ) * a' n k + γ * a' (n + 1) k)) →
        (∀ k < N, u' 0 k = u₀ k ∧ v' 0 k = v₀ k) → ∀ n < times, ∀ k < N, u' n k = u n k ∧ v' n k = v n k ∧ a' n k = a n k := by
  classical
  obtain ⟨m, hm⟩ := definite_solve (N := N) M fun U => (o.mass U).2
  have hex : ∀ (n : ℕ) (p q : ℕ → ℝ), ∃ a : ℕ → ℝ, n + 1 < times → ∀ k < N,
      ∑ j ∈ range N, (M k j * a j + C k j * (q j + γ * dt n * a j) + K k j * (p j + β * dt n ^ 2 * a j)) =
        rhs (n + 1) (fun j => p j + β * dt n ^ 2 * a j) k := by
    intro n p q
    by_cases hn : n + 1 < times
    · obtain ⟨a, ha⟩ := f.step_exists o hβ hγ (hdt n hn) hn p q
      exact ⟨a, fun _ => ha⟩
    · exact ⟨0, fun h => absurd h hn⟩
  choose s hs using hex
  let rows := fun (g : ℕ → ℕ → ℝ) (x : ℕ → ℝ) (k : ℕ) => ∑ j ∈ range N, g k j * x j
  let up := fun (n : ℕ) (x : (ℕ → ℝ) × (ℕ → ℝ) × (ℕ → ℝ)) => fun k => x.1 k + dt n * x.2.1 k + dt n ^ 2 * ((1 / 2 - β) * x.2.2 k)
  let vp := fun (n : ℕ) (x : (ℕ → ℝ) × (ℕ → ℝ) × (ℕ → ℝ)) => fun k => x.2.1 k + dt n * ((1 - γ) * x.2.2 k)
  let acc := fun (n : ℕ) (x : (ℕ → ℝ) × (ℕ → ℝ) × (ℕ → ℝ)) => s n (up n x) (vp n x)
  let X : ℕ → (ℕ → ℝ) × (ℕ → ℝ) × (ℕ → ℝ) := fun n => Nat.rec (u₀, v₀, m fun k => rhs 0 u₀ k - rows C v₀ k - rows K u₀ k)
    (fun n x => (fun k => up n x k + β * dt n ^ 2 * acc n x k, fun k => vp n x k + γ * dt n * acc n x k, acc n x)) n
  have hX : ∀ n, X (n + 1) = (fun k => up n (X n) k + β * dt n ^ 2 * acc n (X n) k, fun k => vp n (X n) k + γ * dt n * acc n (X n) k, acc n (X n)) :=
    fun n => rfl
  refine ⟨fun n => (X n).1, fun n => (X n).2.1, fun n => (X n).2.2, ?_, ?_, ?_, fun k _ => ⟨rfl, rfl⟩, ?_⟩
  · rintro (_ | n) hn k hk
    · rw [sum_three]
      have h := hm (fun k => rhs 0 u₀ k - rows C v₀ k - rows K u₀ k) k hk
      show ∑ j ∈ range N, M k j * m (fun k => rhs 0 u₀ k - rows C v₀ k - rows K u₀ k) j + rows C v₀ k + rows K u₀ k = rhs 0 u₀ k
      rw [h]
      show rhs 0 u₀ k - rows C v₀ k - rows K u₀ k + rows C v₀ k + rows K u₀ k = rhs 0 u₀ k
      ring
    · exact hs n (up n (X n)) (vp n (X n)) hn k hk
  · intro n _ k _
    simp only [hX, up]
    ring
  · intro n _ k _
    simp only [hX, vp]
    ring
  · intro u' v' a' hb' hu' hv' h0 n
    induction n with
    | zero =>
      intro hn k hk
      refine ⟨(h0 k hk).1, (h0 k hk).2, definite_unique M (fun U => (o.mass U).2) (a' 0) (X 0).2.2 (fun i hi => ?_) k hk⟩
      rw [show (X 0).2.2 = m fun k => rhs 0 u₀ k - rows C v₀ k - rows K u₀ k from rfl, hm _ i hi]
      have := hb' 0 hn i hi
      rw [sum_three, f.congr hn (fun k hk => (h0 k hk).1) i hi] at this
      have e1 := sum_congr rfl fun j (hj : j ∈ range N) => congrArg (C i j * ·) (h0 j (mem_range.mp hj)).2
      have e2 := sum_congr rfl fun j (hj : j ∈ range N) => congrArg (K i j * ·) (h0 j (mem_range.mp hj)).1
      rw [e1, e2] at this
      simp only [rows]
      linarith
    | succ n ih =>
      intro hn
      have ih := ih (by omega)
      have eu : ∀ j < N, u' (n + 1) j = up n (X n) j + β * dt n ^ 2 * a' (n + 1) j := by
        intro j hj
        rw [hu' n hn j hj, (ih j hj).1, (ih j hj).2.1, (ih j hj).2.2]; simp only [up]; ring
      have ev : ∀ j < N, v' (n + 1) j = vp n (X n) j + γ * dt n * a' (n + 1) j := by
        intro j hj
        rw [hv' n hn j hj, (ih j hj).2.1, (ih j hj).2.2]; simp only [vp]; ring
      have ha : ∀ k < N, a' (n + 1) k = (X (n + 1)).2.2 k := by
        refine f.step_unique o hβ hγ (hdt n hn) hn (up n (X n)) (vp n (X n)) _ _ (fun i hi => ?_) (hs n (up n (X n)) (vp n (X n)) hn)
        rw [← f.congr hn eu i hi, ← hb' (n + 1) hn i hi]
        exact sum_congr rfl fun j hj => by rw [eu j (mem_range.mp hj), ev j (mem_range.mp hj)]
      intro k hk
      refine ⟨?_, ?_, ha k hk⟩
      · rw [eu k hk, ha k hk, hX]
      · rw [ev k hk, ha k hk, hX]

end steps
end Rose
