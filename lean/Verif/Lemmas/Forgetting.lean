/-
Average acceleration steps of a damped system forget their start exponentially and stay within a multiple of the largest load.
-/
import Verif.Lemmas.Settling
import Mathlib.Analysis.Normed.Module.FiniteDimension
import Mathlib.Analysis.SpecialFunctions.Pow.Real

set_option linter.unusedSectionVars false

namespace Rose
open Finset Filter Topology

/-! ### Linear maps whose powers vanish -/

section
variable {E : Type*} [NormedAddCommGroup E] [NormedSpace ℝ E] [FiniteDimensional ℝ E]

theorem powers_small (T : E →L[ℝ] E) (h : ∀ x, Tendsto (fun n => (T ^ n) x) atTop (𝓝 0)) : ∃ m, 0 < m ∧ ‖T ^ m‖ ≤ 1 / 2 := by
  let b := Module.finBasis ℝ E
  obtain ⟨c, hc, hb⟩ := b.exists_opNorm_le (F := E)
  have : ∀ᶠ n in atTop, ∀ i, ‖(T ^ n) (b i)‖ ≤ 1 / (2 * c) := by
    rw [Filter.eventually_all]
    intro i
    have := Metric.tendsto_nhds.mp (h (b i)) (1 / (2 * c)) (by positivity)
    filter_upwards [this] with n hn
    rw [dist_zero_right] at hn
    exact hn.le
  obtain ⟨m, hm⟩ := eventually_atTop.mp this
  refine ⟨m + 1, by omega, (hb (by positivity) (hm (m + 1) (by omega))).trans (le_of_eq ?_)⟩
  field_simp

theorem powers_decay (T : E →L[ℝ] E) (h : ∀ x, Tendsto (fun n => (T ^ n) x) atTop (𝓝 0)) :
    ∃ c q : ℝ, 0 ≤ c ∧ 0 < q ∧ q < 1 ∧ ∀ n, ‖T ^ n‖ ≤ c * q ^ n := by
  obtain ⟨m, hm, h2⟩ := powers_small T h
  set q : ℝ := (1 / 2 : ℝ) ^ (1 / (m : ℝ)) with hq
  have hm' : (0 : ℝ) < m := by exact_mod_cast hm
  have q0 : 0 < q := Real.rpow_pos_of_pos (by norm_num) _
  have q1 : q < 1 := Real.rpow_lt_one (by norm_num) (by norm_num) (by positivity)
  have qm : q ^ m = 1 / 2 := by
    rw [hq, ← Real.rpow_natCast, ← Real.rpow_mul (by norm_num), one_div_mul_cancel hm'.ne', Real.rpow_one]
  set c := ∑ j ∈ range m, ‖T ^ j‖ with hc
  have c0 : 0 ≤ c := sum_nonneg fun j _ => norm_nonneg _
  refine ⟨2 * c, q, by positivity, q0, q1, fun n => ?_⟩
  have split : n = m * (n / m) + n % m := (Nat.div_add_mod n m).symm
  have hr : n % m < m := Nat.mod_lt _ hm
  have e1 : ‖T ^ (m * (n / m))‖ ≤ (1 / 2) ^ (n / m) ∨ n / m = 0 := by
    rcases Nat.eq_zero_or_pos (n / m) with h0 | h0
    · exact Or.inr h0
    · left
      rw [pow_mul]
      exact (norm_pow_le' _ h0).trans (pow_le_pow_left₀ (norm_nonneg _) h2 _)
  have e2 : ‖T ^ (n % m)‖ ≤ c := single_le_sum (f := fun j => ‖T ^ j‖) (fun j _ => norm_nonneg _) (mem_range.mpr hr)
  have e3 : ‖T ^ n‖ ≤ (1 / 2) ^ (n / m) * c := by
    rcases e1 with e1 | e1
    · conv_lhs => rw [split, pow_add]
      exact (norm_mul_le _ _).trans (mul_le_mul e1 e2 (norm_nonneg _) (by positivity))
    · rw [e1, pow_zero, one_mul]
      have : n % m = n := by
        rw [e1] at split
        omega
      rwa [this] at e2
  refine e3.trans ?_
  have e4 : (1 / 2 : ℝ) ^ (n / m) ≤ 2 * q ^ n := by
    have : (1 / 2 : ℝ) ^ (n / m) = 2 * q ^ (m * (n / m) + m) := by
      rw [pow_add, pow_mul, qm]
      ring
    rw [this]
    refine mul_le_mul_of_nonneg_left (pow_le_pow_of_le_one q0.le q1.le ?_) (by norm_num)
    omega
  calc (1 / 2 : ℝ) ^ (n / m) * c ≤ 2 * q ^ n * c := mul_le_mul_of_nonneg_right e4 c0
    _ = 2 * c * q ^ n := by ring

theorem affine_sum (T : E →L[ℝ] E) (X b : ℕ → E) (m : ℕ) (h : ∀ n < m, X (n + 1) = T (X n) + b n) :
    ∀ n ≤ m, X n = (T ^ n) (X 0) + ∑ j ∈ range n, (T ^ (n - 1 - j)) (b j) := by
  intro n
  induction n with
  | zero => intro _; simp
  | succ n ih =>
    intro hn
    rw [h n (by omega), ih (by omega), map_add, map_sum, sum_range_succ, pow_succ']
    have : ∀ j ∈ range n, T ((T ^ (n - 1 - j)) (b j)) = (T ^ (n + 1 - 1 - j)) (b j) := by
      intro j hj
      have hj := mem_range.mp hj
      rw [show n + 1 - 1 - j = (n - 1 - j) + 1 by omega, pow_succ']
      rfl
    rw [sum_congr rfl this]
    simp only [Nat.add_sub_cancel, Nat.sub_self, pow_zero]
    rw [add_assoc]
    rfl

theorem affine_bound (T : E →L[ℝ] E) {c q : ℝ} (hc : 0 ≤ c) (q0 : 0 < q) (q1 : q < 1) (hT : ∀ n, ‖T ^ n‖ ≤ c * q ^ n) (X b : ℕ → E) (m : ℕ)
    (h : ∀ n < m, X (n + 1) = T (X n) + b n) {β : ℝ} (hβ : 0 ≤ β) (hb : ∀ n < m, ‖b n‖ ≤ β) :
    ∀ n ≤ m, ‖X n‖ ≤ c * q ^ n * ‖X 0‖ + c / (1 - q) * β := by
  intro n hn
  rw [affine_sum T X b m h n hn]
  refine (norm_add_le _ _).trans (add_le_add ?_ ?_)
  · exact ((T ^ n).le_opNorm _).trans (mul_le_mul_of_nonneg_right (hT n) (norm_nonneg _))
  · refine (norm_sum_le _ _).trans ?_
    have e1 : ∑ j ∈ range n, ‖(T ^ (n - 1 - j)) (b j)‖ ≤ ∑ j ∈ range n, c * q ^ (n - 1 - j) * β :=
      sum_le_sum fun j hj => ((T ^ (n - 1 - j)).le_opNorm _).trans
        (mul_le_mul (hT _) (hb j (by have := mem_range.mp hj; omega)) (norm_nonneg _) (by positivity))
    refine e1.trans ?_
    rw [sum_range_reflect (fun j => c * q ^ j * β) n, ← sum_mul, ← mul_sum]
    refine mul_le_mul_of_nonneg_right ?_ hβ
    rw [div_eq_mul_inv]
    refine mul_le_mul_of_nonneg_left ?_ hc
    have := geom_sum_mul_neg q n
    rw [← one_div, le_div_iff₀ (by linarith), this]
    have : 0 < q ^ n := by positivity
    linarith
end

/-! ### Average acceleration steps as a linear map -/

variable {N : ℕ} {M C K : ℕ → ℕ → ℝ}

abbrev Vec (N : ℕ) := Fin N → ℝ

/-- What one step is calculated from: displacements and velocities, the load before and the load after. -/
abbrev StepData (N : ℕ) := (Vec N × Vec N) × (Vec N × Vec N)

theorem rows_spread (g : ℕ → ℕ → ℝ) (x : Vec N) (k : Fin N) : ∑ j ∈ range N, g k j * spread x j = rowsMap N g x k := by
  rw [rowsMap_apply, Finset.sum_range]
  exact sum_congr rfl fun j _ => by rw [spread_fin]

theorem rows_restrict (g : ℕ → ℕ → ℝ) (x : ℕ → ℝ) (k : Fin N) : ∑ j ∈ range N, g k j * x j = rowsMap N g (fun j => x j) k := by
  rw [rowsMap_apply, Finset.sum_range]

/-- One step is a linear map of the state and the loads, and the acceleration is a linear map of state and load. -/
theorem Oscillator.stepMap (o : Oscillator N M C K) {dt : ℝ} (hdt : 0 < dt) :
    ∃ (acc : (Vec N × Vec N) × Vec N →ₗ[ℝ] Vec N) (step : StepData N →ₗ[ℝ] Vec N × Vec N),
      (∀ m F u v a, Spec.NewmarkSteps N M C K (1 / 4) (1 / 2) dt m F u v a →
        (∀ n ≤ m, ∀ k : Fin N, a n k = acc ((fun k => u n k, fun k => v n k), fun k => F n k) k) ∧
        (∀ n < m, ((fun k => u (n + 1) k, fun k => v (n + 1) k) : Vec N × Vec N) =
          step ((fun k => u n k, fun k => v n k), fun k => F n k, fun k => F (n + 1) k))) ∧
      ∀ X : ℕ → Vec N × Vec N, (∀ n, X (n + 1) = step (X n, 0)) → ∀ m, Spec.NewmarkSteps N M C K (1 / 4) (1 / 2) dt m (fun _ _ => 0)
        (fun n => spread (X n).1) (fun n => spread (X n).2) (fun n => spread (acc (X n, 0))) := by
  let L := LinearEquiv.ofInjectiveEndo (rowsMap N M) (mass_injective fun U => (o.mass U).2)
  let S := LinearEquiv.ofInjectiveEndo (rowsMap N (stepMatrix M C K (1 / 4) (1 / 2) dt))
    (mass_injective (o.step_definite (by norm_num) (by norm_num) hdt))
  have hL : ∀ x, rowsMap N M (L.symm x) = x := fun x => L.apply_symm_apply x
  have hL' : ∀ x, L.symm (rowsMap N M x) = x := fun x => L.symm_apply_apply x
  have hS : ∀ x, rowsMap N (stepMatrix M C K (1 / 4) (1 / 2) dt) (S.symm x) = x := fun x => S.apply_symm_apply x
  have hS' : ∀ x, S.symm (rowsMap N (stepMatrix M C K (1 / 4) (1 / 2) dt) x) = x := fun x => S.symm_apply_apply x
  have hsplit : ∀ x, rowsMap N (stepMatrix M C K (1 / 4) (1 / 2) dt) x =
      rowsMap N M x + (1 / 2 * dt) • rowsMap N C x + (1 / 4 * dt ^ 2) • rowsMap N K x := by
    intro x
    funext k
    rw [← rows_spread, stepMatrix_rows, rows_spread, rows_spread, rows_spread]
    rfl
  let acc : (Vec N × Vec N) × Vec N →ₗ[ℝ] Vec N := L.symm.toLinearMap ∘ₗ (LinearMap.snd ℝ _ _ -
    rowsMap N C ∘ₗ LinearMap.snd ℝ _ _ ∘ₗ LinearMap.fst ℝ _ _ - rowsMap N K ∘ₗ LinearMap.fst ℝ _ _ ∘ₗ LinearMap.fst ℝ _ _)
  have hacc : ∀ x y f, acc ((x, y), f) = L.symm (f - rowsMap N C y - rowsMap N K x) := fun x y f => rfl
  -- parts of the step
  let px : StepData N →ₗ[ℝ] Vec N := LinearMap.fst ℝ _ _ ∘ₗ LinearMap.fst ℝ _ _
  let py : StepData N →ₗ[ℝ] Vec N := LinearMap.snd ℝ _ _ ∘ₗ LinearMap.fst ℝ _ _
  let pf : StepData N →ₗ[ℝ] Vec N := LinearMap.fst ℝ _ _ ∘ₗ LinearMap.snd ℝ _ _
  let pg : StepData N →ₗ[ℝ] Vec N := LinearMap.snd ℝ _ _ ∘ₗ LinearMap.snd ℝ _ _
  let pz : StepData N →ₗ[ℝ] Vec N := acc ∘ₗ LinearMap.prod (LinearMap.fst ℝ _ _) pf
  let ux : StepData N →ₗ[ℝ] Vec N := px + dt • py + (dt ^ 2 / 4) • pz
  let vx : StepData N →ₗ[ℝ] Vec N := py + (dt / 2) • pz
  let nz : StepData N →ₗ[ℝ] Vec N := S.symm.toLinearMap ∘ₗ (pg - rowsMap N C ∘ₗ vx - rowsMap N K ∘ₗ ux)
  let step : StepData N →ₗ[ℝ] Vec N × Vec N := LinearMap.prod (ux + (dt ^ 2 / 4) • nz) (vx + (dt / 2) • nz)
  have hz : ∀ X f g, pz (X, f, g) = acc (X, f) := fun X f g => rfl
  have hux : ∀ x y f g, ux ((x, y), f, g) = x + dt • y + (dt ^ 2 / 4) • acc ((x, y), f) := fun x y f g => rfl
  have hvx : ∀ x y f g, vx ((x, y), f, g) = y + (dt / 2) • acc ((x, y), f) := fun x y f g => rfl
  have hnz : ∀ X f g, nz (X, f, g) = S.symm (g - rowsMap N C (vx (X, f, g)) - rowsMap N K (ux (X, f, g))) := fun X f g => rfl
  have hstep : ∀ X f g, step (X, f, g) = (ux (X, f, g) + (dt ^ 2 / 4) • nz (X, f, g), vx (X, f, g) + (dt / 2) • nz (X, f, g)) := fun X f g => rfl
  clear_value acc
  -- the new acceleration balances the new state
  have hnew : ∀ X f g, nz (X, f, g) = acc (step (X, f, g), g) := by
    intro X f g
    have h1 : rowsMap N (stepMatrix M C K (1 / 4) (1 / 2) dt) (nz (X, f, g)) = g - rowsMap N C (vx (X, f, g)) - rowsMap N K (ux (X, f, g)) := by
      rw [hnz, hS]
    rw [hsplit] at h1
    rw [hstep, hacc, ← hL' (nz (X, f, g))]
    congr 1
    rw [hL', map_add, map_add, map_smul, map_smul]
    have e1 : (1 / 2 * dt) = dt / 2 := by ring
    have e2 : (1 / 4 * dt ^ 2) = dt ^ 2 / 4 := by ring
    rw [e1, e2] at h1
    rw [show rowsMap N M (nz (X, f, g)) = g - rowsMap N C (vx (X, f, g)) - rowsMap N K (ux (X, f, g)) -
      (dt ^ 2 / 4) • rowsMap N K (nz (X, f, g)) - (dt / 2) • rowsMap N C (nz (X, f, g)) by rw [← h1]; abel]
    abel
  clear_value nz ux vx step
  refine ⟨acc, step, fun m F u v a st => ?_, fun X hX m => ?_⟩
  · have ha : ∀ n ≤ m, (fun k : Fin N => a n k) = acc ((fun k => u n k, fun k => v n k), fun k => F n k) := by
      intro n hn
      rw [hacc, ← hL' fun k : Fin N => a n k]
      congr 1
      funext k
      have := st.balance n hn k k.isLt
      rw [sum_three, rows_restrict, rows_restrict, rows_restrict] at this
      show _ = F n k - rowsMap N C (fun k => v n k) k - rowsMap N K (fun k => u n k) k
      linarith
    refine ⟨fun n hn k => congrFun (ha n hn) k, fun n hn => ?_⟩
    have h1 := ha n (by omega)
    have h2 := ha (n + 1) (by omega)
    have d := st.displacement n hn
    have w := st.velocity n hn
    have du : (fun k : Fin N => u (n + 1) k) = ux ((fun k => u n k, fun k => v n k), fun k => F n k, fun k => F (n + 1) k) +
        (dt ^ 2 / 4) • fun k : Fin N => a (n + 1) k := by
      rw [hux, ← h1]
      funext k
      show u (n + 1) k = u n k + dt * v n k + dt ^ 2 / 4 * a n k + dt ^ 2 / 4 * a (n + 1) k
      rw [d k k.isLt]
      ring
    have dv : (fun k : Fin N => v (n + 1) k) = vx ((fun k => u n k, fun k => v n k), fun k => F n k, fun k => F (n + 1) k) +
        (dt / 2) • fun k : Fin N => a (n + 1) k := by
      rw [hvx, ← h1]
      funext k
      show v (n + 1) k = v n k + dt / 2 * a n k + dt / 2 * a (n + 1) k
      rw [w k k.isLt]
      ring
    have key : (fun k : Fin N => a (n + 1) k) = nz ((fun k => u n k, fun k => v n k), fun k => F n k, fun k => F (n + 1) k) := by
      rw [hnz, ← hS' fun k : Fin N => a (n + 1) k]
      congr 1
      rw [hsplit]
      have h3 : rowsMap N M (fun k : Fin N => a (n + 1) k) = (fun k : Fin N => F (n + 1) k) - rowsMap N C (fun k => v (n + 1) k) -
          rowsMap N K (fun k => u (n + 1) k) := by
        rw [h2, hacc, hL]
      rw [h3, du, dv, map_add, map_add, map_smul, map_smul]
      have e1 : (1 / 2 * dt) = dt / 2 := by ring
      have e2 : (1 / 4 * dt ^ 2) = dt ^ 2 / 4 := by ring
      rw [e1, e2]
      abel
    rw [hstep, ← key, ← du, ← dv]
  · have hnx : ∀ n, nz (X n, 0) = acc (X (n + 1), 0) := fun n => by
      rw [hX n]
      exact hnew (X n) 0 0
    refine ⟨fun n _ k hk => ?_, fun n _ k hk => ?_, fun n _ k hk => ?_⟩
    · rw [sum_three]
      have e := fun g x => rows_spread (N := N) g x ⟨k, hk⟩
      simp only at e
      rw [e, e, e]
      have h1 : rowsMap N M (acc (X n, 0)) = 0 - rowsMap N C (X n).2 - rowsMap N K (X n).1 := by
        rw [show (X n, (0 : Vec N)) = (((X n).1, (X n).2), 0) from rfl, hacc, hL]
      rw [h1]
      show (0 : ℝ) - rowsMap N C (X n).2 ⟨k, hk⟩ - rowsMap N K (X n).1 ⟨k, hk⟩ + _ + _ = 0
      ring
    · rw [spread_lt _ k hk, spread_lt _ k hk, spread_lt _ k hk, spread_lt _ k hk, spread_lt _ k hk, ← hnx n]
      have h1 : (X (n + 1)).1 = ux (X n, 0) + (dt ^ 2 / 4) • nz (X n, 0) := by rw [hX n]; exact congrArg Prod.fst (hstep (X n) 0 0)
      have h2 := hux (X n).1 (X n).2 0 0
      have h2 : ux (X n, 0) = (X n).1 + dt • (X n).2 + (dt ^ 2 / 4) • acc (X n, 0) := h2
      rw [h1, h2]
      show (X n).1 ⟨k, hk⟩ + dt * (X n).2 ⟨k, hk⟩ + dt ^ 2 / 4 * acc (X n, 0) ⟨k, hk⟩ + dt ^ 2 / 4 * nz (X n, 0) ⟨k, hk⟩ = _
      ring
    · rw [spread_lt _ k hk, spread_lt _ k hk, spread_lt _ k hk, spread_lt _ k hk, ← hnx n]
      have h1 : (X (n + 1)).2 = vx (X n, 0) + (dt / 2) • nz (X n, 0) := by rw [hX n]; exact congrArg Prod.snd (hstep (X n) 0 0)
      have h2 := hvx (X n).1 (X n).2 0 0
      have h2 : vx (X n, 0) = (X n).2 + (dt / 2) • acc (X n, 0) := h2
      rw [h1, h2]
      show (X n).2 ⟨k, hk⟩ + dt / 2 * acc (X n, 0) ⟨k, hk⟩ + dt / 2 * nz (X n, 0) ⟨k, hk⟩ = _
      ring

/-- The start is forgotten exponentially, and the loads give no more than a multiple of the largest of them. -/
theorem Oscillator.forgets (o : Oscillator N M C K) (hC : ∀ U, form N C U U = 0 → ∀ k < N, U k = 0) {dt : ℝ} (hdt : 0 < dt) :
    ∃ c q : ℝ, 0 ≤ c ∧ 0 < q ∧ q < 1 ∧ ∀ m F u v a, Spec.NewmarkSteps N M C K (1 / 4) (1 / 2) dt m F u v a → ∀ D β : ℝ, 0 ≤ D → 0 ≤ β →
      (∀ k < N, |u 0 k| ≤ D ∧ |v 0 k| ≤ D) → (∀ n ≤ m, ∀ k < N, |F n k| ≤ β) → ∀ n ≤ m, ∀ k < N,
        |u n k| ≤ c * (q ^ n * D + β) ∧ |v n k| ≤ c * (q ^ n * D + β) ∧ |a n k| ≤ c * (q ^ n * D + β) := by
  obtain ⟨acc, step, h1, h2⟩ := o.stepMap hdt
  let T : Vec N × Vec N →L[ℝ] Vec N × Vec N := (step ∘ₗ LinearMap.inl ℝ _ _).toContinuousLinearMap
  let B : Vec N × Vec N →L[ℝ] Vec N × Vec N := (step ∘ₗ LinearMap.inr ℝ _ _).toContinuousLinearMap
  let A : (Vec N × Vec N) × Vec N →L[ℝ] Vec N := acc.toContinuousLinearMap
  have hTB : ∀ X f, step (X, f) = T X + B f := by
    intro X f
    show step (X, f) = step (X, 0) + step (0, f)
    rw [← map_add]
    simp
  have hT0 : ∀ X, step (X, 0) = T X := fun X => rfl
  have vanish : ∀ X, Tendsto (fun n => (T ^ n) X) atTop (𝓝 0) := by
    intro X
    have st := h2 (fun n => (T ^ n) X) fun n => by
      rw [hT0, pow_succ']
      rfl
    have lim := fun k hk => o.settles hC hdt st (s := 0) (fun t _ k _ => rfl) (w := fun _ => 0) (fun k _ => by simp) k hk
    rw [show (0 : Vec N × Vec N) = (0, 0) from rfl]
    refine Filter.Tendsto.prodMk_nhds (f := atTop) (mx := fun n => ((T ^ n) X).1) (my := fun n => ((T ^ n) X).2) ?_ ?_
    · rw [tendsto_pi_nhds]
      intro k
      have := (lim k k.isLt).1
      simp only [spread_fin] at this
      exact this
    · rw [tendsto_pi_nhds]
      intro k
      have := (lim k k.isLt).2.1
      simp only [spread_fin] at this
      exact this
  obtain ⟨c, q, c0, q0, q1, hc⟩ := powers_decay T vanish
  have p : 0 < 1 - q := by linarith
  set e := c + c / (1 - q) * ‖B‖ with he
  have e0 : 0 ≤ e := by positivity
  refine ⟨e + ‖A‖ * (e + 1), q, by positivity, q0, q1, fun m F u v a st D β hD hβ h0 hF n hn k hk => ?_⟩
  obtain ⟨ha, hs⟩ := h1 m F u v a st
  have small : ∀ n ≤ m, ‖(fun k : Fin N => F n k : Vec N)‖ ≤ β := fun n hn =>
    (pi_norm_le_iff_of_nonneg hβ).mpr fun k => hF n hn k k.isLt
  have bound := affine_bound T c0 q0 q1 hc (fun n => ((fun k => u n k, fun k => v n k) : Vec N × Vec N))
    (fun n => B (fun k => F n k, fun k => F (n + 1) k)) m (fun n hn => by rw [← hTB]; exact hs n hn) (β := ‖B‖ * β) (by positivity)
    (fun n hn => (B.le_opNorm _).trans (mul_le_mul_of_nonneg_left
      (max_le (small n (by omega)) (small (n + 1) (by omega))) (norm_nonneg _))) n hn
  have start : ‖((fun k => u 0 k, fun k => v 0 k) : Vec N × Vec N)‖ ≤ D :=
    max_le ((pi_norm_le_iff_of_nonneg hD).mpr fun k => (h0 k k.isLt).1) ((pi_norm_le_iff_of_nonneg hD).mpr fun k => (h0 k k.isLt).2)
  have hq : 0 < q ^ n := by positivity
  have state : ‖((fun k => u n k, fun k => v n k) : Vec N × Vec N)‖ ≤ e * (q ^ n * D + β) := by
    refine bound.trans ?_
    have s1 : c * q ^ n * ‖((fun k => u 0 k, fun k => v 0 k) : Vec N × Vec N)‖ ≤ c * q ^ n * D :=
      mul_le_mul_of_nonneg_left start (by positivity)
    have s2 : 0 ≤ c / (1 - q) * ‖B‖ * (q ^ n * D) := by positivity
    have s3 : 0 ≤ c * β := by positivity
    rw [he]
    nlinarith
  have tot : 0 ≤ q ^ n * D + β := by positivity
  have more : e * (q ^ n * D + β) ≤ (e + ‖A‖ * (e + 1)) * (q ^ n * D + β) :=
    mul_le_mul_of_nonneg_right (by have : 0 ≤ ‖A‖ * (e + 1) := by positivity
                                   linarith) tot
  refine ⟨?_, ?_, ?_⟩
  · exact ((norm_le_pi_norm (fun k : Fin N => u n k) ⟨k, hk⟩).trans ((le_max_left _ _).trans state)).trans more
  · exact ((norm_le_pi_norm (fun k : Fin N => v n k) ⟨k, hk⟩).trans ((le_max_right _ _).trans state)).trans more
  · have h3 := ha n hn ⟨k, hk⟩
    have h3 : a n k = A ((fun k => u n k, fun k => v n k), fun k => F n k) ⟨k, hk⟩ := h3
    rw [h3]
    refine (norm_le_pi_norm (A ((fun k => u n k, fun k => v n k), fun k => F n k)) ⟨k, hk⟩).trans ?_
    refine (A.le_opNorm _).trans ?_
    have s1 : ‖(((fun k => u n k, fun k => v n k), fun k => F n k) : (Vec N × Vec N) × Vec N)‖ ≤ (e + 1) * (q ^ n * D + β) := by
      refine max_le (state.trans (mul_le_mul_of_nonneg_right (by linarith) tot)) ((small n hn).trans ?_)
      have : 0 ≤ q ^ n * D := by positivity
      nlinarith
    have s2 := mul_le_mul_of_nonneg_left s1 (norm_nonneg A)
    have s3 : 0 ≤ e * (q ^ n * D + β) := by positivity
    nlinarith

end Rose
