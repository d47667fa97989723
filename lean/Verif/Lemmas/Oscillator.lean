/-
Systems of second order in time with a positive definite mass and stiffness matrix.
-/
import Verif.Spec.Vibration
import Mathlib.Analysis.SpecialFunctions.Exponential
import Mathlib.MeasureTheory.Integral.IntervalIntegral.FundThmCalculus
import Mathlib.Analysis.Calculus.Deriv.MeanValue
import Mathlib.Analysis.Calculus.Deriv.Mul
import Mathlib.Analysis.Calculus.Deriv.Prod
import Mathlib.Analysis.Calculus.Deriv.Pi
import Mathlib.LinearAlgebra.Matrix.ToLin
import Mathlib.Topology.Algebra.Module.FiniteDimension

set_option linter.unusedSectionVars false

namespace Rose
open Finset

/-- The linear differential equation `x' = A x + g` has a solution for every continuous `g`. -/
theorem linear_ode {E : Type*} [NormedAddCommGroup E] [NormedSpace ℝ E] [CompleteSpace E] (A : E →L[ℝ] E) (g : ℝ → E)
    (hg : Continuous g) (x₀ : E) : ∃ x : ℝ → E, x 0 = x₀ ∧ ∀ t, HasDerivAt x (A (x t) + g t) t := by
  let e : ℝ → E →L[ℝ] E := fun t => NormedSpace.exp (t • A)
  have he : ∀ t, HasDerivAt e (A * e t) t := fun t => hasDerivAt_exp_smul_const' A t
  have hec : Continuous e := continuous_iff_continuousAt.mpr fun t => (he t).continuousAt
  have hinv : ∀ t, e t * e (-t) = 1 := by
    intro t
    show NormedSpace.exp (t • A) * NormedSpace.exp (-t • A) = 1
    let _ : NormedAlgebra ℚ (E →L[ℝ] E) := NormedAlgebra.restrictScalars ℚ ℝ _
    rw [← NormedSpace.exp_add_of_commute]
    · simp
    · exact (Commute.refl A).smul_left t |>.smul_right (-t)
  let y : ℝ → E := fun t => x₀ + ∫ s in (0:ℝ)..t, e (-s) (g s)
  have hc : Continuous fun s => e (-s) (g s) := (hec.comp continuous_neg).clm_apply hg
  have hy : ∀ t, HasDerivAt y (e (-t) (g t)) t := fun t =>
    (intervalIntegral.integral_hasDerivAt_right (hc.intervalIntegrable _ _) hc.aestronglyMeasurable.stronglyMeasurableAtFilter
      hc.continuousAt).const_add x₀
  refine ⟨fun t => e t (y t), ?_, fun t => ?_⟩
  · simp [e, y]
  · have := (he t).clm_apply (hy t)
    convert this using 1
    have h1 : (e t) ((e (-t)) (g t)) = g t := by
      have := congrArg (fun B : E →L[ℝ] E => B (g t)) (hinv t)
      simpa using this
    rw [h1]
    rfl

/-- `vᵀ g u` over `N` unknowns. -/
def form (N : ℕ) (g : ℕ → ℕ → ℝ) (v u : ℕ → ℝ) : ℝ := ∑ i ∈ range N, ∑ j ∈ range N, v i * g i j * u j

/-- Symmetric matrices, with positive definite mass and stiffness and a damping that takes no negative power. -/
structure Oscillator (N : ℕ) (M C K : ℕ → ℕ → ℝ) : Prop where
  massSymm : ∀ i < N, ∀ j < N, M i j = M j i
  dampSymm : ∀ i < N, ∀ j < N, C i j = C j i
  stiffSymm : ∀ i < N, ∀ j < N, K i j = K j i
  mass : ∀ U, 0 ≤ form N M U U ∧ (form N M U U = 0 → ∀ k < N, U k = 0)
  damp : ∀ U, 0 ≤ form N C U U
  stiff : ∀ U, 0 ≤ form N K U U ∧ (form N K U U = 0 → ∀ k < N, U k = 0)

variable {N : ℕ} {M C K : ℕ → ℕ → ℝ}

theorem form_rows (g : ℕ → ℕ → ℝ) (v u : ℕ → ℝ) : form N g v u = ∑ i ∈ range N, v i * ∑ j ∈ range N, g i j * u j := by
  unfold form
  refine sum_congr rfl fun i _ => ?_
  rw [mul_sum]
  exact sum_congr rfl fun j _ => by ring

theorem form_swap (g : ℕ → ℕ → ℝ) (hg : ∀ i < N, ∀ j < N, g i j = g j i) (v u : ℕ → ℝ) : form N g v u = form N g u v := by
  unfold form
  rw [sum_comm]
  refine sum_congr rfl fun i hi => sum_congr rfl fun j hj => ?_
  rw [hg j (mem_range.mp hj) i (mem_range.mp hi)]
  ring

/-- The rate of a quadratic form. -/
theorem form_deriv (g : ℕ → ℕ → ℝ) (hg : ∀ i < N, ∀ j < N, g i j = g j i) (u : ℝ → ℕ → ℝ) (w : ℕ → ℝ) (S : Set ℝ) (t : ℝ)
    (h : ∀ k < N, HasDerivWithinAt (fun s => u s k) (w k) S t) :
    HasDerivWithinAt (fun s => form N g (u s) (u s)) (2 * form N g w (u t)) S t := by
  have h1 : HasDerivWithinAt (fun s => form N g (u s) (u s))
      (∑ i ∈ range N, ∑ j ∈ range N, (w i * g i j * u t j + u t i * g i j * w j)) S t := by
    unfold form
    refine HasDerivWithinAt.fun_sum fun i hi => HasDerivWithinAt.fun_sum fun j hj => ?_
    exact ((h i (mem_range.mp hi)).mul_const (g i j)).mul (h j (mem_range.mp hj))
  convert h1 using 1
  have h2 := form_swap g hg w (u t)
  have h3 : ∑ i ∈ range N, ∑ j ∈ range N, (w i * g i j * u t j + u t i * g i j * w j) = form N g w (u t) + form N g (u t) w := by
    simp only [form, sum_add_distrib]
  rw [h3, ← h2]
  ring

theorem energy_form (u v : ℕ → ℝ) : Spec.vibrationEnergy N M K u v = form N M v v / 2 + form N K u u / 2 := rfl

/-- The law of energy. -/
theorem Oscillator.energyLaw (o : Oscillator N M C K) : Spec.EnergyLaw N M C K where
  rate F u v a m t ht := by
    have h1 := form_deriv M o.massSymm v (a t) (Set.Ici 0) t (m.acceleration t ht)
    have h2 := form_deriv K o.stiffSymm u (v t) (Set.Ici 0) t (m.velocity t ht)
    have h3 := (h1.div_const 2).add (h2.div_const 2)
    refine h3.congr_deriv ?_
    have hb : form N M (v t) (a t) + form N C (v t) (v t) + form N K (v t) (u t) = ∑ k ∈ range N, F t k * v t k := by
      rw [form_rows, form_rows, form_rows, ← sum_add_distrib, ← sum_add_distrib]
      refine sum_congr rfl fun k hk => ?_
      rw [← m.balance t ht k (mem_range.mp hk), sum_add_distrib, sum_add_distrib]
      ring
    have hs := form_swap M o.massSymm (a t) (v t)
    have hc : ∑ i ∈ range N, ∑ j ∈ range N, v t i * C i j * v t j = form N C (v t) (v t) := rfl
    rw [hc, ← hb, hs]
    ring
  dissipation v := o.damp v
  nonneg u v := by
    rw [energy_form]
    have := (o.mass v).1
    have := (o.stiff u).1
    linarith
  rest u v h := by
    rw [energy_form] at h
    have h1 := (o.mass v).1
    have h2 := (o.stiff u).1
    exact fun k hk => ⟨(o.stiff u).2 (by linarith) k hk, (o.mass v).2 (by linarith) k hk⟩

/-- The energy of a motion without load never grows. -/
theorem Oscillator.decay (o : Oscillator N M C K) {u v a : ℝ → ℕ → ℝ} (m : Spec.Motion N M C K (fun _ _ => 0) u v a) {s t : ℝ} (hs : 0 ≤ s)
    (hst : s ≤ t) : Spec.vibrationEnergy N M K (u t) (v t) ≤ Spec.vibrationEnergy N M K (u s) (v s) := by
  have hr := fun t ht => o.energyLaw.rate _ _ _ _ m t ht
  have hanti : AntitoneOn (fun s => Spec.vibrationEnergy N M K (u s) (v s)) (Set.Ici 0) := by
    apply antitoneOn_of_deriv_nonpos (convex_Ici 0)
    · exact fun x hx => (hr x hx).continuousWithinAt
    · intro x hx
      rw [interior_Ici] at hx
      exact ((hr x (le_of_lt hx)).hasDerivAt (Ici_mem_nhds hx)).differentiableAt.differentiableWithinAt
    · intro x hx
      rw [interior_Ici] at hx
      rw [((hr x (le_of_lt hx)).hasDerivAt (Ici_mem_nhds hx)).deriv]
      have := o.damp (v x)
      have hc : ∑ i ∈ range N, ∑ j ∈ range N, v x i * C i j * v x j = form N C (v x) (v x) := rfl
      simp only [zero_mul, sum_const_zero]
      linarith
  exact hanti hs (le_trans hs hst) hst

/-- The matrix of the unknowns as a linear map. -/
noncomputable def rowsMap (N : ℕ) (g : ℕ → ℕ → ℝ) : (Fin N → ℝ) →ₗ[ℝ] Fin N → ℝ := Matrix.toLin' (Matrix.of fun i j : Fin N => g i j)

theorem rowsMap_apply (g : ℕ → ℕ → ℝ) (x : Fin N → ℝ) (i : Fin N) : rowsMap N g x i = ∑ j : Fin N, g i j * x j := by
  simp [rowsMap, Matrix.toLin'_apply, Matrix.mulVec, dotProduct]

/-- Values of a vector with `N` entries. -/
def spread (x : Fin N → ℝ) (k : ℕ) : ℝ := if h : k < N then x ⟨k, h⟩ else 0

theorem spread_fin (x : Fin N → ℝ) (i : Fin N) : spread x i = x i := by simp [spread]

theorem spread_lt (x : Fin N → ℝ) (k : ℕ) (hk : k < N) : spread x k = x ⟨k, hk⟩ := by simp [spread, hk]

theorem mass_injective (h : ∀ U, form N M U U = 0 → ∀ k < N, U k = 0) : Function.Injective (rowsMap N M) := by
  rw [injective_iff_map_eq_zero]
  intro x hx
  have h0 := h (spread x) (by
    rw [form_rows]
    refine sum_eq_zero fun i hi => ?_
    have : ∑ j ∈ range N, M i j * spread x j = 0 := by
      have := congrFun hx ⟨i, mem_range.mp hi⟩
      rw [rowsMap_apply] at this
      rw [Finset.sum_range]
      simpa [spread_fin] using this
    rw [this, mul_zero])
  funext i
  rw [← spread_fin x i]
  exact h0 i i.2

/-- A motion exists for every load, displacement and velocity. -/
theorem motion_exists (h : ∀ U, form N M U U = 0 → ∀ k < N, U k = 0) (F : ℝ → ℕ → ℝ)
    (hF : ∀ k < N, ContinuousOn (fun t => F t k) (Set.Ici 0)) (u₀ v₀ : ℕ → ℝ) :
    ∃ u v a, Spec.Motion N M C K F u v a ∧ ∀ k < N, u 0 k = u₀ k ∧ v 0 k = v₀ k := by
  let L := LinearEquiv.ofInjectiveEndo (rowsMap N M) (mass_injective h)
  have hL : ∀ x, rowsMap N M (L.symm x) = x := fun x => by
    exact L.apply_symm_apply x
  let X := (Fin N → ℝ) × (Fin N → ℝ)
  let acc : X →ₗ[ℝ] Fin N → ℝ := -(L.symm.toLinearMap ∘ₗ (rowsMap N C ∘ₗ LinearMap.snd ℝ _ _ + rowsMap N K ∘ₗ LinearMap.fst ℝ _ _))
  let A : X →L[ℝ] X := LinearMap.toContinuousLinearMap ((LinearMap.snd ℝ _ _).prod acc)
  let f : ℝ → Fin N → ℝ := fun t k => F (max t 0) k
  have hf : Continuous f := by
    refine continuous_pi fun k => ?_
    have : Continuous fun t : ℝ => max t 0 := continuous_id.max continuous_const
    exact (hF k k.2).comp_continuous this fun t => le_max_right t 0
  let g : ℝ → X := fun t => (0, L.symm (f t))
  have hg : Continuous g := continuous_const.prodMk ((LinearMap.continuous_of_finiteDimensional L.symm.toLinearMap).comp hf)
  obtain ⟨x, hx0, hx⟩ := linear_ode A g hg (fun k => u₀ k, fun k => v₀ k)
  have hd : ∀ t, HasDerivAt (fun s => (x s).1) ((x t).2) t ∧
      HasDerivAt (fun s => (x s).2) (acc (x t) + L.symm (f t)) t := by
    intro t
    have h1 := (hx t)
    have h2 : A (x t) + g t = ((x t).2, acc (x t) + L.symm (f t)) := by
      apply Prod.ext
      · show (x t).2 + 0 = (x t).2
        rw [add_zero]
      · rfl
    rw [h2] at h1
    exact ⟨h1.fst, h1.snd⟩
  refine ⟨fun t => spread (x t).1, fun t => spread (x t).2, fun t => spread (acc (x t) + L.symm (f t)), ⟨?_, ?_, ?_⟩, ?_⟩
  · intro t _ k hk
    simp only [spread_lt _ k hk]
    exact (hasDerivAt_pi.mp (hd t).1 ⟨k, hk⟩).hasDerivWithinAt
  · intro t _ k hk
    simp only [spread_lt _ k hk]
    exact (hasDerivAt_pi.mp (hd t).2 ⟨k, hk⟩).hasDerivWithinAt
  · intro t ht k hk
    have e : rowsMap N M (acc (x t) + L.symm (f t)) + rowsMap N C (x t).2 + rowsMap N K (x t).1 = f t := by
      rw [map_add, hL]
      have : rowsMap N M (acc (x t)) = -(rowsMap N C (x t).2 + rowsMap N K (x t).1) := by
        show rowsMap N M (-(L.symm (rowsMap N C (x t).2 + rowsMap N K (x t).1))) = _
        rw [map_neg, hL]
      rw [this]
      abel
    have e' := congrFun e ⟨k, hk⟩
    simp only [Pi.add_apply, rowsMap_apply] at e'
    rw [sum_add_distrib, sum_add_distrib, Finset.sum_range, Finset.sum_range, Finset.sum_range]
    simp only [spread_fin]
    rw [show F t k = f t ⟨k, hk⟩ by simp [f, max_eq_left ht]]
    exact e'
  · intro k hk
    simp only [spread_lt _ k hk, hx0]
    trivial

theorem Motion.sub {F u v a u' v' a' : ℝ → ℕ → ℝ} (m : Spec.Motion N M C K F u v a) (m' : Spec.Motion N M C K F u' v' a') :
    Spec.Motion N M C K (fun _ _ => 0) (fun t k => u' t k - u t k) (fun t k => v' t k - v t k) (fun t k => a' t k - a t k) where
  velocity t ht k hk := (m'.velocity t ht k hk).sub (m.velocity t ht k hk)
  acceleration t ht k hk := (m'.acceleration t ht k hk).sub (m.acceleration t ht k hk)
  balance t ht k hk := by
    have h1 := m.balance t ht k hk
    have h2 := m'.balance t ht k hk
    rw [show (0 : ℝ) = F t k - F t k by ring]
    nth_rewrite 1 [← h2]
    rw [← h1, ← sum_sub_distrib]
    exact sum_congr rfl fun j _ => by ring

theorem Oscillator.wellPosed (o : Oscillator N M C K) : Spec.WellPosed N M C K := by
  intro F hF u₀ v₀
  obtain ⟨u, v, a, m, h0⟩ := motion_exists (C := C) (K := K) (fun U => (o.mass U).2) F hF u₀ v₀
  refine ⟨u, v, a, m, h0, fun u' v' a' m' h0' => ?_⟩
  have d := Motion.sub m m'
  have hz : ∀ t ≥ 0, ∀ k < N, u' t k - u t k = 0 ∧ v' t k - v t k = 0 := by
    intro t ht
    have h1 := o.decay d (le_refl 0) ht
    have h2 : Spec.vibrationEnergy N M K (fun k => u' 0 k - u 0 k) (fun k => v' 0 k - v 0 k) = 0 := by
      unfold Spec.vibrationEnergy
      rw [sum_eq_zero, sum_eq_zero]
      · simp
      · intro i hi
        refine sum_eq_zero fun j _ => ?_
        simp [(h0 i (mem_range.mp hi)).1, (h0' i (mem_range.mp hi)).1]
      · intro i hi
        refine sum_eq_zero fun j _ => ?_
        simp [(h0 i (mem_range.mp hi)).2, (h0' i (mem_range.mp hi)).2]
    rw [h2] at h1
    exact o.energyLaw.rest _ _ (le_antisymm h1 (o.energyLaw.nonneg _ _))
  intro t ht k hk
  have hv : ∀ k < N, v' t k = v t k := fun k hk => sub_eq_zero.mp (hz t ht k hk).2
  have hu : ∀ k < N, u' t k = u t k := fun k hk => sub_eq_zero.mp (hz t ht k hk).1
  refine ⟨hu k hk, hv k hk, ?_⟩
  have ha := (o.mass fun k => a' t k - a t k).2 (by
    rw [form_rows]
    refine sum_eq_zero fun i hi => ?_
    have hb := d.balance t ht i (mem_range.mp hi)
    have : ∑ j ∈ range N, M i j * (a' t j - a t j) = 0 := by
      rw [← hb]
      refine sum_congr rfl fun j hj => ?_
      rw [hu j (mem_range.mp hj), hv j (mem_range.mp hj)]
      ring
    rw [this, mul_zero]) k hk
  exact sub_eq_zero.mp ha

/-- The balance of a free vibration, multiplied by its conjugate shape. -/
theorem complex_form (g : ℕ → ℕ → ℝ) (hg : ∀ i < N, ∀ j < N, g i j = g j i) (φ : ℕ → ℂ) :
    ∑ i ∈ range N, (starRingEnd ℂ) (φ i) * ∑ j ∈ range N, (g i j : ℂ) * φ j =
      ((form N g (fun k => (φ k).re) (fun k => (φ k).re) + form N g (fun k => (φ k).im) (fun k => (φ k).im) : ℝ) : ℂ) := by
  have hsw := form_swap g hg (fun k => (φ k).re) (fun k => (φ k).im)
  rw [form_rows, form_rows] at hsw
  rw [form_rows, form_rows, ← sum_add_distrib]
  apply Complex.ext
  · rw [Complex.re_sum, Complex.ofReal_re]
    refine sum_congr rfl fun i _ => ?_
    simp [Complex.mul_re, Complex.re_sum, Complex.im_sum]
  · rw [Complex.im_sum, Complex.ofReal_im]
    have : ∀ i ∈ range N, ((starRingEnd ℂ) (φ i) * ∑ j ∈ range N, (g i j : ℂ) * φ j).im =
        (φ i).re * ∑ j ∈ range N, g i j * (φ j).im - (φ i).im * ∑ j ∈ range N, g i j * (φ j).re := by
      intro i _
      simp [Complex.mul_im, Complex.re_sum, Complex.im_sum]
      ring
    rw [sum_congr rfl this, sum_sub_distrib, hsw, sub_self]

/-- A free vibration of an oscillator never grows; if the damping takes power from every motion it decays, and without damping it goes on at
a real frequency. -/
theorem Oscillator.vibrations (o : Oscillator N M C K) (s : ℂ) (φ : ℕ → ℂ) (h : Spec.FreeVibration N M C K s φ) :
    s.re ≤ 0 ∧ ((∀ U, form N C U U = 0 → ∀ k < N, U k = 0) → s.re < 0) ∧ ((∀ U, form N C U U = 0) → s.re = 0 ∧ s.im ≠ 0) := by
  obtain ⟨⟨k₀, hk₀, hne⟩, hb⟩ := h
  set m := form N M (fun k => (φ k).re) (fun k => (φ k).re) + form N M (fun k => (φ k).im) (fun k => (φ k).im) with hm
  set c := form N C (fun k => (φ k).re) (fun k => (φ k).re) + form N C (fun k => (φ k).im) (fun k => (φ k).im) with hc
  set k := form N K (fun k => (φ k).re) (fun k => (φ k).re) + form N K (fun k => (φ k).im) (fun k => (φ k).im) with hk
  have pos : ∀ g : ℕ → ℕ → ℝ, (∀ U, 0 ≤ form N g U U) → (∀ U, form N g U U = 0 → ∀ k < N, U k = 0) →
      0 < form N g (fun k => (φ k).re) (fun k => (φ k).re) + form N g (fun k => (φ k).im) (fun k => (φ k).im) := by
    intro g g0 g1
    have a1 := g0 fun k => (φ k).re
    have a2 := g0 fun k => (φ k).im
    refine lt_of_le_of_ne (by linarith) fun he => hne ?_
    have b1 := g1 (fun k => (φ k).re) (by linarith) k₀ hk₀
    have b2 := g1 (fun k => (φ k).im) (by linarith) k₀ hk₀
    exact Complex.ext b1 b2
  have m0 : 0 < m := pos M (fun U => (o.mass U).1) fun U => (o.mass U).2
  have k0 : 0 < k := pos K (fun U => (o.stiff U).1) fun U => (o.stiff U).2
  have c0 : 0 ≤ c := add_nonneg (o.damp _) (o.damp _)
  have e : s ^ 2 * m + s * c + k = 0 := by
    have : ∑ i ∈ range N, (starRingEnd ℂ) (φ i) * ∑ j ∈ range N, (s ^ 2 * M i j + s * C i j + K i j) * φ j = 0 :=
      sum_eq_zero fun i hi => by rw [hb i (mem_range.mp hi), mul_zero]
    rw [hm, hc, hk, ← complex_form M o.massSymm, ← complex_form C o.dampSymm, ← complex_form K o.stiffSymm, ← this, mul_sum, mul_sum,
      ← sum_add_distrib, ← sum_add_distrib]
    refine sum_congr rfl fun i _ => ?_
    simp only [mul_sum, ← sum_add_distrib]
    exact sum_congr rfl fun j _ => by ring
  have er := congrArg Complex.re e
  have ei := congrArg Complex.im e
  simp [pow_two, Complex.mul_re, Complex.mul_im] at er ei
  have hgen : s.im ≠ 0 → 2 * s.re * m + c = 0 := fun hi => by
    have : s.im * (2 * s.re * m + c) = 0 := by linear_combination ei
    exact (mul_eq_zero.mp this).resolve_left hi
  refine ⟨?_, fun hd => ?_, fun hz => ?_⟩
  · by_contra hp
    push Not at hp
    by_cases hi : s.im = 0
    · rw [hi] at er
      have := mul_pos (mul_pos hp hp) m0
      have := mul_nonneg hp.le c0
      linarith
    · have := hgen hi
      have := mul_pos hp m0
      linarith
  · have c1 : 0 < c := pos C o.damp hd
    by_contra hp
    push Not at hp
    by_cases hi : s.im = 0
    · rw [hi] at er
      have := mul_nonneg (mul_nonneg hp hp) m0.le
      have := mul_nonneg hp c0
      linarith
    · have := hgen hi
      have := mul_nonneg hp m0.le
      linarith
  · have c1 : c = 0 := by rw [hc, hz, hz, add_zero]
    rw [c1] at hgen er
    by_cases hi : s.im = 0
    · rw [hi] at er
      have := mul_nonneg (mul_self_nonneg s.re) m0.le
      linarith
    · refine ⟨?_, hi⟩
      have := hgen hi
      have : s.re * m = 0 := by linarith
      exact (mul_eq_zero.mp this).resolve_right m0.ne'

end Rose
