/-
Newmark steps of systems with a positive definite mass and stiffness matrix.
-/
import Verif.Lemmas.Oscillator
import Verif.Spec.TimeSteps
import Mathlib.Algebra.QuadraticDiscriminant
import Mathlib.Analysis.SpecialFunctions.Pow.Real
import Mathlib.LinearAlgebra.BilinearMap
import Mathlib.Topology.UniformSpace.HeineCantor

set_option linter.unusedSectionVars false

namespace Rose
open Finset

/-! ### A norm -/

section norm
variable {X : Type*} [AddCommGroup X] [Module ℝ X] (B : X →ₗ[ℝ] X →ₗ[ℝ] ℝ)

theorem psd_cs (hs : ∀ x y, B x y = B y x) (hp : ∀ x, 0 ≤ B x x) (x y : X) : |B x y| ≤ √(B x x) * √(B y y) := by
  have h : discrim (B y y) (2 * B x y) (B x x) ≤ 0 := by
    refine discrim_le_zero fun t => ?_
    have := hp (x + t • y)
    simp only [map_add, map_smul, LinearMap.add_apply, LinearMap.smul_apply, smul_eq_mul] at this
    rw [hs y x] at this
    linarith
  unfold discrim at h
  rw [← Real.sqrt_mul (hp x)]
  refine Real.abs_le_sqrt ?_
  nlinarith

theorem psd_triangle (hs : ∀ x y, B x y = B y x) (hp : ∀ x, 0 ≤ B x x) (x y : X) : √(B (x + y) (x + y)) ≤ √(B x x) + √(B y y) := by
  refine Real.sqrt_le_iff.mpr ⟨by positivity, ?_⟩
  have h1 := (abs_le.mp (psd_cs B hs hp x y)).2
  have h2 := Real.sq_sqrt (hp x)
  have h3 := Real.sq_sqrt (hp y)
  simp only [map_add, LinearMap.add_apply]
  rw [hs y x]
  nlinarith

/-- One step of an error that gains no more energy than the defect `d` feeds it. -/
theorem psd_step (hs : ∀ x y, B x y = B y x) (hp : ∀ x, 0 ≤ B x x) (e e' d : X) (h : B e' e' - B e e ≤ B (e' + e) d) :
    √(B e' e') ≤ √(B e e) + √(B d d) := by
  have h1 := (abs_le.mp (psd_cs B hs hp (e' + e) d)).2
  have h2 := psd_triangle B hs hp e' e
  have h3 := Real.sq_sqrt (hp e)
  have h4 := Real.sq_sqrt (hp e')
  have d0 := Real.sqrt_nonneg (B d d)
  have p0 := Real.sqrt_nonneg (B e e)
  have q0 := Real.sqrt_nonneg (B e' e')
  have h5 : √(B (e' + e) (e' + e)) * √(B d d) ≤ (√(B e' e') + √(B e e)) * √(B d d) := mul_le_mul_of_nonneg_right h2 d0
  have h6 : (√(B e' e') - √(B e e)) * (√(B e' e') + √(B e e)) ≤ √(B d d) * (√(B e' e') + √(B e e)) := by nlinarith
  by_contra hc
  push Not at hc
  have : 0 < √(B e' e') + √(B e e) := by linarith
  have := le_of_mul_le_mul_right h6 this
  linarith

end norm

variable {N : ℕ} {M C K : ℕ → ℕ → ℝ}

theorem form_add_left (g : ℕ → ℕ → ℝ) (v v' u : ℕ → ℝ) : form N g (v + v') u = form N g v u + form N g v' u := by
  simp only [form, Pi.add_apply, add_mul, sum_add_distrib]

theorem form_add_right (g : ℕ → ℕ → ℝ) (v u u' : ℕ → ℝ) : form N g v (u + u') = form N g v u + form N g v u' := by
  simp only [form, Pi.add_apply, mul_add, sum_add_distrib]

theorem form_smul_left (g : ℕ → ℕ → ℝ) (c : ℝ) (v u : ℕ → ℝ) : form N g (c • v) u = c * form N g v u := by
  simp only [form, Pi.smul_apply, smul_eq_mul, mul_sum]
  exact sum_congr rfl fun i _ => sum_congr rfl fun j _ => by ring

theorem form_smul_right (g : ℕ → ℕ → ℝ) (c : ℝ) (v u : ℕ → ℝ) : form N g v (c • u) = c * form N g v u := by
  simp only [form, Pi.smul_apply, smul_eq_mul, mul_sum]
  exact sum_congr rfl fun i _ => sum_congr rfl fun j _ => by ring

theorem form_sub_left (g : ℕ → ℕ → ℝ) (v v' u : ℕ → ℝ) : form N g (v - v') u = form N g v u - form N g v' u := by
  simp only [form, Pi.sub_apply, sub_mul, sum_sub_distrib]

theorem form_sub_right (g : ℕ → ℕ → ℝ) (v u u' : ℕ → ℝ) : form N g v (u - u') = form N g v u - form N g v u' := by
  simp only [form, Pi.sub_apply, mul_sub, sum_sub_distrib]

theorem form_congr (g : ℕ → ℕ → ℝ) {v v' u u' : ℕ → ℝ} (hv : ∀ k < N, v k = v' k) (hu : ∀ k < N, u k = u' k) :
    form N g v u = form N g v' u' := by
  unfold form
  refine sum_congr rfl fun i hi => sum_congr rfl fun j hj => ?_
  rw [hv i (mem_range.mp hi), hu j (mem_range.mp hj)]

/-- A form of displacement and velocity together. -/
noncomputable def pairForm (N : ℕ) (K M : ℕ → ℕ → ℝ) : ((ℕ → ℝ) × (ℕ → ℝ)) →ₗ[ℝ] ((ℕ → ℝ) × (ℕ → ℝ)) →ₗ[ℝ] ℝ :=
  LinearMap.mk₂ ℝ (fun x y => form N K x.1 y.1 + form N M x.2 y.2)
    (fun x x' y => by simp only [Prod.fst_add, Prod.snd_add, form_add_left]; ring)
    (fun c x y => by simp only [Prod.smul_fst, Prod.smul_snd, form_smul_left, smul_eq_mul]; ring)
    (fun x y y' => by simp only [Prod.fst_add, Prod.snd_add, form_add_right]; ring)
    (fun c x y => by simp only [Prod.smul_fst, Prod.smul_snd, form_smul_right, smul_eq_mul]; ring)

theorem pairForm_apply (x y : (ℕ → ℝ) × (ℕ → ℝ)) : pairForm N K M x y = form N K x.1 y.1 + form N M x.2 y.2 := rfl

theorem form_zero_left (g : ℕ → ℕ → ℝ) (u : ℕ → ℝ) : form N g 0 u = 0 := by simp [form]

theorem form_zero_right (g : ℕ → ℕ → ℝ) (u : ℕ → ℝ) : form N g u 0 = 0 := by simp [form]

/-- Every value is the work of some vector. -/
theorem form_reads (g : ℕ → ℕ → ℝ) (hg : ∀ i < N, ∀ j < N, g i j = g j i) (h : ∀ U, form N g U U = 0 → ∀ k < N, U k = 0) (k : ℕ) (hk : k < N) :
    ∃ w, ∀ u, form N g w u = u k := by
  let L := LinearEquiv.ofInjectiveEndo (rowsMap N g) (mass_injective h)
  let e : Fin N → ℝ := Pi.single ⟨k, hk⟩ 1
  refine ⟨spread (L.symm e), fun u => ?_⟩
  have h1 : rowsMap N g (L.symm e) = e := L.apply_symm_apply e
  rw [form_swap g hg, form_rows, Finset.sum_range]
  have h2 : ∀ i : Fin N, ∑ j ∈ range N, g i j * spread (L.symm e) j = e i := by
    intro i
    rw [← congrFun h1 i, rowsMap_apply, Finset.sum_range]
    exact sum_congr rfl fun j _ => by rw [spread_fin]
  simp only [h2]
  rw [Finset.sum_eq_single ⟨k, hk⟩]
  · simp [e]
  · intro b _ hb
    simp [e, hb]
  · simp

/-- Values are bounded by the energy. -/
theorem form_bounds (g : ℕ → ℕ → ℝ) (hg : ∀ i < N, ∀ j < N, g i j = g j i)
    (h : ∀ U, 0 ≤ form N g U U ∧ (form N g U U = 0 → ∀ k < N, U k = 0)) : ∃ c ≥ 0, ∀ u, ∀ k < N, |u k| ≤ c * √(form N g u u) := by
  choose w hw using fun k : Fin N => form_reads g hg (fun U => (h U).2) k k.2
  refine ⟨∑ k : Fin N, √(form N g (w k) (w k)), sum_nonneg fun _ _ => Real.sqrt_nonneg _, fun u k hk => ?_⟩
  have h1 := psd_cs (pairForm N g 0) (fun x y => by simp only [pairForm_apply]; rw [form_swap g hg]; simp [form])
    (fun x => by simp only [pairForm_apply]; have := (h x.1).1; simpa [form] using this) (w ⟨k, hk⟩, 0) (u, 0)
  simp only [pairForm_apply, form_zero_left, add_zero, hw ⟨k, hk⟩ u] at h1
  refine h1.trans (mul_le_mul_of_nonneg_right ?_ (Real.sqrt_nonneg _))
  exact single_le_sum (f := fun k : Fin N => √(form N g (w k) (w k))) (fun _ _ => Real.sqrt_nonneg _) (mem_univ _)

/-- The energy of small values is small. -/
theorem form_small (g : ℕ → ℕ → ℝ) : ∃ c ≥ 0, ∀ (u : ℕ → ℝ) (ε : ℝ), 0 ≤ ε → (∀ k < N, |u k| ≤ ε) → form N g u u ≤ c * ε ^ 2 := by
  refine ⟨∑ i ∈ range N, ∑ j ∈ range N, |g i j|, sum_nonneg fun _ _ => sum_nonneg fun _ _ => abs_nonneg _, fun u ε hε h => ?_⟩
  unfold form
  rw [sum_mul]
  refine sum_le_sum fun i hi => ?_
  rw [sum_mul]
  refine sum_le_sum fun j hj => ?_
  have h1 := h i (mem_range.mp hi)
  have h2 := h j (mem_range.mp hj)
  calc u i * g i j * u j ≤ |u i * g i j * u j| := le_abs_self _
    _ = |g i j| * (|u i| * |u j|) := by rw [abs_mul, abs_mul]; ring
    _ ≤ |g i j| * ε ^ 2 := by
      refine mul_le_mul_of_nonneg_left ?_ (abs_nonneg _)
      rw [pow_two]
      exact mul_le_mul h1 h2 (abs_nonneg _) hε

end Rose
