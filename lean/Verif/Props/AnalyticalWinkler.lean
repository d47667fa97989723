/-
C154: the displacements of a beam on a foundation with a change of stiffness under a moving load.
-/
import Verif.Model.AnalyticalWinkler
import Verif.Spec.FoundationWave
import Mathlib.Analysis.SpecialFunctions.ExpDeriv
import Mathlib.Analysis.Complex.RealDeriv
import Mathlib.Tactic.IntervalCases

set_option linter.unusedSectionVars false

namespace Rose
open Rose.Spec Filter

/-! ### The principal root -/

theorem csqrt_sq (z : ℂ) : csqrt z ^ 2 = z := by
  have := Complex.cpow_nat_inv_pow z (n := 2) two_ne_zero
  simpa [csqrt] using this

theorem csqrt_re (z : ℂ) (h : z.im ≠ 0) : 0 < (csqrt z).re := by
  rw [csqrt, Complex.cpow_inv_two_re]
  refine Real.sqrt_pos.mpr (div_pos ?_ two_pos)
  have h1 : |z.re| < ‖z‖ := Complex.abs_re_lt_norm.mpr h
  have h2 := neg_abs_le z.re
  linarith

/-- The roots of the code: the square of the square of `csqrt (±i g)`. -/
theorem csqrt_I (g : ℂ) : csqrt (Complex.I * g) ^ 4 = -g ^ 2 ∧ csqrt (-Complex.I * g) ^ 4 = -g ^ 2 ∧
    csqrt (Complex.I * g) ^ 2 = Complex.I * g ∧ csqrt (-Complex.I * g) ^ 2 = -Complex.I * g := by
  refine ⟨?_, ?_, csqrt_sq _, csqrt_sq _⟩
  · rw [show (4 : ℕ) = 2 * 2 from rfl, pow_mul, csqrt_sq, mul_pow, Complex.I_sq]
    ring
  · rw [show (4 : ℕ) = 2 * 2 from rfl, pow_mul, csqrt_sq, mul_pow, neg_sq, Complex.I_sq]
    ring

theorem csqrt_I_re (g : ℂ) (h : 0 < g.re) : 0 < (csqrt (Complex.I * g)).re ∧ 0 < (csqrt (-Complex.I * g)).re := by
  constructor
  · exact csqrt_re _ (by simp [h.ne'])
  · exact csqrt_re _ (by simp [h.ne'])

/-! ### Sums of exponentials -/

/-- The `n`-th derivative along the beam of a sum of terms `c exp (r x + p t)`. -/
noncomputable def expSum (L : List (ℂ × ℂ × ℂ)) (n : ℕ) (x t : ℝ) : ℂ :=
  (L.map fun e => e.1 * e.2.1 ^ n * Complex.exp (e.2.1 * x + e.2.2 * t)).sum

theorem expSum_x (L : List (ℂ × ℂ × ℂ)) (n : ℕ) (x t : ℝ) : HasDerivAt (fun y : ℝ => expSum L n y t) (expSum L (n + 1) x t) x := by
  induction L with
  | nil => simpa [expSum] using hasDerivAt_const x (0 : ℂ)
  | cons e L ih =>
    have h1 : HasDerivAt (fun y : ℝ => e.2.1 * (y : ℂ) + e.2.2 * t) (e.2.1 * 1) x :=
      (((hasDerivAt_id x).ofReal_comp).const_mul e.2.1).add_const _
    have h2 := (h1.cexp.const_mul (e.1 * e.2.1 ^ n)).add ih
    refine h2.congr_deriv ?_
    simp only [expSum, List.map_cons, List.sum_cons]
    ring

/-- The same terms with their derivative in time as coefficient. -/
def timeTerms (L : List (ℂ × ℂ × ℂ)) : List (ℂ × ℂ × ℂ) := L.map fun e => (e.1 * e.2.2, e.2.1, e.2.2)

theorem expSum_t (L : List (ℂ × ℂ × ℂ)) (n : ℕ) (x t : ℝ) : HasDerivAt (fun τ : ℝ => expSum L n x τ) (expSum (timeTerms L) n x t) t := by
  induction L with
  | nil => simpa [expSum, timeTerms] using hasDerivAt_const t (0 : ℂ)
  | cons e L ih =>
    have h1 : HasDerivAt (fun τ : ℝ => e.2.1 * (x : ℂ) + e.2.2 * τ) (e.2.2 * 1) t :=
      (((hasDerivAt_id t).ofReal_comp).const_mul e.2.2).const_add _
    have h2 := (h1.cexp.const_mul (e.1 * e.2.1 ^ n)).add ih
    refine h2.congr_deriv ?_
    simp only [expSum, timeTerms, List.map_cons, List.sum_cons]
    ring

theorem hasDerivAt_re {f : ℝ → ℂ} {f' : ℂ} {x : ℝ} (h : HasDerivAt f f' x) : HasDerivAt (fun y => (f y).re) f'.re x := by
  exact (Complex.reCLM.hasFDerivAt (x := f x)).comp_hasDerivAt x h

theorem expSum_wave (EI rho k : ℝ) (L : List (ℂ × ℂ × ℂ)) (h : ∀ e ∈ L, EI * e.2.1 ^ 4 + rho * e.2.2 ^ 2 + k = 0) :
    FoundationWave EI rho k (fun x t => (expSum L 0 x t).re) (fun x t => (expSum L 1 x t).re) (fun x t => (expSum L 2 x t).re)
      (fun x t => (expSum L 3 x t).re) := by
  refine ⟨fun x t => hasDerivAt_re (expSum_x L 0 x t), fun x t => hasDerivAt_re (expSum_x L 1 x t), fun x t => hasDerivAt_re (expSum_x L 2 x t),
    fun x t => (expSum (timeTerms L) 0 x t).re, fun x t => ⟨hasDerivAt_re (expSum_t L 0 x t), _, _, hasDerivAt_re (expSum_x L 3 x t),
      hasDerivAt_re (expSum_t (timeTerms L) 0 x t), ?_⟩⟩
  have key : (EI : ℂ) * expSum L 4 x t + rho * expSum (timeTerms (timeTerms L)) 0 x t + k * expSum L 0 x t = 0 := by
    induction L with
    | nil => simp [expSum, timeTerms]
    | cons e L ih =>
      have a := ih fun e he => h e (List.mem_cons_of_mem _ he)
      have b := h e List.mem_cons_self
      simp only [expSum, timeTerms, List.map_cons, List.sum_cons] at a ⊢
      linear_combination a + e.1 * Complex.exp (e.2.1 * x + e.2.2 * t) * b
  have := congrArg Complex.re key
  simpa using this

theorem expSum_atBot (L : List (ℂ × ℂ × ℂ)) (h : ∀ e ∈ L, 0 < e.2.1.re) (t : ℝ) :
    Tendsto (fun x : ℝ => expSum L 0 x t) atBot (nhds 0) := by
  induction L with
  | nil => simpa [expSum] using tendsto_const_nhds
  | cons e L ih =>
    have a := ih fun e he => h e (List.mem_cons_of_mem _ he)
    have b : Tendsto (fun x : ℝ => e.1 * e.2.1 ^ 0 * Complex.exp (e.2.1 * x + e.2.2 * t)) atBot (nhds 0) := by
      rw [← mul_zero (e.1 * e.2.1 ^ 0)]
      refine Tendsto.const_mul _ (Complex.tendsto_exp_comap_re_atBot.comp (tendsto_comap_iff.mpr ?_))
      have : Complex.re ∘ (fun x : ℝ => e.2.1 * (x : ℂ) + e.2.2 * t) = fun x : ℝ => e.2.1.re * x + e.2.2.re * t := by
        ext x
        simp
      rw [this]
      exact tendsto_atBot_add_const_right _ _ (tendsto_id.const_mul_atBot (h e List.mem_cons_self))
    have := b.add a
    simpa [expSum] using this

theorem expSum_atTop (L : List (ℂ × ℂ × ℂ)) (h : ∀ e ∈ L, e.2.1.re < 0) (t : ℝ) :
    Tendsto (fun x : ℝ => expSum L 0 x t) atTop (nhds 0) := by
  induction L with
  | nil => simpa [expSum] using tendsto_const_nhds
  | cons e L ih =>
    have a := ih fun e he => h e (List.mem_cons_of_mem _ he)
    have b : Tendsto (fun x : ℝ => e.1 * e.2.1 ^ 0 * Complex.exp (e.2.1 * x + e.2.2 * t)) atTop (nhds 0) := by
      rw [← mul_zero (e.1 * e.2.1 ^ 0)]
      refine Tendsto.const_mul _ (Complex.tendsto_exp_comap_re_atBot.comp (tendsto_comap_iff.mpr ?_))
      have : Complex.re ∘ (fun x : ℝ => e.2.1 * (x : ℂ) + e.2.2 * t) = fun x : ℝ => e.2.1.re * x + e.2.2.re * t := by
        ext x
        simp
      rw [this]
      exact tendsto_atBot_add_const_right _ _ (tendsto_id.const_mul_atTop_of_neg (h e List.mem_cons_self))
    have := b.add a
    simpa [expSum] using this

/-! ### The roots -/

/-- A load below the critical speed on two foundations. -/
structure Winkler.Slow (m : Winkler) : Prop where
  alpha : 0 < m.alpha
  slow : m.alpha ^ 4 < 4
  ratio : 0 < m.kRatio

namespace Winkler
variable {m : Winkler}

theorem root_pos (hm : m.Slow) : 0 < √(4 - m.alpha ^ 4) := Real.sqrt_pos.mpr (by linarith [hm.slow])

theorem root_sq (hm : m.Slow) : (√(4 - m.alpha ^ 4) : ℝ) ^ 2 = 4 - m.alpha ^ 4 := Real.sq_sqrt (by linarith [hm.slow])

theorem qa_sq : m.qa ^ 2 = 1 / 2 * (-(m.alpha : ℂ) ^ 2 + Complex.I * (√(4 - m.alpha ^ 4) : ℝ)) := by
  rw [qa, neg_sq, csqrt_sq]

theorem qb_sq : m.qb ^ 2 = 1 / 2 * (-(m.alpha : ℂ) ^ 2 - Complex.I * (√(4 - m.alpha ^ 4) : ℝ)) := by
  rw [qb, neg_sq, csqrt_sq]

theorem root_csq (hm : m.Slow) : ((√(4 - m.alpha ^ 4) : ℝ) : ℂ) ^ 2 = 4 - (m.alpha : ℂ) ^ 4 := by
  have := congrArg (fun x : ℝ => (x : ℂ)) (root_sq hm)
  push_cast at this ⊢
  exact this

theorem qa_four (hm : m.Slow) : m.qa ^ 4 = -(1 + m.qa ^ 2 * m.alpha ^ 2) := by
  have h := root_csq hm
  have hI := Complex.I_sq
  rw [show (4 : ℕ) = 2 * 2 from rfl, pow_mul, qa_sq]
  linear_combination (1 / 4 * (√(4 - m.alpha ^ 4) : ℝ) ^ 2 : ℂ) * hI - 1 / 4 * h

theorem qb_four (hm : m.Slow) : m.qb ^ 4 = -(1 + m.qb ^ 2 * m.alpha ^ 2) := by
  have h := root_csq hm
  have hI := Complex.I_sq
  rw [show (4 : ℕ) = 2 * 2 from rfl, pow_mul, qb_sq]
  linear_combination (1 / 4 * (√(4 - m.alpha ^ 4) : ℝ) ^ 2 : ℂ) * hI - 1 / 4 * h

theorem qa_im (hm : m.Slow) : (m.qa ^ 2).im ≠ 0 ∧ m.qa.re < 0 := by
  have h := root_pos hm
  have e : (1 / 2 * (-(m.alpha : ℂ) ^ 2 + Complex.I * (√(4 - m.alpha ^ 4) : ℝ))).im = √(4 - m.alpha ^ 4) / 2 := by
    rw [show (1 / 2 * (-(m.alpha : ℂ) ^ 2 + Complex.I * (√(4 - m.alpha ^ 4) : ℝ)) : ℂ) =
      ((-m.alpha ^ 2 / 2 : ℝ) : ℂ) + ((√(4 - m.alpha ^ 4) / 2 : ℝ) : ℂ) * Complex.I by push_cast; ring]
    simp only [Complex.add_im, Complex.ofReal_im, Complex.mul_im, Complex.ofReal_re, Complex.I_im, Complex.I_re]
    ring
  constructor
  · rw [qa_sq, e]
    positivity
  · have := csqrt_re (1 / 2 * (-(m.alpha : ℂ) ^ 2 + Complex.I * (√(4 - m.alpha ^ 4) : ℝ))) (by rw [e]; positivity)
    rw [qa, Complex.neg_re]
    linarith

theorem qb_im (hm : m.Slow) : (m.qb ^ 2).im ≠ 0 ∧ m.qb.re < 0 := by
  have h := root_pos hm
  have e : (1 / 2 * (-(m.alpha : ℂ) ^ 2 - Complex.I * (√(4 - m.alpha ^ 4) : ℝ))).im = -(√(4 - m.alpha ^ 4) / 2) := by
    rw [show (1 / 2 * (-(m.alpha : ℂ) ^ 2 - Complex.I * (√(4 - m.alpha ^ 4) : ℝ)) : ℂ) =
      ((-m.alpha ^ 2 / 2 : ℝ) : ℂ) + ((-(√(4 - m.alpha ^ 4) / 2) : ℝ) : ℂ) * Complex.I by push_cast; ring]
    simp only [Complex.add_im, Complex.ofReal_im, Complex.mul_im, Complex.ofReal_re, Complex.I_im, Complex.I_re]
    ring
  have hne : -(√(4 - m.alpha ^ 4) / 2) ≠ 0 := by
    rw [neg_ne_zero]
    positivity
  constructor
  · rw [qb_sq, e]
    exact hne
  · have := csqrt_re (1 / 2 * (-(m.alpha : ℂ) ^ 2 - Complex.I * (√(4 - m.alpha ^ 4) : ℝ))) (by rw [e]; exact hne)
    rw [qb, Complex.neg_re]
    linarith

theorem g_re (hm : m.Slow) (k : ℝ) (q : ℂ) (hq : (q ^ 2).im ≠ 0) : 0 < (csqrt (k + q ^ 2 * m.alpha ^ 2)).re := by
  refine csqrt_re _ ?_
  rw [show (k + q ^ 2 * m.alpha ^ 2 : ℂ) = (k : ℂ) + q ^ 2 * ((m.alpha ^ 2 : ℝ) : ℂ) by push_cast; ring]
  simp only [Complex.add_im, Complex.ofReal_im, Complex.mul_im, Complex.ofReal_re]
  have := hm.alpha
  have h2 : m.alpha ^ 2 ≠ 0 := by positivity
  simpa [h2] using hq

/-- Fourth powers and signs of the roots of one side for one of the two frequencies. -/
theorem roots_spec (hm : m.Slow) (k : ℝ) (q : ℂ) (hq : (q ^ 2).im ≠ 0) :
    let g := csqrt (k + q ^ 2 * m.alpha ^ 2)
    csqrt (Complex.I * g) ^ 4 = -(k + q ^ 2 * m.alpha ^ 2) ∧ csqrt (-Complex.I * g) ^ 4 = -(k + q ^ 2 * m.alpha ^ 2) ∧
      0 < (csqrt (Complex.I * g)).re ∧ 0 < (csqrt (-Complex.I * g)).re ∧ csqrt (Complex.I * g) ≠ csqrt (-Complex.I * g) := by
  intro g
  have hg := g_re hm k q hq
  have h1 := csqrt_I g
  have h2 := csqrt_I_re g hg
  have hs : g ^ 2 = k + q ^ 2 * m.alpha ^ 2 := csqrt_sq _
  refine ⟨by rw [h1.1, hs], by rw [h1.2.1, hs], h2.1, h2.2, fun e => ?_⟩
  have e2 : Complex.I * g = -Complex.I * g := by rw [← h1.2.2.1, ← h1.2.2.2, e]
  have e3 : Complex.I * g = 0 := by
    have : 2 * (Complex.I * g) = 0 := by linear_combination e2
    exact (mul_eq_zero.mp this).resolve_left two_ne_zero
  have e4 : g = 0 := (mul_eq_zero.mp e3).resolve_left Complex.I_ne_zero
  rw [show csqrt (k + q ^ 2 * m.alpha ^ 2) = g from rfl, e4] at hg
  simp at hg

theorem one_side (hm : m.Slow) (q : ℂ) (hq : (q ^ 2).im ≠ 0) :
    let g := csqrt (1 + q ^ 2 * m.alpha ^ 2)
    csqrt (Complex.I * g) ^ 4 = -(1 + q ^ 2 * m.alpha ^ 2) ∧ csqrt (-Complex.I * g) ^ 4 = -(1 + q ^ 2 * m.alpha ^ 2) ∧
      0 < (csqrt (Complex.I * g)).re ∧ 0 < (csqrt (-Complex.I * g)).re ∧ csqrt (Complex.I * g) ≠ csqrt (-Complex.I * g) := by
  have := roots_spec hm 1 q hq
  simpa using this

theorem ne_of_re {z w : ℂ} (hz : 0 < z.re) (hw : w.re < 0) : z ≠ w := fun e => by rw [e] at hz; linarith

/-- The coefficients of four exponentials that continue a fifth. -/
theorem interpolate {q r1 r2 p1 p2 A : ℂ} (h12 : r1 ≠ r2) (h34 : p1 ≠ p2) (h13 : r1 ≠ p1) (h14 : r1 ≠ p2) (h23 : r2 ≠ p1) (h24 : r2 ≠ p2)
    (n : ℕ) (hn : n ≤ 3) :
    A * q ^ n + -((q - r2) * (q - p2) * (q - p1)) * A / ((r1 - r2) * (p2 - r1) * (p1 - r1)) * r1 ^ n +
        ((q - r1) * (q - p2) * (q - p1)) * A / ((p2 - r2) * (p1 - r2) * (r1 - r2)) * r2 ^ n =
      ((q - r2) * (q - r1) * (q - p2)) * A / ((p1 - p2) * (p1 - r2) * (p1 - r1)) * p1 ^ n +
        -((q - r2) * (q - r1) * (q - p1)) * A / ((p2 - r2) * (p2 - r1) * (p1 - p2)) * p2 ^ n := by
  have a1 := sub_ne_zero.mpr h12
  have a2 := sub_ne_zero.mpr h34
  have a3 := sub_ne_zero.mpr h13.symm
  have a4 := sub_ne_zero.mpr h14.symm
  have a5 := sub_ne_zero.mpr h23.symm
  have a6 := sub_ne_zero.mpr h24.symm
  interval_cases n <;> field_simp <;> ring

/-- `A qa + B qb = 0` and `2 (A qa ^ 3 + B qb ^ 3) = F`. -/
theorem jump (hm : m.Slow) : m.A * m.qa + m.B * m.qb = 0 ∧ 2 * (m.A * m.qa ^ 3 + m.B * m.qb ^ 3) = m.F := by
  have ha : m.qa ≠ 0 := fun e => by have := (qa_im hm).2; rw [e] at this; simp at this
  have hb : m.qb ≠ 0 := fun e => by have := (qb_im hm).2; rw [e] at this; simp at this
  have hr : ((√(4 - m.alpha ^ 4) : ℝ) : ℂ) ≠ 0 := by exact_mod_cast (root_pos hm).ne'
  have h1 : m.A * m.qa + m.B * m.qb = 0 := by
    rw [B]
    field_simp
    ring
  refine ⟨h1, ?_⟩
  have h2 : m.qa ^ 2 - m.qb ^ 2 = Complex.I * (√(4 - m.alpha ^ 4) : ℝ) := by
    rw [qa_sq, qb_sq]
    ring
  have h3 : 2 * (m.A * m.qa ^ 3 + m.B * m.qb ^ 3) = 2 * (m.A * m.qa) * (m.qa ^ 2 - m.qb ^ 2) := by linear_combination 2 * m.qb ^ 2 * h1
  rw [h3, h2, A]
  have hI := Complex.I_ne_zero
  field_simp

/-- The terms behind the load. -/
noncomputable def homogeneous (m : Winkler) (σ : ℝ) : List (ℂ × ℂ × ℂ) :=
  [(m.C1a, m.r1a1 * σ, -m.qa * m.alpha * m.h), (m.D1a, m.r1a2 * σ, -m.qa * m.alpha * m.h),
   (m.C1b, m.r1b1 * σ, -m.qb * m.alpha * m.h), (m.D1b, m.r1b2 * σ, -m.qb * m.alpha * m.h)]

noncomputable def ahead (m : Winkler) (σ : ℝ) : List (ℂ × ℂ × ℂ) :=
  [(m.C2a, m.r2a1 * σ, -m.qa * m.alpha * m.h), (m.D2a, m.r2a2 * σ, -m.qa * m.alpha * m.h),
   (m.C2b, m.r2b1 * σ, -m.qb * m.alpha * m.h), (m.D2b, m.r2b2 * σ, -m.qb * m.alpha * m.h)]

noncomputable def behind (m : Winkler) (σ : ℝ) : List (ℂ × ℂ × ℂ) :=
  (m.A, -m.qa * σ, m.qa * m.alpha * m.h) :: (m.B, -m.qb * σ, m.qb * m.alpha * m.h) :: m.homogeneous σ

noncomputable def between (m : Winkler) (σ : ℝ) : List (ℂ × ℂ × ℂ) :=
  (m.A, m.qa * σ, -m.qa * m.alpha * m.h) :: (m.B, m.qb * σ, -m.qb * m.alpha * m.h) :: m.homogeneous σ

/-- Fourth powers and signs of the eight roots. -/
theorem powers (hm : m.Slow) :
    (m.r1a1 ^ 4 = -(1 + m.qa ^ 2 * m.alpha ^ 2) ∧ m.r1a2 ^ 4 = -(1 + m.qa ^ 2 * m.alpha ^ 2) ∧
      m.r1b1 ^ 4 = -(1 + m.qb ^ 2 * m.alpha ^ 2) ∧ m.r1b2 ^ 4 = -(1 + m.qb ^ 2 * m.alpha ^ 2)) ∧
    (m.r2a1 ^ 4 = -(m.kRatio + m.qa ^ 2 * m.alpha ^ 2) ∧ m.r2a2 ^ 4 = -(m.kRatio + m.qa ^ 2 * m.alpha ^ 2) ∧
      m.r2b1 ^ 4 = -(m.kRatio + m.qb ^ 2 * m.alpha ^ 2) ∧ m.r2b2 ^ 4 = -(m.kRatio + m.qb ^ 2 * m.alpha ^ 2)) := by
  have a1 := one_side hm m.qa (qa_im hm).1
  have b1 := one_side hm m.qb (qb_im hm).1
  have a2 := roots_spec hm m.kRatio m.qa (qa_im hm).1
  have b2 := roots_spec hm m.kRatio m.qb (qb_im hm).1
  refine ⟨⟨a1.1, a1.2.1, b1.1, b1.2.1⟩, ?_, ?_, ?_, ?_⟩
  · rw [r2a1, Even.neg_pow ⟨2, rfl⟩]; exact a2.1
  · rw [r2a2, Even.neg_pow ⟨2, rfl⟩]; exact a2.2.1
  · rw [r2b1, Even.neg_pow ⟨2, rfl⟩]; exact b2.1
  · rw [r2b2, Even.neg_pow ⟨2, rfl⟩]; exact b2.2.1

theorem signs (hm : m.Slow) : (0 < m.r1a1.re ∧ 0 < m.r1a2.re ∧ 0 < m.r1b1.re ∧ 0 < m.r1b2.re) ∧
    (m.r2a1.re < 0 ∧ m.r2a2.re < 0 ∧ m.r2b1.re < 0 ∧ m.r2b2.re < 0) := by
  have a1 := one_side hm m.qa (qa_im hm).1
  have b1 := one_side hm m.qb (qb_im hm).1
  have a2 := roots_spec hm m.kRatio m.qa (qa_im hm).1
  have b2 := roots_spec hm m.kRatio m.qb (qb_im hm).1
  refine ⟨⟨a1.2.2.1, a1.2.2.2.1, b1.2.2.1, b1.2.2.2.1⟩, neg_lt_zero.mpr a2.2.2.1, neg_lt_zero.mpr a2.2.2.2.1, neg_lt_zero.mpr b2.2.2.1,
    neg_lt_zero.mpr b2.2.2.2.1⟩

theorem join_a (hm : m.Slow) (n : ℕ) (hn : n ≤ 3) :
    m.A * m.qa ^ n + m.C1a * m.r1a1 ^ n + m.D1a * m.r1a2 ^ n = m.C2a * m.r2a1 ^ n + m.D2a * m.r2a2 ^ n := by
  have h1 := one_side hm m.qa (qa_im hm).1
  have h2 := roots_spec hm m.kRatio m.qa (qa_im hm).1
  have p1 := (signs hm).2.1
  have p2 := (signs hm).2.2.1
  have q1 := (signs hm).1.1
  have q2 := (signs hm).1.2.1
  have := interpolate (q := m.qa) (A := m.A) (r1 := m.r1a1) (r2 := m.r1a2) (p1 := m.r2a1) (p2 := m.r2a2) h1.2.2.2.2
    (fun e => h2.2.2.2.2 (neg_injective e)) (ne_of_re q1 p1) (ne_of_re q1 p2) (ne_of_re q2 p1) (ne_of_re q2 p2) n hn
  rw [C1a, D1a, C2a, D2a]
  exact this

theorem join_b (hm : m.Slow) (n : ℕ) (hn : n ≤ 3) :
    m.B * m.qb ^ n + m.C1b * m.r1b1 ^ n + m.D1b * m.r1b2 ^ n = m.C2b * m.r2b1 ^ n + m.D2b * m.r2b2 ^ n := by
  have h1 := one_side hm m.qb (qb_im hm).1
  have h2 := roots_spec hm m.kRatio m.qb (qb_im hm).1
  have p1 := (signs hm).2.2.2.1
  have p2 := (signs hm).2.2.2.2
  have q1 := (signs hm).1.2.2.1
  have q2 := (signs hm).1.2.2.2
  have := interpolate (q := m.qb) (A := m.B) (r1 := m.r1b1) (r2 := m.r1b2) (p1 := m.r2b1) (p2 := m.r2b2) h1.2.2.2.2
    (fun e => h2.2.2.2.2 (neg_injective e)) (ne_of_re q1 p1) (ne_of_re q1 p2) (ne_of_re q2 p1) (ne_of_re q2 p2) n hn
  rw [C1b, D1b, C2b, D2b]
  refine Eq.trans ?_ (this.trans ?_)
  · congr 3
    · congr 1
      ring
    · congr 1
      ring
  · congr 2
    · rw [show (m.r2b1 - m.r2b2) * (m.r2b1 - m.r1b2) * (m.r2b1 - m.r1b1) =
        -((m.r2b1 - m.r1b2) * (m.r1b1 - m.r2b1) * (m.r2b1 - m.r2b2)) by ring, div_neg, ← neg_div]
      congr 1
      ring
    · congr 1 <;> ring

/-- The scales of the code: `σ` for lengths, `h` for times. -/
structure Scales (m : Winkler) (EI rho k0 k1 P v σ : ℝ) : Prop where
  length : EI * σ ^ 4 = k0
  time : rho * m.h ^ 2 = k0
  second : k1 = k0 * m.kRatio
  pace : m.alpha * m.h = v * σ
  load : EI * σ ^ 3 * m.F = P
  σ_pos : 0 < σ
  h_pos : 0 < m.h
  v_pos : 0 < v

variable {EI rho k0 k1 P v σ : ℝ}

theorem behind_wave (hm : m.Slow) (hs : m.Scales EI rho k0 k1 P v σ) (e : ℂ × ℂ × ℂ) (he : e ∈ m.behind σ) :
    (EI : ℂ) * e.2.1 ^ 4 + rho * e.2.2 ^ 2 + k0 = 0 := by
  have h1 : (EI : ℂ) * (σ : ℂ) ^ 4 = k0 := by exact_mod_cast hs.length
  have h2 : (rho : ℂ) * (m.h : ℂ) ^ 2 = k0 := by exact_mod_cast hs.time
  have p := (powers hm).1
  simp only [behind, homogeneous, List.mem_cons, List.not_mem_nil, or_false] at he
  rcases he with rfl | rfl | rfl | rfl | rfl | rfl <;> dsimp only
  · linear_combination (m.qa ^ 4) * h1 + m.qa ^ 2 * m.alpha ^ 2 * h2 + k0 * qa_four hm
  · linear_combination (m.qb ^ 4) * h1 + m.qb ^ 2 * m.alpha ^ 2 * h2 + k0 * qb_four hm
  · linear_combination (m.r1a1 ^ 4) * h1 + m.qa ^ 2 * m.alpha ^ 2 * h2 + k0 * p.1
  · linear_combination (m.r1a2 ^ 4) * h1 + m.qa ^ 2 * m.alpha ^ 2 * h2 + k0 * p.2.1
  · linear_combination (m.r1b1 ^ 4) * h1 + m.qb ^ 2 * m.alpha ^ 2 * h2 + k0 * p.2.2.1
  · linear_combination (m.r1b2 ^ 4) * h1 + m.qb ^ 2 * m.alpha ^ 2 * h2 + k0 * p.2.2.2

theorem between_wave (hm : m.Slow) (hs : m.Scales EI rho k0 k1 P v σ) (e : ℂ × ℂ × ℂ) (he : e ∈ m.between σ) :
    (EI : ℂ) * e.2.1 ^ 4 + rho * e.2.2 ^ 2 + k0 = 0 := by
  have h1 : (EI : ℂ) * (σ : ℂ) ^ 4 = k0 := by exact_mod_cast hs.length
  have h2 : (rho : ℂ) * (m.h : ℂ) ^ 2 = k0 := by exact_mod_cast hs.time
  have p := (powers hm).1
  simp only [between, homogeneous, List.mem_cons, List.not_mem_nil, or_false] at he
  rcases he with rfl | rfl | rfl | rfl | rfl | rfl <;> dsimp only
  · linear_combination (m.qa ^ 4) * h1 + m.qa ^ 2 * m.alpha ^ 2 * h2 + k0 * qa_four hm
  · linear_combination (m.qb ^ 4) * h1 + m.qb ^ 2 * m.alpha ^ 2 * h2 + k0 * qb_four hm
  · linear_combination (m.r1a1 ^ 4) * h1 + m.qa ^ 2 * m.alpha ^ 2 * h2 + k0 * p.1
  · linear_combination (m.r1a2 ^ 4) * h1 + m.qa ^ 2 * m.alpha ^ 2 * h2 + k0 * p.2.1
  · linear_combination (m.r1b1 ^ 4) * h1 + m.qb ^ 2 * m.alpha ^ 2 * h2 + k0 * p.2.2.1
  · linear_combination (m.r1b2 ^ 4) * h1 + m.qb ^ 2 * m.alpha ^ 2 * h2 + k0 * p.2.2.2

theorem ahead_wave (hm : m.Slow) (hs : m.Scales EI rho k0 k1 P v σ) (e : ℂ × ℂ × ℂ) (he : e ∈ m.ahead σ) :
    (EI : ℂ) * e.2.1 ^ 4 + rho * e.2.2 ^ 2 + k1 = 0 := by
  have h1 : (EI : ℂ) * (σ : ℂ) ^ 4 = k0 := by exact_mod_cast hs.length
  have h2 : (rho : ℂ) * (m.h : ℂ) ^ 2 = k0 := by exact_mod_cast hs.time
  have h3 : (k1 : ℂ) = k0 * m.kRatio := by exact_mod_cast hs.second
  have p := (powers hm).2
  simp only [ahead, List.mem_cons, List.not_mem_nil, or_false] at he
  rcases he with rfl | rfl | rfl | rfl <;> dsimp only
  · linear_combination (m.r2a1 ^ 4) * h1 + m.qa ^ 2 * m.alpha ^ 2 * h2 + k0 * p.1 + h3
  · linear_combination (m.r2a2 ^ 4) * h1 + m.qa ^ 2 * m.alpha ^ 2 * h2 + k0 * p.2.1 + h3
  · linear_combination (m.r2b1 ^ 4) * h1 + m.qb ^ 2 * m.alpha ^ 2 * h2 + k0 * p.2.2.1 + h3
  · linear_combination (m.r2b2 ^ 4) * h1 + m.qb ^ 2 * m.alpha ^ 2 * h2 + k0 * p.2.2.2 + h3

/-- At the change of stiffness the two sides have the same first four derivatives. -/
theorem join (hm : m.Slow) (σ : ℝ) (n : ℕ) (hn : n ≤ 3) (t : ℝ) : expSum (m.between σ) n 0 t = expSum (m.ahead σ) n 0 t := by
  have a := join_a hm n hn
  have b := join_b hm n hn
  simp only [expSum, between, ahead, homogeneous, List.map_cons, List.map_nil, List.sum_cons, List.sum_nil, Complex.ofReal_zero, mul_zero, zero_add,
    mul_pow]
  linear_combination (σ : ℂ) ^ n * Complex.exp (-m.qa * m.alpha * m.h * t) * a + (σ : ℂ) ^ n * Complex.exp (-m.qb * m.alpha * m.h * t) * b

/-- Under the load the derivatives differ by the derivatives of the particular solution. -/
theorem under (hs : m.Scales EI rho k0 k1 P v σ) (n : ℕ) (t : ℝ) : expSum (m.between σ) n (v * t) t - expSum (m.behind σ) n (v * t) t =
    (σ : ℂ) ^ n * (m.A * (m.qa ^ n - (-m.qa) ^ n) + m.B * (m.qb ^ n - (-m.qb) ^ n)) := by
  have hp : (m.alpha : ℂ) * m.h = v * σ := by exact_mod_cast hs.pace
  have e1 : ∀ q : ℂ, q * σ * ((v * t : ℝ) : ℂ) + -q * m.alpha * m.h * t = 0 := fun q => by push_cast; linear_combination -q * t * hp
  have e2 : ∀ q : ℂ, -q * σ * ((v * t : ℝ) : ℂ) + q * m.alpha * m.h * t = 0 := fun q => by push_cast; linear_combination q * t * hp
  simp only [expSum, between, behind, List.map_cons, List.sum_cons, e1, e2, Complex.exp_zero, mul_pow]
  ring

theorem lowAt_eq (hs : m.Scales EI rho k0 k1 P v σ) (x t : ℝ) : m.lowAt (σ * x) (m.h * t) =
    if x ≤ v * t ∧ x ≤ 0 then (expSum (m.behind σ) 0 x t).re else if x ≤ 0 then (expSum (m.between σ) 0 x t).re else (expSum (m.ahead σ) 0 x t).re := by
  have hσ := hs.σ_pos
  have hh := hs.h_pos
  have hx : σ * x ≤ 0 ↔ x ≤ 0 := by
    constructor
    · intro h
      by_contra h'
      push Not at h'
      have := mul_pos hσ h'
      linarith
    · intro h
      exact mul_nonpos_of_nonneg_of_nonpos hσ.le h
  have hp : (m.alpha : ℂ) * m.h = v * σ := by exact_mod_cast hs.pace
  have hd : σ * x - m.alpha * (m.h * t) = σ * (x - v * t) := by linear_combination -t * hs.pace
  have hom : ∀ x t : ℝ, expSum (m.homogeneous σ) 0 x t = m.u1h (σ * x) (m.h * t) := by
    intro x t
    simp only [expSum, homogeneous, u1h, List.map_cons, List.map_nil, List.sum_cons, List.sum_nil, Complex.exp_add, pow_zero, mul_one]
    push_cast
    simp only [← mul_assoc]
    ring
  rw [lowAt]
  by_cases h0 : x ≤ 0
  · rw [if_pos (hx.mpr h0)]
    by_cases hv : x ≤ v * t
    · rw [if_pos ⟨hv, h0⟩, ← Complex.add_re, u1p, ← hom, hd, abs_of_nonpos (mul_nonpos_of_nonneg_of_nonpos hσ.le (by linarith)), behind]
      have e : ∀ q : ℂ, q * ((-(σ * (x - v * t)) : ℝ) : ℂ) = -q * σ * x + q * m.alpha * m.h * t := fun q => by
        push_cast; linear_combination -q * t * hp
      simp only [expSum, List.map_cons, List.sum_cons, pow_zero, mul_one, e]
      ring_nf
    · rw [if_neg (fun h => hv h.1), if_pos h0, ← Complex.add_re, u1p, ← hom, hd, abs_of_nonneg (mul_nonneg hσ.le (by linarith)), between]
      have e : ∀ q : ℂ, q * ((σ * (x - v * t) : ℝ) : ℂ) = q * σ * x + -q * m.alpha * m.h * t := fun q => by
        push_cast; linear_combination q * t * hp
      simp only [expSum, List.map_cons, List.sum_cons, pow_zero, mul_one, e]
      ring_nf
  · rw [if_neg (fun h => h0 (hx.mp h)), if_neg (fun h => h0 h.2), if_neg h0]
    simp only [expSum, ahead, u2h, List.map_cons, List.map_nil, List.sum_cons, List.sum_nil, Complex.exp_add, pow_zero, mul_one]
    push_cast
    simp only [← mul_assoc]
    ring_nf

theorem approaches (hm : m.Slow) (hs : m.Scales EI rho k0 k1 P v σ) :
    LoadApproaches EI rho k0 k1 P v fun x t => m.lowAt (σ * x) (m.h * t) := by
  have hσ := hs.σ_pos
  refine ⟨_, _, _, _, _, _, _, _, _, _, _, _, expSum_wave EI rho k0 (m.behind σ) (behind_wave hm hs),
    expSum_wave EI rho k0 (m.between σ) (between_wave hm hs), expSum_wave EI rho k1 (m.ahead σ) (ahead_wave hm hs), fun t ht => ?_⟩
  have hvt : v * t < 0 := mul_neg_of_pos_of_neg hs.v_pos ht
  have hu : ∀ x, m.lowAt (σ * x) (m.h * t) = if x ≤ v * t then (expSum (m.behind σ) 0 x t).re else
      if x ≤ 0 then (expSum (m.between σ) 0 x t).re else (expSum (m.ahead σ) 0 x t).re := by
    intro x
    rw [lowAt_eq hs]
    by_cases h : x ≤ v * t
    · rw [if_pos ⟨h, by linarith⟩, if_pos h]
    · rw [if_neg (fun h' => h h'.1), if_neg h]
  have hj := jump hm
  have u0 := under hs 0 t
  have u1 := under hs 1 t
  have u2 := under hs 2 t
  have u3 := under hs 3 t
  have sg := signs hm
  have hσre : ∀ r : ℂ, (r * (σ : ℂ)).re = r.re * σ := fun r => by simp
  refine ⟨hu, ⟨?_, ?_, ?_, ?_⟩, ⟨?_, ?_, ?_, ?_⟩, ?_, ?_⟩
  · rw [show expSum (m.behind σ) 0 (v * t) t = expSum (m.between σ) 0 (v * t) t by linear_combination -u0]
  · rw [show expSum (m.behind σ) 1 (v * t) t = expSum (m.between σ) 1 (v * t) t by linear_combination -u1 - 2 * (σ : ℂ) * hj.1]
  · rw [show expSum (m.behind σ) 2 (v * t) t = expSum (m.between σ) 2 (v * t) t by linear_combination -u2]
  · have e : expSum (m.between σ) 3 (v * t) t - expSum (m.behind σ) 3 (v * t) t = ((σ ^ 3 * m.F : ℝ) : ℂ) := by
      rw [u3]
      push_cast
      linear_combination (σ : ℂ) ^ 3 * hj.2
    rw [← Complex.sub_re, e, Complex.ofReal_re, ← hs.load]
    ring
  · rw [join hm σ 0 (by norm_num) t]
  · rw [join hm σ 1 (by norm_num) t]
  · rw [join hm σ 2 (by norm_num) t]
  · rw [join hm σ 3 (by norm_num) t]
  · have h := expSum_atBot (m.behind σ) ?_ t
    · have h2 := (Complex.continuous_re.tendsto 0).comp h
      refine Tendsto.congr' ?_ h2
      filter_upwards [eventually_le_atBot (v * t)] with x hx
      rw [hu, if_pos hx]
      rfl
    · intro e he
      simp only [behind, homogeneous, List.mem_cons, List.not_mem_nil, or_false] at he
      have qa := (qa_im hm).2
      have qb := (qb_im hm).2
      rcases he with rfl | rfl | rfl | rfl | rfl | rfl <;> dsimp only <;> rw [hσre]
      · exact mul_pos (by rw [Complex.neg_re]; linarith) hσ
      · exact mul_pos (by rw [Complex.neg_re]; linarith) hσ
      · exact mul_pos sg.1.1 hσ
      · exact mul_pos sg.1.2.1 hσ
      · exact mul_pos sg.1.2.2.1 hσ
      · exact mul_pos sg.1.2.2.2 hσ
  · have h := expSum_atTop (m.ahead σ) ?_ t
    · have h2 := (Complex.continuous_re.tendsto 0).comp h
      refine Tendsto.congr' ?_ h2
      filter_upwards [eventually_gt_atTop 0] with x hx
      rw [hu, if_neg (by linarith), if_neg (by linarith)]
      rfl
    · intro e he
      simp only [ahead, List.mem_cons, List.not_mem_nil, or_false] at he
      rcases he with rfl | rfl | rfl | rfl <;> dsimp only <;> rw [hσre]
      · exact mul_neg_of_neg_of_pos sg.2.1 hσ
      · exact mul_neg_of_neg_of_pos sg.2.2.1 hσ
      · exact mul_neg_of_neg_of_pos sg.2.2.2.1 hσ
      · exact mul_neg_of_neg_of_pos sg.2.2.2.2 hσ

end Winkler

/-- The input of the code: positive data and a speed below the critical one. -/
structure WinklerInput.Proper (i : WinklerInput) (k0 k1 : ℝ) : Prop where
  two : i.stiffness = [k0, k1]
  stiff : 0 < i.EI
  heavy : 0 < i.rho
  first : 0 < k0
  second : 0 < k1
  forward : 0 < i.speed
  slow : i.speed < i.critical k0 k1

theorem WinklerInput.Proper.parameters {i : WinklerInput} {k0 k1 : ℝ} (hi : i.Proper k0 k1) :
    ∃ m, i.parameters = .ok m ∧ m.Slow ∧ m.Scales i.EI i.rho k0 k1 i.force i.speed √(m.h / m.beta) ∧ m.position = i.position ∧ m.speed = i.speed := by
  obtain ⟨two, EI, rho, hk0, hk1, speed, slow⟩ := hi
  have hβ : 0 < √(i.EI / i.rho) := Real.sqrt_pos.mpr (div_pos EI rho)
  have hh : 0 < √(k0 / i.rho) := Real.sqrt_pos.mpr (div_pos hk0 rho)
  have sβ : √(i.EI / i.rho) ^ 2 = i.EI / i.rho := Real.sq_sqrt (div_pos EI rho).le
  have sh : √(k0 / i.rho) ^ 2 = k0 / i.rho := Real.sq_sqrt (div_pos hk0 rho).le
  refine ⟨_, by rw [WinklerInput.parameters, two]; exact if_neg (not_lt.mpr slow.le), ?_, ?_, rfl, rfl⟩
  · refine ⟨div_pos speed (Real.sqrt_pos.mpr (mul_pos hβ hh)), ?_, div_pos hk1 hk0⟩
    dsimp only
    generalize √(i.EI / i.rho) = β at *
    generalize √(k0 / i.rho) = h at *
    have e : √(β * h) ^ 4 = β ^ 2 * h ^ 2 := by
      rw [show (4 : ℕ) = 2 * 2 from rfl, pow_mul, Real.sq_sqrt (mul_pos hβ hh).le, mul_pow]
    rw [div_pow, e, div_lt_iff₀ (by positivity), sβ, sh]
    have hmin : 0 < min k0 k1 := lt_min hk0 hk1
    have hc : i.critical k0 k1 ^ 4 = 4 * min k0 k1 * i.EI / i.rho ^ 2 := by
      rw [WinklerInput.critical, ← Real.rpow_natCast, ← Real.rpow_mul (by positivity)]
      norm_num
    have h1 : i.speed ^ 4 < i.critical k0 k1 ^ 4 := pow_lt_pow_left₀ slow speed.le (by norm_num)
    rw [hc] at h1
    refine h1.trans_le ?_
    rw [show 4 * (i.EI / i.rho * (k0 / i.rho)) = 4 * k0 * i.EI / i.rho ^ 2 by field_simp]
    gcongr
    exact min_le_left _ _
  · dsimp only
    generalize hβe : √(i.EI / i.rho) = β at *
    generalize hhe : √(k0 / i.rho) = h at *
    have hEI : i.EI = i.rho * β ^ 2 := by rw [sβ]; field_simp
    have hk : k0 = i.rho * h ^ 2 := by rw [sh]; field_simp
    have hσ : √(h / β) = √h / √β := Real.sqrt_div hh.le _
    have qh := Real.sqrt_pos.mpr hh
    have qβ := Real.sqrt_pos.mpr hβ
    have eh : h = √h ^ 2 := (Real.sq_sqrt hh.le).symm
    have eβ : β = √β ^ 2 := (Real.sq_sqrt hβ.le).symm
    have e3 : h ^ (3 / 2 : ℝ) = √h ^ 3 := by
      rw [Real.sqrt_eq_rpow, ← Real.rpow_natCast, ← Real.rpow_mul hh.le]
      norm_num
    have e1 : β ^ (1 / 2 : ℝ) = √β := (Real.sqrt_eq_rpow β).symm
    refine ⟨?_, hk.symm, ?_, ?_, ?_, by rw [hσ]; positivity, hh, speed⟩
    · rw [hσ, hEI, hk]
      generalize √h = a at *
      generalize √β = b at *
      rw [eh, eβ]
      field_simp
    · field_simp
    · dsimp only
      rw [hσ, Real.sqrt_mul hβ.le]
      generalize √h = a at *
      generalize √β = b at *
      rw [eh]
      field_simp
    · dsimp only
      rw [e3, e1, hσ, hEI]
      generalize √h = a at *
      generalize √β = b at *
      rw [eβ]
      field_simp

/-- **C154.** While the load approaches the change of stiffness, the reported displacements are those of a beam on a foundation of stiffness `k0`
before and `k1` behind the change under a moving load: for every subcritical speed and all positive data. -/
theorem C154_approach (i : WinklerInput) (k0 k1 : ℝ) (hi : i.Proper k0 k1) :
    ∃ m u, i.parameters = .ok m ∧ LoadApproaches i.EI i.rho k0 k1 i.force i.speed u ∧
      m.timeLow = ((i.position.map (· / i.speed)).filter (· < 0)).map fun t => i.position.map fun x => u x t := by
  obtain ⟨m, hm, slow, hs, hp, hv⟩ := hi.parameters
  refine ⟨m, _, hm, Winkler.approaches slow hs, ?_⟩
  rw [Winkler.timeLow, Winkler.tau, Winkler.qsi, hp, hv, show (fun x => m.h * (x / i.speed)) = (fun t => m.h * t) ∘ (· / i.speed) from rfl,
    ← List.map_map, List.filter_map, List.map_map]
  have e : ((fun x : ℝ => decide (x < 0)) ∘ fun t => m.h * t) = fun t => decide (t < 0) := by
    ext t
    simp [hs.h_pos, mul_neg_iff, hs.h_pos.le]
    
  rw [e]
  congr 1
  ext1 t
  simp [List.map_map, Function.comp_def]

/-! ### The displacements are real -/

open ComplexConjugate in
theorem csqrt_conj (z : ℂ) (h : z.im ≠ 0) : csqrt (conj z) = conj (csqrt z) := by
  have := Complex.conj_cpow z (2⁻¹ : ℂ) (fun e => h (Complex.arg_eq_pi_iff.mp e).2)
  rw [csqrt, csqrt, this, map_inv₀, map_ofNat]

namespace Winkler
open ComplexConjugate
variable {m : Winkler}

theorem qb_conj (hm : m.Slow) : m.qb = conj m.qa := by
  have h := (qa_im hm).1
  rw [qa_sq] at h
  rw [qa, qb, map_neg, ← csqrt_conj _ h]
  congr 2
  simp only [map_mul, map_div₀, map_one, map_ofNat, map_add, map_neg, map_pow, Complex.conj_ofReal, Complex.conj_I]
  ring

theorem g_conj (hm : m.Slow) (k : ℝ) : csqrt (k + m.qb ^ 2 * m.alpha ^ 2) = conj (csqrt (k + m.qa ^ 2 * m.alpha ^ 2)) := by
  rw [← csqrt_conj, qb_conj hm]
  · simp
  · rw [show (k + m.qa ^ 2 * m.alpha ^ 2 : ℂ) = (k : ℂ) + m.qa ^ 2 * ((m.alpha ^ 2 : ℝ) : ℂ) by push_cast; ring]
    simp only [Complex.add_im, Complex.ofReal_im, Complex.mul_im, Complex.ofReal_re]
    have := hm.alpha
    have h2 : m.alpha ^ 2 ≠ 0 := by positivity
    simpa [h2] using (qa_im hm).1

theorem g1b_conj (hm : m.Slow) : m.g1b = conj m.g1a := by
  have := g_conj hm 1
  simpa [g1a, g1b] using this

theorem r_conj (g : ℂ) (hg : 0 < g.re) : csqrt (Complex.I * conj g) = conj (csqrt (-Complex.I * g)) ∧
    csqrt (-Complex.I * conj g) = conj (csqrt (Complex.I * g)) := by
  constructor
  · rw [← csqrt_conj _ (by simp [hg.ne'])]
    simp
  · rw [← csqrt_conj _ (by simp [hg.ne'])]
    simp

theorem conj_roots (hm : m.Slow) : m.r1b1 = conj m.r1a2 ∧ m.r1b2 = conj m.r1a1 ∧ m.r2b1 = conj m.r2a2 ∧ m.r2b2 = conj m.r2a1 := by
  have h1 : 0 < m.g1a.re := by
    have := g_re hm 1 m.qa (qa_im hm).1
    simpa [g1a] using this
  have h2 : 0 < m.g2a.re := g_re hm m.kRatio m.qa (qa_im hm).1
  have e1 := g1b_conj hm
  have e2 : m.g2b = conj m.g2a := g_conj hm m.kRatio
  refine ⟨?_, ?_, ?_, ?_⟩
  · rw [r1b1, r1a2, e1, (r_conj _ h1).1]
  · rw [r1b2, r1a1, e1, (r_conj _ h1).2]
  · rw [r2b1, r2a2, e2, (r_conj _ h2).1, map_neg]
  · rw [r2b2, r2a1, e2, (r_conj _ h2).2, map_neg]

theorem B_conj (hm : m.Slow) : m.B = conj m.A := by
  have ha : m.qa ≠ 0 := fun e => by have := (qa_im hm).2; rw [e] at this; simp at this
  have hr : ((√(4 - m.alpha ^ 4) : ℝ) : ℂ) ≠ 0 := by exact_mod_cast (root_pos hm).ne'
  have hc : conj m.qa ≠ 0 := by simpa using ha
  have hI := Complex.I_ne_zero
  rw [B, A, qb_conj hm]
  simp only [map_div₀, map_mul, Complex.conj_I, Complex.conj_ofReal, map_ofNat]
  field_simp

theorem conj_coefficients (hm : m.Slow) : m.C1b = conj m.D1a ∧ m.D1b = conj m.C1a ∧ m.C2b = conj m.D2a ∧ m.D2b = conj m.C2a := by
  obtain ⟨e1, e2, e3, e4⟩ := conj_roots hm
  have eq := qb_conj hm
  have eB := B_conj hm
  have c : ∀ a b c d : ℂ, a = -c → b = -d → a / b = c / d := fun a b c d h1 h2 => by rw [h1, h2, neg_div_neg_eq]
  refine ⟨?_, ?_, ?_, ?_⟩
  · rw [C1b, D1a, e1, e2, e3, e4, eq, eB]
    simp only [map_div₀, map_mul, map_sub, map_neg]
    exact c _ _ _ _ (by ring) (by ring)
  · rw [D1b, C1a, e1, e2, e3, e4, eq, eB]
    simp only [map_div₀, map_mul, map_sub, map_neg]
    exact c _ _ _ _ (by ring) (by ring)
  · rw [C2b, D2a, e1, e2, e3, e4, eq, eB]
    simp only [map_div₀, map_mul, map_sub, map_neg]
    congr 1 <;> ring
  · rw [D2b, C2a, e1, e2, e3, e4, eq, eB]
    simp only [map_div₀, map_mul, map_sub, map_neg]
    exact c _ _ _ _ (by ring) (by ring)

theorem u1h_real (hm : m.Slow) (x t : ℝ) : m.u1h x t = ((m.u1h x t).re : ℂ) := by
  refine (Complex.conj_eq_iff_re.mp ?_).symm
  obtain ⟨e1, e2, e3, e4⟩ := conj_roots hm
  obtain ⟨c1, c2, c3, c4⟩ := conj_coefficients hm
  rw [u1h, e1, e2, c1, c2, qb_conj hm]
  simp only [map_add, map_mul, ← Complex.exp_conj, Complex.conj_conj, Complex.conj_ofReal, map_neg]
  ring

theorem u2h_real (hm : m.Slow) (x t : ℝ) : m.u2h x t = ((m.u2h x t).re : ℂ) := by
  refine (Complex.conj_eq_iff_re.mp ?_).symm
  obtain ⟨e1, e2, e3, e4⟩ := conj_roots hm
  obtain ⟨c1, c2, c3, c4⟩ := conj_coefficients hm
  rw [u2h, e3, e4, c3, c4, qb_conj hm]
  simp only [map_add, map_mul, ← Complex.exp_conj, Complex.conj_conj, Complex.conj_ofReal, map_neg]
  ring

theorem u1p_real (hm : m.Slow) (x t : ℝ) : m.u1p x t = ((m.u1p x t).re : ℂ) := by
  refine (Complex.conj_eq_iff_re.mp ?_).symm
  rw [u1p, B_conj hm, qb_conj hm]
  simp only [map_add, map_mul, ← Complex.exp_conj, Complex.conj_conj, Complex.conj_ofReal, map_neg]
  ring

/-- The reported displacement is the complex sum itself. -/
theorem lowAt_complex (hm : m.Slow) (x t : ℝ) : (m.lowAt x t : ℂ) = if x ≤ 0 then m.u1p x t + m.u1h x t else m.u2h x t := by
  rw [lowAt]
  split_ifs
  · rw [Complex.ofReal_add, ← u1p_real hm, ← u1h_real hm]
  · rw [← u2h_real hm]

/-! ### The transform -/

/-- The velocity at time zero, as a sum of exponentials. -/
noncomputable def start (m : Winkler) (x : ℝ) : ℂ :=
  if x ≤ 0 then m.A * (m.qa * m.alpha) * Complex.exp (-m.qa * x) + m.B * (m.qb * m.alpha) * Complex.exp (-m.qb * x) +
      (m.C1a * Complex.exp (m.r1a1 * x) + m.D1a * Complex.exp (m.r1a2 * x)) * (-m.qa * m.alpha) +
      (m.C1b * Complex.exp (m.r1b1 * x) + m.D1b * Complex.exp (m.r1b2 * x)) * (-m.qb * m.alpha)
  else (m.C2a * Complex.exp (m.r2a1 * x) + m.D2a * Complex.exp (m.r2a2 * x)) * (-m.qa * m.alpha) +
      (m.C2b * Complex.exp (m.r2b1 * x) + m.D2b * Complex.exp (m.r2b2 * x)) * (-m.qb * m.alpha)

theorem exp_rate (c : ℂ) : HasDerivAt (fun t : ℝ => Complex.exp (c * t)) c 0 := by
  have h1 : HasDerivAt (fun t : ℝ => c * (t : ℂ)) (c * 1) 0 := ((hasDerivAt_id (0 : ℝ)).ofReal_comp).const_mul c
  exact h1.cexp.congr_deriv (by simp)

theorem start_complex (hm : m.Slow) (x : ℝ) (hx : x ≠ 0) : HasDerivAt (fun t => (m.lowAt x t : ℂ)) (m.start x) 0 := by
  have e : (fun t => (m.lowAt x t : ℂ)) = fun t => if x ≤ 0 then m.u1p x t + m.u1h x t else m.u2h x t := funext fun t => lowAt_complex hm x t
  rw [e, start]
  have ha := exp_rate (-m.qa * m.alpha)
  have hb := exp_rate (-m.qb * m.alpha)
  split_ifs with h
  · have hn : x < 0 := lt_of_le_of_ne h hx
    have h1 : HasDerivAt (m.u1p x) (m.A * (m.qa * m.alpha) * Complex.exp (-m.qa * x) + m.B * (m.qb * m.alpha) * Complex.exp (-m.qb * x)) 0 := by
      have hpa := (exp_rate (m.qa * m.alpha)).const_mul (m.A * Complex.exp (-m.qa * x))
      have hpb := (exp_rate (m.qb * m.alpha)).const_mul (m.B * Complex.exp (-m.qb * x))
      refine ((hpa.add hpb).congr_deriv (by ring)).congr_of_eventuallyEq ?_
      have hev : ∀ᶠ t : ℝ in nhds 0, x - m.alpha * t < 0 := by
        have hc : ContinuousAt (fun t : ℝ => x - m.alpha * t) 0 := by fun_prop
        exact hc.eventually_lt continuousAt_const (by simpa using hn)
      filter_upwards [hev] with t ht
      rw [u1p, abs_of_neg ht]
      have e1 : ∀ q : ℂ, q * ((-(x - m.alpha * t) : ℝ) : ℂ) = -q * x + q * m.alpha * t := fun q => by push_cast; ring
      simp only [e1, Complex.exp_add, Pi.add_apply]
      ring
    have h2 : HasDerivAt (m.u1h x) ((m.C1a * Complex.exp (m.r1a1 * x) + m.D1a * Complex.exp (m.r1a2 * x)) * (-m.qa * m.alpha) +
        (m.C1b * Complex.exp (m.r1b1 * x) + m.D1b * Complex.exp (m.r1b2 * x)) * (-m.qb * m.alpha)) 0 :=
      (ha.const_mul _).add (hb.const_mul _)
    exact (h1.add h2).congr_deriv (by ring)
  · exact (ha.const_mul _).add (hb.const_mul _)

theorem start_real (hm : m.Slow) (x : ℝ) (hx : x ≠ 0) : HasDerivAt (m.lowAt x) (m.start x).re 0 ∧ ((m.start x).re : ℂ) = m.start x := by
  have h := start_complex hm x hx
  have h1 : HasDerivAt (m.lowAt x) (m.start x).re 0 := by simpa using hasDerivAt_re h
  exact ⟨h1, h1.ofReal_comp.unique h⟩

theorem csqrt_re' (z : ℂ) (h : z.im ≠ 0 ∨ 0 < z.re) : 0 < (csqrt z).re := by
  rcases h with h | h
  · exact csqrt_re z h
  · rw [csqrt, Complex.cpow_inv_two_re]
    exact Real.sqrt_pos.mpr (div_pos (add_pos_of_nonneg_of_pos (norm_nonneg _) h) two_pos)

theorem shifted_root (k : ℝ) (hk : 0 < k) (s : ℂ) (hs : 0 < s.re) : 0 < (csqrt (k + s ^ 2)).re := by
  refine csqrt_re' _ ?_
  simp only [Complex.add_im, Complex.ofReal_im, Complex.add_re, Complex.ofReal_re, sq, Complex.mul_im, Complex.mul_re]
  by_cases h : s.im = 0
  · right
    rw [h]
    nlinarith
  · left
    intro e
    have : s.re * s.im = 0 := by linarith
    rcases mul_eq_zero.mp this with h1 | h1
    · exact hs.ne' h1
    · exact h h1

/-- A parameter of the transform at which no denominator of the code vanishes. -/
structure Regular (m : Winkler) (s : ℂ) : Prop where
  right : 0 < s.re
  a : s + m.alpha * m.qa ≠ 0
  b : s + m.alpha * m.qb ≠ 0
  load : m.kRatio + s ^ 2 + s ^ 4 / m.alpha ^ 4 ≠ 0
  c : s1 s ^ 2 - m.r1b1 ^ 4 ≠ 0

theorem s_signs (hm : m.Slow) {s : ℂ} (hs : 0 < s.re) : (0 < (rs11 s).re ∧ 0 < (rs12 s).re ∧ (m.rs21 s).re < 0 ∧ (m.rs22 s).re < 0) ∧
    rs11 s ≠ rs12 s ∧ m.rs21 s ≠ m.rs22 s := by
  have h1 : 0 < (s1 s).re := by
    have := shifted_root 1 one_pos s hs
    simpa [s1] using this
  have h2 : 0 < (m.s2 s).re := shifted_root m.kRatio hm.ratio s hs
  have d : ∀ g : ℂ, 0 < g.re → csqrt (Complex.I * g) ≠ csqrt (-Complex.I * g) := by
    intro g hg e
    have h := csqrt_I g
    have e2 : Complex.I * g = -Complex.I * g := by rw [← h.2.2.1, ← h.2.2.2, e]
    have e3 : Complex.I * g = 0 := by
      have : 2 * (Complex.I * g) = 0 := by linear_combination e2
      exact (mul_eq_zero.mp this).resolve_left two_ne_zero
    rw [(mul_eq_zero.mp e3).resolve_left Complex.I_ne_zero] at hg
    simp at hg
  exact ⟨⟨(csqrt_I_re _ h1).1, (csqrt_I_re _ h1).2, neg_lt_zero.mpr (csqrt_I_re _ h2).1, neg_lt_zero.mpr (csqrt_I_re _ h2).2⟩, d _ h1,
    fun e => d _ h2 (neg_injective e)⟩

theorem s_powers (s : ℂ) : rs11 s ^ 4 = -(1 + s ^ 2) ∧ rs12 s ^ 4 = -(1 + s ^ 2) ∧ m.rs21 s ^ 4 = -(m.kRatio + s ^ 2) ∧
    m.rs22 s ^ 4 = -(m.kRatio + s ^ 2) := by
  have h1 : s1 s ^ 2 = 1 + s ^ 2 := csqrt_sq _
  have h2 : m.s2 s ^ 2 = m.kRatio + s ^ 2 := csqrt_sq _
  refine ⟨?_, ?_, ?_, ?_⟩
  · rw [rs11, (csqrt_I _).1, h1]
  · rw [rs12, (csqrt_I _).2.1, h1]
  · rw [rs21, Even.neg_pow ⟨2, rfl⟩, (csqrt_I _).1, h2]
  · rw [rs22, Even.neg_pow ⟨2, rfl⟩, (csqrt_I _).2.1, h2]

/-- The terms of `ub1`. -/
noncomputable def leftTerms (m : Winkler) (s : ℂ) : List (ℂ × ℂ × ℂ) :=
  [(m.C1a * (s - m.alpha * m.qa) / (s1 s ^ 2 + m.r1a1 ^ 4), m.r1a1, 0), (m.D1a * (s - m.alpha * m.qa) / (s1 s ^ 2 + m.r1a2 ^ 4), m.r1a2, 0),
   (m.C1b * (s - m.alpha * m.qb) / (s1 s ^ 2 + m.r1b1 ^ 4), m.r1b1, 0), (m.D1b * (s - m.alpha * m.qb) / (s1 s ^ 2 + m.r1b2 ^ 4), m.r1b2, 0),
   (m.A * (s + m.alpha * m.qa) / (s1 s ^ 2 + m.qa ^ 4), -m.qa, 0), (m.B * (s + m.alpha * m.qb) / (s1 s ^ 2 + m.qb ^ 4), -m.qb, 0),
   (m.E1 s, rs11 s, 0), (m.G1 s, rs12 s, 0)]

noncomputable def rightTerms (m : Winkler) (s : ℂ) : List (ℂ × ℂ × ℂ) :=
  [(m.C2a * (s - m.alpha * m.qa) / (m.s2 s ^ 2 + m.r2a1 ^ 4), m.r2a1, 0), (m.D2a * (s - m.alpha * m.qa) / (m.s2 s ^ 2 + m.r2a2 ^ 4), m.r2a2, 0),
   (m.C2b * (s - m.alpha * m.qb) / (m.s2 s ^ 2 + m.r2b1 ^ 4), m.r2b1, 0), (m.D2b * (s - m.alpha * m.qb) / (m.s2 s ^ 2 + m.r2b2 ^ 4), m.r2b2, 0),
   (m.F / (m.alpha * (m.s2 s ^ 2 + s ^ 4 / m.alpha ^ 4)), -s / m.alpha, 0), (m.E2 s, m.rs21 s, 0), (m.G2 s, m.rs22 s, 0)]

theorem ub1_terms (s : ℂ) : m.ub1 s = fun x => expSum (m.leftTerms s) 0 x 0 := by
  ext x
  simp only [ub1, expSum, leftTerms, List.map_cons, List.map_nil, List.sum_cons, List.sum_nil, pow_zero, mul_one, zero_mul, add_zero]
  ring

theorem ub2_terms (s : ℂ) : m.ub2 s = fun x => expSum (m.rightTerms s) 0 x 0 := by
  ext x
  simp only [ub2, expSum, rightTerms, List.map_cons, List.map_nil, List.sum_cons, List.sum_nil, pow_zero, mul_one, zero_mul, add_zero]
  ring

theorem s_denoms (hm : m.Slow) {s : ℂ} (hs : m.Regular s) :
    (s1 s ^ 2 + m.r1a1 ^ 4 ≠ 0 ∧ s1 s ^ 2 + m.r1a2 ^ 4 ≠ 0 ∧ s1 s ^ 2 + m.r1b1 ^ 4 ≠ 0 ∧ s1 s ^ 2 + m.r1b2 ^ 4 ≠ 0 ∧ s1 s ^ 2 + m.qa ^ 4 ≠ 0 ∧
      s1 s ^ 2 + m.qb ^ 4 ≠ 0) ∧
    (m.s2 s ^ 2 + m.r2a1 ^ 4 ≠ 0 ∧ m.s2 s ^ 2 + m.r2a2 ^ 4 ≠ 0 ∧ m.s2 s ^ 2 + m.r2b1 ^ 4 ≠ 0 ∧ m.s2 s ^ 2 + m.r2b2 ^ 4 ≠ 0 ∧
      m.s2 s ^ 2 + s ^ 4 / m.alpha ^ 4 ≠ 0) ∧ s - m.alpha * m.qa ≠ 0 ∧ s - m.alpha * m.qb ≠ 0 := by
  have h1 : s1 s ^ 2 = 1 + s ^ 2 := csqrt_sq _
  have h2 : m.s2 s ^ 2 = m.kRatio + s ^ 2 := csqrt_sq _
  have na : s - m.alpha * m.qa ≠ 0 := fun e => by
    have := congrArg Complex.re e
    simp at this
    have := mul_pos_of_neg_of_neg (neg_lt_zero.mpr hm.alpha) (qa_im hm).2
    linarith [hs.right]
  have nb : s - m.alpha * m.qb ≠ 0 := fun e => by
    have := congrArg Complex.re e
    simp at this
    have := mul_pos_of_neg_of_neg (neg_lt_zero.mpr hm.alpha) (qb_im hm).2
    linarith [hs.right]
  have da : (s - m.alpha * m.qa) * (s + m.alpha * m.qa) ≠ 0 := mul_ne_zero na hs.a
  have db : (s - m.alpha * m.qb) * (s + m.alpha * m.qb) ≠ 0 := mul_ne_zero nb hs.b
  have p := powers hm
  refine ⟨⟨?_, ?_, ?_, ?_, ?_, ?_⟩, ⟨?_, ?_, ?_, ?_, ?_⟩, na, nb⟩
  · rw [h1, p.1.1]; convert da using 1; ring
  · rw [h1, p.1.2.1]; convert da using 1; ring
  · rw [h1, p.1.2.2.1]; convert db using 1; ring
  · rw [h1, p.1.2.2.2]; convert db using 1; ring
  · rw [h1, qa_four hm]; convert da using 1; ring
  · rw [h1, qb_four hm]; convert db using 1; ring
  · rw [h2, p.2.1]; convert da using 1; ring
  · rw [h2, p.2.2.1]; convert da using 1; ring
  · rw [h2, p.2.2.2.1]; convert db using 1; ring
  · rw [h2, p.2.2.2.2]; convert db using 1; ring
  · rw [h2]; exact hs.load

theorem cancel {c d e k : ℂ} (h : d ≠ 0) (hk : e + k = d) : c / d * e + k * (c / d) = c := by
  rw [← hk] at h ⊢
  field_simp

theorem left_motion (hm : m.Slow) {s : ℂ} (hs : m.Regular s) :
    TransformedMotion 1 s (Set.Iio 0) (fun x => m.lowAt x 0) (fun x => (m.start x).re) (fun _ => 0) (fun x => expSum (m.leftTerms s) 0 x 0)
      (fun x => expSum (m.leftTerms s) 1 x 0) (fun x => expSum (m.leftTerms s) 2 x 0) (fun x => expSum (m.leftTerms s) 3 x 0) := by
  refine ⟨fun x => expSum_x _ 0 x 0, fun x => expSum_x _ 1 x 0, fun x => expSum_x _ 2 x 0, fun x hx => ⟨_, expSum_x _ 3 x 0, ?_⟩⟩
  have hx' : x < 0 := hx
  rw [(start_real hm x hx'.ne).2, lowAt_complex hm, if_pos hx'.le, start, if_pos hx'.le, u1p, u1h]
  have h1 : s1 s ^ 2 = 1 + s ^ 2 := csqrt_sq _
  have d := (s_denoms hm hs).1
  have q := s_powers (m := m) s
  have hc : ∀ (c : ℂ) (r : ℂ), s1 s ^ 2 + r ^ 4 ≠ 0 → c / (s1 s ^ 2 + r ^ 4) * r ^ 4 + (1 + s ^ 2) * (c / (s1 s ^ 2 + r ^ 4)) = c :=
    fun c r h => cancel h (by rw [h1]; ring)
  have c1 := hc (m.C1a * (s - m.alpha * m.qa)) _ d.1
  have c2 := hc (m.D1a * (s - m.alpha * m.qa)) _ d.2.1
  have c3 := hc (m.C1b * (s - m.alpha * m.qb)) _ d.2.2.1
  have c4 := hc (m.D1b * (s - m.alpha * m.qb)) _ d.2.2.2.1
  have c5 := hc (m.A * (s + m.alpha * m.qa)) _ d.2.2.2.2.1
  have c6 := hc (m.B * (s + m.alpha * m.qb)) _ d.2.2.2.2.2
  rw [mul_zero, sub_zero, abs_of_neg hx', Complex.ofReal_neg, Complex.ofReal_zero, mul_zero, mul_zero, Complex.exp_zero]
  have en : ∀ q : ℂ, q * -(x : ℂ) = -q * x := fun q => by ring
  rw [en, en]
  simp only [expSum, leftTerms, List.map_cons, List.map_nil, List.sum_cons, List.sum_nil, Complex.ofReal_zero, mul_zero, add_zero]
  rw [Even.neg_pow ⟨2, rfl⟩, Even.neg_pow ⟨2, rfl⟩]
  linear_combination Complex.exp (m.r1a1 * x) * c1 + Complex.exp (m.r1a2 * x) * c2 + Complex.exp (m.r1b1 * x) * c3 + Complex.exp (m.r1b2 * x) * c4 +
    Complex.exp (-m.qa * x) * c5 + Complex.exp (-m.qb * x) * c6 + m.E1 s * Complex.exp (rs11 s * x) * q.1 + m.G1 s * Complex.exp (rs12 s * x) * q.2.1

theorem right_motion (hm : m.Slow) {s : ℂ} (hs : m.Regular s) :
    TransformedMotion m.kRatio s (Set.Ioi 0) (fun x => m.lowAt x 0) (fun x => (m.start x).re)
      (fun x => m.F / m.alpha * Complex.exp (-s / m.alpha * x)) (fun x => expSum (m.rightTerms s) 0 x 0)
      (fun x => expSum (m.rightTerms s) 1 x 0) (fun x => expSum (m.rightTerms s) 2 x 0) (fun x => expSum (m.rightTerms s) 3 x 0) := by
  refine ⟨fun x => expSum_x _ 0 x 0, fun x => expSum_x _ 1 x 0, fun x => expSum_x _ 2 x 0, fun x hx => ⟨_, expSum_x _ 3 x 0, ?_⟩⟩
  have hx' : 0 < x := hx
  rw [(start_real hm x hx'.ne').2, lowAt_complex hm, if_neg (not_le.mpr hx'), start, if_neg (not_le.mpr hx'), u2h]
  have h1 : m.s2 s ^ 2 = m.kRatio + s ^ 2 := csqrt_sq _
  have d := (s_denoms hm hs).2.1
  have q := s_powers (m := m) s
  have hc : ∀ (c : ℂ) (r : ℂ), m.s2 s ^ 2 + r ^ 4 ≠ 0 → c / (m.s2 s ^ 2 + r ^ 4) * r ^ 4 + (m.kRatio + s ^ 2) * (c / (m.s2 s ^ 2 + r ^ 4)) = c :=
    fun c r h => cancel h (by rw [h1]; ring)
  have c1 := hc (m.C2a * (s - m.alpha * m.qa)) _ d.1
  have c2 := hc (m.D2a * (s - m.alpha * m.qa)) _ d.2.1
  have c3 := hc (m.C2b * (s - m.alpha * m.qb)) _ d.2.2.1
  have c4 := hc (m.D2b * (s - m.alpha * m.qb)) _ d.2.2.2.1
  have ha : (m.alpha : ℂ) ≠ 0 := by exact_mod_cast hm.alpha.ne'
  have c5 : m.F / (m.alpha * (m.s2 s ^ 2 + s ^ 4 / m.alpha ^ 4)) * (-s / m.alpha) ^ 4 +
      (m.kRatio + s ^ 2) * (m.F / (m.alpha * (m.s2 s ^ 2 + s ^ 4 / m.alpha ^ 4))) = m.F / m.alpha := by
    have := cancel (c := m.F / m.alpha) (e := s ^ 4 / m.alpha ^ 4) (k := m.kRatio + s ^ 2) d.2.2.2.2 (by rw [h1]; ring)
    rw [div_div] at this
    rw [div_pow, Even.neg_pow ⟨2, rfl⟩]
    exact this
  rw [Complex.ofReal_zero, mul_zero, mul_zero, Complex.exp_zero]
  simp only [expSum, rightTerms, List.map_cons, List.map_nil, List.sum_cons, List.sum_nil, Complex.ofReal_zero, mul_zero, add_zero]
  linear_combination Complex.exp (m.r2a1 * x) * c1 + Complex.exp (m.r2a2 * x) * c2 + Complex.exp (m.r2b1 * x) * c3 + Complex.exp (m.r2b2 * x) * c4 +
    Complex.exp (-s / m.alpha * x) * c5 + m.E2 s * Complex.exp (m.rs21 s * x) * q.2.2.1 + m.G2 s * Complex.exp (m.rs22 s * x) * q.2.2.2

/-- What the four free coefficients add to the derivatives at the change of stiffness. -/
theorem free_coefficients {a b c d Z1 Z2 Z3 Z4 : ℂ} (hab : a ≠ b) (hac : a ≠ c) (had : a ≠ d) (hbc : b ≠ c) (hbd : b ≠ d) (hcd : c ≠ d) (n : ℕ) (hn : n ≤ 3) :
    (b * c * d * Z1 - b * c * Z2 - b * d * Z2 - c * d * Z2 + b * Z3 + c * Z3 + d * Z3 - Z4) / ((a - b) * (a ^ 2 - a * d - a * c + c * d)) * a ^ n +
      (a * c * d * Z1 - a * c * Z2 - a * d * Z2 - c * d * Z2 + a * Z3 + c * Z3 + d * Z3 - Z4) / ((b - a) * (b - c) * (b - d)) * b ^ n -
      (a * b * d * Z1 - a * b * Z2 - a * d * Z2 - b * d * Z2 + a * Z3 + b * Z3 + d * Z3 - Z4) / ((d - c) * (c ^ 2 - a * c - b * c + a * b)) * c ^ n -
      (a * b * c * Z1 - a * b * Z2 - a * c * Z2 - b * c * Z2 + a * Z3 + b * Z3 + c * Z3 - Z4) / ((a - d) * (b - d) * (c - d)) * d ^ n =
    -(match n with | 0 => Z1 | 1 => Z2 | 2 => Z3 | _ => Z4) := by
  rw [show a ^ 2 - a * d - a * c + c * d = (a - c) * (a - d) by ring, show c ^ 2 - a * c - b * c + a * b = (a - c) * (b - c) by ring,
    show d - c = -(c - d) by ring, show b - a = -(a - b) by ring]
  have a1 := sub_ne_zero.mpr hab
  have a2 := sub_ne_zero.mpr hac
  have a3 := sub_ne_zero.mpr had
  have a4 := sub_ne_zero.mpr hbc
  have a5 := sub_ne_zero.mpr hbd
  have a6 := sub_ne_zero.mpr hcd
  interval_cases n <;> field_simp <;> ring

theorem free (hm : m.Slow) {s : ℂ} (hs : 0 < s.re) (n : ℕ) (hn : n ≤ 3) :
    m.E1 s * rs11 s ^ n + m.G1 s * rs12 s ^ n - m.E2 s * m.rs21 s ^ n - m.G2 s * m.rs22 s ^ n =
      -(match n with | 0 => m.ZZ1 s | 1 => m.ZZ2 s | 2 => m.ZZ3 s | _ => m.ZZ4 s) := by
  obtain ⟨⟨p1, p2, p3, p4⟩, h1, h2⟩ := s_signs hm hs
  rw [E1, G1, E2, G2]
  exact free_coefficients h1 (ne_of_re p1 p3) (ne_of_re p1 p4) (ne_of_re p2 p3) (ne_of_re p2 p4) h2 n hn

theorem s_join (hm : m.Slow) {s : ℂ} (hs : 0 < s.re) (n : ℕ) (hn : n ≤ 3) (h0 : n ≠ 0) :
    expSum (m.leftTerms s) n 0 0 = expSum (m.rightTerms s) n 0 0 := by
  have ha : (m.alpha : ℂ) ≠ 0 := by exact_mod_cast hm.alpha.ne'
  have f := free hm hs n hn
  simp only [expSum, leftTerms, rightTerms, List.map_cons, List.map_nil, List.sum_cons, List.sum_nil, Complex.ofReal_zero, mul_zero, add_zero,
    Complex.exp_zero, mul_one]
  have hd : ∀ j : ℕ, m.F / (m.alpha * (m.s2 s ^ 2 + s ^ 4 / m.alpha ^ 4)) * (-s / m.alpha) ^ j =
      (-1) ^ j * (s ^ j * m.F / (m.alpha ^ (j + 1) * (m.s2 s ^ 2 + s ^ 4 / m.alpha ^ 4))) := by
    intro j
    generalize m.s2 s ^ 2 + s ^ 4 / m.alpha ^ 4 = D
    rw [neg_div, neg_pow, div_pow, pow_succ' (m.alpha : ℂ)]
    by_cases hD : D = 0
    · simp [hD]
    · field_simp
  rw [hd n]
  interval_cases n
  · exact absurd rfl h0
  · simp only [ZZ2] at f ⊢
    rw [← sub_eq_zero]
    linear_combination (norm := (ring_nf)) f
  · simp only [ZZ3] at f ⊢
    rw [← sub_eq_zero]
    linear_combination (norm := (ring_nf)) f
  · simp only [ZZ4] at f ⊢
    rw [← sub_eq_zero]
    linear_combination (norm := (ring_nf)) f

theorem s_gap (hm : m.Slow) {s : ℂ} (hs : 0 < s.re) : m.ub1 s 0 - m.ub2 s 0 =
    m.C1b * (s - m.alpha * m.qb) / (s1 s ^ 2 + m.r1b1 ^ 4) - m.C1b * (s - m.alpha * m.qb) / (s1 s ^ 2 - m.r1b1 ^ 4) := by
  have f := free hm hs 0 (by norm_num)
  simp only [ZZ1, pow_zero, mul_one] at f
  simp only [ub1, ub2, Complex.ofReal_zero, mul_zero, Complex.exp_zero, mul_one]
  linear_combination f

theorem C1b_zero (hm : m.Slow) (hF : m.F ≠ 0) : m.C1b = 0 ↔ m.kRatio = 1 := by
  have sg := signs hm
  have ha : m.qa ≠ 0 := fun e => by have := (qa_im hm).2; rw [e] at this; simp at this
  have hb : m.qb ≠ 0 := fun e => by have := (qb_im hm).2; rw [e] at this; simp at this
  have hr : ((√(4 - m.alpha ^ 4) : ℝ) : ℂ) ≠ 0 := by exact_mod_cast (root_pos hm).ne'
  have hFc : (m.F : ℂ) ≠ 0 := by exact_mod_cast hF
  have hB : m.B ≠ 0 := by
    rw [B, A]
    have hI := Complex.I_ne_zero
    exact mul_ne_zero (div_ne_zero (neg_ne_zero.mpr ha) hb) (div_ne_zero hFc (by simp [ha, hr]))
  have h12 : m.r1b1 - m.r1b2 ≠ 0 := sub_ne_zero.mpr (one_side hm m.qb (qb_im hm).1).2.2.2.2
  have h13 : m.r1b1 - m.r2b2 ≠ 0 := sub_ne_zero.mpr (ne_of_re sg.1.2.2.1 sg.2.2.2.2)
  have h14 : m.r1b1 - m.r2b1 ≠ 0 := sub_ne_zero.mpr (ne_of_re sg.1.2.2.1 sg.2.2.2.1)
  have hq : m.qb - m.r1b2 ≠ 0 := sub_ne_zero.mpr (ne_of_re sg.1.2.2.2 (qb_im hm).2).symm
  have e : m.C1b = 0 ↔ m.qb = m.r2b2 ∨ m.qb = m.r2b1 := by
    rw [C1b]
    simp [h12, h13, h14, hq, hB, sub_eq_zero]
  rw [e]
  have p := (powers hm).2.2.2
  have q := qb_four hm
  constructor
  · intro h
    have h4 : (m.kRatio : ℂ) = 1 := by
      rcases h with h | h
      · have := p.2
        rw [← h, q] at this
        linear_combination this
      · have := p.1
        rw [← h, q] at this
        linear_combination this
    exact_mod_cast h4
  · intro h
    have h4 : (m.kRatio : ℂ) = 1 := by exact_mod_cast h
    have g2 : m.g2b ^ 2 = m.kRatio + m.qb ^ 2 * m.alpha ^ 2 := csqrt_sq _
    have e1 : m.r2b1 ^ 2 = Complex.I * m.g2b := by rw [r2b1, neg_sq, csqrt_sq]
    have e2 : m.r2b2 ^ 2 = -Complex.I * m.g2b := by rw [r2b2, neg_sq, csqrt_sq]
    have f : (m.qb ^ 2 - m.r2b1 ^ 2) * (m.qb ^ 2 - m.r2b2 ^ 2) = 0 := by
      rw [e1, e2]
      linear_combination q - m.g2b ^ 2 * Complex.I_sq + g2 + h4
    have root : ∀ r : ℂ, r.re < 0 → m.qb ^ 2 - r ^ 2 = 0 → m.qb = r := by
      intro r hr h
      have : (m.qb - r) * (m.qb + r) = 0 := by linear_combination h
      rcases mul_eq_zero.mp this with h | h
      · exact sub_eq_zero.mp h
      · have := congrArg Complex.re h
        simp only [Complex.add_re, Complex.zero_re] at this
        linarith [(qb_im hm).2]
    rcases mul_eq_zero.mp f with h | h
    · exact Or.inr (root _ sg.2.2.2.1 h)
    · exact Or.inl (root _ sg.2.2.2.2 h)

theorem s_iff (hm : m.Slow) (hF : m.F ≠ 0) {s : ℂ} (hs : m.Regular s) : m.ub1 s 0 = m.ub2 s 0 ↔ m.kRatio = 1 := by
  rw [← sub_eq_zero, s_gap hm hs.right, ← C1b_zero hm hF]
  have d := s_denoms hm hs
  have d1 := d.1.2.2.1
  have d2 := hs.c
  have hr : m.r1b1 ≠ 0 := fun e => by have := (signs hm).1.2.2.1; rw [e] at this; simp at this
  constructor
  · intro h
    have h' : m.C1b * ((s - m.alpha * m.qb) * (2 * m.r1b1 ^ 4)) = 0 := by
      field_simp at h
      linear_combination -h
    have : (s - m.alpha * m.qb) * (2 * m.r1b1 ^ 4) ≠ 0 := mul_ne_zero d.2.2.2 (mul_ne_zero two_ne_zero (pow_ne_zero _ hr))
    exact (mul_eq_zero.mp h').resolve_right this
  · intro h
    rw [h]
    simp

theorem s_far (hm : m.Slow) {s : ℂ} (hs : 0 < s.re) : Tendsto (m.ub1 s) atBot (nhds 0) ∧ Tendsto (m.ub2 s) atTop (nhds 0) := by
  have sg := signs hm
  have ss := (s_signs hm hs).1
  have ha := hm.alpha
  constructor
  · rw [ub1_terms]
    refine expSum_atBot _ ?_ 0
    intro e he
    have qa := (qa_im hm).2
    have qb := (qb_im hm).2
    simp only [leftTerms, List.mem_cons, List.not_mem_nil, or_false] at he
    rcases he with rfl | rfl | rfl | rfl | rfl | rfl | rfl | rfl <;> dsimp only
    · exact sg.1.1
    · exact sg.1.2.1
    · exact sg.1.2.2.1
    · exact sg.1.2.2.2
    · rw [Complex.neg_re]; linarith
    · rw [Complex.neg_re]; linarith
    · exact ss.1
    · exact ss.2.1
  · rw [ub2_terms]
    refine expSum_atTop _ ?_ 0
    intro e he
    simp only [rightTerms, List.mem_cons, List.not_mem_nil, or_false] at he
    rcases he with rfl | rfl | rfl | rfl | rfl | rfl | rfl <;> dsimp only
    · exact sg.2.1
    · exact sg.2.2.1
    · exact sg.2.2.2.1
    · exact sg.2.2.2.2
    · rw [Complex.div_ofReal_re, Complex.neg_re]
      exact div_neg_of_neg_of_pos (by linarith) ha
    · exact ss.2.2.1
    · exact ss.2.2.2

end Winkler

/-- Every positive number is a regular parameter of the transform. -/
theorem Winkler.regular_real {m : Winkler} (hm : m.Slow) (s : ℝ) (hs : 0 < s) : m.Regular s := by
  have ha := hm.alpha
  have im : ∀ q : ℂ, (q ^ 2).im ≠ 0 → q.im ≠ 0 := fun q h e => h (by simp [sq, e])
  have nz : ∀ q : ℂ, (q ^ 2).im ≠ 0 → (s : ℂ) + m.alpha * q ≠ 0 := fun q h e => by
    have := congrArg Complex.im e
    simp [ha.ne', im q h] at this
  refine ⟨by simpa using hs, nz _ (Winkler.qa_im hm).1, nz _ (Winkler.qb_im hm).1, ?_, ?_⟩
  · have : 0 < m.kRatio + s ^ 2 + s ^ 4 / m.alpha ^ 4 := by
      have := hm.ratio
      positivity
    exact_mod_cast this.ne'
  · rw [(Winkler.powers hm).1.2.2.1, show Winkler.s1 (s : ℂ) ^ 2 = 1 + (s : ℂ) ^ 2 from csqrt_sq _]
    intro e
    have h := congrArg Complex.im e
    rw [show (1 + (s : ℂ) ^ 2 - -(1 + m.qb ^ 2 * (m.alpha : ℂ) ^ 2)) = ((2 + s ^ 2 : ℝ) : ℂ) + m.qb ^ 2 * ((m.alpha ^ 2 : ℝ) : ℂ) by push_cast; ring] at h
    simp only [Complex.add_im, Complex.ofReal_im, Complex.mul_im, Complex.ofReal_re, Complex.zero_im, mul_zero, zero_add] at h
    have h2 : m.alpha ^ 2 ≠ 0 := by positivity
    exact (mul_ne_zero (Winkler.qb_im hm).1 h2) h

/-- **C154, partial.** The transform from which the displacements after time zero are computed satisfies the beam equation with the state at time zero on
both sides of the change of stiffness, and slope, moment and shear force are continuous at the change. Missing: continuity of the displacement. -/
theorem C154_transform_partial (i : WinklerInput) (k0 k1 : ℝ) (hi : i.Proper k0 k1) :
    ∃ m, i.parameters = .ok m ∧ (∀ s : ℝ, 0 < s → m.Regular s) ∧
      ∀ s, m.Regular s → ∃ gap, AfterTransition gap (k1 / k0) m.F m.alpha s m.lowAt (m.ub1 s) (m.ub2 s) := by
  obtain ⟨m, hm, slow, hs, -, -⟩ := hi.parameters
  have hk : m.kRatio = k1 / k0 := by
    have := hi.first
    rw [hs.second]
    field_simp
  refine ⟨m, hm, fun s h => Winkler.regular_real slow s h, fun s h => ⟨_, fun x => (m.start x).re,
    fun x => expSum (m.leftTerms s) 1 x 0, fun x => expSum (m.leftTerms s) 2 x 0, fun x => expSum (m.leftTerms s) 3 x 0,
    fun x => expSum (m.rightTerms s) 1 x 0, fun x => expSum (m.rightTerms s) 2 x 0, fun x => expSum (m.rightTerms s) 3 x 0,
    fun x hx => (Winkler.start_real slow x hx).1, ?_, ?_, rfl, ?_, ?_, ?_, Winkler.s_far slow h.right⟩⟩
  · rw [Winkler.ub1_terms]
    exact Winkler.left_motion slow h
  · rw [Winkler.ub2_terms, ← hk]
    exact Winkler.right_motion slow h
  · exact Winkler.s_join slow h.right 1 (by norm_num) (by norm_num)
  · exact Winkler.s_join slow h.right 2 (by norm_num) (by norm_num)
  · exact Winkler.s_join slow h.right 3 (by norm_num) (by norm_num)

/-- **C154 is violated**, exactly where it matters: for a load that is not zero the transform describes a beam that is not torn at the change of stiffness
if and only if there is no change of stiffness. -/
theorem C154_transform_iff (i : WinklerInput) (k0 k1 : ℝ) (hi : i.Proper k0 k1) (hP : i.force ≠ 0) :
    ∃ m, i.parameters = .ok m ∧ ∀ s, m.Regular s → (AfterTransition 0 (k1 / k0) m.F m.alpha s m.lowAt (m.ub1 s) (m.ub2 s) ↔ k1 = k0) := by
  obtain ⟨m, hm, slow, hs, -, -⟩ := hi.parameters
  obtain ⟨m', hm', -, hpart⟩ := C154_transform_partial i k0 k1 hi
  obtain rfl : m' = m := Except.ok.inj (hm'.symm.trans hm)
  refine ⟨m', hm, fun s h => ?_⟩
  have hF : m'.F ≠ 0 := fun e => hP (by rw [← hs.load, e, mul_zero])
  have hk : m'.kRatio = 1 ↔ k1 = k0 := by
    have := hi.first
    rw [hs.second]
    constructor
    · intro e
      rw [e, mul_one]
    · intro e
      exact (mul_right_eq_self₀.mp e).resolve_right this.ne'
  rw [← hk, ← Winkler.s_iff slow hF h, ← sub_eq_zero]
  constructor
  · rintro ⟨_, _, _, _, _, _, _, _, _, _, e, _⟩
    exact e
  · intro e
    obtain ⟨gap, v0, l1, l2, l3, r1, r2, r3, a, b, c, d, r⟩ := hpart s h
    exact ⟨v0, l1, l2, l3, r1, r2, r3, a, b, c, e, r⟩

/-- A rail on a foundation that becomes twice as stiff meets the hypotheses. -/
def exampleWinkler : WinklerInput :=
  { nbTerms := 20, a := 1, position := [-2, -1, 0, 1, 2], speed := 1, EI := 1, rho := 1, stiffness := [1, 2], force := 10 }

example : exampleWinkler.Proper 1 2 ∧ exampleWinkler.force ≠ 0 := by
  refine ⟨⟨rfl, ?_, ?_, one_pos, two_pos, ?_, ?_⟩, ?_⟩
  · norm_num [exampleWinkler]
  · norm_num [exampleWinkler]
  · norm_num [exampleWinkler]
  · rw [WinklerInput.critical]
    refine Real.one_lt_rpow ?_ (by norm_num)
    norm_num [exampleWinkler]
  · norm_num [exampleWinkler]

end Rose
