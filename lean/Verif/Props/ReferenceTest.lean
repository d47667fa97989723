/-
C81: how well the reference test of the ballast model is reproduced.
-/
import Verif.Props.Accumulation
import Mathlib.Analysis.Convex.SpecificFunctions.Pow
import Mathlib.Analysis.SpecialFunctions.Integrals.Basic
import Mathlib.MeasureTheory.Integral.IntervalIntegral.FundThmCalculus

set_option linter.unusedSectionVars false

namespace Rose
open Finset

theorem trapezoid_range' (g φ : ℕ → ℝ) (n k : ℕ) : trapezoid ((List.range' k (n + 1)).map fun i => (g i, φ i)) =
    ∑ i ∈ range n, (g (k + i + 1) - g (k + i)) * (φ (k + i + 1) + φ (k + i)) / 2 := by
  induction n generalizing k with
  | zero => simp [trapezoid]
  | succ n ih =>
    have := ih (k + 1)
    rw [List.range'_succ, List.map_cons] at this
    rw [List.range'_succ, List.map_cons, List.range'_succ, List.map_cons, trapezoid, this, Finset.sum_range_succ']
    simp only [Nat.add_zero]
    rw [add_comm]
    congr 1
    refine Finset.sum_congr rfl fun i _ => ?_
    rw [show k + 1 + i = k + (i + 1) by ring]

theorem trapezoid_forces (f α : ℝ) : trapezoid ((linspace 0 f 100).map fun F => (F, F ^ α)) =
    ∑ i ∈ range 99, (f / 99) * ((((i : ℝ) + 1) * (f / 99)) ^ α + ((i : ℝ) * (f / 99)) ^ α) / 2 := by
  have at' : ∀ i : ℕ, linspaceAt 0 f 100 i = i * (f / 99) := fun i => by
    unfold linspaceAt
    rw [if_neg (by norm_num)]
    norm_num
  have h := trapezoid_range' (fun i => linspaceAt 0 f 100 i) (fun i => linspaceAt 0 f 100 i ^ α) 99 0
  simp only [linspace, List.map_map, List.range_eq_range']
  refine Eq.trans ?_ (h.trans (Finset.sum_congr rfl fun i _ => ?_))
  · rfl
  · simp only [at', Nat.zero_add]
    push_cast
    ring_nf

/-- The area under `x ^ α` between two points. -/
theorem area_pow {α : ℝ} (hα : 0 < α) (a b : ℝ) : ∫ x in a..b, x ^ α = (b ^ (α + 1) - a ^ (α + 1)) / (α + 1) :=
  integral_rpow (Or.inl (by linarith))

theorem area_chord (a b u v : ℝ) (h : a ≠ b) : ∫ x in a..b, (u + (v - u) / (b - a) * (x - a)) = (b - a) * (v + u) / 2 := by
  have hb : b - a ≠ 0 := sub_ne_zero.mpr h.symm
  have e : (fun x : ℝ => u + (v - u) / (b - a) * (x - a)) = fun x => (u - (v - u) / (b - a) * a) + (v - u) / (b - a) * x := by
    funext x; ring
  rw [e, intervalIntegral.integral_add (by simp) (by apply Continuous.intervalIntegrable; fun_prop), intervalIntegral.integral_const,
    intervalIntegral.integral_const_mul, integral_id, smul_eq_mul]
  field_simp
  ring

theorem pow_continuousOn {α : ℝ} (hα : 0 < α) (s : Set ℝ) : ContinuousOn (fun x : ℝ => x ^ α) s :=
  (Real.continuous_rpow_const hα.le).continuousOn

/-- Between two points the chord of `x ^ α` encloses less area if `α < 1`. -/
theorem chord_lt {α a b : ℝ} (h0 : 0 < α) (h1 : α < 1) (ha : 0 ≤ a) (hab : a < b) :
    (b - a) * (b ^ α + a ^ α) / 2 < (b ^ (α + 1) - a ^ (α + 1)) / (α + 1) := by
  rw [← area_pow h0, ← area_chord a b _ _ hab.ne]
  have conc := Real.strictConcaveOn_rpow h0 h1
  have pt : ∀ x, a < x → x < b → a ^ α + (b ^ α - a ^ α) / (b - a) * (x - a) < x ^ α := by
    intro x hx hx'
    have hb : 0 < b - a := by linarith
    have := conc.2 (Set.mem_Ici.mpr ha) (Set.mem_Ici.mpr (ha.trans hab.le)) hab.ne (show 0 < (b - x) / (b - a) from div_pos (by linarith) hb)
      (show 0 < (x - a) / (b - a) from div_pos (by linarith) hb) (by field_simp; ring)
    simp only [smul_eq_mul] at this
    rw [show (b - x) / (b - a) * a + (x - a) / (b - a) * b = x by field_simp; ring] at this
    refine lt_of_eq_of_lt ?_ this
    field_simp
    ring
  refine intervalIntegral.integral_lt_integral_of_continuousOn_of_le_of_exists_lt hab (by fun_prop) (pow_continuousOn h0 _) (fun x hx => ?_)
    ⟨(a + b) / 2, ⟨by linarith, by linarith⟩, pt _ (by linarith) (by linarith)⟩
  rcases hx.2.lt_or_eq with h | h
  · exact (pt x hx.1 h).le
  · rw [h, div_mul_cancel₀ _ (by linarith)]; linarith

/-- Between two points the chord of `x ^ α` encloses more area if `1 < α`. -/
theorem lt_chord {α a b : ℝ} (h1 : 1 < α) (ha : 0 ≤ a) (hab : a < b) :
    (b ^ (α + 1) - a ^ (α + 1)) / (α + 1) < (b - a) * (b ^ α + a ^ α) / 2 := by
  have h0 : 0 < α := by linarith
  rw [← area_pow h0, ← area_chord a b _ _ hab.ne]
  have conv := strictConvexOn_rpow h1
  have pt : ∀ x, a < x → x < b → x ^ α < a ^ α + (b ^ α - a ^ α) / (b - a) * (x - a) := by
    intro x hx hx'
    have hb : 0 < b - a := by linarith
    have := conv.2 (Set.mem_Ici.mpr ha) (Set.mem_Ici.mpr (ha.trans hab.le)) hab.ne (show 0 < (b - x) / (b - a) from div_pos (by linarith) hb)
      (show 0 < (x - a) / (b - a) from div_pos (by linarith) hb) (by field_simp; ring)
    simp only [smul_eq_mul] at this
    rw [show (b - x) / (b - a) * a + (x - a) / (b - a) * b = x by field_simp; ring] at this
    refine lt_of_lt_of_eq this ?_
    field_simp
    ring
  refine intervalIntegral.integral_lt_integral_of_continuousOn_of_le_of_exists_lt hab (pow_continuousOn h0 _) (by fun_prop) (fun x hx => ?_)
    ⟨(a + b) / 2, ⟨by linarith, by linarith⟩, pt _ (by linarith) (by linarith)⟩
  rcases hx.2.lt_or_eq with h | h
  · exact (pt x hx.1 h).le
  · rw [h, div_mul_cancel₀ _ (by linarith)]; linarith

/-- The area is between those of the two rectangles. -/
theorem area_between {α a b : ℝ} (h0 : 0 < α) (ha : 0 ≤ a) (hab : a ≤ b) :
    (b - a) * a ^ α ≤ (b ^ (α + 1) - a ^ (α + 1)) / (α + 1) ∧ (b ^ (α + 1) - a ^ (α + 1)) / (α + 1) ≤ (b - a) * b ^ α := by
  rw [← area_pow h0]
  have int : IntervalIntegrable (fun x : ℝ => x ^ α) MeasureTheory.volume a b := (Real.continuous_rpow_const h0.le).intervalIntegrable _ _
  constructor
  · have := intervalIntegral.integral_mono_on hab (intervalIntegrable_const (c := a ^ α)) int
      fun x hx => Real.rpow_le_rpow ha hx.1 h0.le
    simpa using this
  · have := intervalIntegral.integral_mono_on hab int (intervalIntegrable_const (c := b ^ α))
      fun x hx => Real.rpow_le_rpow (ha.trans hx.1) hx.2 h0.le
    simpa using this

theorem area_sum {α f : ℝ} (h0 : 0 < α) : f ^ (α + 1) / (α + 1) =
    ∑ i ∈ range 99, ((((i : ℝ) + 1) * (f / 99)) ^ (α + 1) - ((i : ℝ) * (f / 99)) ^ (α + 1)) / (α + 1) := by
  have := Finset.sum_range_sub (fun i : ℕ => ((i : ℝ) * (f / 99)) ^ (α + 1)) 99
  rw [← Finset.sum_div]
  push_cast at this
  rw [this, zero_mul, Real.zero_rpow (by linarith), sub_zero]
  congr 2
  ring

theorem trapezoid_lt {α f : ℝ} (h0 : 0 < α) (h1 : α < 1) (hf : 0 < f) :
    trapezoid ((linspace 0 f 100).map fun F => (F, F ^ α)) < f ^ (α + 1) / (α + 1) := by
  rw [trapezoid_forces, area_sum h0]
  refine Finset.sum_lt_sum_of_nonempty ⟨0, by simp⟩ fun i _ => ?_
  have := chord_lt h0 h1 (a := i * (f / 99)) (b := (i + 1) * (f / 99)) (by positivity) (by nlinarith [show (0 : ℝ) < f / 99 by positivity])
  rwa [show ((i : ℝ) + 1) * (f / 99) - i * (f / 99) = f / 99 by ring] at this

theorem lt_trapezoid {α f : ℝ} (h1 : 1 < α) (hf : 0 < f) :
    f ^ (α + 1) / (α + 1) < trapezoid ((linspace 0 f 100).map fun F => (F, F ^ α)) := by
  rw [trapezoid_forces, area_sum (by linarith)]
  refine Finset.sum_lt_sum_of_nonempty ⟨0, by simp⟩ fun i _ => ?_
  have := lt_chord h1 (a := i * (f / 99)) (b := (i + 1) * (f / 99)) (by positivity) (by nlinarith [show (0 : ℝ) < f / 99 by positivity])
  rwa [show ((i : ℝ) + 1) * (f / 99) - i * (f / 99) = f / 99 by ring] at this

/-- The trapezoidal rule is off by at most `(α + 1) / 198` of the area. -/
theorem trapezoid_near {α f : ℝ} (h0 : 0 < α) (hf : 0 < f) :
    |trapezoid ((linspace 0 f 100).map fun F => (F, F ^ α)) - f ^ (α + 1) / (α + 1)| ≤ (α + 1) / 198 * (f ^ (α + 1) / (α + 1)) := by
  rw [trapezoid_forces, area_sum h0, ← Finset.sum_sub_distrib]
  refine (Finset.abs_sum_le_sum_abs _ _).trans ?_
  have step : ∀ i ∈ range 99, |f / 99 * ((((i : ℝ) + 1) * (f / 99)) ^ α + ((i : ℝ) * (f / 99)) ^ α) / 2 -
      ((((i : ℝ) + 1) * (f / 99)) ^ (α + 1) - ((i : ℝ) * (f / 99)) ^ (α + 1)) / (α + 1)| ≤
      f / 198 * ((((i + 1 : ℕ) : ℝ) * (f / 99)) ^ α - ((i : ℝ) * (f / 99)) ^ α) := by
    intro i _
    have hp : (0 : ℝ) < f / 99 := by positivity
    have := area_between h0 (a := i * (f / 99)) (b := (i + 1) * (f / 99)) (by positivity) (by nlinarith)
    rw [show ((i : ℝ) + 1) * (f / 99) - i * (f / 99) = f / 99 by ring] at this
    push_cast
    rw [abs_le]
    constructor <;> nlinarith [this.1, this.2]
  refine (Finset.sum_le_sum step).trans ?_
  rw [← Finset.mul_sum, Finset.sum_range_sub (fun i : ℕ => ((i : ℝ) * (f / 99)) ^ α) 99, ← area_sum h0]
  simp only [Nat.cast_zero, zero_mul, Real.zero_rpow h0.ne', sub_zero]
  rw [show ((99 : ℕ) : ℝ) * (f / 99) = f by push_cast; ring, Real.rpow_add_one hf.ne']
  refine le_of_eq ?_
  field_simp

/-- The settlement after `N` passages with the reference force: the ratio of trapezoidal rule and area, times that of the sums, times `γ`. -/
theorem reference_settlement (p : VarandasPar) (h0 : 0 < p.alpha) (hF : 0 < p.F0) (hN0 : 3 ≤ p.N0) {N : ℕ} (hN : 2 ≤ N) :
    (varandasStage p ⟨[N], 0, 1⟩ (fun _ => p.F0) VarState.zero 0).2.getLast? =
      some (p.gamma / 1000 * (trapezoid ((linspace 0 p.F0 100).map fun F => (F, F ^ p.alpha)) / (p.F0 ^ (p.alpha + 1) / (p.alpha + 1))) *
        (powerSum p.beta N / powerSum p.beta (p.N0 - 1))) := by
  rw [C81_closed_form p p.F0 hF N hN]
  have hM := mAlphaBeta_pos p hF (by linarith) (by omega)
  have e : p.mAlphaBeta = p.F0 ^ (p.alpha + 1) / (p.alpha + 1) * powerSum p.beta (p.N0 - 1) := rfl
  have hI : 0 < p.F0 ^ (p.alpha + 1) / (p.alpha + 1) := div_pos (Real.rpow_pos_of_pos hF _) (by linarith)
  have hS : powerSum p.beta (p.N0 - 1) ≠ 0 := fun h => by rw [e, h, mul_zero] at hM; exact lt_irrefl _ hM
  rw [e, Option.some.injEq]
  field_simp

theorem powerSum_pos (β : ℝ) {N : ℕ} (hN : 1 ≤ N) : 0 < powerSum β N := by
  unfold powerSum
  refine List.sum_pos _ (fun x hx => ?_) (by simp; omega)
  obtain ⟨n, hn, rfl⟩ := List.mem_map.mp hx
  have : 1 ≤ n := (List.mem_range'_1.mp hn).1
  exact Real.rpow_pos_of_pos (by positivity) _

theorem powerSum_succ (β : ℝ) (N : ℕ) : powerSum β (N + 1) = powerSum β N + (1 / ((N : ℝ) + 1)) ^ β := by
  unfold powerSum
  rw [List.range'_concat, List.map_append, List.sum_append]
  simp only [one_mul, List.map_cons, List.map_nil, List.sum_cons, List.sum_nil, add_zero]
  push_cast
  rw [add_comm (1 : ℝ)]

/-- One more passage adds at most the mean of the former ones. -/
theorem powerSum_mean {β : ℝ} (hβ : 0 ≤ β) (N : ℕ) : (N : ℝ) * (1 / ((N : ℝ) + 1)) ^ β ≤ powerSum β N := by
  unfold powerSum
  have := List.card_nsmul_le_sum ((List.range' 1 N).map fun n : ℕ => (1 / (n : ℝ)) ^ β) ((1 / ((N : ℝ) + 1)) ^ β) fun x hx => by
    obtain ⟨n, hn, rfl⟩ := List.mem_map.mp hx
    obtain ⟨h1, h2⟩ := List.mem_range'_1.mp hn
    have h1' : (0 : ℝ) < n := by exact_mod_cast h1
    have h2' : (n : ℝ) ≤ N + 1 := by exact_mod_cast (by omega : n ≤ N + 1)
    exact Real.rpow_le_rpow (by positivity) (one_div_le_one_div_of_le h1' h2') hβ
  simpa using this

/-- **C81, exactly** After `N₀ - 1` passages with the reference force the settlement is the reference settlement exactly if the exponent `α` is one;
it is less for a smaller and more for a larger exponent. -/
theorem C81_iff (p : VarandasPar) (h0 : 0 < p.alpha) (hγ : 0 < p.gamma) (hF : 0 < p.F0) (hN : 3 ≤ p.N0) :
    ∃ x, (varandasStage p ⟨[p.N0 - 1], 0, 1⟩ (fun _ => p.F0) VarState.zero 0).2.getLast? = some x ∧ (x = p.gamma / 1000 ↔ p.alpha = 1) ∧
      (x < p.gamma / 1000 ↔ p.alpha < 1) ∧ (p.gamma / 1000 < x ↔ 1 < p.alpha) := by
  refine ⟨_, reference_settlement p h0 hF hN (by omega), ?_⟩
  rw [div_self (powerSum_pos p.beta (show 1 ≤ p.N0 - 1 by omega)).ne', mul_one]
  have hI : 0 < p.F0 ^ (p.alpha + 1) / (p.alpha + 1) := div_pos (Real.rpow_pos_of_pos hF _) (by linarith)
  have hg : 0 < p.gamma / 1000 := by positivity
  set T := trapezoid ((linspace 0 p.F0 100).map fun F => (F, F ^ p.alpha))
  set I := p.F0 ^ (p.alpha + 1) / (p.alpha + 1)
  rcases lt_trichotomy p.alpha 1 with h | h | h
  · have hT : T / I < 1 := (div_lt_one hI).mpr (trapezoid_lt h0 h hF)
    have : p.gamma / 1000 * (T / I) < p.gamma / 1000 := by nlinarith
    exact ⟨⟨fun e => absurd e this.ne, fun e => absurd e h.ne⟩, ⟨fun _ => h, fun _ => this⟩, ⟨fun e => absurd e this.le.not_gt, fun e => absurd e h.le.not_gt⟩⟩
  · have hT : T = I := by
      show trapezoid _ = p.F0 ^ (p.alpha + 1) / (p.alpha + 1)
      rw [h, trapezoid_alpha_one, show ((1 : ℝ) + 1) = ((2 : ℕ) : ℝ) by norm_num, Real.rpow_natCast]
      norm_num
    rw [hT, div_self hI.ne', mul_one, h]
    simp
  · have hT : 1 < T / I := (one_lt_div hI).mpr (lt_trapezoid h hF)
    have : p.gamma / 1000 < p.gamma / 1000 * (T / I) := by nlinarith
    exact ⟨⟨fun e => absurd e this.ne', fun e => absurd e h.ne'⟩, ⟨fun e => absurd e this.le.not_gt, fun e => absurd e h.le.not_gt⟩, ⟨fun _ => h, fun _ => this⟩⟩

/-- **C81, approximately** The reference test is reproduced up to the error of the trapezoidal rule with 100 points and one passage out of `N₀`: for
the default parameters within one percent. -/
theorem C81_near (p : VarandasPar) (h0 : 0 < p.alpha) (hβ : 0 ≤ p.beta) (hγ : 0 ≤ p.gamma) (hF : 0 < p.F0) (hN : 3 ≤ p.N0) :
    ∃ x, (varandasStage p ⟨[p.N0], 0, 1⟩ (fun _ => p.F0) VarState.zero 0).2.getLast? = some x ∧
      p.gamma / 1000 * (1 - (p.alpha + 1) / 198) ≤ x ∧ x ≤ p.gamma / 1000 * (1 + (p.alpha + 1) / 198) * (1 + 1 / ((p.N0 : ℝ) - 1)) := by
  refine ⟨_, reference_settlement p h0 hF hN (by omega), ?_⟩
  have hI : 0 < p.F0 ^ (p.alpha + 1) / (p.alpha + 1) := div_pos (Real.rpow_pos_of_pos hF _) (by linarith)
  have near := abs_le.mp (trapezoid_near h0 hF)
  set T := trapezoid ((linspace 0 p.F0 100).map fun F => (F, F ^ p.alpha))
  set I := p.F0 ^ (p.alpha + 1) / (p.alpha + 1)
  obtain ⟨k, hk⟩ : ∃ k, p.N0 = k + 1 := ⟨p.N0 - 1, by omega⟩
  have hk2 : 2 ≤ k := by omega
  have hkr : (2 : ℝ) ≤ k := by exact_mod_cast hk2
  have hS := powerSum_pos p.beta (show 1 ≤ k by omega)
  rw [hk, Nat.add_sub_cancel, powerSum_succ]
  have hm := powerSum_mean hβ k
  have hq : 0 < (1 / ((k : ℝ) + 1)) ^ p.beta := Real.rpow_pos_of_pos (by positivity) _
  set S := powerSum p.beta k
  set q := (1 / ((k : ℝ) + 1)) ^ p.beta
  have r1 : 1 ≤ (S + q) / S := by rw [le_div_iff₀ hS]; linarith
  have r2 : (S + q) / S ≤ 1 + 1 / k := by
    rw [div_le_iff₀ hS]
    have : q ≤ S / k := by rw [le_div_iff₀ (by linarith)]; linarith
    calc S + q ≤ S + S / k := by linarith
      _ = (1 + 1 / k) * S := by ring
  have t1 : 1 - (p.alpha + 1) / 198 ≤ T / I := by rw [le_div_iff₀ hI]; nlinarith [near.1]
  have t2 : T / I ≤ 1 + (p.alpha + 1) / 198 := by rw [div_le_iff₀ hI]; nlinarith [near.2]
  have hT : 0 ≤ T / I := by
    refine div_nonneg ?_ hI.le
    show 0 ≤ trapezoid _
    rw [trapezoid_forces]
    exact Finset.sum_nonneg fun i _ => by positivity
  have hg : 0 ≤ p.gamma / 1000 := by positivity
  push_cast
  rw [add_sub_cancel_right]
  constructor
  · calc p.gamma / 1000 * (1 - (p.alpha + 1) / 198) ≤ p.gamma / 1000 * (T / I) := mul_le_mul_of_nonneg_left t1 hg
      _ = p.gamma / 1000 * (T / I) * 1 := (mul_one _).symm
      _ ≤ _ := mul_le_mul_of_nonneg_left r1 (mul_nonneg hg hT)
  · exact mul_le_mul (mul_le_mul_of_nonneg_left t2 hg) r2 (by positivity) (mul_nonneg hg (by positivity))

/-- The default parameters (`rose/model/accumulation_model.py:82-87`): the reference test of a million passages gives between 9.9 and 10.1 mm. -/
example : ∃ x, (varandasStage ⟨6 / 10, 82 / 100, 10, 1000000, 50⟩ ⟨[1000000], 0, 1⟩ (fun _ => 50) VarState.zero 0).2.getLast? = some x ∧
    99 / 10000 ≤ x ∧ x ≤ 101 / 10000 := by
  obtain ⟨x, h, h1, h2⟩ := C81_near ⟨6 / 10, 82 / 100, 10, 1000000, 50⟩ (by norm_num) (by norm_num) (by norm_num) (by norm_num) (by norm_num)
  refine ⟨x, h, ?_, ?_⟩
  · refine le_trans ?_ h1; norm_num
  · refine h2.trans ?_; norm_num

end Rose
