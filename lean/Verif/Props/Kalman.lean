import Verif.Model.Kalman
import Mathlib.Tactic.Linarith
import Mathlib.Tactic.NormNum
import Mathlib.Tactic.Ring
import Mathlib.Tactic.FieldSimp
import Mathlib.Tactic.FinCases
import Mathlib.Tactic.LinearCombination
import Mathlib.Algebra.Order.Ring.Rat

set_option linter.unusedSectionVars false

namespace Rose

open Matrix

variable {K : Type*} [Field K] [LinearOrder K] [IsStrictOrderedRing K]

/-! ### C72: independent components -/

/-- A covariance matrix of independent components. -/
structure DiagCov (P : M2 K) : Prop where
  off : P 0 1 = 0 ∧ P 1 0 = 0
  nonneg : 0 ≤ P 0 0 ∧ 0 ≤ P 1 1

theorem diag_ext {P Q : M2 K} (h00 : P 0 0 = Q 0 0) (h01 : P 0 1 = Q 0 1) (h10 : P 1 0 = Q 1 0) (h11 : P 1 1 = Q 1 1) : P = Q := by
  ext i j; fin_cases i <;> fin_cases j <;> assumption

theorem kH_one : (kH : M2 K) = 1 := by
  apply diag_ext <;> simp [kH]

/-- The scalar gain. -/
theorem gainEntry_spec (p r : K) (hp : 0 ≤ p) (hr : 0 ≤ r) :
    ∃ k, gainEntry p (p + r) = some k ∧ 0 ≤ k ∧ k ≤ 1 ∧ (1 - k) * p ≤ p ∧ (1 - k) * p ≤ r ∧ 0 ≤ (1 - k) * p ∧
      k * (p + r) = p := by
  unfold gainEntry
  by_cases h : p + r = 0
  · have h1 : p = 0 := by linarith
    rw [if_pos h, if_pos h1]
    exact ⟨0, rfl, le_rfl, zero_le_one, by simp [h1], by simp [h1]; exact hr, by simp [h1], by simp [h1]⟩
  · have hs : 0 < p + r := lt_of_le_of_ne (by linarith) (Ne.symm h)
    rw [if_neg h]
    refine ⟨p / (p + r), rfl, div_nonneg hp hs.le, (div_le_one hs).2 (by linarith), ?_, ?_, ?_, div_mul_cancel₀ _ h⟩
    · have : 0 ≤ p / (p + r) := div_nonneg hp hs.le
      nlinarith
    · have e : (1 - p / (p + r)) * p = p * r / (p + r) := by field_simp; ring
      rw [e, div_le_iff₀ hs]
      nlinarith [mul_nonneg hr hr]
    · have e : (1 - p / (p + r)) * p = p * r / (p + r) := by field_simp; ring
      rw [e]; exact div_nonneg (mul_nonneg hp hr) hs.le

/-- The gain for independent components. -/
theorem gain_spec (P : M2 K) (hP : DiagCov P) (sx sy : K) :
    ∃ a e, gain P (covMatrix true sx sy) = some !![a, 0; 0, e] ∧
      gainEntry (P 0 0) (P 0 0 + sx ^ 2) = some a ∧ gainEntry (P 1 1) (P 1 1 + sy ^ 2) = some e := by
  obtain ⟨⟨o1, o2⟩, n1, n2⟩ := hP
  obtain ⟨a, ha, -⟩ := gainEntry_spec (P 0 0) (sx ^ 2) n1 (sq_nonneg _)
  obtain ⟨e, he, -⟩ := gainEntry_spec (P 1 1) (sy ^ 2) n2 (sq_nonneg _)
  refine ⟨a, e, ?_, ha, he⟩
  have hR : (covMatrix true sx sy : M2 K) = !![sx ^ 2, 0; 0, sy ^ 2] := rfl
  unfold gain
  simp only [kH_one, Matrix.transpose_one, Matrix.mul_one, Matrix.one_mul, hR, Matrix.add_apply, Matrix.of_apply, Matrix.cons_val_zero,
    Matrix.cons_val_one, Matrix.cons_val', Matrix.cons_val_fin_one, o1, o2, add_zero, ha, he]
  rw [show gainEntry (0 : K) 0 = some 0 by unfold gainEntry; simp]

theorem kA_entries (dt : K) : (kA dt : M2 K) 0 0 = 1 ∧ (kA dt : M2 K) 0 1 = dt ∧ (kA dt : M2 K) 1 0 = 0 ∧ (kA dt : M2 K) 1 1 = 1 :=
  ⟨rfl, rfl, rfl, rfl⟩

theorem conj_entry (dt : K) (P : M2 K) (i j : Fin 2) : (kA dt * P * (kA dt)ᵀ) i j =
    (kA dt i 0 * P 0 0 + kA dt i 1 * P 1 0) * kA dt j 0 + (kA dt i 0 * P 0 1 + kA dt i 1 * P 1 1) * kA dt j 1 := by
  simp only [Matrix.mul_apply, Fin.sum_univ_two, Matrix.transpose_apply]

/-- Prediction keeps the covariance of independent components, for a process noise of non-negative variances. -/
theorem predictP_diag (dt : K) (Q P : M2 K) (hQ : 0 ≤ Q 0 0 ∧ 0 ≤ Q 1 1) (hP : DiagCov P) : DiagCov (predictP true dt Q P) ∧
    predictP true dt Q P 0 0 = P 0 0 + dt ^ 2 * P 1 1 + Q 0 0 ∧ predictP true dt Q P 1 1 = P 1 1 + Q 1 1 := by
  obtain ⟨⟨o1, o2⟩, n1, n2⟩ := hP
  have h00 : predictP true dt Q P 0 0 = P 0 0 + dt ^ 2 * P 1 1 + Q 0 0 := by
    obtain ⟨k1, k2, k3, k4⟩ := kA_entries dt
    simp [predictP, diagPart, conj_entry, k1, k2, o1, o2]; ring
  have h11 : predictP true dt Q P 1 1 = P 1 1 + Q 1 1 := by
    obtain ⟨k1, k2, k3, k4⟩ := kA_entries dt
    simp [predictP, diagPart, conj_entry, k3, k4, o1, o2]
  refine ⟨⟨⟨by simp [predictP, diagPart], by simp [predictP, diagPart]⟩, ?_, ?_⟩, h00, h11⟩
  · rw [h00]; have := mul_nonneg (sq_nonneg dt) n2; linarith [hQ.1]
  · rw [h11]; linarith [hQ.2]

/-- **C72, one measurement** For independent components, from any non-negative variances: the step succeeds; each component of the new
estimate is `(1 - g) * prediction + g * measurement` with a gain `g` in [0, 1]; its variance is not larger than that
of the prediction and not larger than that of the measurement; the covariance stays diagonal with non-negative variances. -/
theorem C72_step (k : Kalman K) (hi : k.independent = true) (hP : DiagCov k.P) (m : Measurement K) (hQ : 0 ≤ m.Q 0 0 ∧ 0 ≤ m.Q 1 1) :
    ∃ k', k.step m = some k' ∧ k'.independent = true ∧ DiagCov k'.P ∧
      (∃ g, 0 ≤ g ∧ g ≤ 1 ∧ k'.x 0 = (1 - g) * (k.x 0 + m.dt * k.x 1 + 1 / 2 * m.dt ^ 2 * m.u) + g * m.y 0) ∧
      (∃ g, 0 ≤ g ∧ g ≤ 1 ∧ k'.x 1 = (1 - g) * (k.x 1 + m.dt * m.u) + g * m.y 1) ∧
      k'.P 0 0 ≤ k.P 0 0 + m.dt ^ 2 * k.P 1 1 + m.Q 0 0 ∧ k'.P 0 0 ≤ m.sx ^ 2 ∧
      k'.P 1 1 ≤ k.P 1 1 + m.Q 1 1 ∧ k'.P 1 1 ≤ m.sy ^ 2 ∧
      k'.updatedX = k.updatedX ++ [k'.x] ∧ k'.updatedP = k.updatedP ++ [k'.P] := by
  obtain ⟨hpd, hp0, hp1⟩ := predictP_diag m.dt m.Q k.P hQ hP
  obtain ⟨a, e, hG, ha, he⟩ := gain_spec (predictP true m.dt m.Q k.P) hpd m.sx m.sy
  obtain ⟨a', ha', a0, a1, a2, a3, a4, -⟩ := gainEntry_spec (predictP true m.dt m.Q k.P 0 0) (m.sx ^ 2) hpd.nonneg.1 (sq_nonneg _)
  obtain ⟨e', he', e0, e1, e2, e3, e4, -⟩ := gainEntry_spec (predictP true m.dt m.Q k.P 1 1) (m.sy ^ 2) hpd.nonneg.2 (sq_nonneg _)
  rw [ha] at ha'; cases ha'
  rw [he] at he'; cases he'
  have hu : ∀ P : M2 K, DiagCov P → (updateP !![a, 0; 0, e] P) 0 0 = (1 - a) * P 0 0 ∧ (updateP !![a, 0; 0, e] P) 1 1 = (1 - e) * P 1 1 ∧
      (updateP !![a, 0; 0, e] P) 0 1 = 0 ∧ (updateP !![a, 0; 0, e] P) 1 0 = 0 := by
    rintro P ⟨⟨o1, o2⟩, -⟩
    simp [updateP, kH_one, Matrix.mul_apply, Fin.sum_univ_two, o1, o2]
  obtain ⟨u00, u11, u01, u10⟩ := hu _ hpd
  refine ⟨_, by unfold Kalman.step; simp only [hi, hG]; rfl, rfl, ⟨⟨u01, u10⟩, ?_, ?_⟩, ⟨a, a0, a1, ?_⟩, ⟨e, e0, e1, ?_⟩, ?_, ?_, ?_, ?_, rfl, rfl⟩
  · simp only; rw [u00]; exact a4
  · simp only; rw [u11]; exact e4
  · simp [updateX, kH_one, predictX, kA, kB, Matrix.mulVec, dotProduct, Fin.sum_univ_two]; ring
  · simp [updateX, kH_one, predictX, kA, kB, Matrix.mulVec, dotProduct, Fin.sum_univ_two]; ring
  · simp only; rw [u00, ← hp0]; exact a2
  · simp only; rw [u00]; exact a3
  · simp only; rw [u11, ← hp1]; exact e2
  · simp only; rw [u11]; exact e3

/-- **C72, all histories** Whatever the measurements (process noise of non-negative variance): the filter runs through, stores one
estimate and covariance per measurement, and every stored covariance is diagonal with non-negative variances. -/
theorem C72_history (x0 : Fin 2 → K) (sx sy : K) (ms : List (Measurement K)) (hQ : ∀ m ∈ ms, 0 ≤ m.Q 0 0 ∧ 0 ≤ m.Q 1 1) :
    ∃ k, (Kalman.new true x0 sx sy).run ms = some k ∧ k.updatedX.length = ms.length + 1 ∧ k.updatedP.length = ms.length + 1 ∧
      DiagCov k.P ∧ ∀ P ∈ k.updatedP, DiagCov P := by
  have h0 : DiagCov (covMatrix true sx sy : M2 K) := ⟨⟨rfl, rfl⟩, sq_nonneg _, sq_nonneg _⟩
  have key : ∀ (ms : List (Measurement K)) (k : Kalman K), (∀ m ∈ ms, 0 ≤ m.Q 0 0 ∧ 0 ≤ m.Q 1 1) → k.independent = true → DiagCov k.P →
      (∀ P ∈ k.updatedP, DiagCov P) → ∃ k', k.run ms = some k' ∧ k'.updatedX.length = k.updatedX.length + ms.length ∧
        k'.updatedP.length = k.updatedP.length + ms.length ∧ DiagCov k'.P ∧ ∀ P ∈ k'.updatedP, DiagCov P := by
    intro ms
    induction ms with
    | nil => intro k _ _ hP hl; exact ⟨k, rfl, rfl, rfl, hP, hl⟩
    | cons m ms ih =>
      intro k hQ hi hP hl
      obtain ⟨k', hs, hi', hP', -, -, -, -, -, -, hx, hp⟩ := C72_step k hi hP m (hQ m (by simp))
      obtain ⟨k'', hr, l1, l2, d1, d2⟩ := ih k' (fun q hq => hQ q (by simp [hq])) hi' hP' (by
        intro P hPm
        rw [hp, List.mem_append, List.mem_singleton] at hPm
        rcases hPm with h | rfl
        · exact hl P h
        · exact hP')
      refine ⟨k'', by rw [Kalman.run, hs]; exact hr, ?_, ?_, d1, d2⟩
      · rw [l1, hx, List.length_append, List.length_cons]; simp; omega
      · rw [l2, hp, List.length_append, List.length_cons]; simp; omega
  obtain ⟨k, h1, h2, h3, h4, h5⟩ := key ms (Kalman.new true x0 sx sy) hQ rfl h0 (by
    intro P hP
    simp only [Kalman.new, List.mem_singleton] at hP
    rw [hP]; exact h0)
  exact ⟨k, h1, by rw [h2]; simp [Kalman.new]; omega, by rw [h3]; simp [Kalman.new]; omega, h4, h5⟩

/-- **C72, optimality** The gain used is the best one: no other weight of the measurement gives a smaller variance of the combination of
prediction (variance `p`) and measurement (variance `r`), and the variance kept by the filter is that smallest one. -/
theorem C72_optimal (p r : K) (hp : 0 ≤ p) (hr : 0 ≤ r) :
    ∃ g, gainEntry p (p + r) = some g ∧ (1 - g) ^ 2 * p + g ^ 2 * r = (1 - g) * p ∧
      ∀ w, (1 - g) * p ≤ (1 - w) ^ 2 * p + w ^ 2 * r := by
  obtain ⟨g, h1, -, -, -, -, -, h7⟩ := gainEntry_spec p r hp hr
  have e : (1 - g) ^ 2 * p + g ^ 2 * r = (1 - g) * p := by linear_combination g * h7
  refine ⟨g, h1, e, ?_⟩
  intro w
  have : (1 - w) ^ 2 * p + w ^ 2 * r - (1 - g) * p = (p + r) * (w - g) ^ 2 := by linear_combination (2 * w - g) * h7
  have h2 := mul_nonneg (add_nonneg hp hr) (sq_nonneg (w - g))
  linarith

/-- The measurements of the example in the file (two of them). -/
example : ∃ k, (Kalman.new true ![(4000 : ℚ), 280] 20 5).run
    [⟨1, 2, 0, 25, 6, ![4260, 282]⟩, ⟨1, 2, 0, 25, 6, ![4550, 285]⟩] = some k ∧ k.updatedX.length = 3 := by
  obtain ⟨k, h1, h2, -⟩ := C72_history ![(4000 : ℚ), 280] 20 5 [⟨1, 2, 0, 25, 6, ![4260, 282]⟩, ⟨1, 2, 0, 25, 6, ![4550, 285]⟩]
    (by intro m hm; simp only [List.mem_cons, List.not_mem_nil, or_false] at hm; rcases hm with rfl | rfl <;> simp)
  exact ⟨k, h1, h2⟩

/-! ### C87: dependent components -/

/-- **C87 is violated** With dependent components (the default) the gain divides element by element instead of solving a system. For
equal errors `a` of both components and a better measurement (errors `c < a`) the filter reports a negative variance. -/
theorem C87_violated (a c : K) (hc : 0 ≤ c) (hca : c < a) (x0 y : Fin 2 → K) :
    ∃ k, (Kalman.new false x0 a a).step ⟨0, 0, 0, c, c, y⟩ = some k ∧ k.P 0 0 < 0 ∧ k.P 1 1 < 0 := by
  have ha : 0 < a := lt_of_le_of_lt hc hca
  have hs : a ^ 2 + c ^ 2 ≠ 0 := by positivity
  set g := a ^ 2 / (a ^ 2 + c ^ 2) with hg
  have hpred : predictP false 0 0 (covMatrix false a a) = !![a ^ 2, a ^ 2; a ^ 2, a ^ 2] := by
    obtain ⟨k1, k2, k3, k4⟩ := kA_entries (0 : K)
    apply diag_ext <;> simp [predictP, covMatrix, conj_entry, k1, k2, k3, k4, pow_two]
  have hR : (covMatrix false c c : M2 K) = !![c ^ 2, c ^ 2; c ^ 2, c ^ 2] := by
    apply diag_ext <;> simp [covMatrix, pow_two]
  have hgain : gain !![a ^ 2, a ^ 2; a ^ 2, a ^ 2] (!![c ^ 2, c ^ 2; c ^ 2, c ^ 2] : M2 K) = some !![g, g; g, g] := by
    unfold gain
    simp only [kH_one, Matrix.transpose_one, Matrix.mul_one, Matrix.one_mul, Matrix.add_apply, Matrix.of_apply, Matrix.cons_val_zero,
      Matrix.cons_val_one, Matrix.cons_val', Matrix.cons_val_fin_one]
    rw [show gainEntry (a ^ 2) (a ^ 2 + c ^ 2) = some g by unfold gainEntry; rw [if_neg hs]]
  have hval : (1 - 2 * g) * a ^ 2 < 0 := by
    have : 1 / 2 < g := by rw [hg, lt_div_iff₀ (by positivity)]; nlinarith
    have h2 : 0 < a ^ 2 := by positivity
    nlinarith
  refine ⟨⟨false, _, updateP !![g, g; g, g] !![a ^ 2, a ^ 2; a ^ 2, a ^ 2], _, _⟩, by
    unfold Kalman.step; simp only [Kalman.new, hpred, hR, hgain]; rfl, ?_, ?_⟩
  · simp only [updateP, kH_one, Matrix.mul_one]
    simp [Matrix.mul_apply, Fin.sum_univ_two]
    linarith
  · simp only [updateP, kH_one, Matrix.mul_one]
    simp [Matrix.mul_apply, Fin.sum_univ_two]
    linarith

/-- **C87 is violated, estimates** An exact measurement (errors zero) is not adopted: the estimate of each component also moves by the
deviation of the other one. -/
theorem C87_exact_violated (a b : K) (ha : 0 < a) (hb : 0 < b) (x0 y : Fin 2 → K) :
    ∃ k, (Kalman.new false x0 a b).step ⟨0, 0, 0, 0, 0, y⟩ = some k ∧ k.x 0 = y 0 + (y 1 - x0 1) ∧ k.x 1 = y 1 + (y 0 - x0 0) := by
  have hpred : predictP false 0 0 (covMatrix false a b) = !![a ^ 2, a * b; a * b, b ^ 2] := by
    obtain ⟨k1, k2, k3, k4⟩ := kA_entries (0 : K)
    apply diag_ext <;> simp [predictP, covMatrix, conj_entry, k1, k2, k3, k4]
  have hR : (covMatrix false 0 0 : M2 K) = 0 := by
    apply diag_ext <;> simp [covMatrix]
  have hone : ∀ p : K, p ≠ 0 → gainEntry p p = some 1 := by
    intro p hp; unfold gainEntry; rw [if_neg hp, div_self hp]
  have hgain : gain !![a ^ 2, a * b; a * b, b ^ 2] (0 : M2 K) = some !![1, 1; 1, 1] := by
    unfold gain
    simp only [kH_one, Matrix.transpose_one, Matrix.mul_one, Matrix.one_mul, add_zero, Matrix.of_apply, Matrix.cons_val_zero,
      Matrix.cons_val_one, Matrix.cons_val', Matrix.cons_val_fin_one]
    rw [hone (a ^ 2) (by positivity), hone (a * b) (by positivity), hone (b ^ 2) (by positivity)]
  refine ⟨⟨false, updateX !![1, 1; 1, 1] (predictX 0 0 x0) y, _, _, _⟩, by
    unfold Kalman.step; simp only [Kalman.new, hpred, hR, hgain]; rfl, ?_, ?_⟩
  · simp [updateX, kH_one, predictX, kA, kB, Matrix.mulVec, dotProduct, Fin.sum_univ_two]; ring
  · simp [updateX, kH_one, predictX, kA, kB, Matrix.mulVec, dotProduct, Fin.sum_univ_two]; ring

end Rose
