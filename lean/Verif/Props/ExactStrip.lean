import Verif.Props.LiSelig

set_option linter.unusedSectionVars false

namespace Rose

/-! ### C92: how far the sampled stress is from the largest one -/

/-- The product of the squared distances to the edges of the strip. -/
theorem strip_distances (a z x : ℝ) :
    (z ^ 2 + (x + a) ^ 2) * (z ^ 2 + (x - a) ^ 2) = (z ^ 2 + x ^ 2 - a ^ 2) ^ 2 + (2 * a * z) ^ 2 := by ring

theorem stripShear_eq (q a z x : ℝ) :
    stripShear q a z x = q / Real.pi * (2 * a * z / Real.sqrt ((z ^ 2 + x ^ 2 - a ^ 2) ^ 2 + (2 * a * z) ^ 2)) := by
  unfold stripShear
  rw [← Real.sqrt_mul (by positivity), strip_distances]

theorem stripShear_le_iff (q a z x y : ℝ) (hq : 0 < q) (ha : 0 < a) (hz : 0 < z) :
    stripShear q a z x ≤ stripShear q a z y ↔ (z ^ 2 + y ^ 2 - a ^ 2) ^ 2 ≤ (z ^ 2 + x ^ 2 - a ^ 2) ^ 2 := by
  have hp := Real.pi_pos
  rw [stripShear_eq, stripShear_eq, mul_le_mul_iff_right₀ (by positivity),
    div_le_div_iff_of_pos_left (by positivity) (Real.sqrt_pos.2 (by positivity)) (Real.sqrt_pos.2 (by positivity)),
    Real.sqrt_le_sqrt_iff (by positivity)]
  constructor <;> intro h <;> linarith

/-- **C92, exactly** For a positive force, load area and depth the stress used is the largest shear stress on the line at the depth of the layer
if and only if that depth is one of five depths above half the width, those at which one of the points lies on the semicircle over the
strip: the depths `z` with `z ^ 2 = (1 / 4 - (j / 99) ^ 2) * width ^ 2` for `j` = 5, 15, 25, 35 or 45. At all other depths it is too small. -/
theorem C92_iff (force length width z : ℝ) (hf : 0 < force) (hl : 0 < length) (hw : 0 < width) (hz : 0 < z) :
    (∀ x, stripShear (force / (length * width) / 1000) (width / 2) z x ≤ devStress force length width z) ↔
      ∃ j ∈ ([5, 15, 25, 35, 45] : List ℝ), z ^ 2 = (1 / 4 - (j / 99) ^ 2) * width ^ 2 := by
  have hq : 0 < force / (length * width) / 1000 := by positivity
  have ha : 0 < width / 2 := by positivity
  obtain ⟨⟨i, hi, h⟩, hall, -⟩ := C92_strip_partial force length width z hf.le hl hw hz
  beta_reduce at h hall
  constructor
  · intro hx
    rw [h] at hx
    have hne : -5 * width + (i : ℝ) * (10 * width / 99) ≠ 0 := by
      intro h0
      have h1 : (2 * (i : ℝ) - 99) * width = 0 := by linarith
      rcases mul_eq_zero.1 h1 with h2 | h2
      · have : 2 * i = 99 := by exact_mod_cast (by linarith : (2 : ℝ) * i = 99)
        omega
      · exact hw.ne' h2
    have hon : z ^ 2 + (-5 * width + (i : ℝ) * (10 * width / 99)) ^ 2 = (width / 2) ^ 2 := by
      rcases le_or_gt z (width / 2) with hle | hgt
      · have h0 : 0 ≤ (width / 2) ^ 2 - z ^ 2 := by nlinarith
        have h1 := (stripShear_le_iff _ _ _ _ _ hq ha hz).1 (hx (Real.sqrt ((width / 2) ^ 2 - z ^ 2)))
        rw [Real.sq_sqrt h0] at h1
        have h2 : (z ^ 2 + ((width / 2) ^ 2 - z ^ 2) - (width / 2) ^ 2) ^ 2 = 0 := by ring
        rw [h2] at h1
        have h3 := pow_eq_zero_iff (two_ne_zero) |>.1 (le_antisymm h1 (sq_nonneg _))
        linarith
      · exfalso
        have h1 := (stripShear_le_iff _ _ _ _ _ hq ha hz).1 (hx 0)
        have h2 : 0 < (-5 * width + (i : ℝ) * (10 * width / 99)) ^ 2 := by positivity
        have h3 : 0 < z ^ 2 - (width / 2) ^ 2 := by nlinarith
        nlinarith
    have hsq : (20 * (i : ℝ) - 990) ^ 2 ≤ 99 ^ 2 := by
      have h1 : (-5 * width + (i : ℝ) * (10 * width / 99)) ^ 2 ≤ (width / 2) ^ 2 := by nlinarith [sq_nonneg z]
      have h2 : (-5 * width + (i : ℝ) * (10 * width / 99)) ^ 2 = (20 * (i : ℝ) - 990) ^ 2 / (4 * 99 ^ 2) * width ^ 2 := by ring
      rw [h2] at h1
      have hw2 : 0 < width ^ 2 := by positivity
      nlinarith
    have hz2 : z ^ 2 = (1 / 4 - ((10 * (i : ℝ) - 495) / 99) ^ 2) * width ^ 2 := by
      rw [show z ^ 2 = (width / 2) ^ 2 - (-5 * width + (i : ℝ) * (10 * width / 99)) ^ 2 by linarith]; ring
    have hz' : (20 * (i : ℤ) - 990) ^ 2 ≤ 99 ^ 2 := by exact_mod_cast hsq
    have hlo : 45 ≤ i := by
      by_contra hc
      have : (i : ℤ) ≤ 44 := by omega
      nlinarith
    have hhi : i ≤ 54 := by
      by_contra hc
      have : (55 : ℤ) ≤ i := by omega
      nlinarith
    rw [hz2]
    interval_cases i
    · exact ⟨45, by simp, by norm_num⟩
    · exact ⟨35, by simp, by norm_num⟩
    · exact ⟨25, by simp, by norm_num⟩
    · exact ⟨15, by simp, by norm_num⟩
    · exact ⟨5, by simp, by norm_num⟩
    · exact ⟨5, by simp, by norm_num⟩
    · exact ⟨15, by simp, by norm_num⟩
    · exact ⟨25, by simp, by norm_num⟩
    · exact ⟨35, by simp, by norm_num⟩
    · exact ⟨45, by simp, by norm_num⟩
  · rintro ⟨j, hj, hz2⟩ x
    have key : ∀ k : ℕ, k < 100 → (10 * (k : ℝ) - 495) = j →
        stripShear (force / (length * width) / 1000) (width / 2) z x ≤ devStress force length width z := by
      intro k hk hkj
      refine le_trans ?_ (hall k hk)
      rw [stripShear_le_iff _ _ _ _ _ hq ha hz]
      have : z ^ 2 + (-5 * width + (k : ℝ) * (10 * width / 99)) ^ 2 - (width / 2) ^ 2 = 0 := by
        rw [hz2, ← hkj]; ring
      rw [this, zero_pow two_ne_zero]
      exact sq_nonneg _
    simp only [List.mem_cons, List.not_mem_nil, or_false] at hj
    rcases hj with rfl | rfl | rfl | rfl | rfl
    · exact key 50 (by norm_num) (by norm_num)
    · exact key 51 (by norm_num) (by norm_num)
    · exact key 52 (by norm_num) (by norm_num)
    · exact key 53 (by norm_num) (by norm_num)
    · exact key 54 (by norm_num) (by norm_num)

/-- The condition of `C92_iff` is met by a depth close to half the width and not by half the width itself. -/
example (w : ℝ) (hw : 0 < w) : (∃ j ∈ ([5, 15, 25, 35, 45] : List ℝ), (Real.sqrt (1 / 4 - (5 / 99) ^ 2) * w) ^ 2 = (1 / 4 - (j / 99) ^ 2) * w ^ 2) ∧
    ¬ ∃ j ∈ ([5, 15, 25, 35, 45] : List ℝ), (w / 2) ^ 2 = (1 / 4 - (j / 99) ^ 2) * w ^ 2 := by
  constructor
  · exact ⟨5, by simp, by rw [mul_pow, Real.sq_sqrt (by norm_num)]⟩
  · rintro ⟨j, hj, h⟩
    simp only [List.mem_cons, List.not_mem_nil, or_false] at hj
    have hw2 : 0 < w ^ 2 := by positivity
    rcases hj with rfl | rfl | rfl | rfl | rfl <;> nlinarith

/-- **C92, deep layers** From half the width of the loaded area downwards the stress used is at least 99.8 % of the largest shear stress on the
line at the depth of the layer, whatever the load and its area. -/
theorem C92_deep (force length width z : ℝ) (hf : 0 ≤ force) (hl : 0 < length) (hw : 0 < width) (hz : width / 2 ≤ z) (x : ℝ) :
    998 / 1000 * stripShear (force / (length * width) / 1000) (width / 2) z x ≤ devStress force length width z := by
  have hz0 : 0 < z := by linarith
  obtain ⟨-, hall, -⟩ := C92_strip_partial force length width z hf hl hw hz0
  beta_reduce at hall
  refine le_trans ?_ (hall 50 (by norm_num))
  generalize hA : width / 2 = a at *
  have ha : 0 < a := by rw [← hA]; positivity
  have hq : 0 ≤ force / (length * width) / 1000 := by positivity
  generalize force / (length * width) / 1000 = q at *
  have hx : -5 * width + ((50 : ℕ) : ℝ) * (10 * width / 99) = 10 * a / 99 := by rw [← hA]; push_cast; ring
  rw [hx, stripShear_eq, stripShear_eq, mul_left_comm]
  apply mul_le_mul_of_nonneg_left _ (div_nonneg hq Real.pi_pos.le)
  have hP : 0 < (z ^ 2 + x ^ 2 - a ^ 2) ^ 2 + (2 * a * z) ^ 2 := by positivity
  have hS : 0 < (z ^ 2 + (10 * a / 99) ^ 2 - a ^ 2) ^ 2 + (2 * a * z) ^ 2 := by positivity
  have h0 : (z ^ 2 + a ^ 2) ^ 2 ≤ (z ^ 2 + x ^ 2 - a ^ 2) ^ 2 + (2 * a * z) ^ 2 := by
    have h1 : 0 ≤ z ^ 2 - a ^ 2 := by nlinarith
    nlinarith [sq_nonneg x, mul_nonneg h1 (sq_nonneg x), sq_nonneg (x ^ 2)]
  have h1 : (998 / 1000 : ℝ) ^ 2 * ((z ^ 2 + (10 * a / 99) ^ 2 - a ^ 2) ^ 2 + (2 * a * z) ^ 2) ≤ (z ^ 2 + a ^ 2) ^ 2 := by
    nlinarith [sq_nonneg (z ^ 2 - 3 * a ^ 2), sq_nonneg (z ^ 2), sq_nonneg (a ^ 2), mul_pos ha ha, mul_pos hz0 hz0,
      mul_nonneg (sq_nonneg z) (sq_nonneg a)]
  have h2 : 998 / 1000 * Real.sqrt ((z ^ 2 + (10 * a / 99) ^ 2 - a ^ 2) ^ 2 + (2 * a * z) ^ 2) ≤
      Real.sqrt ((z ^ 2 + x ^ 2 - a ^ 2) ^ 2 + (2 * a * z) ^ 2) := by
    apply Real.le_sqrt_of_sq_le
    rw [mul_pow, Real.sq_sqrt hS.le]
    exact h1.trans h0
  rw [← mul_div_assoc, div_le_div_iff₀ (Real.sqrt_pos.2 hP) (Real.sqrt_pos.2 hS)]
  have h3 : 0 ≤ 2 * a * z := by positivity
  nlinarith [mul_le_mul_of_nonneg_left h2 h3]

/-- **C92, shallow layers** Up to a twentieth of the width the stress used is at most `25 z / width` times the largest shear stress on the line, so
that for layers at the surface it goes to zero although the largest stress does not depend on the depth: it is the load divided by
pi at all depths up to half the width. -/
theorem C92_shallow (force length width z : ℝ) (hf : 0 ≤ force) (hl : 0 < length) (hw : 0 < width) (hz : 0 < z) (hs : z ≤ width / 20) :
    let q := force / (length * width) / 1000
    devStress force length width z ≤ 25 * (z / width) * (q / Real.pi) ∧
      ∃ x, stripShear q (width / 2) z x = q / Real.pi := by
  intro q
  have hq : 0 ≤ q := by positivity
  have hp := Real.pi_pos
  obtain ⟨⟨i, hi, h⟩, -, -⟩ := C92_strip_partial force length width z hf hl hw hz
  beta_reduce at h
  constructor
  · rw [h, stripShear_eq, mul_comm]
    apply mul_le_mul_of_nonneg_right _ (div_nonneg hq hp.le)
    set X := -5 * width + (i : ℝ) * (10 * width / 99) with hX
    have hlow : (16 / 100 * (width / 2) ^ 2) ^ 2 ≤ (z ^ 2 + X ^ 2 - (width / 2) ^ 2) ^ 2 := by
      have hX2 : X ^ 2 = ((20 * (i : ℝ) - 990) / 99) ^ 2 * (width / 2) ^ 2 := by rw [hX]; ring
      have hW : 0 < (width / 2) ^ 2 := by positivity
      have hz2 : z ^ 2 ≤ 1 / 100 * (width / 2) ^ 2 := by nlinarith
      have hz0 : 0 < z ^ 2 := by positivity
      have hdis : (20 * (i : ℝ) - 990) ^ 2 ≤ 90 ^ 2 ∨ (110 : ℝ) ^ 2 ≤ (20 * (i : ℝ) - 990) ^ 2 := by
        have : (20 * (i : ℤ) - 990) ^ 2 ≤ 90 ^ 2 ∨ (110 : ℤ) ^ 2 ≤ (20 * (i : ℤ) - 990) ^ 2 := by
          rcases Nat.lt_or_ge i 45 with h1 | h1
          · right; have : (i : ℤ) ≤ 44 := by omega
            nlinarith
          · rcases Nat.lt_or_ge i 55 with h2 | h2
            · left
              have a1 : (i : ℤ) ≤ 54 := by omega
              have a2 : (45 : ℤ) ≤ i := by omega
              nlinarith
            · right; have : (55 : ℤ) ≤ i := by omega
              nlinarith
        rcases this with h1 | h1
        · left; exact_mod_cast h1
        · right; exact_mod_cast h1
      rcases hdis with h1 | h1
      · have : X ^ 2 ≤ 83 / 100 * (width / 2) ^ 2 := by
          rw [hX2]; apply mul_le_mul_of_nonneg_right _ hW.le
          rw [div_pow]; linarith
        nlinarith
      · have : 123 / 100 * (width / 2) ^ 2 ≤ X ^ 2 := by
          rw [hX2]; apply mul_le_mul_of_nonneg_right _ hW.le
          rw [div_pow]; linarith
        nlinarith
    have hsq : 16 / 100 * (width / 2) ^ 2 ≤ Real.sqrt ((z ^ 2 + X ^ 2 - (width / 2) ^ 2) ^ 2 + (2 * (width / 2) * z) ^ 2) :=
      Real.le_sqrt_of_sq_le (by nlinarith [sq_nonneg (2 * (width / 2) * z)])
    refine (div_le_div_of_nonneg_left (by positivity) (by positivity) hsq).trans (le_of_eq ?_)
    field_simp
    norm_num
  · have h0 : 0 ≤ (width / 2) ^ 2 - z ^ 2 := by nlinarith
    refine ⟨Real.sqrt ((width / 2) ^ 2 - z ^ 2), ?_⟩
    rw [stripShear_eq, Real.sq_sqrt h0]
    have : (z ^ 2 + ((width / 2) ^ 2 - z ^ 2) - (width / 2) ^ 2) ^ 2 + (2 * (width / 2) * z) ^ 2 = (2 * (width / 2) * z) ^ 2 := by ring
    rw [this, Real.sqrt_sq (by positivity), div_self (by positivity), mul_one]

example : (0 : ℝ) ≤ 50000 ∧ (0 : ℝ) < 2.5 ∧ (0 : ℝ) < 0.25 ∧ (0.25 : ℝ) / 2 ≤ 1 ∧ (0 : ℝ) < 0.01 ∧ (0.01 : ℝ) ≤ 0.25 / 20 := by norm_num

end Rose
