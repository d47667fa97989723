import Verif.Props.AnalyticalHinge

set_option linter.unusedSectionVars false

namespace Rose
open Rose.Spec Set

/-! ### C153: for which loads on the right part the hinge moves most -/

/-- The displacements of the two parts under a load on the right part. -/
theorem hinged_right_values (s : HingedBeamFormula ℝ) (hE : 0 < s.EI) (ha : 0 < s.leftLength) (hb : 0 < s.rightLength) (x : ℝ)
    (h0 : s.leftLength < x) (h1 : x < s.leftLength + s.rightLength) (w z : ℝ → ℝ)
    (h : HingedDeflection s.EI s.leftLength s.rightLength s.load x w z) :
    (∀ y ∈ Icc 0 s.leftLength, w y = s.load * ((1 - (x - s.leftLength) / s.rightLength) * clampedAt s.EI 1 y s.leftLength)) ∧
    ∀ y ∈ Icc 0 s.rightLength, z y = s.load * (simpleSupportStaticAt s.EI s.rightLength 1 y (x - s.leftLength) +
      (1 - y / s.rightLength) * (1 - (x - s.leftLength) / s.rightLength) * (s.leftLength ^ 3 / (3 * s.EI))) := by
  have hm := (C153_hinge s hE.ne' ha hb x (by linarith) h1.le).2 w z h
  have hmax : s.maxDisp x = (1 - (x - s.leftLength) / s.rightLength) * s.load * s.leftLength ^ 3 / (3 * s.EI) := by
    unfold HingedBeamFormula.maxDisp
    rw [if_neg (fun hc => absurd hc.2 (not_lt.2 h0.le)), if_pos ⟨h0.le, by linarith⟩, HingedBeamFormula.rightPart]
  constructor
  · intro y hy
    have e := hinged_betti h (hinged_left (F := 1) hE.ne' hb hy.1 hy.2)
    rw [if_neg (not_le.2 h0), if_pos hy.2, one_mul] at e
    rw [← e]
    congr 1
    have hz : simpleSupportStaticAt s.EI s.rightLength 0 0 (x - s.leftLength) = 0 := by
      unfold simpleSupportStaticAt; simp
    rw [hangingAt, hz]
    ring
  · intro y hy
    rcases eq_or_lt_of_le hy.1 with h' | h'
    · rw [← h', hm.2, hmax]
      have hz : simpleSupportStaticAt s.EI s.rightLength 1 0 (x - s.leftLength) = 0 := by
        unfold simpleSupportStaticAt
        simp only
        rw [if_neg (fun hc => by linarith [hc.2])]
        simp
      rw [hz]
      ring
    · have e := hinged_betti h (hinged_right (F := 1) (x := s.leftLength + y) hE.ne' ha hb (by linarith) (by linarith [hy.2]))
      rw [if_neg (not_le.2 h0), if_neg (by linarith), one_mul, one_mul, add_sub_cancel_left] at e
      rw [← e, hangingAt, clampedAt, if_pos le_rfl]
      congr 1
      congr 1
      have := hE.ne'
      field_simp
      ring

/-- **C153, the largest displacement, exactly** For a load strictly inside the right part, with the distance `r` to its support: no point of the
beam moves more than `calculate_max_disp` says if and only if `b * (b ^ 2 - r ^ 2) ≤ 2 * a ^ 3`, where `a` is the length of the
clamped part and `b` the length of the other. -/
theorem C153_max_iff (s : HingedBeamFormula ℝ) (hE : 0 < s.EI) (ha : 0 < s.leftLength) (hb : 0 < s.rightLength) (hF : s.load ≠ 0) (x : ℝ)
    (h0 : s.leftLength < x) (h1 : x < s.leftLength + s.rightLength) (w z : ℝ → ℝ)
    (h : HingedDeflection s.EI s.leftLength s.rightLength s.load x w z) :
    ((∀ y ∈ Icc 0 s.leftLength, |w y| ≤ |s.maxDisp x|) ∧ ∀ y ∈ Icc 0 s.rightLength, |z y| ≤ |s.maxDisp x|) ↔
      s.rightLength * (s.rightLength ^ 2 - (s.leftLength + s.rightLength - x) ^ 2) ≤ 2 * s.leftLength ^ 3 := by
  obtain ⟨hw, hz⟩ := hinged_right_values s hE ha hb x h0 h1 w z h
  have hmax : s.maxDisp x = s.load * ((1 - (x - s.leftLength) / s.rightLength) * (s.leftLength ^ 3 / (3 * s.EI))) := by
    unfold HingedBeamFormula.maxDisp
    rw [if_neg (fun hc => absurd hc.2 (not_lt.2 h0.le)), if_pos ⟨h0.le, by linarith⟩, HingedBeamFormula.rightPart]
    ring
  generalize s.leftLength = a at *
  generalize s.rightLength = b at *
  generalize s.EI = E at *
  generalize s.load = F at *
  clear h
  obtain ⟨r, rfl⟩ : ∃ r, x = a + b - r := ⟨a + b - x, by ring⟩
  have hr : 0 < r := by linarith
  have hrb : r < b := by linarith
  have e1 : a + b - r - a = b - r := by ring
  have e2 : a + b - (a + b - r) = r := by ring
  have e3 : 1 - (b - r) / b = r / b := by field_simp; ring
  rw [e1] at hw hz hmax
  rw [e3] at hw hz hmax
  rw [e2]
  have hF' : 0 < |F| := abs_pos.2 hF
  have hM : 0 < r / b * (a ^ 3 / (3 * E)) := by positivity
  rw [hmax, abs_mul, abs_of_pos hM]
  have S1 : ∀ y, 0 ≤ y → y < b - r → simpleSupportStaticAt E b 1 y (b - r) = y * r / (6 * b * E) * (b ^ 2 - y ^ 2 - r ^ 2) := by
    intro y hy hyp
    unfold simpleSupportStaticAt
    simp only
    rw [if_neg (fun hc => by linarith [hc.2]), if_pos (by linarith)]
    ring
  have S2 : ∀ y, b - r ≤ y → simpleSupportStaticAt E b 1 y (b - r) =
      (b - y) * (b - r) / (6 * b * E) * (b ^ 2 - (b - y) ^ 2 - (b - r) ^ 2) := by
    intro y hy
    unfold simpleSupportStaticAt
    simp only
    rw [if_pos ⟨by linarith, hy⟩]
    ring
  have hEq : ∀ S y : ℝ, S + (1 - y / b) * (r / b) * (a ^ 3 / (3 * E)) =
      r / b * (a ^ 3 / (3 * E)) + (S - y / b * (r / b) * (a ^ 3 / (3 * E))) := by intro S y; ring
  constructor
  · rintro ⟨-, hz'⟩
    by_contra hc
    push Not at hc
    set D := b * (b ^ 2 - r ^ 2) - 2 * a ^ 3 with hD
    have hD0 : 0 < D := by linarith
    set y := min ((b - r) / 2) (min 1 (D / (2 * b))) with hy
    have hy0 : 0 < y := lt_min (by linarith) (lt_min one_pos (by positivity))
    have hyp : y ≤ (b - r) / 2 := min_le_left _ _
    have hy1 : y ≤ 1 := (min_le_right _ _).trans (min_le_left _ _)
    have hy2 : y ≤ D / (2 * b) := (min_le_right _ _).trans (min_le_right _ _)
    have hy3 : b * y ≤ D / 2 := by
      have := mul_le_mul_of_nonneg_left hy2 hb.le
      have e : b * (D / (2 * b)) = D / 2 := by field_simp
      rwa [e] at this
    have hyy : b * y ^ 2 ≤ D / 2 := by nlinarith [mul_pos hb hy0]
    have := hz' y ⟨hy0.le, by linarith⟩
    rw [hz y ⟨hy0.le, by linarith⟩, S1 y hy0.le (by linarith), hEq, abs_mul] at this
    have h2 := le_of_mul_le_mul_left this hF'
    have hgap : 0 < y * r / (6 * b * E) * (b ^ 2 - y ^ 2 - r ^ 2) - y / b * (r / b) * (a ^ 3 / (3 * E)) := by
      have e : y * r / (6 * b * E) * (b ^ 2 - y ^ 2 - r ^ 2) - y / b * (r / b) * (a ^ 3 / (3 * E)) =
          y * r / (6 * b ^ 2 * E) * (b * (b ^ 2 - r ^ 2) - b * y ^ 2 - 2 * a ^ 3) := by field_simp; ring
      rw [e]
      apply mul_pos (by positivity)
      linarith
    have h3 := (le_abs_self _).trans h2
    linarith
  · intro hc
    constructor
    · intro y hy
      rw [hw y hy, abs_mul]
      apply mul_le_mul_of_nonneg_left _ hF'.le
      have hcl := clampedAt_mono hE ha.le hy.1 hy.2 le_rfl
      rw [abs_of_nonneg (mul_nonneg (by positivity) hcl.1)]
      apply mul_le_mul_of_nonneg_left _ (by positivity)
      refine hcl.2.trans (le_of_eq ?_)
      rw [clampedAt, if_pos le_rfl]
      field_simp
      ring
    · intro y hy
      have hyb : 0 ≤ b - y := by linarith [hy.2]
      have hS : 0 ≤ simpleSupportStaticAt E b 1 y (b - r) ∧
          simpleSupportStaticAt E b 1 y (b - r) ≤ y / b * (r / b) * (a ^ 3 / (3 * E)) := by
        rcases lt_or_ge y (b - r) with hlt | hge
        · rw [S1 y hy.1 hlt]
          constructor
          · apply mul_nonneg (by have := hy.1; positivity)
            nlinarith [hy.1]
          · have e : y / b * (r / b) * (a ^ 3 / (3 * E)) - y * r / (6 * b * E) * (b ^ 2 - y ^ 2 - r ^ 2) =
                y * r / (6 * b ^ 2 * E) * (2 * a ^ 3 - b * (b ^ 2 - r ^ 2) + b * y ^ 2) := by field_simp; ring
            rw [← sub_nonneg, e]
            apply mul_nonneg (by have := hy.1; positivity)
            have : 0 ≤ b * y ^ 2 := by positivity
            linarith
        · rw [S2 y hge]
          have hbr : 0 ≤ b - r := by linarith
          generalize hq : b - y = q at *
          have hqr : q ≤ r := by linarith
          constructor
          · apply mul_nonneg (by positivity)
            nlinarith
          · have hyq : y = b - q := by linarith
            have e : y / b * (r / b) * (a ^ 3 / (3 * E)) - q * (b - r) / (6 * b * E) * (b ^ 2 - q ^ 2 - (b - r) ^ 2) =
                1 / (6 * b ^ 2 * E) * ((b - q) * r * (2 * a ^ 3) - b * (q * (b - r)) * (b ^ 2 - q ^ 2 - (b - r) ^ 2)) := by
              rw [hyq]; field_simp; ring
            rw [← sub_nonneg, e]
            apply mul_nonneg (by positivity)
            have hpoly : 0 ≤ b ^ 2 * r + b * r ^ 2 - 3 * b * q * r + q ^ 3 := by
              have g1 : b ^ 2 * r + b * r ^ 2 - 3 * b * q * r + q ^ 3 =
                  r * (b - r) ^ 2 + (r - q) * (3 * (b * r) - (q ^ 2 + q * r + r ^ 2)) := by ring
              rw [g1]
              have g2 : q ^ 2 + q * r + r ^ 2 ≤ 3 * (b * r) := by nlinarith
              have g3 := mul_nonneg (sub_nonneg.2 hqr) (sub_nonneg.2 g2)
              have g4 : 0 ≤ r * (b - r) ^ 2 := by positivity
              linarith
            have h3 : (b - q) * r * (b * (b ^ 2 - r ^ 2)) ≤ (b - q) * r * (2 * a ^ 3) :=
              mul_le_mul_of_nonneg_left hc (mul_nonneg (by linarith) hr.le)
            have h4 : (b - q) * r * (b * (b ^ 2 - r ^ 2)) - b * (q * (b - r)) * (b ^ 2 - q ^ 2 - (b - r) ^ 2) =
                b * (b - r) * (b ^ 2 * r + b * r ^ 2 - 3 * b * q * r + q ^ 3) := by ring
            have h5 : 0 ≤ b * (b - r) * (b ^ 2 * r + b * r ^ 2 - 3 * b * q * r + q ^ 3) :=
              mul_nonneg (mul_nonneg hb.le hbr) hpoly
            linarith
      rw [hz y hy, hEq, abs_mul]
      apply mul_le_mul_of_nonneg_left _ hF'.le
      have hyr : 0 ≤ 1 - y / b := by
        have := (div_le_one hb).2 hy.2
        linarith
      have hn : 0 ≤ (1 - y / b) * (r / b) * (a ^ 3 / (3 * E)) := by positivity
      rw [abs_of_nonneg (by rw [← hEq]; linarith [hS.1])]
      linarith [hS.2]

/-- The beam of the benchmark meets the condition for all loads on the right part; a beam with a short clamped part does not. -/
example (r : ℝ) : (50 : ℝ) * (50 ^ 2 - r ^ 2) ≤ 2 * 50 ^ 3 ∧ ¬ (10 : ℝ) * (10 ^ 2 - 5 ^ 2) ≤ 2 * 1 ^ 3 := by
  constructor
  · nlinarith [sq_nonneg r]
  · norm_num

end Rose
