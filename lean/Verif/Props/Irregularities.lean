import Verif.Model.Irregularities
import Mathlib.Data.List.GetD

set_option linter.unusedSectionVars false

namespace Rose

/-! ### C63: rail defect -/

/-- `q` lies on the segment from `a` to `b`. -/
def OnSegment (a b q : ℝ × ℝ) : Prop :=
  ∃ t : ℝ, 0 ≤ t ∧ t ≤ 1 ∧ q = (a.1 + t * (b.1 - a.1), a.2 + t * (b.2 - a.2))

/-- `q` lies on the polyline through the points. -/
def OnProfile : List (ℝ × ℝ) → ℝ × ℝ → Prop
  | a :: b :: rest, q => OnSegment a b q ∨ OnProfile (b :: rest) q
  | _, _ => False

/-- A wheel of radius `R` with its centre at `(x, c)` is above the profile: every point of the profile below the wheel is
at or below the lower arc of the wheel. -/
def WheelAbove (pts : List (ℝ × ℝ)) (R x c : ℝ) : Prop :=
  ∀ q, OnProfile pts q → |x - q.1| ≤ R → q.2 ≤ c - Real.sqrt (R ^ 2 - (x - q.1) ^ 2)

theorem sq_le_of_abs_le {d R : ℝ} (h : |d| ≤ R) : d ^ 2 ≤ R ^ 2 := by
  have := abs_nonneg d
  rw [← sq_abs d]; nlinarith

theorem cauchy_arc (nx ny d R : ℝ) (hn : nx ^ 2 + ny ^ 2 = 1) (hR : 0 ≤ R) (hd : |d| ≤ R) :
    nx * d + ny * Real.sqrt (R ^ 2 - d ^ 2) ≤ R := by
  have hs := Real.sq_sqrt (sub_nonneg.2 (sq_le_of_abs_le hd))
  set s := Real.sqrt (R ^ 2 - d ^ 2)
  nlinarith [sq_nonneg (nx * s - ny * d), sq_nonneg (nx * d + ny * s - R), sq_nonneg (nx * d + ny * s + R)]

theorem le_of_sq_le_sq' {a b : ℝ} (h : a ^ 2 ≤ b ^ 2) (hb : 0 ≤ b) : a ≤ b := by
  by_contra hc
  push Not at hc
  nlinarith

/-- Left of the tangent point the height of the wheel over a line increases. -/
theorem arc_mono (nx ny d dA R : ℝ) (hn : nx ^ 2 + ny ^ 2 = 1) (hny : 0 < ny) (hR : 0 ≤ R) (hd : |d| ≤ R)
    (h1 : d ≤ dA) (h2 : dA ≤ nx * R) :
    |dA| ≤ R ∧ 0 ≤ nx / ny * (dA - d) + Real.sqrt (R ^ 2 - dA ^ 2) - Real.sqrt (R ^ 2 - d ^ 2) := by
  have hnx : nx ≤ 1 := by nlinarith
  have hdA : |dA| ≤ R := by
    rw [abs_le] at hd ⊢
    constructor
    · linarith
    · nlinarith
  refine ⟨hdA, ?_⟩
  rcases eq_or_lt_of_le h1 with rfl | hlt
  · simp
  have hsA := Real.sq_sqrt (sub_nonneg.2 (sq_le_of_abs_le hdA))
  have hs := Real.sq_sqrt (sub_nonneg.2 (sq_le_of_abs_le hd))
  have hsA0 : 0 ≤ Real.sqrt (R ^ 2 - dA ^ 2) := Real.sqrt_nonneg _
  have hs0 : 0 ≤ Real.sqrt (R ^ 2 - d ^ 2) := Real.sqrt_nonneg _
  set sA := Real.sqrt (R ^ 2 - dA ^ 2)
  set s := Real.sqrt (R ^ 2 - d ^ 2)
  have hpos : 0 < sA := by
    rcases eq_or_lt_of_le hsA0 with h0 | h0
    · exfalso
      rw [← h0] at hsA
      have hR2 : dA ^ 2 = R ^ 2 := by linarith
      rw [abs_le] at hd hdA
      rcases sq_eq_sq_iff_eq_or_eq_neg.1 hR2 with h | h
      · -- dA = R, so nx = 1 or R = 0
        have hR0 : R = 0 := by
          by_contra hne
          have hRp : 0 < R := lt_of_le_of_ne hR (Ne.symm hne)
          have : 1 ≤ nx := by
            rw [h] at h2
            nlinarith
          nlinarith
        linarith
      · linarith
    · exact h0
  -- tangent bound
  have htan : s * sA ≤ R ^ 2 - d * dA := by
    nlinarith [sq_nonneg (s - sA), sq_nonneg (d - dA)]
  have hslope : dA * ny ≤ nx * sA := by
    rcases le_total 0 nx with hx | hx
    · rcases le_total dA 0 with h0 | h0
      · nlinarith [mul_nonneg hx hsA0, mul_nonneg (neg_nonneg.2 h0) hny.le]
      · apply le_of_sq_le_sq' 
        · nlinarith [mul_nonneg hx hR]
        · exact mul_nonneg hx hsA0
    · have hneg : dA ≤ 0 := le_trans h2 (mul_nonpos_of_nonpos_of_nonneg hx hR)
      have : (-nx) * sA ≤ (-dA) * ny := by
        apply le_of_sq_le_sq'
        · nlinarith [mul_nonneg (neg_nonneg.2 hx) hR]
        · exact mul_nonneg (neg_nonneg.2 hneg) hny.le
      linarith
  have h3 : s - sA ≤ dA * (dA - d) / sA := by
    rw [le_div_iff₀ hpos]; nlinarith
  have h4 : dA / sA ≤ nx / ny := by
    rw [div_le_div_iff₀ hpos hny]; exact hslope
  have h5 : dA * (dA - d) / sA = dA / sA * (dA - d) := by ring
  have h6 := mul_le_mul_of_nonneg_right h4 (sub_nonneg.2 hlt.le)
  linarith

theorem vertex_some (R x : ℝ) (v : ℝ × ℝ) (h : |x - v.1| ≤ R) :
    vertexCandidate R x v = some (v.2 + Real.sqrt (R ^ 2 - (x - v.1) ^ 2) - R) := by
  unfold vertexCandidate
  rw [if_pos h, max_eq_right (sub_nonneg.2 (sq_le_of_abs_le h))]

/-- Geometry of a segment that is not vertical. -/
theorem segment_normal (a b : ℝ × ℝ) (h : a.1 < b.1) :
    let len := Real.sqrt ((b.1 - a.1) ^ 2 + (b.2 - a.2) ^ 2)
    0 < len ∧ 0 < (b.1 - a.1) / len ∧ (-(b.2 - a.2) / len) ^ 2 + ((b.1 - a.1) / len) ^ 2 = 1 ∧
      (b.2 - a.2) / (b.1 - a.1) = -((-(b.2 - a.2) / len) / ((b.1 - a.1) / len)) := by
  intro len
  have hdx : 0 < b.1 - a.1 := sub_pos.2 h
  have hpos : 0 < (b.1 - a.1) ^ 2 + (b.2 - a.2) ^ 2 := by positivity
  have hl : 0 < len := Real.sqrt_pos.2 hpos
  have hsq : len ^ 2 = (b.1 - a.1) ^ 2 + (b.2 - a.2) ^ 2 := Real.sq_sqrt hpos.le
  refine ⟨hl, div_pos hdx hl, ?_, ?_⟩
  · rw [div_pow, div_pow, ← add_div, div_eq_one_iff_eq (by positivity), hsq]; ring
  · field_simp

/-- Every point of a segment is dominated by a candidate of the segment or of its end points. -/
theorem segment_dominated (R x : ℝ) (hR : 0 ≤ R) (a b q : ℝ × ℝ) (hab : a.1 ≤ b.1) (hq : OnSegment a b q) (hx : |x - q.1| ≤ R) :
    ∃ c, (vertexCandidate R x a = some c ∨ vertexCandidate R x b = some c ∨ segmentCandidate R x a b = some c) ∧
      q.2 + Real.sqrt (R ^ 2 - (x - q.1) ^ 2) - R ≤ c := by
  obtain ⟨t, ht0, ht1, rfl⟩ := hq
  simp only at hx ⊢
  rcases eq_or_lt_of_le hab with heq | hlt
  · -- vertical
    have h0 : a.1 + t * (b.1 - a.1) = a.1 := by rw [heq]; ring
    rw [h0] at hx ⊢
    rcases le_total a.2 b.2 with h | h
    · refine ⟨_, Or.inr (Or.inl (vertex_some R x b (by rw [← heq]; exact hx))), ?_⟩
      rw [← heq]
      nlinarith
    · refine ⟨_, Or.inl (vertex_some R x a hx), ?_⟩
      nlinarith
  · obtain ⟨hl, hny, hn, hsl⟩ := segment_normal a b hlt
    set len := Real.sqrt ((b.1 - a.1) ^ 2 + (b.2 - a.2) ^ 2) with hlen
    set nx := -(b.2 - a.2) / len with hnx
    set ny := (b.1 - a.1) / len with hnyd
    have hdx : 0 < b.1 - a.1 := sub_pos.2 hlt
    set m := (b.2 - a.2) / (b.1 - a.1) with hm
    have hqy : ∀ u, a.2 + u * (b.2 - a.2) = a.2 + m * (u * (b.1 - a.1)) := by
      intro u; rw [hm]; field_simp
    set d := x - (a.1 + t * (b.1 - a.1)) with hd
    by_cases hA : x - a.1 < nx * R
    · -- left of the range: the first end point
      have hdA : d ≤ x - a.1 := by rw [hd]; nlinarith
      obtain ⟨k1, k2⟩ := arc_mono nx ny d (x - a.1) R hn hny hR hx hdA hA.le
      refine ⟨_, Or.inl (vertex_some R x a k1), ?_⟩
      rw [hqy t]
      have : m * (t * (b.1 - a.1)) = -(nx / ny) * (x - a.1 - d) := by rw [hsl, hd]; ring
      rw [this]; linarith
    · by_cases hB : nx * R < x - b.1
      · have hdB : x - b.1 ≤ d := by rw [hd]; nlinarith
        obtain ⟨k1, k2⟩ := arc_mono (-nx) ny (-d) (-(x - b.1)) R (by rw [neg_sq]; exact hn) hny hR (by rwa [abs_neg])
          (by linarith) (by linarith)
        rw [abs_neg] at k1
        rw [neg_sq, neg_sq] at k2
        refine ⟨_, Or.inr (Or.inl (vertex_some R x b k1)), ?_⟩
        have hb2 : b.2 = a.2 + m * (b.1 - a.1) := by have := hqy 1; linarith
        rw [hqy t, hb2]
        have : m * (t * (b.1 - a.1)) - m * (b.1 - a.1) = -(nx / ny) * ((x - b.1) - d) := by rw [hsl, hd]; ring
        have h3 : -nx / ny * (-(x - b.1) - -d) = (nx / ny) * ((x - b.1) - d) := by ring
        rw [h3] at k2
        linarith
      · push Not at hA hB
        refine ⟨a.2 + ny * R + m * (x - (a.1 + nx * R)) - R, Or.inr (Or.inr ?_), ?_⟩
        · unfold segmentCandidate
          simp only
          rw [← hlen, ← hnx, ← hnyd, if_pos ⟨hl.ne', by linarith, by linarith⟩, if_pos hdx.ne']
        · have hc := cauchy_arc nx ny d R hn hR hx
          rw [hqy t]
          have h1 : m * (t * (b.1 - a.1)) = m * (x - a.1) - m * d := by rw [hd]; ring
          rw [h1]
          have h2 : m * (x - (a.1 + nx * R)) = m * (x - a.1) - m * (nx * R) := by ring
          rw [h2, hsl]
          have h4 : nx / ny * (nx * R) = (1 - ny ^ 2) / ny * R := by
            have : nx ^ 2 = 1 - ny ^ 2 := by linarith
            rw [← this]; ring
          have h5 : (1 - ny ^ 2) / ny * R = R / ny - ny * R := by field_simp
          have h6 : nx / ny * d + Real.sqrt (R ^ 2 - d ^ 2) ≤ R / ny := by
            rw [le_div_iff₀ hny]
            have : (nx / ny * d + Real.sqrt (R ^ 2 - d ^ 2)) * ny = nx * d + ny * Real.sqrt (R ^ 2 - d ^ 2) := by
              field_simp
            rw [this]; exact hc
          nlinarith

/-- Every candidate of a segment is attained at a point of the segment. -/
theorem segment_attained (R x : ℝ) (hR : 0 ≤ R) (a b : ℝ × ℝ) (hab : a.1 ≤ b.1) (c : ℝ) (h : segmentCandidate R x a b = some c) :
    ∃ q, OnSegment a b q ∧ |x - q.1| ≤ R ∧ c = q.2 + Real.sqrt (R ^ 2 - (x - q.1) ^ 2) - R := by
  unfold segmentCandidate at h
  simp only at h
  rcases eq_or_lt_of_le hab with heq | hlt
  · have hdx : b.1 - a.1 = 0 := by rw [heq]; ring
    rw [hdx] at h
    split_ifs at h with h1 h2
    · exact absurd rfl h2
    · cases h
      obtain ⟨hl, hr1, hr2⟩ := h1
      refine ⟨a, ⟨0, le_rfl, zero_le_one, by simp⟩, ?_, ?_⟩
      all_goals
        have hs : Real.sqrt (0 ^ 2 + (b.2 - a.2) ^ 2) = |b.2 - a.2| := by
          rw [zero_pow two_ne_zero, zero_add, Real.sqrt_sq_eq_abs]
        rw [hs] at hr1 hr2 hl
        have hxe : x - a.1 = -(b.2 - a.2) / |b.2 - a.2| * R := by rw [← heq] at hr2; linarith
        have hab1 : (-(b.2 - a.2) / |b.2 - a.2|) ^ 2 = 1 := by
          rw [div_pow, neg_sq, sq_abs]
          exact div_self (by intro h0; apply hl; rw [abs_eq_zero]; exact pow_eq_zero_iff two_ne_zero |>.1 h0)
      · rw [hxe]
        apply le_of_eq
        rw [abs_mul, abs_of_nonneg hR]
        have : abs (-(b.2 - a.2) / |b.2 - a.2|) = 1 := by
          rw [← sq_eq_sq₀ (abs_nonneg _) zero_le_one, sq_abs, hab1]; norm_num
        rw [this, one_mul]
      · have hz : R ^ 2 - (x - a.1) ^ 2 = 0 := by rw [hxe, mul_pow, hab1]; ring
        rw [hz, Real.sqrt_zero]; ring
  · obtain ⟨hl, hny, hn, hsl⟩ := segment_normal a b hlt
    have hdx : 0 < b.1 - a.1 := sub_pos.2 hlt
    set len := Real.sqrt ((b.1 - a.1) ^ 2 + (b.2 - a.2) ^ 2) with hlen
    set nx := -(b.2 - a.2) / len with hnx
    set ny := (b.1 - a.1) / len with hnyd
    split_ifs at h with h1 h2
    · cases h
      obtain ⟨-, hr1, hr2⟩ := h1
      refine ⟨(a.1 + (x - nx * R - a.1) / (b.1 - a.1) * (b.1 - a.1), a.2 + (x - nx * R - a.1) / (b.1 - a.1) * (b.2 - a.2)),
        ⟨(x - nx * R - a.1) / (b.1 - a.1), ?_, ?_, rfl⟩, ?_, ?_⟩
      · exact div_nonneg (by linarith) hdx.le
      · rw [div_le_one hdx]; linarith
      all_goals
        have hq1 : a.1 + (x - nx * R - a.1) / (b.1 - a.1) * (b.1 - a.1) = x - nx * R := by field_simp; ring
        simp only
        rw [hq1]
        have hxx : x - (x - nx * R) = nx * R := by ring
        rw [hxx]
      · rw [abs_mul, abs_of_nonneg hR]
        have : |nx| ≤ 1 := by
          rw [← sq_le_sq₀ (abs_nonneg _) zero_le_one, sq_abs]; nlinarith [sq_nonneg ny]
        nlinarith [abs_nonneg nx]
      · have : R ^ 2 - (nx * R) ^ 2 = (ny * R) ^ 2 := by
          have : nx ^ 2 = 1 - ny ^ 2 := by linarith
          rw [mul_pow, this]; ring
        rw [this, Real.sqrt_sq (mul_nonneg hny.le hR)]
        ring
    · exact absurd hdx.ne' h2

theorem profile_dominated (R x : ℝ) (hR : 0 ≤ R) (pts : List (ℝ × ℝ)) (hs : (pts.map Prod.fst).Pairwise (· ≤ ·)) (q : ℝ × ℝ)
    (hq : OnProfile pts q) (hx : |x - q.1| ≤ R) :
    ∃ c ∈ pts.filterMap (vertexCandidate R x) ++ segmentCandidates R x pts,
      q.2 + Real.sqrt (R ^ 2 - (x - q.1) ^ 2) - R ≤ c := by
  induction pts with
  | nil => exact hq.elim
  | cons a l ih =>
    cases l with
    | nil => exact hq.elim
    | cons b rest =>
      rw [OnProfile] at hq
      rcases hq with hq | hq
      · have hab : a.1 ≤ b.1 := by
          simp only [List.map_cons, List.pairwise_cons] at hs
          exact hs.1 b.1 (by simp)
        obtain ⟨c, hc, hle⟩ := segment_dominated R x hR a b q hab hq hx
        refine ⟨c, ?_, hle⟩
        rw [List.mem_append]
        rcases hc with hc | hc | hc
        · left; exact List.mem_filterMap.2 ⟨a, by simp, hc⟩
        · left; exact List.mem_filterMap.2 ⟨b, by simp, hc⟩
        · right; rw [segmentCandidates, hc]; simp
      · obtain ⟨c, hc, hle⟩ := ih (by simp only [List.map_cons, List.pairwise_cons] at hs ⊢; exact hs.2) hq
        refine ⟨c, ?_, hle⟩
        rw [List.mem_append] at hc ⊢
        rcases hc with hc | hc
        · left
          rw [List.mem_filterMap] at hc ⊢
          obtain ⟨v, hv, h⟩ := hc
          exact ⟨v, List.mem_cons_of_mem _ hv, h⟩
        · right; rw [segmentCandidates, List.mem_append]; right; exact hc

theorem mem_onProfile (pts : List (ℝ × ℝ)) (hlen : 2 ≤ pts.length) : ∀ v ∈ pts, OnProfile pts v := by
  induction pts with
  | nil => simp
  | cons a l ih =>
    cases l with
    | nil => simp at hlen
    | cons b rest =>
      intro v hv
      rw [OnProfile]
      rw [List.mem_cons] at hv
      rcases hv with rfl | hv
      · left; exact ⟨0, le_rfl, zero_le_one, by simp⟩
      · cases rest with
        | nil =>
          left
          rw [List.mem_singleton] at hv
          subst hv
          exact ⟨1, zero_le_one, le_rfl, by simp⟩
        | cons c rest => right; exact ih (by simp) v hv

theorem profile_attained (R x : ℝ) (hR : 0 ≤ R) (pts : List (ℝ × ℝ)) (hlen : 2 ≤ pts.length)
    (hs : (pts.map Prod.fst).Pairwise (· ≤ ·)) (c : ℝ)
    (hc : c ∈ pts.filterMap (vertexCandidate R x) ++ segmentCandidates R x pts) :
    ∃ q, OnProfile pts q ∧ |x - q.1| ≤ R ∧ c = q.2 + Real.sqrt (R ^ 2 - (x - q.1) ^ 2) - R := by
  rw [List.mem_append] at hc
  rcases hc with hc | hc
  · rw [List.mem_filterMap] at hc
    obtain ⟨v, hv, h⟩ := hc
    by_cases hx : |x - v.1| ≤ R
    · rw [vertex_some R x v hx] at h
      cases h
      exact ⟨v, mem_onProfile pts hlen v hv, hx, rfl⟩
    · unfold vertexCandidate at h; rw [if_neg hx] at h; cases h
  · clear hlen
    induction pts with
    | nil => simp [segmentCandidates] at hc
    | cons a l ih =>
      cases l with
      | nil => simp [segmentCandidates] at hc
      | cons b rest =>
        rw [segmentCandidates, List.mem_append] at hc
        have hs' := hs
        simp only [List.map_cons, List.pairwise_cons] at hs
        rcases hc with hc | hc
        · rw [Option.mem_toList] at hc
          obtain ⟨q, h1, h2, h3⟩ := segment_attained R x hR a b (hs.1 b.1 (by simp)) c hc
          exact ⟨q, Or.inl h1, h2, h3⟩
        · obtain ⟨q, h1, h2, h3⟩ := ih (by simp only [List.map_cons, List.pairwise_cons]; exact hs.2) hc
          exact ⟨q, Or.inr h1, h2, h3⟩

theorem profile_over (pts : List (ℝ × ℝ)) (a z : ℝ × ℝ) (x : ℝ) (h0 : a.1 ≤ x) (hz : x ≤ z.1) :
    ∃ q, OnProfile (a :: pts ++ [z]) q ∧ q.1 = x := by
  have hseg : ∀ a b : ℝ × ℝ, a.1 ≤ x → x ≤ b.1 → ∃ q, OnSegment a b q ∧ q.1 = x := by
    intro a b h1 h2
    rcases eq_or_lt_of_le (le_trans h1 h2) with h | h
    · exact ⟨a, ⟨0, le_rfl, zero_le_one, by simp⟩, by linarith⟩
    · refine ⟨_, ⟨(x - a.1) / (b.1 - a.1), div_nonneg (by linarith) (by linarith), ?_, rfl⟩, ?_⟩
      · rw [div_le_one (by linarith)]; linarith
      · have : b.1 - a.1 ≠ 0 := by linarith
        simp only; field_simp; ring
  induction pts generalizing a with
  | nil =>
    obtain ⟨q, h1, h2⟩ := hseg a z h0 hz
    exact ⟨q, Or.inl h1, h2⟩
  | cons b pts ih =>
    by_cases hb : b.1 ≤ x
    · obtain ⟨q, h1, h2⟩ := ih b hb
      exact ⟨q, Or.inr h1, h2⟩
    · push Not at hb
      obtain ⟨q, h1, h2⟩ := hseg a b h0 hb.le
      exact ⟨q, Or.inl h1, h2⟩

/-- Existence and characterisation of the computed irregularity. -/
theorem railDefectAt_spec (R x : ℝ) (hR : 0 ≤ R) (pts : List (ℝ × ℝ)) (a z : ℝ × ℝ)
    (hs : ((a :: pts ++ [z]).map Prod.fst).Pairwise (· ≤ ·)) (h0 : a.1 ≤ x) (hz : x ≤ z.1) :
    ∃ y, railDefectAt (a :: pts ++ [z]) R x = some y ∧
      (∀ q, OnProfile (a :: pts ++ [z]) q → |x - q.1| ≤ R → q.2 + Real.sqrt (R ^ 2 - (x - q.1) ^ 2) ≤ R - y) ∧
      (∃ q, OnProfile (a :: pts ++ [z]) q ∧ |x - q.1| ≤ R ∧ q.2 + Real.sqrt (R ^ 2 - (x - q.1) ^ 2) = R - y) := by
  obtain ⟨q0, hq0, hx0⟩ := profile_over pts a z x h0 hz
  obtain ⟨c0, hc0, -⟩ := profile_dominated R x hR _ hs q0 hq0 (by rw [hx0]; simpa using hR)
  unfold railDefectAt
  cases hm : ((a :: pts ++ [z]).filterMap (vertexCandidate R x) ++ segmentCandidates R x (a :: pts ++ [z])).max? with
  | none =>
    rw [List.max?_eq_none_iff] at hm
    rw [hm] at hc0; simp at hc0
  | some m =>
    rw [List.max?_eq_some_iff] at hm
    refine ⟨-m, rfl, ?_, ?_⟩
    · intro q hq hx
      obtain ⟨c, hc, hle⟩ := profile_dominated R x hR _ hs q hq hx
      have := hm.2 c hc
      linarith
    · obtain ⟨q, h1, h2, h3⟩ := profile_attained R x hR _ (by simp) hs m hm.1
      exact ⟨q, h1, h2, by linarith⟩

/-- **C63** For every wheel, every defect given from left to right within the track (vertical steps allowed) and every
position on the track, the centre of the wheel computed from the irregularity (radius minus irregularity: negative is
upward) is the lowest height at which the wheel is above the profile. -/
theorem C63_lowest (R x x0 xl start : ℝ) (hR : 0 ≤ R) (loc : List (ℝ × ℝ))
    (hs : ((defectPoints x0 xl start loc).map Prod.fst).Pairwise (· ≤ ·)) (h0 : x0 ≤ x) (hl : x ≤ xl) :
    ∃ y, railDefectAt (defectPoints x0 xl start loc) R x = some y ∧
      IsLeast {c | WheelAbove (defectPoints x0 xl start loc) R x c} (R - y) := by
  obtain ⟨y, h1, h2, q, hq1, hq2, hq3⟩ := railDefectAt_spec R x hR _ (x0, 0) (xl, 0) hs h0 hl
  refine ⟨y, h1, ?_, ?_⟩
  · intro q hq hx
    have := h2 q hq hx
    linarith
  · intro c hc
    have := hc q hq1 hq2
    linarith

/-- **C63, contact** No point of the profile is inside the wheel, and the wheel touches it. -/
theorem C63_contact (R x x0 xl start : ℝ) (hR : 0 ≤ R) (loc : List (ℝ × ℝ))
    (hs : ((defectPoints x0 xl start loc).map Prod.fst).Pairwise (· ≤ ·)) (h0 : x0 ≤ x) (hl : x ≤ xl) :
    ∃ y, railDefectAt (defectPoints x0 xl start loc) R x = some y ∧
      (∀ q, OnProfile (defectPoints x0 xl start loc) q → R ^ 2 ≤ (x - q.1) ^ 2 + (R - y - q.2) ^ 2) ∧
      (∃ q, OnProfile (defectPoints x0 xl start loc) q ∧ (x - q.1) ^ 2 + (R - y - q.2) ^ 2 = R ^ 2) := by
  obtain ⟨y, h1, h2, q, hq1, hq2, hq3⟩ := railDefectAt_spec R x hR _ (x0, 0) (xl, 0) hs h0 hl
  refine ⟨y, h1, ?_, q, hq1, ?_⟩
  · intro q hq
    by_cases hx : |x - q.1| ≤ R
    · have := h2 q hq hx
      have hsq := Real.sq_sqrt (sub_nonneg.2 (sq_le_of_abs_le hx))
      have h0 := Real.sqrt_nonneg (R ^ 2 - (x - q.1) ^ 2)
      nlinarith
    · push Not at hx
      have : R ^ 2 ≤ (x - q.1) ^ 2 := by rw [← sq_abs (x - q.1)]; nlinarith
      nlinarith [sq_nonneg (R - y - q.2)]
  · have hsq := Real.sq_sqrt (sub_nonneg.2 (sq_le_of_abs_le hq2))
    have : R - y - q.2 = Real.sqrt (R ^ 2 - (x - q.1) ^ 2) := by linarith
    rw [this, hsq]; ring

theorem onProfile_flat (pts : List (ℝ × ℝ)) (h : ∀ p ∈ pts, p.2 = 0) (q : ℝ × ℝ) (hq : OnProfile pts q) : q.2 = 0 := by
  induction pts with
  | nil => exact hq.elim
  | cons a l ih =>
    cases l with
    | nil => exact hq.elim
    | cons b rest =>
      rcases hq with ⟨t, -, -, rfl⟩ | hq
      · simp [h a (by simp), h b (by simp)]
      · exact ih (fun p hp => h p (List.mem_cons_of_mem _ hp)) hq

/-- **C63, flat profile** A profile of height zero gives no irregularity. -/
theorem C63_flat (R x x0 xl start : ℝ) (hR : 0 ≤ R) (loc : List (ℝ × ℝ)) (hflat : ∀ p ∈ loc, p.2 = 0)
    (hs : ((defectPoints x0 xl start loc).map Prod.fst).Pairwise (· ≤ ·)) (h0 : x0 ≤ x) (hl : x ≤ xl) :
    railDefectAt (defectPoints x0 xl start loc) R x = some 0 := by
  have hf : ∀ p ∈ defectPoints x0 xl start loc, p.2 = 0 := by
    intro p hp
    unfold defectPoints at hp
    simp only [List.cons_append, List.mem_cons, List.mem_append, List.mem_map, List.not_mem_nil, or_false] at hp
    rcases hp with rfl | ⟨p', hp', rfl⟩ | rfl
    · rfl
    · exact hflat p' hp'
    · rfl
  obtain ⟨y, h1, h2, q, hq1, hq2, hq3⟩ := railDefectAt_spec R x hR _ (x0, 0) (xl, 0) hs h0 hl
  obtain ⟨q', hq', hx'⟩ := profile_over (loc.map fun p => (p.1 + start, p.2)) (x0, 0) (xl, 0) x h0 hl
  have e1 := h2 q' hq' (by rw [hx']; simpa using hR)
  rw [onProfile_flat _ hf q' hq', hx', sub_self, zero_pow two_ne_zero, sub_zero, Real.sqrt_sq hR] at e1
  rw [onProfile_flat _ hf q hq1] at hq3
  have e2 : Real.sqrt (R ^ 2 - (x - q.1) ^ 2) ≤ R := by
    rw [Real.sqrt_le_left hR]; nlinarith [sq_nonneg (x - q.1)]
  have : y = 0 := by linarith
  rw [← this]; exact h1

/-- The whole array: one value per track point. -/
theorem C63_all_points (xs : List ℝ) (x0 xl diameter start : ℝ) (h0 : xs.head? = some x0) (hl : xs.getLast? = some xl)
    (hxs : ∀ x ∈ xs, x0 ≤ x ∧ x ≤ xl) (hd : 0 ≤ diameter) (loc : List (ℝ × ℝ))
    (hs : ((defectPoints x0 xl start loc).map Prod.fst).Pairwise (· ≤ ·)) :
    ∃ ys, railDefect xs diameter loc start = .ok ys ∧ ys.length = xs.length ∧
      ∀ i (hi : i < xs.length), ∃ y, ys[i]? = some (some y) ∧
        IsLeast {c | WheelAbove (defectPoints x0 xl start loc) (diameter / 2) xs[i] c} (diameter / 2 - y) := by
  refine ⟨_, by unfold railDefect; rw [h0, hl], by simp, ?_⟩
  intro i hi
  have hx := hxs xs[i] (List.getElem_mem _)
  obtain ⟨y, h1, h2⟩ := C63_lowest (diameter / 2) xs[i] x0 xl start (by linarith) loc hs hx.1 hx.2
  exact ⟨y, by simp [List.getElem?_map, List.getElem?_eq_getElem hi, h1], h2⟩

/-- A triangular bump with a step. -/
example : ((defectPoints 0 100 14 [(0, 0), (2, 1 / 500), (5, 1 / 1000), (5, 0)]).map Prod.fst).Pairwise (· ≤ ·) := by
  simp [defectPoints]; norm_num

/-! ### C62: wheel flat -/

theorem ceil_lt_ceil (u v : ℝ) : ⌈u⌉ < ⌈v⌉ ↔ ∃ k : ℤ, u ≤ k ∧ (k : ℝ) < v := by
  constructor
  · intro h
    exact ⟨⌈u⌉, Int.le_ceil u, Int.lt_ceil.1 h⟩
  · rintro ⟨k, h1, h2⟩
    exact lt_of_le_of_lt (Int.ceil_le.2 h1) (Int.lt_ceil.2 h2)

/-- Between samples `i - 1` and `i` the flat comes by: a whole number of revolutions lies in the half-open interval. -/
def FlatPasses (xs : List ℝ) (shift circ : ℝ) (i : ℕ) (k : ℤ) : Prop :=
  xs.getD (i - 1) 0 + shift ≤ k * circ ∧ k * circ < xs.getD i 0 + shift

theorem revolution_lt (xs : List ℝ) (shift circ : ℝ) (hc : 0 < circ) (i : ℕ) :
    revolution xs shift circ (i - 1) < revolution xs shift circ i ↔ ∃ k, FlatPasses xs shift circ i k := by
  unfold revolution FlatPasses
  rw [ceil_lt_ceil]
  simp only [div_le_iff₀ hc, lt_div_iff₀ hc]

theorem mem_flatIndices (xs : List ℝ) (shift circ : ℝ) (hc : 0 < circ) (i : ℕ) :
    i ∈ flatIndices xs shift circ ↔ 1 ≤ i ∧ i + 1 < xs.length ∧ ∃ k, FlatPasses xs shift circ i k := by
  unfold flatIndices
  rw [List.mem_filter, decide_eq_true_eq, revolution_lt xs shift circ hc, List.mem_range'_1]
  constructor
  · rintro ⟨⟨h1, h2⟩, h3⟩; exact ⟨h1, by omega, h3⟩
  · rintro ⟨h1, h2, h3⟩; exact ⟨⟨h1, by omega⟩, h3⟩

/-- **C62, the samples: the part that holds** If a profile is produced, a sample is minus the flat depth exactly if it is
neither the first nor the last sample and the flat comes by between the previous sample and it; all others are
zero. -/
theorem C62_samples_partial (xs : List ℝ) (diameter length shift : ℝ) (hd : 0 < diameter) (ys : List ℝ)
    (h : wheelFlat xs diameter length shift = .ok ys) :
    ys.length = xs.length ∧
    (∀ i, 1 ≤ i → i + 1 < xs.length → (∃ k, FlatPasses xs shift (Real.pi * diameter) i k) →
      ys[i]? = some (-flatDepth diameter length)) ∧
    (∀ i, i < xs.length → ¬ (1 ≤ i ∧ i + 1 < xs.length ∧ ∃ k, FlatPasses xs shift (Real.pi * diameter) i k) →
      ys[i]? = some 0) := by
  have hc : 0 < Real.pi * diameter := mul_pos Real.pi_pos hd
  unfold wheelFlat at h
  simp only at h
  split_ifs at h with h0
  cases h
  refine ⟨by simp, ?_, ?_⟩
  · intro i h1 h2 h3
    have hm := (mem_flatIndices xs shift _ hc i).2 ⟨h1, h2, h3⟩
    rw [List.getElem?_map, List.getElem?_range (by omega), Option.map_some, if_pos hm]
  · intro i hi hn
    have hm : i ∉ flatIndices xs shift (Real.pi * diameter) := fun h => hn ((mem_flatIndices xs shift _ hc i).1 h)
    rw [List.getElem?_map, List.getElem?_range hi, Option.map_some, if_neg hm]

/-- For increasing positions a given revolution is hit at one sample only. -/
theorem C62_no_double (xs : List ℝ) (shift circ : ℝ) (hmono : ∀ i j, i ≤ j → j < xs.length → xs.getD i 0 ≤ xs.getD j 0)
    (i j : ℕ) (hi : 1 ≤ i) (hj : 1 ≤ j) (hil : i < xs.length) (hjl : j < xs.length) (k : ℤ)
    (h1 : FlatPasses xs shift circ i k) (h2 : FlatPasses xs shift circ j k) : i = j := by
  obtain ⟨a1, a2⟩ := h1
  obtain ⟨b1, b2⟩ := h2
  rcases lt_trichotomy i j with h | h | h
  · have := hmono i (j - 1) (by omega) (by omega); linarith
  · exact h
  · have := hmono j (i - 1) (by omega) (by omega); linarith

theorem filter_telescope (f : ℕ → ℤ) (n : ℕ) (hf : ∀ i, 1 ≤ i → i ≤ n → f (i - 1) ≤ f i ∧ f i ≤ f (i - 1) + 1) :
    (((List.range' 1 n).filter fun i => decide (f (i - 1) < f i)).length : ℤ) = f n - f 0 := by
  induction n with
  | zero => simp
  | succ n ih =>
    have ihh := ih (fun i h1 h2 => hf i h1 (by omega))
    rw [List.range'_concat, List.filter_append, List.length_append]
    push_cast
    rw [ihh]
    have h := hf (n + 1) (by omega) le_rfl
    rw [Nat.add_sub_cancel] at h
    simp only [Nat.one_mul]
    rw [Nat.add_comm 1 n]
    by_cases hlt : f n < f (n + 1)
    · simp [hlt]; omega
    · simp [hlt]; omega

/-- **C62, once per revolution: the part that holds** For samples in increasing order, closer than a circumference, the number of
hits is the number of revolutions completed between the first and the last but one sample. -/
theorem C62_count_partial (xs : List ℝ) (shift circ : ℝ) (hc : 0 < circ) (h2 : 2 ≤ xs.length)
    (hstep : ∀ i, 1 ≤ i → i < xs.length → xs.getD (i - 1) 0 ≤ xs.getD i 0 ∧ xs.getD i 0 ≤ xs.getD (i - 1) 0 + circ) :
    ((flatIndices xs shift circ).length : ℤ) = ⌈(xs.getD (xs.length - 2) 0 + shift) / circ⌉ - ⌈(xs.getD 0 0 + shift) / circ⌉ := by
  unfold flatIndices
  refine filter_telescope (revolution xs shift circ) (xs.length - 2) ?_
  intro i h1 hi
  obtain ⟨k1, k2⟩ := hstep i h1 (by omega)
  unfold revolution
  constructor
  · exact Int.ceil_mono (by rw [div_le_div_iff_of_pos_right hc]; linarith)
  · rw [Int.ceil_le]
    push_cast
    have := Int.le_ceil ((xs.getD (i - 1) 0 + shift) / circ)
    have h3 : (xs.getD i 0 + shift) / circ ≤ (xs.getD (i - 1) 0 + shift) / circ + 1 := by
      rw [div_add_one hc.ne', div_le_div_iff_of_pos_right hc]; linarith
    linarith

example : ∃ ys, wheelFlat [0, 1, 2, 3, 4, 5, 6, 7] 1 0.1 0 = .ok ys ∧ ys[1]? = some (-flatDepth 1 0.1) := by
  have hm : 1 ∈ flatIndices [0, 1, 2, 3, 4, 5, 6, 7] 0 (Real.pi * 1) := by
    rw [mem_flatIndices _ _ _ (by have := Real.pi_pos; linarith)]
    exact ⟨le_rfl, by norm_num, 0, by simp [FlatPasses]⟩
  have hne : flatIndices [0, 1, 2, 3, 4, 5, 6, 7] 0 (Real.pi * 1) ≠ [] := List.ne_nil_of_mem hm
  refine ⟨_, by unfold wheelFlat; rw [if_neg hne], ?_⟩
  rw [List.getElem?_map, List.getElem?_range (by norm_num), Option.map_some, if_pos hm]

/-- **C62, depth** The flat is a chord of the wheel: its distance to the centre, its half length and the radius form a right
triangle, and the depth is between zero and the radius. -/
theorem C62_depth (diameter length : ℝ) (hd : 0 < diameter) (h0 : 0 ≤ length) (hl : length ≤ diameter) :
    (diameter / 2 - flatDepth diameter length) ^ 2 + (length / 2) ^ 2 = (diameter / 2) ^ 2 ∧
      0 ≤ flatDepth diameter length ∧ flatDepth diameter length ≤ diameter / 2 := by
  unfold flatDepth
  have hq0 : 0 ≤ length / diameter := div_nonneg h0 hd.le
  have hq : length / diameter ≤ 1 := (div_le_one hd).2 hl
  have hsq : length / diameter ^ 1 = length / diameter := by rw [pow_one]
  have hnn : 0 ≤ 1 - (length / diameter) ^ 2 := by nlinarith
  rw [Real.cos_arcsin]
  have hs := Real.sq_sqrt hnn
  have hs0 := Real.sqrt_nonneg (1 - (length / diameter) ^ 2)
  set s := Real.sqrt (1 - (length / diameter) ^ 2)
  have hs1 : s ≤ 1 := by nlinarith [sq_nonneg (length / diameter)]
  refine ⟨?_, by nlinarith, by nlinarith⟩
  have : (diameter / 2 - (diameter / 2 - diameter / 2 * s)) ^ 2 = (diameter / 2) ^ 2 * s ^ 2 := by ring
  rw [this, hs]
  field_simp; ring

/-- **C62 is violated, track length** If the flat does not come by before the last sample, creating the wheel flat raises an index
error. -/
theorem C62_short_violated (xs : List ℝ) (diameter length shift : ℝ) (hd : 0 < diameter)
    (h : ∀ i k, 1 ≤ i → i + 1 < xs.length → ¬ FlatPasses xs shift (Real.pi * diameter) i k) :
    wheelFlat xs diameter length shift = .error .indexError := by
  have hc : 0 < Real.pi * diameter := mul_pos Real.pi_pos hd
  unfold wheelFlat
  have : flatIndices xs shift (Real.pi * diameter) = [] := by
    rw [List.eq_nil_iff_forall_not_mem]
    intro i hi
    obtain ⟨h1, h2, k, hk⟩ := (mem_flatIndices xs shift _ hc i).1 hi
    exact h i k h1 h2 hk
  simp only [this, if_true]

/-- One metre of track and a wheel of one metre. -/
example : wheelFlat [0.25, 0.5, 0.75, 1, 1.25] 1 0.1 0 = .error .indexError := by
  apply C62_short_violated _ _ _ _ (by norm_num)
  have hpi := Real.two_le_pi
  rintro i k h1 h2 ⟨h3, h4⟩
  have hi : i = 1 ∨ i = 2 ∨ i = 3 := by simp at h2; omega
  have hk0 : 0 < k := by
    have : (0 : ℝ) < k * (Real.pi * 1) := by
      rcases hi with rfl | rfl | rfl <;> simp at h3 <;> linarith
    have h5 : (0 : ℝ) < k := by
      by_contra hcon
      push Not at hcon
      have := mul_nonpos_of_nonpos_of_nonneg hcon (by linarith : (0 : ℝ) ≤ Real.pi * 1)
      linarith
    exact_mod_cast h5
  have hk1 : (1 : ℝ) ≤ k := by exact_mod_cast hk0
  have : (k : ℝ) * (Real.pi * 1) < 2 := by
    rcases hi with rfl | rfl | rfl <;> simp at h4 ⊢ <;> linarith
  nlinarith

/-- **C62 is violated, last sample** The last sample is always zero, also if the flat comes by there. -/
theorem C62_last_violated (xs : List ℝ) (diameter length shift : ℝ) (hd : 0 < diameter) (ys : List ℝ) (hne : xs ≠ [])
    (h : wheelFlat xs diameter length shift = .ok ys) : ys[xs.length - 1]? = some 0 := by
  have hl : 0 < xs.length := List.length_pos_iff.2 hne
  refine (C62_samples_partial xs diameter length shift hd ys h).2.2 _ (by omega) ?_
  rintro ⟨-, h2, -⟩
  omega

/-! ### C64: random irregularities -/

/-- The irregularity as a function of the position. -/
noncomputable def irregProfile (phase : ℕ → ℝ) (p : IrregPar) (x : ℝ) : ℝ :=
  ((List.range p.N).map fun n => p.amplitude n * Real.cos (p.omega n * x - phase n)).sum

theorem railIrregularities_eq (phase : ℕ → ℕ → ℝ) (p : IrregPar) (seed : ℕ) (xs : List ℝ) :
    railIrregularities phase p seed xs = xs.map (irregProfile (phase seed) p) := by
  unfold railIrregularities irregProfile
  have key : ∀ (L : List ℕ) (f : ℝ → ℝ),
      L.foldl (fun acc n => List.zipWith (fun a x => a + p.amplitude n * Real.cos (p.omega n * x - phase seed n)) acc xs)
        (xs.map f) = xs.map fun x => f x + (L.map fun n => p.amplitude n * Real.cos (p.omega n * x - phase seed n)).sum := by
    intro L
    induction L with
    | nil => intro f; simp
    | cons n L ih =>
      intro f
      rw [List.foldl_cons]
      have hz : List.zipWith (fun a x => a + p.amplitude n * Real.cos (p.omega n * x - phase seed n)) (xs.map f) xs =
          xs.map fun x => f x + p.amplitude n * Real.cos (p.omega n * x - phase seed n) := by
        rw [List.zipWith_map_left, List.zipWith_self]
      rw [hz, ih]
      apply List.map_congr_left
      intro x _
      rw [List.map_cons, List.sum_cons]; ring
  have h0 : List.replicate xs.length (0 : ℝ) = xs.map fun _ => 0 := by rw [List.map_const']
  rw [h0, key]
  apply List.map_congr_left
  intro x _
  simp

theorem irregProfile_bound (phase : ℕ → ℝ) (p : IrregPar) (x : ℝ) :
    |irregProfile phase p x| ≤ ((List.range p.N).map p.amplitude).sum := by
  unfold irregProfile
  generalize List.range p.N = L
  induction L with
  | nil => simp
  | cons n L ih =>
    simp only [List.map_cons, List.sum_cons]
    refine le_trans (abs_add_le _ _) (add_le_add ?_ ih)
    rw [abs_mul]
    have h1 : 0 ≤ p.amplitude n := Real.sqrt_nonneg _
    rw [abs_of_nonneg h1]
    have := Real.abs_cos_le_one (p.omega n * x - phase n)
    nlinarith

/-- **C64** For every parameter set and seed there is one function of the position on the track, bounded by the sum of the
amplitudes, such that every wheel of every train sees exactly the values of that function at its positions. -/
theorem C64_track_profile (phase : ℕ → ℕ → ℝ) (p : IrregPar) (seed : ℕ) :
    ∃ f : ℝ → ℝ, (∀ x, |f x| ≤ ((List.range p.N).map p.amplitude).sum) ∧
      ∀ (wheels : List (List ℝ)) (nTime : ℕ), (∀ w ∈ wheels, w.length = nTime) →
        generateIrregularities phase p seed wheels nTime = .ok (wheels.map fun w => w.map f) := by
  refine ⟨irregProfile (phase seed) p, irregProfile_bound _ p, ?_⟩
  intro wheels nTime hw
  unfold generateIrregularities
  induction wheels with
  | nil => rfl
  | cons w ws ih =>
    rw [List.mapM_cons, ih (fun x hx => hw x (List.mem_cons_of_mem _ hx)), if_pos (hw w (by simp)), railIrregularities_eq]
    rfl

/-- The frequencies and amplitudes: `N` angular frequencies, the first at `2 pi f_min`, equally spaced, all below `2 pi f_max`; the squared
amplitude at the frequency `w` is four times the area `S(w) dw` under the spectrum
`S(w) = 2 pi A_v w_c^2 / ((w^2 + w_c^2) w^2)`, and it is positive. -/
theorem C64_spectrum (p : IrregPar) (hf : 0 < p.fMin) (hff : p.fMin < p.fMax) (hA : 0 < p.Av) (hc : p.omegaC ≠ 0) (n : ℕ) (hn : n < p.N) :
    let dw := 2 * Real.pi * (p.fMax - p.fMin) / p.N
    let w := 2 * Real.pi * p.fMin + n * dw
    p.omega n = w ∧ 0 < w ∧ w < 2 * Real.pi * p.fMax ∧ 0 < p.amplitude n ∧
      p.amplitude n ^ 2 = 4 * (2 * Real.pi * p.Av * p.omegaC ^ 2 / ((w ^ 2 + p.omegaC ^ 2) * w ^ 2)) * dw := by
  intro dw w
  have hpi := Real.pi_pos
  have hN : (0 : ℝ) < p.N := by exact_mod_cast (by omega : 0 < p.N)
  have hdw : p.deltaOmega = dw := by simp only [IrregPar.deltaOmega, dw]; ring
  have hdwp : 0 < dw := div_pos (by nlinarith [mul_pos hpi (sub_pos.2 hff)]) hN
  have hw : p.omega n = w := by simp only [IrregPar.omega, hdw, w]; ring
  have hwp : 0 < w := by
    have : (0 : ℝ) ≤ n * dw := mul_nonneg (Nat.cast_nonneg n) hdwp.le
    have : 0 < 2 * Real.pi * p.fMin := by positivity
    simp only [w]; linarith
  have hS : 0 < p.spectral w := by
    unfold IrregPar.spectral
    positivity
  have hsq : 0 < 4 * p.spectral w * dw := by positivity
  refine ⟨hw, hwp, ?_, ?_, ?_⟩
  · have h1 : (n : ℝ) * dw < p.N * dw := mul_lt_mul_of_pos_right (by exact_mod_cast hn) hdwp
    have h2 : (p.N : ℝ) * dw = 2 * Real.pi * (p.fMax - p.fMin) := by simp only [dw]; field_simp
    simp only [w]; linarith
  · rw [IrregPar.amplitude, hw, hdw]; exact Real.sqrt_pos.2 hsq
  · rw [IrregPar.amplitude, hw, hdw, Real.sq_sqrt hsq.le]; rfl

/-- The default parameters (`rose/model/irregularities.py:176-177`) meet the hypotheses. -/
example : ∃ p : IrregPar, 0 < p.fMin ∧ p.fMin < p.fMax ∧ 0 < p.Av ∧ p.omegaC ≠ 0 ∧ 1999 < p.N :=
  ⟨⟨2, 500, 2000, 2095 / 100000000, 8242 / 10000⟩, by norm_num, by norm_num, by norm_num, by norm_num, by norm_num⟩

/-! ### C89: the reported frequencies -/

/-- **C89, the part that holds** The first reported frequency is the first one used. -/
theorem C89_first_partial (p : IrregPar) (hN : 0 < p.N) : p.reportedOmega[0]? = some (p.omega 0) := by
  obtain ⟨n, hn⟩ : ∃ n, p.N = n + 1 := ⟨p.N - 1, by omega⟩
  simp [IrregPar.reportedOmega, IrregPar.omega, hn, List.range_succ_eq_map]

/-- **C89 is violated** As soon as there are two frequencies, every reported frequency but the first differs from the one used: the list of
`N` frequencies ends at the maximum, the ones used are `1 / N` of the range apart. -/
theorem C89_violated (p : IrregPar) (hff : p.fMin ≠ p.fMax) (n : ℕ) (h0 : 0 < n) (hn : n < p.N) :
    ∃ w, p.reportedOmega[n]? = some w ∧ w ≠ p.omega n := by
  refine ⟨2 * Real.pi * p.fMin + n * ((2 * Real.pi * p.fMax - 2 * Real.pi * p.fMin) / ((p.N : ℝ) - 1)), ?_, ?_⟩
  · simp only [IrregPar.reportedOmega]
    rw [List.getElem?_map, List.getElem?_range hn, Option.map_some, if_neg (by omega)]
  · simp only [IrregPar.omega, IrregPar.deltaOmega]
    intro h
    have h0' : (n : ℝ) ≠ 0 := by exact_mod_cast h0.ne'
    have hN : (p.N : ℝ) ≠ 0 := by exact_mod_cast (by omega : p.N ≠ 0)
    have hN1 : (p.N : ℝ) - 1 ≠ 0 := by
      have : (1 : ℝ) < p.N := by exact_mod_cast (by omega : 1 < p.N)
      linarith
    field_simp at h
    have h1 : (n : ℝ) * (p.fMax - p.fMin) = 0 := by linarith
    rcases mul_eq_zero.1 h1 with h2 | h2
    · exact h0' h2
    · exact hff (by linarith)

example : ∃ p : IrregPar, p.fMin ≠ p.fMax ∧ 0 < 1 ∧ 1 < p.N := ⟨⟨2, 500, 2000, 1, 1⟩, by norm_num, by norm_num, by norm_num⟩

/-- Two wheels two metres apart see the same irregularity when they pass the same place. -/
example (phase : ℕ → ℕ → ℝ) (p : IrregPar) : ∃ a b c d : ℝ,
    generateIrregularities phase p 99 [[2, 4], [0, 2]] 2 = .ok [[a, b], [c, d]] ∧ a = d := by
  obtain ⟨f, -, h⟩ := C64_track_profile phase p 99
  exact ⟨f 2, f 4, f 0, f 2, h [[2, 4], [0, 2]] 2 (by simp), rfl⟩

/-! ### C83: initialising twice -/

/-- **C83, the part that holds** The first initialisation gives the user's irregularities plus the generated ones (or zeros plus
the generated ones, or without generation the user's). -/
theorem C83_first_partial (nWheels nTime : ℕ) (use : Bool) (gen user : List (List ℝ)) (w k : ℕ)
    (hu : (user.getD w []).length = nTime) (hg : (gen.getD w []).length = nTime) (hlu : w < user.length) (hlg : w < gen.length)
    (hk : k < nTime) :
    ((addIrregularities nWheels nTime use gen (some user)).getD w []).getD k 0 =
      (user.getD w []).getD k 0 + if use then (gen.getD w []).getD k 0 else 0 := by
  unfold addIrregularities
  simp only [Option.getD_some]
  cases use with
  | false => simp
  | true =>
    simp only [if_true]
    have hz : w < (List.zipWith (List.zipWith (· + ·)) user gen).length := by rw [List.length_zipWith]; omega
    rw [List.getD_eq_getElem _ _ hz, List.getElem_zipWith]
    rw [List.getD_eq_getElem _ _ hlu] at hu ⊢
    rw [List.getD_eq_getElem _ _ hlg] at hg ⊢
    rw [List.getD_eq_getElem _ _ (by rw [List.length_zipWith]; omega), List.getElem_zipWith,
      List.getD_eq_getElem _ _ (by omega), List.getD_eq_getElem _ _ (by omega)]

/-- **C83 is violated** Initialising a second time adds the generated irregularities once more. -/
theorem C83_violated (nWheels nTime : ℕ) (gen user : List (List ℝ)) (w k : ℕ)
    (hu : (user.getD w []).length = nTime) (hg : (gen.getD w []).length = nTime) (hlu : w < user.length) (hlg : w < gen.length)
    (hk : k < nTime) :
    ((addIrregularities nWheels nTime true gen (some (addIrregularities nWheels nTime true gen (some user)))).getD w []).getD k 0 =
      (user.getD w []).getD k 0 + 2 * (gen.getD w []).getD k 0 := by
  have h1 := C83_first_partial nWheels nTime true gen user w k hu hg hlu hlg hk
  rw [C83_first_partial nWheels nTime true gen _ w k ?_ hg ?_ hlg hk, h1]
  · simp; ring
  · unfold addIrregularities
    simp only [Option.getD_some, if_true]
    have hz : w < (List.zipWith (List.zipWith (· + ·)) user gen).length := by rw [List.length_zipWith]; omega
    rw [List.getD_eq_getElem _ _ hz, List.getElem_zipWith, List.length_zipWith]
    rw [List.getD_eq_getElem _ _ hlu] at hu
    rw [List.getD_eq_getElem _ _ hlg] at hg
    omega
  · unfold addIrregularities
    simp only [Option.getD_some, if_true]
    rw [List.length_zipWith]; omega

example : addIrregularities 1 2 true [[1, 2]] (some (addIrregularities 1 2 true [[1, 2]] none)) = [[0 + 1 + 1, 0 + 2 + 2]] := rfl

end Rose
