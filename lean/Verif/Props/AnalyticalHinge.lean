/-
C153: the deflection of a beam with a hinge.
-/
import Verif.Model.AnalyticalHinge
import Verif.Spec.HingedBeam
import Verif.Props.AnalyticalBeam

set_option linter.unusedSectionVars false

namespace Rose
open Rose.Spec Set

/-! ### A cantilever with a load somewhere -/

/-- The deflection of a cantilever with a load at `x`. -/
noncomputable def clampedAt (EI F x s : ℝ) : ℝ :=
  if s ≤ x then F / (6 * EI) * (s ^ 2 * (3 * x - s)) else F / (6 * EI) * (x ^ 2 * (3 * s - x))

/-- Its slope. -/
noncomputable def clampedSlope (EI F x s : ℝ) : ℝ :=
  if s ≤ x then F / (6 * EI) * (6 * x * s - 3 * s ^ 2) else F / (6 * EI) * (3 * x ^ 2)

/-- Its curvature. -/
noncomputable def clampedCurvature (EI F x s : ℝ) : ℝ :=
  if s ≤ x then F / EI * (x - s) else 0

theorem clamped_smooth {EI F x a : ℝ} (hE : EI ≠ 0) : TwiceSmooth a (clampedAt EI F x) (clampedSlope EI F x) (clampedCurvature EI F x) := by
  refine ⟨fun s _ => HasDerivAt.hasDerivWithinAt ?_, fun s _ => HasDerivAt.hasDerivWithinAt ?_, Continuous.continuousOn ?_⟩
  · refine hasDerivAt_glue (fun h => ?_) (fun h => ?_) (by ring)
    · rw [clampedSlope, if_pos h]
      have hid := hasDerivAt_id' s
      refine (((hid.pow 2).mul (hid.const_sub (3 * x))).const_mul (F / (6 * EI))).congr_deriv ?_
      simp only [Pi.pow_apply]
      push_cast
      ring
    · have e : clampedSlope EI F x s = F / (6 * EI) * (3 * x ^ 2) := by
        rw [clampedSlope]
        split_ifs with h'
        · obtain rfl : s = x := le_antisymm h' h
          ring
        · rfl
      rw [e]
      have hid := hasDerivAt_id' s
      exact ((((hid.const_mul 3).sub_const x).const_mul (x ^ 2)).const_mul (F / (6 * EI))).congr_deriv (by ring)
  · refine hasDerivAt_glue (fun h => ?_) (fun h => ?_) (by ring)
    · rw [clampedCurvature, if_pos h]
      have hid := hasDerivAt_id' s
      refine (((hid.const_mul (6 * x)).sub ((hid.pow 2).const_mul 3)).const_mul (F / (6 * EI))).congr_deriv ?_
      push_cast
      field_simp
      ring
    · have e : clampedCurvature EI F x s = 0 := by
        rw [clampedCurvature]
        split_ifs with h'
        · obtain rfl : s = x := le_antisymm h' h
          ring
        · rfl
      rw [e]
      exact hasDerivAt_const _ _
  · unfold clampedCurvature
    refine Continuous.if_le (by fun_prop) (by fun_prop) (by fun_prop) (by fun_prop) fun s hs => ?_
    subst hs
    ring

theorem clamped_work {EI F x a : ℝ} (hE : EI ≠ 0) (hx : 0 ≤ x) (hxa : x ≤ a) {v v' v'' : ℝ → ℝ} (h : TwiceSmooth a v v' v'')
    (h0 : v 0 = 0) (h1 : v' 0 = 0) : ∫ s in (0 : ℝ)..a, EI * clampedCurvature EI F x s * v'' s = F * v x := by
  have hc : ContinuousOn (fun s => EI * clampedCurvature EI F x s * v'' s) (Icc 0 a) :=
    ((clamped_smooth (F := F) (x := x) hE).continuous.const_mul EI |>.mul h.continuous)
  have i1 : ∫ s in (0 : ℝ)..x, EI * clampedCurvature EI F x s * v'' s = ∫ s in (0 : ℝ)..x, (-F * s + F * x) * v'' s := by
    refine intervalIntegral.integral_congr fun s hs => ?_
    rw [uIcc_of_le hx] at hs
    simp only [clampedCurvature, if_pos hs.2]
    field_simp
    ring
  have i2 : ∫ s in x..a, EI * clampedCurvature EI F x s * v'' s = ∫ s in x..a, (0 * s + 0) * v'' s := by
    refine intervalIntegral.integral_congr fun s hs => ?_
    rw [uIcc_of_le hxa] at hs
    simp only [clampedCurvature]
    split_ifs with hsx
    · obtain rfl : s = x := le_antisymm hsx hs.1
      ring
    · ring
  rw [← intervalIntegral.integral_add_adjacent_intervals (b := x), i1, i2, linear_work h le_rfl hx hxa, linear_work h hx hxa le_rfl, h0, h1]
  · ring
  · apply ContinuousOn.intervalIntegrable
    rw [uIcc_of_le hx]
    exact hc.mono (Icc_subset_Icc le_rfl hxa)
  · apply ContinuousOn.intervalIntegrable
    rw [uIcc_of_le hxa]
    exact hc.mono (Icc_subset_Icc hx le_rfl)

theorem clamped_end (EI F x : ℝ) (hx : 0 ≤ x) : clampedAt EI F x 0 = 0 ∧ clampedSlope EI F x 0 = 0 := by
  simp [clampedAt, clampedSlope, hx]

/-! ### The right part -/

theorem support_work {EI b F p : ℝ} (hE : EI ≠ 0) (hb : 0 < b) (hp : 0 ≤ p) (hpb : p ≤ b) {y y' y'' : ℝ → ℝ} (h : TwiceSmooth b y y' y'')
    (h1 : y b = 0) : ∫ s in (0 : ℝ)..b, EI * simpleCurvature EI b F p s * y'' s = F * (y p - y 0 * (1 - p / b)) := by
  have hl : TwiceSmooth b (fun s => y s - y 0 * (1 - s / b)) (fun s => y' s - y 0 * (-(1 / b))) y'' := by
    refine ⟨fun s hs => (h.first s hs).sub ?_, fun s hs => (h.second s hs).sub_const _, h.continuous⟩
    exact ((((hasDerivAt_id' s).div_const b).const_sub 1).const_mul (y 0)).hasDerivWithinAt
  exact simpleSupport_work (F := F) hE hb hp hpb hl (by simp) (by simp [h1, hb.ne'])

/-- The deflection of the right part with a load at `p` and the deflection `c` of the hinge. -/
noncomputable def hangingAt (EI b F p c s : ℝ) : ℝ := simpleSupportStaticAt EI b F p s + c * (1 - s / b)

theorem hanging_smooth {EI b F p c : ℝ} (hE : EI ≠ 0) (hb : 0 < b) (hp : 0 ≤ p) (hpb : p ≤ b) :
    TwiceSmooth b (hangingAt EI b F p c) (fun s => simpleSlope EI b F p s + c * (-(1 / b))) (simpleCurvature EI b F p) := by
  have h := simpleSupport_smooth (F := F) hE hb hp hpb
  refine ⟨fun s hs => (h.first s hs).add ?_, fun s hs => (h.second s hs).add_const _, h.continuous⟩
  exact ((((hasDerivAt_id' s).div_const b).const_sub 1).const_mul c).hasDerivWithinAt

/-- The two parts with a load on each. -/
theorem hinged_parts {EI a b F x G p : ℝ} (hE : EI ≠ 0) (hb : 0 < b) (hx : 0 ≤ x) (hxa : x ≤ a) (hp : 0 ≤ p) (hpb : p ≤ b) :
    ∃ w'' z', HingedShape a b (clampedAt EI F x) (clampedSlope EI F x) w'' (hangingAt EI b G p (clampedAt EI F x a)) z'
      (simpleCurvature EI b G p) ∧ ∀ v v' v'' y y' y'', HingedShape a b v v' v'' y y' y'' →
      (∫ s in (0 : ℝ)..a, EI * w'' s * v'' s) + (∫ s in (0 : ℝ)..b, EI * simpleCurvature EI b G p s * y'' s) =
        F * v x + G * (y p - y 0 * (1 - p / b)) := by
  obtain ⟨e0, e1, -⟩ := beamDeflection_formula (F := G) hE hb hp hpb
  refine ⟨_, _, ⟨clamped_smooth hE, hanging_smooth hE hb hp hpb, clamped_end EI F x hx, ?_, ?_⟩, fun v v' v'' y y' y'' h => ?_⟩
  · simp [hangingAt, e1, hb.ne']
  · simp [hangingAt, e0]
  · rw [clamped_work hE hx hxa h.left h.clamped.1 h.clamped.2, support_work hE hb hp hpb h.right h.support]

theorem hinged_left {EI a b F x : ℝ} (hE : EI ≠ 0) (hb : 0 < b) (hx : 0 ≤ x) (hxa : x ≤ a) :
    HingedDeflection EI a b F x (clampedAt EI F x) (hangingAt EI b 0 0 (clampedAt EI F x a)) := by
  obtain ⟨w'', z', h1, h2⟩ := hinged_parts (F := F) (G := 0) hE hb hx hxa le_rfl hb.le
  refine ⟨_, _, _, _, h1, fun v v' v'' y y' y'' h => ?_⟩
  rw [h2 _ _ _ _ _ _ h, if_pos hxa]
  ring

theorem hinged_right {EI a b F x : ℝ} (hE : EI ≠ 0) (ha : 0 < a) (hb : 0 < b) (hx : a ≤ x) (hxb : x ≤ a + b) :
    HingedDeflection EI a b F x (clampedAt EI (F * (1 - (x - a) / b)) a)
      (hangingAt EI b F (x - a) (clampedAt EI (F * (1 - (x - a) / b)) a a)) := by
  obtain ⟨w'', z', h1, h2⟩ := hinged_parts (F := F * (1 - (x - a) / b)) (G := F) (p := x - a) hE hb ha.le le_rfl (by linarith) (by linarith)
  refine ⟨_, _, _, _, h1, fun v v' v'' y y' y'' h => ?_⟩
  rw [h2 _ _ _ _ _ _ h, h.hinge]
  split_ifs with hxa
  · obtain rfl : x = a := le_antisymm hxa hx
    rw [h.hinge, sub_self]
    ring
  · ring

/-- Betti: the work of each of two loads on the deflection by the other is the same. -/
theorem hinged_betti {EI a b F x G s : ℝ} {w z v y : ℝ → ℝ} (h : HingedDeflection EI a b F x w z) (k : HingedDeflection EI a b G s v y) :
    F * (if x ≤ a then v x else y (x - a)) = G * (if s ≤ a then w s else z (s - a)) := by
  obtain ⟨w', w'', z', z'', h1, h2⟩ := h
  obtain ⟨v', v'', y', y'', k1, k2⟩ := k
  rw [← h2 _ _ _ _ _ _ k1, ← k2 _ _ _ _ _ _ h1]
  congr 1
  · exact intervalIntegral.integral_congr fun s _ => by ring
  · exact intervalIntegral.integral_congr fun s _ => by ring

/-! ### C153 -/

/-- **C153** For a load anywhere on the beam there is a deflection that satisfies the principle of virtual work, and in every such
deflection the hinge moves as much as `calculate_max_disp` says. -/
theorem C153_hinge (s : HingedBeamFormula ℝ) (hE : s.EI ≠ 0) (ha : 0 < s.leftLength) (hb : 0 < s.rightLength) (x : ℝ) (h0 : 0 ≤ x)
    (h1 : x ≤ s.leftLength + s.rightLength) :
    (∃ w z, HingedDeflection s.EI s.leftLength s.rightLength s.load x w z) ∧
    ∀ w z, HingedDeflection s.EI s.leftLength s.rightLength s.load x w z → w s.leftLength = s.maxDisp x ∧ z 0 = s.maxDisp x := by
  constructor
  · rcases le_total x s.leftLength with hx | hx
    · exact ⟨_, _, hinged_left hE hb h0 hx⟩
    · exact ⟨_, _, hinged_right hE ha hb hx h1⟩
  · intro w z h
    have e := hinged_betti h (hinged_left (F := 1) hE hb ha.le le_rfl)
    have hh : w s.leftLength = z 0 := by
      obtain ⟨w', w'', z', z'', k, -⟩ := h
      exact k.hinge
    rw [if_pos le_rfl, one_mul] at e
    suffices hw : w s.leftLength = s.maxDisp x from ⟨hw, hh ▸ hw⟩
    rw [← e]
    unfold HingedBeamFormula.maxDisp HingedBeamFormula.leftPart HingedBeamFormula.rightPart
    simp only
    split_ifs with c1 c2 c3 c3 c4
    · rw [clampedAt, if_pos c1]
      field_simp
    · obtain rfl : x = s.leftLength := le_antisymm c1 c3.1
      rw [clampedAt, if_pos le_rfl, sub_self]
      field_simp
      ring
    · have : x = 0 := by
        by_contra hne
        rcases lt_or_ge x s.leftLength with hlt | hge
        · exact c2 ⟨lt_of_le_of_ne h0 (Ne.symm hne), hlt⟩
        · exact c3 ⟨hge, by linarith⟩
      subst this
      simp [clampedAt, ha.le]
    · exact absurd c3.2.le c1
    · simp only [hangingAt, clampedAt, if_pos le_rfl, simpleSupportStaticAt]
      push Not at c1
      have hb' := hb.ne'
      split_ifs <;> field_simp <;> ring
    · exact absurd ⟨(not_le.mp c1).le, by linarith⟩ c4

theorem clampedAt_mono {EI x s a : ℝ} (hE : 0 < EI) (hx : 0 ≤ x) (hs : 0 ≤ s) (hsa : s ≤ a) (hxa : x ≤ a) :
    0 ≤ clampedAt EI 1 s x ∧ clampedAt EI 1 s x ≤ clampedAt EI 1 a x := by
  unfold clampedAt
  rw [if_pos hxa]
  have h6 : 0 < 1 / (6 * EI) := by positivity
  split_ifs with h
  · refine ⟨mul_nonneg h6.le (mul_nonneg (sq_nonneg _) (by linarith)), mul_le_mul_of_nonneg_left ?_ h6.le⟩
    exact mul_le_mul_of_nonneg_left (by linarith) (sq_nonneg _)
  · push Not at h
    refine ⟨mul_nonneg h6.le (mul_nonneg (sq_nonneg _) (by linarith)), mul_le_mul_of_nonneg_left ?_ h6.le⟩
    have e1 : s ^ 2 * (3 * x - s) ≤ x ^ 2 * (3 * x - x) := by
      nlinarith [mul_nonneg hs (sub_nonneg.mpr h.le), mul_nonneg hx (sub_nonneg.mpr h.le), mul_nonneg (sq_nonneg (x - s)) hx,
        mul_nonneg (sq_nonneg (x - s)) hs]
    exact e1.trans (mul_le_mul_of_nonneg_left (by linarith) (sq_nonneg _))

/-- **C153, the largest displacement** With the load on the left part or on the hinge no point of the beam moves more than
`calculate_max_disp` says. Missing: loads on the right part, for which this is wrong (`C153_max_violated`). -/
theorem C153_max_partial (s : HingedBeamFormula ℝ) (hE : 0 < s.EI) (ha : 0 < s.leftLength) (hb : 0 < s.rightLength) (x : ℝ) (h0 : 0 ≤ x)
    (h1 : x ≤ s.leftLength) (w z : ℝ → ℝ) (h : HingedDeflection s.EI s.leftLength s.rightLength s.load x w z) :
    (∀ y ∈ Icc 0 s.leftLength, |w y| ≤ |s.maxDisp x|) ∧ ∀ y ∈ Icc 0 s.rightLength, |z y| ≤ |s.maxDisp x| := by
  have hm := (C153_hinge s hE.ne' ha hb x h0 (by linarith)).2 w z h
  have ea := hinged_betti h (hinged_left (F := 1) hE.ne' hb ha.le le_rfl)
  rw [if_pos h1, if_pos le_rfl, one_mul, hm.1] at ea
  constructor
  · intro y hy
    have e := hinged_betti h (hinged_left (F := 1) hE.ne' hb hy.1 hy.2)
    rw [if_pos h1, if_pos hy.2, one_mul] at e
    have hc := clampedAt_mono hE h0 hy.1 hy.2 h1
    rw [← ea, ← e, abs_mul, abs_mul, abs_of_nonneg hc.1, abs_of_nonneg (hc.1.trans hc.2)]
    exact mul_le_mul_of_nonneg_left hc.2 (abs_nonneg _)
  · intro y hy
    rcases eq_or_lt_of_le hy.1 with h' | h'
    · rw [← h', hm.2]
    · have e := hinged_betti h (hinged_right (F := 1) (x := s.leftLength + y) hE.ne' ha hb (by linarith) (by linarith [hy.2]))
      rw [if_pos h1, if_neg (by linarith), one_mul, one_mul, add_sub_cancel_left] at e
      have hc := clampedAt_mono hE h0 ha.le le_rfl h1
      have hq : 0 ≤ 1 - y / s.rightLength ∧ 1 - y / s.rightLength ≤ 1 := by
        have : y / s.rightLength ≤ 1 := (div_le_one hb).mpr hy.2
        have := div_nonneg hy.1 hb.le
        constructor <;> linarith
      have e2 : clampedAt s.EI (1 - y / s.rightLength) s.leftLength x =
          (1 - y / s.rightLength) * clampedAt s.EI 1 s.leftLength x := by
        unfold clampedAt
        split_ifs <;> ring
      rw [← ea, ← e, e2, abs_mul, abs_mul, abs_mul, abs_of_nonneg hc.1, abs_of_nonneg hq.1]
      refine mul_le_mul_of_nonneg_left ?_ (abs_nonneg _)
      exact mul_le_of_le_one_left hc.1 hq.2

/-- **C153, violated** With a load on the right part the largest displacement can be elsewhere: here the point under the load moves more
than a hundred times as much as `calculate_max_disp` says. -/
theorem C153_max_violated : ∃ (s : HingedBeamFormula ℝ) (x y : ℝ) (w z : ℝ → ℝ), 0 < s.EI ∧ 0 < s.leftLength ∧ s.leftLength < x ∧
    x < s.leftLength + s.rightLength ∧ y ∈ Icc 0 s.rightLength ∧ HingedDeflection s.EI s.leftLength s.rightLength s.load x w z ∧
    100 * |s.maxDisp x| < |z y| := by
  refine ⟨⟨1, 10, 1, 1⟩, 6, 5, _, _, by norm_num, by norm_num, by norm_num, by norm_num, ⟨by norm_num, by norm_num⟩,
    hinged_right (by norm_num) (by norm_num) (by norm_num) (by norm_num) (by norm_num), ?_⟩
  simp only [HingedBeamFormula.maxDisp, HingedBeamFormula.rightPart, hangingAt, simpleSupportStaticAt, clampedAt]
  norm_num [abs_of_pos]

/-- The beam of the benchmark: the load of 10 kN at 30 m and at 70 m. -/
example : (⟨50, 50, 10000000, -10000⟩ : HingedBeamFormula ℚ).maxDisp 30 = -9 / 5 * 10 ∧
    (⟨50, 50, 10000000, -10000⟩ : HingedBeamFormula ℚ).maxDisp 70 = -25 := by
  constructor <;> norm_num [HingedBeamFormula.maxDisp, HingedBeamFormula.leftPart, HingedBeamFormula.rightPart]

end Rose
