/-
C145: the analytical solution of a beam on two supports is the deflection of Euler-Bernoulli theory.
-/
import Verif.Model.Analytical
import Verif.Spec.SimpleBeam

set_option linter.unusedSectionVars false

namespace Rose
open Set Spec

/-! ### The formula on the whole beam -/

/-- The slope of the formula. -/
noncomputable def simpleSlope (EI L F a x : ℝ) : ℝ :=
  if x ≤ a then F * (L - a) / (6 * L * EI) * (L ^ 2 - (L - a) ^ 2 - 3 * x ^ 2)
  else -(F * a / (6 * L * EI) * (L ^ 2 - a ^ 2 - 3 * (L - x) ^ 2))

/-- The curvature of the formula. -/
noncomputable def simpleCurvature (EI L F a x : ℝ) : ℝ :=
  if x ≤ a then -(F * (L - a) / (L * EI) * x) else -(F * a / (L * EI) * (L - x))

/-- Gluing two functions that agree, with their derivatives, at a point. -/
theorem hasDerivAt_glue {f g : ℝ → ℝ} {a x d : ℝ} (hf : x ≤ a → HasDerivAt f d x) (hg : a ≤ x → HasDerivAt g d x)
    (h : f a = g a) : HasDerivAt (fun y => if y ≤ a then f y else g y) d x := by
  rcases lt_trichotomy x a with hx | hx | hx
  · refine (hf hx.le).congr_of_eventuallyEq ?_
    filter_upwards [Iio_mem_nhds hx] with y hy
    simp [(show y < a from hy).le]
  · subst hx
    have h1 : HasDerivWithinAt (fun y => if y ≤ x then f y else g y) d (Iic x) x :=
      (hf le_rfl).hasDerivWithinAt.congr (fun y hy => by simp [show y ≤ x from hy]) (by simp)
    have h2 : HasDerivWithinAt (fun y => if y ≤ x then f y else g y) d (Ici x) x := by
      refine (hg le_rfl).hasDerivWithinAt.congr (fun y hy => ?_) (by simp [h])
      rcases (show x ≤ y from hy).eq_or_lt with rfl | hxy
      · simp [h]
      · simp [not_le.mpr hxy]
    have h3 := h1.union h2
    rwa [Iic_union_Ici, hasDerivWithinAt_univ] at h3
  · refine (hg hx.le).congr_of_eventuallyEq ?_
    filter_upwards [Ioi_mem_nhds hx] with y hy
    simp [not_le.mpr (show a < y from hy)]

theorem simpleSupport_smooth {EI L F a : ℝ} (hEI : EI ≠ 0) (hL : 0 < L) (ha : 0 ≤ a) (haL : a ≤ L) :
    TwiceSmooth L (simpleSupportStaticAt EI L F a) (simpleSlope EI L F a) (simpleCurvature EI L F a) := by
  have hL' := hL.ne'
  refine ⟨fun x hx => ?_, fun x hx => ?_, ?_⟩
  · have h1 : HasDerivAt (fun y => if y ≤ a then F * (L - a) * y / (6 * L * EI) * (L ^ 2 - (L - a) ^ 2 - y ^ 2)
        else F * a * (L - y) / (6 * L * EI) * (L ^ 2 - a ^ 2 - (L - y) ^ 2)) (simpleSlope EI L F a x) x := by
      refine hasDerivAt_glue (fun hxa => ?_) (fun hax => ?_) ?_
      · rw [simpleSlope, if_pos hxa]
        have h := (((hasDerivAt_id x).const_mul (F * (L - a))).div_const (6 * L * EI)).mul
          ((hasDerivAt_const x (L ^ 2 - (L - a) ^ 2)).sub ((hasDerivAt_id x).pow 2))
        refine h.congr_deriv ?_
        simp only [id, Pi.sub_apply, Pi.pow_apply]
        push_cast
        field_simp
        ring
      · have e : simpleSlope EI L F a x = -(F * a / (6 * L * EI) * (L ^ 2 - a ^ 2 - 3 * (L - x) ^ 2)) := by
          rw [simpleSlope]
          split_ifs with h
          · obtain rfl : x = a := le_antisymm h hax
            field_simp
            ring
          · rfl
        rw [e]
        have hs : HasDerivAt (fun y => L - y) (0 - 1) x := (hasDerivAt_const x L).sub (hasDerivAt_id x)
        have h := ((hs.const_mul (F * a)).div_const (6 * L * EI)).mul
          ((hasDerivAt_const x (L ^ 2 - a ^ 2)).sub (hs.pow 2))
        refine h.congr_deriv ?_
        simp only [Pi.sub_apply, Pi.pow_apply]
        push_cast
        field_simp
        ring
      · field_simp
        ring
    refine h1.hasDerivWithinAt.congr (fun y hy => ?_) ?_
    · simp only [simpleSupportStaticAt, hy.1, hy.2, true_and, if_true]
    · simp only [simpleSupportStaticAt, hx.1, hx.2, true_and, if_true]
  · refine HasDerivAt.hasDerivWithinAt ?_
    unfold simpleSlope
    refine hasDerivAt_glue (fun hxa => ?_) (fun hax => ?_) ?_
    · rw [simpleCurvature, if_pos hxa]
      have h := ((hasDerivAt_const x (L ^ 2 - (L - a) ^ 2)).sub (((hasDerivAt_id x).pow 2).const_mul 3)).const_mul
        (F * (L - a) / (6 * L * EI))
      refine h.congr_deriv ?_
      simp only [id]
      push_cast
      field_simp
      ring
    · have e : simpleCurvature EI L F a x = -(F * a / (L * EI) * (L - x)) := by
        rw [simpleCurvature]
        split_ifs with h
        · obtain rfl : x = a := le_antisymm h hax
          field_simp
        · rfl
      rw [e]
      have hs : HasDerivAt (fun y => L - y) (0 - 1) x := (hasDerivAt_const x L).sub (hasDerivAt_id x)
      have h := (((hasDerivAt_const x (L ^ 2 - a ^ 2)).sub ((hs.pow 2).const_mul 3)).const_mul (F * a / (6 * L * EI))).neg
      refine h.congr_deriv ?_
      push_cast
      field_simp
      ring
    · field_simp
      ring
  · refine Continuous.continuousOn ?_
    unfold simpleCurvature
    refine Continuous.if_le (by fun_prop) (by fun_prop) (by fun_prop) (by fun_prop) fun x hx => ?_
    subst hx
    field_simp

/-! ### Virtual work -/

theorem _root_.Rose.Spec.TwiceSmooth.interior {L : ℝ} {w w' w'' : ℝ → ℝ} (h : TwiceSmooth L w w' w'') {x : ℝ} (hx : x ∈ Ioo 0 L) :
    HasDerivAt w (w' x) x ∧ HasDerivAt w' (w'' x) x :=
  ⟨(h.first x (Ioo_subset_Icc_self hx)).hasDerivAt (Icc_mem_nhds hx.1 hx.2),
    (h.second x (Ioo_subset_Icc_self hx)).hasDerivAt (Icc_mem_nhds hx.1 hx.2)⟩

theorem _root_.Rose.Spec.TwiceSmooth.cont {L : ℝ} {w w' w'' : ℝ → ℝ} (h : TwiceSmooth L w w' w'') :
    ContinuousOn w (Icc 0 L) ∧ ContinuousOn w' (Icc 0 L) :=
  ⟨fun x hx => (h.first x hx).continuousWithinAt, fun x hx => (h.second x hx).continuousWithinAt⟩

/-- Integration by parts against a linear function. -/
theorem linear_work {L p q c d : ℝ} {v v' v'' : ℝ → ℝ} (h : TwiceSmooth L v v' v'') (hp : 0 ≤ p) (hpq : p ≤ q) (hq : q ≤ L) :
    ∫ x in p..q, (c * x + d) * v'' x = (c * q + d) * v' q - c * v q - ((c * p + d) * v' p - c * v p) := by
  have hsub : Icc p q ⊆ Icc 0 L := Icc_subset_Icc hp hq
  refine intervalIntegral.integral_eq_sub_of_hasDerivAt_of_le (f := fun x => (c * x + d) * v' x - c * v x) hpq ?_ ?_ ?_
  · have h1 := h.cont.1.mono hsub
    have h2 := h.cont.2.mono hsub
    fun_prop
  · intro x hx
    obtain ⟨h1, h2⟩ := h.interior (x := x) ⟨hp.trans_lt hx.1, hx.2.trans_le hq⟩
    have hl : HasDerivAt (fun x => c * x + d) (c * 1) x := ((hasDerivAt_id x).const_mul c).add_const d
    exact ((hl.mul h2).sub (h1.const_mul c)).congr_deriv (by ring)
  · apply ContinuousOn.intervalIntegrable
    rw [uIcc_of_le hpq]
    have h1 := h.continuous.mono hsub
    fun_prop

theorem simpleSupport_work {EI L F a : ℝ} (hEI : EI ≠ 0) (hL : 0 < L) (ha : 0 ≤ a) (haL : a ≤ L) {v v' v'' : ℝ → ℝ}
    (h : TwiceSmooth L v v' v'') (h0 : v 0 = 0) (h1 : v L = 0) :
    ∫ x in (0 : ℝ)..L, EI * simpleCurvature EI L F a x * v'' x = F * v a := by
  have hc : ContinuousOn (fun x => EI * simpleCurvature EI L F a x * v'' x) (Icc 0 L) :=
    ((simpleSupport_smooth (F := F) hEI hL ha haL).continuous.const_mul EI |>.mul h.continuous)
  have i1 : ∫ x in (0 : ℝ)..a, EI * simpleCurvature EI L F a x * v'' x =
      ∫ x in (0 : ℝ)..a, (-(F * (L - a) / L) * x + 0) * v'' x := by
    refine intervalIntegral.integral_congr fun x hx => ?_
    rw [uIcc_of_le ha] at hx
    simp only [simpleCurvature, if_pos hx.2]
    field_simp
    ring
  have i2 : ∫ x in a..L, EI * simpleCurvature EI L F a x * v'' x =
      ∫ x in a..L, (F * a / L * x + -(F * a)) * v'' x := by
    refine intervalIntegral.integral_congr fun x hx => ?_
    rw [uIcc_of_le haL] at hx
    simp only [simpleCurvature]
    split_ifs with hxa
    · obtain rfl : x = a := le_antisymm hxa hx.1
      field_simp
      ring
    · field_simp
      ring
  rw [← intervalIntegral.integral_add_adjacent_intervals (b := a), i1, i2, linear_work h le_rfl ha haL,
    linear_work h ha haL le_rfl, h0, h1]
  · field_simp
    ring
  · apply ContinuousOn.intervalIntegrable
    rw [uIcc_of_le ha]
    exact hc.mono (Icc_subset_Icc le_rfl haL)
  · apply ContinuousOn.intervalIntegrable
    rw [uIcc_of_le haL]
    exact hc.mono (Icc_subset_Icc ha le_rfl)

theorem beamDeflection_formula {EI L F a : ℝ} (hEI : EI ≠ 0) (hL : 0 < L) (ha : 0 ≤ a) (haL : a ≤ L) :
    BeamDeflection EI L F a (simpleSupportStaticAt EI L F a) := by
  refine ⟨?_, ?_, _, _, simpleSupport_smooth hEI hL ha haL, fun v v' v'' h h0 h1 => simpleSupport_work hEI hL ha haL h h0 h1⟩
  · simp [simpleSupportStaticAt, ha]
  · simp only [simpleSupportStaticAt, hL.le, le_refl, true_and, if_true]
    split_ifs with h
    · obtain rfl : L = a := le_antisymm h haL
      simp
    · simp

/-! ### One deflection -/

theorem beamDeflection_unique {EI L F a : ℝ} (hEI : EI ≠ 0) (hL : 0 < L) {w z : ℝ → ℝ} (hw : BeamDeflection EI L F a w)
    (hz : BeamDeflection EI L F a z) : ∀ x ∈ Icc 0 L, w x = z x := by
  obtain ⟨w0, w1, w', w'', ws, ww⟩ := hw
  obtain ⟨z0, z1, z', z'', zs, zw⟩ := hz
  have ds : TwiceSmooth L (fun x => w x - z x) (fun x => w' x - z' x) (fun x => w'' x - z'' x) :=
    ⟨fun x hx => (ws.first x hx).sub (zs.first x hx), fun x hx => (ws.second x hx).sub (zs.second x hx),
      ws.continuous.sub zs.continuous⟩
  have e1 := ww _ _ _ ds (by simp [w0, z0]) (by simp [w1, z1])
  have e2 := zw _ _ _ ds (by simp [w0, z0]) (by simp [w1, z1])
  have hi : ∀ f : ℝ → ℝ, ContinuousOn f (Icc 0 L) → IntervalIntegrable f MeasureTheory.volume 0 L := by
    intro f hf
    apply ContinuousOn.intervalIntegrable
    rwa [uIcc_of_le hL.le]
  have e3 : ∫ x in (0 : ℝ)..L, (w'' x - z'' x) ^ 2 = 0 := by
    have h : EI * ∫ x in (0 : ℝ)..L, (w'' x - z'' x) ^ 2 = 0 := by
      rw [← intervalIntegral.integral_const_mul]
      have : (∫ x in (0 : ℝ)..L, EI * (w'' x - z'' x) ^ 2) = (∫ x in (0 : ℝ)..L, EI * w'' x * (w'' x - z'' x)) -
          ∫ x in (0 : ℝ)..L, EI * z'' x * (w'' x - z'' x) := by
        rw [← intervalIntegral.integral_sub]
        · exact intervalIntegral.integral_congr fun x _ => by ring
        · exact hi _ ((ws.continuous.const_mul EI).mul ds.continuous)
        · exact hi _ ((zs.continuous.const_mul EI).mul ds.continuous)
      rw [this, e1, e2, sub_self]
    exact (mul_eq_zero.mp h).resolve_left hEI
  have hzero : ∀ x ∈ Icc 0 L, w'' x - z'' x = 0 := by
    by_contra hne
    push Not at hne
    obtain ⟨c, hc, hne⟩ := hne
    have hpos := intervalIntegral.integral_pos hL (f := fun x => (w'' x - z'' x) ^ 2) (ds.continuous.pow 2)
      (fun x _ => sq_nonneg _) ⟨c, hc, by positivity⟩
    linarith
  have hslope : ∀ x ∈ Icc 0 L, w' x - z' x = w' 0 - z' 0 := by
    refine constant_of_derivWithin_zero (fun x hx => (ds.second x hx).differentiableWithinAt) fun x hx => ?_
    have hu : UniqueDiffWithinAt ℝ (Icc 0 L) x := uniqueDiffOn_Icc hL x (Ico_subset_Icc_self hx)
    rw [(ds.second x (Ico_subset_Icc_self hx)).derivWithin hu, hzero x (Ico_subset_Icc_self hx)]
  have hlin : ∀ x ∈ Icc 0 L, w x - z x - (w' 0 - z' 0) * x = w 0 - z 0 - (w' 0 - z' 0) * 0 := by
    have hd : ∀ x ∈ Icc 0 L, HasDerivWithinAt (fun x => w x - z x - (w' 0 - z' 0) * x)
        (w' x - z' x - (w' 0 - z' 0) * 1) (Icc 0 L) x := fun x hx =>
      (ds.first x hx).sub ((hasDerivWithinAt_id x _).const_mul _)
    refine constant_of_derivWithin_zero (fun x hx => (hd x hx).differentiableWithinAt) fun x hx => ?_
    have hu : UniqueDiffWithinAt ℝ (Icc 0 L) x := uniqueDiffOn_Icc hL x (Ico_subset_Icc_self hx)
    rw [(hd x (Ico_subset_Icc_self hx)).derivWithin hu, hslope x (Ico_subset_Icc_self hx)]
    ring
  have hs0 : w' 0 - z' 0 = 0 := by
    have := hlin L ⟨hL.le, le_rfl⟩
    rw [w0, w1, z0, z1] at this
    have h2 : (w' 0 - z' 0) * L = 0 := by linarith
    exact (mul_eq_zero.mp h2).resolve_right hL.ne'
  intro x hx
  have := hlin x hx
  rw [hs0, w0, z0] at this
  linarith

/-! ### C145 -/

theorem simpleSupportMesh_getElem (L eleSize : ℝ) (i : ℕ) (hi : i < (simpleSupportMesh L eleSize).length)
    (h : 0 < ⌈L / eleSize⌉₊) : (simpleSupportMesh L eleSize)[i] = i * (L / ⌈L / eleSize⌉₊) := by
  simp only [simpleSupportMesh, linspace, List.getElem_map, List.getElem_range, linspaceAt]
  rw [if_neg (by omega)]
  push_cast
  ring

/-- **C145** For every beam (bending stiffness not zero), load and position of the load on the beam there is exactly one
deflection that satisfies the principle of virtual work, and the reported deflections are its values at the reported
coordinates. The coordinates go from one support to the other in equal steps not longer than the element size. -/
theorem C145_static (eleSize E I L F xF : ℝ) (he : 0 < eleSize) (hEI : E * I ≠ 0) (hL : 0 < L) (h0 : 0 ≤ xF) (h1 : xF ≤ L) :
    ∃ w, BeamDeflection (E * I) L F xF w ∧
      (∀ z, BeamDeflection (E * I) L F xF z → ∀ x ∈ Icc 0 L, z x = w x) ∧
      (simpleSupportStatic eleSize E I L F xF).2 = (simpleSupportStatic eleSize E I L F xF).1.map w ∧
      ∃ m : ℕ, 0 < m ∧ L / m ≤ eleSize ∧
        (simpleSupportStatic eleSize E I L F xF).1 = (List.range (m + 1)).map fun i : ℕ => (i : ℝ) * (L / m) := by
  have hpos : 0 < ⌈L / eleSize⌉₊ := Nat.ceil_pos.mpr (div_pos hL he)
  refine ⟨simpleSupportStaticAt (E * I) L F xF, beamDeflection_formula hEI hL h0 h1,
    fun z hz x hx => beamDeflection_unique hEI hL hz (beamDeflection_formula hEI hL h0 h1) x hx, rfl, ⌈L / eleSize⌉₊, hpos,
    ?_, ?_⟩
  · have h := Nat.le_ceil (L / eleSize)
    rw [div_le_iff₀ he] at h
    rw [div_le_iff₀ (by exact_mod_cast hpos)]
    linarith
  · refine List.ext_getElem (by simp [simpleSupportStatic, simpleSupportMesh, linspace]) fun i h2 h3 => ?_
    rw [List.getElem_map, List.getElem_range]
    exact simpleSupportMesh_getElem L eleSize i h2 hpos

/-- The beam of the benchmark: 1 m, load at 0.4 m. -/
example : ∃ w, BeamDeflection (20e7 * 1) 1 (-1000) 0.4 w ∧ w 0.4 = (simpleSupportStaticAt (20e7 * 1) 1 (-1000) 0.4 0.4) ∧
    w 0.4 < 0 := by
  refine ⟨_, beamDeflection_formula (by norm_num) (by norm_num) (by norm_num) (by norm_num), rfl, ?_⟩
  norm_num [simpleSupportStaticAt]

end Rose
