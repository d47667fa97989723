/-
C170: the matrices of a beam element are those of the elastic beam.
-/
import Verif.Props.BeamMass
import Verif.Props.BeamShape
import Verif.Props.Hinge
import Verif.Spec.ElasticBeam
import Mathlib.Analysis.Calculus.MeanValue
import Mathlib.Analysis.Calculus.Deriv.Pow

set_option linter.unusedSectionVars false

namespace Rose
open Spec

/-- Shear flexibility of a beam part: reciprocal of shear factor times shear modulus times area, none without a shear factor. -/
noncomputable def BeamPart.shearCompliance (b : BeamPart ℝ) : ℝ :=
  if 0 < b.kappa then 1 / (b.kappa * (b.E / (2 * (1 + b.nu))) * b.A) else 0

/-- Rotary inertia per length of a beam part: none without a shear factor. -/
noncomputable def BeamPart.rotaryInertia (b : BeamPart ℝ) : ℝ := if 0 < b.kappa then b.rho * b.I else 0

theorem eq_of_same_deriv {f g f' : ℝ → ℝ} (hf : ∀ x, HasDerivAt f (f' x) x) (hg : ∀ x, HasDerivAt g (f' x) x) (h0 : f 0 = g 0) (x : ℝ) :
    f x = g x := by
  have h : ∀ x, HasDerivAt (fun y => f y - g y) 0 x := fun x => by
    have := (hf x).sub (hg x)
    rwa [sub_self] at this
  have hc := is_const_of_deriv_eq_zero (fun x => (h x).differentiableAt) (fun x => (h x).deriv) x 0
  linarith [hc]

theorem hasDerivAt_poly (c0 c1 c2 c3 x : ℝ) :
    HasDerivAt (fun x => c0 + c1 * x + c2 * x ^ 2 + c3 * x ^ 3) (c1 + 2 * c2 * x + 3 * c3 * x ^ 2) x := by
  have h1 := (hasDerivAt_id x).const_mul c1
  have h2 := ((hasDerivAt_id x).pow 2).const_mul c2
  have h3 := ((hasDerivAt_id x).pow 3).const_mul c3
  exact (((h1.const_add c0).add h2).add h3).congr_deriv (by simp only [id, Nat.cast_ofNat, mul_one]; norm_num; ring)

/-- The fields of an elastic beam as polynomials. -/
theorem elastic_fields {EA EI s : ℝ} {b : BeamState} (h : b.Elastic EA EI s) (x : ℝ) :
    b.N x = b.N 0 ∧ b.V x = b.V 0 ∧ b.M x = b.M 0 - b.V 0 * x ∧ b.u x = b.u 0 + b.N 0 / EA * x ∧
      b.theta x = b.theta 0 + b.M 0 / EI * x - b.V 0 / EI / 2 * x ^ 2 ∧
      b.w x = b.w 0 + (b.theta 0 + s * b.V 0) * x + b.M 0 / EI / 2 * x ^ 2 - b.V 0 / EI / 6 * x ^ 3 := by
  have hN : ∀ x, b.N x = b.N 0 := eq_of_same_deriv h.axial (fun x => hasDerivAt_const x _) rfl
  have hV : ∀ x, b.V x = b.V 0 := eq_of_same_deriv h.shear (fun x => hasDerivAt_const x _) rfl
  have hM : ∀ x, b.M x = b.M 0 + -b.V 0 * x + 0 * x ^ 2 + 0 * x ^ 3 :=
    eq_of_same_deriv h.moment (fun x => by
      have := hasDerivAt_poly (b.M 0) (-b.V 0) 0 0 x
      convert this using 1
      rw [hV x]; ring) (by ring)
  have hu : ∀ x, b.u x = b.u 0 + b.N 0 / EA * x + 0 * x ^ 2 + 0 * x ^ 3 :=
    eq_of_same_deriv h.elongation (fun x => by
      have := hasDerivAt_poly (b.u 0) (b.N 0 / EA) 0 0 x
      convert this using 1
      rw [hN x]; ring) (by ring)
  have ht : ∀ x, b.theta x = b.theta 0 + b.M 0 / EI * x + -(b.V 0 / EI / 2) * x ^ 2 + 0 * x ^ 3 :=
    eq_of_same_deriv h.curvature (fun x => by
      have := hasDerivAt_poly (b.theta 0) (b.M 0 / EI) (-(b.V 0 / EI / 2)) 0 x
      convert this using 1
      rw [hM x]; ring) (by ring)
  have hw : ∀ x, b.w x = b.w 0 + (b.theta 0 + s * b.V 0) * x + b.M 0 / EI / 2 * x ^ 2 + -(b.V 0 / EI / 6) * x ^ 3 :=
    eq_of_same_deriv h.strain (fun x => by
      have := hasDerivAt_poly (b.w 0) (b.theta 0 + s * b.V 0) (b.M 0 / EI / 2) (-(b.V 0 / EI / 6)) x
      convert this using 1
      rw [ht x, hV x]; ring) (by ring)
  refine ⟨hN x, hV x, ?_, ?_, ?_, ?_⟩
  · rw [hM x]; ring
  · rw [hu x]; ring
  · rw [ht x]; ring
  · rw [hw x]; ring

/-- A state is determined by its values at the first end. -/
theorem elastic_of_start (EA EI s u0 w0 t0 N0 V0 M0 : ℝ) : ∃ b : BeamState, b.Elastic EA EI s ∧ b.u 0 = u0 ∧ b.w 0 = w0 ∧ b.theta 0 = t0 ∧
    b.N 0 = N0 ∧ b.V 0 = V0 ∧ b.M 0 = M0 := by
  refine ⟨⟨fun x => u0 + N0 / EA * x + 0 * x ^ 2 + 0 * x ^ 3,
    fun x => w0 + (t0 + s * V0) * x + M0 / EI / 2 * x ^ 2 + -(V0 / EI / 6) * x ^ 3,
    fun x => t0 + M0 / EI * x + -(V0 / EI / 2) * x ^ 2 + 0 * x ^ 3, fun x => M0 + -V0 * x + 0 * x ^ 2 + 0 * x ^ 3,
    fun _ => V0, fun _ => N0⟩, ⟨fun x => hasDerivAt_const x _, fun x => hasDerivAt_const x _, fun x => ?_, fun x => ?_, fun x => ?_, fun x => ?_⟩,
    by simp, by simp, by simp, rfl, rfl, by simp⟩
  · convert hasDerivAt_poly M0 (-V0) 0 0 x using 1; ring
  · convert hasDerivAt_poly u0 (N0 / EA) 0 0 x using 1; ring
  · convert hasDerivAt_poly t0 (M0 / EI) (-(V0 / EI / 2)) 0 x using 1; ring
  · convert hasDerivAt_poly w0 (t0 + s * V0) (M0 / EI / 2) (-(V0 / EI / 6)) x using 1; ring

theorem factor_eq (b : BeamPart ℝ) (hb : b.Valid) : timoshenkoFactor b = 12 * (b.E * b.I) * b.shearCompliance / b.l ^ 2 := by
  have h1 := hb.E; have h2 := hb.nu; have h3 := hb.A; have h6 := hb.l
  have h7 : 0 < 1 + b.nu := by linarith
  unfold timoshenkoFactor BeamPart.shearCompliance shearModulus
  split_ifs with hk
  · field_simp
  · simp

theorem shearCompliance_nonneg (b : BeamPart ℝ) (hb : b.Valid) : 0 ≤ b.shearCompliance := by
  have h1 := hb.E; have h2 := hb.nu; have h3 := hb.A
  have h7 : 0 < 1 + b.nu := by linarith
  unfold BeamPart.shearCompliance
  split_ifs with hk
  · positivity
  · exact le_rfl

/-- **C170, the beam.** For all displacements of the ends there is exactly one state of the elastic beam between them. -/
theorem C170_unique (b : BeamPart ℝ) (hb : b.Valid) (d : Fin 6 → ℝ) :
    (∃ q : BeamState, q.Elastic (b.E * b.A) (b.E * b.I) b.shearCompliance ∧ q.HasEnds b.l d) ∧
      ∀ q q' : BeamState, q.Elastic (b.E * b.A) (b.E * b.I) b.shearCompliance → q.HasEnds b.l d →
        q'.Elastic (b.E * b.A) (b.E * b.I) b.shearCompliance → q'.HasEnds b.l d → q = q' := by
  have hEA := mul_pos hb.E hb.A
  have hEI := mul_pos hb.E hb.I
  have hs := shearCompliance_nonneg b hb
  have hl := hb.l
  generalize b.E * b.A = EA at *
  generalize b.E * b.I = EI at *
  generalize b.shearCompliance = s at *
  generalize b.l = l at *
  have hD : 0 < l ^ 2 / 12 / EI + s := by positivity
  constructor
  · -- shear force from the two end conditions
    let V := (d 4 - d 1 - (d 2 + d 5) / 2 * l) / (l * (l ^ 2 / 12 / EI + s))
    let M := EI * ((d 5 - d 2) / l) + V * l / 2
    obtain ⟨q, h, e1, e2, e3, e4, e5, e6⟩ := elastic_of_start EA EI s (d 0) (d 1) (d 2) (EA * ((d 3 - d 0) / l)) V M
    refine ⟨q, h, e1, e2, e3, ?_, ?_, ?_⟩
    · rw [(elastic_fields h l).2.2.2.1, e1, e4]
      field_simp
      ring
    · rw [(elastic_fields h l).2.2.2.2.2, e2, e3, e5, e6]
      have hV : V * (l * (l ^ 2 / 12 / EI + s)) = d 4 - d 1 - (d 2 + d 5) / 2 * l := div_mul_cancel₀ _ (by positivity)
      have : M / EI = (d 5 - d 2) / l + V * l / 2 / EI := by
        simp only [M]
        field_simp
      rw [this]
      have e : (d 5 - d 2) / l * l = d 5 - d 2 := div_mul_cancel₀ _ hl.ne'
      linear_combination hV + l / 2 * e
    · rw [(elastic_fields h l).2.2.2.2.1, e3, e5, e6]
      simp only [M]
      generalize V = v
      field_simp
      ring
  · intro q q' h hd h' hd'
    obtain ⟨a0, a1, a2, a3, a4, a5⟩ := hd
    obtain ⟨b0, b1, b2, b3, b4, b5⟩ := hd'
    have f := elastic_fields h l
    have f' := elastic_fields h' l
    have eN : q.N 0 = q'.N 0 := by
      have e1 := f.2.2.2.1
      have e2 := f'.2.2.2.1
      rw [a0, a3] at e1
      rw [b0, b3] at e2
      have : q.N 0 / EA * l = q'.N 0 / EA * l := by linarith
      have := mul_right_cancel₀ hl.ne' this
      rwa [div_left_inj' hEA.ne'] at this
    have e1 := f.2.2.2.2.1
    have e2 := f'.2.2.2.2.1
    have e3 := f.2.2.2.2.2
    have e4 := f'.2.2.2.2.2
    rw [a2, a5] at e1
    rw [b2, b5] at e2
    rw [a1, a2, a4] at e3
    rw [b1, b2, b4] at e4
    have eV : q.V 0 = q'.V 0 := by
      have hz : (q.V 0 - q'.V 0) * (l * (l ^ 2 / 12 / EI + s)) = 0 := by
        linear_combination -e3 + e4 + l / 2 * e1 - l / 2 * e2
      have := (mul_eq_zero.1 hz).resolve_right (by positivity)
      linarith
    have eM : q.M 0 = q'.M 0 := by
      rw [eV] at e1
      have : q.M 0 / EI * l = q'.M 0 / EI * l := by linarith
      have := mul_right_cancel₀ hl.ne' this
      rwa [div_left_inj' hEI.ne'] at this
    have g := fun x => elastic_fields h x
    have g' := fun x => elastic_fields h' x
    cases q with
    | mk u w t M V N =>
    cases q' with
    | mk u' w' t' M' V' N' =>
    simp only at *
    congr 1
    · funext x; rw [(g x).2.2.2.1, (g' x).2.2.2.1, a0, b0, eN]
    · funext x; rw [(g x).2.2.2.2.2, (g' x).2.2.2.2.2, a1, b1, a2, b2, eV, eM]
    · funext x; rw [(g x).2.2.2.2.1, (g' x).2.2.2.2.1, a2, b2, eV, eM]
    · funext x; rw [(g x).2.2.1, (g' x).2.2.1, eV, eM]
    · funext x; rw [(g x).2.1, (g' x).2.1, eV]
    · funext x; rw [(g x).1, (g' x).1, eN]

/-- The end displacements in terms of the values at the first end. -/
theorem ends_of_elastic {EA EI s l : ℝ} {q : BeamState} (h : q.Elastic EA EI s) {d : Fin 6 → ℝ} (hd : q.HasEnds l d) :
    d = ![q.u 0, q.w 0, q.theta 0, q.u 0 + q.N 0 / EA * l,
      q.w 0 + (q.theta 0 + s * q.V 0) * l + q.M 0 / EI / 2 * l ^ 2 - q.V 0 / EI / 6 * l ^ 3,
      q.theta 0 + q.M 0 / EI * l - q.V 0 / EI / 2 * l ^ 2] := by
  obtain ⟨a0, a1, a2, a3, a4, a5⟩ := hd
  have f := elastic_fields h l
  ext i
  fin_cases i
  · exact a0.symm
  · exact a1.symm
  · exact a2.symm
  · exact a3.symm.trans f.2.2.2.1
  · exact a4.symm.trans f.2.2.2.2.2
  · exact a5.symm.trans f.2.2.2.2.1

/-- **C170, forces.** The stiffness matrix of a beam element with rigid ends gives the end forces of the elastic beam. -/
theorem C170_forces (b : BeamPart ℝ) (hb : b.Valid) (h1 : b.s1 = .inf) (h2 : b.s2 = .inf) (d : Fin 6 → ℝ) (q : BeamState)
    (hq : q.Elastic (b.E * b.A) (b.E * b.I) b.shearCompliance) (hd : q.HasEnds b.l d) : b.stiffness.mulVec d = q.endForces b.l := by
  have hE := hb.E.ne'; have hA := hb.A.ne'; have hI := hb.I.ne'; have hl := hb.l.ne'
  have hphi := timoshenkoFactor_nonneg b hb
  have hf := factor_eq b hb
  have hp : 1 + timoshenkoFactor b ≠ 0 := by positivity
  have fl := elastic_fields hq b.l
  rw [ends_of_elastic hq hd, BeamPart.stiffness, h1, h2, beamStiffness_eq, BeamState.endForces, fl.1, fl.2.1, fl.2.2.1]
  have hs : b.shearCompliance = timoshenkoFactor b * b.l ^ 2 / (12 * (b.E * b.I)) := by
    rw [hf]; field_simp
  rw [hs]
  generalize timoshenkoFactor b = phi at *
  clear hf hs hq hd fl
  simp only [fixity]
  generalize q.N 0 = N, q.V 0 = V, q.M 0 = M, q.u 0 = u, q.w 0 = w, q.theta 0 = t
  ext i
  fin_cases i <;> simp [Matrix.mulVec, dotProduct, Fin.sum_univ_six] <;> field_simp <;> ring

/-- **C170, elastic energy.** -/
theorem C170_energy (b : BeamPart ℝ) (hb : b.Valid) (h1 : b.s1 = .inf) (h2 : b.s2 = .inf) (d : Fin 6 → ℝ) (q : BeamState)
    (hq : q.Elastic (b.E * b.A) (b.E * b.I) b.shearCompliance) (hd : q.HasEnds b.l d) :
    energy b.stiffness d = q.elasticEnergy (b.E * b.A) (b.E * b.I) b.shearCompliance b.l := by
  have hE := hb.E.ne'; have hA := hb.A.ne'; have hI := hb.I.ne'
  have hf := C170_forces b hb h1 h2 d q hq hd
  have fl := elastic_fields hq b.l
  have e1 : energy b.stiffness d = ∑ i, d i * b.stiffness.mulVec d i := by
    simp only [energy, Matrix.mulVec, dotProduct, Finset.mul_sum]
    exact Finset.sum_congr rfl fun i _ => Finset.sum_congr rfl fun j _ => by ring
  rw [e1, hf, ends_of_elastic hq hd, BeamState.endForces, fl.1, fl.2.1, fl.2.2.1, BeamState.elasticEnergy]
  have hint : ∀ x, q.N x ^ 2 / (b.E * b.A) + q.M x ^ 2 / (b.E * b.I) + b.shearCompliance * q.V x ^ 2 =
      ∑ i ∈ Finset.range 3, (fun (i : ℕ) => match i with
        | 0 => q.N 0 ^ 2 / (b.E * b.A) + q.M 0 ^ 2 / (b.E * b.I) + b.shearCompliance * q.V 0 ^ 2
        | 1 => -(2 * q.M 0 * q.V 0 / (b.E * b.I))
        | _ => q.V 0 ^ 2 / (b.E * b.I)) i * x ^ i := fun x => by
    rw [(elastic_fields hq x).1, (elastic_fields hq x).2.1, (elastic_fields hq x).2.2.1]
    simp only [Finset.sum_range_succ, Finset.sum_range_zero]
    ring
  rw [intervalIntegral.integral_congr fun x _ => hint x, integral_poly]
  simp only [Finset.sum_range_succ, Finset.sum_range_zero]
  generalize b.shearCompliance = s
  generalize q.N 0 = N, q.V 0 = V, q.M 0 = M, q.u 0 = u, q.w 0 = w, q.theta 0 = t
  simp [Fin.sum_univ_six]
  field_simp
  ring

/-- The fields of the elastic beam in terms of its end displacements. -/
theorem timo_fields (b : BeamPart ℝ) (hb : b.Valid) (d : Fin 6 → ℝ) (q : BeamState)
    (hq : q.Elastic (b.E * b.A) (b.E * b.I) b.shearCompliance) (hd : q.HasEnds b.l d) (x : ℝ) :
    q.u x = axialDisplacement b.l (d 0) (d 3) x ∧
      q.w x = timoDeflection (timoshenkoFactor b) b.l (d 1) (d 2) (d 4) (d 5) x ∧
      q.theta x = timoRotation (timoshenkoFactor b) b.l (d 1) (d 2) (d 4) (d 5) x := by
  have hE := hb.E.ne'; have hA := hb.A.ne'; have hI := hb.I.ne'; have hl := hb.l.ne'
  have hphi := timoshenkoFactor_nonneg b hb
  have hf := factor_eq b hb
  have hp : 1 + timoshenkoFactor b ≠ 0 := by positivity
  have fx := elastic_fields hq x
  rw [ends_of_elastic hq hd, fx.2.2.2.1, fx.2.2.2.2.1, fx.2.2.2.2.2]
  have hs : b.shearCompliance = timoshenkoFactor b * b.l ^ 2 / (12 * (b.E * b.I)) := by
    rw [hf]; field_simp
  rw [hs]
  generalize timoshenkoFactor b = phi at *
  clear hf hs hq hd fx
  generalize q.N 0 = N, q.V 0 = V, q.M 0 = M, q.u 0 = u, q.w 0 = w, q.theta 0 = t
  refine ⟨?_, ?_, ?_⟩
  · simp [axialDisplacement]
    field_simp
    ring
  · simp [timoDeflection]
    field_simp
    ring
  · simp [timoRotation]
    field_simp
    ring

/-- **C170, inertia.** The mass matrix of a beam element gives the kinetic energy of the elastic beam between its ends. -/
theorem C170_inertia (b : BeamPart ℝ) (hb : b.Valid) (d : Fin 6 → ℝ) (q : BeamState)
    (hq : q.Elastic (b.E * b.A) (b.E * b.I) b.shearCompliance) (hd : q.HasEnds b.l d) :
    energy b.massMatrix d = q.inertia (b.rho * b.A) b.rotaryInertia b.l := by
  rw [C20_consistent_mass b hb, BeamState.inertia]
  congr 1
  funext x
  obtain ⟨e1, e2, e3⟩ := timo_fields b hb d q hq hd x
  rw [e1, e2, e3, BeamPart.rotaryInertia]
  split_ifs <;> ring

/-- **C170, deflection, exact.** The shape functions give the deflection of the elastic beam at every point, for all displacements of the
ends, exactly if the element is shear-rigid or one metre long. -/
theorem C170_deflection_iff (b : BeamPart ℝ) (hb : b.Valid) :
    (∀ (d : Fin 6 → ℝ) (q : BeamState), q.Elastic (b.E * b.A) (b.E * b.I) b.shearCompliance → q.HasEnds b.l d → ∀ x ∈ Set.Icc 0 b.l,
      let N := yShape (timoshenkoFactor b) b.l x
      N 0 * d 1 + N 1 * d 2 + N 2 * d 4 + N 3 * d 5 = q.w x) ↔ b.kappa = 0 ∨ b.l = 1 := by
  have hl := hb.l.ne'
  have hphi := timoshenkoFactor_nonneg b hb
  have hp : 1 + timoshenkoFactor b ≠ 0 := by positivity
  have hiff := timoshenkoFactor_ne_zero_iff b hb
  have hk : b.kappa = 0 ↔ timoshenkoFactor b = 0 := by
    have := hb.kappa
    constructor
    · intro h
      by_contra h'
      exact absurd (hiff.1 h') (by rw [h]; exact lt_irrefl _)
    · intro h
      by_contra h'
      exact (hiff.2 (lt_of_le_of_ne this (Ne.symm h'))) h
  have key : ∀ (w1 t1 w2 t2 x : ℝ), (yShape (timoshenkoFactor b) b.l x 0 * w1 + yShape (timoshenkoFactor b) b.l x 1 * t1 +
      yShape (timoshenkoFactor b) b.l x 2 * w2 + yShape (timoshenkoFactor b) b.l x 3 * t2) -
      timoDeflection (timoshenkoFactor b) b.l w1 t1 w2 t2 x =
      timoshenkoFactor b / 2 * (1 - b.l) * (x / b.l) * (1 - x / b.l) * (t1 - t2) / (1 + timoshenkoFactor b) := by
    intro w1 t1 w2 t2 x
    generalize timoshenkoFactor b = phi at *
    simp [yShape, timoDeflection]
    field_simp
    ring
  rw [hk]
  constructor
  · intro h
    obtain ⟨⟨q, hq, hd⟩, -⟩ := C170_unique b hb ![0, 0, 1, 0, 0, 0]
    have h' := h _ q hq hd (b.l / 2) ⟨by have := hb.l; positivity, by have := hb.l; linarith⟩
    simp only at h'
    rw [(timo_fields b hb _ q hq hd _).2.1] at h'
    have k := key 0 1 0 0 (b.l / 2)
    have e : timoshenkoFactor b / 2 * (1 - b.l) * (b.l / 2 / b.l) * (1 - b.l / 2 / b.l) * (1 - 0) / (1 + timoshenkoFactor b) = 0 := by
      rw [← k, sub_eq_zero]
      simpa using h'
    have e2 : b.l / 2 / b.l = 1 / 2 := by field_simp
    rw [e2, div_eq_zero_iff] at e
    have e3 := e.resolve_right hp
    have : timoshenkoFactor b * (1 - b.l) = 0 := by linarith
    rcases mul_eq_zero.1 this with h | h
    · exact Or.inl h
    · exact Or.inr (by linarith)
  · intro h d q hq hd x _
    simp only
    rw [(timo_fields b hb _ q hq hd _).2.1, ← sub_eq_zero, key]
    rcases h with h | h <;> simp [h]

/-! ### Ends attached through springs -/

theorem elastic_slope {EA EI l : ℝ} (hEI : EI ≠ 0) (hl : l ≠ 0) {q : BeamState} (h : q.Elastic EA EI 0) :
    (-q.V 0, -q.M 0, q.V l, q.M l) = slopeDeflection EI l (q.w 0) (q.theta 0) (q.w l) (q.theta l) := by
  have f := elastic_fields h l
  rw [f.2.1, f.2.2.1, f.2.2.2.2.1, f.2.2.2.2.2]
  simp only [slopeDeflection, Prod.mk.injEq]
  generalize q.V 0 = V, q.M 0 = M, q.w 0 = w, q.theta 0 = t
  refine ⟨?_, ?_, ?_, ?_⟩ <;> field_simp <;> ring

theorem flexibility_zero (b : BeamPart ℝ) (hk : b.kappa = 0) : b.shearCompliance = 0 ∧ timoshenkoFactor b = 0 ∧ b.rotaryInertia = 0 := by
  simp [BeamPart.shearCompliance, timoshenkoFactor, BeamPart.rotaryInertia, hk]

/-- **C170, springs, forces.** The stiffness matrix of a shear-rigid element with non-negative springs at its ends gives the forces of the elastic beam between these springs. -/
theorem C170_springs_forces (b : BeamPart ℝ) (hb : b.Valid) (hk : b.kappa = 0) (h1 : b.s1.Nonneg) (h2 : b.s2.Nonneg) (d : Fin 6 → ℝ) (q : BeamState)
    (hq : q.Elastic (b.E * b.A) (b.E * b.I) 0) (hd : q.OnSprings b.l b.s1.physical b.s2.physical d) :
    b.stiffness.mulVec d = q.endForces b.l := by
  have hE := hb.E.ne'; have hA := hb.A.ne'; have hI := hb.I.ne'; have hl := hb.l.ne'
  obtain ⟨a0, a1, a2, a3, a4, a5⟩ := hd
  have e := elastic_slope (mul_pos hb.E hb.I).ne' hl hq
  have hS := (C79_semi_rigid_partial b hb hk h1 h2 d (-q.V 0, -q.M 0, q.V b.l, q.M b.l)).1
    ⟨q.theta 0, q.theta b.l, by rw [← a1, ← a4]; exact e, a2, a5⟩
  simp only [bendingForces, Prod.mk.injEq] at hS
  have hN : q.N b.l = q.N 0 := (elastic_fields hq b.l).1
  have hu := (elastic_fields hq b.l).2.2.2.1
  rw [a0, a3] at hu
  have hx : ∀ i : Fin 6, i = 0 ∨ i = 3 → b.stiffness.mulVec d i = q.endForces b.l i := by
    rw [BeamPart.stiffness, beamStiffness_eq, (flexibility_zero b hk).2.1]
    rintro i (rfl | rfl)
    · simp [Matrix.mulVec, dotProduct, Fin.sum_univ_six, BeamState.endForces, hu]
      field_simp
      ring
    · simp [Matrix.mulVec, dotProduct, Fin.sum_univ_six, BeamState.endForces, hu, hN]
      field_simp
      ring
  ext i
  fin_cases i
  · exact hx 0 (Or.inl rfl)
  · exact hS.1.symm
  · exact hS.2.1.symm
  · exact hx 3 (Or.inr rfl)
  · exact hS.2.2.1.symm
  · exact hS.2.2.2.symm

/-- **C170, springs, inertia, exact.** The mass matrix of a shear-rigid element with non-negative springs at its ends gives, for all velocities of the nodes, the kinetic
energy of the elastic beam between these springs exactly if both ends are rigid. -/
theorem C170_springs_inertia_iff (b : BeamPart ℝ) (hb : b.Valid) (hk : b.kappa = 0) (h1 : b.s1.Nonneg) (h2 : b.s2.Nonneg) :
    (∀ (d : Fin 6 → ℝ) (q : BeamState), q.Elastic (b.E * b.A) (b.E * b.I) 0 → q.OnSprings b.l b.s1.physical b.s2.physical d →
      energy b.massMatrix d = q.inertia (b.rho * b.A) 0 b.l) ↔ b.s1 = .inf ∧ b.s2 = .inf := by
  obtain ⟨z1, z2, z3⟩ := flexibility_zero b hk
  have hl := hb.l
  have hEI := mul_pos hb.E hb.I
  have hm := mul_pos hb.rho hb.A
  constructor
  · intro h
    -- beam end rotations for a unit rotation of the first node
    obtain ⟨p1, p2, e, k1, k2⟩ := (C79_semi_rigid_partial b hb hk h1 h2 ![0, 0, 1, 0, 0, 0] _).2 rfl
    generalize hF : bendingForces b.stiffness ![0, 0, 1, 0, 0, 0] = F at e k1 k2
    clear hF
    subst e
    simp only [Matrix.cons_val_zero, Matrix.cons_val_one, Matrix.cons_val] at k1 k2
    have U := fun d => C170_unique b hb d
    rw [z1] at U
    have I := fun d q => C170_inertia b hb d q
    rw [z1, z3] at I
    -- the same rotations with a rigid motion on top
    have G : ∀ c r : ℝ, energy b.massMatrix ![0, c, 1 + r, 0, c + r * b.l, r] = energy b.massMatrix ![0, c, p1 + r, 0, c + r * b.l, p2 + r] := by
      intro c r
      obtain ⟨⟨q, hq, hd⟩, -⟩ := U ![0, c, p1 + r, 0, c + r * b.l, p2 + r]
      rw [I _ q hq hd]
      refine h _ q hq ?_
      obtain ⟨a0, a1, a2, a3, a4, a5⟩ := hd
      simp only [Matrix.cons_val_zero, Matrix.cons_val_one, Matrix.cons_val] at a0 a1 a2 a3 a4 a5
      have e := elastic_slope hEI.ne' hl.ne' hq
      rw [a1, a2, a4, a5] at e
      simp only [slopeDeflection, Prod.mk.injEq] at e
      refine ⟨a0, a1, ?_, a3, a4, ?_⟩
      · simp only [Matrix.cons_val]
        rw [a2, e.2.1]
        have : 2 * (b.E * b.I) / b.l * (2 * (p1 + r) + (p2 + r) + 3 * ((c - (c + r * b.l)) / b.l)) =
            (slopeDeflection (b.E * b.I) b.l 0 p1 0 p2).2.1 := by
          simp only [slopeDeflection]
          field_simp
          ring
        rw [this]
        revert k1
        cases b.s1.physical with
        | none => simp only [SpringLaw]; intro k1; rw [k1]
        | some s => simp only [SpringLaw]; intro k1; rw [k1]; ring
      · simp only [Matrix.cons_val]
        rw [a5, e.2.2.2]
        have : 2 * (b.E * b.I) / b.l * ((p1 + r) + 2 * (p2 + r) + 3 * ((c - (c + r * b.l)) / b.l)) =
            (slopeDeflection (b.E * b.I) b.l 0 p1 0 p2).2.2.2 := by
          simp only [slopeDeflection]
          field_simp
          ring
        rw [this]
        revert k2
        cases b.s2.physical with
        | none => simp only [SpringLaw]; intro k2; rw [k2]; ring
        | some s => simp only [SpringLaw]; intro k2; rw [k2]; ring
    have T : ∀ w1 t1 w2 t2 : ℝ, energy b.massMatrix ![0, w1, t1, 0, w2, t2] = b.rho * b.A * b.l / 420 *
        (156 * w1 ^ 2 + 156 * w2 ^ 2 + 108 * w1 * w2 + 44 * b.l * w1 * t1 - 26 * b.l * w1 * t2 + 26 * b.l * w2 * t1 - 44 * b.l * w2 * t2 +
          4 * b.l ^ 2 * t1 ^ 2 + 4 * b.l ^ 2 * t2 ^ 2 - 6 * b.l ^ 2 * t1 * t2) := by
      intro w1 t1 w2 t2
      rw [BeamPart.massMatrix, beamMass, z2, if_neg (by simp), beamTransMass_eq]
      simp [energy, Fin.sum_univ_six]
      ring
    have hc : b.rho * b.A * b.l / 420 ≠ 0 := by positivity
    have g0 := G 0 0
    have g1 := G 1 0
    have g2 := G 0 1
    rw [T, T] at g0 g1 g2
    have g0 := mul_left_cancel₀ hc g0
    have g1 := mul_left_cancel₀ hc g1
    have g2 := mul_left_cancel₀ hc g2
    have x1 : b.l * (1 - p1 + p2) = 0 := by linear_combination (1 / 70) * (g1 - g0)
    have x2 : b.l ^ 2 * ((1 - p1) * 28 + p2 * 42) = 0 := by linear_combination g2 - g0
    have y1 := (mul_eq_zero.1 x1).resolve_left hl.ne'
    have y2 := (mul_eq_zero.1 x2).resolve_left (by positivity)
    have hp2 : p2 = 0 := by linarith
    have hp1 : p1 = 1 := by linarith
    subst hp1 hp2
    simp only [slopeDeflection] at k1 k2
    have q1 : (0 : ℝ) < 2 * (b.E * b.I) / b.l := by positivity
    constructor
    · cases hs : b.s1 with
      | inf => rfl
      | fin s =>
        rw [hs] at k1
        simp only [SpringLaw, Spring.physical, sub_self, mul_zero, zero_div, add_zero, mul_one] at k1
        exfalso
        linarith
    · cases hs : b.s2 with
      | inf => rfl
      | fin s =>
        rw [hs] at k2
        simp only [SpringLaw, Spring.physical, sub_self, mul_zero, zero_div, add_zero, mul_one] at k2
        exfalso
        linarith
  · rintro ⟨e1, e2⟩ d q hq hd
    have I := C170_inertia b hb d q
    rw [z1, z3] at I
    refine I hq ?_
    rw [e1, e2] at hd
    exact hd

/-- Every deformation of a shear-flexible element of two metres: the hypotheses are met. -/
noncomputable def elasticExample : BeamPart ℝ :=
  { E := 200, nu := 1 / 4, rho := 8, A := 3, I := 5, kappa := 1 / 2, l := 2, s1 := .inf, s2 := .inf }

example : elasticExample.Valid ∧ elasticExample.shearCompliance = 1 / 120 ∧
    (∃ q : BeamState, q.Elastic 600 1000 (1 / 120) ∧ q.HasEnds 2 ![0, 0, 1, 3, 2, 0]) ∧
    ({ elasticExample with kappa := 0, s2 := .fin 300 } : BeamPart ℝ).s2.Nonneg := by
  have hv : elasticExample.Valid := by constructor <;> norm_num [elasticExample]
  have hs : elasticExample.shearCompliance = 1 / 120 := by norm_num [BeamPart.shearCompliance, elasticExample]
  refine ⟨hv, hs, ?_, by norm_num [Spring.Nonneg]⟩
  obtain ⟨⟨q, h1, h2⟩, -⟩ := C170_unique elasticExample hv ![0, 0, 1, 3, 2, 0]
  rw [hs] at h1
  refine ⟨q, ?_, h2⟩
  convert h1 using 1 <;> norm_num [elasticExample]

/-- **C170 violated** for a shear-flexible element of two metres (deflection between its ends) and for an element with a spring (inertia). -/
theorem C170_violated : elasticExample.Valid ∧
    (¬∀ (d : Fin 6 → ℝ) (q : BeamState), q.Elastic (elasticExample.E * elasticExample.A) (elasticExample.E * elasticExample.I) elasticExample.shearCompliance →
      q.HasEnds elasticExample.l d → ∀ x ∈ Set.Icc 0 elasticExample.l,
      let N := yShape (timoshenkoFactor elasticExample) elasticExample.l x
      N 0 * d 1 + N 1 * d 2 + N 2 * d 4 + N 3 * d 5 = q.w x) ∧
    let b : BeamPart ℝ := { elasticExample with kappa := 0, s2 := .fin 300 }
    b.Valid ∧ ¬∀ (d : Fin 6 → ℝ) (q : BeamState), q.Elastic (b.E * b.A) (b.E * b.I) 0 → q.OnSprings b.l b.s1.physical b.s2.physical d →
      energy b.massMatrix d = q.inertia (b.rho * b.A) 0 b.l := by
  have hv : elasticExample.Valid := by constructor <;> norm_num [elasticExample]
  have hv' : ({ elasticExample with kappa := 0, s2 := .fin 300 } : BeamPart ℝ).Valid := by constructor <;> norm_num [elasticExample]
  refine ⟨hv, ?_, hv', ?_⟩
  · rw [C170_deflection_iff _ hv]
    norm_num [elasticExample]
  · rw [C170_springs_inertia_iff _ hv' rfl (by simp [Spring.Nonneg, elasticExample]) (by norm_num [Spring.Nonneg])]
    simp

end Rose
