/-
Properties C26, C51, C79: semi-rigid beam ends and hinges.
-/
import Verif.Props.Beam
import Verif.Model.Hinge
import Verif.Spec.SemiRigid

set_option linter.unusedSectionVars false

namespace Rose
open Spec

variable {K : Type*} [Field K] [LinearOrder K] [IsStrictOrderedRing K]

/-! ## C26 Semi-rigid ends interpolate between pinned and rigid -/

/-- C26: the fixity factor of any spring lies in `[0, 1]`, is 0 for a free and 1 for an infinite spring. -/
theorem C26_fixity_range (b : BeamPart K) (hb : b.Valid) (s : Spring K) :
    0 ≤ fixity (b.E * b.I) b.l s ∧ fixity (b.E * b.I) b.l s ≤ 1 ∧ fixity (b.E * b.I) b.l (.fin 0) = 0 ∧
      fixity (b.E * b.I) b.l .inf = 1 :=
  ⟨fixity_nonneg (mul_pos hb.E hb.I) hb.l s, fixity_le_one (mul_pos hb.E hb.I) hb.l s, by simp [fixity],
    by simp [fixity]⟩

/-- C26: a stiffer spring has a larger fixity factor, which stays below that of the infinite spring. -/
theorem C26_fixity_strictMono (b : BeamPart K) (hb : b.Valid) {s s' : K} (h0 : 0 ≤ s) (h : s < s') :
    fixity (b.E * b.I) b.l (.fin s) < fixity (b.E * b.I) b.l (.fin s') ∧
      fixity (b.E * b.I) b.l (.fin s') < fixity (b.E * b.I) b.l .inf := by
  have hEI := mul_pos hb.E hb.I
  have hl := hb.l
  have hs' : 0 < s' := lt_of_le_of_lt h0 h
  have e' : fixity (b.E * b.I) b.l (.fin s') = s' * b.l / (s' * b.l + 3 * (b.E * b.I)) := by
    simp only [fixity, gt_iff_lt, hs', if_true]; field_simp
  have hlt1 : fixity (b.E * b.I) b.l (.fin s') < fixity (b.E * b.I) b.l .inf := by
    rw [e']; simp only [fixity]; rw [div_lt_one (by positivity)]; linarith
  refine ⟨?_, hlt1⟩
  rcases h0.eq_or_lt with h0 | h0
  · rw [← h0, e']
    simp only [fixity, gt_iff_lt, lt_irrefl, if_false]
    positivity
  · have e : fixity (b.E * b.I) b.l (.fin s) = s * b.l / (s * b.l + 3 * (b.E * b.I)) := by
      simp only [fixity, gt_iff_lt, h0, if_true]; field_simp
    rw [e, e', div_lt_div_iff₀ (by positivity) (by positivity)]
    have := mul_pos (mul_pos hEI hl) (sub_pos.mpr h)
    nlinarith

/-- The ordinary Timoshenko beam stiffness matrix (Przemieniecki) for rigid end connections. -/
def ordinaryBeam (E A I phi l : K) : Matrix (Fin 6) (Fin 6) K :=
  let k := E * I / ((1 + phi) * l ^ 3)
  !![E * A / l, 0, 0, -(E * A / l), 0, 0;
     0, 12 * k, 6 * l * k, 0, -(12 * k), 6 * l * k;
     0, 6 * l * k, (4 + phi) * l ^ 2 * k, 0, -(6 * l * k), (2 - phi) * l ^ 2 * k;
     -(E * A / l), 0, 0, E * A / l, 0, 0;
     0, -(12 * k), -(6 * l * k), 0, 12 * k, -(6 * l * k);
     0, 6 * l * k, (2 - phi) * l ^ 2 * k, 0, -(6 * l * k), (4 + phi) * l ^ 2 * k]

/-- C26: infinite springs give the ordinary beam. -/
theorem C26_rigid_ends (b : BeamPart K) (hb : b.Valid) (h1 : b.s1 = .inf) (h2 : b.s2 = .inf) :
    b.stiffness = ordinaryBeam b.E b.A b.I (timoshenkoFactor b) b.l := by
  have hphi := timoshenkoFactor_nonneg b hb
  have hl := hb.l.ne'; have hI := hb.I.ne'
  have hp : 1 + timoshenkoFactor b ≠ 0 := by positivity
  rw [BeamPart.stiffness, h1, h2, beamStiffness_eq]
  generalize timoshenkoFactor b = phi at *
  generalize b.l = l at *
  ext i j
  fin_cases i <;> fin_cases j <;> simp [ordinaryBeam, fixity] <;> field_simp <;> ring

/-- C26: a zero spring removes the bending resistance at that end: no displacement produces a moment there. -/
theorem C26_free_ends (b : BeamPart K) (u : Fin 6 → K) :
    (b.s1 = .fin 0 → ∑ j, b.stiffness 2 j * u j = 0) ∧ (b.s2 = .fin 0 → ∑ j, b.stiffness 5 j * u j = 0) := by
  constructor <;> intro h <;> rw [BeamPart.stiffness, h, beamStiffness_eq] <;>
    simp [Fin.sum_univ_six, fixity]

example : (({ exampleBeam with s1 := .fin 0 } : BeamPart ℚ)).Valid := by constructor <;> norm_num [exampleBeam]
example : fixity ((200 : ℚ) * 5) 2 (.fin 300) = 1 / 6 := by norm_num [fixity]

/-! ## C79 A beam with end springs is a beam attached through rotational springs -/

/-- The spring stiffness of the model as a physical spring (negative or zero stiffness means no spring, as in the
code). -/
def Spring.physical : Spring K → Option K
  | .inf => none
  | .fin s => some s

/-- The bending end forces `(V1, M1, V2, M2)` of an element matrix. -/
def bendingForces (k : Matrix (Fin 6) (Fin 6) K) (u : Fin 6 → K) : K × K × K × K :=
  (∑ j, k 1 j * u j, ∑ j, k 2 j * u j, ∑ j, k 4 j * u j, ∑ j, k 5 j * u j)

/-- Non-negative spring stiffness. -/
def Spring.Nonneg : Spring K → Prop
  | .inf => True
  | .fin s => 0 ≤ s

theorem springLaw_iff {EI l : K} (hEI : 0 < EI) (hl : 0 < l) {s : Spring K} (hs : s.Nonneg) (theta psi M : K) :
    SpringLaw s.physical theta psi M ↔
      fixity EI l s * (3 * EI * (theta - psi)) = (1 - fixity EI l s) * l * M ∧
      (fixity EI l s = 0 → M = 0) := by
  cases s with
  | inf =>
    simp only [SpringLaw, Spring.physical, fixity]
    constructor
    · rintro rfl; simp
    · rintro ⟨h, -⟩
      have h' : 3 * EI * (theta - psi) = 0 := by linear_combination h
      have : 3 * EI ≠ 0 := by positivity
      have := (mul_eq_zero.mp h').resolve_left this
      linear_combination -this
  | fin s =>
    simp only [SpringLaw, Spring.physical, fixity]
    rcases (show 0 ≤ s from hs).eq_or_lt with h0 | h0
    · subst h0
      simp only [gt_iff_lt, lt_irrefl, if_false]
      constructor
      · rintro rfl; simp
      · rintro ⟨-, h⟩; simp [h]
    · simp only [gt_iff_lt, h0, if_true]
      have hden : 0 < 1 + 3 * EI / (s * l) := by positivity
      have hne : (1 : K) / (1 + 3 * EI / (s * l)) ≠ 0 := by positivity
      simp only [hne, false_implies, and_true]
      have e : (1 : K) / (1 + 3 * EI / (s * l)) = s * l / (s * l + 3 * EI) := by field_simp
      rw [e]
      have hd : s * l + 3 * EI ≠ 0 := by positivity
      have e2 : 1 - s * l / (s * l + 3 * EI) = 3 * EI / (s * l + 3 * EI) := by field_simp; ring
      rw [e2]
      constructor
      · rintro rfl; field_simp
      · intro h
        field_simp at h
        linear_combination -h

/-- C79 (partial: shear-rigid beams; for shear-flexible beams see `C18_violated`, where even a rigid rotation is
stressed). The code's matrix for a beam with any non-negative end springs yields exactly the end forces of an ordinary
beam attached through rotational springs of these stiffnesses, and these are the only ones. -/
theorem C79_semi_rigid_partial (b : BeamPart K) (hb : b.Valid) (hk : b.kappa = 0) (h1 : b.s1.Nonneg)
    (h2 : b.s2.Nonneg) (u : Fin 6 → K) (F : K × K × K × K) :
    SemiRigidBeam (b.E * b.I) b.l b.s1.physical b.s2.physical (u 1) (u 2) (u 4) (u 5) F ↔
      F = bendingForces b.stiffness u := by
  have hEI := mul_pos hb.E hb.I
  have hl := hb.l
  have f1 := fixity_nonneg hEI hl b.s1
  have f1' := fixity_le_one hEI hl b.s1
  have f2 := fixity_nonneg hEI hl b.s2
  have f2' := fixity_le_one hEI hl b.s2
  have hd := (fixity_den_pos f1 f1' f2').ne'
  have hphi : timoshenkoFactor b = 0 := by simp [timoshenkoFactor, hk]
  have L1 := fun psi M => springLaw_iff hEI hl h1 (u 2) psi M
  have L2 := fun psi M => springLaw_iff hEI hl h2 (u 5) psi M
  unfold SemiRigidBeam
  simp only [L1, L2]
  clear L1 L2
  have hb' : bendingForces b.stiffness u = bendingForces (beamStiffness b.E b.A b.I 0 b.l
      (fixity (b.E * b.I) b.l b.s1) (fixity (b.E * b.I) b.l b.s2)) u := by
    rw [BeamPart.stiffness, hphi]
  rw [hb']
  have hE := hb.E.ne'; have hI := hb.I.ne'; have hl' := hb.l.ne'
  generalize fixity (b.E * b.I) b.l b.s1 = a1 at *
  generalize fixity (b.E * b.I) b.l b.s2 = a2 at *
  clear hb'
  generalize b.l = l at *
  generalize b.E = E at *
  generalize b.I = I at *
  have hd' : 4 - a2 * a1 ≠ 0 := by rwa [mul_comm]
  have G : bendingForces (beamStiffness E b.A I 0 l a1 a2) u = slopeDeflection (E * I) l (u 1)
      (u 2 - (1 - a1) * (2 / l * (2 + a2) * (u 1 - u 4) + 4 * u 2 + 2 * a2 * u 5) / (4 - a1 * a2)) (u 4)
      (u 5 - (1 - a2) * (2 / l * (2 + a1) * (u 1 - u 4) + 4 * u 5 + 2 * a1 * u 2) / (4 - a1 * a2)) := by
    rw [beamStiffness_eq]
    simp [bendingForces, slopeDeflection, Fin.sum_univ_six]
    refine ⟨?_, ?_, ?_, ?_⟩ <;> field_simp <;> ring
  constructor
  · rintro ⟨p1, p2, rfl, ⟨e1, -⟩, ⟨e2, -⟩⟩
    have k1 : a1 * (3 * (u 2 - p1)) * l = (1 - a1) * 2 * ((2 * p1 + p2) * l + 3 * (u 1 - u 4)) := by
      simp only [slopeDeflection] at e1
      field_simp at e1
      linear_combination e1
    have k2 : a2 * (3 * (u 5 - p2)) * l = (1 - a2) * 2 * ((p1 + 2 * p2) * l + 3 * (u 1 - u 4)) := by
      simp only [slopeDeflection] at e2
      field_simp at e2
      linear_combination e2
    rw [G]
    congr 1
    · field_simp
      linear_combination (-(4 - a2) / 3) * k1 + (2 * (1 - a1) / 3) * k2
    · field_simp
      linear_combination (-(4 - a1) / 3) * k2 + (2 * (1 - a2) / 3) * k1
  · intro hF
    refine ⟨_, _, hF.trans G, ?_⟩
    rw [hF, beamStiffness_eq]
    refine ⟨⟨?_, ?_⟩, ?_, ?_⟩
    · simp [bendingForces, Fin.sum_univ_six]
      field_simp; ring
    · rintro rfl
      simp [bendingForces, Fin.sum_univ_six]
    · simp [bendingForces, Fin.sum_univ_six]
      field_simp; ring
    · rintro rfl
      simp [bendingForces, Fin.sum_univ_six]

example : ({ exampleBeam with kappa := 0, s1 := .fin 0 } : BeamPart ℚ).Valid ∧ (Spring.fin (300 : ℚ)).Nonneg := by
  refine ⟨by constructor <;> norm_num [exampleBeam], by norm_num [Spring.Nonneg]⟩

theorem fixity_eq_one_iff {EI l : K} (hEI : 0 < EI) (hl : 0 < l) (s : Spring K) : fixity EI l s = 1 ↔ s = .inf := by
  cases s with
  | inf => simp [fixity]
  | fin s =>
    simp only [fixity, reduceCtorEq, iff_false]
    split_ifs with h
    · have hs : 0 < s := h
      have : 0 < 3 * EI / (s * l) := by positivity
      intro h1
      rw [div_eq_one_iff_eq (by positivity)] at h1
      linarith
    · exact zero_ne_one

theorem fixity_eq_zero_iff {EI l : K} (hEI : 0 < EI) (hl : 0 < l) {s : Spring K} (hs : s.Nonneg) :
    fixity EI l s = 0 ↔ s = .fin 0 := by
  cases s with
  | inf => simp [fixity]
  | fin s =>
    simp only [fixity, Spring.fin.injEq]
    split_ifs with h
    · have h' : 0 < s := h
      constructor
      · intro h1
        have : (0 : K) < 1 / (1 + 3 * EI / (s * l)) := by positivity
        exact absurd h1 this.ne'
      · rintro rfl; exact absurd h' (lt_irrefl _)
    · have : s = 0 := le_antisymm (not_lt.1 h) hs
      simp [this]

/-- C79, exactly: the code's matrix gives for all nodal displacements the end forces of a Timoshenko beam attached through
rotational springs if and only if the beam is shear-rigid, both ends are rigid or both ends are free hinges. -/
theorem C79_iff (b : BeamPart K) (hb : b.Valid) (h1 : b.s1.Nonneg) (h2 : b.s2.Nonneg) :
    (∀ (u : Fin 6 → K) (F : K × K × K × K), SemiRigidTimoshenko (b.E * b.I) (timoshenkoFactor b) b.l b.s1.physical
      b.s2.physical (u 1) (u 2) (u 4) (u 5) F ↔ F = bendingForces b.stiffness u) ↔
    b.kappa = 0 ∨ (b.s1 = .inf ∧ b.s2 = .inf) ∨ (b.s1 = .fin 0 ∧ b.s2 = .fin 0) := by
  have hEI := mul_pos hb.E hb.I
  have hl := hb.l
  have hE := hb.E.ne'; have hI := hb.I.ne'; have hl' := hb.l.ne'
  have f1 := fixity_nonneg hEI hl b.s1
  have f1' := fixity_le_one hEI hl b.s1
  have f2' := fixity_le_one hEI hl b.s2
  have hd := (fixity_den_pos f1 f1' f2').ne'
  have hphi := timoshenkoFactor_nonneg b hb
  have hphi' : 1 + timoshenkoFactor b ≠ 0 := by positivity
  constructor
  · intro h
    by_cases hk : b.kappa = 0
    · exact Or.inl hk
    right
    have hk' : 0 < b.kappa := lt_of_le_of_ne hb.kappa (Ne.symm hk)
    have hpos : timoshenkoFactor b ≠ 0 := by
      have hE := hb.E; have hI := hb.I; have hA := hb.A; have hnu : 0 < 1 + b.nu := by linarith [hb.nu]
      have : 0 < timoshenkoFactor b := by
        unfold timoshenkoFactor shearModulus
        rw [if_pos hk']
        positivity
      exact this.ne'
    have hrot := (h ![0, 0, 1, 0, b.l, 1] (0, 0, 0, 0)).1 ⟨1, 1, by
      simp [shearSlopeDeflection]
      field_simp
      norm_num, by cases b.s1 <;> simp [SpringLaw, Spring.physical], by cases b.s2 <;> simp [SpringLaw, Spring.physical]⟩
    rw [BeamPart.stiffness, beamStiffness_eq] at hrot
    simp [bendingForces, Fin.sum_univ_six] at hrot
    obtain ⟨-, e2, -, e5⟩ := hrot
    have hp := hpos
    revert e2 e5
    generalize timoshenkoFactor b = phi at *
    intro e2 e5
    have g1 : fixity (b.E * b.I) b.l b.s1 * (1 - fixity (b.E * b.I) b.l b.s2) = 0 := by
      generalize fixity (b.E * b.I) b.l b.s1 = a1 at *
      generalize fixity (b.E * b.I) b.l b.s2 = a2 at *
      field_simp at e2
      have : (b.E * b.I * phi) * (a1 * (1 - a2)) = 0 := by linear_combination -e2 / 3
      exact (mul_eq_zero.mp this).resolve_left (by simp [hE, hI, hp])
    have g2 : fixity (b.E * b.I) b.l b.s2 * (1 - fixity (b.E * b.I) b.l b.s1) = 0 := by
      generalize fixity (b.E * b.I) b.l b.s1 = a1 at *
      generalize fixity (b.E * b.I) b.l b.s2 = a2 at *
      field_simp at e5
      have : (b.E * b.I * phi) * (a2 * (1 - a1)) = 0 := by linear_combination -e5 / 3
      exact (mul_eq_zero.mp this).resolve_left (by simp [hE, hI, hp])
    rcases mul_eq_zero.1 g1 with h0 | h0
    · rw [h0] at g2
      right
      exact ⟨(fixity_eq_zero_iff hEI hl h1).1 h0, (fixity_eq_zero_iff hEI hl h2).1 (by linear_combination g2)⟩
    · left
      have e : fixity (b.E * b.I) b.l b.s2 = 1 := by linear_combination -h0
      rw [e] at g2
      exact ⟨(fixity_eq_one_iff hEI hl _).1 (by linear_combination -g2), (fixity_eq_one_iff hEI hl _).1 e⟩
  · intro h u F
    rcases h with hk | ⟨e1, e2⟩ | ⟨e1, e2⟩
    · rw [← C79_semi_rigid_partial b hb hk h1 h2 u F]
      have hphi : timoshenkoFactor b = 0 := by simp [timoshenkoFactor, hk]
      have key : ∀ w1 p1 w2 p2, shearSlopeDeflection (b.E * b.I) 0 b.l w1 p1 w2 p2 =
          slopeDeflection (b.E * b.I) b.l w1 p1 w2 p2 := by
        intro w1 p1 w2 p2
        simp only [shearSlopeDeflection, slopeDeflection, Prod.mk.injEq]
        refine ⟨by field_simp; ring, by field_simp; ring, by field_simp; ring, by field_simp; ring⟩
      unfold SemiRigidTimoshenko SemiRigidBeam
      simp only [hphi, key]
    · have G : bendingForces b.stiffness u =
          shearSlopeDeflection (b.E * b.I) (timoshenkoFactor b) b.l (u 1) (u 2) (u 4) (u 5) := by
        rw [BeamPart.stiffness, beamStiffness_eq, e1, e2]
        generalize timoshenkoFactor b = phi at *
        simp [bendingForces, shearSlopeDeflection, Fin.sum_univ_six, fixity]
        refine ⟨?_, ?_, ?_, ?_⟩ <;> field_simp <;> ring
      unfold SemiRigidTimoshenko
      rw [e1, e2, G]
      constructor
      · rintro ⟨p1, p2, rfl, k1, k2⟩
        rw [show p1 = u 2 from k1, show p2 = u 5 from k2]
      · rintro rfl
        exact ⟨_, _, rfl, rfl, rfl⟩
    · have G : bendingForces b.stiffness u = (0, 0, 0, 0) := by
        rw [BeamPart.stiffness, beamStiffness_eq, e1, e2]
        simp [bendingForces, Fin.sum_univ_six, fixity]
      unfold SemiRigidTimoshenko
      rw [e1, e2, G]
      generalize timoshenkoFactor b = phi at *
      have hEI' : b.E * b.I ≠ 0 := hEI.ne'
      constructor
      · rintro ⟨p1, p2, rfl, k1, k2⟩
        simp only [SpringLaw, Spring.physical, zero_mul, shearSlopeDeflection] at k1 k2
        have hc : b.E * b.I / ((1 + phi) * b.l) ≠ 0 := div_ne_zero hEI' (mul_ne_zero hphi' hl')
        have m1 := (mul_eq_zero.1 k1).resolve_left hc
        have m2 := (mul_eq_zero.1 k2).resolve_left hc
        have hp : (1 + phi) * (p1 - p2) = 0 := by linear_combination (m1 - m2) / 2
        have hp' := (mul_eq_zero.1 hp).resolve_left hphi'
        have hs : p1 + p2 + 2 * ((u 1 - u 4) / b.l) = 0 := by linear_combination (m1 + m2) / 6
        simp only [shearSlopeDeflection, hs, m1, m2, mul_zero, neg_zero]
      · rintro rfl
        refine ⟨-((u 1 - u 4) / b.l), -((u 1 - u 4) / b.l), ?_, ?_, ?_⟩
        · simp only [shearSlopeDeflection, Prod.mk.injEq]
          refine ⟨by ring, by ring, by ring, by ring⟩
        · simp [SpringLaw, Spring.physical]
        · simp [SpringLaw, Spring.physical]

/-- C79 fails: the shear-flexible example beam with one semi-rigid end. -/
theorem C79_violated : exampleBeam.Valid ∧ exampleBeam.s1.Nonneg ∧ exampleBeam.s2.Nonneg ∧
    ¬ ∀ (u : Fin 6 → ℚ) (F : ℚ × ℚ × ℚ × ℚ), SemiRigidTimoshenko (exampleBeam.E * exampleBeam.I)
      (timoshenkoFactor exampleBeam) exampleBeam.l exampleBeam.s1.physical exampleBeam.s2.physical (u 1) (u 2) (u 4) (u 5) F ↔
        F = bendingForces exampleBeam.stiffness u := by
  have h1 : exampleBeam.s1.Nonneg := trivial
  have h2 : exampleBeam.s2.Nonneg := by norm_num [exampleBeam, Spring.Nonneg]
  refine ⟨exampleBeam_valid, h1, h2, ?_⟩
  rw [C79_iff exampleBeam exampleBeam_valid h1 h2]
  simp [exampleBeam]

/-! ## C51 Hinge stiffness -/

/-- C51: the stiffness computed for a fixity factor in `[0, 1)` realises that factor at a beam end of the connected
beam's length. -/
theorem C51_realises_fixity (b : BeamPart K) (hb : b.Valid) {f : K} (h0 : 0 ≤ f) (h1 : f < 1) (old : Option K) :
    ∃ s, hingeStiffness b.E b.I b.l f old = some s ∧ fixity (b.E * b.I) b.l (.fin s) = f := by
  have hE := hb.E; have hI := hb.I; have hl := hb.l
  have h1' : 0 < 1 - f := by linarith
  refine ⟨3 * b.E * b.I * f / ((1 - f) * b.l), by simp [hingeStiffness, h0, h1], ?_⟩
  rcases h0.eq_or_lt with h | h
  · subst h; simp [fixity]
  · have hs : 0 < 3 * b.E * b.I * f / ((1 - f) * b.l) := by positivity
    simp only [fixity, gt_iff_lt, hs, if_true]
    field_simp
    ring

/-- C51: zero for a free hinge and strictly increasing with the fixity factor. -/
theorem C51_monotone (b : BeamPart K) (hb : b.Valid) {f f' : K} (h0 : 0 ≤ f) (h : f < f') (h1 : f' < 1)
    (old : Option K) :
    hingeStiffness b.E b.I b.l 0 old = some 0 ∧
      ∃ s s', hingeStiffness b.E b.I b.l f old = some s ∧ hingeStiffness b.E b.I b.l f' old = some s' ∧ s < s' := by
  have hE := hb.E; have hI := hb.I; have hl := hb.l
  have h1' : 0 < 1 - f := by linarith
  have h1'' : 0 < 1 - f' := by linarith
  have h0' : 0 ≤ f' := by linarith
  refine ⟨by simp [hingeStiffness], 3 * b.E * b.I * f / ((1 - f) * b.l), 3 * b.E * b.I * f' / ((1 - f') * b.l),
    by simp [hingeStiffness, h0, h.trans h1], by simp [hingeStiffness, h0', h1], ?_⟩
  rw [div_lt_div_iff₀ (by positivity) (by positivity)]
  have := mul_pos (mul_pos (mul_pos hE hI) hl) (sub_pos.mpr h)
  nlinarith

/-- C51: the fixity factor one gets a very large stiffness. -/
theorem C51_fixed (E I l : K) (old : Option K) : hingeStiffness E I l 1 old = some (10 ^ 30) := by
  have : npIsCloseOne (1 : K) := by simp [npIsCloseOne]; positivity
  simp [hingeStiffness, this]

/-- C51 fails: a fixity factor outside `[0, 1]` is not rejected, the computation silently keeps the old attribute
(and a factor slightly above one is accepted as fixed). -/
theorem C51_rejection_violated :
    hingeStiffness (200 : ℚ) 5 2 (-1) none = none ∧ hingeStiffness (200 : ℚ) 5 2 7 (some 42) = some 42 := by
  constructor <;> norm_num [hingeStiffness, npIsCloseOne, abs_le]

/-- C51 fails in use: inserting the hinge gives each of the two adjoining beam ends HALF of the computed stiffness
(`rose/pre_process/mesh_utils.py:129-132`), so that the fixity of each end is `f / (2 - f)` instead of `f`. -/
theorem C51_half_stiffness (b : BeamPart K) (hb : b.Valid) {f : K} (h0 : 0 ≤ f) (h1 : f < 1) (old : Option K) :
    ∃ s, hingeStiffness b.E b.I b.l f old = some s ∧ fixity (b.E * b.I) b.l (.fin (s / 2)) = f / (2 - f) := by
  have hE := hb.E; have hI := hb.I; have hl := hb.l
  have h1' : 0 < 1 - f := by linarith
  have h2' : 0 < 2 - f := by linarith
  refine ⟨3 * b.E * b.I * f / ((1 - f) * b.l), by simp [hingeStiffness, h0, h1], ?_⟩
  rcases h0.eq_or_lt with h | h
  · subst h; simp [fixity]
  · have hs : 0 < 3 * b.E * b.I * f / ((1 - f) * b.l) / 2 := by positivity
    simp only [fixity, gt_iff_lt, hs, if_true]
    field_simp
    ring

example : (0 : ℚ) ≤ 1 / 3 ∧ (1 / 3 : ℚ) < 1 := by norm_num

end Rose
