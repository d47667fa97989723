/-
C169: loads and deflections inside an element with semi-rigid ends.
-/
import Verif.Props.Hinge
import Verif.Props.LoadWork
import Verif.Spec.SemiRigidLoad
import Verif.Props.HingedRide

set_option linter.unusedSectionVars false

namespace Rose
open Spec

variable {K : Type*} [Field K] [LinearOrder K] [IsStrictOrderedRing K]

/-- The transverse nodal forces and moments `(V1, M1, V2, M2)` that the code puts on the nodes for a transverse force `P` at distance `a`. -/
def codeLoads (b : BeamPart K) (buf : Buffers K) (P a : K) : K × K × K × K :=
  let g := localNodalLoads (timoshenkoFactor b) b.l a (0, P, 0) buf
  (g.2.1 0, g.2.2 0, g.2.1 1, g.2.2 1)

theorem codeLoads_eq (b : BeamPart K) (hl : b.l ≠ 0) (hk : b.kappa = 0) (buf : Buffers K) (P a : K) :
    codeLoads b buf P a = -clampedReactions P a b.l := by
  have hphi : timoshenkoFactor b = 0 := by simp [timoshenkoFactor, hk]
  unfold codeLoads
  rw [localNodalLoads_force, hphi]
  simp only [clampedReactions, Prod.neg_mk, Prod.mk.injEq, yShape]
  refine ⟨?_, ?_, ?_, ?_⟩ <;> simp <;> field_simp <;> ring

theorem slope_zero {EI l : K} (hEI : EI ≠ 0) (hl : l ≠ 0) {p1 p2 : K} (h1 : (slopeDeflection EI l 0 p1 0 p2).2.1 = 0)
    (h2 : (slopeDeflection EI l 0 p1 0 p2).2.2.2 = 0) : p1 = 0 ∧ p2 = 0 := by
  simp only [slopeDeflection, sub_zero, zero_div, mul_zero, add_zero] at h1 h2
  have hc : 2 * EI / l ≠ 0 := div_ne_zero (mul_ne_zero two_ne_zero hEI) hl
  have e1 := (mul_eq_zero.1 h1).resolve_left hc
  have e2 := (mul_eq_zero.1 h2).resolve_left hc
  have : (3 : K) ≠ 0 := by norm_num
  constructor
  · have : 3 * p1 = 0 := by linear_combination 2 * e1 - e2
    simpa using this
  · have : 3 * p2 = 0 := by linear_combination 2 * e2 - e1
    simpa using this

/-- **C169, loads, exact** For a shear-rigid element with non-negative end springs and a transverse force inside it or at its ends: the nodal forces of the
code (stiffness times nodal displacements less nodal loads) are, for all displacements of the nodes, the end forces of the
loaded beam on its springs exactly if both ends are rigid or the force is at a node. -/
theorem C169_loads_iff (b : BeamPart K) (hb : b.Valid) (hk : b.kappa = 0) (h1 : b.s1.Nonneg) (h2 : b.s2.Nonneg) (buf : Buffers K)
    (P a : K) (hP : P ≠ 0) :
    (∀ u : Fin 6 → K, LoadedSemiRigidBeam (b.E * b.I) b.l b.s1.physical b.s2.physical P a (u 1) (u 2) (u 4) (u 5)
      (bendingForces b.stiffness u - codeLoads b buf P a)) ↔ a = 0 ∨ a = b.l ∨ b.s1 = .inf ∧ b.s2 = .inf := by
  have hl := hb.l.ne'
  have hEI : b.E * b.I ≠ 0 := (mul_pos hb.E hb.I).ne'
  rw [codeLoads_eq b hl hk]
  constructor
  · intro h
    obtain ⟨p1, p2, e, k1, k2⟩ := h 0
    have h0 : bendingForces b.stiffness 0 = 0 := by simp [bendingForces]
    rw [h0, zero_sub, neg_neg] at e k1 k2
    simp only [Pi.zero_apply] at e k1 k2
    have z : slopeDeflection (b.E * b.I) b.l 0 p1 0 p2 = 0 := by
      have := e
      rwa [eq_comm, add_eq_right] at this
    obtain ⟨rfl, rfl⟩ := slope_zero hEI hl (by rw [z]; rfl) (by rw [z]; rfl)
    by_contra hc
    push Not at hc
    obtain ⟨c1, c2, c3⟩ := hc
    have hla : b.l - a ≠ 0 := sub_ne_zero.2 (Ne.symm c2)
    have m1 : (clampedReactions P a b.l).2.1 ≠ 0 := by
      simp only [clampedReactions]
      exact neg_ne_zero.2 (div_ne_zero (mul_ne_zero (mul_ne_zero hP c1) (pow_ne_zero 2 hla)) (pow_ne_zero 2 hl))
    have m2 : (clampedReactions P a b.l).2.2.2 ≠ 0 := by
      simp only [clampedReactions]
      exact div_ne_zero (mul_ne_zero (mul_ne_zero hP (pow_ne_zero 2 c1)) hla) (pow_ne_zero 2 hl)
    have i1 : b.s1 = .inf := by
      cases hs : b.s1 with
      | inf => rfl
      | fin s => rw [hs] at k1; exact absurd (by simpa [SpringLaw, Spring.physical] using k1) m1
    have i2 : b.s2 = .inf := by
      cases hs : b.s2 with
      | inf => rfl
      | fin s => rw [hs] at k2; exact absurd (by simpa [SpringLaw, Spring.physical] using k2) m2
    exact c3 i1 i2
  · intro h u
    obtain ⟨p1, p2, e, k1, k2⟩ := (C79_semi_rigid_partial b hb hk h1 h2 u (bendingForces b.stiffness u)).2 rfl
    refine ⟨p1, p2, by rw [sub_neg_eq_add, ← e], ?_, ?_⟩
    · rw [sub_neg_eq_add]
      rcases h with rfl | rfl | ⟨i, -⟩
      · simpa [clampedReactions] using k1
      · simpa [clampedReactions] using k1
      · rw [i] at k1 ⊢
        exact k1
    · rw [sub_neg_eq_add]
      rcases h with rfl | rfl | ⟨-, i⟩
      · simpa [clampedReactions] using k2
      · simpa [clampedReactions] using k2
      · rw [i] at k2 ⊢
        exact k2

theorem hermite_eq (b : BeamPart K) (hl : b.l ≠ 0) (hk : b.kappa = 0) (w1 t1 w2 t2 a : K) :
    yShape (timoshenkoFactor b) b.l a 0 * w1 + yShape (timoshenkoFactor b) b.l a 1 * t1 + yShape (timoshenkoFactor b) b.l a 2 * w2 +
        yShape (timoshenkoFactor b) b.l a 3 * t2 =
      w1 + t1 * a + (3 * (w2 - w1) / b.l ^ 2 - (2 * t1 + t2) / b.l) * a ^ 2 + ((t1 + t2) / b.l ^ 2 - 2 * (w2 - w1) / b.l ^ 3) * a ^ 3 := by
  have hphi : timoshenkoFactor b = 0 := by simp [timoshenkoFactor, hk]
  simp only [hphi, yShape]
  simp
  field_simp
  ring

/-- The rotations of the ends on their springs are determined by the nodes. -/
theorem ends_unique (b : BeamPart K) (hb : b.Valid) (hk : b.kappa = 0) (h1 : b.s1.Nonneg) (h2 : b.s2.Nonneg) (w1 t1 w2 t2 p1 p2 q1 q2 : K)
    (a1 : SpringLaw b.s1.physical t1 p1 (slopeDeflection (b.E * b.I) b.l w1 p1 w2 p2).2.1)
    (a2 : SpringLaw b.s2.physical t2 p2 (slopeDeflection (b.E * b.I) b.l w1 p1 w2 p2).2.2.2)
    (c1 : SpringLaw b.s1.physical t1 q1 (slopeDeflection (b.E * b.I) b.l w1 q1 w2 q2).2.1)
    (c2 : SpringLaw b.s2.physical t2 q2 (slopeDeflection (b.E * b.I) b.l w1 q1 w2 q2).2.2.2) : p1 = q1 ∧ p2 = q2 := by
  have e1 := (C79_semi_rigid_partial b hb hk h1 h2 ![0, w1, t1, 0, w2, t2] _).1 ⟨p1, p2, rfl, a1, a2⟩
  have e2 := (C79_semi_rigid_partial b hb hk h1 h2 ![0, w1, t1, 0, w2, t2] _).1 ⟨q1, q2, rfl, c1, c2⟩
  have e := e1.trans e2.symm
  have hl := hb.l.ne'
  have hEI : b.E * b.I ≠ 0 := (mul_pos hb.E hb.I).ne'
  simp only [slopeDeflection, Prod.mk.injEq] at e
  obtain ⟨-, f1, -, f2⟩ := e
  have hc : 2 * (b.E * b.I) / b.l ≠ 0 := div_ne_zero (mul_ne_zero two_ne_zero hEI) hl
  have g1 := mul_left_cancel₀ hc f1
  have g2 := mul_left_cancel₀ hc f2
  constructor
  · linear_combination (2 * g1 - g2) / 3
  · linear_combination (2 * g2 - g1) / 3

/-- **C169, deflection, exact** The deflection that the code takes at distance `a` (shape functions times displacements of the nodes) is, for all displacements of
the nodes, that of the beam on its springs exactly if both ends are rigid or the place is a node. -/
theorem C169_deflection_iff (b : BeamPart K) (hb : b.Valid) (hk : b.kappa = 0) (h1 : b.s1.Nonneg) (h2 : b.s2.Nonneg) (a : K) :
    (∀ w1 t1 w2 t2 : K, SemiRigidDeflection (b.E * b.I) b.l b.s1.physical b.s2.physical w1 t1 w2 t2 a
      (yShape (timoshenkoFactor b) b.l a 0 * w1 + yShape (timoshenkoFactor b) b.l a 1 * t1 + yShape (timoshenkoFactor b) b.l a 2 * w2 +
        yShape (timoshenkoFactor b) b.l a 3 * t2)) ↔ a = 0 ∨ a = b.l ∨ b.s1 = .inf ∧ b.s2 = .inf := by
  have hl := hb.l.ne'
  have hEI := mul_pos hb.E hb.I
  have hlp := hb.l
  simp only [hermite_eq b hl hk]
  constructor
  · intro h
    by_contra hc
    push Not at hc
    obtain ⟨c1, c2, c3⟩ := hc
    have hla : b.l - a ≠ 0 := sub_ne_zero.2 (Ne.symm c2)
    -- the difference of the two lines
    have diff : ∀ t1 t2 p1 p2 : K,
        0 + t1 * a + (3 * (0 - 0) / b.l ^ 2 - (2 * t1 + t2) / b.l) * a ^ 2 + ((t1 + t2) / b.l ^ 2 - 2 * (0 - 0) / b.l ^ 3) * a ^ 3 =
          0 + p1 * a + (3 * (0 - 0) / b.l ^ 2 - (2 * p1 + p2) / b.l) * a ^ 2 + ((p1 + p2) / b.l ^ 2 - 2 * (0 - 0) / b.l ^ 3) * a ^ 3 →
        (b.l - a) * (t1 - p1) = a * (t2 - p2) := by
      intro t1 t2 p1 p2 e
      field_simp at e
      have : b.l * (a * (b.l - a)) * ((b.l - a) * (t1 - p1) - a * (t2 - p2)) = 0 := by linear_combination e
      have := (mul_eq_zero.1 this).resolve_left (mul_ne_zero hl (mul_ne_zero c1 hla))
      linear_combination this
    -- a spring turns by one, the other end not at all
    obtain ⟨κ, hκ⟩ : ∃ κ, κ = 2 * (b.E * b.I) / b.l := ⟨_, rfl⟩
    have hκp : 0 < κ := by rw [hκ]; positivity
    have law0 : ∀ (s : Spring K) (t M : K), M = 0 → SpringLaw s.physical t t M := by
      intro s t M hM
      cases s <;> simp [SpringLaw, Spring.physical, hM]
    cases hs1 : b.s1 with
    | fin s =>
      obtain ⟨q1, q2, ⟨k1, k2⟩, e⟩ := h 0 (1 + 2 * s / (3 * κ)) 0 (-s / (3 * κ))
      have d := diff _ _ _ _ e
      obtain ⟨e1, e2⟩ := ends_unique b hb hk h1 h2 0 (1 + 2 * s / (3 * κ)) 0 (-s / (3 * κ)) q1 q2 (2 * s / (3 * κ)) (-s / (3 * κ)) k1 k2
        (by
          rw [hs1]
          simp only [SpringLaw, Spring.physical, slopeDeflection, ← hκ]
          field_simp
          ring)
        (law0 _ _ _ (by
          simp only [slopeDeflection, ← hκ]
          field_simp
          ring))
      rw [e1, e2] at d
      exact hla (by linear_combination d)
    | inf =>
      cases hs2 : b.s2 with
      | inf => exact c3 hs1 hs2
      | fin s =>
        obtain ⟨q1, q2, ⟨k1, k2⟩, e⟩ := h 0 (-s / (3 * κ)) 0 (1 + 2 * s / (3 * κ))
        have d := diff _ _ _ _ e
        obtain ⟨e1, e2⟩ := ends_unique b hb hk h1 h2 0 (-s / (3 * κ)) 0 (1 + 2 * s / (3 * κ)) q1 q2 (-s / (3 * κ)) (2 * s / (3 * κ)) k1 k2
          (law0 _ _ _ (by
            simp only [slopeDeflection, ← hκ]
            field_simp
            ring))
          (by
            rw [hs2]
            simp only [SpringLaw, Spring.physical, slopeDeflection, ← hκ]
            field_simp
            ring)
        rw [e1, e2] at d
        exact c1 (by linear_combination -d)
  · intro h w1 t1 w2 t2
    obtain ⟨p1, p2, e, k1, k2⟩ := (C79_semi_rigid_partial b hb hk h1 h2 ![0, w1, t1, 0, w2, t2] (bendingForces b.stiffness ![0, w1, t1, 0, w2, t2])).2 rfl
    rw [e] at k1 k2
    refine ⟨p1, p2, ⟨k1, k2⟩, ?_⟩
    rcases h with rfl | rfl | ⟨i1, i2⟩
    · ring
    · field_simp
      ring
    · rw [i1] at k1
      rw [i2] at k2
      have e1 : p1 = t1 := k1
      have e2 : p2 = t2 := k2
      rw [e1, e2]

/-! ### How much is passed on -/

/-- **C169, moment at the spring** Nodes held, first end rigid, second end on a spring with fixity `α`: the beam has exactly one set of end forces, and the moment it puts
on its second node is `3 α / (4 - α)` times the moment of the code, whatever the force and its place: none for a free hinge. -/
theorem C169_moment (b : BeamPart K) (hb : b.Valid) (hk : b.kappa = 0) (h1 : b.s1 = .inf) (h2 : b.s2.Nonneg) (buf : Buffers K) (P a : K) :
    ∃ F, (∀ F', LoadedSemiRigidBeam (b.E * b.I) b.l b.s1.physical b.s2.physical P a 0 0 0 0 F' ↔ F' = F) ∧
      -F.2.2.2 = 3 * fixity (b.E * b.I) b.l b.s2 / (4 - fixity (b.E * b.I) b.l b.s2) * (codeLoads b buf P a).2.2.2 := by
  have hl := hb.l
  have hEI := mul_pos hb.E hb.I
  have hl' := hl.ne'
  have hEI' := hEI.ne'
  have f1 := fixity_le_one hEI hl b.s2
  have f0 := fixity_nonneg hEI hl b.s2
  rw [codeLoads_eq b hl' hk]
  have hd : 4 - fixity (b.E * b.I) b.l b.s2 ≠ 0 := by
    have : 0 < 4 - fixity (b.E * b.I) b.l b.s2 := by linarith
    exact this.ne'
  -- the rotation of the second end
  have key : ∀ p : K, SpringLaw b.s2.physical 0 p ((slopeDeflection (b.E * b.I) b.l 0 0 0 p + clampedReactions P a b.l).2.2.2) ↔
      p = -((1 - fixity (b.E * b.I) b.l b.s2) / (4 - fixity (b.E * b.I) b.l b.s2) * b.l / (b.E * b.I) * (clampedReactions P a b.l).2.2.2) := by
    intro p
    rw [springLaw_iff hEI hl h2]
    have eM : (slopeDeflection (b.E * b.I) b.l 0 0 0 p + clampedReactions P a b.l).2.2.2 =
        4 * (b.E * b.I) / b.l * p + (clampedReactions P a b.l).2.2.2 := by
      simp only [slopeDeflection, Prod.snd_add, sub_zero, zero_div, mul_zero, add_zero, zero_add]
      ring
    rw [eM]
    generalize fixity (b.E * b.I) b.l b.s2 = α at *
    generalize (clampedReactions P a b.l).2.2.2 = M at *
    generalize b.E * b.I = EI at *
    constructor
    · rintro ⟨e, -⟩
      field_simp at e ⊢
      linear_combination -e
    · rintro rfl
      refine ⟨?_, ?_⟩
      · field_simp
        ring
      · rintro rfl
        field_simp
        ring
  refine ⟨slopeDeflection (b.E * b.I) b.l 0 0 0 (-((1 - fixity (b.E * b.I) b.l b.s2) / (4 - fixity (b.E * b.I) b.l b.s2) * b.l / (b.E * b.I) *
    (clampedReactions P a b.l).2.2.2)) + clampedReactions P a b.l, fun F => ⟨?_, ?_⟩, ?_⟩
  · rintro ⟨p1, p2, e, k1, k2⟩
    rw [h1] at k1
    have k1' : p1 = 0 := k1
    subst k1'
    rw [e] at k2
    rw [e, (key p2).1 k2]
  · rintro rfl
    refine ⟨0, _, rfl, ?_, (key _).2 rfl⟩
    rw [h1]
    rfl
  · have eM : ∀ p : K, (slopeDeflection (b.E * b.I) b.l 0 0 0 p + clampedReactions P a b.l).2.2.2 =
        4 * (b.E * b.I) / b.l * p + (clampedReactions P a b.l).2.2.2 := by
      intro p
      simp only [slopeDeflection, Prod.snd_add, sub_zero, zero_div, mul_zero, add_zero, zero_add]
      ring
    rw [eM]
    simp only [Prod.snd_neg]
    generalize fixity (b.E * b.I) b.l b.s2 = α at *
    generalize (clampedReactions P a b.l).2.2.2 = M at *
    generalize b.E * b.I = EI at *
    field_simp
    ring

/-! ### Rails with a hinge -/

section hinge
variable {t : HorizontalTrack ℝ} {m k : ℕ} {l : ℝ}

theorem hingeStiffness_nonneg {E I le f s : ℝ} (hE : 0 < E) (hI : 0 < I) (hle : 0 < le) (h0 : 0 ≤ f)
    (hs : hingeStiffness E I le f none = some s) : 0 ≤ s := by
  unfold hingeStiffness at hs
  split_ifs at hs with c1 c2
  · injection hs with hs
    have : 0 < 1 - f := by linarith [c1.2]
    rw [← hs]
    positivity
  · injection hs with hs
    rw [← hs]
    positivity

/-- **C169 is violated** beside every hinge: the rail of nodes at equal distances with a hinge of any fixity from 0 to 1 in an inner node consists of four parts; for the two
elements at the hinge (shear-rigid rail) no force strictly inside them is passed on to the nodes as by the beam on its spring, and
at no place strictly inside is the deflection that the code takes that of this beam for all displacements of the nodes. -/
theorem C169_hinge_violated (g : EvenRail t m l) (hk : 1 ≤ k) (hkm : k + 1 < m) (near : 1 / 100000000 + 1 / 100000 * ((k : ℝ) * l) < l)
    (rail : BeamPart ℝ) (hr : ({ rail with l := l } : BeamPart ℝ).Valid) (hkap : rail.kappa = 0)
    (f le : ℝ) (hle : 0 < le) (hf : 0 ≤ f) (hf' : f ≤ 1) :
    ∃ front before after rear, t.hingedRail rail.E rail.I f le ((k : ℝ) * l) = .ok [front, before, after, rear] ∧
      before.elements = [(t.rail.getD (k - 1) 0, t.rail.getD k 0)] ∧ after.elements = [(t.rail.getD k 0, t.rail.getD (k + 1) 0)] ∧
      ∀ b : BeamPart ℝ, b = { before.beam rail with l := l } ∨ b = { after.beam rail with l := l } → ∀ a, 0 < a → a < l →
        (∀ buf P, P ≠ 0 → ¬ ∀ u : Fin 6 → ℝ, LoadedSemiRigidBeam (b.E * b.I) b.l b.s1.physical b.s2.physical P a (u 1) (u 2) (u 4) (u 5)
          (bendingForces b.stiffness u - codeLoads b buf P a)) ∧
        ¬ ∀ w1 t1 w2 t2 : ℝ, SemiRigidDeflection (b.E * b.I) b.l b.s1.physical b.s2.physical w1 t1 w2 t2 a
          (yShape (timoshenkoFactor b) b.l a 0 * w1 + yShape (timoshenkoFactor b) b.l a 1 * t1 + yShape (timoshenkoFactor b) b.l a 2 * w2 +
            yShape (timoshenkoFactor b) b.l a 3 * t2) := by
  obtain ⟨s, hs⟩ := hingeStiffness_some rail.E rail.I le f hf hf'
  have hs0 := hingeStiffness_nonneg hr.E hr.I hle hf hs
  obtain ⟨A, B, p, c, q, hrail, hA, hadd, -⟩ := g.addHinge hk hkm near s
  refine ⟨_, _, _, _, by unfold HorizontalTrack.hingedRail; rw [hs]; exact hadd, ?_, ?_, ?_⟩
  · rw [hrail, ← hA]
    simp
  · rw [hrail, ← hA]
    simp [add_assoc]
  · have hb1 : ({ (RailPart.beam ⟨[p, c], [(p, c)], none, some (s / 2)⟩ rail) with l := l } : BeamPart ℝ) =
        { rail with l := l, s1 := .inf, s2 := .fin (s / 2) } := by
      simp [RailPart.beam, springOf]
    have hb2 : ({ (RailPart.beam ⟨[c, q], [(c, q)], some (s / 2), none⟩ rail) with l := l } : BeamPart ℝ) =
        { rail with l := l, s1 := .fin (s / 2), s2 := .inf } := by
      simp [RailPart.beam, springOf]
    have val : ∀ x y, ({ rail with l := l, s1 := x, s2 := y } : BeamPart ℝ).Valid := fun x y => ⟨hr.E, hr.nu, hr.rho, hr.A, hr.I, hr.kappa, hr.l⟩
    have n2 : (Spring.fin (s / 2) : Spring ℝ).Nonneg := by
      show 0 ≤ s / 2
      linarith
    intro b hb a ha0 hal
    have hor : ∀ (x y : Spring ℝ), ¬ (x = .inf ∧ y = .inf) → ¬ (a = 0 ∨ a = l ∨ x = .inf ∧ y = .inf) := by
      intro x y hxy hc
      rcases hc with hc | hc | hc
      · exact ha0.ne' hc
      · exact hal.ne hc
      · exact hxy hc
    rcases hb with rfl | rfl
    · rw [hb1]
      refine ⟨fun buf P hP hc => ?_, fun hc => ?_⟩
      · exact hor _ _ (by simp) ((C169_loads_iff _ (val .inf (.fin (s / 2))) hkap trivial n2 buf P a hP).1 hc)
      · exact hor _ _ (by simp) ((C169_deflection_iff _ (val .inf (.fin (s / 2))) hkap trivial n2 a).1 hc)
    · rw [hb2]
      refine ⟨fun buf P hP hc => ?_, fun hc => ?_⟩
      · exact hor _ _ (by simp) ((C169_loads_iff _ (val (.fin (s / 2)) .inf) hkap n2 trivial buf P a hP).1 hc)
      · exact hor _ _ (by simp) ((C169_deflection_iff _ (val (.fin (s / 2)) .inf) hkap n2 trivial a).1 hc)

end hinge

/-- A shear-rigid beam of length 2 with a spring of fixity one half at its second end: of a force 8 in the middle the beam puts the moment
-6/7 on its second node, the code -2. -/
example : ∃ F : ℚ × ℚ × ℚ × ℚ, (∀ F', LoadedSemiRigidBeam (200 * 5) 2 none (some 1500) 8 1 0 0 0 0 F' ↔ F' = F) ∧ -F.2.2.2 = -6 / 7 := by
  let b : BeamPart ℚ := { exampleBeam with kappa := 0, s2 := .fin 1500 }
  have hb : b.Valid := by constructor <;> norm_num [b, exampleBeam]
  have h := C169_moment b hb rfl rfl (by norm_num [b, Spring.Nonneg]) ⟨0, 0⟩ 8 1
  rw [codeLoads_eq b hb.l.ne' rfl] at h
  have e : 3 * fixity (b.E * b.I) b.l b.s2 / (4 - fixity (b.E * b.I) b.l b.s2) * (-clampedReactions 8 1 b.l).2.2.2 = -6 / 7 := by
    norm_num [b, exampleBeam, fixity, clampedReactions]
  rw [e] at h
  exact h

end Rose
