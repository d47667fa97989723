/-
C20 (positive definite mass matrix of the beam) and C172 (motion of tracks in time).
-/
import Verif.Lemmas.Oscillator
import Verif.Props.HingedCombined

set_option linter.unusedSectionVars false

namespace Rose
open Finset

/-! ### C20 -/

/-- **C20** The mass matrix of a valid beam is positive definite: every motion of the end nodes that is not rest has kinetic energy. -/
theorem C20_beam_mass_pos (b : BeamPart ℝ) (hb : b.Valid) (u : Fin 6 → ℝ) (hu : u ≠ 0) : 0 < Spec.energy b.massMatrix u := by
  have hphi := timoshenkoFactor_nonneg b hb
  have hl := hb.l
  have h1 := hb.rho; have h2 := hb.A; have h3 := hb.I
  rw [C20_consistent_mass b hb u]
  generalize timoshenkoFactor b = phi at *
  have hp : 1 + phi ≠ 0 := by positivity
  have hl0 : b.l ≠ 0 := hl.ne'
  have hcont : Continuous fun x => (b.rho * b.A * (Spec.axialDisplacement b.l (u 0) (u 3) x ^ 2
      + Spec.timoDeflection phi b.l (u 1) (u 2) (u 4) (u 5) x ^ 2)
      + if 0 < b.kappa then b.rho * b.I * Spec.timoRotation phi b.l (u 1) (u 2) (u 4) (u 5) x ^ 2 else 0) := by
    unfold Spec.axialDisplacement Spec.timoDeflection Spec.timoRotation
    split_ifs <;> fun_prop
  refine intervalIntegral.integral_pos hl hcont.continuousOn ?_ ?_
  · intro x _
    split_ifs <;> positivity
  · by_contra hne
    push Not at hne
    have hz : ∀ x ∈ Set.Icc 0 b.l, Spec.axialDisplacement b.l (u 0) (u 3) x = 0 ∧
        Spec.timoDeflection phi b.l (u 1) (u 2) (u 4) (u 5) x = 0 := by
      intro x hx
      have h := hne x hx
      have h0 : 0 ≤ if 0 < b.kappa then b.rho * b.I * Spec.timoRotation phi b.l (u 1) (u 2) (u 4) (u 5) x ^ 2 else 0 := by
        split_ifs <;> positivity
      have hA : 0 < b.rho * b.A := by positivity
      have hs : Spec.axialDisplacement b.l (u 0) (u 3) x ^ 2 + Spec.timoDeflection phi b.l (u 1) (u 2) (u 4) (u 5) x ^ 2 ≤ 0 := by
        by_contra hc
        push Not at hc
        have := mul_pos hA hc
        linarith
      constructor
      · have := sq_nonneg (Spec.timoDeflection phi b.l (u 1) (u 2) (u 4) (u 5) x)
        exact pow_eq_zero_iff two_ne_zero |>.mp (le_antisymm (by linarith) (sq_nonneg _))
      · have := sq_nonneg (Spec.axialDisplacement b.l (u 0) (u 3) x)
        exact pow_eq_zero_iff two_ne_zero |>.mp (le_antisymm (by linarith) (sq_nonneg _))
    have at0 := hz 0 ⟨le_rfl, hl.le⟩
    have at1 := hz b.l ⟨hl.le, le_rfl⟩
    have at2 := (hz (b.l / 2) ⟨by positivity, by linarith⟩).2
    have at4 := (hz (b.l / 4) ⟨by positivity, by linarith⟩).2
    have x2 : b.l / 2 / b.l = 1 / 2 := by field_simp
    have x4 : b.l / 4 / b.l = 1 / 4 := by field_simp
    unfold Spec.axialDisplacement at at0 at1
    unfold Spec.timoDeflection at at0 at1 at2 at4
    simp only [zero_div, div_self hl0, x2, x4, div_eq_zero_iff, hp, or_false] at at0 at1 at2 at4
    have u0 : u 0 = 0 := by linarith [at0.1]
    have u3 : u 3 = 0 := by linarith [at1.1]
    have u1 : u 1 = 0 := by
      have := at0.2
      have h : u 1 * (1 + phi) = 0 := by linear_combination this
      exact (mul_eq_zero.mp h).resolve_right hp
    have u4 : u 4 = 0 := by
      have := at1.2
      have h : u 4 * (1 + phi) = 0 := by linear_combination this
      exact (mul_eq_zero.mp h).resolve_right hp
    rw [u1, u4] at at2 at4
    have e1 : b.l * (1 + phi) * (u 2 - u 5) = 0 := by linear_combination 8 * at2
    have e2 : u 2 = u 5 := by
      have := (mul_eq_zero.mp e1).resolve_left (mul_ne_zero hl0 hp)
      linarith
    rw [e2] at at4
    have e3 : b.l * u 5 = 0 := by linear_combination 64 / 6 * at4
    have u5 : u 5 = 0 := (mul_eq_zero.mp e3).resolve_left hl0
    apply hu
    ext i
    fin_cases i
    · exact u0
    · exact u1
    · exact e2.trans u5
    · exact u3
    · exact u4
    · exact u5

/-! ### Symmetry -/

section symmetry
variable {K : Type*} [Field K] [LinearOrder K] [IsStrictOrderedRing K]

/-- All matrices of a part are symmetric. -/
def AssemblyPart.Symmetric (p : AssemblyPart K) : Prop :=
  ∀ a, p.stiffness = some a ∨ p.mass = some a ∨ p.damping = some a → ∀ i j, a (i, j) = a (j, i)

theorem matrixEntries_symm {m : ℕ} (A : Matrix (Fin m) (Fin m) K) (h : A.IsSymm) (i j : ℕ) :
    matrixEntries A (i, j) = matrixEntries A (j, i) := by
  unfold matrixEntries
  by_cases hi : i < m <;> by_cases hj : j < m <;> simp [hi, hj]
  exact (h.apply _ _)

theorem localWork_symm (m : ℕ) (act : Fin 3 → Bool) (a : ℕ × ℕ → K) (h : ∀ i j, a (i, j) = a (j, i)) (w z : Fin m → Fin 3 → K) :
    Spec.localWork m act a w z = Spec.localWork m act a z w := by
  unfold Spec.localWork
  rw [sum_comm]
  refine sum_congr rfl fun i _ => sum_congr rfl fun j _ => ?_
  rw [sum_comm]
  refine sum_congr rfl fun k _ => sum_congr rfl fun l _ => ?_
  by_cases h1 : act k = true <;> by_cases h2 : act l = true <;> simp [h1, h2]
  rw [h]
  ring

theorem partWork_symm (p : AssemblyPart K) (a : ℕ × ℕ → K) (h : ∀ i j, a (i, j) = a (j, i)) (v u : Spec.NodalField K) :
    Spec.partWork p a v u = Spec.partWork p a u v := by
  unfold Spec.partWork
  split_ifs
  · congr 1
    exact List.map_congr_left fun m _ => localWork_symm _ _ _ h _ _
  · congr 1
    exact List.map_congr_left fun m _ => localWork_symm _ _ _ h _ _

theorem systemWork_symm (matrix : AssemblyPart K → Option (ℕ × ℕ → K)) (parts : List (AssemblyPart K))
    (h : ∀ p ∈ parts, ∀ a, matrix p = some a → ∀ i j, a (i, j) = a (j, i)) (v u : Spec.NodalField K) :
    Spec.systemWork matrix parts v u = Spec.systemWork matrix parts u v := by
  unfold Spec.systemWork
  refine congrArg List.sum (List.map_congr_left fun p hp => ?_)
  cases hm : matrix p with
  | none => rfl
  | some a => exact partWork_symm p a (h p hp a hm) v u

theorem matrix_symm (N : ℕ) (g : ℕ → ℕ → K) (h : ∀ V U, matrixWork N g V U = matrixWork N g U V) :
    ∀ i < N, ∀ j < N, g i j = g j i := by
  intro i hi j hj
  have key : ∀ a < N, ∀ b < N, matrixWork N g (fun k => if k = a then 1 else 0) (fun k => if k = b then 1 else 0) = g a b := by
    intro a ha b hb
    unfold matrixWork
    rw [sum_eq_single a, sum_eq_single b]
    · simp
    · intro c _ hc; simp [hc]
    · intro hc; exact absurd (mem_range.mpr hb) hc
    · intro c _ hc; simp [hc]
    · intro hc; exact absurd (mem_range.mpr ha) hc
  rw [← key i hi j hj, h, key j hj i hi]

theorem beamAssembly_symm (b : BeamPart K) (es : List ((ℕ × ℕ) × (K × K))) (ns : List ℕ) : (beamAssembly b es ns).Symmetric := by
  rintro a (h | h | h) <;> simp only [beamAssembly, Option.some.injEq] at h <;> subst h
  · exact matrixEntries_symm _ (C19_beam_symmetric b)
  · exact matrixEntries_symm _ (C20_beam_mass_symmetric b)
  · exact matrixEntries_symm _ (by ext; simp)

theorem rodAssembly_symm (r : RodValues K) (es : List ((ℕ × ℕ) × (K × K))) (ns : List ℕ) : (rodAssembly r es ns).Symmetric := by
  rintro a (h | h | h) <;> simp only [rodAssembly, Option.some.injEq, Option.map_eq_some_iff] at h
  · subst h
    exact matrixEntries_symm _ (C19_rod_symmetric _).1
  · obtain ⟨m, -, rfl⟩ := h
    exact matrixEntries_symm _ (C19_rod_symmetric _).2.2
  · obtain ⟨m, -, rfl⟩ := h
    exact matrixEntries_symm _ (C19_rod_symmetric _).2.1

theorem sleeperAssembly_symm (mass : K) (ns : List ℕ) : (sleeperAssembly mass ns).Symmetric := by
  have h1 : ∀ A : Matrix (Fin 1) (Fin 1) K, A.IsSymm := by
    intro A
    ext i j
    rw [Subsingleton.elim i j]
    rfl
  rintro a (h | h | h) <;> simp only [sleeperAssembly, Option.some.injEq] at h <;> subst h <;>
    exact matrixEntries_symm _ (h1 _)

theorem TrackParts.symmetric (T : TrackParts K) : ∀ p ∈ T.parts, p.Symmetric := by
  intro p hp
  unfold TrackParts.parts at hp
  rcases List.mem_cons.1 hp with rfl | hp
  · exact beamAssembly_symm _ _ _
  · rcases List.mem_cons.1 hp with rfl | hp
    · exact rodAssembly_symm _ _ _
    · rcases List.mem_cons.1 hp with rfl | hp
      · exact sleeperAssembly_symm _ _
      · obtain ⟨s, -, rfl⟩ := List.mem_map.mp hp
        exact rodAssembly_symm _ _ _

theorem TrackParts.hinged_symmetric (T : TrackParts K) (H : HingeCut K) : ∀ p ∈ T.hinged H, p.Symmetric := by
  intro p hp
  rcases List.mem_append.mp hp with hp | hp
  · unfold HingeCut.pieces at hp
    simp only [List.mem_cons, List.not_mem_nil, or_false] at hp
    rcases hp with rfl | rfl | rfl | rfl <;> exact beamAssembly_symm _ _ _
  · exact T.symmetric p (List.mem_of_mem_tail hp)

end symmetry

/-! ### Mass -/

/-- Masses and dampings of a track that are not negative. -/
structure TrackParts.NonNeg (T : TrackParts ℝ) : Prop where
  padMass : ∀ m, T.pad.mass = some m → 0 ≤ m
  padDamping : ∀ c, T.pad.damping = some c → 0 ≤ c
  sleeper : 0 ≤ T.sleeperMass
  soilMass : ∀ s ∈ T.soils, ∀ m, s.1.mass = some m → 0 ≤ m
  soilDamping : ∀ s ∈ T.soils, ∀ c, s.1.damping = some c → 0 ≤ c

/-- Rods move without kinetic energy only where they have no mass. -/
theorem rodWork_mass_zero (m : Option ℝ) (hm : ∀ x, m = some x → 0 ≤ x) (es : List (ℕ × ℕ)) (u : Spec.NodalField ℝ) :
    rodWork (m.map rodMass) es u u = 0 ↔ ∀ e ∈ es, m.getD 0 = 0 ∨ (u e.1 1 = 0 ∧ u e.2 1 = 0) := by
  cases m with
  | none => simp [rodWork]
  | some m =>
    have hm0 := hm m rfl
    have hw : ∀ e : ℕ × ℕ, bilinear (rodMass m) ![u e.1 1, u e.2 1] ![u e.1 1, u e.2 1] =
        m / 6 * ((u e.1 1 + u e.2 1) ^ 2 + u e.1 1 ^ 2 + u e.2 1 ^ 2) := by
      intro e
      rw [rodMass_eq]
      simp [bilinear, Fin.sum_univ_two]; ring
    simp only [Option.map_some, rodWork, hw, Option.getD_some]
    constructor
    · intro h e he
      have := list_sum_zero es _ (fun e _ => by positivity) h e he
      rcases mul_eq_zero.mp this with h0 | h0
      · left; linarith
      · right
        have a1 := sq_nonneg (u e.1 1 + u e.2 1)
        have a2 := sq_nonneg (u e.1 1)
        have a3 := sq_nonneg (u e.2 1)
        exact ⟨pow_eq_zero_iff two_ne_zero |>.mp (by linarith), pow_eq_zero_iff two_ne_zero |>.mp (by linarith)⟩
    · intro h
      apply List.sum_eq_zero
      intro x hx
      obtain ⟨e, he, rfl⟩ := List.mem_map.mp hx
      rcases h e he with h0 | ⟨h1, h2⟩
      · rw [h0]; ring
      · rw [h1, h2]; ring

theorem rail_mem_chain (rail : List ℕ) (h : 2 ≤ rail.length) (m : ℕ) (hm : m ∈ rail) : ∃ e ∈ chainOf rail, e.1 = m ∨ e.2 = m := by
  obtain ⟨i, hi, rfl⟩ := List.mem_iff_getElem.mp hm
  by_cases hz : i + 1 < rail.length
  · refine ⟨(rail[i], rail[i + 1]), ?_, Or.inl rfl⟩
    unfold chainOf
    rw [List.mem_iff_getElem]
    exact ⟨i, by simp; omega, by simp⟩
  · obtain ⟨j, rfl⟩ : ∃ j, i = j + 1 := ⟨i - 1, by omega⟩
    refine ⟨(rail[j], rail[j + 1]), ?_, Or.inr rfl⟩
    unfold chainOf
    rw [List.mem_iff_getElem]
    exact ⟨j, by simp; omega, by simp⟩

section mass
variable {inp : SystemInput ℝ} {T : TrackParts ℝ}

theorem TrackParts.NonNeg.mass_nonneg (m : T.NonNeg) (h : T.NonEmpty) (hb : T.beam.Valid) (u : Spec.NodalField ℝ) :
    0 ≤ Spec.systemWork AssemblyPart.mass T.parts u u := by
  rw [track_mass T h]
  refine add_nonneg (add_nonneg (add_nonneg ?_ ?_) ?_) ?_
  · exact list_sum_nonneg _ _ fun e _ => beam_mass_nonneg _ hb _
  · exact rodWork_nonneg _ (rodMass_option m.padMass) _ _
  · exact list_sum_nonneg _ _ fun _ _ => mul_nonneg m.sleeper (sq_nonneg _)
  · exact list_sum_nonneg _ _ fun s hs => rodWork_nonneg _ (rodMass_option (m.soilMass s hs)) _ _

theorem TrackParts.NonNeg.damping_nonneg (m : T.NonNeg) (h : T.NonEmpty) (u : Spec.NodalField ℝ) :
    0 ≤ Spec.systemWork AssemblyPart.damping T.parts u u := by
  rw [track_damping T h]
  refine add_nonneg ?_ ?_
  · exact rodWork_nonneg _ (rodDamping_option m.padDamping) _ _
  · exact list_sum_nonneg _ _ fun s hs => rodWork_nonneg _ (rodDamping_option (m.soilDamping s hs)) _ _

/-- A motion without kinetic energy: the rail is at rest, and other nodes move up and down only where there is no mass. -/
theorem TrackParts.NonNeg.mass_zero (m : T.NonNeg) (h : T.NonEmpty) (hb : T.beam.Valid) (u : Spec.NodalField ℝ)
    (h0 : Spec.systemWork AssemblyPart.mass T.parts u u = 0) :
    (∀ x ∈ T.rail, ∀ d, u x d = 0) ∧ ∀ i, u i 1 ≠ 0 →
      Spec.systemWork AssemblyPart.mass T.parts (Spec.unitField i 1) (Spec.unitField i 1) = 0 := by
  rw [track_mass T h] at h0
  have n1 := list_sum_nonneg (chainOf T.rail) (fun e => Spec.energy T.beam.massMatrix (sixValues u e))
    fun e _ => beam_mass_nonneg _ hb _
  have n2 := rodWork_nonneg _ (rodMass_option m.padMass) T.pads u
  have n3 := list_sum_nonneg T.sleepers (fun x => T.sleeperMass * u x 1 ^ 2) fun _ _ => mul_nonneg m.sleeper (sq_nonneg _)
  have n4' : ∀ s ∈ T.soils, 0 ≤ rodWork (s.1.mass.map rodMass) s.2.1 u u :=
    fun s hs => rodWork_nonneg _ (rodMass_option (m.soilMass s hs)) _ _
  have n4 := list_sum_nonneg T.soils _ n4'
  have z1 := list_sum_zero _ _ (fun e _ => beam_mass_nonneg _ hb _)
    (by linarith : ((chainOf T.rail).map fun e => Spec.energy T.beam.massMatrix (sixValues u e)).sum = 0)
  have z2 := (rodWork_mass_zero _ m.padMass T.pads u).mp (by linarith)
  have z3 := list_sum_zero _ _ (fun _ _ => mul_nonneg m.sleeper (sq_nonneg _))
    (by linarith : (T.sleepers.map fun x => T.sleeperMass * u x 1 ^ 2).sum = 0)
  have z4 := list_sum_zero _ _ n4' (by linarith : (T.soils.map fun s => rodWork (s.1.mass.map rodMass) s.2.1 u u).sum = 0)
  have six : ∀ e ∈ chainOf T.rail, ∀ d, u e.1 d = 0 ∧ u e.2 d = 0 := by
    intro e he d
    have hz : sixValues u e = 0 := by
      by_contra hne
      have := C20_beam_mass_pos T.beam hb _ hne
      rw [z1 e he] at this
      exact lt_irrefl _ this
    have g := fun k => congrFun hz k
    have g0 : u e.1 0 = 0 := g 0
    have g1 : u e.1 1 = 0 := g 1
    have g2 : u e.1 2 = 0 := g 2
    have g3 : u e.2 0 = 0 := g 3
    have g4 : u e.2 1 = 0 := g 4
    have g5 : u e.2 2 = 0 := g 5
    fin_cases d
    · exact ⟨g0, g3⟩
    · exact ⟨g1, g4⟩
    · exact ⟨g2, g5⟩
  have hrail : ∀ x ∈ T.rail, ∀ d, u x d = 0 := by
    intro x hx d
    obtain ⟨e, he, rfl | rfl⟩ := rail_mem_chain T.rail h.rail x hx
    · exact (six e he d).1
    · exact (six e he d).2
  refine ⟨hrail, fun i hi => ?_⟩
  have hunit : ∀ x, u x 1 = 0 → (Spec.unitField i 1 : Spec.NodalField ℝ) x 1 = 0 := by
    intro x hx
    unfold Spec.unitField
    rw [if_neg]
    rintro ⟨rfl, -⟩
    exact hi hx
  rw [track_mass T h]
  have s1 : ((chainOf T.rail).map fun e => Spec.energy T.beam.massMatrix (sixValues (Spec.unitField i 1) e)).sum = 0 := by
    apply List.sum_eq_zero
    intro x hx
    obtain ⟨e, he, rfl⟩ := List.mem_map.mp hx
    have hz : ∀ d, (Spec.unitField i 1 : Spec.NodalField ℝ) e.1 d = 0 ∧ (Spec.unitField i 1 : Spec.NodalField ℝ) e.2 d = 0 := by
      intro d
      unfold Spec.unitField
      constructor <;> rw [if_neg] <;> rintro ⟨rfl, -⟩
      · exact hi (six e he 1).1
      · exact hi (six e he 1).2
    have : sixValues (Spec.unitField i 1) e = (0 : Fin 6 → ℝ) := by
      ext k
      fin_cases k <;> simp [sixValues, hz]
    rw [this]
    simp [Spec.energy]
  have s2 : rodWork (T.pad.mass.map rodMass) T.pads (Spec.unitField i 1) (Spec.unitField i 1) = 0 :=
    (rodWork_mass_zero _ m.padMass T.pads _).mpr fun e he => (z2 e he).imp_right fun hx => ⟨hunit _ hx.1, hunit _ hx.2⟩
  have s3 : (T.sleepers.map fun x => T.sleeperMass * (Spec.unitField i 1 : Spec.NodalField ℝ) x 1 ^ 2).sum = 0 := by
    apply List.sum_eq_zero
    intro y hy
    obtain ⟨x, hx, rfl⟩ := List.mem_map.mp hy
    rcases mul_eq_zero.mp (z3 x hx) with h1 | h1
    · rw [h1]; ring
    · rw [hunit x (pow_eq_zero_iff two_ne_zero |>.mp h1)]; ring
  have s4 : (T.soils.map fun s => rodWork (s.1.mass.map rodMass) s.2.1 (Spec.unitField i 1) (Spec.unitField i 1)).sum = 0 := by
    apply List.sum_eq_zero
    intro y hy
    obtain ⟨s, hs, rfl⟩ := List.mem_map.mp hy
    exact (rodWork_mass_zero _ (m.soilMass s hs) s.2.1 _).mpr fun e he =>
      ((rodWork_mass_zero _ (m.soilMass s hs) s.2.1 u).mp (z4 s hs) e he).imp_right fun hx => ⟨hunit _ hx.1, hunit _ hx.2⟩
  rw [s1, s2, s3, s4]
  norm_num

end mass

theorem massless_removed (inp : SystemInput ℝ) (hm : Spec.NodesInMesh inp) (ha : Spec.AxisAligned inp)
    (flags : ℕ → Fin 3 → Bool) (st : TrimState ℝ) (h : inp.initialise flags = .ok st) (i : ℕ) (hi : i < inp.n) (d : Fin 3)
    (hs : Spec.systemWork AssemblyPart.mass inp.parts (Spec.unitField i d) (Spec.unitField i d) = 0) :
    equationOf st.nodes i d = none := by
  obtain ⟨stiff, mass, damp, a1, a2, a3, rfl⟩ := initialise_ok inp flags st h
  rw [initialise_equation inp flags stiff mass damp i hi d, obsolete_untrimmed inp flags stiff mass damp i hi d]
  right; left
  rw [← matrixWork_unit inp.n mass i hi d, assembled_work inp hm AssemblyPart.mass (fun _ => rfl) mass a2,
    systemWork_aligned inp ha _ (fun _ => rfl), hs, abs_zero]
  norm_num

/-- The matrices of a standing track `T`, with the parts of `inp'`, which move the same masses and dampers as those of `T`. -/
theorem Standing.oscillator {inp : SystemInput ℝ} {T : TrackParts ℝ} (h : Standing inp T) (m : T.NonNeg) (inp' : SystemInput ℝ)
    (hn : inp'.n = inp.n) (hcons : inp'.constraints = inp.constraints) (mesh : Spec.NodesInMesh inp') (aligned : Spec.AxisAligned inp')
    (hmass : ∀ u, Spec.systemWork AssemblyPart.mass inp'.parts u u = Spec.systemWork AssemblyPart.mass T.parts u u)
    (hdamp : ∀ u, Spec.systemWork AssemblyPart.damping inp'.parts u u = Spec.systemWork AssemblyPart.damping T.parts u u)
    (sym : ∀ p ∈ inp'.parts, p.Symmetric)
    (unstiff : ∀ i ∈ T.sleepers, ∀ d : Fin 3, d ≠ 1 →
      Spec.systemWork AssemblyPart.stiffness inp'.parts (Spec.unitField i d) (Spec.unitField i d) = 0)
    (hr : 0 ≤ (rayleighPair inp').1 ∧ 0 ≤ (rayleighPair inp').2) (flags : ℕ → Fin 3 → Bool) (st : TrimState ℝ)
    (hst : inp'.initialise flags = .ok st)
    (hdef : ∀ U, 0 ≤ matrixWork st.N st.Kg U U ∧ (matrixWork st.N st.Kg U U = 0 → ∀ k < st.N, U k = 0)) :
    Oscillator st.N st.M st.C st.Kg ∧
      (0 < (rayleighPair inp').1 → ∀ U, form st.N st.C U U = 0 → ∀ k < st.N, U k = 0) ∧
      ((rayleighPair inp').1 = 0 → (rayleighPair inp').2 = 0 → (∀ u, Spec.systemWork AssemblyPart.damping T.parts u u = 0) →
        ∀ U, form st.N st.C U U = 0) := by
  have rep := fun U : ℕ → ℝ => fieldOf_represents inp'.n st.nodes U
  have w := fun V U : ℕ → ℝ => C106_work_partial inp' flags mesh aligned st hst V U _ _ (rep V) (rep U)
  have sK : ∀ V U, matrixWork st.N st.Kg V U = matrixWork st.N st.Kg U V := by
    intro V U
    rw [(w V U).1, (w U V).1]
    exact systemWork_symm _ _ (fun p hp a ha => sym p hp a (Or.inl ha)) _ _
  have sM : ∀ V U, matrixWork st.N st.M V U = matrixWork st.N st.M U V := by
    intro V U
    rw [(w V U).2.1, (w U V).2.1]
    exact systemWork_symm _ _ (fun p hp a ha => sym p hp a (Or.inr (Or.inl ha))) _ _
  have sC : ∀ V U, matrixWork st.N st.C V U = matrixWork st.N st.C U V := by
    intro V U
    rw [(w V U).2.2, (w U V).2.2, sM V U, sK V U]
    congr 2
    exact systemWork_symm _ _ (fun p hp a ha => sym p hp a (Or.inr (Or.inr ha))) _ _
  have mdef : ∀ U, 0 ≤ form st.N st.M U U ∧ (form st.N st.M U U = 0 → ∀ k < st.N, U k = 0) := by
    intro U
    show 0 ≤ matrixWork st.N st.M U U ∧ (matrixWork st.N st.M U U = 0 → _)
    rw [(w U U).2.1, hmass]
    refine ⟨m.mass_nonneg h.nonEmpty h.beam _, fun h0 => ?_⟩
    obtain ⟨z1, z2⟩ := m.mass_zero h.nonEmpty h.beam _ h0
    have hall : ∀ i < inp'.n, ∀ d, fieldOf st.nodes U i d = 0 := by
      intro i hi d
      by_contra hne
      by_cases hd : d = 1
      · subst hd
        apply hne
        have := z2 i hne
        rw [← hmass] at this
        simp [fieldOf, massless_removed inp' mesh aligned flags st hst i hi 1 this]
      · rcases h.nodes i (hn ▸ hi) with hx | hx | hx
        · exact hne (z1 i hx d)
        · exact hne (by simp [fieldOf, unstiff_removed inp' mesh aligned flags st hst i hi d (unstiff i hx d hd)])
        · exact hne (by simp [fieldOf, supported_removed inp' flags st hst i d (hcons ▸ hx d)])
    intro k hk
    obtain ⟨p, hp, -⟩ := (C106_representable inp' flags st hst).1 k hk
    have := hall p.1 ((C106_representable inp' flags st hst).2.1 p.1 p.2 k hp).1 p.2
    rw [fieldOf, hp] at this
    exact this
  have cform : ∀ U, form st.N st.C U U = Spec.systemWork AssemblyPart.damping T.parts (fieldOf st.nodes U) (fieldOf st.nodes U) +
      (rayleighPair inp').1 * form st.N st.M U U + (rayleighPair inp').2 * form st.N st.Kg U U := by
    intro U
    rw [← hdamp]
    exact (w U U).2.2
  have d0 := fun U => m.damping_nonneg h.nonEmpty (fieldOf st.nodes U)
  refine ⟨⟨matrix_symm _ _ sM, matrix_symm _ _ sC, matrix_symm _ _ sK, mdef, ?_, hdef⟩, ?_, ?_⟩
  · intro U
    rw [cform]
    exact add_nonneg (add_nonneg (d0 U) (mul_nonneg hr.1 (mdef U).1)) (mul_nonneg hr.2 (hdef U).1)
  · intro hpos U h0
    rw [cform] at h0
    have h1 := d0 U
    have h2 := mul_nonneg hr.1 (mdef U).1
    have h3 : 0 ≤ (rayleighPair inp').2 * form st.N st.Kg U U := mul_nonneg hr.2 (hdef U).1
    exact (mdef U).2 ((mul_eq_zero.mp (by linarith : (rayleighPair inp').1 * form st.N st.M U U = 0)).resolve_left hpos.ne')
  · intro e1 e2 e3 U
    rw [cform, e1, e2, e3]
    ring

theorem Standing.fields {inp : SystemInput ℝ} {T : TrackParts ℝ} (h : Standing inp T) (m : T.NonNeg)
    (hx : ∃ m ∈ T.rail, Spec.Supported inp.constraints m 0) (hr : 0 ≤ (rayleighPair inp).1 ∧ 0 ≤ (rayleighPair inp).2)
    (flags : ℕ → Fin 3 → Bool) (st : TrimState ℝ) (hst : inp.initialise flags = .ok st) :
    Oscillator st.N st.M st.C st.Kg ∧
      (0 < (rayleighPair inp).1 → ∀ U, form st.N st.C U U = 0 → ∀ k < st.N, U k = 0) ∧
      ((rayleighPair inp).1 = 0 → (rayleighPair inp).2 = 0 → (∀ u, Spec.systemWork AssemblyPart.damping T.parts u u = 0) →
        ∀ U, form st.N st.C U U = 0) :=
  h.oscillator m inp rfl rfl h.mesh h.aligned (fun _ => by rw [h.parts]) (fun _ => by rw [h.parts])
    (by rw [h.parts]; exact T.symmetric) (fun i hi d hd => h.sleeper_unstiff i hi d hd) hr flags st hst
    (fun U => h.definite hx flags st hst U)

theorem HingedStanding.fields {inp : SystemInput ℝ} {T : TrackParts ℝ} {H : HingeCut ℝ} (h : HingedStanding inp T H) (m : T.NonNeg)
    (hpin : H.σ ≤ 0 → T.HoldsPin (H.A.length + 1) ∨ 0 < T.beam.kappa)
    (hx : ∃ m ∈ T.rail, Spec.Supported inp.constraints m 0) (hr : 0 ≤ (rayleighPair inp).1 ∧ 0 ≤ (rayleighPair inp).2)
    (flags : ℕ → Fin 3 → Bool) (st : TrimState ℝ) (hst : (inp.withHinge T H).initialise flags = .ok st) :
    Oscillator st.N st.M st.C st.Kg ∧
      (0 < (rayleighPair inp).1 → ∀ U, form st.N st.C U U = 0 → ∀ k < st.N, U k = 0) ∧
      ((rayleighPair inp).1 = 0 → (rayleighPair inp).2 = 0 → (∀ u, Spec.systemWork AssemblyPart.damping T.parts u u = 0) →
        ∀ U, form st.N st.C U U = 0) :=
  h.standing.oscillator m (inp.withHinge T H) rfl rfl h.mesh h.aligned
    (fun u => hinged_work_same AssemblyPart.mass _ _ h.inner h.rail BeamPart.massMatrix (fun _ _ _ => rfl) massMatrix_springs u u)
    (fun u => hinged_work_same AssemblyPart.damping _ _ h.inner h.rail (fun _ => 0) (fun _ _ _ => rfl) (fun _ _ _ => rfl) u u)
    (T.hinged_symmetric H) (fun i hi d hd => h.sleeper_unstiff i hi d hd) hr flags st hst (fun U => h.definite hpin hx flags st hst U)

/-! ### C172 -/

/-- Some energy is lost in every motion: Rayleigh damping with a positive damping ratio. -/
def TrackValues.Damped (v : TrackValues) : Prop := v.isRayleigh = true ∧ 0 < v.ratio

/-- No damping at all: neither Rayleigh damping nor dampers in pads and soil. -/
def TrackValues.Undamped (v : TrackValues) (soils : List (RodValues ℝ)) : Prop :=
  v.isRayleigh = false ∧ (∀ c, v.pad.damping = some c → c = 0) ∧ ∀ w ∈ soils, ∀ c, w.damping = some c → c = 0

/-- What a user expects of the motion of a track with the matrices `M, C, K`. -/
structure MovesWell (v : TrackValues) (soils : List (RodValues ℝ)) (N : ℕ) (M C K : ℕ → ℕ → ℝ) : Prop where
  /-- the matrices are symmetric, mass and stiffness positive definite, and the damping takes no negative power -/
  matrices : Oscillator N M C K
  /-- the accelerations are determined by the forces -/
  accelerations : Spec.UniquelySolvable N M
  /-- there is exactly one motion for every continuous load and every initial state -/
  wellPosed : Spec.WellPosed N M C K
  /-- the energy changes by the power of the load minus the damping -/
  energy : Spec.EnergyLaw N M C K
  /-- without load the energy never grows -/
  decay : ∀ u x a, Spec.Motion N M C K (fun _ _ => 0) u x a → ∀ s t, 0 ≤ s → s ≤ t →
    Spec.vibrationEnergy N M K (u t) (x t) ≤ Spec.vibrationEnergy N M K (u s) (x s)
  /-- no free vibration grows -/
  stable : ∀ s φ, Spec.FreeVibration N M C K s φ → s.re ≤ 0
  /-- with Rayleigh damping every free vibration decays -/
  damped : v.Damped → ∀ s φ, Spec.FreeVibration N M C K s φ → s.re < 0
  /-- without damping every free vibration goes on with a frequency that is not zero -/
  undamped : v.Undamped soils → ∀ s φ, Spec.FreeVibration N M C K s φ → s.re = 0 ∧ s.im ≠ 0

theorem rayleigh_nonneg {v : TrackValues} (hR : v.Rayleigh) (inp : SystemInput ℝ) (h1 : inp.isRayleigh = v.isRayleigh) (h2 : inp.ratio = v.ratio)
    (h3 : inp.w1 = v.w1) (h4 : inp.w2 = v.w2) :
    (0 ≤ (rayleighPair inp).1 ∧ 0 ≤ (rayleighPair inp).2) ∧ (v.Damped → 0 < (rayleighPair inp).1) ∧
      (v.isRayleigh = false → (rayleighPair inp).1 = 0 ∧ (rayleighPair inp).2 = 0) := by
  unfold rayleighPair
  rw [h1, h2, h3, h4]
  refine ⟨?_, ?_, ?_⟩
  · split_ifs with hi
    · have h1 := hR.ratio hi
      have h2 := hR.w1 hi
      have h3 := hR.w2 hi
      exact ⟨by positivity, by positivity⟩
    · exact ⟨le_refl _, le_refl _⟩
  · rintro ⟨hi, h0⟩
    have h2 := hR.w1 hi
    have h3 := hR.w2 hi
    rw [if_pos hi]
    positivity
  · intro hi
    simp [hi]

theorem rodWork_undamped (c : Option ℝ) (h : ∀ x, c = some x → x = 0) (es : List (ℕ × ℕ)) (u : Spec.NodalField ℝ) :
    rodWork (c.map rodDamping) es u u = 0 := by
  cases c with
  | none => rfl
  | some c =>
    rw [h c rfl]
    simp [rodWork, rodDamping_eq, bilinear, Fin.sum_univ_two]

theorem movesWell {v : TrackValues} (hR : v.Rayleigh) {soils : List (RodValues ℝ)} {inp : SystemInput ℝ} {T : TrackParts ℝ}
    (hne : T.NonEmpty) (h1 : inp.isRayleigh = v.isRayleigh) (h2 : inp.ratio = v.ratio) (h3 : inp.w1 = v.w1) (h4 : inp.w2 = v.w2)
    (hpad : T.pad = v.pad) (hsoil : ∀ s ∈ T.soils, s.1 ∈ soils) {st : TrimState ℝ}
    (h : Oscillator st.N st.M st.C st.Kg ∧
      (0 < (rayleighPair inp).1 → ∀ U, form st.N st.C U U = 0 → ∀ k < st.N, U k = 0) ∧
      ((rayleighPair inp).1 = 0 → (rayleighPair inp).2 = 0 → (∀ u, Spec.systemWork AssemblyPart.damping T.parts u u = 0) →
        ∀ U, form st.N st.C U U = 0)) : MovesWell v soils st.N st.M st.C st.Kg := by
  obtain ⟨o, hd, hu⟩ := h
  obtain ⟨-, r1, r2⟩ := rayleigh_nonneg hR inp h1 h2 h3 h4
  refine ⟨o, solvable_of_definite _ _ fun U => (o.mass U).2, o.wellPosed, o.energyLaw, fun u x a m s t hs hst => o.decay m hs hst,
    fun s φ f => (o.vibrations s φ f).1, fun hv s φ f => (o.vibrations s φ f).2.1 (hd (r1 hv)), fun hv s φ f => ?_⟩
  refine (o.vibrations s φ f).2.2 (hu (r2 hv.1).1 (r2 hv.1).2 fun u => ?_)
  rw [track_damping T hne, rodWork_undamped _ (by rw [hpad]; exact hv.2.1), zero_add]
  apply List.sum_eq_zero
  intro y hy
  obtain ⟨q, hq, rfl⟩ := List.mem_map.mp hy
  exact rodWork_undamped _ (hv.2.2 q.1 (hsoil q hq)) _ _

/-- **C172** A generated track with at least two sleepers on its boundaries, with masses and dampings that are not negative, moves well. -/
theorem C172_track {H : Type*} [DecidableEq H] (hash : (Fin 3 → ℝ) → H) (n r : ℕ) (hn : 2 ≤ n) (hr : 0 < r) (d h : ℝ)
    (hd : 1 / 1000000000 < d / r) (hh : 1 / 1000000000 < h) (t : HorizontalTrack ℝ)
    (ht : createHorizontalTrack hash n r d h = .ok t) (v : TrackValues) (hv : v.Valid) (hm : v.NonNeg) (hR : v.Rayleigh)
    (flags : ℕ → Fin 3 → Bool) :
    ∃ inp st, t.system v true = .ok inp ∧ inp.initialise flags = .ok st ∧ MovesWell v [v.soil] st.N st.M st.C st.Kg := by
  have g : Generated hash n r d h t := ⟨by nlinarith, hd, hh, ht⟩
  obtain ⟨st, hst⟩ := C106_succeeds _ (g.mesh v true) flags
  have m : (generatedParts t n r d v).NonNeg := by
    refine ⟨hm.padMass, hm.padDamping, hm.sleeper, ?_, ?_⟩ <;> intro s hs <;>
      simp only [generatedParts, List.mem_singleton] at hs <;> subst hs
    · exact hm.soilMass
    · exact hm.soilDamping
  refine ⟨_, st, g.system v true, hst, movesWell hR (g.nonEmpty v) (inp := generatedInput t n r d v true) rfl rfl rfl rfl rfl ?_
    ((g.standing hn v hv true).fields m (g.held v) (rayleigh_nonneg hR _ rfl rfl rfl rfl).1 flags st hst)⟩
  intro s hs
  simp only [generatedParts, List.mem_singleton] at hs
  subst hs
  exact List.mem_singleton_self _

/-- Three sleepers with Rayleigh damping: every free vibration decays. -/
example : exampleTrack.Damped ∧ ∃ t, createHorizontalTrack (fun p : Fin 3 → ℝ => p) 3 2 (3 / 5) 1 = .ok t ∧
    ∃ inp st, t.system exampleTrack true = .ok inp ∧ inp.initialise freshFlags = .ok st ∧
      MovesWell exampleTrack [exampleTrack.soil] st.N st.M st.C st.Kg := by
  obtain ⟨t, ht, -⟩ := C48_structure (fun p : Fin 3 → ℝ => p) 3 2 (by norm_num) (3 / 5) 1
  refine ⟨⟨rfl, by norm_num [exampleTrack]⟩, t, ht, ?_⟩
  exact C172_track _ 3 2 (by norm_num) (by norm_num) _ _ (by norm_num) (by norm_num) t ht _ exampleTrack_valid exampleTrack_nonNeg
    exampleTrack_rayleigh _

/-- The same track without any damping and with sleepers that have no mass. -/
noncomputable def undampedTrack : TrackValues :=
  { exampleTrack with
    pad := { exampleTrack.pad with mass := none, damping := none }, soil := { exampleTrack.soil with damping := some 0 }
    isRayleigh := false, sleeperMass := 0 }

example : undampedTrack.Undamped [undampedTrack.soil] ∧ ∃ t, createHorizontalTrack (fun p : Fin 3 → ℝ => p) 3 2 (3 / 5) 1 = .ok t ∧
    ∃ inp st, t.system undampedTrack true = .ok inp ∧ inp.initialise freshFlags = .ok st ∧
      MovesWell undampedTrack [undampedTrack.soil] st.N st.M st.C st.Kg := by
  obtain ⟨t, ht, -⟩ := C48_structure (fun p : Fin 3 → ℝ => p) 3 2 (by norm_num) (3 / 5) 1
  refine ⟨⟨rfl, by simp [undampedTrack], by simp [undampedTrack]⟩, t, ht, ?_⟩
  have h := exampleTrack_valid
  refine C172_track _ 3 2 (by norm_num) (by norm_num) _ _ (by norm_num) (by norm_num) t ht _ ?_ ?_ ?_ _
  · exact ⟨h.E, h.nu, h.rho, h.A, h.I, h.kappa, h.s1, h.s2, h.pad, h.soil⟩
  · constructor <;> simp [undampedTrack, exampleTrack]
  · constructor <;> simp [undampedTrack]

theorem CombinedTrack.partsOf_nonNeg {ι : Type*} [DecidableEq ι] (c : CombinedTrack ι ℝ) (l : ℝ) (v : TrackValues) (soils : List (RodValues ℝ))
    (w : RodValues ℝ) (hw : w ∈ soils) (hm : ∀ w ∈ soils, ({ v with soil := w } : TrackValues).NonNeg) : (c.partsOf l v soils).NonNeg := by
  refine ⟨(hm w hw).padMass, (hm w hw).padDamping, (hm w hw).sleeper, ?_, ?_⟩ <;> intro q hq <;> obtain ⟨p, hp, rfl⟩ := List.mem_map.mp hq
  · exact (hm p.1 (List.of_mem_zip hp).1).soilMass
  · exact (hm p.1 (List.of_mem_zip hp).1).soilDamping

theorem CombinedTrack.partsOf_soils {ι : Type*} [DecidableEq ι] (c : CombinedTrack ι ℝ) (l : ℝ) (v : TrackValues) (soils : List (RodValues ℝ)) :
    ∀ s ∈ (c.partsOf l v soils).soils, s.1 ∈ soils := by
  intro s hs
  obtain ⟨p, hp, rfl⟩ := List.mem_map.mp hs
  exact (List.of_mem_zip hp).1

section combined
variable {H : Type*} [DecidableEq H] (hash : (Fin 3 → ℝ) → H) {r k : ℕ} {d : ℝ} {segments : List (ℕ × ℝ)}

/-- **C172** The same for every track that is combined from segments. -/
theorem C172_combined (g : GoodSegments r d segments) (length : ℝ) (v : TrackValues) (soils : List (RodValues ℝ))
    (hs : segments.length ≤ soils.length) (hv : ∀ w ∈ soils, ({ v with soil := w } : TrackValues).Valid)
    (hm : ∀ w ∈ soils, ({ v with soil := w } : TrackValues).NonNeg) (hR : v.Rayleigh) (flags : ℕ → Fin 3 → Bool) :
    ∃ c inp st, combinedTrack hash r d segments = .ok c ∧ c.system length v soils true = .ok inp ∧
      inp.initialise flags = .ok st ∧ MovesWell v soils st.N st.M st.C st.Kg := by
  obtain ⟨c, hc, s, -, -, -, -, -, -, hlen, -⟩ := C136_structure hash g
  have hs' : c.soils.length ≤ soils.length := by omega
  obtain ⟨w, hw⟩ := s.some_soil hs'
  obtain ⟨x, y, hx, hy, hsys⟩ := s.system length v soils hs' true
  have hx := List.mem_of_head? hx
  have hy := List.mem_of_getLast? hy
  have hstand := s.standing v soils hs' hv x y hx hy true
  obtain ⟨st, hst⟩ := C106_succeeds _ hstand.mesh flags
  exact ⟨c, _, st, hc, hsys, hst, movesWell hR (s.nonEmpty v soils) (inp := c.inputOf (d / r) v soils x y true) rfl rfl rfl rfl rfl
    (c.partsOf_soils _ v soils) (hstand.fields (c.partsOf_nonNeg _ v soils w hw hm)
      ⟨c.place x, List.mem_map_of_mem hx, s.side_supported x y hx⟩ (rayleigh_nonneg hR _ rfl rfl rfl rfl).1 flags st hst)⟩

theorem SoundTrack.hinged_moves {ι : Type*} [DecidableEq ι] {c : CombinedTrack ι ℝ} {m : ℕ} {l : ℝ} (s : SoundTrack c m l) (v : TrackValues)
    (soils : List (RodValues ℝ)) (hs : c.soils.length ≤ soils.length) (hv : ∀ w ∈ soils, ({ v with soil := w } : TrackValues).Valid)
    (hm : ∀ w ∈ soils, ({ v with soil := w } : TrackValues).NonNeg) (hR : v.Rayleigh) (x y : ι) (hx : x ∈ c.rail) (hy : y ∈ c.rail)
    (hk : 2 ≤ k) (hkm : k + 3 ≤ m) (σ : ℝ) (hpin : σ ≤ 0 → (c.partsOf l v soils).HoldsPin k ∨ 0 < v.rail.kappa)
    (flags : ℕ → Fin 3 → Bool) :
    ∃ st, ((c.inputOf l v soils x y true).withHinge (c.partsOf l v soils) (c.cutAt k σ)).initialise flags = .ok st ∧
      MovesWell v soils st.N st.M st.C st.Kg := by
  have hg := s.hinged v soils hs hv x y hx hy true hk hkm σ
  have hA : (c.cutAt k σ).A.length + 1 = k := by
    have := s.len
    simp only [CombinedTrack.cutAt, List.length_take, List.length_map]
    omega
  obtain ⟨w, hw⟩ := s.some_soil hs
  obtain ⟨st, hst⟩ := C106_succeeds _ hg.mesh flags
  exact ⟨st, hst, movesWell hR (s.nonEmpty v soils) (inp := c.inputOf l v soils x y true) rfl rfl rfl rfl rfl
    (c.partsOf_soils _ v soils) (hg.fields (c.partsOf_nonNeg _ v soils w hw hm) (by rw [hA]; exact hpin)
      ⟨c.place x, List.mem_map_of_mem hx, s.side_supported x y hx⟩ (rayleigh_nonneg hR _ rfl rfl rfl rfl).1 flags st hst)⟩

/-- **C172** The same for every such track with a hinge in its rail, of a fixity factor greater than 0 and at most 1. -/
theorem C172_hinged (g : GoodSegments r d segments) (length : ℝ) (hlength : 0 < length) (v : TrackValues)
    (soils : List (RodValues ℝ)) (hs : segments.length ≤ soils.length) (hv : ∀ w ∈ soils, ({ v with soil := w } : TrackValues).Valid)
    (hm : ∀ w ∈ soils, ({ v with soil := w } : TrackValues).NonNeg) (hR : v.Rayleigh)
    (hk : 2 ≤ k) (hkm : k + 3 ≤ railCount r segments) (near : 1 / 100000000 + 1 / 100000 * ((k : ℝ) * (d / r)) < d / r)
    (f : ℝ) (hf : 0 < f) (hf1 : f ≤ 1) (flags : ℕ → Fin 3 → Bool) :
    ∃ c inp st, combinedTrack hash r d segments = .ok c ∧ c.hingedSystem length v soils f (k * (d / r)) true = .ok inp ∧
      inp.initialise flags = .ok st ∧ MovesWell v soils st.N st.M st.C st.Kg := by
  obtain ⟨c, hc, sound, -, -, -, -, -, -, hlen, -⟩ := C136_structure hash g
  have hs' : c.soils.length ≤ soils.length := by omega
  obtain ⟨w, hw⟩ := sound.some_soil hs'
  obtain ⟨σ, hσ, hσ0⟩ := hingeStiffness_pos (hv w hw).E (hv w hw).I hlength hf hf1
  obtain ⟨a, b, ha, hb, hsys⟩ := sound.hingedSystem length v soils hs' true hk hkm near f σ hσ
  obtain ⟨st, hst, hu⟩ := sound.hinged_moves v soils hs' hv hm hR a b (List.mem_of_head? ha) (List.mem_of_getLast? hb) hk hkm (σ / 2)
    (fun h => by linarith) flags
  exact ⟨c, _, st, hc, hsys, hst, hu⟩

/-- **C172** The same with a free pin, if there are three or more sleepers and one of them is behind the pin. -/
theorem C172_pinned (g : GoodSegments r d segments) (length : ℝ) (v : TrackValues)
    (soils : List (RodValues ℝ)) (hs : segments.length ≤ soils.length) (hv : ∀ w ∈ soils, ({ v with soil := w } : TrackValues).Valid)
    (hm : ∀ w ∈ soils, ({ v with soil := w } : TrackValues).NonNeg) (hR : v.Rayleigh) (h3 : 3 ≤ (segments.map Prod.fst).sum)
    (hk : 2 ≤ k) (hkm : k + 3 ≤ railCount r segments) (hkr : k + r < railCount r segments)
    (near : 1 / 100000000 + 1 / 100000 * ((k : ℝ) * (d / r)) < d / r) (flags : ℕ → Fin 3 → Bool) :
    ∃ c inp st, combinedTrack hash r d segments = .ok c ∧ c.hingedSystem length v soils 0 (k * (d / r)) true = .ok inp ∧
      inp.initialise flags = .ok st ∧ MovesWell v soils st.N st.M st.C st.Kg := by
  obtain ⟨c, hc, sound, -, -, -, -, -, -, hlen, -⟩ := C136_structure hash g
  have hs' : c.soils.length ≤ soils.length := by omega
  obtain ⟨a, b, ha, hb, hsys⟩ := sound.hingedSystem length v soils hs' true hk hkm near 0 0 (hingeStiffness_zero _ _ _)
  obtain ⟨st, hst, hu⟩ := sound.hinged_moves v soils hs' hv hm hR a b (List.mem_of_head? ha) (List.mem_of_getLast? hb) hk hkm (0 / 2)
    (fun _ => Or.inl (combined_holdsPin hash g v soils h3 (by omega) hkr c hc)) flags
  exact ⟨c, _, st, hc, hsys, hst, hu⟩

/-- Three segments on different soil, and a pin in the rail 3 m from its start. -/
example : ∃ c inp st, combinedTrack (fun p : Fin 3 → ℝ => p) 2 (3 / 5) [(3, 1), (1, 2), (4, 1 / 2)] = .ok c ∧
    c.hingedSystem (3 / 5) exampleTrack [⟨10 ^ 7, none, some 1000⟩, ⟨10 ^ 9, some 50, none⟩, ⟨10 ^ 8, none, some 0⟩] 0
      ((10 : ℕ) * (3 / 5 / (2 : ℕ))) true = .ok inp ∧ inp.initialise freshFlags = .ok st ∧
      MovesWell exampleTrack [⟨10 ^ 7, none, some 1000⟩, ⟨10 ^ 9, some 50, none⟩, ⟨10 ^ 8, none, some 0⟩] st.N st.M st.C st.Kg := by
  refine C172_pinned _ exampleSegments _ _ _ (by norm_num) ?_ ?_ exampleTrack_rayleigh (by norm_num) (by norm_num)
    (by norm_num [railCount]) (by norm_num [railCount]) (by norm_num) _
  · have h := exampleTrack_valid
    intro w hw
    refine ⟨h.E, h.nu, h.rho, h.A, h.I, h.kappa, h.s1, h.s2, h.pad, ?_⟩
    simp only [List.mem_cons, List.not_mem_nil, or_false] at hw
    rcases hw with rfl | rfl | rfl <;> norm_num
  · have h := exampleTrack_nonNeg
    intro w hw
    simp only [List.mem_cons, List.not_mem_nil, or_false] at hw
    refine ⟨h.padMass, ?_, h.sleeper, h.padDamping, ?_⟩ <;> rcases hw with rfl | rfl | rfl <;> simp

end combined

end Rose
