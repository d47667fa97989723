/-
C141: a track with a hinge in its rail has one static equilibrium exactly where it is not a mechanism.
-/
import Verif.Model.HingedSystem
import Verif.Props.HingedTrack
import Verif.Props.TrackStands

set_option linter.unusedSectionVars false

namespace Rose
open Finset

section
variable {K : Type*} [Field K] [LinearOrder K] [IsStrictOrderedRing K]

/-! ### Beam elements with a spring at one end -/

theorem fixity_pos {EI l σ : K} (hEI : 0 < EI) (hl : 0 < l) (hσ : 0 < σ) : 0 < fixity EI l (.fin σ) := by
  simp only [fixity, gt_iff_lt, hσ, if_true]
  positivity

theorem quad_zero {ρ x y : K} (r0 : 0 ≤ ρ) (r1 : ρ ≤ 1) (h : x ^ 2 + ρ * y ^ 2 + ρ * x * y = 0) : x = 0 ∧ (0 < ρ → y = 0) := by
  have k : (x + ρ * y / 2) ^ 2 + ρ * (1 - ρ / 4) * y ^ 2 = 0 := by linear_combination h
  have k2 : 0 ≤ ρ * (1 - ρ / 4) * y ^ 2 := mul_nonneg (mul_nonneg r0 (by linarith)) (sq_nonneg _)
  have k0 := sq_nonneg (x + ρ * y / 2)
  have k3 : ρ * (1 - ρ / 4) * y ^ 2 = 0 := le_antisymm (by linarith) k2
  have k4 : x + ρ * y / 2 = 0 := pow_eq_zero_iff two_ne_zero |>.mp (by linarith)
  have k5 : ρ * y = 0 := by
    rcases mul_eq_zero.mp k3 with h | h
    · rcases mul_eq_zero.mp h with h | h
      · rw [h, zero_mul]
      · exfalso; linarith
    · rw [pow_eq_zero_iff two_ne_zero |>.mp h, mul_zero]
  exact ⟨by linear_combination k4 - k5 / 2, fun hρ => (mul_eq_zero.mp k5).resolve_left hρ.ne'⟩

theorem semi_aux {E A I phi l ρ : K} (hE : 0 < E) (hA : 0 < A) (hI : 0 < I) (hphi : 0 ≤ phi) (hl : 0 < l) (r0 : 0 ≤ ρ)
    (r1 : ρ ≤ 1) (u : Fin 6 → K) (h : Spec.energy (beamStiffness E A I phi l 1 ρ) u = 0) :
    u 3 = u 0 ∧ u 4 = u 1 + l * u 2 ∧ (0 < ρ → u 5 = u 2) := by
  have hd : (0 : K) < 4 - 1 * ρ := by linarith
  rw [beam_energy_formula hI.ne' (by positivity) hl.ne' hd.ne'] at h
  have q1 : 0 ≤ (1 : K) * (l * u 2 + (u 1 - u 4)) ^ 2 + ρ * (l * u 5 + (u 1 - u 4)) ^ 2 +
      1 * ρ * (l * u 2 + (u 1 - u 4)) * (l * u 5 + (u 1 - u 4)) := quad_aux zero_le_one le_rfl r0 r1
  have q2 : 0 ≤ (1 : K) * u 2 ^ 2 + ρ * u 5 ^ 2 - 2 * 1 * ρ * u 2 * u 5 := quad_aux' zero_le_one le_rfl r0 r1
  have q3 : 0 ≤ 3 * phi * l ^ 2 := by positivity
  have q4 := mul_nonneg q3 q2
  have t1 : 0 ≤ E * A / l * (u 0 - u 3) ^ 2 := by positivity
  have hc : 0 < E * I / ((1 + phi) * l ^ 3) / (4 - 1 * ρ) := by positivity
  have t2 := mul_nonneg hc.le (add_nonneg (mul_nonneg (by norm_num : (0 : K) ≤ 12) q1) q4)
  have z1 : E * A / l * (u 0 - u 3) ^ 2 = 0 := le_antisymm (by linarith) t1
  have z2 := le_antisymm (by linarith) t2
  have z3 := (mul_eq_zero.mp z2).resolve_left hc.ne'
  have z4 : (l * u 2 + (u 1 - u 4)) ^ 2 + ρ * (l * u 5 + (u 1 - u 4)) ^ 2 +
      ρ * (l * u 2 + (u 1 - u 4)) * (l * u 5 + (u 1 - u 4)) = 0 := le_antisymm (by linarith) (by linarith)
  have e1 : u 0 - u 3 = 0 := by
    have : E * A / l ≠ 0 := by positivity
    exact pow_eq_zero_iff two_ne_zero |>.mp ((mul_eq_zero.mp z1).resolve_left this)
  obtain ⟨kx, ky⟩ := quad_zero r0 r1 z4
  refine ⟨by linarith, by linarith, fun hρ => ?_⟩
  have : l * (u 5 - u 2) = 0 := by linear_combination ky hρ - kx
  linarith [(mul_eq_zero.mp this).resolve_left hl.ne']

/-- A displacement without energy of an element with a spring at its second end: the element turns about its first end. -/
theorem semi_second (b : BeamPart K) (hb : b.Valid) (h1 : b.s1 = .inf) (σ : K) (h2 : b.s2 = .fin σ) (u : Fin 6 → K)
    (h : Spec.energy b.stiffness u = 0) : u 3 = u 0 ∧ u 4 = u 1 + b.l * u 2 ∧ (0 < σ → u 5 = u 2) := by
  rw [BeamPart.stiffness, h1, h2] at h
  obtain ⟨e1, e2, e3⟩ := semi_aux hb.E hb.A hb.I (timoshenkoFactor_nonneg b hb) hb.l
    (fixity_nonneg (mul_pos hb.E hb.I) hb.l (.fin σ)) (fixity_le_one (mul_pos hb.E hb.I) hb.l (.fin σ)) u h
  exact ⟨e1, e2, fun hσ => e3 (fixity_pos (mul_pos hb.E hb.I) hb.l hσ)⟩

/-- Exchange of the ends of an element: a mirror image. -/
theorem energy_mirror (E A I phi l a1 a2 : K) (hI : I ≠ 0) (hphi : 1 + phi ≠ 0) (hl : l ≠ 0) (hd : 4 - a1 * a2 ≠ 0) (u : Fin 6 → K) :
    Spec.energy (beamStiffness E A I phi l a1 a2) u =
      Spec.energy (beamStiffness E A I phi l a2 a1) ![u 3, -u 4, u 5, u 0, -u 1, u 2] := by
  rw [beam_energy_formula hI hphi hl hd, beam_energy_formula hI hphi hl (by rwa [mul_comm])]
  simp only [Matrix.cons_val_zero, Matrix.cons_val_one, Matrix.cons_val]
  rw [mul_comm a2 a1]
  ring

/-- The same for a spring at the first end. -/
theorem semi_first (b : BeamPart K) (hb : b.Valid) (h2 : b.s2 = .inf) (σ : K) (h1 : b.s1 = .fin σ) (u : Fin 6 → K)
    (h : Spec.energy b.stiffness u = 0) : u 3 = u 0 ∧ u 4 = u 1 + b.l * u 5 ∧ (0 < σ → u 2 = u 5) := by
  have hphi := timoshenkoFactor_nonneg b hb
  have r0 := fixity_nonneg (mul_pos hb.E hb.I) hb.l (.fin σ)
  have r1 := fixity_le_one (mul_pos hb.E hb.I) hb.l (.fin σ)
  have rp := fun hσ : 0 < σ => fixity_pos (mul_pos hb.E hb.I) hb.l hσ
  rw [BeamPart.stiffness, h1, h2] at h
  change Spec.energy (beamStiffness b.E b.A b.I (timoshenkoFactor b) b.l (fixity (b.E * b.I) b.l (.fin σ)) 1) u = 0 at h
  rw [energy_mirror _ _ _ _ _ _ _ hb.I.ne' (by positivity) hb.l.ne' (by linarith)] at h
  obtain ⟨a1, a2, a3⟩ := semi_aux hb.E hb.A hb.I hphi hb.l r0 r1 _ h
  simp only [Matrix.cons_val_zero, Matrix.cons_val_one, Matrix.cons_val] at a1 a2 a3
  exact ⟨a1.symm, by linarith, fun hσ => a3 (rp hσ)⟩

theorem shear_aux {E A I phi l : K} (hE : 0 < E) (hA : 0 < A) (hI : 0 < I) (hphi : 0 < phi) (hl : 0 < l) (u : Fin 6 → K)
    (h : Spec.energy (beamStiffness E A I phi l 1 0) u = 0) : u 2 = 0 := by
  rw [beam_energy_formula hI.ne' (by positivity) hl.ne' (by norm_num)] at h
  have t1 : 0 ≤ E * A / l * (u 0 - u 3) ^ 2 := by positivity
  have hc : 0 < E * I / ((1 + phi) * l ^ 3) / (4 - 1 * 0) := by
    have : (0 : K) < 4 - 1 * 0 := by norm_num
    positivity
  have q1 := sq_nonneg (l * u 2 + (u 1 - u 4))
  have q2 : 0 ≤ 3 * phi * l ^ 2 * u 2 ^ 2 := by positivity
  have q3 : 0 < 3 * phi * l ^ 2 := by positivity
  have t2 := mul_nonneg hc.le (add_nonneg (mul_nonneg (by norm_num : (0 : K) ≤ 12) q1) q2)
  have z2 : E * I / ((1 + phi) * l ^ 3) / (4 - 1 * 0) * (12 * (l * u 2 + (u 1 - u 4)) ^ 2 + 3 * phi * l ^ 2 * u 2 ^ 2) = 0 := by
    simp only [one_mul, zero_mul, mul_zero, add_zero, sub_zero] at h t2 ⊢
    exact le_antisymm (by linarith) t2
  have z3 := (mul_eq_zero.mp z2).resolve_left hc.ne'
  have z4 : 3 * phi * l ^ 2 * u 2 ^ 2 = 0 := le_antisymm (by linarith) q2
  exact pow_eq_zero_iff two_ne_zero |>.mp ((mul_eq_zero.mp z4).resolve_left q3.ne')

theorem timoshenkoFactor_pos (b : BeamPart K) (hb : b.Valid) (hκ : 0 < b.kappa) : 0 < timoshenkoFactor b := by
  have := hb.E
  have := hb.A
  have := hb.I
  have := hb.l
  have hn : 0 < 1 + b.nu := by linarith [hb.nu]
  unfold timoshenkoFactor shearModulus
  rw [if_pos hκ]
  positivity

/-- With shear flexibility an element with a pin at its second end does not turn about its first end without energy. -/
theorem shear_second (b : BeamPart K) (hb : b.Valid) (hκ : 0 < b.kappa) (h1 : b.s1 = .inf) (σ : K) (hσ : σ ≤ 0) (h2 : b.s2 = .fin σ)
    (u : Fin 6 → K) (h : Spec.energy b.stiffness u = 0) : u 2 = 0 := by
  have hf : fixity (b.E * b.I) b.l (.fin σ) = 0 := by simp [fixity, not_lt.mpr hσ]
  rw [BeamPart.stiffness, h1, h2, hf] at h
  exact shear_aux hb.E hb.A hb.I (timoshenkoFactor_pos b hb hκ) hb.l u h

/-- The same for a pin at the first end. -/
theorem shear_first (b : BeamPart K) (hb : b.Valid) (hκ : 0 < b.kappa) (h2 : b.s2 = .inf) (σ : K) (hσ : σ ≤ 0) (h1 : b.s1 = .fin σ)
    (u : Fin 6 → K) (h : Spec.energy b.stiffness u = 0) : u 5 = 0 := by
  have hphi := timoshenkoFactor_pos b hb hκ
  have hf : fixity (b.E * b.I) b.l (.fin σ) = 0 := by simp [fixity, not_lt.mpr hσ]
  rw [BeamPart.stiffness, h1, h2, hf] at h
  change Spec.energy (beamStiffness b.E b.A b.I (timoshenkoFactor b) b.l 0 1) u = 0 at h
  rw [energy_mirror _ _ _ _ _ _ _ hb.I.ne' (by positivity) hb.l.ne' (by norm_num)] at h
  have := shear_aux hb.E hb.A hb.I hphi hb.l _ h
  simpa using this

/-! ### Tracks with a hinge -/

/-- The rail of a track, cut at the node `c`: the nodes before, the neighbours of `c`, the nodes after, all by positions in the mesh,
and the springs beside `c`. -/
structure HingeCut (K : Type*) where
  A : List ℕ
  p : ℕ
  c : ℕ
  q : ℕ
  B : List ℕ
  σ : K

/-- The nodes of the cut rail. -/
def HingeCut.rail (H : HingeCut K) : List ℕ := H.A ++ H.p :: H.c :: H.q :: H.B

/-- The parts of the cut rail. -/
def HingeCut.pieces (H : HingeCut K) (b : BeamPart K) : List (AssemblyPart K) :=
  [beamAssembly b (horizontalElements (chainOf (H.A ++ [H.p]))) (H.A ++ [H.p]),
   beamAssembly { b with s1 := .inf, s2 := .fin H.σ } (horizontalElements [(H.p, H.c)]) [H.p, H.c],
   beamAssembly { b with s1 := .fin H.σ, s2 := .inf } (horizontalElements [(H.c, H.q)]) [H.c, H.q],
   beamAssembly b (horizontalElements (chainOf (H.q :: H.B))) (H.q :: H.B)]

/-- The parts of a track with a hinge. -/
def TrackParts.hinged (T : TrackParts K) (H : HingeCut K) : List (AssemblyPart K) := H.pieces T.beam ++ T.parts.tail

theorem chain_append (A : List ℕ) (p : ℕ) (R : List ℕ) : chainOf (A ++ p :: R) = chainOf (A ++ [p]) ++ chainOf (p :: R) := by
  induction A with
  | nil => simp [chainOf]
  | cons a A ih =>
    cases A with
    | nil => simp [chainOf]
    | cons b A =>
      simp only [List.cons_append] at ih ⊢
      rw [chainOf_cons, chainOf_cons, ih]
      rfl

theorem HingeCut.chain (H : HingeCut K) :
    chainOf H.rail = chainOf (H.A ++ [H.p]) ++ ([(H.p, H.c)] ++ ([(H.c, H.q)] ++ chainOf (H.q :: H.B))) := by
  unfold HingeCut.rail
  rw [chain_append, chainOf_cons, chainOf_cons]
  rfl

/-- The cut leaves at least one element on either side of the elements at the hinge. -/
structure HingeCut.Inner (H : HingeCut K) : Prop where
  left : H.A ≠ []
  right : H.B ≠ []

theorem HingeCut.Inner.leftChain {H : HingeCut K} (h : H.Inner) : chainOf (H.A ++ [H.p]) ≠ [] := by
  apply chainOf_ne_nil
  have := List.length_pos_iff.mpr h.left
  simp; omega

theorem HingeCut.Inner.rightChain {H : HingeCut K} (h : H.Inner) : chainOf (H.q :: H.B) ≠ [] := by
  apply chainOf_ne_nil
  have := List.length_pos_iff.mpr h.right
  simp; omega

theorem hinged_work (matrix : AssemblyPart K → Option (ℕ × ℕ → K)) (T : TrackParts K) (H : HingeCut K) (hin : H.Inner)
    (f : BeamPart K → Matrix (Fin 6) (Fin 6) K) (hf : ∀ b es ns, matrix (beamAssembly b es ns) = some (matrixEntries (f b)))
    (v u : Spec.NodalField K) :
    Spec.systemWork matrix (T.hinged H) v u =
      ((chainOf (H.A ++ [H.p])).map fun e => bilinear (f T.beam) (sixValues v e) (sixValues u e)).sum +
      (bilinear (f { T.beam with s1 := .inf, s2 := .fin H.σ }) (sixValues v (H.p, H.c)) (sixValues u (H.p, H.c)) +
      (bilinear (f { T.beam with s1 := .fin H.σ, s2 := .inf }) (sixValues v (H.c, H.q)) (sixValues u (H.c, H.q)) +
      (((chainOf (H.q :: H.B)).map fun e => bilinear (f T.beam) (sixValues v e) (sixValues u e)).sum +
      Spec.systemWork matrix T.parts.tail v u))) := by
  unfold TrackParts.hinged HingeCut.pieces
  simp only [List.cons_append, List.nil_append]
  rw [systemWork_cons_some matrix _ _ _ (hf _ _ _), systemWork_cons_some matrix _ _ _ (hf _ _ _),
    systemWork_cons_some matrix _ _ _ (hf _ _ _), systemWork_cons_some matrix _ _ _ (hf _ _ _),
    beam_partWork _ _ hin.leftChain rfl rfl, beam_partWork _ [(H.p, H.c)] (by simp) rfl rfl,
    beam_partWork _ [(H.c, H.q)] (by simp) rfl rfl, beam_partWork _ _ hin.rightChain rfl rfl]
  simp

theorem rail_work (matrix : AssemblyPart K → Option (ℕ × ℕ → K)) (T : TrackParts K) (hT : 2 ≤ T.rail.length)
    (f : BeamPart K → Matrix (Fin 6) (Fin 6) K) (hf : ∀ b es ns, matrix (beamAssembly b es ns) = some (matrixEntries (f b)))
    (v u : Spec.NodalField K) :
    Spec.systemWork matrix T.parts v u =
      ((chainOf T.rail).map fun e => bilinear (f T.beam) (sixValues v e) (sixValues u e)).sum +
      Spec.systemWork matrix T.parts.tail v u := by
  unfold TrackParts.parts
  rw [systemWork_cons_some matrix _ _ _ (hf _ _ _), beam_partWork _ _ (chainOf_ne_nil _ hT) rfl rfl]
  rfl

/-- A matrix that does not depend on the springs does the same work with and without the hinge. -/
theorem hinged_work_same (matrix : AssemblyPart K → Option (ℕ × ℕ → K)) (T : TrackParts K) (H : HingeCut K) (hin : H.Inner)
    (hr : T.rail = H.rail)
    (f : BeamPart K → Matrix (Fin 6) (Fin 6) K) (hf : ∀ b es ns, matrix (beamAssembly b es ns) = some (matrixEntries (f b)))
    (hsame : ∀ b : BeamPart K, ∀ s1 s2, f { b with s1 := s1, s2 := s2 } = f b) (v u : Spec.NodalField K) :
    Spec.systemWork matrix (T.hinged H) v u = Spec.systemWork matrix T.parts v u := by
  rw [hinged_work matrix T H hin f hf, rail_work matrix T (by rw [hr]; simp [HingeCut.rail]; omega) f hf, hr, H.chain,
    hsame T.beam .inf (.fin H.σ), hsame T.beam (.fin H.σ) .inf]
  simp only [List.map_append, List.sum_append, List.map_cons, List.map_nil, List.sum_cons, List.sum_nil, add_zero]
  ring

theorem massMatrix_springs (b : BeamPart K) (s1 s2 : Spring K) :
    BeamPart.massMatrix { b with s1 := s1, s2 := s2 } = b.massMatrix := rfl

/-- What makes a track with a hinge stand: the track without hinge stands, and the rail is cut at an inner node. -/
structure HingedStanding (inp : SystemInput K) (T : TrackParts K) (H : HingeCut K) : Prop where
  standing : Standing inp T
  inner : H.Inner
  rail : T.rail = H.rail
  nodup : T.rail.Nodup

/-- The system with the hinge. -/
def SystemInput.withHinge (inp : SystemInput K) (T : TrackParts K) (H : HingeCut K) : SystemInput K :=
  { inp with parts := T.hinged H }

section standing
variable {inp : SystemInput K} {T : TrackParts K} {H : HingeCut K}

theorem HingedStanding.pieces_elements (p : AssemblyPart K) (hp : p ∈ H.pieces T.beam) (e : (ℕ × ℕ) × (K × K))
    (he : e ∈ p.elements) : e.1 ∈ chainOf H.rail ∧ e.2 = (1, 0) := by
  rw [H.chain]
  unfold HingeCut.pieces at hp
  simp only [List.mem_cons, List.not_mem_nil, or_false] at hp
  rcases hp with rfl | rfl | rfl | rfl <;> simp only [beamAssembly, horizontalElements, List.mem_map] at he <;>
    obtain ⟨x, hx, rfl⟩ := he <;> simp_all

theorem HingedStanding.pieces_nodes (p : AssemblyPart K) (hp : p ∈ H.pieces T.beam) (m : ℕ) (hm : m ∈ p.nodes) : m ∈ H.rail := by
  unfold HingeCut.pieces at hp
  unfold HingeCut.rail
  simp only [List.mem_cons, List.not_mem_nil, or_false] at hp
  rcases hp with rfl | rfl | rfl | rfl <;> simp [beamAssembly] at hm ⊢ <;> tauto

theorem HingedStanding.within (h : HingedStanding inp T H) (m : ℕ) (hm : m ∈ H.rail) : m < inp.n := by
  have := (h.standing.mesh (beamAssembly T.beam (horizontalElements (chainOf T.rail)) T.railNodes)
    (by rw [h.standing.parts]; simp [TrackParts.parts])).1
  rw [← h.rail] at hm
  obtain ⟨i, hi, rfl⟩ := List.mem_iff_getElem.mp hm
  have hl := h.standing.nonEmpty.rail
  by_cases hz : i + 1 < T.rail.length
  · have hmem : (T.rail[i], T.rail[i + 1]) ∈ chainOf T.rail := by
      unfold chainOf
      rw [List.mem_iff_getElem]
      exact ⟨i, by simp; omega, by simp⟩
    exact (this ((T.rail[i], T.rail[i + 1]), (1, 0)) (List.mem_map.mpr ⟨_, hmem, rfl⟩)).1
  · obtain ⟨j, rfl⟩ : ∃ j, i = j + 1 := ⟨i - 1, by omega⟩
    have hmem : (T.rail[j], T.rail[j + 1]) ∈ chainOf T.rail := by
      unfold chainOf
      rw [List.mem_iff_getElem]
      exact ⟨j, by simp; omega, by simp⟩
    exact (this ((T.rail[j], T.rail[j + 1]), (1, 0)) (List.mem_map.mpr ⟨_, hmem, rfl⟩)).2

theorem HingedStanding.mesh (h : HingedStanding inp T H) : Spec.NodesInMesh (inp.withHinge T H) := by
  intro p hp
  rcases List.mem_append.mp hp with hp | hp
  · refine ⟨fun e he => ?_, fun m hm => h.within m (HingedStanding.pieces_nodes p hp m hm)⟩
    obtain ⟨m1, m2⟩ := mem_chainOf (a := e.1.1) (b := e.1.2) (HingedStanding.pieces_elements p hp e he).1
    exact ⟨h.within _ m1, h.within _ m2⟩
  · exact h.standing.mesh p (by rw [h.standing.parts]; exact List.mem_of_mem_tail hp)

theorem HingedStanding.aligned (h : HingedStanding inp T H) : Spec.AxisAligned (inp.withHinge T H) := by
  intro p hp e he
  rcases List.mem_append.mp hp with hp | hp
  · left
    rw [(HingedStanding.pieces_elements p hp e he).2]
  · exact h.standing.aligned p (by rw [h.standing.parts]; exact List.mem_of_mem_tail hp) e he

theorem HingedStanding.valid (h : HingedStanding inp T H) (s1 s2 : Spring K) : BeamPart.Valid { T.beam with s1 := s1, s2 := s2 } :=
  ⟨h.standing.beam.E, h.standing.beam.nu, h.standing.beam.rho, h.standing.beam.A, h.standing.beam.I, h.standing.beam.kappa,
    h.standing.beam.l⟩

/-- Stiffness work of pads and soil. -/
theorem HingedStanding.rest (h : HingedStanding inp T H) (u : Spec.NodalField K) :
    Spec.systemWork AssemblyPart.stiffness T.parts.tail u u =
      (T.pads.map fun e => T.pad.stiffness * (u e.2 1 - u e.1 1) ^ 2).sum +
      (T.soils.map fun s => (s.2.1.map fun e => s.1.stiffness * (u e.2 1 - u e.1 1) ^ 2).sum).sum := by
  have h1 := track_stiffness T h.standing.nonEmpty u
  rw [rail_work AssemblyPart.stiffness T h.standing.nonEmpty.rail BeamPart.stiffness (fun _ _ _ => rfl)] at h1
  have e : ((chainOf T.rail).map fun e => bilinear T.beam.stiffness (sixValues u e) (sixValues u e)).sum =
    ((chainOf T.rail).map fun e => Spec.energy T.beam.stiffness (sixValues u e)).sum := rfl
  rw [e] at h1
  linarith

theorem HingedStanding.rest_nonneg (h : HingedStanding inp T H) (u : Spec.NodalField K) :
    0 ≤ Spec.systemWork AssemblyPart.stiffness T.parts.tail u u := by
  rw [h.rest]
  refine add_nonneg ?_ ?_
  · exact list_sum_nonneg _ _ fun e _ => mul_nonneg h.standing.pad.le (sq_nonneg _)
  · exact list_sum_nonneg _ _ fun s hs => list_sum_nonneg _ _ fun e _ => mul_nonneg (h.standing.soil s hs).le (sq_nonneg _)

/-- Without energy in pads and soil, sleepers and the rail above pads stay. -/
theorem HingedStanding.rest_zero (h : HingedStanding inp T H) (u : Spec.NodalField K)
    (hu : ∀ i d, Spec.Supported inp.constraints i d → u i d = 0)
    (h0 : Spec.systemWork AssemblyPart.stiffness T.parts.tail u u = 0) :
    (∀ m ∈ T.sleepers, u m 1 = 0) ∧ ∀ e ∈ T.pads, u e.1 1 = 0 := by
  rw [h.rest] at h0
  have n2 := list_sum_nonneg T.pads (fun e => T.pad.stiffness * (u e.2 1 - u e.1 1) ^ 2)
    fun e _ => mul_nonneg h.standing.pad.le (sq_nonneg _)
  have n3' : ∀ s ∈ T.soils, 0 ≤ (s.2.1.map fun e => s.1.stiffness * (u e.2 1 - u e.1 1) ^ 2).sum := fun s hs =>
    list_sum_nonneg _ _ fun e _ => mul_nonneg (h.standing.soil s hs).le (sq_nonneg _)
  have n3 := list_sum_nonneg T.soils _ n3'
  have z2 := list_sum_zero _ _ (fun e _ => mul_nonneg h.standing.pad.le (sq_nonneg _))
    (by linarith : (T.pads.map fun e => T.pad.stiffness * (u e.2 1 - u e.1 1) ^ 2).sum = 0)
  have z3 := list_sum_zero _ _ n3'
    (by linarith : (T.soils.map fun s => (s.2.1.map fun e => s.1.stiffness * (u e.2 1 - u e.1 1) ^ 2).sum).sum = 0)
  have spring : ∀ {k : K}, 0 < k → ∀ x y : K, k * (x - y) ^ 2 = 0 → x = y := by
    intro k hk x y hxy
    have := pow_eq_zero_iff (two_ne_zero) |>.mp ((mul_eq_zero.mp hxy).resolve_left hk.ne')
    linarith
  have hs : ∀ m ∈ T.sleepers, u m 1 = 0 := by
    intro m hm
    obtain ⟨s, hs, e, he, rfl, hsup⟩ := h.standing.soilEnds m hm
    have := list_sum_zero _ _ (fun e _ => mul_nonneg (h.standing.soil s hs).le (sq_nonneg _)) (z3 s hs) e he
    rw [← spring (h.standing.soil s hs) _ _ this]
    exact hu _ _ hsup
  refine ⟨hs, fun e he => ?_⟩
  rw [← spring h.standing.pad _ _ (z2 e he)]
  exact hs _ (h.standing.padEnds e he).2

theorem HingedStanding.energy_nonneg (h : HingedStanding inp T H) (u : Spec.NodalField K) :
    0 ≤ Spec.systemWork AssemblyPart.stiffness (T.hinged H) u u := by
  rw [hinged_work AssemblyPart.stiffness T H h.inner BeamPart.stiffness (fun _ _ _ => rfl)]
  refine add_nonneg ?_ (add_nonneg ?_ (add_nonneg ?_ (add_nonneg ?_ (h.rest_nonneg u))))
  · exact list_sum_nonneg _ _ fun e _ => C19_beam_psd T.beam h.standing.beam _
  · exact C19_beam_psd _ (h.valid _ _) _
  · exact C19_beam_psd _ (h.valid _ _) _
  · exact list_sum_nonneg _ _ fun e _ => C19_beam_psd T.beam h.standing.beam _

/-- What a displacement without energy does to the rail. -/
theorem HingedStanding.energy_zero (h : HingedStanding inp T H) (u : Spec.NodalField K)
    (h0 : Spec.systemWork AssemblyPart.stiffness (T.hinged H) u u = 0) :
    (∀ e ∈ chainOf (H.A ++ [H.p]), Spec.RigidMotion T.beam.l (sixValues u e)) ∧
    (u H.c 0 = u H.p 0 ∧ u H.c 1 = u H.p 1 + T.beam.l * u H.p 2 ∧ (0 < H.σ → u H.c 2 = u H.p 2)) ∧
    (u H.q 0 = u H.c 0 ∧ u H.q 1 = u H.c 1 + T.beam.l * u H.q 2 ∧ (0 < H.σ → u H.c 2 = u H.q 2)) ∧
    (∀ e ∈ chainOf (H.q :: H.B), Spec.RigidMotion T.beam.l (sixValues u e)) ∧
    Spec.systemWork AssemblyPart.stiffness T.parts.tail u u = 0 := by
  rw [hinged_work AssemblyPart.stiffness T H h.inner BeamPart.stiffness (fun _ _ _ => rfl)] at h0
  have n1 := list_sum_nonneg (chainOf (H.A ++ [H.p])) (fun e => Spec.energy T.beam.stiffness (sixValues u e))
    fun e _ => C19_beam_psd T.beam h.standing.beam _
  have n4 := list_sum_nonneg (chainOf (H.q :: H.B)) (fun e => Spec.energy T.beam.stiffness (sixValues u e))
    fun e _ => C19_beam_psd T.beam h.standing.beam _
  have n2 := C19_beam_psd _ (h.valid .inf (.fin H.σ)) (sixValues u (H.p, H.c))
  have n3 := C19_beam_psd _ (h.valid (.fin H.σ) .inf) (sixValues u (H.c, H.q))
  have n5 := h.rest_nonneg u
  change ((chainOf (H.A ++ [H.p])).map fun e => Spec.energy T.beam.stiffness (sixValues u e)).sum +
    (Spec.energy (BeamPart.stiffness { T.beam with s1 := .inf, s2 := .fin H.σ }) (sixValues u (H.p, H.c)) +
    (Spec.energy (BeamPart.stiffness { T.beam with s1 := .fin H.σ, s2 := .inf }) (sixValues u (H.c, H.q)) +
    (((chainOf (H.q :: H.B)).map fun e => Spec.energy T.beam.stiffness (sixValues u e)).sum +
      Spec.systemWork AssemblyPart.stiffness T.parts.tail u u))) = 0 at h0
  have z1 := list_sum_zero _ _ (fun e _ => C19_beam_psd T.beam h.standing.beam _)
    (by linarith : ((chainOf (H.A ++ [H.p])).map fun e => Spec.energy T.beam.stiffness (sixValues u e)).sum = 0)
  have z4 := list_sum_zero _ _ (fun e _ => C19_beam_psd T.beam h.standing.beam _)
    (by linarith : ((chainOf (H.q :: H.B)).map fun e => Spec.energy T.beam.stiffness (sixValues u e)).sum = 0)
  refine ⟨fun e he => (C19_beam_kernel T.beam h.standing.beam h.standing.rigid1 h.standing.rigid2 _).mp (z1 e he), ?_, ?_,
    fun e he => (C19_beam_kernel T.beam h.standing.beam h.standing.rigid1 h.standing.rigid2 _).mp (z4 e he), by linarith⟩
  · exact semi_second _ (h.valid .inf (.fin H.σ)) rfl H.σ rfl _ (by linarith)
  · exact semi_first _ (h.valid (.fin H.σ) .inf) rfl H.σ rfl _ (by linarith)

/-- With shear flexibility a displacement without energy does not turn the neighbours of a pin. -/
theorem HingedStanding.energy_shear (h : HingedStanding inp T H) (hσ : H.σ ≤ 0) (hκ : 0 < T.beam.kappa) (u : Spec.NodalField K)
    (h0 : Spec.systemWork AssemblyPart.stiffness (T.hinged H) u u = 0) : u H.p 2 = 0 ∧ u H.q 2 = 0 := by
  rw [hinged_work AssemblyPart.stiffness T H h.inner BeamPart.stiffness (fun _ _ _ => rfl)] at h0
  have n1 := list_sum_nonneg (chainOf (H.A ++ [H.p])) (fun e => Spec.energy T.beam.stiffness (sixValues u e))
    fun e _ => C19_beam_psd T.beam h.standing.beam _
  have n4 := list_sum_nonneg (chainOf (H.q :: H.B)) (fun e => Spec.energy T.beam.stiffness (sixValues u e))
    fun e _ => C19_beam_psd T.beam h.standing.beam _
  have n2 := C19_beam_psd _ (h.valid .inf (.fin H.σ)) (sixValues u (H.p, H.c))
  have n3 := C19_beam_psd _ (h.valid (.fin H.σ) .inf) (sixValues u (H.c, H.q))
  have n5 := h.rest_nonneg u
  change ((chainOf (H.A ++ [H.p])).map fun e => Spec.energy T.beam.stiffness (sixValues u e)).sum +
    (Spec.energy (BeamPart.stiffness { T.beam with s1 := .inf, s2 := .fin H.σ }) (sixValues u (H.p, H.c)) +
    (Spec.energy (BeamPart.stiffness { T.beam with s1 := .fin H.σ, s2 := .inf }) (sixValues u (H.c, H.q)) +
    (((chainOf (H.q :: H.B)).map fun e => Spec.energy T.beam.stiffness (sixValues u e)).sum +
      Spec.systemWork AssemblyPart.stiffness T.parts.tail u u))) = 0 at h0
  constructor
  · exact shear_second _ (h.valid .inf (.fin H.σ)) hκ rfl H.σ hσ rfl (sixValues u (H.p, H.c)) (by linarith)
  · exact shear_first _ (h.valid (.fin H.σ) .inf) hκ rfl H.σ hσ rfl (sixValues u (H.c, H.q)) (by linarith)

theorem getElem_chain (rail : List ℕ) (i : ℕ) (hi : i + 1 < rail.length) :
    (rail[i], rail[i + 1]) ∈ chainOf rail := by
  unfold chainOf
  rw [List.mem_iff_getElem]
  exact ⟨i, by simp; omega, by simp⟩

/-- A displacement without energy bends the rail at the hinge only: straight before and after it. -/
theorem HingedStanding.bent (h : HingedStanding inp T H) (u : Spec.NodalField K)
    (h0 : Spec.systemWork AssemblyPart.stiffness (T.hinged H) u u = 0) :
    ∃ x w w' : K, (0 < H.σ → w' = w ∧ u H.c 2 = w) ∧ ∀ i m : ℕ, T.rail[i]? = some m →
      u m 0 = x ∧ (i ≤ H.A.length + 1 → u m 1 = u H.c 1 + ((i : K) - (H.A.length + 1)) * (T.beam.l * w)) ∧
      (H.A.length + 1 ≤ i → u m 1 = u H.c 1 + ((i : K) - (H.A.length + 1)) * (T.beam.l * w')) ∧
      (i < H.A.length + 1 → u m 2 = w) ∧ (H.A.length + 1 < i → u m 2 = w') := by
  obtain ⟨e1, ⟨e2, e3, e4⟩, ⟨e5, e6, e7⟩, e8, -⟩ := h.energy_zero u h0
  have hL : 0 < (H.A ++ [H.p]).length := by simp
  have cl := chain_rigid T.beam.l (H.A ++ [H.p]) u e1 _ (List.getElem?_eq_getElem hL)
  have cr := chain_rigid T.beam.l (H.q :: H.B) u e8 H.q rfl
  have hp := cl H.A.length H.p (by simp)
  generalize (H.A ++ [H.p])[0] = o at cl hp
  obtain ⟨p0, p1, p2⟩ := hp
  refine ⟨u o 0, u o 2, u H.q 2, fun hσ => ⟨by rw [← e7 hσ, e4 hσ, p2], by rw [e4 hσ, p2]⟩, fun i m hi => ?_⟩
  rw [h.rail, HingeCut.rail] at hi
  have hc1 : u H.c 1 = u o 1 + ((H.A.length : K) + 1) * (T.beam.l * u o 2) := by
    rw [e3, p1, p2]; ring
  rcases lt_trichotomy i (H.A.length + 1) with hlt | rfl | hgt
  · have hm : (H.A ++ [H.p])[i]? = some m := by
      rw [show H.A ++ H.p :: H.c :: H.q :: H.B = (H.A ++ [H.p]) ++ (H.c :: H.q :: H.B) by simp,
        List.getElem?_append_left (by simp; omega)] at hi
      exact hi
    obtain ⟨c0, c1, c2⟩ := cl i m hm
    refine ⟨c0, fun _ => ?_, fun hh => by omega, fun _ => c2, fun hh => by omega⟩
    rw [c1, hc1]
    ring
  · have hm : m = H.c := by
      rw [show H.A ++ H.p :: H.c :: H.q :: H.B = (H.A ++ [H.p]) ++ (H.c :: H.q :: H.B) by simp,
        List.getElem?_append_right (by simp)] at hi
      simpa using hi.symm
    subst hm
    refine ⟨by rw [e2, p0], fun _ => ?_, fun _ => ?_, fun hh => by omega, fun hh => by omega⟩
    · push_cast; ring
    · push_cast; ring
  · have hm : (H.q :: H.B)[i - (H.A.length + 2)]? = some m := by
      rw [show H.A ++ H.p :: H.c :: H.q :: H.B = (H.A ++ [H.p, H.c]) ++ (H.q :: H.B) by simp,
        List.getElem?_append_right (by simp; omega)] at hi
      simpa using hi
    obtain ⟨c0, c1, c2⟩ := cr _ m hm
    refine ⟨by rw [c0, e5, e2, p0], fun hh => by omega, fun _ => ?_, fun hh => by omega, fun _ => c2⟩
    rw [c1, e6, Nat.cast_sub (by omega)]
    push_cast
    ring

/-- A pad below the rail node `i`. -/
def TrackParts.PadAt (T : TrackParts K) (i : ℕ) : Prop := ∃ a, T.rail[i]? = some a ∧ ∃ e ∈ T.pads, e.1 = a

/-- The pads hold both sides of a rail with a pin at the node `k`: two pads up to the pin and one behind it, or one before it and two
from the pin on. -/
def TrackParts.HoldsPin (T : TrackParts K) (k : ℕ) : Prop :=
  (∃ i j m : ℕ, i < j ∧ j ≤ k ∧ k < m ∧ T.PadAt i ∧ T.PadAt j ∧ T.PadAt m) ∨
  ∃ m i j : ℕ, m < k ∧ k ≤ i ∧ i < j ∧ T.PadAt m ∧ T.PadAt i ∧ T.PadAt j

theorem two_points {l y w : K} (hl : 0 < l) {a b : K} (hab : a < b) (ha : y + a * (l * w) = 0) (hb : y + b * (l * w) = 0) :
    y = 0 ∧ w = 0 := by
  have : (b - a) * l * w = 0 := by linear_combination hb - ha
  have hw : w = 0 := by
    have hne : (b - a) * l ≠ 0 := (mul_pos (sub_pos.mpr hab) hl).ne'
    exact (mul_eq_zero.mp this).resolve_left hne
  refine ⟨?_, hw⟩
  rw [hw] at ha
  linear_combination ha

theorem one_point {l y w : K} (hl : 0 < l) {a : K} (h0 : a ≠ 0) (hy : y = 0) (ha : y + a * (l * w) = 0) : w = 0 := by
  rw [hy, zero_add] at ha
  exact (mul_eq_zero.mp ((mul_eq_zero.mp ha).resolve_left h0)).resolve_left hl.ne'

/-- A displacement without energy shifts the rail in x; besides, only the node of a pin may turn. -/
theorem HingedStanding.idle (h : HingedStanding inp T H) (hpin : H.σ ≤ 0 → T.HoldsPin (H.A.length + 1) ∨ 0 < T.beam.kappa) (u : Spec.NodalField K)
    (hu : ∀ i d, Spec.Supported inp.constraints i d → u i d = 0)
    (h0 : Spec.systemWork AssemblyPart.stiffness (T.hinged H) u u = 0) :
    (∃ x, ∀ m ∈ T.rail, u m 0 = x ∧ u m 1 = 0 ∧ ((0 < H.σ ∨ m ≠ H.c) → u m 2 = 0)) ∧ ∀ m ∈ T.sleepers, u m 1 = 0 := by
  obtain ⟨hs, hp⟩ := h.rest_zero u hu (h.energy_zero u h0).2.2.2.2
  obtain ⟨x, w, w', hσ, hb⟩ := h.bent u h0
  have hl := h.standing.beam.l
  have key : u H.c 1 = 0 ∧ w = 0 ∧ w' = 0 := by
    have before : ∀ i, T.PadAt i → i ≤ H.A.length + 1 → u H.c 1 + ((i : K) - (H.A.length + 1)) * (T.beam.l * w) = 0 := by
      rintro i ⟨a, ha, e, he, rfl⟩ hi
      rw [← (hb i _ ha).2.1 hi, hp e he]
    have after : ∀ i, T.PadAt i → H.A.length + 1 ≤ i → u H.c 1 + ((i : K) - (H.A.length + 1)) * (T.beam.l * w') = 0 := by
      rintro i ⟨a, ha, e, he, rfl⟩ hi
      rw [← (hb i _ ha).2.2.1 hi, hp e he]
    have cast : ∀ {i j : ℕ}, i < j → (i : K) - (H.A.length + 1) < (j : K) - (H.A.length + 1) := by
      intro i j hij
      have : (i : K) < j := by exact_mod_cast hij
      linarith
    have castk : ∀ {i : ℕ}, i ≠ H.A.length + 1 → (i : K) - (H.A.length + 1) ≠ 0 := by
      intro i hi hc
      apply hi
      have : (i : K) = ((H.A.length + 1 : ℕ) : K) := by push_cast; linarith
      exact_mod_cast this
    rcases le_or_gt H.σ 0 with hle | hgt
    · rcases hpin hle with (⟨i, j, m, h1, h2, h3, pi, pj, pm⟩ | ⟨m, i, j, h1, h2, h3, pm, pi, pj⟩) | hκ
      · obtain ⟨k1, k2⟩ := two_points hl (cast h1) (before i pi (by omega)) (before j pj h2)
        exact ⟨k1, k2, one_point hl (castk (by omega)) k1 (after m pm h3.le)⟩
      · obtain ⟨k1, k2⟩ := two_points hl (cast h3) (after i pi h2) (after j pj (by omega))
        exact ⟨k1, one_point hl (castk (by omega)) k1 (before m pm h1.le), k2⟩
      · obtain ⟨z1, z2⟩ := h.energy_shear hle hκ u h0
        have m1 : T.rail[H.A.length]? = some H.p := by rw [h.rail, HingeCut.rail, List.getElem?_append_right le_rfl]; simp
        have m2 : T.rail[H.A.length + 2]? = some H.q := by
          rw [h.rail, HingeCut.rail, List.getElem?_append_right (by omega)]; simp
        have w0 : w = 0 := by rw [← (hb _ _ m1).2.2.2.1 (by omega), z1]
        have w0' : w' = 0 := by rw [← (hb _ _ m2).2.2.2.2 (by omega), z2]
        obtain ⟨i, j, a, b, hij, hia, hjb, ha, hb'⟩ := h.standing.twoPads
        refine ⟨?_, w0, w0'⟩
        rcases le_total i (H.A.length + 1) with hi | hi
        · simpa [w0] using before i ⟨a, hia, ha⟩ hi
        · simpa [w0'] using after i ⟨a, hia, ha⟩ hi
    · obtain ⟨rfl, -⟩ := hσ hgt
      obtain ⟨i, j, a, b, hij, hia, hjb, ha, hb'⟩ := h.standing.twoPads
      have all : ∀ i, T.PadAt i → u H.c 1 + ((i : K) - (H.A.length + 1)) * (T.beam.l * w') = 0 := by
        intro i pi
        rcases le_total i (H.A.length + 1) with hi | hi
        · exact before i pi hi
        · exact after i pi hi
      obtain ⟨k1, k2⟩ := two_points hl (cast hij) (all i ⟨a, hia, ha⟩) (all j ⟨b, hjb, hb'⟩)
      exact ⟨k1, k2, k2⟩
  obtain ⟨k1, rfl, rfl⟩ := key
  refine ⟨⟨x, fun m hm => ?_⟩, hs⟩
  obtain ⟨i, hi, rfl⟩ := List.mem_iff_getElem.mp hm
  obtain ⟨b0, b1, b2, b3, b4⟩ := hb i _ (List.getElem?_eq_getElem hi)
  refine ⟨b0, ?_, ?_⟩
  · rcases le_total i (H.A.length + 1) with hi | hi
    · rw [b1 hi, k1]; ring
    · rw [b2 hi, k1]; ring
  · intro hor
    rcases lt_trichotomy i (H.A.length + 1) with hi | hi | hi
    · exact b3 hi
    · have hc : T.rail[i] = H.c := by
        have : T.rail[i]? = some H.c := by
          rw [h.rail, HingeCut.rail, hi, show H.A ++ H.p :: H.c :: H.q :: H.B = (H.A ++ [H.p]) ++ (H.c :: H.q :: H.B) by simp,
            List.getElem?_append_right (by simp)]
          simp
        rw [List.getElem?_eq_getElem (by assumption)] at this
        simpa using this
      rw [hc] at hor ⊢
      rcases hor with hor | hor
      · exact (hσ hor).2
      · exact absurd rfl hor
    · exact b4 hi

theorem HingedStanding.rest_unstiff (h : HingedStanding inp T H) (i : ℕ) (d : Fin 3) (hd : d ≠ 1) :
    Spec.systemWork AssemblyPart.stiffness T.parts.tail (Spec.unitField i d) (Spec.unitField i d) = 0 := by
  have hy : ∀ m, (Spec.unitField i d : Spec.NodalField K) m 1 = 0 := by
    intro m
    unfold Spec.unitField
    rw [if_neg]
    exact fun hc => hd hc.2.symm
  rw [h.rest]
  simp [hy]

theorem sixValues_unit_zero (i : ℕ) (d : Fin 3) (e : ℕ × ℕ) (h1 : e.1 ≠ i) (h2 : e.2 ≠ i) :
    sixValues (Spec.unitField i d : Spec.NodalField K) e = 0 := by
  ext k
  fin_cases k <;> simp [sixValues, Spec.unitField, h1, h2]

theorem bilinear_zero {n : ℕ} (M : Matrix (Fin n) (Fin n) K) (w : Fin n → K) : bilinear M w 0 = 0 := by
  simp [bilinear]

/-- A sleeper has no stiffness but in y. -/
theorem HingedStanding.sleeper_unstiff (h : HingedStanding inp T H) (i : ℕ) (hi : i ∈ T.sleepers) (d : Fin 3) (hd : d ≠ 1) :
    Spec.systemWork AssemblyPart.stiffness (T.hinged H) (Spec.unitField i d) (Spec.unitField i d) = 0 := by
  have hne : ∀ e ∈ chainOf H.rail, e.1 ≠ i ∧ e.2 ≠ i := by
    intro e he
    rw [← h.rail] at he
    obtain ⟨m1, m2⟩ := mem_chainOf (a := e.1) (b := e.2) he
    exact ⟨fun hc => h.standing.apart i hi (hc ▸ m1), fun hc => h.standing.apart i hi (hc ▸ m2)⟩
  rw [H.chain] at hne
  rw [hinged_work AssemblyPart.stiffness T H h.inner BeamPart.stiffness (fun _ _ _ => rfl), h.rest_unstiff i d hd]
  have z : ∀ e ∈ chainOf (H.A ++ [H.p]) ++ ([(H.p, H.c)] ++ ([(H.c, H.q)] ++ chainOf (H.q :: H.B))),
      sixValues (Spec.unitField i d : Spec.NodalField K) e = 0 := fun e he => sixValues_unit_zero i d e (hne e he).1 (hne e he).2
  rw [z (H.p, H.c) (by simp), z (H.c, H.q) (by simp), bilinear_zero, bilinear_zero]
  have s1 : ((chainOf (H.A ++ [H.p])).map fun e => bilinear T.beam.stiffness (sixValues (Spec.unitField i d) e)
      (sixValues (Spec.unitField i d) e)).sum = 0 := by
    apply List.sum_eq_zero
    intro x hx
    obtain ⟨e, he, rfl⟩ := List.mem_map.mp hx
    rw [z e (by simp [he]), bilinear_zero]
  have s2 : ((chainOf (H.q :: H.B)).map fun e => bilinear T.beam.stiffness (sixValues (Spec.unitField i d) e)
      (sixValues (Spec.unitField i d) e)).sum = 0 := by
    apply List.sum_eq_zero
    intro x hx
    obtain ⟨e, he, rfl⟩ := List.mem_map.mp hx
    rw [z e (by simp [he]), bilinear_zero]
  rw [s1, s2]
  ring

theorem HingedStanding.distinct (h : HingedStanding inp T H) :
    H.p ≠ H.c ∧ H.q ≠ H.c ∧ H.c ∉ H.A ++ [H.p] ∧ H.c ∉ H.q :: H.B := by
  have := h.nodup
  rw [h.rail, HingeCut.rail, show H.A ++ H.p :: H.c :: H.q :: H.B = (H.A ++ [H.p]) ++ (H.c :: H.q :: H.B) by simp,
    List.nodup_append] at this
  obtain ⟨-, h2, h3⟩ := this
  have c1 : H.c ∉ H.A ++ [H.p] := fun hc => h3 _ hc _ (by simp) rfl
  have c2 : H.c ∉ H.q :: H.B := (List.nodup_cons.mp h2).1
  exact ⟨fun hc => c1 (by simp [hc]), fun hc => c2 (by simp [hc]), c1, c2⟩

/-- Without springs the rotation of the hinge node has no stiffness. -/
theorem HingedStanding.pin_unstiff (h : HingedStanding inp T H) (hσ : H.σ ≤ 0) :
    Spec.systemWork AssemblyPart.stiffness (T.hinged H) (Spec.unitField H.c 2) (Spec.unitField H.c 2) = 0 := by
  obtain ⟨d1, d2, d3, d4⟩ := h.distinct
  have hf : fixity (T.beam.E * T.beam.I) T.beam.l (.fin H.σ) = 0 := by
    simp [fixity, not_lt.mpr hσ]
  rw [hinged_work AssemblyPart.stiffness T H h.inner BeamPart.stiffness (fun _ _ _ => rfl), h.rest_unstiff H.c 2 (by decide)]
  have z1 : sixValues (Spec.unitField H.c 2 : Spec.NodalField K) (H.p, H.c) = ![0, 0, 0, 0, 0, 1] := by
    ext k
    fin_cases k <;> simp [sixValues, Spec.unitField, d1]
  have z2 : sixValues (Spec.unitField H.c 2 : Spec.NodalField K) (H.c, H.q) = ![0, 0, 1, 0, 0, 0] := by
    ext k
    fin_cases k <;> simp [sixValues, Spec.unitField, d2]
  have s1 : ((chainOf (H.A ++ [H.p])).map fun e => bilinear T.beam.stiffness (sixValues (Spec.unitField H.c 2) e)
      (sixValues (Spec.unitField H.c 2) e)).sum = 0 := by
    apply List.sum_eq_zero
    intro x hx
    obtain ⟨e, he, rfl⟩ := List.mem_map.mp hx
    obtain ⟨m1, m2⟩ := mem_chainOf (a := e.1) (b := e.2) he
    rw [sixValues_unit_zero H.c 2 e (fun hc => d3 (hc ▸ m1)) (fun hc => d3 (hc ▸ m2)), bilinear_zero]
  have s2 : ((chainOf (H.q :: H.B)).map fun e => bilinear T.beam.stiffness (sixValues (Spec.unitField H.c 2) e)
      (sixValues (Spec.unitField H.c 2) e)).sum = 0 := by
    apply List.sum_eq_zero
    intro x hx
    obtain ⟨e, he, rfl⟩ := List.mem_map.mp hx
    obtain ⟨m1, m2⟩ := mem_chainOf (a := e.1) (b := e.2) he
    rw [sixValues_unit_zero H.c 2 e (fun hc => d4 (hc ▸ m1)) (fun hc => d4 (hc ▸ m2)), bilinear_zero]
  have b1 : bilinear (BeamPart.stiffness { T.beam with s1 := .inf, s2 := .fin H.σ }) ![0, 0, 0, 0, 0, 1] ![0, 0, 0, 0, 0, 1] = 0 := by
    unfold BeamPart.stiffness
    simp only [hf]
    rw [beamStiffness_eq]
    simp [bilinear, Fin.sum_univ_six]
  have b2 : bilinear (BeamPart.stiffness { T.beam with s1 := .fin H.σ, s2 := .inf }) ![0, 0, 1, 0, 0, 0] ![0, 0, 1, 0, 0, 0] = 0 := by
    unfold BeamPart.stiffness
    simp only [hf]
    rw [beamStiffness_eq]
    simp [bilinear, Fin.sum_univ_six]
  rw [s1, s2, z1, z2, b1, b2]
  ring

/-- The stiffness matrix of a track with a hinge that is held in x, and whose pads hold both sides of a pin, is positive definite. -/
theorem HingedStanding.definite (h : HingedStanding inp T H) (hpin : H.σ ≤ 0 → T.HoldsPin (H.A.length + 1) ∨ 0 < T.beam.kappa)
    (hx : ∃ m ∈ T.rail, Spec.Supported inp.constraints m 0) (flags : ℕ → Fin 3 → Bool) (st : TrimState K)
    (hst : (inp.withHinge T H).initialise flags = .ok st) (U : ℕ → K) :
    0 ≤ matrixWork st.N st.Kg U U ∧ (matrixWork st.N st.Kg U U = 0 → ∀ k < st.N, U k = 0) := by
  have hrep := fieldOf_represents (inp.withHinge T H).n st.nodes U
  rw [(C106_work_partial _ flags h.mesh h.aligned st hst U U _ _ hrep hrep).1]
  refine ⟨h.energy_nonneg _, fun h0 => ?_⟩
  have hu : ∀ i d, Spec.Supported inp.constraints i d → fieldOf st.nodes U i d = 0 := by
    intro i d hs
    simp [fieldOf, supported_removed _ flags st hst i d hs]
  obtain ⟨⟨t, ht⟩, hs⟩ := h.idle hpin _ hu h0
  obtain ⟨m, hm, hsup⟩ := hx
  have ht0 : t = 0 := by rw [← (ht m hm).1]; exact hu m 0 hsup
  have hall : ∀ i < inp.n, ∀ d, fieldOf st.nodes U i d = 0 := by
    intro i hi d
    rcases h.standing.nodes i hi with hr | hr | hr
    · obtain ⟨a0, a1, a2⟩ := ht i hr
      fin_cases d
      · exact a0.trans ht0
      · exact a1
      · by_cases hc : 0 < H.σ ∨ i ≠ H.c
        · exact a2 hc
        · push Not at hc
          obtain ⟨hσ, rfl⟩ := hc
          show fieldOf st.nodes U H.c 2 = 0
          simp [fieldOf, unstiff_removed _ h.mesh h.aligned flags st hst H.c hi 2 (h.pin_unstiff hσ)]
    · by_cases hd : d = 1
      · rw [hd]; exact hs i hr
      · simp [fieldOf, unstiff_removed _ h.mesh h.aligned flags st hst i hi d (h.sleeper_unstiff i hr d hd)]
    · exact hu i d (hr d)
  intro k hk
  obtain ⟨p, hp, -⟩ := (C106_representable _ flags st hst).1 k hk
  have := hall p.1 ((C106_representable _ flags st hst).2.1 p.1 p.2 k hp).1 p.2
  rw [fieldOf, hp] at this
  exact this

end standing

end
end Rose
