/-
C115, C116: the system of a standing track has one solution.
-/
import Verif.Model.TrackSystem
import Verif.Spec.Solvable
import Verif.Props.GlobalSystem
import Verif.Props.MeshUtils
import Verif.Props.TrackParts
import Verif.Props.Beam
import Verif.Props.BeamMass
import Mathlib.LinearAlgebra.Matrix.ToLin
import Mathlib.LinearAlgebra.FiniteDimensional.Basic

set_option linter.unusedSectionVars false

namespace Rose
open Finset

/-! ### Positive definite systems have one solution -/

section
variable {K : Type*} [Field K] [LinearOrder K] [IsStrictOrderedRing K]

theorem solvable_of_definite (N : ℕ) (g : ℕ → ℕ → K)
    (h : ∀ U, matrixWork N g U U = 0 → ∀ i < N, U i = 0) : Spec.UniquelySolvable N g := by
  let A : Matrix (Fin N) (Fin N) K := Matrix.of fun i j => g i j
  let L : (Fin N → K) →ₗ[K] (Fin N → K) := Matrix.toLin' A
  let ext : (Fin N → K) → ℕ → K := fun x k => if hk : k < N then x ⟨k, hk⟩ else 0
  have hext : ∀ x (i : Fin N), ext x i = x i := by
    intro x i; simp [ext]
  have hrow : ∀ (U : ℕ → K) (i : Fin N), L (fun j => U j) i = ∑ j ∈ range N, g i j * U j := by
    intro U i
    simp only [L, Matrix.toLin'_apply, Matrix.mulVec, dotProduct, A, Matrix.of_apply]
    rw [Finset.sum_range]
  have hinj : Function.Injective L := by
    rw [injective_iff_map_eq_zero]
    intro x hx
    have hx' : ∀ i : Fin N, ∑ j ∈ range N, g i j * ext x j = 0 := by
      intro i
      rw [← hrow]
      have : (fun j : Fin N => ext x j) = x := funext (hext x)
      rw [this, hx]; rfl
    have h0 := h (ext x) (by
      unfold matrixWork
      rw [Finset.sum_range]
      apply Finset.sum_eq_zero
      intro i _
      have := hx' i
      simp only [mul_assoc]
      rw [← Finset.mul_sum, this, mul_zero])
    funext i
    rw [← hext x i]
    exact h0 i i.2
  have hsurj : Function.Surjective L := LinearMap.injective_iff_surjective.mp hinj
  intro F
  obtain ⟨x, hx⟩ := hsurj fun i => F i
  refine ⟨ext x, ?_, ?_⟩
  · intro i hi
    have := hrow (ext x) ⟨i, hi⟩
    rw [← this]
    have e : (fun j : Fin N => ext x j) = x := funext (hext x)
    rw [e, hx]
  · intro U' hU' i hi
    have : L (fun j => U' j) = L x := by
      rw [hx]
      funext j
      rw [hrow]
      exact hU' j j.2
    have := congrFun (hinj this) ⟨i, hi⟩
    rw [← hext x ⟨i, hi⟩] at this
    exact this

theorem matrixWork_smul_add (N : ℕ) (k m c : ℕ → ℕ → K) (a b : K) (v u : ℕ → K) :
    matrixWork N (fun i j => k i j + a * c i j + b * m i j) v u =
      matrixWork N k v u + a * matrixWork N c v u + b * matrixWork N m v u := by
  unfold matrixWork
  simp only [Finset.mul_sum, ← Finset.sum_add_distrib]
  refine sum_congr rfl fun i _ => sum_congr rfl fun j _ => ?_
  ring

/-! ### Local works of the parts -/

theorem rod_localWork (A : Matrix (Fin 2) (Fin 2) K) (w z : Fin 2 → Fin 3 → K) :
    Spec.localWork 2 ![true, false, false] (matrixEntries A) w z = ∑ i, ∑ j, w i 0 * A i j * z j 0 := by
  have c1 : Spec.activeCount ![true, false, false] = 1 := by decide
  have c2 : Spec.activeBefore ![true, false, false] 0 = 0 := by decide
  unfold Spec.localWork
  refine sum_congr rfl fun i _ => sum_congr rfl fun j _ => ?_
  simp only [Fin.sum_univ_three, c1]
  simp only [Matrix.cons_val_zero, Matrix.cons_val_one, Matrix.cons_val, c2]
  have hi := i.2
  have hj := j.2
  simp [matrixEntries, hi, hj, -Order.lt_two_iff]

theorem beam_localWork (A : Matrix (Fin 6) (Fin 6) K) (w z : Fin 2 → Fin 3 → K) :
    Spec.localWork 2 ![true, true, true] (matrixEntries A) w z = ∑ i, ∑ j, flatTwo w i * A i j * flatTwo z j := by
  have c1 : Spec.activeCount ![true, true, true] = 3 := by decide
  have c2 : ∀ k : Fin 3, Spec.activeBefore ![true, true, true] k = k := by decide
  have c3 : ∀ k : Fin 3, (![true, true, true] : Fin 3 → Bool) k = true := by decide
  unfold Spec.localWork
  symm
  rw [sum_six]
  refine sum_congr rfl fun i _ => ?_
  rw [Finset.sum_congr rfl fun k _ => sum_six _, Finset.sum_comm]
  refine sum_congr rfl fun j _ => sum_congr rfl fun k _ => sum_congr rfl fun l _ => ?_
  simp only [flatTwo_apply, c1, c2, c3, and_self, if_true]
  have hi : (i : ℕ) * 3 + (k : ℕ) < 6 := by omega
  have hj : (j : ℕ) * 3 + (l : ℕ) < 6 := by omega
  simp only [matrixEntries, hi, hj, and_self, dif_pos]
  congr 3 <;> exact Fin.ext (by simp [mul_comm])

theorem point_localWork (A : Matrix (Fin 1) (Fin 1) K) (w z : Fin 3 → K) :
    Spec.localWork 1 ![false, true, false] (matrixEntries A) (fun _ => w) (fun _ => z) = w 1 * A 0 0 * z 1 := by
  have c1 : Spec.activeCount ![false, true, false] = 1 := by decide
  have c2 : Spec.activeBefore ![false, true, false] 1 = 0 := by decide
  unfold Spec.localWork
  simp only [Finset.univ_unique, Fin.default_eq_zero, sum_singleton, Fin.sum_univ_three, c1]
  simp only [Matrix.cons_val_zero, Matrix.cons_val_one, Matrix.cons_val, c2]
  simp [matrixEntries]

/-- The six nodal values of an element. -/
def sixValues (u : Spec.NodalField K) (e : ℕ × ℕ) : Fin 6 → K := ![u e.1 0, u e.1 1, u e.1 2, u e.2 0, u e.2 1, u e.2 2]

/-- Elements along the x axis. -/
def horizontalElements (es : List (ℕ × ℕ)) : List ((ℕ × ℕ) × (K × K)) := es.map fun e => (e, (1, 0))

/-- Elements pointing down. -/
def downElements (es : List (ℕ × ℕ)) : List ((ℕ × ℕ) × (K × K)) := es.map fun e => (e, (0, -1))

/-- The work `wᵀ A z`; `Spec.energy A u` is `bilinear A u u`. -/
def bilinear {n : ℕ} (A : Matrix (Fin n) (Fin n) K) (w z : Fin n → K) : K := ∑ i, ∑ j, w i * A i j * z j

theorem bilinear_forceFree {n : ℕ} (A : Matrix (Fin n) (Fin n) K) (w z : Fin n → K) (h : Spec.ForceFree A z) :
    bilinear A w z = 0 := by
  unfold bilinear
  apply Finset.sum_eq_zero
  intro i _
  simp only [mul_assoc]
  rw [← Finset.mul_sum, h i, mul_zero]

theorem beam_partWork (p : AssemblyPart K) (es : List (ℕ × ℕ)) (hne : es ≠ []) (hp : p.elements = horizontalElements es)
    (hact : p.act = ![true, true, true]) (A : Matrix (Fin 6) (Fin 6) K) (v u : Spec.NodalField K) :
    Spec.partWork p (matrixEntries A) v u = (es.map fun e => bilinear A (sixValues v e) (sixValues u e)).sum := by
  unfold Spec.partWork
  rw [if_neg (by rw [hp]; simpa [horizontalElements] using hne), hp, hact, horizontalElements, List.map_map]
  congr 1
  apply List.map_congr_left
  intro e _
  simp only [Function.comp]
  rw [beam_localWork]
  have : ∀ u, flatTwo (Spec.inElementAxes (1 : K) 0 u e) = sixValues u e := by
    intro u
    ext i
    fin_cases i <;> simp [flatTwo, Spec.inElementAxes, sixValues]
  rw [this, this]
  rfl

theorem rod_partWork (p : AssemblyPart K) (es : List (ℕ × ℕ)) (hne : es ≠ []) (hp : p.elements = downElements es)
    (hact : p.act = ![true, false, false]) (A : Matrix (Fin 2) (Fin 2) K) (v u : Spec.NodalField K) :
    Spec.partWork p (matrixEntries A) v u = (es.map fun e => bilinear A ![v e.1 1, v e.2 1] ![u e.1 1, u e.2 1]).sum := by
  unfold Spec.partWork
  rw [if_neg (by rw [hp]; simpa [downElements] using hne), hp, hact, downElements, List.map_map]
  congr 1
  apply List.map_congr_left
  intro e _
  simp only [Function.comp]
  rw [rod_localWork]
  unfold bilinear
  simp [Fin.sum_univ_two, Spec.inElementAxes]

theorem point_partWork (p : AssemblyPart K) (hp : p.elements = []) (hact : p.act = ![false, true, false])
    (A : Matrix (Fin 1) (Fin 1) K) (v u : Spec.NodalField K) :
    Spec.partWork p (matrixEntries A) v u = (p.nodes.map fun m => v m 1 * A 0 0 * u m 1).sum := by
  unfold Spec.partWork
  rw [if_pos hp, hact]
  congr 1
  apply List.map_congr_left
  intro m _
  rw [point_localWork]

/-! ### Tracks -/

/-- The parts of a track: a rail on the x axis, vertical pads, sleepers and one or more vertical soil parts, with
positions in the mesh. -/
structure TrackParts (K : Type*) where
  beam : BeamPart K
  rail : List ℕ
  railNodes : List ℕ
  pad : RodValues K
  pads : List (ℕ × ℕ)
  padNodes : List ℕ
  sleeperMass : K
  sleepers : List ℕ
  soils : List (RodValues K × List (ℕ × ℕ) × List ℕ)

/-- The assembly parts of a track. -/
def TrackParts.parts (T : TrackParts K) : List (AssemblyPart K) :=
  beamAssembly T.beam (horizontalElements (chainOf T.rail)) T.railNodes ::
    rodAssembly T.pad (downElements T.pads) T.padNodes :: sleeperAssembly T.sleeperMass T.sleepers ::
    T.soils.map fun s => rodAssembly s.1 (downElements s.2.1) s.2.2

/-- All parts with elements have some. -/
structure TrackParts.NonEmpty (T : TrackParts K) : Prop where
  rail : 2 ≤ T.rail.length
  pads : T.pads ≠ []
  soils : ∀ s ∈ T.soils, s.2.1 ≠ []

theorem chainOf_ne_nil (l : List ℕ) (h : 2 ≤ l.length) : chainOf l ≠ [] := by
  match l, h with
  | a :: b :: l, _ => rw [chainOf_cons]; simp

/-- Work of an optional rod matrix of a part. -/
def rodWork (A : Option (Matrix (Fin 2) (Fin 2) K)) (es : List (ℕ × ℕ)) (v u : Spec.NodalField K) : K :=
  match A with
  | some A => (es.map fun e => bilinear A ![v e.1 1, v e.2 1] ![u e.1 1, u e.2 1]).sum
  | none => 0

theorem systemWork_cons_some (matrix : AssemblyPart K → Option (ℕ × ℕ → K)) (p : AssemblyPart K) (ps : List (AssemblyPart K))
    (a : ℕ × ℕ → K) (h : matrix p = some a) (v u : Spec.NodalField K) :
    Spec.systemWork matrix (p :: ps) v u = Spec.partWork p a v u + Spec.systemWork matrix ps v u := by
  unfold Spec.systemWork
  rw [List.map_cons, List.sum_cons, h]

theorem systemWork_cons_none (matrix : AssemblyPart K → Option (ℕ × ℕ → K)) (p : AssemblyPart K) (ps : List (AssemblyPart K))
    (h : matrix p = none) (v u : Spec.NodalField K) :
    Spec.systemWork matrix (p :: ps) v u = Spec.systemWork matrix ps v u := by
  unfold Spec.systemWork
  rw [List.map_cons, List.sum_cons, h, zero_add]

theorem systemWork_rod (matrix : AssemblyPart K → Option (ℕ × ℕ → K)) (f : RodValues K → Option (Matrix (Fin 2) (Fin 2) K))
    (hf : ∀ v es ns, matrix (rodAssembly v es ns) = (f v).map matrixEntries) (r : RodValues K) (es : List (ℕ × ℕ))
    (hne : es ≠ []) (ns : List ℕ) (ps : List (AssemblyPart K)) (v u : Spec.NodalField K) :
    Spec.systemWork matrix (rodAssembly r (downElements es) ns :: ps) v u =
      rodWork (f r) es v u + Spec.systemWork matrix ps v u := by
  have h := hf r (downElements es) ns
  cases hv : f r with
  | none =>
    rw [hv] at h
    rw [systemWork_cons_none matrix _ ps h, rodWork, zero_add]
  | some A =>
    rw [hv] at h
    rw [systemWork_cons_some matrix _ ps (matrixEntries A) h,
      rod_partWork (rodAssembly r (downElements es) ns) es hne rfl rfl A v u]
    rfl

theorem track_work (matrix : AssemblyPart K → Option (ℕ × ℕ → K)) (f : RodValues K → Option (Matrix (Fin 2) (Fin 2) K))
    (hf : ∀ v es ns, matrix (rodAssembly v es ns) = (f v).map matrixEntries) (T : TrackParts K) (h : T.NonEmpty)
    (B : Matrix (Fin 6) (Fin 6) K) (hB : ∀ es ns, matrix (beamAssembly T.beam es ns) = some (matrixEntries B))
    (P : Matrix (Fin 1) (Fin 1) K) (hP : ∀ ns, matrix (sleeperAssembly T.sleeperMass ns) = some (matrixEntries P))
    (v u : Spec.NodalField K) :
    Spec.systemWork matrix T.parts v u =
      ((chainOf T.rail).map fun e => bilinear B (sixValues v e) (sixValues u e)).sum + rodWork (f T.pad) T.pads v u +
      (T.sleepers.map fun m => v m 1 * P 0 0 * u m 1).sum + (T.soils.map fun s => rodWork (f s.1) s.2.1 v u).sum := by
  unfold TrackParts.parts
  rw [systemWork_cons_some matrix _ _ _ (hB _ _), systemWork_rod matrix f hf _ _ h.pads,
    systemWork_cons_some matrix _ _ _ (hP _),
    beam_partWork _ (chainOf T.rail) (chainOf_ne_nil _ h.rail) rfl rfl B v u,
    point_partWork (sleeperAssembly T.sleeperMass T.sleepers) rfl rfl P v u]
  have hs : Spec.systemWork matrix (T.soils.map fun s => rodAssembly s.1 (downElements s.2.1) s.2.2) v u =
      (T.soils.map fun s => rodWork (f s.1) s.2.1 v u).sum := by
    have := h.soils
    revert this
    generalize T.soils = ss
    intro this
    induction ss with
    | nil => rfl
    | cons s ss ih =>
      rw [List.map_cons, systemWork_rod matrix f hf _ _ (this s (by simp)), ih fun s hs => this s (by simp [hs]),
        List.map_cons, List.sum_cons]
  rw [hs]
  simp only [sleeperAssembly, add_assoc]

theorem bilinear_rodStiffness (k : K) (w z : Fin 2 → K) :
    bilinear (rodStiffness k) w z = k * ((w 1 - w 0) * (z 1 - z 0)) := by
  rw [rodStiffness_eq]
  simp [bilinear, Fin.sum_univ_two]; ring

theorem rodWork_stiffness (k : K) (es : List (ℕ × ℕ)) (v u : Spec.NodalField K) :
    rodWork (some (rodStiffness k)) es v u = (es.map fun e => k * ((v e.2 1 - v e.1 1) * (u e.2 1 - u e.1 1))).sum := by
  simp [rodWork, bilinear_rodStiffness]

/-- Stiffness work of a track: bending and stretching of the rail elements, squeezing of pads and soil. -/
theorem track_stiffness_work (T : TrackParts K) (h : T.NonEmpty) (v u : Spec.NodalField K) :
    Spec.systemWork AssemblyPart.stiffness T.parts v u =
      ((chainOf T.rail).map fun e => bilinear T.beam.stiffness (sixValues v e) (sixValues u e)).sum +
      (T.pads.map fun e => T.pad.stiffness * ((v e.2 1 - v e.1 1) * (u e.2 1 - u e.1 1))).sum +
      (T.soils.map fun s => (s.2.1.map fun e => s.1.stiffness * ((v e.2 1 - v e.1 1) * (u e.2 1 - u e.1 1))).sum).sum := by
  rw [track_work AssemblyPart.stiffness (fun v => some (rodStiffness v.stiffness)) (fun _ _ _ => rfl) T h
    T.beam.stiffness (fun _ _ => rfl) pointStiffness (fun _ => rfl) v u, rodWork_stiffness]
  simp only [rodWork_stiffness]
  simp [pointStiffness]

theorem track_stiffness (T : TrackParts K) (h : T.NonEmpty) (u : Spec.NodalField K) :
    Spec.systemWork AssemblyPart.stiffness T.parts u u =
      ((chainOf T.rail).map fun e => Spec.energy T.beam.stiffness (sixValues u e)).sum +
      (T.pads.map fun e => T.pad.stiffness * (u e.2 1 - u e.1 1) ^ 2).sum +
      (T.soils.map fun s => (s.2.1.map fun e => s.1.stiffness * (u e.2 1 - u e.1 1) ^ 2).sum).sum := by
  rw [track_stiffness_work T h u u]
  simp only [pow_two]
  rfl

theorem track_mass (T : TrackParts K) (h : T.NonEmpty) (u : Spec.NodalField K) :
    Spec.systemWork AssemblyPart.mass T.parts u u =
      ((chainOf T.rail).map fun e => Spec.energy T.beam.massMatrix (sixValues u e)).sum +
      rodWork (T.pad.mass.map rodMass) T.pads u u + (T.sleepers.map fun m => T.sleeperMass * u m 1 ^ 2).sum +
      (T.soils.map fun s => rodWork (s.1.mass.map rodMass) s.2.1 u u).sum := by
  rw [track_work AssemblyPart.mass (fun v => v.mass.map rodMass) (fun v _ _ => by simp [rodAssembly]; rfl) T h
    T.beam.massMatrix (fun _ _ => rfl) (pointMass T.sleeperMass) (fun _ => rfl) u u]
  have : ∀ m, u m 1 * pointMass T.sleeperMass 0 0 * u m 1 = T.sleeperMass * u m 1 ^ 2 := by
    intro m
    unfold pointMass
    ring
  simp only [this]
  rfl

theorem track_damping (T : TrackParts K) (h : T.NonEmpty) (u : Spec.NodalField K) :
    Spec.systemWork AssemblyPart.damping T.parts u u =
      rodWork (T.pad.damping.map rodDamping) T.pads u u +
      (T.soils.map fun s => rodWork (s.1.damping.map rodDamping) s.2.1 u u).sum := by
  rw [track_work AssemblyPart.damping (fun v => v.damping.map rodDamping) (fun v _ _ => by simp [rodAssembly]; rfl) T h
    0 (fun _ _ => rfl) pointStiffness (fun _ => rfl) u u]
  simp [pointStiffness, bilinear]

/-! ### Definiteness -/

theorem list_sum_nonneg {α : Type*} (l : List α) (f : α → K) (h : ∀ a ∈ l, 0 ≤ f a) : 0 ≤ (l.map f).sum :=
  List.sum_nonneg (by simpa using h)

theorem list_sum_zero {α : Type*} (l : List α) (f : α → K) (h : ∀ a ∈ l, 0 ≤ f a) (h0 : (l.map f).sum = 0) :
    ∀ a ∈ l, f a = 0 := by
  induction l with
  | nil => simp
  | cons b l ih =>
    rw [List.map_cons, List.sum_cons] at h0
    have hb := h b (by simp)
    have hl := list_sum_nonneg l f fun a ha => h a (by simp [ha])
    intro a ha
    rcases List.mem_cons.1 ha with rfl | ha
    · linarith
    · exact ih (fun a ha => h a (by simp [ha])) (by linarith) a ha

/-- A chain of elements that all move rigidly moves rigidly. -/
theorem chain_rigid (l : K) (rail : List ℕ) (u : Spec.NodalField K)
    (h : ∀ e ∈ chainOf rail, Spec.RigidMotion l (sixValues u e)) (a : ℕ) (ha : rail[0]? = some a) (i m : ℕ)
    (hi : rail[i]? = some m) : u m 0 = u a 0 ∧ u m 1 = u a 1 + i * (l * u a 2) ∧ u m 2 = u a 2 := by
  induction i generalizing m with
  | zero =>
    rw [ha] at hi
    cases hi
    simp
  | succ i ih =>
    obtain ⟨hlt, rfl⟩ := List.getElem?_eq_some_iff.mp hi
    obtain ⟨h0, h1, h2⟩ := ih rail[i] (List.getElem?_eq_getElem (by omega))
    have hmem : (rail[i], rail[i + 1]) ∈ chainOf rail := by
      unfold chainOf
      rw [List.mem_iff_getElem]
      refine ⟨i, by simp; omega, ?_⟩
      simp
    obtain ⟨tx, ty, w, hr⟩ := h _ hmem
    have g := fun k => congrFun hr k
    have g0 : u rail[i] 0 = tx := g 0
    have g1 : u rail[i] 1 = ty := g 1
    have g2 : u rail[i] 2 = w := g 2
    have g3 : u rail[i + 1] 0 = tx := g 3
    have g4 : u rail[i + 1] 1 = ty + w * l := g 4
    have g5 : u rail[i + 1] 2 = w := g 5
    refine ⟨by rw [g3, ← g0, h0], ?_, by rw [g5, ← g2, h2]⟩
    rw [g4, ← g1, ← g2, h1, h2]
    push_cast
    ring

/-- What makes a track stand: admissible rail with rigid ends, positive stiffnesses, pads below two different rail nodes,
each sleeper on soil whose bottom is held. -/
structure Standing (inp : SystemInput K) (T : TrackParts K) : Prop where
  parts : inp.parts = T.parts
  nonEmpty : T.NonEmpty
  mesh : Spec.NodesInMesh inp
  beam : T.beam.Valid
  rigid1 : T.beam.s1 = .inf
  rigid2 : T.beam.s2 = .inf
  pad : 0 < T.pad.stiffness
  soil : ∀ s ∈ T.soils, 0 < s.1.stiffness
  nodes : ∀ i < inp.n, i ∈ T.rail ∨ i ∈ T.sleepers ∨ ∀ d, Spec.Supported inp.constraints i d
  apart : ∀ i ∈ T.sleepers, i ∉ T.rail
  padEnds : ∀ e ∈ T.pads, e.1 ∈ T.rail ∧ e.2 ∈ T.sleepers
  soilEnds : ∀ i ∈ T.sleepers, ∃ s ∈ T.soils, ∃ e ∈ s.2.1, e.1 = i ∧ Spec.Supported inp.constraints e.2 1
  bottoms : ∀ s ∈ T.soils, ∀ e ∈ s.2.1, e.1 ∈ T.sleepers
  twoPads : ∃ i j a b : ℕ, i < j ∧ T.rail[i]? = some a ∧ T.rail[j]? = some b ∧ (∃ e ∈ T.pads, e.1 = a) ∧ ∃ e ∈ T.pads, e.1 = b

theorem Standing.aligned {inp : SystemInput K} {T : TrackParts K} (h : Standing inp T) : Spec.AxisAligned inp := by
  intro p hp e he
  rw [h.parts, TrackParts.parts] at hp
  rcases List.mem_cons.1 hp with rfl | hp
  · left
    simp only [beamAssembly, horizontalElements, List.mem_map] at he
    obtain ⟨x, -, rfl⟩ := he
    rfl
  · right
    rcases List.mem_cons.1 hp with rfl | hp
    · simp only [rodAssembly, downElements, List.mem_map] at he
      obtain ⟨x, -, rfl⟩ := he
      exact ⟨rfl, rfl, rfl⟩
    · rcases List.mem_cons.1 hp with rfl | hp
      · simp [sleeperAssembly] at he
      · rw [List.mem_map] at hp
        obtain ⟨s, -, rfl⟩ := hp
        simp only [rodAssembly, downElements, List.mem_map] at he
        obtain ⟨x, -, rfl⟩ := he
        exact ⟨rfl, rfl, rfl⟩

theorem Standing.energy_nonneg {inp : SystemInput K} {T : TrackParts K} (h : Standing inp T) (u : Spec.NodalField K) :
    0 ≤ Spec.systemWork AssemblyPart.stiffness inp.parts u u := by
  rw [h.parts, track_stiffness T h.nonEmpty]
  refine add_nonneg (add_nonneg ?_ ?_) ?_
  · exact list_sum_nonneg _ _ fun e _ => C19_beam_psd T.beam h.beam _
  · exact list_sum_nonneg _ _ fun e _ => mul_nonneg h.pad.le (sq_nonneg _)
  · exact list_sum_nonneg _ _ fun s hs => list_sum_nonneg _ _ fun e _ => mul_nonneg (h.soil s hs).le (sq_nonneg _)

/-- A displacement without energy moves the rail by a horizontal shift and nothing else (in the dofs that have stiffness). -/
theorem Standing.energy_zero {inp : SystemInput K} {T : TrackParts K} (h : Standing inp T) (u : Spec.NodalField K)
    (hu : ∀ i d, Spec.Supported inp.constraints i d → u i d = 0)
    (h0 : Spec.systemWork AssemblyPart.stiffness inp.parts u u = 0) :
    (∃ t, ∀ m ∈ T.rail, u m 0 = t ∧ u m 1 = 0 ∧ u m 2 = 0) ∧ ∀ m ∈ T.sleepers, u m 1 = 0 := by
  rw [h.parts, track_stiffness T h.nonEmpty] at h0
  have n1 := list_sum_nonneg (chainOf T.rail) (fun e => Spec.energy T.beam.stiffness (sixValues u e))
    fun e _ => C19_beam_psd T.beam h.beam _
  have n2 := list_sum_nonneg T.pads (fun e => T.pad.stiffness * (u e.2 1 - u e.1 1) ^ 2)
    fun e _ => mul_nonneg h.pad.le (sq_nonneg _)
  have n3' : ∀ s ∈ T.soils, 0 ≤ (s.2.1.map fun e => s.1.stiffness * (u e.2 1 - u e.1 1) ^ 2).sum := fun s hs =>
    list_sum_nonneg _ _ fun e _ => mul_nonneg (h.soil s hs).le (sq_nonneg _)
  have n3 := list_sum_nonneg T.soils _ n3'
  have z1 := list_sum_zero _ _ (fun e _ => C19_beam_psd T.beam h.beam _)
    (by linarith : ((chainOf T.rail).map fun e => Spec.energy T.beam.stiffness (sixValues u e)).sum = 0)
  have z2 := list_sum_zero _ _ (fun e _ => mul_nonneg h.pad.le (sq_nonneg _))
    (by linarith : (T.pads.map fun e => T.pad.stiffness * (u e.2 1 - u e.1 1) ^ 2).sum = 0)
  have z3 := list_sum_zero _ _ n3'
    (by linarith : (T.soils.map fun s => (s.2.1.map fun e => s.1.stiffness * (u e.2 1 - u e.1 1) ^ 2).sum).sum = 0)
  have spring : ∀ {k : K}, 0 < k → ∀ x y : K, k * (x - y) ^ 2 = 0 → x = y := by
    intro k hk x y hxy
    have := pow_eq_zero_iff (two_ne_zero) |>.mp ((mul_eq_zero.mp hxy).resolve_left hk.ne')
    linarith
  have hs : ∀ m ∈ T.sleepers, u m 1 = 0 := by
    intro m hm
    obtain ⟨s, hs, e, he, rfl, hsup⟩ := h.soilEnds m hm
    have := list_sum_zero _ _ (fun e _ => mul_nonneg (h.soil s hs).le (sq_nonneg _)) (z3 s hs) e he
    rw [← spring (h.soil s hs) _ _ this]
    exact hu _ _ hsup
  have hp : ∀ e ∈ T.pads, u e.1 1 = 0 := by
    intro e he
    rw [← spring h.pad _ _ (z2 e he)]
    exact hs _ (h.padEnds e he).2
  have hrig : ∀ e ∈ chainOf T.rail, Spec.RigidMotion T.beam.l (sixValues u e) := fun e he =>
    (C19_beam_kernel T.beam h.beam h.rigid1 h.rigid2 _).mp (z1 e he)
  obtain ⟨i, j, a, b, hij, hia, hjb, ⟨e1, he1, rfl⟩, ⟨e2, he2, rfl⟩⟩ := h.twoPads
  have hlen : 0 < T.rail.length := by have := h.nonEmpty.rail; omega
  obtain ⟨o, ho⟩ : ∃ o, T.rail[0]? = some o := ⟨T.rail[0], List.getElem?_eq_getElem hlen⟩
  have c := chain_rigid T.beam.l T.rail u hrig o ho
  have ca := (c i _ hia).2.1
  have cb := (c j _ hjb).2.1
  rw [hp e1 he1] at ca
  rw [hp e2 he2] at cb
  have hw : u o 2 = 0 := by
    have hne : ((j : K) - i) * T.beam.l ≠ 0 := by
      have : (i : K) < j := by exact_mod_cast hij
      have := h.beam.l
      have : (0 : K) < (j : K) - i := by linarith
      positivity
    have : ((j : K) - i) * T.beam.l * u o 2 = 0 := by linear_combination ca - cb
    exact (mul_eq_zero.mp this).resolve_left hne
  have hy : u o 1 = 0 := by
    rw [hw] at ca
    linarith
  refine ⟨⟨u o 0, fun m hm => ?_⟩, hs⟩
  obtain ⟨k, hk, rfl⟩ := List.mem_iff_getElem.mp hm
  obtain ⟨c0, c1, c2⟩ := c k _ (List.getElem?_eq_getElem hk)
  refine ⟨c0, ?_, by rw [c2, hw]⟩
  rw [c1, hy, hw]
  ring

/-- The field of a vector over the equations: zero at dofs without an equation. -/
def fieldOf (nodes : List DofNode) (U : ℕ → K) : Spec.NodalField K := fun i d =>
  match equationOf nodes i d with
  | some k => U k
  | none => 0

theorem fieldOf_represents (n : ℕ) (nodes : List DofNode) (U : ℕ → K) : RepresentsField n nodes U (fieldOf nodes U) := by
  constructor
  · intro i d k h
    simp [fieldOf, h]
  · intro i _ d h
    simp [fieldOf, h]

theorem supported_removed (inp : SystemInput K) (flags : ℕ → Fin 3 → Bool) (st : TrimState K)
    (h : inp.initialise flags = .ok st) (i : ℕ) (d : Fin 3) (hs : Spec.Supported inp.constraints i d) :
    equationOf st.nodes i d = none := by
  by_cases hi : i < inp.n
  · obtain ⟨stiff, mass, damp, a1, a2, a3, rfl⟩ := initialise_ok inp flags st h
    rw [initialise_equation inp flags stiff mass damp i hi d, obsolete_untrimmed inp flags stiff mass damp i hi d]
    left
    obtain ⟨before, p, after, hc, hm, hafter, hf⟩ := hs
    rw [hc, C10_last_wins _ _ _ _ _ hm hafter, hf]
  · cases hk : equationOf st.nodes i d with
    | none => rfl
    | some k => exact absurd ((C106_representable inp flags st h).2.1 i d k hk).1 hi

theorem unstiff_removed (inp : SystemInput K) (hm : Spec.NodesInMesh inp) (ha : Spec.AxisAligned inp)
    (flags : ℕ → Fin 3 → Bool) (st : TrimState K) (h : inp.initialise flags = .ok st) (i : ℕ) (hi : i < inp.n) (d : Fin 3)
    (hs : Spec.systemWork AssemblyPart.stiffness inp.parts (Spec.unitField i d) (Spec.unitField i d) = 0) :
    equationOf st.nodes i d = none := by
  obtain ⟨stiff, mass, damp, a1, a2, a3, rfl⟩ := initialise_ok inp flags st h
  rw [initialise_equation inp flags stiff mass damp i hi d, obsolete_untrimmed inp flags stiff mass damp i hi d]
  right; right
  rw [← matrixWork_unit inp.n stiff i hi d, assembled_work inp hm AssemblyPart.stiffness (fun _ => rfl) stiff a1,
    systemWork_aligned inp ha _ (fun _ => rfl), hs, abs_zero]
  norm_num

theorem Standing.sleeper_unstiff {inp : SystemInput K} {T : TrackParts K} (h : Standing inp T) (i : ℕ)
    (hi : i ∈ T.sleepers) (d : Fin 3) (hd : d ≠ 1) :
    Spec.systemWork AssemblyPart.stiffness inp.parts (Spec.unitField i d) (Spec.unitField i d) = 0 := by
  rw [h.parts, track_stiffness T h.nonEmpty]
  have hy : ∀ m, (Spec.unitField i d : Spec.NodalField K) m 1 = 0 := by
    intro m
    unfold Spec.unitField
    rw [if_neg]
    exact fun hc => hd hc.2.symm
  have hz : ∀ m ∈ T.rail, ∀ k, (Spec.unitField i d : Spec.NodalField K) m k = 0 := by
    intro m hm k
    unfold Spec.unitField
    rw [if_neg]
    rintro ⟨rfl, -⟩
    exact h.apart m hi hm
  have e1 : ((chainOf T.rail).map fun e => Spec.energy T.beam.stiffness (sixValues (Spec.unitField i d) e)).sum = 0 := by
    apply List.sum_eq_zero
    intro x hx
    rw [List.mem_map] at hx
    obtain ⟨e, he, rfl⟩ := hx
    obtain ⟨m1, m2⟩ := mem_chainOf (a := e.1) (b := e.2) he
    have : sixValues (Spec.unitField i d) e = (0 : Fin 6 → K) := by
      ext k
      fin_cases k <;> simp [sixValues, hz _ m1, hz _ m2]
    rw [this]
    simp [Spec.energy]
  rw [e1]
  simp [hy]

/-- The stiffness matrix of a standing track that is held in x is positive definite. -/
theorem Standing.definite {inp : SystemInput K} {T : TrackParts K} (h : Standing inp T)
    (hx : ∃ m ∈ T.rail, Spec.Supported inp.constraints m 0) (flags : ℕ → Fin 3 → Bool) (st : TrimState K)
    (hst : inp.initialise flags = .ok st) (U : ℕ → K) :
    0 ≤ matrixWork st.N st.Kg U U ∧ (matrixWork st.N st.Kg U U = 0 → ∀ k < st.N, U k = 0) := by
  have hrep := fieldOf_represents inp.n st.nodes U
  rw [(C106_work_partial inp flags h.mesh h.aligned st hst U U _ _ hrep hrep).1]
  refine ⟨h.energy_nonneg _, fun h0 => ?_⟩
  have hu : ∀ i d, Spec.Supported inp.constraints i d → fieldOf st.nodes U i d = 0 := by
    intro i d hs
    simp [fieldOf, supported_removed inp flags st hst i d hs]
  obtain ⟨⟨t, ht⟩, hs⟩ := h.energy_zero _ hu h0
  obtain ⟨m, hm, hsup⟩ := hx
  have ht0 : t = 0 := by rw [← (ht m hm).1]; exact hu m 0 hsup
  have hall : ∀ i < inp.n, ∀ d, fieldOf st.nodes U i d = 0 := by
    intro i hi d
    rcases h.nodes i hi with hr | hr | hr
    · obtain ⟨a0, a1, a2⟩ := ht i hr
      fin_cases d
      · exact a0.trans ht0
      · exact a1
      · exact a2
    · by_cases hd : d = 1
      · rw [hd]; exact hs i hr
      · simp [fieldOf, unstiff_removed inp h.mesh h.aligned flags st hst i hi d (h.sleeper_unstiff i hr d hd)]
    · exact hu i d (hr d)
  intro k hk
  obtain ⟨p, hp, -⟩ := (C106_representable inp flags st hst).1 k hk
  have := hall p.1 ((C106_representable inp flags st hst).2.1 p.1 p.2 k hp).1 p.2
  rw [fieldOf, hp] at this
  exact this

end
/-! ### Generated tracks -/

theorem rotation_right (x1 x2 y : ℝ) (h : x1 < x2) : calculateRotation x1 y x2 y = 0 := by
  unfold calculateRotation
  have : ¬ x2 < x1 := not_lt.mpr h.le
  simp [this, npSign]

theorem rotation_down (x y1 y2 : ℝ) (h : y2 < y1) : calculateRotation x y1 x y2 = -(Real.pi / 2) := by
  unfold calculateRotation
  have hs : npSign (y2 - y1) = -1 := by
    unfold npSign
    rw [sign_neg (by linarith)]
    simp
  simp [npIsCloseZero, hs]

theorem chainOf_map {α β : Type*} (f : α → β) (l : List α) : chainOf (l.map f) = (chainOf l).map fun e => (f e.1, f e.2) := by
  unfold chainOf
  rw [← List.map_tail, List.zip_map]
  rfl

theorem chainOf_range (n : ℕ) : chainOf (List.range n) = (List.range (n - 1)).map fun i => (i, i + 1) := by
  unfold chainOf
  apply List.ext_getElem
  · simp
  · intro i h1 h2
    simp [add_comm]

/-- The track that the parts of a generated track make, by positions in the mesh. -/
noncomputable def generatedParts (t : HorizontalTrack ℝ) (n r : ℕ) (d : ℝ) (v : TrackValues) : TrackParts ℝ where
  beam := { v.rail with l := d / r }
  rail := (List.range (n * r)).map t.position
  railNodes := (List.range (n * r)).map t.position
  pad := v.pad
  pads := (List.range n).map fun i => (t.position (i * r), t.position (n * r + i))
  padNodes := t.padNodes.map t.position
  sleeperMass := v.sleeperMass
  sleepers := (List.range n).map fun i => t.position (n * r + i)
  soils := [(v.soil, (List.range n).map fun i => (t.position (n * r + i), t.position (n * r + n + i)),
    t.soilNodes.map t.position)]

/-- The boundary conditions of a generated track, by positions in the mesh. -/
def generatedSupports (t : HorizontalTrack ℝ) (n r : ℕ) (held : Bool) : List ConstraintPart :=
  (if held then [⟨[t.position 0, t.position (n * r - 1)], ![false, true, true]⟩] else []) ++
    [⟨(List.range n).map fun i => t.position (n * r + n + i), ![false, false, false]⟩]

theorem bottomBoundary_pairs {α : Type*} (y : ℕ → ℝ) (l : List α) (a b : α → ℕ) (h : ∀ i ∈ l, y (b i) < y (a i)) :
    bottomBoundary y (l.map fun i => [a i, b i]) = .ok (l.map b) := by
  induction l with
  | nil => rfl
  | cons i l ih =>
    rw [List.map_cons, bottomBoundary, ih fun j hj => h j (by simp [hj])]
    have : lowestNode y [a i, b i] = .ok (b i) := by
      unfold lowestNode
      have hlt : ¬ y (a i) ≤ y (b i) := not_le.mpr (h i (by simp))
      simp [List.insertionSort, List.orderedInsert, hlt]
    rw [this]
    rfl

variable {H : Type*} [DecidableEq H]

/-- The system of a generated track with at least two rail nodes. -/
theorem system_generated (hash : (Fin 3 → ℝ) → H) (n r : ℕ) (hn : 2 ≤ n * r) (d h : ℝ) (hd : 1 / 1000000000 < d / r)
    (hh : 1 / 1000000000 < h) (t : HorizontalTrack ℝ) (ht : createHorizontalTrack hash n r d h = .ok t) (v : TrackValues)
    (held : Bool) :
    t.system v held = .ok {
      n := n * r + n + n, parts := (generatedParts t n r d v).parts, loads := v.loads,
      constraints := generatedSupports t n r held,
      isRayleigh := v.isRayleigh, ratio := v.ratio, w1 := v.w1, w2 := v.w2 } ∧
    (∀ k < n * r + n + n, t.position k < n * r + n + n) ∧
    (∀ i < n * r + n + n, ∃ k < n * r + n + n, t.position k = i) ∧
    (∀ k < n * r + n + n, ∀ l < n * r + n + n, t.position k = t.position l → k = l) := by
  have hr : 0 < r := by
    rcases Nat.eq_zero_or_pos r with h | h
    · subst h; omega
    · exact h
  have hr' : (0 : ℝ) < r := by exact_mod_cast hr
  have hdr : 0 < d / r := lt_trans (by norm_num) hd
  have hd0 : 0 < d := by
    have := mul_pos hdr hr'
    rwa [div_mul_cancel₀ _ hr'.ne'] at this
  have hh0 : 0 < h := lt_trans (by norm_num) hh
  have hlen := C99_generated hash n r d h hd0.le hn t ht (some t.lengthElement)
  obtain ⟨hnd, hmlen, hmem, -⟩ := C48_mesh_partial hash n r hr d h hd hh t ht
  rw [createHorizontalTrack_eq hash n r hr d h] at ht
  simp only [Except.ok.injEq] at ht
  have hpos : ∀ k, (t.store k).pos = (trackStore n r d h k).pos := by
    intro k
    rw [← ht]
    simp only [reorder_pos]
    exact (C01_represented hash (trackStore n r d h) (trackMeshCalls n r)).2.2 k
  have hrail : t.rail = List.range (n * r) := by rw [← ht]
  have hre : t.railElements = (List.range (n * r - 1)).map fun i => (i, i + 1) := by rw [← ht]
  have hpads : t.pads = (List.range n).map fun i => (i * r, n * r + i) := by rw [← ht]
  have hsl : t.sleepers = (List.range n).map (n * r + ·) := by rw [← ht]
  have hsoil : t.soil = (List.range n).map fun i => (n * r + i, n * r + n + i) := by rw [← ht]
  clear ht
  have hin : ∀ k, k ∈ t.meshNodes ↔ k < n * r + n + n := by
    intro k
    rw [hmem, hrail, hsl, hsoil]
    simp only [List.mem_range, List.mem_map, Prod.exists]
    constructor
    · rintro (h | ⟨i, hi, rfl⟩ | ⟨a, b, ⟨i, hi, h⟩, rfl⟩)
      · omega
      · omega
      · simp only [Prod.mk.injEq] at h
        omega
    · intro h
      by_cases h1 : k < n * r
      · exact Or.inl h1
      · by_cases h2 : k < n * r + n
        · exact Or.inr (Or.inl ⟨k - n * r, by omega, by omega⟩)
        · exact Or.inr (Or.inr ⟨_, _, ⟨k - (n * r + n), by omega, rfl⟩, by omega⟩)
  refine ⟨?_, ?_, ?_, ?_⟩
  · have hpl1 : t.placed t.railElements = horizontalElements (chainOf ((List.range (n * r)).map t.position)) := by
      rw [chainOf_map, chainOf_range, hre]
      unfold HorizontalTrack.placed horizontalElements
      simp only [List.map_map]
      apply List.map_congr_left
      intro i hi
      rw [List.mem_range] at hi
      simp only [Function.comp]
      rw [hpos, hpos, trackStore_rail n r d h i (by omega), trackStore_rail n r d h (i + 1) (by omega)]
      simp only [Matrix.cons_val_zero, Matrix.cons_val_one]
      rw [rotation_right]
      · simp
      · have e : (((i + 1 : ℕ) : ℝ)) * d / r = i * d / r + d / r := by push_cast; ring
        rw [e]
        linarith
    have hpl2 : t.placed t.pads = downElements ((List.range n).map fun i => (t.position (i * r), t.position (n * r + i))) := by
      rw [hpads]
      unfold HorizontalTrack.placed downElements
      simp only [List.map_map]
      apply List.map_congr_left
      intro i hi
      rw [List.mem_range] at hi
      simp only [Function.comp]
      have hir : i * r < n * r := Nat.mul_lt_mul_of_pos_right hi hr
      rw [hpos, hpos, trackStore_rail n r d h _ hir, trackStore_sleeper n r d h i hi]
      simp only [Matrix.cons_val_zero, Matrix.cons_val_one]
      have e : (((i * r : ℕ) : ℝ)) * d / r = i * d := by push_cast; field_simp
      rw [e, rotation_down _ _ _ (by norm_num)]
      simp
    have hpl3 : t.placed t.soil =
        downElements ((List.range n).map fun i => (t.position (n * r + i), t.position (n * r + n + i))) := by
      rw [hsoil]
      unfold HorizontalTrack.placed downElements
      simp only [List.map_map]
      apply List.map_congr_left
      intro i hi
      rw [List.mem_range] at hi
      simp only [Function.comp]
      rw [hpos, hpos, trackStore_sleeper n r d h i hi, trackStore_bottom]
      simp only [Matrix.cons_val_zero, Matrix.cons_val_one]
      rw [rotation_down _ _ _ (by linarith)]
      simp
    have hbot : bottomBoundary (fun k => (t.store k).pos 1) (t.soil.map fun e => [e.1, e.2]) =
        .ok ((List.range n).map fun i => n * r + n + i) := by
      rw [hsoil, List.map_map]
      refine bottomBoundary_pairs _ _ (fun i => n * r + i) (fun i => n * r + n + i) ?_
      intro i hi
      rw [List.mem_range] at hi
      rw [hpos, hpos, trackStore_sleeper n r d h i hi, trackStore_bottom]
      simp only [Matrix.cons_val_one, Matrix.cons_val_zero]
      linarith
    have hhead : (List.range (n * r)).head? = some 0 := by
      rw [List.head?_eq_getElem?, List.getElem?_range (by omega)]
    have hlast : (List.range (n * r)).getLast? = some (n * r - 1) := by
      rw [List.getLast?_eq_getElem?, List.length_range, List.getElem?_range (by omega)]
    unfold HorizontalTrack.system
    rw [hlen, hbot, hpl1, hpl2, hpl3, hrail, hhead, hlast, hmlen, hsl]
    simp only [bind, Except.bind, Option.getD_some]
    unfold TrackParts.parts generatedParts generatedSupports
    simp only [List.map_map, List.map_cons, List.map_nil]
    rfl
  · intro k hk
    rw [← hmlen]
    exact List.idxOf_lt_length_iff.mpr ((hin k).mpr hk)
  · intro i hi
    rw [← hmlen] at hi
    refine ⟨t.meshNodes[i], (hin _).mp (List.getElem_mem hi), ?_⟩
    unfold HorizontalTrack.position
    exact hnd.idxOf_getElem i hi
  · intro k hk l hl he
    unfold HorizontalTrack.position at he
    exact (List.idxOf_inj ((hin k).mpr hk)).mp he

end Rose
