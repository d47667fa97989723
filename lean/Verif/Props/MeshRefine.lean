/-
C171: the displacements of a track under constant loads do not depend on the number of rail elements per sleeper.
-/
import Verif.Props.ElasticBeam
import Verif.Spec.MeshRefine
import Verif.Props.TrackForces
import Verif.Props.HingedBeamRun
import Verif.Props.LoadWork

set_option linter.unusedSectionVars false

namespace Rose
open Finset Spec

/-- The six values of the rail element from node `k` to the next. -/
def railSix (f : ℕ → Fin 3 → ℝ) (k : ℕ) : Fin 6 → ℝ := ![f k 0, f k 1, f k 2, f (k + 1) 0, f (k + 1) 1, f (k + 1) 2]

theorem bilinear_mulVec {n : ℕ} (A : Matrix (Fin n) (Fin n) ℝ) (w z : Fin n → ℝ) : bilinear A w z = ∑ i, w i * A.mulVec z i := by
  simp only [bilinear, Matrix.mulVec, dotProduct, Finset.mul_sum, mul_assoc]

/-- An elastic state seen from another point of the beam. -/
def shiftState (q : BeamState) (a : ℝ) : BeamState :=
  ⟨fun x => q.u (x + a), fun x => q.w (x + a), fun x => q.theta (x + a), fun x => q.M (x + a), fun x => q.V (x + a), fun x => q.N (x + a)⟩

theorem shift_elastic {EA EI s : ℝ} {q : BeamState} (h : q.Elastic EA EI s) (a : ℝ) : (shiftState q a).Elastic EA EI s :=
  ⟨fun x => (h.axial (x + a)).comp_add_const x a, fun x => (h.shear (x + a)).comp_add_const x a,
    fun x => (h.moment (x + a)).comp_add_const x a, fun x => (h.elongation (x + a)).comp_add_const x a,
    fun x => (h.curvature (x + a)).comp_add_const x a, fun x => (h.strain (x + a)).comp_add_const x a⟩

/-- The nodal values of an elastic state at the points `j * l`. -/
def stateNodes (q : BeamState) (l : ℝ) (j : ℕ) : Fin 3 → ℝ := ![q.u (j * l), q.w (j * l), q.theta (j * l)]

/-- The work of a row of elements of length `l` in displacements along an elastic state: only the ends of the row count. -/
theorem row_work (b : BeamPart ℝ) (hb : b.Valid) (h1 : b.s1 = .inf) (h2 : b.s2 = .inf) (q : BeamState)
    (hq : q.Elastic (b.E * b.A) (b.E * b.I) b.shearCompliance) (U : ℕ → Fin 3 → ℝ) (m : ℕ) :
    ∑ j ∈ range m, bilinear b.stiffness (railSix (stateNodes q b.l) j) (railSix U j) =
      U m 0 * q.N (m * b.l) + U m 1 * q.V (m * b.l) + U m 2 * q.M (m * b.l) - (U 0 0 * q.N 0 + U 0 1 * q.V 0 + U 0 2 * q.M 0) := by
  induction m with
  | zero => simp
  | succ m ih =>
    rw [Finset.sum_range_succ, ih]
    have hf := C170_forces b hb h1 h2 (railSix (stateNodes q b.l) m) (shiftState q (m * b.l)) (shift_elastic hq _) (by
      simp only [BeamState.HasEnds, shiftState, railSix, stateNodes, zero_add, Matrix.cons_val_zero, Matrix.cons_val_one, Matrix.cons_val]
      refine ⟨trivial, trivial, trivial, ?_, ?_, ?_⟩ <;> congr 1 <;> push_cast <;> ring)
    rw [bilinear_symmetric _ (C19_beam_symmetric _), bilinear_mulVec, hf]
    simp only [BeamState.endForces, shiftState, railSix, Fin.sum_univ_six, zero_add, Matrix.cons_val_zero, Matrix.cons_val_one, Matrix.cons_val]
    have : b.l + m * b.l = ((m + 1 : ℕ) : ℝ) * b.l := by push_cast; ring
    rw [this]
    ring

/-- One element against `m` elements of the same rail. -/
theorem element_refine (b : BeamPart ℝ) (m : ℕ) (l : ℝ) (hl : 0 < l) (hb : b.Valid) (hbl : b.l = m * l) (h1 : b.s1 = .inf)
    (h2 : b.s2 = .inf) (d : Fin 6 → ℝ) :
    ∃ q : BeamState, q.Elastic (b.E * b.A) (b.E * b.I) b.shearCompliance ∧ q.HasEnds b.l d ∧ ∀ U : ℕ → Fin 3 → ℝ,
      ∑ j ∈ range m, bilinear ({ b with l := l } : BeamPart ℝ).stiffness (railSix (stateNodes q l) j) (railSix U j) =
        bilinear b.stiffness d ![U 0 0, U 0 1, U 0 2, U m 0, U m 1, U m 2] := by
  obtain ⟨⟨q, hq, hd⟩, -⟩ := C170_unique b hb d
  refine ⟨q, hq, hd, fun U => ?_⟩
  have hb' : ({ b with l := l } : BeamPart ℝ).Valid := ⟨hb.E, hb.nu, hb.rho, hb.A, hb.I, hb.kappa, hl⟩
  rw [row_work { b with l := l } hb' h1 h2 q hq U m, bilinear_symmetric _ (C19_beam_symmetric _), bilinear_mulVec,
    C170_forces b hb h1 h2 d q hq hd]
  simp only [BeamState.endForces, Fin.sum_univ_six, Matrix.cons_val_zero, Matrix.cons_val_one, Matrix.cons_val, hbl]
  ring

theorem sum_blocks (a m : ℕ) (F : ℕ → ℝ) : ∑ j ∈ range (a * m), F j = ∑ k ∈ range a, ∑ j ∈ range m, F (k * m + j) := by
  induction a with
  | zero => simp
  | succ a ih => rw [Nat.succ_mul, Finset.sum_range_add, ih, Finset.sum_range_succ]

/-- A field of rotations and deflections of a rail with `a + 1` nodes, carried over to a rail with `m` elements instead of one (and any
number of elements beyond the last node). -/
theorem rail_refine (b : BeamPart ℝ) (m : ℕ) (hm : 0 < m) (l : ℝ) (hl : 0 < l) (hb : b.Valid) (hbl : b.l = m * l) (h1 : b.s1 = .inf)
    (h2 : b.s2 = .inf) (a e : ℕ) (f : ℕ → Fin 3 → ℝ) (hf : ∀ k ≤ a, f k 0 = 0) :
    ∃ f' : ℕ → Fin 3 → ℝ, (∀ j, f' j 0 = 0) ∧ (∀ k ≤ a, f' (k * m) = f k) ∧
      (∀ k < a, ∃ q : BeamState, q.Elastic (b.E * b.A) (b.E * b.I) b.shearCompliance ∧ q.HasEnds b.l (railSix f k) ∧
        ∀ j ≤ m, f' (k * m + j) = stateNodes q l j) ∧ (∀ j, f' (a * m + j) = ![0, f a 1 + f a 2 * (j * l), f a 2]) ∧ ∀ U : ℕ → Fin 3 → ℝ,
        ∑ j ∈ range (a * m + e), bilinear ({ b with l := l } : BeamPart ℝ).stiffness (railSix f' j) (railSix U j) =
          ∑ k ∈ range a, bilinear b.stiffness (railSix f k) (railSix (fun k => U (k * m)) k) := by
  have hb' : ({ b with l := l } : BeamPart ℝ).Valid := ⟨hb.E, hb.nu, hb.rho, hb.A, hb.I, hb.kappa, hl⟩
  choose q hq hd hw using fun k => element_refine b m l hl hb hbl h1 h2 (railSix f k)
  -- rigid motion beyond the last node
  obtain ⟨z, hz, z1, z2, z3, z4, z5, z6⟩ := elastic_of_start (b.E * b.A) (b.E * b.I) b.shearCompliance 0 (f a 1) (f a 2) 0 0 0
  have hq0 : ∀ k < a, ∀ x, (q k).u x = 0 := by
    intro k hk x
    have fl := (elastic_fields (hq k) b.l).2.2.2.1
    obtain ⟨a0, -, -, a3, -, -⟩ := hd k
    have e0 : railSix f k 0 = 0 := hf k (by omega)
    have e3 : railSix f k 3 = 0 := hf (k + 1) (by omega)
    rw [a3, a0, e0, e3, zero_add] at fl
    have : (q k).N 0 / (b.E * b.A) = 0 := by
      rcases mul_eq_zero.1 fl.symm with h | h
      · exact h
      · exact absurd h hb.l.ne'
    rw [(elastic_fields (hq k) x).2.2.2.1, a0, e0, this]; ring
  have hz0 : ∀ x, z.u x = 0 := by
    intro x
    rw [(elastic_fields hz x).2.2.2.1, z1, z4]; ring
  have hend : ∀ k, stateNodes (q k) l m = f (k + 1) ∧ stateNodes (q k) l 0 = f k := by
    intro k
    obtain ⟨a0, a1, a2, a3, a4, a5⟩ := hd k
    rw [hbl] at a3 a4 a5
    constructor
    · ext c
      fin_cases c
      · exact a3
      · exact a4
      · exact a5
    · ext c
      fin_cases c <;> simp only [stateNodes, Nat.cast_zero, zero_mul]
      · exact a0
      · exact a1
      · exact a2
  set f' : ℕ → Fin 3 → ℝ := fun j => if j / m < a then stateNodes (q (j / m)) l (j % m) else stateNodes z l (j - a * m) with hf'
  have hin : ∀ k < a, ∀ j < m, f' (k * m + j) = stateNodes (q k) l j := by
    intro k hk j hj
    have e1 : (k * m + j) / m = k := by
      rw [mul_comm, Nat.mul_add_div hm, Nat.div_eq_of_lt hj, add_zero]
    have e2 : (k * m + j) % m = j := by
      rw [mul_comm, Nat.mul_add_mod, Nat.mod_eq_of_lt hj]
    simp only [hf', e1, e2, if_pos hk]
  have hout : ∀ j, f' (a * m + j) = stateNodes z l j := by
    intro j
    have : ¬ (a * m + j) / m < a := by
      rw [not_lt, Nat.le_div_iff_mul_le hm]; omega
    simp only [hf', if_neg this, Nat.add_sub_cancel_left]
  have hza : stateNodes z l 0 = f a := by
    ext c
    fin_cases c <;> simp only [stateNodes, Nat.cast_zero, zero_mul]
    · exact z1.trans (hf a le_rfl).symm
    · exact z2
    · exact z3
  have hnode : ∀ k ≤ a, f' (k * m) = f k := by
    intro k hk
    rcases hk.lt_or_eq with h | rfl
    · have := hin k h 0 hm
      rw [add_zero] at this
      rw [this, (hend k).2]
    · have := hout 0
      rw [add_zero] at this
      rw [this, hza]
  have hin' : ∀ k < a, ∀ j ≤ m, f' (k * m + j) = stateNodes (q k) l j := by
    intro k hk j hj
    rcases hj.lt_or_eq with h | rfl
    · exact hin k hk j h
    · rw [(hend k).1, show k * j + j = (k + 1) * j by ring, hnode (k + 1) (by omega)]
  refine ⟨f', ?_, hnode, fun k hk => ⟨q k, hq k, hd k, hin' k hk⟩, fun j => ?_, fun U => ?_⟩
  · intro j
    simp only [hf']
    split_ifs with h
    · exact hq0 _ h _
    · exact hz0 _
  · have zf := elastic_fields hz (j * l)
    rw [hout, stateNodes, hz0, zf.2.2.2.2.1, zf.2.2.2.2.2, z2, z3, z5, z6]
    congr 2
    · ring
    · congr 1
      ring
  · rw [Finset.sum_range_add, sum_blocks]
    have hrest : ∑ j ∈ range e, bilinear ({ b with l := l } : BeamPart ℝ).stiffness (railSix f' (a * m + j)) (railSix U (a * m + j)) = 0 := by
      have := row_work { b with l := l } hb' h1 h2 z hz (fun j => U (a * m + j)) e
      have zf := elastic_fields hz (e * l)
      simp only [zf.1, zf.2.1, zf.2.2.1, z4, z5, z6, mul_zero, zero_mul, sub_zero, add_zero] at this
      rw [← this]
      refine Finset.sum_congr rfl fun j _ => ?_
      congr 1
      simp only [railSix, add_assoc, hout]
    rw [hrest, add_zero]
    refine Finset.sum_congr rfl fun k hk => ?_
    rw [Finset.mem_range] at hk
    have := hw k (fun j => U (k * m + j))
    simp only [add_zero, show k * m + m = (k + 1) * m by ring] at this
    refine Eq.trans (Finset.sum_congr rfl fun j hj => ?_) this
    rw [Finset.mem_range] at hj
    congr 1
    simp only [railSix, hin' k hk j hj.le, add_assoc, hin' k hk (j + 1) hj]

/-! ### The track -/

/-- Horizontal displacements do not couple with deflections and rotations. -/
theorem bilinear_decouple (b : BeamPart ℝ) (h1 : b.s1 = .inf) (h2 : b.s2 = .inf) (w z z' : Fin 6 → ℝ) (w0 : w 0 = 0) (w3 : w 3 = 0)
    (e1 : z 1 = z' 1) (e2 : z 2 = z' 2) (e4 : z 4 = z' 4) (e5 : z 5 = z' 5) : bilinear b.stiffness w z = bilinear b.stiffness w z' := by
  rw [BeamPart.stiffness, h1, h2, beamStiffness_eq]
  unfold bilinear
  simp [Fin.sum_univ_six, w0, w3, e1, e2, e4, e5]

section
variable {H : Type*} [DecidableEq H] {hash : (Fin 3 → ℝ) → H} {n r : ℕ} {d h : ℝ} {t : HorizontalTrack ℝ}

/-- The motion of rail nodes and sleepers as a field over the mesh. -/
noncomputable def trackField (t : HorizontalTrack ℝ) (n r : ℕ) (f : ℕ → Fin 3 → ℝ) (w : ℕ → ℝ) : NodalField ℝ :=
  railField t.position (n * r + n) fun k c => if k < n * r then f k c else if c = 1 then w (k - n * r) else 0

theorem Generated.trackField_rail (g : Generated hash n r d h t) (f : ℕ → Fin 3 → ℝ) (w : ℕ → ℝ) (k : ℕ) (hk : k < n * r) (c : Fin 3) :
    trackField t n r f w (t.position k) c = f k c := by
  rw [trackField, g.fieldAt _ (by omega) _ k (by omega), if_pos (by omega), if_pos hk]

theorem Generated.trackField_sleeper (g : Generated hash n r d h t) (f : ℕ → Fin 3 → ℝ) (w : ℕ → ℝ) (i : ℕ) (hi : i < n) :
    trackField t n r f w (t.position (n * r + i)) 1 = w i := by
  rw [trackField, g.fieldAt _ (by omega) _ _ (by omega), if_pos (by omega), if_neg (by omega), if_pos rfl]
  congr 1; omega

theorem Generated.trackField_bottom (g : Generated hash n r d h t) (f : ℕ → Fin 3 → ℝ) (w : ℕ → ℝ) (i : ℕ) (hi : i < n) (c : Fin 3) :
    trackField t n r f w (t.position (n * r + n + i)) c = 0 := by
  rw [trackField, g.fieldAt _ (by omega) _ _ (by omega), if_neg (by omega)]

/-- The work of the stiffness forces of a track, by rail elements, pads and soil. -/
noncomputable def railWork (v : TrackValues) (n r : ℕ) (l : ℝ) (f : ℕ → Fin 3 → ℝ) (w : ℕ → ℝ) (U : ℕ → Fin 3 → ℝ) (W : ℕ → ℝ) : ℝ :=
  ∑ k ∈ range (n * r - 1), bilinear ({ v.rail with l := l } : BeamPart ℝ).stiffness (railSix f k) (railSix U k) +
    ∑ i ∈ range n, v.pad.stiffness * ((w i - f (i * r) 1) * (W i - U (i * r) 1)) + ∑ i ∈ range n, v.soil.stiffness * (w i * W i)

theorem Generated.work_eq (g : Generated hash n r d h t) (v : TrackValues) (f : ℕ → Fin 3 → ℝ) (w : ℕ → ℝ) (u : NodalField ℝ)
    (hbot : ∀ i < n, u (t.position (n * r + n + i)) 1 = 0) :
    systemWork AssemblyPart.stiffness (generatedParts t n r d v).parts (trackField t n r f w) u =
      railWork v n r (d / r) f w (fun k => u (t.position k)) (fun i => u (t.position (n * r + i)) 1) := by
  have hr := g.r_pos
  have hir : ∀ i < n, i * r < n * r := fun i hi => Nat.mul_lt_mul_of_pos_right hi hr
  rw [track_stiffness_work _ (g.nonEmpty v)]
  simp only [generatedParts, chainOf_map, chainOf_range, List.map_map, List.map_cons, List.map_nil, List.sum_cons,
    List.sum_nil, add_zero, listSum_range, Function.comp_def]
  unfold railWork
  congr 1
  congr 1
  · refine Finset.sum_congr rfl fun k hk => ?_
    rw [Finset.mem_range] at hk
    simp only [sixValues, railSix, g.trackField_rail f w k (by omega), g.trackField_rail f w (k + 1) (by omega)]
  · refine Finset.sum_congr rfl fun i hi => ?_
    rw [Finset.mem_range] at hi
    rw [g.trackField_rail f w _ (hir i hi), g.trackField_sleeper f w i hi]
  · refine Finset.sum_congr rfl fun i hi => ?_
    rw [Finset.mem_range] at hi
    rw [g.trackField_bottom f w i hi, g.trackField_sleeper f w i hi, hbot i hi]
    ring

theorem Generated.trackField_supported (g : Generated hash n r d h t) (v : TrackValues) (f : ℕ → Fin 3 → ℝ) (w : ℕ → ℝ)
    (hf : ∀ k, f k 0 = 0) (i : ℕ) (c : Fin 3) (hs : Supported (generatedInput t n r d v true).constraints i c) :
    trackField t n r f w i c = 0 := by
  obtain ⟨-, hsurj, -⟩ := g.position
  by_cases hi : i < n * r + n + n
  · obtain ⟨k, hk, rfl⟩ := hsurj i hi
    rcases (g.supported true k hk c).1 hs with h' | ⟨-, h', rfl⟩
    · have := g.trackField_bottom f w (k - (n * r + n)) (by omega) c
      rwa [show n * r + n + (k - (n * r + n)) = k by omega] at this
    · have := g.rails
      rw [g.trackField_rail f w k (by omega), hf]
  · obtain ⟨hlt, -, -⟩ := g.position
    unfold trackField railField
    apply Finset.sum_eq_zero
    intro b hb
    rw [Finset.mem_range] at hb
    rw [if_neg]
    intro hc
    have := hlt b (by omega)
    omega

theorem railWork_decouple (v : TrackValues) (hv : v.Valid) (n r : ℕ) (hr : 0 < r) (l : ℝ) (f : ℕ → Fin 3 → ℝ) (w : ℕ → ℝ) (U U' : ℕ → Fin 3 → ℝ)
    (W W' : ℕ → ℝ) (hf : ∀ k, f k 0 = 0) (h1 : ∀ k < n * r, U k 1 = U' k 1) (h2 : ∀ k < n * r, U k 2 = U' k 2) (h3 : ∀ i < n, W i = W' i) :
    railWork v n r l f w U W = railWork v n r l f w U' W' := by
  have hir : ∀ i < n, i * r < n * r := fun i hi => Nat.mul_lt_mul_of_pos_right hi hr
  have e1 : ∀ k ∈ range (n * r - 1), bilinear ({ v.rail with l := l } : BeamPart ℝ).stiffness (railSix f k) (railSix U k) =
      bilinear ({ v.rail with l := l } : BeamPart ℝ).stiffness (railSix f k) (railSix U' k) := by
    intro k hk
    rw [Finset.mem_range] at hk
    exact bilinear_decouple { v.rail with l := l } hv.s1 hv.s2 (railSix f k) (railSix U k) (railSix U' k) (hf k) (hf (k + 1))
      (h1 k (by omega)) (h2 k (by omega)) (h1 (k + 1) (by omega)) (h2 (k + 1) (by omega))
  have e2 : ∀ i ∈ range n, v.pad.stiffness * ((w i - f (i * r) 1) * (W i - U (i * r) 1)) =
      v.pad.stiffness * ((w i - f (i * r) 1) * (W' i - U' (i * r) 1)) := by
    intro i hi
    rw [Finset.mem_range] at hi
    rw [h1 _ (hir i hi), h3 i hi]
  have e3 : ∀ i ∈ range n, v.soil.stiffness * (w i * W i) = v.soil.stiffness * (w i * W' i) := by
    intro i hi
    rw [Finset.mem_range] at hi
    rw [h3 i hi]
  unfold railWork
  rw [Finset.sum_congr rfl e1, Finset.sum_congr rfl e2, Finset.sum_congr rfl e3]

/-- Deflections and rotations without work in any motion of the track vanish. -/
theorem Generated.work_zero (g : Generated hash n r d h t) (hn : 2 ≤ n) (v : TrackValues) (hv : v.Valid) (U : ℕ → Fin 3 → ℝ) (W : ℕ → ℝ)
    (h0 : ∀ f w, (∀ k, f k 0 = 0) → railWork v n r (d / r) f w U W = 0) :
    (∀ k < n * r, U k 1 = 0 ∧ U k 2 = 0) ∧ ∀ i < n, W i = 0 := by
  set f : ℕ → Fin 3 → ℝ := fun k => ![0, U k 1, U k 2] with hf
  have hw := h0 f W fun k => rfl
  have e : railWork v n r (d / r) f W U W = systemWork AssemblyPart.stiffness (generatedParts t n r d v).parts (trackField t n r f W) (trackField t n r f W) := by
    rw [g.work_eq v f W _ fun i hi => g.trackField_bottom f W i hi 1]
    refine railWork_decouple v hv n r g.r_pos _ f W U _ W _ (fun _ => rfl) (fun k hk => ?_) (fun k hk => ?_) fun i hi => ?_
    · rw [g.trackField_rail f W k hk]; rfl
    · rw [g.trackField_rail f W k hk]; rfl
    · rw [g.trackField_sleeper f W i hi]
  rw [e] at hw
  obtain ⟨⟨s, hs⟩, h2⟩ := (g.standing hn v hv true).energy_zero (trackField t n r f W)
    (fun i c hc => g.trackField_supported v f W (fun _ => rfl) i c hc) hw
  constructor
  · intro k hk
    have := hs (t.position k) (List.mem_map.mpr ⟨k, List.mem_range.mpr hk, rfl⟩)
    rw [g.trackField_rail f W k hk, g.trackField_rail f W k hk, g.trackField_rail f W k hk] at this
    exact ⟨this.2.1, this.2.2⟩
  · intro i hi
    have := h2 (t.position (n * r + i)) (List.mem_map.mpr ⟨i, List.mem_range.mpr hi, rfl⟩)
    rwa [g.trackField_sleeper f W i hi] at this

theorem railWork_sub (v : TrackValues) (n r : ℕ) (l : ℝ) (f : ℕ → Fin 3 → ℝ) (w : ℕ → ℝ) (U U' : ℕ → Fin 3 → ℝ) (W W' : ℕ → ℝ) :
    railWork v n r l f w (fun k c => U k c - U' k c) (fun i => W i - W' i) = railWork v n r l f w U W - railWork v n r l f w U' W' := by
  have hb : ∀ (A : Matrix (Fin 6) (Fin 6) ℝ) (x y y' z : Fin 6 → ℝ), (∀ i, z i = y i - y' i) → bilinear A x z = bilinear A x y - bilinear A x y' := by
    intro A x y y' z hz
    simp only [bilinear, hz, mul_sub, Finset.sum_sub_distrib]
  unfold railWork
  rw [Finset.sum_congr rfl fun k _ => hb _ (railSix f k) (railSix U k) (railSix U' k) _ fun i => by
    fin_cases i <;> simp [railSix]]
  simp only [Finset.sum_sub_distrib]
  have p : ∀ i, v.pad.stiffness * ((w i - f (i * r) 1) * (W i - W' i - (U (i * r) 1 - U' (i * r) 1))) =
    v.pad.stiffness * ((w i - f (i * r) 1) * (W i - U (i * r) 1)) - v.pad.stiffness * ((w i - f (i * r) 1) * (W' i - U' (i * r) 1)) :=
    fun i => by ring
  have q : ∀ i, v.soil.stiffness * (w i * (W i - W' i)) = v.soil.stiffness * (w i * W i) - v.soil.stiffness * (w i * W' i) := fun i => by ring
  simp only [p, q, Finset.sum_sub_distrib]
  ring

/-- The work of a refined field in the fine track is that of the field in the coarse track. -/
theorem railWork_refine (v : TrackValues) (hv : v.Valid) (n r m : ℕ) (hnr : 0 < n * r) (hm : 0 < m) (l : ℝ) (hl : 0 < l) (f : ℕ → Fin 3 → ℝ)
    (hf : ∀ k, f k 0 = 0) :
    ∃ f' : ℕ → Fin 3 → ℝ, (∀ j, f' j 0 = 0) ∧ (∀ k < n * r, f' (k * m) = f k) ∧
      (∀ k, k + 1 < n * r → ∃ q : BeamState,
        q.Elastic (v.rail.E * v.rail.A) (v.rail.E * v.rail.I) v.rail.shearCompliance ∧ q.HasEnds (m * l) (railSix f k) ∧
          ∀ j ≤ m, f' (k * m + j) = stateNodes q l j) ∧
      (∀ j, f' ((n * r - 1) * m + j) = ![0, f (n * r - 1) 1 + f (n * r - 1) 2 * (j * l), f (n * r - 1) 2]) ∧
      ∀ w U W, railWork v n (r * m) l f' w U W = railWork v n r (m * l) f w (fun k => U (k * m)) W := by
  have hm' : (0 : ℝ) < m := Nat.cast_pos.2 hm
  obtain ⟨f', a1, a2, a3, a5, a4⟩ := rail_refine { v.rail with l := m * l } m hm l hl (hv.beam (by positivity)) rfl hv.s1 hv.s2 (n * r - 1) (m - 1) f
    fun k _ => hf k
  refine ⟨f', a1, fun k hk => a2 k (by omega), fun k hk => a3 k (by omega), a5, fun w U W => ?_⟩
  have hN : n * (r * m) - 1 = (n * r - 1) * m + (m - 1) := by
    obtain ⟨a, ha⟩ : ∃ a, n * r = a + 1 := ⟨n * r - 1, by omega⟩
    rw [← mul_assoc, ha, Nat.add_sub_cancel, Nat.succ_mul]
    omega
  unfold railWork
  rw [hN]
  have := a4 U
  dsimp only at this
  rw [this]
  congr 2
  refine Finset.sum_congr rfl fun i hi => ?_
  rw [Finset.mem_range] at hi
  have hir : i * r ≤ n * r - 1 := by
    rcases Nat.eq_zero_or_pos r with h | h
    · simp [h]
    · have := Nat.mul_lt_mul_of_pos_right hi h
      omega
  rw [show i * (r * m) = i * r * m by ring, a2 _ hir]

theorem railWork_symm (v : TrackValues) (n r : ℕ) (l : ℝ) (f U : ℕ → Fin 3 → ℝ) (w W : ℕ → ℝ) :
    railWork v n r l f w U W = railWork v n r l U W f w := by
  unfold railWork
  congr 1
  congr 1
  · exact Finset.sum_congr rfl fun k _ => bilinear_symmetric _ (C19_beam_symmetric _) _ _
  · exact Finset.sum_congr rfl fun i _ => by ring
  · exact Finset.sum_congr rfl fun i _ => by ring

/-- A refined field lies on the elastic rail. -/
theorem elastic_refine (v : TrackValues) (n r m : ℕ) (l : ℝ) (f f' : ℕ → Fin 3 → ℝ) (a2 : ∀ k < n * r, f' (k * m) = f k)
    (a3 : ∀ k, k + 1 < n * r → ∃ q : BeamState,
        q.Elastic (v.rail.E * v.rail.A) (v.rail.E * v.rail.I) v.rail.shearCompliance ∧ q.HasEnds (m * l) (railSix f k) ∧
          ∀ j ≤ m, f' (k * m + j) = stateNodes q l j)
    (a4 : ∀ j, f' ((n * r - 1) * m + j) = ![0, f (n * r - 1) 1 + f (n * r - 1) 2 * (j * l), f (n * r - 1) 2]) :
    OnElasticRail (v.rail.E * v.rail.I) v.rail.shearCompliance l (n * r) m f f' := by
  refine ⟨fun k hk => ?_, fun k hk => ?_, fun j hj => ?_⟩
  · rw [a2 k hk]
    exact ⟨rfl, rfl⟩
  · obtain ⟨q, q1, q2, q3⟩ := a3 k hk
    obtain ⟨p0, p1, p2, p3, p4, p5⟩ := q2
    refine ⟨⟨fun _ => 0, q.w, q.theta, q.M, q.V, fun _ => 0⟩, ⟨fun x => hasDerivAt_const x _, q1.shear, q1.moment, fun x => ?_, q1.curvature, q1.strain⟩,
      ⟨rfl, p1, p2, rfl, p4, p5⟩, fun j hj => ?_⟩
    · simpa using hasDerivAt_const x (0 : ℝ)
    · rw [q3 j hj]
      exact ⟨rfl, rfl⟩
  · rw [a4 j]
    exact ⟨rfl, rfl⟩

/-- There is one elastic curve between two nodes. -/
theorem elastic_curve (b : BeamPart ℝ) (hb : b.Valid) {w1 t1 w2 t2 : ℝ} {q q' : BeamState} (h1 : q.Elastic 1 (b.E * b.I) b.shearCompliance)
    (h2 : q.HasEnds b.l ![0, w1, t1, 0, w2, t2]) (h1' : q'.Elastic 1 (b.E * b.I) b.shearCompliance) (h2' : q'.HasEnds b.l ![0, w1, t1, 0, w2, t2]) :
    q.w = q'.w ∧ q.theta = q'.theta := by
  have conv : ∀ q : BeamState, q.Elastic 1 (b.E * b.I) b.shearCompliance → q.HasEnds b.l ![0, w1, t1, 0, w2, t2] →
      (⟨fun _ => 0, q.w, q.theta, q.M, q.V, fun _ => 0⟩ : BeamState).Elastic (b.E * b.A) (b.E * b.I) b.shearCompliance ∧
      (⟨fun _ => 0, q.w, q.theta, q.M, q.V, fun _ => 0⟩ : BeamState).HasEnds b.l ![0, w1, t1, 0, w2, t2] := by
    rintro q q1 ⟨p0, p1, p2, p3, p4, p5⟩
    refine ⟨⟨fun x => hasDerivAt_const x _, q1.shear, q1.moment, fun x => ?_, q1.curvature, q1.strain⟩, ⟨rfl, p1, p2, rfl, p4, p5⟩⟩
    simpa using hasDerivAt_const x (0 : ℝ)
  obtain ⟨c1, c2⟩ := conv q h1 h2
  obtain ⟨c3, c4⟩ := conv q' h1' h2'
  have := (C170_unique b hb _).2 _ _ c1 c2 c3 c4
  simp only [BeamState.mk.injEq] at this
  exact ⟨this.2.1, this.2.2.1⟩

/-- The points of the fine rail are determined by the coarse nodes. -/
theorem elastic_rail_unique (v : TrackValues) (hv : v.Valid) (N m : ℕ) (hm : 0 < m) (l : ℝ) (hl : 0 < l) (f f1 f2 : ℕ → Fin 3 → ℝ)
    (h1 : OnElasticRail (v.rail.E * v.rail.I) v.rail.shearCompliance l N m f f1)
    (h2 : OnElasticRail (v.rail.E * v.rail.I) v.rail.shearCompliance l N m f f2) (j : ℕ) (hj : j < N * m) : f1 j 1 = f2 j 1 ∧ f1 j 2 = f2 j 2 := by
  have hm' : (0 : ℝ) < m := Nat.cast_pos.2 hm
  have hk : j / m < N := (Nat.div_lt_iff_lt_mul hm).2 hj
  have hmod := Nat.mod_lt j hm
  have hdm : j / m * m + j % m = j := by rw [mul_comm]; exact Nat.div_add_mod j m
  rcases Nat.lt_or_ge (j / m + 1) N with hlt | hge
  · obtain ⟨q, q1, q2, q3⟩ := h1.between _ hlt
    obtain ⟨q', q1', q2', q3'⟩ := h2.between _ hlt
    obtain ⟨e1, e2⟩ := elastic_curve { v.rail with l := m * l } (hv.beam (by positivity)) q1 q2 q1' q2'
    have p1 := q3 (j % m) hmod.le
    have p2 := q3' (j % m) hmod.le
    rw [hdm, e1, e2] at p1
    rw [hdm] at p2
    exact ⟨p1.1.trans p2.1.symm, p1.2.trans p2.2.symm⟩
  · have hN : j / m = N - 1 := le_antisymm (Nat.le_sub_one_of_lt hk) (Nat.sub_le_of_le_add hge)
    have b1 := h1.beyond (j % m) hmod
    have b2 := h2.beyond (j % m) hmod
    rw [← hN, hdm] at b1 b2
    exact ⟨b1.1.trans b2.1.symm, b1.2.trans b2.2.symm⟩

/-- Exact condition for two meshes of a track to give the same deflections and rotations at the shared nodes: the loads do the same work on
every deformation of the coarse rail (`L`, `L'`: work of the loads). -/
theorem refine_iff {t t' : HorizontalTrack ℝ} {m : ℕ} (g : Generated hash n r d h t) (g' : Generated hash n (r * m) d h t') (hn : 2 ≤ n)
    (hm : 0 < m) (v : TrackValues) (hv : v.Valid) (U U' : ℕ → Fin 3 → ℝ) (W W' : ℕ → ℝ) (L L' : (ℕ → Fin 3 → ℝ) → (ℕ → ℝ) → ℝ)
    (hU : ∀ f w, (∀ k, f k 0 = 0) → railWork v n r (d / r) f w U W = L f w)
    (hU' : ∀ f w, (∀ k, f k 0 = 0) → railWork v n (r * m) (d / (r * m : ℕ)) f w U' W' = L' f w) :
    ((∀ k < n * r, U' (k * m) 1 = U k 1 ∧ U' (k * m) 2 = U k 2) ∧ ∀ i < n, W' i = W i) ↔
      ∀ f f' w, (∀ k, f k 0 = 0) → (∀ k, f' k 0 = 0) →
        OnElasticRail (v.rail.E * v.rail.I) v.rail.shearCompliance (d / (r * m : ℕ)) (n * r) m f f' → L' f' w = L f w := by
  have hr : (0 : ℝ) < r := Nat.cast_pos.2 g.r_pos
  have hm' : (0 : ℝ) < m := Nat.cast_pos.2 hm
  have hnr : 0 < n * r := by have := g.rails; omega
  have hl : (m : ℝ) * (d / (r * m : ℕ)) = d / r := by
    push_cast
    field_simp
  have key : ∀ f f' w, (∀ k, f k 0 = 0) → (∀ k, f' k 0 = 0) →
      OnElasticRail (v.rail.E * v.rail.I) v.rail.shearCompliance (d / (r * m : ℕ)) (n * r) m f f' →
      L' f' w = railWork v n r (d / r) f w (fun k => U' (k * m)) W' := by
    intro f f' w hf hf' hon
    obtain ⟨f'', a1, a2, a3, a4, a5⟩ := railWork_refine v hv n r m hnr hm (d / (r * m : ℕ)) g'.l_pos f hf
    rw [← hl, ← a5, ← hU' f' w hf', railWork_symm, railWork_symm v n (r * m) _ f'']
    have hz : ∀ k, (fun k => ![0, U' k 1, U' k 2] : ℕ → Fin 3 → ℝ) k 0 = 0 := fun _ => rfl
    have hu := elastic_rail_unique v hv (n * r) m hm _ g'.l_pos f f' f'' hon (elastic_refine v n r m _ f f'' a2 a3 a4)
    have x0 : ∀ f : ℕ → Fin 3 → ℝ, (∀ k, f k 0 = 0) → railWork v n (r * m) (d / (r * m : ℕ)) U' W' f w =
        railWork v n (r * m) (d / (r * m : ℕ)) (fun k => ![0, U' k 1, U' k 2]) W' f w := by
      intro f hf
      rw [railWork_symm, railWork_symm v n (r * m) _ _ f]
      exact railWork_decouple v hv n (r * m) g'.r_pos _ f w _ _ _ _ hf (fun _ _ => rfl) (fun _ _ => rfl) fun _ _ => rfl
    rw [x0 f' hf', x0 f'' a1]
    exact railWork_decouple v hv n (r * m) g'.r_pos _ _ W' f' f'' w w hz (fun k hk => (hu k (by rwa [mul_assoc])).1)
      (fun k hk => (hu k (by rwa [mul_assoc])).2) fun _ _ => rfl
  constructor
  · rintro ⟨e1, e2⟩ f f' w hf hf' hon
    rw [key f f' w hf hf' hon, ← hU f w hf]
    exact railWork_decouple v hv n r g.r_pos _ f w _ _ _ _ hf (fun k hk => (e1 k hk).1) (fun k hk => (e1 k hk).2) e2
  · intro hL
    have := g.work_zero hn v hv (fun k c => U' (k * m) c - U k c) (fun i => W' i - W i) fun f w hf => by
      obtain ⟨f'', a1, a2, a3, a4, a5⟩ := railWork_refine v hv n r m hnr hm (d / (r * m : ℕ)) g'.l_pos f hf
      have hon := elastic_refine v n r m _ f f'' a2 a3 a4
      rw [railWork_sub v n r (d / r) f w (fun k => U' (k * m)) U, ← key f f'' w hf a1 hon, hL f f'' w hf a1 hon, hU f w hf, sub_self]
    exact ⟨fun k hk => ⟨by linarith [(this.1 k hk).1], by linarith [(this.1 k hk).2]⟩, fun i hi => by linarith [this.2 i hi]⟩

/-- Displacements of a coarse and of a fine track that do the work of the same loads. -/
theorem refine_solution {t t' : HorizontalTrack ℝ} {m : ℕ} (g : Generated hash n r d h t) (g' : Generated hash n (r * m) d h t') (hn : 2 ≤ n)
    (hm : 0 < m) (v : TrackValues) (hv : v.Valid) (U U' : ℕ → Fin 3 → ℝ) (W W' : ℕ → ℝ) (P P' : ℕ → Fin 3 → ℝ) (Q Q' : ℕ → ℝ)
    (hsame : SameLoads n (n * r) m P P' Q Q')
    (hU : ∀ f w, (∀ k, f k 0 = 0) → railWork v n r (d / r) f w U W =
      ∑ k ∈ range (n * r), (f k 1 * P k 1 + f k 2 * P k 2) + ∑ i ∈ range n, w i * Q i)
    (hU' : ∀ f w, (∀ k, f k 0 = 0) → railWork v n (r * m) (d / (r * m : ℕ)) f w U' W' =
      ∑ k ∈ range (n * (r * m)), (f k 1 * P' k 1 + f k 2 * P' k 2) + ∑ i ∈ range n, w i * Q' i) :
    OnElasticRail (v.rail.E * v.rail.I) v.rail.shearCompliance (d / (r * m : ℕ)) (n * r) m U U' ∧ ∀ i < n, W' i = W i := by
  have hr : (0 : ℝ) < r := Nat.cast_pos.2 g.r_pos
  have hm' : (0 : ℝ) < m := Nat.cast_pos.2 hm
  have hnr : 0 < n * r := by have := g.rails; omega
  have hl : (m : ℝ) * (d / (r * m : ℕ)) = d / r := by
    push_cast
    field_simp
  obtain ⟨f', a1, a2, a3, a4, a5⟩ := railWork_refine v hv n r m hnr hm (d / (r * m : ℕ)) g'.l_pos (fun k => ![0, U k 1, U k 2]) fun _ => rfl
  have key := g'.work_zero hn v hv (fun k c => f' k c - U' k c) (fun i => W i - W' i) fun f w hf => by
    rw [railWork_sub, hU' f w hf, railWork_symm, a5, hl, railWork_symm]
    rw [railWork_decouple v hv n r g.r_pos (d / r) (fun k => f (k * m)) w (fun k => ![0, U k 1, U k 2]) U W W (fun k => hf _) (fun _ _ => rfl) (fun _ _ => rfl) fun _ _ => rfl,
      hU _ w fun k => hf _]
    have e1 : ∑ k ∈ range (n * (r * m)), (f k 1 * P' k 1 + f k 2 * P' k 2) = ∑ k ∈ range (n * r), (f (k * m) 1 * P k 1 + f (k * m) 2 * P k 2) := by
      rw [← mul_assoc, sum_blocks]
      refine Finset.sum_congr rfl fun k hk => ?_
      rw [Finset.mem_range] at hk
      rw [Finset.sum_eq_single_of_mem 0 (Finset.mem_range.2 hm)]
      · rw [add_zero, hsame.shared k hk 1 (by decide), hsame.shared k hk 2 (by decide)]
      · intro j hj hj0
        rw [Finset.mem_range] at hj
        have hlt : k * m + j < n * r * m := by
          calc k * m + j < (k + 1) * m := by rw [Nat.succ_mul]; omega
            _ ≤ n * r * m := Nat.mul_le_mul_right m hk
        have hnd : ¬ m ∣ k * m + j := by
          intro hd
          have := (Nat.dvd_add_right (Dvd.intro_left k rfl)).1 hd
          exact absurd (Nat.le_of_dvd (by omega) this) (by omega)
        rw [hsame.additional _ hlt hnd 1 (by decide), hsame.additional _ hlt hnd 2 (by decide)]
        ring
    have e2 : ∑ i ∈ range n, w i * Q' i = ∑ i ∈ range n, w i * Q i :=
      Finset.sum_congr rfl fun i hi => by rw [hsame.sleepers i (Finset.mem_range.1 hi)]
    rw [e1, e2, sub_self]
  have hnode : ∀ j < n * r * m, U' j 1 = f' j 1 ∧ U' j 2 = f' j 2 := by
    intro j hj
    rw [mul_assoc] at hj
    obtain ⟨k1, k2⟩ := key.1 j hj
    exact ⟨by linarith, by linarith⟩
  have hon := elastic_refine v n r m _ (fun k => ![0, U k 1, U k 2]) f' a2 a3 a4
  refine ⟨⟨fun k hk => ?_, fun k hk => ?_, fun j hj => ?_⟩, fun i hi => by have := key.2 i hi; linarith⟩
  · obtain ⟨k1, k2⟩ := hnode (k * m) (Nat.mul_lt_mul_of_pos_right hk hm)
    rw [k1, k2]
    exact hon.shared k hk
  · obtain ⟨q, q1, q2, q3⟩ := hon.between k hk
    refine ⟨q, q1, q2, fun j hj => ?_⟩
    have hlt : k * m + j < n * r * m := by
      calc k * m + j ≤ (k + 1) * m := by rw [Nat.succ_mul]; omega
        _ < n * r * m := Nat.mul_lt_mul_of_pos_right hk hm
    obtain ⟨k1, k2⟩ := hnode _ hlt
    rw [k1, k2]
    exact q3 j hj
  · have hlt : (n * r - 1) * m + j < n * r * m := by
      calc (n * r - 1) * m + j < (n * r - 1 + 1) * m := by rw [Nat.succ_mul]; omega
        _ = n * r * m := by rw [Nat.sub_add_cancel hnr]
    obtain ⟨k1, k2⟩ := hnode _ hlt
    rw [k1, k2]
    exact hon.beyond j hj

/-- The reported displacements of a static calculation do the work of the loads in every motion of the track. -/
theorem static_work (g : Generated hash n r d h t) (v : TrackValues) (hv : v.Valid) (hm : v.NonNeg) (hp : RailPresent { v.rail with l := d / r })
    (hsl : 1 / 10 ^ 8 < v.sleeperMass) (hk : 1 / 10 ^ 8 < v.pad.stiffness) (loads : List (NodalLoad ℝ)) (u : NodalField ℝ)
    (hadm : Admissible (generatedInput t n r d v true) u)
    (hwork : ∀ w, Admissible (generatedInput t n r d v true) w →
      systemWork AssemblyPart.stiffness (generatedInput t n r d v true).parts w u = Spec.loadWork loads w)
    (f : ℕ → Fin 3 → ℝ) (w : ℕ → ℝ) (hf : ∀ k, f k 0 = 0) :
    railWork v n r (d / r) f w (fun k => u (t.position (t.rail.getD k 0))) (fun i => u (t.position (t.sleepers.getD i 0)) 1) =
      ∑ k ∈ range (n * r), (f k 1 * loadOn loads (t.position (t.rail.getD k 0)) 1 + f k 2 * loadOn loads (t.position (t.rail.getD k 0)) 2) +
        ∑ i ∈ range n, w i * loadOn loads (t.position (t.sleepers.getD i 0)) 1 := by
  have ht' := g.track
  rw [createHorizontalTrack_eq hash n r g.r_pos d h] at ht'
  simp only [Except.ok.injEq] at ht'
  have hrail : t.rail = List.range (n * r) := by rw [← ht']
  have hsle : t.sleepers = (List.range n).map (n * r + ·) := by rw [← ht']
  clear ht'
  have r1 : ∀ k < n * r, t.rail.getD k 0 = k := by
    intro k hk
    rw [hrail, List.getD_eq_getElem?_getD, List.getElem?_range hk]; rfl
  have r2 : ∀ i < n, t.sleepers.getD i 0 = n * r + i := by
    intro i hi
    simp [hsle, hi]
  obtain ⟨hlt, -, -⟩ := g.position
  have hbot : ∀ i < n, u (t.position (n * r + n + i)) 1 = 0 := by
    intro i hi
    apply hadm _ (hlt _ (by omega))
    left
    show Spec.Supported (generatedSupports t n r true) _ _
    rw [g.supported true _ (by omega)]
    left; omega
  have := hwork _ (g.admissible v hv hm hp hsl hk f w (hf _) (hf _))
  rw [g.functional _ (loadWork_combine loads) f w] at this
  simp only [loadWork_unit, hf, zero_mul, zero_add] at this
  rw [← this]
  have e := g.work_eq v f w u hbot
  show _ = systemWork AssemblyPart.stiffness (generatedParts t n r d v).parts _ u
  rw [show (railField t.position (n * r + n) fun k c => if k < n * r then f k c else if c = 1 then w (k - n * r) else 0) = trackField t n r f w from rfl, e]
  exact railWork_decouple v hv n r g.r_pos _ f w _ _ _ _ hf (fun k hk => by simp only [r1 k hk]) (fun k hk => by simp only [r1 k hk])
    fun i hi => by simp only [r2 i hi]

/-- Two static calculations of one track, with `r` and with `r * m` rail elements per sleeper, in order. -/
structure TwoMeshes (hash : (Fin 3 → ℝ) → H) (n r m : ℕ) (d h : ℝ) (coarse fine : HorizontalTrack ℝ) (v : TrackValues)
    (inp inp' : SystemInput ℝ) (loads loads' : List (TimedLoad ℝ)) (times : ℕ)
    (solver solver' : TrimState ℝ → (List ℕ → ℕ → ℕ → ℝ) → SolverOutput ℝ) : Prop where
  sleepers : 2 ≤ n
  elements : 0 < r
  split : 0 < m
  distance : 1 / 1000000000 < d / (r * m : ℕ)
  depth : 1 / 1000000000 < h
  track : createHorizontalTrack hash n r d h = .ok coarse
  track' : createHorizontalTrack hash n (r * m) d h = .ok fine
  valid : v.Valid
  nonNeg : v.NonNeg
  rail : RailPresent { v.rail with l := d / r }
  rail' : RailPresent { v.rail with l := d / (r * m : ℕ) }
  mass : 1 / 10 ^ 8 < v.sleeperMass
  pads : 1 / 10 ^ 8 < v.pad.stiffness
  system : coarse.system v true = .ok inp
  system' : fine.system v true = .ok inp'
  nodup : ∀ l ∈ loads, l.nodes.Nodup
  nodup' : ∀ l ∈ loads', l.nodes.Nodup
  inMesh : ∀ l ∈ loads, ∀ i ∈ l.nodes, i < inp.n
  inMesh' : ∀ l ∈ loads', ∀ i ∈ l.nodes, i < inp'.n
  solver : ∀ st rhs, (∃ u, SolvesStatics st rhs times u) → SolvesStatics st rhs times (solver st rhs)
  solver' : ∀ st rhs, (∃ u, SolvesStatics st rhs times u) → SolvesStatics st rhs times (solver' st rhs)

variable {m : ℕ} {coarse fine : HorizontalTrack ℝ} {v : TrackValues} {inp inp' : SystemInput ℝ} {loads loads' : List (TimedLoad ℝ)} {times : ℕ}
  {solver solver' : TrimState ℝ → (List ℕ → ℕ → ℕ → ℝ) → SolverOutput ℝ}

/-- The vertical and moment loads of an output index on the rail nodes. -/
noncomputable def railLoads (t : HorizontalTrack ℝ) (loads : List (TimedLoad ℝ)) (s : ℕ) (k : ℕ) : Fin 3 → ℝ :=
  loadOn (loadsAt loads s) (t.position (t.rail.getD k 0))

/-- The vertical loads of an output index on the sleepers. -/
noncomputable def sleeperLoads (t : HorizontalTrack ℝ) (loads : List (TimedLoad ℝ)) (s : ℕ) (i : ℕ) : ℝ :=
  loadOn (loadsAt loads s) (t.position (t.sleepers.getD i 0)) 1

/-- The reported displacements and rotations of the rail nodes. -/
noncomputable def railResults (t : HorizontalTrack ℝ) (row : List (NodeRow ℝ)) (k : ℕ) : Fin 3 → ℝ :=
  fieldOfRows row NodeRow.displacement (t.position (t.rail.getD k 0))

/-- The reported vertical displacements of the sleepers. -/
noncomputable def sleeperResults (t : HorizontalTrack ℝ) (row : List (NodeRow ℝ)) (i : ℕ) : ℝ :=
  fieldOfRows row NodeRow.displacement (t.position (t.sleepers.getD i 0)) 1

theorem TwoMeshes.runs (M : TwoMeshes hash n r m d h coarse fine v inp inp' loads loads' times solver solver') :
    Generated hash n r d h coarse ∧ Generated hash n (r * m) d h fine ∧
    ∃ st rows st' rows', SystemRun.main ⟨inp, loads⟩ freshFlags times solver = .ok (st, rows) ∧
      SystemRun.main ⟨inp', loads'⟩ freshFlags times solver' = .ok (st', rows') ∧ rows.length = times ∧ rows'.length = times ∧
      ∀ s (h1 : s < rows.length) (h2 : s < rows'.length),
        (∀ f w, (∀ k, f k 0 = 0) → railWork v n r (d / r) f w (railResults coarse rows[s]) (sleeperResults coarse rows[s]) =
          ∑ k ∈ range (n * r), (f k 1 * railLoads coarse loads s k 1 + f k 2 * railLoads coarse loads s k 2) +
            ∑ i ∈ range n, w i * sleeperLoads coarse loads s i) ∧
        ∀ f w, (∀ k, f k 0 = 0) → railWork v n (r * m) (d / (r * m : ℕ)) f w (railResults fine rows'[s]) (sleeperResults fine rows'[s]) =
          ∑ k ∈ range (n * (r * m)), (f k 1 * railLoads fine loads' s k 1 + f k 2 * railLoads fine loads' s k 2) +
            ∑ i ∈ range n, w i * sleeperLoads fine loads' s i := by
  have hr := M.elements
  have hm := M.split
  have hn := M.sleepers
  have hd := M.distance
  have hr' : (0 : ℝ) < r := Nat.cast_pos.2 hr
  have hm1 : (1 : ℝ) ≤ m := Nat.one_le_cast.2 hm
  have hdc : 1 / 1000000000 < d / r := by
    push_cast at hd
    rw [← div_div] at hd
    refine lt_of_lt_of_le hd (div_le_self ?_ hm1)
    by_contra hneg
    have h1 : d / r / m ≤ 0 := div_nonpos_of_nonpos_of_nonneg (le_of_lt (not_le.1 hneg)) (by linarith)
    norm_num at hd
    linarith
  have g : Generated hash n r d h coarse := ⟨by nlinarith, hdc, M.depth, M.track⟩
  have g' : Generated hash n (r * m) d h fine := ⟨by nlinarith [Nat.mul_pos hr hm], hd, M.depth, M.track'⟩
  refine ⟨g, g', ?_⟩
  obtain ⟨st, rows, b1, b2, b3⟩ := C121_track hash n r hn hr d h hdc M.depth coarse M.track v M.valid inp M.system loads M.nodup M.inMesh times solver
    M.solver
  obtain ⟨st', rows', c1, c2, c3⟩ := C121_track hash n (r * m) hn (Nat.mul_pos hr hm) d h hd M.depth fine M.track' v M.valid inp' M.system' loads'
    M.nodup' M.inMesh' times solver' M.solver'
  refine ⟨st, rows, st', rows', b1, c1, b2, c2, fun s h1 h2 => ?_⟩
  have hinp := M.system
  have hinp' := M.system'
  rw [g.system v true] at hinp
  rw [g'.system v true] at hinp'
  injection hinp with hinp
  injection hinp' with hinp'
  subst hinp
  subst hinp'
  obtain ⟨ad, wk⟩ := (b3 s h1 (fieldOfRows rows[s] NodeRow.displacement)).mpr fun _ _ => rfl
  obtain ⟨ad', wk'⟩ := (c3 s h2 (fieldOfRows rows'[s] NodeRow.displacement)).mpr fun _ _ => rfl
  exact ⟨static_work g v M.valid M.nonNeg M.rail M.mass M.pads _ _ ad wk, static_work g' v M.valid M.nonNeg M.rail' M.mass M.pads _ _ ad' wk'⟩

/-- **C171, loads at nodes.** The deflections and rotations of a static calculation do not depend on the number of rail elements per
sleeper. Two generated tracks have the same sleepers and properties, one `r`, the other `r * m` rail elements per sleeper, and carry at an
output index the same vertical forces and moments, at nodes that both have. Then the fine calculation reports the same deflections and rotations
at the shared rail nodes and the same displacements of the sleepers, and at the additional rail nodes the points of the elastic curve through the shared ones. -/
theorem C171_refine (M : TwoMeshes hash n r m d h coarse fine v inp inp' loads loads' times solver solver') :
    ∃ st rows st' rows', SystemRun.main ⟨inp, loads⟩ freshFlags times solver = .ok (st, rows) ∧
      SystemRun.main ⟨inp', loads'⟩ freshFlags times solver' = .ok (st', rows') ∧ rows.length = times ∧ rows'.length = times ∧
      ∀ s (h1 : s < rows.length) (h2 : s < rows'.length),
        SameLoads n (n * r) m (railLoads coarse loads s) (railLoads fine loads' s) (sleeperLoads coarse loads s) (sleeperLoads fine loads' s) →
        OnElasticRail (v.rail.E * v.rail.I) v.rail.shearCompliance (d / (r * m : ℕ)) (n * r) m (railResults coarse rows[s])
          (railResults fine rows'[s]) ∧
        ∀ i < n, sleeperResults fine rows'[s] i = sleeperResults coarse rows[s] i := by
  obtain ⟨g, g', st, rows, st', rows', b1, c1, b2, c2, hw⟩ := M.runs
  refine ⟨st, rows, st', rows', b1, c1, b2, c2, fun s h1 h2 hsame => ?_⟩
  obtain ⟨w1, w2⟩ := hw s h1 h2
  exact refine_solution g g' M.sleepers M.split v M.valid _ _ _ _ _ _ _ _ hsame w1 w2

/-! ### Forces inside elements -/

/-- The nodal loads of a vertical force `F` at distance `x` along the rail, if it stands on rail element `e` (a moving load, `update_force`). -/
noncomputable def forceLoad (b : BeamPart ℝ) (e : ℕ) (x F : ℝ) (k : ℕ) (c : Fin 3) : ℝ :=
  let g := globalNodalLoads 0 (timoshenkoFactor b) b.l (x - e * b.l) (0, F, 0) ⟨0, 0⟩
  (if k = e then ![(g 0).1, (g 0).2.1, (g 0).2.2] c else 0) + if k = e + 1 then ![(g 1).1, (g 1).2.1, (g 1).2.2] c else 0

/-- The deflection at `x` that the shape functions of rail element `e` give. -/
noncomputable def shapeAt (b : BeamPart ℝ) (f : ℕ → Fin 3 → ℝ) (e : ℕ) (x : ℝ) : ℝ :=
  let N := yShape (timoshenkoFactor b) b.l (x - e * b.l)
  N 0 * f e 1 + N 1 * f e 2 + N 2 * f (e + 1) 1 + N 3 * f (e + 1) 2

theorem force_work (b : BeamPart ℝ) (e N : ℕ) (he : e + 1 < N) (x F : ℝ) (f : ℕ → Fin 3 → ℝ) :
    ∑ k ∈ range N, (f k 1 * forceLoad b e x F k 1 + f k 2 * forceLoad b e x F k 2) = F * shapeAt b f e x := by
  have hg : globalNodalLoads 0 (timoshenkoFactor b) b.l (x - e * b.l) (0, F, 0) ⟨0, 0⟩ = fun i =>
      (0, ![F * yShape (timoshenkoFactor b) b.l (x - e * b.l) 0, F * yShape (timoshenkoFactor b) b.l (x - e * b.l) 2] i,
        ![F * yShape (timoshenkoFactor b) b.l (x - e * b.l) 1, F * yShape (timoshenkoFactor b) b.l (x - e * b.l) 3] i) := by
    funext i
    simp only [globalNodalLoads, rotatePoint, neg_zero, Real.cos_zero, Real.sin_zero, one_mul, zero_mul, add_zero, zero_add, mul_zero,
      localNodalLoads_force]
    fin_cases i <;> simp
  simp only [forceLoad, hg, mul_add, mul_ite, mul_zero, Matrix.cons_val_zero, Matrix.cons_val_one, Matrix.cons_val, Finset.sum_add_distrib,
    Finset.sum_ite_eq', Finset.mem_range, he, show e < N by omega, if_true, shapeAt]
  ring

/-- The shape functions of a shear-rigid element, or of one that is one metre long, give the elastic curve. -/
theorem shape_elastic (b : BeamPart ℝ) (hb : b.Valid) (hk : b.kappa = 0 ∨ b.l = 1) (f : ℕ → Fin 3 → ℝ) (e : ℕ) (x : ℝ) (h0 : e * b.l ≤ x)
    (h1 : x ≤ (e + 1) * b.l) (q : BeamState) (hq : q.Elastic 1 (b.E * b.I) b.shearCompliance)
    (hd : q.HasEnds b.l ![0, f e 1, f e 2, 0, f (e + 1) 1, f (e + 1) 2]) : shapeAt b f e x = q.w (x - e * b.l) := by
  obtain ⟨p0, p1, p2, p3, p4, p5⟩ := hd
  have := (C170_deflection_iff b hb).2 hk ![0, f e 1, f e 2, 0, f (e + 1) 1, f (e + 1) 2] ⟨fun _ => 0, q.w, q.theta, q.M, q.V, fun _ => 0⟩
    ⟨fun x => hasDerivAt_const x _, hq.shear, hq.moment, fun x => by simpa using hasDerivAt_const x (0 : ℝ), hq.curvature, hq.strain⟩
    ⟨rfl, p1, p2, rfl, p4, p5⟩ (x - e * b.l) ⟨by linarith, by linarith⟩
  simpa [shapeAt] using this

/-- A part of an elastic curve is the elastic curve between its ends. -/
theorem elastic_part {EI s l : ℝ} {m : ℕ} {f' : ℕ → Fin 3 → ℝ} {q : BeamState} (hq : q.Elastic 1 EI s) (k j : ℕ) (hj : j < m)
    (hu : ∀ x, q.u x = 0) (hs : ∀ j ≤ m, f' (k * m + j) 1 = q.w (j * l) ∧ f' (k * m + j) 2 = q.theta (j * l)) :
    (shiftState q (j * l)).Elastic 1 EI s ∧
      (shiftState q (j * l)).HasEnds l ![0, f' (k * m + j) 1, f' (k * m + j) 2, 0, f' (k * m + j + 1) 1, f' (k * m + j + 1) 2] := by
  refine ⟨shift_elastic hq _, ?_⟩
  have e0 := hs j hj.le
  have e1 := hs (j + 1) hj
  have e : l + j * l = ((j + 1 : ℕ) : ℝ) * l := by push_cast; ring
  simp only [BeamState.HasEnds, shiftState, zero_add, e, Matrix.cons_val_zero, Matrix.cons_val_one, Matrix.cons_val, hu, add_assoc, e0, e1, and_self]

/-- A vertical force on the rail: distance along the rail, size, and the rail elements of the coarse and of the fine track on which it stands. -/
structure RailForce where
  x : ℝ
  F : ℝ
  e : ℕ
  e' : ℕ

/-- The elements are those under the force: on the coarse rail with `N` nodes and elements of length `m * l`, and on the fine rail, where
element `e'` is a part of element `e`. -/
structure RailForce.Stands (p : RailForce) (l : ℝ) (N m : ℕ) : Prop where
  onRail : p.e + 1 < N
  left : p.e' * l ≤ p.x
  right : p.x ≤ (p.e' + 1) * l
  part : p.e' / m = p.e

theorem force_functional (b : BeamPart ℝ) (N : ℕ) (ps : List RailForce) (el : RailForce → ℕ) (he : ∀ p ∈ ps, el p + 1 < N) (P : ℕ → Fin 3 → ℝ)
    (hP : ∀ k < N, ∀ c, c ≠ 0 → P k c = (ps.map fun p => forceLoad b (el p) p.x p.F k c).sum) (f : ℕ → Fin 3 → ℝ) :
    ∑ k ∈ range N, (f k 1 * P k 1 + f k 2 * P k 2) = (ps.map fun p => p.F * shapeAt b f (el p) p.x).sum := by
  rw [Finset.sum_congr rfl fun k hk => by
    rw [hP k (Finset.mem_range.1 hk) 1 (by decide), hP k (Finset.mem_range.1 hk) 2 (by decide)]]
  clear hP
  induction ps with
  | nil => simp
  | cons p ps ih =>
    rw [List.map_cons, List.sum_cons, ← ih fun p' hp' => he p' (List.mem_cons_of_mem _ hp'), ← force_work b (el p) N (he p (by simp)) p.x p.F f,
      ← Finset.sum_add_distrib]
    refine Finset.sum_congr rfl fun k _ => ?_
    simp only [List.map_cons, List.sum_cons]
    ring

/-- **C171, forces inside elements.** With vertical forces anywhere on the rail, on elements of both tracks, the two calculations give the
same deflections and rotations at the shared rail nodes and the same displacements of the sleepers, if the rail is shear-rigid. Missing:
shear-flexible rails, for which this is false (`C171_force_iff`). -/
theorem C171_forces_partial (M : TwoMeshes hash n r m d h coarse fine v inp inp' loads loads' times solver solver') (hk : v.rail.kappa = 0) :
    ∃ st rows st' rows', SystemRun.main ⟨inp, loads⟩ freshFlags times solver = .ok (st, rows) ∧
      SystemRun.main ⟨inp', loads'⟩ freshFlags times solver' = .ok (st', rows') ∧ rows.length = times ∧ rows'.length = times ∧
      ∀ s (h1 : s < rows.length) (h2 : s < rows'.length) (ps : List RailForce), (∀ p ∈ ps, p.Stands (d / (r * m : ℕ)) (n * r) m) →
        (∀ k < n * r, ∀ c, c ≠ 0 → railLoads coarse loads s k c = (ps.map fun p => forceLoad { v.rail with l := d / r } p.e p.x p.F k c).sum) →
        (∀ k < n * (r * m), ∀ c, c ≠ 0 →
          railLoads fine loads' s k c = (ps.map fun p => forceLoad { v.rail with l := d / (r * m : ℕ) } p.e' p.x p.F k c).sum) →
        (∀ i < n, sleeperLoads fine loads' s i = sleeperLoads coarse loads s i) →
        (∀ k < n * r, railResults fine rows'[s] (k * m) 1 = railResults coarse rows[s] k 1 ∧
          railResults fine rows'[s] (k * m) 2 = railResults coarse rows[s] k 2) ∧
        ∀ i < n, sleeperResults fine rows'[s] i = sleeperResults coarse rows[s] i := by
  obtain ⟨g, g', st, rows, st', rows', b1, c1, b2, c2, hw⟩ := M.runs
  refine ⟨st, rows, st', rows', b1, c1, b2, c2, fun s h1 h2 ps hps hP hP' hQ => ?_⟩
  obtain ⟨w1, w2⟩ := hw s h1 h2
  have hm := M.split
  have hm' : (0 : ℝ) < m := Nat.cast_pos.2 hm
  have hr : (0 : ℝ) < r := Nat.cast_pos.2 M.elements
  have hl : (m : ℝ) * (d / (r * m : ℕ)) = d / r := by
    push_cast
    field_simp
  have hlpos := g'.l_pos
  refine (refine_iff g g' M.sleepers hm v M.valid _ _ _ _ _ _ w1 w2).2 fun f f' w hf hf' hon => ?_
  rw [force_functional { v.rail with l := d / r } (n * r) ps RailForce.e (fun p hp => (hps p hp).onRail) _ hP,
    force_functional { v.rail with l := d / (r * m : ℕ) } (n * (r * m)) ps RailForce.e' (fun p hp => by
      have h1 := (hps p hp).onRail
      have h2 := (hps p hp).part
      have h3 : p.e' < (p.e + 1) * m := by
        rw [← h2, mul_comm]; exact Nat.lt_mul_div_succ _ hm
      calc p.e' + 1 ≤ (p.e + 1) * m := h3
        _ < n * r * m := Nat.mul_lt_mul_of_pos_right h1 hm
        _ = n * (r * m) := by ring) _ hP']
  congr 1
  · congr 1
    refine List.map_congr_left fun p hp => ?_
    congr 1
    obtain ⟨hN, hle, hri, hpart⟩ := hps p hp
    obtain ⟨q, q1, q2, q3⟩ := hon.between p.e hN
    have hmod := Nat.mod_lt p.e' hm
    have hdm : p.e * m + p.e' % m = p.e' := by rw [← hpart, mul_comm]; exact Nat.div_add_mod _ m
    have hu : ∀ x, q.u x = 0 := by
      intro x
      obtain ⟨a0, -, -, a3, -, -⟩ := q2
      simp only [Matrix.cons_val_zero, Matrix.cons_val] at a0 a3
      have fl := (elastic_fields q1 (m * (d / (r * m : ℕ)))).2.2.2.1
      rw [a3, a0, zero_add, eq_comm, div_one] at fl
      have hN0 : q.N 0 = 0 := (mul_eq_zero.1 fl).resolve_right (by positivity)
      rw [(elastic_fields q1 x).2.2.2.1, a0, hN0]; simp
    obtain ⟨s1, s2⟩ := elastic_part q1 p.e (p.e' % m) hmod hu q3
    rw [hdm] at s2
    have hcast : ((p.e' : ℕ) : ℝ) = p.e * m + (p.e' % m : ℕ) := by
      conv_lhs => rw [← hdm]
      push_cast
      ring
    have hb1 : (p.e : ℝ) * (m * (d / (r * m : ℕ))) ≤ p.e' * (d / (r * m : ℕ)) := by
      rw [hcast]
      have : (0 : ℝ) ≤ (p.e' % m : ℕ) * (d / (r * m : ℕ)) := by positivity
      nlinarith
    have hb2 : ((p.e' : ℝ) + 1) * (d / (r * m : ℕ)) ≤ (p.e + 1) * (m * (d / (r * m : ℕ))) := by
      rw [hcast]
      have h3 : ((p.e' % m : ℕ) : ℝ) + 1 ≤ m := by exact_mod_cast hmod
      have := mul_le_mul_of_nonneg_right h3 hlpos.le
      nlinarith
    rw [shape_elastic { v.rail with l := d / (r * m : ℕ) } (M.valid.beam hlpos) (Or.inl hk) f' p.e' p.x hle hri _ s1 s2,
      ← hl, shape_elastic { v.rail with l := m * (d / (r * m : ℕ)) } (M.valid.beam (by positivity)) (Or.inl hk) f p.e p.x (hb1.trans hle)
        (hri.trans hb2) q q1 q2]
    show q.w _ = q.w _
    congr 1
    rw [hcast]
    ring
  · exact Finset.sum_congr rfl fun i hi => by rw [hQ i (Finset.mem_range.1 hi)]

/-- **C171, forces inside elements, exact.** A vertical force at an additional node of the fine track, inside an element of the coarse track: the two
calculations give the same deflections and rotations at the shared rail nodes and the same displacements of the sleepers exactly if the force is
zero, the rail is shear-rigid, or the elements of the coarse track are one metre long. -/
theorem C171_force_iff (M : TwoMeshes hash n r m d h coarse fine v inp inp' loads loads' times solver solver') :
    ∃ st rows st' rows', SystemRun.main ⟨inp, loads⟩ freshFlags times solver = .ok (st, rows) ∧
      SystemRun.main ⟨inp', loads'⟩ freshFlags times solver' = .ok (st', rows') ∧ rows.length = times ∧ rows'.length = times ∧
      ∀ s (h1 : s < rows.length) (h2 : s < rows'.length) (F : ℝ) (e j : ℕ), e + 1 < n * r → 0 < j → j < m →
        (∀ k < n * r, ∀ c, c ≠ 0 → railLoads coarse loads s k c =
          forceLoad { v.rail with l := d / r } e ((e * m + j : ℕ) * (d / (r * m : ℕ))) F k c) →
        (∀ k < n * (r * m), ∀ c, c ≠ 0 → railLoads fine loads' s k c = if k = e * m + j ∧ c = 1 then F else 0) →
        (∀ i < n, sleeperLoads fine loads' s i = sleeperLoads coarse loads s i) →
        (((∀ k < n * r, railResults fine rows'[s] (k * m) 1 = railResults coarse rows[s] k 1 ∧
          railResults fine rows'[s] (k * m) 2 = railResults coarse rows[s] k 2) ∧
          ∀ i < n, sleeperResults fine rows'[s] i = sleeperResults coarse rows[s] i) ↔ F = 0 ∨ v.rail.kappa = 0 ∨ d / r = 1) := by
  obtain ⟨g, g', st, rows, st', rows', b1, c1, b2, c2, hw⟩ := M.runs
  refine ⟨st, rows, st', rows', b1, c1, b2, c2, fun s h1 h2 F e j he hj0 hjm hP hP' hQ => ?_⟩
  obtain ⟨w1, w2⟩ := hw s h1 h2
  have hm := M.split
  have hm' : (0 : ℝ) < m := Nat.cast_pos.2 hm
  have hr : (0 : ℝ) < r := Nat.cast_pos.2 M.elements
  have hl : (m : ℝ) * (d / (r * m : ℕ)) = d / r := by
    push_cast
    field_simp
  have hlpos := g'.l_pos
  have hclpos := g.l_pos
  have hlt : e * m + j < n * (r * m) := by
    calc e * m + j < (e + 1) * m := by rw [Nat.succ_mul]; omega
      _ ≤ n * r * m := Nat.mul_le_mul_right m he.le
      _ = n * (r * m) := by ring
  rw [refine_iff g g' M.sleepers hm v M.valid _ _ _ _ _ _ w1 w2]
  -- the work of the loads
  have hL : ∀ f : ℕ → Fin 3 → ℝ, ∑ k ∈ range (n * r), (f k 1 * railLoads coarse loads s k 1 + f k 2 * railLoads coarse loads s k 2) =
      F * shapeAt { v.rail with l := d / r } f e ((e * m + j : ℕ) * (d / (r * m : ℕ))) := by
    intro f
    rw [← force_work { v.rail with l := d / r } e (n * r) he]
    refine Finset.sum_congr rfl fun k hk => ?_
    rw [hP k (Finset.mem_range.1 hk) 1 (by decide), hP k (Finset.mem_range.1 hk) 2 (by decide)]
  have hL' : ∀ f : ℕ → Fin 3 → ℝ, ∑ k ∈ range (n * (r * m)), (f k 1 * railLoads fine loads' s k 1 + f k 2 * railLoads fine loads' s k 2) =
      F * f (e * m + j) 1 := by
    intro f
    rw [Finset.sum_congr rfl fun k hk => by
      rw [hP' k (Finset.mem_range.1 hk) 1 (by decide), hP' k (Finset.mem_range.1 hk) 2 (by decide)]]
    rw [Finset.sum_eq_single_of_mem (e * m + j) (Finset.mem_range.2 hlt)]
    · simp [mul_comm]
    · intro k _ hk
      simp [hk]
  have hQ' : ∀ w : ℕ → ℝ, ∑ i ∈ range n, w i * sleeperLoads fine loads' s i = ∑ i ∈ range n, w i * sleeperLoads coarse loads s i :=
    fun w => Finset.sum_congr rfl fun i hi => by rw [hQ i (Finset.mem_range.1 hi)]
  simp only [hL, hL', hQ', add_left_inj]
  have hx : ((e * m + j : ℕ) : ℝ) * (d / (r * m : ℕ)) - e * (d / r) = j * (d / (r * m : ℕ)) := by
    rw [← hl]; push_cast; ring
  have hj1 : (0 : ℝ) < j := Nat.cast_pos.2 hj0
  have hj2 : (j : ℝ) < m := Nat.cast_lt.2 hjm
  have hin1 : (0 : ℝ) < j * (d / (r * m : ℕ)) := by positivity
  have hin2 : (j : ℝ) * (d / (r * m : ℕ)) < d / r := by
    rw [← hl]; exact mul_lt_mul_of_pos_right hj2 hlpos
  constructor
  · intro h
    by_cases hF : F = 0
    · exact Or.inl hF
    right
    have hnr : 0 < n * r := by omega
    set f : ℕ → Fin 3 → ℝ := fun k => if k = e then ![0, 0, 1] else 0 with hf
    have hf0 : ∀ k, f k 0 = 0 := by
      intro k
      simp only [hf]
      split_ifs <;> rfl
    obtain ⟨f', a1, a2, a3, a4, -⟩ := railWork_refine v M.valid n r m hnr hm (d / (r * m : ℕ)) hlpos f hf0
    have hh := mul_left_cancel₀ hF (h f f' (fun _ => 0) hf0 a1 (elastic_refine v n r m _ f f' a2 a3 a4))
    obtain ⟨q, q1, q2, q3⟩ := a3 e he
    rw [q3 j hjm.le] at hh
    rw [hl] at q2
    have hb : ({ v.rail with l := d / r } : BeamPart ℝ).Valid := M.valid.beam hclpos
    have ht := (timo_fields { v.rail with l := d / r } hb (railSix f e) q q1 q2 (j * (d / (r * m : ℕ)))).2.1
    have e1 : f e = ![0, 0, 1] := by simp [hf]
    have e2 : f (e + 1) = 0 := by simp [hf]
    have hiff := timoshenkoFactor_ne_zero_iff { v.rail with l := d / r } hb
    have hphi := timoshenkoFactor_nonneg { v.rail with l := d / r } hb
    have hp : 1 + timoshenkoFactor { v.rail with l := d / r } ≠ 0 := by positivity
    simp only [stateNodes, Matrix.cons_val_one, Matrix.cons_val_zero] at hh
    rw [ht] at hh
    simp only [shapeAt, hx, railSix, e1, e2, Matrix.cons_val_zero, Matrix.cons_val_one, Matrix.cons_val, Pi.zero_apply, mul_zero, add_zero, zero_add,
      mul_one, yShape, timoDeflection] at hh
    generalize hph : timoshenkoFactor { v.rail with l := d / r } = phi at *
    generalize (j : ℝ) * (d / (r * m : ℕ)) = x at *
    generalize d / r = l at *
    have hk0 := M.valid.kappa
    have hzero : phi * (1 - l) * (x * (l - x)) = 0 := by
      have hl0 := hclpos.ne'
      field_simp at hh
      ring_nf at hh
      nlinarith [hh]
    have hxx : x * (l - x) ≠ 0 := (mul_pos hin1 (by linarith)).ne'
    rcases mul_eq_zero.1 ((mul_eq_zero.1 hzero).resolve_right hxx) with h0 | h0
    · left
      by_contra hne
      exact (hiff.2 (lt_of_le_of_ne hk0 (Ne.symm hne))) h0
    · right; linarith
  · rintro (hF | hk) f f' w hf hf' hon
    · rw [hF, zero_mul, zero_mul]
    · congr 1
      obtain ⟨q, q1, q2, q3⟩ := hon.between e he
      rw [hl] at q2
      rw [shape_elastic { v.rail with l := d / r } (M.valid.beam hclpos) hk f e _ (by linarith) (by
        show _ ≤ ((e : ℝ) + 1) * (d / r)
        linarith) q q1 q2, (q3 j hjm.le).1]
      show _ = q.w (_ - (e : ℝ) * (d / r))
      rw [hx]

/-! ### Two meshes of the example track -/

/-- Loads on all rail nodes, given for every output index. -/
noncomputable def railTable (t : HorizontalTrack ℝ) (N : ℕ) (P : ℕ → ℕ → Fin 3 → ℝ) : TimedLoad ℝ :=
  ⟨(List.range N).map t.position, ![true, true, true], .table fun i s => P s i⟩

theorem Generated.railTable_ok (g : Generated hash n r d h t) (v : TrackValues) (P : ℕ → ℕ → Fin 3 → ℝ) :
    (railTable t (n * r) P).nodes.Nodup ∧ ∀ i ∈ (railTable t (n * r) P).nodes, i < (generatedInput t n r d v true).n := by
  obtain ⟨hlt, -, hinj⟩ := g.position
  constructor
  · refine List.Nodup.map_on ?_ List.nodup_range
    intro x hx y hy e
    rw [List.mem_range] at hx hy
    exact hinj x (by omega) y (by omega) e
  · intro i hi
    simp only [railTable, List.mem_map, List.mem_range] at hi
    obtain ⟨k, hk, rfl⟩ := hi
    exact hlt k (by omega)

theorem Generated.railTable_loads (g : Generated hash n r d h t) (P : ℕ → ℕ → Fin 3 → ℝ) (s : ℕ) :
    (∀ k < n * r, railLoads t [railTable t (n * r) P] s k = P s k) ∧ ∀ i < n, sleeperLoads t [railTable t (n * r) P] s i = 0 := by
  obtain ⟨hlt, -, hinj⟩ := g.position
  have ht' := g.track
  rw [createHorizontalTrack_eq hash n r g.r_pos d h] at ht'
  simp only [Except.ok.injEq] at ht'
  have hrail : t.rail = List.range (n * r) := by rw [← ht']
  have hsle : t.sleepers = (List.range n).map (n * r + ·) := by rw [← ht']
  clear ht'
  have hsum : ∀ k < n * r + n, ∀ c, loadOn (loadsAt [railTable t (n * r) P] s) (t.position k) c = if k < n * r then P s k c else 0 := by
    intro k hk c
    have hact : (![true, true, true] : Fin 3 → Bool) c = true := by fin_cases c <;> rfl
    simp only [loadOn, loadsAt, railTable, List.map_cons, List.map_nil, List.sum_cons, List.sum_nil, add_zero, List.length_map, List.length_range, hact,
      and_true]
    have e : ∀ j ∈ range (n * r), (if ((List.range (n * r)).map t.position).getD j 0 = t.position k then
        (((List.range (n * r)).map fun i => P s i).getD j fun _ => 0) c else 0) = if j = k then P s k c else 0 := by
      intro j hj
      rw [Finset.mem_range] at hj
      have e1 : ((List.range (n * r)).map t.position).getD j 0 = t.position j := by simp [hj]
      have e2 : (((List.range (n * r)).map fun i => P s i).getD j fun _ => 0) = P s j := by simp [hj]
      rw [e1, e2]
      by_cases hjk : j = k
      · subst hjk; simp
      · rw [if_neg hjk, if_neg]
        exact fun hc => hjk (hinj j (by omega) k (by omega) hc)
    rw [Finset.sum_congr rfl e, Finset.sum_ite_eq']
    simp only [Finset.mem_range]
  constructor
  · intro k hk
    have : t.rail.getD k 0 = k := by
      rw [hrail, List.getD_eq_getElem?_getD, List.getElem?_range hk]; rfl
    funext c
    rw [railLoads, this, hsum k (by omega), if_pos hk]
  · intro i hi
    have : t.sleepers.getD i 0 = n * r + i := by simp [hsle, hi]
    rw [sleeperLoads, this, hsum _ (by omega), if_neg (by omega)]

/-- A solver for ten output indices that gives a solution wherever there is one. -/
noncomputable def anySolver (st : TrimState ℝ) (rhs : List ℕ → ℕ → ℕ → ℝ) : SolverOutput ℝ := by
  classical
  exact if hex : ∃ u, SolvesStatics st rhs 10 u then Classical.choose hex else ⟨fun _ _ => 0, fun _ _ => 0, fun _ _ => 0⟩

theorem anySolver_solves (st : TrimState ℝ) (rhs : List ℕ → ℕ → ℕ → ℝ) (hex : ∃ u, SolvesStatics st rhs 10 u) :
    SolvesStatics st rhs 10 (anySolver st rhs) := by
  unfold anySolver
  rw [dif_pos hex]
  exact Classical.choose_spec hex

/-- The rail of the example track with this shear factor and length. -/
noncomputable def exampleRail (kappa l : ℝ) : BeamPart ℝ := { exampleTrack.rail with kappa := kappa, l := l }

theorem exampleRail_flexible (l : ℝ) (hl : l = 3 / 5 ∨ l = 3 / 10) : RailPresent (exampleRail (1 / 2) l) := by
  intro k
  rw [BeamPart.stiffness, beamStiffness_eq, BeamPart.massMatrix, beamMass, beamTransMass_eq, beamRotMass_eq]
  rcases hl with rfl | rfl
  · rw [if_pos (by norm_num [exampleRail, exampleTrack, timoshenkoFactor, shearModulus])]
    fin_cases k <;> constructor <;> norm_num [exampleRail, exampleTrack, timoshenkoFactor, shearModulus, fixity]
  · rw [if_pos (by norm_num [exampleRail, exampleTrack, timoshenkoFactor, shearModulus])]
    fin_cases k <;> constructor <;> norm_num [exampleRail, exampleTrack, timoshenkoFactor, shearModulus, fixity]

theorem exampleRail_rigid (l : ℝ) (hl : l = 3 / 5 ∨ l = 3 / 10) : RailPresent (exampleRail 0 l) := by
  intro k
  rw [BeamPart.stiffness, beamStiffness_eq, BeamPart.massMatrix, beamMass, beamTransMass_eq]
  rcases hl with rfl | rfl
  · rw [if_neg (by norm_num [exampleRail, exampleTrack, timoshenkoFactor, shearModulus])]
    fin_cases k <;> constructor <;> norm_num [exampleRail, exampleTrack, timoshenkoFactor, shearModulus, fixity]
  · rw [if_neg (by norm_num [exampleRail, exampleTrack, timoshenkoFactor, shearModulus])]
    fin_cases k <;> constructor <;> norm_num [exampleRail, exampleTrack, timoshenkoFactor, shearModulus, fixity]

theorem exampleRail_present (kappa l : ℝ) (hk : kappa = 1 / 2 ∨ kappa = 0) (hl : l = 3 / 5 ∨ l = 3 / 10) : RailPresent (exampleRail kappa l) := by
  rcases hk with rfl | rfl
  · exact exampleRail_flexible l hl
  · exact exampleRail_rigid l hl

/-- Three sleepers at 0.6 m with one and with two rail elements per sleeper; any loads on the rail nodes. -/
theorem exampleMeshes (kappa : ℝ) (hk : kappa = 1 / 2 ∨ kappa = 0) (P P' : ℕ → ℕ → Fin 3 → ℝ) : ∃ coarse fine inp inp',
    TwoMeshes (fun p : Fin 3 → ℝ => p) 3 1 2 (3 / 5) 1 coarse fine { exampleTrack with rail := { exampleTrack.rail with kappa := kappa } } inp inp'
      [railTable coarse (3 * 1) P] [railTable fine (3 * (1 * 2)) P'] 10 anySolver anySolver ∧
    (∀ s, (∀ k < 3 * 1, railLoads coarse [railTable coarse (3 * 1) P] s k = P s k) ∧
      ∀ i < 3, sleeperLoads coarse [railTable coarse (3 * 1) P] s i = 0) ∧
    ∀ s, (∀ k < 3 * (1 * 2), railLoads fine [railTable fine (3 * (1 * 2)) P'] s k = P' s k) ∧
      ∀ i < 3, sleeperLoads fine [railTable fine (3 * (1 * 2)) P'] s i = 0 := by
  obtain ⟨coarse, hc, -⟩ := C48_structure (fun p : Fin 3 → ℝ => p) 3 1 (by norm_num) (3 / 5) 1
  obtain ⟨fine, hf, -⟩ := C48_structure (fun p : Fin 3 → ℝ => p) 3 (1 * 2) (by norm_num) (3 / 5) 1
  have g : Generated (fun p : Fin 3 → ℝ => p) 3 1 (3 / 5) 1 coarse := ⟨by norm_num, by norm_num, by norm_num, hc⟩
  have g' : Generated (fun p : Fin 3 → ℝ => p) 3 (1 * 2) (3 / 5) 1 fine := ⟨by norm_num, by norm_num, by norm_num, hf⟩
  set v : TrackValues := { exampleTrack with rail := { exampleTrack.rail with kappa := kappa } } with hvdef
  have hv : v.Valid := by
    have := exampleTrack_valid
    exact ⟨this.E, this.nu, this.rho, this.A, this.I, by rcases hk with rfl | rfl <;> norm_num [hvdef], this.s1, this.s2, this.pad, this.soil⟩
  have hnn : v.NonNeg := by
    have := exampleTrack_nonNeg
    exact ⟨this.1, this.2, this.3, this.4, this.5⟩
  have hp : ∀ l : ℝ, l = 3 / 5 ∨ l = 3 / 10 → RailPresent { v.rail with l := l } := fun l hl => exampleRail_present kappa l hk hl
  have o := g.railTable_ok v P
  have o' := g'.railTable_ok v P'
  refine ⟨coarse, fine, _, _, ⟨by norm_num, by norm_num, by norm_num, by norm_num, by norm_num, hc, hf, hv, hnn, hp _ (by norm_num), hp _ (by norm_num),
    by norm_num [hvdef, exampleTrack], by norm_num [hvdef, exampleTrack], g.system v true, g'.system v true, ?_, ?_, ?_, ?_, anySolver_solves,
    anySolver_solves⟩, fun s => g.railTable_loads P s, fun s => g'.railTable_loads P' s⟩
  · intro l hl
    rw [List.mem_singleton] at hl
    rw [hl]; exact o.1
  · intro l hl
    rw [List.mem_singleton] at hl
    rw [hl]; exact o'.1
  · intro l hl
    rw [List.mem_singleton] at hl
    rw [hl]; exact o.2
  · intro l hl
    rw [List.mem_singleton] at hl
    rw [hl]; exact o'.2

/-- A force of 1000 per output index on the second sleeper, with one and with two rail elements per sleeper: the same loads. -/
example : ∃ coarse fine v inp inp' loads loads', TwoMeshes (fun p : Fin 3 → ℝ => p) 3 1 2 (3 / 5) 1 coarse fine v inp inp' loads loads' 10 anySolver anySolver ∧
    ∀ s, SameLoads 3 (3 * 1) 2 (railLoads coarse loads s) (railLoads fine loads' s) (sleeperLoads coarse loads s) (sleeperLoads fine loads' s) ∧
      railLoads coarse loads s 1 1 = -1000 * s := by
  obtain ⟨coarse, fine, inp, inp', M, h1, h2⟩ := exampleMeshes (1 / 2) (Or.inl rfl) (fun s k => if k = 1 then ![0, -1000 * s, 0] else 0)
    (fun s k => if k = 2 then ![0, -1000 * s, 0] else 0)
  refine ⟨coarse, fine, _, inp, inp', _, _, M, fun s => ⟨⟨?_, ?_, ?_⟩, ?_⟩⟩
  · intro k hk c _
    rw [(h1 s).1 k hk, (h2 s).1 (k * 2) (by omega)]
    by_cases h : k = 1
    · subst h; simp
    · rw [if_neg h, if_neg (by omega)]
  · intro j hj hnd c _
    rw [(h2 s).1 j (by omega), if_neg (by rintro rfl; exact hnd (by norm_num))]
    rfl
  · intro i hi
    rw [(h1 s).2 i hi, (h2 s).2 i hi]
  · rw [(h1 s).1 1 (by norm_num)]
    simp

/-- A shear-rigid rail with a force of 1000 at 0.4 m: on the first element of the coarse and on the second of the fine track. -/
example : ∃ coarse fine v inp inp' loads loads', TwoMeshes (fun p : Fin 3 → ℝ => p) 3 1 2 (3 / 5) 1 coarse fine v inp inp' loads loads' 10 anySolver anySolver ∧
    v.rail.kappa = 0 ∧ ∀ s, ∃ ps : List RailForce, (∀ p ∈ ps, p.Stands ((3 / 5 : ℝ) / (1 * 2 : ℕ)) (3 * 1) 2) ∧ ps ≠ [] ∧
      (∀ k < 3 * 1, ∀ c, c ≠ 0 → railLoads coarse loads s k c = (ps.map fun p => forceLoad { v.rail with l := 3 / 5 / (1 : ℕ) } p.e p.x p.F k c).sum) ∧
      ∀ k < 3 * (1 * 2), ∀ c, c ≠ 0 →
        railLoads fine loads' s k c = (ps.map fun p => forceLoad { v.rail with l := 3 / 5 / (1 * 2 : ℕ) } p.e' p.x p.F k c).sum := by
  obtain ⟨coarse, fine, inp, inp', M, h1, h2⟩ := exampleMeshes 0 (Or.inr rfl)
    (fun _ k c => forceLoad { exampleTrack.rail with kappa := 0, l := 3 / 5 / (1 : ℕ) } 0 (2 / 5) (-1000) k c)
    (fun _ k c => forceLoad { exampleTrack.rail with kappa := 0, l := 3 / 5 / (1 * 2 : ℕ) } 1 (2 / 5) (-1000) k c)
  refine ⟨coarse, fine, _, inp, inp', _, _, M, rfl, fun s => ⟨[⟨2 / 5, -1000, 0, 1⟩], ?_, by simp, ?_, ?_⟩⟩
  · intro p hp
    rw [List.mem_singleton] at hp
    subst hp
    constructor <;> norm_num
  · intro k hk c _
    rw [(h1 s).1 k hk, List.map_singleton, List.sum_singleton]
  · intro k hk c _
    rw [(h2 s).1 k hk, List.map_singleton, List.sum_singleton]

/-- **C171 violated** for the shear-flexible example rail: a force of 1000 in the middle between the first two sleepers, in an element of the
coarse track and at a node of the fine track. -/
theorem C171_violated : ∃ coarse fine v inp inp' loads loads',
    TwoMeshes (fun p : Fin 3 → ℝ => p) 3 1 2 (3 / 5) 1 coarse fine v inp inp' loads loads' 10 anySolver anySolver ∧
    (∀ s, ∀ k < 3, ∀ c, c ≠ 0 → railLoads coarse loads s k c = forceLoad { v.rail with l := 3 / 5 } 0 (3 / 10) (-1000) k c) ∧
    (∀ s, ∀ k < 6, ∀ c, c ≠ 0 → railLoads fine loads' s k c = if k = 1 ∧ c = 1 then -1000 else 0) ∧
    ∃ st rows st' rows', SystemRun.main ⟨inp, loads⟩ freshFlags 10 anySolver = .ok (st, rows) ∧
      SystemRun.main ⟨inp', loads'⟩ freshFlags 10 anySolver = .ok (st', rows') ∧ rows.length = 10 ∧ rows'.length = 10 ∧
      ∀ s (h1 : s < rows.length) (h2 : s < rows'.length),
        ¬((∀ k < 3, railResults fine rows'[s] (k * 2) 1 = railResults coarse rows[s] k 1 ∧
          railResults fine rows'[s] (k * 2) 2 = railResults coarse rows[s] k 2) ∧
          ∀ i < 3, sleeperResults fine rows'[s] i = sleeperResults coarse rows[s] i) := by
  obtain ⟨coarse, fine, inp, inp', M, h1, h2⟩ := exampleMeshes (1 / 2) (Or.inl rfl)
    (fun _ k c => forceLoad { exampleTrack.rail with kappa := 1 / 2, l := 3 / 5 } 0 (3 / 10) (-1000) k c)
    (fun _ k c => if k = 1 ∧ c = 1 then -1000 else 0)
  have e1 : ∀ s, ∀ k < 3, ∀ c, c ≠ 0 → railLoads coarse _ s k c = _ := fun s k hk c _ => congrFun ((h1 s).1 k hk) c
  have e2 : ∀ s, ∀ k < 6, ∀ c, c ≠ 0 → railLoads fine _ s k c = _ := fun s k hk c _ => congrFun ((h2 s).1 k (by omega)) c
  refine ⟨coarse, fine, _, inp, inp', _, _, M, e1, e2, ?_⟩
  obtain ⟨st, rows, st', rows', b1, b2, b3, b4, b5⟩ := C171_force_iff M
  refine ⟨st, rows, st', rows', b1, b2, b3, b4, fun s hs hs' hag => ?_⟩
  have := (b5 s hs hs' (-1000) 0 1 (by norm_num) (by norm_num) (by norm_num) (fun k hk c hc => by
    rw [e1 s k hk c hc]
    norm_num) (fun k hk c hc => e2 s k hk c hc) fun i hi => by rw [(h1 s).2 i hi, (h2 s).2 i hi]).1 hag
  norm_num at this

end

end Rose
