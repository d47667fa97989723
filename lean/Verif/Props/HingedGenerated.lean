/-
C141: generated tracks with a hinge.
-/
import Verif.Props.HingedStands
import Verif.Props.Results

set_option linter.unusedSectionVars false

namespace Rose
open Finset

/-! ### Pieces of an even rail -/

section pieces
variable {t : HorizontalTrack ℝ} {m : ℕ} {l : ℝ}

theorem EvenRail.piece_pos (g : EvenRail t m l) (X S Y : List ℕ) (h : t.rail = X ++ S ++ Y) (i : ℕ) (a : ℕ) (ha : S[i]? = some a) :
    (t.store a).pos = ![((X.length + i : ℕ) : ℝ) * l, 0, 0] := by
  obtain ⟨hi, rfl⟩ := List.getElem?_eq_some_iff.mp ha
  have h1 : t.rail[X.length + i]? = some S[i] := by
    rw [h, List.append_assoc, List.getElem?_append_right (by omega), List.getElem?_append_left (by omega)]
    simp [ha]
  obtain ⟨hlt, h2⟩ := List.getElem?_eq_some_iff.mp h1
  have := g.pos (X.length + i) (by rw [← g.len]; exact hlt)
  rwa [List.getD_eq_getElem _ _ hlt, h2] at this

/-- A piece of an even rail has the element length of the rail. -/
theorem EvenRail.piece_length (g : EvenRail t m l) (X S Y : List ℕ) (h : t.rail = X ++ S ++ Y) (hS : 2 ≤ S.length)
    (old : Option ℝ) : calculateLengthRail (S.map fun i => (t.store i).pos) old = .ok (some l) := by
  apply C99_equal_partial _ _ (by simpa using hS)
  rintro a b ⟨k, ha, hb⟩
  rw [List.getElem?_map, Option.map_eq_some_iff] at ha hb
  obtain ⟨i, hi, rfl⟩ := ha
  obtain ⟨j, hj, rfl⟩ := hb
  rw [g.piece_pos X S Y h k i hi, g.piece_pos X S Y h (k + 1) j hj]
  have hl := g.l_pos
  unfold pointDistance
  rw [Fin.sum_univ_three]
  simp only [Matrix.cons_val_zero, Matrix.cons_val_one, Matrix.cons_val]
  rw [show (((X.length + (k + 1) : ℕ) : ℝ) * l - ((X.length + k : ℕ) : ℝ) * l) ^ 2 + (0 - 0) ^ 2 + (0 - 0) ^ 2 = l ^ 2 by
    push_cast; ring]
  exact Real.sqrt_sq hl.le

/-- The elements of a piece of an even rail lie on the x axis. -/
theorem EvenRail.piece_placed (g : EvenRail t m l) (X S Y : List ℕ) (h : t.rail = X ++ S ++ Y) :
    t.placed (chainOf S) = horizontalElements (chainOf (S.map t.position)) := by
  rw [chainOf_map]
  unfold HorizontalTrack.placed horizontalElements
  rw [List.map_map]
  apply List.map_congr_left
  rintro ⟨a, b⟩ he
  unfold chainOf at he
  obtain ⟨i, hi, he⟩ := List.mem_iff_getElem.mp he
  simp only [List.getElem_zip, List.getElem_tail, Prod.mk.injEq] at he
  obtain ⟨rfl, rfl⟩ := he
  have hlen : i + 1 < S.length := by simp at hi; omega
  simp only [Function.comp]
  rw [g.piece_pos X S Y h i _ (List.getElem?_eq_getElem (by omega)),
    g.piece_pos X S Y h (i + 1) _ (List.getElem?_eq_getElem hlen)]
  simp only [Matrix.cons_val_zero, Matrix.cons_val_one]
  rw [rotation_right]
  · simp
  · have := g.l_pos
    push_cast
    nlinarith

end pieces

variable {H : Type*} [DecidableEq H]

/-- The cut of the rail of a generated track at the inner node `k`. -/
def generatedCut (t : HorizontalTrack ℝ) (n r k : ℕ) (σ : ℝ) : HingeCut ℝ where
  A := (List.range (k - 1)).map t.position
  p := t.position (k - 1)
  c := t.position k
  q := t.position (k + 1)
  B := (List.range' (k + 2) (n * r - (k + 2))).map t.position
  σ := σ

section generated
variable {hash : (Fin 3 → ℝ) → H} {n r : ℕ} {d h : ℝ} {t : HorizontalTrack ℝ} {k : ℕ}

theorem range_cut (m k : ℕ) (hk : 1 ≤ k) (hkm : k + 2 ≤ m) :
    List.range m = List.range (k - 1) ++ (k - 1) :: k :: (k + 1) :: List.range' (k + 2) (m - (k + 2)) := by
  apply List.ext_getElem
  · simp; omega
  · intro i h1 h2
    rw [List.getElem_range]
    by_cases a : i < k - 1
    · rw [List.getElem_append_left (by simpa using a)]
      simp
    · rw [List.getElem_append_right (by simpa using a)]
      obtain ⟨j, rfl⟩ : ∃ j, i = (k - 1) + j := ⟨i - (k - 1), by omega⟩
      simp only [List.length_range, Nat.add_sub_cancel_left]
      match j with
      | 0 => simp
      | 1 => simp; omega
      | 2 => simp; omega
      | j + 3 => simp; omega

theorem generatedCut_rail (hk : 1 ≤ k) (hkm : k + 2 ≤ n * r) (v : TrackValues) (σ : ℝ) :
    (generatedParts t n r d v).rail = (generatedCut t n r k σ).rail := by
  unfold generatedParts HingeCut.rail generatedCut
  simp only
  conv_lhs => rw [range_cut (n * r) k hk hkm]
  simp

theorem Generated.hinged (g : Generated hash n r d h t) (hn : 2 ≤ n) (hk : 2 ≤ k) (hkm : k + 3 ≤ n * r) (v : TrackValues)
    (hv : v.Valid) (held : Bool) (σ : ℝ) :
    HingedStanding (generatedInput t n r d v held) (generatedParts t n r d v) (generatedCut t n r k σ) := by
  refine ⟨g.standing hn v hv held, ⟨?_, ?_⟩, generatedCut_rail (by omega) (by omega) v σ, ?_⟩
  · simp [generatedCut]; omega
  · simp [generatedCut]; omega
  · unfold generatedParts
    simp only
    apply List.Nodup.map_on _ List.nodup_range
    intro a ha b hb hab
    rw [List.mem_range] at ha hb
    exact g.position.2.2 a (by omega) b (by omega) hab

theorem pieceAssembly_ok (rail : BeamPart ℝ) (p : RailPart ℝ) (l : ℝ)
    (h : ∀ old, calculateLengthRail (p.nodes.map fun i => (t.store i).pos) old = .ok (some l)) :
    t.pieceAssembly rail p = .ok (beamAssembly { p.beam rail with l := l } (t.placed p.elements) (p.nodes.map t.position)) := by
  unfold HorizontalTrack.pieceAssembly
  rw [h]

/-- The system of a generated track with a hinge of stiffness `s`. -/
theorem Generated.hingedSystem (g : Generated hash n r d h t) (hk : 2 ≤ k) (hkm : k + 3 ≤ n * r)
    (near : 1 / 100000000 + 1 / 100000 * ((k : ℝ) * (d / r)) < d / r) (v : TrackValues) (held : Bool) (f s : ℝ)
    (hs : hingeStiffness v.rail.E v.rail.I d f none = some s) :
    t.hingedSystem v f ((k : ℝ) * (d / r)) held =
      .ok ((generatedInput t n r d v held).withHinge (generatedParts t n r d v) (generatedCut t n r k (s / 2))) := by
  have ge := g.even
  obtain ⟨A, B, p, c, q, hr, hA, hadd, -⟩ := ge.addHinge (k := k) (by omega) (by omega) near s
  have hrail := g.rail_eq.1
  have hcut := range_cut (n * r) k (by omega) (by omega)
  rw [← hrail, hr] at hcut
  obtain ⟨e1, e2⟩ := List.append_inj hcut (by simp; omega)
  simp only [List.cons.injEq] at e2
  obtain ⟨e3, e4, e5, e6⟩ := e2
  have hlenA : A.length = k - 1 := by omega
  have hcut' : generatedCut t n r k (s / 2) =
      ⟨A.map t.position, t.position p, t.position c, t.position q, B.map t.position, s / 2⟩ := by
    rw [e1, e3, e4, e5, e6]
    rfl
  have hlenB : B.length = n * r - (k + 2) := by rw [e6]; simp
  have hle : t.lengthElement = d := generated_length hash n r d h t g.track
  have hp1 := pieceAssembly_ok (t := t) v.rail ⟨A ++ [p], chainOf (A ++ [p]), none, none⟩ (d / r)
    (fun old => ge.piece_length [] (A ++ [p]) (c :: q :: B) (by simp [hr]) (by simp; omega) old)
  have hp2 := pieceAssembly_ok (t := t) v.rail ⟨[p, c], [(p, c)], none, some (s / 2)⟩ (d / r)
    (fun old => ge.piece_length A [p, c] (q :: B) (by simp [hr]) (by simp) old)
  have hp3 := pieceAssembly_ok (t := t) v.rail ⟨[c, q], [(c, q)], some (s / 2), none⟩ (d / r)
    (fun old => ge.piece_length (A ++ [p]) [c, q] B (by simp [hr]) (by simp) old)
  have hp4 := pieceAssembly_ok (t := t) v.rail ⟨q :: B, chainOf (q :: B), none, none⟩ (d / r)
    (fun old => ge.piece_length (A ++ [p, c]) (q :: B) [] (by simp [hr]) (by simp; omega) old)
  have pl1 := ge.piece_placed [] (A ++ [p]) (c :: q :: B) (by simp [hr])
  have pl2 := ge.piece_placed A [p, c] (q :: B) (by simp [hr])
  have pl3 := ge.piece_placed (A ++ [p]) [c, q] B (by simp [hr])
  have pl4 := ge.piece_placed (A ++ [p, c]) (q :: B) [] (by simp [hr])
  have hsys := g.system v held
  unfold HorizontalTrack.system at hsys
  rw [ge.length] at hsys
  simp only [bind, Except.bind] at hsys
  cases hb : bottomBoundary (fun k => (t.store k).pos 1) (t.soil.map fun e => [e.1, e.2]) with
  | error e => rw [hb] at hsys; simp at hsys
  | ok bottom =>
    rw [hb] at hsys
    simp only at hsys
    have hh : t.rail.head? = (A ++ [p]).head? := by rw [hr]; cases A <;> simp
    have hl : t.rail.getLast? = (q :: B).getLast? := by
      rw [hr]
      cases B with
      | nil => simp
      | cons b B =>
        simp only [List.getLast?_append, List.getLast?_cons_cons]
        rw [List.getLast?_eq_some_getLast (List.cons_ne_nil b B)]
        rfl
    unfold HorizontalTrack.hingedSystem HorizontalTrack.hingedRail
    rw [hle, hs]
    simp only
    rw [hadd]
    simp only [bind, Except.bind, List.mapM_cons, List.mapM_nil, hp1, hp2, hp3, hp4, pure, Except.pure, hb]
    simp only [List.head?_cons, Option.bind_some, List.getLast?_cons_cons, List.getLast?_singleton, ← hh, ← hl]
    revert hsys
    cases t.rail.head? with
    | none => simp
    | some a =>
      cases t.rail.getLast? with
      | none => simp
      | some b =>
        intro hsys
        simp only [Except.ok.injEq, generatedInput, SystemInput.withHinge, SystemInput.mk.injEq] at hsys ⊢
        obtain ⟨q1, q2, -, q4, -⟩ := hsys
        refine ⟨q1, ?_, trivial, q4, trivial, trivial, trivial, trivial⟩
        unfold TrackParts.hinged
        rw [← q2, hcut', HingeCut.pieces]
        have pl2' : t.placed [(p, c)] = horizontalElements [(t.position p, t.position c)] := pl2
        have pl3' : t.placed [(c, q)] = horizontalElements [(t.position c, t.position q)] := pl3
        simp only [RailPart.beam, springOf, Option.isNone_none, Option.isNone_some, and_self, if_true, Bool.false_eq_true, and_false,
          false_and, if_false, pl1, pl4, pl2', pl3', List.map_append, List.map_cons, List.map_nil, List.tail_cons]
        rfl

/-! ### Where the track stands -/

theorem Generated.padAt (g : Generated hash n r d h t) (v : TrackValues) (i : ℕ) (hi : i < n) :
    (generatedParts t n r d v).PadAt (i * r) := by
  have hir : i * r < n * r := Nat.mul_lt_mul_of_pos_right hi g.r_pos
  refine ⟨t.position (i * r), ?_, _, List.mem_map.mpr ⟨i, List.mem_range.mpr hi, rfl⟩, rfl⟩
  simp [generatedParts, List.getElem?_range hir]

theorem generatedCut_length (k : ℕ) (hk : 1 ≤ k) (σ : ℝ) : (generatedCut t n r k σ).A.length + 1 = k := by
  simp [generatedCut]; omega

theorem Generated.holdsPin (g : Generated hash n r d h t) (v : TrackValues) (hn : 3 ≤ n) (hk : 1 ≤ k) (hkn : k < (n - 1) * r) :
    (generatedParts t n r d v).HoldsPin k := by
  have hr := g.r_pos
  rcases le_or_gt r k with hrk | hrk
  · left
    exact ⟨0 * r, 1 * r, (n - 1) * r, by omega, by omega, hkn, g.padAt v 0 (by omega), g.padAt v 1 (by omega),
      g.padAt v (n - 1) (by omega)⟩
  · right
    exact ⟨0 * r, 1 * r, 2 * r, by omega, by omega, by omega, g.padAt v 0 (by omega), g.padAt v 1 (by omega), g.padAt v 2 (by omega)⟩

theorem Generated.hinged_solvable (g : Generated hash n r d h t) (hn : 2 ≤ n) (hk : 2 ≤ k) (hkm : k + 3 ≤ n * r)
    (v : TrackValues) (hv : v.Valid) (σ : ℝ) (hpin : σ ≤ 0 → (generatedParts t n r d v).HoldsPin k ∨ 0 < v.rail.kappa)
    (flags : ℕ → Fin 3 → Bool) :
    ∃ st, ((generatedInput t n r d v true).withHinge (generatedParts t n r d v) (generatedCut t n r k σ)).initialise flags = .ok st ∧
      Spec.UniquelySolvable st.N st.Kg := by
  have hg := g.hinged hn hk hkm v hv true σ
  obtain ⟨st, hst⟩ := C106_succeeds _ hg.mesh flags
  refine ⟨st, hst, solvable_of_definite _ _ fun U => (hg.definite ?_ (g.held v) flags st hst U).2⟩
  rw [generatedCut_length k (by omega)]
  exact hpin

/-! ### Where it does not -/

/-- An element without shear flexibility and with a pin at its second end turns freely about its first end. -/
theorem free_second (b : BeamPart ℝ) (h1 : b.s1 = .inf) (σ : ℝ) (hσ : σ ≤ 0) (h2 : b.s2 = .fin σ) (hκ : b.kappa = 0)
    (x y w z : ℝ) : Spec.ForceFree b.stiffness ![x, y, w, x, y + b.l * w, z] := by
  rw [forceFree_iff, BeamPart.stiffness, beamStiffness_eq, h1, h2]
  have hf : fixity (b.E * b.I) b.l (.fin σ) = 0 := by simp [fixity, not_lt.mpr hσ]
  have hp : timoshenkoFactor b = 0 := by simp [timoshenkoFactor, hκ]
  rw [hf, hp]
  ext i
  fin_cases i <;> simp [Matrix.mulVec, dotProduct, Fin.sum_univ_six, fixity] <;> ring

/-- The same for a pin at the first end. -/
theorem free_first (b : BeamPart ℝ) (h2 : b.s2 = .inf) (σ : ℝ) (hσ : σ ≤ 0) (h1 : b.s1 = .fin σ) (hκ : b.kappa = 0)
    (x y w z : ℝ) : Spec.ForceFree b.stiffness ![x, y, z, x, y + b.l * w, w] := by
  rw [forceFree_iff, BeamPart.stiffness, beamStiffness_eq, h1, h2]
  have hf : fixity (b.E * b.I) b.l (.fin σ) = 0 := by simp [fixity, not_lt.mpr hσ]
  have hp : timoshenkoFactor b = 0 := by simp [timoshenkoFactor, hκ]
  rw [hf, hp]
  ext i
  fin_cases i <;> simp [Matrix.mulVec, dotProduct, Fin.sum_univ_six, fixity] <;> ring

/-- The deflection and the rotation of a rail node `i` of a rail bent at the node `k`, with slopes `w` before and `w'` after it, by
`y` at the pin; the rotation at the pin is left out. -/
noncomputable def bentRail (l : ℝ) (k : ℕ) (y w w' : ℝ) (i : ℕ) : Fin 3 → ℝ :=
  ![0, y + ((i : ℝ) - k) * (l * if i ≤ k then w else w'), if i < k then w else if i = k then 0 else w']

theorem Generated.unit_values (g : Generated hash n r d h t) (i : ℕ) (hi : i + 1 < n * r) (c : Fin 3) :
    sixValues (Spec.unitField (t.position i) c : Spec.NodalField ℝ) (t.position i, t.position (i + 1)) =
      Pi.single (⟨c, by omega⟩ : Fin 6) 1 ∧
    sixValues (Spec.unitField (t.position (i + 1)) c : Spec.NodalField ℝ) (t.position i, t.position (i + 1)) =
      Pi.single (⟨c + 3, by omega⟩ : Fin 6) 1 := by
  have hne : t.position i ≠ t.position (i + 1) := fun hc => by
    have := g.position.2.2 i (by omega) (i + 1) (by omega) hc
    omega
  constructor
  · ext q
    fin_cases c <;> fin_cases q <;> simp [sixValues, Spec.unitField, hne.symm]
  · ext q
    fin_cases c <;> fin_cases q <;> simp [sixValues, Spec.unitField, hne]

theorem chain_range_map (m : ℕ) (P : ℕ → ℕ) (i : ℕ) (hi : i + 1 < m) : (P i, P (i + 1)) ∈ chainOf ((List.range m).map P) := by
  rw [chainOf_map, chainOf_range, List.map_map, List.mem_map]
  exact ⟨i, List.mem_range.mpr (by omega), rfl⟩

theorem chainOf_range' (a m : ℕ) : chainOf (List.range' a m) = (List.range' a (m - 1)).map fun i => (i, i + 1) := by
  unfold chainOf
  apply List.ext_getElem
  · simp
  · intro i h1 h2
    simp
    omega

theorem left_nodes (k : ℕ) (hk : 1 ≤ k) (σ : ℝ) :
    (generatedCut t n r k σ).A ++ [(generatedCut t n r k σ).p] = (List.range k).map t.position := by
  unfold generatedCut
  simp only
  conv_rhs => rw [show k = k - 1 + 1 by omega, List.range_succ]
  simp

theorem right_nodes (k : ℕ) (hkm : k + 2 ≤ n * r) (σ : ℝ) :
    (generatedCut t n r k σ).q :: (generatedCut t n r k σ).B = (List.range' (k + 1) (n * r - (k + 1))).map t.position := by
  unfold generatedCut
  simp only
  rw [show n * r - (k + 1) = (n * r - (k + 2)) + 1 by omega, List.range'_succ]
  simp

theorem left_mem (k : ℕ) (hk : 1 ≤ k) (σ : ℝ) (i : ℕ) (hi : i + 1 < k) :
    (t.position i, t.position (i + 1)) ∈ chainOf ((generatedCut t n r k σ).A ++ [(generatedCut t n r k σ).p]) := by
  rw [left_nodes k hk]
  exact chain_range_map _ _ i hi

theorem right_mem (k : ℕ) (hkm : k + 2 ≤ n * r) (σ : ℝ) (i : ℕ) (hi : k < i) (hi' : i + 1 < n * r) :
    (t.position i, t.position (i + 1)) ∈ chainOf ((generatedCut t n r k σ).q :: (generatedCut t n r k σ).B) := by
  rw [right_nodes k hkm]
  have := getElem_chain ((List.range' (k + 1) (n * r - (k + 1))).map t.position) (i - (k + 1)) (by simp; omega)
  simp only [List.getElem_map, List.getElem_range', one_mul] at this
  rwa [show k + 1 + (i - (k + 1)) = i by omega, show k + 1 + (i - (k + 1) + 1) = i + 1 by omega] at this

/-- The rail nodes have stiffness; the node of the hinge at least in y. -/
theorem Generated.hinged_stiff (g : Generated hash n r d h t) (hn : 2 ≤ n) (hk : 2 ≤ k) (hkm : k + 3 ≤ n * r)
    (v : TrackValues) (hv : v.Valid) (hp : RailPresent { v.rail with l := d / r }) (σ : ℝ) (i : ℕ) (hi : i < n * r) (hik : i ≠ k)
    (c : Fin 3) :
    1 / 10 ^ 8 < Spec.systemWork AssemblyPart.stiffness ((generatedParts t n r d v).hinged (generatedCut t n r k σ))
      (Spec.unitField (t.position i) c) (Spec.unitField (t.position i) c) := by
  have hg := g.hinged hn hk hkm v hv true σ
  have hb := hv.beam g.l_pos
  set u : Spec.NodalField ℝ := Spec.unitField (t.position i) c with hu
  rw [hinged_work AssemblyPart.stiffness _ _ hg.inner BeamPart.stiffness (fun _ _ _ => rfl)]
  have n1 := list_sum_nonneg (chainOf ((generatedCut t n r k σ).A ++ [(generatedCut t n r k σ).p]))
    (fun e => Spec.energy (generatedParts t n r d v).beam.stiffness (sixValues u e)) fun e _ => C19_beam_psd _ hb _
  have n4 := list_sum_nonneg (chainOf ((generatedCut t n r k σ).q :: (generatedCut t n r k σ).B))
    (fun e => Spec.energy (generatedParts t n r d v).beam.stiffness (sixValues u e)) fun e _ => C19_beam_psd _ hb _
  have n2 := C19_beam_psd _ (hg.valid .inf (.fin σ)) (sixValues u ((generatedCut t n r k σ).p, (generatedCut t n r k σ).c))
  have n3 := C19_beam_psd _ (hg.valid (.fin σ) .inf) (sixValues u ((generatedCut t n r k σ).c, (generatedCut t n r k σ).q))
  have n5 := hg.rest_nonneg u
  have key : 1 / 10 ^ 8 < ((chainOf ((generatedCut t n r k σ).A ++ [(generatedCut t n r k σ).p])).map
        fun e => Spec.energy (generatedParts t n r d v).beam.stiffness (sixValues u e)).sum ∨
      1 / 10 ^ 8 < ((chainOf ((generatedCut t n r k σ).q :: (generatedCut t n r k σ).B)).map
        fun e => Spec.energy (generatedParts t n r d v).beam.stiffness (sixValues u e)).sum := by
    rcases lt_or_gt_of_ne hik with hlt | hgt
    · left
      by_cases h1 : i + 1 < k
      · have := le_sum_of_mem _ (fun e => Spec.energy (generatedParts t n r d v).beam.stiffness (sixValues u e))
          (fun e _ => C19_beam_psd _ hb _) _ (left_mem (n := n) (r := r) (t := t) k (by omega) σ i h1)
        simp only [hu, (g.unit_values i (by omega) c).1, energy_unit] at this
        exact lt_of_lt_of_le (hp _).2 this
      · obtain ⟨j, rfl⟩ : ∃ j, i = j + 1 := ⟨i - 1, by omega⟩
        have := le_sum_of_mem _ (fun e => Spec.energy (generatedParts t n r d v).beam.stiffness (sixValues u e))
          (fun e _ => C19_beam_psd _ hb _) _ (left_mem (n := n) (r := r) (t := t) k (by omega) σ j hlt)
        simp only [hu, (g.unit_values j (by omega) c).2, energy_unit] at this
        exact lt_of_lt_of_le (hp _).2 this
    · right
      by_cases h1 : i + 1 < n * r
      · have := le_sum_of_mem _ (fun e => Spec.energy (generatedParts t n r d v).beam.stiffness (sixValues u e))
          (fun e _ => C19_beam_psd _ hb _) _ (right_mem (n := n) (r := r) (t := t) k (by omega) σ i hgt h1)
        simp only [hu, (g.unit_values i (by omega) c).1, energy_unit] at this
        exact lt_of_lt_of_le (hp _).2 this
      · obtain ⟨j, rfl⟩ : ∃ j, i = j + 1 := ⟨i - 1, by omega⟩
        have := le_sum_of_mem _ (fun e => Spec.energy (generatedParts t n r d v).beam.stiffness (sixValues u e))
          (fun e _ => C19_beam_psd _ hb _) _ (right_mem (n := n) (r := r) (t := t) k (by omega) σ j (by omega) hi)
        simp only [hu, (g.unit_values j (by omega) c).2, energy_unit] at this
        exact lt_of_lt_of_le (hp _).2 this
  change 1 / 10 ^ 8 < ((chainOf ((generatedCut t n r k σ).A ++ [(generatedCut t n r k σ).p])).map
      fun e => Spec.energy (generatedParts t n r d v).beam.stiffness (sixValues u e)).sum +
    (Spec.energy (BeamPart.stiffness { (generatedParts t n r d v).beam with s1 := .inf, s2 := .fin σ }) (sixValues u _) +
    (Spec.energy (BeamPart.stiffness { (generatedParts t n r d v).beam with s1 := .fin σ, s2 := .inf }) (sixValues u _) +
    (((chainOf ((generatedCut t n r k σ).q :: (generatedCut t n r k σ).B)).map
      fun e => Spec.energy (generatedParts t n r d v).beam.stiffness (sixValues u e)).sum +
      Spec.systemWork AssemblyPart.stiffness (generatedParts t n r d v).parts.tail u u)))
  rcases key with key | key <;> linarith

/-- The node of a pin has stiffness in y. -/
theorem Generated.pin_stiff (g : Generated hash n r d h t) (hn : 2 ≤ n) (hk : 2 ≤ k) (hkm : k + 3 ≤ n * r)
    (v : TrackValues) (hv : v.Valid) (hκ : v.rail.kappa = 0) (hp : 1 / 10 ^ 8 < 3 * v.rail.E * v.rail.I / (d / r) ^ 3) (σ : ℝ)
    (hσ : σ ≤ 0) :
    1 / 10 ^ 8 < Spec.systemWork AssemblyPart.stiffness ((generatedParts t n r d v).hinged (generatedCut t n r k σ))
      (Spec.unitField (t.position k) 1) (Spec.unitField (t.position k) 1) := by
  have hg := g.hinged hn hk hkm v hv true σ
  have hb := hv.beam g.l_pos
  set u : Spec.NodalField ℝ := Spec.unitField (t.position k) 1 with hu
  rw [hinged_work AssemblyPart.stiffness _ _ hg.inner BeamPart.stiffness (fun _ _ _ => rfl)]
  have n1 := list_sum_nonneg (chainOf ((generatedCut t n r k σ).A ++ [(generatedCut t n r k σ).p]))
    (fun e => Spec.energy (generatedParts t n r d v).beam.stiffness (sixValues u e)) fun e _ => C19_beam_psd _ hb _
  have n4 := list_sum_nonneg (chainOf ((generatedCut t n r k σ).q :: (generatedCut t n r k σ).B))
    (fun e => Spec.energy (generatedParts t n r d v).beam.stiffness (sixValues u e)) fun e _ => C19_beam_psd _ hb _
  have n3 := C19_beam_psd _ (hg.valid (.fin σ) .inf) (sixValues u ((generatedCut t n r k σ).c, (generatedCut t n r k σ).q))
  have n5 := hg.rest_nonneg u
  have n2 : Spec.energy (BeamPart.stiffness { (generatedParts t n r d v).beam with s1 := .inf, s2 := .fin σ })
      (sixValues u ((generatedCut t n r k σ).p, (generatedCut t n r k σ).c)) = 3 * v.rail.E * v.rail.I / (d / r) ^ 3 := by
    obtain ⟨j, rfl⟩ : ∃ j, k = j + 1 := ⟨k - 1, by omega⟩
    have e := (g.unit_values j (by omega) 1).2
    show Spec.energy _ (sixValues u (t.position (j + 1 - 1), t.position (j + 1))) = _
    rw [Nat.add_sub_cancel, hu, e, energy_unit, BeamPart.stiffness, beamStiffness_eq]
    have hf : fixity (v.rail.E * v.rail.I) (d / r) (.fin σ) = 0 := by simp [fixity, not_lt.mpr hσ]
    have hp : timoshenkoFactor { v.rail with l := d / r, s1 := .inf, s2 := .fin σ } = 0 := by simp [timoshenkoFactor, hκ]
    simp only [generatedParts, hf, hp]
    simp [fixity]
    ring
  change 1 / 10 ^ 8 < ((chainOf ((generatedCut t n r k σ).A ++ [(generatedCut t n r k σ).p])).map
      fun e => Spec.energy (generatedParts t n r d v).beam.stiffness (sixValues u e)).sum +
    (Spec.energy (BeamPart.stiffness { (generatedParts t n r d v).beam with s1 := .inf, s2 := .fin σ }) (sixValues u _) +
    (Spec.energy (BeamPart.stiffness { (generatedParts t n r d v).beam with s1 := .fin σ, s2 := .inf }) (sixValues u _) +
    (((chainOf ((generatedCut t n r k σ).q :: (generatedCut t n r k σ).B)).map
      fun e => Spec.energy (generatedParts t n r d v).beam.stiffness (sixValues u e)).sum +
      Spec.systemWork AssemblyPart.stiffness (generatedParts t n r d v).parts.tail u u)))
  linarith

theorem HingedStanding.rest_work {inp : SystemInput ℝ} {T : TrackParts ℝ} {H : HingeCut ℝ} (h : HingedStanding inp T H)
    (w u : Spec.NodalField ℝ) :
    Spec.systemWork AssemblyPart.stiffness T.parts.tail w u =
      (T.pads.map fun e => T.pad.stiffness * ((w e.2 1 - w e.1 1) * (u e.2 1 - u e.1 1))).sum +
      (T.soils.map fun s => (s.2.1.map fun e => s.1.stiffness * ((w e.2 1 - w e.1 1) * (u e.2 1 - u e.1 1))).sum).sum := by
  have h1 := track_stiffness_work T h.standing.nonEmpty w u
  rw [rail_work AssemblyPart.stiffness T h.standing.nonEmpty.rail BeamPart.stiffness (fun _ _ _ => rfl)] at h1
  linarith

/-- A rail bent at a pin that moves no pad makes the static system singular. -/
theorem Generated.hinged_singular (g : Generated hash n r d h t) (hn : 2 ≤ n) (hk : 2 ≤ k) (hkm : k + 3 ≤ n * r)
    (v : TrackValues) (hv : v.Valid) (hm : v.NonNeg) (hp : RailPresent { v.rail with l := d / r }) (hκ : v.rail.kappa = 0)
    (σ : ℝ) (hσ : σ ≤ 0) (st : TrimState ℝ)
    (hst : ((generatedInput t n r d v true).withHinge (generatedParts t n r d v) (generatedCut t n r k σ)).initialise freshFlags =
      .ok st) (y w w' : ℝ) (hpad : ∀ i < n, bentRail (d / r) k y w w' (i * r) 1 = 0)
    (hy : y ≠ 0 → 1 / 10 ^ 8 < 3 * v.rail.E * v.rail.I / (d / r) ^ 3) (hne : w' ≠ 0) : ¬ Spec.UniquelySolvable st.N st.Kg := by
  obtain ⟨hlt, hsurj, hinj⟩ := g.position
  have hr := g.r_pos
  have hir : ∀ i < n, i * r < n * r := fun i hi => Nat.mul_lt_mul_of_pos_right hi hr
  have hg := g.hinged hn hk hkm v hv true σ
  have hl := g.l_pos
  set f := bentRail (d / r) k y w w' with hf
  have rigid : ∀ i, (i + 1 < k ∨ k < i) → Spec.ForceFree (BeamPart.stiffness { v.rail with l := d / r })
      ![f i 0, f i 1, f i 2, f (i + 1) 0, f (i + 1) 1, f (i + 1) 2] := by
    intro i hi
    have h0 := C18_rigid_rotation_partial { v.rail with l := d / r } (hv.beam hl) (Or.inr ⟨hv.s1, hv.s2⟩) (f i 2)
    rcases eq_or_ne (f i 2) 0 with hz | hz
    · have h1 : Spec.ForceFree (BeamPart.stiffness { v.rail with l := d / r }) ![0, f i 1, 0, 0, f i 1, 0] := by
        rw [forceFree_iff, BeamPart.stiffness, beamStiffness_eq]
        ext q
        fin_cases q <;> simp [Matrix.mulVec, dotProduct, Fin.sum_univ_six] <;> ring
      convert h1 using 1
      ext q
      rcases hi with hi | hi
      · have hz' : w = 0 := by simpa [hf, bentRail, show i < k by omega] using hz
        fin_cases q <;> simp [hf, bentRail, show i < k by omega, show i ≤ k by omega, hi, hi.le, hz']
      · have hz' : w' = 0 := by simpa [hf, bentRail, show ¬ i < k by omega, show i ≠ k by omega] using hz
        exact absurd hz' hne
    · have h1 := h0 (- (f i 1 / f i 2)) 0
      convert h1 using 1
      ext q
      rcases hi with hi | hi
      · have hz' : w ≠ 0 := by simpa [hf, bentRail, show i < k by omega] using hz
        fin_cases q <;> simp [Spec.rotationAbout, hf, bentRail, show i < k by omega, show i ≤ k by omega, hi, hi.le] <;>
          field_simp <;> ring
      · fin_cases q <;> simp [Spec.rotationAbout, hf, bentRail, show ¬ i < k by omega, show ¬ i ≤ k by omega, show i ≠ k by omega,
          show ¬ i + 1 < k by omega, show ¬ i + 1 ≤ k by omega, show i + 1 ≠ k by omega] <;> field_simp <;> ring
  have values : ∀ i, i + 1 < n * r → sixValues (railField t.position (n * r) f) (t.position i, t.position (i + 1)) =
      ![f i 0, f i 1, f i 2, f (i + 1) 0, f (i + 1) 1, f (i + 1) 2] := by
    intro i hi
    simp only [sixValues, g.railField_rail f i (by omega), g.railField_rail f (i + 1) (by omega)]
  refine singular_of_idle _ freshFlags hg.mesh hg.aligned st hst (railField t.position (n * r) f) ?_ ?_ ?_
  · intro i hi c hc
    obtain ⟨j, hj, rfl⟩ := hsurj i hi
    by_cases h1 : j < n * r
    · rw [g.railField_rail f j h1 c]
      rw [C106_unknowns_partial _ hg.mesh hg.aligned st hst _ (hlt j hj) c] at hc
      change Spec.Supported (generatedSupports t n r true) _ _ ∨
        |Spec.systemWork AssemblyPart.mass ((generatedParts t n r d v).hinged (generatedCut t n r k σ)) _ _| ≤ _ ∨
        |Spec.systemWork AssemblyPart.stiffness ((generatedParts t n r d v).hinged (generatedCut t n r k σ)) _ _| ≤ _ at hc
      rw [g.supported true j hj c, hinged_work_same AssemblyPart.mass _ _ hg.inner hg.rail BeamPart.massMatrix (fun _ _ _ => rfl)
        massMatrix_springs] at hc
      have w1 := (g.rail_work v hv hm hp j h1 c).1
      have a1 := le_abs_self (Spec.systemWork AssemblyPart.mass (generatedParts t n r d v).parts
          (Spec.unitField (t.position j) c) (Spec.unitField (t.position j) c))
      have a2 := le_abs_self (Spec.systemWork AssemblyPart.stiffness ((generatedParts t n r d v).hinged (generatedCut t n r k σ))
          (Spec.unitField (t.position j) c) (Spec.unitField (t.position j) c))
      rcases hc with (hx | ⟨hx, hy', rfl⟩) | hx | hx
      · omega
      · simp [hf, bentRail]
      · linarith
      · by_cases hjk : j = k
        · subst hjk
          fin_cases c
          · simp [hf, bentRail]
          · by_cases hy0 : y = 0
            · simp [hf, bentRail, hy0]
            · have w2 := g.pin_stiff hn hk hkm v hv hκ (hy hy0) σ hσ
              simp only [Fin.mk_one] at hx a2
              linarith
          · simp [hf, bentRail]
        · have w2 := g.hinged_stiff hn hk hkm v hv hp σ j h1 hjk c
          linarith
    · exact g.railField_other f j (by omega) hj c
  · refine ⟨t.position (k + 1), hlt _ (by omega), 2, ?_⟩
    rw [g.railField_rail f (k + 1) (by omega)]
    simpa [hf, bentRail] using hne
  · intro z
    show Spec.systemWork AssemblyPart.stiffness ((generatedParts t n r d v).hinged (generatedCut t n r k σ)) z _ = 0
    rw [hinged_work AssemblyPart.stiffness _ _ hg.inner BeamPart.stiffness (fun _ _ _ => rfl), hg.rest_work]
    have e1 : ((chainOf ((generatedCut t n r k σ).A ++ [(generatedCut t n r k σ).p])).map fun e =>
        bilinear (generatedParts t n r d v).beam.stiffness (sixValues z e) (sixValues (railField t.position (n * r) f) e)).sum =
        0 := by
      apply List.sum_eq_zero
      intro x hx
      rw [left_nodes k (by omega), chainOf_map, chainOf_range, List.map_map, List.map_map, List.mem_map] at hx
      obtain ⟨i, hi, rfl⟩ := hx
      rw [List.mem_range] at hi
      apply bilinear_forceFree
      simp only [Function.comp_apply]
      rw [values i (by omega)]
      exact rigid i (Or.inl (by omega))
    have e4 : ((chainOf ((generatedCut t n r k σ).q :: (generatedCut t n r k σ).B)).map fun e =>
        bilinear (generatedParts t n r d v).beam.stiffness (sixValues z e) (sixValues (railField t.position (n * r) f) e)).sum =
        0 := by
      apply List.sum_eq_zero
      intro x hx
      rw [right_nodes k (by omega), chainOf_map, chainOf_range', List.map_map, List.map_map, List.mem_map] at hx
      obtain ⟨i, hi, rfl⟩ := hx
      rw [List.mem_range'] at hi
      obtain ⟨i', hi', rfl⟩ := hi
      apply bilinear_forceFree
      simp only [Function.comp_apply, one_mul]
      rw [values _ (by omega)]
      exact rigid _ (Or.inr (by omega))
    have e2 : bilinear (BeamPart.stiffness { (generatedParts t n r d v).beam with s1 := .inf, s2 := .fin σ })
        (sixValues z (t.position (k - 1), t.position k)) (sixValues (railField t.position (n * r) f) (t.position (k - 1), t.position k)) =
        0 := by
      apply bilinear_forceFree
      obtain ⟨j, rfl⟩ : ∃ j, k = j + 1 := ⟨k - 1, by omega⟩
      rw [Nat.add_sub_cancel, values j (by omega)]
      have := free_second { (generatedParts t n r d v).beam with s1 := .inf, s2 := .fin σ } rfl σ hσ rfl hκ 0 (f j 1) w 0
      convert this using 1
      ext q
      fin_cases q <;> simp [hf, bentRail, generatedParts]
    have e3 : bilinear (BeamPart.stiffness { (generatedParts t n r d v).beam with s1 := .fin σ, s2 := .inf })
        (sixValues z (t.position k, t.position (k + 1))) (sixValues (railField t.position (n * r) f) (t.position k, t.position (k + 1))) =
        0 := by
      apply bilinear_forceFree
      rw [values k (by omega)]
      have := free_first { (generatedParts t n r d v).beam with s1 := .fin σ, s2 := .inf } rfl σ hσ rfl hκ 0 (f k 1) w' 0
      convert this using 1
      ext q
      fin_cases q <;> simp [hf, bentRail, generatedParts]
    have e5 : ((generatedParts t n r d v).pads.map fun e => (generatedParts t n r d v).pad.stiffness *
        ((z e.2 1 - z e.1 1) * (railField t.position (n * r) f e.2 1 - railField t.position (n * r) f e.1 1))).sum = 0 := by
      apply List.sum_eq_zero
      intro x hx
      simp only [generatedParts, List.map_map, List.mem_map, List.mem_range, Function.comp_apply] at hx
      obtain ⟨i, hi, rfl⟩ := hx
      rw [g.railField_rail f _ (hir i hi), g.railField_other f _ (by omega) (by omega), hpad i hi]
      ring
    have e6 : ((generatedParts t n r d v).soils.map fun s => (s.2.1.map fun e => s.1.stiffness *
        ((z e.2 1 - z e.1 1) * (railField t.position (n * r) f e.2 1 - railField t.position (n * r) f e.1 1))).sum).sum =
        0 := by
      apply List.sum_eq_zero
      intro x hx
      rw [List.mem_map] at hx
      obtain ⟨s, hs, rfl⟩ := hx
      simp only [generatedParts, List.mem_singleton] at hs
      subst hs
      apply List.sum_eq_zero
      intro x hx
      simp only [List.map_map, List.mem_map, List.mem_range, Function.comp_apply] at hx
      obtain ⟨i, hi, rfl⟩ := hx
      rw [g.railField_other f _ (by omega) (by omega), g.railField_other f _ (by omega) (by omega)]
      ring
    rw [e1, e4, e5, e6]
    change 0 + (bilinear (BeamPart.stiffness { (generatedParts t n r d v).beam with s1 := .inf, s2 := .fin σ })
        (sixValues z (t.position (k - 1), t.position k)) (sixValues (railField t.position (n * r) f) (t.position (k - 1), t.position k)) +
      (bilinear (BeamPart.stiffness { (generatedParts t n r d v).beam with s1 := .fin σ, s2 := .inf })
        (sixValues z (t.position k, t.position (k + 1))) (sixValues (railField t.position (n * r) f) (t.position k, t.position (k + 1))) +
        (0 + (0 + 0)))) = 0
    rw [e2, e3]
    ring

theorem Generated.nonneg_work (g : Generated hash n r d h t) (v : TrackValues) (hv : v.Valid) (hm : v.NonNeg)
    (u : Spec.NodalField ℝ) :
    0 ≤ Spec.systemWork AssemblyPart.mass (generatedParts t n r d v).parts u u ∧
      0 ≤ Spec.systemWork AssemblyPart.damping (generatedParts t n r d v).parts u u := by
  constructor
  · rw [track_mass _ (g.nonEmpty v)]
    refine add_nonneg (add_nonneg (add_nonneg ?_ ?_) ?_) ?_
    · exact list_sum_nonneg _ _ fun e _ => beam_mass_nonneg _ (hv.beam g.l_pos) _
    · exact rodWork_nonneg _ (rodMass_option hm.padMass) _ _
    · exact list_sum_nonneg _ _ fun m _ => mul_nonneg hm.sleeper (sq_nonneg _)
    · refine list_sum_nonneg _ _ fun s hs => ?_
      simp only [generatedParts, List.mem_singleton] at hs
      subst hs
      exact rodWork_nonneg _ (rodMass_option hm.soilMass) _ _
  · rw [track_damping _ (g.nonEmpty v)]
    refine add_nonneg ?_ ?_
    · exact rodWork_nonneg _ (rodDamping_option hm.padDamping) _ _
    · refine list_sum_nonneg _ _ fun s hs => ?_
      simp only [generatedParts, List.mem_singleton] at hs
      subst hs
      exact rodWork_nonneg _ (rodDamping_option hm.soilDamping) _ _

/-- The equations of a step of a track with a hinge, if its static equations are solvable because of its energy. -/
theorem Generated.hinged_steps (g : Generated hash n r d h t) (hn : 2 ≤ n) (hk : 2 ≤ k) (hkm : k + 3 ≤ n * r)
    (v : TrackValues) (hv : v.Valid) (hm : v.NonNeg) (hR : v.Rayleigh) (σ : ℝ)
    (hpin : σ ≤ 0 → (generatedParts t n r d v).HoldsPin k ∨ 0 < v.rail.kappa) (flags : ℕ → Fin 3 → Bool)
    (a b : ℝ) (ha : 0 ≤ a) (hb : 0 ≤ b) :
    ∃ st, ((generatedInput t n r d v true).withHinge (generatedParts t n r d v) (generatedCut t n r k σ)).initialise flags = .ok st ∧
      Spec.UniquelySolvable st.N fun i j => st.Kg i j + a * st.C i j + b * st.M i j := by
  have hg := g.hinged hn hk hkm v hv true σ
  obtain ⟨st, hst⟩ := C106_succeeds _ hg.mesh flags
  refine ⟨st, hst, solvable_of_definite _ _ fun U hU => ?_⟩
  obtain ⟨k0, k1⟩ := hg.definite (by rw [generatedCut_length k (by omega)]; exact hpin) (g.held v) flags st hst U
  have hrep := fieldOf_represents ((generatedInput t n r d v true).withHinge (generatedParts t n r d v)
    (generatedCut t n r k σ)).n st.nodes U
  obtain ⟨-, wM, wC⟩ := C106_work_partial _ flags hg.mesh hg.aligned st hst U U _ _ hrep hrep
  obtain ⟨m0', d0'⟩ := g.nonneg_work v hv hm (fieldOf st.nodes U)
  have m0 : 0 ≤ matrixWork st.N st.M U U := by
    rw [wM]
    exact le_of_le_of_eq m0' (hinged_work_same AssemblyPart.mass _ _ hg.inner hg.rail BeamPart.massMatrix (fun _ _ _ => rfl)
      massMatrix_springs _ _).symm
  have d0 : 0 ≤ Spec.systemWork AssemblyPart.damping ((generatedInput t n r d v true).withHinge (generatedParts t n r d v)
      (generatedCut t n r k σ)).parts (fieldOf st.nodes U) (fieldOf st.nodes U) := by
    exact le_of_le_of_eq d0' (hinged_work_same AssemblyPart.damping _ _ hg.inner hg.rail (fun _ => 0) (fun _ _ _ => rfl)
      (fun _ _ _ => rfl) _ _).symm
  have r0 : 0 ≤ (rayleighPair ((generatedInput t n r d v true).withHinge (generatedParts t n r d v)
      (generatedCut t n r k σ))).1 ∧ 0 ≤ (rayleighPair ((generatedInput t n r d v true).withHinge (generatedParts t n r d v)
      (generatedCut t n r k σ))).2 := by
    unfold rayleighPair
    split_ifs with hi
    · have h1 := hR.ratio hi
      have h2 := hR.w1 hi
      have h3 := hR.w2 hi
      constructor
      · show 0 ≤ 2 * v.ratio * v.w1 * v.w2 / (v.w1 + v.w2)
        positivity
      · show 0 ≤ 2 * v.ratio / (v.w1 + v.w2)
        positivity
    · exact ⟨le_refl _, le_refl _⟩
  have c0 : 0 ≤ matrixWork st.N st.C U U := by
    rw [wC]
    exact add_nonneg (add_nonneg d0 (mul_nonneg r0.1 m0)) (mul_nonneg r0.2 k0)
  rw [matrixWork_smul_add] at hU
  have := mul_nonneg ha c0
  have := mul_nonneg hb m0
  exact k1 (by linarith)

end generated

theorem hingeStiffness_pos {E I l f : ℝ} (hE : 0 < E) (hI : 0 < I) (hl : 0 < l) (h0 : 0 < f) (h1 : f ≤ 1) :
    ∃ s, hingeStiffness E I l f none = some s ∧ 0 < s := by
  unfold hingeStiffness
  rcases lt_or_eq_of_le h1 with h | rfl
  · rw [if_pos ⟨h0.le, h⟩]
    have : 0 < 1 - f := by linarith
    exact ⟨_, rfl, by positivity⟩
  · rw [if_neg (by simp), if_pos (by norm_num [npIsCloseOne])]
    exact ⟨_, rfl, by norm_num⟩

theorem hingeStiffness_zero (E I l : ℝ) : hingeStiffness E I l 0 none = some 0 := by
  unfold hingeStiffness
  rw [if_pos (by norm_num)]
  simp

/-! ### C141 -/

/-- **C141** A generated track of at least two sleepers on its boundaries, with a hinge of any fixity factor in `(0, 1]` at a rail node
with at least two rail nodes on either side, has exactly one static equilibrium under every load, and the equations
`(K + a C + b M) u = f` of a time step, `a, b ≥ 0`, have exactly one solution. -/
theorem C141_semi_rigid (hash : (Fin 3 → ℝ) → H) (n r : ℕ) (hn : 2 ≤ n) (hr : 0 < r) (d h : ℝ)
    (hd : 1 / 1000000000 < d / r) (hh : 1 / 1000000000 < h) (t : HorizontalTrack ℝ)
    (ht : createHorizontalTrack hash n r d h = .ok t) (v : TrackValues) (hv : v.Valid) (hm : v.NonNeg) (hR : v.Rayleigh)
    (k : ℕ) (hk : 2 ≤ k) (hkm : k + 3 ≤ n * r) (near : 1 / 100000000 + 1 / 100000 * ((k : ℝ) * (d / r)) < d / r)
    (f : ℝ) (hf : 0 < f) (hf1 : f ≤ 1) (flags : ℕ → Fin 3 → Bool) :
    ∃ inp st, t.hingedSystem v f (k * (d / r)) true = .ok inp ∧ inp.initialise flags = .ok st ∧
      Spec.UniquelySolvable st.N st.Kg ∧
      ∀ a b : ℝ, 0 ≤ a → 0 ≤ b → Spec.UniquelySolvable st.N fun i j => st.Kg i j + a * st.C i j + b * st.M i j := by
  have g : Generated hash n r d h t := ⟨by nlinarith, hd, hh, ht⟩
  have hd0 : 0 < d := by
    have := mul_pos g.l_pos (Nat.cast_pos (α := ℝ).mpr hr)
    rwa [div_mul_cancel₀ _ (by positivity)] at this
  obtain ⟨s, hs, hs0⟩ := hingeStiffness_pos hv.E hv.I hd0 hf hf1
  have hpin : s / 2 ≤ 0 → (generatedParts t n r d v).HoldsPin k ∨ 0 < v.rail.kappa := fun hc => by linarith
  obtain ⟨st, hst, hu⟩ := g.hinged_solvable hn hk hkm v hv (s / 2) hpin flags
  refine ⟨_, st, g.hingedSystem hk hkm near v true f s hs, hst, hu, fun a b ha hb => ?_⟩
  obtain ⟨st', hst', hu'⟩ := g.hinged_steps hn hk hkm v hv hm hR (s / 2) hpin flags a b ha hb
  rw [hst] at hst'
  cases hst'
  exact hu'

/-- **C141** With a free pin (fixity factor 0) in a rail without shear flexibility such a track has one static equilibrium exactly if
it is not a mechanism: three or more sleepers, and a sleeper behind the pin. -/
theorem C141_pinned_iff (hash : (Fin 3 → ℝ) → H) (n r : ℕ) (hn : 2 ≤ n) (d h : ℝ)
    (hd : 1 / 1000000000 < d / r) (hh : 1 / 1000000000 < h) (t : HorizontalTrack ℝ)
    (ht : createHorizontalTrack hash n r d h = .ok t) (v : TrackValues) (hv : v.Valid) (hm : v.NonNeg)
    (hp : RailPresent { v.rail with l := d / r }) (hp' : 1 / 10 ^ 8 < 3 * v.rail.E * v.rail.I / (d / r) ^ 3)
    (hκ : v.rail.kappa = 0) (k : ℕ) (hk : 2 ≤ k) (hkm : k + 3 ≤ n * r)
    (near : 1 / 100000000 + 1 / 100000 * ((k : ℝ) * (d / r)) < d / r) :
    ∃ inp st, t.hingedSystem v 0 (k * (d / r)) true = .ok inp ∧ inp.initialise freshFlags = .ok st ∧
      (Spec.UniquelySolvable st.N st.Kg ↔ 3 ≤ n ∧ k < (n - 1) * r) := by
  have g : Generated hash n r d h t := ⟨by nlinarith, hd, hh, ht⟩
  have hsys := g.hingedSystem hk hkm near v true 0 0 (hingeStiffness_zero _ _ _)
  obtain ⟨st, hst⟩ := C106_succeeds _ (g.hinged hn hk hkm v hv true (0 / 2)).mesh freshFlags
  refine ⟨_, st, hsys, hst, ?_, ?_⟩
  · intro hu
    by_contra hc
    by_cases h1 : k < (n - 1) * r
    · obtain rfl : n = 2 := by
        by_contra hne
        exact hc ⟨by omega, h1⟩
      have h2 : (k : ℝ) < r := by
        have : k < r := by simpa using h1
        exact_mod_cast this
      refine g.hinged_singular hn hk hkm v hv hm hp hκ (0 / 2) (by norm_num) st hst ((k : ℝ) * (r - k) * (d / r)) (r - k) (-k) ?_
        (fun _ => hp') (by simp; omega) hu
      intro i hi
      have hkr : k < r := by simpa using h1
      interval_cases i
      · simp [bentRail]; ring
      · simp [bentRail, not_le.mpr hkr]; ring
    · refine g.hinged_singular hn hk hkm v hv hm hp hκ (0 / 2) (by norm_num) st hst 0 0 1 ?_ (fun h => absurd rfl h) one_ne_zero hu
      intro i hi
      have : i * r ≤ k := le_trans (Nat.mul_le_mul_right r (by omega : i ≤ n - 1)) (not_lt.mp h1)
      simp [bentRail, this]
  · rintro ⟨h3, hlt⟩
    obtain ⟨st', hst', hu⟩ := g.hinged_solvable hn hk hkm v hv (0 / 2) (fun _ => Or.inl (g.holdsPin v h3 (by omega) hlt)) freshFlags
    rw [hst] at hst'
    cases hst'
    exact hu

/-- **C141** With a free pin such a track has one solution for every load and every time step if there are three sleepers and a
sleeper behind the pin. -/
theorem C141_pinned_stands (hash : (Fin 3 → ℝ) → H) (n r : ℕ) (hn : 3 ≤ n) (d h : ℝ)
    (hd : 1 / 1000000000 < d / r) (hh : 1 / 1000000000 < h) (t : HorizontalTrack ℝ)
    (ht : createHorizontalTrack hash n r d h = .ok t) (v : TrackValues) (hv : v.Valid) (hm : v.NonNeg) (hR : v.Rayleigh)
    (k : ℕ) (hk : 2 ≤ k) (hkm : k + 3 ≤ n * r) (hkn : k < (n - 1) * r)
    (near : 1 / 100000000 + 1 / 100000 * ((k : ℝ) * (d / r)) < d / r) (flags : ℕ → Fin 3 → Bool) :
    ∃ inp st, t.hingedSystem v 0 (k * (d / r)) true = .ok inp ∧ inp.initialise flags = .ok st ∧
      Spec.UniquelySolvable st.N st.Kg ∧
      ∀ a b : ℝ, 0 ≤ a → 0 ≤ b → Spec.UniquelySolvable st.N fun i j => st.Kg i j + a * st.C i j + b * st.M i j := by
  have g : Generated hash n r d h t := ⟨by nlinarith, hd, hh, ht⟩
  have hpin : (0 : ℝ) / 2 ≤ 0 → (generatedParts t n r d v).HoldsPin k ∨ 0 < v.rail.kappa :=
    fun _ => Or.inl (g.holdsPin v hn (by omega) hkn)
  obtain ⟨st, hst, hu⟩ := g.hinged_solvable (by omega) hk hkm v hv (0 / 2) hpin flags
  refine ⟨_, st, g.hingedSystem hk hkm near v true 0 0 (hingeStiffness_zero _ _ _), hst, hu, fun a b ha hb => ?_⟩
  obtain ⟨st', hst', hu'⟩ := g.hinged_steps (by omega) hk hkm v hv hm hR (0 / 2) hpin flags a b ha hb
  rw [hst] at hst'
  cases hst'
  exact hu'

/-- **C141** (violated) With shear flexibility the computed track stands although it is a mechanism: a rail end behind a free pin, with
no sleeper under it, has exactly one static equilibrium under every load. An element with a pin resists being turned about it
(`C18_violated`). -/
theorem C141_mechanism_violated (hash : (Fin 3 → ℝ) → H) (n r : ℕ) (hn : 2 ≤ n) (d h : ℝ)
    (hd : 1 / 1000000000 < d / r) (hh : 1 / 1000000000 < h) (t : HorizontalTrack ℝ)
    (ht : createHorizontalTrack hash n r d h = .ok t) (v : TrackValues) (hv : v.Valid) (hκ : 0 < v.rail.kappa)
    (k : ℕ) (hk : 2 ≤ k) (hkm : k + 3 ≤ n * r) (_overhang : (n - 1) * r ≤ k)
    (near : 1 / 100000000 + 1 / 100000 * ((k : ℝ) * (d / r)) < d / r) (flags : ℕ → Fin 3 → Bool) :
    ∃ inp st, t.hingedSystem v 0 (k * (d / r)) true = .ok inp ∧ inp.initialise flags = .ok st ∧
      Spec.UniquelySolvable st.N st.Kg := by
  have g : Generated hash n r d h t := ⟨by nlinarith, hd, hh, ht⟩
  obtain ⟨st, hst, hu⟩ := g.hinged_solvable hn hk hkm v hv (0 / 2) (fun _ => Or.inr hκ) flags
  exact ⟨_, st, g.hingedSystem hk hkm near v true 0 0 (hingeStiffness_zero _ _ _), hst, hu⟩

/-- The example track with a rail without shear flexibility. -/
noncomputable def stiffTrack : TrackValues := { exampleTrack with rail := { exampleTrack.rail with kappa := 0 } }

theorem stiffTrack_valid : stiffTrack.Valid := by
  constructor <;> norm_num [stiffTrack, exampleTrack]

theorem stiffTrack_nonNeg : stiffTrack.NonNeg := by
  have := exampleTrack_nonNeg
  constructor
  · exact this.padMass
  · exact this.soilMass
  · exact this.sleeper
  · exact this.padDamping
  · exact this.soilDamping

theorem stiffTrack_railPresent : RailPresent { stiffTrack.rail with l := 3 / 5 / 3 } := by
  intro k
  rw [BeamPart.stiffness, beamStiffness_eq, BeamPart.massMatrix, beamMass, beamTransMass_eq,
    if_neg (by norm_num [stiffTrack, exampleTrack, timoshenkoFactor])]
  fin_cases k <;> constructor <;> norm_num [stiffTrack, exampleTrack, timoshenkoFactor, fixity]

/-- A hinge of factor 0.75 amid three sleepers. -/
example : ∃ t, createHorizontalTrack (fun p : Fin 3 → ℝ => p) 3 2 (3 / 5) 1 = .ok t ∧
    ∃ inp st, t.hingedSystem exampleTrack (3 / 4) ((3 : ℕ) * (3 / 5 / (2 : ℕ))) true = .ok inp ∧ inp.initialise freshFlags = .ok st ∧
      Spec.UniquelySolvable st.N st.Kg := by
  obtain ⟨t, ht, -⟩ := C48_structure (fun p : Fin 3 → ℝ => p) 3 2 (by norm_num) (3 / 5) 1
  obtain ⟨inp, st, h1, h2, h3, -⟩ := C141_semi_rigid _ 3 2 (by norm_num) (by norm_num) _ _ (by norm_num) (by norm_num) t ht _
    exampleTrack_valid exampleTrack_nonNeg exampleTrack_rayleigh 3 (by norm_num) (by norm_num) (by norm_num) (3 / 4) (by norm_num)
    (by norm_num) freshFlags
  exact ⟨t, ht, inp, st, h1, h2, h3⟩

/-- A pin amid three sleepers. -/
example : ∃ t, createHorizontalTrack (fun p : Fin 3 → ℝ => p) 3 3 (3 / 5) 1 = .ok t ∧
    ∃ inp st, t.hingedSystem stiffTrack 0 ((4 : ℕ) * (3 / 5 / (3 : ℕ))) true = .ok inp ∧ inp.initialise freshFlags = .ok st ∧
      Spec.UniquelySolvable st.N st.Kg := by
  obtain ⟨t, ht, -⟩ := C48_structure (fun p : Fin 3 → ℝ => p) 3 3 (by norm_num) (3 / 5) 1
  obtain ⟨inp, st, h1, h2, h3⟩ := C141_pinned_iff _ 3 3 (by norm_num) _ _ (by norm_num) (by norm_num) t ht _
    stiffTrack_valid stiffTrack_nonNeg (by simpa using stiffTrack_railPresent) (by norm_num [stiffTrack, exampleTrack]) rfl 4
    (by norm_num) (by norm_num) (by norm_num)
  exact ⟨t, ht, inp, st, h1, h2, h3.mpr (by norm_num)⟩

/-- A pin behind the last of three sleepers: a mechanism, found without shear flexibility and not found with it. -/
example : ∃ t, createHorizontalTrack (fun p : Fin 3 → ℝ => p) 3 3 (3 / 5) 1 = .ok t ∧
    (∃ inp st, t.hingedSystem stiffTrack 0 ((6 : ℕ) * (3 / 5 / (3 : ℕ))) true = .ok inp ∧ inp.initialise freshFlags = .ok st ∧
      ¬ Spec.UniquelySolvable st.N st.Kg) ∧
    ∃ inp st, t.hingedSystem exampleTrack 0 ((6 : ℕ) * (3 / 5 / (3 : ℕ))) true = .ok inp ∧ inp.initialise freshFlags = .ok st ∧
      Spec.UniquelySolvable st.N st.Kg := by
  obtain ⟨t, ht, -⟩ := C48_structure (fun p : Fin 3 → ℝ => p) 3 3 (by norm_num) (3 / 5) 1
  obtain ⟨inp, st, h1, h2, h3⟩ := C141_pinned_iff _ 3 3 (by norm_num) _ _ (by norm_num) (by norm_num) t ht _
    stiffTrack_valid stiffTrack_nonNeg (by simpa using stiffTrack_railPresent) (by norm_num [stiffTrack, exampleTrack]) rfl 6
    (by norm_num) (by norm_num) (by norm_num)
  refine ⟨t, ht, ⟨inp, st, h1, h2, fun hc => ?_⟩, ?_⟩
  · have := (h3.mp hc).2
    omega
  · exact C141_mechanism_violated _ 3 3 (by norm_num) _ _ (by norm_num) (by norm_num) t ht _
      exampleTrack_valid (by norm_num [exampleTrack]) 6 (by norm_num) (by norm_num) (by norm_num) (by norm_num) freshFlags

end Rose
