/-
C161, C162: combined tracks with a hinge in the rail and a train on them; the scripts `demo_semi_rigid.py` and
`demo_semi_rigid_rf.py`.
-/
import Verif.Model.HingedCombined
import Verif.Props.HingedRide
import Verif.Props.CombinedUnknowns
import Verif.Props.Demo

set_option linter.unusedSectionVars false

namespace Rose
open Finset

/-! ### Stiffness of the nodes of a cut rail -/

/-- Every node of a chain belongs to an element, at one of its ends. -/
theorem chain_end_unit (L : List ℕ) (hL : L.Nodup) (h2 : 2 ≤ L.length) (x : ℕ) (hx : x ∈ L) (d : Fin 3) :
    ∃ e ∈ chainOf L, ∃ q : Fin 6, sixValues (Spec.unitField x d) e = Pi.single q (1 : ℝ) := by
  obtain ⟨i, hi, rfl⟩ := List.mem_iff_getElem.mp hx
  have hne : ∀ j (hj : j < L.length), j ≠ i → L[j] ≠ L[i] := fun j hj hji he => hji ((List.Nodup.getElem_inj_iff hL).mp he)
  by_cases hlast : i + 1 < L.length
  · refine ⟨_, getElem_chain L i hlast, ⟨d, by omega⟩, ?_⟩
    have h2 := hne (i + 1) hlast (by omega)
    ext q
    fin_cases d <;> fin_cases q <;> simp [sixValues, Spec.unitField, h2]
  · obtain ⟨j, rfl⟩ : ∃ j, i = j + 1 := ⟨i - 1, by omega⟩
    refine ⟨_, getElem_chain L j hi, ⟨d + 3, by omega⟩, ?_⟩
    have h1 := hne j (by omega) (by omega)
    ext q
    fin_cases d <;> fin_cases q <;> simp [sixValues, Spec.unitField, h1]

/-- The rail nodes beside the hinge have stiffness. -/
theorem HingedStanding.rail_stiff {inp : SystemInput ℝ} {T : TrackParts ℝ} {H : HingeCut ℝ} (hg : HingedStanding inp T H)
    (hp : RailPresent T.beam) (x : ℕ) (hx : x ∈ T.rail) (hne : x ≠ H.c) (d : Fin 3) :
    1 / 10 ^ 8 < Spec.systemWork AssemblyPart.stiffness (T.hinged H) (Spec.unitField x d) (Spec.unitField x d) := by
  have hb := hg.standing.beam
  have hnd := hg.nodup
  rw [hg.rail] at hx hnd
  set u : Spec.NodalField ℝ := Spec.unitField x d with hu
  rw [hinged_work AssemblyPart.stiffness _ _ hg.inner BeamPart.stiffness (fun _ _ _ => rfl)]
  have n1 := list_sum_nonneg (chainOf (H.A ++ [H.p])) (fun e => Spec.energy T.beam.stiffness (sixValues u e)) fun e _ => C19_beam_psd _ hb _
  have n4 := list_sum_nonneg (chainOf (H.q :: H.B)) (fun e => Spec.energy T.beam.stiffness (sixValues u e)) fun e _ => C19_beam_psd _ hb _
  have n2 := C19_beam_psd _ (hg.valid .inf (.fin H.σ)) (sixValues u (H.p, H.c))
  have n3 := C19_beam_psd _ (hg.valid (.fin H.σ) .inf) (sixValues u (H.c, H.q))
  have n5 := hg.rest_nonneg u
  have hA := List.length_pos_iff.mpr hg.inner.left
  have hB := List.length_pos_iff.mpr hg.inner.right
  have hsplit : (H.A ++ [H.p]).Nodup ∧ (H.q :: H.B).Nodup := by
    rw [HingeCut.rail, show H.A ++ H.p :: H.c :: H.q :: H.B = (H.A ++ [H.p]) ++ (H.c :: H.q :: H.B) by simp, List.nodup_append] at hnd
    exact ⟨hnd.1, (List.nodup_cons.mp hnd.2.1).2⟩
  have key : ∀ L : List ℕ, L.Nodup → 2 ≤ L.length → x ∈ L →
      1 / 10 ^ 8 < ((chainOf L).map fun e => Spec.energy T.beam.stiffness (sixValues u e)).sum := by
    intro L h1 h2 h3
    obtain ⟨e, he, q, hq⟩ := chain_end_unit L h1 h2 x h3 d
    have := le_sum_of_mem _ (fun e => Spec.energy T.beam.stiffness (sixValues u e)) (fun e _ => C19_beam_psd _ hb _) e he
    simp only [hu, hq, energy_unit] at this
    exact lt_of_lt_of_le (hp q).2 this
  have hcase : x ∈ H.A ++ [H.p] ∨ x ∈ H.q :: H.B := by
    unfold HingeCut.rail at hx
    simp only [List.mem_append, List.mem_cons, List.not_mem_nil, or_false] at hx ⊢
    tauto
  change 1 / 10 ^ 8 < ((chainOf (H.A ++ [H.p])).map fun e => Spec.energy T.beam.stiffness (sixValues u e)).sum +
    (Spec.energy (BeamPart.stiffness { T.beam with s1 := .inf, s2 := .fin H.σ }) (sixValues u _) +
    (Spec.energy (BeamPart.stiffness { T.beam with s1 := .fin H.σ, s2 := .inf }) (sixValues u _) +
    (((chainOf (H.q :: H.B)).map fun e => Spec.energy T.beam.stiffness (sixValues u e)).sum +
      Spec.systemWork AssemblyPart.stiffness T.parts.tail u u)))
  rcases hcase with h | h
  · have := key _ hsplit.1 (by simp; omega) h
    linarith
  · have := key _ hsplit.2 (by simp; omega) h
    linarith

/-! ### The system of a combined track with a hinge -/

section sound
variable {ι : Type*} [DecidableEq ι] {c : CombinedTrack ι ℝ} {m k : ℕ} {l : ℝ}

/-- The cut of the rail of a combined track at its node `k`, by numbers in the mesh. -/
def CombinedTrack.cutAt (c : CombinedTrack ι ℝ) (k : ℕ) (σ : ℝ) : HingeCut ℝ where
  A := (c.rail.map c.place).take (k - 1)
  p := c.railNumber (k - 1)
  c := c.railNumber k
  q := c.railNumber (k + 1)
  B := (c.rail.map c.place).drop (k + 2)
  σ := σ

theorem take_getD_drop (L : List ℕ) (k : ℕ) (hk : 1 ≤ k) (hkm : k + 2 ≤ L.length) :
    L = L.take (k - 1) ++ L.getD (k - 1) 0 :: L.getD k 0 :: L.getD (k + 1) 0 :: L.drop (k + 2) := by
  conv_lhs => rw [← List.take_append_drop (k - 1) L]
  congr 1
  rw [List.getD_eq_getElem _ _ (by omega), List.getD_eq_getElem _ _ (by omega), List.getD_eq_getElem _ _ (by omega),
    List.drop_eq_getElem_cons (by omega : k - 1 < L.length)]
  congr 1
  simp only [show k - 1 + 1 = k by omega]
  rw [List.drop_eq_getElem_cons (by omega : k < L.length), List.drop_eq_getElem_cons (by omega : k + 1 < L.length)]

theorem SoundTrack.cut_rail (s : SoundTrack c m l) (hk : 1 ≤ k) (hkm : k + 2 ≤ m) (σ : ℝ) : c.rail.map c.place = (c.cutAt k σ).rail := by
  have := take_getD_drop (c.rail.map c.place) k hk (by rw [List.length_map, s.len]; exact hkm)
  exact this

/-- The system of a track in order with a hinge of stiffness `σ`. -/
theorem SoundTrack.hingedSystem (s : SoundTrack c m l) (length : ℝ) (v : TrackValues) (soils : List (RodValues ℝ))
    (hs : c.soils.length ≤ soils.length) (held : Bool) (hk : 2 ≤ k) (hkm : k + 3 ≤ m)
    (near : 1 / 100000000 + 1 / 100000 * ((k : ℝ) * l) < l) (f σ : ℝ) (hσ : hingeStiffness v.rail.E v.rail.I length f none = some σ) :
    ∃ a b, c.rail.head? = some a ∧ c.rail.getLast? = some b ∧ c.hingedSystem length v soils f ((k : ℝ) * l) held =
      .ok ((c.inputOf l v soils a b held).withHinge (c.partsOf l v soils) (c.cutAt k (σ / 2))) := by
  obtain ⟨a, b, ha, hb, hsys⟩ := s.system length v soils hs held
  refine ⟨a, b, ha, hb, ?_⟩
  have ge := s.even length
  have hmp := s.map_position length c.rail s.rail_mem
  obtain ⟨A, B, p, e, q, hr, hA, hadd, -⟩ := ge.addHinge (k := k) (by omega) (by omega) near σ
  have hr' : c.rail.map c.place = A ++ p :: e :: q :: B := hr
  have hlen : A.length + (B.length + 3) = m := by
    have := ge.len
    rw [hr] at this
    simpa using this
  have hcut := (s.cut_rail (k := k) (by omega) (by omega) (σ / 2)).symm.trans hr'
  unfold HingeCut.rail at hcut
  obtain ⟨e1, e2⟩ := List.append_inj hcut (by
    simp only [CombinedTrack.cutAt, List.length_take, List.length_map, s.len]
    omega)
  simp only [List.cons.injEq] at e2
  obtain ⟨e3, e4, e5, e6⟩ := e2
  have hpos : ∀ x ∈ A ++ p :: e :: q :: B, (c.numbered length).position x = x := by
    intro x hx
    rw [← hr'] at hx
    obtain ⟨y, hy, rfl⟩ := List.mem_map.mp hx
    exact s.position length y (s.rail_mem y hy)
  have hmap : ∀ L : List ℕ, (∀ x ∈ L, x ∈ A ++ p :: e :: q :: B) → L.map (c.numbered length).position = L := by
    intro L hL
    conv_rhs => rw [← List.map_id L]
    exact List.map_congr_left fun x hx => hpos x (hL x hx)
  have hcut' : c.cutAt k (σ / 2) = ⟨A, p, e, q, B, σ / 2⟩ := by
    rw [← e1, ← e3, ← e4, ← e5, ← e6]
    rfl
  set t := c.numbered length with ht
  have hp1 := pieceAssembly_ok (t := t) v.rail ⟨A ++ [p], chainOf (A ++ [p]), none, none⟩ l
    (fun old => ge.piece_length [] (A ++ [p]) (e :: q :: B) (by simp [hr]) (by simp; omega) old)
  have hp2 := pieceAssembly_ok (t := t) v.rail ⟨[p, e], [(p, e)], none, some (σ / 2)⟩ l
    (fun old => ge.piece_length A [p, e] (q :: B) (by simp [hr]) (by simp) old)
  have hp3 := pieceAssembly_ok (t := t) v.rail ⟨[e, q], [(e, q)], some (σ / 2), none⟩ l
    (fun old => ge.piece_length (A ++ [p]) [e, q] B (by simp [hr]) (by simp) old)
  have hp4 := pieceAssembly_ok (t := t) v.rail ⟨q :: B, chainOf (q :: B), none, none⟩ l
    (fun old => ge.piece_length (A ++ [p, e]) (q :: B) [] (by simp [hr]) (by simp; omega) old)
  have pl1 := ge.piece_placed [] (A ++ [p]) (e :: q :: B) (by simp [hr])
  have pl2 := ge.piece_placed A [p, e] (q :: B) (by simp [hr])
  have pl3 := ge.piece_placed (A ++ [p]) [e, q] B (by simp [hr])
  have pl4 := ge.piece_placed (A ++ [p, e]) (q :: B) [] (by simp [hr])
  rw [hmap _ (by intro x hx; simp at hx ⊢; tauto)] at pl1 pl2 pl3 pl4
  have n1 := hmap (A ++ [p]) (by intro x hx; simp at hx ⊢; tauto)
  have n2 := hmap [p, e] (by intro x hx; simp at hx ⊢; tauto)
  have n3 := hmap [e, q] (by intro x hx; simp at hx ⊢; tauto)
  have n4 := hmap (q :: B) (by intro x hx; simp at hx ⊢; tauto)
  have hh : t.rail.head? = (A ++ [p]).head? := by rw [hr]; cases A <;> simp
  have hl : t.rail.getLast? = (q :: B).getLast? := by
    rw [hr]
    cases B with
    | nil => simp
    | cons b B =>
      simp only [List.getLast?_append, List.getLast?_cons_cons]
      rw [List.getLast?_eq_some_getLast (List.cons_ne_nil b B)]
      rfl
  unfold CombinedTrack.system at hsys
  unfold CombinedTrack.hingedSystem HorizontalTrack.hingedRail
  rw [← ht] at hsys ⊢
  dsimp only at hsys ⊢
  rw [show t.lengthElement = length from rfl, hσ]
  simp only
  rw [hadd]
  rw [ge.length] at hsys
  simp only [bind, Except.bind, if_neg (not_lt.mpr hs)] at hsys ⊢
  revert hsys
  cases (c.soils.mapM fun s => bottomBoundary (fun k => (t.store k).pos 1) ((c.placeAll s.1).map fun e => [e.1, e.2])) with
  | error e => simp
  | ok bottoms =>
    simp only [List.head?_cons, Option.bind_some, List.getLast?_cons_cons, List.getLast?_singleton, ← hh, ← hl]
    cases t.rail.head? with
    | none => simp
    | some x =>
      cases t.rail.getLast? with
      | none => simp
      | some y =>
        intro hsys
        simp only [List.mapM_cons, List.mapM_nil, hp1, hp2, hp3, hp4, pure, Except.pure, bind, Except.bind]
        simp only [Except.ok.injEq, CombinedTrack.inputOf, SystemInput.withHinge, SystemInput.mk.injEq] at hsys ⊢
        obtain ⟨q1, q2, -, q4, -⟩ := hsys
        refine ⟨q1, ?_, trivial, q4, trivial, trivial, trivial, trivial⟩
        unfold TrackParts.hinged
        rw [← q2, hcut', HingeCut.pieces]
        have pl2' : t.placed [(p, e)] = horizontalElements [(p, e)] := pl2
        have pl3' : t.placed [(e, q)] = horizontalElements [(e, q)] := pl3
        simp only [RailPart.beam, springOf, Option.isNone_none, Option.isNone_some, and_self, if_true, Bool.false_eq_true, and_false,
          false_and, if_false, pl1, pl4, pl2', pl3', n1, n2, n3, n4, List.cons_append, List.nil_append, List.tail_cons]
        rfl

theorem SoundTrack.hinged (s : SoundTrack c m l) (v : TrackValues) (soils : List (RodValues ℝ))
    (hs : c.soils.length ≤ soils.length) (hv : ∀ w ∈ soils, ({ v with soil := w } : TrackValues).Valid) (a b : ι)
    (ha : a ∈ c.rail) (hb : b ∈ c.rail) (held : Bool) (hk : 2 ≤ k) (hkm : k + 3 ≤ m) (σ : ℝ) :
    HingedStanding (c.inputOf l v soils a b held) (c.partsOf l v soils) (c.cutAt k σ) := by
  have hlen := s.len
  refine ⟨s.standing v soils hs hv a b ha hb held, ⟨?_, ?_⟩, s.cut_rail (by omega) (by omega) σ, ?_⟩
  · intro h0
    have := congrArg List.length h0
    simp only [CombinedTrack.cutAt, List.length_take, List.length_map, List.length_nil] at this
    omega
  · intro h0
    have := congrArg List.length h0
    simp only [CombinedTrack.cutAt, List.length_drop, List.length_map, List.length_nil] at this
    omega
  · refine List.Nodup.map_on (fun x hx y _ hxy => ?_) s.rail_nodup
    exact s.place_inj x y (s.rail_mem x hx) hxy

theorem SoundTrack.hingedPlaced (s : SoundTrack c m l) (length : ℝ) (v : TrackValues) (soils : List (RodValues ℝ))
    (hs : c.soils.length ≤ soils.length) (hv : ∀ w ∈ soils, ({ v with soil := w } : TrackValues).Valid) (a b : ι)
    (ha : a ∈ c.rail) (hb : b ∈ c.rail) (held : Bool) (hk : 2 ≤ k) (hkm : k + 3 ≤ m) (σ : ℝ) :
    PlacedRail (c.numbered length) ((c.inputOf l v soils a b held).withHinge (c.partsOf l v soils) (c.cutAt k σ)) := by
  have hg := s.hinged v soils hs hv a b ha hb held hk hkm σ
  have hp := s.placedRail length v soils hs hv a b ha hb held
  exact ⟨hp.within, hp.inj, hg.mesh, hg.aligned⟩

/-- The supports leave the rail free in y. -/
theorem SoundTrack.not_supported_y (s : SoundTrack c m l) (a b x : ι) (hx : x ∈ c.rail) (held : Bool) :
    ¬ Spec.Supported (c.supports a b held) (c.place x) 1 := by
  rintro ⟨pre, p, post, he, hi, -, hf⟩
  have hp : p ∈ c.supports a b held := by rw [he]; simp
  rcases List.mem_append.mp hp with h | h
  · cases held with
    | false => simp at h
    | true =>
      simp only [if_true, List.mem_singleton] at h
      subst h
      simp at hf
  · obtain ⟨q, hq, rfl⟩ := List.mem_map.mp h
    exact absurd hi (s.not_bottom x (Or.inl hx) q hq)

/-- A rail node other than the hinge moves up and down freely. -/
theorem SoundTrack.hinged_free (s : SoundTrack c m l) {v : TrackValues} {soils : List (RodValues ℝ)}
    (hs : c.soils.length ≤ soils.length) (kv : KeptValues l v soils) (a b : ι)
    (ha : a ∈ c.rail) (hb : b ∈ c.rail) (held : Bool) (hk : 2 ≤ k) (hkm : k + 3 ≤ m) (σ : ℝ) (i : ℕ) (hi : i < m) (hik : i ≠ k) :
    ¬ Spec.Removed ((c.inputOf l v soils a b held).withHinge (c.partsOf l v soils) (c.cutAt k σ)) (c.railNumber i) 1 := by
  have hg := s.hinged v soils hs kv.valid a b ha hb held hk hkm σ
  have hlen := s.len
  have hnum : ∀ j (hj : j < m), c.railNumber j = c.place (c.rail[j]'(by omega)) := by
    intro j hj
    unfold CombinedTrack.railNumber
    rw [List.getD_eq_getElem _ _ (by rw [List.length_map]; omega), List.getElem_map]
  have hmem : c.rail[i]'(by omega) ∈ c.rail := List.getElem_mem _
  have hne : c.railNumber i ≠ (c.cutAt k σ).c := by
    show c.railNumber i ≠ c.railNumber k
    rw [hnum i hi, hnum k (by omega)]
    intro he
    have := s.place_inj _ _ (s.rail_mem _ hmem) he
    exact hik ((List.Nodup.getElem_inj_iff s.rail_nodup).mp this)
  have w1 := (s.rail_work hs kv _ hmem 1).1
  have w2 := hg.rail_stiff kv.rail (c.railNumber i) (by rw [hnum i hi]; exact List.mem_map_of_mem hmem) hne 1
  rw [← hnum i hi] at w1
  intro hc
  change Spec.Supported (c.supports a b held) _ _ ∨
    |Spec.systemWork AssemblyPart.mass ((c.partsOf l v soils).hinged (c.cutAt k σ)) _ _| ≤ _ ∨
    |Spec.systemWork AssemblyPart.stiffness ((c.partsOf l v soils).hinged (c.cutAt k σ)) _ _| ≤ _ at hc
  rw [hinged_work_same AssemblyPart.mass _ _ hg.inner hg.rail BeamPart.massMatrix (fun _ _ _ => rfl) massMatrix_springs] at hc
  rcases hc with hx | hx | hx
  · rw [hnum i hi] at hx
    exact s.not_supported_y a b _ hmem held hx
  · have := le_abs_self (Spec.systemWork AssemblyPart.mass (c.partsOf l v soils).parts
      (Spec.unitField (c.railNumber i) 1) (Spec.unitField (c.railNumber i) 1))
    linarith
  · have := le_abs_self (Spec.systemWork AssemblyPart.stiffness ((c.partsOf l v soils).hinged (c.cutAt k σ))
      (Spec.unitField (c.railNumber i) 1) (Spec.unitField (c.railNumber i) 1))
    linarith

/-- The system of the track with the hinge, held at its ends, has exactly one solution in every step. -/
theorem SoundTrack.hinged_steps (s : SoundTrack c m l) (v : TrackValues) (soils : List (RodValues ℝ))
    (hs : c.soils.length ≤ soils.length) (hv : ∀ w ∈ soils, ({ v with soil := w } : TrackValues).Valid)
    (hm : ∀ w ∈ soils, ({ v with soil := w } : TrackValues).NonNeg) (hR : v.Rayleigh) (x y : ι) (hx : x ∈ c.rail) (hy : y ∈ c.rail)
    (hk : 2 ≤ k) (hkm : k + 3 ≤ m) (σ : ℝ) (hpin : σ ≤ 0 → (c.partsOf l v soils).HoldsPin k ∨ 0 < v.rail.kappa)
    (flags : ℕ → Fin 3 → Bool) :
    ∃ st, ((c.inputOf l v soils x y true).withHinge (c.partsOf l v soils) (c.cutAt k σ)).initialise flags = .ok st ∧
      ∀ a b : ℝ, 0 ≤ a → 0 ≤ b → Spec.UniquelySolvable st.N fun i j => st.Kg i j + a * st.C i j + b * st.M i j := by
  have hg := s.hinged v soils hs hv x y hx hy true hk hkm σ
  have hheld : ∃ m ∈ (c.partsOf l v soils).rail, Spec.Supported (c.inputOf l v soils x y true).constraints m 0 :=
    ⟨c.place x, List.mem_map_of_mem hx, s.side_supported x y hx⟩
  have hA : (c.cutAt k σ).A.length + 1 = k := by
    have := s.len
    simp only [CombinedTrack.cutAt, List.length_take, List.length_map]
    omega
  obtain ⟨st, hst⟩ := C106_succeeds _ hg.mesh flags
  refine ⟨st, hst, fun a b ha hb => solvable_of_definite _ _ fun U hU => ?_⟩
  obtain ⟨k0, k1⟩ := hg.definite (by rw [hA]; exact hpin) hheld flags st hst U
  have hrep := fieldOf_represents ((c.inputOf l v soils x y true).withHinge (c.partsOf l v soils) (c.cutAt k σ)).n st.nodes U
  obtain ⟨-, wM, wC⟩ := C106_work_partial _ flags hg.mesh hg.aligned st hst U U _ _ hrep hrep
  obtain ⟨p0, hp0⟩ := List.exists_mem_of_ne_nil _ s.soils_ne
  obtain ⟨w0, hw0⟩ := zip_right_mem soils c.soils hs p0 hp0
  have hm0 := hm w0 (List.of_mem_zip hw0).1
  have m0 : 0 ≤ matrixWork st.N st.M U U := by
    rw [wM]
    show 0 ≤ Spec.systemWork AssemblyPart.mass ((c.partsOf l v soils).hinged (c.cutAt k σ)) _ _
    rw [hinged_work_same AssemblyPart.mass _ _ hg.inner hg.rail BeamPart.massMatrix (fun _ _ _ => rfl) massMatrix_springs,
      track_mass _ (s.nonEmpty v soils)]
    refine add_nonneg (add_nonneg (add_nonneg ?_ ?_) ?_) ?_
    · exact list_sum_nonneg _ _ fun e _ => beam_mass_nonneg _ hg.standing.beam _
    · exact rodWork_nonneg _ (rodMass_option hm0.padMass) _ _
    · exact list_sum_nonneg _ _ fun m _ => mul_nonneg hm0.sleeper (sq_nonneg _)
    · refine list_sum_nonneg _ _ fun q hq => ?_
      obtain ⟨p, hp, rfl⟩ := List.mem_map.mp hq
      exact rodWork_nonneg _ (rodMass_option (hm p.1 (List.of_mem_zip hp).1).soilMass) _ _
  have d0 : 0 ≤ Spec.systemWork AssemblyPart.damping ((c.inputOf l v soils x y true).withHinge (c.partsOf l v soils)
      (c.cutAt k σ)).parts (fieldOf st.nodes U) (fieldOf st.nodes U) := by
    show 0 ≤ Spec.systemWork AssemblyPart.damping ((c.partsOf l v soils).hinged (c.cutAt k σ)) _ _
    rw [hinged_work_same AssemblyPart.damping _ _ hg.inner hg.rail (fun _ => 0) (fun _ _ _ => rfl) (fun _ _ _ => rfl),
      track_damping _ (s.nonEmpty v soils)]
    refine add_nonneg ?_ ?_
    · exact rodWork_nonneg _ (rodDamping_option hm0.padDamping) _ _
    · refine list_sum_nonneg _ _ fun q hq => ?_
      obtain ⟨p, hp, rfl⟩ := List.mem_map.mp hq
      exact rodWork_nonneg _ (rodDamping_option (hm p.1 (List.of_mem_zip hp).1).soilDamping) _ _
  have r0 : 0 ≤ (rayleighPair ((c.inputOf l v soils x y true).withHinge (c.partsOf l v soils) (c.cutAt k σ))).1 ∧
      0 ≤ (rayleighPair ((c.inputOf l v soils x y true).withHinge (c.partsOf l v soils) (c.cutAt k σ))).2 := by
    unfold rayleighPair
    split_ifs with hi
    · have h1 := hR.ratio hi
      have h2 := hR.w1 hi
      have h3 := hR.w2 hi
      constructor
      · show 0 ≤ 2 * v.ratio * v.w1 * v.w2 / (v.w1 + v.w2)
        positivity
      · show 0 ≤ 2 * v.ratio / (v.w1 + v.w2)
        positivity
    · exact ⟨le_refl _, le_refl _⟩
  have c0 : 0 ≤ matrixWork st.N st.C U U := by
    rw [wC]
    exact add_nonneg (add_nonneg d0 (mul_nonneg r0.1 m0)) (mul_nonneg r0.2 k0)
  rw [matrixWork_smul_add] at hU
  have := mul_nonneg ha c0
  have := mul_nonneg hb m0
  exact k1 (by linarith)

/-- A segment without values of its soil is rejected. -/
theorem SoundTrack.hinged_rejects (s : SoundTrack c m l) (length : ℝ) (v : TrackValues) (soils : List (RodValues ℝ))
    (hs : soils.length < c.soils.length) (held : Bool) (hk : 2 ≤ k) (hkm : k + 3 ≤ m)
    (near : 1 / 100000000 + 1 / 100000 * ((k : ℝ) * l) < l) (f σ : ℝ) (hσ : hingeStiffness v.rail.E v.rail.I length f none = some σ) :
    c.hingedSystem length v soils f ((k : ℝ) * l) held = .error .indexError := by
  have hsys := s.rejects length v soils hs held
  have ge := s.even length
  obtain ⟨A, B, p, e, q, hr, hA, hadd, -⟩ := ge.addHinge (k := k) (by omega) (by omega) near σ
  unfold CombinedTrack.system at hsys
  unfold CombinedTrack.hingedSystem HorizontalTrack.hingedRail
  dsimp only at hsys ⊢
  rw [show (c.numbered length).lengthElement = length from rfl, hσ]
  simp only
  rw [hadd]
  simp only [bind, Except.bind, if_pos hs] at hsys ⊢
  revert hsys
  cases (c.soils.mapM fun s => bottomBoundary (fun k => ((c.numbered length).store k).pos 1) ((c.placeAll s.1).map fun e => [e.1, e.2])) with
  | error e => simp
  | ok bottoms => simp

end sound

/-! ### C161 -/

section claims
variable {H : Type*} [DecidableEq H] (hash : (Fin 3 → ℝ) → H) {r k : ℕ} {d : ℝ} {segments : List (ℕ × ℝ)}

/-- **C161** Segments that can be combined, admissible values for rail, pads, sleepers and the soil of each segment, a fixity factor greater than 0 and
at most 1, and a hinge at a rail node that is not one of the outermost two at either end: the track is made, and for every load it has exactly one static equilibrium
(`a = b = 0`) and every step of every time integration is solvable uniquely (`a = γ / (β Δt)`, `b = 1 / (β Δt²)`). `length` is the length
handed to the hinge (the sleeper distance in the scripts), any positive number. -/
theorem C161_semi_rigid (g : GoodSegments r d segments) (length : ℝ) (hlength : 0 < length) (v : TrackValues)
    (soils : List (RodValues ℝ)) (hs : segments.length ≤ soils.length) (hv : ∀ w ∈ soils, ({ v with soil := w } : TrackValues).Valid)
    (hm : ∀ w ∈ soils, ({ v with soil := w } : TrackValues).NonNeg) (hR : v.Rayleigh)
    (hk : 2 ≤ k) (hkm : k + 3 ≤ railCount r segments) (near : 1 / 100000000 + 1 / 100000 * ((k : ℝ) * (d / r)) < d / r)
    (f : ℝ) (hf : 0 < f) (hf1 : f ≤ 1) (flags : ℕ → Fin 3 → Bool) :
    ∃ c inp st, combinedTrack hash r d segments = .ok c ∧ c.hingedSystem length v soils f (k * (d / r)) true = .ok inp ∧
      inp.initialise flags = .ok st ∧
      ∀ a b : ℝ, 0 ≤ a → 0 ≤ b → Spec.UniquelySolvable st.N fun i j => st.Kg i j + a * st.C i j + b * st.M i j := by
  obtain ⟨c, hc, sound, -, -, -, -, -, -, hlen, -⟩ := C136_structure hash g
  have hs' : c.soils.length ≤ soils.length := by omega
  obtain ⟨w, hw⟩ := sound.some_soil hs'
  obtain ⟨σ, hσ, hσ0⟩ := hingeStiffness_pos (hv w hw).E (hv w hw).I hlength hf hf1
  obtain ⟨a, b, ha, hb, hsys⟩ := sound.hingedSystem length v soils hs' true hk hkm near f σ hσ
  obtain ⟨st, hst, hu⟩ := sound.hinged_steps v soils hs' hv hm hR a b (List.mem_of_head? ha) (List.mem_of_getLast? hb) hk hkm (σ / 2)
    (fun h => by linarith) flags
  exact ⟨c, _, st, hc, hsys, hst, hu⟩

/-- Three sleepers, and the pin before the last of them: the pads hold the rail on both sides of the pin. -/
theorem combined_holdsPin (g : GoodSegments r d segments) (v : TrackValues) (soils : List (RodValues ℝ))
    (h3 : 3 ≤ (segments.map Prod.fst).sum) (hk : 1 ≤ k) (hkr : k + r < railCount r segments) (c : CombinedTrack TrackNode ℝ)
    (hc : combinedTrack hash r d segments = .ok c) : (c.partsOf (d / r) v soils).HoldsPin k := by
  obtain ⟨n, h, t, m, store, gen, hm, hseg, hstore, htwo, hcount, heq⟩ := combinedTrack_generated hash g
  obtain ⟨c', hc', hmesh, hlen, hpos, hchain, hrail, hsl, hpads, hpn, hsoils, hstore', hidx⟩ :=
    combine_horizontal_generated gen m store hstore
  rw [heq, hc'] at hc
  injection hc with hc
  subst c
  have hr0 := gen.r_pos
  have hn0 := gen.n_pos
  have hr' : (0 : ℝ) < r := by exact_mod_cast hr0
  have hl : (0 : ℝ) < d / r := lt_trans (by norm_num) gen.d_tol
  have hsum : ((List.range (m + 1)).map n).sum = (segments.map Prod.fst).sum := by
    congr 1
    apply List.ext_getElem
    · simp [hm]
    · intro k h1 h2
      have hk : k < segments.length := by simpa using h2
      simp only [List.getElem_map, List.getElem_range, hseg k hk]
  have hpad : ∀ j ≤ m, ∀ i < n j, (c'.partsOf (d / r) v soils).PadAt (segStart r n j + i * r) := by
    intro j hj i hi
    have hir : i * r < n j * r := Nat.mul_lt_mul_of_pos_right hi hr0
    have hmem : TrackNode.orig j (i * r) ∈ c'.rail := (hrail _).2 (Or.inl ⟨j, hj, i * r, hir, rfl⟩)
    obtain ⟨a, ha, hae⟩ := List.mem_iff_getElem.mp hmem
    have h1 := hpos a ha
    rw [hae, hstore' j hj (i * r) (by omega)] at h1
    have h2 := congrFun h1 0
    simp only [movedPos, trackStore_rail _ _ _ _ _ hir, Matrix.cons_val_zero] at h2
    have h3 : ((segStart r n j + i * r : ℕ) : ℝ) * (d / r) = (a : ℝ) * (d / r) := by
      rw [← h2]
      push_cast
      ring
    have h4 : segStart r n j + i * r = a := by exact_mod_cast mul_right_cancel₀ hl.ne' h3
    refine ⟨c'.place (.orig j (i * r)), ?_, (c'.place (.orig j (i * r)), c'.place (.orig j (n j * r + i))), ?_, rfl⟩
    · rw [h4]
      show (c'.rail.map c'.place)[a]? = _
      rw [List.getElem?_map, List.getElem?_eq_getElem ha, hae]
      rfl
    · show _ ∈ c'.placeAll c'.pads
      unfold CombinedTrack.placeAll
      refine List.mem_map.mpr ⟨(.orig j (i * r), .orig j (n j * r + i)), ?_, rfl⟩
      rw [hpads]
      exact List.mem_flatMap.mpr ⟨j, List.mem_range.mpr (by omega), List.mem_map.mpr ⟨i, List.mem_range.mpr hi, rfl⟩⟩
  have hz : segStart r n 0 = 0 := by simp [segStart]
  have hfirst := hpad 0 (by omega) 0 (hn0 0)
  rw [hz, Nat.zero_mul] at hfirst
  have hlast := hpad m le_rfl (n m - 1) (by have := hn0 m; omega)
  have hnm : n m * r = (n m - 1) * r + r := by
    conv_lhs => rw [show n m = n m - 1 + 1 by have := hn0 m; omega, Nat.add_mul, Nat.one_mul]
  have hstep : ∀ j, segStart r n j < segStart r n (j + 1) := by
    intro j
    rw [segStart_succ]
    have := Nat.mul_pos (hn0 j) hr0
    omega
  have hmid : ∃ p, 0 < p ∧ p < segStart r n m + (n m - 1) * r ∧ (c'.partsOf (d / r) v soils).PadAt p := by
    by_cases h0 : 2 ≤ n 0
    · have h1 := hpad 0 (by omega) 1 (by omega)
      rw [hz] at h1
      refine ⟨0 + 1 * r, by omega, ?_, h1⟩
      rcases Nat.eq_zero_or_pos m with rfl | hm0
      · have : 3 ≤ n 0 := by
          rw [← hsum] at h3
          simpa using h3
        have : 2 * r ≤ (n 0 - 1) * r := Nat.mul_le_mul_right _ (by omega)
        omega
      · have h2 := segStart_mono r n (show 1 ≤ m from hm0)
        rw [segStart_succ, hz] at h2
        have : 2 * r ≤ n 0 * r := Nat.mul_le_mul_right _ h0
        omega
    · have hm0 : 0 < m := by
        rcases htwo with h | h
        · exact h
        · omega
      by_cases h1 : 2 ≤ n m
      · have h2 := hpad m le_rfl 0 (by omega)
        rw [Nat.zero_mul, Nat.add_zero] at h2
        have h4 := segStart_mono r n (show 1 ≤ m from hm0)
        have h5 : segStart r n 0 < segStart r n 1 := hstep 0
        have : 1 * r ≤ (n m - 1) * r := Nat.mul_le_mul_right _ (by omega)
        exact ⟨_, by omega, by omega, h2⟩
      · have hm2 : 2 ≤ m := by
          by_contra hlt
          obtain rfl : m = 1 := by omega
          rw [← hsum] at h3
          simp [List.range_succ] at h3
          omega
        have h2 := hpad 1 (by omega) 0 (hn0 1)
        rw [Nat.zero_mul, Nat.add_zero] at h2
        have h4 := segStart_mono r n hm2
        have h5 : segStart r n 0 < segStart r n 1 := hstep 0
        have h6 : segStart r n 1 < segStart r n 2 := hstep 1
        exact ⟨_, by omega, by omega, h2⟩
  obtain ⟨p, hp0, hp1, hp⟩ := hmid
  rcases Nat.lt_or_ge k p with hkp | hkp
  · exact Or.inr ⟨0, p, _, by omega, by omega, hp1, hfirst, hp, hlast⟩
  · exact Or.inl ⟨0, p, _, hp0, hkp, by omega, hfirst, hp, hlast⟩

/-- **C161** The same for a free pin (fixity factor 0) if there are three or more sleepers and one of them is behind the pin (otherwise the rail
end behind the pin would turn freely): the last sleeper is under the rail node `railCount - r`. -/
theorem C161_pinned (g : GoodSegments r d segments) (length : ℝ) (v : TrackValues)
    (soils : List (RodValues ℝ)) (hs : segments.length ≤ soils.length) (hv : ∀ w ∈ soils, ({ v with soil := w } : TrackValues).Valid)
    (hm : ∀ w ∈ soils, ({ v with soil := w } : TrackValues).NonNeg) (hR : v.Rayleigh) (h3 : 3 ≤ (segments.map Prod.fst).sum)
    (hk : 2 ≤ k) (hkm : k + 3 ≤ railCount r segments) (hkr : k + r < railCount r segments)
    (near : 1 / 100000000 + 1 / 100000 * ((k : ℝ) * (d / r)) < d / r) (flags : ℕ → Fin 3 → Bool) :
    ∃ c inp st, combinedTrack hash r d segments = .ok c ∧ c.hingedSystem length v soils 0 (k * (d / r)) true = .ok inp ∧
      inp.initialise flags = .ok st ∧
      ∀ a b : ℝ, 0 ≤ a → 0 ≤ b → Spec.UniquelySolvable st.N fun i j => st.Kg i j + a * st.C i j + b * st.M i j := by
  obtain ⟨c, hc, sound, -, -, -, -, -, -, hlen, -⟩ := C136_structure hash g
  have hs' : c.soils.length ≤ soils.length := by omega
  obtain ⟨a, b, ha, hb, hsys⟩ := sound.hingedSystem length v soils hs' true hk hkm near 0 0 (hingeStiffness_zero _ _ _)
  obtain ⟨st, hst, hu⟩ := sound.hinged_steps v soils hs' hv hm hR a b (List.mem_of_head? ha) (List.mem_of_getLast? hb) hk hkm (0 / 2)
    (fun _ => Or.inl (combined_holdsPin hash g v soils h3 (by omega) hkr c hc)) flags
  exact ⟨c, _, st, hc, hsys, hst, hu⟩

/-- **C161** A segment without values of its soil is rejected. -/
theorem C161_rejects (g : GoodSegments r d segments) (length : ℝ) (v : TrackValues) (soils : List (RodValues ℝ)) (held : Bool)
    (hs : soils.length < segments.length) (hk : 2 ≤ k) (hkm : k + 3 ≤ railCount r segments)
    (near : 1 / 100000000 + 1 / 100000 * ((k : ℝ) * (d / r)) < d / r) (f : ℝ) (hf : 0 ≤ f) (hf1 : f ≤ 1) :
    ∃ c, combinedTrack hash r d segments = .ok c ∧ c.hingedSystem length v soils f (k * (d / r)) held = .error .indexError := by
  obtain ⟨c, hc, sound, -, -, -, -, -, -, hlen, -⟩ := C136_structure hash g
  obtain ⟨σ, hσ⟩ := hingeStiffness_some v.rail.E v.rail.I length f hf hf1
  exact ⟨c, hc, sound.hinged_rejects length v soils (by omega) held hk hkm near f σ hσ⟩

/-! ### C162 -/

variable {q : TrackRide} {soils : List (RodValues ℝ)}

theorem coupledOnHingedCombined_eq {ι : Type*} [DecidableEq ι] {c : CombinedTrack ι ℝ} {length f xh : ℝ} (sys : SystemInput ℝ)
    (h : c.hingedSystem length q.values soils f xh q.held = .ok sys) :
    q.coupledOnHingedCombined c length soils f xh = TrackRide.coupledOnCut { q with track := c.numbered length } f xh sys := by
  unfold TrackRide.coupledOnHingedCombined
  rw [h]
  rfl

/-- The solver solves what the calculation on the track with the hinge gives it. -/
def SolvesHinged (q : TrackRide) (r : ℕ) (d : ℝ) (segments : List (ℕ × ℝ)) (length : ℝ) (soils : List (RodValues ℝ)) (f xh : ℝ) (times : ℕ)
    (solver : TrimState ℝ → (List (ℕ × List (ℕ → ℝ)) → List (ℕ → ℝ) → ℕ → (ℕ → ℝ) → ℕ → ℝ) → SolverOutput ℝ) : Prop :=
  ∀ c run st, combinedTrack hash r d segments = .ok c → q.coupledOnHingedCombined c length soils f xh = .ok run →
    run.loadedTrack.input.initialise freshFlags = .ok st →
    Spec.SolvesCoupled (run.system hash st) (run.rhs hash st) times (solver (run.system hash st) (run.rhs hash st))

/-- The track of a ride with its system. -/
theorem hingedCombined_track (g : GoodSegments r d segments) (length : ℝ) (hs : segments.length ≤ soils.length)
    (hv : ∀ w ∈ soils, ({ q.values with soil := w } : TrackValues).Valid) (hk : 2 ≤ k) (hkm : k + 3 ≤ railCount r segments)
    (near : 1 / 100000000 + 1 / 100000 * ((k : ℝ) * (d / r)) < d / r) (f : ℝ) (hf : 0 ≤ f) (hf1 : f ≤ 1) :
    ∃ c σ a b sys, combinedTrack hash r d segments = .ok c ∧ SoundTrack c (railCount r segments) (d / r) ∧
      c.soils.length ≤ soils.length ∧ a ∈ c.rail ∧ b ∈ c.rail ∧
      hingeStiffness q.values.rail.E q.values.rail.I length f none = some σ ∧
      c.hingedSystem length q.values soils f (k * (d / r)) q.held = .ok sys ∧ PlacedRail (c.numbered length) sys ∧
      sys = (c.inputOf (d / r) q.values soils a b q.held).withHinge (c.partsOf (d / r) q.values soils) (c.cutAt k (σ / 2)) ∧
      q.coupledOnHingedCombined c length soils f (k * (d / r)) =
        TrackRide.coupledOnCut { q with track := c.numbered length } f (k * (d / r)) sys := by
  obtain ⟨c, hc, sound, -, -, -, -, -, -, hlen, -⟩ := C136_structure hash g
  have hs' : c.soils.length ≤ soils.length := by omega
  obtain ⟨σ, hσ⟩ := hingeStiffness_some q.values.rail.E q.values.rail.I length f hf hf1
  obtain ⟨a, b, ha, hb, hsys⟩ := sound.hingedSystem length q.values soils hs' q.held hk hkm near f σ hσ
  exact ⟨c, σ, a, b, _, hc, sound, hs', List.mem_of_head? ha, List.mem_of_getLast? hb, hσ, hsys,
    sound.hingedPlaced length q.values soils hs' hv a b (List.mem_of_head? ha) (List.mem_of_getLast? hb) q.held hk hkm (σ / 2), rfl,
    coupledOnHingedCombined_eq _ hsys⟩

/-- **C162, as far as it holds.** A train that runs over a combined track with a hinge and does not go beyond the last node before it:
the calculation succeeds and its results obey the laws of motion of the train and of the track with the hinge. Missing: trains that reach
the hinge, see `C162_passed_violated`. -/
theorem C162_motion_partial (g : GoodSegments r d segments) (length : ℝ) (hsoils : segments.length ≤ soils.length)
    (hv : ∀ w ∈ soils, ({ q.values with soil := w } : TrackValues).Valid) (hk : 2 ≤ k) (hkm : k + 3 ≤ railCount r segments)
    (near : 1 / 100000000 + 1 / 100000 * ((k : ℝ) * (d / r)) < d / r) (f : ℝ) (hf : 0 ≤ f) (hf1 : f ≤ 1) (v : q.Runs k (d / r))
    (times : ℕ) (htimes : times ≤ q.time.length)
    (solver : TrimState ℝ → (List (ℕ × List (ℕ → ℝ)) → List (ℕ → ℝ) → ℕ → (ℕ → ℝ) → ℕ → ℝ) → SolverOutput ℝ)
    (hs : SolvesHinged hash q r d segments length soils f (k * (d / r)) times solver) :
    ∃ c sys res, combinedTrack hash r d segments = .ok c ∧ c.hingedSystem length q.values soils f (k * (d / r)) q.held = .ok sys ∧
      q.mainOnHingedCombined hash c length soils f (k * (d / r)) times solver = .ok res ∧
      res.trackRows.length = times ∧ res.trainRows.length = times ∧
      Spec.ObeysLaws hash q sys (d / r) (railCount r segments) c.railNumber res := by
  obtain ⟨c, σ, a, b, sys, hc, sound, hs', ha, hb, hσ, hsys, hp, -, hrun⟩ := hingedCombined_track (q := q) hash g length hsoils hv hk hkm
    near f hf hf1
  obtain ⟨nodes, R, hcut, hwf, hfacts⟩ := (v.withTrack (c.numbered length)).beforeHinge (sound.even length) hk hkm near hp f σ hσ
  obtain ⟨res, h1, h2, h3, h4⟩ := (v.withTrack (c.numbered length)).lawsOn hash nodes R hwf hfacts times htimes solver fun st hi =>
    hs c _ st hc (by rw [hrun]; exact hcut) hi
  rw [sound.railNumber length] at h4
  refine ⟨c, sys, res, hc, hsys, ?_, h2, h3, h4⟩
  unfold TrackRide.mainOnHingedCombined
  rw [hrun]
  simp only [bind, Except.bind, hcut]
  exact h1

/-- **C162** There is a solver as required in `C162_motion_partial`. -/
theorem C162_solvable (g : GoodSegments r d segments) (length : ℝ) (hsoils : segments.length ≤ soils.length)
    (hv : ∀ w ∈ soils, ({ q.values with soil := w } : TrackValues).Valid) (hk : 2 ≤ k) (hkm : k + 3 ≤ railCount r segments)
    (near : 1 / 100000000 + 1 / 100000 * ((k : ℝ) * (d / r)) < d / r) (f : ℝ) (hf : 0 ≤ f) (hf1 : f ≤ 1) (v : q.Runs k (d / r))
    (times : ℕ) (htimes : times ≤ q.time.length) :
    ∃ solver, SolvesHinged hash q r d segments length soils f (k * (d / r)) times solver := by
  obtain ⟨c, σ, a, b, sys, hc, sound, hs', ha, hb, hσ, hsys, hp, -, hrun⟩ := hingedCombined_track (q := q) hash g length hsoils hv hk hkm
    near f hf hf1
  obtain ⟨nodes, R, hcut, hwf, hfacts⟩ := (v.withTrack (c.numbered length)).beforeHinge (sound.even length) hk hkm near hp f σ hσ
  obtain ⟨solver, hs⟩ := (v.withTrack (c.numbered length)).solvesOn (hash := hash) nodes R hwf hfacts times htimes
  refine ⟨solver, fun c' run st hc' hr hi => ?_⟩
  rw [hc] at hc'
  cases hc'
  rw [hrun, hcut] at hr
  cases hr
  exact hs st hi

/-- **C162, trains off the rail** A train of which a wheel is at some time in front of the rail or beyond its end, by more than the
tolerance of the check, is refused. -/
theorem C162_rejects (g : GoodSegments r d segments) (length : ℝ) (hsoils : segments.length ≤ soils.length)
    (hv : ∀ w ∈ soils, ({ q.values with soil := w } : TrackValues).Valid) (hk : 2 ≤ k) (hkm : k + 3 ≤ railCount r segments)
    (near : 1 / 100000000 + 1 / 100000 * ((k : ℝ) * (d / r)) < d / r) (f : ℝ) (hf : 0 ≤ f) (hf1 : f ≤ 1)
    (hκ : q.values.rail.kappa ≤ 0) (w : ℕ × ℕ) (hw : w ∈ q.train.wheelList) (hlen : q.vel.length = q.time.length) (t : ℕ)
    (ht : t < q.time.length)
    (hoff : Spec.wheelX q.time q.vel (q.startOf w) t < -(1 / 8388608) ∨
      ((railCount r segments - 1 : ℕ) : ℝ) * (d / r) + 1 / 8388608 < Spec.wheelX q.time q.vel (q.startOf w) t) (times : ℕ)
    (solver : TrimState ℝ → (List (ℕ × List (ℕ → ℝ)) → List (ℕ → ℝ) → ℕ → (ℕ → ℝ) → ℕ → ℝ) → SolverOutput ℝ) :
    ∃ c, combinedTrack hash r d segments = .ok c ∧
      q.mainOnHingedCombined hash c length soils f (k * (d / r)) times solver = .error .valueError := by
  obtain ⟨c, σ, a, b, sys, hc, sound, hs', ha, hb, hσ, hsys, hp, -, hrun⟩ := hingedCombined_track (q := q) hash g length hsoils hv hk hkm
    near f hf hf1
  refine ⟨c, hc, ?_⟩
  unfold TrackRide.mainOnHingedCombined
  rw [hrun, (sound.even length).cutRejects (q := { q with track := c.numbered length }) hk hkm near hκ f σ hσ w hw hlen t ht hoff]
  rfl

/-- C162 is violated: a train that runs over the hinge in steps of at most half an element. At a time when a wheel is one and a half
elements past the hinge and the wheels behind it are more than five elements away from it, the results obey the laws of motion only if
this wheel does not press on the rail at all: the calculation lets no force act on the nodes of the element on which it stands. -/
theorem C162_passed_violated (g : GoodSegments r d segments) (length : ℝ) (hsoils : segments.length ≤ soils.length)
    (kv : KeptValues (d / r) q.values soils) (hk : 2 ≤ k) (hkm : k + 3 ≤ railCount r segments)
    (near : 1 / 100000000 + 1 / 100000 * ((k : ℝ) * (d / r)) < d / r) (f : ℝ) (hf : 0 ≤ f) (hf1 : f ≤ 1)
    (v : q.Runs (railCount r segments - 4) (d / r))
    (hslow : ∀ j, j + 1 < q.time.length → q.vel.getD j 0 * (q.time.getD (j + 1) 0 - q.time.getD j 0) ≤ d / r / 2)
    (times : ℕ) (htimes : times ≤ q.time.length)
    (solver : TrimState ℝ → (List (ℕ × List (ℕ → ℝ)) → List (ℕ → ℝ) → ℕ → (ℕ → ℝ) → ℕ → ℝ) → SolverOutput ℝ)
    (hs : SolvesHinged hash q r d segments length soils f (k * (d / r)) times solver)
    (t : ℕ) (ht : t < times) (w : ℕ) (hw : w < q.train.wheelList.length)
    (hpass : ((k : ℝ) + 1) * (d / r) + d / r / 2 < Spec.wheelX q.time q.vel (q.startOf (q.train.wheelList.getD w (0, 0))) t)
    (hfar : ∀ w' < q.train.wheelList.length,
      q.startOf (q.train.wheelList.getD w' (0, 0)) < q.startOf (q.train.wheelList.getD w (0, 0)) →
      5 * (d / r) < q.startOf (q.train.wheelList.getD w (0, 0)) - q.startOf (q.train.wheelList.getD w' (0, 0))) :
    ∃ c sys res, combinedTrack hash r d segments = .ok c ∧ c.hingedSystem length q.values soils f (k * (d / r)) q.held = .ok sys ∧
      q.mainOnHingedCombined hash c length soils f (k * (d / r)) times solver = .ok res ∧
      res.trackRows.length = times ∧ res.trainRows.length = times ∧
      ∃ (h1 : t < res.trackRows.length) (h2 : t < res.trainRows.length),
        Spec.ObeysLaws hash q sys (d / r) (railCount r segments) c.railNumber res →
        Spec.hertz q.G q.p (q.G * (-q.staticLoad (q.train.wheelList.getD w (0, 0))) ^ (1 / q.p) +
          Spec.railDeflection (d / r) (railCount r segments) c.railNumber
            (Spec.fieldOfRows res.trackRows[t] NodeRow.displacement)
            (Spec.wheelX q.time q.vel (q.startOf (q.train.wheelList.getD w (0, 0))) t) -
          Spec.reportedDof (q.partRow hash res.trainRows[t]) NodeRow.displacement
            (.wheelY (q.train.wheelList.getD w (0, 0)).1 (q.train.wheelList.getD w (0, 0)).2) - q.irr w t) = 0 := by
  obtain ⟨c, σ, a, b, sys, hc, sound, hs', ha, hb, hσ, hsys, hp, hin, hrun⟩ := hingedCombined_track (q := q) hash g length hsoils kv.valid
    hk hkm near f hf hf1
  have hnum := sound.railNumber length
  obtain ⟨run, res, hcut, h1, h2, h3, h4⟩ := (v.withTrack (c.numbered length)).passedHinge (hash := hash) (sound.even length) hk hkm near hp
    (by
      intro i hi hik
      rw [show (c.numbered length).position ((c.numbered length).rail.getD i 0) = c.railNumber i from congrFun hnum i, hin]
      exact sound.hinged_free hs' kv a b ha hb q.held hk hkm (σ / 2) i hi hik)
    hslow f σ hσ times htimes solver (fun run st hr hi => hs c run st hc (by rw [hrun]; exact hr) hi) t ht w hw hpass hfar
  rw [hnum] at h4
  refine ⟨c, sys, res, hc, hsys, ?_, h2, h3, h4⟩
  unfold TrackRide.mainOnHingedCombined
  rw [hrun]
  simp only [bind, Except.bind, hcut]
  exact h1

/-- For every such ride there is a solver as in `C162_passed_violated`. -/
theorem C162_passed_solvable (g : GoodSegments r d segments) (length : ℝ) (hsoils : segments.length ≤ soils.length)
    (hv : ∀ w ∈ soils, ({ q.values with soil := w } : TrackValues).Valid) (hk : 2 ≤ k) (hkm : k + 3 ≤ railCount r segments)
    (near : 1 / 100000000 + 1 / 100000 * ((k : ℝ) * (d / r)) < d / r) (f : ℝ) (hf : 0 ≤ f) (hf1 : f ≤ 1)
    (v : q.Runs (railCount r segments - 4) (d / r))
    (hslow : ∀ j, j + 1 < q.time.length → q.vel.getD j 0 * (q.time.getD (j + 1) 0 - q.time.getD j 0) ≤ d / r / 2)
    (times : ℕ) (htimes : times ≤ q.time.length) :
    ∃ solver, SolvesHinged hash q r d segments length soils f (k * (d / r)) times solver := by
  obtain ⟨c, σ, a, b, sys, hc, sound, hs', ha, hb, hσ, hsys, hp, -, hrun⟩ := hingedCombined_track (q := q) hash g length hsoils hv hk hkm
    near f hf hf1
  obtain ⟨nodes, R, A, hcut, hwf, hat, hfacts⟩ := (v.withTrack (c.numbered length)).acrossHinge (sound.even length) hk hkm near hp hslow f σ hσ
  obtain ⟨solver, hs⟩ := (v.withTrack (c.numbered length)).solvesLifted (hash := hash) nodes R hwf times
    (fun t ht => (hfacts t (by simp only; omega)).1) (by
      intro t ht w hw
      refine ⟨-q.irr w t, fun x hx => ?_⟩
      rw [hat.law w hw, law_hertz _ _ _ _ v.coefficient v.power]
      unfold Spec.hertz
      rw [if_neg (by linarith)])
  refine ⟨solver, fun c' run st hc' hr hi => ?_⟩
  rw [hc] at hc'
  cases hc'
  rw [hrun, hcut] at hr
  cases hr
  exact hs st hi

end claims

/-! ### The scripts with a hinge -/

section script
variable {H : Type*} [DecidableEq H] (hash : (Fin 3 → ℝ) → H)

/-- The solver solves what the calculation of a train of a script with a hinge gives it. -/
def DemoInput.SolvesHinged (i : DemoInput) (f xh : ℝ) (irr : ℕ → ℕ → ℝ)
    (solver : TrimState ℝ → (List (ℕ × List (ℕ → ℝ)) → List (ℕ → ℝ) → ℕ → (ℕ → ℝ) → ℕ → ℝ) → SolverOutput ℝ) (j : DemoJob) : Prop :=
  ∀ c train run st, combinedTrack hash i.perSleeper (3 / 5) (i.sleepers.map fun n => (n, 1)) = .ok c →
    setFullTrain j.train i.start 1 = .ok train →
    (i.ride j (c.numbered (3 / 5)) train irr).coupledOnHingedCombined c (3 / 5) (demoSoils (3 / 5) i.stiffness i.damping) f xh = .ok run →
    run.loadedTrack.input.initialise freshFlags = .ok st →
    Spec.SolvesCoupled (run.system hash st) (run.rhs hash st) (i.ride j (c.numbered (3 / 5)) train irr).time.length
      (solver (run.system hash st) (run.rhs hash st))

/-- A script with a hinge at the rail node `k`: its values fit, the hinge is not at one of the two outermost nodes at either end, the train goes in steps of at
most half an element and stays four elements before the end of the rail. -/
structure DemoInput.FitsHinge (i : DemoInput) (j : DemoJob) (k : ℕ) : Prop where
  fits : i.Fits j
  inner : 2 ≤ k
  count : k + 3 ≤ i.sleepers.sum * i.perSleeper + (i.sleepers.length - 1) * (i.perSleeper - 1)
  near : 1 / 100000000 + 1 / 100000 * ((k : ℝ) * (3 / 5 / i.perSleeper)) < 3 / 5 / i.perSleeper
  half : j.speed * (j.runningTime / (demoSteps j.runningTime i.step - 1)) ≤ 3 / 5 / i.perSleeper / 2
  front : i.start + (Spec.trainSheet j.train).axles.getD 3 0 + j.speed * j.runningTime <
    ((i.sleepers.sum * i.perSleeper + (i.sleepers.length - 1) * (i.perSleeper - 1) - 4 - 1 : ℕ) : ℝ) * (3 / 5 / i.perSleeper)
  rail : RailPresent { demoValues.rail with l := 3 / 5 / i.perSleeper }

theorem demoCount (i : DemoInput) : railCount i.perSleeper (i.sleepers.map fun n => ((n, 1) : ℕ × ℝ)) =
    i.sleepers.sum * i.perSleeper + (i.sleepers.length - 1) * (i.perSleeper - 1) := by
  unfold railCount
  rw [List.map_map, List.length_map, show (Prod.fst ∘ fun n => ((n, 1) : ℕ × ℝ)) = id from rfl, List.map_id]

theorem DemoInput.FitsHinge.kept {i : DemoInput} {j : DemoJob} {k : ℕ} (f : i.FitsHinge j k) :
    KeptValues (3 / 5 / i.perSleeper) demoValues (demoSoils (3 / 5) i.stiffness i.damping) := by
  have htrain := setFullTrain_eq (K := ℝ) j.train f.fits.train i.start 1
  have v := f.fits.valid (HorizontalTrack.mk (fun _ => newNode 0 0 0) [] [] [] [] [] [] [] [] [] 0) _ (fun _ _ => 0) htrain
  refine ⟨v.values, ?_, ?_, f.rail, ?_, ?_⟩
  · intro m hm
    simp only [demoValues, Option.some.injEq] at hm
    linarith
  · intro w hw m hm
    unfold demoSoils at hw
    rw [← List.map_uncurry_zip_eq_zipWith, List.mem_map] at hw
    obtain ⟨⟨k, c⟩, h1, rfl⟩ := hw
    simp [Function.uncurry] at hm
  · norm_num [demoValues]
  · norm_num [demoValues]

/-- The wheels of a cart of a default train: the places on its data sheet. -/
theorem DemoInput.Fits.wheels {i : DemoInput} {j : DemoJob} (f : i.Fits j) (track : HorizontalTrack ℝ) (irr : ℕ → ℕ → ℝ)
    (train : Train ℝ × List ℝ) (htrain : setFullTrain j.train i.start 1 = .ok train) :
    (i.ride j track train irr).train.wheelList = [(0, 0), (0, 1), (1, 0), (1, 1)] ∧
    ∀ a < 4, (i.ride j track train irr).startOf ((i.ride j track train irr).train.wheelList.getD a (0, 0)) =
      i.start + (Spec.trainSheet j.train).axles.getD a 0 := by
  obtain ⟨-, -, -, -, -, h6⟩ := C122_sheet j.train f.train i.start 1 train.1 train.2 htrain
  have hw : (i.ride j track train irr).train.wheelList = [(0, 0), (0, 1), (1, 0), (1, 1)] := by
    have := setFullTrain_eq (K := ℝ) j.train f.train i.start 1
    rw [htrain] at this
    injection this with this
    subst this
    rfl
  refine ⟨hw, fun a ha => ?_⟩
  rw [hw]
  have := (h6 0 (by norm_num) a ha).1
  unfold TrackRide.startOf
  refine Eq.trans ?_ (this.trans (by simp))
  interval_cases a <;> rfl

/-- No wheel of a cart stands less than three metres behind the rear wheel of one of its bogies. -/
theorem sheet_apart (ty : TrainType) (hty : ty ≠ .sprinterSLT) (w : ℕ) (hw : w = 0 ∨ w = 2) (w' : ℕ) (hw' : w' < 4)
    (h : (Spec.trainSheet (K := ℝ) ty).axles.getD w' 0 < (Spec.trainSheet (K := ℝ) ty).axles.getD w 0) :
    3 < (Spec.trainSheet (K := ℝ) ty).axles.getD w 0 - (Spec.trainSheet (K := ℝ) ty).axles.getD w' 0 := by
  revert h
  rcases hw with rfl | rfl <;> interval_cases w' <;> cases ty <;>
    first | exact absurd rfl hty | (simp only [Spec.trainSheet]; norm_num)

/-- C162 is violated by scripts with a hinge: for the rear wheels of the two bogies, whenever they are one and a half elements past the hinge, the
calculation lets no force act on the nodes of the element on which they stand. The train passes the hinge. -/
theorem C162_demo_violated (i : DemoInput) (j : DemoJob) (k : ℕ) (fh : i.FitsHinge j k) (f : ℝ) (hf : 0 ≤ f) (hf1 : f ≤ 1) (irr : ℕ → ℕ → ℝ)
    (solver : TrimState ℝ → (List (ℕ × List (ℕ → ℝ)) → List (ℕ → ℝ) → ℕ → (ℕ → ℝ) → ℕ → ℝ) → SolverOutput ℝ)
    (hs : i.SolvesHinged hash f (k * (3 / 5 / i.perSleeper)) irr solver j) :
    ∃ c train sys res, combinedTrack hash i.perSleeper (3 / 5) (i.sleepers.map fun n => (n, 1)) = .ok c ∧
      setFullTrain j.train i.start 1 = .ok train ∧
      c.hingedSystem (3 / 5) demoValues (demoSoils (3 / 5) i.stiffness i.damping) f (k * (3 / 5 / i.perSleeper)) true = .ok sys ∧
      i.calculateHinged hash f (k * (3 / 5 / i.perSleeper)) irr solver j = .ok res ∧
      res.trackRows.length = 5 + (demoSteps j.runningTime i.step - 1) ∧
      res.trainRows.length = 5 + (demoSteps j.runningTime i.step - 1) ∧
      let q := i.ride j (c.numbered (3 / 5)) train irr
      (Spec.ObeysLaws hash q sys (3 / 5 / i.perSleeper) (railCount i.perSleeper (i.sleepers.map fun n => (n, 1))) c.railNumber res →
        ∀ t (h1 : t < res.trackRows.length) (h2 : t < res.trainRows.length) (w : ℕ), w = 0 ∨ w = 2 →
        ((k : ℝ) + 1) * (3 / 5 / i.perSleeper) + 3 / 5 / i.perSleeper / 2 < Spec.wheelX q.time q.vel (q.startOf (q.train.wheelList.getD w (0, 0))) t →
        Spec.hertz q.G q.p (q.G * (-q.staticLoad (q.train.wheelList.getD w (0, 0))) ^ (1 / q.p) +
          Spec.railDeflection (3 / 5 / i.perSleeper) (railCount i.perSleeper (i.sleepers.map fun n => (n, 1))) c.railNumber
            (Spec.fieldOfRows res.trackRows[t] NodeRow.displacement)
            (Spec.wheelX q.time q.vel (q.startOf (q.train.wheelList.getD w (0, 0))) t) -
          Spec.reportedDof (q.partRow hash res.trainRows[t]) NodeRow.displacement
            (.wheelY (q.train.wheelList.getD w (0, 0)).1 (q.train.wheelList.getD w (0, 0)).2) - q.irr w t) = 0) := by
  have htrain := setFullTrain_eq (K := ℝ) j.train fh.fits.train i.start 1
  set train : Train ℝ × List ℝ := (fullTrain (dataRow (fun _ => (typeData j.train, bodyData j.train)) 1),
    cartPositions i.start (typeData j.train).length 1) with htr
  have v0 := fh.fits.valid (HorizontalTrack.mk (fun _ => newNode 0 0 0) [] [] [] [] [] [] [] [] [] 0) train irr htrain
  obtain ⟨c, -, hc, -⟩ := v0.track hash (3 / 5)
  have hcount := demoCount i
  set q := i.ride j (c.numbered (3 / 5)) train irr with hq
  have v : q.Runs (railCount i.perSleeper (i.sleepers.map fun n => ((n, 1) : ℕ × ℝ)) - 4) (3 / 5 / i.perSleeper) :=
    fh.fits.runs _ train irr htrain _ (by rw [hcount]; exact fh.front)
  have hslow : ∀ j, j + 1 < q.time.length → q.vel.getD j 0 * (q.time.getD (j + 1) 0 - q.time.getD j 0) ≤ 3 / 5 / i.perSleeper / 2 :=
    fun n hn => (fh.fits.step _ train irr n hn).2.trans fh.half
  have hsolves : Rose.SolvesHinged hash q i.perSleeper (3 / 5) (i.sleepers.map fun n => (n, 1)) (3 / 5) (demoSoils (3 / 5) i.stiffness i.damping) f
      (k * (3 / 5 / i.perSleeper)) q.time.length solver := by
    intro c' run st hc' hrun hst
    rw [hc] at hc'
    injection hc' with hc'
    subst hc'
    exact hs c train run st hc htrain hrun hst
  obtain ⟨hw4, hstart⟩ := fh.fits.wheels (c.numbered (3 / 5)) irr train htrain
  have hwl : q.train.wheelList.length = 4 := by rw [hw4]; rfl
  have hkm : k + 3 ≤ railCount i.perSleeper (i.sleepers.map fun n => ((n, 1) : ℕ × ℝ)) := by rw [hcount]; exact fh.count
  have hr1 : (3 / 5 : ℝ) / i.perSleeper ≤ 3 / 5 := div_le_self (by norm_num) (by exact_mod_cast fh.fits.perSleeper.1)
  have htl : q.time.length = 5 + (demoSteps j.runningTime i.step - 1) := demoTime_length _ _ _ _
  obtain ⟨c0, σ, a, b, sys, hc0, sound, hs', ha, hb, hσ, hsys, hp, hin, hrun⟩ := hingedCombined_track (q := q) hash v0.good (3 / 5) v0.enough
    fh.kept.valid fh.inner hkm fh.near f hf hf1
  rw [hc] at hc0
  injection hc0 with hc0
  subst c0
  obtain ⟨nodes, R, A, hcut, hwf, hat, hfacts⟩ := (v.withTrack (c.numbered (3 / 5))).acrossHinge (sound.even (3 / 5)) fh.inner hkm fh.near hp hslow f σ hσ
  obtain ⟨res, m1, m2, m3, -⟩ := C124_motion_partial hash _ hwf q.time.length solver fun st hi => hsolves c _ st hc (by rw [hrun]; exact hcut) hi
  have hmain : q.mainOnHingedCombined hash c (3 / 5) (demoSoils (3 / 5) i.stiffness i.damping) f (k * (3 / 5 / i.perSleeper)) q.time.length solver =
      .ok res := by
    unfold TrackRide.mainOnHingedCombined
    rw [hrun]
    simp only [bind, Except.bind, hcut]
    exact m1
  refine ⟨c, train, sys, res, hc, htrain, hsys, ?_, by rw [m2, htl], by rw [m3, htl], ?_⟩
  · unfold DemoInput.calculateHinged
    have hsys' : c.hingedSystem (3 / 5) demoValues (demoSoils (3 / 5) i.stiffness i.damping) f (k * (3 / 5 / i.perSleeper)) true = .ok sys := hsys
    simp only [demoGeometry_segments, demoGeometry_distance, bind, Except.bind, htrain]
    rw [show (demoGeometry i.perSleeper i.sleepers).perSleeper = i.perSleeper from rfl, hc]
    simp only [hsys']
    exact hmain
  · dsimp only
    intro hlaws t h1 h2 w hw hpass
    obtain ⟨c1, sys1, res1, hc1, hsys1, hmain1, -, -, hl1, hl2, hres⟩ := C162_passed_violated hash v0.good (3 / 5) v0.enough fh.kept fh.inner hkm fh.near f hf hf1 v
      hslow q.time.length le_rfl solver hsolves t (by rw [m2] at h1; exact h1) w (by rw [hwl]; omega) hpass (by
        intro w' hw' hlt
        rw [hwl] at hw'
        have e1 := hstart w' hw'
        have e2 := hstart w (by omega)
        rw [e1, e2] at hlt ⊢
        have := sheet_apart j.train fh.fits.train w hw w' hw' (by linarith)
        linarith)
    rw [hc] at hc1
    injection hc1 with hc1
    subst c1
    rw [hsys] at hsys1
    injection hsys1 with hsys1
    subst sys1
    rw [hmain] at hmain1
    injection hmain1 with hmain1
    subst res1
    exact hres hlaws

/-- For every such script and train there is a solver as in `C162_demo_violated`. -/
theorem C162_demo_solvable (i : DemoInput) (j : DemoJob) (k : ℕ) (fh : i.FitsHinge j k) (f : ℝ) (hf : 0 ≤ f) (hf1 : f ≤ 1) (irr : ℕ → ℕ → ℝ) :
    ∃ solver, i.SolvesHinged hash f (k * (3 / 5 / i.perSleeper)) irr solver j := by
  have htrain := setFullTrain_eq (K := ℝ) j.train fh.fits.train i.start 1
  have v0 := fh.fits.valid (HorizontalTrack.mk (fun _ => newNode 0 0 0) [] [] [] [] [] [] [] [] [] 0) _ irr htrain
  obtain ⟨c, -, hc, -⟩ := v0.track hash (3 / 5)
  have hcount := demoCount i
  obtain ⟨solver, h⟩ := C162_passed_solvable hash v0.good (3 / 5) v0.enough (q := i.ride j (c.numbered (3 / 5)) _ irr) fh.kept.valid fh.inner
    (by rw [hcount]; exact fh.count) fh.near f hf hf1
    (fh.fits.runs _ _ irr htrain _ (by rw [hcount]; exact fh.front)) (fun n hn => (fh.fits.step _ _ irr n hn).2.trans fh.half) _ le_rfl
  refine ⟨solver, fun c' train run st hc' htrain' hrun hst => ?_⟩
  rw [hc] at hc'
  injection hc' with hc'
  subst hc'
  rw [htrain] at htrain'
  injection htrain' with htrain'
  subst htrain'
  exact h c run st hc hrun hst

theorem demo_railPresent : RailPresent { demoValues.rail with l := 3 / 5 / ((1 : ℕ) : ℝ) } := by
  intro k
  rw [BeamPart.stiffness, beamStiffness_eq, BeamPart.massMatrix, beamMass, beamTransMass_eq,
    if_neg (by norm_num [demoValues, timoshenkoFactor])]
  fin_cases k <;> constructor <;> norm_num [demoValues, timoshenkoFactor, fixity]

/-- **C162, the values of `demo_semi_rigid.py`** All trains of the script but the SLT fit its track with the hinge, and each of their wheels is past the hinge at the
last step. -/
theorem C162_shipped (j : DemoJob) (hj : j ∈ demoJobs) (hslt : j.train ≠ .sprinterSLT) : semiRigidInput.FitsHinge j 500 ∧
    ((500 : ℕ) : ℝ) * (3 / 5 / semiRigidInput.perSleeper) = 500 * 0.6 ∧
    ∀ track train irr, setFullTrain j.train semiRigidInput.start 1 = .ok train → ∀ w < 4,
      let q := semiRigidInput.ride j track train irr
      (((500 : ℕ) : ℝ) + 1) * (3 / 5 / semiRigidInput.perSleeper) + 3 / 5 / semiRigidInput.perSleeper / 2 <
        Spec.wheelX q.time q.vel (q.startOf (q.train.wheelList.getD w (0, 0))) (4 + (demoSteps j.runningTime semiRigidInput.step - 1)) := by
  have h14 : demoSteps 14 0.00025 = 56000 := demoSteps_eq _ _ (by norm_num)
  have h23 : demoSteps 23 0.00025 = 92000 := demoSteps_eq _ _ (by norm_num)
  have fits : semiRigidInput.FitsHinge j 500 := by
    simp only [demoJobs, List.mem_cons, List.not_mem_nil, or_false] at hj
    rcases hj with rfl | rfl | rfl | rfl | rfl | rfl <;> first | exact absurd rfl hslt | (
      constructor
      · constructor <;> simp only [semiRigidInput, h14, h23, Spec.trainSheet] <;> first | exact hslt | norm_num
      all_goals first | exact demo_railPresent | (try simp only [semiRigidInput, h14, h23, Spec.trainSheet]) <;> norm_num)
  refine ⟨fits, by norm_num [semiRigidInput], fun track train irr htrain w hw => ?_⟩
  dsimp only
  obtain ⟨-, hstart⟩ := fits.fits.wheels track irr train htrain
  rw [hstart w hw]
  have hsteps := fits.fits.steps
  have hX := C139_position (1 / 10 ^ 4) 5 j.runningTime (demoSteps j.runningTime semiRigidInput.step) j.speed
    (semiRigidInput.start + (Spec.trainSheet j.train).axles.getD w 0) (by norm_num) (4 + (demoSteps j.runningTime semiRigidInput.step - 1)) (by omega)
  refine lt_of_lt_of_eq ?_ hX.symm
  have h5 : 5 < demoSteps j.runningTime semiRigidInput.step := by
    simp only [demoJobs, List.mem_cons, List.not_mem_nil, or_false] at hj
    rcases hj with rfl | rfl | rfl | rfl | rfl | rfl <;> simp only [semiRigidInput, h14, h23] <;> norm_num
  rw [if_neg (by omega), demoTime_getD _ _ _ _ _ (by norm_num) (by omega), demoTime_getD _ _ _ _ _ (by norm_num) (by omega), Spec.demoTimeAt,
    Spec.demoTimeAt, if_neg (by omega), if_neg (by omega)]
  simp only [demoJobs, List.mem_cons, List.not_mem_nil, or_false] at hj
  rcases hj with rfl | rfl | rfl | rfl | rfl | rfl <;> first | exact absurd rfl hslt | (
    simp only [semiRigidInput, h14, h23, Spec.trainSheet]
    interval_cases w <;> norm_num)

/-- **C162, the values of `demo_semi_rigid_rf.py`** The same, if the random fields are positive. -/
theorem C162_shipped_rf (stiffness damping : List ℝ) (h1 : stiffness.length = 1000) (h2 : damping.length = 1000)
    (hpos : ∀ k ∈ stiffness, 0 < k) (j : DemoJob) (hj : j ∈ demoJobs) (hslt : j.train ≠ .sprinterSLT) :
    (rfInput stiffness damping).FitsHinge j 500 := by
  have h14 : demoSteps 14 0.00025 = 56000 := demoSteps_eq _ _ (by norm_num)
  have h23 : demoSteps 23 0.00025 = 92000 := demoSteps_eq _ _ (by norm_num)
  have hfits := C139_shipped_rf stiffness damping h1 h2 hpos j hj hslt
  simp only [demoJobs, List.mem_cons, List.not_mem_nil, or_false] at hj
  rcases hj with rfl | rfl | rfl | rfl | rfl | rfl <;> first | exact absurd rfl hslt | (
    refine ⟨hfits, ?_, ?_, ?_, ?_, ?_, demo_railPresent⟩ <;>
      (try simp only [rfInput, h14, h23, Spec.trainSheet, List.sum_replicate, List.length_replicate]) <;> norm_num)

/-- C162 is violated by the script itself: it stops at its second train, the SLT, after one result; and in this result no force acts on the nodes
under the rear wheels of the two bogies once they are past the hinge (`C162_demo_violated`). -/
theorem C162_script_violated (irr : DemoJob → ℕ → ℕ → ℝ)
    (solver : TrimState ℝ → (List (ℕ × List (ℕ → ℝ)) → List (ℕ → ℝ) → ℕ → (ℕ → ℝ) → ℕ → ℝ) → SolverOutput ℝ)
    (hs : ∀ j ∈ demoJobs, semiRigidInput.SolvesHinged hash 0.9 (500 * 0.6) (irr j) solver j) :
    ∃ res, semiRigidScript hash irr solver = ([res], some .valueError) := by
  have hslt : ∀ start, setFullTrain TrainType.sprinterSLT start 1 = (.error .valueError : Except Err (Train ℝ × List ℝ)) := fun _ => rfl
  have m1 : (⟨.doubleDekker, 140 / 3.6, 14⟩ : DemoJob) ∈ demoJobs := by simp [demoJobs]
  obtain ⟨fits, hx, -⟩ := C162_shipped _ m1 (by simp)
  obtain ⟨c, train, sys, res, hc, -, hsys, hres, -⟩ := C162_demo_violated hash semiRigidInput _ 500 fits 0.9 (by norm_num) (by norm_num) (irr _) solver
    (by rw [hx]; exact hs _ m1)
  rw [hx] at hres hsys
  refine ⟨res, ?_⟩
  have h2 : semiRigidInput.calculateHinged hash 0.9 (500 * 0.6) (irr ⟨.sprinterSLT, 140 / 3.6, 14⟩) solver ⟨.sprinterSLT, 140 / 3.6, 14⟩ =
      .error .valueError := by
    unfold DemoInput.calculateHinged
    simp only [demoGeometry_segments, demoGeometry_distance, bind, Except.bind]
    rw [show (demoGeometry semiRigidInput.perSleeper semiRigidInput.sleepers).perSleeper = semiRigidInput.perSleeper from rfl, hc]
    simp only [hsys, hslt]
  unfold semiRigidScript demoJobs scriptLoop
  rw [hres]
  unfold scriptLoop
  rw [h2]

end script

/-! ### Examples -/

section examples

/-- The shipped script with its first train: there is a solver. -/
example (hash : (Fin 3 → ℝ) → ℕ) (irr : ℕ → ℕ → ℝ) :
    ∃ solver, semiRigidInput.SolvesHinged hash 0.9 (500 * 0.6) irr solver ⟨.doubleDekker, 140 / 3.6, 14⟩ := by
  obtain ⟨fits, hx, -⟩ := C162_shipped ⟨.doubleDekker, 140 / 3.6, 14⟩ (by simp [demoJobs]) (by simp)
  rw [← hx]
  exact C162_demo_solvable hash _ _ 500 fits 0.9 (by norm_num) (by norm_num) irr

example (hash : (Fin 3 → ℝ) → ℕ) (irr : ℕ → ℕ → ℝ) : ∃ solver,
    (rfInput (List.replicate 1000 (10 ^ 8)) (List.replicate 1000 (10 ^ 4))).SolvesHinged hash 0.9
      ((500 : ℕ) * (3 / 5 / (rfInput (List.replicate 1000 (10 ^ 8)) (List.replicate 1000 (10 ^ 4))).perSleeper)) irr solver ⟨.cargoTAPPS, 80 / 3.6, 23⟩ :=
  C162_demo_solvable hash _ _ 500 (C162_shipped_rf _ _ List.length_replicate List.length_replicate
    (fun k hk => by rw [List.eq_of_mem_replicate hk]; norm_num) _ (by simp [demoJobs]) (by simp)) 0.9 (by norm_num) (by norm_num) irr

/-- Three segments with soft, stiff and medium soil and a hinge of fixity factor one half at 3 m, and with a free pin there. -/
example (f : ℝ) (hf : f = 1 / 2 ∨ f = 0) : ∃ c inp st, combinedTrack (fun p : Fin 3 → ℝ => p) 2 (3 / 5) [(3, 1), (1, 2), (4, 1 / 2)] = .ok c ∧
    c.hingedSystem (3 / 5) exampleTrack [⟨10 ^ 7, none, some 1000⟩, ⟨10 ^ 9, some 50, none⟩, ⟨10 ^ 8, none, some 0⟩] f
      ((10 : ℕ) * (3 / 5 / (2 : ℕ))) true = .ok inp ∧ inp.initialise freshFlags = .ok st ∧
      ∀ a b : ℝ, 0 ≤ a → 0 ≤ b → Spec.UniquelySolvable st.N fun i j => st.Kg i j + a * st.C i j + b * st.M i j := by
  have hv : ∀ w ∈ ([⟨10 ^ 7, none, some 1000⟩, ⟨10 ^ 9, some 50, none⟩, ⟨10 ^ 8, none, some 0⟩] : List (RodValues ℝ)),
      ({ exampleTrack with soil := w } : TrackValues).Valid := by
    have h := exampleTrack_valid
    intro w hw
    refine ⟨h.E, h.nu, h.rho, h.A, h.I, h.kappa, h.s1, h.s2, h.pad, ?_⟩
    simp only [List.mem_cons, List.not_mem_nil, or_false] at hw
    rcases hw with rfl | rfl | rfl <;> norm_num
  have hm : ∀ w ∈ ([⟨10 ^ 7, none, some 1000⟩, ⟨10 ^ 9, some 50, none⟩, ⟨10 ^ 8, none, some 0⟩] : List (RodValues ℝ)),
      ({ exampleTrack with soil := w } : TrackValues).NonNeg := by
    have h := exampleTrack_nonNeg
    intro w hw
    simp only [List.mem_cons, List.not_mem_nil, or_false] at hw
    refine ⟨h.padMass, ?_, h.sleeper, h.padDamping, ?_⟩ <;> rcases hw with rfl | rfl | rfl <;> simp <;> norm_num
  have hn : 1 / 100000000 + 1 / 100000 * (((10 : ℕ) : ℝ) * (3 / 5 / (2 : ℕ))) < 3 / 5 / (2 : ℕ) := by norm_num
  rcases hf with rfl | rfl
  · exact C161_semi_rigid _ exampleSegments _ (by norm_num) _ _ (by norm_num) hv hm exampleTrack_rayleigh (by norm_num) (by decide) hn _ (by norm_num)
      (by norm_num) _
  · exact C161_pinned _ exampleSegments _ _ _ (by norm_num) hv hm exampleTrack_rayleigh (by norm_num) (by norm_num) (by decide) (by decide) hn _

theorem twoSegments : GoodSegments 2 (3 / 5) [(60, 1), (50, 3)] := by
  refine ⟨by norm_num, by norm_num, ?_, by norm_num⟩
  intro s hs
  simp only [List.mem_cons, List.not_mem_nil, or_false] at hs
  rcases hs with rfl | rfl <;> norm_num

theorem twoSoils_valid (speed : ℝ) (track : HorizontalTrack ℝ) : ∀ w ∈ ([⟨10 ^ 7, none, some 1000⟩, ⟨10 ^ 9, none, none⟩] : List (RodValues ℝ)),
    ({ (rideAt speed track).values with soil := w } : TrackValues).Valid := by
  have h := bendingTrack_valid
  intro w hw
  refine ⟨h.E, h.nu, h.rho, h.A, h.I, h.kappa, h.s1, h.s2, h.pad, ?_⟩
  simp only [List.mem_cons, List.not_mem_nil, or_false] at hw
  rcases hw with rfl | rfl <;> norm_num

/-- A train in front of a hinge at 45 m on a track of two segments: the conditions of `C162_motion_partial` are met. -/
example (track : HorizontalTrack ℝ) : (rideAt 30 track).Runs 150 (3 / 5 / (2 : ℕ)) ∧
    ∃ solver, SolvesHinged (fun p : Fin 3 → ℝ => p) (rideAt 30 track) 2 (3 / 5) [(60, 1), (50, 3)] (3 / 5)
      [⟨10 ^ 7, none, some 1000⟩, ⟨10 ^ 9, none, none⟩] (1 / 2) ((150 : ℕ) * (3 / 5 / (2 : ℕ))) 3 solver := by
  have v := rideAt_runs 30 (by norm_num) le_rfl track 150 le_rfl
  exact ⟨v, C162_solvable _ twoSegments (3 / 5) (by norm_num) (twoSoils_valid 30 track) (by norm_num) (by decide) (by norm_num) (1 / 2)
    (by norm_num) (by norm_num) v 3 le_rfl⟩

/-- A train that leaves the rail of 66 m is refused. -/
example (track : HorizontalTrack ℝ)
    (solver : TrimState ℝ → (List (ℕ × List (ℕ → ℝ)) → List (ℕ → ℝ) → ℕ → (ℕ → ℝ) → ℕ → ℝ) → SolverOutput ℝ) :
    ∃ c, combinedTrack (fun p : Fin 3 → ℝ => p) 2 (3 / 5) [(60, 1), (50, 3)] = .ok c ∧
      (rideAt 4000 track).mainOnHingedCombined (fun p : Fin 3 → ℝ => p) c (3 / 5) [⟨10 ^ 7, none, some 1000⟩, ⟨10 ^ 9, none, none⟩] (1 / 2)
        ((150 : ℕ) * (3 / 5 / (2 : ℕ))) 3 solver = .error .valueError := by
  refine C162_rejects _ twoSegments (3 / 5) (by norm_num) (twoSoils_valid 4000 track) (by norm_num) (by decide) (by norm_num) (1 / 2)
    (by norm_num) (by norm_num) (rideAt_runs 0 le_rfl (by norm_num) track 150 le_rfl).bending
    ((rideAt 4000 track).train.wheelList.getD 0 (0, 0)) (by rw [rideAt_wheels]; simp) rfl 2 (by norm_num [rideAt, exampleRide])
    (Or.inr ?_) 3 solver
  rw [rideAt_start 4000 track 0 (by norm_num)]
  norm_num [rideAt, exampleRide, Spec.trainSheet, Spec.wheelX, Finset.sum_range_succ, railCount]

/-- Soil values for one segment only. -/
example : ∃ c, combinedTrack (fun p : Fin 3 → ℝ => p) 2 (3 / 5) [(60, 1), (50, 3)] = .ok c ∧
    c.hingedSystem (3 / 5) exampleTrack [⟨10 ^ 7, none, some 1000⟩] (1 / 2) ((150 : ℕ) * (3 / 5 / (2 : ℕ))) true = .error .indexError :=
  C161_rejects _ twoSegments _ _ _ _ (by norm_num) (by norm_num) (by decide) (by norm_num) _ (by norm_num) (by norm_num)

end examples

end Rose
