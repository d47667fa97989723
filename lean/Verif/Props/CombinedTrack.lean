/-
Tracks combined from generated segments: the mesh, the parts, and the laws of a train on them.
-/
import Verif.Props.SoundTrack

set_option linter.unusedSectionVars false

namespace Rose
open Finset

section merge
variable {K : Type*} [Field K] [LinearOrder K] [IsStrictOrderedRing K] {H : Type*} [DecidableEq H]
variable {hash : (Fin 3 → K) → H} {r : ℕ} {d : K} {n : ℕ → ℕ} {h : ℕ → K} {t : ℕ → HorizontalTrack K}

/-- Adding nodes none of which coincides with another appends them. -/
theorem addUnique_apart {ι : Type*} [DecidableEq ι] (hash : (Fin 3 → K) → H) (s : ι → NodeObj K) (acc ns : List ι)
    (hp : (acc ++ ns).Pairwise fun a b => ¬ Coincide (s a).pos (s b).pos) :
    addUniqueNodes hash (s, acc) ns = (s, acc ++ ns) := by
  unfold addUniqueNodes dictAdd
  have := dictFold_id (nodeLaws hash) (acc ++ ns) s [] (by
    refine List.Pairwise.imp ?_ (by simpa using hp)
    intro a b hab
    rw [Bool.eq_false_iff]
    intro hc
    exact hab ((sameNode_iff hash _ _).1 hc).1)
  simpa using this

theorem trackStore_x_ge (n r : ℕ) (d h : K) (hd : 0 ≤ d) (i : ℕ) : 0 ≤ (trackStore n r d h i).pos 0 := by
  unfold trackStore
  split_ifs <;> simp only [newNode, Matrix.cons_val_zero] <;> positivity

theorem segStart_succ (r : ℕ) (n : ℕ → ℕ) (k : ℕ) : segStart r n (k + 1) = segStart r n k + (n k * r + (r - 1)) := by
  unfold segStart
  rw [Finset.sum_range_succ]

theorem segStart_mono (r : ℕ) (n : ℕ → ℕ) {j k : ℕ} (hjk : j ≤ k) : segStart r n j ≤ segStart r n k := by
  unfold segStart
  exact Finset.sum_le_sum_of_subset (Finset.range_mono hjk)

/-- Nodes of generated segments do not coincide after moving. -/
theorem GeneratedTracks.apart (g : GeneratedTracks hash r d n h t) (j j' i i' : ℕ) (hi : i < n j * r + n j + n j)
    (hi' : i' < n j' * r + n j' + n j') (hc : Coincide (movedPos r d n h j i) (movedPos r d n h j' i')) :
    j = j' ∧ i = i' := by
  have hl : (0 : K) < d / r := lt_trans (by norm_num) g.d_tol
  have key : ∀ j j' i i' : ℕ, i < n j * r + n j + n j → j < j' →
      movedPos r d n h j i 0 + d / r ≤ movedPos r d n h j' i' 0 := by
    intro j j' i i' hi hjj
    have h1 := trackStore_x_le (n j) r (g.n_pos j) g.r_pos d (h j) g.d_pos i hi
    have h2 := trackStore_x_ge (n j') r d (h j') g.d_pos.le i'
    have h3 : segStart r n j + (n j * r - 1) + 1 ≤ segStart r n j' := by
      have h4 := segStart_mono r n (show j + 1 ≤ j' from hjj)
      rw [segStart_succ] at h4
      have := Nat.mul_pos (g.n_pos j) g.r_pos
      omega
    have h5 : ((segStart r n j : K) + ((n j * r - 1 : ℕ) : K) + 1) ≤ (segStart r n j' : K) := by exact_mod_cast h3
    have h6 := mul_le_mul_of_nonneg_right h5 hl.le
    simp only [movedPos, Matrix.cons_val_zero]
    linarith
  have h0 := hc 0
  have htol := g.d_tol
  rcases lt_trichotomy j j' with hlt | heq | hlt
  · have := key j j' i i' hi hlt
    rw [abs_le] at h0
    exfalso
    linarith [h0.1]
  · subst heq
    refine ⟨rfl, trackStore_sep (n j) r g.r_pos d (h j) g.d_tol (g.h_tol j) i i' ?_⟩
    intro c
    have := hc c
    fin_cases c
    · simpa [movedPos] using this
    · simpa [movedPos] using this
    · simpa [movedPos] using this
  · have := key j' j i' i hi' hlt
    rw [abs_le] at h0
    exfalso
    linarith [h0.2]

/-- The nodes of the first `k` segments. -/
def segmentNodes (t : ℕ → HorizontalTrack K) (k : ℕ) : List TrackNode := (List.range k).flatMap fun j => (ofTrack j (t j)).mesh

theorem segmentNodes_succ (t : ℕ → HorizontalTrack K) (k : ℕ) :
    segmentNodes t (k + 1) = segmentNodes t k ++ (ofTrack k (t k)).mesh := by
  unfold segmentNodes
  rw [List.range_succ, List.flatMap_append]
  simp

theorem GeneratedTracks.mem_segmentNodes (g : GeneratedTracks hash r d n h t) (k : ℕ) (x : TrackNode) :
    x ∈ segmentNodes t k ↔ ∃ j < k, ∃ i < n j * r + n j + n j, x = .orig j i := by
  simp only [segmentNodes, List.mem_flatMap, List.mem_range, ofTrack, List.mem_map]
  constructor
  · rintro ⟨j, hj, i, hi, rfl⟩
    exact ⟨j, hj, i, ((g.facts j).2.1 i).1 hi, rfl⟩
  · rintro ⟨j, hj, i, hi, rfl⟩
    exact ⟨j, hj, i, ((g.facts j).2.1 i).2 hi, rfl⟩

theorem GeneratedTracks.segmentNodes_nodup (g : GeneratedTracks hash r d n h t) (k : ℕ) : (segmentNodes t k).Nodup := by
  induction k with
  | zero => simp [segmentNodes]
  | succ k ih =>
    rw [segmentNodes_succ, List.nodup_append]
    refine ⟨ih, (g.facts k).1.map fun a b hab => by cases hab; rfl, ?_⟩
    rintro a ha b hb rfl
    obtain ⟨j, hj, i, -, rfl⟩ := (g.mem_segmentNodes k a).1 ha
    obtain ⟨i', -, he⟩ := List.mem_map.1 hb
    injection he with he
    omega

theorem GeneratedTracks.segmentNodes_apart (g : GeneratedTracks hash r d n h t) (k : ℕ) (s : TrackNode → NodeObj K)
    (hs : ∀ j < k, ∀ i < n j * r + n j + n j, (s (.orig j i)).pos = movedPos r d n h j i) :
    (segmentNodes t k).Pairwise fun a b => ¬ Coincide (s a).pos (s b).pos := by
  refine (g.segmentNodes_nodup k).imp_of_mem ?_
  intro a b ha hb hne hc
  obtain ⟨j, hj, i, hi, rfl⟩ := (g.mem_segmentNodes k a).1 ha
  obtain ⟨j', hj', i', hi', rfl⟩ := (g.mem_segmentNodes k b).1 hb
  rw [hs j hj i hi, hs j' hj' i' hi'] at hc
  obtain ⟨rfl, rfl⟩ := g.apart j j' i i' hi hi' hc
  exact hne rfl

/-- Merging the meshes of generated segments moves them one behind the other and keeps all their nodes. -/
theorem mergeMeshes_generated (g : GeneratedTracks hash r d n h t) (m k : ℕ) (s : TrackNode → NodeObj K)
    (hk : ∀ j ≤ k, ∀ i < n j * r + n j + n j, (s (.orig j i)).pos = movedPos r d n h j i)
    (hlater : ∀ j, k < j → j ≤ k + m → ∀ i, (s (.orig j i)).pos = (trackStore (n j) r d (h j) i).pos) :
    ∃ s', mergeMeshes hash d (s, segmentNodes t (k + 1)) ((List.range' k (m + 1)).map fun j => (ofTrack j (t j)).mesh) =
        .ok (s', segmentNodes t (k + m + 1)) ∧
      ∀ j ≤ k + m, ∀ i < n j * r + n j + n j, (s' (.orig j i)).pos = movedPos r d n h j i := by
  induction m generalizing k s with
  | zero => exact ⟨s, by simp [List.range', mergeMeshes], hk⟩
  | succ m ih =>
    obtain ⟨hnd, hmem, -⟩ := g.facts k
    obtain ⟨hnd', hmem', -⟩ := g.facts (k + 1)
    obtain ⟨pos', hmove, hpos1, hpos2⟩ := moveMeshes_generated g 1 k (fun x => (s x).pos) (hk k le_rfl) fun j h1 h2 =>
      hlater j h1 (by omega)
    have hne : (ofTrack k (t k)).mesh ≠ [] := by
      intro hc
      have : (0 : ℕ) ∈ (t k).meshNodes := (hmem 0).2 (by have := g.n_pos k; omega)
      simp only [ofTrack, List.map_eq_nil_iff] at hc
      rw [hc] at this
      simp at this
    obtain ⟨m0, ms, hms⟩ := List.exists_cons_of_ne_nil hne
    have hinj : Function.Injective (TrackNode.orig (k + 1)) := fun a b hab => by cases hab; rfl
    set dx := listMax ((s m0).pos 0) (ms.map fun n => (s n).pos 0) + d with hdx
    have hshift := fun x => shiftMesh_apply (fun x => (s x).pos) (ofTrack (k + 1) (t (k + 1))).mesh (hnd'.map hinj) dx x
    have hpos' : pos' = shiftMesh (fun x => (s x).pos) (ofTrack (k + 1) (t (k + 1))).mesh dx := by
      simp only [List.range', List.map_cons, List.map_nil] at hmove
      rw [hms] at hmove
      simp only [moveMeshes, Except.ok.injEq] at hmove
      exact hmove.symm
    set s1 := shiftNodes s (ofTrack (k + 1) (t (k + 1))).mesh dx with hs1
    have hs1pos : ∀ x, (s1 x).pos = pos' x := by
      intro x
      rw [hpos']
      rfl
    have hs1all : ∀ j ≤ k + 1, ∀ i < n j * r + n j + n j, (s1 (.orig j i)).pos = movedPos r d n h j i := by
      intro j hj i hi
      rw [hs1pos]
      by_cases hjk : j < k
      · rw [hpos2 j hjk i]
        exact hk j (by omega) i hi
      · exact hpos1 j (by omega) (by omega) i hi
    have hadd : addUniqueNodes hash (s1, segmentNodes t (k + 1)) (ofTrack (k + 1) (t (k + 1))).mesh =
        (s1, segmentNodes t (k + 1 + 1)) := by
      rw [segmentNodes_succ t (k + 1)]
      apply addUnique_apart
      rw [← segmentNodes_succ t (k + 1)]
      exact g.segmentNodes_apart (k + 2) s1 fun j hj => hs1all j (by omega)
    obtain ⟨s', h1, h2⟩ := ih (k + 1) s1 hs1all (by
      intro j hj1 hj2 i
      rw [hs1pos, hpos', hshift, if_neg]
      · exact hlater j (by omega) (by omega) i
      · intro hc
        obtain ⟨a, _, ha⟩ := List.mem_map.1 hc
        injection ha with ha _
        omega)
    refine ⟨s', ?_, fun j hj => h2 j (by omega)⟩
    rw [List.range'_succ, List.map_cons]
    rw [List.range'_succ, List.map_cons] at h1 ⊢
    rw [hms, mergeMeshes, ← hdx, ← hs1, hadd, h1]
    rw [show k + 1 + m + 1 = k + (m + 1) + 1 by omega]

/-- Nodes of the rail and of the pad part of joined tracks. -/
theorem joinTracks_members {ι : Type*} [DecidableEq ι] (r : ℕ) (fresh : ℕ → ℕ → ι) (ts : List (TrackSeg ι)) (k : ℕ)
    (pos pos' : ι → Fin 3 → K) (acc t : TrackSeg ι) (hj : joinTracks r fresh k pos acc ts = .ok (pos', t)) :
    t.padNodes = acc.padNodes ++ ts.flatMap TrackSeg.padNodes ∧
      ∀ x, x ∈ t.rail ↔ x ∈ acc.rail ∨ (∃ s ∈ ts, x ∈ s.rail) ∨ ∃ j < ts.length, ∃ i < r - 1, x = fresh (k + j) i := by
  induction ts generalizing k pos acc with
  | nil =>
    simp only [joinTracks, Except.ok.injEq, Prod.mk.injEq] at hj
    obtain ⟨_, rfl⟩ := hj
    simp
  | cons s ts ih =>
    rw [joinTracks] at hj
    cases ha : acc.rail.getLast? with
    | none => rw [ha] at hj; simp at hj
    | some a =>
      cases hb : s.rail.head? with
      | none => rw [ha, hb] at hj; simp at hj
      | some b =>
        rw [ha, hb] at hj
        simp only at hj
        obtain ⟨h1, h2⟩ := ih _ _ _ hj
        refine ⟨by rw [h1]; simp, ?_⟩
        intro x
        rw [h2]
        simp only [List.mem_append, List.mem_map, List.mem_range, List.mem_cons, List.length_cons]
        constructor
        · rintro (((hx | ⟨i, hi, rfl⟩) | hx) | ⟨u, hu, hx⟩ | ⟨j, hj, i, hi, rfl⟩)
          · exact Or.inl hx
          · exact Or.inr (Or.inr ⟨0, by omega, i, hi, rfl⟩)
          · exact Or.inr (Or.inl ⟨s, Or.inl rfl, hx⟩)
          · exact Or.inr (Or.inl ⟨u, Or.inr hu, hx⟩)
          · exact Or.inr (Or.inr ⟨j + 1, by omega, i, hi, by rw [show k + 1 + j = k + (j + 1) by omega]⟩)
        · rintro (hx | ⟨u, rfl | hu, hx⟩ | ⟨j, hj, i, hi, rfl⟩)
          · exact Or.inl (Or.inl (Or.inl hx))
          · exact Or.inl (Or.inr hx)
          · exact Or.inr (Or.inl ⟨u, hu, hx⟩)
          · cases j with
            | zero => exact Or.inl (Or.inl (Or.inr ⟨i, hi, rfl⟩))
            | succ j => exact Or.inr (Or.inr ⟨j, by omega, i, hi, by rw [show k + 1 + j = k + (j + 1) by omega]⟩)

theorem GeneratedTracks.parts (g : GeneratedTracks hash r d n h t) (k : ℕ) :
    (t k).railElements = chainOf (t k).rail ∧ (t k).pads = (List.range (n k)).map (fun i => (i * r, n k * r + i)) ∧
    (t k).soil = (List.range (n k)).map (fun i => (n k * r + i, n k * r + n k + i)) ∧
    (t k).padNodes = (List.range (n k)).flatMap (fun i => [i * r, n k * r + i]) ∧
    (t k).soilNodes = (List.range (n k)).flatMap fun i => [n k * r + i, n k * r + n k + i] := by
  have hc := g.created k
  obtain ⟨t', ht', -, -, hch, -⟩ := C48_structure hash (n k) r g.r_pos d (h k)
  rw [hc] at ht'
  injection ht' with ht'
  rw [createHorizontalTrack_eq hash (n k) r g.r_pos d (h k)] at hc
  simp only [Except.ok.injEq] at hc
  refine ⟨by rw [ht']; exact hch, by rw [← hc], by rw [← hc], by rw [← hc], by rw [← hc]⟩

/-- The combination of `m + 1` generated segments. -/
theorem combine_horizontal_generated (g : GeneratedTracks hash r d n h t) (m : ℕ) (store : TrackNode → NodeObj K)
    (hstore : ∀ j ≤ m, ∀ i, (store (.orig j i)).pos = (trackStore (n j) r d (h j) i).pos) :
    ∃ c, combineHorizontalTracks hash r d .joint store ((List.range (m + 1)).map fun j => ofTrack j (t j)) = .ok c ∧
      c.meshNodes = segmentNodes t (m + 1) ++ (List.range m).flatMap (fun k => (List.range (r - 1)).map (.joint k)) ∧
      c.rail.length = segStart r n m + n m * r ∧
      (∀ i (hi : i < c.rail.length), (c.store c.rail[i]).pos = ![(i : K) * (d / r), 0, 0]) ∧
      c.railElements = chainOf c.rail ∧
      (∀ x, x ∈ c.rail ↔ (∃ j ≤ m, ∃ i < n j * r, x = .orig j i) ∨ ∃ j < m, ∃ i < r - 1, x = .joint j i) ∧
      c.sleepers = (List.range (m + 1)).flatMap (fun j => (List.range (n j)).map fun i => .orig j (n j * r + i)) ∧
      c.pads = (List.range (m + 1)).flatMap (fun j => (List.range (n j)).map fun i => (.orig j (i * r), .orig j (n j * r + i))) ∧
      c.padNodes = (List.range (m + 1)).flatMap (fun j => (List.range (n j)).flatMap fun i =>
        [.orig j (i * r), .orig j (n j * r + i)]) ∧
      c.soils = (List.range (m + 1)).map (fun j =>
        ((List.range (n j)).map fun i => (.orig j (n j * r + i), .orig j (n j * r + n j + i)),
          (List.range (n j)).flatMap fun i => [.orig j (n j * r + i), .orig j (n j * r + n j + i)])) ∧
      (∀ j ≤ m, ∀ i < n j * r + n j + n j, (c.store (.orig j i)).pos = movedPos r d n h j i) ∧
      ∀ i (hi : i < c.meshNodes.length), (c.store c.meshNodes[i]).index = some i := by
  have hlist : (List.range (m + 1)).map (fun j => ofTrack j (t j)) =
      ofTrack 0 (t 0) :: (List.range' 1 m).map fun j => ofTrack j (t j) := by
    rw [List.range_eq_range', List.range'_succ, List.map_cons]
  have hz : segStart r n 0 = 0 := by simp [segStart]
  have h00 : ∀ i, (store (.orig 0 i)).pos = movedPos r d n h 0 i := by
    intro i
    rw [hstore 0 (by omega) i]
    simp only [movedPos, hz]
    ext c
    fin_cases c <;> simp
  have h0 : addUniqueNodes hash (store, []) (ofTrack 0 (t 0)).mesh = (store, segmentNodes t (0 + 1)) := by
    have e : segmentNodes t (0 + 1) = [] ++ (ofTrack 0 (t 0)).mesh := by simp [segmentNodes]
    rw [e]
    apply addUnique_apart
    rw [← e]
    refine g.segmentNodes_apart 1 store ?_
    intro j hj i _
    obtain rfl : j = 0 := by omega
    exact h00 i
  obtain ⟨s, hmerge, hs⟩ := mergeMeshes_generated g m 0 store
    (by
      intro j hj i _
      obtain rfl : j = 0 := by omega
      exact h00 i)
    (fun j _ hj i => hstore j (by omega) i)
  rw [show 0 + m + 1 = m + 1 by omega] at hmerge
  have hs' : ∀ j ≤ m, ∀ i < n j * r + n j + n j, (s (.orig j i)).pos = movedPos r d n h j i :=
    fun j hj => hs j (by omega)
  obtain ⟨-, -, -, hr0, hs0⟩ := g.facts 0
  obtain ⟨pos', res, h3, h4, h5, -, h7⟩ := joinTracks_generated g m 0 (fun x => (s x).pos) (ofTrack 0 (t 0))
    (by simp [ofTrack, hr0, hz])
    (by
      intro x hx k' i _
      simp only [ofTrack, List.mem_map] at hx
      obtain ⟨j, _, rfl⟩ := hx
      intro hc; cases hc)
    (by
      intro i hi
      have hi' : i < n 0 * r := by simpa [ofTrack, hr0] using hi
      rw [List.getD_eq_getElem _ _ hi]
      simp only [ofTrack, hr0, List.getElem_map, List.getElem_range]
      rw [hs' 0 (by omega) i (by omega)]
      simp only [movedPos, trackStore_rail _ _ _ _ _ hi', hz]
      simp [mul_div_assoc])
    (by
      intro x hx k' i
      simp only [ofTrack, List.mem_map] at hx
      obtain ⟨j, _, rfl⟩ := hx
      intro hc; cases hc)
    (by
      intro _
      refine ⟨by simp [ofTrack, hs0, hz], ?_⟩
      intro i hi
      have hi' : i < n 0 := by simpa [ofTrack, hs0] using hi
      rw [List.getD_eq_getElem _ _ hi]
      simp only [ofTrack, hs0, List.getElem_map, List.getElem_range]
      rw [hs' 0 (by omega) _ (by omega)]
      simp only [movedPos, trackStore_sleeper _ _ _ _ _ hi', hz]
      simp)
    (fun j _ hj i hi => hs' j (by omega) i hi)
  simp only [zero_add] at h3 h4
  have hchain : ∀ j, (ofTrack j (t j)).railElements = chainOf (ofTrack j (t j)).rail := by
    intro j
    show (t j).railElements.map _ = chainOf ((t j).rail.map _)
    rw [(g.parts j).1, chainOf_map]
  obtain ⟨c1, c2, c3, -, -⟩ := joinTracks_chain r TrackNode.joint _ 0 _ pos' (ofTrack 0 (t 0)) res h3 (hchain 0) (by
    intro x hx
    obtain ⟨j, -, rfl⟩ := List.mem_map.mp hx
    exact hchain j)
  obtain ⟨b1, b2⟩ := joinTracks_members r TrackNode.joint _ 0 _ pos' (ofTrack 0 (t 0)) res h3
  have hflat : ∀ {β : Type} (f : TrackSeg TrackNode → List β), f (ofTrack 0 (t 0)) ++
      ((List.range' 1 m).map fun j => ofTrack j (t j)).flatMap f = (List.range (m + 1)).flatMap fun j => f (ofTrack j (t j)) := by
    intro β f
    rw [List.range_eq_range', List.range'_succ, List.flatMap_cons, List.flatMap_map]
  rw [hflat] at c2 c3 b1
  set mesh := segmentNodes t (m + 1) ++ (List.range m).flatMap (fun k => (List.range (r - 1)).map (TrackNode.joint k)) with hmesh
  have hnodup : mesh.Nodup := by
    rw [hmesh, List.nodup_append]
    refine ⟨g.segmentNodes_nodup (m + 1), ?_, ?_⟩
    · rw [List.nodup_flatMap]
      refine ⟨fun k _ => List.nodup_range.map fun a b hab => by cases hab; rfl, ?_⟩
      refine List.nodup_range.imp ?_
      intro a b hab x hx hy
      obtain ⟨_, -, rfl⟩ := List.mem_map.1 hx
      obtain ⟨_, -, he⟩ := List.mem_map.1 hy
      injection he with he
      exact hab he.symm
    · rintro a ha b hb rfl
      obtain ⟨j, hj, i, -, rfl⟩ := (g.mem_segmentNodes (m + 1) a).1 ha
      obtain ⟨_, -, hb⟩ := List.mem_flatMap.1 hb
      obtain ⟨_, -, he⟩ := List.mem_map.1 hb
      cases he
  have hres : combineHorizontalTracks hash r d .joint store ((List.range (m + 1)).map fun j => ofTrack j (t j)) = .ok
      { store := reorderIds (fun (a : NodeObj K) i => { a with index := some i }) 0 (fun k => { s k with pos := pos' k }) mesh
        meshNodes := mesh
        rail := res.rail, railElements := res.railElements, sleepers := res.sleepers
        padNodes := res.padNodes, pads := res.pads
        soils := ((List.range (m + 1)).map fun j => ofTrack j (t j)).map fun s => (s.soil, s.soilNodes) } := by
    rw [hlist, combineHorizontalTracks, ← hlist, h0, List.map_map]
    have hm' : mergeMeshes hash d (store, segmentNodes t (0 + 1)) ((List.range (m + 1)).map (TrackSeg.mesh ∘ fun j =>
        ofTrack j (t j))) = .ok (s, segmentNodes t (m + 1)) := by
      rw [List.range_eq_range']
      exact hmerge
    simp only [hm', h3, bind, Except.bind, List.length_map, List.length_range']
    rfl
  refine ⟨_, hres, rfl, h4, ?_, c1, ?_, ?_, ?_, ?_, ?_, ?_, ?_⟩
  · intro i hi
    rw [reorder_pos]
    have := h5 i hi
    rwa [List.getD_eq_getElem _ _ hi] at this
  · intro x
    show x ∈ res.rail ↔ _
    rw [b2]
    simp only [List.length_map, List.length_range', zero_add]
    have hrail : ∀ j, x ∈ (ofTrack j (t j)).rail ↔ ∃ i < n j * r, x = .orig j i := by
      intro j
      simp only [ofTrack, (g.facts j).2.2.2.1, List.mem_map, List.mem_range]
      constructor
      · rintro ⟨i, hi, rfl⟩; exact ⟨i, hi, rfl⟩
      · rintro ⟨i, hi, rfl⟩; exact ⟨i, hi, rfl⟩
    constructor
    · rintro (hx | ⟨u, hu, hx⟩ | hx)
      · exact Or.inl ⟨0, by omega, (hrail 0).1 hx⟩
      · obtain ⟨j, hj, rfl⟩ := List.mem_map.1 hu
        rw [List.mem_range'_1] at hj
        exact Or.inl ⟨j, by omega, (hrail j).1 hx⟩
      · exact Or.inr hx
    · rintro (⟨j, hj, hx⟩ | hx)
      · rw [← hrail] at hx
        cases j with
        | zero => exact Or.inl hx
        | succ j =>
          exact Or.inr (Or.inl ⟨_, List.mem_map.2 ⟨j + 1, List.mem_range'_1.2 (by omega), rfl⟩, hx⟩)
      · exact Or.inr (Or.inr hx)
  · show res.sleepers = _
    rw [c2]
    congr 1
    funext j
    simp only [ofTrack, (g.facts j).2.2.2.2, List.map_map]
    rfl
  · show res.pads = _
    rw [c3]
    congr 1
    funext j
    simp only [ofTrack, (g.parts j).2.1, List.map_map]
    rfl
  · show res.padNodes = _
    rw [b1]
    congr 1
    funext j
    simp only [ofTrack, (g.parts j).2.2.2.1, List.map_flatMap]
    rfl
  · show List.map _ (List.map _ _) = _
    rw [List.map_map]
    congr 1
    funext j
    simp only [Function.comp, ofTrack, (g.parts j).2.2.1, (g.parts j).2.2.2.2, List.map_flatMap, List.map_map]
    rfl
  · intro j hj i hi
    simp only [reorder_pos]
    rw [h7]
    exact hs' j hj i hi
  · intro i hi
    have := reorder_inside (fun (a : NodeObj K) i => { a with index := some i }) mesh hnodup 0
      (fun k => { s k with pos := pos' k }) i hi
    simp only [zero_add] at this
    exact congrArg NodeObj.index this

end merge

section real
variable {H : Type*} [DecidableEq H]
variable {hash : (Fin 3 → ℝ) → H} {r : ℕ} {d : ℝ} {n : ℕ → ℕ} {h : ℕ → ℝ} {t : ℕ → HorizontalTrack ℝ}

/-- Two or more sleepers in generated segments combine to a track in order. -/
theorem combine_sound (g : GeneratedTracks hash r d n h t) (m : ℕ) (store : TrackNode → NodeObj ℝ)
    (hstore : ∀ j ≤ m, ∀ i, (store (.orig j i)).pos = (trackStore (n j) r d (h j) i).pos)
    (htwo : 0 < m ∨ 2 ≤ n 0) (c : CombinedTrack TrackNode ℝ)
    (hc : combineHorizontalTracks hash r d .joint store ((List.range (m + 1)).map fun j => ofTrack j (t j)) = .ok c) :
    SoundTrack c (segStart r n m + n m * r) (d / r) := by
  obtain ⟨c', hc', hmesh, hlen, hpos, hchain, hrail, hsl, hpads, hpn, hsoils, hstore', -⟩ :=
    combine_horizontal_generated g m store hstore
  rw [hc] at hc'
  injection hc' with hc'
  subst hc'
  have hr := g.r_pos
  have hl : (0 : ℝ) < d / r := lt_trans (by norm_num) g.d_tol
  have hir : ∀ j, ∀ i < n j, i * r < n j * r := fun j i hi => Nat.mul_lt_mul_of_pos_right hi hr
  have hr' : (r : ℝ) ≠ 0 := by exact_mod_cast hr.ne'
  have msl : ∀ x, x ∈ c.sleepers ↔ ∃ j ≤ m, ∃ i < n j, x = .orig j (n j * r + i) := by
    intro x
    rw [hsl]
    simp only [List.mem_flatMap, List.mem_range, List.mem_map]
    constructor
    · rintro ⟨j, hj, i, hi, rfl⟩; exact ⟨j, by omega, i, hi, rfl⟩
    · rintro ⟨j, hj, i, hi, rfl⟩; exact ⟨j, by omega, i, hi, rfl⟩
  have mpads : ∀ e, e ∈ c.pads ↔ ∃ j ≤ m, ∃ i < n j, e = (.orig j (i * r), .orig j (n j * r + i)) := by
    intro x
    rw [hpads]
    simp only [List.mem_flatMap, List.mem_range, List.mem_map]
    constructor
    · rintro ⟨j, hj, i, hi, rfl⟩; exact ⟨j, by omega, i, hi, rfl⟩
    · rintro ⟨j, hj, i, hi, rfl⟩; exact ⟨j, by omega, i, hi, rfl⟩
  have msoil : ∀ p, p ∈ c.soils → ∃ j ≤ m,
      p.1 = (List.range (n j)).map (fun i => (TrackNode.orig j (n j * r + i), TrackNode.orig j (n j * r + n j + i))) ∧
      p.2 = (List.range (n j)).flatMap fun i => [.orig j (n j * r + i), .orig j (n j * r + n j + i)] := by
    intro p hp
    rw [hsoils] at hp
    obtain ⟨j, hj, rfl⟩ := List.mem_map.mp hp
    rw [List.mem_range] at hj
    exact ⟨j, by omega, rfl, rfl⟩
  have msoil' : ∀ j ≤ m, ((List.range (n j)).map (fun i => (TrackNode.orig j (n j * r + i), TrackNode.orig j (n j * r + n j + i))),
      (List.range (n j)).flatMap fun i => [TrackNode.orig j (n j * r + i), .orig j (n j * r + n j + i)]) ∈ c.soils := by
    intro j hj
    rw [hsoils]
    exact List.mem_map.mpr ⟨j, List.mem_range.mpr (by omega), rfl⟩
  have mmesh : ∀ x, x ∈ c.meshNodes ↔ (∃ j ≤ m, ∃ i < n j * r + n j + n j, x = .orig j i) ∨ ∃ j < m, ∃ i < r - 1, x = .joint j i := by
    intro x
    rw [hmesh, List.mem_append, g.mem_segmentNodes]
    simp only [List.mem_flatMap, List.mem_range, List.mem_map]
    constructor
    · rintro (⟨j, hj, i, hi, rfl⟩ | ⟨j, hj, i, hi, rfl⟩)
      · exact Or.inl ⟨j, by omega, i, hi, rfl⟩
      · exact Or.inr ⟨j, hj, i, hi, rfl⟩
    · rintro (⟨j, hj, i, hi, rfl⟩ | ⟨j, hj, i, hi, rfl⟩)
      · exact Or.inl ⟨j, by omega, i, hi, rfl⟩
      · exact Or.inr ⟨j, hj, i, hi, rfl⟩
  have xs : ∀ j ≤ m, ∀ i < n j, (c.store (.orig j (n j * r + i))).pos =
      ![(i : ℝ) * d + (segStart r n j : ℝ) * (d / r), -1, 0] := by
    intro j hj i hi
    rw [hstore' j hj _ (by omega)]
    simp only [movedPos, trackStore_sleeper _ _ _ _ _ hi]
    rfl
  refine ⟨?_, hl, hlen, hpos, hchain, ?_, ?_, ?_, ?_, ?_, ?_, ?_, ?_, ?_, ?_⟩
  · rcases htwo with h1 | h1
    · obtain ⟨k, rfl⟩ : ∃ k, m = k + 1 := ⟨m - 1, by omega⟩
      rw [segStart_succ]
      have := Nat.mul_pos (g.n_pos k) hr
      have := Nat.mul_pos (g.n_pos (k + 1)) hr
      omega
    · cases m with
      | zero => nlinarith
      | succ k =>
        rw [segStart_succ]
        have := Nat.mul_pos (g.n_pos k) hr
        have := Nat.mul_pos (g.n_pos (k + 1)) hr
        omega
  · rw [hmesh, List.nodup_append]
    refine ⟨g.segmentNodes_nodup (m + 1), ?_, ?_⟩
    · rw [List.nodup_flatMap]
      refine ⟨fun k _ => List.nodup_range.map fun a b hab => by cases hab; rfl, ?_⟩
      refine List.nodup_range.imp ?_
      intro a b hab x hx hy
      obtain ⟨_, -, rfl⟩ := List.mem_map.1 hx
      obtain ⟨_, -, he⟩ := List.mem_map.1 hy
      injection he with he
      exact hab he.symm
    · rintro a ha b hb rfl
      obtain ⟨j, hj, i, -, rfl⟩ := (g.mem_segmentNodes (m + 1) a).1 ha
      obtain ⟨_, -, hb⟩ := List.mem_flatMap.1 hb
      obtain ⟨_, -, he⟩ := List.mem_map.1 hb
      cases he
  · intro x
    rw [mmesh, hrail, msl]
    constructor
    · rintro (⟨j, hj, i, hi, rfl⟩ | hx)
      · by_cases h1 : i < n j * r
        · exact Or.inl (Or.inl ⟨j, hj, i, h1, rfl⟩)
        · by_cases h2 : i < n j * r + n j
          · refine Or.inr (Or.inl ⟨j, hj, i - n j * r, by omega, ?_⟩)
            rw [Nat.add_sub_cancel' (by omega)]
          · refine Or.inr (Or.inr ⟨_, msoil' j hj, _, List.mem_map.mpr ⟨i - (n j * r + n j), List.mem_range.mpr (by omega), rfl⟩, ?_⟩)
            simp only
            rw [Nat.add_sub_cancel' (by omega)]
      · exact Or.inl (Or.inr hx)
    · rintro ((⟨j, hj, i, hi, rfl⟩ | hx) | ⟨j, hj, i, hi, rfl⟩ | ⟨p, hp, e, he, rfl⟩)
      · exact Or.inl ⟨j, hj, i, by omega, rfl⟩
      · exact Or.inr hx
      · exact Or.inl ⟨j, hj, _, by omega, rfl⟩
      · obtain ⟨j, hj, h1, -⟩ := msoil p hp
        rw [h1] at he
        obtain ⟨i, hi, rfl⟩ := List.mem_map.mp he
        rw [List.mem_range] at hi
        exact Or.inl ⟨j, hj, _, by omega, rfl⟩
  · intro x hx
    obtain ⟨j, hj, i, hi, rfl⟩ := (msl x).1 hx
    rw [xs j hj i hi]
    rfl
  · intro e he
    obtain ⟨j, hj, i, hi, rfl⟩ := (mpads e).1 he
    have := hir j i hi
    refine ⟨(hrail _).2 (Or.inl ⟨j, hj, _, this, rfl⟩), (msl _).2 ⟨j, hj, i, hi, rfl⟩, ?_⟩
    rw [xs j hj i hi, hstore' j hj _ (by omega)]
    simp only [movedPos, trackStore_rail _ _ _ _ _ this, Matrix.cons_val_zero]
    push_cast
    field_simp
  · intro x hx
    rw [hpn] at hx
    simp only [List.mem_flatMap, List.mem_range, List.mem_cons, List.not_mem_nil, or_false] at hx
    obtain ⟨j, hj, i, hi, rfl | rfl⟩ := hx
    · exact Or.inl ((hrail _).2 (Or.inl ⟨j, by omega, _, hir j i hi, rfl⟩))
    · exact Or.inr ((msl _).2 ⟨j, by omega, i, hi, rfl⟩)
  · intro p hp
    obtain ⟨j, hj, h1, -⟩ := msoil p hp
    have := g.n_pos j
    rw [h1]
    simp
    omega
  · intro p hp e he
    obtain ⟨j, hj, h1, -⟩ := msoil p hp
    rw [h1] at he
    obtain ⟨i, hi, rfl⟩ := List.mem_map.mp he
    rw [List.mem_range] at hi
    have hh := g.h_tol j
    refine ⟨(msl _).2 ⟨j, hj, i, hi, rfl⟩, ?_, ?_⟩
    · rw [xs j hj i hi, hstore' j hj _ (by omega)]
      simp only [movedPos, trackStore_bottom]
      rfl
    · rw [hstore' j hj _ (by omega)]
      simp only [movedPos, trackStore_bottom, Matrix.cons_val_one, Matrix.cons_val_zero]
      have : (0 : ℝ) < h j := lt_trans (by norm_num) hh
      linarith
  · intro p hp x hx
    obtain ⟨j, hj, -, h2⟩ := msoil p hp
    rw [h2] at hx
    simp only [List.mem_flatMap, List.mem_range, List.mem_cons, List.not_mem_nil, or_false] at hx
    rw [mmesh]
    obtain ⟨i, hi, rfl | rfl⟩ := hx
    · exact Or.inl ⟨j, hj, _, by omega, rfl⟩
    · exact Or.inl ⟨j, hj, _, by omega, rfl⟩
  · intro x hx
    obtain ⟨j, hj, i, hi, rfl⟩ := (msl x).1 hx
    exact ⟨_, msoil' j hj, _, List.mem_map.mpr ⟨i, List.mem_range.mpr hi, rfl⟩, rfl⟩
  · rcases htwo with h1 | h1
    · refine ⟨_, (mpads _).2 ⟨0, by omega, 0, g.n_pos 0, rfl⟩, _, (mpads _).2 ⟨1, by omega, 0, g.n_pos 1, rfl⟩, ?_⟩
      intro he
      simp at he
    · refine ⟨_, (mpads _).2 ⟨0, by omega, 0, g.n_pos 0, rfl⟩, _, (mpads _).2 ⟨0, by omega, 1, by omega, rfl⟩, ?_⟩
      intro he
      simp at he
      omega

end real

/-! ### C136 -/

/-- Segments that can be combined: each with a positive number of sleepers and a soil depth above the merging tolerance; at
least two sleepers in all. -/
structure GoodSegments (r : ℕ) (d : ℝ) (segments : List (ℕ × ℝ)) : Prop where
  r_pos : 0 < r
  distance : 1 / 1000000000 < d / r
  each : ∀ s ∈ segments, 0 < s.1 ∧ 1 / 1000000000 < s.2
  two : 2 ≤ (segments.map Prod.fst).sum

/-- The number of rail nodes of combined segments: `r` per sleeper and `r - 1` at each joint. -/
def railCount (r : ℕ) (segments : List (ℕ × ℝ)) : ℕ := (segments.map Prod.fst).sum * r + (segments.length - 1) * (r - 1)

section claims
variable {H : Type*} [DecidableEq H] (hash : (Fin 3 → ℝ) → H) {r : ℕ} {d : ℝ} {segments : List (ℕ × ℝ)}

theorem segStart_eq (r : ℕ) (n : ℕ → ℕ) (k : ℕ) : segStart r n k = (∑ j ∈ range k, n j) * r + k * (r - 1) := by
  unfold segStart
  rw [Finset.sum_add_distrib, Finset.sum_mul]
  simp

theorem sum_getD (l : List (ℕ × ℝ)) (x : ℕ × ℝ) : ∑ j ∈ range l.length, (l.getD j x).1 = (l.map Prod.fst).sum := by
  induction l with
  | nil => simp
  | cons a l ih =>
    rw [List.length_cons, Finset.sum_range_succ']
    simp only [List.getD_cons_succ, List.getD_cons_zero, List.map_cons, List.sum_cons, ih]
    omega

/-- Generation and combination of segments as combination of generated tracks. -/
theorem combinedTrack_generated (g : GoodSegments r d segments) :
    ∃ (n : ℕ → ℕ) (h : ℕ → ℝ) (t : ℕ → HorizontalTrack ℝ) (m : ℕ) (store : TrackNode → NodeObj ℝ),
      GeneratedTracks hash r d n h t ∧ segments.length = m + 1 ∧ (∀ k (hk : k < segments.length), segments[k] = (n k, h k)) ∧
      (∀ j ≤ m, ∀ i, (store (.orig j i)).pos = (trackStore (n j) r d (h j) i).pos) ∧ (0 < m ∨ 2 ≤ n 0) ∧
      segStart r n m + n m * r = railCount r segments ∧
      combinedTrack hash r d segments =
        combineHorizontalTracks hash r d .joint store ((List.range (m + 1)).map fun j => ofTrack j (t j)) := by
  have hne : segments ≠ [] := by
    rintro rfl
    have := g.two
    simp at this
  obtain ⟨m, hm⟩ : ∃ m, segments.length = m + 1 := by
    have := List.length_pos_of_ne_nil hne
    exact ⟨segments.length - 1, by omega⟩
  have hcreate : ∀ s : ℕ × ℝ, ∃ t, createHorizontalTrack hash s.1 r d s.2 = .ok t := by
    intro s
    obtain ⟨t, ht, -⟩ := C48_structure hash s.1 r g.r_pos d s.2
    exact ⟨t, ht⟩
  choose T hT using hcreate
  have hseg : ∀ k, segments.getD k (segments.head hne) ∈ segments := by
    intro k
    by_cases hk : k < segments.length
    · rw [List.getD_eq_getElem _ _ hk]; exact List.getElem_mem hk
    · rw [List.getD_eq_default _ _ (by omega)]; exact List.head_mem hne
  set n := fun k => (segments.getD k (segments.head hne)).1 with hn
  set h := fun k => (segments.getD k (segments.head hne)).2 with hh
  set t := fun k => T (segments.getD k (segments.head hne)) with ht
  have gen : GeneratedTracks hash r d n h t :=
    ⟨g.r_pos, fun k => (g.each _ (hseg k)).1, g.distance, fun k => (g.each _ (hseg k)).2, fun k => hT _⟩
  refine ⟨n, h, t, m, trackObjects (segments.map T), gen, hm, ?_, ?_, ?_, ?_, ?_⟩
  · intro k hk
    simp only [hn, hh, List.getD_eq_getElem _ _ hk]
  · intro j hj i
    have hj' : j < segments.length := by omega
    have e : t j = T segments[j] := by simp only [ht, List.getD_eq_getElem _ _ hj']
    simp only [trackObjects, List.getElem?_map, List.getElem?_eq_getElem hj', Option.map_some]
    rw [← e]
    exact (gen.facts j).2.2.1 i
  · by_cases h0 : 0 < m
    · exact Or.inl h0
    · right
      have h1 := sum_getD segments (segments.head hne)
      obtain rfl : m = 0 := by omega
      rw [hm] at h1
      simp only [zero_add, Finset.sum_range_one] at h1
      have := g.two
      simp only [hn]
      omega
  · have h1 := sum_getD segments (segments.head hne)
    rw [hm, Finset.sum_range_succ] at h1
    rw [segStart_eq]
    unfold railCount
    rw [← h1, hm]
    simp only [hn]
    rw [Nat.add_sub_cancel]
    ring
  · have hmap := mapM_eq_map (fun s : ℕ × ℝ => createHorizontalTrack hash s.1 r d s.2) T segments fun s _ => hT s
    have hzip : (segments.map T).zipIdx.map (fun p => ofTrack p.2 p.1) = (List.range (m + 1)).map fun j => ofTrack j (t j) := by
      apply List.ext_getElem
      · simp [hm]
      · intro j h1 h2
        have hj : j < segments.length := by simpa using h1
        simp only [List.getElem_map, List.getElem_zipIdx, List.getElem_range, zero_add, ht, List.getD_eq_getElem _ _ hj]
    unfold combinedTrack
    simp only [hmap, bind, Except.bind]
    rw [hzip]

/-- **C136** Any segments with positive numbers of sleepers and depths, at least two sleepers in all, generate and combine to
a track in order (`SoundTrack`): the nodes of its mesh are the rail nodes (on a line, at equal distances `d / r` also across
the joints), the sleepers and the nodes below the soil, each once; the rail elements are the chain of the rail nodes; pads
and soil elements are vertical. No two nodes of the mesh coincide; nodes are numbered by their position in the mesh. Each
sleeper has one pad and one soil element. There is one soil part for each segment, with as many elements as the segment has
sleepers, ending at the depth of that segment. -/
theorem C136_structure (g : GoodSegments r d segments) :
    ∃ c, combinedTrack hash r d segments = .ok c ∧ SoundTrack c (railCount r segments) (d / r) ∧
      c.meshNodes.Pairwise (fun a b => ¬ Coincide (c.store a).pos (c.store b).pos) ∧
      (∀ i (hi : i < c.meshNodes.length), (c.store c.meshNodes[i]).index = some i) ∧
      c.sleepers.Nodup ∧ c.sleepers.length = (segments.map Prod.fst).sum ∧
      c.pads.map Prod.snd = c.sleepers ∧ (c.soils.flatMap Prod.fst).map Prod.fst = c.sleepers ∧
      c.soils.length = segments.length ∧
      ∀ k (h1 : k < segments.length) (h2 : k < c.soils.length),
        c.soils[k].1.length = segments[k].1 ∧ ∀ e ∈ c.soils[k].1, (c.store e.2).pos 1 = -1 - segments[k].2 := by
  obtain ⟨n, h, t, m, store, gen, hm, hseg, hstore, htwo, hcount, heq⟩ := combinedTrack_generated hash g
  obtain ⟨c, hc, hmesh, hlen, hpos, hchain, hrail, hsl, hpads, hpn, hsoils, hstore', hidx⟩ :=
    combine_horizontal_generated gen m store hstore
  have sound := combine_sound gen m store hstore htwo c hc
  rw [hcount] at sound
  have hsum : ((List.range (m + 1)).map n).sum = (segments.map Prod.fst).sum := by
    congr 1
    apply List.ext_getElem
    · simp [hm]
    · intro k h1 h2
      have hk : k < segments.length := by simpa using h2
      simp only [List.getElem_map, List.getElem_range, hseg k hk]
  have hl : (0 : ℝ) < d / r := sound.l_pos
  refine ⟨c, by rw [heq, hc], sound, ?_, hidx, ?_, ?_, ?_, ?_, ?_, ?_⟩
  · refine sound.nodup.imp_of_mem ?_
    have hrr : ∀ x ∈ c.rail, ∀ y ∈ c.rail, x ≠ y → ¬ Coincide (c.store x).pos (c.store y).pos := by
      intro x hx y hy hne hco
      obtain ⟨i, hi, rfl⟩ := List.mem_iff_getElem.mp hx
      obtain ⟨j, hj, rfl⟩ := List.mem_iff_getElem.mp hy
      have hij : i ≠ j := fun he => hne (by simp [he])
      have h0 := hco 0
      rw [hpos i hi, hpos j hj] at h0
      simp only [Matrix.cons_val_zero] at h0
      rw [← sub_mul, abs_mul, abs_of_pos hl] at h0
      have h1 : (1 : ℝ) ≤ |(i : ℝ) - j| := by
        rcases Nat.lt_or_gt_of_ne hij with hlt | hlt
        · have : (i : ℝ) + 1 ≤ j := by exact_mod_cast hlt
          rw [abs_of_neg (by linarith)]; linarith
        · have : (j : ℝ) + 1 ≤ i := by exact_mod_cast hlt
          rw [abs_of_pos (by linarith)]; linarith
      have h2 := le_mul_of_one_le_left hl.le h1
      linarith [g.distance]
    have hro : ∀ x ∈ c.rail, ∀ y ∈ c.meshNodes, y ∉ c.rail → ¬ Coincide (c.store x).pos (c.store y).pos ∧
        ¬ Coincide (c.store y).pos (c.store x).pos := by
      intro x hx y hy hny
      have hy1 : (c.store y).pos 1 ≤ -1 := by
        rcases (sound.mem y).1 hy with h1 | h1 | ⟨p, hp, e, he, rfl⟩
        · exact absurd h1 hny
        · rw [sound.sleeperY y h1]
        · exact (sound.soils p hp e he).2.2.le
      have hx1 := sound.railNode x hx
      constructor
      · intro hco
        have := abs_le.mp (hco 1)
        rw [hx1] at this
        norm_num at this
        linarith [this.2]
      · intro hco
        have := abs_le.mp (hco 1)
        rw [hx1] at this
        norm_num at this
        linarith [this.1]
    intro a b ha hb hne
    by_cases ha' : a ∈ c.rail
    · by_cases hb' : b ∈ c.rail
      · exact hrr a ha' b hb' hne
      · exact (hro a ha' b hb hb').1
    · by_cases hb' : b ∈ c.rail
      · exact (hro b hb' a ha ha').2
      · have horig : ∀ x ∈ c.meshNodes, x ∉ c.rail → ∃ j ≤ m, ∃ i < n j * r + n j + n j, x = .orig j i := by
          intro x hx hnx
          rw [hmesh, List.mem_append, gen.mem_segmentNodes] at hx
          rcases hx with ⟨j, hj, i, hi, rfl⟩ | hx
          · exact ⟨j, by omega, i, hi, rfl⟩
          · exfalso
            simp only [List.mem_flatMap, List.mem_range, List.mem_map] at hx
            obtain ⟨j, hj, i, hi, rfl⟩ := hx
            exact hnx ((hrail _).2 (Or.inr ⟨j, hj, i, hi, rfl⟩))
        obtain ⟨j, hj, i, hi, rfl⟩ := horig a ha ha'
        obtain ⟨j', hj', i', hi', rfl⟩ := horig b hb hb'
        rw [hstore' j hj i hi, hstore' j' hj' i' hi']
        intro hco
        obtain ⟨rfl, rfl⟩ := gen.apart j j' i i' hi hi' hco
        exact hne rfl
  · rw [hsl, List.nodup_flatMap]
    refine ⟨fun k _ => List.nodup_range.map fun a b hab => by simp at hab; omega, ?_⟩
    refine List.nodup_range.imp ?_
    intro a b hab x hx hy
    obtain ⟨_, -, rfl⟩ := List.mem_map.1 hx
    obtain ⟨_, -, he⟩ := List.mem_map.1 hy
    injection he with he
    exact hab he.symm
  · rw [hsl, List.length_flatMap, ← hsum]
    simp
  · rw [hpads, hsl, List.map_flatMap]
    simp [Function.comp_def]
  · rw [hsoils, hsl, List.flatMap_map, List.map_flatMap]
    simp [Function.comp_def]
  · rw [hsoils]
    simp [hm]
  · intro k h1 h2
    have hk : k ≤ m := by omega
    have e : c.soils[k].1 = (List.range (n k)).map fun i => (TrackNode.orig k (n k * r + i), TrackNode.orig k (n k * r + n k + i)) := by
      simp only [hsoils, List.getElem_map, List.getElem_range]
    rw [e, hseg k h1]
    refine ⟨by simp, ?_⟩
    intro x hx
    obtain ⟨i, hi, rfl⟩ := List.mem_map.mp hx
    rw [List.mem_range] at hi
    rw [hstore' k hk _ (by omega)]
    simp only [movedPos, trackStore_bottom]
    rfl

theorem combinedTrack_sound (g : GoodSegments r d segments) (c : CombinedTrack TrackNode ℝ)
    (hc : combinedTrack hash r d segments = .ok c) :
    SoundTrack c (railCount r segments) (d / r) ∧ c.soils.length = segments.length := by
  obtain ⟨c', hc', hs, -, -, -, -, -, -, hl, -⟩ := C136_structure hash g
  rw [hc] at hc'
  injection hc' with hc'
  subst hc'
  exact ⟨hs, hl⟩

/-- Three segments of 3, 1 and 4 sleepers with soil of 1 m, 2 m and half a metre. -/
theorem exampleSegments : GoodSegments 2 (3 / 5) [(3, 1), (1, 2), (4, 1 / 2)] := by
  refine ⟨by norm_num, by norm_num, ?_, by norm_num⟩
  intro s hs
  simp only [List.mem_cons, List.not_mem_nil, or_false] at hs
  rcases hs with rfl | rfl | rfl <;> norm_num

example : ∃ c, combinedTrack (fun p : Fin 3 → ℝ => p) 2 (3 / 5) [(3, 1), (1, 2), (4, 1 / 2)] = .ok c ∧
    c.rail.length = 18 ∧ c.sleepers.length = 8 ∧ c.soils.length = 3 := by
  obtain ⟨c, hc, hs, -, -, -, h1, -, -, h2, -⟩ := C136_structure (fun p : Fin 3 → ℝ => p) exampleSegments
  refine ⟨c, hc, ?_, h1, h2⟩
  rw [hs.len]
  rfl

/-! ### C137 -/

/-- **C137** For all such segments and values: rail, pad and sleeper values that are admissible with the soil values of each
segment. The system of the combined track, held in x at the rail ends and fixed below the soil of every segment, is
initialised whatever the node flags were before, and for all factors `a, b ≥ 0` the equations `(K + a C + b M) u = f` have
exactly one solution for every right-hand side: with `a = b = 0` the static equilibrium, with `a = γ / (β Δt)`,
`b = 1 / (β Δt²)` a Newmark step of any length. -/
theorem C137_steps (g : GoodSegments r d segments) (length : ℝ) (v : TrackValues) (soils : List (RodValues ℝ))
    (hs : segments.length ≤ soils.length) (hv : ∀ w ∈ soils, ({ v with soil := w } : TrackValues).Valid)
    (hm : ∀ w ∈ soils, ({ v with soil := w } : TrackValues).NonNeg) (hR : v.Rayleigh)
    (flags : ℕ → Fin 3 → Bool) (a b : ℝ) (ha : 0 ≤ a) (hb : 0 ≤ b) :
    ∃ c inp st, combinedTrack hash r d segments = .ok c ∧ c.system length v soils true = .ok inp ∧
      inp.initialise flags = .ok st ∧ Spec.UniquelySolvable st.N fun i j => st.Kg i j + a * st.C i j + b * st.M i j := by
  obtain ⟨c, hc, sound, -, -, -, -, -, -, hlen, -⟩ := C136_structure hash g
  obtain ⟨inp, st, h⟩ := sound.steps length v soils (by omega) hv hm hR flags a b ha hb
  exact ⟨c, inp, st, hc, h⟩

/-- **C137** A segment without values of its soil is rejected. -/
theorem C137_rejects (g : GoodSegments r d segments) (length : ℝ) (v : TrackValues) (soils : List (RodValues ℝ)) (held : Bool)
    (hs : soils.length < segments.length) :
    ∃ c, combinedTrack hash r d segments = .ok c ∧ c.system length v soils held = .error .indexError := by
  obtain ⟨c, hc, sound, -, -, -, -, -, -, hlen, -⟩ := C136_structure hash g
  exact ⟨c, hc, sound.rejects length v soils (by omega) held⟩

/-- Soft, stiff and medium soil below the three segments, with Rayleigh damping, a step of a thousandth of a second. -/
example : ∃ c inp st, combinedTrack (fun p : Fin 3 → ℝ => p) 2 (3 / 5) [(3, 1), (1, 2), (4, 1 / 2)] = .ok c ∧
    c.system (3 / 5) exampleTrack [⟨10 ^ 7, none, some 1000⟩, ⟨10 ^ 9, some 50, none⟩, ⟨10 ^ 8, none, some 0⟩] true = .ok inp ∧
      inp.initialise freshFlags = .ok st ∧
      Spec.UniquelySolvable st.N fun i j => st.Kg i j + 2000 * st.C i j + 4000000 * st.M i j := by
  refine C137_steps _ exampleSegments _ _ _ (by norm_num) ?_ ?_ exampleTrack_rayleigh _ _ _ (by norm_num) (by norm_num)
  · have h := exampleTrack_valid
    intro w hw
    refine ⟨h.E, h.nu, h.rho, h.A, h.I, h.kappa, h.s1, h.s2, h.pad, ?_⟩
    simp only [List.mem_cons, List.not_mem_nil, or_false] at hw
    rcases hw with rfl | rfl | rfl <;> norm_num
  · have h := exampleTrack_nonNeg
    intro w hw
    simp only [List.mem_cons, List.not_mem_nil, or_false] at hw
    refine ⟨h.padMass, ?_, h.sleeper, h.padDamping, ?_⟩ <;> rcases hw with rfl | rfl | rfl <;> simp <;> norm_num

end claims

/-! ### C138 -/

section ride
variable {H : Type*} [DecidableEq H] (hash : (Fin 3 → ℝ) → H) {q : TrackRide} {r : ℕ} {d : ℝ} {segments : List (ℕ × ℝ)}

theorem TrackRide.Runs.withTrack {m : ℕ} {l : ℝ} (v : q.Runs m l) (track : HorizontalTrack ℝ) :
    TrackRide.Runs { q with track := track } m l :=
  ⟨v.bending, v.samples, v.nonempty, v.forward, v.slow, v.start, v.stop, v.apart, v.separated, v.massive, v.fits,
    v.balanced, v.pressed, v.coefficient, v.power⟩

/-- The number of the `k`-th rail node in the mesh. -/
def CombinedTrack.railNumber {ι : Type*} [DecidableEq ι] (c : CombinedTrack ι ℝ) (k : ℕ) : ℕ := (c.rail.map c.place).getD k 0

theorem SoundTrack.railNumber {ι : Type*} [DecidableEq ι] {c : CombinedTrack ι ℝ} {m : ℕ} {l : ℝ} (s : SoundTrack c m l)
    (length : ℝ) : (fun k => (c.numbered length).position ((c.numbered length).rail.getD k 0)) = c.railNumber := by
  funext k
  apply position_numbered
  show (c.rail.map c.place).getD k 0 < _
  have hlen := s.len
  have htwo := s.two
  by_cases hk : k < c.rail.length
  · rw [List.getD_eq_getElem _ _ (by simpa using hk), List.getElem_map]
    exact s.place_lt _ (s.rail_mem _ (List.getElem_mem hk))
  · rw [List.getD_eq_default _ _ (by simpa using hk)]
    exact lt_of_le_of_lt (Nat.zero_le _) (s.place_lt _ (s.rail_mem _ (List.getElem_mem (show 0 < c.rail.length by omega))))

/-- The conditions of C138: segments that can be combined, values for the soil of each, and a train that runs over the
combined track. -/
structure TrackRide.ValidOn (q : TrackRide) (r : ℕ) (d : ℝ) (segments : List (ℕ × ℝ)) (soils : List (RodValues ℝ)) : Prop where
  good : GoodSegments r d segments
  enough : segments.length ≤ soils.length
  values : ∀ w ∈ soils, ({ q.values with soil := w } : TrackValues).Valid
  runs : q.Runs (railCount r segments) (d / r)

variable {soils : List (RodValues ℝ)}

/-- The combined track of a ride with its system, on which the train runs. -/
theorem TrackRide.ValidOn.track (v : q.ValidOn r d segments soils) (length : ℝ) :
    ∃ c sys, combinedTrack hash r d segments = .ok c ∧ SoundTrack c (railCount r segments) (d / r) ∧
      c.system length q.values soils q.held = .ok sys ∧ PlacedRail (c.numbered length) sys ∧
      q.coupledOnCombined c length soils = TrackRide.coupledOn { q with track := c.numbered length } sys := by
  obtain ⟨c, hc, sound, -, -, -, -, -, -, hlen, -⟩ := C136_structure hash v.good
  obtain ⟨a, b, ha, hb, hsys⟩ := sound.system length q.values soils (by have := v.enough; omega) q.held
  refine ⟨c, _, hc, sound, hsys, ?_, ?_⟩
  · exact sound.placedRail length q.values soils (by have := v.enough; omega) v.values a b (List.mem_of_head? ha)
      (List.mem_of_getLast? hb) q.held
  · unfold TrackRide.coupledOnCombined
    rw [hsys]
    rfl

/-- **C138** A train on a track combined from any number of segments with different soils: the calculation is accepted and
gives results for every output index; if the solver satisfies the equations it is given, then at every output index, for the
reported displacements, velocities and accelerations: the supports are respected; in every admissible virtual displacement of
the track (rail, pads, sleepers and the soil of all segments) the inertia, damping and stiffness forces do the work of the
wheels, each of which presses with its contact force at its place `X` on the rail, also between the segments; every body of
the train moves by its weight, springs, dampers and contact force. The contact force is that of Hertz for the approach of wheel
and rail. Partial for the same reason as C125: rails without shear deformation, wheels more than two rail elements apart, no
step longer than a rail element. -/
theorem C138_motion_partial (v : q.ValidOn r d segments soils) (length : ℝ) (times : ℕ) (htimes : times ≤ q.time.length)
    (solver : TrimState ℝ → (List (ℕ × List (ℕ → ℝ)) → List (ℕ → ℝ) → ℕ → (ℕ → ℝ) → ℕ → ℝ) → SolverOutput ℝ)
    (hs : ∀ c run st, combinedTrack hash r d segments = .ok c → q.coupledOnCombined c length soils = .ok run →
      run.loadedTrack.input.initialise freshFlags = .ok st →
      Spec.SolvesCoupled (run.system hash st) (run.rhs hash st) times (solver (run.system hash st) (run.rhs hash st))) :
    ∃ c sys res, combinedTrack hash r d segments = .ok c ∧ c.system length q.values soils q.held = .ok sys ∧
      q.mainOnCombined hash c length soils times solver = .ok res ∧
      res.trackRows.length = times ∧ res.trainRows.length = times ∧
      ∀ t (h1 : t < res.trackRows.length) (h2 : t < res.trainRows.length),
        let u := Spec.fieldOfRows res.trackRows[t] NodeRow.displacement
        let u' := Spec.fieldOfRows res.trackRows[t] NodeRow.velocity
        let u'' := Spec.fieldOfRows res.trackRows[t] NodeRow.acceleration
        let y := Spec.reportedDof (q.partRow hash res.trainRows[t]) NodeRow.displacement
        let y' := Spec.reportedDof (q.partRow hash res.trainRows[t]) NodeRow.velocity
        let y'' := Spec.reportedDof (q.partRow hash res.trainRows[t]) NodeRow.acceleration
        let wheel := fun w => q.train.wheelList.getD w (0, 0)
        let X := fun w => Spec.wheelX q.time q.vel (q.startOf (wheel w)) t
        let rail := fun f w => Spec.railDeflection (d / r) (railCount r segments) c.railNumber f (X w)
        let F := fun w => Spec.hertz q.G q.p
          (q.G * (-q.staticLoad (wheel w)) ^ (1 / q.p) + rail u w - y (.wheelY (wheel w).1 (wheel w).2) - q.irr w t)
        let a₀ := Spec.rayleighMass q.isRayleigh q.ratio q.w1 q.w2
        let a₁ := Spec.rayleighStiffness q.isRayleigh q.ratio q.w1 q.w2
        (∀ p, q.train.HasPart p → (q.partRow hash res.trainRows[t] p).isSome) ∧
        Spec.Admissible sys u ∧ Spec.Admissible sys u' ∧ Spec.Admissible sys u'' ∧
        (∀ δ, Spec.Admissible sys δ →
          Spec.systemWork AssemblyPart.mass sys.parts δ u'' +
          (Spec.systemWork AssemblyPart.damping sys.parts δ u' + Spec.rayleighWork sys δ u' +
            (a₀ * Spec.systemWork AssemblyPart.mass sys.parts δ u' +
              a₁ * Spec.systemWork AssemblyPart.stiffness sys.parts δ u')) +
          Spec.systemWork AssemblyPart.stiffness sys.parts δ u =
            -∑ w ∈ range q.train.wheelList.length, F w * rail δ w) ∧
        ∀ e, q.train.HasDof e →
          q.train.bodyInertia e * y'' e =
            weightAt q.train q.g e - springForceAt q.train y e - springForceAt q.train.dampers y' e -
              (a₀ * (q.train.bodyInertia e * y' e) + a₁ * springForceAt q.train y' e) +
            ∑ w ∈ range q.train.wheelList.length, if TrainDof.wheelY (wheel w).1 (wheel w).2 = e then F w else 0 := by
  obtain ⟨c, sys, hc, sound, hsys, hp, hrun⟩ := v.track hash length
  obtain ⟨run, res, h1, h2, h3⟩ := (v.runs.withTrack (c.numbered length)).motion hash (sound.even length) hp times htimes solver
    fun run st hr hst => hs c run st hc (by rw [hrun]; exact hr) hst
  rw [sound.railNumber length] at h3
  refine ⟨c, sys, res, hc, hsys, ?_, h3⟩
  unfold TrackRide.mainOnCombined
  rw [hrun, h1]
  exact h2

/-- **C138** There is a solver as required. -/
theorem C138_solvable (v : q.ValidOn r d segments soils) (length : ℝ) (times : ℕ) (htimes : times ≤ q.time.length) :
    ∃ solver : TrimState ℝ → (List (ℕ × List (ℕ → ℝ)) → List (ℕ → ℝ) → ℕ → (ℕ → ℝ) → ℕ → ℝ) → SolverOutput ℝ,
      ∀ c run st, combinedTrack hash r d segments = .ok c → q.coupledOnCombined c length soils = .ok run →
        run.loadedTrack.input.initialise freshFlags = .ok st →
        Spec.SolvesCoupled (run.system hash st) (run.rhs hash st) times (solver (run.system hash st) (run.rhs hash st)) := by
  obtain ⟨c, sys, hc, sound, hsys, hp, hrun⟩ := v.track hash length
  obtain ⟨solver, h⟩ := (v.runs.withTrack (c.numbered length)).solvable (hash := hash) (sound.even length) hp times htimes
  refine ⟨solver, fun c' run st hc' hr hst => ?_⟩
  rw [hc] at hc'
  injection hc' with hc'
  subst hc'
  rw [hrun] at hr
  exact h run st hr hst

/-- **C138 for the default trains** as `C125_default`. -/
theorem C138_default (ty : TrainType) (hty : ty ≠ .sprinterSLT) (start : ℝ) (m : ℕ)
    (htrain : setFullTrain ty start m = .ok (q.train, q.starts)) (hseg : GoodSegments r d segments)
    (hsoils : segments.length ≤ soils.length) (hvalues : ∀ w ∈ soils, ({ q.values with soil := w } : TrackValues).Valid)
    (hd' : d / r < 17 / 20) (hk : q.values.rail.kappa ≤ 0) (hlen : q.time.length = q.vel.length) (hne : q.time ≠ [])
    (hforward : ∀ k, k + 1 < q.time.length → 0 ≤ q.vel.getD k 0 * (q.time.getD (k + 1) 0 - q.time.getD k 0))
    (hslow : ∀ k, k + 1 < q.time.length → q.vel.getD k 0 * (q.time.getD (k + 1) 0 - q.time.getD k 0) ≤ d / r)
    (hrear : 0 ≤ start - (m - 1) * (Spec.trainSheet ty).pitch + (Spec.trainSheet ty).axles.getD 0 0)
    (hfront : start + (Spec.trainSheet ty).axles.getD 3 0 < ((railCount r segments - 1 : ℕ) : ℝ) * (d / r))
    (hstop : ∀ k < q.time.length,
      Spec.wheelX q.time q.vel (start + (Spec.trainSheet ty).axles.getD 3 0) k ≤ ((railCount r segments - 1 : ℕ) : ℝ) * (d / r))
    (hg : 0 ≤ q.g) (hG : 0 < q.G) (hp : ¬ ∃ z : ℤ, q.p = z) : q.ValidOn r d segments soils :=
  ⟨hseg, hsoils, hvalues, default_runs ty hty start m htrain hd' hk hlen hne hforward hslow hrear hfront hstop hg hG hp⟩

/-- One double-dekker cart crosses from 60 sleepers on soft soil to 50 sleepers on stiff soil. -/
theorem exampleRide_validOn : ∃ t, setFullTrain .doubleDekker 20 1 = .ok t ∧ ∀ track,
    (exampleRide track t).ValidOn 2 (3 / 5) [(60, 1), (50, 3)] [⟨10 ^ 7, none, some 1000⟩, ⟨10 ^ 9, none, none⟩] := by
  have ht := setFullTrain_eq (K := ℝ) .doubleDekker (by decide) 20 1
  refine ⟨_, ht, fun track => C138_default .doubleDekker (by decide) 20 1 ht ?_ (by norm_num) ?_ (by norm_num) le_rfl rfl
    (by simp [exampleRide]) ?_ ?_ ?_ ?_ ?_ ?_ ?_ ?_⟩
  · refine ⟨by norm_num, by norm_num, ?_, by norm_num⟩
    intro s hs
    simp only [List.mem_cons, List.not_mem_nil, or_false] at hs
    rcases hs with rfl | rfl <;> norm_num
  · have h := exampleTrack_valid
    intro w hw
    refine ⟨h.E, h.nu, h.rho, h.A, h.I, le_rfl, h.s1, h.s2, h.pad, ?_⟩
    simp only [List.mem_cons, List.not_mem_nil, or_false] at hw
    rcases hw with rfl | rfl <;> norm_num
  · intro k hk
    have hk' : k + 1 < 3 := hk
    have : k < 2 := by omega
    interval_cases k <;> norm_num [exampleRide]
  · intro k hk
    have hk' : k + 1 < 3 := hk
    have : k < 2 := by omega
    interval_cases k <;> norm_num [exampleRide]
  · norm_num [Spec.trainSheet]
  · norm_num [Spec.trainSheet, railCount]
  · intro k hk
    have : k < 3 := by simpa [exampleRide] using hk
    interval_cases k <;> norm_num [exampleRide, Spec.trainSheet, Spec.wheelX, Finset.sum_range_succ, railCount]
  · norm_num [exampleRide]
  · norm_num [exampleRide]
  · rintro ⟨z, hz⟩
    have h2 : (3 : ℝ) = ((2 * z : ℤ) : ℝ) := by
      push_cast
      rw [← hz]
      norm_num [exampleRide]
    have h3 : (3 : ℤ) = 2 * z := by exact_mod_cast h2
    omega

end ride

end Rose
