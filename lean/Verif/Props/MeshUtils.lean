/-
C48-C50, C52: mesh generation.
-/
import Verif.Model.MeshUtils
import Verif.Props.Geometry
import Verif.Props.Coupled
import Mathlib.Data.List.GetD
import Mathlib.Tactic.Linarith
import Mathlib.Tactic.FieldSimp
import Mathlib.Tactic.Ring
import Mathlib.Tactic.LinearCombination

set_option linter.unusedSectionVars false

namespace Rose

section generic
variable {K : Type*} [Field K] [LinearOrder K] [IsStrictOrderedRing K] {H : Type*} [DecidableEq H]

/-- Specification: the elements connecting consecutive nodes. -/
def chainOf {ι : Type*} (nodes : List ι) : List (ι × ι) := nodes.zip nodes.tail

/-! ### C48 -/

theorem getD_pairs {α : Type*} (f g : α → ℕ) (l : List α) (i : ℕ) (hi : i < l.length) :
    (l.flatMap fun a => [f a, g a]).getD (i * 2) 0 = f l[i] ∧
      (l.flatMap fun a => [f a, g a]).getD (i * 2 + 1) 0 = g l[i] := by
  induction l generalizing i with
  | nil => simp at hi
  | cons a l ih =>
    cases i with
    | zero => simp
    | succ i =>
      have := ih i (by simpa using hi)
      have e : (i + 1) * 2 = i * 2 + 1 + 1 := by ring
      rw [e]
      simp only [List.flatMap_cons, List.cons_append, List.nil_append, List.getD_cons_succ, List.getElem_cons_succ]
      exact this

theorem getD_pairs_range (f g : ℕ → ℕ) (n i : ℕ) (hi : i < n) :
    ((List.range n).flatMap fun a => [f a, g a]).getD (i * 2) 0 = f i ∧
      ((List.range n).flatMap fun a => [f a, g a]).getD (i * 2 + 1) 0 = g i := by
  have := getD_pairs f g (List.range n) i (by simpa using hi)
  simpa using this

/-- The mesh of the generated track. -/
def trackMeshCalls (n r : ℕ) : List (List ℕ) :=
  [List.range (n * r), (List.range n).flatMap fun i => [i * r, n * r + i], (List.range n).map (n * r + ·),
    (List.range n).flatMap fun i => [n * r + i, n * r + n + i], (List.range n).map (n * r + n + ·)]

theorem createHorizontalTrack_eq (hash : (Fin 3 → K) → H) (n r : ℕ) (hr : 0 < r) (d h : K) :
    createHorizontalTrack hash n r d h =
      let mesh := (trackMeshCalls n r).foldl (addUniqueNodes hash) (trackStore n r d h, [])
      let rails := (List.range (n * r - 1)).map fun i => (i, i + 1)
      let pads := (List.range n).map fun i => (i * r, n * r + i)
      let soils := (List.range n).map fun i => (n * r + i, n * r + n + i)
      .ok { store := reorderIds (fun (a : NodeObj K) i => { a with index := some i }) 0 mesh.1 mesh.2
            meshNodes := mesh.2
            meshElements := rails ++ pads ++ soils
            rail := List.range (n * r)
            railElements := rails
            padNodes := (List.range n).flatMap fun i => [i * r, n * r + i]
            pads := pads
            sleepers := (List.range n).map (n * r + ·)
            soilNodes := (List.range n).flatMap fun i => [n * r + i, n * r + n + i]
            soil := soils
            lengthElement := d } := by
  have h1 : (List.range (n * r - 1)).map (fun i => ((List.range (n * r)).getD i 0, (List.range (n * r)).getD (i + 1) 0)) =
      (List.range (n * r - 1)).map fun i => (i, i + 1) := by
    apply List.map_congr_left
    intro i hi
    rw [List.mem_range] at hi
    rw [List.getD_eq_getElem _ _ (by simp; omega), List.getD_eq_getElem _ _ (by simp; omega)]
    simp
  have h2 : ((List.range n).flatMap fun i => [(List.range (n * r)).getD (i * r) 0, n * r + i]) =
      (List.range n).flatMap fun i => [i * r, n * r + i] := by
    rw [List.flatMap_def, List.flatMap_def]
    congr 1
    apply List.map_congr_left
    intro i hi
    rw [List.mem_range] at hi
    have : i * r < n * r := Nat.mul_lt_mul_of_pos_right hi hr
    rw [List.getD_eq_getElem _ _ (by simpa using this)]
    simp
  have h3 : ∀ f g : ℕ → ℕ, ((List.range n).map fun i => (((List.range n).flatMap fun i => [f i, g i]).getD (i * 2) 0,
      ((List.range n).flatMap fun i => [f i, g i]).getD (i * 2 + 1) 0)) = (List.range n).map fun i => (f i, g i) := by
    intro f g
    apply List.map_congr_left
    intro i hi
    rw [List.mem_range] at hi
    rw [(getD_pairs_range f g n i hi).1, (getD_pairs_range f g n i hi).2]
  have h4 : ∀ f g : ℕ → ℕ, ((List.range n).map fun i => ((List.range n).flatMap fun i => [f i, g i]).getD (i * 2 + 1) 0) =
      (List.range n).map g := by
    intro f g
    apply List.map_congr_left
    intro i hi
    rw [List.mem_range] at hi
    rw [(getD_pairs_range f g n i hi).2]
  have h5 : ((List.range n).flatMap fun i =>
      [((List.range n).flatMap fun i => [i * r, n * r + i]).getD (i * 2 + 1) 0, n * r + n + i]) =
      (List.range n).flatMap fun i => [n * r + i, n * r + n + i] := by
    generalize hl : ((List.range n).flatMap fun i => [i * r, n * r + i]) = l
    rw [List.flatMap_def, List.flatMap_def]
    congr 1
    apply List.map_congr_left
    intro i hi
    rw [List.mem_range] at hi
    rw [← hl, (getD_pairs_range (fun i => i * r) (fun i => n * r + i) n i hi).2]
  unfold createHorizontalTrack
  rw [if_neg (by omega)]
  simp only [h1, h2, h3, h4, h5, trackMeshCalls, List.foldl_cons, List.foldl_nil]

theorem reorder_pos {ι : Type*} [DecidableEq ι] (s : ι → NodeObj K) (mesh : List ι) (i : ℕ) (k : ι) :
    (reorderIds (fun (a : NodeObj K) i => { a with index := some i }) i s mesh k).pos = (s k).pos := by
  induction mesh generalizing i s with
  | nil => rfl
  | cons m ms ih =>
    rw [reorderIds, ih]
    by_cases h : k = m
    · subst h; simp
    · rw [Function.update_of_ne h]

theorem trackStore_rail (n r : ℕ) (d h : K) (i : ℕ) (hi : i < n * r) :
    (trackStore n r d h i).pos = ![(i : K) * d / r, 0, 0] := by
  simp [trackStore, hi, newNode]

theorem trackStore_sleeper (n r : ℕ) (d h : K) (i : ℕ) (hi : i < n) :
    (trackStore n r d h (n * r + i)).pos = ![(i : K) * d, -1, 0] := by
  simp [trackStore, hi, newNode]

theorem trackStore_bottom (n r : ℕ) (d h : K) (i : ℕ) :
    (trackStore n r d h (n * r + n + i)).pos = ![(i : K) * d, -1 - h, 0] := by
  simp only [trackStore]
  rw [if_neg (by omega), if_neg (by omega)]
  simp [newNode]

theorem trackStore_sep (n r : ℕ) (hr : 0 < r) (d h : K) (hd : 1 / 1000000000 < d / r) (hh : 1 / 1000000000 < h) (a b : ℕ)
    (hc : Coincide (trackStore n r d h a).pos (trackStore n r d h b).pos) : a = b := by
  have hr' : (0 : K) < r := by exact_mod_cast hr
  have hr1 : (1 : K) ≤ r := by exact_mod_cast hr
  have hd' : d / r ≤ d := by
    have h0 : (0 : K) < d / r := lt_trans (by norm_num) hd
    have hd0 : 0 < d := by
      have := mul_pos h0 hr'
      rwa [div_mul_cancel₀ _ hr'.ne'] at this
    exact div_le_self hd0.le hr1
  have key : ∀ (i j : ℕ) (s : K), 1 / 1000000000 < s → |(i : K) * s - (j : K) * s| ≤ 1 / 1000000000 → i = j := by
    intro i j s hs habs
    by_contra hne
    rw [← sub_mul, abs_mul, abs_of_pos (a := s) (lt_trans (by norm_num) hs)] at habs
    have h1 : (1 : K) ≤ |(i : K) - j| := by
      rcases Nat.lt_or_gt_of_ne hne with hlt | hlt
      · have : (i : K) + 1 ≤ j := by exact_mod_cast hlt
        rw [abs_of_neg (by linarith)]; linarith
      · have : (j : K) + 1 ≤ i := by exact_mod_cast hlt
        rw [abs_of_pos (by linarith)]; linarith
    have h2 : s ≤ |(i : K) - j| * s := le_mul_of_one_le_left (lt_trans (by norm_num) hs).le h1
    linarith
  have c0 := hc 0
  have c1 := hc 1
  have hs2 : 1 / 1000000000 < d := lt_of_lt_of_le hd hd'
  unfold trackStore at c0 c1
  have e0 : (1 : K) / 1000000000 < 1 := by norm_num
  have a1 : ¬ |(0 : K) - -1| ≤ 1 / 1000000000 := by rw [abs_of_pos (by linarith)]; linarith
  have a2 : ¬ |(0 : K) - (-1 - h)| ≤ 1 / 1000000000 := by rw [abs_of_pos (by linarith)]; linarith
  have a3 : ¬ |(-1 : K) - 0| ≤ 1 / 1000000000 := by rw [abs_of_neg (by linarith)]; linarith
  have a4 : ¬ |(-1 : K) - (-1 - h)| ≤ 1 / 1000000000 := by rw [abs_of_pos (by linarith)]; linarith
  have a5 : ¬ |(-1 - h : K) - 0| ≤ 1 / 1000000000 := by rw [abs_of_neg (by linarith)]; linarith
  have a6 : ¬ |(-1 - h : K) - -1| ≤ 1 / 1000000000 := by rw [abs_of_neg (by linarith)]; linarith
  split_ifs at c0 c1 with h1 h2 h3 h4 h5 h6 h7 h8 h9 <;>
    simp only [newNode, Matrix.cons_val_zero, Matrix.cons_val_one] at c0 c1
  · rw [mul_div_assoc, mul_div_assoc] at c0
    exact key a b _ hd c0
  · exact absurd c1 a1
  · exact absurd c1 a2
  · exact absurd c1 a3
  · have := key _ _ _ hs2 c0
    omega
  · exact absurd c1 a4
  · exact absurd c1 a5
  · exact absurd c1 a6
  · have := key _ _ _ hs2 c0
    omega

/-- C48: a generated track has `n * r` rail nodes at distances `d / r` on the x-axis, connected to a chain; `n` sleepers
one below each `r`-th rail node, at distances `d`; one pad between each sleeper and the rail node above it; one soil
element from each sleeper to a node `h` below. -/
theorem C48_structure (hash : (Fin 3 → K) → H) (n r : ℕ) (hr : 0 < r) (d h : K) :
    ∃ t, createHorizontalTrack hash n r d h = .ok t ∧
      t.rail.length = n * r ∧ (∀ i < n * r, (t.store (t.rail.getD i 0)).pos = ![(i : K) * (d / r), 0, 0]) ∧
      t.railElements = chainOf t.rail ∧
      t.sleepers.length = n ∧ (∀ i < n, (t.store (t.sleepers.getD i 0)).pos = ![(i : K) * d, -1, 0]) ∧
      t.pads.length = n ∧ (∀ i < n, t.pads.getD i (0, 0) = (t.rail.getD (i * r) 0, t.sleepers.getD i 0) ∧
        (t.store (t.rail.getD (i * r) 0)).pos = ![(i : K) * d, 0, 0]) ∧
      t.soil.length = n ∧ (∀ i < n, (t.soil.getD i (0, 0)).1 = t.sleepers.getD i 0 ∧
        (t.store (t.soil.getD i (0, 0)).2).pos = ![(i : K) * d, -1 - h, 0]) ∧
      t.meshElements = t.railElements ++ t.pads ++ t.soil := by
  rw [createHorizontalTrack_eq hash n r hr d h]
  refine ⟨_, rfl, ?_⟩
  have hpos := (C01_represented hash (trackStore n r d h) (trackMeshCalls n r)).2.2
  simp only [reorder_pos, hpos]
  have hr' : (r : K) ≠ 0 := by exact_mod_cast hr.ne'
  have hrange : ∀ i < n * r, (List.range (n * r)).getD i 0 = i := by
    intro i hi
    rw [List.getD_eq_getElem _ _ (by simpa using hi)]; simp
  have hsl : ∀ i < n, ((List.range n).map (n * r + ·)).getD i 0 = n * r + i := by
    intro i hi
    rw [List.getD_eq_getElem _ _ (by simpa using hi)]; simp
  refine ⟨by simp, ?_, ?_, by simp, ?_, by simp, ?_, by simp, ?_, trivial⟩
  · intro i hi
    rw [hrange i hi, trackStore_rail n r d h i hi, mul_div_assoc]
  · unfold chainOf
    apply List.ext_getElem
    · simp
    · intro i h1 h2
      simp [add_comm]
  · intro i hi
    rw [hsl i hi, trackStore_sleeper n r d h i hi]
  · intro i hi
    have hir : i * r < n * r := Nat.mul_lt_mul_of_pos_right hi hr
    rw [hrange _ hir, hsl i hi, List.getD_eq_getElem _ _ (by simpa using hi), trackStore_rail n r d h _ hir]
    refine ⟨by simp, ?_⟩
    congr 1
    push_cast
    field_simp
  · intro i hi
    rw [hsl i hi, List.getD_eq_getElem _ _ (by simpa using hi)]
    refine ⟨by simp, ?_⟩
    simp only [List.getElem_map, List.getElem_range]
    rw [trackStore_bottom]

/-- C48 as far as it holds: if node distances and soil depth exceed the merging tolerance, the mesh consists of exactly
the nodes of the track, each once, numbered by position. Missing: soil depth zero, `C48_violated`. -/
theorem C48_mesh_partial (hash : (Fin 3 → K) → H) (n r : ℕ) (hr : 0 < r) (d h : K) (hd : 1 / 1000000000 < d / r)
    (hh : 1 / 1000000000 < h) (t : HorizontalTrack K) (ht : createHorizontalTrack hash n r d h = .ok t) :
    t.meshNodes.Nodup ∧ t.meshNodes.length = n * r + n + n ∧
    (∀ k, k ∈ t.meshNodes ↔ k ∈ t.rail ∨ k ∈ t.sleepers ∨ k ∈ t.soil.map Prod.snd) ∧
    (∀ i < t.meshNodes.length, (t.store (t.meshNodes.getD i 0)).index = some i) := by
  rw [createHorizontalTrack_eq hash n r hr d h] at ht
  simp only [Except.ok.injEq] at ht
  subst ht
  simp only
  obtain ⟨hnd, hidx⟩ := C04_reachable hash (trackStore n r d h) (trackMeshCalls n r)
  obtain ⟨hrep, hmem, hpos⟩ := C01_represented hash (trackStore n r d h) (trackMeshCalls n r)
  have hin : ∀ k, k ∈ (List.foldl (addUniqueNodes hash) (trackStore n r d h, []) (trackMeshCalls n r)).2 ↔
      k ∈ (trackMeshCalls n r).flatten := by
    intro k
    refine ⟨hmem k, fun hk => ?_⟩
    obtain ⟨m, hm, _, hc⟩ := hrep k hk
    rw [hpos, hpos] at hc
    rw [← trackStore_sep n r hr d h hd hh m k hc]
    exact hm
  have hflat : ∀ k, k ∈ (trackMeshCalls n r).flatten ↔ k < n * r + n + n := by
    intro k
    simp only [trackMeshCalls, List.flatten_cons, List.flatten_nil, List.append_nil, List.mem_append, List.mem_range,
      List.mem_flatMap, List.mem_map, List.mem_cons, List.not_mem_nil, or_false]
    constructor
    · rintro (h | ⟨i, hi, h | h⟩ | ⟨i, hi, h⟩ | ⟨i, hi, h | h⟩ | ⟨i, hi, h⟩)
      · omega
      · have : i * r < n * r := Nat.mul_lt_mul_of_pos_right hi hr
        omega
      all_goals omega
    · intro h
      by_cases h1 : k < n * r
      · exact Or.inl h1
      · by_cases h2 : k < n * r + n
        · exact Or.inr (Or.inl ⟨k - n * r, by omega, Or.inr (by omega)⟩)
        · exact Or.inr (Or.inr (Or.inr (Or.inr ⟨k - (n * r + n), by omega, by omega⟩)))
  refine ⟨hnd, ?_, ?_, ?_⟩
  · have hperm : (List.foldl (addUniqueNodes hash) (trackStore n r d h, []) (trackMeshCalls n r)).2.Perm
        (List.range (n * r + n + n)) := by
      rw [List.perm_ext_iff_of_nodup hnd List.nodup_range]
      intro k
      rw [hin, hflat, List.mem_range]
    rw [hperm.length_eq, List.length_range]
  · intro k
    rw [hin, hflat]
    simp only [List.mem_range, List.mem_map, Prod.exists]
    constructor
    · intro h
      by_cases h1 : k < n * r
      · exact Or.inl h1
      · by_cases h2 : k < n * r + n
        · exact Or.inr (Or.inl ⟨k - n * r, by omega, by omega⟩)
        · exact Or.inr (Or.inr ⟨_, _, ⟨k - (n * r + n), by omega, rfl⟩, by omega⟩)
    · rintro (h | ⟨i, hi, h⟩ | ⟨a, b, ⟨i, hi, h⟩, h'⟩)
      · omega
      · omega
      · simp only [Prod.mk.injEq] at h
        omega
  · intro i hi
    rw [List.getD_eq_getElem _ _ hi]
    exact hidx i hi

/-- Rail nodes on half a sleeper distance of 0.6 m, 4 m of soil. -/
example : (1 : ℚ) / 1000000000 < (3 / 5) / (2 : ℕ) ∧ (1 : ℚ) / 1000000000 < 4 := by norm_num

/-- C48 fails for soil depth zero: the nodes below the soil are not in the mesh. -/
theorem C48_violated :
    (createHorizontalTrack roundedCoords 2 1 1 0).toOption.map (fun t => (t.soil, t.meshNodes)) =
      some ([(2, 4), (3, 5)], [0, 1, 2, 3]) := by
  decide +kernel

/-- No rail elements per sleeper: rejected. -/
theorem C48_rejects (hash : (Fin 3 → K) → H) (n : ℕ) (hn : n ≠ 0) (d h : K) :
    createHorizontalTrack hash n 0 d h = .error .indexError := by
  simp [createHorizontalTrack, hn]

/-! ### C49 -/

section chain
variable {ι : Type*}

theorem chainOf_cons (a b : ι) (l : List ι) : chainOf (a :: b :: l) = (a, b) :: chainOf (b :: l) := rfl

theorem chainOf_append (A B : List ι) (a b : ι) (ha : A.getLast? = some a) (hb : B.head? = some b) :
    chainOf (A ++ B) = chainOf A ++ (a, b) :: chainOf B := by
  induction A with
  | nil => simp at ha
  | cons x A ih =>
    cases A with
    | nil =>
      cases B with
      | nil => simp at hb
      | cons y B =>
        simp only [List.getLast?_singleton, Option.some.injEq] at ha
        simp only [List.head?_cons, Option.some.injEq] at hb
        subst ha hb
        rfl
    | cons y A =>
      rw [List.getLast?_cons_cons] at ha
      have := ih ha
      simp only [List.cons_append] at this ⊢
      rw [chainOf_cons, this, chainOf_cons]
      rfl

theorem connectingElements_eq [DecidableEq ι] (a b : ι) (new : List ι) :
    connectingElements a b new = chainOf (a :: new ++ [b]) := by
  cases new with
  | nil => rfl
  | cons n ns =>
    rw [List.cons_append, List.cons_append, chainOf_cons, ← List.cons_append,
      chainOf_append (n :: ns) [b] ((n :: ns).getLast (List.cons_ne_nil _ _)) b (List.getLast?_eq_getLast_of_ne_nil _) rfl]
    rfl

variable [DecidableEq ι]

theorem joinTracks_chain (r : ℕ) (fresh : ℕ → ℕ → ι) (ts : List (TrackSeg ι)) (k : ℕ) (pos pos' : ι → Fin 3 → K)
    (acc t : TrackSeg ι) (h : joinTracks r fresh k pos acc ts = .ok (pos', t))
    (hacc : acc.railElements = chainOf acc.rail) (hts : ∀ s ∈ ts, s.railElements = chainOf s.rail) :
    t.railElements = chainOf t.rail ∧ t.sleepers = acc.sleepers ++ ts.flatMap TrackSeg.sleepers ∧
      t.pads = acc.pads ++ ts.flatMap TrackSeg.pads ∧ (acc.rail ++ ts.flatMap TrackSeg.rail).Sublist t.rail ∧
      t.rail.length = acc.rail.length + (ts.map fun s => r - 1 + s.rail.length).sum := by
  induction ts generalizing k pos acc with
  | nil =>
    simp only [joinTracks, Except.ok.injEq, Prod.mk.injEq] at h
    obtain ⟨_, rfl⟩ := h
    simp [hacc]
  | cons s ts ih =>
    rw [joinTracks] at h
    cases ha : acc.rail.getLast? with
    | none => rw [ha] at h; simp at h
    | some a =>
      cases hb : s.rail.head? with
      | none => rw [ha, hb] at h; simp at h
      | some b =>
        rw [ha, hb] at h
        simp only at h
        have := ih _ _ _ h ?_ fun x hx => hts x (List.mem_cons_of_mem _ hx)
        · obtain ⟨h1, h2, h3, h4, h5⟩ := this
          refine ⟨h1, ?_, ?_, ?_, ?_⟩
          · rw [h2]; simp
          · rw [h3]; simp
          · refine List.Sublist.trans ?_ h4
            rw [List.flatMap_cons, ← List.append_assoc]
            apply List.Sublist.append_right
            apply List.Sublist.append_right
            exact List.sublist_append_left _ _
          · rw [h5]
            simp only [List.length_append, List.length_map, List.length_range, List.map_cons, List.sum_cons]
            omega
        · simp only
          rw [hacc, hts s (by simp), connectingElements_eq]
          generalize (List.range (r - 1)).map (fresh k) = new
          rw [List.append_assoc acc.rail]
          cases hnew : new with
          | nil =>
            simp only [List.nil_append]
            rw [chainOf_append _ _ a b ha hb]
            simp [chainOf]
          | cons n ns =>
            rw [chainOf_append acc.rail _ a n ha rfl,
              chainOf_append (n :: ns) s.rail ((n :: ns).getLast (List.cons_ne_nil _ _)) b
                (List.getLast?_eq_getLast_of_ne_nil _) hb,
              List.cons_append, List.cons_append, chainOf_cons, ← List.cons_append,
              chainOf_append (n :: ns) [b] ((n :: ns).getLast (List.cons_ne_nil _ _)) b
                (List.getLast?_eq_getLast_of_ne_nil _) rfl]
            simp [chainOf]

/-- C49: whatever the segments, the elements of the combined rail are the chain through its nodes; it contains the rail
nodes of all segments in order, with `r - 1` nodes added at each joint; sleepers and pads are those of all segments in
order. -/
theorem C49_chain (r : ℕ) (d : K) (fresh : ℕ → ℕ → ι) (pos pos' : ι → Fin 3 → K) (ts : List (TrackSeg ι)) (t : TrackSeg ι)
    (h : combineTracks r d fresh pos ts = .ok (pos', t)) (hts : ∀ s ∈ ts, s.railElements = chainOf s.rail) :
    t.railElements = chainOf t.rail ∧ (ts.flatMap TrackSeg.rail).Sublist t.rail ∧
      t.rail.length + (r - 1) = (ts.map fun s => s.rail.length + (r - 1)).sum ∧
      t.sleepers = ts.flatMap TrackSeg.sleepers ∧ t.pads = ts.flatMap TrackSeg.pads := by
  cases ts with
  | nil => simp [combineTracks] at h
  | cons s ts =>
    rw [combineTracks] at h
    cases hm : moveMeshes d pos ((s :: ts).map TrackSeg.mesh) with
    | error e => rw [hm] at h; simp at h
    | ok p =>
      rw [hm] at h
      obtain ⟨h1, h2, h3, h4, h5⟩ := joinTracks_chain r fresh ts 0 p pos' s t h (hts s (by simp))
        fun x hx => hts x (List.mem_cons_of_mem _ hx)
      refine ⟨h1, by simpa using h4, ?_, by simpa using h2, by simpa using h3⟩
      rw [h5, List.map_cons, List.sum_cons]
      have : (ts.map fun s => r - 1 + s.rail.length) = ts.map fun s => s.rail.length + (r - 1) :=
        List.map_congr_left fun s _ => add_comm _ _
      rw [this]
      omega

end chain

theorem listMax_eq (a : K) (l : List K) (M : K) (hle : ∀ x ∈ a :: l, x ≤ M) (hM : M ∈ a :: l) : listMax a l = M := by
  apply le_antisymm
  · by_contra h
    obtain ⟨x, hx, hlt⟩ := (lt_listMax_iff a l M).1 (not_le.1 h)
    exact absurd (hle x hx) (not_le.2 hlt)
  · by_contra h
    exact absurd ((lt_listMax_iff a l (listMax a l)).2 ⟨M, hM, not_le.1 h⟩) (lt_irrefl _)

theorem shiftMesh_apply {ι : Type*} [DecidableEq ι] (pos : ι → Fin 3 → K) (mesh : List ι) (hnd : mesh.Nodup) (dx : K) (n : ι) :
    shiftMesh pos mesh dx n = if n ∈ mesh then ![pos n 0 + dx, pos n 1, pos n 2] else pos n := by
  unfold shiftMesh
  induction mesh generalizing pos with
  | nil => simp
  | cons m ms ih =>
    rw [List.nodup_cons] at hnd
    rw [List.foldl_cons, ih _ hnd.2]
    by_cases h1 : n = m
    · subst h1
      rw [if_neg hnd.1]
      simp
    · simp [h1, Function.update_of_ne h1]

theorem placeBetween_fresh {ι : Type*} [DecidableEq ι] (r : ℕ) (fresh : ℕ → ι) (hinj : Function.Injective fresh)
    (s e : Fin 3 → K) (pos : ι → Fin 3 → K) (i : ℕ) (hi : i < r - 1) :
    placeBetween r fresh s e pos (fresh i) = fun c => s c + ((i + 1 : ℕ) : K) * ((e c - s c) / r) := by
  unfold placeBetween
  have key : ∀ m, i < m → ((List.range m).foldl (fun (p : ι → Fin 3 → K) j => Function.update p (fresh j)
      fun c => s c + ((j + 1 : ℕ) : K) * ((e c - s c) / r)) pos) (fresh i) =
      fun c => s c + ((i + 1 : ℕ) : K) * ((e c - s c) / r) := by
    intro m
    induction m with
    | zero => intro h; omega
    | succ m ih =>
      intro h
      rw [List.range_succ, List.foldl_append, List.foldl_cons, List.foldl_nil]
      by_cases him : i = m
      · subst him; simp
      · rw [Function.update_of_ne (fun hc => him (hinj hc)), ih (by omega)]
  exact key _ hi

theorem placeBetween_other {ι : Type*} [DecidableEq ι] (r : ℕ) (fresh : ℕ → ι)
    (s e : Fin 3 → K) (pos : ι → Fin 3 → K) (n : ι) (hn : ∀ i, n ≠ fresh i) : placeBetween r fresh s e pos n = pos n := by
  unfold placeBetween
  generalize List.range (r - 1) = l
  induction l generalizing pos with
  | nil => rfl
  | cons j l ih => rw [List.foldl_cons, ih, Function.update_of_ne (hn j)]

/-- The coordinates before combining. -/
def trackPos (t : ℕ → HorizontalTrack K) : TrackNode → Fin 3 → K
  | .orig k i => ((t k).store i).pos
  | .joint _ _ => 0

/-- Rail nodes before segment `k`, joints included: where segment `k` starts, in units of the rail element length. -/
def segStart (r : ℕ) (n : ℕ → ℕ) (k : ℕ) : ℕ := ∑ j ∈ Finset.range k, (n j * r + (r - 1))

theorem trackStore_x_le (n r : ℕ) (hn : 0 < n) (hr : 0 < r) (d h : K) (hd : 0 < d) (i : ℕ) (hi : i < n * r + n + n) :
    (trackStore n r d h i).pos 0 ≤ ((n * r - 1 : ℕ) : K) * (d / r) := by
  have hr' : (0 : K) < r := by exact_mod_cast hr
  have hδ : 0 < d / r := div_pos hd hr'
  have hdr : d = r * (d / r) := by field_simp
  have hle : ∀ a : ℕ, a < n → (a : K) * d ≤ ((n * r - 1 : ℕ) : K) * (d / r) := by
    intro a ha
    have h1 : a * r ≤ n * r - 1 := by
      have : a * r < n * r := Nat.mul_lt_mul_of_pos_right ha hr
      omega
    have h2 : ((a * r : ℕ) : K) ≤ ((n * r - 1 : ℕ) : K) := by exact_mod_cast h1
    calc (a : K) * d = ((a * r : ℕ) : K) * (d / r) := by push_cast; field_simp
      _ ≤ _ := mul_le_mul_of_nonneg_right h2 hδ.le
  unfold trackStore
  split_ifs with h1 h2
  · simp only [newNode, Matrix.cons_val_zero]
    rw [mul_div_assoc]
    apply mul_le_mul_of_nonneg_right _ hδ.le
    have : i ≤ n * r - 1 := by omega
    exact_mod_cast this
  · exact hle _ (by omega)
  · exact hle _ (by omega)

/-- Hypotheses of the C49 theorems: `m` segments generated with the same sleeper distance and number of rail elements per
sleeper, with any positive numbers of sleepers `n k` and soil depths `h k`; distances exceed the merging tolerance. -/
structure GeneratedTracks (hash : (Fin 3 → K) → H) (r : ℕ) (d : K) (n : ℕ → ℕ) (h : ℕ → K) (t : ℕ → HorizontalTrack K) :
    Prop where
  r_pos : 0 < r
  n_pos : ∀ k, 0 < n k
  d_tol : 1 / 1000000000 < d / r
  h_tol : ∀ k, 1 / 1000000000 < h k
  created : ∀ k, createHorizontalTrack hash (n k) r d (h k) = .ok (t k)

section generated
variable {hash : (Fin 3 → K) → H} {r : ℕ} {d : K} {n : ℕ → ℕ} {h : ℕ → K} {t : ℕ → HorizontalTrack K}

theorem GeneratedTracks.d_pos (g : GeneratedTracks hash r d n h t) : 0 < d := by
  have hr' : (0 : K) < r := by exact_mod_cast g.r_pos
  have h0 : (0 : K) < d / r := lt_trans (by norm_num) g.d_tol
  have := mul_pos h0 hr'
  rwa [div_mul_cancel₀ _ hr'.ne'] at this

theorem GeneratedTracks.facts (g : GeneratedTracks hash r d n h t) (k : ℕ) :
    (t k).meshNodes.Nodup ∧ (∀ i, i ∈ (t k).meshNodes ↔ i < n k * r + n k + n k) ∧
    (∀ i, ((t k).store i).pos = (trackStore (n k) r d (h k) i).pos) ∧ (t k).rail = List.range (n k * r) ∧
    (t k).sleepers = (List.range (n k)).map (n k * r + ·) := by
  have hm := C48_mesh_partial hash (n k) r g.r_pos d (h k) g.d_tol (g.h_tol k) (t k) (g.created k)
  have hc := g.created k
  rw [createHorizontalTrack_eq hash (n k) r g.r_pos d (h k)] at hc
  simp only [Except.ok.injEq] at hc
  have hpos := (C01_represented hash (trackStore (n k) r d (h k)) (trackMeshCalls (n k) r)).2.2
  refine ⟨hm.1, ?_, ?_, by rw [← hc], by rw [← hc]⟩
  · intro i
    rw [hm.2.2.1, ← hc]
    simp only [List.mem_range, List.mem_map, Prod.exists]
    constructor
    · rintro (h | ⟨i, hi, h⟩ | ⟨a, b, ⟨i, hi, h⟩, h'⟩)
      · omega
      · omega
      · simp only [Prod.mk.injEq] at h
        omega
    · intro h
      by_cases h1 : i < n k * r
      · exact Or.inl h1
      · by_cases h2 : i < n k * r + n k
        · exact Or.inr (Or.inl ⟨i - n k * r, by omega, by omega⟩)
        · exact Or.inr (Or.inr ⟨_, _, ⟨i - (n k * r + n k), by omega, rfl⟩, by omega⟩)
  · intro i
    rw [← hc]
    simp only [reorder_pos, hpos]

/-- Coordinates after moving: segment `k` starts at rail position `segStart k`. -/
def movedPos (r : ℕ) (d : K) (n : ℕ → ℕ) (h : ℕ → K) (k i : ℕ) : Fin 3 → K :=
  let p := (trackStore (n k) r d (h k) i).pos
  ![p 0 + (segStart r n k : K) * (d / r), p 1, p 2]

theorem moveMeshes_generated (g : GeneratedTracks hash r d n h t) (m k : ℕ) (pos : TrackNode → Fin 3 → K)
    (hk : ∀ i < n k * r + n k + n k, pos (.orig k i) = movedPos r d n h k i)
    (hlater : ∀ j, k < j → j ≤ k + m → ∀ i, pos (.orig j i) = (trackStore (n j) r d (h j) i).pos) :
    ∃ pos', moveMeshes d pos ((List.range' k (m + 1)).map fun j => (ofTrack j (t j)).mesh) = .ok pos' ∧
      (∀ j, k ≤ j → j ≤ k + m → ∀ i < n j * r + n j + n j, pos' (.orig j i) = movedPos r d n h j i) ∧
      ∀ j < k, ∀ i, pos' (.orig j i) = pos (.orig j i) := by
  induction m generalizing k pos with
  | zero =>
    refine ⟨pos, by simp [List.range', moveMeshes], ?_, fun _ _ _ => rfl⟩
    intro j h1 h2 i hi
    have : j = k := by omega
    subst this
    exact hk i hi
  | succ m ih =>
    obtain ⟨hnd, hmem, hst, hrail, hsl⟩ := g.facts k
    obtain ⟨hnd', hmem', _⟩ := g.facts (k + 1)
    have hr' : (0 : K) < r := by exact_mod_cast g.r_pos
    have hne : (ofTrack k (t k)).mesh ≠ [] := by
      intro hc
      have : (0 : ℕ) ∈ (t k).meshNodes := (hmem 0).2 (by have := g.n_pos k; omega)
      simp only [ofTrack, List.map_eq_nil_iff] at hc
      rw [hc] at this
      simp at this
    obtain ⟨m0, ms, hms⟩ := List.exists_cons_of_ne_nil hne
    have hmax : listMax (pos m0 0) (ms.map fun n => pos n 0) =
        ((n k * r - 1 : ℕ) : K) * (d / r) + (segStart r n k : K) * (d / r) := by
      have hlist : pos m0 0 :: ms.map (fun n => pos n 0) = (t k).meshNodes.map fun i => pos (.orig k i) 0 := by
        rw [← List.map_cons (f := fun n => pos n 0), ← hms]
        simp [ofTrack]
      apply listMax_eq
      · rw [hlist]
        intro x hx
        obtain ⟨i, hi, rfl⟩ := List.mem_map.1 hx
        rw [hmem] at hi
        rw [hk i hi]
        have := trackStore_x_le (n k) r (g.n_pos k) g.r_pos d (h k) g.d_pos i hi
        simp only [movedPos, Matrix.cons_val_zero]
        linarith
      · rw [hlist]
        have hpos : 0 < n k * r := Nat.mul_pos (g.n_pos k) g.r_pos
        refine List.mem_map.2 ⟨n k * r - 1, (hmem _).2 (by omega), ?_⟩
        rw [hk _ (by omega)]
        simp only [movedPos, Matrix.cons_val_zero]
        rw [trackStore_rail _ _ _ _ _ (by omega)]
        simp only [Matrix.cons_val_zero]
        rw [mul_div_assoc]
    have hoff : ((n k * r - 1 : ℕ) : K) * (d / r) + (segStart r n k : K) * (d / r) + d =
        (segStart r n (k + 1) : K) * (d / r) := by
      have hpos : 0 < n k * r := Nat.mul_pos (g.n_pos k) g.r_pos
      have e : segStart r n (k + 1) = (n k * r - 1) + segStart r n k + r := by
        unfold segStart
        rw [Finset.sum_range_succ]
        have := g.r_pos
        omega
      rw [e]
      push_cast
      field_simp
    have hinj : Function.Injective (TrackNode.orig (k + 1)) := fun a b hab => by cases hab; rfl
    have hshift : ∀ x, shiftMesh pos (ofTrack (k + 1) (t (k + 1))).mesh ((segStart r n (k + 1) : K) * (d / r)) x =
        if x ∈ (ofTrack (k + 1) (t (k + 1))).mesh then ![pos x 0 + (segStart r n (k + 1) : K) * (d / r), pos x 1, pos x 2]
        else pos x :=
      fun x => shiftMesh_apply pos _ (hnd'.map hinj) _ x
    obtain ⟨pos', h1, h2, h3⟩ := ih (k + 1) (shiftMesh pos (ofTrack (k + 1) (t (k + 1))).mesh
        ((segStart r n (k + 1) : K) * (d / r))) (by
        intro i hi
        have hin : TrackNode.orig (k + 1) i ∈ (ofTrack (k + 1) (t (k + 1))).mesh :=
          List.mem_map.2 ⟨i, (hmem' i).2 hi, rfl⟩
        rw [hshift, if_pos hin, hlater (k + 1) (by omega) (by omega) i]
        rfl) (by
        intro j hj hj2 i
        rw [hshift, if_neg, hlater j (by omega) (by omega) i]
        intro hc
        obtain ⟨a, _, ha⟩ := List.mem_map.1 hc
        injection ha with ha _
        omega)
    refine ⟨pos', ?_, ?_, ?_⟩
    · rw [List.range'_succ, List.map_cons]
      rw [List.range'_succ, List.map_cons] at h1 ⊢
      rw [hms, moveMeshes, hmax, hoff]
      exact h1
    · intro j hj1 hj2 i hi
      by_cases hjk : j = k
      · subst hjk
        rw [h3 j (by omega) i, hshift, if_neg, hk i hi]
        intro hc
        obtain ⟨a, _, ha⟩ := List.mem_map.1 hc
        injection ha with ha _
        omega
      · exact h2 j (by omega) (by omega) i hi
    · intro j hj i
      rw [h3 j (by omega) i, hshift, if_neg]
      intro hc
      obtain ⟨a, _, ha⟩ := List.mem_map.1 hc
      injection ha with ha _
      omega

theorem joinTracks_generated (g : GeneratedTracks hash r d n h t) (m k : ℕ) (pos : TrackNode → Fin 3 → K)
    (acc : TrackSeg TrackNode)
    (hlen : acc.rail.length = segStart r n k + n k * r)
    (hold : ∀ x ∈ acc.rail, ∀ k' i, k ≤ k' → x ≠ .joint k' i)
    (hrail : ∀ i < acc.rail.length, pos (acc.rail.getD i (.joint 0 0)) = ![(i : K) * (d / r), 0, 0])
    (hsold : ∀ x ∈ acc.sleepers, ∀ k' i, x ≠ .joint k' i)
    (hsl : r = 1 → acc.sleepers.length = segStart r n k + n k ∧
      ∀ i < acc.sleepers.length, pos (acc.sleepers.getD i (.joint 0 0)) = ![(i : K) * d, -1, 0])
    (hlater : ∀ j, k < j → j ≤ k + m → ∀ i < n j * r + n j + n j, pos (.orig j i) = movedPos r d n h j i) :
    ∃ pos' res, joinTracks r TrackNode.joint k pos acc ((List.range' (k + 1) m).map fun j => ofTrack j (t j)) = .ok (pos', res) ∧
      res.rail.length = segStart r n (k + m) + n (k + m) * r ∧
      (∀ i < res.rail.length, pos' (res.rail.getD i (.joint 0 0)) = ![(i : K) * (d / r), 0, 0]) ∧
      (r = 1 → ∀ i < res.sleepers.length, pos' (res.sleepers.getD i (.joint 0 0)) = ![(i : K) * d, -1, 0]) ∧
      ∀ j i, pos' (.orig j i) = pos (.orig j i) := by
  induction m generalizing k pos acc with
  | zero =>
    exact ⟨pos, acc, by simp [joinTracks], by simpa using hlen, hrail, fun h1 => (hsl h1).2, fun _ _ => rfl⟩
  | succ m ih =>
    obtain ⟨-, -, -, hr1, hs1⟩ := g.facts (k + 1)
    have hr0 := g.r_pos
    have hr' : (0 : K) < r := by exact_mod_cast g.r_pos
    have hpos0 : 0 < n k * r := Nat.mul_pos (g.n_pos k) g.r_pos
    have hpos1 : 0 < n (k + 1) * r := Nat.mul_pos (g.n_pos (k + 1)) g.r_pos
    have hstart : segStart r n (k + 1) = segStart r n k + n k * r + (r - 1) := by
      unfold segStart; rw [Finset.sum_range_succ]; omega
    have hL : 0 < acc.rail.length := by omega
    -- end nodes
    have hlast : acc.rail.getLast? = some (acc.rail.getD (acc.rail.length - 1) (.joint 0 0)) := by
      rw [List.getLast?_eq_getElem?, List.getD_eq_getElem _ _ (by omega), List.getElem?_eq_getElem]
    have hhead : (ofTrack (k + 1) (t (k + 1))).rail.head? = some (.orig (k + 1) 0) := by
      simp only [ofTrack, hr1]
      cases hq : n (k + 1) * r with
      | zero => omega
      | succ q => simp [List.range_succ_eq_map]
    have hposa : pos (acc.rail.getD (acc.rail.length - 1) (.joint 0 0)) =
        ![((acc.rail.length - 1 : ℕ) : K) * (d / r), 0, 0] := hrail _ (by omega)
    have hposrail : ∀ i < n (k + 1) * r, pos (.orig (k + 1) i) =
        ![((segStart r n (k + 1) + i : ℕ) : K) * (d / r), 0, 0] := by
      intro i hi
      rw [hlater (k + 1) (by omega) (by omega) i (by omega)]
      simp only [movedPos, trackStore_rail _ _ _ _ _ hi]
      simp only [Matrix.cons_val]
      congr 1
      push_cast
      ring
    have hposb := hposrail 0 hpos1
    have hjinj : Function.Injective (TrackNode.joint k) := fun a b hab => by cases hab; rfl
    set a := acc.rail.getD (acc.rail.length - 1) (.joint 0 0) with ha
    set pos1 := placeBetween r (TrackNode.joint k) (pos a) (pos (.orig (k + 1) 0)) pos with hp1
    have hnew : ∀ i < r - 1, pos1 (.joint k i) = ![((acc.rail.length + i : ℕ) : K) * (d / r), 0, 0] := by
      intro i hi
      rw [hp1, placeBetween_fresh r _ hjinj _ _ _ i hi, hposa, hposb]
      have e : ((segStart r n (k + 1) + 0 : ℕ) : K) * (d / r) - ((acc.rail.length - 1 : ℕ) : K) * (d / r) = d := by
        have : segStart r n (k + 1) + 0 = (acc.rail.length - 1) + r := by omega
        rw [this]
        push_cast
        field_simp
        ring
      ext c
      fin_cases c
      · simp only [Fin.zero_eta, Matrix.cons_val_zero, e]
        have : ((acc.rail.length + i : ℕ) : K) = ((acc.rail.length - 1 : ℕ) : K) + ((i + 1 : ℕ) : K) := by
          have : acc.rail.length + i = (acc.rail.length - 1) + (i + 1) := by omega
          rw [this]; push_cast; ring
        rw [this]
        ring
      · simp
      · simp
    have horig : ∀ j i, pos1 (.orig j i) = pos (.orig j i) := by
      intro j i
      rw [hp1, placeBetween_other _ _ _ _ _ _ (by intro i hc; cases hc)]
    have hother : ∀ x, (∀ i, x ≠ .joint k i) → pos1 x = pos x := by
      intro x hx
      rw [hp1, placeBetween_other _ _ _ _ _ _ hx]
    have hrl : (ofTrack (k + 1) (t (k + 1))).rail.length = n (k + 1) * r := by simp [ofTrack, hr1]
    have hsll : (ofTrack (k + 1) (t (k + 1))).sleepers.length = n (k + 1) := by simp [ofTrack, hs1]
    obtain ⟨pos', res, h1, h2, h3, h4, h5⟩ := ih (k + 1) pos1
      { mesh := (ofTrack (k + 1) (t (k + 1))).mesh
        rail := acc.rail ++ (List.range (r - 1)).map (TrackNode.joint k) ++ (ofTrack (k + 1) (t (k + 1))).rail
        railElements := acc.railElements ++ connectingElements a (.orig (k + 1) 0) ((List.range (r - 1)).map (TrackNode.joint k)) ++
          (ofTrack (k + 1) (t (k + 1))).railElements
        sleepers := acc.sleepers ++ (ofTrack (k + 1) (t (k + 1))).sleepers
        padNodes := acc.padNodes ++ (ofTrack (k + 1) (t (k + 1))).padNodes
        pads := acc.pads ++ (ofTrack (k + 1) (t (k + 1))).pads
        soilNodes := (ofTrack (k + 1) (t (k + 1))).soilNodes
        soil := (ofTrack (k + 1) (t (k + 1))).soil }
      (by simp only [List.length_append, List.length_map, List.length_range, hrl]; omega)
      (by
        intro x hx k' i hk'
        simp only [List.mem_append, List.mem_map] at hx
        rcases hx with (hx | ⟨j, _, rfl⟩) | hx
        · exact hold x hx k' i (by omega)
        · intro hc; injection hc with hc _; omega
        · simp only [ofTrack, List.mem_map] at hx
          obtain ⟨j, _, rfl⟩ := hx
          intro hc; cases hc)
      (by
        intro i hi
        simp only [List.length_append, List.length_map, List.length_range, hrl] at hi
        simp only
        by_cases c1 : i < acc.rail.length
        · rw [List.append_assoc, List.getD_append _ _ _ _ c1, hother, hrail i c1]
          intro q
          exact hold _ (by rw [List.getD_eq_getElem _ _ c1]; exact List.getElem_mem _) k q (le_refl _)
        · by_cases c2 : i < acc.rail.length + (r - 1)
          · rw [List.getD_append _ _ _ _ (by simp; omega), List.getD_append_right _ _ _ _ (by omega),
              List.getD_eq_getElem _ _ (by simp; omega)]
            simp only [List.getElem_map, List.getElem_range]
            rw [hnew _ (by omega)]
            congr 3
            rw [Nat.add_sub_cancel' (by omega)]
          · rw [List.getD_append_right _ _ _ _ (by simp; omega), List.getD_eq_getElem _ _ (by
              rw [hrl]; simp; omega)]
            simp only [ofTrack, hr1, List.getElem_map, List.getElem_range, List.length_append, List.length_map,
              List.length_range]
            rw [horig, hposrail _ (by omega)]
            congr 3
            have : segStart r n (k + 1) + (i - (acc.rail.length + (r - 1))) = i := by omega
            rw [this])
      (by
        intro x hx k' i
        simp only [List.mem_append] at hx
        rcases hx with hx | hx
        · exact hsold x hx k' i
        · simp only [ofTrack, List.mem_map] at hx
          obtain ⟨j, _, rfl⟩ := hx
          intro hc; cases hc)
      (by
        intro hr1'
        obtain ⟨hl, hp⟩ := hsl hr1'
        have hst : segStart r n (k + 1) = acc.sleepers.length := by
          rw [hstart, hl, hr1']; simp
        refine ⟨by simp only [List.length_append, hsll]; omega, ?_⟩
        intro i hi
        simp only [List.length_append, hsll] at hi
        simp only
        by_cases c1 : i < acc.sleepers.length
        · rw [List.getD_append _ _ _ _ c1, hother, hp i c1]
          intro q
          exact hsold _ (by rw [List.getD_eq_getElem _ _ c1]; exact List.getElem_mem _) k q
        · rw [List.getD_append_right _ _ _ _ (by omega), List.getD_eq_getElem _ _ (by rw [hsll]; omega)]
          simp only [ofTrack, hs1, List.getElem_map, List.getElem_range]
          rw [horig, hlater (k + 1) (by omega) (by omega) _ (by omega)]
          simp only [movedPos]
          rw [trackStore_sleeper _ _ _ _ _ (by omega), hst]
          simp only [Matrix.cons_val]
          congr 1
          have hi' : (i : K) = ((i - acc.sleepers.length : ℕ) : K) + (acc.sleepers.length : K) := by
            rw [← Nat.cast_add, Nat.sub_add_cancel (by omega)]
          rw [hi', hr1']
          push_cast
          ring)
      (by
        intro j hj1 hj2 i hi
        rw [horig]
        exact hlater j (by omega) (by omega) i hi)
    refine ⟨pos', res, ?_, ?_, h3, h4, fun j i => by rw [h5, horig]⟩
    · rw [List.range'_succ, List.map_cons, joinTracks, hlast, hhead]
      exact h1
    · rw [h2, show k + 1 + m = k + (m + 1) by omega]

theorem combine_generated (g : GeneratedTracks hash r d n h t) (m : ℕ) :
    ∃ pos' res, combineTracks r d TrackNode.joint (trackPos t) ((List.range (m + 1)).map fun j => ofTrack j (t j)) = .ok (pos', res) ∧
      res.rail.length = segStart r n m + n m * r ∧
      (∀ i < res.rail.length, pos' (res.rail.getD i (.joint 0 0)) = ![(i : K) * (d / r), 0, 0]) ∧
      (r = 1 → ∀ i < res.sleepers.length, pos' (res.sleepers.getD i (.joint 0 0)) = ![(i : K) * d, -1, 0]) ∧
      ∀ j ≤ m, ∀ i < n j * r + n j + n j, pos' (.orig j i) = movedPos r d n h j i := by
  have hr' : (0 : K) < r := by exact_mod_cast g.r_pos
  obtain ⟨p, h1, h2, -⟩ := moveMeshes_generated g m 0 (trackPos t) (by
      intro i _
      simp only [trackPos, (g.facts 0).2.2.1, movedPos, segStart]
      ext c
      fin_cases c <;> simp) (by
      intro j _ _ i
      simp only [trackPos, (g.facts j).2.2.1])
  have h2' : ∀ j ≤ m, ∀ i < n j * r + n j + n j, p (.orig j i) = movedPos r d n h j i :=
    fun j hj i hi => h2 j (by omega) (by omega) i hi
  obtain ⟨-, -, -, hr0, hs0⟩ := g.facts 0
  have hz : segStart r n 0 = 0 := by simp [segStart]
  obtain ⟨pos', res, h3, h4, h5, h6, h7⟩ := joinTracks_generated g m 0 p (ofTrack 0 (t 0))
    (by simp [ofTrack, hr0, hz])
    (by
      intro x hx k' i _
      simp only [ofTrack, List.mem_map] at hx
      obtain ⟨j, _, rfl⟩ := hx
      intro hc; cases hc)
    (by
      intro i hi
      have hi' : i < n 0 * r := by simpa [ofTrack, hr0] using hi
      rw [List.getD_eq_getElem _ _ hi]
      simp only [ofTrack, hr0, List.getElem_map, List.getElem_range]
      rw [h2' 0 (by omega) i (by omega)]
      simp only [movedPos, trackStore_rail _ _ _ _ _ hi', hz]
      simp [mul_div_assoc])
    (by
      intro x hx k' i
      simp only [ofTrack, List.mem_map] at hx
      obtain ⟨j, _, rfl⟩ := hx
      intro hc; cases hc)
    (by
      intro _
      refine ⟨by simp [ofTrack, hs0, hz], ?_⟩
      intro i hi
      have hi' : i < n 0 := by simpa [ofTrack, hs0] using hi
      rw [List.getD_eq_getElem _ _ hi]
      simp only [ofTrack, hs0, List.getElem_map, List.getElem_range]
      rw [h2' 0 (by omega) _ (by omega)]
      simp only [movedPos, trackStore_sleeper _ _ _ _ _ hi', hz]
      simp)
    (by
      intro j _ hj i hi
      exact h2' j (by omega) i hi)
  refine ⟨pos', res, ?_, by simpa using h4, h5, h6, ?_⟩
  · have e : (List.range (m + 1)).map (fun j => ofTrack j (t j)) =
        ofTrack 0 (t 0) :: (List.range' 1 m).map fun j => ofTrack j (t j) := by
      rw [List.range_eq_range', List.range'_succ, List.map_cons]
    rw [List.range_eq_range'] at e ⊢
    rw [e, combineTracks, ← e, List.map_map]
    have h1' : moveMeshes d (trackPos t) ((List.range' 0 (m + 1)).map (TrackSeg.mesh ∘ fun j => ofTrack j (t j))) = .ok p := h1
    rw [h1']
    exact h3
  · intro j hj i hi
    rw [h7]
    exact h2' j hj i hi

/-- C49: the nodes of the rail combined from any number of generated segments are equally spaced on the x-axis, one rail
element length apart, also across the joints. -/
theorem C49_rail_spacing (g : GeneratedTracks hash r d n h t) (m : ℕ) :
    ∃ pos' res, combineTracks r d TrackNode.joint (trackPos t) ((List.range (m + 1)).map fun j => ofTrack j (t j)) = .ok (pos', res) ∧
      ∀ i < res.rail.length, pos' (res.rail.getD i (.joint 0 0)) = ![(i : K) * (d / r), 0, 0] := by
  obtain ⟨pos', res, h1, _, h3, _⟩ := combine_generated g m
  exact ⟨pos', res, h1, h3⟩

/-- C49 as far as it holds: with one rail element per sleeper all sleepers are one sleeper distance apart. Missing: more
rail elements per sleeper, `C49_violated`. -/
theorem C49_sleepers_partial (g : GeneratedTracks hash 1 d n h t) (m : ℕ) :
    ∃ pos' res, combineTracks 1 d TrackNode.joint (trackPos t) ((List.range (m + 1)).map fun j => ofTrack j (t j)) = .ok (pos', res) ∧
      ∀ i < res.sleepers.length, pos' (res.sleepers.getD i (.joint 0 0)) = ![(i : K) * d, -1, 0] := by
  obtain ⟨pos', res, h1, _, _, h4, _⟩ := combine_generated g m
  exact ⟨pos', res, h1, h4 rfl⟩

/-- C49 fails for two or more rail elements per sleeper: at each joint between segments `j` and `j + 1` the distance from
the last sleeper to the next one is `(2 - 1 / r) d` instead of `d`. -/
theorem C49_violated (g : GeneratedTracks hash r d n h t) (hr2 : 2 ≤ r) (m j : ℕ) (hj : j < m) :
    ∃ pos' res, combineTracks r d TrackNode.joint (trackPos t) ((List.range (m + 1)).map fun j => ofTrack j (t j)) = .ok (pos', res) ∧
      pos' ((ofTrack (j + 1) (t (j + 1))).sleepers.getD 0 (.joint 0 0)) 0 -
        pos' ((ofTrack j (t j)).sleepers.getD (n j - 1) (.joint 0 0)) 0 = (2 - 1 / r) * d ∧ (2 - 1 / r) * d ≠ d := by
  obtain ⟨pos', res, h1, _, _, _, h5⟩ := combine_generated g m
  have hr' : (0 : K) < r := by exact_mod_cast g.r_pos
  have hn0 := g.n_pos j
  have hn1 := g.n_pos (j + 1)
  refine ⟨pos', res, h1, ?_, ?_⟩
  · rw [List.getD_eq_getElem _ _ (by simp [ofTrack, (g.facts (j + 1)).2.2.2.2]; omega),
      List.getD_eq_getElem _ _ (by simp [ofTrack, (g.facts j).2.2.2.2]; omega)]
    simp only [ofTrack, (g.facts (j + 1)).2.2.2.2, (g.facts j).2.2.2.2, List.getElem_map, List.getElem_range]
    rw [h5 _ (by omega) _ (by omega), h5 _ (by omega) _ (by omega)]
    simp only [movedPos]
    rw [trackStore_sleeper _ _ _ _ _ (by omega), trackStore_sleeper _ _ _ _ _ (by omega)]
    simp only [Matrix.cons_val]
    have e : segStart r n (j + 1) = segStart r n j + (n j * r + (r - 1)) := by
      unfold segStart; rw [Finset.sum_range_succ]
    have e1 : ((n j - 1 : ℕ) : K) = (n j : K) - 1 := by
      rw [Nat.cast_sub hn0]; simp
    have e2 : ((r - 1 : ℕ) : K) = (r : K) - 1 := by
      rw [Nat.cast_sub g.r_pos]; simp
    rw [e, e1]
    push_cast
    rw [e2]
    field_simp
    ring
  · intro hc
    have hd := g.d_pos
    have h2 : (2 : K) ≤ r := by exact_mod_cast hr2
    have : (1 - 1 / (r : K)) * d = 0 := by linear_combination hc
    rcases mul_eq_zero.1 this with h0 | h0
    · have : 1 / (r : K) = 1 := by linarith
      rw [div_eq_one_iff_eq hr'.ne'] at this
      linarith
    · linarith

end generated

/-- The hypotheses are met: any number of sleepers and depth, two rail elements per 0.6 m. -/
example (n : ℕ → ℕ) (hn : ∀ k, 0 < n k) : ∃ t, GeneratedTracks roundedCoords 2 (3 / 5) n (fun _ => 4) t := by
  have : ∀ k, ∃ t, createHorizontalTrack roundedCoords (n k) 2 (3 / 5) 4 = .ok t := fun k => by
    obtain ⟨t, ht, _⟩ := C48_structure roundedCoords (n k) 2 (by norm_num) (3 / 5) 4
    exact ⟨t, ht⟩
  choose t ht using this
  exact ⟨t, by norm_num, hn, by norm_num, fun _ => by norm_num, ht⟩

/-! ### C50 -/

theorem mem_chainOf {ι : Type*} {a b : ι} {l : List ι} (h : (a, b) ∈ chainOf l) : a ∈ l ∧ b ∈ l := by
  have := List.of_mem_zip h
  exact ⟨this.1, List.mem_of_mem_tail this.2⟩

theorem length_chainOf {ι : Type*} (l : List ι) : (chainOf l).length = l.length - 1 := by
  simp [chainOf]

theorem hingeLoop_append (h : ℕ) (s : K) (st : HingeLoop K) (idx : ℕ) (es fs : List (ℕ × ℕ)) :
    hingeLoop h s st idx (es ++ fs) = hingeLoop h s (hingeLoop h s st idx es) (idx + es.length) fs := by
  induction es generalizing st idx with
  | nil => rfl
  | cons e es ih =>
    simp only [List.cons_append, hingeLoop, ih, List.length_cons]
    congr 1
    omega

theorem hingeLoop_skip (h : ℕ) (s : K) (st : HingeLoop K) (idx : ℕ) (es : List (ℕ × ℕ))
    (hes : ∀ e ∈ es, e.1 ≠ h ∧ e.2 ≠ h) : hingeLoop h s st idx es = st := by
  induction es generalizing idx with
  | nil => rfl
  | cons e es ih =>
    have he := hes e (by simp)
    rw [hingeLoop, hingeStep, if_neg (by simp [he.1, he.2]), ih _ fun e' he' => hes e' (List.mem_cons_of_mem _ he')]

theorem chain_avoids {l : List ℕ} {h : ℕ} (hl : h ∉ l) : ∀ e ∈ (chainOf l).reverse, e.1 ≠ h ∧ e.2 ≠ h := by
  intro e he
  rw [List.mem_reverse] at he
  obtain ⟨a, b⟩ := e
  have := mem_chainOf he
  exact ⟨fun hc => hl (hc ▸ this.1), fun hc => hl (hc ▸ this.2)⟩

theorem findIdx_close (x : ℕ → K) (xh : K) (A C : List ℕ) (h : ℕ) (hclose : npIsClose (x h) xh)
    (hfirst : ∀ n ∈ A, ¬ npIsClose (x n) xh) :
    (A ++ h :: C).findIdx? (fun n => decide (npIsClose (x n) xh)) = some A.length := by
  rw [List.findIdx?_append]
  have h1 : A.findIdx? (fun n => decide (npIsClose (x n) xh)) = none := by
    rw [List.findIdx?_eq_none_iff]
    intro n hn
    simpa using hfirst n hn
  rw [h1]
  simp [List.findIdx?_cons, hclose]

/-- C50: a coordinate that is not (close to) that of a rail node is rejected; otherwise it is not. -/
theorem C50_reject (x : ℕ → K) (stiff : K) (nodes : List ℕ) (elements : List (ℕ × ℕ)) (xh : K) :
    addHinge x stiff nodes elements xh = .error .exception ↔
      ∀ n ∈ nodes, ¬ |x n - xh| ≤ 1 / 100000000 + 1 / 100000 * |xh| := by
  unfold addHinge
  cases hf : nodes.findIdx? fun n => decide (npIsClose (x n) xh) with
  | none =>
    rw [List.findIdx?_eq_none_iff] at hf
    simp only [true_iff]
    intro n hn
    have := hf n hn
    simpa [npIsClose] using this
  | some k =>
    have hk : ∃ n ∈ nodes, npIsClose (x n) xh := by
      rw [List.findIdx?_eq_some_iff_getElem] at hf
      obtain ⟨h1, h2, _⟩ := hf
      exact ⟨nodes[k], List.getElem_mem _, by simpa using h2⟩
    constructor
    · intro h
      exfalso
      simp only at h
      split at h
      · simp at h
      · split_ifs at h
        simp at h
    · intro h
      obtain ⟨n, hn, hc⟩ := hk
      exact absurd hc (h n hn)

/-- C50 as far as it holds: a hinge at an inner node of a rail. The rail is split in the part before the hinge, the two
elements at the hinge, and the part after; nothing is lost and the order is kept; the two elements have half of the
hinge's stiffness as spring at the hinge node and none at the other node. Missing: end nodes, `C50_first_violated`,
`C50_last_violated`. -/
theorem C50_split_partial (x : ℕ → K) (stiff xh : K) (A B : List ℕ) (p h q : ℕ) (nodes : List ℕ)
    (hnodes : nodes = A ++ p :: h :: q :: B) (hnd : nodes.Nodup) (hclose : npIsClose (x h) xh)
    (hfirst : ∀ n ∈ A ++ [p], ¬ npIsClose (x n) xh) :
    ∃ p1 l r p2, addHinge x stiff nodes (chainOf nodes) xh = .ok [p1, l, r, p2] ∧
      p1.elements ++ l.elements ++ r.elements ++ p2.elements = chainOf nodes ∧
      p1.nodes ++ [h] ++ p2.nodes = nodes ∧
      p1.elements = chainOf p1.nodes ∧ p2.elements = chainOf p2.nodes ∧
      l.elements = [(p, h)] ∧ l.nodes = [p, h] ∧ r.elements = [(h, q)] ∧ r.nodes = [h, q] ∧
      p1.spring1 = none ∧ p1.spring2 = none ∧ p2.spring1 = none ∧ p2.spring2 = none ∧
      l.spring1 = none ∧ l.spring2 = some (stiff / 2) ∧ r.spring1 = some (stiff / 2) ∧ r.spring2 = none := by
  subst hnodes
  have hassoc : A ++ p :: h :: q :: B = (A ++ [p]) ++ h :: q :: B := by simp
  rw [hassoc] at hnd ⊢
  have hnd' := hnd
  rw [List.nodup_append] at hnd
  obtain ⟨hA, hB, hdis⟩ := hnd
  have hhA : h ∉ A ++ [p] := fun hc => hdis _ hc h (by simp) rfl
  rw [List.nodup_cons] at hB
  have hhB := hB.1
  have hph : p ≠ h := fun hc => hhA (by simp [hc])
  have hqh : q ≠ h := fun hc => hhB (by simp [hc])
  have hchain : chainOf ((A ++ [p]) ++ h :: q :: B) = chainOf (A ++ [p]) ++ (p, h) :: (h, q) :: chainOf (q :: B) := by
    rw [chainOf_append (A ++ [p]) (h :: q :: B) p h (by simp) rfl, chainOf_cons]
  have hnot : ∀ y, (h, y) ∉ chainOf (A ++ [p]) := fun y hc => hhA (mem_chainOf hc).1
  have hnot2 : ∀ y, (y, h) ∉ chainOf (A ++ [p]) := fun y hc => hhA (mem_chainOf hc).2
  have hloop : hingeLoop h stiff ⟨none, chainOf ((A ++ [p]) ++ h :: q :: B), []⟩ 0
      (chainOf ((A ++ [p]) ++ h :: q :: B)).reverse =
      ⟨some (B.length + 1), chainOf (A ++ [p]) ++ chainOf (q :: B),
        [⟨[h, q], [(h, q)], some (stiff / 2), none⟩, ⟨[p, h], [(p, h)], none, some (stiff / 2)⟩]⟩ := by
    rw [hchain]
    simp only [List.reverse_append, List.reverse_cons, List.append_assoc, List.cons_append, List.nil_append]
    rw [hingeLoop_append, hingeLoop_skip _ _ _ _ _ (chain_avoids hhB), hingeLoop, hingeLoop,
      hingeLoop_skip _ _ _ _ _ (chain_avoids hhA)]
    simp only [hingeStep, true_or, or_true, if_true, hqh, hph, if_false, List.nil_append, List.cons_append]
    rw [List.erase_append_right _ (hnot q), List.erase_cons_tail (by simp [hph]), List.erase_cons_head,
      List.erase_append_right _ (hnot2 p), List.erase_cons_head]
    simp [length_chainOf]
  have hidx : ((A ++ [p]) ++ h :: q :: B).findIdx? (fun n => decide (npIsClose (x n) xh)) = some (A ++ [p]).length :=
    findIdx_close x xh (A ++ [p]) (q :: B) h hclose hfirst
  have hget : ((A ++ [p]) ++ h :: q :: B).getD (A ++ [p]).length 0 = h := by
    rw [List.getD_append_right _ _ _ _ (le_refl _)]
    simp
  have herase : ((A ++ [p]) ++ h :: q :: B).erase h = (A ++ [p]) ++ q :: B := by
    rw [List.erase_append_right _ hhA, List.erase_cons_head]
  have hlen : (chainOf (A ++ [p]) ++ chainOf (q :: B)).length = A.length + B.length := by
    simp [length_chainOf]
  have hr : A.length + B.length + 1 - (B.length + 1) = (chainOf (A ++ [p])).length := by
    simp [length_chainOf]
  refine ⟨⟨A ++ [p], chainOf (A ++ [p]), none, none⟩, ⟨[p, h], [(p, h)], none, some (stiff / 2)⟩,
    ⟨[h, q], [(h, q)], some (stiff / 2), none⟩, ⟨q :: B, chainOf (q :: B), none, none⟩, ?_, ?_, ?_, rfl, rfl, rfl, rfl,
    rfl, rfl, rfl, rfl, rfl, rfl, rfl, rfl, rfl, rfl⟩
  · unfold addHinge
    rw [hidx]
    simp only [hget, hloop, herase, hlen, hr]
    rw [if_neg (by rw [length_chainOf]; simp), List.take_left, List.drop_left, List.take_left, List.drop_left]
    rfl
  · rw [hchain]; simp
  · simp

/-- C50 fails at the first node: the element after the hinge element is put before it, in a part without nodes. -/
theorem C50_first_violated (x : ℕ → K) (stiff xh : K) (h q c : ℕ) (B : List ℕ) (hnd : (h :: q :: c :: B).Nodup)
    (hclose : npIsClose (x h) xh) :
    ∃ p1 r p2, addHinge x stiff (h :: q :: c :: B) (chainOf (h :: q :: c :: B)) xh = .ok [p1, r, p2] ∧
      p1.nodes = [] ∧ p1.elements = [(q, c)] ∧ r.elements = [(h, q)] ∧ p2.elements = chainOf (c :: B) := by
  rw [List.nodup_cons] at hnd
  have hqh : q ≠ h := fun hc => hnd.1 (by simp [hc])
  have hloop : hingeLoop h stiff ⟨none, chainOf (h :: q :: c :: B), []⟩ 0 (chainOf (h :: q :: c :: B)).reverse =
      ⟨some (B.length + 1), chainOf (q :: c :: B), [⟨[h, q], [(h, q)], some (stiff / 2), none⟩]⟩ := by
    rw [chainOf_cons h q, List.reverse_cons, hingeLoop_append, hingeLoop_skip _ _ _ _ _ (chain_avoids hnd.1), hingeLoop,
      hingeLoop]
    simp [hingeStep, hqh, length_chainOf]
  refine ⟨⟨[], [(q, c)], none, none⟩, ⟨[h, q], [(h, q)], some (stiff / 2), none⟩,
    ⟨q :: c :: B, chainOf (c :: B), none, none⟩, ?_, rfl, rfl, rfl, rfl⟩
  unfold addHinge
  have hidx : (h :: q :: c :: B).findIdx? (fun n => decide (npIsClose (x n) xh)) = some 0 :=
    findIdx_close x xh [] (q :: c :: B) h hclose (by simp)
  rw [hidx]
  simp only [List.getD_cons_zero, hloop, List.erase_cons_head]
  rw [if_neg (by simp [length_chainOf])]
  have hr : (chainOf (q :: c :: B)).length + 1 - (B.length + 1) = 1 := by simp [length_chainOf]
  rw [hr, chainOf_cons]
  rfl

/-- C50 fails at the last node: an `IndexError`. -/
theorem C50_last_violated (x : ℕ → K) (stiff xh : K) (A : List ℕ) (p h : ℕ) (hnd : (A ++ [p] ++ [h]).Nodup)
    (hclose : npIsClose (x h) xh) (hfirst : ∀ n ∈ A ++ [p], ¬ npIsClose (x n) xh) :
    addHinge x stiff (A ++ [p] ++ [h]) (chainOf (A ++ [p] ++ [h])) xh = .error .indexError := by
  rw [List.nodup_append] at hnd
  have hhA : h ∉ A ++ [p] := fun hc => hnd.2.2 _ hc h (by simp) rfl
  have hph : p ≠ h := fun hc => hhA (by simp [hc])
  have hchain : chainOf (A ++ [p] ++ [h]) = chainOf (A ++ [p]) ++ [(p, h)] := by
    rw [chainOf_append (A ++ [p]) [h] p h (by simp) rfl]
    rfl
  have hnot2 : ∀ y, (y, h) ∉ chainOf (A ++ [p]) := fun y hc => hhA (mem_chainOf hc).2
  have hloop : hingeLoop h stiff ⟨none, chainOf (A ++ [p] ++ [h]), []⟩ 0 (chainOf (A ++ [p] ++ [h])).reverse =
      ⟨some 0, chainOf (A ++ [p]), [⟨[p, h], [(p, h)], none, some (stiff / 2)⟩]⟩ := by
    rw [hchain, List.reverse_append, List.reverse_singleton, List.singleton_append, hingeLoop,
      hingeLoop_skip _ _ _ _ _ (chain_avoids hhA)]
    simp [hingeStep, hph, List.erase_append_right _ (hnot2 p)]
  have hidx : (A ++ [p] ++ [h]).findIdx? (fun n => decide (npIsClose (x n) xh)) = some (A ++ [p]).length :=
    findIdx_close x xh (A ++ [p]) [] h hclose hfirst
  have hget : (A ++ [p] ++ [h]).getD (A ++ [p]).length 0 = h := by
    rw [List.getD_append_right _ _ _ _ (le_refl _)]
    simp
  unfold addHinge
  rw [hidx]
  simp only [hget, hloop]
  simp

/-- The hypotheses are met: a rail with nodes at 0, 1, 2, 3, 4 and a hinge at 2. -/
example : ([0, 1, 2, 3, 4] : List ℕ) = [0] ++ 1 :: 2 :: 3 :: [4] ∧ ([0, 1, 2, 3, 4] : List ℕ).Nodup ∧
    npIsClose ((2 : ℕ) : ℚ) 2 ∧ ∀ n ∈ [0] ++ [1], ¬ npIsClose ((n : ℕ) : ℚ) 2 := by decide +kernel

/-! ### C52 -/

theorem lowestNode_spec (y : ℕ → K) (nodes : List ℕ) (n : ℕ) (h : lowestNode y nodes = .ok n) :
    n ∈ nodes ∧ ∀ m ∈ nodes, y n ≤ y m := by
  unfold lowestNode at h
  haveI : Std.Total (fun a b => y a ≤ y b) := ⟨fun a b => le_total _ _⟩
  haveI : IsTrans ℕ (fun a b => y a ≤ y b) := ⟨fun a b c => le_trans⟩
  have hperm := List.perm_insertionSort (fun a b => y a ≤ y b) nodes
  have hsort := List.pairwise_insertionSort (fun a b => y a ≤ y b) nodes
  cases hl : nodes.insertionSort fun a b => y a ≤ y b with
  | nil => rw [hl] at h; simp at h
  | cons a l =>
    rw [hl] at h hperm hsort
    simp only [Except.ok.injEq] at h
    subst h
    refine ⟨hperm.mem_iff.1 (by simp), ?_⟩
    intro m hm
    rcases List.mem_cons.1 (hperm.mem_iff.2 hm) with rfl | hm
    · exact le_refl _
    · exact (List.pairwise_cons.1 hsort).1 m hm

/-- C52: the boundary has one node for each element, which is a lowest node of that element. Elements without nodes are
rejected. -/
theorem C52_per_element (y : ℕ → K) (elements : List (List ℕ)) :
    (∀ ns, bottomBoundary y elements = .ok ns →
      List.Forall₂ (fun e n => n ∈ e ∧ ∀ m ∈ e, y n ≤ y m) elements ns) ∧
    ((∀ e ∈ elements, e ≠ []) → ∃ ns, bottomBoundary y elements = .ok ns) := by
  induction elements with
  | nil =>
    refine ⟨?_, fun _ => ⟨[], rfl⟩⟩
    intro ns h
    simp only [bottomBoundary, Except.ok.injEq] at h
    subst h
    exact List.Forall₂.nil
  | cons e es ih =>
    constructor
    · intro ns h
      rw [bottomBoundary] at h
      cases hl : lowestNode y e with
      | error err => rw [hl] at h; simp at h
      | ok n =>
        cases hb : bottomBoundary y es with
        | error err => rw [hl, hb] at h; simp at h
        | ok ms =>
          rw [hl, hb] at h
          simp only [Except.ok.injEq] at h
          subst h
          exact List.Forall₂.cons (lowestNode_spec y e n hl) (ih.1 ms hb)
    · intro hne
      obtain ⟨ms, hms⟩ := ih.2 fun e' he' => hne e' (List.mem_cons_of_mem _ he')
      have : ∃ n, lowestNode y e = .ok n := by
        unfold lowestNode
        cases hl : e.insertionSort fun a b => y a ≤ y b with
        | nil =>
          have hlen := List.length_insertionSort (fun a b => y a ≤ y b) e
          rw [hl] at hlen
          exact absurd (List.length_eq_zero_iff.1 hlen.symm) (hne e (by simp))
        | cons a l => exact ⟨a, rfl⟩
      obtain ⟨n, hn⟩ := this
      exact ⟨n :: ms, by rw [bottomBoundary, hn, hms]⟩

/-- C52 as far as it holds: if every element has exactly one node at the lowest level `y0` of the part, the boundary
consists of exactly the nodes at that level. Missing: stacked elements, `C52_violated`. -/
theorem C52_bottom_partial (y : ℕ → K) (elements : List (List ℕ)) (y0 : K) (hlow : ∀ e ∈ elements, ∀ m ∈ e, y0 ≤ y m)
    (hone : ∀ e ∈ elements, ∃ n ∈ e, y n = y0 ∧ ∀ m ∈ e, y m = y0 → m = n) (ns : List ℕ)
    (h : bottomBoundary y elements = .ok ns) (n : ℕ) : n ∈ ns ↔ (∃ e ∈ elements, n ∈ e) ∧ y n = y0 := by
  have hf := (C52_per_element y elements).1 ns h
  clear h
  induction hf with
  | nil => simp
  | @cons e a es as hea _ ih =>
    have ih' : n ∈ as ↔ (∃ e ∈ es, n ∈ e) ∧ y n = y0 := ih (fun e' he' => hlow e' (List.mem_cons_of_mem _ he')) (fun e' he' => hone e' (List.mem_cons_of_mem _ he'))
    obtain ⟨b, hb, hby, huniq⟩ := hone e (by simp)
    have hay : y a = y0 := le_antisymm (hby ▸ hea.2 b hb) (hlow e (by simp) a hea.1)
    rw [List.mem_cons, ih']
    constructor
    · rintro (rfl | ⟨⟨e', he', hn⟩, hy⟩)
      · exact ⟨⟨e, by simp, hea.1⟩, hay⟩
      · exact ⟨⟨e', List.mem_cons_of_mem _ he', hn⟩, hy⟩
    · rintro ⟨⟨e', he', hn⟩, hy⟩
      rcases List.mem_cons.1 he' with rfl | he'
      · left
        rw [huniq n hn hy, huniq a hea.1 hay]
      · exact Or.inr ⟨⟨e', he', hn⟩, hy⟩

/-- The soil of a generated track: two columns. -/
example : (∀ e ∈ [[0, 1], [2, 3]], ∀ m ∈ e, (-5 : ℚ) ≤ if m % 2 = 0 then -1 else -5) ∧
    (bottomBoundary (fun m => if m % 2 = 0 then (-1 : ℚ) else -5) [[0, 1], [2, 3]]).toOption = some [1, 3] := by
  decide +kernel

/-- C52 fails for soil in two layers: the node between the layers is fixed as well. -/
theorem C52_violated :
    (bottomBoundary (fun m => -(m : ℚ)) [[0, 1], [1, 2]]).toOption = some [1, 2] := by
  decide +kernel

end generic

end Rose
