/-
C01-C04: the mesh container.

Vocabulary of the statements: `addUniqueNodes hash` is one call of `Mesh.add_unique_nodes_to_mesh`; a history is a list
of calls on an empty mesh, `calls.foldl (addUniqueNodes hash) (s0, [])`, where `s0` is the store of node objects before
the first call. `calls.flatten` lists all objects that were ever added.
-/
import Verif.Lemmas.Geometry
import Mathlib.Tactic.NormNum
import Mathlib.Tactic.FinCases
import Mathlib.Data.Fintype.Basic

set_option linter.unusedSectionVars false

namespace Rose

variable {K : Type*} [Field K] [LinearOrder K] [IsStrictOrderedRing K] {H : Type*} [DecidableEq H]

/-- Specification: two points coincide if no coordinate differs by more than `1e-9`. -/
def Coincide (p q : Fin 3 → K) : Prop := ∀ i, |p i - q i| ≤ 1 / 1000000000

/-- Specification: `m` is the node of the mesh `mesh` that represents the node `n`: the first one in mesh order that
coincides with it and shares its hash. -/
def Represents (hash : (Fin 3 → K) → H) (s0 : ℕ → NodeObj K) (mesh : List ℕ) (m n : ℕ) : Prop :=
  ∃ before after, mesh = before ++ m :: after ∧
    (Coincide (s0 m).pos (s0 n).pos ∧ hash (s0 m).pos = hash (s0 n).pos) ∧
    ∀ k ∈ before, ¬ (Coincide (s0 k).pos (s0 n).pos ∧ hash (s0 k).pos = hash (s0 n).pos)

theorem sameNode_iff (hash : (Fin 3 → K) → H) (a b : NodeObj K) :
    sameNode hash a b = true ↔ Coincide a.pos b.pos ∧ hash a.pos = hash b.pos := by
  simp [sameNode, nodesClose_iff, Coincide, and_comm]

theorem represents_iff (hash : (Fin 3 → K) → H) (s0 : ℕ → NodeObj K) (mesh : List ℕ) (m n : ℕ) :
    Represents hash s0 mesh m n ↔ mesh.find? (fun k => sameNode hash (s0 k) (s0 n)) = some m := by
  rw [List.find?_eq_some_iff_append]
  constructor
  · rintro ⟨b, a, h1, h2, h3⟩
    refine ⟨(sameNode_iff _ _ _).2 h2, b, a, h1, ?_⟩
    intro k hk
    have := h3 k hk
    rw [← sameNode_iff] at this
    simpa using this
  · rintro ⟨h2, b, a, h1, h3⟩
    refine ⟨b, a, h1, (sameNode_iff _ _ _).1 h2, ?_⟩
    intro k hk
    have := h3 k hk
    rw [← sameNode_iff]
    simpa using this

/-! ### C01 -/

/-- C01, first part: adding nodes never removes or reorders the nodes that are in the mesh. -/
theorem C01_earlier_kept (hash : (Fin 3 → K) → H) (s0 : ℕ → NodeObj K) (calls : List (List ℕ)) (new : List ℕ) :
    (calls.foldl (addUniqueNodes hash) (s0, [])).2 <+:
      ((calls ++ [new]).foldl (addUniqueNodes hash) (s0, [])).2 := by
  have L := nodeLaws (K := K) hash
  unfold addUniqueNodes
  rw [dictAdd_calls L, dictAdd_calls L, List.flatten_append, List.foldl_append]
  exact dictFold_prefix L _ _

/-- C01, second part: every node that was ever added is represented by exactly one mesh node, which coincides with it;
mesh nodes are added nodes, and positions never change. -/
theorem C01_represented (hash : (Fin 3 → K) → H) (s0 : ℕ → NodeObj K) (calls : List (List ℕ)) :
    let fin := calls.foldl (addUniqueNodes hash) (s0, [])
    (∀ n ∈ calls.flatten, ∃ m ∈ fin.2, Represents hash s0 fin.2 m n ∧ Coincide (fin.1 m).pos (fin.1 n).pos) ∧
      (∀ m ∈ fin.2, m ∈ calls.flatten) ∧ ∀ k, (fin.1 k).pos = (s0 k).pos := by
  have L := nodeLaws (K := K) hash
  intro fin
  have hinv := dict_inv L s0 calls
  have hpos : ∀ k, (fin.1 k).pos = (s0 k).pos := by
    intro k
    have := dict_field L s0 NodeObj.pos (fun _ _ => rfl) calls.flatten k
    rw [← dictAdd_calls L] at this
    exact this
  refine ⟨?_, fun m hm => hinv.sub.subset hm, hpos⟩
  intro n hn
  obtain ⟨m, hm⟩ := hinv.found n hn
  have hr := (represents_iff hash s0 fin.2 m n).2 hm
  refine ⟨m, List.mem_of_find?_eq_some hm, hr, ?_⟩
  rw [hpos, hpos]
  obtain ⟨_, _, _, h, _⟩ := hr
  exact h.1

/-- C01, third part, as far as it holds: no two mesh nodes coincide AND have the same hash (rounded coordinates).
Missing: two coinciding nodes with different hashes stay apart, see `C01_violated`. -/
theorem C01_no_duplicates_partial (hash : (Fin 3 → K) → H) (s0 : ℕ → NodeObj K) (calls : List (List ℕ)) :
    let fin := calls.foldl (addUniqueNodes hash) (s0, [])
    fin.2.Pairwise fun m n =>
      m ≠ n ∧ ¬ (Coincide (fin.1 m).pos (fin.1 n).pos ∧ hash (fin.1 m).pos = hash (fin.1 n).pos) := by
  have L := nodeLaws (K := K) hash
  intro fin
  have hinv := dict_inv L s0 calls
  have hpos := (C01_represented hash s0 calls).2.2
  refine hinv.pair.imp ?_
  intro m n h
  constructor
  · rintro rfl; rw [L.refl] at h; exact absurd h (by simp)
  · rw [hpos, hpos, ← sameNode_iff, h]; simp

/-- C01, third part in full under the exact extra hypothesis: if coinciding nodes hash alike (for instance because
nodes that coincide have identical coordinates), no two nodes of the mesh coincide. -/
theorem C01_no_coinciding_partial (hash : (Fin 3 → K) → H) (s0 : ℕ → NodeObj K) (calls : List (List ℕ))
    (hsep : ∀ a ∈ calls.flatten, ∀ b ∈ calls.flatten, Coincide (s0 a).pos (s0 b).pos →
      hash (s0 a).pos = hash (s0 b).pos) :
    let fin := calls.foldl (addUniqueNodes hash) (s0, [])
    fin.2.Pairwise fun m n => ¬ Coincide (fin.1 m).pos (fin.1 n).pos := by
  intro fin
  have h := C01_no_duplicates_partial hash s0 calls
  obtain ⟨-, hmem, hpos⟩ := C01_represented hash s0 calls
  refine List.Pairwise.imp_of_mem ?_ h
  intro m n hm hn hmn hc
  refine hmn.2 ⟨hc, ?_⟩
  rw [hpos, hpos] at *
  exact hsep m (hmem m hm) n (hmem n hn) hc

/-- The mesh is fully general: its order of first occurrence. With identical positions for all coinciding nodes the
position of every added node occurs exactly once. -/
theorem C01_unique_position_partial (hash : (Fin 3 → K) → H) (s0 : ℕ → NodeObj K) (calls : List (List ℕ))
    (hsep : ∀ a ∈ calls.flatten, ∀ b ∈ calls.flatten, Coincide (s0 a).pos (s0 b).pos → (s0 a).pos = (s0 b).pos) :
    let fin := calls.foldl (addUniqueNodes hash) (s0, [])
    ∀ n ∈ calls.flatten, ∃! m, m ∈ fin.2 ∧ (fin.1 m).pos = (s0 n).pos := by
  intro fin n hn
  obtain ⟨hrep, hmem, hpos⟩ := C01_represented hash s0 calls
  obtain ⟨m, hm, hr, hc⟩ := hrep n hn
  rw [hpos, hpos] at hc
  refine ⟨m, ⟨hm, by rw [hpos]; exact hsep m (hmem m hm) n hn hc⟩, ?_⟩
  rintro m' ⟨hm', hp'⟩
  have hpair := C01_no_coinciding_partial hash s0 calls (fun a ha b hb h => by rw [hsep a ha b hb h])
  have hcc : ∀ a b, (fin.1 a).pos = (fin.1 b).pos → Coincide (fin.1 a).pos (fin.1 b).pos := by
    intro a b h i; rw [h]; simp
  have heq : (fin.1 m').pos = (fin.1 m).pos := by
    rw [hp', hpos]; exact (hsep m (hmem m hm) n hn hc).symm
  by_contra hne
  rcases List.mem_iff_getElem.1 hm with ⟨i, hi, hi'⟩
  rcases List.mem_iff_getElem.1 hm' with ⟨j, hj, hj'⟩
  have hij : i ≠ j := by rintro rfl; exact hne (hj'.symm.trans hi')
  rw [List.pairwise_iff_getElem] at hpair
  rcases lt_or_gt_of_ne hij with h | h
  · apply hpair i j hi hj h
    rw [hi', hj']; exact hcc _ _ heq.symm
  · apply hpair j i hj hi h
    rw [hi', hj']; exact hcc _ _ heq

/-- Node objects for the examples: three nodes at `x = 0, 1, 0`. -/
def exampleNodes : ℕ → NodeObj ℚ := fun n =>
  { pos := ![if n = 1 then 1 else 0, 0, 0], index := none, idx := fun _ => none,
    act := if n = 0 then ![true, false, false] else ![false, true, false], parts := [n] }

/-- The hypotheses are met: two calls adding three nodes, two of which coincide; the mesh has two nodes. -/
example : (∀ a ∈ [[0, 1], [2]].flatten, ∀ b ∈ [[0, 1], [2]].flatten,
      Coincide (exampleNodes a).pos (exampleNodes b).pos → (exampleNodes a).pos = (exampleNodes b).pos) ∧
    ([[0, 1], [2]].foldl (addUniqueNodes roundedCoords) (exampleNodes, [])).2 = [0, 1] := by
  constructor
  · intro a ha b hb h
    have h0 := h 0
    simp at ha hb
    rcases ha with rfl | rfl | rfl <;> rcases hb with rfl | rfl | rfl <;>
      first | rfl | (norm_num [exampleNodes] at h0)
  · decide +kernel

/-- Two nodes `2e-10` apart on both sides of a rounding boundary. -/
def boundaryNodes : ℕ → NodeObj ℚ := fun n =>
  { pos := ![if n = 0 then 4 / 10000000000 else 6 / 10000000000, 0, 0], index := none, idx := fun _ => none,
    act := fun _ => true, parts := [] }

/-- C01 fails: nodes `2e-10` m apart, far within the comparison tolerance `1e-9`, both stay in the mesh, because
their coordinates round to different ninth decimals and the dictionary never compares them. -/
theorem C01_violated :
    let fin := addUniqueNodes roundedCoords (boundaryNodes, []) [0, 1]
    fin.2 = [0, 1] ∧ Coincide (fin.1 0).pos (fin.1 1).pos := by
  constructor
  · decide +kernel
  · have h := (C01_represented roundedCoords boundaryNodes [[0, 1]]).2.2
    simp only [List.foldl_cons, List.foldl_nil] at h
    rw [h, h]
    intro i
    fin_cases i <;> norm_num [boundaryNodes, abs_le]

/-! ### C02 -/

/-- C02: after any history of calls a mesh node has a dof active exactly if one of the nodes it represents (itself
included) had it active when it was added, and it belongs to exactly the model parts of those nodes. -/
theorem C02_union (hash : (Fin 3 → K) → H) (s0 : ℕ → NodeObj K) (calls : List (List ℕ)) :
    let fin := calls.foldl (addUniqueNodes hash) (s0, [])
    ∀ m ∈ fin.2,
      (∀ d, (fin.1 m).act d = true ↔
        ∃ n ∈ calls.flatten, Represents hash s0 fin.2 m n ∧ (s0 n).act d = true) ∧
      (∀ part, part ∈ (fin.1 m).parts ↔
        ∃ n ∈ calls.flatten, Represents hash s0 fin.2 m n ∧ part ∈ (s0 n).parts) := by
  have L := nodeLaws (K := K) hash
  intro fin m hm
  have hfin : fin = calls.flatten.foldl (dictInsert (sameNode hash) mergeNode) (s0, []) := dictAdd_calls L s0 calls
  constructor
  · intro d
    have := dict_payload L s0 (fun a => a.act d = true) (by intro a b; simp [mergeNode]) calls.flatten m
      (by rw [← hfin]; exact hm)
    rw [← hfin] at this
    simpa only [represents_iff] using this
  · intro part
    have := dict_payload L s0 (fun a => part ∈ a.parts) (by intro a b; simp [mergeNode]) calls.flatten m
      (by rw [← hfin]; exact hm)
    rw [← hfin] at this
    simpa only [represents_iff] using this

theorem foldl_mergeNode_idx (d : Fin 3) (s0 : ℕ → NodeObj K) (rest : List ℕ) (a : NodeObj K) :
    (rest.foldl (fun a p => mergeNode a (s0 p)) a).idx d =
      ((a.idx d).toList ++ rest.filterMap fun p => (s0 p).idx d).getLast? := by
  induction rest generalizing a with
  | nil => cases h : a.idx d <;> simp [h]
  | cons p rest ih =>
    rw [List.foldl_cons, ih, List.filterMap_cons]
    cases h : (s0 p).idx d with
    | none => simp [mergeNode, h]
    | some k =>
      cases ha : a.idx d with
      | none => simp [mergeNode, h]
      | some j => simp [mergeNode, h]

/-- C02, equation numbers: if different objects are added, the number of a dof of a mesh node is the one of the last node it
represents that has a number for this dof. -/
theorem C02_numbers (hash : (Fin 3 → K) → H) (s0 : ℕ → NodeObj K) (calls : List (List ℕ)) (hnd : calls.flatten.Nodup) :
    let fin := calls.foldl (addUniqueNodes hash) (s0, [])
    open Classical in
    ∀ m ∈ fin.2, ∀ d, (fin.1 m).idx d =
      ((calls.flatten.filter fun n => Represents hash s0 fin.2 m n).filterMap fun n => (s0 n).idx d).getLast? := by
  classical
  have L := nodeLaws (K := K) hash
  intro fin m hm d
  have hfin : fin = calls.flatten.foldl (dictInsert (sameNode hash) mergeNode) (s0, []) := dictAdd_calls L s0 calls
  obtain ⟨rest, h1, h2⟩ := dict_foldl L s0 calls.flatten hnd m (by rw [← hfin]; exact hm)
  rw [← hfin] at h1 h2
  have h3 : (calls.flatten.filter fun n => Represents hash s0 fin.2 m n) = m :: rest := by
    rw [← h1]
    apply List.filter_congr
    intro n _
    simp only [represents_iff]
  rw [h2, foldl_mergeNode_idx, h3, List.filterMap_cons]
  cases h : (s0 m).idx d <;> simp

/-- Nodes 0 and 2 coincide; the number 7 of node 2 reaches the mesh node. -/
example :
    let s0 : ℕ → NodeObj ℚ := fun n => { exampleNodes n with idx := fun _ => if n = 2 then some 7 else none }
    [[0, 1], [2]].flatten.Nodup ∧
      ((([[0, 1], [2]].foldl (addUniqueNodes roundedCoords) (s0, [])).1 0).idx 1) = some 7 := by
  decide +kernel

/-- C02 for positions that are equal or farther apart than the tolerance: the surviving node carries the union over
all added nodes at its position. -/
theorem C02_union_at_position (hash : (Fin 3 → K) → H) (s0 : ℕ → NodeObj K) (calls : List (List ℕ))
    (hsep : ∀ a ∈ calls.flatten, ∀ b ∈ calls.flatten, Coincide (s0 a).pos (s0 b).pos → (s0 a).pos = (s0 b).pos) :
    let fin := calls.foldl (addUniqueNodes hash) (s0, [])
    ∀ m ∈ fin.2,
      (∀ d, (fin.1 m).act d = true ↔ ∃ n ∈ calls.flatten, (s0 n).pos = (s0 m).pos ∧ (s0 n).act d = true) ∧
      (∀ part, part ∈ (fin.1 m).parts ↔ ∃ n ∈ calls.flatten, (s0 n).pos = (s0 m).pos ∧ part ∈ (s0 n).parts) := by
  intro fin m hm
  obtain ⟨hrep, hmem, hpos⟩ := C01_represented hash s0 calls
  have hu := C01_unique_position_partial hash s0 calls hsep
  have key : ∀ n ∈ calls.flatten, (Represents hash s0 fin.2 m n ↔ (s0 n).pos = (s0 m).pos) := by
    intro n hn
    constructor
    · rintro ⟨_, _, _, h, _⟩
      exact (hsep m (hmem m hm) n hn h.1).symm
    · intro h
      obtain ⟨m', hm', hr, hc⟩ := hrep n hn
      have h1 : (fin.1 m').pos = (s0 n).pos := by
        rw [hpos, hpos] at hc
        rw [hpos]; exact hsep m' (hmem m' hm') n hn hc
      have : m' = m := (hu n hn).unique ⟨hm', h1⟩ ⟨hm, by rw [hpos, h]⟩
      rw [← this]; exact hr
  obtain ⟨h1, h2⟩ := C02_union hash s0 calls m hm
  constructor
  · intro d
    rw [h1 d]
    constructor
    · rintro ⟨n, hn, hr, ha⟩; exact ⟨n, hn, (key n hn).1 hr, ha⟩
    · rintro ⟨n, hn, hr, ha⟩; exact ⟨n, hn, (key n hn).2 hr, ha⟩
  · intro part
    rw [h2 part]
    constructor
    · rintro ⟨n, hn, hr, ha⟩; exact ⟨n, hn, (key n hn).1 hr, ha⟩
    · rintro ⟨n, hn, hr, ha⟩; exact ⟨n, hn, (key n hn).2 hr, ha⟩

/-- The merged node of the example has the x flag of node 0 and the y flag of node 2, and both model parts. -/
example : let fin := [[0, 1], [2]].foldl (addUniqueNodes roundedCoords) (exampleNodes, [])
    (fin.1 0).act 0 = true ∧ (fin.1 0).act 1 = true ∧ (fin.1 0).act 2 = false ∧ (fin.1 0).parts = [0, 2] := by
  decide +kernel

/-! ### C03 -/

/-- C03: earlier elements keep their order. -/
theorem C03_earlier_kept (hash : (Fin 3 → K) → H) (s0 : ℕ → ElemObj K) (calls : List (List ℕ)) (new : List ℕ) :
    (calls.foldl (addUniqueElements hash) (s0, [])).2 <+:
      ((calls ++ [new]).foldl (addUniqueElements hash) (s0, [])).2 := by
  have L := elemLaws (K := K) hash
  unfold addUniqueElements
  rw [dictAdd_calls L, dictAdd_calls L, List.flatten_append, List.foldl_append]
  exact dictFold_prefix L _ _

/-- Specification: all nodes of `a` are nodes of `b`. -/
def NodesWithin (a b : List (Fin 3 → K)) : Prop := ∀ p ∈ a, ∃ q ∈ b, Coincide q p

theorem sameElem_iff (hash : (Fin 3 → K) → H) (a b : ElemObj K) :
    sameElem hash a b = true ↔ NodesWithin a.nodes b.nodes ∧ a.nodes.map hash = b.nodes.map hash := by
  simp [sameElem, elemEq, NodesWithin, nodesClose_iff, Coincide, and_comm]

/-- C03: every added element is represented by a mesh element that connects nodes of it and carries its model parts;
end nodes never change. -/
theorem C03_represented (hash : (Fin 3 → K) → H) (s0 : ℕ → ElemObj K) (calls : List (List ℕ)) :
    let fin := calls.foldl (addUniqueElements hash) (s0, [])
    (∀ n ∈ calls.flatten, ∃ m ∈ fin.2, NodesWithin (fin.1 m).nodes (s0 n).nodes ∧
      (fin.1 m).nodes.length = (s0 n).nodes.length ∧ ∀ part ∈ (s0 n).parts, part ∈ (fin.1 m).parts) ∧
    (∀ m ∈ fin.2, m ∈ calls.flatten) ∧ ∀ k, (fin.1 k).nodes = (s0 k).nodes := by
  have L := elemLaws (K := K) hash
  intro fin
  have hinv := dict_inv L s0 calls
  have hfin : fin = calls.flatten.foldl (dictInsert (sameElem hash) mergeElem) (s0, []) := dictAdd_calls L s0 calls
  have hpos : ∀ k, (fin.1 k).nodes = (s0 k).nodes := by
    intro k
    have := dict_field L s0 ElemObj.nodes (fun _ _ => rfl) calls.flatten k
    rw [← dictAdd_calls L] at this
    exact this
  refine ⟨?_, fun m hm => hinv.sub.subset hm, hpos⟩
  intro n hn
  obtain ⟨m, hm⟩ := hinv.found n hn
  have h := List.find?_some hm
  rw [sameElem_iff] at h
  have hmem : m ∈ fin.2 := List.mem_of_find?_eq_some hm
  refine ⟨m, hmem, by rw [hpos]; exact h.1, ?_, ?_⟩
  · rw [hpos]; have := congrArg List.length h.2; simpa using this
  · intro part hp
    have := dict_payload L s0 (fun a => part ∈ a.parts) (by intro a b; simp [mergeElem]) calls.flatten m
      (by rw [← hfin]; exact hmem)
    rw [← hfin] at this
    exact this.2 ⟨n, hn, hm, hp⟩

/-- Specification: two elements connect the same nodes (in whatever order). -/
def SameEnds (a b : List (Fin 3 → K)) : Prop := NodesWithin a b ∧ NodesWithin b a

/-- C03 as far as it holds: no two mesh elements connect the same nodes, provided that elements connecting the same
nodes list them in the same order with the same hashes. Missing: reversed duplicates, see `C03_violated`. -/
theorem C03_no_duplicates_partial (hash : (Fin 3 → K) → H) (s0 : ℕ → ElemObj K) (calls : List (List ℕ))
    (hord : ∀ a ∈ calls.flatten, ∀ b ∈ calls.flatten, SameEnds (s0 a).nodes (s0 b).nodes →
      (s0 a).nodes.map hash = (s0 b).nodes.map hash) :
    let fin := calls.foldl (addUniqueElements hash) (s0, [])
    fin.2.Pairwise fun m n => m ≠ n ∧ ¬ SameEnds (fin.1 m).nodes (fin.1 n).nodes := by
  have L := elemLaws (K := K) hash
  intro fin
  have hinv := dict_inv L s0 calls
  obtain ⟨-, hmem, hpos⟩ := C03_represented hash s0 calls
  refine List.Pairwise.imp_of_mem ?_ hinv.pair
  intro m n hm hn h
  constructor
  · rintro rfl; rw [L.refl] at h; exact absurd h (by simp)
  · rw [hpos, hpos]
    intro hs
    have : sameElem hash (s0 m) (s0 n) = true :=
      (sameElem_iff _ _ _).2 ⟨hs.1, hord m (hmem m hm) n (hmem n hn) hs⟩
    rw [this] at h; exact absurd h (by simp)

/-- Element objects: 0 and 1 connect the points `x = 0` and `x = 1` in the same order, 2 in the reverse order. -/
def exampleElems : ℕ → ElemObj ℚ := fun n =>
  { nodes := if n = 2 then [![1, 0, 0], ![0, 0, 0]] else [![0, 0, 0], ![1, 0, 0]], index := none, parts := [n] }

example : (∀ a ∈ [[0], [1]].flatten, ∀ b ∈ [[0], [1]].flatten, SameEnds (exampleElems a).nodes (exampleElems b).nodes →
      (exampleElems a).nodes.map roundedCoords = (exampleElems b).nodes.map roundedCoords) ∧
    ([[0], [1]].foldl (addUniqueElements roundedCoords) (exampleElems, [])).2 = [0] := by
  constructor
  · intro a ha b hb _
    simp at ha hb
    rcases ha with rfl | rfl <;> rcases hb with rfl | rfl <;> rfl
  · decide +kernel

/-- C03 fails: the same element with its two nodes listed in the opposite order is kept as a second element, although
`Element.__eq__` calls the two equal, because the hash depends on the node order. -/
theorem C03_violated :
    let fin := addUniqueElements roundedCoords (exampleElems, []) [0, 2]
    fin.2 = [0, 2] ∧ SameEnds (fin.1 0).nodes (fin.1 2).nodes ∧ elemEq (exampleElems 0) (exampleElems 2) = true := by
  refine ⟨by decide +kernel, ?_, by decide +kernel⟩
  have h := (C03_represented roundedCoords exampleElems [[0, 2]]).2.2
  simp only [List.foldl_cons, List.foldl_nil] at h
  rw [h, h]
  constructor <;> intro p hp <;> simp [exampleElems] at hp ⊢ <;> rcases hp with rfl | rfl
  · right; intro i; simp
  · left; intro i; simp
  · right; intro i; simp
  · left; intro i; simp

/-! ### C04 -/

/-- C04 for nodes: the i-th mesh node gets index i, everything else about it is unchanged, and no other object is
touched. (No object occurs twice in the mesh: `C01_no_duplicates_partial`.) -/
theorem C04_nodes (s : ℕ → NodeObj K) (mesh : List ℕ) (hnd : mesh.Nodup) :
    let s' := reorderIds (fun (a : NodeObj K) i => { a with index := some i }) 0 s mesh
    (∀ i (hi : i < mesh.length), s' mesh[i] = { s mesh[i] with index := some i }) ∧ ∀ k, k ∉ mesh → s' k = s k := by
  constructor
  · intro i hi
    have := reorder_inside (fun (a : NodeObj K) i => { a with index := some i }) mesh hnd 0 s i hi
    simpa using this
  · intro k hk; exact reorder_outside _ mesh 0 s hk

/-- C04 for elements. -/
theorem C04_elements (s : ℕ → ElemObj K) (mesh : List ℕ) (hnd : mesh.Nodup) :
    let s' := reorderIds (fun (a : ElemObj K) i => { a with index := some i }) 0 s mesh
    (∀ i (hi : i < mesh.length), s' mesh[i] = { s mesh[i] with index := some i }) ∧ ∀ k, k ∉ mesh → s' k = s k := by
  constructor
  · intro i hi
    have := reorder_inside (fun (a : ElemObj K) i => { a with index := some i }) mesh hnd 0 s i hi
    simpa using this
  · intro k hk; exact reorder_outside _ mesh 0 s hk

/-- Every mesh built by adding nodes meets the hypothesis, for every history and every hash. -/
theorem C04_reachable (hash : (Fin 3 → K) → H) (s0 : ℕ → NodeObj K) (calls : List (List ℕ)) :
    let fin := calls.foldl (addUniqueNodes hash) (s0, [])
    fin.2.Nodup ∧ ∀ i (hi : i < fin.2.length),
      (reorderIds (fun (a : NodeObj K) i => { a with index := some i }) 0 fin.1 fin.2 fin.2[i]).index = some i := by
  intro fin
  have hnd : fin.2.Nodup := (C01_no_duplicates_partial hash s0 calls).imp (fun h => h.1)
  refine ⟨hnd, ?_⟩
  intro i hi
  rw [(C04_nodes fin.1 fin.2 hnd).1 i hi]

example : [5, 3, 8].Nodup := by decide

end Rose
