/-
C103: exactly when every wheel has a contact dof.
-/
import Verif.Props.TrainSystem

set_option linter.unusedSectionVars false

namespace Rose
variable {K : Type*} [Field K] [LinearOrder K] [IsStrictOrderedRing K]

/-- Specification: the body behind an unknown has a mass or inertia, and a stiffness on the diagonal, above the threshold of trimming. -/
def Train.Noticed (t : Train K) (d : TrainDof) : Prop :=
  1 / 10 ^ 8 < |t.bodyInertia d| ∧ 1 / 10 ^ 8 < |t.stiffness (t.dof d) (t.dof d)|

/-- The indices of the node of a wheel after initialisation: one for the vertical displacement if the wheel is noticed, and no other. -/
theorem wheel_trimmed {H : Type*} [DecidableEq H] (hash : (Fin 3 → K) → H) (t : Train K) (x0 : ℕ → K) (g : K) (hsep : t.Separated x0)
    (b j : ℕ) (hp : t.HasPart (.wheel b j)) :
    t.trimmedIdx g (t.initialMesh hash x0) (.wheel b j) 0 = none ∧ t.trimmedIdx g (t.initialMesh hash x0) (.wheel b j) 2 = none ∧
      (t.trimmedIdx g (t.initialMesh hash x0) (.wheel b j) 1 = none ↔ ¬ t.Noticed (.wheelY b j)) := by
  have hnodes := trainSystem_nodes hash t x0 g hsep
  have hord : OrderedNumbering (t.system g (t.initialMesh hash x0)).nodes t.numbering.next := by
    rw [hnodes]; exact t.mesh_ordered
  have hd : t.HasDof (.wheelY b j) := hp
  have hsize := C34_size t
  have hob : ∀ o, t.numbering.next ≤ o → o < (t.system g (t.initialMesh hash x0)).N →
      Obsolete (t.system g (t.initialMesh hash x0)) o := by
    intro o h1 h2
    right; left
    refine ⟨h2, ?_⟩
    have : t.massMatrix o o = 0 := (C100_diagonal t).2.2 o fun d hd h => by
      have := t.dof_lt d hd
      omega
    show |t.massMatrix o o| ≤ _
    rw [this]
    simp
  obtain ⟨h1, -, h3, h4⟩ := C101_mesh hash t x0 hsep
  set m := t.initialMesh hash x0 with hmdef
  have hidx : m.mesh.idxOf (m.node (.wheel b j)) < m.mesh.length := List.idxOf_lt_length_iff.2 (h4 _ hp).1
  have hlen : (trimAll (t.system g m)).nodes.length = m.mesh.length := by
    show (recalcNodes _ 0 _).1.length = _
    rw [(recalcNodes_flat _ 0 _).2.2.1]
    show (m.mesh.map _).length = _
    simp
  have hget : (trimAll (t.system g m)).nodes[m.mesh.idxOf (m.node (.wheel b j))]? =
      some ((trimAll (t.system g m)).nodes[m.mesh.idxOf (m.node (.wheel b j))]'(by rw [hlen]; exact hidx)) :=
    List.getElem?_eq_getElem _
  have e : ∀ d, equationOf (trimAll (t.system g m)).nodes (m.mesh.idxOf (m.node (.wheel b j))) d = t.trimmedIdx g m (.wheel b j) d := by
    intro d
    unfold Train.trimmedIdx equationOf
    rw [hget]
    rfl
  have hold : ∀ d, equationOf (t.system g m).nodes (m.mesh.idxOf (m.node (.wheel b j))) d = partIdx t.numbering (.wheel b j) d := by
    intro d
    have : (t.system g m).nodes[m.mesh.idxOf (m.node (.wheel b j))]? = some (t.partDofNode (.wheel b j)) := by
      show (m.mesh.map fun n => (⟨(m.store n).idx, (m.store n).act⟩ : DofNode))[m.mesh.idxOf (m.node (.wheel b j))]? = _
      rw [List.getElem?_map, List.getElem?_eq_getElem hidx]
      simp only [Option.map_some, List.getElem_idxOf, (h4 _ hp).2]
      rfl
    unfold equationOf
    rw [this]
    simp [Train.partDofNode]
  have gone : ∀ d, partIdx t.numbering (.wheel b j) d = none → t.trimmedIdx g m (.wheel b j) d = none := by
    intro d hn
    rw [← e d]
    cases hk : equationOf (trimAll (t.system g m)).nodes (m.mesh.idxOf (m.node (.wheel b j))) d with
    | none => rfl
    | some k =>
      obtain ⟨o, ho, -⟩ := trim_old _ hsize hord hob _ d k hk
      rw [hold d, hn] at ho
      cases ho
  refine ⟨gone 0 rfl, gone 2 rfl, ?_⟩
  have hs : partIdx t.numbering (.wheel b j) 1 = some (t.dof (.wheelY b j)) := by
    have := t.partIdx_dofs _ hp
    show t.numbering.idx (.wheelY b j) = _
    cases hq : t.numbering.idx (.wheelY b j) with
    | none => simp [partIdx, TrainPart.dofs, hq] at this
    | some q => simpa [partIdx, TrainPart.dofs, hq] using this
  have rem := (C09_removed (t.system g m) ((hold 1).trans hs)).1
  rw [e 1] at rem
  rw [rem]
  have hlt : t.dof (.wheelY b j) < (t.system g m).N := lt_of_lt_of_le (t.dof_lt _ hd) hsize
  unfold Train.Noticed
  rw [not_and_or, not_lt, not_lt]
  constructor
  · rintro (⟨n, hn, e, _, he⟩ | ⟨_, h⟩ | ⟨_, h⟩)
    · rw [hnodes, List.mem_map] at hn
      obtain ⟨p, _, rfl⟩ := hn
      simp [Train.partDofNode] at he
    · left
      have : |t.massMatrix (t.dof (.wheelY b j)) (t.dof (.wheelY b j))| ≤ 1 / 10 ^ 8 := h
      rwa [(C100_diagonal t).1 _ hd] at this
    · exact Or.inr h
  · rintro (h | h)
    · right; left
      refine ⟨hlt, ?_⟩
      show |t.massMatrix (t.dof (.wheelY b j)) (t.dof (.wheelY b j))| ≤ 1 / 10 ^ 8
      rwa [(C100_diagonal t).1 _ hd]
    · exact Or.inr (Or.inr ⟨hlt, h⟩)

/-- **C103, all trains.** The contact dofs of an initialised train are the vertical dofs of the wheels that have a mass and a stiffness above the
threshold of trimming, one per such wheel, in the order of the wheels. -/
theorem C103_exact {H : Type*} [DecidableEq H] (hash : (Fin 3 → K) → H) (t : Train K) (x0 : ℕ → K) (g : K) (hsep : t.Separated x0) :
    let idx := t.trimmedIdx g (t.initialMesh hash x0)
    t.contactDofs idx = (t.bogies.flatMap fun b => (List.range (t.bogie b).wheels.length).flatMap fun j => (idx (.wheel b j) 1).toList) ∧
      ∀ b ∈ t.bogies, ∀ j < (t.bogie b).wheels.length, (idx (.wheel b j) 1 = none ↔ ¬ t.Noticed (.wheelY b j)) := by
  intro idx
  refine ⟨?_, fun b hb j hj => (wheel_trimmed hash t x0 g hsep b j ⟨hb, hj⟩).2.2⟩
  unfold Train.contactDofs
  rw [List.flatMap_def, List.flatMap_def]
  congr 1
  apply List.map_congr_left
  intro b hb
  rw [List.flatMap_def, List.flatMap_def]
  congr 1
  apply List.map_congr_left
  intro j hj
  rw [List.mem_range] at hj
  obtain ⟨w0, w2, -⟩ := wheel_trimmed hash t x0 g hsep b j ⟨hb, hj⟩
  have w0' : idx (.wheel b j) 0 = none := w0
  have w2' : idx (.wheel b j) 2 = none := w2
  cases h : idx (.wheel b j) 1 <;> simp [w0', w2', h]

/-- A list of optional numbers has as many numbers as entries exactly if none is missing. -/
theorem toList_sum {α β : Type*} (l : List α) (f : α → Option β) :
    (l.flatMap fun a => (f a).toList).length ≤ l.length ∧ ((l.flatMap fun a => (f a).toList).length = l.length ↔ ∀ a ∈ l, f a ≠ none) := by
  induction l with
  | nil => simp
  | cons a l ih =>
    obtain ⟨i1, i2⟩ := ih
    rw [List.flatMap_cons, List.length_append, List.length_cons]
    cases h : f a with
    | none =>
      simp only [Option.toList_none, List.length_nil, zero_add, List.mem_cons, forall_eq_or_imp, h, ne_eq, not_true_eq_false, false_and, iff_false]
      omega
    | some x =>
      simp only [Option.toList_some, List.length_cons, List.length_nil, List.mem_cons, forall_eq_or_imp, h, ne_eq]
      refine ⟨by omega, ?_⟩
      rw [show (0 + 1 + (l.flatMap fun a => (f a).toList).length = l.length + 1) ↔ (l.flatMap fun a => (f a).toList).length = l.length by omega, i2]
      simp

/-- **C103, exact.** There is one contact dof per wheel exactly if every wheel has a mass and a stiffness above the threshold of trimming; otherwise
there are fewer. -/
theorem C103_iff {H : Type*} [DecidableEq H] (hash : (Fin 3 → K) → H) (t : Train K) (x0 : ℕ → K) (g : K) (hsep : t.Separated x0) :
    let contact := t.contactDofs (t.trimmedIdx g (t.initialMesh hash x0))
    contact.length ≤ (t.bogies.map fun b => (t.bogie b).wheels.length).sum ∧
    (contact.length = (t.bogies.map fun b => (t.bogie b).wheels.length).sum ↔
      ∀ b ∈ t.bogies, ∀ j < (t.bogie b).wheels.length, t.Noticed (.wheelY b j)) := by
  intro contact
  obtain ⟨h1, h2⟩ := C103_exact hash t x0 g hsep
  have e1 : contact = (t.bogies.flatMap fun b => (List.range (t.bogie b).wheels.length).map fun j => (b, j)).flatMap fun p =>
      (t.trimmedIdx g (t.initialMesh hash x0) (.wheel p.1 p.2) 1).toList := by
    show t.contactDofs _ = _
    rw [h1, List.flatMap_assoc]
    congr 1
    funext b
    rw [List.flatMap_map]
  have e2 : (t.bogies.flatMap fun b => (List.range (t.bogie b).wheels.length).map fun j => (b, j)).length =
      (t.bogies.map fun b => (t.bogie b).wheels.length).sum := by
    rw [List.length_flatMap]
    simp
  rw [e1, ← e2]
  obtain ⟨a, b⟩ := toList_sum (t.bogies.flatMap fun b => (List.range (t.bogie b).wheels.length).map fun j => (b, j)) fun p =>
    t.trimmedIdx g (t.initialMesh hash x0) (.wheel p.1 p.2) 1
  refine ⟨a, b.trans ?_⟩
  constructor
  · intro h b hb j hj
    by_contra hc
    exact h (b, j) (by simp only [List.mem_flatMap, List.mem_map, List.mem_range]; exact ⟨b, hb, j, hj, rfl⟩) ((h2 b hb j hj).mpr hc)
  · intro h p hp
    simp only [List.mem_flatMap, List.mem_map, List.mem_range] at hp
    obtain ⟨b, hb, j, hj, rfl⟩ := hp
    exact fun hn => (h2 b hb j hj).mp hn (h b hb j hj)

/-- All six wheels of the sprinter have a contact dof; none of `masslessWheels` has (`C103_violated`). -/
example : (sprinterTrain.contactDofs (sprinterTrain.trimmedIdx (981 / 100) (sprinterTrain.initialMesh roundedCoords sprinterStart))).length = 6 :=
  ((C103_iff roundedCoords sprinterTrain sprinterStart (981 / 100) sprinter_separated).2.mpr fun b hb j hj =>
    sprinter_massive (.wheelY b j) ⟨hb, hj⟩).trans (by decide +kernel)

end Rose
