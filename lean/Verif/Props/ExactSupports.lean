import Verif.Props.System

set_option linter.unusedSectionVars false

namespace Rose

/-! ### C182: when the order of the supports does not matter -/

theorem setConstraint_at (flags : ℕ → Fin 3 → Bool) (p : ConstraintPart) (i : ℕ) :
    setConstraint flags p i = if i ∈ p.nodes then p.free else flags i := by
  unfold setConstraint
  generalize p.nodes = l
  induction l generalizing flags with
  | nil => simp
  | cons a l ih =>
    rw [List.foldl_cons, ih]
    by_cases hi : i ∈ l
    · rw [if_pos hi, if_pos (List.mem_cons_of_mem _ hi)]
    · rw [if_neg hi]
      by_cases ha : i = a
      · subst ha; rw [Function.update_self, if_pos (by simp)]
      · rw [Function.update_of_ne ha, if_neg (by simp [ha, hi])]

theorem constraints_at (ps : List ConstraintPart) (flags : ℕ → Fin 3 → Bool) (i : ℕ) :
    (∀ p ∈ ps, i ∉ p.nodes) ∧ ps.foldl setConstraint flags i = flags i ∨
      ∃ p ∈ ps, i ∈ p.nodes ∧ ps.foldl setConstraint flags i = p.free := by
  induction ps generalizing flags with
  | nil => left; simp
  | cons q ps ih =>
    rw [List.foldl_cons]
    rcases ih (setConstraint flags q) with ⟨h1, h2⟩ | ⟨p, hp, hi, h⟩
    · rw [h2, setConstraint_at]
      by_cases hq : i ∈ q.nodes
      · right; exact ⟨q, by simp, hq, by rw [if_pos hq]⟩
      · left
        refine ⟨?_, by rw [if_neg hq]⟩
        intro p hp
        rcases List.mem_cons.1 hp with rfl | hp
        · exact hq
        · exact h1 p hp
    · right; exact ⟨p, List.mem_cons_of_mem _ hp, hi, h⟩

/-- **C182, supports, exactly** Whatever the nodes were free to do before: setting the supports in any other order leaves all nodes the same freedoms, if
and only if any two supports of the list that share a node hold it in the same directions. -/
theorem C182_supports_iff (ps : List ConstraintPart) (flags : ℕ → Fin 3 → Bool) :
    (∀ ps' : List ConstraintPart, ps'.Perm ps → setConstraints flags ps' = setConstraints flags ps) ↔
      ∀ p ∈ ps, ∀ q ∈ ps, ∀ i ∈ p.nodes, i ∈ q.nodes → p.free = q.free := by
  unfold setConstraints
  constructor
  · intro h p hp q hq i hip hiq
    by_contra hne
    have hpq : q ≠ p := fun e => hne (by rw [e])
    obtain ⟨A, B, rfl⟩ := List.append_of_mem hp
    have hq' : q ∈ A ++ B := by
      rcases List.mem_append.1 hq with h1 | h1
      · exact List.mem_append_left _ h1
      · rcases List.mem_cons.1 h1 with h2 | h2
        · exact absurd h2 hpq
        · exact List.mem_append_right _ h2
    obtain ⟨C, D, hCD⟩ := List.append_of_mem hq'
    have perm1 : (C ++ D ++ [p, q]).Perm (A ++ p :: B) := by
      have h1 : (A ++ p :: B).Perm (p :: (A ++ B)) := List.perm_middle
      rw [hCD] at h1
      have h2 : (p :: (C ++ q :: D)).Perm (p :: q :: (C ++ D)) := List.Perm.cons _ List.perm_middle
      have h3 : (C ++ D ++ [p, q]).Perm ([p, q] ++ (C ++ D)) := List.perm_append_comm
      exact h3.trans (h1.trans h2).symm
    have perm2 : (C ++ D ++ [q, p]).Perm (A ++ p :: B) :=
      (List.Perm.append_left _ (List.Perm.swap p q [])).trans perm1
    have e1 := congrFun (h _ perm1) i
    have e2 := congrFun (h _ perm2) i
    rw [← e2] at e1
    simp only [List.foldl_append, List.foldl_cons, List.foldl_nil, setConstraint_at, if_pos hiq, if_pos hip] at e1
    exact hne e1.symm
  · intro h ps' hperm
    funext i
    rcases constraints_at ps flags i with ⟨h1, h2⟩ | ⟨p, hp, hi, h2⟩
    · rcases constraints_at ps' flags i with ⟨-, h4⟩ | ⟨p, hp, hi, -⟩
      · rw [h2, h4]
      · exact absurd hi (h1 p (hperm.mem_iff.1 hp))
    · rcases constraints_at ps' flags i with ⟨h3, -⟩ | ⟨q, hq, hj, h4⟩
      · exact absurd hi (h3 p (hperm.mem_iff.2 hp))
      · rw [h2, h4]
        exact h q (hperm.mem_iff.1 hq) p hp i hj hi

/-- A held end and a clamped bottom without common node, and two supports that hold node 1 differently. -/
example : (∀ p ∈ [(⟨[0, 1], ![false, true, true]⟩ : ConstraintPart), ⟨[2, 3], ![false, false, false]⟩],
      ∀ q ∈ [(⟨[0, 1], ![false, true, true]⟩ : ConstraintPart), ⟨[2, 3], ![false, false, false]⟩], ∀ i ∈ p.nodes, i ∈ q.nodes → p.free = q.free) ∧
    ¬ ∀ p ∈ [(⟨[0, 1], ![false, true, true]⟩ : ConstraintPart), ⟨[1], ![false, false, false]⟩],
      ∀ q ∈ [(⟨[0, 1], ![false, true, true]⟩ : ConstraintPart), ⟨[1], ![false, false, false]⟩], ∀ i ∈ p.nodes, i ∈ q.nodes → p.free = q.free := by
  decide +kernel

end Rose
