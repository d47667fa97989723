import Verif.Model.Geometry
import Mathlib.Data.List.Induction

set_option linter.unusedSectionVars false

namespace Rose

section dict
variable {α : Type*} {same : α → α → Bool} {merge : α → α → α}

/-- Laws of the merge: it does not move anything, and `same` holds for the object itself. -/
structure MergeLaws (same : α → α → Bool) (merge : α → α → α) : Prop where
  refl : ∀ a, same a a = true
  left : ∀ a b c, same (merge a b) c = same a c
  right : ∀ a b c, same c (merge a b) = same c a

/-- What the dictionary knows after the objects `P` were inserted, starting from the store `s0`. -/
structure DictInv (same : α → α → Bool) (s0 : ℕ → α) (P : List ℕ) (st : (ℕ → α) × List ℕ) : Prop where
  sub : st.2.Sublist P
  rel : ∀ m n, same (st.1 m) (st.1 n) = same (s0 m) (s0 n)
  pair : st.2.Pairwise fun m n => same (s0 m) (s0 n) = false
  found : ∀ p ∈ P, ∃ m, st.2.find? (fun m => same (s0 m) (s0 p)) = some m
  outside : ∀ n, n ∉ st.2 → st.1 n = s0 n

variable (L : MergeLaws same merge)
include L

theorem find_eq (s0 : ℕ → α) (st : (ℕ → α) × List ℕ) (hrel : ∀ m n, same (st.1 m) (st.1 n) = same (s0 m) (s0 n))
    (n : ℕ) : (st.2.find? fun m => m == n || same (st.1 m) (st.1 n)) = st.2.find? fun m => same (s0 m) (s0 n) := by
  congr 1
  funext m
  rw [hrel]
  by_cases h : m = n
  · subst h; simp [L.refl]
  · simp [h]

theorem dictInsert_inv {s0 : ℕ → α} {P : List ℕ} {st : (ℕ → α) × List ℕ} (h : DictInv same s0 P st) (n : ℕ) :
    DictInv same s0 (P ++ [n]) (dictInsert same merge st n) := by
  have hf := find_eq L s0 st h.rel n
  unfold dictInsert
  rw [hf]
  cases hm : st.2.find? (fun m => same (s0 m) (s0 n)) with
  | none =>
    refine ⟨h.sub.append (List.Sublist.refl _), h.rel, ?_, ?_, ?_⟩
    · simp only
      rw [List.pairwise_append]
      refine ⟨h.pair, List.pairwise_singleton _ _, ?_⟩
      intro a ha b hb
      rw [List.mem_singleton] at hb; subst hb
      have := List.find?_eq_none.1 hm a ha
      simpa using this
    · intro p hp
      simp only [List.find?_append]
      rcases List.mem_append.1 hp with hp | hp
      · obtain ⟨m, hm⟩ := h.found p hp
        exact ⟨m, by simp [hm]⟩
      · rw [List.mem_singleton] at hp; subst hp
        exact ⟨p, by simp [hm, L.refl]⟩
    · intro k hk
      simp only [List.mem_append, not_or] at hk
      exact h.outside k hk.1
  | some m =>
    have hfound : ∀ p ∈ P ++ [n], ∃ k, st.2.find? (fun m => same (s0 m) (s0 p)) = some k := by
      intro p hp
      rcases List.mem_append.1 hp with hp | hp
      · exact h.found p hp
      · rw [List.mem_singleton] at hp; subst hp; exact ⟨m, hm⟩
    have hsub : st.2.Sublist (P ++ [n]) := h.sub.trans (List.sublist_append_left _ _)
    have hmem : m ∈ st.2 := List.mem_of_find?_eq_some hm
    simp only
    split_ifs with hmn
    · exact ⟨hsub, h.rel, h.pair, hfound, h.outside⟩
    · refine ⟨hsub, ?_, h.pair, hfound, ?_⟩
      · intro a b
        rw [← h.rel a b]
        simp only [Function.update_apply]
        split_ifs with h1 h2 h2 <;> simp_all [L.left, L.right]
      · intro k hk
        have : k ≠ m := by rintro rfl; exact hk hmem
        simp [this]
        exact h.outside k hk

theorem dictInsert_prefix (st : (ℕ → α) × List ℕ) (n : ℕ) : st.2 <+: (dictInsert same merge st n).2 := by
  unfold dictInsert
  split
  · split_ifs <;> exact List.prefix_refl _
  · exact List.prefix_append _ _

theorem dictFold_prefix (ns : List ℕ) (st : (ℕ → α) × List ℕ) :
    st.2 <+: (ns.foldl (dictInsert same merge) st).2 := by
  induction ns generalizing st with
  | nil => exact List.prefix_refl _
  | cons n ns ih => exact (dictInsert_prefix L st n).trans (ih _)

theorem dictFold_inv {s0 : ℕ → α} (ns : List ℕ) {P : List ℕ} {st : (ℕ → α) × List ℕ} (h : DictInv same s0 P st) :
    DictInv same s0 (P ++ ns) (ns.foldl (dictInsert same merge) st) := by
  induction ns generalizing P st with
  | nil => simpa using h
  | cons n ns ih =>
    have := ih (dictInsert_inv L h n)
    simpa using this

theorem dictInv_empty (s0 : ℕ → α) : DictInv same s0 [] (s0, []) :=
  ⟨List.Sublist.refl _, fun _ _ => rfl, List.Pairwise.nil, by simp, fun _ _ => rfl⟩

/-- Filling a fresh dictionary with objects none of which absorbs a later one changes nothing. -/
theorem dictFold_id {ι : Type*} [DecidableEq ι] (ns : List ι) (s : ι → α) (acc : List ι)
    (hp : (acc ++ ns).Pairwise fun m n => same (s m) (s n) = false) :
    ns.foldl (dictInsert same merge) (s, acc) = (s, acc ++ ns) := by
  induction ns generalizing acc with
  | nil => simp
  | cons n ns ih =>
    have h1 : (acc.find? fun m => m == n || same (s m) (s n)) = none := by
      rw [List.find?_eq_none]
      intro m hm
      rw [List.pairwise_append] at hp
      have h2 := hp.2.2 m hm n (by simp)
      have h3 : m ≠ n := by rintro rfl; rw [L.refl] at h2; exact absurd h2 (by simp)
      simp [h2, h3]
    have h2 : dictInsert same merge (s, acc) n = (s, acc ++ [n]) := by
      unfold dictInsert
      simp only [h1]
    rw [List.foldl_cons, h2, ih _ (by simpa using hp)]
    simp

/-- Any sequence of calls equals one insertion of the concatenated lists. -/
theorem dictAdd_calls (s0 : ℕ → α) (calls : List (List ℕ)) :
    calls.foldl (dictAdd same merge) (s0, []) = calls.flatten.foldl (dictInsert same merge) (s0, []) := by
  have key : ∀ (cs : List (List ℕ)) (P : List ℕ) (st : (ℕ → α) × List ℕ), DictInv same s0 P st →
      cs.foldl (dictAdd same merge) st = cs.flatten.foldl (dictInsert same merge) st := by
    intro cs
    induction cs with
    | nil => intro P st _; rfl
    | cons c cs ih =>
      intro P st h
      have h1 : dictAdd same merge st c = c.foldl (dictInsert same merge) st := by
        unfold dictAdd
        rw [List.foldl_append, dictFold_id L st.2 st.1 []]
        · rfl
        · simp only [List.nil_append]
          refine h.pair.imp ?_
          intro a b hab
          rw [h.rel]; exact hab
      rw [List.foldl_cons, h1, List.flatten_cons, List.foldl_append]
      exact ih (P ++ c) _ (dictFold_inv L c h)
  exact key calls [] _ (dictInv_empty L s0)

theorem dict_inv (s0 : ℕ → α) (calls : List (List ℕ)) :
    DictInv same s0 calls.flatten (calls.foldl (dictAdd same merge) (s0, [])) := by
  rw [dictAdd_calls L]
  simpa using dictFold_inv L calls.flatten (dictInv_empty L s0)

/-- A property of the payload that a merge turns into a disjunction. -/
theorem dict_payload (s0 : ℕ → α) (Q : α → Prop) (hQ : ∀ a b, Q (merge a b) ↔ Q a ∨ Q b) (ns : List ℕ) :
    let fin := ns.foldl (dictInsert same merge) (s0, [])
    ∀ m ∈ fin.2, (Q (fin.1 m) ↔ ∃ p ∈ ns, fin.2.find? (fun k => same (s0 k) (s0 p)) = some m ∧ Q (s0 p)) := by
  induction ns using List.reverseRecOn with
  | nil => simp
  | append_singleton ns n ih =>
    have hinv : DictInv same s0 ns (ns.foldl (dictInsert same merge) (s0, [])) := by
      simpa using dictFold_inv L ns (dictInv_empty L s0)
    simp only [List.foldl_append, List.foldl_cons, List.foldl_nil] at *
    generalize ns.foldl (dictInsert same merge) (s0, []) = st at *
    have hself : ∀ k ∈ st.2, st.2.find? (fun j => same (s0 j) (s0 k)) = some k := by
      intro k hk
      obtain ⟨m, hm⟩ := hinv.found k (hinv.sub.subset hk)
      obtain ⟨h1, l1, l2, h2, h3⟩ := List.find?_eq_some_iff_append.1 hm
      rw [hm]
      by_contra hne
      have hne' : m ≠ k := by simpa using hne
      have hp := hinv.pair
      rw [h2, List.pairwise_append] at hp
      rw [h2] at hk
      rcases List.mem_append.1 hk with hk1 | hk1
      · have := h3 k hk1; simp [L.refl] at this
      · rcases List.mem_cons.1 hk1 with hk2 | hk2
        · exact hne' hk2.symm
        · have := (List.pairwise_cons.1 hp.2.1).1 k hk2
          simp [this] at h1
    unfold dictInsert
    rw [find_eq L s0 st hinv.rel n]
    cases hm : st.2.find? (fun m => same (s0 m) (s0 n)) with
    | none =>
      have hn : n ∉ st.2 := by
        intro h
        have := List.find?_eq_none.1 hm n h
        simp [L.refl] at this
      intro m hmem
      simp only at hmem ⊢
      have hfa : ∀ p ∈ ns, (st.2 ++ [n]).find? (fun k => same (s0 k) (s0 p)) =
          st.2.find? (fun k => same (s0 k) (s0 p)) := by
        intro p hp
        obtain ⟨k, hk⟩ := hinv.found p hp
        simp [List.find?_append, hk]
      have hfn : (st.2 ++ [n]).find? (fun k => same (s0 k) (s0 n)) = some n := by
        simp [List.find?_append, hm, L.refl]
      rcases List.mem_append.1 hmem with h | h
      · rw [ih m h]
        constructor
        · rintro ⟨p, hp, h1, h2⟩
          exact ⟨p, by simp [hp], by rw [hfa p hp]; exact h1, h2⟩
        · rintro ⟨p, hp, h1, h2⟩
          rcases List.mem_append.1 hp with hp | hp
          · exact ⟨p, hp, by rw [← hfa p hp]; exact h1, h2⟩
          · rw [List.mem_singleton] at hp; subst hp
            rw [hfn] at h1
            have : p = m := by simpa using h1
            subst this; exact absurd h hn
      · rw [List.mem_singleton] at h; subst h
        rw [hinv.outside m hn]
        constructor
        · intro h; exact ⟨m, by simp, hfn, h⟩
        · rintro ⟨p, hp, h1, h2⟩
          rcases List.mem_append.1 hp with hp | hp
          · rw [hfa p hp] at h1
            exact absurd (List.mem_of_find?_eq_some h1) hn
          · rw [List.mem_singleton] at hp; subst hp; exact h2
    | some k =>
      have hk : k ∈ st.2 := List.mem_of_find?_eq_some hm
      simp only
      split_ifs with hkn
      · subst hkn
        intro m hmem
        rw [ih m hmem]
        constructor
        · rintro ⟨p, hp, h1, h2⟩; exact ⟨p, by simp [hp], h1, h2⟩
        · rintro ⟨p, hp, h1, h2⟩
          rcases List.mem_append.1 hp with hp | hp
          · exact ⟨p, hp, h1, h2⟩
          · rw [List.mem_singleton] at hp; subst hp
            exact ⟨p, hinv.sub.subset hk, h1, h2⟩
      · have hn : n ∉ st.2 := by
          intro h
          have := hself n h
          rw [hm] at this
          exact hkn (by simpa using this)
        intro m hmem
        simp only at hmem ⊢
        by_cases hmk : m = k
        · subst hmk
          rw [Function.update_self, hQ, ih m hmem, hinv.outside n hn]
          constructor
          · rintro (⟨p, hp, h1, h2⟩ | h)
            · exact ⟨p, by simp [hp], h1, h2⟩
            · exact ⟨n, by simp, hm, h⟩
          · rintro ⟨p, hp, h1, h2⟩
            rcases List.mem_append.1 hp with hp | hp
            · exact Or.inl ⟨p, hp, h1, h2⟩
            · rw [List.mem_singleton] at hp; subst hp; exact Or.inr h2
        · rw [Function.update_of_ne hmk, ih m hmem]
          constructor
          · rintro ⟨p, hp, h1, h2⟩; exact ⟨p, by simp [hp], h1, h2⟩
          · rintro ⟨p, hp, h1, h2⟩
            rcases List.mem_append.1 hp with hp | hp
            · exact ⟨p, hp, h1, h2⟩
            · rw [List.mem_singleton] at hp; subst hp
              rw [hm] at h1
              exact absurd (by simpa using h1) (Ne.symm hmk)

/-- If all objects are different, a key is merged with the objects it represents in the order of their insertion. -/
theorem dict_foldl (s0 : ℕ → α) (ns : List ℕ) (hnd : ns.Nodup) :
    let fin := ns.foldl (dictInsert same merge) (s0, [])
    ∀ m ∈ fin.2, ∃ rest, ns.filter (fun p => decide (fin.2.find? (fun k => same (s0 k) (s0 p)) = some m)) = m :: rest ∧
      fin.1 m = rest.foldl (fun a p => merge a (s0 p)) (s0 m) := by
  induction ns using List.reverseRecOn with
  | nil => simp
  | append_singleton ns n ih =>
    have hinv : DictInv same s0 ns (ns.foldl (dictInsert same merge) (s0, [])) := by
      simpa using dictFold_inv L ns (dictInv_empty L s0)
    obtain ⟨hnd1, -, hdisj⟩ := List.nodup_append.mp hnd
    have hnn : n ∉ ns := fun h => hdisj n h n (by simp) rfl
    specialize ih hnd1
    simp only [List.foldl_append, List.foldl_cons, List.foldl_nil] at *
    generalize ns.foldl (dictInsert same merge) (s0, []) = st at *
    have hn : n ∉ st.2 := fun h => hnn (hinv.sub.subset h)
    unfold dictInsert
    rw [find_eq L s0 st hinv.rel n]
    cases hm : st.2.find? (fun m => same (s0 m) (s0 n)) with
    | none =>
      intro m hmem
      simp only at hmem ⊢
      have hfa : ∀ p ∈ ns, (st.2 ++ [n]).find? (fun k => same (s0 k) (s0 p)) =
          st.2.find? (fun k => same (s0 k) (s0 p)) := by
        intro p hp
        obtain ⟨k, hk⟩ := hinv.found p hp
        simp [List.find?_append, hk]
      have hfn : (st.2 ++ [n]).find? (fun k => same (s0 k) (s0 n)) = some n := by
        simp [List.find?_append, hm, L.refl]
      rw [List.filter_append]
      have hfl : ns.filter (fun p => decide ((st.2 ++ [n]).find? (fun k => same (s0 k) (s0 p)) = some m)) =
          ns.filter (fun p => decide (st.2.find? (fun k => same (s0 k) (s0 p)) = some m)) := by
        apply List.filter_congr
        intro p hp
        rw [hfa p hp]
      rw [hfl]
      rcases List.mem_append.1 hmem with h | h
      · obtain ⟨rest, h1, h2⟩ := ih m h
        refine ⟨rest, ?_, h2⟩
        have hne : n ≠ m := fun hc => hn (hc ▸ h)
        rw [h1, List.filter_singleton, hfn]
        simp [hne]
      · rw [List.mem_singleton] at h; subst h
        refine ⟨[], ?_, hinv.outside m hn⟩
        have : ns.filter (fun p => decide (st.2.find? (fun k => same (s0 k) (s0 p)) = some m)) = [] := by
          rw [List.filter_eq_nil_iff]
          intro p _ hc
          rw [decide_eq_true_eq] at hc
          exact hn (List.mem_of_find?_eq_some hc)
        rw [this, List.filter_singleton, hfn]
        simp
    | some k =>
      have hk : k ∈ st.2 := List.mem_of_find?_eq_some hm
      have hkn : k ≠ n := fun hc => hn (hc ▸ hk)
      simp only [if_neg hkn]
      intro m hmem
      obtain ⟨rest, h1, h2⟩ := ih m hmem
      rw [List.filter_append, h1, List.filter_singleton, hm]
      by_cases hmk : m = k
      · subst hmk
        refine ⟨rest ++ [n], by simp, ?_⟩
        rw [Function.update_self, h2, hinv.outside n hn, List.foldl_append]
        rfl
      · refine ⟨rest, by simp [Ne.symm hmk], ?_⟩
        rw [Function.update_of_ne hmk]
        exact h2

/-- A field that a merge leaves alone never changes. -/
theorem dict_field {β : Type*} (s0 : ℕ → α) (g : α → β) (hg : ∀ a b, g (merge a b) = g a) (ns : List ℕ) (k : ℕ) :
    g ((ns.foldl (dictInsert same merge) (s0, [])).1 k) = g (s0 k) := by
  have key : ∀ (ns : List ℕ) (st : (ℕ → α) × List ℕ), g ((ns.foldl (dictInsert same merge) st).1 k) = g (st.1 k) := by
    intro ns
    induction ns with
    | nil => intro st; rfl
    | cons n ns ih =>
      intro st
      rw [List.foldl_cons, ih]
      unfold dictInsert
      split
      · split_ifs
        · rfl
        · simp only [Function.update_apply]; split_ifs with h
          · rw [h, hg]
          · rfl
      · rfl
  exact key ns _

end dict

section nodes
variable {K : Type*} [Field K] [LinearOrder K] [IsStrictOrderedRing K] {H : Type*} [DecidableEq H]

theorem nodesClose_iff (p q : Fin 3 → K) : nodesClose p q = true ↔ ∀ i, |p i - q i| ≤ 1 / 1000000000 := by
  simp [nodesClose]

theorem nodesClose_refl (p : Fin 3 → K) : nodesClose p p = true := by
  rw [nodesClose_iff]; intro i; simp

theorem nodeLaws (hash : (Fin 3 → K) → H) : MergeLaws (sameNode hash) mergeNode :=
  ⟨fun a => by simp [sameNode, nodesClose_refl], fun _ _ _ => rfl, fun _ _ _ => rfl⟩

theorem elemLaws (hash : (Fin 3 → K) → H) : MergeLaws (sameElem hash) mergeElem := by
  refine ⟨fun a => ?_, fun _ _ _ => rfl, fun _ _ _ => rfl⟩
  simp only [sameElem, elemEq, decide_true, Bool.true_and, List.all_eq_true, List.any_eq_true]
  intro p hp
  exact ⟨p, hp, nodesClose_refl p⟩

end nodes

section reorder
variable {ι : Type*} [DecidableEq ι] {α : Type*} (setIndex : α → ℕ → α)

theorem reorder_outside (ns : List ι) (i : ℕ) (s : ι → α) {n : ι} (h : n ∉ ns) :
    reorderIds setIndex i s ns n = s n := by
  induction ns generalizing i s with
  | nil => rfl
  | cons m ns ih =>
    simp only [List.mem_cons, not_or] at h
    rw [reorderIds, ih _ _ h.2, Function.update_of_ne h.1]

theorem reorder_inside (ns : List ι) (hnd : ns.Nodup) (i : ℕ) (s : ι → α) (k : ℕ) (hk : k < ns.length) :
    reorderIds setIndex i s ns ns[k] = setIndex (s ns[k]) (i + k) := by
  induction ns generalizing i s k with
  | nil => simp at hk
  | cons m ns ih =>
    rw [List.nodup_cons] at hnd
    cases k with
    | zero => simp only [List.getElem_cons_zero, reorderIds]; rw [reorder_outside _ _ _ _ hnd.1]; simp
    | succ k =>
      simp only [List.length_cons] at hk
      simp only [List.getElem_cons_succ, reorderIds]
      rw [ih hnd.2 _ _ k (by omega), Function.update_of_ne]
      · congr 1; omega
      · intro h; exact hnd.1 (h ▸ List.getElem_mem _)

end reorder

end Rose
