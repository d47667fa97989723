/-
Properties C09, C11: trimming of the global system and assignment of results.
-/
import Verif.Props.Assembly
import Mathlib.Data.List.Nodup
import Mathlib.Data.List.Range

set_option linter.unusedSectionVars false

namespace Rose

/-! ### Flat view of the numbering loop -/

/-- The equation numbers of all nodal dofs in mesh order. -/
def flatIdx (ns : List DofNode) : List (Option ℕ) := ns.flatMap fun n => [n.idx 0, n.idx 1, n.idx 2]

/-- Renumbering of a flat list of optional indices. -/
def recalcFlat (removed : List ℕ) (j : ℕ) : List (Option ℕ) → List (Option ℕ)
  | [] => []
  | none :: l => none :: recalcFlat removed j l
  | some o :: l => if o ∈ removed then none :: recalcFlat removed j l else some j :: recalcFlat removed (j + 1) l

/-- Number of indices that remain. -/
def keptCount (removed : List ℕ) (l : List (Option ℕ)) : ℕ := ((l.filterMap id).filter (· ∉ removed)).length

theorem recalcFlat_append (removed : List ℕ) (j : ℕ) (l l' : List (Option ℕ)) :
    recalcFlat removed j (l ++ l') = recalcFlat removed j l ++ recalcFlat removed (j + keptCount removed l) l' := by
  induction l generalizing j with
  | nil => simp [recalcFlat, keptCount]
  | cons a l ih =>
    cases a with
    | none => simp [recalcFlat, ih, keptCount]
    | some o =>
      by_cases h : o ∈ removed
      · simp [recalcFlat, ih, keptCount, h]
      · simp only [List.cons_append, recalcFlat, h, if_false, ih, List.cons.injEq, true_and]
        congr 2
        simp [keptCount, h]; omega

theorem recalcNode_spec (removed : List ℕ) (j : ℕ) (n : DofNode) :
    [(recalcNode removed j n).1.idx 0, (recalcNode removed j n).1.idx 1, (recalcNode removed j n).1.idx 2] =
      recalcFlat removed j [n.idx 0, n.idx 1, n.idx 2] ∧
    (recalcNode removed j n).2 = j + keptCount removed [n.idx 0, n.idx 1, n.idx 2] ∧
    (∀ d, (recalcNode removed j n).1.act d = (n.act d && ((recalcNode removed j n).1.idx d).isSome)) := by
  unfold recalcNode
  split_ifs with hall
  · obtain ⟨h0, h1, h2⟩ := hall
    refine ⟨by simp [h0, h1, h2, recalcFlat], by simp [h0, h1, h2, keptCount], ?_⟩
    intro d; fin_cases d <;> simp [h0, h1, h2]
  · cases h0 : n.idx 0 with
    | none =>
      cases h1 : n.idx 1 with
      | none =>
        cases h2 : n.idx 2 with
        | none => simp [h0, h1, h2] at hall
        | some c =>
          by_cases k2 : c ∈ removed <;>
          refine ⟨by simp [recalcDof, h0, h1, h2, k2, recalcFlat], by simp [recalcDof, h0, h1, h2, k2, keptCount], ?_⟩ <;>
          · intro d; fin_cases d <;> simp [recalcDof, h0, h1, h2, k2]
      | some b =>
        cases h2 : n.idx 2 with
        | none =>
          by_cases k1 : b ∈ removed <;>
          refine ⟨by simp [recalcDof, h0, h1, h2, k1, recalcFlat], by simp [recalcDof, h0, h1, h2, k1, keptCount], ?_⟩ <;>
          · intro d; fin_cases d <;> simp [recalcDof, h0, h1, h2, k1]
        | some c =>
          by_cases k1 : b ∈ removed <;> by_cases k2 : c ∈ removed <;>
          refine ⟨by simp [recalcDof, h0, h1, h2, k1, k2, recalcFlat],
            by simp [recalcDof, h0, h1, h2, k1, k2, keptCount], ?_⟩ <;>
          · intro d; fin_cases d <;> simp [recalcDof, h0, h1, h2, k1, k2]
    | some a =>
      cases h1 : n.idx 1 with
      | none =>
        cases h2 : n.idx 2 with
        | none =>
          by_cases k0 : a ∈ removed <;>
          refine ⟨by simp [recalcDof, h0, h1, h2, k0, recalcFlat], by simp [recalcDof, h0, h1, h2, k0, keptCount], ?_⟩ <;>
          · intro d; fin_cases d <;> simp [recalcDof, h0, h1, h2, k0]
        | some c =>
          by_cases k0 : a ∈ removed <;> by_cases k2 : c ∈ removed <;>
          refine ⟨by simp [recalcDof, h0, h1, h2, k0, k2, recalcFlat],
            by simp [recalcDof, h0, h1, h2, k0, k2, keptCount], ?_⟩ <;>
          · intro d; fin_cases d <;> simp [recalcDof, h0, h1, h2, k0, k2]
      | some b =>
        cases h2 : n.idx 2 with
        | none =>
          by_cases k0 : a ∈ removed <;> by_cases k1 : b ∈ removed <;>
          refine ⟨by simp [recalcDof, h0, h1, h2, k0, k1, recalcFlat],
            by simp [recalcDof, h0, h1, h2, k0, k1, keptCount], ?_⟩ <;>
          · intro d; fin_cases d <;> simp [recalcDof, h0, h1, h2, k0, k1]
        | some c =>
          by_cases k0 : a ∈ removed <;> by_cases k1 : b ∈ removed <;> by_cases k2 : c ∈ removed <;>
          refine ⟨by simp [recalcDof, h0, h1, h2, k0, k1, k2, recalcFlat],
            by simp [recalcDof, h0, h1, h2, k0, k1, k2, keptCount], ?_⟩ <;>
          · intro d; fin_cases d <;> simp [recalcDof, h0, h1, h2, k0, k1, k2]

theorem recalcNodes_flat (removed : List ℕ) (j : ℕ) (ns : List DofNode) :
    flatIdx (recalcNodes removed j ns).1 = recalcFlat removed j (flatIdx ns) ∧
      (recalcNodes removed j ns).2 = j + keptCount removed (flatIdx ns) ∧
      (recalcNodes removed j ns).1.length = ns.length ∧
      (∀ i (hi : i < ns.length) (hi' : i < (recalcNodes removed j ns).1.length), ∀ d,
        ((recalcNodes removed j ns).1[i]).act d =
          (ns[i].act d && (((recalcNodes removed j ns).1[i]).idx d).isSome)) := by
  induction ns generalizing j with
  | nil => simp [recalcNodes, flatIdx, recalcFlat, keptCount]
  | cons n ns ih =>
    obtain ⟨s1, s2, s3⟩ := recalcNode_spec removed j n
    obtain ⟨t1, t2, t3, t4⟩ := ih (recalcNode removed j n).2
    refine ⟨?_, ?_, ?_, ?_⟩
    · have e : flatIdx (n :: ns) = [n.idx 0, n.idx 1, n.idx 2] ++ flatIdx ns := rfl
      have e' : flatIdx (recalcNodes removed j (n :: ns)).1 =
          [(recalcNode removed j n).1.idx 0, (recalcNode removed j n).1.idx 1, (recalcNode removed j n).1.idx 2] ++
            flatIdx (recalcNodes removed (recalcNode removed j n).2 ns).1 := rfl
      rw [e, e', recalcFlat_append, s1, t1, s2]
    · have e' : (recalcNodes removed j (n :: ns)).2 = (recalcNodes removed (recalcNode removed j n).2 ns).2 := rfl
      rw [e', t2, s2]
      have e : flatIdx (n :: ns) = [n.idx 0, n.idx 1, n.idx 2] ++ flatIdx ns := rfl
      rw [e]
      simp only [keptCount, List.filterMap_append, List.filter_append, List.length_append]
      omega
    · have e' : (recalcNodes removed j (n :: ns)).1 =
        (recalcNode removed j n).1 :: (recalcNodes removed (recalcNode removed j n).2 ns).1 := rfl
      rw [e']; simp [t3]
    · intro i hi hi' d
      have e' : (recalcNodes removed j (n :: ns)).1 =
        (recalcNode removed j n).1 :: (recalcNodes removed (recalcNode removed j n).2 ns).1 := rfl
      rcases i with _ | i
      · simp only [e', List.getElem_cons_zero]; exact s3 d
      · simp only [e', List.getElem_cons_succ]
        exact t4 i (by simpa using hi) (by simp only [e'] at hi'; simpa using hi') d

theorem recalcFlat_length (removed : List ℕ) (j : ℕ) (l : List (Option ℕ)) :
    (recalcFlat removed j l).length = l.length := by
  induction l generalizing j with
  | nil => rfl
  | cons a l ih =>
    cases a with
    | none => simp [recalcFlat, ih]
    | some o => by_cases h : o ∈ removed <;> simp [recalcFlat, ih, h]

/-- Every new index points at the place of the old index in the list of kept indices, and dofs without a new index had
none before or a removed one. -/
theorem recalcFlat_get (removed : List ℕ) (j : ℕ) (l : List (Option ℕ)) (p : ℕ) :
    (∀ k, (recalcFlat removed j l)[p]? = some (some k) →
      ∃ o, l[p]? = some (some o) ∧ o ∉ removed ∧ j ≤ k ∧ ((l.filterMap id).filter (· ∉ removed))[k - j]? = some o) ∧
    ((recalcFlat removed j l)[p]? = some none →
      l[p]? = some none ∨ ∃ o, l[p]? = some (some o) ∧ o ∈ removed) := by
  induction l generalizing j p with
  | nil => simp [recalcFlat]
  | cons a l ih =>
    cases a with
    | none =>
      rcases p with _ | p
      · simp [recalcFlat]
      · simpa [recalcFlat] using ih j p
    | some o =>
      by_cases h : o ∈ removed
      · rcases p with _ | p
        · simp [recalcFlat, h]
        · simpa [recalcFlat, h] using ih j p
      · rcases p with _ | p
        · simp [recalcFlat, h]
        · obtain ⟨i1, i2⟩ := ih (j + 1) p
          refine ⟨?_, ?_⟩
          · intro k hk
            simp only [recalcFlat, h, if_false, List.getElem?_cons_succ] at hk
            obtain ⟨o', h1, h2, h3, h4⟩ := i1 k hk
            refine ⟨o', by simpa using h1, h2, by omega, ?_⟩
            have e : k - j = (k - (j + 1)) + 1 := by omega
            rw [e]
            simpa [h] using h4
          · intro hk
            simp only [recalcFlat, h, if_false, List.getElem?_cons_succ] at hk
            simpa using i2 hk

/-- Every place in the list of kept indices is used by exactly one position. -/
theorem recalcFlat_surj (removed : List ℕ) (j : ℕ) (l : List (Option ℕ)) (k : ℕ) (hk : k < keptCount removed l) :
    ∃! p : ℕ, (recalcFlat removed j l)[p]? = some (some (j + k)) := by
  induction l generalizing j k with
  | nil => simp [keptCount] at hk
  | cons a l ih =>
    cases a with
    | none =>
      obtain ⟨p, h1, h2⟩ := ih j k (by simpa [keptCount] using hk)
      refine ⟨p + 1, by simpa [recalcFlat] using h1, ?_⟩
      intro q hq
      rcases q with _ | q
      · simp [recalcFlat] at hq
      · simpa using h2 q (by simpa [recalcFlat] using hq)
    | some o =>
      by_cases h : o ∈ removed
      · obtain ⟨p, h1, h2⟩ := ih j k (by simpa [keptCount, h] using hk)
        refine ⟨p + 1, by simpa [recalcFlat, h] using h1, ?_⟩
        intro q hq
        rcases q with _ | q
        · simp [recalcFlat, h] at hq
        · simpa using h2 q (by simpa [recalcFlat, h] using hq)
      · rcases k with _ | k
        · refine ⟨0, by simp [recalcFlat, h], ?_⟩
          intro q hq
          rcases q with _ | q
          · rfl
          · exfalso
            simp only [recalcFlat, h, if_false, List.getElem?_cons_succ] at hq
            obtain ⟨o', -, -, h3, -⟩ := (recalcFlat_get removed (j + 1) l q).1 _ hq
            omega
        · obtain ⟨p, h1, h2⟩ := ih (j + 1) k (by simp [keptCount, h] at hk; simpa [keptCount] using hk)
          have e : j + 1 + k = j + (k + 1) := by omega
          rw [e] at h1 h2
          refine ⟨p + 1, by simpa [recalcFlat, h] using h1, ?_⟩
          intro q hq
          rcases q with _ | q
          · simp [recalcFlat, h] at hq
          · simpa using h2 q (by simpa [recalcFlat, h] using hq)

theorem flatIdx_get (ns : List DofNode) (i : ℕ) (d : Fin 3) :
    (flatIdx ns)[3 * i + d]? = (ns[i]?).map fun n => n.idx d := by
  induction ns generalizing i with
  | nil => simp [flatIdx]
  | cons n ns ih =>
    have e : flatIdx (n :: ns) = [n.idx 0, n.idx 1, n.idx 2] ++ flatIdx ns := rfl
    rcases i with _ | i
    · rw [e]; fin_cases d <;> simp
    · rw [e, List.getElem?_append_right (by simp; omega)]
      have : 3 * (i + 1) + (d : ℕ) - [n.idx 0, n.idx 1, n.idx 2].length = 3 * i + d := by simp; omega
      rw [this, ih]; simp

theorem flatIdx_length (ns : List DofNode) : (flatIdx ns).length = 3 * ns.length := by
  induction ns with
  | nil => rfl
  | cons n ns ih =>
    have e : flatIdx (n :: ns) = [n.idx 0, n.idx 1, n.idx 2] ++ flatIdx ns := rfl
    rw [e]; simp [ih]; omega

/-! ## C09 Trimming solves exactly the retained equations -/

section
variable {K : Type*} [Field K] [LinearOrder K] [IsStrictOrderedRing K]

/-- Before trimming, the equations of the nodal dofs in mesh order are `0, 1, .., N-1` (dofs without an equation are
skipped). This is what dof numbering establishes (`C09_numbering_ordered`), also for the coupled system. -/
def OrderedNumbering (ns : List DofNode) (N : ℕ) : Prop := (flatIdx ns).filterMap id = List.range N

theorem C09_numbering_ordered (ns : List DofNode) :
    OrderedNumbering (initialiseNdof ns).1 (initialiseNdof ns).2 := by
  have key : ∀ k, (flatIdx (initialiseNdofFrom k ns)).filterMap id = List.range' k (3 * ns.length) := by
    induction ns with
    | nil => intro k; simp [initialiseNdofFrom, flatIdx]
    | cons n ns ih =>
      intro k
      have e : flatIdx (initialiseNdofFrom k (n :: ns)) =
          [some k, some (k + 1), some (k + 2)] ++ flatIdx (initialiseNdofFrom (k + 3) ns) := rfl
      rw [e, List.filterMap_append, ih]
      have : 3 * (n :: ns).length = 3 + 3 * ns.length := by simp; omega
      rw [this, ← List.range'_append_1]
      rfl
  unfold OrderedNumbering initialiseNdof
  rw [key, List.range_eq_range']

/-- The equations that trimming removes, stated independently: constrained dofs and dofs with negligible mass or
stiffness on the diagonal. -/
def Obsolete (st : TrimState K) (o : ℕ) : Prop :=
  (∃ n ∈ st.nodes, ∃ d, n.idx d = some o ∧ n.act d = false) ∨
    (o < st.N ∧ |st.M o o| ≤ 1 / 10 ^ 8) ∨ (o < st.N ∧ |st.Kg o o| ≤ 1 / 10 ^ 8)

theorem mem_obsoleteIndices (st : TrimState K) (o : ℕ) :
    o ∈ obsoleteIndices st.N st.nodes st.M st.Kg ↔ Obsolete st o := by
  have e : (1 / 10 ^ 8 : K) = 1 / 100000000 := by norm_num
  unfold obsoleteIndices Obsolete constrainedIndices zeroDiagonal
  rw [e]
  simp only [List.mem_append, List.mem_flatMap, List.mem_reverse, List.mem_filterMap, List.mem_filter, List.mem_range,
    decide_eq_true_eq, or_assoc]
  constructor
  · rintro (⟨n, hn, d, hd, h⟩ | h)
    · left
      refine ⟨n, hn, d, ?_⟩
      split_ifs at h with ha
      exact ⟨h, by simpa using ha⟩
    · exact Or.inr h
  · rintro (⟨n, hn, d, h, ha⟩ | h)
    · left
      exact ⟨n, hn, d, by fin_cases d <;> simp, by simp [ha, h]⟩
    · exact Or.inr h

theorem keptIndices_eq (st : TrimState K) {n : ℕ} (hn : n ≤ st.N) (h : OrderedNumbering st.nodes n) (rem : List ℕ)
    (hrem : ∀ o, n ≤ o → o < st.N → o ∈ rem) :
    ((flatIdx st.nodes).filterMap id).filter (· ∉ rem) = keptIndices st.N rem := by
  have e : st.N = n + (st.N - n) := by omega
  rw [h, keptIndices, e, List.range_add, List.filter_append]
  have : ((List.range (st.N - n)).map (n + ·)).filter (fun i => decide (i ∉ rem)) = [] := by
    rw [List.filter_eq_nil_iff]
    intro o ho
    rw [List.mem_map] at ho
    obtain ⟨k, hk, rfl⟩ := ho
    rw [List.mem_range] at hk
    simp [hrem (n + k) (by omega) (by omega)]
  rw [this, List.append_nil]

/-- The old equation of a nodal dof that has equation `k` after trimming. -/
theorem trim_old (st : TrimState K) {n : ℕ} (hn : n ≤ st.N) (h : OrderedNumbering st.nodes n)
    (hob : ∀ o, n ≤ o → o < st.N → Obsolete st o) (i : ℕ) (d : Fin 3) (k : ℕ)
    (hk : equationOf (trimAll st).nodes i d = some k) :
    ∃ o, equationOf st.nodes i d = some o ∧ ¬ Obsolete st o ∧ k < (trimAll st).N ∧
      (keptIndices st.N (obsoleteIndices st.N st.nodes st.M st.Kg)).getD k 0 = o := by
  obtain ⟨t1, t2, -, -⟩ := recalcNodes_flat (obsoleteIndices st.N st.nodes st.M st.Kg) 0 st.nodes
  have hflat : (recalcFlat (obsoleteIndices st.N st.nodes st.M st.Kg) 0 (flatIdx st.nodes))[3 * i + (d : ℕ)]? =
      some (some k) := by
    rw [← t1, flatIdx_get]
    unfold equationOf at hk
    change ((recalcNodes _ 0 st.nodes).1[i]?).bind _ = _ at hk
    cases h1 : (recalcNodes (obsoleteIndices st.N st.nodes st.M st.Kg) 0 st.nodes).1[i]? with
    | none => rw [h1] at hk; simp at hk
    | some n => rw [h1] at hk; simpa using hk
  obtain ⟨o, h1, h2, -, h4⟩ := (recalcFlat_get _ 0 (flatIdx st.nodes) _).1 k hflat
  refine ⟨o, ?_, ?_, ?_, ?_⟩
  · rw [flatIdx_get] at h1
    unfold equationOf
    cases h5 : st.nodes[i]? with
    | none => rw [h5] at h1; simp at h1
    | some n => rw [h5] at h1; simpa using h1
  · rwa [← mem_obsoleteIndices]
  · have : (trimAll st).N = 0 + keptCount (obsoleteIndices st.N st.nodes st.M st.Kg) (flatIdx st.nodes) := t2
    rw [this, keptCount]
    have := (List.getElem?_eq_some_iff.mp h4).1
    omega
  · rw [keptIndices_eq st hn h _ fun o h1 h2 => (mem_obsoleteIndices st o).2 (hob o h1 h2)] at h4
    simp only [Nat.sub_zero] at h4
    rw [List.getD_eq_getElem?_getD, h4]; rfl

/-- C09, matrices and numbering: a nodal dof that carries equation `k` after trimming carried a non-obsolete equation
before; every entry of mass, damping, stiffness and force at new equations equals the old entry of the same nodal
dofs. The matrices may have rows beyond the numbered ones (as those of a train with a shared bogie have), if these are
obsolete. -/
theorem C09_entries_surplus (st : TrimState K) {n : ℕ} (hn : n ≤ st.N) (h : OrderedNumbering st.nodes n)
    (hob : ∀ o, n ≤ o → o < st.N → Obsolete st o) {i i' : ℕ} {d d' : Fin 3} {k k' : ℕ}
    (hk : equationOf (trimAll st).nodes i d = some k) (hk' : equationOf (trimAll st).nodes i' d' = some k') :
    ∃ o o', equationOf st.nodes i d = some o ∧ equationOf st.nodes i' d' = some o' ∧ ¬ Obsolete st o ∧
      k < (trimAll st).N ∧
      (trimAll st).M k k' = st.M o o' ∧ (trimAll st).C k k' = st.C o o' ∧ (trimAll st).Kg k k' = st.Kg o o' ∧
      (trimAll st).F k = st.F o := by
  have one := trim_old st hn h hob
  obtain ⟨o, a1, a2, a3, a4⟩ := one i d k hk
  obtain ⟨o', b1, b2, b3, b4⟩ := one i' d' k' hk'
  refine ⟨o, o', a1, b1, a2, a3, ?_, ?_, ?_, ?_⟩
  · show deleteRowsCols _ _ st.M k k' = _
    simp only [deleteRowsCols, a4, b4]
  · show deleteRowsCols _ _ st.C k k' = _
    simp only [deleteRowsCols, a4, b4]
  · show deleteRowsCols _ _ st.Kg k k' = _
    simp only [deleteRowsCols, a4, b4]
  · show deleteRows _ _ st.F k = _
    simp only [deleteRows, a4]

/-- C09, the same for a system whose matrices have one row per numbered dof. -/
theorem C09_entries (st : TrimState K) (h : OrderedNumbering st.nodes st.N) {i i' : ℕ} {d d' : Fin 3} {k k' : ℕ}
    (hk : equationOf (trimAll st).nodes i d = some k) (hk' : equationOf (trimAll st).nodes i' d' = some k') :
    ∃ o o', equationOf st.nodes i d = some o ∧ equationOf st.nodes i' d' = some o' ∧ ¬ Obsolete st o ∧
      k < (trimAll st).N ∧
      (trimAll st).M k k' = st.M o o' ∧ (trimAll st).C k k' = st.C o o' ∧ (trimAll st).Kg k k' = st.Kg o o' ∧
      (trimAll st).F k = st.F o :=
  C09_entries_surplus st (le_refl _) h (fun o h1 h2 => absurd h2 (by omega)) hk hk'

/-- C09: every retained equation belongs to exactly one nodal dof. -/
theorem C09_bijection (st : TrimState K) (k : ℕ) (hk : k < (trimAll st).N) :
    ∃! p : ℕ × Fin 3, equationOf (trimAll st).nodes p.1 p.2 = some k := by
  obtain ⟨t1, t2, t3, -⟩ := recalcNodes_flat (obsoleteIndices st.N st.nodes st.M st.Kg) 0 st.nodes
  have hk' : k < keptCount (obsoleteIndices st.N st.nodes st.M st.Kg) (flatIdx st.nodes) := by
    have : (trimAll st).N = 0 + keptCount (obsoleteIndices st.N st.nodes st.M st.Kg) (flatIdx st.nodes) := t2
    omega
  obtain ⟨p, hp, hu⟩ := recalcFlat_surj _ 0 _ k hk'
  simp only [zero_add] at hp hu
  have key : ∀ (i : ℕ) (d : Fin 3), equationOf (trimAll st).nodes i d = some k ↔
      (recalcFlat (obsoleteIndices st.N st.nodes st.M st.Kg) 0 (flatIdx st.nodes))[3 * i + (d : ℕ)]? =
        some (some k) := by
    intro i d
    rw [← t1, flatIdx_get]
    unfold equationOf
    change ((recalcNodes _ 0 st.nodes).1[i]?).bind _ = _ ↔ _
    cases h1 : (recalcNodes (obsoleteIndices st.N st.nodes st.M st.Kg) 0 st.nodes).1[i]? with
    | none => simp
    | some n => simp
  refine ⟨(p / 3, ⟨p % 3, Nat.mod_lt _ (by norm_num)⟩), ?_, ?_⟩
  · show equationOf _ (p / 3) ⟨p % 3, _⟩ = _
    rw [key]
    simp only [Nat.div_add_mod]
    exact hp
  · rintro ⟨i, d⟩ hq
    have := hu _ ((key i d).mp hq)
    have hd := d.2
    ext
    · simp; omega
    · simp; omega

/-- C09: a nodal dof that had an equation loses it exactly if that equation is obsolete; a removed dof is inactive, a
retained one keeps its flag (which is then `true`). -/
theorem C09_removed (st : TrimState K) {i : ℕ} {d : Fin 3} {o : ℕ}
    (ho : equationOf st.nodes i d = some o) :
    (equationOf (trimAll st).nodes i d = none ↔ Obsolete st o) ∧
      ∃ n, (trimAll st).nodes[i]? = some n ∧ (n.act d = true ↔ ¬ Obsolete st o) := by
  obtain ⟨t1, t2, t3, t4⟩ := recalcNodes_flat (obsoleteIndices st.N st.nodes st.M st.Kg) 0 st.nodes
  have hi : i < st.nodes.length := by
    by_contra hc
    rw [equationOf, List.getElem?_eq_none (by omega)] at ho
    simp at ho
  have hn : st.nodes[i]? = some st.nodes[i] := List.getElem?_eq_getElem hi
  have ho' : st.nodes[i].idx d = some o := by rw [equationOf, hn] at ho; simpa using ho
  have hi' : i < (trimAll st).nodes.length := by
    show i < (recalcNodes _ 0 st.nodes).1.length; rw [t3]; exact hi
  have hn' : (trimAll st).nodes[i]? = some (trimAll st).nodes[i] := List.getElem?_eq_getElem hi'
  have hflat : (recalcFlat (obsoleteIndices st.N st.nodes st.M st.Kg) 0 (flatIdx st.nodes))[3 * i + (d : ℕ)]? =
      some ((trimAll st).nodes[i].idx d) := by
    rw [← t1, flatIdx_get]
    change ((trimAll st).nodes[i]?).map _ = _
    rw [hn']; rfl
  have hold : (flatIdx st.nodes)[3 * i + (d : ℕ)]? = some (some o) := by
    rw [flatIdx_get, hn]; simp [ho']
  have hnone : (trimAll st).nodes[i].idx d = none ↔ Obsolete st o := by
    rw [← mem_obsoleteIndices]
    cases hx : (trimAll st).nodes[i].idx d with
    | none =>
      rw [hx] at hflat
      rcases (recalcFlat_get _ 0 (flatIdx st.nodes) _).2 hflat with h1 | ⟨o', h1, h2⟩
      · rw [hold] at h1; simp at h1
      · rw [hold] at h1
        simp at h1; subst h1
        simp [h2]
    | some k =>
      rw [hx] at hflat
      obtain ⟨o', h1, h2, -, -⟩ := (recalcFlat_get _ 0 (flatIdx st.nodes) _).1 k hflat
      rw [hold] at h1
      simp at h1; subst h1
      simp [h2]
  refine ⟨by rw [equationOf, hn']; simpa using hnone, (trimAll st).nodes[i], hn', ?_⟩
  have ha : (trimAll st).nodes[i].act d = (st.nodes[i].act d && ((trimAll st).nodes[i].idx d).isSome) := t4 i hi hi' d
  rw [ha]
  constructor
  · intro hb hob
    rw [hnone.mpr hob] at hb
    simp at hb
  · intro hob
    have h1 : st.nodes[i].act d = true := by
      by_contra hc
      exact hob (Or.inl ⟨st.nodes[i], List.getElem_mem hi, d, ho', by simpa using hc⟩)
    have h2 : ((trimAll st).nodes[i].idx d).isSome := by
      cases hx : (trimAll st).nodes[i].idx d with
      | none => exact absurd (hnone.mp hx) hob
      | some k => rfl
    simp [h1, h2]

theorem recalcFlat_id (removed : List ℕ) (l : List (Option ℕ)) : ∀ (j m : ℕ), l.filterMap id = List.range' j m →
    (∀ o, j ≤ o → o < j + m → o ∉ removed) → recalcFlat removed j l = l ∧ keptCount removed l = m := by
  induction l with
  | nil =>
    intro j m h _
    have : m = 0 := by simpa using (congrArg List.length h).symm
    subst this
    simp [recalcFlat, keptCount]
  | cons a l ih =>
    intro j m h hr
    cases a with
    | none =>
      have := ih j m (by simpa using h) hr
      simp only [recalcFlat, this.1, true_and]
      have h2 := this.2
      unfold keptCount at h2 ⊢
      simpa using h2
    | some o =>
      cases m with
      | zero => simp at h
      | succ m =>
        rw [List.range'_succ] at h
        simp only [List.filterMap_cons_some (f := id) (a := some o) (b := o) rfl, List.cons.injEq] at h
        obtain ⟨rfl, h⟩ := h
        have h3 := ih (o + 1) m h fun x h1 h2 => hr x (by omega) (by omega)
        have h4 := hr o (by omega) (by omega)
        simp only [recalcFlat, h4, if_false, h3.1, true_and]
        have h2 := h3.2
        unfold keptCount at h2 ⊢
        simpa [h4] using h2

/-- C09: if no numbered dof is obsolete, but everything beyond the numbered dofs is, trimming changes no equation
number, removes exactly the surplus rows and keeps all other entries. -/
theorem C09_nothing_lost (st : TrimState K) {n : ℕ} (hn : n ≤ st.N) (h : OrderedNumbering st.nodes n)
    (hkeep : ∀ o < n, ¬ Obsolete st o) (hob : ∀ o, n ≤ o → o < st.N → Obsolete st o) :
    (trimAll st).N = n ∧ (∀ i d, equationOf (trimAll st).nodes i d = equationOf st.nodes i d) ∧
      ∀ k < n, ∀ k' < n, (trimAll st).M k k' = st.M k k' ∧ (trimAll st).C k k' = st.C k k' ∧
        (trimAll st).Kg k k' = st.Kg k k' ∧ (trimAll st).F k = st.F k := by
  obtain ⟨t1, t2, t3, -⟩ := recalcNodes_flat (obsoleteIndices st.N st.nodes st.M st.Kg) 0 st.nodes
  have h' : (flatIdx st.nodes).filterMap id = List.range' 0 n := by rw [h, List.range_eq_range']
  obtain ⟨r1, r2⟩ := recalcFlat_id (obsoleteIndices st.N st.nodes st.M st.Kg) (flatIdx st.nodes) 0 n h'
    fun o _ h2 => by rw [mem_obsoleteIndices]; exact hkeep o (by omega)
  have hk : keptIndices st.N (obsoleteIndices st.N st.nodes st.M st.Kg) = List.range n := by
    rw [← keptIndices_eq st hn h _ fun o h1 h2 => (mem_obsoleteIndices st o).2 (hob o h1 h2), h, List.filter_eq_self]
    intro o ho
    rw [List.mem_range] at ho
    simp only [decide_eq_true_eq, mem_obsoleteIndices]
    exact hkeep o ho
  refine ⟨?_, ?_, ?_⟩
  · show (recalcNodes _ 0 st.nodes).2 = n
    rw [t2, r2]; omega
  · intro i d
    have e : ∀ ns : List DofNode, equationOf ns i d = ((flatIdx ns)[3 * i + (d : ℕ)]?).join := by
      intro ns
      rw [flatIdx_get, equationOf]
      cases ns[i]? <;> simp
    rw [e, e]
    show ((flatIdx (recalcNodes _ 0 st.nodes).1)[3 * i + (d : ℕ)]?).join = _
    rw [t1, r1]
  · intro k hk1 k' hk2
    have e : ∀ k < n, (keptIndices st.N (obsoleteIndices st.N st.nodes st.M st.Kg)).getD k 0 = k := by
      intro k hk1
      rw [hk]; simp [hk1]
    refine ⟨?_, ?_, ?_, ?_⟩
    · show deleteRowsCols _ _ st.M k k' = _
      simp only [deleteRowsCols, e k hk1, e k' hk2]
    · show deleteRowsCols _ _ st.C k k' = _
      simp only [deleteRowsCols, e k hk1, e k' hk2]
    · show deleteRowsCols _ _ st.Kg k k' = _
      simp only [deleteRowsCols, e k hk1, e k' hk2]
    · show deleteRows _ _ st.F k = _
      simp only [deleteRows, e k hk1]

/-- Two nodes; the first is fixed in y, the mass of the second one's rotation is zero. -/
def exampleTrim : TrimState ℚ :=
  { nodes := (initialiseNdof [⟨fun _ => none, ![true, false, true]⟩, ⟨fun _ => none, ![true, true, true]⟩]).1
    N := 6
    M := fun i j => if i = j ∧ i ≠ 5 then 2 else 0
    C := fun _ _ => 0
    Kg := fun i j => if i = j then 3 else 1
    F := fun i => i }

example : OrderedNumbering exampleTrim.nodes exampleTrim.N := C09_numbering_ordered _
example : (trimAll exampleTrim).N = 4 := by decide +kernel
example : equationOf (trimAll exampleTrim).nodes 1 1 = some 3 ∧ equationOf (trimAll exampleTrim).nodes 1 2 = none := by
  decide +kernel

/-! ## C11 Results are reported at the right node and dof -/

theorem maskAssign_spec (row : Fin 3 → K) (n : DofNode) (f : ℕ → K) (h : ∀ d, n.act d = (n.idx d).isSome) :
    maskAssign row n.act (([0, 1, 2].filterMap fun d : Fin 3 => n.idx d).map f) =
      .ok fun d => match n.idx d with | some k => f k | none => row d := by
  have hall := h
  have h0 := h 0; have h1 := h 1; have h2 := h 2
  cases e0 : n.idx 0 <;> cases e1 : n.idx 1 <;> cases e2 : n.idx 2 <;>
    (rw [e0] at h0; rw [e1] at h1; rw [e2] at h2) <;> simp at h0 h1 h2 <;>
    simp [maskAssign, e0, e1, e2, h0, h1, h2, writes] <;>
    (ext d; fin_cases d <;> simp [e0, e1, e2, write])

/-- After trimming the flags of every node agree with the presence of an equation. -/
theorem flags_after_trim (st : TrimState K) (n : DofNode) (hn : n ∈ (trimAll st).nodes) (d : Fin 3) :
    n.act d = (n.idx d).isSome := by
  obtain ⟨t1, t2, t3, t4⟩ := recalcNodes_flat (obsoleteIndices st.N st.nodes st.M st.Kg) 0 st.nodes
  obtain ⟨i, hi', rfl⟩ := List.getElem_of_mem hn
  have hi : i < st.nodes.length := by
    change i < (recalcNodes _ 0 st.nodes).1.length at hi'; rwa [t3] at hi'
  have ha : (trimAll st).nodes[i].act d = (st.nodes[i].act d && ((trimAll st).nodes[i].idx d).isSome) := t4 i hi hi' d
  rw [ha]
  cases hx : (trimAll st).nodes[i].idx d with
  | none => simp
  | some k =>
    have hn' : (trimAll st).nodes[i]? = some (trimAll st).nodes[i] := List.getElem?_eq_getElem hi'
    have hflat : (recalcFlat (obsoleteIndices st.N st.nodes st.M st.Kg) 0 (flatIdx st.nodes))[3 * i + (d : ℕ)]? =
        some (some k) := by
      rw [← t1, flatIdx_get]
      change ((trimAll st).nodes[i]?).map _ = _
      rw [hn', ← hx]; rfl
    obtain ⟨o, h1, h2, -, -⟩ := (recalcFlat_get _ 0 (flatIdx st.nodes) _).1 k hflat
    rw [flatIdx_get, List.getElem?_eq_getElem hi] at h1
    simp at h1
    by_contra hc
    have hf : st.nodes[i].act d = false := by simpa using hc
    exact h2 ((mem_obsoleteIndices st o).mpr (Or.inl ⟨_, List.getElem_mem hi, d, h1, hf⟩))

/-- C11: for every node of the trimmed system and every row `u` of the solution (displacement, velocity or
acceleration at one output time), the assignment succeeds, the value at a dof is the solution of its equation, and it
is zero for a removed dof. -/
theorem C11_results (st : TrimState K) (n : DofNode) (hn : n ∈ (trimAll st).nodes) (u : ℕ → K) :
    ∃ row, assignResultRow n u = .ok row ∧
      ∀ d, (∀ k, n.idx d = some k → row d = u k) ∧ (n.idx d = none → row d = 0) := by
  refine ⟨_, maskAssign_spec (fun _ => 0) n u (flags_after_trim st n hn), fun d => ⟨?_, ?_⟩⟩
  · intro k hk; simp [hk]
  · intro hk; simp [hk]

/-- C11 fails for the nodal force, which is not among the quantities of C11 but is assigned by the same code: at a
removed dof it is whatever the uninitialised memory contained. -/
theorem C11_force_uninitialised (st : TrimState K) (n : DofNode) (hn : n ∈ (trimAll st).nodes) (f : ℕ → K)
    (d : Fin 3) (hd : n.idx d = none) (garbage : Fin 3 → K) :
    ∃ row, assignForceRow garbage n f = .ok row ∧ row d = garbage d := by
  refine ⟨_, maskAssign_spec garbage n f (flags_after_trim st n hn), ?_⟩
  simp [hd]

end

end Rose
