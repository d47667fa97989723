/-
Properties C05-C08: dof numbering, embedding and assembly of element matrices.
-/
import Verif.Lemmas.Assembly
import Verif.Spec.Mechanics

set_option linter.unusedSectionVars false

namespace Rose

/-! ## C05 Every nodal degree of freedom gets its own equation -/

theorem initialiseNdofFrom_get (ns : List DofNode) (k i : ℕ) (n : DofNode) (h : ns[i]? = some n) :
    (initialiseNdofFrom k ns)[i]? =
      some { n with idx := ![some (k + 3 * i), some (k + 3 * i + 1), some (k + 3 * i + 2)] } := by
  induction ns generalizing k i with
  | nil => simp at h
  | cons a as ih =>
    rcases i with _ | i
    · simp at h; subst h; simp [initialiseNdofFrom]
    · have := ih (k + 3) i (by simpa using h)
      simp only [initialiseNdofFrom, List.getElem?_cons_succ, this]
      have e : k + 3 + 3 * i = k + 3 * (i + 1) := by ring
      rw [e]

theorem initialiseNdofFrom_length (ns : List DofNode) (k : ℕ) : (initialiseNdofFrom k ns).length = ns.length := by
  induction ns generalizing k with
  | nil => rfl
  | cons a as ih => simp [initialiseNdofFrom, ih]

/-- The equation number of dof `d` of node `i`, if there is one. -/
def equationOf (ns : List DofNode) (i : ℕ) (d : Fin 3) : Option ℕ := (ns[i]?).bind fun n => n.idx d

theorem C05_closed_form (ns : List DofNode) (i : ℕ) (hi : i < ns.length) (d : Fin 3) :
    equationOf (initialiseNdof ns).1 i d = some (3 * i + d) := by
  have h := initialiseNdofFrom_get ns 0 i ns[i] (List.getElem?_eq_getElem hi)
  simp only [equationOf, initialiseNdof, h, Option.bind_some]
  fin_cases d <;> simp

/-- C05: after numbering, every equation `0 .. total-1` belongs to exactly one nodal dof, `total` is three times the
number of nodes, and the numbering increases in mesh order. -/
theorem C05_bijection (ns : List DofNode) :
    (initialiseNdof ns).2 = 3 * ns.length ∧
    (∀ i < ns.length, ∀ d, ∃ e < (initialiseNdof ns).2, equationOf (initialiseNdof ns).1 i d = some e) ∧
    (∀ e < (initialiseNdof ns).2, ∃! p : ℕ × Fin 3, p.1 < ns.length ∧
      equationOf (initialiseNdof ns).1 p.1 p.2 = some e) ∧
    (∀ i < ns.length, ∀ j < ns.length, ∀ d d' e e', equationOf (initialiseNdof ns).1 i d = some e →
      equationOf (initialiseNdof ns).1 j d' = some e' → (i < j ∨ (i = j ∧ d < d')) → e < e') := by
  refine ⟨rfl, ?_, ?_, ?_⟩
  · intro i hi d
    exact ⟨3 * i + d, by simp [initialiseNdof]; omega, C05_closed_form ns i hi d⟩
  · intro e he
    simp only [initialiseNdof] at he
    refine ⟨(e / 3, ⟨e % 3, Nat.mod_lt _ (by norm_num)⟩), ⟨by simp; omega, ?_⟩, ?_⟩
    · rw [C05_closed_form _ _ (by simp; omega)]
      simp; omega
    · rintro ⟨i, d⟩ ⟨hi, h⟩
      rw [C05_closed_form _ _ hi] at h
      simp at h
      have := d.2
      ext
      · simp; omega
      · simp; omega
  · intro i hi j hj d d' e e' h h' hlt
    rw [C05_closed_form _ _ hi] at h
    rw [C05_closed_form _ _ hj] at h'
    simp at h h'
    have := d.2; have := d'.2
    rcases hlt with hlt | ⟨rfl, hlt⟩
    · omega
    · have : (d : ℕ) < d' := hlt
      omega

/-- Numbering leaves the flags and the number of nodes alone. -/
theorem C05_flags (ns : List DofNode) (i : ℕ) :
    ((initialiseNdof ns).1[i]?).map DofNode.act = (ns[i]?).map DofNode.act := by
  by_cases hi : i < ns.length
  · rw [show (initialiseNdof ns).1 = initialiseNdofFrom 0 ns from rfl,
      initialiseNdofFrom_get ns 0 i ns[i] (List.getElem?_eq_getElem hi), List.getElem?_eq_getElem hi]
    rfl
  · have h1 : ns[i]? = none := List.getElem?_eq_none (by omega)
    have h2 : (initialiseNdof ns).1[i]? = none :=
      List.getElem?_eq_none (by simp [initialiseNdof, initialiseNdofFrom_length]; omega)
    rw [h1, h2]

example : equationOf (initialiseNdof [⟨fun _ => none, fun _ => true⟩, ⟨fun _ => some 7, fun _ => false⟩]).1 1 2
    = some 5 := by decide

/-! ## C08 Embedding of an element matrix -/

/-- C08: the embedded matrix has the coefficient of the (row node, row dof, column node, column dof) at its place; the
source index of an active dof is `node * (number of active dofs) + (number of active dofs before it)`; all inactive
places are zero. -/
theorem C08_embedding {K : Type*} [Zero K] (n : ℕ) (dofs : List Bool) (aux : ℕ × ℕ → K) {i j k l : ℕ} (hi : i < n)
    (hj : j < n) (hk : k < dofs.length) (hl : l < dofs.length) :
    reshapeAux n dofs aux (i * dofs.length + k, j * dofs.length + l) =
      if dofs.getD k false ∧ dofs.getD l false then
        aux (i * dofs.count true + dofRank dofs k, j * dofs.count true + dofRank dofs l) else 0 := by
  split_ifs with h
  · apply writes_eq_of_mem
    · intro w hw hp
      obtain ⟨i', -, j', -, k', hk', l', hl', -, -, rfl⟩ := mem_reshapeWrites.mp hw
      simp only [Prod.mk.injEq] at hp
      obtain ⟨rfl, rfl⟩ := divmod_unique hk' hk hp.1
      obtain ⟨rfl, rfl⟩ := divmod_unique hl' hl hp.2
      rfl
    · exact ⟨_, mem_reshapeWrites.mpr ⟨i, hi, j, hj, k, hk, l, hl, h.1, h.2, rfl⟩, rfl⟩
  · refine writes_eq_of_not_mem _ _ _ fun w hw hp => h ?_
    obtain ⟨i', -, j', -, k', hk', l', hl', hd, hd', rfl⟩ := mem_reshapeWrites.mp hw
    simp only [Prod.mk.injEq] at hp
    obtain ⟨rfl, rfl⟩ := divmod_unique hk' hk hp.1
    obtain ⟨rfl, rfl⟩ := divmod_unique hl' hl hp.2
    exact ⟨hd, hd'⟩

/-- C08: the source index of an active dof is a valid index of the active-dof matrix, every source index is the one
of exactly one active (node, dof), so no coefficient is lost or duplicated. -/
theorem C08_every_coefficient (n : ℕ) (dofs : List Bool) :
    (∀ i < n, ∀ k < dofs.length, dofs.getD k false = true →
      i * dofs.count true + dofRank dofs k < n * dofs.count true) ∧
    (∀ p < n * dofs.count true, ∃! q : ℕ × ℕ, q.1 < n ∧ q.2 < dofs.length ∧ dofs.getD q.2 false = true ∧
      q.1 * dofs.count true + dofRank dofs q.2 = p) := by
  constructor
  · intro i hi k hk h
    have h1 := dofRank_lt hk h
    calc i * dofs.count true + dofRank dofs k < i * dofs.count true + dofs.count true := by omega
      _ = (i + 1) * dofs.count true := by ring
      _ ≤ n * dofs.count true := Nat.mul_le_mul_right _ hi
  · intro p hp
    have hm : 0 < dofs.count true := by
      rcases Nat.eq_zero_or_pos (dofs.count true) with h | h
      · rw [h] at hp; simp at hp
      · exact h
    obtain ⟨k, hk, hd, hr⟩ := dofRank_surj dofs (Nat.mod_lt p hm)
    refine ⟨(p / dofs.count true, k), ⟨?_, hk, hd, ?_⟩, ?_⟩
    · exact (Nat.div_lt_iff_lt_mul hm).mpr hp
    · show p / dofs.count true * dofs.count true + dofRank dofs k = p
      rw [hr]; exact Nat.div_add_mod' p _
    · rintro ⟨i', k'⟩ ⟨-, hk', hd', hp'⟩
      simp only at hk' hd' hp'
      have h1 := dofRank_lt hk' hd'
      have h2 := dofRank_lt hk hd
      have hpp : i' * dofs.count true + dofRank dofs k' = p / dofs.count true * dofs.count true + dofRank dofs k := by
        rw [hp', hr, Nat.div_add_mod' p _]
      obtain ⟨e1, e2⟩ := divmod_unique h1 h2 hpp
      have e3 : k' = k := by
        rcases lt_trichotomy k' k with h | h | h
        · have := dofRank_mono h hk' hd'; omega
        · exact h
        · have := dofRank_mono h hk hd; omega
      rw [e1, e3]

theorem take_all_true {dofs : List Bool} (h : ∀ b ∈ dofs, b = true) (k : ℕ) (hk : k ≤ dofs.length) :
    dofRank dofs k = k := by
  unfold dofRank
  rw [List.count_eq_length.mpr]
  · simp [hk]
  · intro b hb; exact (h b (List.mem_of_mem_take hb)).symm

/-- C08: with all dofs active the embedding is the identity. -/
theorem C08_all_active {K : Type*} [Zero K] (n : ℕ) (dofs : List Bool) (h : ∀ b ∈ dofs, b = true)
    (aux : ℕ × ℕ → K) {p q : ℕ} (hp : p < n * dofs.length) (hq : q < n * dofs.length) :
    reshapeAux n dofs aux (p, q) = aux (p, q) := by
  have hm : 0 < dofs.length := by
    rcases Nat.eq_zero_or_pos dofs.length with h | h
    · rw [h] at hp; simp at hp
    · exact h
  have hc : dofs.count true = dofs.length := List.count_eq_length.mpr fun b hb => (h b hb).symm
  have hg : ∀ k < dofs.length, dofs.getD k false = true := by
    intro k hk; rw [List.getD_eq_getElem _ _ hk]; exact h _ (List.getElem_mem hk)
  have hp' := Nat.mod_lt p hm
  have hq' := Nat.mod_lt q hm
  have := C08_embedding n dofs aux ((Nat.div_lt_iff_lt_mul hm).mpr hp) ((Nat.div_lt_iff_lt_mul hm).mpr hq) hp' hq'
  rw [Nat.div_add_mod', Nat.div_add_mod', if_pos ⟨hg _ hp', hg _ hq'⟩, hc, take_all_true h _ hp'.le,
    take_all_true h _ hq'.le, Nat.div_add_mod', Nat.div_add_mod'] at this
  exact this

/-- A matrix over `Fin m` as an index function. -/
def ofMat {K : Type*} [Zero K] {m : ℕ} (a : Matrix (Fin m) (Fin m) K) : ℕ × ℕ → K :=
  fun p => if h : p.1 < m ∧ p.2 < m then a ⟨p.1, h.1⟩ ⟨p.2, h.2⟩ else 0

/-- The beam model uses the embedding with all dofs active: it changes nothing (used in `Model/Beam.lean`). -/
theorem reshape_all_active {K : Type*} [Zero K] (a : Matrix (Fin 6) (Fin 6) K) (i j : Fin 6) :
    reshapeAux 2 [true, true, true] (ofMat a) (i, j) = a i j := by
  rw [C08_all_active 2 [true, true, true] (by simp) _ (by simp) (by simp)]
  simp [ofMat]

/-- The rod model uses the embedding of its two axial dofs (used in `Model/Beam.lean`). -/
theorem reshape_rod {K : Type*} [Field K] [LinearOrder K] [IsStrictOrderedRing K] (a : Matrix (Fin 2) (Fin 2) K)
    (i j : Fin 6) : reshapeAux 2 [true, false, false] (ofMat a) (i, j) = rodEmbed a i j := by
  have key : ∀ i' < 2, ∀ j' < 2, ∀ k < 3, ∀ l < 3, reshapeAux 2 [true, false, false] (ofMat a) (i' * 3 + k, j' * 3 + l) =
      if k = 0 ∧ l = 0 then ofMat a (i', j') else 0 := by
    intro i' hi' j' hj' k hk l hl
    have := C08_embedding 2 [true, false, false] (ofMat a) hi' hj' (k := k) (l := l) (by simpa using hk) (by simpa using hl)
    simp only [List.length_cons, List.length_nil] at this
    rw [this]
    have h1 : ∀ k < 3, ([true, false, false].getD k false = true ↔ k = 0) := by decide
    simp only [h1 k hk, h1 l hl]
    split_ifs with h
    · obtain ⟨rfl, rfl⟩ := h; simp [dofRank]
    · rfl
  have := key (i / 3) (by omega) (j / 3) (by omega) (i % 3) (Nat.mod_lt _ (by norm_num)) (j % 3)
    (Nat.mod_lt _ (by norm_num))
  rw [Nat.div_add_mod', Nat.div_add_mod'] at this
  rw [this]
  fin_cases i <;> fin_cases j <;> simp [rodEmbed, fancySet, ofMat]

example : reshapeAux 2 [false, true, false] (ofMat !![(1 : ℚ), 2; 3, 4]) (4, 1) = 3 := by
  have := C08_embedding 2 [false, true, false] (ofMat !![(1 : ℚ), 2; 3, 4]) (i := 1) (j := 0) (k := 1) (l := 1)
    (by norm_num) (by norm_num) (by simp) (by simp)
  simpa [dofRank, ofMat] using this

/-! ## C06 Global matrices are the sum of the element matrices -/

section
variable {K : Type*} [Field K] [DecidableEq K]

/-- The contribution of one element to the entry `(i, j)`: all element coefficients whose row dof carries equation `i`
and whose column dof carries equation `j`. -/
def elementShare (c : Contribution K) (i j : ℕ) : K :=
  ∑ p : Fin c.n, ∑ q : Fin c.n, if c.dofs p = some i ∧ c.dofs q = some j then c.mat p q else 0

/-- All dofs of the element carry an equation of the system. -/
def Contribution.Numbered (N : ℕ) (c : Contribution K) : Prop := ∀ p, ∃ e < N, c.dofs p = some e

theorem toCoo_ok (N : ℕ) (g : ℕ → ℕ → K) :
    (toCoo N g).all (fun e => (e.1.any (· < N)) && (e.2.1.any (· < N))) = true := by
  rw [List.all_eq_true]
  intro e he
  simp only [toCoo, List.mem_flatMap, List.mem_range] at he
  obtain ⟨i, hi, j, hj, he⟩ := he
  split_ifs at he
  · simp at he; subst he; simp [hi, hj]
  · simp at he

theorem entries_ok (N : ℕ) (c : Contribution K) (h : c.Numbered N) :
    c.entries.all (fun e => (e.1.any (· < N)) && (e.2.1.any (· < N))) = true := by
  rw [List.all_eq_true]
  intro e he
  simp only [Contribution.entries, List.mem_flatMap] at he
  obtain ⟨i, -, j, -, he⟩ := he
  split_ifs at he
  · simp at he; subst he
    obtain ⟨a, ha, ha'⟩ := h i
    obtain ⟨b, hb, hb'⟩ := h j
    simp [ha', hb', ha, hb]
  · simp at he

/-- C06: adding a part with numbered dofs succeeds. -/
theorem C06_succeeds (N : ℕ) (g : ℕ → ℕ → K) (cs : List (Contribution K)) (h : ∀ c ∈ cs, c.Numbered N) :
    ∃ g', addAuxToGlobal N g cs = .ok g' := by
  unfold addAuxToGlobal
  simp only
  rw [if_pos]
  · exact ⟨_, rfl⟩
  · rw [List.all_append, toCoo_ok, Bool.true_and, List.all_eq_true]
    intro e he
    obtain ⟨c, hc, he⟩ := List.mem_flatMap.mp he
    exact (List.all_eq_true.mp (entries_ok N c (h c hc))) e he

/-- C06: the new entry is the previous entry plus the sum over the elements of the part. -/
theorem C06_sum (N : ℕ) (g g' : ℕ → ℕ → K) (cs : List (Contribution K)) (h : addAuxToGlobal N g cs = .ok g')
    {i j : ℕ} (hi : i < N) (hj : j < N) : g' i j = g i j + (cs.map fun c => elementShare c i j).sum := by
  unfold addAuxToGlobal at h
  simp only at h
  split_ifs at h
  injection h with h
  subst h
  rw [cooDense_append, cooDense_toCoo g hi hj, cooDense_flatMap]
  simp only [cooDense_entries]
  rfl

/-- C06 over all parts of the model: the final entry is the initial one plus the sum over all elements of all parts. -/
theorem C06_all_parts (N : ℕ) (parts : List (List (Contribution K))) (g g' : ℕ → ℕ → K)
    (h : addParts N g parts = .ok g') {i j : ℕ} (hi : i < N) (hj : j < N) :
    g' i j = g i j + (parts.flatten.map fun c => elementShare c i j).sum := by
  induction parts generalizing g with
  | nil => simp only [addParts, List.foldlM_nil] at h; injection h with h; subst h; simp
  | cons p ps ih =>
    rw [addParts, List.foldlM_cons] at h
    cases h1 : addAuxToGlobal N g p with
    | error e => rw [h1] at h; cases h
    | ok g1 =>
      rw [h1] at h
      have := ih g1 h
      rw [this, C06_sum N g g1 p h1 hi hj]
      simp [add_assoc]

/-- C06: assembling all numbered parts succeeds. -/
theorem C06_all_succeed (N : ℕ) (parts : List (List (Contribution K))) (g : ℕ → ℕ → K)
    (h : ∀ p ∈ parts, ∀ c ∈ p, c.Numbered N) : ∃ g', addParts N g parts = .ok g' := by
  induction parts generalizing g with
  | nil => exact ⟨g, rfl⟩
  | cons p ps ih =>
    obtain ⟨g1, h1⟩ := C06_succeeds N g p (h p (List.mem_cons_self ..))
    obtain ⟨g', h'⟩ := ih g1 (fun q hq => h q (List.mem_cons_of_mem _ hq))
    refine ⟨g', ?_⟩
    rw [addParts, List.foldlM_cons, h1]
    exact h'

/-- C06: the order of parts and of elements within parts does not matter. -/
theorem C06_order (N : ℕ) (parts parts' : List (List (Contribution K))) (g a b : ℕ → ℕ → K)
    (hp : parts.flatten.Perm parts'.flatten) (h : addParts N g parts = .ok a) (h' : addParts N g parts' = .ok b)
    {i j : ℕ} (hi : i < N) (hj : j < N) : a i j = b i j := by
  rw [C06_all_parts N parts g a h hi hj, C06_all_parts N parts' g b h' hi hj]
  congr 1
  exact (hp.map _).sum_eq

/-- C06: a non-zero coefficient on a dof without an equation is an error, never silently dropped. -/
theorem C06_unnumbered_rejected (N : ℕ) (g : ℕ → ℕ → K) (cs : List (Contribution K)) (c : Contribution K) (hc : c ∈ cs)
    (p q : Fin c.n) (hp : c.dofs p = none ∨ c.dofs q = none) (hv : c.mat p q ≠ 0) :
    addAuxToGlobal N g cs = .error .valueError := by
  unfold addAuxToGlobal
  simp only
  rw [if_neg]
  intro hall
  rw [List.all_append, Bool.and_eq_true, List.all_eq_true, List.all_eq_true] at hall
  have hmem : (c.dofs p, c.dofs q, c.mat p q) ∈ cs.flatMap Contribution.entries := by
    refine List.mem_flatMap.mpr ⟨c, hc, ?_⟩
    refine List.mem_flatMap.mpr ⟨p, List.mem_finRange p, List.mem_flatMap.mpr ⟨q, List.mem_finRange q, ?_⟩⟩
    rw [if_pos hv]; simp
  have := hall.2 _ hmem
  rcases hp with hp | hp <;> simp [hp] at this

/-- A two-dof spring between equations 0 and 2 of a system of size 3, for non-vacuity. -/
def exampleSpring : Contribution ℚ := { n := 2, dofs := ![some 0, some 2], mat := !![5, -5; -5, 5] }

example : exampleSpring.Numbered 3 := by
  intro p; fin_cases p
  · exact ⟨0, by norm_num, rfl⟩
  · exact ⟨2, by norm_num, rfl⟩

example : elementShare exampleSpring 0 2 = -5 := by
  unfold elementShare
  show ∑ p : Fin 2, ∑ q : Fin 2, _ = _
  simp [Fin.sum_univ_two, exampleSpring]

/-! ## C07 Assembly preserves symmetry and energy -/

/-- The energy `uᵀ g u` of an `N × N` matrix given by its entries. -/
def globalEnergy (N : ℕ) (g : ℕ → ℕ → K) (u : ℕ → K) : K :=
  ∑ i ∈ Finset.range N, ∑ j ∈ Finset.range N, u i * g i j * u j

/-- The nodal values an element sees of a global displacement. -/
def elementDisplacement (c : Contribution K) (u : ℕ → K) : Fin c.n → K := fun p => ((c.dofs p).map u).getD 0

/-- The energy of an element for a global displacement. -/
def elementEnergy (c : Contribution K) (u : ℕ → K) : K :=
  ∑ p, ∑ q, elementDisplacement c u p * c.mat p q * elementDisplacement c u q

theorem share_energy (N : ℕ) (c : Contribution K) (h : c.Numbered N) (u : ℕ → K) :
    globalEnergy N (elementShare c) u = elementEnergy c u := by
  choose e he hd using h
  have h1 : ∀ i ∈ Finset.range N, ∀ j ∈ Finset.range N, u i * elementShare c i j * u j =
      ∑ p : Fin c.n, ∑ q : Fin c.n, if e p = i ∧ e q = j then u i * c.mat p q * u j else 0 := by
    intro i _ j _
    unfold elementShare
    rw [Finset.mul_sum, Finset.sum_mul]
    refine Finset.sum_congr rfl fun p _ => ?_
    rw [Finset.mul_sum, Finset.sum_mul]
    refine Finset.sum_congr rfl fun q _ => ?_
    simp only [hd, Option.some.injEq]
    split_ifs <;> simp
  unfold globalEnergy elementEnergy
  rw [Finset.sum_congr rfl fun i hi => Finset.sum_congr rfl fun j hj => h1 i hi j hj]
  have h2 : ∀ i, ∑ j ∈ Finset.range N, ∑ p : Fin c.n, ∑ q : Fin c.n,
      (if e p = i ∧ e q = j then u i * c.mat p q * u j else 0) =
      ∑ p : Fin c.n, ∑ q : Fin c.n, if e p = i then u i * c.mat p q * u (e q) else 0 := by
    intro i
    rw [Finset.sum_comm]
    refine Finset.sum_congr rfl fun p _ => ?_
    rw [Finset.sum_comm]
    refine Finset.sum_congr rfl fun q _ => ?_
    rw [Finset.sum_eq_single_of_mem (e q) (Finset.mem_range.mpr (he q))]
    · simp
    · intro b _ hb; rw [if_neg]; exact fun h => hb h.2.symm
  rw [Finset.sum_congr rfl fun i _ => h2 i, Finset.sum_comm]
  refine Finset.sum_congr rfl fun p _ => ?_
  rw [Finset.sum_comm]
  refine Finset.sum_congr rfl fun q _ => ?_
  rw [Finset.sum_eq_single_of_mem (e p) (Finset.mem_range.mpr (he p))]
  · simp [elementDisplacement, hd]
  · intro b _ hb; rw [if_neg]; exact fun h => hb h.symm

theorem globalEnergy_add (N : ℕ) (g h : ℕ → ℕ → K) (u : ℕ → K) :
    globalEnergy N (fun i j => g i j + h i j) u = globalEnergy N g u + globalEnergy N h u := by
  simp [globalEnergy, mul_add, add_mul, Finset.sum_add_distrib]

theorem globalEnergy_list (N : ℕ) (cs : List (Contribution K)) (h : ∀ c ∈ cs, c.Numbered N) (u : ℕ → K) :
    globalEnergy N (fun i j => (cs.map fun c => elementShare c i j).sum) u =
      (cs.map fun c => elementEnergy c u).sum := by
  induction cs with
  | nil => simp [globalEnergy]
  | cons c cs ih =>
    simp only [List.map_cons, List.sum_cons]
    rw [globalEnergy_add, share_energy N c (h c (List.mem_cons_self ..)),
      ih fun d hd => h d (List.mem_cons_of_mem _ hd)]

/-- C07: the energy of any displacement field in the assembled matrix is the previous energy plus the sum of the
element energies. -/
theorem C07_energy (N : ℕ) (parts : List (List (Contribution K))) (g g' : ℕ → ℕ → K)
    (hn : ∀ p ∈ parts, ∀ c ∈ p, c.Numbered N) (h : addParts N g parts = .ok g') (u : ℕ → K) :
    globalEnergy N g' u = globalEnergy N g u + (parts.flatten.map fun c => elementEnergy c u).sum := by
  have : globalEnergy N g' u =
      globalEnergy N (fun i j => g i j + (parts.flatten.map fun c => elementShare c i j).sum) u := by
    unfold globalEnergy
    refine Finset.sum_congr rfl fun i hi => Finset.sum_congr rfl fun j hj => ?_
    rw [C06_all_parts N parts g g' h (Finset.mem_range.mp hi) (Finset.mem_range.mp hj)]
  rw [this, globalEnergy_add, globalEnergy_list]
  intro c hc
  obtain ⟨p, hp, hc⟩ := List.mem_flatten.mp hc
  exact hn p hp c hc

/-- C07: symmetric element matrices give a symmetric global matrix. -/
theorem C07_symmetric (N : ℕ) (parts : List (List (Contribution K))) (g g' : ℕ → ℕ → K)
    (hg : ∀ i < N, ∀ j < N, g i j = g j i) (hs : ∀ p ∈ parts, ∀ c ∈ p, c.mat.IsSymm)
    (h : addParts N g parts = .ok g') : ∀ i < N, ∀ j < N, g' i j = g' j i := by
  intro i hi j hj
  rw [C06_all_parts N parts g g' h hi hj, C06_all_parts N parts g g' h hj hi, hg i hi j hj]
  congr 1
  congr 1
  refine List.map_congr_left fun c hc => ?_
  obtain ⟨p, hp, hc⟩ := List.mem_flatten.mp hc
  have hsym := hs p hp c hc
  unfold elementShare
  rw [Finset.sum_comm]
  refine Finset.sum_congr rfl fun a _ => Finset.sum_congr rfl fun b _ => ?_
  rw [hsym.apply a b]
  simp only [and_comm]

/-- C07: if no element has negative energy then no displacement has negative energy in the assembled matrix. -/
theorem C07_psd {K : Type*} [Field K] [LinearOrder K] [IsStrictOrderedRing K] (N : ℕ)
    (parts : List (List (Contribution K))) (g' : ℕ → ℕ → K) (hn : ∀ p ∈ parts, ∀ c ∈ p, c.Numbered N)
    (hp : ∀ p ∈ parts, ∀ c ∈ p, Spec.PosSemidef c.mat) (h : addParts N (fun _ _ => 0) parts = .ok g') (u : ℕ → K) :
    0 ≤ globalEnergy N g' u := by
  rw [C07_energy N parts _ g' hn h u]
  have : globalEnergy N (fun _ _ => (0 : K)) u = 0 := by simp [globalEnergy]
  rw [this, zero_add]
  apply List.sum_nonneg
  intro x hx
  obtain ⟨c, hc, rfl⟩ := List.mem_map.mp hx
  obtain ⟨p, hp', hc⟩ := List.mem_flatten.mp hc
  exact hp p hp' c hc _

example : Spec.PosSemidef exampleSpring.mat ∧ exampleSpring.mat.IsSymm := by
  constructor
  · intro u
    have : Spec.energy exampleSpring.mat u = 5 * (u (0 : Fin 2) - u (1 : Fin 2)) ^ 2 := by
      show ∑ i : Fin 2, ∑ j : Fin 2, _ = _
      simp [Fin.sum_univ_two, exampleSpring]; ring
    rw [this]; positivity
  · ext i j
    change Fin 2 at i; change Fin 2 at j
    fin_cases i <;> fin_cases j <;> rfl

end

end Rose
