/- Helper lemmas for the assembly model. -/
import Verif.Model.Assembly
import Mathlib.Data.List.Count
import Mathlib.Data.List.GetD
import Mathlib.Tactic.Ring
import Mathlib.Tactic.FieldSimp
import Mathlib.Tactic.LinearCombination
import Mathlib.Tactic.FinCases
import Mathlib.Tactic.Linarith
import Mathlib.Algebra.BigOperators.Fin
import Mathlib.Algebra.BigOperators.Group.List.Basic
import Mathlib.Algebra.BigOperators.Ring.Finset

set_option linter.unusedSectionVars false

namespace Rose

theorem writes_cons {ι K : Type*} [DecidableEq ι] (a : ι → K) (w : ι × K) (ws : List (ι × K)) :
    writes a (w :: ws) = writes (write a w) ws := rfl

/-- If all assignments to `p` agree on the value, the final content is that value (or the old one if there is none). -/
theorem writes_eq_of_mem {ι K : Type*} [DecidableEq ι] (ws : List (ι × K)) (a : ι → K) (p : ι) (v : K)
    (hall : ∀ w ∈ ws, w.1 = p → w.2 = v) (hmem : ∃ w ∈ ws, w.1 = p) : writes a ws p = v := by
  induction ws generalizing a with
  | nil => simp at hmem
  | cons w ws ih =>
    rw [writes_cons]
    by_cases h : ∃ w ∈ ws, w.1 = p
    · exact ih _ (fun w' hw' => hall w' (List.mem_cons_of_mem _ hw')) h
    · obtain ⟨w', hw', hp⟩ := hmem
      have : w' = w := by
        rcases List.mem_cons.mp hw' with h' | h'
        · exact h'
        · exact absurd ⟨w', h', hp⟩ h
      subst this
      have hv := hall w' (List.mem_cons_self ..) hp
      have : ∀ (a : ι → K), a p = v → writes a ws p = v := by
        intro a ha
        clear ih hall hw'
        induction ws generalizing a with
        | nil => exact ha
        | cons x xs ih =>
          rw [writes_cons]
          apply ih
          · intro ⟨y, hy, hyp⟩; exact h ⟨y, List.mem_cons_of_mem _ hy, hyp⟩
          · simp only [write]
            rw [if_neg, ha]
            intro hxp
            exact h ⟨x, List.mem_cons_self .., hxp.symm⟩
      apply this
      simp [write, hp, hv]

theorem writes_eq_of_not_mem {ι K : Type*} [DecidableEq ι] (ws : List (ι × K)) (a : ι → K) (p : ι)
    (h : ∀ w ∈ ws, w.1 ≠ p) : writes a ws p = a p := by
  induction ws generalizing a with
  | nil => rfl
  | cons w ws ih =>
    rw [writes_cons, ih _ (fun w' hw' => h w' (List.mem_cons_of_mem _ hw'))]
    simp only [write]
    rw [if_neg]
    exact fun hp => h w (List.mem_cons_self ..) hp.symm

theorem mem_reshapeWrites {K : Type*} [Zero K] {n : ℕ} {dofs : List Bool} {aux : ℕ × ℕ → K} {w : (ℕ × ℕ) × K} :
    w ∈ reshapeWrites n dofs aux ↔ ∃ i < n, ∃ j < n, ∃ k < dofs.length, ∃ l < dofs.length,
      dofs.getD k false = true ∧ dofs.getD l false = true ∧
      w = ((i * dofs.length + k, j * dofs.length + l),
        aux (i * dofs.count true + dofRank dofs k, j * dofs.count true + dofRank dofs l)) := by
  unfold reshapeWrites
  simp only [List.mem_flatMap, List.mem_range]
  constructor
  · rintro ⟨i, hi, j, hj, k, hk, hw⟩
    split_ifs at hw with h
    · simp only [List.mem_flatMap, List.mem_range] at hw
      obtain ⟨l, hl, hw⟩ := hw
      split_ifs at hw with h'
      · simp only [List.mem_singleton] at hw
        exact ⟨i, hi, j, hj, k, hk, l, hl, h, h', hw⟩
      · simp at hw
    · simp at hw
  · rintro ⟨i, hi, j, hj, k, hk, l, hl, h, h', hw⟩
    refine ⟨i, hi, j, hj, k, hk, ?_⟩
    rw [if_pos h]
    simp only [List.mem_flatMap, List.mem_range]
    refine ⟨l, hl, ?_⟩
    rw [if_pos h']
    simpa using hw

theorem divmod_unique {m i j k l : ℕ} (hk : k < m) (hl : l < m) (h : i * m + k = j * m + l) : i = j ∧ k = l := by
  have hm : 0 < m := by omega
  have h1 : (i * m + k) / m = i := by
    rw [mul_comm, Nat.mul_add_div hm, Nat.div_eq_of_lt hk, add_zero]
  have h2 : (j * m + l) / m = j := by
    rw [mul_comm, Nat.mul_add_div hm, Nat.div_eq_of_lt hl, add_zero]
  have : i = j := by rw [← h1, ← h2, h]
  subst this
  exact ⟨rfl, by omega⟩

theorem dofRank_lt {dofs : List Bool} {k : ℕ} (hk : k < dofs.length) (h : dofs.getD k false = true) :
    dofRank dofs k < dofs.count true := by
  have : dofs = dofs.take k ++ dofs[k] :: dofs.drop (k + 1) := by
    rw [List.getElem_cons_drop, List.take_append_drop]
  have h' : dofs[k] = true := by
    rw [List.getD_eq_getElem _ _ hk] at h; exact h
  conv_rhs => rw [this]
  rw [List.count_append, h', List.count_cons_self, dofRank]
  omega

theorem dofRank_surj (dofs : List Bool) {r : ℕ} (hr : r < dofs.count true) :
    ∃ k, k < dofs.length ∧ dofs.getD k false = true ∧ dofRank dofs k = r := by
  induction dofs generalizing r with
  | nil => simp at hr
  | cons b bs ih =>
    cases b with
    | true =>
      rw [List.count_cons_self] at hr
      rcases r with _ | r
      · exact ⟨0, by simp, by simp, by simp [dofRank]⟩
      · obtain ⟨k, hk, h1, h2⟩ := ih (r := r) (by omega)
        refine ⟨k + 1, by simpa using hk, by simpa using h1, ?_⟩
        simpa [dofRank] using h2
    | false =>
      have hr' : r < bs.count true := by simpa using hr
      obtain ⟨k, hk, h1, h2⟩ := ih hr'
      refine ⟨k + 1, by simpa using hk, by simpa using h1, ?_⟩
      simpa [dofRank] using h2

theorem dofRank_mono {dofs : List Bool} {k l : ℕ} (hkl : k < l) (hk : k < dofs.length)
    (h : dofs.getD k false = true) : dofRank dofs k < dofRank dofs l := by
  have e : dofRank dofs k = dofRank (dofs.take l) k := by
    simp [dofRank, List.take_take, min_eq_left hkl.le]
  rw [e]
  have hk' : k < (dofs.take l).length := by simp; omega
  have := dofRank_lt (dofs := dofs.take l) hk' (by
    rw [List.getD_eq_getElem _ _ hk']
    rw [List.getD_eq_getElem _ _ hk] at h
    simpa using h)
  simpa [dofRank] using this

/-! ### Coordinate lists -/

section coo
variable {K : Type*} [Field K] [DecidableEq K]

theorem cooDense_append (es es' : List (Option ℕ × Option ℕ × K)) (i j : ℕ) :
    cooDense (es ++ es') i j = cooDense es i j + cooDense es' i j := by
  simp [cooDense]

theorem sum_flatMap' {α β : Type*} (l : List α) (f : α → List β) (g : β → K) :
    ((l.flatMap f).map g).sum = (l.map fun a => ((f a).map g).sum).sum := by
  induction l with
  | nil => simp
  | cons a l ih => simp [List.flatMap_cons, ih]

theorem cooDense_flatMap {α : Type*} (l : List α) (f : α → List (Option ℕ × Option ℕ × K)) (i j : ℕ) :
    cooDense (l.flatMap f) i j = (l.map fun a => cooDense (f a) i j).sum := by
  simp only [cooDense]
  rw [sum_flatMap']

theorem sum_range_eq_of_unique {N i : ℕ} (hi : i < N) (f : ℕ → K) (h : ∀ k, k ≠ i → f k = 0) :
    ((List.range N).map f).sum = f i := by
  rw [← List.sum_toFinset f List.nodup_range, List.toFinset_range]
  exact Finset.sum_eq_single_of_mem i (Finset.mem_range.mpr hi) (fun k _ hk => h k hk)

theorem cooDense_toCoo {N : ℕ} (g : ℕ → ℕ → K) {i j : ℕ} (hi : i < N) (hj : j < N) :
    cooDense (toCoo N g) i j = g i j := by
  have e : ∀ a b, cooDense (if g a b ≠ 0 then [(some a, some b, g a b)] else []) i j =
      if a = i ∧ b = j then g a b else 0 := by
    intro a b
    by_cases h : g a b = 0
    · simp [h, cooDense]
    · simp [h, cooDense]
  unfold toCoo
  rw [cooDense_flatMap, sum_range_eq_of_unique hi]
  · rw [cooDense_flatMap, sum_range_eq_of_unique hj]
    · rw [e]; simp
    · intro k hk; rw [e, if_neg]; exact fun h => hk h.2
  · intro k hk
    rw [cooDense_flatMap]
    apply List.sum_eq_zero
    intro x hx
    simp only [List.mem_map] at hx
    obtain ⟨b, -, rfl⟩ := hx
    rw [e, if_neg]; exact fun h => hk h.1

theorem cooDense_entries (c : Contribution K) (i j : ℕ) :
    cooDense c.entries i j =
      ∑ p : Fin c.n, ∑ q : Fin c.n, if c.dofs p = some i ∧ c.dofs q = some j then c.mat p q else 0 := by
  have e : ∀ p q, cooDense (if c.mat p q ≠ 0 then [(c.dofs p, c.dofs q, c.mat p q)] else []) i j =
      if c.dofs p = some i ∧ c.dofs q = some j then c.mat p q else 0 := by
    intro p q
    by_cases h : c.mat p q = 0
    · simp [h, cooDense]
    · simp [h, cooDense]
  unfold Contribution.entries
  rw [cooDense_flatMap, ← List.sum_ofFn, ← List.ofFn_eq_map]
  congr 1
  congr 1
  ext p
  rw [cooDense_flatMap, ← List.sum_ofFn, ← List.ofFn_eq_map]
  congr 1
  congr 1
  ext q
  exact e p q

end coo

end Rose
