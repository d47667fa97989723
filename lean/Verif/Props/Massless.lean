/-
Property C104: what removing unknowns without mass does to the static equations.
-/
import Verif.Props.Trim
import Mathlib.Algebra.BigOperators.Group.Finset.Basic

set_option linter.unusedSectionVars false

namespace Rose

section
variable {K : Type*} [Field K] [LinearOrder K] [IsStrictOrderedRing K]

theorem sum_kept (N : ℕ) (rem : List ℕ) (f : ℕ → K) :
    ∑ k ∈ Finset.range (keptIndices N rem).length, f ((keptIndices N rem).getD k 0) =
      ∑ o ∈ Finset.range N, f o - ∑ o ∈ (Finset.range N).filter (· ∈ rem), f o := by
  have h1 : ∀ l : List ℕ, ∑ k ∈ Finset.range l.length, f (l.getD k 0) = (l.map f).sum := by
    intro l
    induction l with
    | nil => simp
    | cons a l ih =>
      rw [List.length_cons, Finset.sum_range_succ', List.map_cons, List.sum_cons, ← ih]
      simp [add_comm]
  rw [h1]
  have h2 : ((keptIndices N rem).map f).sum = ∑ o ∈ (Finset.range N).filter (· ∉ rem), f o := by
    have hnd : (keptIndices N rem).Nodup := List.Nodup.filter _ List.nodup_range
    rw [← List.sum_toFinset _ hnd]
    apply Finset.sum_congr _ fun _ _ => rfl
    ext o
    simp [keptIndices]
  rw [h2, eq_sub_iff_add_eq, add_comm]
  exact Finset.sum_filter_add_sum_filter_not (Finset.range N) (· ∈ rem) f

open Classical in
/-- C104, exact: let `u` be displacements of all unknowns of the assembled system and `u'` the same displacements under
the numbering after trimming. The spring force at a retained dof computed from the trimmed stiffness is the one of the
assembled stiffness minus the forces of the removed unknowns: trimming holds every removed dof at zero. -/
theorem C104_residual (st : TrimState K) {n : ℕ} (hn : n ≤ st.N) (h : OrderedNumbering st.nodes n)
    (hob : ∀ o, n ≤ o → o < st.N → Obsolete st o) (u u' : ℕ → K)
    (hu : ∀ i d k o, equationOf (trimAll st).nodes i d = some k → equationOf st.nodes i d = some o → u' k = u o)
    {i : ℕ} {d : Fin 3} {k o : ℕ} (hk : equationOf (trimAll st).nodes i d = some k)
    (ho : equationOf st.nodes i d = some o) :
    ∑ k' ∈ Finset.range (trimAll st).N, (trimAll st).Kg k k' * u' k' =
      ∑ o' ∈ Finset.range st.N, st.Kg o o' * u o' -
        ∑ o' ∈ (Finset.range st.N).filter (Obsolete st), st.Kg o o' * u o' := by
  set rem := obsoleteIndices st.N st.nodes st.M st.Kg with hrem
  have hN : (trimAll st).N = (keptIndices st.N rem).length := by
    have t2 : (trimAll st).N = 0 + keptCount rem (flatIdx st.nodes) := (recalcNodes_flat rem 0 st.nodes).2.1
    rw [t2, keptCount, keptIndices_eq st hn h rem fun o h1 h2 => (mem_obsoleteIndices st o).2 (hob o h1 h2)]
    simp
  obtain ⟨o1, a1, -, -, a4⟩ := trim_old st hn h hob i d k hk
  rw [ho] at a1
  injection a1 with a1
  subst a1
  have hterm : ∀ k' ∈ Finset.range (trimAll st).N, (trimAll st).Kg k k' * u' k' =
      (fun o' => st.Kg o o' * u o') ((keptIndices st.N rem).getD k' 0) := by
    intro k' hk'
    rw [Finset.mem_range] at hk'
    obtain ⟨p, hp, -⟩ := C09_bijection st k' hk'
    obtain ⟨o', b1, -, -, b4⟩ := trim_old st hn h hob p.1 p.2 k' hp
    rw [hu p.1 p.2 k' o' hp b1]
    show deleteRowsCols st.N rem st.Kg k k' * _ = _
    simp only [deleteRowsCols]
    rw [a4, b4]
  rw [Finset.sum_congr rfl hterm, hN]
  refine (sum_kept st.N rem fun o' => st.Kg o o' * u o').trans ?_
  congr 1
  apply Finset.sum_congr _ fun _ _ => rfl
  ext o'
  simp only [Finset.mem_filter, hrem, mem_obsoleteIndices]

/-- C104: static displacements of the assembled system satisfy the trimmed equation of a retained dof exactly if the
removed unknowns exert no net spring force on it. -/
theorem C104_static_iff (st : TrimState K) (h : OrderedNumbering st.nodes st.N) (u u' : ℕ → K)
    (hu : ∀ i d k o, equationOf (trimAll st).nodes i d = some k → equationOf st.nodes i d = some o → u' k = u o)
    {i : ℕ} {d : Fin 3} {k o : ℕ} (hk : equationOf (trimAll st).nodes i d = some k)
    (ho : equationOf st.nodes i d = some o)
    (hst : ∑ o' ∈ Finset.range st.N, st.Kg o o' * u o' = st.F o) :
    ∑ k' ∈ Finset.range (trimAll st).N, (trimAll st).Kg k k' * u' k' = (trimAll st).F k ↔
      ∑ o' ∈ (Finset.range st.N).filter (fun o' => o' ∈ obsoleteIndices st.N st.nodes st.M st.Kg),
        st.Kg o o' * u o' = 0 := by
  classical
  have hob : ∀ o, st.N ≤ o → o < st.N → Obsolete st o := fun o h1 h2 => absurd h2 (by omega)
  have hF : (trimAll st).F k = st.F o := by
    obtain ⟨o1, o2, a1, -, -, -, -, -, -, a8⟩ := C09_entries st h hk hk
    rw [ho] at a1
    injection a1 with a1
    rw [a8, a1]
  have e : ∑ o' ∈ (Finset.range st.N).filter (fun o' => o' ∈ obsoleteIndices st.N st.nodes st.M st.Kg),
      st.Kg o o' * u o' = ∑ o' ∈ (Finset.range st.N).filter (Obsolete st), st.Kg o o' * u o' := by
    apply Finset.sum_congr _ fun _ _ => rfl
    ext o'
    simp only [Finset.mem_filter, mem_obsoleteIndices]
  rw [C104_residual st (le_refl _) h hob u u' hu hk ho, hst, hF, e]
  constructor
  · intro hh; linear_combination -hh
  · intro hh; rw [hh, sub_zero]

/-- C104, the case in which removal is harmless: every removed unknown has no displacement (supports) or no coupling to
the retained dof. Full claim: a dof without mass may be removed without changing the static displacements. Missing: it
may not if the massless dof is displaced (`C104_violated`). -/
theorem C104_static_partial (st : TrimState K) (h : OrderedNumbering st.nodes st.N) (u u' : ℕ → K)
    (hu : ∀ i d k o, equationOf (trimAll st).nodes i d = some k → equationOf st.nodes i d = some o → u' k = u o)
    {i : ℕ} {d : Fin 3} {k o : ℕ} (hk : equationOf (trimAll st).nodes i d = some k)
    (ho : equationOf st.nodes i d = some o)
    (hst : ∑ o' ∈ Finset.range st.N, st.Kg o o' * u o' = st.F o)
    (hz : ∀ o', Obsolete st o' → u o' = 0 ∨ st.Kg o o' = 0) :
    ∑ k' ∈ Finset.range (trimAll st).N, (trimAll st).Kg k k' * u' k' = (trimAll st).F k := by
  rw [C104_static_iff st h u u' hu hk ho hst]
  apply Finset.sum_eq_zero
  intro o' ho'
  rw [Finset.mem_filter, mem_obsoleteIndices] at ho'
  rcases hz o' ho'.2 with h1 | h1 <;> rw [h1] <;> ring

end

/-- Two soil springs of stiffness 1 in series under a mass: node 0 is fixed, node 1 (between the layers) has no mass,
node 2 carries mass 1 and is loaded by 1 downwards. Only the vertical dofs 1, 4, 7 have stiffness. -/
def springsInSeries : TrimState ℚ :=
  { nodes := (initialiseNdof [⟨fun _ => none, ![true, false, true]⟩, ⟨fun _ => none, fun _ => true⟩,
      ⟨fun _ => none, fun _ => true⟩]).1
    N := 9
    M := fun i j => if i = 7 ∧ j = 7 then 1 else 0
    C := fun _ _ => 0
    Kg := fun i j => if (i, j) ∈ [(1, 1), (7, 7)] then 1 else if (i, j) = (4, 4) then 2
      else if (i, j) ∈ [(1, 4), (4, 1), (4, 7), (7, 4)] then -1 else 0
    F := fun i => if i = 7 then -1 else 0 }

/-- C104 fails for two layers without mass: the assembled system deflects by 2 under the unit load, the only equation
that remains after trimming by 1, because the node between the layers is held in place. -/
theorem C104_violated : OrderedNumbering springsInSeries.nodes springsInSeries.N ∧
    (∃ u : ℕ → ℚ, u 1 = 0 ∧ (∀ o ∈ [0, 2, 3, 4, 5, 6, 7, 8],
      ∑ o' ∈ Finset.range 9, springsInSeries.Kg o o' * u o' = springsInSeries.F o) ∧ u 7 = -2) ∧
    (trimAll springsInSeries).N = 1 ∧ equationOf (trimAll springsInSeries).nodes 2 1 = some 0 ∧
    ∀ u' : ℕ → ℚ, ∑ k' ∈ Finset.range (trimAll springsInSeries).N, (trimAll springsInSeries).Kg 0 k' * u' k' =
      (trimAll springsInSeries).F 0 → u' 0 = -1 := by
  have hN : (trimAll springsInSeries).N = 1 := by decide +kernel
  have hK : (trimAll springsInSeries).Kg 0 0 = 1 := by decide +kernel
  have hF : (trimAll springsInSeries).F 0 = -1 := by decide +kernel
  refine ⟨C09_numbering_ordered _, ⟨fun o => if o = 4 then -1 else if o = 7 then -2 else 0, by simp, ?_, by simp⟩, hN,
    by decide +kernel, ?_⟩
  · decide +kernel
  · intro u' hu
    rw [hN, Finset.sum_range_one, hK, hF] at hu
    linarith

end Rose
