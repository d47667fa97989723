/-
Properties of the calculation: C109 forces do not depend on the history, C110 repeated force updates, C111 initial forces,
C112 schedule of the stages.
-/
import Verif.Model.Calculation
import Verif.Props.System
import Verif.Props.Coupled

set_option linter.unusedSectionVars false

namespace Rose
open Finset

section
variable {K : Type*} [Field K] [LinearOrder K] [IsStrictOrderedRing K]

/-! ### Load objects -/

/-- Specification: the nodal force that the input of a load prescribes for its node `i` at time index `t`. -/
def LoadObject.prescribed (o : LoadObject K) (t i : ℕ) : Fin 3 → K :=
  match o.source with
  | .table f => f i t
  | .moving f => f i t

/-- Specification: the load with its prescribed nodal forces at time index `t`. -/
def LoadObject.loadAt (t : ℕ) (o : LoadObject K) : LoadPart K :=
  { nodes := o.nodes, act := o.act, force := (List.range o.nodes.length).map (o.prescribed t) }

/-- The force vectors have one entry per node, as `initialize` makes them. -/
def LoadObject.Sized (o : LoadObject K) : Prop := o.vector.length = o.nodes.length

theorem set_range {α : Type*} (f : ℕ → α) (n : ℕ) (v : List α) (h : v.length = n) :
    (List.range n).foldl (fun v i => v.set i (f i)) v = (List.range n).map f := by
  have key : ∀ (m : ℕ) (v : List α), (List.range m).foldl (fun v i => v.set i (f i)) v =
      v.mapIdx fun i x => if i < m then f i else x := by
    intro m
    induction m with
    | zero => intro v; apply List.ext_getElem <;> simp
    | succ m ih =>
      intro v
      rw [List.range_succ, List.foldl_append, ih]
      apply List.ext_getElem
      · simp
      · intro i h1 h2
        simp only [List.foldl_cons, List.foldl_nil, List.getElem_set, List.getElem_mapIdx]
        by_cases hi : m = i
        · subst hi; simp
        · have : i < m ↔ i < m + 1 := by omega
          simp only [hi, if_false, this]
  rw [key]
  subst h
  apply List.ext_getElem
  · simp
  · intro i h1 h2
    simp only [List.length_mapIdx] at h1
    simp [h1]

theorem updateForce_part (t : ℕ) (o : LoadObject K) (h : o.Sized) : (o.updateForce t).part = o.loadAt t := by
  unfold LoadObject.updateForce LoadObject.part LoadObject.loadAt LoadObject.prescribed
  cases hs : o.source with
  | table f => simp only [set_range (fun i => f i t) _ _ h]
  | moving f => rfl

theorem updateForce_static (t : ℕ) (o : LoadObject K) (h : o.Sized) :
    (o.updateForce t).Sized ∧ ∀ t', (o.updateForce t).loadAt t' = o.loadAt t' := by
  refine ⟨?_, fun t' => rfl⟩
  unfold LoadObject.Sized LoadObject.updateForce
  cases hs : o.source with
  | table f => simp only [set_range (fun i => f i t) _ _ h]; simp
  | moving f => simp

theorem step_force (t : ℕ) (s : LoadedSystem K) (h : ∀ o ∈ s.loads, o.Sized) :
    (s.step t).F = timeStepRhs (s.loads.map (LoadObject.loadAt t)) := by
  unfold LoadedSystem.step
  simp only [List.map_map]
  congr 1
  apply List.map_congr_left
  intro o ho
  exact updateForce_part t o (h o ho)

theorem step_static (t : ℕ) (s : LoadedSystem K) (h : ∀ o ∈ s.loads, o.Sized) :
    (∀ o ∈ (s.step t).loads, o.Sized) ∧
      ∀ t', (s.step t).loads.map (LoadObject.loadAt t') = s.loads.map (LoadObject.loadAt t') := by
  constructor
  · intro o ho
    simp only [LoadedSystem.step, List.mem_map] at ho
    obtain ⟨p, hp, rfl⟩ := ho
    exact (updateForce_static t p (h p hp)).1
  · intro t'
    simp only [LoadedSystem.step, List.map_map]
    apply List.map_congr_left
    intro o ho
    exact (updateForce_static t o (h o ho)).2 t'

/-! ### C109 -/

theorem writes_congr {ι : Type*} [DecidableEq ι] (a b : ι → K) (ws : List (ι × K)) (p : ι)
    (h : p ∈ ws.map Prod.fst ∨ a p = b p) : writes a ws p = writes b ws p := by
  induction ws generalizing a b with
  | nil => rcases h with h | h <;> simp_all [writes]
  | cons w ws ih =>
    rw [writes_cons, writes_cons]
    apply ih
    simp only [List.map_cons, List.mem_cons] at h
    rcases h with (h | h) | h
    · right; simp [write, h]
    · left; exact h
    · right; simp [write, h]

theorem addAtDofs_congr (F G : ℕ → K) (l : List (ℕ × K)) (i : ℕ) (h : F i = G i) :
    addAtDofs F l i = addAtDofs G l i := by
  unfold addAtDofs
  have key : ∀ (l : List (ℕ × K)) (a b : ℕ → K), a i = b i →
      writes a (l.map fun p => (p.1, F p.1 + p.2)) i = writes b (l.map fun p => (p.1, G p.1 + p.2)) i := by
    intro l
    induction l with
    | nil => intro a b hab; exact hab
    | cons p l ih =>
      intro a b hab
      rw [List.map_cons, List.map_cons, writes_cons, writes_cons]
      apply ih
      by_cases hp : i = p.1
      · subst hp; simp [write, h]
      · simp [write, hp, hab]
  exact key l F G h

theorem contact_keys (d : CoupledData K) (t : ℕ) (u u' : ℕ → K) :
    activeDofs ((d.wheels t).map fun w => (w.contact, -w.force u)) =
      activeDofs ((d.wheels t).map fun w => (w.contact, -w.force u')) := by
  simp [activeDofs, List.flatMap_map]

/-- The effect of iterations: only the track's force at the dofs under the wheels can have changed. -/
theorem iterations_state (d : CoupledData K) (t : ℕ) (us : List (ℕ → K)) (s : CoupledForces K) (u : ℕ → K) :
    let s' := us.foldl (fun s u => (d.iterate t u s).2) s
    s'.F = s.F ∧ s'.track.loads = s.track.loads ∧
      ∀ i, i ∉ activeDofs ((d.wheels t).map fun w => (w.contact, -w.force u)) → s'.track.F i = s.track.F i := by
  induction us generalizing s with
  | nil => exact ⟨rfl, rfl, fun _ _ => rfl⟩
  | cons v vs ih =>
    obtain ⟨h1, h2, h3⟩ := ih (d.iterate t v s).2
    refine ⟨h1, h2, fun i hi => (h3 i hi).trans ?_⟩
    show setWheelLoads s.track.F _ i = _
    unfold setWheelLoads
    apply writes_eq_of_not_mem
    intro w hw he
    apply hi
    rw [contact_keys d t u v, ← wheelLoadWrites_keys]
    exact List.mem_map.mpr ⟨w, hw, he⟩

theorem run_static (d : CoupledData K) (sched : List (ℕ × List (ℕ → K))) (s : CoupledForces K)
    (h : ∀ o ∈ s.track.loads, o.Sized) :
    (∀ o ∈ (d.run s sched).track.loads, o.Sized) ∧
      ∀ t', (d.run s sched).track.loads.map (LoadObject.loadAt t') = s.track.loads.map (LoadObject.loadAt t') := by
  induction sched generalizing s with
  | nil => exact ⟨h, fun _ => rfl⟩
  | cons e es ih =>
    obtain ⟨a1, a2⟩ := step_static e.1 s.track h
    have hl := (iterations_state d e.1 e.2 (d.step e.1 s) (fun _ => 0)).2.1
    have hl' : (e.2.foldl (fun s u => (d.iterate e.1 u s).2) (d.step e.1 s)).track.loads = (s.track.step e.1).loads := hl
    obtain ⟨b1, b2⟩ := ih (e.2.foldl (fun s u => (d.iterate e.1 u s).2) (d.step e.1 s)) (by rw [hl']; exact a1)
    refine ⟨b1, fun t' => (b2 t').trans ?_⟩
    rw [hl', a2]

theorem run_snoc (d : CoupledData K) (sched : List (ℕ × List (ℕ → K))) (t : ℕ) (us : List (ℕ → K))
    (s : CoupledForces K) :
    d.run s (sched ++ [(t, us)]) = us.foldl (fun s u => (d.iterate t u s).2) (d.step t (d.run s sched)) := by
  simp [CoupledData.run, List.foldl_append]

/-- The force vector of an iteration after any history, in terms of the prescribed loads at this time. -/
theorem iterate_eq (d : CoupledData K) (s : CoupledForces K) (h : ∀ o ∈ s.track.loads, o.Sized)
    (sched : List (ℕ × List (ℕ → K))) (t : ℕ) (us : List (ℕ → K)) (u : ℕ → K) (i : ℕ) (hi : i < d.nt + d.nv) :
    (d.iterate t u (d.run s (sched ++ [(t, us)]))).1 i =
      if i < d.nt then
        setWheelLoads (timeStepRhs (s.track.loads.map (LoadObject.loadAt t)))
          ((d.wheels t).map fun w => (w.contact, -w.force u)) i
      else addAtDofs (fun j => d.trainF (j - d.nt)) ((d.wheels t).map fun w => (w.dof, w.force u)) i := by
  rw [run_snoc]
  obtain ⟨r1, r2⟩ := run_static d sched s h
  set s0 := d.run s sched with hs0
  obtain ⟨h1, -, h3⟩ := iterations_state d t us (d.step t s0) u
  set s' := us.foldl (fun s u => (d.iterate t u s).2) (d.step t s0) with hs'
  have hF : (d.step t s0).track.F = timeStepRhs (s.track.loads.map (LoadObject.loadAt t)) := by
    show (s0.track.step t).F = _
    rw [step_force t s0.track r1, r2]
  simp only [CoupledData.iterate, CoupledData.contact, updateContactForces, List.map_map, Function.comp_def]
  by_cases hnt : i < d.nt
  · rw [if_pos hnt, if_pos hnt]
    unfold setWheelLoads
    apply writes_congr
    rw [wheelLoadWrites_keys]
    by_cases hm : i ∈ activeDofs ((d.wheels t).map fun w => (w.contact, -w.force u))
    · exact Or.inl hm
    · right; rw [h3 i hm, hF]
  · rw [if_neg hnt, if_neg hnt]
    apply addAtDofs_congr
    rw [h1]
    show combineRhs d.nt d.nv _ _ _ i = _
    unfold combineRhs
    simp only
    rw [if_pos ⟨by omega, hi⟩]

/-- C109: the force vector that the solver receives for time index `t` and displacements `u` does not depend on the time
steps and iterations before. -/
theorem C109_history (d : CoupledData K) (s : CoupledForces K) (h : ∀ o ∈ s.track.loads, o.Sized)
    (sched sched' : List (ℕ × List (ℕ → K))) (t : ℕ) (us us' : List (ℕ → K)) (u : ℕ → K) (i : ℕ)
    (hi : i < d.nt + d.nv) :
    (d.iterate t u (d.run s (sched ++ [(t, us)]))).1 i = (d.iterate t u (d.run s (sched' ++ [(t, us')]))).1 i := by
  rw [iterate_eq d s h sched t us u i hi, iterate_eq d s h sched' t us' u i hi]

/-- Specification: the force between wheel and rail for displacements `u`: the contact law for the distance between the
wheel, lowered by its static deformation, and the rail, interpolated at the wheel. -/
def contactForceAt (u : ℕ → K) (w : WheelAt K) : K :=
  w.law (u w.dof + w.static - ∑ k, w.contact.shape k * ((w.contact.dofs k).map u).getD 0)

theorem force_eq (u : ℕ → K) (w : WheelAt K) : w.force u = contactForceAt u w := by
  unfold WheelAt.force contactForceAt dispAtWheel
  congr 2
  apply Finset.sum_congr rfl
  intro k _
  cases h : w.contact.dofs k <;> simp [dofDisp, mul_comm]

/-- C109, what it is: a track dof away from the wheels carries the sum of the prescribed loads, a train dof that is no
contact dof the train's own force; if no two wheels share a rail dof and the contact dofs are distinct train dofs, a rail
dof under a wheel carries the share of minus the contact force, and the contact dof of a wheel the train's own force plus
the contact force. -/
theorem C109_forces (d : CoupledData K) (s : CoupledForces K) (h : ∀ o ∈ s.track.loads, o.Sized)
    (hload : ∀ o ∈ s.track.loads, ∀ t, DistinctDofs (o.loadAt t))
    (sched : List (ℕ × List (ℕ → K))) (t : ℕ) (us : List (ℕ → K)) (u : ℕ → K) :
    let F := (d.iterate t u (d.run s (sched ++ [(t, us)]))).1
    (∀ i < d.nt, (∀ w ∈ d.wheels t, ∀ k, w.contact.dofs k ≠ some i) →
      F i = (s.track.loads.map fun o => conditionForce (o.loadAt t) i).sum) ∧
    (∀ i, d.nt ≤ i → i < d.nt + d.nv → (∀ w ∈ d.wheels t, w.dof ≠ i) → F i = d.trainF (i - d.nt)) ∧
    (((d.wheels t).flatMap fun w => [0, 1, 2, (3 : Fin 4)].filterMap w.contact.dofs).Nodup →
      ∀ w ∈ d.wheels t, ∀ k i, w.contact.dofs k = some i → i < d.nt → F i = -(w.contact.shape k * contactForceAt u w)) ∧
    (((d.wheels t).map WheelAt.dof).Nodup → ∀ w ∈ d.wheels t, d.nt ≤ w.dof → w.dof < d.nt + d.nv →
      F w.dof = d.trainF (w.dof - d.nt) + contactForceAt u w) := by
  intro F
  simp only [← force_eq]
  refine ⟨?_, ?_, ?_, ?_⟩
  · intro i hi hw
    rw [show F i = _ from iterate_eq d s h sched t us u i (by omega), if_pos hi]
    unfold setWheelLoads
    rw [writes_eq_of_not_mem]
    · rw [C15_superposition_partial, List.map_map]
      · rfl
      · intro c hc
        rw [List.mem_map] at hc
        obtain ⟨o, ho, rfl⟩ := hc
        exact hload o ho t
    · intro w hwm he
      obtain ⟨w', hw', k, hk, _⟩ := (mem_wheelLoadWrites _ _).1 hwm
      rw [List.mem_map] at hw'
      obtain ⟨w0, hw0, rfl⟩ := hw'
      exact hw w0 hw0 k (by rw [← he]; exact hk)
  · intro i h1 h2 hw
    rw [show F i = _ from iterate_eq d s h sched t us u i h2, if_neg (by omega)]
    unfold addAtDofs
    rw [writes_eq_of_not_mem]
    intro w hwm he
    simp only [List.map_map, List.mem_map, Function.comp] at hwm
    obtain ⟨w0, hw0, rfl⟩ := hwm
    exact hw w0 hw0 he
  · intro hnd w hw k i hk hi
    rw [show F i = _ from iterate_eq d s h sched t us u i (by omega), if_pos hi]
    have hnd' : (activeDofs ((d.wheels t).map fun w => (w.contact, -w.force u))).Nodup := by
      simpa [activeDofs, List.flatMap_map] using hnd
    rw [(C43_written_partial _ _ hnd').1 (w.contact, -w.force u) (List.mem_map.mpr ⟨w, hw, rfl⟩) k i hk]
    ring
  · intro hnd w hw h1 h2
    rw [show F w.dof = _ from iterate_eq d s h sched t us u w.dof h2, if_neg (by omega)]
    unfold addAtDofs
    have hmem : (w.dof, d.trainF (w.dof - d.nt) + w.force u) ∈
        ((d.wheels t).map fun w => (w.dof, w.force u)).map
          fun p => (p.1, (fun j => d.trainF (j - d.nt)) p.1 + p.2) := by
      rw [List.map_map]
      exact List.mem_map.mpr ⟨w, hw, rfl⟩
    apply writes_eq_of_mem
    · intro q hq hqi
      have hnd' : ((((d.wheels t).map fun w => (w.dof, w.force u)).map
          fun p => (p.1, (fun j => d.trainF (j - d.nt)) p.1 + p.2)).map Prod.fst).Nodup := by
        simpa [List.map_map, Function.comp_def] using hnd
      rw [nodup_unique hnd' hq hmem hqi]
    · exact ⟨_, hmem, rfl⟩

/-! ### C110 -/

/-- C110, exact: with distinct contact dofs in the train, the second update of the force vector for the same time and
displacements differs from the first at the contact dof of a wheel by the contact force. -/
theorem C110_second (d : CoupledData K) (t : ℕ) (u : ℕ → K) (s : CoupledForces K)
    (hnd : ((d.wheels t).map WheelAt.dof).Nodup) (w : WheelAt K) (hw : w ∈ d.wheels t) (hdof : d.nt ≤ w.dof) :
    (d.updateForceVector t u (d.updateForceVector t u s).2).1 w.dof =
      (d.updateForceVector t u s).1 w.dof + contactForceAt u w := by
  rw [← force_eq]
  have one : ∀ s : CoupledForces K, (d.updateForceVector t u s).1 w.dof = s.F w.dof + w.force u := by
    intro s
    simp only [CoupledData.updateForceVector, CoupledData.contact, updateContactForces, List.map_map, Function.comp_def]
    rw [if_neg (by omega)]
    unfold addAtDofs
    have hmem : (w.dof, s.F w.dof + w.force u) ∈
        ((d.wheels t).map fun w => (w.dof, w.force u)).map fun p => (p.1, s.F p.1 + p.2) := by
      rw [List.map_map]
      exact List.mem_map.mpr ⟨w, hw, rfl⟩
    apply writes_eq_of_mem
    · intro q hq hqi
      have hnd' : ((((d.wheels t).map fun w => (w.dof, w.force u)).map
          fun p => (p.1, s.F p.1 + p.2)).map Prod.fst).Nodup := by
        simpa [List.map_map, Function.comp_def] using hnd
      rw [nodup_unique hnd' hq hmem hqi]
    · exact ⟨_, hmem, rfl⟩
  rw [one]
  rfl

/-- C110 as far as it holds: the second update changes nothing at the track dofs, and nothing at the contact dof of a
wheel without contact force. Missing: `C110_violated`. -/
theorem C110_partial (d : CoupledData K) (t : ℕ) (u : ℕ → K) (s : CoupledForces K) :
    (∀ i < d.nt, (d.updateForceVector t u (d.updateForceVector t u s).2).1 i = (d.updateForceVector t u s).1 i) ∧
    (((d.wheels t).map WheelAt.dof).Nodup → ∀ w ∈ d.wheels t, d.nt ≤ w.dof → contactForceAt u w = 0 →
      (d.updateForceVector t u (d.updateForceVector t u s).2).1 w.dof = (d.updateForceVector t u s).1 w.dof) := by
  constructor
  · intro i hi
    simp only [CoupledData.updateForceVector, CoupledData.contact, updateContactForces, List.map_map, Function.comp_def]
    rw [if_pos hi, if_pos hi]
    unfold setWheelLoads
    apply writes_congr
    by_cases hm : i ∈ (wheelLoadWrites ((d.wheels t).map fun w => (w.contact, -w.force u))).map Prod.fst
    · exact Or.inl hm
    · right
      apply writes_eq_of_not_mem
      intro w hw he
      exact hm (List.mem_map.mpr ⟨w, hw, he⟩)
  · intro hnd w hw hdof hf
    rw [C110_second d t u s hnd w hw hdof, hf, add_zero]

/-! ### C111 -/

/-- Specification: the loads that are not moving loads. -/
def LoadObject.isTable (o : LoadObject K) : Bool :=
  match o.source with
  | .table _ => true
  | .moving _ => false

theorem conditionForce_zero (nodes : List (Fin 3 → Option ℕ)) (act : Fin 3 → Bool) (n e : ℕ) :
    conditionForce ({ nodes := nodes, act := act, force := List.replicate n fun _ => 0 } : LoadPart K) e = 0 := by
  unfold conditionForce
  apply Finset.sum_eq_zero
  intro i _
  apply Finset.sum_eq_zero
  intro k _
  have : (List.replicate n (fun _ : Fin 3 => (0 : K))).getD i (fun _ => 0) = fun _ => 0 := by
    simp only [List.getD_eq_getElem?_getD, List.getElem?_replicate]
    split_ifs <;> rfl
  simp only [this]
  split_ifs <;> rfl

theorem initial_force (s : LoadedSystem K) (hload : ∀ o ∈ s.loads, ∀ t, DistinctDofs (o.loadAt t)) (e : ℕ) :
    s.initialise.F e = (s.loads.map fun o => if o.isTable then 0 else conditionForce (o.loadAt 0) e).sum := by
  unfold LoadedSystem.initialise
  simp only
  rw [C15_superposition_partial]
  · simp only [List.map_map]
    congr 1
    apply List.map_congr_left
    intro o ho
    obtain ⟨nodes, act, source, vector⟩ := o
    cases source with
    | table f => exact conditionForce_zero _ _ _ _
    | moving f => rfl
  · intro c hc
    simp only [List.map_map, List.mem_map] at hc
    obtain ⟨o, ho, rfl⟩ := hc
    exact hload o ho 0

/-- C111, exact: the force vector of the initial static state carries all loads prescribed for time 0 exactly if the loads
that are not moving loads put no force on this equation at time 0. -/
theorem C111_iff (s : LoadedSystem K) (hload : ∀ o ∈ s.loads, ∀ t, DistinctDofs (o.loadAt t)) (e : ℕ) :
    s.initialise.F e = (s.loads.map fun o => conditionForce (o.loadAt 0) e).sum ↔
      ((s.loads.filter LoadObject.isTable).map fun o => conditionForce (o.loadAt 0) e).sum = 0 := by
  rw [initial_force s hload e]
  have key : ∀ l : List (LoadObject K), (l.map fun o => conditionForce (o.loadAt 0) e).sum =
      (l.map fun o => if o.isTable then 0 else conditionForce (o.loadAt 0) e).sum +
        ((l.filter LoadObject.isTable).map fun o => conditionForce (o.loadAt 0) e).sum := by
    intro l
    induction l with
    | nil => simp
    | cons o l ih =>
      rw [List.map_cons, List.sum_cons, ih, List.map_cons, List.sum_cons, List.filter_cons]
      by_cases ho : o.isTable = true
      · simp [ho]; ring
      · simp [ho]; ring
  rw [key]
  constructor
  · intro h; linear_combination -h
  · intro h; linear_combination -h

/-- C111 as far as it holds: moving loads (the wheels of a train) act in the initial state with their force at time 0, and
so do all loads if the others are zero at time 0. Missing: `C111_violated`. -/
theorem C111_initial_partial (s : LoadedSystem K) (hload : ∀ o ∈ s.loads, ∀ t, DistinctDofs (o.loadAt t))
    (hzero : ∀ o ∈ s.loads, o.isTable = true → ∀ i, o.prescribed 0 i = fun _ => 0) (e : ℕ) :
    s.initialise.F e = (s.loads.map fun o => conditionForce (o.loadAt 0) e).sum := by
  rw [C111_iff s hload e]
  apply List.sum_eq_zero
  intro x hx
  simp only [List.mem_map, List.mem_filter] at hx
  obtain ⟨o, ⟨ho, ht⟩, rfl⟩ := hx
  have : o.loadAt 0 =
      { nodes := o.nodes, act := o.act, force := List.replicate o.nodes.length fun _ => 0 } := by
    unfold LoadObject.loadAt
    congr 1
    apply List.ext_getElem
    · simp
    · intro i h1 h2
      simp [hzero o ho ht]
  rw [this]
  exact conditionForce_zero _ _ _ _

end

/-! ### C112 -/

/-- Specification: the time indices computed by a call from `a` to `b`. -/
def stepsOf (c : ℕ × ℕ) : List ℕ := List.range' (c.1 + 1) (c.2 - c.1)

theorem stageCalls_steps (a : ℕ) (l : List ℕ) (h : (a :: l).Pairwise (· < ·)) :
    (stageCalls (a :: l)).flatMap stepsOf = List.range' (a + 1) ((a :: l).getLast (by simp) - a) := by
  induction l generalizing a with
  | nil => simp [stageCalls]
  | cons b l ih =>
    rw [List.pairwise_cons] at h
    have hab : a < b := h.1 b (by simp)
    have hle : b ≤ (b :: l).getLast (by simp) := by
      rcases l with _ | ⟨c, l⟩
      · simp
      · rw [List.getLast_cons (by simp)]
        have := (List.pairwise_cons.mp h.2).1 _ (List.getLast_mem (by simp : c :: l ≠ []))
        omega
    unfold stageCalls
    rw [List.flatMap_cons, ih b h.2, show (a :: b :: l).getLast (by simp) = (b :: l).getLast (by simp) from List.getLast_cons (by simp)]
    unfold stepsOf
    simp only
    generalize (b :: l).getLast _ = m at hle ⊢
    have e : m - a = (b - a) + (m - b) := by omega
    rw [e, ← List.range'_append_1]
    congr 2
    omega

/-- C112: for every time array with at least two times the stages compute the time indices `1, .., n-1`, each exactly once
and in order, and every stage starts where the one before ended. -/
theorem C112_schedule {K : Type*} [Field K] [DecidableEq K] (rnd : K → K) (time : List K) (h : 2 ≤ time.length) :
    (stageCalls (stageTimeIds rnd time)).flatMap stepsOf = List.range' 1 (time.length - 1) ∧
    (∀ c ∈ stageCalls (stageTimeIds rnd time), c.1 < c.2) ∧
    ∀ k (hk : k + 1 < (stageCalls (stageTimeIds rnd time)).length),
      (stageCalls (stageTimeIds rnd time))[k + 1].1 = (stageCalls (stageTimeIds rnd time))[k].2 := by
  obtain ⟨h1, h2, h3⟩ := C13_contiguous rnd time h
  have hlt : ∀ l : List ℕ, l.Pairwise (· < ·) → ∀ c ∈ stageCalls l, c.1 < c.2 := by
    intro l
    induction l with
    | nil => simp [stageCalls]
    | cons a l ih =>
      intro hp c hc
      rcases l with _ | ⟨b, l⟩
      · simp [stageCalls] at hc
      · rw [List.pairwise_cons] at hp
        simp only [stageCalls, List.mem_cons] at hc
        rcases hc with rfl | hc
        · exact hp.1 b (by simp)
        · exact ih hp.2 c hc
  have hnext : ∀ l : List ℕ, ∀ k (hk : k + 1 < (stageCalls l).length),
      (stageCalls l)[k + 1].1 = (stageCalls l)[k].2 := by
    intro l
    induction l with
    | nil => simp [stageCalls]
    | cons a l ih =>
      intro k hk
      rcases l with _ | ⟨b, l⟩
      · simp [stageCalls] at hk
      · rcases k with _ | k
        · rcases l with _ | ⟨c, l⟩
          · simp [stageCalls] at hk
          · simp [stageCalls]
        · have := ih k (by simpa [stageCalls] using hk)
          simpa [stageCalls] using this
  refine ⟨?_, hlt _ h3, hnext _⟩
  rcases hc : stageTimeIds rnd time with _ | ⟨a, l⟩
  · rw [hc] at h1; simp at h1
  · rw [hc] at h1 h2 h3
    simp at h1
    subst h1
    rw [stageCalls_steps 0 l h3]
    rw [List.getLast?_eq_getLast_of_ne_nil (by simp)] at h2
    injection h2 with h2
    rw [h2]
    simp

/-- C112: if the solver advances one step at a time, the staged calculation gives the same as one calculation over the
whole time array. -/
theorem C112_staged {K S : Type*} [Field K] [DecidableEq K] (rnd : K → K) (time : List K) (h : 2 ≤ time.length)
    (advance : S → ℕ → S) (calculate : S → ℕ → ℕ → S)
    (hcalc : ∀ s a b, calculate s a b = (List.range' (a + 1) (b - a)).foldl advance s) (s : S) :
    runStages calculate (stageTimeIds rnd time) s = calculate s 0 (time.length - 1) := by
  rw [hcalc]
  have := (C112_schedule rnd time h).1
  unfold runStages
  simp only [Nat.zero_add, Nat.sub_zero]
  rw [← this, List.foldl_flatMap]
  congr 1
  funext s c
  exact hcalc s c.1 c.2

/-! ### Examples -/

/-- A track with 4 dofs (one rail element) and a moving and a fixed load, a train with one wheel (dof 4, weight 10); the
contact law is a spring of stiffness 2. -/
def coupledExample : CoupledData ℚ × CoupledForces ℚ :=
  ({ nt := 6, nv := 1, trainF := fun _ => -10,
     wheels := fun _ => [{ dof := 6, contact := ⟨![some 0, some 1, some 2, some 3], ![1/2, 1/8, 1/2, -1/8]⟩, static := -5,
                           law := fun x => -2 * x }] },
   { track := { loads := [{ nodes := [![some 4, some 5, none]], act := ![false, true, false],
                            source := .table fun _ t => ![0, 3 + t, 0], vector := [fun _ => 0] },
                          { nodes := [![none, some 0, some 1], ![none, some 2, some 3]], act := ![false, true, true],
                            source := .moving fun i _ => ![0, -5, if i = 0 then -1 else 1],
                            vector := [fun _ => 0, fun _ => 0] }],
                F := fun _ => 0 },
     F := fun _ => 0 })

example : ∀ o ∈ coupledExample.2.track.loads, o.Sized := by
  intro o ho
  simp only [coupledExample, List.mem_cons, List.not_mem_nil, or_false] at ho
  rcases ho with rfl | rfl <;> rfl

/-- At rest the contact force carries the weight of the wheel; the fixed load at time 1 is 4. -/
example : (List.range 7).map ((coupledExample.1.iterate 1 (fun _ => 0)
    (coupledExample.1.run coupledExample.2 [(0, []), (1, [fun _ => 3, fun _ => 7])])).1) =
      [-5, -5/4, -5, 5/4, 0, 4, 0] := by decide +kernel

/-- C110 fails: updating the force vector twice for the same time and displacements gives different forces on the wheel. -/
theorem C110_violated :
    let d := coupledExample.1
    let s := d.step 0 coupledExample.2
    (d.updateForceVector 0 (fun _ => 0) s).1 6 = 0 ∧
      (d.updateForceVector 0 (fun _ => 0) (d.updateForceVector 0 (fun _ => 0) s).2).1 6 = 10 := by
  decide +kernel

/-- C111 fails: a fixed load of 3 prescribed for time 0 is missing in the initial state; the first evaluation of the right
hand side at time 0 has it. -/
theorem C111_violated :
    let s := coupledExample.2.track
    s.initialise.F 5 = 0 ∧ (s.initialise.step 0).F 5 = 3 ∧ s.initialise.F 0 = -5 ∧ (s.initialise.step 0).F 0 = -5 := by
  decide +kernel

/-- C112 on a time array with two stages. -/
example : stageCalls (stageTimeIds id [0, 1, 2, 4, 6, (8 : ℚ)]) = [(0, 2), (2, 5)] := by decide +kernel

end Rose
