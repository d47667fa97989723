/-
Properties of a whole calculation: C121 the reported results satisfy the principle of virtual work.
-/
import Verif.Spec.Motion
import Verif.Props.GlobalSystem
import Verif.Props.Calculation
import Verif.Props.TrackStands

set_option linter.unusedSectionVars false

namespace Rose
open Finset

section
variable {K : Type*} [Field K] [LinearOrder K] [IsStrictOrderedRing K]

theorem nodeEquations_eq (ns : List DofNode) (i : ℕ) (d : Fin 3) : nodeEquations ns i d = equationOf ns i d := by
  unfold nodeEquations equationOf
  cases ns[i]? <;> rfl

/-! ### The right hand side -/

theorem object_sized (eqn : ℕ → Fin 3 → Option ℕ) (l : TimedLoad K) : (l.object eqn).initialize.Sized := by
  unfold LoadObject.Sized LoadObject.initialize TimedLoad.object
  cases l.source <;> simp

theorem foldl_step (s : LoadedSystem K) (h : ∀ o ∈ s.loads, o.Sized) (asked : List ℕ) :
    (∀ o ∈ (asked.foldl (fun s t => s.step t) s).loads, o.Sized) ∧
      ∀ t, (asked.foldl (fun s t => s.step t) s).loads.map (LoadObject.loadAt t) = s.loads.map (LoadObject.loadAt t) := by
  induction asked generalizing s with
  | nil => exact ⟨h, fun _ => rfl⟩
  | cons a l ih =>
    obtain ⟨h1, h2⟩ := step_static a s h
    obtain ⟨h3, h4⟩ := ih (s.step a) h1
    exact ⟨h3, fun t => (h4 t).trans (h2 t)⟩

theorem rhs_eq (c : SystemRun K) (st : TrimState K) (asked : List ℕ) (t : ℕ) :
    c.rhs st asked t = timeStepRhs ((Spec.loadsAt c.timed t).map (NodalLoad.numbered (nodeEquations st.nodes))) := by
  have hs : ∀ o ∈ (c.loaded st).loads, o.Sized := by
    intro o ho
    simp only [SystemRun.loaded, List.mem_map] at ho
    obtain ⟨l, -, rfl⟩ := ho
    exact object_sized _ l
  obtain ⟨h1, h2⟩ := foldl_step (c.loaded st) hs asked
  unfold SystemRun.rhs
  rw [step_force t _ h1, h2 t]
  congr 1
  simp only [SystemRun.loaded, Spec.loadsAt, List.map_map]
  refine List.map_congr_left fun l _ => ?_
  simp only [Function.comp_apply, LoadObject.loadAt, LoadObject.initialize, TimedLoad.object, NodalLoad.numbered,
    List.length_map]
  congr 1

theorem trimmed_distinct (inp : SystemInput K) (flags : ℕ → Fin 3 → Bool) (st : TrimState K)
    (h : inp.initialise flags = .ok st) (l : NodalLoad K) (hl : l.nodes.Nodup) :
    DistinctDofs (l.numbered (nodeEquations st.nodes)) := by
  obtain ⟨h1, h2, -⟩ := C106_representable inp flags st h
  intro i hi j hj d d' e _ _ g1 g2
  simp only [NodalLoad.numbered, List.length_map] at hi hj
  have g : ∀ k (hk : k < l.nodes.length) (d : Fin 3),
      ((l.numbered (nodeEquations st.nodes)).nodes.getD k fun _ => none) d = equationOf st.nodes l.nodes[k] d := by
    intro k hk d
    rw [← nodeEquations_eq]
    simp [NodalLoad.numbered, List.getD_eq_getElem?_getD, hk]
  rw [g i hi] at g1
  rw [g j hj] at g2
  obtain ⟨p, -, hp⟩ := h1 e (h2 _ _ _ g1).2
  have e1 := (hp (l.nodes[i], d) g1).trans (hp (l.nodes[j], d') g2).symm
  simp only [Prod.mk.injEq] at e1
  exact ⟨(List.Nodup.getElem_inj_iff hl).mp e1.1, e1.2⟩

/-- The right hand side in the numbering after trimming does the work of the loads. -/
theorem trimmed_load_work (inp : SystemInput K) (flags : ℕ → Fin 3 → Bool) (st : TrimState K)
    (h : inp.initialise flags = .ok st) (loads : List (NodalLoad K)) (hnd : ∀ l ∈ loads, l.nodes.Nodup)
    (hin : ∀ l ∈ loads, ∀ m ∈ l.nodes, m < inp.n) (V : ℕ → K) (v : Spec.NodalField K)
    (hv : RepresentsField inp.n st.nodes V v) :
    ∑ k ∈ range st.N, V k * timeStepRhs (loads.map (NodalLoad.numbered (nodeEquations st.nodes))) k =
      Spec.loadWork loads v := by
  obtain ⟨-, h2, -⟩ := C106_representable inp flags st h
  have h1 : ∀ o, timeStepRhs (loads.map (NodalLoad.numbered (nodeEquations st.nodes))) o =
      (loads.map fun l => conditionForce (l.numbered (nodeEquations st.nodes)) o).sum := by
    intro o
    rw [C15_superposition_partial, List.map_map]
    · rfl
    · intro c hc
      rw [List.mem_map] at hc
      obtain ⟨l, hl, rfl⟩ := hc
      exact trimmed_distinct inp flags st h l (hnd l hl)
  simp only [h1]
  unfold Spec.loadWork
  clear h1
  induction loads with
  | nil => simp
  | cons l ls ih =>
    simp only [List.map_cons, List.sum_cons, mul_add, Finset.sum_add_distrib]
    rw [ih (fun x hx => hnd x (List.mem_cons_of_mem _ hx)) (fun x hx => hin x (List.mem_cons_of_mem _ hx))]
    congr 1
    unfold conditionForce
    simp only [NodalLoad.numbered, List.length_map, Finset.mul_sum]
    rw [Finset.sum_comm]
    refine sum_congr rfl fun j hj => ?_
    rw [Finset.sum_comm]
    refine sum_congr rfl fun d _ => ?_
    rw [Finset.mem_range] at hj
    have hm : l.nodes[j] < inp.n := hin l (List.mem_cons_self ..) _ (List.getElem_mem hj)
    have e1 : (((l.nodes.map (nodeEquations st.nodes)).getD j fun _ => none) d) = equationOf st.nodes l.nodes[j] d := by
      rw [← nodeEquations_eq]
      simp [List.getD_eq_getElem?_getD, hj]
    have e2 : l.nodes.getD j 0 = l.nodes[j] := by simp [List.getD_eq_getElem?_getD, hj]
    simp only [e1, e2]
    by_cases ha : l.act d = true
    · cases hk : equationOf st.nodes l.nodes[j] d with
      | none => simp [hv.removed _ hm d hk]
      | some k =>
        rw [Finset.sum_eq_single_of_mem k (by rw [Finset.mem_range]; exact (h2 _ _ _ hk).2)]
        · simp [ha, hv.value _ _ _ hk]
        · intro b _ hb
          rw [if_neg, mul_zero]
          rintro ⟨-, h⟩
          injection h with h
          exact hb h.symm
    · simp [ha]

/-! ### The rows of the nodes -/

theorem mapM_eq_map {α β ε : Type*} (f : α → Except ε β) (g : α → β) (l : List α) (h : ∀ x ∈ l, f x = .ok (g x)) :
    l.mapM f = .ok (l.map g) := by
  induction l with
  | nil => rfl
  | cons a l ih =>
    rw [List.mapM_cons, h a (List.mem_cons_self ..), ih fun x hx => h x (List.mem_cons_of_mem _ hx)]
    rfl

/-- What a node reports of a row of the solver. -/
def reportedRow (u : ℕ → K) (n : DofNode) : Fin 3 → K := fun d => match n.idx d with | some k => u k | none => 0

theorem assignResultRow_eq (inp : SystemInput K) (flags : ℕ → Fin 3 → Bool) (st : TrimState K)
    (h : inp.initialise flags = .ok st) (n : DofNode) (hn : n ∈ st.nodes) (u : ℕ → K) :
    assignResultRow n u = .ok (reportedRow u n) := by
  obtain ⟨stiff, mass, damp, a1, a2, a3, rfl⟩ := initialise_ok inp flags st h
  rw [(damped_nodes inp _).1] at hn
  obtain ⟨row, h1, h2⟩ := C11_results _ n hn u
  rw [h1]
  congr 1
  funext d
  unfold reportedRow
  cases hk : n.idx d with
  | none => exact (h2 d).2 hk
  | some k => exact (h2 d).1 k hk

theorem main_eq (c : SystemRun K) (flags : ℕ → Fin 3 → Bool) (times : ℕ)
    (solver : TrimState K → (List ℕ → ℕ → ℕ → K) → SolverOutput K) (st : TrimState K)
    (h : c.input.initialise flags = .ok st) :
    c.main flags times solver = .ok (st, (List.range times).map fun t => st.nodes.map fun n =>
      ⟨reportedRow ((solver st (c.rhs st)).u t) n, reportedRow ((solver st (c.rhs st)).v t) n,
        reportedRow ((solver st (c.rhs st)).a t) n⟩) := by
  unfold SystemRun.main
  rw [h]
  simp only [bind, Except.bind]
  rw [mapM_eq_map _ (fun t => st.nodes.map fun n => (⟨reportedRow ((solver st (c.rhs st)).u t) n,
    reportedRow ((solver st (c.rhs st)).v t) n, reportedRow ((solver st (c.rhs st)).a t) n⟩ : NodeRow K))]
  intro t _
  refine mapM_eq_map _ _ _ fun n hn => ?_
  unfold nodeRow
  rw [assignResultRow_eq _ _ st h n hn, assignResultRow_eq _ _ st h n hn, assignResultRow_eq _ _ st h n hn]
  rfl

theorem reported_represents (n : ℕ) (nodes : List DofNode) (rows : List (NodeRow K))
    (result : NodeRow K → Fin 3 → K) (U : ℕ → K) (h : rows.map result = nodes.map (reportedRow U)) :
    RepresentsField n nodes U (Spec.fieldOfRows rows result) := by
  have key : ∀ i, Spec.fieldOfRows rows result i = ((nodes[i]?).map (reportedRow U)).getD 0 := by
    intro i
    unfold Spec.fieldOfRows
    rw [← List.getElem?_map, ← List.getElem?_map, h]
  constructor
  · intro i d k hk
    rw [key]
    unfold equationOf at hk
    cases hi : nodes[i]? with
    | none => simp [hi] at hk
    | some m =>
      rw [hi, Option.bind_some] at hk
      simp [reportedRow, hk]
  · intro i hi d hk
    rw [key]
    unfold equationOf at hk
    cases hm : nodes[i]? with
    | none => simp
    | some m =>
      rw [hm, Option.bind_some] at hk
      simp [reportedRow, hk]

theorem nodes_length (inp : SystemInput K) (flags : ℕ → Fin 3 → Bool) (st : TrimState K)
    (h : inp.initialise flags = .ok st) : st.nodes.length = inp.n := by
  obtain ⟨stiff, mass, damp, a1, a2, a3, rfl⟩ := initialise_ok inp flags st h
  rw [(damped_nodes inp _).1]
  show (recalcNodes _ 0 (inp.untrimmed flags stiff mass damp).nodes).1.length = _
  rw [(recalcNodes_flat _ _ _).2.2.1]
  simp [SystemInput.untrimmed, numberedNodes]

/-! ### Virtual work -/

theorem matrixWork_eq (N : ℕ) (g : ℕ → ℕ → K) (V U : ℕ → K) :
    matrixWork N g V U = ∑ i ∈ range N, V i * ∑ j ∈ range N, g i j * U j := by
  unfold matrixWork
  refine sum_congr rfl fun i _ => ?_
  rw [Finset.mul_sum]
  exact sum_congr rfl fun j _ => by ring

/-- The parts of a calculation are only on nodes of the mesh, and no load lists a node twice. -/
structure SystemRun.WellFormed (c : SystemRun K) : Prop where
  mesh : Spec.NodesInMesh c.system
  nodup : ∀ l ∈ c.timed, l.nodes.Nodup
  loads : ∀ l ∈ c.timed, ∀ m ∈ l.nodes, m < c.system.n

theorem rhs_work (c : SystemRun K) (hc : c.WellFormed) (flags : ℕ → Fin 3 → Bool) (st : TrimState K)
    (h : c.input.initialise flags = .ok st) (asked : List ℕ) (t : ℕ) (V : ℕ → K) (v : Spec.NodalField K)
    (hv : RepresentsField c.system.n st.nodes V v) :
    ∑ k ∈ range st.N, V k * c.rhs st asked t k = Spec.loadWork (Spec.loadsAt c.timed t) v := by
  simp only [rhs_eq]
  refine trimmed_load_work c.input flags st h _ ?_ ?_ V v hv
  · intro l hl
    simp only [Spec.loadsAt, List.mem_map] at hl
    obtain ⟨o, ho, rfl⟩ := hl
    exact hc.nodup o ho
  · intro l hl
    simp only [Spec.loadsAt, List.mem_map] at hl
    obtain ⟨o, ho, rfl⟩ := hl
    exact hc.loads o ho

theorem admissible_represents (c : SystemRun K) (hc : Spec.NodesInMesh c.system) (ha : Spec.AxisAligned c.system) (st : TrimState K)
    (h : c.input.initialise freshFlags = .ok st) (v : Spec.NodalField K) (hv : Spec.Admissible c.system v) :
    ∃ V, RepresentsField c.system.n st.nodes V v := by
  refine (C106_representable c.input freshFlags st h).2.2 v fun i hi d hn => hv i hi d ?_
  exact (C106_unknowns_partial c.input hc ha st h i hi d).mp hn

theorem represents_admissible (c : SystemRun K) (hc : Spec.NodesInMesh c.system) (ha : Spec.AxisAligned c.system) (st : TrimState K)
    (h : c.input.initialise freshFlags = .ok st) (U : ℕ → K) (u : Spec.NodalField K)
    (hu : RepresentsField c.system.n st.nodes U u) : Spec.Admissible c.system u := fun i hi d hr =>
  hu.removed i hi d ((C106_unknowns_partial c.input hc ha st h i hi d).mpr hr)

/-- **C121** A calculation on a new mesh of horizontal elements and vertical rods succeeds and gives every node a row of
results for every output index. If the solver satisfies the equations of motion it is given, the reported displacements,
velocities and accelerations respect all supports, and in every admissible virtual displacement the inertia, damping
and stiffness forces of all parts do the work of the loads of this time. Missing: structures with inclined elements, for
which it fails (`C121_violated`). -/
theorem C121_motion_partial (c : SystemRun K) (hc : c.WellFormed) (ha : Spec.AxisAligned c.system) (times : ℕ)
    (solver : TrimState K → (List ℕ → ℕ → ℕ → K) → SolverOutput K)
    (hs : ∀ st, c.input.initialise freshFlags = .ok st → Spec.SolvesMotion st (c.rhs st) times (solver st (c.rhs st))) :
    ∃ st rows, c.main freshFlags times solver = .ok (st, rows) ∧ rows.length = times ∧
      ∀ t (ht : t < rows.length),
        rows[t].length = c.system.n ∧
        Spec.Admissible c.system (Spec.fieldOfRows rows[t] NodeRow.displacement) ∧
        Spec.Admissible c.system (Spec.fieldOfRows rows[t] NodeRow.velocity) ∧
        Spec.Admissible c.system (Spec.fieldOfRows rows[t] NodeRow.acceleration) ∧
        ∀ v, Spec.Admissible c.system v →
          Spec.systemWork AssemblyPart.mass c.system.parts v (Spec.fieldOfRows rows[t] NodeRow.acceleration) +
          (Spec.systemWork AssemblyPart.damping c.system.parts v (Spec.fieldOfRows rows[t] NodeRow.velocity) +
            Spec.rayleighWork c.system v (Spec.fieldOfRows rows[t] NodeRow.velocity)) +
          Spec.systemWork AssemblyPart.stiffness c.system.parts v (Spec.fieldOfRows rows[t] NodeRow.displacement) =
            Spec.loadWork (Spec.loadsAt c.timed t) v := by
  obtain ⟨st, hst⟩ := C106_succeeds c.input hc.mesh freshFlags
  refine ⟨st, _, main_eq c freshFlags times solver st hst, by simp, fun t ht => ?_⟩
  have ht' : t < times := by simpa using ht
  simp only [List.getElem_map, List.getElem_range]
  set out := solver st (c.rhs st) with hout
  set row := st.nodes.map fun n =>
      (⟨reportedRow (out.u t) n, reportedRow (out.v t) n, reportedRow (out.a t) n⟩ : NodeRow K) with hrow
  have ru : RepresentsField c.system.n st.nodes (out.u t) (Spec.fieldOfRows row NodeRow.displacement) :=
    reported_represents _ _ _ _ _ (by rw [hrow, List.map_map]; rfl)
  have rv : RepresentsField c.system.n st.nodes (out.v t) (Spec.fieldOfRows row NodeRow.velocity) :=
    reported_represents _ _ _ _ _ (by rw [hrow, List.map_map]; rfl)
  have ra : RepresentsField c.system.n st.nodes (out.a t) (Spec.fieldOfRows row NodeRow.acceleration) :=
    reported_represents _ _ _ _ _ (by rw [hrow, List.map_map]; rfl)
  refine ⟨by rw [hrow, List.length_map]; exact nodes_length c.input _ st hst, represents_admissible c hc.mesh ha st hst _ _ ru,
    represents_admissible c hc.mesh ha st hst _ _ rv, represents_admissible c hc.mesh ha st hst _ _ ra, fun v hv => ?_⟩
  obtain ⟨V, hV⟩ := admissible_represents c hc.mesh ha st hst v hv
  obtain ⟨asked, heq⟩ := hs st hst t ht'
  have wa := (C106_work_partial c.input freshFlags hc.mesh ha st hst V _ v _ hV ra).2.1
  obtain ⟨wvk, wvm, wv⟩ := C106_work_partial c.input freshFlags hc.mesh ha st hst V _ v _ hV rv
  have wu := (C106_work_partial c.input freshFlags hc.mesh ha st hst V _ v _ hV ru).1
  rw [wvk, wvm] at wv
  have hR : (rayleighPair c.input).1 * Spec.systemWork AssemblyPart.mass c.input.parts v (Spec.fieldOfRows row NodeRow.velocity) +
      (rayleighPair c.input).2 * Spec.systemWork AssemblyPart.stiffness c.input.parts v
        (Spec.fieldOfRows row NodeRow.velocity) = Spec.rayleighWork c.system v (Spec.fieldOfRows row NodeRow.velocity) := by
    unfold rayleighPair Spec.rayleighWork
    show (if c.system.isRayleigh = true then _ else _ : K × K).1 * _ + (if c.system.isRayleigh = true then _ else _ : K × K).2 * _ = _
    split_ifs
    · rfl
    · simp
  rw [add_assoc, hR] at wv
  show Spec.systemWork AssemblyPart.mass c.input.parts v _ + (Spec.systemWork AssemblyPart.damping c.input.parts v _ + _) +
    Spec.systemWork AssemblyPart.stiffness c.input.parts v _ = _
  rw [← wa, ← wv, ← wu, ← rhs_work c hc freshFlags st hst asked t V v hV, matrixWork_eq, matrixWork_eq, matrixWork_eq,
    ← Finset.sum_add_distrib, ← Finset.sum_add_distrib]
  refine sum_congr rfl fun i hi => ?_
  rw [← heq i (Finset.mem_range.mp hi), Finset.sum_add_distrib, Finset.sum_add_distrib]
  ring

/-- **C121** The same for statics: with a solver that satisfies the equilibrium equations the reported displacements respect
all supports, and in every admissible virtual displacement the parts do the work of the loads. If no admissible
displacement other than zero is free of energy, there is no other such field. -/
theorem C121_static_partial (c : SystemRun K) (hc : c.WellFormed) (ha : Spec.AxisAligned c.system) (times : ℕ)
    (solver : TrimState K → (List ℕ → ℕ → ℕ → K) → SolverOutput K)
    (hs : ∀ st, c.input.initialise freshFlags = .ok st → Spec.SolvesStatics st (c.rhs st) times (solver st (c.rhs st))) :
    ∃ st rows, c.main freshFlags times solver = .ok (st, rows) ∧ rows.length = times ∧
      ∀ t (ht : t < rows.length),
        rows[t].length = c.system.n ∧
        Spec.Admissible c.system (Spec.fieldOfRows rows[t] NodeRow.displacement) ∧
        (∀ v, Spec.Admissible c.system v →
          Spec.systemWork AssemblyPart.stiffness c.system.parts v (Spec.fieldOfRows rows[t] NodeRow.displacement) =
            Spec.loadWork (Spec.loadsAt c.timed t) v) ∧
        ((∀ w, Spec.Admissible c.system w → Spec.systemWork AssemblyPart.stiffness c.system.parts w w = 0 →
            ∀ i < c.system.n, w i = 0) →
          ∀ w, Spec.Admissible c.system w →
            (∀ v, Spec.Admissible c.system v →
              Spec.systemWork AssemblyPart.stiffness c.system.parts v w = Spec.loadWork (Spec.loadsAt c.timed t) v) →
            ∀ i < c.system.n, w i = Spec.fieldOfRows rows[t] NodeRow.displacement i) := by
  obtain ⟨st, hst⟩ := C106_succeeds c.input hc.mesh freshFlags
  refine ⟨st, _, main_eq c freshFlags times solver st hst, by simp, fun t ht => ?_⟩
  have ht' : t < times := by simpa using ht
  simp only [List.getElem_map, List.getElem_range]
  set out := solver st (c.rhs st) with hout
  set row := st.nodes.map fun n =>
      (⟨reportedRow (out.u t) n, reportedRow (out.v t) n, reportedRow (out.a t) n⟩ : NodeRow K) with hrow
  have ru : RepresentsField c.system.n st.nodes (out.u t) (Spec.fieldOfRows row NodeRow.displacement) :=
    reported_represents _ _ _ _ _ (by rw [hrow, List.map_map]; rfl)
  refine ⟨by rw [hrow, List.length_map]; exact nodes_length c.input _ st hst, represents_admissible c hc.mesh ha st hst _ _ ru,
    ?_⟩
  have hwork : ∀ v, Spec.Admissible c.system v →
      Spec.systemWork AssemblyPart.stiffness c.system.parts v (Spec.fieldOfRows row NodeRow.displacement) =
        Spec.loadWork (Spec.loadsAt c.timed t) v := ?_
  · refine ⟨hwork, fun hd w hw hvw i hi => ?_⟩
    obtain ⟨W, hW⟩ := admissible_represents c hc.mesh ha st hst w hw
    have hD : RepresentsField c.system.n st.nodes (fun k => W k - out.u t k)
        (fun i d => w i d - Spec.fieldOfRows row NodeRow.displacement i d) :=
      ⟨fun i d k hk => by rw [hW.value i d k hk, ru.value i d k hk],
        fun i hi d hk => by rw [hW.removed i hi d hk, ru.removed i hi d hk, sub_zero]⟩
    have hDa := represents_admissible c hc.mesh ha st hst _ _ hD
    have e1 := (C106_work_partial c.input freshFlags hc.mesh ha st hst _ _ _ _ hD hW).1
    have e2 := (C106_work_partial c.input freshFlags hc.mesh ha st hst _ _ _ _ hD ru).1
    have e3 := (C106_work_partial c.input freshFlags hc.mesh ha st hst _ _ _ _ hD hD).1
    have e4 : matrixWork st.N st.Kg (fun k => W k - out.u t k) (fun k => W k - out.u t k) =
        matrixWork st.N st.Kg (fun k => W k - out.u t k) W - matrixWork st.N st.Kg (fun k => W k - out.u t k) (out.u t) := by
      unfold matrixWork
      rw [← Finset.sum_sub_distrib]
      refine sum_congr rfl fun i _ => ?_
      rw [← Finset.sum_sub_distrib]
      exact sum_congr rfl fun j _ => by ring
    have e5 := hd _ hDa (by
      show Spec.systemWork AssemblyPart.stiffness c.input.parts _ _ = 0
      rw [← e3, e4, e1, e2]
      exact sub_eq_zero.mpr ((hvw _ hDa).trans (hwork _ hDa).symm)) i hi
    funext d
    exact sub_eq_zero.mp (congrFun e5 d)
  intro v hv
  obtain ⟨V, hV⟩ := admissible_represents c hc.mesh ha st hst v hv
  obtain ⟨asked, heq⟩ := hs st hst t ht'
  have wu := (C106_work_partial c.input freshFlags hc.mesh ha st hst V _ v _ hV ru).1
  show Spec.systemWork AssemblyPart.stiffness c.input.parts v _ = _
  rw [← wu, ← rhs_work c hc freshFlags st hst asked t V v hV, matrixWork_eq]
  exact sum_congr rfl fun i hi => by rw [← heq i (Finset.mem_range.mp hi)]

end

/-- **C121** For every generated track with at least two sleepers on its boundaries and any loads over time: with a solver
that satisfies the equilibrium equations, the displacements reported at every output index are the one admissible field
that is in equilibrium with the loads of this index. -/
theorem C121_track {H : Type*} [DecidableEq H] (hash : (Fin 3 → ℝ) → H) (n r : ℕ) (hn : 2 ≤ n) (hr : 0 < r) (d h : ℝ)
    (hd : 1 / 1000000000 < d / r) (hh : 1 / 1000000000 < h) (track : HorizontalTrack ℝ)
    (ht : createHorizontalTrack hash n r d h = .ok track) (v : TrackValues) (hv : v.Valid) (inp : SystemInput ℝ)
    (hinp : track.system v true = .ok inp) (loads : List (TimedLoad ℝ)) (hnd : ∀ l ∈ loads, l.nodes.Nodup)
    (hin : ∀ l ∈ loads, ∀ m ∈ l.nodes, m < inp.n) (times : ℕ)
    (solver : TrimState ℝ → (List ℕ → ℕ → ℕ → ℝ) → SolverOutput ℝ)
    (hs : ∀ st rhs, (∃ u, Spec.SolvesStatics st rhs times u) → Spec.SolvesStatics st rhs times (solver st rhs)) :
    ∃ st rows, SystemRun.main ⟨inp, loads⟩ freshFlags times solver = .ok (st, rows) ∧ rows.length = times ∧
      ∀ t (ht : t < rows.length) (u : Spec.NodalField ℝ),
        (Spec.Admissible inp u ∧ ∀ w, Spec.Admissible inp w →
          Spec.systemWork AssemblyPart.stiffness inp.parts w u = Spec.loadWork (Spec.loadsAt loads t) w) ↔
        ∀ i < inp.n, u i = Spec.fieldOfRows rows[t] NodeRow.displacement i := by
  have g : Generated hash n r d h track := ⟨by nlinarith, hd, hh, ht⟩
  rw [g.system v true] at hinp
  injection hinp with hinp
  subst hinp
  set c : SystemRun ℝ := ⟨generatedInput track n r d v true, loads⟩ with hcdef
  have hinput : c.input = generatedInput track n r d { v with loads := loads.map TimedLoad.initial } true := rfl
  have hv' : TrackValues.Valid { v with loads := loads.map TimedLoad.initial } :=
    ⟨hv.E, hv.nu, hv.rho, hv.A, hv.I, hv.kappa, hv.s1, hv.s2, hv.pad, hv.soil⟩
  have hc : c.WellFormed := ⟨g.mesh v true, hnd, hin⟩
  have ha : Spec.AxisAligned c.system := g.aligned v true
  have hdef := fun st hst => (g.standing hn _ hv' true).definite (g.held _) freshFlags st hst
  have hdef' : ∀ w, Spec.Admissible c.system w → Spec.systemWork AssemblyPart.stiffness c.system.parts w w = 0 →
      ∀ i < c.system.n, w i = 0 := by
    intro w hw h0 i hi
    obtain ⟨st, hst⟩ := C106_succeeds c.input hc.mesh freshFlags
    obtain ⟨W, hW⟩ := admissible_represents c hc.mesh ha st hst w hw
    have e := (C106_work_partial c.input freshFlags hc.mesh ha st hst W W w w hW hW).1
    have hz := (hdef st hst W).2 (e.trans h0)
    funext b
    cases hk : equationOf st.nodes i b with
    | none => exact hW.removed i hi b hk
    | some k =>
      rw [← hW.value i b k hk]
      exact hz k ((C106_representable c.input freshFlags st hst).2.1 i b k hk).2
  obtain ⟨st, rows, h1, h2, h3⟩ := C121_static_partial c hc ha times solver fun st hst => by
    apply hs
    have hsol := solvable_of_definite st.N st.Kg fun U => (hdef st hst U).2
    choose U hU _ using hsol
    exact ⟨⟨fun t => U (c.rhs st [] t), fun _ _ => 0, fun _ _ => 0⟩, fun t _ => ⟨[], fun i hi => hU _ i hi⟩⟩
  refine ⟨st, rows, h1, h2, fun t ht u => ?_⟩
  obtain ⟨-, g1, g2, g3⟩ := h3 t ht
  constructor
  · rintro ⟨hu, hw⟩
    exact g3 hdef' u hu hw
  · intro hu
    have hst : c.input.initialise freshFlags = .ok st := by
      unfold SystemRun.main at h1
      cases hi : c.input.initialise freshFlags with
      | error e => rw [hi] at h1; cases h1
      | ok st' =>
        have := main_eq c freshFlags times solver st' hi
        unfold SystemRun.main at this
        rw [this] at h1
        injection h1 with h1
        rw [(Prod.mk.inj h1).1]
    have hadm : Spec.Admissible c.system u := fun i hi b hrem => by
      rw [hu i hi]; exact g1 i hi b hrem
    refine ⟨hadm, fun w hw => ?_⟩
    rw [← g2 w hw]
    obtain ⟨W, hW⟩ := admissible_represents c hc.mesh ha st hst w hw
    obtain ⟨A, hA⟩ := admissible_represents c hc.mesh ha st hst _ g1
    have hA' : RepresentsField c.system.n st.nodes A u :=
      ⟨fun i b k hk => by
        rw [hA.value i b k hk, hu i ((C106_representable c.input freshFlags st hst).2.1 i b k hk).1],
        fun i hi b hk => by rw [hu i hi]; exact hA.removed i hi b hk⟩
    exact ((C106_work_partial c.input freshFlags hc.mesh ha st hst W A w _ hW hA').1).symm.trans
      (C106_work_partial c.input freshFlags hc.mesh ha st hst W A w _ hW hA).1

/-! ### Examples -/

/-- The inclined spring of `C106_violated` with a constant force `(3, -4)` on node 1. -/
def inclinedRun : SystemRun ℚ :=
  { system := springExample (3 / 5) (4 / 5)
    timed := [{ nodes := [1], act := ![true, true, false], source := .table fun _ _ => ![3, -4, 0] }] }

/-- C121 fails for inclined elements: a node on a spring of slope 4:3 and a force at an angle to it. The solver satisfies the
equations it is given, but in a virtual displacement at right angles to the spring the reported field does no work although
the load does. -/
theorem C121_violated : ∃ out : SolverOutput ℚ,
    (∀ st, inclinedRun.input.initialise freshFlags = .ok st → Spec.SolvesStatics st (inclinedRun.rhs st) 1 out) ∧
    ∃ st rows, inclinedRun.main freshFlags 1 (fun _ _ => out) = .ok (st, rows) ∧
      ∃ v, Spec.Admissible inclinedRun.system v ∧ ∀ row ∈ rows,
        Spec.systemWork AssemblyPart.stiffness inclinedRun.system.parts v (Spec.fieldOfRows row NodeRow.displacement) ≠
          Spec.loadWork (Spec.loadsAt inclinedRun.timed 0) v := by
  refine ⟨⟨fun _ k => if k = 0 then 3 / 5 else -4 / 5, fun _ _ => 0, fun _ _ => 0⟩, ?_, ?_⟩
  · intro st hst t ht
    obtain rfl : t = 0 := (by omega)
    refine ⟨[], ?_⟩
    have h1 : (inclinedRun.input.initialise freshFlags).map (fun st => st.N) = .ok 2 := by decide +kernel
    have h2 : (inclinedRun.input.initialise freshFlags).map (fun st => [st.Kg 0 0, st.Kg 0 1, st.Kg 1 0, st.Kg 1 1,
        inclinedRun.rhs st [] 0 0, inclinedRun.rhs st [] 0 1]) = .ok [9 / 5, -12 / 5, -12 / 5, 16 / 5, 3, -4] := by
      decide +kernel
    rw [hst] at h1 h2
    simp only [Except.map, Except.ok.injEq, List.cons.injEq, and_true] at h1 h2
    obtain ⟨k1, k2, k3, k4, f1, f2⟩ := h2
    rw [h1]
    intro i hi
    interval_cases i
    · simp [Finset.sum_range_succ, k1, k2, f1]; norm_num
    · simp [Finset.sum_range_succ, k3, k4, f2]; norm_num
  · have hmesh : Spec.NodesInMesh inclinedRun.input := by
      simp [inclinedRun, SystemRun.input, springExample, Spec.NodesInMesh]
      omega
    obtain ⟨st, hst⟩ := C106_succeeds inclinedRun.input hmesh freshFlags
    refine ⟨st, _, main_eq inclinedRun freshFlags 1 _ st hst, fun i => if i = 1 then ![-4 / 5, 3 / 5, 0] else 0, ?_, ?_⟩
    · have hm : ∀ d : Fin 3, d ≠ 2 → ¬ Spec.Removed inclinedRun.system 1 d := by
        intro d hd
        rintro (⟨before, p, after, he, hp, -, -⟩ | hr | hr)
        · have : p ∈ inclinedRun.system.constraints := by rw [he]; simp
          simp only [inclinedRun, springExample, List.mem_singleton] at this
          subst this
          simp at hp
        · revert hr; revert d; decide +kernel
        · revert hr; revert d; decide +kernel
      intro i hi d hr
      change i < 2 at hi
      interval_cases i
      · rfl
      · by_cases hd : d = 2
        · subst hd; rfl
        · exact absurd hr (hm d hd)
    · intro row hrow
      simp only [List.range_one, List.map_cons, List.map_nil, List.mem_singleton] at hrow
      subst hrow
      have h3 : (inclinedRun.input.initialise freshFlags).map (fun st =>
          Spec.systemWork AssemblyPart.stiffness inclinedRun.system.parts
            (fun i => if i = 1 then ![-4 / 5, 3 / 5, 0] else 0)
            (Spec.fieldOfRows (st.nodes.map fun n => (⟨reportedRow (fun k => if k = 0 then 3 / 5 else -4 / 5) n,
              reportedRow (fun _ => 0) n, reportedRow (fun _ => 0) n⟩ : NodeRow ℚ)) NodeRow.displacement)) = .ok 0 := by
        decide +kernel
      rw [hst] at h3
      simp only [Except.map, Except.ok.injEq] at h3
      have h4 : Spec.loadWork (Spec.loadsAt inclinedRun.timed 0) (fun i => if i = 1 then ![-4 / 5, 3 / 5, 0] else 0) =
          -24 / 5 := by decide +kernel
      rw [h4]
      intro hc
      have h5 := h3.symm.trans hc
      norm_num at h5

/-- A loaded track for `C121_track`: a sleeper spacing of 0.6 m, six sleepers with two rail elements each, a load that grows
with time on the third node of the mesh. A correct solver exists by `C115_static`. -/
example : ∃ track, createHorizontalTrack (fun p : Fin 3 → ℝ => p) 6 2 (3 / 5) 1 = .ok track ∧
    ∃ inp, track.system exampleTrack true = .ok inp ∧
      (∀ l ∈ [(⟨[2], ![false, true, false], .table fun _ t => ![0, -1000 * t, 0]⟩ : TimedLoad ℝ)],
        l.nodes.Nodup ∧ ∀ m ∈ l.nodes, m < inp.n) ∧
      ∃ solver : TrimState ℝ → (List ℕ → ℕ → ℕ → ℝ) → SolverOutput ℝ, ∀ st rhs,
        (∃ u, Spec.SolvesStatics st rhs 10 u) → Spec.SolvesStatics st rhs 10 (solver st rhs) := by
  obtain ⟨track, ht, -⟩ := C48_structure (fun p : Fin 3 → ℝ => p) 6 2 (by norm_num) (3 / 5) 1
  have g : Generated (fun p : Fin 3 → ℝ => p) 6 2 (3 / 5) 1 track := ⟨by norm_num, by norm_num, by norm_num, ht⟩
  refine ⟨track, ht, _, g.system exampleTrack true, ?_, ?_⟩
  · intro l hl
    rw [List.mem_singleton] at hl
    subst hl
    refine ⟨by simp, fun m hm => ?_⟩
    simp only [List.mem_singleton] at hm
    subst hm
    show 2 < 6 * 2 + 6 + 6
    norm_num
  · classical
    refine ⟨fun st rhs => if h : ∃ u, Spec.SolvesStatics st rhs 10 u then h.choose else ⟨fun _ _ => 0, fun _ _ => 0, fun _ _ => 0⟩,
      fun st rhs h => ?_⟩
    simp only [h, dif_pos]
    exact h.choose_spec

/-- The hypotheses of `C121_motion_partial`: a vertical spring with a mass and a damper, a force of `7` in y; at every index
the displacement is 1 and the acceleration 2. -/
example : let c : SystemRun ℚ := ⟨springExample 0 1, [⟨[1], ![false, true, false], .table fun _ _ => ![0, 7, 0]⟩]⟩
    c.WellFormed ∧ Spec.AxisAligned c.system ∧
      ∀ st, c.input.initialise freshFlags = .ok st →
        Spec.SolvesMotion st (c.rhs st) 4 ⟨fun _ _ => 1, fun _ _ => 0, fun _ _ => 2⟩ := by
  intro c
  refine ⟨⟨?_, ?_, ?_⟩, ?_, ?_⟩
  · simp [c, springExample, Spec.NodesInMesh]
    omega
  · simp [c]
  · simp [c, springExample]
  · intro p hp e he
    simp [c, springExample] at hp
    rcases hp with rfl | rfl | rfl <;> simp_all
  · intro st hst t ht
    refine ⟨[0], ?_⟩
    have h1 : (c.input.initialise freshFlags).map (fun st => st.N) = .ok 1 := by decide +kernel
    have h2 : ∀ t < 4, (c.input.initialise freshFlags).map (fun st => [st.Kg 0 0, st.M 0 0, c.rhs st [0] t 0]) =
        .ok [5, 1, 7] := by decide +kernel
    have h3 := h2 t ht
    rw [hst] at h1 h3
    simp only [Except.map, Except.ok.injEq, List.cons.injEq, and_true] at h1 h3
    obtain ⟨k1, k2, k3⟩ := h3
    rw [h1]
    intro i hi
    interval_cases i
    simp [k1, k2, k3]
    norm_num

end Rose
