/-
C166: a calculation in stages.
-/
import Verif.Model.StagedRun
import Verif.Spec.StagedRun
import Verif.Props.Calculation
import Verif.Props.CoupledRun
import Verif.Props.CoupledBodies

set_option linter.unusedSectionVars false

namespace Rose
open Finset

section
variable {K : Type*} [Field K] [LinearOrder K] [IsStrictOrderedRing K] {E X : Type*}

theorem SystemRun.mainStaged_eq (c : SystemRun K) (flags : ℕ → Fin 3 → Bool) (rnd : K → K) (time : List K)
    (s : StageSolver K ℕ (ℕ → ℕ → K)) (h : 2 ≤ time.length) :
    c.mainStaged flags rnd time s = c.main flags time.length (s.run (stageTimeIds rnd time)) := by
  have hne : stageCalls (stageTimeIds rnd time) ≠ [] := by
    intro h0
    have := (C112_schedule rnd time h).1
    rw [h0] at this
    have := congrArg List.length this
    simp at this
    omega
  unfold SystemRun.mainStaged SystemRun.main StageSolver.run
  simp only [if_neg hne]

theorem CoupledRun.mainStaged_eq {H : Type*} [DecidableEq H] (hash : (Fin 3 → K) → H) (c : CoupledRun K) (flags : ℕ → Fin 3 → Bool)
    (rnd : K → K) (time : List K) (s : StageSolver K (ℕ × List (ℕ → K)) (List (ℕ → K) → ℕ → (ℕ → K) → ℕ → K)) (h : 2 ≤ time.length) :
    c.mainStaged hash flags rnd time s = c.main hash flags time.length (s.run (stageTimeIds rnd time)) := by
  have hne : stageCalls (stageTimeIds rnd time) ≠ [] := by
    intro h0
    have := (C112_schedule rnd time h).1
    rw [h0] at this
    have := congrArg List.length this
    simp at this
    omega
  unfold CoupledRun.mainStaged CoupledRun.main StageSolver.run
  simp only [if_neg hne]

theorem stageCalls_mem (ids : List ℕ) : ∀ c ∈ stageCalls ids, ∃ k, ∃ hk : k + 1 < ids.length, ids[k] = c.1 ∧ ids[k + 1] = c.2 := by
  induction ids with
  | nil => simp [stageCalls]
  | cons a l ih =>
    rcases l with _ | ⟨b, l⟩
    · simp [stageCalls]
    · intro c hc
      simp only [stageCalls, List.mem_cons] at hc
      rcases hc with rfl | hc
      · exact ⟨0, by simp, rfl, rfl⟩
      · obtain ⟨k, hk, h1, h2⟩ := ih c hc
        exact ⟨k + 1, by simpa using hk, h1, h2⟩

/-- A property of the rows that a stage establishes for its own rows and does not destroy for earlier ones holds for all rows in the end. -/
theorem stages_hold (stage : SolverOutput K × List E → ℕ → ℕ → SolverOutput K × List E) (P : SolverOutput K → ℕ → Prop)
    (hloc : ∀ out out' t, out'.u t = out.u t → out'.v t = out.v t → out'.a t = out.a t → P out t → P out' t) (l : List ℕ) :
    ∀ (a : ℕ) (x : SolverOutput K × List E),
      (∀ c ∈ stageCalls (a :: l), ∀ x, Spec.KeptBefore c.1 x.1 (stage x c.1 c.2).1 ∧ ∀ t, c.1 ≤ t → t ≤ c.2 → P (stage x c.1 c.2).1 t) →
      l ≠ [] → (∀ t < a, P x.1 t) → ∀ t ≤ (a :: l).getLast (by simp), P (runStages stage (a :: l) x).1 t := by
  induction l with
  | nil => intro a x _ h; exact absurd rfl h
  | cons b l ih =>
    intro a x hstage _ hx t ht
    obtain ⟨hk, hn⟩ := hstage (a, b) (by simp [stageCalls]) x
    have hx' : ∀ t ≤ b, P (stage x a b).1 t := by
      intro t ht
      by_cases h : t < a
      · obtain ⟨h1, h2, h3⟩ := hk t h
        exact hloc _ _ t h1 h2 h3 (hx t h)
      · exact hn t (by simpa using h) ht
    have hrun : runStages stage (a :: b :: l) x = runStages stage (b :: l) (stage x a b) := rfl
    rw [hrun]
    rcases l with _ | ⟨c, l⟩
    · simp only [List.getLast_cons_cons, List.getLast_singleton] at ht
      exact hx' t ht
    · refine ih b (stage x a b) (fun c hc => hstage c ?_) (by simp) (fun t ht => hx' t ht.le) t (by rwa [List.getLast_cons (by simp)] at ht)
      simp only [stageCalls, List.mem_cons] at hc ⊢
      exact Or.inr hc

theorem run_holds (s : StageSolver K E X) (rnd : K → K) (time : List K) (h : 2 ≤ time.length) (hr : Spec.NoReturn rnd time)
    (st : TrimState K) (rhs : List E → X) (P : SolverOutput K → ℕ → Prop)
    (hloc : ∀ out out' t, out'.u t = out.u t → out'.v t = out.v t → out'.a t = out.a t → P out t → P out' t)
    (hstage : ∀ x a b, a < b → Spec.OneStep rnd time a b →
      Spec.KeptBefore a x.1 (s.stage st rhs x a b).1 ∧ ∀ t, a ≤ t → t ≤ b → P (s.stage st rhs x a b).1 t) :
    ∀ t < time.length, P (s.run (stageTimeIds rnd time) st rhs) t := by
  obtain ⟨h1, h2, h3⟩ := C13_contiguous rnd time h
  have hu : UniformStages rnd time (stageTimeIds rnd time) := C13_uniform_partial rnd time hr
  have hcalls : ∀ c ∈ stageCalls (stageTimeIds rnd time), c.1 < c.2 ∧ Spec.OneStep rnd time c.1 c.2 := by
    intro c hc
    refine ⟨(C112_schedule rnd time h).2.1 c hc, ?_⟩
    obtain ⟨k, hk, e1, e2⟩ := stageCalls_mem _ c hc
    have hlast : c.2 ≤ time.length - 1 := by
      obtain ⟨m, hm⟩ := List.getLast?_eq_some_iff.1 h2
      have hmem : c.2 ∈ stageTimeIds rnd time := e2 ▸ List.getElem_mem hk
      rw [hm] at hmem h3
      rcases List.mem_append.1 hmem with hx | hx
      · exact ((List.pairwise_append.1 h3).2.2 _ hx _ (by simp)).le
      · simp at hx
        omega
    refine ⟨by omega, ?_⟩
    intro i hi hi'
    have := hu k hk i (by omega) (by omega)
    rw [e1] at this
    exact this
  intro t ht
  unfold StageSolver.run
  generalize hids : stageTimeIds rnd time = ids at h1 h2 h3 hcalls
  rcases ids with _ | ⟨a, l⟩
  · simp at h1
  · simp only [List.head?_cons, Option.some.injEq] at h1
    subst h1
    have hlast : (0 :: l).getLast (by simp) = time.length - 1 := by
      rw [List.getLast?_eq_some_getLast (by simp)] at h2
      exact Option.some.inj h2
    refine stages_hold _ P hloc l 0 _ (fun c hc x => hstage x c.1 c.2 (hcalls c hc).1 (hcalls c hc).2) ?_
      (fun t h => absurd h (by omega)) t (by rw [hlast]; omega)
    rintro rfl
    simp at hlast
    omega

/-- **C166, motion** A calculation in stages with a dynamic solver that solves each stage with one step size: for every system of horizontal elements and vertical rods and
every time array with at least two times in which no step size returns after a different one, the results at all times (from the first to the last, across the stages) satisfy the principle of virtual work with inertia, damping and
stiffness of all parts and the loads of that time. Missing: time arrays in which a step size returns after a different one, `C166_return_violated`. -/
theorem C166_motion_partial (c : SystemRun K) (hc : c.WellFormed) (ha : Spec.AxisAligned c.system) (rnd : K → K) (time : List K)
    (h : 2 ≤ time.length) (hr : Spec.NoReturn rnd time) (s : StageSolver K ℕ (ℕ → ℕ → K))
    (hs : ∀ st, c.input.initialise freshFlags = .ok st → Spec.StageMotion rnd time st (c.rhs st) s) :
    ∃ st rows, c.mainStaged freshFlags rnd time s = .ok (st, rows) ∧ rows.length = time.length ∧
      ∀ t (ht : t < rows.length),
        rows[t].length = c.system.n ∧
        Spec.Admissible c.system (Spec.fieldOfRows rows[t] NodeRow.displacement) ∧
        Spec.Admissible c.system (Spec.fieldOfRows rows[t] NodeRow.velocity) ∧
        Spec.Admissible c.system (Spec.fieldOfRows rows[t] NodeRow.acceleration) ∧
        ∀ v, Spec.Admissible c.system v →
          Spec.systemWork AssemblyPart.mass c.system.parts v (Spec.fieldOfRows rows[t] NodeRow.acceleration) +
          (Spec.systemWork AssemblyPart.damping c.system.parts v (Spec.fieldOfRows rows[t] NodeRow.velocity) +
            Spec.rayleighWork c.system v (Spec.fieldOfRows rows[t] NodeRow.velocity)) +
          Spec.systemWork AssemblyPart.stiffness c.system.parts v (Spec.fieldOfRows rows[t] NodeRow.displacement) =
            Spec.loadWork (Spec.loadsAt c.timed t) v := by
  rw [c.mainStaged_eq _ _ _ _ h]
  refine C121_motion_partial c hc ha _ _ fun st hst => ?_
  obtain ⟨hty, hst'⟩ := hs st hst
  refine run_holds s rnd time h hr st (c.rhs st) (fun out t => ∃ asked, ∀ i < st.N,
    ∑ j ∈ range st.N, (st.M i j * out.a t j + st.C i j * out.v t j + st.Kg i j * out.u t j) = c.rhs st asked t i) ?_ ?_
  · intro out out' t h1 h2 h3 hP
    rwa [h1, h2, h3]
  · intro x a b hab ho
    have := hst' x.2 a b x.1 hab ho
    unfold StageSolver.stage
    rw [hty]
    exact this

/-- **C166, statics** The same with a static solver: the reported displacements of every time are the equilibrium under the loads of that time (the only one, if no displacement
other than zero is free of energy). -/
theorem C166_statics_partial (c : SystemRun K) (hc : c.WellFormed) (ha : Spec.AxisAligned c.system) (rnd : K → K) (time : List K)
    (h : 2 ≤ time.length) (hr : Spec.NoReturn rnd time) (s : StageSolver K ℕ (ℕ → ℕ → K))
    (hs : ∀ st, c.input.initialise freshFlags = .ok st → Spec.StageStatics rnd time st (c.rhs st) s) :
    ∃ st rows, c.mainStaged freshFlags rnd time s = .ok (st, rows) ∧ rows.length = time.length ∧
      ∀ t (ht : t < rows.length),
        rows[t].length = c.system.n ∧
        Spec.Admissible c.system (Spec.fieldOfRows rows[t] NodeRow.displacement) ∧
        (∀ v, Spec.Admissible c.system v →
          Spec.systemWork AssemblyPart.stiffness c.system.parts v (Spec.fieldOfRows rows[t] NodeRow.displacement) =
            Spec.loadWork (Spec.loadsAt c.timed t) v) ∧
        ((∀ w, Spec.Admissible c.system w → Spec.systemWork AssemblyPart.stiffness c.system.parts w w = 0 →
            ∀ i < c.system.n, w i = 0) →
          ∀ w, Spec.Admissible c.system w →
            (∀ v, Spec.Admissible c.system v →
              Spec.systemWork AssemblyPart.stiffness c.system.parts v w = Spec.loadWork (Spec.loadsAt c.timed t) v) →
            ∀ i < c.system.n, w i = Spec.fieldOfRows rows[t] NodeRow.displacement i) := by
  rw [c.mainStaged_eq _ _ _ _ h]
  refine C121_static_partial c hc ha _ _ fun st hst => ?_
  obtain ⟨hty, hst'⟩ := hs st hst
  refine run_holds s rnd time h hr st (c.rhs st) (fun out t => ∃ asked, ∀ i < st.N,
    ∑ j ∈ range st.N, st.Kg i j * out.u t j = c.rhs st asked t i) ?_ ?_
  · intro out out' t h1 _ _ hP
    rwa [h1]
  · intro x a b hab ho
    have := hst' x.2 a b x.1 hab ho
    unfold StageSolver.stage
    rw [hty]
    exact this

/-- **C166, train on a track** The same for a coupled model: at every time of all stages at which no two wheels are on elements with a common node, track and train obey the equations of
motion and every wheel presses on the rail with the force of the contact law. Missing: as in `C166_motion_partial` and `C124_motion_partial`. -/
theorem C166_coupled_partial {H : Type*} [DecidableEq H] (hash : (Fin 3 → K) → H) (c : CoupledRun K) (hc : c.WellFormed) (rnd : K → K)
    (time : List K) (h : 2 ≤ time.length) (hr : Spec.NoReturn rnd time)
    (s : StageSolver K (ℕ × List (ℕ → K)) (List (ℕ → K) → ℕ → (ℕ → K) → ℕ → K))
    (hs : ∀ st, c.loadedTrack.input.initialise freshFlags = .ok st →
      Spec.StageCoupled rnd time (c.system hash st) (c.rhs hash st) s) :
    ∃ r, c.mainStaged hash freshFlags rnd time s = .ok r ∧ r.trackRows.length = time.length ∧ r.trainRows.length = time.length ∧
      ∀ t (h1 : t < r.trackRows.length) (h2 : t < r.trainRows.length),
        r.trackRows[t].length = c.track.system.n ∧
        (∀ p, c.train.HasPart p → (c.partRow hash r.trainRows[t] p).isSome) ∧
        (DistinctElements c.rail c.train.wheelList.length t →
          let u := Spec.fieldOfRows r.trackRows[t] NodeRow.displacement
          let v := Spec.fieldOfRows r.trackRows[t] NodeRow.velocity
          let a := Spec.fieldOfRows r.trackRows[t] NodeRow.acceleration
          let ut := Spec.reportedDof (c.partRow hash r.trainRows[t]) NodeRow.displacement
          let vt := Spec.reportedDof (c.partRow hash r.trainRows[t]) NodeRow.velocity
          let at' := Spec.reportedDof (c.partRow hash r.trainRows[t]) NodeRow.acceleration
          let f := fun w => Spec.wheelForce c.rail t u ut w (c.train.wheelList.getD w (0, 0))
          let a₀ := Spec.rayleighMass c.isRayleigh c.ratio c.w1 c.w2
          let a₁ := Spec.rayleighStiffness c.isRayleigh c.ratio c.w1 c.w2
          Spec.Admissible c.track.system u ∧ Spec.Admissible c.track.system v ∧ Spec.Admissible c.track.system a ∧
          (∀ δ, Spec.Admissible c.track.system δ →
            Spec.systemWork AssemblyPart.mass c.track.system.parts δ a +
            (Spec.systemWork AssemblyPart.damping c.track.system.parts δ v + Spec.rayleighWork c.track.system δ v +
              (a₀ * Spec.systemWork AssemblyPart.mass c.track.system.parts δ v +
                a₁ * Spec.systemWork AssemblyPart.stiffness c.track.system.parts δ v)) +
            Spec.systemWork AssemblyPart.stiffness c.track.system.parts δ u =
              Spec.loadWork (Spec.loadsAt c.track.timed t) (Spec.awayFromWheels c.rail c.train.wheelList.length t δ) -
                ∑ w ∈ range c.train.wheelList.length, f w * Spec.railAt (c.rail w) t δ) ∧
          ∀ d, c.train.HasDof d →
            c.train.bodyInertia d * at' d +
            (Spec.trainRow c.train c.train.damping vt c.train.allDofs d +
              (a₀ * (c.train.bodyInertia d * vt d) + a₁ * Spec.trainRow c.train c.train.stiffness vt c.train.allDofs d)) +
            Spec.trainRow c.train c.train.stiffness ut c.train.allDofs d =
              c.train.forceVector c.g (c.train.dof d) + ∑ w ∈ range c.train.wheelList.length,
                if TrainDof.wheelY (c.train.wheelList.getD w (0, 0)).1 (c.train.wheelList.getD w (0, 0)).2 = d then f w
                else 0) := by
  rw [c.mainStaged_eq hash _ _ _ _ h]
  refine C124_motion_partial hash c hc _ _ fun st hst => ?_
  obtain ⟨hty, hst'⟩ := hs st hst
  refine run_holds s rnd time h hr (c.system hash st) (c.rhs hash st) (fun out t => ∃ sched us, ∀ i < (c.system hash st).N,
    ∑ j ∈ range (c.system hash st).N, ((c.system hash st).M i j * out.a t j + (c.system hash st).C i j * out.v t j +
      (c.system hash st).Kg i j * out.u t j) = c.rhs hash st sched us t (out.u t) i) ?_ ?_
  · intro out out' t h1 h2 h3 hP
    rwa [h1, h2, h3]
  · intro x a b hab ho
    have := hst' x.2 a b x.1 hab ho
    unfold StageSolver.stage
    rw [hty]
    exact this

theorem stages_same (stage : SolverOutput K × List E → ℕ → ℕ → SolverOutput K × List E) (hs : ∀ x a b, stage x a b = x) (ids : List ℕ)
    (x : SolverOutput K × List E) : runStages stage ids x = x := by
  unfold runStages
  induction stageCalls ids with
  | nil => rfl
  | cons c l ih => rw [List.foldl_cons, hs, ih]

theorem systemWork_still (matrix : AssemblyPart K → Option (ℕ × ℕ → K)) (parts : List (AssemblyPart K)) (v : Spec.NodalField K) :
    Spec.systemWork matrix parts v (fun _ _ => 0) = 0 := by
  unfold Spec.systemWork
  refine List.sum_eq_zero fun x hx => ?_
  obtain ⟨p, -, rfl⟩ := List.mem_map.1 hx
  split
  · have hax : ∀ c s e, Spec.inElementAxes c s (fun _ _ => (0 : K)) e = fun _ _ => 0 := by
      intro c s e
      funext i d
      unfold Spec.inElementAxes
      fin_cases d <;> simp
    have hloc : ∀ m act (a : ℕ × ℕ → K) w, Spec.localWork m act a w (fun _ _ => 0) = 0 := by
      intro m act a w
      unfold Spec.localWork
      simp
    unfold Spec.partWork
    simp only [hax, hloc]
    simp
  · rfl

/-- **C166** An unknown solver is not refused: for every system and every time array with at least two times the calculation with a solver that is neither dynamic nor static
succeeds, and reports the values with which the solver has filled its result arrays at the start. If these are zeros, the report is a system at rest, which satisfies the equations of
motion of a time only if the loads of that time do no work at all. -/
theorem C166_unrecognised_violated (c : SystemRun K) (hc : c.WellFormed) (rnd : K → K) (time : List K) (h : 2 ≤ time.length)
    (s : StageSolver K ℕ (ℕ → ℕ → K)) (hty : s.type = .other) (h0 : ∀ st, s.initial st = ⟨fun _ _ => 0, fun _ _ => 0, fun _ _ => 0⟩) :
    ∃ st rows, c.mainStaged freshFlags rnd time s = .ok (st, rows) ∧ rows.length = time.length ∧
      ∀ t (ht : t < rows.length),
        rows[t].length = c.system.n ∧
        (∀ i d, Spec.fieldOfRows rows[t] NodeRow.displacement i d = 0) ∧
        ((∀ v, Spec.Admissible c.system v →
          Spec.systemWork AssemblyPart.mass c.system.parts v (Spec.fieldOfRows rows[t] NodeRow.acceleration) +
          (Spec.systemWork AssemblyPart.damping c.system.parts v (Spec.fieldOfRows rows[t] NodeRow.velocity) +
            Spec.rayleighWork c.system v (Spec.fieldOfRows rows[t] NodeRow.velocity)) +
          Spec.systemWork AssemblyPart.stiffness c.system.parts v (Spec.fieldOfRows rows[t] NodeRow.displacement) =
            Spec.loadWork (Spec.loadsAt c.timed t) v) ↔
          ∀ v, Spec.Admissible c.system v → Spec.loadWork (Spec.loadsAt c.timed t) v = 0) := by
  rw [c.mainStaged_eq _ _ _ _ h]
  obtain ⟨st, hst⟩ := C106_succeeds c.input hc.mesh freshFlags
  refine ⟨st, _, main_eq c freshFlags _ _ st hst, by simp, fun t ht => ?_⟩
  simp only [List.getElem_map, List.getElem_range]
  have hrun : s.run (stageTimeIds rnd time) st (c.rhs st) = ⟨fun _ _ => 0, fun _ _ => 0, fun _ _ => 0⟩ := by
    unfold StageSolver.run
    rw [stages_same _ (fun x a b => by unfold StageSolver.stage; rw [hty]), h0]
  rw [hrun]
  have hrow : ∀ n : DofNode, reportedRow (fun _ : ℕ => (0 : K)) n = fun _ => 0 := by
    intro n
    funext d
    unfold reportedRow
    split <;> rfl
  simp only [hrow]
  have hz : ∀ result : NodeRow K → Fin 3 → K, (result ⟨fun _ => 0, fun _ => 0, fun _ => 0⟩ = fun _ => 0) →
      Spec.fieldOfRows (st.nodes.map fun _ => (⟨fun _ => 0, fun _ => 0, fun _ => 0⟩ : NodeRow K)) result = fun _ _ => 0 := by
    intro result hr
    funext i
    unfold Spec.fieldOfRows
    rw [List.getElem?_map]
    cases st.nodes[i]? with
    | none => rfl
    | some n => simp only [Option.map_some, Option.getD_some, hr]
  rw [hz NodeRow.displacement rfl, hz NodeRow.velocity rfl, hz NodeRow.acceleration rfl]
  refine ⟨by rw [List.length_map]; exact nodes_length c.input _ st hst, fun _ _ => rfl, ?_⟩
  have hray : ∀ v, Spec.rayleighWork c.system v (fun _ _ => 0) = 0 := by
    intro v
    unfold Spec.rayleighWork
    rw [systemWork_still, systemWork_still]
    simp
  simp only [systemWork_still, hray, add_zero]
  exact ⟨fun hv v hv' => (hv v hv').symm, fun hv v hv' => (hv v hv').symm⟩

end

/-! ### Examples and the counterexample -/

/-- The vertical spring with a load of 7 at all times. -/
def stagedSpring : SystemRun ℚ := ⟨springExample 0 1, [⟨[1], ![false, true, false], .table fun _ _ => ![0, 7, 0]⟩]⟩

theorem stagedSpring_wellFormed : stagedSpring.WellFormed := by
  refine ⟨?_, ?_, ?_⟩
  · simp [stagedSpring, springExample, Spec.NodesInMesh]
    omega
  · simp [stagedSpring]
  · simp [stagedSpring, springExample]

theorem stagedSpring_aligned : Spec.AxisAligned stagedSpring.system := by
  intro p hp e he
  simp [stagedSpring, springExample] at hp
  rcases hp with rfl | rfl | rfl <;> simp_all

theorem stagedSpring_free : Spec.Admissible stagedSpring.system (Spec.unitField 1 1) := by
  intro i hi d hrem
  by_contra h
  have hid : i = 1 ∧ d = 1 := by
    by_contra h'
    exact h (if_neg h')
  rw [hid.1, hid.2] at hrem
  rcases hrem with hrem | hrem | hrem
  · obtain ⟨l, q, m, hq, hx, -⟩ := hrem
    have hmem : q ∈ stagedSpring.system.constraints := by rw [hq]; simp
    simp only [stagedSpring, springExample, List.mem_singleton] at hmem
    subst hmem
    simp at hx
  · revert hrem
    decide +kernel
  · revert hrem
    decide +kernel

/-- A solver that fills the rows of a stage with displacement 1, velocity 0 and acceleration 2, but does nothing in the stages in `skip`. -/
def fillSolver (type : SolverType) (skip : ℕ → ℕ → Bool) : StageSolver ℚ ℕ (ℕ → ℕ → ℚ) where
  type := type
  initial := fun _ => ⟨fun _ _ => 0, fun _ _ => 0, fun _ _ => 0⟩
  calculate := fun _ _ a b out => (if skip a b then out else
    ⟨fun t i => if a ≤ t ∧ t ≤ b then 1 else out.u t i, fun t i => if a ≤ t ∧ t ≤ b then 0 else out.v t i, fun t i => if a ≤ t ∧ t ≤ b then 2 else out.a t i⟩, [])

theorem fillSolver_solves (time : List ℚ) (hl : time.length ≤ 6) (skip : ℕ → ℕ → Bool)
    (hskip : ∀ a b, a < b → Spec.OneStep id time a b → skip a b = false) (st : TrimState ℚ)
    (hst : stagedSpring.input.initialise freshFlags = .ok st) :
    Spec.StageMotion id time st (stagedSpring.rhs st) (fillSolver .dynamic skip) := by
  refine ⟨rfl, fun before a b out hab ho => ?_⟩
  have hcalc : ((fillSolver .dynamic skip).calculate st (fun l => stagedSpring.rhs st (before ++ l)) a b out).1 =
      ⟨fun t i => if a ≤ t ∧ t ≤ b then 1 else out.u t i, fun t i => if a ≤ t ∧ t ≤ b then 0 else out.v t i, fun t i => if a ≤ t ∧ t ≤ b then 2 else out.a t i⟩ := by
    show (if skip a b = true then out else _) = _
    rw [hskip a b hab ho]
    rfl
  show Spec.KeptBefore a out _ ∧ _
  rw [hcalc]
  refine ⟨fun t ht => ⟨?_, ?_, ?_⟩, fun t h1 h2 => ?_⟩
  · funext i; exact if_neg (by omega)
  · funext i; exact if_neg (by omega)
  · funext i; exact if_neg (by omega)
  · refine ⟨[0], ?_⟩
    have g1 : (stagedSpring.input.initialise freshFlags).map (fun st => st.N) = .ok 1 := by decide +kernel
    have g2 : ∀ t < 6, (stagedSpring.input.initialise freshFlags).map (fun st => [st.Kg 0 0, st.M 0 0, stagedSpring.rhs st [0] t 0]) =
        .ok [5, 1, 7] := by decide +kernel
    have g3 := g2 t (by have := ho.1; omega)
    rw [hst] at g1 g3
    simp only [Except.map, Except.ok.injEq, List.cons.injEq, and_true] at g1 g3
    obtain ⟨k1, k2, k3⟩ := g3
    rw [g1]
    intro i hi
    interval_cases i
    simp [k1, k2, k3, h1, h2]
    norm_num

/-- The hypotheses of `C166_motion_partial` hold for a spring with two stages, and the same solver with another type meets those of `C166_unrecognised_violated`. -/
example : stagedSpring.WellFormed ∧ Spec.AxisAligned stagedSpring.system ∧ Spec.NoReturn id [0, 1, 2, 4, 6, (8 : ℚ)] ∧
    stageTimeIds id [0, 1, 2, 4, 6, (8 : ℚ)] = [0, 2, 5] ∧
    (∀ st, stagedSpring.input.initialise freshFlags = .ok st →
      Spec.StageMotion id [0, 1, 2, 4, 6, (8 : ℚ)] st (stagedSpring.rhs st) (fillSolver .dynamic fun _ _ => false)) ∧
    (fillSolver .other fun _ _ => false).type = .other ∧
    ∃ v, Spec.Admissible stagedSpring.system v ∧ Spec.loadWork (Spec.loadsAt stagedSpring.timed 3) v ≠ 0 := by
  refine ⟨stagedSpring_wellFormed, stagedSpring_aligned, ?_, by decide +kernel, fillSolver_solves _ (by simp) _ fun _ _ _ _ => rfl, rfl, ?_⟩
  · have key : ∀ k < 5, ∀ j < k, ∀ i < j,
        ([0, 1, 2, 4, 6, (8 : ℚ)].getD (i + 1) 0 - [0, 1, 2, 4, 6, (8 : ℚ)].getD i 0) =
          ([0, 1, 2, 4, 6, (8 : ℚ)].getD (k + 1) 0 - [0, 1, 2, 4, 6, (8 : ℚ)].getD k 0) →
        ([0, 1, 2, 4, 6, (8 : ℚ)].getD (j + 1) 0 - [0, 1, 2, 4, 6, (8 : ℚ)].getD j 0) =
          ([0, 1, 2, 4, 6, (8 : ℚ)].getD (i + 1) 0 - [0, 1, 2, 4, 6, (8 : ℚ)].getD i 0) := by decide +kernel
    intro i j k h1 h2 h3 h4
    have h3' : k < 5 := h3
    exact key k h3' j h2 i h1 h4
  · exact ⟨Spec.unitField 1 1, stagedSpring_free, by decide +kernel⟩

/-- **C166** is false if a step size returns: the times 0, 1, 3, 4 are two stages, of which the second has two step sizes. A solver that solves every stage with one step size
and does nothing in another one reports a spring at rest under a load. -/
theorem C166_return_violated :
    ∃ (c : SystemRun ℚ) (time : List ℚ) (s : StageSolver ℚ ℕ (ℕ → ℕ → ℚ)),
      c.WellFormed ∧ Spec.AxisAligned c.system ∧ 2 ≤ time.length ∧
      (∀ st, c.input.initialise freshFlags = .ok st → Spec.StageMotion id time st (c.rhs st) s) ∧
      ∃ st rows, c.mainStaged freshFlags id time s = .ok (st, rows) ∧ ∃ t, ∃ (ht : t < rows.length),
        ∃ v, Spec.Admissible c.system v ∧
          Spec.systemWork AssemblyPart.mass c.system.parts v (Spec.fieldOfRows rows[t] NodeRow.acceleration) +
          (Spec.systemWork AssemblyPart.damping c.system.parts v (Spec.fieldOfRows rows[t] NodeRow.velocity) +
            Spec.rayleighWork c.system v (Spec.fieldOfRows rows[t] NodeRow.velocity)) +
          Spec.systemWork AssemblyPart.stiffness c.system.parts v (Spec.fieldOfRows rows[t] NodeRow.displacement) ≠
            Spec.loadWork (Spec.loadsAt c.timed t) v := by
  refine ⟨stagedSpring, [0, 1, 3, 4], fillSolver .dynamic fun a b => (a, b) = (1, 3), stagedSpring_wellFormed, stagedSpring_aligned, by simp,
    fillSolver_solves _ (by simp) _ fun a b hab ho => ?_, ?_⟩
  · by_contra h
    simp only [Prod.mk.injEq, Bool.not_eq_false, decide_eq_true_eq] at h
    obtain ⟨rfl, rfl⟩ := h
    have := ho.2 2 (by omega) (by omega)
    norm_num at this
  · have key : (stagedSpring.mainStaged freshFlags id [0, 1, 3, 4] (fillSolver .dynamic fun a b => (a, b) = (1, 3))).map (fun r =>
        (r.2.length,
          Spec.systemWork AssemblyPart.mass stagedSpring.system.parts (Spec.unitField 1 1) (Spec.fieldOfRows (r.2.getD 3 []) NodeRow.acceleration) +
          (Spec.systemWork AssemblyPart.damping stagedSpring.system.parts (Spec.unitField 1 1) (Spec.fieldOfRows (r.2.getD 3 []) NodeRow.velocity) +
            Spec.rayleighWork stagedSpring.system (Spec.unitField 1 1) (Spec.fieldOfRows (r.2.getD 3 []) NodeRow.velocity)) +
          Spec.systemWork AssemblyPart.stiffness stagedSpring.system.parts (Spec.unitField 1 1)
            (Spec.fieldOfRows (r.2.getD 3 []) NodeRow.displacement))) = .ok (4, 0) := by decide +kernel
    have hload : Spec.loadWork (Spec.loadsAt stagedSpring.timed 3) (Spec.unitField 1 1) = 7 := by decide +kernel
    rcases hm : stagedSpring.mainStaged freshFlags id [0, 1, 3, 4] (fillSolver .dynamic fun a b => (a, b) = (1, 3)) with e | ⟨st, rows⟩
    · rw [hm] at key
      simp [Except.map] at key
    · rw [hm] at key
      simp only [Except.map, Except.ok.injEq, Prod.mk.injEq] at key
      have h3 : 3 < rows.length := by omega
      refine ⟨st, rows, rfl, 3, h3, Spec.unitField 1 1, stagedSpring_free, ?_⟩
      have hk := key.2
      rw [List.getD_eq_getElem _ _ h3] at hk
      rw [hk, hload]
      norm_num

/-- A static solver for the spring: displacement 7 / 5 in the rows of the stage. -/
def staticFill : StageSolver ℚ ℕ (ℕ → ℕ → ℚ) where
  type := .static
  initial := fun _ => ⟨fun _ _ => 0, fun _ _ => 0, fun _ _ => 0⟩
  calculate := fun _ _ a b out => (⟨fun t i => if a ≤ t ∧ t ≤ b then 7 / 5 else out.u t i, out.v, out.a⟩, [])

/-- The hypothesis of `C166_statics_partial` on the solver holds for the spring. -/
example (st : TrimState ℚ) (hst : stagedSpring.input.initialise freshFlags = .ok st) :
    Spec.StageStatics id [0, 1, 2, 4, 6, (8 : ℚ)] st (stagedSpring.rhs st) staticFill := by
  refine ⟨rfl, fun before a b out hab ho => ⟨fun t ht => ⟨?_, rfl, rfl⟩, fun t h1 h2 => ⟨[0], ?_⟩⟩⟩
  · funext i; exact if_neg (by omega)
  · have g1 : (stagedSpring.input.initialise freshFlags).map (fun st => st.N) = .ok 1 := by decide +kernel
    have g2 : ∀ t < 6, (stagedSpring.input.initialise freshFlags).map (fun st => [st.Kg 0 0, stagedSpring.rhs st [0] t 0]) =
        .ok [5, 7] := by decide +kernel
    have g3 := g2 t (by have := ho.1; simp at this; omega)
    rw [hst] at g1 g3
    simp only [Except.map, Except.ok.injEq, List.cons.injEq, and_true] at g1 g3
    obtain ⟨k1, k2⟩ := g3
    rw [g1]
    intro i hi
    interval_cases i
    simp [staticFill, k1, k2, h1, h2]
    norm_num

/-- `startSolver` stage by stage. -/
def startStages : StageSolver ℚ (ℕ × List (ℕ → ℚ)) (List (ℕ → ℚ) → ℕ → (ℕ → ℚ) → ℕ → ℚ) where
  type := .dynamic
  initial := fun _ => ⟨fun _ _ => 0, fun _ _ => 0, fun _ _ => 0⟩
  calculate := fun sys rhs a b out =>
    let new := startSolver sys rhs
    (⟨fun t i => if a ≤ t ∧ t ≤ b then new.u t i else out.u t i, fun t i => if a ≤ t ∧ t ≤ b then new.v t i else out.v t i,
      fun t i => if a ≤ t ∧ t ≤ b then new.a t i else out.a t i⟩, [])

/-- The hypotheses of `C166_coupled_partial` hold for a train of one cart on a small track in two stages. -/
example : (smallCoupled 0).WellFormed ∧ stageTimeIds id [0, 1, 2, 4, 6, (8 : ℚ)] = [0, 2, 5] ∧
    ∀ st, (smallCoupled 0).loadedTrack.input.initialise freshFlags = .ok st →
      Spec.StageCoupled id [0, 1, 2, 4, 6, (8 : ℚ)] ((smallCoupled 0).system roundedCoords st) ((smallCoupled 0).rhs roundedCoords st)
        startStages := by
  refine ⟨smallCoupled_wellFormed 0, by decide +kernel, fun st hst => ⟨rfl, fun before a b out hab ho => ⟨fun t ht => ⟨?_, ?_, ?_⟩,
    fun t h1 h2 => ⟨before, [], ?_⟩⟩⟩⟩
  · funext i; exact if_neg (by omega)
  · funext i; exact if_neg (by omega)
  · funext i; exact if_neg (by omega)
  · have h := smallCoupled_diagonal 0 (by simp)
    rw [hst] at h
    simp only [Except.toOption, Option.map_some, Option.some.injEq, decide_eq_true_eq] at h
    intro i hi
    simp only [startStages, h1, h2, and_self, if_true]
    simp only [startSolver, mul_zero, add_zero, List.append_nil]
    rw [Finset.sum_eq_single_of_mem i (Finset.mem_range.mpr hi)]
    · exact mul_div_cancel₀ _ (h.2 i hi)
    · intro j hj hne
      rw [h.1 i hi j (Finset.mem_range.mp hj) (Ne.symm hne), zero_mul]

end Rose
