/-
C158: a calculation that stores selected time steps reports the results of those steps.
-/
import Verif.Model.OutputInterval
import Verif.Props.CombinedTrack
import Verif.Props.Optimisation

set_option linter.unusedSectionVars false

namespace Rose

/-- Evaluating at selected indices picks the selected values. -/
theorem mapM_stored {β : Type*} (f : ℕ → Except Err β) (indices : List ℕ) (steps : ℕ) (hi : ∀ i ∈ indices, i < steps) (l : List β)
    (h : (List.range steps).mapM f = .ok l) :
    ∃ l', (List.range indices.length).mapM (fun i => f (indices.getD i 0)) = .ok l' ∧ l'.length = indices.length ∧
      ∀ (i t : ℕ), indices[i]? = some t → l'[i]? = l[t]? := by
  obtain ⟨hl, hget⟩ := mapM_except_get _ _ _ h
  rw [List.length_range] at hl
  have hlt : ∀ i (h : i < indices.length), indices.getD i 0 < l.length := fun i h => by
    rw [hl, List.getD_eq_getElem _ _ h]; exact hi _ (List.getElem_mem h)
  by_cases h0 : indices = []
  · subst h0
    exact ⟨[], rfl, rfl, fun i t h => by simp at h⟩
  · have hl0 : l ≠ [] := by
      intro hnil
      have := hlt 0 (List.length_pos_iff.2 h0)
      rw [hnil] at this
      simp at this
    refine ⟨(List.range indices.length).map fun i => l.getD (indices.getD i 0) (l.head hl0), ?_, by simp, ?_⟩
    · refine mapM_eq_map _ _ _ fun i hi => ?_
      have hi' := hlt i (List.mem_range.1 hi)
      obtain ⟨b, hb, hf⟩ := hget (indices.getD i 0) (indices.getD i 0) (by rw [List.getElem?_range (by omega)])
      rw [hf, List.getD_eq_getElem?_getD, hb]
      rfl
    · intro i t ht
      obtain ⟨hi', rfl⟩ := List.getElem?_eq_some_iff.1 ht
      have hlt' := hlt i hi'
      have e := List.getD_eq_getElem indices 0 hi'
      rw [← e, List.getElem?_map, List.getElem?_range hi', Option.map_some, List.getD_eq_getElem _ _ hlt',
        List.getElem?_eq_getElem hlt']

section
variable {K : Type*} [Field K] [LinearOrder K] [IsStrictOrderedRing K]

/-- **C158** A calculation that reports all of its time steps also runs when its solver stores some of them only, and then reports
as output `i`, on every node, what it reports for the time step that is stored as number `i`. -/
theorem C158_rows (c : SystemRun K) (flags : ℕ → Fin 3 → Bool) (indices : List ℕ) (steps : ℕ) (hi : ∀ i ∈ indices, i < steps)
    (solver : TrimState K → (List ℕ → ℕ → ℕ → K) → SolverOutput K) (st : TrimState K) (full : List (List (NodeRow K)))
    (h : c.main flags steps solver = .ok (st, full)) :
    ∃ rows, c.mainStored flags indices solver = .ok (st, rows) ∧ rows.length = indices.length ∧
      ∀ (i t : ℕ), indices[i]? = some t → rows[i]? = full[t]? := by
  unfold SystemRun.main at h
  cases hst : c.input.initialise flags with
  | error e => rw [hst] at h; cases h
  | ok st' =>
    rw [hst] at h
    simp only [bind, Except.bind] at h
    split at h
    · cases h
    · rename_i rows hrows
      cases h
      obtain ⟨l', h1, h2, h3⟩ := mapM_stored _ indices steps hi _ hrows
      refine ⟨l', ?_, h2, h3⟩
      unfold SystemRun.mainStored SystemRun.main
      rw [hst]
      simp only [bind, Except.bind]
      rw [show ((List.range indices.length).mapM fun t => st.nodes.mapM (nodeRow ((solver st (c.rhs st)).stored indices) t)) = .ok l'
        from h1]

/-- **C158, coupled calculations** The same for the nodes of track and train. -/
theorem C158_coupled {H : Type*} [DecidableEq H] (hash : (Fin 3 → K) → H) (c : CoupledRun K) (flags : ℕ → Fin 3 → Bool)
    (indices : List ℕ) (steps : ℕ) (hi : ∀ i ∈ indices, i < steps)
    (solver : TrimState K → (List (ℕ × List (ℕ → K)) → List (ℕ → K) → ℕ → (ℕ → K) → ℕ → K) → SolverOutput K)
    (full : CoupledResult K) (h : c.main hash flags steps solver = .ok full) :
    ∃ res, c.mainStored hash flags indices solver = .ok res ∧ res.track = full.track ∧
      res.trackRows.length = indices.length ∧ res.trainRows.length = indices.length ∧
      ∀ (i t : ℕ), indices[i]? = some t → res.trackRows[i]? = full.trackRows[t]? ∧ res.trainRows[i]? = full.trainRows[t]? := by
  unfold CoupledRun.main at h
  cases hst : c.loadedTrack.input.initialise flags with
  | error e => rw [hst] at h; cases h
  | ok st =>
    rw [hst] at h
    simp only [bind, Except.bind] at h
    split at h
    · cases h
    · rename_i rows hrows
      split at h
      · cases h
      · rename_i rows' hrows'
        cases h
        obtain ⟨l, h1, h2, h3⟩ := mapM_stored _ indices steps hi _ hrows
        obtain ⟨l', h1', h2', h3'⟩ := mapM_stored _ indices steps hi _ hrows'
        refine ⟨⟨st, l, l'⟩, ?_, rfl, h2, h2', fun i t ht => ⟨h3 i t ht, h3' i t ht⟩⟩
        unfold CoupledRun.mainStored CoupledRun.main
        rw [hst]
        simp only [bind, Except.bind]
        rw [show ((List.range indices.length).mapM fun t =>
            st.nodes.mapM (nodeRow ((solver (c.system hash st) (c.rhs hash st)).stored indices) t)) = .ok l from h1]
        simp only
        rw [show ((List.range indices.length).mapM fun t =>
            ((c.trainState hash).nodes.map fun n => { n with idx := shiftDofs st.N n.idx }).mapM
              (nodeRow ((solver (c.system hash st) (c.rhs hash st)).stored indices) t)) = .ok l' from h1']

end

/-- **C158, the file** The columns of times and velocities of the result file are written exactly if all stored steps are steps of the
calculation; they then have one entry for each, that of the step. -/
theorem C158_column_iff {K : Type*} (values : List K) (indices : List ℕ) (column : List K) :
    writtenColumn values indices = .ok column ↔
      column.length = indices.length ∧ ∀ (i t : ℕ), indices[i]? = some t → ∃ x, values[t]? = some x ∧ column[i]? = some x := by
  have hf : ∀ t : ℕ, ∀ x : K, (match values[t]? with
      | some x => Except.ok x
      | none => Except.error Err.indexError) = Except.ok x ↔ values[t]? = some x := by
    intro t x
    cases values[t]? with
    | none => simp
    | some y => simp
  constructor
  · intro h
    obtain ⟨h1, h2⟩ := mapM_except_get _ _ _ h
    refine ⟨h1, fun i t ht => ?_⟩
    obtain ⟨x, hx, hv⟩ := h2 i t ht
    exact ⟨x, (hf t x).1 hv, hx⟩
  · rintro ⟨h1, h2⟩
    induction indices generalizing column with
    | nil => rw [List.length_nil, List.length_eq_zero_iff] at h1; subst h1; rfl
    | cons t indices ih =>
      obtain ⟨x, hx, hc⟩ := h2 0 t rfl
      cases column with
      | nil => simp at hc
      | cons y column =>
        simp only [List.getElem?_cons_zero, Option.some.injEq] at hc
        subst hc
        have := ih column (by simpa using h1) fun i s hs => by simpa using h2 (i + 1) s (by simpa using hs)
        unfold writtenColumn at this ⊢
        rw [List.mapM_cons, hx]
        simp only [bind, Except.bind]
        rw [this]
        rfl

/-- **C158, laws of motion** A train on a combined track as in C138, whose solver stores the time steps `indices`: the calculation is
accepted and reports one set of results for each stored step. In output `i` the reported displacements, velocities and accelerations
of track and train satisfy the laws of motion at the time step `indices[i]`, with the wheels where the train is at that step. -/
theorem C158_motion_partial {H : Type*} [DecidableEq H] (hash : (Fin 3 → ℝ) → H) {q : TrackRide} {r : ℕ} {d : ℝ}
    {segments : List (ℕ × ℝ)} {soils : List (RodValues ℝ)} (v : q.ValidOn r d segments soils) (length : ℝ) (indices : List ℕ)
    (hi : ∀ i ∈ indices, i < q.time.length)
    (solver : TrimState ℝ → (List (ℕ × List (ℕ → ℝ)) → List (ℕ → ℝ) → ℕ → (ℕ → ℝ) → ℕ → ℝ) → SolverOutput ℝ)
    (hs : ∀ c run st, combinedTrack hash r d segments = .ok c → q.coupledOnCombined c length soils = .ok run →
      run.loadedTrack.input.initialise freshFlags = .ok st →
      Spec.SolvesCoupled (run.system hash st) (run.rhs hash st) q.time.length (solver (run.system hash st) (run.rhs hash st))) :
    ∃ c sys res, combinedTrack hash r d segments = .ok c ∧ c.system length q.values soils q.held = .ok sys ∧
      q.mainOnCombinedStored hash c length soils indices solver = .ok res ∧
      res.trackRows.length = indices.length ∧ res.trainRows.length = indices.length ∧
      ∀ i t (h1 : i < res.trackRows.length) (h2 : i < res.trainRows.length), indices[i]? = some t →
        let u := Spec.fieldOfRows res.trackRows[i] NodeRow.displacement
        let u' := Spec.fieldOfRows res.trackRows[i] NodeRow.velocity
        let u'' := Spec.fieldOfRows res.trackRows[i] NodeRow.acceleration
        let y := Spec.reportedDof (q.partRow hash res.trainRows[i]) NodeRow.displacement
        let y' := Spec.reportedDof (q.partRow hash res.trainRows[i]) NodeRow.velocity
        let y'' := Spec.reportedDof (q.partRow hash res.trainRows[i]) NodeRow.acceleration
        let wheel := fun w => q.train.wheelList.getD w (0, 0)
        let X := fun w => Spec.wheelX q.time q.vel (q.startOf (wheel w)) t
        let rail := fun f w => Spec.railDeflection (d / r) (railCount r segments) c.railNumber f (X w)
        let F := fun w => Spec.hertz q.G q.p
          (q.G * (-q.staticLoad (wheel w)) ^ (1 / q.p) + rail u w - y (.wheelY (wheel w).1 (wheel w).2) - q.irr w t)
        let a₀ := Spec.rayleighMass q.isRayleigh q.ratio q.w1 q.w2
        let a₁ := Spec.rayleighStiffness q.isRayleigh q.ratio q.w1 q.w2
        (∀ p, q.train.HasPart p → (q.partRow hash res.trainRows[i] p).isSome) ∧
        Spec.Admissible sys u ∧ Spec.Admissible sys u' ∧ Spec.Admissible sys u'' ∧
        (∀ δ, Spec.Admissible sys δ →
          Spec.systemWork AssemblyPart.mass sys.parts δ u'' +
          (Spec.systemWork AssemblyPart.damping sys.parts δ u' + Spec.rayleighWork sys δ u' +
            (a₀ * Spec.systemWork AssemblyPart.mass sys.parts δ u' +
              a₁ * Spec.systemWork AssemblyPart.stiffness sys.parts δ u')) +
          Spec.systemWork AssemblyPart.stiffness sys.parts δ u =
            -∑ w ∈ Finset.range q.train.wheelList.length, F w * rail δ w) ∧
        ∀ e, q.train.HasDof e →
          q.train.bodyInertia e * y'' e =
            weightAt q.train q.g e - springForceAt q.train y e - springForceAt q.train.dampers y' e -
              (a₀ * (q.train.bodyInertia e * y' e) + a₁ * springForceAt q.train y' e) +
            ∑ w ∈ Finset.range q.train.wheelList.length, if TrainDof.wheelY (wheel w).1 (wheel w).2 = e then F w else 0 := by
  obtain ⟨c, sys, full, hc, hsys, hmain, hl1, hl2, hlaws⟩ := C138_motion_partial hash v length q.time.length le_rfl solver hs
  unfold TrackRide.mainOnCombined at hmain
  cases hrun : q.coupledOnCombined c length soils with
  | error e => rw [hrun] at hmain; cases hmain
  | ok run =>
    rw [hrun] at hmain
    simp only [bind, Except.bind] at hmain
    obtain ⟨res, h1, -, h2, h3, h4⟩ := C158_coupled hash run _ indices q.time.length hi solver full hmain
    refine ⟨c, sys, res, hc, hsys, ?_, h2, h3, ?_⟩
    · unfold TrackRide.mainOnCombinedStored TrackRide.mainOnCombined
      rw [hrun]
      exact h1
    · intro i t hi1 hi2 ht
      have htlt : t < q.time.length := hi t (List.mem_of_getElem? ht)
      obtain ⟨e1, e2⟩ := h4 i t ht
      rw [List.getElem?_eq_getElem hi1, List.getElem?_eq_getElem (by omega), Option.some.injEq] at e1
      rw [List.getElem?_eq_getElem hi2, List.getElem?_eq_getElem (by omega), Option.some.injEq] at e2
      rw [e1, e2]
      exact hlaws t (by omega) (by omega)

/-- The double-dekker cart on two segments of C138, with a solver that stores the first and the third of the three steps. -/
example : ∃ q : TrackRide, ∃ solver c res, q.time.length = 3 ∧ combinedTrack (fun p : Fin 3 → ℝ => p) 2 (3 / 5) [(60, 1), (50, 3)] = .ok c ∧
    q.mainOnCombinedStored (fun p : Fin 3 → ℝ => p) c (3 / 5) [⟨10 ^ 7, none, some 1000⟩, ⟨10 ^ 9, none, none⟩] [0, 2] solver = .ok res ∧
      res.trackRows.length = 2 := by
  obtain ⟨t, -, ht⟩ := exampleRide_validOn
  have v := ht ⟨fun _ => ⟨0, none, fun _ => none, fun _ => true, []⟩, [], [], [], [], [], [], [], [], [], 0⟩
  obtain ⟨solver, hs⟩ := C138_solvable (hash := fun p : Fin 3 → ℝ => p) v (3 / 5) _ le_rfl
  obtain ⟨c, sys, res, h1, -, h2, h3, -⟩ := C158_motion_partial _ v (3 / 5) [0, 2] (by simp [exampleRide]) solver hs
  exact ⟨_, solver, c, res, rfl, h1, h2, h3⟩

/-- Four time steps of which the first and the third are stored. -/
example : writtenColumn [(0 : ℚ), 1, 2, 3] [0, 2] = .ok [0, 2] ∧ writtenColumn [(0 : ℚ), 1, 2, 3] [0, 4] = .error .indexError :=
  ⟨rfl, rfl⟩

end Rose
