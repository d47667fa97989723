/-
C160: the calibration script.
-/
import Verif.Model.Calibration
import Verif.Props.OwnTrains
import Verif.Props.OutputInterval
import Verif.Props.CombinedUnknowns
import Verif.Props.BatchBase

set_option linter.unusedSectionVars false

namespace Rose

section columns
variable {K : Type*} [Field K] [LinearOrder K] [IsStrictOrderedRing K] {H : Type*} [DecidableEq H] (hash : (Fin 3 → K) → H)

/-- **C160, columns of the displacements** In a coupled calculation that stores the steps `indices`, the column of `displacements_out` behind the
unknowns of the track, at the dof of a body of the train, holds what the node of the body reports. -/
theorem C160_columns (c : CoupledRun K) (hmesh : Spec.NodesInMesh c.loadedTrack.input) (hsep : c.train.Separated c.start)
    (hm : c.train.Massive) (indices : List ℕ)
    (solver : TrimState K → (List (ℕ × List (ℕ → K)) → List (ℕ → K) → ℕ → (ℕ → K) → ℕ → K) → SolverOutput K) :
    ∃ st rows res, c.loadedTrack.input.initialise freshFlags = .ok st ∧
      c.displacementsOut hash freshFlags indices solver = .ok rows ∧ c.mainStored hash freshFlags indices solver = .ok res ∧
      rows.length = indices.length ∧ res.trainRows.length = indices.length ∧
      (∀ row ∈ rows, row.length = st.N + c.train.numbering.next) ∧
      ∀ (i : ℕ) (trow : List (NodeRow K)) (row : List K), res.trainRows[i]? = some trow → rows[i]? = some row →
        ∀ d, c.train.HasDof d → row[st.N + c.train.dof d]? =
          some (Spec.reportedDof (c.partRow hash trow) NodeRow.displacement d) := by
  obtain ⟨st, hst⟩ := C106_succeeds c.loadedTrack.input hmesh freshFlags
  set out := (solver (c.system hash st) (c.rhs hash st)).stored indices with hout
  have hN : (c.system hash st).N = st.N + c.train.numbering.next := by
    have := (C102_trimmed_partial hash c.train c.start c.g hsep hm).1
    show st.N + (c.trainState hash).N = _
    rw [← this]
    rfl
  have hmain : c.mainStored hash freshFlags indices solver = .ok ⟨st, (List.range indices.length).map fun t => st.nodes.map fun n =>
      ⟨reportedRow (out.u t) n, reportedRow (out.v t) n, reportedRow (out.a t) n⟩,
      (List.range indices.length).map fun t =>
        ((c.trainState hash).nodes.map fun n => ({ n with idx := shiftDofs st.N n.idx } : DofNode)).map fun n =>
        (⟨reportedRow (out.u t) n, reportedRow (out.v t) n, reportedRow (out.a t) n⟩ : NodeRow K)⟩ := by
    unfold CoupledRun.mainStored CoupledRun.main
    rw [hst]
    simp only [bind, Except.bind]
    rw [← hout, mapM_eq_map _ (fun t => st.nodes.map fun n => (⟨reportedRow (out.u t) n,
      reportedRow (out.v t) n, reportedRow (out.a t) n⟩ : NodeRow K)), mapM_eq_map _ _ _ fun t _ => train_rows hash c st.N out t]
    intro t _
    refine mapM_eq_map _ _ _ fun n hn => ?_
    unfold nodeRow
    rw [assignResultRow_eq _ _ st hst n hn, assignResultRow_eq _ _ st hst n hn, assignResultRow_eq _ _ st hst n hn]
    rfl
  have hrows : c.displacementsOut hash freshFlags indices solver =
      .ok ((List.range indices.length).map fun i => (List.range (c.system hash st).N).map (out.u i)) := by
    unfold CoupledRun.displacementsOut
    rw [hst]
    rfl
  refine ⟨st, _, _, hst, hrows, hmain, by simp, by simp, ?_, ?_⟩
  · intro row hrow
    obtain ⟨i, -, rfl⟩ := List.mem_map.1 hrow
    rw [List.length_map, List.length_range, hN]
  · intro i trow row ht hr d hd
    simp only [List.getElem?_map, Option.map_eq_some_iff] at ht hr
    obtain ⟨j, hj, rfl⟩ := ht
    obtain ⟨j', hj', rfl⟩ := hr
    rw [hj] at hj'
    injection hj' with hj'
    subst hj'
    have hlt : c.train.dof d < c.train.numbering.next := c.train.dof_lt d hd
    rw [reportedDof_eq hash c hsep hm st.N _ NodeRow.displacement (out.u j) (by simp [List.map_map, Function.comp_def]) d hd,
      List.getElem?_map, List.getElem?_range (by omega)]
    rfl

end columns

/-- The number of unknowns of a system does not depend on its loads. -/
theorem initialise_loads {K : Type*} [Field K] [LinearOrder K] [IsStrictOrderedRing K] (inp : SystemInput K) (loads : List (NodalLoad K))
    (st st' : TrimState K) (h : inp.initialise freshFlags = .ok st)
    (h' : ({ inp with loads := loads } : SystemInput K).initialise freshFlags = .ok st') : st.N = st'.N := by
  obtain ⟨b1, l1, -⟩ := C106_representable _ _ _ h
  obtain ⟨b2, l2, -⟩ := C106_representable _ _ _ h'
  rw [count_equations st.N inp.n st.nodes b1 l1 id (fun i hi => ⟨i, hi, rfl⟩) (fun k _ l _ h => h),
    count_equations st'.N inp.n st'.nodes b2 l2 id (fun i hi => ⟨i, hi, rfl⟩) (fun k _ l _ h => h)]
  obtain ⟨stiff, mass, damp, a1, a2, a3, rfl⟩ := initialise_ok _ _ _ h
  obtain ⟨stiff', mass', damp', a1', a2', a3', rfl⟩ := initialise_ok _ _ _ h'
  rw [show addParts _ _ (allContributions _ _ _) = _ from a1, Except.ok.injEq] at a1'
  rw [show addParts _ _ (allContributions _ _ _) = _ from a2, Except.ok.injEq] at a2'
  subst a1' a2'
  refine Finset.sum_congr rfl fun i hi => ?_
  congr 1
  ext d
  simp only [Finset.mem_filter, Finset.mem_univ, true_and, id, ne_eq]
  rw [initialise_equation inp _ _ _ _ i (Finset.mem_range.1 hi) d, initialise_equation { inp with loads := loads } _ _ _ _ i (Finset.mem_range.1 hi) d,
    obsolete_untrimmed _ _ _ _ _ i (Finset.mem_range.1 hi) d, obsolete_untrimmed _ _ _ _ _ i (by exact Finset.mem_range.1 hi) d]

section layout
variable {H : Type*} [DecidableEq H] (hash : (Fin 3 → ℝ) → H) {q : TrackRide} {r : ℕ} {d : ℝ} {segments : List (ℕ × ℝ)}
  {soils : List (RodValues ℝ)}

/-- **C160, layout of the displacements** For a train on a combined track as in C138 of which no unknown is removed (C157): a row of
`displacements_out` has three entries per rail node and one per sleeper, less two, followed by those of the train; the entry of a body of the
train is what the node of the body reports in the same output. -/
theorem C160_layout (v : q.ValidOn r d segments soils) (hheld : q.held = true) (k : KeptValues (d / r) q.values soils) (length : ℝ)
    (indices : List ℕ)
    (solver : TrimState ℝ → (List (ℕ × List (ℕ → ℝ)) → List (ℕ → ℝ) → ℕ → (ℕ → ℝ) → ℕ → ℝ) → SolverOutput ℝ) :
    ∃ c run rows res, combinedTrack hash r d segments = .ok c ∧ q.coupledOnCombined c length soils = .ok run ∧
      run.displacementsOut hash freshFlags indices solver = .ok rows ∧
      q.mainOnCombinedStored hash c length soils indices solver = .ok res ∧
      rows.length = indices.length ∧ res.trainRows.length = indices.length ∧
      (∀ row ∈ rows, row.length = 3 * railCount r segments + (segments.map Prod.fst).sum - 2 + q.train.numbering.next) ∧
      ∀ (i : ℕ) (trow : List (NodeRow ℝ)) (row : List ℝ), res.trainRows[i]? = some trow → rows[i]? = some row →
        ∀ e, q.train.HasDof e → row[3 * railCount r segments + (segments.map Prod.fst).sum - 2 + q.train.dof e]? =
          some (Spec.reportedDof (q.partRow hash trow) NodeRow.displacement e) := by
  obtain ⟨c, sys, hc, sound, hsys, hp, hrun⟩ := v.track hash length
  obtain ⟨R, hon, hwf, -⟩ := (v.runs.withTrack (c.numbered length)).run (sound.even length) hp
  rw [hon] at hrun
  set run := TrackRide.runWith { q with track := c.numbered length } sys R with hR
  obtain ⟨st, rows, res, hst, h1, h2, h3, h4, h5, h6⟩ := C160_columns hash run hwf.track.mesh hwf.separated hwf.massive indices solver
  obtain ⟨c', inp, st', hc', hinp, hst', -, -, -, -, hN⟩ := C157_unknowns hash v.good length q.values soils v.enough k
  rw [hc] at hc'
  injection hc' with hc'
  subst hc'
  rw [hheld, hinp] at hsys
  injection hsys with hsys
  subst hsys
  have hN' : st'.N = st.N := initialise_loads inp _ st' st hst' hst
  have hNv : st.N = 3 * railCount r segments + (segments.map Prod.fst).sum - 2 := by omega
  refine ⟨c, run, rows, res, hc, hrun, h1, ?_, h3, h4, ?_, ?_⟩
  · unfold TrackRide.mainOnCombinedStored TrackRide.mainOnCombined
    rw [hrun]
    exact h2
  · rw [← hNv]; exact h5
  · rw [← hNv]; exact h6

end layout

theorem calibrationTrain_eq : calibrationTrain = fullTrain (dataRow (fun _ =>
    (({ length := 28, mass := 75.5 * 10 ^ 3, bogie := 10, wheel := 1.25, bogieLength := 2 } : TrainData ℝ),
    ({ cartInertia := 128.8 * 10 ^ 3, cartStiffness := 2708 * 10 ^ 3, cartDamping := 64 * 10 ^ 3, bogieMass := 6 * 10 ^ 3,
       bogieInertia := 310, bogieStiffness := 4800 * 10 ^ 3, bogieDamping := 250, wheelMass := 3.5 * 10 ^ 3 } : BodyData ℝ))) 1) := rfl

theorem calibration_steps : (demoTime (1 / 2) 5000 1.2 8000).length = 12999 := by rw [demoTime_length]

/-- **C160, the ride** The cart of the calibration fits on its track for every soil of positive stiffness, so that its results obey the laws of
motion (C138, C158). -/
theorem C160_fits (track : HorizontalTrack ℝ) (w : RodValues ℝ) (hw : 0 < w.stiffness) :
    (calibrationRide track).ValidOn 1 (3 / 5) [(200, 1)] [w] := by
  have hcount : railCount 1 [(200, (1 : ℝ))] = 200 := by simp [railCount]
  have hve := demoVelocities_getD 12999 5000 38.9
  have hstep : ∀ k, k + 1 < (demoTime (1 / 2) 5000 1.2 8000).length →
      0 ≤ (demoVelocities 12999 5000 38.9).getD k 0 * ((demoTime (1 / 2) 5000 1.2 8000).getD (k + 1) 0 -
        (demoTime (1 / 2) 5000 1.2 8000).getD k 0) ∧
      (demoVelocities 12999 5000 38.9).getD k 0 * ((demoTime (1 / 2) 5000 1.2 8000).getD (k + 1) 0 -
        (demoTime (1 / 2) 5000 1.2 8000).getD k 0) ≤ 3 / 5 := by
    intro k hk
    rw [calibration_steps] at hk
    rw [hve k (by omega), demoTime_getD _ _ _ _ _ (by norm_num) (by omega), demoTime_getD _ _ _ _ _ (by norm_num) (by omega),
      demoTimeAt_step _ _ _ _ _ (by norm_num)]
    by_cases h5 : k < 5000
    · rw [if_pos h5, zero_mul]
      norm_num
    · rw [if_neg h5, if_neg (by omega)]
      norm_num
  have o : OwnRide (fun _ =>
      (({ length := 28, mass := 75.5 * 10 ^ 3, bogie := 10, wheel := 1.25, bogieLength := 2 } : TrainData ℝ),
      ({ cartInertia := 128.8 * 10 ^ 3, cartStiffness := 2708 * 10 ^ 3, cartDamping := 64 * 10 ^ 3, bogieMass := 6 * 10 ^ 3,
         bogieInertia := 310, bogieStiffness := 4800 * 10 ^ 3, bogieDamping := 250, wheelMass := 3.5 * 10 ^ 3 } : BodyData ℝ))) 1
      [26.55 + 14] (demoTime (1 / 2) 5000 1.2 8000) (demoVelocities 12999 5000 38.9) 200 (3 / 5) := by
    refine ⟨?_, ?_, ?_, ?_, ?_, ?_, ?_, ?_, ?_, fun k hk => (hstep k hk).1, fun k hk => (hstep k hk).2⟩
    · intro i _
      constructor <;> norm_num
    · intro i _; norm_num
    · intro i _; norm_num
    · intro i j hij hj; omega
    · intro i hi
      obtain rfl : i = 0 := by omega
      norm_num
    · intro i hi
      obtain rfl : i = 0 := by omega
      norm_num
    · intro i hi k hk
      obtain rfl : i = 0 := by omega
      rw [calibration_steps] at hk
      have hX := C139_position (1 / 2) 5000 1.2 8000 38.9 (26.55 + 14 + (10 + 1.25)) (by norm_num) k (by omega)
      dsimp only at hX
      rw [calibration_steps] at hX
      simp only [List.getD_cons_zero]
      rw [hX]
      split_ifs with h5
      · norm_num
      · have : (demoTime (1 / 2) 5000 1.2 8000).getD k 0 - (demoTime (1 / 2) 5000 1.2 8000).getD 5000 0 ≤ 1.2 := by
          rw [demoTime_getD _ _ _ _ _ (by norm_num) (by omega), demoTime_getD _ _ _ _ _ (by norm_num) (by omega), Spec.demoTimeAt,
            Spec.demoTimeAt, if_neg (by omega), if_neg (by omega)]
          have h6 : (k : ℝ) ≤ 12998 := by exact_mod_cast (by omega : k ≤ 12998)
          push_cast
          norm_num
          linarith
        norm_num at this ⊢
        linarith
    · rw [calibration_steps]; simp [demoVelocities]
    · intro h0
      have := congrArg List.length h0
      rw [calibration_steps] at this
      simp at this
  refine ⟨⟨by norm_num, by norm_num, ?_, by simp⟩, by simp, ?_, ?_⟩
  · intro s hs
    obtain rfl := List.mem_singleton.1 hs
    norm_num
  · intro w' hw'
    obtain rfl := List.mem_singleton.1 hw'
    constructor <;> simp only [calibrationRide, batchValues] <;> first | positivity | norm_num
  · rw [hcount, Nat.cast_one, div_one]
    refine OwnRide.runs (q := calibrationRide track) (n := 1) ?_ calibrationTrain_eq le_rfl ?_ ?_ noInt_three_halves
    · have e1 : (calibrationRide track).vel = demoVelocities 12999 5000 38.9 := by
        unfold calibrationRide
        dsimp only
        rw [calibration_steps]
      rw [e1]
      exact o
    · show (0 : ℝ) ≤ 9.81
      norm_num
    · show (0 : ℝ) < 9.1 / 10 ^ 7
      norm_num

theorem calibration_kept (w : RodValues ℝ) (hw : 0 < w.stiffness) (hm : w.mass = none) :
    KeptValues (3 / 5 / (1 : ℕ)) batchValues [w] := by
  refine ⟨?_, ?_, ?_, ?_, by norm_num [batchValues], by norm_num [batchValues]⟩
  · intro w' hw'
    obtain rfl := List.mem_singleton.1 hw'
    constructor <;> simp only [batchValues] <;> first | positivity | norm_num
  · intro m h
    simp only [batchValues, Option.some.injEq] at h
    linarith
  · intro w' hw' m h
    obtain rfl := List.mem_singleton.1 hw'
    rw [hm] at h
    cases h
  · intro k
    rw [BeamPart.stiffness, beamStiffness_eq, BeamPart.massMatrix, beamMass, beamTransMass_eq, beamRotMass_eq,
      if_neg (by norm_num [batchValues, timoshenkoFactor, shearModulus])]
    fin_cases k <;> constructor <;> norm_num [batchValues, timoshenkoFactor, shearModulus, fixity]

theorem calibrationTrain_dofs : calibrationTrain.numbering.next = 10 ∧ calibrationTrain.dof (.wheelY 1 1) = 9 ∧
    calibrationTrain.HasDof (.wheelY 1 1) := by
  refine ⟨rfl, rfl, ?_, ?_⟩
  · show 1 ∈ [0, 1]
    simp
  · show 1 < 2
    norm_num

/-- **C160, the observed wheel** Of the four wheels, that with the dof 9 is the front one. -/
theorem C160_front (track : HorizontalTrack ℝ) : (calibrationRide track).train.wheelList = [(0, 0), (0, 1), (1, 0), (1, 1)] ∧
    (calibrationRide track).startOf (0, 0) = 29.3 ∧ (calibrationRide track).startOf (0, 1) = 31.8 ∧
    (calibrationRide track).startOf (1, 0) = 49.3 ∧ (calibrationRide track).startOf (1, 1) = 51.8 := by
  have hp := row_places (fun _ =>
      (({ length := 28, mass := 75.5 * 10 ^ 3, bogie := 10, wheel := 1.25, bogieLength := 2 } : TrainData ℝ),
      ({ cartInertia := 128.8 * 10 ^ 3, cartStiffness := 2708 * 10 ^ 3, cartDamping := 64 * 10 ^ 3, bogieMass := 6 * 10 ^ 3,
         bogieInertia := 310, bogieStiffness := 4800 * 10 ^ 3, bogieDamping := 250, wheelMass := 3.5 * 10 ^ 3 } : BodyData ℝ))) 1
    (fun i => (calibrationRide track).starts.getD i 0) 0 (by norm_num)
  have key : ∀ k < 2, ∀ j < 2, (calibrationRide track).startOf (k, j) = 26.55 + 14 + [-10, (10 : ℝ)].getD k 0 + [-1.25, (1.25 : ℝ)].getD j 0 := by
    intro k hk j hj
    have := hp.2.2 k hk j hj
    rw [← calibrationTrain_eq, Nat.mul_zero, Nat.zero_add] at this
    exact this
  refine ⟨rfl, ?_, ?_, ?_, ?_⟩ <;> rw [key _ (by norm_num) _ (by norm_num)] <;> norm_num

/-- A result whose entries exist. -/
theorem resultRow_ok {K : Type*} [Field K] [LinearOrder K] [IsStrictOrderedRing K] (res : List (List K)) (r : OResult) (y : ℕ → ℕ → K)
    (x : ℕ → K) (hcell : ∀ c ∈ r.indices, ∀ t ∈ r.timeSteps, ∃ row, res[t]? = some row ∧ row[c]? = some (y c t))
    (hx : ∀ c ∈ r.indices, maxAbs (r.timeSteps.map (y c)) = .ok (x c)) : resultRow res r = .ok (r.indices.map x) := by
  unfold resultRow
  refine mapM_eq_map _ _ _ fun c hc => ?_
  rw [mapM_eq_map _ (y c) _ fun t ht => by
    obtain ⟨row, h1, h2⟩ := hcell c hc t ht
    rw [h1]
    simp only
    rw [h2]]
  exact hx c hc

section residual
variable {H : Type*} [DecidableEq H] (hash : (Fin 3 → ℝ) → H)

/-- Running the base model with the soil `w`. -/
theorem calibration_rows (indices : List ℕ)
    (solver : TrimState ℝ → (List (ℕ × List (ℕ → ℝ)) → List (ℕ → ℝ) → ℕ → (ℕ → ℝ) → ℕ → ℝ) → SolverOutput ℝ) (w : RodValues ℝ)
    (hw : 0 < w.stiffness) (hm : w.mass = none) :
    ∃ c rows res, combinedTrack hash 1 (3 / 5) [(200, 1)] = .ok c ∧ calibrationRows hash indices solver w = .ok rows ∧
      (calibrationRide (c.numbered (3 / 5))).mainOnCombinedStored hash c (3 / 5) [w] indices solver = .ok res ∧
      rows.length = indices.length ∧ res.trainRows.length = indices.length ∧
      ∀ (i : ℕ) (trow : List (NodeRow ℝ)) (row : List ℝ), res.trainRows[i]? = some trow → rows[i]? = some row →
        row[807]? = some (Spec.reportedDof ((calibrationRide (c.numbered (3 / 5))).partRow hash trow) NodeRow.displacement
          (.wheelY 1 1)) := by
  obtain ⟨c, -, hc, -⟩ := (C160_fits (HorizontalTrack.mk (fun _ => newNode 0 0 0) [] [] [] [] [] [] [] [] [] 0) w hw).track hash
    (3 / 5)
  obtain ⟨c', run, rows, res, hc', h1, h2, h3, h4, h5, -, h6⟩ := C160_layout hash (C160_fits (c.numbered (3 / 5)) w hw) rfl
    (calibration_kept w hw hm) (3 / 5) indices solver
  rw [hc] at hc'
  injection hc' with hc'
  subst hc'
  refine ⟨c, rows, res, hc, ?_, h3, h4, h5, ?_⟩
  · unfold calibrationRows
    rw [hc]
    simp only [bind, Except.bind]
    rw [h1]
    exact h2
  · intro i trow row ht hr
    have := h6 i trow row ht hr (.wheelY 1 1) calibrationTrain_dofs.2.2
    rw [show (calibrationRide (c.numbered (3 / 5))).train.dof (.wheelY 1 1) = 9 from calibrationTrain_dofs.2.1] at this
    simpa [railCount] using this

/-- **C160, what the calibration fits** For every stiffness above zero, every damping, every solver that stores at least 1299 steps, and after
every sequence of earlier evaluations: the residual of the script has two equal entries, the largest absolute vertical displacement that is
reported for the front wheel in the outputs 800 to 1298 of the calculation of its cart on soil with this stiffness and damping, minus 0.8 mm. -/
theorem C160_residual (parts : List (OPart ℝ)) (hlen : parts.length = 6) (hids : (parts.map OPart.id).Nodup)
    (results : String → List (List ℝ)) (indices : List ℕ) (hi : 1299 ≤ indices.length)
    (solver : TrimState ℝ → (List (ℕ × List (ℕ → ℝ)) → List (ℕ → ℝ) → ℕ → (ℕ → ℝ) → ℕ → ℝ) → SolverOutput ℝ)
    (history : List (List ℝ)) (stiffness damping : ℝ) (hk : 0 < stiffness) :
    ∃ o c res x, (calibration parts results).initialise = .ok o ∧ combinedTrack hash 1 (3 / 5) [(200, 1)] = .ok c ∧
      (calibrationRide (c.numbered (3 / 5))).mainOnCombinedStored hash c (3 / 5) [⟨stiffness, none, some damping⟩] indices solver = .ok res ∧
      IsGreatest {a | ∃ i rows, 800 ≤ i ∧ i < 1299 ∧ res.trainRows[i]? = some rows ∧
        a = |Spec.reportedDof ((calibrationRide (c.numbered (3 / 5))).partRow hash rows) NodeRow.displacement (.wheelY 1 1)|} x ∧
      ((o.evaluations (calibrationMain hash indices solver) history).residual (calibrationMain hash indices solver)
        [stiffness, damping]).2 = .ok [x - 0.0008, x - 0.0008] := by
  obtain ⟨c, rows, res, hc, hrows, hres, hl1, hl2, hcol⟩ := calibration_rows hash indices solver ⟨stiffness, none, some damping⟩ hk rfl
  have h4 : parts[4]? = some parts[4] := List.getElem?_eq_getElem (by omega)
  have hidx : (parts.map OPart.id).idxOf parts[4].id = 4 := by
    have := hids.idxOf_getElem 4 (by simp [hlen])
    simpa using this
  have hinit : (calibration parts results).initialise =
      .ok { calibration parts results with original := (calibration parts results).model, partIndices := [4] } := by
    unfold Optimisation.initialise
    simp only [calibration, h4, Option.map_some, Option.getD_some, List.mapM_cons, List.mapM_nil]
    rw [if_pos (List.mem_map_of_mem (List.getElem_mem _)), hidx]
    rfl
  -- the chosen column
  set y : ℕ → ℝ := fun t => Spec.reportedDof ((calibrationRide (c.numbered (3 / 5))).partRow hash (res.trainRows.getD t []))
    NodeRow.displacement (.wheelY 1 1) with hy
  obtain ⟨ts, hts⟩ := exists_eq (a' := (List.range 499).map (800 + ·))
  have htsm : ∀ t, t ∈ ts ↔ 800 ≤ t ∧ t < 1299 := by
    intro t
    rw [hts, List.mem_map]
    constructor
    · rintro ⟨j, hj, rfl⟩
      have := List.mem_range.1 hj
      omega
    · intro h
      exact ⟨t - 800, List.mem_range.2 (by omega), by omega⟩
  have hcell : ∀ t ∈ ts, ∃ row, rows[t]? = some row ∧ row[807]? = some (y t) := by
    intro t ht
    have htlt := (htsm t).1 ht
    have e1 : rows[t]? = some rows[t] := List.getElem?_eq_getElem (by omega)
    have e2 : res.trainRows[t]? = some res.trainRows[t] := List.getElem?_eq_getElem (by omega)
    refine ⟨_, e1, ?_⟩
    rw [hcol t _ _ e2 e1, hy]
    simp only [List.getD_eq_getElem?_getD, e2, Option.getD_some]
  obtain ⟨x, hx⟩ : ∃ x, maxAbs (ts.map y) = .ok x := by
    have h800 := (htsm 800).2 ⟨le_rfl, by norm_num⟩
    generalize ts = l at h800 ⊢
    cases l with
    | nil => simp at h800
    | cons t l => exact ⟨_, rfl⟩
  obtain ⟨⟨z, hz, hzx⟩, hmax⟩ := maxAbs_spec _ _ hx
  have hrow : resultRow rows ⟨["displacements_out"], [807, 807], ts⟩ = .ok [x, x] :=
    resultRow_ok rows _ (fun _ => y) (fun _ => x) (by simpa using hcell) fun _ _ => hx
  have hattr : ∃ p, (setParam (setParam parts 4 "stiffness" stiffness) 4 "damping" damping)[4]? = some p ∧
      p.attr "stiffness" = stiffness ∧ p.attr "damping" = damping := by
    refine ⟨{ parts[4] with attr := fun n => if n = "damping" then damping else if n = "stiffness" then stiffness else parts[4].attr n },
      ?_, ?_, ?_⟩
    · unfold setParam
      rw [List.getElem?_mapIdx, List.getElem?_mapIdx, h4]
      rfl
    · simp
    · simp
  obtain ⟨p, hp, hp1, hp2⟩ := hattr
  refine ⟨_, c, res, x, hinit, hc, hres, ⟨?_, ?_⟩, ?_⟩
  · obtain ⟨t, ht, rfl⟩ := List.mem_map.1 hz
    have htlt := (htsm t).1 ht
    have e2 : res.trainRows[t]? = some res.trainRows[t] := List.getElem?_eq_getElem (by omega)
    refine ⟨t, _, htlt.1, htlt.2, e2, ?_⟩
    rw [← hzx, hy]
    simp only [List.getD_eq_getElem?_getD, e2, Option.getD_some]
  · rintro a ⟨t, trow, h1, h2, e2, rfl⟩
    have := hmax (y t) (List.mem_map_of_mem ((htsm t).2 ⟨h1, h2⟩))
    rw [hy] at this
    simpa only [List.getD_eq_getElem?_getD, e2, Option.getD_some] using this
  · rw [(C68_history_independent _ _ _ _).1]
    unfold Optimisation.residual
    simp only [calibration, paramSlots, List.map_cons, List.map_nil, List.append_nil, List.cons_append, List.nil_append, setParams]
    unfold calibrationMain
    simp only [hp, hp1, hp2, hrows, collectResults, List.mapM_cons, List.mapM_nil, if_true, calibration_steps]
    rw [show 12999 / 10 - 800 = 499 from rfl, ← hts, hrow]
    rfl

/-- **C160 is violated: two parameters cannot be told apart** The two residuals that the script gives to the least squares fit of stiffness and
damping are equal for all parameters: there is one equation for two unknowns. -/
theorem C160_identifiable_violated (parts : List (OPart ℝ)) (hlen : parts.length = 6) (hids : (parts.map OPart.id).Nodup)
    (results : String → List (List ℝ)) (indices : List ℕ) (hi : 1299 ≤ indices.length)
    (solver : TrimState ℝ → (List (ℕ × List (ℕ → ℝ)) → List (ℕ → ℝ) → ℕ → (ℕ → ℝ) → ℕ → ℝ) → SolverOutput ℝ) :
    ∃ o, (calibration parts results).initialise = .ok o ∧ ∃ f : ℝ → ℝ → ℝ, ∀ history stiffness damping, 0 < stiffness →
      ((o.evaluations (calibrationMain hash indices solver) history).residual (calibrationMain hash indices solver)
        [stiffness, damping]).2 = .ok [f stiffness damping, f stiffness damping] := by
  obtain ⟨o, -, -, -, ho, -⟩ := C160_residual hash parts hlen hids results indices hi solver [] 1 0 one_pos
  refine ⟨o, ho, ?_⟩
  have : ∀ stiffness damping : ℝ, ∃ f, 0 < stiffness → ∀ history,
      ((o.evaluations (calibrationMain hash indices solver) history).residual (calibrationMain hash indices solver)
        [stiffness, damping]).2 = .ok [f, f] := by
    intro stiffness damping
    by_cases hk : 0 < stiffness
    · obtain ⟨o', c, res, x, ho', -, -, -, h⟩ := C160_residual hash parts hlen hids results indices hi solver [] stiffness damping hk
      rw [ho] at ho'
      injection ho' with ho'
      subst ho'
      refine ⟨x - 0.0008, fun _ history => ?_⟩
      rw [(C68_history_independent _ _ _ _).1] at h ⊢
      exact h
    · exact ⟨0, fun h => absurd h hk⟩
  choose f hf using this
  exact ⟨f, fun history stiffness damping hk => hf stiffness damping hk history⟩

/-- Six parts; the solver stores every tenth step. -/
example : ∃ o c res x, (calibration ((List.range 6).map fun i => ⟨i, fun _ => 0⟩) fun _ => []).initialise = .ok o ∧
    combinedTrack (fun p : Fin 3 → ℝ => p) 1 (3 / 5) [(200, 1)] = .ok c ∧
    (calibrationRide (c.numbered (3 / 5))).mainOnCombinedStored (fun p : Fin 3 → ℝ => p) c (3 / 5) [⟨10 ^ 8, none, some 30000⟩]
      ((List.range 1300).map (10 * ·)) (fun _ _ => ⟨fun t _ => t, fun _ _ => 0, fun _ _ => 0⟩) = .ok res ∧
    ((o.evaluations (calibrationMain (fun p : Fin 3 → ℝ => p) ((List.range 1300).map (10 * ·))
      fun _ _ => ⟨fun t _ => t, fun _ _ => 0, fun _ _ => 0⟩) [[10 ^ 7, 0], []]).residual
      (calibrationMain (fun p : Fin 3 → ℝ => p) ((List.range 1300).map (10 * ·)) fun _ _ => ⟨fun t _ => t, fun _ _ => 0, fun _ _ => 0⟩)
      [10 ^ 8, 30000]).2 = .ok [x - 0.0008, x - 0.0008] := by
  obtain ⟨o, c, res, x, h1, h2, h3, -, h4⟩ := C160_residual (fun p : Fin 3 → ℝ => p) ((List.range 6).map fun i => ⟨i, fun _ => 0⟩)
    (by simp) (by simp only [List.map_map]; exact List.nodup_range.map fun a b h => h) (fun _ => [])
    ((List.range 1300).map (10 * ·)) (by simp) (fun _ _ => ⟨fun t _ => t, fun _ _ => 0, fun _ _ => 0⟩) [[10 ^ 7, 0], []] (10 ^ 8) 30000
    (by norm_num)
  exact ⟨o, c, res, x, h1, h2, h3, h4⟩

end residual

end Rose
