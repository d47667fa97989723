/-
The batch scripts: which files are read and what is taken from them (C128), the table of scenarios (C129).
-/
import Verif.Props.Batch
import Verif.Props.Signal

set_option linter.unusedSectionVars false

namespace Rose

variable {K : Type} [Field K] [LinearOrder K]

/-- Specification: `v` is the entry of `history` at `step`; negative steps count from the end, -1 is the last entry. -/
def Spec.EntryAt (history : List K) (step : ℤ) (v : K) : Prop :=
  (0 ≤ step ∧ history[step.toNat]? = some v) ∨ (step < 0 ∧ history.reverse[(-step - 1).toNat]? = some v)

/-- Specification: `x` is the result in a file of settlements: the settlement of the node at the step, under the segment and the
scenario of the file name. -/
structure Spec.IsSettlementResult (node : ℕ) (step : ℤ) (f : SettlementFile K) (x : ResultFile K) : Prop where
  names : (x.segment, x.scenario) = segmentAndScenario f.file
  value : ∃ history, f.settlement.get? node = some history ∧ Spec.EntryAt history step x.value

/-- Specification: `m` is the largest absolute value in the history of the node. -/
def Spec.LargestAbs (rows : List (List K)) (node : ℕ) (m : K) : Prop :=
  ∃ row, rows[node]? = some row ∧ (∃ v ∈ row, |v| = m) ∧ ∀ v ∈ row, |v| ≤ m

/-- Specification: `x` is the result in a file of a calculation: largest force by largest displacement of the node, under the
segment and the scenario that follow the first part of the name. -/
structure Spec.IsStiffnessResult (node : ℕ) (f : DynamicFile K) (x : ResultFile K) : Prop where
  names : ∃ tag, f.name.splitOn '_' = [tag, x.segment, x.scenario]
  value : ∃ u F, Spec.LargestAbs f.displacements node u ∧ Spec.LargestAbs f.forces node F ∧ x.value = F / u

theorem pyIndex_entry (c : List K) (i : ℤ) (v : K) (h : pyIndex c i = .ok v) : Spec.EntryAt c i v := by
  unfold pyIndex at h
  dsimp only at h
  by_cases h0 : i < 0
  · rw [if_pos h0] at h
    by_cases h1 : i + (c.length : ℤ) < 0
    · rw [if_pos h1] at h; cases h
    · rw [if_neg h1] at h
      cases hv : c[(i + (c.length : ℤ)).toNat]? with
      | none => rw [hv] at h; cases h
      | some w =>
        rw [hv] at h
        cases h
        refine Or.inr ⟨h0, ?_⟩
        rw [List.getElem?_reverse (by omega), ← hv]
        congr 1
        omega
  · rw [if_neg h0, if_neg h0] at h
    cases hv : c[i.toNat]? with
    | none => rw [hv] at h; cases h
    | some w =>
      rw [hv] at h
      cases h
      exact Or.inl ⟨by omega, hv⟩

theorem readSettlement_result (node : ℕ) (step : ℤ) (f : SettlementFile K) (x : ResultFile K)
    (h : readSettlement node step f = .ok x) : Spec.IsSettlementResult node step f x := by
  unfold readSettlement at h
  cases h1 : f.settlement.get node with
  | error e => simp only [bind, Except.bind, h1] at h; cases h
  | ok history =>
    cases h2 : pyIndex history step with
    | error e => simp only [bind, Except.bind, h1, h2] at h; cases h
    | ok v =>
      simp only [bind, Except.bind, h1, h2] at h
      cases h
      exact ⟨rfl, history, PyDict.get_ok.1 h1, pyIndex_entry _ _ _ h2⟩

theorem largestAbs_result (rows : List (List K)) (node : ℕ) (m : K) (h : largestAbs rows node = .ok m) :
    Spec.LargestAbs rows node m := by
  unfold largestAbs at h
  cases h1 : rows[node]? with
  | none => rw [h1] at h; cases h
  | some row =>
    rw [h1] at h
    obtain ⟨h2, h3⟩ := npMax_spec _ _ h
    exact ⟨row, h1, List.mem_map.1 h2, fun v hv => h3 _ (List.mem_map_of_mem hv)⟩

theorem parseName_result (s : Name) (ids : Name × Name) (h : parseName s = .ok ids) :
    ∃ tag, s.splitOn '_' = [tag, ids.1, ids.2] := by
  unfold parseName splitName at h
  split at h
  · next a b c he => cases h; exact ⟨a, he⟩
  · cases h

theorem readDynamic_result (node : ℕ) (f : DynamicFile K) (x : ResultFile K) (h : readDynamic node f = .ok x) :
    Spec.IsStiffnessResult node f x := by
  unfold readDynamic at h
  cases h1 : largestAbs f.displacements node with
  | error e => simp only [bind, Except.bind, h1] at h; cases h
  | ok u =>
    cases h2 : largestAbs f.forces node with
    | error e => simp only [bind, Except.bind, h1, h2] at h; cases h
    | ok F =>
      cases h3 : parseName f.name with
      | error e => simp only [bind, Except.bind, h1, h2, h3] at h; cases h
      | ok ids =>
        simp only [bind, Except.bind, h1, h2, h3] at h
        cases h
        exact ⟨parseName_result _ _ h3, u, F, largestAbs_result _ _ _ h1, largestAbs_result _ _ _ h2, rfl⟩

theorem mapM_forall₂ {φ ρ : Type} (read : φ → Except Err ρ) (P : φ → ρ → Prop) (hP : ∀ f x, read f = .ok x → P f x) (files : List φ)
    (rs : List ρ) (h : files.mapM read = .ok rs) : List.Forall₂ P files rs := by
  induction files generalizing rs with
  | nil => cases h; exact .nil
  | cons f files ih =>
    rw [List.mapM_cons] at h
    cases hf : read f with
    | error e => rw [hf] at h; cases h
    | ok r =>
      cases hm : files.mapM read with
      | error e => simp only [bind, Except.bind, hf, hm] at h; cases h
      | ok rs' =>
        simp only [bind, Except.bind, hf, hm] at h
        cases h
        exact .cons (hP _ _ hf) (ih rs' hm)

/-- Specification: the weighted values of the results `rs` of a directory, of the segments whose results follow each other. -/
def Spec.WeightedResults (sos : SosFile K) (rs : List (ResultFile K)) (weighted : PyDict Name K) : Prop :=
  (∀ segment ∈ rs.map ResultFile.segment, Spec.Contiguous segment rs →
    weighted.get? segment = some (Spec.weightedSum sos (Spec.ofSegment segment rs))) ∧
  ∀ segment ∉ rs.map ResultFile.segment, weighted.get? segment = none

/-- **C128, settlements** (partial: for segments whose files are listed one after the other) The results are those of the files
whose name ends with `.json`, one result per file: the settlement of the node at the step. The weighted value of a segment is
the sum over its files of the settlement times the probability of the scenario. -/
theorem C128_settlement_partial (sos : SosFile K) (node : ℕ) (step : ℤ) (dir : List (SettlementFile K)) (r : BatchResult K)
    (h : batchSettlement sos node step dir = .ok r) :
    ∃ rs, List.Forall₂ (Spec.IsSettlementResult node step) (dir.filter fun f => decide (".json".toList <:+ f.file)) rs ∧
      Spec.WeightedResults sos rs r.weighted := by
  have hf : (dir.filter fun f => decide (".json".toList <:+ f.file)) = dir.filter fun f => endsWith f.file ".json".toList := by
    refine List.filter_congr fun f _ => ?_
    rw [endsWith, Bool.eq_iff_iff, decide_eq_true_iff, List.isSuffixOf_iff_suffix]
  obtain ⟨rs, hr, hw⟩ := C128_last_run _ _ _ _ h
  refine ⟨rs, ?_, fun s hs hc => ?_, fun s hs => ?_⟩
  · rw [hf]
    exact mapM_forall₂ _ _ (readSettlement_result node step) _ _ hr
  · rw [hw, if_pos hs, (Spec.lastRun_eq_iff s rs).2 hc]
  · rw [hw, if_neg hs]

/-- **C128, stiffnesses** (partial: for segments whose files are listed one after the other) The results are those of the files
whose name ends with the type of the train and `.pickle`, one result per file: the largest absolute force by the largest
absolute displacement of the node. The weighted value of a segment is the sum over its files of that stiffness times the
probability of the scenario. -/
theorem C128_stiffness_partial (sos : SosFile K) (node : ℕ) (train : Name) (dir : List (DynamicFile K)) (r : BatchResult K)
    (h : batchStiffness sos node train dir = .ok r) :
    ∃ rs, List.Forall₂ (Spec.IsStiffnessResult node) (dir.filter fun f => decide (train ++ ".pickle".toList <:+ f.file)) rs ∧
      Spec.WeightedResults sos rs r.weighted := by
  have hf : (dir.filter fun f => decide (train ++ ".pickle".toList <:+ f.file)) =
      dir.filter fun f => endsWith f.file (train ++ ".pickle".toList) := by
    refine List.filter_congr fun f _ => ?_
    rw [endsWith, Bool.eq_iff_iff, decide_eq_true_iff, List.isSuffixOf_iff_suffix]
  obtain ⟨rs, hr, hw⟩ := C128_last_run _ _ _ _ h
  refine ⟨rs, ?_, fun s hs hc => ?_, fun s hs => ?_⟩
  · rw [hf]
    exact mapM_forall₂ _ _ (readDynamic_result node) _ _ hr
  · rw [hw, if_pos hs, (Spec.lastRun_eq_iff s rs).2 hc]
  · rw [hw, if_neg hs]

/-- A file that is not of settlements has no influence. -/
example : exampleWeighted [exampleA1, exampleA2, exampleFile "Segment A_scenario 1.txt" 100] "Segment A" = some 14 ∧
    (match batchStiffness exampleSos 1 "intercity".toList
      [⟨"res_1_intercity.pickle".toList, "Kdyn_Segment A_scenario 1".toList, [[0], [-2, 1]], [[0], [4, -12]]⟩,
       ⟨"res_2_intercity.pickle".toList, "Kdyn_Segment A_scenario 2".toList, [[0], [1, 1]], [[0], [4, -12]]⟩,
       ⟨"res_2_cargo.pickle".toList, "Kdyn_Segment A_scenario 2".toList, [[0], [1, 1]], [[0], [5, -50]]⟩] with
      | .error _ => none
      | .ok r => r.weighted.get? "Segment A".toList) = some (6 * (3 / 5) + 12 * (2 / 5)) := by
  decide +kernel

/-! ### The table of scenarios -/

theorem scenarioRows_fold (sos : SosFile K) (d d' : PyDict Name (List (K × K) × ℕ)) (hn : (d.keys ++ sos.keys).Nodup)
    (h : sos.foldlM scenarioStep d = .ok d') :
    d' = d ++ sos.map fun e => (e.1, segmentCoordinates e.2, e.2.length) := by
  induction sos generalizing d with
  | nil => cases h; simp
  | cons e sos ih =>
    rw [List.foldlM_cons] at h
    obtain ⟨name, scenarios⟩ := e
    cases scenarios with
    | nil => cases h
    | cons s rest =>
      have hnot : name ∉ d.map Prod.fst := by
        have := (List.nodup_append.1 hn).2.2
        exact fun hm => this _ hm name (by simp [PyDict.keys]) rfl
      have := ih (d.set name (s.2.coordinates, (s :: rest).length)) ?_ h
      · rw [this, PyDict.set, if_neg hnot, List.append_assoc]
        rfl
      · rw [PyDict.set, if_neg hnot]
        simpa [PyDict.keys] using hn

/-- **C129, scenarios** The table of the numbers of scenarios lists for every segment of the soil data, in its order, all
coordinates of the segment with the number of its scenarios; it is written unless a segment has no scenario. -/
theorem C129_scenarios (sos : SosFile K) (hn : sos.keys.Nodup) :
    scenarioRows sos = if ∃ e ∈ sos, e.2 = [] then .error .indexError else
      .ok (sos.flatMap fun e => (segmentCoordinates e.2).map fun c => ⟨c.1, c.2, e.1, (e.2.length : K)⟩) := by
  unfold scenarioRows
  split
  · next hex =>
    suffices ∀ d : PyDict Name (List (K × K) × ℕ), sos.foldlM scenarioStep d = .error .indexError by
      rw [this]; rfl
    clear hn
    induction sos with
    | nil => obtain ⟨e, he, -⟩ := hex; cases he
    | cons e sos ih =>
      intro d
      obtain ⟨name, scenarios⟩ := e
      rw [List.foldlM_cons]
      cases scenarios with
      | nil => rfl
      | cons s rest =>
        refine ih ?_ _
        obtain ⟨e, he, hs⟩ := hex
        rcases List.mem_cons.1 he with rfl | he
        · cases hs
        · exact ⟨e, he, hs⟩
  · next hex =>
    have hok : ∀ d : PyDict Name (List (K × K) × ℕ), ∃ d', sos.foldlM scenarioStep d = .ok d' := by
      clear hn
      induction sos with
      | nil => exact fun d => ⟨d, rfl⟩
      | cons e sos ih =>
        intro d
        obtain ⟨name, scenarios⟩ := e
        rw [List.foldlM_cons]
        cases scenarios with
        | nil => exact absurd ⟨_, List.mem_cons_self, rfl⟩ hex
        | cons s rest => exact ih (fun ⟨e, he, hs⟩ => hex ⟨e, List.mem_cons_of_mem _ he, hs⟩) _
    obtain ⟨d', hd⟩ := hok []
    rw [hd]
    have := scenarioRows_fold sos [] d' (by simpa [PyDict.keys] using hn) hd
    rw [List.nil_append] at this
    subst this
    simp only [bind, Except.bind, pure, Except.pure, List.flatMap_map]

/-- Segment A has two scenarios, segment B has one. -/
example : (match scenarioRows exampleSos with
    | .error _ => []
    | .ok rows => rows.map fun row => (row.x, row.value)) = [(0, 2), (10, 2), (20, 1)] := by decide +kernel

end Rose
