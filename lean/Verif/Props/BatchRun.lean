/-
The batch scripts: names of results (C130), trains of a segment (C131), layering of all scenarios (C132), result files of a
batch calculation (C133), the distance shown (C134) and the older table (C135).
-/
import Verif.Props.Batch
import Verif.Props.MovingLoad
import Verif.Props.Signal
import Verif.Model.BatchRun

set_option linter.unusedSectionVars false

namespace Rose

variable {K : Type} [Field K] [LinearOrder K]

/-! ### C130: names -/

theorem splitName_length (s : Name) : (splitName s).length = s.count '_' + 1 := by
  unfold splitName
  induction s with
  | nil => rfl
  | cons c s ih =>
    rw [List.splitOn_cons_eq_if_modifyHead]
    by_cases h : c = '_'
    · subst h
      simp [ih]
    · rw [if_neg (by simpa using h), List.length_modifyHead, ih, List.count_cons_of_ne h]

/-- **C130, result name** For all names: segment and scenario are found back in the name of a result exactly if neither contains an
underscore (the tag in front contains none). -/
theorem C130_parse_iff (tag segment scenario : Name) (ht : '_' ∉ tag) :
    parseName (resultName tag segment scenario) = .ok (segment, scenario) ↔ '_' ∉ segment ∧ '_' ∉ scenario := by
  have hs : splitName (resultName tag segment scenario) = tag :: (splitName segment ++ splitName scenario) := by
    unfold splitName resultName wolfName
    rw [List.splitOn_append_cons_self_of_not_mem ht, List.splitOn_append_cons_self]
  constructor
  · intro h
    unfold parseName at h
    have hl : (splitName (resultName tag segment scenario)).length = 3 := by
      split at h
      · rename_i heq; rw [heq]; rfl
      · cases h
    rw [hs, List.length_cons, List.length_append, splitName_length, splitName_length] at hl
    constructor
    · exact List.count_eq_zero.1 (by omega)
    · exact List.count_eq_zero.1 (by omega)
  · rintro ⟨h1, h2⟩
    unfold parseName
    rw [hs]
    unfold splitName
    rw [List.splitOn_eq_singleton h1, List.splitOn_eq_singleton h2]
    rfl

/-- Otherwise reading the result raises. -/
theorem C130_parse_error (tag segment scenario : Name) (ht : '_' ∉ tag) (h : '_' ∈ segment ∨ '_' ∈ scenario) :
    parseName (resultName tag segment scenario) = .error .valueError := by
  have hs : splitName (resultName tag segment scenario) = tag :: (splitName segment ++ splitName scenario) := by
    unfold splitName resultName wolfName
    rw [List.splitOn_append_cons_self_of_not_mem ht, List.splitOn_append_cons_self]
  have hl : (splitName (resultName tag segment scenario)).length ≠ 3 := by
    rw [hs, List.length_cons, List.length_append, splitName_length, splitName_length]
    have : 0 < segment.count '_' ∨ 0 < scenario.count '_' := by
      rcases h with h | h
      · exact Or.inl (List.count_pos_iff.2 h)
      · exact Or.inr (List.count_pos_iff.2 h)
    omega
  unfold parseName
  split
  · rename_i heq
    rw [heq] at hl
    exact absurd rfl hl
  · rfl

/-- **C130, violated** An underscore in the name of a segment makes the results unreadable, and two scenarios of different segments can
get one name. -/
theorem C130_underscore_violated :
    parseName (resultName "Kdyn".toList "Segment_1001".toList "scenario 1".toList) = .error .valueError ∧
    wolfName "A_1".toList "2".toList = wolfName "A".toList "1_2".toList := by
  constructor
  · exact C130_parse_error _ _ _ (by decide) (Or.inl (by decide))
  · decide

/-- **C130, distinct names** Scenarios of segments without underscore have different names. -/
theorem C130_distinct (s s' c c' : Name) (h : '_' ∉ s) (h' : '_' ∉ s') (e : wolfName s c = wolfName s' c') : s = s' ∧ c = c' := by
  unfold wolfName at e
  induction s generalizing s' with
  | nil =>
    cases s' with
    | nil => simpa using e
    | cons a s' =>
      rw [List.nil_append, List.cons_append] at e
      have := (List.cons.inj e).1
      exact absurd (this ▸ List.mem_cons_self) h'
  | cons a s ih =>
    cases s' with
    | nil =>
      rw [List.nil_append, List.cons_append] at e
      have := (List.cons.inj e).1
      exact absurd (this ▸ List.mem_cons_self) h
    | cons b s' =>
      rw [List.cons_append, List.cons_append] at e
      obtain ⟨e1, e2⟩ := List.cons.inj e
      obtain ⟨i1, i2⟩ := ih s' (fun hm => h (List.mem_cons_of_mem _ hm)) (fun hm => h' (List.mem_cons_of_mem _ hm)) e2
      exact ⟨by rw [e1, i1], i2⟩

/-- **C130, finding the files** A file written by `batch_calculation` is found by `get_batch_dynamic_stiffnesses` and
`batch_varandas` under a type of train exactly if the name of the result ends with that type. -/
theorem C130_found_iff (name train : Name) :
    endsWith (resultFileName name) (train ++ ".pickle".toList) = true ↔ train <:+ "res_".toList ++ name := by
  unfold endsWith resultFileName
  rw [List.isSuffixOf_iff_suffix]
  constructor
  · rintro ⟨t, ht⟩
    rw [← List.append_assoc] at ht
    exact ⟨t, List.append_cancel_right ht⟩
  · rintro ⟨t, ht⟩
    exact ⟨t, by rw [← List.append_assoc, ht]⟩

/-- **C130, violated** The results of a batch calculation are not found under the type of train. -/
theorem C130_found_violated :
    endsWith (resultFileName (resultName "Kdyn".toList "Segment 1001".toList "scenario 1".toList)) "intercity.pickle".toList = false ∧
    trainFiles [resultFileName (resultName "Kdyn".toList "Segment 1001".toList "scenario 1".toList)] "intercity".toList = [] := by
  decide

theorem dropWhile_all {α : Type} (p : α → Bool) (l m : List α) (h : ∀ x ∈ l, p x = true) : (l ++ m).dropWhile p = m.dropWhile p :=
  List.dropWhile_append_of_pos h

/-- **C130, name of the settlement file** For all names: stripping the characters of `intercity.pickle` from a file name of the batch
leaves the name of the result between `s_` and `_` (the file name with its first two letters and its ending removed). -/
theorem C130_outName (name : Name) :
    outName (trainFileName name "intercity".toList) = "s_".toList ++ name ++ "_".toList := by
  unfold outName strip trainFileName
  have e1 : ("res_".toList ++ name ++ '_' :: "intercity".toList ++ ".pickle".toList) =
      "re".toList ++ ('s' :: ('_' :: name ++ '_' :: "intercity.pickle".toList)) := by
    have : "res_".toList = "re".toList ++ ['s', '_'] := by decide
    have h2 : "intercity.pickle".toList = "intercity".toList ++ ".pickle".toList := by decide
    rw [this, h2]
    simp
  rw [e1, dropWhile_all _ _ _ (by decide), List.dropWhile_cons_of_neg (by decide)]
  have e2 : ('s' :: ('_' :: name ++ '_' :: "intercity.pickle".toList)).reverse =
      "intercity.pickle".toList.reverse ++ '_' :: ('s' :: '_' :: name).reverse := by
    simp
  rw [e2, dropWhile_all _ _ _ (by decide), List.dropWhile_cons_of_neg (by decide), List.reverse_cons, List.reverse_reverse]
  have : "s_".toList = ['s', '_'] := by decide
  have h3 : "_".toList = ['_'] := by decide
  rw [this, h3]
  simp

/-- The name of the settlement file of a scenario. -/
def scenarioSettlementFile (tag segment scenario : Name) : Name :=
  settlementFileName (trainFileName (resultName tag segment scenario) "intercity".toList)

theorem scenarioSettlementFile_split (tag segment scenario : Name) (h0 : '_' ∉ tag) (h1 : '_' ∉ segment) (h2 : '_' ∉ scenario) :
    splitName (scenarioSettlementFile tag segment scenario) =
      ["s".toList, tag, segment, scenario, [], "incl".toList, "cargo".toList, "100d.json".toList] := by
  unfold scenarioSettlementFile settlementFileName
  rw [C130_outName]
  have e : "s_".toList ++ resultName tag segment scenario ++ "_".toList ++ "_incl_cargo_100d.json".toList =
      "s".toList ++ '_' :: (tag ++ '_' :: (segment ++ '_' :: (scenario ++ '_' :: ([] ++ '_' :: "incl_cargo_100d.json".toList)))) := by
    unfold resultName wolfName
    have a1 : "s_".toList = "s".toList ++ ['_'] := by decide
    have a2 : "_".toList = ['_'] := by decide
    have a3 : "_incl_cargo_100d.json".toList = '_' :: "incl_cargo_100d.json".toList := by decide
    rw [a1, a2, a3]
    simp
  rw [e]
  unfold splitName
  rw [List.splitOn_append_cons_self_of_not_mem (by decide), List.splitOn_append_cons_self_of_not_mem h0,
    List.splitOn_append_cons_self_of_not_mem h1, List.splitOn_append_cons_self_of_not_mem h2,
    List.splitOn_append_cons_self_of_not_mem (by simp)]
  have : List.splitOn '_' "incl_cargo_100d.json".toList = ["incl".toList, "cargo".toList, "100d.json".toList] := by decide
  rw [this]

/-- **C130, settlement files** (partial: for names without underscore, a segment name with `segment` and a scenario name with
`scenario` and without `segment`) Segment and scenario are found back in the name of the settlement file that the batch writes for
them. -/
theorem C130_settlement_partial (tag segment scenario : Name) (h0 : '_' ∉ tag) (h1 : '_' ∉ segment) (h2 : '_' ∉ scenario)
    (hs : contains (lower segment) "segment".toList = true) (hc : contains (lower scenario) "scenario".toList = true)
    (hcs : contains (lower scenario) "segment".toList = false) :
    segmentAndScenario (scenarioSettlementFile tag segment scenario) = (segment, scenario) := by
  unfold segmentAndScenario
  rw [scenarioSettlementFile_split tag segment scenario h0 h1 h2]
  have n1 : contains (lower []) "segment".toList = false ∧ contains (lower []) "scenario".toList = false := by decide
  have n2 : contains (lower "incl".toList) "segment".toList = false ∧ contains (lower "incl".toList) "scenario".toList = false := by decide
  have n3 : contains (lower "cargo".toList) "segment".toList = false ∧ contains (lower "cargo".toList) "scenario".toList = false := by decide
  have n4 : contains (lower "100d.json".toList) "segment".toList = false ∧ contains (lower "100d.json".toList) "scenario".toList = false := by
    decide
  simp only [List.foldl_cons, List.foldl_nil, n1.1, n1.2, n2.1, n2.2, n3.1, n3.2, n4.1, n4.2, hs, hc, hcs, if_true, Bool.false_eq_true, if_false]

example : segmentAndScenario (scenarioSettlementFile "Kdyn".toList "Segment 1001".toList "scenario 2".toList) =
    ("Segment 1001".toList, "scenario 2".toList) :=
  C130_settlement_partial _ _ _ (by decide) (by decide) (by decide) (by decide) (by decide) (by decide)

example : scenarioSettlementFile "Kdyn".toList "Segment 1001".toList "scenario 2".toList =
    "s_Kdyn_Segment 1001_scenario 2__incl_cargo_100d.json".toList := by decide

/-- **C130, violated** A segment with a plain number for a name is not found back: its settlements are looked up under the empty name. -/
theorem C130_settlement_violated :
    segmentAndScenario (scenarioSettlementFile "Kdyn".toList "1001".toList "scenario 2".toList) = ([], "scenario 2".toList) := by
  decide

/-! ### C131: trains of a segment -/

/-- The three files are the results of the three types of train for one name. -/
def Spec.SameResult (t : Name × Name × Name) : Prop :=
  ∃ name, t.1 = trainFileName name "intercity".toList ∧ t.2.1 = trainFileName name "sprinter".toList ∧
    t.2.2 = trainFileName name "cargo".toList

theorem trainFileName_injective (train : Name) {a b : Name} (h : trainFileName a train = trainFileName b train) : a = b := by
  unfold trainFileName at h
  have h1 := List.append_cancel_right h
  have h2 := List.append_cancel_right h1
  exact List.append_cancel_left h2

/-- **C131, exactly when** Whatever else the directory contains: if the files of the three types of train are listed for the names
`a`, `b` and `c`, the batch accepts the directory exactly if there are as many of each, and then it calculates the trains of one
result together exactly if the three types are listed in the same order. -/
theorem C131_same_result_iff (dir a b c : List Name)
    (ha : trainFiles dir "intercity".toList = a.map fun n => trainFileName n "intercity".toList)
    (hb : trainFiles dir "sprinter".toList = b.map fun n => trainFileName n "sprinter".toList)
    (hc : trainFiles dir "cargo".toList = c.map fun n => trainFileName n "cargo".toList) :
    ((∃ ts, trainTriples dir = .ok ts) ↔ a.length = b.length ∧ b.length = c.length) ∧
    ∀ ts, trainTriples dir = .ok ts → ((∀ t ∈ ts, Spec.SameResult t) ↔ a = b ∧ b = c) := by
  unfold trainTriples
  rw [ha, hb, hc]
  simp only [List.length_map]
  constructor
  · constructor
    · rintro ⟨ts, h⟩
      split at h
      · assumption
      · cases h
    · intro h
      rw [if_pos h]
      exact ⟨_, rfl⟩
  · intro ts h
    split at h
    · rename_i hl
      have := Except.ok.inj h
      subst this
      clear h ha hb hc
      induction a generalizing b c with
      | nil =>
        have hb0 : b = [] := List.eq_nil_of_length_eq_zero hl.1.symm
        subst hb0
        have hc0 : c = [] := List.eq_nil_of_length_eq_zero hl.2.symm
        subst hc0
        simp
      | cons x a ih =>
        cases b with
        | nil => simp at hl
        | cons y b =>
          cases c with
          | nil => simp at hl
          | cons z c =>
            have hi := ih b c ⟨by simpa using hl.1, by simpa using hl.2⟩
            simp only [List.map_cons, List.zip_cons_cons, List.mem_cons, forall_eq_or_imp]
            have hx : Spec.SameResult (trainFileName x "intercity".toList, trainFileName y "sprinter".toList, trainFileName z "cargo".toList) ↔
                x = y ∧ y = z := by
              constructor
              · rintro ⟨n, h1, h2, h3⟩
                have e1 := trainFileName_injective _ h1
                have e2 := trainFileName_injective _ h2
                have e3 := trainFileName_injective _ h3
                exact ⟨by rw [e1, e2], by rw [e2, e3]⟩
              · rintro ⟨rfl, rfl⟩
                exact ⟨x, rfl, rfl, rfl⟩
            refine (and_congr hx hi).trans ?_
            constructor
            · rintro ⟨⟨rfl, rfl⟩, rfl, rfl⟩
              exact ⟨rfl, rfl⟩
            · rintro ⟨h1, h2⟩
              obtain ⟨rfl, rfl⟩ := List.cons.inj h1
              obtain ⟨rfl, rfl⟩ := List.cons.inj h2
              exact ⟨⟨rfl, rfl⟩, rfl, rfl⟩
    · cases h

/-- A directory with two results for three types of train, listed by result. -/
def exampleDir : List Name :=
  ["res_A_intercity.pickle".toList, "res_A_sprinter.pickle".toList, "res_A_cargo.pickle".toList,
   "res_B_intercity.pickle".toList, "res_B_sprinter.pickle".toList, "res_B_cargo.pickle".toList]

example : ∃ ts, trainTriples exampleDir = .ok ts ∧ ts.length = 2 ∧ ∀ t ∈ ts, Spec.SameResult t := by
  have h := C131_same_result_iff exampleDir ["A".toList, "B".toList] ["A".toList, "B".toList] ["A".toList, "B".toList]
    (by decide) (by decide) (by decide)
  obtain ⟨ts, hts⟩ := h.1.2 ⟨rfl, rfl⟩
  refine ⟨ts, hts, ?_, (h.2 ts hts).2 ⟨rfl, rfl⟩⟩
  have e : trainTriples exampleDir = .ok [("res_A_intercity.pickle".toList, "res_A_sprinter.pickle".toList, "res_A_cargo.pickle".toList),
    ("res_B_intercity.pickle".toList, "res_B_sprinter.pickle".toList, "res_B_cargo.pickle".toList)] := rfl
  rw [e] at hts
  rw [← Except.ok.inj hts]
  rfl

/-- **C131, violated** If the files are listed in another order, the trains of different segments are calculated together: here the
intercity of A with the sprinter and the cargo train of B. -/
theorem C131_same_result_violated : ∃ dir, dir.Perm exampleDir ∧ ∃ ts, trainTriples dir = .ok ts ∧ ∃ t ∈ ts,
    t = ("res_A_intercity.pickle".toList, "res_B_sprinter.pickle".toList, "res_B_cargo.pickle".toList) ∧ ¬ Spec.SameResult t := by
  refine ⟨["res_A_intercity.pickle".toList, "res_B_intercity.pickle".toList, "res_B_sprinter.pickle".toList, "res_B_cargo.pickle".toList,
    "res_A_sprinter.pickle".toList, "res_A_cargo.pickle".toList], by decide, _, rfl, _, List.mem_cons_self, rfl, ?_⟩
  rintro ⟨n, h1, h2, -⟩
  have e1 : trainFileName "A".toList "intercity".toList = trainFileName n "intercity".toList := by rw [← h1]; decide
  have e2 : trainFileName "B".toList "sprinter".toList = trainFileName n "sprinter".toList := by rw [← h2]; decide
  have := (trainFileName_injective _ e1).trans (trainFileName_injective _ e2).symm
  exact absurd this (by decide)

/-- **C131, violated** Whatever the directory contains, no settlements are written: the batch uses members that the class does not have, and
ignores the exception. -/
theorem C131_output_violated (dir : List Name) (out : List Name) (h : varandasOutput dir = .ok out) : out = [] := by
  unfold varandasOutput at h
  cases ht : trainTriples dir with
  | error e => rw [ht] at h; cases h
  | ok ts =>
    rw [ht] at h
    rw [← Except.ok.inj h]
    have : (varandasUsed.all fun m => varandasMembers.contains m) = false := by decide
    rw [this]
    simp

example : ∃ out, varandasOutput exampleDir = .ok out := ⟨_, rfl⟩

/-! ### C132: layering of all scenarios -/

/-- The scenarios of the soil data in order. -/
def Spec.allScenarios {α : Type} (data : PyDict Name (PyDict Name α)) : List (Name × Name × α) :=
  data.flatMap fun s => s.2.map fun e => (s.1, e.1, e.2)

theorem mapM_except {α β : Type} (f : α → Except Err β) (l : List α) (out : List β) (h : l.mapM f = .ok out) :
    List.Forall₂ (fun a b => f a = .ok b) l out := by
  induction l generalizing out with
  | nil => cases h; exact List.Forall₂.nil
  | cons a l ih =>
    rw [List.mapM_cons] at h
    cases ha : f a with
    | error e => rw [ha] at h; cases h
    | ok b =>
      cases hl : l.mapM f with
      | error e => simp only [bind, Except.bind, ha, hl] at h; cases h
      | ok bs =>
        simp only [bind, Except.bind, ha, hl] at h
        cases h
        exact List.Forall₂.cons ha (ih bs hl)

theorem forall₂_mapM {α β : Type} (f : α → Except Err β) (l : List α) (out : List β)
    (h : List.Forall₂ (fun a b => f a = .ok b) l out) : l.mapM f = .ok out := by
  induction h with
  | nil => rfl
  | cons ha _ ih => rw [List.mapM_cons, ha, ih]; rfl

/-- **C132** The input for the dynamic stiffness has, in the order of the soil data, one entry for every scenario of every segment, with the
name made of the segment and the scenario, and the layering of that scenario (see C75). -/
theorem C132_layering (data : PyDict Name (PyDict Name (SosData K))) (out : List (Name × List (WolfRow K))) (h : wolfInput data = .ok out) :
    List.Forall₂ (fun s e => e.1 = wolfName s.1 s.2.1 ∧ wolfLayering s.2.2 = .ok e.2) (Spec.allScenarios data) out := by
  unfold wolfInput at h
  cases hm : data.mapM (fun s => s.2.mapM (wolfEntry s.1)) with
  | error e => rw [hm] at h; cases h
  | ok layers =>
    rw [hm] at h
    have := Except.ok.inj h
    subst this
    have hf := mapM_except _ data layers hm
    clear hm h
    unfold Spec.allScenarios
    induction hf with
    | nil => exact List.Forall₂.nil
    | @cons s l data layers hs _ ih =>
      rw [List.flatMap_cons, List.flatten_cons]
      refine List.rel_append ?_ ih
      have h1 := mapM_except _ s.2 l hs
      rw [List.forall₂_map_left_iff]
      refine h1.imp ?_
      intro e out he
      unfold wolfEntry at he
      cases hw : wolfLayering e.2 with
      | error x => rw [hw] at he; cases he
      | ok rows =>
        rw [hw] at he
        rw [← Except.ok.inj he]
        exact ⟨rfl, rfl⟩

/-- **C132, no failure** If every scenario has at least one layer and complete columns, the input is written. -/
theorem C132_succeeds (data : PyDict Name (PyDict Name (SosData K)))
    (hc : ∀ s ∈ Spec.allScenarios data, ∃ n, s.2.2.names.length = n + 1 ∧ s.2.2.shear.length = n + 1 ∧ s.2.2.poisson.length = n + 1 ∧
      s.2.2.gamma.length = n + 1 ∧ s.2.2.damping.length = n + 1 ∧ s.2.2.top.length = n + 1) :
    ∃ out, wolfInput data = .ok out ∧ out.length = (Spec.allScenarios data).length := by
  have hex : ∃ layers, data.mapM (fun s => s.2.mapM (wolfEntry s.1)) = .ok layers := by
    have hs : ∀ s ∈ data, ∃ l, s.2.mapM (wolfEntry s.1) = .ok l := by
      intro s hs
      have he : ∀ e ∈ s.2, ∃ x, wolfEntry s.1 e = .ok x := by
        intro e he
        obtain ⟨n, h0, h1, h2, h3, h4, h5⟩ := hc (s.1, e.1, e.2) (List.mem_flatMap.2 ⟨s, hs, List.mem_map.2 ⟨e, he, rfl⟩⟩)
        obtain ⟨rows, hr, -⟩ := C75_layers e.2 n h0 h1 h2 h3 h4 h5
        refine ⟨(wolfName s.1 e.1, rows), ?_⟩
        unfold wolfEntry
        rw [hr]
        rfl
      generalize s.2 = l at he
      induction l with
      | nil => exact ⟨[], rfl⟩
      | cons e l ih =>
        obtain ⟨x, hx⟩ := he e List.mem_cons_self
        obtain ⟨xs, hxs⟩ := ih fun e' h' => he e' (List.mem_cons_of_mem _ h')
        exact ⟨x :: xs, by rw [List.mapM_cons, hx, hxs]; rfl⟩
    clear hc
    induction data with
    | nil => exact ⟨[], rfl⟩
    | cons s data ih =>
      obtain ⟨x, hx⟩ := hs s List.mem_cons_self
      obtain ⟨xs, hxs⟩ := ih fun e' h' => hs e' (List.mem_cons_of_mem _ h')
      exact ⟨x :: xs, by rw [List.mapM_cons, hx, hxs]; rfl⟩
  obtain ⟨layers, hl⟩ := hex
  have hok : wolfInput data = .ok layers.flatten := by
    unfold wolfInput
    rw [hl]
    rfl
  exact ⟨_, hok, (C132_layering data _ hok).length_eq.symm⟩

example : ∃ out, wolfInput ([("Segment 1".toList, [("scenario 1".toList, ⟨["clay", "sand"], [20, 60], [1/3, 1/3], [18, 20], [1/50, 1/50], [0, -4]⟩),
    ("scenario 2".toList, ⟨["sand"], [60], [1/3], [20], [1/50], [0]⟩)])] : PyDict Name (PyDict Name (SosData ℚ))) = .ok out ∧ out.length = 2 := by
  obtain ⟨out, h1, h2⟩ := C132_succeeds ([("Segment 1".toList, [("scenario 1".toList, ⟨["clay", "sand"], [20, 60], [1/3, 1/3], [18, 20], [1/50, 1/50], [0, -4]⟩),
    ("scenario 2".toList, ⟨["sand"], [60], [1/3], [20], [1/50], [0]⟩)])] : PyDict Name (PyDict Name (SosData ℚ))) (by
    intro s hs
    simp only [Spec.allScenarios, List.flatMap_cons, List.flatMap_nil, List.map_cons, List.map_nil, List.append_nil, List.mem_cons, List.not_mem_nil, or_false] at hs
    rcases hs with rfl | rfl
    · exact ⟨1, rfl, rfl, rfl, rfl, rfl, rfl⟩
    · exact ⟨0, rfl, rfl, rfl, rfl, rfl, rfl⟩)
  exact ⟨out, h1, h2⟩

/-! ### C133: result files of a batch calculation -/

theorem resultFileName_injective {a b : Name} (h : resultFileName a = resultFileName b) : a = b := by
  unfold resultFileName at h
  exact List.append_cancel_left (List.append_cancel_right h)

theorem batchCalculation_fold {σ ρ : Type} (run : BatchModel K σ → BatchModel K σ) (content : BatchModel K σ → ρ) (base : BatchModel K σ)
    (d v : K) (results : List (WolfResult K)) (dir : PyDict Name ρ) :
    (results.foldl (fun (st : BatchModel K σ × PyDict Name ρ) r =>
      let copy := st.1
      let done := run (prepareCase (r.stiffness * d) (r.damping * d) v copy)
      (st.1, st.2.set (resultFileName r.name) (content done))) (base, dir)) =
    (base, results.foldl (fun (dir : PyDict Name ρ) r =>
      dir.set (resultFileName r.name) (content (run (prepareCase (r.stiffness * d) (r.damping * d) v base)))) dir) := by
  induction results generalizing dir with
  | nil => rfl
  | cons r results ih => rw [List.foldl_cons, List.foldl_cons]; exact ih _

/-- **C133** For every list of scenarios with different names, whatever the calculation does to the model: the result file of a
scenario holds the result of the calculation for the base model with stiffness and damping of that scenario times the sleeper
distance, independent of the other scenarios and their order. -/
theorem C133_result_file {σ ρ : Type} (run : BatchModel K σ → BatchModel K σ) (content : BatchModel K σ → ρ) (base : BatchModel K σ)
    (d v : K) (results : List (WolfResult K)) (hn : (results.map WolfResult.name).Nodup) (r : WolfResult K) (hr : r ∈ results) :
    (batchCalculation run content base d v results).get? ("res_".toList ++ r.name ++ ".pickle".toList) =
      some (content (run { base with soilStiffness := r.stiffness * d, soilDamping := r.damping * d,
                                     velocities := base.velocities.map fun x => if x > 1 / 10 ^ 10 then v else x })) := by
  unfold batchCalculation
  rw [batchCalculation_fold]
  dsimp only
  change PyDict.get? _ (resultFileName r.name) = _
  generalize hdir : ([] : PyDict Name ρ) = dir
  clear hdir
  induction results using List.reverseRecOn with
  | nil => cases hr
  | append_singleton l g ih =>
    rw [List.foldl_append, List.foldl_cons, List.foldl_nil, PyDict.get?_set]
    rw [List.map_append, List.nodup_append] at hn
    rw [List.mem_append, List.mem_singleton] at hr
    rcases hr with hr | rfl
    · rw [if_neg]
      · exact ih hn.1 hr
      · intro e
        exact hn.2.2 _ (List.mem_map_of_mem hr) _ (by simp) (resultFileName_injective e)
    · rw [if_pos rfl]
      rfl

/-- **C133, velocity** The train stands still in the initial steps and runs with the given velocity afterwards, if the velocity of the
base model is above the threshold of the script. -/
theorem C133_velocity [IsStrictOrderedRing K] {σ : Type} (n ini : ℕ) (v0 v stiffness damping : K) (base : BatchModel K σ)
    (hb : base.velocities = baseVelocities n ini v0) (h0 : v0 > 1 / 10 ^ 10) (i : ℕ) (hi : i < n) :
    (prepareCase stiffness damping v base).velocities[i]? = some (if i < ini then 0 else v) := by
  unfold prepareCase
  dsimp only
  rw [hb, baseVelocities, List.map_map, List.getElem?_map, List.getElem?_range hi]
  simp only [Option.map_some, Function.comp_apply, Option.some.injEq]
  by_cases h : i < ini
  · rw [if_pos h, if_neg, if_pos h]
    rw [not_lt]
    positivity
  · rw [if_neg h, if_pos h0, if_neg h]

example : (prepareCase 1 2 40 (⟨0, 0, baseVelocities 4 2 (389 / 10), ()⟩ : BatchModel ℚ Unit)).velocities = [0, 0, 40, 40] := by decide +kernel

theorem sampled_aux {α : Type} (k : ℕ) (hk : 0 < k) (xs : List α) (o i : ℕ) :
    (((xs.zipIdx (o * k)).filter fun e => e.2 % k = 0).map Prod.fst)[i]? = xs[k * i]? ∧
    ∀ m, 0 < m → m ≤ k → (((xs.zipIdx (o * k + m)).filter fun e => e.2 % k = 0).map Prod.fst)[i]? = xs[k * i + (k - m)]? := by
  induction xs generalizing o i with
  | nil => simp
  | cons x xs ih =>
    constructor
    · rw [List.zipIdx_cons, List.filter_cons_of_pos (by simp), List.map_cons]
      cases i with
      | zero => simp
      | succ i =>
        rw [List.getElem?_cons_succ, (ih o i).2 1 (by omega) (by omega)]
        rw [show k * (i + 1) = (k * i + (k - 1)) + 1 by rw [Nat.mul_succ]; omega, List.getElem?_cons_succ]
    · intro m h0 hm
      by_cases he : m = k
      · subst he
        rw [List.zipIdx_cons, List.filter_cons_of_pos (by simp), List.map_cons, Nat.sub_self, Nat.add_zero]
        cases i with
        | zero => simp
        | succ i =>
          rw [List.getElem?_cons_succ, show o * m + m = (o + 1) * m by ring, (ih (o + 1) i).2 1 (by omega) (by omega)]
          rw [show m * (i + 1) = (m * i + (m - 1)) + 1 by rw [Nat.mul_succ]; omega, List.getElem?_cons_succ]
      · have hmod : (o * k + m) % k ≠ 0 := by
          rw [Nat.mul_comm, Nat.mul_add_mod, Nat.mod_eq_of_lt (by omega)]
          omega
        rw [List.zipIdx_cons, List.filter_cons_of_neg (by simpa using hmod), show o * k + m + 1 = o * k + (m + 1) by ring,
          (ih o i).2 (m + 1) (by omega) (by omega), show k * i + (k - m) = (k * i + (k - (m + 1))) + 1 by omega, List.getElem?_cons_succ]

/-- **C133, output steps** Every history in the file holds, at output index `i`, the value at time index `interval * i`: times,
velocities, displacements and forces stay aligned. -/
theorem C133_sampled {α : Type} (interval : ℕ) (h : 0 < interval) (xs : List α) :
    ∃ ys, sampled interval xs = .ok ys ∧ ∀ i : ℕ, ys[i]? = xs[interval * i]? := by
  unfold sampled
  rw [if_neg (by omega)]
  refine ⟨_, rfl, fun i => ?_⟩
  have := (sampled_aux interval h xs 0 i).1
  rw [Nat.zero_mul] at this
  exact this

example : (sampled 3 [0, 1, 2, 3, 4, 5, 6, 7]).toOption = some [0, 3, 6] := by decide

/-! ### C134: distance -/

theorem sampled_getD {interval : ℕ} (h : 0 < interval) {xs ys : List K} (hs : sampled interval xs = .ok ys) (i : ℕ) :
    ys.getD i 0 = xs.getD (interval * i) 0 ∧ (i < ys.length ↔ interval * i < xs.length) := by
  obtain ⟨zs, hz, he⟩ := C133_sampled interval h xs
  rw [hs] at hz
  cases hz
  constructor
  · rw [List.getD_eq_getElem?_getD, List.getD_eq_getElem?_getD, he]
  · have := he i
    constructor
    · intro hi
      by_contra hcon
      rw [List.getElem?_eq_none (by omega : xs.length ≤ interval * i), List.getElem?_eq_getElem hi] at this
      cases this
    · intro hi
      by_contra hcon
      rw [List.getElem?_eq_none (by omega : ys.length ≤ i), List.getElem?_eq_getElem hi] at this
      cases this

/-- **C134, what is shown** For all stored times and velocities: the distance shown at an output step is the sum over the output steps since the first
shown one of the velocity at the end of the step times its length. -/
theorem C134_formula [IsStrictOrderedRing K] (first : ℕ) (ts vs : List K) (hl : ts.length = vs.length) (i : ℕ) (h : first + i < ts.length) :
    (shownDistance first ts vs).getD i 0 =
      ∑ m ∈ Finset.range i, vs.getD (first + m + 1) 0 * (ts.getD (first + m + 1) 0 - ts.getD (first + m) 0) := by
  unfold shownDistance
  have hlen : (List.zipWith (· * ·) (npDiff (ts.drop first)) ((vs.drop first).drop 1)).length = ts.length - first - 1 := by
    rw [List.length_zipWith, npDiff_length, List.length_drop, List.length_drop, List.length_drop, ← hl, Nat.min_self]
  rw [runningSums_getD _ _ _ (by rw [hlen]; omega), zero_add]
  apply Finset.sum_congr rfl
  intro m hm
  rw [Finset.mem_range] at hm
  have h1 : m < (npDiff (ts.drop first)).length := by rw [npDiff_length, List.length_drop]; omega
  have h2 : m < ((vs.drop first).drop 1).length := by rw [List.length_drop, List.length_drop]; omega
  rw [List.getD_eq_getElem _ _ (by rw [hlen]; omega), List.getElem_zipWith, ← List.getD_eq_getElem _ 0 h1,
    npDiff_getD _ _ (by rw [List.length_drop]; omega), List.getElem_drop, List.getElem_drop, mul_comm]
  congr 1
  · rw [List.getD_eq_getElem _ _ (by omega : first + m + 1 < vs.length)]
    congr 1
    omega
  · rw [List.getD_eq_getElem _ _ (by rw [List.length_drop]; omega), List.getD_eq_getElem _ _ (by rw [List.length_drop]; omega),
      List.getElem_drop, List.getElem_drop, List.getD_eq_getElem _ _ (by omega), List.getD_eq_getElem _ _ (by omega)]
    rfl

/-- **C134** (partial: constant velocity from the first shown step on) The distance shown for an output step is the distance that
the train has travelled since the first shown step. -/
theorem C134_distance_partial [IsStrictOrderedRing K] (time vel dist ts vs : List K) (interval first : ℕ) (hi : 0 < interval) (v : K)
    (hl : time.length = vel.length) (hd : cumDistanceFromVelocity time vel = .ok dist)
    (hts : sampled interval time = .ok ts) (hvs : sampled interval vel = .ok vs)
    (hv : ∀ j, interval * first ≤ j → j < vel.length → vel.getD j 0 = v) (i : ℕ) (hlast : first + i < ts.length) :
    (shownDistance first ts vs).getD i 0 = dist.getD (interval * (first + i)) 0 - dist.getD (interval * first) 0 := by
  have hlen : ts.length = vs.length := by
    apply Nat.le_antisymm
    · by_contra hcon
      have h1 := (sampled_getD hi hts vs.length).2.1 (by omega)
      rw [hl] at h1
      have := (sampled_getD hi hvs vs.length).2.2 h1
      omega
    · by_contra hcon
      have h1 := (sampled_getD hi hvs ts.length).2.1 (by omega)
      rw [← hl] at h1
      have := (sampled_getD hi hts ts.length).2.2 h1
      omega
  have hend : interval * (first + i) < time.length := (sampled_getD hi hts _).2.1 hlast
  rw [C134_formula first ts vs hlen i hlast]
  -- the shown distance
  have hshown : ∑ m ∈ Finset.range i, vs.getD (first + m + 1) 0 * (ts.getD (first + m + 1) 0 - ts.getD (first + m) 0) =
      v * (time.getD (interval * (first + i)) 0 - time.getD (interval * first) 0) := by
    have : ∀ m ∈ Finset.range i, vs.getD (first + m + 1) 0 * (ts.getD (first + m + 1) 0 - ts.getD (first + m) 0) =
        v * (time.getD (interval * (first + (m + 1))) 0 - time.getD (interval * (first + m)) 0) := by
      intro m hm
      rw [Finset.mem_range] at hm
      have hmono : interval * (first + m + 1) ≤ interval * (first + i) := Nat.mul_le_mul_left _ (by omega)
      rw [(sampled_getD hi hvs _).1, (sampled_getD hi hts _).1, (sampled_getD hi hts _).1,
        hv _ (Nat.mul_le_mul_left _ (by omega)) (by omega)]
      rfl
    rw [Finset.sum_congr rfl this, ← Finset.mul_sum, Finset.sum_range_sub (fun m => time.getD (interval * (first + m)) 0)]
    rfl
  -- the travelled distance
  have hdist : ∀ k, k < time.length → dist.getD k 0 = ∑ j ∈ Finset.range k, vel.getD j 0 * (time.getD (j + 1) 0 - time.getD j 0) := by
    intro k hk
    unfold cumDistanceFromVelocity at hd
    rw [if_pos hl] at hd
    rw [← Except.ok.inj hd, runningSums_getD _ _ _ (by
      rw [List.length_zipWith, npDiff_length, List.length_dropLast]; omega), zero_add]
    apply Finset.sum_congr rfl
    intro j hj
    rw [Finset.mem_range] at hj
    exact steps_getD time vel hl j (by omega)
  rw [hshown, hdist _ hend, hdist _ (lt_of_le_of_lt (Nat.mul_le_mul_left _ (by omega)) hend), Nat.mul_add, Finset.sum_range_add, add_sub_cancel_left]
  have hconst : ∀ m ∈ Finset.range (interval * i), vel.getD (interval * first + m) 0 *
      (time.getD (interval * first + m + 1) 0 - time.getD (interval * first + m) 0) =
      v * (time.getD (interval * first + (m + 1)) 0 - time.getD (interval * first + m) 0) := by
    intro m hm
    rw [Finset.mem_range] at hm
    rw [Nat.mul_add] at hend
    rw [hv _ (by omega) (by omega)]
    rfl
  rw [Finset.sum_congr rfl hconst, ← Finset.mul_sum, Finset.sum_range_sub (fun m => time.getD (interval * first + m) 0)]
  rfl

/-- The scripts' numbers, scaled down: 4 initial steps, every second step stored, shown from the third output step on. -/
example : (shownDistance 2 [0, 2, 4, 6, 8] [0, 0, 30, 30, 30] : List ℚ) = [0, 60, 120] ∧
    (sampled 2 ([0, 1, 2, 3, 4, 5, 6, 7, 8] : List ℚ)).toOption = some [0, 2, 4, 6, 8] ∧
    (sampled 2 (baseVelocities 9 4 (30 : ℚ))).toOption = some [0, 0, 30, 30, 30] ∧
    (cumDistanceFromVelocity ([0, 1, 2, 3, 4, 5, 6, 7, 8] : List ℚ) (baseVelocities 9 4 30)).toOption =
      some [0, 0, 0, 0, 0, 30, 60, 90, 120] := by decide +kernel

/-- **C134, violated** If the velocity changes after the first shown step, the distance shown is not the one travelled: here the
train starts within the shown steps. -/
theorem C134_distance_violated :
    (shownDistance 1 [0, 2, 4, 6, 8] [0, 0, 30, 30, 30] : List ℚ) = [0, 60, 120, 180] ∧
    (sampled 2 ([0, 1, 2, 3, 4, 5, 6, 7, 8] : List ℚ)).toOption = some [0, 2, 4, 6, 8] ∧
    (sampled 2 (baseVelocities 9 4 (30 : ℚ))).toOption = some [0, 0, 30, 30, 30] ∧
    ((cumDistanceFromVelocity ([0, 1, 2, 3, 4, 5, 6, 7, 8] : List ℚ) (baseVelocities 9 4 30)).toOption.map fun d => [d.getD 2 0, d.getD 4 0, d.getD 6 0, d.getD 8 0]) =
      some [0, 0, 60, 120] := by decide +kernel

/-! ### C135: weighted values and the table of several values -/

/-- The number stored under the key of a scenario (0 if there is none). -/
def Spec.entry (e : PyDict Name K) (key : Name) : K := (e.get? key).getD 0

/-- The values of the scenarios weighted with their probabilities. -/
def Spec.weightedEntry (key : Name) (s : SegmentResult K) : K :=
  (s.scenarios.map fun e => Spec.entry e.2 key * Spec.entry e.2 "probability".toList).sum

theorem weightSegment_ok {key resKey : Name} {s s' : SegmentResult K} (h : weightSegment key resKey s = .ok s') :
    s' = { s with values := s.values.set resKey (Spec.weightedEntry key s) } := by
  unfold weightSegment at h
  have hf : ∀ (l : PyDict Name (PyDict Name K)) (a t : K), l.foldlM (fun (acc : K) e => do
      let x ← e.2.get key
      let p ← e.2.get "probability".toList
      return acc + x * p) a = (.ok t : Except Err K) →
      t = a + (l.map fun e => Spec.entry e.2 key * Spec.entry e.2 "probability".toList).sum := by
    intro l
    induction l with
    | nil => intro a t ht; cases ht; simp
    | cons e l ih =>
      intro a t ht
      rw [List.foldlM_cons] at ht
      cases h1 : e.2.get key with
      | error x => rw [h1] at ht; cases ht
      | ok x =>
        cases h2 : e.2.get "probability".toList with
        | error y => simp only [bind, Except.bind, h1, h2] at ht; cases ht
        | ok p =>
          simp only [bind, Except.bind, h1, h2] at ht
          have := ih (a + x * p) t ht
          rw [this, List.map_cons, List.sum_cons]
          have e1 : Spec.entry e.2 key = x := by unfold Spec.entry; rw [PyDict.get_ok.1 h1]; rfl
          have e2 : Spec.entry e.2 "probability".toList = p := by unfold Spec.entry; rw [PyDict.get_ok.1 h2]; rfl
          rw [e1, e2]
          ring
  cases ht : s.scenarios.foldlM (fun (acc : K) e => do
      let x ← e.2.get key
      let p ← e.2.get "probability".toList
      return acc + x * p) 0 with
  | error e => simp only [bind, Except.bind] at h ht; rw [ht] at h; cases h
  | ok t =>
    have h3 := hf _ _ _ ht
    simp only [bind, Except.bind] at h ht
    rw [ht] at h
    rw [← Except.ok.inj h, h3, zero_add]
    rfl

/-- **C135, weighted values** After `calculate_weighted_values` every segment, in the same order, has under the result key the sum over its
scenarios of the value times the probability; coordinates, scenarios and the other values are as before. -/
theorem C135_weighted (key resKey : Name) (res res' : PyDict Name (SegmentResult K)) (h : weightedValues key resKey res = .ok res') :
    res' = res.map fun e => (e.1, { e.2 with values := e.2.values.set resKey (Spec.weightedEntry key e.2) }) := by
  unfold weightedValues at h
  have hf := mapM_except _ res res' h
  clear h
  induction hf with
  | nil => rfl
  | @cons e o res res' ho _ ih =>
    rw [List.map_cons, ← ih]
    congr 1
    cases hw : weightSegment key resKey e.2 with
    | error x => rw [hw] at ho; cases ho
    | ok s' =>
      rw [hw] at ho
      rw [← Except.ok.inj ho, weightSegment_ok hw]

/-- **C135, repeating** Calculating the weighted values again changes nothing. -/
theorem C135_repeat (key resKey : Name) (res res' res'' : PyDict Name (SegmentResult K)) (h : weightedValues key resKey res = .ok res')
    (h' : weightedValues key resKey res' = .ok res'') : ∀ k s', res'.get? k = some s' →
    ∃ s'', res''.get? k = some s'' ∧ ∀ j, s''.values.get? j = s'.values.get? j := by
  intro k s' hk
  have e1 := C135_weighted key resKey res res' h
  have e2 := C135_weighted key resKey res' res'' h'
  have hget : ∀ (f : SegmentResult K → SegmentResult K) (d : PyDict Name (SegmentResult K)) (k : Name),
      PyDict.get? (d.map fun e => (e.1, f e.2)) k = (d.get? k).map f := by
    intro f d k
    induction d with
    | nil => rfl
    | cons e d ih =>
      rw [List.map_cons, PyDict.get?_cons, PyDict.get?_cons, ih]
      by_cases he : e.1 = k
      · rw [if_pos he, if_pos he]; rfl
      · rw [if_neg he, if_neg he]
  have g1 := hget (fun s => { s with values := s.values.set resKey (Spec.weightedEntry key s) }) res k
  rw [← e1, hk] at g1
  obtain ⟨s, -, hs'⟩ := Option.map_eq_some_iff.1 g1.symm
  have g2 := hget (fun s => { s with values := s.values.set resKey (Spec.weightedEntry key s) }) res' k
  rw [← e2, hk] at g2
  refine ⟨_, g2, fun j => ?_⟩
  dsimp only
  rw [PyDict.get?_set, ← hs']
  dsimp only
  rw [PyDict.get?_set]
  by_cases hj : j = resKey
  · rw [if_pos hj, if_pos hj]
    rfl
  · rw [if_neg hj]

theorem getResults_values (sos : SosFile K) (files : List (SegmentFile K)) (res : PyDict Name (SegmentResult K))
    (h : getResults sos files = .ok res) : ∀ e ∈ res, e.2.values.keys = ["w_disp".toList, "w_stiffness".toList] := by
  unfold getResults at h
  cases hf : files.foldlM (resultsStep sos) ([], []) with
  | error e => rw [hf] at h; cases h
  | ok st =>
    rw [hf] at h
    rw [← Except.ok.inj h]
    have hset : ∀ (d : PyDict Name (SegmentResult K)) (k : Name) (s : SegmentResult K),
        (∀ e ∈ d, e.2.values.keys = ["w_disp".toList, "w_stiffness".toList]) → s.values.keys = ["w_disp".toList, "w_stiffness".toList] →
        ∀ e ∈ d.set k s, e.2.values.keys = ["w_disp".toList, "w_stiffness".toList] := by
      intro d k s hd hs e he
      unfold PyDict.set at he
      split at he
      · obtain ⟨a, ha, rfl⟩ := List.mem_map.1 he
        split
        · exact hs
        · exact hd a ha
      · rw [List.mem_append, List.mem_singleton] at he
        rcases he with he | rfl
        · exact hd e he
        · exact hs
    suffices hall : ∀ (files : List (SegmentFile K)) (st st' : Name × PyDict Name (SegmentResult K)),
        (∀ e ∈ st.2, e.2.values.keys = ["w_disp".toList, "w_stiffness".toList]) → files.foldlM (resultsStep sos) st = .ok st' →
        ∀ e ∈ st'.2, e.2.values.keys = ["w_disp".toList, "w_stiffness".toList] by
      exact hall files ([], []) st (by simp) hf
    intro files
    induction files with
    | nil => intro st st' hst h; cases h; exact hst
    | cons f files ih =>
      intro st st' hst h
      rw [List.foldlM_cons] at h
      cases hs : resultsStep sos st f with
      | error e => rw [hs] at h; cases h
      | ok st1 =>
        rw [hs] at h
        refine ih st1 st' ?_ h
        unfold resultsStep at hs
        cases h1 : pyMin f.displacements with
        | error e => rw [h1] at hs; cases hs
        | ok d =>
          cases h2 : parseName f.name with
          | error e => simp only [bind, Except.bind, h1, h2] at hs; cases hs
          | ok ids =>
            cases h3 : sos.get ids.1 with
            | error e => simp only [bind, Except.bind, h1, h2, h3] at hs; cases hs
            | ok scenarios =>
              cases h4 : scenarios.get ids.2 with
              | error e => simp only [bind, Except.bind, h1, h2, h3, h4] at hs; cases hs
              | ok scenario =>
                simp only [bind, Except.bind, h1, h2, h3, h4] at hs
                generalize hr : (if st.1 ≠ ids.1 then st.2.set ids.1 ⟨scenario.coordinates, [("w_disp".toList, 0), ("w_stiffness".toList, 0)], []⟩
                  else st.2) = r at hs
                have hrv : ∀ e ∈ r, e.2.values.keys = ["w_disp".toList, "w_stiffness".toList] := by
                  rw [← hr]
                  split
                  · exact hset _ _ _ hst rfl
                  · exact hst
                cases h5 : r.get ids.1 with
                | error e => rw [h5] at hs; cases hs
                | ok s =>
                  rw [h5] at hs
                  rw [← Except.ok.inj hs]
                  exact hset _ _ _ hrv (hrv _ (PyDict.mem_of_get? r (PyDict.get_ok.1 h5)))

/-- **C135, the rows** When the table is written, it has for every segment, in order, a row for each of its coordinates, with the coordinate, the
name of the segment and its four values in the order of the header: weighted displacement, weighted stiffness, dynamic stiffness and settlement.
Missing: that it can be written after `get_results` (it cannot, `C135_table_violated`). -/
theorem C135_table_partial (res : PyDict Name (SegmentResult K)) (rows : List (List (K × K × Name × K × K × K × K))) (h : gisTable res = .ok rows) :
    List.Forall₂ (fun e rs => List.Forall₂ (fun c r => ∃ a b d s, r = (c.1, c.2, e.1, a, b, d, s) ∧
      e.2.values.get? "w_disp".toList = some a ∧ e.2.values.get? "w_stiffness".toList = some b ∧
      e.2.values.get? "dyn_stiffness".toList = some d ∧ e.2.values.get? "cum_settlement".toList = some s) e.2.coordinates rs) res rows := by
  refine (mapM_except _ _ _ h).imp fun e rs hrs => (mapM_except _ _ _ hrs).imp fun c r hr => ?_
  cases ha : e.2.values.get "w_disp".toList with
  | error x => rw [ha] at hr; cases hr
  | ok a =>
    cases hb : e.2.values.get "w_stiffness".toList with
    | error x => rw [ha, hb] at hr; cases hr
    | ok b =>
      cases hd : e.2.values.get "dyn_stiffness".toList with
      | error x => rw [ha, hb, hd] at hr; cases hr
      | ok d =>
        cases hs : e.2.values.get "cum_settlement".toList with
        | error x => rw [ha, hb, hd, hs] at hr; cases hr
        | ok s =>
          rw [ha, hb, hd, hs] at hr
          cases hr
          exact ⟨a, b, d, s, rfl, PyDict.get_ok.1 ha, PyDict.get_ok.1 hb, PyDict.get_ok.1 hd, PyDict.get_ok.1 hs⟩

/-- A table that can be written. -/
example : gisTable (K := ℚ) [("A".toList, ⟨[(1, 2), (3, 4)], [("w_disp".toList, 5), ("w_stiffness".toList, 6), ("dyn_stiffness".toList, 7),
    ("cum_settlement".toList, 8)], []⟩)] = .ok [[(1, 2, "A".toList, 5, 6, 7, 8), (3, 4, "A".toList, 5, 6, 7, 8)]] := rfl

/-- **C135, violated** Whatever the soil data and the results are: once `get_results` has found a segment with coordinates, and after both weighted
values are calculated, writing the table raises, because the dynamic stiffness and the cumulative settlement it is to contain are
collected nowhere. -/
theorem C135_table_violated (sos : SosFile K) (files : List (SegmentFile K)) (res r1 r2 : PyDict Name (SegmentResult K))
    (h : getResults sos files = .ok res) (h1 : weightedValues "min_disp".toList "w_disp".toList res = .ok r1)
    (h2 : weightedValues "stiffness".toList "w_stiffness".toList r1 = .ok r2) (hc : ∃ e ∈ res, e.2.coordinates ≠ []) :
    gisTable r2 = .error .keyError := by
  have hv := getResults_values sos files res h
  have e1 := C135_weighted _ _ _ _ h1
  have e2 := C135_weighted _ _ _ _ h2
  have hkeys : ∀ e ∈ r2, e.2.values.keys = ["w_disp".toList, "w_stiffness".toList] := by
    intro e he
    rw [e2, List.mem_map] at he
    obtain ⟨a, ha, rfl⟩ := he
    rw [e1, List.mem_map] at ha
    obtain ⟨b, hb, rfl⟩ := ha
    dsimp only
    rw [PyDict.keys_set, PyDict.keys_set, hv b hb]
    decide
  have hc2 : ∃ e ∈ r2, e.2.coordinates ≠ [] := by
    obtain ⟨e, he, hne⟩ := hc
    rw [e2, e1, List.map_map]
    exact ⟨_, List.mem_map_of_mem he, hne⟩
  have hget : ∀ (e : Name × SegmentResult K) (key : Name), e.2.values.keys = ["w_disp".toList, "w_stiffness".toList] →
      (key ∈ ["w_disp".toList, "w_stiffness".toList] → ∃ v, e.2.values.get key = .ok v) ∧
      (key ∉ ["w_disp".toList, "w_stiffness".toList] → e.2.values.get key = .error .keyError) := by
    intro e key hk
    constructor
    · intro hm
      cases hg : e.2.values.get? key with
      | none => exact absurd (hk ▸ hm) ((PyDict.get?_eq_none _ _).1 hg)
      | some v => exact ⟨v, PyDict.get_ok.2 hg⟩
    · intro hm
      unfold PyDict.get
      rw [(PyDict.get?_eq_none _ _).2 (by rw [hk]; exact hm)]
  clear e1 e2 h h1 h2 hv hc
  unfold gisTable
  induction r2 with
  | nil => simp at hc2
  | cons e r2 ih =>
    rw [List.mapM_cons]
    obtain ⟨a, ha⟩ := (hget e "w_disp".toList (hkeys e List.mem_cons_self)).1 (by decide)
    obtain ⟨b, hb⟩ := (hget e "w_stiffness".toList (hkeys e List.mem_cons_self)).1 (by decide)
    have hd := (hget e "dyn_stiffness".toList (hkeys e List.mem_cons_self)).2 (by decide)
    cases hco : e.2.coordinates with
    | cons c cs =>
      rw [List.mapM_cons, ha, hb, hd]
      rfl
    | nil =>
      obtain ⟨e', he', hne⟩ := hc2
      rcases List.mem_cons.1 he' with rfl | he'
      · exact absurd hco hne
      · have := ih (fun x hx => hkeys x (List.mem_cons_of_mem _ hx)) ⟨e', he', hne⟩
        rw [List.mapM_nil]
        simp only [bind, Except.bind, pure, Except.pure] at this ⊢
        rw [this]

/-- A case: one segment with two scenarios. The weighted displacement is -14, and the table cannot be written. -/
def exampleSegmentFiles : List (SegmentFile ℚ) :=
  [⟨"Kdyn_Segment A_scenario 1".toList, [0, -10, -5], 1000⟩, ⟨"Kdyn_Segment A_scenario 2".toList, [0, -20, 3], 2000⟩]

example : ((getResults exampleSos exampleSegmentFiles).toOption.map fun res => res.map fun e => (e.1, e.2.coordinates.length)) =
      some [("Segment A".toList, 2)] ∧
    (((getResults exampleSos exampleSegmentFiles).bind fun res => (weightedValues "min_disp".toList "w_disp".toList res).bind fun r1 =>
      weightedValues "stiffness".toList "w_stiffness".toList r1).toOption.map fun r2 => r2.map fun e => e.2.values) =
      some [[("w_disp".toList, -14), ("w_stiffness".toList, 1400)]] := by
  decide +kernel

end Rose
