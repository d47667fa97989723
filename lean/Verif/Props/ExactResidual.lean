import Verif.Props.Optimisation

set_option linter.unusedSectionVars false

namespace Rose

variable {K : Type} [Field K] [LinearOrder K] [IsStrictOrderedRing K]

/-! ### C86: when a residual is returned -/

theorem mapM_except_ok {α β : Type} (f : α → Except Err β) (l : List α) :
    (∃ r, l.mapM f = .ok r) ↔ ∀ x ∈ l, ∃ y, f x = .ok y := by
  induction l with
  | nil => simp [pure, Except.pure]
  | cons a l ih =>
    rw [List.mapM_cons]
    simp only [List.mem_cons, forall_eq_or_imp]
    rw [← ih]
    constructor
    · rintro ⟨r, h⟩
      cases hf : f a with
      | error e => rw [hf] at h; cases h
      | ok b =>
        cases hl : l.mapM f with
        | error e => rw [hf, hl] at h; cases h
        | ok bs => exact ⟨⟨b, rfl⟩, bs, rfl⟩
    · rintro ⟨⟨b, hb⟩, bs, hbs⟩
      exact ⟨b :: bs, by rw [hb, hbs]; rfl⟩

theorem setParams_ok (ps : List (OPart K)) (slots : List (ℕ × String)) (vs : List K) :
    (∃ ps', setParams ps slots vs = .ok ps') ↔ slots.length ≤ vs.length := by
  induction slots generalizing ps vs with
  | nil => simp [setParams]
  | cons s ss ih =>
    cases vs with
    | nil => simp [setParams]
    | cons v vs => rw [setParams, ih]; simp

theorem maxAbs_ok (l : List K) : (∃ v, maxAbs l = .ok v) ↔ l ≠ [] := by
  cases l with
  | nil => simp [maxAbs]
  | cons x xs => simp [maxAbs]

theorem resultRow_ok_iff (res : List (List K)) (r : OResult) :
    (∃ row, resultRow res r = .ok row) ↔
      ∀ c ∈ r.indices, r.timeSteps ≠ [] ∧ ∀ t ∈ r.timeSteps, ∃ row x, res[t]? = some row ∧ row[c]? = some x := by
  unfold resultRow
  rw [mapM_except_ok]
  refine forall₂_congr fun c _ => ?_
  have key : (∃ col, r.timeSteps.mapM (m := Except Err) (fun t =>
        match res[t]? with
        | none => .error .indexError
        | some row =>
          match row[c]? with
          | none => .error .indexError
          | some v => .ok v) = .ok col) ↔ ∀ t ∈ r.timeSteps, ∃ row x, res[t]? = some row ∧ row[c]? = some x := by
    rw [mapM_except_ok]
    refine forall₂_congr fun t _ => ?_
    cases h1 : res[t]? with
    | none => simp
    | some row =>
      cases h2 : row[c]? with
      | none => simp [h2]
      | some v => simp [h2]
  rw [← key]
  constructor
  · rintro ⟨y, hy⟩
    split at hy
    · cases hy
    · rename_i col hcol
      refine ⟨?_, col, hcol⟩
      intro h0
      have := (maxAbs_ok col).1 ⟨y, hy⟩
      have hl := (mapM_except_get _ _ _ hcol).1
      rw [h0, List.length_nil] at hl
      exact this (List.length_eq_zero_iff.1 hl)
  · rintro ⟨h0, col, hcol⟩
    split
    · rename_i e he
      cases (he.symm.trans hcol : Except.error e = Except.ok col)
    · rename_i col' hcol'
      apply (maxAbs_ok col').2
      intro h1
      have hl := (mapM_except_get _ _ _ hcol').1
      rw [h1, List.length_nil] at hl
      exact h0 (List.length_eq_zero_iff.1 hl.symm)

/-- **C86, when a residual is returned** With one set of results, of any number of names, evaluating gives a residual if and only if there is
a parameter value, and one for every selected parameter; the model runs; at least two positions and at least one time step are chosen, all
of which exist in each result; and the observations are one row or one for each name, the first of which has one value or one for
each position. -/
theorem C86_returned_iff (main : OModel K → OModel K × Except Err Unit) (o : Optimisation K) (params obs : List K) (obss : List (List K))
    (name : String) (names : List String) (inds ts : List ℕ) (hr : o.modelResults = [⟨name :: names, inds, ts⟩])
    (ho : o.observations = obs :: obss) :
    (∃ res, (o.residual main params).2 = .ok res) ↔
      1 ≤ params.length ∧ (paramSlots o.partIndices o.parts).length ≤ params.length ∧
      (∃ ps, setParams o.original.parts (paramSlots o.partIndices o.parts) params = .ok ps ∧
        (main { o.original with parts := ps }).2 = .ok () ∧
        ∀ n ∈ name :: names, ∀ t ∈ ts, ∀ c ∈ inds, ∃ row x,
          ((main { o.original with parts := ps }).1.results n)[t]? = some row ∧ row[c]? = some x) ∧
      2 ≤ inds.length ∧ ts ≠ [] ∧ (obs.length = inds.length ∨ obs.length = 1) ∧
      (obss.length = names.length ∨ obss = [] ∨ names = []) := by
  unfold Optimisation.residual
  simp only
  cases h1 : setParams o.original.parts (paramSlots o.partIndices o.parts) params with
  | error e => simp
  | ok ps =>
    have hs := (setParams_ok o.original.parts _ params).1 ⟨ps, h1⟩
    simp only [Except.ok.injEq, exists_eq_left', hs, true_and]
    cases h2 : (main { o.original with parts := ps }).2 with
    | error e => simp
    | ok u =>
      simp only [true_and]
      generalize (main { o.original with parts := ps }).1 = m
      rw [hr, collectResults]
      cases h3 : (name :: names).mapM (m := Except Err) fun n => resultRow (m.results n) ⟨name :: names, inds, ts⟩ with
      | error e =>
        simp only
        have hn : ¬ ∀ n ∈ name :: names, ∃ row, resultRow (m.results n) ⟨name :: names, inds, ts⟩ = .ok row := by
          rw [← mapM_except_ok, h3]; simp
        constructor
        · rintro ⟨_, h⟩; cases h
        · rintro ⟨_, hall, _, ht, _⟩
          exfalso
          apply hn
          intro n hn
          rw [resultRow_ok_iff]
          exact fun c hc => ⟨ht, fun t ht' => hall n hn t ht' c hc⟩
      | ok rows =>
        simp only
        have hy : ∀ n ∈ name :: names, ∃ row, resultRow (m.results n) ⟨name :: names, inds, ts⟩ = .ok row :=
          (mapM_except_ok _ _).1 ⟨rows, h3⟩
        obtain ⟨hl, hg⟩ := mapM_except_get _ _ _ h3
        obtain ⟨row, hrow, hrow2⟩ := hg 0 name rfl
        have hrl : row.length = inds.length := by
          unfold resultRow at hrow2
          exact (mapM_except_get _ _ _ hrow2).1
        have hhead : rows.head? = some row := by rw [List.head?_eq_getElem?]; exact hrow
        have hall : ∀ n ∈ name :: names, ∀ t ∈ ts, ∀ c ∈ inds, ∃ row x, (m.results n)[t]? = some row ∧ row[c]? = some x := by
          intro n hn t ht c hc
          exact (((resultRow_ok_iff _ _).1 (hy n hn)) c hc).2 t ht
        have htne : 2 ≤ inds.length → ts ≠ [] := by
          intro h
          obtain ⟨c, hc⟩ := List.exists_mem_of_length_pos (by omega : 0 < inds.length)
          exact (((resultRow_ok_iff _ _).1 (hy name (by simp))) c hc).1
        unfold firstResidual
        rw [hhead, ho]
        simp only [List.head?_cons, hl, hrl, List.length_cons]
        simp only [iff_true_intro hall, true_and]
        by_cases hb : (!broadcasts (names.length + 1) (obss.length + 1) || !broadcasts inds.length obs.length) = true
        · rw [if_pos hb]
          simp only [broadcasts, Bool.or_eq_true, Bool.not_eq_true', Bool.or_eq_false_iff, decide_eq_false_iff_not] at hb
          constructor
          · rintro ⟨_, h⟩; cases h
          · rintro ⟨_, h2, -, h4, h5⟩
            exfalso
            have h5' : obss.length = names.length ∨ obss.length = 0 ∨ names.length = 0 := by
              simpa only [List.length_eq_zero_iff] using h5
            omega
        · rw [if_neg hb]
          simp only [broadcasts, Bool.or_eq_true, Bool.not_eq_true', Bool.or_eq_false_iff, decide_eq_false_iff_not] at hb
          by_cases hc : (decide (params.length < 1) || decide (inds.length < 2)) = true
          · rw [if_pos hc]
            simp only [Bool.or_eq_true, decide_eq_true_eq] at hc
            constructor
            · rintro ⟨_, h⟩; cases h
            · rintro ⟨h1, h2, -⟩; omega
          · rw [if_neg hc]
            simp only [Bool.or_eq_true, decide_eq_true_eq] at hc
            constructor
            · intro _
              refine ⟨by omega, by omega, htne (by omega), by omega, ?_⟩
              have : obss.length = names.length ∨ obss.length = 0 ∨ names.length = 0 := by omega
              simpa only [List.length_eq_zero_iff] using this
            · intro _; exact ⟨_, rfl⟩

example : ∃ name names inds ts obs obss, demoOptimisation.modelResults = [⟨name :: names, inds, ts⟩] ∧
    demoOptimisation.observations = obs :: obss ∧ (∃ res, (demoOptimisation.residual demoMain [2]).2 = .ok res) ∧
    ¬ ∃ res, (demoOptimisation.residual demoMain []).2 = .ok res := by
  refine ⟨_, _, _, _, _, _, rfl, rfl, ⟨[5, 3], by decide +kernel⟩, ?_⟩
  rw [C86_returned_iff demoMain demoOptimisation [] _ _ _ _ _ _ rfl rfl]
  simp

end Rose
