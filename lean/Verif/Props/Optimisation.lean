import Verif.Model.Optimisation
import Mathlib.Tactic.Linarith
import Mathlib.Tactic.NormNum
import Mathlib.Algebra.Order.Ring.Rat
import Mathlib.Data.List.Nodup

set_option linter.unusedSectionVars false

namespace Rose

variable {K : Type*} [Field K] [LinearOrder K] [IsStrictOrderedRing K]

/-! ### C68: independence of earlier evaluations -/

theorem residual_keeps (main : OModel K → OModel K × Except Err Unit) (o : Optimisation K) (p : List K) :
    ∃ m, (o.residual main p).1 = { o with model := m } := by
  unfold Optimisation.residual
  simp only
  split
  · exact ⟨_, rfl⟩
  · split
    · exact ⟨_, rfl⟩
    · split <;> exact ⟨_, rfl⟩

theorem residual_model (main : OModel K → OModel K × Except Err Unit) (o : Optimisation K) (m : OModel K) (p : List K) :
    Optimisation.residual main { o with model := m } p = o.residual main p := rfl

/-- **C68** For every model, every way of running it (also one that changes the model, or fails), every sequence of earlier
evaluations and every parameter vector: the residual (and the model left behind) is that of a first evaluation, and the original
model is untouched. -/
theorem C68_history_independent (main : OModel K → OModel K × Except Err Unit) (o : Optimisation K) (history : List (List K))
    (p : List K) :
    (o.evaluations main history).residual main p = o.residual main p ∧ (o.evaluations main history).original = o.original := by
  have key : ∃ m, o.evaluations main history = { o with model := m } := by
    induction history generalizing o with
    | nil => exact ⟨o.model, rfl⟩
    | cons q qs ih =>
      obtain ⟨m, hm⟩ := residual_keeps main o q
      obtain ⟨m', hm'⟩ := ih (o.residual main q).1
      refine ⟨m', ?_⟩
      rw [Optimisation.evaluations, hm', hm]
  obtain ⟨m, hm⟩ := key
  rw [hm]
  exact ⟨residual_model main o m p, rfl⟩

/-! ### C85: parameters reach their attributes -/

theorem setParam_length (ps : List (OPart K)) (idx : ℕ) (name : String) (v : K) : (setParam ps idx name v).length = ps.length := by
  simp [setParam]

/-- The attribute `name` of part `i`. -/
def attrAt (ps : List (OPart K)) (i : ℕ) (name : String) : Option K := (ps[i]?).map fun p => p.attr name

theorem attrAt_setParam (ps : List (OPart K)) (idx : ℕ) (name : String) (v : K) (i : ℕ) (n : String) (hi : i < ps.length) :
    attrAt (setParam ps idx name v) i n = if (i, n) = (idx, name) then some v else attrAt ps i n := by
  unfold attrAt setParam
  rw [List.getElem?_mapIdx, List.getElem?_eq_getElem hi]
  simp only [Option.map_some, Prod.mk.injEq]
  by_cases h1 : i = idx
  · rw [if_pos h1]
    by_cases h2 : n = name
    · simp only [h1, h2, and_self, if_true]
    · simp only [h1, h2, and_false, if_false]
  · rw [if_neg h1, if_neg (fun h => h1 h.1)]

theorem setParams_spec (slots : List (ℕ × String)) : ∀ (ps : List (OPart K)) (vs : List K), slots.length ≤ vs.length → slots.Nodup →
    ∃ ps', setParams ps slots vs = .ok ps' ∧ ps'.length = ps.length ∧
      (∀ (k : ℕ) (s : ℕ × String), slots[k]? = some s → s.1 < ps.length → attrAt ps' s.1 s.2 = vs[k]?) ∧
      (∀ i n, (i, n) ∉ slots → i < ps.length → attrAt ps' i n = attrAt ps i n) := by
  induction slots with
  | nil => intro ps vs _ _; exact ⟨ps, rfl, rfl, fun k s h => by simp at h, fun _ _ _ _ => rfl⟩
  | cons s ss ih =>
    intro ps vs hl hnd
    obtain ⟨v, vs', rfl⟩ : ∃ v vs', vs = v :: vs' := by
      cases vs with
      | nil => simp at hl
      | cons v vs' => exact ⟨v, vs', rfl⟩
    rw [List.nodup_cons] at hnd
    obtain ⟨ps', h1, h2, h3, h4⟩ := ih (setParam ps s.1 s.2 v) vs' (by simpa using hl) hnd.2
    rw [setParam_length] at h2 h3 h4
    refine ⟨ps', by rw [setParams, h1], h2, ?_, ?_⟩
    · intro k t hk ht
      cases k with
      | zero =>
        simp only [List.getElem?_cons_zero, Option.some.injEq] at hk
        subst hk
        rw [h4 s.1 s.2 hnd.1 ht, attrAt_setParam _ _ _ _ _ _ ht, if_pos rfl]; rfl
      | succ k =>
        simp only [List.getElem?_cons_succ] at hk ⊢
        exact h3 k t hk ht
    · intro i n hin hi
      rw [List.mem_cons, not_or] at hin
      rw [h4 i n hin.2 hi, attrAt_setParam _ _ _ _ _ _ hi, if_neg hin.1]

/-- Specification: the listed attributes in order, part by part and name by name, as (position of the part, attribute). -/
def listedAttributes (indices : List ℕ) (parts : List OptPart) : List (ℕ × String) :=
  (indices.zip parts).flatMap fun q => q.2.names.map fun n => (q.1, n)

theorem paramSlots_eq (indices : List ℕ) (parts : List OptPart) : paramSlots indices parts = listedAttributes indices parts := by
  induction indices generalizing parts with
  | nil => rfl
  | cons i is ih =>
    cases parts with
    | nil => rfl
    | cons p ps => rw [paramSlots, ih]; rfl

/-- **C85** If no attribute is listed twice and there are enough parameters, running the residual function runs the model in which
the `k`-th listed attribute of its model part has the value of the `k`-th parameter, and every other attribute of every
part the original value; surplus parameters are ignored. Too few parameters raise an index error. -/
theorem C85_routing (o : Optimisation K) (params : List K)
    (hnd : (listedAttributes o.partIndices o.parts).Nodup) :
    ((listedAttributes o.partIndices o.parts).length ≤ params.length →
      ∃ ps, (∀ main, (o.residual main params).1.model = (main { o.original with parts := ps }).1) ∧
        ps.length = o.original.parts.length ∧
        (∀ (k : ℕ) (s : ℕ × String), (listedAttributes o.partIndices o.parts)[k]? = some s → s.1 < o.original.parts.length → attrAt ps s.1 s.2 = params[k]?) ∧
        (∀ i n, (i, n) ∉ listedAttributes o.partIndices o.parts → i < o.original.parts.length →
          attrAt ps i n = attrAt o.original.parts i n)) ∧
    (params.length < (listedAttributes o.partIndices o.parts).length → ∀ main, (o.residual main params).2 = .error .indexError) := by
  rw [← paramSlots_eq] at hnd ⊢
  constructor
  · intro hl
    obtain ⟨ps, h1, h2, h3, h4⟩ := setParams_spec _ o.original.parts params hl hnd
    refine ⟨ps, ?_, h2, h3, h4⟩
    intro main
    unfold Optimisation.residual
    simp only [h1]
    split
    · rfl
    · split <;> rfl
  · intro hl main
    have key : ∀ (slots : List (ℕ × String)) (ps : List (OPart K)) (vs : List K), vs.length < slots.length →
        setParams ps slots vs = .error .indexError := by
      intro slots
      induction slots with
      | nil => intro ps vs h; simp at h
      | cons s ss ih =>
        intro ps vs h
        cases vs with
        | nil => rfl
        | cons v vs => rw [setParams]; exact ih _ _ (by simpa using h)
    unfold Optimisation.residual
    simp only [key _ o.original.parts params hl]

/-- The slots are the listed parts found in the model: position of the part and name. -/
theorem C85_slots (o o' : Optimisation K) (h : o.initialise = .ok o') :
    o'.original = o.model ∧ o'.parts = o.parts ∧
    ∀ (k : ℕ) (p : OptPart), o.parts[k]? = some p → ∃ (i : ℕ) (q : OPart K), o'.partIndices[k]? = some i ∧ o.model.parts[i]? = some q ∧ q.id = p.part := by
  unfold Optimisation.initialise at h
  split at h
  · cases h
  · rename_i idx hidx
    cases h
    refine ⟨rfl, rfl, ?_⟩
    simp only
    generalize o.parts = parts at hidx ⊢
    induction parts generalizing idx with
    | nil => intro k p hk; simp at hk
    | cons a as ih =>
      rw [List.mapM_cons] at hidx
      by_cases hm : a.part ∈ o.model.parts.map OPart.id
      · rw [if_pos hm] at hidx
        cases hr : (as.mapM (m := Except Err) fun p =>
            if p.part ∈ o.model.parts.map OPart.id then (.ok ((o.model.parts.map OPart.id).idxOf p.part) : Except Err ℕ)
            else .error .valueError) with
        | error e => rw [hr] at hidx; cases hidx
        | ok l =>
          rw [hr] at hidx
          cases hidx
          intro k p hk
          cases k with
          | zero =>
            simp only [List.getElem?_cons_zero, Option.some.injEq] at hk
            subst hk
            have hlt := List.idxOf_lt_length_iff.2 hm
            have hlt' : (o.model.parts.map OPart.id).idxOf a.part < o.model.parts.length := by simpa using hlt
            refine ⟨_, _, rfl, List.getElem?_eq_getElem hlt', ?_⟩
            have := List.getElem_idxOf hlt
            rwa [List.getElem_map] at this
          | succ k =>
            simp only [List.getElem?_cons_succ] at hk ⊢
            exact ih l hr k p hk
      · rw [if_neg hm] at hidx; cases hidx

/-! ### C86: all results count -/

theorem maxAbs_spec (xs : List K) (m : K) (h : maxAbs xs = .ok m) : (∃ x ∈ xs, |x| = m) ∧ ∀ x ∈ xs, |x| ≤ m := by
  cases xs with
  | nil => cases h
  | cons x xs =>
    cases h
    have key : ∀ (l : List K) (a : K), ((∃ y ∈ l, |y| = l.foldl (fun m y => max m |y|) a) ∨ l.foldl (fun m y => max m |y|) a = a) ∧
        a ≤ l.foldl (fun m y => max m |y|) a ∧ ∀ y ∈ l, |y| ≤ l.foldl (fun m y => max m |y|) a := by
      intro l
      induction l with
      | nil => intro a; exact ⟨Or.inr rfl, le_rfl, fun y hy => by simp at hy⟩
      | cons b l ih =>
        intro a
        simp only [List.foldl_cons]
        obtain ⟨h1, h2, h3⟩ := ih (max a |b|)
        refine ⟨?_, (le_max_left _ _).trans h2, ?_⟩
        · rcases h1 with ⟨y, hy, he⟩ | h1
          · exact Or.inl ⟨y, by simp [hy], he⟩
          · rcases max_choice a |b| with hm | hm
            · right; rw [h1, hm]
            · left; exact ⟨b, by simp, by rw [h1, hm]⟩
        · intro y hy
          rcases List.mem_cons.1 hy with rfl | hy
          · exact (le_max_right _ _).trans h2
          · exact h3 y hy
    obtain ⟨h1, h2, h3⟩ := key xs |x|
    refine ⟨?_, ?_⟩
    · rcases h1 with ⟨y, hy, he⟩ | h1
      · exact ⟨y, by simp [hy], he⟩
      · exact ⟨x, by simp, h1.symm⟩
    · intro y hy
      rcases List.mem_cons.1 hy with rfl | hy
      · exact h2
      · exact h3 y hy

theorem mapM_except_get {α β : Type*} (f : α → Except Err β) : ∀ (l : List α) (l' : List β), l.mapM f = .ok l' →
    l'.length = l.length ∧ ∀ (k : ℕ) (a : α), l[k]? = some a → ∃ b, l'[k]? = some b ∧ f a = .ok b := by
  intro l
  induction l with
  | nil => intro l' h; cases h; exact ⟨rfl, fun k a h => by simp at h⟩
  | cons x xs ih =>
    intro l' h
    rw [List.mapM_cons] at h
    cases hx : f x with
    | error e => rw [hx] at h; cases h
    | ok y =>
      cases hr : xs.mapM f with
      | error e => rw [hx, hr] at h; cases h
      | ok ys =>
        rw [hx, hr] at h
        cases h
        obtain ⟨h1, h2⟩ := ih ys hr
        refine ⟨by simp [h1], ?_⟩
        intro k a hk
        cases k with
        | zero =>
          simp only [List.getElem?_cons_zero, Option.some.injEq] at hk
          subst hk
          exact ⟨y, rfl, hx⟩
        | succ k =>
          simp only [List.getElem?_cons_succ] at hk ⊢
          exact h2 k a hk

/-- **C86, the part that holds** With one result set of one name and an observation per chosen position, or one observation for all
of them, whenever a residual is returned: its `k`-th entry is `v - b`, where `b` is the observation of the `k`-th position and `v`
the largest absolute value over the chosen time steps of the result of the model that was run, at the `k`-th chosen position.
With any other number of observations no residual is returned. -/
theorem C86_residual_partial (main : OModel K → OModel K × Except Err Unit) (o : Optimisation K) (params res obs : List K)
    (name : String) (inds ts : List ℕ) (hr : o.modelResults = [⟨[name], inds, ts⟩]) (ho : o.observations = [obs])
    (h : (o.residual main params).2 = .ok res) :
    (obs.length = inds.length ∨ obs.length = 1) ∧
    res.length = inds.length ∧ ∀ (k c : ℕ), inds[k]? = some c → ∃ v b, (obs[k]? = some b ∨ obs = [b]) ∧ res[k]? = some (v - b) ∧
      IsGreatest {a | ∃ t ∈ ts, ∃ row x, ((o.residual main params).1.model.results name)[t]? = some row ∧ row[c]? = some x ∧ a = |x|} v := by
  unfold Optimisation.residual at h ⊢
  simp only at h ⊢
  cases h1 : setParams o.original.parts (paramSlots o.partIndices o.parts) params with
  | error e => rw [h1] at h; cases h
  | ok ps =>
    rw [h1] at h
    simp only at h ⊢
    cases h2 : (main { o.original with parts := ps }).2 with
    | error e => rw [h2] at h; cases h
    | ok u =>
      rw [h2] at h
      simp only at h ⊢
      cases h3 : collectResults (main { o.original with parts := ps }).1 o.modelResults with
      | error e => rw [h3] at h; cases h
      | ok results =>
        rw [h3] at h
        simp only at h ⊢
        generalize (main { o.original with parts := ps }).1 = m at h3 ⊢
        rw [hr, collectResults] at h3
        obtain ⟨hl, hrow⟩ := mapM_except_get _ _ _ h3
        obtain ⟨row, hrow1, hrow2⟩ := hrow 0 name rfl
        have hres : results = [row] := by
          match results, hl, hrow1 with
          | [a], _, h => simp only [List.getElem?_cons_zero, Option.some.injEq] at h; rw [h]
        rw [hres, ho] at h
        unfold firstResidual at h
        · simp only [List.head?_cons] at h
          by_cases hb : (!broadcasts [row].length [obs].length || !broadcasts row.length obs.length) = true
          · rw [if_pos hb] at h; cases h
          rw [if_neg hb] at h
          by_cases hlt : (decide (params.length < 1) || decide (row.length < 2)) = true
          · rw [if_pos hlt] at h; cases h
          rw [if_neg hlt] at h
          cases h
          unfold resultRow at hrow2
          obtain ⟨g1, g2⟩ := mapM_except_get _ _ _ hrow2
          simp only at g1 g2
          simp only [Bool.or_eq_true, decide_eq_true_eq, not_or, not_lt] at hlt
          simp only [broadcasts, Bool.or_eq_true, Bool.not_eq_true', Bool.or_eq_false_iff, decide_eq_false_iff_not,
            not_or, not_and, not_not] at hb
          have hlen : obs.length = inds.length ∨ obs.length = 1 := by
            by_contra hc
            push Not at hc
            exact hc.2 (hb.2 ⟨by omega, by omega⟩)
          have hrep : (if obs.length = 1 then List.replicate row.length (obs.getD 0 0) else obs).length = inds.length := by
            split_ifs with h1
            · rw [List.length_replicate, g1]
            · omega
          refine ⟨hlen, by rw [List.length_zipWith, hrep]; omega, ?_⟩
          intro k c hk
          obtain ⟨v, hv1, hv2⟩ := g2 k c hk
          have hkl : k < inds.length := (List.getElem?_eq_some_iff.1 hk).1
          have hko : k < (if obs.length = 1 then List.replicate row.length (obs.getD 0 0) else obs).length := by omega
          refine ⟨v, _, ?_, (by rw [List.getElem?_zipWith, hv1, List.getElem?_eq_getElem hko]), ?_⟩
          · by_cases h1 : obs.length = 1
            · right
              obtain ⟨b, rfl⟩ := List.length_eq_one_iff.1 h1
              simp
            · left
              simp only [if_neg h1]
              exact List.getElem?_eq_getElem _
          · split at hv2
            · cases hv2
            · rename_i col hcol
              obtain ⟨c1, c2⟩ := mapM_except_get _ _ _ hcol
              obtain ⟨⟨x, hx, hxv⟩, hmax⟩ := maxAbs_spec col v hv2
              have hget : ∀ (j t : ℕ), ts[j]? = some t → ∃ row x, (m.results name)[t]? = some row ∧ row[c]? = some x ∧ col[j]? = some x := by
                intro j t hj
                obtain ⟨y, hy1, hy2⟩ := c2 j t hj
                split at hy2
                · cases hy2
                · rename_i rw' hrw
                  split at hy2
                  · cases hy2
                  · rename_i y' hy'
                    cases hy2
                    exact ⟨rw', y, hrw, hy', hy1⟩
              constructor
              · obtain ⟨j, hj⟩ := List.mem_iff_getElem?.1 hx
                have hjl : j < ts.length := by have := (List.getElem?_eq_some_iff.1 hj).1; omega
                obtain ⟨rw', y, e1, e2, e3⟩ := hget j ts[j] (List.getElem?_eq_getElem hjl)
                rw [hj] at e3
                cases e3
                exact ⟨ts[j], List.getElem_mem _, rw', x, e1, e2, hxv.symm⟩
              · rintro a ⟨t, ht, rw', y, e1, e2, rfl⟩
                obtain ⟨j, hj⟩ := List.mem_iff_getElem?.1 ht
                obtain ⟨rw'', y', f1, f2, f3⟩ := hget j t hj
                rw [e1] at f1; cases f1
                rw [e2] at f2; cases f2
                exact hmax y (List.mem_of_getElem? f3)

/-- **C86 is violated, further results** Results and observations after the first result name have no influence on the residual:
with the same number of them it is the same. -/
theorem C86_rows_violated (params row obs : List K) (rows rows' obss obss' : List (List K)) (hr : rows.length = rows'.length)
    (ho : obss.length = obss'.length) :
    firstResidual params (row :: rows) (obs :: obss) = firstResidual params (row :: rows') (obs :: obss') := by
  simp only [firstResidual, List.head?_cons, List.length_cons, hr, ho]

/-- **C86 is violated, single position** With one observed position evaluating never gives a residual. -/
theorem C86_single_violated (params : List K) (x : K) (rows obss : List (List K)) :
    ∃ e, firstResidual params ([x] :: rows) obss = .error e := by
  cases obss with
  | nil => simp only [firstResidual, List.head?_cons, List.head?_nil]; split_ifs <;> exact ⟨_, rfl⟩
  | cons o os =>
    simp only [firstResidual, List.head?_cons, List.length_singleton]
    split_ifs with h1 h2
    · exact ⟨_, rfl⟩
    · exact ⟨_, rfl⟩
    · simp at h2

/-- **C86 is violated, second set of results** With two result sets evaluating never gives a residual. -/
theorem C86_sets_violated (m : OModel K) (r r' : OResult) (rest : List OResult) (h : r'.names ≠ []) :
    ∃ e, collectResults m (r :: r' :: rest) = .error e := by
  rw [collectResults]
  split
  · exact ⟨_, rfl⟩
  · rw [if_neg h]; exact ⟨_, rfl⟩

/-- An optimisation of one stiffness `s`; running the model gives displacements `s, 2 s` and `-3 s, s` at two positions. -/
def demoOptimisation : Optimisation ℚ :=
  ⟨⟨[], fun _ => []⟩, ⟨[⟨7, fun _ => 0⟩], fun _ => []⟩, [0], [⟨7, ["stiffness"]⟩], [⟨["u"], [0, 1], [0, 1]⟩], [[1, 1]]⟩

/-- See `demoOptimisation`. -/
def demoMain (m : OModel ℚ) : OModel ℚ × Except Err Unit :=
  let s := (attrAt m.parts 0 "stiffness").getD 0
  ({ m with results := fun _ => [[s, 2 * s], [-3 * s, s]] }, .ok ())

example : (demoOptimisation.residual demoMain [2]).2 = .ok [5, 3] := by decide +kernel

/-- A model with two parts; the second one's stiffness and damping are optimised, running it stores its stiffness as result. -/
example : ∃ o : Optimisation ℚ, ∃ o', o.initialise = .ok o' ∧ o'.partIndices = [1] ∧
    (paramSlots o'.partIndices o'.parts) = [(1, "stiffness"), (1, "damping")] := by
  refine ⟨⟨⟨[⟨7, fun _ => 0⟩, ⟨9, fun _ => 1⟩], fun _ => []⟩, ⟨[], fun _ => []⟩, [], [⟨9, ["stiffness", "damping"]⟩], [], []⟩, _, rfl, ?_, ?_⟩
  · decide
  · decide

end Rose
