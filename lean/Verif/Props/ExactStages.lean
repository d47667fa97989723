/-
C59: exactly when continuing a settlement calculation continues the history of a node.
-/
import Verif.Props.Accumulation

set_option linter.unusedSectionVars false

namespace Rose

/-- There is a row per node after every history of stages with a row per node. -/
theorem accRun_rows (v : Bool) (ops : List (StageOut × Bool))
    (hops : ∀ op ∈ ops, (∀ r ∈ op.1.disp, r.length = op.1.time.length) ∧ op.1.nodes.length = op.1.disp.length) :
    ∀ st : Option AccState, (∀ s, st = some s → s.Aligned ∧ s.nodes.length = s.disp.length) → ∀ s, accRun v st ops = .ok (some s) →
      s.Aligned ∧ s.nodes.length = s.disp.length := by
  induction ops with
  | nil =>
    intro st hst s h
    simp only [accRun] at h
    exact hst s (by cases h; rfl)
  | cons op ops ih =>
    intro st hst s h
    rw [accRun] at h
    cases hs : accStep v st op with
    | error e => rw [hs] at h; cases h
    | ok s1 =>
      rw [hs] at h
      simp only at h
      refine ih (fun o ho => hops o (List.mem_cons_of_mem _ ho)) (some s1) ?_ s h
      intro s2 h2
      cases h2
      have ho := hops op (by simp)
      refine ⟨accStep_aligned v st (fun s hs => (hst s hs).1) op ho.1 _ hs, ?_⟩
      obtain ⟨o, b⟩ := op
      cases b with
      | false =>
        simp only [accStep, Bool.false_eq_true, if_false] at hs
        cases hs
        exact ho.2
      | true =>
        cases st with
        | none => simp [accStep] at hs
        | some s0 =>
          obtain ⟨-, h2, h3, -⟩ := accStep_reload v s0 s1 o (hst s0 rfl).1 hs
          rw [h2, h3]
          exact ho.2

/-- **C59, exactly what is continued** After any history, whatever nodes the next stage has: the history of the node in place `i` of the new
list is that of the node in place `i` of the old list, followed by the settlement of the stage on top of its last value. -/
theorem C59_continue_exact (v : Bool) (ops : List (StageOut × Bool))
    (hops : ∀ op ∈ ops, (∀ r ∈ op.1.disp, r.length = op.1.time.length) ∧ op.1.nodes.length = op.1.disp.length) (s s' : AccState)
    (h : accRun v none ops = .ok (some s)) (o : StageOut) (hno : o.nodes.length = o.disp.length)
    (h' : accStep v (some s) (o, true) = .ok s') :
    s'.nodes = o.nodes ∧ s'.time = s.time ++ o.time ∧ o.nodes.length ≤ s.nodes.length ∧
      ∀ i < o.nodes.length, ∃ x, (s.disp.getD i []).getLast? = some x ∧
        s'.disp.getD i [] = s.disp.getD i [] ++ (o.disp.getD i []).map (· + x) := by
  obtain ⟨ha, hr⟩ := accRun_rows v ops hops none (by simp) s h
  obtain ⟨h1, h2, h3, h4, h5, h6⟩ := accStep_reload v s s' o ha h'
  refine ⟨h2, h1, by omega, ?_⟩
  intro i hi
  obtain ⟨a1, -, a3⟩ := h6 i (by omega)
  refine ⟨(s.disp.getD i []).getLastD 0, ?_, a3⟩
  rw [List.getLastD_eq_getLast?, List.getLast?_eq_getLast_of_ne_nil a1]
  rfl

/-- **C59, exactly** A node of both stages is continued from its own history if and only if the history in its place of the new list is the same
as its own: it is in the same place in both lists, or another node with an equal history was there. -/
theorem C59_continue_iff (v : Bool) (ops : List (StageOut × Bool))
    (hops : ∀ op ∈ ops, (∀ r ∈ op.1.disp, r.length = op.1.time.length) ∧ op.1.nodes.length = op.1.disp.length) (s s' : AccState)
    (h : accRun v none ops = .ok (some s)) (o : StageOut) (hno : o.nodes.length = o.disp.length)
    (h' : accStep v (some s) (o, true) = .ok s') (node : ℕ) (hn : node ∈ s.nodes) (hn' : node ∈ o.nodes) :
    (∃ x, (rowOf s.nodes s.disp node).getLast? = some x ∧
      rowOf s'.nodes s'.disp node = rowOf s.nodes s.disp node ++ (rowOf o.nodes o.disp node).map (· + x)) ↔
    s.disp.getD (o.nodes.idxOf node) [] = s.disp.getD (s.nodes.idxOf node) [] := by
  obtain ⟨ha, hr⟩ := accRun_rows v ops hops none (by simp) s h
  obtain ⟨e1, -, e3, e4⟩ := C59_continue_exact v ops hops s s' h o hno h'
  have hi := List.idxOf_lt_length_of_mem hn
  have hi' := List.idxOf_lt_length_of_mem hn'
  obtain ⟨x, hx, hrow⟩ := e4 _ hi'
  have hlen : ∀ i < s.disp.length, (s.disp.getD i []).length = s.time.length := by
    intro i hi
    rw [List.getD_eq_getElem _ _ hi]
    exact ha.rows _ (List.getElem_mem hi)
  unfold rowOf
  rw [e1, hrow]
  constructor
  · rintro ⟨y, -, hy⟩
    refine (List.append_inj hy ?_).1
    rw [hlen _ (by omega), hlen _ (by omega)]
  · intro e
    exact ⟨x, by rw [← e]; exact hx, by rw [e]⟩

/-- Both sides occur: two nodes in the same and in the opposite order. -/
example : (List.getD [[1, 2], [3, (4 : ℝ)]] ([3, 7].idxOf 3) [] = List.getD [[1, 2], [3, (4 : ℝ)]] ([3, 7].idxOf 3) []) ∧
    ¬ (List.getD [[1, 2], [3, (4 : ℝ)]] ([7, 3].idxOf 3) [] = List.getD [[1, 2], [3, (4 : ℝ)]] ([3, 7].idxOf 3) []) := by
  refine ⟨rfl, ?_⟩
  have e1 : [7, 3].idxOf 3 = 1 := by decide
  have e2 : [3, 7].idxOf 3 = 0 := by decide
  rw [e1, e2]
  simp

end Rose
