import Verif.Props.TrainStatics
import Verif.Props.TrainBalance
import Verif.Props.BatchRun
import Verif.Props.ExactResidual

set_option linter.unusedSectionVars false

namespace Rose

section Springs

variable {K : Type} [Field K] [LinearOrder K] [IsStrictOrderedRing K]

/-- **C114, spring forces, exactly** The stiffness matrix of a train gives for all displacements at every dof the force of the springs on it, if and
only if the springs under every cart and under every bogie are balanced about its centre, unless they have no stiffness. -/
theorem C114_forces_iff (t : Train K) (hf : t.FactorsFit) (n : ℕ) (hn : t.numbering.next ≤ n) :
    (∀ (u : ℕ → K) (d : TrainDof), t.HasDof d → matForce n t.stiffness u (t.dof d) = springForceAt t (fun e => u (t.dof e)) d) ↔
      (∀ c ∈ t.carts, c.stiffness = 0 ∨
        ((c.bogies.zip (factorsOrOnes c.bogies.length c.factors)).map fun p => p.2 * p.1.2).sum = 0) ∧
      ∀ b ∈ t.bogies, (t.bogie b).stiffness = 0 ∨
        (((t.bogie b).wheels.zip (factorsOrOnes (t.bogie b).wheels.length (t.bogie b).factors)).map fun p => p.2 * p.1.2).sum = 0 := by
  constructor
  · intro h
    constructor
    · intro c hc
      obtain ⟨i, hi, rfl⟩ := List.mem_iff_getElem.1 hc
      have h1 := h (fun _ => 1) (.cartY i) hi
      rw [C114_forces t hf n hn _ (.cartY i) hi, add_eq_left] at h1
      simp only [imbalanceForce, List.getElem?_eq_getElem hi, Option.toList_some, List.map_cons, List.map_nil, List.sum_cons,
        List.sum_nil, add_zero, mul_one] at h1
      exact mul_eq_zero.1 h1
    · intro b hb
      have h1 := h (fun _ => 1) (.bogieY b) hb
      rw [C114_forces t hf n hn _ (.bogieY b) hb, add_eq_left] at h1
      simp only [imbalanceForce, mul_one] at h1
      exact mul_eq_zero.1 h1
  · rintro ⟨h1, h2⟩ u d hd
    rw [C114_forces t hf n hn _ _ hd, add_eq_left]
    have e1 : ∀ i : ℕ, ∀ x : K, ((t.carts[i]?.toList).map fun c : Cart K => c.stiffness * c.imbalance * x).sum = 0 := by
      intro i x
      apply List.sum_eq_zero
      intro y hy
      obtain ⟨c, hc, rfl⟩ := List.mem_map.1 hy
      have : c.stiffness * c.imbalance = 0 := mul_eq_zero.2 (h1 c (List.mem_of_getElem? (Option.mem_toList.1 hc)))
      rw [this, zero_mul]
    have e2 : ∀ b ∈ t.bogies, (t.bogie b).stiffness * (t.bogie b).imbalance = 0 := fun b hb => mul_eq_zero.2 (h2 b hb)
    cases d with
    | cartY i => exact e1 i _
    | cartRot i => exact e1 i _
    | bogieY b => simp only [imbalanceForce, e2 b hd, zero_mul]
    | bogieRot b => simp only [imbalanceForce, e2 b hd, zero_mul]
    | wheelY b j => rfl

/-- With springs under all bodies: if and only if the train is balanced. -/
theorem C114_balanced_iff (t : Train K) (hf : t.FactorsFit) (n : ℕ) (hn : t.numbering.next ≤ n) (hc : ∀ c ∈ t.carts, c.stiffness ≠ 0)
    (hb : ∀ b ∈ t.bogies, (t.bogie b).stiffness ≠ 0) :
    (∀ (u : ℕ → K) (d : TrainDof), t.HasDof d → matForce n t.stiffness u (t.dof d) = springForceAt t (fun e => u (t.dof e)) d) ↔
      t.Balanced := by
  rw [C114_forces_iff t hf n hn]
  exact and_congr (forall₂_congr fun c h => or_iff_right (hc c h)) (forall₂_congr fun b h => or_iff_right (hb b h))

/-- A balanced train with springs under all bodies, and one whose bogies stand unevenly under the cart, for which the forces are wrong. -/
example : exampleTrain.FactorsFit ∧ exampleTrain.numbering.next ≤ 10 ∧ exampleTrain.Balanced ∧ (∀ c ∈ exampleTrain.carts, c.stiffness ≠ 0) ∧
    ¬ Train.Balanced { exampleTrain with carts := exampleTrain.carts.map fun c => { c with bogies := c.bogies.map fun b => (b.1, b.2 + 1) } } := by
  refine ⟨⟨?_, ?_⟩, by decide +kernel, ⟨?_, ?_⟩, by decide +kernel, ?_⟩
  · intro c hc; left; simp [exampleTrain] at hc; simp [hc]
  · intro b _; left; rfl
  · intro c hc; simp [exampleTrain] at hc; simp [hc, factorsOrOnes, List.replicate]
  · intro b _; simp [exampleTrain, factorsOrOnes, List.replicate]; norm_num
  · intro h
    have := h.1
    revert this
    decide +kernel

end Springs

section Table

variable {K : Type} [Field K] [LinearOrder K] [IsStrictOrderedRing K]

/-- **C135, the table, exactly** The table can be written if and only if every segment with a coordinate has the four values it is to contain. -/
theorem C135_table_iff (res : PyDict Name (SegmentResult K)) :
    (∃ rows, gisTable res = .ok rows) ↔ ∀ e ∈ res, e.2.coordinates ≠ [] → ∀ key ∈ ["w_disp", "w_stiffness", "dyn_stiffness", "cum_settlement"],
      ∃ v, e.2.values.get? key.toList = some v := by
  unfold gisTable
  rw [mapM_except_ok]
  refine forall₂_congr fun e _ => ?_
  rw [mapM_except_ok]
  have hg : ∀ key : Name, e.2.values.get key = match e.2.values.get? key with | some v => .ok v | none => .error .keyError := by
    intro key; unfold PyDict.get; cases e.2.values.get? key <;> rfl
  constructor
  · intro h hne key hk
    obtain ⟨c, hc⟩ := List.exists_mem_of_ne_nil _ hne
    obtain ⟨y, hy⟩ := h c hc
    rw [hg, hg, hg, hg] at hy
    cases h1 : e.2.values.get? "w_disp".toList <;> cases h2 : e.2.values.get? "w_stiffness".toList <;>
      cases h3 : e.2.values.get? "dyn_stiffness".toList <;> cases h4 : e.2.values.get? "cum_settlement".toList <;>
      simp only [h1, h2, h3, h4] at hy <;> try (cases hy; done)
    simp only [List.mem_cons, List.not_mem_nil, or_false] at hk
    rcases hk with rfl | rfl | rfl | rfl
    · exact ⟨_, h1⟩
    · exact ⟨_, h2⟩
    · exact ⟨_, h3⟩
    · exact ⟨_, h4⟩
  · intro h c hc
    have h' := h (List.ne_nil_of_mem hc)
    obtain ⟨a, h1⟩ := h' "w_disp" (by simp)
    obtain ⟨b, h2⟩ := h' "w_stiffness" (by simp)
    obtain ⟨d, h3⟩ := h' "dyn_stiffness" (by simp)
    obtain ⟨s, h4⟩ := h' "cum_settlement" (by simp)
    rw [hg, hg, hg, hg, h1, h2, h3, h4]
    exact ⟨_, rfl⟩

/-- A segment with all four values, and one without the last two. -/
example : (∃ rows, gisTable (K := ℚ) [("A".toList, ⟨[(1, 2), (3, 4)], [("w_disp".toList, 5), ("w_stiffness".toList, 6),
      ("dyn_stiffness".toList, 7), ("cum_settlement".toList, 8)], []⟩)] = .ok rows) ∧
    ¬ ∃ rows, gisTable (K := ℚ) [("A".toList, ⟨[(1, 2), (3, 4)], [("w_disp".toList, 5), ("w_stiffness".toList, 6)], []⟩)] = .ok rows :=
  ⟨⟨_, rfl⟩, by rintro ⟨_, h⟩; cases h⟩

end Table

end Rose
