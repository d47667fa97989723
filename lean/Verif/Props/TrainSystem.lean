/-
Properties C100 to C103: mass matrix, weight, mesh, trimming and contact degrees of freedom of a train.
-/
import Verif.Model.TrainSystem
import Verif.Props.Train
import Verif.Props.Trim
import Verif.Lemmas.Geometry

set_option linter.unusedSectionVars false

namespace Rose

/-! ### C100 -/

section mass
variable {K : Type*} [Field K]

/-- Specification: the mass of the body for a vertical dof, its rotational inertia for a rotation. -/
def Train.bodyInertia (t : Train K) : TrainDof → K
  | .cartY i => (t.carts[i]?.map Cart.mass).getD 0
  | .cartRot i => (t.carts[i]?.map Cart.inertia).getD 0
  | .bogieY b => (t.bogie b).mass
  | .bogieRot b => (t.bogie b).inertia
  | .wheelY b j => ((t.bogie b).wheels[j]?.map Prod.fst).getD 0

theorem Train.mem_massDiagonal (t : Train K) (w : TrainDof × K) :
    w ∈ t.massDiagonal ↔ t.HasDof w.1 ∧ w.2 = t.bodyInertia w.1 := by
  have key : w ∈ t.massDiagonal ↔ ∃ (i : ℕ) (c : Cart K), t.carts[i]? = some c ∧ (w = (TrainDof.cartY i, c.mass) ∨
      w = (TrainDof.cartRot i, c.inertia) ∨
      ∃ b ∈ c.bogies, w = (TrainDof.bogieY b.1, (t.bogie b.1).mass) ∨ w = (TrainDof.bogieRot b.1, (t.bogie b.1).inertia) ∨
        ∃ j < (t.bogie b.1).wheels.length, w = (TrainDof.wheelY b.1 j, ((t.bogie b.1).wheels.getD j (0, 0)).1)) := by
    simp only [Train.massDiagonal, List.mem_flatMap, List.mem_range, Option.mem_toList, List.mem_cons, List.mem_map,
      Option.mem_def]
    constructor
    · rintro ⟨i, hi, c, hc, h1⟩
      refine ⟨i, c, hc, h1.imp id (Or.imp id ?_)⟩
      rintro ⟨b, hb, h2⟩
      refine ⟨b, hb, h2.imp id (Or.imp id ?_)⟩
      rintro ⟨j, hj, rfl⟩
      exact ⟨j, hj, rfl⟩
    · rintro ⟨i, c, hc, h1⟩
      refine ⟨i, (List.getElem?_eq_some_iff.1 hc).1, c, hc, h1.imp id (Or.imp id ?_)⟩
      rintro ⟨b, hb, h2⟩
      refine ⟨b, hb, h2.imp id (Or.imp id ?_)⟩
      rintro ⟨j, hj, rfl⟩
      exact ⟨j, hj, rfl⟩
  rw [key]
  obtain ⟨d, v⟩ := w
  constructor
  · rintro ⟨i, c, hc, h | h | ⟨b, hb, h | h | ⟨j, hj, h⟩⟩⟩ <;> simp only [Prod.mk.injEq] at h <;> obtain ⟨rfl, rfl⟩ := h
    · exact ⟨(List.getElem?_eq_some_iff.1 hc).1, by simp [Train.bodyInertia, hc]⟩
    · exact ⟨(List.getElem?_eq_some_iff.1 hc).1, by simp [Train.bodyInertia, hc]⟩
    · exact ⟨(t.mem_bogies b.1).2 ⟨c, List.mem_of_getElem? hc, b.2, hb⟩, rfl⟩
    · exact ⟨(t.mem_bogies b.1).2 ⟨c, List.mem_of_getElem? hc, b.2, hb⟩, rfl⟩
    · exact ⟨⟨(t.mem_bogies b.1).2 ⟨c, List.mem_of_getElem? hc, b.2, hb⟩, hj⟩, by simp [Train.bodyInertia, hj]⟩
  · intro hdv
    obtain ⟨hd, hv⟩ : t.HasDof d ∧ v = t.bodyInertia d := hdv
    subst hv
    have cart : ∀ i < t.carts.length, ∃ c, t.carts[i]? = some c := fun i hi => ⟨_, List.getElem?_eq_getElem hi⟩
    have bog : ∀ b ∈ t.bogies, ∃ (i : ℕ) (c : Cart K), t.carts[i]? = some c ∧ ∃ d, (b, d) ∈ c.bogies := by
      intro b hb
      obtain ⟨c, hc, d, hd⟩ := (t.mem_bogies b).1 hb
      obtain ⟨i, hi, hic⟩ := List.mem_iff_getElem.1 hc
      exact ⟨i, c, by rw [List.getElem?_eq_getElem hi, hic], d, hd⟩
    cases d with
    | cartY i =>
      obtain ⟨c, hc⟩ := cart i hd
      exact ⟨i, c, hc, Or.inl (by simp [Train.bodyInertia, hc])⟩
    | cartRot i =>
      obtain ⟨c, hc⟩ := cart i hd
      exact ⟨i, c, hc, Or.inr (Or.inl (by simp [Train.bodyInertia, hc]))⟩
    | bogieY b =>
      obtain ⟨i, c, hc, x, hx⟩ := bog b hd
      exact ⟨i, c, hc, Or.inr (Or.inr ⟨(b, x), hx, Or.inl rfl⟩)⟩
    | bogieRot b =>
      obtain ⟨i, c, hc, x, hx⟩ := bog b hd
      exact ⟨i, c, hc, Or.inr (Or.inr ⟨(b, x), hx, Or.inr (Or.inl rfl)⟩)⟩
    | wheelY b j =>
      obtain ⟨i, c, hc, x, hx⟩ := bog b hd.1
      have hj := hd.2
      exact ⟨i, c, hc, Or.inr (Or.inr ⟨(b, x), hx, Or.inr (Or.inr ⟨j, hj, by simp [Train.bodyInertia, hj]⟩)⟩)⟩

/-- C100: the mass matrix holds the mass or inertia of every body on the diagonal, once also for a bogie that is visited
by two carts, and nothing else. -/
theorem C100_diagonal (t : Train K) :
    (∀ d, t.HasDof d → t.massMatrix (t.dof d) (t.dof d) = t.bodyInertia d) ∧
    (∀ a b, a ≠ b → t.massMatrix a b = 0) ∧
    (∀ a, (∀ d, t.HasDof d → t.dof d ≠ a) → t.massMatrix a a = 0) := by
  have none : ∀ a b, (∀ d, t.HasDof d → ¬ (t.dof d = a ∧ t.dof d = b)) → t.massMatrix a b = 0 := by
    intro a b h
    apply writes_eq_of_not_mem
    intro w hw hp
    rw [List.mem_map] at hw
    obtain ⟨v, hv, rfl⟩ := hw
    simp only [Prod.mk.injEq] at hp
    exact h v.1 ((t.mem_massDiagonal v).1 hv).1 hp
  refine ⟨?_, ?_, ?_⟩
  · intro d hd
    apply writes_eq_of_mem
    · intro w hw hp
      rw [List.mem_map] at hw
      obtain ⟨v, hv, rfl⟩ := hw
      simp only [Prod.mk.injEq] at hp
      obtain ⟨h1, h2⟩ := (t.mem_massDiagonal v).1 hv
      have := t.dof_inj _ _ h1 hd hp.1
      rw [← this, ← h2]
    · exact ⟨_, List.mem_map.2 ⟨(d, t.bodyInertia d), (t.mem_massDiagonal _).2 ⟨hd, rfl⟩, rfl⟩, rfl⟩
  · intro a b hab
    exact none a b fun d _ h => hab (h.1.symm.trans h.2)
  · intro a h
    exact none a a fun d hd h' => h d hd h'.1

/-- All dofs of a train, each once. -/
def Train.allDofs (t : Train K) : List TrainDof :=
  ((List.range t.carts.length).flatMap fun i => [TrainDof.cartY i, TrainDof.cartRot i]) ++
    t.bogies.flatMap fun b => TrainDof.bogieY b :: TrainDof.bogieRot b ::
      (List.range (t.bogie b).wheels.length).map fun j => TrainDof.wheelY b j

theorem Train.mem_allDofs (t : Train K) (d : TrainDof) : d ∈ t.allDofs ↔ t.HasDof d := by
  cases d <;> simp [Train.allDofs, Train.HasDof]

theorem Train.nodup_allDofs (t : Train K) : t.allDofs.Nodup := by
  unfold Train.allDofs
  rw [List.nodup_append]
  refine ⟨?_, ?_, ?_⟩
  · rw [List.nodup_flatMap]
    refine ⟨by simp, ?_⟩
    refine List.nodup_range.imp ?_
    intro a b hab
    simp [Function.onFun, Ne.symm hab]
  · rw [List.nodup_flatMap]
    refine ⟨?_, ?_⟩
    · intro b hb
      simp only [List.nodup_cons, List.mem_cons, List.mem_map, reduceCtorEq, and_false, exists_false, or_self,
        not_false_eq_true, true_and]
      exact List.nodup_range.map fun x y hxy => by simpa using hxy
    · refine (nodup_distinctInOrder _).imp ?_
      intro a b hab
      simp only [Function.onFun]
      intro x hx hy
      simp only [List.mem_cons, List.mem_map] at hx hy
      rcases hx with rfl | rfl | ⟨j, _, rfl⟩ <;> rcases hy with hy | hy | ⟨j', _, hy⟩ <;> simp at hy <;> simp_all
  · intro x hx y hy
    simp only [List.mem_flatMap, List.mem_cons, List.mem_map, List.not_mem_nil, or_false] at hx hy
    obtain ⟨i, _, rfl | rfl⟩ := hx <;> obtain ⟨b, _, rfl | rfl | ⟨j, _, rfl⟩⟩ := hy <;> simp

theorem sum_flatMap_list {α : Type*} (l : List α) (f : α → List K) :
    (l.flatMap f).sum = (l.map fun a => (f a).sum).sum := by
  induction l with
  | nil => simp
  | cons a l ih => simp [List.flatMap_cons, ih]

/-- A sum over all rows of a quantity that vanishes on rows without a body is the sum over the bodies. -/
theorem Train.sum_rows (t : Train K) (f : ℕ → K) (hf : ∀ a, (∀ d, t.HasDof d → t.dof d ≠ a) → f a = 0) (n : ℕ)
    (hn : t.numbering.next ≤ n) :
    ∑ a ∈ Finset.range n, f a =
      ((List.range t.carts.length).map fun i => f (t.dof (.cartY i)) + f (t.dof (.cartRot i))).sum +
      (t.bogies.map fun b => f (t.dof (.bogieY b)) + f (t.dof (.bogieRot b)) +
        ((List.range (t.bogie b).wheels.length).map fun j => f (t.dof (.wheelY b j))).sum).sum := by
  classical
  have h1 : ∑ a ∈ Finset.range n, f a = ∑ a ∈ t.allDofs.toFinset.image t.dof, f a := by
    symm
    apply Finset.sum_subset
    · intro a ha
      rw [Finset.mem_image] at ha
      obtain ⟨d, hd, rfl⟩ := ha
      rw [List.mem_toFinset, t.mem_allDofs] at hd
      exact Finset.mem_range.2 (lt_of_lt_of_le (t.dof_lt d hd) hn)
    · intro a _ ha
      apply hf
      intro d hd hda
      exact ha (Finset.mem_image.2 ⟨d, by rw [List.mem_toFinset, t.mem_allDofs]; exact hd, hda⟩)
  rw [h1, Finset.sum_image]
  · rw [List.sum_toFinset _ t.nodup_allDofs]
    unfold Train.allDofs
    rw [List.map_append, List.sum_append, List.map_flatMap, List.map_flatMap, sum_flatMap_list, sum_flatMap_list]
    congr 1
    · congr 1
      simp
    · congr 1
      apply List.map_congr_left
      intro b _
      simp [List.map_map, Function.comp_def, add_assoc]
  · intro d hd e he h
    rw [Finset.mem_coe, List.mem_toFinset, t.mem_allDofs] at hd he
    exact t.dof_inj d e hd he h

/-- Specification: twice the kinetic energy of the train, every body once. `v` gives the velocity of each dof. -/
def kineticEnergy2 (t : Train K) (v : TrainDof → K) : K :=
  ((List.range t.carts.length).map fun i =>
    (t.carts[i]?.map Cart.mass).getD 0 * v (.cartY i) ^ 2 + (t.carts[i]?.map Cart.inertia).getD 0 * v (.cartRot i) ^ 2).sum +
  (t.bogies.map fun b => (t.bogie b).mass * v (.bogieY b) ^ 2 + (t.bogie b).inertia * v (.bogieRot b) ^ 2 +
    ((List.range (t.bogie b).wheels.length).map fun j =>
      ((t.bogie b).wheels[j]?.map Prod.fst).getD 0 * v (.wheelY b j) ^ 2).sum).sum

/-- C100: the mass matrix gives the kinetic energy of the train: every cart, every bogie (a shared one once) and every
wheel contributes its own mass and rotational inertia. -/
theorem C100_kinetic_energy (t : Train K) (n : ℕ) (hn : t.numbering.next ≤ n) (v : ℕ → K) :
    matEnergy n t.massMatrix v = kineticEnergy2 t fun d => v (t.dof d) := by
  obtain ⟨h1, h2, h3⟩ := C100_diagonal t
  have e : matEnergy n t.massMatrix v = ∑ a ∈ Finset.range n, t.massMatrix a a * v a ^ 2 := by
    unfold matEnergy matForce
    refine Finset.sum_congr rfl fun a ha => ?_
    rw [Finset.sum_eq_single a]
    · ring
    · intro b _ hb
      rw [h2 a b (Ne.symm hb), zero_mul]
    · intro h; exact absurd ha h
  rw [e, t.sum_rows _ _ n hn]
  · unfold kineticEnergy2
    congr 1
    · congr 1
      apply List.map_congr_left
      intro i hi
      rw [List.mem_range] at hi
      rw [h1 _ (show t.HasDof (.cartY i) from hi), h1 _ (show t.HasDof (.cartRot i) from hi)]
      rfl
    · congr 1
      apply List.map_congr_left
      intro b hb
      rw [h1 _ (show t.HasDof (.bogieY b) from hb), h1 _ (show t.HasDof (.bogieRot b) from hb)]
      congr 2
      apply List.map_congr_left
      intro j hj
      rw [List.mem_range] at hj
      rw [h1 _ (show t.HasDof (.wheelY b j) from ⟨hb, hj⟩)]
      rfl
  · intro a ha
    rw [h3 a ha, zero_mul]

/-- Specification: the dof is a vertical displacement. -/
def TrainDof.Vertical : TrainDof → Prop
  | .cartY _ => True
  | .bogieY _ => True
  | .wheelY _ _ => True
  | _ => False

theorem Train.mem_massWrites (t : Train K) (h : K → K) (w : TrainDof × K) :
    w ∈ t.massWrites h ↔ t.HasDof w.1 ∧ w.1.Vertical ∧ w.2 = h (t.bodyInertia w.1) := by
  have key : w ∈ t.massWrites h ↔ ∃ v ∈ t.massDiagonal, v.1.Vertical ∧ w = (v.1, h v.2) := by
    unfold Train.massWrites Train.massDiagonal
    simp only [List.mem_flatMap, List.mem_range, Option.mem_toList, List.mem_cons, List.mem_map]
    constructor
    · rintro ⟨i, hi, c, hc, rfl | ⟨b, hb, rfl | ⟨j, hj, rfl⟩⟩⟩
      · exact ⟨(.cartY i, c.mass), ⟨i, hi, c, hc, Or.inl rfl⟩, trivial, rfl⟩
      · exact ⟨(.bogieY b.1, (t.bogie b.1).mass), ⟨i, hi, c, hc, Or.inr (Or.inr ⟨b, hb, Or.inl rfl⟩)⟩, trivial, rfl⟩
      · exact ⟨(.wheelY b.1 j, ((t.bogie b.1).wheels.getD j (0, 0)).1),
          ⟨i, hi, c, hc, Or.inr (Or.inr ⟨b, hb, Or.inr (Or.inr ⟨j, hj, rfl⟩)⟩)⟩, trivial, rfl⟩
    · rintro ⟨v, ⟨i, hi, c, hc, rfl | rfl | ⟨b, hb, rfl | rfl | ⟨j, hj, rfl⟩⟩⟩, hv, rfl⟩
      · exact ⟨i, hi, c, hc, Or.inl rfl⟩
      · exact absurd hv (by simp [TrainDof.Vertical])
      · exact ⟨i, hi, c, hc, Or.inr ⟨b, hb, Or.inl rfl⟩⟩
      · exact absurd hv (by simp [TrainDof.Vertical])
      · exact ⟨i, hi, c, hc, Or.inr ⟨b, hb, Or.inr ⟨j, hj, rfl⟩⟩⟩
  rw [key]
  constructor
  · rintro ⟨v, hv, h1, rfl⟩
    obtain ⟨h2, h3⟩ := (t.mem_massDiagonal v).1 hv
    exact ⟨h2, h1, by rw [h3]⟩
  · rintro ⟨h1, h2, h3⟩
    exact ⟨(w.1, t.bodyInertia w.1), (t.mem_massDiagonal _).2 ⟨h1, rfl⟩, h2, by rw [← h3]⟩

/-- C100: the force vector is minus the weight at the vertical dof of every body and zero elsewhere; its entries sum
to minus the weight of the whole train, a shared bogie once. -/
theorem C100_weight (t : Train K) (g : K) :
    (∀ d, t.HasDof d → d.Vertical → t.forceVector g (t.dof d) = -t.bodyInertia d * g) ∧
    (∀ d, t.HasDof d → ¬ d.Vertical → t.forceVector g (t.dof d) = 0) ∧
    (∀ a, (∀ d, t.HasDof d → t.dof d ≠ a) → t.forceVector g a = 0) ∧
    ∀ n, t.numbering.next ≤ n → ∑ a ∈ Finset.range n, t.forceVector g a = -totalMass t * g := by
  have h1 : ∀ d, t.HasDof d → d.Vertical → t.forceVector g (t.dof d) = -t.bodyInertia d * g := by
    intro d hd hv
    apply writes_eq_of_mem
    · intro w hw hp
      rw [List.mem_map] at hw
      obtain ⟨v, hv', rfl⟩ := hw
      obtain ⟨h1, h2, h3⟩ := (t.mem_massWrites _ v).1 hv'
      have := t.dof_inj _ _ h1 hd hp
      rw [← this, ← h3]
    · exact ⟨_, List.mem_map.2 ⟨(d, -t.bodyInertia d * g), (t.mem_massWrites _ _).2 ⟨hd, hv, rfl⟩, rfl⟩, rfl⟩
  have h2 : ∀ a, (∀ d, t.HasDof d → d.Vertical → t.dof d ≠ a) → t.forceVector g a = 0 := by
    intro a ha
    apply writes_eq_of_not_mem
    intro w hw hp
    rw [List.mem_map] at hw
    obtain ⟨v, hv, rfl⟩ := hw
    obtain ⟨h1, h2, -⟩ := (t.mem_massWrites _ v).1 hv
    exact ha v.1 h1 h2 hp
  have h3 : ∀ d, t.HasDof d → ¬ d.Vertical → t.forceVector g (t.dof d) = 0 := by
    intro d hd hv
    apply h2
    intro e he hev h
    exact hv (t.dof_inj e d he hd h ▸ hev)
  refine ⟨h1, h3, fun a ha => h2 a fun d hd _ => ha d hd, ?_⟩
  intro n hn
  rw [t.sum_rows _ (fun a ha => h2 a fun d hd _ => ha d hd) n hn]
  have e1 : (t.carts.map Cart.mass).sum = ((List.range t.carts.length).map fun i => t.bodyInertia (.cartY i)).sum := by
    conv_lhs => rw [← range_map_getD (t.carts.map Cart.mass) 0]
    simp [Train.bodyInertia]
  have e2 : ∀ b, ((t.bogie b).wheels.map Prod.fst).sum =
      ((List.range (t.bogie b).wheels.length).map fun j => t.bodyInertia (.wheelY b j)).sum := by
    intro b
    conv_lhs => rw [← range_map_getD ((t.bogie b).wheels.map Prod.fst) 0]
    simp [Train.bodyInertia]
  have e3 : -totalMass t * g = -g * totalMass t := by ring
  rw [e3]
  unfold totalMass
  rw [e1, mul_add]
  congr 1
  · apply list_sum_eq_mul
    intro i hi
    rw [List.mem_range] at hi
    rw [h1 (.cartY i) hi trivial, h3 (.cartRot i) hi (fun h => h)]
    ring
  · apply list_sum_eq_mul
    intro b hb
    rw [h1 (.bogieY b) hb trivial, h3 (.bogieRot b) hb (fun h => h), e2, mul_add]
    congr 1
    · simp only [Train.bodyInertia]; ring
    · apply list_sum_eq_mul
      intro j hj
      rw [List.mem_range] at hj
      rw [h1 (.wheelY b j) ⟨hb, hj⟩ trivial]
      ring

end mass

/-! The sprinter with its shared middle bogie: 16 numbered dofs in matrices of 20 rows. -/
example : sprinterTrain.numbering.next = 16 ∧ sprinterTrain.totalNdof = 20 ∧
    sprinterTrain.massMatrix (sprinterTrain.dof (.bogieY 1)) (sprinterTrain.dof (.bogieY 1)) = 1600 ∧
    sprinterTrain.massMatrix 17 17 = 0 := by decide +kernel

/-! ### C101 -/

section mesh
variable {K : Type*} [Field K] [LinearOrder K] [IsStrictOrderedRing K]

/-- Specification: the parts of a train. -/
def Train.HasPart (t : Train K) : TrainPart → Prop
  | .cart i => i < t.carts.length
  | .bogie b => b ∈ t.bogies
  | .wheel b j => b ∈ t.bogies ∧ j < (t.bogie b).wheels.length

theorem Train.mem_visits (t : Train K) (p : TrainPart) : p ∈ t.visits ↔ t.HasPart p := by
  have key : p ∈ t.visits ↔ ∃ (i : ℕ) (c : Cart K), t.carts[i]? = some c ∧ (p = TrainPart.cart i ∨
      ∃ b ∈ c.bogies, p = TrainPart.bogie b.1 ∨ ∃ j < (t.bogie b.1).wheels.length, p = TrainPart.wheel b.1 j) := by
    simp only [Train.visits, Train.cartVisit, Train.bogieVisit, List.mem_flatMap, List.mem_range, Option.mem_toList,
      List.mem_cons, List.mem_map, Option.mem_def]
    constructor
    · rintro ⟨i, hi, c, hc, h1⟩
      refine ⟨i, c, hc, h1.imp id ?_⟩
      rintro ⟨b, hb, h2⟩
      refine ⟨b, hb, h2.imp id ?_⟩
      rintro ⟨j, hj, rfl⟩
      exact ⟨j, hj, rfl⟩
    · rintro ⟨i, c, hc, h1⟩
      refine ⟨i, (List.getElem?_eq_some_iff.1 hc).1, c, hc, h1.imp id ?_⟩
      rintro ⟨b, hb, h2⟩
      refine ⟨b, hb, h2.imp id ?_⟩
      rintro ⟨j, hj, rfl⟩
      exact ⟨j, hj, rfl⟩
  rw [key]
  have bog : ∀ b ∈ t.bogies, ∃ (i : ℕ) (c : Cart K), t.carts[i]? = some c ∧ ∃ d, (b, d) ∈ c.bogies := by
    intro b hb
    obtain ⟨c, hc, d, hd⟩ := (t.mem_bogies b).1 hb
    obtain ⟨i, hi, hic⟩ := List.mem_iff_getElem.1 hc
    exact ⟨i, c, by rw [List.getElem?_eq_getElem hi, hic], d, hd⟩
  constructor
  · rintro ⟨i, c, hc, rfl | ⟨b, hb, rfl | ⟨j, hj, rfl⟩⟩⟩
    · exact (List.getElem?_eq_some_iff.1 hc).1
    · exact (t.mem_bogies b.1).2 ⟨c, List.mem_of_getElem? hc, b.2, hb⟩
    · exact ⟨(t.mem_bogies b.1).2 ⟨c, List.mem_of_getElem? hc, b.2, hb⟩, hj⟩
  · intro hp
    cases p with
    | cart i => exact ⟨i, _, List.getElem?_eq_getElem hp, Or.inl rfl⟩
    | bogie b =>
      obtain ⟨i, c, hc, x, hx⟩ := bog b hp
      exact ⟨i, c, hc, Or.inr ⟨(b, x), hx, Or.inl rfl⟩⟩
    | wheel b j =>
      obtain ⟨i, c, hc, x, hx⟩ := bog b hp.1
      exact ⟨i, c, hc, Or.inr ⟨(b, x), hx, Or.inr ⟨j, hp.2, rfl⟩⟩⟩

/-- First occurrences of a list of parts, in order. -/
def addPart (acc : List TrainPart) (p : TrainPart) : List TrainPart := if p ∈ acc then acc else acc ++ [p]

/-- The parts of a train in the order of the mesh, each once. -/
def Train.meshParts (t : Train K) : List TrainPart := t.visits.foldl addPart []

theorem foldl_addPart (l acc : List TrainPart) (h : acc.Nodup) :
    (l.foldl addPart acc).Nodup ∧ ∀ p, p ∈ l.foldl addPart acc ↔ p ∈ acc ∨ p ∈ l := by
  induction l generalizing acc with
  | nil => exact ⟨h, by simp⟩
  | cons a l ih =>
    rw [List.foldl_cons]
    by_cases ha : a ∈ acc
    · have e : addPart acc a = acc := if_pos ha
      rw [e]
      refine ⟨(ih acc h).1, fun p => ?_⟩
      rw [(ih acc h).2]
      simp only [List.mem_cons]
      constructor
      · tauto
      · rintro (h1 | rfl | h1)
        · exact Or.inl h1
        · exact Or.inl ha
        · exact Or.inr h1
    · have e : addPart acc a = acc ++ [a] := if_neg ha
      have h' : (acc ++ [a]).Nodup := by
        rw [List.nodup_append]
        refine ⟨h, by simp, ?_⟩
        intro x hx y hy
        rw [List.mem_singleton] at hy
        subst hy
        rintro rfl
        exact ha hx
      rw [e]
      refine ⟨(ih _ h').1, fun p => ?_⟩
      rw [(ih _ h').2]
      simp [or_assoc]

theorem Train.mem_meshParts (t : Train K) (p : TrainPart) : p ∈ t.meshParts ↔ t.HasPart p := by
  unfold Train.meshParts
  rw [(foldl_addPart _ _ List.nodup_nil).2, ← t.mem_visits]
  simp

theorem Train.nodup_meshParts (t : Train K) : t.meshParts.Nodup := (foldl_addPart _ _ List.nodup_nil).1

/-- The kind of a part. -/
def TrainPart.kind : TrainPart → Fin 3
  | .cart _ => 0
  | .bogie _ => 1
  | .wheel _ _ => 2

/-- Specification: different carts, different bogies and different wheels start at different places along the track
(further apart than the tolerance of node comparison). -/
def Train.Separated (t : Train K) (x0 : ℕ → K) : Prop :=
  ∀ p q, t.HasPart p → t.HasPart q → p ≠ q → p.kind = q.kind → 1 / 10 ^ 9 < |t.startX x0 p - t.startX x0 q|

variable {H : Type*} [DecidableEq H] (hash : (Fin 3 → K) → H)

theorem dictInsert_fresh (st : (ℕ → NodeObj K) × List ℕ) (h : ∀ n, ∃ q, st.1 n = freshNode q) (n : ℕ) :
    (dictInsert (sameNode hash) mergeNode st n).1 = st.1 := by
  unfold dictInsert
  cases hf : st.2.find? fun m => m == n || sameNode hash (st.1 m) (st.1 n) with
  | none => rfl
  | some m =>
    simp only
    split_ifs with hmn
    · rfl
    · obtain ⟨a, ha⟩ := h m
      obtain ⟨b, hb⟩ := h n
      have : mergeNode (st.1 m) (st.1 n) = st.1 m := by
        rw [ha, hb]; simp [mergeNode, freshNode]
      simp [this]

theorem dictFold_fresh (ns : List ℕ) (st : (ℕ → NodeObj K) × List ℕ) (h : ∀ n, ∃ q, st.1 n = freshNode q) :
    (ns.foldl (dictInsert (sameNode hash) mergeNode) st).1 = st.1 := by
  induction ns generalizing st with
  | nil => rfl
  | cons n ns ih =>
    have e := dictInsert_fresh hash st h n
    rw [List.foldl_cons, ih _ (by rw [e]; exact h), e]

/-- What `set_mesh` establishes for the visited parts. -/
structure SetMeshInv (pos : TrainPart → Fin 3 → K) (P : List TrainPart) (m : TrainMesh K) : Prop where
  all : ∀ n, ∃ q, m.store n = freshNode q
  lt : ∀ p ∈ P, m.node p < m.fresh
  pos : ∀ p ∈ P, m.store (m.node p) = freshNode (pos p)
  inj : ∀ p ∈ P, ∀ q ∈ P, m.node p = m.node q → p = q

theorem setMeshPart_inv (pos : TrainPart → Fin 3 → K) (P : List TrainPart) (m : TrainMesh K) (h : SetMeshInv pos P m)
    (p : TrainPart) : SetMeshInv pos (P ++ [p]) (setMeshPart hash pos m p) := by
  have hall : ∀ n, ∃ q, Function.update m.store m.fresh (freshNode (pos p)) n = freshNode q := by
    intro n
    by_cases hn : n = m.fresh
    · subst hn; exact ⟨pos p, by simp⟩
    · obtain ⟨q, hq⟩ := h.all n
      exact ⟨q, by simp [hn, hq]⟩
  have hst : (setMeshPart hash pos m p).store = Function.update m.store m.fresh (freshNode (pos p)) :=
    dictFold_fresh hash _ _ hall
  have hnode : (setMeshPart hash pos m p).node = Function.update m.node p m.fresh := rfl
  have hfresh : (setMeshPart hash pos m p).fresh = m.fresh + 1 := rfl
  have old : ∀ q ∈ P ++ [p], q ≠ p → q ∈ P := by
    intro q hq hne
    rw [List.mem_append, List.mem_singleton] at hq
    exact hq.resolve_right hne
  refine ⟨?_, ?_, ?_, ?_⟩
  · intro n; rw [hst]; exact hall n
  · intro q hq
    rw [hnode, hfresh]
    by_cases e : q = p
    · subst e; simp
    · have := h.lt q (old q hq e)
      simp [e]; omega
  · intro q hq
    rw [hnode, hst]
    by_cases e : q = p
    · subst e; simp
    · have h1 := h.lt q (old q hq e)
      have h2 : m.node q ≠ m.fresh := by omega
      simp [e, h2, h.pos q (old q hq e)]
  · intro q hq r hr hqr
    rw [hnode] at hqr
    by_cases e : q = p
    · by_cases e' : r = p
      · rw [e, e']
      · have h1 := h.lt r (old r hr e')
        simp [e, e'] at hqr; omega
    · by_cases e' : r = p
      · have h1 := h.lt q (old q hq e)
        simp [e, e'] at hqr; omega
      · simp [e, e'] at hqr
        exact h.inj q (old q hq e) r (old r hr e') hqr

theorem setMesh_inv (t : Train K) (x0 : ℕ → K) :
    SetMeshInv (partPosition (t.startX x0)) t.visits (t.setMesh hash x0) := by
  have key : ∀ (l P : List TrainPart) (m : TrainMesh K), SetMeshInv (partPosition (t.startX x0)) P m →
      SetMeshInv (partPosition (t.startX x0)) (P ++ l)
        (l.foldl (setMeshPart hash (partPosition (t.startX x0))) m) := by
    intro l
    induction l with
    | nil => intro P m h; simpa using h
    | cons a l ih =>
      intro P m h
      have := ih _ _ (setMeshPart_inv hash _ P m h a)
      simpa [List.append_assoc] using this
  have h0 := key t.visits [] ⟨fun _ => freshNode fun _ => 0, 0, [], fun _ => 0⟩
    ⟨fun _ => ⟨_, rfl⟩, by simp, by simp, by simp⟩
  rw [List.nil_append] at h0
  exact h0

/-- The node object of a part after numbering. -/
def Train.partNode (t : Train K) (x0 : ℕ → K) (p : TrainPart) : NodeObj K :=
  { freshNode (partPosition (t.startX x0) p) with idx := partIdx t.numbering p }

theorem numberNodes_store (t : Train K) (x0 : ℕ → K) (p : TrainPart) (hp : t.HasPart p) :
    (t.numberNodes (t.setMesh hash x0)).store ((t.numberNodes (t.setMesh hash x0)).node p) = t.partNode x0 p := by
  have hI := setMesh_inv hash t x0
  set m := t.setMesh hash x0 with hm
  have key : ∀ (l P : List TrainPart) (s : ℕ → NodeObj K), (∀ q ∈ P ++ l, t.HasPart q) →
      (∀ q, t.HasPart q → s (m.node q) = if q ∈ P then t.partNode x0 q else freshNode (partPosition (t.startX x0) q)) →
      ∀ q, t.HasPart q → (l.foldl (fun (s : ℕ → NodeObj K) (p : TrainPart) =>
        Function.update s (m.node p) { (s (m.node p)) with idx := partIdx t.numbering p }) s) (m.node q) =
          if q ∈ P ++ l then t.partNode x0 q else freshNode (partPosition (t.startX x0) q) := by
    intro l
    induction l with
    | nil => intro P s _ h; simpa using h
    | cons a l ih =>
      intro P s hP h q hq
      rw [List.foldl_cons]
      have := ih (P ++ [a]) (Function.update s (m.node a) { (s (m.node a)) with idx := partIdx t.numbering a })
        (by simpa [List.append_assoc] using hP) ?_ q hq
      · simpa [List.append_assoc] using this
      · intro r hr
        have ha : t.HasPart a := hP a (by simp)
        by_cases e : r = a
        · subst e
          simp only [Function.update_self, List.mem_append, List.mem_singleton, or_true, if_true]
          rw [h r hr]
          unfold Train.partNode
          split_ifs <;> rfl
        · have hne : m.node r ≠ m.node a := fun he =>
            e (hI.inj r ((t.mem_visits r).2 hr) a ((t.mem_visits a).2 ha) he)
          rw [Function.update_of_ne hne, h r hr]
          simp [e]
  have := key t.visits [] m.store (fun q hq => (t.mem_visits q).1 (by simpa using hq))
    (fun q hq => by simpa using hI.pos q ((t.mem_visits q).2 hq)) p hp
  rw [if_pos (by simpa using (t.mem_visits p).2 hp)] at this
  exact this

/-- C101: after initialisation the mesh of a train holds the very node objects of its parts, each exactly once and in
the order of the parts, also for a bogie that belongs to two carts (for which `set_mesh` makes two node objects); every
node has the coordinates and the equation numbers of its part and all its dofs are free. -/
theorem C101_mesh (t : Train K) (x0 : ℕ → K) (hsep : t.Separated x0) :
    let m := t.initialMesh hash x0
    m.mesh = t.meshParts.map m.node ∧ m.mesh.Nodup ∧
    (∀ p q, t.HasPart p → t.HasPart q → m.node p = m.node q → p = q) ∧
    (∀ p, t.HasPart p → m.node p ∈ m.mesh ∧ m.store (m.node p) = t.partNode x0 p) := by
  have hI := setMesh_inv hash t x0
  have hS := numberNodes_store hash t x0
  set m0 := t.numberNodes (t.setMesh hash x0) with hm0
  have hnode : m0.node = (t.setMesh hash x0).node := rfl
  have hinj : ∀ p q, t.HasPart p → t.HasPart q → m0.node p = m0.node q → p = q := fun p q hp hq h =>
    hI.inj p ((t.mem_visits p).2 hp) q ((t.mem_visits q).2 hq) h
  have hsame : ∀ p q, t.HasPart p → t.HasPart q → p ≠ q →
      sameNode hash (m0.store (m0.node p)) (m0.store (m0.node q)) = false := by
    intro p q hp hq hpq
    rw [hS p hp, hS q hq]
    unfold sameNode
    rw [Bool.and_eq_false_iff]
    right
    unfold nodesClose
    rw [decide_eq_false_iff_not]
    intro hall
    by_cases hk : p.kind = q.kind
    · have h1 := hsep p q hp hq hpq hk
      have h2 := hall 0
      apply h2
      have e : (1 / 10 ^ 9 : K) = 1 / 1000000000 := by norm_num
      rw [← e]
      exact h1
    · have h2 := hall 1
      have h3 : |(t.partNode x0 p).pos 1 - (t.partNode x0 q).pos 1| > 1 / 1000000000 := by
        cases p <;> cases q <;>
          simp only [TrainPart.kind, not_true_eq_false] at hk <;>
          simp only [Train.partNode, freshNode, partPosition, Matrix.cons_val_one, Matrix.cons_val_zero] <;> norm_num
      exact h2 h3
  have key : ∀ (l P : List TrainPart), (∀ q ∈ P ++ l, t.HasPart q) →
      (l.map m0.node).foldl (dictInsert (sameNode hash) mergeNode) (m0.store, (P.foldl addPart []).map m0.node) =
        (m0.store, ((P ++ l).foldl addPart []).map m0.node) := by
    intro l
    induction l with
    | nil => intro P _; simp
    | cons a l ih =>
      intro P hP
      have hA : ∀ q, q ∈ P.foldl addPart [] ↔ q ∈ P := fun q => by
        rw [(foldl_addPart P [] List.nodup_nil).2]; simp
      have ha : t.HasPart a := hP a (by simp)
      have hstep : dictInsert (sameNode hash) mergeNode (m0.store, (P.foldl addPart []).map m0.node) (m0.node a) =
          (m0.store, ((P ++ [a]).foldl addPart []).map m0.node) := by
        rw [List.foldl_append, List.foldl_cons, List.foldl_nil]
        have hf : ∀ q ∈ P.foldl addPart [], ((m0.node q == m0.node a) ||
            sameNode hash (m0.store (m0.node q)) (m0.store (m0.node a))) = true → q = a := by
          intro q hq hqa
          by_contra hne
          have hq' : t.HasPart q := hP q (by simp [(hA q).1 hq])
          rw [hsame q a hq' ha hne, Bool.or_false, beq_iff_eq] at hqa
          exact hne (hinj q a hq' ha hqa)
        by_cases hmem : a ∈ P.foldl addPart []
        · have e : addPart (P.foldl addPart []) a = P.foldl addPart [] := if_pos hmem
          rw [e]
          unfold dictInsert
          cases hfind : ((P.foldl addPart []).map m0.node).find? fun k =>
              k == m0.node a || sameNode hash (m0.store k) (m0.store (m0.node a)) with
          | none =>
            rw [List.find?_eq_none] at hfind
            exact absurd (hfind (m0.node a) (List.mem_map.2 ⟨a, hmem, rfl⟩)) (by simp)
          | some k =>
            have h1 := List.find?_some hfind
            have h2 := List.mem_of_find?_eq_some hfind
            rw [List.mem_map] at h2
            obtain ⟨q, hq, rfl⟩ := h2
            have := hf q hq h1
            subst this
            simp
        · have e : addPart (P.foldl addPart []) a = P.foldl addPart [] ++ [a] := if_neg hmem
          rw [e]
          unfold dictInsert
          have hfind : ((P.foldl addPart []).map m0.node).find? (fun k =>
              k == m0.node a || sameNode hash (m0.store k) (m0.store (m0.node a))) = none := by
            rw [List.find?_eq_none]
            intro k hk hk'
            rw [List.mem_map] at hk
            obtain ⟨q, hq, rfl⟩ := hk
            exact hmem (hf q hq hk' ▸ hq)
          simp only [hfind, List.map_append, List.map_cons, List.map_nil]
      rw [List.map_cons, List.foldl_cons, hstep, ih (P ++ [a]) (by simpa [List.append_assoc] using hP)]
      simp [List.append_assoc]
  have hres : (t.visits.map fun p => [m0.node p]).foldl (addUniqueNodes hash) (m0.store, []) =
      (m0.store, t.meshParts.map m0.node) := by
    have h1 := dictAdd_calls (nodeLaws hash) m0.store (t.visits.map fun p => [m0.node p])
    have h2 : (t.visits.map fun p => [m0.node p]).flatten = t.visits.map m0.node := by
      induction t.visits with
      | nil => rfl
      | cons a l ih => simp [ih]
    rw [h2] at h1
    have h3 := key t.visits [] (fun q hq => (t.mem_visits q).1 (by simpa using hq))
    exact h1.trans (by simpa [Train.meshParts] using h3)
  have hmesh : (t.initialMesh hash x0).mesh = t.meshParts.map m0.node := congrArg Prod.snd hres
  have hstore : (t.initialMesh hash x0).store = m0.store := congrArg Prod.fst hres
  have hn : (t.initialMesh hash x0).node = m0.node := rfl
  intro m
  refine ⟨hmesh, ?_, hinj, ?_⟩
  · show (t.initialMesh hash x0).mesh.Nodup
    rw [hmesh]
    exact t.nodup_meshParts.map_on fun p hp q hq h =>
      hinj p q ((t.mem_meshParts p).1 hp) ((t.mem_meshParts q).1 hq) h
  · intro p hp
    refine ⟨?_, ?_⟩
    · show (t.initialMesh hash x0).node p ∈ (t.initialMesh hash x0).mesh
      rw [hmesh, hn]
      exact List.mem_map.2 ⟨p, (t.mem_meshParts p).2 hp, rfl⟩
    · show (t.initialMesh hash x0).store ((t.initialMesh hash x0).node p) = _
      rw [hstore, hn]
      exact hS p hp

theorem mem_startWrites (t : Train K) (x0 : ℕ → K) (w : TrainPart × K) : w ∈ t.startWrites x0 ↔
    ∃ (i : ℕ) (c : Cart K), t.carts[i]? = some c ∧ (w = (TrainPart.cart i, x0 i) ∨ ∃ b ∈ c.bogies,
      w = (TrainPart.bogie b.1, x0 i + b.2) ∨ ∃ j < (t.bogie b.1).wheels.length,
        w = (TrainPart.wheel b.1 j, x0 i + b.2 + ((t.bogie b.1).wheels.getD j (0, 0)).2)) := by
  simp only [Train.startWrites, List.mem_flatMap, List.mem_range, Option.mem_toList, List.mem_cons, List.mem_map]
  constructor
  · rintro ⟨i, _, c, hc, rfl | ⟨b, hb, rfl | ⟨j, hj, rfl⟩⟩⟩
    · exact ⟨i, c, hc, Or.inl rfl⟩
    · exact ⟨i, c, hc, Or.inr ⟨b, hb, Or.inl rfl⟩⟩
    · exact ⟨i, c, hc, Or.inr ⟨b, hb, Or.inr ⟨j, hj, rfl⟩⟩⟩
  · rintro ⟨i, c, hc, rfl | ⟨b, hb, rfl | ⟨j, hj, rfl⟩⟩⟩
    · exact ⟨i, (List.getElem?_eq_some_iff.1 hc).1, c, hc, Or.inl rfl⟩
    · exact ⟨i, (List.getElem?_eq_some_iff.1 hc).1, c, hc, Or.inr ⟨b, hb, Or.inl rfl⟩⟩
    · exact ⟨i, (List.getElem?_eq_some_iff.1 hc).1, c, hc, Or.inr ⟨b, hb, Or.inr ⟨j, hj, rfl⟩⟩⟩

/-- C101, where the nodes are: a cart at its start distance at height 2; a bogie, if its carts agree on the place, at the
distance of the cart plus its own signed distance at height 1; a wheel at the place of the bogie plus its own signed
distance at height 0. -/
theorem C101_places (t : Train K) (x0 : ℕ → K) (hsep : t.Separated x0) :
    let m := t.initialMesh hash x0
    (∀ i < t.carts.length, (m.store (m.node (.cart i))).pos = ![x0 i, 2, 0]) ∧
    ∀ b ∈ t.bogies, ∀ x, (∀ (i : ℕ) (c : Cart K) (d : K), t.carts[i]? = some c → (b, d) ∈ c.bogies → x0 i + d = x) →
      (m.store (m.node (.bogie b))).pos = ![x, 1, 0] ∧
      ∀ j (hj : j < (t.bogie b).wheels.length),
        (m.store (m.node (.wheel b j))).pos = ![x + ((t.bogie b).wheels[j]).2, 0, 0] := by
  intro m
  have hm := (C101_mesh hash t x0 hsep).2.2.2
  refine ⟨?_, ?_⟩
  · intro i hi
    rw [(hm (.cart i) hi).2]
    have : t.startX x0 (.cart i) = x0 i := by
      apply writes_eq_of_mem
      · intro w hw he
        obtain ⟨k, c, hc, rfl | ⟨b, hb, rfl | ⟨j, hj, rfl⟩⟩⟩ := (mem_startWrites t x0 w).1 hw
        · cases he; rfl
        · cases he
        · cases he
      · exact ⟨_, (mem_startWrites t x0 _).2 ⟨i, _, List.getElem?_eq_getElem hi, Or.inl rfl⟩, rfl⟩
    simp [Train.partNode, freshNode, partPosition, this]
  · intro b hb x hx
    obtain ⟨c, hc, d, hd⟩ := (t.mem_bogies b).1 hb
    obtain ⟨i, hi, hic⟩ := List.mem_iff_getElem.1 hc
    have hci : t.carts[i]? = some c := by rw [List.getElem?_eq_getElem hi, hic]
    refine ⟨?_, ?_⟩
    · rw [(hm (.bogie b) hb).2]
      have : t.startX x0 (.bogie b) = x := by
        apply writes_eq_of_mem
        · intro w hw he
          obtain ⟨k, c', hc', rfl | ⟨b', hb', rfl | ⟨j, hj, rfl⟩⟩⟩ := (mem_startWrites t x0 w).1 hw
          · cases he
          · cases he; exact hx k c' b'.2 hc' hb'
          · cases he
        · exact ⟨_, (mem_startWrites t x0 _).2 ⟨i, c, hci, Or.inr ⟨(b, d), hd, Or.inl rfl⟩⟩, rfl⟩
      simp [Train.partNode, freshNode, partPosition, this]
    · intro j hj
      rw [(hm (.wheel b j) ⟨hb, hj⟩).2]
      have : t.startX x0 (.wheel b j) = x + ((t.bogie b).wheels[j]).2 := by
        apply writes_eq_of_mem
        · intro w hw he
          obtain ⟨k, c', hc', rfl | ⟨b', hb', rfl | ⟨j', hj', rfl⟩⟩⟩ := (mem_startWrites t x0 w).1 hw
          · cases he
          · cases he
          · cases he
            simp only [hx k c' b'.2 hc' hb']
            rw [List.getD_eq_getElem _ _ hj]
        · exact ⟨_, (mem_startWrites t x0 _).2 ⟨i, c, hci, Or.inr ⟨(b, d), hd, Or.inr ⟨j, hj, rfl⟩⟩⟩, rfl⟩
      simp [Train.partNode, freshNode, partPosition, this]

end mesh

/-- The start coordinates of the sprinter: carts 0 and -15.57 m. -/
def sprinterStart : ℕ → ℚ := fun i => -(1557 / 100) * i

theorem sprinter_separated : sprinterTrain.Separated sprinterStart := by
  have hb : sprinterTrain.bogies = [0, 1, 2] := by decide +kernel
  have hall : ∀ p, sprinterTrain.HasPart p → p ∈ [TrainPart.cart 0, .cart 1, .bogie 0, .bogie 1, .bogie 2, .wheel 0 0,
      .wheel 0 1, .wheel 1 0, .wheel 1 1, .wheel 2 0, .wheel 2 1] := by
    intro p hp
    cases p with
    | cart i =>
      have : i < 2 := hp
      interval_cases i <;> simp
    | bogie b =>
      have : b ∈ sprinterTrain.bogies := hp
      rw [hb] at this
      simpa using this
    | wheel b j =>
      have h1 : b ∈ sprinterTrain.bogies := hp.1
      have h2 : j < 2 := hp.2
      rw [hb] at h1
      simp only [List.mem_cons, List.not_mem_nil, or_false] at h1
      rcases h1 with rfl | rfl | rfl <;> interval_cases j <;> simp
  have key : ∀ p ∈ [TrainPart.cart 0, .cart 1, .bogie 0, .bogie 1, .bogie 2, .wheel 0 0,
      .wheel 0 1, .wheel 1 0, .wheel 1 1, .wheel 2 0, .wheel 2 1], ∀ q ∈ [TrainPart.cart 0, .cart 1, .bogie 0, .bogie 1,
      .bogie 2, .wheel 0 0, .wheel 0 1, .wheel 1 0, .wheel 1 1, .wheel 2 0, .wheel 2 1], p ≠ q →
      p.kind = q.kind →
      1 / 10 ^ 9 < |sprinterTrain.startX sprinterStart p - sprinterTrain.startX sprinterStart q| := by
    decide +kernel
  intro p q hp hq hne hk
  exact key p (hall p hp) q (hall q hq) hne hk

/-- Both carts of the sprinter agree on the place of the shared bogie. -/
example : ∀ (i : ℕ) (c : Cart ℚ) (d : ℚ), sprinterTrain.carts[i]? = some c → (1, d) ∈ c.bogies →
    sprinterStart i + d = -(1557 / 200) := by
  intro i c d hc hd
  have hi : i < 2 := (List.getElem?_eq_some_iff.1 hc).1
  have : i = 0 ∨ i = 1 := by omega
  rcases this with rfl | rfl
  · simp [sprinterTrain] at hc
    subst hc
    simp at hd
    rw [hd]; norm_num [sprinterStart]
  · simp [sprinterTrain] at hc
    subst hc
    simp at hd
    rw [hd]; norm_num [sprinterStart]

/-! `set_mesh` alone does not put the node of the shared bogie in the mesh; after `reset_mesh` it is there. -/
example : let m := sprinterTrain.setMesh roundedCoords sprinterStart
    m.node (.bogie 1) ∉ m.mesh ∧ m.mesh.length = 11 := by decide +kernel
example : let m := sprinterTrain.initialMesh roundedCoords sprinterStart
    m.node (.bogie 1) ∈ m.mesh ∧ m.mesh.length = 11 := by decide +kernel

/-! ### C102 and C103 -/

/-- The dofs of a part in the order of `index_dof`. -/
def TrainPart.dofs : TrainPart → List TrainDof
  | .cart i => [.cartY i, .cartRot i]
  | .bogie b => [.bogieY b, .bogieRot b]
  | .wheel b j => [.wheelY b j]

theorem foldl_addPart_mem (l acc : List TrainPart) (h : ∀ x ∈ l, x ∈ acc) : l.foldl addPart acc = acc := by
  induction l with
  | nil => rfl
  | cons a l ih =>
    rw [List.foldl_cons, show addPart acc a = acc from if_pos (h a (by simp))]
    exact ih fun x hx => h x (by simp [hx])

theorem foldl_addPart_new (l acc : List TrainPart) (h : (acc ++ l).Nodup) : l.foldl addPart acc = acc ++ l := by
  induction l generalizing acc with
  | nil => simp
  | cons a l ih =>
    have ha : a ∉ acc := fun ha => (List.nodup_append.1 h).2.2 a ha a (by simp) rfl
    rw [List.foldl_cons, show addPart acc a = acc ++ [a] from if_neg ha, ih _ (by simpa [List.append_assoc] using h)]
    simp

/-- The parts that are in the mesh after `n` carts (and possibly some bogies of the next one). -/
structure PartClosed (nWheels : ℕ → ℕ) (n : ℕ) (P : List TrainPart) (B : ℕ → Prop) : Prop where
  nodup : P.Nodup
  cart : ∀ i, TrainPart.cart i ∈ P ↔ i < n
  bogie : ∀ b, TrainPart.bogie b ∈ P ↔ B b
  wheel : ∀ b j, TrainPart.wheel b j ∈ P ↔ B b ∧ j < nWheels b

theorem mem_partDofs (P : List TrainPart) :
    (∀ i, TrainDof.cartY i ∈ P.flatMap TrainPart.dofs ↔ TrainPart.cart i ∈ P) ∧
    (∀ i, TrainDof.cartRot i ∈ P.flatMap TrainPart.dofs ↔ TrainPart.cart i ∈ P) ∧
    (∀ b, TrainDof.bogieY b ∈ P.flatMap TrainPart.dofs ↔ TrainPart.bogie b ∈ P) ∧
    (∀ b, TrainDof.bogieRot b ∈ P.flatMap TrainPart.dofs ↔ TrainPart.bogie b ∈ P) ∧
    (∀ b j, TrainDof.wheelY b j ∈ P.flatMap TrainPart.dofs ↔ TrainPart.wheel b j ∈ P) := by
  refine ⟨?_, ?_, ?_, ?_, ?_⟩ <;> intros <;> rw [List.mem_flatMap] <;> constructor <;> intro h
  all_goals first
    | (obtain ⟨p, hp, hd⟩ := h; cases p <;> simp [TrainPart.dofs] at hd; (try obtain ⟨rfl, rfl⟩ := hd); (try subst hd); exact hp)
    | exact ⟨_, h, by simp [TrainPart.dofs]⟩

theorem meshBogie_inv (nWheels : ℕ → ℕ) (n b : ℕ) {s : Numbering} {P : List TrainPart} {B : ℕ → Prop}
    (h : NumInv 0 s (P.flatMap TrainPart.dofs)) (hc : PartClosed nWheels n P B) :
    let P' := (TrainPart.bogie b :: (List.range (nWheels b)).map fun j => TrainPart.wheel b j).foldl addPart P
    NumInv 0 (numberBogie nWheels s b) (P'.flatMap TrainPart.dofs) ∧
      PartClosed nWheels n P' (fun x => B x ∨ x = b) := by
  intro P'
  obtain ⟨m1, m2, m3, m4, m5⟩ := mem_partDofs P
  by_cases hb : B b
  · have e : P' = P := by
      apply foldl_addPart_mem
      intro x hx
      simp only [List.mem_cons, List.mem_map, List.mem_range] at hx
      rcases hx with rfl | ⟨j, hj, rfl⟩
      · exact (hc.bogie b).2 hb
      · exact (hc.wheel b j).2 ⟨hb, hj⟩
    have hB : (fun x => B x ∨ x = b) = B := by
      funext x
      exact propext ⟨fun hx => hx.elim id (fun e => e ▸ hb), Or.inl⟩
    rw [e, hB]
    refine ⟨?_, hc⟩
    have h1 : s.idx (.bogieY b) ≠ none := by
      rw [h.idx, if_pos ((m3 b).2 ((hc.bogie b).2 hb))]; simp
    unfold numberBogie
    rw [if_neg fun hh => h1 hh.1]
    exact h
  · have hbP : TrainPart.bogie b ∉ P := fun hx => hb ((hc.bogie b).1 hx)
    have hwP : ∀ j, TrainPart.wheel b j ∉ P := fun j hx => hb ((hc.wheel b j).1 hx).1
    have hnd : (P ++ TrainPart.bogie b :: (List.range (nWheels b)).map fun j => TrainPart.wheel b j).Nodup := by
      rw [List.nodup_append]
      refine ⟨hc.nodup, ?_, ?_⟩
      · rw [List.nodup_cons]
        refine ⟨by simp, ?_⟩
        exact List.nodup_range.map fun x y hxy => by simpa using hxy
      · intro x hx y hy hxy
        subst hxy
        simp only [List.mem_cons, List.mem_map, List.mem_range] at hy
        rcases hy with rfl | ⟨j, _, rfl⟩
        · exact hbP hx
        · exact hwP j hx
    have e : P' = P ++ TrainPart.bogie b :: (List.range (nWheels b)).map fun j => TrainPart.wheel b j :=
      foldl_addPart_new _ _ hnd
    have hY : TrainDof.bogieY b ∉ P.flatMap TrainPart.dofs := fun hx => hbP ((m3 b).1 hx)
    have hR : TrainDof.bogieRot b ∉ P.flatMap TrainPart.dofs := fun hx => hbP ((m4 b).1 hx)
    have hW : ∀ j, TrainDof.wheelY b j ∉ P.flatMap TrainPart.dofs := fun j hx => hwP j ((m5 b j).1 hx)
    refine ⟨?_, ?_⟩
    · unfold numberBogie
      rw [if_pos ⟨by rw [h.idx, if_neg hY], by rw [h.idx, if_neg hR]⟩]
      have h1 := h.push _ hY
      have h2 := h1.push (.bogieRot b) (by simp only [List.mem_append, hR, List.mem_singleton, reduceCtorEq, or_self, not_false_eq_true])
      have h3 := push_wheels 0 b (nWheels b) h2 (by
        intro j
        simp only [List.mem_append, hW, List.mem_singleton, reduceCtorEq, or_self, not_false_eq_true])
      have e2 : P'.flatMap TrainPart.dofs = P.flatMap TrainPart.dofs ++ [.bogieY b] ++ [.bogieRot b] ++
          (List.range (nWheels b)).map fun j => TrainDof.wheelY b j := by
        rw [e, List.flatMap_append, List.flatMap_cons, List.flatMap_map]
        simp [TrainPart.dofs, List.map_eq_flatMap]
      rw [e2]
      exact h3
    · rw [e]
      refine ⟨hnd, ?_, ?_, ?_⟩
      · intro i; simp [hc.cart]
      · intro x; simp [hc.bogie]
      · intro x j
        simp only [List.mem_append, hc.wheel, List.mem_cons, List.mem_map, List.mem_range, reduceCtorEq, false_or,
          TrainPart.wheel.injEq]
        constructor
        · rintro (hx | ⟨k, hk, rfl, rfl⟩)
          · exact ⟨Or.inl hx.1, hx.2⟩
          · exact ⟨Or.inr rfl, hk⟩
        · rintro ⟨hx | rfl, hj⟩
          · exact Or.inl ⟨hx, hj⟩
          · exact Or.inr ⟨j, hj, rfl, rfl⟩

theorem meshBogies_inv (nWheels : ℕ → ℕ) (n : ℕ) (bs : List ℕ) : ∀ {s : Numbering} {P : List TrainPart}
    {B : ℕ → Prop}, NumInv 0 s (P.flatMap TrainPart.dofs) → PartClosed nWheels n P B →
    let P' := (bs.flatMap fun b => TrainPart.bogie b :: (List.range (nWheels b)).map fun j => TrainPart.wheel b j).foldl
      addPart P
    NumInv 0 (bs.foldl (numberBogie nWheels) s) (P'.flatMap TrainPart.dofs) ∧
      PartClosed nWheels n P' (fun x => B x ∨ x ∈ bs) := by
  induction bs with
  | nil => intro s P B h hc; exact ⟨by simpa using h, by simpa using hc⟩
  | cons b bs ih =>
    intro s P B h hc
    obtain ⟨h1, hc1⟩ := meshBogie_inv nWheels n b h hc
    obtain ⟨h2, hc2⟩ := ih h1 hc1
    have : (fun x => (B x ∨ x = b) ∨ x ∈ bs) = (fun x => B x ∨ x ∈ b :: bs) := by
      funext x; simp [or_assoc]
    rw [this] at hc2
    intro P'
    have e : P' = (bs.flatMap fun b => TrainPart.bogie b :: (List.range (nWheels b)).map fun j =>
        TrainPart.wheel b j).foldl addPart ((TrainPart.bogie b :: (List.range (nWheels b)).map fun j =>
          TrainPart.wheel b j).foldl addPart P) := by
      show List.foldl addPart P _ = _
      rw [List.flatMap_cons, List.foldl_append]
    rw [e]
    exact ⟨h2, hc2⟩

section order
variable {K : Type*} [Field K]

/-- The dofs are numbered in the order of the mesh. -/
theorem Train.numbering_mesh [LinearOrder K] [IsStrictOrderedRing K] (t : Train K) :
    NumInv 0 t.numbering (t.meshParts.flatMap TrainPart.dofs) := by
  have key : ∀ m ≤ t.carts.length,
      NumInv 0 (numberCarts (fun b => (t.bogie b).wheels.length) 0 ((t.carts.take m).map fun c => c.bogies.map Prod.fst))
        ((((List.range m).flatMap fun i => (t.carts[i]?.toList).flatMap fun c => t.cartVisit i c).foldl addPart
          []).flatMap TrainPart.dofs) ∧
      ∃ B, PartClosed (fun b => (t.bogie b).wheels.length) m
        (((List.range m).flatMap fun i => (t.carts[i]?.toList).flatMap fun c => t.cartVisit i c).foldl addPart []) B := by
    intro m
    induction m with
    | zero =>
      intro _
      refine ⟨⟨by simp, by simp [numberCarts], by simp [numberCarts]⟩, fun _ => False, ?_⟩
      constructor <;> simp
    | succ m ih =>
      intro hm
      obtain ⟨h, B, hc⟩ := ih (by omega)
      have hget : t.carts[m]? = some t.carts[m] := List.getElem?_eq_getElem (by omega)
      have e1 : ((List.range (m + 1)).flatMap fun i => (t.carts[i]?.toList).flatMap fun c => t.cartVisit i c) =
          ((List.range m).flatMap fun i => (t.carts[i]?.toList).flatMap fun c => t.cartVisit i c) ++
            t.cartVisit m t.carts[m] := by
        rw [List.range_succ, List.flatMap_append]
        simp [hget]
      have e2 : (t.carts.take (m + 1)).map (fun c => c.bogies.map Prod.fst) =
          (t.carts.take m).map (fun c => c.bogies.map Prod.fst) ++ [t.carts[m].bogies.map Prod.fst] := by
        rw [List.take_add_one, hget, List.map_append]
        rfl
      rw [e1, e2, numberCarts_concat, List.foldl_append]
      set P := ((List.range m).flatMap fun i => (t.carts[i]?.toList).flatMap fun c => t.cartVisit i c).foldl addPart []
        with hP
      have e3 : ((t.carts.take m).map fun c => c.bogies.map Prod.fst).length = m := by simp; omega
      rw [e3]
      obtain ⟨m1, m2, m3, m4, m5⟩ := mem_partDofs P
      have hcart : TrainPart.cart m ∉ P := fun hx => lt_irrefl _ ((hc.cart m).1 hx)
      have h1 := h.push (.cartY m) (fun hx => hcart ((m1 m).1 hx))
      have h2 := h1.push (.cartRot m) (by
        simp only [List.mem_append, List.mem_singleton, reduceCtorEq, or_false]
        exact fun hx => hcart ((m2 m).1 hx))
      have hnd : (P ++ [TrainPart.cart m]).Nodup := by
        rw [List.nodup_append]
        refine ⟨hc.nodup, by simp, ?_⟩
        intro x hx y hy hxy
        rw [List.mem_singleton] at hy
        subst hxy
        exact hcart (hy ▸ hx)
      have hc1 : PartClosed (fun b => (t.bogie b).wheels.length) (m + 1) (P ++ [TrainPart.cart m]) B := by
        refine ⟨hnd, ?_, ?_, ?_⟩
        · intro i; simp [hc.cart]; omega
        · intro b; simp [hc.bogie]
        · intro b j; simp [hc.wheel]
      have e4 : (P ++ [TrainPart.cart m]).flatMap TrainPart.dofs =
          P.flatMap TrainPart.dofs ++ [.cartY m] ++ [.cartRot m] := by
        simp [List.flatMap_append, TrainPart.dofs]
      rw [← e4] at h2
      obtain ⟨h3, hc3⟩ := meshBogies_inv (fun b => (t.bogie b).wheels.length) (m + 1)
        (t.carts[m].bogies.map Prod.fst) h2 hc1
      have e5 : (t.cartVisit m t.carts[m]).foldl addPart P =
          ((t.carts[m].bogies.map Prod.fst).flatMap fun b => TrainPart.bogie b ::
            (List.range (t.bogie b).wheels.length).map fun j => TrainPart.wheel b j).foldl addPart
              (P ++ [TrainPart.cart m]) := by
        unfold Train.cartVisit Train.bogieVisit
        rw [List.foldl_cons, show addPart P (TrainPart.cart m) = P ++ [TrainPart.cart m] from if_neg hcart,
          List.flatMap_map]
      rw [e5]
      exact ⟨h3, _, hc3⟩
  have := (key t.carts.length (le_refl _)).1
  rw [List.take_length] at this
  exact this

variable [LinearOrder K] [IsStrictOrderedRing K]

/-- The node data of a part before trimming. -/
def Train.partDofNode (t : Train K) (p : TrainPart) : DofNode := ⟨partIdx t.numbering p, fun _ => true⟩

theorem Train.partIdx_dofs (t : Train K) (p : TrainPart) (hp : t.HasPart p) :
    [partIdx t.numbering p 0, partIdx t.numbering p 1, partIdx t.numbering p 2].filterMap id = p.dofs.map t.dof := by
  have hs : ∀ d, t.HasDof d → t.numbering.idx d = some (t.dof d) := by
    intro d hd
    have h := t.numbering_mesh
    obtain ⟨h1, _, _⟩ := C34_numbered_once (fun b => (t.bogie b).wheels.length) 0
      (t.carts.map fun c => c.bogies.map Prod.fst)
    obtain ⟨k, hk⟩ := (h1 d).2 ((t.hasDof_iff d).2 hd)
    have hk' : t.numbering.idx d = some k := hk
    rw [Train.dof, hk']; rfl
  cases p with
  | cart i =>
    have h1 := hs (.cartY i) hp
    have h2 := hs (.cartRot i) hp
    simp [partIdx, TrainPart.dofs, h1, h2]
  | bogie b =>
    have h1 := hs (.bogieY b) hp
    have h2 := hs (.bogieRot b) hp
    simp [partIdx, TrainPart.dofs, h1, h2]
  | wheel b j =>
    have h1 := hs (.wheelY b j) hp
    simp [partIdx, TrainPart.dofs, h1]

theorem Train.mesh_ordered (t : Train K) : OrderedNumbering (t.meshParts.map t.partDofNode) t.numbering.next := by
  have h := t.numbering_mesh
  have e1 : (flatIdx (t.meshParts.map t.partDofNode)).filterMap id = (t.meshParts.flatMap TrainPart.dofs).map t.dof := by
    have key : ∀ l : List TrainPart, (∀ p ∈ l, t.HasPart p) →
        (flatIdx (l.map t.partDofNode)).filterMap id = (l.flatMap TrainPart.dofs).map t.dof := by
      intro l
      induction l with
      | nil => intro _; rfl
      | cons p l ih =>
        intro hl
        have e : flatIdx ((p :: l).map t.partDofNode) = [partIdx t.numbering p 0, partIdx t.numbering p 1,
          partIdx t.numbering p 2] ++ flatIdx (l.map t.partDofNode) := rfl
        rw [e, List.filterMap_append, ih fun q hq => hl q (by simp [hq]), t.partIdx_dofs p (hl p (by simp)),
          List.flatMap_cons, List.map_append]
    exact key _ fun p hp => (t.mem_meshParts p).1 hp
  unfold OrderedNumbering
  rw [e1]
  apply List.ext_getElem
  · simp [h.next]
  · intro k h1 h2
    rw [List.length_map] at h1
    rw [List.getElem_map, List.getElem_range, Train.dof, h.idx, if_pos (List.getElem_mem h1)]
    simp [h.nodup.idxOf_getElem]

theorem trainSystem_nodes {H : Type*} [DecidableEq H] (hash : (Fin 3 → K) → H) (t : Train K) (x0 : ℕ → K) (g : K)
    (hsep : t.Separated x0) : (t.system g (t.initialMesh hash x0)).nodes = t.meshParts.map t.partDofNode := by
  obtain ⟨h1, -, -, h4⟩ := C101_mesh hash t x0 hsep
  show (t.initialMesh hash x0).mesh.map _ = _
  rw [h1, List.map_map]
  apply List.map_congr_left
  intro p hp
  have := (h4 p ((t.mem_meshParts p).1 hp)).2
  simp only [Function.comp_apply, this]
  rfl

/-- Specification: every body has a mass or inertia, and a stiffness on the diagonal, above the threshold of trimming. -/
def Train.Massive (t : Train K) : Prop :=
  ∀ d, t.HasDof d → 1 / 10 ^ 8 < |t.bodyInertia d| ∧ 1 / 10 ^ 8 < |t.stiffness (t.dof d) (t.dof d)|

/-- C102: for a train whose bodies all have mass and stiffness, initialisation keeps every dof of every body under its
number, removes the surplus rows that a shared bogie causes (and nothing else), and leaves mass, damping, stiffness and
force entries of the bodies unchanged. -/
theorem C102_trimmed_partial {H : Type*} [DecidableEq H] (hash : (Fin 3 → K) → H) (t : Train K) (x0 : ℕ → K) (g : K)
    (hsep : t.Separated x0) (hm : t.Massive) :
    let st := trimAll (t.system g (t.initialMesh hash x0))
    st.N = t.numbering.next ∧
    (∀ p, t.HasPart p → t.trimmedIdx g (t.initialMesh hash x0) p = partIdx t.numbering p) ∧
    ∀ d e, t.HasDof d → t.HasDof e → st.M (t.dof d) (t.dof e) = t.massMatrix (t.dof d) (t.dof e) ∧
      st.C (t.dof d) (t.dof e) = t.damping (t.dof d) (t.dof e) ∧
      st.Kg (t.dof d) (t.dof e) = t.stiffness (t.dof d) (t.dof e) ∧ st.F (t.dof d) = t.forceVector g (t.dof d) := by
  have hnodes := trainSystem_nodes hash t x0 g hsep
  have hord : OrderedNumbering (t.system g (t.initialMesh hash x0)).nodes t.numbering.next := by
    rw [hnodes]; exact t.mesh_ordered
  have hdof : ∀ o < t.numbering.next, ∃ d, t.HasDof d ∧ t.dof d = o := by
    intro o ho
    obtain ⟨_, _, h3⟩ := C34_numbered_once (fun b => (t.bogie b).wheels.length) 0
      (t.carts.map fun c => c.bogies.map Prod.fst)
    obtain ⟨d, hd⟩ := (h3 o).2 ⟨by omega, ho⟩
    have hd' : t.numbering.idx d = some o := hd
    refine ⟨d, (t.hasDof_iff d).1 ?_, by rw [Train.dof, hd']; rfl⟩
    obtain ⟨h1, _, _⟩ := C34_numbered_once (fun b => (t.bogie b).wheels.length) 0
      (t.carts.map fun c => c.bogies.map Prod.fst)
    exact (h1 d).1 ⟨o, hd⟩
  have hkeep : ∀ o < t.numbering.next, ¬ Obsolete (t.system g (t.initialMesh hash x0)) o := by
    intro o ho hob
    obtain ⟨d, hd, rfl⟩ := hdof o ho
    obtain ⟨m1, m2⟩ := hm d hd
    rcases hob with ⟨n, hn, e, _, he⟩ | ⟨_, h⟩ | ⟨_, h⟩
    · rw [hnodes, List.mem_map] at hn
      obtain ⟨p, _, rfl⟩ := hn
      simp [Train.partDofNode] at he
    · have : |t.massMatrix (t.dof d) (t.dof d)| ≤ 1 / 10 ^ 8 := h
      rw [(C100_diagonal t).1 d hd] at this
      exact absurd this (not_le.2 m1)
    · exact absurd h (not_le.2 m2)
  have hob : ∀ o, t.numbering.next ≤ o → o < (t.system g (t.initialMesh hash x0)).N →
      Obsolete (t.system g (t.initialMesh hash x0)) o := by
    intro o h1 h2
    right; left
    refine ⟨h2, ?_⟩
    have : t.massMatrix o o = 0 := (C100_diagonal t).2.2 o fun d hd h => by
      have := t.dof_lt d hd
      omega
    show |t.massMatrix o o| ≤ _
    rw [this]
    simp
  obtain ⟨r1, r2, r3⟩ := C09_nothing_lost _ (C34_size t) hord hkeep hob
  intro st
  refine ⟨r1, ?_, ?_⟩
  · intro p hp
    obtain ⟨h1, -, h3, h4⟩ := C101_mesh hash t x0 hsep
    set m := t.initialMesh hash x0 with hmdef
    have hidx : m.mesh.idxOf (m.node p) < m.mesh.length := List.idxOf_lt_length_iff.2 (h4 p hp).1
    have hlen : (trimAll (t.system g m)).nodes.length = m.mesh.length := by
      show (recalcNodes _ 0 _).1.length = _
      rw [(recalcNodes_flat _ 0 _).2.2.1]
      show (m.mesh.map _).length = _
      simp
    have hget : (trimAll (t.system g m)).nodes[m.mesh.idxOf (m.node p)]? =
        some ((trimAll (t.system g m)).nodes[m.mesh.idxOf (m.node p)]'(by rw [hlen]; exact hidx)) :=
      List.getElem?_eq_getElem _
    have e : t.trimmedIdx g m p = ((trimAll (t.system g m)).nodes[m.mesh.idxOf (m.node p)]'(by rw [hlen]; exact hidx)).idx := by
      unfold Train.trimmedIdx
      rw [hget]
    rw [e]
    funext d
    have := r2 (m.mesh.idxOf (m.node p)) d
    unfold equationOf at this
    rw [hget] at this
    have hold : (t.system g m).nodes[m.mesh.idxOf (m.node p)]? = some (t.partDofNode p) := by
      show (m.mesh.map fun n => (⟨(m.store n).idx, (m.store n).act⟩ : DofNode))[m.mesh.idxOf (m.node p)]? = _
      rw [List.getElem?_map, List.getElem?_eq_getElem hidx]
      simp only [Option.map_some, List.getElem_idxOf, (h4 p hp).2]
      rfl
    rw [hold] at this
    simpa [Train.partDofNode] using this
  · intro d e hd he
    exact r3 _ (t.dof_lt d hd) _ (t.dof_lt e he)

/-- C103: under the same conditions the contact dofs are the vertical dofs of the wheels, one per wheel and in the order of
the wheels; no two wheels share one. -/
theorem C103_contact_partial {H : Type*} [DecidableEq H] (hash : (Fin 3 → K) → H) (t : Train K) (x0 : ℕ → K) (g : K)
    (hsep : t.Separated x0) (hm : t.Massive) :
    let contact := t.contactDofs (t.trimmedIdx g (t.initialMesh hash x0))
    contact = (t.bogies.flatMap fun b => (List.range (t.bogie b).wheels.length).map fun j => t.dof (.wheelY b j)) ∧
      contact.Nodup := by
  obtain ⟨-, h2, -⟩ := C102_trimmed_partial hash t x0 g hsep hm
  have e : t.contactDofs (t.trimmedIdx g (t.initialMesh hash x0)) =
      t.bogies.flatMap fun b => (List.range (t.bogie b).wheels.length).map fun j => t.dof (.wheelY b j) := by
    unfold Train.contactDofs
    rw [List.flatMap_def, List.flatMap_def]
    congr 1
    apply List.map_congr_left
    intro b hb
    rw [List.map_eq_flatMap, List.flatMap_def, List.flatMap_def]
    congr 1
    apply List.map_congr_left
    intro j hj
    rw [List.mem_range] at hj
    rw [h2 (.wheel b j) ⟨hb, hj⟩]
    exact t.partIdx_dofs (.wheel b j) ⟨hb, hj⟩
  refine ⟨e, ?_⟩
  show (t.contactDofs _).Nodup
  rw [e]
  have e2 : (t.bogies.flatMap fun b => (List.range (t.bogie b).wheels.length).map fun j => t.dof (.wheelY b j)) =
      (t.bogies.flatMap fun b => (List.range (t.bogie b).wheels.length).map fun j => TrainDof.wheelY b j).map t.dof := by
    rw [List.map_flatMap]
    simp [List.map_map, Function.comp_def]
  rw [e2]
  apply List.Nodup.map_on
  · intro d hd d' hd' h
    simp only [List.mem_flatMap, List.mem_map, List.mem_range] at hd hd'
    obtain ⟨b, hb, j, hj, rfl⟩ := hd
    obtain ⟨b', hb', j', hj', rfl⟩ := hd'
    exact t.dof_inj _ _ ⟨hb, hj⟩ ⟨hb', hj'⟩ h
  · rw [List.nodup_flatMap]
    refine ⟨fun b _ => List.nodup_range.map fun x y hxy => by simpa using hxy, ?_⟩
    refine (nodup_distinctInOrder _).imp ?_
    intro a b hab x hx hy
    simp only [List.mem_map] at hx hy
    obtain ⟨j, _, rfl⟩ := hx
    obtain ⟨j', _, hy⟩ := hy
    simp only [TrainDof.wheelY.injEq] at hy
    exact hab hy.1.symm

/-- **C103, indices** After initialisation the node of every body has an index for its vertical displacement, carts and bogies one for their
rotation, and no node has one in x direction. -/
theorem C103_indices_partial {H : Type*} [DecidableEq H] (hash : (Fin 3 → K) → H) (t : Train K) (x0 : ℕ → K) (g : K)
    (hsep : t.Separated x0) (hm : t.Massive) :
    (∀ i, t.HasPart (.cart i) → t.trimmedIdx g (t.initialMesh hash x0) (.cart i) =
      ![none, some (t.dof (.cartY i)), some (t.dof (.cartRot i))]) ∧
    (∀ b, t.HasPart (.bogie b) → t.trimmedIdx g (t.initialMesh hash x0) (.bogie b) =
      ![none, some (t.dof (.bogieY b)), some (t.dof (.bogieRot b))]) ∧
    ∀ b j, t.HasPart (.wheel b j) → t.trimmedIdx g (t.initialMesh hash x0) (.wheel b j) =
      ![none, some (t.dof (.wheelY b j)), none] := by
  obtain ⟨-, h2, -⟩ := C102_trimmed_partial hash t x0 g hsep hm
  have some' : ∀ d, t.HasDof d → t.numbering.idx d = some (t.dof d) := by
    intro d hd
    obtain ⟨h1, _, _⟩ := C34_numbered_once (fun b => (t.bogie b).wheels.length) 0
      (t.carts.map fun c => c.bogies.map Prod.fst)
    obtain ⟨k, hk⟩ := (h1 d).2 ((t.hasDof_iff d).2 hd)
    have hk' : t.numbering.idx d = some k := hk
    rw [Train.dof, hk']; rfl
  refine ⟨?_, ?_, ?_⟩
  · intro i hi
    rw [h2 _ hi, partIdx, some' (.cartY i) hi, some' (.cartRot i) hi]
  · intro b hb
    rw [h2 _ hb, partIdx, some' (.bogieY b) hb, some' (.bogieRot b) hb]
  · intro b j hj
    rw [h2 _ hj, partIdx, some' (.wheelY b j) hj]

end order

theorem sprinter_massive : sprinterTrain.Massive := by
  have key : ∀ d ∈ sprinterTrain.allDofs, 1 / 10 ^ 8 < |sprinterTrain.bodyInertia d| ∧
      1 / 10 ^ 8 < |sprinterTrain.stiffness (sprinterTrain.dof d) (sprinterTrain.dof d)| := by
    decide +kernel
  exact fun d hd => key d ((sprinterTrain.mem_allDofs d).2 hd)

/-! The sprinter after initialisation: 16 of 20 rows remain, the wheels of the three bogies are in contact. -/
example : (trimAll (sprinterTrain.system (981 / 100) (sprinterTrain.initialMesh roundedCoords sprinterStart))).N = 16 ∧
    sprinterTrain.contactDofs (sprinterTrain.trimmedIdx (981 / 100)
      (sprinterTrain.initialMesh roundedCoords sprinterStart)) = [4, 5, 8, 9, 14, 15] := by decide +kernel

/-- A train as the example, but with the default wheel mass 0 (`rose/model/train_model.py:26`). -/
def masslessWheels : Train ℚ where
  carts := [⟨50, 700, 2708, 64, [(0, 10), (1, -10)], []⟩]
  bogie := fun _ => ⟨3, 1, 4400, 6, [(0, 5 / 4), (0, -5 / 4)], []⟩

/-- C102 fails for wheels that keep their default mass of zero: a system of 6 instead of 10 equations remains, in which
the wheels have no displacement. -/
theorem C102_violated : masslessWheels.numbering.next = 10 ∧
    (trimAll (masslessWheels.system (981 / 100) (masslessWheels.initialMesh roundedCoords fun _ => 0))).N = 6 ∧
    masslessWheels.trimmedIdx (981 / 100) (masslessWheels.initialMesh roundedCoords fun _ => 0) (.wheel 0 0) 1 = none := by
  decide +kernel

/-- C103 fails for the same train: no wheel is in contact with the rail. -/
theorem C103_violated : masslessWheels.contactDofs (masslessWheels.trimmedIdx (981 / 100)
    (masslessWheels.initialMesh roundedCoords fun _ => 0)) = [] ∧
    (masslessWheels.bogies.map fun b => (masslessWheels.bogie b).wheels.length).sum = 4 := by
  decide +kernel

end Rose
