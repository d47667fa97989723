/-
C35 and C36, exactly: for which trains raising costs no force, and for which the springs store their energy.
-/
import Verif.Props.TrainStatics

set_option linter.unusedSectionVars false

namespace Rose

section
variable {K : Type*} [Field K]

/-- Every choice of displacements of the bodies is a displacement vector. -/
theorem Train.exists_vector (t : Train K) (v : TrainDof → K) : ∃ u : ℕ → K, ∀ d, t.HasDof d → u (t.dof d) = v d := by
  classical
  refine ⟨fun a => if h : ∃ d, t.HasDof d ∧ t.dof d = a then v h.choose else 0, ?_⟩
  intro d hd
  have h : ∃ e, t.HasDof e ∧ t.dof e = t.dof d := ⟨d, hd, rfl⟩
  simp only [dif_pos h]
  rw [t.dof_inj _ _ h.choose_spec.1 hd h.choose_spec.2]

theorem sum_nodup_single {α : Type*} [DecidableEq α] (l : List α) (hl : l.Nodup) (a : α) (ha : a ∈ l) (f : α → K)
    (h : ∀ b ∈ l, b ≠ a → f b = 0) : (l.map f).sum = f a := by
  rw [← List.sum_toFinset f hl, Finset.sum_eq_single a]
  · intro b hb hne
    exact h b (List.mem_toFinset.1 hb) hne
  · intro hna
    exact absurd (List.mem_toFinset.2 ha) hna

/-- A sum over the springs of a train: over the carts, and over the bogies. -/
theorem Train.sum_suspensions (t : Train K) (qc : Cart K → K) (qb : Bogie K → K) (F : Suspension K → K) :
    ((t.suspensions qc qb).map F).sum =
      ((List.range t.carts.length).map fun i => ((t.carts[i]?.toList).map fun c => F (t.cartSuspension qc i c)).sum).sum +
      (t.bogies.map fun b => F (t.bogieSuspension qb b)).sum := by
  unfold Train.suspensions
  rw [List.map_append, List.sum_append, List.map_flatMap, List.flatMap_def, List.sum_flatten, List.map_map, List.map_map]
  congr 2
  apply List.map_congr_left
  intro i _
  simp [Function.comp_def]

/-- The imbalance `Σ f_i d_i` of the springs under a cart. -/
def Cart.imbalance (c : Cart K) : K := ((c.bogies.zip (factorsOrOnes c.bogies.length c.factors)).map fun p => p.2 * p.1.2).sum

/-- The imbalance `Σ f_i d_i` of the springs under a bogie. -/
def Bogie.imbalance (b : Bogie K) : K := ((b.wheels.zip (factorsOrOnes b.wheels.length b.factors)).map fun p => p.2 * p.1.2).sum

theorem cartSuspension_moment (t : Train K) (qc : Cart K → K) (i : ℕ) (c : Cart K) :
    (t.cartSuspension qc i c).moment = c.imbalance := by
  unfold Suspension.moment Train.cartSuspension
  rw [List.zip_map_left, List.map_map]
  rfl

theorem bogieSuspension_moment (t : Train K) (qb : Bogie K → K) (b : ℕ) :
    (t.bogieSuspension qb b).moment = (t.bogie b).imbalance := by
  unfold Suspension.moment Train.bogieSuspension Bogie.imbalance
  simp only
  generalize factorsOrOnes (t.bogie b).wheels.length (t.bogie b).factors = fs
  have e : (t.bogie b).wheels = (List.range (t.bogie b).wheels.length).map fun j => (t.bogie b).wheels.getD j (0, 0) :=
    (range_map_getD _ _).symm
  conv_rhs => rw [e]
  rw [List.zip_map_left, List.map_map, List.zip_map_left, List.map_map]
  simp [Function.comp_def]

/-- What a sum over the springs is if only those of cart `i` contribute. -/
theorem Train.sum_suspensions_cart (t : Train K) (qc : Cart K → K) (qb : Bogie K → K) (F : Suspension K → K) (i : ℕ) (c : Cart K)
    (hc : t.carts[i]? = some c) (h1 : ∀ i' < t.carts.length, i' ≠ i → ∀ c', F (t.cartSuspension qc i' c') = 0)
    (h2 : ∀ b ∈ t.bogies, F (t.bogieSuspension qb b) = 0) :
    ((t.suspensions qc qb).map F).sum = F (t.cartSuspension qc i c) := by
  have hi : i < t.carts.length := (List.getElem?_eq_some_iff.1 hc).1
  rw [t.sum_suspensions, sum_nodup_single _ List.nodup_range i (List.mem_range.2 hi), hc]
  · have : (t.bogies.map fun b => F (t.bogieSuspension qb b)) = t.bogies.map fun _ => 0 := List.map_congr_left h2
    rw [this]
    simp
  · intro i' hi' hne
    rw [List.mem_range] at hi'
    rw [List.getElem?_eq_getElem hi']
    simpa using h1 i' hi' hne _

/-- What a sum over the springs is if only those of bogie `b` contribute. -/
theorem Train.sum_suspensions_bogie (t : Train K) (qc : Cart K → K) (qb : Bogie K → K) (F : Suspension K → K) (b : ℕ)
    (hb : b ∈ t.bogies) (h1 : ∀ i < t.carts.length, ∀ c, F (t.cartSuspension qc i c) = 0)
    (h2 : ∀ b' ∈ t.bogies, b' ≠ b → F (t.bogieSuspension qb b') = 0) :
    ((t.suspensions qc qb).map F).sum = F (t.bogieSuspension qb b) := by
  rw [t.sum_suspensions, sum_nodup_single t.bogies (nodup_distinctInOrder _) b hb _ h2]
  have : ((List.range t.carts.length).map fun i => ((t.carts[i]?.toList).map fun c => F (t.cartSuspension qc i c)).sum) =
      (List.range t.carts.length).map fun _ => 0 := by
    apply List.map_congr_left
    intro i hi
    rw [List.mem_range] at hi
    rw [List.getElem?_eq_getElem hi]
    simpa using h1 i hi _
  rw [this]
  simp

/-- The moments which raising a train produces. -/
theorem raise_moments (t : Train K) (hf : t.FactorsFit) (n : ℕ) (hn : t.numbering.next ≤ n) (u : ℕ → K) (h : K)
    (hu : t.Raised u h) :
    (∀ i c, t.carts[i]? = some c → matForce n t.stiffness u (t.dof (.cartRot i)) = c.stiffness * h * c.imbalance) ∧
    ∀ b ∈ t.bogies, matForce n t.stiffness u (t.dof (.bogieRot b)) = (t.bogie b).stiffness * h * (t.bogie b).imbalance := by
  constructor
  · intro i c hc
    have hi : i < t.carts.length := (List.getElem?_eq_some_iff.1 hc).1
    rw [C35_raise_moment t hf n hn u h hu, t.sum_suspensions_cart _ _ _ i c hc]
    · simp only [cartSuspension_moment]
      simp [Train.cartSuspension]
    · intro i' hi' hne c'
      rw [if_neg]
      intro he
      have := t.dof_inj (.cartRot i) (.cartRot i') hi hi' he
      simp only [TrainDof.cartRot.injEq] at this
      exact hne this.symm
    · intro b hb
      rw [if_neg]
      intro he
      have := t.dof_inj (.cartRot i) (.bogieRot b) hi hb he
      cases this
  · intro b hb
    rw [C35_raise_moment t hf n hn u h hu, t.sum_suspensions_bogie _ _ _ b hb]
    · simp only [bogieSuspension_moment]
      simp [Train.bogieSuspension]
    · intro i hi c
      rw [if_neg]
      intro he
      have := t.dof_inj (.bogieRot b) (.cartRot i) hb hi he
      cases this
    · intro b' hb' hne
      rw [if_neg]
      intro he
      have := t.dof_inj (.bogieRot b) (.bogieRot b') hb hb' he
      simp only [TrainDof.bogieRot.injEq] at this
      exact hne this.symm

/-- C35, exactly: raising a train costs no force if and only if the springs of every body with springs are balanced about its
centre, `Σ f_i d_i = 0`. -/
theorem C35_iff (t : Train K) (hf : t.FactorsFit) (n : ℕ) (hn : t.numbering.next ≤ n)
    (hk : ∀ c ∈ t.carts, c.stiffness ≠ 0) (hk' : ∀ b ∈ t.bogies, (t.bogie b).stiffness ≠ 0) :
    (∀ u h, t.Raised u h → ∀ a, matForce n t.stiffness u a = 0) ↔ t.Balanced := by
  refine ⟨?_, fun hb u h hu a => (C35_translation_partial t hf hb n hn u h hu a).1⟩
  intro h
  obtain ⟨u, hu⟩ := t.exists_vector fun d => match d with
    | .cartY _ | .bogieY _ | .wheelY _ _ => 1
    | .cartRot _ | .bogieRot _ => 0
  have hr : t.Raised u 1 := ⟨fun i hi => ⟨hu (.cartY i) hi, hu (.cartRot i) hi⟩,
    fun b hb => ⟨hu (.bogieY b) hb, hu (.bogieRot b) hb, fun j hj => hu (.wheelY b j) ⟨hb, hj⟩⟩⟩
  obtain ⟨h1, h2⟩ := raise_moments t hf n hn u 1 hr
  refine ⟨?_, ?_⟩
  · intro c hc
    obtain ⟨i, hi, hic⟩ := List.mem_iff_getElem.1 hc
    have := h1 i c (by rw [List.getElem?_eq_getElem hi, hic])
    rw [h u 1 hr, mul_one] at this
    exact (mul_eq_zero.1 this.symm).resolve_left (hk c hc)
  · intro b hb
    have := h2 b hb
    rw [h u 1 hr, mul_one] at this
    exact (mul_eq_zero.1 this.symm).resolve_left (hk' b hb)

theorem couplingForce_zero (s : Suspension K) (u : ℕ → K) (a : ℕ) (h1 : a ≠ s.y) (h2 : a ≠ s.r) : couplingForce s u a = 0 := by
  simp [couplingForce, h1, h2]

theorem couplingForce_y (s : Suspension K) (u : ℕ → K) (a : ℕ) (h1 : a = s.y) (h2 : a ≠ s.r) :
    couplingForce s u a = s.k * u s.r * s.moment := by
  unfold couplingForce
  rw [if_pos h1, if_neg h2, add_zero]

theorem couplingForce_r (s : Suspension K) (u : ℕ → K) (a : ℕ) (h1 : a = s.r) (h2 : a ≠ s.y) :
    couplingForce s u a = s.k * u s.y * s.moment := by
  unfold couplingForce
  rw [if_pos h1, if_neg h2, zero_add]

/-- Specification: what the stiffness matrix adds to the spring forces at a dof: displacement and rotation of a body are coupled
by the imbalance of its springs, with the wrong result unless it is zero. -/
def imbalanceForce (t : Train K) (v : TrainDof → K) : TrainDof → K
  | .cartY i => ((t.carts[i]?.toList).map fun c => c.stiffness * c.imbalance * v (.cartRot i)).sum
  | .cartRot i => ((t.carts[i]?.toList).map fun c => c.stiffness * c.imbalance * v (.cartY i)).sum
  | .bogieY b => (t.bogie b).stiffness * (t.bogie b).imbalance * v (.bogieRot b)
  | .bogieRot b => (t.bogie b).stiffness * (t.bogie b).imbalance * v (.bogieY b)
  | .wheelY _ _ => 0

/-- C114, forces: for every train the stiffness matrix gives at every dof of a body the force of the springs on it, plus the product of
stiffness, imbalance and displacement of the other dof of the same body. -/
theorem C114_forces (t : Train K) (hf : t.FactorsFit) (n : ℕ) (hn : t.numbering.next ≤ n) (u : ℕ → K) (d : TrainDof)
    (hd : t.HasDof d) :
    matForce n t.stiffness u (t.dof d) =
      springForceAt t (fun e => u (t.dof e)) d + imbalanceForce t (fun e => u (t.dof e)) d := by
  rw [train_force t hf n hn u d hd, parts_springForceAt t _ d hd]
  congr 1
  have inj : ∀ e, t.HasDof e → d ≠ e → t.dof d ≠ t.dof e := fun e he hne h => hne (t.dof_inj d e hd he h)
  cases d with
  | cartY i =>
    have hi : i < t.carts.length := hd
    rw [t.sum_suspensions_cart _ _ _ i _ (List.getElem?_eq_getElem hi)]
    · refine (couplingForce_y _ _ _ rfl (inj (.cartRot i) hi (by simp))).trans ?_
      rw [cartSuspension_moment]
      simp only [Train.cartSuspension, imbalanceForce, List.getElem?_eq_getElem hi, Option.toList_some, List.map_cons, List.map_nil,
        List.sum_cons, List.sum_nil, add_zero]
      ring
    · intro i' hi' hne c'
      exact couplingForce_zero _ _ _ (inj (.cartY i') hi' (by simpa using Ne.symm hne)) (inj (.cartRot i') hi' (by simp))
    · intro b hb
      exact couplingForce_zero _ _ _ (inj (.bogieY b) hb (by simp)) (inj (.bogieRot b) hb (by simp))
  | cartRot i =>
    have hi : i < t.carts.length := hd
    rw [t.sum_suspensions_cart _ _ _ i _ (List.getElem?_eq_getElem hi)]
    · refine (couplingForce_r _ _ _ rfl (inj (.cartY i) hi (by simp))).trans ?_
      rw [cartSuspension_moment]
      simp only [Train.cartSuspension, imbalanceForce, List.getElem?_eq_getElem hi, Option.toList_some, List.map_cons, List.map_nil,
        List.sum_cons, List.sum_nil, add_zero]
      ring
    · intro i' hi' hne c'
      exact couplingForce_zero _ _ _ (inj (.cartY i') hi' (by simp)) (inj (.cartRot i') hi' (by simpa using Ne.symm hne))
    · intro b hb
      exact couplingForce_zero _ _ _ (inj (.bogieY b) hb (by simp)) (inj (.bogieRot b) hb (by simp))
  | bogieY b =>
    rw [t.sum_suspensions_bogie _ _ _ b hd]
    · refine (couplingForce_y _ _ _ rfl (inj (.bogieRot b) hd (by simp))).trans ?_
      rw [bogieSuspension_moment]
      simp only [Train.bogieSuspension, imbalanceForce]
      ring
    · intro i hi c
      exact couplingForce_zero _ _ _ (inj (.cartY i) hi (by simp)) (inj (.cartRot i) hi (by simp))
    · intro b' hb' hne
      exact couplingForce_zero _ _ _ (inj (.bogieY b') hb' (by simpa using Ne.symm hne)) (inj (.bogieRot b') hb' (by simp))
  | bogieRot b =>
    rw [t.sum_suspensions_bogie _ _ _ b hd]
    · refine (couplingForce_r _ _ _ rfl (inj (.bogieY b) hd (by simp))).trans ?_
      rw [bogieSuspension_moment]
      simp only [Train.bogieSuspension, imbalanceForce]
      ring
    · intro i hi c
      exact couplingForce_zero _ _ _ (inj (.cartY i) hi (by simp)) (inj (.cartRot i) hi (by simp))
    · intro b' hb' hne
      exact couplingForce_zero _ _ _ (inj (.bogieY b') hb' (by simp)) (inj (.bogieRot b') hb' (by simpa using Ne.symm hne))
  | wheelY b j =>
    simp only [imbalanceForce]
    apply map_zero_sum
    intro s hs
    unfold Train.suspensions at hs
    rcases List.mem_append.1 hs with hs | hs
    · rw [List.mem_flatMap] at hs
      obtain ⟨i, hi, hs⟩ := hs
      rw [List.mem_range] at hi
      rw [List.mem_map] at hs
      obtain ⟨c, -, rfl⟩ := hs
      exact couplingForce_zero _ _ _ (inj (.cartY i) hi (by simp)) (inj (.cartRot i) hi (by simp))
    · rw [List.mem_map] at hs
      obtain ⟨b', hb', rfl⟩ := hs
      exact couplingForce_zero _ _ _ (inj (.bogieY b') hb' (by simp)) (inj (.bogieRot b') hb' (by simp))

/-- The bodies raised by `h`, and one of them turned by one. -/
def raisedTurned (D : TrainDof) (h : K) (d : TrainDof) : K :=
  if d = D then 1 else match d with
    | .cartY _ | .bogieY _ | .wheelY _ _ => h
    | .cartRot _ | .bogieRot _ => 0

/-- Raising does not change the elongations of the springs. -/
theorem springEnergy_raised (t : Train K) (D : TrainDof) (hD : (∃ i, D = .cartRot i) ∨ ∃ b, D = .bogieRot b) (h : K) :
    springEnergy t (raisedTurned D h) = springEnergy t (raisedTurned D 0) := by
  have hy : ∀ h : K, (∀ i, raisedTurned D h (.cartY i) = h) ∧ (∀ b, raisedTurned D h (.bogieY b) = h) ∧
      ∀ b j, raisedTurned D h (.wheelY b j) = h := by
    intro h
    rcases hD with ⟨i, rfl⟩ | ⟨b, rfl⟩ <;> exact ⟨fun _ => rfl, fun _ => rfl, fun _ _ => rfl⟩
  have hr : (∀ i, raisedTurned D h (.cartRot i) = raisedTurned D 0 (.cartRot i)) ∧
      ∀ b, raisedTurned D h (.bogieRot b) = raisedTurned D 0 (.bogieRot b) := by
    refine ⟨fun i => ?_, fun b => ?_⟩ <;> unfold raisedTurned <;> split_ifs <;> rfl
  unfold springEnergy
  simp only [(hy h).1, (hy h).2.1, (hy h).2.2, (hy 0).1, (hy 0).2.1, (hy 0).2.2, hr.1, hr.2]
  congr 1
  · congr 1
    refine List.flatMap_congr fun i _ => List.flatMap_congr fun c _ => List.map_congr_left fun p _ => by ring
  · congr 1
    refine List.flatMap_congr fun b _ => List.map_congr_left fun p _ => by ring

/-- The energy of a train raised by `h` of which one body is turned by one. -/
theorem energy_raisedTurned (t : Train K) (hf : t.FactorsFit) (n : ℕ) (hn : t.numbering.next ≤ n) (D : TrainDof) (k M : K)
    (hD : (∃ i c, D = .cartRot i ∧ t.carts[i]? = some c ∧ k = c.stiffness ∧ M = c.imbalance) ∨
      ∃ b ∈ t.bogies, D = .bogieRot b ∧ k = (t.bogie b).stiffness ∧ M = (t.bogie b).imbalance) (h : K) (u : ℕ → K)
    (hu : ∀ d, t.HasDof d → u (t.dof d) = raisedTurned D h d) :
    (springEnergy t fun d => u (t.dof d)) = springEnergy t (raisedTurned D 0) ∧
    matEnergy n t.stiffness u = springEnergy t (raisedTurned D 0) + 2 * k * h * M := by
  have hD' : (∃ i, D = .cartRot i) ∨ ∃ b, D = .bogieRot b := by
    rcases hD with ⟨i, c, rfl, -⟩ | ⟨b, -, rfl, -⟩
    · exact Or.inl ⟨i, rfl⟩
    · exact Or.inr ⟨b, rfl⟩
  have hs : (springEnergy t fun d => u (t.dof d)) = springEnergy t (raisedTurned D 0) := by
    rw [← springEnergy_raised t D hD' h]
    unfold springEnergy
    congr 1
    · congr 1
      refine List.flatMap_congr fun i hi => List.flatMap_congr fun c hc => List.map_congr_left fun p hp => ?_
      rw [List.mem_range] at hi
      rw [Option.mem_toList] at hc
      have hp' : p.1 ∈ c.bogies := (List.of_mem_zip hp).1
      have hb : p.1.1 ∈ t.bogies := (t.mem_bogies _).2 ⟨c, List.mem_of_getElem? hc, p.1.2, hp'⟩
      simp only
      rw [hu (.cartY i) hi, hu (.cartRot i) hi, hu (.bogieY p.1.1) hb]
    · congr 1
      refine List.flatMap_congr fun b hb => List.map_congr_left fun p hp => ?_
      have hp' := (List.of_mem_zip hp).1
      rw [List.mem_range] at hp'
      simp only
      rw [hu (.bogieY b) hb, hu (.bogieRot b) hb, hu (.wheelY b p.1) ⟨hb, hp'⟩]
  refine ⟨hs, ?_⟩
  rw [C36_energy_general t hf n hn u, hs]
  congr 1
  rcases hD with ⟨i, c, rfl, hc, rfl, rfl⟩ | ⟨b, hb, rfl, rfl, rfl⟩
  · have hi : i < t.carts.length := (List.getElem?_eq_some_iff.1 hc).1
    rw [t.sum_suspensions_cart _ _ _ i c hc]
    · rw [cartSuspension_moment]
      simp only [Train.cartSuspension]
      rw [hu (.cartY i) hi, hu (.cartRot i) hi]
      simp [raisedTurned]
    · intro i' hi' hne c'
      simp only [Train.cartSuspension]
      rw [hu (.cartRot i') hi']
      simp [raisedTurned, hne]
    · intro b hb
      simp only [Train.bogieSuspension]
      rw [hu (.bogieRot b) hb]
      simp [raisedTurned]
  · rw [t.sum_suspensions_bogie _ _ _ b hb]
    · rw [bogieSuspension_moment]
      simp only [Train.bogieSuspension]
      rw [hu (.bogieY b) hb, hu (.bogieRot b) hb]
      simp [raisedTurned]
    · intro i hi c
      simp only [Train.cartSuspension]
      rw [hu (.cartRot i) hi]
      simp [raisedTurned]
    · intro b' hb' hne
      simp only [Train.bogieSuspension]
      rw [hu (.bogieRot b') hb']
      simp [raisedTurned, hne]

end

section
variable {K : Type*} [Field K] [LinearOrder K] [IsStrictOrderedRing K]

/-- A train with an unbalanced body stores negative energy in some position. -/
theorem unbalanced_negative (t : Train K) (hf : t.FactorsFit) (n : ℕ) (hn : t.numbering.next ≤ n)
    (hk : ∀ c ∈ t.carts, c.stiffness ≠ 0) (hk' : ∀ b ∈ t.bogies, (t.bogie b).stiffness ≠ 0) (hb : ¬ t.Balanced) :
    ∃ u : ℕ → K, matEnergy n t.stiffness u < 0 ∧ matEnergy n t.stiffness u ≠ springEnergy t fun d => u (t.dof d) := by
  have key : ∀ (D : TrainDof) (k M : K), k ≠ 0 → M ≠ 0 →
      ((∃ i c, D = .cartRot i ∧ t.carts[i]? = some c ∧ k = c.stiffness ∧ M = c.imbalance) ∨
      ∃ b ∈ t.bogies, D = .bogieRot b ∧ k = (t.bogie b).stiffness ∧ M = (t.bogie b).imbalance) →
      ∃ u : ℕ → K, matEnergy n t.stiffness u < 0 ∧ matEnergy n t.stiffness u ≠ springEnergy t fun d => u (t.dof d) := by
    intro D k M h1 h2 hD
    set E := springEnergy t (raisedTurned D 0)
    obtain ⟨u, hu⟩ := t.exists_vector (raisedTurned D (-(|E| + 1) / (2 * k * M)))
    obtain ⟨e1, e2⟩ := energy_raisedTurned t hf n hn D k M hD _ u hu
    have e3 : 2 * k * (-(|E| + 1) / (2 * k * M)) * M = -(|E| + 1) := by field_simp
    refine ⟨u, ?_, ?_⟩
    · rw [e2, e3]
      have := le_abs_self E
      linarith
    · rw [e2, e1, e3]
      have := abs_nonneg E
      intro h
      linarith
  unfold Train.Balanced at hb
  rw [not_and_or] at hb
  rcases hb with hb | hb
  · push Not at hb
    obtain ⟨c, hc, hne⟩ := hb
    obtain ⟨i, hi, hic⟩ := List.mem_iff_getElem.1 hc
    exact key (.cartRot i) c.stiffness c.imbalance (hk c hc) hne
      (Or.inl ⟨i, c, rfl, by rw [List.getElem?_eq_getElem hi, hic], rfl, rfl⟩)
  · push Not at hb
    obtain ⟨b, hb, hne⟩ := hb
    exact key (.bogieRot b) _ _ (hk' b hb) hne (Or.inr ⟨b, hb, rfl, rfl, rfl⟩)

/-- C36, exactly: the stiffness matrix stores the energy of the springs, and for positive stiffnesses no negative energy, if and
only if the springs of every body are balanced about its centre. -/
theorem C36_iff (t : Train K) (hf : t.FactorsFit) (n : ℕ) (hn : t.numbering.next ≤ n)
    (hk : ∀ c ∈ t.carts, 0 < c.stiffness ∧ ∀ f ∈ c.factors, 0 ≤ f)
    (hk' : ∀ b ∈ t.bogies, 0 < (t.bogie b).stiffness ∧ ∀ f ∈ (t.bogie b).factors, 0 ≤ f) :
    ((∀ u : ℕ → K, matEnergy n t.stiffness u = springEnergy t fun d => u (t.dof d)) ↔ t.Balanced) ∧
    ((∀ u : ℕ → K, 0 ≤ matEnergy n t.stiffness u) ↔ t.Balanced) := by
  have neg := unbalanced_negative t hf n hn (fun c hc => (hk c hc).1.ne') (fun b hb => (hk' b hb).1.ne')
  constructor
  · refine ⟨fun h => ?_, fun hb u => C36_energy_partial t hf hb n hn u⟩
    by_contra hb
    obtain ⟨u, -, hu⟩ := neg hb
    exact hu (h u)
  · refine ⟨fun h => ?_, fun hb u => C36_nonneg_partial t hf hb n hn u (fun c hc => ⟨(hk c hc).1.le, (hk c hc).2⟩)
      fun b hb => ⟨(hk' b hb).1.le, (hk' b hb).2⟩⟩
    by_contra hb
    obtain ⟨u, hu, -⟩ := neg hb
    exact absurd (h u) (not_le.2 hu)

end

section
variable {K : Type*} [Field K] [LinearOrder K] [IsStrictOrderedRing K]

/-- Specification: sum over the dampers of a train of damping (times distribution factor) times squared elongation rate: `v` gives the
velocity of every dof. -/
def damperPower (t : Train K) (v : TrainDof → K) : K :=
  ((List.range t.carts.length).flatMap fun i => (t.carts[i]?.toList).flatMap fun c =>
    (c.bogies.zip (factorsOrOnes c.bogies.length c.factors)).map fun p =>
      c.damping * p.2 * (v (.cartY i) - p.1.2 * v (.cartRot i) - v (.bogieY p.1.1)) ^ 2).sum +
  (t.bogies.flatMap fun b =>
    ((List.range (t.bogie b).wheels.length).zip (factorsOrOnes (t.bogie b).wheels.length (t.bogie b).factors)).map fun p =>
      (t.bogie b).damping * p.2 *
        (v (.bogieY b) - ((t.bogie b).wheels.getD p.1 (0, 0)).2 * v (.bogieRot b) - v (.wheelY b p.1)) ^ 2).sum

theorem damperPower_eq (t : Train K) (u : ℕ → K) :
    ((t.suspensions Cart.damping Bogie.damping).map fun s =>
      ((s.children.zip s.factors).map fun p => s.k * p.2 * (u s.y - p.1.2 * u s.r - u p.1.1) ^ 2).sum).sum =
    damperPower t fun d => u (t.dof d) := by
  have hflat : ∀ {α : Type} (l : List α) (f : α → List K), (l.flatMap f).sum = (l.map fun a => (f a).sum).sum := by
    intro α l f
    rw [List.flatMap_def, List.sum_flatten, List.map_map]
    rfl
  unfold Train.suspensions damperPower
  rw [List.map_append, List.sum_append, hflat, hflat, List.map_flatMap, hflat]
  congr 1
  · congr 1
    apply List.map_congr_left
    intro i hi
    rw [List.mem_range] at hi
    rw [List.getElem?_eq_getElem hi]
    simp only [Option.toList_some, List.map_cons, List.map_nil, List.sum_cons, List.sum_nil, add_zero,
      List.flatMap_cons, List.flatMap_nil, List.append_nil]
    simp only [Train.cartSuspension]
    rw [List.zip_map_left, List.map_map]
    rfl
  · rw [List.map_map]
    congr 1
    apply List.map_congr_left
    intro b _
    simp only [Function.comp, Train.bogieSuspension]
    rw [List.zip_map_left, List.map_map]
    rfl

theorem factorsOrOnes_nonneg (m : ℕ) (fs : List K) (h : ∀ f ∈ fs, 0 ≤ f) : ∀ f ∈ factorsOrOnes m fs, 0 ≤ f := by
  intro f hfm
  unfold factorsOrOnes at hfm
  split_ifs at hfm
  · rw [List.eq_of_mem_replicate hfm]; exact zero_le_one
  · exact h f hfm

/-- C36 for the dampers, as far as it holds: for a train whose dampers are balanced the damping matrix dissipates the power of
the dampers, which is not negative. Missing: unbalanced bodies, as in `C36_violated`. -/
theorem C36_dissipation_partial (t : Train K) (hf : t.FactorsFit) (hb : t.Balanced) (n : ℕ) (hn : t.numbering.next ≤ n)
    (v : ℕ → K) (hk : ∀ c ∈ t.carts, 0 ≤ c.damping ∧ ∀ f ∈ c.factors, 0 ≤ f)
    (hk' : ∀ b ∈ t.bogies, 0 ≤ (t.bogie b).damping ∧ ∀ f ∈ (t.bogie b).factors, 0 ≤ f) :
    matEnergy n t.damping v = (damperPower t fun d => v (t.dof d)) ∧ 0 ≤ matEnergy n t.damping v := by
  have e : matEnergy n t.damping v = (damperPower t fun d => v (t.dof d)) := by
    unfold Train.damping
    rw [foldl_energy n _ v (t.suspensions_valid hf _ _ n hn), damperPower_eq]
    have : (t.suspensions Cart.damping Bogie.damping).map (fun s => 2 * s.k * v s.y * v s.r * s.moment) =
        (t.suspensions Cart.damping Bogie.damping).map fun _ => (0 : K) := by
      apply List.map_congr_left
      intro s hs
      rw [t.balanced_suspensions hb _ _ s hs]
      simp
    rw [this]
    simp [matEnergy, matForce]
  refine ⟨e, ?_⟩
  rw [e]
  unfold damperPower
  apply add_nonneg
  · apply List.sum_nonneg
    intro x hx
    simp only [List.mem_flatMap, List.mem_range] at hx
    obtain ⟨i, hi, c, hc, hx⟩ := hx
    rw [List.getElem?_eq_getElem hi] at hc
    simp only [Option.toList_some, List.mem_singleton] at hc
    subst hc
    rw [List.mem_map] at hx
    obtain ⟨p, hp, rfl⟩ := hx
    obtain ⟨k1, k2⟩ := hk t.carts[i] (List.getElem_mem _)
    exact mul_nonneg (mul_nonneg k1 (factorsOrOnes_nonneg _ _ k2 _ (List.of_mem_zip hp).2)) (sq_nonneg _)
  · apply List.sum_nonneg
    intro x hx
    simp only [List.mem_flatMap] at hx
    obtain ⟨b, hb, hx⟩ := hx
    rw [List.mem_map] at hx
    obtain ⟨p, hp, rfl⟩ := hx
    obtain ⟨k1, k2⟩ := hk' b hb
    exact mul_nonneg (mul_nonneg k1 (factorsOrOnes_nonneg _ _ k2 _ (List.of_mem_zip hp).2)) (sq_nonneg _)

end

/-- The sprinter with two carts meets the hypotheses and is not balanced; the example train is. -/
example : sprinterTrain.FactorsFit ∧ ¬ sprinterTrain.Balanced ∧ exampleTrain.FactorsFit ∧ exampleTrain.Balanced := by
  refine ⟨⟨?_, ?_⟩, ?_, ⟨?_, ?_⟩, ⟨?_, ?_⟩⟩
  · intro c hc; right; simp [sprinterTrain] at hc; rcases hc with rfl | rfl <;> rfl
  · intro b _; left; rfl
  · intro h
    have := h.1 _ (List.mem_cons_self ..)
    revert this
    decide +kernel
  · intro c hc; left; simp [exampleTrain] at hc; simp [hc]
  · intro b _; left; rfl
  · intro c hc; simp [exampleTrain] at hc; simp [hc, factorsOrOnes, List.replicate]
  · intro b _; simp [exampleTrain, factorsOrOnes, List.replicate]; norm_num

end Rose
