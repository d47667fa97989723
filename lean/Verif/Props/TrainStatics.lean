/-
Statics of a train: spring forces at every dof, and C114, static wheel loads are the reactions of a train at rest.
-/
import Verif.Props.TrainSystem

set_option linter.unusedSectionVars false

namespace Rose
open Finset

section
variable {K : Type*} [Field K]

/-- Force of a suspension with balanced springs at dof `a`: every spring pulls on the body above, with its lever, and on the
body below. -/
def springForces (s : Suspension K) (u : ℕ → K) (a : ℕ) : K :=
  ((s.children.zip s.factors).map fun p => s.k * p.2 * (u s.y - p.1.2 * u s.r - u p.1.1) *
    ((if a = s.y then 1 else 0) - (if a = s.r then p.1.2 else 0) - if a = p.1.1 then 1 else 0)).sum

/-- What the matrix of a suspension with unbalanced springs lacks or has too much: the coupling of displacement and rotation. -/
def couplingForce (s : Suspension K) (u : ℕ → K) (a : ℕ) : K :=
  ((if a = s.y then s.k * u s.r else 0) + (if a = s.r then s.k * u s.y else 0)) * s.moment

theorem suspension_force_general (n : ℕ) (A : ℕ → ℕ → K) (s : Suspension K) (hs : s.Valid n) (u : ℕ → K)
    (a : ℕ) : matForce n (fillSuspension A s) u a = matForce n A u a + (springForces s u a + couplingForce s u a) := by
  rw [matForce_fillSuspension n A s hs u a, add_assoc]
  congr 1
  unfold springForces couplingForce Suspension.moment
  have h1 : (if a = s.y then s.k * s.factors.sum * u s.y else 0) =
      ((s.children.zip s.factors).map fun p => (if a = s.y then s.k * u s.y else 0) * p.2).sum := by
    rw [List.sum_map_mul_left, sum_zip_snd _ _ hs.2.2.2]
    split_ifs <;> ring
  rw [h1, ← List.sum_map_add, ← List.sum_map_mul_left, ← List.sum_map_add]
  congr 1
  apply List.map_congr_left
  intro p _
  simp only [childForce]
  split_ifs <;> ring

theorem foldl_force_general (n : ℕ) (l : List (Suspension K)) (u : ℕ → K) (hv : ∀ s ∈ l, s.Valid n) (A : ℕ → ℕ → K) (a : ℕ) :
    matForce n (l.foldl fillSuspension A) u a =
      matForce n A u a + (l.map fun s => springForces s u a).sum + (l.map fun s => couplingForce s u a).sum := by
  induction l generalizing A with
  | nil => simp
  | cons s l ih =>
    rw [List.foldl_cons, ih (fun s hs => hv s (by simp [hs])), suspension_force_general n A s (hv s (by simp))]
    simp only [List.map_cons, List.sum_cons]
    ring

/-! ### Spring forces -/

/-- Specification: the springs between cart `c` (number `i`) and its bogies: bogie, distance, force. A spring of stiffness
`k f` is stretched by the motion of the cart at the distance minus the motion of the bogie. -/
def cartSprings (v : TrainDof → K) (i : ℕ) (c : Cart K) : List (ℕ × K × K) :=
  (c.bogies.zip (factorsOrOnes c.bogies.length c.factors)).map fun p =>
    (p.1.1, p.1.2, c.stiffness * p.2 * (v (.cartY i) - p.1.2 * v (.cartRot i) - v (.bogieY p.1.1)))

/-- Specification: the springs between bogie `b` and its wheels: wheel, distance, force. -/
def bogieSprings (v : TrainDof → K) (b : ℕ) (bg : Bogie K) : List (ℕ × K × K) :=
  ((List.range bg.wheels.length).zip (factorsOrOnes bg.wheels.length bg.factors)).map fun p =>
    (p.1, (bg.wheels.getD p.1 (0, 0)).2,
      bg.stiffness * p.2 * (v (.bogieY b) - (bg.wheels.getD p.1 (0, 0)).2 * v (.bogieRot b) - v (.wheelY b p.1)))

/-- Specification: the force with which the springs pull at a dof (upwards displacement of the body gives a positive
force): the carts and bogies are held by the springs below, bogies and wheels pulled by the springs above. -/
def springForceAt (t : Train K) (v : TrainDof → K) : TrainDof → K
  | .cartY i => (((t.carts[i]?.toList).flatMap (cartSprings v i)).map fun p => p.2.2).sum
  | .cartRot i => -(((t.carts[i]?.toList).flatMap (cartSprings v i)).map fun p => p.2.1 * p.2.2).sum
  | .bogieY b => ((bogieSprings v b (t.bogie b)).map fun p => p.2.2).sum -
      ((List.range t.carts.length).flatMap fun i => (t.carts[i]?.toList).flatMap fun c =>
        (cartSprings v i c).map fun p => if p.1 = b then p.2.2 else 0).sum
  | .bogieRot b => -((bogieSprings v b (t.bogie b)).map fun p => p.2.1 * p.2.2).sum
  | .wheelY b j => -((bogieSprings v b (t.bogie b)).map fun p => if p.1 = j then p.2.2 else 0).sum

theorem sum_flat {α : Type*} (l : List α) (f : α → List K) : (l.flatMap f).sum = (l.map fun a => (f a).sum).sum := by
  rw [List.flatMap_def, List.sum_flatten, List.map_map]
  rfl

theorem sum_map_neg' {α : Type*} (l : List α) (f : α → K) : (l.map fun a => -f a).sum = -(l.map f).sum := by
  induction l with
  | nil => simp
  | cons a l ih => rw [List.map_cons, List.sum_cons, ih, List.map_cons, List.sum_cons]; ring

theorem sum_range_ite (n i : ℕ) (hi : i < n) (f : ℕ → K) :
    ((List.range n).map fun k => if k = i then f k else 0).sum = f i := by
  have : ((List.range n).map fun k => if k = i then f k else 0).sum = ∑ k ∈ Finset.range n, if k = i then f k else 0 := by
    rw [Finset.sum_range, List.sum_ofFn.symm, List.ofFn_eq_map, List.map_coe_finRange_eq_range.symm, List.map_map]
    rfl
  rw [this, Finset.sum_ite_eq' (Finset.range n) i f, if_pos (Finset.mem_range.2 hi)]

theorem sum_nodup_ite (l : List ℕ) (hl : l.Nodup) (b : ℕ) (hb : b ∈ l) (f : ℕ → K) :
    (l.map fun k => if k = b then f k else 0).sum = f b := by
  induction l with
  | nil => simp at hb
  | cons x l ih =>
    rw [List.nodup_cons] at hl
    rw [List.map_cons, List.sum_cons]
    by_cases hx : x = b
    · subst hx
      have : (l.map fun k => if k = x then f k else 0) = l.map fun _ => (0 : K) := by
        apply List.map_congr_left
        intro k hk
        rw [if_neg]
        rintro rfl
        exact hl.1 hk
      rw [this]; simp
    · rw [if_neg hx, zero_add, ih hl.2 (by simpa [Ne.symm hx] using hb)]

/-- The contribution of cart `i` at a dof of the train. -/
def cartPart (v : TrainDof → K) (d : TrainDof) (i : ℕ) (c : Cart K) : K :=
  ((cartSprings v i c).map fun p => p.2.2 *
    ((if d = .cartY i then 1 else 0) - (if d = .cartRot i then p.2.1 else 0) - if d = .bogieY p.1 then 1 else 0)).sum

/-- The contribution of bogie `b` at a dof of the train. -/
def bogiePart (t : Train K) (v : TrainDof → K) (d : TrainDof) (b : ℕ) : K :=
  ((bogieSprings v b (t.bogie b)).map fun p => p.2.2 *
    ((if d = .bogieY b then 1 else 0) - (if d = .bogieRot b then p.2.1 else 0) - if d = .wheelY b p.1 then 1 else 0)).sum

theorem train_force (t : Train K) (hf : t.FactorsFit) (n : ℕ) (hn : t.numbering.next ≤ n)
    (u : ℕ → K) (d : TrainDof) (hd : t.HasDof d) :
    matForce n t.stiffness u (t.dof d) =
      ((List.range t.carts.length).map fun i =>
        ((t.carts[i]?.toList).map (cartPart (fun e => u (t.dof e)) d i)).sum).sum +
      (t.bogies.map (bogiePart t (fun e => u (t.dof e)) d)).sum +
      ((t.suspensions Cart.stiffness Bogie.stiffness).map fun s => couplingForce s u (t.dof d)).sum := by
  have inj : ∀ e, t.HasDof e → (t.dof d = t.dof e ↔ d = e) := fun e he =>
    ⟨fun h => t.dof_inj d e hd he h, fun h => by rw [h]⟩
  unfold Train.stiffness
  rw [foldl_force_general n _ u (t.suspensions_valid hf _ _ n hn)]
  have h0 : matForce n (fun _ _ => (0 : K)) u (t.dof d) = 0 := by simp [matForce]
  rw [h0, zero_add]
  congr 1
  unfold Train.suspensions
  rw [List.map_append, List.sum_append, List.map_flatMap, sum_flat, List.map_map]
  congr 1
  · congr 1
    apply List.map_congr_left
    intro i hi
    rw [List.mem_range] at hi
    rw [List.getElem?_eq_getElem hi]
    simp only [Option.toList_some, List.map_cons, List.map_nil, List.sum_cons, List.sum_nil, add_zero]
    unfold springForces cartPart cartSprings Train.cartSuspension
    rw [List.zip_map_left, List.map_map, List.map_map]
    congr 1
    apply List.map_congr_left
    intro p hp
    have hmem : (p.1.1, p.1.2) ∈ t.carts[i].bogies := (List.of_mem_zip hp).1
    have i1 := inj (.cartY i) hi
    have i2 := inj (.cartRot i) hi
    have i3 := inj (.bogieY p.1.1) ((t.mem_bogies p.1.1).2 ⟨_, List.getElem_mem hi, p.1.2, hmem⟩)
    simp only [Function.comp, Prod.map, id]
    simp only [i1, i2, i3]
  · congr 1
    apply List.map_congr_left
    intro b hbm
    unfold springForces bogiePart bogieSprings Train.bogieSuspension
    simp only [Function.comp]
    rw [List.zip_map_left, List.map_map, List.map_map]
    congr 1
    apply List.map_congr_left
    intro p hp
    have hmem := (List.of_mem_zip hp).1
    rw [List.mem_range] at hmem
    have i1 := inj (.bogieY b) hbm
    have i2 := inj (.bogieRot b) hbm
    have i3 := inj (.wheelY b p.1) ⟨hbm, hmem⟩
    simp only [Function.comp, Prod.map, id]
    simp only [i1, i2, i3]

theorem map_zero_sum {α : Type*} (l : List α) (f : α → K) (h : ∀ a ∈ l, f a = 0) : (l.map f).sum = 0 :=
  List.sum_eq_zero fun x hx => by
    rw [List.mem_map] at hx
    obtain ⟨a, ha, rfl⟩ := hx
    exact h a ha

/-- The parts of all carts and bogies add up to the spring force. -/
theorem parts_springForceAt (t : Train K) (v : TrainDof → K) (d : TrainDof) (hd : t.HasDof d) :
    ((List.range t.carts.length).map fun i => ((t.carts[i]?.toList).map (cartPart v d i)).sum).sum +
      (t.bogies.map (bogiePart t v d)).sum = springForceAt t v d := by
  cases d with
  | cartY i =>
    have hi : i < t.carts.length := hd
    rw [map_zero_sum t.bogies (bogiePart t v _) (fun b _ => map_zero_sum _ _ fun p _ => by simp), add_zero]
    have : ((List.range t.carts.length).map fun k => ((t.carts[k]?.toList).map (cartPart v (.cartY i) k)).sum) =
        (List.range t.carts.length).map fun k => if k = i then
          (((t.carts[k]?.toList).flatMap (cartSprings v k)).map fun p => p.2.2).sum else 0 := by
      apply List.map_congr_left
      intro k hk
      rw [List.mem_range] at hk
      rw [List.getElem?_eq_getElem hk]
      simp only [Option.toList_some, List.map_cons, List.map_nil, List.sum_cons, List.sum_nil, add_zero,
        List.flatMap_cons, List.flatMap_nil, List.append_nil, cartPart]
      by_cases hki : k = i
      · subst hki; simp
      · rw [if_neg hki]
        exact map_zero_sum _ _ fun p _ => by simp [Ne.symm hki]
    rw [this, sum_range_ite _ i hi]
    rfl
  | cartRot i =>
    have hi : i < t.carts.length := hd
    rw [map_zero_sum t.bogies (bogiePart t v _) (fun b _ => map_zero_sum _ _ fun p _ => by simp), add_zero]
    have : ((List.range t.carts.length).map fun k => ((t.carts[k]?.toList).map (cartPart v (.cartRot i) k)).sum) =
        (List.range t.carts.length).map fun k => if k = i then
          -(((t.carts[k]?.toList).flatMap (cartSprings v k)).map fun p => p.2.1 * p.2.2).sum else 0 := by
      apply List.map_congr_left
      intro k hk
      rw [List.mem_range] at hk
      rw [List.getElem?_eq_getElem hk]
      simp only [Option.toList_some, List.map_cons, List.map_nil, List.sum_cons, List.sum_nil, add_zero,
        List.flatMap_cons, List.flatMap_nil, List.append_nil, cartPart]
      by_cases hki : k = i
      · subst hki
        rw [if_pos rfl, ← sum_map_neg']
        congr 1
        apply List.map_congr_left
        intro p _
        simp [mul_comm]
      · rw [if_neg hki]
        exact map_zero_sum _ _ fun p _ => by simp [Ne.symm hki]
    rw [this, sum_range_ite _ i hi]
    rfl
  | bogieY b =>
    have e1 : t.bogies.map (bogiePart t v (.bogieY b)) = t.bogies.map fun k => if k = b then
        ((bogieSprings v k (t.bogie k)).map fun p => p.2.2).sum else 0 := by
      apply List.map_congr_left
      intro k _
      unfold bogiePart
      by_cases hkb : k = b
      · subst hkb; simp
      · rw [if_neg hkb]
        exact map_zero_sum _ _ fun p _ => by simp [Ne.symm hkb]
    rw [e1, sum_nodup_ite t.bogies (nodup_distinctInOrder _) b hd]
    simp only [springForceAt]
    rw [sum_flat, add_comm, sub_eq_add_neg]
    congr 1
    rw [← sum_map_neg']
    congr 1
    apply List.map_congr_left
    intro k hk
    rw [List.mem_range] at hk
    rw [List.getElem?_eq_getElem hk]
    simp only [Option.toList_some, List.map_cons, List.map_nil, List.sum_cons, List.sum_nil, add_zero,
      List.flatMap_cons, List.flatMap_nil, List.append_nil, cartPart]
    rw [← sum_map_neg']
    congr 1
    apply List.map_congr_left
    intro p _
    by_cases hp : p.1 = b
    · simp [hp]
    · simp [hp, Ne.symm hp]
  | bogieRot b =>
    rw [map_zero_sum (List.range t.carts.length) _ (fun k _ => map_zero_sum _ (cartPart v _ k) fun c _ => by
      unfold cartPart
      exact map_zero_sum _ _ fun p _ => by simp), zero_add]
    have e1 : t.bogies.map (bogiePart t v (.bogieRot b)) = t.bogies.map fun k => if k = b then
        -((bogieSprings v k (t.bogie k)).map fun p => p.2.1 * p.2.2).sum else 0 := by
      apply List.map_congr_left
      intro k _
      unfold bogiePart
      by_cases hkb : k = b
      · subst hkb
        rw [if_pos rfl, ← sum_map_neg']
        congr 1
        apply List.map_congr_left
        intro p _
        simp [mul_comm]
      · rw [if_neg hkb]
        exact map_zero_sum _ _ fun p _ => by simp [Ne.symm hkb]
    rw [e1, sum_nodup_ite t.bogies (nodup_distinctInOrder _) b hd]
    rfl
  | wheelY b j =>
    rw [map_zero_sum (List.range t.carts.length) _ (fun k _ => map_zero_sum _ (cartPart v _ k) fun c _ => by
      unfold cartPart
      exact map_zero_sum _ _ fun p _ => by simp), zero_add]
    have e1 : t.bogies.map (bogiePart t v (.wheelY b j)) = t.bogies.map fun k => if k = b then
        -((bogieSprings v k (t.bogie k)).map fun p => if p.1 = j then p.2.2 else 0).sum else 0 := by
      apply List.map_congr_left
      intro k _
      unfold bogiePart
      by_cases hkb : k = b
      · subst hkb
        rw [if_pos rfl, ← sum_map_neg']
        congr 1
        apply List.map_congr_left
        intro p _
        by_cases hp : p.1 = j
        · simp [hp]
        · simp [hp, Ne.symm hp]
      · rw [if_neg hkb]
        exact map_zero_sum _ _ fun p _ => by simp [Ne.symm hkb]
    rw [e1, sum_nodup_ite t.bogies (nodup_distinctInOrder _) b hd.1]
    rfl

end

/-! ### C114 -/

section
variable {K : Type*} [Field K] [LinearOrder K] [IsStrictOrderedRing K]

/-- C114, spring forces: for a train with balanced springs the stiffness matrix gives at every dof of a body the force of
the springs on it. Missing: unbalanced bodies, for which `C114_forces` gives the exact forces. -/
theorem C114_spring_forces_partial (t : Train K) (hf : t.FactorsFit) (hb : t.Balanced) (n : ℕ)
    (hn : t.numbering.next ≤ n) (u : ℕ → K) (d : TrainDof) (hd : t.HasDof d) :
    matForce n t.stiffness u (t.dof d) = springForceAt t (fun e => u (t.dof e)) d := by
  rw [train_force t hf n hn u d hd, parts_springForceAt t _ d hd, map_zero_sum, add_zero]
  intro s hs
  rw [couplingForce, t.balanced_suspensions hb _ _ s hs, mul_zero]

/-- Specification: every cart stands on two bogies and every bogie on two wheels, at equal distance from the centre. -/
def Train.TwoAndTwo (t : Train K) : Prop :=
  (∀ c ∈ t.carts, ∃ b₁ b₂ d, d ≠ 0 ∧ c.bogies = [(b₁, d), (b₂, -d)]) ∧
  ∀ b ∈ t.bogies, ∃ m₁ m₂ d, d ≠ 0 ∧ (t.bogie b).wheels = [(m₁, d), (m₂, -d)]

/-- Specification: the carts and bogies are in equilibrium under gravity and the forces of the springs; the wheels stand
anywhere. -/
def Train.AtRest (t : Train K) (g : K) (n : ℕ) (u : ℕ → K) : Prop :=
  ∀ d, t.HasDof d → (∀ b j, d ≠ .wheelY b j) → matForce n t.stiffness u (t.dof d) = t.forceVector g (t.dof d)

theorem two_factors (l : List K) (h : l.length = 2) : ∃ x y, l = [x, y] := by
  match l, h with
  | [x, y], _ => exact ⟨x, y, rfl⟩

theorem halves (d F₁ F₂ W : K) (hd : d ≠ 0) (h1 : F₁ + F₂ = W) (h2 : -(d * F₁ + -d * F₂) = 0) :
    F₁ = W / 2 ∧ F₂ = W / 2 := by
  have h3 : d * (F₂ - F₁) = 0 := by linarith [h2]
  have h4 : F₂ - F₁ = 0 := (mul_eq_zero.1 h3).resolve_left hd
  constructor <;> linarith

/-- C114 as far as it holds: a train whose carts stand symmetrically on two bogies and whose bogies stand symmetrically on
two wheels, at rest under gravity, however the wheels stand: under every wheel the force that keeps the wheel in place is
the static load the train reports for the wheel. -/
theorem C114_reactions_partial (t : Train K) (hf : t.FactorsFit) (hb : t.Balanced) (hs : t.TwoAndTwo) (g : K) (n : ℕ)
    (hn : t.numbering.next ≤ n) (u : ℕ → K) (hu : t.AtRest g n u) (b : ℕ) (hbm : b ∈ t.bogies) (j : ℕ)
    (hj : j < (t.bogie b).wheels.length) :
    (totalStaticLoad t g StaticLoads.fresh).wheel b j =
      some (t.forceVector g (t.dof (.wheelY b j)) - matForce n t.stiffness u (t.dof (.wheelY b j))) := by
  obtain ⟨w1, w2, -, -⟩ := C100_weight t g
  have spring := C114_spring_forces_partial t hf hb n hn u
  set v : TrainDof → K := fun e => u (t.dof e) with hv
  -- the springs of every cart carry half of its weight
  have cart : ∀ i (hi : i < t.carts.length), ∃ F₁ F₂ b₁ b₂ d, t.carts[i].bogies = [(b₁, d), (b₂, -d)] ∧
      cartSprings v i t.carts[i] = [(b₁, d, F₁), (b₂, -d, F₂)] ∧ F₁ = -t.carts[i].mass * g / 2 ∧
      F₂ = -t.carts[i].mass * g / 2 := by
    intro i hi
    have hmem : t.carts[i] ∈ t.carts := List.getElem_mem hi
    obtain ⟨b₁, b₂, d, hd, hbs⟩ := hs.1 _ hmem
    obtain ⟨x, y, hxy⟩ := two_factors _ ((length_factorsOrOnes _ _ (hf.1 _ hmem)).trans (by rw [hbs]; rfl))
    have e : cartSprings v i t.carts[i] = [(b₁, d, t.carts[i].stiffness * x * (v (.cartY i) - d * v (.cartRot i) -
        v (.bogieY b₁))), (b₂, -d, t.carts[i].stiffness * y * (v (.cartY i) - -d * v (.cartRot i) - v (.bogieY b₂)))] := by
      unfold cartSprings
      rw [hxy, hbs]
      rfl
    refine ⟨_, _, b₁, b₂, d, hbs, e, ?_⟩
    apply halves d _ _ _ hd
    · have := hu (.cartY i) hi (by intro b j h; cases h)
      rw [spring (.cartY i) hi, w1 (.cartY i) hi trivial] at this
      simp only [springForceAt, List.getElem?_eq_getElem hi, Option.toList_some, List.flatMap_cons, List.flatMap_nil,
        List.append_nil, e, List.map_cons, List.map_nil, List.sum_cons, List.sum_nil, add_zero, Train.bodyInertia,
        Option.map_some, Option.getD_some] at this
      exact this
    · have := hu (.cartRot i) hi (by intro b j h; cases h)
      rw [spring (.cartRot i) hi, w2 (.cartRot i) hi (fun h => h)] at this
      simp only [springForceAt, List.getElem?_eq_getElem hi, Option.toList_some, List.flatMap_cons, List.flatMap_nil,
        List.append_nil, e, List.map_cons, List.map_nil, List.sum_cons, List.sum_nil, add_zero] at this
      exact this
  -- the springs above a bogie bring the shares of the carts
  have above : ((List.range t.carts.length).flatMap fun i => (t.carts[i]?.toList).flatMap fun c =>
      (cartSprings v i c).map fun p => if p.1 = b then p.2.2 else 0).sum = cartShare t g b := by
    rw [sum_flat]
    unfold cartShare
    have hr : t.carts.map (fun c => ((c.bogies.map Prod.fst).count b : K) * (-c.mass * g / c.bogies.length)) =
        (List.range t.carts.length).map fun i => ((t.carts[i]?.toList).map fun c =>
          ((c.bogies.map Prod.fst).count b : K) * (-c.mass * g / c.bogies.length)).sum := by
      apply List.ext_getElem
      · simp
      · intro i h1 h2
        rw [List.length_map] at h1
        simp [h1]
    rw [hr]
    congr 1
    apply List.map_congr_left
    intro i hi
    rw [List.mem_range] at hi
    obtain ⟨F₁, F₂, b₁, b₂, d, hbs, e, rfl, rfl⟩ := cart i hi
    rw [List.getElem?_eq_getElem hi]
    simp only [Option.toList_some, List.flatMap_cons, List.flatMap_nil, List.append_nil, List.map_cons, List.map_nil,
      List.sum_cons, List.sum_nil, add_zero, e, hbs, List.count_cons, List.count_nil, List.length_cons, List.length_nil]
    by_cases h1 : b₁ = b <;> by_cases h2 : b₂ = b <;> simp [h1, h2]
    ring
  -- the springs of the bogie
  obtain ⟨m₁, m₂, d, hd, hws⟩ := hs.2 b hbm
  obtain ⟨x, y, hxy⟩ := two_factors _ ((length_factorsOrOnes _ _ (hf.2 b hbm)).trans (by rw [hws]; rfl))
  obtain ⟨G₁, G₂, e, h1, h2⟩ : ∃ G₁ G₂, bogieSprings v b (t.bogie b) = [(0, d, G₁), (1, -d, G₂)] ∧
      G₁ = (-(t.bogie b).mass * g + cartShare t g b) / 2 ∧ G₂ = (-(t.bogie b).mass * g + cartShare t g b) / 2 := by
    have e : bogieSprings v b (t.bogie b) = [(0, d, (t.bogie b).stiffness * x * (v (.bogieY b) - d * v (.bogieRot b) -
        v (.wheelY b 0))), (1, -d, (t.bogie b).stiffness * y * (v (.bogieY b) - -d * v (.bogieRot b) -
          v (.wheelY b 1)))] := by
      unfold bogieSprings
      rw [hxy, hws]
      rfl
    refine ⟨_, _, e, ?_⟩
    apply halves d _ _ _ hd
    · have := hu (.bogieY b) hbm (by intro b j h; cases h)
      rw [spring (.bogieY b) hbm, w1 (.bogieY b) hbm trivial] at this
      simp only [springForceAt, e, above, List.map_cons, List.map_nil, List.sum_cons, List.sum_nil, add_zero,
        Train.bodyInertia] at this
      linear_combination this
    · have := hu (.bogieRot b) hbm (by intro b j h; cases h)
      rw [spring (.bogieRot b) hbm, w2 (.bogieRot b) hbm (fun h => h)] at this
      simp only [springForceAt, e, List.map_cons, List.map_nil, List.sum_cons, List.sum_nil, add_zero] at this
      exact this
  rw [(totalStaticLoad_spec t g StaticLoads.fresh b hbm).2 j hj, spring (.wheelY b j) ⟨hbm, hj⟩,
    w1 (.wheelY b j) ⟨hbm, hj⟩ trivial]
  congr 1
  simp only [springForceAt, e, h1, h2, hws, StaticLoads.fresh, Option.getD_none, wheelOwn, Train.bodyInertia,
    List.map_cons, List.map_nil, List.sum_cons, List.sum_nil, add_zero, List.length_cons, List.length_nil]
  rw [hws] at hj
  have : j = 0 ∨ j = 1 := by simp at hj; omega
  rcases this with rfl | rfl <;> simp <;> ring

/-- `exampleTrain` at rest under `g = 1` on wheels that do not move. -/
def exampleRest (a : ℕ) : ℚ :=
  if a = 0 then -(28 / 8800) - 25 / 2708 else if a = 2 ∨ a = 6 then -(28 / 8800) else 0

theorem exampleTrain_dofs (d : TrainDof) (hd : exampleTrain.HasDof d) : d ∈ [TrainDof.cartY 0, .cartRot 0, .bogieY 0,
    .bogieRot 0, .wheelY 0 0, .wheelY 0 1, .bogieY 1, .bogieRot 1, .wheelY 1 0, .wheelY 1 1] := by
  have bog : ∀ b ∈ exampleTrain.bogies, b = 0 ∨ b = 1 := by decide +kernel
  cases d with
  | cartY i => have : i < 1 := hd; obtain rfl : i = 0 := (by omega); simp
  | cartRot i => have : i < 1 := hd; obtain rfl : i = 0 := (by omega); simp
  | bogieY b => rcases bog b hd with rfl | rfl <;> simp
  | bogieRot b => rcases bog b hd with rfl | rfl <;> simp
  | wheelY b j =>
    have hj : j < 2 := hd.2
    rcases bog b hd.1 with rfl | rfl <;> rcases (show j = 0 ∨ j = 1 by omega) with rfl | rfl <;> simp

example : exampleTrain.FactorsFit ∧ exampleTrain.Balanced ∧ exampleTrain.TwoAndTwo ∧ exampleTrain.AtRest 1 10 exampleRest ∧
    exampleTrain.numbering.next ≤ 10 ∧ (totalStaticLoad exampleTrain 1 StaticLoads.fresh).wheel 1 1 = some (-15) := by
  refine ⟨⟨?_, ?_⟩, ⟨?_, ?_⟩, ⟨?_, ?_⟩, ?_, by decide +kernel, by decide +kernel⟩
  · intro c hc; left; simp [exampleTrain] at hc; simp [hc]
  · intro b _; left; rfl
  · intro c hc; simp [exampleTrain] at hc; simp [hc, factorsOrOnes, List.replicate]
  · intro b _; simp [exampleTrain, factorsOrOnes, List.replicate]; norm_num
  · intro c hc
    simp only [exampleTrain, List.mem_singleton] at hc
    exact ⟨0, 1, 10, by norm_num, by rw [hc]⟩
  · exact fun b _ => ⟨1, 1, 5 / 4, by norm_num, by simp [exampleTrain]; norm_num⟩
  · intro d hd hw
    have h := exampleTrain_dofs d hd
    have : ∀ d ∈ [TrainDof.cartY 0, .cartRot 0, .bogieY 0, .bogieRot 0, .bogieY 1, .bogieRot 1],
        matForce 10 exampleTrain.stiffness exampleRest (exampleTrain.dof d) =
          exampleTrain.forceVector 1 (exampleTrain.dof d) := by decide +kernel
    simp only [List.mem_cons, List.not_mem_nil, or_false] at h
    rcases h with rfl | rfl | rfl | rfl | rfl | rfl | rfl | rfl | rfl | rfl <;>
      first
      | exact absurd rfl (hw _ _)
      | exact this _ (by simp)

/-- A train with a cart that stands at distances 1 and 2 on its bogies; the springs are balanced. -/
def unevenTrain : Train ℚ where
  carts := [⟨3, 1, 1, 0, [(0, 1), (1, -2)], [2, 1]⟩]
  bogie := fun _ => ⟨0, 1, 1, 0, [(0, 1), (0, -1)], []⟩

/-- `unevenTrain` at rest under `g = 1`. -/
def unevenRest (a : ℕ) : ℚ :=
  if a = 0 then -(11 / 6) else if a = 1 then 1 / 6 else if a = 2 then -1 else if a = 6 then -(1 / 2) else 0

/-- C114 fails in general: the load of a cart is divided equally over its bogies also where the cart does not stand
symmetrically. The train is at rest, its wheels carry 1, 1, 1/2 and 1/2, and the reported loads are 3/4 for every wheel. -/
theorem C114_violated :
    unevenTrain.FactorsFit ∧ unevenTrain.Balanced ∧ unevenTrain.AtRest 1 10 unevenRest ∧
    ([(0, 0), (0, 1), (1, 0), (1, 1)].map fun w : ℕ × ℕ => unevenTrain.forceVector 1 (unevenTrain.dof (.wheelY w.1 w.2)) -
      matForce 10 unevenTrain.stiffness unevenRest (unevenTrain.dof (.wheelY w.1 w.2))) = [-1, -1, -1 / 2, -1 / 2] ∧
    ([(0, 0), (0, 1), (1, 0), (1, 1)].map fun w : ℕ × ℕ =>
      (totalStaticLoad unevenTrain 1 StaticLoads.fresh).wheel w.1 w.2) =
        [some (-3 / 4), some (-3 / 4), some (-3 / 4), some (-3 / 4)] := by
  refine ⟨⟨?_, ?_⟩, ⟨?_, ?_⟩, ?_, by decide +kernel, by decide +kernel⟩
  · intro c hc; right; simp [unevenTrain] at hc; simp [hc]
  · intro b _; left; rfl
  · intro c hc; simp [unevenTrain] at hc; simp [hc, factorsOrOnes]
  · intro b _; simp [unevenTrain, factorsOrOnes, List.replicate]
  · intro d hd hw
    have bog : ∀ b ∈ unevenTrain.bogies, b = 0 ∨ b = 1 := by decide +kernel
    have key : ∀ d ∈ [TrainDof.cartY 0, .cartRot 0, .bogieY 0, .bogieRot 0, .bogieY 1, .bogieRot 1],
        matForce 10 unevenTrain.stiffness unevenRest (unevenTrain.dof d) =
          unevenTrain.forceVector 1 (unevenTrain.dof d) := by decide +kernel
    cases d with
    | cartY i => have : i < 1 := hd; obtain rfl : i = 0 := (by omega); exact key _ (by simp)
    | cartRot i => have : i < 1 := hd; obtain rfl : i = 0 := (by omega); exact key _ (by simp)
    | bogieY b => rcases bog b hd with rfl | rfl <;> exact key _ (by simp)
    | bogieRot b => rcases bog b hd with rfl | rfl <;> exact key _ (by simp)
    | wheelY b j => exact absurd rfl (hw b j)

end
end Rose
