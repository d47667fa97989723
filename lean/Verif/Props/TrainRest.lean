/-
C123: for given wheel displacements a train has one position of rest, and every time step has one solution.
-/
import Verif.Props.TrainBalance
import Verif.Spec.Solvable
import Mathlib.LinearAlgebra.Matrix.ToLin
import Mathlib.Tactic.IntervalCases
import Mathlib.LinearAlgebra.FiniteDimensional.Basic

set_option linter.unusedSectionVars false

namespace Rose
open Finset

section
variable {K : Type*} [Field K] [LinearOrder K] [IsStrictOrderedRing K]

/-- A system of which only zero solves the homogeneous equations has one solution for every right-hand side. -/
theorem solvable_of_injective (N : ℕ) (g : ℕ → ℕ → K)
    (h : ∀ U : ℕ → K, (∀ i < N, ∑ j ∈ range N, g i j * U j = 0) → ∀ i < N, U i = 0) : Spec.UniquelySolvable N g := by
  let A : Matrix (Fin N) (Fin N) K := Matrix.of fun i j => g i j
  let L : (Fin N → K) →ₗ[K] (Fin N → K) := Matrix.toLin' A
  let ext : (Fin N → K) → ℕ → K := fun x k => if hk : k < N then x ⟨k, hk⟩ else 0
  have hext : ∀ x (i : Fin N), ext x i = x i := by
    intro x i; simp [ext]
  have hrow : ∀ (U : ℕ → K) (i : Fin N), L (fun j => U j) i = ∑ j ∈ range N, g i j * U j := by
    intro U i
    simp only [L, Matrix.toLin'_apply, Matrix.mulVec, dotProduct, A, Matrix.of_apply]
    rw [Finset.sum_range]
  have hinj : Function.Injective L := by
    rw [injective_iff_map_eq_zero]
    intro x hx
    have h0 := h (ext x) (by
      intro i hi
      have := hrow (ext x) ⟨i, hi⟩
      rw [← this]
      have : (fun j : Fin N => ext x j) = x := funext (hext x)
      rw [this, hx]; rfl)
    funext i
    rw [← hext x i]
    exact h0 i i.2
  have hsurj : Function.Surjective L := LinearMap.injective_iff_surjective.mp hinj
  intro F
  obtain ⟨x, hx⟩ := hsurj fun i => F i
  refine ⟨ext x, ?_, ?_⟩
  · intro i hi
    have := hrow (ext x) ⟨i, hi⟩
    rw [← this]
    have e : (fun j : Fin N => ext x j) = x := funext (hext x)
    rw [e, hx]
  · intro U' hU' i hi
    have : L (fun j => U' j) = L x := by
      rw [hx]
      funext j
      rw [hrow]
      exact hU' j j.2
    have := congrFun (hinj this) ⟨i, hi⟩
    rw [← hext x ⟨i, hi⟩] at this
    simpa using this

/-- Specification: all springs are real springs, and every body stands on springs at two different places. -/
structure Train.Sprung (t : Train K) : Prop where
  carts : ∀ c ∈ t.carts, 0 < c.stiffness ∧ (∀ f ∈ c.factors, 0 < f) ∧
    ∃ p ∈ c.bogies, ∃ q ∈ c.bogies, p.2 ≠ q.2
  bogies : ∀ b ∈ t.bogies, 0 < (t.bogie b).stiffness ∧ (∀ f ∈ (t.bogie b).factors, 0 < f) ∧
    ∃ p ∈ (t.bogie b).wheels, ∃ q ∈ (t.bogie b).wheels, p.2 ≠ q.2

theorem factorsOrOnes_pos (m : ℕ) (fs : List K) (h : ∀ f ∈ fs, 0 < f) : ∀ f ∈ factorsOrOnes m fs, 0 < f := by
  intro f hfm
  unfold factorsOrOnes at hfm
  split_ifs at hfm
  · rw [List.eq_of_mem_replicate hfm]; exact zero_lt_one
  · exact h f hfm

theorem zero_of_sum_zero (l : List K) (h : ∀ x ∈ l, 0 ≤ x) (h0 : l.sum = 0) : ∀ x ∈ l, x = 0 := by
  induction l with
  | nil => simp
  | cons a l ih =>
    rw [List.sum_cons] at h0
    have ha := h a (by simp)
    have hl := List.sum_nonneg fun x hx => h x (List.mem_cons_of_mem a hx)
    intro x hx
    rcases List.mem_cons.1 hx with rfl | hx
    · linarith
    · exact ih (fun x hx => h x (by simp [hx])) (by linarith) x hx

theorem exists_zip_of_mem {α β : Type*} (l : List α) (m : List β) (h : m.length = l.length) (a : α) (ha : a ∈ l) :
    ∃ b, (a, b) ∈ l.zip m := by
  obtain ⟨i, hi, rfl⟩ := List.mem_iff_getElem.1 ha
  refine ⟨m[i], ?_⟩
  rw [List.mem_iff_getElem]
  exact ⟨i, by simp [hi, h], by simp⟩

/-- A train on springs whose springs store no energy: no spring is elongated. -/
theorem no_elongation (t : Train K) (hf : t.FactorsFit) (hs : t.Sprung) (v : TrainDof → K) (h : springEnergy t v = 0) :
    (∀ i c, t.carts[i]? = some c → ∀ p ∈ c.bogies, v (.cartY i) - p.2 * v (.cartRot i) - v (.bogieY p.1) = 0) ∧
    ∀ b ∈ t.bogies, ∀ j (hj : j < (t.bogie b).wheels.length),
      v (.bogieY b) - ((t.bogie b).wheels[j]).2 * v (.bogieRot b) - v (.wheelY b j) = 0 := by
  unfold springEnergy at h
  have n1 : ∀ x ∈ ((List.range t.carts.length).flatMap fun i => (t.carts[i]?.toList).flatMap fun c =>
      (c.bogies.zip (factorsOrOnes c.bogies.length c.factors)).map fun p =>
      c.stiffness * p.2 * (v (.cartY i) - p.1.2 * v (.cartRot i) - v (.bogieY p.1.1)) ^ 2), 0 ≤ x := by
    intro x hx
    simp only [List.mem_flatMap, List.mem_range] at hx
    obtain ⟨i, hi, c, hc, hx⟩ := hx
    rw [List.getElem?_eq_getElem hi] at hc
    simp only [Option.toList_some, List.mem_singleton] at hc
    subst hc
    rw [List.mem_map] at hx
    obtain ⟨p, hp, rfl⟩ := hx
    obtain ⟨k1, k2, -⟩ := hs.carts t.carts[i] (List.getElem_mem _)
    exact mul_nonneg (mul_nonneg k1.le (factorsOrOnes_pos _ _ k2 _ (List.of_mem_zip hp).2).le) (sq_nonneg _)
  have n2 : ∀ x ∈ (t.bogies.flatMap fun b =>
      ((List.range (t.bogie b).wheels.length).zip (factorsOrOnes (t.bogie b).wheels.length (t.bogie b).factors)).map fun p =>
      (t.bogie b).stiffness * p.2 *
        (v (.bogieY b) - ((t.bogie b).wheels.getD p.1 (0, 0)).2 * v (.bogieRot b) - v (.wheelY b p.1)) ^ 2), 0 ≤ x := by
    intro x hx
    simp only [List.mem_flatMap] at hx
    obtain ⟨b, hb, hx⟩ := hx
    rw [List.mem_map] at hx
    obtain ⟨p, hp, rfl⟩ := hx
    obtain ⟨k1, k2, -⟩ := hs.bogies b hb
    exact mul_nonneg (mul_nonneg k1.le (factorsOrOnes_pos _ _ k2 _ (List.of_mem_zip hp).2).le) (sq_nonneg _)
  have s1 := List.sum_nonneg n1
  have s2 := List.sum_nonneg n2
  have z1 := zero_of_sum_zero _ n1 (by linarith)
  have z2 := zero_of_sum_zero _ n2 (by linarith)
  constructor
  · intro i c hc p hp
    have hi : i < t.carts.length := (List.getElem?_eq_some_iff.1 hc).1
    have hcm : c ∈ t.carts := List.mem_of_getElem? hc
    obtain ⟨k1, k2, -⟩ := hs.carts c hcm
    obtain ⟨f, hf'⟩ := exists_zip_of_mem c.bogies (factorsOrOnes c.bogies.length c.factors)
      (length_factorsOrOnes _ _ (hf.1 c hcm)) p hp
    have hz := z1 (c.stiffness * f * (v (.cartY i) - p.2 * v (.cartRot i) - v (.bogieY p.1)) ^ 2) (by
      simp only [List.mem_flatMap, List.mem_range]
      exact ⟨i, hi, c, by rw [hc]; simp, List.mem_map.2 ⟨(p, f), hf', rfl⟩⟩)
    have hpos : 0 < c.stiffness * f := mul_pos k1 (factorsOrOnes_pos _ _ k2 _ (List.of_mem_zip hf').2)
    exact pow_eq_zero_iff (two_ne_zero) |>.1 ((mul_eq_zero.1 hz).resolve_left hpos.ne')
  · intro b hb j hj
    obtain ⟨k1, k2, -⟩ := hs.bogies b hb
    obtain ⟨f, hf'⟩ := exists_zip_of_mem (List.range (t.bogie b).wheels.length)
      (factorsOrOnes (t.bogie b).wheels.length (t.bogie b).factors)
      (by rw [length_factorsOrOnes _ _ (hf.2 b hb), List.length_range]) j (List.mem_range.2 hj)
    have hz := z2 ((t.bogie b).stiffness * f *
        (v (.bogieY b) - ((t.bogie b).wheels.getD j (0, 0)).2 * v (.bogieRot b) - v (.wheelY b j)) ^ 2) (by
      simp only [List.mem_flatMap]
      exact ⟨b, hb, List.mem_map.2 ⟨(j, f), hf', rfl⟩⟩)
    have hpos : 0 < (t.bogie b).stiffness * f := mul_pos k1 (factorsOrOnes_pos _ _ k2 _ (List.of_mem_zip hf').2)
    have := pow_eq_zero_iff (two_ne_zero) |>.1 ((mul_eq_zero.1 hz).resolve_left hpos.ne')
    rwa [List.getD_eq_getElem _ _ hj] at this

/-- Two springs at different places that are not elongated fix the body above. -/
theorem fixed_of_two (y r d d' : K) (hd : d ≠ d') (h1 : y - d * r = 0) (h2 : y - d' * r = 0) : y = 0 ∧ r = 0 := by
  have : (d - d') * r = 0 := by linear_combination h2 - h1
  have hr : r = 0 := (mul_eq_zero.1 this).resolve_left (sub_ne_zero.2 hd)
  rw [hr] at h1
  exact ⟨by simpa using h1, hr⟩

/-- A train on its wheels whose springs store no energy has not moved. -/
theorem Train.Sprung.still (t : Train K) (hf : t.FactorsFit) (hs : t.Sprung) (v : TrainDof → K) (h : springEnergy t v = 0)
    (hw : ∀ b j, t.HasDof (.wheelY b j) → v (.wheelY b j) = 0) : ∀ d, t.HasDof d → v d = 0 := by
  obtain ⟨e1, e2⟩ := no_elongation t hf hs v h
  have hb : ∀ b ∈ t.bogies, v (.bogieY b) = 0 ∧ v (.bogieRot b) = 0 := by
    intro b hb
    obtain ⟨-, -, p, hp, q, hq, hne⟩ := hs.bogies b hb
    obtain ⟨i, hi, rfl⟩ := List.mem_iff_getElem.1 hp
    obtain ⟨j, hj, rfl⟩ := List.mem_iff_getElem.1 hq
    have h1 := e2 b hb i hi
    have h2 := e2 b hb j hj
    rw [hw b i ⟨hb, hi⟩, sub_zero] at h1
    rw [hw b j ⟨hb, hj⟩, sub_zero] at h2
    exact fixed_of_two _ _ _ _ hne h1 h2
  have hc : ∀ i < t.carts.length, v (.cartY i) = 0 ∧ v (.cartRot i) = 0 := by
    intro i hi
    have hci := List.getElem?_eq_getElem hi
    have hcm : t.carts[i] ∈ t.carts := List.getElem_mem hi
    obtain ⟨-, -, p, hp, q, hq, hne⟩ := hs.carts _ hcm
    have h1 := e1 i _ hci p hp
    have h2 := e1 i _ hci q hq
    rw [(hb p.1 ((t.mem_bogies _).2 ⟨_, hcm, p.2, hp⟩)).1, sub_zero] at h1
    rw [(hb q.1 ((t.mem_bogies _).2 ⟨_, hcm, q.2, hq⟩)).1, sub_zero] at h2
    exact fixed_of_two _ _ _ _ hne h1 h2
  intro d hd
  cases d with
  | cartY i => exact (hc i hd).1
  | cartRot i => exact (hc i hd).2
  | bogieY b => exact (hb b hd).1
  | bogieRot b => exact (hb b hd).2
  | wheelY b j => exact hw b j hd

/-- Every index below the number of dofs belongs to a dof of the train. -/
theorem Train.exists_dof (t : Train K) (k : ℕ) (hk : k < t.numbering.next) : ∃ d, t.HasDof d ∧ t.dof d = k := by
  obtain ⟨h1, _, h3⟩ := C34_numbered_once (fun b => (t.bogie b).wheels.length) 0 (t.carts.map fun c => c.bogies.map Prod.fst)
  obtain ⟨d, hd⟩ := (h3 k).2 ⟨Nat.zero_le _, hk⟩
  refine ⟨d, (t.hasDof_iff d).1 ((h1 d).1 ⟨k, hd⟩), ?_⟩
  unfold Train.dof Train.numbering
  rw [hd]
  rfl

/-- Specification: a position of the train with its wheels at given heights in which the carts and bogies are in equilibrium under the
forces `F`. -/
def Train.RestsOn (t : Train K) (F : TrainDof → K) (w : ℕ → ℕ → K) (u : ℕ → K) : Prop :=
  (∀ b j, t.HasDof (.wheelY b j) → u (t.dof (.wheelY b j)) = w b j) ∧
  ∀ d, t.HasDof d → (∀ b j, d ≠ .wheelY b j) → matForce t.numbering.next t.stiffness u (t.dof d) = F d

/-- A train which cannot move without forces while its wheels are held has one position of rest. -/
theorem rest_of_still (t : Train K)
    (hstill : ∀ U : ℕ → K, (∀ b j, t.HasDof (.wheelY b j) → U (t.dof (.wheelY b j)) = 0) →
      (∀ d, t.HasDof d → (∀ b j, d ≠ .wheelY b j) → matForce t.numbering.next t.stiffness U (t.dof d) = 0) →
      ∀ d, t.HasDof d → U (t.dof d) = 0) (F : TrainDof → K) (w : ℕ → ℕ → K) :
    ∃ u, t.RestsOn F w u ∧ ∀ u', t.RestsOn F w u' → ∀ d, t.HasDof d → u' (t.dof d) = u (t.dof d) := by
  classical
  set N := t.numbering.next with hN
  let isW : ℕ → Prop := fun a => ∃ b j, t.HasDof (.wheelY b j) ∧ t.dof (.wheelY b j) = a
  have notW : ∀ d, t.HasDof d → (∀ b j, d ≠ .wheelY b j) → ¬ isW (t.dof d) := by
    rintro d hd hne ⟨b, j, h1, h2⟩
    exact hne b j (t.dof_inj _ _ hd h1 h2.symm)
  let g : ℕ → ℕ → K := fun a c => if isW a then (if a = c then 1 else 0) else t.stiffness a c
  have rowW : ∀ (U : ℕ → K) a, a < N → isW a → ∑ c ∈ range N, g a c * U c = U a := by
    intro U a ha h
    simp only [g, if_pos h, ite_mul, one_mul, zero_mul]
    rw [Finset.sum_ite_eq, if_pos (Finset.mem_range.2 ha)]
  have row : ∀ (U : ℕ → K) a, ¬ isW a → ∑ c ∈ range N, g a c * U c = matForce N t.stiffness U a := by
    intro U a h
    simp only [g, if_neg h]
    rfl
  have hsol : Spec.UniquelySolvable N g := by
    apply solvable_of_injective
    intro U hU i hi
    obtain ⟨d, hd, rfl⟩ := t.exists_dof i hi
    refine hstill U ?_ ?_ d hd
    · intro b j hbj
      have := hU _ (t.dof_lt _ hbj)
      rwa [rowW U _ (t.dof_lt _ hbj) ⟨b, j, hbj, rfl⟩] at this
    · intro e he hw
      have := hU _ (t.dof_lt _ he)
      rwa [row U _ (notW e he hw)] at this
  obtain ⟨rhs, hr⟩ := t.exists_vector fun d => match d with
    | .wheelY b j => w b j
    | d => F d
  obtain ⟨u, h1, h2⟩ := hsol rhs
  have key : ∀ u', t.RestsOn F w u' ↔ Spec.Solves N g rhs u' := by
    intro u'
    constructor
    · rintro ⟨r1, r2⟩ a ha
      obtain ⟨d, hd, rfl⟩ := t.exists_dof a ha
      by_cases hw : ∃ b j, d = .wheelY b j
      · obtain ⟨b, j, rfl⟩ := hw
        rw [rowW u' _ ha ⟨b, j, hd, rfl⟩, hr _ hd, r1 b j hd]
      · push Not at hw
        rw [row u' _ (notW d hd hw), hr _ hd, r2 d hd hw]
        cases d with
        | wheelY b j => exact absurd rfl (hw b j)
        | _ => rfl
    · intro h
      refine ⟨?_, ?_⟩
      · intro b j hd
        have := h _ (t.dof_lt _ hd)
        rw [rowW u' _ (t.dof_lt _ hd) ⟨b, j, hd, rfl⟩, hr _ hd] at this
        exact this
      · intro d hd hw
        have := h _ (t.dof_lt _ hd)
        rw [row u' _ (notW d hd hw), hr _ hd] at this
        rw [this]
        cases d with
        | wheelY b j => exact absurd rfl (hw b j)
        | _ => rfl
  refine ⟨u, (key u).2 h1, ?_⟩
  intro u' hu' d hd
  exact h2 u' ((key u').1 hu') _ (t.dof_lt _ hd)

/-- **C123** A train all of whose bodies stand on springs at two places, balanced about their centre, has exactly one
position of rest for every displacement of its wheels and every force on its bodies. Missing: unbalanced bodies, for which it fails
(`C123_rest_violated`; `C123_slt`: it holds for the default train which has them). -/
theorem C123_rest_partial (t : Train K) (hf : t.FactorsFit) (hb : t.Balanced) (hs : t.Sprung) (F : TrainDof → K)
    (w : ℕ → ℕ → K) :
    ∃ u, t.RestsOn F w u ∧ ∀ u', t.RestsOn F w u' → ∀ d, t.HasDof d → u' (t.dof d) = u (t.dof d) := by
  apply rest_of_still
  intro U hW hU
  have hE : matEnergy t.numbering.next t.stiffness U = 0 := by
    unfold matEnergy
    apply Finset.sum_eq_zero
    intro a ha
    obtain ⟨d, hd, rfl⟩ := t.exists_dof a (Finset.mem_range.1 ha)
    by_cases h : ∃ b j, d = .wheelY b j
    · obtain ⟨b, j, rfl⟩ := h
      rw [hW b j hd, zero_mul]
    · push Not at h
      rw [hU d hd h, mul_zero]
  rw [C36_energy_partial t hf hb _ le_rfl U] at hE
  exact hs.still t hf (fun d => U (t.dof d)) hE hW

/-- **C123, time steps** If moreover all masses and rotational inertias are positive, every implicit time step of the train has one solution:
`a M + b C + c K` is regular for `0 < a` and non-negative `b`, `c`. -/
theorem C123_steps_partial (t : Train K) (hf : t.FactorsFit) (hb : t.Balanced) (hs : t.Sprung)
    (hc : ∀ c ∈ t.carts, 0 < c.mass ∧ 0 < c.inertia ∧ 0 ≤ c.damping)
    (hbm : ∀ b ∈ t.bogies, 0 < (t.bogie b).mass ∧ 0 < (t.bogie b).inertia ∧ 0 ≤ (t.bogie b).damping ∧
      ∀ w ∈ (t.bogie b).wheels, 0 < w.1) (a b c : K) (ha : 0 < a) (hb0 : 0 ≤ b) (hc0 : 0 ≤ c) :
    Spec.UniquelySolvable t.numbering.next fun i j => a * t.massMatrix i j + b * t.damping i j + c * t.stiffness i j := by
  set N := t.numbering.next with hN
  apply solvable_of_injective
  intro U hU
  have eK := C36_nonneg_partial t hf hb N le_rfl U (fun x hx => ⟨(hs.carts x hx).1.le, fun f h => ((hs.carts x hx).2.1 f h).le⟩)
    fun x hx => ⟨(hs.bogies x hx).1.le, fun f h => ((hs.bogies x hx).2.1 f h).le⟩
  have eC := (C36_dissipation_partial t hf hb N le_rfl U (fun x hx => ⟨(hc x hx).2.2, fun f h => ((hs.carts x hx).2.1 f h).le⟩)
    fun x hx => ⟨(hbm x hx).2.2.1, fun f h => ((hs.bogies x hx).2.1 f h).le⟩).2
  have tot : a * matEnergy N t.massMatrix U + b * matEnergy N t.damping U + c * matEnergy N t.stiffness U = 0 := by
    have : a * matEnergy N t.massMatrix U + b * matEnergy N t.damping U + c * matEnergy N t.stiffness U =
        ∑ i ∈ range N, U i * ∑ j ∈ range N, (a * t.massMatrix i j + b * t.damping i j + c * t.stiffness i j) * U j := by
      unfold matEnergy matForce
      rw [Finset.mul_sum, Finset.mul_sum, Finset.mul_sum, ← Finset.sum_add_distrib, ← Finset.sum_add_distrib]
      refine Finset.sum_congr rfl fun i _ => ?_
      simp only [add_mul, Finset.sum_add_distrib, mul_assoc, ← Finset.mul_sum]
      ring
    rw [this]
    apply Finset.sum_eq_zero
    intro i hi
    rw [hU i (Finset.mem_range.1 hi), mul_zero]
  obtain ⟨d1, d2, d3⟩ := C100_diagonal t
  have pos : ∀ d, t.HasDof d → 0 < t.bodyInertia d := by
    intro d hd
    cases d with
    | cartY i =>
      have hi : i < t.carts.length := hd
      simpa [Train.bodyInertia, hi] using (hc _ (List.getElem_mem hi)).1
    | cartRot i =>
      have hi : i < t.carts.length := hd
      simpa [Train.bodyInertia, hi] using (hc _ (List.getElem_mem hi)).2.1
    | bogieY b => exact (hbm b hd).1
    | bogieRot b => exact (hbm b hd).2.1
    | wheelY b j =>
      have hj : j < (t.bogie b).wheels.length := hd.2
      simpa [Train.bodyInertia, hj] using (hbm b hd.1).2.2.2 _ (List.getElem_mem hj)
  have eM : matEnergy N t.massMatrix U = ∑ i ∈ range N, t.massMatrix i i * U i ^ 2 := by
    unfold matEnergy matForce
    refine Finset.sum_congr rfl fun i hi => ?_
    rw [Finset.sum_eq_single i]
    · ring
    · intro j _ hj
      rw [d2 i j (Ne.symm hj), zero_mul]
    · intro h; exact absurd hi h
  have nn : ∀ i ∈ range N, 0 ≤ t.massMatrix i i * U i ^ 2 := by
    intro i hi
    obtain ⟨d, hd, rfl⟩ := t.exists_dof i (Finset.mem_range.1 hi)
    rw [d1 d hd]
    exact mul_nonneg (pos d hd).le (sq_nonneg _)
  have z : ∑ i ∈ range N, t.massMatrix i i * U i ^ 2 = 0 := by
    rw [← eM]
    have m0 : 0 ≤ matEnergy N t.massMatrix U := by rw [eM]; exact Finset.sum_nonneg nn
    have h1 := mul_nonneg hb0 eC
    have h2 := mul_nonneg hc0 eK
    have h3 := mul_nonneg ha.le m0
    have : a * matEnergy N t.massMatrix U = 0 := by linarith
    exact (mul_eq_zero.1 this).resolve_left ha.ne'
  intro i hi
  have := (Finset.sum_eq_zero_iff_of_nonneg nn).1 z i (Finset.mem_range.2 hi)
  obtain ⟨d, hd, rfl⟩ := t.exists_dof i hi
  rw [d1 d hd] at this
  exact pow_eq_zero_iff (two_ne_zero) |>.1 ((mul_eq_zero.1 this).resolve_left (pos d hd).ne')

end

example : exampleTrain.Sprung := by
  constructor
  · intro c hc
    simp only [exampleTrain, List.mem_singleton] at hc
    subst hc
    exact ⟨by norm_num, by simp, (0, 10), by simp, (1, -10), by simp, by norm_num⟩
  · intro b _
    exact ⟨by norm_num [exampleTrain], by simp [exampleTrain], (1, 5 / 4), by simp [exampleTrain], (1, -5 / 4),
      by simp [exampleTrain], by norm_num⟩

/-- A cart whose two bogies stand 1 m and 7 m to one side of its centre. -/
def lopsidedTrain (k kp mc jc mb mw : ℚ) : Train ℚ where
  carts := [⟨mc, jc, k, 0, [(0, 1), (1, 7)], []⟩]
  bogie := fun _ => ⟨mb, 1, kp, 0, [(mw, -1), (mw, 1)], []⟩

theorem lopsided_sprung (k kp mc jc mb mw : ℚ) (hk : 0 < k) (hp : 0 < kp) :
    (lopsidedTrain k kp mc jc mb mw).FactorsFit ∧ (lopsidedTrain k kp mc jc mb mw).Sprung := by
  refine ⟨⟨fun c hc => ?_, fun b _ => Or.inl rfl⟩, ⟨fun c hc => ?_, fun b _ => ?_⟩⟩
  · simp only [lopsidedTrain, List.mem_singleton] at hc
    subst hc
    exact Or.inl rfl
  · simp only [lopsidedTrain, List.mem_singleton] at hc
    subst hc
    exact ⟨hk, by simp, (0, 1), by simp, (1, 7), by simp, by norm_num⟩
  · exact ⟨hp, by simp [lopsidedTrain], (mw, -1), by simp [lopsidedTrain], (mw, 1), by simp [lopsidedTrain], by norm_num⟩

/-- The dofs of `lopsidedTrain`. -/
theorem lopsided_dofs (k kp mc jc mb mw : ℚ) (d : TrainDof) (h : (lopsidedTrain k kp mc jc mb mw).HasDof d) :
    d ∈ [TrainDof.cartY 0, .cartRot 0, .bogieY 0, .bogieRot 0, .wheelY 0 0, .wheelY 0 1, .bogieY 1, .bogieRot 1, .wheelY 1 0, .wheelY 1 1] := by
  have hb : ∀ b, b ∈ (lopsidedTrain k kp mc jc mb mw).bogies → b = 0 ∨ b = 1 := by
    intro b hb
    have : (lopsidedTrain k kp mc jc mb mw).bogies = [0, 1] := by
      simp only [Train.bogies, lopsidedTrain, List.flatMap_cons, List.flatMap_nil, List.map_cons, List.map_nil]
      decide +kernel
    rw [this] at hb
    simpa using hb
  cases d with
  | cartY i => have : i < 1 := h; interval_cases i; simp
  | cartRot i => have : i < 1 := h; interval_cases i; simp
  | bogieY b => rcases hb b h with rfl | rfl <;> simp
  | bogieRot b => rcases hb b h with rfl | rfl <;> simp
  | wheelY b j =>
    have hj : j < 2 := h.2
    rcases hb b h.1 with rfl | rfl <;> interval_cases j <;> simp

/-- **C123 is violated, position of rest** Two bogies to one side of the cart, all springs positive: with the wheels on the ground and no
force on the bodies the train rests in two (hence in infinitely many) positions, because the matrix lacks the coupling
of height and rotation of the cart. -/
theorem C123_rest_violated : ∃ t : Train ℚ, t.FactorsFit ∧ t.Sprung ∧
    ¬ ∃ u, t.RestsOn (fun _ => 0) (fun _ _ => 0) u ∧
      ∀ u', t.RestsOn (fun _ => 0) (fun _ _ => 0) u' → ∀ d, t.HasDof d → u' (t.dof d) = u (t.dof d) := by
  obtain ⟨h1, h2⟩ := lopsided_sprung 5 2 1 1 1 1 (by norm_num) (by norm_num)
  refine ⟨_, h1, h2, ?_⟩
  rintro ⟨u, -, hu⟩
  have hd : (lopsidedTrain 5 2 1 1 1 1).HasDof (.cartRot 0) := by
    show 0 < 1
    norm_num
  have rest : ∀ x : ℚ, (lopsidedTrain 5 2 1 1 1 1).RestsOn (fun _ => 0) (fun _ _ => 0)
      (fun a => [-5, 1, -10 / 3, 0, 0, 0, -20 / 3, 0, 0, 0].getD a 0 * x) := by
    intro x
    have lin : ∀ (v : ℕ → ℚ) (a : ℕ), matForce (lopsidedTrain 5 2 1 1 1 1).numbering.next (lopsidedTrain 5 2 1 1 1 1).stiffness
        (fun b => v b * x) a =
        matForce (lopsidedTrain 5 2 1 1 1 1).numbering.next (lopsidedTrain 5 2 1 1 1 1).stiffness v a * x := by
      intro v a
      unfold matForce
      rw [Finset.sum_mul]
      exact Finset.sum_congr rfl fun b _ => by ring
    refine ⟨?_, ?_⟩
    · intro b j h
      have := lopsided_dofs 5 2 1 1 1 1 _ h
      simp only [List.mem_cons, List.not_mem_nil, or_false, reduceCtorEq, false_or, TrainDof.wheelY.injEq] at this
      show _ * x = 0
      apply mul_eq_zero_of_left
      rcases this with ⟨rfl, rfl⟩ | ⟨rfl, rfl⟩ | ⟨rfl, rfl⟩ | ⟨rfl, rfl⟩ <;> decide +kernel
    · intro d h hw
      have := lopsided_dofs 5 2 1 1 1 1 _ h
      rw [lin]
      apply mul_eq_zero_of_left
      simp only [List.mem_cons, List.not_mem_nil, or_false] at this
      rcases this with rfl | rfl | rfl | rfl | rfl | rfl | rfl | rfl | rfl | rfl
      all_goals first | exact absurd rfl (hw _ _) | decide +kernel
  have e0 := hu _ (rest 0) _ hd
  have e1 := hu _ (rest 1) _ hd
  rw [← e1] at e0
  revert e0
  decide +kernel

/-- **C123 is violated, time steps** The same for a time step with positive masses: the matrix `M + K` of this train is singular. -/
theorem C123_steps_violated : ∃ t : Train ℚ, t.FactorsFit ∧ t.Sprung ∧
    (∀ c ∈ t.carts, 0 < c.mass ∧ 0 < c.inertia ∧ 0 ≤ c.damping) ∧
    (∀ b ∈ t.bogies, 0 < (t.bogie b).mass ∧ 0 < (t.bogie b).inertia ∧ 0 ≤ (t.bogie b).damping ∧
      ∀ w ∈ (t.bogie b).wheels, 0 < w.1) ∧
    ¬ Spec.UniquelySolvable t.numbering.next fun i j => 1 * t.massMatrix i j + 0 * t.damping i j + 1 * t.stiffness i j := by
  obtain ⟨h1, h2⟩ := lopsided_sprung 12 2 8 56 4 2 (by norm_num) (by norm_num)
  refine ⟨_, h1, h2, ?_, ?_, ?_⟩
  · intro c hc
    simp only [lopsidedTrain, List.mem_singleton] at hc
    subst hc
    norm_num
  · intro b _
    refine ⟨by norm_num [lopsidedTrain], by norm_num [lopsidedTrain], by norm_num [lopsidedTrain], ?_⟩
    intro w hw
    simp only [lopsidedTrain, List.mem_cons, List.not_mem_nil, or_false] at hw
    rcases hw with rfl | rfl <;> norm_num
  · intro h
    obtain ⟨U, -, hU⟩ := h fun _ => 0
    have hN : (lopsidedTrain 12 2 8 56 4 2).numbering.next = 10 := by decide +kernel
    have s1 := hU (fun a => [-4, 1, -10 / 3, 0, -5 / 3, -5 / 3, -22 / 3, 0, -11 / 3, -11 / 3].getD a 0) (by
      intro i hi
      rw [hN] at hi
      interval_cases i <;> decide +kernel) 1 (by rw [hN]; norm_num)
    have s0 := hU (fun _ => 0) (by intro i _; simp) 1 (by rw [hN]; norm_num)
    rw [← s0] at s1
    revert s1
    decide +kernel

end Rose
