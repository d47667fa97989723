/-
Exactly when C03 and C16 hold.
-/
import Verif.Props.Geometry
import Verif.Props.Rotation

set_option linter.unusedSectionVars false

namespace Rose
open Spec
variable {K : Type*} [Field K] [LinearOrder K] [IsStrictOrderedRing K]

/-! ### C03: elements on the same nodes -/

/-- **C03, exact.** For elements whose nodes are told apart by their hashes: after adding elements no two mesh elements connect the same nodes
exactly if all added elements that connect the same nodes list them in the same order. -/
theorem C03_iff {H : Type*} [DecidableEq H] (hash : (Fin 3 → K) → H) (s0 : ℕ → ElemObj K) (calls : List (List ℕ))
    (hinj : ∀ a ∈ calls.flatten, ∀ b ∈ calls.flatten, ∀ p ∈ (s0 a).nodes, ∀ q ∈ (s0 b).nodes, hash p = hash q → p = q) :
    let fin := calls.foldl (addUniqueElements hash) (s0, [])
    (fin.2.Pairwise fun m n => m ≠ n ∧ ¬ SameEnds (fin.1 m).nodes (fin.1 n).nodes) ↔
      ∀ a ∈ calls.flatten, ∀ b ∈ calls.flatten, SameEnds (s0 a).nodes (s0 b).nodes → (s0 a).nodes = (s0 b).nodes := by
  have L := elemLaws (K := K) hash
  intro fin
  have hinv := dict_inv L s0 calls
  obtain ⟨-, hmem, hpos⟩ := C03_represented hash s0 calls
  have eqn : ∀ l m : List (Fin 3 → K), (∀ p ∈ l, ∀ q ∈ m, hash p = hash q → p = q) → l.map hash = m.map hash → l = m := by
    intro l
    induction l with
    | nil =>
      intro m _ h
      cases m with
      | nil => rfl
      | cons q m => simp at h
    | cons p l ih =>
      intro m hi h
      cases m with
      | nil => simp at h
      | cons q m =>
        simp only [List.map_cons, List.cons.injEq] at h
        rw [hi p (by simp) q (by simp) h.1, ih m (fun p hp q hq => hi p (by simp [hp]) q (by simp [hq])) h.2]
  have rep : ∀ a ∈ calls.flatten, ∃ m ∈ fin.2, (s0 m).nodes = (s0 a).nodes := by
    intro a ha
    obtain ⟨m, hm⟩ := hinv.found a ha
    have hm1 : m ∈ fin.2 := List.mem_of_find?_eq_some hm
    have hm2 := List.find?_some hm
    exact ⟨m, hm1, eqn _ _ (hinj m (hmem m hm1) a ha) ((sameElem_iff _ _ _).mp hm2).2⟩
  constructor
  · intro h a ha b hb hab
    obtain ⟨m, hm, em⟩ := rep a ha
    obtain ⟨n, hn, en⟩ := rep b hb
    rw [← em, ← en] at hab ⊢
    by_cases e : m = n
    · rw [e]
    · exfalso
      have : Std.Symm fun m n => m ≠ n ∧ ¬ SameEnds (fin.1 m).nodes (fin.1 n).nodes :=
        ⟨fun _ _ h => ⟨h.1.symm, fun h3 => h.2 ⟨h3.2, h3.1⟩⟩⟩
      exact (List.Pairwise.forall h hm hn e).2 (by rw [hpos, hpos]; exact hab)
  · intro h
    exact C03_no_duplicates_partial hash s0 calls fun a ha b hb hab => by rw [h a ha b hb hab]

/-- Elements whose nodes are told apart by their hashes: two in the same order are merged, one in the reverse order is not. -/
example : (∀ a ∈ [[0], [1, 2]].flatten, ∀ b ∈ [[0], [1, 2]].flatten, ∀ p ∈ (exampleElems a).nodes, ∀ q ∈ (exampleElems b).nodes,
      roundedCoords p = roundedCoords q → p = q) ∧
    ([[0], [1]].foldl (addUniqueElements roundedCoords) (exampleElems, [])).2 = [0] ∧
    ([[0], [1, 2]].foldl (addUniqueElements roundedCoords) (exampleElems, [])).2 = [0, 2] := by
  refine ⟨by decide +kernel, by decide +kernel, by decide +kernel⟩

/-! ### C16: element forces -/

theorem toLocal_axial (c s : K) (u : Fin 6 → K) : toLocal c s u 0 = c * u 0 + s * u 1 ∧ toLocal c s u 3 = c * u 3 + s * u 4 := by
  constructor <;> simp [toLocal]

/-- The axial force of a part whose elements are bars in their own direction, as rods and beams are. -/
theorem axial_force {k : Matrix (Fin 6) (Fin 6) K} {a : K} (h0 : k 0 = ![a, 0, 0, -a, 0, 0]) (h3 : k 3 = ![-a, 0, 0, a, 0, 0])
    {mask : Fin 3 → Bool} (hm : mask 0 = true) (c s : K) (u : Fin 6 → K) :
    trueElementForce k mask c s u 0 = a * (c * (u 0 - u 3) + s * (u 1 - u 4)) := by
  obtain ⟨e0, e3⟩ := toLocal_axial c s u
  have h0' : k ⟨((0 : Fin 3) : ℕ), by decide⟩ = ![a, 0, 0, -a, 0, 0] := h0
  have h3' : k ⟨((0 : Fin 3) : ℕ) + 3, by decide⟩ = ![-a, 0, 0, a, 0, 0] := h3
  simp only [trueElementForce, hm, if_true, h0', h3', Fin.sum_univ_six]
  have e3' : toLocal c s u 3 = c * u 3 + s * u 4 := e3
  simp [e0, e3']
  ring

/-- **C16, exact for one element.** In a part of rods or beams whose last element has direction `(c, s)`, the reported forces of an element with
direction `d` are those in its own direction, for all displacements, exactly if `d = (c, -s)`. -/
theorem C16_element_iff (p : ElementPartForces K) {a : K} (ha : a ≠ 0) (h0 : p.stiffness 0 = ![a, 0, 0, -a, 0, 0])
    (h3 : p.stiffness 3 = ![-a, 0, 0, a, 0, 0]) (hm : p.mask 0 = true) {c s : K} (hd : p.dirs.getLast? = some (c, s)) (hcs : c ^ 2 + s ^ 2 = 1)
    (d : K × K) : (∀ u, elementForce p u = trueElementForce p.stiffness p.mask d.1 d.2 u) ↔ d = (c, -s) := by
  constructor
  · intro h
    have hx := congrFun (h ![1, 0, 0, 0, 0, 0]) 0
    have hy := congrFun (h ![0, 1, 0, 0, 0, 0]) 0
    rw [C16_reported p hd hcs, axial_force h0 h3 hm, axial_force h0 h3 hm] at hx hy
    have hx := mul_left_cancel₀ ha hx
    have hy := mul_left_cancel₀ ha hy
    simp at hx hy
    exact Prod.ext hx.symm hy.symm
  · rintro rfl u
    exact C16_reported p hd hcs u

/-- **C16, exact.** In a part of rods or beams the reported forces of all elements are those in their own directions, for all displacements, exactly
if all elements lie along the global x axis and point the same way. -/
theorem C16_iff (p : ElementPartForces K) {a : K} (ha : a ≠ 0) (h0 : p.stiffness 0 = ![a, 0, 0, -a, 0, 0])
    (h3 : p.stiffness 3 = ![-a, 0, 0, a, 0, 0]) (hm : p.mask 0 = true) (hunit : ∀ d ∈ p.dirs, d.1 ^ 2 + d.2 ^ 2 = 1) :
    (∀ d ∈ p.dirs, ∀ u, elementForce p u = trueElementForce p.stiffness p.mask d.1 d.2 u) ↔
      (∀ d ∈ p.dirs, d = (1, 0)) ∨ ∀ d ∈ p.dirs, d = (-1, 0) := by
  rcases hlast : p.dirs.getLast? with _ | ⟨c, s⟩
  · rw [List.getLast?_eq_none_iff] at hlast
    simp [hlast]
  · have hl := List.mem_of_getLast? hlast
    have hcs : c ^ 2 + s ^ 2 = 1 := hunit _ hl
    have key : ∀ d, (∀ u, elementForce p u = trueElementForce p.stiffness p.mask d.1 d.2 u) ↔ d = (c, -s) :=
      C16_element_iff p ha h0 h3 hm hlast hcs
    simp only [key]
    constructor
    · intro h
      have h1 := (Prod.ext_iff.mp (h _ hl)).2
      have hs : s = 0 := by
        simp only at h1
        linarith
      subst hs
      have hc : (c - 1) * (c + 1) = 0 := by linear_combination hcs
      rcases mul_eq_zero.mp hc with hc | hc
      · left
        intro d hd
        rw [h d hd, neg_zero, show c = 1 by linear_combination hc]
      · right
        intro d hd
        rw [h d hd, neg_zero, show c = -1 by linear_combination hc]
    · rintro (h | h) d hd
      · have := h _ hl
        simp only [Prod.mk.injEq] at this
        rw [h d hd, this.1, this.2, neg_zero]
      · have := h _ hl
        simp only [Prod.mk.injEq] at this
        rw [h d hd, this.1, this.2, neg_zero]

/-- Rods and beams are bars in their own direction. -/
theorem rod_axial (k : K) : rodEmbed (rodStiffness k) 0 = ![k, 0, 0, -k, 0, 0] ∧ rodEmbed (rodStiffness k) 3 = ![-k, 0, 0, k, 0, 0] := by
  rw [rodStiffness_eq, rodEmbed_eq]
  exact ⟨rfl, rfl⟩

theorem beam_axial (E A I phi l a1 a2 : K) : ∃ a, a = E * I / ((1 + phi) * l ^ 3) * (A / I * (1 + phi) * l ^ 2) ∧
    beamStiffness E A I phi l a1 a2 0 = ![a, 0, 0, -a, 0, 0] ∧ beamStiffness E A I phi l a1 a2 3 = ![-a, 0, 0, a, 0, 0] := by
  refine ⟨_, rfl, ?_, ?_⟩ <;> rw [beamStiffness_eq] <;> ext j <;> fin_cases j <;> simp

/-- Two horizontal rods that point the same way are reported correctly, and the corner of `cornerRod` is not. -/
example : (∀ d ∈ [((1 : ℚ), (0 : ℚ)), (1, 0)], ∀ u, elementForce { cornerRod with dirs := [(1, 0), (1, 0)] } u =
      trueElementForce cornerRod.stiffness cornerRod.mask d.1 d.2 u) ∧
    ¬ ∀ d ∈ cornerRod.dirs, ∀ u, elementForce cornerRod u = trueElementForce cornerRod.stiffness cornerRod.mask d.1 d.2 u := by
  constructor
  · exact (C16_iff ({ cornerRod with dirs := [(1, 0), (1, 0)] } : ElementPartForces ℚ) (a := 10) (by norm_num) (rod_axial 10).1 (rod_axial 10).2 rfl
      (by simp)).mpr (Or.inl (by simp))
  · rw [C16_iff cornerRod (a := 10) (by norm_num) (rod_axial 10).1 (rod_axial 10).2 rfl (by simp [cornerRod])]
    simp [cornerRod]

end Rose
