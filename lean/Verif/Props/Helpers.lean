/-
C177: what the helper functions for rotated forces and for loads over time return.
-/
import Verif.Model.Helpers
import Mathlib.Analysis.SpecialFunctions.Trigonometric.Arctan

set_option linter.unusedSectionVars false

namespace Rose

/-- **C177** `rotate_force_vector` returns a result exactly for elements that have not two nodes, and then the force unchanged. -/
theorem C177_rotate_iff (nodes : List (ℝ × ℝ × ℝ)) (force result : ℝ × ℝ × ℝ) :
    rotateForceVector nodes force = .ok result ↔ nodes.length ≠ 2 ∧ result = force := by
  rcases nodes with _ | ⟨a, _ | ⟨b, _ | ⟨c, l⟩⟩⟩
  · simp [rotateForceVector, eq_comm]
  · simp [rotateForceVector, eq_comm]
  · simp [rotateForceVector, rotationsBetween, bind, Except.bind]
  · simp [rotateForceVector, eq_comm]

/-- **C177** So no element of two nodes, whatever its direction, gets its force in the axes of the element. -/
theorem C177_rotate_violated (a b force : ℝ × ℝ × ℝ) : ¬ ∃ rot, rotateForceVector [a, b] force = .ok (rotatePoint rot force) := by
  rintro ⟨rot, h⟩
  exact ((C177_rotate_iff _ _ _).mp h).1 rfl

/-- **C177** Two arrays of coordinates have rotations exactly if they have the same number of rows, then one for each pair of points, that of C25. -/
theorem C177_rows (p q : List (ℝ × ℝ)) (rows : List ℝ) : rotationsBetween (.coordinates p) (.coordinates q) = .ok rows ↔
    p.length = q.length ∧ rows.length = p.length ∧
      ∀ i (h1 : i < p.length) (h2 : i < q.length), rows[i]? = some (calculateRotation p[i].1 p[i].2 q[i].1 q[i].2) := by
  unfold rotationsBetween
  by_cases h : p.length = q.length
  · simp only [h, if_true, true_and]
    constructor
    · intro e
      injection e with e
      subst e
      refine ⟨by simp [h], fun i h1 h2 => ?_⟩
      rw [List.getElem?_eq_getElem (by simp [h, h2])]
      simp
    · rintro ⟨e1, e2⟩
      congr 1
      refine List.ext_getElem (by simp [h, e1]) fun i h1 h2 => ?_
      have := e2 i (by omega) (by omega)
      rw [List.getElem?_eq_getElem h2] at this
      simp only [Option.some.injEq] at this
      rw [this]
      simp
  · simp [h]

/-- A point and its neighbour to the right. -/
example : ∃ rows, rotationsBetween (.coordinates [(0, 0), (1, 0)]) (.coordinates [(1, 0), (2, 1)]) = .ok rows ∧ rows.length = 2 :=
  ⟨_, (C177_rows _ _ [calculateRotation 0 0 1 0, calculateRotation 1 0 2 1]).mpr ⟨rfl, rfl, fun i h1 h2 => by
    have : i = 0 ∨ i = 1 := by simp at h1; omega
    rcases this with rfl | rfl <;> rfl⟩, rfl⟩

variable {K : Type*} [Field K] [LinearOrder K] [IsStrictOrderedRing K]

theorem loadRamp_length {n m b : ℕ} {load : K} {l : List K} (h : loadRamp n m b load = .ok l) : l.length = n := by
  unfold loadRamp at h
  simp only at h
  split_ifs at h with h1
  · injection h with h
    subst h
    simp only [List.length_append, List.length_drop, List.length_replicate]
    omega
  · cases hv : linspaceFromZero load m with
    | nil => rw [hv] at h; cases h
    | cons v t =>
      cases t with
      | nil =>
        rw [hv] at h
        injection h with h
        subst h
        simp only [List.length_append, List.length_drop, List.length_replicate]
        omega
      | cons => rw [hv] at h; cases h

/-- **C177** The load over time of the mesh utilities fails for every time array that does not have exactly two entries. -/
theorem C177_load_violated (n : ℕ) (hn : n ≠ 2) (load : K) (build : ℕ) (locations : List K) (lo hi : K) :
    ∃ e, meshLoadVector n load build locations lo hi = .error e := by
  unfold meshLoadVector
  cases hr : loadRamp n build build load with
  | error e => exact ⟨e, rfl⟩
  | ok ramp =>
    have hl := loadRamp_length hr
    simp only [bind, Except.bind]
    split_ifs with h
    · have hz : (List.zipWith (filterData lo hi) locations ramp).length = n := by simp [h, hl]
      generalize List.zipWith (filterData lo hi) locations ramp = z at hz
      rcases z with _ | ⟨a, _ | ⟨b, _ | ⟨c, l⟩⟩⟩
      · exact ⟨_, rfl⟩
      · exact ⟨_, rfl⟩
      · simp at hz; omega
      · exact ⟨_, rfl⟩
    · exact ⟨_, rfl⟩

/-- **C177** For two times without build-up it returns the two filtered loads, where the caller expects all loads and their positions. -/
theorem C177_load_two (load x y lo hi : K) :
    meshLoadVector 2 load 0 [x, y] lo hi = .ok (if lo ≤ x ∧ x ≤ hi then load else 0, if lo ≤ y ∧ y ≤ hi then load else 0) := by
  have key : ∀ x : K, filterData lo hi x load = if lo ≤ x ∧ x ≤ hi then load else 0 := by
    intro x
    unfold filterData
    by_cases h1 : x > hi
    · have : ¬ (lo ≤ x ∧ x ≤ hi) := fun h => absurd h.2 (not_le.mpr h1)
      simp [h1, this]
    · by_cases h2 : x < lo
      · have : ¬ (lo ≤ x ∧ x ≤ hi) := fun h => absurd h.1 (not_le.mpr h2)
        simp [h2, this]
      · simp [h1, h2, not_lt.mp h1, not_lt.mp h2]
  simp [meshLoadVector, loadRamp, linspaceFromZero, List.replicate, bind, Except.bind, key]

/-- A ramp of three steps over ten times along a track of 6 m. -/
example : ∃ e, meshLoadVector (K := ℚ) 10 (-1000) 3 ((List.range 10).map fun i : ℕ => (i : ℚ)) 0 6 = .error e :=
  C177_load_violated 10 (by norm_num) _ _ _ _ _

end Rose
