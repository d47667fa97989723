/-
C28-C33: moving loads.
-/
import Verif.Model.MovingLoad
import Verif.Props.System
import Mathlib.Tactic.Ring
import Mathlib.Tactic.FieldSimp
import Mathlib.Tactic.LinearCombination
import Mathlib.Data.List.Induction

set_option linter.unusedSectionVars false

namespace Rose

variable {K : Type*} [Field K] [LinearOrder K] [IsStrictOrderedRing K]

/-! ### C28 -/

theorem runningSums_getD (a : K) (ds : List K) (k : ℕ) (hk : k ≤ ds.length) :
    (runningSums a ds).getD k 0 = a + ∑ i ∈ Finset.range k, ds.getD i 0 := by
  induction ds generalizing a k with
  | nil => have : k = 0 := by simpa using hk
           subst this; simp [runningSums]
  | cons d ds ih =>
    cases k with
    | zero => simp [runningSums]
    | succ k =>
      simp only [runningSums, List.getD_cons_succ]
      rw [ih _ _ (by simpa using hk), Finset.sum_range_succ' _ k]
      simp only [List.getD_cons_succ, List.getD_cons_zero]
      ring

theorem runningSums_length (a : K) (ds : List K) : (runningSums a ds).length = ds.length + 1 := by
  induction ds generalizing a with
  | nil => rfl
  | cons d ds ih => simp [runningSums, ih]

theorem steps_getD (time vel : List K) (h : time.length = vel.length) (i : ℕ) (hi : i + 1 < time.length) :
    (List.zipWith (· * ·) (npDiff time) vel.dropLast).getD i 0 =
      vel.getD i 0 * (time.getD (i + 1) 0 - time.getD i 0) := by
  have h1 : i < (npDiff time).length := by rw [npDiff_length]; omega
  have h2 : i < vel.dropLast.length := by rw [List.length_dropLast]; omega
  rw [List.getD_eq_getElem _ _ (by rw [List.length_zipWith]; omega), List.getElem_zipWith,
    ← npDiff_getD time i hi, List.getD_eq_getElem _ _ h1, List.getD_eq_getElem _ _ (by omega : i < vel.length),
    List.getElem_dropLast, mul_comm]

/-- C28: the position at time index `k` is the start distance plus the sum over earlier steps of velocity times step
length; a different number of velocities and times is rejected. -/
theorem C28_integral (time vel : List K) (start : Option K) :
    (time.length = vel.length → time ≠ [] → ∃ dist, movingLoadDistances time vel start = .ok dist ∧
      dist.length = time.length ∧
      ∀ k < time.length, dist.getD k 0 =
        start.getD 0 + ∑ i ∈ Finset.range k, vel.getD i 0 * (time.getD (i + 1) 0 - time.getD i 0)) ∧
    (time.length ≠ vel.length → movingLoadDistances time vel start = .error .valueError) := by
  constructor
  · intro h hne
    have hpos : 0 < time.length := List.length_pos_of_ne_nil hne
    have hlen : (List.zipWith (· * ·) (npDiff time) vel.dropLast).length = time.length - 1 := by
      rw [List.length_zipWith, npDiff_length, List.length_dropLast]; omega
    refine ⟨(runningSums 0 (List.zipWith (· * ·) (npDiff time) vel.dropLast)).map (· + start.getD 0), ?_, ?_, ?_⟩
    · simp [movingLoadDistances, cumDistanceFromVelocity, h, Except.map]
    · rw [List.length_map, runningSums_length, hlen]; omega
    · intro k hk
      have hk' : k < (runningSums 0 (List.zipWith (· * ·) (npDiff time) vel.dropLast)).length := by
        rw [runningSums_length, hlen]; omega
      rw [List.getD_eq_getElem _ _ (by rw [List.length_map]; exact hk'), List.getElem_map,
        ← List.getD_eq_getElem _ 0 hk', runningSums_getD _ _ _ (by rw [hlen]; omega), zero_add, add_comm]
      congr 1
      apply Finset.sum_congr rfl
      intro i hi
      rw [Finset.mem_range] at hi
      exact steps_getD time vel h i (by omega)
  · intro h
    simp [movingLoadDistances, cumDistanceFromVelocity, h, Except.map]

/-- C28: for non-negative velocities and increasing times the position never decreases; it stays put over steps with
zero velocity. -/
theorem C28_monotone (time vel dist : List K) (start : Option K) (h : movingLoadDistances time vel start = .ok dist)
    (hne : time ≠ []) (k : ℕ) (hk : k + 1 < time.length) :
    (0 ≤ vel.getD k 0 → time.getD k 0 ≤ time.getD (k + 1) 0 → dist.getD k 0 ≤ dist.getD (k + 1) 0) ∧
    (vel.getD k 0 = 0 → dist.getD (k + 1) 0 = dist.getD k 0) := by
  have hl : time.length = vel.length := by
    by_contra hc
    rw [(C28_integral time vel start).2 hc] at h
    exact absurd h (by simp)
  obtain ⟨d, hd, _, hs⟩ := (C28_integral time vel start).1 hl hne
  rw [h] at hd
  injection hd with hd
  subst hd
  rw [hs k (by omega), hs (k + 1) hk, Finset.sum_range_succ]
  constructor
  · intro hv ht
    have := mul_nonneg hv (sub_nonneg.2 ht)
    linarith
  · intro hv; rw [hv]; ring

example : movingLoadDistances [0, 1, 3, (4 : ℚ)] [2, 2, 5, 7] (some 10) = .ok [10, 12, 16, 21] := by
  simp [movingLoadDistances, cumDistanceFromVelocity, npDiff, runningSums, Except.map]; norm_num

/-! ### C29 -/

/-- C29: off the track the force is zero and the position is the track end; on the track both are unchanged. -/
theorem C29_off_track (nodes forces dists : List K) (hlen : forces.length = dists.length)
    (hord : nodes.headD 0 ≤ nodes.getLastD 0) (k : ℕ) (hk : k < dists.length) :
    let x := dists.getD k 0
    let out := filterLoad nodes forces dists
    (x < nodes.headD 0 → out.1.getD k 0 = 0 ∧ out.2.getD k 0 = nodes.headD 0) ∧
    (nodes.getLastD 0 < x → out.1.getD k 0 = 0 ∧ out.2.getD k 0 = nodes.getLastD 0) ∧
    (nodes.headD 0 ≤ x → x ≤ nodes.getLastD 0 → out.1.getD k 0 = forces.getD k 0 ∧ out.2.getD k 0 = x) := by
  intro x out
  have h1 : out.1.getD k 0 = filterData (nodes.headD 0) (nodes.getLastD 0) x (forces.getD k 0) := by
    simp only [out, x, filterLoad]
    rw [List.getD_eq_getElem _ _ (by rw [List.length_zipWith]; omega), List.getElem_zipWith,
      List.getD_eq_getElem _ _ hk, List.getD_eq_getElem _ _ (by omega)]
  have h2 : out.2.getD k 0 = filterLocation (nodes.headD 0) (nodes.getLastD 0) x := by
    simp only [out, x, filterLoad]
    rw [List.getD_eq_getElem _ _ (by rw [List.length_map]; omega), List.getElem_map, List.getD_eq_getElem _ _ hk]
  rw [h1, h2]
  generalize nodes.headD 0 = lo at *
  generalize nodes.getLastD 0 = hi at *
  clear_value x
  refine ⟨?_, ?_, ?_⟩
  · intro h
    have : ¬ x > hi := by have := lt_of_lt_of_le h hord; exact not_lt.2 this.le
    simp [filterData, filterLocation, h, this]
  · intro h
    have h3 : ¬ hi < lo := not_lt.2 hord
    have h4 : ¬ x < lo := not_lt.2 (hord.trans h.le)
    simp [filterData, filterLocation, h, h3, h4]
  · intro ha hb
    simp [filterData, filterLocation, not_lt.2 ha, not_lt.2 hb]

example : filterLoad [0, 1, (2 : ℚ)] [5, 5, 5, 5] [-1, 0, 2, 3] = ([0, 5, 5, 0], [0, 0, 2, 2]) := by decide +kernel

/-! ### C30 -/

/-- Specification: element `i` of a track with cumulative node distances `nodes` encloses the position `x`. -/
def Encloses (nodes : List K) (i : ℕ) (x : K) : Prop :=
  i + 1 < nodes.length ∧ nodes.getD i 0 ≤ x ∧ x ≤ nodes.getD (i + 1) 0

/-- Specification: node distances increase along the track. -/
def Increasing (nodes : List K) : Prop := ∀ i j, i < j → j < nodes.length → nodes.getD i 0 < nodes.getD j 0

theorem argminFrom_some (b : K) (bi i : ℕ) (vs : List K) (h : ∀ v ∈ vs, b < v) :
    argminFrom (some b) bi i (vs.map some) = bi := by
  induction vs generalizing i with
  | nil => rfl
  | cons v vs ih =>
    simp only [List.map_cons, argminFrom]
    rw [if_neg (not_lt.2 (h v (by simp)).le)]
    exact ih _ (fun w hw => h w (by simp [hw]))

theorem argminFrom_none (bi i : ℕ) (n : ℕ) (vs : List (Option K)) :
    argminFrom none bi i (List.replicate n none ++ vs) = argminFrom none bi (i + n) vs := by
  induction n generalizing i with
  | zero => rfl
  | succ n ih =>
    rw [List.replicate_succ, List.cons_append]
    simp only [argminFrom]
    rw [ih]
    congr 1; omega

/-- The start element encloses a start position on the track before its last node. -/
theorem firstElementIdx_spec (nodes : List K) (hinc : Increasing nodes) (x0 : K) (h0 : nodes.getD 0 0 ≤ x0)
    (h1 : x0 < nodes.getD (nodes.length - 1) 0) (hlen : 2 ≤ nodes.length) :
    ∃ i : ℕ, firstElementIdx nodes x0 = i ∧ i + 1 < nodes.length ∧ nodes.getD i 0 ≤ x0 ∧ x0 < nodes.getD (i + 1) 0 := by
  classical
  have hex : ∃ m, m < nodes.length ∧ x0 < nodes.getD m 0 := ⟨nodes.length - 1, by omega, h1⟩
  obtain ⟨hm, hx⟩ := Nat.find_spec hex
  have hmin := fun k => Nat.find_min hex (m := k)
  set m := Nat.find hex with hmdef
  have hm0 : m ≠ 0 := by
    intro h; rw [h] at hx; exact absurd hx (not_lt.2 h0)
  have hlow : nodes.getD (m - 1) 0 ≤ x0 := by
    by_contra hc
    exact hmin (m - 1) (by omega) ⟨by omega, not_le.1 hc⟩
  refine ⟨m - 1, ?_, by omega, hlow, by rw [show m - 1 + 1 = m by omega]; exact hx⟩
  have hsplit : nodes.map (fun s => if s - x0 > 0 then some (s - x0) else none) =
      List.replicate m none ++ (some (nodes.getD m 0 - x0) :: ((nodes.drop (m + 1)).map fun s => s - x0).map some) := by
    apply List.ext_getElem
    · simp; omega
    · intro k hk1 hk2
      rw [List.getElem_map]
      simp only [List.length_map] at hk1
      rcases lt_trichotomy k m with h | h | h
      · rw [List.getElem_append_left (by simpa using h), List.getElem_replicate]
        have : ¬ (nodes[k] - x0 > 0) := by
          intro hc
          exact hmin k h ⟨hk1, by rw [List.getD_eq_getElem _ _ hk1]; linarith⟩
        simp [this]
      · subst h
        rw [List.getElem_append_right (by simp)]
        simp only [List.length_replicate, Nat.sub_self, List.getElem_cons_zero]
        rw [List.getD_eq_getElem _ _ hk1] at hx ⊢
        rw [if_pos (by linarith)]
      · rw [List.getElem_append_right (by simp; omega)]
        obtain ⟨j, rfl⟩ : ∃ j, k = m + 1 + j := ⟨k - (m + 1), by omega⟩
        simp only [List.length_replicate, show m + 1 + j - m = j + 1 by omega, List.getElem_cons_succ, List.getElem_map,
          List.getElem_drop]
        have := hinc m (m + 1 + j) (by omega) hk1
        rw [List.getD_eq_getElem _ _ hk1] at this
        rw [if_pos (by linarith)]
  unfold firstElementIdx
  rw [hsplit, argminFrom_none]
  simp only [argminFrom]
  rw [argminFrom_some]
  · push_cast
    rw [Nat.cast_sub (by omega)]
    simp
  · intro v hv
    rw [List.mem_map] at hv
    obtain ⟨s, hs, rfl⟩ := hv
    obtain ⟨j, hj, rfl⟩ := List.mem_iff_getElem.1 hs
    rw [List.getElem_drop]
    rw [List.length_drop] at hj
    have := hinc m (m + 1 + j) (by omega) (by omega)
    rw [List.getD_eq_getElem nodes 0 (by omega : m + 1 + j < nodes.length)] at this
    linarith

/-- Specification: between consecutive time steps the load passes at most one node: a load at or before node `j+1` is
not beyond node `j+2` one step later. (Implied by steps no longer than the shortest element.) -/
def PassesOneNode (nodes : List K) (x x' : K) : Prop :=
  ∀ j, j + 2 < nodes.length → x ≤ nodes.getD (j + 1) 0 → x' ≤ nodes.getD (j + 2) 0

theorem activePointers_length (nodes : List K) (i : ℤ) (xs : List K) : (activePointers nodes i xs).length = xs.length := by
  induction xs generalizing i with
  | nil => rfl
  | cons x xs ih => simp [activePointers, ih]

theorem activePointers_spec (nodes : List K) (xs : List K) (prev : K) (i : ℕ) (hi : i + 1 < nodes.length)
    (hlow : nodes.getD i 0 ≤ prev) (hup : prev ≤ nodes.getD (i + 1) 0 ∨ i + 2 = nodes.length)
    (hmono : (prev :: xs).Pairwise (· ≤ ·))
    (hstep : ∀ k < xs.length, PassesOneNode nodes ((prev :: xs).getD k 0) (xs.getD k 0)) :
    ∀ k < xs.length, ∃ j : ℕ, (activePointers nodes i xs).getD k 0 = j ∧ j + 1 < nodes.length ∧
      nodes.getD j 0 ≤ xs.getD k 0 ∧ (xs.getD k 0 ≤ nodes.getD (j + 1) 0 ∨ j + 2 = nodes.length) := by
  induction xs generalizing prev i with
  | nil => intro k hk; simp at hk
  | cons x xs ih =>
    rw [List.pairwise_cons] at hmono
    have hpx : prev ≤ x := hmono.1 x (by simp)
    have h0 := hstep 0 (by simp)
    simp only [List.getD_cons_zero] at h0
    -- the new pointer
    have hnew : ∃ j : ℕ, (if (i : ℤ) < (nodes.length : ℤ) - 2 ∧ x > nodes.getD ((i : ℤ) + 1).toNat 0 then (i : ℤ) + 1 else i) = (j : ℤ)
        ∧ j + 1 < nodes.length ∧ nodes.getD j 0 ≤ x ∧ (x ≤ nodes.getD (j + 1) 0 ∨ j + 2 = nodes.length) := by
      have htn : ((i : ℤ) + 1).toNat = i + 1 := by omega
      rw [htn]
      split_ifs with hc
      · refine ⟨i + 1, by push_cast; rfl, by omega, hc.2.le, ?_⟩
        rcases hup with h | h
        · by_cases h3 : i + 1 + 2 = nodes.length
          · exact Or.inr h3
          · exact Or.inl (h0 i (by omega) h)
        · omega
      · refine ⟨i, rfl, hi, hlow.trans hpx, ?_⟩
        rcases hup with h | h
        · by_cases h3 : i + 2 = nodes.length
          · exact Or.inr h3
          · left
            by_contra hx
            exact hc ⟨by omega, not_le.1 hx⟩
        · exact Or.inr h
    obtain ⟨j, hj, hj1, hj2, hj3⟩ := hnew
    intro k hk
    cases k with
    | zero =>
      refine ⟨j, ?_, hj1, by simpa using hj2, by simpa using hj3⟩
      simp only [activePointers, List.getD_cons_zero]
      exact hj
    | succ k =>
      simp only [activePointers, List.getD_cons_succ]
      rw [hj]
      refine ih x j hj1 hj2 hj3 hmono.2 ?_ k (by simpa using hk)
      intro k hk
      have := hstep (k + 1) (by simpa using hk)
      simpa using this

/-- C30 as far as it holds: for a load that starts on the track before its last node, never moves back and passes at
most one node per time step, the active element encloses the load at every time index at which the load is on the
track; once past the end, it is the last element. Missing: faster loads, reversing loads and a start at the very end
(`C30_fast_violated`, `C30_reverse_violated`, `C30_end_violated`). -/
theorem C30_encloses_partial (nodes dists : List K) (hlen : 2 ≤ nodes.length) (hinc : Increasing nodes)
    (hne : dists ≠ []) (h0 : nodes.getD 0 0 ≤ dists.getD 0 0)
    (h1 : dists.getD 0 0 < nodes.getD (nodes.length - 1) 0) (hmono : dists.Pairwise (· ≤ ·))
    (hstep : ∀ k, k + 1 < dists.length → PassesOneNode nodes (dists.getD k 0) (dists.getD (k + 1) 0)) :
    ∃ act, activeElements (nodes.length - 1) nodes dists = .ok act ∧ act.length = dists.length ∧
      ∀ k < dists.length,
        (dists.getD k 0 ≤ nodes.getD (nodes.length - 1) 0 → Encloses nodes (act.getD k 0) (dists.getD k 0)) ∧
        (nodes.getD (nodes.length - 1) 0 < dists.getD k 0 → act.getD k 0 + 2 = nodes.length) := by
  obtain ⟨x0, xs, rfl⟩ := List.exists_cons_of_ne_nil hne
  simp only [List.getD_cons_zero] at h0 h1
  obtain ⟨i, hi, hi1, hi2, hi3⟩ := firstElementIdx_spec nodes hinc x0 h0 h1 hlen
  have hspec := activePointers_spec nodes (x0 :: xs) x0 i hi1 hi2 (Or.inl hi3.le)
    (List.pairwise_cons.2 ⟨fun y hy => by
      rcases List.mem_cons.1 hy with rfl | hy
      · exact le_refl _
      · exact (List.pairwise_cons.1 hmono).1 y hy, hmono⟩)
    (by
      intro k hk
      cases k with
      | zero =>
        simp only [List.getD_cons_zero]
        intro j hj hx
        exact hx.trans (hinc (j + 1) (j + 2) (by omega) hj).le
      | succ k =>
        simp only [List.length_cons] at hk
        have := hstep k (by simpa using hk)
        simpa using this)
  set is := activePointers nodes i (x0 :: xs) with his
  have hislen : is.length = (x0 :: xs).length := activePointers_length _ _ _
  have hall : is.all (fun i => decide (0 ≤ i ∧ i < ((nodes.length - 1 : ℕ) : ℤ))) = true := by
    rw [List.all_eq_true]
    intro v hv
    obtain ⟨k, hk, rfl⟩ := List.mem_iff_getElem.1 hv
    obtain ⟨j, hj, hj1, _⟩ := hspec k (by omega)
    rw [List.getD_eq_getElem _ _ hk] at hj
    rw [hj]
    simp only [decide_eq_true_eq]
    omega
  refine ⟨is.map Int.toNat, ?_, by simp [hislen], ?_⟩
  · simp only [activeElements, hi, ← his]
    rw [if_pos hall]
  · intro k hk
    obtain ⟨j, hj, hj1, hj2, hj3⟩ := hspec k hk
    have hgetk : (is.map Int.toNat).getD k 0 = j := by
      rw [List.getD_eq_getElem _ _ (by rw [List.length_map]; omega), List.getElem_map]
      rw [List.getD_eq_getElem _ _ (by omega)] at hj
      rw [hj]; simp
    rw [hgetk]
    constructor
    · intro hle
      refine ⟨hj1, hj2, ?_⟩
      rcases hj3 with h | h
      · exact h
      · rw [show j + 1 = nodes.length - 1 by omega]; exact hle
    · intro hgt
      rcases hj3 with h | h
      · exfalso
        have : nodes.getD (j + 1) 0 ≤ nodes.getD (nodes.length - 1) 0 := by
          rcases (show j + 1 = nodes.length - 1 ∨ j + 1 < nodes.length - 1 by omega) with h' | h'
          · rw [h']
          · exact (hinc _ _ h' (by omega)).le
        linarith
      · exact h

/-- Steps no longer than the shortest element pass at most one node. -/
theorem C30_short_steps (nodes : List K) (d x x' : K)
    (hd : ∀ j, j + 1 < nodes.length → d ≤ nodes.getD (j + 1) 0 - nodes.getD j 0) (hx : x' - x ≤ d) :
    PassesOneNode nodes x x' := by
  intro j hj h
  have := hd (j + 1) (by omega)
  linarith

example : (∀ k, k + 1 < [0, 1 / 2, 1, 2, (3 : ℚ)].length →
      PassesOneNode [0, 1, 2, (3 : ℚ)] ([0, 1 / 2, 1, 2, (3 : ℚ)].getD k 0) ([0, 1 / 2, 1, 2, (3 : ℚ)].getD (k + 1) 0)) ∧
    activeElements 3 [0, 1, 2, (3 : ℚ)] [0, 1 / 2, 1, 2, 3] = .ok [0, 0, 0, 1, 2] := by
  constructor
  · intro k hk
    apply C30_short_steps _ 1
    · intro j hj
      simp at hj
      have : j ≤ 2 := by omega
      interval_cases j <;> norm_num
    · simp at hk
      have : k ≤ 3 := by omega
      interval_cases k <;> norm_num
  · decide +kernel

/-- C30 fails for a load that moves two elements per time step: at the second time index the load is at 2.5, on
element 2, but element 1 is active. -/
theorem C30_fast_violated :
    activeElements 4 [0, 1, 2, 3, (4 : ℚ)] [1 / 2, 5 / 2] = .ok [0, 1] ∧
      ¬ Encloses [0, 1, 2, 3, (4 : ℚ)] 1 (5 / 2) := by
  refine ⟨by decide +kernel, ?_⟩
  rintro ⟨_, _, h⟩
  norm_num at h

/-- C30 fails for a load that moves back: the pointer stays. -/
theorem C30_reverse_violated :
    activeElements 3 [0, 1, 2, (3 : ℚ)] [3 / 2, 1 / 2] = .ok [1, 1] ∧ ¬ Encloses [0, 1, 2, (3 : ℚ)] 1 (1 / 2) := by
  refine ⟨by decide +kernel, ?_⟩
  rintro ⟨_, h, _⟩
  norm_num at h

/-- C30 fails for a load that stands at the last node of the track: the first element is active. -/
theorem C30_end_violated :
    activeElements 3 [0, 1, 2, (3 : ℚ)] [3, 3] = .ok [0, 1] ∧ ¬ Encloses [0, 1, 2, (3 : ℚ)] 0 3 := by
  refine ⟨by decide +kernel, ?_⟩
  rintro ⟨_, _, h⟩
  norm_num at h

/-- A load that starts before the first node is not accepted: the calculation stops with an error. -/
theorem C30_before_start_rejected (n : ℕ) (nodes : List K) (x0 : K) (xs : List K) (hpos : nodes ≠ [])
    (hinc : Increasing nodes) (h : x0 < nodes.getD 0 0) :
    activeElements n nodes (x0 :: xs) = .error .valueError := by
  obtain ⟨s, ss, rfl⟩ := List.exists_cons_of_ne_nil hpos
  simp only [List.getD_cons_zero] at h
  have hf : firstElementIdx (s :: ss) x0 = -1 := by
    unfold firstElementIdx
    have hss : ∀ t ∈ ss, s < t := by
      intro t ht
      obtain ⟨k, hk, rfl⟩ := List.mem_iff_getElem.1 ht
      have := hinc 0 (k + 1) (by omega) (by simpa using hk)
      simp only [List.getD_cons_zero, List.getD_cons_succ] at this
      rwa [List.getD_eq_getElem _ _ hk] at this
    have hmap : ss.map (fun t => if t - x0 > 0 then some (t - x0) else none) = (ss.map fun t => t - x0).map some := by
      rw [List.map_map]
      apply List.map_congr_left
      intro t ht
      have := hss t ht
      simp only [Function.comp]
      rw [if_pos (by linarith)]
    rw [List.map_cons, if_pos (by linarith : s - x0 > 0), hmap]
    simp only [argminFrom]
    rw [argminFrom_some]
    · simp
    · intro v hv
      rw [List.mem_map] at hv
      obtain ⟨t, ht, rfl⟩ := hv
      have := hss t ht
      linarith
  simp only [activeElements, hf, activePointers]
  have h2 : ¬ (x0 > (s :: ss).getD ((-1 : ℤ) + 1).toNat 0) := by
    simp only [show ((-1 : ℤ) + 1).toNat = 0 by omega, List.getD_cons_zero]
    exact not_lt.2 h.le
  have h3 : (if (-1 : ℤ) < ((s :: ss).length : ℤ) - 2 ∧ x0 > (s :: ss).getD ((-1 : ℤ) + 1).toNat 0 then (-1 : ℤ) + 1
      else -1) = -1 := if_neg (fun hc => h2 hc.2)
  rw [h3]
  rfl

/-! Nodes and local distance of the contact element. -/

theorem distinct_foldl (l : List ℕ) : ∀ acc : List ℕ, l.Pairwise (· ≤ ·) → acc.Pairwise (· < ·) →
    (∀ a ∈ acc, ∀ b ∈ l, a ≤ b) →
    (l.foldl (fun acc e => if e ∈ acc then acc else acc ++ [e]) acc).Pairwise (· < ·) ∧
    acc <+: l.foldl (fun acc e => if e ∈ acc then acc else acc ++ [e]) acc := by
  induction l with
  | nil => intro acc _ h _; exact ⟨h, List.prefix_refl _⟩
  | cons e l ih =>
    intro acc hs ha hal
    rw [List.pairwise_cons] at hs
    rw [List.foldl_cons]
    by_cases he : e ∈ acc
    · rw [if_pos he]
      exact ih acc hs.2 ha (fun a h1 b h2 => hal a h1 b (by simp [h2]))
    · rw [if_neg he]
      have := ih (acc ++ [e]) hs.2 ?_ ?_
      · exact ⟨this.1, (List.prefix_append _ _).trans this.2⟩
      · rw [List.pairwise_append]
        refine ⟨ha, List.pairwise_singleton _ _, ?_⟩
        intro a h1 b h2
        rw [List.mem_singleton] at h2; subst h2
        have h3 := hal a h1 b (by simp)
        exact lt_of_le_of_ne h3 (by rintro rfl; exact he h1)
      · intro a h1 b h2
        rcases List.mem_append.1 h1 with h1 | h1
        · exact hal a h1 b (by simp [h2])
        · rw [List.mem_singleton] at h1; subst h1
          exact hs.1 b h2

/-- C30: the nodes that are loaded at each time step are those of the active element, for every active element history
that never goes back. -/
theorem C30_loaded_nodes (active : List ℕ) (h : active.Pairwise (· ≤ ·)) : loadedElements active = active := by
  -- invariant: the pointer is the number of distinct elements seen so far
  have key : ∀ (l acc : List ℕ), l.Pairwise (· ≤ ·) → acc.Pairwise (· < ·) → (∀ a ∈ acc, ∀ b ∈ l, a ≤ b) →
      ∀ U, U = l.foldl (fun acc e => if e ∈ acc then acc else acc ++ [e]) acc →
      (uniquePointers U acc.length l).map (fun k => U.getD k 0) = l := by
    intro l
    induction l with
    | nil => intros; rfl
    | cons e l ih =>
      intro acc hs ha hal U hU
      obtain ⟨hUs, hpre⟩ := distinct_foldl (e :: l) acc hs ha hal
      rw [← hU] at hUs hpre
      have hs' := List.pairwise_cons.1 hs
      have hgetacc : ∀ k (hk : k < acc.length), U[k]? = some acc[k] := by
        intro k hk
        obtain ⟨t, rfl⟩ := hpre
        rw [List.getElem?_append_left hk, List.getElem?_eq_getElem hk]
      simp only [uniquePointers, List.map_cons]
      by_cases he : e ∈ acc
      · -- e is the last element of acc
        have hne : U[acc.length]? ≠ some e := by
          intro hc
          obtain ⟨k, hk, hke⟩ := List.mem_iff_getElem.1 he
          have h1 := hgetacc k hk
          obtain ⟨hl, hlt⟩ := List.getElem?_eq_some_iff.1 hc
          obtain ⟨hk2, hlt2⟩ := List.getElem?_eq_some_iff.1 h1
          have := List.pairwise_iff_getElem.1 hUs k acc.length hk2 hl hk
          rw [hlt, hlt2, hke] at this
          exact lt_irrefl _ this
        rw [if_neg hne]
        have hlast : U.getD (acc.length - 1) 0 = e := by
          obtain ⟨k, hk, hke⟩ := List.mem_iff_getElem.1 he
          have hkl : k = acc.length - 1 := by
            by_contra hc
            have h1 : k < acc.length - 1 := by omega
            have := List.pairwise_iff_getElem.1 ha k (acc.length - 1) hk (by omega) h1
            have h2 := hal acc[acc.length - 1] (List.getElem_mem _) e (by simp)
            rw [hke] at this; omega
          have := hgetacc (acc.length - 1) (by omega)
          rw [List.getD_eq_getElem?_getD, this]
          subst hkl
          simpa using hke
        rw [hlast]
        congr 1
        refine ih acc hs'.2 ha (fun a h1 b h2 => hal a h1 b (by simp [h2])) U ?_
        rw [hU, List.foldl_cons, if_pos he]
      · have hacc' : (acc ++ [e]).Pairwise (· < ·) := by
          rw [List.pairwise_append]
          refine ⟨ha, List.pairwise_singleton _ _, ?_⟩
          intro a h1 b h2
          rw [List.mem_singleton] at h2; subst h2
          exact lt_of_le_of_ne (hal a h1 b (by simp)) (by rintro rfl; exact he h1)
        have hal' : ∀ a ∈ acc ++ [e], ∀ b ∈ l, a ≤ b := by
          intro a h1 b h2
          rcases List.mem_append.1 h1 with h1 | h1
          · exact hal a h1 b (by simp [h2])
          · rw [List.mem_singleton] at h1; subst h1
            exact hs'.1 b h2
        have hU' : U = l.foldl (fun acc e => if e ∈ acc then acc else acc ++ [e]) (acc ++ [e]) := by
          rw [hU, List.foldl_cons, if_neg he]
        obtain ⟨_, hpre'⟩ := distinct_foldl l (acc ++ [e]) hs'.2 hacc' hal'
        rw [← hU'] at hpre'
        have hget : U[acc.length]? = some e := by
          obtain ⟨t, rfl⟩ := hpre'
          simp
        rw [if_pos hget]
        have h2 : U.getD (acc.length + 1 - 1) 0 = e := by
          rw [List.getD_eq_getElem?_getD, Nat.add_sub_cancel, hget]; rfl
        rw [h2]
        congr 1
        have := ih (acc ++ [e]) hs'.2 hacc' hal' U hU'
        simpa using this
  have := key active [] h List.Pairwise.nil (by simp) (distinctInOrder active) rfl
  simpa [loadedElements] using this

example : [0, 0, 1, 3, (3 : ℕ)].Pairwise (· ≤ ·) := by decide

/-- C30: on a track with increasing node distances the interpolated coordinate of the load on element `i` lies on that
element, at the fraction of its length given by the local distance. -/
theorem C30_interpolated (pts : List (K × K)) (hinc : Increasing (pts.map Prod.fst)) (i : ℕ) (x : K)
    (hi : i + 1 < pts.length) (h1 : (pts.getD i (0, 0)).1 ≤ x) (h2 : x ≤ (pts.getD (i + 1) (0, 0)).1) :
    interpLinear pts x = (pts.getD i (0, 0)).2 + (x - (pts.getD i (0, 0)).1) /
      ((pts.getD (i + 1) (0, 0)).1 - (pts.getD i (0, 0)).1) *
        ((pts.getD (i + 1) (0, 0)).2 - (pts.getD i (0, 0)).2) := by
  induction pts generalizing i with
  | nil => simp at hi
  | cons p pts ih =>
    obtain ⟨s0, r0⟩ := p
    cases pts with
    | nil => simp at hi
    | cons q rest =>
      obtain ⟨s1, r1⟩ := q
      have htail : Increasing (((s1, r1) :: rest).map Prod.fst) := by
        intro a b hab hb
        have := hinc (a + 1) (b + 1) (by omega) (by simpa using hb)
        simpa using this
      have h01 : s0 < s1 := by
        have := hinc 0 1 (by omega) (by simp)
        simpa using this
      simp only [interpLinear]
      cases i with
      | zero =>
        simp only [List.getD_cons_zero, List.getD_cons_succ] at *
        rw [if_pos (Or.inl h2)]
      | succ i =>
        simp only [List.getD_cons_succ] at h1 h2 ⊢
        by_cases hx : x ≤ s1
        · -- then x = s1 is the first node of the element
          have hi0 : i = 0 ∧ x = s1 := by
            by_contra hc
            rcases Nat.eq_zero_or_pos i with h | h
            · subst h
              simp only [List.getD_cons_zero] at h1
              exact hc ⟨rfl, le_antisymm hx h1⟩
            · have := htail 0 i h (by simp at hi ⊢; omega)
              simp only [List.map_cons, List.getD_cons_zero] at this
              have h3 : (((s1, r1) :: rest).map Prod.fst).getD i 0 = (((s1, r1) :: rest).getD i (0, 0)).1 := by
                rw [List.getD_eq_getElem _ _ (by simp at hi ⊢; omega), List.getD_eq_getElem _ _ (by simp at hi ⊢; omega),
                  List.getElem_map]
              simp only [List.map_cons] at h3
              rw [h3] at this
              linarith
          obtain ⟨rfl, rfl⟩ := hi0
          rw [if_pos (Or.inl (le_refl _))]
          simp only [List.getD_cons_zero, sub_self, zero_div, zero_mul, add_zero]
          have : x - s0 ≠ 0 := sub_ne_zero.2 h01.ne'
          field_simp
          ring
        · have hrest : rest ≠ [] := by
            rintro rfl
            simp at hi
          rw [if_neg (by push Not; exact ⟨not_le.1 hx, hrest⟩)]
          exact ih htail i (by simpa using hi) h1 h2

example : Increasing ([((0 : ℚ), (0 : ℚ)), (1, 2), (3, 2)].map Prod.fst) := by
  intro a b hab hb
  simp at hb
  have : b ≤ 2 := by omega
  have : a ≤ 1 := by omega
  interval_cases a <;> interval_cases b <;> simp_all

/-! ### C31 -/

/-- Specification: part `p` owns the element with index `e` if exactly the elements of the earlier parts come
before it. -/
def Owns (sizes : List ℕ) (p e : ℕ) : Prop := (sizes.take p).sum ≤ e ∧ e < (sizes.take (p + 1)).sum

/-- Specification: starting from `p` the owner changes by at most one part, forward, per time step. -/
def UnitSteps (p : ℕ) : List ℕ → Prop
  | [] => True
  | q :: qs => (q = p ∨ q = p + 1) ∧ UnitSteps q qs

theorem take_sum_succ (sizes : List ℕ) (p s : ℕ) (h : sizes[p]? = some s) :
    (sizes.take (p + 1)).sum = (sizes.take p).sum + s := by
  obtain ⟨hp, rfl⟩ := List.getElem?_eq_some_iff.1 h
  rw [List.take_add_one, List.sum_append, h]
  simp

theorem contactPartsFrom_iff (sizes : List ℕ) (active owners : List ℕ) (p : ℕ)
    (hown : List.Forall₂ (Owns sizes) owners active) (hlt : ∀ q ∈ owners, q < sizes.length) :
    contactPartsFrom sizes p (sizes.take (p + 1)).sum active = .ok owners ↔ UnitSteps p owners := by
  induction active generalizing p owners with
  | nil =>
    cases hown
    simp [contactPartsFrom, UnitSteps]
  | cons e es ih =>
    cases hown with
    | @cons q _ qs _ hq hqs =>
      have hmono : ∀ a b, a ≤ b → (sizes.take a).sum ≤ (sizes.take b).sum := by
        intro a b hab
        rw [show sizes.take a = (sizes.take b).take a by rw [List.take_take]; congr 1; omega]
        generalize sizes.take b = l
        conv_rhs => rw [← List.take_append_drop a l, List.sum_append]
        omega
      have hqlt := hlt q (by simp)
      have ih' : ∀ p', contactPartsFrom sizes p' (sizes.take (p' + 1)).sum es = .ok qs ↔ UnitSteps p' qs :=
        fun p' => ih qs p' hqs (fun r hr => hlt r (by simp [hr]))
      have hmap : ∀ (r : Except Err (List ℕ)) (a : ℕ), r.map (a :: ·) = .ok (q :: qs) ↔ a = q ∧ r = .ok qs := by
        intro r a
        cases r <;> simp [Except.map]
      simp only [contactPartsFrom, UnitSteps]
      by_cases he : e ≥ (sizes.take (p + 1)).sum
      · rw [if_pos he]
        have hpq : p + 1 ≤ q := by
          by_contra hc
          have := hmono (q + 1) (p + 1) (by omega)
          have := hq.2
          omega
        have hsome : ∃ s, sizes[p + 1]? = some s := ⟨sizes[p + 1], List.getElem?_eq_getElem (by omega)⟩
        obtain ⟨s, hs⟩ := hsome
        rw [hs]
        simp only
        rw [hmap, ← take_sum_succ _ _ _ hs, ih']
        constructor
        · rintro ⟨rfl, h⟩; exact ⟨Or.inr rfl, h⟩
        · rintro ⟨h | h, h2⟩
          · omega
          · subst h; exact ⟨rfl, h2⟩
      · rw [if_neg he, hmap, ih']
        constructor
        · rintro ⟨rfl, h⟩; exact ⟨Or.inl rfl, h⟩
        · rintro ⟨h | h, h2⟩
          · subst h; exact ⟨rfl, h2⟩
          · exfalso
            have := hq.1
            subst h
            omega

/-- C31, exactly: the contact part is the owner of the active element at every time index if and only if the owner
starts in the first or second part and then changes by at most one part, forward, per time step. -/
theorem C31_owner_iff (sizes active owners : List ℕ) (hne : sizes ≠ [])
    (hown : List.Forall₂ (Owns sizes) owners active) (hlt : ∀ q ∈ owners, q < sizes.length) :
    contactParts sizes active = .ok owners ↔ UnitSteps 0 owners := by
  obtain ⟨s, ss, rfl⟩ := List.exists_cons_of_ne_nil hne
  have := contactPartsFrom_iff (s :: ss) active owners 0 hown hlt
  simpa [contactParts] using this

/-- C31 as far as it holds. Missing: a load that starts beyond the second part, skips a part in one step, or moves
back, `C31_violated`. -/
theorem C31_owner_partial (sizes active owners : List ℕ) (hne : sizes ≠ [])
    (hown : List.Forall₂ (Owns sizes) owners active) (hlt : ∀ q ∈ owners, q < sizes.length)
    (hunit : UnitSteps 0 owners) : contactParts sizes active = .ok owners :=
  (C31_owner_iff sizes active owners hne hown hlt).2 hunit

example : List.Forall₂ (Owns [2, 1, 3]) [0, 0, 1, 2, 2] [0, 1, 2, 3, 5] ∧ UnitSteps 0 [0, 0, 1, 2, 2] := by
  simp [Owns, UnitSteps]

/-- C31 fails: a load that starts on the third part is given the second part's properties, one step long. -/
theorem C31_violated : contactParts [2, 1, 3] [3, 3] = .ok [1, 2] ∧ Owns [2, 1, 3] 2 3 := by
  constructor
  · decide +kernel
  · simp [Owns]

/-! ### C32 -/

/-- Total of the local nodal loads of an element of length `l`: axial force, transverse force, and moment about the
first node. -/
def resultant (l : K) (g : (Fin 2 → K) × (Fin 2 → K) × (Fin 2 → K)) : K × K × K :=
  (g.1 0 + g.1 1, g.2.1 0 + g.2.1 1, g.2.2 0 + g.2.2 1 + l * g.2.1 1)

/-- C32: the nodal loads of an axial force and a transverse force, or of an axial force and a moment, at distance `x`
are statically equivalent to them: same force, same moment about the first node. (Both at once: see C33.) -/
theorem C32_local {phi l : K} (hphi : 1 + phi ≠ 0) (hl : l ≠ 0) (x : K) (f : K × K × K) (b : Buffers K)
    (h : f.2.1 = 0 ∨ f.2.2 = 0) :
    resultant l (localNodalLoads phi l x f b) = (f.1, f.2.1, x * f.2.1 + f.2.2) := by
  obtain ⟨n, v, m⟩ := f
  simp only at h
  unfold resultant localNodalLoads
  simp only
  have hn : (if n = 0 then (0 : Fin 2 → K) else distributeNormal l x n) 0 +
      (if n = 0 then (0 : Fin 2 → K) else distributeNormal l x n) 1 = n := by
    split_ifs with h0
    · simp [h0]
    · simp [distributeNormal, normalShape]; ring
  refine Prod.ext hn ?_
  rcases h with rfl | rfl
  · by_cases hm : m = 0
    · subst hm; simp [Ref.read]
    · simp only [hm, if_true, if_false, Ref.read, distributeMoment, zRotShape]
      refine Prod.ext ?_ ?_
      · simp; field_simp; ring
      · simp; field_simp; ring
  · by_cases hv : v = 0
    · subst hv; simp [Ref.read]
    · simp only [hv, if_true, if_false, Ref.read, distributeShear, yShape]
      refine Prod.ext ?_ ?_
      · simp; field_simp; ring
      · simp; field_simp; ring

example : (1 : ℚ) + 1 / 2 ≠ 0 ∧ (2 : ℚ) ≠ 0 ∧ (((0 : ℚ), (5 : ℚ), (0 : ℚ)).2.2 = 0) := by norm_num

/-- C32 in global axes: for an element from `(px, py)` in direction `(cos θ, sin θ)`, with the load at distance `x`, the
sum of the nodal forces is the force, and the moment of the nodal loads about the first node equals the moment of the
load. -/
theorem C32_global {phi l : ℝ} (hphi : 1 + phi ≠ 0) (hl : l ≠ 0) (theta x fx fy m : ℝ) (b : Buffers ℝ)
    (h : (rotatePoint theta (fx, fy, m)).2.1 = 0 ∨ m = 0) :
    let g := globalNodalLoads theta phi l x (fx, fy, m) b
    let c := Real.cos theta
    let s := Real.sin theta
    (g 0).1 + (g 1).1 = fx ∧ (g 0).2.1 + (g 1).2.1 = fy ∧
      (g 0).2.2 + (g 1).2.2 + (l * c * (g 1).2.1 - l * s * (g 1).1) = m + (x * c * fy - x * s * fx) := by
  intro g c s
  have hres := C32_local hphi hl x (rotatePoint theta (fx, fy, m)) b (by simpa [rotatePoint] using h)
  have hcs : c ^ 2 + s ^ 2 = 1 := Real.cos_sq_add_sin_sq theta
  simp only [g, globalNodalLoads]
  generalize localNodalLoads phi l x (rotatePoint theta (fx, fy, m)) b = loc at hres
  simp only [rotatePoint, resultant, Prod.mk.injEq] at hres ⊢
  rw [Real.cos_neg, Real.sin_neg]
  change loc.1 0 + loc.1 1 = c * fx + s * fy ∧ loc.2.1 0 + loc.2.1 1 = -s * fx + c * fy ∧
    loc.2.2 0 + loc.2.2 1 + l * loc.2.1 1 = x * (-s * fx + c * fy) + m at hres
  change c * loc.1 0 + -s * loc.2.1 0 + (c * loc.1 1 + -s * loc.2.1 1) = fx ∧
    -(-s) * loc.1 0 + c * loc.2.1 0 + (-(-s) * loc.1 1 + c * loc.2.1 1) = fy ∧
    loc.2.2 0 + loc.2.2 1 + (l * c * (-(-s) * loc.1 1 + c * loc.2.1 1) - l * s * (c * loc.1 1 + -s * loc.2.1 1)) =
      m + (x * c * fy - x * s * fx)
  obtain ⟨h1, h2, h3⟩ := hres
  refine ⟨?_, ?_, ?_⟩
  · linear_combination c * h1 - s * h2 + fx * hcs
  · linear_combination s * h1 + c * h2 + fy * hcs
  · linear_combination h3 + l * loc.2.1 1 * hcs

/-- C32: the nodal force vector of the condition carries the loads of the two nodes and nothing else, so its total is
the total of the two. -/
theorem C32_scatter (n i0 i1 : ℕ) (h0 : i0 < n) (h1 : i1 < n) (g : Fin 2 → K) :
    ∑ k ∈ Finset.range n, scatterNodal i0 i1 g k = g 0 + g 1 ∧
      ∀ k, k ≠ i0 → k ≠ i1 → scatterNodal i0 i1 g k = 0 := by
  constructor
  · simp [scatterNodal, Finset.sum_add_distrib, h0, h1]
  · intro k hk0 hk1; simp [scatterNodal, hk0, hk1]

/-! ### C33 -/

/-- Specification: componentwise sum of nodal loads. -/
def addLoads (a b : (Fin 2 → K) × (Fin 2 → K) × (Fin 2 → K)) : (Fin 2 → K) × (Fin 2 → K) × (Fin 2 → K) :=
  (a.1 + b.1, a.2.1 + b.2.1, a.2.2 + b.2.2)

/-- C33 as far as it holds: components superpose if the transverse force or the moment vanishes. Missing: a transverse
force and a moment at the same time, `C33_violated`. -/
theorem C33_superposition_partial (phi l x : K) (n v m : K) (b : Buffers K) (h : v = 0 ∨ m = 0) :
    localNodalLoads phi l x (n, v, m) b =
      addLoads (localNodalLoads phi l x (n, 0, 0) b)
        (addLoads (localNodalLoads phi l x (0, v, 0) b) (localNodalLoads phi l x (0, 0, m) b)) := by
  rcases h with rfl | rfl
  · by_cases hm : m = 0 <;> by_cases hn : n = 0 <;> simp [localNodalLoads, addLoads, hm, hn, Ref.read]
  · by_cases hv : v = 0 <;> by_cases hn : n = 0 <;> simp [localNodalLoads, addLoads, hv, hn, Ref.read]

example : ((3 : ℚ) = 0 ∨ (0 : ℚ) = 0) := Or.inr rfl

/-- What the code computes for a transverse force together with a moment: the force is dropped and the moment counts
twice, because both distributions write the same two arrays. -/
theorem C33_combined (phi l x : K) (n v m : K) (b : Buffers K) (hv : v ≠ 0) (hm : m ≠ 0) :
    localNodalLoads phi l x (n, v, m) b =
      addLoads (localNodalLoads phi l x (n, 0, m) b) (localNodalLoads phi l x (0, 0, m) b) := by
  by_cases hn : n = 0 <;> simp [localNodalLoads, addLoads, hv, hm, hn, Ref.read, distributeMoment]

/-- C33 fails: a transverse force 1 with a moment 1 at the first node gives no force at the nodes at all. -/
theorem C33_violated :
    let b : Buffers ℚ := ⟨0, 0⟩
    let both := localNodalLoads (0 : ℚ) 1 0 (0, 1, 1) b
    both.2.1 0 + both.2.1 1 = 0 ∧
      both ≠ addLoads (localNodalLoads 0 1 0 (0, 1, 0) b) (localNodalLoads 0 1 0 (0, 0, 1) b) := by
  intro b both
  constructor
  · simp [both, localNodalLoads, Ref.read, distributeMoment, zRotShape]
  · intro h
    have := congrFun (congrArg (fun t => t.2.1) h) 0
    simp [both, localNodalLoads, Ref.read, distributeMoment, distributeShear, zRotShape, yShape, addLoads] at this

end Rose
