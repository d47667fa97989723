/-
C30: exactly when the active element of a moving load is one the load is on, for loads of any speed and direction.
-/
import Verif.Props.MovingLoad

set_option linter.unusedSectionVars false

namespace Rose
variable {K : Type*} [Field K] [LinearOrder K] [IsStrictOrderedRing K]

/-- The pointer of the next time step, from that of any time step. -/
theorem activePointers_next (nodes : List K) (i : ℤ) (xs : List K) (k : ℕ) (hk : k + 1 < xs.length) :
    let j := (activePointers nodes i xs).getD k 0
    (activePointers nodes i xs).getD (k + 1) 0 =
      if j < (nodes.length : ℤ) - 2 ∧ xs.getD (k + 1) 0 > nodes.getD (j + 1).toNat 0 then j + 1 else j := by
  induction xs generalizing i k with
  | nil => simp at hk
  | cons x xs ih =>
    simp only [activePointers]
    cases k with
    | zero =>
      obtain ⟨y, ys, rfl⟩ := List.exists_cons_of_ne_nil (l := xs) (by rintro rfl; simp at hk)
      simp only [activePointers, List.getD_cons_zero, List.getD_cons_succ]
    | succ k =>
      simp only [List.getD_cons_succ]
      exact ih _ k (by simpa using hk)

/-- What the calculation of the active elements returns, when it returns. -/
theorem activeElements_ok {n : ℕ} {nodes dists : List K} {act : List ℕ} (h : activeElements n nodes dists = .ok act) :
    ∃ x0 xs, dists = x0 :: xs ∧ act.length = dists.length ∧
      ∀ k < dists.length, (activePointers nodes (firstElementIdx nodes x0) dists).getD k 0 = (act.getD k 0 : ℕ) ∧ act.getD k 0 < n := by
  cases dists with
  | nil => simp [activeElements] at h
  | cons x0 xs =>
    simp only [activeElements] at h
    set is := activePointers nodes (firstElementIdx nodes x0) (x0 :: xs) with his
    have hislen : is.length = (x0 :: xs).length := activePointers_length _ _ _
    split at h
    · rename_i hall
      cases h
      refine ⟨x0, xs, rfl, by simp [hislen], ?_⟩
      intro k hk
      have hk' : k < is.length := by omega
      have h1 := List.all_eq_true.mp hall _ (List.getElem_mem hk')
      simp only [decide_eq_true_eq] at h1
      rw [List.getD_eq_getElem _ _ hk', List.getD_eq_getElem _ _ (by simpa using hk'), List.getElem_map]
      constructor <;> omega
    · simp at h

/-- **C30, exactly, per time step** For a load that moves in any way: whatever element is active at a time step, at the next time step the
active element encloses the load if and only if the load is then on the element that was active or on the one after it. -/
theorem C30_step_iff (nodes dists : List K) (hinc : Increasing nodes) (act : List ℕ)
    (h : activeElements (nodes.length - 1) nodes dists = .ok act) (k : ℕ) (hk : k + 1 < dists.length) :
    Encloses nodes (act.getD (k + 1) 0) (dists.getD (k + 1) 0) ↔
      Encloses nodes (act.getD k 0) (dists.getD (k + 1) 0) ∨ Encloses nodes (act.getD k 0 + 1) (dists.getD (k + 1) 0) := by
  obtain ⟨x0, xs, hd, -, hp⟩ := activeElements_ok h
  obtain ⟨h1, b1⟩ := hp k (by omega)
  obtain ⟨h2, -⟩ := hp (k + 1) hk
  have hn := activePointers_next nodes (firstElementIdx nodes x0) dists k hk
  simp only [h1, h2] at hn
  have e1 : ((act.getD k 0 : ℤ) + 1).toNat = act.getD k 0 + 1 := by omega
  rw [e1] at hn
  generalize act.getD k 0 = i at *
  generalize act.getD (k + 1) 0 = j at *
  generalize dists.getD (k + 1) 0 = x at *
  unfold Encloses
  by_cases hc : (i : ℤ) < (nodes.length : ℤ) - 2 ∧ x > nodes.getD (i + 1) 0
  · rw [if_pos hc] at hn
    have : j = i + 1 := by omega
    subst this
    constructor
    · exact Or.inr
    · rintro (h | h)
      · exact absurd h.2.2 (not_le.mpr hc.2)
      · exact h
  · rw [if_neg hc] at hn
    have : j = i := by omega
    subst this
    constructor
    · exact Or.inl
    · rintro (h | h)
      · exact h
      · have hx : x ≤ nodes.getD (j + 1) 0 := by
          by_contra hx
          exact hc ⟨by omega, not_le.mp hx⟩
        exact ⟨by omega, (hinc j (j + 1) (by omega) (by omega)).le.trans h.2.1, hx⟩

/-- A start at or beyond the last node makes the first element active. -/
theorem firstElementIdx_end (nodes : List K) (x0 : K) (h : ∀ s ∈ nodes, s ≤ x0) : firstElementIdx nodes x0 = -1 := by
  unfold firstElementIdx
  have e : (nodes.map fun s => if s - x0 > 0 then some (s - x0) else none) = List.replicate nodes.length none ++ [] := by
    rw [List.append_nil, List.eq_replicate_iff]
    refine ⟨by simp, ?_⟩
    intro v hv
    obtain ⟨s, hs, rfl⟩ := List.mem_map.mp hv
    rw [if_neg]
    have := h s hs
    linarith
  rw [e, argminFrom_none]
  simp [argminFrom]

/-- **C30, exactly, at the start** At the first time step the active element encloses the load if and only if the load starts on the track
before its last node, or anywhere on a track of a single element. -/
theorem C30_start_iff (nodes dists : List K) (hlen : 2 ≤ nodes.length) (hinc : Increasing nodes) (hne : dists ≠ []) :
    (∀ act, activeElements (nodes.length - 1) nodes dists = .ok act → Encloses nodes (act.getD 0 0) (dists.getD 0 0)) ∧
      (∃ act, activeElements (nodes.length - 1) nodes dists = .ok act) ↔
    nodes.getD 0 0 ≤ dists.getD 0 0 ∧ (dists.getD 0 0 < nodes.getD (nodes.length - 1) 0 ∨
      nodes.length = 2 ∧ dists.getD 0 0 = nodes.getD 1 0) := by
  obtain ⟨x0, xs, rfl⟩ := List.exists_cons_of_ne_nil hne
  simp only [List.getD_cons_zero]
  have first : ∀ act, activeElements (nodes.length - 1) nodes (x0 :: xs) = .ok act →
      ((act.getD 0 0 : ℕ) : ℤ) = if firstElementIdx nodes x0 < (nodes.length : ℤ) - 2 ∧
        x0 > nodes.getD (firstElementIdx nodes x0 + 1).toNat 0 then firstElementIdx nodes x0 + 1 else firstElementIdx nodes x0 := by
    intro act h
    obtain ⟨y, ys, hd, -, hp⟩ := activeElements_ok h
    obtain ⟨rfl, rfl⟩ := List.cons.inj hd
    have := (hp 0 (by simp)).1
    rw [← this]
    simp [activePointers]
  have least : ∀ s ∈ nodes, s ≤ nodes.getD (nodes.length - 1) 0 := by
    intro s hs
    obtain ⟨k, hk, rfl⟩ := List.mem_iff_getElem.1 hs
    rcases (show k = nodes.length - 1 ∨ k < nodes.length - 1 by omega) with e | e
    · rw [← e, List.getD_eq_getElem _ _ hk]
    · have := hinc k (nodes.length - 1) e (by omega)
      rw [List.getD_eq_getElem _ _ hk] at this
      exact this.le
  -- the calculation is accepted for a start on the track
  have accepted : ∀ i : ℤ, -1 ≤ i → i < (nodes.length : ℤ) - 1 → (0 ≤ i ∨ x0 > nodes.getD 0 0) →
      firstElementIdx nodes x0 = i → ∃ act, activeElements (nodes.length - 1) nodes (x0 :: xs) = .ok act := by
    intro i hi hi2 hi3 he
    have mono : ∀ (ys : List K) (i : ℤ), 0 ≤ i → i < (nodes.length : ℤ) - 1 →
        ∀ v ∈ activePointers nodes i ys, 0 ≤ v ∧ v < (nodes.length : ℤ) - 1 := by
      intro ys
      induction ys with
      | nil => intro i _ _ v hv; simp [activePointers] at hv
      | cons y ys ih =>
        intro i h0 h1 v hv
        simp only [activePointers, List.mem_cons] at hv
        split at hv
        · rename_i hc
          rcases hv with rfl | hv
          · constructor <;> omega
          · exact ih (i + 1) (by omega) (by omega) v hv
        · rcases hv with rfl | hv
          · exact ⟨h0, h1⟩
          · exact ih i h0 h1 v hv
    have hall : (activePointers nodes i (x0 :: xs)).all (fun i => decide (0 ≤ i ∧ i < ((nodes.length - 1 : ℕ) : ℤ))) = true := by
      rw [List.all_eq_true]
      intro v hv
      have : 0 ≤ v ∧ v < (nodes.length : ℤ) - 1 := by
        by_cases h0 : 0 ≤ i
        · exact mono _ i h0 hi2 v hv
        · have e : i = -1 := by omega
          subst e
          have hx := hi3.resolve_left (by omega)
          simp only [activePointers, List.mem_cons] at hv
          rw [if_pos ⟨by omega, by simpa using hx⟩] at hv
          rcases hv with rfl | hv
          · constructor <;> omega
          · exact mono xs _ (by omega) (by omega) v hv
      simp only [decide_eq_true_eq]
      omega
    refine ⟨(activePointers nodes i (x0 :: xs)).map Int.toNat, ?_⟩
    simp only [activeElements, he]
    rw [if_pos hall]
  constructor
  · rintro ⟨h, act, hact⟩
    have henc := h act hact
    have h0 : nodes.getD 0 0 ≤ x0 := by
      by_contra hc
      rw [C30_before_start_rejected _ nodes x0 xs (by rintro rfl; simp at hlen) hinc (not_le.mp hc)] at hact
      simp at hact
    refine ⟨h0, ?_⟩
    by_cases hlt : x0 < nodes.getD (nodes.length - 1) 0
    · exact Or.inl hlt
    · right
      have hf := firstElementIdx_end nodes x0 (fun s hs => (least s hs).trans (not_lt.mp hlt))
      have hfst := first act hact
      have hx : nodes.getD 0 0 < x0 := (hinc 0 (nodes.length - 1) (by omega) (by omega)).trans_le (not_lt.mp hlt)
      rw [hf, if_pos ⟨by omega, by simpa using hx⟩] at hfst
      have e0 : act.getD 0 0 = 0 := by omega
      rw [e0] at henc
      have hle := henc.2.2
      have h2 : nodes.length = 2 := by
        by_contra hne2
        have := hinc 1 (nodes.length - 1) (by omega) (by omega)
        have := not_lt.mp hlt
        simp only [zero_add] at hle
        linarith
      refine ⟨h2, le_antisymm hle ?_⟩
      have := not_lt.mp hlt
      rwa [h2] at this
  · rintro ⟨h0, h1⟩
    rcases h1 with h1 | ⟨h2, h1⟩
    · obtain ⟨i, hi, hi1, hi2, hi3⟩ := firstElementIdx_spec nodes hinc x0 h0 h1 hlen
      refine ⟨?_, accepted i (by omega) (by omega) (Or.inl (by omega)) hi⟩
      intro act hact
      have hfst := first act hact
      have e1 : ((i : ℤ) + 1).toNat = i + 1 := by omega
      rw [hi, e1, if_neg (fun hc => absurd hc.2 (not_lt.mpr hi3.le))] at hfst
      have e : act.getD 0 0 = i := by omega
      rw [e]
      exact ⟨hi1, hi2, hi3.le⟩
    · have hf := firstElementIdx_end nodes x0 (fun s hs => by
        have := least s hs
        rw [h2] at this
        rw [h1]
        exact this)
      have hx : nodes.getD 0 0 < x0 := by
        rw [h1]
        exact hinc 0 1 (by omega) (by omega)
      refine ⟨?_, accepted (-1) (by omega) (by omega) (Or.inr hx) hf⟩
      intro act hact
      have hfst := first act hact
      rw [hf, if_pos ⟨by omega, by simpa using hx⟩] at hfst
      have e : act.getD 0 0 = 0 := by omega
      rw [e]
      exact ⟨by omega, h0, h1.le⟩

/-- Both sides occur: a load two elements ahead is not enclosed, one on the next element is. -/
example : Increasing [0, 1, 2, 3, (4 : ℚ)] ∧
    ¬ (Encloses [0, 1, 2, 3, (4 : ℚ)] 0 (5 / 2) ∨ Encloses [0, 1, 2, 3, (4 : ℚ)] (0 + 1) (5 / 2)) ∧
    (Encloses [0, 1, 2, 3, (4 : ℚ)] 0 (3 / 2) ∨ Encloses [0, 1, 2, 3, (4 : ℚ)] (0 + 1) (3 / 2)) := by
  refine ⟨?_, ?_, ?_⟩
  · intro i j hij hj
    simp only [List.length_cons, List.length_nil] at hj
    interval_cases j <;> interval_cases i <;> norm_num
  · norm_num [Encloses]
  · norm_num [Encloses]

end Rose
