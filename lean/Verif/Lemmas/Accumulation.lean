import Verif.Model.Accumulation
import Mathlib.Data.List.GetD
import Mathlib.Algebra.Order.BigOperators.Group.List

set_option linter.unusedSectionVars false

namespace Rose

theorem foldl_max_ge (l : List ℕ) (a : ℕ) : a ≤ l.foldl max a ∧ ∀ c ∈ l, c ≤ l.foldl max a := by
  induction l generalizing a with
  | nil => simp
  | cons x xs ih =>
    have h := ih (max a x)
    simp only [List.foldl_cons, List.mem_cons, forall_eq_or_imp]
    exact ⟨le_trans (le_max_left _ _) h.1, le_trans (le_max_right _ _) h.1, h.2⟩

theorem foldl_max_mem (l : List ℕ) (a : ℕ) : l.foldl max a = a ∨ l.foldl max a ∈ l := by
  induction l generalizing a with
  | nil => simp
  | cons x xs ih =>
    simp only [List.foldl_cons, List.mem_cons]
    rcases ih (max a x) with h | h
    · rcases max_choice a x with h' | h'
      · left; rw [h, h']
      · right; left; rw [h, h']
    · right; right; exact h

theorem Traffic.le_maxCycles (t : Traffic) {c : ℕ} (h : c ∈ t.cycles) : c ≤ t.maxCycles := (foldl_max_ge _ _).2 c h

theorem Traffic.maxCycles_const (t : Traffic) (N : ℕ) (h : ∀ c ∈ t.cycles, c = N) (hne : t.cycles ≠ []) :
    t.maxCycles = N := by
  obtain ⟨c, hc⟩ := List.exists_mem_of_ne_nil _ hne
  have h1 := t.le_maxCycles hc
  have h2 := foldl_max_mem t.cycles 0
  unfold Traffic.maxCycles at *
  rcases h2 with h2 | h2
  · have := h c hc; omega
  · exact h _ h2

theorem linspaceAt_le_max (a b : ℝ) (n i : ℕ) (hi : i < n) : linspaceAt a b n i ≤ max a b := by
  unfold linspaceAt
  split
  · exact le_max_left _ _
  · rename_i hn
    have hn' : (0 : ℝ) < (n : ℝ) - 1 := by
      have : (1 : ℝ) < n := by exact_mod_cast (by omega : 1 < n)
      linarith
    have hi' : (i : ℝ) ≤ (n : ℝ) - 1 := by
      have : ((i + 1 : ℕ) : ℝ) ≤ n := by exact_mod_cast hi
      push_cast at this; linarith
    have h0 : (0 : ℝ) ≤ i := Nat.cast_nonneg _
    have hq0 : 0 ≤ (i : ℝ) / ((n : ℝ) - 1) := div_nonneg h0 hn'.le
    have hq1 : (i : ℝ) / ((n : ℝ) - 1) ≤ 1 := (div_le_one hn').2 hi'
    have : a + (i : ℝ) * ((b - a) / ((n : ℝ) - 1)) = a + (i : ℝ) / ((n : ℝ) - 1) * (b - a) := by ring
    rw [this]
    rcases le_total a b with h | h
    · rw [max_eq_right h]; nlinarith
    · rw [max_eq_left h]; nlinarith

theorem linspaceAt_mono (a b : ℝ) (h : a ≤ b) (n i j : ℕ) (hij : i ≤ j) : linspaceAt a b n i ≤ linspaceAt a b n j := by
  unfold linspaceAt
  split
  · exact le_refl _
  · rename_i hn
    have hn' : (0 : ℝ) < (n : ℝ) - 1 := by
      have : (1 : ℝ) < n := by exact_mod_cast (by omega : 1 < n)
      linarith
    have : (i : ℝ) ≤ j := by exact_mod_cast hij
    have h2 : 0 ≤ (b - a) / ((n : ℝ) - 1) := div_nonneg (by linarith) hn'.le
    have := mul_le_mul_of_nonneg_right this h2
    linarith

theorem linspaceAt_zero (a b : ℝ) (n : ℕ) : linspaceAt a b n 0 = a := by
  unfold linspaceAt; split <;> simp

theorem linspaceAt_last (a b : ℝ) (n : ℕ) (hn : 2 ≤ n) : linspaceAt a b n (n - 1) = b := by
  unfold linspaceAt
  rw [if_neg (by omega), Nat.cast_sub (by omega)]
  have : (n : ℝ) - 1 ≠ 0 := by
    have : (1 : ℝ) < n := by exact_mod_cast (by omega : 1 < n)
    linarith
  push_cast
  field_simp; ring

/-- Starting at zero the cumulative cycle numbers are `0, 1, …, N - 1`. -/
theorem Traffic.cumulativeCycle_zero (t : Traffic) (h : t.start = 0) (n : ℕ) (hn : n < t.maxCycles) :
    t.cumulativeCycle n = n := by
  unfold Traffic.cumulativeCycle linspaceAt
  rw [h]
  split
  · have : n = 0 := by omega
    subst this; simp
  · have : (t.maxCycles : ℝ) - 1 ≠ 0 := by
      have : (1 : ℝ) < t.maxCycles := by exact_mod_cast (by omega : 1 < t.maxCycles)
      linarith
    field_simp; ring

theorem Traffic.mem_trainsInCycle (t : Traffic) (n tr : ℕ) :
    tr ∈ t.trainsInCycle n ↔ tr < t.cycles.length ∧ t.cumulativeCycle n ≤ (t.cycles.getD tr 0 : ℝ) := by
  classical
  unfold Traffic.trainsInCycle; simp

theorem Traffic.trainsInCycle_nodup (t : Traffic) (n : ℕ) : (t.trainsInCycle n).Nodup := by
  classical
  exact List.Nodup.filter _ List.nodup_range

/-- The passages applied in a stage in their order: for each cycle the trains that run. -/
noncomputable def Traffic.events (t : Traffic) : List ℕ := (List.range t.maxCycles).flatMap t.trainsInCycle

/-- If every train runs in every cycle the events are `N` rounds of all trains. -/
theorem Traffic.events_full (t : Traffic) (N : ℕ) (h : ∀ c ∈ t.cycles, c = N) (hs : t.start ≤ N) :
    t.events = (List.replicate t.maxCycles (List.range t.cycles.length)).flatten := by
  classical
  unfold Traffic.events
  rw [List.flatMap_def]
  congr 1
  rw [List.eq_replicate_iff]
  refine ⟨by simp, ?_⟩
  intro b hb
  rw [List.mem_map] at hb
  obtain ⟨n, hn, rfl⟩ := hb
  rw [List.mem_range] at hn
  unfold Traffic.trainsInCycle
  rw [List.filter_eq_self]
  intro tr htr
  rw [List.mem_range] at htr
  have hc : t.cycles.getD tr 0 = N := by
    rw [List.getD_eq_getElem _ _ htr]; exact h _ (List.getElem_mem _)
  have hne : t.cycles ≠ [] := by intro hh; rw [hh] at htr; simp at htr
  have hN := t.maxCycles_const N h hne
  simp only [decide_eq_true_eq]
  rw [hc]
  refine le_trans (linspaceAt_le_max _ _ _ _ hn) ?_
  rw [hN]
  exact max_le hs (by linarith)

/-! ### The fold over passages -/

/-- State and sum of increments after a list of passages. -/
noncomputable def runEvents (p : VarandasPar) (fm : ℕ → ℝ) (fmax : ℝ) (s : VarState) (evs : List ℕ) : VarState × ℝ :=
  evs.foldl (varTrain p fm fmax) (s, 0)

theorem foldl_varTrain (p : VarandasPar) (fm : ℕ → ℝ) (fmax : ℝ) (evs : List ℕ) (s : VarState) (a : ℝ) :
    evs.foldl (varTrain p fm fmax) (s, a) =
      ((runEvents p fm fmax s evs).1, a + (runEvents p fm fmax s evs).2) := by
  unfold runEvents
  induction evs generalizing s a with
  | nil => simp
  | cons x xs ih =>
    simp only [List.foldl_cons, varTrain]
    rw [ih, ih _ (0 + _)]
    simp [add_assoc]

theorem runEvents_append (p : VarandasPar) (fm : ℕ → ℝ) (fmax : ℝ) (s : VarState) (e1 e2 : List ℕ) :
    runEvents p fm fmax s (e1 ++ e2) =
      ((runEvents p fm fmax (runEvents p fm fmax s e1).1 e2).1,
        (runEvents p fm fmax s e1).2 + (runEvents p fm fmax (runEvents p fm fmax s e1).1 e2).2) := by
  rw [runEvents, List.foldl_append, foldl_varTrain, foldl_varTrain]
  simp

theorem runEvents_cons (p : VarandasPar) (fm : ℕ → ℝ) (fmax : ℝ) (s : VarState) (x : ℕ) (xs : List ℕ) :
    runEvents p fm fmax s (x :: xs) =
      ((runEvents p fm fmax (s.passage fm x) xs).1,
        p.increment fmax (s.passage fm x).h + (runEvents p fm fmax (s.passage fm x) xs).2) := by
  rw [runEvents, List.foldl_cons, varTrain, foldl_varTrain]
  simp

/-- The loop over the cycles `L`: state, and what was written plus what is pending. -/
theorem foldl_varCycle (p : VarandasPar) (t : Traffic) (fm : ℕ → ℝ) (fmax : ℝ) (L : List ℕ) (l : VarLoop) :
    (L.foldl (varCycle p t fm fmax) l).state = (runEvents p fm fmax l.state (L.flatMap t.trainsInCycle)).1 ∧
    (L.foldl (varCycle p t fm fmax) l).out.sum + (L.foldl (varCycle p t fm fmax) l).aux =
      l.out.sum + l.aux + (runEvents p fm fmax l.state (L.flatMap t.trainsInCycle)).2 := by
  induction L generalizing l with
  | nil => simp [runEvents]
  | cons n L ih =>
    rw [List.foldl_cons]
    obtain ⟨h1, h2⟩ := ih (varCycle p t fm fmax l n)
    rw [h1, h2, List.flatMap_cons, runEvents_append]
    have hv : (varCycle p t fm fmax l n).state = (runEvents p fm fmax l.state (t.trainsInCycle n)).1 ∧
        (varCycle p t fm fmax l n).out.sum + (varCycle p t fm fmax l n).aux =
          l.out.sum + l.aux + (runEvents p fm fmax l.state (t.trainsInCycle n)).2 := by
      unfold varCycle
      rw [foldl_varTrain]
      split
      · simp [add_assoc]
      · simp [add_assoc]
    rw [hv.1, hv.2]
    exact ⟨rfl, by simp only; ring⟩

/-- Number of values written. -/
theorem foldl_varCycle_length (p : VarandasPar) (t : Traffic) (fm : ℕ → ℝ) (fmax : ℝ) (L : List ℕ) (l : VarLoop) :
    (L.foldl (varCycle p t fm fmax) l).out.length = l.out.length + (L.filter (· ∈ t.stepsIndex)).length := by
  induction L generalizing l with
  | nil => simp
  | cons n L ih =>
    rw [List.foldl_cons, ih]
    unfold varCycle
    by_cases h : n ∈ t.stepsIndex
    · rw [if_pos h, List.filter_cons_of_pos (by simpa using h)]; simp; omega
    · rw [if_neg h, List.filter_cons_of_neg (by simpa using h)]

theorem varLoop_out_length_le (p : VarandasPar) (t : Traffic) (fm : ℕ → ℝ) (s : VarState) :
    (varLoop p t fm s).out.length ≤ t.outputs := by
  unfold varLoop
  rw [foldl_varCycle_length]
  simp only [List.length_nil, zero_add]
  have hnd : ((List.range t.maxCycles).filter (· ∈ t.stepsIndex)).Nodup := List.Nodup.filter _ List.nodup_range
  have hsub : ((List.range t.maxCycles).filter (· ∈ t.stepsIndex)) ⊆ t.stepsIndex := by
    intro x hx
    rw [List.mem_filter] at hx
    simpa using hx.2
  have h := (List.subperm_of_subset hnd hsub).length_le
  simpa [Traffic.stepsIndex] using h

/-- Everything is written if the last cycle is an output. -/
theorem varLoop_aux (p : VarandasPar) (t : Traffic) (fm : ℕ → ℝ) (s : VarState) (hN : 0 < t.maxCycles)
    (h : t.maxCycles - 1 ∈ t.stepsIndex) : (varLoop p t fm s).aux = 0 := by
  unfold varLoop
  obtain ⟨n, hn⟩ : ∃ n, t.maxCycles = n + 1 := ⟨t.maxCycles - 1, by omega⟩
  rw [hn] at h ⊢
  rw [List.range_succ, List.foldl_append, List.foldl_cons, List.foldl_nil]
  simp only [Nat.add_sub_cancel] at h
  rw [varCycle, if_pos h]

/-- With two or more outputs the last cycle is an output. -/
theorem Traffic.last_mem_stepsIndex (t : Traffic) (h : 2 ≤ t.outputs) : t.maxCycles - 1 ∈ t.stepsIndex := by
  unfold Traffic.stepsIndex
  rw [List.mem_map]
  refine ⟨t.outputs - 1, by rw [List.mem_range]; omega, ?_⟩
  rw [if_neg (by omega)]
  exact Nat.mul_div_cancel_left _ (by omega)

theorem Traffic.pos_of_outputs (t : Traffic) (h : 1 ≤ t.outputs) : 0 < t.maxCycles := by
  unfold Traffic.outputs at h
  rcases Nat.eq_zero_or_pos t.maxCycles with h0 | h0
  · rw [h0] at h; simp at h
  · exact h0

theorem sum_pad (l : List ℝ) (M : ℕ) (h : l.length ≤ M) : ((List.range M).map fun i => l.getD i 0).sum = l.sum := by
  induction l generalizing M with
  | nil => simp
  | cons x xs ih =>
    obtain ⟨M', rfl⟩ : ∃ M', M = M' + 1 := ⟨M - 1, by simp at h; omega⟩
    rw [List.range_succ_eq_map]
    simp only [List.map_cons, List.map_map, List.sum_cons, List.getD_cons_zero]
    have := ih M' (by simpa using h)
    rw [← this]
    congr 1

theorem cumsum_length (a : ℝ) (l : List ℝ) : (cumsum a l).length = l.length := by
  induction l generalizing a with
  | nil => rfl
  | cons x xs ih => simp [cumsum, ih]

theorem cumsum_getLast? (a : ℝ) (l : List ℝ) (h : l ≠ []) : (cumsum a l).getLast? = some (a + l.sum) := by
  induction l generalizing a with
  | nil => exact absurd rfl h
  | cons x xs ih =>
    cases xs with
    | nil => simp [cumsum]
    | cons y ys =>
      have := ih (a + x) (by simp)
      rw [cumsum]
      rw [cumsum] at this ⊢
      rw [List.getLast?_cons_cons, this]
      simp [add_assoc]

/-- The final settlement of a stage with at least one output. -/
theorem varandasStage_last (p : VarandasPar) (t : Traffic) (fm : ℕ → ℝ) (s : VarState) (prev : ℝ) (hM : 1 ≤ t.outputs) :
    (varandasStage p t fm s prev).2.getLast? = some ((varLoop p t fm s).out.sum / 1000 + prev) := by
  have h := cumsum_getLast? 0 ((List.range t.outputs).map fun i => (varLoop p t fm s).out.getD i 0)
    (by simp; omega)
  rw [sum_pad _ _ (varLoop_out_length_le p t fm s)] at h
  unfold varandasStage
  simp only [List.getLast?_map, h, Option.map_some, zero_add]

theorem varandasStage_last_events (p : VarandasPar) (t : Traffic) (fm : ℕ → ℝ) (s : VarState) (prev : ℝ)
    (hM : 1 ≤ t.outputs) (h : t.maxCycles - 1 ∈ t.stepsIndex) :
    (varandasStage p t fm s prev).2.getLast? =
      some ((runEvents p fm (maxForce fm t.cycles.length) s t.events).2 / 1000 + prev) := by
  rw [varandasStage_last p t fm s prev hM]
  have h0 := varLoop_aux p t fm s (t.pos_of_outputs hM) h
  have h1 := (foldl_varCycle p t fm (maxForce fm t.cycles.length) (List.range t.maxCycles) ⟨s, 0, []⟩).2
  unfold varLoop at h0 ⊢
  rw [h0] at h1
  simp only [add_zero, List.sum_nil, zero_add] at h1
  rw [h1]; rfl

theorem varandasStage_state (p : VarandasPar) (t : Traffic) (fm : ℕ → ℝ) (s : VarState) (prev : ℝ) :
    (varandasStage p t fm s prev).1 = (runEvents p fm (maxForce fm t.cycles.length) s t.events).1 := by
  exact (foldl_varCycle p t fm (maxForce fm t.cycles.length) (List.range t.maxCycles) ⟨s, 0, []⟩).1

/-! ### Sign of the increments -/

theorem trapezoid_nonneg (l : List (ℝ × ℝ)) (hx : (l.map Prod.fst).Pairwise (· ≤ ·)) (hy : ∀ q ∈ l, 0 ≤ q.2) :
    0 ≤ trapezoid l := by
  induction l with
  | nil => simp [trapezoid]
  | cons a l ih =>
    cases l with
    | nil => simp [trapezoid]
    | cons b l =>
      obtain ⟨x0, y0⟩ := a
      obtain ⟨x1, y1⟩ := b
      rw [trapezoid]
      have h1 := ih (List.Pairwise.of_cons (by simpa using hx)) (fun q hq => hy q (List.mem_cons_of_mem _ hq))
      have hx01 : x0 ≤ x1 := by
        simp only [List.map_cons, List.pairwise_cons] at hx
        exact hx.1 x1 (by simp)
      have hy0 : 0 ≤ y0 := hy (x0, y0) (by simp)
      have hy1 : 0 ≤ y1 := hy (x1, y1) (by simp)
      have := mul_nonneg (sub_nonneg.2 hx01) (add_nonneg hy1 hy0)
      linarith

theorem linspace_sorted (a b : ℝ) (h : a ≤ b) (n : ℕ) : (linspace a b n).Pairwise (· ≤ ·) := by
  unfold linspace
  rw [List.pairwise_map]
  exact List.Pairwise.imp (fun hij => linspaceAt_mono a b h n _ _ (le_of_lt hij)) List.pairwise_lt_range

theorem linspace_ge (a b : ℝ) (h : a ≤ b) (n : ℕ) : ∀ x ∈ linspace a b n, a ≤ x := by
  intro x hx
  unfold linspace at hx
  rw [List.mem_map] at hx
  obtain ⟨i, -, rfl⟩ := hx
  have := linspaceAt_mono a b h n 0 i (Nat.zero_le _)
  rwa [linspaceAt_zero] at this

theorem mAlphaBeta_pos (p : VarandasPar) (hF : 0 < p.F0) (hα : 0 ≤ p.alpha) (hN : 2 ≤ p.N0) : 0 < p.mAlphaBeta := by
  unfold VarandasPar.mAlphaBeta
  refine mul_pos (div_pos (Real.rpow_pos_of_pos hF _) (by linarith)) ?_
  obtain ⟨k, hk⟩ : ∃ k, p.N0 - 1 = k + 1 := ⟨p.N0 - 2, by omega⟩
  rw [hk, List.range'_succ, List.map_cons, List.sum_cons]
  have h1 : 0 < (1 / ((1 : ℕ) : ℝ)) ^ p.beta := Real.rpow_pos_of_pos (by norm_num) _
  have h2 : 0 ≤ (List.map (fun n : ℕ => (1 / (n : ℝ)) ^ p.beta) (List.range' (1 + 1) k)).sum := by
    apply List.sum_nonneg
    intro x hx
    rw [List.mem_map] at hx
    obtain ⟨n, -, rfl⟩ := hx
    exact Real.rpow_nonneg (by positivity) _
  linarith

theorem increment_nonneg (p : VarandasPar) (hγ : 0 ≤ p.gamma) (hF : 0 < p.F0) (hα : 0 ≤ p.alpha) (hN : 2 ≤ p.N0)
    (fmax h : ℝ) (hf : 0 ≤ fmax) (hh : 0 ≤ h) : 0 ≤ p.increment fmax h := by
  unfold VarandasPar.increment
  refine mul_nonneg (div_nonneg hγ (mAlphaBeta_pos p hF hα hN).le) (trapezoid_nonneg _ ?_ ?_)
  · rw [List.map_map]
    have : (Prod.fst ∘ fun F : ℝ => (F, F ^ p.alpha * (1 / (h + 1)) ^ p.beta)) = id := rfl
    rw [this, List.map_id]
    exact linspace_sorted 0 fmax hf 100
  · intro q hq
    rw [List.mem_map] at hq
    obtain ⟨F, hFm, rfl⟩ := hq
    exact mul_nonneg (Real.rpow_nonneg (linspace_ge 0 fmax hf 100 F hFm) _) (Real.rpow_nonneg (by positivity) _)

theorem increment_pos (p : VarandasPar) (hγ : 0 < p.gamma) (hF : 0 < p.F0) (hα : 0 ≤ p.alpha) (hN : 2 ≤ p.N0)
    (fmax h : ℝ) (hf : 0 < fmax) (hh : 0 ≤ h) : 0 < p.increment fmax h := by
  unfold VarandasPar.increment
  refine mul_pos (div_pos hγ (mAlphaBeta_pos p hF hα hN)) ?_
  have hl : linspace 0 fmax 100 = 0 :: (fmax / 99) :: (List.range' 2 98).map (linspaceAt 0 fmax 100) := by
    unfold linspace
    have : List.range 100 = 0 :: 1 :: List.range' 2 98 := by decide
    rw [this, List.map_cons, List.map_cons, linspaceAt_zero]
    congr 2
    unfold linspaceAt; norm_num
  have hs := linspace_sorted 0 fmax hf.le 100
  have hg := linspace_ge 0 fmax hf.le 100
  rw [hl] at hs hg ⊢
  simp only [List.map_cons]
  rw [trapezoid]
  have h1 : 0 ≤ trapezoid ((fmax / 99, (fmax / 99) ^ p.alpha * (1 / (h + 1)) ^ p.beta) ::
      ((List.range' 2 98).map (linspaceAt 0 fmax 100)).map fun F => (F, F ^ p.alpha * (1 / (h + 1)) ^ p.beta)) := by
    have := trapezoid_nonneg ((fmax / 99 :: (List.range' 2 98).map (linspaceAt 0 fmax 100)).map
      fun F => (F, F ^ p.alpha * (1 / (h + 1)) ^ p.beta)) ?_ ?_
    · simpa using this
    · rw [List.map_map]
      have hid : (Prod.fst ∘ fun F : ℝ => (F, F ^ p.alpha * (1 / (h + 1)) ^ p.beta)) = id := rfl
      rw [hid, List.map_id]
      exact List.Pairwise.of_cons hs
    · intro q hq
      rw [List.mem_map] at hq
      obtain ⟨F, hFm, rfl⟩ := hq
      exact mul_nonneg (Real.rpow_nonneg (hg F (List.mem_cons_of_mem _ hFm)) _) (Real.rpow_nonneg (by positivity) _)
  have h2 : 0 < (fmax / 99) ^ p.alpha * (1 / (h + 1)) ^ p.beta :=
    mul_pos (Real.rpow_pos_of_pos (by positivity) _) (Real.rpow_pos_of_pos (by positivity) _)
  have h3 : 0 ≤ (0 : ℝ) ^ p.alpha * (1 / (h + 1)) ^ p.beta :=
    mul_nonneg (Real.rpow_nonneg le_rfl _) (Real.rpow_nonneg (by positivity) _)
  have h4 : 0 < (fmax / 99 - 0) * ((fmax / 99) ^ p.alpha * (1 / (h + 1)) ^ p.beta + 0 ^ p.alpha * (1 / (h + 1)) ^ p.beta) :=
    mul_pos (by simpa using by positivity) (by linarith)
  linarith

theorem foldl_max_real_ge (l : List ℝ) (a : ℝ) : a ≤ l.foldl max a ∧ ∀ c ∈ l, c ≤ l.foldl max a := by
  induction l generalizing a with
  | nil => simp
  | cons x xs ih =>
    have h := ih (max a x)
    simp only [List.foldl_cons, List.mem_cons, forall_eq_or_imp]
    exact ⟨le_trans (le_max_left _ _) h.1, le_trans (le_max_right _ _) h.1, h.2⟩

theorem maxForce_nonneg (fm : ℕ → ℝ) (T : ℕ) : 0 ≤ maxForce fm T := (foldl_max_real_ge _ _).1

theorem passage_h_nonneg (fm : ℕ → ℝ) (s : VarState) (tr : ℕ) (h : 0 ≤ s.h) : 0 ≤ (s.passage fm tr).h := by
  unfold VarState.passage
  split
  · simp only; linarith
  · exact h

theorem runEvents_nonneg (p : VarandasPar) (hγ : 0 ≤ p.gamma) (hF : 0 < p.F0) (hα : 0 ≤ p.alpha) (hN : 2 ≤ p.N0)
    (fm : ℕ → ℝ) (fmax : ℝ) (hf : 0 ≤ fmax) (evs : List ℕ) (s : VarState) (hs : 0 ≤ s.h) :
    0 ≤ (runEvents p fm fmax s evs).2 ∧ 0 ≤ (runEvents p fm fmax s evs).1.h := by
  induction evs generalizing s with
  | nil => exact ⟨le_rfl, hs⟩
  | cons x xs ih =>
    rw [runEvents_cons]
    have hp := passage_h_nonneg fm s x hs
    have h := ih (s.passage fm x) hp
    exact ⟨add_nonneg (increment_nonneg p hγ hF hα hN fmax _ hf hp) h.1, h.2⟩

/-- The written values are non-negative. -/
theorem varLoop_out_nonneg (p : VarandasPar) (hγ : 0 ≤ p.gamma) (hF : 0 < p.F0) (hα : 0 ≤ p.alpha) (hN : 2 ≤ p.N0)
    (t : Traffic) (fm : ℕ → ℝ) (s : VarState) (hs : 0 ≤ s.h) :
    (∀ x ∈ (varLoop p t fm s).out, 0 ≤ x) ∧ 0 ≤ (varLoop p t fm s).state.h := by
  unfold varLoop
  have key : ∀ (L : List ℕ) (l : VarLoop), 0 ≤ l.state.h → 0 ≤ l.aux → (∀ x ∈ l.out, 0 ≤ x) →
      (∀ x ∈ (L.foldl (varCycle p t fm (maxForce fm t.cycles.length)) l).out, 0 ≤ x) ∧
        0 ≤ (L.foldl (varCycle p t fm (maxForce fm t.cycles.length)) l).state.h := by
    intro L
    induction L with
    | nil => intro l h1 _ h3; exact ⟨h3, h1⟩
    | cons n L ih =>
      intro l h1 h2 h3
      rw [List.foldl_cons]
      have hr := runEvents_nonneg p hγ hF hα hN fm _ (maxForce_nonneg fm t.cycles.length) (t.trainsInCycle n) l.state h1
      apply ih
      · unfold varCycle; rw [foldl_varTrain]; split <;> exact hr.2
      · unfold varCycle; rw [foldl_varTrain]
        split
        · exact le_rfl
        · exact add_nonneg h2 hr.1
      · unfold varCycle; rw [foldl_varTrain]
        split
        · intro x hx
          simp only [List.mem_append, List.mem_singleton] at hx
          rcases hx with hx | rfl
          · exact h3 x hx
          · exact add_nonneg h2 hr.1
        · exact h3
  exact key _ _ hs le_rfl (by simp)

theorem cumsum_sorted (l : List ℝ) (h : ∀ x ∈ l, 0 ≤ x) (a : ℝ) :
    (cumsum a l).Pairwise (· ≤ ·) ∧ ∀ x ∈ cumsum a l, a ≤ x := by
  induction l generalizing a with
  | nil => simp [cumsum]
  | cons x xs ih =>
    have hx := h x (by simp)
    have := ih (fun y hy => h y (List.mem_cons_of_mem _ hy)) (a + x)
    rw [cumsum, List.pairwise_cons]
    refine ⟨⟨this.2, this.1⟩, ?_⟩
    intro y hy
    rw [List.mem_cons] at hy
    rcases hy with rfl | hy
    · linarith
    · have := this.2 y hy; linarith

/-- A stage: sorted, and above the previous displacement. -/
theorem varandasStage_sorted (p : VarandasPar) (hγ : 0 ≤ p.gamma) (hF : 0 < p.F0) (hα : 0 ≤ p.alpha) (hN : 2 ≤ p.N0)
    (t : Traffic) (fm : ℕ → ℝ) (s : VarState) (hs : 0 ≤ s.h) (prev : ℝ) :
    (varandasStage p t fm s prev).2.Pairwise (· ≤ ·) ∧ (∀ x ∈ (varandasStage p t fm s prev).2, prev ≤ x) ∧
      0 ≤ (varandasStage p t fm s prev).1.h := by
  have ho := varLoop_out_nonneg p hγ hF hα hN t fm s hs
  have hp : ∀ x ∈ (List.range t.outputs).map fun i => (varLoop p t fm s).out.getD i 0, 0 ≤ x := by
    intro x hx
    rw [List.mem_map] at hx
    obtain ⟨i, -, rfl⟩ := hx
    rcases lt_or_ge i (varLoop p t fm s).out.length with h | h
    · rw [List.getD_eq_getElem _ _ h]; exact ho.1 _ (List.getElem_mem _)
    · rw [List.getD_eq_default _ _ h]
  have hc := cumsum_sorted _ hp 0
  unfold varandasStage
  refine ⟨?_, ?_, ho.2⟩
  · simp only
    rw [List.pairwise_map]
    exact hc.1.imp (fun {a b} hab => by linarith)
  · intro x hx
    simp only at hx
    rw [List.mem_map] at hx
    obtain ⟨d, hd, rfl⟩ := hx
    have := hc.2 d hd
    linarith

end Rose
