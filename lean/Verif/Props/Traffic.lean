/-
C118: reading the traffic.
-/
import Verif.Model.Traffic
import Verif.Spec.Traffic
import Verif.Props.Accumulation
import Mathlib.Algebra.Order.Floor.Semifield

set_option linter.unusedSectionVars false

namespace Rose
open Finset

theorem npMaxInt_spec (l : List ℤ) (m : ℤ) (h : npMaxInt l = .ok m) : m ∈ l ∧ ∀ x ∈ l, x ≤ m := by
  cases l with
  | nil => simp [npMaxInt] at h
  | cons a l =>
    simp only [npMaxInt, Except.ok.injEq] at h
    subst h
    induction l generalizing a with
    | nil => simp
    | cons b l ih =>
      obtain ⟨h1, h2⟩ := ih (max a b)
      rw [List.foldl_cons]
      refine ⟨?_, ?_⟩
      · rcases List.mem_cons.mp h1 with h | h
        · rw [h]
          rcases max_choice a b with h' | h' <;> rw [h'] <;> simp
        · simp [h]
      · intro x hx
        have hm := h2 (max a b) (by simp)
        rcases List.mem_cons.mp hx with rfl | hx
        · exact (le_max_left _ _).trans hm
        · rcases List.mem_cons.mp hx with rfl | hx
          · exact (le_max_right _ _).trans hm
          · exact h2 x (by simp [hx])

theorem card_axlePassages (p h a : ℕ) (s e : ℤ) (hse : s ≤ e) :
    ((Spec.axlePassages p h a s e).card : ℤ) = (p * h * a : ℕ) * (e - s) := by
  unfold Spec.axlePassages
  rw [card_product, card_product, card_product, Int.card_Ico, card_range, card_range, card_range]
  push_cast
  rw [Int.toNat_of_nonneg (by omega)]
  ring

/-- What reading the traffic delivers, if it does not raise. -/
theorem readTrainInfo_ok (trains : List TrainEntry) (s e : ℤ) (steps : ℕ) (i : TrainInfo)
    (h : readTrainInfo trains s e steps = .ok i) :
    ∃ n : ℕ, npMaxInt (trains.map fun t => t.cycles s e) = .ok (n : ℤ) ∧ steps ≠ 0 ∧ i =
      { names := trains.map TrainEntry.name
        cyclesDay := trains.map TrainEntry.cyclesDay
        cycles := trains.map fun t => t.cycles s e
        forces := trains.map TrainEntry.forces
        time := linspace s e (n / steps)
        cumulative := linspace s ((n : ℝ) - 1) n
        stepsIndex := (linspace 0 ((n : ℝ) - 1) (n / steps)).map fun x => ⌊x⌋₊ } := by
  unfold readTrainInfo at h
  simp only at h
  split at h
  · simp at h
  · rename_i top htop
    split_ifs at h with hc
    push Not at hc
    refine ⟨top.toNat, by rw [htop, Int.toNat_of_nonneg hc.2], hc.1, ?_⟩
    injection h with h
    exact h.symm

theorem readTrafficFull_ok (trains : List TrainEntry) (s e : ℤ) (steps nodes : ℕ) (i : TrainInfo)
    (h : readTrafficFull trains s e steps = .ok (nodes, i)) : readTrainInfo trains s e steps = .ok i := by
  unfold readTrafficFull at h
  split at h
  · simp at h
  · cases hr : readTrainInfo trains s e steps with
    | error x => simp [hr, Except.map] at h
    | ok j =>
      simp only [hr, Except.map, Except.ok.injEq, Prod.mk.injEq] at h
      rw [h.2]

/-- **C118** For a period that does not end before it starts, reading the traffic succeeds exactly if there is a train, all
trains have forces for the same number of nodes and the output step is not 0; this number is the number of nodes. -/
theorem C118_accepts (trains : List TrainEntry) (s e : ℤ) (hse : s ≤ e) (steps nodes : ℕ) :
    (∃ i, readTrafficFull trains s e steps = .ok (nodes, i)) ↔
      trains ≠ [] ∧ (∀ t ∈ trains, t.forces.length = nodes) ∧ steps ≠ 0 := by
  have hread := (C60_traffic (trains.map fun t => t.forces.length) nodes).1
  constructor
  · rintro ⟨i, h⟩
    obtain ⟨n, -, h3, -⟩ := readTrainInfo_ok trains s e steps i (readTrafficFull_ok _ _ _ _ _ _ h)
    have hr : readTraffic (trains.map fun t => t.forces.length) = .ok nodes := by
      unfold readTrafficFull at h
      split at h
      · simp at h
      · rename_i m hm
        cases hr : readTrainInfo trains s e steps with
        | error x => simp [hr, Except.map] at h
        | ok j =>
          simp only [hr, Except.map, Except.ok.injEq, Prod.mk.injEq] at h
          rw [hm, h.1]
    obtain ⟨h1, h2⟩ := hread.mp hr
    exact ⟨by simpa using h1, by simpa using h2, h3⟩
  · rintro ⟨h1, h2, h3⟩
    have hr := hread.mpr ⟨by simpa using h1, by simpa using h2⟩
    obtain ⟨m, hm⟩ : ∃ m, npMaxInt (trains.map fun t => t.cycles s e) = .ok m := by
      cases trains with
      | nil => exact absurd rfl h1
      | cons t ts => exact ⟨_, rfl⟩
    have hm0 : 0 ≤ m := by
      obtain ⟨hmem, -⟩ := npMaxInt_spec _ _ hm
      rw [List.mem_map] at hmem
      obtain ⟨t, -, rfl⟩ := hmem
      exact mul_nonneg (by positivity) (by omega)
    unfold readTrafficFull
    simp only [hr]
    unfold readTrainInfo
    simp only [hm]
    rw [if_neg (by push Not; exact ⟨h3, hm0⟩)]
    exact ⟨_, rfl⟩

/-- **C118** The number of cycles of a train is the number of its axles that pass in the period; names and forces keep
their trains. -/
theorem C118_counts (trains : List TrainEntry) (s e : ℤ) (hse : s ≤ e) (steps nodes : ℕ) (i : TrainInfo)
    (h : readTrafficFull trains s e steps = .ok (nodes, i)) :
    i.cycles.length = trains.length ∧ ∀ (k : ℕ) (t : TrainEntry), trains[k]? = some t →
      i.names[k]? = some t.name ∧ i.forces[k]? = some t.forces ∧
      i.cyclesDay[k]? = some (Spec.axlePassages t.perHour t.hours t.axles 0 1).card ∧
      i.cycles[k]? = some ((Spec.axlePassages t.perHour t.hours t.axles s e).card : ℤ) := by
  obtain ⟨n, -, -, rfl⟩ := readTrainInfo_ok trains s e steps i (readTrafficFull_ok _ _ _ _ _ _ h)
  refine ⟨by simp, fun k t hk => ?_⟩
  simp only [List.getElem?_map, hk, Option.map_some, true_and, Option.some.injEq]
  constructor
  · have := card_axlePassages t.perHour t.hours t.axles 0 1 (by norm_num)
    simp only [TrainEntry.cyclesDay]
    push_cast at this
    zify
    rw [this]
    ring
  · rw [card_axlePassages _ _ _ _ _ hse]
    rfl

/-- **C118** The cycles of two consecutive periods add up to those of the whole period. -/
theorem C118_split (trains : List TrainEntry) (s m e : ℤ) (steps₁ steps₂ steps₃ n₁ n₂ n₃ : ℕ) (i₁ i₂ i₃ : TrainInfo)
    (h₁ : readTrafficFull trains s m steps₁ = .ok (n₁, i₁)) (h₂ : readTrafficFull trains m e steps₂ = .ok (n₂, i₂))
    (h₃ : readTrafficFull trains s e steps₃ = .ok (n₃, i₃)) : List.zipWith (· + ·) i₁.cycles i₂.cycles = i₃.cycles := by
  obtain ⟨_, -, -, rfl⟩ := readTrainInfo_ok _ _ _ _ _ (readTrafficFull_ok _ _ _ _ _ _ h₁)
  obtain ⟨_, -, -, rfl⟩ := readTrainInfo_ok _ _ _ _ _ (readTrafficFull_ok _ _ _ _ _ _ h₂)
  obtain ⟨_, -, -, rfl⟩ := readTrainInfo_ok _ _ _ _ _ (readTrafficFull_ok _ _ _ _ _ _ h₃)
  simp only [List.zipWith_map, List.zipWith_self]
  apply List.map_congr_left
  intro t _
  unfold TrainEntry.cycles
  ring

theorem foldl_max_toNat (l : List ℤ) (a : ℕ) :
    (l.map Int.toNat).foldl max a = (l.foldl max (a : ℤ)).toNat := by
  induction l generalizing a with
  | nil => simp
  | cons x l ih =>
    rw [List.map_cons, List.foldl_cons, ih, List.foldl_cons]
    congr 2
    rcases le_total 0 x with h | h
    · have : (x.toNat : ℤ) = x := Int.toNat_of_nonneg h
      push_cast
      rw [this]
    · rw [Int.toNat_of_nonpos h, Nat.max_zero, max_eq_left (by omega)]

theorem npMax_toNat (l : List ℤ) (n : ℕ) (h : npMaxInt l = .ok (n : ℤ)) : (l.map Int.toNat).foldl max 0 = n := by
  cases l with
  | nil => simp [npMaxInt] at h
  | cons a l =>
    simp only [npMaxInt, Except.ok.injEq] at h
    rw [List.map_cons, List.foldl_cons, foldl_max_toNat]
    rcases le_total 0 a with ha | ha
    · rw [show ((max 0 a.toNat : ℕ) : ℤ) = a by omega, h]
      simp
    · rw [show ((max 0 a.toNat : ℕ) : ℤ) = 0 by omega]
      have e : l.foldl max 0 = max 0 (l.foldl max a) := by
        clear h
        induction l generalizing a with
        | nil => simp [ha]
        | cons b l ih =>
          rw [List.foldl_cons, List.foldl_cons]
          have key : ∀ (l : List ℤ) (x y : ℤ), l.foldl max (max x y) = max x (l.foldl max y) := by
            intro l
            induction l with
            | nil => simp
            | cons z l ih => intro x y; rw [List.foldl_cons, List.foldl_cons, max_assoc, ih]
          rw [key l 0 b, key l a b, ← max_assoc, max_eq_left ha]
      rw [e, h]
      simp

/-- The traffic that the settlement models (C53-C61) work with. -/
noncomputable def TrainInfo.traffic (i : TrainInfo) (s : ℤ) (steps : ℕ) : Traffic := ⟨i.cycles.map Int.toNat, s, steps⟩

theorem floor_index (N M j : ℕ) (hN : 1 ≤ N) :
    ⌊linspaceAt 0 ((N : ℝ) - 1) M j⌋₊ = if M ≤ 1 then 0 else j * (N - 1) / (M - 1) := by
  unfold linspaceAt
  split_ifs with h
  · simp
  · have e : (0 : ℝ) + (j : ℝ) * (((N : ℝ) - 1 - 0) / ((M : ℝ) - 1)) = ((j * (N - 1) : ℕ) : ℝ) / ((M - 1 : ℕ) : ℝ) := by
      push_cast [Nat.cast_sub hN, Nat.cast_sub (show 1 ≤ M by omega)]
      ring
    rw [e]
    exact Nat.floor_div_eq_div _ _

/-- **C118** What is read is what the settlement models use: output times, cycle numbers and output indices. -/
theorem C118_traffic (trains : List TrainEntry) (s e : ℤ) (steps nodes : ℕ) (i : TrainInfo)
    (h : readTrafficFull trains s e steps = .ok (nodes, i)) :
    i.time = (i.traffic s steps).cumulativeTime e ∧ i.stepsIndex = (i.traffic s steps).stepsIndex ∧
      i.cumulative = (List.range (i.traffic s steps).maxCycles).map (i.traffic s steps).cumulativeCycle := by
  obtain ⟨n, hn, hs, rfl⟩ := readTrainInfo_ok trains s e steps i (readTrafficFull_ok _ _ _ _ _ _ h)
  have hmax := npMax_toNat _ _ hn
  simp only [TrainInfo.traffic, Traffic.cumulativeTime, Traffic.stepsIndex, Traffic.outputs, Traffic.maxCycles, hmax]
  refine ⟨trivial, ?_, ?_⟩
  · unfold linspace
    rw [List.map_map]
    apply List.map_congr_left
    intro j hj
    rw [List.mem_range] at hj
    have h1 : 1 ≤ n := by
      by_contra hc
      have : n = 0 := by omega
      subst this
      simp at hj
    rw [Function.comp_apply, floor_index n _ j h1]
  · unfold linspace
    apply List.map_congr_left
    intro j _
    simp only [Traffic.cumulativeCycle, Traffic.maxCycles, hmax]

/-- **C118** The outputs: as many times as indices, one for every `steps` cycles of the busiest train; the indices are
strictly increasing cycle numbers. With two or more outputs the first is at the start and the last at the end of the period
and of the cycles. -/
theorem C118_outputs (trains : List TrainEntry) (s e : ℤ) (steps nodes : ℕ) (i : TrainInfo)
    (h : readTrafficFull trains s e steps = .ok (nodes, i)) :
    ∃ n : ℕ, (n : ℤ) ∈ i.cycles ∧ (∀ c ∈ i.cycles, c ≤ n) ∧ i.time.length = n / steps ∧ i.stepsIndex.length = n / steps ∧
      i.stepsIndex.Pairwise (· < ·) ∧ (∀ k ∈ i.stepsIndex, k < n) ∧
      (2 ≤ n / steps → i.stepsIndex.head? = some 0 ∧ i.stepsIndex.getLast? = some (n - 1) ∧
        i.time.head? = some (s : ℝ) ∧ i.time.getLast? = some (e : ℝ)) := by
  obtain ⟨ht1, ht2, -⟩ := C118_traffic trains s e steps nodes i h
  obtain ⟨n, hn, hs, rfl⟩ := readTrainInfo_ok trains s e steps i (readTrafficFull_ok _ _ _ _ _ _ h)
  obtain ⟨m1, m2⟩ := npMaxInt_spec _ _ hn
  have hmax := npMax_toNat _ _ hn
  have hMn : n / steps ≤ n := Nat.div_le_self n steps
  refine ⟨n, m1, m2, by simp [linspace], by simp [linspace], ?_⟩
  simp only [TrainInfo.traffic, Traffic.stepsIndex, Traffic.outputs, Traffic.maxCycles, hmax] at ht2
  rw [ht2]
  generalize hM : n / steps = M at *
  refine ⟨?_, ?_, ?_⟩
  · rw [List.pairwise_map]
    apply List.Pairwise.imp_of_mem _ List.pairwise_lt_range
    intro a b ha hb hab
    rw [List.mem_range] at ha hb
    rw [if_neg (by omega), if_neg (by omega)]
    have hstep : 1 ≤ (n - 1) / (M - 1) := (Nat.one_le_div_iff (by omega)).mpr (by omega)
    calc a * (n - 1) / (M - 1) < a * (n - 1) / (M - 1) + 1 := Nat.lt_succ_self _
      _ = (a * (n - 1) + (M - 1)) / (M - 1) := (Nat.add_div_right _ (by omega)).symm
      _ ≤ (a * (n - 1) + (n - 1)) / (M - 1) := Nat.div_le_div_right (by omega)
      _ = (a + 1) * (n - 1) / (M - 1) := by rw [add_mul, one_mul]
      _ ≤ b * (n - 1) / (M - 1) := Nat.div_le_div_right (Nat.mul_le_mul_right _ hab)
  · intro k hk
    rw [List.mem_map] at hk
    obtain ⟨j, hj, rfl⟩ := hk
    rw [List.mem_range] at hj
    split_ifs with h1
    · omega
    · have : j * (n - 1) / (M - 1) ≤ (M - 1) * (n - 1) / (M - 1) :=
        Nat.div_le_div_right (Nat.mul_le_mul_right _ (by omega))
      rw [Nat.mul_div_cancel_left _ (by omega)] at this
      omega
  · intro h2
    have hr0 : (List.range M)[0]? = some 0 := by rw [List.getElem?_range (by omega)]
    have hrl : (List.range M)[M - 1]? = some (M - 1) := by rw [List.getElem?_range (by omega)]
    simp only [linspace, List.head?_eq_getElem?, List.getLast?_eq_getElem?, List.length_map, List.length_range,
      List.getElem?_map, hr0, hrl, Option.map_some, linspaceAt_zero, linspaceAt_last _ _ _ h2, and_true,
      Option.some.injEq]
    rw [if_neg (by omega), if_neg (by omega)]
    exact ⟨by simp, Nat.mul_div_cancel_left _ (by omega)⟩

/-- Two train types over 10 days, output every 100 cycles: 1600 and 320 axles, 16 outputs. -/
example : ∃ i, readTrafficFull [⟨"ic", 2, 10, 8, [[100], [90]]⟩, ⟨"freight", 1, 8, 4, [[120], [110]]⟩] 0 10 100 = .ok (2, i) ∧
    i.cycles = [1600, 320] := by
  obtain ⟨i, hi⟩ := (C118_accepts [⟨"ic", 2, 10, 8, [[100], [90]]⟩, ⟨"freight", 1, 8, 4, [[120], [110]]⟩] 0 10 (by norm_num) 100 2).mpr
    (by simp)
  refine ⟨i, hi, ?_⟩
  obtain ⟨n, -, -, rfl⟩ := readTrainInfo_ok _ _ _ _ _ (readTrafficFull_ok _ _ _ _ _ _ hi)
  simp [TrainEntry.cycles, TrainEntry.cyclesDay]

end Rose
