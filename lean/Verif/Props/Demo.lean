/-
C139: the demo scripts.
-/
import Verif.Model.Demo
import Verif.Props.CombinedTrack
import Verif.Props.DefaultRide
import Verif.Props.Accumulation

set_option linter.unusedSectionVars false

namespace Rose
open Finset

/-! ### Times and positions -/

/-- Specification: the time of step `k` of a calculation with `n` points in the initialisation time `a` and then steps of
`T / (m - 1)`. -/
noncomputable def Spec.demoTimeAt (a : ℝ) (n : ℕ) (T : ℝ) (m k : ℕ) : ℝ :=
  if k < n then (k : ℝ) * (a / (n - 1)) else a + ((k : ℝ) - n + 1) * (T / (m - 1))

theorem demoTime_length (a : ℝ) (n : ℕ) (T : ℝ) (m : ℕ) : (demoTime a n T m).length = n + (m - 1) := by
  simp [demoTime, linspace]

theorem linspace_last (a b : ℝ) (n : ℕ) (hn : 2 ≤ n) : (linspace a b n).getLast?.getD 0 = b := by
  rw [List.getLast?_eq_getElem?]
  have h1 : (linspace a b n).length = n := by simp [linspace]
  rw [h1, List.getElem?_eq_getElem (by rw [h1]; omega), Option.getD_some]
  simp only [linspace, List.getElem_map, List.getElem_range]
  exact linspaceAt_last a b n hn

theorem demoTime_getD (a : ℝ) (n : ℕ) (T : ℝ) (m k : ℕ) (hn : 2 ≤ n) (hk : k < n + (m - 1)) :
    (demoTime a n T m).getD k 0 = Spec.demoTimeAt a n T m k := by
  have h1 : (linspace 0 a n).length = n := by simp [linspace]
  unfold demoTime Spec.demoTimeAt
  dsimp only
  rw [linspace_last _ _ _ hn]
  split_ifs with h
  · rw [List.getD_append _ _ _ _ (by omega), List.getD_eq_getElem _ _ (by omega)]
    simp only [linspace, List.getElem_map, List.getElem_range, linspaceAt]
    rw [if_neg (by omega)]
    ring
  · rw [List.getD_append_right _ _ _ _ (by omega), h1, List.getD_eq_getElem _ _ (by simp [linspace]; omega)]
    simp only [linspace, List.getElem_drop, List.getElem_map, List.getElem_range, linspaceAt]
    rw [if_neg (by omega)]
    push_cast [Nat.cast_sub (show n ≤ k by omega)]
    ring

/-- One step: `a / (n - 1)` in the initialisation, `T / (m - 1)` afterwards. -/
theorem demoTimeAt_step (a : ℝ) (n : ℕ) (T : ℝ) (m k : ℕ) (hn : 2 ≤ n) :
    Spec.demoTimeAt a n T m (k + 1) - Spec.demoTimeAt a n T m k = if k + 1 < n then a / (n - 1) else T / (m - 1) := by
  unfold Spec.demoTimeAt
  have hn' : (n : ℝ) - 1 ≠ 0 := by
    have : (2 : ℝ) ≤ n := by exact_mod_cast hn
    linarith
  by_cases h : k + 1 < n
  · rw [if_pos h, if_pos h, if_pos (by omega)]
    push_cast
    ring
  · rw [if_neg h, if_neg h]
    by_cases h2 : k < n
    · have : k + 1 = n := by omega
      have e : (k : ℝ) = n - 1 := by rw [← this]; push_cast; ring
      rw [if_pos h2]
      push_cast
      rw [e]
      field_simp
      ring
    · rw [if_neg h2]
      push_cast
      ring

theorem demoVelocities_getD (N n : ℕ) (v : ℝ) (k : ℕ) (hk : k < N) :
    (demoVelocities N n v).getD k 0 = if k < n then 0 else v := by
  rw [List.getD_eq_getElem _ _ (by simpa [demoVelocities] using hk)]
  simp [demoVelocities]

/-- **C139, times** The time starts at zero, increases and ends at the initialisation time plus the running time; there is one velocity per
time step. -/
theorem C139_time (a : ℝ) (n : ℕ) (T : ℝ) (m : ℕ) (v : ℝ) (hn : 2 ≤ n) (hm : 2 ≤ m) (ha : 0 < a) (hT : 0 < T) :
    let time := demoTime a n T m
    time.length = n + (m - 1) ∧ (demoVelocities time.length n v).length = time.length ∧ time.getD 0 0 = 0 ∧
      time.getD (n - 1) 0 = a ∧ time.getD (time.length - 1) 0 = a + T ∧
      ∀ k, k + 1 < time.length → time.getD k 0 < time.getD (k + 1) 0 := by
  have hlen := demoTime_length a n T m
  have hn' : (0 : ℝ) < n - 1 := by
    have : (2 : ℝ) ≤ n := by exact_mod_cast hn
    linarith
  have hm' : (0 : ℝ) < m - 1 := by
    have : (2 : ℝ) ≤ m := by exact_mod_cast hm
    linarith
  dsimp only
  refine ⟨hlen, by simp [demoVelocities], ?_, ?_, ?_, ?_⟩
  · rw [demoTime_getD _ _ _ _ _ hn (by omega)]
    simp [Spec.demoTimeAt, show 0 < n by omega]
  · rw [demoTime_getD _ _ _ _ _ hn (by omega), Spec.demoTimeAt, if_pos (by omega)]
    push_cast [Nat.cast_sub (show 1 ≤ n by omega)]
    field_simp
  · rw [hlen, demoTime_getD _ _ _ _ _ hn (by omega), Spec.demoTimeAt, if_neg (by omega)]
    push_cast [Nat.cast_sub (show 1 ≤ m by omega), Nat.cast_sub (show 1 ≤ n + (m - 1) by omega)]
    field_simp
    ring
  · intro k hk
    rw [demoTime_getD _ _ _ _ _ hn (by omega), demoTime_getD _ _ _ _ _ hn (by omega)]
    have := demoTimeAt_step a n T m k hn
    have h1 : 0 < a / (n - 1 : ℝ) := by positivity
    have h2 : 0 < T / (m - 1 : ℝ) := by positivity
    split_ifs at this <;> linarith

/-- **C139, positions** The train stands still in the initialisation and in the step after it; from then on it runs at constant
speed. -/
theorem C139_position (a : ℝ) (n : ℕ) (T : ℝ) (m : ℕ) (v start : ℝ) (hn : 2 ≤ n) (k : ℕ) (hk : k < n + (m - 1)) :
    let time := demoTime a n T m
    Spec.wheelX time (demoVelocities time.length n v) start k =
      if k ≤ n then start else start + v * (time.getD k 0 - time.getD n 0) := by
  dsimp only
  have hlen := demoTime_length a n T m
  induction k with
  | zero => simp [Spec.wheelX]
  | succ k ih =>
    have ih := ih (by omega)
    have hs : Spec.wheelX (demoTime a n T m) (demoVelocities (demoTime a n T m).length n v) start (k + 1) =
        Spec.wheelX (demoTime a n T m) (demoVelocities (demoTime a n T m).length n v) start k +
          (demoVelocities (demoTime a n T m).length n v).getD k 0 * ((demoTime a n T m).getD (k + 1) 0 - (demoTime a n T m).getD k 0) := by
      unfold Spec.wheelX
      rw [sum_range_succ]
      ring
    rw [hs, ih, demoVelocities_getD _ _ _ _ (by omega)]
    by_cases h1 : k + 1 ≤ n
    · rw [if_pos (by omega), if_pos (by omega), if_pos h1, zero_mul, add_zero]
    · rw [if_neg h1, if_neg (show ¬ k < n by omega)]
      by_cases h2 : k ≤ n
      · have : k = n := by omega
        subst this
        rw [if_pos le_rfl]
      · rw [if_neg h2]
        ring

/-! ### One train -/

/-- The solver solves what the calculation of a train of a script gives it. -/
def DemoInput.Solves {H : Type*} [DecidableEq H] (hash : (Fin 3 → ℝ) → H) (i : DemoInput) (irr : ℕ → ℕ → ℝ)
    (solver : TrimState ℝ → (List (ℕ × List (ℕ → ℝ)) → List (ℕ → ℝ) → ℕ → (ℕ → ℝ) → ℕ → ℝ) → SolverOutput ℝ) (j : DemoJob) : Prop :=
  ∀ c train run st, combinedTrack hash i.perSleeper (3 / 5) (i.sleepers.map fun n => (n, 1)) = .ok c →
    setFullTrain j.train i.start 1 = .ok train →
    (i.ride j (c.numbered (3 / 5)) train irr).coupledOnCombined c (3 / 5) (demoSoils (3 / 5) i.stiffness i.damping) = .ok run →
    run.loadedTrack.input.initialise freshFlags = .ok st →
    Spec.SolvesCoupled (run.system hash st) (run.rhs hash st) (i.ride j (c.numbered (3 / 5)) train irr).time.length
      (solver (run.system hash st) (run.rhs hash st))

/-- The conditions of C139 on the values of a script: rail elements and sleepers, soil values for all segments that are
positive stiffnesses, and a train (not the SLT) at a start and with a speed and running time so that it stays on the rail, in steps that
are not longer than a rail element. `length` is the length of the rail. -/
structure DemoInput.Fits (i : DemoInput) (j : DemoJob) : Prop where
  perSleeper : 0 < i.perSleeper ∧ i.perSleeper < 600000000
  sleepers : ∀ n ∈ i.sleepers, 0 < n
  two : 2 ≤ i.sleepers.sum
  stiffness : i.sleepers.length ≤ i.stiffness.length
  damping : i.sleepers.length ≤ i.damping.length
  positive : ∀ k ∈ i.stiffness, 0 < k
  train : j.train ≠ .sprinterSLT
  speed : 0 ≤ j.speed
  steps : 2 ≤ demoSteps j.runningTime i.step
  time : 0 < j.runningTime
  slow : j.speed * (j.runningTime / (demoSteps j.runningTime i.step - 1)) ≤ 3 / 5 / i.perSleeper
  rear : 0 ≤ i.start + (Spec.trainSheet j.train).axles.getD 0 0
  front : i.start + (Spec.trainSheet j.train).axles.getD 3 0 + j.speed * j.runningTime <
    ((i.sleepers.sum * i.perSleeper + (i.sleepers.length - 1) * (i.perSleeper - 1) - 1 : ℕ) : ℝ) * (3 / 5 / i.perSleeper)

theorem demoGeometry_segments (r : ℕ) (l : List ℕ) : (demoGeometry r l).segments = l.map fun n => (n, 1) := by
  unfold demoGeometry
  apply List.ext_getElem
  · simp
  · intro k h1 h2
    simp

theorem demoGeometry_distance (r : ℕ) (l : List ℕ) : (demoGeometry r l).distance = 3 / 5 := by
  simp [demoGeometry]

theorem demoSoils_length (d : ℝ) (a b : List ℝ) : (demoSoils d a b).length = min a.length b.length := by
  simp [demoSoils]

theorem noInt_three_halves : ¬ ∃ z : ℤ, (3 / 2 : ℝ) = z := by
  rintro ⟨z, hz⟩
  have h2 : (3 : ℝ) = ((2 * z : ℤ) : ℝ) := by
    push_cast
    linarith
  have h3 : (3 : ℤ) = 2 * z := by exact_mod_cast h2
  omega

/-- The steps of a train of a script. -/
theorem DemoInput.Fits.step {i : DemoInput} {j : DemoJob} (f : i.Fits j) (track : HorizontalTrack ℝ) (train : Train ℝ × List ℝ)
    (irr : ℕ → ℕ → ℝ) (k : ℕ) (hk : k + 1 < (i.ride j track train irr).time.length) :
    0 ≤ (i.ride j track train irr).vel.getD k 0 * ((i.ride j track train irr).time.getD (k + 1) 0 - (i.ride j track train irr).time.getD k 0) ∧
      (i.ride j track train irr).vel.getD k 0 * ((i.ride j track train irr).time.getD (k + 1) 0 - (i.ride j track train irr).time.getD k 0) ≤
        j.speed * (j.runningTime / (demoSteps j.runningTime i.step - 1)) := by
  have hm' : (0 : ℝ) < (demoSteps j.runningTime i.step : ℝ) - 1 := by
    have : (2 : ℝ) ≤ demoSteps j.runningTime i.step := by exact_mod_cast f.steps
    linarith
  have hT : 0 < j.runningTime := f.time
  have hq : 0 < j.runningTime / ((demoSteps j.runningTime i.step : ℝ) - 1) := by positivity
  have htl := demoTime_length (1 / 10 ^ 4) 5 j.runningTime (demoSteps j.runningTime i.step)
  have hk' : k + 1 < (demoTime (1 / 10 ^ 4) 5 j.runningTime (demoSteps j.runningTime i.step)).length := hk
  show 0 ≤ (demoVelocities _ 5 j.speed).getD k 0 * ((demoTime _ 5 _ _).getD (k + 1) 0 - (demoTime _ 5 _ _).getD k 0) ∧
    (demoVelocities _ 5 j.speed).getD k 0 * ((demoTime _ 5 _ _).getD (k + 1) 0 - (demoTime _ 5 _ _).getD k 0) ≤ _
  rw [demoVelocities_getD _ _ _ _ (by omega), demoTime_getD _ _ _ _ _ (by norm_num) (by omega),
    demoTime_getD _ _ _ _ _ (by norm_num) (by omega), demoTimeAt_step _ _ _ _ _ (by norm_num)]
  by_cases h5 : k < 5
  · rw [if_pos h5, zero_mul]
    exact ⟨le_rfl, mul_nonneg f.speed hq.le⟩
  · rw [if_neg h5, if_neg (by omega)]
    exact ⟨mul_nonneg f.speed hq.le, le_rfl⟩

/-- A train of a script runs over any rail on which it stays. -/
theorem DemoInput.Fits.runs {i : DemoInput} {j : DemoJob} (f : i.Fits j) (track : HorizontalTrack ℝ) (train : Train ℝ × List ℝ)
    (irr : ℕ → ℕ → ℝ) (htrain : setFullTrain j.train i.start 1 = .ok train) (count : ℕ)
    (hfront : i.start + (Spec.trainSheet j.train).axles.getD 3 0 + j.speed * j.runningTime < ((count - 1 : ℕ) : ℝ) * (3 / 5 / i.perSleeper)) :
    (i.ride j track train irr).Runs count (3 / 5 / i.perSleeper) := by
  have hr : (1 : ℝ) ≤ i.perSleeper := by exact_mod_cast f.perSleeper.1
  have hm' : (0 : ℝ) < (demoSteps j.runningTime i.step : ℝ) - 1 := by
    have : (2 : ℝ) ≤ demoSteps j.runningTime i.step := by exact_mod_cast f.steps
    linarith
  have hT : 0 < j.runningTime := f.time
  have hq : 0 < j.runningTime / ((demoSteps j.runningTime i.step : ℝ) - 1) := by positivity
  have htl := demoTime_length (1 / 10 ^ 4) 5 j.runningTime (demoSteps j.runningTime i.step)
  obtain ⟨-, hvl, -, -, hend, hmono⟩ := C139_time (1 / 10 ^ 4) 5 j.runningTime (demoSteps j.runningTime i.step) j.speed (by norm_num)
    f.steps (by norm_num) hT
  have hvT : 0 ≤ j.speed * j.runningTime := mul_nonneg f.speed hT.le
  refine default_runs (q := i.ride j track train irr) j.train f.train i.start 1 (by rw [htrain]; rfl) ?_ le_rfl ?_ ?_
    (fun k hk => (f.step track train irr k hk).1) (fun k hk => (f.step track train irr k hk).2.trans f.slow) ?_ ?_ ?_ ?_ ?_ noInt_three_halves
  · calc (3 / 5 : ℝ) / i.perSleeper ≤ 3 / 5 := div_le_self (by norm_num) hr
      _ < 17 / 20 := by norm_num
  · exact hvl.symm
  · intro h0
    have h1 : (demoTime (1 / 10 ^ 4) 5 j.runningTime (demoSteps j.runningTime i.step)).length = 0 := by
      rw [show demoTime (1 / 10 ^ 4) 5 j.runningTime (demoSteps j.runningTime i.step) = [] from h0]; rfl
    omega
  · have := f.rear
    push_cast
    linarith
  · linarith
  · intro k hk
    have hk' : k < 5 + (demoSteps j.runningTime i.step - 1) := by rw [← htl]; exact hk
    have hX := C139_position (1 / 10 ^ 4) 5 j.runningTime (demoSteps j.runningTime i.step) j.speed
      (i.start + (Spec.trainSheet j.train).axles.getD 3 0) (by norm_num) k hk'
    refine le_trans (le_of_eq hX) ?_
    split_ifs with h5
    · linarith
    · refine le_trans ?_ hfront.le
      have : (demoTime (1 / 10 ^ 4) 5 j.runningTime (demoSteps j.runningTime i.step)).getD k 0 -
          (demoTime (1 / 10 ^ 4) 5 j.runningTime (demoSteps j.runningTime i.step)).getD 5 0 ≤ j.runningTime := by
        rw [demoTime_getD _ _ _ _ _ (by norm_num) hk', demoTime_getD _ _ _ _ _ (by norm_num) (by have := f.steps; omega), Spec.demoTimeAt,
          Spec.demoTimeAt, if_neg (by omega), if_neg (by omega)]
        have h6 : (k : ℝ) - 5 ≤ (demoSteps j.runningTime i.step : ℝ) - 1 := by
          have : k + 1 ≤ 5 + demoSteps j.runningTime i.step := by have := f.steps; omega
          have : (k : ℝ) + 1 ≤ 5 + demoSteps j.runningTime i.step := by exact_mod_cast this
          linarith
        have h7 := mul_le_mul_of_nonneg_right h6 hq.le
        rw [mul_div_cancel₀ _ hm'.ne'] at h7
        push_cast
        linarith
      have := mul_le_mul_of_nonneg_left this f.speed
      linarith
  · show (0 : ℝ) ≤ 9.81
    norm_num
  · show (0 : ℝ) < 9.1 / 10 ^ 7
    norm_num

theorem DemoInput.Fits.valid {i : DemoInput} {j : DemoJob} (f : i.Fits j) (track : HorizontalTrack ℝ) (train : Train ℝ × List ℝ)
    (irr : ℕ → ℕ → ℝ) (htrain : setFullTrain j.train i.start 1 = .ok train) :
    (i.ride j track train irr).ValidOn i.perSleeper (3 / 5) (i.sleepers.map fun n => (n, 1))
      (demoSoils (3 / 5) i.stiffness i.damping) := by
  have hr : (1 : ℝ) ≤ i.perSleeper := by exact_mod_cast f.perSleeper.1
  have hr0 : (0 : ℝ) < i.perSleeper := by linarith
  have hsum : ((i.sleepers.map fun n => ((n, 1) : ℕ × ℝ)).map Prod.fst).sum = i.sleepers.sum := by
    rw [List.map_map]; exact congrArg List.sum (List.map_id _)
  have hcount : railCount i.perSleeper (i.sleepers.map fun n => ((n, 1) : ℕ × ℝ)) =
      i.sleepers.sum * i.perSleeper + (i.sleepers.length - 1) * (i.perSleeper - 1) := by
    unfold railCount
    rw [hsum, List.length_map]
  refine ⟨?_, ?_, ?_, f.runs track train irr htrain _ (by rw [hcount]; exact f.front)⟩
  · refine ⟨f.perSleeper.1, ?_, ?_, by rw [hsum]; exact f.two⟩
    · rw [lt_div_iff₀ hr0]
      have : (i.perSleeper : ℝ) < 600000000 := by exact_mod_cast f.perSleeper.2
      linarith
    · intro s hs
      obtain ⟨n, hn, rfl⟩ := List.mem_map.1 hs
      exact ⟨f.sleepers n hn, by norm_num⟩
  · rw [demoSoils_length, List.length_map]
    exact le_min f.stiffness f.damping
  · intro w hw
    obtain ⟨k, hk, c, rfl⟩ : ∃ k ∈ i.stiffness, ∃ c, w = ⟨k * (3 / 5), none, some (c * (3 / 5))⟩ := by
      unfold demoSoils at hw
      rw [← List.map_uncurry_zip_eq_zipWith, List.mem_map] at hw
      obtain ⟨⟨k, c⟩, h1, rfl⟩ := hw
      exact ⟨k, (List.of_mem_zip h1).1, c, rfl⟩
    have := f.positive k hk
    constructor <;> simp only [DemoInput.ride, demoValues] <;> first | positivity | norm_num

/-- **C139** For every script whose values fit, every train (not the SLT), every irregularity and every solver that solves
what it is given: the calculation succeeds with one result per time step, and the results obey the laws of motion. -/
theorem C139_motion_partial {H : Type*} [DecidableEq H] (hash : (Fin 3 → ℝ) → H) (i : DemoInput) (j : DemoJob) (f : i.Fits j)
    (irr : ℕ → ℕ → ℝ)
    (solver : TrimState ℝ → (List (ℕ × List (ℕ → ℝ)) → List (ℕ → ℝ) → ℕ → (ℕ → ℝ) → ℕ → ℝ) → SolverOutput ℝ)
    (hs : i.Solves hash irr solver j) :
    ∃ c train sys res, combinedTrack hash i.perSleeper (3 / 5) (i.sleepers.map fun n => (n, 1)) = .ok c ∧
      setFullTrain j.train i.start 1 = .ok train ∧
      c.system (3 / 5) demoValues (demoSoils (3 / 5) i.stiffness i.damping) true = .ok sys ∧
      i.calculate hash irr solver j = .ok res ∧
      res.trackRows.length = 5 + (demoSteps j.runningTime i.step - 1) ∧
      res.trainRows.length = 5 + (demoSteps j.runningTime i.step - 1) ∧
      Spec.ObeysLaws hash (i.ride j (c.numbered (3 / 5)) train irr) sys (3 / 5 / i.perSleeper)
        (railCount i.perSleeper (i.sleepers.map fun n => (n, 1))) c.railNumber res := by
  have htrain := setFullTrain_eq (K := ℝ) j.train f.train i.start 1
  obtain ⟨c, -, hc, -⟩ := (f.valid (HorizontalTrack.mk (fun _ => newNode 0 0 0) [] [] [] [] [] [] [] [] [] 0) _ irr htrain).track hash (3 / 5)
  have v := f.valid (c.numbered (3 / 5)) _ irr htrain
  obtain ⟨c', sys, res, hc', hsys, hmain, h1, h2, h3⟩ := C138_motion_partial hash v (3 / 5)
    (i.ride j (c.numbered (3 / 5)) _ irr).time.length le_rfl solver fun c' run st hc' hrun hst => by
      rw [hc] at hc'
      injection hc' with hc'
      subst hc'
      exact hs c _ run st hc htrain hrun hst
  rw [hc] at hc'
  injection hc' with hc'
  subst hc'
  refine ⟨c, _, sys, res, hc, htrain, hsys, ?_, ?_, ?_, h3⟩
  · unfold DemoInput.calculate
    have hsys' : c.system (3 / 5) demoValues (demoSoils (3 / 5) i.stiffness i.damping) true = .ok sys := hsys
    simp only [demoGeometry_segments, demoGeometry_distance, bind, Except.bind, htrain]
    rw [show (demoGeometry i.perSleeper i.sleepers).perSleeper = i.perSleeper from rfl, hc]
    simp only [hsys']
    exact hmain
  · rw [h1]; exact demoTime_length _ _ _ _
  · rw [h2]; exact demoTime_length _ _ _ _

/-- **C139** There is such a solver. -/
theorem C139_solvable {H : Type*} [DecidableEq H] (hash : (Fin 3 → ℝ) → H) (i : DemoInput) (j : DemoJob) (f : i.Fits j)
    (irr : ℕ → ℕ → ℝ) : ∃ solver, i.Solves hash irr solver j := by
  have htrain := setFullTrain_eq (K := ℝ) j.train f.train i.start 1
  obtain ⟨c, -, hc, -⟩ := (f.valid (HorizontalTrack.mk (fun _ => newNode 0 0 0) [] [] [] [] [] [] [] [] [] 0) _ irr htrain).track hash (3 / 5)
  obtain ⟨solver, h⟩ := C138_solvable hash (f.valid (c.numbered (3 / 5)) _ irr htrain) (3 / 5) _ le_rfl
  refine ⟨solver, fun c' train run st hc' htrain' hrun hst => ?_⟩
  rw [hc] at hc'
  injection hc' with hc'
  subst hc'
  rw [htrain] at htrain'
  injection htrain' with htrain'
  subst htrain'
  exact h c run st hc hrun hst

/-! ### The scripts as they are -/

theorem demoSteps_eq (T : ℝ) (n : ℕ) (h : T / 0.00025 = n) : demoSteps T 0.00025 = n := by
  unfold demoSteps
  rw [h]
  exact Nat.floor_natCast n

/-- **C139, the values of `demo.py`** All trains of the script but the SLT fit its track. -/
theorem C139_shipped (j : DemoJob) (hj : j ∈ demoJobs) (hslt : j.train ≠ .sprinterSLT) : demoInput.Fits j := by
  have h14 : demoSteps 14 0.00025 = 56000 := demoSteps_eq _ _ (by norm_num)
  have h23 : demoSteps 23 0.00025 = 92000 := demoSteps_eq _ _ (by norm_num)
  simp only [demoJobs, List.mem_cons, List.not_mem_nil, or_false] at hj
  rcases hj with rfl | rfl | rfl | rfl | rfl | rfl <;> first | exact absurd rfl hslt | (
    constructor <;> simp only [demoInput, h14, h23, Spec.trainSheet] <;> first | exact hslt | norm_num)

/-- **C139, the values of `demo_rf.py`** All its trains but the SLT fit its track if the random fields are positive. -/
theorem C139_shipped_rf (stiffness damping : List ℝ) (h1 : stiffness.length = 1000) (h2 : damping.length = 1000)
    (hpos : ∀ k ∈ stiffness, 0 < k) (j : DemoJob) (hj : j ∈ demoJobs) (hslt : j.train ≠ .sprinterSLT) :
    (rfInput stiffness damping).Fits j := by
  have h14 : demoSteps 14 0.00025 = 56000 := demoSteps_eq _ _ (by norm_num)
  have h23 : demoSteps 23 0.00025 = 92000 := demoSteps_eq _ _ (by norm_num)
  simp only [demoJobs, List.mem_cons, List.not_mem_nil, or_false] at hj
  rcases hj with rfl | rfl | rfl | rfl | rfl | rfl <;> first | exact absurd rfl hslt | (
    constructor <;> simp only [rfInput, h14, h23, Spec.trainSheet, List.sum_replicate, List.length_replicate, h1, h2] <;>
      first | exact hpos | exact hslt | norm_num)

/-- **C139 is violated by the script itself** The SLT train needs two carts, `set_train` is called for one: whatever the values, its
calculation is refused, and `demo.py` stops after the first of its six trains. -/
theorem C139_script_violated {H : Type*} [DecidableEq H] (hash : (Fin 3 → ℝ) → H) (irr : DemoJob → ℕ → ℕ → ℝ)
    (solver : TrimState ℝ → (List (ℕ × List (ℕ → ℝ)) → List (ℕ → ℝ) → ℕ → (ℕ → ℝ) → ℕ → ℝ) → SolverOutput ℝ)
    (hs : ∀ j ∈ demoJobs, demoInput.Solves hash (irr j) solver j) :
    (∀ (i : DemoInput) irr v T, ∃ e, i.calculate hash irr solver ⟨.sprinterSLT, v, T⟩ = .error e) ∧
    ∃ res, demoScript hash irr solver = ([res], some .valueError) := by
  have hslt : ∀ start, setFullTrain TrainType.sprinterSLT start 1 = (.error .valueError : Except Err (Train ℝ × List ℝ)) := fun _ => rfl
  constructor
  · intro i irr v T
    unfold DemoInput.calculate
    simp only [bind, Except.bind]
    split
    · exact ⟨_, rfl⟩
    · split
      · exact ⟨_, rfl⟩
      · simp only [hslt]
        exact ⟨_, rfl⟩
  · have m1 : (⟨.doubleDekker, 140 / 3.6, 14⟩ : DemoJob) ∈ demoJobs := by simp [demoJobs]
    obtain ⟨c, train, sys, res, hc, -, hsys, hres, -⟩ := C139_motion_partial hash demoInput _ (C139_shipped _ m1 (by simp)) (irr _) solver (hs _ m1)
    refine ⟨res, ?_⟩
    have h2 : demoInput.calculate hash (irr ⟨.sprinterSLT, 140 / 3.6, 14⟩) solver ⟨.sprinterSLT, 140 / 3.6, 14⟩ = .error .valueError := by
      unfold DemoInput.calculate
      simp only [demoGeometry_segments, demoGeometry_distance, bind, Except.bind]
      rw [show (demoGeometry demoInput.perSleeper demoInput.sleepers).perSleeper = demoInput.perSleeper from rfl, hc]
      simp only [hsys, hslt]
    unfold demoScript demoJobs scriptLoop
    rw [hres]
    unfold scriptLoop
    rw [h2]

/-- Two soil stiffnesses, one sleeper per segment. -/
example (hash : (Fin 3 → ℝ) → ℕ) (irr : ℕ → ℕ → ℝ) :
    ∃ solver, (rfInput (List.replicate 1000 (10 ^ 8)) (List.replicate 1000 (10 ^ 4))).Solves hash irr solver ⟨.cargoTAPPS, 80 / 3.6, 23⟩ :=
  C139_solvable hash _ _ (C139_shipped_rf _ _ List.length_replicate List.length_replicate
    (fun k hk => by rw [List.eq_of_mem_replicate hk]; norm_num) _ (by simp [demoJobs]) (by simp)) irr

example (hash : (Fin 3 → ℝ) → ℕ) (irr : ℕ → ℕ → ℝ) : ∃ solver, demoInput.Solves hash irr solver ⟨.doubleDekker, 140 / 3.6, 14⟩ :=
  C139_solvable hash _ _ (C139_shipped _ (by simp [demoJobs]) (by simp)) irr

end Rose
