/-
C142: the calculations of the batch.
-/
import Verif.Model.BatchBase
import Verif.Props.Demo
import Verif.Props.BatchRun

set_option linter.unusedSectionVars false

namespace Rose
open Finset

/-- The conditions of C142: at least two sleepers, rail elements shorter than the shortest distance between the wheels of a train; positive
depth; a positive base speed; a train of type `ty` (not the SLT) that with speed `v` stays on the rail, in steps that are not
longer than a rail element; two or more points in both phases of positive length. -/
structure BatchInput.Fits (i : BatchInput) (ty : TrainType) (v : ℝ) : Prop where
  sleepers : 2 ≤ i.sleepers
  perSleeper : 0 < i.perSleeper
  short : i.distance / i.perSleeper < 17 / 20
  long : 1 / 1000000000 < i.distance / i.perSleeper
  depth : 1 / 1000000000 < i.depth
  train : ty ≠ .sprinterSLT
  base : 1 / 10 ^ 10 < i.speed
  speed : 0 ≤ v
  iniPoints : 2 ≤ i.nIni
  points : 2 ≤ i.nCalc
  iniTime : 0 < i.iniTime
  time : 0 < i.calcTime
  slow : v * (i.calcTime / (i.nCalc - 1)) ≤ i.distance / i.perSleeper
  rear : 0 ≤ i.start + (Spec.trainSheet ty).axles.getD 0 0
  front : i.start + (Spec.trainSheet ty).axles.getD 3 0 + v * i.calcTime <
    ((i.sleepers * i.perSleeper - 1 : ℕ) : ℝ) * (i.distance / i.perSleeper)

theorem BatchInput.velocities_eq (i : BatchInput) (v : ℝ) (h : 1 / 10 ^ 10 < i.speed) :
    i.velocities v = demoVelocities (demoTime i.iniTime i.nIni i.calcTime i.nCalc).length i.nIni v := by
  apply List.ext_getElem?
  intro k
  by_cases hk : k < (demoTime i.iniTime i.nIni i.calcTime i.nCalc).length
  · unfold BatchInput.velocities
    rw [C133_velocity _ _ _ _ _ _ _ rfl h k hk]
    simp [demoVelocities, hk]
  · rw [List.getElem?_eq_none, List.getElem?_eq_none]
    · simpa [demoVelocities] using hk
    · simpa [BatchInput.velocities, prepareCase, baseVelocities] using hk

theorem BatchInput.Fits.valid {i : BatchInput} {ty : TrainType} {v : ℝ} (f : i.Fits ty v) (r : WolfResult ℝ) (hk : 0 < r.stiffness)
    (track : HorizontalTrack ℝ) (train : Train ℝ × List ℝ) (irr : ℕ → ℕ → ℝ) (htrain : setFullTrain ty i.start 1 = .ok train) :
    (i.ride v track train irr).ValidOn i.perSleeper i.distance [(i.sleepers, i.depth)] [i.soil r] := by
  have hr0 : (0 : ℝ) < i.perSleeper := by exact_mod_cast f.perSleeper
  have hm' : (0 : ℝ) < (i.nCalc : ℝ) - 1 := by
    have : (2 : ℝ) ≤ i.nCalc := by exact_mod_cast f.points
    linarith
  have hdr : 0 < i.distance / i.perSleeper := lt_trans (by norm_num) f.long
  have hd : 0 < i.distance := by
    have := mul_pos hdr hr0
    rwa [div_mul_cancel₀ _ hr0.ne'] at this
  have hcount : railCount i.perSleeper [(i.sleepers, i.depth)] = i.sleepers * i.perSleeper := by
    simp [railCount]
  have hT := f.time
  have hq : 0 < i.calcTime / ((i.nCalc : ℝ) - 1) := by positivity
  have htl := demoTime_length i.iniTime i.nIni i.calcTime i.nCalc
  obtain ⟨-, hvl, -, -, hend, hmono⟩ := C139_time i.iniTime i.nIni i.calcTime i.nCalc v f.iniPoints f.points f.iniTime hT
  have hvT : 0 ≤ v * i.calcTime := mul_nonneg f.speed hT.le
  have hve := i.velocities_eq v f.base
  have hvel : (i.ride v track train irr).vel = demoVelocities (demoTime i.iniTime i.nIni i.calcTime i.nCalc).length i.nIni v := hve
  have htime : (i.ride v track train irr).time = demoTime i.iniTime i.nIni i.calcTime i.nCalc := rfl
  have hstep : ∀ k, k + 1 < (i.ride v track train irr).time.length →
      0 ≤ (i.ride v track train irr).vel.getD k 0 * ((i.ride v track train irr).time.getD (k + 1) 0 - (i.ride v track train irr).time.getD k 0) ∧
      (i.ride v track train irr).vel.getD k 0 * ((i.ride v track train irr).time.getD (k + 1) 0 - (i.ride v track train irr).time.getD k 0) ≤
        i.distance / i.perSleeper := by
    intro k hk
    rw [htime] at hk
    rw [hvel, htime, demoVelocities_getD _ _ _ _ (by omega), demoTime_getD _ _ _ _ _ f.iniPoints (by omega),
      demoTime_getD _ _ _ _ _ f.iniPoints (by omega), demoTimeAt_step _ _ _ _ _ f.iniPoints]
    by_cases h5 : k < i.nIni
    · rw [if_pos h5, zero_mul]
      exact ⟨le_rfl, hdr.le⟩
    · rw [if_neg h5, if_neg (by omega)]
      exact ⟨mul_nonneg f.speed hq.le, f.slow⟩
  have hfront : i.start + (Spec.trainSheet ty).axles.getD 3 0 + v * i.calcTime <
      ((railCount i.perSleeper [(i.sleepers, i.depth)] - 1 : ℕ) : ℝ) * (i.distance / i.perSleeper) := by
    rw [hcount]
    exact f.front
  refine C138_default (q := i.ride v track train irr) ty f.train i.start 1 (by rw [htrain]; rfl) ?_ (by simp) ?_ f.short le_rfl ?_ ?_
    (fun k hk => (hstep k hk).1) (fun k hk => (hstep k hk).2) ?_ ?_ ?_ ?_ ?_ noInt_three_halves
  · refine ⟨f.perSleeper, f.long, ?_, by simpa using f.sleepers⟩
    intro s hs
    obtain rfl := List.mem_singleton.1 hs
    exact ⟨by have := f.sleepers; show 0 < i.sleepers; omega, f.depth⟩
  · intro w hw
    obtain rfl := List.mem_singleton.1 hw
    have := mul_pos hk hd
    constructor <;> simp only [BatchInput.ride, batchValues, BatchInput.soil] <;> first | positivity | norm_num
  · rw [hvel, htime, hvl]
  · intro h0
    rw [htime] at h0
    have h1 := congrArg List.length h0
    have := f.iniPoints
    rw [htl, List.length_nil] at h1
    omega
  · have := f.rear
    push_cast
    linarith
  · linarith
  · intro k hk
    rw [htime] at hk
    have hk' : k < i.nIni + (i.nCalc - 1) := by rw [← htl]; exact hk
    have hX := C139_position i.iniTime i.nIni i.calcTime i.nCalc v
      (i.start + (Spec.trainSheet ty).axles.getD 3 0) f.iniPoints k hk'
    rw [htime, hvel]
    refine le_trans (le_of_eq hX) ?_
    split_ifs with h5
    · linarith
    · refine le_trans ?_ hfront.le
      have : (demoTime i.iniTime i.nIni i.calcTime i.nCalc).getD k 0 -
          (demoTime i.iniTime i.nIni i.calcTime i.nCalc).getD i.nIni 0 ≤ i.calcTime := by
        rw [demoTime_getD _ _ _ _ _ f.iniPoints hk', demoTime_getD _ _ _ _ _ f.iniPoints (by omega), Spec.demoTimeAt,
          Spec.demoTimeAt, if_neg (by omega), if_neg (by omega)]
        have h6 : (k : ℝ) - i.nIni ≤ (i.nCalc : ℝ) - 1 := by
          have : k + 1 ≤ i.nIni + i.nCalc := by omega
          have : (k : ℝ) + 1 ≤ i.nIni + i.nCalc := by exact_mod_cast this
          linarith
        have h7 := mul_le_mul_of_nonneg_right h6 hq.le
        rw [mul_div_cancel₀ _ hm'.ne'] at h7
        linarith
      have := mul_le_mul_of_nonneg_left this f.speed
      linarith
  · show (0 : ℝ) ≤ 9.81
    norm_num
  · show (0 : ℝ) < 9.1 / 10 ^ 7
    norm_num

/-- The solver solves what the calculation of a scenario gives it. -/
def BatchInput.Solves {H : Type*} [DecidableEq H] (hash : (Fin 3 → ℝ) → H) (i : BatchInput) (ty : TrainType) (irr : ℕ → ℕ → ℝ)
    (solver : TrimState ℝ → (List (ℕ × List (ℕ → ℝ)) → List (ℕ → ℝ) → ℕ → (ℕ → ℝ) → ℕ → ℝ) → SolverOutput ℝ) (v : ℝ)
    (r : WolfResult ℝ) : Prop :=
  ∀ c train run st, combinedTrack hash i.perSleeper i.distance [(i.sleepers, i.depth)] = .ok c →
    setFullTrain ty i.start 1 = .ok train →
    (i.ride v (c.numbered i.distance) train irr).coupledOnCombined c i.distance [i.soil r] = .ok run →
    run.loadedTrack.input.initialise freshFlags = .ok st →
    Spec.SolvesCoupled (run.system hash st) (run.rhs hash st) (i.ride v (c.numbered i.distance) train irr).time.length
      (solver (run.system hash st) (run.rhs hash st))

/-- **C142** For all values that fit, all trains but the SLT, every speed, every soil of positive stiffness, every irregularity and
every solver that solves what it is given: the calculation of the scenario succeeds with one result per time step; the results obey the laws of
motion of that train on the track whose springs of the soil have stiffness and damping of the scenario (per metre of track, times the sleeper
distance); the train stands still until the step after the initialisation and then runs with the speed `v`. -/
theorem C142_motion_partial {H : Type*} [DecidableEq H] (hash : (Fin 3 → ℝ) → H) (i : BatchInput) (ty : TrainType) (v : ℝ)
    (f : i.Fits ty v) (irr : ℕ → ℕ → ℝ)
    (solver : TrimState ℝ → (List (ℕ × List (ℕ → ℝ)) → List (ℕ → ℝ) → ℕ → (ℕ → ℝ) → ℕ → ℝ) → SolverOutput ℝ)
    (r : WolfResult ℝ) (hk : 0 < r.stiffness) (hs : i.Solves hash ty irr solver v r) :
    ∃ c train sys res, combinedTrack hash i.perSleeper i.distance [(i.sleepers, i.depth)] = .ok c ∧
      setFullTrain ty i.start 1 = .ok train ∧
      c.system i.distance batchValues [⟨r.stiffness * i.distance, none, some (r.damping * i.distance)⟩] true = .ok sys ∧
      i.calculate hash ty irr solver v r = .ok res ∧
      res.trackRows.length = i.nIni + (i.nCalc - 1) ∧ res.trainRows.length = i.nIni + (i.nCalc - 1) ∧
      let q := i.ride v (c.numbered i.distance) train irr
      Spec.ObeysLaws hash q sys (i.distance / i.perSleeper) (i.sleepers * i.perSleeper) c.railNumber res ∧
      ∀ start, ∀ k < i.nIni + (i.nCalc - 1), Spec.wheelX q.time q.vel start k =
        if k ≤ i.nIni then start else start + v * (Spec.demoTimeAt i.iniTime i.nIni i.calcTime i.nCalc k -
          Spec.demoTimeAt i.iniTime i.nIni i.calcTime i.nCalc i.nIni) := by
  have htrain := setFullTrain_eq (K := ℝ) ty f.train i.start 1
  obtain ⟨c, -, hc, -⟩ := (f.valid r hk (HorizontalTrack.mk (fun _ => newNode 0 0 0) [] [] [] [] [] [] [] [] [] 0) _ irr htrain).track hash
    i.distance
  have w := f.valid r hk (c.numbered i.distance) _ irr htrain
  obtain ⟨c', sys, res, hc', hsys, hmain, h1, h2, h3⟩ := C138_motion_partial hash w i.distance
    (i.ride v (c.numbered i.distance) _ irr).time.length le_rfl solver fun c' run st hc' hrun hst => by
      rw [hc] at hc'
      injection hc' with hc'
      subst hc'
      exact hs c _ run st hc htrain hrun hst
  rw [hc] at hc'
  injection hc' with hc'
  subst hc'
  have hcount : railCount i.perSleeper [(i.sleepers, i.depth)] = i.sleepers * i.perSleeper := by
    simp [railCount]
  rw [hcount] at h3
  refine ⟨c, _, sys, res, hc, htrain, hsys, ?_, ?_, ?_, h3, ?_⟩
  · unfold BatchInput.calculate
    simp only [bind, Except.bind, htrain, hc]
    exact hmain
  · rw [h1]; exact demoTime_length _ _ _ _
  · rw [h2]; exact demoTime_length _ _ _ _
  · intro start k hk'
    show Spec.wheelX (demoTime i.iniTime i.nIni i.calcTime i.nCalc) (i.velocities v) start k = _
    rw [i.velocities_eq v f.base]
    refine (C139_position i.iniTime i.nIni i.calcTime i.nCalc v start f.iniPoints k hk').trans ?_
    split_ifs with h
    · rfl
    · rw [demoTime_getD _ _ _ _ _ f.iniPoints hk', demoTime_getD _ _ _ _ _ f.iniPoints (by omega)]

/-- **C142** There is such a solver. -/
theorem C142_solvable {H : Type*} [DecidableEq H] (hash : (Fin 3 → ℝ) → H) (i : BatchInput) (ty : TrainType) (v : ℝ)
    (f : i.Fits ty v) (irr : ℕ → ℕ → ℝ) (r : WolfResult ℝ) (hk : 0 < r.stiffness) : ∃ solver, i.Solves hash ty irr solver v r := by
  have htrain := setFullTrain_eq (K := ℝ) ty f.train i.start 1
  obtain ⟨c, -, hc, -⟩ := (f.valid r hk (HorizontalTrack.mk (fun _ => newNode 0 0 0) [] [] [] [] [] [] [] [] [] 0) _ irr htrain).track hash
    i.distance
  obtain ⟨solver, h⟩ := C138_solvable hash (f.valid r hk (c.numbered i.distance) _ irr htrain) i.distance _ le_rfl
  refine ⟨solver, fun c' train run st hc' htrain' hrun hst => ?_⟩
  rw [hc] at hc'
  injection hc' with hc'
  subst hc'
  rw [htrain] at htrain'
  injection htrain' with htrain'
  subst htrain'
  exact h c run st hc hrun hst

/-- **C142, the values of the script** All trains but the SLT fit the track of the script. -/
theorem C142_shipped (ty : TrainType) (hslt : ty ≠ .sprinterSLT) : batchInput.Fits ty batchInput.speed := by
  cases ty <;> first | exact absurd rfl hslt | (
    constructor <;> first | exact hslt | norm_num [batchInput, Spec.trainSheet])

/-- **C142, all scenarios** With a type of train that exists (and is not the SLT), the script writes one file per scenario, in the order of the
scenarios, with the results of the calculation of that scenario alone, and ends without exception. -/
theorem C142_script_partial {H ρ : Type*} [DecidableEq H] (hash : (Fin 3 → ℝ) → H) (i : BatchInput) (name : String) (ty : TrainType)
    (hname : trainByName name = some ty) (f : i.Fits ty i.speed) (irr : ℕ → ℕ → ℝ)
    (solver : TrimState ℝ → (List (ℕ × List (ℕ → ℝ)) → List (ℕ → ℝ) → ℕ → (ℕ → ℝ) → ℕ → ℝ) → SolverOutput ℝ)
    (content : CoupledResult ℝ → ρ) (results : List (WolfResult ℝ)) (hk : ∀ r ∈ results, 0 < r.stiffness)
    (hs : ∀ r ∈ results, i.Solves hash ty irr solver i.speed r) :
    (i.script hash name irr solver content results).2 = none ∧
    List.Forall₂ (fun r w => ∃ res, i.calculate hash ty irr solver i.speed r = .ok res ∧ w = (resultFileName r.name, content res)) results
      (i.script hash name irr solver content results).1 := by
  unfold BatchInput.script
  rw [hname]
  dsimp only
  induction results with
  | nil => exact ⟨rfl, .nil⟩
  | cons r rs ih =>
    obtain ⟨-, -, -, res, -, -, -, hres, -⟩ := C142_motion_partial hash i ty i.speed f irr solver r (hk r List.mem_cons_self)
      (hs r List.mem_cons_self)
    obtain ⟨h1, h2⟩ := ih (fun r hr => hk r (List.mem_cons_of_mem _ hr)) (fun r hr => hs r (List.mem_cons_of_mem _ hr))
    unfold scriptLoop
    rw [hres]
    exact ⟨h1, .cons ⟨res, hres, rfl⟩ h2⟩

/-- **C142 is violated by the script itself** The type of train it asks for does not exist: whatever the values and the scenarios, nothing is
calculated and the script ends with an exception. -/
theorem C142_script_violated {H ρ : Type*} [DecidableEq H] (hash : (Fin 3 → ℝ) → H) (i : BatchInput) (irr : ℕ → ℕ → ℝ)
    (solver : TrimState ℝ → (List (ℕ × List (ℕ → ℝ)) → List (ℕ → ℝ) → ℕ → (ℕ → ℝ) → ℕ → ℝ) → SolverOutput ℝ)
    (content : CoupledResult ℝ → ρ) (results : List (WolfResult ℝ)) :
    trainByName "INTERCITY" = none ∧ i.script hash "INTERCITY" irr solver content results = ([], some .exception) := by
  have h : trainByName "INTERCITY" = none := by decide
  refine ⟨h, ?_⟩
  unfold BatchInput.script
  rw [h]

/-- Every type of train has a name. -/
theorem C142_types (ty : TrainType) : ∃ name, trainByName name = some ty := by
  cases ty
  · exact ⟨"DOUBLEDEKKER", by decide⟩
  · exact ⟨"SPRINTER_SLT", by decide⟩
  · exact ⟨"SPRINTER_SGM", by decide⟩
  · exact ⟨"ICM", by decide⟩
  · exact ⟨"CARGO_FALNS5", by decide⟩
  · exact ⟨"CARGO_SGNS", by decide⟩
  · exact ⟨"CARGO_TAPPS", by decide⟩
  · exact ⟨"TRAXX", by decide⟩
  · exact ⟨"BR189", by decide⟩

/-- The values of the script with a double-dekker and a soft soil. -/
example (hash : (Fin 3 → ℝ) → ℕ) (irr : ℕ → ℕ → ℝ) :
    ∃ solver, batchInput.Solves hash .doubleDekker irr solver batchInput.speed ⟨"Kdyn".toList, 10, 5 * 10 ^ 7, 10 ^ 4⟩ :=
  C142_solvable hash _ _ _ (C142_shipped _ (by decide)) irr _ (by norm_num)

end Rose
