/-
C168: the filter with steps of varying size.
-/
import Verif.Model.KalmanSteps
import Verif.Spec.KalmanSteps
import Verif.Props.Kalman

set_option linter.unusedSectionVars false

namespace Rose
open Matrix

variable {K : Type*} [Field K] [LinearOrder K] [IsStrictOrderedRing K]

/-! ### Matrices by index -/

theorem pyIndex_map {α β : Type*} (f : α → β) (l : List α) (i : ℤ) : pyIndex (l.map f) i = (pyIndex l i).map f := by
  unfold pyIndex
  simp only [List.length_map, List.getElem?_map]
  generalize (if i < 0 then i + (l.length : ℤ) else i) = j
  split_ifs
  · rfl
  · cases l[j.toNat]? <;> rfl

theorem replicate_eq_map {α β : Type*} (l : List α) (b : β) : List.replicate l.length b = l.map fun _ => b := by
  simp

/-- **C168, matrices** The matrices for the step of an index are those for the size of this step, counted from the end for a negative index; an index
outside the array is refused. -/
theorem C168_matrices (timesteps : List K) (i : ℤ) :
    (controlArrays timesteps).byIndex i = (pyIndex timesteps i).map ControlMatrices.ofStep := by
  unfold ControlArrays.byIndex controlArrays sliceAt
  have h1 : pyIndex (List.replicate timesteps.length (1 : K)) i = (pyIndex timesteps i).map fun _ => 1 := by
    rw [replicate_eq_map, pyIndex_map]
  have h0 : pyIndex (List.replicate timesteps.length (0 : K)) i = (pyIndex timesteps i).map fun _ => 0 := by
    rw [replicate_eq_map, pyIndex_map]
  have h2 : pyIndex (timesteps.map fun t : K => 1 / 2 * t ^ 2) i = (pyIndex timesteps i).map fun t => 1 / 2 * t ^ 2 := pyIndex_map _ _ _
  simp only [Fin.isValue, zero_ne_one, one_ne_zero, and_false, and_true, if_false, if_true, and_self, h0, h1, h2]
  cases pyIndex timesteps i with
  | error e => rfl
  | ok t => rfl

theorem stepWith_ofStep (k : Kalman K) (m : Measurement K) : k.stepWith (ControlMatrices.ofStep m.dt) m = k.step m := by
  unfold Kalman.stepWith Kalman.step
  rfl

theorem pyIndex_append_middle {α : Type*} (pre post : List α) (x : α) : pyIndex (pre ++ x :: post) (pre.length : ℤ) = .ok x := by
  unfold pyIndex
  rw [if_neg (by omega), if_neg (by omega)]
  simp

theorem runByIndex_eq (ms : List (Measurement K)) (pre : List K) (k : Kalman K) :
    Kalman.runByIndex (controlArrays (pre ++ ms.map Measurement.dt)) pre.length k ms = .ok (k.run ms) := by
  induction ms generalizing pre k with
  | nil => rfl
  | cons m ms ih =>
    unfold Kalman.runByIndex Kalman.run
    rw [C168_matrices, List.map_cons, pyIndex_append_middle]
    show (match k.stepWith (ControlMatrices.ofStep m.dt) m with
      | none => Except.ok none
      | some k' => Kalman.runByIndex (controlArrays (pre ++ m.dt :: ms.map Measurement.dt)) (pre.length + 1) k' ms) = _
    rw [stepWith_ofStep]
    cases k.step m with
    | none => rfl
    | some k' =>
      have := ih (pre ++ [m.dt]) k'
      simpa using this

/-- **C168, runs** A run with the matrices of all time steps prepared in advance is the run with the matrices set before every measurement. -/
theorem C168_runs (ms : List (Measurement K)) (k : Kalman K) :
    Kalman.runByIndex (controlArrays (ms.map Measurement.dt)) 0 k ms = .ok (k.run ms) := runByIndex_eq ms [] k

/-! ### Exact measurements of a motion -/

theorem updateX_exact (G : M2 K) (x : Fin 2 → K) : updateX G x x = x := by
  funext i
  simp [updateX, Matrix.mulVec, dotProduct]

theorem predictX_motion (x0 v0 a t dt : K) :
    predictX dt a (Spec.uniformMotion x0 v0 a t) = Spec.uniformMotion x0 v0 a (t + dt) := by
  funext i
  fin_cases i <;> simp [predictX, Spec.uniformMotion, kA, kB, Matrix.mulVec, dotProduct, Fin.sum_univ_two] <;> ring

theorem tracks_aux (x0 v0 a : K) (ms : List (Measurement K)) (t : K) (k k' : Kalman K) (hx : k.x = Spec.uniformMotion x0 v0 a t)
    (hm : ∀ n (h : n < ms.length), ms[n].u = a ∧
      ms[n].y = Spec.uniformMotion x0 v0 a (t + ((ms.take (n + 1)).map Measurement.dt).sum)) (h : k.run ms = some k') :
    k'.updatedX = k.updatedX ++
      (List.range ms.length).map (fun n => Spec.uniformMotion x0 v0 a (t + ((ms.take (n + 1)).map Measurement.dt).sum)) := by
  induction ms generalizing t k with
  | nil =>
    injection h with h
    subst h
    simp
  | cons m ms ih =>
    unfold Kalman.run at h
    obtain ⟨hu, hy⟩ := hm 0 (by simp)
    simp only [List.getElem_cons_zero, List.take_succ_cons, List.take_zero, List.map_cons, List.map_nil, List.sum_cons, List.sum_nil,
      add_zero] at hu hy
    have hp : predictX m.dt m.u k.x = m.y := by rw [hx, hu, predictX_motion, hy]
    cases hs : k.step m with
    | none => rw [hs] at h; cases h
    | some k1 =>
      rw [hs] at h
      have hk1 : k1.x = m.y ∧ k1.updatedX = k.updatedX ++ [m.y] := by
        unfold Kalman.step at hs
        simp only at hs
        split at hs
        · cases hs
        · injection hs with hs
          subst hs
          simp only [hp, updateX_exact, and_self]
      have := ih (t + m.dt) k1 (by rw [hk1.1, hy]) (by
        intro n hn
        obtain ⟨h1, h2⟩ := hm (n + 1) (by simpa using hn)
        simp only [List.getElem_cons_succ, List.take_succ_cons, List.map_cons, List.sum_cons] at h1 h2
        refine ⟨h1, ?_⟩
        rw [h2, add_assoc]) h
      rw [this, hk1.2, List.length_cons, List.range_succ_eq_map, List.map_cons, List.map_map, hy]
      simp only [List.take_succ_cons, List.take_zero, List.map_cons, List.map_nil, List.sum_cons, List.sum_nil, add_zero, Function.comp_def,
        List.append_assoc, List.cons_append, List.nil_append, add_assoc]

/-- **C168, exact measurements** A motion with constant acceleration that is known at the start and measured exactly after steps of any sizes is reported as it
is, whatever errors are declared, with independent and with dependent components. -/
theorem C168_tracks (independent : Bool) (x0 v0 a sx sy : K) (ms : List (Measurement K)) (k : Kalman K)
    (hm : ∀ n (h : n < ms.length), ms[n].u = a ∧
      ms[n].y = Spec.uniformMotion x0 v0 a (((ms.take (n + 1)).map Measurement.dt).sum))
    (h : (Kalman.new independent ![x0, v0] sx sy).run ms = some k) :
    k.updatedX = (List.range (ms.length + 1)).map fun n => Spec.uniformMotion x0 v0 a (((ms.take n).map Measurement.dt).sum) := by
  have := tracks_aux x0 v0 a ms 0 (Kalman.new independent ![x0, v0] sx sy) k (by
    funext i; fin_cases i <;> simp [Kalman.new, Spec.uniformMotion]) (by simpa using hm) h
  rw [this, List.range_succ_eq_map, List.map_cons, List.map_map]
  simp only [Kalman.new, zero_add, List.take_zero, List.map_nil, List.sum_nil, List.singleton_append, Function.comp_def]
  congr 1
  funext i; fin_cases i <;> simp [Spec.uniformMotion]

/-! ### Repeated measurements -/

theorem gainEntry_pos (p r : K) (hp : 0 < p) (hr : 0 < r) : gainEntry p (p + r) = some (p / (p + r)) := by
  unfold gainEntry
  rw [if_neg (by positivity)]

/-- One measurement without control variable and process noise, independent components with positive variances. -/
theorem step_mean (k : Kalman K) (hi : k.independent = true) (hP : DiagCov k.P) (p0 : 0 < k.P 0 0) (p1 : 0 < k.P 1 1) (m : Measurement K)
    (hu : m.u = 0) (hQ : m.Q = 0) (hx : 0 < m.sx) (hy : 0 < m.sy) :
    ∃ k', k.step m = some k' ∧ k'.independent = true ∧ DiagCov k'.P ∧ 0 < k'.P 0 0 ∧ 0 < k'.P 1 1 ∧
      1 / k'.P 1 1 = 1 / k.P 1 1 + 1 / m.sy ^ 2 ∧ k'.x 1 / k'.P 1 1 = k.x 1 / k.P 1 1 + m.y 1 / m.sy ^ 2 ∧
      (m.dt = 0 → 1 / k'.P 0 0 = 1 / k.P 0 0 + 1 / m.sx ^ 2 ∧ k'.x 0 / k'.P 0 0 = k.x 0 / k.P 0 0 + m.y 0 / m.sx ^ 2) := by
  obtain ⟨hpd, hp0, hp1⟩ := predictP_diag m.dt m.Q k.P (by rw [hQ]; simp) hP
  obtain ⟨a, e, hG, ha, he⟩ := gain_spec (predictP true m.dt m.Q k.P) hpd m.sx m.sy
  simp only [hQ, Matrix.zero_apply, add_zero] at hp0 hp1
  have q0 : 0 < predictP true m.dt m.Q k.P 0 0 := by
    rw [hQ, hp0]
    have := mul_nonneg (sq_nonneg m.dt) p1.le
    linarith
  have q1 : 0 < predictP true m.dt m.Q k.P 1 1 := by rw [hQ, hp1]; exact p1
  have rx : 0 < m.sx ^ 2 := by positivity
  have ry : 0 < m.sy ^ 2 := by positivity
  rw [gainEntry_pos _ _ q0 rx] at ha
  rw [gainEntry_pos _ _ q1 ry] at he
  injection ha with ha
  injection he with he
  have hu' : ∀ P : M2 K, DiagCov P → (updateP !![a, 0; 0, e] P) 0 0 = (1 - a) * P 0 0 ∧ (updateP !![a, 0; 0, e] P) 1 1 = (1 - e) * P 1 1 ∧
      (updateP !![a, 0; 0, e] P) 0 1 = 0 ∧ (updateP !![a, 0; 0, e] P) 1 0 = 0 := by
    rintro P ⟨⟨o1, o2⟩, -⟩
    simp [updateP, kH_one, Matrix.mul_apply, Fin.sum_univ_two, o1, o2]
  obtain ⟨u00, u11, u01, u10⟩ := hu' _ hpd
  set A := predictP true m.dt m.Q k.P 0 0 with hA
  set B := predictP true m.dt m.Q k.P 1 1 with hB
  have ea : (1 - a) * A = A * m.sx ^ 2 / (A + m.sx ^ 2) := by rw [← ha]; field_simp; ring
  have eb : (1 - e) * B = B * m.sy ^ 2 / (B + m.sy ^ 2) := by rw [← he]; field_simp; ring
  have va : 0 < (1 - a) * A := by rw [ea]; positivity
  have vb : 0 < (1 - e) * B := by rw [eb]; positivity
  have hx0 : updateX !![a, 0; 0, e] (predictX m.dt m.u k.x) m.y 0 = (1 - a) * (k.x 0 + m.dt * k.x 1) + a * m.y 0 := by
    simp [updateX, kH_one, predictX, kA, kB, Matrix.mulVec, dotProduct, Fin.sum_univ_two, hu]; ring
  have hx1 : updateX !![a, 0; 0, e] (predictX m.dt m.u k.x) m.y 1 = (1 - e) * k.x 1 + e * m.y 1 := by
    simp [updateX, kH_one, predictX, kA, kB, Matrix.mulVec, dotProduct, Fin.sum_univ_two, hu]; ring
  have hB' : B = k.P 1 1 := by rw [hB, hQ, hp1]
  refine ⟨_, by unfold Kalman.step; simp only [hi, hG]; rfl, rfl, ⟨⟨u01, u10⟩, ?_, ?_⟩, ?_, ?_, ?_, ?_, ?_⟩
  · show 0 ≤ updateP !![a, 0; 0, e] _ 0 0
    rw [u00]; exact va.le
  · show 0 ≤ updateP !![a, 0; 0, e] _ 1 1
    rw [u11]; exact vb.le
  · show 0 < updateP !![a, 0; 0, e] _ 0 0
    rw [u00]; exact va
  · show 0 < updateP !![a, 0; 0, e] _ 1 1
    rw [u11]; exact vb
  · show 1 / updateP !![a, 0; 0, e] _ 1 1 = _
    rw [u11, eb, ← hB']
    field_simp
    ring
  · show updateX !![a, 0; 0, e] _ _ 1 / updateP !![a, 0; 0, e] _ 1 1 = _
    rw [u11, eb, hx1, ← he, ← hB']
    field_simp
    ring
  · intro hdt
    have hA' : A = k.P 0 0 := by rw [hA, hQ, hp0, hdt]; ring
    constructor
    · show 1 / updateP !![a, 0; 0, e] _ 0 0 = _
      rw [u00, ea, ← hA']
      field_simp
      ring
    · show updateX !![a, 0; 0, e] _ _ 0 / updateP !![a, 0; 0, e] _ 0 0 = _
      rw [u00, ea, hx0, ← ha, ← hA', hdt]
      field_simp
      ring

theorem mean_aux (ms : List (Measurement K)) (hm : ∀ m ∈ ms, m.u = 0 ∧ m.Q = 0 ∧ 0 < m.sx ∧ 0 < m.sy) (k : Kalman K)
    (hi : k.independent = true) (hP : DiagCov k.P) (p0 : 0 < k.P 0 0) (p1 : 0 < k.P 1 1) :
    ∃ k', k.run ms = some k' ∧ 0 < k'.P 0 0 ∧ 0 < k'.P 1 1 ∧
      1 / k'.P 1 1 = 1 / k.P 1 1 + (ms.map fun m => 1 / m.sy ^ 2).sum ∧
      k'.x 1 / k'.P 1 1 = k.x 1 / k.P 1 1 + (ms.map fun m => m.y 1 / m.sy ^ 2).sum ∧
      ((∀ m ∈ ms, m.dt = 0) → 1 / k'.P 0 0 = 1 / k.P 0 0 + (ms.map fun m => 1 / m.sx ^ 2).sum ∧
        k'.x 0 / k'.P 0 0 = k.x 0 / k.P 0 0 + (ms.map fun m => m.y 0 / m.sx ^ 2).sum) := by
  induction ms generalizing k with
  | nil => exact ⟨k, rfl, p0, p1, by simp, by simp, fun _ => by simp⟩
  | cons m ms ih =>
    obtain ⟨a1, a2, a3, a4⟩ := hm m (by simp)
    obtain ⟨k1, hs, hi1, hP1, q0, q1, e1, e2, e3⟩ := step_mean k hi hP p0 p1 m a1 a2 a3 a4
    obtain ⟨k', hr, r0, r1, f1, f2, f3⟩ := ih (fun q hq => hm q (by simp [hq])) k1 hi1 hP1 q0 q1
    refine ⟨k', by rw [Kalman.run, hs]; exact hr, r0, r1, ?_, ?_, fun hd => ?_⟩
    · rw [f1, e1, List.map_cons, List.sum_cons]; ring
    · rw [f2, e2, List.map_cons, List.sum_cons]; ring
    · obtain ⟨g1, g2⟩ := f3 fun q hq => hd q (by simp [hq])
      obtain ⟨h1, h2⟩ := e3 (hd m (by simp))
      exact ⟨by rw [g1, h1, List.map_cons, List.sum_cons]; ring, by rw [g2, h2, List.map_cons, List.sum_cons]; ring⟩

theorem mean_of_inverse (P x a b : K) (hP : 0 < P) (h1 : 1 / P = a) (h2 : x / P = b) : x = b / a ∧ P = 1 / a := by
  have ha : a ≠ 0 := by rw [← h1]; positivity
  constructor
  · rw [← h1, ← h2]; field_simp
  · rw [← h1]; field_simp

/-- **C168, repeated measurements** Independent components, no control variable and no process noise: after any number of measurements with steps of any sizes the
velocity is the mean of the first value and all measurements weighted with the inverse squared errors, and its variance that of this
mean; likewise the displacement for measurements at the same time. -/
theorem C168_mean (x0 : Fin 2 → K) (sx sy : K) (hx : 0 < sx) (hy : 0 < sy) (ms : List (Measurement K))
    (hm : ∀ m ∈ ms, m.u = 0 ∧ m.Q = 0 ∧ 0 < m.sx ∧ 0 < m.sy) :
    ∃ k, (Kalman.new true x0 sx sy).run ms = some k ∧
      k.x 1 = Spec.weightedMean (x0 1) sy (ms.map fun m => (m.y 1, m.sy)) ∧
      k.P 1 1 = Spec.meanVariance sy (ms.map fun m => (m.y 1, m.sy)) ∧
      ((∀ m ∈ ms, m.dt = 0) → k.x 0 = Spec.weightedMean (x0 0) sx (ms.map fun m => (m.y 0, m.sx)) ∧
        k.P 0 0 = Spec.meanVariance sx (ms.map fun m => (m.y 0, m.sx))) := by
  have h0 : DiagCov (covMatrix true sx sy : M2 K) := ⟨⟨rfl, rfl⟩, sq_nonneg _, sq_nonneg _⟩
  have q0 : 0 < (Kalman.new true x0 sx sy).P 0 0 := by
    show 0 < sx ^ 2
    positivity
  have q1 : 0 < (Kalman.new true x0 sx sy).P 1 1 := by
    show 0 < sy ^ 2
    positivity
  obtain ⟨k, hr, r0, r1, f1, f2, f3⟩ := mean_aux ms hm (Kalman.new true x0 sx sy) rfl h0 q0 q1
  have e1 := mean_of_inverse _ _ _ _ r1 f1 f2
  refine ⟨k, hr, ?_, ?_, fun hd => ?_⟩
  · rw [e1.1]
    unfold Spec.weightedMean
    simp only [List.map_map, Function.comp_def]
    rfl
  · rw [e1.2]
    unfold Spec.meanVariance
    simp only [List.map_map, Function.comp_def]
    rfl
  · obtain ⟨g1, g2⟩ := f3 hd
    have e0 := mean_of_inverse _ _ _ _ r0 g1 g2
    constructor
    · rw [e0.1]
      unfold Spec.weightedMean
      simp only [List.map_map, Function.comp_def]
      rfl
    · rw [e0.2]
      unfold Spec.meanVariance
      simp only [List.map_map, Function.comp_def]
      rfl

/-- Two exact measurements of a falling body after steps of different size, with wrong declared errors. -/
example : ∃ k, (Kalman.new true ![(5 : ℚ), 1] 20 5).run [⟨1, 2, 0, 25, 6, ![7, 3]⟩, ⟨1 / 2, 2, 0, 3, 1, ![35 / 4, 4]⟩] = some k ∧
    k.updatedX = [![5, 1], ![7, 3], ![35 / 4, 4]] := by
  obtain ⟨k, h1, h2, -⟩ := C72_history ![(5 : ℚ), 1] 20 5 [⟨1, 2, 0, 25, 6, ![7, 3]⟩, ⟨1 / 2, 2, 0, 3, 1, ![35 / 4, 4]⟩]
    (by intro m hm; simp only [List.mem_cons, List.not_mem_nil, or_false] at hm; rcases hm with rfl | rfl <;> simp)
  refine ⟨k, h1, ?_⟩
  rw [C168_tracks true 5 1 2 20 5 _ k ?_ h1]
  · simp [List.range_succ, Spec.uniformMotion]
    norm_num
  · intro n hn
    have hn' : n < 2 := hn
    match n, hn' with
    | 0, _ => norm_num [Spec.uniformMotion]
    | 1, _ => norm_num [Spec.uniformMotion]

/-- Three measurements of a velocity at rest of two qualities. -/
example : ∃ k, (Kalman.new true ![(0 : ℚ), 4] 1 1).run [⟨1, 0, 0, 1, 1, ![0, 6]⟩, ⟨2, 0, 0, 1, 1 / 2, ![0, 5]⟩] = some k ∧ k.x 1 = 5 ∧
    k.P 1 1 = 1 / 6 := by
  obtain ⟨k, h1, h2, h3, -⟩ := C168_mean ![(0 : ℚ), 4] 1 1 (by norm_num) (by norm_num)
    [⟨1, 0, 0, 1, 1, ![0, 6]⟩, ⟨2, 0, 0, 1, 1 / 2, ![0, 5]⟩]
    (by intro m hm; simp only [List.mem_cons, List.not_mem_nil, or_false] at hm; rcases hm with rfl | rfl <;> norm_num)
  exact ⟨k, h1, by rw [h2]; norm_num [Spec.weightedMean], by rw [h3]; norm_num [Spec.meanVariance]⟩

end Rose
