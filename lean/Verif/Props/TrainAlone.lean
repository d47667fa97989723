/-
C189: a train that is calculated on its own.
-/
import Verif.Model.TrainMain
import Verif.Spec.FreeFall
import Verif.Props.StagedRun
import Verif.Props.DefaultRide
import Verif.Props.SltTrain

set_option linter.unusedSectionVars false

namespace Rose
open Finset

section outcome
variable {K : Type*} {S : Type} [Field K] [LinearOrder K] [IsStrictOrderedRing K]

theorem stageCalls_ne_nil (rnd : K → K) (time : List K) (h : 2 ≤ time.length) : stageCalls (stageTimeIds rnd time) ≠ [] := by
  intro hc
  obtain ⟨h1, -, -⟩ := C112_schedule rnd time h
  rw [hc] at h1
  have := congrArg List.length h1
  simp at this
  omega

theorem stageCalls_short (rnd : K → K) (time : List K) (h : time.length < 2) : stageCalls (stageTimeIds rnd time) = [] := by
  rcases time with _ | ⟨a, _ | ⟨b, l⟩⟩
  · simp [stageTimeIds, npDiff, firstOccurrences, stageCalls]
  · simp [stageTimeIds, npDiff, firstOccurrences, stageCalls]
  · simp at h

/-- **C189 is violated** A train cannot be calculated on its own: whatever the train, the solver and the time, `main` ends in an error as
soon as there is a time step; it returns, with the initial values of the solver, only for less than two times. -/
theorem C189_violated {H : Type*} [DecidableEq H] (hash : (Fin 3 → K) → H) (t : Train K) (x0 : ℕ → K) (g : K) (rnd : K → K)
    (time : List K) (solver : AloneSolver K S) :
    (2 ≤ time.length → ∃ e, t.main hash x0 g rnd time solver = .error e) ∧
    (time.length < 2 → t.main hash x0 g rnd time solver = .ok (solver.initial (trimAll (t.system g (t.initialMesh hash x0))))) := by
  unfold Train.main AloneSolver.stages
  constructor
  · intro h
    have hne := stageCalls_ne_nil rnd time h
    cases hc : stageCalls (stageTimeIds rnd time) with
    | nil => exact absurd hc hne
    | cons c l =>
      have : ∃ e, solver.stage trainStorage (trimAll (t.system g (t.initialMesh hash x0)))
          (solver.initial (trimAll (t.system g (t.initialMesh hash x0)))) c = .error e := by
        unfold AloneSolver.stage
        cases solver.update c.1 (solver.initial (trimAll (t.system g (t.initialMesh hash x0)))) with
        | error e => exact ⟨e, rfl⟩
        | ok s => exact ⟨.exception, rfl⟩
      obtain ⟨e, he⟩ := this
      refine ⟨e, ?_⟩
      rw [List.foldlM_cons, he]
      rfl
  · intro h
    rw [stageCalls_short rnd time h]
    rfl

/-- The storage of the matrices is the cause: with sparse matrices, as those of a track, the stage loop returns for every solver that can
update. -/
theorem C189_sparse (st : TrimState K) (ids : List ℕ) (solver : AloneSolver K S) (h : ∀ k s, ∃ s', solver.update k s = .ok s') :
    ∃ s, solver.stages systemStorage st ids = .ok s := by
  unfold AloneSolver.stages
  generalize solver.initial st = s
  induction stageCalls ids generalizing s with
  | nil => exact ⟨s, rfl⟩
  | cons c l ih =>
    obtain ⟨s', hs'⟩ := h c.1 s
    obtain ⟨r, hr⟩ := ih (solver.calculate st c.1 c.2 s')
    refine ⟨r, ?_⟩
    rw [List.foldlM_cons]
    have : solver.stage systemStorage st s c = .ok (solver.calculate st c.1 c.2 s') := by
      unfold AloneSolver.stage
      rw [hs']
      rfl
    rw [this]
    exact hr

end outcome

section fall

/-- The vector of a train that is raised by `h`. -/
theorem exists_raised (t : Train ℝ) : ∃ e : ℕ → ℝ, (∀ d, t.HasDof d → (d.Vertical → e (t.dof d) = 1) ∧ (¬ d.Vertical → e (t.dof d) = 0)) ∧
    ∀ h, t.Raised (fun k => h * e k) h := by
  classical
  obtain ⟨e, he⟩ := exists_vector t fun d => if d.Vertical then (1 : ℝ) else 0
  have hv : ∀ d, t.HasDof d → (d.Vertical → e (t.dof d) = 1) ∧ (¬ d.Vertical → e (t.dof d) = 0) := by
    intro d hd
    exact ⟨fun h => by rw [he d hd, if_pos h], fun h => by rw [he d hd, if_neg h]⟩
  refine ⟨e, hv, fun h => ⟨fun i hi => ?_, fun b hb => ?_⟩⟩
  · simp only [(hv (.cartY i) hi).1 trivial, (hv (.cartRot i) hi).2 (by simp [TrainDof.Vertical])]
    constructor <;> ring
  · refine ⟨?_, ?_, fun j hj => ?_⟩
    · simp only [(hv (.bogieY b) hb).1 trivial]; ring
    · simp only [(hv (.bogieRot b) hb).2 (by simp [TrainDof.Vertical])]; ring
    · simp only [(hv (.wheelY b j) ⟨hb, hj⟩).1 trivial]; ring

/-- The weight of the train is its mass times gravity. -/
theorem mass_fall (t : Train ℝ) (g : ℝ) (e : ℕ → ℝ)
    (he : ∀ d, t.HasDof d → (d.Vertical → e (t.dof d) = 1) ∧ (¬ d.Vertical → e (t.dof d) = 0)) (k : ℕ) (hk : k < t.numbering.next) :
    ∑ j ∈ range t.numbering.next, t.massMatrix k j * (-g * e j) = t.forceVector g k := by
  obtain ⟨d1, d2, -⟩ := C100_diagonal t
  obtain ⟨w1, w2, -⟩ := C100_weight t g
  rw [Finset.sum_eq_single k (fun j _ hj => by rw [d2 k j (Ne.symm hj), zero_mul]) (fun h => absurd (mem_range.2 hk) h)]
  obtain ⟨d, hd, rfl⟩ := t.exists_dof k hk
  rw [d1 d hd]
  by_cases hv : d.Vertical
  · rw [(he d hd).1 hv, w1 d hd hv]; ring
  · rw [(he d hd).2 hv, w2 d hd hv]; ring

/-- The steps of the free train, in terms of its matrices before trimming. -/
theorem untrimmed {H : Type*} [DecidableEq H] (hash : (Fin 3 → ℝ) → H) (t : Train ℝ) (x0 : ℕ → ℝ) (g : ℝ)
    (hsep : t.Separated x0) (hm : t.Massive) (dt : ℝ) (m : ℕ) (u v a : ℕ → ℕ → ℝ) :
    let st := trimAll (t.system g (t.initialMesh hash x0))
    Spec.NewmarkSteps st.N st.M st.C st.Kg (1 / 4) (1 / 2) dt m (fun _ => st.F) u v a ↔
      Spec.NewmarkSteps t.numbering.next t.massMatrix t.damping t.stiffness (1 / 4) (1 / 2) dt m (fun _ => t.forceVector g) u v a := by
  intro st
  obtain ⟨h1, -, h3⟩ := C102_trimmed_partial hash t x0 g hsep hm
  have h1 : st.N = t.numbering.next := h1
  have key : ∀ k < t.numbering.next, ∀ j < t.numbering.next, st.M k j = t.massMatrix k j ∧ st.C k j = t.damping k j ∧
      st.Kg k j = t.stiffness k j ∧ st.F k = t.forceVector g k := by
    intro k hk j hj
    obtain ⟨d, hd, rfl⟩ := t.exists_dof k hk
    obtain ⟨e, he, rfl⟩ := t.exists_dof j hj
    exact h3 d e hd he
  have row : ∀ n, ∀ k < t.numbering.next,
      ∑ j ∈ range st.N, (st.M k j * a n j + st.C k j * v n j + st.Kg k j * u n j) =
        ∑ j ∈ range t.numbering.next, (t.massMatrix k j * a n j + t.damping k j * v n j + t.stiffness k j * u n j) := by
    intro n k hk
    rw [h1]
    refine Finset.sum_congr rfl fun j hj => ?_
    obtain ⟨e1, e2, e3, -⟩ := key k hk j (mem_range.1 hj)
    rw [e1, e2, e3]
  constructor
  · intro h
    refine ⟨fun n hn k hk => ?_, fun n hn k hk => h.displacement n hn k (h1 ▸ hk), fun n hn k hk => h.velocity n hn k (h1 ▸ hk)⟩
    rw [← row n k hk, ← (key k hk k hk).2.2.2]
    exact h.balance n hn k (h1 ▸ hk)
  · intro h
    refine ⟨fun n hn k hk => ?_, fun n hn k hk => h.displacement n hn k (h1 ▸ hk), fun n hn k hk => h.velocity n hn k (h1 ▸ hk)⟩
    have hk := h1 ▸ hk
    rw [row n k hk, (key k hk k hk).2.2.2]
    exact h.balance n hn k hk

/-- The raised vector as a motion in free fall. -/
theorem fall_motion (t : Train ℝ) (g : ℝ) (e : ℕ → ℝ)
    (he : ∀ d, t.HasDof d → (d.Vertical → e (t.dof d) = 1) ∧ (¬ d.Vertical → e (t.dof d) = 0)) (dt : ℝ) (m : ℕ) (u v a : ℕ → ℕ → ℝ) :
    (∀ d, t.HasDof d →
      (d.Vertical → Spec.Falls g dt m (fun n => u n (t.dof d)) (fun n => v n (t.dof d)) fun n => a n (t.dof d)) ∧
      (¬ d.Vertical → Spec.StandsStill m (fun n => u n (t.dof d)) (fun n => v n (t.dof d)) fun n => a n (t.dof d))) ↔
    ∀ n ≤ m, ∀ k < t.numbering.next, u n k = -g * (n * dt) ^ 2 / 2 * e k ∧ v n k = -g * (n * dt) * e k ∧ a n k = -g * e k := by
  constructor
  · intro h n hn k hk
    obtain ⟨d, hd, rfl⟩ := t.exists_dof k hk
    by_cases hv : d.Vertical
    · obtain ⟨h1, h2, h3⟩ := (h d hd).1 hv n hn
      rw [(he d hd).1 hv]
      simp only [mul_one]
      exact ⟨h1, h2, h3⟩
    · obtain ⟨h1, h2, h3⟩ := (h d hd).2 hv n hn
      rw [(he d hd).2 hv]
      simp only [mul_zero]
      exact ⟨h1, h2, h3⟩
  · intro h d hd
    refine ⟨fun hv n hn => ?_, fun hv n hn => ?_⟩
    · have := h n hn (t.dof d) (t.dof_lt d hd)
      rw [(he d hd).1 hv] at this
      simpa only [mul_one] using this
    · have := h n hn (t.dof d) (t.dof_lt d hd)
      rw [(he d hd).2 hv] at this
      simpa only [mul_zero] using this

/-- The equations of the train at rest say: its springs and dampers are free of forces. -/
theorem fall_steps (t : Train ℝ) (g : ℝ) (e : ℕ → ℝ)
    (he : ∀ d, t.HasDof d → (d.Vertical → e (t.dof d) = 1) ∧ (¬ d.Vertical → e (t.dof d) = 0)) (dt : ℝ) (m : ℕ) :
    Spec.NewmarkSteps t.numbering.next t.massMatrix t.damping t.stiffness (1 / 4) (1 / 2) dt m (fun _ => t.forceVector g)
      (fun n k => -g * (n * dt) ^ 2 / 2 * e k) (fun n k => -g * (n * dt) * e k) (fun _ k => -g * e k) ↔
    ∀ n ≤ m, ∀ k < t.numbering.next, -g * (n * dt) * matForce t.numbering.next t.damping e k +
      -g * (n * dt) ^ 2 / 2 * matForce t.numbering.next t.stiffness e k = 0 := by
  have row : ∀ (n : ℕ), ∀ k < t.numbering.next, ∑ j ∈ range t.numbering.next, (t.massMatrix k j * (-g * e j) +
      t.damping k j * (-g * (n * dt) * e j) + t.stiffness k j * (-g * (n * dt) ^ 2 / 2 * e j)) = t.forceVector g k +
      (-g * (n * dt) * matForce t.numbering.next t.damping e k + -g * (n * dt) ^ 2 / 2 * matForce t.numbering.next t.stiffness e k) := by
    intro n k hk
    rw [Finset.sum_add_distrib, Finset.sum_add_distrib, mass_fall t g e he k hk, add_assoc]
    unfold matForce
    rw [Finset.mul_sum, Finset.mul_sum]
    congr 2 <;> exact Finset.sum_congr rfl fun j _ => by ring
  constructor
  · intro h n hn k hk
    have := h.balance n hn k hk
    rw [row n k hk] at this
    linarith only [this]
  · intro h
    refine ⟨fun n hn k hk => ?_, fun n _ k _ => ?_, fun n _ k _ => ?_⟩
    · rw [row n k hk, h n hn k hk, add_zero]
    · push_cast; ring
    · push_cast; ring

/-- The steps of a free train have one result, if every step has one. -/
theorem steps_unique (N : ℕ) (M C G : ℕ → ℕ → ℝ) (dt : ℝ)
    (hsolv : ∀ a b c : ℝ, 0 < a → 0 ≤ b → 0 ≤ c → Spec.UniquelySolvable N fun i j => a * M i j + b * C i j + c * G i j) (h0 : 0 ≤ dt)
    (m : ℕ) (F u v a u' v' a' : ℕ → ℕ → ℝ) (h : Spec.NewmarkSteps N M C G (1 / 4) (1 / 2) dt m F u v a)
    (h' : Spec.NewmarkSteps N M C G (1 / 4) (1 / 2) dt m F u' v' a') (hu : ∀ k < N, u 0 k = u' 0 k ∧ v 0 k = v' 0 k) :
    ∀ n ≤ m, ∀ k < N, u n k = u' n k ∧ v n k = v' n k ∧ a n k = a' n k := by
  have inj : ∀ b c : ℝ, 0 ≤ b → 0 ≤ c → ∀ x : ℕ → ℝ, (∀ i < N, ∑ j ∈ range N, (1 * M i j + b * C i j + c * G i j) * x j = 0) →
      ∀ i < N, x i = 0 := by
    intro b c hb hc x hx i hi
    obtain ⟨U, -, h2⟩ := hsolv 1 b c one_pos hb hc fun _ => 0
    rw [h2 x hx i hi, ← h2 (fun _ => 0) (fun i _ => by simp) i hi]
  intro n
  induction n with
  | zero =>
    intro _ k hk
    refine ⟨(hu k hk).1, (hu k hk).2, ?_⟩
    have := inj 0 0 le_rfl le_rfl (fun j => a 0 j - a' 0 j) (fun i hi => by
      have e1 := h.balance 0 (Nat.zero_le _) i hi
      have e2 := h'.balance 0 (Nat.zero_le _) i hi
      have : ∑ j ∈ range N, (1 * M i j + 0 * C i j + 0 * G i j) * (a 0 j - a' 0 j) =
          ∑ j ∈ range N, (M i j * a 0 j + C i j * v 0 j + G i j * u 0 j) -
            ∑ j ∈ range N, (M i j * a' 0 j + C i j * v' 0 j + G i j * u' 0 j) := by
        rw [← Finset.sum_sub_distrib]
        refine Finset.sum_congr rfl fun j hj => ?_
        rw [(hu j (mem_range.1 hj)).1, (hu j (mem_range.1 hj)).2]
        ring
      rw [this, e1, e2, sub_self]) k hk
    linarith only [this]
  | succ n ih =>
    intro hn
    have ih := ih (by omega)
    have du : ∀ k < N, u (n + 1) k - u' (n + 1) k = dt ^ 2 / 4 * (a (n + 1) k - a' (n + 1) k) := by
      intro k hk
      obtain ⟨i1, i2, i3⟩ := ih k hk
      rw [h.displacement n (by omega) k hk, h'.displacement n (by omega) k hk, i1, i2, i3]
      ring
    have dv : ∀ k < N, v (n + 1) k - v' (n + 1) k = dt / 2 * (a (n + 1) k - a' (n + 1) k) := by
      intro k hk
      obtain ⟨i1, i2, i3⟩ := ih k hk
      rw [h.velocity n (by omega) k hk, h'.velocity n (by omega) k hk, i2, i3]
      ring
    have da := inj (dt / 2) (dt ^ 2 / 4) (by positivity) (by positivity) (fun j => a (n + 1) j - a' (n + 1) j) (fun i hi => by
      have e1 := h.balance (n + 1) hn i hi
      have e2 := h'.balance (n + 1) hn i hi
      have : ∑ j ∈ range N, (1 * M i j + dt / 2 * C i j + dt ^ 2 / 4 * G i j) * (a (n + 1) j - a' (n + 1) j) =
          ∑ j ∈ range N, (M i j * a (n + 1) j + C i j * v (n + 1) j + G i j * u (n + 1) j) -
            ∑ j ∈ range N, (M i j * a' (n + 1) j + C i j * v' (n + 1) j + G i j * u' (n + 1) j) := by
        rw [← Finset.sum_sub_distrib]
        refine Finset.sum_congr rfl fun j hj => ?_
        have f1 := du j (mem_range.1 hj)
        have f2 := dv j (mem_range.1 hj)
        linear_combination -C i j * f2 - G i j * f1
      rw [this, e1, e2, sub_self])
    intro k hk
    have e := da k hk
    refine ⟨?_, ?_, by linarith only [e]⟩
    · have := du k hk; rw [e, mul_zero] at this; linarith only [this]
    · have := dv k hk; rw [e, mul_zero] at this; linarith only [this]

/-- **C189, what the equations of the train say** The matrices and the force vector that a train hands to its solver, if all its bodies have
mass and stiffness: let the steps be those of the average acceleration method from rest. Free fall of all bodies without rotation is a
result of these steps if and only if the springs of all bodies are balanced. Missing: `main` does not come to this, `C189_violated`. -/
theorem C189_falls_iff {H : Type*} [DecidableEq H] (hash : (Fin 3 → ℝ) → H) (t : Train ℝ) (x0 : ℕ → ℝ) (g : ℝ) (hg : g ≠ 0)
    (hsep : t.Separated x0) (hm : t.Massive) (hf : t.FactorsFit)
    (hk : ∀ c ∈ t.carts, c.stiffness ≠ 0) (hk' : ∀ b ∈ t.bogies, (t.bogie b).stiffness ≠ 0) (dt : ℝ) (hdt : dt ≠ 0) (m : ℕ) (h2 : 2 ≤ m) :
    let st := trimAll (t.system g (t.initialMesh hash x0))
    (∃ u v a : ℕ → ℕ → ℝ, Spec.NewmarkSteps st.N st.M st.C st.Kg (1 / 4) (1 / 2) dt m (fun _ => st.F) u v a ∧
      ∀ d, t.HasDof d →
        (d.Vertical → Spec.Falls g dt m (fun n => u n (t.dof d)) (fun n => v n (t.dof d)) fun n => a n (t.dof d)) ∧
        (¬ d.Vertical → Spec.StandsStill m (fun n => u n (t.dof d)) (fun n => v n (t.dof d)) fun n => a n (t.dof d))) ↔
    t.Balanced := by
  intro st
  obtain ⟨e, he, hr⟩ := exists_raised t
  have hr1 : t.Raised e 1 := by simpa using hr 1
  constructor
  · rintro ⟨u, v, a, hsteps, hfall⟩
    have hs := (untrimmed hash t x0 g hsep hm dt m u v a).1 hsteps
    have hv := (fall_motion t g e he dt m u v a).1 hfall
    have hs' : Spec.NewmarkSteps t.numbering.next t.massMatrix t.damping t.stiffness (1 / 4) (1 / 2) dt m (fun _ => t.forceVector g)
        (fun n k => -g * (n * dt) ^ 2 / 2 * e k) (fun n k => -g * (n * dt) * e k) (fun _ k => -g * e k) := by
      refine ⟨fun n hn k hk => ?_, fun n _ k _ => ?_, fun n _ k _ => ?_⟩
      · rw [← hs.balance n hn k hk]
        refine Finset.sum_congr rfl fun j hj => ?_
        obtain ⟨e1, e2, e3⟩ := hv n hn j (mem_range.1 hj)
        rw [e1, e2, e3]
      · push_cast; ring
      · push_cast; ring
    have hz := (fall_steps t g e he dt m).1 hs'
    have hzero : ∀ k < t.numbering.next, matForce t.numbering.next t.stiffness e k = 0 := by
      intro k hk
      have z1 := hz 1 (by omega) k hk
      have z2 := hz 2 h2 k hk
      have : g * dt ^ 2 * matForce t.numbering.next t.stiffness e k = 0 := by
        push_cast at z1 z2
        linear_combination 2 * z1 - z2
      rcases mul_eq_zero.1 this with h | h
      · exact absurd h (mul_ne_zero hg (pow_ne_zero 2 hdt))
      · exact h
    refine (C35_iff t hf t.numbering.next le_rfl hk hk').1 fun w h hw a => ?_
    by_cases ha : a < t.numbering.next
    · have : matForce t.numbering.next t.stiffness w a = h * matForce t.numbering.next t.stiffness e a := by
        rw [C35_raise_moment t hf _ le_rfl w h hw, C35_raise_moment t hf _ le_rfl e 1 hr1, ← List.sum_map_mul_left]
        congr 1
        refine List.map_congr_left fun s _ => ?_
        split_ifs <;> ring
      rw [this, hzero a ha, mul_zero]
    · rw [C35_raise_moment t hf _ le_rfl w h hw]
      apply List.sum_eq_zero
      intro x hx
      obtain ⟨s, hs, rfl⟩ := List.mem_map.1 hx
      have := (t.suspensions_valid hf _ _ _ le_rfl s hs)
      rw [if_neg]
      rintro rfl
      exact ha this.2.1
  · intro hb
    refine ⟨fun n k => -g * (n * dt) ^ 2 / 2 * e k, fun n k => -g * (n * dt) * e k, fun _ k => -g * e k, ?_, ?_⟩
    · refine (untrimmed hash t x0 g hsep hm dt m _ _ _).2 ((fall_steps t g e he dt m).2 fun n _ k _ => ?_)
      obtain ⟨e1, e2⟩ := C35_translation_partial t hf hb t.numbering.next le_rfl e 1 hr1 k
      rw [e1, e2]
      ring
    · exact (fall_motion t g e he dt m _ _ _).2 fun n _ k _ => ⟨rfl, rfl, rfl⟩

/-- The steps of a balanced train that starts at rest are those of free fall, and no others. -/
theorem falls_of_solvable {H : Type*} [DecidableEq H] (hash : (Fin 3 → ℝ) → H) (t : Train ℝ) (x0 : ℕ → ℝ) (g : ℝ)
    (hsep : t.Separated x0) (hm : t.Massive) (hf : t.FactorsFit) (hb : t.Balanced)
    (hsolv : ∀ a b c : ℝ, 0 < a → 0 ≤ b → 0 ≤ c →
      Spec.UniquelySolvable t.numbering.next fun i j => a * t.massMatrix i j + b * t.damping i j + c * t.stiffness i j)
    (dt : ℝ) (h0 : 0 ≤ dt) (m : ℕ) (u v a : ℕ → ℕ → ℝ) :
    let st := trimAll (t.system g (t.initialMesh hash x0))
    Spec.NewmarkSteps st.N st.M st.C st.Kg (1 / 4) (1 / 2) dt m (fun _ => st.F) u v a → (∀ k < st.N, u 0 k = 0 ∧ v 0 k = 0) →
      ∀ d, t.HasDof d →
        (d.Vertical → Spec.Falls g dt m (fun n => u n (t.dof d)) (fun n => v n (t.dof d)) fun n => a n (t.dof d)) ∧
        (¬ d.Vertical → Spec.StandsStill m (fun n => u n (t.dof d)) (fun n => v n (t.dof d)) fun n => a n (t.dof d)) := by
  intro st hs hstart
  obtain ⟨e, he, hr⟩ := exists_raised t
  have hr1 : t.Raised e 1 := by simpa using hr 1
  have h1 : st.N = t.numbering.next := (C102_trimmed_partial hash t x0 g hsep hm).1
  refine (fall_motion t g e he dt m u v a).2 ?_
  refine steps_unique _ _ _ _ dt hsolv h0 m _ u v a _ _ _ ((untrimmed hash t x0 g hsep hm dt m u v a).1 hs)
    ((fall_steps t g e he dt m).2 fun n _ k _ => ?_) fun k hk => ?_
  · obtain ⟨e1, e2⟩ := C35_translation_partial t hf hb t.numbering.next le_rfl e 1 hr1 k
    rw [e1, e2]
    ring
  · obtain ⟨z1, z2⟩ := hstart k (h1 ▸ hk)
    rw [z1, z2]
    constructor <;> simp

/-- **C189, default trains** Every default train except the SLT, of any length: in the steps of the average acceleration method, from rest
and with the matrices and forces the train hands to its solver, all bodies fall freely and none turns. Missing: as in `C189_falls_iff`. -/
theorem C189_default_partial {H : Type*} [DecidableEq H] (hash : (Fin 3 → ℝ) → H) (ty : TrainType) (hty : ty ≠ .sprinterSLT) (start : ℝ)
    (n : ℕ) (t : Train ℝ) (x : List ℝ) (h : setFullTrain ty start n = .ok (t, x)) (g dt : ℝ) (h0 : 0 ≤ dt) (m : ℕ)
    (u v a : ℕ → ℕ → ℝ) :
    let st := trimAll (t.system g (t.initialMesh hash fun i => x.getD i 0))
    Spec.NewmarkSteps st.N st.M st.C st.Kg (1 / 4) (1 / 2) dt m (fun _ => st.F) u v a → (∀ k < st.N, u 0 k = 0 ∧ v 0 k = 0) →
      ∀ d, t.HasDof d →
        (d.Vertical → Spec.Falls g dt m (fun n => u n (t.dof d)) (fun n => v n (t.dof d)) fun n => a n (t.dof d)) ∧
        (¬ d.Vertical → Spec.StandsStill m (fun n => u n (t.dof d)) (fun n => v n (t.dof d)) fun n => a n (t.dof d)) := by
  obtain ⟨-, hsep⟩ := C122_apart ty hty start n _ _ h
  have hsolv := (C123_default ty hty start n t x h).2
  have hrow := h
  rw [setFullTrain_eq ty hty] at hrow
  simp only [Except.ok.injEq, Prod.mk.injEq] at hrow
  have hheavy := typeData_heavy ty hty
  have hmass := row_massive (fun _ => ((typeData ty : TrainData ℝ), bodyData ty)) n fun _ _ => hheavy
  obtain ⟨f1, f2, -⟩ := row_statics (fun _ => ((typeData ty : TrainData ℝ), bodyData ty)) n fun _ _ =>
    ⟨by linarith [hheavy.bogie], by linarith [hheavy.wheel]⟩
  rw [hrow.1] at hmass f1 f2
  exact falls_of_solvable hash t _ g hsep hmass f1 f2 hsolv dt h0 m u v a

/-- The conditions are met: a double-dekker of two carts at a start position of 100 m, and the steps exist. -/
example : ∃ t x, setFullTrain .doubleDekker (100 : ℝ) 2 = .ok (t, x) ∧
    ∃ u v a : ℕ → ℕ → ℝ, Spec.NewmarkSteps (trimAll (t.system 9.81 (t.initialMesh (fun p : Fin 3 → ℝ => p) fun i => x.getD i 0))).N
      (trimAll (t.system 9.81 (t.initialMesh (fun p : Fin 3 → ℝ => p) fun i => x.getD i 0))).M
      (trimAll (t.system 9.81 (t.initialMesh (fun p : Fin 3 → ℝ => p) fun i => x.getD i 0))).C
      (trimAll (t.system 9.81 (t.initialMesh (fun p : Fin 3 → ℝ => p) fun i => x.getD i 0))).Kg (1 / 4) (1 / 2) 0.01 100
      (fun _ => (trimAll (t.system 9.81 (t.initialMesh (fun p : Fin 3 → ℝ => p) fun i => x.getD i 0))).F) u v a := by
  have hty : TrainType.doubleDekker ≠ .sprinterSLT := by decide
  have h := setFullTrain_eq (K := ℝ) .doubleDekker hty 100 2
  refine ⟨_, _, h, ?_⟩
  obtain ⟨-, hsep⟩ := C122_apart .doubleDekker hty (100 : ℝ) 2 _ _ h
  have hheavy := typeData_heavy .doubleDekker hty
  have hmass := row_massive (fun _ => ((typeData .doubleDekker : TrainData ℝ), bodyData .doubleDekker)) 2 fun _ _ => hheavy
  obtain ⟨f1, f2, -⟩ := row_statics (fun _ => ((typeData .doubleDekker : TrainData ℝ), bodyData .doubleDekker)) 2 fun _ _ =>
    ⟨by linarith [hheavy.bogie], by linarith [hheavy.wheel]⟩
  obtain ⟨e, he, hr⟩ := exists_raised (fullTrain (dataRow (fun _ => ((typeData .doubleDekker : TrainData ℝ), bodyData .doubleDekker)) 2))
  have hr1 := hr 1
  simp only [one_mul] at hr1
  refine ⟨_, _, _, (untrimmed _ _ _ 9.81 hsep hmass 0.01 100 _ _ _).2 ((fall_steps _ 9.81 e he 0.01 100).2 fun n _ k _ => ?_)⟩
  obtain ⟨e1, e2⟩ := C35_translation_partial _ f1 f2 _ le_rfl _ 1 hr1 k
  rw [e1, e2]
  ring

/-- With one time step `main` of any train fails, also with a solver that could do the work. -/
example (t : Train ℚ) : ∃ e, t.main (fun p : Fin 3 → ℚ => p) (fun i => -30 * i) 10 id [0, 1]
    (⟨fun _ => (0 : ℕ), fun _ s => .ok s, fun _ _ _ s => s + 1⟩ : AloneSolver ℚ ℕ) = .error e :=
  (C189_violated _ t _ 10 id [0, 1] _).1 (by simp)

end fall

end Rose
