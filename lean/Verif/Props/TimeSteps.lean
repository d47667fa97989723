/-
C173: the time steps of a track calculation.
-/
import Verif.Lemmas.StepConvergence
import Verif.Props.Vibration

set_option linter.unusedSectionVars false

namespace Rose
open Finset

/-- What a user expects of a calculation in time steps with the matrices `M, C, K`. -/
structure StepsWell (N : ℕ) (M C K : ℕ → ℕ → ℝ) : Prop where
  /-- every step of any size can be calculated, with one result -/
  defined : ∀ β γ dt, 0 ≤ β → 0 ≤ γ → 0 < dt → Spec.StepsDefined N M C K β γ dt
  /-- under a constant load the results stay bounded for steps of any size -/
  bounded : ∀ β γ dt, 1 / 2 ≤ γ → γ ≤ 2 * β → 0 < dt → Spec.StepsBounded N M C K β γ dt
  /-- the energy follows the work of the load and the damping -/
  energy : Spec.StepsEnergy N M C K
  /-- without load the energy never grows -/
  decay : ∀ dt l u v a, 0 ≤ dt → Spec.NewmarkSteps N M C K (1 / 4) (1 / 2) dt l (fun _ _ => 0) u v a → ∀ n m, n ≤ m → m ≤ l →
    Spec.vibrationEnergy N M K (u m) (v m) ≤ Spec.vibrationEnergy N M K (u n) (v n)
  /-- with smaller steps the results approach the motion -/
  converge : Spec.StepsConverge N M C K
  /-- under a smooth load the difference is of second order in the step size -/
  secondOrder : Spec.StepsSecondOrder N M C K

theorem Oscillator.stepsWell {N : ℕ} {M C K : ℕ → ℕ → ℝ} (o : Oscillator N M C K) : StepsWell N M C K where
  defined _ _ _ hβ hγ hdt := o.stepsDefined hβ hγ hdt
  bounded _ _ _ hγ hβ hdt := o.stepsBounded hγ hβ hdt
  energy := o.stepsEnergy
  decay dt l u v a hdt st n m hnm := by
    induction m, hnm using Nat.le_induction with
    | base => exact fun _ => le_refl _
    | succ m _ ih =>
      intro hm
      refine le_trans ?_ (ih (by omega))
      have h := o.stepsEnergy dt l _ u v a st m hm
      have hd := mul_nonneg hdt (o.damp fun k => (v m k + v (m + 1) k) / 2)
      unfold form at hd
      simp only [add_zero, zero_div, zero_mul, sum_const_zero, zero_sub] at h
      linarith
  converge := o.stepsConverge
  secondOrder := o.stepsSecondOrder

/-- **C173** The matrices of a generated track with at least two sleepers on its boundaries, with masses and dampings that are not negative:
a Newmark solver can calculate every step, is stable for steps of any size, and its results approach the motion of the track. -/
theorem C173_track {H : Type*} [DecidableEq H] (hash : (Fin 3 → ℝ) → H) (n r : ℕ) (hn : 2 ≤ n) (hr : 0 < r) (d h : ℝ)
    (hd : 1 / 1000000000 < d / r) (hh : 1 / 1000000000 < h) (t : HorizontalTrack ℝ)
    (ht : createHorizontalTrack hash n r d h = .ok t) (v : TrackValues) (hv : v.Valid) (hm : v.NonNeg) (hR : v.Rayleigh)
    (flags : ℕ → Fin 3 → Bool) :
    ∃ inp st, t.system v true = .ok inp ∧ inp.initialise flags = .ok st ∧ StepsWell st.N st.M st.C st.Kg := by
  obtain ⟨inp, st, h1, h2, m⟩ := C172_track hash n r hn hr d h hd hh t ht v hv hm hR flags
  exact ⟨inp, st, h1, h2, m.matrices.stepsWell⟩

/-- Three sleepers. -/
example : ∃ t, createHorizontalTrack (fun p : Fin 3 → ℝ => p) 3 2 (3 / 5) 1 = .ok t ∧
    ∃ inp st, t.system exampleTrack true = .ok inp ∧ inp.initialise freshFlags = .ok st ∧ StepsWell st.N st.M st.C st.Kg := by
  obtain ⟨t, ht, -⟩ := C48_structure (fun p : Fin 3 → ℝ => p) 3 2 (by norm_num) (3 / 5) 1
  exact ⟨t, ht, C173_track _ 3 2 (by norm_num) (by norm_num) _ _ (by norm_num) (by norm_num) t ht _ exampleTrack_valid exampleTrack_nonNeg
    exampleTrack_rayleigh _⟩

section combined
variable {H : Type*} [DecidableEq H] (hash : (Fin 3 → ℝ) → H) {r k : ℕ} {d : ℝ} {segments : List (ℕ × ℝ)}

/-- **C173** The same for every track that is combined from segments. -/
theorem C173_combined (g : GoodSegments r d segments) (length : ℝ) (v : TrackValues) (soils : List (RodValues ℝ))
    (hs : segments.length ≤ soils.length) (hv : ∀ w ∈ soils, ({ v with soil := w } : TrackValues).Valid)
    (hm : ∀ w ∈ soils, ({ v with soil := w } : TrackValues).NonNeg) (hR : v.Rayleigh) (flags : ℕ → Fin 3 → Bool) :
    ∃ c inp st, combinedTrack hash r d segments = .ok c ∧ c.system length v soils true = .ok inp ∧
      inp.initialise flags = .ok st ∧ StepsWell st.N st.M st.C st.Kg := by
  obtain ⟨c, inp, st, h1, h2, h3, m⟩ := C172_combined hash g length v soils hs hv hm hR flags
  exact ⟨c, inp, st, h1, h2, h3, m.matrices.stepsWell⟩

/-- **C173** The same for every such track with a hinge in its rail, of a fixity factor greater than 0 and at most 1. -/
theorem C173_hinged (g : GoodSegments r d segments) (length : ℝ) (hlength : 0 < length) (v : TrackValues)
    (soils : List (RodValues ℝ)) (hs : segments.length ≤ soils.length) (hv : ∀ w ∈ soils, ({ v with soil := w } : TrackValues).Valid)
    (hm : ∀ w ∈ soils, ({ v with soil := w } : TrackValues).NonNeg) (hR : v.Rayleigh)
    (hk : 2 ≤ k) (hkm : k + 3 ≤ railCount r segments) (near : 1 / 100000000 + 1 / 100000 * ((k : ℝ) * (d / r)) < d / r)
    (f : ℝ) (hf : 0 < f) (hf1 : f ≤ 1) (flags : ℕ → Fin 3 → Bool) :
    ∃ c inp st, combinedTrack hash r d segments = .ok c ∧ c.hingedSystem length v soils f (k * (d / r)) true = .ok inp ∧
      inp.initialise flags = .ok st ∧ StepsWell st.N st.M st.C st.Kg := by
  obtain ⟨c, inp, st, h1, h2, h3, m⟩ := C172_hinged hash g length hlength v soils hs hv hm hR hk hkm near f hf hf1 flags
  exact ⟨c, inp, st, h1, h2, h3, m.matrices.stepsWell⟩

/-- **C173** The same with a free pin, if there are three or more sleepers and one of them is behind the pin. -/
theorem C173_pinned (g : GoodSegments r d segments) (length : ℝ) (v : TrackValues)
    (soils : List (RodValues ℝ)) (hs : segments.length ≤ soils.length) (hv : ∀ w ∈ soils, ({ v with soil := w } : TrackValues).Valid)
    (hm : ∀ w ∈ soils, ({ v with soil := w } : TrackValues).NonNeg) (hR : v.Rayleigh) (h3 : 3 ≤ (segments.map Prod.fst).sum)
    (hk : 2 ≤ k) (hkm : k + 3 ≤ railCount r segments) (hkr : k + r < railCount r segments)
    (near : 1 / 100000000 + 1 / 100000 * ((k : ℝ) * (d / r)) < d / r) (flags : ℕ → Fin 3 → Bool) :
    ∃ c inp st, combinedTrack hash r d segments = .ok c ∧ c.hingedSystem length v soils 0 (k * (d / r)) true = .ok inp ∧
      inp.initialise flags = .ok st ∧ StepsWell st.N st.M st.C st.Kg := by
  obtain ⟨c, inp, st, e1, e2, e3, m⟩ := C172_pinned hash g length v soils hs hv hm hR h3 hk hkm hkr near flags
  exact ⟨c, inp, st, e1, e2, e3, m.matrices.stepsWell⟩

end combined

/-- The spring of 4 N/m with the mass 1 kg, as a system with one unknown. -/
theorem exampleOscillator : Oscillator 1 (fun _ _ => 1) (fun _ _ => 0) (fun _ _ => 4) := by
  have h : ∀ (c : ℝ) (U : ℕ → ℝ), form 1 (fun _ _ => c) U U = c * U 0 ^ 2 := fun c U => by simp [form]; ring
  refine ⟨fun _ _ _ _ => rfl, fun _ _ _ _ => rfl, fun _ _ _ _ => rfl, fun U => ?_, fun U => ?_, fun U => ?_⟩ <;> rw [h]
  · refine ⟨by positivity, fun h0 k hk => ?_⟩
    obtain rfl : k = 0 := by omega
    simpa using h0
  · simp
  · refine ⟨by positivity, fun h0 k hk => ?_⟩
    obtain rfl : k = 0 := by omega
    simpa using h0

/-- Boundedness is not a matter of course: with the central difference method (`β = 0`) and steps of 2 s the results of the spring grow without
bound. -/
example : ¬ Spec.StepsBounded 1 (fun _ _ => 1) (fun _ _ => 0) (fun _ _ => 4) 0 (1 / 2) 2 := by
  let X : ℕ → ℝ × ℝ := fun n => Nat.rec (1, 0) (fun _ x => (7 * x.1 + 2 * x.2, 24 * x.1 + 7 * x.2)) n
  have hX : ∀ n, X (n + 1) = (7 * (X n).1 + 2 * (X n).2, 24 * (X n).1 + 7 * (X n).2) := fun n => rfl
  have grow : ∀ n : ℕ, (n : ℝ) + 1 ≤ (X n).1 ∧ 0 ≤ (X n).2 := by
    intro n
    induction n with
    | zero => simp [X]
    | succ n ih =>
      rw [hX]
      push_cast
      have : (0 : ℝ) ≤ n := Nat.cast_nonneg n
      constructor <;> linarith [ih.1, ih.2]
  intro h
  obtain ⟨B, hB⟩ := h (fun _ => 0) (fun n _ => (-1) ^ n * (X n).1) (fun n _ => -(-1) ^ n * (X n).2) (fun n _ => -4 * ((-1) ^ n * (X n).1))
    fun _ => ⟨fun n _ k _ => by simp, fun n _ k _ => by simp only [hX, pow_succ]; ring, fun n _ k _ => by simp only [hX, pow_succ]; ring⟩
  obtain ⟨n, hn⟩ := exists_nat_gt B
  have := (hB n 0 (by norm_num)).1
  rw [abs_mul, abs_pow, abs_neg, abs_one, one_pow, one_mul] at this
  linarith [(grow n).1, le_abs_self (X n).1]

end Rose
