/-
C151: the solution of a vehicle that crosses a beam.
-/
import Verif.Model.AnalyticalVehicle
import Verif.Spec.Crossing
import Verif.Lemmas.Accumulation

set_option linter.unusedSectionVars false

namespace Rose
open Rose.Spec

/-- The values of beam and vehicle are positive, the mass of the wheel and the damping at least zero. -/
structure VehicleCrossing.Valid (s : VehicleCrossing) : Prop where
  mv : 0 < s.mv
  mw : 0 ≤ s.mw
  speed : 0 < s.speed
  k : 0 < s.k
  c : 0 ≤ s.c
  EI : 0 < s.EI
  mass : 0 < s.mass
  length : 0 < s.length

/-- The quantities of the specification; `cw` is the damping that acts on the wheel. -/
noncomputable def VehicleCrossing.values (s : VehicleCrossing) (cw : ℝ) : CrossingValues :=
  { mb := s.mass * s.length / 2, omega := Real.pi ^ 2 * √(s.EI / (s.mass * s.length ^ 4)), mv := s.mv, mw := s.mw, k := s.k, c := s.c,
    cw := cw, g := 9.81 }

/-- What one step does: the laws at its end with the damper on the vehicle only, and averaged accelerations. -/
theorem crossing_step (s : VehicleCrossing) (h : s.Valid) (dt : ℝ) (hdt : 0 < dt) (t : ℝ) (o : CrossingState) :
    ∃ o', s.step dt t o = some o' ∧
      (s.values 0).Laws (Real.sin (Real.pi * s.speed * t / s.length)) o'.u.1 o'.v.1 o'.a.1 o'.u.2 o'.v.2 o'.a.2 ∧
      (o'.v.1 = o.v.1 + dt * (o.a.1 + o'.a.1) / 2 ∧ o'.u.1 = o.u.1 + dt * o.v.1 + dt ^ 2 * (o.a.1 + o'.a.1) / 4) ∧
      (o'.v.2 = o.v.2 + dt * (o.a.2 + o'.a.2) / 2 ∧ o'.u.2 = o.u.2 + dt * o.v.2 + dt ^ 2 * (o.a.2 + o'.a.2) / 4) := by
  have h1 := h.mv; have h2 := h.mw; have h3 := h.k; have h4 := h.c; have h5 := h.EI; have h6 := h.mass; have h7 := h.length
  set σ := Real.sin (Real.pi * s.speed * t / s.length) with hσ
  set M := s.mass * s.length / 2 with hM
  have hM0 : 0 < M := by positivity
  set W := Real.pi ^ 2 * √(s.EI / (s.mass * s.length ^ 4)) with hW
  have hW0 : 0 < W := by positivity
  have heig : s.eig = W := by unfold VehicleCrossing.eig; rw [one_pow, one_mul]
  have b1 : 1 / (s.beta * dt ^ 2) = 4 / dt ^ 2 := by norm_num [VehicleCrossing.beta]; field_simp
  have b2 : 1 / (s.beta * dt) = 4 / dt := by norm_num [VehicleCrossing.beta]; field_simp
  have b3 : 1 / (2 * s.beta) - 1 = 1 := by norm_num [VehicleCrossing.beta]
  have b4 : s.gamma / (s.beta * dt) = 2 / dt := by norm_num [VehicleCrossing.beta, VehicleCrossing.gamma]; field_simp; norm_num
  have b5 : 1 - s.gamma / s.beta = -1 := by norm_num [VehicleCrossing.beta, VehicleCrossing.gamma]
  have b6 : (1 - s.gamma / (2 * s.beta)) * dt = 0 := by norm_num [VehicleCrossing.beta, VehicleCrossing.gamma]
  unfold VehicleCrossing.step
  simp only [b1, b2, b3, b4, b5, b6, heig, ← hσ, ← hM]
  set k11 := 4 / dt ^ 2 * (M + s.mw * σ ^ 2) + M * W ^ 2 + s.k * σ ^ 2 with hk11
  set k22 := 4 / dt ^ 2 * s.mv + s.k + s.c * (2 / dt) with hk22
  set f1 := (s.mv + s.mw) * s.g * σ + (4 / dt ^ 2 * o.u.1 + 4 / dt * o.v.1 + 1 * o.a.1) * (M + s.mw * σ ^ 2) with hf1
  set f2 := -s.mv * (-(4 / dt ^ 2) * o.u.2 - 4 / dt * o.v.2 - 1 * o.a.2) -
    s.c * (-(2 / dt) * o.u.2 + -1 * o.v.2 + 0 * o.a.2 - (-(2 / dt) * o.u.1 + -1 * o.v.1 + 0 * o.a.1) * σ) with hf2
  have hdet : 0 < k11 * k22 - -s.k * σ * (-s.k * σ - s.c * (2 / dt) * σ) := by
    have e : k11 * k22 - -s.k * σ * (-s.k * σ - s.c * (2 / dt) * σ) =
        (4 / dt ^ 2 * (M + s.mw * σ ^ 2) + M * W ^ 2) * k22 + s.k * σ ^ 2 * (4 / dt ^ 2 * s.mv) := by
      rw [hk11, hk22]; ring
    rw [e]
    positivity
  rw [if_neg hdet.ne']
  set det := k11 * k22 - -s.k * σ * (-s.k * σ - s.c * (2 / dt) * σ) with hd
  set u1 := k22 / det * f1 + -(-s.k * σ) / det * f2 with hu1
  set u2 := -(-s.k * σ - s.c * (2 / dt) * σ) / det * f1 + k11 / det * f2 with hu2
  have r1 : k11 * u1 + -s.k * σ * u2 = f1 := by
    have : k11 * u1 + -s.k * σ * u2 = det * f1 / det := by rw [hu1, hu2, hd]; field_simp; ring
    rw [this, mul_div_cancel_left₀ _ hdet.ne']
  have r2 : (-s.k * σ - s.c * (2 / dt) * σ) * u1 + k22 * u2 = f2 := by
    have : (-s.k * σ - s.c * (2 / dt) * σ) * u1 + k22 * u2 = det * f2 / det := by rw [hu1, hu2, hd]; field_simp; ring
    rw [this, mul_div_cancel_left₀ _ hdet.ne']
  have hg : s.g = 9.81 := rfl
  refine ⟨_, rfl, ⟨?_, (s.mw + s.mv) * s.g + s.k * (u2 - σ * u1) - s.mw * (σ * (4 / dt ^ 2 * (u1 - o.u.1) - 4 / dt * o.v.1 - 1 * o.a.1)),
    ?_, ?_⟩, ⟨?_, ?_⟩, ⟨?_, ?_⟩⟩
  · simp only [VehicleCrossing.values]
    rw [hf2, hk22] at r2
    linear_combination r2
  · simp only [VehicleCrossing.values]
    rw [← hg]
    ring
  · simp only [VehicleCrossing.values]
    rw [hf1, hk11] at r1
    linear_combination r1
  all_goals
    field_simp
    ring

theorem crossing_loop (s : VehicleCrossing) (dt : ℝ) (P : ℝ → CrossingState → CrossingState → Prop)
    (hP : ∀ t o, ∃ o', s.step dt t o = some o' ∧ P t o o') (ts : List ℝ) : ∀ o, ∃ st : ℕ → CrossingState, st 0 = o ∧
      s.loop dt ts o = some ((List.range (ts.length + 1)).map fun i => (st i).u) ∧
      ∀ i (hi : i < ts.length), P ts[i] (st i) (st (i + 1)) := by
  induction ts with
  | nil => exact fun o => ⟨fun _ => o, rfl, rfl, fun i hi => absurd hi (by simp)⟩
  | cons t ts ih =>
    intro o
    obtain ⟨o', h1, h2⟩ := hP t o
    obtain ⟨st, g1, g2, g3⟩ := ih o'
    refine ⟨fun i => match i with | 0 => o | i + 1 => st i, rfl, ?_, fun i hi => ?_⟩
    · simp only [VehicleCrossing.loop, h1, Option.bind_some, g2, Option.map_some]
      rw [List.length_cons, List.range_succ_eq_map (n := ts.length + 1)]
      simp only [List.map_cons, List.map_map, Option.some.injEq, List.cons.injEq, true_and]
      rfl
    · cases i with
      | zero => simpa [g1] using h2
      | succ i => exact g3 i (by simpa using hi)

theorem crossing_time (s : VehicleCrossing) (hn : 2 ≤ s.steps) : ∃ ts, s.time = 0 :: ts ∧ ts.length = s.steps - 1 ∧
    ∀ i (hi : i < ts.length), ts[i] = ((i : ℝ) + 1) * (s.length / s.speed / ((s.steps : ℝ) - 1)) := by
  obtain ⟨n, hn'⟩ : ∃ n, s.steps = n + 1 := ⟨s.steps - 1, by omega⟩
  refine ⟨(List.range n).map fun i => linspaceAt 0 (s.length / s.speed) s.steps (i + 1), ?_, ?_, ?_⟩
  · unfold VehicleCrossing.time linspace
    rw [hn', List.range_succ_eq_map, List.map_cons, linspaceAt_zero, List.map_map]
    rfl
  · simp [hn']
  · intro i hi
    rw [List.getElem_map, List.getElem_range]
    unfold linspaceAt
    rw [if_neg (by omega)]
    push_cast
    ring

/-- **C151** For all valid values and at least two time steps the result is a passage of the vehicle over the beam in which the damper
acts on the vehicle. Missing: its reaction on the wheel, see `C151_iff`. -/
theorem C151_passage_partial (s : VehicleCrossing) (h : s.Valid) (hn : 2 ≤ s.steps) :
    ∃ rows, s.compute = some rows ∧ (s.values 0).Passage (s.length / s.speed) s.steps rows := by
  have hsp := h.speed
  have hL := h.length
  obtain ⟨ts, e1, e2, e3⟩ := crossing_time s hn
  have hn1 : (0 : ℝ) < s.steps - 1 := by
    have : (2 : ℝ) ≤ s.steps := by exact_mod_cast hn
    linarith
  set dt := s.length / s.speed / ((s.steps : ℝ) - 1) with hdt
  have hdt0 : 0 < dt := by positivity
  obtain ⟨st, g1, g2, g3⟩ := crossing_loop s dt _ (fun t o => crossing_step s h dt hdt0 t o) ts ⟨(0, 0), (0, 0), (0, 0)⟩
  refine ⟨(List.range s.steps).map fun i => (st i).u, ?_, fun i => (st i).u.1, fun i => (st i).v.1, fun i => (st i).a.1, fun i => (st i).u.2, fun i => (st i).v.2,
    fun i => (st i).a.2, ?_, ?_, ?_⟩
  · unfold VehicleCrossing.compute
    rw [e1]
    cases ts with
    | nil => simp only [List.length_nil] at e2; omega
    | cons t ts =>
      have e4 := e3 0 (by simp)
      simp only [List.getElem_cons_zero, Nat.cast_zero, zero_add, one_mul] at e4
      simp only
      rw [sub_zero, e4]
      rw [e4] at g2 e2
      rw [g2, e2, show s.steps - 1 + 1 = s.steps by omega]
  · rfl
  · simp [g1]
  · intro i hi
    obtain ⟨a1, a2, a3⟩ := g3 i (by omega)
    refine ⟨a2, a3, ?_⟩
    rw [e3 i (by omega)] at a1
    have e : Real.pi * s.speed * (((i : ℝ) + 1) * dt) / s.length = Real.pi * ((i + 1) / (s.steps - 1)) := by
      rw [hdt]
      field_simp
    rw [e] at a1
    exact a1

/-- **C151** The result is a passage according to the laws of motion, with the damper acting on both the vehicle and the wheel, exactly if
there is no damping or there are no time steps on the beam. -/
theorem C151_iff (s : VehicleCrossing) (h : s.Valid) (hn : 2 ≤ s.steps) :
    (∃ rows, s.compute = some rows ∧ (s.values s.c).Passage (s.length / s.speed) s.steps rows) ↔ s.c = 0 ∨ s.steps = 2 := by
  obtain ⟨rows, hr, hp⟩ := C151_passage_partial s h hn
  constructor
  · rintro ⟨rows', hr', hp'⟩
    rw [hr] at hr'
    obtain rfl := Option.some.inj hr'
    by_contra hcon
    push Not at hcon
    obtain ⟨hc, hn2⟩ := hcon
    have hn3 : 3 ≤ s.steps := by omega
    have hsp := h.speed
    have hL := h.length
    have hn1 : (2 : ℝ) ≤ s.steps - 1 := by
      have : (3 : ℝ) ≤ s.steps := by exact_mod_cast hn3
      linarith
    set dt := s.length / s.speed / ((s.steps : ℝ) - 1) with hdt
    have hdt0 : 0 < dt := by positivity
    obtain ⟨w, w', w'', z, z', z'', q1, ⟨i1, i2, i3, i4, i5, i6⟩, q2⟩ := hp
    obtain ⟨y, y', y'', x, x', x'', p1, ⟨j1, j2, j3, j4, j5, j6⟩, p2⟩ := hp'
    obtain ⟨⟨A1, A2⟩, ⟨A3, A4⟩, B1, R, B2, B3⟩ := q2 0 (by omega)
    obtain ⟨⟨C1, C2⟩, ⟨C3, C4⟩, D1, R', D2, D3⟩ := p2 0 (by omega)
    simp only [zero_add, Nat.cast_zero, ← hdt] at *
    have hrow : (w 1, z 1) = (y 1, x 1) := by
      have := congrArg (fun l => l[1]?) (q1.symm.trans p1)
      simpa [List.getElem?_range (show 1 < s.steps by omega)] using this
    obtain ⟨e1, e2⟩ := Prod.mk.inj hrow
    rw [i1, i2, i3] at A2
    rw [i2, i3] at A1
    rw [i4, i5, i6] at A4
    rw [i5, i6] at A3
    rw [j1, j2, j3, ← e1] at C2
    rw [j2, j3] at C1
    rw [j4, j5, j6, ← e2] at C4
    rw [j5, j6] at C3
    have e3 : y'' 1 = w'' 1 := by
      have a : dt ^ 2 * (y'' 1 - w'' 1) = 0 := by linarith only [A2, C2]
      have b := (mul_eq_zero.mp a).resolve_left (by positivity)
      linarith only [b]
    have e4 : x'' 1 = z'' 1 := by
      have a : dt ^ 2 * (x'' 1 - z'' 1) = 0 := by linarith only [A4, C4]
      have b := (mul_eq_zero.mp a).resolve_left (by positivity)
      linarith only [b]
    rw [e3] at C1
    rw [e4] at C3
    have e5 : y' 1 = w' 1 := by rw [C1, A1]
    have e6 : x' 1 = z' 1 := by rw [C3, A3]
    rw [← e1, e5, e3, ← e2, e6] at D2
    rw [← e1, e3] at D3
    set σ := Real.sin (Real.pi * (1 / (s.steps - 1))) with hσ
    have hσ0 : 0 < σ := by
      refine Real.sin_pos_of_pos_of_lt_pi (by positivity) ?_
      rw [mul_one_div, div_lt_iff₀ (by linarith only [hn1])]
      have a := mul_le_mul_of_nonneg_left hn1 Real.pi_pos.le
      linarith only [a, Real.pi_pos]
    simp only [VehicleCrossing.values] at *
    have hR : R = R' := mul_right_cancel₀ hσ0.ne' (B3.symm.trans D3)
    have hv : s.c * (z' 1 - σ * w' 1) = 0 := by rw [← hR] at D2; linarith only [B2, D2]
    have hv0 := (mul_eq_zero.mp hv).resolve_left hc
    have k1 : z' 1 = 2 / dt * z 1 := by rw [A3, A4]; field_simp; ring
    have k2 : w' 1 = 2 / dt * w 1 := by rw [A1, A2]; field_simp; ring
    have hz : z 1 - σ * w 1 = 0 := by
      rw [k1, k2] at hv0
      have : 2 / dt * (z 1 - σ * w 1) = 0 := by linarith only [hv0]
      exact (mul_eq_zero.mp this).resolve_left (by positivity)
    have hz2 : z'' 1 = 0 := by
      rw [hz, hv0] at B1
      have : s.mv * z'' 1 = 0 := by linarith only [B1]
      exact (mul_eq_zero.mp this).resolve_left h.mv.ne'
    have hz1 : z 1 = 0 := by rw [A4, hz2]; ring
    have hw1 : w 1 = 0 := by
      rw [hz1] at hz
      have : σ * w 1 = 0 := by linarith only [hz]
      exact (mul_eq_zero.mp this).resolve_left hσ0.ne'
    have hw2 : w'' 1 = 0 := by
      rw [hw1] at A2
      have : dt ^ 2 * w'' 1 = 0 := by linarith only [A2]
      exact (mul_eq_zero.mp this).resolve_left (by positivity)
    rw [hw2, hw1] at B3
    have hR0 : R = 0 := by
      have : R * σ = 0 := by linarith only [B3]
      exact (mul_eq_zero.mp this).resolve_right hσ0.ne'
    rw [hw2, hz, hv0, hR0] at B2
    have m1 := h.mv
    have m2 := h.mw
    norm_num at B2
    linarith only [B2, m1, m2]
  · intro hc
    refine ⟨rows, hr, ?_⟩
    rcases hc with hc | hc
    · rw [hc]
      have : s.values 0 = s.values 0 := rfl
      exact hp
    · obtain ⟨w, w', w'', z, z', z'', q1, q0, q2⟩ := hp
      refine ⟨w, w', w'', z, z', z'', q1, q0, fun i hi => ?_⟩
      obtain ⟨a1, a2, a3, R, a4, a5⟩ := q2 i hi
      refine ⟨a1, a2, a3, R + s.c * (z' (i + 1) - Real.sin (Real.pi * ((i + 1) / (s.steps - 1))) * w' (i + 1)), ?_, ?_⟩
      · simp only [VehicleCrossing.values] at *
        linarith
      · obtain rfl : i = 0 := by omega
        have hs : Real.sin (Real.pi * (((0 : ℕ) + 1 : ℝ) / ((s.steps : ℝ) - 1))) = 0 := by
          rw [hc]
          norm_num
        rw [hs] at a5 ⊢
        simp only [VehicleCrossing.values] at *
        linarith

/-- The vehicle and the beam of the script, with a speed of 25 m/s. -/
noncomputable def exampleVehicleCrossing : VehicleCrossing :=
  { tStep := 1 / 1000, mv := 5750, mw := 2000, speed := 25, k := 1595000, c := 25, EI := 8323000000, mass := 2303, length := 25 }

theorem exampleVehicleCrossing_valid : exampleVehicleCrossing.Valid := by constructor <;> norm_num [exampleVehicleCrossing]

theorem exampleVehicleCrossing_steps : exampleVehicleCrossing.steps = 1000 := by
  unfold VehicleCrossing.steps
  rw [show exampleVehicleCrossing.length / exampleVehicleCrossing.speed / exampleVehicleCrossing.tStep = (1000 : ℕ) by norm_num [exampleVehicleCrossing],
    Nat.floor_natCast]

/-- C151 fails for the vehicle of the script. -/
theorem C151_violated : exampleVehicleCrossing.Valid ∧ 2 ≤ exampleVehicleCrossing.steps ∧ ¬ ∃ rows, exampleVehicleCrossing.compute = some rows ∧
    (exampleVehicleCrossing.values exampleVehicleCrossing.c).Passage (exampleVehicleCrossing.length / exampleVehicleCrossing.speed) exampleVehicleCrossing.steps rows := by
  refine ⟨exampleVehicleCrossing_valid, by rw [exampleVehicleCrossing_steps]; norm_num, ?_⟩
  rw [C151_iff _ exampleVehicleCrossing_valid (by rw [exampleVehicleCrossing_steps]; norm_num), exampleVehicleCrossing_steps]
  norm_num [exampleVehicleCrossing]

/-- The same vehicle without a damper. -/
example : ∃ rows, { exampleVehicleCrossing with c := 0 }.compute = some rows ∧
    ({ exampleVehicleCrossing with c := 0 }.values 0).Passage 1 1000 rows := by
  have hs : { exampleVehicleCrossing with c := 0 }.steps = 1000 := exampleVehicleCrossing_steps
  have := (C151_iff { exampleVehicleCrossing with c := 0 } (by constructor <;> norm_num [exampleVehicleCrossing]) (by rw [hs]; norm_num)).mpr
    (Or.inl rfl)
  rw [hs] at this
  have e : exampleVehicleCrossing.length / exampleVehicleCrossing.speed = 1 := by norm_num [exampleVehicleCrossing]
  simp only [e] at this
  exact this

end Rose
