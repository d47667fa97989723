/-
C159: rides of trains that a user builds from carts with two bogies of two wheels each, and of the cargo trains.
-/
import Verif.Props.DefaultRide
import Verif.Props.CombinedTrack

set_option linter.unusedSectionVars false

namespace Rose

/-- Specification: a train of `n` carts on two bogies of two wheels each, with data `ds` and places `x`, that runs over a rail of `count`
nodes at distance `l`: the bodies have mass, inertia and springs of at least 1; axles are more than two rail elements and not less
than one metre apart; all axles start on the rail before its end and stay on it; no train rolls backwards or by more than a rail
element in a step. -/
structure OwnRide (ds : ℕ → TrainData ℝ × BodyData ℝ) (n : ℕ) (x time vel : List ℝ) (count : ℕ) (l : ℝ) : Prop where
  heavy : ∀ i < n, HeavyData (ds i)
  bogies : ∀ i < n, 1 / 2 ≤ (ds i).1.bogie - (ds i).1.wheel
  axles : ∀ i < n, l < (ds i).1.wheel ∧ l < (ds i).1.bogie - (ds i).1.wheel
  carts : ∀ i j, i < j → j < n → x.getD j 0 + ((ds j).1.bogie + (ds j).1.wheel) + 1 ≤ x.getD i 0 - ((ds i).1.bogie + (ds i).1.wheel) ∧
    x.getD j 0 + ((ds j).1.bogie + (ds j).1.wheel) + 2 * l < x.getD i 0 - ((ds i).1.bogie + (ds i).1.wheel)
  rear : ∀ i < n, 0 ≤ x.getD i 0 - ((ds i).1.bogie + (ds i).1.wheel)
  front : ∀ i < n, x.getD i 0 + ((ds i).1.bogie + (ds i).1.wheel) < ((count - 1 : ℕ) : ℝ) * l
  stop : ∀ i < n, ∀ k < time.length, Spec.wheelX time vel (x.getD i 0 + ((ds i).1.bogie + (ds i).1.wheel)) k ≤ ((count - 1 : ℕ) : ℝ) * l
  samples : time.length = vel.length
  nonempty : time ≠ []
  forward : ∀ k, k + 1 < time.length → 0 ≤ vel.getD k 0 * (time.getD (k + 1) 0 - time.getD k 0)
  slow : ∀ k, k + 1 < time.length → vel.getD k 0 * (time.getD (k + 1) 0 - time.getD k 0) ≤ l

/-- The wheels of a row of carts. -/
theorem row_wheel (ds : ℕ → TrainData ℝ × BodyData ℝ) (n : ℕ) (w : ℕ × ℕ) (hw : w ∈ (fullTrain (dataRow ds n)).wheelList) :
    ∃ i < n, ∃ k < 2, ∃ j < 2, w = (2 * i + k, j) := by
  have h1 : (fullTrain (dataRow ds n)).HasPart (.wheel w.1 w.2) := (mem_wheelList _ w).1 hw
  rw [row_parts] at h1
  obtain ⟨⟨i, hi, k, hk, h⟩, hj⟩ := h1
  exact ⟨i, hi, k, hk, w.2, hj, Prod.ext h rfl⟩

/-- Such a ride meets the conditions of the calculation. -/
theorem OwnRide.runs {ds : ℕ → TrainData ℝ × BodyData ℝ} {n count : ℕ} {l : ℝ} {q : TrackRide}
    (o : OwnRide ds n q.starts q.time q.vel count l) (ht : q.train = fullTrain (dataRow ds n)) (hk : q.values.rail.kappa ≤ 0)
    (hg : 0 ≤ q.g) (hG : 0 < q.G) (hp : ¬ ∃ z : ℤ, q.p = z) : q.Runs count l := by
  have hmass := row_massive ds n o.heavy
  obtain ⟨f1, f2, -⟩ := row_statics ds n fun i hi => ⟨by linarith [(o.heavy i hi).bogie], by linarith [(o.heavy i hi).wheel]⟩
  have hap := row_apart ds n (fun i => q.starts.getD i 0)
    (fun i hi => ⟨by linarith [(o.heavy i hi).wheel], by linarith [o.bogies i hi]⟩) fun i j hij hj => (o.carts i j hij hj).1
  have hstart : ∀ i < n, ∀ k < 2, ∀ j < 2, q.startOf (2 * i + k, j) =
      q.starts.getD i 0 + [-(ds i).1.bogie, (ds i).1.bogie].getD k 0 + [-(ds i).1.wheel, (ds i).1.wheel].getD j 0 := by
    intro i hi k hk j hj
    unfold TrackRide.startOf
    rw [ht]
    exact (row_places ds n _ i hi).2.2 k hk j hj
  have hwithin : ∀ i < n, ∀ k < 2, ∀ j < 2,
      q.starts.getD i 0 - ((ds i).1.bogie + (ds i).1.wheel) ≤ q.startOf (2 * i + k, j) ∧
      q.startOf (2 * i + k, j) ≤ q.starts.getD i 0 + ((ds i).1.bogie + (ds i).1.wheel) := by
    intro i hi k hk j hj
    rw [hstart i hi k hk j hj]
    have h1 := (o.heavy i hi).bogie
    have h2 := (o.heavy i hi).wheel
    interval_cases k <;> interval_cases j <;> simp only [List.getD_cons_zero, List.getD_cons_succ] <;> constructor <;> linarith
  refine ⟨hk, o.samples, o.nonempty, o.forward, o.slow, ?_, ?_, ?_, ?_, ?_, ?_, ?_, ?_, hG, hp⟩
  · intro w hw
    rw [ht] at hw
    obtain ⟨i, hi, k, hk, j, hj, rfl⟩ := row_wheel ds n w hw
    obtain ⟨h1, h2⟩ := hwithin i hi k hk j hj
    exact ⟨(o.rear i hi).trans h1, h2.trans_lt (o.front i hi)⟩
  · intro w hw t hlt
    rw [ht] at hw
    obtain ⟨i, hi, k, hk, j, hj, rfl⟩ := row_wheel ds n w hw
    rw [wheelX_add _ _ _ (q.starts.getD i 0 + ((ds i).1.bogie + (ds i).1.wheel))]
    linarith [(hwithin i hi k hk j hj).2, o.stop i hi t hlt]
  · intro v hv w hw hvw
    rw [ht] at hv hw
    obtain ⟨i, hi, k, hk, j, hj, rfl⟩ := row_wheel ds n v hv
    obtain ⟨i', hi', k', hk', j', hj', rfl⟩ := row_wheel ds n w hw
    rcases lt_trichotomy i i' with h | rfl | h
    · have := (o.carts i i' h hi').2
      rw [lt_abs]; left
      linarith [(hwithin i hi k hk j hj).1, (hwithin i' hi' k' hk' j' hj').2]
    · rw [hstart i hi k hk j hj, hstart i hi k' hk' j' hj']
      have hkk : ¬ (k = k' ∧ j = j') := fun h => hvw (by rw [h.1, h.2])
      obtain ⟨h1, h2⟩ := o.axles i hi
      have h3 := (o.heavy i hi).wheel
      interval_cases k <;> interval_cases k' <;> interval_cases j <;> interval_cases j' <;>
        first
        | exact absurd ⟨rfl, rfl⟩ hkk
        | (simp only [List.getD_cons_zero, List.getD_cons_succ]; rw [lt_abs]; left; linarith)
        | (simp only [List.getD_cons_zero, List.getD_cons_succ]; rw [lt_abs]; right; linarith)
    · have := (o.carts i' i h hi).2
      rw [lt_abs]; right
      linarith [(hwithin i hi k hk j hj).2, (hwithin i' hi' k' hk' j' hj').1]
  · rw [ht]; exact hap.separated
  · rw [ht]; exact hmass
  · rw [ht]; exact f1
  · rw [ht]; exact f2
  · intro w hw
    rw [ht] at hw
    obtain ⟨i, hi, k, hk, j, hj, rfl⟩ := row_wheel ds n w hw
    unfold TrackRide.staticLoad
    rw [ht, row_load ds n i k j hi hk hj, Option.getD_some]
    have h1 := (o.heavy i hi).mass
    have h2 := (o.heavy i hi).bogieMass
    have h3 := (o.heavy i hi).wheelMass
    nlinarith

variable {H : Type*} [DecidableEq H] {hash : (Fin 3 → ℝ) → H} {q : TrackRide} {r : ℕ} {d : ℝ} {segments : List (ℕ × ℝ)}
  {soils : List (RodValues ℝ)}

/-- **C159** A train that the user builds from carts with two bogies of two wheels, on a combined track: if it fits as in `OwnRide`,
the calculation is accepted and, whatever solver solves its equations, the reported results of every time step satisfy the laws of
motion of track and train. -/
theorem C159_motion_partial {ds : ℕ → TrainData ℝ × BodyData ℝ} {n : ℕ}
    (o : OwnRide ds n q.starts q.time q.vel (railCount r segments) (d / r)) (ht : q.train = fullTrain (dataRow ds n))
    (hseg : GoodSegments r d segments) (hsoils : segments.length ≤ soils.length)
    (hvalues : ∀ w ∈ soils, ({ q.values with soil := w } : TrackValues).Valid) (hk : q.values.rail.kappa ≤ 0)
    (hg : 0 ≤ q.g) (hG : 0 < q.G) (hp : ¬ ∃ z : ℤ, q.p = z) (length : ℝ)
    (solver : TrimState ℝ → (List (ℕ × List (ℕ → ℝ)) → List (ℕ → ℝ) → ℕ → (ℕ → ℝ) → ℕ → ℝ) → SolverOutput ℝ)
    (hs : ∀ c run st, combinedTrack hash r d segments = .ok c → q.coupledOnCombined c length soils = .ok run →
      run.loadedTrack.input.initialise freshFlags = .ok st →
      Spec.SolvesCoupled (run.system hash st) (run.rhs hash st) q.time.length (solver (run.system hash st) (run.rhs hash st))) :
    ∃ c sys res, combinedTrack hash r d segments = .ok c ∧ c.system length q.values soils q.held = .ok sys ∧
      q.mainOnCombined hash c length soils q.time.length solver = .ok res ∧
      res.trackRows.length = q.time.length ∧ res.trainRows.length = q.time.length ∧
      Spec.ObeysLaws hash q sys (d / r) (railCount r segments) c.railNumber res :=
  C138_motion_partial hash ⟨hseg, hsoils, hvalues, o.runs ht hk hg hG hp⟩ length q.time.length le_rfl solver hs

/-- **C159** There is such a solver. -/
theorem C159_solvable {ds : ℕ → TrainData ℝ × BodyData ℝ} {n : ℕ}
    (o : OwnRide ds n q.starts q.time q.vel (railCount r segments) (d / r)) (ht : q.train = fullTrain (dataRow ds n))
    (hseg : GoodSegments r d segments) (hsoils : segments.length ≤ soils.length)
    (hvalues : ∀ w ∈ soils, ({ q.values with soil := w } : TrackValues).Valid) (hk : q.values.rail.kappa ≤ 0)
    (hg : 0 ≤ q.g) (hG : 0 < q.G) (hp : ¬ ∃ z : ℤ, q.p = z) (length : ℝ) :
    ∃ solver : TrimState ℝ → (List (ℕ × List (ℕ → ℝ)) → List (ℕ → ℝ) → ℕ → (ℕ → ℝ) → ℕ → ℝ) → SolverOutput ℝ,
      ∀ c run st, combinedTrack hash r d segments = .ok c → q.coupledOnCombined c length soils = .ok run →
        run.loadedTrack.input.initialise freshFlags = .ok st →
        Spec.SolvesCoupled (run.system hash st) (run.rhs hash st) q.time.length (solver (run.system hash st) (run.rhs hash st)) :=
  C138_solvable hash ⟨hseg, hsoils, hvalues, o.runs ht hk hg hG hp⟩ length q.time.length le_rfl

theorem typeData_spaced (ty : TrainType) (hty : ty ≠ .sprinterSLT) :
    17 / 20 ≤ (typeData ty : TrainData ℝ).wheel ∧ 17 / 20 ≤ (typeData ty : TrainData ℝ).bogie - (typeData ty : TrainData ℝ).wheel ∧
    (typeData ty : TrainData ℝ).bogie + (typeData ty : TrainData ℝ).wheel + 17 / 20 ≤ (typeData ty : TrainData ℝ).length / 2 := by
  cases ty <;> first | exact absurd rfl hty | (
    simp only [typeData, traxxData, br189Data, doubleDekkerData, sgmData, icmData, sgnsData, falns5Data, tappsData]; norm_num)

/-- **C159, cargo trains** A train of one locomotive and any number of wagons from `build_cargo_train` fits if its rail elements are
shorter than 85 cm, its last axle starts on the rail, its first axle before the last node, and it stays on the rail. -/
theorem C159_cargo (start : ℝ) (loco wagon : TrainType) (m : ℕ) (t : Train ℝ) (x time vel : List ℝ) (count : ℕ) (l : ℝ)
    (h : buildFullCargo start loco wagon 1 m = .ok (t, x)) (hl : l < 17 / 20)
    (hrear : 0 ≤ start - (Spec.trainSheet loco).pitch / 2 - (Spec.trainSheet wagon).pitch * m)
    (hrear' : 0 ≤ start + (Spec.trainSheet loco).axles.getD 0 0)
    (hfront : start + (Spec.trainSheet loco).axles.getD 3 0 < ((count - 1 : ℕ) : ℝ) * l)
    (hstop : ∀ k < time.length, Spec.wheelX time vel (start + (Spec.trainSheet loco).axles.getD 3 0) k ≤ ((count - 1 : ℕ) : ℝ) * l)
    (hlen : time.length = vel.length) (hne : time ≠ [])
    (hforward : ∀ k, k + 1 < time.length → 0 ≤ vel.getD k 0 * (time.getD (k + 1) 0 - time.getD k 0))
    (hslow : ∀ k, k + 1 < time.length → vel.getD k 0 * (time.getD (k + 1) 0 - time.getD k 0) ≤ l) :
    ∃ ds, t = fullTrain (dataRow ds (1 + m)) ∧ OwnRide ds (1 + m) x time vel count l := by
  obtain ⟨rfl, rfl, r1, r2, -⟩ := buildFullCargo_eq start loco wagon 1 m t x h
  obtain ⟨n1, n2⟩ := cargo_notSLT r1 r2
  obtain ⟨a1, a2, a3⟩ := typeData_spaced loco n1
  obtain ⟨b1, b2, b3⟩ := typeData_spaced wagon n2
  obtain ⟨s1, s2, -⟩ := sheet_eq (K := ℝ) loco n1
  obtain ⟨s3, s4, -⟩ := sheet_eq (K := ℝ) wagon n2
  have e0 := s2 0 (by norm_num)
  have e3 := s2 3 (by norm_num)
  simp only [Nat.zero_div, Nat.zero_mod, Nat.reduceDiv, Nat.reduceMod, List.getD_cons_zero, List.getD_cons_succ] at e0 e3
  rw [← e0] at hrear'
  rw [← e3] at hfront hstop
  rw [← s1, ← s3] at hrear
  have hx : ∀ i < 1 + m, ((List.range (1 + m)).map (cargoPlace start loco wagon 1)).getD i 0 = cargoPlace start loco wagon 1 i := by
    intro i hi
    simp [hi]
  -- the locomotive and the wagons
  have hloco : cargoData loco wagon 1 0 = ((typeData loco : TrainData ℝ), bodyData loco) ∧ cargoPlace start loco wagon 1 0 = start := by
    constructor
    · rfl
    · simp [cargoPlace]
  have hwagon : ∀ i, cargoData loco wagon 1 (i + 1) = ((typeData wagon : TrainData ℝ), bodyData wagon) ∧
      cargoPlace start loco wagon 1 (i + 1) = start - (typeData loco : TrainData ℝ).length / 2 -
        (typeData wagon : TrainData ℝ).length / 2 - (typeData wagon : TrainData ℝ).length * i := by
    intro i
    constructor
    · unfold cargoData; rw [if_neg (by omega)]
    · unfold cargoPlace; rw [if_neg (by omega)]; rfl
  have hl1 : 0 ≤ (typeData wagon : TrainData ℝ).length := by linarith
  have hdata : ∀ i, cargoData loco wagon 1 i = ((typeData loco : TrainData ℝ), bodyData loco) ∨
      cargoData loco wagon 1 i = ((typeData wagon : TrainData ℝ), bodyData wagon) := by
    intro i
    cases i with
    | zero => exact Or.inl hloco.1
    | succ i => exact Or.inr (hwagon i).1
  have hfirst : ∀ i < 1 + m, cargoPlace start loco wagon 1 i + ((cargoData loco wagon 1 i : TrainData ℝ × BodyData ℝ).1.bogie +
      (cargoData loco wagon 1 i : TrainData ℝ × BodyData ℝ).1.wheel) ≤ start + ((typeData loco : TrainData ℝ).bogie + (typeData loco : TrainData ℝ).wheel) := by
    intro i hi
    cases i with
    | zero => rw [hloco.1, hloco.2]
    | succ i =>
      rw [(hwagon i).1, (hwagon i).2]
      have : 0 ≤ (typeData wagon : TrainData ℝ).length * i := mul_nonneg hl1 (Nat.cast_nonneg i)
      simp only
      linarith
  have hcarts : ∀ i j, i < j → j < 1 + m → cargoPlace start loco wagon 1 j + ((cargoData loco wagon 1 j : TrainData ℝ × BodyData ℝ).1.bogie +
      (cargoData loco wagon 1 j : TrainData ℝ × BodyData ℝ).1.wheel) + 17 / 10 ≤ cargoPlace start loco wagon 1 i -
        ((cargoData loco wagon 1 i : TrainData ℝ × BodyData ℝ).1.bogie + (cargoData loco wagon 1 i : TrainData ℝ × BodyData ℝ).1.wheel) := by
    intro i j hij hj
    obtain ⟨j, rfl⟩ : ∃ k, j = k + 1 := ⟨j - 1, by omega⟩
    rw [(hwagon j).1, (hwagon j).2]
    cases i with
    | zero =>
      rw [hloco.1, hloco.2]
      have : 0 ≤ (typeData wagon : TrainData ℝ).length * j := mul_nonneg hl1 (Nat.cast_nonneg j)
      simp only
      linarith
    | succ i =>
      rw [(hwagon i).1, (hwagon i).2]
      have h1 : (i : ℝ) + 1 ≤ j := by exact_mod_cast (by omega : i + 1 ≤ j)
      have := mul_le_mul_of_nonneg_left h1 hl1
      simp only
      linarith
  refine ⟨_, rfl, ⟨?_, ?_, ?_, ?_, ?_, ?_, ?_, hlen, hne, hforward, hslow⟩⟩
  · intro i _
    rcases hdata i with h | h <;> rw [h]
    · exact typeData_heavy loco n1
    · exact typeData_heavy wagon n2
  · intro i _
    rcases hdata i with h | h <;> rw [h] <;> simp only <;> linarith
  · intro i _
    rcases hdata i with h | h <;> rw [h] <;> simp only <;> constructor <;> linarith
  · intro i j hij hj
    rw [hx i (by omega), hx j hj]
    have := hcarts i j hij hj
    exact ⟨by linarith, by linarith⟩
  · intro i hi
    rw [hx i hi]
    cases i with
    | zero => rw [hloco.1, hloco.2]; simp only; linarith
    | succ i =>
      rw [(hwagon i).1, (hwagon i).2]
      have h1 : (i : ℝ) + 1 ≤ m := by exact_mod_cast (by omega : i + 1 ≤ m)
      have := mul_le_mul_of_nonneg_left h1 hl1
      simp only
      linarith
  · intro i hi
    rw [hx i hi]
    exact (hfirst i hi).trans_lt hfront
  · intro i hi k hk
    rw [hx i hi, wheelX_add _ _ _ (start + ((typeData loco : TrainData ℝ).bogie + (typeData loco : TrainData ℝ).wheel))]
    linarith [hfirst i hi, hstop k hk]

/-- A Traxx with two TAPPS wagons that starts with its middle at 60 m on 200 sleepers at 60 cm. -/
example : ∃ t x, buildFullCargo (60 : ℝ) .traxx .cargoTAPPS 1 2 = .ok (t, x) ∧
    ∃ ds, t = fullTrain (dataRow ds (1 + 2)) ∧ OwnRide ds (1 + 2) x [0, 1 / 100] [20, 20] 200 (3 / 5) := by
  refine ⟨_, _, rfl, C159_cargo 60 .traxx .cargoTAPPS 2 _ _ _ _ _ _ rfl (by norm_num) ?_ ?_ ?_ ?_ rfl (by simp) ?_ ?_⟩
  · norm_num [Spec.trainSheet]
  · norm_num [Spec.trainSheet]
  · norm_num [Spec.trainSheet]
  · intro k hk
    have : k < 2 := hk
    interval_cases k <;> norm_num [Spec.trainSheet, Spec.wheelX, Finset.sum_range_succ]
  · intro k hk
    have hk' : k + 1 < 2 := hk
    obtain rfl : k = 0 := by omega
    norm_num
  · intro k hk
    have hk' : k + 1 < 2 := hk
    obtain rfl : k = 0 := by omega
    norm_num

end Rose
