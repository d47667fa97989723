/-
C125 for the trains of `rose/pre_process/default_trains.py`, and a calculation that meets its conditions.
-/
import Verif.Props.TrainOnTrack
import Verif.Props.FullTrains

set_option linter.unusedSectionVars false

namespace Rose
open Finset

section massive
variable {K : Type*} [Field K] [LinearOrder K] [IsStrictOrderedRing K]

theorem stiffness_diagonal (t : Train K) (hf : t.FactorsFit) (hb : t.Balanced) (d : TrainDof) (hd : t.HasDof d) :
    t.stiffness (t.dof d) (t.dof d) = springForceAt t (fun e => if e = d then 1 else 0) d := by
  classical
  rw [← stiffness_row t hf hb _ d hd]
  unfold Spec.trainRow
  rw [← List.sum_toFinset _ t.nodup_allDofs]
  simp only [mul_ite, mul_one, mul_zero]
  rw [Finset.sum_ite_eq', if_pos (by rw [List.mem_toFinset, t.mem_allDofs]; exact hd)]

/-- Constants of a cart whose bodies are not trimmed. -/
structure HeavyData (x : TrainData K × BodyData K) : Prop where
  mass : 1 ≤ x.1.mass
  bogie : 1 / 2 ≤ x.1.bogie
  wheel : 1 / 2 ≤ x.1.wheel
  cartInertia : 1 ≤ x.2.cartInertia
  cartStiffness : 1 ≤ x.2.cartStiffness
  bogieMass : 1 ≤ x.2.bogieMass
  bogieInertia : 1 ≤ x.2.bogieInertia
  bogieStiffness : 1 ≤ x.2.bogieStiffness
  wheelMass : 1 ≤ x.2.wheelMass

theorem row_massive (ds : ℕ → TrainData K × BodyData K) (n : ℕ) (hd : ∀ i < n, HeavyData (ds i)) :
    (fullTrain (dataRow ds n)).Massive := by
  obtain ⟨hf, hb, -⟩ := row_statics ds n fun i hi => ⟨by linarith [(hd i hi).bogie], by linarith [(hd i hi).wheel]⟩
  set t := fullTrain (dataRow ds n) with ht
  have big : ∀ a : K, 1 / 2 ≤ a → 1 / 10 ^ 8 < |a| := by
    intro a ha
    rw [abs_of_nonneg (by linarith)]
    refine lt_of_lt_of_le ?_ ha
    norm_num
  intro d hdof
  have hdiag := stiffness_diagonal t hf hb d hdof
  cases d with
  | cartY i =>
    have hi : i < n := by simpa [Train.HasDof, ht, row_length] using hdof
    have hc := (row_cart ds n i _).2 ⟨hi, rfl⟩
    rw [← ht] at hc
    have k := hd i hi
    refine ⟨?_, ?_⟩
    · simp only [Train.bodyInertia, hc, Option.map_some, Option.getD_some]
      exact big _ (by linarith [k.mass])
    · rw [hdiag]
      simp only [springForceAt, hc, Option.toList_some, List.flatMap_cons, List.flatMap_nil, List.append_nil, cartSprings,
        factorsOrOnes]
      simp only [List.length_cons, List.length_nil]
      simp [-one_div]
      refine big _ ?_
      linarith [k.cartStiffness]
  | cartRot i =>
    have hi : i < n := by simpa [Train.HasDof, ht, row_length] using hdof
    have hc := (row_cart ds n i _).2 ⟨hi, rfl⟩
    rw [← ht] at hc
    have k := hd i hi
    refine ⟨?_, ?_⟩
    · simp only [Train.bodyInertia, hc, Option.map_some, Option.getD_some]
      exact big _ (by linarith [k.cartInertia])
    · rw [hdiag]
      simp only [springForceAt, hc, Option.toList_some, List.flatMap_cons, List.flatMap_nil, List.append_nil, cartSprings,
        factorsOrOnes]
      simp [-one_div]
      refine big _ ?_
      nlinarith [k.cartStiffness, k.bogie, mul_le_mul k.bogie k.bogie (by norm_num) (by linarith [k.bogie] : (0 : K) ≤ (ds i).1.bogie)]
  | bogieY b =>
    obtain ⟨i, hi, m, hm, rfl⟩ := (row_mem_bogies ds n b).1 hdof
    have hbg := row_bogie ds n i m hi hm
    rw [← ht] at hbg
    have k := hd i hi
    refine ⟨?_, ?_⟩
    · simp only [Train.bodyInertia, hbg]
      exact big _ (by linarith [k.bogieMass])
    · rw [hdiag]
      have hneg : ((List.range t.carts.length).flatMap fun i' => (t.carts[i']?.toList).flatMap fun c =>
          (cartSprings (fun e => if e = TrainDof.bogieY (2 * i + m) then (1 : K) else 0) i' c).map
            fun p => if p.1 = 2 * i + m then p.2.2 else 0).sum ≤ 0 := by
        refine (List.sum_le_card_nsmul _ 0 ?_).trans_eq (smul_zero _)
        intro y hy
        simp only [List.mem_flatMap, List.mem_range, List.mem_map, Option.mem_toList] at hy
        obtain ⟨i', -, c, hc, p, hp, rfl⟩ := hy
        obtain ⟨hi', rfl⟩ := (row_cart ds n i' c).1 hc
        have k' := hd i' hi'
        simp only [cartSprings, factorsOrOnes, List.mem_map] at hp
        obtain ⟨z, hz, rfl⟩ := hp
        simp at hz
        rcases hz with rfl | rfl <;> simp <;> split_ifs <;> simp <;> linarith [k'.cartStiffness]
      simp only [springForceAt]
      refine big _ ?_
      have hpos : 1 ≤ ((bogieSprings (fun e => if e = TrainDof.bogieY (2 * i + m) then (1 : K) else 0) (2 * i + m)
          (t.bogie (2 * i + m))).map fun p => p.2.2).sum := by
        rw [hbg]
        simp [bogieSprings, factorsOrOnes, List.range_succ]
        linarith [k.bogieStiffness]
      linarith
  | bogieRot b =>
    obtain ⟨i, hi, m, hm, rfl⟩ := (row_mem_bogies ds n b).1 hdof
    have hbg := row_bogie ds n i m hi hm
    rw [← ht] at hbg
    have k := hd i hi
    refine ⟨?_, ?_⟩
    · simp only [Train.bodyInertia, hbg]
      exact big _ (by linarith [k.bogieInertia])
    · rw [hdiag]
      simp only [springForceAt, hbg]
      simp [-one_div, bogieSprings, factorsOrOnes, List.range_succ]
      refine big _ ?_
      nlinarith [k.bogieStiffness, k.wheel, mul_le_mul k.wheel k.wheel (by norm_num) (by linarith [k.wheel] : (0 : K) ≤ (ds i).1.wheel)]
  | wheelY b j =>
    obtain ⟨hb', hj⟩ := hdof
    obtain ⟨i, hi, m, hm, rfl⟩ := (row_mem_bogies ds n b).1 hb'
    have hbg := row_bogie ds n i m hi hm
    rw [← ht] at hbg
    rw [hbg] at hj
    have k := hd i hi
    have hj2 : j < 2 := by simpa using hj
    refine ⟨?_, ?_⟩
    · simp only [Train.bodyInertia, hbg]
      interval_cases j
      · exact big _ (by simp; linarith [k.wheelMass])
      · exact big _ (by simp; linarith [k.wheelMass])
    · rw [hdiag]
      simp only [springForceAt, hbg]
      interval_cases j
      · simp [-one_div, bogieSprings, factorsOrOnes, List.range_succ]
        refine big _ ?_
        linarith [k.bogieStiffness]
      · simp [-one_div, bogieSprings, factorsOrOnes, List.range_succ]
        refine big _ ?_
        linarith [k.bogieStiffness]

/-! ### A motion that satisfies the equations of a coupled calculation -/

/-- The train raised by `B` without rotations. -/
def raisedBy (B : K) : TrainDof → K
  | .cartY _ => B
  | .cartRot _ => 0
  | .bogieY _ => B
  | .bogieRot _ => 0
  | .wheelY _ _ => B

theorem springForceAt_raised (t : Train K) (B : K) (d : TrainDof) : springForceAt t (raisedBy B) d = 0 := by
  have hc : ∀ i c, ∀ p ∈ cartSprings (raisedBy B) i c, p.2.2 = 0 := by
    intro i c p hp
    simp only [cartSprings, List.mem_map] at hp
    obtain ⟨z, -, rfl⟩ := hp
    simp [raisedBy]
  have hb : ∀ b bg, ∀ p ∈ bogieSprings (raisedBy B) b bg, p.2.2 = 0 := by
    intro b bg p hp
    simp only [bogieSprings, List.mem_map] at hp
    obtain ⟨z, -, rfl⟩ := hp
    simp [raisedBy]
  have hc' : ∀ i, ∀ p ∈ (t.carts[i]?.toList).flatMap (cartSprings (raisedBy B) i), p.2.2 = 0 := by
    intro i p hp
    obtain ⟨c, -, hp⟩ := List.mem_flatMap.1 hp
    exact hc i c p hp
  cases d with
  | cartY i =>
    refine List.sum_eq_zero fun x hx => ?_
    obtain ⟨p, hp, rfl⟩ := List.mem_map.1 hx
    exact hc' i p hp
  | cartRot i =>
    refine neg_eq_zero.2 (List.sum_eq_zero fun x hx => ?_)
    obtain ⟨p, hp, rfl⟩ := List.mem_map.1 hx
    rw [hc' i p hp, mul_zero]
  | bogieY b =>
    refine sub_eq_zero.2 (Eq.trans (List.sum_eq_zero fun x hx => ?_) (List.sum_eq_zero fun x hx => ?_).symm)
    · obtain ⟨p, hp, rfl⟩ := List.mem_map.1 hx
      exact hb _ _ p hp
    · obtain ⟨i, -, hx⟩ := List.mem_flatMap.1 hx
      obtain ⟨c, -, hx⟩ := List.mem_flatMap.1 hx
      obtain ⟨p, hp, rfl⟩ := List.mem_map.1 hx
      simp only [hc i c p hp, ite_self]
  | bogieRot b =>
    refine neg_eq_zero.2 (List.sum_eq_zero fun x hx => ?_)
    obtain ⟨p, hp, rfl⟩ := List.mem_map.1 hx
    rw [hb _ _ p hp, mul_zero]
  | wheelY b j =>
    refine neg_eq_zero.2 (List.sum_eq_zero fun x hx => ?_)
    obtain ⟨p, hp, rfl⟩ := List.mem_map.1 hx
    simp only [hb _ _ p hp, ite_self]

theorem coupled_solvable {H : Type*} [DecidableEq H] (hash : (Fin 3 → K) → H) (c : CoupledRun K) (hc : c.WellFormed)
    (hf : c.train.FactorsFit) (hb : c.train.Balanced) (hload : c.track.timed = []) (times : ℕ)
    (hd : ∀ t < times, DistinctElements c.rail c.train.wheelList.length t)
    (hlaw : ∀ t < times, ∀ w < c.train.wheelList.length, ∃ B, ∀ x, B ≤ x → (c.rail w).law t x = 0) (st : TrimState K)
    (hst : c.loadedTrack.input.initialise freshFlags = .ok st) :
    ∃ out, Spec.SolvesCoupled (c.system hash st) (c.rhs hash st) times out := by
  classical
  have hsep := hc.separated
  have hm := hc.massive
  -- one height for all wheels
  have hB : ∀ t, ∃ B, t < times → ∀ w < c.train.wheelList.length, (c.rail w).law t (B + (c.rail w).static) = 0 := by
    intro t
    by_cases ht : t < times
    · have : ∀ m ≤ c.train.wheelList.length, ∃ B, ∀ w < m, ∀ x, B ≤ x → (c.rail w).law t (x + (c.rail w).static) = 0 := by
        intro m
        induction m with
        | zero => exact fun _ => ⟨0, fun w hw => absurd hw (by omega)⟩
        | succ m ih =>
          intro hm'
          obtain ⟨B, hB⟩ := ih (by omega)
          obtain ⟨B', hB'⟩ := hlaw t ht m (by omega)
          refine ⟨max B (B' - (c.rail m).static), fun w hw x hx => ?_⟩
          rcases Nat.lt_succ_iff_lt_or_eq.1 hw with h | rfl
          · exact hB w h x ((le_max_left _ _).trans hx)
          · refine hB' _ ?_
            have := (le_max_right B (B' - (c.rail w).static)).trans hx
            linarith
      obtain ⟨B, hB⟩ := this _ le_rfl
      exact ⟨B, fun _ w hw => hB w hw B le_rfl⟩
    · exact ⟨0, fun h => absurd h ht⟩
  choose B hB using hB
  have hU := fun t => exists_vector c.train (raisedBy (B t))
  choose U hU using hU
  obtain ⟨A, hA⟩ := exists_vector c.train fun d => c.train.forceVector c.g (c.train.dof d) / c.train.bodyInertia d
  let out : SolverOutput K :=
    { u := fun t k => if k < st.N then 0 else U t (k - st.N), v := fun _ _ => 0
      a := fun _ k => if k < st.N then 0 else A (k - st.N) }
  refine ⟨out, fun t ht => ⟨[], [], ?_⟩⟩
  obtain ⟨-, r2, -⟩ := C106_representable c.loadedTrack.input freshFlags st hst
  have ru : RepresentsField c.track.system.n st.nodes (out.u t) (fun _ _ => 0) :=
    ⟨fun i e k hk => if_pos (r2 i e k hk).2, fun _ _ _ _ => rfl⟩
  have hforce : ∀ w < c.train.wheelList.length, (c.wheelOf st t w).force (out.u t) = 0 := by
    intro w hw
    have e := dispAtWheel_eq c.track.system.n st.nodes (out.u t) _ ru (c.rail w) t (hc.rail w t).1 (hc.rail w t).2
    have e0 : Spec.railAt (c.rail w) t (fun _ _ => (0 : K)) = 0 := by simp [Spec.railAt]
    rw [e0] at e
    have hwheel := wheel_hasDof c.train w hw
    have eu : out.u t (c.train.dof (.wheelY (c.train.wheelList.getD w (0, 0)).1 (c.train.wheelList.getD w (0, 0)).2) + st.N) =
        B t := by
      show (if _ then (0 : K) else U t _) = _
      rw [if_neg (by omega), Nat.add_sub_cancel, hU t _ hwheel]
      rfl
    show (c.rail w).law t (out.u t (c.train.dof _ + st.N) + (c.rail w).static - dispAtWheel (out.u t)
      ⟨railDofs (nodeEquations st.nodes) ((c.rail w).element t), (c.rail w).shape t⟩) = 0
    rw [e, eu, sub_zero]
    exact hB t ht w hw
  have hN : (c.system hash st).N = st.N + (c.trainState hash).N := rfl
  obtain ⟨n1, -, n3⟩ := C102_trimmed_partial hash c.train c.start c.g hsep hm
  have n1' : (c.trainState hash).N = c.train.numbering.next := n1
  have n3 : ∀ d e, c.train.HasDof d → c.train.HasDof e →
      (c.trainState hash).M (c.train.dof d) (c.train.dof e) = c.train.massMatrix (c.train.dof d) (c.train.dof e) ∧
      (c.trainState hash).C (c.train.dof d) (c.train.dof e) = c.train.damping (c.train.dof d) (c.train.dof e) ∧
      (c.trainState hash).Kg (c.train.dof d) (c.train.dof e) = c.train.stiffness (c.train.dof d) (c.train.dof e) ∧
      (c.trainState hash).F (c.train.dof d) = c.train.forceVector c.g (c.train.dof d) := n3
  obtain ⟨q1, q2⟩ := coupled_row hash c st (out.a t) (out.v t) (out.u t) st.N (c.trainState hash).N rfl rfl
  intro i hi
  rw [hN] at hi ⊢
  by_cases hin : i < st.N
  · rw [q1 i hin]
    have z1 : ∀ A : ℕ → ℕ → K, ∑ j ∈ range st.N, A i j * out.u t j = 0 := fun A => sum_eq_zero fun j hj => by
      rw [show out.u t j = 0 from if_pos (Finset.mem_range.mp hj), mul_zero]
    have z2 : ∀ A : ℕ → ℕ → K, ∑ j ∈ range st.N, A i j * out.a t j = 0 := fun A => sum_eq_zero fun j hj => by
      rw [show out.a t j = 0 from if_pos (Finset.mem_range.mp hj), mul_zero]
    have z3 : ∀ A : ℕ → ℕ → K, ∑ j ∈ range st.N, A i j * out.v t j = 0 := fun A => sum_eq_zero fun j _ => by
      rw [show out.v t j = 0 from rfl, mul_zero]
    rw [z1, z2, z3, z3, z3]
    have hT := track_rhs_work hash c hc.track hsep hm hc.loads hc.rail freshFlags st hst [] [] t (hd t ht) (out.u t)
      (Pi.single i 1) _ (fieldOf_represents _ _ _)
    rw [Finset.sum_eq_single_of_mem i (Finset.mem_range.mpr hin) (fun b _ hb => by simp [hb]), hload,
      sum_eq_zero (s := range c.train.wheelList.length) (fun w hw => by
        rw [hforce w (Finset.mem_range.mp hw), neg_zero, zero_mul])] at hT
    simp only [Pi.single_eq_same, one_mul, Spec.loadsAt, Spec.loadWork, List.map_nil, List.sum_nil, add_zero] at hT
    rw [hT]
    simp
  · obtain ⟨e, he, hei⟩ := train_exists_dof c.train (i - st.N) (by omega)
    obtain rfl : i = st.N + c.train.dof e := (by omega)
    have hlt := c.train.dof_lt e he
    rw [train_rhs hash c hsep hm st [] [] t (out.u t) e he, q2 _ (by omega)]
    have row_eq : ∀ (A B : ℕ → ℕ → K) (V : ℕ → K) (x : TrainDof → K)
        (_ : ∀ f, c.train.HasDof f → A (c.train.dof e) (c.train.dof f) = B (c.train.dof e) (c.train.dof f))
        (_ : ∀ f, c.train.HasDof f → V (st.N + c.train.dof f) = x f),
        ∑ j ∈ range (c.trainState hash).N, A (c.train.dof e) j * V (st.N + j) =
          Spec.trainRow c.train B x c.train.allDofs e := by
      intro A B V x hA hx
      rw [n1', sum_row c.train A (fun j => V (st.N + j)) x hx e]
      unfold Spec.trainRow
      congr 1
      refine List.map_congr_left fun f hf => ?_
      rw [hA f ((c.train.mem_allDofs f).1 hf)]
    have ua : ∀ f, c.train.HasDof f → out.u t (st.N + c.train.dof f) = raisedBy (B t) f := by
      intro f hf
      show (if _ then (0 : K) else U t _) = _
      rw [if_neg (by omega), Nat.add_sub_cancel_left, hU t f hf]
    have aa : ∀ f, c.train.HasDof f → out.a t (st.N + c.train.dof f) =
        c.train.forceVector c.g (c.train.dof f) / c.train.bodyInertia f := by
      intro f hf
      show (if _ then (0 : K) else A _) = _
      rw [if_neg (by omega), Nat.add_sub_cancel_left, hA f hf]
    have z3 : ∀ A : ℕ → ℕ → K, ∑ j ∈ range (c.trainState hash).N, A (c.train.dof e) j * out.v t (st.N + j) = 0 :=
      fun A => sum_eq_zero fun j _ => by rw [show out.v t (st.N + j) = 0 from rfl, mul_zero]
    rw [z3, z3, z3, row_eq _ c.train.massMatrix _ _ (fun f hf => (n3 e f he hf).1) aa,
      row_eq _ c.train.stiffness _ _ (fun f hf => (n3 e f he hf).2.2.1) ua, mass_row c.train _ e he,
      stiffness_row c.train hf hb _ e he, springForceAt_raised,
      sum_eq_zero (s := range c.train.wheelList.length) (fun w hw => by
        rw [hforce w (Finset.mem_range.mp hw), ite_self])]
    have hne : c.train.bodyInertia e ≠ 0 := by
      have := (hm e he).1
      intro h0
      rw [h0, abs_zero] at this
      have h9 : (0 : K) < 1 / 10 ^ 8 := by positivity
      linarith
    field_simp
    ring

end massive

section ride
variable {H : Type*} [DecidableEq H] {hash : (Fin 3 → ℝ) → H} {q : TrackRide} {n r : ℕ} {d h : ℝ}

/-- For a calculation in which no two wheels are on neighbouring elements and each wheel leaves the rail when it is lifted enough, there
is a solver that solves what it is given. -/
theorem TrackRide.Runs.solvesLifted {m' : ℕ} {l : ℝ} {sys : SystemInput ℝ} (v : q.Runs m' l) (nodes : List ℕ) (R : ℕ → RailWheel ℝ)
    (hwf : (q.runOn sys nodes R).WellFormed) (times : ℕ) (hd : ∀ t < times, DistinctElements R q.train.wheelList.length t)
    (hlaw : ∀ t < times, ∀ w < q.train.wheelList.length, ∃ B, ∀ x, B ≤ x → (R w).law t x = 0) :
    ∃ solver : TrimState ℝ → (List (ℕ × List (ℕ → ℝ)) → List (ℕ → ℝ) → ℕ → (ℕ → ℝ) → ℕ → ℝ) → SolverOutput ℝ,
      ∀ st, (q.runOn sys nodes R).loadedTrack.input.initialise freshFlags = .ok st →
        Spec.SolvesCoupled ((q.runOn sys nodes R).system hash st) ((q.runOn sys nodes R).rhs hash st) times
          (solver ((q.runOn sys nodes R).system hash st) ((q.runOn sys nodes R).rhs hash st)) := by
  classical
  refine ⟨fun sys rhs => if hx : ∃ out, Spec.SolvesCoupled sys rhs times out then hx.choose else ⟨0, 0, 0⟩, ?_⟩
  intro st hst
  have hx : ∃ out, Spec.SolvesCoupled ((q.runOn sys nodes R).system hash st) ((q.runOn sys nodes R).rhs hash st) times out :=
    coupled_solvable hash _ hwf v.fits v.balanced rfl times hd hlaw st hst
  simp only [hx, dif_pos]
  exact hx.choose_spec

/-- For a calculation whose wheels are in contact as specified there is a solver that solves what it is given. -/
theorem TrackRide.Runs.solvesOn {m m' : ℕ} {l : ℝ} {sys : SystemInput ℝ} (v : q.Runs m' l) (nodes : List ℕ) (R : ℕ → RailWheel ℝ)
    (hwf : (q.runOn sys nodes R).WellFormed) (hfacts : ∀ t < q.time.length, q.Contacts m l R t) (times : ℕ)
    (htimes : times ≤ q.time.length) :
    ∃ solver : TrimState ℝ → (List (ℕ × List (ℕ → ℝ)) → List (ℕ → ℝ) → ℕ → (ℕ → ℝ) → ℕ → ℝ) → SolverOutput ℝ,
      ∀ st, (q.runOn sys nodes R).loadedTrack.input.initialise freshFlags = .ok st →
        Spec.SolvesCoupled ((q.runOn sys nodes R).system hash st) ((q.runOn sys nodes R).rhs hash st) times
          (solver ((q.runOn sys nodes R).system hash st) ((q.runOn sys nodes R).rhs hash st)) := by
  refine v.solvesLifted nodes R hwf times (fun t ht => (hfacts t (by omega)).1) ?_
  intro t ht w hw
  have hF := (hfacts t (by omega)).2.2 w hw (fun _ _ => 0)
  refine ⟨q.G * (-q.staticLoad (q.train.wheelList.getD w (0, 0))) ^ (1 / q.p) +
    Spec.railDeflection l m (fun k => q.track.position (q.track.rail.getD k 0)) (fun _ _ => 0)
      (Spec.wheelX q.time q.vel (q.startOf (q.train.wheelList.getD w (0, 0))) t) + (R w).static - q.irr w t, fun x hx => ?_⟩
  have h1 := hF fun _ => x - (R w).static
  have e0 : Spec.railAt (R w) t (fun _ _ => (0 : ℝ)) = 0 := by simp [Spec.railAt]
  unfold Spec.wheelForce at h1
  rw [e0, sub_zero, sub_add_cancel] at h1
  refine h1.trans ?_
  unfold Spec.hertz
  rw [if_neg]
  linarith

/-- For every train that runs over an even rail there is a solver as in `C125_motion_partial`. -/
theorem TrackRide.Runs.solvable {m : ℕ} {l : ℝ} {sys : SystemInput ℝ} (v : q.Runs m l) (g : EvenRail q.track m l)
    (hp : PlacedRail q.track sys) (times : ℕ) (htimes : times ≤ q.time.length) :
    ∃ solver : TrimState ℝ → (List (ℕ × List (ℕ → ℝ)) → List (ℕ → ℝ) → ℕ → (ℕ → ℝ) → ℕ → ℝ) → SolverOutput ℝ,
      ∀ c st, q.coupledOn sys = .ok c → c.loadedTrack.input.initialise freshFlags = .ok st →
        Spec.SolvesCoupled (c.system hash st) (c.rhs hash st) times (solver (c.system hash st) (c.rhs hash st)) := by
  obtain ⟨R, hc, hwf, hfacts⟩ := v.run g hp
  obtain ⟨solver, h⟩ := v.solvesOn (hash := hash) _ R hwf hfacts times htimes
  refine ⟨solver, fun c st hc' hst => ?_⟩
  rw [hc] at hc'
  injection hc' with hc'
  subst hc'
  exact h st hst

/-- **C125, the condition on the solver can be met** For every valid ride there is a solver as in `C125_motion_partial`. -/
theorem C125_solvable (v : q.Valid hash n r d h) (times : ℕ) (htimes : times ≤ q.time.length) :
    ∃ solver : TrimState ℝ → (List (ℕ × List (ℕ → ℝ)) → List (ℕ → ℝ) → ℕ → (ℕ → ℝ) → ℕ → ℝ) → SolverOutput ℝ,
      ∀ c st, q.coupled = .ok c → c.loadedTrack.input.initialise freshFlags = .ok st →
        Spec.SolvesCoupled (c.system hash st) (c.rhs hash st) times (solver (c.system hash st) (c.rhs hash st)) := by
  obtain ⟨solver, h⟩ := v.runs.solvable (hash := hash) v.generated.even (v.generated.placedRail q.values q.held) times htimes
  exact ⟨solver, fun c st hc hst => h c st (by rw [← v.coupled_eq]; exact hc) hst⟩

theorem wheelX_add (time vel : List ℝ) (a b : ℝ) (k : ℕ) :
    Spec.wheelX time vel a k = Spec.wheelX time vel b k + (a - b) := by
  unfold Spec.wheelX
  ring

theorem typeData_heavy (ty : TrainType) (hty : ty ≠ .sprinterSLT) : HeavyData ((typeData ty : TrainData ℝ), bodyData ty) := by
  cases ty <;> first | exact absurd rfl hty | (
    constructor <;>
    simp only [typeData, bodyData, traxxData, br189Data, doubleDekkerData, sgmData, icmData, sgnsData, falns5Data, tappsData] <;> norm_num)

/-- A default train other than the SLT with any number of carts runs over a rail of elements shorter than 85 cm, see
`C125_default`. -/
theorem default_runs {count : ℕ} {l : ℝ} (ty : TrainType) (hty : ty ≠ .sprinterSLT) (start : ℝ) (m : ℕ)
    (htrain : setFullTrain ty start m = .ok (q.train, q.starts)) (hd' : l < 17 / 20)
    (hk : q.values.rail.kappa ≤ 0) (hlen : q.time.length = q.vel.length) (hne : q.time ≠ [])
    (hforward : ∀ k, k + 1 < q.time.length → 0 ≤ q.vel.getD k 0 * (q.time.getD (k + 1) 0 - q.time.getD k 0))
    (hslow : ∀ k, k + 1 < q.time.length → q.vel.getD k 0 * (q.time.getD (k + 1) 0 - q.time.getD k 0) ≤ l)
    (hrear : 0 ≤ start - (m - 1) * (Spec.trainSheet ty).pitch + (Spec.trainSheet ty).axles.getD 0 0)
    (hfront : start + (Spec.trainSheet ty).axles.getD 3 0 < ((count - 1 : ℕ) : ℝ) * l)
    (hstop : ∀ k < q.time.length,
      Spec.wheelX q.time q.vel (start + (Spec.trainSheet ty).axles.getD 3 0) k ≤ ((count - 1 : ℕ) : ℝ) * l)
    (hg : 0 ≤ q.g) (hG : 0 < q.G) (hp : ¬ ∃ z : ℤ, q.p = z) : q.Runs count l := by
  obtain ⟨s1, s2, s3, s4, s5, s6⟩ := C122_sheet ty hty start m _ _ htrain
  obtain ⟨-, hsep⟩ := C122_apart ty hty start m _ _ htrain
  have hrow := htrain
  rw [setFullTrain_eq ty hty] at hrow
  simp only [Except.ok.injEq, Prod.mk.injEq] at hrow
  have hheavy := typeData_heavy ty hty
  have hmass := row_massive (fun _ => ((typeData ty : TrainData ℝ), bodyData ty)) m fun _ _ => hheavy
  obtain ⟨f1, f2, -⟩ := row_statics (fun _ => ((typeData ty : TrainData ℝ), bodyData ty)) m fun _ _ =>
    ⟨by linarith [hheavy.bogie], by linarith [hheavy.wheel]⟩
  rw [hrow.1] at hmass f1 f2
  -- the wheels are the axles of the data sheet
  have hwheel : ∀ w ∈ q.train.wheelList, ∃ i < m, ∃ a < 4, w = (2 * i + a / 2, a % 2) := by
    intro w hw
    have h1 : q.train.HasPart (.wheel w.1 w.2) := (mem_wheelList q.train w).1 hw
    obtain ⟨h2, h3⟩ := (s4 _ _).1 h1
    refine ⟨w.1 / 2, by omega, 2 * (w.1 % 2) + w.2, by omega, Prod.ext ?_ ?_⟩
    · show w.1 = _; omega
    · show w.2 = _; omega
  have haxle : ∀ a < 4, (Spec.trainSheet ty : Spec.TrainSheet ℝ).axles.getD 0 0 ≤ (Spec.trainSheet ty : Spec.TrainSheet ℝ).axles.getD a 0 ∧
      (Spec.trainSheet ty : Spec.TrainSheet ℝ).axles.getD a 0 ≤ (Spec.trainSheet ty : Spec.TrainSheet ℝ).axles.getD 3 0 := by
    intro a ha
    interval_cases a <;> cases ty <;> first | exact absurd rfl hty | (simp only [Spec.trainSheet]; norm_num)
  have haxles : ∀ a < 4, ∀ b < 4, a ≠ b → 17 / 10 ≤
      |(Spec.trainSheet ty : Spec.TrainSheet ℝ).axles.getD a 0 - (Spec.trainSheet ty : Spec.TrainSheet ℝ).axles.getD b 0| := by
    intro a ha b hb hab
    rw [le_abs]
    interval_cases a <;> interval_cases b <;> first | exact absurd rfl hab | (
      cases ty <;> first | exact absurd rfl hty | (simp only [Spec.trainSheet]; norm_num))
  have hpitch : 0 ≤ (Spec.trainSheet ty : Spec.TrainSheet ℝ).pitch ∧ (Spec.trainSheet ty : Spec.TrainSheet ℝ).axles.getD 3 0 -
      (Spec.trainSheet ty : Spec.TrainSheet ℝ).axles.getD 0 0 + 17 / 10 ≤ (Spec.trainSheet ty : Spec.TrainSheet ℝ).pitch := by
    cases ty <;> first | exact absurd rfl hty | (simp only [Spec.trainSheet]; norm_num)
  have hstart : ∀ w ∈ q.train.wheelList, 0 ≤ q.startOf w ∧ q.startOf w ≤ start + (Spec.trainSheet ty).axles.getD 3 0 := by
    intro w hw
    obtain ⟨i, hi, a, ha, rfl⟩ := hwheel w hw
    have e := (s6 i hi a ha).1
    unfold TrackRide.startOf
    rw [e]
    obtain ⟨a1, a2⟩ := haxle a ha
    have hi0 : (0 : ℝ) ≤ i := Nat.cast_nonneg i
    have hi1 : (i : ℝ) ≤ m - 1 := by
      have : (i : ℝ) + 1 ≤ m := by exact_mod_cast hi
      linarith
    constructor
    · nlinarith
    · nlinarith
  refine ⟨hk, hlen, hne, hforward, hslow, ?_, ?_, ?_, hsep, hmass, f1, f2, ?_, hG, hp⟩
  · exact fun w hw => ⟨(hstart w hw).1, (hstart w hw).2.trans_lt hfront⟩
  · intro w hw k hk
    rw [wheelX_add _ _ _ (start + (Spec.trainSheet ty).axles.getD 3 0)]
    linarith [(hstart w hw).2, hstop k hk]
  · intro x hx y hy hxy
    obtain ⟨i, hi, a, ha, rfl⟩ := hwheel x hx
    obtain ⟨j, hj, b, hb, rfl⟩ := hwheel y hy
    have e1 := (s6 i hi a ha).1
    have e2 := (s6 j hj b hb).1
    unfold TrackRide.startOf
    rw [e1, e2]
    rcases lt_trichotomy i j with hij | rfl | hij
    · have h1 : (i : ℝ) + 1 ≤ j := by exact_mod_cast hij
      obtain ⟨a1, a2⟩ := haxle a ha
      obtain ⟨b1, b2⟩ := haxle b hb
      rw [lt_abs]
      left
      nlinarith
    · have hab : a ≠ b := by rintro rfl; exact hxy rfl
      have := haxles a ha b hb hab
      rw [show start - i * (Spec.trainSheet ty : Spec.TrainSheet ℝ).pitch + (Spec.trainSheet ty : Spec.TrainSheet ℝ).axles.getD a 0 -
        (start - i * (Spec.trainSheet ty : Spec.TrainSheet ℝ).pitch + (Spec.trainSheet ty : Spec.TrainSheet ℝ).axles.getD b 0) =
        (Spec.trainSheet ty : Spec.TrainSheet ℝ).axles.getD a 0 - (Spec.trainSheet ty : Spec.TrainSheet ℝ).axles.getD b 0 by ring]
      linarith
    · have h1 : (j : ℝ) + 1 ≤ i := by exact_mod_cast hij
      obtain ⟨a1, a2⟩ := haxle a ha
      obtain ⟨b1, b2⟩ := haxle b hb
      rw [lt_abs]
      right
      nlinarith
  · intro w hw
    obtain ⟨i, hi, a, ha, rfl⟩ := hwheel w hw
    unfold TrackRide.staticLoad
    rw [(s6 i hi a ha).2 q.g, Option.getD_some]
    have : 0 ≤ (Spec.trainSheet ty : Spec.TrainSheet ℝ).carried := by
      cases ty <;> first | exact absurd rfl hty | (simp only [Spec.trainSheet]; norm_num)
    nlinarith

/-- **C125 for the default trains** A default train other than the SLT with any number of carts on a generated track with rail
elements shorter than 85 cm meets the conditions of C125 if its last axle starts on the rail, its first axle before
the last node of the rail, the first axle does not leave the rail, it moves forward and in no step by more than a rail
element, gravity and contact coefficient have the right sign, the rail has no shear deformation and the power of the contact
law is no integer. -/
theorem C125_default (ty : TrainType) (hty : ty ≠ .sprinterSLT) (start : ℝ) (m : ℕ)
    (htrain : setFullTrain ty start m = .ok (q.train, q.starts)) (htrack : createHorizontalTrack hash n r d h = .ok q.track)
    (hn : 2 ≤ n * r) (hd : 1 / 1000000000 < d / r) (hd' : d / r < 17 / 20) (hh : 1 / 1000000000 < h)
    (hk : q.values.rail.kappa ≤ 0) (hlen : q.time.length = q.vel.length) (hne : q.time ≠ [])
    (hforward : ∀ k, k + 1 < q.time.length → 0 ≤ q.vel.getD k 0 * (q.time.getD (k + 1) 0 - q.time.getD k 0))
    (hslow : ∀ k, k + 1 < q.time.length → q.vel.getD k 0 * (q.time.getD (k + 1) 0 - q.time.getD k 0) ≤ d / r)
    (hrear : 0 ≤ start - (m - 1) * (Spec.trainSheet ty).pitch + (Spec.trainSheet ty).axles.getD 0 0)
    (hfront : start + (Spec.trainSheet ty).axles.getD 3 0 < ((n * r - 1 : ℕ) : ℝ) * (d / r))
    (hstop : ∀ k < q.time.length,
      Spec.wheelX q.time q.vel (start + (Spec.trainSheet ty).axles.getD 3 0) k ≤ ((n * r - 1 : ℕ) : ℝ) * (d / r))
    (hg : 0 ≤ q.g) (hG : 0 < q.G) (hp : ¬ ∃ z : ℤ, q.p = z) : q.Valid hash n r d h := by
  exact ⟨⟨hn, hd, hh, htrack⟩, default_runs ty hty start m htrain hd' hk hlen hne hforward hslow hrear hfront hstop hg hG hp⟩

/-- The values of the track of `exampleTrack`, with a rail without shear deformation. -/
noncomputable def bendingTrack : TrackValues := { exampleTrack with rail := { exampleTrack.rail with kappa := 0 } }

/-- One double-dekker cart at 30 m/s in steps of 1 / 100 s on 100 sleepers at 0.6 m with two rail elements per sleeper. -/
noncomputable def exampleRide (track : HorizontalTrack ℝ) (t : Train ℝ × List ℝ) : TrackRide where
  track := track
  values := bendingTrack
  held := true
  train := t.1
  starts := t.2
  g := 9.81
  time := [0, 1 / 100, 2 / 100]
  vel := [30, 30, 30]
  G := 9.1 * 10⁻¹ ^ 8
  p := 3 / 2
  irr := fun w k => if w = 1 then 0.001 * k else 0
  isRayleigh := true
  ratio := 1 / 50
  w1 := 6
  w2 := 500

/-- The conditions of C125 are met by the example, and there is a solver for it. -/
example : ∃ track t, createHorizontalTrack (fun p : Fin 3 → ℝ => p) 100 2 (3 / 5) 1 = .ok track ∧
    setFullTrain .doubleDekker 20 1 = .ok t ∧ (exampleRide track t).Valid (fun p : Fin 3 → ℝ => p) 100 2 (3 / 5) 1 ∧
    ∃ solver : TrimState ℝ → (List (ℕ × List (ℕ → ℝ)) → List (ℕ → ℝ) → ℕ → (ℕ → ℝ) → ℕ → ℝ) → SolverOutput ℝ,
      ∀ c st, (exampleRide track t).coupled = .ok c → c.loadedTrack.input.initialise freshFlags = .ok st →
        Spec.SolvesCoupled (c.system (fun p : Fin 3 → ℝ => p) st) (c.rhs (fun p : Fin 3 → ℝ => p) st) 3
          (solver (c.system (fun p : Fin 3 → ℝ => p) st) (c.rhs (fun p : Fin 3 → ℝ => p) st)) := by
  obtain ⟨track, htrack, -⟩ := C48_structure (fun p : Fin 3 → ℝ => p) 100 2 (by norm_num) (3 / 5) 1
  have ht := setFullTrain_eq (K := ℝ) .doubleDekker (by decide) 20 1
  have v : (exampleRide track (fullTrain (dataRow (fun _ => (typeData .doubleDekker, bodyData .doubleDekker)) 1),
      cartPositions 20 (typeData .doubleDekker).length 1)).Valid (fun p : Fin 3 → ℝ => p) 100 2 (3 / 5) 1 := by
    refine C125_default .doubleDekker (by decide) 20 1 ht htrack (by norm_num) (by norm_num) (by norm_num) (by norm_num)
      le_rfl rfl (by simp [exampleRide]) ?_ ?_ ?_ ?_ ?_ ?_ ?_ ?_
    · intro k hk
      have hk' : k + 1 < 3 := hk
      have : k < 2 := by omega
      interval_cases k <;> norm_num [exampleRide]
    · intro k hk
      have hk' : k + 1 < 3 := hk
      have : k < 2 := by omega
      interval_cases k <;> norm_num [exampleRide]
    · norm_num [Spec.trainSheet]
    · norm_num [Spec.trainSheet]
    · intro k hk
      have : k < 3 := by simpa [exampleRide] using hk
      interval_cases k <;> norm_num [exampleRide, Spec.trainSheet, Spec.wheelX, Finset.sum_range_succ]
    · norm_num [exampleRide]
    · norm_num [exampleRide]
    · rintro ⟨z, hz⟩
      have h2 : (3 : ℝ) = ((2 * z : ℤ) : ℝ) := by
        push_cast
        rw [← hz]
        norm_num [exampleRide]
      have h3 : (3 : ℤ) = 2 * z := by exact_mod_cast h2
      omega
  exact ⟨track, _, htrack, ht, v, C125_solvable v 3 le_rfl⟩

end ride
end Rose
