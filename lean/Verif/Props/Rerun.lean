/-
C181: a coupled model that is calculated more than once.
-/
import Verif.Model.Rerun
import Verif.Props.CoupledCausal
import Verif.Props.OwnTrains

set_option linter.unusedSectionVars false

namespace Rose
open Finset

variable {q : TrackRide} {m : ℕ} {l : ℝ} {sys : SystemInput ℝ}

/-! ### The static loads of the wheels -/

/-- Static load of a wheel in call number `k` (counted from 0) of a calculation with the same train objects. -/
noncomputable def TrackRide.loadAfter (q : TrackRide) (k : ℕ) (w : ℕ × ℕ) : ℝ :=
  ((totalStaticLoad q.train q.g)^[k + 1] StaticLoads.fresh).onWheel w

theorem loadAfter_zero (q : TrackRide) (w : ℕ × ℕ) : q.loadAfter 0 w = q.staticLoad w := rfl

/-- Specification: no negative masses, gravity is not upwards. -/
structure Spec.Weighs (q : TrackRide) : Prop where
  gravity : 0 ≤ q.g
  carts : ∀ c ∈ q.train.carts, 0 ≤ c.mass
  bogies : ∀ b ∈ q.train.bogies, 0 ≤ (q.train.bogie b).mass

theorem wheel_of (t : Train ℝ) (w : ℕ × ℕ) (hw : w ∈ t.wheelList) : w.1 ∈ t.bogies ∧ w.2 < (t.bogie w.1).wheels.length := by
  unfold Train.wheelList at hw
  simp only [List.mem_flatMap, List.mem_map, List.mem_range] at hw
  obtain ⟨b, hb, j, hj, rfl⟩ := hw
  exact ⟨hb, hj⟩

theorem cartShare_nonpos (t : Train ℝ) (g : ℝ) (hg : 0 ≤ g) (hm : ∀ c ∈ t.carts, 0 ≤ c.mass) (b : ℕ) : cartShare t g b ≤ 0 := by
  have hsum : ∀ xs : List ℝ, (∀ x ∈ xs, x ≤ 0) → xs.sum ≤ 0 := by
    intro xs
    induction xs with
    | nil => intro _; simp
    | cons a xs ih =>
      intro h
      rw [List.sum_cons]
      have h1 := h a (by simp)
      have h2 := ih fun x hx => h x (by simp [hx])
      linarith
  unfold cartShare
  refine hsum _ fun x hx => ?_
  obtain ⟨c, hc, rfl⟩ := List.mem_map.mp hx
  refine mul_nonpos_of_nonneg_of_nonpos (Nat.cast_nonneg _) (div_nonpos_of_nonpos_of_nonneg ?_ (Nat.cast_nonneg _))
  have := mul_nonneg (hm c hc) hg
  linarith

/-- **C181, loads** In call number `k` of the same coupled model a wheel carries, on top of the static load of the first call, `k` times its share of the
weight of its bogie and `k (k + 3) / 2` times its share of the weight of the carts on that bogie. -/
theorem C181_loads (q : TrackRide) (k : ℕ) (w : ℕ × ℕ) (hw : w ∈ q.train.wheelList) :
    q.loadAfter k w = q.staticLoad w +
      (k * (-(q.train.bogie w.1).mass * q.g) + (k * (k + 3) / 2) * cartShare q.train q.g w.1) / (q.train.bogie w.1).wheels.length := by
  obtain ⟨hb, hj⟩ := wheel_of _ _ hw
  have hlen : ((q.train.bogie w.1).wheels.length : ℝ) ≠ 0 := by exact_mod_cast (by omega : (q.train.bogie w.1).wheels.length ≠ 0)
  have h := fun k => (C38_loads_after q.train q.g k w.1 hb).2 w.2 hj
  have e : ∀ k, q.loadAfter k w = wheelOwn q.train q.g w.1 w.2 +
      ∑ i ∈ Finset.range (k + 1), (-(q.train.bogie w.1).mass * q.g + (i + 1 : ℝ) * cartShare q.train q.g w.1) /
        (q.train.bogie w.1).wheels.length := by
    intro k
    unfold TrackRide.loadAfter StaticLoads.onWheel
    rw [h k]
    rfl
  rw [← loadAfter_zero]
  induction k with
  | zero => simp
  | succ k ih =>
    have e1 := e (k + 1)
    rw [Finset.sum_range_succ, ← add_assoc, ← e k, ih] at e1
    rw [e1]
    push_cast
    field_simp
    ring

theorem loadAfter_le (h : Spec.Weighs q) (k : ℕ) (w : ℕ × ℕ) (hw : w ∈ q.train.wheelList) : q.loadAfter k w ≤ q.staticLoad w := by
  obtain ⟨hb, hj⟩ := wheel_of _ _ hw
  rw [C181_loads q k w hw]
  have h1 := cartShare_nonpos q.train q.g h.gravity h.carts w.1
  have h2 := mul_nonneg (h.bogies _ hb) h.gravity
  have h3 : (0 : ℝ) ≤ k := Nat.cast_nonneg k
  have : (k * (-(q.train.bogie w.1).mass * q.g) + (k * (k + 3) / 2) * cartShare q.train q.g w.1) /
      ((q.train.bogie w.1).wheels.length : ℝ) ≤ 0 := by
    refine div_nonpos_of_nonpos_of_nonneg ?_ (Nat.cast_nonneg _)
    have h4 : 0 ≤ (k : ℝ) * ((q.train.bogie w.1).mass * q.g) := mul_nonneg h3 h2
    have h5 : (k * (k + 3) / 2 : ℝ) * cartShare q.train q.g w.1 ≤ 0 := mul_nonpos_of_nonneg_of_nonpos (by positivity) h1
    linarith
  linarith

theorem loadAfter_lt (h : Spec.Weighs q) (k : ℕ) (hk : 0 < k) (w : ℕ × ℕ) (hw : w ∈ q.train.wheelList) (hg : 0 < q.g)
    (hm : 0 < (q.train.bogie w.1).mass) : q.loadAfter k w < q.staticLoad w := by
  obtain ⟨hb, hj⟩ := wheel_of _ _ hw
  rw [C181_loads q k w hw]
  have h1 := cartShare_nonpos q.train q.g h.gravity h.carts w.1
  have h2 := mul_pos hm hg
  have h3 : (0 : ℝ) < k := by exact_mod_cast hk
  have hlen : (0 : ℝ) < (q.train.bogie w.1).wheels.length := by exact_mod_cast (by omega : 0 < (q.train.bogie w.1).wheels.length)
  have : (k * (-(q.train.bogie w.1).mass * q.g) + (k * (k + 3) / 2) * cartShare q.train q.g w.1) /
      ((q.train.bogie w.1).wheels.length : ℝ) < 0 := by
    refine div_neg_of_neg_of_pos ?_ hlen
    have h4 : 0 < (k : ℝ) * ((q.train.bogie w.1).mass * q.g) := mul_pos h3 h2
    have h5 : (k * (k + 3) / 2 : ℝ) * cartShare q.train q.g w.1 ≤ 0 := mul_nonpos_of_nonneg_of_nonpos (by positivity) h1
    linarith
  linarith

/-! ### Wheels with other static loads -/

/-- As `TrackRide.Runs.run` for wheels whose static loads are at least those of the train. -/
theorem TrackRide.Runs.runHeavier (v : q.Runs m l) (g : EvenRail q.track m l) (hp : PlacedRail q.track sys) (L : ℕ × ℕ → ℝ)
    (hL : ∀ w ∈ q.train.wheelList, L w ≤ 0) :
    ∃ R, q.coupledOnWith L sys = .ok (q.runWith sys R) ∧ (q.runWith sys R).WellFormed ∧
      ∀ t < q.time.length, TrackRide.Contacts { q with irr := fun w t => q.irr w t -
        (q.G * (-L (q.train.wheelList.getD w (0, 0))) ^ (1 / q.p) -
          q.G * (-q.staticLoad (q.train.wheelList.getD w (0, 0))) ^ (1 / q.p)) } m l R t := by
  classical
  have hlen := g.len
  have hphi : timoshenkoFactor (q.beam l) = 0 := by
    unfold timoshenkoFactor
    exact if_neg (not_lt.mpr v.bending)
  have hmem : ∀ w (hw : w < q.train.wheelList.length), q.train.wheelList.getD w (0, 0) ∈ q.train.wheelList := by
    intro w hw
    rw [List.getD_eq_getElem _ _ hw]
    exact List.getElem_mem hw
  have hex : ∀ w, ∃ (R : RailWheel ℝ) (A : ℕ → ℕ), w < q.train.wheelList.length →
      wheelOnRail q.track (q.beam l) q.time q.vel (q.distances (q.train.wheelList.getD w (0, 0)))
        (L (q.train.wheelList.getD w (0, 0))) q.G q.p (q.irr w) = .ok R ∧
      (∀ k, A k + 1 < m) ∧
      (∀ k < q.time.length, (A k : ℝ) * l ≤ (q.distances (q.train.wheelList.getD w (0, 0))).getD k 0 ∧
        (q.distances (q.train.wheelList.getD w (0, 0))).getD k 0 ≤ ((A k + 1 : ℕ) : ℝ) * l) ∧
      (∀ k, R.element k = (q.track.position (q.track.rail.getD (A k) 0), q.track.position (q.track.rail.getD (A k + 1) 0))) ∧
      (∀ k < q.time.length, R.shape k = yShape 0 l
        ((q.distances (q.train.wheelList.getD w (0, 0))).getD k 0 - A k * l)) ∧
      (∀ k i c, i < m → R.load i k c ≠ 0 → c ≠ 0 ∧ (i = A k ∨ i = A k + 1)) ∧
      R.static = staticDeformation q.G q.p (L (q.train.wheelList.getD w (0, 0))) ∧
      ∀ k x, R.law k x = Spec.hertz q.G q.p (-q.irr w k - x) := by
    intro w
    by_cases hw : w < q.train.wheelList.length
    · obtain ⟨R, A, e⟩ := wheelOnRail_ok g (q.beam l) rfl q.time q.vel (q.distances (q.train.wheelList.getD w (0, 0)))
        (L (q.train.wheelList.getD w (0, 0))) q.G q.p (q.irr w) (load_path q v.samples _) (v.runsOn _ (hmem w hw))
      rw [hphi] at e
      exact ⟨R, A, fun _ => ⟨e.1, e.2.1, e.2.2.1, e.2.2.2.1, e.2.2.2.2.1, e.2.2.2.2.2.1, e.2.2.2.2.2.2.1,
        fun k x => (e.2.2.2.2.2.2.2 k x).trans (law_hertz _ _ _ _ v.coefficient v.power)⟩⟩
    · exact ⟨noWheel, fun _ => 0, fun h => absurd h hw⟩
  choose R A hRA using hex
  have hmap : ((List.range q.train.wheelList.length).zip q.train.wheelList).mapM (fun w =>
      wheelOnRail q.track (q.beam l) q.time q.vel (q.distances w.2) (L w.2) q.G q.p (q.irr w.1)) =
      .ok ((List.range q.train.wheelList.length).map R) := by
    rw [mapM_eq_map _ (fun w => R w.1)]
    · congr 1
      apply List.ext_getElem
      · simp
      · intro i h1 h2
        simp
    · intro x hx
      obtain ⟨i, hi, rfl⟩ := List.mem_iff_getElem.mp hx
      simp only [List.length_zip, List.length_range, min_self] at hi
      have := (hRA i hi).1
      rw [List.getD_eq_getElem _ _ hi] at this
      simpa using this
  -- the same wheels with the static loads of the train
  set R₀ : ℕ → RailWheel ℝ := fun w => if w < q.train.wheelList.length then
    { R w with static := staticDeformation q.G q.p (q.staticLoad (q.train.wheelList.getD w (0, 0))) } else noWheel with hR₀
  set R₁ : ℕ → RailWheel ℝ := fun w => if w < q.train.wheelList.length then R w else noWheel with hR₁
  have same : ∀ w, (R₁ w).element = (R₀ w).element ∧ (R₁ w).shape = (R₀ w).shape ∧ (R₁ w).load = (R₀ w).load ∧ (R₁ w).law = (R₀ w).law := by
    intro w
    simp only [hR₀, hR₁]
    split_ifs <;> exact ⟨rfl, rfl, rfl, rfl⟩
  have h : q.WheelsOn m l (q.track.rail.map q.track.position) R₀ A := by
    refine ⟨⟨fun w hw => (hRA w hw).2.1, fun w hw => ?_, fun w hw => ?_, fun w hw => ?_, fun w hw => ?_,
      fun w hw => ?_, fun w hw => if_neg hw⟩, fun w hw => (hRA w hw).2.2.1⟩
    · simp only [hR₀, if_pos hw]; exact (hRA w hw).2.2.2.1
    · simp only [hR₀, if_pos hw]; exact (hRA w hw).2.2.2.2.1
    · simp only [hR₀, if_pos hw]
      intro k i e hi hne
      have hi' : i < m := by simpa [hlen] using hi
      obtain ⟨h1, h2⟩ := (hRA w hw).2.2.2.2.2.1 k i e hi' hne
      refine ⟨h1, ?_⟩
      rw [List.getD_eq_getElem _ _ hi, List.getElem_map, ← List.getD_eq_getElem _ 0]
      rcases h2 with rfl | rfl
      · exact Or.inl rfl
      · exact Or.inr rfl
    · simp only [hR₀, if_pos hw]
    · simp only [hR₀, if_pos hw]
      exact fun k x => ((hRA w hw).2.2.2.2.2.2.2 k x).trans (law_hertz _ _ _ _ v.coefficient v.power).symm
  obtain ⟨hwf, hcon⟩ := v.wheelsOn g hp _ _ A h
  refine ⟨R₁, ?_, ?_, fun t ht => ?_⟩
  · have hlength := g.length (some q.track.lengthElement)
    unfold TrackRide.coupledOnWith
    simp only [hlength, v.check g, bind, Except.bind, Option.getD_some]
    have hmap' := hmap
    unfold TrackRide.beam at hmap'
    rw [hmap']
    simp only [TrackRide.runWith, TrackRide.runOn, Except.ok.injEq, CoupledRun.mk.injEq, true_and, and_true]
    funext w
    simp only [hR₁]
    split_ifs with hw
    · rw [List.getD_eq_getElem _ _ (by simpa using hw), List.getElem_map, List.getElem_range]
    · rw [List.getD_eq_default _ _ (by simpa using hw)]
      rfl
  · refine ⟨hwf.track, hwf.aligned, fun w t => ?_, fun w t i e hi hne => ?_, hwf.separated, hwf.massive⟩
    · show ((R₁ w).element t).1 < _ ∧ ((R₁ w).element t).2 < _
      rw [(same w).1]
      exact hwf.rail w t
    · have hne' : (R₁ w).load i t e ≠ 0 := hne
      rw [(same w).2.2.1] at hne'
      have := hwf.loads w t i e hi hne'
      show e ≠ 0 ∧ (_ = ((R₁ w).element t).1 ∨ _ = ((R₁ w).element t).2)
      rw [(same w).1]
      exact this
  · obtain ⟨c1, c2, -⟩ := hcon t ht
    have hrail : ∀ w, Spec.railAt (R₁ w) t = Spec.railAt (R₀ w) t := by
      intro w
      unfold Spec.railAt
      rw [(same w).1, (same w).2.1]
    refine ⟨?_, fun w hw f => ?_, fun w hw f y => ?_⟩
    · unfold DistinctElements at c1 ⊢
      have : (fun w => [((R₁ w).element t).1, ((R₁ w).element t).2]) = fun w => [((R₀ w).element t).1, ((R₀ w).element t).2] := by
        funext w
        rw [(same w).1]
      rw [this]
      exact c1
    · rw [hrail w]
      exact c2 w hw f
    · have hw' : w < q.train.wheelList.length := hw
      unfold Spec.wheelForce
      rw [hrail w, c2 w hw f]
      have h1 : (R₁ w).static = staticDeformation q.G q.p (L (q.train.wheelList.getD w (0, 0))) := by
        simp only [hR₁, if_pos hw']
        exact (hRA w hw).2.2.2.2.2.2.1
      have h2 := (hRA w hw).2.2.2.2.2.2.2
      have h3 : (R₁ w).law = (R w).law := by simp only [hR₁, if_pos hw']
      rw [h3, h2, h1, static_hertz _ _ _ v.power (hL _ (hmem w hw))]
      show Spec.hertz q.G q.p _ = Spec.hertz q.G q.p _
      congr 1
      simp only [TrackRide.staticLoad, TrackRide.startOf]
      ring

/-! ### Nodes that were used before -/

/-- Dof flags of the nodes of a track that were not used, or that were used with other loads. -/
def UsedFlags (sys : SystemInput ℝ) (f : ℕ → Fin 3 → Bool) : Prop :=
  f = freshFlags ∨ ∃ (L : List (NodalLoad ℝ)) (st : TrimState ℝ),
    ({ sys with loads := L } : SystemInput ℝ).initialise freshFlags = .ok st ∧ f = flagsAfter st

theorem UsedFlags.initialise {f : ℕ → Fin 3 → Bool} (h : UsedFlags sys f) (L : List (NodalLoad ℝ)) (st : TrimState ℝ)
    (hst : ({ sys with loads := L } : SystemInput ℝ).initialise freshFlags = .ok st) :
    ({ sys with loads := L } : SystemInput ℝ).initialise f = .ok st := by
  rcases h with rfl | ⟨L', st', h', rfl⟩
  · exact hst
  · have hsame := initialise_otherLoads sys L' L freshFlags st' st h' hst
    have := (C108_iff { sys with loads := L' } { sys with loads := L } rfl st' st h' hst).2 fun i _ d _ he => by
      rw [hsame]
      exact he
    unfold initialiseAgain at this
    rw [h'] at this
    exact this

variable {H : Type*} [DecidableEq H] {hash : (Fin 3 → ℝ) → H}

theorem main_used {f : ℕ → Fin 3 → Bool} (h : UsedFlags sys f) (nodes : List ℕ) (R : ℕ → RailWheel ℝ) (times : ℕ)
    (solver : TrimState ℝ → (List (ℕ × List (ℕ → ℝ)) → List (ℕ → ℝ) → ℕ → (ℕ → ℝ) → ℕ → ℝ) → SolverOutput ℝ) (res : CoupledResult ℝ)
    (hres : (q.runOn sys nodes R).main hash freshFlags times solver = .ok res) :
    (q.runOn sys nodes R).main hash f times solver = .ok res ∧ UsedFlags sys (flagsAfter res.track) := by
  unfold CoupledRun.main at hres ⊢
  cases hst : (q.runOn sys nodes R).loadedTrack.input.initialise freshFlags with
  | error e => rw [hst] at hres; simp [bind, Except.bind] at hres
  | ok st =>
    have hf : (q.runOn sys nodes R).loadedTrack.input.initialise f = .ok st := h.initialise _ st hst
    rw [hst] at hres
    rw [hf]
    refine ⟨hres, ?_⟩
    have : res.track = st := by
      simp only [bind, Except.bind] at hres
      split at hres
      · cases hres
      · split at hres
        · cases hres
        · injection hres with hres
          rw [← hres]
    rw [this]
    exact Or.inr ⟨_, st, hst, rfl⟩

/-! ### Repeated calculations -/

/-- The state of the objects before call number `k`, but for the dof flags. -/
theorem calculateAgain_state (generated : Option (ℕ → ℕ → ℝ)) (times : ℕ)
    (solver : ℕ → TrimState ℝ → (List (ℕ × List (ℕ → ℝ)) → List (ℕ → ℝ) → ℕ → (ℕ → ℝ) → ℕ → ℝ) → SolverOutput ℝ) (k : ℕ)
    (x : CoupledResult ℝ × CoupledState) (h : q.calculateAgain hash generated sys times solver .new k = .ok x) :
    x.2.loads = (totalStaticLoad q.train q.g)^[k + 1] StaticLoads.fresh ∧ x.2.irr = (initIrregularities generated)^[k + 1] none := by
  have step : ∀ (s : CoupledState) (sol) (x : CoupledResult ℝ × CoupledState), q.calculate hash generated sys times sol s = .ok x →
      x.2.loads = totalStaticLoad q.train q.g s.loads ∧ x.2.irr = initIrregularities generated s.irr := by
    intro s sol x h
    unfold TrackRide.calculate at h
    simp only [bind, Except.bind] at h
    split at h
    · cases h
    · split at h
      · cases h
      · injection h with h
        subst h
        exact ⟨rfl, rfl⟩
  induction k generalizing x with
  | zero => exact step _ _ x h
  | succ k ih =>
    unfold TrackRide.calculateAgain at h
    cases hk : q.calculateAgain hash generated sys times solver .new k with
    | error e => rw [hk] at h; simp [bind, Except.bind] at h
    | ok y =>
      rw [hk] at h
      obtain ⟨h1, h2⟩ := step _ _ x h
      obtain ⟨i1, i2⟩ := ih y hk
      rw [h1, h2, i1, i2, ← Function.iterate_succ_apply' (totalStaticLoad q.train q.g),
        ← Function.iterate_succ_apply' (initIrregularities generated)]
      exact ⟨rfl, rfl⟩

/-- Irregularities at the wheels in call number `k` for irregularities `generated` by each call. -/
noncomputable def irrAfter (generated : Option (ℕ → ℕ → ℝ)) (k : ℕ) : ℕ → ℕ → ℝ :=
  ((initIrregularities generated)^[k + 1] none).getD fun _ _ => 0

theorem irrAfter_eq (generated : Option (ℕ → ℕ → ℝ)) (k : ℕ) :
    irrAfter generated k = fun w t => (k + 1 : ℝ) * (generated.getD fun _ _ => 0) w t := by
  unfold irrAfter
  cases generated with
  | none =>
    have : (initIrregularities (K := ℝ) none)^[k + 1] none = some fun _ _ => 0 := by
      rw [Function.iterate_succ_apply]
      have e : initIrregularities (K := ℝ) none none = some fun _ _ => 0 := by simp [initIrregularities]
      rw [e]
      exact C38_irregularities_partial _ k
    rw [this]
    simp
  | some gen =>
    rw [C38_irregularities_violated]
    rfl

/-- The ride that call number `k` of a calculation with the same objects describes: the same train on the same track, with `k + 1` times the generated
irregularities, and lower by the static deformation of the contacts under the additional static loads. -/
noncomputable def Spec.rideAgain (q : TrackRide) (generated : Option (ℕ → ℕ → ℝ)) (load : ℕ → ℕ × ℕ → ℝ) (k : ℕ) : TrackRide :=
  { q with irr := fun w t => (k + 1 : ℝ) * (generated.getD fun _ _ => 0) w t -
      (q.G * (-load k (q.train.wheelList.getD w (0, 0))) ^ (1 / q.p) - q.G * (-load 0 (q.train.wheelList.getD w (0, 0))) ^ (1 / q.p)) }

theorem TrackRide.Runs.withIrr (v : q.Runs m l) (irr : ℕ → ℕ → ℝ) : TrackRide.Runs { q with irr := irr } m l :=
  ⟨v.bending, v.samples, v.nonempty, v.forward, v.slow, v.start, v.stop, v.apart, v.separated, v.massive, v.fits, v.balanced, v.pressed,
    v.coefficient, v.power⟩

/-- The equations given to the solver in call number `k` are solved by it. -/
def Spec.SolvesAgain (hash : (Fin 3 → ℝ) → H) (q : TrackRide) (generated : Option (ℕ → ℕ → ℝ)) (sys : SystemInput ℝ) (times : ℕ)
    (solver : ℕ → TrimState ℝ → (List (ℕ × List (ℕ → ℝ)) → List (ℕ → ℝ) → ℕ → (ℕ → ℝ) → ℕ → ℝ) → SolverOutput ℝ) (k : ℕ) : Prop :=
  ∀ s c st, s.loads = (totalStaticLoad q.train q.g)^[k] StaticLoads.fresh → s.irr = (initIrregularities generated)^[k] none →
    q.prepare generated sys s = .ok c → c.loadedTrack.input.initialise freshFlags = .ok st →
    Spec.SolvesCoupled (c.system hash st) (c.rhs hash st) times (solver k (c.system hash st) (c.rhs hash st))

/-- The coupled calculation of call number `k`: its wheels are in contact as in the ride `Spec.rideAgain`. -/
theorem TrackRide.Runs.prepared (v : q.Runs m l) (hw : Spec.Weighs q) (g : EvenRail q.track m l) (hp : PlacedRail q.track sys)
    (generated : Option (ℕ → ℕ → ℝ)) (k : ℕ) (s : CoupledState)
    (hl : s.loads = (totalStaticLoad q.train q.g)^[k] StaticLoads.fresh) (hi : s.irr = (initIrregularities generated)^[k] none) :
    ∃ R, q.prepare generated sys s = .ok (q.runOn sys (q.track.rail.map q.track.position) R) ∧
      (q.runOn sys (q.track.rail.map q.track.position) R).WellFormed ∧
      ∀ t < q.time.length, (Spec.rideAgain q generated q.loadAfter k).Contacts m l R t := by
  have hL : ∀ w, (totalStaticLoad q.train q.g s.loads).onWheel w = q.loadAfter k w := by
    intro w
    unfold TrackRide.loadAfter
    rw [hl, Function.iterate_succ_apply']
  have hI : ((initIrregularities generated s.irr).getD fun _ _ => 0) = irrAfter generated k := by
    unfold irrAfter
    rw [hi, Function.iterate_succ_apply']
  have hneg : ∀ w ∈ q.train.wheelList, (totalStaticLoad q.train q.g s.loads).onWheel w ≤ 0 := fun w hw' => by
    rw [hL]
    exact le_trans (loadAfter_le hw k w hw') (v.pressed w hw')
  obtain ⟨R, hc, hwf, hcon⟩ := (v.withIrr ((initIrregularities generated s.irr).getD fun _ _ => 0)).runHeavier g hp
    (totalStaticLoad q.train q.g s.loads).onWheel hneg
  have hride : (fun w t => ({ q with irr := (initIrregularities generated s.irr).getD fun _ _ => 0 } : TrackRide).irr w t -
        (q.G * (-(totalStaticLoad q.train q.g s.loads).onWheel (q.train.wheelList.getD w (0, 0))) ^ (1 / q.p) -
          q.G * (-q.staticLoad (q.train.wheelList.getD w (0, 0))) ^ (1 / q.p))) = (Spec.rideAgain q generated q.loadAfter k).irr := by
    funext w t
    rw [hL]
    show ((initIrregularities generated s.irr).getD fun _ _ => 0) w t - _ = _
    rw [hI, irrAfter_eq]
    rfl
  refine ⟨R, hc, hwf, fun t ht => ?_⟩
  have := hcon t ht
  rw [show (Spec.rideAgain q generated q.loadAfter k) = { q with irr := (Spec.rideAgain q generated q.loadAfter k).irr } from rfl, ← hride]
  exact this

theorem TrackRide.Runs.calculate (v : q.Runs m l) (hw : Spec.Weighs q) (g : EvenRail q.track m l) (hp : PlacedRail q.track sys)
    (generated : Option (ℕ → ℕ → ℝ)) (times : ℕ) (htimes : times ≤ q.time.length)
    (solver : ℕ → TrimState ℝ → (List (ℕ × List (ℕ → ℝ)) → List (ℕ → ℝ) → ℕ → (ℕ → ℝ) → ℕ → ℝ) → SolverOutput ℝ)
    (k : ℕ) (hs : Spec.SolvesAgain hash q generated sys times solver k) (s : CoupledState) (hf : UsedFlags sys s.flags)
    (hl : s.loads = (totalStaticLoad q.train q.g)^[k] StaticLoads.fresh) (hi : s.irr = (initIrregularities generated)^[k] none) :
    ∃ res s', q.calculate hash generated sys times (solver k) s = .ok (res, s') ∧
      q.calculate hash generated sys times (solver k) { s with flags := freshFlags } = .ok (res, s') ∧ UsedFlags sys s'.flags ∧
      res.trackRows.length = times ∧ res.trainRows.length = times ∧
      Spec.ObeysLaws hash (Spec.rideAgain q generated q.loadAfter k) sys l m (fun k => q.track.position (q.track.rail.getD k 0)) res := by
  obtain ⟨R, hc, hwf, hcon⟩ := v.prepared hw g hp generated k s hl hi
  have v' : (Spec.rideAgain q generated q.loadAfter k).Runs m l := v.withIrr _
  obtain ⟨res, hres, l1, l2, hlaw⟩ := v'.lawsOn hash (q.track.rail.map q.track.position) R hwf hcon times htimes (solver k)
    fun st hst => hs s _ st hl hi hc hst
  have hres' : (q.runOn sys (q.track.rail.map q.track.position) R).main hash freshFlags times (solver k) = .ok res := hres
  obtain ⟨h1, h2⟩ := main_used hf (q.track.rail.map q.track.position) R times (solver k) res hres'
  have hprep : q.prepare generated sys { s with flags := freshFlags } = .ok (q.runOn sys (q.track.rail.map q.track.position) R) := hc
  refine ⟨res, ⟨flagsAfter res.track, totalStaticLoad q.train q.g s.loads, initIrregularities generated s.irr⟩, ?_, ?_, h2, l1, l2, hlaw⟩
  · unfold TrackRide.calculate
    rw [hc]
    simp only [bind, Except.bind]
    rw [h1]
  · unfold TrackRide.calculate
    rw [hprep]
    simp only [bind, Except.bind]
    rw [hres']

/-- Repeated calculations with the same objects on a rail of equal elements. -/
theorem TrackRide.Runs.again (v : q.Runs m l) (hw : Spec.Weighs q) (g : EvenRail q.track m l) (hp : PlacedRail q.track sys)
    (generated : Option (ℕ → ℕ → ℝ)) (times : ℕ) (htimes : times ≤ q.time.length)
    (solver : ℕ → TrimState ℝ → (List (ℕ × List (ℕ → ℝ)) → List (ℕ → ℝ) → ℕ → (ℕ → ℝ) → ℕ → ℝ) → SolverOutput ℝ)
    (hs : ∀ k, Spec.SolvesAgain hash q generated sys times solver k) (k : ℕ) :
    ∃ res s, q.calculateAgain hash generated sys times solver .new k = .ok (res, s) ∧ UsedFlags sys s.flags ∧
      res.trackRows.length = times ∧ res.trainRows.length = times ∧
      Spec.ObeysLaws hash (Spec.rideAgain q generated q.loadAfter k) sys l m (fun k => q.track.position (q.track.rail.getD k 0)) res := by
  induction k with
  | zero =>
    obtain ⟨res, s, h, -, hr⟩ := v.calculate hw g hp generated times htimes solver 0 (hs 0) .new (Or.inl rfl) rfl rfl
    exact ⟨res, s, h, hr⟩
  | succ k ih =>
    obtain ⟨res, s, h, hf, -⟩ := ih
    obtain ⟨h1, h2⟩ := calculateAgain_state generated times solver k _ h
    obtain ⟨res', s', h', -, hr⟩ := v.calculate hw g hp generated times htimes solver (k + 1) (hs (k + 1)) s hf h1 h2
    refine ⟨res', s', ?_, hr⟩
    unfold TrackRide.calculateAgain
    rw [h]
    exact h'

/-! ### C181 -/

/-- The conditions of C125 (a generated track) or of C138 (a track combined from segments): the train runs over the track, whose system is `sys`; the
rail has `m` nodes at distance `l`. -/
def TrackRide.OnTrack (hash : (Fin 3 → ℝ) → H) (q : TrackRide) (sys : SystemInput ℝ) (m : ℕ) (l : ℝ) : Prop :=
  (∃ n r d h, q.Valid hash n r d h ∧ q.track.system q.values q.held = .ok sys ∧ m = n * r ∧ l = d / r) ∨
  ∃ r d segments soils length c, q.ValidOn r d segments soils ∧ combinedTrack hash r d segments = .ok c ∧ q.track = c.numbered length ∧
    c.system length q.values soils q.held = .ok sys ∧ m = railCount r segments ∧ l = d / r

theorem TrackRide.OnTrack.rail (h : q.OnTrack hash sys m l) : q.Runs m l ∧ EvenRail q.track m l ∧ PlacedRail q.track sys := by
  rcases h with ⟨n, r, d, h, v, hsys, rfl, rfl⟩ | ⟨r, d, segments, soils, length, c, v, hc, ht, hsys, rfl, rfl⟩
  · rw [v.generated.system, Except.ok.injEq] at hsys
    subst hsys
    exact ⟨v.runs, v.generated.even, v.generated.placedRail q.values q.held⟩
  · obtain ⟨c', sys', hc', sound, hsys', hp, -⟩ := v.track hash length
    rw [hc] at hc'
    injection hc' with hc'
    subst hc'
    rw [hsys] at hsys'
    injection hsys' with hsys'
    subst hsys'
    rw [ht]
    exact ⟨v.runs, sound.even length, hp⟩

/-- **C181** The first call of `main` on new objects is the calculation of C125 and C138. -/
theorem C181_first (q : TrackRide) (generated : Option (ℕ → ℕ → ℝ)) (sys : SystemInput ℝ) (times : ℕ)
    (solver : TrimState ℝ → (List (ℕ × List (ℕ → ℝ)) → List (ℕ → ℝ) → ℕ → (ℕ → ℝ) → ℕ → ℝ) → SolverOutput ℝ) :
    (q.calculate hash generated sys times solver .new).map Prod.fst = (do
      let c ← TrackRide.coupledOn { q with irr := generated.getD fun _ _ => 0 } sys
      c.main hash (fun _ _ => true) times solver) := by
  have e : q.prepare generated sys .new = TrackRide.coupledOn { q with irr := generated.getD fun _ _ => 0 } sys := by
    have : ((initIrregularities generated (CoupledState.new).irr).getD fun _ _ => 0) = generated.getD fun _ _ => 0 := by
      have := irrAfter_eq generated 0
      simpa [irrAfter, CoupledState.new] using this
    unfold TrackRide.prepare
    rw [this]
    rfl
  unfold TrackRide.calculate
  rw [e]
  cases TrackRide.coupledOn { q with irr := generated.getD fun _ _ => 0 } sys with
  | error x => rfl
  | ok c =>
    show Except.map Prod.fst (do
      let res ← c.main hash (fun _ _ => true) times solver
      Except.ok (res, _)) = c.main hash (fun _ _ => true) times solver
    cases c.main hash (fun _ _ => true) times solver <;> rfl

/-- **C181** `main` can be called on the same coupled model any number of times. Call number `k` (counted from 0) is accepted, gives results for every
output index, and these obey the laws of motion of the train on the track, but of another ride than the first: the generated irregularities are there
`k + 1` times, and every wheel is lower by the static deformation of its contact under the static loads that were added by the calls before (`C181_loads`).
Partial: the results of a later call are not those of the first, `C181_violated`. -/
theorem C181_motion_partial (v : q.OnTrack hash sys m l) (hw : Spec.Weighs q) (generated : Option (ℕ → ℕ → ℝ)) (times : ℕ)
    (htimes : times ≤ q.time.length)
    (solver : ℕ → TrimState ℝ → (List (ℕ × List (ℕ → ℝ)) → List (ℕ → ℝ) → ℕ → (ℕ → ℝ) → ℕ → ℝ) → SolverOutput ℝ)
    (hs : ∀ k, Spec.SolvesAgain hash q generated sys times solver k) (k : ℕ) :
    ∃ res s, q.calculateAgain hash generated sys times solver .new k = .ok (res, s) ∧
      res.trackRows.length = times ∧ res.trainRows.length = times ∧
      Spec.ObeysLaws hash (Spec.rideAgain q generated q.loadAfter k) sys l m (fun k => q.track.position (q.track.rail.getD k 0)) res := by
  obtain ⟨v1, v2, v3⟩ := v.rail
  obtain ⟨res, s, h, -, hr⟩ := v1.again hw v2 v3 generated times htimes solver hs k
  exact ⟨res, s, h, hr⟩

/-- **C181** After any number of calls, a new train object of the same data on the used track gives exactly the results and the state of a new model: what
the nodes of the track keep does no harm. -/
theorem C181_new_train_partial (v : q.OnTrack hash sys m l) (hw : Spec.Weighs q) (generated : Option (ℕ → ℕ → ℝ)) (times : ℕ)
    (htimes : times ≤ q.time.length)
    (solver solver' : ℕ → TrimState ℝ → (List (ℕ × List (ℕ → ℝ)) → List (ℕ → ℝ) → ℕ → (ℕ → ℝ) → ℕ → ℝ) → SolverOutput ℝ)
    (hs : ∀ k, Spec.SolvesAgain hash q generated sys times solver k) (hs' : Spec.SolvesAgain hash q generated sys times solver' 0) (k : ℕ) :
    ∃ res s new, q.calculateAgain hash generated sys times solver .new k = .ok (res, s) ∧
      q.calculate hash generated sys times (solver' 0) { s with loads := StaticLoads.fresh, irr := none } = .ok new ∧
      q.calculate hash generated sys times (solver' 0) .new = .ok new := by
  obtain ⟨v1, v2, v3⟩ := v.rail
  obtain ⟨res, s, h, hf, -⟩ := v1.again hw v2 v3 generated times htimes solver hs k
  obtain ⟨res', s', h1, h2, -⟩ := v1.calculate hw v2 v3 generated times htimes solver' 0 hs' { s with loads := StaticLoads.fresh, irr := none } hf rfl rfl
  exact ⟨res, s, (res', s'), h, h1, h2⟩

/-- Specification: by how much a wheel and the rail are pressed into each other at an output index of a result without irregularities. -/
noncomputable def Spec.approach (hash : (Fin 3 → ℝ) → H) (q : TrackRide) (l : ℝ) (count : ℕ) (node : ℕ → ℕ) (res : CoupledResult ℝ) (t w : ℕ) : ℝ :=
  let wheel := q.train.wheelList.getD w (0, 0)
  let u := Spec.fieldOfRows (res.trackRows.getD t []) NodeRow.displacement
  let y := Spec.reportedDof (q.partRow hash (res.trainRows.getD t [])) NodeRow.displacement
  q.G * (-q.staticLoad wheel) ^ (1 / q.p) + Spec.railDeflection l count node u (Spec.wheelX q.time q.vel (q.startOf wheel) t) -
    y (.wheelY wheel.1 wheel.2)

theorem ObeysLaws.wheel {node : ℕ → ℕ} {res : CoupledResult ℝ} (h : Spec.ObeysLaws hash q sys l m node res) (t : ℕ)
    (h1 : t < res.trackRows.length) (h2 : t < res.trainRows.length) (w : ℕ) (hw : w < q.train.wheelList.length) :
    let e := TrainDof.wheelY (q.train.wheelList.getD w (0, 0)).1 (q.train.wheelList.getD w (0, 0)).2
    let y := Spec.reportedDof (q.partRow hash (res.trainRows.getD t [])) NodeRow.displacement
    let y' := Spec.reportedDof (q.partRow hash (res.trainRows.getD t [])) NodeRow.velocity
    let y'' := Spec.reportedDof (q.partRow hash (res.trainRows.getD t [])) NodeRow.acceleration
    let a₀ := Spec.rayleighMass q.isRayleigh q.ratio q.w1 q.w2
    let a₁ := Spec.rayleighStiffness q.isRayleigh q.ratio q.w1 q.w2
    q.train.bodyInertia e * y'' e =
      weightAt q.train q.g e - springForceAt q.train y e - springForceAt q.train.dampers y' e -
        (a₀ * (q.train.bodyInertia e * y' e) + a₁ * springForceAt q.train y' e) +
      Spec.hertz q.G q.p (Spec.approach hash q l m node res t w - q.irr w t) := by
  obtain ⟨-, -, -, -, -, hd⟩ := h t h1 h2
  have he := wheel_hasDof q.train w hw
  have := hd _ he
  dsimp only at this ⊢
  unfold Spec.approach
  rw [List.getD_eq_getElem _ _ h1, List.getD_eq_getElem _ _ h2]
  rw [Finset.sum_eq_single w] at this
  · rw [if_pos rfl] at this
    exact this
  · intro b hb hne
    rw [if_neg]
    intro heq
    simp only [TrainDof.wheelY.injEq] at heq
    have hb' := Finset.mem_range.mp hb
    have hp : q.train.wheelList.getD b (0, 0) = q.train.wheelList.getD w (0, 0) := Prod.ext heq.1 heq.2
    rw [List.getD_eq_getElem _ _ hb', List.getD_eq_getElem _ _ hw] at hp
    exact hne ((List.Nodup.getElem_inj_iff (wheelList_nodup q.train)).mp hp)
  · intro hn
    exact absurd (Finset.mem_range.mpr hw) hn

theorem hertz_strict {G p x y : ℝ} (hG : 0 < G) (hp : 0 < p) (hx : 0 < x) (hxy : x < y) : Spec.hertz G p x < Spec.hertz G p y := by
  unfold Spec.hertz
  rw [if_pos hx, if_pos (hx.trans hxy)]
  exact Real.rpow_lt_rpow (by positivity) (div_lt_div_of_pos_right hxy hG) hp

/-- **C181 fails** For every train with weight, without irregularities: at every output index at which a wheel presses on the rail in the first
calculation, each later call of `main` on the same coupled model reports other values, whatever solver solves the equations: its wheels start deeper in
the rail. -/
theorem C181_violated (v : q.OnTrack hash sys m l) (hw : Spec.Weighs q) (hg : 0 < q.g) (hb : ∀ b ∈ q.train.bogies, 0 < (q.train.bogie b).mass)
    (hp : 0 < q.p) (times : ℕ) (htimes : times ≤ q.time.length)
    (solver : ℕ → TrimState ℝ → (List (ℕ × List (ℕ → ℝ)) → List (ℕ → ℝ) → ℕ → (ℕ → ℝ) → ℕ → ℝ) → SolverOutput ℝ)
    (hs : ∀ k, Spec.SolvesAgain hash q none sys times solver k) (k : ℕ) (hk : 0 < k) :
    ∃ res s res' s', q.calculateAgain hash none sys times solver .new 0 = .ok (res, s) ∧
      q.calculateAgain hash none sys times solver .new k = .ok (res', s') ∧
      ∀ t < times, (∃ w < q.train.wheelList.length,
          0 < Spec.approach hash q l m (fun k => q.track.position (q.track.rail.getD k 0)) res t w) →
        ¬ (res.trackRows[t]? = res'.trackRows[t]? ∧ res.trainRows[t]? = res'.trainRows[t]?) := by
  obtain ⟨v1, v2, v3⟩ := v.rail
  obtain ⟨res, s, h, -, l1, l2, hl⟩ := v1.again hw v2 v3 none times htimes solver hs 0
  obtain ⟨res', s', h', -, l1', l2', hl'⟩ := v1.again hw v2 v3 none times htimes solver hs k
  refine ⟨res, s, res', s', h, h', ?_⟩
  rintro t ht ⟨w, hwl, happ⟩ ⟨e1, e2⟩
  have e1' : res'.trackRows.getD t [] = res.trackRows.getD t [] := by
    rw [List.getD_eq_getElem?_getD, List.getD_eq_getElem?_getD, e1]
  have e2' : res'.trainRows.getD t [] = res.trainRows.getD t [] := by
    rw [List.getD_eq_getElem?_getD, List.getD_eq_getElem?_getD, e2]
  have a := ObeysLaws.wheel hl t (by omega) (by omega) w hwl
  have b := ObeysLaws.wheel hl' t (by omega) (by omega) w hwl
  dsimp only at a b
  rw [e2'] at b
  have happ' : Spec.approach hash (Spec.rideAgain q none q.loadAfter k) l m (fun k => q.track.position (q.track.rail.getD k 0)) res' t w =
      Spec.approach hash q l m (fun k => q.track.position (q.track.rail.getD k 0)) res t w := by
    unfold Spec.approach
    rw [e1', e2']
    rfl
  rw [happ'] at b
  have happ0 : Spec.approach hash (Spec.rideAgain q none q.loadAfter 0) l m (fun k => q.track.position (q.track.rail.getD k 0)) res t w =
      Spec.approach hash q l m (fun k => q.track.position (q.track.rail.getD k 0)) res t w := rfl
  rw [happ0] at a
  have hmem : q.train.wheelList.getD w (0, 0) ∈ q.train.wheelList := by
    rw [List.getD_eq_getElem _ _ hwl]
    exact List.getElem_mem hwl
  have i0 : (Spec.rideAgain q none q.loadAfter 0).irr w t = 0 := by
    simp [Spec.rideAgain]
  have hlt := loadAfter_lt hw k hk _ hmem hg (hb _ (wheel_of _ _ hmem).1)
  have ik : (Spec.rideAgain q none q.loadAfter k).irr w t < 0 := by
    have h1 : 0 ≤ -q.staticLoad (q.train.wheelList.getD w (0, 0)) := by
      have := v1.pressed _ hmem
      linarith
    have h2 := Real.rpow_lt_rpow h1 (show -q.staticLoad (q.train.wheelList.getD w (0, 0)) < -q.loadAfter k (q.train.wheelList.getD w (0, 0)) by
      linarith) (show 0 < 1 / q.p by positivity)
    have h3 := mul_lt_mul_of_pos_left h2 v1.coefficient
    simp only [Spec.rideAgain, Option.getD_none, mul_zero, zero_sub, loadAfter_zero]
    linarith
  have hlt' : Spec.hertz q.G q.p (Spec.approach hash q l m (fun k => q.track.position (q.track.rail.getD k 0)) res t w -
        (Spec.rideAgain q none q.loadAfter 0).irr w t) <
      Spec.hertz q.G q.p (Spec.approach hash q l m (fun k => q.track.position (q.track.rail.getD k 0)) res t w -
        (Spec.rideAgain q none q.loadAfter k).irr w t) := by
    refine hertz_strict v1.coefficient hp ?_ (by linarith)
    rw [i0, sub_zero]
    exact happ
  have hab := a.symm.trans b
  exact absurd (add_left_cancel hab) hlt'.ne

theorem assignResultRow_zero (n : DofNode) (x : Fin 3 → ℝ) (h : assignResultRow n (fun _ => (0 : ℝ)) = .ok x) : x = 0 := by
  have hw : ∀ (l : List (Fin 3 × ℝ)) (f : Fin 3 → ℝ), (∀ a ∈ l, a.2 = 0) → f = 0 → writes f l = 0 := by
    intro l
    induction l with
    | nil => intro f _ hf; exact hf
    | cons a l ih =>
      intro f ha hf
      refine ih (write f a) (fun b hb => ha b (by simp [hb])) ?_
      funext d
      have h0 := ha a (by simp)
      simp only [write, hf, h0, Pi.zero_apply, ite_self]
  unfold assignResultRow maskAssign at h
  simp only at h
  split_ifs at h with hlen
  · injection h with h
    rw [← h]
    refine hw _ _ (fun a ha => ?_) rfl
    obtain ⟨y, -, hy⟩ := List.mem_map.mp (List.of_mem_zip ha).2
    exact hy.symm
  · split at h
    · rename_i y hy
      injection h with h
      rw [← h]
      have hy0 : y = 0 := by
        have : y ∈ ([0, 1, 2].filterMap fun d : Fin 3 => n.idx d).map fun _ => (0 : ℝ) := by rw [hy]; simp
        obtain ⟨z, -, hz⟩ := List.mem_map.mp this
        exact hz.symm
      refine hw _ _ (fun a ha => ?_) rfl
      obtain ⟨d, -, rfl⟩ := List.mem_map.mp ha
      exact hy0
    · cases h

/-- Rows of zero displacements. -/
theorem rows_zero (nodes : List DofNode) (out : SolverOutput ℝ) (t : ℕ) (hu : out.u t = fun _ => 0) (rows : List (NodeRow ℝ))
    (h : nodes.mapM (nodeRow out t) = .ok rows) : ∀ row ∈ rows, row.displacement = 0 := by
  induction nodes generalizing rows with
  | nil =>
    rw [List.mapM_nil] at h
    injection h with h
    rw [← h]
    intro row hrow
    simp at hrow
  | cons n nodes ih =>
    rw [List.mapM_cons] at h
    cases ha : nodeRow out t n with
    | error e => simp [bind, Except.bind, ha] at h
    | ok y =>
      cases hl : nodes.mapM (nodeRow out t) with
      | error e => simp [bind, Except.bind, ha, hl] at h
      | ok ys =>
        simp only [bind, Except.bind, ha, hl, pure, Except.pure, Except.ok.injEq] at h
        subst h
        intro row hrow
        rcases List.mem_cons.mp hrow with rfl | hrow
        · unfold nodeRow at ha
          rw [hu] at ha
          simp only [bind, Except.bind] at ha
          split at ha
          · cases ha
          · rename_i x hx
            split at ha
            · cases ha
            · split at ha
              · cases ha
              · injection ha with ha
                rw [← ha]
                exact assignResultRow_zero n x hx
        · exact ih ys hl row hrow

/-- **C181 fails, with a solver** For every held track and every train with weight and wheels, in steps of the Newmark method from the undeformed
state: there is a solver that solves the equations of every call, and the first output row of every later call differs from that of the first call. -/
theorem C181_from_rest_violated (v : q.OnTrack hash sys m l) (held : HeldMoving sys) (y : q.Steady) (hw : Spec.Weighs q) (hg : 0 < q.g)
    (hb : ∀ b ∈ q.train.bogies, 0 < (q.train.bogie b).mass) (hwheels : q.train.wheelList ≠ [])
    (hpress : ∀ w ∈ q.train.wheelList, q.staticLoad w < 0) {β γ : ℝ} (hβ : 0 ≤ β) (hγ : 0 ≤ γ) (times : ℕ) (htimes : times ≤ q.time.length)
    (hpos : 0 < times) :
    ∃ solver, (∀ k, Spec.SolvesAgain hash q none sys times solver k) ∧
      ∀ k, 0 < k → ∃ res s res' s', q.calculateAgain hash none sys times solver .new 0 = .ok (res, s) ∧
        q.calculateAgain hash none sys times solver .new k = .ok (res', s') ∧
        ¬ (res.trackRows[0]? = res'.trackRows[0]? ∧ res.trainRows[0]? = res'.trainRows[0]?) := by
  classical
  obtain ⟨v1, v2, v3⟩ := v.rail
  set solver : TrimState ℝ → (List (ℕ × List (ℕ → ℝ)) → List (ℕ → ℝ) → ℕ → (ℕ → ℝ) → ℕ → ℝ) → SolverOutput ℝ := fun sys rhs =>
    if hx : ∃ out, Spec.CoupledSteps sys rhs β γ (fun n => q.time.getD n 0) times 0 0 out then hx.choose else ⟨0, 0, 0⟩ with hsolver
  have hsteps : ∀ (k : ℕ) (s : CoupledState) (c : CoupledRun ℝ) (st : TrimState ℝ),
      s.loads = (totalStaticLoad q.train q.g)^[k] StaticLoads.fresh → s.irr = (initIrregularities none)^[k] none →
      q.prepare none sys s = .ok c → c.loadedTrack.input.initialise freshFlags = .ok st →
      Spec.CoupledSteps (c.system hash st) (c.rhs hash st) β γ (fun n => q.time.getD n 0) times 0 0 (solver (c.system hash st) (c.rhs hash st)) := by
    intro k s c st hl hi hc hst
    obtain ⟨R, hc', hwf, hcon⟩ := v1.prepared hw v2 v3 none k s hl hi
    rw [hc] at hc'
    injection hc' with hc'
    subst hc'
    have v' : (Spec.rideAgain q none q.loadAfter k).Runs m l := v1.withIrr _
    have y' : (Spec.rideAgain q none q.loadAfter k).Steady := ⟨y.springs, y.damped, y.power, y.time⟩
    obtain ⟨⟨sol, hsol⟩, -⟩ := v'.stepsOn (hash := hash) y' (q.track.rail.map q.track.position) R hwf hcon held.passive hβ hγ times htimes 0 0
    have hx : ∃ out, Spec.CoupledSteps ((q.runOn sys (q.track.rail.map q.track.position) R).system hash st)
        ((q.runOn sys (q.track.rail.map q.track.position) R).rhs hash st) β γ (fun n => q.time.getD n 0) times 0 0 out :=
      ⟨_, hsol st hst⟩
    rw [hsolver]
    simp only [hx, dif_pos]
    exact hx.choose_spec
  have hs : ∀ k, Spec.SolvesAgain hash q none sys times (fun _ => solver) k :=
    fun k s c st hl hi hc hst => (hsteps k s c st hl hi hc hst).balance
  refine ⟨fun _ => solver, hs, fun k hk => ?_⟩
  obtain ⟨res, s, res', s', h, h', hdiff⟩ := C181_violated v hw hg hb y.power times htimes (fun _ => solver) hs k hk
  refine ⟨res, s, res', s', h, h', hdiff 0 hpos ⟨0, List.length_pos_of_ne_nil hwheels, ?_⟩⟩
  -- the first rows of the first calculation are zero
  obtain ⟨R, hc, -, -⟩ := v1.prepared hw v2 v3 none 0 .new rfl rfl
  set c := q.runOn sys (q.track.rail.map q.track.position) R with hcdef
  have hmain : c.main hash freshFlags times solver = .ok res := by
    have h0 : q.calculate hash none sys times solver .new = .ok (res, s) := h
    unfold TrackRide.calculate at h0
    rw [hc] at h0
    simp only [bind, Except.bind] at h0
    split at h0
    · cases h0
    · rename_i x hx
      injection h0 with h0
      have : x = res := congrArg Prod.fst h0
      subst this
      exact hx
  cases hst : c.loadedTrack.input.initialise freshFlags with
  | error e =>
    unfold CoupledRun.main at hmain
    rw [hst] at hmain
    simp [bind, Except.bind] at hmain
  | ok st =>
    obtain ⟨track, train, t1, t2, t3, t4⟩ := main_rows c times solver res st hst hmain 0 hpos
    have hstart := (hsteps 0 .new c st rfl rfl hc hst).start
    set out := solver (c.system hash st) (c.rhs hash st) with hout
    obtain ⟨r1, r2⟩ := rows_congr (hash := hash) c st hst out ⟨fun _ _ => 0, out.v, out.a⟩ 0 fun k hk => ⟨(hstart k hk).1, rfl, rfl⟩
    rw [r1] at t1
    rw [r2] at t3
    have z1 := rows_zero _ _ 0 rfl _ t1
    have z2 := rows_zero _ _ 0 rfl _ t3
    have hu : Spec.fieldOfRows (res.trackRows.getD 0 []) NodeRow.displacement = fun _ _ => 0 := by
      rw [List.getD_eq_getElem?_getD, t2]
      funext i d
      unfold Spec.fieldOfRows
      cases hi : track[i]? with
      | none => simp [hi]
      | some row => simp [hi, z1 row (List.mem_of_getElem? hi)]
    have hy : ∀ e, Spec.reportedDof (q.partRow hash (res.trainRows.getD 0 [])) NodeRow.displacement e = 0 := by
      intro e
      rw [List.getD_eq_getElem?_getD, t4]
      unfold Spec.reportedDof TrackRide.partRow
      simp only [Option.getD_some]
      cases hi : train[(q.train.initialMesh hash fun i => q.starts.getD i 0).mesh.idxOf
          ((q.train.initialMesh hash fun i => q.starts.getD i 0).node (Spec.partOf e))]? with
      | none => simp
      | some row => simp [z2 row (List.mem_of_getElem? hi)]
    unfold Spec.approach
    simp only
    rw [hu, hy]
    have hd0 : ∀ X, Spec.railDeflection l m (fun k => q.track.position (q.track.rail.getD k 0)) (fun _ _ => (0 : ℝ)) X = 0 := by
      intro X
      simp [Spec.railDeflection, Spec.timoDeflection]
    rw [hd0]
    have hmem : q.train.wheelList.getD 0 (0, 0) ∈ q.train.wheelList := by
      rw [List.getD_eq_getElem _ _ (List.length_pos_of_ne_nil hwheels)]
      exact List.getElem_mem _
    have h1 := hpress _ hmem
    have h2 : 0 < (-q.staticLoad (q.train.wheelList.getD 0 (0, 0))) ^ (1 / q.p) := Real.rpow_pos_of_pos (by linarith) _
    have := mul_pos v1.coefficient h2
    linarith

/-- The default trains other than the SLT have the weight that these theorems ask for. -/
theorem default_weighs (ty : TrainType) (hty : ty ≠ .sprinterSLT) (start : ℝ) (n : ℕ) (hn : 0 < n) (starts : List ℝ)
    (ht : setFullTrain ty start n = .ok (q.train, starts)) (hg : 0 < q.g) :
    Spec.Weighs q ∧ (∀ b ∈ q.train.bogies, 0 < (q.train.bogie b).mass) ∧ q.train.wheelList ≠ [] ∧
      ∀ w ∈ q.train.wheelList, q.staticLoad w < 0 := by
  rw [setFullTrain_eq ty hty] at ht
  simp only [Except.ok.injEq, Prod.mk.injEq] at ht
  obtain ⟨e, -⟩ := ht
  have hh := typeData_heavy ty hty
  have hb : ∀ b ∈ q.train.bogies, 0 < (q.train.bogie b).mass := by
    rw [← e]
    intro b hb
    obtain ⟨i, hi, k, hk, rfl⟩ := (row_mem_bogies _ n b).1 hb
    rw [row_bogie _ n i k hi hk]
    have := hh.bogieMass
    simp only
    linarith
  refine ⟨⟨hg.le, ?_, fun b h => (hb b h).le⟩, hb, ?_, ?_⟩
  · rw [← e]
    intro c hc
    obtain ⟨i, -, rfl⟩ := row_mem_cart _ n c hc
    have := hh.mass
    simp only
    linarith
  · rw [← e]
    refine List.ne_nil_of_mem (a := (0, 0)) ((mem_wheelList _ _).2 ((row_parts _ n (.wheel 0 0)).2 ⟨⟨0, hn, 0, by norm_num, rfl⟩, by norm_num⟩))
  · intro w hw
    rw [← e] at hw
    obtain ⟨i, hi, k, hk, j, hj, rfl⟩ := row_wheel _ n w hw
    unfold TrackRide.staticLoad
    rw [← e, row_load _ n i k j hi hk hj, Option.getD_some]
    have h1 := hh.mass
    have h2 := hh.bogieMass
    have h3 := hh.wheelMass
    nlinarith

/-- The double-dekker of `exampleRide` on a combined track, calculated twice from rest: the second calculation gives other results. -/
example : ∃ t, setFullTrain .doubleDekker 20 1 = .ok t ∧ ∃ c sys,
    combinedTrack (fun p : Fin 3 → ℝ => p) 2 (3 / 5) [(60, 1), (50, 3)] = .ok c ∧
    c.system (3 / 5) (exampleRide (c.numbered (3 / 5)) t).values [⟨10 ^ 7, none, some 1000⟩, ⟨10 ^ 9, none, none⟩] true = .ok sys ∧
    ∃ solver, (∀ k, Spec.SolvesAgain (fun p : Fin 3 → ℝ => p) (exampleRide (c.numbered (3 / 5)) t) none sys 2 solver k) ∧
      ∃ res s res' s',
        (exampleRide (c.numbered (3 / 5)) t).calculateAgain (fun p : Fin 3 → ℝ => p) none sys 2 solver .new 0 = .ok (res, s) ∧
        (exampleRide (c.numbered (3 / 5)) t).calculateAgain (fun p : Fin 3 → ℝ => p) none sys 2 solver .new 1 = .ok (res', s') ∧
        ¬ (res.trackRows[0]? = res'.trackRows[0]? ∧ res.trainRows[0]? = res'.trainRows[0]?) := by
  obtain ⟨t, ht, hv⟩ := exampleRide_validOn
  obtain ⟨c, sys, hc, sound, hsys, -, -⟩ := (hv ⟨fun _ => ⟨fun _ => 0, none, fun _ => none, fun _ => true, []⟩, [], [], [], [], [], [], [], [], [], 0⟩).track (fun p : Fin 3 → ℝ => p) (3 / 5)
  have v := hv (c.numbered (3 / 5))
  have hs' : c.soils.length ≤ 2 := by
    obtain ⟨c', hc', -, -, -, -, -, -, -, hlen, -⟩ := C136_structure (fun p : Fin 3 → ℝ => p) v.good
    rw [hc] at hc'
    cases hc'
    have := v.enough
    simp at this hlen
    omega
  have hm : ∀ w ∈ [(⟨10 ^ 7, none, some 1000⟩ : RodValues ℝ), ⟨10 ^ 9, none, none⟩],
      ({ (exampleRide (c.numbered (3 / 5)) t).values with soil := w } : TrackValues).NonNeg := by
    have h := exampleTrack_nonNeg
    intro w hw
    refine ⟨h.padMass, ?_, h.sleeper, h.padDamping, ?_⟩ <;>
      simp only [List.mem_cons, List.not_mem_nil, or_false] at hw <;>
      rcases hw with rfl | rfl <;> simp
  have hR : (exampleRide (c.numbered (3 / 5)) t).values.Rayleigh := by
    have h := exampleTrack_rayleigh
    exact ⟨h.ratio, h.w1, h.w2⟩
  have held : HeldMoving sys := by
    obtain ⟨x, y, hx, hy, hsys''⟩ := sound.system (3 / 5) (exampleRide (c.numbered (3 / 5)) t).values
      [(⟨10 ^ 7, none, some 1000⟩ : RodValues ℝ), ⟨10 ^ 9, none, none⟩] hs' true
    have e := hsys.symm.trans hsys''
    injection e with e
    rw [e]
    exact sound.heldMoving _ [(⟨10 ^ 7, none, some 1000⟩ : RodValues ℝ), ⟨10 ^ 9, none, none⟩] hs' v.values hm hR x y (List.mem_of_head? hx) (List.mem_of_getLast? hy)
  obtain ⟨w1, w2, w3, w4⟩ := default_weighs (q := exampleRide (c.numbered (3 / 5)) t) .doubleDekker (by decide) 20 1 (by norm_num) t.2
    (by rw [ht]; rfl) (by norm_num [exampleRide])
  obtain ⟨solver, h1, h2⟩ := C181_from_rest_violated (q := exampleRide (c.numbered (3 / 5)) t) (hash := fun p : Fin 3 → ℝ => p)
    (Or.inr ⟨_, _, _, _, _, c, v, hc, rfl, hsys, rfl, rfl⟩) held (exampleRide_steady _ t ht) w1 (by norm_num [exampleRide]) w2 w3 w4
    (β := 1 / 4) (γ := 1 / 2) (by norm_num) (by norm_num) 2 (by simp [exampleRide]) (by norm_num)
  exact ⟨t, ht, c, sys, hc, hsys, solver, h1, h2 1 (by norm_num)⟩

end Rose
