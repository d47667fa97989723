/-
C180: what a calculation of a train on a track reports at an output index does not depend on what comes later.
-/
import Verif.Spec.CoupledCausal
import Verif.Props.CoupledSteps
import Verif.Props.LinearDynamics

set_option linter.unusedSectionVars false

namespace Rose
open Finset

/-- The matrices and the unknowns of a system do not depend on its loads. -/
theorem initialise_otherLoads {K : Type*} [Field K] [LinearOrder K] [IsStrictOrderedRing K] (inp : SystemInput K) (l l' : List (NodalLoad K))
    (flags : ℕ → Fin 3 → Bool) (st st' : TrimState K) (h : ({ inp with loads := l } : SystemInput K).initialise flags = .ok st)
    (h' : ({ inp with loads := l' } : SystemInput K).initialise flags = .ok st') : st' = { st with F := st'.F } := by
  obtain ⟨stiff, mass, damp, a1, a2, a3, rfl⟩ := initialise_ok _ _ _ h
  obtain ⟨stiff', mass', damp', a1', a2', a3', rfl⟩ := initialise_ok _ _ _ h'
  rw [show addParts _ _ (allContributions _ _ _) = _ from a1, Except.ok.injEq] at a1'
  rw [show addParts _ _ (allContributions _ _ _) = _ from a2, Except.ok.injEq] at a2'
  rw [show addParts _ _ (allContributions _ _ _) = _ from a3, Except.ok.injEq] at a3'
  subst a1' a2' a3'
  unfold SystemInput.damped
  simp only
  split_ifs <;> rfl

theorem mapM_rows {α β ε : Type*} (f : α → Except ε β) : ∀ (l : List α) (r : List β), l.mapM f = .ok r →
    ∀ (j : ℕ) (x : α), l[j]? = some x → ∃ y, f x = .ok y ∧ r[j]? = some y := by
  intro l
  induction l with
  | nil => intro r _ j x hx; simp at hx
  | cons a l ih =>
    intro r h j x hx
    rw [List.mapM_cons] at h
    cases ha : f a with
    | error e => simp [bind, Except.bind, ha] at h
    | ok y =>
      cases hl : l.mapM f with
      | error e => simp [bind, Except.bind, ha, hl] at h
      | ok ys =>
        simp only [bind, Except.bind, ha, hl, pure, Except.pure, Except.ok.injEq] at h
        subst h
        cases j with
        | zero =>
          simp only [List.getElem?_cons_zero, Option.some.injEq] at hx
          subst hx
          exact ⟨y, ha, rfl⟩
        | succ j => exact ih ys hl j x (by simpa using hx)

variable {H : Type*} [DecidableEq H] {hash : (Fin 3 → ℝ) → H}

/-- Two outputs that agree at an index on the dofs of the coupled system give the same rows at this index. -/
theorem rows_congr (c : CoupledRun ℝ) (st : TrimState ℝ) (hst : c.loadedTrack.input.initialise freshFlags = .ok st) (out out' : SolverOutput ℝ) (t : ℕ)
    (h : ∀ k < (c.system hash st).N, out.u t k = out'.u t k ∧ out.v t k = out'.v t k ∧ out.a t k = out'.a t k) :
    st.nodes.mapM (nodeRow out t) = st.nodes.mapM (nodeRow out' t) ∧
      ((c.trainState hash).nodes.map fun n => { n with idx := shiftDofs st.N n.idx }).mapM (nodeRow out t) =
        ((c.trainState hash).nodes.map fun n => { n with idx := shiftDofs st.N n.idx }).mapM (nodeRow out' t) := by
  have hN : (c.system hash st).N = st.N + (c.trainState hash).N := rfl
  have row : ∀ (n : DofNode) (_ : ∀ d k, n.idx d = some k → k < (c.system hash st).N), nodeRow out t n = nodeRow out' t n := by
    intro n hn
    have e : ∀ x y : ℕ → ℝ, (∀ k < (c.system hash st).N, x k = y k) → assignResultRow n x = assignResultRow n y := by
      intro x y hxy
      unfold assignResultRow
      congr 1
      refine List.map_congr_left fun k hk => ?_
      obtain ⟨d, -, hd⟩ := List.mem_filterMap.mp hk
      exact hxy k (hn d k hd)
    unfold nodeRow
    rw [e _ _ fun k hk => (h k hk).1, e _ _ fun k hk => (h k hk).2.1, e _ _ fun k hk => (h k hk).2.2]
  constructor
  · refine mapM_congr_mem _ _ _ fun n hn => row n fun d k hk => ?_
    obtain ⟨i, hi'⟩ := mem_equation hn hk
    have := ((C106_representable c.loadedTrack.input freshFlags st hst).2.1 i d k hi').2
    omega
  · refine mapM_congr_mem _ _ _ fun n hn => row n fun d k hk => ?_
    rw [List.mem_map] at hn
    obtain ⟨m, hm, rfl⟩ := hn
    simp only [shiftDofs, Option.map_eq_some_iff] at hk
    obtain ⟨o, ho, rfl⟩ := hk
    obtain ⟨i, hi⟩ := mem_equation hm ho
    have := trimmed_lt _ i d o hi
    change o < (c.trainState hash).N at this
    omega

/-- The results are the rows of the solver's output. -/
theorem main_rows (c : CoupledRun ℝ) (times : ℕ)
    (solver : TrimState ℝ → (List (ℕ × List (ℕ → ℝ)) → List (ℕ → ℝ) → ℕ → (ℕ → ℝ) → ℕ → ℝ) → SolverOutput ℝ) (res : CoupledResult ℝ)
    (st : TrimState ℝ) (hst : c.loadedTrack.input.initialise freshFlags = .ok st)
    (h : c.main hash freshFlags times solver = .ok res) (j : ℕ) (hj : j < times) :
    ∃ track train, st.nodes.mapM (nodeRow (solver (c.system hash st) (c.rhs hash st)) j) = .ok track ∧ res.trackRows[j]? = some track ∧
      ((c.trainState hash).nodes.map fun n => { n with idx := shiftDofs st.N n.idx }).mapM (nodeRow (solver (c.system hash st) (c.rhs hash st)) j) =
        .ok train ∧ res.trainRows[j]? = some train := by
  unfold CoupledRun.main at h
  simp only [bind, Except.bind, hst] at h
  split at h
  · cases h
  · rename_i rows hrows
    split at h
    · cases h
    · rename_i rows' hrows'
      injection h with h
      subst h
      obtain ⟨a, ha, hr⟩ := mapM_rows _ _ _ hrows j j (by simp [hj])
      obtain ⟨b, hb, hr'⟩ := mapM_rows _ _ _ hrows' j j (by simp [hj])
      exact ⟨a, b, ha, hr, hb, hr'⟩

variable {q : TrackRide}

/-- The law of a wheel at an index in terms of the ride. -/
theorem TrackRide.Contacts.law_eq {m : ℕ} {l : ℝ} {R : ℕ → RailWheel ℝ} {t : ℕ} (h : q.Contacts m l R t) (w : ℕ)
    (hw : w < q.train.wheelList.length) (x : ℝ) : (R w).law t (x + (R w).static) =
      Spec.hertz q.G q.p (q.G * (-q.staticLoad (q.train.wheelList.getD w (0, 0))) ^ (1 / q.p) +
        Spec.railDeflection l m (fun k => q.track.position (q.track.rail.getD k 0)) (fun _ _ => 0)
          (Spec.wheelX q.time q.vel (q.startOf (q.train.wheelList.getD w (0, 0))) t) - x - q.irr w t) := by
  have hF := h.2.2 w hw (fun _ _ => 0) fun _ => x
  have e0 : Spec.railAt (R w) t (fun _ _ => (0 : ℝ)) = 0 := by simp [Spec.railAt]
  unfold Spec.wheelForce at hF
  rw [e0, sub_zero] at hF
  exact hF

theorem contactWeight_rail {c : CoupledRun ℝ} (hc : c.WellFormed) (st : TrimState ℝ) (t w k : ℕ) (h : k < st.N) :
    contactWeight c st t w k = -Spec.railAt (c.rail w) t (fun i d => dofDisp (Pi.single k 1) (nodeEquations st.nodes i d)) := by
  have hV : RepresentsField c.track.system.n st.nodes (Pi.single k 1 : ℕ → ℝ) (fun i d => dofDisp (Pi.single k 1) (nodeEquations st.nodes i d)) := by
    refine ⟨fun i d o ho => ?_, fun i _ d ho => ?_⟩
    · rw [nodeEquations_eq, ho]; rfl
    · rw [nodeEquations_eq, ho]; rfl
  unfold contactWeight
  rw [if_pos h, dispAtWheel_eq c.track.system.n st.nodes _ _ hV (c.rail w) t (hc.rail w t).1 (hc.rail w t).2]

/-- Two rides that are the same up to an index have the same results up to it. -/
theorem causalOn {m m' : ℕ} {l : ℝ} {sys : SystemInput ℝ} {time vel : List ℝ} {irr : ℕ → ℕ → ℝ} {s : ℕ}
    (same : Spec.SameUntil q { q with time := time, vel := vel, irr := irr } s)
    (v : q.Runs m' l) (y : q.Steady) (nodes nodes' : List ℕ) (R R' : ℕ → RailWheel ℝ)
    (hwf : (q.runOn sys nodes R).WellFormed)
    (hwf' : (TrackRide.runOn { q with time := time, vel := vel, irr := irr } sys nodes' R').WellFormed)
    (hfacts : ∀ t < q.time.length, q.Contacts m l R t)
    (hfacts' : ∀ t < time.length, TrackRide.Contacts { q with time := time, vel := vel, irr := irr } m l R' t)
    (hpass : ∀ loads st, ({ sys with loads := loads } : SystemInput ℝ).initialise freshFlags = .ok st → Passive st.N st.M st.C st.Kg)
    {β γ : ℝ} (hβ : 0 ≤ β) (hγ : 0 ≤ γ) {times times' : ℕ} (htimes : times ≤ q.time.length) (htimes' : times' ≤ time.length)
    (hs : s < times) (hs' : s < times') (u₀ v₀ : ℕ → ℝ)
    (solver solver' : TrimState ℝ → (List (ℕ × List (ℕ → ℝ)) → List (ℕ → ℝ) → ℕ → (ℕ → ℝ) → ℕ → ℝ) → SolverOutput ℝ)
    (hsol : StepsOf hash (q.runOn sys nodes R) β γ q.time times u₀ v₀ solver)
    (hsol' : StepsOf hash (TrackRide.runOn { q with time := time, vel := vel, irr := irr } sys nodes' R') β γ time times' u₀ v₀ solver') :
    ∃ res res', (q.runOn sys nodes R).main hash freshFlags times solver = .ok res ∧
      (TrackRide.runOn { q with time := time, vel := vel, irr := irr } sys nodes' R').main hash freshFlags times' solver' = .ok res' ∧
      Spec.SameResults res res' s := by
  obtain ⟨-, htime, hspeed, hirr⟩ := same
  simp only at htime hspeed hirr
  set q' : TrackRide := { q with time := time, vel := vel, irr := irr } with hq'
  set c := q.runOn sys nodes R with hc
  set c' := q'.runOn sys nodes' R' with hc'
  obtain ⟨res, hres, -⟩ := C124_motion_partial hash c hwf times solver fun st hst => (hsol st hst).balance
  obtain ⟨res', hres', -⟩ := C124_motion_partial hash c' hwf' times' solver' fun st hst => (hsol' st hst).balance
  refine ⟨res, res', hres, hres', ?_⟩
  obtain ⟨st, hst⟩ := C106_succeeds c.loadedTrack.input hwf.track.mesh freshFlags
  obtain ⟨st', hst'⟩ := C106_succeeds c'.loadedTrack.input hwf'.track.mesh freshFlags
  have hF : st' = { st with F := st'.F } := initialise_otherLoads sys _ _ freshFlags st st' hst hst'
  have hN : st'.N = st.N := by rw [hF]
  have hnodes : st'.nodes = st.nodes := by rw [hF]
  have hM : (c'.system hash st').M = (c.system hash st).M := by rw [hF]; rfl
  have hC : (c'.system hash st').C = (c.system hash st).C := by rw [hF]; rfl
  have hK : (c'.system hash st').Kg = (c.system hash st).Kg := by rw [hF]; rfl
  have hNc : (c'.system hash st').N = (c.system hash st).N := by rw [hF]; rfl
  set out := solver (c.system hash st) (c.rhs hash st) with hout
  set out' := solver' (c'.system hash st') (c'.rhs hash st') with hout'
  have S := hsol st hst
  have S' := hsol' st' hst'
  rw [← hout] at S
  rw [← hout'] at S'
  have law : ∀ t < times, ∀ w < c.train.wheelList.length, Continuous ((c.rail w).law t) ∧ Antitone ((c.rail w).law t) := by
    intro t ht w hw
    obtain ⟨κ, hκ⟩ := (hfacts t (by omega)).law w hw
    have e : (c.rail w).law t = fun x => Spec.hertz q.G q.p (κ - x) := funext hκ
    rw [e]
    exact ⟨(hertz_continuous v.coefficient y.power).comp (continuous_const.sub continuous_id),
      fun x y' hxy => hertz_monotone v.coefficient y.power (by linarith)⟩
  have law' : ∀ t < times', ∀ w < c'.train.wheelList.length, Continuous ((c'.rail w).law t) ∧ Antitone ((c'.rail w).law t) := by
    intro t ht w hw
    obtain ⟨κ, hκ⟩ := (hfacts' t (by omega)).law w hw
    have e : (c'.rail w).law t = fun x => Spec.hertz q.G q.p (κ - x) := funext hκ
    rw [e]
    exact ⟨(hertz_continuous v.coefficient y.power).comp (continuous_const.sub continuous_id),
      fun x y' hxy => hertz_monotone v.coefficient y.power (by linarith)⟩
  have f := fun sched us => coupled_forces (hash := hash) c hwf st hst (s + 1) (fun t ht => (hfacts t (by omega)).1)
    (fun t ht w hw => (law t (by omega) w hw).1) (fun t ht w hw => (law t (by omega) w hw).2) sched us
  have f' := fun sched us => coupled_forces (hash := hash) c' hwf' st' hst' (s + 1) (fun t ht => (hfacts' t (by omega)).1)
    (fun t ht w hw => (law' t (by omega) w hw).1) (fun t ht w hw => (law' t (by omega) w hw).2) sched us
  have o := coupled_passive (hash := hash) c hwf.separated hwf.massive v.fits v.balanced y.springs y.damped st (hpass _ st hst)
  have hX : ∀ w t, t ≤ s → Spec.wheelX q'.time q'.vel (q'.startOf w) t = Spec.wheelX q.time q.vel (q.startOf w) t := by
    intro w t ht
    unfold Spec.wheelX
    refine congrArg₂ _ rfl (sum_congr rfl fun i hi => ?_)
    have := mem_range.mp hi
    rw [show q'.vel.getD i 0 = q.vel.getD i 0 from hspeed i (by omega), show q'.time.getD (i + 1) 0 = q.time.getD (i + 1) 0 from htime _ (by omega),
      show q'.time.getD i 0 = q.time.getD i 0 from htime _ (by omega)]
  have hweight : ∀ t ≤ s, ∀ w < c.train.wheelList.length, ∀ k < (c.system hash st).N, contactWeight c' st' t w k = contactWeight c st t w k := by
    intro t ht w hw k hk
    by_cases h : k < st.N
    · rw [contactWeight_rail hwf st t w k h, contactWeight_rail hwf' st' t w k (by omega), hnodes]
      have e1 := (hfacts t (by omega)).2.1 w hw (fun i d => dofDisp (Pi.single k 1) (nodeEquations st.nodes i d))
      have e2 := (hfacts' t (by omega)).2.1 w hw (fun i d => dofDisp (Pi.single k 1) (nodeEquations st.nodes i d))
      rw [show Spec.railAt (c.rail w) t _ = _ from e1, show Spec.railAt (c'.rail w) t _ = _ from e2]
      have := hX (q.train.wheelList.getD w (0, 0)) t ht
      rw [show Spec.wheelX q'.time q'.vel (q'.startOf (q'.train.wheelList.getD w (0, 0))) t = _ from this]
    · unfold contactWeight
      rw [if_neg h, if_neg (by omega), hN]
      rfl
  have hfree : ∀ t k, contactFree c' st' t k = contactFree c st t k := by
    intro t k
    unfold contactFree
    rw [hN]
    split_ifs <;> rfl
  have hlaw : ∀ t ≤ s, ∀ w < c.train.wheelList.length, ∀ x, (c'.rail w).law t (x + (c'.rail w).static) = (c.rail w).law t (x + (c.rail w).static) := by
    intro t ht w hw x
    have e1 := (hfacts t (by omega)).law_eq w hw x
    have e2 := (hfacts' t (by omega)).law_eq w hw x
    refine Eq.trans e2 (Eq.trans ?_ e1.symm)
    have := hX (q.train.wheelList.getD w (0, 0)) t ht
    rw [show Spec.wheelX q'.time q'.vel (q'.startOf (q'.train.wheelList.getD w (0, 0))) t = _ from this,
      show q'.irr w t = q.irr w t from hirr w t ht]
    rfl
  have hrhs : ∀ t ≤ s, ∀ k < (c.system hash st).N, ∀ U sched us, c'.rhs hash st' sched us t U k = c.rhs hash st [] [] t U k := by
    intro t ht k hk U sched us
    have e1 := (f (fun _ => []) fun _ => []).rhs_eq t (by omega) U k hk
    have e2 := (f' (fun _ => sched) fun _ => us).rhs_eq t (by omega) U k (by omega)
    refine e2.trans (Eq.trans ?_ e1.symm)
    rw [hfree]
    refine congrArg₂ _ rfl (sum_congr rfl fun w hw => ?_)
    have hw : w < c.train.wheelList.length := mem_range.mp hw
    rw [hweight t ht w hw k hk, hlaw t ht w hw]
    congr 2
    unfold weighted
    rw [hNc]
    refine congrArg₂ _ (sum_congr rfl fun j hj => ?_) rfl
    rw [hweight t ht w hw j (mem_range.mp hj)]
  obtain ⟨u, w, a, -, -, -, -, unique⟩ := (f (fun _ => []) fun _ => []).steps o hβ hγ (fun n => q.time.getD (n + 1) 0 - q.time.getD n 0)
    (fun n hn => by linarith [y.time n (by omega)]) u₀ v₀
  have U1 := unique out.u out.v out.a (fun t ht k hk => by
      obtain ⟨sched, us, hb⟩ := S.balance t (by omega)
      rw [hb k hk]
      have e1 := (f (fun _ => sched) fun _ => us).rhs_eq t ht (out.u t) k hk
      have e2 := (f (fun _ => []) fun _ => []).rhs_eq t ht (out.u t) k hk
      exact e1.trans e2.symm) (fun n hn => S.displacement n (by omega)) (fun n hn => S.velocity n (by omega)) S.start
  have U2 := unique out'.u out'.v out'.a (fun t ht k hk => by
      obtain ⟨sched, us, hb⟩ := S'.balance t (by omega)
      have := hb k (by omega)
      rw [hM, hC, hK, hNc] at this
      rw [this]
      exact hrhs t (by omega) k hk _ _ _)
    (fun n hn k hk => by
      have := S'.displacement n (by omega) k (by omega)
      rw [htime (n + 1) (by omega), htime n (by omega)] at this
      exact this)
    (fun n hn k hk => by
      have := S'.velocity n (by omega) k (by omega)
      rw [htime (n + 1) (by omega), htime n (by omega)] at this
      exact this)
    (fun k hk => S'.start k (by omega))
  intro j hj
  obtain ⟨track, train, r1, r2, r3, r4⟩ := main_rows c times solver res st hst hres j (by omega)
  obtain ⟨track', train', r1', r2', r3', r4'⟩ := main_rows c' times' solver' res' st' hst' hres' j (by omega)
  rw [← hout] at r1 r3
  rw [← hout'] at r1' r3'
  obtain ⟨g1, g2⟩ := rows_congr (hash := hash) c st hst out out' j fun k hk => by
    obtain ⟨a1, a2, a3⟩ := U1 j (by omega) k hk
    obtain ⟨b1, b2, b3⟩ := U2 j (by omega) k hk
    exact ⟨a1.trans b1.symm, a2.trans b2.symm, a3.trans b3.symm⟩
  rw [hnodes, ← g1, r1, Except.ok.injEq] at r1'
  have r3' : ((c.trainState hash).nodes.map fun n => { n with idx := shiftDofs st'.N n.idx }).mapM (nodeRow out' j) = .ok train' := r3'
  rw [hN, ← g2, r3, Except.ok.injEq] at r3'
  subst r1' r3'
  exact ⟨track, train, r2, r2', r4, r4'⟩

theorem HeldMoving.passive {sys : SystemInput ℝ} (h : HeldMoving sys) (loads : List (NodalLoad ℝ)) (st : TrimState ℝ)
    (hst : ({ sys with loads := loads } : SystemInput ℝ).initialise freshFlags = .ok st) : Passive st.N st.M st.C st.Kg := by
  obtain ⟨st', e, o⟩ := h.moves loads
  rw [hst] at e
  injection e with e
  subst e
  exact o.passive

variable {q' : TrackRide} {n r k s : ℕ} {d h : ℝ} {segments : List (ℕ × ℝ)} {soils : List (RodValues ℝ)}

/-- **C180** Two trains on a generated track that are the same up to an output index, and afterwards have other speeds, time steps or
irregularities, or stop earlier or later: the calculations with every two solvers that make the time steps have the same results on all nodes of
track and train up to this index. -/
theorem C180_track (same : Spec.SameUntil q q' s) (v : q.Valid hash n r d h) (v' : q'.Valid hash n r d h) (hn : 2 ≤ n) (hheld : q.held = true)
    (hv : q.values.Valid) (hm : q.values.NonNeg) (hR : q.values.Rayleigh) (y : q.Steady) {β γ : ℝ} (hβ : 0 ≤ β) (hγ : 0 ≤ γ)
    (times times' : ℕ) (htimes : times ≤ q.time.length) (htimes' : times' ≤ q'.time.length) (hs : s < times) (hs' : s < times') (u₀ v₀ : ℕ → ℝ) :
    ∃ c c', q.coupled = .ok c ∧ q'.coupled = .ok c' ∧ ∀ solver solver', StepsOf hash c β γ q.time times u₀ v₀ solver →
      StepsOf hash c' β γ q'.time times' u₀ v₀ solver' → ∃ res res', q.main hash times solver = .ok res ∧ q'.main hash times' solver' = .ok res' ∧
        Spec.SameResults res res' s := by
  obtain ⟨time, vel, irr, rfl⟩ := same.rest
  have g := v.generated
  have g' := v'.generated
  obtain ⟨R, hc, hwf, hfacts⟩ := v.runs.run g.even (g.placedRail q.values q.held)
  obtain ⟨R', hc', hwf', hfacts'⟩ := v'.runs.run g'.even (g'.placedRail q.values q.held)
  have hq : q.coupled = .ok (q.runWith (generatedInput q.track n r d q.values q.held) R) := by rw [v.coupled_eq]; exact hc
  have hq' : TrackRide.coupled { q with time := time, vel := vel, irr := irr } =
      .ok (TrackRide.runWith { q with time := time, vel := vel, irr := irr } (generatedInput q.track n r d q.values q.held) R') := by
    rw [v'.coupled_eq]; exact hc'
  refine ⟨_, _, hq, hq', fun solver solver' h1 h2 => ?_⟩
  obtain ⟨res, res', e1, e2, e3⟩ := causalOn same v.runs y _ _ R R' hwf hwf' hfacts hfacts' (by
    rw [hheld]
    exact (g.heldMoving hn g.r_pos hv hm hR).passive) hβ hγ htimes htimes' hs hs' u₀ v₀ solver solver' h1 h2
  refine ⟨res, res', ?_, ?_, e3⟩
  · unfold TrackRide.main
    simp only [bind, Except.bind, hq]
    exact e1
  · unfold TrackRide.main
    simp only [bind, Except.bind, hq']
    exact e2

/-- **C180** The same for trains on a track that is combined from segments. -/
theorem C180_combined (same : Spec.SameUntil q q' s) (v : q.ValidOn r d segments soils) (v' : q'.ValidOn r d segments soils) (hheld : q.held = true)
    (hm : ∀ w ∈ soils, ({ q.values with soil := w } : TrackValues).NonNeg) (hR : q.values.Rayleigh) (y : q.Steady) (length : ℝ)
    {β γ : ℝ} (hβ : 0 ≤ β) (hγ : 0 ≤ γ) (times times' : ℕ) (htimes : times ≤ q.time.length) (htimes' : times' ≤ q'.time.length)
    (hs : s < times) (hs' : s < times') (u₀ v₀ : ℕ → ℝ) :
    ∃ c run run', combinedTrack hash r d segments = .ok c ∧ q.coupledOnCombined c length soils = .ok run ∧
      q'.coupledOnCombined c length soils = .ok run' ∧ ∀ solver solver', StepsOf hash run β γ q.time times u₀ v₀ solver →
        StepsOf hash run' β γ q'.time times' u₀ v₀ solver' → ∃ res res', q.mainOnCombined hash c length soils times solver = .ok res ∧
          q'.mainOnCombined hash c length soils times' solver' = .ok res' ∧ Spec.SameResults res res' s := by
  obtain ⟨time, vel, irr, rfl⟩ := same.rest
  obtain ⟨c, sys, hc, sound, hsys, hp, hrun⟩ := v.track hash length
  obtain ⟨c', sys', hc', -, hsys', -, hrun'⟩ := v'.track hash length
  rw [hc] at hc'
  cases hc'
  have e : sys' = sys := by
    have := hsys'.symm.trans hsys
    injection this
  subst e
  obtain ⟨R, hco, hwf, hfacts⟩ := (v.runs.withTrack (c.numbered length)).run (sound.even length) hp
  obtain ⟨R', hco', hwf', hfacts'⟩ := (v'.runs.withTrack (c.numbered length)).run (sound.even length) hp
  rw [← hrun] at hco
  rw [← hrun'] at hco'
  have hpass : ∀ loads st, ({ sys' with loads := loads } : SystemInput ℝ).initialise freshFlags = .ok st → Passive st.N st.M st.C st.Kg := by
    have hs' : c.soils.length ≤ soils.length := by
      obtain ⟨c', hc', -, -, -, -, -, -, -, hlen, -⟩ := C136_structure hash v.good
      rw [hc] at hc'
      cases hc'
      have := v.enough
      omega
    obtain ⟨x, y, hx, hy, hsys''⟩ := sound.system length q.values soils hs' q.held
    rw [hsys, hheld] at hsys''
    injection hsys'' with hsys''
    subst hsys''
    exact (sound.heldMoving q.values soils hs' v.values hm hR x y (List.mem_of_head? hx) (List.mem_of_getLast? hy)).passive
  refine ⟨c, _, _, hc, hco, hco', fun solver solver' h1 h2 => ?_⟩
  obtain ⟨res, res', e1, e2, e3⟩ := causalOn (q := { q with track := c.numbered length }) ⟨⟨time, vel, irr, rfl⟩, same.time, same.speed, same.irregularities⟩
    (v.runs.withTrack (c.numbered length)) (y.withTrack _) _ _ R R' hwf hwf' hfacts hfacts' hpass hβ hγ htimes htimes' hs hs' u₀ v₀ solver solver' h1 h2
  refine ⟨res, res', ?_, ?_, e3⟩
  · unfold TrackRide.mainOnCombined
    simp only [bind, Except.bind, hco]
    exact e1
  · unfold TrackRide.mainOnCombined
    simp only [bind, Except.bind, hco']
    exact e2

/-- **C180** The same on every such track with a hinge in its rail, of a fixity factor greater than 0 and at most 1, for trains that do not go
beyond the last node before the hinge. -/
theorem C180_hinged (same : Spec.SameUntil q q' s) (g : GoodSegments r d segments) (length : ℝ) (hlength : 0 < length)
    (hsoils : segments.length ≤ soils.length)
    (hv : ∀ w ∈ soils, ({ q.values with soil := w } : TrackValues).Valid) (hk : 2 ≤ k) (hkm : k + 3 ≤ railCount r segments)
    (near : 1 / 100000000 + 1 / 100000 * ((k : ℝ) * (d / r)) < d / r) (f : ℝ) (hf : 0 < f) (hf1 : f ≤ 1) (v : q.Runs k (d / r))
    (v' : q'.Runs k (d / r)) (hheld : q.held = true) (hm : ∀ w ∈ soils, ({ q.values with soil := w } : TrackValues).NonNeg)
    (hR : q.values.Rayleigh) (y : q.Steady)
    {β γ : ℝ} (hβ : 0 ≤ β) (hγ : 0 ≤ γ) (times times' : ℕ) (htimes : times ≤ q.time.length) (htimes' : times' ≤ q'.time.length)
    (hs : s < times) (hs' : s < times') (u₀ v₀ : ℕ → ℝ) :
    ∃ c run run', combinedTrack hash r d segments = .ok c ∧ q.coupledOnHingedCombined c length soils f (k * (d / r)) = .ok run ∧
      q'.coupledOnHingedCombined c length soils f (k * (d / r)) = .ok run' ∧
      ∀ solver solver', StepsOf hash run β γ q.time times u₀ v₀ solver → StepsOf hash run' β γ q'.time times' u₀ v₀ solver' →
        ∃ res res', q.mainOnHingedCombined hash c length soils f (k * (d / r)) times solver = .ok res ∧
          q'.mainOnHingedCombined hash c length soils f (k * (d / r)) times' solver' = .ok res' ∧ Spec.SameResults res res' s := by
  obtain ⟨time, vel, irr, rfl⟩ := same.rest
  obtain ⟨c, σ, a, b, sys, hc, sound, hs'', ha, hb, hσ, hsys, hp, he, hrun⟩ := hingedCombined_track (q := q) hash g length hsoils hv hk hkm
    near f hf.le hf1
  have hrun' : TrackRide.coupledOnHingedCombined { q with time := time, vel := vel, irr := irr } c length soils f (k * (d / r)) =
      TrackRide.coupledOnCut { q with time := time, vel := vel, irr := irr, track := c.numbered length } f (k * (d / r)) sys :=
    coupledOnHingedCombined_eq (q := { q with time := time, vel := vel, irr := irr }) _ hsys
  obtain ⟨nodes, R, hcut, hwf, hfacts⟩ := (v.withTrack (c.numbered length)).beforeHinge (sound.even length) hk hkm near hp f σ hσ
  obtain ⟨nodes', R', hcut', hwf', hfacts'⟩ := (v'.withTrack (c.numbered length)).beforeHinge (sound.even length) hk hkm near hp f σ hσ
  rw [← hrun] at hcut
  rw [← hrun'] at hcut'
  have hpass : ∀ loads st, ({ sys with loads := loads } : SystemInput ℝ).initialise freshFlags = .ok st → Passive st.N st.M st.C st.Kg := by
    obtain ⟨w, hw⟩ := sound.some_soil hs''
    obtain ⟨σ', hσ', hσ0⟩ := hingeStiffness_pos (hv w hw).E (hv w hw).I hlength hf hf1
    have hpos : 0 < σ := by
      have e : σ' = σ := by
        have := hσ'.symm.trans hσ
        injection this
      rw [← e]
      exact hσ0
    subst he
    rw [hheld]
    exact (sound.hinged_heldMoving q.values soils hs'' hv hm hR a b ha hb hk hkm (σ / 2) (fun h => by linarith)).passive
  refine ⟨c, _, _, hc, hcut, hcut', fun solver solver' h1 h2 => ?_⟩
  obtain ⟨res, res', e1, e2, e3⟩ := causalOn (q := { q with track := c.numbered length }) ⟨⟨time, vel, irr, rfl⟩, same.time, same.speed, same.irregularities⟩
    (v.withTrack (c.numbered length)) (y.withTrack _) _ _ R R' hwf hwf' hfacts hfacts' hpass hβ hγ htimes htimes' hs hs' u₀ v₀ solver solver' h1 h2
  refine ⟨res, res', ?_, ?_, e3⟩
  · unfold TrackRide.mainOnHingedCombined
    simp only [bind, Except.bind, hcut]
    exact e1
  · unfold TrackRide.mainOnHingedCombined
    simp only [bind, Except.bind, hcut']
    exact e2

/-- The double-dekker cart of `exampleRide` that stops after the first step, makes a longer step then and meets a dip at the end. -/
noncomputable def stoppedRide (track : HorizontalTrack ℝ) (t : Train ℝ × List ℝ) : TrackRide :=
  { exampleRide track t with
    time := [0, 1 / 100, 3 / 100], vel := [30, 0, 0],
    irr := fun w k => if k = 2 then -0.05 else (exampleRide track t).irr w k }

/-- The conditions are met by a cart that goes on and the same cart that stops after the first step, on 60 sleepers on soft soil and 50 sleepers on
stiff soil: at the first two output indices the results are the same. -/
example : ∃ t, setFullTrain .doubleDekker 20 1 = .ok t ∧ ∀ track,
    ∃ c run run', combinedTrack (fun p : Fin 3 → ℝ => p) 2 (3 / 5) [(60, 1), (50, 3)] = .ok c ∧
      (exampleRide track t).coupledOnCombined c (3 / 5) [⟨10 ^ 7, none, some 1000⟩, ⟨10 ^ 9, none, none⟩] = .ok run ∧
      (stoppedRide track t).coupledOnCombined c (3 / 5) [⟨10 ^ 7, none, some 1000⟩, ⟨10 ^ 9, none, none⟩] = .ok run' ∧
      ∀ solver solver', StepsOf (fun p : Fin 3 → ℝ => p) run (1 / 4) (1 / 2) [0, 1 / 100, 2 / 100] 2 0 0 solver →
        StepsOf (fun p : Fin 3 → ℝ => p) run' (1 / 4) (1 / 2) [0, 1 / 100, 3 / 100] 3 0 0 solver' →
        ∃ res res', (exampleRide track t).mainOnCombined (fun p : Fin 3 → ℝ => p) c (3 / 5) [⟨10 ^ 7, none, some 1000⟩, ⟨10 ^ 9, none, none⟩] 2
            solver = .ok res ∧
          (stoppedRide track t).mainOnCombined (fun p : Fin 3 → ℝ => p) c (3 / 5) [⟨10 ^ 7, none, some 1000⟩, ⟨10 ^ 9, none, none⟩] 3
            solver' = .ok res' ∧ Spec.SameResults res res' 1 := by
  obtain ⟨t, ht, hv⟩ := exampleRide_validOn
  refine ⟨t, ht, fun track => C180_combined (q := exampleRide track t) (q' := stoppedRide track t) ⟨⟨_, _, _, rfl⟩, ?_, ?_, ?_⟩ (hv track) ?_ rfl ?_ ?_
    (exampleRide_steady track t ht) _ (by norm_num) (by norm_num) 2 3 (by simp [exampleRide]) (by simp [stoppedRide]) (by norm_num) (by norm_num) 0 0⟩
  · intro j hj
    interval_cases j <;> rfl
  · intro j hj
    interval_cases j
    rfl
  · intro w j hj
    have : j ≠ 2 := by omega
    simp [stoppedRide, this]
  · have v := hv track
    have r := v.runs
    refine ⟨v.good, v.enough, v.values, ⟨r.bending, rfl, by simp [stoppedRide], ?_, ?_, r.start, ?_, r.apart, r.separated, r.massive, r.fits,
      r.balanced, r.pressed, r.coefficient, r.power⟩⟩
    · intro k hk
      have hk' : k + 1 < 3 := hk
      have : k < 2 := by omega
      interval_cases k <;> norm_num [stoppedRide]
    · intro k hk
      have hk' : k + 1 < 3 := hk
      have : k < 2 := by omega
      interval_cases k <;> norm_num [stoppedRide]
    · intro w hw k hk
      have hk' : k < 3 := hk
      have h0 := r.stop w hw 0 (by simp [exampleRide])
      have h1 := r.stop w hw 1 (by simp [exampleRide])
      have e : (stoppedRide track t).startOf w = (exampleRide track t).startOf w := rfl
      rw [e]
      interval_cases k
      · simpa [Spec.wheelX] using h0
      · refine le_trans (le_of_eq ?_) h1
        norm_num [Spec.wheelX, Finset.sum_range_succ, stoppedRide, exampleRide]
      · refine le_trans (le_of_eq ?_) h1
        norm_num [Spec.wheelX, Finset.sum_range_succ, stoppedRide, exampleRide]
  · have h := exampleTrack_nonNeg
    intro w hw
    refine ⟨h.padMass, ?_, h.sleeper, h.padDamping, ?_⟩ <;>
      simp only [List.mem_cons, List.not_mem_nil, or_false] at hw <;>
      rcases hw with rfl | rfl <;> simp
  · have h := exampleTrack_rayleigh
    exact ⟨h.ratio, h.w1, h.w2⟩

end Rose
