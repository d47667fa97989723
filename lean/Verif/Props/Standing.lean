/-
C184: a train that stands on the track has one position of rest, in which it stays.
-/
import Verif.Spec.Standing
import Verif.Props.CoupledCausal
import Verif.Props.Rerun
import Verif.Props.TrainRest
import Verif.Props.SltTrain

set_option linter.unusedSectionVars false

namespace Rose
open Finset

/-- Specification: the position is one of equilibrium of a train standing on a rail of `count` nodes at distance `l` (node numbers `node`) with the
track `sys`. The supports are respected. In every admissible virtual displacement the stiffness forces of the track do the work of the
static wheel loads at the places of the wheels. The springs carry the weight of every body, together with the reaction of the rail on the wheels.
Every wheel is as much displaced as the rail under it, less the irregularity, and the contact force there is its static load. -/
structure Spec.RestsUnderWeight {H : Type*} [DecidableEq H] (hash : (Fin 3 → ℝ) → H) (q : TrackRide) (sys : SystemInput ℝ) (l : ℝ) (count : ℕ)
    (node : ℕ → ℕ) (p : Spec.Position) : Prop where
  supports : Spec.Admissible sys (Spec.fieldOfRows (Spec.stillRows p.track) NodeRow.displacement)
  track : ∀ δ, Spec.Admissible sys δ →
    Spec.systemWork AssemblyPart.stiffness sys.parts δ (Spec.fieldOfRows (Spec.stillRows p.track) NodeRow.displacement) =
      ∑ w ∈ range q.train.wheelList.length, q.staticLoad (q.train.wheelList.getD w (0, 0)) *
        Spec.railDeflection l count node δ (q.startOf (q.train.wheelList.getD w (0, 0)))
  bodies : ∀ e, q.train.HasDof e →
    springForceAt q.train (Spec.reportedDof (q.partRow hash (Spec.stillRows p.train)) NodeRow.displacement) e =
      weightAt q.train q.g e + ∑ w ∈ range q.train.wheelList.length,
        if TrainDof.wheelY (q.train.wheelList.getD w (0, 0)).1 (q.train.wheelList.getD w (0, 0)).2 = e
        then -q.staticLoad (q.train.wheelList.getD w (0, 0)) else 0
  wheels : ∀ w < q.train.wheelList.length,
    Spec.reportedDof (q.partRow hash (Spec.stillRows p.train)) NodeRow.displacement
        (.wheelY (q.train.wheelList.getD w (0, 0)).1 (q.train.wheelList.getD w (0, 0)).2) =
      Spec.railDeflection l count node (Spec.fieldOfRows (Spec.stillRows p.track) NodeRow.displacement)
        (q.startOf (q.train.wheelList.getD w (0, 0))) - q.irr w 0

variable {H : Type*} [DecidableEq H] {hash : (Fin 3 → ℝ) → H}

/-- The results in terms of the solver's output. -/
theorem main_reported (c : CoupledRun ℝ) (times : ℕ)
    (solver : TrimState ℝ → (List (ℕ × List (ℕ → ℝ)) → List (ℕ → ℝ) → ℕ → (ℕ → ℝ) → ℕ → ℝ) → SolverOutput ℝ)
    (st : TrimState ℝ) (hst : c.loadedTrack.input.initialise freshFlags = .ok st) (out : SolverOutput ℝ)
    (hout : solver (c.system hash st) (c.rhs hash st) = out) :
    c.main hash freshFlags times solver = .ok ⟨st, (List.range times).map fun t => st.nodes.map fun n =>
      ⟨reportedRow (out.u t) n, reportedRow (out.v t) n, reportedRow (out.a t) n⟩,
      (List.range times).map fun t =>
        ((c.trainState hash).nodes.map fun n => ({ n with idx := shiftDofs st.N n.idx } : DofNode)).map fun n =>
        (⟨reportedRow (out.u t) n, reportedRow (out.v t) n, reportedRow (out.a t) n⟩ : NodeRow ℝ)⟩ := by
  unfold CoupledRun.main
  rw [hst]
  simp only [bind, Except.bind]
  rw [hout, mapM_eq_map _ (fun t => st.nodes.map fun n => (⟨reportedRow (out.u t) n,
    reportedRow (out.v t) n, reportedRow (out.a t) n⟩ : NodeRow ℝ)), mapM_eq_map _ _ _ fun t _ => train_rows hash c st.N out t]
  intro t _
  refine mapM_eq_map _ _ _ fun n hn => ?_
  unfold nodeRow
  rw [assignResultRow_eq _ _ st hst n hn, assignResultRow_eq _ _ st hst n hn, assignResultRow_eq _ _ st hst n hn]
  rfl

theorem reportedRow_zero (n : DofNode) : reportedRow (0 : ℕ → ℝ) n = 0 := by
  funext d
  unfold reportedRow
  cases n.idx d <;> rfl

/-- The approach of wheel and rail in terms of the unknowns. -/
theorem contact_distance (c : CoupledRun ℝ) (hc : c.WellFormed) (st : TrimState ℝ) (hst : c.loadedTrack.input.initialise freshFlags = .ok st)
    (t w : ℕ) (hw : w < c.train.wheelList.length) (U : ℕ → ℝ) :
    weighted (c.system hash st).N (contactWeight c st t w) U =
      U (st.N + c.train.dof (.wheelY (c.train.wheelList.getD w (0, 0)).1 (c.train.wheelList.getD w (0, 0)).2)) -
        dispAtWheel U ⟨railDofs (nodeEquations st.nodes) ((c.rail w).element t), (c.rail w).shape t⟩ := by
  obtain ⟨n1, -, -⟩ := C102_trimmed_partial hash c.train c.start c.g hc.separated hc.massive
  have n1 : (c.trainState hash).N = c.train.numbering.next := n1
  have hN : (c.system hash st).N = st.N + c.train.numbering.next := by rw [← n1]; rfl
  obtain ⟨r1, r2, -⟩ := C106_representable c.loadedTrack.input freshFlags st hst
  have hdofs : ∀ k o, railDofs (nodeEquations st.nodes) ((c.rail w).element t) k = some o → o < st.N := by
    intro k o h
    obtain ⟨i, d, -, -, h⟩ := (mem_railDofs _ _ o).1 ⟨k, h⟩
    rw [nodeEquations_eq] at h
    exact (r2 _ _ _ h).2
  have hlt := c.train.dof_lt _ (wheel_hasDof c.train w hw)
  rw [dispAtWheel_sum st.N U _ hdofs]
  unfold weighted
  rw [hN, Finset.sum_range_add, sub_eq_add_neg, ← sum_neg_distrib, add_comm]
  refine congrArg₂ _ ?_ (sum_congr rfl fun k hk => ?_)
  · rw [sum_eq_single_of_mem _ (mem_range.mpr hlt)]
    · unfold contactWeight
      rw [if_neg (by omega), if_pos (by omega), one_mul]
    · intro j _ hj
      unfold contactWeight
      rw [if_neg (by omega), if_neg (by omega), zero_mul]
  · unfold contactWeight
    rw [if_pos (mem_range.mp hk)]
    ring

/-- Equal contact forces come from equal approaches if wheel and rail are pressed together. -/
theorem hertz_injective {G p x y : ℝ} (hG : 0 < G) (hp : 0 < p) (hx : 0 < x) (h : Spec.hertz G p y = Spec.hertz G p x) : y = x := by
  rcases lt_trichotomy y x with h1 | h1 | h1
  · by_cases hy : 0 < y
    · exact absurd h (hertz_strict hG hp hy h1).ne
    · have h0 : Spec.hertz G p y = 0 := by unfold Spec.hertz; rw [if_neg hy]
      have h2 : 0 < Spec.hertz G p x := by
        unfold Spec.hertz
        rw [if_pos hx]
        positivity
      linarith
  · exact h1
  · exact absurd h.symm (hertz_strict hG hp hx h1).ne

theorem hertz_static {G p F : ℝ} (hG : 0 < G) (hp : 0 < p) (hF : 0 < F) : Spec.hertz G p (G * F ^ (1 / p)) = F := by
  unfold Spec.hertz
  rw [if_pos (by positivity), mul_div_cancel_left₀ _ hG.ne', ← Real.rpow_mul hF.le, one_div, inv_mul_cancel₀ hp.ne', Real.rpow_one]

theorem railDeflection_zero (l : ℝ) (m : ℕ) (node : ℕ → ℕ) (X : ℝ) : Spec.railDeflection l m node (fun _ _ => 0) X = 0 := by
  simp [Spec.railDeflection, Spec.timoDeflection]

theorem standing_wheelX {q : TrackRide} (s : Spec.Standing q) (x : ℝ) (t : ℕ) : Spec.wheelX q.time q.vel x t = x := by
  unfold Spec.wheelX
  rw [sum_eq_zero fun i _ => by rw [s.speed i, zero_mul], add_zero]


variable {q : TrackRide} {m m' : ℕ} {l : ℝ} {sys : SystemInput ℝ}

/-- A row of the stiffness matrix of train and track that belongs to the train gives the spring force on its body. -/
theorem train_rows_stiffness (c : CoupledRun ℝ) (hc : c.WellFormed) (d : TrainDof) (hd : c.train.HasDof d) (U : ℕ → ℝ) (st : TrimState ℝ) :
    ∑ j ∈ range (c.system hash st).N, (c.system hash st).Kg (st.N + c.train.dof d) j * U j =
      matForce c.train.numbering.next c.train.stiffness (fun j => U (st.N + j)) (c.train.dof d) := by
  obtain ⟨n1, -, n3⟩ := C102_trimmed_partial hash c.train c.start c.g hc.separated hc.massive
  have n1 : (c.trainState hash).N = c.train.numbering.next := n1
  have hlt := c.train.dof_lt _ hd
  have e := combine_row_train st.N (c.trainState hash).N st.Kg (c.trainState hash).Kg U (c.train.dof d) (by omega)
  refine Eq.trans e ?_
  rw [n1]
  refine sum_congr rfl fun j hj => ?_
  obtain ⟨d', hd', rfl⟩ := train_exists_dof c.train j (mem_range.mp hj)
  have := (n3 d d' hd hd').2.2.1
  rw [show (c.trainState hash).Kg (c.train.dof d) (c.train.dof d') = c.train.stiffness (c.train.dof d) (c.train.dof d') from this]

/-- The equations of the coupled calculation of a standing train have exactly one solution without motion; it is the same at all output indices, and
the contact forces are the static wheel loads. -/
theorem standing_solution (v : q.Runs m' l) (y : q.Steady) (nodes : List ℕ) (R : ℕ → RailWheel ℝ)
    (hwf : (q.runOn sys nodes R).WellFormed) (hfacts : ∀ t < q.time.length, q.Contacts m l R t) (stand : Spec.Standing q)
    (hsp : q.train.Sprung) (htt : q.train.TwoAndTwo) (hload : ∀ w ∈ q.train.wheelList, q.staticLoad w < 0)
    (st : TrimState ℝ) (hst : (q.runOn sys nodes R).loadedTrack.input.initialise freshFlags = .ok st) (o : Oscillator st.N st.M st.C st.Kg) :
    ∃ x : ℕ → ℝ,
      (∀ t < q.time.length, ∀ sched us, ∀ k < ((q.runOn sys nodes R).system hash st).N,
        ∑ j ∈ range ((q.runOn sys nodes R).system hash st).N, ((q.runOn sys nodes R).system hash st).Kg k j * x j =
          (q.runOn sys nodes R).rhs hash st sched us t x k) ∧
      (∀ t < q.time.length, ∀ w < q.train.wheelList.length,
        weighted ((q.runOn sys nodes R).system hash st).N (contactWeight (q.runOn sys nodes R) st t w) x = -q.irr w 0) ∧
      ∀ t < q.time.length, ∀ sched us z, (∀ k < ((q.runOn sys nodes R).system hash st).N,
        ∑ j ∈ range ((q.runOn sys nodes R).system hash st).N, ((q.runOn sys nodes R).system hash st).Kg k j * z j =
          (q.runOn sys nodes R).rhs hash st sched us t z k) → ∀ k < ((q.runOn sys nodes R).system hash st).N, z k = x k := by
  set c := q.runOn sys nodes R with hc
  have hlen : 0 < q.time.length := List.length_pos_of_ne_nil v.nonempty
  obtain ⟨n1, -, -⟩ := C102_trimmed_partial hash c.train c.start c.g hwf.separated hwf.massive
  have n1 : (c.trainState hash).N = c.train.numbering.next := n1
  have hN : (c.system hash st).N = st.N + c.train.numbering.next := by rw [← n1]; rfl
  have hN' : (c.system hash st).N = st.N + q.train.numbering.next := hN
  set W := q.train.wheelList.length with hW
  set wheel := fun w => q.train.wheelList.getD w (0, 0) with hwheel
  have hmem : ∀ w < W, wheel w ∈ q.train.wheelList := by
    intro w hw
    rw [hwheel]
    simp only
    rw [List.getD_eq_getElem _ _ hw]
    exact List.getElem_mem hw
  have hidx : ∀ w < W, q.train.wheelList.idxOf (wheel w) = w := by
    intro w hw
    have e : wheel w = q.train.wheelList[w] := List.getD_eq_getElem _ _ hw
    rw [e]
    exact (wheelList_nodup q.train).idxOf_getElem w hw
  have law : ∀ t < q.time.length, ∀ w < c.train.wheelList.length, Continuous ((c.rail w).law t) ∧ Antitone ((c.rail w).law t) := by
    intro t ht w hw
    obtain ⟨κ, hκ⟩ := (hfacts t ht).law w hw
    have e : (c.rail w).law t = fun x => Spec.hertz q.G q.p (κ - x) := funext hκ
    rw [e]
    exact ⟨(hertz_continuous v.coefficient y.power).comp (continuous_const.sub continuous_id),
      fun x y' hxy => hertz_monotone v.coefficient y.power (by linarith)⟩
  have f := fun sched us => coupled_forces (hash := hash) c hwf st hst q.time.length (fun t ht => (hfacts t ht).1)
    (fun t ht w hw => (law t ht w hw).1) (fun t ht w hw => (law t ht w hw).2) sched us
  have pass := coupled_passive (hash := hash) c hwf.separated hwf.massive v.fits v.balanced y.springs y.damped st o.passive
  -- the contact does not change with time
  have hweight : ∀ t < q.time.length, ∀ w < W, ∀ k, contactWeight c st t w k = contactWeight c st 0 w k := by
    intro t ht w hw k
    by_cases h : k < st.N
    · rw [contactWeight_rail hwf st t w k h, contactWeight_rail hwf st 0 w k h]
      have e1 := (hfacts t ht).2.1 w hw (fun i d => dofDisp (Pi.single k 1) (nodeEquations st.nodes i d))
      have e2 := (hfacts 0 hlen).2.1 w hw (fun i d => dofDisp (Pi.single k 1) (nodeEquations st.nodes i d))
      rw [show Spec.railAt (c.rail w) t _ = _ from e1, show Spec.railAt (c.rail w) 0 _ = _ from e2, standing_wheelX stand, standing_wheelX stand]
    · unfold contactWeight
      rw [if_neg h, if_neg h]
  have hlaw : ∀ t < q.time.length, ∀ w < W, ∀ x, (c.rail w).law t (x + (c.rail w).static) =
      Spec.hertz q.G q.p (q.G * (-q.staticLoad (wheel w)) ^ (1 / q.p) - x - q.irr w 0) := by
    intro t ht w hw x
    have e1 := (hfacts t ht).law_eq w hw x
    refine e1.trans ?_
    rw [railDeflection_zero, add_zero, stand.irregularities w t ht]
  have hfree : ∀ t k, contactFree c st t k = contactFree c st 0 k := fun t k => rfl
  have hstatic : ∀ w < W, Spec.hertz q.G q.p (q.G * (-q.staticLoad (wheel w)) ^ (1 / q.p)) = -q.staticLoad (wheel w) := fun w hw =>
    hertz_static v.coefficient y.power (by linarith [hload _ (hmem w hw)])
  have hrhs : ∀ t < q.time.length, ∀ sched us U, ∀ k < (c.system hash st).N, c.rhs hash st sched us t U k = contactFree c st 0 k +
      ∑ w ∈ range W, contactWeight c st 0 w k * Spec.hertz q.G q.p (q.G * (-q.staticLoad (wheel w)) ^ (1 / q.p) -
        weighted (c.system hash st).N (contactWeight c st 0 w) U - q.irr w 0) := by
    intro t ht sched us U k hk
    refine ((f (fun _ => sched) fun _ => us).rhs_eq t ht U k hk).trans ?_
    refine congrArg₂ _ (hfree t k) (sum_congr rfl fun w hw => ?_)
    have hw := mem_range.mp hw
    rw [hlaw t ht w hw, hweight t ht w hw k, show contactWeight c st t w = contactWeight c st 0 w from funext (hweight t ht w hw)]
  -- the track
  obtain ⟨inv, hinv⟩ := definite_solve (N := st.N) st.Kg fun U => (o.stiff U).2
  set ut := inv fun k => contactFree c st 0 k + ∑ w ∈ range W, contactWeight c st 0 w k * -q.staticLoad (wheel w) with hut
  have hutr := hinv fun k => contactFree c st 0 k + ∑ w ∈ range W, contactWeight c st 0 w k * -q.staticLoad (wheel w)
  rw [← hut] at hutr
  -- the train
  set rail : ℕ → ℝ := fun w => dispAtWheel ut ⟨railDofs (nodeEquations st.nodes) ((c.rail w).element 0), (c.rail w).shape 0⟩ with hrail
  obtain ⟨yt, hyt, hyu⟩ := C123_rest_partial q.train v.fits v.balanced hsp (fun d => q.train.forceVector q.g (q.train.dof d))
    fun b j => rail (q.train.wheelList.idxOf (b, j)) - q.irr (q.train.wheelList.idxOf (b, j)) 0
  set x : ℕ → ℝ := fun k => if k < st.N then ut k else yt (k - st.N) with hx
  have hx1 : ∀ k < st.N, x k = ut k := fun k hk => by rw [hx]; simp [hk]
  have hx2 : ∀ k, x (st.N + k) = yt k := fun k => by rw [hx]; simp
  obtain ⟨r1, r2, -⟩ := C106_representable c.loadedTrack.input freshFlags st hst
  have hdofs : ∀ w k o, railDofs (nodeEquations st.nodes) ((c.rail w).element 0) k = some o → o < st.N := by
    intro w k o h
    obtain ⟨i, d, -, -, h⟩ := (mem_railDofs _ _ o).1 ⟨k, h⟩
    rw [nodeEquations_eq] at h
    exact (r2 _ _ _ h).2
  have hdisp : ∀ w (U U' : ℕ → ℝ), (∀ k < st.N, U k = U' k) →
      dispAtWheel U ⟨railDofs (nodeEquations st.nodes) ((c.rail w).element 0), (c.rail w).shape 0⟩ =
        dispAtWheel U' ⟨railDofs (nodeEquations st.nodes) ((c.rail w).element 0), (c.rail w).shape 0⟩ := by
    intro w U U' h
    rw [dispAtWheel_sum st.N U _ (hdofs w), dispAtWheel_sum st.N U' _ (hdofs w)]
    exact sum_congr rfl fun k hk => by rw [h k (mem_range.mp hk)]
  have hdist : ∀ w < W, weighted (c.system hash st).N (contactWeight c st 0 w) x = -q.irr w 0 := by
    intro w hw
    rw [contact_distance c hwf st hst 0 w hw, hx2, hdisp w x ut hx1]
    have : yt (q.train.dof (.wheelY (wheel w).1 (wheel w).2)) =
        rail (q.train.wheelList.idxOf (wheel w)) - q.irr (q.train.wheelList.idxOf (wheel w)) 0 :=
      hyt.1 (wheel w).1 (wheel w).2 (wheel_hasDof q.train w hw)
    rw [hidx w hw] at this
    show yt (q.train.dof (.wheelY (wheel w).1 (wheel w).2)) - rail w = _
    rw [this]
    ring
  have hforce : ∀ w < W, Spec.hertz q.G q.p (q.G * (-q.staticLoad (wheel w)) ^ (1 / q.p) -
      weighted (c.system hash st).N (contactWeight c st 0 w) x - q.irr w 0) = -q.staticLoad (wheel w) := by
    intro w hw
    have e : q.G * (-q.staticLoad (wheel w)) ^ (1 / q.p) - weighted (c.system hash st).N (contactWeight c st 0 w) x - q.irr w 0 =
        q.G * (-q.staticLoad (wheel w)) ^ (1 / q.p) := by
      rw [hdist w hw]
      ring
    rw [e, hstatic w hw]
  have hrow1 : ∀ (U : ℕ → ℝ), ∀ k < st.N, ∑ j ∈ range (c.system hash st).N, (c.system hash st).Kg k j * U j = ∑ j ∈ range st.N, st.Kg k j * U j :=
    fun U k hk => combine_row_track st.N (c.trainState hash).N st.Kg (c.trainState hash).Kg U k hk
  have hcw : ∀ w < W, ∀ d, q.train.HasDof d → contactWeight c st 0 w (st.N + q.train.dof d) =
      if TrainDof.wheelY (wheel w).1 (wheel w).2 = d then 1 else 0 := by
    intro w hw d hd
    unfold contactWeight
    rw [if_neg (by omega), Nat.add_sub_cancel_left]
    show (if q.train.dof (.wheelY (wheel w).1 (wheel w).2) = q.train.dof d then (1 : ℝ) else 0) = _
    by_cases hwd : TrainDof.wheelY (wheel w).1 (wheel w).2 = d
    · rw [if_pos hwd, if_pos (by rw [← hwd])]
    · rw [if_neg hwd, if_neg fun he => hwd (q.train.dof_inj _ _ (wheel_hasDof q.train w hw) hd he)]
  have hcf : ∀ k, contactFree c st 0 (st.N + k) = q.train.forceVector q.g k := by
    intro k
    unfold contactFree
    rw [if_neg (by omega), Nat.add_sub_cancel_left]
    rfl
  have hsol : ∀ t < q.time.length, ∀ sched us, ∀ k < (c.system hash st).N,
      ∑ j ∈ range (c.system hash st).N, (c.system hash st).Kg k j * x j = c.rhs hash st sched us t x k := by
    intro t ht sched us k hk
    rw [hrhs t ht sched us x k hk]
    have esum : ∑ w ∈ range W, contactWeight c st 0 w k * Spec.hertz q.G q.p (q.G * (-q.staticLoad (wheel w)) ^ (1 / q.p) -
        weighted (c.system hash st).N (contactWeight c st 0 w) x - q.irr w 0) = ∑ w ∈ range W, contactWeight c st 0 w k * -q.staticLoad (wheel w) :=
      sum_congr rfl fun w hw => by rw [hforce w (mem_range.mp hw)]
    rw [esum]
    rcases lt_or_ge k st.N with h | h
    · rw [hrow1 x k h, ← hutr k h]
      exact sum_congr rfl fun j hj => by rw [hx1 j (mem_range.mp hj)]
    · obtain ⟨k, rfl⟩ := Nat.exists_eq_add_of_le h
      obtain ⟨d, hd, rfl⟩ := train_exists_dof q.train k (by omega)
      have e := train_rows_stiffness (hash := hash) c hwf d hd x st
      refine Eq.trans e ?_
      rw [hcf, show (fun j => x (st.N + j)) = yt from funext hx2]
      have esum' : ∑ w ∈ range W, contactWeight c st 0 w (st.N + q.train.dof d) * -q.staticLoad (wheel w) =
          ∑ w ∈ range W, (if TrainDof.wheelY (wheel w).1 (wheel w).2 = d then 1 else 0) * -q.staticLoad (wheel w) :=
        sum_congr rfl fun w hw => by rw [hcw w (mem_range.mp hw) d hd]
      rw [esum']
      by_cases hwd : ∃ b j, d = .wheelY b j
      · obtain ⟨b, j, rfl⟩ := hwd
        have hin := (mem_wheelList q.train (b, j)).2 hd
        have hlt : q.train.wheelList.idxOf (b, j) < W := List.idxOf_lt_length_iff.2 hin
        have hget : wheel (q.train.wheelList.idxOf (b, j)) = (b, j) := by
          rw [hwheel]
          simp only
          rw [List.getD_eq_getElem _ _ hlt, List.getElem_idxOf]
        have hr : q.train.AtRest q.g q.train.numbering.next yt := fun d hd hne => hyt.2 d hd hne
        have hre := C114_reactions_partial q.train v.fits v.balanced htt q.g _ le_rfl yt hr b hd.1 j hd.2
        rw [sum_eq_single_of_mem _ (mem_range.mpr hlt)]
        · rw [hget, if_pos rfl, one_mul]
          have es : q.staticLoad (b, j) = q.train.forceVector q.g (q.train.dof (.wheelY b j)) -
              matForce q.train.numbering.next q.train.stiffness yt (q.train.dof (.wheelY b j)) := by
            unfold TrackRide.staticLoad
            simp only
            rw [hre]
            rfl
          rw [es]
          show matForce q.train.numbering.next q.train.stiffness yt (q.train.dof (.wheelY b j)) = _
          ring
        · intro w hw hne
          rw [if_neg, zero_mul]
          intro he
          injection he with h1 h2
          refine hne ?_
          rw [← hidx w (mem_range.mp hw)]
          congr 1
          exact Prod.ext h1 h2
      · push Not at hwd
        rw [sum_eq_zero fun w _ => by rw [if_neg fun he => hwd _ _ he.symm, zero_mul], add_zero]
        exact hyt.2 d hd hwd
  refine ⟨x, hsol, ?_, ?_⟩
  · intro t ht w hw
    rw [show contactWeight c st t w = contactWeight c st 0 w from funext (hweight t ht w hw), hdist w hw]
  · intro t ht sched us z hz
    set D : ℕ → ℝ := z - x with hD
    set F : (ℕ → ℝ) → ℕ → ℝ := fun U w => Spec.hertz q.G q.p (q.G * (-q.staticLoad (wheel w)) ^ (1 / q.p) -
      weighted (c.system hash st).N (contactWeight c st 0 w) U - q.irr w 0) with hF
    have hform : form (c.system hash st).N (c.system hash st).Kg D D = ∑ w ∈ range W, (F z w - F x w) *
        (weighted (c.system hash st).N (contactWeight c st 0 w) z - weighted (c.system hash st).N (contactWeight c st 0 w) x) := by
      rw [form_rows]
      have e : ∀ k ∈ range (c.system hash st).N, D k * ∑ j ∈ range (c.system hash st).N, (c.system hash st).Kg k j * D j =
          ∑ w ∈ range W, (F z w - F x w) * (contactWeight c st 0 w k * D k) := by
        intro k hk
        have hk := mem_range.mp hk
        have e1 : ∑ j ∈ range (c.system hash st).N, (c.system hash st).Kg k j * D j =
            ∑ w ∈ range W, (contactWeight c st 0 w k * F z w - contactWeight c st 0 w k * F x w) := by
          have h := weighted_sub (N := (c.system hash st).N) ((c.system hash st).Kg k) z x
          unfold weighted at h
          rw [hD, h, hz k hk, hsol t ht sched us k hk, hrhs t ht sched us z k hk, hrhs t ht sched us x k hk, sum_sub_distrib]
          ring
        rw [e1, mul_sum]
        exact sum_congr rfl fun w _ => by ring
      rw [sum_congr rfl e, sum_comm]
      refine sum_congr rfl fun w _ => ?_
      rw [← mul_sum, ← weighted_sub]
      rfl
    have hterm : ∀ w ∈ range W, (F z w - F x w) *
        (weighted (c.system hash st).N (contactWeight c st 0 w) z - weighted (c.system hash st).N (contactWeight c st 0 w) x) ≤ 0 := by
      intro w _
      rcases le_total (weighted (c.system hash st).N (contactWeight c st 0 w) z) (weighted (c.system hash st).N (contactWeight c st 0 w) x) with h | h
      · have := hertz_monotone v.coefficient y.power (show q.G * (-q.staticLoad (wheel w)) ^ (1 / q.p) -
          weighted (c.system hash st).N (contactWeight c st 0 w) x - q.irr w 0 ≤ q.G * (-q.staticLoad (wheel w)) ^ (1 / q.p) -
          weighted (c.system hash st).N (contactWeight c st 0 w) z - q.irr w 0 by linarith)
        exact mul_nonpos_of_nonneg_of_nonpos (sub_nonneg.2 this) (sub_nonpos.2 h)
      · have := hertz_monotone v.coefficient y.power (show q.G * (-q.staticLoad (wheel w)) ^ (1 / q.p) -
          weighted (c.system hash st).N (contactWeight c st 0 w) z - q.irr w 0 ≤ q.G * (-q.staticLoad (wheel w)) ^ (1 / q.p) -
          weighted (c.system hash st).N (contactWeight c st 0 w) x - q.irr w 0 by linarith)
        exact mul_nonpos_of_nonpos_of_nonneg (sub_nonpos.2 this) (sub_nonneg.2 h)
    have hform0 : form (c.system hash st).N (c.system hash st).Kg D D = 0 :=
      le_antisymm (by rw [hform]; exact sum_nonpos hterm) (pass.stiff D)
    have hzero : ∀ w < W, weighted (c.system hash st).N (contactWeight c st 0 w) z = weighted (c.system hash st).N (contactWeight c st 0 w) x := by
      intro w hw
      have h0 := (sum_eq_zero_iff_of_nonpos hterm).mp (hform.symm.trans hform0) w (mem_range.mpr hw)
      rcases mul_eq_zero.mp h0 with h1 | h1
      · have h2 : F z w = Spec.hertz q.G q.p (q.G * (-q.staticLoad (wheel w)) ^ (1 / q.p)) := by
          rw [sub_eq_zero.mp h1, hstatic w hw]
          exact hforce w hw
        have hpos : 0 < q.G * (-q.staticLoad (wheel w)) ^ (1 / q.p) := by
          have h3 : 0 < -q.staticLoad (wheel w) := by linarith [hload _ (hmem w hw)]
          have := v.coefficient
          positivity
        have h3 := hertz_injective v.coefficient y.power hpos h2
        rw [hdist w hw]
        linarith
      · exact sub_eq_zero.mp h1
    have htrack : ∀ k < st.N, z k = x k := by
      have h1 : form st.N st.Kg D D = 0 := by
        have e := form_combine st.N (c.trainState hash).N st.Kg (c.trainState hash).Kg D
        have h2 := (o.stiff D).1
        have h3 := (train_passive (hash := hash) c hwf.separated hwf.massive v.fits v.balanced y.springs).stiff fun j => D (st.N + j)
        have h4 := e.symm.trans hform0
        linarith
      intro k hk
      have := (o.stiff D).2 h1 k hk
      rw [hD] at this
      exact sub_eq_zero.mp this
    have hrest : q.train.RestsOn (fun d => q.train.forceVector q.g (q.train.dof d))
        (fun b j => rail (q.train.wheelList.idxOf (b, j)) - q.irr (q.train.wheelList.idxOf (b, j)) 0) fun j => z (st.N + j) := by
      refine ⟨fun b j hbj => ?_, fun d hd hne => ?_⟩
      · have hin := (mem_wheelList q.train (b, j)).2 hbj
        have hlt : q.train.wheelList.idxOf (b, j) < W := List.idxOf_lt_length_iff.2 hin
        have hget : wheel (q.train.wheelList.idxOf (b, j)) = (b, j) := by
          rw [hwheel]
          simp only
          rw [List.getD_eq_getElem _ _ hlt, List.getElem_idxOf]
        have h1 := hzero _ hlt
        rw [hdist _ hlt, contact_distance c hwf st hst 0 _ hlt, hdisp _ z ut fun k hk => (htrack k hk).trans (hx1 k hk)] at h1
        have h1 : z (st.N + q.train.dof (.wheelY (wheel (q.train.wheelList.idxOf (b, j))).1 (wheel (q.train.wheelList.idxOf (b, j))).2)) -
          rail (q.train.wheelList.idxOf (b, j)) = -q.irr (q.train.wheelList.idxOf (b, j)) 0 := h1
        rw [hget] at h1
        linarith
      · have hlt := q.train.dof_lt d hd
        have e := train_rows_stiffness (hash := hash) c hwf d hd z st
        have hk : st.N + q.train.dof d < (c.system hash st).N := by omega
        have h1 := hz (st.N + q.train.dof d) hk
        have h2 : ∑ w ∈ range W, contactWeight c st 0 w (st.N + q.train.dof d) * Spec.hertz q.G q.p (q.G * (-q.staticLoad (wheel w)) ^ (1 / q.p) -
            weighted (c.system hash st).N (contactWeight c st 0 w) z - q.irr w 0) = 0 := sum_eq_zero fun w hw => by
          rw [hcw w (mem_range.mp hw) d hd, if_neg fun he => hne _ _ he.symm, zero_mul]
        rw [hrhs t ht sched us z _ hk, hcf, h2, add_zero] at h1
        exact e.symm.trans h1
    intro k hk
    rcases lt_or_ge k st.N with h | h
    · exact htrack k h
    · obtain ⟨k, rfl⟩ := Nat.exists_eq_add_of_le h
      obtain ⟨d, hd, rfl⟩ := train_exists_dof q.train k (by omega)
      rw [hx2]
      exact hyu _ hrest d hd


/-- What rows without velocities and accelerations say about the unknowns. -/
theorem still_unknowns (c : CoupledRun ℝ) (hc : c.WellFormed) (st : TrimState ℝ) (hst : c.loadedTrack.input.initialise freshFlags = .ok st)
    (U : ℕ → ℝ) (track : ∀ n ∈ st.nodes, reportedRow U n = 0)
    (train : ∀ n ∈ ((c.trainState hash).nodes.map fun n => ({ n with idx := shiftDofs st.N n.idx } : DofNode)), reportedRow U n = 0) :
    ∀ k < (c.system hash st).N, U k = 0 := by
  obtain ⟨n1, -, -⟩ := C102_trimmed_partial hash c.train c.start c.g hc.separated hc.massive
  have n1 : (c.trainState hash).N = c.train.numbering.next := n1
  have hN : (c.system hash st).N = st.N + c.train.numbering.next := by rw [← n1]; rfl
  obtain ⟨r1, -, -⟩ := C106_representable c.loadedTrack.input freshFlags st hst
  intro k hk
  rcases lt_or_ge k st.N with h | h
  · obtain ⟨⟨i, d⟩, he, -⟩ := r1 k h
    unfold equationOf at he
    simp only at he
    cases hn : st.nodes[i]? with
    | none => rw [hn] at he; simp at he
    | some n =>
      rw [hn] at he
      have := congrFun (track n (List.mem_of_getElem? hn)) d
      unfold reportedRow at this
      simp only [Option.bind_some] at he
      rw [he] at this
      exact this
  · obtain ⟨k, rfl⟩ := Nat.exists_eq_add_of_le h
    obtain ⟨d, hd, rfl⟩ := train_exists_dof c.train k (by omega)
    set rows : List (NodeRow ℝ) := ((c.trainState hash).nodes.map fun n => ({ n with idx := shiftDofs st.N n.idx } : DofNode)).map fun n =>
      ⟨reportedRow U n, 0, 0⟩ with hrows
    rw [← reportedDof_eq hash c hc.separated hc.massive st.N rows NodeRow.displacement U (by rw [hrows, List.map_map]; rfl) d hd]
    have hz : ∀ row ∈ rows, row.displacement = 0 := by
      intro row hrow
      rw [hrows, List.mem_map] at hrow
      obtain ⟨n, hn, rfl⟩ := hrow
      exact train n hn
    unfold Spec.reportedDof CoupledRun.partRow
    simp only
    cases hr : rows[(c.train.initialMesh hash c.start).mesh.idxOf ((c.train.initialMesh hash c.start).node (Spec.partOf d))]? with
    | none => rfl
    | some row =>
      simp only [Option.map_some, Option.getD_some]
      rw [hz row (List.mem_of_getElem? hr)]
      rfl

theorem systemWork_noDisplacement (matrix : AssemblyPart ℝ → Option (ℕ × ℕ → ℝ)) (ps : List (AssemblyPart ℝ)) (δ : Spec.NodalField ℝ) :
    Spec.systemWork matrix ps δ (fun _ _ => 0) = 0 := by
  have hp : ∀ (p : AssemblyPart ℝ) a, Spec.partWork p a δ (fun _ _ => 0) = 0 := by
    intro p a
    unfold Spec.partWork
    split_ifs
    · simp [Spec.localWork]
    · have hin : ∀ (x y : ℝ) e, Spec.inElementAxes x y (fun _ _ => (0 : ℝ)) e = fun _ _ => 0 := by
        intro x y e
        funext i d
        fin_cases d <;> simp [Spec.inElementAxes]
      simp [Spec.localWork, hin]
  unfold Spec.systemWork
  refine List.sum_eq_zero fun x hx => ?_
  obtain ⟨p, -, rfl⟩ := List.mem_map.mp hx
  cases matrix p with
  | none => rfl
  | some a => exact hp p a

theorem springForceAt_still (t : Train ℝ) (e : TrainDof) : springForceAt t (fun _ => 0) e = 0 := by
  have h1 : ∀ (f : ℕ × ℝ × ℝ → ℝ) (_ : ∀ a b, f (a, b, 0) = 0) i (c : Cart ℝ), ((cartSprings (fun _ => (0 : ℝ)) i c).map f).sum = 0 := by
    intro f hf i c
    refine List.sum_eq_zero fun x hx => ?_
    obtain ⟨p, hp, rfl⟩ := List.mem_map.mp hx
    obtain ⟨r, -, rfl⟩ := List.mem_map.mp hp
    simp [hf]
  have h2 : ∀ (f : ℕ × ℝ × ℝ → ℝ) (_ : ∀ a b, f (a, b, 0) = 0) i (c : Bogie ℝ), ((bogieSprings (fun _ => (0 : ℝ)) i c).map f).sum = 0 := by
    intro f hf i c
    refine List.sum_eq_zero fun x hx => ?_
    obtain ⟨p, hp, rfl⟩ := List.mem_map.mp hx
    obtain ⟨r, -, rfl⟩ := List.mem_map.mp hp
    simp [hf]
  cases e with
  | cartY i =>
    simp only [springForceAt]
    cases t.carts[i]? with
    | none => simp
    | some c => simpa using h1 (fun p => p.2.2) (by simp) i c
  | cartRot i =>
    simp only [springForceAt]
    cases t.carts[i]? with
    | none => simp
    | some c => simpa using h1 (fun p => p.2.1 * p.2.2) (by simp) i c
  | bogieY b =>
    simp only [springForceAt]
    rw [h2 (fun p => p.2.2) (by simp), zero_sub, neg_eq_zero, sum_flat]
    refine List.sum_eq_zero fun x hx => ?_
    obtain ⟨i, -, rfl⟩ := List.mem_map.mp hx
    cases t.carts[i]? with
    | none => simp
    | some c => simpa using h1 (fun p => if p.1 = b then p.2.2 else 0) (by simp) i c
  | bogieRot b =>
    simp only [springForceAt]
    rw [h2 (fun p => p.2.1 * p.2.2) (by simp), neg_zero]
  | wheelY b j =>
    simp only [springForceAt]
    rw [h2 (fun p => if p.1 = j then p.2.2 else 0) (by simp), neg_zero]

theorem fieldOfRows_still (x : List (Fin 3 → ℝ)) : Spec.fieldOfRows (Spec.stillRows x) NodeRow.velocity = (fun _ _ => 0) ∧
    Spec.fieldOfRows (Spec.stillRows x) NodeRow.acceleration = (fun _ _ => 0) := by
  constructor <;> funext i d <;> unfold Spec.fieldOfRows Spec.stillRows <;> rw [List.getElem?_map] <;> cases x[i]? <;> rfl

theorem reportedDof_still (x : List (Fin 3 → ℝ)) : Spec.reportedDof (q.partRow hash (Spec.stillRows x)) NodeRow.velocity = (fun _ => 0) ∧
    Spec.reportedDof (q.partRow hash (Spec.stillRows x)) NodeRow.acceleration = (fun _ => 0) := by
  have h1 : ∀ (o : Option (Fin 3 → ℝ)) d, ((o.map fun u => (⟨u, 0, 0⟩ : NodeRow ℝ)).map NodeRow.velocity).getD 0 d = 0 := by
    intro o d
    cases o <;> rfl
  have h2 : ∀ (o : Option (Fin 3 → ℝ)) d, ((o.map fun u => (⟨u, 0, 0⟩ : NodeRow ℝ)).map NodeRow.acceleration).getD 0 d = 0 := by
    intro o d
    cases o <;> rfl
  constructor <;> funext e <;> unfold Spec.reportedDof TrackRide.partRow Spec.stillRows <;> simp only [List.getElem?_map]
  · exact h1 _ _
  · exact h2 _ _

/-- A standing train has one position of rest, in which it stays. -/
theorem standingOn (v : q.Runs m' l) (y : q.Steady) (nodes : List ℕ) (R : ℕ → RailWheel ℝ)
    (hwf : (q.runOn sys nodes R).WellFormed) (hfacts : ∀ t < q.time.length, q.Contacts m l R t) (hheld : HeldMoving sys)
    (stand : Spec.Standing q) (hsp : q.train.Sprung) (htt : q.train.TwoAndTwo) (hload : ∀ w ∈ q.train.wheelList, q.staticLoad w < 0) :
    ∃ p u₀, Spec.RestsUnderWeight hash q sys l m (fun k => q.track.position (q.track.rail.getD k 0)) p ∧
      (∀ β γ times solver, 0 ≤ β → 0 ≤ γ → times ≤ q.time.length → StepsOf hash (q.runOn sys nodes R) β γ q.time times u₀ 0 solver →
        ∃ res, (q.runOn sys nodes R).main hash freshFlags times solver = .ok res ∧ Spec.StaysIn res times p) ∧
      ∀ times solver res, times ≤ q.time.length → (∀ st, (q.runOn sys nodes R).loadedTrack.input.initialise freshFlags = .ok st →
        Spec.SolvesCoupled ((q.runOn sys nodes R).system hash st) ((q.runOn sys nodes R).rhs hash st) times
          (solver ((q.runOn sys nodes R).system hash st) ((q.runOn sys nodes R).rhs hash st))) →
        (q.runOn sys nodes R).main hash freshFlags times solver = .ok res → ∀ t < times, Spec.StillAt res t → Spec.IsAt res t p := by
  set c := q.runOn sys nodes R with hc
  have hlen : 0 < q.time.length := List.length_pos_of_ne_nil v.nonempty
  obtain ⟨st, hst, o⟩ := hheld.moves (c.loadedTrack.timed.map TimedLoad.initial)
  have hst : c.loadedTrack.input.initialise freshFlags = .ok st := hst
  obtain ⟨x, hx, hirr, hu⟩ := standing_solution (hash := hash) v y nodes R hwf hfacts stand hsp htt hload st hst o
  rw [← hc] at hx hirr hu
  have pass := coupled_passive (hash := hash) c hwf.separated hwf.massive v.fits v.balanced y.springs y.damped st o.passive
  set tn := ((c.trainState hash).nodes.map fun n => ({ n with idx := shiftDofs st.N n.idx } : DofNode)) with htn
  let still : TrimState ℝ → (List (ℕ × List (ℕ → ℝ)) → List (ℕ → ℝ) → ℕ → (ℕ → ℝ) → ℕ → ℝ) → SolverOutput ℝ := fun _ _ => ⟨fun _ => x, 0, 0⟩
  have hmain : ∀ times, c.main hash freshFlags times still = .ok ⟨st, (List.range times).map fun _ => Spec.stillRows (st.nodes.map (reportedRow x)),
      (List.range times).map fun _ => Spec.stillRows (tn.map (reportedRow x))⟩ := by
    intro times
    rw [main_reported c times still st hst ⟨fun _ => x, 0, 0⟩ rfl]
    simp only [Spec.stillRows, List.map_map, Function.comp_def, Pi.zero_apply, reportedRow_zero, htn]
  have hsolves : ∀ times ≤ q.time.length, Spec.SolvesCoupled (c.system hash st) (c.rhs hash st) times ⟨fun _ => x, 0, 0⟩ := by
    intro times htimes t ht
    refine ⟨[], [], fun k hk => ?_⟩
    rw [← hx t (by omega) [] [] k hk]
    refine sum_congr rfl fun j _ => ?_
    simp
  refine ⟨⟨st.nodes.map (reportedRow x), tn.map (reportedRow x)⟩, x, ?_, ?_, ?_⟩
  · obtain ⟨res, hres, hl1, hl2, laws⟩ := v.lawsOn hash nodes R hwf hfacts 1 hlen still fun st' hst' => by
      rw [← hc] at hst' ⊢
      rw [hst, Except.ok.injEq] at hst'
      subst hst'
      exact hsolves 1 hlen
    rw [← hc] at hres
    have hres' := hmain 1
    rw [show c.main hash freshFlags 1 still = .ok res from hres, Except.ok.injEq] at hres'
    subst hres'
    obtain ⟨-, a1, -, -, a2, a3⟩ := laws 0 (by simp) (by simp)
    have hX : ∀ w, Spec.wheelX q.time q.vel (q.startOf (q.train.wheelList.getD w (0, 0))) 0 = q.startOf (q.train.wheelList.getD w (0, 0)) :=
      fun w => standing_wheelX stand _ 0
    simp only [List.getElem_map, hX, (fieldOfRows_still _).1, (fieldOfRows_still _).2, (reportedDof_still _).1, (reportedDof_still _).2,
      systemWork_noDisplacement, springForceAt_still] at a1 a2 a3
    have hwheels : ∀ w < q.train.wheelList.length,
        Spec.reportedDof (q.partRow hash (Spec.stillRows (tn.map (reportedRow x)))) NodeRow.displacement
          (.wheelY (q.train.wheelList.getD w (0, 0)).1 (q.train.wheelList.getD w (0, 0)).2) =
        Spec.railDeflection l m (fun k => q.track.position (q.track.rail.getD k 0))
          (Spec.fieldOfRows (Spec.stillRows (st.nodes.map (reportedRow x))) NodeRow.displacement)
          (q.startOf (q.train.wheelList.getD w (0, 0))) - q.irr w 0 := by
      intro w hw
      have h1 := hirr 0 hlen w hw
      rw [contact_distance c hwf st hst 0 w hw] at h1
      have h2 := reportedDof_eq hash c hwf.separated hwf.massive st.N (Spec.stillRows (tn.map (reportedRow x))) NodeRow.displacement x
        (by simp [Spec.stillRows, List.map_map, Function.comp_def, htn]) _ (wheel_hasDof c.train w hw)
      have ru : RepresentsField c.track.system.n st.nodes x (Spec.fieldOfRows (Spec.stillRows (st.nodes.map (reportedRow x))) NodeRow.displacement) :=
        reported_represents _ _ _ _ _ (by simp [Spec.stillRows, List.map_map, Function.comp_def])
      have h3 := dispAtWheel_eq c.track.system.n st.nodes x _ ru (c.rail w) 0 (hwf.rail w 0).1 (hwf.rail w 0).2
      have h4 := (hfacts 0 hlen).2.1 w hw (Spec.fieldOfRows (Spec.stillRows (st.nodes.map (reportedRow x))) NodeRow.displacement)
      rw [hX w] at h4
      rw [← h4]
      refine Eq.trans h2 ?_
      have h5 : Spec.railAt (R w) 0 (Spec.fieldOfRows (Spec.stillRows (st.nodes.map (reportedRow x))) NodeRow.displacement) = _ := h3.symm
      rw [h5]
      linarith
    have hforce : ∀ w < q.train.wheelList.length, Spec.hertz q.G q.p (q.G * (-q.staticLoad (q.train.wheelList.getD w (0, 0))) ^ (1 / q.p) +
        Spec.railDeflection l m (fun k => q.track.position (q.track.rail.getD k 0))
          (Spec.fieldOfRows (Spec.stillRows (st.nodes.map (reportedRow x))) NodeRow.displacement)
          (q.startOf (q.train.wheelList.getD w (0, 0))) -
        Spec.reportedDof (q.partRow hash (Spec.stillRows (tn.map (reportedRow x)))) NodeRow.displacement
          (.wheelY (q.train.wheelList.getD w (0, 0)).1 (q.train.wheelList.getD w (0, 0)).2) - q.irr w 0) =
        -q.staticLoad (q.train.wheelList.getD w (0, 0)) := by
      intro w hw
      rw [hwheels w hw]
      have hm : q.train.wheelList.getD w (0, 0) ∈ q.train.wheelList := by
        rw [List.getD_eq_getElem _ _ hw]
        exact List.getElem_mem hw
      have e := hertz_static v.coefficient y.power (show 0 < -q.staticLoad (q.train.wheelList.getD w (0, 0)) by linarith [hload _ hm])
      refine Eq.trans ?_ e
      congr 1
      ring
    refine ⟨a1, fun δ hδ => ?_, fun e he => ?_, hwheels⟩
    · have h1 := a2 δ hδ
      have h2 : Spec.rayleighWork sys δ (fun _ _ => 0) = 0 := by
        unfold Spec.rayleighWork
        simp [systemWork_noDisplacement]
      rw [h2] at h1
      simp only [mul_zero, add_zero, zero_add] at h1
      rw [h1, ← sum_neg_distrib]
      refine sum_congr rfl fun w hw => ?_
      rw [hforce w (mem_range.mp hw)]
      ring
    · have h1 := a3 e he
      simp only [mul_zero, add_zero, sub_zero] at h1
      have h2 : ∀ f : ℕ → ℝ, (∀ w < q.train.wheelList.length, f w = -q.staticLoad (q.train.wheelList.getD w (0, 0))) →
          ∑ w ∈ range q.train.wheelList.length, (if TrainDof.wheelY (q.train.wheelList.getD w (0, 0)).1 (q.train.wheelList.getD w (0, 0)).2 = e
            then f w else 0) =
          ∑ w ∈ range q.train.wheelList.length, (if TrainDof.wheelY (q.train.wheelList.getD w (0, 0)).1 (q.train.wheelList.getD w (0, 0)).2 = e
            then -q.staticLoad (q.train.wheelList.getD w (0, 0)) else 0) := fun f hf =>
        sum_congr rfl fun w hw => by rw [hf w (mem_range.mp hw)]
      rw [h2 _ hforce] at h1
      linarith
  · intro β γ times solver hβ hγ htimes hs
    have law : ∀ t < times, ∀ w < c.train.wheelList.length, Continuous ((c.rail w).law t) ∧ Antitone ((c.rail w).law t) := by
      intro t ht w hw
      obtain ⟨κ, hκ⟩ := (hfacts t (by omega)).law w hw
      have e : (c.rail w).law t = fun x => Spec.hertz q.G q.p (κ - x) := funext hκ
      rw [e]
      exact ⟨(hertz_continuous v.coefficient y.power).comp (continuous_const.sub continuous_id),
        fun x y' hxy => hertz_monotone v.coefficient y.power (by linarith)⟩
    have f := fun sched us => coupled_forces (hash := hash) c hwf st hst times (fun t ht => (hfacts t (by omega)).1)
      (fun t ht w hw => (law t ht w hw).1) (fun t ht w hw => (law t ht w hw).2) sched us
    obtain ⟨u, w, a, -, -, -, -, unique⟩ := (f (fun _ => []) fun _ => []).steps pass hβ hγ (fun n => q.time.getD (n + 1) 0 - q.time.getD n 0)
      (fun n hn => by linarith [y.time n (by omega)]) x 0
    have U0 := unique (fun _ => x) 0 0 (fun t ht k hk => by
        rw [← hx t (by omega) [] [] k hk]
        exact sum_congr rfl fun j _ => by simp) (fun n hn k hk => by simp) (fun n hn k hk => by simp) fun k hk => by simp
    have hcongr := main_congr (hash := hash) c times solver still fun st' hst' n hn k hk => by
      rw [hst, Except.ok.injEq] at hst'
      subst hst'
      have S := hs st hst
      have U1 := unique _ _ _ (fun t ht k hk => by
        obtain ⟨sched, us, hb⟩ := S.balance t ht
        rw [hb k hk]
        have e1 := (f (fun _ => sched) fun _ => us).rhs_eq t ht ((solver (c.system hash st) (c.rhs hash st)).u t) k hk
        have e2 := (f (fun _ => []) fun _ => []).rhs_eq t ht ((solver (c.system hash st) (c.rhs hash st)).u t) k hk
        exact e1.trans e2.symm) S.displacement S.velocity S.start n hn k hk
      have U2 := U0 n hn k hk
      exact ⟨U1.1.trans U2.1.symm, U1.2.1.trans U2.2.1.symm, U1.2.2.trans U2.2.2.symm⟩
    refine ⟨_, hcongr.trans (hmain times), fun t ht => ?_⟩
    simp [ht]
  · intro times solver res htimes hs hres t ht hstill
    obtain ⟨out, hout⟩ : ∃ out, solver (c.system hash st) (c.rhs hash st) = out := ⟨_, rfl⟩
    have hb := hs st hst
    rw [hout] at hb
    rw [main_reported c times solver st hst out hout, Except.ok.injEq] at hres
    subst hres
    obtain ⟨track, train, e1, e2, hz⟩ := hstill
    simp only [List.getElem?_map, List.getElem?_range ht, Option.map_some, Option.some.injEq] at e1 e2
    subst e1 e2
    have hv0 := still_unknowns (hash := hash) c hwf st hst (out.v t)
      (fun n hn => (hz _ (List.mem_append_left _ (List.mem_map.mpr ⟨n, hn, rfl⟩))).1)
      (fun n hn => (hz _ (List.mem_append_right _ (List.mem_map.mpr ⟨n, hn, rfl⟩))).1)
    have ha0 := still_unknowns (hash := hash) c hwf st hst (out.a t)
      (fun n hn => (hz _ (List.mem_append_left _ (List.mem_map.mpr ⟨n, hn, rfl⟩))).2)
      (fun n hn => (hz _ (List.mem_append_right _ (List.mem_map.mpr ⟨n, hn, rfl⟩))).2)
    obtain ⟨sched, us, hb⟩ := hb t ht
    have hux := hu t (by omega) sched us (out.u t) fun k hk => by
      rw [← hb k hk]
      refine sum_congr rfl fun j hj => ?_
      rw [hv0 j (mem_range.mp hj), ha0 j (mem_range.mp hj)]
      ring
    have hrow : ∀ n : DofNode, (∀ d k, n.idx d = some k → k < (c.system hash st).N) → reportedRow (out.u t) n = reportedRow x n := by
      intro n hn
      funext d
      unfold reportedRow
      cases hk : n.idx d with
      | none => rfl
      | some k => exact hux k (hn d k hk)
    have hN : (c.system hash st).N = st.N + (c.trainState hash).N := rfl
    constructor
    · simp only [List.getElem?_map, List.getElem?_range ht, Option.map_some, List.map_map, Option.some.injEq]
      refine List.map_congr_left fun n hn => hrow n fun d k hk => ?_
      obtain ⟨i, hi'⟩ := mem_equation hn hk
      have := ((C106_representable c.loadedTrack.input freshFlags st hst).2.1 i d k hi').2
      omega
    · simp only [List.getElem?_map, List.getElem?_range ht, Option.map_some, Option.some.injEq]
      rw [List.map_map]
      refine List.map_congr_left fun n hn => hrow n fun d k hk => ?_
      rw [List.mem_map] at hn
      obtain ⟨m, hm, rfl⟩ := hn
      simp only [shiftDofs, Option.map_eq_some_iff] at hk
      obtain ⟨o, ho, rfl⟩ := hk
      obtain ⟨i, hi⟩ := mem_equation hm ho
      have := trimmed_lt _ i d o hi
      change o < (c.trainState hash).N at this
      omega

/-- Specification: the train standing on the track of the calculation `c` has one position of rest `p`, in equilibrium under the weight of the train. Started
in it, with every solver that makes the time steps, the results stay in `p`. Whenever the results of a solver that satisfies the equations
have no velocities and accelerations, they are in `p`. -/
def Spec.OneRest (hash : (Fin 3 → ℝ) → H) (q : TrackRide) (sys : SystemInput ℝ) (l : ℝ) (count : ℕ) (node : ℕ → ℕ) (c : CoupledRun ℝ)
    (main : ℕ → (TrimState ℝ → (List (ℕ × List (ℕ → ℝ)) → List (ℕ → ℝ) → ℕ → (ℕ → ℝ) → ℕ → ℝ) → SolverOutput ℝ) →
      Except Err (CoupledResult ℝ)) : Prop :=
  ∃ p u₀, Spec.RestsUnderWeight hash q sys l count node p ∧
    (∀ β γ times solver, 0 ≤ β → 0 ≤ γ → times ≤ q.time.length → StepsOf hash c β γ q.time times u₀ 0 solver →
      ∃ res, main times solver = .ok res ∧ Spec.StaysIn res times p) ∧
    ∀ times solver res, times ≤ q.time.length → (∀ st, c.loadedTrack.input.initialise freshFlags = .ok st →
      Spec.SolvesCoupled (c.system hash st) (c.rhs hash st) times (solver (c.system hash st) (c.rhs hash st))) →
      main times solver = .ok res → ∀ t < times, Spec.StillAt res t → Spec.IsAt res t p

variable {n r k : ℕ} {d h : ℝ} {segments : List (ℕ × ℝ)} {soils : List (RodValues ℝ)}

/-- **C184** A train that stands on a generated track has one position of rest. -/
theorem C184_track (v : q.Valid hash n r d h) (hn : 2 ≤ n) (hheld : q.held = true) (hv : q.values.Valid) (hm : q.values.NonNeg)
    (hR : q.values.Rayleigh) (y : q.Steady) (stand : Spec.Standing q) (hsp : q.train.Sprung) (htt : q.train.TwoAndTwo)
    (hload : ∀ w ∈ q.train.wheelList, q.staticLoad w < 0) :
    ∃ sys c, q.track.system q.values q.held = .ok sys ∧ q.coupled = .ok c ∧
      Spec.OneRest hash q sys (d / r) (n * r) (fun k => q.track.position (q.track.rail.getD k 0)) c (q.main hash) := by
  have g := v.generated
  obtain ⟨R, hc, hwf, hfacts⟩ := v.runs.run g.even (g.placedRail q.values q.held)
  have hq : q.coupled = .ok (q.runWith (generatedInput q.track n r d q.values q.held) R) := by rw [v.coupled_eq]; exact hc
  refine ⟨_, _, g.system q.values q.held, hq, ?_⟩
  obtain ⟨p, u₀, h1, h2, h3⟩ := standingOn (hash := hash) v.runs y _ R hwf hfacts (by
    rw [hheld]
    exact g.heldMoving hn g.r_pos hv hm hR) stand hsp htt hload
  have hmain : ∀ times solver, q.main hash times solver =
      (q.runWith (generatedInput q.track n r d q.values q.held) R).main hash freshFlags times solver := by
    intro times solver
    unfold TrackRide.main
    simp only [bind, Except.bind, hq]
    rfl
  refine ⟨p, u₀, h1, fun β γ times solver a b e f => ?_, fun times solver res a b e => ?_⟩
  · rw [hmain]
    exact h2 β γ times solver a b e f
  · rw [hmain] at e
    exact h3 times solver res a b e

/-- **C184** The same on a track that is combined from segments. -/
theorem C184_combined (v : q.ValidOn r d segments soils) (hheld : q.held = true)
    (hm : ∀ w ∈ soils, ({ q.values with soil := w } : TrackValues).NonNeg) (hR : q.values.Rayleigh) (y : q.Steady) (length : ℝ)
    (stand : Spec.Standing q) (hsp : q.train.Sprung) (htt : q.train.TwoAndTwo) (hload : ∀ w ∈ q.train.wheelList, q.staticLoad w < 0) :
    ∃ c sys run, combinedTrack hash r d segments = .ok c ∧ c.system length q.values soils q.held = .ok sys ∧
      q.coupledOnCombined c length soils = .ok run ∧
      Spec.OneRest hash q sys (d / r) (railCount r segments) (fun k => (c.numbered length).position ((c.numbered length).rail.getD k 0)) run
        (q.mainOnCombined hash c length soils) := by
  obtain ⟨c, sys, hc, sound, hsys, hp, hrun⟩ := v.track hash length
  obtain ⟨R, hco, hwf, hfacts⟩ := (v.runs.withTrack (c.numbered length)).run (sound.even length) hp
  rw [← hrun] at hco
  have held : HeldMoving sys := by
    have hs' : c.soils.length ≤ soils.length := by
      obtain ⟨c', hc', -, -, -, -, -, -, -, hlen, -⟩ := C136_structure hash v.good
      rw [hc] at hc'
      cases hc'
      have := v.enough
      omega
    obtain ⟨x, y, hx, hy, hsys''⟩ := sound.system length q.values soils hs' q.held
    rw [hsys, hheld] at hsys''
    injection hsys'' with hsys''
    subst hsys''
    exact sound.heldMoving q.values soils hs' v.values hm hR x y (List.mem_of_head? hx) (List.mem_of_getLast? hy)
  refine ⟨c, sys, _, hc, hsys, hco, ?_⟩
  obtain ⟨p, u₀, h1, h2, h3⟩ := standingOn (hash := hash) (q := { q with track := c.numbered length }) (v.runs.withTrack (c.numbered length))
    (y.withTrack _) _ R hwf hfacts held ⟨stand.speed, stand.irregularities⟩ hsp htt hload
  have hmain : ∀ times solver, q.mainOnCombined hash c length soils times solver =
      (TrackRide.runWith { q with track := c.numbered length } sys R).main hash freshFlags times solver := by
    intro times solver
    unfold TrackRide.mainOnCombined
    simp only [bind, Except.bind, hco]
    rfl
  refine ⟨p, u₀, ⟨h1.supports, h1.track, h1.bodies, h1.wheels⟩, fun β γ times solver a b e f => ?_, fun times solver res a b e => ?_⟩
  · rw [hmain]
    exact h2 β γ times solver a b e f
  · rw [hmain] at e
    exact h3 times solver res a b e

/-- **C184** The same on every such track with a hinge in its rail, of a fixity factor greater than 0 and at most 1, for trains that stand before the
last node before the hinge. -/
theorem C184_hinged (g : GoodSegments r d segments) (length : ℝ) (hlength : 0 < length) (hsoils : segments.length ≤ soils.length)
    (hv : ∀ w ∈ soils, ({ q.values with soil := w } : TrackValues).Valid) (hk : 2 ≤ k) (hkm : k + 3 ≤ railCount r segments)
    (near : 1 / 100000000 + 1 / 100000 * ((k : ℝ) * (d / r)) < d / r) (f : ℝ) (hf : 0 < f) (hf1 : f ≤ 1) (v : q.Runs k (d / r))
    (hheld : q.held = true) (hm : ∀ w ∈ soils, ({ q.values with soil := w } : TrackValues).NonNeg) (hR : q.values.Rayleigh) (y : q.Steady)
    (stand : Spec.Standing q) (hsp : q.train.Sprung) (htt : q.train.TwoAndTwo) (hload : ∀ w ∈ q.train.wheelList, q.staticLoad w < 0) :
    ∃ c sys run, combinedTrack hash r d segments = .ok c ∧ c.hingedSystem length q.values soils f (k * (d / r)) q.held = .ok sys ∧
      q.coupledOnHingedCombined c length soils f (k * (d / r)) = .ok run ∧
      Spec.OneRest hash q sys (d / r) (railCount r segments) (fun k => (c.numbered length).position ((c.numbered length).rail.getD k 0)) run
        (q.mainOnHingedCombined hash c length soils f (k * (d / r))) := by
  obtain ⟨c, σ, a, b, sys, hc, sound, hs'', ha, hb, hσ, hsys, hp, he, hrun⟩ := hingedCombined_track (q := q) hash g length hsoils hv hk hkm
    near f hf.le hf1
  obtain ⟨nodes, R, hcut, hwf, hfacts⟩ := (v.withTrack (c.numbered length)).beforeHinge (sound.even length) hk hkm near hp f σ hσ
  rw [← hrun] at hcut
  have held : HeldMoving sys := by
    obtain ⟨w, hw⟩ := sound.some_soil hs''
    obtain ⟨σ', hσ', hσ0⟩ := hingeStiffness_pos (hv w hw).E (hv w hw).I hlength hf hf1
    have hpos : 0 < σ := by
      have e : σ' = σ := by
        have := hσ'.symm.trans hσ
        injection this
      rw [← e]
      exact hσ0
    subst he
    rw [hheld]
    exact sound.hinged_heldMoving q.values soils hs'' hv hm hR a b ha hb hk hkm (σ / 2) (fun h => by linarith)
  refine ⟨c, sys, _, hc, hsys, hcut, ?_⟩
  obtain ⟨p, u₀, h1, h2, h3⟩ := standingOn (hash := hash) (q := { q with track := c.numbered length }) (v.withTrack (c.numbered length))
    (y.withTrack _) nodes R hwf hfacts held ⟨stand.speed, stand.irregularities⟩ hsp htt hload
  have hmain : ∀ times solver, q.mainOnHingedCombined hash c length soils f (k * (d / r)) times solver =
      (TrackRide.runOn { q with track := c.numbered length } sys nodes R).main hash freshFlags times solver := by
    intro times solver
    unfold TrackRide.mainOnHingedCombined
    simp only [bind, Except.bind, hcut]
    rfl
  refine ⟨p, u₀, ⟨h1.supports, h1.track, h1.bodies, h1.wheels⟩, fun β γ times solver a b e f => ?_, fun times solver res a b e => ?_⟩
  · rw [hmain]
    exact h2 β γ times solver a b e f
  · rw [hmain] at e
    exact h3 times solver res a b e

/-- The default trains other than the SLT are sprung and have two bogies per cart and two wheels per bogie. -/
theorem default_sprung (ty : TrainType) (hty : ty ≠ .sprinterSLT) (start : ℝ) (n : ℕ) (t : Train ℝ × List ℝ)
    (ht : setFullTrain ty start n = .ok t) : t.1.Sprung ∧ t.1.TwoAndTwo := by
  rw [setFullTrain_eq ty hty] at ht
  injection ht with ht
  subst ht
  obtain ⟨h1, h2, -⟩ := typeData_good (K := ℝ) ty hty
  have hbog : 0 < (typeData ty : TrainData ℝ).bogie := by linarith
  have hwh : 0 < (typeData ty : TrainData ℝ).wheel := by linarith
  obtain ⟨-, -, m3, -, -, -, m7, -, -⟩ := constants_positive (K := ℝ) ty hty
  obtain ⟨-, -, f3⟩ := row_statics (fun _ => ((typeData ty : TrainData ℝ), bodyData ty)) n fun _ _ => ⟨hbog, hwh⟩
  refine ⟨⟨?_, ?_⟩, f3⟩
  · intro c hc
    obtain ⟨i, hi, rfl⟩ := row_mem_cart _ n c hc
    refine ⟨m3, ?_, _, List.mem_cons_self .., _, List.mem_cons_of_mem _ (List.mem_cons_self ..), ?_⟩
    · intro f hf
      simp only [List.mem_cons, List.not_mem_nil, or_false] at hf
      rcases hf with rfl | rfl <;> exact zero_lt_one
    · simp only; intro h; linarith
  · intro b hb
    obtain ⟨i, hi, k, hk, rfl⟩ := (row_mem_bogies _ n b).1 hb
    rw [row_bogie _ n i k hi hk]
    refine ⟨m7, by simp, _, List.mem_cons_self .., _, List.mem_cons_of_mem _ (List.mem_cons_self ..), ?_⟩
    simp only; intro h; linarith

/-- The double-dekker cart of `exampleRide`, standing on the rail with its second wheel in a dip. -/
noncomputable def standingRide (track : HorizontalTrack ℝ) (t : Train ℝ × List ℝ) : TrackRide :=
  { exampleRide track t with vel := [0, 0, 0], irr := fun w _ => if w = 1 then -0.002 else 0 }

/-- The conditions are met by a double-dekker cart that stands on the soft part of a track of 60 sleepers on soft soil and 50 sleepers on stiff
soil. -/
example : ∃ t, setFullTrain .doubleDekker 20 1 = .ok t ∧ ∀ track,
    ∃ c sys run, combinedTrack (fun p : Fin 3 → ℝ => p) 2 (3 / 5) [(60, 1), (50, 3)] = .ok c ∧
      c.system (3 / 5) (standingRide track t).values [⟨10 ^ 7, none, some 1000⟩, ⟨10 ^ 9, none, none⟩] true = .ok sys ∧
      (standingRide track t).coupledOnCombined c (3 / 5) [⟨10 ^ 7, none, some 1000⟩, ⟨10 ^ 9, none, none⟩] = .ok run ∧
      Spec.OneRest (fun p : Fin 3 → ℝ => p) (standingRide track t) sys ((3 / 5) / (2 : ℕ)) (railCount 2 [(60, 1), (50, 3)])
        (fun k => (c.numbered (3 / 5)).position ((c.numbered (3 / 5)).rail.getD k 0)) run
        ((standingRide track t).mainOnCombined (fun p : Fin 3 → ℝ => p) c (3 / 5) [⟨10 ^ 7, none, some 1000⟩, ⟨10 ^ 9, none, none⟩]) := by
  obtain ⟨t, ht, hv⟩ := exampleRide_validOn
  obtain ⟨s1, s2⟩ := default_sprung .doubleDekker (by decide) 20 1 t ht
  refine ⟨t, ht, fun track => ?_⟩
  obtain ⟨w1, w2, w3, w4⟩ := default_weighs (q := standingRide track t) .doubleDekker (by decide) 20 1 (by norm_num) t.2
    (by rw [ht]; rfl) (by norm_num [standingRide, exampleRide])
  have y := exampleRide_steady track t ht
  refine C184_combined (q := standingRide track t) ?_ rfl ?_ ?_ ?_ _ ⟨?_, fun _ _ _ => rfl⟩ s1 s2 w4
  · have v := hv track
    have r := v.runs
    refine ⟨v.good, v.enough, v.values, ⟨r.bending, rfl, by simp [standingRide, exampleRide], ?_, ?_, r.start, ?_, r.apart, r.separated, r.massive, r.fits,
      r.balanced, r.pressed, r.coefficient, r.power⟩⟩
    · intro k hk
      have hk' : k + 1 < 3 := hk
      have : k < 2 := by omega
      interval_cases k <;> norm_num [standingRide]
    · intro k hk
      have hk' : k + 1 < 3 := hk
      have : k < 2 := by omega
      interval_cases k <;> norm_num [standingRide]
    · intro w hw k hk
      have hk' : k < 3 := hk
      have h0 := r.stop w hw 0 (by simp [exampleRide])
      have e : (standingRide track t).startOf w = (exampleRide track t).startOf w := rfl
      rw [e]
      refine le_trans (le_of_eq ?_) h0
      interval_cases k <;> norm_num [Spec.wheelX, Finset.sum_range_succ, standingRide, exampleRide]
  · have h := exampleTrack_nonNeg
    intro w hw
    refine ⟨h.padMass, ?_, h.sleeper, h.padDamping, ?_⟩ <;>
      simp only [List.mem_cons, List.not_mem_nil, or_false] at hw <;>
      rcases hw with rfl | rfl <;> simp
  · have h := exampleTrack_rayleigh
    exact ⟨h.ratio, h.w1, h.w2⟩
  · exact ⟨y.springs, y.damped, y.power, y.time⟩
  · intro k
    change ([0, 0, 0] : List ℝ).getD k 0 = 0
    rcases k with _ | _ | _ | k <;> simp

end Rose
