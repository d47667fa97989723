/-
C124 in terms of the bodies of the train, the power balance of a coupled calculation, examples and the load that is lost
under a wheel.
-/
import Verif.Props.CoupledRun
import Verif.Props.TrainStatics

set_option linter.unusedSectionVars false

namespace Rose
open Finset

section
variable {K : Type*} [Field K] [LinearOrder K] [IsStrictOrderedRing K]

/-! ### Dampers -/

/-- Specification: the train with its dampers in the place of its springs. -/
def Train.dampers (t : Train K) : Train K :=
  { carts := t.carts.map fun c => { c with stiffness := c.damping }
    bogie := fun b => { t.bogie b with stiffness := (t.bogie b).damping } }

theorem dampers_numbering (t : Train K) : t.dampers.numbering = t.numbering := by
  unfold Train.numbering Train.dampers
  simp only [List.map_map, Function.comp_def]

theorem dampers_dof (t : Train K) : t.dampers.dof = t.dof := by
  funext d
  unfold Train.dof
  rw [dampers_numbering]

theorem dampers_bogies (t : Train K) : t.dampers.bogies = t.bogies := by
  unfold Train.bogies Train.dampers
  simp only [List.flatMap_map]

theorem dampers_hasDof (t : Train K) (d : TrainDof) : t.dampers.HasDof d ↔ t.HasDof d := by
  cases d <;> simp only [Train.HasDof, dampers_bogies] <;> simp [Train.dampers]

theorem dampers_stiffness (t : Train K) : t.dampers.stiffness = t.damping := by
  unfold Train.stiffness Train.damping
  congr 1
  unfold Train.suspensions
  rw [dampers_bogies]
  have e1 : t.dampers.carts.length = t.carts.length := by simp [Train.dampers]
  have e2 : ∀ i, (t.dampers.carts[i]?.toList).map (t.dampers.cartSuspension Cart.stiffness i) =
      (t.carts[i]?.toList).map (t.cartSuspension Cart.damping i) := by
    intro i
    have : t.dampers.carts[i]? = (t.carts[i]?).map fun c => { c with stiffness := c.damping } := by simp [Train.dampers]
    rw [this]
    cases t.carts[i]? with
    | none => rfl
    | some c => simp [Train.cartSuspension, dampers_dof]
  have e3 : t.dampers.bogieSuspension Bogie.stiffness = t.bogieSuspension Bogie.damping := by
    funext b
    unfold Train.bogieSuspension
    rw [dampers_dof]
    rfl
  rw [e1, e3]
  congr 2
  funext i
  exact e2 i

theorem dampers_fit (t : Train K) (h : t.FactorsFit) : t.dampers.FactorsFit := by
  refine ⟨?_, ?_⟩
  · intro c hc
    simp only [Train.dampers, List.mem_map] at hc
    obtain ⟨c', hc', rfl⟩ := hc
    exact h.1 c' hc'
  · intro b hb
    rw [dampers_bogies] at hb
    exact h.2 b hb

theorem dampers_balanced (t : Train K) (h : t.Balanced) : t.dampers.Balanced := by
  refine ⟨?_, ?_⟩
  · intro c hc
    simp only [Train.dampers, List.mem_map] at hc
    obtain ⟨c', hc', rfl⟩ := hc
    exact h.1 c' hc'
  · intro b hb
    rw [dampers_bogies] at hb
    exact h.2 b hb

theorem exists_vector (t : Train K) (x : TrainDof → K) : ∃ U : ℕ → K, ∀ d, t.HasDof d → U (t.dof d) = x d := by
  classical
  refine ⟨fun k => if h : ∃ d, t.HasDof d ∧ t.dof d = k then x h.choose else 0, fun d hd => ?_⟩
  have h : ∃ e, t.HasDof e ∧ t.dof e = t.dof d := ⟨d, hd, rfl⟩
  simp only [h, dif_pos]
  rw [t.dof_inj _ d h.choose_spec.1 hd h.choose_spec.2]

theorem springForceAt_congr (t : Train K) (x y : TrainDof → K) (h : ∀ d, t.HasDof d → x d = y d) (d : TrainDof)
    (hd : t.HasDof d) : springForceAt t x d = springForceAt t y d := by
  have hcart : ∀ (i : ℕ) (c : Cart K), t.carts[i]? = some c → cartSprings x i c = cartSprings y i c := by
    intro i c hc
    unfold cartSprings
    refine List.map_congr_left fun p hp => ?_
    have hi : i < t.carts.length := (List.getElem?_eq_some_iff.mp hc).1
    have hb : p.1.1 ∈ t.bogies := by
      unfold Train.bogies
      rw [mem_distinctInOrder]
      exact List.mem_flatMap.mpr ⟨c, List.mem_of_getElem? hc, List.mem_map.mpr ⟨p.1, (List.of_mem_zip hp).1, rfl⟩⟩
    rw [h (.cartY i) hi, h (.cartRot i) hi, h (.bogieY p.1.1) hb]
  have hbog : ∀ b ∈ t.bogies, bogieSprings x b (t.bogie b) = bogieSprings y b (t.bogie b) := by
    intro b hb
    unfold bogieSprings
    refine List.map_congr_left fun p hp => ?_
    have hj : p.1 < (t.bogie b).wheels.length := List.mem_range.mp (List.of_mem_zip hp).1
    rw [h (.bogieY b) hb, h (.bogieRot b) hb, h (.wheelY b p.1) ⟨hb, hj⟩]
  have hopt : ∀ i, (t.carts[i]?.toList).flatMap (cartSprings x i) = (t.carts[i]?.toList).flatMap (cartSprings y i) := by
    intro i
    cases hc : t.carts[i]? with
    | none => rfl
    | some c => simp [hcart i c hc]
  cases d with
  | cartY i => simp only [springForceAt, hopt]
  | cartRot i => simp only [springForceAt, hopt]
  | bogieY b =>
    simp only [springForceAt, hbog b hd]
    congr 2
    refine congrArg₂ _ (funext fun i => ?_) rfl
    cases hc : t.carts[i]? with
    | none => rfl
    | some c => simp [hcart i c hc]
  | bogieRot b => simp only [springForceAt, hbog b hd]
  | wheelY b j => simp only [springForceAt, hbog b hd.1]

theorem stiffness_row (t : Train K) (hf : t.FactorsFit) (hb : t.Balanced) (x : TrainDof → K) (d : TrainDof)
    (hd : t.HasDof d) : Spec.trainRow t t.stiffness x t.allDofs d = springForceAt t x d := by
  obtain ⟨U, hU⟩ := exists_vector t x
  rw [← sum_row t t.stiffness U x hU d]
  refine (C114_spring_forces_partial t hf hb t.numbering.next le_rfl U d hd).trans ?_
  exact springForceAt_congr t _ _ hU d hd

theorem damping_row (t : Train K) (hf : t.FactorsFit) (hb : t.Balanced) (x : TrainDof → K) (d : TrainDof)
    (hd : t.HasDof d) : Spec.trainRow t t.damping x t.allDofs d = springForceAt t.dampers x d := by
  rw [← stiffness_row t.dampers (dampers_fit t hf) (dampers_balanced t hb) x d ((dampers_hasDof t d).2 hd)]
  unfold Spec.trainRow
  have : t.dampers.allDofs = t.allDofs := by
    unfold Train.allDofs
    rw [dampers_bogies]
    simp [Train.dampers]
  rw [this, dampers_dof, dampers_stiffness]

/-! ### C124 -/

/-- The loads of the track do not act on the vertical and rotational dofs of nodes under the wheels at time index `t`. -/
def ClearOfWheels (c : CoupledRun K) (t : ℕ) : Prop :=
  ∀ l ∈ Spec.loadsAt c.track.timed t, ∀ i < l.nodes.length, ∀ d : Fin 3, d ≠ 0 → l.act d = true →
    Spec.UnderWheel c.rail c.train.wheelList.length t (l.nodes.getD i 0) → (l.force.getD i fun _ => 0) d = 0

theorem loadWork_away (c : CoupledRun K) (t : ℕ) (h : ClearOfWheels c t) (δ : Spec.NodalField K) :
    Spec.loadWork (Spec.loadsAt c.track.timed t) (Spec.awayFromWheels c.rail c.train.wheelList.length t δ) =
      Spec.loadWork (Spec.loadsAt c.track.timed t) δ := by
  unfold Spec.loadWork
  congr 1
  refine List.map_congr_left fun l hl => ?_
  refine sum_congr rfl fun i hi => sum_congr rfl fun d _ => ?_
  by_cases ha : l.act d = true
  · rw [if_pos ha, if_pos ha]
    unfold Spec.awayFromWheels
    split_ifs with hu
    · rw [h l hl i (Finset.mem_range.mp hi) d hu.2 ha hu.1]
      ring
    · rfl
  · rw [if_neg ha, if_neg ha]

variable {H : Type*} [DecidableEq H] (hash : (Fin 3 → K) → H)

/-- Specification: the weight of the body at a vertical dof, nothing at a rotation. -/
def weightAt (t : Train K) (g : K) : TrainDof → K
  | .cartY i => -t.bodyInertia (.cartY i) * g
  | .bogieY b => -t.bodyInertia (.bogieY b) * g
  | .wheelY b j => -t.bodyInertia (.wheelY b j) * g
  | _ => 0

/-- **C124** The same for each body: for a train with balanced suspensions and as many distribution factors as suspended
bodies, without Rayleigh damping of the coupled system, and at a time at which no load of the track is under a wheel: in every
admissible virtual displacement of the track the loads of the track and the contact forces do the work of inertia, damping and
stiffness; mass times acceleration (inertia times angular acceleration) of every body is the sum of its weight, the forces of
the springs and dampers that are attached to it and, for a wheel, of the contact force of the rail. -/
theorem C124_bodies_partial (c : CoupledRun K) (hc : c.WellFormed) (hf : c.train.FactorsFit) (hb : c.train.Balanced)
    (hray : c.isRayleigh = false) (times : ℕ)
    (solver : TrimState K → (List (ℕ × List (ℕ → K)) → List (ℕ → K) → ℕ → (ℕ → K) → ℕ → K) → SolverOutput K)
    (hs : ∀ st, c.loadedTrack.input.initialise freshFlags = .ok st →
      Spec.SolvesCoupled (c.system hash st) (c.rhs hash st) times (solver (c.system hash st) (c.rhs hash st))) :
    ∃ r, c.main hash freshFlags times solver = .ok r ∧ r.trackRows.length = times ∧ r.trainRows.length = times ∧
      ∀ t (h1 : t < r.trackRows.length) (h2 : t < r.trainRows.length),
        DistinctElements c.rail c.train.wheelList.length t → ClearOfWheels c t →
          let u := Spec.fieldOfRows r.trackRows[t] NodeRow.displacement
          let v := Spec.fieldOfRows r.trackRows[t] NodeRow.velocity
          let a := Spec.fieldOfRows r.trackRows[t] NodeRow.acceleration
          let ut := Spec.reportedDof (c.partRow hash r.trainRows[t]) NodeRow.displacement
          let vt := Spec.reportedDof (c.partRow hash r.trainRows[t]) NodeRow.velocity
          let at' := Spec.reportedDof (c.partRow hash r.trainRows[t]) NodeRow.acceleration
          let f := fun w => Spec.wheelForce c.rail t u ut w (c.train.wheelList.getD w (0, 0))
          (∀ δ, Spec.Admissible c.track.system δ →
            Spec.systemWork AssemblyPart.mass c.track.system.parts δ a +
            (Spec.systemWork AssemblyPart.damping c.track.system.parts δ v + Spec.rayleighWork c.track.system δ v) +
            Spec.systemWork AssemblyPart.stiffness c.track.system.parts δ u =
              Spec.loadWork (Spec.loadsAt c.track.timed t) δ -
                ∑ w ∈ range c.train.wheelList.length, f w * Spec.railAt (c.rail w) t δ) ∧
          ∀ d, c.train.HasDof d →
            c.train.bodyInertia d * at' d =
              weightAt c.train c.g d - springForceAt c.train ut d - springForceAt c.train.dampers vt d +
              ∑ w ∈ range c.train.wheelList.length,
                if TrainDof.wheelY (c.train.wheelList.getD w (0, 0)).1 (c.train.wheelList.getD w (0, 0)).2 = d then f w
                else 0 := by
  obtain ⟨r, g1, g2, g3, g4⟩ := C124_motion_partial hash c hc times solver hs
  refine ⟨r, g1, g2, g3, fun t h1 h2 hd hcl => ?_⟩
  obtain ⟨-, -, -, g5, g6⟩ := (g4 t h1 h2).2.2 hd
  have hz0 : Spec.rayleighMass c.isRayleigh c.ratio c.w1 c.w2 = 0 := by rw [hray]; rfl
  have hz1 : Spec.rayleighStiffness c.isRayleigh c.ratio c.w1 c.w2 = 0 := by rw [hray]; rfl
  refine ⟨fun δ hδ => ?_, fun d hd' => ?_⟩
  · have := g5 δ hδ
    rw [loadWork_away c t hcl, hz0, hz1] at this
    rw [← this]
    ring
  · have := g6 d hd'
    rw [hz0, hz1, stiffness_row c.train hf hb _ d hd', stiffness_row c.train hf hb _ d hd', damping_row c.train hf hb _ d hd'] at this
    have hw : c.train.forceVector c.g (c.train.dof d) = weightAt c.train c.g d := by
      obtain ⟨w1, w2, -, -⟩ := C100_weight c.train c.g
      cases d with
      | cartY i => exact w1 _ hd' trivial
      | cartRot i => exact w2 _ hd' id
      | bogieY b => exact w1 _ hd' trivial
      | bogieRot b => exact w2 _ hd' id
      | wheelY b j => exact w1 _ hd' trivial
    rw [hw] at this
    dsimp only at this ⊢
    linear_combination this

/-- **C124** Power balance of a coupled calculation under the same conditions: the power of the inertia, damping and stiffness
forces of track and train is the power of the loads of the track and of the weights, plus that of every contact force over
the velocity of its wheel relative to the rail. -/
theorem C124_power_partial (c : CoupledRun K) (hc : c.WellFormed) (hf : c.train.FactorsFit) (hb : c.train.Balanced)
    (hray : c.isRayleigh = false) (times : ℕ)
    (solver : TrimState K → (List (ℕ × List (ℕ → K)) → List (ℕ → K) → ℕ → (ℕ → K) → ℕ → K) → SolverOutput K)
    (hs : ∀ st, c.loadedTrack.input.initialise freshFlags = .ok st →
      Spec.SolvesCoupled (c.system hash st) (c.rhs hash st) times (solver (c.system hash st) (c.rhs hash st))) :
    ∃ r, c.main hash freshFlags times solver = .ok r ∧ r.trackRows.length = times ∧ r.trainRows.length = times ∧
      ∀ t (h1 : t < r.trackRows.length) (h2 : t < r.trainRows.length),
        DistinctElements c.rail c.train.wheelList.length t → ClearOfWheels c t →
          let u := Spec.fieldOfRows r.trackRows[t] NodeRow.displacement
          let v := Spec.fieldOfRows r.trackRows[t] NodeRow.velocity
          let a := Spec.fieldOfRows r.trackRows[t] NodeRow.acceleration
          let ut := Spec.reportedDof (c.partRow hash r.trainRows[t]) NodeRow.displacement
          let vt := Spec.reportedDof (c.partRow hash r.trainRows[t]) NodeRow.velocity
          let at' := Spec.reportedDof (c.partRow hash r.trainRows[t]) NodeRow.acceleration
          let f := fun w => Spec.wheelForce c.rail t u ut w (c.train.wheelList.getD w (0, 0))
          Spec.systemWork AssemblyPart.mass c.track.system.parts v a +
            (Spec.systemWork AssemblyPart.damping c.track.system.parts v v + Spec.rayleighWork c.track.system v v) +
            Spec.systemWork AssemblyPart.stiffness c.track.system.parts v u +
            (c.train.allDofs.map fun d => vt d * (c.train.bodyInertia d * at' d + springForceAt c.train ut d +
              springForceAt c.train.dampers vt d)).sum =
          Spec.loadWork (Spec.loadsAt c.track.timed t) v + (c.train.allDofs.map fun d => vt d * weightAt c.train c.g d).sum +
            ∑ w ∈ range c.train.wheelList.length, f w *
              (vt (.wheelY (c.train.wheelList.getD w (0, 0)).1 (c.train.wheelList.getD w (0, 0)).2) -
                Spec.railAt (c.rail w) t v) := by
  obtain ⟨r, g1, g2, g3, g4⟩ := C124_bodies_partial hash c hc hf hb hray times solver hs
  obtain ⟨r', k1, -, -, k4⟩ := C124_motion_partial hash c hc times solver hs
  obtain rfl : r' = r := by
    rw [g1] at k1
    injection k1 with k1
    exact k1.symm
  refine ⟨r', g1, g2, g3, fun t h1 h2 hd hcl => ?_⟩
  obtain ⟨-, hadm, -⟩ := (k4 t h1 h2).2.2 hd
  obtain ⟨e1, e2⟩ := g4 t h1 h2 hd hcl
  have e1 := e1 _ hadm
  dsimp only at e1 e2 ⊢
  rw [e1]
  set u := Spec.fieldOfRows r'.trackRows[t] NodeRow.displacement
  set v := Spec.fieldOfRows r'.trackRows[t] NodeRow.velocity
  set ut := Spec.reportedDof (c.partRow hash r'.trainRows[t]) NodeRow.displacement
  set vt := Spec.reportedDof (c.partRow hash r'.trainRows[t]) NodeRow.velocity
  set at' := Spec.reportedDof (c.partRow hash r'.trainRows[t]) NodeRow.acceleration
  set f := fun w => Spec.wheelForce c.rail t u ut w (c.train.wheelList.getD w (0, 0)) with hfdef
  have e3 : (c.train.allDofs.map fun d => vt d * (c.train.bodyInertia d * at' d + springForceAt c.train ut d +
      springForceAt c.train.dampers vt d)).sum = (c.train.allDofs.map fun d => vt d * weightAt c.train c.g d).sum +
      ∑ w ∈ range c.train.wheelList.length, f w *
        vt (.wheelY (c.train.wheelList.getD w (0, 0)).1 (c.train.wheelList.getD w (0, 0)).2) := by
    classical
    rw [← List.sum_toFinset _ c.train.nodup_allDofs, ← List.sum_toFinset _ c.train.nodup_allDofs]
    have e4 : ∑ w ∈ range c.train.wheelList.length, f w *
        vt (.wheelY (c.train.wheelList.getD w (0, 0)).1 (c.train.wheelList.getD w (0, 0)).2) =
        ∑ d ∈ c.train.allDofs.toFinset, ∑ w ∈ range c.train.wheelList.length,
          if TrainDof.wheelY (c.train.wheelList.getD w (0, 0)).1 (c.train.wheelList.getD w (0, 0)).2 = d then f w * vt d
          else 0 := by
      rw [Finset.sum_comm]
      refine sum_congr rfl fun w hw => ?_
      rw [Finset.sum_ite_eq, if_pos]
      rw [List.mem_toFinset, c.train.mem_allDofs]
      exact wheel_hasDof c.train w (Finset.mem_range.mp hw)
    rw [e4, ← sum_add_distrib]
    refine sum_congr rfl fun d hd' => ?_
    rw [List.mem_toFinset, c.train.mem_allDofs] at hd'
    rw [e2 d hd']
    have e5 : ∑ w ∈ range c.train.wheelList.length,
        (if TrainDof.wheelY (c.train.wheelList.getD w (0, 0)).1 (c.train.wheelList.getD w (0, 0)).2 = d then f w * vt d
          else 0) = vt d * ∑ w ∈ range c.train.wheelList.length,
        if TrainDof.wheelY (c.train.wheelList.getD w (0, 0)).1 (c.train.wheelList.getD w (0, 0)).2 = d then f w else 0 := by
      rw [Finset.mul_sum]
      refine sum_congr rfl fun w _ => ?_
      split_ifs
      · ring
      · ring
    rw [e5]
    ring
  rw [e3]
  have e6 : ∑ w ∈ range c.train.wheelList.length, f w *
      (vt (.wheelY (c.train.wheelList.getD w (0, 0)).1 (c.train.wheelList.getD w (0, 0)).2) - Spec.railAt (c.rail w) t v) =
      ∑ w ∈ range c.train.wheelList.length, f w *
        vt (.wheelY (c.train.wheelList.getD w (0, 0)).1 (c.train.wheelList.getD w (0, 0)).2) -
      ∑ w ∈ range c.train.wheelList.length, f w * Spec.railAt (c.rail w) t v := by
    rw [← Finset.sum_sub_distrib]
    exact sum_congr rfl fun w _ => by ring
  rw [e6]
  ring

end

/-! ### Example -/

/-- A track of nine nodes, each on a spring and a damper and with a mass (vertical and rotation), with a load `p` on node 0 and
a load on node 8; a train of one cart, two bogies and four wheels; wheel `w` is in the middle of the element of nodes `2 w` and `2 w + 1`. -/
def smallCoupled (p : ℚ) : CoupledRun ℚ where
  track :=
    { system :=
        { n := 9
          parts := [
            { elements := [], nodes := [0, 1, 2, 3, 4, 5, 6, 7, 8], act := ![false, true, true],
              stiffness := some fun q => if q.1 = q.2 then 100 else 0
              mass := some fun q => if q.1 = q.2 then 2 else 0
              damping := some fun q => if q.1 = q.2 then 1 else 0 }]
          loads := [], constraints := [], isRayleigh := false, ratio := 0, w1 := 1, w2 := 1 }
      timed := [{ nodes := [0], act := ![false, true, false], source := .table fun _ _ => ![0, p, 0] },
        { nodes := [8], act := ![false, true, false], source := .table fun _ _ => ![0, -7, 0] }] }
  railNodes := [0, 1, 2, 3, 4, 5, 6, 7]
  railAct := ![false, true, true]
  train :=
    { carts := [⟨50, 700, 2708, 64, [(0, 10), (1, -10)], []⟩]
      bogie := fun _ => ⟨3, 1, 4400, 6, [(5, 5 / 4), (5, -5 / 4)], []⟩ }
  g := 10
  start := fun _ => 0
  rail := fun w =>
    { element := fun _ => if w < 4 then (2 * w, 2 * w + 1) else (0, 1)
      shape := fun _ => ![1 / 2, 1 / 8, 1 / 2, -1 / 8]
      load := fun i _ => if w < 4 ∧ (i = 2 * w ∨ i = 2 * w + 1) then ![0, -15, 0] else ![0, 0, 0]
      static := -3
      law := fun _ x => -10 * x }
  isRayleigh := false
  ratio := 0
  w1 := 1
  w2 := 1

/-- A solver that delivers zero displacements and velocities and the accelerations for a diagonal mass matrix: the state at
the first time step. -/
def startSolver : TrimState ℚ → (List (ℕ × List (ℕ → ℚ)) → List (ℕ → ℚ) → ℕ → (ℕ → ℚ) → ℕ → ℚ) → SolverOutput ℚ :=
  fun sys rhs => ⟨fun _ _ => 0, fun _ _ => 0, fun t i => rhs [] [] t (fun _ => 0) i / sys.M i i⟩

theorem startSolver_solves (sys : TrimState ℚ) (rhs : List (ℕ × List (ℕ → ℚ)) → List (ℕ → ℚ) → ℕ → (ℕ → ℚ) → ℕ → ℚ)
    (h1 : ∀ i < sys.N, ∀ j < sys.N, i ≠ j → sys.M i j = 0) (h2 : ∀ i < sys.N, sys.M i i ≠ 0) (times : ℕ) :
    Spec.SolvesCoupled sys rhs times (startSolver sys rhs) := by
  intro t _
  refine ⟨[], [], fun i hi => ?_⟩
  simp only [startSolver, mul_zero, add_zero]
  rw [Finset.sum_eq_single_of_mem i (Finset.mem_range.mpr hi)]
  · exact mul_div_cancel₀ _ (h2 i hi)
  · intro j hj hne
    rw [h1 i hi j (Finset.mem_range.mp hj) (Ne.symm hne), zero_mul]

theorem smallCoupled_separated (p : ℚ) : (smallCoupled p).train.Separated (smallCoupled p).start := by
  have hb : (smallCoupled 0).train.bogies = [0, 1] := by decide +kernel
  have hall : ∀ q, (smallCoupled 0).train.HasPart q → q ∈ [TrainPart.cart 0, .bogie 0, .bogie 1, .wheel 0 0, .wheel 0 1,
      .wheel 1 0, .wheel 1 1] := by
    intro q hq
    cases q with
    | cart i =>
      have : i < 1 := hq
      interval_cases i; simp
    | bogie b =>
      have : b ∈ (smallCoupled 0).train.bogies := hq
      rw [hb] at this
      simpa using this
    | wheel b j =>
      have h1 : b ∈ (smallCoupled 0).train.bogies := hq.1
      have h2 : j < 2 := hq.2
      rw [hb] at h1
      simp only [List.mem_cons, List.not_mem_nil, or_false] at h1
      rcases h1 with rfl | rfl <;> interval_cases j <;> simp
  have key : ∀ p ∈ [TrainPart.cart 0, .bogie 0, .bogie 1, .wheel 0 0, .wheel 0 1, .wheel 1 0, .wheel 1 1],
      ∀ q ∈ [TrainPart.cart 0, .bogie 0, .bogie 1, .wheel 0 0, .wheel 0 1, .wheel 1 0, .wheel 1 1], p ≠ q →
      p.kind = q.kind → 1 / 10 ^ 9 < |(smallCoupled 0).train.startX (smallCoupled 0).start p -
        (smallCoupled 0).train.startX (smallCoupled 0).start q| := by
    decide +kernel
  intro p q hp hq hne hk
  exact key p (hall p hp) q (hall q hq) hne hk

theorem smallCoupled_massive (p : ℚ) : (smallCoupled p).train.Massive := by
  have key : ∀ d ∈ (smallCoupled 0).train.allDofs, 1 / 10 ^ 8 < |(smallCoupled 0).train.bodyInertia d| ∧
      1 / 10 ^ 8 < |(smallCoupled 0).train.stiffness ((smallCoupled 0).train.dof d) ((smallCoupled 0).train.dof d)| := by
    decide +kernel
  exact fun d hd => key d (((smallCoupled 0).train.mem_allDofs d).2 hd)

theorem smallCoupled_wheels (p : ℚ) : (smallCoupled p).train.wheelList = [(0, 0), (0, 1), (1, 0), (1, 1)] := by
  show (smallCoupled 0).train.wheelList = _
  decide +kernel

theorem smallCoupled_wellFormed (p : ℚ) : (smallCoupled p).WellFormed where
  track := by
    refine ⟨?_, ?_, ?_⟩
    · simp [smallCoupled, Spec.NodesInMesh]
    · intro l hl
      simp only [smallCoupled, List.mem_cons, List.not_mem_nil, or_false] at hl
      rcases hl with rfl | rfl <;> simp
    · intro l hl
      simp only [smallCoupled, List.mem_cons, List.not_mem_nil, or_false] at hl
      rcases hl with rfl | rfl <;> simp [smallCoupled]
  aligned := by
    intro q hq e he
    simp [smallCoupled] at hq
    subst hq
    simp at he
  rail := by
    intro w t
    simp only [smallCoupled]
    split_ifs
    · constructor
      · show 2 * w < 9
        omega
      · show 2 * w + 1 < 9
        omega
    · simp
  loads := by
    intro w t i d hi h0
    have hi' : i < 8 := hi
    simp only [smallCoupled] at h0 ⊢
    split_ifs at h0 with h
    · rw [if_pos h.1]
      refine ⟨fun hd => ?_, ?_⟩
      · subst hd
        exact h0 rfl
      · have : ([0, 1, 2, 3, 4, 5, 6, 7] : List ℕ).getD i 0 = i := by
          interval_cases i <;> rfl
        rw [this]
        exact h.2
    · exfalso
      apply h0
      fin_cases d <;> rfl
  separated := smallCoupled_separated p
  massive := smallCoupled_massive p

theorem smallCoupled_diagonal : ∀ p ∈ ([0, 100] : List ℚ),
    (((smallCoupled p).loadedTrack.input.initialise freshFlags).toOption.map fun st =>
      decide ((∀ i < ((smallCoupled p).system roundedCoords st).N, ∀ j < ((smallCoupled p).system roundedCoords st).N,
        i ≠ j → ((smallCoupled p).system roundedCoords st).M i j = 0) ∧
        ∀ i < ((smallCoupled p).system roundedCoords st).N, ((smallCoupled p).system roundedCoords st).M i i ≠ 0)) =
      some true := by
  decide +kernel

theorem smallCoupled_solved (p : ℚ) (hp : p ∈ ([0, 100] : List ℚ)) (times : ℕ) (st : TrimState ℚ)
    (hst : (smallCoupled p).loadedTrack.input.initialise freshFlags = .ok st) :
    Spec.SolvesCoupled ((smallCoupled p).system roundedCoords st) ((smallCoupled p).rhs roundedCoords st) times
      (startSolver ((smallCoupled p).system roundedCoords st) ((smallCoupled p).rhs roundedCoords st)) := by
  have h := smallCoupled_diagonal p hp
  rw [hst] at h
  simp only [Except.toOption, Option.map_some, Option.some.injEq, decide_eq_true_eq] at h
  exact startSolver_solves _ _ h.1 h.2 times

theorem smallCoupled_distinct (p : ℚ) (t : ℕ) :
    DistinctElements (smallCoupled p).rail (smallCoupled p).train.wheelList.length t := by
  rw [smallCoupled_wheels]
  show ([0, 1, 2, 3, 4, 5, 6, 7] : List ℕ).Nodup
  decide

theorem smallCoupled_clear (t : ℕ) : ClearOfWheels (smallCoupled 0) t := by
  intro l hl i hi d hd ha hu
  rw [smallCoupled_wheels] at hu
  simp only [Spec.loadsAt, smallCoupled, List.map_cons, List.map_nil, List.mem_cons, List.not_mem_nil, or_false] at hl
  rcases hl with rfl | rfl
  · have hi' : i < 1 := hi
    obtain rfl : i = 0 := (by omega)
    fin_cases d <;> rfl
  · exfalso
    have hi' : i < 1 := hi
    obtain rfl : i = 0 := (by omega)
    obtain ⟨w, hw, hu⟩ := hu
    have hw' : w < 4 := hw
    simp only [smallCoupled, if_pos hw'] at hu
    have e : ([8] : List ℕ).getD 0 0 = 8 := rfl
    rw [e] at hu
    omega

/-- The hypotheses of `C124_motion_partial`, `C124_bodies_partial` and `C124_power_partial` hold for a track with a load away
from the wheels and a train of one cart, two bogies and four wheels. -/
example (times t : ℕ) : (smallCoupled 0).WellFormed ∧ (smallCoupled 0).train.FactorsFit ∧ (smallCoupled 0).train.Balanced ∧
    (smallCoupled 0).isRayleigh = false ∧
    (∀ st, (smallCoupled 0).loadedTrack.input.initialise freshFlags = .ok st →
      Spec.SolvesCoupled ((smallCoupled 0).system roundedCoords st) ((smallCoupled 0).rhs roundedCoords st) times
        (startSolver ((smallCoupled 0).system roundedCoords st) ((smallCoupled 0).rhs roundedCoords st))) ∧
    DistinctElements (smallCoupled 0).rail (smallCoupled 0).train.wheelList.length t ∧ ClearOfWheels (smallCoupled 0) t :=
  ⟨smallCoupled_wellFormed 0, by unfold Train.FactorsFit; decide +kernel, by unfold Train.Balanced; decide +kernel, rfl,
    smallCoupled_solved 0 (by simp) times, smallCoupled_distinct 0 t, smallCoupled_clear t⟩

theorem smallCoupled_free : Spec.Admissible (smallCoupled 100).track.system (Spec.unitField 0 1) := by
  intro i hi d hrem
  by_contra h
  have hid : i = 0 ∧ d = 1 := by
    by_contra h'
    exact h (if_neg h')
  obtain ⟨rfl, rfl⟩ := hid
  rcases hrem with hrem | hrem | hrem
  · obtain ⟨l, q, m, hq, -⟩ := hrem
    simp [smallCoupled] at hq
  · revert hrem
    decide +kernel
  · revert hrem
    decide +kernel

/-- **C124** is false without the restriction to loads away from the wheels: for a load of the track on a node of an element
that carries a wheel, with a correct solver, the reported results do not satisfy the equations of motion of the track under
its loads and the contact forces. The force vector of the track is overwritten at the nodes under a wheel. -/
theorem C124_violated :
    ∃ (c : CoupledRun ℚ) (solver : TrimState ℚ → (List (ℕ × List (ℕ → ℚ)) → List (ℕ → ℚ) → ℕ → (ℕ → ℚ) → ℕ → ℚ) →
        SolverOutput ℚ),
      c.WellFormed ∧ c.train.FactorsFit ∧ c.train.Balanced ∧ c.isRayleigh = false ∧
      (∀ st, c.loadedTrack.input.initialise freshFlags = .ok st →
        Spec.SolvesCoupled (c.system roundedCoords st) (c.rhs roundedCoords st) 1
          (solver (c.system roundedCoords st) (c.rhs roundedCoords st))) ∧
      DistinctElements c.rail c.train.wheelList.length 0 ∧
      ∃ r, c.main roundedCoords freshFlags 1 solver = .ok r ∧ ∃ (h1 : 0 < r.trackRows.length) (h2 : 0 < r.trainRows.length),
        let u := Spec.fieldOfRows r.trackRows[0] NodeRow.displacement
        let v := Spec.fieldOfRows r.trackRows[0] NodeRow.velocity
        let a := Spec.fieldOfRows r.trackRows[0] NodeRow.acceleration
        let ut := Spec.reportedDof (c.partRow roundedCoords r.trainRows[0]) NodeRow.displacement
        let f := fun w => Spec.wheelForce c.rail 0 u ut w (c.train.wheelList.getD w (0, 0))
        ∃ δ, Spec.Admissible c.track.system δ ∧
          Spec.systemWork AssemblyPart.mass c.track.system.parts δ a +
          (Spec.systemWork AssemblyPart.damping c.track.system.parts δ v + Spec.rayleighWork c.track.system δ v) +
          Spec.systemWork AssemblyPart.stiffness c.track.system.parts δ u ≠
            Spec.loadWork (Spec.loadsAt c.track.timed 0) δ -
              ∑ w ∈ range c.train.wheelList.length, f w * Spec.railAt (c.rail w) 0 δ := by
  have hs := smallCoupled_solved 100 (by simp) 1
  obtain ⟨r, g1, g2, g3, g4⟩ := C124_motion_partial roundedCoords (smallCoupled 100) (smallCoupled_wellFormed 100) 1
    startSolver hs
  have h1 : 0 < r.trackRows.length := by omega
  have h2 : 0 < r.trainRows.length := by omega
  refine ⟨smallCoupled 100, startSolver, smallCoupled_wellFormed 100, by unfold Train.FactorsFit; decide +kernel,
    by unfold Train.Balanced; decide +kernel, rfl, hs, smallCoupled_distinct 100 0, r, g1, h1, h2, Spec.unitField 0 1,
    smallCoupled_free, ?_⟩
  obtain ⟨-, -, -, g5, -⟩ := (g4 0 h1 h2).2.2 (smallCoupled_distinct 100 0)
  have g5 := g5 _ smallCoupled_free
  have hz0 : Spec.rayleighMass (smallCoupled 100).isRayleigh (smallCoupled 100).ratio (smallCoupled 100).w1
      (smallCoupled 100).w2 = 0 := rfl
  have hz1 : Spec.rayleighStiffness (smallCoupled 100).isRayleigh (smallCoupled 100).ratio (smallCoupled 100).w1
      (smallCoupled 100).w2 = 0 := rfl
  rw [hz0, hz1, zero_mul, zero_mul, add_zero, add_zero] at g5
  rw [g5]
  intro h
  have h' := sub_left_injective h
  have e1 : Spec.loadWork (Spec.loadsAt (smallCoupled 100).track.timed 0) (Spec.unitField 0 1) = 100 := by decide +kernel
  have e2 : Spec.awayFromWheels (smallCoupled 100).rail (smallCoupled 100).train.wheelList.length 0 (Spec.unitField 0 1) =
      fun _ _ => 0 := by
    funext i d
    unfold Spec.awayFromWheels
    split_ifs with hu
    · rfl
    · unfold Spec.unitField
      rw [if_neg]
      rintro ⟨rfl, rfl⟩
      refine hu ⟨⟨0, ?_, Or.inl rfl⟩, by decide⟩
      rw [smallCoupled_wheels]
      decide
  rw [e1, e2] at h'
  have e3 : Spec.loadWork (Spec.loadsAt (smallCoupled 100).track.timed 0) (fun _ _ => 0) = 0 := by decide +kernel
  rw [e3] at h'
  norm_num at h'

end Rose
