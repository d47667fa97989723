/-
C113: the initial state of the coupled calculation and the equilibrium of track and train.
-/
import Verif.Model.InitialState
import Verif.Props.TrainStatics
import Verif.Props.Calculation

set_option linter.unusedSectionVars false

namespace Rose
open Finset

section
variable {K : Type*} [Field K] [LinearOrder K] [IsStrictOrderedRing K]

/-- Specification: force of the stiffness of track and train at dof `i` minus the force the calculation applies there in
its first evaluation at time 0, for displacements `u`. -/
def unbalanced (d : CoupledData K) (Kt Kv : ℕ → ℕ → K) (s : CoupledForces K) (u : ℕ → K) (i : ℕ) : K :=
  ∑ j ∈ range (d.nt + d.nv), combineMatrices d.nt d.nv Kt Kv i j * u j - (d.iterate 0 u (d.run s [(0, [])])).1 i

theorem combine_track (nt nv : ℕ) (Kt Kv : ℕ → ℕ → K) (u : ℕ → K) (i : ℕ) (hi : i < nt) :
    ∑ j ∈ range (nt + nv), combineMatrices nt nv Kt Kv i j * u j = ∑ j ∈ range nt, Kt i j * u j := by
  obtain ⟨h1, -, h3, -, -⟩ := C45_direct_sum nt nv Kt Kv (fun _ => 0) (fun _ => 0) (fun _ => 0)
  rw [sum_range_add]
  rw [sum_eq_zero (s := range nv) fun j hj => by rw [(h3 i hi j (mem_range.1 hj)).1, zero_mul], add_zero]
  exact sum_congr rfl fun j hj => by rw [h1 i hi j (mem_range.1 hj)]

theorem combine_train (nt nv : ℕ) (Kt Kv : ℕ → ℕ → K) (u : ℕ → K) (i : ℕ) (hi : i < nv) :
    ∑ j ∈ range (nt + nv), combineMatrices nt nv Kt Kv (nt + i) j * u j = ∑ j ∈ range nv, Kv i j * u (nt + j) := by
  obtain ⟨-, h2, h3, -, -⟩ := C45_direct_sum nt nv Kt Kv (fun _ => 0) (fun _ => 0) (fun _ => 0)
  rw [sum_range_add]
  rw [sum_eq_zero (s := range nt) fun j hj => by rw [(h3 j (mem_range.1 hj) i hi).2, zero_mul], zero_add]
  exact sum_congr rfl fun j hj => by rw [h2 i hi j (mem_range.1 hj)]

theorem initialise_sized (s : LoadedSystem K) : ∀ o ∈ s.initialise.loads, o.Sized := by
  intro o ho
  simp only [LoadedSystem.initialise, List.mem_map] at ho
  obtain ⟨o, -, rfl⟩ := ho
  obtain ⟨nodes, act, source, vector⟩ := o
  cases source <;> simp [LoadObject.initialize, LoadObject.Sized]

theorem initialise_loadAt (o : LoadObject K) (t : ℕ) : o.initialize.loadAt t = o.loadAt t := by
  obtain ⟨nodes, act, source, vector⟩ := o
  cases source <;> rfl

/-- Specification: wheels of the initial state have contact dofs of the train and share no dof, on the rail or in the train. -/
structure WheelsApart (d : CoupledData K) : Prop where
  dof : ∀ w ∈ d.wheels 0, d.nt ≤ w.dof ∧ w.dof < d.nt + d.nv
  nodup : ((d.wheels 0).map WheelAt.dof).Nodup
  rail : ((d.wheels 0).flatMap fun w => [0, 1, 2, (3 : Fin 4)].filterMap w.contact.dofs).Nodup

/-- C113, what remains unbalanced in the initial state: on the track away from the wheels minus the prescribed loads of
time 0 that do not move; under a wheel the moving loads of the initial state plus the share of the static contact force;
on a wheel the spring force minus weight and contact force; on the other bodies of the train twice the force of the wheel
displacements. -/
theorem C113_unbalanced (d : CoupledData K) (Kt Kv : ℕ → ℕ → K) (track : LoadedSystem K) (F u : ℕ → K)
    (hload : ∀ o ∈ track.loads, ∀ t, DistinctDofs (o.loadAt t)) (hw : WheelsApart d)
    (h : IsInitialState d Kt Kv track.initialise.F u) :
    let R := unbalanced d Kt Kv ⟨track.initialise, F⟩ u
    (∀ i < d.nt, (∀ w ∈ d.wheels 0, ∀ k, w.contact.dofs k ≠ some i) →
      R i = -((track.loads.filter LoadObject.isTable).map fun o => conditionForce (o.loadAt 0) i).sum) ∧
    (∀ w ∈ d.wheels 0, ∀ k i, w.contact.dofs k = some i → i < d.nt →
      R i = (track.loads.map fun o => if o.isTable then 0 else conditionForce (o.loadAt 0) i).sum +
        w.contact.shape k * w.law w.static) ∧
    (∀ w ∈ d.wheels 0, R w.dof = ∑ j ∈ range d.nv, Kv (w.dof - d.nt) j * u (d.nt + j) - d.trainF (w.dof - d.nt) -
      w.law w.static) ∧
    (∀ i < d.nv, (∀ w ∈ d.wheels 0, w.dof ≠ d.nt + i) →
      R (d.nt + i) = 2 * ∑ j ∈ range d.nv, Kv i j * if ∃ w ∈ d.wheels 0, w.dof = d.nt + j then u (d.nt + j) else 0) := by
  intro R
  have hload' : ∀ o ∈ track.initialise.loads, ∀ t, DistinctDofs (o.loadAt t) := by
    intro o ho t
    simp only [LoadedSystem.initialise, List.mem_map] at ho
    obtain ⟨o, ho, rfl⟩ := ho
    rw [initialise_loadAt]
    exact hload o ho t
  obtain ⟨f1, f2, f3, f4⟩ := C109_forces d ⟨track.initialise, F⟩ (initialise_sized track) hload' [] 0 [] u
  have contact : ∀ w ∈ d.wheels 0, contactForceAt u w = w.law w.static := by
    intro w hwm
    rw [← force_eq]
    unfold WheelAt.force
    rw [h.wheels w hwm]
    congr 1; ring
  refine ⟨?_, ?_, ?_, ?_⟩
  · intro i hi hno
    have e1 : R i = track.initialise.F i - (track.initialise.loads.map fun o => conditionForce (o.loadAt 0) i).sum := by
      rw [← f1 i hi hno, ← h.track i hi, ← combine_track d.nt d.nv Kt Kv u i hi]
      rfl
    rw [e1, initial_force track hload i]
    have e2 : track.initialise.loads.map (fun o => conditionForce (o.loadAt 0) i) =
        track.loads.map fun o => conditionForce (o.loadAt 0) i := by
      simp only [LoadedSystem.initialise, List.map_map]
      apply List.map_congr_left
      intro o _
      simp only [Function.comp, initialise_loadAt]
    rw [e2]
    have key : ∀ l : List (LoadObject K), (l.map fun o => if o.isTable then 0 else conditionForce (o.loadAt 0) i).sum -
        (l.map fun o => conditionForce (o.loadAt 0) i).sum =
          -((l.filter LoadObject.isTable).map fun o => conditionForce (o.loadAt 0) i).sum := by
      intro l
      induction l with
      | nil => simp
      | cons o l ih =>
        rw [List.map_cons, List.sum_cons, List.map_cons, List.sum_cons, List.filter_cons]
        by_cases ho : o.isTable = true
        · simp only [ho, if_true, List.map_cons, List.sum_cons]
          linear_combination ih
        · simp only [ho]
          simp only [Bool.false_eq_true, if_false]
          linear_combination ih
    exact key _
  · intro w hwm k i hk hi
    have e1 : R i = track.initialise.F i - -(w.contact.shape k * contactForceAt u w) := by
      rw [← f3 hw.rail w hwm k i hk hi, ← h.track i hi, ← combine_track d.nt d.nv Kt Kv u i hi]
      rfl
    rw [e1, initial_force track hload i, contact w hwm]
    ring
  · intro w hwm
    obtain ⟨h1, h2⟩ := hw.dof w hwm
    have e1 : R w.dof = ∑ j ∈ range d.nv, Kv (w.dof - d.nt) j * u (d.nt + j) -
        (d.trainF (w.dof - d.nt) + contactForceAt u w) := by
      rw [← f4 hw.nodup w hwm h1 h2, ← combine_train d.nt d.nv Kt Kv u (w.dof - d.nt) (by omega),
        show d.nt + (w.dof - d.nt) = w.dof by omega]
      rfl
    rw [e1, contact w hwm]
    ring
  · intro i hi hno
    have e1 : R (d.nt + i) = ∑ j ∈ range d.nv, Kv i j * u (d.nt + j) - d.trainF i := by
      have := f2 (d.nt + i) (by omega) (by omega) hno
      rw [Nat.add_sub_cancel_left] at this
      rw [← this, ← combine_train d.nt d.nv Kt Kv u i hi]
      rfl
    have hni : ¬ d.IsWheel ⟨i, hi⟩ := by
      intro hc
      unfold CoupledData.IsWheel at hc
      rw [List.mem_map] at hc
      obtain ⟨w, hwm, he⟩ := hc
      exact hno w hwm he
    have hc := C40_residual (Matrix.of fun i j : Fin d.nv => Kv i j) (fun i : Fin d.nv => d.trainF i) d.IsWheel
      (fun j : Fin d.nv => u (d.nt + j)) (fun j : Fin d.nv => u (d.nt + j)) ⟨fun _ _ => rfl, h.bodies⟩ ⟨i, hi⟩ hni
    simp only [Matrix.mulVec, dotProduct, Matrix.of_apply] at hc
    rw [e1, sum_range (fun j => Kv i j * u (d.nt + j)), hc, sum_range]
    have : ∀ j : Fin d.nv, (if d.IsWheel j then u (d.nt + j) else 0) =
        if ∃ w ∈ d.wheels 0, w.dof = d.nt + j then u (d.nt + j.1) else 0 := by
      intro j
      have : d.IsWheel j ↔ ∃ w ∈ d.wheels 0, w.dof = d.nt + j := by
        unfold CoupledData.IsWheel; rw [List.mem_map]
      simp only [this]
    simp only [this]
    ring

/-- Specification: the coupled data belong to train `t`: its dofs, its weight, all its wheels, pressed onto the rail by
their static loads; the moving loads on the track of time 0 are the static loads of the wheels, distributed over the rail
dofs, and no other load acts at time 0. -/
structure StandingTrain (d : CoupledData K) (t : Train K) (g : K) (track : LoadedSystem K) : Prop where
  nv : d.nv = t.numbering.next
  weight : ∀ i < d.nv, d.trainF i = t.forceVector g i
  part : ∀ w ∈ d.wheels 0, ∃ b j, t.HasDof (.wheelY b j) ∧ w.dof = d.nt + t.dof (.wheelY b j)
  all : ∀ b j, t.HasDof (.wheelY b j) → ∃ w ∈ d.wheels 0, w.dof = d.nt + t.dof (.wheelY b j)
  pressed : ∀ w ∈ d.wheels 0, ∀ b j, t.HasDof (.wheelY b j) → w.dof = d.nt + t.dof (.wheelY b j) →
    (totalStaticLoad t g StaticLoads.fresh).wheel b j = some (-w.law w.static)
  moving : ∀ w ∈ d.wheels 0, ∀ k i, w.contact.dofs k = some i → i < d.nt ∧
    (track.loads.map fun o => if o.isTable then 0 else conditionForce (o.loadAt 0) i).sum =
      w.contact.shape k * -w.law w.static
  still : ∀ o ∈ track.loads, o.isTable = true → ∀ i, conditionForce (o.loadAt 0) i = 0

/-- C113, exactly: a train that stands symmetrically on its bogies and wheels, with loads from the wheels only. The initial
state is in equilibrium, everywhere in track and train, if and only if the initial displacements of the wheels exert no
force on the other bodies of the train. -/
theorem C113_iff (d : CoupledData K) (Kt : ℕ → ℕ → K) (t : Train K) (g : K) (track : LoadedSystem K) (F u : ℕ → K)
    (hload : ∀ o ∈ track.loads, ∀ t, DistinctDofs (o.loadAt t)) (hw : WheelsApart d) (hst : StandingTrain d t g track)
    (hf : t.FactorsFit) (hb : t.Balanced) (hs : t.TwoAndTwo)
    (h : IsInitialState d Kt t.stiffness track.initialise.F u) :
    (∀ i < d.nt + d.nv, unbalanced d Kt t.stiffness ⟨track.initialise, F⟩ u i = 0) ↔
      ∀ i < d.nv, (∀ w ∈ d.wheels 0, w.dof ≠ d.nt + i) →
        ∑ j ∈ range d.nv, t.stiffness i j * (if ∃ w ∈ d.wheels 0, w.dof = d.nt + j then u (d.nt + j) else 0) = 0 := by
  obtain ⟨r1, r2, r3, r4⟩ := C113_unbalanced d Kt t.stiffness track F u hload hw h
  constructor
  · intro h0 i hi hno
    have := r4 i hi hno
    rw [h0 (d.nt + i) (by omega)] at this
    have h2 : (2 : K) ≠ 0 := two_ne_zero
    exact (mul_eq_zero.1 this.symm).resolve_left h2
  · intro h0 i hi
    by_cases hnt : i < d.nt
    · by_cases hu : ∀ w ∈ d.wheels 0, ∀ k, w.contact.dofs k ≠ some i
      · rw [r1 i hnt hu, neg_eq_zero]
        exact map_zero_sum _ _ fun o ho => by
          rw [List.mem_filter] at ho
          exact hst.still o ho.1 ho.2 i
      · push Not at hu
        obtain ⟨w, hwm, k, hk⟩ := hu
        rw [r2 w hwm k i hk hnt, (hst.moving w hwm k i hk).2]
        ring
    · obtain ⟨i, rfl⟩ : ∃ k, i = d.nt + k := ⟨i - d.nt, by omega⟩
      by_cases hu : ∀ w ∈ d.wheels 0, w.dof ≠ d.nt + i
      · rw [r4 i (by omega) hu, h0 i (by omega) hu, mul_zero]
      · push Not at hu
        obtain ⟨w, hwm, hwi⟩ := hu
        obtain ⟨b, j, hbj, hdof⟩ := hst.part w hwm
        have hrest : t.AtRest g d.nv (fun j => u (d.nt + j)) := by
          intro e he hne
          have hlt : t.dof e < d.nv := by rw [hst.nv]; exact t.dof_lt e he
          have hno : ∀ w ∈ d.wheels 0, w.dof ≠ d.nt + t.dof e := by
            intro w hwm heq
            obtain ⟨b, j, hbj, hdof⟩ := hst.part w hwm
            have : t.dof e = t.dof (.wheelY b j) := by omega
            exact hne b j (t.dof_inj _ _ he hbj this)
          have h1 := r4 _ hlt hno
          rw [h0 _ hlt hno, mul_zero] at h1
          have h2 : unbalanced d Kt t.stiffness ⟨track.initialise, F⟩ u (d.nt + t.dof e) =
              ∑ j ∈ range d.nv, t.stiffness (t.dof e) j * u (d.nt + j) - d.trainF (t.dof e) := by
            have hload' : ∀ o ∈ track.initialise.loads, ∀ t, DistinctDofs (o.loadAt t) := by
              intro o ho t
              simp only [LoadedSystem.initialise, List.mem_map] at ho
              obtain ⟨o, ho, rfl⟩ := ho
              rw [initialise_loadAt]
              exact hload o ho t
            have := (C109_forces d ⟨track.initialise, F⟩ (initialise_sized track) hload' [] 0 [] u).2.1 (d.nt + t.dof e)
              (by omega) (by omega) hno
            rw [Nat.add_sub_cancel_left] at this
            rw [← this, ← combine_train d.nt d.nv Kt t.stiffness u _ hlt]
            rfl
          rw [h2, hst.weight _ hlt] at h1
          exact sub_eq_zero.1 h1
        have hreact := C114_reactions_partial t hf hb hs g d.nv hst.nv.ge (fun j => u (d.nt + j)) hrest b hbj.1 j hbj.2
        rw [hst.pressed w hwm b j hbj hdof, Option.some.injEq] at hreact
        have hlt : t.dof (.wheelY b j) < d.nv := by rw [hst.nv]; exact t.dof_lt _ hbj
        have h3 := r3 w hwm
        rw [show w.dof - d.nt = t.dof (.wheelY b j) by omega, hst.weight _ hlt] at h3
        rw [← hwi, h3]
        unfold matForce at hreact
        linear_combination hreact

end

/-! ### A train on springs and on fixed supports -/

/-- `exampleTrain` on a track of four springs, one below every wheel, or on supports without dofs; every wheel has a static
load of 15 for `g = 1`. -/
def standingData (fixed : Bool) : CoupledData ℚ where
  nt := 4
  nv := 10
  trainF := exampleTrain.forceVector 1
  wheels := fun _ => [(8, 0), (9, 1), (12, 2), (13, 3)].map fun p : ℕ × ℕ =>
    { dof := p.1, contact := ⟨![if fixed then none else some p.2, none, none, none], ![1, 0, 0, 0]⟩, static := -15,
      law := fun x => -x }

/-- The wheel loads on the track. -/
def standingTrack (fixed : Bool) : LoadedSystem ℚ where
  loads := [0, 1, 2, 3].map fun i : ℕ =>
    { nodes := [![none, if fixed then none else some i, none]], act := ![false, true, false],
      source := .moving fun _ _ => ![0, -15, 0], vector := [fun _ => 0] }
  F := fun _ => 0

/-- The displacements the code computes: with the springs (stiffness 1) the track and the wheels go down by 15, the bodies
above go up by 15. -/
def standingU (fixed : Bool) (i : ℕ) : ℚ :=
  if i < 4 then (if fixed then 0 else -15)
  else if i = 8 ∨ i = 9 ∨ i = 12 ∨ i = 13 then (if fixed then 0 else -15)
  else exampleRest (i - 4) + if i = 4 ∨ i = 6 ∨ i = 10 then (if fixed then 0 else 15) else 0

/-- Four springs of stiffness 1. -/
def standingK (i j : ℕ) : ℚ := if i = j then 1 else 0

theorem exampleTrain_wheels (b j : ℕ) (h : exampleTrain.HasDof (.wheelY b j)) :
    (b, j) ∈ [(0, 0), (0, 1), (1, 0), (1, 1)] := by
  have := exampleTrain_dofs _ h
  simpa using this

theorem standing_load (fixed : Bool) (o : LoadObject ℚ) (ho : o ∈ (standingTrack fixed).loads) (t : ℕ) :
    DistinctDofs (o.loadAt t) ∧ o.isTable = false := by
  simp only [standingTrack, List.map_cons, List.map_nil, List.mem_cons, List.not_mem_nil, or_false] at ho
  have key : ∀ (x : Option ℕ), DistinctDofs (K := ℚ)
      ⟨[![none, x, none]], ![false, true, false], (List.range 1).map fun _ => ![0, -15, 0]⟩ := by
    intro x i hi j hj e e' k h1 h2 _ _
    have hi' : i < 1 := hi
    have hj' : j < 1 := hj
    refine ⟨by omega, ?_⟩
    have : ∀ e e' : Fin 3, (![false, true, false] : Fin 3 → Bool) e = true →
        (![false, true, false] : Fin 3 → Bool) e' = true → e = e' := by decide
    exact this e e' h1 h2
  rcases ho with rfl | rfl | rfl | rfl <;> exact ⟨key _, rfl⟩

theorem standing_apart (fixed : Bool) : WheelsApart (standingData fixed) := by
  refine ⟨?_, ?_, ?_⟩
  · cases fixed <;> (intro w hw; simp [standingData] at hw; rcases hw with rfl | rfl | rfl | rfl <;> simp [standingData])
  · cases fixed <;> decide +kernel
  · cases fixed <;> decide +kernel

theorem standing_train (fixed : Bool) : StandingTrain (standingData fixed) exampleTrain 1 (standingTrack fixed) := by
  have hd : [(0, 0), (0, 1), (1, 0), (1, 1)].map (fun w : ℕ × ℕ => exampleTrain.dof (.wheelY w.1 w.2)) = [4, 5, 8, 9] := by
    decide +kernel
  simp only [List.map_cons, List.map_nil, List.cons.injEq, and_true] at hd
  obtain ⟨d0, d1, d2, d3⟩ := hd
  have hh : ∀ w ∈ [(0, 0), (0, 1), (1, 0), (1, 1)], exampleTrain.HasDof (.wheelY w.1 w.2) := by
    have hb : ∀ b ∈ [0, 1], b ∈ exampleTrain.bogies := by decide +kernel
    intro w hw
    simp only [List.mem_cons, List.not_mem_nil, or_false] at hw
    rcases hw with rfl | rfl | rfl | rfl <;> exact ⟨hb _ (by simp), by simp [exampleTrain]⟩
  have hl : ∀ w ∈ [(0, 0), (0, 1), (1, 0), (1, 1)],
      (totalStaticLoad exampleTrain 1 StaticLoads.fresh).wheel w.1 w.2 = some (-15) := by decide +kernel
  have hn : exampleTrain.numbering.next = 10 := by decide +kernel
  refine ⟨hn.symm, fun _ _ => rfl, ?_, ?_, ?_, ?_, ?_⟩
  · intro w hw
    simp only [standingData, List.map_cons, List.map_nil, List.mem_cons, List.not_mem_nil, or_false] at hw
    rcases hw with rfl | rfl | rfl | rfl
    · exact ⟨0, 0, hh (0, 0) (by simp), by rw [d0]; rfl⟩
    · exact ⟨0, 1, hh (0, 1) (by simp), by rw [d1]; rfl⟩
    · exact ⟨1, 0, hh (1, 0) (by simp), by rw [d2]; rfl⟩
    · exact ⟨1, 1, hh (1, 1) (by simp), by rw [d3]; rfl⟩
  · intro b j h
    have := exampleTrain_wheels b j h
    simp only [List.mem_cons, Prod.mk.injEq, List.not_mem_nil, or_false] at this
    rcases this with ⟨rfl, rfl⟩ | ⟨rfl, rfl⟩ | ⟨rfl, rfl⟩ | ⟨rfl, rfl⟩
    · exact ⟨_, List.mem_map.2 ⟨(8, 0), by simp, rfl⟩, by rw [d0]; rfl⟩
    · exact ⟨_, List.mem_map.2 ⟨(9, 1), by simp, rfl⟩, by rw [d1]; rfl⟩
    · exact ⟨_, List.mem_map.2 ⟨(12, 2), by simp, rfl⟩, by rw [d2]; rfl⟩
    · exact ⟨_, List.mem_map.2 ⟨(13, 3), by simp, rfl⟩, by rw [d3]; rfl⟩
  · intro w hw b j h _
    rw [hl (b, j) (exampleTrain_wheels b j h)]
    simp only [standingData, List.map_cons, List.map_nil, List.mem_cons, List.not_mem_nil, or_false] at hw
    rcases hw with rfl | rfl | rfl | rfl <;> norm_num
  · intro w hw k i hk
    simp only [standingData, List.map_cons, List.map_nil, List.mem_cons, List.not_mem_nil, or_false] at hw
    cases fixed with
    | true =>
      exfalso
      rcases hw with rfl | rfl | rfl | rfl <;> fin_cases k <;> simp at hk
    | false =>
      rcases hw with rfl | rfl | rfl | rfl <;> fin_cases k <;> simp at hk <;> subst hk <;>
        exact ⟨by decide, by decide +kernel⟩
  · intro o ho ht
    rw [(standing_load fixed o ho 0).2] at ht
    exact absurd ht (by simp)

theorem standing_initial (fixed : Bool) : IsInitialState (standingData fixed) standingK exampleTrain.stiffness
    (standingTrack fixed).initialise.F (standingU fixed) := by
  have tr : ∀ i < 4, ∑ j ∈ range 4, standingK i j * standingU fixed j = (standingTrack fixed).initialise.F i := by
    cases fixed <;> decide +kernel
  have wh : ∀ w ∈ (standingData fixed).wheels 0, standingU fixed w.dof = dispAtWheel (standingU fixed) w.contact := by
    cases fixed <;> decide +kernel
  have bo : ∀ i : Fin (standingData fixed).nv, ¬ (standingData fixed).IsWheel i →
      ∑ j : Fin (standingData fixed).nv, (if (standingData fixed).IsWheel j then 0 else exampleTrain.stiffness i j * standingU fixed (4 + j)) =
        exampleTrain.forceVector 1 i + ∑ j : Fin (standingData fixed).nv, exampleTrain.stiffness i j *
          (if (standingData fixed).IsWheel j then standingU fixed (4 + j) else 0) := by
    cases fixed <;> decide +kernel
  refine ⟨tr, wh, ?_⟩
  rintro ⟨i, hi⟩
  rw [← Finset.sum_subtype (Finset.univ.filter fun j => ¬ (standingData fixed).IsWheel j) (by simp)
    (fun j => exampleTrain.stiffness i j * standingU fixed ((standingData fixed).nt + j)), Finset.sum_filter]
  refine Eq.trans (sum_congr rfl fun j _ => ?_) (bo i hi)
  by_cases hj : (standingData fixed).IsWheel j
  · rw [if_neg (not_not.2 hj), if_pos hj]
  · rw [if_pos hj, if_neg hj]; rfl

/-- C113 on fixed supports: the wheels do not move, and the state is in equilibrium. -/
example : (∀ i < 14, unbalanced (standingData true) standingK exampleTrain.stiffness
    ⟨(standingTrack true).initialise, fun _ => 0⟩ (standingU true) i = 0) ∧ standingU true 4 ≠ 0 := by
  decide +kernel

/-- C113 fails: a train that stands symmetrically on a track of springs, the wheel loads in balance with the contact
forces; in the initial state of the calculation every bogie is pulled with 264000 (the weight of the train is 60). -/
theorem C113_violated :
    WheelsApart (standingData false) ∧ StandingTrain (standingData false) exampleTrain 1 (standingTrack false) ∧
    exampleTrain.TwoAndTwo ∧
    IsInitialState (standingData false) standingK exampleTrain.stiffness (standingTrack false).initialise.F
      (standingU false) ∧
    unbalanced (standingData false) standingK exampleTrain.stiffness ⟨(standingTrack false).initialise, fun _ => 0⟩
      (standingU false) (4 + exampleTrain.dof (.bogieY 0)) = 264000 := by
  refine ⟨standing_apart _, standing_train _, ⟨?_, ?_⟩, standing_initial _, by decide +kernel⟩
  · intro c hc
    simp only [exampleTrain, List.mem_singleton] at hc
    exact ⟨0, 1, 10, by norm_num, by rw [hc]⟩
  · exact fun b _ => ⟨1, 1, 5 / 4, by norm_num, by simp [exampleTrain]; norm_num⟩

end Rose
