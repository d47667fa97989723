/-
C174: the time steps of a train on a track have exactly one result.
-/
import Verif.Lemmas.ContactSteps
import Verif.Props.DefaultRide
import Verif.Props.HingedCombined
import Verif.Props.TrainBalance
import Verif.Props.Vibration

set_option linter.unusedSectionVars false

namespace Rose
open Finset

/-! ### The matrices of the coupled system -/

theorem form_combine (nt nv : ℕ) (A B : ℕ → ℕ → ℝ) (U : ℕ → ℝ) :
    form (nt + nv) (combineMatrices nt nv A B) U U = form nt A U U + form nv B (fun j => U (nt + j)) (fun j => U (nt + j)) := by
  simp only [form_rows]
  rw [Finset.sum_range_add]
  refine congrArg₂ _ (sum_congr rfl fun i hi => ?_) (sum_congr rfl fun i hi => ?_)
  · rw [combine_row_track nt nv A B U i (mem_range.mp hi)]
  · rw [combine_row_train nt nv A B U i (mem_range.mp hi)]

theorem combine_symm (nt nv : ℕ) (A B : ℕ → ℕ → ℝ) (hA : ∀ i < nt, ∀ j < nt, A i j = A j i) (hB : ∀ i < nv, ∀ j < nv, B i j = B j i) :
    ∀ i < nt + nv, ∀ j < nt + nv, combineMatrices nt nv A B i j = combineMatrices nt nv A B j i := by
  obtain ⟨h1, h2, h3, -⟩ := C45_direct_sum nt nv A B (fun _ => 0) (fun _ => 0) (fun _ => 0)
  intro i hi j hj
  rcases lt_or_ge i nt with h | h <;> rcases lt_or_ge j nt with h' | h'
  · rw [h1 i h j h', h1 j h' i h, hA i h j h']
  · obtain ⟨j, rfl⟩ := Nat.exists_eq_add_of_le h'
    rw [(h3 i h j (by omega)).1, (h3 i h j (by omega)).2]
  · obtain ⟨i, rfl⟩ := Nat.exists_eq_add_of_le h
    rw [(h3 j h' i (by omega)).1, (h3 j h' i (by omega)).2]
  · obtain ⟨i, rfl⟩ := Nat.exists_eq_add_of_le h
    obtain ⟨j, rfl⟩ := Nat.exists_eq_add_of_le h'
    rw [h2 i (by omega) j (by omega), h2 j (by omega) i (by omega), hB i (by omega) j (by omega)]

theorem form_combination (N : ℕ) (A B D : ℕ → ℕ → ℝ) (a b : ℝ) (U : ℕ → ℝ) :
    form N (fun i j => A i j + (B i j * a + D i j * b)) U U = form N A U U + (a * form N B U U + b * form N D U U) := by
  unfold form
  simp only [mul_sum, ← sum_add_distrib]
  exact sum_congr rfl fun i _ => sum_congr rfl fun j _ => by ring

theorem Oscillator.passive {N : ℕ} {M C K : ℕ → ℕ → ℝ} (o : Oscillator N M C K) : Passive N M C K :=
  ⟨o.massSymm, o.dampSymm, o.stiffSymm, o.mass, o.damp, fun U => (o.stiff U).1⟩

theorem Passive.combine {nt nv : ℕ} {M C K M' C' K' : ℕ → ℕ → ℝ} (o : Passive nt M C K) (o' : Passive nv M' C' K') :
    Passive (nt + nv) (combineMatrices nt nv M M') (combineMatrices nt nv C C') (combineMatrices nt nv K K') := by
  refine ⟨combine_symm _ _ _ _ o.massSymm o'.massSymm, combine_symm _ _ _ _ o.dampSymm o'.dampSymm,
    combine_symm _ _ _ _ o.stiffSymm o'.stiffSymm, fun U => ?_, fun U => ?_, fun U => ?_⟩ <;> rw [form_combine]
  · have h1 := o.mass U
    have h2 := o'.mass fun j => U (nt + j)
    refine ⟨add_nonneg h1.1 h2.1, fun h k hk => ?_⟩
    rcases lt_or_ge k nt with h' | h'
    · exact h1.2 (by linarith [h1.1, h2.1]) k h'
    · obtain ⟨k, rfl⟩ := Nat.exists_eq_add_of_le h'
      exact h2.2 (by linarith [h1.1, h2.1]) k (by omega)
  · exact add_nonneg (o.damp _) (o'.damp _)
  · exact add_nonneg (o.stiff _) (o'.stiff _)

theorem Passive.rayleigh {N : ℕ} {M C K : ℕ → ℕ → ℝ} (o : Passive N M C K) {a b : ℝ} (ha : 0 ≤ a) (hb : 0 ≤ b) :
    Passive N M (fun i j => C i j + (M i j * a + K i j * b)) K := by
  refine ⟨o.massSymm, fun i hi j hj => ?_, o.stiffSymm, o.mass, fun U => ?_, o.stiff⟩
  · simp only [o.dampSymm i hi j hj, o.massSymm i hi j hj, o.stiffSymm i hi j hj]
  · rw [form_combination]
    exact add_nonneg (o.damp U) (add_nonneg (mul_nonneg ha (o.mass U).1) (mul_nonneg hb (o.stiff U)))

/-- Springs, dampers and distribution factors of a train are not negative. -/
structure Train.Springs (t : Train ℝ) : Prop where
  mass : ∀ d, t.HasDof d → 0 ≤ t.bodyInertia d
  carts : ∀ c ∈ t.carts, 0 ≤ c.stiffness ∧ 0 ≤ c.damping ∧ ∀ f ∈ c.factors, 0 ≤ f
  bogies : ∀ b ∈ t.bogies, 0 ≤ (t.bogie b).stiffness ∧ 0 ≤ (t.bogie b).damping ∧ ∀ f ∈ (t.bogie b).factors, 0 ≤ f

variable {H : Type*} [DecidableEq H] {hash : (Fin 3 → ℝ) → H}

theorem train_passive (c : CoupledRun ℝ) (hsep : c.train.Separated c.start) (hm : c.train.Massive) (hf : c.train.FactorsFit)
    (hb : c.train.Balanced) (hs : c.train.Springs) :
    Passive (c.trainState hash).N (c.trainState hash).M (c.trainState hash).C (c.trainState hash).Kg := by
  obtain ⟨n1, -, n3⟩ := C102_trimmed_partial hash c.train c.start c.g hsep hm
  have n1 : (c.trainState hash).N = c.train.numbering.next := n1
  have n3 : ∀ d e, c.train.HasDof d → c.train.HasDof e →
      (c.trainState hash).M (c.train.dof d) (c.train.dof e) = c.train.massMatrix (c.train.dof d) (c.train.dof e) ∧
      (c.trainState hash).C (c.train.dof d) (c.train.dof e) = c.train.damping (c.train.dof d) (c.train.dof e) ∧
      (c.trainState hash).Kg (c.train.dof d) (c.train.dof e) = c.train.stiffness (c.train.dof d) (c.train.dof e) ∧
      (c.trainState hash).F (c.train.dof d) = c.train.forceVector c.g (c.train.dof d) := n3
  have e : ∀ i < (c.trainState hash).N, ∀ j < (c.trainState hash).N, (c.trainState hash).M i j = c.train.massMatrix i j ∧
      (c.trainState hash).C i j = c.train.damping i j ∧ (c.trainState hash).Kg i j = c.train.stiffness i j := by
    intro i hi j hj
    obtain ⟨d, hd, rfl⟩ := train_exists_dof c.train i (by omega)
    obtain ⟨d', hd', rfl⟩ := train_exists_dof c.train j (by omega)
    have := n3 d d' hd hd'
    exact ⟨this.1, this.2.1, this.2.2.1⟩
  obtain ⟨m1, m2, -⟩ := C100_diagonal c.train
  have hform : ∀ (A B : ℕ → ℕ → ℝ) (_ : ∀ i < (c.trainState hash).N, ∀ j < (c.trainState hash).N, A i j = B i j) (U : ℕ → ℝ),
      form (c.trainState hash).N A U U = form (c.trainState hash).N B U U := by
    intro A B h U
    exact sum_congr rfl fun i hi => sum_congr rfl fun j hj => by rw [h i (mem_range.mp hi) j (mem_range.mp hj)]
  have hmat : ∀ (B : ℕ → ℕ → ℝ) (U : ℕ → ℝ), form (c.trainState hash).N B U U = matEnergy (c.trainState hash).N B U := by
    intro B U
    rw [form_rows]
    rfl
  refine ⟨fun i hi j hj => ?_, fun i hi j hj => ?_, fun i hi j hj => ?_, fun U => ?_, fun U => ?_, fun U => ?_⟩
  · rw [(e i hi j hj).1, (e j hj i hi).1]
    by_cases hij : i = j
    · rw [hij]
    · rw [m2 i j hij, m2 j i (Ne.symm hij)]
  · rw [(e i hi j hj).2.1, (e j hj i hi).2.1, (C35_symmetric c.train i j).2]
  · rw [(e i hi j hj).2.2, (e j hj i hi).2.2, (C35_symmetric c.train i j).1]
  · have hdiag : form (c.trainState hash).N (c.trainState hash).M U U =
        ∑ i ∈ range (c.trainState hash).N, c.train.massMatrix i i * U i ^ 2 := by
      rw [hform _ _ (fun i hi j hj => (e i hi j hj).1), form_rows]
      refine sum_congr rfl fun i hi => ?_
      rw [sum_eq_single_of_mem i hi fun j _ hji => by rw [m2 i j (Ne.symm hji), zero_mul]]
      ring
    have hpos : ∀ i < (c.trainState hash).N, 0 < c.train.massMatrix i i := by
      intro i hi
      obtain ⟨d, hd, rfl⟩ := train_exists_dof c.train i (by omega)
      rw [m1 d hd]
      have h1 := (hm d hd).1
      rw [abs_of_nonneg (hs.mass d hd)] at h1
      exact lt_trans (by norm_num) h1
    rw [hdiag]
    have hnn : ∀ i ∈ range (c.trainState hash).N, 0 ≤ c.train.massMatrix i i * U i ^ 2 := fun i hi =>
      mul_nonneg (hpos i (mem_range.mp hi)).le (sq_nonneg _)
    refine ⟨sum_nonneg hnn, fun h k hk => ?_⟩
    have := (sum_eq_zero_iff_of_nonneg hnn).mp h k (mem_range.mpr hk)
    rcases mul_eq_zero.mp this with h' | h'
    · exact absurd h' (hpos k hk).ne'
    · exact pow_eq_zero_iff (two_ne_zero) |>.mp h'
  · rw [hform _ _ (fun i hi j hj => (e i hi j hj).2.1), hmat]
    exact (C36_dissipation_partial c.train hf hb _ n1.ge U (fun q hq => ⟨(hs.carts q hq).2.1, (hs.carts q hq).2.2⟩)
      fun q hq => ⟨(hs.bogies q hq).2.1, (hs.bogies q hq).2.2⟩).2
  · rw [hform _ _ (fun i hi j hj => (e i hi j hj).2.2), hmat]
    exact C36_nonneg_partial c.train hf hb _ n1.ge U (fun q hq => ⟨(hs.carts q hq).1, (hs.carts q hq).2.2⟩)
      fun q hq => ⟨(hs.bogies q hq).1, (hs.bogies q hq).2.2⟩

/-- The coupled damping is not negative. -/
def CoupledRun.Damped (c : CoupledRun ℝ) : Prop := c.isRayleigh = true → 0 ≤ c.ratio ∧ 0 < c.w1 ∧ 0 < c.w2

theorem coupled_passive (c : CoupledRun ℝ) (hsep : c.train.Separated c.start) (hm : c.train.Massive) (hf : c.train.FactorsFit)
    (hb : c.train.Balanced) (hs : c.train.Springs) (hr : c.Damped) (st : TrimState ℝ) (o : Passive st.N st.M st.C st.Kg) :
    Passive (c.system hash st).N (c.system hash st).M (c.system hash st).C (c.system hash st).Kg := by
  have h := o.combine (train_passive (hash := hash) c hsep hm hf hb hs)
  unfold CoupledRun.system
  simp only
  split_ifs with hR
  · obtain ⟨h1, h2, h3⟩ := hr hR
    refine h.rayleigh ?_ ?_ <;> simp only [rayleighFactors] <;> positivity
  · exact h

/-! ### The forces of the coupled system -/

theorem dispAtWheel_sum (N : ℕ) (U : ℕ → ℝ) (w : WheelContact ℝ) (h : ∀ k o, w.dofs k = some o → o < N) :
    dispAtWheel U w = weighted N (fun k => dispAtWheel (Pi.single k 1) w) U := by
  unfold dispAtWheel weighted
  simp only [sum_mul]
  rw [sum_comm]
  refine sum_congr rfl fun k _ => ?_
  cases hk : w.dofs k with
  | none => simp [dofDisp]
  | some o =>
    rw [sum_eq_single_of_mem o (mem_range.mpr (h k o hk))]
    · simp [dofDisp]; ring
    · intro j _ hj
      simp [dofDisp, Ne.symm hj]

/-- The force of wheel `w` on the dofs of the coupled system per contact force. -/
noncomputable def contactWeight (c : CoupledRun ℝ) (st : TrimState ℝ) (t w k : ℕ) : ℝ :=
  if k < st.N then -dispAtWheel (Pi.single k 1) ⟨railDofs (nodeEquations st.nodes) ((c.rail w).element t), (c.rail w).shape t⟩
  else if c.train.dof (.wheelY (c.train.wheelList.getD w (0, 0)).1 (c.train.wheelList.getD w (0, 0)).2) = k - st.N then 1 else 0

/-- The loads of the coupled system without the contact forces. -/
noncomputable def contactFree (c : CoupledRun ℝ) (st : TrimState ℝ) (t k : ℕ) : ℝ :=
  if k < st.N then Spec.loadWork (Spec.loadsAt c.track.timed t) (Spec.awayFromWheels c.rail c.train.wheelList.length t
    fun i d => dofDisp (Pi.single k 1) (nodeEquations st.nodes i d))
  else c.train.forceVector c.g (k - st.N)

theorem coupled_forces (c : CoupledRun ℝ) (hc : c.WellFormed) (st : TrimState ℝ) (hst : c.loadedTrack.input.initialise freshFlags = .ok st)
    (times : ℕ) (hd : ∀ t < times, DistinctElements c.rail c.train.wheelList.length t)
    (hcont : ∀ t < times, ∀ w < c.train.wheelList.length, Continuous ((c.rail w).law t))
    (hanti : ∀ t < times, ∀ w < c.train.wheelList.length, Antitone ((c.rail w).law t))
    (sched : ℕ → List (ℕ × List (ℕ → ℝ))) (us : ℕ → List (ℕ → ℝ)) :
    ContactForces (c.system hash st).N times (fun t U => c.rhs hash st (sched t) (us t) t U) c.train.wheelList.length
      (contactFree c st) (contactWeight c st) (fun t w x => (c.rail w).law t (x + (c.rail w).static)) := by
  have hsep := hc.separated
  have hm := hc.massive
  obtain ⟨n1, -, -⟩ := C102_trimmed_partial hash c.train c.start c.g hsep hm
  have n1 : (c.trainState hash).N = c.train.numbering.next := n1
  have hN : (c.system hash st).N = st.N + c.train.numbering.next := by rw [← n1]; rfl
  obtain ⟨r1, r2, -⟩ := C106_representable c.loadedTrack.input freshFlags st hst
  have hdofs : ∀ t w k o, railDofs (nodeEquations st.nodes) ((c.rail w).element t) k = some o → o < st.N := by
    intro t w k o h
    obtain ⟨i, d, -, -, h⟩ := (mem_railDofs _ _ o).1 ⟨k, h⟩
    rw [nodeEquations_eq] at h
    exact (r2 _ _ _ h).2
  have hdist : ∀ t, ∀ w < c.train.wheelList.length, ∀ U : ℕ → ℝ, weighted (c.system hash st).N (contactWeight c st t w) U =
      U (c.train.dof (.wheelY (c.train.wheelList.getD w (0, 0)).1 (c.train.wheelList.getD w (0, 0)).2) + st.N) -
        dispAtWheel U ⟨railDofs (nodeEquations st.nodes) ((c.rail w).element t), (c.rail w).shape t⟩ := by
    intro t w hw U
    have hlt := c.train.dof_lt _ (wheel_hasDof c.train w hw)
    rw [dispAtWheel_sum st.N U _ (hdofs t w)]
    unfold weighted
    rw [hN, Finset.sum_range_add, sub_eq_add_neg, ← sum_neg_distrib, add_comm]
    refine congrArg₂ _ ?_ (sum_congr rfl fun k hk => ?_)
    · rw [sum_eq_single_of_mem _ (mem_range.mpr hlt)]
      · unfold contactWeight
        rw [if_neg (by omega), if_pos (by omega), one_mul, add_comm]
      · intro j _ hj
        unfold contactWeight
        rw [if_neg (by omega), if_neg (by omega), zero_mul]
    · unfold contactWeight
      rw [if_pos (mem_range.mp hk)]
      ring
  have hforce : ∀ t, ∀ w < c.train.wheelList.length, ∀ U : ℕ → ℝ, (c.wheelOf st t w).force U =
      (c.rail w).law t (weighted (c.system hash st).N (contactWeight c st t w) U + (c.rail w).static) := by
    intro t w hw U
    rw [hdist t w hw U]
    show (c.rail w).law t (U (c.train.dof _ + st.N) + (c.rail w).static - dispAtWheel U
      ⟨railDofs (nodeEquations st.nodes) ((c.rail w).element t), (c.rail w).shape t⟩) = _
    congr 1
    ring
  refine ⟨fun t ht U k hk => ?_, fun t ht w hw => (hcont t ht w hw).comp (continuous_id.add continuous_const),
    fun t ht w hw x y hxy => hanti t ht w hw (by linarith)⟩
  rcases lt_or_ge k st.N with h | h
  · have hV : RepresentsField c.track.system.n st.nodes (Pi.single k 1 : ℕ → ℝ) (fun i d => dofDisp (Pi.single k 1) (nodeEquations st.nodes i d)) := by
      refine ⟨fun i d o ho => ?_, fun i _ d ho => ?_⟩
      · rw [nodeEquations_eq, ho]; rfl
      · rw [nodeEquations_eq, ho]; rfl
    have hT := track_rhs_work hash c hc.track hsep hm hc.loads hc.rail freshFlags st hst (sched t) (us t) t (hd t ht) U _ _ hV
    have e0 : ∑ i ∈ range st.N, (Pi.single k 1 : ℕ → ℝ) i * c.rhs hash st (sched t) (us t) t U i = c.rhs hash st (sched t) (us t) t U k := by
      have := weighted_single (N := st.N) (fun i => c.rhs hash st (sched t) (us t) t U i) k h
      rw [← this]
      exact sum_congr rfl fun i _ => mul_comm _ _
    rw [e0] at hT
    rw [hT]
    refine congrArg₂ _ (by unfold contactFree; rw [if_pos h]) (sum_congr rfl fun w hw => ?_)
    rw [hforce t w (mem_range.mp hw) U, ← dispAtWheel_eq c.track.system.n st.nodes _ _ hV (c.rail w) t (hc.rail w t).1 (hc.rail w t).2]
    rw [show contactWeight c st t w k = -dispAtWheel (Pi.single k 1)
      ⟨railDofs (nodeEquations st.nodes) ((c.rail w).element t), (c.rail w).shape t⟩ by unfold contactWeight; rw [if_pos h]]
    ring
  · obtain ⟨k, rfl⟩ := Nat.exists_eq_add_of_le h
    obtain ⟨d, hdof, rfl⟩ := train_exists_dof c.train k (by omega)
    rw [train_rhs hash c hsep hm st (sched t) (us t) t U d hdof]
    refine congrArg₂ _ (by unfold contactFree; rw [if_neg (by omega), Nat.add_sub_cancel_left]) (sum_congr rfl fun w hw => ?_)
    have hw := mem_range.mp hw
    have hwt : contactWeight c st t w (st.N + c.train.dof d) =
        if c.train.dof (.wheelY (c.train.wheelList.getD w (0, 0)).1 (c.train.wheelList.getD w (0, 0)).2) = c.train.dof d then 1 else 0 := by
      unfold contactWeight
      rw [if_neg (by omega), Nat.add_sub_cancel_left]
    rw [hforce t w hw U, hwt]
    by_cases hwd : TrainDof.wheelY (c.train.wheelList.getD w (0, 0)).1 (c.train.wheelList.getD w (0, 0)).2 = d
    · rw [if_pos hwd, if_pos (by rw [hwd]), one_mul]
    · rw [if_neg hwd, if_neg fun he => hwd (c.train.dof_inj _ _ (wheel_hasDof c.train w hw) hdof he), zero_mul]

/-! ### The results on the nodes -/

theorem trimmed_lt (st : TrimState ℝ) (i : ℕ) (d : Fin 3) (k : ℕ) (hk : equationOf (trimAll st).nodes i d = some k) : k < (trimAll st).N := by
  obtain ⟨t1, t2, -, -⟩ := recalcNodes_flat (obsoleteIndices st.N st.nodes st.M st.Kg) 0 st.nodes
  have hflat : (recalcFlat (obsoleteIndices st.N st.nodes st.M st.Kg) 0 (flatIdx st.nodes))[3 * i + (d : ℕ)]? =
      some (some k) := by
    rw [← t1, flatIdx_get]
    unfold equationOf at hk
    change ((recalcNodes _ 0 st.nodes).1[i]?).bind _ = _ at hk
    cases h1 : (recalcNodes (obsoleteIndices st.N st.nodes st.M st.Kg) 0 st.nodes).1[i]? with
    | none => rw [h1] at hk; simp at hk
    | some n => rw [h1] at hk; simpa using hk
  obtain ⟨o, -, -, -, h4⟩ := (recalcFlat_get _ 0 (flatIdx st.nodes) _).1 k hflat
  have : (trimAll st).N = 0 + keptCount (obsoleteIndices st.N st.nodes st.M st.Kg) (flatIdx st.nodes) := t2
  rw [this, keptCount]
  have := (List.getElem?_eq_some_iff.mp h4).1
  omega

theorem mem_equation {nodes : List DofNode} {n : DofNode} (hn : n ∈ nodes) {d : Fin 3} {k : ℕ} (h : n.idx d = some k) :
    ∃ i, equationOf nodes i d = some k := by
  obtain ⟨i, hi, rfl⟩ := List.mem_iff_getElem.mp hn
  exact ⟨i, by simp [equationOf, hi, h]⟩

theorem mapM_congr_mem {α β ε : Type*} (f g : α → Except ε β) (l : List α) (h : ∀ x ∈ l, f x = g x) : l.mapM f = l.mapM g := by
  induction l with
  | nil => rfl
  | cons a l ih =>
    rw [List.mapM_cons, List.mapM_cons, h a (List.mem_cons_self ..), ih fun x hx => h x (List.mem_cons_of_mem _ hx)]

/-- Two outputs that agree on the dofs of the coupled system give the same results. -/
theorem main_congr (c : CoupledRun ℝ) (times : ℕ)
    (solver solver' : TrimState ℝ → (List (ℕ × List (ℕ → ℝ)) → List (ℕ → ℝ) → ℕ → (ℕ → ℝ) → ℕ → ℝ) → SolverOutput ℝ)
    (h : ∀ st, c.loadedTrack.input.initialise freshFlags = .ok st → ∀ n < times, ∀ k < (c.system hash st).N,
      (solver (c.system hash st) (c.rhs hash st)).u n k = (solver' (c.system hash st) (c.rhs hash st)).u n k ∧
      (solver (c.system hash st) (c.rhs hash st)).v n k = (solver' (c.system hash st) (c.rhs hash st)).v n k ∧
      (solver (c.system hash st) (c.rhs hash st)).a n k = (solver' (c.system hash st) (c.rhs hash st)).a n k) :
    c.main hash freshFlags times solver = c.main hash freshFlags times solver' := by
  unfold CoupledRun.main
  cases hi : c.loadedTrack.input.initialise freshFlags with
  | error e => rfl
  | ok st =>
    have hN : (c.system hash st).N = st.N + (c.trainState hash).N := rfl
    have h := h st hi
    have row : ∀ (n : DofNode) (_ : ∀ d k, n.idx d = some k → k < (c.system hash st).N) (t : ℕ) (_ : t < times),
        nodeRow (solver (c.system hash st) (c.rhs hash st)) t n = nodeRow (solver' (c.system hash st) (c.rhs hash st)) t n := by
      intro n hn t ht
      have e : ∀ x y : ℕ → ℝ, (∀ k < (c.system hash st).N, x k = y k) → assignResultRow n x = assignResultRow n y := by
        intro x y hxy
        unfold assignResultRow
        have : ∀ d k, n.idx d = some k → x k = y k := fun d k hk => hxy k (hn d k hk)
        congr 1
        refine List.map_congr_left fun k hk => ?_
        obtain ⟨d, -, hd⟩ := List.mem_filterMap.mp hk
        exact this d k hd
      unfold nodeRow
      rw [e _ _ fun k hk => (h t ht k hk).1, e _ _ fun k hk => (h t ht k hk).2.1, e _ _ fun k hk => (h t ht k hk).2.2]
    simp only [bind, Except.bind]
    rw [mapM_congr_mem (fun t => st.nodes.mapM (nodeRow (solver (c.system hash st) (c.rhs hash st)) t))
      (fun t => st.nodes.mapM (nodeRow (solver' (c.system hash st) (c.rhs hash st)) t)) (List.range times) ?_,
      mapM_congr_mem (fun t => ((c.trainState hash).nodes.map fun n => { n with idx := shiftDofs st.N n.idx }).mapM
        (nodeRow (solver (c.system hash st) (c.rhs hash st)) t))
      (fun t => ((c.trainState hash).nodes.map fun n => { n with idx := shiftDofs st.N n.idx }).mapM
        (nodeRow (solver' (c.system hash st) (c.rhs hash st)) t)) (List.range times) ?_]
    · intro t ht
      refine mapM_congr_mem _ _ _ fun n hn => row n (fun d k hk => ?_) t (List.mem_range.mp ht)
      rw [List.mem_map] at hn
      obtain ⟨m, hm, rfl⟩ := hn
      simp only [shiftDofs, Option.map_eq_some_iff] at hk
      obtain ⟨o, ho, rfl⟩ := hk
      obtain ⟨i, hi⟩ := mem_equation hm ho
      have := trimmed_lt _ i d o hi
      change o < (c.trainState hash).N at this
      omega
    · intro t ht
      refine mapM_congr_mem _ _ _ fun n hn => row n (fun d k hk => ?_) t (List.mem_range.mp ht)
      obtain ⟨i, hi'⟩ := mem_equation hn hk
      have := ((C106_representable c.loadedTrack.input freshFlags st hi).2.1 i d k hi').2
      omega

/-! ### Rides -/

theorem hertz_monotone {G p : ℝ} (_hG : 0 < G) (hp : 0 < p) : Monotone (Spec.hertz G p) := by
  intro x y hxy
  unfold Spec.hertz
  split_ifs with h1 h2
  · exact Real.rpow_le_rpow (by positivity) (by gcongr) hp.le
  · exact absurd (h1.trans_le hxy) h2
  · positivity
  · exact le_rfl

theorem hertz_continuous {G p : ℝ} (_hG : 0 < G) (hp : 0 < p) : Continuous (Spec.hertz G p) := by
  have e : Spec.hertz G p = fun x => (max x 0 / G) ^ p := by
    funext x
    unfold Spec.hertz
    split_ifs with h
    · rw [max_eq_left h.le]
    · rw [max_eq_right (not_lt.mp h), zero_div, Real.zero_rpow hp.ne']
  rw [e]
  exact ((continuous_id.max continuous_const).div_const _).rpow_const fun _ => Or.inr hp.le

variable {q : TrackRide}

theorem TrackRide.Contacts.law {m : ℕ} {l : ℝ} {R : ℕ → RailWheel ℝ} {t : ℕ} (h : q.Contacts m l R t) (w : ℕ)
    (hw : w < q.train.wheelList.length) : ∃ κ, ∀ x, (R w).law t x = Spec.hertz q.G q.p (κ - x) := by
  have hF := h.2.2 w hw (fun _ _ => 0)
  refine ⟨q.G * (-q.staticLoad (q.train.wheelList.getD w (0, 0))) ^ (1 / q.p) +
    Spec.railDeflection l m (fun k => q.track.position (q.track.rail.getD k 0)) (fun _ _ => 0)
      (Spec.wheelX q.time q.vel (q.startOf (q.train.wheelList.getD w (0, 0))) t) + (R w).static - q.irr w t, fun x => ?_⟩
  have h1 := hF fun _ => x - (R w).static
  have e0 : Spec.railAt (R w) t (fun _ _ => (0 : ℝ)) = 0 := by simp [Spec.railAt]
  unfold Spec.wheelForce at h1
  rw [e0, sub_zero, sub_add_cancel] at h1
  rw [h1]
  congr 1
  ring

/-- Springs, dampers and masses of the train and the damping of the coupled system are not negative, the contact force grows with the
approach, and time does not run backwards. -/
structure TrackRide.Steady (q : TrackRide) : Prop where
  springs : q.train.Springs
  damped : q.isRayleigh = true → 0 ≤ q.ratio ∧ 0 < q.w1 ∧ 0 < q.w2
  power : 0 < q.p
  time : ∀ n, n + 1 < q.time.length → q.time.getD n 0 ≤ q.time.getD (n + 1) 0

/-- The solver makes the steps of the Newmark method for the coupled calculation, from the given displacements and velocities. -/
def StepsOf (hash : (Fin 3 → ℝ) → H) (c : CoupledRun ℝ) (β γ : ℝ) (time : List ℝ) (times : ℕ) (u₀ v₀ : ℕ → ℝ)
    (solver : TrimState ℝ → (List (ℕ × List (ℕ → ℝ)) → List (ℕ → ℝ) → ℕ → (ℕ → ℝ) → ℕ → ℝ) → SolverOutput ℝ) : Prop :=
  ∀ st, c.loadedTrack.input.initialise freshFlags = .ok st →
    Spec.CoupledSteps (c.system hash st) (c.rhs hash st) β γ (fun n => time.getD n 0) times u₀ v₀ (solver (c.system hash st) (c.rhs hash st))

theorem TrackRide.Runs.stepsOn {m m' : ℕ} {l : ℝ} {sys : SystemInput ℝ} (v : q.Runs m' l) (s : q.Steady) (nodes : List ℕ) (R : ℕ → RailWheel ℝ)
    (hwf : (q.runOn sys nodes R).WellFormed) (hfacts : ∀ t < q.time.length, q.Contacts m l R t)
    (hpass : ∀ loads st, ({ sys with loads := loads } : SystemInput ℝ).initialise freshFlags = .ok st → Passive st.N st.M st.C st.Kg)
    {β γ : ℝ} (hβ : 0 ≤ β) (hγ : 0 ≤ γ) (times : ℕ) (htimes : times ≤ q.time.length) (u₀ v₀ : ℕ → ℝ) :
    (∃ solver, StepsOf hash (q.runOn sys nodes R) β γ q.time times u₀ v₀ solver) ∧
    ∃ res, ∀ solver, StepsOf hash (q.runOn sys nodes R) β γ q.time times u₀ v₀ solver →
      (q.runOn sys nodes R).main hash freshFlags times solver = .ok res := by
  classical
  set c := q.runOn sys nodes R with hc
  have key : ∀ st, c.loadedTrack.input.initialise freshFlags = .ok st →
      ∃ out, Spec.CoupledSteps (c.system hash st) (c.rhs hash st) β γ (fun n => q.time.getD n 0) times u₀ v₀ out ∧
        ∀ out', Spec.CoupledSteps (c.system hash st) (c.rhs hash st) β γ (fun n => q.time.getD n 0) times u₀ v₀ out' →
          ∀ n < times, ∀ k < (c.system hash st).N, out'.u n k = out.u n k ∧ out'.v n k = out.v n k ∧ out'.a n k = out.a n k := by
    intro st hst
    have hlaw : ∀ t < times, ∀ w < c.train.wheelList.length, Continuous ((c.rail w).law t) ∧ Antitone ((c.rail w).law t) := by
      intro t ht w hw
      obtain ⟨κ, hκ⟩ := (hfacts t (by omega)).law w hw
      have e : (c.rail w).law t = fun x => Spec.hertz q.G q.p (κ - x) := funext hκ
      rw [e]
      exact ⟨(hertz_continuous v.coefficient s.power).comp (continuous_const.sub continuous_id),
        fun x y hxy => hertz_monotone v.coefficient s.power (by linarith)⟩
    have f := fun sched us => coupled_forces (hash := hash) c hwf st hst times (fun t ht => (hfacts t (by omega)).1)
      (fun t ht w hw => (hlaw t ht w hw).1) (fun t ht w hw => (hlaw t ht w hw).2) sched us
    have o := coupled_passive (hash := hash) c hwf.separated hwf.massive v.fits v.balanced s.springs s.damped st (hpass _ st hst)
    obtain ⟨u, w, a, s1, s2, s3, s4, s5⟩ := (f (fun _ => []) fun _ => []).steps o hβ hγ (fun n => q.time.getD (n + 1) 0 - q.time.getD n 0)
      (fun n hn => by linarith [s.time n (by omega)]) u₀ v₀
    refine ⟨⟨u, w, a⟩, ⟨fun t ht => ⟨[], [], s1 t ht⟩, s2, s3, s4⟩, fun out' h' => s5 out'.u out'.v out'.a ?_ h'.displacement h'.velocity h'.start⟩
    intro t ht k hk
    obtain ⟨sched, us, hb⟩ := h'.balance t ht
    rw [hb k hk]
    have e1 := (f (fun _ => sched) fun _ => us).rhs_eq t ht (out'.u t) k hk
    have e2 := (f (fun _ => []) fun _ => []).rhs_eq t ht (out'.u t) k hk
    exact e1.trans e2.symm
  have ex : ∃ solver, StepsOf hash c β γ q.time times u₀ v₀ solver := by
    refine ⟨fun sys rhs => if hx : ∃ out, Spec.CoupledSteps sys rhs β γ (fun n => q.time.getD n 0) times u₀ v₀ out then hx.choose
      else ⟨0, 0, 0⟩, fun st hst => ?_⟩
    obtain ⟨out, hout, -⟩ := key st hst
    have hx : ∃ out, Spec.CoupledSteps (c.system hash st) (c.rhs hash st) β γ (fun n => q.time.getD n 0) times u₀ v₀ out := ⟨out, hout⟩
    simp only [hx, dif_pos]
    exact hx.choose_spec
  refine ⟨ex, ?_⟩
  obtain ⟨solver, hs⟩ := ex
  obtain ⟨res, hres, -⟩ := C124_motion_partial hash c hwf times solver fun st hst => (hs st hst).balance
  refine ⟨res, fun solver' hs' => ?_⟩
  rw [← hres]
  refine main_congr c times solver' solver fun st hst n hn k hk => ?_
  obtain ⟨out, -, hu⟩ := key st hst
  have h1 := hu _ (hs st hst) n hn k hk
  have h2 := hu _ (hs' st hst) n hn k hk
  exact ⟨h2.1.trans h1.1.symm, h2.2.1.trans h1.2.1.symm, h2.2.2.trans h1.2.2.symm⟩

theorem TrackRide.Steady.withTrack (s : q.Steady) (track : HorizontalTrack ℝ) : TrackRide.Steady { q with track := track } :=
  ⟨s.springs, s.damped, s.power, s.time⟩

variable {n r k : ℕ} {d h : ℝ} {segments : List (ℕ × ℝ)} {soils : List (RodValues ℝ)}

/-- **C174** For every train on a generated track with its boundaries, every step size and all parameters `β, γ ≥ 0`: there is a solver that
makes the time steps of the coupled calculation, contact forces included, from every initial state, and the calculation with every such
solver has the same results. -/
theorem C174_track (v : q.Valid hash n r d h) (hn : 2 ≤ n) (hheld : q.held = true) (hv : q.values.Valid) (hm : q.values.NonNeg)
    (hR : q.values.Rayleigh) (s : q.Steady) {β γ : ℝ} (hβ : 0 ≤ β) (hγ : 0 ≤ γ) (times : ℕ) (htimes : times ≤ q.time.length)
    (u₀ v₀ : ℕ → ℝ) :
    ∃ c, q.coupled = .ok c ∧ (∃ solver, StepsOf hash c β γ q.time times u₀ v₀ solver) ∧
      ∃ res, ∀ solver, StepsOf hash c β γ q.time times u₀ v₀ solver → q.main hash times solver = .ok res := by
  have g := v.generated
  obtain ⟨R, hc, hwf, hfacts⟩ := v.runs.run g.even (g.placedRail q.values q.held)
  have hq : q.coupled = .ok (q.runWith (generatedInput q.track n r d q.values q.held) R) := by rw [v.coupled_eq]; exact hc
  have hpass : ∀ loads st, ({ generatedInput q.track n r d q.values q.held with loads := loads } : SystemInput ℝ).initialise freshFlags = .ok st → Passive st.N st.M st.C st.Kg := by
    intro loads st hst
    obtain ⟨inp, st', e1, e2, e3⟩ := C172_track hash n r hn g.r_pos d h g.distance g.depth q.track g.track
      { q.values with loads := loads } ⟨hv.E, hv.nu, hv.rho, hv.A, hv.I, hv.kappa, hv.s1, hv.s2, hv.pad, hv.soil⟩
      ⟨hm.padMass, hm.soilMass, hm.sleeper, hm.padDamping, hm.soilDamping⟩ ⟨hR.ratio, hR.w1, hR.w2⟩ freshFlags
    rw [g.system] at e1
    injection e1 with e1
    subst e1
    rw [hheld] at hst
    have e : st' = st := by
      have := e2.symm.trans hst
      injection this
    subst e
    exact e3.matrices.passive
  obtain ⟨h1, res, h2⟩ := v.runs.stepsOn (hash := hash) s _ R hwf hfacts hpass hβ hγ times htimes u₀ v₀
  refine ⟨_, hq, h1, res, fun solver hs => ?_⟩
  unfold TrackRide.main
  simp only [bind, Except.bind, hq]
  exact h2 solver hs

/-- **C174** The same on every track that is combined from segments. -/
theorem C174_combined (v : q.ValidOn r d segments soils) (hheld : q.held = true)
    (hm : ∀ w ∈ soils, ({ q.values with soil := w } : TrackValues).NonNeg) (hR : q.values.Rayleigh) (s : q.Steady) (length : ℝ)
    {β γ : ℝ} (hβ : 0 ≤ β) (hγ : 0 ≤ γ) (times : ℕ) (htimes : times ≤ q.time.length) (u₀ v₀ : ℕ → ℝ) :
    ∃ c run, combinedTrack hash r d segments = .ok c ∧ q.coupledOnCombined c length soils = .ok run ∧
      (∃ solver, StepsOf hash run β γ q.time times u₀ v₀ solver) ∧
      ∃ res, ∀ solver, StepsOf hash run β γ q.time times u₀ v₀ solver → q.mainOnCombined hash c length soils times solver = .ok res := by
  obtain ⟨c, sys, hc, sound, hsys, hp, hrun⟩ := v.track hash length
  obtain ⟨R, hco, hwf, hfacts⟩ := (v.runs.withTrack (c.numbered length)).run (sound.even length) hp
  rw [← hrun] at hco
  have hpass : ∀ loads st, ({ sys with loads := loads } : SystemInput ℝ).initialise freshFlags = .ok st → Passive st.N st.M st.C st.Kg := by
    intro loads st hst
    have hs' : c.soils.length ≤ soils.length := by
      obtain ⟨c', hc', -, -, -, -, -, -, -, hlen, -⟩ := C136_structure hash v.good
      rw [hc] at hc'
      cases hc'
      have := v.enough
      omega
    obtain ⟨w, hw⟩ := sound.some_soil hs'
    obtain ⟨x, y, hx, hy, hsys'⟩ := sound.system length q.values soils hs' q.held
    rw [hsys, hheld] at hsys'
    injection hsys' with hsys'
    subst hsys'
    have hx := List.mem_of_head? hx
    have hy := List.mem_of_getLast? hy
    have hR' : ({ q.values with loads := loads } : TrackValues).Rayleigh := ⟨hR.ratio, hR.w1, hR.w2⟩
    have hstand := sound.standing { q.values with loads := loads } soils hs'
      (fun w hw => let hv := v.values w hw; ⟨hv.E, hv.nu, hv.rho, hv.A, hv.I, hv.kappa, hv.s1, hv.s2, hv.pad, hv.soil⟩) x y hx hy true
    exact (movesWell hR' (sound.nonEmpty _ soils) (inp := c.inputOf (d / r) { q.values with loads := loads } soils x y true) rfl rfl rfl rfl rfl
      (c.partsOf_soils _ _ soils) (hstand.fields (c.partsOf_nonNeg _ _ soils w hw
        fun w hw => let hm := hm w hw; ⟨hm.padMass, hm.soilMass, hm.sleeper, hm.padDamping, hm.soilDamping⟩)
        ⟨c.place x, List.mem_map_of_mem hx, sound.side_supported x y hx⟩ (rayleigh_nonneg hR' _ rfl rfl rfl rfl).1 freshFlags st hst)).matrices.passive
  obtain ⟨h1, res, h2⟩ := (v.runs.withTrack (c.numbered length)).stepsOn (hash := hash) (s.withTrack _) _ R hwf hfacts
    hpass hβ hγ times htimes u₀ v₀
  refine ⟨c, _, hc, hco, h1, res, fun solver hs => ?_⟩
  unfold TrackRide.mainOnCombined
  simp only [bind, Except.bind, hco]
  exact h2 solver hs

/-- **C174** The same on every such track with a hinge in its rail, of a fixity factor greater than 0 and at most 1, for trains that do not
go beyond the last node before the hinge. -/
theorem C174_hinged (g : GoodSegments r d segments) (length : ℝ) (hlength : 0 < length) (hsoils : segments.length ≤ soils.length)
    (hv : ∀ w ∈ soils, ({ q.values with soil := w } : TrackValues).Valid) (hk : 2 ≤ k) (hkm : k + 3 ≤ railCount r segments)
    (near : 1 / 100000000 + 1 / 100000 * ((k : ℝ) * (d / r)) < d / r) (f : ℝ) (hf : 0 < f) (hf1 : f ≤ 1) (v : q.Runs k (d / r))
    (hheld : q.held = true) (hm : ∀ w ∈ soils, ({ q.values with soil := w } : TrackValues).NonNeg) (hR : q.values.Rayleigh) (s : q.Steady)
    {β γ : ℝ} (hβ : 0 ≤ β) (hγ : 0 ≤ γ) (times : ℕ) (htimes : times ≤ q.time.length) (u₀ v₀ : ℕ → ℝ) :
    ∃ c run, combinedTrack hash r d segments = .ok c ∧ q.coupledOnHingedCombined c length soils f (k * (d / r)) = .ok run ∧
      (∃ solver, StepsOf hash run β γ q.time times u₀ v₀ solver) ∧
      ∃ res, ∀ solver, StepsOf hash run β γ q.time times u₀ v₀ solver →
        q.mainOnHingedCombined hash c length soils f (k * (d / r)) times solver = .ok res := by
  obtain ⟨c, σ, x, y, sys, hc, sound, hs', hx, hy, hσ, hsys, hp, he, hrun⟩ := hingedCombined_track (q := q) hash g length hsoils hv hk hkm
    near f hf.le hf1
  obtain ⟨nodes, R, hcut, hwf, hfacts⟩ := (v.withTrack (c.numbered length)).beforeHinge (sound.even length) hk hkm near hp f σ hσ
  rw [← hrun] at hcut
  have hpass : ∀ loads st, ({ sys with loads := loads } : SystemInput ℝ).initialise freshFlags = .ok st → Passive st.N st.M st.C st.Kg := by
    intro loads st hst
    obtain ⟨w, hw⟩ := sound.some_soil hs'
    obtain ⟨σ', hσ', hσ0⟩ := hingeStiffness_pos (hv w hw).E (hv w hw).I hlength hf hf1
    have hR' : ({ q.values with loads := loads } : TrackValues).Rayleigh := ⟨hR.ratio, hR.w1, hR.w2⟩
    obtain ⟨st', e2, e3⟩ := sound.hinged_moves { q.values with loads := loads } soils hs'
      (fun w hw => let hv := hv w hw; ⟨hv.E, hv.nu, hv.rho, hv.A, hv.I, hv.kappa, hv.s1, hv.s2, hv.pad, hv.soil⟩)
      (fun w hw => let hm := hm w hw; ⟨hm.padMass, hm.soilMass, hm.sleeper, hm.padDamping, hm.soilDamping⟩) hR' x y hx hy hk hkm (σ / 2)
      (fun h => by
        have : σ' = σ := by
          have := hσ'.symm.trans hσ
          injection this
        linarith) freshFlags
    subst he
    rw [hheld] at hst
    have e : st' = st := by
      have := e2.symm.trans hst
      injection this
    subst e
    exact e3.matrices.passive
  obtain ⟨h1, res, h2⟩ := (v.withTrack (c.numbered length)).stepsOn (hash := hash) (s.withTrack _) nodes R hwf hfacts
    hpass hβ hγ times htimes u₀ v₀
  refine ⟨c, _, hc, hcut, h1, res, fun solver hs => ?_⟩
  unfold TrackRide.mainOnHingedCombined
  simp only [bind, Except.bind, hcut]
  exact h2 solver hs

/-- The default trains other than the SLT have springs as required. -/
theorem default_springs (ty : TrainType) (hty : ty ≠ .sprinterSLT) (start : ℝ) (m : ℕ) (t : Train ℝ) (starts : List ℝ)
    (ht : setFullTrain ty start m = .ok (t, starts)) : t.Springs := by
  rw [setFullTrain_eq ty hty] at ht
  simp only [Except.ok.injEq, Prod.mk.injEq] at ht
  obtain ⟨rfl, -⟩ := ht
  have hh := typeData_heavy ty hty
  have hd : (0 : ℝ) ≤ (bodyData ty).cartDamping ∧ (0 : ℝ) ≤ (bodyData ty).bogieDamping := by
    cases ty <;> first | exact absurd rfl hty | (simp only [bodyData]; norm_num)
  refine ⟨?_, ?_, ?_⟩
  · intro d hdof
    cases d with
    | cartY i =>
      have hi : i < m := by simpa [Train.HasDof, row_length] using hdof
      simp only [Train.bodyInertia, (row_cart _ m i _).2 ⟨hi, rfl⟩, Option.map_some, Option.getD_some]
      linarith [hh.mass]
    | cartRot i =>
      have hi : i < m := by simpa [Train.HasDof, row_length] using hdof
      simp only [Train.bodyInertia, (row_cart _ m i _).2 ⟨hi, rfl⟩, Option.map_some, Option.getD_some]
      linarith [hh.cartInertia]
    | bogieY b =>
      obtain ⟨i, hi, k, hk, rfl⟩ := (row_mem_bogies _ m b).1 hdof
      simp only [Train.bodyInertia, row_bogie _ m i k hi hk]
      linarith [hh.bogieMass]
    | bogieRot b =>
      obtain ⟨i, hi, k, hk, rfl⟩ := (row_mem_bogies _ m b).1 hdof
      simp only [Train.bodyInertia, row_bogie _ m i k hi hk]
      linarith [hh.bogieInertia]
    | wheelY b j =>
      obtain ⟨i, hi, k, hk, rfl⟩ := (row_mem_bogies _ m b).1 hdof.1
      simp only [Train.bodyInertia, row_bogie _ m i k hi hk]
      rcases j with _ | _ | j <;> simp <;> linarith [hh.wheelMass]
  · intro c hc
    obtain ⟨i, -, rfl⟩ := row_mem_cart _ m c hc
    exact ⟨by linarith [hh.cartStiffness], hd.1, by simp⟩
  · intro b hb
    obtain ⟨i, hi, k, hk, rfl⟩ := (row_mem_bogies _ m b).1 hb
    rw [row_bogie _ m i k hi hk]
    exact ⟨by linarith [hh.bogieStiffness], hd.2, by simp⟩

theorem exampleRide_steady (track : HorizontalTrack ℝ) (t : Train ℝ × List ℝ) (ht : setFullTrain .doubleDekker 20 1 = .ok t) :
    (exampleRide track t).Steady := by
  refine ⟨default_springs .doubleDekker (by decide) 20 1 t.1 t.2 ht, fun _ => ?_, ?_, ?_⟩
  · norm_num [exampleRide]
  · norm_num [exampleRide]
  · intro k hk
    have hk' : k + 1 < 3 := hk
    have : k < 2 := by omega
    interval_cases k <;> norm_num [exampleRide]

/-- A double-dekker cart that crosses from 60 sleepers on soft soil to 50 sleepers on stiff soil, in steps of the Newmark method with constant
average acceleration from rest. -/
example : ∃ t, setFullTrain .doubleDekker 20 1 = .ok t ∧ ∀ track,
    ∃ c run, combinedTrack (fun p : Fin 3 → ℝ => p) 2 (3 / 5) [(60, 1), (50, 3)] = .ok c ∧
      (exampleRide track t).coupledOnCombined c (3 / 5) [⟨10 ^ 7, none, some 1000⟩, ⟨10 ^ 9, none, none⟩] = .ok run ∧
      (∃ solver, StepsOf (fun p : Fin 3 → ℝ => p) run (1 / 4) (1 / 2) [0, 1 / 100, 2 / 100] 3 0 0 solver) ∧
      ∃ res, ∀ solver, StepsOf (fun p : Fin 3 → ℝ => p) run (1 / 4) (1 / 2) [0, 1 / 100, 2 / 100] 3 0 0 solver →
        (exampleRide track t).mainOnCombined (fun p : Fin 3 → ℝ => p) c (3 / 5) [⟨10 ^ 7, none, some 1000⟩, ⟨10 ^ 9, none, none⟩] 3 solver =
          .ok res := by
  obtain ⟨t, ht, hv⟩ := exampleRide_validOn
  refine ⟨t, ht, fun track => C174_combined (hv track) rfl ?_ ?_ (exampleRide_steady track t ht) _ (by norm_num) (by norm_num) 3 le_rfl 0 0⟩
  · have h := exampleTrack_nonNeg
    intro w hw
    refine ⟨h.padMass, ?_, h.sleeper, h.padDamping, ?_⟩ <;>
      simp only [List.mem_cons, List.not_mem_nil, or_false] at hw <;>
      rcases hw with rfl | rfl <;> simp
  · have h := exampleTrack_rayleigh
    exact ⟨h.ratio, h.w1, h.w2⟩

end Rose
