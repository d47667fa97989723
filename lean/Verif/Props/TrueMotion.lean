/-
C195: the results of a calculation in time steps approach the motion of the structure.
-/
import Verif.Spec.TrueMotion
import Verif.Lemmas.StepConvergence
import Verif.Props.Delay

set_option linter.unusedSectionVars false

namespace Rose
open Finset

section
variable {sys : SystemInput ℝ} {dt : ℝ}

/-- The unknowns of a structure: `p k` is the dof of unknown `k`, and the work of a motion is that of the equations. -/
structure Unknowns (sys : SystemInput ℝ) (N : ℕ) (M C K : ℕ → ℕ → ℝ) (p : ℕ → ℕ × Fin 3) : Prop where
  free : ∀ k < N, (p k).1 < sys.n ∧ ¬ Spec.Removed sys (p k).1 (p k).2
  all : ∀ i < sys.n, ∀ d, ¬ Spec.Removed sys i d → ∃ k < N, p k = (i, d)
  inj : ∀ j < N, ∀ k < N, p j = p k → j = k
  work : ∀ w u v a, Spec.Admissible sys w → Spec.Admissible sys u → Spec.Admissible sys v → Spec.Admissible sys a →
    motionWork sys w u v a =
      ∑ k ∈ range N, w (p k).1 (p k).2 * ∑ j ∈ range N, (M k j * a (p j).1 (p j).2 + C k j * v (p j).1 (p j).2 + K k j * u (p j).1 (p j).2)

theorem HeldMoving.unknowns (h : HeldMoving sys) : ∃ N M C K p, Oscillator N M C K ∧ Unknowns sys N M C K p := by
  set c : SystemRun ℝ := ⟨sys, []⟩ with hcdef
  obtain ⟨st, hst, o⟩ := h.moves []
  have hst : c.input.initialise freshFlags = .ok st := hst
  obtain ⟨r1, r2, -⟩ := C106_representable c.input freshFlags st hst
  choose! p hp hpu using r1
  have hp : ∀ k < st.N, equationOf st.nodes (p k).1 (p k).2 = some k := hp
  have un := fun i hi d => C106_unknowns_partial c.input h.mesh h.aligned st hst i hi d
  refine ⟨st.N, st.M, st.C, st.Kg, p, o, fun k hk => ⟨(r2 _ _ _ (hp k hk)).1, fun hr => ?_⟩, fun i hi d hr => ?_, fun j hj k hk e => ?_,
    fun w u v a hw hu hv ha => ?_⟩
  · have := (un _ (r2 _ _ _ (hp k hk)).1 _).mpr hr
    rw [hp k hk] at this
    cases this
  · cases hk : equationOf st.nodes i d with
    | none => exact absurd ((un i hi d).mp hk) hr
    | some k => exact ⟨k, (r2 _ _ _ hk).2, (hpu k (r2 _ _ _ hk).2 (i, d) hk).symm⟩
  · have h1 := hp j hj
    rw [e, hp k hk] at h1
    exact (Option.some.inj h1).symm
  · have rep : ∀ W : Spec.NodalField ℝ, Spec.Admissible sys W → RepresentsField sys.n st.nodes (fun k => W (p k).1 (p k).2) W := by
      intro W hW
      refine ⟨fun i d j hj => ?_, fun i hi d hn => hW i hi d ((un i hi d).mp hn)⟩
      have := hpu j (r2 _ _ _ hj).2 (i, d) hj
      rw [← this]
    have hm := (C106_work_partial c.input freshFlags h.mesh h.aligned st hst _ _ _ _ (rep _ hw) (rep _ ha)).2.1
    obtain ⟨c1, c2, hc⟩ := C106_work_partial c.input freshFlags h.mesh h.aligned st hst _ _ _ _ (rep _ hw) (rep _ hv)
    have hk := (C106_work_partial c.input freshFlags h.mesh h.aligned st hst _ _ _ _ (rep _ hw) (rep _ hu)).1
    have hR : (rayleighPair c.input).1 * Spec.systemWork AssemblyPart.mass c.input.parts w v +
        (rayleighPair c.input).2 * Spec.systemWork AssemblyPart.stiffness c.input.parts w v = Spec.rayleighWork sys w v := by
      unfold rayleighPair Spec.rayleighWork
      show (if sys.isRayleigh = true then _ else _ : ℝ × ℝ).1 * _ + (if sys.isRayleigh = true then _ else _ : ℝ × ℝ).2 * _ = _
      split_ifs
      · rfl
      · simp
    rw [c1, c2, add_assoc, hR] at hc
    rw [matrixWork_eq] at hm hc hk
    have hm : _ = Spec.systemWork AssemblyPart.mass sys.parts _ _ := hm
    have hk : _ = Spec.systemWork AssemblyPart.stiffness sys.parts _ _ := hk
    have hc : _ = Spec.systemWork AssemblyPart.damping sys.parts _ _ + Spec.rayleighWork sys _ _ := hc
    unfold motionWork dampingWork
    rw [← hm, ← hc, ← hk, ← Finset.sum_add_distrib, ← Finset.sum_add_distrib]
    refine Finset.sum_congr rfl fun k _ => ?_
    rw [sum_three]
    ring

variable {N : ℕ} {M C K : ℕ → ℕ → ℝ} {p : ℕ → ℕ × Fin 3}

theorem Unknowns.unit (U : Unknowns sys N M C K p) {k : ℕ} (hk : k < N) : Spec.Admissible sys (Spec.unitField (p k).1 (p k).2) := by
  intro j _ e hx
  by_cases hje : j = (p k).1 ∧ e = (p k).2
  · exact absurd (hje.1 ▸ hje.2 ▸ hx) (U.free k hk).2
  · simp [Spec.unitField, hje]

/-- Work in the field of one unknown is the row of this unknown. -/
theorem Unknowns.row (U : Unknowns sys N M C K p) {k : ℕ} (hk : k < N) {u v a : Spec.NodalField ℝ} (hu : Spec.Admissible sys u)
    (hv : Spec.Admissible sys v) (ha : Spec.Admissible sys a) : motionWork sys (Spec.unitField (p k).1 (p k).2) u v a =
      ∑ j ∈ range N, (M k j * a (p j).1 (p j).2 + C k j * v (p j).1 (p j).2 + K k j * u (p j).1 (p j).2) := by
  rw [U.work _ u v a (U.unit hk) hu hv ha, Finset.sum_eq_single_of_mem k (mem_range.mpr hk)]
  · simp [Spec.unitField]
  · intro j hj hne
    have : ¬ ((p j).1 = (p k).1 ∧ (p j).2 = (p k).2) := fun e => hne (U.inj j (mem_range.mp hj) k hk (Prod.ext e.1 e.2))
    simp [Spec.unitField, this]

theorem nodeForceWork_unit {n : ℕ} (P : Spec.NodalField ℝ) {i : ℕ} (hi : i < n) (d : Fin 3) : Spec.nodeForceWork n P (Spec.unitField i d) = P i d := by
  unfold Spec.nodeForceWork
  rw [Finset.sum_eq_single_of_mem i (mem_range.mpr hi), Finset.sum_eq_single_of_mem d (Finset.mem_univ d)]
  · simp [Spec.unitField]
  · intro e _ he
    simp [Spec.unitField, he]
  · intro j _ hj
    simp [Spec.unitField, hj]

theorem Unknowns.forces (U : Unknowns sys N M C K p) {w : Spec.NodalField ℝ} (hw : Spec.Admissible sys w) (P : Spec.NodalField ℝ) :
    Spec.nodeForceWork sys.n P w = ∑ k ∈ range N, w (p k).1 (p k).2 * P (p k).1 (p k).2 := by
  unfold Spec.nodeForceWork
  rw [← Finset.sum_product' (range sys.n) Finset.univ fun i d => w i d * P i d,
    ← Finset.sum_image (s := range N) (g := p) (f := fun x : ℕ × Fin 3 => w x.1 x.2 * P x.1 x.2)]
  · refine (Finset.sum_subset (fun x hx => ?_) fun x hx hnot => ?_).symm
    · obtain ⟨k, hk, rfl⟩ := Finset.mem_image.mp hx
      exact Finset.mem_product.mpr ⟨mem_range.mpr (U.free k (mem_range.mp hk)).1, Finset.mem_univ _⟩
    · have hi := mem_range.mp (Finset.mem_product.mp hx).1
      by_cases hr : Spec.Removed sys x.1 x.2
      · rw [hw _ hi _ hr, zero_mul]
      · obtain ⟨k, hk, e⟩ := U.all _ hi _ hr
        exact absurd (Finset.mem_image.mpr ⟨k, mem_range.mpr hk, e⟩) hnot
  · intro j hj k hk e
    exact U.inj j (mem_range.mp (Finset.mem_coe.mp hj)) k (mem_range.mp (Finset.mem_coe.mp hk)) e

open Classical in
/-- The field of given unknowns. -/
noncomputable def unknownsField (N : ℕ) (p : ℕ → ℕ × Fin 3) (X : ℕ → ℝ) : Spec.NodalField ℝ := fun i d =>
  if h : ∃ k < N, p k = (i, d) then X h.choose else 0

theorem Unknowns.field_at (U : Unknowns sys N M C K p) (X : ℕ → ℝ) {k : ℕ} (hk : k < N) : unknownsField N p X (p k).1 (p k).2 = X k := by
  have h : ∃ j < N, p j = ((p k).1, (p k).2) := ⟨k, hk, rfl⟩
  unfold unknownsField
  rw [dif_pos h, U.inj _ h.choose_spec.1 k hk h.choose_spec.2]

theorem Unknowns.field_none (X : ℕ → ℝ) {i : ℕ} {d : Fin 3} (h : ¬ ∃ k < N, p k = (i, d)) : unknownsField N p X i d = 0 := by
  unfold unknownsField
  rw [dif_neg h]

theorem Unknowns.field_admissible (U : Unknowns sys N M C K p) (X : ℕ → ℝ) : Spec.Admissible sys (unknownsField N p X) := by
  intro i _ d hr
  refine Unknowns.field_none X ?_
  rintro ⟨k, hk, e⟩
  have := (U.free k hk).2
  rw [e] at this
  exact this hr

theorem Unknowns.field_outside (U : Unknowns sys N M C K p) (X : ℕ → ℝ) (i : ℕ) (hi : sys.n ≤ i) : unknownsField N p X i = 0 := by
  funext d
  refine Unknowns.field_none X ?_
  rintro ⟨k, hk, e⟩
  have := (U.free k hk).1
  rw [e] at this
  exact absurd this (not_lt.mpr hi)

/-- A motion of the structure is a motion of its unknowns. -/
theorem Unknowns.motion (U : Unknowns sys N M C K p) {P u v a : ℝ → Spec.NodalField ℝ} (m : Spec.TrueMotion sys P u v a) :
    Spec.Motion N M C K (fun t k => P t (p k).1 (p k).2) (fun t k => u t (p k).1 (p k).2) (fun t k => v t (p k).1 (p k).2)
      (fun t k => a t (p k).1 (p k).2) := by
  refine ⟨fun t ht k hk => m.velocity t ht _ (U.free k hk).1 _, fun t ht k hk => m.acceleration t ht _ (U.free k hk).1 _, fun t ht k hk => ?_⟩
  obtain ⟨a1, a2, a3⟩ := m.admissible t ht
  rw [← U.row hk a1 a2 a3]
  exact (m.balance t ht _ (U.unit hk)).trans (nodeForceWork_unit _ (U.free k hk).1 _)

/-- A motion of the unknowns is a motion of the structure. -/
theorem Unknowns.trueMotion (U : Unknowns sys N M C K p) {P : ℝ → Spec.NodalField ℝ} {u v a : ℝ → ℕ → ℝ}
    (m : Spec.Motion N M C K (fun t k => P t (p k).1 (p k).2) u v a) :
    Spec.TrueMotion sys P (fun t => unknownsField N p (u t)) (fun t => unknownsField N p (v t)) (fun t => unknownsField N p (a t)) := by
  have rate : ∀ x y : ℝ → ℕ → ℝ, (∀ t ≥ 0, ∀ k < N, HasDerivWithinAt (fun s => x s k) (y t k) (Set.Ici 0) t) → ∀ t ≥ 0, ∀ i d,
      HasDerivWithinAt (fun s => unknownsField N p (x s) i d) (unknownsField N p (y t) i d) (Set.Ici 0) t := by
    intro x y hxy t ht i d
    by_cases h : ∃ k < N, p k = (i, d)
    · obtain ⟨k, hk, e⟩ := h
      have e1 : (p k).1 = i := by rw [e]
      have e2 : (p k).2 = d := by rw [e]
      rw [← e1, ← e2]
      simp only [U.field_at _ hk]
      exact hxy t ht k hk
    · simp only [Unknowns.field_none _ h]
      exact hasDerivWithinAt_const _ _ _
  refine ⟨fun t _ => ⟨U.field_admissible _, U.field_admissible _, U.field_admissible _⟩,
    fun t _ i hi => ⟨U.field_outside _ i hi, U.field_outside _ i hi, U.field_outside _ i hi⟩,
    fun t ht i _ d => rate u v m.velocity t ht i d, fun t ht i _ d => rate v a m.acceleration t ht i d, fun t ht w hw => ?_⟩
  show motionWork sys w _ _ _ = _
  rw [U.work w _ _ _ hw (U.field_admissible _) (U.field_admissible _) (U.field_admissible _), U.forces hw]
  refine Finset.sum_congr rfl fun k hk => ?_
  rw [← m.balance t ht k (mem_range.mp hk)]
  congr 1
  refine Finset.sum_congr rfl fun j hj => ?_
  rw [U.field_at _ (mem_range.mp hj), U.field_at _ (mem_range.mp hj), U.field_at _ (mem_range.mp hj)]

/-- What holds at all unknowns of two motions holds at all dofs. -/
theorem Unknowns.close (U : Unknowns sys N M C K p) {u u' : Spec.NodalField ℝ} (hu : Spec.Admissible sys u) (hu' : Spec.Admissible sys u') {ε : ℝ}
    (hε : 0 ≤ ε) (hk : ∀ k < N, |u (p k).1 (p k).2 - u' (p k).1 (p k).2| ≤ ε) : ∀ i < sys.n, ∀ d, |u i d - u' i d| ≤ ε := by
  intro i hi d
  by_cases hr : Spec.Removed sys i d
  · rw [hu i hi d hr, hu' i hi d hr, sub_zero, abs_zero]
    exact hε
  · obtain ⟨k, hkN, e⟩ := U.all i hi d hr
    have := hk k hkN
    rw [e] at this
    exact this

theorem Unknowns.steps (U : Unknowns sys N M C K p) {P u v : ℝ → Spec.NodalField ℝ} (h : HeldMoving sys) (hdt : 0 < dt) {T : ℝ}
    {times : ℕ} {loads : List (TimedLoad ℝ)} {r : List (List (NodeRow ℝ))}
    (hs : Spec.Sampled sys P T dt times loads) (R : Spec.DynamicResults sys loads dt times (u 0) (v 0) r) (n : ℕ) (hn : n < times) :
    (Spec.Admissible sys (Spec.shape r n) ∧ Spec.Admissible sys (Spec.shapeRate r n) ∧ Spec.Admissible sys (Spec.shapeAcceleration r n)) ∧
    Spec.NewmarkSteps N M C K (1 / 4) (1 / 2) dt n (fun (s : ℕ) k => P (s * dt) (p k).1 (p k).2) (fun s k => Spec.shape r s (p k).1 (p k).2)
      (fun s k => Spec.shapeRate r s (p k).1 (p k).2) (fun s k => Spec.shapeAcceleration r s (p k).1 (p k).2) ∧
    ∀ k < N, Spec.shape r 0 (p k).1 (p k).2 = u 0 (p k).1 (p k).2 ∧ Spec.shapeRate r 0 (p k).1 (p k).2 = v 0 (p k).1 (p k).2 := by
  obtain ⟨f, z⟩ := h.results hdt hs.1 R
  refine ⟨f.admissible n hn, ⟨fun s hsn k hk => ?_, fun s hsn k hk => ?_, fun s hsn k hk => ?_⟩, fun k hk => z _ (U.free k hk).1 _ (U.free k hk).2 (by omega)⟩
  · obtain ⟨a1, a2, a3⟩ := f.admissible s (by omega)
    rw [← U.row hk a1 a2 a3, f.balance s (by omega) _ (U.unit hk), (hs.2 s (by omega)).2 _ (U.unit hk), nodeForceWork_unit _ (U.free k hk).1]
  · rw [f.displacement s (by omega)]
    ring
  · rw [f.velocity s (by omega)]
    ring

theorem HeldMoving.approachesMotion (h : HeldMoving sys) : Spec.ApproachesMotion sys := by
  obtain ⟨N, M, C, K, p, o, U⟩ := h.unknowns
  refine ⟨fun P u₀ v₀ hP hu hv => ?_, fun P u v a u' v' a' hP m m' h0 t ht => ?_, fun P u v a hP m T hT ε hε => ?_,
    fun P P' P'' u v a hP hP' hP'' m T hT => ?_⟩
  · obtain ⟨u, v, a, m, h0, -⟩ := o.wellPosed (fun t k => P t (p k).1 (p k).2) (fun k hk => hP _ (U.free k hk).1 _)
      (fun k => u₀ (p k).1 (p k).2) (fun k => v₀ (p k).1 (p k).2)
    refine ⟨_, _, _, U.trueMotion m, fun i hi => ⟨?_, ?_⟩⟩ <;> funext d <;> by_cases hr : Spec.Removed sys i d
    · rw [hu i hi d hr, U.field_admissible _ i hi d hr]
    · obtain ⟨k, hk, e⟩ := U.all i hi d hr
      have := (h0 k hk).1
      rw [← U.field_at (u 0) hk, e] at this
      exact this
    · rw [hv i hi d hr, U.field_admissible _ i hi d hr]
    · obtain ⟨k, hk, e⟩ := U.all i hi d hr
      have := (h0 k hk).2
      rw [← U.field_at (v 0) hk, e] at this
      exact this
  · obtain ⟨x, y, z, -, -, one⟩ := o.wellPosed (fun t k => P t (p k).1 (p k).2) (fun k hk => hP _ (U.free k hk).1 _)
      (fun k => u 0 (p k).1 (p k).2) (fun k => v 0 (p k).1 (p k).2)
    have e := one _ _ _ (U.motion m) (fun k hk => ⟨rfl, rfl⟩) t ht
    have e' := one _ _ _ (U.motion m') (fun k hk => ⟨congrFun (h0 _ (U.free k hk).1).1 _, congrFun (h0 _ (U.free k hk).1).2 _⟩) t ht
    obtain ⟨a1, a2, a3⟩ := m.admissible t ht
    obtain ⟨b1, b2, b3⟩ := m'.admissible t ht
    have same : ∀ x y : Spec.NodalField ℝ, Spec.Admissible sys x → Spec.Admissible sys y → (∀ i, sys.n ≤ i → x i = 0 ∧ y i = 0) →
        (∀ k < N, x (p k).1 (p k).2 = y (p k).1 (p k).2) → x = y := by
      intro x y hx hy ho hk
      funext i d
      by_cases hi : i < sys.n
      · have := U.close hx hy le_rfl (fun k hkN => by rw [hk k hkN, sub_self, abs_zero]) i hi d
        exact sub_eq_zero.mp (abs_eq_zero.mp (le_antisymm this (abs_nonneg _)))
      · rw [(ho i (by omega)).1, (ho i (by omega)).2]
    refine ⟨same _ _ b1 a1 (fun i hi => ⟨(m'.outside t ht i hi).1, (m.outside t ht i hi).1⟩) fun k hk => ?_,
      same _ _ b2 a2 (fun i hi => ⟨(m'.outside t ht i hi).2.1, (m.outside t ht i hi).2.1⟩) fun k hk => ?_,
      same _ _ b3 a3 (fun i hi => ⟨(m'.outside t ht i hi).2.2, (m.outside t ht i hi).2.2⟩) fun k hk => ?_⟩
    · exact (e' k hk).1.trans (e k hk).1.symm
    · exact (e' k hk).2.1.trans (e k hk).2.1.symm
    · exact (e' k hk).2.2.trans (e k hk).2.2.symm
  · obtain ⟨δ, hδ, conv⟩ := o.stepsConverge _ _ _ _ (fun k hk => hP _ (U.free k hk).1 _) (U.motion m) T hT ε hε
    refine ⟨δ, hδ, fun dt hdt hlt times loads r hs R n hn => ?_⟩
    obtain ⟨⟨a1, a2, a3⟩, st, h0⟩ := U.steps h hdt hs R n hn
    have key := conv dt hdt hlt n _ _ _ (hs.2 n hn).1 st h0
    obtain ⟨b1, b2, b3⟩ := m.admissible (n * dt) (by positivity)
    exact fun i hi d => ⟨U.close a1 b1 hε.le (fun k hk => (key k hk).1) i hi d, U.close a2 b2 hε.le (fun k hk => (key k hk).2.1) i hi d,
      U.close a3 b3 hε.le (fun k hk => (key k hk).2.2) i hi d⟩
  · obtain ⟨c, conv⟩ := o.stepsSecondOrder _ (fun t k => P' t (p k).1 (p k).2) (fun t k => P'' t (p k).1 (p k).2) _ _ _
      (fun k hk => hP _ (U.free k hk).1 _) (fun k hk => hP' _ (U.free k hk).1 _) (fun k hk => hP'' _ (U.free k hk).1 _) (U.motion m) T hT
    refine ⟨max c 0, fun dt hdt times loads r hs R n hn => ?_⟩
    obtain ⟨⟨a1, a2, a3⟩, st, h0⟩ := U.steps h hdt hs R n hn
    have key := conv dt hdt n _ _ _ (hs.2 n hn).1 st h0
    have pos : 0 ≤ max c 0 * dt ^ 2 := by positivity
    have le : c * dt ^ 2 ≤ max c 0 * dt ^ 2 := by gcongr; exact le_max_left _ _
    obtain ⟨b1, b2, b3⟩ := m.admissible (n * dt) (by positivity)
    exact fun i hi d => ⟨U.close a1 b1 pos (fun k hk => (key k hk).1.trans le) i hi d, U.close a2 b2 pos (fun k hk => (key k hk).2.1.trans le) i hi d,
      U.close a3 b3 pos (fun k hk => (key k hk).2.2.trans le) i hi d⟩

end

/-! ### Tracks -/

/-- **C195** For every generated track with at least two sleepers on its boundaries: for forces that are continuous in time there is exactly one
motion from every admissible start, the results of average acceleration steps approach it, and with the square of the step size if the forces are
smooth. -/
theorem C195_track {H : Type*} [DecidableEq H] (hash : (Fin 3 → ℝ) → H) (n r : ℕ) (hn : 2 ≤ n) (hr : 0 < r) (d h : ℝ)
    (hd : 1 / 1000000000 < d / r) (hh : 1 / 1000000000 < h) (t : HorizontalTrack ℝ)
    (ht : createHorizontalTrack hash n r d h = .ok t) (v : TrackValues) (hv : v.Valid) (hm : v.NonNeg) (hR : v.Rayleigh) :
    ∃ inp, t.system v true = .ok inp ∧ Spec.ApproachesMotion inp := by
  have g : Generated hash n r d h t := ⟨by nlinarith, hd, hh, ht⟩
  exact ⟨_, g.system v true, (g.heldMoving hn hr hv hm hR).approachesMotion⟩

section combined
variable {H : Type*} [DecidableEq H] (hash : (Fin 3 → ℝ) → H) {r k : ℕ} {d : ℝ} {segments : List (ℕ × ℝ)}

/-- **C195** The same for every track that is combined from segments. -/
theorem C195_combined (g : GoodSegments r d segments) (length : ℝ) (v : TrackValues) (soils : List (RodValues ℝ))
    (hs : segments.length ≤ soils.length) (hv : ∀ w ∈ soils, ({ v with soil := w } : TrackValues).Valid)
    (hm : ∀ w ∈ soils, ({ v with soil := w } : TrackValues).NonNeg) (hR : v.Rayleigh) :
    ∃ c inp, combinedTrack hash r d segments = .ok c ∧ c.system length v soils true = .ok inp ∧ Spec.ApproachesMotion inp := by
  obtain ⟨c, hc, s, -, -, -, -, -, -, hlen, -⟩ := C136_structure hash g
  have hs' : c.soils.length ≤ soils.length := by omega
  obtain ⟨a, b, ha, hb, hsys⟩ := s.system length v soils hs' true
  exact ⟨c, _, hc, hsys, (s.heldMoving v soils hs' hv hm hR a b (List.mem_of_head? ha) (List.mem_of_getLast? hb)).approachesMotion⟩

/-- **C195** The same with a hinge in the rail, of a fixity factor greater than 0 and at most 1. -/
theorem C195_hinged (g : GoodSegments r d segments) (length : ℝ) (hlength : 0 < length) (v : TrackValues)
    (soils : List (RodValues ℝ)) (hs : segments.length ≤ soils.length) (hv : ∀ w ∈ soils, ({ v with soil := w } : TrackValues).Valid)
    (hm : ∀ w ∈ soils, ({ v with soil := w } : TrackValues).NonNeg) (hR : v.Rayleigh)
    (hk : 2 ≤ k) (hkm : k + 3 ≤ railCount r segments) (near : 1 / 100000000 + 1 / 100000 * ((k : ℝ) * (d / r)) < d / r)
    (f : ℝ) (hf : 0 < f) (hf1 : f ≤ 1) :
    ∃ c inp, combinedTrack hash r d segments = .ok c ∧ c.hingedSystem length v soils f (k * (d / r)) true = .ok inp ∧
      Spec.ApproachesMotion inp := by
  obtain ⟨c, hc, sound, -, -, -, -, -, -, hlen, -⟩ := C136_structure hash g
  have hs' : c.soils.length ≤ soils.length := by omega
  obtain ⟨w, hw⟩ := sound.some_soil hs'
  obtain ⟨σ, hσ, hσ0⟩ := hingeStiffness_pos (hv w hw).E (hv w hw).I hlength hf hf1
  obtain ⟨a, b, ha, hb, hsys⟩ := sound.hingedSystem length v soils hs' true hk hkm near f σ hσ
  exact ⟨c, _, hc, hsys, (sound.hinged_heldMoving v soils hs' hv hm hR a b (List.mem_of_head? ha) (List.mem_of_getLast? hb) hk hkm (σ / 2)
    (fun h => by linarith)).approachesMotion⟩

/-- **C195** The same with a free pin, if there are three or more sleepers and one of them is behind the pin. -/
theorem C195_pinned (g : GoodSegments r d segments) (length : ℝ) (v : TrackValues)
    (soils : List (RodValues ℝ)) (hs : segments.length ≤ soils.length) (hv : ∀ w ∈ soils, ({ v with soil := w } : TrackValues).Valid)
    (hm : ∀ w ∈ soils, ({ v with soil := w } : TrackValues).NonNeg) (hR : v.Rayleigh) (h3 : 3 ≤ (segments.map Prod.fst).sum)
    (hk : 2 ≤ k) (hkm : k + 3 ≤ railCount r segments) (hkr : k + r < railCount r segments)
    (near : 1 / 100000000 + 1 / 100000 * ((k : ℝ) * (d / r)) < d / r) :
    ∃ c inp, combinedTrack hash r d segments = .ok c ∧ c.hingedSystem length v soils 0 (k * (d / r)) true = .ok inp ∧
      Spec.ApproachesMotion inp := by
  obtain ⟨c, hc, sound, -, -, -, -, -, -, hlen, -⟩ := C136_structure hash g
  have hs' : c.soils.length ≤ soils.length := by omega
  obtain ⟨a, b, ha, hb, hsys⟩ := sound.hingedSystem length v soils hs' true hk hkm near 0 0 (hingeStiffness_zero _ _ _)
  have hx := List.mem_of_head? ha
  have hy := List.mem_of_getLast? hb
  have hh := sound.hinged_heldMoving v soils hs' hv hm hR a b hx hy hk hkm (0 / 2)
    (fun _ => Or.inl (combined_holdsPin hash g v soils h3 (by omega) hkr c hc))
  exact ⟨c, _, hc, hsys, hh.approachesMotion⟩

end combined

/-- Three sleepers at rest under a force that grows with the square of time on the second rail node: there is exactly one motion, every calculation
in steps of some size has results, and over ten seconds they differ from the motion by at most a constant times the square of the step size. -/
example : ∃ t, createHorizontalTrack (fun p : Fin 3 → ℝ => p) 3 2 (3 / 5) 1 = .ok t ∧ ∃ inp, t.system exampleTrack true = .ok inp ∧
    ∃ u v a, Spec.TrueMotion inp (fun s i d => if i = t.position 1 ∧ d = 1 then -1000 * s ^ 2 else 0) u v a ∧ ∃ c : ℝ, ∀ (dt : ℝ) (times : ℕ), 0 < dt →
      (times - 1) * dt ≤ 10 → ∃ r, Spec.DynamicResults inp [Spec.forceAt (t.position 1) 1 fun k => -1000 * (k * dt) ^ 2] dt times 0 0 r ∧
        Spec.CloseToMotion inp.n u v a dt times r (c * dt ^ 2) := by
  obtain ⟨t, ht, -⟩ := C48_structure (fun p : Fin 3 → ℝ => p) 3 2 (by norm_num) (3 / 5) 1
  have g : Generated (fun p : Fin 3 → ℝ => p) 3 2 (3 / 5) 1 t := ⟨by norm_num, by norm_num, by norm_num, ht⟩
  have hh := g.heldMoving (by norm_num) (by norm_num) exampleTrack_valid exampleTrack_nonNeg exampleTrack_rayleigh
  have within : t.position 1 < (generatedInput t 3 2 (3 / 5) exampleTrack true).n := g.position.1 1 (by norm_num)
  have A := hh.approachesMotion
  set sys := generatedInput t 3 2 (3 / 5) exampleTrack true with hsys
  have d1 : ∀ i d, ∀ s ≥ (0 : ℝ), HasDerivWithinAt (fun s : ℝ => if i = t.position 1 ∧ d = (1 : Fin 3) then -1000 * s ^ 2 else 0)
      (if i = t.position 1 ∧ d = 1 then -2000 * s else 0) (Set.Ici 0) s := by
    intro i d s _
    split_ifs
    · have := ((hasDerivAt_pow 2 s).const_mul (-1000)).hasDerivWithinAt (s := Set.Ici 0)
      rwa [show -1000 * (((2 : ℕ) : ℝ) * s ^ (2 - 1)) = -2000 * s by push_cast; ring] at this
    · exact hasDerivWithinAt_const _ _ _
  have d2 : ∀ i d, ∀ s ≥ (0 : ℝ), HasDerivWithinAt (fun s : ℝ => if i = t.position 1 ∧ d = (1 : Fin 3) then -2000 * s else 0)
      (if i = t.position 1 ∧ d = 1 then -2000 else 0) (Set.Ici 0) s := by
    intro i d s _
    split_ifs
    · have := ((hasDerivAt_id s).const_mul (-2000)).hasDerivWithinAt (s := Set.Ici 0)
      rwa [mul_one] at this
    · exact hasDerivWithinAt_const _ _ _
  have zero : Spec.Admissible sys 0 := fun _ _ _ _ => rfl
  obtain ⟨u, v, a, m, h0⟩ := A.exist (fun s i d => if i = t.position 1 ∧ d = 1 then -1000 * s ^ 2 else 0) 0 0
    (fun i _ d s hs => (d1 i d s hs).continuousWithinAt) zero zero
  have z : u 0 = 0 ∧ v 0 = 0 := by
    constructor <;> funext i <;> by_cases hi : i < sys.n
    · exact (h0 i hi).1
    · exact (m.outside 0 le_rfl i (by omega)).1
    · exact (h0 i hi).2
    · exact (m.outside 0 le_rfl i (by omega)).2.1
  obtain ⟨c, hc⟩ := A.secondOrder _ (fun s i d => if i = t.position 1 ∧ d = 1 then -2000 * s else 0)
    (fun _ i d => if i = t.position 1 ∧ d = 1 then -2000 else 0) u v a (fun i _ d => d1 i d) (fun i _ d => d2 i d) (fun i _ d => continuousOn_const) m 10
    (by norm_num)
  refine ⟨t, ht, sys, g.system _ true, u, v, a, m, c, fun dt times hdt hT => ?_⟩
  obtain ⟨r, R⟩ := hh.hasResults hdt [Spec.forceAt (t.position 1) 1 fun k => -1000 * (k * dt) ^ 2] times 0 0 (forceAt_fits _ within)
  refine ⟨r, R, hc dt hdt times _ r ⟨forceAt_fits _ within, fun k hk => ⟨?_, fun w _ => ?_⟩⟩ (by rw [z.1, z.2]; exact R)⟩
  · have : (k : ℝ) ≤ times - 1 := by
      have : ((k + 1 : ℕ) : ℝ) ≤ times := by exact_mod_cast hk
      push_cast at this
      linarith
    exact (mul_le_mul_of_nonneg_right this hdt.le).trans hT
  · rw [forceAt_work]
    unfold Spec.nodeForceWork
    rw [Finset.sum_eq_single_of_mem (t.position 1) (mem_range.mpr within), Finset.sum_eq_single_of_mem 1 (Finset.mem_univ _)]
    · simp
    · intro e _ he
      simp [he]
    · intro j _ hj
      simp [hj]

end Rose
