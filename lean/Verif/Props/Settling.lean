/-
C183: dynamic results under loads that stay constant.
-/
import Verif.Spec.Settling
import Verif.Lemmas.Settling
import Verif.Props.LinearDynamics

set_option linter.unusedSectionVars false

namespace Rose
open Finset Filter Topology

section
variable {sys : SystemInput ℝ} {dt : ℝ}

/-! ### Sudden loads -/

theorem HeldMoving.sudden (h : HeldMoving sys) (hdt : 0 < dt) {loads : List (TimedLoad ℝ)} {timesS times : ℕ} {rs r : List (List (NodeRow ℝ))}
    (hl : ∀ l ∈ loads, Spec.LoadFits sys.n l) (hc : ∀ t, Spec.loadsAt loads t = Spec.loadsAt loads 0)
    (S : Spec.StaticResults sys loads timesS rs) (hS : 0 < timesS) (R : Spec.DynamicResults sys loads dt times 0 0 r) (t : ℕ) (ht : t < times) :
    Spec.Admissible sys (Spec.shape r t) ∧
    Spec.systemWork AssemblyPart.stiffness sys.parts (Spec.shape r t) (Spec.shape r t) ≤
      2 * Spec.loadWork (Spec.loadsAt loads 0) (Spec.shape r t) ∧
    0 ≤ Spec.loadWork (Spec.loadsAt loads 0) (Spec.shape r t) ∧
      Spec.loadWork (Spec.loadsAt loads 0) (Spec.shape r t) ≤ 2 * Spec.loadWork (Spec.loadsAt loads 0) (Spec.shape rs 0) := by
  have L := h.linear hdt
  obtain ⟨f, -⟩ := h.results hdt hl R
  have adm0 : ∀ w : Spec.NodalField ℝ, w = 0 → Spec.Admissible sys w := fun w hw i _ d _ => by rw [hw]; rfl
  have hloads : ∀ u w : Spec.NodalField ℝ, Spec.loadWork (Spec.loadsAt loads 0) (fun i d => u i d - w i d) =
      Spec.loadWork (Spec.loadsAt loads 0) u - Spec.loadWork (Spec.loadsAt loads 0) w := by
    intro u w
    have := loadWork_combine (Spec.loadsAt loads 0) (-1) u w
    rw [show (fun i d => u i d - w i d) = fun i d => u i d + -1 * w i d by funext i d; ring, this]
    ring
  have energy : ∀ s < times, Spec.mechanicalEnergy sys (Spec.shape r s) (Spec.shapeRate r s) ≤
      Spec.loadWork (Spec.loadsAt loads 0) (Spec.shape r s) := by
    intro s
    induction s with
    | zero =>
      intro h0
      have hst := L.start loads times 0 0 r hl (adm0 _ rfl) (adm0 _ rfl) R h0
      have e1 : Spec.shape r 0 = 0 := by
        funext i
        by_cases hi : i < sys.n
        · exact (hst i hi).1
        · exact (f.outside 0 h0 i (by omega)).1
      have e2 : Spec.shapeRate r 0 = 0 := by
        funext i
        by_cases hi : i < sys.n
        · exact (hst i hi).2
        · exact (f.outside 0 h0 i (by omega)).2.1
      have z1 : ∀ (matrix : AssemblyPart ℝ → Option (ℕ × ℕ → ℝ)) (u : Spec.NodalField ℝ), Spec.systemWork matrix sys.parts 0 u = 0 := by
        intro matrix u
        have := systemWork_combine matrix sys.parts (-1) (0 : Spec.NodalField ℝ) 0 u
        rw [show (fun i d => (0 : Spec.NodalField ℝ) i d + -1 * (0 : Spec.NodalField ℝ) i d) = 0 by funext i d; simp] at this
        rw [this]; ring
      have z2 : Spec.loadWork (Spec.loadsAt loads 0) 0 = 0 := by
        have := loadWork_combine (Spec.loadsAt loads 0) (-1) (0 : Spec.NodalField ℝ) 0
        rw [show (fun i d => (0 : Spec.NodalField ℝ) i d + -1 * (0 : Spec.NodalField ℝ) i d) = 0 by funext i d; simp] at this
        rw [this]; ring
      unfold Spec.mechanicalEnergy
      rw [e1, e2, z1, z1, z2]
      simp
    | succ s ih =>
      intro hs
      obtain ⟨lost, h0, -, he⟩ := L.energy loads times 0 0 r hl R s hs
      rw [hc s, hc (s + 1), hloads] at he
      have := ih (by omega)
      linarith
  obtain ⟨ha, -, -⟩ := f.admissible t ht
  obtain ⟨hb, heq⟩ := h.still.equilibrium hl S hS
  have hm := (h.positive _ (f.admissible t ht).2.1).1.1
  have hE := energy t ht
  unfold Spec.mechanicalEnergy at hE
  set k := Spec.systemWork AssemblyPart.stiffness sys.parts
  set u := Spec.shape r t
  set w := Spec.shape rs 0
  have e1 := heq u ha
  have e2 := heq w hb
  have hk := (h.still.energy _ (admissible_combine ha hb (-2))).1
  have e3 : k (fun i d => u i d + -2 * w i d) (fun i d => u i d + -2 * w i d) = k u u - 4 * k u w + 4 * k w w := by
    show Spec.systemWork _ _ _ _ = _
    rw [h.still.work_combine, systemWork_combine, systemWork_combine, h.still.work_symm w u]
    ring
  have hk : 0 ≤ k (fun i d => u i d + -2 * w i d) (fun i d => u i d + -2 * w i d) := hk
  rw [e3, e1, e2] at hk
  have hku := (h.still.energy _ ha).1
  have hku : 0 ≤ k u u := hku
  exact ⟨ha, by linarith, by linarith, by linarith⟩

theorem HeldMoving.atMostTwice (h : HeldMoving sys) (hdt : 0 < dt) : Spec.AtMostTwice sys dt where
  work := fun loads timesS rs times r hl hc S hS R t ht => (h.sudden hdt hl hc S hS R t ht).2.2
  point := by
    intro m hm d f timesS rs times r S hS R t ht
    have fit : ∀ l ∈ [(⟨[m], fun e => decide (e = d), .table fun _ _ e => if e = d then f else 0⟩ : TimedLoad ℝ)], Spec.LoadFits sys.n l := by
      intro l hl
      obtain rfl := List.mem_singleton.mp hl
      refine ⟨by simp, fun x hx => ?_⟩
      obtain rfl : x = m := by simpa using hx
      exact hm
    obtain ⟨ha, h1, h2, h3⟩ := h.sudden hdt fit (fun t => by simp [Spec.loadsAt]) S hS R t ht
    have hw : ∀ u : Spec.NodalField ℝ, Spec.loadWork (Spec.loadsAt
        [(⟨[m], fun e => decide (e = d), .table fun _ _ e => if e = d then f else 0⟩ : TimedLoad ℝ)] 0) u = u m d * f := by
      intro u
      unfold Spec.loadWork Spec.loadsAt
      simp
    rw [hw] at h1 h2 h3
    rw [hw] at h3
    by_cases hf : f = 0
    · rw [hf, mul_zero, mul_zero] at h1
      have z := congrFun ((h.still.energy _ ha).2 (le_antisymm h1 (h.still.energy _ ha).1) m hm) d
      have z : Spec.shape r t m d = 0 := z
      rw [z]
      simp
    · have hp := abs_pos.mpr hf
      have h4 : 0 ≤ Spec.shape rs 0 m d * f := by linarith
      constructor
      · have key : |Spec.shape r t m d| * |f| ≤ 2 * |Spec.shape rs 0 m d| * |f| := by
          rw [← abs_mul, mul_assoc, ← abs_mul, abs_of_nonneg h2, abs_of_nonneg h4]
          exact h3
        exact le_of_mul_le_mul_right key hp
      · have h5 : 0 ≤ Spec.shape r t m d * Spec.shape rs 0 m d * f ^ 2 := by
          have := mul_nonneg h2 h4
          nlinarith
        exact nonneg_of_mul_nonneg_left h5 (by positivity)

/-! ### Settling -/

/-- A structure that moves well, with dampers that take no negative power and Rayleigh damping of a positive ratio. -/
structure HeldDamped (sys : SystemInput ℝ) : Prop extends HeldMoving sys where
  dampers : ∀ w, Spec.Admissible sys w → 0 ≤ Spec.systemWork AssemblyPart.damping sys.parts w w
  isRayleigh : sys.isRayleigh = true
  ratio : 0 < sys.ratio
  w1 : 0 < sys.w1
  w2 : 0 < sys.w2

theorem HeldDamped.definite (h : HeldDamped sys) (loads : List (TimedLoad ℝ)) (st : TrimState ℝ)
    (hst : (SystemRun.input ⟨sys, loads⟩).initialise freshFlags = .ok st) (U : ℕ → ℝ) (h0 : form st.N st.C U U = 0) : ∀ k < st.N, U k = 0 := by
  set c : SystemRun ℝ := ⟨sys, loads⟩ with hc
  have hU := fieldOf_represents sys.n st.nodes U
  have hadm := represents_admissible c h.mesh h.aligned st hst _ _ hU
  obtain ⟨e1, e2, e3⟩ := C106_work_partial c.input freshFlags h.mesh h.aligned st hst U U _ _ hU hU
  obtain ⟨st', hst', o⟩ := h.moves (loads.map TimedLoad.initial)
  have hst' : c.input.initialise freshFlags = .ok st' := hst'
  rw [hst] at hst'
  injection hst' with hst'
  subst hst'
  have hd := h.dampers _ hadm
  have hd : 0 ≤ Spec.systemWork AssemblyPart.damping c.input.parts (fieldOf st.nodes U) (fieldOf st.nodes U) := hd
  have hm := (o.mass U).1
  have hk := o.stiff U
  rw [form_matrixWork] at h0 hm hk
  have hr := h.ratio; have h1 := h.w1; have h2 := h.w2
  have p1 : 0 < (rayleighPair c.input).1 := by
    unfold rayleighPair
    rw [show c.input.isRayleigh = true from h.isRayleigh]
    simp only [if_true]
    show 0 < 2 * sys.ratio * sys.w1 * sys.w2 / (sys.w1 + sys.w2)
    positivity
  have p2 : 0 < (rayleighPair c.input).2 := by
    unfold rayleighPair
    rw [show c.input.isRayleigh = true from h.isRayleigh]
    simp only [if_true]
    show 0 < 2 * sys.ratio / (sys.w1 + sys.w2)
    positivity
  refine hk.2 ?_
  have q1 := mul_nonneg p1.le hm
  have q2 := mul_nonneg p2.le hk.1
  have : (rayleighPair c.input).2 * matrixWork st.N st.Kg U U = 0 := by linarith
  rcases mul_eq_zero.mp this with h | h
  · exact absurd h p2.ne'
  · exact h

/-- The results of all calculations from the same start under the same loads are the first steps of the same sequence. -/
theorem HeldMoving.sequence (h : HeldMoving sys) (hdt : 0 < dt) (loads : List (TimedLoad ℝ)) (u₀ v₀ : Spec.NodalField ℝ) :
    ∃ st x y z, (SystemRun.input ⟨sys, loads⟩).initialise freshFlags = .ok st ∧ Oscillator st.N st.M st.C st.Kg ∧
      (∀ m, Spec.NewmarkSteps st.N st.M st.C st.Kg (1 / 4) (1 / 2) dt m (fun t => SystemRun.rhs ⟨sys, loads⟩ st [] t) x y z) ∧
      ∀ times r, Spec.DynamicResults sys loads dt times u₀ v₀ r → ∀ t < times, ∀ i d k, equationOf st.nodes i d = some k →
        Spec.shape r t i d = x t k ∧ Spec.shapeRate r t i d = y t k ∧ Spec.shapeAcceleration r t i d = z t k := by
  set c : SystemRun ℝ := ⟨sys, loads⟩ with hcdef
  obtain ⟨st, hst, o⟩ := h.moves (loads.map TimedLoad.initial)
  have hst : c.input.initialise freshFlags = .ok st := hst
  obtain ⟨r1, r2, -⟩ := C106_representable c.input freshFlags st hst
  choose! p hp hpu using r1
  have hp : ∀ k < st.N, equationOf st.nodes (p k).1 (p k).2 = some k := hp
  obtain ⟨x, y, z, h1, h2, h3⟩ := o.stepsDefined (β := 1 / 4) (γ := 1 / 2) (by norm_num) (by norm_num) hdt
    (fun t => c.rhs st [] t) (fun k => u₀ (p k).1 (p k).2) (fun k => v₀ (p k).1 (p k).2)
  refine ⟨st, x, y, z, hst, o, h1, fun times r R t ht i d k hk => ?_⟩
  obtain ⟨solver, st', hs, hrun⟩ := R
  rw [main_eq c freshFlags times solver st hst] at hrun
  injection hrun with hrun
  obtain ⟨-, rfl⟩ := Prod.mk.inj hrun
  set out := solver st (c.rhs st) with hout
  have steps : Spec.AverageSteps st (c.rhs st) dt times u₀ v₀ out := by
    refine hs st _ ⟨⟨x, y, z⟩, ⟨?_, ?_, ?_, ?_⟩⟩
    · intro i d k hk
      rw [nodeEquations_eq] at hk
      have hkN := (r2 _ _ _ hk).2
      have e := hpu k hkN (i, d) hk
      have := h2 k hkN
      rw [← e] at this
      exact this
    · intro n hn
      exact ⟨[], fun i hi => (h1 n).balance n le_rfl i hi⟩
    · intro n hn k hk
      have := (h1 (n + 1)).displacement n (Nat.lt_succ_self n) k hk
      simp only
      rw [this]
      ring
    · intro n hn k hk
      have := (h1 (n + 1)).velocity n (Nat.lt_succ_self n) k hk
      simp only
      rw [this]
      ring
  have hkN := (r2 _ _ _ hk).2
  obtain ⟨e1, e2, e3⟩ := h3 (times - 1) out.u out.v out.a
    ⟨fun s hs k hk => by
        obtain ⟨asked, e⟩ := steps.motion s (by omega)
        rw [e k hk, rhs_eq, rhs_eq],
      fun s hs k hk => by rw [steps.displacement s (by omega) k hk]; ring,
      fun s hs k hk => by rw [steps.velocity s (by omega) k hk]; ring⟩
    (fun k hk => steps.start _ _ _ ((nodeEquations_eq _ _ _).trans (hp k hk))) t (by omega) k hkN
  have row : ∀ (rows : List (List (NodeRow ℝ))), rows = (List.range times).map (fun t => st.nodes.map fun n =>
      (⟨reportedRow (out.u t) n, reportedRow (out.v t) n, reportedRow (out.a t) n⟩ : NodeRow ℝ)) → rows.getD t [] = st.nodes.map fun n =>
      (⟨reportedRow (out.u t) n, reportedRow (out.v t) n, reportedRow (out.a t) n⟩ : NodeRow ℝ) := by
    rintro rows rfl
    rw [List.getD_eq_getElem _ _ (by simpa using ht)]
    simp only [List.getElem_map, List.getElem_range]
  rw [← e1, ← e2, ← e3]
  unfold Spec.shape Spec.shapeRate Spec.shapeAcceleration
  rw [row _ rfl]
  exact ⟨((reported_represents sys.n st.nodes _ NodeRow.displacement (out.u t) (by rw [List.map_map]; rfl)).value i d k hk).symm,
    ((reported_represents sys.n st.nodes _ NodeRow.velocity (out.v t) (by rw [List.map_map]; rfl)).value i d k hk).symm,
    ((reported_represents sys.n st.nodes _ NodeRow.acceleration (out.a t) (by rw [List.map_map]; rfl)).value i d k hk).symm⟩

theorem HeldDamped.settles (h : HeldDamped sys) (hdt : 0 < dt) : Spec.SettlesDown sys dt := by
  intro loads s u₀ v₀ timesS rs hl hc S hs ε hε
  obtain ⟨st, x, y, z, hst, o, steps, hres⟩ := h.toHeldMoving.sequence hdt loads u₀ v₀
  set c : SystemRun ℝ := ⟨sys, loads⟩ with hcdef
  have hwf : c.WellFormed := ⟨h.mesh, fun l x => (hl l x).nodup, fun l x => (hl l x).mesh⟩
  obtain ⟨r1, r2, -⟩ := C106_representable c.input freshFlags st hst
  choose! p hp hpu using r1
  have hp : ∀ k < st.N, equationOf st.nodes (p k).1 (p k).2 = some k := hp
  obtain ⟨ha, heq⟩ := h.toHeldMoving.still.equilibrium hl S hs
  obtain ⟨W, hW⟩ := admissible_represents c h.mesh h.aligned st hst _ ha
  -- the load and the static solution
  have unit : ∀ k < st.N, RepresentsField sys.n st.nodes (fun j => if j = k then 1 else 0) (fieldOf st.nodes fun j => if j = k then (1 : ℝ) else 0) :=
    fun k _ => fieldOf_represents _ _ _
  have single : ∀ k < st.N, ∀ f : ℕ → ℝ, ∑ j ∈ range st.N, (if j = k then (1 : ℝ) else 0) * f j = f k := by
    intro k hk f
    rw [Finset.sum_eq_single_of_mem k (mem_range.mpr hk)]
    · simp
    · intro j _ hj; simp [hj]
  have hload : ∀ t, ∀ k < st.N, c.rhs st [] t k = Spec.loadWork (Spec.loadsAt loads t) (fieldOf st.nodes fun j => if j = k then (1 : ℝ) else 0) := by
    intro t k hk
    have := rhs_work c hwf freshFlags st hst [] t _ _ (unit k hk)
    rwa [single k hk] at this
  have hF : ∀ t ≥ s, ∀ k < st.N, c.rhs st [] t k = c.rhs st [] s k := by
    intro t ht k hk
    rw [hload t k hk, hload s k hk, hc t ht]
  have hstat : ∀ k < st.N, ∑ j ∈ range st.N, st.Kg k j * W j = c.rhs st [] s k := by
    intro k hk
    have e := (C106_work_partial c.input freshFlags h.mesh h.aligned st hst _ _ _ _ (unit k hk) hW).1
    rw [matrixWork_eq, single k hk] at e
    rw [e, hload s k hk]
    exact heq _ (represents_admissible c h.mesh h.aligned st hst _ _ (unit k hk))
  have lim := o.settles (fun U => h.definite loads st hst U) hdt steps hF hstat
  have near : ∀ᶠ t in atTop, ∀ k ∈ range st.N, |x t k - W k| ≤ ε ∧ |y t k| ≤ ε ∧ |z t k| ≤ ε := by
    rw [Filter.eventually_all_finset]
    intro k hk
    obtain ⟨l1, l2, l3⟩ := lim k (mem_range.mp hk)
    have m1 := Metric.tendsto_nhds.mp l1 ε hε
    have m2 := Metric.tendsto_nhds.mp l2 ε hε
    have m3 := Metric.tendsto_nhds.mp l3 ε hε
    filter_upwards [m1, m2, m3] with t a1 a2 a3
    rw [Real.dist_eq] at a1 a2 a3
    rw [sub_zero] at a2 a3
    exact ⟨a1.le, a2.le, a3.le⟩
  obtain ⟨T, hT⟩ := eventually_atTop.mp near
  refine ⟨T, fun times r R t ht hTt i hi d => ?_⟩
  cases hk : equationOf st.nodes i d with
  | some k =>
    obtain ⟨e1, e2, e3⟩ := hres times r R t ht i d k hk
    rw [e1, e2, e3, ← hW.value i d k hk]
    exact hT t hTt k (mem_range.mpr (r2 _ _ _ hk).2)
  | none =>
    have hr := (C106_unknowns_partial c.input h.mesh h.aligned st hst i hi d).mp hk
    obtain ⟨f, -⟩ := h.toHeldMoving.results hdt hl R
    obtain ⟨b1, b2, b3⟩ := f.admissible t ht
    rw [b1 i hi d hr, b2 i hi d hr, b3 i hi d hr, ha i hi d hr]
    simp [hε.le]

end

/-! ### Tracks -/

theorem HeldMoving.damped {sys sys₀ : SystemInput ℝ} (h : HeldMoving sys) (h₀ : HeldMoving sys₀) (hp : sys₀.parts = sys.parts)
    (hn : sys₀.n = sys.n) (hc : sys₀.constraints = sys.constraints) (h0 : sys₀.ratio = 0) (hr : sys.isRayleigh = true) (h1 : 0 < sys.ratio)
    (h2 : 0 < sys.w1) (h3 : 0 < sys.w2) : HeldDamped sys where
  toHeldMoving := h
  dampers := fun w hw => by
    have hw' : Spec.Admissible sys₀ w := by
      intro i hi d hx
      refine hw i (hn ▸ hi) d ?_
      unfold Spec.Removed at hx ⊢
      rwa [hp, hc] at hx
    have := (h₀.positive w hw').2.1
    unfold dampingWork Spec.rayleighWork at this
    rw [hp, h0] at this
    simpa using this
  isRayleigh := hr
  ratio := h1
  w1 := h2
  w2 := h3

theorem Generated.heldDamped {H : Type*} [DecidableEq H] {hash : (Fin 3 → ℝ) → H} {n r : ℕ} {d h : ℝ} {t : HorizontalTrack ℝ}
    (g : Generated hash n r d h t) (hn : 2 ≤ n) (hr : 0 < r) {v : TrackValues} (hv : v.Valid) (hm : v.NonNeg) (hR : v.Rayleigh) (hD : v.Damped) :
    HeldDamped (generatedInput t n r d v true) :=
  (g.heldMoving hn hr hv hm hR).damped (g.heldMoving (v := { v with ratio := 0 }) hn hr
    ⟨hv.E, hv.nu, hv.rho, hv.A, hv.I, hv.kappa, hv.s1, hv.s2, hv.pad, hv.soil⟩ ⟨hm.1, hm.2, hm.3, hm.4, hm.5⟩
    ⟨fun _ => le_rfl, hR.w1, hR.w2⟩) rfl rfl rfl rfl hD.1 hD.2 (hR.w1 hD.1) (hR.w2 hD.1)

/-- **C183** For every generated track with at least two sleepers on its boundaries and average acceleration steps of any size: under a sudden load
that stays constant no deflection exceeds twice the static one, and with Rayleigh damping of a positive ratio the results approach the static
results as long as the loads stay constant. -/
theorem C183_track {H : Type*} [DecidableEq H] (hash : (Fin 3 → ℝ) → H) (n r : ℕ) (hn : 2 ≤ n) (hr : 0 < r) (d h : ℝ)
    (hd : 1 / 1000000000 < d / r) (hh : 1 / 1000000000 < h) (t : HorizontalTrack ℝ)
    (ht : createHorizontalTrack hash n r d h = .ok t) (v : TrackValues) (hv : v.Valid) (hm : v.NonNeg) (hR : v.Rayleigh) (dt : ℝ) (hdt : 0 < dt) :
    ∃ inp, t.system v true = .ok inp ∧ Spec.AtMostTwice inp dt ∧ (v.Damped → Spec.SettlesDown inp dt) := by
  have g : Generated hash n r d h t := ⟨by nlinarith, hd, hh, ht⟩
  exact ⟨_, g.system v true, (g.heldMoving hn hr hv hm hR).atMostTwice hdt, fun hD => (g.heldDamped hn hr hv hm hR hD).settles hdt⟩

section combined
variable {H : Type*} [DecidableEq H] (hash : (Fin 3 → ℝ) → H) {r k : ℕ} {d : ℝ} {segments : List (ℕ × ℝ)}

theorem valid_undamped {v : TrackValues} {soils : List (RodValues ℝ)} (hv : ∀ w ∈ soils, ({ v with soil := w } : TrackValues).Valid) :
    ∀ w ∈ soils, ({ { v with ratio := 0 } with soil := w } : TrackValues).Valid := fun w hw =>
  ⟨(hv w hw).E, (hv w hw).nu, (hv w hw).rho, (hv w hw).A, (hv w hw).I, (hv w hw).kappa, (hv w hw).s1, (hv w hw).s2, (hv w hw).pad, (hv w hw).soil⟩

theorem nonNeg_undamped {v : TrackValues} {soils : List (RodValues ℝ)} (hm : ∀ w ∈ soils, ({ v with soil := w } : TrackValues).NonNeg) :
    ∀ w ∈ soils, ({ { v with ratio := 0 } with soil := w } : TrackValues).NonNeg := fun w hw =>
  ⟨(hm w hw).1, (hm w hw).2, (hm w hw).3, (hm w hw).4, (hm w hw).5⟩

/-- **C183** The same for every track that is combined from segments. -/
theorem C183_combined (g : GoodSegments r d segments) (length : ℝ) (v : TrackValues) (soils : List (RodValues ℝ))
    (hs : segments.length ≤ soils.length) (hv : ∀ w ∈ soils, ({ v with soil := w } : TrackValues).Valid)
    (hm : ∀ w ∈ soils, ({ v with soil := w } : TrackValues).NonNeg) (hR : v.Rayleigh) (dt : ℝ) (hdt : 0 < dt) :
    ∃ c inp, combinedTrack hash r d segments = .ok c ∧ c.system length v soils true = .ok inp ∧ Spec.AtMostTwice inp dt ∧
      (v.Damped → Spec.SettlesDown inp dt) := by
  obtain ⟨c, hc, s, -, -, -, -, -, -, hlen, -⟩ := C136_structure hash g
  have hs' : c.soils.length ≤ soils.length := by omega
  obtain ⟨a, b, ha, hb, hsys⟩ := s.system length v soils hs' true
  have hx := List.mem_of_head? ha
  have hy := List.mem_of_getLast? hb
  have hh := s.heldMoving v soils hs' hv hm hR a b hx hy
  refine ⟨c, _, hc, hsys, hh.atMostTwice hdt, fun hD => ?_⟩
  exact (hh.damped (s.heldMoving { v with ratio := 0 } soils hs' (valid_undamped hv) (nonNeg_undamped hm)
    ⟨fun _ => le_rfl, hR.w1, hR.w2⟩ a b hx hy) rfl rfl rfl rfl hD.1 hD.2 (hR.w1 hD.1) (hR.w2 hD.1)).settles hdt

/-- **C183** The same with a hinge in the rail, of a fixity factor greater than 0 and at most 1. -/
theorem C183_hinged (g : GoodSegments r d segments) (length : ℝ) (hlength : 0 < length) (v : TrackValues)
    (soils : List (RodValues ℝ)) (hs : segments.length ≤ soils.length) (hv : ∀ w ∈ soils, ({ v with soil := w } : TrackValues).Valid)
    (hm : ∀ w ∈ soils, ({ v with soil := w } : TrackValues).NonNeg) (hR : v.Rayleigh)
    (hk : 2 ≤ k) (hkm : k + 3 ≤ railCount r segments) (near : 1 / 100000000 + 1 / 100000 * ((k : ℝ) * (d / r)) < d / r)
    (f : ℝ) (hf : 0 < f) (hf1 : f ≤ 1) (dt : ℝ) (hdt : 0 < dt) :
    ∃ c inp, combinedTrack hash r d segments = .ok c ∧ c.hingedSystem length v soils f (k * (d / r)) true = .ok inp ∧
      Spec.AtMostTwice inp dt ∧ (v.Damped → Spec.SettlesDown inp dt) := by
  obtain ⟨c, hc, sound, -, -, -, -, -, -, hlen, -⟩ := C136_structure hash g
  have hs' : c.soils.length ≤ soils.length := by omega
  obtain ⟨w, hw⟩ := sound.some_soil hs'
  obtain ⟨σ, hσ, hσ0⟩ := hingeStiffness_pos (hv w hw).E (hv w hw).I hlength hf hf1
  obtain ⟨a, b, ha, hb, hsys⟩ := sound.hingedSystem length v soils hs' true hk hkm near f σ hσ
  have hx := List.mem_of_head? ha
  have hy := List.mem_of_getLast? hb
  have hh := sound.hinged_heldMoving v soils hs' hv hm hR a b hx hy hk hkm (σ / 2) (fun h => by linarith)
  refine ⟨c, _, hc, hsys, hh.atMostTwice hdt, fun hD => ?_⟩
  exact (hh.damped (sound.hinged_heldMoving { v with ratio := 0 } soils hs' (valid_undamped hv) (nonNeg_undamped hm)
    ⟨fun _ => le_rfl, hR.w1, hR.w2⟩ a b hx hy hk hkm (σ / 2) (fun h => by linarith)) rfl rfl rfl rfl hD.1 hD.2 (hR.w1 hD.1)
    (hR.w2 hD.1)).settles hdt

/-- **C183** The same with a free pin, if there are three or more sleepers and one of them is behind the pin. -/
theorem C183_pinned (g : GoodSegments r d segments) (length : ℝ) (v : TrackValues)
    (soils : List (RodValues ℝ)) (hs : segments.length ≤ soils.length) (hv : ∀ w ∈ soils, ({ v with soil := w } : TrackValues).Valid)
    (hm : ∀ w ∈ soils, ({ v with soil := w } : TrackValues).NonNeg) (hR : v.Rayleigh) (h3 : 3 ≤ (segments.map Prod.fst).sum)
    (hk : 2 ≤ k) (hkm : k + 3 ≤ railCount r segments) (hkr : k + r < railCount r segments)
    (near : 1 / 100000000 + 1 / 100000 * ((k : ℝ) * (d / r)) < d / r) (dt : ℝ) (hdt : 0 < dt) :
    ∃ c inp, combinedTrack hash r d segments = .ok c ∧ c.hingedSystem length v soils 0 (k * (d / r)) true = .ok inp ∧
      Spec.AtMostTwice inp dt ∧ (v.Damped → Spec.SettlesDown inp dt) := by
  obtain ⟨c, hc, sound, -, -, -, -, -, -, hlen, -⟩ := C136_structure hash g
  have hs' : c.soils.length ≤ soils.length := by omega
  obtain ⟨a, b, ha, hb, hsys⟩ := sound.hingedSystem length v soils hs' true hk hkm near 0 0 (hingeStiffness_zero _ _ _)
  have hx := List.mem_of_head? ha
  have hy := List.mem_of_getLast? hb
  have hh := sound.hinged_heldMoving v soils hs' hv hm hR a b hx hy hk hkm (0 / 2)
    (fun _ => Or.inl (combined_holdsPin hash g v soils h3 (by omega) hkr c hc))
  refine ⟨c, _, hc, hsys, hh.atMostTwice hdt, fun hD => ?_⟩
  exact (hh.damped (sound.hinged_heldMoving { v with ratio := 0 } soils hs' (valid_undamped hv) (nonNeg_undamped hm)
    ⟨fun _ => le_rfl, hR.w1, hR.w2⟩ a b hx hy hk hkm (0 / 2)
    (fun _ => Or.inl (combined_holdsPin hash g { v with ratio := 0 } soils h3 (by omega) hkr c hc))) rfl rfl rfl rfl hD.1 hD.2 (hR.w1 hD.1)
    (hR.w2 hD.1)).settles hdt

end combined

/-- Three sleepers under a sudden force of 1000 N: after some number of steps of 0.01 s the deflection is that of the static calculation to a
nanometre, and at no time before more than twice as large. -/
example : ∃ t, createHorizontalTrack (fun p : Fin 3 → ℝ => p) 3 2 (3 / 5) 1 = .ok t ∧
    ∃ inp, t.system exampleTrack true = .ok inp ∧ ∃ rs T r,
      Spec.StaticResults inp [⟨[0], fun e => decide (e = 1), .table fun _ _ e => if e = 1 then -1000 else 0⟩] 1 rs ∧
      Spec.DynamicResults inp [⟨[0], fun e => decide (e = 1), .table fun _ _ e => if e = 1 then -1000 else 0⟩] (1 / 100) (T + 1) 0 0 r ∧
      |Spec.shape r T 0 1 - Spec.shape rs 0 0 1| ≤ 1 / 1000000000 ∧ ∀ s ≤ T, |Spec.shape r s 0 1| ≤ 2 * |Spec.shape rs 0 0 1| := by
  obtain ⟨t, ht, -⟩ := C48_structure (fun p : Fin 3 → ℝ => p) 3 2 (by norm_num) (3 / 5) 1
  have g : Generated (fun p : Fin 3 → ℝ => p) 3 2 (3 / 5) 1 t := ⟨by norm_num, by norm_num, by norm_num, ht⟩
  have hh := g.heldDamped (by norm_num) (by norm_num) exampleTrack_valid exampleTrack_nonNeg exampleTrack_rayleigh
    ⟨rfl, by norm_num [exampleTrack]⟩
  have pos : 0 < (generatedInput t 3 2 (3 / 5) exampleTrack true).n := by
    show 0 < 3 * 2 + 3 + 3
    omega
  have fit : ∀ l ∈ [(⟨[0], fun e => decide (e = 1), .table fun _ _ e => if e = 1 then -1000 else 0⟩ : TimedLoad ℝ)],
      Spec.LoadFits (generatedInput t 3 2 (3 / 5) exampleTrack true).n l := by
    intro l hl
    obtain rfl := List.mem_singleton.mp hl
    refine ⟨by simp, fun x hx => ?_⟩
    obtain rfl : x = 0 := by simpa using hx
    exact pos
  have hdt : (0 : ℝ) < 1 / 100 := by norm_num
  obtain ⟨rs, S⟩ := hh.toHeldMoving.still.results _ 1 fit
  obtain ⟨T, hT⟩ := hh.settles hdt _ 0 0 0 1 rs fit (fun t _ => by simp [Spec.loadsAt]) S (by norm_num) (1 / 1000000000) (by norm_num)
  obtain ⟨r, R⟩ := hh.toHeldMoving.hasResults hdt _ (T + 1) 0 0 fit
  exact ⟨t, ht, _, g.system _ true, rs, T, r, S, R, (hT _ r R T (by omega) le_rfl 0 pos 1).1,
    fun s hs => ((hh.toHeldMoving.atMostTwice hdt).point 0 pos 1 (-1000) 1 rs _ r S (by norm_num) R s (by omega)).1⟩

end Rose
