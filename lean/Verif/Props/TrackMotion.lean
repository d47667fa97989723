/-
C173: the results on the nodes of a track approach its motion.
-/
import Verif.Spec.TrackMotion
import Verif.Props.Results
import Verif.Props.TimeSteps

set_option linter.unusedSectionVars false

namespace Rose
open Finset

/-- The calculation for the times `0, dt, 2 dt, …`. -/
noncomputable def sampledRun (sys : SystemInput ℝ) (loads : List Spec.ContinuousLoad) (dt : ℝ) : SystemRun ℝ :=
  ⟨sys, loads.map fun l => l.sampled dt⟩

/-- The loads at the start of a calculation: the force vectors are zero. -/
noncomputable def startLoads (loads : List Spec.ContinuousLoad) : List (NodalLoad ℝ) := loads.map fun l => (l.sampled 0).initial

theorem sampledRun_input (sys : SystemInput ℝ) (loads : List Spec.ContinuousLoad) (dt : ℝ) :
    (sampledRun sys loads dt).input = { sys with loads := startLoads loads } := by
  unfold sampledRun SystemRun.input startLoads
  simp only [List.map_map]
  rfl

/-- The right hand side at time `t`. -/
noncomputable def forceAt (loads : List Spec.ContinuousLoad) (nodes : List DofNode) (t : ℝ) : ℕ → ℝ :=
  timeStepRhs ((loads.map fun l => l.at t).map (NodalLoad.numbered (nodeEquations nodes)))

theorem sampledRun_rhs (sys : SystemInput ℝ) (loads : List Spec.ContinuousLoad) (dt : ℝ) (st : TrimState ℝ) (asked : List ℕ) (n : ℕ) :
    (sampledRun sys loads dt).rhs st asked n = forceAt loads st.nodes (n * dt) := by
  rw [rhs_eq]
  unfold forceAt Spec.loadsAt sampledRun
  simp only [List.map_map]
  rfl

theorem loadWork_continuous (loads : List Spec.ContinuousLoad)
    (hc : ∀ l ∈ loads, ∀ i < l.nodes.length, ∀ d, ContinuousOn (fun t => l.force i t d) (Set.Ici 0)) (w : Spec.NodalField ℝ) :
    ContinuousOn (fun t => Spec.loadWork (loads.map fun l => l.at t) w) (Set.Ici 0) := by
  unfold Spec.loadWork
  induction loads with
  | nil =>
    simp only [List.map_nil, List.sum_nil]
    exact continuousOn_const
  | cons l ls ih =>
    simp only [List.map_cons, List.sum_cons]
    refine ContinuousOn.fun_add ?_ (ih fun x hx => hc x (List.mem_cons_of_mem _ hx))
    show ContinuousOn (fun t => ∑ j ∈ range l.nodes.length, ∑ d : Fin 3, if l.act d = true then w (l.nodes.getD j 0) d *
      (((List.range l.nodes.length).map fun i => l.force i t).getD j fun _ => 0) d else 0) _
    refine continuousOn_finsetSum _ fun j hj => ?_
    refine continuousOn_finsetSum _ fun d _ => ?_
    have hj : j < l.nodes.length := mem_range.mp hj
    split_ifs
    · refine continuousOn_const.mul ?_
      have : ∀ t, (((List.range l.nodes.length).map fun i => l.force i t).getD j fun _ => 0) d = l.force j t d := by
        intro t
        simp [List.getD_eq_getElem?_getD, hj]
      simp only [this]
      exact hc l (List.mem_cons_self ..) j hj d
    · exact continuousOn_const

theorem single_sum {N i : ℕ} (hi : i < N) (f : ℕ → ℝ) : ∑ k ∈ range N, (Pi.single i 1 : ℕ → ℝ) k * f k = f i := by
  rw [sum_eq_single_of_mem i (mem_range.mpr hi) (fun b _ hb => by simp [hb])]
  simp

section general
variable {sys : SystemInput ℝ} {loads : List Spec.ContinuousLoad}

/-- Equations of motion and virtual work of fields. -/
theorem field_balance (hm : Spec.NodesInMesh sys) (ha : Spec.AxisAligned sys) (hnd : ∀ l ∈ loads, l.nodes.Nodup)
    (hin : ∀ l ∈ loads, ∀ m ∈ l.nodes, m < sys.n) (st : TrimState ℝ)
    (hst : ({ sys with loads := startLoads loads } : SystemInput ℝ).initialise freshFlags = .ok st) (u v a : ℕ → ℝ)
    (U V A : Spec.NodalField ℝ) (hu : RepresentsField sys.n st.nodes u U) (hv : RepresentsField sys.n st.nodes v V)
    (hA : RepresentsField sys.n st.nodes a A) (t : ℝ) :
    (∀ i < st.N, ∑ j ∈ range st.N, (st.M i j * a j + st.C i j * v j + st.Kg i j * u j) = forceAt loads st.nodes t i) ↔
      ∀ w, Spec.Admissible sys w → Spec.systemWork AssemblyPart.mass sys.parts w A +
        (Spec.systemWork AssemblyPart.damping sys.parts w V + Spec.rayleighWork sys w V) +
          Spec.systemWork AssemblyPart.stiffness sys.parts w U = Spec.loadWork (loads.map fun l => l.at t) w := by
  set c : SystemRun ℝ := sampledRun sys loads 0 with hcdef
  have hin' : c.input = { sys with loads := startLoads loads } := sampledRun_input sys loads 0
  rw [← hin'] at hst
  have work : ∀ W w, RepresentsField sys.n st.nodes W w →
      Spec.systemWork AssemblyPart.mass sys.parts w A + (Spec.systemWork AssemblyPart.damping sys.parts w V + Spec.rayleighWork sys w V) +
          Spec.systemWork AssemblyPart.stiffness sys.parts w U =
        ∑ i ∈ range st.N, W i * ∑ j ∈ range st.N, (st.M i j * a j + st.C i j * v j + st.Kg i j * u j) ∧
      Spec.loadWork (loads.map fun l => l.at t) w = ∑ i ∈ range st.N, W i * forceAt loads st.nodes t i := by
    intro W w hw
    constructor
    · have wa := (C106_work_partial c.input freshFlags hm ha st hst W _ w _ hw hA).2.1
      obtain ⟨wvk, wvm, wv⟩ := C106_work_partial c.input freshFlags hm ha st hst W _ w _ hw hv
      have wu := (C106_work_partial c.input freshFlags hm ha st hst W _ w _ hw hu).1
      rw [wvk, wvm] at wv
      have hR : (rayleighPair c.input).1 * Spec.systemWork AssemblyPart.mass c.input.parts w V +
          (rayleighPair c.input).2 * Spec.systemWork AssemblyPart.stiffness c.input.parts w V = Spec.rayleighWork sys w V := by
        unfold rayleighPair Spec.rayleighWork
        show (if sys.isRayleigh = true then _ else _ : ℝ × ℝ).1 * _ + (if sys.isRayleigh = true then _ else _ : ℝ × ℝ).2 * _ = _
        split_ifs
        · rfl
        · simp
      rw [add_assoc, hR] at wv
      show Spec.systemWork AssemblyPart.mass c.input.parts w _ + (Spec.systemWork AssemblyPart.damping c.input.parts w _ + _) +
        Spec.systemWork AssemblyPart.stiffness c.input.parts w _ = _
      rw [← wa, ← wv, ← wu, matrixWork_eq, matrixWork_eq, matrixWork_eq, ← Finset.sum_add_distrib, ← Finset.sum_add_distrib]
      refine sum_congr rfl fun i hi => ?_
      rw [Finset.sum_add_distrib, Finset.sum_add_distrib]
      ring
    · refine (trimmed_load_work c.input freshFlags st hst _ ?_ ?_ W w hw).symm <;> intro l hl <;> obtain ⟨x, hx, rfl⟩ := List.mem_map.mp hl
      · exact hnd x hx
      · exact hin x hx
  constructor
  · intro h w hw
    obtain ⟨W, hW⟩ := admissible_represents c hm ha st hst w hw
    obtain ⟨w1, w2⟩ := work W w hW
    rw [w1, w2]
    exact sum_congr rfl fun i hi => by rw [h i (mem_range.mp hi)]
  · intro h i hi
    have hrep := fieldOf_represents (K := ℝ) sys.n st.nodes (Pi.single i 1)
    obtain ⟨w1, w2⟩ := work _ _ hrep
    have := h _ (represents_admissible c hm ha st hst _ _ hrep)
    rw [w1, w2, single_sum hi, single_sum hi] at this
    exact this

/-- The motion of a structure whose matrices are sound, and the approach of the reported results to it. -/
theorem reported_motion (hm : Spec.NodesInMesh sys) (ha : Spec.AxisAligned sys) (hl : ∀ l ∈ loads, l.Fits sys.n) (st : TrimState ℝ)
    (hst : ({ sys with loads := startLoads loads } : SystemInput ℝ).initialise freshFlags = .ok st) (o : Oscillator st.N st.M st.C st.Kg) :
    Spec.ReportsMotion sys loads := by
  intro u₀ v₀ hu₀ hv₀
  have hnd := fun l h => (hl l h).nodup
  have hin := fun l h => (hl l h).mesh
  have hc := fun l h => (hl l h).continuous
  set c : SystemRun ℝ := sampledRun sys loads 0 with hcdef
  have hinp : ∀ dt, (sampledRun sys loads dt).input = { sys with loads := startLoads loads } := sampledRun_input sys loads
  have hst' : c.input.initialise freshFlags = .ok st := by rw [hcdef, hinp]; exact hst
  obtain ⟨r1, r2, -⟩ := C106_representable c.input freshFlags st hst'
  choose! p hp hpu using r1
  have hp : ∀ k < st.N, equationOf st.nodes (p k).1 (p k).2 = some k := hp
  have hpn : ∀ k < st.N, (p k).1 < sys.n := fun k hk => (r2 _ _ _ (hp k hk)).1
  have rep := fun x : ℕ → ℝ => fieldOf_represents sys.n st.nodes x
  have adm := fun x : ℕ → ℝ => represents_admissible c hm ha st hst' x _ (rep x)
  have back : ∀ w : Spec.NodalField ℝ, Spec.Admissible sys w → RepresentsField sys.n st.nodes (fun k => w (p k).1 (p k).2) w := by
    intro w hw
    refine ⟨fun i d k hk => ?_, fun i hi d hk => hw i hi d ((C106_unknowns_partial c.input hm ha st hst' i hi d).mp hk)⟩
    have := hpu k (r2 _ _ _ hk).2 (i, d) hk
    rw [← this]
  have fcont : ∀ k < st.N, ContinuousOn (fun t => forceAt loads st.nodes t k) (Set.Ici 0) := by
    intro k hk
    refine (loadWork_continuous loads hc (fieldOf st.nodes (Pi.single k 1))).congr fun t _ => ?_
    have := trimmed_load_work c.input freshFlags st hst' (loads.map fun l => l.at t)
      (fun l hl => by obtain ⟨x, hx, rfl⟩ := List.mem_map.mp hl; exact hnd x hx)
      (fun l hl => by obtain ⟨x, hx, rfl⟩ := List.mem_map.mp hl; exact hin x hx) (Pi.single k 1) _ (rep _)
    rw [sum_eq_single_of_mem k (mem_range.mpr hk) (fun b _ hb => by simp [hb])] at this
    simpa [forceAt] using this
  obtain ⟨u, v, a, m, m0, muniq⟩ := o.wellPosed (forceAt loads st.nodes) fcont (fun k => u₀ (p k).1 (p k).2) (fun k => v₀ (p k).1 (p k).2)
  have fld : ∀ (x : ℕ → ℝ) (w : Spec.NodalField ℝ), Spec.Admissible sys w → (∀ k < st.N, x k = w (p k).1 (p k).2) →
      ∀ i < sys.n, fieldOf st.nodes x i = w i := by
    intro x w hw h i hi
    funext d
    unfold fieldOf
    cases hk : equationOf st.nodes i d with
    | none => exact ((back w hw).removed i hi d hk).symm
    | some k =>
      simp only
      rw [h k (r2 _ _ _ hk).2]
      exact (back w hw).value i d k hk
  refine ⟨fun t => fieldOf st.nodes (u t), fun t => fieldOf st.nodes (v t), fun t => fieldOf st.nodes (a t), ⟨?_, ?_, ?_, ?_⟩, ?_, ?_, ?_⟩
  · intro t ht i hi d
    unfold fieldOf
    cases hk : equationOf st.nodes i d with
    | none => exact hasDerivWithinAt_const ..
    | some k => exact m.velocity t ht k (r2 _ _ _ hk).2
  · intro t ht i hi d
    unfold fieldOf
    cases hk : equationOf st.nodes i d with
    | none => exact hasDerivWithinAt_const ..
    | some k => exact m.acceleration t ht k (r2 _ _ _ hk).2
  · exact fun t _ => ⟨adm _, adm _, adm _⟩
  · intro t ht
    exact (field_balance hm ha hnd hin st hst (u t) (v t) (a t) _ _ _ (rep _) (rep _) (rep _) t).mp (m.balance t ht)
  · exact fun i hi => ⟨fld _ u₀ hu₀ (fun k hk => (m0 k hk).1) i hi, fld _ v₀ hv₀ (fun k hk => (m0 k hk).2) i hi⟩
  · intro U' V' A' m' h0 t ht i hi
    have key := muniq (fun t k => U' t (p k).1 (p k).2) (fun t k => V' t (p k).1 (p k).2) (fun t k => A' t (p k).1 (p k).2)
      ⟨fun t ht k hk => m'.velocity t ht _ (hpn k hk) _, fun t ht k hk => m'.acceleration t ht _ (hpn k hk) _, fun t ht => by
        obtain ⟨a1, a2, a3⟩ := m'.admissible t ht
        exact (field_balance hm ha hnd hin st hst _ _ _ _ _ _ (back _ a1) (back _ a2) (back _ a3) t).mpr (m'.balance t ht)⟩
      (fun k hk => by rw [(h0 _ (hpn k hk)).1, (h0 _ (hpn k hk)).2]; exact ⟨rfl, rfl⟩) t ht
    obtain ⟨a1, a2, a3⟩ := m'.admissible t ht
    exact ⟨(fld _ _ a1 (fun k hk => (key k hk).1.symm) i hi).symm, (fld _ _ a2 (fun k hk => (key k hk).2.1.symm) i hi).symm,
      (fld _ _ a3 (fun k hk => (key k hk).2.2.symm) i hi).symm⟩
  · intro T hT ε hε
    obtain ⟨δ, hδ, conv⟩ := o.stepsConverge _ u v a fcont m T hT ε hε
    refine ⟨δ, hδ, fun dt hdt hlt times solver hs => ?_⟩
    have hrhs := sampledRun_rhs sys loads dt st
    have hstdt : (sampledRun sys loads dt).input.initialise freshFlags = .ok st := by rw [hinp]; exact hst
    set out := solver st ((sampledRun sys loads dt).rhs st) with hout
    have steps : Spec.AverageSteps st ((sampledRun sys loads dt).rhs st) dt times u₀ v₀ out := by
      refine hs st _ ?_
      obtain ⟨x, y, z, h1, h2, -⟩ := o.stepsDefined (β := 1 / 4) (γ := 1 / 2) (by norm_num) (by norm_num) hdt
        (fun n => forceAt loads st.nodes (n * dt)) (fun k => u₀ (p k).1 (p k).2) (fun k => v₀ (p k).1 (p k).2)
      refine ⟨⟨x, y, z⟩, ⟨?_, ?_, ?_, ?_⟩⟩
      · intro i d k hk
        rw [nodeEquations_eq] at hk
        have hkN := (r2 _ _ _ hk).2
        have e := hpu k hkN (i, d) hk
        have := h2 k hkN
        rw [← e] at this
        exact this
      · intro n hn
        refine ⟨[], fun i hi => ?_⟩
        rw [hrhs]
        exact (h1 n).balance n le_rfl i hi
      · intro n hn k hk
        have := (h1 (n + 1)).displacement n (Nat.lt_succ_self n) k hk
        simp only
        rw [this]
        ring
      · intro n hn k hk
        have := (h1 (n + 1)).velocity n (Nat.lt_succ_self n) k hk
        simp only
        rw [this]
        ring
    refine ⟨st, _, main_eq (sampledRun sys loads dt) freshFlags times solver st hstdt, by simp, fun n hn hnT i hi d => ?_⟩
    have hn' : n < times := by simpa using hn
    simp only [List.getElem_map, List.getElem_range]
    rw [← hout]
    set row := st.nodes.map fun x =>
      (⟨reportedRow (out.u n) x, reportedRow (out.v n) x, reportedRow (out.a n) x⟩ : NodeRow ℝ) with hrow
    have ru : RepresentsField sys.n st.nodes (out.u n) (Spec.fieldOfRows row NodeRow.displacement) :=
      reported_represents _ _ _ _ _ (by rw [hrow, List.map_map]; rfl)
    have rv : RepresentsField sys.n st.nodes (out.v n) (Spec.fieldOfRows row NodeRow.velocity) :=
      reported_represents _ _ _ _ _ (by rw [hrow, List.map_map]; rfl)
    have ra : RepresentsField sys.n st.nodes (out.a n) (Spec.fieldOfRows row NodeRow.acceleration) :=
      reported_represents _ _ _ _ _ (by rw [hrow, List.map_map]; rfl)
    have key := conv dt hdt hlt n out.u out.v out.a hnT
      ⟨fun j hj k hk => by
          obtain ⟨asked, h⟩ := steps.motion j (by omega)
          rw [h k hk, hrhs],
        fun j hj k hk => by rw [steps.displacement j (by omega) k hk]; ring,
        fun j hj k hk => by rw [steps.velocity j (by omega) k hk]; ring⟩
      (fun k hk => by
        have := steps.start _ _ k ((nodeEquations_eq st.nodes _ _).trans (hp k hk))
        rw [this.1, this.2, (m0 k hk).1, (m0 k hk).2]
        exact ⟨rfl, rfl⟩)
    cases hk : equationOf st.nodes i d with
    | none =>
      rw [ru.removed i hi d hk, rv.removed i hi d hk, ra.removed i hi d hk]
      simp [fieldOf, hk, hε.le]
    | some k =>
      have := key k (r2 _ _ _ hk).2
      rw [← ru.value i d k hk, ← rv.value i d k hk, ← ra.value i d k hk]
      simpa [fieldOf, hk] using this

end general

/-- **C173** For every generated track with at least two sleepers on its boundaries, with masses and dampings that are not negative, and any loads
on its nodes that are continuous in time: the track has one motion, and the displacements, velocities and accelerations reported on its nodes
approach it as the time step gets smaller. -/
theorem C173_reported {H : Type*} [DecidableEq H] (hash : (Fin 3 → ℝ) → H) (n r : ℕ) (hn : 2 ≤ n) (hr : 0 < r) (d h : ℝ)
    (hd : 1 / 1000000000 < d / r) (hh : 1 / 1000000000 < h) (t : HorizontalTrack ℝ)
    (ht : createHorizontalTrack hash n r d h = .ok t) (v : TrackValues) (hv : v.Valid) (hm : v.NonNeg) (hR : v.Rayleigh) :
    ∃ inp, t.system v true = .ok inp ∧ ∀ loads : List Spec.ContinuousLoad, (∀ l ∈ loads, l.Fits inp.n) → Spec.ReportsMotion inp loads := by
  have g : Generated hash n r d h t := ⟨by nlinarith, hd, hh, ht⟩
  refine ⟨_, g.system v true, fun loads hl => ?_⟩
  obtain ⟨inp, st, h1, h2, m⟩ := C172_track hash n r hn hr d h hd hh t ht { v with loads := startLoads loads }
    ⟨hv.E, hv.nu, hv.rho, hv.A, hv.I, hv.kappa, hv.s1, hv.s2, hv.pad, hv.soil⟩ ⟨hm.1, hm.2, hm.3, hm.4, hm.5⟩ ⟨hR.1, hR.2, hR.3⟩ freshFlags
  rw [g.system _ true] at h1
  injection h1 with h1
  subst h1
  exact reported_motion (g.mesh v true) (g.aligned v true) hl st h2 m.matrices

section combined
variable {H : Type*} [DecidableEq H] (hash : (Fin 3 → ℝ) → H) {r k : ℕ} {d : ℝ} {segments : List (ℕ × ℝ)}

/-- **C173** The same for every track that is combined from segments. -/
theorem C173_reported_combined (g : GoodSegments r d segments) (length : ℝ) (v : TrackValues) (soils : List (RodValues ℝ))
    (hs : segments.length ≤ soils.length) (hv : ∀ w ∈ soils, ({ v with soil := w } : TrackValues).Valid)
    (hm : ∀ w ∈ soils, ({ v with soil := w } : TrackValues).NonNeg) (hR : v.Rayleigh) :
    ∃ c inp, combinedTrack hash r d segments = .ok c ∧ c.system length v soils true = .ok inp ∧
      ∀ loads : List Spec.ContinuousLoad, (∀ l ∈ loads, l.Fits inp.n) → Spec.ReportsMotion inp loads := by
  obtain ⟨c, hc, s, -, -, -, -, -, -, hlen, -⟩ := C136_structure hash g
  have hs' : c.soils.length ≤ soils.length := by omega
  obtain ⟨w, hw⟩ := s.some_soil hs'
  obtain ⟨x, y, hx, hy, hsys⟩ := s.system length v soils hs' true
  have hx := List.mem_of_head? hx
  have hy := List.mem_of_getLast? hy
  refine ⟨c, _, hc, hsys, fun loads hl => ?_⟩
  have hstand := s.standing v soils hs' hv x y hx hy true
  have hstand' := s.standing { v with loads := startLoads loads } soils hs' (fun w hw => ⟨(hv w hw).E, (hv w hw).nu, (hv w hw).rho, (hv w hw).A, (hv w hw).I, (hv w hw).kappa,
    (hv w hw).s1, (hv w hw).s2, (hv w hw).pad, (hv w hw).soil⟩) x y hx hy true
  obtain ⟨st, hst⟩ := C106_succeeds _ hstand'.mesh freshFlags
  have m := movesWell (v := { v with loads := startLoads loads }) ⟨hR.1, hR.2, hR.3⟩ (s.nonEmpty _ soils)
    (inp := c.inputOf (d / r) { v with loads := startLoads loads } soils x y true) rfl rfl rfl rfl rfl
    (c.partsOf_soils _ _ soils) (hstand'.fields (c.partsOf_nonNeg _ _ soils w hw
      fun w hw => ⟨(hm w hw).1, (hm w hw).2, (hm w hw).3, (hm w hw).4, (hm w hw).5⟩)
      ⟨c.place x, List.mem_map_of_mem hx, s.side_supported x y hx⟩ (rayleigh_nonneg hR _ rfl rfl rfl rfl).1 freshFlags st hst)
  exact reported_motion hstand.mesh hstand.aligned hl st hst m.matrices

theorem SoundTrack.hinged_reports {ι : Type*} [DecidableEq ι] {c : CombinedTrack ι ℝ} {m : ℕ} {l : ℝ} (s : SoundTrack c m l) (v : TrackValues)
    (soils : List (RodValues ℝ)) (hs : c.soils.length ≤ soils.length) (hv : ∀ w ∈ soils, ({ v with soil := w } : TrackValues).Valid)
    (hm : ∀ w ∈ soils, ({ v with soil := w } : TrackValues).NonNeg) (hR : v.Rayleigh) (x y : ι) (hx : x ∈ c.rail) (hy : y ∈ c.rail)
    (hk : 2 ≤ k) (hkm : k + 3 ≤ m) (σ : ℝ) (hpin : σ ≤ 0 → (c.partsOf l v soils).HoldsPin k ∨ 0 < v.rail.kappa)
    (loads : List Spec.ContinuousLoad)
    (hl : ∀ q ∈ loads, q.Fits ((c.inputOf l v soils x y true).withHinge (c.partsOf l v soils) (c.cutAt k σ)).n) :
    Spec.ReportsMotion ((c.inputOf l v soils x y true).withHinge (c.partsOf l v soils) (c.cutAt k σ)) loads := by
  have hg := s.hinged v soils hs hv x y hx hy true hk hkm σ
  obtain ⟨st, hst, mv⟩ := s.hinged_moves { v with loads := startLoads loads } soils hs (fun w hw => ⟨(hv w hw).E, (hv w hw).nu, (hv w hw).rho, (hv w hw).A, (hv w hw).I, (hv w hw).kappa,
    (hv w hw).s1, (hv w hw).s2, (hv w hw).pad, (hv w hw).soil⟩)
    (fun w hw => ⟨(hm w hw).1, (hm w hw).2, (hm w hw).3, (hm w hw).4, (hm w hw).5⟩) ⟨hR.1, hR.2, hR.3⟩ x y hx hy hk hkm σ hpin freshFlags
  exact reported_motion hg.mesh hg.aligned hl st hst mv.matrices

/-- **C173** The same for every such track with a hinge in its rail, of a fixity factor greater than 0 and at most 1. -/
theorem C173_reported_hinged (g : GoodSegments r d segments) (length : ℝ) (hlength : 0 < length) (v : TrackValues)
    (soils : List (RodValues ℝ)) (hs : segments.length ≤ soils.length) (hv : ∀ w ∈ soils, ({ v with soil := w } : TrackValues).Valid)
    (hm : ∀ w ∈ soils, ({ v with soil := w } : TrackValues).NonNeg) (hR : v.Rayleigh)
    (hk : 2 ≤ k) (hkm : k + 3 ≤ railCount r segments) (near : 1 / 100000000 + 1 / 100000 * ((k : ℝ) * (d / r)) < d / r)
    (f : ℝ) (hf : 0 < f) (hf1 : f ≤ 1) :
    ∃ c inp, combinedTrack hash r d segments = .ok c ∧ c.hingedSystem length v soils f (k * (d / r)) true = .ok inp ∧
      ∀ loads : List Spec.ContinuousLoad, (∀ l ∈ loads, l.Fits inp.n) → Spec.ReportsMotion inp loads := by
  obtain ⟨c, hc, sound, -, -, -, -, -, -, hlen, -⟩ := C136_structure hash g
  have hs' : c.soils.length ≤ soils.length := by omega
  obtain ⟨w, hw⟩ := sound.some_soil hs'
  obtain ⟨σ, hσ, hσ0⟩ := hingeStiffness_pos (hv w hw).E (hv w hw).I hlength hf hf1
  obtain ⟨a, b, ha, hb, hsys⟩ := sound.hingedSystem length v soils hs' true hk hkm near f σ hσ
  exact ⟨c, _, hc, hsys, sound.hinged_reports v soils hs' hv hm hR a b (List.mem_of_head? ha) (List.mem_of_getLast? hb) hk hkm (σ / 2)
    (fun h => by linarith)⟩

/-- **C173** The same with a free pin, if there are three or more sleepers and one of them is behind the pin. -/
theorem C173_reported_pinned (g : GoodSegments r d segments) (length : ℝ) (v : TrackValues)
    (soils : List (RodValues ℝ)) (hs : segments.length ≤ soils.length) (hv : ∀ w ∈ soils, ({ v with soil := w } : TrackValues).Valid)
    (hm : ∀ w ∈ soils, ({ v with soil := w } : TrackValues).NonNeg) (hR : v.Rayleigh) (h3 : 3 ≤ (segments.map Prod.fst).sum)
    (hk : 2 ≤ k) (hkm : k + 3 ≤ railCount r segments) (hkr : k + r < railCount r segments)
    (near : 1 / 100000000 + 1 / 100000 * ((k : ℝ) * (d / r)) < d / r) :
    ∃ c inp, combinedTrack hash r d segments = .ok c ∧ c.hingedSystem length v soils 0 (k * (d / r)) true = .ok inp ∧
      ∀ loads : List Spec.ContinuousLoad, (∀ l ∈ loads, l.Fits inp.n) → Spec.ReportsMotion inp loads := by
  obtain ⟨c, hc, sound, -, -, -, -, -, -, hlen, -⟩ := C136_structure hash g
  have hs' : c.soils.length ≤ soils.length := by omega
  obtain ⟨a, b, ha, hb, hsys⟩ := sound.hingedSystem length v soils hs' true hk hkm near 0 0 (hingeStiffness_zero _ _ _)
  exact ⟨c, _, hc, hsys, sound.hinged_reports v soils hs' hv hm hR a b (List.mem_of_head? ha) (List.mem_of_getLast? hb) hk hkm (0 / 2)
    (fun _ => Or.inl (combined_holdsPin hash g v soils h3 (by omega) hkr c hc))⟩

end combined

/-- A vertical force on the first node of the rail that swings in time. -/
noncomputable def swingingLoad : Spec.ContinuousLoad := ⟨[0], fun _ => true, fun _ t b => if b = 1 then -1000 * Real.sin (3 * t) else 0⟩

/-- Three sleepers under the swinging load, from rest. -/
example : ∃ t, createHorizontalTrack (fun p : Fin 3 → ℝ => p) 3 2 (3 / 5) 1 = .ok t ∧
    ∃ inp, t.system exampleTrack true = .ok inp ∧ Spec.ReportsMotion inp [swingingLoad] ∧ Spec.Admissible inp (fun _ _ => 0) := by
  obtain ⟨t, ht, -⟩ := C48_structure (fun p : Fin 3 → ℝ => p) 3 2 (by norm_num) (3 / 5) 1
  obtain ⟨inp, h1, h2⟩ := C173_reported _ 3 2 (by norm_num) (by norm_num) _ _ (by norm_num) (by norm_num) t ht _ exampleTrack_valid
    exampleTrack_nonNeg exampleTrack_rayleigh
  have g : Generated (fun p : Fin 3 → ℝ => p) 3 2 (3 / 5) 1 t := ⟨by norm_num, by norm_num, by norm_num, ht⟩
  have h0 : 0 < inp.n := by
    rw [g.system _ true] at h1
    injection h1 with h1
    subst h1
    simp [generatedInput]
  refine ⟨t, ht, inp, h1, h2 _ fun l hl => ?_, fun _ _ _ _ => rfl⟩
  obtain rfl := List.mem_singleton.mp hl
  refine ⟨by simp [swingingLoad], fun m hm => ?_, fun i _ b => ?_⟩
  · obtain rfl : m = 0 := by simpa [swingingLoad] using hm
    exact h0
  · have : Continuous fun t : ℝ => if b = 1 then -1000 * Real.sin (3 * t) else 0 := by
      split_ifs
      · fun_prop
      · fun_prop
    exact this.continuousOn

end Rose
