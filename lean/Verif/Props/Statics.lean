/-
C175: the static results of a track are linear in the loads, reciprocal and of least energy.
-/
import Verif.Spec.Statics
import Verif.Props.Vibration
import Verif.Props.TrackForces
import Verif.Props.CoupledRun

set_option linter.unusedSectionVars false

namespace Rose
open Finset

/-- A structure with symmetric matrices whose stiffness is positive definite once the system is initialised. -/
structure HeldStill (sys : SystemInput ℝ) : Prop where
  mesh : Spec.NodesInMesh sys
  aligned : Spec.AxisAligned sys
  symm : ∀ p ∈ sys.parts, p.Symmetric
  definite : ∀ loads st, ({ sys with loads := loads } : SystemInput ℝ).initialise freshFlags = .ok st → ∀ U,
    0 ≤ matrixWork st.N st.Kg U U ∧ (matrixWork st.N st.Kg U U = 0 → ∀ k < st.N, U k = 0)

section
variable {sys : SystemInput ℝ}

theorem HeldStill.work_symm (h : HeldStill sys) (w u : Spec.NodalField ℝ) :
    Spec.systemWork AssemblyPart.stiffness sys.parts w u = Spec.systemWork AssemblyPart.stiffness sys.parts u w :=
  systemWork_symm _ _ (fun p hp a ha => h.symm p hp a (Or.inl ha)) _ _

theorem HeldStill.energy (h : HeldStill sys) (w : Spec.NodalField ℝ) (hw : Spec.Admissible sys w) :
    0 ≤ Spec.systemWork AssemblyPart.stiffness sys.parts w w ∧
      (Spec.systemWork AssemblyPart.stiffness sys.parts w w = 0 → ∀ i < sys.n, w i = 0) := by
  set c : SystemRun ℝ := ⟨sys, []⟩ with hc
  obtain ⟨st, hst⟩ := C106_succeeds c.input h.mesh freshFlags
  obtain ⟨W, hW⟩ := admissible_represents c h.mesh h.aligned st hst w hw
  have e := (C106_work_partial c.input freshFlags h.mesh h.aligned st hst W W w w hW hW).1
  have e' : matrixWork st.N st.Kg W W = Spec.systemWork AssemblyPart.stiffness sys.parts w w := e
  obtain ⟨d1, d2⟩ := h.definite _ st hst W
  rw [e'] at d1 d2
  refine ⟨d1, fun h0 i hi => ?_⟩
  funext b
  cases hk : equationOf st.nodes i b with
  | none => exact hW.removed i hi b hk
  | some k =>
    rw [← hW.value i b k hk]
    exact d2 h0 k ((C106_representable c.input freshFlags st hst).2.1 i b k hk).2

theorem HeldStill.ends (h : HeldStill sys) (loads : List (TimedLoad ℝ)) (times : ℕ)
    (solver : TrimState ℝ → (List ℕ → ℕ → ℕ → ℝ) → SolverOutput ℝ) (hl : ∀ l ∈ loads, Spec.LoadFits sys.n l)
    (hs : Spec.SolvesWhenever times solver) :
    ∃ st rows, SystemRun.main ⟨sys, loads⟩ freshFlags times solver = .ok (st, rows) ∧ rows.length = times ∧
      ∀ s < times, Spec.Admissible sys (Spec.shape rows s) ∧ ∀ w, Spec.Admissible sys w →
        Spec.systemWork AssemblyPart.stiffness sys.parts w (Spec.shape rows s) = Spec.loadWork (Spec.loadsAt loads s) w := by
  set c : SystemRun ℝ := ⟨sys, loads⟩ with hcdef
  have hc : c.WellFormed := ⟨h.mesh, fun l x => (hl l x).nodup, fun l x => (hl l x).mesh⟩
  have hsol : ∀ st, c.input.initialise freshFlags = .ok st → Spec.SolvesStatics st (c.rhs st) times (solver st (c.rhs st)) := by
    intro st hst
    apply hs
    have hsol := solvable_of_definite st.N st.Kg fun U => (h.definite _ st hst U).2
    choose U hU _ using hsol
    exact ⟨⟨fun t => U (c.rhs st [] t), fun _ _ => 0, fun _ _ => 0⟩, fun t _ => ⟨[], fun i hi => hU _ i hi⟩⟩
  obtain ⟨st, rows, h1, h2, h3⟩ := C121_static_partial c hc h.aligned times solver hsol
  refine ⟨st, rows, h1, h2, fun s hs => ?_⟩
  obtain ⟨-, g1, g2, -⟩ := h3 s (h2 ▸ hs)
  have e : Spec.shape rows s = Spec.fieldOfRows (rows[s]'(h2 ▸ hs)) NodeRow.displacement := by
    unfold Spec.shape
    rw [List.getD_eq_getElem _ _ (h2 ▸ hs)]
  rw [e]
  exact ⟨g1, g2⟩

theorem HeldStill.equilibrium (h : HeldStill sys) {loads : List (TimedLoad ℝ)} {times : ℕ} {rows : List (List (NodeRow ℝ))}
    (hl : ∀ l ∈ loads, Spec.LoadFits sys.n l) (hr : Spec.StaticResults sys loads times rows) {s : ℕ} (hs : s < times) :
    Spec.Admissible sys (Spec.shape rows s) ∧ ∀ w, Spec.Admissible sys w →
        Spec.systemWork AssemblyPart.stiffness sys.parts w (Spec.shape rows s) = Spec.loadWork (Spec.loadsAt loads s) w := by
  obtain ⟨solver, st, h1, h2⟩ := hr
  obtain ⟨st', rows', k1, -, k3⟩ := h.ends loads times solver hl h1
  rw [h2] at k1
  injection k1 with k1
  rw [(Prod.mk.inj k1).2]
  exact k3 s hs

theorem admissible_combine {u w : Spec.NodalField ℝ} (hu : Spec.Admissible sys u) (hw : Spec.Admissible sys w) (k : ℝ) :
    Spec.Admissible sys (fun i d => u i d + k * w i d) := by
  intro i hi d hr
  simp only
  rw [hu i hi d hr, hw i hi d hr]
  ring

theorem HeldStill.work_combine (h : HeldStill sys) (w u₁ u₂ : Spec.NodalField ℝ) (k : ℝ) :
    Spec.systemWork AssemblyPart.stiffness sys.parts w (fun i d => u₁ i d + k * u₂ i d) =
      Spec.systemWork AssemblyPart.stiffness sys.parts w u₁ + k * Spec.systemWork AssemblyPart.stiffness sys.parts w u₂ := by
  rw [h.work_symm, systemWork_combine, h.work_symm u₁, h.work_symm u₂]

/-- Two admissible fields in equilibrium with the same loads are equal. -/
theorem HeldStill.unique (h : HeldStill sys) {u₁ u₂ : Spec.NodalField ℝ} (h₁ : Spec.Admissible sys u₁) (h₂ : Spec.Admissible sys u₂)
    (e : ∀ w, Spec.Admissible sys w → Spec.systemWork AssemblyPart.stiffness sys.parts w u₁ = Spec.systemWork AssemblyPart.stiffness sys.parts w u₂) :
    ∀ i < sys.n, ∀ d, u₁ i d = u₂ i d := by
  intro i hi d
  have ha := admissible_combine h₁ h₂ (-1)
  have h0 : Spec.systemWork AssemblyPart.stiffness sys.parts (fun i d => u₁ i d + -1 * u₂ i d) (fun i d => u₁ i d + -1 * u₂ i d) = 0 := by
    rw [h.work_combine, e _ ha]
    ring
  have := congrFun ((h.energy _ ha).2 h0 i hi) d
  simp only [Pi.zero_apply] at this
  linarith

theorem loadsAt_append (l₁ l₂ : List (TimedLoad ℝ)) (s : ℕ) : Spec.loadsAt (l₁ ++ l₂) s = Spec.loadsAt l₁ s ++ Spec.loadsAt l₂ s := by
  simp [Spec.loadsAt]

theorem loadWork_scaled (k : ℝ) (loads : List (TimedLoad ℝ)) (s : ℕ) (w : Spec.NodalField ℝ) :
    Spec.loadWork (Spec.loadsAt (loads.map (Spec.scaledLoad k)) s) w = k * Spec.loadWork (Spec.loadsAt loads s) w := by
  unfold Spec.loadWork Spec.loadsAt
  rw [List.map_map, List.map_map, List.map_map, ← List.sum_map_mul_left]
  refine congrArg List.sum (List.map_congr_left fun l _ => ?_)
  simp only [Function.comp_apply, Spec.scaledLoad]
  rw [mul_sum]
  refine sum_congr rfl fun j hj => ?_
  rw [mul_sum]
  refine sum_congr rfl fun d _ => ?_
  have hj' := mem_range.mp hj
  split_ifs
  · cases l.source <;> simp [hj'] <;> ring
  · simp

theorem HeldStill.linear (h : HeldStill sys) : Spec.LinearStatics sys := by
  constructor
  · intro loads times solver hl hs
    obtain ⟨st, rows, h1, h2, -⟩ := h.ends loads times solver hl hs
    exact ⟨st, rows, h1, h2⟩
  · intro l₁ l₂ t₁ t₂ r₁ r₂ f₁ f₂ R₁ R₂ s₁ hs₁ s₂ hs₂ e
    obtain ⟨a1, e1⟩ := h.equilibrium f₁ R₁ hs₁
    obtain ⟨a2, e2⟩ := h.equilibrium f₂ R₂ hs₂
    exact h.unique a1 a2 fun w hw => by rw [e1 w hw, e2 w hw, e]
  · intro l₁ l₂ times r₁ r₂ r f₁ f₂ R₁ R₂ R s hs i hi d
    obtain ⟨a1, e1⟩ := h.equilibrium f₁ R₁ hs
    obtain ⟨a2, e2⟩ := h.equilibrium f₂ R₂ hs
    obtain ⟨a, e⟩ := h.equilibrium (fun l hl => (List.mem_append.mp hl).elim (f₁ l) (f₂ l)) R hs
    have := h.unique a (admissible_combine a1 a2 1) (fun w hw => by
      rw [h.work_combine, e w hw, e1 w hw, e2 w hw, loadsAt_append, loadWork_append, one_mul]) i hi d
    rw [this, one_mul]
  · intro k loads times r r' f R R' s hs i hi d
    obtain ⟨a1, e1⟩ := h.equilibrium f R hs
    have f' : ∀ l ∈ loads.map (Spec.scaledLoad k), Spec.LoadFits sys.n l := by
      intro l hl
      obtain ⟨x, hx, rfl⟩ := List.mem_map.mp hl
      exact ⟨(f x hx).nodup, (f x hx).mesh⟩
    obtain ⟨a2, e2⟩ := h.equilibrium f' R' hs
    have z : Spec.Admissible sys (fun _ _ => 0) := fun _ _ _ _ => rfl
    have := h.unique a2 (admissible_combine z a1 k) (fun w hw => by
      have e0 : Spec.systemWork AssemblyPart.stiffness sys.parts w (fun _ _ => 0) = 0 := by
        have := h.work_combine w (fun _ _ => 0) (fun _ _ => 0) 1
        simp only [mul_zero, add_zero, one_mul] at this
        linarith
      rw [h.work_combine, e2 w hw, e1 w hw, loadWork_scaled, e0, zero_add]) i hi d
    rw [this, zero_add]
  · intro l₁ l₂ t₁ t₂ r₁ r₂ f₁ f₂ R₁ R₂ s₁ hs₁ s₂ hs₂
    obtain ⟨a1, e1⟩ := h.equilibrium f₁ R₁ hs₁
    obtain ⟨a2, e2⟩ := h.equilibrium f₂ R₂ hs₂
    rw [← e1 _ a2, ← e2 _ a1, h.work_symm]
  · intro loads times r f R s hs
    obtain ⟨a, e⟩ := h.equilibrium f R hs
    obtain ⟨p1, p2⟩ := h.energy _ a
    rw [← e _ a]
    refine ⟨rfl, fun ⟨i, hi, hne⟩ => lt_of_le_of_ne p1 fun h0 => hne (p2 h0.symm i hi)⟩
  · intro loads times r f R s hs
    obtain ⟨a, e⟩ := h.equilibrium f R hs
    refine ⟨a, fun w hw ⟨i, hi, hne⟩ => ?_⟩
    have had := admissible_combine hw a (-1)
    obtain ⟨p1, p2⟩ := h.energy _ had
    have hpos : 0 < Spec.systemWork AssemblyPart.stiffness sys.parts (fun i d => w i d + -1 * Spec.shape r s i d)
        (fun i d => w i d + -1 * Spec.shape r s i d) := by
      refine lt_of_le_of_ne p1 fun h0 => hne ?_
      funext d
      have := congrFun (p2 h0.symm i hi) d
      simp only [Pi.zero_apply] at this
      linarith
    rw [h.work_combine, systemWork_combine, systemWork_combine] at hpos
    unfold Spec.potential
    rw [h.work_symm (Spec.shape r s) w] at hpos
    rw [← e _ a, ← e _ hw]
    linarith

/-- Of two structures with the same admissible fields, loads do less work on the one that takes more energy to deform. -/
theorem HeldStill.noSofter {sys' : SystemInput ℝ} (h : HeldStill sys) (h' : HeldStill sys') (hn : sys'.n = sys.n)
    (hadm : ∀ w, Spec.Admissible sys' w → Spec.Admissible sys w)
    (hW : ∀ w, Spec.Admissible sys' w →
      Spec.systemWork AssemblyPart.stiffness sys.parts w w ≤ Spec.systemWork AssemblyPart.stiffness sys'.parts w w) :
    Spec.NoSofter sys sys' := by
  intro loads times r r' f R R' s hs
  obtain ⟨a, e⟩ := h.equilibrium f R hs
  obtain ⟨a', e'⟩ := h'.equilibrium (fun l hl => ⟨(f l hl).nodup, fun m hm => hn ▸ (f l hl).mesh m hm⟩) R' hs
  have p' := h'.energy _ a'
  have had := admissible_combine a (hadm _ a') (-1)
  have p := (h.energy _ had).1
  rw [h.work_combine, systemWork_combine, systemWork_combine, h.work_symm (Spec.shape r s) (Spec.shape r' s)] at p
  rw [e _ (hadm _ a'), e _ a] at p
  have q := hW _ a'
  rw [e' _ a'] at q p'
  exact ⟨p'.1, by linarith⟩

end

theorem TrackValues.Valid.withLoads {v : TrackValues} (hv : v.Valid) (loads : List (NodalLoad ℝ)) :
    TrackValues.Valid { v with loads := loads } :=
  ⟨hv.E, hv.nu, hv.rho, hv.A, hv.I, hv.kappa, hv.s1, hv.s2, hv.pad, hv.soil⟩

theorem Generated.heldStill {H : Type*} [DecidableEq H] {hash : (Fin 3 → ℝ) → H} {n r : ℕ} {d h : ℝ} {t : HorizontalTrack ℝ}
    (g : Generated hash n r d h t) (hn : 2 ≤ n) {v : TrackValues} (hv : v.Valid) : HeldStill (generatedInput t n r d v true) where
  mesh := g.mesh v true
  aligned := g.aligned v true
  symm := (generatedParts t n r d v).symmetric
  definite := fun loads st hst U => (g.standing hn _ (hv.withLoads loads) true).definite (g.held _) freshFlags st hst U

theorem SoundTrack.heldStill {ι : Type*} [DecidableEq ι] {c : CombinedTrack ι ℝ} {m : ℕ} {l : ℝ} (s : SoundTrack c m l) {v : TrackValues}
    {soils : List (RodValues ℝ)} (hs : c.soils.length ≤ soils.length) (hv : ∀ w ∈ soils, ({ v with soil := w } : TrackValues).Valid)
    {x y : ι} (hx : x ∈ c.rail) (hy : y ∈ c.rail) : HeldStill (c.inputOf l v soils x y true) where
  mesh := s.mesh v soils x y true
  aligned := (s.standing v soils hs hv x y hx hy true).aligned
  symm := (c.partsOf l v soils).symmetric
  definite := fun loads st hst U =>
    (s.standing { v with loads := loads } soils hs (fun w hw => (hv w hw).withLoads loads) x y hx hy true).definite
      ⟨c.place x, List.mem_map_of_mem hx, s.side_supported x y hx⟩ freshFlags st hst U

theorem SoundTrack.hingedStill {ι : Type*} [DecidableEq ι] {c : CombinedTrack ι ℝ} {m k : ℕ} {l : ℝ} (s : SoundTrack c m l) {v : TrackValues}
    {soils : List (RodValues ℝ)} (hs : c.soils.length ≤ soils.length) (hv : ∀ w ∈ soils, ({ v with soil := w } : TrackValues).Valid)
    {x y : ι} (hx : x ∈ c.rail) (hy : y ∈ c.rail) (hk : 2 ≤ k) (hkm : k + 3 ≤ m) {σ : ℝ}
    (hpin : σ ≤ 0 → (c.partsOf l v soils).HoldsPin k ∨ 0 < v.rail.kappa) :
    HeldStill ((c.inputOf l v soils x y true).withHinge (c.partsOf l v soils) (c.cutAt k σ)) where
  mesh := (s.hinged v soils hs hv x y hx hy true hk hkm σ).mesh
  aligned := (s.hinged v soils hs hv x y hx hy true hk hkm σ).aligned
  symm := (c.partsOf l v soils).hinged_symmetric _
  definite := fun loads st hst U => by
    have hg := s.hinged { v with loads := loads } soils hs (fun w hw => (hv w hw).withLoads loads) x y hx hy true hk hkm σ
    have hA : (c.cutAt k σ).A.length + 1 = k := by
      have := s.len
      simp only [CombinedTrack.cutAt, List.length_take, List.length_map]
      omega
    exact hg.definite (by rw [hA]; exact hpin) ⟨c.place x, List.mem_map_of_mem hx, s.side_supported x y hx⟩ freshFlags st hst U

/-- **C175** For every generated track with at least two sleepers on its boundaries: static results are the sum of the results of the single
loads, proportional to the loads, reciprocal, and of all admissible displacements those with the least potential energy. -/
theorem C175_track {H : Type*} [DecidableEq H] (hash : (Fin 3 → ℝ) → H) (n r : ℕ) (hn : 2 ≤ n) (hr : 0 < r) (d h : ℝ)
    (hd : 1 / 1000000000 < d / r) (hh : 1 / 1000000000 < h) (t : HorizontalTrack ℝ)
    (ht : createHorizontalTrack hash n r d h = .ok t) (v : TrackValues) (hv : v.Valid) :
    ∃ inp, t.system v true = .ok inp ∧ Spec.LinearStatics inp := by
  have g : Generated hash n r d h t := ⟨by nlinarith, hd, hh, ht⟩
  exact ⟨_, g.system v true, (g.heldStill hn hv).linear⟩

section combined
variable {H : Type*} [DecidableEq H] (hash : (Fin 3 → ℝ) → H) {r k : ℕ} {d : ℝ} {segments : List (ℕ × ℝ)}

/-- **C175** The same for every track that is combined from segments. -/
theorem C175_combined (g : GoodSegments r d segments) (length : ℝ) (v : TrackValues) (soils : List (RodValues ℝ))
    (hs : segments.length ≤ soils.length) (hv : ∀ w ∈ soils, ({ v with soil := w } : TrackValues).Valid) :
    ∃ c inp, combinedTrack hash r d segments = .ok c ∧ c.system length v soils true = .ok inp ∧ Spec.LinearStatics inp := by
  obtain ⟨c, hc, s, -, -, -, -, -, -, hlen, -⟩ := C136_structure hash g
  have hs' : c.soils.length ≤ soils.length := by omega
  obtain ⟨x, y, hx, hy, hsys⟩ := s.system length v soils hs' true
  exact ⟨c, _, hc, hsys, (s.heldStill hs' hv (List.mem_of_head? hx) (List.mem_of_getLast? hy)).linear⟩

/-- **C175** The same for every such track with a hinge in its rail, of a fixity factor greater than 0 and at most 1. -/
theorem C175_hinged (g : GoodSegments r d segments) (length : ℝ) (hlength : 0 < length) (v : TrackValues)
    (soils : List (RodValues ℝ)) (hs : segments.length ≤ soils.length) (hv : ∀ w ∈ soils, ({ v with soil := w } : TrackValues).Valid)
    (hk : 2 ≤ k) (hkm : k + 3 ≤ railCount r segments) (near : 1 / 100000000 + 1 / 100000 * ((k : ℝ) * (d / r)) < d / r)
    (f : ℝ) (hf : 0 < f) (hf1 : f ≤ 1) :
    ∃ c inp, combinedTrack hash r d segments = .ok c ∧ c.hingedSystem length v soils f (k * (d / r)) true = .ok inp ∧
      Spec.LinearStatics inp := by
  obtain ⟨c, hc, sound, -, -, -, -, -, -, hlen, -⟩ := C136_structure hash g
  have hs' : c.soils.length ≤ soils.length := by omega
  obtain ⟨w, hw⟩ := sound.some_soil hs'
  obtain ⟨σ, hσ, hσ0⟩ := hingeStiffness_pos (hv w hw).E (hv w hw).I hlength hf hf1
  obtain ⟨a, b, ha, hb, hsys⟩ := sound.hingedSystem length v soils hs' true hk hkm near f σ hσ
  exact ⟨c, _, hc, hsys, (sound.hingedStill hs' hv (List.mem_of_head? ha) (List.mem_of_getLast? hb) hk hkm (σ := σ / 2)
    (fun h => by linarith)).linear⟩

/-- **C175** The same with a free pin, if there are three or more sleepers and one of them is behind the pin. -/
theorem C175_pinned (g : GoodSegments r d segments) (length : ℝ) (v : TrackValues)
    (soils : List (RodValues ℝ)) (hs : segments.length ≤ soils.length) (hv : ∀ w ∈ soils, ({ v with soil := w } : TrackValues).Valid)
    (h3 : 3 ≤ (segments.map Prod.fst).sum)
    (hk : 2 ≤ k) (hkm : k + 3 ≤ railCount r segments) (hkr : k + r < railCount r segments)
    (near : 1 / 100000000 + 1 / 100000 * ((k : ℝ) * (d / r)) < d / r) :
    ∃ c inp, combinedTrack hash r d segments = .ok c ∧ c.hingedSystem length v soils 0 (k * (d / r)) true = .ok inp ∧
      Spec.LinearStatics inp := by
  obtain ⟨c, hc, sound, -, -, -, -, -, -, hlen, -⟩ := C136_structure hash g
  have hs' : c.soils.length ≤ soils.length := by omega
  obtain ⟨a, b, ha, hb, hsys⟩ := sound.hingedSystem length v soils hs' true hk hkm near 0 0 (hingeStiffness_zero _ _ _)
  exact ⟨c, _, hc, hsys, (sound.hingedStill hs' hv (List.mem_of_head? ha) (List.mem_of_getLast? hb) hk hkm (σ := 0 / 2)
    (fun _ => Or.inl (combined_holdsPin hash g v soils h3 (by omega) hkr c hc))).linear⟩

end combined

/-- There is a solver that finds equilibrium whenever there is one. -/
theorem exists_solver (times : ℕ) : ∃ solver, Spec.SolvesWhenever times solver := by
  classical
  refine ⟨fun st rhs => if h : ∃ u, Spec.SolvesStatics st rhs times u then h.choose else ⟨fun _ _ => 0, fun _ _ => 0, fun _ _ => 0⟩,
    fun st rhs h => ?_⟩
  simp only [h, dif_pos]
  exact h.choose_spec

/-- So there are results of static calculations under all loads that fit the mesh. -/
theorem HeldStill.results {sys : SystemInput ℝ} (h : HeldStill sys) (loads : List (TimedLoad ℝ)) (times : ℕ)
    (hl : ∀ l ∈ loads, Spec.LoadFits sys.n l) : ∃ rows, Spec.StaticResults sys loads times rows := by
  obtain ⟨solver, hs⟩ := exists_solver times
  obtain ⟨st, rows, h1, -⟩ := h.ends loads times solver hl hs
  exact ⟨rows, solver, st, hs, h1⟩

/-- A downward force of `f t` on node `m`. -/
noncomputable def downForce (m : ℕ) (f : ℕ → ℝ) : TimedLoad ℝ := ⟨[m], ![false, true, false], .table fun _ t => ![0, -f t, 0]⟩

/-- Maxwell: on three sleepers, the deflection of node 4 under a force on node 0 is that of node 0 under an equal force on node 4. -/
example : ∃ t, createHorizontalTrack (fun p : Fin 3 → ℝ => p) 3 2 (3 / 5) 1 = .ok t ∧
    ∃ inp, t.system exampleTrack true = .ok inp ∧ ∃ r₁ r₂, Spec.StaticResults inp [downForce 0 fun _ => 1000] 5 r₁ ∧
      Spec.StaticResults inp [downForce 4 fun _ => 1000] 5 r₂ ∧ Spec.shape r₁ 3 4 1 = Spec.shape r₂ 3 0 1 := by
  obtain ⟨t, ht, -⟩ := C48_structure (fun p : Fin 3 → ℝ => p) 3 2 (by norm_num) (3 / 5) 1
  have g : Generated (fun p : Fin 3 → ℝ => p) 3 2 (3 / 5) 1 t := ⟨by norm_num, by norm_num, by norm_num, ht⟩
  have hh := g.heldStill (by norm_num) exampleTrack_valid
  have fit : ∀ m < 12, ∀ l ∈ [downForce m fun _ => 1000], Spec.LoadFits (generatedInput t 3 2 (3 / 5) exampleTrack true).n l := by
    intro m hm l hl
    obtain rfl := List.mem_singleton.mp hl
    refine ⟨by simp [downForce], fun x hx => ?_⟩
    obtain rfl : x = m := by simpa [downForce] using hx
    show x < 3 * 2 + 3 + 3
    omega
  obtain ⟨r₁, R₁⟩ := hh.results _ 5 (fit 0 (by norm_num))
  obtain ⟨r₂, R₂⟩ := hh.results _ 5 (fit 4 (by norm_num))
  refine ⟨t, ht, _, g.system _ true, r₁, r₂, R₁, R₂, ?_⟩
  have := hh.linear.reciprocal _ _ 5 5 r₁ r₂ (fit 0 (by norm_num)) (fit 4 (by norm_num)) R₁ R₂ 3 (by norm_num) 3 (by norm_num)
  simp [Spec.loadWork, Spec.loadsAt, downForce, Fin.sum_univ_three] at this
  exact this.symm

end Rose
