/-
C190: results in other units of force and time.
-/
import Verif.Spec.Units
import Verif.Props.LinearDynamics
import Verif.Props.CombinedUnknowns

set_option linter.unusedSectionVars false

namespace Rose
open Finset

/-- A part with its stiffness, damping and mass matrices multiplied. -/
noncomputable def partInUnits (α τ : ℝ) (p : AssemblyPart ℝ) : AssemblyPart ℝ :=
  { p with stiffness := p.stiffness.map fun a e => α * a e, mass := p.mass.map fun a e => α * τ ^ 2 * a e,
           damping := p.damping.map fun a e => α * τ * a e }

theorem localWork_scale {m : ℕ} (act : Fin 3 → Bool) (k : ℝ) (a : ℕ × ℕ → ℝ) (w z : Fin m → Fin 3 → ℝ) :
    Spec.localWork m act (fun e => k * a e) w z = k * Spec.localWork m act a w z := by
  unfold Spec.localWork
  simp only [mul_sum]
  refine sum_congr rfl fun i _ => sum_congr rfl fun j _ => sum_congr rfl fun x _ => sum_congr rfl fun y _ => ?_
  split_ifs <;> ring

theorem partWork_scale (p q : AssemblyPart ℝ) (he : q.elements = p.elements) (hn : q.nodes = p.nodes) (ha : q.act = p.act) (k : ℝ)
    (a : ℕ × ℕ → ℝ) (w z : Spec.NodalField ℝ) : Spec.partWork q (fun e => k * a e) w z = k * Spec.partWork p a w z := by
  unfold Spec.partWork
  rw [he, hn, ha]
  split_ifs
  · simp only [localWork_scale]
    rw [List.sum_map_mul_left]
  · simp only [localWork_scale]
    rw [List.sum_map_mul_left]

theorem systemWork_scale (f : AssemblyPart ℝ → Option (ℕ × ℕ → ℝ)) (k α τ : ℝ)
    (hf : ∀ p, f (partInUnits α τ p) = (f p).map fun a e => k * a e) (parts : List (AssemblyPart ℝ)) (w z : Spec.NodalField ℝ) :
    Spec.systemWork f (parts.map (partInUnits α τ)) w z = k * Spec.systemWork f parts w z := by
  unfold Spec.systemWork
  rw [List.map_map, ← List.sum_map_mul_left]
  refine congrArg List.sum (List.map_congr_left fun p _ => ?_)
  simp only [Function.comp_apply, hf]
  cases f p with
  | none => simp
  | some a => exact partWork_scale p (partInUnits α τ p) rfl rfl rfl k a w z

/-- A structure and the same in other units of force and time. -/
structure InUnits (sys sys' : SystemInput ℝ) (α τ : ℝ) : Prop where
  n : sys'.n = sys.n
  parts : sys'.parts = sys.parts.map (partInUnits α τ)
  rayleigh : sys'.isRayleigh = sys.isRayleigh
  ratio : sys'.ratio = sys.ratio
  w1 : sys'.w1 = sys.w1 / τ
  w2 : sys'.w2 = sys.w2 / τ
  removed : ∀ i < sys.n, ∀ d, Spec.Removed sys' i d ↔ Spec.Removed sys i d

section
variable {sys sys' : SystemInput ℝ} {α τ : ℝ}

theorem InUnits.stiff (e : InUnits sys sys' α τ) (w u : Spec.NodalField ℝ) :
    Spec.systemWork AssemblyPart.stiffness sys'.parts w u = α * Spec.systemWork AssemblyPart.stiffness sys.parts w u := by
  rw [e.parts]
  exact systemWork_scale _ _ _ _ (fun _ => rfl) _ _ _

theorem InUnits.mass (e : InUnits sys sys' α τ) (w u : Spec.NodalField ℝ) :
    Spec.systemWork AssemblyPart.mass sys'.parts w u = α * τ ^ 2 * Spec.systemWork AssemblyPart.mass sys.parts w u := by
  rw [e.parts]
  exact systemWork_scale _ _ _ _ (fun _ => rfl) _ _ _

theorem InUnits.damp (e : InUnits sys sys' α τ) (hτ : 0 < τ) (w u : Spec.NodalField ℝ) :
    dampingWork sys' w u = α * τ * dampingWork sys w u := by
  unfold dampingWork Spec.rayleighWork
  rw [e.stiff, e.mass, e.rayleigh, e.ratio, e.w1, e.w2,
    show Spec.systemWork AssemblyPart.damping sys'.parts w u = α * τ * Spec.systemWork AssemblyPart.damping sys.parts w u by
      rw [e.parts]
      exact systemWork_scale _ _ _ _ (fun _ => rfl) _ _ _]
  have h2 : sys.w1 / τ + sys.w2 / τ = (sys.w1 + sys.w2) / τ := by ring
  have hτ' := hτ.ne'
  split_ifs
  · simp only [h2, div_div_eq_mul_div]
    field_simp
  · ring

theorem InUnits.admissible (e : InUnits sys sys' α τ) (u : Spec.NodalField ℝ) : Spec.Admissible sys' u ↔ Spec.Admissible sys u := by
  unfold Spec.Admissible
  rw [e.n]
  exact ⟨fun h i hi d hr => h i hi d ((e.removed i hi d).mpr hr), fun h i hi d hr => h i hi d ((e.removed i hi d).mp hr)⟩

theorem loadFits_scaled {n : ℕ} {loads : List (TimedLoad ℝ)} (h : ∀ l ∈ loads, Spec.LoadFits n l) (k : ℝ) :
    ∀ l ∈ loads.map (Spec.scaledLoad k), Spec.LoadFits n l := by
  intro l hl
  obtain ⟨l', h', rfl⟩ := List.mem_map.mp hl
  exact ⟨(h l' h').nodup, (h l' h').mesh⟩

theorem InUnits.static (e : InUnits sys sys' α τ) (hα : 0 < α) (h : HeldStill sys) (h' : HeldStill sys') {loads : List (TimedLoad ℝ)}
    {times : ℕ} {r r' : List (List (NodeRow ℝ))} (hl : ∀ l ∈ loads, Spec.LoadFits sys.n l) (R : Spec.StaticResults sys loads times r)
    (R' : Spec.StaticResults sys' (loads.map (Spec.scaledLoad α)) times r') {s : ℕ} (hs : s < times) :
    ∀ i < sys.n, ∀ d, Spec.shape r' s i d = Spec.shape r s i d := by
  obtain ⟨a, b⟩ := h.equilibrium hl R hs
  obtain ⟨a', b'⟩ := h'.equilibrium (e.n ▸ loadFits_scaled hl α) R' hs
  refine h.unique ((e.admissible _).mp a') a fun w hw => ?_
  have := b' w ((e.admissible _).mpr hw)
  rw [e.stiff, loadWork_scaled] at this
  rw [mul_left_cancel₀ hα.ne' this, b w hw]

theorem InUnits.steps (e : InUnits sys sys' α τ) (hα : 0 < α) (hτ : 0 < τ) (h : HeldMoving sys) {loads : List (TimedLoad ℝ)} {dt : ℝ}
    {times : ℕ} {U V A : ℕ → Spec.NodalField ℝ}
    (f : FieldSteps sys' (fun s w => Spec.loadWork (Spec.loadsAt (loads.map (Spec.scaledLoad α)) s) w) (τ * dt) times U V A) :
    FieldSteps sys (fun s w => Spec.loadWork (Spec.loadsAt loads s) w) dt times U (fun s i d => τ * V s i d) (fun s i d => τ ^ 2 * A s i d) := by
  have smul : ∀ (k : ℝ) (u : Spec.NodalField ℝ), Spec.Admissible sys u → Spec.Admissible sys fun i d => k * u i d := by
    intro k u hu i hi d hr
    simp only
    rw [hu i hi d hr, mul_zero]
  refine ⟨fun s hs => ?_, fun s hs i hi => ?_, fun s hs w hw => ?_, fun s hs i d => ?_, fun s hs i d => ?_⟩
  · obtain ⟨a, b, c⟩ := f.admissible s hs
    exact ⟨(e.admissible _).mp a, smul _ _ ((e.admissible _).mp b), smul _ _ ((e.admissible _).mp c)⟩
  · obtain ⟨a, b, c⟩ := f.outside s hs i (by rw [e.n]; exact hi)
    refine ⟨a, ?_, ?_⟩ <;> funext d
    · simp [b]
    · simp [c]
  · have b := f.balance s hs w ((e.admissible _).mpr hw)
    simp only [loadWork_scaled] at b
    unfold motionWork at b ⊢
    rw [e.stiff, e.mass, e.damp hτ] at b
    rw [h.mass_smul, h.damp_smul]
    refine mul_left_cancel₀ hα.ne' ?_
    rw [← b]
    ring
  · rw [f.displacement s hs i d]
    ring
  · rw [f.velocity s hs i d]
    ring

theorem InUnits.dynamic (e : InUnits sys sys' α τ) (hα : 0 < α) (hτ : 0 < τ) (h : HeldMoving sys) (h' : HeldMoving sys')
    {loads : List (TimedLoad ℝ)} {dt : ℝ} {times : ℕ} {u₀ v₀ : Spec.NodalField ℝ} {r r' : List (List (NodeRow ℝ))} (hdt : 0 < dt)
    (hl : ∀ l ∈ loads, Spec.LoadFits sys.n l) (R : Spec.DynamicResults sys loads dt times u₀ v₀ r)
    (R' : Spec.DynamicResults sys' (loads.map (Spec.scaledLoad α)) (τ * dt) times u₀ (fun i d => v₀ i d / τ) r') {s : ℕ} (hs : s < times)
    (i : ℕ) (d : Fin 3) : Spec.shape r' s i d = Spec.shape r s i d ∧ Spec.shapeRate r' s i d = Spec.shapeRate r s i d / τ ∧
      Spec.shapeAcceleration r' s i d = Spec.shapeAcceleration r s i d / τ ^ 2 := by
  obtain ⟨f, z⟩ := h.results hdt hl R
  obtain ⟨f', z'⟩ := h'.results (mul_pos hτ hdt) (e.n ▸ loadFits_scaled hl α) R'
  have c := (e.steps hα hτ h f').combine h f (-1)
  have st := fun ht => c.start_eq ht fun i hi d hr => by
    obtain ⟨a, b⟩ := z i hi d hr ht
    obtain ⟨a', b'⟩ := z' i (by rw [e.n]; exact hi) d (fun x => hr ((e.removed i hi d).mp x)) ht
    rw [a, a', b, b']
    constructor
    · ring
    · field_simp
      ring
  obtain ⟨a, b, c⟩ := c.vanish h hdt (fun s _ w => by ring) (fun ht => (st ht).1) (fun ht => (st ht).2) s hs
  have a := congrFun (congrFun a i) d
  have b := congrFun (congrFun b i) d
  have c := congrFun (congrFun c i) d
  simp only [Pi.zero_apply] at a b c
  refine ⟨by linarith, ?_, ?_⟩
  · rw [eq_div_iff hτ.ne']; linarith
  · rw [eq_div_iff (by positivity)]; linarith

theorem InUnits.same (e : InUnits sys sys' α τ) (hα : 0 < α) (hτ : 0 < τ) (h : HeldMoving sys) (h' : HeldMoving sys') :
    Spec.SameInUnits sys sys' α τ :=
  ⟨fun _ _ _ _ hl R R' _ hs => e.static hα h.still h'.still hl R R' hs,
    fun _ _ _ _ _ _ _ hdt hl R R' _ hs i _ d => e.dynamic hα hτ h h' hdt hl R R' hs i d⟩

end

/-! ### The parts of a track -/

theorem matrixEntries_smul {m : ℕ} (k : ℝ) (a : Matrix (Fin m) (Fin m) ℝ) (e : ℕ × ℕ) : matrixEntries (k • a) e = k * matrixEntries a e := by
  unfold matrixEntries
  split_ifs <;> simp

theorem dotScalar_scale {m : ℕ} (a : Matrix (Fin m) (Fin m) ℝ) (k c : ℝ) : dotScalar a (k * c) = k • dotScalar a c := by
  ext i j
  simp only [dotScalar, Matrix.smul_apply, smul_eq_mul]
  ring

theorem rodStiffness_scale (k c : ℝ) : rodStiffness (k * c) = k • rodStiffness c := by
  ext i j
  fin_cases i <;> fin_cases j <;> simp [rodStiffness, fancySet]

theorem rodDamping_scale (k c : ℝ) : rodDamping (k * c) = k • rodDamping c := by
  ext i j
  fin_cases i <;> fin_cases j <;> simp [rodDamping, fancySet]

theorem rodMass_scale (k c : ℝ) : rodMass (k * c) = k • rodMass c := by
  unfold rodMass
  rw [mul_div_assoc, dotScalar_scale]

theorem rodAssembly_units (α τ : ℝ) (v : RodValues ℝ) (es : List ((ℕ × ℕ) × (ℝ × ℝ))) (nodes : List ℕ) :
    rodAssembly (Spec.rodInUnits α τ v) es nodes = partInUnits α τ (rodAssembly v es nodes) := by
  unfold rodAssembly partInUnits Spec.rodInUnits
  simp only [Option.map_map, Option.map_some, AssemblyPart.mk.injEq, true_and]
  refine ⟨?_, ?_, ?_⟩
  · rw [rodStiffness_scale]
    exact congrArg some (funext fun e => matrixEntries_smul _ _ e)
  · refine Option.map_congr fun m _ => ?_
    simp only [Function.comp_apply, rodMass_scale]
    exact funext fun e => matrixEntries_smul _ _ e
  · refine Option.map_congr fun m _ => ?_
    simp only [Function.comp_apply, rodDamping_scale]
    exact funext fun e => matrixEntries_smul _ _ e

theorem sleeperAssembly_units (α τ m : ℝ) (nodes : List ℕ) :
    sleeperAssembly (α * τ ^ 2 * m) nodes = partInUnits α τ (sleeperAssembly m nodes) := by
  unfold sleeperAssembly partInUnits
  simp only [Option.map_some, AssemblyPart.mk.injEq, true_and, Option.some.injEq]
  refine ⟨?_, ?_, ?_⟩ <;> funext e <;> simp only [matrixEntries, pointStiffness, pointMass] <;> split_ifs <;> simp

theorem timoshenkoFactor_units {α : ℝ} (hα : 0 < α) (τ : ℝ) (b : BeamPart ℝ) :
    timoshenkoFactor (Spec.railInUnits α τ b) = timoshenkoFactor b := by
  unfold timoshenkoFactor Spec.railInUnits shearModulus
  simp only
  split_ifs
  · rw [show 12 * (α * b.E) * b.I = α * (12 * b.E * b.I) by ring,
      show b.l ^ 2 * (α * b.E / (2 * (1 + b.nu))) * b.A * b.kappa = α * (b.l ^ 2 * (b.E / (2 * (1 + b.nu))) * b.A * b.kappa) by ring,
      mul_div_mul_left _ _ hα.ne']
  · rfl

theorem beamStiffness_units {α : ℝ} (hα : 0 < α) (τ : ℝ) (b : BeamPart ℝ) (h1 : b.s1 = .inf) (h2 : b.s2 = .inf) :
    (Spec.railInUnits α τ b).stiffness = α • b.stiffness := by
  unfold BeamPart.stiffness
  rw [timoshenkoFactor_units hα]
  simp only [Spec.railInUnits, h1, h2, fixity, beamStiffness]
  rw [mul_assoc, mul_div_assoc, dotScalar_scale]

theorem beamMass_units {α : ℝ} (hα : 0 < α) (τ : ℝ) (b : BeamPart ℝ) :
    (Spec.railInUnits α τ b).massMatrix = (α * τ ^ 2) • b.massMatrix := by
  unfold BeamPart.massMatrix
  rw [timoshenkoFactor_units hα]
  simp only [Spec.railInUnits, beamMass]
  have e1 : ∀ A phi l, beamTransMass (α * τ ^ 2 * b.rho) A phi l = (α * τ ^ 2) • beamTransMass b.rho A phi l := by
    intro A phi l
    unfold beamTransMass
    simp only
    rw [← dotScalar_scale]
    congr 1
    ring
  have e2 : ∀ I phi l, beamRotMass (α * τ ^ 2 * b.rho) I phi l = (α * τ ^ 2) • beamRotMass b.rho I phi l := by
    intro A phi l
    unfold beamRotMass
    simp only
    rw [← dotScalar_scale]
    congr 1
    ring
  rw [e1, e2]
  split_ifs
  · rw [smul_add]
  · rfl

theorem beamAssembly_units {α : ℝ} (hα : 0 < α) (τ : ℝ) (b : BeamPart ℝ) (h1 : b.s1 = .inf) (h2 : b.s2 = .inf)
    (es : List ((ℕ × ℕ) × (ℝ × ℝ))) (nodes : List ℕ) :
    beamAssembly (Spec.railInUnits α τ b) es nodes = partInUnits α τ (beamAssembly b es nodes) := by
  unfold beamAssembly partInUnits
  rw [beamStiffness_units hα τ b h1 h2, beamMass_units hα]
  simp only [Option.map_some, AssemblyPart.mk.injEq, true_and, Option.some.injEq]
  refine ⟨funext fun e => matrixEntries_smul _ _ e, funext fun e => matrixEntries_smul _ _ e, funext fun e => ?_⟩
  rw [← matrixEntries_smul, smul_zero]

theorem TrackValues.Valid.inUnits {v : TrackValues} (hv : v.Valid) {α τ : ℝ} (hα : 0 < α) (hτ : 0 < τ) : (Spec.trackInUnits α τ v).Valid :=
  ⟨mul_pos hα hv.E, hv.nu, mul_pos (by positivity) hv.rho, hv.A, hv.I, hv.kappa, hv.s1, hv.s2, mul_pos hα hv.pad, mul_pos hα hv.soil⟩

theorem TrackValues.NonNeg.inUnits {v : TrackValues} (hm : v.NonNeg) {α τ : ℝ} (hα : 0 < α) (hτ : 0 < τ) :
    (Spec.trackInUnits α τ v).NonNeg := by
  have key : ∀ {k : ℝ} {o : Option ℝ}, 0 < k → (∀ m, o = some m → 0 ≤ m) → ∀ m, (o.map fun m => k * m) = some m → 0 ≤ m := by
    intro k o hk ho m e
    obtain ⟨x, hx, rfl⟩ := Option.map_eq_some_iff.mp e
    exact mul_nonneg hk.le (ho x hx)
  exact ⟨key (by positivity) hm.padMass, key (by positivity) hm.soilMass, mul_nonneg (by positivity) hm.sleeper,
    key (by positivity) hm.padDamping, key (by positivity) hm.soilDamping⟩

theorem TrackValues.Rayleigh.inUnits {v : TrackValues} (hR : v.Rayleigh) (α : ℝ) {τ : ℝ} (hτ : 0 < τ) : (Spec.trackInUnits α τ v).Rayleigh :=
  ⟨hR.ratio, fun h => div_pos (hR.w1 h) hτ, fun h => div_pos (hR.w2 h) hτ⟩

/-- Parts of a track in other units. -/
noncomputable def trackPartsInUnits (α τ : ℝ) (T : TrackParts ℝ) : TrackParts ℝ :=
  { T with beam := Spec.railInUnits α τ T.beam, pad := Spec.rodInUnits α τ T.pad, sleeperMass := α * τ ^ 2 * T.sleeperMass,
           soils := T.soils.map fun s => (Spec.rodInUnits α τ s.1, s.2) }

theorem trackParts_units {α : ℝ} (hα : 0 < α) (τ : ℝ) (T : TrackParts ℝ) (h1 : T.beam.s1 = .inf) (h2 : T.beam.s2 = .inf) :
    (trackPartsInUnits α τ T).parts = T.parts.map (partInUnits α τ) := by
  unfold TrackParts.parts trackPartsInUnits
  simp only [List.map_cons, List.map_map, beamAssembly_units hα τ _ h1 h2, rodAssembly_units, sleeperAssembly_units]
  refine congrArg _ (congrArg _ (congrArg _ (List.map_congr_left fun s _ => ?_)))
  simp only [Function.comp_apply, rodAssembly_units]

section track
variable {H : Type*} [DecidableEq H] {hash : (Fin 3 → ℝ) → H} {n r : ℕ} {d h : ℝ} {t : HorizontalTrack ℝ}

theorem generated_units {α : ℝ} (hα : 0 < α) (τ : ℝ) {v : TrackValues} (hv : v.Valid) :
    (generatedParts t n r d (Spec.trackInUnits α τ v)).parts = (generatedParts t n r d v).parts.map (partInUnits α τ) := by
  rw [← trackParts_units hα τ _ hv.s1 hv.s2]
  rfl

/-- The rail, the sleepers and the pads of a track are above the threshold of the program, with their values in the given units. -/
structure TrackValues.Noticed (v : TrackValues) (l : ℝ) : Prop where
  rail : RailPresent { v.rail with l := l }
  sleeper : 1 / 10 ^ 8 < v.sleeperMass
  pad : 1 / 10 ^ 8 < v.pad.stiffness

theorem Generated.removed (g : Generated hash n r d h t) {v : TrackValues} (hv : v.Valid) (hm : v.NonNeg) (hp : v.Noticed (d / r)) (held : Bool)
    (k : ℕ) (hk : k < n * r + n + n) (c : Fin 3) : Spec.Removed (generatedInput t n r d v held) (t.position k) c ↔
      if k < n * r then held = true ∧ (k = 0 ∨ k = n * r - 1) ∧ c = 0 else k < n * r + n → c ≠ 1 := by
  obtain ⟨st, hst⟩ := C106_succeeds (generatedInput t n r d v held) (g.mesh v held) freshFlags
  rw [← g.unknowns v hv hm hp.rail hp.sleeper hp.pad held st hst k hk c]
  exact (C106_unknowns_partial _ (g.mesh v held) (g.aligned v held) st hst _ (g.position.1 k hk) c).symm

theorem Generated.inUnits (g : Generated hash n r d h t) {v : TrackValues} (hv : v.Valid) (hm : v.NonNeg) {α τ : ℝ} (hα : 0 < α) (hτ : 0 < τ)
    (hp : v.Noticed (d / r)) (hp' : (Spec.trackInUnits α τ v).Noticed (d / r)) (held : Bool) :
    InUnits (generatedInput t n r d v held) (generatedInput t n r d (Spec.trackInUnits α τ v) held) α τ where
  n := rfl
  parts := generated_units hα τ hv
  rayleigh := rfl
  ratio := rfl
  w1 := rfl
  w2 := rfl
  removed := fun i hi c => by
    obtain ⟨k, hk, rfl⟩ := g.position.2.1 i hi
    rw [g.removed hv hm hp held k hk c, g.removed (hv.inUnits hα hτ) (hm.inUnits hα hτ) hp' held k hk c]

/-- **C190** Generated tracks report the same in all units of force and time in which rail, sleepers and pads are above the threshold of the
program. Missing: other units (see `C190_violated`). -/
theorem C190_track_partial (hash : (Fin 3 → ℝ) → H) (n r : ℕ) (hn : 2 ≤ n) (hr : 0 < r) (d h : ℝ)
    (hd : 1 / 1000000000 < d / r) (hh : 1 / 1000000000 < h) (t : HorizontalTrack ℝ)
    (ht : createHorizontalTrack hash n r d h = .ok t) (v : TrackValues) (hv : v.Valid) (hm : v.NonNeg) (hR : v.Rayleigh) (α τ : ℝ) (hα : 0 < α)
    (hτ : 0 < τ) (hp : v.Noticed (d / r)) (hp' : (Spec.trackInUnits α τ v).Noticed (d / r)) :
    ∃ inp inp', t.system v true = .ok inp ∧ t.system (Spec.trackInUnits α τ v) true = .ok inp' ∧ Spec.SameInUnits inp inp' α τ := by
  have g : Generated hash n r d h t := ⟨by nlinarith, hd, hh, ht⟩
  exact ⟨_, _, g.system v true, g.system _ true, (g.inUnits hv hm hα hτ hp hp' true).same hα hτ (g.heldMoving hn hr hv hm hR)
    (g.heldMoving hn hr (hv.inUnits hα hτ) (hm.inUnits hα hτ) (hR.inUnits α hτ))⟩

theorem small_work (sys : SystemInput ℝ) : ∃ α₀ > 0, ∀ α, 0 < α → α ≤ α₀ → ∀ i < sys.n, ∀ c,
    |α * Spec.systemWork AssemblyPart.stiffness sys.parts (Spec.unitField i c) (Spec.unitField i c)| ≤ 1 / 10 ^ 8 := by
  set W : ℕ → Fin 3 → ℝ := fun i c => |Spec.systemWork AssemblyPart.stiffness sys.parts (Spec.unitField i c) (Spec.unitField i c)| with hW
  set B : ℝ := 1 + ∑ i ∈ range sys.n, ∑ c, W i c with hB
  have h0 : 0 ≤ ∑ i ∈ range sys.n, ∑ c, W i c := sum_nonneg fun i _ => sum_nonneg fun c _ => abs_nonneg _
  have hB0 : 0 < B := by linarith
  refine ⟨1 / 10 ^ 8 / B, by positivity, fun α hα hle i hi c => ?_⟩
  have hb : W i c ≤ B := by
    have h1 : W i c ≤ ∑ c, W i c := single_le_sum (f := fun c => W i c) (fun c _ => abs_nonneg _) (mem_univ c)
    have h2 : ∑ c, W i c ≤ ∑ i ∈ range sys.n, ∑ c, W i c :=
      single_le_sum (f := fun i => ∑ c, W i c) (fun i _ => sum_nonneg fun c _ => abs_nonneg _) (mem_range.mpr hi)
    linarith
  rw [abs_mul, abs_of_pos hα]
  calc α * W i c ≤ 1 / 10 ^ 8 / B * B := mul_le_mul hle hb (abs_nonneg _) (by positivity)
    _ = 1 / 10 ^ 8 := by field_simp

/-- **C190 (violated)** For every generated track there are units of force in which the program reports that nothing moves, whatever the loads
are: so the results depend on the units. -/
theorem C190_violated (hash : (Fin 3 → ℝ) → H) (n r : ℕ) (hn : 2 ≤ n) (hr : 0 < r) (d h : ℝ)
    (hd : 1 / 1000000000 < d / r) (hh : 1 / 1000000000 < h) (t : HorizontalTrack ℝ)
    (ht : createHorizontalTrack hash n r d h = .ok t) (v : TrackValues) (hv : v.Valid) (hm : v.NonNeg) (hp : v.Noticed (d / r)) :
    ∃ inp, t.system v true = .ok inp ∧ ∃ α₀ > 0, ∀ α, 0 < α → α ≤ α₀ → ∃ inp', t.system (Spec.trackInUnits α 1 v) true = .ok inp' ∧
      (∀ (loads : List (TimedLoad ℝ)) times r, (∀ l ∈ loads, Spec.LoadFits inp.n l) → Spec.StaticResults inp' loads times r →
        ∀ s < times, ∀ i < inp.n, ∀ c, Spec.shape r s i c = 0) ∧ ¬ Spec.SameInUnits inp inp' α 1 := by
  have g : Generated hash n r d h t := ⟨by nlinarith, hd, hh, ht⟩
  obtain ⟨α₀, h0, small⟩ := small_work (generatedInput t n r d v true)
  refine ⟨_, g.system v true, α₀, h0, fun α hα hle => ⟨_, g.system _ true, ?_⟩⟩
  have hs := g.heldStill hn hv
  have hs' := g.heldStill hn (hv.inUnits hα one_pos)
  have still : ∀ (loads : List (TimedLoad ℝ)) times r', (∀ l ∈ loads, Spec.LoadFits (generatedInput t n r d v true).n l) →
      Spec.StaticResults (generatedInput t n r d (Spec.trackInUnits α 1 v) true) loads times r' →
        ∀ s < times, ∀ i < (generatedInput t n r d v true).n, ∀ c, Spec.shape r' s i c = 0 := by
    intro loads times r' hl R s hst i hi c
    refine (hs'.equilibrium hl R hst).1 i hi c (Or.inr (Or.inr ?_))
    show |Spec.systemWork AssemblyPart.stiffness (generatedParts t n r d (Spec.trackInUnits α 1 v)).parts _ _| ≤ _
    rw [generated_units hα 1 hv, systemWork_scale AssemblyPart.stiffness α α 1 (fun _ => rfl)]
    exact small α hα hle i hi c
  refine ⟨still, fun same => ?_⟩
  have hpos := g.position.1 0 (by have := g.rails; omega)
  have fit : ∀ l ∈ [downForce (t.position 0) fun _ => 1], Spec.LoadFits (generatedInput t n r d v true).n l := by
    intro l hl
    obtain rfl := List.mem_singleton.mp hl
    refine ⟨by simp [downForce], fun x hx => ?_⟩
    obtain rfl : x = t.position 0 := by simpa [downForce] using hx
    exact hpos
  obtain ⟨r₁, R₁⟩ := hs.results _ 1 fit
  obtain ⟨r₂, R₂⟩ := hs'.results _ 1 (loadFits_scaled fit α)
  have z : ∀ i < n * r + n + n, ∀ c, Spec.shape r₁ 0 i c = 0 := fun i hi c => by
    rw [← same.static _ 1 r₁ r₂ fit R₁ R₂ 0 one_pos i hi c]
    exact still _ 1 r₂ (loadFits_scaled fit α) R₂ 0 one_pos i hi c
  have adm : Spec.Admissible (generatedInput t n r d v true) (Spec.unitField (t.position 0) 1) := by
    intro i hi c hrem
    by_cases e : i = t.position 0 ∧ c = 1
    · obtain ⟨rfl, rfl⟩ := e
      rw [g.removed hv hm hp true 0 (by have := g.rails; omega) 1, if_pos (by positivity)] at hrem
      exact absurd hrem.2.2 (by decide)
    · unfold Spec.unitField
      rw [if_neg e]
  obtain ⟨a, b⟩ := hs.equilibrium fit R₁ one_pos
  have load : ∀ w, Spec.loadWork (Spec.loadsAt [downForce (t.position 0) fun _ => 1] 0) w = -w (t.position 0) 1 := by
    intro w
    simp [Spec.loadWork, Spec.loadsAt, downForce, Fin.sum_univ_three]
  have b1 := b _ adm
  have b2 := b _ a
  rw [load] at b1 b2
  rw [z _ hpos 1, neg_zero] at b2
  set W := Spec.systemWork AssemblyPart.stiffness (generatedInput t n r d v true).parts with hW
  set w : Spec.NodalField ℝ := Spec.unitField (t.position 0) 1 with hw
  have hw1 : w (t.position 0) 1 = 1 := by simp [hw, Spec.unitField]
  have w0 := (hs.energy w adm).1
  have p := (hs.energy _ (admissible_combine adm a (W w w + 1))).1
  rw [hs.work_combine, systemWork_combine, systemWork_combine, hs.work_symm (Spec.shape r₁ 0) w] at p
  simp only [← hW] at p w0
  rw [b1, b2, hw1] at p
  nlinarith

end track

section combined
variable {H : Type*} [DecidableEq H] {hash : (Fin 3 → ℝ) → H} {r : ℕ} {d : ℝ} {segments : List (ℕ × ℝ)}

theorem KeptValues.inUnits {l : ℝ} {v : TrackValues} {soils : List (RodValues ℝ)} (k : KeptValues l v soils) {α τ : ℝ} (hα : 0 < α) (hτ : 0 < τ)
    (hp : (Spec.trackInUnits α τ v).Noticed l) : KeptValues l (Spec.trackInUnits α τ v) (soils.map (Spec.rodInUnits α τ)) := by
  have key : ∀ {k : ℝ} {o : Option ℝ}, 0 < k → (∀ m, o = some m → 0 ≤ m) → ∀ m, (o.map fun m => k * m) = some m → 0 ≤ m := by
    intro k o hk ho m e
    obtain ⟨x, hx, rfl⟩ := Option.map_eq_some_iff.mp e
    exact mul_nonneg hk.le (ho x hx)
  refine ⟨fun w hw => ?_, key (by positivity) k.padMass, fun w hw => ?_, hp.rail, hp.sleeper, hp.pad⟩
  · obtain ⟨w, hw', rfl⟩ := List.mem_map.mp hw
    exact (k.valid w hw').inUnits hα hτ
  · obtain ⟨w, hw', rfl⟩ := List.mem_map.mp hw
    exact key (by positivity) (k.soilMass w hw')

theorem combined_units {ι : Type*} [DecidableEq ι] (c : CombinedTrack ι ℝ) (l : ℝ) {α : ℝ} (hα : 0 < α) (τ : ℝ) {v : TrackValues}
    (h1 : v.rail.s1 = .inf) (h2 : v.rail.s2 = .inf) (soils : List (RodValues ℝ)) :
    (c.partsOf l (Spec.trackInUnits α τ v) (soils.map (Spec.rodInUnits α τ))).parts = (c.partsOf l v soils).parts.map (partInUnits α τ) := by
  rw [← trackParts_units hα τ (c.partsOf l v soils) h1 h2]
  congr 1
  unfold CombinedTrack.partsOf trackPartsInUnits
  simp only [TrackParts.mk.injEq]
  refine ⟨rfl, trivial, trivial, rfl, trivial, trivial, rfl, trivial, ?_⟩
  rw [List.zip_map_left, List.map_map, List.map_map]
  rfl

/-- **C190** Tracks of several segments report the same in all units of force and time in which rail, sleepers and pads are above the threshold
of the program. Missing: other units (see `C190_violated`), hinges. -/
theorem C190_combined_partial (g : GoodSegments r d segments) (length : ℝ) (v : TrackValues) (soils : List (RodValues ℝ))
    (hs : segments.length ≤ soils.length) (k : KeptValues (d / r) v soils) (hm : ∀ w ∈ soils, ({ v with soil := w } : TrackValues).NonNeg)
    (hR : v.Rayleigh) (α τ : ℝ) (hα : 0 < α) (hτ : 0 < τ) (hp' : (Spec.trackInUnits α τ v).Noticed (d / r)) :
    ∃ c inp inp', combinedTrack hash r d segments = .ok c ∧ c.system length v soils true = .ok inp ∧
      c.system length (Spec.trackInUnits α τ v) (soils.map (Spec.rodInUnits α τ)) true = .ok inp' ∧ Spec.SameInUnits inp inp' α τ := by
  obtain ⟨c, hc, s, -, -, hnd, hcount, hpads, -, hlen, -⟩ := C136_structure hash g
  have hpads : ∀ x ∈ c.sleepers, ∃ e ∈ c.pads, e.2 = x := fun x hx => by
    rw [← hpads] at hx
    exact List.mem_map.mp hx
  have hs1 : c.soils.length ≤ soils.length := by omega
  have hs2 : c.soils.length ≤ (soils.map (Spec.rodInUnits α τ)).length := by simpa using hs1
  obtain ⟨a, b, ha, hb, hsys⟩ := s.system length v soils hs1 true
  obtain ⟨a', b', ha', hb', hsys'⟩ := s.system length (Spec.trackInUnits α τ v) (soils.map (Spec.rodInUnits α τ)) hs2 true
  obtain rfl : a = a' := by rw [ha] at ha'; exact Option.some.inj ha'
  obtain rfl : b = b' := by rw [hb] at hb'; exact Option.some.inj hb'
  have k' := k.inUnits hα hτ hp'
  have hm' : ∀ w ∈ soils.map (Spec.rodInUnits α τ), ({ Spec.trackInUnits α τ v with soil := w } : TrackValues).NonNeg := by
    intro w hw
    obtain ⟨w, hw', rfl⟩ := List.mem_map.mp hw
    exact (hm w hw').inUnits hα hτ
  have h := s.heldMoving v soils hs1 k.valid hm hR a b (List.mem_of_head? ha) (List.mem_of_getLast? hb)
  have h' := s.heldMoving (Spec.trackInUnits α τ v) (soils.map (Spec.rodInUnits α τ)) hs2 k'.valid hm' (hR.inUnits α hτ) a b
    (List.mem_of_head? ha) (List.mem_of_getLast? hb)
  obtain ⟨w0, hw0⟩ := s.some_soil hs1
  refine ⟨c, _, _, hc, hsys, hsys', InUnits.same ⟨rfl, combined_units c _ hα τ (k.valid w0 hw0).s1 (k.valid w0 hw0).s2 soils, rfl, rfl, rfl, rfl, ?_⟩
    hα hτ h h'⟩
  intro i hi e
  obtain ⟨st, hst⟩ := C106_succeeds (c.inputOf (d / r) v soils a b true) h.mesh freshFlags
  obtain ⟨st', hst'⟩ := C106_succeeds (c.inputOf (d / r) (Spec.trackInUnits α τ v) (soils.map (Spec.rodInUnits α τ)) a b true) h'.mesh freshFlags
  have u1 := C106_unknowns_partial _ h.mesh h.aligned st hst i hi e
  have u2 := C106_unknowns_partial _ h'.mesh h'.aligned st' hst' i hi e
  obtain ⟨p1, p2, p3⟩ := s.unknowns hs1 k hpads a b ha hb st hst
  obtain ⟨q1, q2, q3⟩ := s.unknowns hs2 k' hpads a b ha hb st' hst'
  obtain ⟨x, hx, rfl⟩ : ∃ x ∈ c.meshNodes, c.place x = i := by
    refine ⟨c.meshNodes[i]'hi, List.getElem_mem _, ?_⟩
    exact s.nodup.idxOf_getElem i hi
  refine u2.symm.trans (Iff.trans ?_ u1)
  rcases (s.mem x).mp hx with hx | hx | ⟨p, hp, y, hy, rfl⟩
  · rw [p1 x hx, q1 x hx]
  · rw [p2 x hx, q2 x hx]
  · exact iff_of_true (q3 p hp y hy e) (p3 p hp y hy e)

end combined

/-! ### Examples: newtons and seconds, kilonewtons and milliseconds -/

theorem exampleTrack_noticed : exampleTrack.Noticed (3 / 5 / (2 : ℕ)) :=
  ⟨exampleTrack_railPresent, by norm_num [exampleTrack], by norm_num [exampleTrack]⟩

theorem exampleTrack_noticed_kilo : (Spec.trackInUnits (1 / 1000) 1000 exampleTrack).Noticed (3 / 5 / (2 : ℕ)) := by
  refine ⟨?_, by norm_num [exampleTrack, Spec.trackInUnits], by norm_num [exampleTrack, Spec.trackInUnits, Spec.rodInUnits]⟩
  intro k
  rw [BeamPart.stiffness, beamStiffness_eq, BeamPart.massMatrix, beamMass, beamTransMass_eq, beamRotMass_eq,
    if_pos (by norm_num [exampleTrack, Spec.trackInUnits, Spec.railInUnits, timoshenkoFactor, shearModulus])]
  fin_cases k <;> constructor <;>
    norm_num [exampleTrack, Spec.trackInUnits, Spec.railInUnits, timoshenkoFactor, shearModulus, fixity]

/-- A track in newtons and seconds and in kilonewtons and milliseconds: results exist in both, and are the same. -/
example : ∃ t inp inp', createHorizontalTrack (fun p : Fin 3 → ℝ => p) 3 2 (3 / 5) 1 = .ok t ∧ t.system exampleTrack true = .ok inp ∧
    t.system (Spec.trackInUnits (1 / 1000) 1000 exampleTrack) true = .ok inp' ∧ Spec.SameInUnits inp inp' (1 / 1000) 1000 ∧
    (∃ r, Spec.StaticResults inp [downForce 0 fun _ => 1000] 2 r) ∧
    ∃ r', Spec.StaticResults inp' ([downForce 0 fun _ => 1000].map (Spec.scaledLoad (1 / 1000))) 2 r' := by
  obtain ⟨t, ht, -⟩ := C48_structure (fun p : Fin 3 → ℝ => p) 3 2 (by norm_num) (3 / 5) 1
  obtain ⟨inp, inp', h1, h2, h3⟩ := C190_track_partial _ 3 2 (by norm_num) (by norm_num) _ _ (by norm_num) (by norm_num) t ht exampleTrack
    exampleTrack_valid exampleTrack_nonNeg exampleTrack_rayleigh (1 / 1000) 1000 (by norm_num) (by norm_num) exampleTrack_noticed
    exampleTrack_noticed_kilo
  have g : Generated (fun p : Fin 3 → ℝ => p) 3 2 (3 / 5) 1 t := ⟨by norm_num, by norm_num, by norm_num, ht⟩
  have fit : ∀ l ∈ [downForce 0 fun _ => 1000], Spec.LoadFits (generatedInput t 3 2 (3 / 5) exampleTrack true).n l := by
    intro l hl
    obtain rfl := List.mem_singleton.mp hl
    refine ⟨by simp [downForce], fun x hx => ?_⟩
    obtain rfl : x = 0 := by simpa [downForce] using hx
    norm_num [generatedInput]
  rw [g.system] at h1 h2
  obtain rfl := Except.ok.inj h1
  obtain rfl := Except.ok.inj h2
  exact ⟨t, _, _, ht, g.system _ _, g.system _ _, h3, (g.heldStill (by norm_num) exampleTrack_valid).results _ _ fit,
    (g.heldStill (by norm_num) (exampleTrack_valid.inUnits (by norm_num) (by norm_num))).results _ _ (loadFits_scaled fit _)⟩

end Rose
