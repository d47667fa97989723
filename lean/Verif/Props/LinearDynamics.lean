/-
C179: the results in time steps depend causally and linearly on loads and start, and their energy balances.
-/
import Verif.Spec.LinearDynamics
import Verif.Props.TrackMotion
import Verif.Props.Statics

set_option linter.unusedSectionVars false

namespace Rose
open Finset

/-- A structure that stands and whose matrices are those of a vibrating system, for all loads. -/
structure HeldMoving (sys : SystemInput ℝ) : Prop where
  mesh : Spec.NodesInMesh sys
  aligned : Spec.AxisAligned sys
  symm : ∀ p ∈ sys.parts, p.Symmetric
  moves : ∀ loads, ∃ st, ({ sys with loads := loads } : SystemInput ℝ).initialise freshFlags = .ok st ∧ Oscillator st.N st.M st.C st.Kg

/-- Work of the damping forces of the velocities `u` in `w`. -/
noncomputable def dampingWork (sys : SystemInput ℝ) (w u : Spec.NodalField ℝ) : ℝ :=
  Spec.systemWork AssemblyPart.damping sys.parts w u + Spec.rayleighWork sys w u

/-- Work of inertia, damping and stiffness forces in `w`. -/
noncomputable def motionWork (sys : SystemInput ℝ) (w u v a : Spec.NodalField ℝ) : ℝ :=
  Spec.systemWork AssemblyPart.mass sys.parts w a + dampingWork sys w v + Spec.systemWork AssemblyPart.stiffness sys.parts w u

section
variable {sys : SystemInput ℝ}

theorem form_matrixWork (N : ℕ) (g : ℕ → ℕ → ℝ) (v u : ℕ → ℝ) : form N g v u = matrixWork N g v u :=
  (form_rows g v u).trans (matrixWork_eq N g v u).symm

theorem HeldMoving.mass_symm (h : HeldMoving sys) (w u : Spec.NodalField ℝ) :
    Spec.systemWork AssemblyPart.mass sys.parts w u = Spec.systemWork AssemblyPart.mass sys.parts u w :=
  systemWork_symm _ _ (fun p hp a ha => h.symm p hp a (Or.inr (Or.inl ha))) _ _

theorem HeldMoving.stiff_symm (h : HeldMoving sys) (w u : Spec.NodalField ℝ) :
    Spec.systemWork AssemblyPart.stiffness sys.parts w u = Spec.systemWork AssemblyPart.stiffness sys.parts u w :=
  systemWork_symm _ _ (fun p hp a ha => h.symm p hp a (Or.inl ha)) _ _

theorem HeldMoving.damp_symm (h : HeldMoving sys) (w u : Spec.NodalField ℝ) : dampingWork sys w u = dampingWork sys u w := by
  unfold dampingWork Spec.rayleighWork
  rw [systemWork_symm _ _ (fun p hp a ha => h.symm p hp a (Or.inr (Or.inr ha))) w u, h.mass_symm w u, h.stiff_symm w u]

theorem dampingWork_combine (k : ℝ) (w₁ w₂ u : Spec.NodalField ℝ) :
    dampingWork sys (fun i d => w₁ i d + k * w₂ i d) u = dampingWork sys w₁ u + k * dampingWork sys w₂ u := by
  unfold dampingWork Spec.rayleighWork
  rw [systemWork_combine, systemWork_combine, systemWork_combine]
  split_ifs <;> ring

theorem HeldMoving.mass_combine (h : HeldMoving sys) (k : ℝ) (w u₁ u₂ : Spec.NodalField ℝ) :
    Spec.systemWork AssemblyPart.mass sys.parts w (fun i d => u₁ i d + k * u₂ i d) =
      Spec.systemWork AssemblyPart.mass sys.parts w u₁ + k * Spec.systemWork AssemblyPart.mass sys.parts w u₂ := by
  rw [h.mass_symm, systemWork_combine, h.mass_symm u₁, h.mass_symm u₂]

theorem HeldMoving.stiff_combine (h : HeldMoving sys) (k : ℝ) (w u₁ u₂ : Spec.NodalField ℝ) :
    Spec.systemWork AssemblyPart.stiffness sys.parts w (fun i d => u₁ i d + k * u₂ i d) =
      Spec.systemWork AssemblyPart.stiffness sys.parts w u₁ + k * Spec.systemWork AssemblyPart.stiffness sys.parts w u₂ := by
  rw [h.stiff_symm, systemWork_combine, h.stiff_symm u₁, h.stiff_symm u₂]

theorem HeldMoving.damp_combine (h : HeldMoving sys) (k : ℝ) (w u₁ u₂ : Spec.NodalField ℝ) :
    dampingWork sys w (fun i d => u₁ i d + k * u₂ i d) = dampingWork sys w u₁ + k * dampingWork sys w u₂ := by
  rw [h.damp_symm, dampingWork_combine, h.damp_symm u₁, h.damp_symm u₂]

theorem HeldMoving.motion_combine (h : HeldMoving sys) (k : ℝ) (w u₁ v₁ a₁ u₂ v₂ a₂ : Spec.NodalField ℝ) :
    motionWork sys w (fun i d => u₁ i d + k * u₂ i d) (fun i d => v₁ i d + k * v₂ i d) (fun i d => a₁ i d + k * a₂ i d) =
      motionWork sys w u₁ v₁ a₁ + k * motionWork sys w u₂ v₂ a₂ := by
  unfold motionWork
  rw [h.mass_combine, h.damp_combine, h.stiff_combine]
  ring

/-- Mass and stiffness are positive on admissible fields, damping is not negative. -/
theorem HeldMoving.positive (h : HeldMoving sys) (w : Spec.NodalField ℝ) (hw : Spec.Admissible sys w) :
    (0 ≤ Spec.systemWork AssemblyPart.mass sys.parts w w ∧
      (Spec.systemWork AssemblyPart.mass sys.parts w w = 0 → ∀ i < sys.n, w i = 0)) ∧
    0 ≤ dampingWork sys w w ∧
    (0 ≤ Spec.systemWork AssemblyPart.stiffness sys.parts w w ∧
      (Spec.systemWork AssemblyPart.stiffness sys.parts w w = 0 → ∀ i < sys.n, w i = 0)) := by
  set c : SystemRun ℝ := ⟨sys, []⟩ with hc
  obtain ⟨st, hst, o⟩ := h.moves []
  have hst : c.input.initialise freshFlags = .ok st := hst
  obtain ⟨W, hW⟩ := admissible_represents c h.mesh h.aligned st hst w hw
  obtain ⟨e1, e2, e3⟩ := C106_work_partial c.input freshFlags h.mesh h.aligned st hst W W w w hW hW
  have zero : (∀ k < st.N, W k = 0) → ∀ i < sys.n, w i = 0 := by
    intro h0 i hi
    funext b
    cases hk : equationOf st.nodes i b with
    | none => exact hW.removed i hi b hk
    | some k =>
      rw [← hW.value i b k hk]
      exact h0 k ((C106_representable c.input freshFlags st hst).2.1 i b k hk).2
  have hR : (rayleighPair c.input).1 * Spec.systemWork AssemblyPart.mass c.input.parts w w +
      (rayleighPair c.input).2 * Spec.systemWork AssemblyPart.stiffness c.input.parts w w = Spec.rayleighWork sys w w := by
    unfold rayleighPair Spec.rayleighWork
    show (if sys.isRayleigh = true then _ else _ : ℝ × ℝ).1 * _ + (if sys.isRayleigh = true then _ else _ : ℝ × ℝ).2 * _ = _
    split_ifs
    · rfl
    · simp
  have m := o.mass W
  have k := o.stiff W
  have d := o.damp W
  rw [form_matrixWork] at m k d
  rw [e2] at m
  rw [e1] at k
  rw [e3, e1, e2, add_assoc, hR] at d
  exact ⟨⟨m.1, fun h0 => zero (m.2 h0)⟩, d, k.1, fun h0 => zero (k.2 h0)⟩

theorem HeldMoving.still (h : HeldMoving sys) : HeldStill sys where
  mesh := h.mesh
  aligned := h.aligned
  symm := h.symm
  definite := fun loads st hst U => by
    obtain ⟨st', hst', o⟩ := h.moves loads
    rw [hst] at hst'
    injection hst' with hst'
    subst hst'
    have := o.stiff U
    rwa [form_matrixWork] at this

/-- Average acceleration steps of fields under the virtual work `F` of the loads. -/
structure FieldSteps (sys : SystemInput ℝ) (F : ℕ → Spec.NodalField ℝ → ℝ) (dt : ℝ) (times : ℕ) (U V A : ℕ → Spec.NodalField ℝ) : Prop where
  admissible : ∀ s < times, Spec.Admissible sys (U s) ∧ Spec.Admissible sys (V s) ∧ Spec.Admissible sys (A s)
  outside : ∀ s < times, ∀ i, sys.n ≤ i → U s i = 0 ∧ V s i = 0 ∧ A s i = 0
  balance : ∀ s < times, ∀ w, Spec.Admissible sys w → motionWork sys w (U s) (V s) (A s) = F s w
  displacement : ∀ s, s + 1 < times → ∀ i d, U (s + 1) i d = U s i d + dt * V s i d + dt ^ 2 * (A s i d + A (s + 1) i d) / 4
  velocity : ∀ s, s + 1 < times → ∀ i d, V (s + 1) i d = V s i d + dt * (A s i d + A (s + 1) i d) / 2

/-- The reported results of a calculation are such steps. -/
theorem HeldMoving.fieldSteps (h : HeldMoving sys) {loads : List (TimedLoad ℝ)} (hl : ∀ l ∈ loads, Spec.LoadFits sys.n l) {dt : ℝ}
    (hdt : 0 < dt) {times : ℕ} {u₀ v₀ : Spec.NodalField ℝ} {solver : TrimState ℝ → (List ℕ → ℕ → ℕ → ℝ) → SolverOutput ℝ}
    (hs : Spec.StepsWhenever dt times u₀ v₀ solver) :
    ∃ st rows, SystemRun.main ⟨sys, loads⟩ freshFlags times solver = .ok (st, rows) ∧ rows.length = times ∧
      FieldSteps sys (fun s w => Spec.loadWork (Spec.loadsAt loads s) w) dt times (Spec.shape rows) (Spec.shapeRate rows)
        (Spec.shapeAcceleration rows) ∧
      ∀ i < sys.n, ∀ d, ¬ Spec.Removed sys i d → 0 < times → Spec.shape rows 0 i d = u₀ i d ∧ Spec.shapeRate rows 0 i d = v₀ i d := by
  set c : SystemRun ℝ := ⟨sys, loads⟩ with hcdef
  have hc : c.WellFormed := ⟨h.mesh, fun l x => (hl l x).nodup, fun l x => (hl l x).mesh⟩
  obtain ⟨st, hst, o⟩ := h.moves (loads.map TimedLoad.initial)
  have hst : c.input.initialise freshFlags = .ok st := hst
  obtain ⟨r1, r2, -⟩ := C106_representable c.input freshFlags st hst
  choose! p hp hpu using r1
  have hp : ∀ k < st.N, equationOf st.nodes (p k).1 (p k).2 = some k := hp
  set out := solver st (c.rhs st) with hout
  have hrhs : ∀ asked t, c.rhs st asked t = c.rhs st [] t := fun asked t => by rw [rhs_eq, rhs_eq]
  have steps : Spec.AverageSteps st (c.rhs st) dt times u₀ v₀ out := by
    refine hs st _ ?_
    obtain ⟨x, y, z, h1, h2, -⟩ := o.stepsDefined (β := 1 / 4) (γ := 1 / 2) (by norm_num) (by norm_num) hdt
      (fun n => c.rhs st [] n) (fun k => u₀ (p k).1 (p k).2) (fun k => v₀ (p k).1 (p k).2)
    refine ⟨⟨x, y, z⟩, ⟨?_, ?_, ?_, ?_⟩⟩
    · intro i d k hk
      rw [nodeEquations_eq] at hk
      have hkN := (r2 _ _ _ hk).2
      have e := hpu k hkN (i, d) hk
      have := h2 k hkN
      rw [← e] at this
      exact this
    · intro n hn
      exact ⟨[], fun i hi => (h1 n).balance n le_rfl i hi⟩
    · intro n hn k hk
      have := (h1 (n + 1)).displacement n (Nat.lt_succ_self n) k hk
      simp only
      rw [this]
      ring
    · intro n hn k hk
      have := (h1 (n + 1)).velocity n (Nat.lt_succ_self n) k hk
      simp only
      rw [this]
      ring
  have hmain := main_eq c freshFlags times solver st hst
  obtain ⟨st', rows, e1, e2, e3⟩ := C121_motion_partial c hc h.aligned times solver (fun st' hst' => by
    rw [hst] at hst'
    injection hst' with hst'
    rw [← hst']
    exact steps.motion)
  rw [hmain] at e1
  injection e1 with e1
  obtain ⟨rfl, e4⟩ := Prod.mk.inj e1
  have row : ∀ s < times, rows.getD s [] = st.nodes.map fun n =>
      (⟨reportedRow (out.u s) n, reportedRow (out.v s) n, reportedRow (out.a s) n⟩ : NodeRow ℝ) := by
    intro s hs
    rw [← e4, List.getD_eq_getElem _ _ (by simpa using hs)]
    simp only [List.getElem_map, List.getElem_range]
    rfl
  have getD : ∀ s < times, ∃ hs : s < rows.length, rows.getD s [] = rows[s] := fun s hs =>
    ⟨e2 ▸ hs, List.getD_eq_getElem _ _ (e2 ▸ hs)⟩
  have rep : ∀ s < times, RepresentsField sys.n st.nodes (out.u s) (Spec.shape rows s) ∧
      RepresentsField sys.n st.nodes (out.v s) (Spec.shapeRate rows s) ∧ RepresentsField sys.n st.nodes (out.a s) (Spec.shapeAcceleration rows s) := by
    intro s hs
    unfold Spec.shape Spec.shapeRate Spec.shapeAcceleration
    rw [row s hs]
    refine ⟨?_, ?_, ?_⟩ <;> exact reported_represents _ _ _ _ _ (by rw [List.map_map]; rfl)
  have away : ∀ s < times, ∀ i, sys.n ≤ i → Spec.shape rows s i = 0 ∧ Spec.shapeRate rows s i = 0 ∧ Spec.shapeAcceleration rows s i = 0 := by
    intro s hs i hi
    obtain ⟨hs', hd⟩ := getD s hs
    have hlen : (rows[s]).length = sys.n := (e3 s hs').1
    unfold Spec.shape Spec.shapeRate Spec.shapeAcceleration Spec.fieldOfRows
    rw [hd, List.getElem?_eq_none (by omega)]
    simp
  refine ⟨st, rows, by rw [hmain, e4], e2, ⟨?_, away, ?_, ?_, ?_⟩, ?_⟩
  · intro s hs
    obtain ⟨hs', hd⟩ := getD s hs
    obtain ⟨-, a1, a2, a3, -⟩ := e3 s hs'
    unfold Spec.shape Spec.shapeRate Spec.shapeAcceleration
    rw [hd]
    exact ⟨a1, a2, a3⟩
  · intro s hs w hw
    obtain ⟨hs', hd⟩ := getD s hs
    obtain ⟨-, -, -, -, b⟩ := e3 s hs'
    unfold motionWork dampingWork Spec.shape Spec.shapeRate Spec.shapeAcceleration
    rw [hd]
    exact b w hw
  · intro s hs i d
    by_cases hi : i < sys.n
    · obtain ⟨ru, rv, ra⟩ := rep s (by omega)
      obtain ⟨ru', -, ra'⟩ := rep (s + 1) hs
      cases hk : equationOf st.nodes i d with
      | none =>
        rw [ru.removed i hi d hk, rv.removed i hi d hk, ra.removed i hi d hk, ru'.removed i hi d hk, ra'.removed i hi d hk]
        ring
      | some k =>
        rw [← ru.value i d k hk, ← rv.value i d k hk, ← ra.value i d k hk, ← ru'.value i d k hk, ← ra'.value i d k hk]
        exact steps.displacement s hs k (r2 _ _ _ hk).2
    · obtain ⟨z1, z2, z3⟩ := away s (by omega) i (by omega)
      obtain ⟨z1', -, z3'⟩ := away (s + 1) hs i (by omega)
      rw [z1, z2, z3, z1', z3']
      simp
  · intro s hs i d
    by_cases hi : i < sys.n
    · obtain ⟨-, rv, ra⟩ := rep s (by omega)
      obtain ⟨-, rv', ra'⟩ := rep (s + 1) hs
      cases hk : equationOf st.nodes i d with
      | none =>
        rw [rv.removed i hi d hk, ra.removed i hi d hk, rv'.removed i hi d hk, ra'.removed i hi d hk]
        ring
      | some k =>
        rw [← rv.value i d k hk, ← ra.value i d k hk, ← rv'.value i d k hk, ← ra'.value i d k hk]
        exact steps.velocity s hs k (r2 _ _ _ hk).2
    · obtain ⟨-, z2, z3⟩ := away s (by omega) i (by omega)
      obtain ⟨-, z2', z3'⟩ := away (s + 1) hs i (by omega)
      rw [z2, z3, z2', z3']
      simp
  · intro i hi d hr ht
    obtain ⟨ru, rv, -⟩ := rep 0 ht
    cases hk : equationOf st.nodes i d with
    | none => exact absurd ((C106_unknowns_partial c.input h.mesh h.aligned st hst i hi d).mp hk) hr
    | some k =>
      rw [← ru.value i d k hk, ← rv.value i d k hk]
      exact steps.start i d k ((nodeEquations_eq st.nodes _ _).trans hk)

theorem HeldMoving.mass_smul (h : HeldMoving sys) (k : ℝ) (w u : Spec.NodalField ℝ) :
    Spec.systemWork AssemblyPart.mass sys.parts w (fun i d => k * u i d) = k * Spec.systemWork AssemblyPart.mass sys.parts w u := by
  have e := h.mass_combine (k - 1) w u u
  have : (fun i d => u i d + (k - 1) * u i d) = fun i d => k * u i d := by funext i d; ring
  rw [this] at e
  linarith

theorem HeldMoving.stiff_smul (h : HeldMoving sys) (k : ℝ) (w u : Spec.NodalField ℝ) :
    Spec.systemWork AssemblyPart.stiffness sys.parts w (fun i d => k * u i d) = k * Spec.systemWork AssemblyPart.stiffness sys.parts w u := by
  have e := h.stiff_combine (k - 1) w u u
  have : (fun i d => u i d + (k - 1) * u i d) = fun i d => k * u i d := by funext i d; ring
  rw [this] at e
  linarith

theorem HeldMoving.damp_smul (h : HeldMoving sys) (k : ℝ) (w u : Spec.NodalField ℝ) :
    dampingWork sys w (fun i d => k * u i d) = k * dampingWork sys w u := by
  have e := h.damp_combine (k - 1) w u u
  have : (fun i d => u i d + (k - 1) * u i d) = fun i d => k * u i d := by funext i d; ring
  rw [this] at e
  linarith

variable {F F₁ F₂ : ℕ → Spec.NodalField ℝ → ℝ} {dt : ℝ} {times : ℕ} {U V A U₁ V₁ A₁ U₂ V₂ A₂ : ℕ → Spec.NodalField ℝ}

theorem FieldSteps.upTo (f : FieldSteps sys F dt times U V A) {t : ℕ} (ht : t ≤ times) : FieldSteps sys F dt t U V A :=
  ⟨fun s hs => f.admissible s (by omega), fun s hs => f.outside s (by omega), fun s hs => f.balance s (by omega),
    fun s hs => f.displacement s (by omega), fun s hs => f.velocity s (by omega)⟩

theorem FieldSteps.combine (h : HeldMoving sys) (f : FieldSteps sys F₁ dt times U₁ V₁ A₁) (g : FieldSteps sys F₂ dt times U₂ V₂ A₂) (k : ℝ) :
    FieldSteps sys (fun s w => F₁ s w + k * F₂ s w) dt times (fun s i d => U₁ s i d + k * U₂ s i d) (fun s i d => V₁ s i d + k * V₂ s i d)
      (fun s i d => A₁ s i d + k * A₂ s i d) := by
  refine ⟨fun s hs => ?_, fun s hs i hi => ?_, fun s hs w hw => ?_, fun s hs i d => ?_, fun s hs i d => ?_⟩
  · obtain ⟨a, b, c⟩ := f.admissible s hs
    obtain ⟨a', b', c'⟩ := g.admissible s hs
    exact ⟨admissible_combine a a' k, admissible_combine b b' k, admissible_combine c c' k⟩
  · obtain ⟨a, b, c⟩ := f.outside s hs i hi
    obtain ⟨a', b', c'⟩ := g.outside s hs i hi
    refine ⟨?_, ?_, ?_⟩ <;> funext d
    · simp [a, a']
    · simp [b, b']
    · simp [c, c']
  · rw [h.motion_combine, f.balance s hs w hw, g.balance s hs w hw]
  · rw [f.displacement s hs i d, g.displacement s hs i d]
    ring
  · rw [f.velocity s hs i d, g.velocity s hs i d]
    ring

/-- Steps without loads from rest do not move. -/
theorem FieldSteps.vanish (h : HeldMoving sys) (hdt : 0 < dt) (f : FieldSteps sys F dt times U V A)
    (hF : ∀ s < times, ∀ w, F s w = 0) (hU : 0 < times → U 0 = 0) (hV : 0 < times → V 0 = 0) :
    ∀ s < times, U s = 0 ∧ V s = 0 ∧ A s = 0 := by
  have whole : ∀ s < times, (∀ i < sys.n, A s i = 0) → A s = 0 := by
    intro s hs h0
    funext i
    by_cases hi : i < sys.n
    · exact h0 i hi
    · exact (f.outside s hs i (by omega)).2.2
  intro s
  induction s with
  | zero =>
    intro hs
    refine ⟨hU hs, hV hs, whole 0 hs ?_⟩
    have b := f.balance 0 hs (A 0) (f.admissible 0 hs).2.2
    rw [hF 0 hs, hU hs, hV hs] at b
    have z1 := h.damp_smul 0 (A 0) (A 0)
    have z2 := h.stiff_smul 0 (A 0) (A 0)
    have e : (fun i d => 0 * A 0 i d) = (0 : Spec.NodalField ℝ) := by funext i d; simp
    rw [e] at z1 z2
    unfold motionWork at b
    rw [z1, z2] at b
    exact (h.positive (A 0) (f.admissible 0 hs).2.2).1.2 (by linarith)
  | succ s ih =>
    intro hs
    obtain ⟨u0, v0, a0⟩ := ih (by omega)
    have hU' : U (s + 1) = fun i d => dt ^ 2 / 4 * A (s + 1) i d := by
      funext i d
      rw [f.displacement s hs i d, u0, v0, a0]
      simp
      ring
    have hV' : V (s + 1) = fun i d => dt / 2 * A (s + 1) i d := by
      funext i d
      rw [f.velocity s hs i d, v0, a0]
      simp
      ring
    have b := f.balance (s + 1) hs (A (s + 1)) (f.admissible _ hs).2.2
    rw [hF _ hs, hU', hV'] at b
    unfold motionWork at b
    rw [h.damp_smul, h.stiff_smul] at b
    obtain ⟨⟨m0, m1⟩, d0, k0, -⟩ := h.positive (A (s + 1)) (f.admissible _ hs).2.2
    have hA : A (s + 1) = 0 := whole _ hs (m1 (by
      have := mul_nonneg (by positivity : 0 ≤ dt / 2) d0
      have := mul_nonneg (by positivity : 0 ≤ dt ^ 2 / 4) k0
      linarith))
    refine ⟨?_, ?_, hA⟩
    · rw [hU', hA]; funext i d; simp
    · rw [hV', hA]; funext i d; simp

/-- In a step the energy changes by the work of the mean load, less what the damping takes. -/
theorem FieldSteps.energy (h : HeldMoving sys) (hdt : 0 < dt) (f : FieldSteps sys F dt times U V A) {s : ℕ} (hs : s + 1 < times) :
    Spec.mechanicalEnergy sys (U (s + 1)) (V (s + 1)) - Spec.mechanicalEnergy sys (U s) (V s) =
      1 / 2 * (F s (fun i d => U (s + 1) i d - U s i d) + F (s + 1) (fun i d => U (s + 1) i d - U s i d)) -
        dt * dampingWork sys (fun i d => (V s i d + V (s + 1) i d) / 2) (fun i d => (V s i d + V (s + 1) i d) / 2) := by
  obtain ⟨au, av, aa⟩ := f.admissible s (by omega)
  obtain ⟨au', av', aa'⟩ := f.admissible (s + 1) hs
  have eD : (fun i d => U (s + 1) i d - U s i d) = fun i d => U (s + 1) i d + (-1) * U s i d := by funext i d; ring
  have eV : (fun i d => (V s i d + V (s + 1) i d) / 2) = fun i d => 1 / 2 * (V s i d + 1 * V (s + 1) i d) := by funext i d; ring
  have eU : (fun i d => U (s + 1) i d + (-1) * U s i d) = fun i d => dt * (1 / 2 * (V s i d + 1 * V (s + 1) i d)) := by
    funext i d
    rw [f.displacement s hs i d, f.velocity s hs i d]
    ring
  have eA : (fun i d => A s i d + 1 * A (s + 1) i d) = fun i d => 2 / dt * (V (s + 1) i d + (-1) * V s i d) := by
    funext i d
    rw [f.velocity s hs i d]
    field_simp
    ring
  have b := f.balance s (by omega) _ (admissible_combine au' au (-1))
  have b' := f.balance (s + 1) hs _ (admissible_combine au' au (-1))
  rw [eD, eV, ← b, ← b']
  set D : Spec.NodalField ℝ := fun i d => U (s + 1) i d + (-1) * U s i d with hD
  set m : Spec.NodalField ℝ := fun i d => 1 / 2 * (V s i d + 1 * V (s + 1) i d) with hm
  unfold motionWork Spec.mechanicalEnergy
  have k1 : Spec.systemWork AssemblyPart.stiffness sys.parts D (U s) =
      Spec.systemWork AssemblyPart.stiffness sys.parts (U (s + 1)) (U s) + (-1) * Spec.systemWork AssemblyPart.stiffness sys.parts (U s) (U s) :=
    systemWork_combine _ _ _ _ _ _
  have k2 : Spec.systemWork AssemblyPart.stiffness sys.parts D (U (s + 1)) =
      Spec.systemWork AssemblyPart.stiffness sys.parts (U (s + 1)) (U (s + 1)) + (-1) * Spec.systemWork AssemblyPart.stiffness sys.parts (U s) (U (s + 1)) :=
    systemWork_combine _ _ _ _ _ _
  have k3 := h.stiff_symm (U s) (U (s + 1))
  have hVs : (fun i d => V s i d + 1 * V (s + 1) i d) = fun i d => 2 * m i d := by funext i d; simp only [hm]; ring
  have d1 : dampingWork sys D (V s) + dampingWork sys D (V (s + 1)) = 2 * (dt * dampingWork sys m m) := by
    have e1 := h.damp_combine 1 D (V s) (V (s + 1))
    rw [hVs, h.damp_smul] at e1
    have e2 := h.damp_smul dt m m
    rw [h.damp_symm] at e2
    rw [eU] at e1 ⊢
    rw [e2] at e1
    linarith
  have m1 : Spec.systemWork AssemblyPart.mass sys.parts D (A s) + Spec.systemWork AssemblyPart.mass sys.parts D (A (s + 1)) =
      Spec.systemWork AssemblyPart.mass sys.parts (V (s + 1)) (V (s + 1)) - Spec.systemWork AssemblyPart.mass sys.parts (V s) (V s) := by
    have e1 := h.mass_combine 1 D (A s) (A (s + 1))
    rw [eA, h.mass_smul, h.mass_combine, h.mass_symm D, h.mass_symm D, eU, h.mass_smul, h.mass_smul] at e1
    rw [h.mass_smul, h.mass_smul, h.mass_combine, h.mass_combine, h.mass_symm (V (s + 1)) (V s)] at e1
    rw [eU]
    have : 2 / dt * dt = 2 := by field_simp
    linear_combination -e1 + (1 / 2 * (Spec.systemWork AssemblyPart.mass sys.parts (V (s + 1)) (V (s + 1)) - Spec.systemWork AssemblyPart.mass sys.parts (V s) (V s))) * this
  linarith

/-- What the results of a calculation are, and where they start. -/
theorem HeldMoving.results (h : HeldMoving sys) (hdt : 0 < dt) {loads : List (TimedLoad ℝ)} (hl : ∀ l ∈ loads, Spec.LoadFits sys.n l)
    {u₀ v₀ : Spec.NodalField ℝ} {r : List (List (NodeRow ℝ))} (R : Spec.DynamicResults sys loads dt times u₀ v₀ r) :
    FieldSteps sys (fun s w => Spec.loadWork (Spec.loadsAt loads s) w) dt times (Spec.shape r) (Spec.shapeRate r) (Spec.shapeAcceleration r) ∧
      ∀ i < sys.n, ∀ d, ¬ Spec.Removed sys i d → 0 < times → Spec.shape r 0 i d = u₀ i d ∧ Spec.shapeRate r 0 i d = v₀ i d := by
  obtain ⟨solver, st, hs, hrun⟩ := R
  obtain ⟨st', rows, e, -, f, z⟩ := h.fieldSteps hl hdt hs
  rw [hrun] at e
  injection e with e
  obtain ⟨-, rfl⟩ := Prod.mk.inj e
  exact ⟨f, z⟩

theorem FieldSteps.start_eq (f : FieldSteps sys F dt times U V A) (ht : 0 < times)
    (h0 : ∀ i < sys.n, ∀ d, ¬ Spec.Removed sys i d → U 0 i d = 0 ∧ V 0 i d = 0) : U 0 = 0 ∧ V 0 = 0 := by
  obtain ⟨a, b, -⟩ := f.admissible 0 ht
  constructor <;> funext i d <;> by_cases hi : i < sys.n
  · by_cases hr : Spec.Removed sys i d
    · exact a i hi d hr
    · exact (h0 i hi d hr).1
  · rw [(f.outside 0 ht i (by omega)).1]; rfl
  · by_cases hr : Spec.Removed sys i d
    · exact b i hi d hr
    · exact (h0 i hi d hr).2
  · rw [(f.outside 0 ht i (by omega)).2.1]; rfl

/-- A structure that moves well has linear dynamics. -/
theorem HeldMoving.linear (h : HeldMoving sys) (hdt : 0 < dt) : Spec.LinearDynamics sys dt := by
  refine ⟨?_, ?_, ?_, ?_, ?_, ?_⟩
  · intro loads times u₀ v₀ solver hl hs
    obtain ⟨st, rows, e, e', -⟩ := h.fieldSteps hl hdt hs
    exact ⟨st, rows, e, e'⟩
  · intro loads times u₀ v₀ r hl hu hv R ht i hi
    obtain ⟨f, z⟩ := h.results hdt hl R
    obtain ⟨a, b, -⟩ := f.admissible 0 ht
    constructor <;> funext d <;> by_cases hr : Spec.Removed sys i d
    · rw [a i hi d hr, hu i hi d hr]
    · exact (z i hi d hr ht).1
    · rw [b i hi d hr, hv i hi d hr]
    · exact (z i hi d hr ht).2
  · intro l₁ l₂ t₁ t₂ u₀ v₀ r₁ r₂ hl₁ hl₂ R₁ R₂ s hs₁ hs₂ same i hi
    obtain ⟨f₁, z₁⟩ := h.results hdt hl₁ R₁
    obtain ⟨f₂, z₂⟩ := h.results hdt hl₂ R₂
    have g := FieldSteps.combine h (f₁.upTo (t := s + 1) hs₁) (f₂.upTo (t := s + 1) hs₂) (-1)
    obtain ⟨g1, g2⟩ := g.start_eq (by omega) (fun i hi d hr => by
      obtain ⟨a, b⟩ := z₁ i hi d hr (by omega)
      obtain ⟨a', b'⟩ := z₂ i hi d hr (by omega)
      simp only [a, b, a', b']
      exact ⟨by ring, by ring⟩)
    obtain ⟨k1, k2, k3⟩ := g.vanish h hdt (fun j hj w => by
      rw [same j (by omega)]
      ring) (fun _ => g1) (fun _ => g2) s (by omega)
    refine ⟨?_, ?_, ?_⟩ <;> funext d
    · have := congrFun (congrFun k1 i) d
      simp only [Pi.zero_apply] at this
      linarith
    · have := congrFun (congrFun k2 i) d
      simp only [Pi.zero_apply] at this
      linarith
    · have := congrFun (congrFun k3 i) d
      simp only [Pi.zero_apply] at this
      linarith
  · intro l₁ l₂ times u₁ v₁ u₂ v₂ r₁ r₂ r hl₁ hl₂ R₁ R₂ R s hs i hi d
    obtain ⟨f₁, z₁⟩ := h.results hdt hl₁ R₁
    obtain ⟨f₂, z₂⟩ := h.results hdt hl₂ R₂
    obtain ⟨f, z⟩ := h.results hdt (fun l hl => (List.mem_append.mp hl).elim (hl₁ l) (hl₂ l)) R
    have g := FieldSteps.combine h (FieldSteps.combine h f f₁ (-1)) f₂ (-1)
    obtain ⟨g1, g2⟩ := g.start_eq (by omega) (fun i hi d hr => by
      obtain ⟨a, b⟩ := z₁ i hi d hr (by omega)
      obtain ⟨a', b'⟩ := z₂ i hi d hr (by omega)
      obtain ⟨a'', b''⟩ := z i hi d hr (by omega)
      simp only [a, b, a', b', a'', b'']
      exact ⟨by ring, by ring⟩)
    obtain ⟨k1, k2, k3⟩ := g.vanish h hdt (fun j hj w => by
      rw [loadsAt_append, loadWork_append]
      ring) (fun _ => g1) (fun _ => g2) s hs
    have k1 := congrFun (congrFun k1 i) d
    have k2 := congrFun (congrFun k2 i) d
    have k3 := congrFun (congrFun k3 i) d
    simp only [Pi.zero_apply] at k1 k2 k3
    exact ⟨by linarith, by linarith, by linarith⟩
  · intro k loads times u₀ v₀ r r' hl R R' s hs i hi d
    have hl' : ∀ l ∈ loads.map (Spec.scaledLoad k), Spec.LoadFits sys.n l := by
      intro l hx
      obtain ⟨x, hm, rfl⟩ := List.mem_map.mp hx
      exact ⟨(hl x hm).nodup, (hl x hm).mesh⟩
    obtain ⟨f, z⟩ := h.results hdt hl R
    obtain ⟨f', z'⟩ := h.results hdt hl' R'
    have g := FieldSteps.combine h f' f (-k)
    obtain ⟨g1, g2⟩ := g.start_eq (by omega) (fun i hi d hr => by
      obtain ⟨a, b⟩ := z i hi d hr (by omega)
      obtain ⟨a', b'⟩ := z' i hi d hr (by omega)
      simp only [a, b, a', b']
      exact ⟨by ring, by ring⟩)
    obtain ⟨k1, k2, k3⟩ := g.vanish h hdt (fun j hj w => by
      rw [loadWork_scaled]
      ring) (fun _ => g1) (fun _ => g2) s hs
    have k1 := congrFun (congrFun k1 i) d
    have k2 := congrFun (congrFun k2 i) d
    have k3 := congrFun (congrFun k3 i) d
    simp only [Pi.zero_apply] at k1 k2 k3
    exact ⟨by linarith, by linarith, by linarith⟩
  · intro loads times u₀ v₀ r hl R s hs
    obtain ⟨f, -⟩ := h.results hdt hl R
    refine ⟨_, ?_, rfl, f.energy h hdt hs⟩
    obtain ⟨-, a, -⟩ := f.admissible s (by omega)
    obtain ⟨-, a', -⟩ := f.admissible (s + 1) hs
    refine mul_nonneg hdt.le (h.positive _ (fun i hi d hr => ?_)).2.1
    rw [a i hi d hr, a' i hi d hr]
    simp

end

theorem Generated.heldMoving {H : Type*} [DecidableEq H] {hash : (Fin 3 → ℝ) → H} {n r : ℕ} {d h : ℝ} {t : HorizontalTrack ℝ}
    (g : Generated hash n r d h t) (hn : 2 ≤ n) (hr : 0 < r) {v : TrackValues} (hv : v.Valid) (hm : v.NonNeg) (hR : v.Rayleigh) :
    HeldMoving (generatedInput t n r d v true) where
  mesh := g.mesh v true
  aligned := g.aligned v true
  symm := (g.heldStill hn hv).symm
  moves := fun loads => by
    obtain ⟨inp, st, h1, h2, m⟩ := C172_track hash n r hn hr d h g.distance g.depth t g.track { v with loads := loads }
      ⟨hv.E, hv.nu, hv.rho, hv.A, hv.I, hv.kappa, hv.s1, hv.s2, hv.pad, hv.soil⟩ ⟨hm.1, hm.2, hm.3, hm.4, hm.5⟩ ⟨hR.1, hR.2, hR.3⟩ freshFlags
    rw [g.system _ true] at h1
    injection h1 with h1
    subst h1
    exact ⟨st, h2, m.matrices⟩

/-- **C179** For every generated track with at least two sleepers on its boundaries, masses and dampings that are not negative and average
acceleration steps of any size: the results start where they are told to, depend on the loads up to now only, are the sum of the results of the
single loads and starts and proportional to them, and in every step the energy changes by the work of the loads less what the damping takes. -/
theorem C179_track {H : Type*} [DecidableEq H] (hash : (Fin 3 → ℝ) → H) (n r : ℕ) (hn : 2 ≤ n) (hr : 0 < r) (d h : ℝ)
    (hd : 1 / 1000000000 < d / r) (hh : 1 / 1000000000 < h) (t : HorizontalTrack ℝ)
    (ht : createHorizontalTrack hash n r d h = .ok t) (v : TrackValues) (hv : v.Valid) (hm : v.NonNeg) (hR : v.Rayleigh) (dt : ℝ) (hdt : 0 < dt) :
    ∃ inp, t.system v true = .ok inp ∧ Spec.LinearDynamics inp dt := by
  have g : Generated hash n r d h t := ⟨by nlinarith, hd, hh, ht⟩
  exact ⟨_, g.system v true, (g.heldMoving hn hr hv hm hR).linear hdt⟩

section combined
variable {H : Type*} [DecidableEq H] (hash : (Fin 3 → ℝ) → H) {r k : ℕ} {d : ℝ} {segments : List (ℕ × ℝ)}

theorem SoundTrack.heldMoving {ι : Type*} [DecidableEq ι] {c : CombinedTrack ι ℝ} {m : ℕ} {l : ℝ} (s : SoundTrack c m l) (v : TrackValues)
    (soils : List (RodValues ℝ)) (hs : c.soils.length ≤ soils.length) (hv : ∀ w ∈ soils, ({ v with soil := w } : TrackValues).Valid)
    (hm : ∀ w ∈ soils, ({ v with soil := w } : TrackValues).NonNeg) (hR : v.Rayleigh) (x y : ι) (hx : x ∈ c.rail) (hy : y ∈ c.rail) :
    HeldMoving (c.inputOf l v soils x y true) where
  mesh := (s.standing v soils hs hv x y hx hy true).mesh
  aligned := (s.standing v soils hs hv x y hx hy true).aligned
  symm := (s.heldStill hs hv hx hy).symm
  moves := fun loads => by
    obtain ⟨w, hw⟩ := s.some_soil hs
    have hstand := s.standing { v with loads := loads } soils hs (fun w hw => ⟨(hv w hw).E, (hv w hw).nu, (hv w hw).rho, (hv w hw).A, (hv w hw).I, (hv w hw).kappa,
      (hv w hw).s1, (hv w hw).s2, (hv w hw).pad, (hv w hw).soil⟩) x y hx hy true
    obtain ⟨st, hst⟩ := C106_succeeds _ hstand.mesh freshFlags
    have m := movesWell (v := { v with loads := loads }) ⟨hR.1, hR.2, hR.3⟩ (s.nonEmpty _ soils)
      (inp := c.inputOf l { v with loads := loads } soils x y true) rfl rfl rfl rfl rfl
      (c.partsOf_soils _ _ soils) (hstand.fields (c.partsOf_nonNeg _ _ soils w hw
        fun w hw => ⟨(hm w hw).1, (hm w hw).2, (hm w hw).3, (hm w hw).4, (hm w hw).5⟩)
        ⟨c.place x, List.mem_map_of_mem hx, s.side_supported x y hx⟩ (rayleigh_nonneg hR _ rfl rfl rfl rfl).1 freshFlags st hst)
    exact ⟨st, hst, m.matrices⟩

/-- **C179** The same for every track that is combined from segments. -/
theorem C179_combined (g : GoodSegments r d segments) (length : ℝ) (v : TrackValues) (soils : List (RodValues ℝ))
    (hs : segments.length ≤ soils.length) (hv : ∀ w ∈ soils, ({ v with soil := w } : TrackValues).Valid)
    (hm : ∀ w ∈ soils, ({ v with soil := w } : TrackValues).NonNeg) (hR : v.Rayleigh) (dt : ℝ) (hdt : 0 < dt) :
    ∃ c inp, combinedTrack hash r d segments = .ok c ∧ c.system length v soils true = .ok inp ∧ Spec.LinearDynamics inp dt := by
  obtain ⟨c, hc, s, -, -, -, -, -, -, hlen, -⟩ := C136_structure hash g
  have hs' : c.soils.length ≤ soils.length := by omega
  obtain ⟨x, y, hx, hy, hsys⟩ := s.system length v soils hs' true
  exact ⟨c, _, hc, hsys, (s.heldMoving v soils hs' hv hm hR x y (List.mem_of_head? hx) (List.mem_of_getLast? hy)).linear hdt⟩

theorem SoundTrack.hinged_heldMoving {ι : Type*} [DecidableEq ι] {c : CombinedTrack ι ℝ} {m : ℕ} {l : ℝ} (s : SoundTrack c m l) (v : TrackValues)
    (soils : List (RodValues ℝ)) (hs : c.soils.length ≤ soils.length) (hv : ∀ w ∈ soils, ({ v with soil := w } : TrackValues).Valid)
    (hm : ∀ w ∈ soils, ({ v with soil := w } : TrackValues).NonNeg) (hR : v.Rayleigh) (x y : ι) (hx : x ∈ c.rail) (hy : y ∈ c.rail)
    (hk : 2 ≤ k) (hkm : k + 3 ≤ m) (σ : ℝ) (hpin : σ ≤ 0 → (c.partsOf l v soils).HoldsPin k ∨ 0 < v.rail.kappa) :
    HeldMoving ((c.inputOf l v soils x y true).withHinge (c.partsOf l v soils) (c.cutAt k σ)) where
  mesh := (s.hinged v soils hs hv x y hx hy true hk hkm σ).mesh
  aligned := (s.hinged v soils hs hv x y hx hy true hk hkm σ).aligned
  symm := (s.hingedStill hs hv hx hy hk hkm hpin).symm
  moves := fun loads => by
    obtain ⟨st, hst, mv⟩ := s.hinged_moves { v with loads := loads } soils hs (fun w hw => ⟨(hv w hw).E, (hv w hw).nu, (hv w hw).rho, (hv w hw).A, (hv w hw).I, (hv w hw).kappa,
      (hv w hw).s1, (hv w hw).s2, (hv w hw).pad, (hv w hw).soil⟩)
      (fun w hw => ⟨(hm w hw).1, (hm w hw).2, (hm w hw).3, (hm w hw).4, (hm w hw).5⟩) ⟨hR.1, hR.2, hR.3⟩ x y hx hy hk hkm σ hpin freshFlags
    exact ⟨st, hst, mv.matrices⟩

/-- **C179** The same for every such track with a hinge in its rail, of a fixity factor greater than 0 and at most 1. -/
theorem C179_hinged (g : GoodSegments r d segments) (length : ℝ) (hlength : 0 < length) (v : TrackValues)
    (soils : List (RodValues ℝ)) (hs : segments.length ≤ soils.length) (hv : ∀ w ∈ soils, ({ v with soil := w } : TrackValues).Valid)
    (hm : ∀ w ∈ soils, ({ v with soil := w } : TrackValues).NonNeg) (hR : v.Rayleigh)
    (hk : 2 ≤ k) (hkm : k + 3 ≤ railCount r segments) (near : 1 / 100000000 + 1 / 100000 * ((k : ℝ) * (d / r)) < d / r)
    (f : ℝ) (hf : 0 < f) (hf1 : f ≤ 1) (dt : ℝ) (hdt : 0 < dt) :
    ∃ c inp, combinedTrack hash r d segments = .ok c ∧ c.hingedSystem length v soils f (k * (d / r)) true = .ok inp ∧
      Spec.LinearDynamics inp dt := by
  obtain ⟨c, hc, sound, -, -, -, -, -, -, hlen, -⟩ := C136_structure hash g
  have hs' : c.soils.length ≤ soils.length := by omega
  obtain ⟨w, hw⟩ := sound.some_soil hs'
  obtain ⟨σ, hσ, hσ0⟩ := hingeStiffness_pos (hv w hw).E (hv w hw).I hlength hf hf1
  obtain ⟨a, b, ha, hb, hsys⟩ := sound.hingedSystem length v soils hs' true hk hkm near f σ hσ
  exact ⟨c, _, hc, hsys, (sound.hinged_heldMoving v soils hs' hv hm hR a b (List.mem_of_head? ha) (List.mem_of_getLast? hb) hk hkm (σ / 2)
    (fun h => by linarith)).linear hdt⟩

/-- **C179** The same with a free pin, if there are three or more sleepers and one of them is behind the pin. -/
theorem C179_pinned (g : GoodSegments r d segments) (length : ℝ) (v : TrackValues)
    (soils : List (RodValues ℝ)) (hs : segments.length ≤ soils.length) (hv : ∀ w ∈ soils, ({ v with soil := w } : TrackValues).Valid)
    (hm : ∀ w ∈ soils, ({ v with soil := w } : TrackValues).NonNeg) (hR : v.Rayleigh) (h3 : 3 ≤ (segments.map Prod.fst).sum)
    (hk : 2 ≤ k) (hkm : k + 3 ≤ railCount r segments) (hkr : k + r < railCount r segments)
    (near : 1 / 100000000 + 1 / 100000 * ((k : ℝ) * (d / r)) < d / r) (dt : ℝ) (hdt : 0 < dt) :
    ∃ c inp, combinedTrack hash r d segments = .ok c ∧ c.hingedSystem length v soils 0 (k * (d / r)) true = .ok inp ∧
      Spec.LinearDynamics inp dt := by
  obtain ⟨c, hc, sound, -, -, -, -, -, -, hlen, -⟩ := C136_structure hash g
  have hs' : c.soils.length ≤ soils.length := by omega
  obtain ⟨a, b, ha, hb, hsys⟩ := sound.hingedSystem length v soils hs' true hk hkm near 0 0 (hingeStiffness_zero _ _ _)
  exact ⟨c, _, hc, hsys, (sound.hinged_heldMoving v soils hs' hv hm hR a b (List.mem_of_head? ha) (List.mem_of_getLast? hb) hk hkm (0 / 2)
    (fun _ => Or.inl (combined_holdsPin hash g v soils h3 (by omega) hkr c hc))).linear hdt⟩

end combined

/-- There is a solver that takes average acceleration steps whenever there are any. -/
theorem exists_stepSolver (dt : ℝ) (times : ℕ) (u₀ v₀ : Spec.NodalField ℝ) : ∃ solver, Spec.StepsWhenever dt times u₀ v₀ solver := by
  classical
  refine ⟨fun st rhs => if h : ∃ out, Spec.AverageSteps st rhs dt times u₀ v₀ out then h.choose else ⟨fun _ _ => 0, fun _ _ => 0, fun _ _ => 0⟩,
    fun st rhs h => ?_⟩
  simp only [dif_pos h]
  exact h.choose_spec

theorem HeldMoving.hasResults {sys : SystemInput ℝ} (h : HeldMoving sys) {dt : ℝ} (hdt : 0 < dt) (loads : List (TimedLoad ℝ)) (times : ℕ)
    (u₀ v₀ : Spec.NodalField ℝ) (hl : ∀ l ∈ loads, Spec.LoadFits sys.n l) : ∃ r, Spec.DynamicResults sys loads dt times u₀ v₀ r := by
  obtain ⟨solver, hs⟩ := exists_stepSolver dt times u₀ v₀
  obtain ⟨st, r, e, -⟩ := (h.linear hdt).ends loads times u₀ v₀ solver hl hs
  exact ⟨r, solver, st, hs, e⟩

/-- Three sleepers from rest: a force that sets in at index 3 moves nothing before, whatever else it does later. -/
example : ∃ t, createHorizontalTrack (fun p : Fin 3 → ℝ => p) 3 2 (3 / 5) 1 = .ok t ∧
    ∃ inp, t.system exampleTrack true = .ok inp ∧ ∃ r₁ r₂, Spec.DynamicResults inp [downForce 0 fun t => if 3 ≤ t then 1000 else 0] (1 / 100) 5 0 0 r₁ ∧
      Spec.DynamicResults inp [downForce 0 fun _ => 0] (1 / 100) 9 0 0 r₂ ∧ Spec.SameReport inp.n r₁ r₂ 2 := by
  obtain ⟨t, ht, -⟩ := C48_structure (fun p : Fin 3 → ℝ => p) 3 2 (by norm_num) (3 / 5) 1
  have g : Generated (fun p : Fin 3 → ℝ => p) 3 2 (3 / 5) 1 t := ⟨by norm_num, by norm_num, by norm_num, ht⟩
  have hh := g.heldMoving (by norm_num) (by norm_num) exampleTrack_valid exampleTrack_nonNeg exampleTrack_rayleigh
  have fit : ∀ f, ∀ l ∈ [downForce 0 f], Spec.LoadFits (generatedInput t 3 2 (3 / 5) exampleTrack true).n l := by
    intro f l hl
    obtain rfl := List.mem_singleton.mp hl
    refine ⟨by simp [downForce], fun x hx => ?_⟩
    obtain rfl : x = 0 := by simpa [downForce] using hx
    show 0 < 3 * 2 + 3 + 3
    omega
  have hdt : (0 : ℝ) < 1 / 100 := by norm_num
  obtain ⟨r₁, R₁⟩ := hh.hasResults hdt _ 5 0 0 (fit fun t => if 3 ≤ t then 1000 else 0)
  obtain ⟨r₂, R₂⟩ := hh.hasResults hdt _ 9 0 0 (fit fun _ => 0)
  refine ⟨t, ht, _, g.system _ true, r₁, r₂, R₁, R₂, ?_⟩
  refine (hh.linear hdt).causal _ _ 5 9 0 0 r₁ r₂ (fit _) (fit _) R₁ R₂ 2 (by norm_num) (by norm_num) fun j hj => ?_
  have : ¬ 3 ≤ j := by omega
  simp [Spec.loadsAt, downForce, this]

end Rose
