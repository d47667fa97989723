/-
C182: results do not depend on the order of nodes and model parts.
-/
import Verif.Props.SameModel

set_option linter.unusedSectionVars false

namespace Rose
open Finset

section
variable {K : Type*} [Field K] [LinearOrder K] [IsStrictOrderedRing K] {σ : Equiv.Perm ℕ} {n : ℕ} {τ : ℕ → ℕ} {st st' : TrimState K}

/-! ### Solutions of the same equations -/

theorem SameEquations.inverse (h : Spec.SameEquations σ n τ st st') :
    ∃ ρ : ℕ → ℕ, ∀ b < st.N, ρ b < st.N ∧ τ (ρ b) = b := by
  have inj : Set.InjOn τ (range st.N : Finset ℕ) := by
    intro a ha b hb hab
    exact h.one a (by simpa using ha) b (by simpa using hb) hab
  have hs := Finset.surjOn_of_injOn_of_card_le (s := range st.N) (t := range st.N) τ
    (fun a ha => by simpa using h.maps a (by simpa using ha)) inj le_rfl
  have : ∀ b, ∃ a, b < st.N → a < st.N ∧ τ a = b := by
    intro b
    by_cases hb : b < st.N
    · obtain ⟨a, ha, e⟩ := hs (by simpa using hb : b ∈ ((range st.N : Finset ℕ) : Set ℕ))
      exact ⟨a, fun _ => ⟨by simpa using ha, e⟩⟩
    · exact ⟨0, fun x => absurd x hb⟩
  choose ρ hρ using this
  exact ⟨ρ, hρ⟩

theorem SameEquations.sum (h : Spec.SameEquations σ n τ st st') (f : ℕ → K) :
    ∑ b ∈ range st'.N, f b = ∑ b ∈ range st.N, f (τ b) := by
  rw [h.size]
  obtain ⟨ρ, hρ⟩ := SameEquations.inverse h
  refine (Finset.sum_bij (fun a _ => τ a) (fun a ha => mem_range.mpr (h.maps a (mem_range.mp ha)))
    (fun a ha b hb e => h.one a (mem_range.mp ha) b (mem_range.mp hb) e)
    (fun b hb => ⟨ρ b, mem_range.mpr (hρ b (mem_range.mp hb)).1, (hρ b (mem_range.mp hb)).2⟩) (fun _ _ => rfl)).symm

/-- Solutions of the second equations solve the first. -/
theorem SameEquations.statics (h : Spec.SameEquations σ n τ st st') {rhs rhs' : List ℕ → ℕ → ℕ → K}
    (hr : ∀ asked asked' t, ∀ a < st.N, rhs' asked' t (τ a) = rhs asked t a) {times : ℕ} {out : SolverOutput K}
    (hs : Spec.SolvesStatics st' rhs' times out) :
    Spec.SolvesStatics st rhs times ⟨fun t a => out.u t (τ a), fun t a => out.v t (τ a), fun t a => out.a t (τ a)⟩ := by
  intro t ht
  obtain ⟨asked, e⟩ := hs t ht
  refine ⟨[], fun a ha => ?_⟩
  have := e (τ a) (h.size ▸ h.maps a ha)
  rw [hr [] asked t a ha, SameEquations.sum h] at this
  rw [← this]
  exact sum_congr rfl fun b hb => by rw [h.stiffness a ha b (mem_range.mp hb)]

theorem SameEquations.motion (h : Spec.SameEquations σ n τ st st') {rhs rhs' : List ℕ → ℕ → ℕ → K}
    (hr : ∀ asked asked' t, ∀ a < st.N, rhs' asked' t (τ a) = rhs asked t a) {times : ℕ} {out : SolverOutput K}
    (hs : Spec.SolvesMotion st' rhs' times out) :
    Spec.SolvesMotion st rhs times ⟨fun t a => out.u t (τ a), fun t a => out.v t (τ a), fun t a => out.a t (τ a)⟩ := by
  intro t ht
  obtain ⟨asked, e⟩ := hs t ht
  refine ⟨[], fun a ha => ?_⟩
  have := e (τ a) (h.size ▸ h.maps a ha)
  rw [hr [] asked t a ha, SameEquations.sum h] at this
  rw [← this]
  exact sum_congr rfl fun b hb => by rw [h.stiffness a ha b (mem_range.mp hb), h.mass a ha b (mem_range.mp hb), h.damping a ha b (mem_range.mp hb)]

/-- The same equations the other way round. -/
theorem SameEquations.back (h : Spec.SameEquations σ n τ st st') (hσ : ∀ i, σ i < n ↔ i < n) {ρ : ℕ → ℕ}
    (hρ : ∀ b < st.N, ρ b < st.N ∧ τ (ρ b) = b) (hb : ∀ i d k, nodeEquations st.nodes i d = some k → k < st.N) :
    Spec.SameEquations σ.symm n ρ st' st := by
  have en : ∀ a < st.N, ρ (τ a) = a := fun a ha => h.one _ (hρ _ (h.maps a ha)).1 a ha (hρ _ (h.maps a ha)).2
  refine ⟨h.size.symm, fun b hb => ?_, fun a ha b hb e => ?_, ?_, ?_, ?_, ?_, ?_⟩
  · rw [h.size] at hb ⊢; exact (hρ b hb).1
  · rw [h.size] at ha hb
    rw [← (hρ a ha).2, ← (hρ b hb).2, e]
  · intro j hj d
    have hi : σ.symm j < n := (hσ _).mp (by simpa using hj)
    have := h.unknown (σ.symm j) hi d
    rw [Equiv.apply_symm_apply] at this
    rw [this, Option.map_map]
    cases hx : nodeEquations st.nodes (σ.symm j) d with
    | none => rfl
    | some k => simp [en k (hb _ _ _ hx)]
  · intro a ha b hb
    rw [h.size] at ha hb
    rw [← h.mass _ (hρ a ha).1 _ (hρ b hb).1, (hρ a ha).2, (hρ b hb).2]
  · intro a ha b hb
    rw [h.size] at ha hb
    rw [← h.damping _ (hρ a ha).1 _ (hρ b hb).1, (hρ a ha).2, (hρ b hb).2]
  · intro a ha b hb
    rw [h.size] at ha hb
    rw [← h.stiffness _ (hρ a ha).1 _ (hρ b hb).1, (hρ a ha).2, (hρ b hb).2]
  · intro a ha
    rw [h.size] at ha
    rw [← h.force _ (hρ a ha).1, (hρ a ha).2]

/-- What a node reports of the same solution. -/
theorem SameEquations.reported (h : Spec.SameEquations σ n τ st st') (hl : st.nodes.length = n) (hl' : st'.nodes.length = n)
    (hσ : ∀ i, σ i < n ↔ i < n) (hb : ∀ i d k, nodeEquations st.nodes i d = some k → k < st.N) (i : ℕ) (hi : i < n) :
    ∃ m m', st.nodes[i]? = some m ∧ st'.nodes[σ i]? = some m' ∧
      ∀ u u' : ℕ → K, (∀ a < st.N, u' (τ a) = u a) → reportedRow u' m' = reportedRow u m := by
  have hi' : σ i < n := (hσ i).mpr hi
  obtain ⟨m, hm⟩ : ∃ m, st.nodes[i]? = some m := ⟨_, List.getElem?_eq_getElem (by omega)⟩
  obtain ⟨m', hm'⟩ : ∃ m, st'.nodes[σ i]? = some m := ⟨_, List.getElem?_eq_getElem (by omega)⟩
  refine ⟨m, m', hm, hm', fun u u' hu => ?_⟩
  funext d
  have e := h.unknown i hi d
  have hbd := hb i d
  rw [nodeEquations_eq, nodeEquations_eq] at e
  rw [nodeEquations_eq] at hbd
  unfold equationOf at e hbd
  rw [hm, Option.bind_some] at e hbd
  rw [hm', Option.bind_some] at e
  unfold reportedRow
  rw [e]
  cases hk : m.idx d with
  | none => rfl
  | some k => exact hu k (hbd k hk)

theorem unknown_lt (c : SystemRun K) (st : TrimState K) (h : c.input.initialise freshFlags = .ok st) (i : ℕ) (d : Fin 3) (k : ℕ)
    (hk : nodeEquations st.nodes i d = some k) : i < c.system.n ∧ k < st.N := by
  rw [nodeEquations_eq] at hk
  exact (C106_representable c.input freshFlags st h).2.1 _ _ _ hk

end

/-! ### Results -/

/-- A structure on a mesh with well determined unknowns, for all loads. -/
structure WellDetermined (sys : SystemInput ℝ) : Prop where
  mesh : Spec.NodesInMesh sys
  agree : Spec.SupportsAgree sys.constraints
  moves : ∀ loads, ∃ st, ({ sys with loads := loads } : SystemInput ℝ).initialise freshFlags = .ok st ∧ Oscillator st.N st.M st.C st.Kg

theorem AverageSteps.newmark {st : TrimState ℝ} {c : SystemRun ℝ} {dt : ℝ} {times : ℕ} {u₀ v₀ : Spec.NodalField ℝ} {out : SolverOutput ℝ}
    (h : Spec.AverageSteps st (c.rhs st) dt times u₀ v₀ out) (ht : 0 < times) :
    Spec.NewmarkSteps st.N st.M st.C st.Kg (1 / 4) (1 / 2) dt (times - 1) (fun t => c.rhs st [] t) out.u out.v out.a where
  balance := fun s hs k hk => by
    obtain ⟨asked, e⟩ := h.motion s (by omega)
    rw [e k hk, rhs_eq, rhs_eq]
  displacement := fun s hs k hk => by
    rw [h.displacement s (by omega) k hk]; ring
  velocity := fun s hs k hk => by
    rw [h.velocity s (by omega) k hk]; ring

theorem AverageSteps.same {σ : Equiv.Perm ℕ} {n : ℕ} {τ : ℕ → ℕ} {st st' : TrimState ℝ} (h : Spec.SameEquations σ n τ st st')
    {rhs rhs' : List ℕ → ℕ → ℕ → ℝ} (hr : ∀ asked asked' t, ∀ a < st.N, rhs' asked' t (τ a) = rhs asked t a)
    (hb : ∀ i d k, nodeEquations st.nodes i d = some k → i < n ∧ k < st.N) {dt : ℝ} {times : ℕ} {u₀ v₀ u₀' v₀' : Spec.NodalField ℝ}
    (hu : ∀ i < n, u₀' (σ i) = u₀ i ∧ v₀' (σ i) = v₀ i) {out : SolverOutput ℝ} (hs : Spec.AverageSteps st' rhs' dt times u₀' v₀' out) :
    Spec.AverageSteps st rhs dt times u₀ v₀ ⟨fun t a => out.u t (τ a), fun t a => out.v t (τ a), fun t a => out.a t (τ a)⟩ where
  start := fun i d k hk => by
    have hi := hb i d k hk
    have e := h.unknown i hi.1 d
    rw [hk, Option.map_some] at e
    rw [← (hu i hi.1).1, ← (hu i hi.1).2]
    exact hs.start _ _ _ e
  motion := SameEquations.motion h hr hs.motion
  displacement := fun t ht k hk => hs.displacement t ht _ (h.size ▸ h.maps k hk)
  velocity := fun t ht k hk => hs.velocity t ht _ (h.size ▸ h.maps k hk)

/-- **C182** Results do not depend on the order of the nodes in the mesh nor on the order of model parts, loads and supports, for every
structure with symmetric positive definite mass and stiffness matrices. Missing: supports that share a node and hold it in different ways
(`C182_violated`), and load conditions that list a node twice. -/
theorem C182_results_partial (sys : SystemInput ℝ) (h : WellDetermined sys) (dt : ℝ) (hdt : 0 < dt) : Spec.OrderFree sys dt where
  static := by
    intro σ inp' loads loads' times r r' hm hl R R' t ht i hi
    have hc : SystemRun.WellFormed ⟨sys, loads⟩ := ⟨h.mesh, fun l x => (hl l x).nodup, fun l x => (hl l x).mesh⟩
    obtain ⟨st, st', τ, hst, hst', eq, hr⟩ := C182_equations_partial hm hc h.agree
    obtain ⟨sv, s1, hsv, e⟩ := R
    obtain ⟨sv', s1', hsv', e'⟩ := R'
    rw [main_eq _ freshFlags times sv st hst] at e
    rw [main_eq _ freshFlags times sv' st' hst'] at e'
    injection e with e
    injection e' with e'
    obtain ⟨-, rfl⟩ := Prod.mk.inj e
    obtain ⟨-, rfl⟩ := Prod.mk.inj e'
    obtain ⟨st0, hst0, o⟩ := h.moves (loads.map TimedLoad.initial)
    obtain rfl : st0 = st := by
      have : Except.ok st0 = Except.ok (ε := Err) st := hst0.symm.trans hst
      injection this
    have hb := fun i d k hk => (unknown_lt ⟨sys, loads⟩ st0 hst i d k hk)
    obtain ⟨ρ, hρ⟩ := SameEquations.inverse eq
    have back := SameEquations.back eq hm.mesh hρ (fun i d k hk => (hb i d k hk).2)
    have hr' : ∀ asked asked' t, ∀ a < st'.N, SystemRun.rhs ⟨sys, loads⟩ st0 asked' t (ρ a) = SystemRun.rhs ⟨inp', loads'⟩ st' asked t a := by
      intro asked asked' t a ha
      rw [eq.size] at ha
      rw [← hr asked' asked t _ (hρ a ha).1, (hρ a ha).2]
    have hdef : ∀ U, matrixWork st0.N st0.Kg U U = 0 → ∀ k < st0.N, U k = 0 := fun U hU => (o.stiff U).2 (by rw [form_matrixWork]; exact hU)
    obtain ⟨sol, hsol⟩ : ∃ out, Spec.SolvesStatics st0 (SystemRun.rhs ⟨sys, loads⟩ st0) times out := by
      have hsol := solvable_of_definite st0.N st0.Kg hdef
      choose u hu using fun t => hsol (SystemRun.rhs ⟨sys, loads⟩ st0 [] t)
      exact ⟨⟨u, u, u⟩, fun t _ => ⟨[], fun i hi => (hu t).1 i hi⟩⟩
    have S := hsv st0 _ ⟨sol, hsol⟩
    have S' := hsv' st' _ ⟨_, SameEquations.statics back hr' hsol⟩
    have T := SameEquations.statics eq hr S'
    set out := sv st0 (SystemRun.rhs ⟨sys, loads⟩ st0)
    set out' := sv' st' (SystemRun.rhs ⟨inp', loads'⟩ st')
    have same : ∀ a < st0.N, out'.u t (τ a) = out.u t a := by
      obtain ⟨k1, f1⟩ := S t ht
      obtain ⟨k2, f2⟩ := T t ht
      intro a ha
      refine sub_eq_zero.mp (hdef (fun a => out'.u t (τ a) - out.u t a) ?_ a ha)
      rw [matrixWork_eq]
      refine Finset.sum_eq_zero fun a ha => ?_
      have ha := mem_range.mp ha
      have : ∑ b ∈ range st0.N, st0.Kg a b * (out'.u t (τ b) - out.u t b) = 0 := by
        have g1 := f1 a ha
        have g2 := f2 a ha
        rw [rhs_eq] at g1 g2
        simp only [mul_sub, Finset.sum_sub_distrib]
        rw [g1, g2, sub_self]
      rw [this, mul_zero]
    obtain ⟨m, m', hm1, hm2, rep⟩ := SameEquations.reported eq (nodes_length (SystemRun.input ⟨sys, loads⟩) _ _ hst) ((nodes_length (SystemRun.input ⟨inp', loads'⟩) _ _ hst').trans hm.size) hm.mesh
      (fun i d k hk => (hb i d k hk).2) i hi
    unfold Spec.shape Spec.fieldOfRows
    rw [List.getD_eq_getElem _ _ (by simpa using ht), List.getD_eq_getElem _ _ (by simpa using ht)]
    simp only [List.getElem_map, List.getElem_range, List.getElem?_map, hm1, hm2, Option.map_some, Option.getD_some]
    exact rep _ _ same
  dynamic := by
    intro σ inp' loads loads' times u₀ v₀ u₀' v₀' r r' hm hl hu R R'
    have hc : SystemRun.WellFormed ⟨sys, loads⟩ := ⟨h.mesh, fun l x => (hl l x).nodup, fun l x => (hl l x).mesh⟩
    obtain ⟨st, st', τ, hst, hst', eq, hr⟩ := C182_equations_partial hm hc h.agree
    obtain ⟨sv, s1, hsv, e⟩ := R
    obtain ⟨sv', s1', hsv', e'⟩ := R'
    rw [main_eq _ freshFlags times sv st hst] at e
    rw [main_eq _ freshFlags times sv' st' hst'] at e'
    injection e with e
    injection e' with e'
    obtain ⟨-, rfl⟩ := Prod.mk.inj e
    obtain ⟨-, rfl⟩ := Prod.mk.inj e'
    obtain ⟨st0, hst0, o⟩ := h.moves (loads.map TimedLoad.initial)
    obtain rfl : st0 = st := by
      have : Except.ok st0 = Except.ok (ε := Err) st := hst0.symm.trans hst
      injection this
    have hb := fun i d k hk => (unknown_lt ⟨sys, loads⟩ st0 hst i d k hk)
    have hb' := fun i d k hk => (unknown_lt ⟨inp', loads'⟩ st' hst' i d k hk)
    obtain ⟨ρ, hρ⟩ := SameEquations.inverse eq
    have back := SameEquations.back eq hm.mesh hρ (fun i d k hk => (hb i d k hk).2)
    have hr' : ∀ asked asked' t, ∀ a < st'.N, SystemRun.rhs ⟨sys, loads⟩ st0 asked' t (ρ a) = SystemRun.rhs ⟨inp', loads'⟩ st' asked t a := by
      intro asked asked' t a ha
      rw [eq.size] at ha
      rw [← hr asked' asked t _ (hρ a ha).1, (hρ a ha).2]
    obtain ⟨r1, r2, -⟩ := C106_representable _ freshFlags st0 hst
    choose! p hp hpu using r1
    have hp : ∀ k < st0.N, equationOf st0.nodes (p k).1 (p k).2 = some k := hp
    obtain ⟨x, y, z, h1, h2, h3⟩ := o.stepsDefined (β := 1 / 4) (γ := 1 / 2) (by norm_num) (by norm_num) hdt
      (fun t => SystemRun.rhs ⟨sys, loads⟩ st0 [] t) (fun k => u₀ (p k).1 (p k).2) (fun k => v₀ (p k).1 (p k).2)
    have hsol : Spec.AverageSteps st0 (SystemRun.rhs ⟨sys, loads⟩ st0) dt times u₀ v₀ ⟨x, y, z⟩ := by
      refine ⟨?_, ?_, ?_, ?_⟩
      · intro i d k hk
        have hkN := (hb i d k hk).2
        rw [nodeEquations_eq] at hk
        have e := hpu k hkN (i, d) hk
        have := h2 k hkN
        rw [← e] at this
        exact this
      · intro n hn
        exact ⟨[], fun i hi => (h1 n).balance n le_rfl i hi⟩
      · intro n hn k hk
        have := (h1 (n + 1)).displacement n (Nat.lt_succ_self n) k hk
        simp only
        rw [this]
        ring
      · intro n hn k hk
        have := (h1 (n + 1)).velocity n (Nat.lt_succ_self n) k hk
        simp only
        rw [this]
        ring
    have S := hsv st0 _ ⟨_, hsol⟩
    have hu' : ∀ j < sys.n, u₀ (σ.symm j) = u₀' j ∧ v₀ (σ.symm j) = v₀' j := by
      intro j hj
      have := hu (σ.symm j) ((hm.mesh _).mp (by simpa using hj))
      rw [Equiv.apply_symm_apply] at this
      exact ⟨this.1.symm, this.2.symm⟩
    have S' := hsv' st' _ ⟨_, AverageSteps.same back hr' (fun i d k hk => ⟨hm.size ▸ (hb' i d k hk).1, (hb' i d k hk).2⟩) hu' hsol⟩
    have T := AverageSteps.same eq hr hb hu S'
    set out := sv st0 (SystemRun.rhs ⟨sys, loads⟩ st0)
    set out' := sv' st' (SystemRun.rhs ⟨inp', loads'⟩ st')
    refine ⟨by simp, fun t ht i hi => ?_⟩
    have ht : t < times := by simpa using ht
    have starts : ∀ (o : SolverOutput ℝ), Spec.AverageSteps st0 (SystemRun.rhs ⟨sys, loads⟩ st0) dt times u₀ v₀ o →
        ∀ a < st0.N, o.u t a = x t a ∧ o.v t a = y t a ∧ o.a t a = z t a := by
      intro o ho a ha
      refine h3 (times - 1) o.u o.v o.a (AverageSteps.newmark ho (by omega)) (fun k hk => ?_) t (by omega) a ha
      exact ho.start _ _ _ ((nodeEquations_eq _ _ _).trans (hp k hk))
    obtain ⟨m, m', hm1, hm2, rep⟩ := SameEquations.reported eq (nodes_length (SystemRun.input ⟨sys, loads⟩) _ _ hst) ((nodes_length (SystemRun.input ⟨inp', loads'⟩) _ _ hst').trans hm.size) hm.mesh
      (fun i d k hk => (hb i d k hk).2) i hi
    rw [List.getD_eq_getElem _ _ (by simpa using ht), List.getD_eq_getElem _ _ (by simpa using ht)]
    simp only [List.getElem_map, List.getElem_range, List.getElem?_map, hm1, hm2, Option.map_some, Option.some.injEq, NodeRow.mk.injEq]
    exact ⟨rep _ _ fun a ha => (starts _ T a ha).1.trans (starts _ S a ha).1.symm,
      rep _ _ fun a ha => (starts _ T a ha).2.1.trans (starts _ S a ha).2.1.symm,
      rep _ _ fun a ha => (starts _ T a ha).2.2.trans (starts _ S a ha).2.2.symm⟩

/-! ### Tracks -/

theorem HeldMoving.wellDetermined {sys : SystemInput ℝ} (h : HeldMoving sys) (ha : Spec.SupportsAgree sys.constraints) : WellDetermined sys :=
  ⟨h.mesh, ha, h.moves⟩

theorem Generated.agree {H : Type*} [DecidableEq H] {hash : (Fin 3 → ℝ) → H} {n r : ℕ} {d h : ℝ} {t : HorizontalTrack ℝ}
    (g : Generated hash n r d h t) (held : Bool) : Spec.SupportsAgree (generatedSupports t n r held) := by
  obtain ⟨-, -, hinj⟩ := g.position
  have hrn := g.rails
  have apart : ∀ i ∈ [t.position 0, t.position (n * r - 1)], i ∉ (List.range n).map fun i => t.position (n * r + n + i) := by
    intro i hi hm
    simp only [List.mem_map, List.mem_range] at hm
    obtain ⟨j, hj, rfl⟩ := hm
    simp only [List.mem_cons, List.not_mem_nil, or_false] at hi
    rcases hi with e | e
    · have := hinj _ (by omega) _ (by omega) e; omega
    · have := hinj _ (by omega) _ (by omega) e; omega
  unfold generatedSupports
  intro p hp q hq i hi hi'
  cases held
  · simp only [Bool.false_eq_true, if_false, List.nil_append, List.mem_singleton] at hp hq
    rw [hp, hq]
  · simp only [if_true, List.singleton_append, List.mem_cons, List.not_mem_nil, or_false] at hp hq
    rcases hp with rfl | rfl <;> rcases hq with rfl | rfl
    · rfl
    · exact absurd hi' (apart i hi)
    · exact absurd hi (apart i hi')
    · rfl

/-- **C182** For every generated track with at least two sleepers. -/
theorem C182_track {H : Type*} [DecidableEq H] (hash : (Fin 3 → ℝ) → H) (n r : ℕ) (hn : 2 ≤ n) (hr : 0 < r) (d h : ℝ)
    (hd : 1 / 1000000000 < d / r) (hh : 1 / 1000000000 < h) (t : HorizontalTrack ℝ)
    (ht : createHorizontalTrack hash n r d h = .ok t) (v : TrackValues) (hv : v.Valid) (hm : v.NonNeg) (hR : v.Rayleigh) (dt : ℝ) (hdt : 0 < dt) :
    ∃ inp, t.system v true = .ok inp ∧ Spec.OrderFree inp dt := by
  have g : Generated hash n r d h t := ⟨by nlinarith, hd, hh, ht⟩
  exact ⟨_, g.system v true, C182_results_partial _ ((g.heldMoving hn hr hv hm hR).wellDetermined (g.agree true)) dt hdt⟩

section combined
variable {H : Type*} [DecidableEq H] (hash : (Fin 3 → ℝ) → H) {r k : ℕ} {d : ℝ} {segments : List (ℕ × ℝ)}

theorem SoundTrack.agree {ι : Type*} [DecidableEq ι] {c : CombinedTrack ι ℝ} {m : ℕ} {l : ℝ} (s : SoundTrack c m l) (x y : ι) (hx : x ∈ c.rail)
    (hy : y ∈ c.rail) (held : Bool) : Spec.SupportsAgree (c.supports x y held) := by
  have apart : ∀ i ∈ [c.place x, c.place y], ∀ p ∈ c.soils, i ∉ p.1.map fun e => c.place e.2 := by
    intro i hi p hp
    simp only [List.mem_cons, List.not_mem_nil, or_false] at hi
    rcases hi with rfl | rfl
    · exact s.not_bottom x (Or.inl hx) p hp
    · exact s.not_bottom y (Or.inl hy) p hp
  unfold CombinedTrack.supports
  intro p hp q hq i hi hi'
  rcases List.mem_append.mp hp with hp1 | hp1 <;> rcases List.mem_append.mp hq with hq1 | hq1
  · cases held
    · simp at hp1
    · simp only [if_true, List.mem_singleton] at hp1 hq1
      rw [hp1, hq1]
  · cases held
    · simp at hp1
    · simp only [if_true, List.mem_singleton] at hp1
      obtain ⟨q', hq', rfl⟩ := List.mem_map.mp hq1
      subst hp1
      exact absurd hi' (apart i hi q' hq')
  · cases held
    · simp at hq1
    · simp only [if_true, List.mem_singleton] at hq1
      obtain ⟨p', hp', rfl⟩ := List.mem_map.mp hp1
      subst hq1
      exact absurd hi (apart i hi' p' hp')
  · obtain ⟨p', -, rfl⟩ := List.mem_map.mp hp1
    obtain ⟨q', -, rfl⟩ := List.mem_map.mp hq1
    rfl

/-- **C182** The same for every track that is combined from segments. -/
theorem C182_combined (g : GoodSegments r d segments) (length : ℝ) (v : TrackValues) (soils : List (RodValues ℝ))
    (hs : segments.length ≤ soils.length) (hv : ∀ w ∈ soils, ({ v with soil := w } : TrackValues).Valid)
    (hm : ∀ w ∈ soils, ({ v with soil := w } : TrackValues).NonNeg) (hR : v.Rayleigh) (dt : ℝ) (hdt : 0 < dt) :
    ∃ c inp, combinedTrack hash r d segments = .ok c ∧ c.system length v soils true = .ok inp ∧ Spec.OrderFree inp dt := by
  obtain ⟨c, hc, s, -, -, -, -, -, -, hlen, -⟩ := C136_structure hash g
  have hs' : c.soils.length ≤ soils.length := by omega
  obtain ⟨a, b, ha, hb, hsys⟩ := s.system length v soils hs' true
  exact ⟨c, _, hc, hsys, C182_results_partial _ ((s.heldMoving v soils hs' hv hm hR a b (List.mem_of_head? ha)
    (List.mem_of_getLast? hb)).wellDetermined (s.agree a b (List.mem_of_head? ha) (List.mem_of_getLast? hb) true)) dt hdt⟩

/-- **C182** The same with a hinge in the rail, of a fixity factor greater than 0 and at most 1. -/
theorem C182_hinged (g : GoodSegments r d segments) (length : ℝ) (hlength : 0 < length) (v : TrackValues)
    (soils : List (RodValues ℝ)) (hs : segments.length ≤ soils.length) (hv : ∀ w ∈ soils, ({ v with soil := w } : TrackValues).Valid)
    (hm : ∀ w ∈ soils, ({ v with soil := w } : TrackValues).NonNeg) (hR : v.Rayleigh)
    (hk : 2 ≤ k) (hkm : k + 3 ≤ railCount r segments) (near : 1 / 100000000 + 1 / 100000 * ((k : ℝ) * (d / r)) < d / r)
    (f : ℝ) (hf : 0 < f) (hf1 : f ≤ 1) (dt : ℝ) (hdt : 0 < dt) :
    ∃ c inp, combinedTrack hash r d segments = .ok c ∧ c.hingedSystem length v soils f (k * (d / r)) true = .ok inp ∧
      Spec.OrderFree inp dt := by
  obtain ⟨c, hc, sound, -, -, -, -, -, -, hlen, -⟩ := C136_structure hash g
  have hs' : c.soils.length ≤ soils.length := by omega
  obtain ⟨w, hw⟩ := sound.some_soil hs'
  obtain ⟨σ, hσ, hσ0⟩ := hingeStiffness_pos (hv w hw).E (hv w hw).I hlength hf hf1
  obtain ⟨a, b, ha, hb, hsys⟩ := sound.hingedSystem length v soils hs' true hk hkm near f σ hσ
  exact ⟨c, _, hc, hsys, C182_results_partial _ ((sound.hinged_heldMoving v soils hs' hv hm hR a b (List.mem_of_head? ha)
    (List.mem_of_getLast? hb) hk hkm (σ / 2) (fun h => by linarith)).wellDetermined
    (sound.agree a b (List.mem_of_head? ha) (List.mem_of_getLast? hb) true)) dt hdt⟩

end combined

/-! ### The exception, and examples -/

/-- C182 fails for two supports on one node that hold it in different ways: the last one counts, so their order decides whether the node moves. -/
theorem C182_violated :
    let hold : ConstraintPart := ⟨[0], ![false, false, false]⟩
    let side : ConstraintPart := ⟨[0], ![false, true, true]⟩
    Spec.SameModel (Equiv.refl ℕ) ⟨supportExample [hold, side], []⟩ ⟨supportExample [side, hold], []⟩ ∧
    ((supportExample [hold, side]).initialise freshFlags).map (fun st => st.N) = .ok 1 ∧
    ((supportExample [side, hold]).initialise freshFlags).map (fun st => st.N) = .ok 0 := by
  intro hold side
  refine ⟨⟨rfl, fun i => Iff.rfl, ?_, ?_, ⟨[], .nil, .nil⟩, rfl, rfl, rfl, rfl⟩, by decide +kernel, by decide +kernel⟩
  · refine ⟨(supportExample []).parts, ?_, .refl _⟩
    exact .cons ⟨by simp, by simp, rfl, rfl, rfl, rfl⟩ .nil
  · refine ⟨[hold, side], ?_, List.Perm.swap _ _ _⟩
    exact .cons ⟨by simp, rfl⟩ (.cons ⟨by simp, rfl⟩ .nil)

/-- A structure with its nodes in another order and its parts, loads and supports in reverse order. -/
def SystemRun.reordered {K : Type*} (σ : Equiv.Perm ℕ) (c : SystemRun K) : SystemRun K :=
  { system := { c.system with
      parts := (c.system.parts.map fun p => { p with
        elements := p.elements.map fun e => ((σ e.1.1, σ e.1.2), e.2), nodes := p.nodes.map σ }).reverse
      constraints := (c.system.constraints.map fun p => ({ p with nodes := p.nodes.map σ } : ConstraintPart)).reverse }
    timed := (c.timed.map fun l => { l with nodes := l.nodes.map σ }).reverse }

theorem sameItems_reverse {α β : Type*} (R : α → β → Prop) (f : α → β) (l : List α) (hR : ∀ x, R x (f x)) :
    Spec.SameItems R l (l.map f).reverse := by
  refine ⟨l.map f, ?_, (List.reverse_perm _).symm⟩
  induction l with
  | nil => exact .nil
  | cons a l ih => exact .cons (hR a) ih

theorem reordered_same {K : Type*} [Field K] [LinearOrder K] [IsStrictOrderedRing K] (σ : Equiv.Perm ℕ) (c : SystemRun K)
    (h : ∀ i, σ i < c.system.n ↔ i < c.system.n) : Spec.SameModel σ c (c.reordered σ) := by
  exact ⟨rfl, h, sameItems_reverse _ _ _ fun p => ⟨.refl _, .refl _, rfl, rfl, rfl, rfl⟩, sameItems_reverse _ _ _ fun p => ⟨.refl _, rfl⟩,
    sameItems_reverse _ _ _ fun l => ⟨rfl, rfl, rfl⟩, rfl, rfl, rfl, rfl⟩

/-- Every reordering of a structure is such a model; both have results. -/
theorem HeldMoving.reordered_results {sys : SystemInput ℝ} (h : HeldMoving sys) (ha : Spec.SupportsAgree sys.constraints) (σ : Equiv.Perm ℕ)
    (hσ : ∀ i, σ i < sys.n ↔ i < sys.n) (loads : List (TimedLoad ℝ)) (hl : ∀ l ∈ loads, Spec.LoadFits sys.n l) (dt : ℝ) (hdt : 0 < dt) (times : ℕ) :
    ∃ r r', Spec.DynamicResults sys loads dt times 0 0 r ∧ Spec.DynamicResults (SystemRun.reordered σ ⟨sys, loads⟩).system
        (SystemRun.reordered σ ⟨sys, loads⟩).timed dt times 0 0 r' ∧ Spec.SameRows σ sys.n r r' := by
  obtain ⟨r, R⟩ := h.hasResults hdt loads times 0 0 hl
  have hm := reordered_same σ ⟨sys, loads⟩ hσ
  have hc : SystemRun.WellFormed ⟨sys, loads⟩ := ⟨h.mesh, fun l x => (hl l x).nodup, fun l x => (hl l x).mesh⟩
  have hc' := SameModel.wellFormed hm hc
  obtain ⟨sv, hsv⟩ := exists_stepSolver dt times 0 0
  obtain ⟨st', hst'⟩ := C106_succeeds (SystemRun.reordered σ ⟨sys, loads⟩).input hc'.mesh freshFlags
  have hmain := main_eq (SystemRun.reordered σ ⟨sys, loads⟩) freshFlags times sv st' hst'
  refine ⟨r, _, R, ⟨sv, st', hsv, hmain⟩, ?_⟩
  exact (C182_results_partial _ (h.wellDetermined ha) _ hdt).dynamic σ _ loads _ times 0 0 0 0 r _ hm hl (fun _ _ => ⟨rfl, rfl⟩) R ⟨sv, st', hsv, hmain⟩

/-- Three sleepers, with the first node of the mesh and the eighth exchanged. -/
example : ∃ t, createHorizontalTrack (fun p : Fin 3 → ℝ => p) 3 2 (3 / 5) 1 = .ok t ∧
    ∃ inp, t.system exampleTrack true = .ok inp ∧ inp.n = 12 ∧ ∃ r r',
      Spec.DynamicResults inp [downForce 0 fun _ => 1000] (1 / 100) 5 0 0 r ∧
      Spec.DynamicResults (SystemRun.reordered (Equiv.swap 0 7) ⟨inp, [downForce 0 fun _ => 1000]⟩).system
        (SystemRun.reordered (Equiv.swap 0 7) ⟨inp, [downForce 0 fun _ => 1000]⟩).timed (1 / 100) 5 0 0 r' ∧
      Spec.SameRows (Equiv.swap 0 7) inp.n r r' := by
  obtain ⟨t, ht, -⟩ := C48_structure (fun p : Fin 3 → ℝ => p) 3 2 (by norm_num) (3 / 5) 1
  have g : Generated (fun p : Fin 3 → ℝ => p) 3 2 (3 / 5) 1 t := ⟨by norm_num, by norm_num, by norm_num, ht⟩
  have hh := g.heldMoving (by norm_num) (by norm_num) exampleTrack_valid exampleTrack_nonNeg exampleTrack_rayleigh
  refine ⟨t, ht, _, g.system _ true, rfl, hh.reordered_results (g.agree true) _ ?_ _ ?_ _ (by norm_num) 5⟩
  · intro i
    show _ < 12 ↔ i < 12
    rw [Equiv.swap_apply_def]
    split_ifs <;> omega
  · intro l hl
    obtain rfl := List.mem_singleton.mp hl
    refine ⟨by simp [downForce], fun x hx => ?_⟩
    obtain rfl : x = 0 := by simpa [downForce] using hx
    show 0 < 3 * 2 + 3 + 3
    omega

end Rose
