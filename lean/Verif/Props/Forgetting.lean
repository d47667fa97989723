/-
C191: the start of a calculation is forgotten, and bounded and periodic loads give bounded and periodic results.
-/
import Verif.Spec.Forgetting
import Verif.Lemmas.Forgetting
import Verif.Props.Settling

set_option linter.unusedSectionVars false

namespace Rose
open Finset Filter Topology

section
variable {sys : SystemInput ℝ} {dt : ℝ} {F : ℕ → Spec.NodalField ℝ → ℝ} {times : ℕ} {U V A : ℕ → Spec.NodalField ℝ}

theorem FieldSteps.later (f : FieldSteps sys F dt times U V A) (P : ℕ) :
    FieldSteps sys (fun s => F (s + P)) dt (times - P) (fun s => U (s + P)) (fun s => V (s + P)) (fun s => A (s + P)) :=
  ⟨fun s hs => f.admissible (s + P) (by omega), fun s hs => f.outside (s + P) (by omega), fun s hs => f.balance (s + P) (by omega),
    fun s hs i d => by
      have := f.displacement (s + P) (by omega) i d
      rwa [show s + P + 1 = s + 1 + P by omega] at this,
    fun s hs i d => by
      have := f.velocity (s + P) (by omega) i d
      rwa [show s + P + 1 = s + 1 + P by omega] at this⟩

theorem fieldOf_unit {st : TrimState ℝ} {k : ℕ} {p : ℕ × Fin 3} (hp : equationOf st.nodes p.1 p.2 = some k)
    (hu : ∀ p', equationOf st.nodes p'.1 p'.2 = some k → p' = p) :
    fieldOf st.nodes (fun j => if j = k then (1 : ℝ) else 0) = Spec.unitField p.1 p.2 := by
  funext i d
  unfold fieldOf Spec.unitField
  cases h : equationOf st.nodes i d with
  | some j =>
    by_cases hj : j = k
    · subst hj
      have := hu (i, d) h
      subst this
      simp
    · have : ¬ (i = p.1 ∧ d = p.2) := by
        rintro ⟨rfl, rfl⟩
        rw [h] at hp
        exact hj (Option.some.inj hp)
      simp [hj, this]
  | none =>
    have : ¬ (i = p.1 ∧ d = p.2) := by
      rintro ⟨rfl, rfl⟩
      rw [h] at hp
      cases hp
    simp [this]

/-- The steps of fields are steps of the numbers at the dofs that are not removed. -/
theorem HeldMoving.dofs (h : HeldMoving sys) :
    ∃ (st : TrimState ℝ) (p : ℕ → ℕ × Fin 3), (SystemRun.input ⟨sys, []⟩).initialise freshFlags = .ok st ∧ Oscillator st.N st.M st.C st.Kg ∧
      (∀ k < st.N, (p k).1 < sys.n ∧ ¬ Spec.Removed sys (p k).1 (p k).2) ∧
      (∀ i < sys.n, ∀ d, ¬ Spec.Removed sys i d → ∃ k < st.N, p k = (i, d)) ∧
      ∀ F dt times U V A, 0 < times → FieldSteps sys F dt times U V A →
        Spec.NewmarkSteps st.N st.M st.C st.Kg (1 / 4) (1 / 2) dt (times - 1) (fun t k => F t (Spec.unitField (p k).1 (p k).2))
          (fun t k => U t (p k).1 (p k).2) (fun t k => V t (p k).1 (p k).2) (fun t k => A t (p k).1 (p k).2) := by
  set c : SystemRun ℝ := ⟨sys, []⟩ with hcdef
  obtain ⟨st, hst, o⟩ := h.moves []
  have hst : c.input.initialise freshFlags = .ok st := hst
  obtain ⟨r1, r2, -⟩ := C106_representable c.input freshFlags st hst
  choose! p hp hpu using r1
  have hp : ∀ k < st.N, equationOf st.nodes (p k).1 (p k).2 = some k := hp
  have un := fun i hi d => C106_unknowns_partial c.input h.mesh h.aligned st hst i hi d
  refine ⟨st, p, hst, o, fun k hk => ⟨(r2 _ _ _ (hp k hk)).1, fun hr => ?_⟩, fun i hi d hr => ?_, fun F dt times U V A ht f => ?_⟩
  · have := (un _ (r2 _ _ _ (hp k hk)).1 _).mpr hr
    rw [hp k hk] at this
    cases this
  · cases hk : equationOf st.nodes i d with
    | none => exact absurd ((un i hi d).mp hk) hr
    | some k => exact ⟨k, (r2 _ _ _ hk).2, (hpu k (r2 _ _ _ hk).2 (i, d) hk).symm⟩
  · refine ⟨fun n hn k hk => ?_, fun n hn k hk => ?_, fun n hn k hk => ?_⟩
    · have single : ∀ f : ℕ → ℝ, ∑ j ∈ range st.N, (if j = k then (1 : ℝ) else 0) * f j = f k := by
        intro f
        rw [Finset.sum_eq_single_of_mem k (mem_range.mpr hk)]
        · simp
        · intro j _ hj; simp [hj]
      have unit : RepresentsField sys.n st.nodes (fun j => if j = k then (1 : ℝ) else 0) (Spec.unitField (p k).1 (p k).2) := by
        rw [← fieldOf_unit (hp k hk) fun p' hp' => hpu k hk p' hp']
        exact fieldOf_represents _ _ _
      have adm := represents_admissible c h.mesh h.aligned st hst _ _ unit
      obtain ⟨aU, aV, aA⟩ := f.admissible n (by omega)
      have rep : ∀ W : Spec.NodalField ℝ, Spec.Admissible sys W → RepresentsField sys.n st.nodes (fun k => W (p k).1 (p k).2) W := by
        intro W hW
        refine ⟨fun i d j hj => ?_, fun i hi d hn => hW i hi d ((un i hi d).mp hn)⟩
        have := hpu j (r2 _ _ _ hj).2 (i, d) hj
        rw [← this]
      have hm := (C106_work_partial c.input freshFlags h.mesh h.aligned st hst _ _ _ _ unit (rep _ aA)).2.1
      obtain ⟨c1, c2, hc⟩ := C106_work_partial c.input freshFlags h.mesh h.aligned st hst _ _ _ _ unit (rep _ aV)
      have hk' := (C106_work_partial c.input freshFlags h.mesh h.aligned st hst _ _ _ _ unit (rep _ aU)).1
      have hR : (rayleighPair c.input).1 * Spec.systemWork AssemblyPart.mass c.input.parts (Spec.unitField (p k).1 (p k).2) (V n) +
          (rayleighPair c.input).2 * Spec.systemWork AssemblyPart.stiffness c.input.parts (Spec.unitField (p k).1 (p k).2) (V n) =
          Spec.rayleighWork sys (Spec.unitField (p k).1 (p k).2) (V n) := by
        unfold rayleighPair Spec.rayleighWork
        show (if sys.isRayleigh = true then _ else _ : ℝ × ℝ).1 * _ + (if sys.isRayleigh = true then _ else _ : ℝ × ℝ).2 * _ = _
        split_ifs
        · rfl
        · simp
      rw [c1, c2, add_assoc, hR] at hc
      rw [matrixWork_eq, single] at hm hc hk'
      have b := f.balance n (by omega) _ adm
      unfold motionWork dampingWork at b
      rw [sum_three, ← b]
      have hm : _ = Spec.systemWork AssemblyPart.mass sys.parts _ _ := hm
      have hk' : _ = Spec.systemWork AssemblyPart.stiffness sys.parts _ _ := hk'
      have hc : _ = Spec.systemWork AssemblyPart.damping sys.parts _ _ + Spec.rayleighWork sys _ _ := hc
      rw [hm, hk', hc]
    · rw [f.displacement n (by omega)]
      ring
    · rw [f.velocity n (by omega)]
      ring

/-- The bound at all dofs, for steps of fields. -/
theorem HeldDamped.fieldBound (h : HeldDamped sys) (hdt : 0 < dt) :
    ∃ c q : ℝ, 0 ≤ c ∧ 0 < q ∧ q < 1 ∧ ∀ F times U V A, FieldSteps sys F dt times U V A → ∀ D β : ℝ, 0 ≤ D → 0 ≤ β →
      (0 < times → ∀ i < sys.n, ∀ d, ¬ Spec.Removed sys i d → |U 0 i d| ≤ D ∧ |V 0 i d| ≤ D) →
      (∀ s < times, ∀ i < sys.n, ∀ d, |F s (Spec.unitField i d)| ≤ β) → ∀ s < times, ∀ i < sys.n, ∀ d,
        |U s i d| ≤ c * (q ^ s * D + β) ∧ |V s i d| ≤ c * (q ^ s * D + β) ∧ |A s i d| ≤ c * (q ^ s * D + β) := by
  obtain ⟨st, p, hst, o, p1, p2, steps⟩ := h.toHeldMoving.dofs
  obtain ⟨c, q, c0, q0, q1, hc⟩ := o.forgets (fun U => h.definite [] st hst U) hdt
  refine ⟨c, q, c0, q0, q1, fun F times U V A f D β hD hβ h0 hF s hs i hi d => ?_⟩
  by_cases hr : Spec.Removed sys i d
  · obtain ⟨b1, b2, b3⟩ := f.admissible s hs
    rw [b1 i hi d hr, b2 i hi d hr, b3 i hi d hr, abs_zero]
    have : 0 ≤ c * (q ^ s * D + β) := by positivity
    exact ⟨this, this, this⟩
  · obtain ⟨k, hk, e⟩ := p2 i hi d hr
    have := hc _ _ _ _ _ (steps F dt times U V A (by omega) f) D β hD hβ (fun k hk => h0 (by omega) _ (p1 k hk).1 _ (p1 k hk).2)
      (fun n hn k hk => hF n (by omega) _ (p1 k hk).1 _) s (by omega) k hk
    simp only [e] at this
    exact this

theorem HeldDamped.forgets (h : HeldDamped sys) (hdt : 0 < dt) : Spec.Forgets sys dt := by
  obtain ⟨c, q, c0, q0, q1, hc⟩ := h.fieldBound hdt
  have mono : ∀ x : ℝ, 0 ≤ x → c * x ≤ (c + 2 * c ^ 2) * x := fun x hx => by nlinarith [mul_nonneg (sq_nonneg c) hx]
  refine ⟨c + 2 * c ^ 2, q, by positivity, q0, q1, ?_, ?_, ?_⟩
  · intro loads D u₀ v₀ u₁ v₁ times r times' r' hD hl hstart R R' t ht ht' i hi d
    obtain ⟨f, z⟩ := h.toHeldMoving.results hdt hl R
    obtain ⟨f', z'⟩ := h.toHeldMoving.results hdt hl R'
    have g := FieldSteps.combine h.toHeldMoving (f.upTo (t := t + 1) ht) (f'.upTo (t := t + 1) ht') (-1)
    obtain ⟨a, b, e⟩ := hc _ _ _ _ _ g D 0 hD le_rfl (fun _ i hi d hr => by
      obtain ⟨a, b⟩ := z i hi d hr (by omega)
      obtain ⟨a', b'⟩ := z' i hi d hr (by omega)
      obtain ⟨k1, k2⟩ := hstart i hi d
      simp only [a, b, a', b', neg_one_mul, ← sub_eq_add_neg]
      exact ⟨k1, k2⟩) (fun s _ i _ d => by simp) t (by omega) i hi d
    simp only [neg_one_mul, ← sub_eq_add_neg, add_zero] at a b e
    have m := mono (q ^ t * D) (by positivity)
    rw [← mul_assoc] at m
    rw [mul_assoc]
    rw [mul_assoc] at m
    exact ⟨a.trans m, b.trans m, e.trans m⟩
  · intro loads F D u₀ v₀ times r hF hD hl hF' hstart R t ht i hi d
    obtain ⟨f, z⟩ := h.toHeldMoving.results hdt hl R
    obtain ⟨a, b, e⟩ := hc _ _ _ _ _ f D F hD hF (fun h0 i hi d hr => by
      obtain ⟨a, b⟩ := z i hi d hr h0
      rw [a, b]
      exact hstart i hi d) (fun s _ i hi d => hF' s i hi d) t ht i hi d
    have m := mono (q ^ t * D + F) (by positivity)
    exact ⟨a.trans m, b.trans m, e.trans m⟩
  · intro loads P F D u₀ v₀ times r hF hD hl hP hF' hstart R t ht i hi d
    obtain ⟨f, z⟩ := h.toHeldMoving.results hdt hl R
    have bound := hc _ _ _ _ _ f D F hD hF (fun h0 i hi d hr => by
      obtain ⟨a, b⟩ := z i hi d hr h0
      rw [a, b]
      exact hstart i hi d) (fun s _ i hi d => hF' s i hi d)
    have g := FieldSteps.combine h.toHeldMoving (f.later P) (f.upTo (t := times - P) (by omega)) (-1)
    have near : ∀ x y : ℝ, |x| ≤ c * (q ^ P * D + F) → |y| ≤ c * (q ^ 0 * D + F) → |x + -1 * y| ≤ 2 * c * (D + F) := by
      intro x y hx hy
      have hq : q ^ P ≤ 1 := pow_le_one₀ q0.le q1.le
      have e1 : c * (q ^ P * D + F) ≤ c * (D + F) := by
        refine mul_le_mul_of_nonneg_left ?_ c0
        nlinarith
      rw [pow_zero, one_mul] at hy
      rw [abs_le] at hx hy ⊢
      constructor <;> linarith
    obtain ⟨a, b, e⟩ := hc _ _ _ _ _ g (2 * c * (D + F)) 0 (by positivity) le_rfl (fun h0 i hi d hr => by
      obtain ⟨a, b, -⟩ := bound P (by omega) i hi d
      obtain ⟨a', b', -⟩ := bound 0 (by omega) i hi d
      simp only [Nat.zero_add]
      exact ⟨near _ _ a a', near _ _ b b'⟩) (fun s _ i _ d => by
        show |Spec.loadWork (Spec.loadsAt loads (s + P)) _ + -1 * Spec.loadWork (Spec.loadsAt loads s) _| ≤ 0
        rw [hP s]
        simp) t (by omega) i hi d
    simp only [neg_one_mul, ← sub_eq_add_neg, add_zero] at a b e
    have m : c * (q ^ t * (2 * c * (D + F))) ≤ (c + 2 * c ^ 2) * q ^ t * (D + F) := by
      have : 0 ≤ c * (q ^ t * (D + F)) := by positivity
      nlinarith
    exact ⟨a.trans m, b.trans m, e.trans m⟩

theorem HeldMoving.staysTogether (h : HeldMoving sys) (hdt : 0 < dt) : Spec.StaysTogether sys dt := by
  intro loads u₀ v₀ u₁ v₁ times r times' r' hl R R' s t hst
  obtain ⟨f, -⟩ := h.results hdt hl R
  obtain ⟨f', -⟩ := h.results hdt hl R'
  induction t, hst using Nat.le_induction with
  | base => intro _ _; exact le_rfl
  | succ t hst ih =>
    intro ht ht'
    refine le_trans ?_ (ih (by omega) (by omega))
    have g := FieldSteps.combine h (f.upTo (t := t + 2) ht) (f'.upTo (t := t + 2) ht') (-1)
    have e := g.energy h hdt (s := t) (by omega)
    simp only [neg_one_mul, ← sub_eq_add_neg, sub_self, add_zero, mul_zero, zero_sub] at e
    have adm := g.admissible
    have a1 := (adm t (by omega)).2.1
    have a2 := (adm (t + 1) (by omega)).2.1
    have a3 := admissible_combine a1 a2 1
    have a4 : Spec.Admissible sys (fun i d => ((Spec.shapeRate r t i d - Spec.shapeRate r' t i d) +
        (Spec.shapeRate r (t + 1) i d - Spec.shapeRate r' (t + 1) i d)) / 2) := by
      intro i hi d hr
      have := a3 i hi d hr
      simp only [neg_one_mul, ← sub_eq_add_neg, one_mul] at this
      simp only [this, zero_div]
    have hd := mul_nonneg hdt.le (h.positive _ a4).2.1
    linarith

end

/-! ### Tracks -/

/-- **C191** For every generated track with at least two sleepers on its boundaries and average acceleration steps of any size: calculations with the
same loads do not get further apart in energy; and with Rayleigh damping of a positive ratio the start is forgotten exponentially, bounded loads give
bounded results and loads that repeat give, in the end, results that repeat. -/
theorem C191_track {H : Type*} [DecidableEq H] (hash : (Fin 3 → ℝ) → H) (n r : ℕ) (hn : 2 ≤ n) (hr : 0 < r) (d h : ℝ)
    (hd : 1 / 1000000000 < d / r) (hh : 1 / 1000000000 < h) (t : HorizontalTrack ℝ)
    (ht : createHorizontalTrack hash n r d h = .ok t) (v : TrackValues) (hv : v.Valid) (hm : v.NonNeg) (hR : v.Rayleigh) (dt : ℝ) (hdt : 0 < dt) :
    ∃ inp, t.system v true = .ok inp ∧ Spec.StaysTogether inp dt ∧ (v.Damped → Spec.Forgets inp dt) := by
  have g : Generated hash n r d h t := ⟨by nlinarith, hd, hh, ht⟩
  exact ⟨_, g.system v true, (g.heldMoving hn hr hv hm hR).staysTogether hdt, fun hD => (g.heldDamped hn hr hv hm hR hD).forgets hdt⟩

section combined
variable {H : Type*} [DecidableEq H] (hash : (Fin 3 → ℝ) → H) {r k : ℕ} {d : ℝ} {segments : List (ℕ × ℝ)}

/-- **C191** The same for every track that is combined from segments. -/
theorem C191_combined (g : GoodSegments r d segments) (length : ℝ) (v : TrackValues) (soils : List (RodValues ℝ))
    (hs : segments.length ≤ soils.length) (hv : ∀ w ∈ soils, ({ v with soil := w } : TrackValues).Valid)
    (hm : ∀ w ∈ soils, ({ v with soil := w } : TrackValues).NonNeg) (hR : v.Rayleigh) (dt : ℝ) (hdt : 0 < dt) :
    ∃ c inp, combinedTrack hash r d segments = .ok c ∧ c.system length v soils true = .ok inp ∧ Spec.StaysTogether inp dt ∧
      (v.Damped → Spec.Forgets inp dt) := by
  obtain ⟨c, hc, s, -, -, -, -, -, -, hlen, -⟩ := C136_structure hash g
  have hs' : c.soils.length ≤ soils.length := by omega
  obtain ⟨a, b, ha, hb, hsys⟩ := s.system length v soils hs' true
  have hx := List.mem_of_head? ha
  have hy := List.mem_of_getLast? hb
  have hh := s.heldMoving v soils hs' hv hm hR a b hx hy
  refine ⟨c, _, hc, hsys, hh.staysTogether hdt, fun hD => ?_⟩
  exact (hh.damped (s.heldMoving { v with ratio := 0 } soils hs' (valid_undamped hv) (nonNeg_undamped hm)
    ⟨fun _ => le_rfl, hR.w1, hR.w2⟩ a b hx hy) rfl rfl rfl rfl hD.1 hD.2 (hR.w1 hD.1) (hR.w2 hD.1)).forgets hdt

/-- **C191** The same with a hinge in the rail, of a fixity factor greater than 0 and at most 1. -/
theorem C191_hinged (g : GoodSegments r d segments) (length : ℝ) (hlength : 0 < length) (v : TrackValues)
    (soils : List (RodValues ℝ)) (hs : segments.length ≤ soils.length) (hv : ∀ w ∈ soils, ({ v with soil := w } : TrackValues).Valid)
    (hm : ∀ w ∈ soils, ({ v with soil := w } : TrackValues).NonNeg) (hR : v.Rayleigh)
    (hk : 2 ≤ k) (hkm : k + 3 ≤ railCount r segments) (near : 1 / 100000000 + 1 / 100000 * ((k : ℝ) * (d / r)) < d / r)
    (f : ℝ) (hf : 0 < f) (hf1 : f ≤ 1) (dt : ℝ) (hdt : 0 < dt) :
    ∃ c inp, combinedTrack hash r d segments = .ok c ∧ c.hingedSystem length v soils f (k * (d / r)) true = .ok inp ∧
      Spec.StaysTogether inp dt ∧ (v.Damped → Spec.Forgets inp dt) := by
  obtain ⟨c, hc, sound, -, -, -, -, -, -, hlen, -⟩ := C136_structure hash g
  have hs' : c.soils.length ≤ soils.length := by omega
  obtain ⟨w, hw⟩ := sound.some_soil hs'
  obtain ⟨σ, hσ, hσ0⟩ := hingeStiffness_pos (hv w hw).E (hv w hw).I hlength hf hf1
  obtain ⟨a, b, ha, hb, hsys⟩ := sound.hingedSystem length v soils hs' true hk hkm near f σ hσ
  have hx := List.mem_of_head? ha
  have hy := List.mem_of_getLast? hb
  have hh := sound.hinged_heldMoving v soils hs' hv hm hR a b hx hy hk hkm (σ / 2) (fun h => by linarith)
  refine ⟨c, _, hc, hsys, hh.staysTogether hdt, fun hD => ?_⟩
  exact (hh.damped (sound.hinged_heldMoving { v with ratio := 0 } soils hs' (valid_undamped hv) (nonNeg_undamped hm)
    ⟨fun _ => le_rfl, hR.w1, hR.w2⟩ a b hx hy hk hkm (σ / 2) (fun h => by linarith)) rfl rfl rfl rfl hD.1 hD.2 (hR.w1 hD.1)
    (hR.w2 hD.1)).forgets hdt

/-- **C191** The same with a free pin, if there are three or more sleepers and one of them is behind the pin. -/
theorem C191_pinned (g : GoodSegments r d segments) (length : ℝ) (v : TrackValues)
    (soils : List (RodValues ℝ)) (hs : segments.length ≤ soils.length) (hv : ∀ w ∈ soils, ({ v with soil := w } : TrackValues).Valid)
    (hm : ∀ w ∈ soils, ({ v with soil := w } : TrackValues).NonNeg) (hR : v.Rayleigh) (h3 : 3 ≤ (segments.map Prod.fst).sum)
    (hk : 2 ≤ k) (hkm : k + 3 ≤ railCount r segments) (hkr : k + r < railCount r segments)
    (near : 1 / 100000000 + 1 / 100000 * ((k : ℝ) * (d / r)) < d / r) (dt : ℝ) (hdt : 0 < dt) :
    ∃ c inp, combinedTrack hash r d segments = .ok c ∧ c.hingedSystem length v soils 0 (k * (d / r)) true = .ok inp ∧
      Spec.StaysTogether inp dt ∧ (v.Damped → Spec.Forgets inp dt) := by
  obtain ⟨c, hc, sound, -, -, -, -, -, -, hlen, -⟩ := C136_structure hash g
  have hs' : c.soils.length ≤ soils.length := by omega
  obtain ⟨a, b, ha, hb, hsys⟩ := sound.hingedSystem length v soils hs' true hk hkm near 0 0 (hingeStiffness_zero _ _ _)
  have hx := List.mem_of_head? ha
  have hy := List.mem_of_getLast? hb
  have hh := sound.hinged_heldMoving v soils hs' hv hm hR a b hx hy hk hkm (0 / 2)
    (fun _ => Or.inl (combined_holdsPin hash g v soils h3 (by omega) hkr c hc))
  refine ⟨c, _, hc, hsys, hh.staysTogether hdt, fun hD => ?_⟩
  exact (hh.damped (sound.hinged_heldMoving { v with ratio := 0 } soils hs' (valid_undamped hv) (nonNeg_undamped hm)
    ⟨fun _ => le_rfl, hR.w1, hR.w2⟩ a b hx hy hk hkm (0 / 2)
    (fun _ => Or.inl (combined_holdsPin hash g { v with ratio := 0 } soils h3 (by omega) hkr c hc))) rfl rfl rfl rfl hD.1 hD.2 (hR.w1 hD.1)
    (hR.w2 hD.1)).forgets hdt

end combined

/-- Three sleepers, once at rest and once with a rail end that is pushed down by a centimetre at first, under a force of 1000 N on this rail end in
every other step of 0.01 s: after some number of steps the two results agree to a nanometre, and so do the results now and two steps later. -/
example : ∃ t, createHorizontalTrack (fun p : Fin 3 → ℝ => p) 3 2 (3 / 5) 1 = .ok t ∧
    ∃ inp, t.system exampleTrack true = .ok inp ∧ ∃ T r r',
      Spec.DynamicResults inp [⟨[0], fun e => decide (e = 1), .table fun _ s e => if e = 1 ∧ s % 2 = 0 then -1000 else 0⟩] (1 / 100) (T + 3) 0 0 r ∧
      Spec.DynamicResults inp [⟨[0], fun e => decide (e = 1), .table fun _ s e => if e = 1 ∧ s % 2 = 0 then -1000 else 0⟩] (1 / 100) (T + 3)
        (fun i d => if i = 0 ∧ d = 1 then -1 / 100 else 0) 0 r' ∧
      |Spec.shape r T 0 1 - Spec.shape r' T 0 1| ≤ 1 / 1000000000 ∧ |Spec.shape r (T + 2) 0 1 - Spec.shape r T 0 1| ≤ 1 / 1000000000 := by
  obtain ⟨t, ht, -⟩ := C48_structure (fun p : Fin 3 → ℝ => p) 3 2 (by norm_num) (3 / 5) 1
  have g : Generated (fun p : Fin 3 → ℝ => p) 3 2 (3 / 5) 1 t := ⟨by norm_num, by norm_num, by norm_num, ht⟩
  have hh := g.heldDamped (by norm_num) (by norm_num) exampleTrack_valid exampleTrack_nonNeg exampleTrack_rayleigh
    ⟨rfl, by norm_num [exampleTrack]⟩
  have pos : 0 < (generatedInput t 3 2 (3 / 5) exampleTrack true).n := by
    show 0 < 3 * 2 + 3 + 3
    omega
  set loads : List (TimedLoad ℝ) := [⟨[0], fun e => decide (e = 1), .table fun _ s e => if e = 1 ∧ s % 2 = 0 then -1000 else 0⟩] with hloads
  have fit : ∀ l ∈ loads, Spec.LoadFits (generatedInput t 3 2 (3 / 5) exampleTrack true).n l := by
    intro l hl
    obtain rfl := List.mem_singleton.mp hl
    refine ⟨by simp, fun x hx => ?_⟩
    obtain rfl : x = 0 := by simpa using hx
    exact pos
  have hdt : (0 : ℝ) < 1 / 100 := by norm_num
  obtain ⟨c, q, c0, q0, q1, hc⟩ := hh.forgets hdt
  have hP : ∀ s, Spec.loadsAt loads (s + 2) = Spec.loadsAt loads s := by
    intro s
    simp [hloads, Spec.loadsAt]
  have below : Spec.LoadsBelow (generatedInput t 3 2 (3 / 5) exampleTrack true).n loads 1000 := by
    intro s i _ d
    have : Spec.loadWork (Spec.loadsAt loads s) (Spec.unitField i d) =
        (Spec.unitField i d : Spec.NodalField ℝ) 0 1 * (if s % 2 = 0 then -1000 else 0) := by
      unfold Spec.loadWork Spec.loadsAt
      simp [hloads]
    rw [this]
    unfold Spec.unitField
    split_ifs <;> norm_num
  obtain ⟨T, hT⟩ : ∃ T : ℕ, c * q ^ T * (0 + 1000) ≤ 1 / 1000000000 := by
    have lim := ((tendsto_pow_atTop_nhds_zero_of_lt_one q0.le q1).const_mul c).mul_const (0 + 1000)
    have := Metric.tendsto_nhds.mp lim (1 / 1000000000) (by norm_num)
    obtain ⟨T, hT⟩ := this.exists
    refine ⟨T, ?_⟩
    rw [Real.dist_eq, mul_zero, zero_mul, sub_zero] at hT
    exact (le_abs_self _).trans hT.le
  obtain ⟨r, R⟩ := hh.toHeldMoving.hasResults hdt loads (T + 3) 0 0 fit
  obtain ⟨r', R'⟩ := hh.toHeldMoving.hasResults hdt loads (T + 3) (fun i d => if i = 0 ∧ d = 1 then -1 / 100 else 0) 0 fit
  refine ⟨t, ht, _, g.system _ true, T, r, r', R, R', ?_, ?_⟩
  · refine (hc.start loads (1 / 100) _ _ _ _ _ r _ r' (by norm_num) fit (fun i _ d => ?_) R R' T (by omega) (by omega) 0 pos 1).1.trans ?_
    · refine ⟨?_, by simp⟩
      simp only [Pi.zero_apply]
      split_ifs <;> norm_num [abs_le]
    · have : 0 ≤ c * q ^ T := by positivity
      linarith
  · exact (hc.periodic loads 2 1000 0 _ _ _ r (by norm_num) le_rfl fit hP below (fun i _ d => by simp) R T (by omega) 0 pos 1).1.trans hT

end Rose
