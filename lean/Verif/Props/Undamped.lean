/-
C187: vibration about the static displacements.
-/
import Verif.Spec.Undamped
import Verif.Props.Settling

set_option linter.unusedSectionVars false

namespace Rose
open Finset

/-- No damping force takes power. -/
def Undamped (sys : SystemInput ℝ) : Prop := ∀ w, dampingWork sys w w = 0

theorem work_small (N : ℕ) (g : ℕ → ℕ → ℝ) (U : ℕ → ℝ) (ε : ℝ) (hU : ∀ k < N, |U k| ≤ ε) (hε : 0 ≤ ε) :
    matrixWork N g U U ≤ (∑ i ∈ range N, ∑ j ∈ range N, |g i j|) * ε ^ 2 := by
  rw [matrixWork_eq, Finset.sum_mul]
  refine Finset.sum_le_sum fun i hi => ?_
  rw [Finset.mul_sum, Finset.sum_mul]
  refine Finset.sum_le_sum fun j hj => ?_
  have h1 := hU i (mem_range.mp hi)
  have h2 := hU j (mem_range.mp hj)
  calc U i * (g i j * U j) ≤ |U i * (g i j * U j)| := le_abs_self _
    _ = |g i j| * (|U i| * |U j|) := by rw [abs_mul, abs_mul]; ring
    _ ≤ |g i j| * (ε * ε) := by gcongr
    _ = |g i j| * ε ^ 2 := by ring

section
variable {sys : SystemInput ℝ} {dt : ℝ}

/-- Small fields have little energy. -/
theorem HeldMoving.small (h : HeldMoving sys) : ∃ C, 0 ≤ C ∧ ∀ (w v : Spec.NodalField ℝ) (ε : ℝ), Spec.Admissible sys w → Spec.Admissible sys v →
    0 ≤ ε → (∀ i < sys.n, ∀ d, |w i d| ≤ ε ∧ |v i d| ≤ ε) → Spec.mechanicalEnergy sys w v ≤ C * ε ^ 2 := by
  set c : SystemRun ℝ := ⟨sys, []⟩ with hc
  obtain ⟨st, hst, o⟩ := h.moves []
  have hst : c.input.initialise freshFlags = .ok st := hst
  obtain ⟨r1, r2, -⟩ := C106_representable c.input freshFlags st hst
  refine ⟨1 / 2 * (∑ i ∈ range st.N, ∑ j ∈ range st.N, |st.M i j|) + 1 / 2 * ∑ i ∈ range st.N, ∑ j ∈ range st.N, |st.Kg i j|,
    by positivity, fun w v ε hw hv hε hs => ?_⟩
  obtain ⟨W, hW⟩ := admissible_represents c h.mesh h.aligned st hst w hw
  obtain ⟨V, hV⟩ := admissible_represents c h.mesh h.aligned st hst v hv
  have e1 := (C106_work_partial c.input freshFlags h.mesh h.aligned st hst W W w w hW hW).1
  have e2 := (C106_work_partial c.input freshFlags h.mesh h.aligned st hst V V v v hV hV).2.1
  have b1 : ∀ k < st.N, |W k| ≤ ε := by
    intro k hk
    obtain ⟨p, hp, -⟩ := r1 k hk
    rw [hW.value p.1 p.2 k hp]
    exact (hs _ (r2 _ _ _ hp).1 _).1
  have b2 : ∀ k < st.N, |V k| ≤ ε := by
    intro k hk
    obtain ⟨p, hp, -⟩ := r1 k hk
    rw [hV.value p.1 p.2 k hp]
    exact (hs _ (r2 _ _ _ hp).1 _).2
  have k1 := work_small st.N st.Kg W ε b1 hε
  have k2 := work_small st.N st.M V ε b2 hε
  have e1 : matrixWork st.N st.Kg W W = Spec.systemWork AssemblyPart.stiffness sys.parts w w := e1
  have e2 : matrixWork st.N st.M V V = Spec.systemWork AssemblyPart.mass sys.parts v v := e2
  unfold Spec.mechanicalEnergy
  rw [← e1, ← e2]
  linarith

/-- In a step under constant loads the energy of the vibration changes by what the damping takes. -/
theorem HeldMoving.vibration_step (h : HeldMoving sys) (hdt : 0 < dt) {s : ℕ} {loads : List (TimedLoad ℝ)} {timesS times : ℕ}
    {rs r : List (List (NodeRow ℝ))} {u₀ v₀ : Spec.NodalField ℝ} (c : Spec.ConstantFrom sys dt s loads timesS rs times u₀ v₀ r) {t : ℕ}
    (hs : s ≤ t) (ht : t + 1 < times) :
    ∃ w, Spec.vibration sys r rs s (t + 1) = Spec.vibration sys r rs s t - dt * dampingWork sys w w ∧ 0 ≤ dampingWork sys w w := by
  have L := h.linear hdt
  obtain ⟨f, -⟩ := h.results hdt c.fits c.dynamic
  obtain ⟨ha, heq⟩ := h.still.equilibrium c.fits c.static c.covered
  obtain ⟨lost, h0, hlost, hE⟩ := L.energy loads times u₀ v₀ r c.fits c.dynamic t ht
  refine ⟨fun i d => (Spec.shapeRate r t i d + Spec.shapeRate r (t + 1) i d) / 2, ?_, ?_⟩
  · have dev : ∀ τ < times, Spec.vibration sys r rs s τ = Spec.mechanicalEnergy sys (Spec.shape r τ) (Spec.shapeRate r τ) -
        Spec.loadWork (Spec.loadsAt loads s) (Spec.shape r τ) +
        1 / 2 * Spec.systemWork AssemblyPart.stiffness sys.parts (Spec.shape rs s) (Spec.shape rs s) := by
      intro τ hτ
      have e1 := heq _ (f.admissible τ hτ).1
      unfold Spec.vibration Spec.mechanicalEnergy
      rw [show Spec.deviation r rs s τ = fun i d => Spec.shape r τ i d + -1 * Spec.shape rs s i d by
        funext i d; unfold Spec.deviation; ring, h.still.work_combine, systemWork_combine, systemWork_combine,
        h.still.work_symm (Spec.shape rs s) (Spec.shape r τ), e1]
      ring
    rw [dev _ ht, dev _ (by omega)]
    have hload : Spec.loadWork (Spec.loadsAt loads s) (fun i d => Spec.shape r (t + 1) i d - Spec.shape r t i d) =
        Spec.loadWork (Spec.loadsAt loads s) (Spec.shape r (t + 1)) - Spec.loadWork (Spec.loadsAt loads s) (Spec.shape r t) := by
      have := loadWork_combine (Spec.loadsAt loads s) (-1) (Spec.shape r (t + 1)) (Spec.shape r t)
      rw [show (fun i d => Spec.shape r (t + 1) i d - Spec.shape r t i d) = fun i d => Spec.shape r (t + 1) i d + -1 * Spec.shape r t i d by
        funext i d; ring, this]
      ring
    rw [c.constant t hs, c.constant (t + 1) (by omega), hload] at hE
    have hl : lost = dt * dampingWork sys (fun i d => (Spec.shapeRate r t i d + Spec.shapeRate r (t + 1) i d) / 2)
        (fun i d => (Spec.shapeRate r t i d + Spec.shapeRate r (t + 1) i d) / 2) := hlost
    rw [← hl]
    linarith
  · have hl : lost = dt * dampingWork sys (fun i d => (Spec.shapeRate r t i d + Spec.shapeRate r (t + 1) i d) / 2)
        (fun i d => (Spec.shapeRate r t i d + Spec.shapeRate r (t + 1) i d) / 2) := hlost
    rw [hl] at h0
    exact nonneg_of_mul_nonneg_right h0 hdt

theorem HeldMoving.deviation_admissible (h : HeldMoving sys) (hdt : 0 < dt) {s : ℕ} {loads : List (TimedLoad ℝ)} {timesS times : ℕ}
    {rs r : List (List (NodeRow ℝ))} {u₀ v₀ : Spec.NodalField ℝ} (c : Spec.ConstantFrom sys dt s loads timesS rs times u₀ v₀ r) {t : ℕ}
    (ht : t < times) : Spec.Admissible sys (Spec.deviation r rs s t) ∧ Spec.Admissible sys (Spec.shapeRate r t) := by
  obtain ⟨f, -⟩ := h.results hdt c.fits c.dynamic
  obtain ⟨ha, -⟩ := h.still.equilibrium c.fits c.static c.covered
  obtain ⟨a1, a2, -⟩ := f.admissible t ht
  refine ⟨?_, a2⟩
  rw [show Spec.deviation r rs s t = fun i d => Spec.shape r t i d + -1 * Spec.shape rs s i d by funext i d; unfold Spec.deviation; ring]
  exact admissible_combine a1 ha (-1)

theorem HeldMoving.vibrationDecays (h : HeldMoving sys) (hdt : 0 < dt) : Spec.VibrationDecays sys dt := by
  intro s loads timesS rs times u₀ v₀ r c t t' hs htt ht'
  constructor
  · obtain ⟨a1, a2⟩ := h.deviation_admissible hdt c ht'
    have p1 := (h.positive _ a1).2.2.1
    have p2 := (h.positive _ a2).1.1
    unfold Spec.vibration Spec.mechanicalEnergy
    linarith
  · induction t', htt using Nat.le_induction with
    | base => exact le_rfl
    | succ n hn ih =>
      obtain ⟨w, e, hw⟩ := h.vibration_step hdt c (t := n) (by omega) ht'
      have := ih (by omega)
      have := mul_nonneg hdt.le hw
      linarith

theorem HeldMoving.neverSettles (h : HeldMoving sys) (hu : Undamped sys) (hdt : 0 < dt) : Spec.NeverSettles sys dt := by
  have keeps : ∀ s loads timesS rs times u₀ v₀ r, Spec.ConstantFrom sys dt s loads timesS rs times u₀ v₀ r → ∀ t, s ≤ t → t < times →
      Spec.vibration sys r rs s t = Spec.vibration sys r rs s s := by
    intro s loads timesS rs times u₀ v₀ r c t hs ht
    induction t, hs using Nat.le_induction with
    | base => rfl
    | succ n hn ih =>
      obtain ⟨w, e, -⟩ := h.vibration_step hdt c (t := n) (by omega) ht
      rw [e, hu w, ih (by omega)]
      ring
  refine ⟨keeps, ?_⟩
  intro s loads timesS rs times₁ u₀ v₀ r₁ c hs1 hne
  have L := h.linear hdt
  obtain ⟨C, hC, small⟩ := h.small
  obtain ⟨a1, a2⟩ := h.deviation_admissible hdt c hs1
  have p1 := (h.positive _ a1).2.2
  have p2 := (h.positive _ a2).1
  have hpos : 0 < Spec.vibration sys r₁ rs s s := by
    have h0 : 0 ≤ Spec.vibration sys r₁ rs s s := by
      unfold Spec.vibration Spec.mechanicalEnergy
      linarith [p1.1, p2.1]
    refine lt_of_le_of_ne h0 fun e => ?_
    unfold Spec.vibration Spec.mechanicalEnergy at e
    have z1 := p1.2 (by linarith [p1.1, p2.1])
    have z2 := p2.2 (by linarith [p1.1, p2.1])
    obtain ⟨i, hi, d, hd | hd⟩ := hne
    · have := congrFun (z1 i hi) d
      unfold Spec.deviation at this
      exact hd (sub_eq_zero.mp this)
    · exact hd (congrFun (z2 i hi) d)
  set E := Spec.vibration sys r₁ rs s s with hE
  have hC1 : 0 < C + 1 := by linarith
  set ε := √(E / (2 * (C + 1))) with hεdef
  have hε : 0 < ε := Real.sqrt_pos.mpr (by positivity)
  have hε2 : ε ^ 2 = E / (2 * (C + 1)) := Real.sq_sqrt (by positivity)
  refine ⟨ε, hε, fun times r R t hst ht => ?_⟩
  have c' : Spec.ConstantFrom sys dt s loads timesS rs times u₀ v₀ r := ⟨c.fits, c.constant, c.static, c.covered, R⟩
  by_contra hno
  push Not at hno
  have same : Spec.vibration sys r rs s s = E := by
    have hsr := L.causal loads loads times times₁ u₀ v₀ r r₁ c.fits c.fits R c.dynamic s (by omega) hs1 fun _ _ => rfl
    obtain ⟨f, -⟩ := h.results hdt c.fits R
    obtain ⟨f₁, -⟩ := h.results hdt c.fits c.dynamic
    have e1 : Spec.shape r s = Spec.shape r₁ s := by
      funext i
      by_cases hi : i < sys.n
      · exact (hsr i hi).1
      · rw [(f.outside s (by omega) i (by omega)).1, (f₁.outside s hs1 i (by omega)).1]
    have e2 : Spec.shapeRate r s = Spec.shapeRate r₁ s := by
      funext i
      by_cases hi : i < sys.n
      · exact (hsr i hi).2.1
      · rw [(f.outside s (by omega) i (by omega)).2.1, (f₁.outside s hs1 i (by omega)).2.1]
    rw [hE]
    unfold Spec.vibration Spec.deviation
    rw [e1, e2]
  obtain ⟨b1, b2⟩ := h.deviation_admissible hdt c' ht
  have le := small _ _ ε b1 b2 hε.le fun i hi d => hno i hi d
  have key := keeps s loads timesS rs times u₀ v₀ r c' t hst ht
  rw [same] at key
  have le : Spec.vibration sys r rs s t ≤ C * ε ^ 2 := le
  rw [key, hε2] at le
  have : C * (E / (2 * (C + 1))) < E := by
    rw [mul_div_assoc', div_lt_iff₀ (by positivity)]
    nlinarith
  linarith

end

/-! ### Tracks -/

theorem undamped_parts {v : TrackValues} {soils : List (RodValues ℝ)} (hu : v.Undamped soils) {T : TrackParts ℝ} (hne : T.NonEmpty)
    (hpad : T.pad = v.pad) (hsoil : ∀ s ∈ T.soils, s.1 ∈ soils) (w : Spec.NodalField ℝ) :
    Spec.systemWork AssemblyPart.damping T.parts w w = 0 := by
  rw [track_damping T hne, rodWork_undamped _ (by rw [hpad]; exact hu.2.1), zero_add]
  apply List.sum_eq_zero
  intro y hy
  obtain ⟨q, hq, rfl⟩ := List.mem_map.mp hy
  exact rodWork_undamped _ (hu.2.2 q.1 (hsoil q hq)) _ _

theorem undamped_of {sys : SystemInput ℝ} (h1 : sys.isRayleigh = false) (h2 : ∀ w, Spec.systemWork AssemblyPart.damping sys.parts w w = 0) : Undamped sys := by
  intro w
  unfold dampingWork Spec.rayleighWork
  rw [h2, h1]
  simp

/-- **C187** For every generated track with at least two sleepers on its boundaries and average acceleration steps of any size: under loads that stay
constant the energy of the vibration about the static displacements never grows, and without any damping it stays the same and the results stay
away from the static ones, unless they start there at rest. -/
theorem C187_track {H : Type*} [DecidableEq H] (hash : (Fin 3 → ℝ) → H) (n r : ℕ) (hn : 2 ≤ n) (hr : 0 < r) (d h : ℝ)
    (hd : 1 / 1000000000 < d / r) (hh : 1 / 1000000000 < h) (t : HorizontalTrack ℝ)
    (ht : createHorizontalTrack hash n r d h = .ok t) (v : TrackValues) (hv : v.Valid) (hm : v.NonNeg) (hR : v.Rayleigh) (dt : ℝ) (hdt : 0 < dt) :
    ∃ inp, t.system v true = .ok inp ∧ Spec.VibrationDecays inp dt ∧ (v.Undamped [v.soil] → Spec.NeverSettles inp dt) := by
  have g : Generated hash n r d h t := ⟨by nlinarith, hd, hh, ht⟩
  have hh := g.heldMoving hn hr hv hm hR
  refine ⟨_, g.system v true, hh.vibrationDecays hdt, fun hu => hh.neverSettles (undamped_of hu.1 fun w => ?_) hdt⟩
  refine undamped_parts hu (g.nonEmpty v) rfl (fun s hs => ?_) w
  simp only [generatedParts, List.mem_singleton] at hs
  subst hs
  exact List.mem_singleton_self _

section combined
variable {H : Type*} [DecidableEq H] (hash : (Fin 3 → ℝ) → H) {r k : ℕ} {d : ℝ} {segments : List (ℕ × ℝ)}

/-- **C187** The same for every track that is combined from segments. -/
theorem C187_combined (g : GoodSegments r d segments) (length : ℝ) (v : TrackValues) (soils : List (RodValues ℝ))
    (hs : segments.length ≤ soils.length) (hv : ∀ w ∈ soils, ({ v with soil := w } : TrackValues).Valid)
    (hm : ∀ w ∈ soils, ({ v with soil := w } : TrackValues).NonNeg) (hR : v.Rayleigh) (dt : ℝ) (hdt : 0 < dt) :
    ∃ c inp, combinedTrack hash r d segments = .ok c ∧ c.system length v soils true = .ok inp ∧ Spec.VibrationDecays inp dt ∧
      (v.Undamped soils → Spec.NeverSettles inp dt) := by
  obtain ⟨c, hc, s, -, -, -, -, -, -, hlen, -⟩ := C136_structure hash g
  have hs' : c.soils.length ≤ soils.length := by omega
  obtain ⟨a, b, ha, hb, hsys⟩ := s.system length v soils hs' true
  have hx := List.mem_of_head? ha
  have hy := List.mem_of_getLast? hb
  have hh := s.heldMoving v soils hs' hv hm hR a b hx hy
  refine ⟨c, _, hc, hsys, hh.vibrationDecays hdt, fun hu => hh.neverSettles (undamped_of hu.1 fun w => ?_) hdt⟩
  exact undamped_parts hu (s.nonEmpty v soils) rfl (c.partsOf_soils _ v soils) w

/-- **C187** The same with a hinge in the rail, of a fixity factor greater than 0 and at most 1. -/
theorem C187_hinged (g : GoodSegments r d segments) (length : ℝ) (hlength : 0 < length) (v : TrackValues)
    (soils : List (RodValues ℝ)) (hs : segments.length ≤ soils.length) (hv : ∀ w ∈ soils, ({ v with soil := w } : TrackValues).Valid)
    (hm : ∀ w ∈ soils, ({ v with soil := w } : TrackValues).NonNeg) (hR : v.Rayleigh)
    (hk : 2 ≤ k) (hkm : k + 3 ≤ railCount r segments) (near : 1 / 100000000 + 1 / 100000 * ((k : ℝ) * (d / r)) < d / r)
    (f : ℝ) (hf : 0 < f) (hf1 : f ≤ 1) (dt : ℝ) (hdt : 0 < dt) :
    ∃ c inp, combinedTrack hash r d segments = .ok c ∧ c.hingedSystem length v soils f (k * (d / r)) true = .ok inp ∧
      Spec.VibrationDecays inp dt ∧ (v.Undamped soils → Spec.NeverSettles inp dt) := by
  obtain ⟨c, hc, sound, -, -, -, -, -, -, hlen, -⟩ := C136_structure hash g
  have hs' : c.soils.length ≤ soils.length := by omega
  obtain ⟨w, hw⟩ := sound.some_soil hs'
  obtain ⟨σ, hσ, hσ0⟩ := hingeStiffness_pos (hv w hw).E (hv w hw).I hlength hf hf1
  obtain ⟨a, b, ha, hb, hsys⟩ := sound.hingedSystem length v soils hs' true hk hkm near f σ hσ
  have hx := List.mem_of_head? ha
  have hy := List.mem_of_getLast? hb
  have hh := sound.hinged_heldMoving v soils hs' hv hm hR a b hx hy hk hkm (σ / 2) (fun h => by linarith)
  have hg := sound.hinged v soils hs' hv a b hx hy true hk hkm (σ / 2)
  refine ⟨c, _, hc, hsys, hh.vibrationDecays hdt, fun hu => hh.neverSettles (undamped_of hu.1 fun w => ?_) hdt⟩
  show Spec.systemWork AssemblyPart.damping ((c.partsOf (d / r) v soils).hinged (c.cutAt k (σ / 2))) w w = 0
  rw [hinged_work_same AssemblyPart.damping _ _ hg.inner hg.rail (fun _ => 0) (fun _ _ _ => rfl) (fun _ _ _ => rfl)]
  exact undamped_parts hu (sound.nonEmpty v soils) rfl (c.partsOf_soils _ v soils) w

/-- **C187** The same with a free pin, if there are three or more sleepers and one of them is behind the pin. -/
theorem C187_pinned (g : GoodSegments r d segments) (length : ℝ) (v : TrackValues)
    (soils : List (RodValues ℝ)) (hs : segments.length ≤ soils.length) (hv : ∀ w ∈ soils, ({ v with soil := w } : TrackValues).Valid)
    (hm : ∀ w ∈ soils, ({ v with soil := w } : TrackValues).NonNeg) (hR : v.Rayleigh) (h3 : 3 ≤ (segments.map Prod.fst).sum)
    (hk : 2 ≤ k) (hkm : k + 3 ≤ railCount r segments) (hkr : k + r < railCount r segments)
    (near : 1 / 100000000 + 1 / 100000 * ((k : ℝ) * (d / r)) < d / r) (dt : ℝ) (hdt : 0 < dt) :
    ∃ c inp, combinedTrack hash r d segments = .ok c ∧ c.hingedSystem length v soils 0 (k * (d / r)) true = .ok inp ∧
      Spec.VibrationDecays inp dt ∧ (v.Undamped soils → Spec.NeverSettles inp dt) := by
  obtain ⟨c, hc, sound, -, -, -, -, -, -, hlen, -⟩ := C136_structure hash g
  have hs' : c.soils.length ≤ soils.length := by omega
  obtain ⟨a, b, ha, hb, hsys⟩ := sound.hingedSystem length v soils hs' true hk hkm near 0 0 (hingeStiffness_zero _ _ _)
  have hx := List.mem_of_head? ha
  have hy := List.mem_of_getLast? hb
  have hh := sound.hinged_heldMoving v soils hs' hv hm hR a b hx hy hk hkm (0 / 2)
    (fun _ => Or.inl (combined_holdsPin hash g v soils h3 (by omega) hkr c hc))
  have hg := sound.hinged v soils hs' hv a b hx hy true hk hkm (0 / 2)
  refine ⟨c, _, hc, hsys, hh.vibrationDecays hdt, fun hu => hh.neverSettles (undamped_of hu.1 fun w => ?_) hdt⟩
  show Spec.systemWork AssemblyPart.damping ((c.partsOf (d / r) v soils).hinged (c.cutAt k (0 / 2))) w w = 0
  rw [hinged_work_same AssemblyPart.damping _ _ hg.inner hg.rail (fun _ => 0) (fun _ _ _ => rfl) (fun _ _ _ => rfl)]
  exact undamped_parts hu (sound.nonEmpty v soils) rfl (c.partsOf_soils _ v soils) w

end combined

/-- The undamped track of three sleepers, struck at its second rail node: it vibrates for ever. -/
example : ∃ t, createHorizontalTrack (fun p : Fin 3 → ℝ => p) 3 2 (3 / 5) 1 = .ok t ∧ ∃ inp, t.system undampedTrack true = .ok inp ∧
    undampedTrack.Undamped [undampedTrack.soil] ∧ ∃ rs r₁, Spec.ConstantFrom inp (1 / 100) 0 [] 1 rs 5 0 (Spec.unitField (t.position 1) 1) r₁ ∧
      ∃ ε > (0 : ℝ), ∀ times r, Spec.DynamicResults inp [] (1 / 100) times 0 (Spec.unitField (t.position 1) 1) r → ∀ s < times,
        ∃ i < inp.n, ∃ d, ε < |Spec.shape r s i d - Spec.shape rs 0 i d| ∨ ε < |Spec.shapeRate r s i d| := by
  obtain ⟨t, ht, -⟩ := C48_structure (fun p : Fin 3 → ℝ => p) 3 2 (by norm_num) (3 / 5) 1
  have g : Generated (fun p : Fin 3 → ℝ => p) 3 2 (3 / 5) 1 t := ⟨by norm_num, by norm_num, by norm_num, ht⟩
  have h := exampleTrack_valid
  have hv : undampedTrack.Valid := ⟨h.E, h.nu, h.rho, h.A, h.I, h.kappa, h.s1, h.s2, h.pad, h.soil⟩
  have hm : undampedTrack.NonNeg := by constructor <;> simp [undampedTrack, exampleTrack]
  have hR : undampedTrack.Rayleigh := by constructor <;> simp [undampedTrack]
  have hu : undampedTrack.Undamped [undampedTrack.soil] := ⟨rfl, by simp [undampedTrack], by simp [undampedTrack]⟩
  have hdt : (0 : ℝ) < 1 / 100 := by norm_num
  obtain ⟨inp, hinp, -, never⟩ := C187_track _ 3 2 (by norm_num) (by norm_num) _ _ (by norm_num) (by norm_num) t ht _ hv hm hR (1 / 100) hdt
  obtain rfl := Except.ok.inj (hinp.symm.trans (g.system undampedTrack true))
  have hh := g.heldMoving (by norm_num) (by norm_num) hv hm hR
  have fit : ∀ l ∈ ([] : List (TimedLoad ℝ)), Spec.LoadFits (generatedInput t 3 2 (3 / 5) undampedTrack true).n l := fun l hl => by simp at hl
  have within : t.position 1 < (generatedInput t 3 2 (3 / 5) undampedTrack true).n := g.position.1 1 (by norm_num)
  have free : ¬ Spec.Removed (generatedInput t 3 2 (3 / 5) undampedTrack true) (t.position 1) 1 := by
    have w := g.rail_work undampedTrack hv hm exampleTrack_railPresent 1 (by norm_num) 1
    rintro (hx | hx | hx)
    · rcases (g.supported true 1 (by norm_num) 1).mp hx with hx | ⟨-, hx, -⟩ <;> omega
    · have := (le_abs_self _).trans hx
      exact absurd w.1 (not_lt.mpr this)
    · have := (le_abs_self _).trans hx
      exact absurd w.2 (not_lt.mpr this)
  have adm : Spec.Admissible (generatedInput t 3 2 (3 / 5) undampedTrack true) (Spec.unitField (t.position 1) 1) := by
    intro i _ d hr
    by_cases e : i = t.position 1 ∧ d = 1
    · exact absurd (e.1 ▸ e.2 ▸ hr) free
    · simp [Spec.unitField, e]
  obtain ⟨rs, S⟩ := hh.still.results _ 1 fit
  obtain ⟨r₁, R⟩ := hh.hasResults hdt _ 5 0 (Spec.unitField (t.position 1) 1) fit
  have c : Spec.ConstantFrom (generatedInput t 3 2 (3 / 5) undampedTrack true) (1 / 100) 0 [] 1 rs 5 0 (Spec.unitField (t.position 1) 1) r₁ :=
    ⟨fit, fun _ _ => rfl, S, by norm_num, R⟩
  have st := (hh.linear hdt).start [] 5 0 (Spec.unitField (t.position 1) 1) r₁ fit (fun _ _ _ _ => rfl) adm R (by norm_num) _ within
  obtain ⟨ε, hε, away⟩ := (never hu).away 0 [] 1 rs 5 0 _ r₁ c (by norm_num)
    ⟨t.position 1, within, 1, Or.inr (by rw [st.2]; simp [Spec.unitField])⟩
  exact ⟨t, ht, _, hinp, hu, rs, r₁, c, ε, hε, fun times r R s hs => away times r R s (Nat.zero_le _) hs⟩

end Rose
