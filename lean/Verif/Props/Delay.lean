/-
C193: loads that start later. C194: calculations that run backwards.
-/
import Verif.Spec.Delay
import Verif.Props.Resonance

set_option linter.unusedSectionVars false

namespace Rose
open Finset

section
variable {sys : SystemInput ℝ} {dt : ℝ} {F F' : ℕ → Spec.NodalField ℝ → ℝ} {times : ℕ} {U V A U' V' A' : ℕ → Spec.NodalField ℝ}

/-- Only the work in admissible fields matters. -/
theorem FieldSteps.congr (f : FieldSteps sys F dt times U V A) (hF : ∀ s < times, ∀ w, Spec.Admissible sys w → F' s w = F s w) :
    FieldSteps sys F' dt times U V A :=
  ⟨f.admissible, f.outside, fun s hs w hw => by rw [hF s hs w hw]; exact f.balance s hs w hw, f.displacement, f.velocity⟩

theorem HeldMoving.motion_zero (h : HeldMoving sys) (w : Spec.NodalField ℝ) : motionWork sys w 0 0 0 = 0 := by
  have z := h.motion_combine (-1) w 0 0 0 0 0 0
  rw [show (fun (i : ℕ) (e : Fin 3) => (0 : Spec.NodalField ℝ) i e + -1 * (0 : Spec.NodalField ℝ) i e) = 0 by funext i e; simp] at z
  linarith

theorem HeldMoving.delays (h : HeldMoving sys) (hdt : 0 < dt) : Spec.DelaysResults sys dt := by
  intro loads later P times times' r r' hP ht ht' hl hl' hd R R'
  obtain ⟨f, z⟩ := h.results hdt hl R
  obtain ⟨f', z'⟩ := h.results hdt hl' R'
  obtain ⟨u0, v0⟩ := f.start_eq ht fun i hi d hr => z i hi d hr ht
  obtain ⟨u0', v0'⟩ := f'.start_eq (by omega) fun i hi d hr => z' i hi d hr (by omega)
  obtain ⟨d1, d2⟩ := hd
  have at0 : ∀ w, Spec.loadWork (Spec.loadsAt later P) w = Spec.loadWork (Spec.loadsAt loads 0) w := fun w => by
    have := d2 0 w
    rwa [Nat.zero_add] at this
  constructor
  · intro same w hw
    obtain ⟨p1, p2, p3⟩ := (f'.upTo (t := P) (by omega)).vanish h hdt (fun s hs w => d1 s hs w) (fun _ => u0') (fun _ => v0') (P - 1) (by omega)
    have whole : ∀ x : Spec.NodalField ℝ, (x = Spec.shape r' P ∨ x = Spec.shapeRate r' P) → (∀ i < sys.n, x i = 0) → x = 0 := by
      intro x hx hz
      funext i
      by_cases hi : i < sys.n
      · exact hz i hi
      · obtain ⟨b1, b2, -⟩ := f'.outside P ht' i (by omega)
        rcases hx with rfl | rfl
        · exact b1
        · exact b2
    have rep := fun i hi => same 0 ht (by omega) i hi
    simp only [Nat.zero_add, u0, v0] at rep
    have uP := whole _ (Or.inl rfl) fun i hi => (rep i hi).1
    have vP := whole _ (Or.inr rfl) fun i hi => (rep i hi).2.1
    have aP : Spec.shapeAcceleration r' P = 0 := by
      funext i d
      have k := f'.velocity (P - 1) (by omega) i d
      rw [show P - 1 + 1 = P by omega, vP, p2, p3] at k
      simp only [Pi.zero_apply, zero_add] at k ⊢
      have : dt * Spec.shapeAcceleration r' P i d = 0 := by linarith
      rcases mul_eq_zero.mp this with h | h
      · exact absurd h hdt.ne'
      · exact h
    have b := f'.balance P ht' w hw
    rw [uP, vP, aP, h.motion_zero, at0] at b
    exact b.symm
  · intro h0 t htt htP i hi
    have quiet := (f'.upTo (t := P + 1) ht').congr (F' := fun _ _ => 0) (fun s hs w hw => by
      rcases Nat.lt_succ_iff_lt_or_eq.mp hs with hs | rfl
      · exact (d1 s hs w).symm
      · rw [at0, h0 w hw])
    obtain ⟨p1, p2, -⟩ := quiet.vanish h hdt (fun s hs w => rfl) (fun _ => u0') (fun _ => v0') P (by omega)
    obtain ⟨a, b, c⟩ := ((f'.later P).upTo (t := t + 1) (by omega)).agree h hdt (f.upTo (t := t + 1) htt)
      (fun s _ => by funext w; exact d2 s w) (by rw [Nat.zero_add, p1, u0]) (by rw [Nat.zero_add, p2, v0]) t (by omega)
    exact ⟨congrFun a i, congrFun b i, congrFun c i⟩

/-- A field that loses no power has no damping force in any admissible field. -/
theorem HeldMoving.damping_zero (h : HeldMoving sys) {w u : Spec.NodalField ℝ} (hw : Spec.Admissible sys w) (hu : Spec.Admissible sys u)
    (h0 : dampingWork sys u u = 0) : dampingWork sys w u = 0 := by
  by_contra hne
  have key : ∀ k : ℝ, 0 ≤ dampingWork sys w w + 2 * k * dampingWork sys w u := fun k => by
    have p := (h.positive (fun i d => w i d + k * u i d) fun i hi d hr => by
      show w i d + k * u i d = 0
      rw [hw i hi d hr, hu i hi d hr]
      ring).2.1
    rw [h.damp_combine, dampingWork_combine, dampingWork_combine, h0, h.damp_symm u w] at p
    linarith
  have k := key (-(dampingWork sys w w + 1) / (2 * dampingWork sys w u))
  rw [show 2 * (-(dampingWork sys w w + 1) / (2 * dampingWork sys w u)) * dampingWork sys w u = -(dampingWork sys w w + 1) by field_simp] at k
  linarith

theorem Undamped.nothing (hu : Undamped sys) : Spec.NothingDamps sys := fun w _ _ => hu w

theorem HeldMoving.runsBackwards (h : HeldMoving sys) (hu : Spec.NothingDamps sys) (hdt : 0 < dt) : Spec.RunsBackwards sys dt := by
  intro loads back T times times' u₀ v₀ r r' hT hl hl' hback R R' t ht ht' i hi d
  obtain ⟨f, -⟩ := h.results hdt hl R
  obtain ⟨f', z'⟩ := h.results hdt hl' R'
  have neg : ∀ w : Spec.NodalField ℝ, Spec.Admissible sys w → Spec.Admissible sys fun i d => - w i d := fun w hw i hi d hr => by
    show - w i d = 0
    rw [hw i hi d hr, neg_zero]
  have g : FieldSteps sys (fun s w => Spec.loadWork (Spec.loadsAt back s) w) dt (t + 1) (fun s => Spec.shape r (T - s))
      (fun s i d => - Spec.shapeRate r (T - s) i d) (fun s => Spec.shapeAcceleration r (T - s)) := by
    refine ⟨fun s hs => ?_, fun s hs i hi => ?_, fun s hs w hw => ?_, fun s hs i d => ?_, fun s hs i d => ?_⟩
    · obtain ⟨a, b, c⟩ := f.admissible (T - s) (by omega)
      exact ⟨a, neg _ b, c⟩
    · obtain ⟨a, b, c⟩ := f.outside (T - s) (by omega) i hi
      refine ⟨a, ?_, c⟩
      funext d
      rw [b]
      simp
    · rw [hback s (by omega), ← f.balance (T - s) (by omega) w hw]
      unfold motionWork
      have hV := (f.admissible (T - s) (by omega)).2.1
      have z := hu _ hV fun i hi => (f.outside (T - s) (by omega) i hi).2.1
      have e : dampingWork sys w (fun i d => - Spec.shapeRate r (T - s) i d) = - dampingWork sys w (Spec.shapeRate r (T - s)) := by
        have k := h.damp_combine (-2) w (Spec.shapeRate r (T - s)) (Spec.shapeRate r (T - s))
        rw [show (fun i d => Spec.shapeRate r (T - s) i d + -2 * Spec.shapeRate r (T - s) i d) = fun i d => - Spec.shapeRate r (T - s) i d by
          funext i d; ring] at k
        rw [k]
        ring
      rw [e, h.damping_zero hw hV z, neg_zero]
    · have k := f.displacement (T - (s + 1)) (by omega) i d
      have k' := f.velocity (T - (s + 1)) (by omega) i d
      rw [show T - (s + 1) + 1 = T - s by omega] at k k'
      rw [k, k']
      ring
    · have k' := f.velocity (T - (s + 1)) (by omega) i d
      rw [show T - (s + 1) + 1 = T - s by omega] at k'
      rw [k']
      ring
  have start : Spec.shape r' 0 = Spec.shape r T ∧ Spec.shapeRate r' 0 = fun i d => - Spec.shapeRate r T i d := by
    obtain ⟨a, b, -⟩ := f.admissible T hT
    obtain ⟨a', b', -⟩ := f'.admissible 0 (by omega)
    constructor <;> funext j e
    · by_cases hj : j < sys.n
      · by_cases hr : Spec.Removed sys j e
        · rw [a j hj e hr, a' j hj e hr]
        · exact (z' j hj e hr (by omega)).1
      · rw [(f.outside T hT j (by omega)).1, (f'.outside 0 (by omega) j (by omega)).1]
    · by_cases hj : j < sys.n
      · by_cases hr : Spec.Removed sys j e
        · rw [b j hj e hr, b' j hj e hr, neg_zero]
        · exact (z' j hj e hr (by omega)).2
      · rw [(f.outside T hT j (by omega)).2.1, (f'.outside 0 (by omega) j (by omega)).2.1]
        simp
  obtain ⟨a, b, c⟩ := (f'.upTo (t := t + 1) ht').agree h hdt g (fun _ _ => rfl) start.1 start.2 t (by omega)
  exact ⟨congrFun (congrFun a i) d, congrFun (congrFun b i) d, congrFun (congrFun c i) d⟩

/-- A calculation can be run backwards only if nothing damps: otherwise its first acceleration differs. -/
theorem HeldMoving.runsBackwards_iff (h : HeldMoving sys) (hdt : 0 < dt) : Spec.RunsBackwards sys dt ↔ Spec.NothingDamps sys := by
  refine ⟨fun back w hw ho => ?_, fun hu => h.runsBackwards hu hdt⟩
  have fit : ∀ l ∈ ([] : List (TimedLoad ℝ)), Spec.LoadFits sys.n l := fun l hl => by simp at hl
  obtain ⟨r, R⟩ := h.hasResults hdt [] 1 0 w fit
  obtain ⟨r', R'⟩ := h.hasResults hdt [] 1 (Spec.shape r 0) (fun i d => - Spec.shapeRate r 0 i d) fit
  obtain ⟨f, z⟩ := h.results hdt fit R
  obtain ⟨f', -⟩ := h.results hdt fit R'
  have V0 : Spec.shapeRate r 0 = w := by
    funext i d
    by_cases hi : i < sys.n
    · by_cases hr : Spec.Removed sys i d
      · rw [(f.admissible 0 one_pos).2.1 i hi d hr, hw i hi d hr]
      · exact (z i hi d hr one_pos).2
    · rw [(f.outside 0 one_pos i (by omega)).2.1, ho i (by omega)]
  have same := back [] [] 0 1 1 0 w r r' one_pos fit fit (fun t ht w => by rw [Nat.le_zero.mp ht]) R R' 0 le_rfl one_pos
  have whole : Spec.shape r' 0 = Spec.shape r 0 ∧ Spec.shapeRate r' 0 = (fun i d => - w i d) ∧
      Spec.shapeAcceleration r' 0 = Spec.shapeAcceleration r 0 := by
    refine ⟨?_, ?_, ?_⟩ <;> funext i d <;> by_cases hi : i < sys.n
    · exact (same i hi d).1
    · rw [(f'.outside 0 one_pos i (by omega)).1, (f.outside 0 one_pos i (by omega)).1]
    · rw [← V0]; exact (same i hi d).2.1
    · rw [(f'.outside 0 one_pos i (by omega)).2.1, ho i (by omega)]; simp
    · exact (same i hi d).2.2
    · rw [(f'.outside 0 one_pos i (by omega)).2.2, (f.outside 0 one_pos i (by omega)).2.2]
  have b := f.balance 0 one_pos w hw
  have b' := f'.balance 0 one_pos w hw
  rw [whole.1, whole.2.1, whole.2.2] at b'
  rw [V0] at b
  have e : dampingWork sys w (fun i d => - w i d) = - dampingWork sys w w := by
    have k := h.damp_combine (-2) w w w
    rw [show (fun i d => w i d + -2 * w i d) = fun i d => - w i d by funext i d; ring] at k
    rw [k]
    ring
  unfold motionWork at b b'
  rw [e] at b'
  show dampingWork sys w w = 0
  have b2 := b.trans b'.symm
  linarith

/-- Rayleigh damping of a positive ratio cannot be run backwards. -/
theorem HeldDamped.oneWay (h : HeldDamped sys) (hdt : 0 < dt) (some : Spec.SomethingMoves sys) : ¬ Spec.RunsBackwards sys dt := by
  intro back
  obtain ⟨i, hi, d, hr⟩ := some
  have adm : Spec.Admissible sys (Spec.unitField i d) := by
    intro j _ e hx
    by_cases hje : j = i ∧ e = d
    · exact absurd (hje.1 ▸ hje.2 ▸ hx) hr
    · simp [Spec.unitField, hje]
  have z := (h.toHeldMoving.runsBackwards_iff hdt).mp back _ adm fun j hj => by
    funext e
    have : j ≠ i := by omega
    simp [Spec.unitField, this]
  obtain ⟨⟨m, -⟩, -, k, k0⟩ := h.toHeldMoving.positive _ adm
  have c := h.dampers _ adm
  have hr := h.ratio; have h1 := h.w1; have h2 := h.w2
  unfold Spec.rayleighWork at z
  rw [if_pos h.isRayleigh] at z
  have p1 : 0 < 2 * sys.ratio * sys.w1 * sys.w2 / (sys.w1 + sys.w2) := by positivity
  have p2 : 0 < 2 * sys.ratio / (sys.w1 + sys.w2) := by positivity
  have q1 := mul_nonneg p1.le m
  have q2 := mul_nonneg p2.le k
  have q : 2 * sys.ratio / (sys.w1 + sys.w2) *
      Spec.systemWork AssemblyPart.stiffness sys.parts (Spec.unitField i d) (Spec.unitField i d) = 0 := by linarith
  have := congrFun (k0 ((mul_eq_zero.mp q).resolve_left p2.ne') i hi) d
  simp [Spec.unitField] at this

end

/-! ### Tracks -/

/-- **C193** For every generated track with at least two sleepers on its boundaries and average acceleration steps of any size: from rest, a delay of
all loads delays the results exactly if the first index has no load. -/
theorem C193_track {H : Type*} [DecidableEq H] (hash : (Fin 3 → ℝ) → H) (n r : ℕ) (hn : 2 ≤ n) (hr : 0 < r) (d h : ℝ)
    (hd : 1 / 1000000000 < d / r) (hh : 1 / 1000000000 < h) (t : HorizontalTrack ℝ)
    (ht : createHorizontalTrack hash n r d h = .ok t) (v : TrackValues) (hv : v.Valid) (hm : v.NonNeg) (hR : v.Rayleigh)
    (dt : ℝ) (hdt : 0 < dt) : ∃ inp, t.system v true = .ok inp ∧ Spec.DelaysResults inp dt := by
  have g : Generated hash n r d h t := ⟨by nlinarith, hd, hh, ht⟩
  exact ⟨_, g.system v true, (g.heldMoving hn hr hv hm hR).delays hdt⟩

/-- **C194** For every generated track with at least two sleepers on its boundaries and average acceleration steps of any size: the
calculation can be run backwards exactly if no admissible motion loses power; so it can without damping, and it cannot with Rayleigh damping of a
positive ratio. -/
theorem C194_track {H : Type*} [DecidableEq H] (hash : (Fin 3 → ℝ) → H) (n r : ℕ) (hn : 2 ≤ n) (hr : 0 < r) (d h : ℝ)
    (hd : 1 / 1000000000 < d / r) (hh : 1 / 1000000000 < h) (t : HorizontalTrack ℝ)
    (ht : createHorizontalTrack hash n r d h = .ok t) (v : TrackValues) (hv : v.Valid) (hm : v.NonNeg) (hR : v.Rayleigh)
    (dt : ℝ) (hdt : 0 < dt) : ∃ inp, t.system v true = .ok inp ∧ (Spec.RunsBackwards inp dt ↔ Spec.NothingDamps inp) ∧ (v.Undamped [v.soil] → Spec.RunsBackwards inp dt) ∧
      (v.Damped → Spec.SomethingMoves inp → ¬ Spec.RunsBackwards inp dt) := by
  have g : Generated hash n r d h t := ⟨by nlinarith, hd, hh, ht⟩
  have hh := g.heldMoving hn hr hv hm hR
  refine ⟨_, g.system v true, hh.runsBackwards_iff hdt, fun hu => hh.runsBackwards (undamped_of hu.1 fun w => ?_).nothing hdt,
    fun hD => (g.heldDamped hn hr hv hm hR hD).oneWay hdt⟩
  refine undamped_parts hu (g.nonEmpty v) rfl (fun s hs => ?_) w
  simp only [generatedParts, List.mem_singleton] at hs
  subst hs
  exact List.mem_singleton_self _

section combined
variable {H : Type*} [DecidableEq H] (hash : (Fin 3 → ℝ) → H) {r k : ℕ} {d : ℝ} {segments : List (ℕ × ℝ)}

/-- **C193** The same for every track that is combined from segments. -/
theorem C193_combined (g : GoodSegments r d segments) (length : ℝ) (v : TrackValues) (soils : List (RodValues ℝ))
    (hs : segments.length ≤ soils.length) (hv : ∀ w ∈ soils, ({ v with soil := w } : TrackValues).Valid)
    (hm : ∀ w ∈ soils, ({ v with soil := w } : TrackValues).NonNeg) (hR : v.Rayleigh) (dt : ℝ) (hdt : 0 < dt) :
    ∃ c inp, combinedTrack hash r d segments = .ok c ∧ c.system length v soils true = .ok inp ∧ Spec.DelaysResults inp dt := by
  obtain ⟨c, hc, s, -, -, -, -, -, -, hlen, -⟩ := C136_structure hash g
  have hs' : c.soils.length ≤ soils.length := by omega
  obtain ⟨a, b, ha, hb, hsys⟩ := s.system length v soils hs' true
  exact ⟨c, _, hc, hsys, (s.heldMoving v soils hs' hv hm hR a b (List.mem_of_head? ha) (List.mem_of_getLast? hb)).delays hdt⟩

/-- **C193** The same with a hinge in the rail, of a fixity factor greater than 0 and at most 1. -/
theorem C193_hinged (g : GoodSegments r d segments) (length : ℝ) (hlength : 0 < length) (v : TrackValues)
    (soils : List (RodValues ℝ)) (hs : segments.length ≤ soils.length) (hv : ∀ w ∈ soils, ({ v with soil := w } : TrackValues).Valid)
    (hm : ∀ w ∈ soils, ({ v with soil := w } : TrackValues).NonNeg) (hR : v.Rayleigh)
    (hk : 2 ≤ k) (hkm : k + 3 ≤ railCount r segments) (near : 1 / 100000000 + 1 / 100000 * ((k : ℝ) * (d / r)) < d / r)
    (f : ℝ) (hf : 0 < f) (hf1 : f ≤ 1) (dt : ℝ) (hdt : 0 < dt) :
    ∃ c inp, combinedTrack hash r d segments = .ok c ∧ c.hingedSystem length v soils f (k * (d / r)) true = .ok inp ∧
      Spec.DelaysResults inp dt := by
  obtain ⟨c, hc, sound, -, -, -, -, -, -, hlen, -⟩ := C136_structure hash g
  have hs' : c.soils.length ≤ soils.length := by omega
  obtain ⟨w, hw⟩ := sound.some_soil hs'
  obtain ⟨σ, hσ, hσ0⟩ := hingeStiffness_pos (hv w hw).E (hv w hw).I hlength hf hf1
  obtain ⟨a, b, ha, hb, hsys⟩ := sound.hingedSystem length v soils hs' true hk hkm near f σ hσ
  exact ⟨c, _, hc, hsys, (sound.hinged_heldMoving v soils hs' hv hm hR a b (List.mem_of_head? ha) (List.mem_of_getLast? hb) hk hkm (σ / 2)
    (fun h => by linarith)).delays hdt⟩

/-- **C193** The same with a free pin, if there are three or more sleepers and one of them is behind the pin. -/
theorem C193_pinned (g : GoodSegments r d segments) (length : ℝ) (v : TrackValues)
    (soils : List (RodValues ℝ)) (hs : segments.length ≤ soils.length) (hv : ∀ w ∈ soils, ({ v with soil := w } : TrackValues).Valid)
    (hm : ∀ w ∈ soils, ({ v with soil := w } : TrackValues).NonNeg) (hR : v.Rayleigh) (h3 : 3 ≤ (segments.map Prod.fst).sum)
    (hk : 2 ≤ k) (hkm : k + 3 ≤ railCount r segments) (hkr : k + r < railCount r segments)
    (near : 1 / 100000000 + 1 / 100000 * ((k : ℝ) * (d / r)) < d / r) (dt : ℝ) (hdt : 0 < dt) :
    ∃ c inp, combinedTrack hash r d segments = .ok c ∧ c.hingedSystem length v soils 0 (k * (d / r)) true = .ok inp ∧
      Spec.DelaysResults inp dt := by
  obtain ⟨c, hc, sound, -, -, -, -, -, -, hlen, -⟩ := C136_structure hash g
  have hs' : c.soils.length ≤ soils.length := by omega
  obtain ⟨a, b, ha, hb, hsys⟩ := sound.hingedSystem length v soils hs' true hk hkm near 0 0 (hingeStiffness_zero _ _ _)
  have hx := List.mem_of_head? ha
  have hy := List.mem_of_getLast? hb
  have hh := sound.hinged_heldMoving v soils hs' hv hm hR a b hx hy hk hkm (0 / 2)
    (fun _ => Or.inl (combined_holdsPin hash g v soils h3 (by omega) hkr c hc))
  exact ⟨c, _, hc, hsys, hh.delays hdt⟩

/-- **C194** The same for every track that is combined from segments. -/
theorem C194_combined (g : GoodSegments r d segments) (length : ℝ) (v : TrackValues) (soils : List (RodValues ℝ))
    (hs : segments.length ≤ soils.length) (hv : ∀ w ∈ soils, ({ v with soil := w } : TrackValues).Valid)
    (hm : ∀ w ∈ soils, ({ v with soil := w } : TrackValues).NonNeg) (hR : v.Rayleigh) (dt : ℝ) (hdt : 0 < dt) :
    ∃ c inp, combinedTrack hash r d segments = .ok c ∧ c.system length v soils true = .ok inp ∧
      (Spec.RunsBackwards inp dt ↔ Spec.NothingDamps inp) ∧ (v.Undamped soils → Spec.RunsBackwards inp dt) ∧
      (v.Damped → Spec.SomethingMoves inp → ¬ Spec.RunsBackwards inp dt) := by
  obtain ⟨c, hc, s, -, -, -, -, -, -, hlen, -⟩ := C136_structure hash g
  have hs' : c.soils.length ≤ soils.length := by omega
  obtain ⟨a, b, ha, hb, hsys⟩ := s.system length v soils hs' true
  have hx := List.mem_of_head? ha
  have hy := List.mem_of_getLast? hb
  have hh := s.heldMoving v soils hs' hv hm hR a b hx hy
  refine ⟨c, _, hc, hsys, hh.runsBackwards_iff hdt, fun hu => hh.runsBackwards (undamped_of hu.1 fun w => ?_).nothing hdt,
    fun hD => (hh.damped (s.heldMoving { v with ratio := 0 } soils hs' (valid_undamped hv) (nonNeg_undamped hm)
      ⟨fun _ => le_rfl, hR.w1, hR.w2⟩ a b hx hy) rfl rfl rfl rfl hD.1 hD.2 (hR.w1 hD.1) (hR.w2 hD.1)).oneWay hdt⟩
  exact undamped_parts hu (s.nonEmpty v soils) rfl (c.partsOf_soils _ v soils) w

/-- **C194** The same with a hinge in the rail, of a fixity factor greater than 0 and at most 1. -/
theorem C194_hinged (g : GoodSegments r d segments) (length : ℝ) (hlength : 0 < length) (v : TrackValues)
    (soils : List (RodValues ℝ)) (hs : segments.length ≤ soils.length) (hv : ∀ w ∈ soils, ({ v with soil := w } : TrackValues).Valid)
    (hm : ∀ w ∈ soils, ({ v with soil := w } : TrackValues).NonNeg) (hR : v.Rayleigh)
    (hk : 2 ≤ k) (hkm : k + 3 ≤ railCount r segments) (near : 1 / 100000000 + 1 / 100000 * ((k : ℝ) * (d / r)) < d / r)
    (f : ℝ) (hf : 0 < f) (hf1 : f ≤ 1) (dt : ℝ) (hdt : 0 < dt) :
    ∃ c inp, combinedTrack hash r d segments = .ok c ∧ c.hingedSystem length v soils f (k * (d / r)) true = .ok inp ∧
      (Spec.RunsBackwards inp dt ↔ Spec.NothingDamps inp) ∧ (v.Undamped soils → Spec.RunsBackwards inp dt) ∧
      (v.Damped → Spec.SomethingMoves inp → ¬ Spec.RunsBackwards inp dt) := by
  obtain ⟨c, hc, sound, -, -, -, -, -, -, hlen, -⟩ := C136_structure hash g
  have hs' : c.soils.length ≤ soils.length := by omega
  obtain ⟨w, hw⟩ := sound.some_soil hs'
  obtain ⟨σ, hσ, hσ0⟩ := hingeStiffness_pos (hv w hw).E (hv w hw).I hlength hf hf1
  obtain ⟨a, b, ha, hb, hsys⟩ := sound.hingedSystem length v soils hs' true hk hkm near f σ hσ
  have hx := List.mem_of_head? ha
  have hy := List.mem_of_getLast? hb
  have hh := sound.hinged_heldMoving v soils hs' hv hm hR a b hx hy hk hkm (σ / 2) (fun h => by linarith)
  have hg := sound.hinged v soils hs' hv a b hx hy true hk hkm (σ / 2)
  refine ⟨c, _, hc, hsys, hh.runsBackwards_iff hdt, fun hu => hh.runsBackwards (undamped_of hu.1 fun w => ?_).nothing hdt,
    fun hD => (hh.damped (sound.hinged_heldMoving { v with ratio := 0 } soils hs' (valid_undamped hv) (nonNeg_undamped hm)
      ⟨fun _ => le_rfl, hR.w1, hR.w2⟩ a b hx hy hk hkm (σ / 2) (fun h => by linarith)) rfl rfl rfl rfl hD.1 hD.2 (hR.w1 hD.1) (hR.w2 hD.1)).oneWay hdt⟩
  show Spec.systemWork AssemblyPart.damping ((c.partsOf (d / r) v soils).hinged (c.cutAt k (σ / 2))) w w = 0
  rw [hinged_work_same AssemblyPart.damping _ _ hg.inner hg.rail (fun _ => 0) (fun _ _ _ => rfl) (fun _ _ _ => rfl)]
  exact undamped_parts hu (sound.nonEmpty v soils) rfl (c.partsOf_soils _ v soils) w

/-- **C194** The same with a free pin, if there are three or more sleepers and one of them is behind the pin. -/
theorem C194_pinned (g : GoodSegments r d segments) (length : ℝ) (v : TrackValues)
    (soils : List (RodValues ℝ)) (hs : segments.length ≤ soils.length) (hv : ∀ w ∈ soils, ({ v with soil := w } : TrackValues).Valid)
    (hm : ∀ w ∈ soils, ({ v with soil := w } : TrackValues).NonNeg) (hR : v.Rayleigh) (h3 : 3 ≤ (segments.map Prod.fst).sum)
    (hk : 2 ≤ k) (hkm : k + 3 ≤ railCount r segments) (hkr : k + r < railCount r segments)
    (near : 1 / 100000000 + 1 / 100000 * ((k : ℝ) * (d / r)) < d / r) (dt : ℝ) (hdt : 0 < dt) :
    ∃ c inp, combinedTrack hash r d segments = .ok c ∧ c.hingedSystem length v soils 0 (k * (d / r)) true = .ok inp ∧
      (Spec.RunsBackwards inp dt ↔ Spec.NothingDamps inp) ∧ (v.Undamped soils → Spec.RunsBackwards inp dt) ∧
      (v.Damped → Spec.SomethingMoves inp → ¬ Spec.RunsBackwards inp dt) := by
  obtain ⟨c, hc, sound, -, -, -, -, -, -, hlen, -⟩ := C136_structure hash g
  have hs' : c.soils.length ≤ soils.length := by omega
  obtain ⟨a, b, ha, hb, hsys⟩ := sound.hingedSystem length v soils hs' true hk hkm near 0 0 (hingeStiffness_zero _ _ _)
  have hx := List.mem_of_head? ha
  have hy := List.mem_of_getLast? hb
  have hh := sound.hinged_heldMoving v soils hs' hv hm hR a b hx hy hk hkm (0 / 2)
    (fun _ => Or.inl (combined_holdsPin hash g v soils h3 (by omega) hkr c hc))
  have hg := sound.hinged v soils hs' hv a b hx hy true hk hkm (0 / 2)
  refine ⟨c, _, hc, hsys, hh.runsBackwards_iff hdt, fun hu => hh.runsBackwards (undamped_of hu.1 fun w => ?_).nothing hdt,
    fun hD => (hh.damped (sound.hinged_heldMoving { v with ratio := 0 } soils hs' (valid_undamped hv) (nonNeg_undamped hm)
      ⟨fun _ => le_rfl, hR.w1, hR.w2⟩ a b hx hy hk hkm (0 / 2)
      (fun _ => Or.inl (combined_holdsPin hash g { v with ratio := 0 } soils h3 (by omega) hkr c hc))) rfl rfl rfl rfl hD.1 hD.2 (hR.w1 hD.1)
      (hR.w2 hD.1)).oneWay hdt⟩
  show Spec.systemWork AssemblyPart.damping ((c.partsOf (d / r) v soils).hinged (c.cutAt k (0 / 2))) w w = 0
  rw [hinged_work_same AssemblyPart.damping _ _ hg.inner hg.rail (fun _ => 0) (fun _ _ _ => rfl) (fun _ _ _ => rfl)]
  exact undamped_parts hu (sound.nonEmpty v soils) rfl (c.partsOf_soils _ v soils) w

end combined

/-- Three sleepers with a force of 1000 N on the second rail node: if it acts from index 1 on, ten more steps before it delay all results by ten
indices; if it acts from index 0 on, they do not. -/
example : ∃ t, createHorizontalTrack (fun p : Fin 3 → ℝ => p) 3 2 (3 / 5) 1 = .ok t ∧ ∃ inp, t.system undampedTrack true = .ok inp ∧
    (∃ r r', Spec.DynamicResults inp [Spec.forceAt (t.position 1) 1 fun s => if s < 1 then 0 else -1000] (1 / 100) 20 0 0 r ∧
      Spec.DynamicResults inp [Spec.forceAt (t.position 1) 1 fun s => if s < 11 then 0 else -1000] (1 / 100) 30 0 0 r' ∧
      Spec.ReportsLater inp.n 10 20 30 r r') ∧
    ∃ r r', Spec.DynamicResults inp [Spec.forceAt (t.position 1) 1 fun _ => -1000] (1 / 100) 20 0 0 r ∧
      Spec.DynamicResults inp [Spec.forceAt (t.position 1) 1 fun s => if s < 10 then 0 else -1000] (1 / 100) 30 0 0 r' ∧
      ¬ Spec.ReportsLater inp.n 10 20 30 r r' := by
  obtain ⟨t, ht, -⟩ := C48_structure (fun p : Fin 3 → ℝ => p) 3 2 (by norm_num) (3 / 5) 1
  have g : Generated (fun p : Fin 3 → ℝ => p) 3 2 (3 / 5) 1 t := ⟨by norm_num, by norm_num, by norm_num, ht⟩
  have h := exampleTrack_valid
  have hv : undampedTrack.Valid := ⟨h.E, h.nu, h.rho, h.A, h.I, h.kappa, h.s1, h.s2, h.pad, h.soil⟩
  have hm : undampedTrack.NonNeg := by constructor <;> simp [undampedTrack, exampleTrack]
  have hR : undampedTrack.Rayleigh := by constructor <;> simp [undampedTrack]
  have hdt : (0 : ℝ) < 1 / 100 := by norm_num
  have hh := g.heldMoving (by norm_num) (by norm_num) hv hm hR
  have within : t.position 1 < (generatedInput t 3 2 (3 / 5) undampedTrack true).n := g.position.1 1 (by norm_num)
  have free : ¬ Spec.Removed (generatedInput t 3 2 (3 / 5) undampedTrack true) (t.position 1) 1 := by
    have w := g.rail_work undampedTrack hv hm exampleTrack_railPresent 1 (by norm_num) 1
    rintro (hx | hx | hx)
    · rcases (g.supported true 1 (by norm_num) 1).mp hx with hx | ⟨-, hx, -⟩ <;> omega
    · have := (le_abs_self _).trans hx
      exact absurd w.1 (not_lt.mpr this)
    · have := (le_abs_self _).trans hx
      exact absurd w.2 (not_lt.mpr this)
  have adm : Spec.Admissible (generatedInput t 3 2 (3 / 5) undampedTrack true) (Spec.unitField (t.position 1) 1) := by
    intro i _ d hr
    by_cases e : i = t.position 1 ∧ d = 1
    · exact absurd (e.1 ▸ e.2 ▸ hr) free
    · simp [Spec.unitField, e]
  have res := fun σ times => hh.hasResults hdt [Spec.forceAt (t.position 1) 1 σ] times 0 0 (forceAt_fits σ within)
  refine ⟨t, ht, _, g.system _ true, ?_, ?_⟩
  · obtain ⟨r, R⟩ := res (fun s => if s < 1 then 0 else -1000) 20
    obtain ⟨r', R'⟩ := res (fun s => if s < 11 then 0 else -1000) 30
    refine ⟨r, r', R, R', (hh.delays hdt _ _ 10 20 30 r r' (by norm_num) (by norm_num) (by norm_num) (forceAt_fits _ within) (forceAt_fits _ within)
      ⟨fun s hs w => ?_, fun s w => ?_⟩ R R').mpr fun w _ => ?_⟩
    · rw [forceAt_work, if_pos (by omega), mul_zero]
    · rw [forceAt_work, forceAt_work]
      by_cases h1 : s < 1
      · rw [if_pos h1, if_pos (by omega)]
      · rw [if_neg h1, if_neg (by omega)]
    · rw [forceAt_work, if_pos (by norm_num), mul_zero]
  · obtain ⟨r, R⟩ := res (fun _ => -1000) 20
    obtain ⟨r', R'⟩ := res (fun s => if s < 10 then 0 else -1000) 30
    refine ⟨r, r', R, R', fun same => ?_⟩
    have := (hh.delays hdt _ _ 10 20 30 r r' (by norm_num) (by norm_num) (by norm_num) (forceAt_fits _ within) (forceAt_fits _ within)
      ⟨fun s hs w => by rw [forceAt_work, if_pos (by omega), mul_zero], fun s w => by rw [forceAt_work, forceAt_work, if_neg (by omega)]⟩ R R').mp
      same _ adm
    rw [forceAt_work] at this
    simp [Spec.unitField] at this

/-- The undamped track of three sleepers, twenty steps after it was struck at its second rail node: struck back, it returns to where it started. -/
example : ∃ t, createHorizontalTrack (fun p : Fin 3 → ℝ => p) 3 2 (3 / 5) 1 = .ok t ∧ ∃ inp, t.system undampedTrack true = .ok inp ∧
    ∃ r r', Spec.DynamicResults inp [] (1 / 100) 21 0 (Spec.unitField (t.position 1) 1) r ∧
      Spec.DynamicResults inp [] (1 / 100) 21 (Spec.shape r 20) (fun i d => - Spec.shapeRate r 20 i d) r' ∧
      Spec.shape r' 20 (t.position 1) 1 = 0 ∧ Spec.shapeRate r' 20 (t.position 1) 1 = -1 := by
  obtain ⟨t, ht, -⟩ := C48_structure (fun p : Fin 3 → ℝ => p) 3 2 (by norm_num) (3 / 5) 1
  have g : Generated (fun p : Fin 3 → ℝ => p) 3 2 (3 / 5) 1 t := ⟨by norm_num, by norm_num, by norm_num, ht⟩
  have h := exampleTrack_valid
  have hv : undampedTrack.Valid := ⟨h.E, h.nu, h.rho, h.A, h.I, h.kappa, h.s1, h.s2, h.pad, h.soil⟩
  have hm : undampedTrack.NonNeg := by constructor <;> simp [undampedTrack, exampleTrack]
  have hR : undampedTrack.Rayleigh := by constructor <;> simp [undampedTrack]
  have hu : undampedTrack.Undamped [undampedTrack.soil] := ⟨rfl, by simp [undampedTrack], by simp [undampedTrack]⟩
  have hdt : (0 : ℝ) < 1 / 100 := by norm_num
  obtain ⟨inp, hinp, -, back, -⟩ := C194_track _ 3 2 (by norm_num) (by norm_num) _ _ (by norm_num) (by norm_num) t ht _ hv hm hR (1 / 100) hdt
  replace back := back hu
  obtain rfl := Except.ok.inj (hinp.symm.trans (g.system undampedTrack true))
  have hh := g.heldMoving (by norm_num) (by norm_num) hv hm hR
  have fit : ∀ l ∈ ([] : List (TimedLoad ℝ)), Spec.LoadFits (generatedInput t 3 2 (3 / 5) undampedTrack true).n l := fun l hl => by simp at hl
  have within : t.position 1 < (generatedInput t 3 2 (3 / 5) undampedTrack true).n := g.position.1 1 (by norm_num)
  have free : ¬ Spec.Removed (generatedInput t 3 2 (3 / 5) undampedTrack true) (t.position 1) 1 := by
    have w := g.rail_work undampedTrack hv hm exampleTrack_railPresent 1 (by norm_num) 1
    rintro (hx | hx | hx)
    · rcases (g.supported true 1 (by norm_num) 1).mp hx with hx | ⟨-, hx, -⟩ <;> omega
    · have := (le_abs_self _).trans hx
      exact absurd w.1 (not_lt.mpr this)
    · have := (le_abs_self _).trans hx
      exact absurd w.2 (not_lt.mpr this)
  obtain ⟨r, R⟩ := hh.hasResults hdt [] 21 0 (Spec.unitField (t.position 1) 1) fit
  obtain ⟨r', R'⟩ := hh.hasResults hdt [] 21 (Spec.shape r 20) (fun i d => - Spec.shapeRate r 20 i d) fit
  obtain ⟨-, z⟩ := hh.results hdt fit R
  obtain ⟨a, b⟩ := z _ within 1 free (by norm_num)
  obtain ⟨a', b', -⟩ := back [] [] 20 21 21 0 _ r r' (by norm_num) fit fit (fun _ _ _ => rfl) R R' 20 le_rfl (by norm_num) _ within 1
  rw [show 20 - 20 = 0 from rfl] at a' b'
  refine ⟨t, ht, _, hinp, r, r', R, R', by rw [a', a]; rfl, ?_⟩
  rw [b', b]
  simp [Spec.unitField]

/-- The same track with its Rayleigh damping cannot be run backwards. -/
example : ∃ t, createHorizontalTrack (fun p : Fin 3 → ℝ => p) 3 2 (3 / 5) 1 = .ok t ∧ ∃ inp, t.system exampleTrack true = .ok inp ∧
    ¬ Spec.RunsBackwards inp (1 / 100) := by
  obtain ⟨t, ht, -⟩ := C48_structure (fun p : Fin 3 → ℝ => p) 3 2 (by norm_num) (3 / 5) 1
  have g : Generated (fun p : Fin 3 → ℝ => p) 3 2 (3 / 5) 1 t := ⟨by norm_num, by norm_num, by norm_num, ht⟩
  obtain ⟨inp, hinp, -, -, no⟩ := C194_track _ 3 2 (by norm_num) (by norm_num) _ _ (by norm_num) (by norm_num) t ht _ exampleTrack_valid
    exampleTrack_nonNeg exampleTrack_rayleigh (1 / 100) (by norm_num)
  obtain rfl := Except.ok.inj (hinp.symm.trans (g.system exampleTrack true))
  refine ⟨t, ht, _, hinp, no ⟨rfl, by norm_num [exampleTrack]⟩ ⟨t.position 1, g.position.1 1 (by norm_num), 1, ?_⟩⟩
  have w := g.rail_work exampleTrack exampleTrack_valid exampleTrack_nonNeg exampleTrack_railPresent 1 (by norm_num) 1
  rintro (hx | hx | hx)
  · rcases (g.supported true 1 (by norm_num) 1).mp hx with hx | ⟨-, hx, -⟩ <;> omega
  · have := (le_abs_self _).trans hx
    exact absurd w.1 (not_lt.mpr this)
  · have := (le_abs_self _).trans hx
    exact absurd w.2 (not_lt.mpr this)

end Rose
