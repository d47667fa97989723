/-
C196: calculations that are continued. C197: results as the sum of the responses to pulses.
-/
import Verif.Spec.Pulses
import Verif.Props.Delay

set_option linter.unusedSectionVars false

namespace Rose
open Finset

section
variable {sys : SystemInput ℝ} {dt : ℝ} {F F' : ℕ → Spec.NodalField ℝ → ℝ} {times : ℕ} {U V A U' V' A' : ℕ → Spec.NodalField ℝ}

/-- Two fields that respect the supports and vanish outside the mesh are the same if they are at the dofs that take part. -/
theorem field_ext {x y : Spec.NodalField ℝ} (hx : Spec.Admissible sys x) (hy : Spec.Admissible sys y) (ox : ∀ i, sys.n ≤ i → x i = 0)
    (oy : ∀ i, sys.n ≤ i → y i = 0) (h : ∀ i < sys.n, ∀ d, ¬ Spec.Removed sys i d → x i d = y i d) : x = y := by
  funext i d
  by_cases hi : i < sys.n
  · by_cases hr : Spec.Removed sys i d
    · rw [hx i hi d hr, hy i hi d hr]
    · exact h i hi d hr
  · rw [ox i (by omega), oy i (by omega)]

theorem HeldMoving.continues (h : HeldMoving sys) (hdt : 0 < dt) : Spec.Continues sys dt := by
  intro loads rest T times times' u₀ v₀ r r' hT hl hl' hrest R R' t ht htT i hi
  obtain ⟨f, -⟩ := h.results hdt hl R
  obtain ⟨f', z'⟩ := h.results hdt hl' R'
  obtain ⟨a1, a2, -⟩ := f.admissible T hT
  obtain ⟨b1, b2, -⟩ := f'.admissible 0 (by omega)
  have s1 : Spec.shape r' 0 = Spec.shape r (0 + T) := by
    rw [Nat.zero_add]
    exact field_ext b1 a1 (fun i hi => (f'.outside 0 (by omega) i hi).1) (fun i hi => (f.outside T hT i hi).1)
      fun i hi d hr => (z' i hi d hr (by omega)).1
  have s2 : Spec.shapeRate r' 0 = Spec.shapeRate r (0 + T) := by
    rw [Nat.zero_add]
    exact field_ext b2 a2 (fun i hi => (f'.outside 0 (by omega) i hi).2.1) (fun i hi => (f.outside T hT i hi).2.1)
      fun i hi d hr => (z' i hi d hr (by omega)).2
  obtain ⟨a, b, c⟩ := (f'.upTo (t := t + 1) ht).agree h hdt ((f.later T).upTo (t := t + 1) (by omega)) (fun s _ => by funext w; exact hrest s w)
    s1 s2 t (by omega)
  exact ⟨congrFun a i, congrFun b i, congrFun c i⟩

/-! ### Sums of delayed steps -/

theorem FieldSteps.rest (h : HeldMoving sys) : FieldSteps sys (fun _ _ => 0) dt times 0 0 0 :=
  ⟨fun _ _ => ⟨fun _ _ _ _ => rfl, fun _ _ _ _ => rfl, fun _ _ _ _ => rfl⟩, fun _ _ _ _ => ⟨rfl, rfl, rfl⟩, fun _ _ w _ => h.motion_zero w,
    fun _ _ _ _ => by simp, fun _ _ _ _ => by simp⟩

theorem FieldSteps.sum (h : HeldMoving sys) (c : ℕ → ℝ) {G : ℕ → ℕ → Spec.NodalField ℝ → ℝ} {X Y Z : ℕ → ℕ → Spec.NodalField ℝ} (n : ℕ)
    (f : ∀ s < n, FieldSteps sys (G s) dt times (X s) (Y s) (Z s)) :
    FieldSteps sys (fun t w => ∑ s ∈ range n, c s * G s t w) dt times (fun t i d => ∑ s ∈ range n, c s * X s t i d)
      (fun t i d => ∑ s ∈ range n, c s * Y s t i d) (fun t i d => ∑ s ∈ range n, c s * Z s t i d) := by
  induction n with
  | zero =>
    simp only [Finset.range_zero, Finset.sum_empty]
    exact FieldSteps.rest h
  | succ n ih =>
    have := FieldSteps.combine h (ih fun s hs => f s (by omega)) (f n (by omega)) (c n)
    simp only [Finset.sum_range_succ]
    exact this

/-- Steps that start at rest without acceleration, `P` steps later. -/
theorem FieldSteps.delayed (h : HeldMoving sys) (f : FieldSteps sys F dt times U V A) (hU : U 0 = 0) (hV : V 0 = 0) (hA : A 0 = 0) (P : ℕ) :
    FieldSteps sys (fun t w => if t < P then 0 else F (t - P) w) dt times (fun t => if t < P then 0 else U (t - P))
      (fun t => if t < P then 0 else V (t - P)) (fun t => if t < P then 0 else A (t - P)) := by
  refine ⟨fun s hs => ?_, fun s hs i hi => ?_, fun s hs w hw => ?_, fun s hs i d => ?_, fun s hs i d => ?_⟩
  · by_cases hP : s < P
    · simp only [if_pos hP]
      exact ⟨fun _ _ _ _ => rfl, fun _ _ _ _ => rfl, fun _ _ _ _ => rfl⟩
    · simp only [if_neg hP]
      exact f.admissible (s - P) (by omega)
  · by_cases hP : s < P
    · simp only [if_pos hP]
      exact ⟨rfl, rfl, rfl⟩
    · simp only [if_neg hP]
      exact f.outside (s - P) (by omega) i hi
  · by_cases hP : s < P
    · simp only [if_pos hP]
      exact h.motion_zero w
    · simp only [if_neg hP]
      exact f.balance (s - P) (by omega) w hw
  · rcases lt_trichotomy (s + 1) P with hP | hP | hP
    · simp only [if_pos hP, if_pos (show s < P by omega)]
      simp
    · simp only [if_pos (show s < P by omega), lt_irrefl, if_false, hP, Nat.sub_self, hU, hA]
      simp
    · simp only [if_neg (show ¬ s + 1 < P by omega), if_neg (show ¬ s < P by omega)]
      have := f.displacement (s - P) (by omega) i d
      rwa [show s - P + 1 = s + 1 - P by omega] at this
  · rcases lt_trichotomy (s + 1) P with hP | hP | hP
    · simp only [if_pos hP, if_pos (show s < P by omega)]
      simp
    · simp only [if_pos (show s < P by omega), lt_irrefl, if_false, hP, Nat.sub_self, hV, hA]
      simp
    · simp only [if_neg (show ¬ s + 1 < P by omega), if_neg (show ¬ s < P by omega)]
      have := f.velocity (s - P) (by omega) i d
      rwa [show s - P + 1 = s + 1 - P by omega] at this

theorem delayed_sum (σ : ℕ → ℝ) (x : ℕ → ℝ) (x0 : x 0 = 0) {t times : ℕ} (ht : t < times) :
    ∑ s ∈ range times, σ (s + 1) * (if t < s then 0 else x (t - s)) = ∑ s ∈ range t, σ (s + 1) * x (t - s) := by
  refine (Finset.sum_subset (Finset.range_subset_range.mpr ht.le) fun s _ hs => ?_).symm.trans (Finset.sum_congr rfl fun s hs => ?_)
  · have : t ≤ s := not_lt.mp fun h => hs (mem_range.mpr h)
    rcases this.lt_or_eq with h | rfl
    · rw [if_pos h, mul_zero]
    · rw [if_neg (lt_irrefl _), Nat.sub_self, x0, mul_zero]
  · have := mem_range.mp hs
    rw [if_neg (by omega)]

theorem HeldMoving.fromPulses (h : HeldMoving sys) (hdt : 0 < dt) : Spec.FromPulses sys dt := by
  intro m hm d σ times u₀ v₀ r f p₀ p₁ R Rf R₀ R₁ t ht i hi e
  have fit := fun σ => forceAt_fits (sys := sys) (m := m) (d := d) σ hm
  have fit0 : ∀ l ∈ ([] : List (TimedLoad ℝ)), Spec.LoadFits sys.n l := fun l hl => by simp at hl
  obtain ⟨g, z⟩ := h.results hdt (fit _) R
  obtain ⟨gf, zf⟩ := h.results hdt fit0 Rf
  obtain ⟨g₀, z₀⟩ := h.results hdt (fit _) R₀
  obtain ⟨g₁, z₁⟩ := h.results hdt (fit _) R₁
  have pos : 0 < times := by omega
  obtain ⟨u0, v0⟩ := g₀.start_eq pos fun i hi d hr => z₀ i hi d hr pos
  obtain ⟨u1, v1⟩ := g₁.start_eq pos fun i hi d hr => z₁ i hi d hr pos
  have a1 : Spec.shapeAcceleration p₁ 0 = 0 := by
    refine ((g₁.upTo (t := 1) pos).congr (F' := fun _ _ => 0) fun s hs w hw => ?_).vanish h hdt (fun _ _ _ => rfl) (fun _ => u1) (fun _ => v1) 0
      one_pos |>.2.2
    obtain rfl : s = 0 := by omega
    rw [forceAt_work]
    simp [Spec.pulse]
  have sum := FieldSteps.combine h (FieldSteps.combine h gf g₀ (σ 0))
    (FieldSteps.sum h (fun s => σ (s + 1)) times fun s _ => g₁.delayed h u1 v1 a1 s) 1
  obtain ⟨a, b, c⟩ := g.agree h hdt sum (fun s hs => by
    funext w
    rw [forceAt_work]
    simp only [forceAt_work]
    have e := delayed_sum σ (fun j => w m d * Spec.pulse 1 j) (by simp [Spec.pulse]) hs
    rw [e]
    have n0 : Spec.loadWork (Spec.loadsAt [] s) w = 0 := by simp [Spec.loadWork, Spec.loadsAt]
    rw [n0]
    rcases s with _ | s
    · simp [Spec.pulse]; ring
    · rw [Finset.sum_eq_single_of_mem s (mem_range.mpr (Nat.lt_succ_self s))]
      · simp [Spec.pulse]; ring
      · intro j hj hne
        have := mem_range.mp hj
        have : s + 1 - j ≠ 1 := by omega
        simp [Spec.pulse, this])
    (by
      have e : Spec.shape r 0 = Spec.shape f 0 := field_ext (g.admissible 0 pos).1 (gf.admissible 0 pos).1 (fun i hi => (g.outside 0 pos i hi).1)
        (fun i hi => (gf.outside 0 pos i hi).1) fun i hi d hr => (z i hi d hr pos).1.trans (zf i hi d hr pos).1.symm
      funext i d
      have s := delayed_sum σ (fun j => Spec.shape p₁ j i d) (by simp only [u1]; rfl) pos
      simp only [Finset.range_zero, Finset.sum_empty] at s
      simp only [u0, e, ite_apply, Pi.zero_apply, s]
      ring)
    (by
      have e : Spec.shapeRate r 0 = Spec.shapeRate f 0 := field_ext (g.admissible 0 pos).2.1 (gf.admissible 0 pos).2.1
        (fun i hi => (g.outside 0 pos i hi).2.1) (fun i hi => (gf.outside 0 pos i hi).2.1)
        fun i hi d hr => (z i hi d hr pos).2.trans (zf i hi d hr pos).2.symm
      funext i d
      have s := delayed_sum σ (fun j => Spec.shapeRate p₁ j i d) (by simp only [v1]; rfl) pos
      simp only [Finset.range_zero, Finset.sum_empty] at s
      simp only [v0, e, ite_apply, Pi.zero_apply, s]
      ring) t ht
  have s1 := delayed_sum σ (fun j => Spec.shape p₁ j i e) (by simp only [u1]; rfl) ht
  have s2 := delayed_sum σ (fun j => Spec.shapeRate p₁ j i e) (by simp only [v1]; rfl) ht
  have s3 := delayed_sum σ (fun j => Spec.shapeAcceleration p₁ j i e) (by simp only [a1]; rfl) ht
  have a := congrFun (congrFun a i) e
  have b := congrFun (congrFun b i) e
  have c := congrFun (congrFun c i) e
  simp only [ite_apply, Pi.zero_apply] at a b c s1 s2 s3
  unfold Spec.pulseSum
  refine ⟨?_, ?_, ?_⟩
  · rw [a, s1]; ring
  · rw [b, s2]; ring
  · rw [c, s3]; ring

end

/-- **C196** For every generated track with at least two sleepers on its boundaries and average acceleration steps of any size: a calculation
that starts from any result of another one, under the rest of its loads, reports the rest of its results. -/
theorem C196_track {H : Type*} [DecidableEq H] (hash : (Fin 3 → ℝ) → H) (n r : ℕ) (hn : 2 ≤ n) (hr : 0 < r) (d h : ℝ)
    (hd : 1 / 1000000000 < d / r) (hh : 1 / 1000000000 < h) (t : HorizontalTrack ℝ)
    (ht : createHorizontalTrack hash n r d h = .ok t) (v : TrackValues) (hv : v.Valid) (hm : v.NonNeg) (hR : v.Rayleigh)
    (dt : ℝ) (hdt : 0 < dt) : ∃ inp, t.system v true = .ok inp ∧ Spec.Continues inp dt := by
  have g : Generated hash n r d h t := ⟨by nlinarith, hd, hh, ht⟩
  exact ⟨_, g.system v true, (g.heldMoving hn hr hv hm hR).continues hdt⟩

/-- **C197** For every generated track with at least two sleepers on its boundaries and average acceleration steps of any size: the results for
a force of any course at any dof follow from the responses to two pulses. -/
theorem C197_track {H : Type*} [DecidableEq H] (hash : (Fin 3 → ℝ) → H) (n r : ℕ) (hn : 2 ≤ n) (hr : 0 < r) (d h : ℝ)
    (hd : 1 / 1000000000 < d / r) (hh : 1 / 1000000000 < h) (t : HorizontalTrack ℝ)
    (ht : createHorizontalTrack hash n r d h = .ok t) (v : TrackValues) (hv : v.Valid) (hm : v.NonNeg) (hR : v.Rayleigh)
    (dt : ℝ) (hdt : 0 < dt) : ∃ inp, t.system v true = .ok inp ∧ Spec.FromPulses inp dt := by
  have g : Generated hash n r d h t := ⟨by nlinarith, hd, hh, ht⟩
  exact ⟨_, g.system v true, (g.heldMoving hn hr hv hm hR).fromPulses hdt⟩

section combined
variable {H : Type*} [DecidableEq H] (hash : (Fin 3 → ℝ) → H) {r k : ℕ} {d : ℝ} {segments : List (ℕ × ℝ)}

/-- **C196** The same for every track that is combined from segments. -/
theorem C196_combined (g : GoodSegments r d segments) (length : ℝ) (v : TrackValues) (soils : List (RodValues ℝ))
    (hs : segments.length ≤ soils.length) (hv : ∀ w ∈ soils, ({ v with soil := w } : TrackValues).Valid)
    (hm : ∀ w ∈ soils, ({ v with soil := w } : TrackValues).NonNeg) (hR : v.Rayleigh) (dt : ℝ) (hdt : 0 < dt) :
    ∃ c inp, combinedTrack hash r d segments = .ok c ∧ c.system length v soils true = .ok inp ∧ Spec.Continues inp dt := by
  obtain ⟨c, hc, s, -, -, -, -, -, -, hlen, -⟩ := C136_structure hash g
  have hs' : c.soils.length ≤ soils.length := by omega
  obtain ⟨a, b, ha, hb, hsys⟩ := s.system length v soils hs' true
  exact ⟨c, _, hc, hsys, (s.heldMoving v soils hs' hv hm hR a b (List.mem_of_head? ha) (List.mem_of_getLast? hb)).continues hdt⟩

/-- **C196** The same with a hinge in the rail, of a fixity factor greater than 0 and at most 1. -/
theorem C196_hinged (g : GoodSegments r d segments) (length : ℝ) (hlength : 0 < length) (v : TrackValues)
    (soils : List (RodValues ℝ)) (hs : segments.length ≤ soils.length) (hv : ∀ w ∈ soils, ({ v with soil := w } : TrackValues).Valid)
    (hm : ∀ w ∈ soils, ({ v with soil := w } : TrackValues).NonNeg) (hR : v.Rayleigh)
    (hk : 2 ≤ k) (hkm : k + 3 ≤ railCount r segments) (near : 1 / 100000000 + 1 / 100000 * ((k : ℝ) * (d / r)) < d / r)
    (f : ℝ) (hf : 0 < f) (hf1 : f ≤ 1) (dt : ℝ) (hdt : 0 < dt) :
    ∃ c inp, combinedTrack hash r d segments = .ok c ∧ c.hingedSystem length v soils f (k * (d / r)) true = .ok inp ∧
      Spec.Continues inp dt := by
  obtain ⟨c, hc, sound, -, -, -, -, -, -, hlen, -⟩ := C136_structure hash g
  have hs' : c.soils.length ≤ soils.length := by omega
  obtain ⟨w, hw⟩ := sound.some_soil hs'
  obtain ⟨σ, hσ, hσ0⟩ := hingeStiffness_pos (hv w hw).E (hv w hw).I hlength hf hf1
  obtain ⟨a, b, ha, hb, hsys⟩ := sound.hingedSystem length v soils hs' true hk hkm near f σ hσ
  exact ⟨c, _, hc, hsys, (sound.hinged_heldMoving v soils hs' hv hm hR a b (List.mem_of_head? ha) (List.mem_of_getLast? hb) hk hkm (σ / 2)
    (fun h => by linarith)).continues hdt⟩

/-- **C196** The same with a pin in the rail. -/
theorem C196_pinned (g : GoodSegments r d segments) (length : ℝ) (v : TrackValues)
    (soils : List (RodValues ℝ)) (hs : segments.length ≤ soils.length) (hv : ∀ w ∈ soils, ({ v with soil := w } : TrackValues).Valid)
    (hm : ∀ w ∈ soils, ({ v with soil := w } : TrackValues).NonNeg) (hR : v.Rayleigh) (h3 : 3 ≤ (segments.map Prod.fst).sum)
    (hk : 2 ≤ k) (hkm : k + 3 ≤ railCount r segments) (hkr : k + r < railCount r segments)
    (near : 1 / 100000000 + 1 / 100000 * ((k : ℝ) * (d / r)) < d / r) (dt : ℝ) (hdt : 0 < dt) :
    ∃ c inp, combinedTrack hash r d segments = .ok c ∧ c.hingedSystem length v soils 0 (k * (d / r)) true = .ok inp ∧
      Spec.Continues inp dt := by
  obtain ⟨c, hc, sound, -, -, -, -, -, -, hlen, -⟩ := C136_structure hash g
  have hs' : c.soils.length ≤ soils.length := by omega
  obtain ⟨a, b, ha, hb, hsys⟩ := sound.hingedSystem length v soils hs' true hk hkm near 0 0 (hingeStiffness_zero _ _ _)
  have hx := List.mem_of_head? ha
  have hy := List.mem_of_getLast? hb
  have hh := sound.hinged_heldMoving v soils hs' hv hm hR a b hx hy hk hkm (0 / 2)
    (fun _ => Or.inl (combined_holdsPin hash g v soils h3 (by omega) hkr c hc))
  exact ⟨c, _, hc, hsys, hh.continues hdt⟩

/-- **C197** The same for every track that is combined from segments. -/
theorem C197_combined (g : GoodSegments r d segments) (length : ℝ) (v : TrackValues) (soils : List (RodValues ℝ))
    (hs : segments.length ≤ soils.length) (hv : ∀ w ∈ soils, ({ v with soil := w } : TrackValues).Valid)
    (hm : ∀ w ∈ soils, ({ v with soil := w } : TrackValues).NonNeg) (hR : v.Rayleigh) (dt : ℝ) (hdt : 0 < dt) :
    ∃ c inp, combinedTrack hash r d segments = .ok c ∧ c.system length v soils true = .ok inp ∧ Spec.FromPulses inp dt := by
  obtain ⟨c, hc, s, -, -, -, -, -, -, hlen, -⟩ := C136_structure hash g
  have hs' : c.soils.length ≤ soils.length := by omega
  obtain ⟨a, b, ha, hb, hsys⟩ := s.system length v soils hs' true
  exact ⟨c, _, hc, hsys, (s.heldMoving v soils hs' hv hm hR a b (List.mem_of_head? ha) (List.mem_of_getLast? hb)).fromPulses hdt⟩

/-- **C197** The same with a hinge in the rail, of a fixity factor greater than 0 and at most 1. -/
theorem C197_hinged (g : GoodSegments r d segments) (length : ℝ) (hlength : 0 < length) (v : TrackValues)
    (soils : List (RodValues ℝ)) (hs : segments.length ≤ soils.length) (hv : ∀ w ∈ soils, ({ v with soil := w } : TrackValues).Valid)
    (hm : ∀ w ∈ soils, ({ v with soil := w } : TrackValues).NonNeg) (hR : v.Rayleigh)
    (hk : 2 ≤ k) (hkm : k + 3 ≤ railCount r segments) (near : 1 / 100000000 + 1 / 100000 * ((k : ℝ) * (d / r)) < d / r)
    (f : ℝ) (hf : 0 < f) (hf1 : f ≤ 1) (dt : ℝ) (hdt : 0 < dt) :
    ∃ c inp, combinedTrack hash r d segments = .ok c ∧ c.hingedSystem length v soils f (k * (d / r)) true = .ok inp ∧
      Spec.FromPulses inp dt := by
  obtain ⟨c, hc, sound, -, -, -, -, -, -, hlen, -⟩ := C136_structure hash g
  have hs' : c.soils.length ≤ soils.length := by omega
  obtain ⟨w, hw⟩ := sound.some_soil hs'
  obtain ⟨σ, hσ, hσ0⟩ := hingeStiffness_pos (hv w hw).E (hv w hw).I hlength hf hf1
  obtain ⟨a, b, ha, hb, hsys⟩ := sound.hingedSystem length v soils hs' true hk hkm near f σ hσ
  exact ⟨c, _, hc, hsys, (sound.hinged_heldMoving v soils hs' hv hm hR a b (List.mem_of_head? ha) (List.mem_of_getLast? hb) hk hkm (σ / 2)
    (fun h => by linarith)).fromPulses hdt⟩

/-- **C197** The same with a pin in the rail. -/
theorem C197_pinned (g : GoodSegments r d segments) (length : ℝ) (v : TrackValues)
    (soils : List (RodValues ℝ)) (hs : segments.length ≤ soils.length) (hv : ∀ w ∈ soils, ({ v with soil := w } : TrackValues).Valid)
    (hm : ∀ w ∈ soils, ({ v with soil := w } : TrackValues).NonNeg) (hR : v.Rayleigh) (h3 : 3 ≤ (segments.map Prod.fst).sum)
    (hk : 2 ≤ k) (hkm : k + 3 ≤ railCount r segments) (hkr : k + r < railCount r segments)
    (near : 1 / 100000000 + 1 / 100000 * ((k : ℝ) * (d / r)) < d / r) (dt : ℝ) (hdt : 0 < dt) :
    ∃ c inp, combinedTrack hash r d segments = .ok c ∧ c.hingedSystem length v soils 0 (k * (d / r)) true = .ok inp ∧
      Spec.FromPulses inp dt := by
  obtain ⟨c, hc, sound, -, -, -, -, -, -, hlen, -⟩ := C136_structure hash g
  have hs' : c.soils.length ≤ soils.length := by omega
  obtain ⟨a, b, ha, hb, hsys⟩ := sound.hingedSystem length v soils hs' true hk hkm near 0 0 (hingeStiffness_zero _ _ _)
  have hx := List.mem_of_head? ha
  have hy := List.mem_of_getLast? hb
  have hh := sound.hinged_heldMoving v soils hs' hv hm hR a b hx hy hk hkm (0 / 2)
    (fun _ => Or.inl (combined_holdsPin hash g v soils h3 (by omega) hkr c hc))
  exact ⟨c, _, hc, hsys, hh.fromPulses hdt⟩

end combined

/-- Three sleepers under a force of 1000 N from index 5 on: twenty results, continued from index 10 under a constant force. -/
example : ∃ t, createHorizontalTrack (fun p : Fin 3 → ℝ => p) 3 2 (3 / 5) 1 = .ok t ∧ ∃ inp, t.system exampleTrack true = .ok inp ∧
    ∃ r r', Spec.DynamicResults inp [Spec.forceAt (t.position 1) 1 fun s => if s < 5 then 0 else -1000] (1 / 100) 20 0 0 r ∧
      Spec.DynamicResults inp [Spec.forceAt (t.position 1) 1 fun _ => -1000] (1 / 100) 10 (Spec.shape r 10) (Spec.shapeRate r 10) r' ∧
      Spec.shape r' 9 (t.position 1) 1 = Spec.shape r 19 (t.position 1) 1 := by
  obtain ⟨t, ht, -⟩ := C48_structure (fun p : Fin 3 → ℝ => p) 3 2 (by norm_num) (3 / 5) 1
  have g : Generated (fun p : Fin 3 → ℝ => p) 3 2 (3 / 5) 1 t := ⟨by norm_num, by norm_num, by norm_num, ht⟩
  have hdt : (0 : ℝ) < 1 / 100 := by norm_num
  have hh := g.heldMoving (by norm_num) (by norm_num) exampleTrack_valid exampleTrack_nonNeg exampleTrack_rayleigh
  have within : t.position 1 < (generatedInput t 3 2 (3 / 5) exampleTrack true).n := g.position.1 1 (by norm_num)
  obtain ⟨r, R⟩ := hh.hasResults hdt [Spec.forceAt (t.position 1) 1 fun s => if s < 5 then 0 else -1000] 20 0 0 (forceAt_fits _ within)
  obtain ⟨r', R'⟩ := hh.hasResults hdt [Spec.forceAt (t.position 1) 1 fun _ => -1000] 10 (Spec.shape r 10) (Spec.shapeRate r 10)
    (forceAt_fits _ within)
  refine ⟨t, ht, _, g.system _ true, r, r', R, R', ?_⟩
  exact congrFun (hh.continues hdt _ _ 10 20 10 0 0 r r' (by norm_num) (forceAt_fits _ within) (forceAt_fits _ within)
    (fun s w => by rw [forceAt_work, forceAt_work, if_neg (by omega)]) R R' 9 (by norm_num) (by norm_num) _ within).1 1

/-- Three sleepers under a force that grows with the square of the index: the displacement at index 3 from the first three results of a pulse. -/
example : ∃ t, createHorizontalTrack (fun p : Fin 3 → ℝ => p) 3 2 (3 / 5) 1 = .ok t ∧ ∃ inp, t.system exampleTrack true = .ok inp ∧
    ∃ r f p, Spec.DynamicResults inp [Spec.forceAt (t.position 1) 1 fun s => -1000 * (s : ℝ) ^ 2] (1 / 100) 20 0 0 r ∧
      Spec.DynamicResults inp [] (1 / 100) 20 0 0 f ∧ Spec.DynamicResults inp [Spec.forceAt (t.position 1) 1 (Spec.pulse 1)] (1 / 100) 20 0 0 p ∧
      Spec.shape r 3 (t.position 1) 1 = Spec.shape f 3 (t.position 1) 1 - 1000 * Spec.shape p 3 (t.position 1) 1 -
        4000 * Spec.shape p 2 (t.position 1) 1 - 9000 * Spec.shape p 1 (t.position 1) 1 := by
  obtain ⟨t, ht, -⟩ := C48_structure (fun p : Fin 3 → ℝ => p) 3 2 (by norm_num) (3 / 5) 1
  have g : Generated (fun p : Fin 3 → ℝ => p) 3 2 (3 / 5) 1 t := ⟨by norm_num, by norm_num, by norm_num, ht⟩
  have hdt : (0 : ℝ) < 1 / 100 := by norm_num
  have hh := g.heldMoving (by norm_num) (by norm_num) exampleTrack_valid exampleTrack_nonNeg exampleTrack_rayleigh
  have within : t.position 1 < (generatedInput t 3 2 (3 / 5) exampleTrack true).n := g.position.1 1 (by norm_num)
  have res := fun σ => hh.hasResults hdt [Spec.forceAt (t.position 1) 1 σ] 20 0 0 (forceAt_fits σ within)
  obtain ⟨r, R⟩ := res fun s => -1000 * (s : ℝ) ^ 2
  obtain ⟨p₀, R₀⟩ := res (Spec.pulse 0)
  obtain ⟨p₁, R₁⟩ := res (Spec.pulse 1)
  obtain ⟨f, Rf⟩ := hh.hasResults hdt [] 20 0 0 (fun l hl => by simp at hl)
  refine ⟨t, ht, _, g.system _ true, r, f, p₁, R, Rf, R₁, ?_⟩
  rw [(hh.fromPulses hdt _ within 1 _ 20 0 0 r f p₀ p₁ R Rf R₀ R₁ 3 (by norm_num) _ within 1).1]
  simp only [Spec.pulseSum, Finset.sum_range_succ, Finset.sum_range_zero]
  norm_num
  ring

end Rose
