/-
C192: without damping a force of limited size can shake a track without bound.
-/
import Verif.Spec.Resonance
import Verif.Props.Undamped
import Verif.Props.Forgetting

set_option linter.unusedSectionVars false

namespace Rose
open Finset

section
variable {sys : SystemInput ℝ} {dt : ℝ} {F F' : ℕ → Spec.NodalField ℝ → ℝ} {times : ℕ} {U V A U' V' A' : ℕ → Spec.NodalField ℝ}

theorem forceAt_fits {m : ℕ} {d : Fin 3} (σ : ℕ → ℝ) (hm : m < sys.n) : ∀ l ∈ [Spec.forceAt m d σ], Spec.LoadFits sys.n l := by
  intro l hl
  obtain rfl := List.mem_singleton.mp hl
  refine ⟨by simp [Spec.forceAt], fun x hx => ?_⟩
  obtain rfl : x = m := by simpa [Spec.forceAt] using hx
  exact hm

theorem forceAt_work (m : ℕ) (d : Fin 3) (σ : ℕ → ℝ) (s : ℕ) (w : Spec.NodalField ℝ) :
    Spec.loadWork (Spec.loadsAt [Spec.forceAt m d σ] s) w = w m d * σ s := by
  unfold Spec.loadWork Spec.loadsAt Spec.forceAt
  simp

/-- Steps from rest under a force at one dof exist. -/
theorem HeldMoving.forced (h : HeldMoving sys) (hdt : 0 < dt) {m : ℕ} (hm : m < sys.n) (d : Fin 3) (σ : ℕ → ℝ) (times : ℕ) (ht : 0 < times) :
    ∃ U V A, FieldSteps sys (fun s w => w m d * σ s) dt times U V A ∧ U 0 = 0 ∧ V 0 = 0 := by
  obtain ⟨r, R⟩ := h.hasResults hdt [Spec.forceAt m d σ] times 0 0 (forceAt_fits σ hm)
  obtain ⟨f, z⟩ := h.results hdt (forceAt_fits σ hm) R
  simp only [forceAt_work] at f
  obtain ⟨h1, h2⟩ := f.start_eq ht fun i hi d hr => z i hi d hr ht
  exact ⟨_, _, _, f, h1, h2⟩

/-- Steps from rest under the same loads are the same. -/
theorem FieldSteps.agree (h : HeldMoving sys) (hdt : 0 < dt) (f : FieldSteps sys F dt times U V A) (f' : FieldSteps sys F' dt times U' V' A')
    (hF : ∀ s < times, F s = F' s) (hU : U 0 = U' 0) (hV : V 0 = V' 0) : ∀ s < times, U s = U' s ∧ V s = V' s ∧ A s = A' s := by
  intro s hs
  obtain ⟨a, b, c⟩ := (FieldSteps.combine h f f' (-1)).vanish h hdt (fun s hs w => by rw [hF s hs]; ring)
    (fun _ => by funext i d; simp [hU]) (fun _ => by funext i d; simp [hV]) s hs
  refine ⟨?_, ?_, ?_⟩ <;> funext i d
  · have := congrFun (congrFun a i) d
    simp only [Pi.zero_apply] at this
    linarith
  · have := congrFun (congrFun b i) d
    simp only [Pi.zero_apply] at this
    linarith
  · have := congrFun (congrFun c i) d
    simp only [Pi.zero_apply] at this
    linarith

theorem HeldMoving.energy_nonneg (h : HeldMoving sys) {u v : Spec.NodalField ℝ} (hu : Spec.Admissible sys u) (hv : Spec.Admissible sys v) :
    0 ≤ Spec.mechanicalEnergy sys u v := by
  have p1 := (h.positive _ hu).2.2.1
  have p2 := (h.positive _ hv).1.1
  unfold Spec.mechanicalEnergy
  linarith

/-- The energy of a sum. -/
theorem HeldMoving.energy_combine (h : HeldMoving sys) (u v u' v' : Spec.NodalField ℝ) : ∃ x : ℝ, ∀ k : ℝ,
    Spec.mechanicalEnergy sys (fun i d => u i d + k * u' i d) (fun i d => v i d + k * v' i d) =
      Spec.mechanicalEnergy sys u v + k * x + k ^ 2 * Spec.mechanicalEnergy sys u' v' := by
  refine ⟨Spec.systemWork AssemblyPart.mass sys.parts v v' + Spec.systemWork AssemblyPart.stiffness sys.parts u u', fun k => ?_⟩
  unfold Spec.mechanicalEnergy
  rw [h.mass_combine, systemWork_combine, systemWork_combine, h.mass_symm v' v, h.still.work_combine, systemWork_combine, systemWork_combine,
    h.stiff_symm u' u]
  ring

/-- After a single pulse the structure moves. -/
theorem HeldMoving.pulse (h : HeldMoving sys) (hdt : 0 < dt) {m : ℕ} {d : Fin 3} (hr : ¬ Spec.Removed sys m d) {f : ℝ} (hf : 0 < f)
    (g : FieldSteps sys (fun s w => w m d * if s = 1 then f else 0) dt 3 U V A) (hU : U 0 = 0) (hV : V 0 = 0) :
    0 < Spec.mechanicalEnergy sys (U 2) (V 2) := by
  obtain ⟨a1, a2, a3⟩ := g.admissible 2 (by omega)
  refine lt_of_le_of_ne (h.energy_nonneg a1 a2) fun h0 => ?_
  have zero : ∀ n < 3, ∀ x : Spec.NodalField ℝ, (x = U n ∨ x = V n ∨ x = A n) → (∀ i < sys.n, x i = 0) → x = 0 := by
    intro n hn x hx hz
    funext i
    by_cases hi : i < sys.n
    · exact hz i hi
    · obtain ⟨b1, b2, b3⟩ := g.outside n hn i (by omega)
      rcases hx with rfl | rfl | rfl
      · exact b1
      · exact b2
      · exact b3
  have p1 := (h.positive _ a1).2.2
  have p2 := (h.positive _ a2).1
  have u2 : U 2 = 0 := zero 2 (by omega) _ (Or.inl rfl) (p1.2 (by unfold Spec.mechanicalEnergy at h0; linarith [p1.1, p2.1]))
  have v2 : V 2 = 0 := zero 2 (by omega) _ (Or.inr (Or.inl rfl)) (p2.2 (by unfold Spec.mechanicalEnergy at h0; linarith [p1.1, p2.1]))
  have accel : ∀ n < 3, n ≠ 1 → U n = 0 → V n = 0 → A n = 0 := by
    intro n hn hn1 hu hv
    obtain ⟨-, -, b3⟩ := g.admissible n hn
    have b := g.balance n hn _ b3
    rw [hu, hv] at b
    unfold motionWork at b
    have z1 : dampingWork sys (A n) 0 = 0 := by
      have := h.damp_smul 0 (A n) 0
      rw [zero_mul, show (fun (i : ℕ) (e : Fin 3) => (0 : ℝ) * (0 : Spec.NodalField ℝ) i e) = 0 by funext i e; simp] at this
      exact this
    have z2 : Spec.systemWork AssemblyPart.stiffness sys.parts (A n) 0 = 0 := by
      rw [h.stiff_symm]
      have := systemWork_combine AssemblyPart.stiffness sys.parts (-1) (0 : Spec.NodalField ℝ) 0 (A n)
      rw [show (fun i d => (0 : Spec.NodalField ℝ) i d + -1 * (0 : Spec.NodalField ℝ) i d) = 0 by funext i d; simp] at this
      rw [this]; ring
    rw [z1, z2, if_neg hn1, mul_zero, add_zero, add_zero] at b
    exact zero n hn _ (Or.inr (Or.inr rfl)) ((h.positive _ b3).1.2 b)
  have e0 := accel 0 (by omega) (by omega) hU hV
  have e2 := accel 2 (by omega) (by omega) u2 v2
  have all : ∀ i e, U 1 i e = 0 ∧ V 1 i e = 0 ∧ A 1 i e = 0 := by
    intro i e
    have k1 := g.displacement 0 (by omega) i e
    have k2 := g.velocity 0 (by omega) i e
    have k3 := g.velocity 1 (by omega) i e
    simp only [Nat.zero_add, Nat.reduceAdd, hU, hV, e0, e2, v2, Pi.zero_apply] at k1 k2 k3
    have : A 1 i e = 0 := by
      have : dt * A 1 i e = 0 := by linarith
      rcases mul_eq_zero.mp this with h | h
      · exact absurd h hdt.ne'
      · exact h
    rw [this] at k1 k2
    exact ⟨by rw [k1]; ring, by rw [k2]; ring, this⟩
  have u1 : U 1 = 0 := by funext i e; exact (all i e).1
  have v1 : V 1 = 0 := by funext i e; exact (all i e).2.1
  have w1 : A 1 = 0 := by funext i e; exact (all i e).2.2
  have adm : Spec.Admissible sys (Spec.unitField m d) := by
    intro i _ e hx
    by_cases eq : i = m ∧ e = d
    · exact absurd (eq.1 ▸ eq.2 ▸ hx) hr
    · simp [Spec.unitField, eq]
  have b := g.balance 1 (by omega) _ adm
  have z := h.motion_combine (-1) (Spec.unitField m d) 0 0 0 0 0 0
  rw [u1, v1, w1] at b
  rw [show (fun (i : ℕ) (e : Fin 3) => (0 : Spec.NodalField ℝ) i e + -1 * (0 : Spec.NodalField ℝ) i e) = 0 by funext i e; simp] at z
  rw [if_pos rfl] at b
  have : (Spec.unitField m d : Spec.NodalField ℝ) m d = 1 := by simp [Spec.unitField]
  rw [this] at b
  have z : motionWork sys (Spec.unitField m d) 0 0 0 = 0 := by linarith
  linarith

/-- A force of limited size whose sign is chosen well adds as much energy in every step as a single pulse. -/
theorem HeldMoving.pumped (h : HeldMoving sys) (hu : Undamped sys) (hdt : 0 < dt) {m : ℕ} (hm : m < sys.n) {d : Fin 3} (hr : ¬ Spec.Removed sys m d)
    {f : ℝ} (hf : 0 < f) : ∃ e > (0 : ℝ), ∀ n : ℕ, ∃ σ : ℕ → ℝ, (∀ s, |σ s| ≤ f) ∧ (∀ s > n, σ s = 0) ∧ ∀ times U V A, n + 1 < times →
      FieldSteps sys (fun s w => w m d * σ s) dt times U V A → U 0 = 0 → V 0 = 0 →
        n * e ≤ Spec.mechanicalEnergy sys (U (n + 1)) (V (n + 1)) := by
  obtain ⟨P, Q, W, hp, p0, q0⟩ := h.forced hdt hm d (fun s => if s = 1 then f else 0) 3 (by omega)
  refine ⟨_, h.pulse hdt hr hf hp p0 q0, fun n => ?_⟩
  induction n with
  | zero =>
    refine ⟨fun _ => 0, fun _ => by simpa using hf.le, fun _ _ => rfl, fun times U V A ht g _ _ => ?_⟩
    obtain ⟨a1, a2, -⟩ := g.admissible (0 + 1) ht
    simpa using h.energy_nonneg a1 a2
  | succ n ih =>
    obtain ⟨σ, s1, s2, s3⟩ := ih
    obtain ⟨X, X', X'', hX, x0, x0'⟩ := h.forced hdt hm d σ (n + 3) (by omega)
    obtain ⟨Z, Z', Z'', hZ, z0, z0'⟩ := h.forced hdt hm d (fun s => if s = n + 1 then f else 0) (n + 3) (by omega)
    -- the pulse alone
    have rest := (hZ.upTo (t := n + 1) (by omega)).vanish h hdt (fun s hs w => by rw [if_neg (by omega), mul_zero]) (fun _ => z0) (fun _ => z0') n (by omega)
    have later := hZ.later n
    rw [show n + 3 - n = 3 by omega] at later
    obtain ⟨k1, k2, -⟩ := later.agree h hdt hp (fun s _ => by
      funext w
      by_cases hs : s = 1
      · simp [hs, Nat.add_comm]
      · rw [if_neg hs, if_neg (by omega)]) (by rw [Nat.zero_add, rest.1, p0]) (by rw [Nat.zero_add, rest.2.1, q0]) 2 (by omega)
    -- the motion so far goes on without loads
    have keep := hX.energy h hdt (s := n + 1) (by omega)
    rw [hu, s2 (n + 1) (by omega), s2 (n + 1 + 1) (by omega)] at keep
    simp only [mul_zero, add_zero, sub_zero] at keep
    have grown := s3 (n + 3) X X' X'' (by omega) hX x0 x0'
    obtain ⟨x, hx⟩ := h.energy_combine (X (n + 2)) (X' (n + 2)) (Z (n + 2)) (Z' (n + 2))
    obtain ⟨k, hk1, hk2⟩ : ∃ k : ℝ, |k| = 1 ∧ 0 ≤ k * x := by
      rcases le_total 0 x with hx | hx
      · exact ⟨1, by simp, by simpa using hx⟩
      · exact ⟨-1, by simp, by simpa using hx⟩
    refine ⟨fun s => σ s + k * if s = n + 1 then f else 0, fun s => ?_, fun s hs => ?_, fun times U V A ht g u0 v0 => ?_⟩
    · simp only
      by_cases hs : s = n + 1
      · rw [if_pos hs, s2 s (by omega), zero_add, abs_mul, hk1, one_mul, abs_of_pos hf]
      · rw [if_neg hs, mul_zero, add_zero]
        exact s1 s
    · simp only
      rw [if_neg (by omega), s2 s (by omega)]
      ring
    · have sum := FieldSteps.combine h hX hZ k
      obtain ⟨e1, e2, -⟩ := (g.upTo (t := n + 3) (by omega)).agree h hdt sum (fun s _ => by funext w; ring)
        (by funext i d; simp [u0, x0, z0]) (by funext i d; simp [v0, x0', z0']) (n + 2) (by omega)
      have k2' : k ^ 2 = 1 := by rw [← sq_abs, hk1, one_pow]
      rw [show n + 1 + 1 = n + 2 by omega] at keep ⊢
      rw [e1, e2, hx k, k2', one_mul]
      rw [Nat.add_comm 2 n] at k1 k2
      rw [k1, k2]
      push_cast
      linarith

theorem HeldMoving.resonates (h : HeldMoving sys) (hu : Undamped sys) (hdt : 0 < dt) : Spec.Resonates sys dt := by
  intro m hm d hr f hf B
  obtain ⟨e, he, pump⟩ := h.pumped hu hdt hm hr hf
  obtain ⟨C, hC, small⟩ := h.small
  obtain ⟨n, hn⟩ := exists_nat_gt (C * (|B|) ^ 2 / e)
  rw [div_lt_iff₀ he] at hn
  obtain ⟨σ, s1, -, s3⟩ := pump n
  refine ⟨σ, s1, n + 1, fun times r ht R => ?_⟩
  obtain ⟨g, z⟩ := h.results hdt (forceAt_fits σ hm) R
  simp only [forceAt_work] at g
  obtain ⟨h1, h2⟩ := g.start_eq (by omega) fun i hi d hr => z i hi d hr (by omega)
  have big := s3 times _ _ _ ht g h1 h2
  by_contra hno
  push Not at hno
  obtain ⟨a1, a2, -⟩ := g.admissible (n + 1) ht
  have := small _ _ |B| a1 a2 (abs_nonneg _) fun i hi e => ⟨(hno i hi e).1.trans (le_abs_self _), (hno i hi e).2.trans (le_abs_self _)⟩
  linarith

end

/-! ### Tracks -/

/-- **C192** For every generated track with at least two sleepers on its boundaries that has no damping, and average acceleration steps of any size:
a force of limited size on any dof that takes part makes results as large as wanted. -/
theorem C192_track {H : Type*} [DecidableEq H] (hash : (Fin 3 → ℝ) → H) (n r : ℕ) (hn : 2 ≤ n) (hr : 0 < r) (d h : ℝ)
    (hd : 1 / 1000000000 < d / r) (hh : 1 / 1000000000 < h) (t : HorizontalTrack ℝ)
    (ht : createHorizontalTrack hash n r d h = .ok t) (v : TrackValues) (hv : v.Valid) (hm : v.NonNeg) (hR : v.Rayleigh) (hu : v.Undamped [v.soil])
    (dt : ℝ) (hdt : 0 < dt) : ∃ inp, t.system v true = .ok inp ∧ Spec.Resonates inp dt := by
  have g : Generated hash n r d h t := ⟨by nlinarith, hd, hh, ht⟩
  refine ⟨_, g.system v true, (g.heldMoving hn hr hv hm hR).resonates (undamped_of hu.1 fun w => ?_) hdt⟩
  refine undamped_parts hu (g.nonEmpty v) rfl (fun s hs => ?_) w
  simp only [generatedParts, List.mem_singleton] at hs
  subst hs
  exact List.mem_singleton_self _

section combined
variable {H : Type*} [DecidableEq H] (hash : (Fin 3 → ℝ) → H) {r k : ℕ} {d : ℝ} {segments : List (ℕ × ℝ)}

/-- **C192** The same for every track that is combined from segments. -/
theorem C192_combined (g : GoodSegments r d segments) (length : ℝ) (v : TrackValues) (soils : List (RodValues ℝ))
    (hs : segments.length ≤ soils.length) (hv : ∀ w ∈ soils, ({ v with soil := w } : TrackValues).Valid)
    (hm : ∀ w ∈ soils, ({ v with soil := w } : TrackValues).NonNeg) (hR : v.Rayleigh) (hu : v.Undamped soils) (dt : ℝ) (hdt : 0 < dt) :
    ∃ c inp, combinedTrack hash r d segments = .ok c ∧ c.system length v soils true = .ok inp ∧ Spec.Resonates inp dt := by
  obtain ⟨c, hc, s, -, -, -, -, -, -, hlen, -⟩ := C136_structure hash g
  have hs' : c.soils.length ≤ soils.length := by omega
  obtain ⟨a, b, ha, hb, hsys⟩ := s.system length v soils hs' true
  have hx := List.mem_of_head? ha
  have hy := List.mem_of_getLast? hb
  have hh := s.heldMoving v soils hs' hv hm hR a b hx hy
  refine ⟨c, _, hc, hsys, hh.resonates (undamped_of hu.1 fun w => ?_) hdt⟩
  exact undamped_parts hu (s.nonEmpty v soils) rfl (c.partsOf_soils _ v soils) w

/-- **C192** The same with a hinge in the rail, of a fixity factor greater than 0 and at most 1. -/
theorem C192_hinged (g : GoodSegments r d segments) (length : ℝ) (hlength : 0 < length) (v : TrackValues)
    (soils : List (RodValues ℝ)) (hs : segments.length ≤ soils.length) (hv : ∀ w ∈ soils, ({ v with soil := w } : TrackValues).Valid)
    (hm : ∀ w ∈ soils, ({ v with soil := w } : TrackValues).NonNeg) (hR : v.Rayleigh) (hu : v.Undamped soils)
    (hk : 2 ≤ k) (hkm : k + 3 ≤ railCount r segments) (near : 1 / 100000000 + 1 / 100000 * ((k : ℝ) * (d / r)) < d / r)
    (f : ℝ) (hf : 0 < f) (hf1 : f ≤ 1) (dt : ℝ) (hdt : 0 < dt) :
    ∃ c inp, combinedTrack hash r d segments = .ok c ∧ c.hingedSystem length v soils f (k * (d / r)) true = .ok inp ∧
      Spec.Resonates inp dt := by
  obtain ⟨c, hc, sound, -, -, -, -, -, -, hlen, -⟩ := C136_structure hash g
  have hs' : c.soils.length ≤ soils.length := by omega
  obtain ⟨w, hw⟩ := sound.some_soil hs'
  obtain ⟨σ, hσ, hσ0⟩ := hingeStiffness_pos (hv w hw).E (hv w hw).I hlength hf hf1
  obtain ⟨a, b, ha, hb, hsys⟩ := sound.hingedSystem length v soils hs' true hk hkm near f σ hσ
  have hx := List.mem_of_head? ha
  have hy := List.mem_of_getLast? hb
  have hh := sound.hinged_heldMoving v soils hs' hv hm hR a b hx hy hk hkm (σ / 2) (fun h => by linarith)
  have hg := sound.hinged v soils hs' hv a b hx hy true hk hkm (σ / 2)
  refine ⟨c, _, hc, hsys, hh.resonates (undamped_of hu.1 fun w => ?_) hdt⟩
  show Spec.systemWork AssemblyPart.damping ((c.partsOf (d / r) v soils).hinged (c.cutAt k (σ / 2))) w w = 0
  rw [hinged_work_same AssemblyPart.damping _ _ hg.inner hg.rail (fun _ => 0) (fun _ _ _ => rfl) (fun _ _ _ => rfl)]
  exact undamped_parts hu (sound.nonEmpty v soils) rfl (c.partsOf_soils _ v soils) w

/-- **C192** The same with a free pin, if there are three or more sleepers and one of them is behind the pin. -/
theorem C192_pinned (g : GoodSegments r d segments) (length : ℝ) (v : TrackValues)
    (soils : List (RodValues ℝ)) (hs : segments.length ≤ soils.length) (hv : ∀ w ∈ soils, ({ v with soil := w } : TrackValues).Valid)
    (hm : ∀ w ∈ soils, ({ v with soil := w } : TrackValues).NonNeg) (hR : v.Rayleigh) (hu : v.Undamped soils) (h3 : 3 ≤ (segments.map Prod.fst).sum)
    (hk : 2 ≤ k) (hkm : k + 3 ≤ railCount r segments) (hkr : k + r < railCount r segments)
    (near : 1 / 100000000 + 1 / 100000 * ((k : ℝ) * (d / r)) < d / r) (dt : ℝ) (hdt : 0 < dt) :
    ∃ c inp, combinedTrack hash r d segments = .ok c ∧ c.hingedSystem length v soils 0 (k * (d / r)) true = .ok inp ∧
      Spec.Resonates inp dt := by
  obtain ⟨c, hc, sound, -, -, -, -, -, -, hlen, -⟩ := C136_structure hash g
  have hs' : c.soils.length ≤ soils.length := by omega
  obtain ⟨a, b, ha, hb, hsys⟩ := sound.hingedSystem length v soils hs' true hk hkm near 0 0 (hingeStiffness_zero _ _ _)
  have hx := List.mem_of_head? ha
  have hy := List.mem_of_getLast? hb
  have hh := sound.hinged_heldMoving v soils hs' hv hm hR a b hx hy hk hkm (0 / 2)
    (fun _ => Or.inl (combined_holdsPin hash g v soils h3 (by omega) hkr c hc))
  have hg := sound.hinged v soils hs' hv a b hx hy true hk hkm (0 / 2)
  refine ⟨c, _, hc, hsys, hh.resonates (undamped_of hu.1 fun w => ?_) hdt⟩
  show Spec.systemWork AssemblyPart.damping ((c.partsOf (d / r) v soils).hinged (c.cutAt k (0 / 2))) w w = 0
  rw [hinged_work_same AssemblyPart.damping _ _ hg.inner hg.rail (fun _ => 0) (fun _ _ _ => rfl) (fun _ _ _ => rfl)]
  exact undamped_parts hu (sound.nonEmpty v soils) rfl (c.partsOf_soils _ v soils) w

end combined

/-- One newton at the second rail node of the undamped track of three sleepers, in steps of 0.01 s: some displacement exceeds a kilometre or some
velocity a kilometre per second. -/
example : ∃ t, createHorizontalTrack (fun p : Fin 3 → ℝ => p) 3 2 (3 / 5) 1 = .ok t ∧ ∃ inp, t.system undampedTrack true = .ok inp ∧
    undampedTrack.Undamped [undampedTrack.soil] ∧ ∃ σ : ℕ → ℝ, (∀ s, |σ s| ≤ 1) ∧ ∃ T r,
      Spec.DynamicResults inp [Spec.forceAt (t.position 1) 1 σ] (1 / 100) (T + 1) 0 0 r ∧
      ∃ i < inp.n, ∃ e, 1000 < |Spec.shape r T i e| ∨ 1000 < |Spec.shapeRate r T i e| := by
  obtain ⟨t, ht, -⟩ := C48_structure (fun p : Fin 3 → ℝ => p) 3 2 (by norm_num) (3 / 5) 1
  have g : Generated (fun p : Fin 3 → ℝ => p) 3 2 (3 / 5) 1 t := ⟨by norm_num, by norm_num, by norm_num, ht⟩
  have h := exampleTrack_valid
  have hv : undampedTrack.Valid := ⟨h.E, h.nu, h.rho, h.A, h.I, h.kappa, h.s1, h.s2, h.pad, h.soil⟩
  have hm : undampedTrack.NonNeg := by constructor <;> simp [undampedTrack, exampleTrack]
  have hR : undampedTrack.Rayleigh := by constructor <;> simp [undampedTrack]
  have hu : undampedTrack.Undamped [undampedTrack.soil] := ⟨rfl, by simp [undampedTrack], by simp [undampedTrack]⟩
  have hdt : (0 : ℝ) < 1 / 100 := by norm_num
  obtain ⟨inp, hinp, res⟩ := C192_track _ 3 2 (by norm_num) (by norm_num) _ _ (by norm_num) (by norm_num) t ht _ hv hm hR hu (1 / 100) hdt
  obtain rfl := Except.ok.inj (hinp.symm.trans (g.system undampedTrack true))
  have hh := g.heldMoving (by norm_num) (by norm_num) hv hm hR
  have within : t.position 1 < (generatedInput t 3 2 (3 / 5) undampedTrack true).n := g.position.1 1 (by norm_num)
  have free : ¬ Spec.Removed (generatedInput t 3 2 (3 / 5) undampedTrack true) (t.position 1) 1 := by
    have w := g.rail_work undampedTrack hv hm exampleTrack_railPresent 1 (by norm_num) 1
    rintro (hx | hx | hx)
    · rcases (g.supported true 1 (by norm_num) 1).mp hx with hx | ⟨-, hx, -⟩ <;> omega
    · have := (le_abs_self _).trans hx
      exact absurd w.1 (not_lt.mpr this)
    · have := (le_abs_self _).trans hx
      exact absurd w.2 (not_lt.mpr this)
  obtain ⟨σ, hσ, T, big⟩ := res _ within 1 free 1 one_pos 1000
  obtain ⟨r, R⟩ := hh.hasResults hdt [Spec.forceAt (t.position 1) 1 σ] (T + 1) 0 0 (forceAt_fits σ within)
  exact ⟨t, ht, _, hinp, hu, σ, hσ, T, r, R, big _ r (by omega) R⟩

end Rose
