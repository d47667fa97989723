/-
C190: results in other units of force and time, for tracks with a hinge.
-/
import Verif.Props.Units
import Verif.Props.HingeStiffer

set_option linter.unusedSectionVars false

namespace Rose
open Finset

/-- A rotational spring in units in which a force has `α` times its former number: its stiffness is a force times a length per angle. -/
noncomputable def springInUnits (α : ℝ) : Spring ℝ → Spring ℝ
  | .inf => .inf
  | .fin s => .fin (α * s)

theorem fixity_units {α : ℝ} (hα : 0 < α) (e l : ℝ) (s : Spring ℝ) : fixity (α * e) l (springInUnits α s) = fixity e l s := by
  cases s with
  | inf => rfl
  | fin s =>
    simp only [springInUnits, fixity]
    have : α * s > 0 ↔ s > 0 := by
      constructor
      · intro h
        exact pos_of_mul_pos_right h hα.le
      · exact mul_pos hα
    simp only [this]
    split_ifs
    · rw [show 3 * (α * e) = α * (3 * e) by ring, mul_assoc, mul_div_mul_left _ _ hα.ne']
    · rfl

theorem beamStiffness_springUnits {α : ℝ} (hα : 0 < α) (τ : ℝ) (b : BeamPart ℝ) :
    BeamPart.stiffness { Spec.railInUnits α τ b with s1 := springInUnits α b.s1, s2 := springInUnits α b.s2 } = α • b.stiffness := by
  have ht := timoshenkoFactor_units hα τ b
  unfold BeamPart.stiffness
  have ht' : timoshenkoFactor { Spec.railInUnits α τ b with s1 := springInUnits α b.s1, s2 := springInUnits α b.s2 } = timoshenkoFactor b := ht
  rw [ht']
  simp only [Spec.railInUnits]
  rw [mul_assoc α b.E b.I, fixity_units hα, fixity_units hα]
  simp only [beamStiffness]
  rw [mul_assoc α b.E b.I, mul_div_assoc, dotScalar_scale]

theorem beamAssembly_springUnits {α : ℝ} (hα : 0 < α) (τ : ℝ) (b : BeamPart ℝ) (es : List ((ℕ × ℕ) × (ℝ × ℝ))) (nodes : List ℕ) :
    beamAssembly { Spec.railInUnits α τ b with s1 := springInUnits α b.s1, s2 := springInUnits α b.s2 } es nodes =
      partInUnits α τ (beamAssembly b es nodes) := by
  have hm : BeamPart.massMatrix { Spec.railInUnits α τ b with s1 := springInUnits α b.s1, s2 := springInUnits α b.s2 } =
      (α * τ ^ 2) • b.massMatrix := beamMass_units hα τ b
  unfold beamAssembly partInUnits
  rw [beamStiffness_springUnits hα τ b, hm]
  simp only [Option.map_some, AssemblyPart.mk.injEq, true_and, Option.some.injEq]
  refine ⟨funext fun e => matrixEntries_smul _ _ e, funext fun e => matrixEntries_smul _ _ e, funext fun e => ?_⟩
  rw [← matrixEntries_smul, smul_zero]

/-- The cut rail in other units. -/
theorem pieces_units {α : ℝ} (hα : 0 < α) (τ : ℝ) (b : BeamPart ℝ) (h1 : b.s1 = .inf) (h2 : b.s2 = .inf) (C : HingeCut ℝ) :
    HingeCut.pieces { C with σ := α * C.σ } (Spec.railInUnits α τ b) = (C.pieces b).map (partInUnits α τ) := by
  unfold HingeCut.pieces
  simp only [List.map_cons, List.map_nil, beamAssembly_units hα τ b h1 h2]
  rw [← beamAssembly_springUnits hα τ { b with s1 := .inf, s2 := .fin C.σ }, ← beamAssembly_springUnits hα τ { b with s1 := .fin C.σ, s2 := .inf }]
  rfl

theorem hinged_units {ι : Type*} [DecidableEq ι] (c : CombinedTrack ι ℝ) (l : ℝ) {α : ℝ} (hα : 0 < α) (τ : ℝ) {v : TrackValues}
    (h1 : v.rail.s1 = .inf) (h2 : v.rail.s2 = .inf) (soils : List (RodValues ℝ)) (C : HingeCut ℝ) :
    (c.partsOf l (Spec.trackInUnits α τ v) (soils.map (Spec.rodInUnits α τ))).hinged { C with σ := α * C.σ } =
      ((c.partsOf l v soils).hinged C).map (partInUnits α τ) := by
  unfold TrackParts.hinged
  have e := pieces_units hα τ (c.partsOf l v soils).beam h1 h2 C
  rw [List.map_append, List.map_tail, ← combined_units c l hα τ h1 h2 soils, ← e]
  rfl

section standing
variable {inp : SystemInput ℝ} {T : TrackParts ℝ} {C : HingeCut ℝ}

theorem HingedStanding.hinged_nonneg (h : HingedStanding inp T C) (u : Spec.NodalField ℝ) :
    0 ≤ Spec.systemWork AssemblyPart.stiffness (T.hinged C) u u := by
  obtain ⟨n1, n2, n3, n4, n5⟩ := h.parts_nonneg u
  rw [hinged_energy T C h.inner]
  linarith

/-- A hinge that is kept removes exactly the dofs that are removed without it. -/
theorem HingedStanding.removed_iff (h : HingedStanding inp T C) (hparts : inp.parts = T.parts) (s1 : T.beam.s1 = .inf) (s2 : T.beam.s2 = .inf)
    (hκ : T.beam.kappa = 0) (hp : RailPresent T.beam) (hy : 1 / 10 ^ 8 < 6 * T.beam.E * T.beam.I / T.beam.l ^ 3) (h0 : 0 < C.σ)
    (hrot : 1 / 10 ^ 8 < 8 * T.beam.E * T.beam.I * C.σ / (C.σ * T.beam.l + 4 * T.beam.E * T.beam.I)) (i : ℕ) (d : Fin 3) :
    Spec.Removed (inp.withHinge T C) i d ↔ Spec.Removed inp i d := by
  refine ⟨h.removed hparts hκ hp hy h0 hrot i d, ?_⟩
  rintro (hr | hr | hr)
  · exact Or.inl hr
  · right; left
    rw [hparts, ← h.mass_same] at hr
    exact hr
  · right; right
    rw [hparts] at hr
    show |Spec.systemWork AssemblyPart.stiffness (T.hinged C) _ _| ≤ _
    rw [abs_of_nonneg (h.hinged_nonneg _)]
    exact (h.le_intact s1 s2 hκ _).trans ((le_abs_self _).trans hr)

end standing

theorem SoundTrack.hinged_removed {ι : Type*} [DecidableEq ι] {c : CombinedTrack ι ℝ} {m k : ℕ} {l t : ℝ} (sound : SoundTrack c m l)
    {v : TrackValues} {soils : List (RodValues ℝ)} (hs : c.soils.length ≤ soils.length) (kv : KeptValues l v soils) (hκ : v.rail.kappa = 0)
    (hk : 2 ≤ k) (hkm : k + 3 ≤ m) (t0 : 0 < t) (hkept : Spec.HingeKept v.rail.E v.rail.I l t) (a b : ι) (ha : a ∈ c.rail) (hb : b ∈ c.rail)
    (i : ℕ) (e : Fin 3) :
    Spec.Removed ((c.inputOf l v soils a b true).withHinge (c.partsOf l v soils) (c.cutAt k (t / 2))) i e ↔
      Spec.Removed (c.inputOf l v soils a b true) i e := by
  obtain ⟨w, hw⟩ := sound.some_soil hs
  have V := kv.valid w hw
  have hE : 0 < v.rail.E := V.E
  have hI : 0 < v.rail.I := V.I
  have hl := sound.l_pos
  have h2 := hkept.2
  have e8 : 8 * v.rail.E * v.rail.I * (t / 2) / ((t / 2) * l + 4 * v.rail.E * v.rail.I) =
      8 * v.rail.E * v.rail.I * t / (t * l + 8 * v.rail.E * v.rail.I) := by
    rw [div_eq_div_iff (by positivity) (by positivity)]
    ring
  rw [← e8] at h2
  refine (sound.hinged v soils hs kv.valid a b ha hb true hk hkm (t / 2)).removed_iff rfl V.s1 V.s2 hκ kv.rail ?_ ?_ ?_ i e
  · exact hkept.1
  · show 0 < t / 2
    linarith
  · exact h2

section combined
variable {H : Type*} [DecidableEq H] {hash : (Fin 3 → ℝ) → H} {r : ℕ} {d : ℝ} {segments : List (ℕ × ℝ)}

/-- A structure of several segments removes the same dofs in all units in which its parts are noticed. -/
theorem combined_removed (g : GoodSegments r d segments) (c : CombinedTrack _ ℝ) (hc : combinedTrack hash r d segments = .ok c) (v : TrackValues)
    (soils : List (RodValues ℝ)) (hs : segments.length ≤ soils.length) (k : KeptValues (d / r) v soils) (α τ : ℝ) (hα : 0 < α) (hτ : 0 < τ)
    (hp' : (Spec.trackInUnits α τ v).Noticed (d / r)) (a b : _) (ha : c.rail.head? = some a) (hb : c.rail.getLast? = some b)
    (i : ℕ) (hi : i < (c.inputOf (d / r) v soils a b true).n) (e : Fin 3) :
    Spec.Removed (c.inputOf (d / r) (Spec.trackInUnits α τ v) (soils.map (Spec.rodInUnits α τ)) a b true) i e ↔
      Spec.Removed (c.inputOf (d / r) v soils a b true) i e := by
  obtain ⟨c', hc', s, -, -, hnd, hcount, hpads, -, hlen, -⟩ := C136_structure hash g
  obtain rfl : c = c' := Except.ok.inj (hc.symm.trans hc')
  have hpads : ∀ x ∈ c.sleepers, ∃ e ∈ c.pads, e.2 = x := fun x hx => by
    rw [← hpads] at hx
    exact List.mem_map.mp hx
  have hs1 : c.soils.length ≤ soils.length := by omega
  have hs2 : c.soils.length ≤ (soils.map (Spec.rodInUnits α τ)).length := by simpa using hs1
  have k' := k.inUnits hα hτ hp'
  have S := s.standing v soils hs1 k.valid a b (List.mem_of_head? ha) (List.mem_of_getLast? hb) true
  have S' := s.standing (Spec.trackInUnits α τ v) (soils.map (Spec.rodInUnits α τ)) hs2 k'.valid a b (List.mem_of_head? ha)
    (List.mem_of_getLast? hb) true
  obtain ⟨st, hst⟩ := C106_succeeds (c.inputOf (d / r) v soils a b true) S.mesh freshFlags
  obtain ⟨st', hst'⟩ := C106_succeeds (c.inputOf (d / r) (Spec.trackInUnits α τ v) (soils.map (Spec.rodInUnits α τ)) a b true) S'.mesh freshFlags
  have u1 := C106_unknowns_partial _ S.mesh S.aligned st hst i hi e
  have u2 := C106_unknowns_partial _ S'.mesh S'.aligned st' hst' i hi e
  obtain ⟨p1, p2, p3⟩ := s.unknowns hs1 k hpads a b ha hb st hst
  obtain ⟨q1, q2, q3⟩ := s.unknowns hs2 k' hpads a b ha hb st' hst'
  obtain ⟨x, hx, rfl⟩ : ∃ x ∈ c.meshNodes, c.place x = i := by
    refine ⟨c.meshNodes[i]'hi, List.getElem_mem _, ?_⟩
    exact s.nodup.idxOf_getElem i hi
  refine u2.symm.trans (Iff.trans ?_ u1)
  rcases (s.mem x).mp hx with hx | hx | ⟨p, hp, y, hy, rfl⟩
  · rw [p1 x hx, q1 x hx]
  · rw [p2 x hx, q2 x hx]
  · exact iff_of_true (q3 p hp y hy e) (p3 p hp y hy e)

/-- **C190** Tracks of several segments with a hinge of a fixity factor below one report the same in all units of force and time in which rail,
sleepers, pads and the hinge are above the threshold of the program, if the rail is slender. Missing: other units (see `C190_violated`), a
fixity factor of one, for which the program takes a stiffness of `10^30` in all units, free pins, and rails with shear deformation. -/
theorem C190_hinged_partial (g : GoodSegments r d segments) (length : ℝ) (hlength : 0 < length) (v : TrackValues) (soils : List (RodValues ℝ))
    (hs : segments.length ≤ soils.length) (kv : KeptValues (d / r) v soils) (hm : ∀ w ∈ soils, ({ v with soil := w } : TrackValues).NonNeg)
    (hR : v.Rayleigh) (hκ : v.rail.kappa = 0)
    (hk : 2 ≤ k) (hkm : k + 3 ≤ railCount r segments) (near : 1 / 100000000 + 1 / 100000 * ((k : ℝ) * (d / r)) < d / r)
    (f : ℝ) (hf : 0 < f) (hf1 : f < 1) (α τ : ℝ) (hα : 0 < α) (hτ : 0 < τ)
    (hkept : Spec.HingeKept v.rail.E v.rail.I (d / r) (3 * v.rail.E * v.rail.I * f / ((1 - f) * length)))
    (hp' : (Spec.trackInUnits α τ v).Noticed (d / r))
    (hkept' : Spec.HingeKept (α * v.rail.E) v.rail.I (d / r) (3 * (α * v.rail.E) * v.rail.I * f / ((1 - f) * length))) :
    ∃ c inp inp', combinedTrack hash r d segments = .ok c ∧ c.hingedSystem length v soils f (k * (d / r)) true = .ok inp ∧
      c.hingedSystem length (Spec.trackInUnits α τ v) (soils.map (Spec.rodInUnits α τ)) f (k * (d / r)) true = .ok inp' ∧
      Spec.SameInUnits inp inp' α τ := by
  obtain ⟨c, hc, sound, -, -, -, -, -, -, hlen, -⟩ := C136_structure hash g
  have hs1 : c.soils.length ≤ soils.length := by omega
  have hs2 : c.soils.length ≤ (soils.map (Spec.rodInUnits α τ)).length := by simpa using hs1
  obtain ⟨w, hw⟩ := sound.some_soil hs1
  have V := kv.valid w hw
  have hE : 0 < v.rail.E := V.E
  have hI : 0 < v.rail.I := V.I
  have hl := sound.l_pos
  have h1 : 0 < 1 - f := by linarith
  set s := 3 * v.rail.E * v.rail.I * f / ((1 - f) * length) with hsdef
  have s0 : 0 < s := by positivity
  have es : 3 * (α * v.rail.E) * v.rail.I * f / ((1 - f) * length) = α * s := by
    rw [hsdef]
    ring
  rw [es] at hkept'
  obtain ⟨a, b, ha, hb, hsys⟩ := sound.hingedSystem length v soils hs1 true hk hkm near f s (hingeStiffness_of_lt hf.le hf1)
  obtain ⟨a', b', ha', hb', hsys'⟩ := sound.hingedSystem length (Spec.trackInUnits α τ v) (soils.map (Spec.rodInUnits α τ)) hs2 true hk hkm near f
    (α * s) (by rw [← es]; exact hingeStiffness_of_lt hf.le hf1)
  obtain rfl : a = a' := Option.some.inj (ha.symm.trans ha')
  obtain rfl : b = b' := Option.some.inj (hb.symm.trans hb')
  have ma := List.mem_of_head? ha
  have mb := List.mem_of_getLast? hb
  have k' := kv.inUnits hα hτ hp'
  have hm' : ∀ w ∈ soils.map (Spec.rodInUnits α τ), ({ Spec.trackInUnits α τ v with soil := w } : TrackValues).NonNeg := by
    intro w hw
    obtain ⟨w, hw', rfl⟩ := List.mem_map.mp hw
    exact (hm w hw').inUnits hα hτ
  have as0 : 0 < α * s := mul_pos hα s0
  have H1 := sound.hinged_heldMoving v soils hs1 kv.valid hm hR a b ma mb hk hkm (s / 2) (fun h => by linarith)
  have H2 := sound.hinged_heldMoving (Spec.trackInUnits α τ v) (soils.map (Spec.rodInUnits α τ)) hs2 k'.valid hm' (hR.inUnits α hτ) a b ma mb hk hkm
    (α * s / 2) (fun h => by linarith)
  refine ⟨c, _, _, hc, hsys, hsys', InUnits.same ⟨rfl, ?_, rfl, rfl, rfl, rfl, ?_⟩ hα hτ H1 H2⟩
  · have e2 : α * s / 2 = α * (s / 2) := mul_div_assoc _ _ _
    rw [e2]
    exact hinged_units c (d / r) hα τ V.s1 V.s2 soils (c.cutAt k (s / 2))
  · intro i hi e
    have r1 := sound.hinged_removed hs1 kv hκ hk hkm s0 hkept a b ma mb i e
    have r2 := sound.hinged_removed hs2 k' (show (Spec.trackInUnits α τ v).rail.kappa = 0 from hκ) hk hkm as0 hkept' a b ma mb i e
    exact r2.trans ((combined_removed g c hc v soils hs kv α τ hα hτ hp' a b ha hb i hi e).trans r1.symm)

end combined

/-! ### Example: newtons and seconds, kilonewtons and milliseconds -/

theorem stiffTrack_noticed_kilo : (Spec.trackInUnits (1 / 1000) 1000 stiffTrack).Noticed (3 / 5 / (2 : ℕ)) := by
  refine ⟨?_, by norm_num [stiffTrack, exampleTrack, Spec.trackInUnits], by norm_num [stiffTrack, exampleTrack, Spec.trackInUnits, Spec.rodInUnits]⟩
  intro k
  rw [BeamPart.stiffness, beamStiffness_eq, BeamPart.massMatrix, beamMass, beamTransMass_eq, beamRotMass_eq]
  fin_cases k <;> constructor <;>
    norm_num [stiffTrack, exampleTrack, Spec.trackInUnits, Spec.railInUnits, timoshenkoFactor, shearModulus, fixity]

theorem stiffTrack_rayleigh : stiffTrack.Rayleigh := by
  constructor <;> norm_num [stiffTrack, exampleTrack]

example : ∃ c inp inp', combinedTrack (fun p : Fin 3 → ℝ => p) 2 (3 / 5) [(3, 1), (1, 2), (4, 1 / 2)] = .ok c ∧
    c.hingedSystem (3 / 5) stiffTrack threeSoils (1 / 2) ((10 : ℕ) * (3 / 5 / (2 : ℕ))) true = .ok inp ∧
    c.hingedSystem (3 / 5) (Spec.trackInUnits (1 / 1000) 1000 stiffTrack) (threeSoils.map (Spec.rodInUnits (1 / 1000) 1000)) (1 / 2)
      ((10 : ℕ) * (3 / 5 / (2 : ℕ))) true = .ok inp' ∧ Spec.SameInUnits inp inp' (1 / 1000) 1000 :=
  C190_hinged_partial exampleSegments (3 / 5) (by norm_num) stiffTrack threeSoils (by simp [threeSoils]) stiffTrack_kept
    (by
      intro w hw
      have h := exampleTrack_nonNeg
      exact ⟨h.padMass, threeSoils_kept.soilMass w hw, h.sleeper, h.padDamping, by
        simp only [threeSoils, List.mem_cons, List.not_mem_nil, or_false] at hw
        rcases hw with rfl | rfl | rfl <;> simp⟩)
    stiffTrack_rayleigh rfl (by norm_num) (by decide) (by norm_num) (1 / 2) (by norm_num) (by norm_num) _ _ (by norm_num) (by norm_num)
    (by constructor <;> norm_num [stiffTrack, exampleTrack]) stiffTrack_noticed_kilo (by constructor <;> norm_num [stiffTrack, exampleTrack])

end Rose
