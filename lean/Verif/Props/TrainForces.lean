/-
C167: element forces of a track under a train.
-/
import Verif.Model.TrainForces
import Verif.Spec.TrainForces
import Verif.Props.TrackForces
import Verif.Props.CombinedUnknowns
import Verif.Props.WrittenResults
import Verif.Props.HingedRide

set_option linter.unusedSectionVars false

namespace Rose
open Finset

/-! ### Work of the reported forces -/

theorem springSum_map (es : List (ℕ × ℕ)) (g : ℕ × ℕ → Fin 3 → ℝ) (f : ℕ × ℕ → ℝ) :
    Spec.springSum es (es.map g) f = (es.map fun e => f e * g e 0).sum := by
  unfold Spec.springSum
  congr 1
  induction es with
  | nil => rfl
  | cons e es ih => simp [ih]

theorem rodSum_forces (k : ℝ) (es : List (ℕ × ℕ)) (δ u : Spec.NodalField ℝ) :
    (es.map fun e => k * ((δ e.2 1 - δ e.1 1) * (u e.2 1 - u e.1 1))).sum =
      Spec.springSum es (es.map fun e => ![k * (u e.1 1 - u e.2 1), 0, 0]) fun e => δ e.1 1 - δ e.2 1 := by
  rw [springSum_map]
  congr 1
  apply List.map_congr_left
  intro e _
  simp only [Matrix.cons_val_zero]
  ring

theorem zip_zip_map {α β γ : Type*} (as : List α) (bs : List β) (h : bs.length ≤ as.length) (g : α × β → γ) :
    bs.zip ((as.zip bs).map g) = (as.zip bs).map fun s => (s.2, g s) := by
  induction bs generalizing as with
  | nil => simp
  | cons b bs ih =>
    cases as with
    | nil => simp at h
    | cons a as => simp only [List.zip_cons_cons, List.map_cons, ih as (by simpa using h)]

section sound
variable {ι : Type*} [DecidableEq ι] {c : CombinedTrack ι ℝ} {m : ℕ} {l : ℝ}

/-- The forces that are reported for a track in order. -/
theorem SoundTrack.forces (s : SoundTrack c m l) (v : TrackValues) (soils : List (RodValues ℝ)) (row : List (NodeRow ℝ)) :
    (c.partsOf l v soils).parts.map (fun p => p.elementForces row) =
      ((List.range (m - 1)).map fun k => trueElementForce ({ v.rail with l := l } : BeamPart ℝ).stiffness ![true, true, true] 1 0
        (sixValues (Spec.fieldOfRows row NodeRow.displacement) (c.railNumber k, c.railNumber (k + 1)))) ::
      ((c.placeAll c.pads).map fun e => ![v.pad.stiffness * (Spec.fieldOfRows row NodeRow.displacement e.1 1 -
        Spec.fieldOfRows row NodeRow.displacement e.2 1), 0, 0]) :: [] ::
      ((soils.zip c.soils).map fun s => (c.placeAll s.2.1).map fun e => ![s.1.stiffness *
        (Spec.fieldOfRows row NodeRow.displacement e.1 1 - Spec.fieldOfRows row NodeRow.displacement e.2 1), 0, 0]) := by
  unfold TrackParts.parts CombinedTrack.partsOf
  simp only [List.map_cons, rod_elementForces, beam_elementForces, sleeper_elementForces, List.map_map, Function.comp_def]
  rw [chainOf_eq]
  simp only [List.map_map, Function.comp_def, List.length_map, s.len]
  rfl

/-- The work of the springs and of the bending of a track in order, by its reported forces. -/
theorem SoundTrack.forces_work (s : SoundTrack c m l) (v : TrackValues) (soils : List (RodValues ℝ)) (hs : c.soils.length ≤ soils.length)
    (h1 : v.rail.s1 = .inf) (h2 : v.rail.s2 = .inf) (row : List (NodeRow ℝ)) (beams pads : List (Fin 3 → ℝ))
    (soilF : List (List (Fin 3 → ℝ)))
    (h : (c.partsOf l v soils).parts.map (fun p => p.elementForces row) = beams :: pads :: [] :: soilF) (δ : Spec.NodalField ℝ) :
    Spec.systemWork AssemblyPart.stiffness (c.partsOf l v soils).parts δ (Spec.fieldOfRows row NodeRow.displacement) =
      ∑ k ∈ range (m - 1), (beams.getD k 0 0 * (δ (c.railNumber k) 0 - δ (c.railNumber (k + 1)) 0) +
        beams.getD k 0 1 * (δ (c.railNumber k) 1 - δ (c.railNumber (k + 1)) 1 +
          l / 2 * (δ (c.railNumber k) 2 + δ (c.railNumber (k + 1)) 2)) +
        beams.getD k 0 2 * (δ (c.railNumber k) 2 - δ (c.railNumber (k + 1)) 2)) +
      Spec.springSum (c.placeAll c.pads) pads (fun e => δ e.1 1 - δ e.2 1) +
      ((c.soils.zip soilF).map fun p => Spec.springSum (c.placeAll p.1.1) p.2 fun e => δ e.1 1 - δ e.2 1).sum := by
  rw [s.forces] at h
  simp only [List.cons.injEq, true_and] at h
  obtain ⟨rfl, rfl, rfl⟩ := h
  rw [track_stiffness_work _ (s.nonEmpty v soils), zip_zip_map _ _ hs]
  congr 1
  · congr 1
    · show ((chainOf (c.rail.map c.place)).map _).sum = _
      rw [chainOf_eq, List.map_map, List.length_map, s.len, listSum_range]
      refine Finset.sum_congr rfl fun k hk => ?_
      rw [Finset.mem_range] at hk
      rw [getD_map_range _ _ _ hk]
      exact beam_bilinear ({ v.rail with l := l } : BeamPart ℝ) h1 h2 _ _
    · exact rodSum_forces _ _ _ _
  · show (((soils.zip c.soils).map fun s => (s.1, c.placeAll s.2.1, s.2.2.map c.place)).map _).sum = _
    rw [List.map_map, List.map_map]
    congr 1
    apply List.map_congr_left
    intro p _
    exact rodSum_forces _ _ _ _

/-! ### Virtual displacements -/

theorem SoundTrack.railNumber_eq (s : SoundTrack c m l) (k : ℕ) (hk : k < m) :
    ∃ x ∈ c.rail, c.railNumber k = c.place x ∧ c.rail[k]? = some x := by
  have hk' : k < c.rail.length := by rw [s.len]; exact hk
  refine ⟨c.rail[k], List.getElem_mem hk', ?_, List.getElem?_eq_getElem hk'⟩
  unfold CombinedTrack.railNumber
  rw [List.getD_eq_getElem _ _ (by simpa using hk'), List.getElem_map]

theorem SoundTrack.railNumber_inj (s : SoundTrack c m l) (j k : ℕ) (hj : j < m) (hk : k < m)
    (h : c.railNumber j = c.railNumber k) : j = k := by
  obtain ⟨x, hx, e1, x1⟩ := s.railNumber_eq j hj
  obtain ⟨y, hy, e2, y1⟩ := s.railNumber_eq k hk
  have := s.place_inj x y (s.rail_mem x hx) (by rw [← e1, ← e2, h])
  subst this
  exact (List.getElem?_inj (by rw [s.len]; exact hj) s.rail_nodup).mp (x1.trans y1.symm)

/-- A virtual displacement is admissible if the ends of the rail do not move along it, the sleepers move up and down only and the
bottom is at rest. -/
theorem SoundTrack.admissible (s : SoundTrack c m l) {v : TrackValues} {soils : List (RodValues ℝ)} (hs : c.soils.length ≤ soils.length)
    (k : KeptValues l v soils) (hpad : ∀ x ∈ c.sleepers, ∃ e ∈ c.pads, e.2 = x) (a b : ι) (ha : c.rail.head? = some a)
    (hb : c.rail.getLast? = some b) (δ : Spec.NodalField ℝ) (h1 : δ (c.railNumber 0) 0 = 0) (h2 : δ (c.railNumber (m - 1)) 0 = 0)
    (h3 : ∀ x ∈ c.sleepers, ∀ d, d ≠ 1 → δ (c.place x) d = 0)
    (h4 : ∀ p ∈ c.soils, ∀ e ∈ p.1, ∀ d, δ (c.place e.2) d = 0) : Spec.Admissible (c.inputOf l v soils a b true) δ := by
  have ha' := List.mem_of_head? ha
  have hb' := List.mem_of_getLast? hb
  have hstand := s.standing v soils hs k.valid a b ha' hb' true
  obtain ⟨st, hst⟩ := C106_succeeds (c.inputOf l v soils a b true) hstand.mesh freshFlags
  have key := C106_unknowns_partial _ hstand.mesh hstand.aligned st hst
  obtain ⟨u1, u2, u3⟩ := s.unknowns hs k hpad a b ha hb st hst
  have hlen := s.len
  have htwo := s.two
  intro i hi d hd
  have hi' : i < c.meshNodes.length := hi
  have hx := (s.mem _).1 (List.getElem_mem hi')
  have hpl : c.place c.meshNodes[i] = i := s.nodup.idxOf_getElem i hi'
  have hn := (key i hi d).mpr hd
  rw [← hpl] at hn ⊢
  rcases hx with hx | hx | ⟨p, hp, e, he, hx⟩
  · obtain ⟨hab, rfl⟩ := (u1 _ hx d).1 hn
    rcases hab with hab | hab
    · have : c.railNumber 0 = c.place a := by
        unfold CombinedTrack.railNumber
        rw [List.head?_eq_getElem?] at ha
        simp [ha]
      rw [hab, ← this, h1]
    · have : c.railNumber (m - 1) = c.place b := by
        unfold CombinedTrack.railNumber
        rw [List.getLast?_eq_getElem?, hlen] at hb
        simp [hb]
      rw [hab, ← this, h2]
  · exact h3 _ hx d ((u2 _ hx d).1 hn)
  · rw [hx]
    exact h4 p hp e he d

theorem SoundTrack.raised_rail (_ : SoundTrack c m l) (h : ℕ → ℝ) (slope : ℝ) (x : ι) (hx : x ∈ c.rail) (d : Fin 3) :
    Spec.raised (c.rail.map c.place) (c.sleepers.map c.place) h slope (c.place x) d = ![0, h (c.place x), slope] d := by
  unfold Spec.raised
  rw [if_pos (List.mem_map_of_mem hx)]

theorem SoundTrack.raised_sleeper (s : SoundTrack c m l) (h : ℕ → ℝ) (slope : ℝ) (x : ι) (hx : x ∈ c.sleepers) (d : Fin 3) :
    Spec.raised (c.rail.map c.place) (c.sleepers.map c.place) h slope (c.place x) d = ![0, h (c.place x), 0] d := by
  unfold Spec.raised
  rw [if_neg, if_pos (List.mem_map_of_mem hx)]
  intro hc
  obtain ⟨y, hy, e⟩ := List.mem_map.mp hc
  have := s.place_inj y x (s.rail_mem y hy) e
  exact s.rail_sleeper x (this ▸ hy) hx

theorem SoundTrack.raised_bottom (s : SoundTrack c m l) (h : ℕ → ℝ) (slope : ℝ) (p : List (ι × ι) × List ι) (hp : p ∈ c.soils)
    (e : ι × ι) (he : e ∈ p.1) (d : Fin 3) :
    Spec.raised (c.rail.map c.place) (c.sleepers.map c.place) h slope (c.place e.2) d = 0 := by
  obtain ⟨h1, h2⟩ := s.bottom_apart p hp e he
  unfold Spec.raised
  rw [if_neg, if_neg]
  · intro hc
    obtain ⟨y, hy, e'⟩ := List.mem_map.mp hc
    exact h2 (s.place_inj y _ (s.sleeper_mem y hy) e' ▸ hy)
  · intro hc
    obtain ⟨y, hy, e'⟩ := List.mem_map.mp hc
    exact h1 (s.place_inj y _ (s.rail_mem y hy) e' ▸ hy)

theorem springSum_congr (es : List (ℕ × ℕ)) (fs : List (Fin 3 → ℝ)) (f g : ℕ × ℕ → ℝ) (h : ∀ e ∈ es, f e = g e) :
    Spec.springSum es fs f = Spec.springSum es fs g := by
  unfold Spec.springSum
  congr 1
  apply List.map_congr_left
  intro x hx
  rw [h _ (List.of_mem_zip hx).1]

theorem springSum_zero (es : List (ℕ × ℕ)) (fs : List (Fin 3 → ℝ)) (f : ℕ × ℕ → ℝ) (h : ∀ e ∈ es, f e = 0) :
    Spec.springSum es fs f = 0 := by
  rw [springSum_congr es fs f (fun _ => 0) h]
  unfold Spec.springSum
  simp

theorem springSum_neg (es : List (ℕ × ℕ)) (fs : List (Fin 3 → ℝ)) (f : ℕ × ℕ → ℝ) :
    Spec.springSum es fs (fun e => -f e) = -Spec.springSum es fs f := by
  unfold Spec.springSum
  generalize es.zip fs = xs
  induction xs with
  | nil => simp
  | cons x xs ih => simp only [List.map_cons, List.sum_cons, ih]; ring

theorem vertical_only (h : ℝ) (d : Fin 3) (hd : d ≠ 1) : (![0, h, 0] : Fin 3 → ℝ) d = 0 := by
  fin_cases d
  · rfl
  · exact absurd rfl hd
  · rfl

set_option maxHeartbeats 1000000 in
/-- The forces of a track in order balance the forces that do the work `W`. -/
theorem SoundTrack.balance (s : SoundTrack c m l) {v : TrackValues} {soils : List (RodValues ℝ)} (hs : c.soils.length ≤ soils.length)
    (k : KeptValues l v soils) (hpad : ∀ x ∈ c.sleepers, ∃ e ∈ c.pads, e.2 = x) (a b : ι) (ha : c.rail.head? = some a)
    (hb : c.rail.getLast? = some b) (row : List (NodeRow ℝ)) (beams pads : List (Fin 3 → ℝ)) (soilF : List (List (Fin 3 → ℝ)))
    (h : (c.partsOf l v soils).parts.map (fun p => p.elementForces row) = beams :: pads :: [] :: soilF) (W : Spec.NodalField ℝ → ℝ)
    (hW : ∀ δ, Spec.Admissible (c.inputOf l v soils a b true) δ → Spec.systemWork AssemblyPart.stiffness (c.partsOf l v soils).parts δ
      (Spec.fieldOfRows row NodeRow.displacement) = W δ) (pos : ℕ → ℝ) (hpos : ∀ x ∈ c.meshNodes, pos (c.place x) = (c.store x).pos 0) :
    Spec.RailBalanced m l beams (fun k => Spec.springsBelow (c.placeAll c.pads) pads (c.railNumber k))
      (fun k e => W (Spec.unitField (c.railNumber k) e)) ∧
    (∀ x ∈ c.sleepers, ((c.soils.zip soilF).map fun p => Spec.springsBelow (c.placeAll p.1.1) p.2 (c.place x)).sum -
      Spec.springsAbove (c.placeAll c.pads) pads (c.place x) = W (Spec.unitField (c.place x) 1)) ∧
    ((c.soils.zip soilF).map fun p => Spec.springSum (c.placeAll p.1.1) p.2 fun _ => 1).sum =
      W (Spec.raised (c.rail.map c.place) (c.sleepers.map c.place) (fun _ => 1) 0) ∧
    ((c.soils.zip soilF).map fun p => Spec.springSum (c.placeAll p.1.1) p.2 fun e => pos e.1).sum =
      W (Spec.raised (c.rail.map c.place) (c.sleepers.map c.place) pos 1) := by
  obtain ⟨w, hw⟩ := s.some_soil hs
  have s1 : v.rail.s1 = .inf := (k.valid w hw).s1
  have s2 : v.rail.s2 = .inf := (k.valid w hw).s2
  have work := s.forces_work v soils hs s1 s2 row beams pads soilF h
  have htwo := s.two
  have adm := s.admissible hs k hpad a b ha hb
  have padMem : ∀ e ∈ c.placeAll c.pads, ∃ x ∈ c.rail, ∃ y ∈ c.sleepers, e = (c.place x, c.place y) ∧
      (c.store y).pos 0 = (c.store x).pos 0 := by
    intro e he
    obtain ⟨q, hq, rfl⟩ := List.mem_map.mp he
    obtain ⟨q1, q2, q3⟩ := s.pads q hq
    exact ⟨q.1, q1, q.2, q2, rfl, q3⟩
  have soilMem : ∀ p ∈ c.soils.zip soilF, ∀ e ∈ c.placeAll p.1.1, ∃ x ∈ c.sleepers, ∃ q ∈ c.soils, ∃ f ∈ q.1,
      e = (c.place x, c.place f.2) := by
    intro p hp e he
    obtain ⟨q, hq, rfl⟩ := List.mem_map.mp he
    have hp' := (List.of_mem_zip hp).1
    exact ⟨q.1, (s.soils p.1 hp' q hq).1, p.1, hp', q, hq, rfl⟩
  have soilSum : ∀ f g : ℕ × ℕ → ℝ, (∀ p ∈ c.soils.zip soilF, ∀ e ∈ c.placeAll p.1.1, f e = g e) →
      ((c.soils.zip soilF).map fun p => Spec.springSum (c.placeAll p.1.1) p.2 f).sum =
        ((c.soils.zip soilF).map fun p => Spec.springSum (c.placeAll p.1.1) p.2 g).sum := by
    intro f g hfg
    congr 1
    exact List.map_congr_left fun p hp => springSum_congr _ _ _ _ (hfg p hp)
  have soilZero : ∀ f : ℕ × ℕ → ℝ, (∀ p ∈ c.soils.zip soilF, ∀ e ∈ c.placeAll p.1.1, f e = 0) →
      ((c.soils.zip soilF).map fun p => Spec.springSum (c.placeAll p.1.1) p.2 f).sum = 0 := by
    intro f hf
    apply List.sum_eq_zero
    intro z hz
    obtain ⟨p, hp, rfl⟩ := List.mem_map.mp hz
    exact springSum_zero _ _ _ (hf p hp)
  have inj : ∀ x ∈ c.meshNodes, ∀ y, c.place x = c.place y → x = y := fun x hx y => s.place_inj x y hx
  have railSl : ∀ x ∈ c.rail, ∀ y ∈ c.sleepers, c.place x ≠ c.place y := by
    intro x hx y hy hc
    exact s.rail_sleeper y (inj x (s.rail_mem x hx) y hc ▸ hx) hy
  have botRail : ∀ q ∈ c.soils, ∀ f ∈ q.1, ∀ x ∈ c.rail, c.place f.2 ≠ c.place x := by
    intro q hq f hf x hx hc
    exact (s.bottom_apart q hq f hf).1 (inj _ (s.bottom_mem q hq f hf) x hc ▸ hx)
  have botSl : ∀ q ∈ c.soils, ∀ f ∈ q.1, ∀ x ∈ c.sleepers, c.place f.2 ≠ c.place x := by
    intro q hq f hf x hx hc
    exact (s.bottom_apart q hq f hf).2 (inj _ (s.bottom_mem q hq f hf) x hc ▸ hx)
  have unitRail : ∀ k < m, ∀ e, (e = 0 → 0 < k ∧ k + 1 < m) →
      Spec.Admissible (c.inputOf l v soils a b true) (Spec.unitField (c.railNumber k) e) := by
    intro k hk e he
    obtain ⟨x, hx, hxe, -⟩ := s.railNumber_eq k hk
    apply adm
    · unfold Spec.unitField
      rw [if_neg]
      rintro ⟨h1, h2⟩
      have := s.railNumber_inj _ _ (by omega) hk h1
      have := he h2.symm
      omega
    · unfold Spec.unitField
      rw [if_neg]
      rintro ⟨h1, h2⟩
      have := s.railNumber_inj _ _ (by omega) hk h1
      have := he h2.symm
      omega
    · intro y hy d _
      unfold Spec.unitField
      rw [if_neg]
      rintro ⟨h1, -⟩
      exact railSl x hx y hy (by rw [h1, hxe])
    · intro q hq f hf d
      unfold Spec.unitField
      rw [if_neg]
      rintro ⟨h1, -⟩
      exact botRail q hq f hf x hx (by rw [h1, hxe])
  have unitVal : ∀ j < m, ∀ k < m, ∀ d e : Fin 3, (Spec.unitField (c.railNumber k) e : Spec.NodalField ℝ) (c.railNumber j) d =
      if d = e then (if j = k then 1 else 0) else 0 := by
    intro j hj k hk d e
    unfold Spec.unitField
    by_cases hjk : j = k
    · subst hjk
      by_cases hd : d = e <;> simp [hd]
    · have : c.railNumber j ≠ c.railNumber k := fun hc => hjk (s.railNumber_inj j k hj hk hc)
      simp [this, hjk]
  have unitSoil : ∀ k < m, ∀ e, ((c.soils.zip soilF).map fun p => Spec.springSum (c.placeAll p.1.1) p.2 fun f =>
      (Spec.unitField (c.railNumber k) e : Spec.NodalField ℝ) f.1 1 - Spec.unitField (c.railNumber k) e f.2 1).sum = 0 := by
    intro k hk e
    obtain ⟨x, hx, hxe, -⟩ := s.railNumber_eq k hk
    apply soilZero
    intro p hp f hf
    obtain ⟨y, hy, q, hq, g, hg, rfl⟩ := soilMem p hp f hf
    unfold Spec.unitField
    rw [if_neg, if_neg, sub_zero]
    · rintro ⟨h1, -⟩
      exact botRail q hq g hg x hx (by rw [← hxe]; exact h1)
    · rintro ⟨h1, -⟩
      exact railSl x hx y hy (by rw [← hxe]; exact h1.symm)
  have unitPad : ∀ k < m, Spec.springSum (c.placeAll c.pads) pads (fun f =>
      (Spec.unitField (c.railNumber k) 1 : Spec.NodalField ℝ) f.1 1 - Spec.unitField (c.railNumber k) 1 f.2 1) =
        Spec.springsBelow (c.placeAll c.pads) pads (c.railNumber k) := by
    intro k hk
    obtain ⟨x, hx, hxe, -⟩ := s.railNumber_eq k hk
    apply springSum_congr
    intro f hf
    obtain ⟨z, hz, y, hy, rfl, -⟩ := padMem f hf
    have : c.place y ≠ c.railNumber k := by rw [hxe]; exact (railSl x hx y hy).symm
    simp [Spec.unitField, this]
  have unitPad0 : ∀ k, ∀ e : Fin 3, e ≠ 1 → Spec.springSum (c.placeAll c.pads) pads (fun f =>
      (Spec.unitField (c.railNumber k) e : Spec.NodalField ℝ) f.1 1 - Spec.unitField (c.railNumber k) e f.2 1) = 0 := by
    intro k e he
    apply springSum_zero
    intro f hf
    simp [Spec.unitField, he.symm]
  refine ⟨⟨?_, ?_, ?_⟩, ?_, ?_, ?_⟩
  · intro k h1 h2
    have e := hW _ (unitRail k (by omega) 0 fun _ => ⟨h1, h2⟩)
    rw [work, unitSoil k (by omega), unitPad0 k 0 (by decide), add_zero, add_zero] at e
    rw [← e, ← sum_step]
    refine Finset.sum_congr rfl fun j hj => ?_
    rw [Finset.mem_range] at hj
    simp only [unitVal j (by omega) k (by omega), unitVal (j + 1) (by omega) k (by omega)]
    simp
  · intro k hk
    have e := hW _ (unitRail k hk 1 fun h => absurd h (by decide))
    rw [work, unitSoil k hk, unitPad k hk, add_zero] at e
    rw [← e, ← sum_step]
    congr 1
    refine Finset.sum_congr rfl fun j hj => ?_
    rw [Finset.mem_range] at hj
    simp only [unitVal j (by omega) k hk, unitVal (j + 1) (by omega) k hk]
    simp
  · intro k hk
    have e := hW _ (unitRail k hk 2 fun h => absurd h (by decide))
    rw [work, unitSoil k hk, unitPad0 k 2 (by decide), add_zero, add_zero] at e
    rw [← e, ← sum_step, ← sum_step_add, Finset.mul_sum, ← Finset.sum_add_distrib]
    refine Finset.sum_congr rfl fun j hj => ?_
    rw [Finset.mem_range] at hj
    simp only [unitVal j (by omega) k hk, unitVal (j + 1) (by omega) k hk]
    simp
    ring
  · intro x hx
    have hadm : Spec.Admissible (c.inputOf l v soils a b true) (Spec.unitField (c.place x) 1) := by
      apply adm
      · simp [Spec.unitField]
      · simp [Spec.unitField]
      · intro y hy d hd
        simp [Spec.unitField, hd]
      · intro q hq f hf d
        unfold Spec.unitField
        rw [if_neg]
        rintro ⟨h1, -⟩
        exact botSl q hq f hf x hx h1
    have e := hW _ hadm
    have e1 : ∀ k < m, ∀ d, (Spec.unitField (c.place x) 1 : Spec.NodalField ℝ) (c.railNumber k) d = 0 := by
      intro k hk d
      obtain ⟨y, hy, hye, -⟩ := s.railNumber_eq k hk
      unfold Spec.unitField
      rw [if_neg]
      rintro ⟨h1, -⟩
      exact railSl y hy x hx (by rw [← hye]; exact h1)
    rw [work, Finset.sum_eq_zero, zero_add] at e
    · have e2 : Spec.springSum (c.placeAll c.pads) pads (fun f =>
          (Spec.unitField (c.place x) 1 : Spec.NodalField ℝ) f.1 1 - Spec.unitField (c.place x) 1 f.2 1) =
          -Spec.springsAbove (c.placeAll c.pads) pads (c.place x) := by
        unfold Spec.springsAbove
        rw [← springSum_neg]
        apply springSum_congr
        intro f hf
        obtain ⟨z, hz, y, hy, rfl, -⟩ := padMem f hf
        simp [Spec.unitField, railSl z hz x hx]
      have e3 : ((c.soils.zip soilF).map fun p => Spec.springSum (c.placeAll p.1.1) p.2 fun f =>
          (Spec.unitField (c.place x) 1 : Spec.NodalField ℝ) f.1 1 - Spec.unitField (c.place x) 1 f.2 1).sum =
          ((c.soils.zip soilF).map fun p => Spec.springsBelow (c.placeAll p.1.1) p.2 (c.place x)).sum := by
        apply soilSum
        intro p hp f hf
        obtain ⟨y, hy, q, hq, g, hg, rfl⟩ := soilMem p hp f hf
        simp [Spec.unitField, botSl q hq g hg x hx]
      rw [e2, e3] at e
      rw [← e]
      ring
    · intro j hj
      rw [Finset.mem_range] at hj
      simp [e1 j (by omega), e1 (j + 1) (by omega)]
  · have hadm : Spec.Admissible (c.inputOf l v soils a b true)
        (Spec.raised (c.rail.map c.place) (c.sleepers.map c.place) (fun _ => 1) 0) := by
      apply adm
      · obtain ⟨y, hy, hye, -⟩ := s.railNumber_eq 0 (by omega)
        rw [hye, s.raised_rail _ _ y hy]; rfl
      · obtain ⟨y, hy, hye, -⟩ := s.railNumber_eq (m - 1) (by omega)
        rw [hye, s.raised_rail _ _ y hy]; rfl
      · intro y hy d hd
        rw [s.raised_sleeper _ _ y hy, vertical_only _ d hd]
      · intro q hq f hf d
        exact s.raised_bottom _ _ q hq f hf d
    have e := hW _ hadm
    rw [work, Finset.sum_eq_zero, springSum_zero, zero_add, zero_add] at e
    · rw [← e]
      apply soilSum
      intro p hp f hf
      obtain ⟨y, hy, q, hq, g, hg, rfl⟩ := soilMem p hp f hf
      simp only [s.raised_sleeper _ _ y hy, s.raised_bottom _ _ q hq g hg]
      simp
    · intro f hf
      obtain ⟨z, hz, y, hy, rfl, -⟩ := padMem f hf
      simp only [s.raised_sleeper _ _ y hy, s.raised_rail _ _ z hz]
      simp
    · intro j hj
      rw [Finset.mem_range] at hj
      obtain ⟨y, hy, hye, -⟩ := s.railNumber_eq j (by omega)
      obtain ⟨z, hz, hze, -⟩ := s.railNumber_eq (j + 1) (by omega)
      simp only [hye, hze, s.raised_rail _ _ y hy, s.raised_rail _ _ z hz]
      simp
  · have hadm : Spec.Admissible (c.inputOf l v soils a b true)
        (Spec.raised (c.rail.map c.place) (c.sleepers.map c.place) pos 1) := by
      apply adm
      · obtain ⟨y, hy, hye, -⟩ := s.railNumber_eq 0 (by omega)
        rw [hye, s.raised_rail _ _ y hy]; rfl
      · obtain ⟨y, hy, hye, -⟩ := s.railNumber_eq (m - 1) (by omega)
        rw [hye, s.raised_rail _ _ y hy]; rfl
      · intro y hy d hd
        rw [s.raised_sleeper _ _ y hy, vertical_only _ d hd]
      · intro q hq f hf d
        exact s.raised_bottom _ _ q hq f hf d
    have e := hW _ hadm
    rw [work, Finset.sum_eq_zero, springSum_zero, zero_add, zero_add] at e
    · rw [← e]
      apply soilSum
      intro p hp f hf
      obtain ⟨y, hy, q, hq, g, hg, rfl⟩ := soilMem p hp f hf
      simp only [s.raised_sleeper _ _ y hy, s.raised_bottom _ _ q hq g hg]
      simp
    · intro f hf
      obtain ⟨z, hz, y, hy, rfl, hzy⟩ := padMem f hf
      simp only [s.raised_sleeper _ _ y hy, s.raised_rail _ _ z hz]
      simp [hpos y (s.sleeper_mem y hy), hpos z (s.rail_mem z hz), hzy]
    · intro j hj
      rw [Finset.mem_range] at hj
      obtain ⟨y, hy, hye, yj⟩ := s.railNumber_eq j (by omega)
      obtain ⟨z, hz, hze, zj⟩ := s.railNumber_eq (j + 1) (by omega)
      have hy' := s.railPos j (by rw [s.len]; omega)
      have hz' := s.railPos (j + 1) (by rw [s.len]; omega)
      rw [List.getElem?_eq_getElem (by rw [s.len]; omega)] at yj zj
      injection yj with yj
      injection zj with zj
      rw [yj] at hy'
      rw [zj] at hz'
      simp only [hye, hze, s.raised_rail _ _ y hy, s.raised_rail _ _ z hz]
      simp [hpos y (s.rail_mem y hy), hpos z (s.rail_mem z hz), hy', hz']
      right
      ring

theorem SoundTrack.raised_deflection (s : SoundTrack c m l) (X : ℝ) (pos : ℕ → ℝ)
    (hpos : ∀ x ∈ c.meshNodes, pos (c.place x) = (c.store x).pos 0) :
    Spec.railDeflection l m c.railNumber (Spec.raised (c.rail.map c.place) (c.sleepers.map c.place) (fun _ => 1) 0) X = 1 ∧
    Spec.railDeflection l m c.railNumber (Spec.raised (c.rail.map c.place) (c.sleepers.map c.place) pos 1) X = X := by
  have htwo := s.two
  have hl := s.l_pos
  unfold Spec.railDeflection
  have he : Spec.railElementAt l m X + 1 < m := by
    unfold Spec.railElementAt
    have := min_le_right ⌊X / l⌋₊ (m - 2)
    omega
  generalize Spec.railElementAt l m X = j at he
  obtain ⟨y, hy, hye, yj⟩ := s.railNumber_eq j (by omega)
  obtain ⟨z, hz, hze, zj⟩ := s.railNumber_eq (j + 1) (by omega)
  have hy' := s.railPos j (by rw [s.len]; omega)
  have hz' := s.railPos (j + 1) (by rw [s.len]; omega)
  rw [List.getElem?_eq_getElem (by rw [s.len]; omega)] at yj zj
  injection yj with yj
  injection zj with zj
  rw [yj] at hy'
  rw [zj] at hz'
  dsimp only
  simp only [hye, hze, s.raised_rail _ _ y hy, s.raised_rail _ _ z hz]
  simp only [Matrix.cons_val_one, Matrix.cons_val, Matrix.cons_val_zero, hpos y (s.rail_mem y hy), hpos z (s.rail_mem z hz), hy', hz',
    Spec.timoDeflection]
  push_cast
  constructor
  · ring
  · field_simp
    ring

end sound

section ride
variable {H : Type*} [DecidableEq H] (hash : (Fin 3 → ℝ) → H) {r : ℕ} {d : ℝ} {segments : List (ℕ × ℝ)} {q : TrackRide} {soils : List (RodValues ℝ)}

/-- **C167** The forces of the elements that a calculation of a train on a combined track reports: per output index those of the rail elements,
pads, no sleepers, and soil springs of every segment. The pads and soil springs carry their stiffness times their elongation. With the
outer force `P` on a node in a direction, which is the share of all wheels (contact force times the deflection of the rail at the wheel when only this
node moves by one) less inertia and damping, the forces balance at every rail node and sleeper; together the soil springs carry the contact
forces less inertia and damping, and with the moments of the contact forces about the start of the rail. Partial for the reasons
given at C138. -/
theorem C167_forces_partial (v : q.ValidOn r d segments soils) (hheld : q.held = true) (k : KeptValues (d / r) q.values soils) (length : ℝ)
    (times : ℕ) (htimes : times ≤ q.time.length)
    (solver : TrimState ℝ → (List (ℕ × List (ℕ → ℝ)) → List (ℕ → ℝ) → ℕ → (ℕ → ℝ) → ℕ → ℝ) → SolverOutput ℝ)
    (hs : ∀ c run st, combinedTrack hash r d segments = .ok c → q.coupledOnCombined c length soils = .ok run →
      run.loadedTrack.input.initialise freshFlags = .ok st →
      Spec.SolvesCoupled (run.system hash st) (run.rhs hash st) times (solver (run.system hash st) (run.rhs hash st))) :
    ∃ c sys res forces, combinedTrack hash r d segments = .ok c ∧ c.system length q.values soils q.held = .ok sys ∧
      q.mainForcesOnCombined hash c length soils times solver = .ok (res, forces) ∧
      q.mainOnCombined hash c length soils times solver = .ok res ∧
      res.trackRows.length = times ∧ res.trainRows.length = times ∧ forces.length = times ∧
      ∀ t (h1 : t < res.trackRows.length) (h2 : t < res.trainRows.length),
        let u := Spec.fieldOfRows res.trackRows[t] NodeRow.displacement
        let u' := Spec.fieldOfRows res.trackRows[t] NodeRow.velocity
        let u'' := Spec.fieldOfRows res.trackRows[t] NodeRow.acceleration
        let y := Spec.reportedDof (q.partRow hash res.trainRows[t]) NodeRow.displacement
        let wheel := fun w => q.train.wheelList.getD w (0, 0)
        let X := fun w => Spec.wheelX q.time q.vel (q.startOf (wheel w)) t
        let rail := fun f w => Spec.railDeflection (d / r) (railCount r segments) c.railNumber f (X w)
        let F := fun w => Spec.hertz q.G q.p
          (q.G * (-q.staticLoad (wheel w)) ^ (1 / q.p) + rail u w - y (.wheelY (wheel w).1 (wheel w).2) - q.irr w t)
        let motion := Spec.motionWork sys (Spec.rayleighMass q.isRayleigh q.ratio q.w1 q.w2)
          (Spec.rayleighStiffness q.isRayleigh q.ratio q.w1 q.w2) u' u''
        let P := fun i e => -∑ w ∈ range q.train.wheelList.length, F w * rail (Spec.unitField i e) w - motion (Spec.unitField i e)
        let pos := fun i => ((c.numbered length).store i).pos 0
        ∃ beams pads soilF, forces[t]? = some (beams :: pads :: [] :: soilF) ∧
          beams.length + 1 = railCount r segments ∧ soilF.length = segments.length ∧
          pads = c.pads.map (fun e => ![q.values.pad.stiffness * (u (c.place e.1) 1 - u (c.place e.2) 1), 0, 0]) ∧
          (∀ (j : ℕ) w p, soils[j]? = some w → c.soils[j]? = some p →
            soilF[j]? = some (p.1.map fun e => ![w.stiffness * u (c.place e.1) 1, 0, 0])) ∧
          Spec.RailBalanced (railCount r segments) (d / r) beams
            (fun k => Spec.springsBelow (c.placeAll c.pads) pads (c.railNumber k)) (fun k e => P (c.railNumber k) e) ∧
          (∀ x ∈ c.sleepers, ((c.soils.zip soilF).map fun p => Spec.springsBelow (c.placeAll p.1.1) p.2 (c.place x)).sum -
            Spec.springsAbove (c.placeAll c.pads) pads (c.place x) = P (c.place x) 1) ∧
          ((c.soils.zip soilF).map fun p => Spec.springSum (c.placeAll p.1.1) p.2 fun _ => 1).sum =
            -∑ w ∈ range q.train.wheelList.length, F w -
              motion (Spec.raised (c.rail.map c.place) (c.sleepers.map c.place) (fun _ => 1) 0) ∧
          ((c.soils.zip soilF).map fun p => Spec.springSum (c.placeAll p.1.1) p.2 fun e => pos e.1).sum =
            -∑ w ∈ range q.train.wheelList.length, F w * X w -
              motion (Spec.raised (c.rail.map c.place) (c.sleepers.map c.place) pos 1) := by
  obtain ⟨c, sys, res, hc, hsys, hmain, hl1, hl2, h⟩ := C138_motion_partial hash v length times htimes solver hs
  obtain ⟨c', hc', s, -, -, -, -, hpads, -, hlen, -⟩ := C136_structure hash v.good
  rw [hc] at hc'
  injection hc' with hc'
  subst hc'
  have hs' : c.soils.length ≤ soils.length := by have := v.enough; omega
  obtain ⟨a, b, ha, hb, hsys'⟩ := s.system length q.values soils hs' true
  rw [hheld] at hsys
  rw [hsys'] at hsys
  injection hsys with hsys
  subst hsys
  have hpad : ∀ x ∈ c.sleepers, ∃ e ∈ c.pads, e.2 = x := by
    intro x hx
    rw [← hpads] at hx
    exact List.mem_map.mp hx
  refine ⟨c, c.inputOf (d / r) q.values soils a b true, res, trackForces (c.inputOf (d / r) q.values soils a b true) res, hc, ?_, ?_, hmain,
    hl1, hl2, by unfold trackForces; simpa using hl1, ?_⟩
  · rw [hheld, hsys']
  · unfold TrackRide.mainForcesOnCombined
    rw [hheld, hsys', hmain]
    rfl
  intro t h1 h2
  obtain ⟨-, hadm, -, -, hwork, -⟩ := h t h1 h2
  set row := res.trackRows[t] with hrow
  have hf : (trackForces (c.inputOf (d / r) q.values soils a b true) res)[t]? =
      some ((c.partsOf (d / r) q.values soils).parts.map fun p => p.elementForces row) := by
    unfold trackForces
    rw [List.getElem?_map, List.getElem?_eq_getElem h1]
    rfl
  rw [s.forces] at hf
  intro u u' u'' y wheel X rail F motion P pos
  have hpos : ∀ x ∈ c.meshNodes, pos (c.place x) = (c.store x).pos 0 := fun x hx => by
    show ((c.numbered length).store (c.place x)).pos 0 = _
    rw [s.store length x hx]
  have hbal := s.balance hs' k hpad a b ha hb row _ _ _ (s.forces q.values soils row)
    (fun δ => -∑ w ∈ range q.train.wheelList.length, F w * rail δ w - motion δ) (by
      intro δ hδ
      have := hwork δ hδ
      show Spec.systemWork AssemblyPart.stiffness (c.inputOf (d / r) q.values soils a b true).parts δ u = _
      have e : motion δ = Spec.motionWork (c.inputOf (d / r) q.values soils a b true) (Spec.rayleighMass q.isRayleigh q.ratio q.w1 q.w2)
          (Spec.rayleighStiffness q.isRayleigh q.ratio q.w1 q.w2) u' u'' δ := rfl
      rw [e]
      unfold Spec.motionWork
      linear_combination this) pos hpos
  obtain ⟨b1, b2, b3, b4⟩ := hbal
  have hdef := fun w => s.raised_deflection (X w) pos hpos
  have c3 : ∀ w, rail (Spec.raised (c.rail.map c.place) (c.sleepers.map c.place) (fun _ => 1) 0) w = 1 := fun w => (hdef w).1
  have c4 : ∀ w, rail (Spec.raised (c.rail.map c.place) (c.sleepers.map c.place) pos 1) w = X w := fun w => (hdef w).2
  simp only [c3, mul_one] at b3
  simp only [c4] at b4
  refine ⟨_, _, _, hf, ?_, ?_, ?_, ?_, b1, b2, b3, b4⟩
  · have := s.two
    simp only [List.length_map, List.length_range]
    omega
  · have := v.enough
    simp only [List.length_map, List.length_zip, hlen]
    omega
  · unfold CombinedTrack.placeAll
    rw [List.map_map]
    rfl
  · intro j w p hw hp
    have hz : (soils.zip c.soils)[j]? = some (w, p) := by
      rw [List.getElem?_zip_eq_some]
      exact ⟨hw, hp⟩
    rw [List.getElem?_map, hz]
    simp only [Option.map_some, Option.some.injEq]
    unfold CombinedTrack.placeAll
    rw [List.map_map]
    apply List.map_congr_left
    intro e he
    have hp' : p ∈ c.soils := List.mem_of_getElem? hp
    have hb0 : u (c.place e.2) 1 = 0 := by
      apply hadm _ (s.place_lt _ (s.bottom_mem p hp' e he))
      left
      exact s.bottom_supported a b (List.mem_of_head? ha) (List.mem_of_getLast? hb) true p hp' e he 1
    simp only [Function.comp]
    show (![w.stiffness * (u (c.place e.1) 1 - u (c.place e.2) 1), 0, 0] : Fin 3 → ℝ) = _
    rw [hb0, sub_zero]

/-- The conditions of C167 are met by one double-dekker cart that crosses from soft to stiff soil; there is a solver (`C138_solvable`). -/
example : ∃ t, setFullTrain .doubleDekker 20 1 = .ok t ∧ ∀ track,
    (exampleRide track t).ValidOn 2 (3 / 5) [(60, 1), (50, 3)] [⟨10 ^ 7, none, some 1000⟩, ⟨10 ^ 9, none, none⟩] ∧
      (exampleRide track t).held = true ∧
      KeptValues (3 / 5 / (2 : ℕ)) (exampleRide track t).values [⟨10 ^ 7, none, some 1000⟩, ⟨10 ^ 9, none, none⟩] := by
  obtain ⟨t, ht, h⟩ := exampleRide_validOn
  refine ⟨t, ht, fun track => ⟨h track, rfl, (h track).values, bendingTrack_nonNeg.padMass, ?_, bendingTrack_railPresent,
    by norm_num [exampleRide, bendingTrack, exampleTrack], by norm_num [exampleRide, bendingTrack, exampleTrack]⟩⟩
  intro w hw
  simp only [List.mem_cons, List.not_mem_nil, or_false] at hw
  rcases hw with rfl | rfl <;> simp

end ride

end Rose
