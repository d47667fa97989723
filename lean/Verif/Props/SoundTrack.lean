/-
Tracks with any number of soil parts: geometric conditions under which the system of a combined track stands and carries a
train.
-/
import Verif.Model.CombinedTrack
import Verif.Props.DefaultRide

set_option linter.unusedSectionVars false

namespace Rose
open Finset

variable {ι : Type*} [DecidableEq ι]

/-- A combined track in order: `m ≥ 2` rail nodes on the x axis at equal distances `l`, connected to a chain; sleepers one
metre below; each pad goes down from a rail node to a sleeper; each soil part has elements, each goes down from a sleeper; the
mesh consists of the rail nodes, the sleepers and the lower ends of the soil elements, each once; every sleeper lies on
soil; there are pads below two different rail nodes. -/
structure SoundTrack (c : CombinedTrack ι ℝ) (m : ℕ) (l : ℝ) : Prop where
  two : 2 ≤ m
  l_pos : 0 < l
  len : c.rail.length = m
  railPos : ∀ i (hi : i < c.rail.length), (c.store c.rail[i]).pos = ![(i : ℝ) * l, 0, 0]
  chain : c.railElements = chainOf c.rail
  nodup : c.meshNodes.Nodup
  mem : ∀ x, x ∈ c.meshNodes ↔ x ∈ c.rail ∨ x ∈ c.sleepers ∨ ∃ s ∈ c.soils, ∃ e ∈ s.1, x = e.2
  sleeperY : ∀ x ∈ c.sleepers, (c.store x).pos 1 = -1
  pads : ∀ e ∈ c.pads, e.1 ∈ c.rail ∧ e.2 ∈ c.sleepers ∧ (c.store e.2).pos 0 = (c.store e.1).pos 0
  padNodes : ∀ x ∈ c.padNodes, x ∈ c.rail ∨ x ∈ c.sleepers
  soilElements : ∀ s ∈ c.soils, s.1 ≠ []
  soils : ∀ s ∈ c.soils, ∀ e ∈ s.1, e.1 ∈ c.sleepers ∧ (c.store e.2).pos 0 = (c.store e.1).pos 0 ∧ (c.store e.2).pos 1 < -1
  soilNodes : ∀ s ∈ c.soils, ∀ x ∈ s.2, x ∈ c.meshNodes
  onSoil : ∀ x ∈ c.sleepers, ∃ s ∈ c.soils, ∃ e ∈ s.1, e.1 = x
  twoPads : ∃ e ∈ c.pads, ∃ e' ∈ c.pads, e.1 ≠ e'.1

section sound
variable {c : CombinedTrack ι ℝ} {m : ℕ} {l : ℝ}

theorem SoundTrack.railNode (s : SoundTrack c m l) (x : ι) (hx : x ∈ c.rail) : (c.store x).pos 1 = 0 := by
  obtain ⟨i, hi, rfl⟩ := List.mem_iff_getElem.mp hx
  rw [s.railPos i hi]
  rfl

theorem SoundTrack.rail_nodup (s : SoundTrack c m l) : c.rail.Nodup := by
  rw [List.nodup_iff_injective_getElem]
  rintro ⟨a, ha⟩ ⟨b, hb⟩ h
  simp only at h
  have h1 := s.railPos a ha
  rw [h, s.railPos b hb] at h1
  have h2 := congrFun h1 0
  simp only [Matrix.cons_val_zero] at h2
  have h3 := mul_right_cancel₀ s.l_pos.ne' h2
  have : b = a := by exact_mod_cast h3
  simp [this]

theorem SoundTrack.place_lt (_ : SoundTrack c m l) (x : ι) (hx : x ∈ c.meshNodes) : c.place x < c.meshNodes.length :=
  List.idxOf_lt_length_of_mem hx

theorem SoundTrack.place_inj (_ : SoundTrack c m l) (x y : ι) (hx : x ∈ c.meshNodes) (h : c.place x = c.place y) : x = y :=
  (List.idxOf_inj hx).mp h

theorem position_numbered (c : CombinedTrack ι ℝ) (length : ℝ) (k : ℕ) (hk : k < c.meshNodes.length) :
    (c.numbered length).position k = k := by
  unfold HorizontalTrack.position CombinedTrack.numbered
  have := List.nodup_range.idxOf_getElem k (by simpa using hk : k < (List.range c.meshNodes.length).length)
  rwa [List.getElem_range] at this

theorem SoundTrack.position (s : SoundTrack c m l) (length : ℝ) (x : ι) (hx : x ∈ c.meshNodes) :
    (c.numbered length).position (c.place x) = c.place x := position_numbered c length _ (s.place_lt x hx)

theorem SoundTrack.store (s : SoundTrack c m l) (length : ℝ) (x : ι) (hx : x ∈ c.meshNodes) :
    (c.numbered length).store (c.place x) = c.store x := by
  have h := s.place_lt x hx
  simp only [CombinedTrack.numbered, List.getElem?_eq_getElem h]
  unfold CombinedTrack.place at h ⊢
  rw [List.getElem_idxOf]

theorem SoundTrack.rail_mem (s : SoundTrack c m l) (x : ι) (hx : x ∈ c.rail) : x ∈ c.meshNodes := (s.mem x).2 (Or.inl hx)

theorem SoundTrack.sleeper_mem (s : SoundTrack c m l) (x : ι) (hx : x ∈ c.sleepers) : x ∈ c.meshNodes :=
  (s.mem x).2 (Or.inr (Or.inl hx))

theorem SoundTrack.bottom_mem (s : SoundTrack c m l) (p : List (ι × ι) × List ι) (hp : p ∈ c.soils) (e : ι × ι) (he : e ∈ p.1) :
    e.2 ∈ c.meshNodes := (s.mem _).2 (Or.inr (Or.inr ⟨p, hp, e, he, rfl⟩))

/-- Lower ends of soil elements are neither rail nodes nor sleepers. -/
theorem SoundTrack.bottom_apart (s : SoundTrack c m l) (p : List (ι × ι) × List ι) (hp : p ∈ c.soils) (e : ι × ι) (he : e ∈ p.1) :
    e.2 ∉ c.rail ∧ e.2 ∉ c.sleepers := by
  obtain ⟨-, -, h⟩ := s.soils p hp e he
  constructor
  · intro hc
    rw [s.railNode _ hc] at h
    linarith
  · intro hc
    rw [s.sleeperY _ hc] at h
    linarith

theorem SoundTrack.even (s : SoundTrack c m l) (length : ℝ) : EvenRail (c.numbered length) m l := by
  have hnd := s.rail_nodup
  have hlen := s.len
  refine ⟨s.two, s.l_pos, by simpa [CombinedTrack.numbered] using hlen, ?_, ?_, ?_⟩
  · refine List.Nodup.map_on (fun a ha b _ hab => ?_) hnd
    exact s.place_inj a b (s.rail_mem a ha) hab
  · show c.placeAll c.railElements = chainOf (c.rail.map c.place)
    rw [chainOf_map, s.chain]
    rfl
  · intro k hk
    have hk' : k < c.rail.length := by omega
    have e : (c.numbered length).rail.getD k 0 = c.place c.rail[k] := by
      show (c.rail.map c.place).getD k 0 = _
      rw [List.getD_eq_getElem _ _ (by simpa using hk'), List.getElem_map]
    rw [e, s.store length _ (s.rail_mem _ (List.getElem_mem hk')), s.railPos k hk']

/-- The parts of a combined track with the given values of its soil parts. -/
noncomputable def CombinedTrack.partsOf (c : CombinedTrack ι ℝ) (l : ℝ) (v : TrackValues) (soils : List (RodValues ℝ)) : TrackParts ℝ :=
  { beam := { v.rail with l := l }
    rail := c.rail.map c.place
    railNodes := c.rail.map c.place
    pad := v.pad
    pads := c.placeAll c.pads
    padNodes := c.padNodes.map c.place
    sleeperMass := v.sleeperMass
    sleepers := c.sleepers.map c.place
    soils := (soils.zip c.soils).map fun s => (s.1, c.placeAll s.2.1, s.2.2.map c.place) }

/-- The boundaries of a combined track. -/
def CombinedTrack.supports (c : CombinedTrack ι ℝ) (a b : ι) (held : Bool) : List ConstraintPart :=
  (if held then [⟨[c.place a, c.place b], ![false, true, true]⟩] else []) ++
    c.soils.map fun s => ⟨s.1.map fun e => c.place e.2, ![false, false, false]⟩

/-- The system of a combined track whose rail has the end nodes `a` and `b`. -/
noncomputable def CombinedTrack.inputOf (c : CombinedTrack ι ℝ) (l : ℝ) (v : TrackValues) (soils : List (RodValues ℝ)) (a b : ι)
    (held : Bool) : SystemInput ℝ :=
  { n := c.meshNodes.length, parts := (c.partsOf l v soils).parts, loads := v.loads, constraints := c.supports a b held,
    isRayleigh := v.isRayleigh, ratio := v.ratio, w1 := v.w1, w2 := v.w2 }

theorem SoundTrack.placed_down (s : SoundTrack c m l) (length : ℝ) (es : List (ι × ι))
    (h : ∀ e ∈ es, e.1 ∈ c.meshNodes ∧ e.2 ∈ c.meshNodes ∧ (c.store e.2).pos 0 = (c.store e.1).pos 0 ∧
      (c.store e.2).pos 1 < (c.store e.1).pos 1) :
    (c.numbered length).placed (c.placeAll es) = downElements (c.placeAll es) := by
  unfold HorizontalTrack.placed downElements CombinedTrack.placeAll
  rw [List.map_map, List.map_map]
  apply List.map_congr_left
  intro e he
  obtain ⟨h1, h2, h3, h4⟩ := h e he
  simp only [Function.comp]
  rw [s.store length _ h1, s.store length _ h2, s.position length _ h1, s.position length _ h2, h3, rotation_down _ _ _ h4]
  simp

theorem SoundTrack.placed_rail (s : SoundTrack c m l) (length : ℝ) :
    (c.numbered length).placed (c.numbered length).railElements = horizontalElements (chainOf (c.rail.map c.place)) := by
  have hmem := s.rail_mem
  unfold HorizontalTrack.placed horizontalElements
  show (c.placeAll c.railElements).map _ = _
  rw [chainOf_map, s.chain, CombinedTrack.placeAll, List.map_map, List.map_map]
  apply List.map_congr_left
  intro e he
  obtain ⟨i, hi, rfl⟩ := List.mem_iff_getElem.mp he
  have hi' : i + 1 < c.rail.length := by
    simp only [chainOf, List.length_zip, List.length_tail] at hi
    omega
  simp only [chainOf, List.getElem_zip, List.getElem_tail, Function.comp]
  have h1 := hmem _ (List.getElem_mem (by omega : i < c.rail.length))
  have h2 := hmem _ (List.getElem_mem hi')
  rw [s.store length _ h1, s.store length _ h2, s.position length _ h1, s.position length _ h2, s.railPos i (by omega),
    s.railPos (i + 1) hi']
  simp only [Matrix.cons_val_zero, Matrix.cons_val_one]
  rw [rotation_right]
  · simp
  · have := s.l_pos
    push_cast
    linarith

theorem SoundTrack.soil_down (s : SoundTrack c m l) (p : List (ι × ι) × List ι) (hp : p ∈ c.soils) (e : ι × ι) (he : e ∈ p.1) :
    e.1 ∈ c.meshNodes ∧ e.2 ∈ c.meshNodes ∧ (c.store e.2).pos 0 = (c.store e.1).pos 0 ∧
      (c.store e.2).pos 1 < (c.store e.1).pos 1 := by
  obtain ⟨h1, h2, h3⟩ := s.soils p hp e he
  refine ⟨s.sleeper_mem _ h1, s.bottom_mem p hp e he, h2, ?_⟩
  rw [s.sleeperY _ h1]
  exact h3

theorem SoundTrack.pad_down (s : SoundTrack c m l) (e : ι × ι) (he : e ∈ c.pads) :
    e.1 ∈ c.meshNodes ∧ e.2 ∈ c.meshNodes ∧ (c.store e.2).pos 0 = (c.store e.1).pos 0 ∧
      (c.store e.2).pos 1 < (c.store e.1).pos 1 := by
  obtain ⟨h1, h2, h3⟩ := s.pads e he
  refine ⟨s.rail_mem _ h1, s.sleeper_mem _ h2, h3, ?_⟩
  rw [s.railNode _ h1, s.sleeperY _ h2]
  norm_num

theorem SoundTrack.map_position (s : SoundTrack c m l) (length : ℝ) (xs : List ι) (h : ∀ x ∈ xs, x ∈ c.meshNodes) :
    (xs.map c.place).map (c.numbered length).position = xs.map c.place := by
  rw [List.map_map]
  exact List.map_congr_left fun x hx => s.position length x (h x hx)

/-- The system of a track in order with values for all its soil parts. -/
theorem SoundTrack.system (s : SoundTrack c m l) (length : ℝ) (v : TrackValues) (soils : List (RodValues ℝ))
    (hs : c.soils.length ≤ soils.length) (held : Bool) :
    ∃ a b, c.rail.head? = some a ∧ c.rail.getLast? = some b ∧
      c.system length v soils held = .ok (c.inputOf l v soils a b held) := by
  have htwo := s.two
  have hlen := s.len
  have hne : c.rail ≠ [] := by
    intro h0
    rw [h0] at hlen
    simp at hlen
    omega
  refine ⟨c.rail.head hne, c.rail.getLast hne, List.head?_eq_some_head hne, List.getLast?_eq_some_getLast hne, ?_⟩
  have hhead : (c.numbered length).rail.head? = some (c.place (c.rail.head hne)) := by
    show (c.rail.map c.place).head? = _
    rw [List.head?_map, List.head?_eq_some_head hne]
    rfl
  have hlast : (c.numbered length).rail.getLast? = some (c.place (c.rail.getLast hne)) := by
    show (c.rail.map c.place).getLast? = _
    rw [List.getLast?_map, List.getLast?_eq_some_getLast hne]
    rfl
  have hbot : (c.soils.mapM fun p => bottomBoundary (fun k => ((c.numbered length).store k).pos 1)
      ((c.placeAll p.1).map fun e => [e.1, e.2])) = .ok (c.soils.map fun p => p.1.map fun e => c.place e.2) := by
    refine mapM_eq_map _ _ _ fun p hp => ?_
    have e : ((c.placeAll p.1).map fun e => [e.1, e.2]) = p.1.map fun e => [c.place e.1, c.place e.2] := by
      unfold CombinedTrack.placeAll
      rw [List.map_map]
      rfl
    rw [e]
    refine bottomBoundary_pairs _ p.1 (fun e => c.place e.1) (fun e => c.place e.2) fun e he => ?_
    obtain ⟨h1, h2, -, h4⟩ := s.soil_down p hp e he
    rw [s.store length _ h1, s.store length _ h2]
    exact h4
  have hrail := s.map_position length c.rail s.rail_mem
  have hsl := s.map_position length c.sleepers s.sleeper_mem
  have hpn := s.map_position length c.padNodes fun x hx => (s.padNodes x hx).elim (s.rail_mem x) (s.sleeper_mem x)
  have hsoil : ((soils.zip c.soils).map fun p => rodAssembly p.1 ((c.numbered length).placed (c.placeAll p.2.1))
      ((p.2.2.map c.place).map (c.numbered length).position)) =
      ((c.partsOf l v soils).soils.map fun p => rodAssembly p.1 (downElements p.2.1) p.2.2) := by
    unfold CombinedTrack.partsOf
    rw [List.map_map]
    apply List.map_congr_left
    intro p hp
    have hp2 := (List.of_mem_zip hp).2
    simp only [Function.comp]
    rw [s.placed_down length p.2.1 (s.soil_down p.2 hp2), s.map_position length p.2.2 (s.soilNodes p.2 hp2)]
  have hb : ∀ b ∈ (c.soils.map fun p => p.1.map fun e => c.place e.2),
      b.map (c.numbered length).position = b := by
    intro b hb
    obtain ⟨p, hp, rfl⟩ := List.mem_map.mp hb
    rw [List.map_map]
    exact List.map_congr_left fun e he => s.position length e.2 (s.bottom_mem p hp e he)
  have ha1 := s.position length _ (s.rail_mem _ (List.head_mem hne))
  have ha2 := s.position length _ (s.rail_mem _ (List.getLast_mem hne))
  unfold CombinedTrack.system
  simp only [hbot, bind, Except.bind, if_neg (not_lt.mpr hs), hhead, hlast, (s.even length).length, Option.getD_some]
  rw [s.placed_rail length]
  have hpads : (c.numbered length).placed (c.numbered length).pads = downElements (c.placeAll c.pads) :=
    s.placed_down length c.pads s.pad_down
  rw [hpads, hsoil]
  have e1 : (c.numbered length).rail.map (c.numbered length).position = c.rail.map c.place := hrail
  have e2 : (c.numbered length).padNodes.map (c.numbered length).position = c.padNodes.map c.place := hpn
  have e3 : (c.numbered length).sleepers.map (c.numbered length).position = c.sleepers.map c.place := hsl
  have e4 : (c.numbered length).meshNodes.length = c.meshNodes.length := by simp [CombinedTrack.numbered]
  have e5 : ((c.soils.map fun p => p.1.map fun e => c.place e.2).map fun b =>
      (⟨b.map (c.numbered length).position, ![false, false, false]⟩ : ConstraintPart)) =
      c.soils.map fun p => ⟨p.1.map fun e => c.place e.2, ![false, false, false]⟩ := by
    rw [List.map_map]
    apply List.map_congr_left
    intro p hp
    simp only [Function.comp]
    rw [hb _ (List.mem_map_of_mem hp)]
  rw [e1, e2, e3, e4, e5]
  unfold CombinedTrack.inputOf CombinedTrack.supports TrackParts.parts
  simp only [List.map_cons, List.map_nil, ha1, ha2]
  rfl

/-- A soil part without values is rejected. -/
theorem SoundTrack.rejects (s : SoundTrack c m l) (length : ℝ) (v : TrackValues) (soils : List (RodValues ℝ))
    (hs : soils.length < c.soils.length) (held : Bool) : c.system length v soils held = .error .indexError := by
  have hbot : (c.soils.mapM fun p => bottomBoundary (fun k => ((c.numbered length).store k).pos 1)
      ((c.placeAll p.1).map fun e => [e.1, e.2])) = .ok (c.soils.map fun p => p.1.map fun e => c.place e.2) := by
    refine mapM_eq_map _ _ _ fun p hp => ?_
    have e : ((c.placeAll p.1).map fun e => [e.1, e.2]) = p.1.map fun e => [c.place e.1, c.place e.2] := by
      unfold CombinedTrack.placeAll
      rw [List.map_map]
      rfl
    rw [e]
    refine bottomBoundary_pairs _ p.1 (fun e => c.place e.1) (fun e => c.place e.2) fun e he => ?_
    obtain ⟨h1, h2, -, h4⟩ := s.soil_down p hp e he
    rw [s.store length _ h1, s.store length _ h2]
    exact h4
  unfold CombinedTrack.system
  simp only [hbot, bind, Except.bind, if_pos hs]

theorem SoundTrack.mesh (s : SoundTrack c m l) (v : TrackValues) (soils : List (RodValues ℝ)) (a b : ι) (held : Bool) :
    Spec.NodesInMesh (c.inputOf l v soils a b held) := by
  have hm : ∀ (es : List (ι × ι)), (∀ e ∈ es, e.1 ∈ c.meshNodes ∧ e.2 ∈ c.meshNodes) →
      ∀ e ∈ downElements (K := ℝ) (c.placeAll es), e.1.1 < c.meshNodes.length ∧ e.1.2 < c.meshNodes.length := by
    intro es hes e he
    simp only [downElements, CombinedTrack.placeAll, List.mem_map] at he
    obtain ⟨_, ⟨x, hx, rfl⟩, rfl⟩ := he
    exact ⟨s.place_lt _ (hes x hx).1, s.place_lt _ (hes x hx).2⟩
  have hn : ∀ xs : List ι, (∀ x ∈ xs, x ∈ c.meshNodes) → ∀ k ∈ xs.map c.place, k < c.meshNodes.length := by
    intro xs hxs k hk
    obtain ⟨x, hx, rfl⟩ := List.mem_map.mp hk
    exact s.place_lt x (hxs x hx)
  intro p hp
  simp only [CombinedTrack.inputOf, TrackParts.parts, CombinedTrack.partsOf, List.mem_cons, List.map_map, List.mem_map] at hp
  rcases hp with rfl | rfl | rfl | ⟨q, hq, rfl⟩
  · refine ⟨?_, hn _ s.rail_mem⟩
    intro e he
    simp only [beamAssembly, horizontalElements, List.mem_map] at he
    obtain ⟨x, hx, rfl⟩ := he
    have h1 := List.of_mem_zip hx
    exact ⟨hn _ s.rail_mem _ h1.1, hn _ s.rail_mem _ (List.mem_of_mem_tail h1.2)⟩
  · refine ⟨hm _ fun e he => ?_, hn _ fun x hx => (s.padNodes x hx).elim (s.rail_mem x) (s.sleeper_mem x)⟩
    obtain ⟨h1, h2, -⟩ := s.pads e he
    exact ⟨s.rail_mem _ h1, s.sleeper_mem _ h2⟩
  · exact ⟨by simp [sleeperAssembly], hn _ s.sleeper_mem⟩
  · have hq2 := (List.of_mem_zip hq).2
    refine ⟨hm _ fun e he => ?_, hn _ (s.soilNodes _ hq2)⟩
    obtain ⟨h1, h2, -⟩ := s.soil_down _ hq2 e he
    exact ⟨h1, h2⟩

/-- A node in a boundary, all of whose boundaries hold the direction, is supported. -/
theorem supported_of_all (l : List ConstraintPart) (i : ℕ) (d : Fin 3) (h1 : ∃ p ∈ l, i ∈ p.nodes)
    (h2 : ∀ p ∈ l, i ∈ p.nodes → p.free d = false) : Spec.Supported l i d := by
  induction l using List.reverseRecOn with
  | nil => simp at h1
  | append_singleton l p ih =>
    by_cases hp : i ∈ p.nodes
    · exact ⟨l, p, [], rfl, hp, by simp, h2 p (by simp) hp⟩
    · obtain ⟨q, hq, hi⟩ := h1
      have hq' : q ∈ l := by
        rcases List.mem_append.mp hq with h | h
        · exact h
        · rw [List.mem_singleton] at h
          subst h
          exact absurd hi hp
      obtain ⟨x, y, z, e, hy, hz, hf⟩ := ih ⟨q, hq', hi⟩ fun p hp => h2 p (by simp [hp])
      refine ⟨x, y, z ++ [p], by rw [e]; simp, hy, ?_, hf⟩
      intro r hr
      rcases List.mem_append.mp hr with h | h
      · exact hz r h
      · rw [List.mem_singleton] at h
        subst h
        exact hp

theorem SoundTrack.bottom_supported (s : SoundTrack c m l) (a b : ι) (ha : a ∈ c.rail) (hb : b ∈ c.rail) (held : Bool)
    (p : List (ι × ι) × List ι) (hp : p ∈ c.soils) (e : ι × ι) (he : e ∈ p.1) (d : Fin 3) :
    Spec.Supported (c.supports a b held) (c.place e.2) d := by
  apply supported_of_all
  · refine ⟨_, List.mem_append_right _ (List.mem_map_of_mem hp), ?_⟩
    exact List.mem_map.mpr ⟨e, he, rfl⟩
  · intro q hq hi
    rcases List.mem_append.mp hq with h | h
    · cases held with
      | false => simp at h
      | true =>
        simp only [if_true, List.mem_singleton] at h
        subst h
        have hap := (s.bottom_apart p hp e he).1
        have hmem := s.bottom_mem p hp e he
        simp only [List.mem_cons, List.not_mem_nil, or_false] at hi
        rcases hi with hi | hi
        · exact absurd (s.place_inj _ _ hmem hi ▸ ha) hap
        · exact absurd (s.place_inj _ _ hmem hi ▸ hb) hap
    · obtain ⟨x, -, rfl⟩ := List.mem_map.mp h
      fin_cases d <;> rfl

/-- Rail nodes and sleepers are not held from below. -/
theorem SoundTrack.not_bottom (s : SoundTrack c m l) (x : ι) (hx : x ∈ c.rail ∨ x ∈ c.sleepers) (p : List (ι × ι) × List ι)
    (hp : p ∈ c.soils) : c.place x ∉ p.1.map fun e => c.place e.2 := by
  intro h
  obtain ⟨e, he, h⟩ := List.mem_map.mp h
  have := s.place_inj _ _ (s.bottom_mem p hp e he) h
  have hap := s.bottom_apart p hp e he
  rw [this] at hap
  exact hx.elim hap.1 hap.2

theorem SoundTrack.side_supported (s : SoundTrack c m l) (a b : ι) (ha : a ∈ c.rail) :
    Spec.Supported (c.supports a b true) (c.place a) 0 := by
  refine ⟨[], ⟨[c.place a, c.place b], ![false, true, true]⟩, _, rfl, by simp, ?_, rfl⟩
  intro q hq
  obtain ⟨p, hp, rfl⟩ := List.mem_map.mp hq
  exact s.not_bottom a (Or.inl ha) p hp

theorem SoundTrack.soils_ne (s : SoundTrack c m l) : c.soils ≠ [] := by
  obtain ⟨e, he, -⟩ := s.twoPads
  obtain ⟨p, hp, -⟩ := s.onSoil _ (s.pads e he).2.1
  exact List.ne_nil_of_mem hp

theorem SoundTrack.nonEmpty (s : SoundTrack c m l) (v : TrackValues) (soils : List (RodValues ℝ)) :
    (c.partsOf l v soils).NonEmpty := by
  refine ⟨?_, ?_, ?_⟩
  · have := s.two
    have := s.len
    simp only [CombinedTrack.partsOf, List.length_map]
    omega
  · obtain ⟨e, he, -⟩ := s.twoPads
    exact List.ne_nil_of_mem (List.mem_map_of_mem he)
  · intro q hq
    obtain ⟨p, hp, rfl⟩ := List.mem_map.mp hq
    have := s.soilElements _ (List.of_mem_zip hp).2
    simpa [CombinedTrack.placeAll] using this

theorem zip_right_mem {α β : Type*} (as : List α) (bs : List β) (h : bs.length ≤ as.length) (b : β) (hb : b ∈ bs) :
    ∃ a, (a, b) ∈ as.zip bs := by
  obtain ⟨i, hi, rfl⟩ := List.mem_iff_getElem.mp hb
  exact ⟨as[i], List.mem_iff_getElem.mpr ⟨i, by simp; omega, by simp⟩⟩

/-- A track in order with admissible values stands. -/
theorem SoundTrack.standing (s : SoundTrack c m l) (v : TrackValues) (soils : List (RodValues ℝ))
    (hs : c.soils.length ≤ soils.length) (hv : ∀ w ∈ soils, ({ v with soil := w } : TrackValues).Valid) (a b : ι)
    (ha : a ∈ c.rail) (hb : b ∈ c.rail) (held : Bool) :
    Standing (c.inputOf l v soils a b held) (c.partsOf l v soils) := by
  obtain ⟨p0, hp0⟩ := List.exists_mem_of_ne_nil _ s.soils_ne
  obtain ⟨w0, hw0⟩ := zip_right_mem soils c.soils hs p0 hp0
  have hv0 := hv w0 (List.of_mem_zip hw0).1
  refine ⟨rfl, s.nonEmpty v soils, s.mesh v soils a b held, hv0.beam s.l_pos, hv0.s1, hv0.s2, hv0.pad, ?_, ?_, ?_, ?_, ?_,
    ?_, ?_⟩
  · intro q hq
    obtain ⟨p, hp, rfl⟩ := List.mem_map.mp hq
    exact (hv p.1 (List.of_mem_zip hp).1).soil
  · intro i hi
    have hi' : i < c.meshNodes.length := hi
    have hx := (s.mem _).1 (List.getElem_mem hi')
    have hpl : c.place c.meshNodes[i] = i := s.nodup.idxOf_getElem i hi'
    rcases hx with hx | hx | ⟨p, hp, e, he, hx⟩
    · left
      exact List.mem_map.mpr ⟨_, hx, hpl⟩
    · right; left
      exact List.mem_map.mpr ⟨_, hx, hpl⟩
    · right; right
      intro d
      have := s.bottom_supported a b ha hb held p hp e he d
      rwa [← hx, hpl] at this
  · intro i hi hc
    obtain ⟨x, hx, rfl⟩ := List.mem_map.mp hi
    obtain ⟨y, hy, he⟩ := List.mem_map.mp hc
    have := s.place_inj _ _ (s.rail_mem y hy) he
    rw [this] at hy
    have h1 := s.railNode x hy
    rw [s.sleeperY x hx] at h1
    norm_num at h1
  · intro e he
    obtain ⟨x, hx, rfl⟩ := List.mem_map.mp he
    obtain ⟨h1, h2, -⟩ := s.pads x hx
    exact ⟨List.mem_map_of_mem h1, List.mem_map_of_mem h2⟩
  · intro i hi
    obtain ⟨x, hx, rfl⟩ := List.mem_map.mp hi
    obtain ⟨p, hp, e, he, rfl⟩ := s.onSoil x hx
    obtain ⟨w, hw⟩ := zip_right_mem soils c.soils hs p hp
    refine ⟨_, List.mem_map_of_mem hw, (c.place e.1, c.place e.2), List.mem_map.mpr ⟨e, he, rfl⟩, rfl, ?_⟩
    exact s.bottom_supported a b ha hb held p hp e he 1
  · intro q hq e he
    obtain ⟨p, hp, rfl⟩ := List.mem_map.mp hq
    obtain ⟨x, hx, rfl⟩ := List.mem_map.mp he
    exact List.mem_map_of_mem (s.soils _ (List.of_mem_zip hp).2 x hx).1
  · obtain ⟨e, he, e', he', hne⟩ := s.twoPads
    have key : ∀ e ∈ c.pads, ∀ e' ∈ c.pads, ∀ i j, (hi : i < c.rail.length) → (hj : j < c.rail.length) → c.rail[i] = e.1 →
        c.rail[j] = e'.1 → i < j → ∃ i j a b : ℕ, i < j ∧ (c.partsOf l v soils).rail[i]? = some a ∧
          (c.partsOf l v soils).rail[j]? = some b ∧ (∃ e ∈ (c.partsOf l v soils).pads, e.1 = a) ∧
          ∃ e ∈ (c.partsOf l v soils).pads, e.1 = b := by
      intro e he e' he' i j hi hj h1 h2 hij
      refine ⟨i, j, c.place e.1, c.place e'.1, hij, ?_, ?_, ?_, ?_⟩
      · simp [CombinedTrack.partsOf, List.getElem?_eq_getElem hi, h1]
      · simp [CombinedTrack.partsOf, List.getElem?_eq_getElem hj, h2]
      · exact ⟨_, List.mem_map_of_mem he, rfl⟩
      · exact ⟨_, List.mem_map_of_mem he', rfl⟩
    obtain ⟨i, hi, h1⟩ := List.mem_iff_getElem.mp (s.pads e he).1
    obtain ⟨j, hj, h2⟩ := List.mem_iff_getElem.mp (s.pads e' he').1
    rcases lt_trichotomy i j with hij | hij | hij
    · exact key e he e' he' i j hi hj h1 h2 hij
    · subst hij
      exact absurd (h1.symm.trans h2) hne
    · exact key e' he' e he j i hj hi h2 h1 hij

theorem SoundTrack.placedRail (s : SoundTrack c m l) (length : ℝ) (v : TrackValues) (soils : List (RodValues ℝ))
    (hs : c.soils.length ≤ soils.length) (hv : ∀ w ∈ soils, ({ v with soil := w } : TrackValues).Valid) (a b : ι)
    (ha : a ∈ c.rail) (hb : b ∈ c.rail) (held : Bool) : PlacedRail (c.numbered length) (c.inputOf l v soils a b held) := by
  have h := s.standing v soils hs hv a b ha hb held
  refine ⟨?_, ?_, h.mesh, h.aligned⟩
  · intro k hk
    obtain ⟨x, hx, rfl⟩ := List.mem_map.mp hk
    rw [s.position length x (s.rail_mem x hx)]
    exact s.place_lt x (s.rail_mem x hx)
  · intro k hk k' hk' he
    obtain ⟨x, hx, rfl⟩ := List.mem_map.mp hk
    obtain ⟨y, hy, rfl⟩ := List.mem_map.mp hk'
    rw [s.position length x (s.rail_mem x hx), s.position length y (s.rail_mem y hy)] at he
    exact he

end sound

/-- For every track in order with admissible values, that is held in x at the rail ends, and factors `a, b ≥ 0`: the
equations `(K + a C + b M) u = f` have exactly one solution for every right-hand side. -/
theorem SoundTrack.steps {c : CombinedTrack ι ℝ} {m : ℕ} {l : ℝ} (s : SoundTrack c m l) (length : ℝ) (v : TrackValues)
    (soils : List (RodValues ℝ)) (hs : c.soils.length ≤ soils.length)
    (hv : ∀ w ∈ soils, ({ v with soil := w } : TrackValues).Valid)
    (hm : ∀ w ∈ soils, ({ v with soil := w } : TrackValues).NonNeg) (hR : v.Rayleigh)
    (flags : ℕ → Fin 3 → Bool) (a b : ℝ) (ha : 0 ≤ a) (hb : 0 ≤ b) :
    ∃ inp st, c.system length v soils true = .ok inp ∧ inp.initialise flags = .ok st ∧
      Spec.UniquelySolvable st.N fun i j => st.Kg i j + a * st.C i j + b * st.M i j := by
  obtain ⟨x, y, hx, hy, hsys⟩ := s.system length v soils hs true
  have hx := List.mem_of_head? hx
  have hy := List.mem_of_getLast? hy
  have hstand := s.standing v soils hs hv x y hx hy true
  have hheld : ∃ m ∈ (c.partsOf l v soils).rail, Spec.Supported (c.inputOf l v soils x y true).constraints m 0 :=
    ⟨c.place x, List.mem_map_of_mem hx, s.side_supported x y hx⟩
  obtain ⟨st, hst⟩ := C106_succeeds _ hstand.mesh flags
  refine ⟨_, st, hsys, hst, solvable_of_definite _ _ fun U hU => ?_⟩
  obtain ⟨k0, k1⟩ := hstand.definite hheld flags st hst U
  have hrep := fieldOf_represents (c.inputOf l v soils x y true).n st.nodes U
  obtain ⟨-, wM, wC⟩ := C106_work_partial _ flags hstand.mesh hstand.aligned st hst U U _ _ hrep hrep
  obtain ⟨p0, hp0⟩ := List.exists_mem_of_ne_nil _ s.soils_ne
  obtain ⟨w0, hw0⟩ := zip_right_mem soils c.soils hs p0 hp0
  have hm0 := hm w0 (List.of_mem_zip hw0).1
  have m0 : 0 ≤ matrixWork st.N st.M U U := by
    rw [wM]
    show 0 ≤ Spec.systemWork AssemblyPart.mass (c.partsOf l v soils).parts _ _
    rw [track_mass _ (s.nonEmpty v soils)]
    refine add_nonneg (add_nonneg (add_nonneg ?_ ?_) ?_) ?_
    · exact list_sum_nonneg _ _ fun e _ => beam_mass_nonneg _ hstand.beam _
    · exact rodWork_nonneg _ (rodMass_option hm0.padMass) _ _
    · exact list_sum_nonneg _ _ fun m _ => mul_nonneg hm0.sleeper (sq_nonneg _)
    · refine list_sum_nonneg _ _ fun q hq => ?_
      obtain ⟨p, hp, rfl⟩ := List.mem_map.mp hq
      exact rodWork_nonneg _ (rodMass_option (hm p.1 (List.of_mem_zip hp).1).soilMass) _ _
  have d0 : 0 ≤ Spec.systemWork AssemblyPart.damping (c.inputOf l v soils x y true).parts (fieldOf st.nodes U)
      (fieldOf st.nodes U) := by
    show 0 ≤ Spec.systemWork AssemblyPart.damping (c.partsOf l v soils).parts _ _
    rw [track_damping _ (s.nonEmpty v soils)]
    refine add_nonneg ?_ ?_
    · exact rodWork_nonneg _ (rodDamping_option hm0.padDamping) _ _
    · refine list_sum_nonneg _ _ fun q hq => ?_
      obtain ⟨p, hp, rfl⟩ := List.mem_map.mp hq
      exact rodWork_nonneg _ (rodDamping_option (hm p.1 (List.of_mem_zip hp).1).soilDamping) _ _
  have r0 : 0 ≤ (rayleighPair (c.inputOf l v soils x y true)).1 ∧ 0 ≤ (rayleighPair (c.inputOf l v soils x y true)).2 := by
    unfold rayleighPair
    split_ifs with hi
    · have h1 := hR.ratio hi
      have h2 := hR.w1 hi
      have h3 := hR.w2 hi
      constructor
      · show 0 ≤ 2 * v.ratio * v.w1 * v.w2 / (v.w1 + v.w2)
        positivity
      · show 0 ≤ 2 * v.ratio / (v.w1 + v.w2)
        positivity
    · exact ⟨le_refl _, le_refl _⟩
  have c0 : 0 ≤ matrixWork st.N st.C U U := by
    rw [wC]
    exact add_nonneg (add_nonneg d0 (mul_nonneg r0.1 m0)) (mul_nonneg r0.2 k0)
  rw [matrixWork_smul_add] at hU
  have := mul_nonneg ha c0
  have := mul_nonneg hb m0
  exact k1 (by linarith)

end Rose
