/-
C157: the unknowns of a track combined from segments.
-/
import Verif.Props.CombinedTrack

set_option linter.unusedSectionVars false

namespace Rose
open Finset

section sound
variable {ι : Type*} [DecidableEq ι] {c : CombinedTrack ι ℝ} {m : ℕ} {l : ℝ}

theorem SoundTrack.rail_sleeper (s : SoundTrack c m l) (x : ι) (hx : x ∈ c.rail) (hy : x ∈ c.sleepers) : False := by
  have h1 := s.railNode x hx
  rw [s.sleeperY x hy] at h1
  norm_num at h1

/-- A support of a rail node or sleeper is one of the rail ends. -/
theorem SoundTrack.supported_end (s : SoundTrack c m l) (a b x : ι) (hx : x ∈ c.rail ∨ x ∈ c.sleepers) (d : Fin 3)
    (h : Spec.Supported (c.supports a b true) (c.place x) d) : (x = a ∨ x = b) ∧ d = 0 := by
  obtain ⟨pre, p, post, he, hi, -, hf⟩ := h
  have hp : p ∈ c.supports a b true := by rw [he]; simp
  have hxm : x ∈ c.meshNodes := hx.elim (s.rail_mem x) (s.sleeper_mem x)
  rcases List.mem_append.mp hp with h | h
  · simp only [if_true, List.mem_singleton] at h
    subst h
    constructor
    · simp only [List.mem_cons, List.not_mem_nil, or_false] at hi
      exact hi.imp (s.place_inj _ _ hxm) (s.place_inj _ _ hxm)
    · fin_cases d
      · rfl
      · simp at hf
      · simp at hf
  · obtain ⟨q, hq, rfl⟩ := List.mem_map.mp h
    exact absurd hi (s.not_bottom x hx q hq)

theorem SoundTrack.side_supported_last (s : SoundTrack c m l) (a b : ι) (hb : b ∈ c.rail) :
    Spec.Supported (c.supports a b true) (c.place b) 0 := by
  refine ⟨[], ⟨[c.place a, c.place b], ![false, true, true]⟩, _, rfl, by simp, ?_, rfl⟩
  intro q hq
  obtain ⟨p, hp, rfl⟩ := List.mem_map.mp hq
  exact s.not_bottom b (Or.inl hb) p hp

/-- Every rail node belongs to a rail element, at one of its ends. -/
theorem SoundTrack.rail_unit (s : SoundTrack c m l) (x : ι) (hx : x ∈ c.rail) (d : Fin 3) :
    ∃ e ∈ chainOf (c.rail.map c.place), ∃ q : Fin 6, sixValues (Spec.unitField (c.place x) d) e = Pi.single q (1 : ℝ) := by
  obtain ⟨i, hi, rfl⟩ := List.mem_iff_getElem.mp hx
  have htwo := s.two
  have hlen := s.len
  have hne : ∀ j (hj : j < c.rail.length), j ≠ i → c.place c.rail[j] ≠ c.place c.rail[i] := by
    intro j hj hji he
    have := s.place_inj _ _ (s.rail_mem _ (List.getElem_mem hj)) he
    exact hji ((List.Nodup.getElem_inj_iff s.rail_nodup).mp this)
  have hel : ∀ j (hj : j + 1 < c.rail.length), (c.place c.rail[j], c.place c.rail[j + 1]) ∈ chainOf (c.rail.map c.place) := by
    intro j hj
    unfold chainOf
    refine List.mem_iff_getElem.mpr ⟨j, by simp; omega, ?_⟩
    simp
  by_cases hlast : i + 1 < c.rail.length
  · refine ⟨_, hel i hlast, ⟨d, by omega⟩, ?_⟩
    have h2 := hne (i + 1) hlast (by omega)
    ext q
    fin_cases d <;> fin_cases q <;> simp [sixValues, Spec.unitField, h2]
  · obtain ⟨j, rfl⟩ : ∃ j, i = j + 1 := ⟨i - 1, by omega⟩
    refine ⟨_, hel j hi, ⟨d + 3, by omega⟩, ?_⟩
    have h1 := hne j (by omega) (by omega)
    ext q
    fin_cases d <;> fin_cases q <;> simp [sixValues, Spec.unitField, h1]

variable {v : TrackValues} {soils : List (RodValues ℝ)}

/-- What the values of track and soils have to meet for all the unknowns to be kept. -/
structure KeptValues (l : ℝ) (v : TrackValues) (soils : List (RodValues ℝ)) : Prop where
  valid : ∀ w ∈ soils, ({ v with soil := w } : TrackValues).Valid
  padMass : ∀ m, v.pad.mass = some m → 0 ≤ m
  soilMass : ∀ w ∈ soils, ∀ m, w.mass = some m → 0 ≤ m
  rail : RailPresent { v.rail with l := l }
  sleeper : 1 / 10 ^ 8 < v.sleeperMass
  pad : 1 / 10 ^ 8 < v.pad.stiffness

theorem SoundTrack.some_soil (s : SoundTrack c m l) (hs : c.soils.length ≤ soils.length) : ∃ w, w ∈ soils := by
  obtain ⟨p0, hp0⟩ := List.exists_mem_of_ne_nil _ s.soils_ne
  obtain ⟨w0, hw0⟩ := zip_right_mem soils c.soils hs p0 hp0
  exact ⟨w0, (List.of_mem_zip hw0).1⟩

/-- The terms of the work of the masses and springs that are not negative. -/
theorem SoundTrack.terms (s : SoundTrack c m l) (hs : c.soils.length ≤ soils.length) (k : KeptValues l v soils)
    (u : Spec.NodalField ℝ) :
    (∀ e, 0 ≤ Spec.energy (c.partsOf l v soils).beam.massMatrix (sixValues u e)) ∧
    (∀ e, 0 ≤ Spec.energy (c.partsOf l v soils).beam.stiffness (sixValues u e)) ∧
    0 ≤ rodWork ((c.partsOf l v soils).pad.mass.map rodMass) (c.partsOf l v soils).pads u u ∧
    (∀ x, 0 ≤ (c.partsOf l v soils).sleeperMass * u x 1 ^ 2) ∧
    0 ≤ ((c.partsOf l v soils).soils.map fun q => rodWork (q.1.mass.map rodMass) q.2.1 u u).sum ∧
    (∀ e : ℕ × ℕ, 0 ≤ (c.partsOf l v soils).pad.stiffness * (u e.2 1 - u e.1 1) ^ 2) ∧
    0 ≤ ((c.partsOf l v soils).soils.map fun q => (q.2.1.map fun e => q.1.stiffness * (u e.2 1 - u e.1 1) ^ 2).sum).sum := by
  obtain ⟨w, hw⟩ := s.some_soil hs
  have hb := (k.valid w hw).beam s.l_pos
  refine ⟨fun e => beam_mass_nonneg _ hb _, fun e => C19_beam_psd _ hb _, rodWork_nonneg _ (rodMass_option k.padMass) _ _,
    fun x => mul_nonneg (le_trans (by norm_num) k.sleeper.le) (sq_nonneg _), ?_, fun e => mul_nonneg (k.valid w hw).pad.le (sq_nonneg _), ?_⟩
  · refine list_sum_nonneg _ _ fun q hq => ?_
    obtain ⟨p, hp, rfl⟩ := List.mem_map.mp hq
    exact rodWork_nonneg _ (rodMass_option (k.soilMass p.1 (List.of_mem_zip hp).1)) _ _
  · refine list_sum_nonneg _ _ fun q hq => list_sum_nonneg _ _ fun e _ => mul_nonneg ?_ (sq_nonneg _)
    obtain ⟨p, hp, rfl⟩ := List.mem_map.mp hq
    exact (k.valid p.1 (List.of_mem_zip hp).1).soil.le

theorem SoundTrack.rail_work (s : SoundTrack c m l) (hs : c.soils.length ≤ soils.length) (k : KeptValues l v soils)
    (x : ι) (hx : x ∈ c.rail) (d : Fin 3) :
    1 / 10 ^ 8 < Spec.systemWork AssemblyPart.mass (c.partsOf l v soils).parts (Spec.unitField (c.place x) d)
      (Spec.unitField (c.place x) d) ∧
    1 / 10 ^ 8 < Spec.systemWork AssemblyPart.stiffness (c.partsOf l v soils).parts (Spec.unitField (c.place x) d)
      (Spec.unitField (c.place x) d) := by
  obtain ⟨e, he, q, hq⟩ := s.rail_unit x hx d
  obtain ⟨t1, t2, t3, t4, t5, t6, t7⟩ := s.terms hs k (Spec.unitField (c.place x) d)
  rw [track_mass _ (s.nonEmpty v soils), track_stiffness _ (s.nonEmpty v soils)]
  have h8 : (c.partsOf l v soils).beam = { v.rail with l := l } := rfl
  constructor
  · have h1 := le_sum_of_mem (chainOf (c.partsOf l v soils).rail) (fun e => Spec.energy (c.partsOf l v soils).beam.massMatrix
      (sixValues (Spec.unitField (c.place x) d) e)) (fun e _ => t1 e) e he
    simp only [hq, energy_unit] at h1
    have h2 := list_sum_nonneg (c.partsOf l v soils).sleepers _ fun x _ => t4 x
    have h5 := (k.rail q).1
    rw [h8] at h1 ⊢
    linarith
  · have h1 := le_sum_of_mem (chainOf (c.partsOf l v soils).rail) (fun e => Spec.energy (c.partsOf l v soils).beam.stiffness
      (sixValues (Spec.unitField (c.place x) d) e)) (fun e _ => t2 e) e he
    simp only [hq, energy_unit] at h1
    have h2 := list_sum_nonneg (c.partsOf l v soils).pads _ fun x _ => t6 x
    have h5 := (k.rail q).2
    rw [h8] at h1 ⊢
    linarith

theorem SoundTrack.sleeper_work (s : SoundTrack c m l) (hs : c.soils.length ≤ soils.length) (k : KeptValues l v soils)
    (hpad : ∀ x ∈ c.sleepers, ∃ e ∈ c.pads, e.2 = x) (x : ι) (hx : x ∈ c.sleepers) :
    v.sleeperMass ≤ Spec.systemWork AssemblyPart.mass (c.partsOf l v soils).parts (Spec.unitField (c.place x) 1)
      (Spec.unitField (c.place x) 1) ∧
    v.pad.stiffness ≤ Spec.systemWork AssemblyPart.stiffness (c.partsOf l v soils).parts (Spec.unitField (c.place x) 1)
      (Spec.unitField (c.place x) 1) := by
  obtain ⟨e, he, rfl⟩ := hpad x hx
  obtain ⟨t1, t2, t3, t4, t5, t6, t7⟩ := s.terms hs k (Spec.unitField (c.place e.2) 1)
  have hne : c.place e.1 ≠ c.place e.2 := by
    intro h
    have := s.place_inj _ _ (s.rail_mem _ (s.pads e he).1) h
    exact s.rail_sleeper e.2 (this ▸ (s.pads e he).1) hx
  set u : Spec.NodalField ℝ := Spec.unitField (c.place e.2) 1 with hu
  have u1 : u (c.place e.2) 1 = 1 := by simp [hu, Spec.unitField]
  have u0 : u (c.place e.1) 1 = 0 := by simp [hu, Spec.unitField, hne]
  rw [track_mass _ (s.nonEmpty v soils), track_stiffness _ (s.nonEmpty v soils)]
  constructor
  · have h1 := list_sum_nonneg (chainOf (c.partsOf l v soils).rail) _ fun e _ => t1 e
    have h3 := le_sum_of_mem (c.partsOf l v soils).sleepers (fun m => (c.partsOf l v soils).sleeperMass * u m 1 ^ 2)
      (fun m _ => t4 m) (c.place e.2) (List.mem_map_of_mem hx)
    rw [u1] at h3
    have h6 : (c.partsOf l v soils).sleeperMass = v.sleeperMass := rfl
    rw [h6] at h3 ⊢
    linarith
  · have h1 := list_sum_nonneg (chainOf (c.partsOf l v soils).rail) _ fun e _ => t2 e
    have h2 := le_sum_of_mem (c.partsOf l v soils).pads (fun e => (c.partsOf l v soils).pad.stiffness * (u e.2 1 - u e.1 1) ^ 2)
      (fun e _ => t6 e) (c.place e.1, c.place e.2) (List.mem_map.mpr ⟨e, he, rfl⟩)
    simp only [u1, u0] at h2
    have h7 : (c.partsOf l v soils).pad = v.pad := rfl
    rw [h7] at h2 ⊢
    linarith

theorem SoundTrack.sleeper_unstiff (s : SoundTrack c m l) (v : TrackValues) (soils : List (RodValues ℝ)) (x : ι)
    (hx : x ∈ c.sleepers) (d : Fin 3) (hd : d ≠ 1) :
    Spec.systemWork AssemblyPart.stiffness (c.partsOf l v soils).parts (Spec.unitField (c.place x) d)
      (Spec.unitField (c.place x) d) = 0 := by
  rw [track_stiffness _ (s.nonEmpty v soils)]
  have hy : ∀ m, (Spec.unitField (c.place x) d : Spec.NodalField ℝ) m 1 = 0 := by
    intro m
    unfold Spec.unitField
    rw [if_neg]
    exact fun hx => hd hx.2.symm
  have e1 : ((chainOf (c.partsOf l v soils).rail).map fun e => Spec.energy (c.partsOf l v soils).beam.stiffness
      (sixValues (Spec.unitField (c.place x) d) e)).sum = 0 := by
    apply List.sum_eq_zero
    intro z hz
    rw [List.mem_map] at hz
    obtain ⟨e, he, rfl⟩ := hz
    have hz : ∀ m ∈ (c.partsOf l v soils).rail, ∀ k, (Spec.unitField (c.place x) d : Spec.NodalField ℝ) m k = 0 := by
      intro m hm k
      unfold Spec.unitField
      rw [if_neg]
      rintro ⟨rfl, -⟩
      obtain ⟨y, hy, he⟩ := List.mem_map.mp hm
      have := s.place_inj _ _ (s.rail_mem y hy) he
      exact s.rail_sleeper x (this ▸ hy) hx
    obtain ⟨m1, m2⟩ := mem_chainOf (a := e.1) (b := e.2) he
    have : sixValues (Spec.unitField (c.place x) d) e = (0 : Fin 6 → ℝ) := by
      ext k
      fin_cases k <;> simp [sixValues, hz _ m1, hz _ m2]
    rw [this]
    simp [Spec.energy]
  rw [e1]
  simp [hy]

/-- Which dofs of a track in order are unknowns. -/
theorem SoundTrack.unknowns (s : SoundTrack c m l) (hs : c.soils.length ≤ soils.length) (k : KeptValues l v soils)
    (hpad : ∀ x ∈ c.sleepers, ∃ e ∈ c.pads, e.2 = x) (a b : ι) (ha : c.rail.head? = some a) (hb : c.rail.getLast? = some b)
    (st : TrimState ℝ) (hst : (c.inputOf l v soils a b true).initialise freshFlags = .ok st) :
    (∀ x ∈ c.rail, ∀ d, equationOf st.nodes (c.place x) d = none ↔ (x = a ∨ x = b) ∧ d = 0) ∧
    (∀ x ∈ c.sleepers, ∀ d, equationOf st.nodes (c.place x) d = none ↔ d ≠ 1) ∧
    (∀ p ∈ c.soils, ∀ e ∈ p.1, ∀ d, equationOf st.nodes (c.place e.2) d = none) := by
  have ha' := List.mem_of_head? ha
  have hb' := List.mem_of_getLast? hb
  have hstand := s.standing v soils hs k.valid a b ha' hb' true
  have key := C106_unknowns_partial _ hstand.mesh hstand.aligned st hst
  refine ⟨?_, ?_, ?_⟩
  · intro x hx d
    rw [key _ (s.place_lt x (s.rail_mem x hx)) d]
    show Spec.Supported (c.supports a b true) _ _ ∨ |Spec.systemWork AssemblyPart.mass (c.partsOf l v soils).parts _ _| ≤ _ ∨
      |Spec.systemWork AssemblyPart.stiffness (c.partsOf l v soils).parts _ _| ≤ _ ↔ _
    obtain ⟨w1, w2⟩ := s.rail_work hs k x hx d
    constructor
    · rintro (h | h | h)
      · exact s.supported_end a b x (Or.inl hx) d h
      · exact absurd (w1.trans_le (le_abs_self _)) (not_lt.mpr h)
      · exact absurd (w2.trans_le (le_abs_self _)) (not_lt.mpr h)
    · rintro ⟨rfl | rfl, rfl⟩
      · exact Or.inl (s.side_supported _ _ hx)
      · exact Or.inl (s.side_supported_last _ _ hx)
  · intro x hx d
    rw [key _ (s.place_lt x (s.sleeper_mem x hx)) d]
    show Spec.Supported (c.supports a b true) _ _ ∨ |Spec.systemWork AssemblyPart.mass (c.partsOf l v soils).parts _ _| ≤ _ ∨
      |Spec.systemWork AssemblyPart.stiffness (c.partsOf l v soils).parts _ _| ≤ _ ↔ _
    constructor
    · rintro h rfl
      obtain ⟨w1, w2⟩ := s.sleeper_work hs k hpad x hx
      rcases h with h | h | h
      · exact absurd (s.supported_end a b x (Or.inr hx) 1 h).2 (by decide)
      · exact absurd ((k.sleeper.trans_le w1).trans_le (le_abs_self _)) (not_lt.mpr h)
      · exact absurd ((k.pad.trans_le w2).trans_le (le_abs_self _)) (not_lt.mpr h)
    · intro hd
      right; right
      rw [s.sleeper_unstiff v soils x hx d hd, abs_zero]
      norm_num
  · intro p hp e he d
    rw [key _ (s.place_lt _ (s.bottom_mem p hp e he)) d]
    exact Or.inl (s.bottom_supported a b ha' hb' true p hp e he d)

/-- Their number. -/
theorem SoundTrack.number (s : SoundTrack c m l) (hs : c.soils.length ≤ soils.length) (k : KeptValues l v soils)
    (hpad : ∀ x ∈ c.sleepers, ∃ e ∈ c.pads, e.2 = x) (hsl : c.sleepers.Nodup) (a b : ι) (ha : c.rail.head? = some a)
    (hb : c.rail.getLast? = some b) (st : TrimState ℝ)
    (hst : (c.inputOf l v soils a b true).initialise freshFlags = .ok st) : st.N + 2 = 3 * m + c.sleepers.length := by
  obtain ⟨h1, h2, h3⟩ := s.unknowns hs k hpad a b ha hb st hst
  obtain ⟨hbij, hlt, -⟩ := C106_representable _ freshFlags st hst
  have hN := count_equations st.N c.meshNodes.length st.nodes hbij hlt id (fun i hi => ⟨i, hi, rfl⟩) (fun k _ l _ h => h)
  simp only [id] at hN
  have hsum : ∑ i ∈ range c.meshNodes.length, (univ.filter fun d : Fin 3 => equationOf st.nodes i d ≠ none).card =
      ∑ x ∈ c.meshNodes.toFinset, (univ.filter fun d : Fin 3 => equationOf st.nodes (c.place x) d ≠ none).card := by
    symm
    refine Finset.sum_bij (fun x _ => c.place x) ?_ ?_ ?_ ?_
    · intro x hx
      exact Finset.mem_range.mpr (s.place_lt x (List.mem_toFinset.mp hx))
    · intro x hx y _ h
      exact s.place_inj x y (List.mem_toFinset.mp hx) h
    · intro i hi
      have hi' := Finset.mem_range.mp hi
      exact ⟨c.meshNodes[i], List.mem_toFinset.mpr (List.getElem_mem hi'), s.nodup.idxOf_getElem i hi'⟩
    · intro x _
      rfl
  have hrail : ∀ x ∈ c.rail, (univ.filter fun d : Fin 3 => equationOf st.nodes (c.place x) d ≠ none).card =
      if x = a ∨ x = b then 2 else 3 := by
    intro x hx
    simp only [ne_eq, h1 x hx]
    split_ifs with h
    · simp only [h, true_and]
      decide
    · simp only [h, false_and, not_false_eq_true]
      decide
  have hsleep : ∀ x ∈ c.sleepers, (univ.filter fun d : Fin 3 => equationOf st.nodes (c.place x) d ≠ none).card = 1 := by
    intro x hx
    simp only [ne_eq, h2 x hx]
    decide
  have hdisj : Disjoint c.rail.toFinset c.sleepers.toFinset := by
    rw [Finset.disjoint_left]
    intro x hx hy
    exact s.rail_sleeper x (List.mem_toFinset.mp hx) (List.mem_toFinset.mp hy)
  have hsub : c.rail.toFinset ∪ c.sleepers.toFinset ⊆ c.meshNodes.toFinset := by
    intro x hx
    rw [Finset.mem_union, List.mem_toFinset, List.mem_toFinset] at hx
    exact List.mem_toFinset.mpr (hx.elim (s.rail_mem x) (s.sleeper_mem x))
  have hzero : ∀ x ∈ c.meshNodes.toFinset, x ∉ c.rail.toFinset ∪ c.sleepers.toFinset →
      (univ.filter fun d : Fin 3 => equationOf st.nodes (c.place x) d ≠ none).card = 0 := by
    intro x hx hn
    rw [Finset.mem_union, List.mem_toFinset, List.mem_toFinset] at hn
    rcases (s.mem x).1 (List.mem_toFinset.mp hx) with h | h | ⟨p, hp, e, he, rfl⟩
    · exact absurd (Or.inl h) hn
    · exact absurd (Or.inr h) hn
    · simp [h3 p hp e he]
  have hab : a ≠ b := by
    intro h
    have htwo := s.two
    have hlen := s.len
    rw [List.head?_eq_getElem?, List.getElem?_eq_getElem (by omega)] at ha
    rw [List.getLast?_eq_getElem?, List.getElem?_eq_getElem (by omega)] at hb
    injection ha with ha
    injection hb with hb
    have := (List.Nodup.getElem_inj_iff s.rail_nodup).mp (ha.trans (h.trans hb.symm))
    omega
  have hA : a ∈ c.rail.toFinset := List.mem_toFinset.mpr (List.mem_of_head? ha)
  have hB : b ∈ c.rail.toFinset := List.mem_toFinset.mpr (List.mem_of_getLast? hb)
  have hcard : c.rail.toFinset.card = m := by rw [List.toFinset_card_of_nodup s.rail_nodup, s.len]
  rw [hsum, ← Finset.sum_subset hsub hzero, Finset.sum_union hdisj,
    Finset.sum_congr rfl fun x hx => hrail x (List.mem_toFinset.mp hx),
    Finset.sum_congr rfl fun x hx => hsleep x (List.mem_toFinset.mp hx)] at hN
  have h5 : ∑ x ∈ c.rail.toFinset, (if x = a ∨ x = b then 2 else 3) + 2 = 3 * m := by
    have e : ∀ x ∈ c.rail.toFinset, (if x = a ∨ x = b then 2 else 3) + ((if x = a then 1 else 0) + (if x = b then 1 else 0)) = 3 := by
      intro x _
      by_cases h : x = a
      · subst h; simp [hab]
      · by_cases h' : x = b
        · subst h'; simp [h]
        · simp [h, h']
    have := Finset.sum_congr rfl e
    rw [Finset.sum_add_distrib, Finset.sum_add_distrib, Finset.sum_ite_eq' , Finset.sum_ite_eq', if_pos hA, if_pos hB,
      Finset.sum_const, hcard] at this
    simp only [smul_eq_mul] at this
    omega
  rw [Finset.sum_const, List.toFinset_card_of_nodup hsl] at hN
  simp only [smul_eq_mul, mul_one] at hN
  omega

end sound

variable {H : Type*} [DecidableEq H] (hash : (Fin 3 → ℝ) → H) {r : ℕ} {d : ℝ} {segments : List (ℕ × ℝ)}

/-- **C157** The unknowns of a track combined from segments on its boundaries, if rail, sleepers and pads are heavy and stiff enough
not to be trimmed: x displacement, y displacement and rotation of every rail node, except the x displacements at the two rail
ends; the y displacement of every sleeper; nothing below the soil. Their number is three times the rail nodes plus the
sleepers minus two. -/
theorem C157_unknowns (g : GoodSegments r d segments) (length : ℝ) (v : TrackValues) (soils : List (RodValues ℝ))
    (hs : segments.length ≤ soils.length) (k : KeptValues (d / r) v soils) :
    ∃ c inp st, combinedTrack hash r d segments = .ok c ∧ c.system length v soils true = .ok inp ∧
      inp.initialise freshFlags = .ok st ∧
      (∀ x ∈ c.rail, ∀ dir, equationOf st.nodes (c.meshNodes.idxOf x) dir = none ↔
        (c.rail.head? = some x ∨ c.rail.getLast? = some x) ∧ dir = 0) ∧
      (∀ x ∈ c.sleepers, ∀ dir, equationOf st.nodes (c.meshNodes.idxOf x) dir = none ↔ dir ≠ 1) ∧
      (∀ p ∈ c.soils, ∀ e ∈ p.1, ∀ dir, equationOf st.nodes (c.meshNodes.idxOf e.2) dir = none) ∧
      c.rail.length = railCount r segments ∧
      st.N + 2 = 3 * railCount r segments + (segments.map Prod.fst).sum := by
  obtain ⟨c, hc, s, -, -, hnd, hcount, hpads, -, hlen, -⟩ := C136_structure hash g
  have hs' : c.soils.length ≤ soils.length := by omega
  obtain ⟨a, b, ha, hb, hsys⟩ := s.system length v soils hs' true
  have hstand := s.standing v soils hs' k.valid a b (List.mem_of_head? ha) (List.mem_of_getLast? hb) true
  obtain ⟨st, hst⟩ := C106_succeeds _ hstand.mesh freshFlags
  have hpad : ∀ x ∈ c.sleepers, ∃ e ∈ c.pads, e.2 = x := by
    intro x hx
    rw [← hpads] at hx
    exact List.mem_map.mp hx
  obtain ⟨h1, h2, h3⟩ := s.unknowns hs' k hpad a b ha hb st hst
  refine ⟨c, _, st, hc, hsys, hst, ?_, h2, h3, s.len, ?_⟩
  · intro x hx dir
    rw [ha, hb, Option.some.injEq, Option.some.injEq, @eq_comm _ a, @eq_comm _ b]
    exact h1 x hx dir
  · rw [← hcount]
    exact s.number hs' k hpad hnd a b ha hb st hst

/-- Three segments of 3, 1 and 4 sleepers with soft, stiff and medium soil: 18 rail nodes and 8 sleepers, 60 unknowns. -/
example : ∃ c inp st, combinedTrack (fun p : Fin 3 → ℝ => p) 2 (3 / 5) [(3, 1), (1, 2), (4, 1 / 2)] = .ok c ∧
    c.system (3 / 5) exampleTrack [⟨10 ^ 7, none, some 1000⟩, ⟨10 ^ 9, some 50, none⟩, ⟨10 ^ 8, none, some 0⟩] true = .ok inp ∧
      inp.initialise freshFlags = .ok st ∧ st.N = 60 := by
  have k : KeptValues (3 / 5 / (2 : ℕ)) exampleTrack [⟨10 ^ 7, none, some 1000⟩, ⟨10 ^ 9, some 50, none⟩, ⟨10 ^ 8, none, some 0⟩] := by
    refine ⟨?_, exampleTrack_nonNeg.padMass, ?_, exampleTrack_railPresent, by norm_num [exampleTrack], by norm_num [exampleTrack]⟩
    · have h := exampleTrack_valid
      intro w hw
      refine ⟨h.E, h.nu, h.rho, h.A, h.I, h.kappa, h.s1, h.s2, h.pad, ?_⟩
      simp only [List.mem_cons, List.not_mem_nil, or_false] at hw
      rcases hw with rfl | rfl | rfl <;> norm_num
    · intro w hw
      simp only [List.mem_cons, List.not_mem_nil, or_false] at hw
      rcases hw with rfl | rfl | rfl <;> simp
  obtain ⟨c, inp, st, h1, h2, h3, -, -, -, -, h⟩ := C157_unknowns (fun p : Fin 3 → ℝ => p) exampleSegments (3 / 5) _ _ (by norm_num) k
  refine ⟨c, inp, st, h1, h2, h3, ?_⟩
  simp [railCount] at h
  omega

end Rose
