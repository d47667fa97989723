/-
C115: a generated track on its boundaries has one static equilibrium. C116: its unknowns. C117: its time steps.
-/
import Verif.Props.TrackSystem

set_option linter.unusedSectionVars false

namespace Rose
open Finset

/-- Admissible values: positive rail properties, rail without end springs, positive stiffness of pads and soil. -/
structure TrackValues.Valid (v : TrackValues) : Prop where
  E : 0 < v.rail.E
  nu : -1 < v.rail.nu
  rho : 0 < v.rail.rho
  A : 0 < v.rail.A
  I : 0 < v.rail.I
  kappa : 0 ≤ v.rail.kappa
  s1 : v.rail.s1 = .inf
  s2 : v.rail.s2 = .inf
  pad : 0 < v.pad.stiffness
  soil : 0 < v.soil.stiffness

theorem TrackValues.Valid.beam {v : TrackValues} (h : v.Valid) {l : ℝ} (hl : 0 < l) :
    BeamPart.Valid { v.rail with l := l } :=
  ⟨h.E, h.nu, h.rho, h.A, h.I, h.kappa, hl⟩

variable {H : Type*} [DecidableEq H]

/-- A generated track: at least one sleeper and two rail nodes, distances above the merging tolerance. -/
structure Generated (hash : (Fin 3 → ℝ) → H) (n r : ℕ) (d h : ℝ) (t : HorizontalTrack ℝ) : Prop where
  rails : 2 ≤ n * r
  distance : 1 / 1000000000 < d / r
  depth : 1 / 1000000000 < h
  track : createHorizontalTrack hash n r d h = .ok t

/-- The system of a generated track. -/
noncomputable def generatedInput (t : HorizontalTrack ℝ) (n r : ℕ) (d : ℝ) (v : TrackValues) (held : Bool) :
    SystemInput ℝ :=
  { n := n * r + n + n, parts := (generatedParts t n r d v).parts, loads := v.loads,
    constraints := generatedSupports t n r held,
    isRayleigh := v.isRayleigh, ratio := v.ratio, w1 := v.w1, w2 := v.w2 }

section facts
variable {hash : (Fin 3 → ℝ) → H} {n r : ℕ} {d h : ℝ} {t : HorizontalTrack ℝ}

theorem Generated.r_pos (g : Generated hash n r d h t) : 0 < r := by
  rcases Nat.eq_zero_or_pos r with h | h
  · have := g.rails; subst h; omega
  · exact h

theorem Generated.n_pos (g : Generated hash n r d h t) : 0 < n := by
  rcases Nat.eq_zero_or_pos n with h | h
  · have := g.rails; subst h; omega
  · exact h

theorem Generated.l_pos (g : Generated hash n r d h t) : 0 < d / r := lt_trans (by norm_num) g.distance

theorem Generated.system (g : Generated hash n r d h t) (v : TrackValues) (held : Bool) :
    t.system v held = .ok (generatedInput t n r d v held) :=
  (system_generated hash n r g.rails d h g.distance g.depth t g.track v held).1

theorem Generated.position (g : Generated hash n r d h t) :
    (∀ k < n * r + n + n, t.position k < n * r + n + n) ∧
    (∀ i < n * r + n + n, ∃ k < n * r + n + n, t.position k = i) ∧
    (∀ k < n * r + n + n, ∀ l < n * r + n + n, t.position k = t.position l → k = l) :=
  (system_generated hash n r g.rails d h g.distance g.depth t g.track
    ⟨⟨0, 0, 0, 0, 0, 0, 0, .inf, .inf⟩, ⟨0, none, none⟩, ⟨0, none, none⟩, 0, [], false, 0, 0, 0⟩ false).2

theorem Generated.mesh (g : Generated hash n r d h t) (v : TrackValues) (held : Bool) :
    Spec.NodesInMesh (generatedInput t n r d v held) := by
  obtain ⟨hlt, -, -⟩ := g.position
  have hr := g.r_pos
  have hpn : t.padNodes = (List.range n).flatMap fun i => [i * r, n * r + i] := by
    have := g.track
    rw [createHorizontalTrack_eq hash n r hr d h] at this
    simp only [Except.ok.injEq] at this
    rw [← this]
  have hsn : t.soilNodes = (List.range n).flatMap fun i => [n * r + i, n * r + n + i] := by
    have := g.track
    rw [createHorizontalTrack_eq hash n r hr d h] at this
    simp only [Except.ok.injEq] at this
    rw [← this]
  have hir : ∀ i < n, i * r < n * r := fun i hi => Nat.mul_lt_mul_of_pos_right hi hr
  intro p hp
  simp only [generatedInput, TrackParts.parts, generatedParts, List.map_cons, List.map_nil, List.mem_cons,
    List.not_mem_nil, or_false] at hp
  rcases hp with rfl | rfl | rfl | rfl
  · refine ⟨?_, ?_⟩
    · intro e he
      simp only [beamAssembly, horizontalElements, List.mem_map] at he
      obtain ⟨x, hx, rfl⟩ := he
      rw [chainOf_map, chainOf_range, List.map_map, List.mem_map] at hx
      obtain ⟨i, hi, rfl⟩ := hx
      rw [List.mem_range] at hi
      exact ⟨hlt i (by omega), hlt (i + 1) (by omega)⟩
    · intro m hm
      simp only [beamAssembly, List.mem_map, List.mem_range] at hm
      obtain ⟨i, hi, rfl⟩ := hm
      exact hlt _ (by omega)
  · refine ⟨?_, ?_⟩
    · intro e he
      simp only [rodAssembly, downElements, List.mem_map, List.mem_range] at he
      obtain ⟨x, ⟨i, hi, rfl⟩, rfl⟩ := he
      have := hir i hi
      exact ⟨hlt _ (by omega), hlt _ (by omega)⟩
    · intro m hm
      simp only [rodAssembly, hpn, List.mem_map, List.mem_flatMap, List.mem_range, List.mem_cons, List.not_mem_nil,
        or_false] at hm
      obtain ⟨x, ⟨i, hi, rfl | rfl⟩, rfl⟩ := hm
      · have := hir i hi
        exact hlt _ (by omega)
      · exact hlt _ (by omega)
  · refine ⟨by simp [sleeperAssembly], ?_⟩
    intro m hm
    simp only [sleeperAssembly, List.mem_map, List.mem_range] at hm
    obtain ⟨i, hi, rfl⟩ := hm
    exact hlt _ (by omega)
  · refine ⟨?_, ?_⟩
    · intro e he
      simp only [rodAssembly, downElements, List.mem_map, List.mem_range] at he
      obtain ⟨x, ⟨i, hi, rfl⟩, rfl⟩ := he
      exact ⟨hlt _ (by omega), hlt _ (by omega)⟩
    · intro m hm
      simp only [rodAssembly, hsn, List.mem_map, List.mem_flatMap, List.mem_range, List.mem_cons, List.not_mem_nil,
        or_false] at hm
      obtain ⟨x, ⟨i, hi, rfl | rfl⟩, rfl⟩ := hm
      · exact hlt _ (by omega)
      · exact hlt _ (by omega)

/-- The boundaries hold the nodes below the soil, and the first and the last rail node in x. -/
theorem Generated.supported (g : Generated hash n r d h t) (held : Bool) (k : ℕ) (hk : k < n * r + n + n) (c : Fin 3) :
    Spec.Supported (generatedSupports t n r held) (t.position k) c ↔
      n * r + n ≤ k ∨ (held = true ∧ (k = 0 ∨ k = n * r - 1) ∧ c = 0) := by
  obtain ⟨-, -, hinj⟩ := g.position
  have hrn := g.rails
  have hbot : t.position k ∈ (List.range n).map (fun i => t.position (n * r + n + i)) ↔ n * r + n ≤ k := by
    simp only [List.mem_map, List.mem_range]
    constructor
    · rintro ⟨i, hi, he⟩
      have := hinj _ (by omega) _ hk he
      omega
    · intro hle
      exact ⟨k - (n * r + n), by omega, by congr 1; omega⟩
  have hside : t.position k ∈ [t.position 0, t.position (n * r - 1)] ↔ k = 0 ∨ k = n * r - 1 := by
    simp only [List.mem_cons, List.not_mem_nil, or_false]
    constructor
    · rintro (he | he)
      · exact Or.inl (hinj _ hk _ (by omega) he)
      · exact Or.inr (hinj _ hk _ (by omega) he)
    · rintro (rfl | rfl) <;> simp
  rw [← supported_iff]
  unfold generatedSupports
  by_cases hb : n * r + n ≤ k
  · simp only [hb, true_or, iff_true]
    rw [C10_last_wins _ _ _ _ _ (hbot.mpr hb) (by simp)]
    fin_cases c <;> rfl
  · simp only [hb, false_or]
    cases held with
    | false =>
      simp only [Bool.false_eq_true, false_and, iff_false]
      rw [C10_untouched]
      · simp [freshFlags]
      · intro q hq
        simp only [if_false, List.nil_append, List.mem_singleton] at hq
        subst hq
        exact fun hc => hb (hbot.mp hc)
    | true =>
      simp only [true_and, if_true]
      by_cases hs : k = 0 ∨ k = n * r - 1
      · simp only [hs, true_and]
        rw [List.singleton_append]
        rw [← List.nil_append (_ :: _)]
        rw [C10_last_wins _ _ _ _ _ (hside.mpr hs)]
        · fin_cases c <;> simp
        · intro q hq
          simp only [List.mem_singleton] at hq
          subst hq
          exact fun hc => hb (hbot.mp hc)
      · simp only [hs, false_and, iff_false]
        rw [C10_untouched]
        · simp [freshFlags]
        · intro q hq
          simp only [List.singleton_append, List.mem_cons, List.not_mem_nil, or_false] at hq
          rcases hq with rfl | rfl
          · exact fun hc => hs (hside.mp hc)
          · exact fun hc => hb (hbot.mp hc)

theorem Generated.nonEmpty (g : Generated hash n r d h t) (v : TrackValues) : (generatedParts t n r d v).NonEmpty := by
  have hn := g.n_pos
  constructor
  · simpa [generatedParts] using g.rails
  · simp [generatedParts]; omega
  · intro s hs
    simp only [generatedParts, List.mem_singleton] at hs
    subst hs
    simp; omega

theorem Generated.standing (g : Generated hash n r d h t) (hn : 2 ≤ n) (v : TrackValues) (hv : v.Valid) (held : Bool) :
    Standing (generatedInput t n r d v held) (generatedParts t n r d v) := by
  obtain ⟨hlt, hsurj, hinj⟩ := g.position
  have hr := g.r_pos
  have hir : ∀ i < n, i * r < n * r := fun i hi => Nat.mul_lt_mul_of_pos_right hi hr
  have hbot : ∀ i < n, ∀ c, Spec.Supported (generatedSupports t n r held) (t.position (n * r + n + i)) c := by
    intro i hi c
    rw [g.supported held _ (by omega)]
    left; omega
  refine ⟨rfl, g.nonEmpty v, g.mesh v held, hv.beam g.l_pos, hv.s1, hv.s2, hv.pad, ?_, ?_, ?_, ?_, ?_, ?_, ?_⟩
  · intro s hs
    simp only [generatedParts, List.mem_singleton] at hs
    subst hs
    exact hv.soil
  · intro i hi
    obtain ⟨k, hk, rfl⟩ := hsurj i hi
    by_cases h1 : k < n * r
    · left
      exact List.mem_map.mpr ⟨k, List.mem_range.mpr h1, rfl⟩
    · by_cases h2 : k < n * r + n
      · right; left
        exact List.mem_map.mpr ⟨k - n * r, List.mem_range.mpr (by omega), by congr 1; omega⟩
      · right; right
        intro c
        have := hbot (k - (n * r + n)) (by omega) c
        rwa [show n * r + n + (k - (n * r + n)) = k by omega] at this
  · intro i hi hc
    simp only [generatedParts, List.mem_map, List.mem_range] at hi hc
    obtain ⟨a, ha, rfl⟩ := hi
    obtain ⟨b, hb, he⟩ := hc
    have := hinj _ (by omega) _ (by omega) he
    omega
  · intro e he
    simp only [generatedParts, List.mem_map, List.mem_range] at he ⊢
    obtain ⟨i, hi, rfl⟩ := he
    exact ⟨⟨_, hir i hi, rfl⟩, ⟨i, hi, rfl⟩⟩
  · intro i hi
    simp only [generatedParts, List.mem_map, List.mem_range] at hi
    obtain ⟨a, ha, rfl⟩ := hi
    refine ⟨_, List.mem_singleton.mpr rfl, (t.position (n * r + a), t.position (n * r + n + a)), ?_, rfl, hbot a ha 1⟩
    exact List.mem_map.mpr ⟨a, List.mem_range.mpr ha, rfl⟩
  · intro s hs e he
    simp only [generatedParts, List.mem_singleton] at hs
    subst hs
    simp only [List.mem_map, List.mem_range] at he
    obtain ⟨i, hi, rfl⟩ := he
    exact List.mem_map.mpr ⟨i, List.mem_range.mpr hi, rfl⟩
  · refine ⟨0, r, t.position (0 * r), t.position (1 * r), hr, ?_, ?_, ?_, ?_⟩
    · have := g.rails
      simp [generatedParts, List.getElem?_range (show 0 < n * r by omega)]
    · have := hir 1 (by omega)
      simp [generatedParts, List.getElem?_range (show r < n * r by omega)]
    · exact ⟨_, List.mem_map.mpr ⟨0, List.mem_range.mpr (by omega), rfl⟩, rfl⟩
    · exact ⟨_, List.mem_map.mpr ⟨1, List.mem_range.mpr (by omega), rfl⟩, rfl⟩

theorem Generated.held (g : Generated hash n r d h t) (v : TrackValues) :
    ∃ m ∈ (generatedParts t n r d v).rail, Spec.Supported (generatedInput t n r d v true).constraints m 0 := by
  have hrn := g.rails
  refine ⟨t.position 0, List.mem_map.mpr ⟨0, List.mem_range.mpr (by omega), rfl⟩, ?_⟩
  show Spec.Supported (generatedSupports t n r true) _ _
  rw [g.supported true 0 (by omega)]
  right; simp

end facts

/-! ### C115 -/

/-- **C115** For every generated track with at least two sleepers, with admissible properties, that stands on its bottom
boundary and is held in x at the rail ends, and whatever the node flags were before: the system is initialised, and for
every force vector there is exactly one displacement in equilibrium with it. -/
theorem C115_static (hash : (Fin 3 → ℝ) → H) (n r : ℕ) (hn : 2 ≤ n) (hr : 0 < r) (d h : ℝ)
    (hd : 1 / 1000000000 < d / r) (hh : 1 / 1000000000 < h) (t : HorizontalTrack ℝ)
    (ht : createHorizontalTrack hash n r d h = .ok t) (v : TrackValues) (hv : v.Valid) (flags : ℕ → Fin 3 → Bool) :
    ∃ inp st, t.system v true = .ok inp ∧ inp.initialise flags = .ok st ∧ Spec.UniquelySolvable st.N st.Kg := by
  have g : Generated hash n r d h t := ⟨by nlinarith, hd, hh, ht⟩
  obtain ⟨st, hst⟩ := C106_succeeds _ (g.mesh v true) flags
  exact ⟨_, st, g.system v true, hst,
    solvable_of_definite _ _ fun U => ((g.standing hn v hv true).definite (g.held v) flags st hst U).2⟩

/-- **C115** Every displacement of such a track that is not zero stores energy. -/
theorem C115_energy (hash : (Fin 3 → ℝ) → H) (n r : ℕ) (hn : 2 ≤ n) (hr : 0 < r) (d h : ℝ)
    (hd : 1 / 1000000000 < d / r) (hh : 1 / 1000000000 < h) (t : HorizontalTrack ℝ)
    (ht : createHorizontalTrack hash n r d h = .ok t) (v : TrackValues) (hv : v.Valid) (flags : ℕ → Fin 3 → Bool)
    (inp : SystemInput ℝ) (hinp : t.system v true = .ok inp) (st : TrimState ℝ) (hst : inp.initialise flags = .ok st)
    (U : ℕ → ℝ) (hU : ∃ k < st.N, U k ≠ 0) : 0 < ∑ i ∈ range st.N, ∑ j ∈ range st.N, U i * st.Kg i j * U j := by
  have g : Generated hash n r d h t := ⟨by nlinarith, hd, hh, ht⟩
  rw [g.system v true] at hinp
  injection hinp with hinp
  subst hinp
  obtain ⟨h0, h1⟩ := (g.standing hn v hv true).definite (g.held v) flags st hst U
  refine lt_of_le_of_ne h0 fun hc => ?_
  obtain ⟨k, hk, hne⟩ := hU
  exact hne (h1 hc.symm k hk)

/-- A steel rail (54E1) with pads, concrete half sleepers and soil springs, all in SI units. -/
noncomputable def exampleTrack : TrackValues :=
  { rail := { E := 210 * 10 ^ 9, nu := 3 / 10, rho := 7860, A := 69 / 10000, I := 23 / 1000000, kappa := 1 / 2, l := 0,
              s1 := .inf, s2 := .inf }
    pad := { stiffness := 750 * 10 ^ 6, mass := some 5, damping := some 750000 }
    soil := { stiffness := 180 * 10 ^ 6, mass := none, damping := some 30000 }
    sleeperMass := 140, loads := [], isRayleigh := true, ratio := 1 / 50, w1 := 6, w2 := 500 }

theorem exampleTrack_valid : exampleTrack.Valid := by
  constructor <;> norm_num [exampleTrack]

/-- Three sleepers at 0.6 m, two rail elements per sleeper, 1 m of soil. -/
example : ∃ t, createHorizontalTrack (fun p : Fin 3 → ℝ => p) 3 2 (3 / 5) 1 = .ok t ∧
    ∃ inp st, t.system exampleTrack true = .ok inp ∧ inp.initialise freshFlags = .ok st ∧
      Spec.UniquelySolvable st.N st.Kg := by
  obtain ⟨t, ht, -⟩ := C48_structure (fun p : Fin 3 → ℝ => p) 3 2 (by norm_num) (3 / 5) 1
  exact ⟨t, ht, C115_static _ 3 2 (by norm_num) (by norm_num) _ _ (by norm_num) (by norm_num) t ht _ exampleTrack_valid _⟩

/-! ### C116 -/

/-- Every diagonal entry of the local matrices of the rail exceeds the trimming tolerance. -/
def RailPresent (b : BeamPart ℝ) : Prop := ∀ k, 1 / 10 ^ 8 < b.massMatrix k k ∧ 1 / 10 ^ 8 < b.stiffness k k

theorem energy_unit (A : Matrix (Fin 6) (Fin 6) ℝ) (k : Fin 6) : Spec.energy A (Pi.single k 1) = A k k := by
  unfold Spec.energy
  rw [Finset.sum_eq_single k]
  · rw [Finset.sum_eq_single k]
    · simp
    · intro b _ hb; simp [hb]
    · simp
  · intro b _ hb
    apply Finset.sum_eq_zero
    intro j _
    simp [hb]
  · simp

theorem beam_mass_nonneg (b : BeamPart ℝ) (hb : b.Valid) (u : Fin 6 → ℝ) : 0 ≤ Spec.energy b.massMatrix u := by
  rw [C20_consistent_mass b hb u]
  apply intervalIntegral.integral_nonneg hb.l.le
  intro x _
  have h1 := hb.rho; have h2 := hb.A; have h3 := hb.I
  split_ifs <;> positivity

theorem rod_mass_nonneg (m : ℝ) (hm : 0 ≤ m) (u : Fin 2 → ℝ) : 0 ≤ Spec.energy (rodMass m) u := by
  have e : Spec.energy (rodMass m) u = m / 6 * ((u 0 + u 1) ^ 2 + u 0 ^ 2 + u 1 ^ 2) := by
    rw [rodMass_eq]; simp [Spec.energy, Fin.sum_univ_two]; ring
  rw [e]
  positivity

/-- Masses and dampings, if set, are not negative. -/
structure TrackValues.NonNeg (v : TrackValues) : Prop where
  padMass : ∀ m, v.pad.mass = some m → 0 ≤ m
  soilMass : ∀ m, v.soil.mass = some m → 0 ≤ m
  sleeper : 0 ≤ v.sleeperMass
  padDamping : ∀ c, v.pad.damping = some c → 0 ≤ c
  soilDamping : ∀ c, v.soil.damping = some c → 0 ≤ c

theorem rodWork_nonneg (A : Option (Matrix (Fin 2) (Fin 2) ℝ)) (hA : ∀ a, A = some a → Spec.PosSemidef a)
    (es : List (ℕ × ℕ)) (u : Spec.NodalField ℝ) : 0 ≤ rodWork A es u u := by
  cases A with
  | none => exact le_refl _
  | some a => exact list_sum_nonneg _ _ fun e _ => hA a rfl _

theorem rodMass_option {A : Option ℝ} (hA : ∀ m, A = some m → 0 ≤ m) :
    ∀ a, A.map rodMass = some a → Spec.PosSemidef a := by
  intro a ha
  rw [Option.map_eq_some_iff] at ha
  obtain ⟨m, hm, rfl⟩ := ha
  exact fun u => rod_mass_nonneg m (hA m hm) u

theorem rodDamping_option {A : Option ℝ} (hA : ∀ m, A = some m → 0 ≤ m) :
    ∀ a, A.map rodDamping = some a → Spec.PosSemidef a := by
  intro a ha
  rw [Option.map_eq_some_iff] at ha
  obtain ⟨m, hm, rfl⟩ := ha
  intro u
  have : Spec.energy (rodDamping m) u = m * (u 1 - u 0) ^ 2 := by
    rw [rodDamping_eq]
    simp [Spec.energy, Fin.sum_univ_two]; ring
  rw [this]
  exact mul_nonneg (hA m hm) (sq_nonneg _)

theorem le_sum_of_mem {α : Type*} (l : List α) (f : α → ℝ) (h : ∀ a ∈ l, 0 ≤ f a) (a : α) (ha : a ∈ l) :
    f a ≤ (l.map f).sum := List.single_le_sum (by simpa using h) _ (List.mem_map_of_mem ha)

section unknowns
variable {hash : (Fin 3 → ℝ) → H} {n r : ℕ} {d h : ℝ} {t : HorizontalTrack ℝ}

/-- Every rail node belongs to a rail element, at one of its ends. -/
theorem Generated.rail_unit (g : Generated hash n r d h t) (v : TrackValues) (k : ℕ) (hk : k < n * r) (c : Fin 3) :
    ∃ e ∈ chainOf (generatedParts t n r d v).rail, ∃ q : Fin 6,
      sixValues (Spec.unitField (t.position k) c) e = Pi.single q (1 : ℝ) := by
  obtain ⟨-, -, hinj⟩ := g.position
  have hrn := g.rails
  have hch : chainOf (generatedParts t n r d v).rail =
      (List.range (n * r - 1)).map fun i => (t.position i, t.position (i + 1)) := by
    simp only [generatedParts]
    rw [chainOf_map, chainOf_range, List.map_map]
    rfl
  have hne : ∀ i < n * r, i ≠ k → t.position i ≠ t.position k := fun i hi hik hc => hik (hinj _ (by omega) _ (by omega) hc)
  rw [hch]
  by_cases hlast : k + 1 < n * r
  · refine ⟨_, List.mem_map.mpr ⟨k, List.mem_range.mpr (by omega), rfl⟩, ⟨c, by omega⟩, ?_⟩
    have h2 := hne (k + 1) hlast (by omega)
    ext q
    fin_cases c <;> fin_cases q <;> simp [sixValues, Spec.unitField, h2]
  · refine ⟨_, List.mem_map.mpr ⟨k - 1, List.mem_range.mpr (by omega), rfl⟩, ⟨c + 3, by omega⟩, ?_⟩
    have h1 := hne (k - 1) (by omega) (by omega)
    have h2 : k - 1 + 1 = k := by omega
    ext q
    fin_cases c <;> fin_cases q <;> simp [sixValues, Spec.unitField, h1, h2]

theorem Generated.rail_work (g : Generated hash n r d h t) (v : TrackValues) (hv : v.Valid) (hm : v.NonNeg)
    (hp : RailPresent { v.rail with l := d / r }) (k : ℕ) (hk : k < n * r) (c : Fin 3) :
    1 / 10 ^ 8 < Spec.systemWork AssemblyPart.mass (generatedParts t n r d v).parts (Spec.unitField (t.position k) c)
      (Spec.unitField (t.position k) c) ∧
    1 / 10 ^ 8 < Spec.systemWork AssemblyPart.stiffness (generatedParts t n r d v).parts
      (Spec.unitField (t.position k) c) (Spec.unitField (t.position k) c) := by
  obtain ⟨e, he, q, hq⟩ := g.rail_unit v k hk c
  have hb := hv.beam g.l_pos
  rw [track_mass _ (g.nonEmpty v), track_stiffness _ (g.nonEmpty v)]
  constructor
  · have h1 := le_sum_of_mem _ (fun e => Spec.energy (generatedParts t n r d v).beam.massMatrix
      (sixValues (Spec.unitField (t.position k) c) e)) (fun e _ => beam_mass_nonneg _ hb _) e he
    simp only [hq, energy_unit] at h1
    have h2 := rodWork_nonneg _ (rodMass_option hm.padMass) (generatedParts t n r d v).pads
      (Spec.unitField (t.position k) c)
    have h3 : 0 ≤ ((generatedParts t n r d v).sleepers.map fun m => v.sleeperMass *
        (Spec.unitField (t.position k) c : Spec.NodalField ℝ) m 1 ^ 2).sum :=
      list_sum_nonneg _ _ fun m _ => mul_nonneg hm.sleeper (sq_nonneg _)
    have h4 : 0 ≤ ((generatedParts t n r d v).soils.map fun s => rodWork (s.1.mass.map rodMass) s.2.1
        (Spec.unitField (t.position k) c) (Spec.unitField (t.position k) c)).sum := by
      refine list_sum_nonneg _ _ fun s hs => ?_
      simp only [generatedParts, List.mem_singleton] at hs
      subst hs
      exact rodWork_nonneg _ (rodMass_option hm.soilMass) _ _
    have h5 := (hp q).1
    have h6 : (generatedParts t n r d v).sleeperMass = v.sleeperMass := rfl
    have h7 : (generatedParts t n r d v).pad = v.pad := rfl
    have h8 : (generatedParts t n r d v).beam = { v.rail with l := d / r } := rfl
    rw [h6, h7]
    rw [h8] at h1 ⊢
    linarith
  · have h1 := le_sum_of_mem _ (fun e => Spec.energy (generatedParts t n r d v).beam.stiffness
      (sixValues (Spec.unitField (t.position k) c) e)) (fun e _ => C19_beam_psd _ hb _) e he
    simp only [hq, energy_unit] at h1
    have h2 : 0 ≤ ((generatedParts t n r d v).pads.map fun e => (generatedParts t n r d v).pad.stiffness *
        ((Spec.unitField (t.position k) c : Spec.NodalField ℝ) e.2 1 -
          (Spec.unitField (t.position k) c : Spec.NodalField ℝ) e.1 1) ^ 2).sum :=
      list_sum_nonneg _ _ fun e _ => mul_nonneg hv.pad.le (sq_nonneg _)
    have h3 : 0 ≤ ((generatedParts t n r d v).soils.map fun s => (s.2.1.map fun e => s.1.stiffness *
        ((Spec.unitField (t.position k) c : Spec.NodalField ℝ) e.2 1 -
          (Spec.unitField (t.position k) c : Spec.NodalField ℝ) e.1 1) ^ 2).sum).sum := by
      refine list_sum_nonneg _ _ fun s hs => list_sum_nonneg _ _ fun e _ => mul_nonneg ?_ (sq_nonneg _)
      simp only [generatedParts, List.mem_singleton] at hs
      subst hs
      exact hv.soil.le
    have h5 := (hp q).2
    have h8 : (generatedParts t n r d v).beam = { v.rail with l := d / r } := rfl
    rw [h8] at h1 ⊢
    linarith

theorem Generated.sleeper_work (g : Generated hash n r d h t) (v : TrackValues) (hv : v.Valid) (hm : v.NonNeg) (i : ℕ)
    (hi : i < n) :
    v.sleeperMass ≤ Spec.systemWork AssemblyPart.mass (generatedParts t n r d v).parts
      (Spec.unitField (t.position (n * r + i)) 1) (Spec.unitField (t.position (n * r + i)) 1) ∧
    v.pad.stiffness ≤ Spec.systemWork AssemblyPart.stiffness (generatedParts t n r d v).parts
      (Spec.unitField (t.position (n * r + i)) 1) (Spec.unitField (t.position (n * r + i)) 1) := by
  obtain ⟨-, -, hinj⟩ := g.position
  have hb := hv.beam g.l_pos
  have hir : i * r < n * r := Nat.mul_lt_mul_of_pos_right hi g.r_pos
  have hne : t.position (i * r) ≠ t.position (n * r + i) := fun hc => by
    have := hinj _ (by omega) _ (by omega) hc
    omega
  set u : Spec.NodalField ℝ := Spec.unitField (t.position (n * r + i)) 1 with hu
  have u1 : u (t.position (n * r + i)) 1 = 1 := by simp [hu, Spec.unitField]
  have u0 : u (t.position (i * r)) 1 = 0 := by simp [hu, Spec.unitField, hne]
  rw [track_mass _ (g.nonEmpty v), track_stiffness _ (g.nonEmpty v)]
  constructor
  · have h1 := list_sum_nonneg (chainOf (generatedParts t n r d v).rail) (fun e => Spec.energy
      (generatedParts t n r d v).beam.massMatrix (sixValues u e)) (fun e _ => beam_mass_nonneg _ hb _)
    have h2 := rodWork_nonneg _ (rodMass_option hm.padMass) (generatedParts t n r d v).pads u
    have h3 := le_sum_of_mem (generatedParts t n r d v).sleepers (fun m => v.sleeperMass * u m 1 ^ 2)
      (fun m _ => mul_nonneg hm.sleeper (sq_nonneg _)) (t.position (n * r + i))
      (List.mem_map.mpr ⟨i, List.mem_range.mpr hi, rfl⟩)
    rw [u1] at h3
    have h4 : 0 ≤ ((generatedParts t n r d v).soils.map fun s => rodWork (s.1.mass.map rodMass) s.2.1 u u).sum := by
      refine list_sum_nonneg _ _ fun s hs => ?_
      simp only [generatedParts, List.mem_singleton] at hs
      subst hs
      exact rodWork_nonneg _ (rodMass_option hm.soilMass) _ _
    have h6 : (generatedParts t n r d v).sleeperMass = v.sleeperMass := rfl
    have h7 : (generatedParts t n r d v).pad = v.pad := rfl
    rw [h6, h7]
    linarith
  · have h1 := list_sum_nonneg (chainOf (generatedParts t n r d v).rail) (fun e => Spec.energy
      (generatedParts t n r d v).beam.stiffness (sixValues u e)) (fun e _ => C19_beam_psd _ hb _)
    have h2 := le_sum_of_mem (generatedParts t n r d v).pads (fun e => (generatedParts t n r d v).pad.stiffness *
        (u e.2 1 - u e.1 1) ^ 2) (fun e _ => mul_nonneg hv.pad.le (sq_nonneg _))
      (t.position (i * r), t.position (n * r + i)) (List.mem_map.mpr ⟨i, List.mem_range.mpr hi, rfl⟩)
    simp only [u1, u0] at h2
    have h3 : 0 ≤ ((generatedParts t n r d v).soils.map fun s => (s.2.1.map fun e => s.1.stiffness *
        (u e.2 1 - u e.1 1) ^ 2).sum).sum := by
      refine list_sum_nonneg _ _ fun s hs => list_sum_nonneg _ _ fun e _ => mul_nonneg ?_ (sq_nonneg _)
      simp only [generatedParts, List.mem_singleton] at hs
      subst hs
      exact hv.soil.le
    have h7 : (generatedParts t n r d v).pad = v.pad := rfl
    rw [h7] at h2 ⊢
    linarith

theorem Generated.aligned (_ : Generated hash n r d h t) (v : TrackValues) (held : Bool) :
    Spec.AxisAligned (generatedInput t n r d v held) := by
  intro p hp e he
  simp only [generatedInput, TrackParts.parts, generatedParts, List.map_cons, List.map_nil, List.mem_cons,
    List.not_mem_nil, or_false] at hp
  rcases hp with rfl | rfl | rfl | rfl
  · left
    simp only [beamAssembly, horizontalElements, List.mem_map] at he
    obtain ⟨x, -, rfl⟩ := he
    rfl
  · right
    simp only [rodAssembly, downElements, List.mem_map] at he
    obtain ⟨x, -, rfl⟩ := he
    exact ⟨rfl, rfl, rfl⟩
  · simp [sleeperAssembly] at he
  · right
    simp only [rodAssembly, downElements, List.mem_map] at he
    obtain ⟨x, -, rfl⟩ := he
    exact ⟨rfl, rfl, rfl⟩

theorem Generated.sleeper_unstiff (g : Generated hash n r d h t) (v : TrackValues) (i : ℕ) (hi : i < n) (c : Fin 3)
    (hc : c ≠ 1) :
    Spec.systemWork AssemblyPart.stiffness (generatedParts t n r d v).parts
      (Spec.unitField (t.position (n * r + i)) c) (Spec.unitField (t.position (n * r + i)) c) = 0 := by
  obtain ⟨-, -, hinj⟩ := g.position
  rw [track_stiffness _ (g.nonEmpty v)]
  have hy : ∀ m, (Spec.unitField (t.position (n * r + i)) c : Spec.NodalField ℝ) m 1 = 0 := by
    intro m
    unfold Spec.unitField
    rw [if_neg]
    exact fun hx => hc hx.2.symm
  have e1 : ((chainOf (generatedParts t n r d v).rail).map fun e => Spec.energy (generatedParts t n r d v).beam.stiffness
      (sixValues (Spec.unitField (t.position (n * r + i)) c) e)).sum = 0 := by
    apply List.sum_eq_zero
    intro x hx
    rw [List.mem_map] at hx
    obtain ⟨e, he, rfl⟩ := hx
    have hz : ∀ m ∈ (generatedParts t n r d v).rail, ∀ k,
        (Spec.unitField (t.position (n * r + i)) c : Spec.NodalField ℝ) m k = 0 := by
      intro m hm k
      unfold Spec.unitField
      rw [if_neg]
      rintro ⟨rfl, -⟩
      simp only [generatedParts, List.mem_map, List.mem_range] at hm
      obtain ⟨b, hb, he⟩ := hm
      have := hinj _ (by omega) _ (by omega) he
      omega
    obtain ⟨m1, m2⟩ := mem_chainOf (a := e.1) (b := e.2) he
    have : sixValues (Spec.unitField (t.position (n * r + i)) c) e = (0 : Fin 6 → ℝ) := by
      ext k
      fin_cases k <;> simp [sixValues, hz _ m1, hz _ m2]
    rw [this]
    simp [Spec.energy]
  rw [e1]
  simp [hy]

theorem Generated.unknowns (g : Generated hash n r d h t) (v : TrackValues) (hv : v.Valid) (hm : v.NonNeg)
    (hp : RailPresent { v.rail with l := d / r }) (hs : 1 / 10 ^ 8 < v.sleeperMass) (hk : 1 / 10 ^ 8 < v.pad.stiffness)
    (held : Bool) (st : TrimState ℝ) (hst : (generatedInput t n r d v held).initialise freshFlags = .ok st) (k : ℕ)
    (hkn : k < n * r + n + n) (c : Fin 3) :
    equationOf st.nodes (t.position k) c = none ↔
      if k < n * r then held = true ∧ (k = 0 ∨ k = n * r - 1) ∧ c = 0 else k < n * r + n → c ≠ 1 := by
  obtain ⟨hlt, -, -⟩ := g.position
  rw [C106_unknowns_partial _ (g.mesh v held) (g.aligned v held) st hst _ (hlt k hkn) c]
  show Spec.Supported (generatedSupports t n r held) _ _ ∨ _ ↔ _
  rw [g.supported held k hkn c]
  show _ ∨ |Spec.systemWork AssemblyPart.mass (generatedParts t n r d v).parts _ _| ≤ _ ∨
    |Spec.systemWork AssemblyPart.stiffness (generatedParts t n r d v).parts _ _| ≤ _ ↔ _
  have hrn := g.rails
  split_ifs with h1
  · obtain ⟨w1, w2⟩ := g.rail_work v hv hm hp k h1 c
    constructor
    · rintro ((hx | hx) | hx | hx)
      · omega
      · exact hx
      · have := le_abs_self (Spec.systemWork AssemblyPart.mass (generatedParts t n r d v).parts
          (Spec.unitField (t.position k) c) (Spec.unitField (t.position k) c))
        linarith
      · have := le_abs_self (Spec.systemWork AssemblyPart.stiffness (generatedParts t n r d v).parts
          (Spec.unitField (t.position k) c) (Spec.unitField (t.position k) c))
        linarith
    · exact fun hx => Or.inl (Or.inr hx)
  · by_cases h2 : k < n * r + n
    · obtain ⟨i, hi, rfl⟩ : ∃ i < n, k = n * r + i := ⟨k - n * r, by omega, by omega⟩
      simp only [h2, true_implies]
      constructor
      · rintro hx rfl
        obtain ⟨w1, w2⟩ := g.sleeper_work v hv hm i hi
        rcases hx with (hx | ⟨-, -, hx⟩) | hx | hx
        · omega
        · exact absurd hx (by decide)
        · have := le_abs_self (Spec.systemWork AssemblyPart.mass (generatedParts t n r d v).parts
            (Spec.unitField (t.position (n * r + i)) 1) (Spec.unitField (t.position (n * r + i)) 1))
          linarith
        · have := le_abs_self (Spec.systemWork AssemblyPart.stiffness (generatedParts t n r d v).parts
            (Spec.unitField (t.position (n * r + i)) 1) (Spec.unitField (t.position (n * r + i)) 1))
          linarith
      · intro hc
        right; right
        rw [g.sleeper_unstiff v i hi c hc, abs_zero]
        norm_num
    · simp only [h2, false_implies, iff_true]
      left; left; omega

end unknowns

theorem count_equations (N n : ℕ) (nodes : List DofNode) (hb : ∀ k < N, ∃! p : ℕ × Fin 3, equationOf nodes p.1 p.2 = some k)
    (hlt : ∀ i d k, equationOf nodes i d = some k → i < n ∧ k < N) (P : ℕ → ℕ) (hP : ∀ i < n, ∃ k < n, P k = i)
    (hinj : ∀ k < n, ∀ l < n, P k = P l → k = l) :
    N = ∑ k ∈ range n, (univ.filter fun c : Fin 3 => equationOf nodes (P k) c ≠ none).card := by
  classical
  have h1 : ∑ k ∈ range n, (univ.filter fun c : Fin 3 => equationOf nodes (P k) c ≠ none).card =
      ((range n ×ˢ (univ : Finset (Fin 3))).filter fun p => equationOf nodes (P p.1) p.2 ≠ none).card := by
    rw [Finset.card_filter, Finset.sum_product]
    refine sum_congr rfl fun k _ => ?_
    rw [Finset.card_filter]
  rw [h1]
  conv_lhs => rw [← Finset.card_range N]
  symm
  refine Finset.card_bij (fun p _ => (equationOf nodes (P p.1) p.2).getD 0) ?_ ?_ ?_
  · intro p hp
    rw [Finset.mem_filter] at hp
    obtain ⟨k, hk⟩ := Option.ne_none_iff_exists'.mp hp.2
    rw [hk, Option.getD_some, Finset.mem_range]
    exact (hlt _ _ _ hk).2
  · intro p hp q hq he
    rw [Finset.mem_filter, Finset.mem_product, Finset.mem_range] at hp hq
    obtain ⟨k, hk⟩ := Option.ne_none_iff_exists'.mp hp.2
    obtain ⟨l, hl⟩ := Option.ne_none_iff_exists'.mp hq.2
    rw [hk, hl, Option.getD_some, Option.getD_some] at he
    subst he
    obtain ⟨z, -, hz⟩ := hb k (hlt _ _ _ hk).2
    have e1 := hz (P p.1, p.2) hk
    have e2 := hz (P q.1, q.2) hl
    rw [← e2, Prod.mk.injEq] at e1
    exact Prod.ext (hinj _ hp.1.1 _ hq.1.1 e1.1) e1.2
  · intro k hk
    rw [Finset.mem_range] at hk
    obtain ⟨z, hz, -⟩ := hb k hk
    obtain ⟨i, hi, hPi⟩ := hP z.1 (hlt _ _ _ hz).1
    refine ⟨(i, z.2), ?_, ?_⟩
    · rw [Finset.mem_filter, Finset.mem_product, Finset.mem_range]
      exact ⟨⟨hi, Finset.mem_univ _⟩, by simp [hPi, hz]⟩
    · simp [hPi, hz]

/-- **C116** The unknowns of a generated track on its boundaries, if rail, sleepers and pads are heavy and stiff enough not
to be trimmed: x displacement, y displacement and rotation of every rail node, except the x displacements at the two rail
ends; the y displacement of every sleeper; nothing at the bottom of the soil. -/
theorem C116_unknowns (hash : (Fin 3 → ℝ) → H) (n r : ℕ) (hn : 2 ≤ n * r) (d h : ℝ)
    (hd : 1 / 1000000000 < d / r) (hh : 1 / 1000000000 < h) (t : HorizontalTrack ℝ)
    (ht : createHorizontalTrack hash n r d h = .ok t) (v : TrackValues) (hv : v.Valid) (hm : v.NonNeg)
    (hp : RailPresent { v.rail with l := d / r }) (hs : 1 / 10 ^ 8 < v.sleeperMass) (hk : 1 / 10 ^ 8 < v.pad.stiffness)
    (inp : SystemInput ℝ) (hinp : t.system v true = .ok inp) (st : TrimState ℝ)
    (hst : inp.initialise freshFlags = .ok st) :
    (∀ m ∈ t.rail, ∀ c, equationOf st.nodes (t.meshNodes.idxOf m) c = none ↔
      (t.rail.head? = some m ∨ t.rail.getLast? = some m) ∧ c = 0) ∧
    (∀ m ∈ t.sleepers, ∀ c, equationOf st.nodes (t.meshNodes.idxOf m) c = none ↔ c ≠ 1) ∧
    (∀ e ∈ t.soil, ∀ c, equationOf st.nodes (t.meshNodes.idxOf e.2) c = none) ∧
    st.N + 2 = 3 * t.rail.length + t.sleepers.length := by
  have g : Generated hash n r d h t := ⟨hn, hd, hh, ht⟩
  rw [g.system v true] at hinp
  injection hinp with hinp
  subst hinp
  have hu := g.unknowns v hv hm hp hs hk true st hst
  obtain ⟨hlt, hsurj, hinj⟩ := g.position
  have ht' := ht
  rw [createHorizontalTrack_eq hash n r g.r_pos d h] at ht'
  simp only [Except.ok.injEq] at ht'
  have hrail : t.rail = List.range (n * r) := by rw [← ht']
  have hsl : t.sleepers = (List.range n).map (n * r + ·) := by rw [← ht']
  have hsoil : t.soil = (List.range n).map fun i => (n * r + i, n * r + n + i) := by rw [← ht']
  have hhead : (List.range (n * r)).head? = some 0 := by
    rw [List.head?_eq_getElem?, List.getElem?_range (by omega)]
  have hlast : (List.range (n * r)).getLast? = some (n * r - 1) := by
    rw [List.getLast?_eq_getElem?, List.length_range, List.getElem?_range (by omega)]
  refine ⟨?_, ?_, ?_, ?_⟩
  · intro m hm c
    rw [hrail, List.mem_range] at hm
    have := hu m (by omega) c
    rw [if_pos hm] at this
    rw [hrail, hhead, hlast]
    refine this.trans ?_
    simp only [true_and, Option.some.injEq]
    refine and_congr_left fun _ => or_congr ⟨Eq.symm, Eq.symm⟩ ⟨Eq.symm, Eq.symm⟩
  · intro m hm c
    rw [hsl, List.mem_map] at hm
    obtain ⟨i, hi, rfl⟩ := hm
    rw [List.mem_range] at hi
    have := hu (n * r + i) (by omega) c
    rw [if_neg (by omega)] at this
    refine this.trans ?_
    constructor
    · exact fun hx => hx (by omega)
    · exact fun hx _ => hx
  · intro e he c
    rw [hsoil, List.mem_map] at he
    obtain ⟨i, hi, rfl⟩ := he
    rw [List.mem_range] at hi
    have := hu (n * r + n + i) (by omega) c
    rw [if_neg (by omega)] at this
    exact this.mpr fun hx => by omega
  · obtain ⟨hb, hlt', -⟩ := C106_representable _ freshFlags st hst
    have hN := count_equations st.N (n * r + n + n) st.nodes hb hlt' t.position hsurj hinj
    have hc : ∀ k ∈ range (n * r + n + n), (univ.filter fun c : Fin 3 => equationOf st.nodes (t.position k) c ≠ none).card =
        if k < n * r then (if k = 0 ∨ k = n * r - 1 then 2 else 3) else if k < n * r + n then 1 else 0 := by
      intro k hk
      rw [Finset.mem_range] at hk
      simp only [ne_eq, hu k hk]
      split_ifs with a b c
      · simp only [b, true_and]
        decide
      · simp only [b, false_and, and_false, not_false_eq_true]
        decide
      · simp only [c, true_implies]
        decide
      · simp only [c, false_implies, not_true]
        decide
    rw [Finset.sum_congr rfl hc, Finset.sum_range_add, Finset.sum_range_add] at hN
    have s1 : ∑ k ∈ range (n * r), (if k < n * r then (if k = 0 ∨ k = n * r - 1 then 2 else 3) else
        if k < n * r + n then 1 else 0) + 2 = 3 * (n * r) := by
      obtain ⟨q, hq⟩ : ∃ q, n * r = q + 2 := ⟨n * r - 2, by omega⟩
      rw [hq, Finset.sum_range_succ, Finset.sum_range_succ']
      have : ∀ k ∈ range q, (if k + 1 < q + 2 then (if k + 1 = 0 ∨ k + 1 = q + 2 - 1 then 2 else 3) else
          if k + 1 < q + 2 + n then 1 else 0) = 3 := by
        intro k hk
        rw [Finset.mem_range] at hk
        rw [if_pos (by omega), if_neg (by omega)]
      rw [Finset.sum_congr rfl this, Finset.sum_const, Finset.card_range]
      simp
      ring
    have s2 : ∑ k ∈ range n, (if n * r + k < n * r then (if n * r + k = 0 ∨ n * r + k = n * r - 1 then 2 else 3) else
        if n * r + k < n * r + n then 1 else 0) = n := by
      have : ∀ k ∈ range n, (if n * r + k < n * r then (if n * r + k = 0 ∨ n * r + k = n * r - 1 then 2 else 3) else
        if n * r + k < n * r + n then 1 else 0) = 1 := by
        intro k hk
        rw [Finset.mem_range] at hk
        rw [if_neg (by omega), if_pos (by omega)]
      rw [Finset.sum_congr rfl this]
      simp
    have s3 : ∑ k ∈ range n, (if n * r + n + k < n * r then (if n * r + n + k = 0 ∨ n * r + n + k = n * r - 1 then 2 else 3)
        else if n * r + n + k < n * r + n then 1 else 0) = 0 := by
      apply Finset.sum_eq_zero
      intro k _
      rw [if_neg (by omega), if_neg (by omega)]
    rw [s2, s3] at hN
    rw [hrail, hsl, List.length_range, List.length_map, List.length_range]
    omega

theorem exampleTrack_nonNeg : exampleTrack.NonNeg := by
  constructor <;> simp [exampleTrack]

theorem exampleTrack_railPresent : RailPresent { exampleTrack.rail with l := 3 / 5 / (2 : ℕ) } := by
  intro k
  rw [BeamPart.stiffness, beamStiffness_eq, BeamPart.massMatrix, beamMass, beamTransMass_eq, beamRotMass_eq,
    if_pos (by norm_num [exampleTrack, timoshenkoFactor, shearModulus])]
  fin_cases k <;> constructor <;> norm_num [exampleTrack, timoshenkoFactor, shearModulus, fixity]

/-- The track of three sleepers and two rail elements per sleeper has 3 · 6 + 3 - 2 = 19 unknowns. -/
example : ∃ t inp st, createHorizontalTrack (fun p : Fin 3 → ℝ => p) 3 2 (3 / 5) 1 = .ok t ∧
    t.system exampleTrack true = .ok inp ∧ inp.initialise freshFlags = .ok st ∧ st.N = 19 := by
  obtain ⟨t, ht, -⟩ := C48_structure (fun p : Fin 3 → ℝ => p) 3 2 (by norm_num) (3 / 5) 1
  obtain ⟨inp, st, h1, h2, -⟩ := C115_static _ 3 2 (by norm_num) (by norm_num) _ _ (by norm_num) (by norm_num) t ht _
    exampleTrack_valid freshFlags
  refine ⟨t, inp, st, ht, h1, h2, ?_⟩
  have := (C116_unknowns _ 3 2 (by norm_num) _ _ (by norm_num) (by norm_num) t ht _ exampleTrack_valid exampleTrack_nonNeg
    exampleTrack_railPresent (by norm_num [exampleTrack]) (by norm_num [exampleTrack]) inp h1 st h2).2.2.2
  rw [createHorizontalTrack_eq _ 3 2 (by norm_num) (3 / 5) 1] at ht
  simp only [Except.ok.injEq] at ht
  rw [← ht] at this
  simp at this
  omega

/-! ### C115: what the boundaries are needed for -/

/-- A displacement that is not zero and causes no force makes the static system singular. -/
theorem singular_of_idle (inp : SystemInput ℝ) (flags : ℕ → Fin 3 → Bool) (hm : Spec.NodesInMesh inp)
    (ha : Spec.AxisAligned inp) (st : TrimState ℝ) (hst : inp.initialise flags = .ok st) (u : Spec.NodalField ℝ)
    (hz : ∀ i < inp.n, ∀ d, equationOf st.nodes i d = none → u i d = 0) (hne : ∃ i < inp.n, ∃ d, u i d ≠ 0)
    (hw : ∀ v, Spec.systemWork AssemblyPart.stiffness inp.parts v u = 0) : ¬ Spec.UniquelySolvable st.N st.Kg := by
  intro hs
  obtain ⟨U, hU⟩ := (C106_representable inp flags st hst).2.2 u hz
  have h0 : Spec.Solves st.N st.Kg 0 U := by
    intro k hk
    have h1 := (C106_work_partial inp flags hm ha st hst (Pi.single k 1) U _ u (fieldOf_represents _ _ _) hU).1
    rw [hw] at h1
    unfold matrixWork at h1
    rw [Finset.sum_eq_single_of_mem k (Finset.mem_range.mpr hk)] at h1
    · simpa using h1
    · intro b _ hb
      simp [hb]
  obtain ⟨W, -, hW⟩ := hs 0
  have e1 := hW U h0
  have e2 := hW 0 (fun i _ => by simp)
  obtain ⟨i, hi, d, hne⟩ := hne
  cases he : equationOf st.nodes i d with
  | none => exact hne (hz i hi d he)
  | some k =>
    have hk := ((C106_representable inp flags st hst).2.1 i d k he).2
    have h3 := hU.1 i d k he
    have h4 := e1 k hk
    have h5 := e2 k hk
    rw [← h5, h3] at h4
    exact hne h4

/-- Values of the rail nodes, zero elsewhere. -/
noncomputable def railField (P : ℕ → ℕ) (n : ℕ) (f : ℕ → Fin 3 → ℝ) : Spec.NodalField ℝ := fun m c =>
  ∑ k ∈ range n, if P k = m then f k c else 0

section needed
variable {hash : (Fin 3 → ℝ) → H} {n r : ℕ} {d h : ℝ} {t : HorizontalTrack ℝ}

theorem Generated.railField_rail (g : Generated hash n r d h t) (f : ℕ → Fin 3 → ℝ) (k : ℕ) (hk : k < n * r) (c : Fin 3) :
    railField t.position (n * r) f (t.position k) c = f k c := by
  obtain ⟨-, -, hinj⟩ := g.position
  unfold railField
  rw [Finset.sum_eq_single_of_mem k (Finset.mem_range.mpr hk)]
  · simp
  · intro b hb hne
    rw [Finset.mem_range] at hb
    rw [if_neg]
    exact fun hc => hne (hinj _ (by omega) _ (by omega) hc)

theorem Generated.railField_other (g : Generated hash n r d h t) (f : ℕ → Fin 3 → ℝ) (k : ℕ) (hk : n * r ≤ k)
    (hk2 : k < n * r + n + n) (c : Fin 3) : railField t.position (n * r) f (t.position k) c = 0 := by
  obtain ⟨-, -, hinj⟩ := g.position
  unfold railField
  apply Finset.sum_eq_zero
  intro b hb
  rw [Finset.mem_range] at hb
  rw [if_neg]
  intro hc
  have := hinj _ (by omega) _ hk2 hc
  omega

/-- A motion of the rail that strains no rail element and moves no pad makes the static system singular. -/
theorem Generated.singular (g : Generated hash n r d h t) (v : TrackValues) (hv : v.Valid) (hm : v.NonNeg)
    (hp : RailPresent { v.rail with l := d / r }) (held : Bool) (st : TrimState ℝ)
    (hst : (generatedInput t n r d v held).initialise freshFlags = .ok st) (f : ℕ → Fin 3 → ℝ)
    (hfree : ∀ k, k + 1 < n * r → Spec.ForceFree (BeamPart.stiffness { v.rail with l := d / r })
      ![f k 0, f k 1, f k 2, f (k + 1) 0, f (k + 1) 1, f (k + 1) 2])
    (hpad : ∀ i < n, f (i * r) 1 = 0) (hsup : held = true → f 0 0 = 0 ∧ f (n * r - 1) 0 = 0)
    (hne : ∃ k < n * r, ∃ c, f k c ≠ 0) : ¬ Spec.UniquelySolvable st.N st.Kg := by
  obtain ⟨hlt, hsurj, hinj⟩ := g.position
  have hr := g.r_pos
  have hir : ∀ i < n, i * r < n * r := fun i hi => Nat.mul_lt_mul_of_pos_right hi hr
  refine singular_of_idle _ freshFlags (g.mesh v held) (g.aligned v held) st hst (railField t.position (n * r) f) ?_ ?_ ?_
  · intro i hi c hc
    obtain ⟨k, hk, rfl⟩ := hsurj i hi
    by_cases h1 : k < n * r
    · rw [g.railField_rail f k h1 c]
      rw [C106_unknowns_partial _ (g.mesh v held) (g.aligned v held) st hst _ (hlt k hk) c] at hc
      change Spec.Supported (generatedSupports t n r held) _ _ ∨
        |Spec.systemWork AssemblyPart.mass (generatedParts t n r d v).parts _ _| ≤ _ ∨
        |Spec.systemWork AssemblyPart.stiffness (generatedParts t n r d v).parts _ _| ≤ _ at hc
      rw [g.supported held k hk c] at hc
      obtain ⟨w1, w2⟩ := g.rail_work v hv hm hp k h1 c
      rcases hc with (hx | ⟨hx, hy, rfl⟩) | hx | hx
      · omega
      · rcases hy with rfl | rfl
        · exact (hsup hx).1
        · exact (hsup hx).2
      · have := le_abs_self (Spec.systemWork AssemblyPart.mass (generatedParts t n r d v).parts
          (Spec.unitField (t.position k) c) (Spec.unitField (t.position k) c))
        linarith
      · have := le_abs_self (Spec.systemWork AssemblyPart.stiffness (generatedParts t n r d v).parts
          (Spec.unitField (t.position k) c) (Spec.unitField (t.position k) c))
        linarith
    · exact g.railField_other f k (by omega) hk c
  · obtain ⟨k, hk, c, hne⟩ := hne
    exact ⟨t.position k, hlt k (by omega), c, by rwa [g.railField_rail f k hk c]⟩
  · intro w
    show Spec.systemWork AssemblyPart.stiffness (generatedParts t n r d v).parts w _ = 0
    rw [track_stiffness_work _ (g.nonEmpty v)]
    have e1 : ((chainOf (generatedParts t n r d v).rail).map fun e => bilinear (generatedParts t n r d v).beam.stiffness
        (sixValues w e) (sixValues (railField t.position (n * r) f) e)).sum = 0 := by
      apply List.sum_eq_zero
      intro x hx
      rw [List.mem_map] at hx
      obtain ⟨e, he, rfl⟩ := hx
      simp only [generatedParts] at he
      rw [chainOf_map, chainOf_range, List.map_map, List.mem_map] at he
      obtain ⟨k, hk, rfl⟩ := he
      rw [List.mem_range] at hk
      apply bilinear_forceFree
      have := hfree k (by omega)
      simp only [sixValues, Function.comp_apply, g.railField_rail f k (by omega), g.railField_rail f (k + 1) (by omega)]
      exact this
    have e2 : ((generatedParts t n r d v).pads.map fun e => (generatedParts t n r d v).pad.stiffness *
        ((w e.2 1 - w e.1 1) * (railField t.position (n * r) f e.2 1 - railField t.position (n * r) f e.1 1))).sum = 0 := by
      apply List.sum_eq_zero
      intro x hx
      simp only [generatedParts, List.map_map, List.mem_map, List.mem_range, Function.comp_apply] at hx
      obtain ⟨i, hi, rfl⟩ := hx
      rw [g.railField_rail f _ (hir i hi), g.railField_other f _ (by omega) (by omega), hpad i hi]
      ring
    have e3 : ((generatedParts t n r d v).soils.map fun s => (s.2.1.map fun e => s.1.stiffness *
        ((w e.2 1 - w e.1 1) * (railField t.position (n * r) f e.2 1 - railField t.position (n * r) f e.1 1))).sum).sum =
        0 := by
      apply List.sum_eq_zero
      intro x hx
      rw [List.mem_map] at hx
      obtain ⟨s, hs, rfl⟩ := hx
      simp only [generatedParts, List.mem_singleton] at hs
      subst hs
      apply List.sum_eq_zero
      intro x hx
      simp only [List.map_map, List.mem_map, List.mem_range, Function.comp_apply] at hx
      obtain ⟨i, hi, rfl⟩ := hx
      rw [g.railField_other f _ (by omega) (by omega), g.railField_other f _ (by omega) (by omega)]
      ring
    rw [e1, e2, e3]
    ring

end needed

/-- **C115** Without the x constraint at the rail ends the static system of every such track is singular: the rail can
slide. -/
theorem C115_sides_needed (hash : (Fin 3 → ℝ) → H) (n r : ℕ) (hn : 2 ≤ n * r) (d h : ℝ)
    (hd : 1 / 1000000000 < d / r) (hh : 1 / 1000000000 < h) (t : HorizontalTrack ℝ)
    (ht : createHorizontalTrack hash n r d h = .ok t) (v : TrackValues) (hv : v.Valid) (hm : v.NonNeg)
    (hp : RailPresent { v.rail with l := d / r }) :
    ∃ inp st, t.system v false = .ok inp ∧ inp.initialise freshFlags = .ok st ∧ ¬ Spec.UniquelySolvable st.N st.Kg := by
  have g : Generated hash n r d h t := ⟨hn, hd, hh, ht⟩
  obtain ⟨st, hst⟩ := C106_succeeds _ (g.mesh v false) freshFlags
  refine ⟨_, st, g.system v false, hst, g.singular v hv hm hp false st hst (fun _ => ![1, 0, 0]) ?_ ?_ ?_ ?_⟩
  · intro k _
    rw [forceFree_iff, BeamPart.stiffness, beamStiffness_eq]
    ext i
    fin_cases i <;> simp [Matrix.mulVec, dotProduct, Fin.sum_univ_six]
  · intro i _; simp
  · simp
  · exact ⟨0, by omega, 0, by simp⟩

/-- **C115** With one sleeper the static system is singular although the rail ends are held in x: the rail can turn about
the sleeper. -/
theorem C115_two_sleepers_needed (hash : (Fin 3 → ℝ) → H) (r : ℕ) (hr : 2 ≤ r) (d h : ℝ)
    (hd : 1 / 1000000000 < d / r) (hh : 1 / 1000000000 < h) (t : HorizontalTrack ℝ)
    (ht : createHorizontalTrack hash 1 r d h = .ok t) (v : TrackValues) (hv : v.Valid) (hm : v.NonNeg)
    (hp : RailPresent { v.rail with l := d / r }) :
    ∃ inp st, t.system v true = .ok inp ∧ inp.initialise freshFlags = .ok st ∧ ¬ Spec.UniquelySolvable st.N st.Kg := by
  have g : Generated hash 1 r d h t := ⟨by omega, hd, hh, ht⟩
  obtain ⟨st, hst⟩ := C106_succeeds _ (g.mesh v true) freshFlags
  refine ⟨_, st, g.system v true, hst, g.singular v hv hm hp true st hst (fun k => ![0, k * (d / r), 1]) ?_ ?_ ?_ ?_⟩
  · intro k _
    have := C18_rigid_rotation_partial { v.rail with l := d / r } (hv.beam g.l_pos) (Or.inr ⟨hv.s1, hv.s2⟩) 1
      (-(k * (d / r))) 0
    convert this using 1
    ext i
    fin_cases i <;> simp [Spec.rotationAbout]
    ring
  · intro i hi
    obtain rfl : i = 0 := (by omega)
    simp
  · simp
  · exact ⟨0, by omega, 2, by simp⟩

example : ∃ t, createHorizontalTrack (fun p : Fin 3 → ℝ => p) 3 2 (3 / 5) 1 = .ok t ∧
    ∃ inp st, t.system exampleTrack false = .ok inp ∧ inp.initialise freshFlags = .ok st ∧
      ¬ Spec.UniquelySolvable st.N st.Kg := by
  obtain ⟨t, ht, -⟩ := C48_structure (fun p : Fin 3 → ℝ => p) 3 2 (by norm_num) (3 / 5) 1
  exact ⟨t, ht, C115_sides_needed _ 3 2 (by norm_num) _ _ (by norm_num) (by norm_num) t ht _ exampleTrack_valid
    exampleTrack_nonNeg exampleTrack_railPresent⟩

example : ∃ t, createHorizontalTrack (fun p : Fin 3 → ℝ => p) 1 2 (3 / 5) 1 = .ok t ∧
    ∃ inp st, t.system exampleTrack true = .ok inp ∧ inp.initialise freshFlags = .ok st ∧
      ¬ Spec.UniquelySolvable st.N st.Kg := by
  obtain ⟨t, ht, -⟩ := C48_structure (fun p : Fin 3 → ℝ => p) 1 2 (by norm_num) (3 / 5) 1
  exact ⟨t, ht, C115_two_sleepers_needed _ 2 (by norm_num) _ _ (by norm_num) (by norm_num) t ht _ exampleTrack_valid
    exampleTrack_nonNeg exampleTrack_railPresent⟩

/-! ### C117 -/

/-- Rayleigh damping, if used, has a damping ratio that is not negative and positive frequencies. -/
structure TrackValues.Rayleigh (v : TrackValues) : Prop where
  ratio : v.isRayleigh = true → 0 ≤ v.ratio
  w1 : v.isRayleigh = true → 0 < v.w1
  w2 : v.isRayleigh = true → 0 < v.w2

/-- **C117** For every generated track with at least two sleepers on its boundaries, with masses and dampings that are not
negative, and all factors `a, b ≥ 0`, the equations `(K + a C + b M) u = f` have exactly one solution for every right-hand
side. With `a = γ / (β Δt)`, `b = 1 / (β Δt²)` these are the equations of a Newmark step of any length. -/
theorem C117_steps (hash : (Fin 3 → ℝ) → H) (n r : ℕ) (hn : 2 ≤ n) (hr : 0 < r) (d h : ℝ)
    (hd : 1 / 1000000000 < d / r) (hh : 1 / 1000000000 < h) (t : HorizontalTrack ℝ)
    (ht : createHorizontalTrack hash n r d h = .ok t) (v : TrackValues) (hv : v.Valid) (hm : v.NonNeg) (hR : v.Rayleigh)
    (flags : ℕ → Fin 3 → Bool) (a b : ℝ) (ha : 0 ≤ a) (hb : 0 ≤ b) :
    ∃ inp st, t.system v true = .ok inp ∧ inp.initialise flags = .ok st ∧
      Spec.UniquelySolvable st.N fun i j => st.Kg i j + a * st.C i j + b * st.M i j := by
  have g : Generated hash n r d h t := ⟨by nlinarith, hd, hh, ht⟩
  obtain ⟨st, hst⟩ := C106_succeeds _ (g.mesh v true) flags
  refine ⟨_, st, g.system v true, hst, solvable_of_definite _ _ fun U hU => ?_⟩
  obtain ⟨k0, k1⟩ := (g.standing hn v hv true).definite (g.held v) flags st hst U
  have hrep := fieldOf_represents (generatedInput t n r d v true).n st.nodes U
  obtain ⟨-, wM, wC⟩ := C106_work_partial _ flags (g.mesh v true) (g.aligned v true) st hst U U _ _ hrep hrep
  have hbeam := hv.beam g.l_pos
  have m0 : 0 ≤ matrixWork st.N st.M U U := by
    rw [wM]
    show 0 ≤ Spec.systemWork AssemblyPart.mass (generatedParts t n r d v).parts _ _
    rw [track_mass _ (g.nonEmpty v)]
    refine add_nonneg (add_nonneg (add_nonneg ?_ ?_) ?_) ?_
    · exact list_sum_nonneg _ _ fun e _ => beam_mass_nonneg _ hbeam _
    · exact rodWork_nonneg _ (rodMass_option hm.padMass) _ _
    · exact list_sum_nonneg _ _ fun m _ => mul_nonneg hm.sleeper (sq_nonneg _)
    · refine list_sum_nonneg _ _ fun s hs => ?_
      simp only [generatedParts, List.mem_singleton] at hs
      subst hs
      exact rodWork_nonneg _ (rodMass_option hm.soilMass) _ _
  have d0 : 0 ≤ Spec.systemWork AssemblyPart.damping (generatedInput t n r d v true).parts (fieldOf st.nodes U)
      (fieldOf st.nodes U) := by
    show 0 ≤ Spec.systemWork AssemblyPart.damping (generatedParts t n r d v).parts _ _
    rw [track_damping _ (g.nonEmpty v)]
    refine add_nonneg ?_ ?_
    · exact rodWork_nonneg _ (rodDamping_option hm.padDamping) _ _
    · refine list_sum_nonneg _ _ fun s hs => ?_
      simp only [generatedParts, List.mem_singleton] at hs
      subst hs
      exact rodWork_nonneg _ (rodDamping_option hm.soilDamping) _ _
  have r0 : 0 ≤ (rayleighPair (generatedInput t n r d v true)).1 ∧ 0 ≤ (rayleighPair (generatedInput t n r d v true)).2 := by
    unfold rayleighPair
    split_ifs with hi
    · have h1 := hR.ratio hi
      have h2 := hR.w1 hi
      have h3 := hR.w2 hi
      constructor
      · show 0 ≤ 2 * v.ratio * v.w1 * v.w2 / (v.w1 + v.w2)
        positivity
      · show 0 ≤ 2 * v.ratio / (v.w1 + v.w2)
        positivity
    · exact ⟨le_refl _, le_refl _⟩
  have c0 : 0 ≤ matrixWork st.N st.C U U := by
    rw [wC]
    exact add_nonneg (add_nonneg d0 (mul_nonneg r0.1 m0)) (mul_nonneg r0.2 k0)
  rw [matrixWork_smul_add] at hU
  have := mul_nonneg ha c0
  have := mul_nonneg hb m0
  exact k1 (by linarith)

theorem exampleTrack_rayleigh : exampleTrack.Rayleigh := by
  constructor <;> norm_num [exampleTrack]

/-- A step of a thousandth of a second with `β = 1/4`, `γ = 1/2`. -/
example : ∃ t, createHorizontalTrack (fun p : Fin 3 → ℝ => p) 3 2 (3 / 5) 1 = .ok t ∧
    ∃ inp st, t.system exampleTrack true = .ok inp ∧ inp.initialise freshFlags = .ok st ∧
      Spec.UniquelySolvable st.N fun i j => st.Kg i j + 2000 * st.C i j + 4000000 * st.M i j := by
  obtain ⟨t, ht, -⟩ := C48_structure (fun p : Fin 3 → ℝ => p) 3 2 (by norm_num) (3 / 5) 1
  exact ⟨t, ht, C117_steps _ 3 2 (by norm_num) (by norm_num) _ _ (by norm_num) (by norm_num) t ht _ exampleTrack_valid
    exampleTrack_nonNeg exampleTrack_rayleigh _ _ _ (by norm_num) (by norm_num)⟩

end Rose
