/-
Properties C99 (rail element length) and C105 (hinges on generated tracks).
-/
import Verif.Model.TrackParts
import Verif.Props.Hinge
import Verif.Props.MeshUtils
import Mathlib.Tactic.NormNum
import Mathlib.Tactic.FieldSimp
import Mathlib.Tactic.Ring
import Mathlib.Tactic.Linarith
import Mathlib.Tactic.Positivity

set_option linter.unusedSectionVars false

namespace Rose

/-! ### C99 -/

/-- Specification: the distance of two points. -/
noncomputable def pointDistance (p q : Fin 3 → ℝ) : ℝ := Real.sqrt (∑ i, (q i - p i) ^ 2)

/-- Specification: `p` and `q` are neighbours in the list. -/
def Consecutive (nodes : List (Fin 3 → ℝ)) (p q : Fin 3 → ℝ) : Prop :=
  ∃ k : ℕ, nodes[k]? = some p ∧ nodes[k + 1]? = some q

theorem pointDistance_eq (p q : Fin 3 → ℝ) :
    pointDistance p q = Real.sqrt ((q 0 - p 0) ^ 2 + (q 1 - p 1) ^ 2 + (q 2 - p 2) ^ 2) := by
  unfold pointDistance
  rw [Fin.sum_univ_three]

theorem pointDistance_nonneg (p q : Fin 3 → ℝ) : 0 ≤ pointDistance p q := Real.sqrt_nonneg _

theorem mem_railDistances (nodes : List (Fin 3 → ℝ)) (d : ℝ) :
    d ∈ railDistances nodes ↔ ∃ p q, Consecutive nodes p q ∧ d = pointDistance p q := by
  induction nodes with
  | nil => simp [railDistances, Consecutive]
  | cons p rest ih =>
    cases rest with
    | nil => simp [railDistances, Consecutive]
    | cons q rest =>
      rw [railDistances, List.mem_cons, ih]
      constructor
      · rintro (rfl | ⟨a, b, ⟨k, h1, h2⟩, rfl⟩)
        · exact ⟨p, q, ⟨0, by simp, by simp⟩, (pointDistance_eq p q).symm⟩
        · exact ⟨a, b, ⟨k + 1, by simpa using h1, by simpa using h2⟩, rfl⟩
      · rintro ⟨a, b, ⟨k, h1, h2⟩, rfl⟩
        cases k with
        | zero =>
          simp only [List.getElem?_cons_zero, Option.some.injEq] at h1
          simp only [zero_add, List.getElem?_cons_succ, List.getElem?_cons_zero, Option.some.injEq] at h2
          subst h1; subst h2
          exact Or.inl (pointDistance_eq _ _)
        | succ k => exact Or.inr ⟨a, b, ⟨k, by simpa using h1, by simpa using h2⟩, rfl⟩

/-- C99: the rail is accepted exactly if all distances of consecutive nodes equal the first one within `1e-8` plus
`1e-5` of the distance; then the stored element length is the distance of the first two nodes. A rail without two nodes
keeps its length. -/
theorem C99_accept (nodes : List (Fin 3 → ℝ)) (old : Option ℝ) :
    (nodes.length < 2 → calculateLengthRail nodes old = .ok old) ∧
    (∀ p q rest, nodes = p :: q :: rest →
      (calculateLengthRail nodes old = .ok (some (pointDistance p q)) ∨
        calculateLengthRail nodes old = .error .exception) ∧
      (calculateLengthRail nodes old = .ok (some (pointDistance p q)) ↔
        ∀ a b, Consecutive nodes a b →
          |pointDistance p q - pointDistance a b| ≤ 1 / 10 ^ 8 + 1 / 10 ^ 5 * pointDistance a b)) := by
  constructor
  · intro h
    match nodes, h with
    | [], _ => rfl
    | [p], _ => rfl
  · rintro p q rest rfl
    have e : railDistances (p :: q :: rest) = pointDistance p q :: railDistances (q :: rest) := by
      rw [railDistances, pointDistance_eq]
    have hc : (∀ d ∈ pointDistance p q :: railDistances (q :: rest), npIsClose (pointDistance p q) d) ↔
        ∀ a b, Consecutive (p :: q :: rest) a b →
          |pointDistance p q - pointDistance a b| ≤ 1 / 10 ^ 8 + 1 / 10 ^ 5 * pointDistance a b := by
      rw [← e]
      constructor
      · intro h a b hab
        have h1 := h _ ((mem_railDistances _ _).2 ⟨a, b, hab, rfl⟩)
        unfold npIsClose at h1
        rw [abs_of_nonneg (pointDistance_nonneg a b)] at h1
        norm_num at h1 ⊢
        exact h1
      · intro h d hd
        obtain ⟨a, b, hab, rfl⟩ := (mem_railDistances _ _).1 hd
        have h1 := h a b hab
        unfold npIsClose
        rw [abs_of_nonneg (pointDistance_nonneg a b)]
        norm_num at h1 ⊢
        exact h1
    unfold calculateLengthRail
    rw [e]
    simp only
    rw [← hc]
    split_ifs with h
    · exact ⟨Or.inl rfl, ⟨fun _ => h, fun _ => rfl⟩⟩
    · exact ⟨Or.inr rfl, ⟨fun hh => (by simp at hh), fun hh => absurd hh h⟩⟩

/-- C99: if initialisation accepts the rail and its elements join nodes that are consecutive in its node list, the stored
length is that of every element, up to `1e-8` plus `1e-5` of the length. Full claim: the stored length is that of every
element and a rail of equal elements is accepted, whatever the order of its nodes. Missing: nodes in another order. -/
theorem C99_elements_partial (nodes : List (Fin 3 → ℝ)) (old : Option ℝ) (hn : 2 ≤ nodes.length) (l : Option ℝ)
    (h : calculateLengthRail nodes old = .ok l) (elements : List ((Fin 3 → ℝ) × (Fin 3 → ℝ)))
    (he : ∀ e ∈ elements, Consecutive nodes e.1 e.2) :
    ∃ len, l = some len ∧ 0 ≤ len ∧
      ∀ e ∈ elements, |len - pointDistance e.1 e.2| ≤ 1 / 10 ^ 8 + 1 / 10 ^ 5 * pointDistance e.1 e.2 := by
  match nodes, hn with
  | p :: q :: rest, _ =>
    obtain ⟨h1, h2⟩ := (C99_accept (p :: q :: rest) old).2 p q rest rfl
    rcases h1 with h1 | h1
    · rw [h1] at h
      injection h with h
      exact ⟨_, h.symm, Real.sqrt_nonneg _, fun e he' => h2.1 h1 _ _ (he e he')⟩
    · rw [h1] at h
      exact absurd h (by simp)

/-- C99: a rail whose consecutive nodes all have the same distance is accepted with exactly that length. -/
theorem C99_equal_partial (nodes : List (Fin 3 → ℝ)) (old : Option ℝ) (hn : 2 ≤ nodes.length) (len : ℝ)
    (h : ∀ a b, Consecutive nodes a b → pointDistance a b = len) : calculateLengthRail nodes old = .ok (some len) := by
  match nodes, hn with
  | p :: q :: rest, _ =>
    have h0 : pointDistance p q = len := h p q ⟨0, by simp, by simp⟩
    rw [← h0]
    rw [((C99_accept (p :: q :: rest) old).2 p q rest rfl).2]
    intro a b hab
    rw [h a b hab, h0, sub_self, abs_zero, ← h0]
    have : 0 ≤ pointDistance p q := Real.sqrt_nonneg _
    positivity

/-- C99: the rail of every generated track is accepted with the length `sleeper distance / rail elements per
sleeper`. -/
theorem C99_generated {H : Type*} [DecidableEq H] (hash : (Fin 3 → ℝ) → H) (n r : ℕ) (d h : ℝ) (hd : 0 ≤ d)
    (hn : 2 ≤ n * r) (t : HorizontalTrack ℝ) (ht : createHorizontalTrack hash n r d h = .ok t) (old : Option ℝ) :
    calculateLengthRail t.railPositions old = .ok (some (d / r)) := by
  have hr : 0 < r := by
    rcases Nat.eq_zero_or_pos r with h | h
    · subst h; omega
    · exact h
  obtain ⟨t', ht', hlen, hpos, -⟩ := C48_structure hash n r hr d h
  rw [ht] at ht'
  injection ht' with ht'
  subst ht'
  have hget : ∀ k : ℕ, ∀ a, t.railPositions[k]? = some a → a = ![(k : ℝ) * (d / r), 0, 0] := by
    intro k a hk
    unfold HorizontalTrack.railPositions at hk
    rw [List.getElem?_map] at hk
    cases e : t.rail[k]? with
    | none => rw [e] at hk; simp at hk
    | some m =>
      rw [e] at hk
      simp only [Option.map_some, Option.some.injEq] at hk
      have hk' : k < n * r := by
        rw [← hlen]
        by_contra hc
        rw [List.getElem?_eq_none (by omega)] at e
        simp at e
      rw [← hpos k hk', ← hk, List.getD_eq_getElem?_getD, e, Option.getD_some]
  apply C99_equal_partial
  · simpa [HorizontalTrack.railPositions, hlen] using hn
  · rintro a b ⟨k, h1, h2⟩
    rw [hget k a h1, hget (k + 1) b h2, pointDistance_eq]
    simp only [Matrix.cons_val_zero, Matrix.cons_val_one, Matrix.cons_val]
    have : (((k + 1 : ℕ) : ℝ) * (d / r) - (k : ℝ) * (d / r)) ^ 2 + (0 - 0) ^ 2 + (0 - 0) ^ 2 = (d / r) ^ 2 := by
      push_cast; ring
    rw [this, Real.sqrt_sq (by positivity)]

theorem pointDistance_x (a b : ℝ) : pointDistance ![a, 0, 0] ![b, 0, 0] = |b - a| := by
  rw [pointDistance_eq]
  simp [Real.sqrt_sq_eq_abs]

/-- C99 fails for another order of the nodes: a rail of two elements of length 1 with its nodes listed as 0, 2, 1 is
rejected; with nodes listed as 0, 1, 2, an element from 0 to 2 of length 2 is accepted with stored length 1. -/
theorem C99_violated :
    (pointDistance ![0, 0, 0] ![1, 0, 0] = 1 ∧ pointDistance ![1, 0, 0] ![2, 0, 0] = 1 ∧
      calculateLengthRail [![0, 0, 0], ![2, 0, 0], ![1, 0, 0]] none = .error .exception) ∧
    (pointDistance ![0, 0, 0] ![2, 0, 0] = 2 ∧
      calculateLengthRail [![0, 0, 0], ![1, 0, 0], ![2, 0, 0]] none = .ok (some 1)) := by
  have d01 : pointDistance ![0, 0, 0] ![1, 0, 0] = 1 := by rw [pointDistance_x]; norm_num
  have d12 : pointDistance ![1, 0, 0] ![2, 0, 0] = 1 := by rw [pointDistance_x]; norm_num
  have d02 : pointDistance ![0, 0, 0] ![2, 0, 0] = 2 := by rw [pointDistance_x]; norm_num
  have d21 : pointDistance ![2, 0, 0] ![1, 0, 0] = 1 := by rw [pointDistance_x]; norm_num
  refine ⟨⟨d01, d12, ?_⟩, d02, ?_⟩
  · obtain ⟨h1, h2⟩ := (C99_accept [![0, 0, 0], ![2, 0, 0], ![1, 0, 0]] none).2 _ _ _ rfl
    rcases h1 with h1 | h1
    · have := h2.1 h1 ![2, 0, 0] ![1, 0, 0] ⟨1, by simp, by simp⟩
      rw [d02, d21] at this
      norm_num at this
    · exact h1
  · apply C99_equal_partial _ _ (by simp)
    rintro a b ⟨k, h1, h2⟩
    match k, h1, h2 with
    | 0, h1, h2 =>
      simp only [List.getElem?_cons_zero, Option.some.injEq] at h1
      simp only [zero_add, List.getElem?_cons_succ, List.getElem?_cons_zero, Option.some.injEq] at h2
      rw [← h1, ← h2, d01]
    | 1, h1, h2 =>
      simp only [List.getElem?_cons_succ, List.getElem?_cons_zero, Option.some.injEq] at h1 h2
      rw [← h1, ← h2, d12]
    | k + 2, h1, h2 => simp at h2

/-! Three sleepers with two rail elements each. -/
example : ∃ t, createHorizontalTrack (fun p => p 0) 3 2 (6 / 10 : ℝ) 1 = .ok t ∧
    calculateLengthRail t.railPositions none = .ok (some (6 / 10 / (2 : ℕ))) := by
  obtain ⟨t, ht, -⟩ := C48_structure (fun p : Fin 3 → ℝ => p 0) 3 2 (by norm_num) (6 / 10) 1
  exact ⟨t, ht, C99_generated _ 3 2 _ _ (by norm_num) (by norm_num) t ht none⟩

/-! ### C105 -/

section hinge
variable {K H : Type*} [Field K] [LinearOrder K] [IsStrictOrderedRing K] [DecidableEq H]

theorem generated_length (hash : (Fin 3 → K) → H) (n r : ℕ) (d h : K) (t : HorizontalTrack K)
    (ht : createHorizontalTrack hash n r d h = .ok t) : t.lengthElement = d := by
  unfold createHorizontalTrack at ht
  split_ifs at ht
  injection ht with ht
  rw [← ht]

/-- C105, exact: a hinge of requested fixity `f` created on a generated track with `r` rail elements per sleeper gives a
beam end of the actual element length `d / r` the fixity `f / (f + (1 - f) r)`. -/
theorem C105_fixity (hash : (Fin 3 → K) → H) (n r : ℕ) (d h : K) (t : HorizontalTrack K)
    (ht : createHorizontalTrack hash n r d h = .ok t) (E I f : K) (hE : 0 < E) (hI : 0 < I) (hd : 0 < d) (hr : 0 < r)
    (h0 : 0 ≤ f) (h1 : f < 1) :
    ∃ s, createdHingeStiffness t E I f = some s ∧
      fixity (E * I) (d / r) (.fin s) = f / (f + (1 - f) * r) := by
  have h1' : 0 < 1 - f := by linarith
  have hr' : (0 : K) < r := by exact_mod_cast hr
  refine ⟨3 * E * I * f / ((1 - f) * d), ?_, ?_⟩
  · rw [createdHingeStiffness, generated_length hash n r d h t ht]
    simp [hingeStiffness, h0, h1]
  rcases h0.eq_or_lt with h | h
  · subst h; simp [fixity]
  · have hs : 0 < 3 * E * I * f / ((1 - f) * d) := by positivity
    simp only [fixity, gt_iff_lt, hs, if_true]
    have : 0 < f + (1 - f) * r := by positivity
    field_simp

/-- C105: the requested fixity (strictly between free and fixed) is realised exactly for one rail element per
sleeper. -/
theorem C105_iff (hash : (Fin 3 → K) → H) (n r : ℕ) (d h : K) (t : HorizontalTrack K)
    (ht : createHorizontalTrack hash n r d h = .ok t) (E I f : K) (hE : 0 < E) (hI : 0 < I) (hd : 0 < d) (hr : 0 < r)
    (h0 : 0 < f) (h1 : f < 1) (s : K) (hs : createdHingeStiffness t E I f = some s) :
    fixity (E * I) (d / r) (.fin s) = f ↔ r = 1 := by
  obtain ⟨s', e1, e2⟩ := C105_fixity hash n r d h t ht E I f hE hI hd hr h0.le h1
  rw [hs] at e1
  injection e1 with e1
  subst e1
  have h1' : 0 < 1 - f := by linarith
  have hr' : (0 : K) < r := by exact_mod_cast hr
  have hpos : 0 < f + (1 - f) * r := by positivity
  rw [e2, div_eq_iff hpos.ne']
  constructor
  · intro h
    have h2 : f * (1 - f) * ((r : K) - 1) = 0 := by linear_combination -h
    have h3 : (r : K) - 1 = 0 := by
      rcases mul_eq_zero.1 h2 with h3 | h3
      · exact absurd h3 (mul_pos h0 h1').ne'
      · exact h3
    have h4 : (r : K) = ((1 : ℕ) : K) := by push_cast; linear_combination h3
    exact_mod_cast h4
  · rintro rfl
    push_cast; ring

/-- C105, the case that holds: one rail element per sleeper. Full claim: for every number of rail elements per sleeper.
Missing: more than one, where it fails (`C105_violated`). -/
theorem C105_realised_partial (hash : (Fin 3 → K) → H) (n : ℕ) (d h : K) (t : HorizontalTrack K)
    (ht : createHorizontalTrack hash n 1 d h = .ok t) (E I f : K) (hE : 0 < E) (hI : 0 < I) (hd : 0 < d)
    (h0 : 0 ≤ f) (h1 : f < 1) :
    ∃ s, createdHingeStiffness t E I f = some s ∧ fixity (E * I) (d / (1 : ℕ)) (.fin s) = f := by
  obtain ⟨s, e1, e2⟩ := C105_fixity hash n 1 d h t ht E I f hE hI hd one_pos h0 h1
  refine ⟨s, e1, ?_⟩
  rw [e2]
  have : f + (1 - f) * ((1 : ℕ) : K) = 1 := by push_cast; ring
  rw [this, div_one]

end hinge

/-- C105 fails with two rail elements per sleeper: a requested fixity of 1/2 becomes 1/3. -/
theorem C105_violated : ∃ t, createHorizontalTrack (fun p => p 0) 4 2 (6 / 10 : ℚ) 1 = .ok t ∧
    ∃ s, createdHingeStiffness t (210 : ℚ) 3 (1 / 2) = some s ∧
      fixity ((210 : ℚ) * 3) (6 / 10 / ((2 : ℕ) : ℚ)) (.fin s) = 1 / 3 := by
  obtain ⟨t, ht, -⟩ := C48_structure (fun p : Fin 3 → ℚ => p 0) 4 2 (by norm_num) (6 / 10) 1
  obtain ⟨s, e1, e2⟩ := C105_fixity _ 4 2 (6 / 10 : ℚ) 1 t ht 210 3 (1 / 2) (by norm_num) (by norm_num) (by norm_num)
    (by norm_num) (by norm_num) (by norm_num)
  exact ⟨t, ht, s, e1, by rw [e2]; norm_num⟩

end Rose
