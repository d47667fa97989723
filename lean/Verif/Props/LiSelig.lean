import Verif.Props.Accumulation
import Verif.Spec.Soil
import Mathlib.Tactic.LinearCombination
import Mathlib.Tactic.IntervalCases

set_option linter.unusedSectionVars false

namespace Rose

/-! ### C90: layers of the soil -/

theorem mapM_getElem? {α β : Type} (f : α → Except Err β) (l : List α) (r : List β) (h : l.mapM f = .ok r) :
    r.length = l.length ∧ ∀ (i : ℕ) (x : α), l[i]? = some x → ∃ y, r[i]? = some y ∧ f x = .ok y := by
  induction l generalizing r with
  | nil =>
    rw [List.mapM_nil] at h
    cases h; simp
  | cons a l ih =>
    rw [List.mapM_cons] at h
    cases hf : f a with
    | error e => rw [hf] at h; cases h
    | ok b =>
      rw [hf] at h
      cases hl : l.mapM f with
      | error e => rw [hl] at h; cases h
      | ok bs =>
        rw [hl] at h
        cases h
        obtain ⟨h1, h2⟩ := ih bs hl
        refine ⟨by simp [h1], ?_⟩
        intro i x hx
        cases i with
        | zero => simp only [List.getElem?_cons_zero, Option.some.injEq] at hx; subst hx; exact ⟨b, rfl, hf⟩
        | succ i => exact h2 i x hx

theorem buildLayers_getElem? (soil : List SoilLayer) (zLast : ℝ) (layers : List LiSeligLayer)
    (h : buildLayers soil zLast = .ok layers) : layers.length = soil.length ∧
    ∀ (i : ℕ) (s : SoilLayer), soil[i]? = some s → ∃ p, classify s.name = .ok p ∧ layers[i]? = some
      ⟨(p.1 : ℝ), (p.2.1 : ℝ), (p.2.2 : ℝ), layerStrength (soil.map SoilLayer.top) zLast s.gamma s.phi s.cohesion i,
        layerThickness (soil.map SoilLayer.top) zLast i, layerMiddle (soil.map SoilLayer.top) zLast i⟩ := by
  obtain ⟨h1, h2⟩ := mapM_getElem? _ _ _ h
  rw [List.length_range] at h1
  refine ⟨h1, ?_⟩
  intro i s hs
  have hi : i < soil.length := (List.getElem?_eq_some_iff.1 hs).1
  obtain ⟨y, hy, hf⟩ := h2 i i (by rw [List.getElem?_range hi])
  simp only [hs] at hf
  cases hc : classify s.name with
  | error e => rw [hc] at hf; cases hf
  | ok p => rw [hc] at hf; cases hf; exact ⟨p, rfl, hy⟩

theorem append_getD (tops : List ℝ) (zLast : ℝ) (i : ℕ) (hi : i ≤ tops.length) :
    (tops ++ [zLast]).getD i 0 = interface tops zLast i := by
  unfold interface
  split_ifs with h
  · rw [List.getD_append _ _ _ _ h]
  · have : i = tops.length := by omega
    subst this
    rw [List.getD_append_right _ _ _ _ le_rfl]; simp

theorem descending_le (tops : List ℝ) (zLast : ℝ) (hd : Descending tops zLast) (i : ℕ) (hi : i ≤ tops.length) :
    interface tops zLast i ≤ interface tops zLast 0 := by
  induction i with
  | zero => exact le_rfl
  | succ i ih => exact le_trans (hd i (by omega)).le (ih (by omega))

theorem layerThickness_eq (tops : List ℝ) (zLast : ℝ) (hd : Descending tops zLast) (i : ℕ) (hi : i < tops.length) :
    layerThickness tops zLast i = interface tops zLast i - interface tops zLast (i + 1) := by
  unfold layerThickness
  rw [append_getD _ _ _ hi, append_getD _ _ _ hi.le, abs_sub_comm, abs_of_pos (by linarith [hd i hi])]

theorem layerMiddle_eq (tops : List ℝ) (zLast : ℝ) (hd : Descending tops zLast) (i : ℕ) (hi : i < tops.length) :
    layerMiddle tops zLast i = interface tops zLast 0 - (interface tops zLast i + interface tops zLast (i + 1)) / 2 := by
  unfold layerMiddle
  rw [layerThickness_eq tops zLast hd i hi]
  have h0 : tops.getD 0 0 = interface tops zLast 0 := by unfold interface; rw [if_pos (by omega)]
  have h1 : tops.getD i 0 = interface tops zLast i := by unfold interface; rw [if_pos hi]
  rw [h0, h1, abs_sub_comm, abs_of_nonneg (by linarith [descending_le tops zLast hd i hi.le])]
  ring

/-- **C90** For every soil whose tops descend: building the layers, if it succeeds (see `C90_accepted`), gives one layer per soil layer, in order, with the table
parameters of its name, the distance between its interfaces as thickness, and the depth of its centre below the surface; the
thicknesses add up to the depth of the soil. -/
theorem C90_layers (soil : List SoilLayer) (zLast : ℝ) (hd : Descending (soil.map SoilLayer.top) zLast) (layers : List LiSeligLayer)
    (h : buildLayers soil zLast = .ok layers) :
    let z := interface (soil.map SoilLayer.top) zLast
    layers.length = soil.length ∧
    (∀ (i : ℕ) (s : SoilLayer), soil[i]? = some s → ∃ l, layers[i]? = some l ∧
      (∃ p, classify s.name = .ok p ∧ l.a = p.1 ∧ l.b = p.2.1 ∧ l.m = p.2.2) ∧
      l.thickness = z i - z (i + 1) ∧ 0 < l.thickness ∧ l.zMid = z 0 - (z i + z (i + 1)) / 2 ∧ 0 < l.zMid) ∧
    (layers.map LiSeligLayer.thickness).sum = z 0 - z soil.length := by
  intro z
  obtain ⟨h1, h2⟩ := buildLayers_getElem? soil zLast layers h
  have key : ∀ (i : ℕ) (s : SoilLayer), soil[i]? = some s → ∃ l, layers[i]? = some l ∧
      (∃ p, classify s.name = .ok p ∧ l.a = p.1 ∧ l.b = p.2.1 ∧ l.m = p.2.2) ∧
      l.thickness = z i - z (i + 1) ∧ 0 < l.thickness ∧ l.zMid = z 0 - (z i + z (i + 1)) / 2 ∧ 0 < l.zMid := by
    intro i s hs
    have hi : i < (soil.map SoilLayer.top).length := by rw [List.length_map]; exact (List.getElem?_eq_some_iff.1 hs).1
    obtain ⟨p, hp, hl⟩ := h2 i s hs
    have ht := layerThickness_eq _ zLast hd i hi
    have hm := layerMiddle_eq _ zLast hd i hi
    refine ⟨_, hl, ⟨p, hp, rfl, rfl, rfl⟩, ht, ?_, hm, ?_⟩
    · show 0 < layerThickness _ _ _
      rw [ht]; linarith [hd i hi]
    · show 0 < layerMiddle _ _ _
      rw [hm]; linarith [hd i hi, descending_le _ zLast hd i hi.le]
  refine ⟨h1, key, ?_⟩
  have hsum : ∀ n, n ≤ soil.length → ((layers.take n).map LiSeligLayer.thickness).sum = z 0 - z n := by
    intro n
    induction n with
    | zero => intro _; simp
    | succ n ih =>
      intro hn
      obtain ⟨l, hl, -, ht, -⟩ := key n (soil[n]'(by omega)) (List.getElem?_eq_getElem _)
      rw [List.take_add_one, hl]
      simp only [Option.toList_some, List.map_append, List.sum_append, List.map_cons, List.map_nil, List.sum_cons, List.sum_nil]
      rw [ih (by omega), ht]; ring
  have := hsum soil.length le_rfl
  rwa [← h1, List.take_length, h1] at this

/-- One item of `buildLayers`. -/
noncomputable abbrev buildLayerAt (soil : List SoilLayer) (zLast : ℝ) (i : ℕ) : Except Err LiSeligLayer :=
  match soil[i]? with
  | none => .error .indexError
  | some l => (classify l.name).map fun p =>
    ⟨(p.1 : ℝ), (p.2.1 : ℝ), (p.2.2 : ℝ), layerStrength (soil.map SoilLayer.top) zLast l.gamma l.phi l.cohesion i,
      layerThickness (soil.map SoilLayer.top) zLast i, layerMiddle (soil.map SoilLayer.top) zLast i⟩

/-- **C90, accepted** The layers are built exactly if every name ends in a class of the table (C58); otherwise a value error is raised. -/
theorem C90_accepted (soil : List SoilLayer) (zLast : ℝ) :
    ((∃ layers, buildLayers soil zLast = .ok layers) ↔
      ∀ s ∈ soil, ∃ e ∈ soilTable, s.name.toList = e.1.toList ∨ ∃ pre, s.name.toList = pre ++ '_' :: e.1.toList) ∧
    ((¬ ∃ layers, buildLayers soil zLast = .ok layers) → buildLayers soil zLast = .error .valueError) := by
  have hno : ∀ e ∈ soilTable, '_' ∉ e.1.toList := by
    unfold soilTable
    simp only [List.mem_cons, List.not_mem_nil, or_false, forall_eq_or_imp, forall_eq]
    decide +kernel
  have hclass : ∀ name : String, (∃ q, classify name = .ok q) ↔
      ∃ e ∈ soilTable, name.toList = e.1.toList ∨ ∃ pre, name.toList = pre ++ '_' :: e.1.toList := by
    intro name
    constructor
    · rintro ⟨q, hq⟩
      obtain ⟨e, he, h1, -⟩ := (classify_lastPart name q).mp hq
      refine ⟨e, he, ?_⟩
      rw [h1]
      unfold lastPart
      rcases h : name.toList.reverse.dropWhile (· ≠ '_') with _ | ⟨x, rest⟩
      · left
        have := List.takeWhile_append_dropWhile (p := fun x => decide (x ≠ '_')) (l := name.toList.reverse)
        rw [h, List.append_nil] at this
        rw [this, List.reverse_reverse]
      · right
        refine ⟨rest.reverse, ?_⟩
        have hx : x = '_' := by
          have := List.head_dropWhile_not (l := name.toList.reverse) (fun x => decide (x ≠ '_')) (by rw [h]; simp)
          simp only [h, List.head_cons] at this
          simpa using this
        have := List.takeWhile_append_dropWhile (p := fun x => decide (x ≠ '_')) (l := name.toList.reverse)
        rw [h, hx] at this
        have h2 := congrArg List.reverse this
        rw [List.reverse_reverse, List.reverse_append, List.reverse_cons, List.append_assoc] at h2
        exact h2.symm
    · rintro ⟨e, he, hn⟩
      have := (classify_lastPart name e.2).mpr ⟨e, he, ?_, rfl⟩
      · exact ⟨_, this⟩
      · rcases hn with hn | ⟨pre, hn⟩
        · rw [hn, (lastPart_eq [] _ (hno e he)).1]
        · rw [hn, (lastPart_eq pre _ (hno e he)).2]
  have herr : ∀ name e, classify name = .error e → e = .valueError := by
    intro name e h
    unfold classify at h
    simp only at h
    split_ifs at h
    cases h; rfl
  have hmap : ∀ (l : List ℕ) (f : ℕ → Except Err LiSeligLayer), (∀ i ∈ l, ∀ e, f i = .error e → e = .valueError) →
      (∃ ys, l.mapM f = .ok ys ∧ ∀ i ∈ l, ∃ y, f i = .ok y) ∨ (l.mapM f = .error .valueError ∧ ∃ i ∈ l, f i = .error .valueError) := by
    intro l f hf
    induction l with
    | nil => exact Or.inl ⟨[], rfl, by simp⟩
    | cons a l ih =>
      rw [List.mapM_cons]
      cases ha : f a with
      | error e =>
        right
        obtain rfl := hf a (by simp) e ha
        exact ⟨rfl, a, by simp, ha⟩
      | ok b =>
        rcases ih fun i hi => hf i (by simp [hi]) with ⟨ys, h1, h2⟩ | ⟨h1, i, hi, h2⟩
        · left
          rw [h1]
          refine ⟨b :: ys, rfl, ?_⟩
          intro i hi
          rcases List.mem_cons.1 hi with rfl | hi
          · exact ⟨b, ha⟩
          · exact h2 i hi
        · right
          rw [h1]
          exact ⟨rfl, i, by simp [hi], h2⟩
  have hitem : ∀ i (hi : i < soil.length), (∀ q, classify soil[i].name = .ok q → ∃ y, buildLayerAt soil zLast i = .ok y) ∧
      ∀ e, classify soil[i].name = .error e → buildLayerAt soil zLast i = .error e := by
    intro i hi
    unfold buildLayerAt
    rw [List.getElem?_eq_getElem hi]
    refine ⟨fun q hq => ?_, fun e he => ?_⟩
    · simp only [hq]; exact ⟨_, rfl⟩
    · simp only [he]; rfl
  have hf : ∀ i ∈ List.range soil.length, ∀ e, buildLayerAt soil zLast i = .error e → e = .valueError := by
    intro i hi e he
    have hlt := List.mem_range.mp hi
    cases hc : classify soil[i].name with
    | ok q =>
      obtain ⟨y, hy⟩ := (hitem i hlt).1 q hc
      rw [hy] at he; cases he
    | error e' =>
      rw [(hitem i hlt).2 e' hc] at he
      cases he
      exact herr _ _ hc
  have hex : (∃ layers, buildLayers soil zLast = .ok layers) ↔ ∀ s ∈ soil, ∃ q, classify s.name = .ok q := by
    constructor
    · rintro ⟨layers, h⟩ s hs
      obtain ⟨-, h2⟩ := buildLayers_getElem? soil zLast layers h
      obtain ⟨i, hi, rfl⟩ := List.mem_iff_getElem.mp hs
      obtain ⟨p, hp, -⟩ := h2 i _ (List.getElem?_eq_getElem hi)
      exact ⟨p, hp⟩
    · intro h
      rcases hmap _ _ hf with ⟨ys, h1, -⟩ | ⟨-, i, hi, h2⟩
      · exact ⟨ys, h1⟩
      · obtain ⟨q, hq⟩ := h _ (List.getElem_mem (List.mem_range.mp hi))
        obtain ⟨y, hy⟩ := (hitem i (List.mem_range.mp hi)).1 q hq
        rw [hy] at h2; cases h2
  refine ⟨hex.trans (forall₂_congr fun s _ => hclass s.name), fun hne => ?_⟩
  rcases hmap _ _ hf with ⟨ys, h1, -⟩ | ⟨h1, -⟩
  · exact absurd ⟨ys, h1⟩ hne
  · exact h1

/-- A soil with a loamy layer that the table does not know is rejected. -/
example (zLast : ℝ) : buildLayers [⟨"H_v", 12, 15, 3, 0⟩, ⟨"P_loam", 18, 32, 1, -2⟩] zLast = .error .valueError := by
  refine (C90_accepted _ zLast).2 fun ⟨layers, h⟩ => ?_
  obtain ⟨p, hp, -⟩ := (buildLayers_getElem? _ zLast layers h).2 1 ⟨"P_loam", 18, 32, 1, -2⟩ rfl
  have c2 : classify "P_loam" = .error .valueError := by decide +kernel
  rw [c2] at hp
  cases hp

theorem demo_soil : ∃ layers, buildLayers [⟨"H_v", 12, 15, 3, 0⟩, ⟨"P_zm", 18, 32, 1, -2⟩] (-20) = .ok layers := by
  have c1 : classify "H_v" = .ok (12 / 10, 18 / 100, 24 / 10) := by decide +kernel
  have c2 : classify "P_zm" = .ok (64 / 100, 10 / 100, 17 / 10) := by decide +kernel
  have : List.range 2 = [0, 1] := by decide
  simp only [buildLayers, List.length_cons, List.length_nil, this, List.mapM_cons, List.mapM_nil,
    List.getElem?_cons_zero, List.getElem?_cons_succ, c1, c2]
  exact ⟨_, rfl⟩

/-- A soil of peat on sand meets the hypotheses of C90 and C91. -/
theorem demo_descending : Descending ([⟨"H_v", 12, 15, 3, 0⟩, ⟨"P_zm", 18, 32, 1, -2⟩].map SoilLayer.top) (-20) := by
  intro i hi
  simp only [List.map_cons, List.map_nil, List.length_cons, List.length_nil] at hi ⊢
  interval_cases i <;> simp [interface] <;> norm_num

example : ∃ layers, buildLayers [⟨"H_v", 12, 15, 3, 0⟩, ⟨"P_zm", 18, 32, 1, -2⟩] (-20) = .ok layers ∧
    (layers.map LiSeligLayer.thickness).sum = 20 := by
  obtain ⟨layers, h⟩ := demo_soil
  refine ⟨layers, h, ?_⟩
  rw [(C90_layers _ _ demo_descending layers h).2.2]
  simp [interface]

/-! ### C91: strength of the layers -/

theorem sum_range_map_sub (z : ℕ → ℝ) (i : ℕ) : ((List.range i).map fun j => z j - z (j + 1)).sum = z 0 - z i := by
  induction i with
  | zero => simp
  | succ i ih => rw [List.range_succ, List.map_append, List.sum_append, ih]; simp

theorem sum_map_sub' (L : List ℕ) (f g : ℕ → ℝ) : (L.map fun j => f j - g j).sum = (L.map f).sum - (L.map g).sum := by
  induction L with
  | nil => simp
  | cons a L ih => simp only [List.map_cons, List.sum_cons, ih]; ring

/-- Strength of layer `i`: Mohr-Coulomb with the weight of the column above its centre as if it all had the unit weight of the layer
itself. It is the strength under the weight of the soil above exactly if the lighter and heavier layers above balance (or the
friction angle is zero). -/
theorem C91_strength_iff (soil : List SoilLayer) (zLast : ℝ) (hd : Descending (soil.map SoilLayer.top) zLast) (layers : List LiSeligLayer)
    (h : buildLayers soil zLast = .ok layers) (i : ℕ) (s : SoilLayer) (hs : soil[i]? = some s) :
    let z := interface (soil.map SoilLayer.top) zLast
    ∃ l, layers[i]? = some l ∧
      (l.strength = overburden soil zLast i * Real.tan (s.phi * (Real.pi / 180)) + s.cohesion ↔
        Real.tan (s.phi * (Real.pi / 180)) = 0 ∨
          ((List.range i).map fun j => ((soil.map SoilLayer.gamma).getD j 0 - s.gamma) * (z j - z (j + 1))).sum = 0) := by
  intro z
  obtain ⟨-, h2⟩ := buildLayers_getElem? soil zLast layers h
  obtain ⟨p, hp, hl⟩ := h2 i s hs
  refine ⟨_, hl, ?_⟩
  have hi : i < (soil.map SoilLayer.top).length := by rw [List.length_map]; exact (List.getElem?_eq_some_iff.1 hs).1
  have hg : (soil.map SoilLayer.gamma).getD i 0 = s.gamma := by
    rw [List.getD_eq_getElem?_getD, List.getElem?_map, hs]; rfl
  have e : overburden soil zLast i - s.gamma * layerMiddle (soil.map SoilLayer.top) zLast i =
      ((List.range i).map fun j => ((soil.map SoilLayer.gamma).getD j 0 - s.gamma) * (z j - z (j + 1))).sum := by
    rw [layerMiddle_eq _ _ hd i hi]
    have e1 : ((List.range i).map fun j => ((soil.map SoilLayer.gamma).getD j 0 - s.gamma) * (z j - z (j + 1))).sum =
        ((List.range i).map fun j => (soil.map SoilLayer.gamma).getD j 0 * (z j - z (j + 1))).sum - s.gamma * (z 0 - z i) := by
      rw [← sum_range_map_sub z i, ← List.sum_map_mul_left, ← sum_map_sub']
      congr 1
      apply List.map_congr_left
      intro j _; ring
    rw [e1]
    unfold overburden
    simp only [hg]
    show _ + s.gamma * ((z i - z (i + 1)) / 2) - s.gamma * (z 0 - (z i + z (i + 1)) / 2) = _
    ring
  show layerStrength _ _ _ _ _ _ = _ ↔ _
  unfold layerStrength
  rw [← e]
  constructor
  · intro h'
    have : (overburden soil zLast i - s.gamma * layerMiddle (soil.map SoilLayer.top) zLast i) *
        Real.tan (s.phi * (Real.pi / 180)) = 0 := by linear_combination -h'
    rcases mul_eq_zero.1 this with h3 | h3
    · exact Or.inr h3
    · exact Or.inl h3
  · rintro (h' | h')
    · rw [h']; ring
    · rw [sub_eq_zero.1 h']

/-- **C91, the part that holds** If all layers have the same unit weight, the strength in the middle of each layer is the Mohr-Coulomb
strength under the weight of the soil above. -/
theorem C91_strength_partial (soil : List SoilLayer) (zLast : ℝ) (hd : Descending (soil.map SoilLayer.top) zLast) (layers : List LiSeligLayer)
    (h : buildLayers soil zLast = .ok layers) (g : ℝ) (hg : ∀ s ∈ soil, s.gamma = g) (i : ℕ) (s : SoilLayer) (hs : soil[i]? = some s) :
    ∃ l, layers[i]? = some l ∧ l.strength = overburden soil zLast i * Real.tan (s.phi * (Real.pi / 180)) + s.cohesion := by
  obtain ⟨l, hl, hiff⟩ := C91_strength_iff soil zLast hd layers h i s hs
  refine ⟨l, hl, hiff.2 (Or.inr ?_)⟩
  have hi : i < soil.length := (List.getElem?_eq_some_iff.1 hs).1
  apply List.sum_eq_zero
  intro x hx
  rw [List.mem_map] at hx
  obtain ⟨j, hj, rfl⟩ := hx
  rw [List.mem_range] at hj
  have : (soil.map SoilLayer.gamma).getD j 0 = g := by
    rw [List.getD_eq_getElem _ _ (by rw [List.length_map]; omega), List.getElem_map]
    exact hg _ (List.getElem_mem _)
  rw [this, hg s (List.mem_of_getElem? hs)]; ring

/-- **C91 is violated** Two metres of peat (12 kN/m3) on sand (18 kN/m3): the sand is given the strength it would have under two
metres of sand, too high by `12 tan 32°` kPa. -/
theorem C91_violated : ∃ layers l, buildLayers [⟨"H_v", 12, 15, 3, 0⟩, ⟨"P_zm", 18, 32, 1, -2⟩] (-20) = .ok layers ∧ layers[1]? = some l ∧
    overburden [⟨"H_v", 12, 15, 3, 0⟩, ⟨"P_zm", 18, 32, 1, -2⟩] (-20) 1 * Real.tan (32 * (Real.pi / 180)) + 1 < l.strength := by
  obtain ⟨layers, h⟩ := demo_soil
  obtain ⟨-, h2⟩ := buildLayers_getElem? _ _ layers h
  obtain ⟨p, hp, hl⟩ := h2 1 _ rfl
  refine ⟨layers, _, h, hl, ?_⟩
  show _ < layerStrength _ _ _ _ _ _
  unfold layerStrength
  rw [layerMiddle_eq _ _ demo_descending 1 (by simp)]
  have ht : 0 < Real.tan (32 * (Real.pi / 180)) := by
    have := Real.pi_pos
    apply Real.tan_pos_of_pos_of_lt_pi_div_two (by positivity); linarith
  simp only [overburden, interface, List.map_cons, List.map_nil, List.length_cons, List.length_nil, List.range_one]
  norm_num
  nlinarith

/-! ### C92: stress under the sleeper -/

theorem sin_arctan_sub (u v : ℝ) : Real.sin (Real.arctan u - Real.arctan v) = (u - v) / (Real.sqrt (1 + u ^ 2) * Real.sqrt (1 + v ^ 2)) := by
  rw [Real.sin_sub, Real.sin_arctan, Real.cos_arctan, Real.sin_arctan, Real.cos_arctan]
  have h1 : Real.sqrt (1 + u ^ 2) ≠ 0 := (Real.sqrt_pos.2 (by positivity)).ne'
  have h2 : Real.sqrt (1 + v ^ 2) ≠ 0 := (Real.sqrt_pos.2 (by positivity)).ne'
  field_simp

theorem flamantShear_sin (q a z x : ℝ) :
    flamantShear q a z x = |q / Real.pi * Real.sin (Real.arctan ((x + a) / z) - Real.arctan ((x - a) / z))| := by
  rw [flamantShear_eq, ← Real.sqrt_sq_eq_abs]
  congr 1
  rw [Real.sin_sub]
  generalize Real.arctan ((x + a) / z) = s
  generalize Real.arctan ((x - a) / z) = t
  have hs := Real.sin_sq_add_cos_sq s
  have ht := Real.sin_sq_add_cos_sq t
  have e1 : Real.sin s ^ 2 = 1 - Real.cos s ^ 2 := by linarith
  have e2 : Real.sin t ^ 2 = 1 - Real.cos t ^ 2 := by linarith
  have : (Real.sin s * Real.cos s - Real.sin t * Real.cos t) ^ 2 + (Real.cos t ^ 2 - Real.cos s ^ 2) ^ 2 =
      (Real.sin s * Real.cos t - Real.cos s * Real.sin t) ^ 2 := by
    linear_combination (Real.cos s ^ 2 - Real.cos t ^ 2) * e1 + (Real.cos t ^ 2 - Real.cos s ^ 2) * e2
  linear_combination (q / Real.pi) ^ 2 * this

theorem sqrt_one_add_div (b z : ℝ) (hz : 0 < z) : Real.sqrt (1 + (b / z) ^ 2) = Real.sqrt (z ^ 2 + b ^ 2) / z := by
  have : 1 + (b / z) ^ 2 = (z ^ 2 + b ^ 2) / z ^ 2 := by field_simp
  rw [this, Real.sqrt_div (by positivity), Real.sqrt_sq hz.le]

theorem flamantShear_strip (q a z x : ℝ) (hq : 0 ≤ q) (ha : 0 ≤ a) (hz : 0 < z) : flamantShear q a z x = stripShear q a z x := by
  have hp := Real.pi_pos
  have h1 : 0 < Real.sqrt (z ^ 2 + (x + a) ^ 2) := Real.sqrt_pos.2 (by positivity)
  have h2 : 0 < Real.sqrt (z ^ 2 + (x - a) ^ 2) := Real.sqrt_pos.2 (by positivity)
  rw [flamantShear_sin, sin_arctan_sub, sqrt_one_add_div _ _ hz, sqrt_one_add_div _ _ hz]
  have e : ((x + a) / z - (x - a) / z) / (Real.sqrt (z ^ 2 + (x + a) ^ 2) / z * (Real.sqrt (z ^ 2 + (x - a) ^ 2) / z)) =
      2 * a * z / (Real.sqrt (z ^ 2 + (x + a) ^ 2) * Real.sqrt (z ^ 2 + (x - a) ^ 2)) := by
    field_simp; ring
  rw [e]
  unfold stripShear
  rw [abs_of_nonneg]
  positivity

theorem strip_factor_le_one (a z x : ℝ) (hz : 0 < z) :
    2 * a * z / (Real.sqrt (z ^ 2 + (x + a) ^ 2) * Real.sqrt (z ^ 2 + (x - a) ^ 2)) ≤ 1 := by
  rw [← Real.sqrt_mul (by positivity)]
  have hpos : 0 < Real.sqrt ((z ^ 2 + (x + a) ^ 2) * (z ^ 2 + (x - a) ^ 2)) := Real.sqrt_pos.2 (by positivity)
  rw [div_le_one hpos]
  apply Real.le_sqrt_of_sq_le
  nlinarith [sq_nonneg (z ^ 2 + x ^ 2 - a ^ 2), sq_nonneg (x * z), sq_nonneg (2 * z * x)]

theorem foldl_max_le (L : List ℝ) (a b : ℝ) (ha : a ≤ b) (hL : ∀ x ∈ L, x ≤ b) : L.foldl max a ≤ b := by
  induction L generalizing a with
  | nil => exact ha
  | cons x L ih => exact ih _ (max_le ha (hL x (by simp))) fun y hy => hL y (List.mem_cons_of_mem _ hy)

theorem foldl_max_attained (L : List ℝ) (a : ℝ) : L.foldl max a = a ∨ L.foldl max a ∈ L := by
  induction L generalizing a with
  | nil => left; rfl
  | cons x L ih =>
    rw [List.foldl_cons]
    rcases ih (max a x) with h | h
    · rw [h]
      rcases max_choice a x with h' | h'
      · left; exact h'
      · right; rw [h']; simp
    · right; exact List.mem_cons_of_mem _ h

theorem devStress_attained (force length width z : ℝ) : ∃ i, i < 100 ∧ devStress force length width z =
    flamantShear (force / (length * width) / 1000) (width / 2) z (linspaceAt (-10 * (width / 2)) (10 * (width / 2)) 100 i) := by
  unfold devStress linspace
  simp only
  have : List.range 100 = 0 :: List.range' 1 99 := by decide
  rw [this, List.map_cons, List.map_cons, List.tail_cons, List.headD_cons]
  rcases foldl_max_attained (((List.range' 1 99).map (linspaceAt (-10 * (width / 2)) (10 * (width / 2)) 100)).map
    (flamantShear (force / (length * width) / 1000) (width / 2) z))
    (flamantShear (force / (length * width) / 1000) (width / 2) z (linspaceAt (-10 * (width / 2)) (10 * (width / 2)) 100 0)) with h | h
  · exact ⟨0, by norm_num, h⟩
  · rw [List.map_map, List.mem_map] at h
    obtain ⟨i, hi, h⟩ := h
    rw [List.mem_range'] at hi
    obtain ⟨k, hk, rfl⟩ := hi
    exact ⟨1 + 1 * k, by omega, h.symm⟩

/-- **C92, the part that holds** For a positive load area and depth: the stress used is the largest shear stress under a strip load of
`force / (length * width)` (in kPa) at one of 100 equally spaced points up to five widths to either side, not less than at any other
of them, and at most the load divided by pi, the largest shear stress anywhere in the half space. -/
theorem C92_strip_partial (force length width z : ℝ) (hf : 0 ≤ force) (hl : 0 < length) (hw : 0 < width) (hz : 0 < z) :
    let q := force / (length * width) / 1000
    let x := fun (i : ℕ) => -5 * width + (i : ℝ) * (10 * width / 99)
    (∃ i, i < 100 ∧ devStress force length width z = stripShear q (width / 2) z (x i)) ∧
    (∀ i, i < 100 → stripShear q (width / 2) z (x i) ≤ devStress force length width z) ∧
    devStress force length width z ≤ q / Real.pi := by
  intro q x
  have hq : 0 ≤ q := by positivity
  have hx : ∀ i, linspaceAt (-10 * (width / 2)) (10 * (width / 2)) 100 i = x i := by
    intro i; unfold linspaceAt; rw [if_neg (by norm_num)]; simp only [x]; push_cast; ring
  have h1 : ∃ i, i < 100 ∧ devStress force length width z = stripShear q (width / 2) z (x i) := by
    obtain ⟨i, hi, h⟩ := devStress_attained force length width z
    exact ⟨i, hi, by rw [h, hx, flamantShear_strip _ _ _ _ hq (by positivity) hz]⟩
  refine ⟨h1, ?_, ?_⟩
  · intro i hi
    have := devStress_ge force length width z i hi
    rwa [hx, flamantShear_strip _ _ _ _ hq (by positivity) hz] at this
  · obtain ⟨i, -, h⟩ := h1
    rw [h]
    unfold stripShear
    have := strip_factor_le_one (width / 2) z (x i) hz
    exact mul_le_of_le_one_right (div_nonneg hq Real.pi_pos.le) this

example : (0 : ℝ) ≤ 50000 ∧ (0 : ℝ) < 2.5 ∧ (0 : ℝ) < 0.25 ∧ (0 : ℝ) < 1 := by norm_num

/-- **C92 is violated** The centre line of the sleeper is not among the points, so that the largest shear stress on the line, which half a
width below the surface is at the centre, is underestimated. -/
theorem C92_violated (force length width : ℝ) (hf : 0 < force) (hl : 0 < length) (hw : 0 < width) :
    devStress force length width (width / 2) < stripShear (force / (length * width) / 1000) (width / 2) (width / 2) 0 := by
  obtain ⟨⟨i, hi, h⟩, -, -⟩ := C92_strip_partial force length width (width / 2) hf.le hl hw (by positivity)
  beta_reduce at h
  rw [h]
  have hx : -5 * width + (i : ℝ) * (10 * width / 99) ≠ 0 := by
    intro h0
    have h1 : (2 * (i : ℝ) - 99) * width = 0 := by linarith
    rcases mul_eq_zero.1 h1 with h2 | h2
    · have : 2 * i = 99 := by exact_mod_cast (by linarith : (2 : ℝ) * i = 99)
      omega
    · exact hw.ne' h2
  generalize -5 * width + (i : ℝ) * (10 * width / 99) = x at hx
  unfold stripShear
  apply mul_lt_mul_of_pos_left _ (by have := Real.pi_pos; positivity)
  rw [← Real.sqrt_mul (by positivity), ← Real.sqrt_mul (by positivity)]
  apply div_lt_div_of_pos_left (by positivity) (Real.sqrt_pos.2 (by positivity))
  apply Real.sqrt_lt_sqrt (by positivity)
  have h4 : 0 < x ^ 4 := by positivity
  rw [← sub_pos]
  convert h4 using 1
  ring

/-! ### C57: superposition -/

/-- The settlement is the sum of the settlements of the layers, and of the trains: for every split of the soil or of the traffic. -/
theorem C57_additive (l₁ l₂ : List LiSeligLayer) (t₁ t₂ : List (ℕ × ℝ)) (length width base : ℝ) (M : ℕ) :
    let s := fun l t => liSeligStage l length width base t M 0
    s (l₁ ++ l₂) t₁ = List.zipWith (· + ·) (s l₁ t₁) (s l₂ t₁) ∧ s l₁ (t₁ ++ t₂) = List.zipWith (· + ·) (s l₁ t₁) (s l₁ t₂) := by
  intro s
  have hl : ∀ j, liSeligRaw (l₁ ++ l₂) length width base t₁ M j =
      liSeligRaw l₁ length width base t₁ M j + liSeligRaw l₂ length width base t₁ M j := by
    intro j
    unfold liSeligRaw
    rw [← List.sum_map_add]
    congr 1
    apply List.map_congr_left
    intro tr _
    rw [List.map_append, List.sum_append]
  have ht : ∀ j, liSeligRaw l₁ length width base (t₁ ++ t₂) M j =
      liSeligRaw l₁ length width base t₁ M j + liSeligRaw l₁ length width base t₂ M j := by
    intro j; unfold liSeligRaw; rw [List.map_append, List.sum_append]
  constructor
  · simp only [s, liSeligStage]
    rw [List.zipWith_map, List.zipWith_self]
    apply List.map_congr_left
    intro j _
    rw [hl, hl]; ring
  · simp only [s, liSeligStage]
    rw [List.zipWith_map, List.zipWith_self]
    apply List.map_congr_left
    intro j _
    rw [ht, ht]; ring

end Rose
