import Verif.Props.Accumulation
import Mathlib.Analysis.Convex.SpecificFunctions.Pow

set_option linter.unusedSectionVars false

namespace Rose

/-! ### C57: when the subsoil settlement is non-negative -/

theorem liSelig_terms_zero (layers : List LiSeligLayer) (hm : ∀ l ∈ layers, l.m ≠ 0 ∨ l.a = 0) (length width base : ℝ) (cs : List ℕ)
    (M j : ℕ) : liSeligRaw layers length width base (cs.map fun c => (c, 0)) M j = 0 := by
  unfold liSeligRaw
  apply List.sum_eq_zero
  intro x hx
  rw [List.mem_map] at hx
  obtain ⟨tr, htr, rfl⟩ := hx
  rw [List.mem_map] at htr
  obtain ⟨c, -, rfl⟩ := htr
  apply List.sum_eq_zero
  intro y hy
  rw [List.mem_map] at hy
  obtain ⟨l, hl, rfl⟩ := hy
  simp only [devStress_zero, zero_div]
  rcases hm l hl with h | h
  · rw [Real.zero_rpow h]; ring
  · rw [h]; ring

/-- **C57, exactly for which numbers of passages** For a soil of which a layer deforms, at least two outputs and given numbers of
passages of the trains: the Li & Selig settlement is non-negative at all outputs whatever the forces of the trains if and only if every
train passes at least once. -/
theorem C57_counts_iff (layers : List LiSeligLayer) (hv : ∀ l ∈ layers, l.Valid) (hm : ∀ l ∈ layers, l.m ≠ 0 ∨ l.a = 0)
    (hd : ∃ l ∈ layers, 0 < l.a ∧ 0 < l.b ∧ 0 < l.thickness ∧ 0 < l.zMid) (length width base : ℝ) (hl : 0 < length) (hw : 0 < width)
    (hb : 0 ≤ base) (M : ℕ) (hM : 2 ≤ M) (cs : List ℕ) :
    (∀ trains : List (ℕ × ℝ), trains.map Prod.fst = cs → ∀ x ∈ liSeligStage layers length width base trains M 0, 0 ≤ x) ↔
      ∀ c ∈ cs, 1 ≤ c := by
  constructor
  · intro h c hc
    by_contra h0
    obtain rfl : c = 0 := by omega
    obtain ⟨l₁, l₂, rfl⟩ := List.append_of_mem hc
    have hx := h (l₁.map (fun c => (c, 0)) ++ (0, 1) :: l₂.map (fun c => (c, 0))) (by simp [Function.comp_def]) _
      (List.mem_map.2 ⟨1, List.mem_range.2 (by omega), rfl⟩)
    have hraw : ∀ j, liSeligRaw layers length width base (l₁.map (fun c => (c, 0)) ++ (0, 1) :: l₂.map (fun c => (c, 0))) M j =
        liSeligRaw layers length width base [(0, 1)] M j := by
      intro j
      have e₁ := liSelig_terms_zero layers hm length width base l₁ M j
      have e₂ := liSelig_terms_zero layers hm length width base l₂ M j
      unfold liSeligRaw at e₁ e₂ ⊢
      rw [List.map_append, List.sum_append, List.map_cons, List.sum_cons, e₁, e₂]
      simp
    rw [hraw, hraw] at hx
    have hM1 : (1 : ℝ) ≤ (M : ℝ) - 1 := by
      have : (2 : ℝ) ≤ M := by exact_mod_cast hM
      linarith
    have hN : liSeligCycles base 0 M 1 < liSeligCycles base 0 M 0 ∧ 0 ≤ liSeligCycles base 0 M 1 := by
      unfold liSeligCycles linspaceAt
      rw [if_neg (by omega), if_neg (by omega)]
      have hi : ((base + ((0 : ℕ) : ℝ)) - (1 + base)) / ((M : ℝ) - 1) = -(1 / ((M : ℝ) - 1)) := by
        rw [← neg_div]; congr 1; push_cast; ring
      rw [hi]
      have h1 : 0 < 1 / ((M : ℝ) - 1) := by positivity
      have h2 : 1 / ((M : ℝ) - 1) ≤ 1 := by
        rw [div_le_one (by linarith)]; exact hM1
      push_cast
      constructor <;> linarith
    have hlt : liSeligRaw layers length width base [(0, 1)] M 1 < liSeligRaw layers length width base [(0, 1)] M 0 := by
      unfold liSeligRaw
      simp only [List.map_cons, List.map_nil, List.sum_cons, List.sum_nil, add_zero]
      apply List.sum_lt_sum
      · intro l hl'
        have hV := hv l hl'
        have hp := Real.rpow_le_rpow hN.2 hN.1.le hV.b
        have hd : 0 ≤ l.a * (devStress 1 length width l.zMid / l.strength) ^ l.m :=
          mul_nonneg hV.a (Real.rpow_nonneg (div_nonneg (devStress_nonneg _ _ _ _) hV.strength.le) _)
        exact mul_le_mul_of_nonneg_right (mul_le_mul_of_nonneg_left hp hd) hV.thickness
      · obtain ⟨l, hl', ha, hbe, ht, hz⟩ := hd
        refine ⟨l, hl', ?_⟩
        have hp := Real.rpow_lt_rpow hN.2 hN.1 hbe
        have hd : 0 < l.a * (devStress 1 length width l.zMid / l.strength) ^ l.m :=
          mul_pos ha (Real.rpow_pos_of_pos (div_pos (devStress_pos _ _ _ _ one_pos hl hw hz) (hv l hl').strength) _)
        exact mul_lt_mul_of_pos_right (mul_lt_mul_of_pos_left hp hd) ht
    linarith
  · rintro hc trains rfl x hx
    unfold liSeligStage at hx
    rw [List.mem_map] at hx
    obtain ⟨j, -, rfl⟩ := hx
    have := liSeligRaw_mono layers hv length width base hb trains (fun tr htr => hc _ (List.mem_map_of_mem htr)) M 0 j (Nat.zero_le _)
    linarith

theorem sum_combine {α : Type} (l : List α) (f g h : α → ℝ) (θ : ℝ) (H : ∀ x ∈ l, (1 - θ) * f x + θ * g x ≤ h x) :
    (1 - θ) * (l.map f).sum + θ * (l.map g).sum ≤ (l.map h).sum := by
  induction l with
  | nil => simp
  | cons a l ih =>
    have h1 := H a (by simp)
    have h2 := ih fun x hx => H x (by simp [hx])
    simp only [List.map_cons, List.sum_cons]
    linarith

theorem liSeligRaw_concave (layers : List LiSeligLayer) (hv : ∀ l ∈ layers, l.Valid) (hb1 : ∀ l ∈ layers, l.b ≤ 1)
    (length width base : ℝ) (hb : 0 ≤ base) (trains : List (ℕ × ℝ)) (M j : ℕ) (hM : 2 ≤ M) (hj : j < M) :
    (1 - (j : ℝ) / ((M : ℝ) - 1)) * liSeligRaw layers length width base trains M 0 +
      (j : ℝ) / ((M : ℝ) - 1) * liSeligRaw layers length width base trains M (M - 1) ≤
      liSeligRaw layers length width base trains M j := by
  have hM1 : (1 : ℝ) ≤ (M : ℝ) - 1 := by
    have : (2 : ℝ) ≤ M := by exact_mod_cast hM
    linarith
  have hj1 : (j : ℝ) ≤ (M : ℝ) - 1 := by
    have : ((j + 1 : ℕ) : ℝ) ≤ M := by exact_mod_cast hj
    push_cast at this; linarith
  unfold liSeligRaw
  apply sum_combine
  intro tr _
  apply sum_combine
  intro l hl
  have hV := hv l hl
  have h0 : liSeligCycles base tr.1 M 0 = 1 + base := linspaceAt_zero _ _ _
  have h1 : liSeligCycles base tr.1 M (M - 1) = base + tr.1 := linspaceAt_last _ _ _ hM
  have hN : liSeligCycles base tr.1 M j = (1 - (j : ℝ) / ((M : ℝ) - 1)) * (1 + base) + (j : ℝ) / ((M : ℝ) - 1) * (base + tr.1) := by
    unfold liSeligCycles linspaceAt
    rw [if_neg (by omega)]
    ring
  have hc := (Real.concaveOn_rpow hV.b (hb1 l hl)).2 (show (1 + base) ∈ Set.Ici (0 : ℝ) by simp only [Set.mem_Ici]; linarith)
    (show (base + (tr.1 : ℝ)) ∈ Set.Ici (0 : ℝ) by simp only [Set.mem_Ici]; positivity)
    (show (0 : ℝ) ≤ 1 - (j : ℝ) / ((M : ℝ) - 1) by
      rw [sub_nonneg, div_le_one (by linarith)]; exact hj1)
    (show (0 : ℝ) ≤ (j : ℝ) / ((M : ℝ) - 1) by positivity) (by ring)
  simp only [smul_eq_mul] at hc
  rw [h0, h1, hN]
  have hd : 0 ≤ l.a * (devStress tr.2 length width l.zMid / l.strength) ^ l.m :=
    mul_nonneg hV.a (Real.rpow_nonneg (div_nonneg (devStress_nonneg _ _ _ _) hV.strength.le) _)
  have := mul_le_mul_of_nonneg_right (mul_le_mul_of_nonneg_left hc hd) hV.thickness
  refine le_trans (le_of_eq ?_) this
  ring

/-- **C57, the last output decides** For every soil of recognised layers with physical parameters, any trains, also trains that do not
pass: the Li & Selig settlement is non-negative at all outputs if and only if it is at the last one. -/
theorem C57_last_iff (soil : List SoilLayer) (zLast : ℝ) (hg : ∀ l ∈ soil, 0 ≤ l.gamma)
    (hphi : ∀ l ∈ soil, 0 ≤ l.phi ∧ l.phi < 90) (hcoh : ∀ l ∈ soil, 0 < l.cohesion) (layers : List LiSeligLayer)
    (h : buildLayers soil zLast = .ok layers) (length width base : ℝ) (hb : 0 ≤ base) (trains : List (ℕ × ℝ)) (M : ℕ) (hM : 2 ≤ M) :
    (∀ x ∈ liSeligStage layers length width base trains M 0, 0 ≤ x) ↔
      ∃ y, (liSeligStage layers length width base trains M 0).getLast? = some y ∧ 0 ≤ y := by
  have hv := buildLayers_valid soil zLast hg hphi hcoh layers h
  have hb1 : ∀ l ∈ layers, l.b ≤ 1 := by
    intro y hy
    obtain ⟨i, -, hi⟩ := mem_mapM_except _ _ _ h y hy
    cases hs : soil[i]? with
    | none => rw [hs] at hi; cases hi
    | some l =>
      rw [hs] at hi
      simp only at hi
      have hcl : ∀ p, classify l.name = .ok p → (p.2.1 : ℝ) ≤ 1 := by
        intro p hp
        unfold classify at hp
        simp only at hp
        split_ifs at hp <;> (cases hp; norm_num)
      cases hcn : classify l.name with
      | error e => rw [hcn] at hi; cases hi
      | ok p =>
        rw [hcn] at hi
        cases hi
        exact hcl p hcn
  have hlast : (liSeligStage layers length width base trains M 0).getLast? =
      some (liSeligRaw layers length width base trains M (M - 1) - liSeligRaw layers length width base trains M 0 + 0) := by
    unfold liSeligStage
    obtain ⟨k, rfl⟩ : ∃ k, M = k + 1 := ⟨M - 1, by omega⟩
    rw [List.range_succ, List.map_append, List.getLast?_append]
    simp
  rw [hlast]
  constructor
  · intro hall
    exact ⟨_, rfl, hall _ (List.mem_of_getLast? hlast)⟩
  · rintro ⟨y, hy, h0⟩ x hx
    cases hy
    unfold liSeligStage at hx
    rw [List.mem_map] at hx
    obtain ⟨j, hj, rfl⟩ := hx
    rw [List.mem_range] at hj
    have hc := liSeligRaw_concave layers hv hb1 length width base hb trains M j hM hj
    have hθ : 0 ≤ (j : ℝ) / ((M : ℝ) - 1) := by
      have : (2 : ℝ) ≤ M := by exact_mod_cast hM
      exact div_nonneg (Nat.cast_nonneg _) (by linarith)
    have := mul_nonneg hθ h0
    linarith

/-- A layer of sand, and two trains of which one does not pass. -/
example : ∃ l : LiSeligLayer, l.Valid ∧ (l.m ≠ 0 ∨ l.a = 0) ∧ (0 < l.a ∧ 0 < l.b ∧ 0 < l.thickness ∧ 0 < l.zMid) ∧
    ¬ ∀ c ∈ [3, 0], 1 ≤ c :=
  ⟨⟨0.64, 0.1, 1.7, 20, 2, 1⟩, ⟨by norm_num, by norm_num, by norm_num, by norm_num⟩, by norm_num, by norm_num, by simp⟩

/-! ### C56: when a stage of Li & Selig can be split -/

theorem liSelig_final (l : LiSeligLayer) (length width base force prev : ℝ) (c M : ℕ) (hM : 2 ≤ M) :
    (liSeligStage [l] length width base [(c, force)] M prev).getLast? =
      some (l.a * (devStress force length width l.zMid / l.strength) ^ l.m * l.thickness * ((base + c) ^ l.b - (1 + base) ^ l.b) + prev) := by
  unfold liSeligStage
  obtain ⟨k, rfl⟩ : ∃ k, M = k + 1 := ⟨M - 1, by omega⟩
  rw [List.range_succ, List.map_append, List.getLast?_append]
  simp only [List.map_cons, List.map_nil, List.getLast?_singleton, Option.some_or, Option.some.injEq]
  unfold liSeligRaw liSeligCycles
  simp only [List.map_cons, List.map_nil, List.sum_cons, List.sum_nil, add_zero]
  have h1 := linspaceAt_last (1 + base) (base + (c : ℝ)) (k + 1) hM
  rw [Nat.add_sub_cancel] at h1
  rw [h1, linspaceAt_zero]
  ring

/-- **C56 for Li & Selig, exactly** One train on a layer that deforms, `n` cycles since construction, any numbers of passages and outputs:
`N₁` passages followed by a continuation with `N₂` passages give the settlement of `N₁ + N₂` passages at once if and only if
`(n + N₁)^b + (n + N₂)^b = (n + N₁ + N₂)^b + (n + 1)^b`, and less if and only if the left side is smaller. -/
theorem C56_li_selig_iff (l : LiSeligLayer) (ha : 0 < l.a) (hs : 0 < l.strength) (ht : 0 < l.thickness) (hz : 0 < l.zMid)
    (length width base force : ℝ) (hl : 0 < length) (hw : 0 < width) (hf : 0 < force) (N₁ N₂ M M₁ M₂ : ℕ) (hM : 2 ≤ M) (hM₁ : 2 ≤ M₁)
    (hM₂ : 2 ≤ M₂) :
    ∃ once first split, (liSeligStage [l] length width base [(N₁ + N₂, force)] M 0).getLast? = some once ∧
      (liSeligStage [l] length width base [(N₁, force)] M₁ 0).getLast? = some first ∧
      (liSeligStage [l] length width base [(N₂, force)] M₂ first).getLast? = some split ∧
      (split = once ↔ (base + N₁) ^ l.b + (base + N₂) ^ l.b = (base + N₁ + N₂) ^ l.b + (base + 1) ^ l.b) ∧
      (split < once ↔ (base + N₁) ^ l.b + (base + N₂) ^ l.b < (base + N₁ + N₂) ^ l.b + (base + 1) ^ l.b) := by
  refine ⟨_, _, _, liSelig_final l length width base force 0 _ M hM, liSelig_final l length width base force 0 _ M₁ hM₁,
    liSelig_final l length width base force _ _ M₂ hM₂, ?_⟩
  have hA : 0 < l.a * (devStress force length width l.zMid / l.strength) ^ l.m * l.thickness :=
    mul_pos (mul_pos ha (Real.rpow_pos_of_pos (div_pos (devStress_pos force length width l.zMid hf hl hw hz) hs) _)) ht
  generalize l.a * (devStress force length width l.zMid / l.strength) ^ l.m * l.thickness = A at hA
  rw [add_comm 1 base, Nat.cast_add, ← add_assoc base (N₁ : ℝ) (N₂ : ℝ)]
  generalize (base + (N₁ : ℝ)) ^ l.b = x
  generalize (base + (N₂ : ℝ)) ^ l.b = y
  generalize (base + (N₁ : ℝ) + (N₂ : ℝ)) ^ l.b = z
  generalize (base + 1) ^ l.b = w
  have e : A * (y - w) + (A * (x - w) + 0) - (A * (z - w) + 0) = A * (x + y - (z + w)) := by ring
  constructor
  · rw [← sub_eq_zero, e, mul_eq_zero, or_iff_right hA.ne', sub_eq_zero]
  · rw [← sub_neg, e, mul_neg_iff]
    constructor
    · rintro (⟨-, h⟩ | ⟨h, -⟩)
      · linarith
      · linarith
    · intro h
      exact Or.inl ⟨hA, by linarith⟩

/-- Without cycles since construction: one passage and one passage settle less than two at once, for every soil. -/
example (b : ℝ) (hb : 0 < b) : ((0 : ℝ) + (1 : ℕ)) ^ b + (0 + (1 : ℕ)) ^ b < (0 + (1 : ℕ) + (1 : ℕ)) ^ b + (0 + 1) ^ b := by
  have := Real.one_lt_rpow (show (1 : ℝ) < 2 by norm_num) hb
  norm_num
  linarith

end Rose
