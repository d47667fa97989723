/-
C25, C38 and C51: exactly when the angle of an element is right, when initialising a train again changes nothing, and which fixity
factors are realised.
-/
import Verif.Props.Rotation
import Verif.Props.Train
import Verif.Props.Hinge

set_option linter.unusedSectionVars false

namespace Rose

/-! ## C25 The angle of an element -/

theorem steep_angle {dx dy rot : ℝ} (hx : dx ≠ 0) (hc : Real.cos rot = 0) (z : ℝ) :
    rotatePoint rot (dx, dy, z) ≠ (Real.sqrt (dx ^ 2 + dy ^ 2), 0, z) := by
  intro h
  have h2 : -Real.sin rot * dx + Real.cos rot * dy = 0 := congrArg (fun p : ℝ × ℝ × ℝ => p.2.1) h
  have h1 := Real.sin_sq_add_cos_sq rot
  rw [hc] at h1 h2
  have h3 : Real.sin rot ≠ 0 := by
    intro h0
    rw [h0] at h1
    norm_num at h1
  have h4 : Real.sin rot * dx = 0 := by linarith
  rcases mul_eq_zero.mp h4 with h | h
  · exact h3 h
  · exact hx h

theorem cos_steep {dy : ℝ} (hy : dy ≠ 0) : Real.cos (Real.pi / 2 * npSign dy) = 0 := by
  rcases lt_or_gt_of_ne hy with h | h
  · simp [npSign, sign_neg h]
  · simp [npSign, sign_pos h]

/-- C25, exactly: for any two points, the computed angle takes the vector from the first to the second point onto the positive local
x axis, if and only if it is not the case that the points have different x coordinates at most `1e-8` apart and different y
coordinates. -/
theorem C25_direction_iff (x1 y1 x2 y2 z : ℝ) :
    rotatePoint (calculateRotation x1 y1 x2 y2) (x2 - x1, y2 - y1, z) =
        (Real.sqrt ((x2 - x1) ^ 2 + (y2 - y1) ^ 2), 0, z) ↔
      ¬ (x1 ≠ x2 ∧ |x2 - x1| ≤ 1 / 10 ^ 8 ∧ y1 ≠ y2) := by
  constructor
  · rintro h ⟨hx, hc, hy⟩
    have h0 : npIsCloseZero (x2 - x1) := by norm_num at hc; norm_num [npIsCloseZero]; exact hc
    have hx' : x2 - x1 ≠ 0 := sub_ne_zero.mpr hx.symm
    have hs := cos_steep (sub_ne_zero.mpr hy.symm)
    refine steep_angle hx' ?_ z h
    by_cases hlt : x2 < x1
    · simp [calculateRotation, h0, hlt, Real.cos_add_pi, hs]
    · simp [calculateRotation, h0, hlt, hs]
  · intro h
    by_cases hx : x1 = x2
    · by_cases hy : y1 = y2
      · subst hx hy
        simp [rotatePoint]
      · exact C25_direction_partial (Or.inl ⟨by linarith, sub_ne_zero.mpr (Ne.symm hy)⟩) z
    · by_cases hc : |x2 - x1| ≤ 1 / 10 ^ 8
      · have hy : y1 = y2 := by
          by_contra hy
          exact h ⟨hx, hc, hy⟩
        have h0 : npIsCloseZero (x2 - x1) := by norm_num at hc; norm_num [npIsCloseZero]; exact hc
        subst hy
        have e : Real.sqrt ((x2 - x1) ^ 2 + (y1 - y1) ^ 2) = |x2 - x1| := by
          rw [sub_self, zero_pow two_ne_zero, add_zero, Real.sqrt_sq_eq_abs]
        rw [e]
        rcases lt_or_gt_of_ne hx with hlt | hlt
        · rw [abs_of_pos (by linarith)]
          simp [calculateRotation, h0, not_lt.mpr hlt.le, npSign, rotatePoint]
        · rw [abs_of_neg (by linarith)]
          simp [calculateRotation, h0, hlt, npSign, rotatePoint]
      · apply C25_direction_partial (Or.inr ?_)
        have := not_le.mp hc
        norm_num at this ⊢
        exact this

/-- C25, exactly, for the function that treats one pair of points: the tolerance is relative to the coordinates, and a pair of points
within it must be vertical, or horizontal from left to right. -/
theorem C25_point_rotation_iff (x1 y1 x2 y2 z : ℝ) :
    rotatePoint (calculatePointRotation x1 y1 x2 y2) (x2 - x1, y2 - y1, z) =
        (Real.sqrt ((x2 - x1) ^ 2 + (y2 - y1) ^ 2), 0, z) ↔
      x1 = x2 ∨ 1 / 10 ^ 9 * max |x2| |x1| < |x2 - x1| ∨ (y1 = y2 ∧ x1 < x2) := by
  constructor
  · intro h
    by_contra hn
    push Not at hn
    obtain ⟨hx, hc, hy⟩ := hn
    have h0 : mathIsClose x2 x1 := by norm_num at hc; norm_num [mathIsClose]; exact hc
    have hx' : x2 - x1 ≠ 0 := sub_ne_zero.mpr (Ne.symm hx)
    by_cases e : y1 = y2
    · have hlt : x2 < x1 := lt_of_le_of_ne (hy e) (Ne.symm hx)
      have h1 : (rotatePoint (calculatePointRotation x1 y1 x2 y2) (x2 - x1, y2 - y1, z)).1 = x2 - x1 := by
        subst e
        simp [calculatePointRotation, h0, npSign, rotatePoint]
      rw [h] at h1
      have := Real.sqrt_nonneg ((x2 - x1) ^ 2 + (y2 - y1) ^ 2)
      linarith
    · refine steep_angle hx' ?_ z h
      simp only [calculatePointRotation, h0, if_true]
      exact cos_steep (sub_ne_zero.mpr (Ne.symm e))
  · intro h
    by_cases hc : 1 / 10 ^ 9 * max |x2| |x1| < |x2 - x1|
    · exact C25_point_rotation_partial (Or.inr hc) z
    · by_cases hx : x1 = x2
      · by_cases hy : y1 = y2
        · subst hx hy
          simp [rotatePoint]
        · exact C25_point_rotation_partial (Or.inl ⟨hx, hy⟩) z
      · have h1 : y1 = y2 ∧ x1 < x2 := by
          rcases h with h | h | h
          · exact absurd h hx
          · exact absurd h hc
          · exact h
        obtain ⟨rfl, hlt⟩ := h1
        have h0 : mathIsClose x2 x1 := by
          have := not_lt.mp hc
          norm_num at this
          norm_num [mathIsClose]
          exact this
        have e : Real.sqrt ((x2 - x1) ^ 2 + (y1 - y1) ^ 2) = x2 - x1 := by
          rw [sub_self, zero_pow two_ne_zero, add_zero, Real.sqrt_sq (by linarith)]
        rw [e]
        simp [calculatePointRotation, h0, npSign, rotatePoint]

/-- Both sides occur: an inclined element, a level element shorter than the tolerance, and a nearly vertical element, whose angle is wrong. -/
example : ¬ ((0 : ℝ) ≠ 3 ∧ |(3 : ℝ) - 0| ≤ 1 / 10 ^ 8 ∧ (0 : ℝ) ≠ 4) ∧
    ¬ ((0 : ℝ) ≠ 1 / 10 ^ 9 ∧ |(1 / 10 ^ 9 : ℝ) - 0| ≤ 1 / 10 ^ 8 ∧ (0 : ℝ) ≠ 0) ∧
    ((0 : ℝ) ≠ 1 / 10 ^ 9 ∧ |(1 / 10 ^ 9 : ℝ) - 0| ≤ 1 / 10 ^ 8 ∧ (0 : ℝ) ≠ 4) := by
  refine ⟨fun h => ?_, fun h => h.2.2 rfl, by norm_num, ?_, by norm_num⟩
  · have := h.2.1
    norm_num at this
  · rw [abs_of_pos (by norm_num)]
    norm_num

/-- Both sides occur for one pair of points: far from the origin, one millimetre to the right of `10⁷` metres is within the tolerance. -/
example : (1 / 10 ^ 9 * max |(2 : ℝ)| |1| < |(2 : ℝ) - 1|) ∧
    ¬ (1 / 10 ^ 9 * max |(10 ^ 7 + 1 / 10 ^ 3 : ℝ)| |10 ^ 7| < |(10 ^ 7 + 1 / 10 ^ 3 : ℝ) - 10 ^ 7|) := by
  constructor
  · norm_num
  · rw [abs_of_pos (by norm_num : (0 : ℝ) < 10 ^ 7 + 1 / 10 ^ 3), abs_of_pos (by norm_num : (0 : ℝ) < 10 ^ 7),
      abs_of_pos (by norm_num : (0 : ℝ) < 10 ^ 7 + 1 / 10 ^ 3 - 10 ^ 7), max_eq_left (by norm_num)]
    norm_num

variable {K : Type*} [Field K] [LinearOrder K] [IsStrictOrderedRing K]

/-! ## C38 Initialising a train again -/

/-- Carts without negative masses only push down, and give nothing to a bogie exactly if all carts resting on it have no mass. -/
theorem cartShare_sign (t : Train K) {g : K} (hg : 0 < g) (hm : ∀ c ∈ t.carts, 0 ≤ c.mass) (b : ℕ) :
    cartShare t g b ≤ 0 ∧ (cartShare t g b = 0 ↔ ∀ c ∈ t.carts, b ∈ c.bogies.map Prod.fst → c.mass = 0) := by
  unfold cartShare
  have : ∀ l : List (Cart K), (∀ c ∈ l, 0 ≤ c.mass) →
      (l.map fun c => ((c.bogies.map Prod.fst).count b : K) * (-c.mass * g / c.bogies.length)).sum ≤ 0 ∧
      ((l.map fun c => ((c.bogies.map Prod.fst).count b : K) * (-c.mass * g / c.bogies.length)).sum = 0 ↔
        ∀ c ∈ l, b ∈ c.bogies.map Prod.fst → c.mass = 0) := by
    intro l
    induction l with
    | nil => simp
    | cons c l ih =>
      intro hl
      rw [List.map_cons, List.sum_cons]
      obtain ⟨i1, i2⟩ := ih (fun c hc => hl c (by simp [hc]))
      have hc0 := hl c (by simp)
      have h4 : (((c.bogies.map Prod.fst).count b : ℕ) : K) * (-c.mass * g / (c.bogies.length : K)) ≤ 0 := by
        apply mul_nonpos_of_nonneg_of_nonpos (Nat.cast_nonneg _)
        apply div_nonpos_of_nonpos_of_nonneg
        · have := mul_nonneg hc0 hg.le
          linarith
        · exact Nat.cast_nonneg _
      have h5 : (((c.bogies.map Prod.fst).count b : ℕ) : K) * (-c.mass * g / (c.bogies.length : K)) = 0 ↔
          (b ∈ c.bogies.map Prod.fst → c.mass = 0) := by
        constructor
        · intro h hb
          have hcount : (((c.bogies.map Prod.fst).count b : ℕ) : K) ≠ 0 :=
            Nat.cast_ne_zero.mpr (List.count_pos_iff.mpr hb).ne'
          have hlen : (c.bogies.length : K) ≠ 0 := by
            refine Nat.cast_ne_zero.mpr (fun h0 => ?_)
            rw [List.length_eq_zero_iff] at h0
            simp [h0] at hb
          rcases mul_eq_zero.mp h with h | h
          · exact absurd h hcount
          · rcases div_eq_zero_iff.mp h with h | h
            · rcases mul_eq_zero.mp h with h | h
              · linarith
              · exact absurd h hg.ne'
            · exact absurd h hlen
        · intro h
          by_cases hb : b ∈ c.bogies.map Prod.fst
          · simp [h hb]
          · rw [List.count_eq_zero_of_not_mem hb]
            simp
      refine ⟨by linarith, ?_⟩
      rw [List.forall_mem_cons, ← h5, ← i2]
      constructor
      · intro h
        exact ⟨by linarith, by linarith⟩
      · rintro ⟨h1, h2⟩
        linarith
  exact this t.carts hm

/-- C38, exactly: for a train without negative masses, the static load of a wheel stays the same however often the train is
initialised, if and only if its bogie and all carts resting on that bogie have no mass. -/
theorem C38_iff (t : Train K) (g : K) (hg : 0 < g) (hm : ∀ c ∈ t.carts, 0 ≤ c.mass) (b : ℕ) (hb : b ∈ t.bogies)
    (hbm : 0 ≤ (t.bogie b).mass) (j : ℕ) (hj : j < (t.bogie b).wheels.length) :
    (∀ k, ((totalStaticLoad t g)^[k + 1] StaticLoads.fresh).wheel b j = (totalStaticLoad t g StaticLoads.fresh).wheel b j) ↔
      (t.bogie b).mass = 0 ∧ ∀ c ∈ t.carts, b ∈ c.bogies.map Prod.fst → c.mass = 0 := by
  obtain ⟨s1, s2⟩ := cartShare_sign t hg hm b
  have hlen : (0 : K) < (t.bogie b).wheels.length := by exact_mod_cast (by omega : 0 < (t.bogie b).wheels.length)
  have h1 := (C38_loads_after t g 0 b hb).2 j hj
  change (totalStaticLoad t g StaticLoads.fresh).wheel b j = _ at h1
  rw [← s2]
  constructor
  · intro h
    have h2 := (C38_loads_after t g 1 b hb).2 j hj
    rw [h 1, h1, Option.some.injEq] at h2
    simp only [Finset.sum_range_succ, Finset.sum_range_zero, zero_add] at h2
    have h3 : (-(t.bogie b).mass * g + ((1 : ℕ) + 1 : K) * cartShare t g b) / ((t.bogie b).wheels.length : K) = 0 := by
      linarith
    rcases div_eq_zero_iff.mp h3 with h3 | h3
    · have h4 := mul_nonneg hbm hg.le
      push_cast at h3
      have h5 : (t.bogie b).mass * g = 0 := by linarith
      rcases mul_eq_zero.mp h5 with h5 | h5
      · exact ⟨h5, by rw [h5] at h3; linarith⟩
      · exact absurd h5 hg.ne'
    · exact absurd h3 hlen.ne'
  · rintro ⟨hb0, hs0⟩ k
    rw [(C38_loads_after t g k b hb).2 j hj, h1]
    simp [hb0, hs0]

/-- The hypotheses are met by the example train, whose bogies have mass. -/
example : 0 ∈ exampleTrain.bogies ∧ 1 < (exampleTrain.bogie 0).wheels.length ∧ (exampleTrain.bogie 0).mass ≠ 0 := by
  refine ⟨by decide +kernel, by decide +kernel, by norm_num [exampleTrain]⟩

/-! ## C51 Which fixity factors are realised -/

/-- C51, exactly: the computation leaves the hinge without a stiffness for precisely the factors below zero and those above
`1.00001001`. -/
theorem C51_rejected_iff (E I l f : K) :
    hingeStiffness E I l f none = none ↔ f < 0 ∨ 1 + 1 / 10 ^ 5 + 1 / 10 ^ 8 < f := by
  unfold hingeStiffness
  by_cases h : 0 ≤ f ∧ f < 1
  · rw [if_pos h]
    simp only [reduceCtorEq, false_iff, not_or, not_lt]
    have : (0 : K) < 1 / 10 ^ 5 := by positivity
    have : (0 : K) < 1 / 10 ^ 8 := by positivity
    exact ⟨h.1, by linarith [h.2]⟩
  · rw [if_neg h]
    by_cases hf : f < 0
    · have : ¬ npIsCloseOne f := by
        unfold npIsCloseOne
        rw [abs_le]
        intro hc
        have := hc.1
        norm_num at this
        linarith
      simp [this, hf]
    · have h1 : 1 ≤ f := by
        by_contra h2
        exact h ⟨not_lt.mp hf, not_le.mp h2⟩
      by_cases hc : npIsCloseOne f
      · rw [if_pos hc]
        simp only [reduceCtorEq, false_iff, not_or, not_lt]
        unfold npIsCloseOne at hc
        rw [abs_of_nonneg (by linarith)] at hc
        norm_num at hc ⊢
        exact ⟨not_lt.mp hf, by linarith⟩
      · rw [if_neg hc]
        simp only [true_iff]
        right
        unfold npIsCloseOne at hc
        rw [abs_of_nonneg (by linarith), not_le] at hc
        norm_num at hc ⊢
        linarith

/-- C51, exactly: the computation gives the hinge a stiffness that realises the requested factor at a beam end, if and only if the factor
lies in `[0, 1)`. -/
theorem C51_realised_iff (b : BeamPart K) (hb : b.Valid) (f : K) :
    (∃ s, hingeStiffness b.E b.I b.l f none = some s ∧ fixity (b.E * b.I) b.l (.fin s) = f) ↔ 0 ≤ f ∧ f < 1 := by
  constructor
  · rintro ⟨s, -, h2⟩
    have hE := hb.E; have hI := hb.I; have hl := hb.l
    rw [← h2]
    unfold fixity
    by_cases hs : s > 0
    · simp only [hs, if_true]
      have h0 : 0 < 3 * (b.E * b.I) / (s * b.l) := by
        have : 0 < s := hs
        positivity
      refine ⟨by positivity, ?_⟩
      rw [div_lt_one (by linarith)]
      linarith
    · simp [hs]
  · rintro ⟨h0, h1⟩
    exact C51_realises_fixity b hb h0 h1 none

example : ((7 : ℚ) < 0 ∨ 1 + 1 / 10 ^ 5 + 1 / 10 ^ 8 < (7 : ℚ)) ∧ ¬ ((1.000005 : ℚ) < 0 ∨ 1 + 1 / 10 ^ 5 + 1 / 10 ^ 8 < (1.000005 : ℚ)) := by
  norm_num

end Rose
