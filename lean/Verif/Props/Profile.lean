/-
Properties of the profile along the track: C93 (distances), C94 (weighted statistics), C95 (values at their positions),
C96 (time of the values), C97 (segments are joined at their closest ends).
-/
import Verif.Model.Profile
import Mathlib.Tactic.Linarith
import Mathlib.Tactic.FieldSimp
import Mathlib.Tactic.Ring
import Mathlib.Tactic.NormNum
import Mathlib.Algebra.Order.BigOperators.Group.List
import Mathlib.Data.List.GetD

set_option linter.unusedSectionVars false

namespace Rose

/-! ### Specification -/

/-- Weighted mean of the values of a segment at time index `k`. -/
noncomputable def segMean (s : ProfileSegment) (k : ℕ) : ℝ :=
  (s.scenarios.map fun x => x.1.getD k 0 * x.2).sum / (s.scenarios.map Prod.snd).sum

/-- Weighted standard deviation of the values of a segment at time index `k`. -/
noncomputable def segStd (s : ProfileSegment) (k : ℕ) : ℝ :=
  Real.sqrt ((s.scenarios.map fun x => (x.1.getD k 0 - segMean s k) ^ 2 * x.2).sum / (s.scenarios.map Prod.snd).sum)

/-- Euclidean distance in the plane. -/
noncomputable def planeDist (p q : ℝ × ℝ) : ℝ := Real.sqrt ((p.1 - q.1) ^ 2 + (p.2 - q.2) ^ 2)

/-- Each segment starts where the one before it (ending at `l`) ends, and not at the start `h` of the track. -/
def ChainFrom (h l : ℝ × ℝ) : List ProfileSegment → Prop
  | [] => True
  | s :: rest => s.coords.head? = some l ∧ l ≠ h ∧ ∃ e, s.coords.getLast? = some e ∧ ChainFrom h e rest

/-! ### Lemmas -/

theorem planeDist_comm (p q : ℝ × ℝ) : planeDist p q = planeDist q p := by
  unfold planeDist; congr 1; ring

theorem planeDist_nonneg (p q : ℝ × ℝ) : 0 ≤ planeDist p q := Real.sqrt_nonneg _

theorem planeDist_eq_zero (p q : ℝ × ℝ) : planeDist p q = 0 ↔ p = q := by
  unfold planeDist
  rw [Real.sqrt_eq_zero (by positivity)]
  constructor
  · intro h
    have h1 : p.1 - q.1 = 0 := by nlinarith [sq_nonneg (p.1 - q.1), sq_nonneg (p.2 - q.2)]
    have h2 : p.2 - q.2 = 0 := by nlinarith [sq_nonneg (p.1 - q.1), sq_nonneg (p.2 - q.2)]
    exact Prod.ext (by linarith) (by linarith)
  · rintro rfl; ring

theorem computeDistance_eq (p q : ℝ × ℝ) : computeDistance p q = planeDist p q := rfl

theorem argminList_spec (x : ℝ) (l : List ℝ) :
    (x :: l)[(argminList x l).2]? = some (argminList x l).1 ∧ (∀ y ∈ x :: l, (argminList x l).1 ≤ y) ∧
      ∀ (j : ℕ) (y : ℝ), j < (argminList x l).2 → (x :: l)[j]? = some y → (argminList x l).1 < y := by
  induction l generalizing x with
  | nil => simp [argminList]
  | cons y ys ih =>
    obtain ⟨h1, h2, h3⟩ := ih y
    simp only [argminList]
    split_ifs with h
    · refine ⟨by simp, ?_, by simp⟩
      intro z hz
      rcases List.mem_cons.1 hz with rfl | hz
      · exact le_refl _
      · exact le_trans h (h2 z hz)
    · push Not at h
      refine ⟨by simpa using h1, ?_, ?_⟩
      · intro z hz
        rcases List.mem_cons.1 hz with rfl | hz
        · exact h.le
        · exact h2 z hz
      · intro j z hj hz
        cases j with
        | zero => simp at hz; subst hz; exact h
        | succ j => exact h3 j z (by omega) (by simpa using hz)

theorem segmentValues_ok (sc : List (List ℝ × ℝ)) (k : ℕ) (vw : List (ℝ × ℝ)) (h : segmentValues sc k = .ok vw) :
    vw = sc.map (fun x => (x.1.getD k 0, x.2)) ∧ ∀ x ∈ sc, k < x.1.length := by
  induction sc generalizing vw with
  | nil => simp [segmentValues] at h; simp [h]
  | cons s rest ih =>
    simp only [segmentValues] at h
    cases hk : s.1[k]? with
    | none => rw [hk] at h; cases segmentValues rest k <;> simp at h
    | some v =>
      cases hr : segmentValues rest k with
      | error e => rw [hk, hr] at h; simp at h
      | ok vs =>
        rw [hk, hr] at h
        simp only [Except.ok.injEq] at h
        obtain ⟨i1, i2⟩ := ih vs hr
        have hlt := (List.getElem?_eq_some_iff.1 hk).1
        refine ⟨?_, ?_⟩
        · rw [← h, i1]; simp [List.getD_eq_getElem?_getD, hk]
        · intro x hx
          rcases List.mem_cons.1 hx with rfl | hx
          · exact hlt
          · exact i2 x hx

theorem weightedAvgStd_ok (vw : List (ℝ × ℝ)) (a b : ℝ) (h : weightedAvgStd vw = .ok (a, b)) :
    (vw.map Prod.snd).sum ≠ 0 ∧ a = (vw.map fun x => x.1 * x.2).sum / (vw.map Prod.snd).sum ∧
      b = Real.sqrt ((vw.map fun x => (x.1 - a) ^ 2 * x.2).sum / (vw.map Prod.snd).sum) := by
  unfold weightedAvgStd npAverage at h
  have e : ∀ c : ℝ, ((vw.map fun x => ((x.1 - c) ^ 2, x.2)).map Prod.snd).sum = (vw.map Prod.snd).sum := by
    intro c; congr 1; simp [List.map_map, Function.comp_def]
  by_cases hw : (vw.map Prod.snd).sum = 0
  · simp [hw] at h
  · simp only [hw, if_false, e] at h
    simp only [Except.ok.injEq, Prod.mk.injEq] at h
    obtain ⟨h1, h2⟩ := h
    refine ⟨hw, h1.symm, ?_⟩
    rw [← h2, ← h1]
    congr 2
    simp [List.map_map, Function.comp_def]

theorem add_ok (k : ℕ) (p p' : Profile) (s : ProfileSegment) (h : p.add k s = .ok p') :
    ∃ i, closestIdx p.coords s.coords = .ok i ∧
      p' = ⟨p.mean ++ List.replicate s.coords.length (segMean s k), p.std ++ List.replicate s.coords.length (segStd s k),
        joinCoords i p.coords s.coords⟩ := by
  unfold Profile.add at h
  cases h1 : segmentValues s.scenarios k with
  | error e => rw [h1] at h; simp at h
  | ok vw =>
    rw [h1] at h; simp only at h
    cases h2 : weightedAvgStd vw with
    | error e => rw [h2] at h; simp at h
    | ok res =>
      rw [h2] at h; simp only at h
      cases h3 : closestIdx p.coords s.coords with
      | error e => rw [h3] at h; simp at h
      | ok i =>
        rw [h3] at h
        simp only [Except.ok.injEq] at h
        obtain ⟨e1, -⟩ := segmentValues_ok _ _ _ h1
        obtain ⟨-, e2, e3⟩ := weightedAvgStd_ok vw res.1 res.2 h2
        refine ⟨i, rfl, ?_⟩
        have m1 : res.1 = segMean s k := by
          rw [e2, e1]; unfold segMean; simp [List.map_map, Function.comp_def]
        have m2 : res.2 = segStd s k := by
          rw [e3, e1, m1]; unfold segStd; simp [List.map_map, Function.comp_def]
        rw [← h, m1, m2]

theorem joinCoords_perm (i : ℕ) (c s : List (ℝ × ℝ)) : (joinCoords i c s).Perm (c ++ s) := by
  unfold joinCoords
  split_ifs
  · exact (List.reverse_perm c).append_right s
  · exact List.Perm.refl _
  · exact (List.reverse_perm c).append (List.reverse_perm s)
  · exact (List.reverse_perm s).append_left c

theorem joinCoords_length (i : ℕ) (c s : List (ℝ × ℝ)) : (joinCoords i c s).length = c.length + s.length := by
  rw [(joinCoords_perm i c s).length_eq, List.length_append]

theorem addAll_lengths (k : ℕ) (segs : List ProfileSegment) (p p' : Profile) (h : p.addAll k segs = .ok p')
    (h1 : p.mean.length = p.coords.length) (h2 : p.std.length = p.coords.length) :
    p'.mean.length = p'.coords.length ∧ p'.std.length = p'.coords.length := by
  induction segs generalizing p with
  | nil => simp only [Profile.addAll, Except.ok.injEq] at h; subst h; exact ⟨h1, h2⟩
  | cons s rest ih =>
    simp only [Profile.addAll] at h
    cases ha : p.add k s with
    | error e => rw [ha] at h; simp at h
    | ok q =>
      rw [ha] at h
      obtain ⟨i, -, rfl⟩ := add_ok k p q s ha
      exact ih _ h (by simp [joinCoords_length, h1]) (by simp [joinCoords_length, h2])

theorem sumsFrom_length (a : ℝ) (l : List ℝ) : (sumsFrom a l).length = l.length + 1 := by
  induction l generalizing a with
  | nil => rfl
  | cons x xs ih => simp [sumsFrom, ih]

theorem sumsFrom_zero (a : ℝ) (l : List ℝ) : (sumsFrom a l)[0]? = some a := by cases l <;> rfl

theorem sumsFrom_succ (a : ℝ) (l : List ℝ) (i : ℕ) (x : ℝ) (h : l[i]? = some x) :
    ∃ d, (sumsFrom a l)[i]? = some d ∧ (sumsFrom a l)[i + 1]? = some (d + x) := by
  induction l generalizing a i with
  | nil => simp at h
  | cons y ys ih =>
    cases i with
    | zero =>
      simp at h; subst h
      exact ⟨a, rfl, by simp [sumsFrom, sumsFrom_zero]⟩
    | succ i =>
      obtain ⟨d, h1, h2⟩ := ih (a + y) i (by simpa using h)
      exact ⟨d, by simpa [sumsFrom] using h1, by simpa [sumsFrom] using h2⟩

theorem plot_ok (times : List ℝ) (time fct : ℝ) (segs : List ProfileSegment) (pts : List DrawnPoint)
    (h : plotProfile times time fct segs = .ok pts) :
    ∃ v k p d, findNearest times time = .ok (v, k) ∧ Profile.addAll k ⟨[], [], []⟩ segs = .ok p ∧ cumulativeDistance p.coords = .ok d ∧
      p.mean.length = p.coords.length ∧ p.std.length = p.coords.length ∧
      pts = (List.range d.length).map fun (i : ℕ) =>
          ⟨p.coords.getD i 0, d.getD i 0, p.mean.getD i 0, p.mean.getD i 0 - fct * p.std.getD i 0, p.mean.getD i 0 + fct * p.std.getD i 0⟩ := by
  unfold plotProfile at h
  cases h1 : findNearest times time with
  | error e => rw [h1] at h; simp at h
  | ok vk =>
    obtain ⟨v, k⟩ := vk
    rw [h1] at h; simp only at h
    cases h2 : Profile.addAll k ⟨[], [], []⟩ segs with
    | error e => rw [h2] at h; simp at h
    | ok p =>
      rw [h2] at h; simp only at h
      cases h3 : cumulativeDistance p.coords with
      | error e => rw [h3] at h; simp at h
      | ok d =>
        rw [h3] at h
        simp only [Except.ok.injEq] at h
        obtain ⟨l1, l2⟩ := addAll_lengths k segs _ p h2 rfl rfl
        exact ⟨v, k, p, d, rfl, h2, h3, l1, l2, h.symm⟩

theorem cumulativeDistance_ok (c : List (ℝ × ℝ)) (d : List ℝ) (h : cumulativeDistance c = .ok d) :
    c ≠ [] ∧ d = sumsFrom 0 (List.zipWith (fun q p => Real.sqrt ((q.1 - p.1) ^ 2 + (q.2 - p.2) ^ 2)) c.tail c) ∧ d.length = c.length := by
  unfold cumulativeDistance at h
  split_ifs at h with hc
  simp only [Except.ok.injEq] at h
  refine ⟨hc, h.symm, ?_⟩
  rw [← h, sumsFrom_length]
  have : 0 < c.length := List.length_pos_iff.2 hc
  simp; omega

theorem pts_coords (p : Profile) (d : List ℝ) (fct : ℝ) (hd : d.length = p.coords.length) (hm : p.mean.length = p.coords.length) :
    ((List.range d.length).map fun (i : ℕ) => (⟨p.coords.getD i 0, d.getD i 0, p.mean.getD i 0, p.mean.getD i 0 - fct * p.std.getD i 0,
      p.mean.getD i 0 + fct * p.std.getD i 0⟩ : DrawnPoint)).map (fun q => (q.coord, q.mean)) = p.coords.zip p.mean := by
  rw [List.map_map]
  apply List.ext_getElem
  · simp [hd, hm]
  · intro i h1 h2
    have hi : i < p.coords.length := by simpa [hd] using h1
    simp [List.getElem_zip, hi, hm ▸ hi]

/-! ### C93: distances -/

/-- **C93** The points are drawn at the distance along the track: the first one at zero, and each next one further by the straight distance
between the two. -/
theorem C93_distances (times : List ℝ) (time fct : ℝ) (segs : List ProfileSegment) (pts : List DrawnPoint)
    (h : plotProfile times time fct segs = .ok pts) :
    (∃ q, pts[0]? = some q ∧ q.dist = 0) ∧
      ∀ (i : ℕ) (q r : DrawnPoint), pts[i]? = some q → pts[i + 1]? = some r → r.dist = q.dist + planeDist q.coord r.coord := by
  obtain ⟨v, k, p, d, -, -, h3, h4, h5, rfl⟩ := plot_ok times time fct segs pts h
  obtain ⟨c1, c2, c3⟩ := cumulativeDistance_ok _ _ h3
  have hpos : 0 < d.length := by rw [c3]; exact List.length_pos_iff.2 c1
  constructor
  · refine ⟨_, by rw [List.getElem?_map, List.getElem?_range hpos]; rfl, ?_⟩
    show d.getD 0 0 = 0
    rw [c2, List.getD_eq_getElem?_getD, sumsFrom_zero]; rfl
  · intro i q r hq hr
    rw [List.getElem?_map] at hq hr
    have hi : i + 1 < d.length := by
      by_contra hc
      rw [List.getElem?_eq_none (by simpa using hc)] at hr; simp at hr
    rw [List.getElem?_range (by omega)] at hq
    rw [List.getElem?_range hi] at hr
    simp only [Option.map_some, Option.some.injEq] at hq hr
    subst hq; subst hr
    have hi' : i + 1 < p.coords.length := c3 ▸ hi
    obtain ⟨e, e1, e2⟩ := sumsFrom_succ 0 (List.zipWith (fun q p => Real.sqrt ((q.1 - p.1) ^ 2 + (q.2 - p.2) ^ 2)) p.coords.tail p.coords) i
      (Real.sqrt ((p.coords[i + 1].1 - p.coords[i].1) ^ 2 + (p.coords[i + 1].2 - p.coords[i].2) ^ 2)) (by
        rw [List.getElem?_zipWith, List.getElem?_tail, List.getElem?_eq_getElem hi', List.getElem?_eq_getElem (by omega : i < p.coords.length)])
    show d.getD (i + 1) 0 = d.getD i 0 + planeDist (p.coords.getD i 0) (p.coords.getD (i + 1) 0)
    rw [c2, List.getD_eq_getElem?_getD, List.getD_eq_getElem?_getD, e1, e2, planeDist_comm]
    simp [planeDist, List.getElem?_eq_getElem hi', List.getElem?_eq_getElem (by omega : i < p.coords.length)]

/-! ### C94: weighted mean and standard deviation -/

theorem sum_map_le (l : List (ℝ × ℝ)) (f g : ℝ × ℝ → ℝ) (h : ∀ x ∈ l, f x ≤ g x) : (l.map f).sum ≤ (l.map g).sum :=
  List.sum_le_sum h

/-- **C94, rejection** Weights without a sum are rejected, all others are accepted. -/
theorem C94_defined (vw : List (ℝ × ℝ)) : (∃ r, weightedAvgStd vw = .ok r) ↔ (vw.map Prod.snd).sum ≠ 0 := by
  constructor
  · rintro ⟨⟨a, b⟩, h⟩; exact (weightedAvgStd_ok vw a b h).1
  · intro h
    unfold weightedAvgStd npAverage
    have e : ∀ c : ℝ, ((vw.map fun x => ((x.1 - c) ^ 2, x.2)).map Prod.snd).sum = (vw.map Prod.snd).sum := by
      intro c; congr 1; simp [List.map_map, Function.comp_def]
    simp only [h, if_false, e]
    exact ⟨_, rfl⟩

/-- **C94, mean** The mean is the centre of the weighted values (the weighted deviations from it cancel), and for non-negative weights it lies
between any bounds of the values. -/
theorem C94_mean (vw : List (ℝ × ℝ)) (a b : ℝ) (h : weightedAvgStd vw = .ok (a, b)) :
    (vw.map fun x => (x.1 - a) * x.2).sum = 0 ∧
      ((∀ x ∈ vw, 0 ≤ x.2) → ∀ lo hi, (∀ x ∈ vw, lo ≤ x.1 ∧ x.1 ≤ hi) → lo ≤ a ∧ a ≤ hi) := by
  obtain ⟨h1, h2, -⟩ := weightedAvgStd_ok vw a b h
  have hs : (vw.map fun x => x.1 * x.2).sum = a * (vw.map Prod.snd).sum := by rw [h2]; field_simp
  have lin : ∀ (l : List (ℝ × ℝ)) (c : ℝ), (l.map fun x => (x.1 - c) * x.2).sum = (l.map fun x => x.1 * x.2).sum - c * (l.map Prod.snd).sum := by
    intro l c
    induction l with
    | nil => simp
    | cons y ys ih => simp only [List.map_cons, List.sum_cons, ih]; ring
  refine ⟨by rw [lin, hs]; ring, ?_⟩
  intro hw lo hi hb
  have hpos : 0 < (vw.map Prod.snd).sum := by
    rcases (List.sum_nonneg (l := vw.map Prod.snd) (by
      intro y hy; rw [List.mem_map] at hy; obtain ⟨x, hx, rfl⟩ := hy; exact hw x hx)).lt_or_eq with h | h
    · exact h
    · exact absurd h.symm h1
  have e1 : 0 ≤ (vw.map fun x => (x.1 - lo) * x.2).sum := List.sum_nonneg (by
    intro y hy; rw [List.mem_map] at hy; obtain ⟨x, hx, rfl⟩ := hy
    exact mul_nonneg (by linarith [(hb x hx).1]) (hw x hx))
  have e2 : 0 ≤ (vw.map fun x => (hi - x.1) * x.2).sum := List.sum_nonneg (by
    intro y hy; rw [List.mem_map] at hy; obtain ⟨x, hx, rfl⟩ := hy
    exact mul_nonneg (by linarith [(hb x hx).2]) (hw x hx))
  have e3 : (vw.map fun x => (hi - x.1) * x.2).sum = -(vw.map fun x => (x.1 - hi) * x.2).sum := by
    clear hs lin h h1 h2 hw hb hpos e1 e2
    induction vw with
    | nil => simp
    | cons y ys ih => simp only [List.map_cons, List.sum_cons, ih]; ring
  rw [lin, hs] at e1
  rw [e3, lin, hs] at e2
  constructor
  · by_contra hc; push Not at hc; nlinarith
  · by_contra hc; push Not at hc; nlinarith

/-- **C94, standard deviation** For non-negative weights the square of the standard deviation is the weighted mean of the squared deviations,
and it is zero exactly if all values that count are equal to the mean. -/
theorem C94_std (vw : List (ℝ × ℝ)) (a b : ℝ) (h : weightedAvgStd vw = .ok (a, b)) (hw : ∀ x ∈ vw, 0 ≤ x.2) :
    0 ≤ b ∧ b ^ 2 * (vw.map Prod.snd).sum = (vw.map fun x => (x.1 - a) ^ 2 * x.2).sum ∧ (b = 0 ↔ ∀ x ∈ vw, x.2 ≠ 0 → x.1 = a) := by
  obtain ⟨h1, -, h3⟩ := weightedAvgStd_ok vw a b h
  have hs : 0 ≤ (vw.map Prod.snd).sum := List.sum_nonneg (by
    intro y hy; rw [List.mem_map] at hy; obtain ⟨x, hx, rfl⟩ := hy; exact hw x hx)
  have hpos : 0 < (vw.map Prod.snd).sum := lt_of_le_of_ne hs (Ne.symm h1)
  have hn : ∀ y ∈ vw.map fun x => (x.1 - a) ^ 2 * x.2, 0 ≤ y := by
    intro y hy; rw [List.mem_map] at hy; obtain ⟨x, hx, rfl⟩ := hy
    exact mul_nonneg (sq_nonneg _) (hw x hx)
  have hq : 0 ≤ (vw.map fun x => (x.1 - a) ^ 2 * x.2).sum / (vw.map Prod.snd).sum := div_nonneg (List.sum_nonneg hn) hs
  refine ⟨h3 ▸ Real.sqrt_nonneg _, ?_, ?_⟩
  · rw [h3, Real.sq_sqrt hq]; field_simp
  · rw [h3, Real.sqrt_eq_zero hq, div_eq_zero_iff, or_iff_left h1]
    constructor
    · intro h0 x hx hx2
      have hz : (x.1 - a) ^ 2 * x.2 = 0 := by
        have hm : (x.1 - a) ^ 2 * x.2 ∈ vw.map fun x => (x.1 - a) ^ 2 * x.2 := List.mem_map.2 ⟨x, hx, rfl⟩
        have := List.single_le_sum hn _ hm
        linarith [hn _ hm]
      rcases mul_eq_zero.1 hz with h4 | h4
      · have := pow_eq_zero_iff (two_ne_zero) |>.1 h4; linarith
      · exact absurd h4 hx2
    · intro hall
      apply List.sum_eq_zero
      intro y hy; rw [List.mem_map] at hy; obtain ⟨x, hx, rfl⟩ := hy
      by_cases hx2 : x.2 = 0
      · rw [hx2]; ring
      · rw [hall x hx hx2]; ring

/-- The hypotheses are met: values 5, 6, 4 with probabilities 0.5, 0.3, 0.2. -/
example : ∃ a b, weightedAvgStd [(5, 0.5), (6, 0.3), (4, 0.2)] = .ok (a, b) ∧ 4 ≤ a ∧ a ≤ 6 := by
  obtain ⟨⟨a, b⟩, h⟩ := (C94_defined [(5, 0.5), (6, 0.3), (4, 0.2)]).2 (by norm_num)
  exact ⟨a, b, h, (C94_mean _ a b h).2 (by norm_num) 4 6 (by norm_num)⟩

/-! ### C96: time of the values -/

/-- **C96** `find_nearest` gives the first of the values closest to the requested one. -/
theorem C96_nearest (array : List ℝ) (value : ℝ) (v : ℝ) (k : ℕ) (h : findNearest array value = .ok (v, k)) :
    array[k]? = some v ∧ (∀ x ∈ array, |v - value| ≤ |x - value|) ∧
      ∀ (j : ℕ) (x : ℝ), j < k → array[j]? = some x → |v - value| < |x - value| := by
  unfold findNearest at h
  cases array with
  | nil => simp at h
  | cons a as =>
    simp only [List.map_cons, Except.ok.injEq, Prod.mk.injEq] at h
    obtain ⟨h1, h2⟩ := h
    obtain ⟨s1, s2, s3⟩ := argminList_spec |a - value| (as.map fun x => |x - value|)
    rw [← List.map_cons (f := fun x => |x - value|)] at s1 s2 s3
    rw [h2] at h1 s1 s3
    rw [List.getElem?_map] at s1
    cases hk : (a :: as)[k]? with
    | none => rw [hk] at s1; simp at s1
    | some w =>
      rw [hk] at s1
      simp only [Option.map_some, Option.some.injEq] at s1
      have : v = w := by rw [← h1, List.getD_eq_getElem?_getD, hk]; rfl
      subst this
      refine ⟨rfl, ?_, ?_⟩
      · intro x hx; rw [s1]; exact s2 _ (List.mem_map.2 ⟨x, hx, rfl⟩)
      · intro j x hj hx; rw [s1]; exact s3 j _ hj (by rw [List.getElem?_map, hx]; rfl)

/-- **C96, defined** for every non-empty list. -/
theorem C96_defined (array : List ℝ) (value : ℝ) : (∃ r, findNearest array value = .ok r) ↔ array ≠ [] := by
  cases array <;> simp [findNearest]

/-! ### C95, C97: values and order of the points -/

theorem closest_chain (coords seg : List (ℝ × ℝ)) (h l : ℝ × ℝ) (hh : coords.head? = some h) (hl : coords.getLast? = some l)
    (hs : seg.head? = some l) (hne : l ≠ h) (i : ℕ) (hi : closestIdx coords seg = .ok i) : i = 1 := by
  unfold closestIdx at hi
  rw [hh, hl] at hi
  simp only at hi
  rw [List.head?_eq_getElem?] at hs
  rw [hs] at hi
  cases h1 : seg[1]? with
  | none => rw [h1] at hi; simp at hi
  | some s1 =>
    rw [h1] at hi
    simp only [Except.ok.injEq, computeDistance_eq] at hi
    have z : planeDist l l = 0 := (planeDist_eq_zero l l).2 rfl
    have p : 0 < planeDist l h := lt_of_le_of_ne (planeDist_nonneg _ _) (fun e => hne ((planeDist_eq_zero _ _).1 e.symm))
    rw [z] at hi
    obtain ⟨a1, a2, a3⟩ := argminList_spec (planeDist l h) [0, planeDist s1 h, planeDist s1 l]
    rw [hi] at a1 a3
    have m0 : (argminList (planeDist l h) [0, planeDist s1 h, planeDist s1 l]).1 ≤ 0 := a2 0 (by simp)
    have n0 : 0 ≤ (argminList (planeDist l h) [0, planeDist s1 h, planeDist s1 l]).1 := by
      have := List.mem_of_getElem? a1
      simp only [List.mem_cons, List.not_mem_nil, or_false] at this
      rcases this with e | e | e | e <;> rw [e]
      · exact p.le
      · exact planeDist_nonneg _ _
      · exact planeDist_nonneg _ _
    have e0 := le_antisymm m0 n0
    rw [e0] at a1 a3
    rcases Nat.lt_trichotomy i 1 with hlt | rfl | hgt
    · have : i = 0 := by omega
      subst this; simp at a1; linarith
    · rfl
    · have := a3 1 0 hgt (by simp); linarith

theorem addAll_chain (k : ℕ) (segs : List ProfileSegment) (p p' : Profile) (ha : p.addAll k segs = .ok p') (h l : ℝ × ℝ)
    (hh : p.coords.head? = some h) (hl : p.coords.getLast? = some l) (hc : ChainFrom h l segs) :
    p'.coords = p.coords ++ segs.flatMap ProfileSegment.coords ∧
      p'.mean = p.mean ++ segs.flatMap fun s => List.replicate s.coords.length (segMean s k) := by
  induction segs generalizing p l with
  | nil => simp only [Profile.addAll, Except.ok.injEq] at ha; subst ha; simp
  | cons s rest ih =>
    simp only [Profile.addAll] at ha
    cases hq : p.add k s with
    | error e => rw [hq] at ha; simp at ha
    | ok q =>
      rw [hq] at ha
      obtain ⟨c1, c2, e, c3, c4⟩ := hc
      obtain ⟨i, hi, rfl⟩ := add_ok k p q s hq
      have := closest_chain p.coords s.coords h l hh hl c1 c2 i hi
      subst this
      have hne : p.coords ≠ [] := by intro h0; rw [h0] at hh; simp at hh
      obtain ⟨r1, r2⟩ := ih _ ha e (by simp [joinCoords, List.head?_append, hh]) (by simp [joinCoords, List.getLast?_append, c3]) c4
      simp only [joinCoords, if_neg one_ne_zero, if_true] at r1
      exact ⟨by rw [r1]; simp, by rw [r2]; simp⟩

theorem add_first (k : ℕ) (s : ProfileSegment) (q : Profile) (h : Profile.add k ⟨[], [], []⟩ s = .ok q) :
    q.coords = s.coords ∧ q.mean = List.replicate s.coords.length (segMean s k) := by
  obtain ⟨i, hi, rfl⟩ := add_ok k _ q s h
  simp only [closestIdx, List.head?_nil, Except.ok.injEq] at hi
  subst hi
  simp [joinCoords]

theorem zip_flatMap (segs : List ProfileSegment) (k : ℕ) :
    (segs.flatMap ProfileSegment.coords).zip (segs.flatMap fun s => List.replicate s.coords.length (segMean s k)) =
      segs.flatMap fun s => s.coords.map fun c => (c, segMean s k) := by
  induction segs with
  | nil => rfl
  | cons s rest ih =>
    simp only [List.flatMap_cons]
    rw [List.zip_append (by simp), ih]
    congr 1
    apply List.ext_getElem <;> simp

/-- **C95/C97, consecutive segments** If every segment starts where the one before it ends (and the track does not come back to its first
point), the points are drawn in the given order, each with the mean of its own segment at the stored time closest to the requested one.
Missing for the full properties: segments that join the profile at its first point, which do not hold (`C95_violated`), or that touch the
profile with their last point (`C97_violated`). -/
theorem C95_chain_partial (times : List ℝ) (time fct : ℝ) (s : ProfileSegment) (rest : List ProfileSegment) (h l : ℝ × ℝ)
    (hh : s.coords.head? = some h) (hl : s.coords.getLast? = some l) (hc : ChainFrom h l rest) (pts : List DrawnPoint)
    (hp : plotProfile times time fct (s :: rest) = .ok pts) :
    ∃ v k, findNearest times time = .ok (v, k) ∧
      pts.map (fun q => (q.coord, q.mean)) = (s :: rest).flatMap fun s => s.coords.map fun c => (c, segMean s k) := by
  obtain ⟨v, k, p, d, h1, h2, h3, h4, h5, rfl⟩ := plot_ok times time fct _ pts hp
  refine ⟨v, k, h1, ?_⟩
  rw [pts_coords p d fct (cumulativeDistance_ok _ _ h3).2.2 h4]
  simp only [Profile.addAll] at h2
  cases hq : Profile.add k ⟨[], [], []⟩ s with
  | error e => rw [hq] at h2; simp at h2
  | ok q =>
    rw [hq] at h2
    obtain ⟨q1, q2⟩ := add_first k s q hq
    obtain ⟨r1, r2⟩ := addAll_chain k rest q p h2 h l (q1 ▸ hh) (q1 ▸ hl) hc
    rw [r1, r2, q1, q2, ← zip_flatMap]
    simp

theorem zip_replicate_perm (a b : List (ℝ × ℝ)) (m : ℝ) (h : a.Perm b) :
    (a.zip (List.replicate a.length m)).Perm (b.map fun c => (c, m)) := by
  have : a.zip (List.replicate a.length m) = a.map fun c => (c, m) := by
    apply List.ext_getElem <;> simp
  rw [this]; exact h.map _

theorem addAll_values (k : ℕ) (segs : List ProfileSegment) (p p' : Profile) (ha : p.addAll k segs = .ok p') :
    p'.mean = p.mean ++ (segs.flatMap fun s => List.replicate s.coords.length (segMean s k)) ∧
      p'.std = p.std ++ segs.flatMap fun s => List.replicate s.coords.length (segStd s k) := by
  induction segs generalizing p with
  | nil => simp only [Profile.addAll, Except.ok.injEq] at ha; subst ha; simp
  | cons s rest ih =>
    simp only [Profile.addAll] at ha
    cases hq : p.add k s with
    | error e => rw [hq] at ha; simp at ha
    | ok q =>
      rw [hq] at ha
      obtain ⟨i, -, rfl⟩ := add_ok k p q s hq
      obtain ⟨r1, r2⟩ := ih _ ha
      exact ⟨by rw [r1]; simp, by rw [r2]; simp⟩

/-- **C95, values** However the segments are joined, every segment contributes one point per coordinate, in order, each with the mean of the
segment and a band of `fct` standard deviations of the segment on both sides of it. -/
theorem C95_band (times : List ℝ) (time fct : ℝ) (segs : List ProfileSegment) (pts : List DrawnPoint)
    (hp : plotProfile times time fct segs = .ok pts) :
    ∃ v k, findNearest times time = .ok (v, k) ∧
      pts.map (fun q => (q.mean, q.lower, q.upper)) = segs.flatMap fun s => List.replicate s.coords.length
        (segMean s k, segMean s k - fct * segStd s k, segMean s k + fct * segStd s k) := by
  obtain ⟨v, k, p, d, h1, h2, h3, h4, h5, rfl⟩ := plot_ok times time fct _ pts hp
  refine ⟨v, k, h1, ?_⟩
  have hd := (cumulativeDistance_ok _ _ h3).2.2
  obtain ⟨r1, r2⟩ := addAll_values k segs _ p h2
  simp only [List.nil_append] at r1 r2
  have e1 : (List.range d.length).map (fun (i : ℕ) => (p.mean.getD i 0, p.mean.getD i 0 - fct * p.std.getD i 0,
      p.mean.getD i 0 + fct * p.std.getD i 0)) = (p.mean.zip p.std).map fun x => (x.1, x.1 - fct * x.2, x.1 + fct * x.2) := by
    apply List.ext_getElem
    · simp [hd, h4, h5]
    · intro i a1 a2
      have hi : i < p.coords.length := by simpa [hd] using a1
      simp [List.getElem_zip, h4 ▸ hi, h5 ▸ hi]
  rw [List.map_map]
  refine Eq.trans ?_ (e1.trans ?_)
  · rfl
  · rw [r1, r2]
    clear e1 r1 r2 h1 h2 hp
    induction segs with
    | nil => rfl
    | cons s rest ih =>
      simp only [List.flatMap_cons]
      rw [List.zip_append (by simp), List.map_append, ih]
      simp

/-- **C95, two segments** However two segments are joined, each point is drawn with the mean of its own segment. -/
theorem C95_two_partial (times : List ℝ) (time fct : ℝ) (s t : ProfileSegment) (pts : List DrawnPoint)
    (hp : plotProfile times time fct [s, t] = .ok pts) :
    ∃ v k, findNearest times time = .ok (v, k) ∧
      (pts.map fun q => (q.coord, q.mean)).Perm ((s.coords.map fun c => (c, segMean s k)) ++ t.coords.map fun c => (c, segMean t k)) := by
  obtain ⟨v, k, p, d, h1, h2, h3, h4, h5, rfl⟩ := plot_ok times time fct _ pts hp
  refine ⟨v, k, h1, ?_⟩
  rw [pts_coords p d fct (cumulativeDistance_ok _ _ h3).2.2 h4]
  simp only [Profile.addAll] at h2
  cases hq : Profile.add k ⟨[], [], []⟩ s with
  | error e => rw [hq] at h2; simp at h2
  | ok q =>
    rw [hq] at h2
    simp only at h2
    obtain ⟨q1, q2⟩ := add_first k s q hq
    cases hr : Profile.add k q t with
    | error e => rw [hr] at h2; simp at h2
    | ok r =>
      rw [hr] at h2
      simp only [Except.ok.injEq] at h2
      subst h2
      obtain ⟨i, -, rfl⟩ := add_ok k q r t hr
      simp only [q1, q2]
      obtain ⟨a, b, e, ha, hb⟩ : ∃ a b, joinCoords i s.coords t.coords = a ++ b ∧ a.Perm s.coords ∧ b.Perm t.coords := by
        unfold joinCoords
        split_ifs
        · exact ⟨_, _, rfl, List.reverse_perm _, List.Perm.refl _⟩
        · exact ⟨_, _, rfl, List.Perm.refl _, List.Perm.refl _⟩
        · exact ⟨_, _, rfl, List.reverse_perm _, List.reverse_perm _⟩
        · exact ⟨_, _, rfl, List.Perm.refl _, List.reverse_perm _⟩
      rw [e, List.zip_append (by simp [ha.length_eq])]
      refine List.Perm.append ?_ ?_
      · rw [← ha.length_eq]; exact zip_replicate_perm a _ _ ha
      · rw [← hb.length_eq]; exact zip_replicate_perm b _ _ hb


theorem axis_dist (a b : ℝ) : computeDistance (a, 0) (b, 0) = |a - b| := by
  simp [computeDistance, Real.sqrt_sq_eq_abs]

/-- Three segments on a straight track: from 0 to 1 with value 1, from 1 to 2 with value 2, from 0 to -1 with value 3. -/
def demoSegs : List ProfileSegment :=
  [⟨[([1], 1)], [(0, 0), (1, 0)]⟩, ⟨[([2], 1)], [(1, 0), (2, 0)]⟩, ⟨[([3], 1)], [(0, 0), (-1, 0)]⟩]

theorem weightedAvgStd_single (v : ℝ) : weightedAvgStd [(v, 1)] = .ok (v, 0) := by
  simp [weightedAvgStd, npAverage]

theorem demo_first (m : ℝ) (c : List (ℝ × ℝ)) : Profile.add 0 ⟨[], [], []⟩ ⟨[([m], 1)], c⟩ =
    .ok ⟨List.replicate c.length m, List.replicate c.length 0, c⟩ := by
  simp [Profile.add, segmentValues, weightedAvgStd_single, closestIdx, joinCoords]

theorem demo_add (m : ℝ) (p : Profile) (c : List (ℝ × ℝ)) (i : ℕ) (h : closestIdx p.coords c = .ok i) : p.add 0 ⟨[([m], 1)], c⟩ =
    .ok ⟨p.mean ++ List.replicate c.length m, p.std ++ List.replicate c.length 0, joinCoords i p.coords c⟩ := by
  simp [Profile.add, segmentValues, weightedAvgStd_single, h]

theorem demo_two : Profile.addAll 0 ⟨[], [], []⟩ (demoSegs.take 2) = .ok ⟨[1, 1, 2, 2], [0, 0, 0, 0], [(0, 0), (1, 0), (1, 0), (2, 0)]⟩ := by
  have h : closestIdx [(0, 0), (1, 0)] [(1, 0), (2, 0)] = .ok 1 := by
    simp only [closestIdx, List.head?_cons, List.getLast?_cons_cons, List.getLast?_singleton, List.getElem?_cons_zero, List.getElem?_cons_succ,
      axis_dist]
    norm_num [argminList]
  simp only [demoSegs, List.take_succ_cons, List.take_zero, Profile.addAll, demo_first]
  rw [demo_add _ _ _ 1 h]
  simp [Profile.addAll, joinCoords, List.replicate]

theorem demo_three : Profile.addAll 0 ⟨[], [], []⟩ demoSegs =
    .ok ⟨[1, 1, 2, 2, 3, 3], [0, 0, 0, 0, 0, 0], [(2, 0), (1, 0), (1, 0), (0, 0), (0, 0), (-1, 0)]⟩ := by
  have h : closestIdx [(0, 0), (1, 0)] [(1, 0), (2, 0)] = .ok 1 := by
    simp only [closestIdx, List.head?_cons, List.getLast?_cons_cons, List.getLast?_singleton, List.getElem?_cons_zero, List.getElem?_cons_succ,
      axis_dist]
    norm_num [argminList]
  have h' : closestIdx [(0, 0), (1, 0), (1, 0), (2, 0)] [(0, 0), (-1, 0)] = .ok 0 := by
    simp only [closestIdx, List.head?_cons, List.getLast?_cons_cons, List.getLast?_singleton, List.getElem?_cons_zero, List.getElem?_cons_succ,
      axis_dist]
    norm_num [argminList]
  simp only [demoSegs, Profile.addAll, demo_first]
  rw [demo_add _ _ _ 1 h]
  simp only
  rw [demo_add _ _ _ 0 (by simpa [joinCoords] using h')]
  simp [Profile.addAll, joinCoords, List.replicate]

/-- The hypotheses of the partial theorems are met by the first two of these segments. -/
example : (∃ pts, plotProfile [0] 0 2 (demoSegs.take 2) = .ok pts) ∧ ChainFrom (0, 0) (1, 0) [⟨[([2], 1)], [(1, 0), (2, 0)]⟩] := by
  refine ⟨?_, by simp [ChainFrom]⟩
  unfold plotProfile
  rw [show findNearest [0] 0 = .ok (0, 0) by simp [findNearest, argminList]]
  simp only [demo_two]
  exact ⟨_, rfl⟩

/-- **C95 is violated** Adding a segment at the first point of the profile turns the coordinates around, but not the values: with these three
segments the point at 2, which belongs to the second segment only (value 2), is drawn with value 1. -/
theorem C95_violated : ∃ pts q, plotProfile [0] 0 2 demoSegs = .ok pts ∧ q ∈ pts ∧ q.coord = (2, 0) ∧ q.mean = 1 ∧
    ∀ s ∈ demoSegs, (2, 0) ∈ s.coords → segMean s 0 = 2 := by
  obtain ⟨pts, hp⟩ : ∃ pts, plotProfile [0] 0 2 demoSegs = .ok pts := by
    unfold plotProfile
    rw [show findNearest [0] 0 = .ok (0, 0) by simp [findNearest, argminList]]
    simp only [demo_three]
    exact ⟨_, rfl⟩
  obtain ⟨v, k, p, d, h1, h2, h3, h4, h5, h6⟩ := plot_ok _ _ _ _ pts hp
  have hk : k = 0 := by
    rw [show findNearest [0] 0 = .ok (0, 0) by simp [findNearest, argminList]] at h1
    simp only [Except.ok.injEq, Prod.mk.injEq] at h1; exact h1.2.symm
  subst hk
  rw [demo_three] at h2
  simp only [Except.ok.injEq] at h2
  have hl := (cumulativeDistance_ok _ _ h3).2.2
  have hpos : 0 < d.length := by rw [hl, ← h2]; simp
  refine ⟨pts, _, hp, by rw [h6]; exact List.mem_map.2 ⟨0, List.mem_range.2 hpos, rfl⟩, ?_, ?_, ?_⟩
  · rw [← h2]; rfl
  · rw [← h2]; rfl
  · intro s hs hc
    simp only [demoSegs, List.mem_cons, List.not_mem_nil, or_false] at hs
    rcases hs with rfl | rfl | rfl
    · norm_num at hc
    · norm_num [segMean]
    · norm_num at hc

/-! ### C97: joining -/

theorem addAll_append (k : ℕ) (a b : List ProfileSegment) (p : Profile) :
    p.addAll k (a ++ b) = match p.addAll k a with | .error e => .error e | .ok q => q.addAll k b := by
  induction a generalizing p with
  | nil => rfl
  | cons s rest ih =>
    simp only [List.cons_append, Profile.addAll]
    cases p.add k s with
    | error e => rfl
    | ok q => exact ih q

theorem pts_coord (p : Profile) (d : List ℝ) (fct : ℝ) (hd : d.length = p.coords.length) :
    ((List.range d.length).map fun (i : ℕ) => (⟨p.coords.getD i 0, d.getD i 0, p.mean.getD i 0, p.mean.getD i 0 - fct * p.std.getD i 0,
      p.mean.getD i 0 + fct * p.std.getD i 0⟩ : DrawnPoint)).map DrawnPoint.coord = p.coords := by
  rw [List.map_map]
  apply List.ext_getElem
  · simp [hd]
  · intro i h1 h2
    simp [h2]

/-- **C97, segments of two points** A further segment of two points is put behind the profile drawn so far (or that profile turned around),
turned so that the two are joined at the ends closest to each other. Missing: segments of more points, for which it does not hold
(`C97_violated`). -/
theorem C97_two_points_partial (times : List ℝ) (time fct : ℝ) (segs : List ProfileSegment) (t : ProfileSegment) (a b : ℝ × ℝ)
    (ht : t.coords = [a, b]) (pts0 pts : List DrawnPoint) (h0 : plotProfile times time fct segs = .ok pts0)
    (h : plotProfile times time fct (segs ++ [t]) = .ok pts) :
    ∃ x y first last e f, pts.map DrawnPoint.coord = x ++ y ∧
      (x = pts0.map DrawnPoint.coord ∨ x = (pts0.map DrawnPoint.coord).reverse) ∧ (y = [a, b] ∨ y = [b, a]) ∧
      (pts0.map DrawnPoint.coord).head? = some first ∧ (pts0.map DrawnPoint.coord).getLast? = some last ∧
      x.getLast? = some e ∧ y.head? = some f ∧
      planeDist e f ≤ planeDist first a ∧ planeDist e f ≤ planeDist first b ∧ planeDist e f ≤ planeDist last a ∧
      planeDist e f ≤ planeDist last b := by
  obtain ⟨v0, k0, p0, d0, f0, a0, c0, -, -, rfl⟩ := plot_ok _ _ _ _ _ h0
  obtain ⟨v, k, p, d, f1, a1, c1, -, -, rfl⟩ := plot_ok _ _ _ _ _ h
  rw [f0] at f1
  simp only [Except.ok.injEq, Prod.mk.injEq] at f1
  obtain ⟨-, rfl⟩ := f1
  rw [pts_coord p d fct (cumulativeDistance_ok _ _ c1).2.2, pts_coord p0 d0 fct (cumulativeDistance_ok _ _ c0).2.2]
  rw [addAll_append, a0] at a1
  simp only [Profile.addAll] at a1
  have hne := (cumulativeDistance_ok _ _ c0).1
  cases hq : p0.add k0 t with
  | error e => rw [hq] at a1; simp at a1
  | ok q =>
    rw [hq] at a1
    simp only [Except.ok.injEq] at a1
    subst a1
    obtain ⟨i, hi, rfl⟩ := add_ok k0 p0 q t hq
    obtain ⟨first, hf⟩ : ∃ u, p0.coords.head? = some u := ⟨_, List.head?_eq_some_head hne⟩
    obtain ⟨last, hl⟩ : ∃ u, p0.coords.getLast? = some u := ⟨_, List.getLast?_eq_some_getLast hne⟩
    unfold closestIdx at hi
    rw [hf, hl, ht] at hi
    simp only [List.getElem?_cons_zero, List.getElem?_cons_succ, Except.ok.injEq, computeDistance_eq] at hi
    obtain ⟨s1, s2, -⟩ := argminList_spec (planeDist a first) [planeDist a last, planeDist b first, planeDist b last]
    rw [hi] at s1
    have t1 := s2 (planeDist a first) (by simp)
    have t2 := s2 (planeDist a last) (by simp)
    have t3 := s2 (planeDist b first) (by simp)
    have t4 := s2 (planeDist b last) (by simp)
    rw [planeDist_comm a first, planeDist_comm a last, planeDist_comm b first, planeDist_comm b last] at s1 t1 t2 t3 t4
    have hi4 : i < 4 := by
      by_contra hc
      rw [List.getElem?_eq_none (by simpa using hc)] at s1; simp at s1
    show ∃ x y first last e f, joinCoords i p0.coords t.coords = x ++ y ∧ _
    rw [ht]
    have hx : i = 0 ∨ i = 1 ∨ i = 2 ∨ i = 3 := by omega
    rcases hx with rfl | rfl | rfl | rfl
    · simp at s1
      exact ⟨p0.coords.reverse, [a, b], first, last, first, a, by simp [joinCoords], Or.inr rfl, Or.inl rfl, hf, hl,
        by simp [List.getLast?_reverse, hf], rfl, le_of_eq_of_le s1 t1, le_of_eq_of_le s1 t3, le_of_eq_of_le s1 t2, le_of_eq_of_le s1 t4⟩
    · simp at s1
      exact ⟨p0.coords, [a, b], first, last, last, a, by simp [joinCoords], Or.inl rfl, Or.inl rfl, hf, hl,
        hl, rfl, le_of_eq_of_le s1 t1, le_of_eq_of_le s1 t3, le_of_eq_of_le s1 t2, le_of_eq_of_le s1 t4⟩
    · simp at s1
      exact ⟨p0.coords.reverse, [b, a], first, last, first, b, by simp [joinCoords], Or.inr rfl, Or.inr rfl, hf, hl,
        by simp [List.getLast?_reverse, hf], rfl, le_of_eq_of_le s1 t1, le_of_eq_of_le s1 t3, le_of_eq_of_le s1 t2, le_of_eq_of_le s1 t4⟩
    · simp at s1
      exact ⟨p0.coords, [b, a], first, last, last, b, by simp [joinCoords], Or.inl rfl, Or.inr rfl, hf, hl,
        hl, rfl, le_of_eq_of_le s1 t1, le_of_eq_of_le s1 t3, le_of_eq_of_le s1 t2, le_of_eq_of_le s1 t4⟩

/-- **C97 is violated** The second point of a segment is taken for its last one. The segment with points 2, 50, 1 touches the profile from 0
to 1 with its last point, but is joined with its first one, with a gap of 1. -/
theorem C97_violated : ∃ pts, plotProfile [0] 0 2 [⟨[([1], 1)], [(0, 0), (1, 0)]⟩, ⟨[([2], 1)], [(2, 0), (50, 0), (1, 0)]⟩] = .ok pts ∧
    pts.map DrawnPoint.coord = [(0, 0), (1, 0), (2, 0), (50, 0), (1, 0)] := by
  have h : closestIdx [(0, 0), (1, 0)] [(2, 0), (50, 0), (1, 0)] = .ok 1 := by
    simp only [closestIdx, List.head?_cons, List.getLast?_cons_cons, List.getLast?_singleton, List.getElem?_cons_zero, List.getElem?_cons_succ,
      axis_dist]
    norm_num [argminList, abs_of_pos]
  have ha : Profile.addAll 0 ⟨[], [], []⟩ [⟨[([1], 1)], [(0, 0), (1, 0)]⟩, ⟨[([2], 1)], [(2, 0), (50, 0), (1, 0)]⟩] =
      .ok ⟨[1, 1, 2, 2, 2], [0, 0, 0, 0, 0], [(0, 0), (1, 0), (2, 0), (50, 0), (1, 0)]⟩ := by
    simp only [Profile.addAll, demo_first]
    rw [demo_add _ _ _ 1 h]
    simp [Profile.addAll, joinCoords, List.replicate]
  obtain ⟨pts, hp⟩ : ∃ pts, plotProfile [0] 0 2 [⟨[([1], 1)], [(0, 0), (1, 0)]⟩, ⟨[([2], 1)], [(2, 0), (50, 0), (1, 0)]⟩] = .ok pts := by
    unfold plotProfile
    rw [show findNearest [0] 0 = .ok (0, 0) by simp [findNearest, argminList]]
    simp only [ha]
    exact ⟨_, rfl⟩
  refine ⟨pts, hp, ?_⟩
  obtain ⟨v, k, p, d, h1, h2, h3, h4, h5, h6⟩ := plot_ok _ _ _ _ pts hp
  have hk : k = 0 := by
    rw [show findNearest [0] 0 = .ok (0, 0) by simp [findNearest, argminList]] at h1
    simp only [Except.ok.injEq, Prod.mk.injEq] at h1; exact h1.2.symm
  subst hk
  rw [ha] at h2
  simp only [Except.ok.injEq] at h2
  rw [h6, pts_coord p d 2 (cumulativeDistance_ok _ _ h3).2.2, ← h2]

end Rose
