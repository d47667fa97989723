import Verif.Model.Signal
import Mathlib.Tactic.Linarith
import Mathlib.Tactic.NormNum
import Mathlib.Tactic.Ring
import Mathlib.Tactic.FieldSimp
import Mathlib.Tactic.IntervalCases
import Mathlib.Data.List.GetD
import Mathlib.Algebra.Order.BigOperators.Group.List
import Mathlib.Probability.Distributions.Gaussian.Real

set_option linter.unusedSectionVars false

namespace Rose

/-! ### C73: the caller's signal -/

/-- **C73, the part that holds** Without conversion to millimetres the caller's signal is unchanged, and a second analysis gives the same
result. -/
theorem C73_unchanged_partial {K R : Type*} [Field K] (analysis : List K → R) (signal : List K) :
    (hrsmMax analysis false signal).2 = signal ∧
      hrsmMax analysis false (hrsmMax analysis false signal).2 = hrsmMax analysis false signal := ⟨rfl, rfl⟩

/-- **C73 is violated** With the default conversion the caller's signal is afterwards 1000 times larger, and analysing it a second time
analyses 1000000 times the original signal. -/
theorem C73_violated {K R : Type*} [Field K] (analysis : List K → R) (signal : List K) :
    (hrsmMax analysis true signal).2 = signal.map (fun x => 1000 * x) ∧
    (hrsmMax analysis true signal).1 = analysis (signal.map fun x => 1000 * x) ∧
    (hrsmMax analysis true (hrsmMax analysis true signal).2).1 = analysis (signal.map fun x => 1000000 * x) := by
  have e : signal.map (fun x => x * 1000) = signal.map (fun x => 1000 * x) := by
    apply List.map_congr_left; intro x _; ring
  refine ⟨by simp only [hrsmMax, if_true]; exact e, by simp only [hrsmMax, if_true, e], ?_⟩
  simp only [hrsmMax, if_true, List.map_map]
  congr 1
  apply List.map_congr_left
  intro x _
  simp only [Function.comp]
  ring

/-- For a signal that is not zero the caller's signal has changed. -/
example : (hrsmMax (fun s : List ℚ => s) true [1, 2]).2 ≠ [1, 2] := by decide +kernel

/-! ### C74: frequency bands -/

/-- The frequency belongs to the band. -/
def InBand (b : ℝ × ℝ × ℕ) (f : ℝ) : Prop := b.1 ≤ f ∧ f < b.2.1

/-- **C74, tiling** The bands tile [0.08, 0.63): a frequency belongs to exactly one band if it is in that range and to none otherwise. -/
theorem C74_tiling (f : ℝ) : (8 / 100 ≤ f ∧ f < 63 / 100 → ∃! i : ℕ, ∃ b, bands[i]? = some b ∧ InBand b f) ∧
    (¬ (8 / 100 ≤ f ∧ f < 63 / 100) → ∀ b ∈ bands, ¬ InBand b f) := by
  constructor
  · rintro ⟨h1, h2⟩
    have hex : ∃ i : ℕ, ∃ b, bands[i]? = some b ∧ InBand b f := by
      by_cases c1 : f < 10 / 100
      · exact ⟨0, _, rfl, h1, c1⟩
      by_cases c2 : f < 126 / 1000
      · exact ⟨1, _, rfl, not_lt.1 c1, c2⟩
      by_cases c3 : f < 16 / 100
      · exact ⟨2, _, rfl, not_lt.1 c2, c3⟩
      by_cases c4 : f < 20 / 100
      · exact ⟨3, _, rfl, not_lt.1 c3, c4⟩
      by_cases c5 : f < 253 / 1000
      · exact ⟨4, _, rfl, not_lt.1 c4, c5⟩
      by_cases c6 : f < 32 / 100
      · exact ⟨5, _, rfl, not_lt.1 c5, c6⟩
      by_cases c7 : f < 40 / 100
      · exact ⟨6, _, rfl, not_lt.1 c6, c7⟩
      by_cases c8 : f < 50 / 100
      · exact ⟨7, _, rfl, not_lt.1 c7, c8⟩
      · exact ⟨8, _, rfl, not_lt.1 c8, h2⟩
    obtain ⟨i, hi⟩ := hex
    refine ⟨i, hi, ?_⟩
    have hlt : ∀ (j : ℕ) b, bands[j]? = some b → j < 9 := by
      intro j b h; have := (List.getElem?_eq_some_iff.1 h).1; simpa [bands] using this
    rintro j ⟨b, hb, hf⟩
    obtain ⟨b', hb', hf'⟩ := hi
    have hj := hlt j b hb
    have hi := hlt i b' hb'
    unfold InBand at hf hf'
    interval_cases i <;> interval_cases j <;> first
      | rfl
      | (exfalso
         simp only [bands, List.getElem?_cons_zero, List.getElem?_cons_succ, Option.some.injEq] at hb hb'
         subst hb hb'
         norm_num at hf hf'
         linarith [hf.1, hf.2, hf'.1, hf'.2])
  · intro h b hb hf
    apply h
    simp only [bands, List.mem_cons, List.not_mem_nil, or_false] at hb
    unfold InBand at hf
    rcases hb with rfl | rfl | rfl | rfl | rfl | rfl | rfl | rfl | rfl <;> simp only at hf <;> constructor <;> linarith [hf.1, hf.2]

/-- The intended weight: twice differentiated from 0.16 on. -/
noncomputable def bandWeight (f : ℝ) : ℝ := if 16 / 100 ≤ f ∧ f < 63 / 100 then (2 * Real.pi * f) ^ 4 else 1

/-- Weight collected in a list of bands. -/
noncomputable def collected (bs : List (ℝ × ℝ × ℕ)) (f : ℝ) : ℝ :=
  (bs.map fun b => if b.1 ≤ f ∧ f < b.2.1 then (2 * Real.pi * f) ^ (2 * b.2.2) else 1).prod

theorem weightBand_map (b : ℝ × ℝ × ℕ) (freq : List ℝ) (w p : ℝ → ℝ) :
    weightBand b freq (freq.map fun f => w f * p f) =
      freq.map fun f => ((if b.1 ≤ f ∧ f < b.2.1 then (2 * Real.pi * f) ^ (2 * b.2.2) else 1) * w f) * p f := by
  unfold weightBand
  rw [List.zipWith_map_right, List.zipWith_self]
  apply List.map_congr_left
  intro f _
  split_ifs <;> ring

theorem collected_bands (f : ℝ) : collected bands f = bandWeight f := by
  unfold collected bands bandWeight
  simp only [List.map_cons, List.map_nil, List.prod_cons, List.prod_nil, mul_one, mul_zero, pow_zero, ite_self, one_mul]
  by_cases h : 16 / 100 ≤ f ∧ f < 63 / 100
  · rw [if_pos h]
    obtain ⟨h1, h2⟩ := h
    by_cases c4 : f < 20 / 100
    · simp only [show (16 / 100 ≤ f ∧ f < 20 / 100) by exact ⟨h1, c4⟩, show ¬ (20 / 100 ≤ f ∧ f < 253 / 1000) by intro h; linarith [h.1],
        show ¬ (253 / 1000 ≤ f ∧ f < 32 / 100) by intro h; linarith [h.1], show ¬ (32 / 100 ≤ f ∧ f < 40 / 100) by intro h; linarith [h.1],
        show ¬ (40 / 100 ≤ f ∧ f < 50 / 100) by intro h; linarith [h.1], show ¬ (50 / 100 ≤ f ∧ f < 63 / 100) by intro h; linarith [h.1]]
      norm_num
    by_cases c5 : f < 253 / 1000
    · simp only [show ¬ (16 / 100 ≤ f ∧ f < 20 / 100) by intro h; linarith [h.2], show (20 / 100 ≤ f ∧ f < 253 / 1000) by exact ⟨not_lt.1 c4, c5⟩,
        show ¬ (253 / 1000 ≤ f ∧ f < 32 / 100) by intro h; linarith [h.1], show ¬ (32 / 100 ≤ f ∧ f < 40 / 100) by intro h; linarith [h.1],
        show ¬ (40 / 100 ≤ f ∧ f < 50 / 100) by intro h; linarith [h.1], show ¬ (50 / 100 ≤ f ∧ f < 63 / 100) by intro h; linarith [h.1]]
      norm_num
    by_cases c6 : f < 32 / 100
    · simp only [show ¬ (16 / 100 ≤ f ∧ f < 20 / 100) by intro h; linarith [h.2], show ¬ (20 / 100 ≤ f ∧ f < 253 / 1000) by intro h; linarith [h.2],
        show (253 / 1000 ≤ f ∧ f < 32 / 100) by exact ⟨not_lt.1 c5, c6⟩, show ¬ (32 / 100 ≤ f ∧ f < 40 / 100) by intro h; linarith [h.1],
        show ¬ (40 / 100 ≤ f ∧ f < 50 / 100) by intro h; linarith [h.1], show ¬ (50 / 100 ≤ f ∧ f < 63 / 100) by intro h; linarith [h.1]]
      norm_num
    by_cases c7 : f < 40 / 100
    · simp only [show ¬ (16 / 100 ≤ f ∧ f < 20 / 100) by intro h; linarith [h.2], show ¬ (20 / 100 ≤ f ∧ f < 253 / 1000) by intro h; linarith [h.2],
        show ¬ (253 / 1000 ≤ f ∧ f < 32 / 100) by intro h; linarith [h.2], show (32 / 100 ≤ f ∧ f < 40 / 100) by exact ⟨not_lt.1 c6, c7⟩,
        show ¬ (40 / 100 ≤ f ∧ f < 50 / 100) by intro h; linarith [h.1], show ¬ (50 / 100 ≤ f ∧ f < 63 / 100) by intro h; linarith [h.1]]
      norm_num
    by_cases c8 : f < 50 / 100
    · simp only [show ¬ (16 / 100 ≤ f ∧ f < 20 / 100) by intro h; linarith [h.2], show ¬ (20 / 100 ≤ f ∧ f < 253 / 1000) by intro h; linarith [h.2],
        show ¬ (253 / 1000 ≤ f ∧ f < 32 / 100) by intro h; linarith [h.2], show ¬ (32 / 100 ≤ f ∧ f < 40 / 100) by intro h; linarith [h.2],
        show (40 / 100 ≤ f ∧ f < 50 / 100) by exact ⟨not_lt.1 c7, c8⟩, show ¬ (50 / 100 ≤ f ∧ f < 63 / 100) by intro h; linarith [h.1]]
      norm_num
    · simp only [show ¬ (16 / 100 ≤ f ∧ f < 20 / 100) by intro h; linarith [h.2], show ¬ (20 / 100 ≤ f ∧ f < 253 / 1000) by intro h; linarith [h.2],
        show ¬ (253 / 1000 ≤ f ∧ f < 32 / 100) by intro h; linarith [h.2], show ¬ (32 / 100 ≤ f ∧ f < 40 / 100) by intro h; linarith [h.2],
        show ¬ (40 / 100 ≤ f ∧ f < 50 / 100) by intro h; linarith [h.2], show (50 / 100 ≤ f ∧ f < 63 / 100) by exact ⟨not_lt.1 c8, h2⟩]
      norm_num
  · rw [if_neg h]
    have hn : ∀ a b : ℝ, 16 / 100 ≤ a → b ≤ 63 / 100 → ¬ (a ≤ f ∧ f < b) := by
      rintro a b ha hb ⟨h1, h2⟩
      exact h ⟨ha.trans h1, h2.trans_le hb⟩
    rw [if_neg (hn _ _ (by norm_num) (by norm_num)), if_neg (hn _ _ (by norm_num) (by norm_num)), if_neg (hn _ _ (by norm_num) (by norm_num)),
      if_neg (hn _ _ (by norm_num) (by norm_num)), if_neg (hn _ _ (by norm_num) (by norm_num)), if_neg (hn _ _ (by norm_num) (by norm_num))]
    norm_num

theorem rmsLoop_fst (freq : List ℝ) (df : ℝ) (p : ℝ → ℝ) : ∀ (bs : List (ℝ × ℝ × ℕ)) (w : ℝ → ℝ),
    (rmsLoop freq df bs (freq.map fun f => w f * p f)).1 = freq.map fun f => (collected bs f * w f) * p f := by
  intro bs
  induction bs with
  | nil => intro w; simp [rmsLoop, collected]
  | cons b bs ih =>
    intro w
    rw [rmsLoop]
    simp only
    rw [weightBand_map, ih]
    apply List.map_congr_left
    intro f _
    simp only [collected, List.map_cons, List.prod_cons]
    ring

/-- The rms of band number `i` is computed from the density weighted by the bands up to it. -/
theorem rmsLoop_snd (freq : List ℝ) (df : ℝ) (p : ℝ → ℝ) : ∀ (bs : List (ℝ × ℝ × ℕ)) (w : ℝ → ℝ) (i : ℕ) (b : ℝ × ℝ × ℕ), bs[i]? = some b →
    (rmsLoop freq df bs (freq.map fun f => w f * p f)).2[i]? =
      some (rmsBand b freq (freq.map fun f => (collected (bs.take (i + 1)) f * w f) * p f) df) := by
  intro bs
  induction bs with
  | nil => intro w i b h; simp at h
  | cons b bs ih =>
    intro w i c h
    rw [rmsLoop]
    simp only
    rw [weightBand_map]
    cases i with
    | zero =>
      simp only [List.getElem?_cons_zero, Option.some.injEq] at h ⊢
      subst h
      congr 1
      apply List.map_congr_left
      intro f _
      simp [collected]
    | succ i =>
      simp only [List.getElem?_cons_succ] at h ⊢
      rw [ih _ i c h]
      congr 2
      apply List.map_congr_left
      intro f _
      simp only [List.take_succ_cons, collected, List.map_cons, List.prod_cons]
      ring

/-- For a frequency in band `i` the later bands do not matter. -/
theorem collected_take (i : ℕ) (b : ℝ × ℝ × ℕ) (hb : bands[i]? = some b) (f : ℝ) (hf : InBand b f) :
    collected (bands.take (i + 1)) f = bandWeight f := by
  rw [← collected_bands]
  conv_rhs => rw [← List.take_append_drop (i + 1) bands]
  have happ : ∀ xs ys, collected (xs ++ ys) f = collected xs f * collected ys f := by
    intro xs ys; simp [collected, List.map_append, List.prod_append]
  rw [happ]
  have hone : collected (bands.drop (i + 1)) f = 1 := by
    unfold collected
    apply List.prod_eq_one
    intro x hx
    rw [List.mem_map] at hx
    obtain ⟨c, hc, rfl⟩ := hx
    rw [if_neg]
    intro hcf
    obtain ⟨k, hk⟩ := List.mem_iff_getElem?.1 hc
    rw [List.getElem?_drop] at hk
    have hr : 8 / 100 ≤ f ∧ f < 63 / 100 := by
      by_contra hcon
      exact (C74_tiling f).2 hcon b (List.mem_of_getElem? hb) hf
    obtain ⟨j, -, huniq⟩ := (C74_tiling f).1 hr
    have e1 := huniq i ⟨b, hb, hf⟩
    have e2 := huniq (i + 1 + k) ⟨c, hk, hcf⟩
    omega
  rw [hone, mul_one]

open Classical in
/-- **C74** For every list of frequencies (at least two) and spectral density `p` over it: afterwards the density at each frequency is
multiplied exactly once by the intended weight; and the value of each band is the root of the sum over the frequencies of the
band of weighted density times frequency step. -/
theorem C74_weights (f0 f1 : ℝ) (fs : List ℝ) (p : ℝ → ℝ) :
    ∃ P rms, rmsEffective (f0 :: f1 :: fs) ((f0 :: f1 :: fs).map p) = .ok (P, rms) ∧
      P = (f0 :: f1 :: fs).map (fun f => bandWeight f * p f) ∧ rms.length = 9 ∧
      ∀ (i : ℕ) (b : ℝ × ℝ × ℕ), bands[i]? = some b → rms[i]? = some (Real.sqrt
        (((f0 :: f1 :: fs).map fun f => if InBand b f then bandWeight f * p f * (f1 - f0) else 0).sum)) := by
  have hp : (f0 :: f1 :: fs).map p = (f0 :: f1 :: fs).map (fun f => (fun _ => (1 : ℝ)) f * p f) := by
    apply List.map_congr_left; intro f _; simp
  have hlen : ∀ (bs : List (ℝ × ℝ × ℕ)) freq df P, (rmsLoop freq df bs P).2.length = bs.length := by
    intro bs
    induction bs with
    | nil => intros; rfl
    | cons b bs ih => intro freq df P; rw [rmsLoop]; simp only [List.length_cons, ih]
  refine ⟨(rmsLoop (f0 :: f1 :: fs) (f1 - f0) bands ((f0 :: f1 :: fs).map p)).1,
    (rmsLoop (f0 :: f1 :: fs) (f1 - f0) bands ((f0 :: f1 :: fs).map p)).2, rfl, ?_, ?_, ?_⟩
  · rw [hp, rmsLoop_fst]
    apply List.map_congr_left
    intro f _
    rw [collected_bands, mul_one]
  · rw [hlen]; rfl
  · intro i b hb
    rw [hp, rmsLoop_snd _ _ p bands _ i b hb]
    unfold rmsBand
    rw [List.zipWith_map_right, List.zipWith_self]
    congr 3
    apply List.map_congr_left
    intro f _
    by_cases hf : InBand b f
    · rw [if_pos hf]
      have := hf
      unfold InBand at this
      rw [if_pos this, collected_take i b hb f hf, mul_one]
    · rw [if_neg hf]
      have := hf
      unfold InBand at this
      rw [if_neg this]

/-! ### C75: layering -/

theorem pyGet_ok {α : Type} {xs : List α} {j : ℕ} {v : α} (h : xs[j]? = some v) : pyGet xs j = .ok v := by
  unfold pyGet; rw [h]

theorem mapM_ok {α β : Type} (f : α → Except Err β) (g : α → β) (l : List α) (h : ∀ a ∈ l, f a = .ok (g a)) : l.mapM f = .ok (l.map g) := by
  induction l with
  | nil => rfl
  | cons a as ih =>
    rw [List.mapM_cons, h a (by simp), ih (fun b hb => h b (by simp [hb]))]
    rfl

/-- **C75** For every scenario with at least one layer and complete columns: after the force and the first layer there is one row per
soil layer, in order, with the layer's name and values (stiffness in Pa, unit weight as density) and as thickness the
difference of its top level and the next one; the last one is infinite. -/
theorem C75_layers {K : Type} [Field K] (s : SosData K) (n : ℕ) (h0 : s.names.length = n + 1) (h1 : s.shear.length = n + 1)
    (h2 : s.poisson.length = n + 1) (h3 : s.gamma.length = n + 1) (h4 : s.damping.length = n + 1) (h5 : s.top.length = n + 1) :
    ∃ rows, wolfLayering s = .ok rows ∧ rows.length = n + 3 ∧ rows.take 2 = [.force, .first] ∧
      ∀ j, j ≤ n → rows[j + 2]? = some (.layer (s.names.getD j "") (s.shear.getD j 0 * 1000000) (s.poisson.getD j 0)
        (s.gamma.getD j 0 * 1000 / (981 / 100)) (s.damping.getD j 0) (if j = n then none else some (s.top.getD j 0 - s.top.getD (j + 1) 0))) := by
  have get : ∀ {α : Type} (xs : List α) (d : α) (j : ℕ), j < xs.length → pyGet xs j = .ok (xs.getD j d) := by
    intro α xs d j h
    rw [List.getD_eq_getElem _ _ h]
    exact pyGet_ok (List.getElem?_eq_getElem h)
  have last : ∀ {α : Type} (xs : List α) (d : α), xs.length = n + 1 → pyLast xs = .ok (xs.getD n d) := by
    intro α xs d h
    unfold pyLast
    have : xs.getLast? = some (xs.getD n d) := by
      rw [List.getLast?_eq_getElem?, h, List.getD_eq_getElem _ _ (by omega)]
      exact List.getElem?_eq_getElem (by omega)
    rw [this]
  set row : ℕ → Option K → WolfRow K := fun j t => .layer (s.names.getD j "") (s.shear.getD j 0 * 1000000) (s.poisson.getD j 0)
        (s.gamma.getD j 0 * 1000 / (981 / 100)) (s.damping.getD j 0) t with hrow
  have hl : ∀ j ∈ List.range (s.names.length - 1), wolfLayer s j = .ok (row j (some (s.top.getD j 0 - s.top.getD (j + 1) 0))) := by
    intro j hj
    rw [List.mem_range] at hj
    unfold wolfLayer
    rw [get s.names "" j (by omega), get s.shear 0 j (by omega), get s.poisson 0 j (by omega), get s.gamma 0 j (by omega),
      get s.damping 0 j (by omega), get s.top 0 j (by omega), get s.top 0 (j + 1) (by omega)]
    rfl
  have hh : wolfHalfSpace s = .ok (row n none) := by
    unfold wolfHalfSpace
    rw [last s.names "" h0, last s.shear 0 h1, last s.poisson 0 h2, last s.gamma 0 h3, last s.damping 0 h4]
    rfl
  refine ⟨[.force, .first] ++ (List.range n).map (fun j => row j (some (s.top.getD j 0 - s.top.getD (j + 1) 0))) ++ [row n none], ?_, ?_, rfl, ?_⟩
  · unfold wolfLayering
    rw [mapM_ok (wolfLayer s) _ _ hl, hh, h0]
    rfl
  · simp
  · intro j hj
    rw [List.append_assoc, List.getElem?_append_right (by simp)]
    simp only [List.length_cons, List.length_nil]
    rw [show j + 2 - (0 + 1 + 1) = j by omega]
    by_cases hjn : j = n
    · subst hjn
      rw [if_pos rfl, List.getElem?_append_right (by simp)]
      simp [hrow]
    · rw [if_neg hjn, List.getElem?_append_left (by simp; omega), List.getElem?_map, List.getElem?_range (by omega)]
      rfl

/-- **C75, thickness** The thicknesses of the layers above the half space add up to the difference of the first and the last top
level. -/
theorem C75_thickness {K : Type} [Field K] (top : List K) (n : ℕ) :
    ((List.range n).map fun j => top.getD j 0 - top.getD (j + 1) 0).sum = top.getD 0 0 - top.getD n 0 := by
  induction n with
  | zero => simp
  | succ n ih => rw [List.range_succ, List.map_append, List.sum_append, ih]; simp

/-- A scenario without layers is rejected. -/
theorem C75_empty {K : Type} [Field K] (s : SosData K) (h : s.names = []) : wolfLayering s = .error .indexError := by
  unfold wolfLayering wolfHalfSpace pyLast
  rw [h]
  rfl

example : ∃ rows, wolfLayering (⟨["clay", "sand"], [20, 60], [1/3, 1/3], [18, 20], [1/50, 1/50], [0, -4]⟩ : SosData ℚ) = .ok rows ∧ rows.length = 4 := by
  obtain ⟨rows, h, hl, -⟩ := C75_layers (⟨["clay", "sand"], [20, 60], [1/3, 1/3], [18, 20], [1/50, 1/50], [0, -4]⟩ : SosData ℚ) 1 rfl rfl rfl rfl rfl rfl
  exact ⟨rows, h, hl⟩

/-! ### C76: random field -/

open MeasureTheory ProbabilityTheory

/-- The variance handed to the Gaussian field. -/
noncomputable def rfVar (mean cv : ℝ) (logNormal : Bool) : NNReal := ⟨(rfParams mean cv logNormal).2 ^ 2, sq_nonneg _⟩

theorem integral_exp_gaussian (m : ℝ) (v : NNReal) (t : ℝ) : ∫ z, Real.exp (t * z) ∂(gaussianReal m v) = Real.exp (m * t + v * t ^ 2 / 2) := by
  have h := congrFun (mgf_fun_id_gaussianReal (μ := m) (v := v)) t
  simpa [mgf] using h

/-- **C76** If the field is normally distributed at a point with the mean and variance handed to it, the returned value has the requested
mean, and its standard deviation is the coefficient of variation times the mean: for every coefficient of variation, and every
mean (log-normal: every positive mean). -/
theorem C76_moments (mean cv : ℝ) (logNormal : Bool) (hm : logNormal = true → 0 < mean) :
    ∫ z, rfValue logNormal z ∂(gaussianReal (rfParams mean cv logNormal).1 (rfVar mean cv logNormal)) = mean ∧
    variance (rfValue logNormal) (gaussianReal (rfParams mean cv logNormal).1 (rfVar mean cv logNormal)) = (mean * cv) ^ 2 := by
  cases logNormal with
  | false =>
    have e : rfValue false = fun z => z := by funext z; simp [rfValue]
    rw [e]
    refine ⟨by rw [integral_id_gaussianReal]; rfl, ?_⟩
    rw [variance_fun_id_gaussianReal]
    rfl
  | true =>
    have hpos := hm rfl
    have hL : 0 ≤ Real.log (1 + cv ^ 2) := Real.log_nonneg (by nlinarith [sq_nonneg cv])
    have h1c : 0 < 1 + cv ^ 2 := by positivity
    have hv : ((rfVar mean cv true : NNReal) : ℝ) = Real.log (1 + cv ^ 2) := by
      change (Real.sqrt (Real.log (1 + cv ^ 2))) ^ 2 = _
      exact Real.sq_sqrt hL
    have hmu : (rfParams mean cv true).1 = Real.log mean - 1 / 2 * Real.log (1 + cv ^ 2) := rfl
    have e : rfValue true = fun z => Real.exp z := by funext z; simp [rfValue]
    rw [e]
    have hI : ∫ z, Real.exp z ∂(gaussianReal (rfParams mean cv true).1 (rfVar mean cv true)) = mean := by
      have := integral_exp_gaussian (rfParams mean cv true).1 (rfVar mean cv true) 1
      simp only [one_mul] at this
      rw [this, hv, hmu]
      rw [show (Real.log mean - 1 / 2 * Real.log (1 + cv ^ 2)) * 1 + Real.log (1 + cv ^ 2) * 1 ^ 2 / 2 = Real.log mean by ring]
      exact Real.exp_log hpos
    refine ⟨hI, ?_⟩
    have hsq : Integrable (fun z => (Real.exp z) ^ 2) (gaussianReal (rfParams mean cv true).1 (rfVar mean cv true)) := by
      have := integrable_exp_mul_gaussianReal (μ := (rfParams mean cv true).1) (v := rfVar mean cv true) 2
      refine this.congr (Filter.Eventually.of_forall fun z => ?_)
      simp only
      rw [← Real.exp_nat_mul]; norm_num
    have hmem : MemLp (fun z => Real.exp z) 2 (gaussianReal (rfParams mean cv true).1 (rfVar mean cv true)) :=
      (memLp_two_iff_integrable_sq (Real.measurable_exp.aestronglyMeasurable)).2 hsq
    rw [variance_eq_sub hmem, hI]
    have h2 : ∫ z, ((fun z => Real.exp z) ^ 2) z ∂(gaussianReal (rfParams mean cv true).1 (rfVar mean cv true)) = mean ^ 2 * (1 + cv ^ 2) := by
      have h := integral_exp_gaussian (rfParams mean cv true).1 (rfVar mean cv true) 2
      have h' : ∀ z : ℝ, ((fun z => Real.exp z) ^ 2) z = Real.exp (2 * z) := by
        intro z; simp only [Pi.pow_apply]; rw [← Real.exp_nat_mul]; norm_num
      simp only [h']
      rw [h, hv, hmu]
      rw [show (Real.log mean - 1 / 2 * Real.log (1 + cv ^ 2)) * 2 + Real.log (1 + cv ^ 2) * 2 ^ 2 / 2 =
        Real.log mean + Real.log mean + Real.log (1 + cv ^ 2) by ring]
      rw [Real.exp_add, Real.exp_add, Real.exp_log hpos, Real.exp_log h1c]
      ring
    rw [h2]; ring

/-- A log-normal field is positive. -/
theorem C76_positive (z : ℝ) : 0 < rfValue true z := by simp [rfValue, Real.exp_pos]

/-! ### C88: value over the central window -/

theorem npMax_spec {K : Type*} [LinearOrder K] (xs : List K) (m : K) (h : npMax xs = .ok m) : m ∈ xs ∧ ∀ x ∈ xs, x ≤ m := by
  cases xs with
  | nil => cases h
  | cons x xs =>
    cases h
    have key : ∀ (l : List K) (a : K), (l.foldl max a ∈ a :: l) ∧ a ≤ l.foldl max a ∧ ∀ y ∈ l, y ≤ l.foldl max a := by
      intro l
      induction l with
      | nil => intro a; simp
      | cons b l ih =>
        intro a
        obtain ⟨h1, h2, h3⟩ := ih (max a b)
        simp only [List.foldl_cons]
        refine ⟨?_, (le_max_left _ _).trans h2, ?_⟩
        · rcases List.mem_cons.1 h1 with h | h
          · rcases max_choice a b with hm | hm <;> rw [h, hm] <;> simp
          · simp [h]
        · intro y hy
          rcases List.mem_cons.1 hy with rfl | hy
          · exact (le_max_right _ _).trans h2
          · exact h3 y hy
    obtain ⟨h1, h2, h3⟩ := key xs x
    exact ⟨h1, fun y hy => by rcases List.mem_cons.1 hy with rfl | hy; exacts [h2, h3 y hy]⟩

theorem npMax_ok {K : Type*} [LinearOrder K] (xs : List K) (h : xs ≠ []) : ∃ m, npMax xs = .ok m := by
  obtain ⟨x, xs', rfl⟩ := List.exists_cons_of_ne_nil h
  exact ⟨_, rfl⟩

theorem pyIndex_mem {K : Type*} (c : List K) (i : ℤ) (v : K) (h : pyIndex c i = .ok v) : v ∈ c := by
  unfold pyIndex at h
  simp only at h
  generalize (if i < 0 then i + (c.length : ℤ) else i) = j at h
  split_ifs at h
  split at h
  · cases h
  · rename_i w hw
    cases h
    exact List.mem_of_getElem? hw

/-- **C88** Whenever both values are computed the value over the central window is not larger than that over the whole signal. -/
theorem C88_window_le {K : Type} [LinearOrder K] (c : List K) (n m : ℕ) (a b : K) (h : maxFast c n m = .ok (a, b)) : b ≤ a := by
  unfold maxFast at h
  cases ha : npMax c with
  | error e => rw [ha] at h; cases h
  | ok a' =>
    rw [ha] at h
    simp only at h
    cases hw : windowValues c n m with
    | error e => rw [hw] at h; cases h
    | ok w =>
      rw [hw] at h
      simp only at h
      cases hb : npMax w with
      | error e => rw [hb] at h; cases h
      | ok b' =>
        rw [hb] at h
        cases h
        obtain ⟨hb1, -⟩ := npMax_spec w b hb
        obtain ⟨-, ha2⟩ := npMax_spec c a ha
        apply ha2
        have key : ∀ (l : List ℕ) (w : List K), l.mapM (m := Except Err) (fun (k : ℕ) => pyIndex c (((n : ℤ) - m) / 2 + (k : ℤ))) = .ok w →
            ∀ x ∈ w, x ∈ c := by
          intro l
          induction l with
          | nil => intro w h x hx; cases h; simp at hx
          | cons k l ih =>
            intro w h x hx
            rw [List.mapM_cons] at h
            cases h1 : pyIndex c (((n : ℤ) - m) / 2 + (k : ℤ)) with
            | error e => rw [h1] at h; cases h
            | ok v =>
              cases h2 : l.mapM (m := Except Err) (fun (k : ℕ) => pyIndex c (((n : ℤ) - m) / 2 + (k : ℤ))) with
              | error e => rw [h1, h2] at h; cases h
              | ok vs =>
                rw [h1, h2] at h
                cases h
                rcases List.mem_cons.1 hx with rfl | hx
                · exact pyIndex_mem c _ _ h1
                · exact ih vs h2 x hx
        exact key (List.range m) w hw b hb1

/-- **C88, centred** If the window is not longer than the signal, both values are computed, and the window is centred: `s` samples before
it, and `s` or `s + 1` samples of the signal after it; its value is the largest one there. -/
theorem C88_centred {K : Type} [LinearOrder K] (c : List K) (n m : ℕ) (hm : 1 ≤ m) (hmn : m ≤ n) (hc : n ≤ c.length) :
    ∃ a b s, maxFast c n m = .ok (a, b) ∧ (n - (s + m) = s ∨ n - (s + m) = s + 1) ∧ s + m ≤ n ∧
      npMax ((c.drop s).take m) = .ok b ∧ npMax c = .ok a := by
  have hcne : c ≠ [] := by intro h; rw [h] at hc; simp at hc; omega
  obtain ⟨a, ha⟩ := npMax_ok c hcne
  obtain ⟨s, hs⟩ : ∃ s : ℕ, ((n : ℤ) - m) / 2 = (s : ℤ) := ⟨(n - m) / 2, by omega⟩
  have hs1 : s + m ≤ n := by omega
  have hw : windowValues c n m = .ok ((c.drop s).take m) := by
    unfold windowValues
    rw [hs]
    obtain ⟨x0, -⟩ := List.exists_mem_of_ne_nil c hcne
    have hg : ∀ k ∈ List.range m, pyIndex c ((s : ℤ) + (k : ℤ)) = .ok (c.getD (s + k) x0) := by
      intro k hk
      rw [List.mem_range] at hk
      have hlt : s + k < c.length := by omega
      unfold pyIndex
      simp only
      rw [if_neg (by omega), if_neg (by omega), show ((s : ℤ) + (k : ℤ)).toNat = s + k by omega, List.getElem?_eq_getElem hlt,
        List.getD_eq_getElem _ _ hlt]
    rw [mapM_ok _ _ _ hg]
    congr 1
    apply List.ext_getElem?
    intro k
    rw [List.getElem?_map, List.getElem?_take, List.getElem?_drop]
    by_cases hk : k < m
    · rw [List.getElem?_range hk, if_pos hk, Option.map_some, List.getElem?_eq_getElem (by omega), List.getD_eq_getElem _ _ (by omega)]
    · rw [if_neg hk, List.getElem?_eq_none (by simp; omega)]; rfl
  have hne : (c.drop s).take m ≠ [] := by
    intro h
    have := congrArg List.length h
    simp at this
    omega
  obtain ⟨b, hb⟩ := npMax_ok _ hne
  refine ⟨a, b, s, ?_, by omega, hs1, hb, ha⟩
  unfold maxFast
  rw [ha]
  simp only [hw, hb]

theorem diffSignal_length {K : Type*} [Field K] (dx : K) (s : List K) : (diffSignal dx s).length = s.length - 1 := by
  unfold diffSignal; rw [List.length_zipWith, List.length_tail]; omega

theorem diffSignal_iterate_length {K : Type*} [Field K] (dx : K) (der : ℕ) (s : List K) : ((diffSignal dx)^[der] s).length = s.length - der := by
  induction der generalizing s with
  | zero => rfl
  | succ k ih => rw [Function.iterate_succ, Function.comp, ih, diffSignal_length]; omega

/-- **C88, defined** For a filtered signal as long as the signal (`n` samples), differentiated at most twice, a window of `1 ≤ m ≤ n`
samples and at least nine weights (a sampling distance of at most one metre): both values are computed, they are roots of
non-negative numbers, and the window value is between zero and the overall value. -/
theorem C88_defined (filtered : List ℝ) (der N n m : ℕ) (dx : ℝ) (hdx : 0 < dx) (hn : filtered.length = n) (hder : der ≤ 2) (hN : 9 ≤ N)
    (hm : 1 ≤ m) (hmn : m ≤ n) (hn2 : 2 ≤ n) :
    (∀ x ∈ convolve (((diffSignal dx)^[der] filtered).map fun x => x ^ 2) (decay N), 0 ≤ x * dx / 2) ∧
    ∃ a b, maxFast (convoluted filtered der N dx) n m = .ok (a, b) ∧ 0 ≤ b ∧ b ≤ a := by
  have hlen : (convoluted filtered der N dx).length = n - der + N - 1 := by
    unfold convoluted convolve decay
    simp only [List.length_map, List.length_range, diffSignal_iterate_length, hn]
  have hpos : ∀ x ∈ convolve (((diffSignal dx)^[der] filtered).map fun x => x ^ 2) (decay N), 0 ≤ x := by
    intro x hx
    unfold convolve at hx
    rw [List.mem_map] at hx
    obtain ⟨k, -, rfl⟩ := hx
    apply List.sum_nonneg
    intro y hy
    rw [List.mem_map] at hy
    obtain ⟨i, -, rfl⟩ := hy
    apply mul_nonneg
    · rw [List.getD_eq_getElem?_getD, List.getElem?_map]
      cases ((diffSignal dx)^[der] filtered)[i]? with
      | none => simp
      | some v => simp [sq_nonneg]
    · unfold decay
      rw [List.getD_eq_getElem?_getD, List.getElem?_map]
      cases (List.range N)[k - i]? with
      | none => simp
      | some v =>
        simp only [Option.map_some, Option.getD_some]
        have : Real.exp (-4) ≤ 1 := Real.exp_le_one_iff.2 (by norm_num)
        exact mul_nonneg (div_nonneg zero_le_one (by linarith)) (Real.exp_pos _).le
  refine ⟨fun x hx => by have := hpos x hx; positivity, ?_⟩
  obtain ⟨a, b, s, h1, -, -, h4, -⟩ := C88_centred (convoluted filtered der N dx) n m hm hmn (by rw [hlen]; omega)
  refine ⟨a, b, h1, ?_, C88_window_le _ n m a b h1⟩
  have hb := (npMax_spec _ b h4).1
  have hb' := List.mem_of_mem_drop (List.mem_of_mem_take hb)
  unfold convoluted at hb'
  rw [List.mem_map] at hb'
  obtain ⟨c, -, rfl⟩ := hb'
  exact Real.sqrt_nonneg _

/-- The window of a signal of five samples and three samples. -/
example : maxFast [(1 : ℚ), 7, 2, 4, 9, 3] 5 3 = .ok (9, 7) := by decide +kernel

end Rose
