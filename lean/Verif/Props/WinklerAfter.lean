/-
C186: the displacements that the solution for a change of foundation stiffness reports, and the time each column belongs to.
-/
import Verif.Model.WinklerSolve
import Verif.Spec.WinklerAfter
import Verif.Props.AnalyticalWinkler
import Verif.Props.AnalyticalModes

set_option linter.unusedSectionVars false

namespace Rose
open Finset Spec

/-! ### Cosines on a window -/

theorem window_cosines (L : ℝ) (hL : 0 < L) (j k : ℕ) :
    ∫ x in (0 : ℝ)..L, Real.cos (k * Real.pi * x / L) * Real.cos (j * Real.pi * x / L) = if k = j then (if j = 0 then L else L / 2) else 0 := by
  have e : ∀ x, Real.cos (k * Real.pi * x / L) * Real.cos (j * Real.pi * x / L) =
      1 / 2 * Real.cos (((k : ℤ) - (j : ℤ) : ℤ) * Real.pi / L * x) + 1 / 2 * Real.cos (((k : ℤ) + (j : ℤ) : ℤ) * Real.pi / L * x) := by
    intro x
    have h1 : (((k : ℤ) - (j : ℤ) : ℤ) : ℝ) * Real.pi / L * x = k * Real.pi * x / L - j * Real.pi * x / L := by
      push_cast; ring
    have h2 : (((k : ℤ) + (j : ℤ) : ℤ) : ℝ) * Real.pi / L * x = k * Real.pi * x / L + j * Real.pi * x / L := by
      push_cast; ring
    rw [h1, h2, Real.cos_sub, Real.cos_add]
    ring
  simp only [e]
  rw [intervalIntegral.integral_add (Continuous.intervalIntegrable (by fun_prop) _ _)
    (Continuous.intervalIntegrable (by fun_prop) _ _), intervalIntegral.integral_const_mul, intervalIntegral.integral_const_mul]
  split_ifs with h h0
  · subst h; subst h0
    simp
    ring
  · subst h
    rw [integral_cos_pi L hL ((k : ℤ) + k) (by omega)]
    simp
    ring
  · rw [integral_cos_pi L hL ((k : ℤ) - j) (by omega), integral_cos_pi L hL ((k : ℤ) + j) (by omega)]
    ring

/-- The coefficients of a sum of cosines. -/
theorem cosine_sum (L : ℝ) (hL : 0 < L) (N : ℕ) (c : ℕ → ℝ) (j : ℕ) :
    ∫ x in (0 : ℝ)..L, (∑ k ∈ range N, c k * Real.cos (k * Real.pi * x / L)) * Real.cos (j * Real.pi * x / L) =
      if j < N then c j * (if j = 0 then L else L / 2) else 0 := by
  have e : ∀ x, (∑ k ∈ range N, c k * Real.cos (k * Real.pi * x / L)) * Real.cos (j * Real.pi * x / L) =
      ∑ k ∈ range N, c k * (Real.cos (k * Real.pi * x / L) * Real.cos (j * Real.pi * x / L)) := by
    intro x
    rw [Finset.sum_mul]
    exact Finset.sum_congr rfl fun k _ => by ring
  simp only [e]
  rw [intervalIntegral.integral_finsetSum fun k _ => Continuous.intervalIntegrable (by fun_prop) _ _]
  simp only [intervalIntegral.integral_const_mul, window_cosines L hL, mul_ite, mul_zero]
  rw [Finset.sum_ite_eq' (range N) j]
  simp [Finset.mem_range]

namespace Winkler
variable {m : Winkler}

/-- The cosine coefficients of the sum of `time_high`. -/
noncomputable def cosines (m : Winkler) (x : ℝ) (k : ℕ) : ℝ :=
  if k = 0 then m.ubar m.a x / m.period else 2 / m.period * m.ubar (m.a + k * Real.pi * Complex.I / m.period) x

theorem foldl_from_one (f : ℕ → ℝ) (n : ℕ) : (List.range' 1 n).foldl (fun acc k => acc + f k) 0 = ∑ k ∈ range n, f (k + 1) := by
  induction n with
  | zero => simp
  | succ n ih => rw [List.range'_1_concat, List.foldl_append, ih, Finset.sum_range_succ]; simp [add_comm]

theorem highAt_cosines (hN : 1 ≤ m.nbTerms) (x t : ℝ) :
    m.highAt x t = Real.exp (m.a * t) * ∑ k ∈ range m.nbTerms, m.cosines x k * Real.cos (k * Real.pi * t / m.period) := by
  obtain ⟨n, hn⟩ := Nat.exists_eq_add_of_le' hN
  rw [highAt, hn, Nat.add_sub_cancel, foldl_from_one, Finset.sum_range_succ']
  have e : ∀ k ∈ range n, m.cosines x (k + 1) * Real.cos ((k + 1 : ℕ) * Real.pi * t / m.period) = 2 / m.period *
      (m.ubar (m.a + (k + 1 : ℕ) * Real.pi * Complex.I / m.period) x * Real.cos ((k + 1 : ℕ) * Real.pi * t / m.period)) := by
    intro k _
    rw [cosines, if_neg (Nat.succ_ne_zero k)]
    ring
  rw [Finset.sum_congr rfl e, ← Finset.mul_sum]
  simp only [cosines, if_true, Nat.cast_zero, zero_mul, zero_div, Real.cos_zero]
  ring

theorem inversion (hN : 1 ≤ m.nbTerms) (hT : 0 < m.period) (x : ℝ) :
    CosineInversion m.nbTerms m.a m.period (fun s => if x ≤ 0 then m.ub1 s x else m.ub2 s x) (m.highAt x) := by
  have e : ∀ j : ℕ, ∀ t, Real.exp (-m.a * t) * m.highAt x t * Real.cos (j * Real.pi * t / m.period) =
      (∑ k ∈ range m.nbTerms, m.cosines x k * Real.cos (k * Real.pi * t / m.period)) * Real.cos (j * Real.pi * t / m.period) := by
    intro j t
    rw [highAt_cosines hN, ← mul_assoc, ← Real.exp_add]
    simp
  refine ⟨fun j hj => ?_, fun j hj => ?_, m.cosines x, highAt_cosines hN x⟩
  · simp only [e]
    rw [cosine_sum _ hT, if_pos hj, cosines]
    have h := hT.ne'
    split_ifs with h0 hx hx
    · subst h0
      rw [ubar, if_pos hx]
      simp [h]
    · subst h0
      rw [ubar, if_neg hx]
      simp [h]
    · rw [ubar, if_pos hx]
      field_simp
    · rw [ubar, if_neg hx]
      field_simp
  · simp only [e]
    rw [cosine_sum _ hT, if_neg (not_lt.mpr hj)]

/-! ### Columns -/

theorem filter_sorted (l : List ℝ) (hl : l.Pairwise (· < ·)) (c : ℕ) (hc : c < l.length) :
    (l.filter (· < 0))[c]? = if l[c] < 0 then some l[c] else none := by
  induction l generalizing c with
  | nil => simp at hc
  | cons t l ih =>
    rw [List.pairwise_cons] at hl
    by_cases ht : t < 0
    · rw [List.filter_cons_of_pos (by simpa using ht)]
      cases c with
      | zero => simp [ht]
      | succ c => simpa using ih hl.2 c (by simpa using hc)
    · have h0 : (t :: l).filter (· < 0) = [] := by
        rw [List.filter_eq_nil_iff]
        intro y hy
        rcases List.mem_cons.mp hy with rfl | hy
        · simpa using ht
        · have := hl.1 y hy
          simp only [decide_eq_true_eq]
          linarith
      rw [h0, if_neg]
      · simp
      · cases c with
        | zero => simpa using ht
        | succ c =>
          have := hl.1 (l[c]'(by simpa using hc)) (List.getElem_mem _)
          simp only [List.getElem_cons_succ]
          linarith

theorem column_sorted (hs : m.tau.Pairwise (· < ·)) (c : ℕ) (hc : c < m.tau.length) (x : ℝ) :
    m.lowColumn c x + m.highColumn c x = if m.tau[c] < 0 then m.lowAt x m.tau[c] else m.highAt x m.tau[c] := by
  have nd : m.tau.Nodup := hs.imp fun h => ne_of_lt h
  rw [lowColumn, highColumn, filter_sorted _ hs c hc, List.getElem?_eq_getElem hc]
  split_ifs with h
  · simp [not_le.mpr h]
  · simp [not_lt.mp h, nd.idxOf_getElem c hc]

/-- A negative time behind a time that is not negative: some negative time is not numbered by its own column. -/
theorem late_column (l : List ℝ) {i j : ℕ} (hij : i < j) (hj : j < l.length) (hi0 : 0 ≤ l[i]) (hj0 : l[j] < 0) :
    ∃ c, ∃ h : c < l.length, l[c] < 0 ∧ (l.filter (· < 0)).length ≤ c := by
  by_contra hno
  push Not at hno
  have hn : (l.filter (· < 0)).length ≤ l.length := List.length_filter_le _ _
  set n := (l.filter (· < 0)).length with hnd
  have hdrop : (l.drop n).filter (· < 0) = [] := by
    rw [List.filter_eq_nil_iff]
    intro y hy
    obtain ⟨k, hk, rfl⟩ := List.mem_iff_getElem.mp hy
    rw [List.length_drop] at hk
    rw [List.getElem_drop]
    intro hneg
    have := hno (n + k) (by omega) (by simpa using hneg)
    omega
  have hsplit : (l.filter (· < 0)) = (l.take n).filter (· < 0) := by
    conv_lhs => rw [← List.take_append_drop n l, List.filter_append, hdrop, List.append_nil]
  have hall : ∀ y ∈ l.take n, y < 0 := by
    have h1 : ((l.take n).filter (· < 0)).length = (l.take n).length := by
      rw [← hsplit, ← hnd, List.length_take, min_eq_left hn]
    intro y hy
    simpa using List.length_filter_eq_length_iff.mp h1 y hy
  have hjn : j < n := hno j hj hj0
  have hin : i < (l.take n).length := by rw [List.length_take]; omega
  have := hall _ (List.getElem_mem hin)
  rw [List.getElem_take] at this
  linarith

end Winkler

/-- The scale of times, positions and the time window of the solution. -/
theorem WinklerInput.Proper.window {i : WinklerInput} {k0 k1 : ℝ} (hi : i.Proper k0 k1) {m : Winkler} (hm : i.parameters = .ok m) :
    m.nbTerms = i.nbTerms ∧ m.a = i.a ∧ m.h = √(k0 / i.rho) ∧ m.beta = √(i.EI / i.rho) := by
  rw [WinklerInput.parameters, hi.two] at hm
  simp only [if_neg (not_lt.mpr hi.slow.le)] at hm
  cases hm
  exact ⟨rfl, rfl, rfl, rfl⟩

/-- **C186.** For positions in increasing order, the last of them behind the change of stiffness: the reported matrix has one row for each position and one
column for each time at which the load is at a position. In a column of a time before zero it holds the displacements of the beam under
the approaching load. In the other columns it holds, in dimensionless positions and times, the finite cosine inversion, over a window of twice the last
time, of the transforms of the displacements before and behind the change. -/
theorem C186_columns (i : WinklerInput) (k0 k1 last : ℝ) (hi : i.Proper k0 k1) (hN : 1 ≤ i.nbTerms) (hsorted : i.position.Pairwise (· < ·))
    (hlast : i.position.getLast? = some last) (hpos : 0 < last) :
    ∃ (m : Winkler) (u w : ℝ → ℝ → ℝ) (left right : ℂ → ℝ → ℂ), i.parameters = .ok m ∧ LoadApproaches i.EI i.rho k0 k1 i.force i.speed u ∧
      (∀ x t, u x t = m.lowAt (√(√(k0 / i.rho) / √(i.EI / i.rho)) * x) (√(k0 / i.rho) * t)) ∧
      (∀ s, m.Regular s → ∃ gap, AfterTransition gap (k1 / k0) m.F m.alpha s m.lowAt (left s) (right s)) ∧
      (∀ x, CosineInversion i.nbTerms i.a (2 * (√(k0 / i.rho) * (last / i.speed))) (fun s => if x ≤ 0 then left s x else right s x) (w x)) ∧
      m.solve = i.position.map fun x => i.position.map fun y =>
        if y / i.speed < 0 then u x (y / i.speed) else w (√(√(k0 / i.rho) / √(i.EI / i.rho)) * x) (√(k0 / i.rho) * (y / i.speed)) := by
  obtain ⟨m, hm, slow, hs, hp, hv⟩ := hi.parameters
  obtain ⟨m', hm', -, hpart⟩ := C154_transform_partial i k0 k1 hi
  obtain rfl : m' = m := Except.ok.inj (hm'.symm.trans hm)
  obtain ⟨wN, wa, wh, wb⟩ := hi.window hm
  have hsp := hi.forward
  have hh := hs.h_pos
  have hT : m'.period = 2 * (√(k0 / i.rho) * (last / i.speed)) := by
    rw [Winkler.period, Winkler.tau, List.getLast?_map, hp, hlast, hv, wh]
    simp
    ring
  have hTp : 0 < m'.period := by
    rw [hT, ← wh]
    positivity
  refine ⟨m', _, m'.highAt, m'.ub1, m'.ub2, hm, Winkler.approaches slow hs, fun x t => by rw [← wh, ← wb], hpart, fun x => ?_, ?_⟩
  · rw [← hT, ← wN, ← wa]
    exact Winkler.inversion (by rw [wN]; exact hN) hTp x
  · have htau : m'.tau.Pairwise (· < ·) := by
      rw [Winkler.tau, List.pairwise_map, hp, hv]
      exact hsorted.imp fun {a b} h => by
        have := div_lt_div_of_pos_right h hsp
        exact mul_lt_mul_of_pos_left this hh
    rw [Winkler.solve, Winkler.qsi, hp, List.map_map, ← wh, ← wb]
    refine List.map_congr_left fun x _ => ?_
    apply List.ext_getElem
    · simp [Winkler.tau, hp]
    · intro c h1 h2
      have hc : c < m'.tau.length := by simpa using h1
      have hcp : c < i.position.length := by simpa using h2
      have et : m'.tau[c] = m'.h * (i.position[c] / i.speed) := by simp [Winkler.tau, hp, hv]
      simp only [List.getElem_map, List.getElem_range, Function.comp_apply]
      rw [Winkler.column_sorted htau c hc, et]
      have hneg : m'.h * (i.position[c] / i.speed) < 0 ↔ i.position[c] / i.speed < 0 := by
        constructor
        · intro h
          by_contra h'
          have := mul_nonneg hh.le (not_lt.mp h')
          linarith
        · exact fun h => mul_neg_of_pos_of_neg hh h
      simp only [hneg]

/-- **C186, the order is needed.** If a position before the change of stiffness comes behind a position that is not before it, the matrix holds, for a time before
zero, zeros at all positions, whatever the load. -/
theorem C186_unordered (i : WinklerInput) (k0 k1 : ℝ) (hi : i.Proper k0 k1) (j k : ℕ) (hjk : j < k) (hk : k < i.position.length)
    (h0 : 0 ≤ i.position[j]) (hneg : i.position[k] < 0) :
    ∃ m c, i.parameters = .ok m ∧ ∃ h : c < i.position.length, i.position[c] < 0 ∧ ∀ row ∈ m.solve, row[c]? = some 0 := by
  obtain ⟨m, hm, slow, hs, hp, hv⟩ := hi.parameters
  have hsp := hi.forward
  have hh := hs.h_pos
  have hlen : m.tau.length = i.position.length := by simp [Winkler.tau, hp]
  have et : ∀ c (h : c < i.position.length), m.tau[c]'(by omega) = m.h * (i.position[c] / i.speed) := fun c h => by simp [Winkler.tau, hp, hv]
  obtain ⟨c, hc, hcneg, hcn⟩ := Winkler.late_column m.tau hjk (by omega)
    (by rw [et j (by omega)]; positivity) (by rw [et k hk]; exact mul_neg_of_pos_of_neg hh (div_neg_of_neg_of_pos hneg hsp))
  have hc' : c < i.position.length := by omega
  refine ⟨m, c, hm, hc', ?_, ?_⟩
  · by_contra hge
    rw [et c hc'] at hcneg
    have : 0 ≤ m.h * (i.position[c] / i.speed) := mul_nonneg hh.le (div_nonneg (not_lt.mp hge) hsp.le)
    linarith
  · intro row hrow
    rw [Winkler.solve, List.mem_map] at hrow
    obtain ⟨x, -, rfl⟩ := hrow
    have e1 : m.lowColumn c x = 0 := by
      rw [Winkler.lowColumn, List.getElem?_eq_none hcn]
    have e2 : m.highColumn c x = 0 := by
      rw [Winkler.highColumn, List.getElem?_eq_getElem hc]
      simp [not_le.mpr hcneg]
    simp [hc, e1, e2]

/-- The rail on a foundation that becomes twice as stiff meets the hypotheses. -/
example : 1 ≤ exampleWinkler.nbTerms ∧ exampleWinkler.position.Pairwise (· < ·) ∧ exampleWinkler.position.getLast? = some 2 ∧ (0 : ℝ) < 2 := by
  refine ⟨by norm_num [exampleWinkler], ?_, rfl, two_pos⟩
  norm_num [exampleWinkler]

/-- The same rail with the positions from the far end to the near one meets the hypotheses of `C186_unordered`. -/
example : { exampleWinkler with position := exampleWinkler.position.reverse }.Proper 1 2 ∧
    (0 : ℝ) ≤ exampleWinkler.position.reverse[0]'(by simp [exampleWinkler]) ∧ exampleWinkler.position.reverse[3]'(by simp [exampleWinkler]) < (0 : ℝ) := by
  refine ⟨⟨rfl, ?_, ?_, one_pos, two_pos, ?_, ?_⟩, ?_, ?_⟩
  · norm_num [exampleWinkler]
  · norm_num [exampleWinkler]
  · norm_num [exampleWinkler]
  · rw [WinklerInput.critical]
    refine Real.one_lt_rpow ?_ (by norm_num)
    norm_num [exampleWinkler]
  · simp [exampleWinkler]
  · simp [exampleWinkler]

end Rose
