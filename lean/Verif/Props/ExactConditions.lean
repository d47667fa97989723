/-
Exact conditions under which C54, C67, C73, C80, C83, C87, C89 and C102 hold, all of which the code violates for some inputs.
-/
import Verif.Props.Accumulation
import Verif.Props.DefaultTrains
import Verif.Props.Signal
import Verif.Props.Coupled
import Verif.Props.Irregularities
import Verif.Props.Kalman
import Verif.Props.TrainSystem
import Verif.Props.Massless

set_option linter.unusedSectionVars false

namespace Rose

/-- **C54, exactly** In a period that starts at zero a train is counted as often as it passes exactly if no train passes more often. -/
theorem C54_iff (t : Traffic) (h : t.start = 0) (tr : ℕ) (htr : tr < t.cycles.length) :
    t.applied tr = t.cycles.getD tr 0 ↔ ∀ c ∈ t.cycles, c ≤ t.cycles.getD tr 0 := by
  have hmax : t.cycles.getD tr 0 ≤ t.maxCycles ∧ (t.maxCycles ≤ t.cycles.getD tr 0 ↔ ∀ c ∈ t.cycles, c ≤ t.cycles.getD tr 0) := by
    have key : ∀ (l : List ℕ) (a m : ℕ), l.foldl max a ≤ m ↔ a ≤ m ∧ ∀ c ∈ l, c ≤ m := by
      intro l
      induction l with
      | nil => simp
      | cons b l ih => intro a m; rw [List.foldl_cons, ih, max_le_iff, List.forall_mem_cons, and_assoc]
    have hm : t.cycles.getD tr 0 ∈ t.cycles := by rw [List.getD_eq_getElem _ _ htr]; exact List.getElem_mem htr
    exact ⟨((key _ _ _).mp (le_refl t.maxCycles)).2 _ hm, (key _ _ _).trans (and_iff_right (Nat.zero_le _))⟩
  rw [t.applied_zero h tr htr, ← hmax.2]
  omega

example : (⟨[6, 3, 6], 0, 1⟩ : Traffic).applied 2 = 6 ∧ (⟨[6, 3, 6], 0, 1⟩ : Traffic).applied 1 ≠ 3 :=
  ⟨(C54_iff ⟨[6, 3, 6], 0, 1⟩ rfl 2 (by decide)).mpr (by decide), fun e =>
    absurd ((C54_iff ⟨[6, 3, 6], 0, 1⟩ rfl 1 (by decide)).mp e) (by decide)⟩

section
variable {K : Type*} [Field K] [LinearOrder K] [IsStrictOrderedRing K]

/-- **C67, exactly** The carts of a cargo train occupy disjoint stretches exactly if it has one locomotive or no wagons. -/
theorem C67_iff (start : K) (loco wagon : TrainType) (nLoco nWagon : ℕ) (l w : TrainData K)
    (hl : locoData loco = .ok l) (hw : wagonData wagon = .ok w) (h0 : 1 ≤ nLoco) :
    ∃ t, buildCargo start loco wagon nLoco nWagon = .ok t ∧ t.stretches.length = nLoco + nWagon ∧
      (t.stretches.Pairwise (fun a b => ¬ ∃ x, a.1 < x ∧ x < a.2 ∧ b.1 < x ∧ x < b.2) ↔ nLoco = 1 ∨ nWagon = 0) := by
  have hlp := locoData_pos loco l hl
  have hwp := wagonData_pos wagon w hw
  obtain ⟨t, h1, -, -, h3⟩ := buildCargo_stretches start loco wagon nLoco nWagon l w hl hw (by omega)
  refine ⟨t, h1, by rw [h3]; simp, fun hp => ?_, fun hc => ?_⟩
  · by_contra hn
    push Not at hn
    obtain ⟨t', a, b, h1', ha, hb, hx⟩ := C67_violated start loco wagon nLoco nWagon l w hl hw (by omega) (by omega)
    obtain rfl := Except.ok.inj (h1.symm.trans h1')
    obtain ⟨i1, e1⟩ := List.getElem?_eq_some_iff.mp ha
    obtain ⟨i2, e2⟩ := List.getElem?_eq_some_iff.mp hb
    exact List.pairwise_iff_getElem.mp hp 1 nLoco i1 i2 (by omega) (by rw [e1, e2]; exact hx)
  · rcases hc with rfl | rfl
    · obtain ⟨t', h1', -, -, -, hp⟩ := C67_disjoint_partial start loco wagon nWagon l w hl hw
      obtain rfl := Except.ok.inj (h1.symm.trans h1')
      exact hp.imp fun {a b} hab => by rintro ⟨x, x1, x2, x3, x4⟩; linarith
    · rw [h3]
      simp only [List.range_zero, List.map_nil, List.append_nil]
      rw [List.pairwise_map]
      refine List.Pairwise.imp (fun {i j} hij => ?_) List.pairwise_lt_range
      have : (i : K) + 1 ≤ j := by exact_mod_cast hij
      rintro ⟨x, x1, x2, x3, x4⟩
      simp only at x1 x2 x3 x4
      nlinarith

example : ∃ (l w : TrainData ℚ), locoData .traxx = .ok l ∧ wagonData .cargoSGNS = .ok w := ⟨_, _, rfl, rfl⟩

/-- **C73, exactly** Analysing a signal leaves it as it was exactly if it is not converted or zero throughout. -/
theorem C73_iff {R : Type*} (analysis : List K → R) (convert : Bool) (signal : List K) :
    (hrsmMax analysis convert signal).2 = signal ↔ convert = false ∨ ∀ x ∈ signal, x = 0 := by
  cases convert with
  | false => simp [hrsmMax]
  | true =>
    rw [(C73_violated analysis signal).1]
    simp only [Bool.true_eq_false, false_or]
    induction signal with
    | nil => simp
    | cons a l ih =>
      simp only [List.map_cons, List.cons.injEq, List.forall_mem_cons, ih]
      refine and_congr_left' ⟨fun h => ?_, fun h => by rw [h, mul_zero]⟩
      linarith

example : (hrsmMax (fun l : List ℚ => l.length) true [0, 0]).2 = [0, 0] ∧ (hrsmMax (fun l : List ℚ => l.length) true [0, 1]).2 ≠ [0, 1] :=
  ⟨(C73_iff _ _ _).mpr (Or.inr (by simp)), fun e => by simpa using (C73_iff _ _ _).mp e⟩

/-- **C87, exactly** For dependent components with errors `a`, `b` and a measurement with errors `c`, `d` after no time: the reported variances
are `a² c² / (a² + c²) - a² b² / (a b + c d)` and the same for the second component, so they are non-negative only if the measurement is
poor enough. -/
theorem C87_iff (a b c d : K) (ha : 0 < a) (hb : 0 < b) (hc : 0 ≤ c) (hd : 0 ≤ d) (x0 y : Fin 2 → K) :
    ∃ k, (Kalman.new false x0 a b).step ⟨0, 0, 0, c, d, y⟩ = some k ∧
      (0 ≤ k.P 0 0 ↔ b ^ 2 * (a ^ 2 + c ^ 2) ≤ c ^ 2 * (a * b + c * d)) ∧ (0 ≤ k.P 1 1 ↔ a ^ 2 * (b ^ 2 + d ^ 2) ≤ d ^ 2 * (a * b + c * d)) := by
  have h1 : 0 < a ^ 2 + c ^ 2 := by positivity
  have h2 : 0 < a * b + c * d := by positivity
  have h3 : 0 < b ^ 2 + d ^ 2 := by positivity
  have hpred : predictP false 0 0 (covMatrix false a b) = !![a ^ 2, a * b; a * b, b ^ 2] := by
    obtain ⟨k1, k2, k3, k4⟩ := kA_entries (0 : K)
    apply diag_ext <;> simp [predictP, covMatrix, conj_entry, k1, k2, k3, k4]
  have hR : (covMatrix false c d : M2 K) = !![c ^ 2, c * d; c * d, d ^ 2] := by
    apply diag_ext <;> simp [covMatrix]
  have hone : ∀ p s : K, 0 < s → gainEntry p s = some (p / s) := by
    intro p s hs; unfold gainEntry; rw [if_neg hs.ne']
  have hgain : gain !![a ^ 2, a * b; a * b, b ^ 2] (!![c ^ 2, c * d; c * d, d ^ 2] : M2 K) =
      some !![a ^ 2 / (a ^ 2 + c ^ 2), a * b / (a * b + c * d); a * b / (a * b + c * d), b ^ 2 / (b ^ 2 + d ^ 2)] := by
    unfold gain
    simp only [kH_one, Matrix.transpose_one, Matrix.mul_one, Matrix.one_mul, Matrix.add_apply, Matrix.of_apply, Matrix.cons_val_zero,
      Matrix.cons_val_one, Matrix.cons_val', Matrix.cons_val_fin_one]
    rw [hone _ _ h1, hone _ _ h2, hone _ _ h3]
  refine ⟨⟨false, _, updateP _ !![a ^ 2, a * b; a * b, b ^ 2], _, _⟩, by
    unfold Kalman.step; simp only [Kalman.new, hpred, hR, hgain]; rfl, ?_, ?_⟩
  · simp only [updateP, kH_one, Matrix.mul_one]
    simp only [Matrix.mul_apply, Fin.sum_univ_two, Matrix.sub_apply, Matrix.of_apply, Matrix.cons_val_zero, Matrix.cons_val_one, Matrix.cons_val',
      Matrix.cons_val_fin_one, Matrix.one_apply_eq, ne_eq, zero_ne_one, not_false_eq_true, Matrix.one_apply_ne]
    have e : (1 - a ^ 2 / (a ^ 2 + c ^ 2)) * a ^ 2 + (0 - a * b / (a * b + c * d)) * (a * b) =
        a ^ 2 / ((a ^ 2 + c ^ 2) * (a * b + c * d)) * (c ^ 2 * (a * b + c * d) - b ^ 2 * (a ^ 2 + c ^ 2)) := by
      field_simp
      ring
    rw [e, mul_nonneg_iff_of_pos_left (by positivity), sub_nonneg]
  · simp only [updateP, kH_one, Matrix.mul_one]
    simp only [Matrix.mul_apply, Fin.sum_univ_two, Matrix.sub_apply, Matrix.of_apply, Matrix.cons_val_zero, Matrix.cons_val_one, Matrix.cons_val',
      Matrix.cons_val_fin_one, Matrix.one_apply_eq, ne_eq, one_ne_zero, not_false_eq_true, Matrix.one_apply_ne]
    have e : (0 - a * b / (a * b + c * d)) * (a * b) + (1 - b ^ 2 / (b ^ 2 + d ^ 2)) * b ^ 2 =
        b ^ 2 / ((b ^ 2 + d ^ 2) * (a * b + c * d)) * (d ^ 2 * (a * b + c * d) - a ^ 2 * (b ^ 2 + d ^ 2)) := by
      field_simp
      ring
    rw [e, mul_nonneg_iff_of_pos_left (by positivity), sub_nonneg]

/-- The errors of the example in the file, 20 and 5: with the measurement errors 25 and 6 of the example both variances are positive;
with measurement errors 2 and 5 the first one is negative. -/
example (x0 y : Fin 2 → ℚ) : (∃ k, (Kalman.new false x0 20 5).step ⟨0, 0, 0, 25, 6, y⟩ = some k ∧ 0 ≤ k.P 0 0) ∧
    ∃ k, (Kalman.new false x0 20 5).step ⟨0, 0, 0, 2, 5, y⟩ = some k ∧ k.P 0 0 < 0 := by
  obtain ⟨k, h1, h2, -⟩ := C87_iff (20 : ℚ) 5 25 6 (by norm_num) (by norm_num) (by norm_num) (by norm_num) x0 y
  obtain ⟨k', h1', h2', -⟩ := C87_iff (20 : ℚ) 5 2 5 (by norm_num) (by norm_num) (by norm_num) (by norm_num) x0 y
  exact ⟨⟨k, h1, h2.mpr (by norm_num)⟩, k', h1', not_le.mp fun h => absurd (h2'.mp h) (by norm_num)⟩

/-- **C102, exactly** Initialising a train keeps as many unknowns as its bodies have exactly if every body has a mass or inertia and a stiffness above
the threshold of trimming. -/
theorem C102_iff {H : Type*} [DecidableEq H] (hash : (Fin 3 → K) → H) (t : Train K) (x0 : ℕ → K) (g : K)
    (hsep : t.Separated x0) : (trimAll (t.system g (t.initialMesh hash x0))).N = t.numbering.next ↔ t.Massive := by
  refine ⟨fun hN => ?_, fun hm => (C102_trimmed_partial hash t x0 g hsep hm).1⟩
  by_contra hm
  have hnodes := trainSystem_nodes hash t x0 g hsep
  have hord : OrderedNumbering (t.system g (t.initialMesh hash x0)).nodes t.numbering.next := by
    rw [hnodes]; exact t.mesh_ordered
  set st := t.system g (t.initialMesh hash x0) with hst
  have hsize : t.numbering.next ≤ st.N := C34_size t
  have hob : ∀ o, t.numbering.next ≤ o → o < st.N → Obsolete st o := by
    intro o h1 h2
    right; left
    refine ⟨h2, ?_⟩
    have : t.massMatrix o o = 0 := (C100_diagonal t).2.2 o fun d hd h => by
      have := t.dof_lt d hd
      omega
    show |t.massMatrix o o| ≤ _
    rw [this]
    simp
  obtain ⟨o, ho, hobo⟩ : ∃ o < t.numbering.next, Obsolete st o := by
    unfold Train.Massive at hm
    push Not at hm
    obtain ⟨d, hd, h⟩ := hm
    refine ⟨t.dof d, t.dof_lt d hd, Or.inr ?_⟩
    have hlt : t.dof d < st.N := lt_of_lt_of_le (t.dof_lt d hd) hsize
    by_cases h1 : 1 / 10 ^ 8 < |t.bodyInertia d|
    · exact Or.inr ⟨hlt, h h1⟩
    · refine Or.inl ⟨hlt, ?_⟩
      show |t.massMatrix (t.dof d) (t.dof d)| ≤ _
      rw [(C100_diagonal t).1 d hd]
      exact not_lt.mp h1
  set rem := obsoleteIndices st.N st.nodes st.M st.Kg with hrem
  have hN' : (trimAll st).N = (keptIndices st.N rem).length := by
    have t2 : (trimAll st).N = 0 + keptCount rem (flatIdx st.nodes) := (recalcNodes_flat rem 0 st.nodes).2.1
    rw [t2, keptCount, keptIndices_eq st hsize hord rem fun o h1 h2 => (mem_obsoleteIndices st o).2 (hob o h1 h2)]
    simp
  have hnd : (keptIndices st.N rem).Nodup := List.Nodup.filter _ List.nodup_range
  have hsub : (keptIndices st.N rem).toFinset ⊆ (Finset.range t.numbering.next).erase o := by
    intro i hi
    simp only [keptIndices, List.mem_toFinset, List.mem_filter, List.mem_range, decide_eq_true_eq, hrem, mem_obsoleteIndices] at hi
    rw [Finset.mem_erase, Finset.mem_range]
    exact ⟨fun e => hi.2 (e ▸ hobo), not_le.mp fun h => hi.2 (hob i h hi.1)⟩
  have := Finset.card_le_card hsub
  rw [List.toFinset_card_of_nodup hnd, ← hN', hN, Finset.card_erase_of_mem (Finset.mem_range.mpr ho), Finset.card_range] at this
  omega

end

/-- The sprinter keeps all its unknowns. -/
example : (trimAll (sprinterTrain.system (981 / 100) (sprinterTrain.initialMesh roundedCoords sprinterStart))).N = sprinterTrain.numbering.next :=
  (C102_iff _ _ _ _ sprinter_separated).mpr sprinter_massive

/-- **C80, exactly** For contact elements on a rail at one level that never go back: every wheel is placed at its true distance exactly if the first
contact element starts at position zero or the rail is at level zero. -/
theorem C80_iff (x0 y z : ℝ) (xs dist : List ℝ) (hlen : dist.length = (x0 :: xs).length) (hmono : (x0 :: xs).Pairwise (· ≤ ·)) :
    (∀ k < dist.length, (wheelNodeDistances ((x0 :: xs).map fun x => (x, y, z)) dist).getD k 0 = dist.getD k 0 - (x0 :: xs).getD k 0) ↔
      x0 = 0 ∨ (y = 0 ∧ z = 0) := by
  have hclen : (cumDistances ((x0 :: xs).map fun x => (x, y, z))).length = (x0 :: xs).length := by
    unfold cumDistances
    rw [runningSums_length]
    have : ∀ (l : List (ℝ × ℝ × ℝ)) (a : ℝ × ℝ × ℝ), (segmentLengths (a :: l)).length = l.length := by
      intro l
      induction l with
      | nil => intro a; rfl
      | cons b l ih => intro a; simp [segmentLengths, ih]
    rw [List.map_cons, this]
    simp
  have val : ∀ k < dist.length, (wheelNodeDistances ((x0 :: xs).map fun x => (x, y, z)) dist).getD k 0 =
      dist.getD k 0 - (x0 :: xs).getD k 0 + (x0 - distance3 (0, 0, 0) (x0, y, z) * npSign x0) := by
    intro k hk
    have hc := cumDistances_horizontal x0 xs y z hmono k (by omega)
    unfold wheelNodeDistances
    simp only [List.map_cons, List.headD_cons]
    rw [List.map_cons] at hc hclen
    rw [List.getD_eq_getElem _ _ (by rw [List.length_zipWith]; omega), List.getElem_zipWith,
      ← List.getD_eq_getElem _ 0, ← List.getD_eq_getElem _ 0, hc]
    ring
  have first : (∀ k < dist.length, (wheelNodeDistances ((x0 :: xs).map fun x => (x, y, z)) dist).getD k 0 =
      dist.getD k 0 - (x0 :: xs).getD k 0) ↔ distance3 (0, 0, 0) (x0, y, z) * npSign x0 = x0 := by
    constructor
    · intro h
      have := h 0 (by rw [hlen]; simp)
      rw [val 0 (by rw [hlen]; simp)] at this
      linarith
    · intro h k hk
      rw [val k hk, h, sub_self, add_zero]
  rw [first]
  have hd : distance3 (0, 0, 0) (x0, y, z) = Real.sqrt (x0 ^ 2 + y ^ 2 + z ^ 2) := by
    unfold distance3
    congr 1
    ring
  have key : Real.sqrt (x0 ^ 2 + y ^ 2 + z ^ 2) = |x0| ↔ y = 0 ∧ z = 0 := by
    rw [← Real.sqrt_sq_eq_abs, Real.sqrt_inj (by positivity) (by positivity)]
    constructor
    · intro h
      constructor <;> nlinarith [sq_nonneg y, sq_nonneg z, pow_eq_zero_iff (n := 2) two_ne_zero (a := y)]
    · rintro ⟨rfl, rfl⟩
      ring
  rw [hd]
  rcases lt_trichotomy x0 0 with h | h | h
  · rw [npSign_of_neg h, ← key, abs_of_neg h]
    constructor
    · intro e; right; linarith
    · rintro (e | e)
      · exact absurd e h.ne
      · linarith
  · subst h; simp [npSign]
  · rw [npSign_of_pos h, ← key, abs_of_pos h]
    constructor
    · intro e; right; linarith
    · rintro (e | e)
      · exact absurd e h.ne'
      · linarith

example : ∀ k < 3, (wheelNodeDistances ([0, 0, (1 : ℝ)].map fun x => (x, 4, 0)) [0, 1 / 2, 3 / 2]).getD k 0 =
    [0, 1 / 2, (3 : ℝ) / 2].getD k 0 - [0, 0, (1 : ℝ)].getD k 0 :=
  (C80_iff 0 4 0 [0, 1] [0, 1 / 2, 3 / 2] rfl (by simp)).mpr (Or.inl rfl)

/-- **C83, what happens** After `n` initialisations the generated irregularities are contained `n` times. -/
theorem C83_history (nWheels nTime : ℕ) (gen user : List (List ℝ)) (w k : ℕ)
    (hu : (user.getD w []).length = nTime) (hg : (gen.getD w []).length = nTime) (hlu : w < user.length) (hlg : w < gen.length)
    (hk : k < nTime) (n : ℕ) :
    (((fun c => addIrregularities nWheels nTime true gen (some c))^[n] user).getD w []).getD k 0 =
      (user.getD w []).getD k 0 + n * (gen.getD w []).getD k 0 := by
  suffices h : ∀ n, w < ((fun c => addIrregularities nWheels nTime true gen (some c))^[n] user).length ∧
      (((fun c => addIrregularities nWheels nTime true gen (some c))^[n] user).getD w []).length = nTime ∧
      (((fun c => addIrregularities nWheels nTime true gen (some c))^[n] user).getD w []).getD k 0 =
        (user.getD w []).getD k 0 + n * (gen.getD w []).getD k 0 from (h n).2.2
  intro n
  induction n with
  | zero => exact ⟨hlu, hu, by simp⟩
  | succ n ih =>
    obtain ⟨i1, i2, i3⟩ := ih
    rw [Function.iterate_succ_apply']
    set c := (fun c => addIrregularities nWheels nTime true gen (some c))^[n] user with hc
    have hl : w < (addIrregularities nWheels nTime true gen (some c)).length := by
      simp only [addIrregularities, Option.getD_some, if_true, List.length_zipWith]; omega
    refine ⟨hl, ?_, ?_⟩
    · rw [List.getD_eq_getElem _ _ i1] at i2
      rw [List.getD_eq_getElem _ _ hlg] at hg
      rw [List.getD_eq_getElem _ _ hl]
      simp only [addIrregularities, Option.getD_some, if_true, List.getElem_zipWith, List.length_zipWith, i2, hg, min_self]
    · rw [C83_first_partial nWheels nTime true gen c w k i2 hg i1 hlg hk, i3]
      push_cast
      simp only [if_true]
      ring

/-- **C83, exactly** The irregularities do not depend on the number of initialisations exactly if none are generated. -/
theorem C83_iff (nWheels nTime : ℕ) (gen user : List (List ℝ)) (w k : ℕ)
    (hu : (user.getD w []).length = nTime) (hg : (gen.getD w []).length = nTime) (hlu : w < user.length) (hlg : w < gen.length)
    (hk : k < nTime) :
    (∀ n ≥ 1, (((fun c => addIrregularities nWheels nTime true gen (some c))^[n] user).getD w []).getD k 0 =
      (user.getD w []).getD k 0 + (gen.getD w []).getD k 0) ↔ (gen.getD w []).getD k 0 = 0 := by
  have h := C83_history nWheels nTime gen user w k hu hg hlu hlg hk
  constructor
  · intro e
    have := e 2 (by norm_num)
    rw [h 2] at this
    push_cast at this
    linarith
  · intro e n _
    rw [h n, e]
    ring

example : (((fun c => addIrregularities 1 2 true [[1, 2]] (some c))^[3] [[10, 20]]).getD 0 []).getD 1 0 = 26 := by
  rw [C83_history 1 2 [[1, 2]] [[10, 20]] 0 1 rfl rfl (by simp) (by simp) (by norm_num) 3]
  norm_num

/-- **C89, exactly** The reported frequencies are the superposed ones exactly if there is at most one or they are all the same. -/
theorem C89_iff (p : IrregPar) : (∀ n < p.N, p.reportedOmega[n]? = some (p.omega n)) ↔ p.N ≤ 1 ∨ p.fMin = p.fMax := by
  constructor
  · intro h
    by_contra hn
    push Not at hn
    obtain ⟨w, h1, h2⟩ := C89_violated p hn.2 1 one_pos hn.1
    exact h2 (Option.some.inj (h1.symm.trans (h 1 hn.1)))
  · rintro (h | h) n hn
    · obtain rfl : n = 0 := by omega
      exact C89_first_partial p hn
    · rcases Nat.eq_zero_or_pos n with rfl | h0
      · exact C89_first_partial p hn
      · simp only [IrregPar.reportedOmega, IrregPar.omega, IrregPar.deltaOmega]
        rw [List.getElem?_map, List.getElem?_range hn, Option.map_some, if_neg (by omega), h]
        simp

example : ¬ ∀ n < 2000, (⟨2, 500, 2000, 2095 / 100000000, 8242 / 10000⟩ : IrregPar).reportedOmega[n]? =
    some ((⟨2, 500, 2000, 2095 / 100000000, 8242 / 10000⟩ : IrregPar).omega n) := fun h => by
  rcases (C89_iff ⟨2, 500, 2000, 2095 / 100000000, 8242 / 10000⟩).mp h with h | h
  · norm_num at h
  · norm_num at h

end Rose
