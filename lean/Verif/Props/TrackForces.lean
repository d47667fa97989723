/-
C126: the element forces that a static calculation reports for a generated track.
-/
import Verif.Model.ElementForces
import Verif.Spec.TrackForces
import Verif.Props.Results
import Verif.Props.Rotation

set_option linter.unusedSectionVars false

namespace Rose
open Finset

section
variable {K : Type*} [Field K] [LinearOrder K] [IsStrictOrderedRing K]

theorem matrixEntries_eq {m : ℕ} (a : Matrix (Fin m) (Fin m) K) : matrixEntries a = ofMat a := rfl

theorem stackedDisplacements_eq (row : List (NodeRow K)) (e : ℕ × ℕ) :
    stackedDisplacements row e = sixValues (Spec.fieldOfRows row NodeRow.displacement) e := rfl

theorem elementForces_some (p : AssemblyPart K) (a : ℕ × ℕ → K) (h : p.stiffness = some a) (row : List (NodeRow K)) :
    p.elementForces row = p.elements.map fun e => elementForce
      ⟨Matrix.of fun i j => p.reshaped a (i, j), p.act, p.elements.map (·.2)⟩ (stackedDisplacements row e.1) := by
  unfold AssemblyPart.elementForces AssemblyPart.forceData
  rw [h]
  rfl

theorem getLast_of_all {α : Type*} {l : List α} {a : α} (hne : l ≠ []) (h : ∀ x ∈ l, x = a) : l.getLast? = some a := by
  rw [List.getLast?_eq_some_getLast hne, h _ (List.getLast_mem hne)]

/-- The forces of a part of vertical springs whose elements point down: tension of the springs, nothing else. -/
theorem rod_elementForces (v : RodValues K) (es : List (ℕ × ℕ)) (nodes : List ℕ) (row : List (NodeRow K)) :
    (rodAssembly v (downElements es) nodes).elementForces row = es.map fun e =>
      ![v.stiffness * (Spec.fieldOfRows row NodeRow.displacement e.1 1 - Spec.fieldOfRows row NodeRow.displacement e.2 1),
        0, 0] := by
  rw [elementForces_some _ (matrixEntries (rodStiffness v.stiffness)) rfl]
  show (downElements es).map _ = _
  rcases eq_or_ne es [] with rfl | hne
  · rfl
  rw [downElements, List.map_map]
  apply List.map_congr_left
  intro e _
  simp only [Function.comp]
  rw [C16_reported (c := 0) (s := -1)]
  · have hre : (Matrix.of fun i j : Fin 6 => (rodAssembly v (es.map fun e => (e, ((0 : K), (-1 : K)))) nodes).reshaped
        (matrixEntries (rodStiffness v.stiffness)) (i, j)) = rodEmbed (rodStiffness v.stiffness) := by
      ext i j
      rw [← reshape_rod]
      show reshapeAux (if (es.map fun e => (e, ((0 : K), (-1 : K)))).length > 0 then 2 else 1) _ _ _ = _
      rw [if_pos (by rw [List.length_map]; exact List.length_pos_of_ne_nil hne)]
      rfl
    dsimp only
    rw [hre, rodStiffness_eq, rodEmbed_eq, stackedDisplacements_eq]
    ext k
    unfold trueElementForce
    fin_cases k
    · simp [rodAssembly, Fin.sum_univ_six, Spec.toLocal, sixValues]
      ring
    · simp [rodAssembly]
    · simp [rodAssembly]
  · apply getLast_of_all
    · simpa [rodAssembly] using hne
    · intro x hx
      simp only [rodAssembly, List.map_map, List.mem_map, Function.comp] at hx
      obtain ⟨_, _, rfl⟩ := hx
      rfl
  · norm_num

/-- The forces of a part of horizontal beams. -/
theorem beam_elementForces (b : BeamPart K) (es : List (ℕ × ℕ)) (nodes : List ℕ) (row : List (NodeRow K)) :
    (beamAssembly b (horizontalElements es) nodes).elementForces row = es.map fun e =>
      trueElementForce b.stiffness ![true, true, true] 1 0 (sixValues (Spec.fieldOfRows row NodeRow.displacement) e) := by
  rw [elementForces_some _ (matrixEntries b.stiffness) rfl]
  show (horizontalElements es).map _ = _
  rcases eq_or_ne es [] with rfl | hne
  · rfl
  rw [horizontalElements, List.map_map]
  apply List.map_congr_left
  intro e _
  simp only [Function.comp]
  rw [C16_reported (c := 1) (s := 0)]
  · have hre : (Matrix.of fun i j : Fin 6 => (beamAssembly b (es.map fun e => (e, ((1 : K), (0 : K)))) nodes).reshaped
        (matrixEntries b.stiffness) (i, j)) = b.stiffness := by
      ext i j
      rw [← reshape_all_active b.stiffness]
      show reshapeAux (if (es.map fun e => (e, ((1 : K), (0 : K)))).length > 0 then 2 else 1) _ _ _ = _
      rw [if_pos (by rw [List.length_map]; exact List.length_pos_of_ne_nil hne)]
      rfl
    dsimp only
    rw [hre, neg_zero]
    rfl
  · apply getLast_of_all
    · simpa [beamAssembly] using hne
    · intro x hx
      simp only [beamAssembly, List.map_map, List.mem_map, Function.comp] at hx
      obtain ⟨_, _, rfl⟩ := hx
      rfl
  · norm_num

theorem sleeper_elementForces (m : K) (nodes : List ℕ) (row : List (NodeRow K)) :
    (sleeperAssembly m nodes).elementForces row = [] := by
  rw [elementForces_some _ _ rfl]
  rfl

/-- The work of a beam without end springs in a virtual displacement, by its axial force, shear force and mean moment. -/
theorem beam_bilinear (b : BeamPart K) (h1 : b.s1 = .inf) (h2 : b.s2 = .inf) (w z : Fin 6 → K) :
    bilinear b.stiffness w z =
      trueElementForce b.stiffness ![true, true, true] 1 0 z 0 * (w 0 - w 3) +
      trueElementForce b.stiffness ![true, true, true] 1 0 z 1 * (w 1 - w 4 + b.l / 2 * (w 2 + w 5)) +
      trueElementForce b.stiffness ![true, true, true] 1 0 z 2 * (w 2 - w 5) := by
  have hz : Spec.toLocal 1 0 z = z := by
    ext i; fin_cases i <;> simp [Spec.toLocal]
  rw [BeamPart.stiffness, h1, h2, beamStiffness_eq]
  simp only [fixity, trueElementForce, hz]
  unfold bilinear
  generalize b.E * b.I / ((1 + timoshenkoFactor b) * b.l ^ 3) = q
  generalize b.A / b.I * (1 + timoshenkoFactor b) * b.l ^ 2 = p
  generalize timoshenkoFactor b = f
  simp [Fin.sum_univ_six]
  ring


theorem listSum_range (n : ℕ) (f : ℕ → K) : ((List.range n).map f).sum = ∑ i ∈ range n, f i := by
  induction n with
  | zero => rfl
  | succ n ih => rw [List.range_succ, List.map_append, List.sum_append, ih, Finset.sum_range_succ]; simp

theorem getD_map_range (n : ℕ) (f : ℕ → Fin 3 → K) (i : ℕ) (hi : i < n) : ((List.range n).map f).getD i 0 = f i := by
  simp [hi]

theorem sum_step (N : ℕ) (F : ℕ → K) (k : ℕ) :
    ∑ j ∈ range (N - 1), F j * ((if j = k then 1 else 0) - (if j + 1 = k then 1 else 0)) =
      Spec.onRail N F k - Spec.leftOf N F k := by
  simp only [mul_sub, Finset.sum_sub_distrib, mul_ite, mul_one, mul_zero]
  congr 1
  · rw [Finset.sum_ite_eq']
    unfold Spec.onRail
    simp only [Finset.mem_range]
    exact if_congr (by omega) rfl rfl
  · unfold Spec.leftOf Spec.onRail
    rcases k with _ | k
    · simp
    · simp only [Nat.add_right_cancel_iff, Finset.sum_ite_eq', Finset.mem_range, Nat.add_sub_cancel]
      rw [if_neg (Nat.succ_ne_zero k)]
      exact if_congr (by omega) rfl rfl

theorem sum_step_add (N : ℕ) (F : ℕ → K) (k : ℕ) :
    ∑ j ∈ range (N - 1), F j * ((if j = k then 1 else 0) + (if j + 1 = k then 1 else 0)) =
      Spec.onRail N F k + Spec.leftOf N F k := by
  simp only [mul_add, Finset.sum_add_distrib, mul_ite, mul_one, mul_zero]
  congr 1
  · rw [Finset.sum_ite_eq']
    unfold Spec.onRail
    simp only [Finset.mem_range]
    exact if_congr (by omega) rfl rfl
  · unfold Spec.leftOf Spec.onRail
    rcases k with _ | k
    · simp
    · simp only [Nat.add_right_cancel_iff, Finset.sum_ite_eq', Finset.mem_range, Nat.add_sub_cancel]
      rw [if_neg (Nat.succ_ne_zero k)]
      exact if_congr (by omega) rfl rfl

theorem sum_padBelow (n r : ℕ) (hr : 0 < r) (F : ℕ → K) (k : ℕ) (hk : k < n * r) :
    ∑ i ∈ range n, F i * (if i * r = k then 1 else 0) = Spec.padBelow r F k := by
  unfold Spec.padBelow
  split_ifs with h
  · obtain ⟨q, rfl⟩ := h
    have hq : q < n := by
      rw [Nat.mul_comm] at hk
      exact Nat.lt_of_mul_lt_mul_right hk
    rw [Nat.mul_div_cancel_left _ hr, Finset.sum_eq_single_of_mem q (Finset.mem_range.mpr hq)]
    · simp [Nat.mul_comm]
    · intro b _ hb
      rw [if_neg, mul_zero]
      intro hc
      rw [Nat.mul_comm] at hc
      exact hb (Nat.eq_of_mul_eq_mul_left hr hc)
  · apply Finset.sum_eq_zero
    intro i _
    rw [if_neg, mul_zero]
    rintro rfl
    exact h (Dvd.intro_left i rfl)

/-- Virtual work of all motions of rail and sleepers, with the rail ends held in x, is balance at every node. -/
theorem balanced_of_work (n r : ℕ) (hr : 0 < r) (l : K) (F : Spec.InternalForces K) (P : ℕ → Fin 3 → K) (Q : ℕ → K)
    (hw : ∀ (f : ℕ → Fin 3 → K) (g : ℕ → K), f 0 0 = 0 → f (n * r - 1) 0 = 0 →
      ∑ k ∈ range (n * r - 1), (F.axial k * (f k 0 - f (k + 1) 0) +
        F.shear k * (f k 1 - f (k + 1) 1 + l / 2 * (f k 2 + f (k + 1) 2)) + F.moment k * (f k 2 - f (k + 1) 2)) +
      ∑ i ∈ range n, F.pad i * (f (i * r) 1 - g i) + ∑ i ∈ range n, F.soil i * g i =
        ∑ k ∈ range (n * r), (f k 0 * P k 0 + f k 1 * P k 1 + f k 2 * P k 2) + ∑ i ∈ range n, g i * Q i) :
    Spec.Balanced n r l F P Q := by
  refine ⟨fun k hk => ?_, fun k h1 h2 => ?_, fun k hk => ?_, fun i hi => ?_, ?_, ?_⟩
  · have := hw (fun j => ![0, if j = k then 1 else 0, 0]) (fun _ => 0) rfl rfl
    simp only [Matrix.cons_val_zero, Matrix.cons_val_one, Matrix.cons_val_two, Matrix.tail_cons, Matrix.head_cons, sub_zero,
      mul_zero, add_zero, zero_add, zero_mul, Finset.sum_const_zero, sub_self, Matrix.cons_val] at this
    rw [sum_step, sum_padBelow n r hr _ k hk] at this
    simpa [hk] using this
  · have := hw (fun j => ![if j = k then 1 else 0, 0, 0]) (fun _ => 0)
      (by simp only [Matrix.cons_val_zero]; rw [if_neg (by omega)])
      (by simp only [Matrix.cons_val_zero]; rw [if_neg (by omega)])
    simp only [Matrix.cons_val_zero, Matrix.cons_val_one, Matrix.cons_val_two, Matrix.tail_cons, Matrix.head_cons, sub_zero,
      mul_zero, add_zero, zero_add, zero_mul, Finset.sum_const_zero, sub_self, Matrix.cons_val] at this
    rw [sum_step] at this
    have hk : k < n * r := by omega
    simpa [hk] using this
  · have := hw (fun j => ![0, 0, if j = k then 1 else 0]) (fun _ => 0) rfl rfl
    simp only [Matrix.cons_val_zero, Matrix.cons_val_one, Matrix.cons_val_two, Matrix.tail_cons, Matrix.head_cons, sub_zero,
      mul_zero, add_zero, zero_add, zero_mul, Finset.sum_const_zero, sub_self, Matrix.cons_val, mul_left_comm _ (l / 2)] at this
    rw [Finset.sum_add_distrib, ← Finset.mul_sum, sum_step, sum_step_add] at this
    have e : ∑ j ∈ range (n * r), (if j = k then (1 : K) else 0) * P j 2 = P k 2 := by simp [hk]
    rw [e] at this
    linear_combination this
  · have := hw (fun _ => 0) (fun j => if j = i then 1 else 0) rfl rfl
    simp [hi] at this
    linear_combination this
  · have := hw (fun _ => ![0, 1, 0]) (fun _ => 1) rfl rfl
    simpa using this
  · have := hw (fun k => ![0, k * l, 1]) (fun i => (i * r : ℕ) * l) rfl rfl
    have e : ∀ k : ℕ, F.shear k * ((k : K) * l - ((k + 1 : ℕ) : K) * l + l / 2 * (1 + 1)) = 0 := by
      intro k; push_cast; ring
    simp only [Matrix.cons_val_zero, Matrix.cons_val_one, Matrix.cons_val_two, Matrix.tail_cons, Matrix.head_cons, sub_zero,
      mul_zero, add_zero, zero_add, zero_mul, Finset.sum_const_zero, sub_self, Matrix.cons_val, e, one_mul] at this
    simpa only [mul_comm (F.soil _)] using this

/-! ### Work is linear in the virtual displacement -/

theorem localWork_combine (m : ℕ) (act : Fin 3 → Bool) (a : ℕ × ℕ → K) (c : K) (w1 w2 z : Fin m → Fin 3 → K) :
    Spec.localWork m act a (fun i k => w1 i k + c * w2 i k) z = Spec.localWork m act a w1 z + c * Spec.localWork m act a w2 z := by
  unfold Spec.localWork
  simp only [Finset.mul_sum, ← Finset.sum_add_distrib]
  refine Finset.sum_congr rfl fun i _ => Finset.sum_congr rfl fun j _ => Finset.sum_congr rfl fun k _ =>
    Finset.sum_congr rfl fun l _ => ?_
  split_ifs <;> ring

theorem inElementAxes_combine (x y c : K) (w1 w2 : Spec.NodalField K) (e : ℕ × ℕ) :
    Spec.inElementAxes x y (fun i k => w1 i k + c * w2 i k) e =
      fun i k => Spec.inElementAxes x y w1 e i k + c * Spec.inElementAxes x y w2 e i k := by
  funext i k
  fin_cases k <;> simp [Spec.inElementAxes] <;> ring

theorem listSum_combine {α : Type*} (l : List α) (c : K) (f g : α → K) :
    (l.map fun x => f x + c * g x).sum = (l.map f).sum + c * (l.map g).sum := by
  induction l with
  | nil => simp
  | cons x l ih => simp only [List.map_cons, List.sum_cons, ih]; ring

theorem partWork_combine (p : AssemblyPart K) (a : ℕ × ℕ → K) (c : K) (w1 w2 u : Spec.NodalField K) :
    Spec.partWork p a (fun i k => w1 i k + c * w2 i k) u = Spec.partWork p a w1 u + c * Spec.partWork p a w2 u := by
  unfold Spec.partWork
  split_ifs
  · rw [← listSum_combine]
    congr 1
    exact List.map_congr_left fun m _ => localWork_combine 1 p.act a c (fun _ => w1 m) (fun _ => w2 m) _
  · rw [← listSum_combine]
    congr 1
    refine List.map_congr_left fun e _ => ?_
    rw [inElementAxes_combine, localWork_combine]

theorem systemWork_combine (matrix : AssemblyPart K → Option (ℕ × ℕ → K)) (ps : List (AssemblyPart K)) (c : K)
    (w1 w2 u : Spec.NodalField K) :
    Spec.systemWork matrix ps (fun i k => w1 i k + c * w2 i k) u =
      Spec.systemWork matrix ps w1 u + c * Spec.systemWork matrix ps w2 u := by
  unfold Spec.systemWork
  rw [← listSum_combine]
  congr 1
  refine List.map_congr_left fun p _ => ?_
  cases matrix p with
  | none => simp
  | some a => exact partWork_combine p a c w1 w2 u

/-- A functional that is linear in the virtual displacement is the sum of its values for the single dofs. -/
theorem functional_sum (W : Spec.NodalField K → K)
    (hW : ∀ (c : K) (w1 w2 : Spec.NodalField K), W (fun i k => w1 i k + c * w2 i k) = W w1 + c * W w2) (P : ℕ → ℕ) (N : ℕ)
    (f : ℕ → Fin 3 → K) :
    W (fun m c => ∑ k ∈ range N, if P k = m then f k c else 0) =
      ∑ k ∈ range N, ∑ c, f k c * W (Spec.unitField (P k) c) := by
  have h0 : W (fun _ _ => 0) = 0 := by
    have := hW 1 (fun _ _ => 0) (fun _ _ => 0)
    simp only [mul_zero, add_zero, one_mul] at this
    linear_combination -this
  induction N with
  | zero => simpa using h0
  | succ N ih =>
    rw [Finset.sum_range_succ, ← ih]
    have e : (fun (m : ℕ) (c : Fin 3) => ∑ k ∈ range (N + 1), if P k = m then f k c else 0) = fun m c =>
        (((∑ k ∈ range N, if P k = m then f k c else 0) + f N 0 * Spec.unitField (P N) 0 m c) +
          f N 1 * Spec.unitField (P N) 1 m c) + f N 2 * Spec.unitField (P N) 2 m c := by
      funext m c
      rw [Finset.sum_range_succ]
      by_cases hm : P N = m
      · subst hm
        fin_cases c <;> simp [Spec.unitField]
      · have hm' : ¬ m = P N := fun h => hm h.symm
        simp [Spec.unitField, hm, hm']
    rw [e, hW, hW, hW, Fin.sum_univ_three]
    ring

theorem loadWork_unit (loads : List (NodalLoad K)) (m : ℕ) (d : Fin 3) :
    Spec.loadWork loads (Spec.unitField m d) = Spec.loadOn loads m d := by
  unfold Spec.loadWork Spec.loadOn
  congr 1
  refine List.map_congr_left fun l _ => Finset.sum_congr rfl fun j _ => ?_
  rw [Finset.sum_eq_single d]
  · by_cases h : l.nodes.getD j 0 = m <;> by_cases h2 : l.act d = true <;> simp [Spec.unitField, h, h2]
  · intro b _ hb
    simp [Spec.unitField, hb]
  · simp

theorem loadWork_combine (loads : List (NodalLoad K)) (c : K) (w1 w2 : Spec.NodalField K) :
    Spec.loadWork loads (fun i k => w1 i k + c * w2 i k) = Spec.loadWork loads w1 + c * Spec.loadWork loads w2 := by
  unfold Spec.loadWork
  rw [← listSum_combine]
  congr 1
  refine List.map_congr_left fun l _ => ?_
  rw [Finset.mul_sum, ← Finset.sum_add_distrib]
  refine Finset.sum_congr rfl fun j _ => ?_
  rw [Finset.mul_sum, ← Finset.sum_add_distrib]
  refine Finset.sum_congr rfl fun d _ => ?_
  split_ifs <;> ring

end

section
variable {H : Type*} [DecidableEq H] {hash : (Fin 3 → ℝ) → H} {n r : ℕ} {d h : ℝ} {t : HorizontalTrack ℝ}

theorem Generated.fieldAt (g : Generated hash n r d h t) (N : ℕ) (hN : N ≤ n * r + n + n) (f : ℕ → Fin 3 → ℝ) (k : ℕ)
    (hk : k < n * r + n + n) (c : Fin 3) :
    railField t.position N f (t.position k) c = if k < N then f k c else 0 := by
  obtain ⟨-, -, hinj⟩ := g.position
  unfold railField
  split_ifs with h1
  · rw [Finset.sum_eq_single_of_mem k (Finset.mem_range.mpr h1)]
    · simp
    · intro b hb hne
      rw [Finset.mem_range] at hb
      rw [if_neg]
      exact fun hc => hne (hinj _ (by omega) _ (by omega) hc)
  · apply Finset.sum_eq_zero
    intro b hb
    rw [Finset.mem_range] at hb
    rw [if_neg]
    intro hc
    have := hinj _ (by omega) _ hk hc
    omega

/-- Motions of rail nodes and sleepers that the supports of a generated track allow. -/
theorem Generated.admissible (g : Generated hash n r d h t) (v : TrackValues) (hv : v.Valid) (hm : v.NonNeg)
    (hp : RailPresent { v.rail with l := d / r }) (hs : 1 / 10 ^ 8 < v.sleeperMass) (hk : 1 / 10 ^ 8 < v.pad.stiffness)
    (f : ℕ → Fin 3 → ℝ) (w : ℕ → ℝ) (h0 : f 0 0 = 0) (h1 : f (n * r - 1) 0 = 0) :
    Spec.Admissible (generatedInput t n r d v true)
      (railField t.position (n * r + n) fun k c => if k < n * r then f k c else if c = 1 then w (k - n * r) else 0) := by
  obtain ⟨hlt, hsurj, hinj⟩ := g.position
  intro i hi c hc
  obtain ⟨k, hkn, rfl⟩ := hsurj i hi
  obtain ⟨st, hst⟩ := C106_succeeds (generatedInput t n r d v true) (g.mesh v true) freshFlags
  have := (C106_unknowns_partial _ (g.mesh v true) (g.aligned v true) st hst _ (hlt k hkn) c).mpr hc
  rw [g.unknowns v hv hm hp hs hk true st hst k hkn c] at this
  rw [g.fieldAt _ (by omega) _ k hkn c]
  by_cases a2 : k < n * r + n
  · rw [if_pos a2]
    by_cases a1 : k < n * r
    · rw [if_pos a1] at this ⊢
      obtain ⟨-, (rfl | rfl), rfl⟩ := this
      · exact h0
      · exact h1
    · rw [if_neg a1] at this ⊢
      rw [if_neg (this a2)]
  · rw [if_neg a2]

/-- The forces of the elements of a generated track, if their work in every motion of rail and sleepers that the supports
allow is that of the forces `P` on the rail nodes and `Q` on the sleepers. -/
theorem Generated.forces (g : Generated hash n r d h t) (v : TrackValues) (hv : v.Valid) (row : List (NodeRow ℝ))
    (hadm : Spec.Admissible (generatedInput t n r d v true) (Spec.fieldOfRows row NodeRow.displacement))
    (P : ℕ → Fin 3 → ℝ) (Q : ℕ → ℝ)
    (hwork : ∀ (f : ℕ → Fin 3 → ℝ) (w : ℕ → ℝ), f 0 0 = 0 → f (n * r - 1) 0 = 0 →
      Spec.systemWork AssemblyPart.stiffness (generatedParts t n r d v).parts (railField t.position (n * r + n)
        fun k c => if k < n * r then f k c else if c = 1 then w (k - n * r) else 0)
        (Spec.fieldOfRows row NodeRow.displacement) =
      ∑ k ∈ range (n * r), (f k 0 * P k 0 + f k 1 * P k 1 + f k 2 * P k 2) + ∑ i ∈ range n, w i * Q i) :
    ∃ rail pads soil,
      (generatedInput t n r d v true).parts.map (fun p => p.elementForces row) = [rail, pads, [], soil] ∧
      rail.length + 1 = n * r ∧ pads.length = n ∧ soil.length = n ∧
      (∀ i < n, ∃ a b c, t.pads[i]? = some (a, b) ∧ t.soil[i]? = some (b, c) ∧
        pads[i]? = some ![v.pad.stiffness * (Spec.fieldOfRows row NodeRow.displacement (t.position a) 1 -
            Spec.fieldOfRows row NodeRow.displacement (t.position b) 1), 0, 0] ∧
        soil[i]? = some ![v.soil.stiffness * Spec.fieldOfRows row NodeRow.displacement (t.position b) 1, 0, 0]) ∧
      Spec.Balanced n r (d / r)
        ⟨fun k => rail.getD k 0 0, fun k => rail.getD k 0 1, fun k => rail.getD k 0 2, fun i => pads.getD i 0 0,
          fun i => soil.getD i 0 0⟩ P Q := by
  have hr := g.r_pos
  obtain ⟨hlt, hsurj, hinj⟩ := g.position
  set u := Spec.fieldOfRows row NodeRow.displacement with hu
  have ht' := g.track
  rw [createHorizontalTrack_eq hash n r hr d h] at ht'
  simp only [Except.ok.injEq] at ht'
  have hpads : t.pads = (List.range n).map fun i => (i * r, n * r + i) := by rw [← ht']
  have hsoil : t.soil = (List.range n).map fun i => (n * r + i, n * r + n + i) := by rw [← ht']
  clear ht'
  have hir : ∀ i < n, i * r < n * r := fun i hi => Nat.mul_lt_mul_of_pos_right hi hr
  have hbot : ∀ i < n, u (t.position (n * r + n + i)) 1 = 0 := by
    intro i hi
    apply hadm _ (hlt _ (by omega))
    left
    show Spec.Supported (generatedSupports t n r true) _ _
    rw [g.supported true _ (by omega)]
    left; omega
  set beam : BeamPart ℝ := { v.rail with l := d / r } with hbeam
  set F : ℕ → Fin 3 → ℝ := fun k => trueElementForce beam.stiffness ![true, true, true] 1 0
    (sixValues u (t.position k, t.position (k + 1))) with hF
  refine ⟨(List.range (n * r - 1)).map F,
    (List.range n).map fun i => ![v.pad.stiffness * (u (t.position (i * r)) 1 - u (t.position (n * r + i)) 1), 0, 0],
    (List.range n).map fun i => ![v.soil.stiffness * u (t.position (n * r + i)) 1, 0, 0], ?_, ?_, ?_, ?_, ?_, ?_⟩
  · show List.map _ (generatedParts t n r d v).parts = _
    unfold TrackParts.parts generatedParts
    simp only [List.map_cons, List.map_nil, rod_elementForces, beam_elementForces, sleeper_elementForces, chainOf_map,
      chainOf_range, List.map_map]
    congr 1
    congr 1
    congr 1
    congr 1
    apply List.map_congr_left
    intro i hi
    rw [List.mem_range] at hi
    simp only [Function.comp]
    rw [← hu, hbot i hi, sub_zero]
  · have := g.rails
    simp; omega
  · simp
  · simp
  · intro i hi
    refine ⟨i * r, n * r + i, n * r + n + i, ?_, ?_, ?_, ?_⟩ <;> simp [hpads, hsoil, hi]
  · apply balanced_of_work n r hr
    intro f w h0 hl
    have hw := hwork f w h0 hl
    set W := railField t.position (n * r + n)
      (fun k c => if k < n * r then f k c else if c = 1 then w (k - n * r) else 0) with hW
    have w1 : ∀ k < n * r, ∀ c, W (t.position k) c = f k c := by
      intro k hk c
      rw [hW, g.fieldAt _ (by omega) _ k (by omega), if_pos (by omega), if_pos hk]
    have w2 : ∀ i < n, W (t.position (n * r + i)) 1 = w i := by
      intro i hi
      rw [hW, g.fieldAt _ (by omega) _ _ (by omega), if_pos (by omega), if_neg (by omega), if_pos rfl]
      congr 1; omega
    have w3 : ∀ i < n, W (t.position (n * r + n + i)) 1 = 0 := by
      intro i hi
      rw [hW, g.fieldAt _ (by omega) _ _ (by omega), if_neg (by omega)]
    rw [track_stiffness_work _ (g.nonEmpty v)] at hw
    simp only [generatedParts, chainOf_map, chainOf_range, List.map_map, List.map_cons, List.map_nil, List.sum_cons,
      List.sum_nil, add_zero, listSum_range, Function.comp_def] at hw
    rw [← hw]
    congr 1
    congr 1
    · refine Finset.sum_congr rfl fun k hk => ?_
      rw [Finset.mem_range] at hk
      have hb := beam_bilinear beam hv.s1 hv.s2 (sixValues W (t.position k, t.position (k + 1)))
        (sixValues u (t.position k, t.position (k + 1)))
      simp only [sixValues, Matrix.cons_val_zero, Matrix.cons_val_one, Matrix.cons_val, w1 k (by omega),
        w1 (k + 1) (by omega)] at hb
      dsimp only
      rw [getD_map_range _ _ _ hk]
      simp only [sixValues, w1 k (by omega), w1 (k + 1) (by omega)]
      exact hb.symm
    · refine Finset.sum_congr rfl fun i hi => ?_
      rw [Finset.mem_range] at hi
      dsimp only
      rw [getD_map_range _ _ _ hi, w1 _ (hir i hi), w2 i hi]
      simp only [Matrix.cons_val_zero]
      ring
    · refine Finset.sum_congr rfl fun i hi => ?_
      rw [Finset.mem_range] at hi
      dsimp only
      rw [getD_map_range _ _ _ hi, w2 i hi, w3 i hi, hbot i hi]
      simp only [Matrix.cons_val_zero]
      ring

/-- A linear functional in the motions of rail and sleepers, by the nodes of the track. -/
theorem Generated.functional (g : Generated hash n r d h t) (W : Spec.NodalField ℝ → ℝ)
    (hW : ∀ (c : ℝ) (w1 w2 : Spec.NodalField ℝ), W (fun i k => w1 i k + c * w2 i k) = W w1 + c * W w2)
    (f : ℕ → Fin 3 → ℝ) (w : ℕ → ℝ) :
    W (railField t.position (n * r + n) fun k c => if k < n * r then f k c else if c = 1 then w (k - n * r) else 0) =
      ∑ k ∈ range (n * r), (f k 0 * W (Spec.unitField (t.position (t.rail.getD k 0)) 0) +
        f k 1 * W (Spec.unitField (t.position (t.rail.getD k 0)) 1) +
        f k 2 * W (Spec.unitField (t.position (t.rail.getD k 0)) 2)) +
      ∑ i ∈ range n, w i * W (Spec.unitField (t.position (t.sleepers.getD i 0)) 1) := by
  have ht' := g.track
  rw [createHorizontalTrack_eq hash n r g.r_pos d h] at ht'
  simp only [Except.ok.injEq] at ht'
  have hrail : t.rail = List.range (n * r) := by rw [← ht']
  have hsle : t.sleepers = (List.range n).map (n * r + ·) := by rw [← ht']
  clear ht'
  have r1 : ∀ k < n * r, t.rail.getD k 0 = k := by
    intro k hk
    rw [hrail, List.getD_eq_getElem?_getD, List.getElem?_range hk]; rfl
  have r2 : ∀ i < n, t.sleepers.getD i 0 = n * r + i := by
    intro i hi
    simp [hsle, hi]
  unfold railField
  rw [functional_sum W hW, Finset.sum_range_add]
  congr 1
  · refine Finset.sum_congr rfl fun k hk => ?_
    rw [Finset.mem_range] at hk
    simp only [hk, if_true, Fin.sum_univ_three, r1 k hk]
  · refine Finset.sum_congr rfl fun i hi => ?_
    rw [Finset.mem_range] at hi
    have : ¬ n * r + i < n * r := by omega
    simp only [this, if_false, Fin.sum_univ_three, r2 i hi, Nat.add_sub_cancel_left]
    simp

/-- **C126** After a static calculation on a generated track with at least two sleepers and heavy and stiff enough parts:
`element.force` of a rail pad is its tension (in the first column, the others are zero), that of a soil spring the soil
stiffness times the displacement of its sleeper, and the forces of all elements at every output index balance the loads of
this index at every rail node and sleeper and in total. -/
theorem C126_static (hash : (Fin 3 → ℝ) → H) (n r : ℕ) (hn : 2 ≤ n) (hr : 0 < r) (d h : ℝ)
    (hd : 1 / 1000000000 < d / r) (hh : 1 / 1000000000 < h) (track : HorizontalTrack ℝ)
    (ht : createHorizontalTrack hash n r d h = .ok track) (v : TrackValues) (hv : v.Valid) (hm : v.NonNeg)
    (hp : RailPresent { v.rail with l := d / r }) (hsl : 1 / 10 ^ 8 < v.sleeperMass) (hk : 1 / 10 ^ 8 < v.pad.stiffness)
    (inp : SystemInput ℝ) (hinp : track.system v true = .ok inp) (loads : List (TimedLoad ℝ))
    (hnd : ∀ l ∈ loads, l.nodes.Nodup) (hin : ∀ l ∈ loads, ∀ m ∈ l.nodes, m < inp.n) (times : ℕ)
    (solver : TrimState ℝ → (List ℕ → ℕ → ℕ → ℝ) → SolverOutput ℝ)
    (hs : ∀ st rhs, (∃ u, Spec.SolvesStatics st rhs times u) → Spec.SolvesStatics st rhs times (solver st rhs)) :
    ∃ st rows forces, SystemRun.mainForces ⟨inp, loads⟩ freshFlags times solver = .ok (st, rows, forces) ∧
      rows.length = times ∧ forces.length = times ∧
      ∀ s (hs : s < rows.length), ∃ rail pads soil, forces[s]? = some [rail, pads, [], soil] ∧
        rail.length + 1 = n * r ∧ pads.length = n ∧ soil.length = n ∧
        (∀ i < n, ∃ a b c, track.pads[i]? = some (a, b) ∧ track.soil[i]? = some (b, c) ∧
          pads[i]? = some ![v.pad.stiffness *
            (Spec.fieldOfRows rows[s] NodeRow.displacement (track.position a) 1 -
              Spec.fieldOfRows rows[s] NodeRow.displacement (track.position b) 1), 0, 0] ∧
          soil[i]? = some ![v.soil.stiffness * Spec.fieldOfRows rows[s] NodeRow.displacement (track.position b) 1, 0, 0]) ∧
        Spec.Balanced n r (d / r)
          ⟨fun k => rail.getD k 0 0, fun k => rail.getD k 0 1, fun k => rail.getD k 0 2, fun i => pads.getD i 0 0,
            fun i => soil.getD i 0 0⟩
          (fun k => Spec.loadOn (Spec.loadsAt loads s) (track.position (track.rail.getD k 0)))
          (fun i => Spec.loadOn (Spec.loadsAt loads s) (track.position (track.sleepers.getD i 0)) 1) := by
  obtain ⟨st, rows, h1, h2, h3⟩ := C121_track hash n r hn hr d h hd hh track ht v hv inp hinp loads hnd hin times solver hs
  have g : Generated hash n r d h track := ⟨by nlinarith, hd, hh, ht⟩
  rw [g.system v true] at hinp
  injection hinp with hinp
  subst hinp
  refine ⟨st, rows, _, by unfold SystemRun.mainForces; rw [h1]; rfl, h2, by simp [h2], fun s hs' => ?_⟩
  obtain ⟨hadm, hwork⟩ := (h3 s hs' (Spec.fieldOfRows rows[s] NodeRow.displacement)).mpr fun _ _ => rfl
  obtain ⟨rail, pads, soil, f1, f2⟩ := g.forces v hv rows[s] hadm
    (fun k => Spec.loadOn (Spec.loadsAt loads s) (track.position (track.rail.getD k 0)))
    (fun i => Spec.loadOn (Spec.loadsAt loads s) (track.position (track.sleepers.getD i 0)) 1) fun f w h0 hl => by
      have := hwork _ (g.admissible v hv hm hp hsl hk f w h0 hl)
      rw [g.functional _ (loadWork_combine (Spec.loadsAt loads s)) f w] at this
      simp only [loadWork_unit] at this
      exact this
  refine ⟨rail, pads, soil, ?_, f2⟩
  rw [List.getElem?_map, List.getElem?_eq_getElem hs', Option.map_some]
  exact congrArg some f1

/-- **C126** The same after a dynamic calculation, with any solver whose results satisfy the equations of motion: the forces
of all elements balance the loads less the inertia and damping forces. -/
theorem C126_motion (hash : (Fin 3 → ℝ) → H) (n r : ℕ) (hn : 2 ≤ n * r) (d h : ℝ)
    (hd : 1 / 1000000000 < d / r) (hh : 1 / 1000000000 < h) (track : HorizontalTrack ℝ)
    (ht : createHorizontalTrack hash n r d h = .ok track) (v : TrackValues) (hv : v.Valid) (hm : v.NonNeg)
    (hp : RailPresent { v.rail with l := d / r }) (hsl : 1 / 10 ^ 8 < v.sleeperMass) (hk : 1 / 10 ^ 8 < v.pad.stiffness)
    (inp : SystemInput ℝ) (hinp : track.system v true = .ok inp) (loads : List (TimedLoad ℝ))
    (hnd : ∀ l ∈ loads, l.nodes.Nodup) (hin : ∀ l ∈ loads, ∀ m ∈ l.nodes, m < inp.n) (times : ℕ)
    (solver : TrimState ℝ → (List ℕ → ℕ → ℕ → ℝ) → SolverOutput ℝ)
    (hs : ∀ st, SystemInput.initialise (SystemRun.input ⟨inp, loads⟩) freshFlags = .ok st →
      Spec.SolvesMotion st (SystemRun.rhs ⟨inp, loads⟩ st) times (solver st (SystemRun.rhs ⟨inp, loads⟩ st))) :
    ∃ st rows forces, SystemRun.mainForces ⟨inp, loads⟩ freshFlags times solver = .ok (st, rows, forces) ∧
      rows.length = times ∧ forces.length = times ∧
      ∀ s (hs : s < rows.length), ∃ rail pads soil, forces[s]? = some [rail, pads, [], soil] ∧
        rail.length + 1 = n * r ∧ pads.length = n ∧ soil.length = n ∧
        (∀ i < n, ∃ a b c, track.pads[i]? = some (a, b) ∧ track.soil[i]? = some (b, c) ∧
          pads[i]? = some ![v.pad.stiffness *
            (Spec.fieldOfRows rows[s] NodeRow.displacement (track.position a) 1 -
              Spec.fieldOfRows rows[s] NodeRow.displacement (track.position b) 1), 0, 0] ∧
          soil[i]? = some ![v.soil.stiffness * Spec.fieldOfRows rows[s] NodeRow.displacement (track.position b) 1, 0, 0]) ∧
        Spec.Balanced n r (d / r)
          ⟨fun k => rail.getD k 0 0, fun k => rail.getD k 0 1, fun k => rail.getD k 0 2, fun i => pads.getD i 0 0,
            fun i => soil.getD i 0 0⟩
          (fun k c => Spec.loadOn (Spec.loadsAt loads s) (track.position (track.rail.getD k 0)) c -
            Spec.motionOn inp (Spec.fieldOfRows rows[s] NodeRow.velocity) (Spec.fieldOfRows rows[s] NodeRow.acceleration)
              (track.position (track.rail.getD k 0)) c)
          (fun i => Spec.loadOn (Spec.loadsAt loads s) (track.position (track.sleepers.getD i 0)) 1 -
            Spec.motionOn inp (Spec.fieldOfRows rows[s] NodeRow.velocity) (Spec.fieldOfRows rows[s] NodeRow.acceleration)
              (track.position (track.sleepers.getD i 0)) 1) := by
  have g : Generated hash n r d h track := ⟨hn, hd, hh, ht⟩
  rw [g.system v true] at hinp
  injection hinp with hinp
  subst hinp
  obtain ⟨st, rows, h1, h2, h3⟩ := C121_motion_partial ⟨generatedInput track n r d v true, loads⟩
    ⟨g.mesh v true, hnd, hin⟩ (g.aligned v true) times solver hs
  refine ⟨st, rows, _, by unfold SystemRun.mainForces; rw [h1]; rfl, h2, by simp [h2], fun s hs' => ?_⟩
  obtain ⟨-, hadm, -, -, hwork⟩ := h3 s hs'
  set inp := generatedInput track n r d v true with hinp
  set vel := Spec.fieldOfRows rows[s] NodeRow.velocity with hvel
  set acc := Spec.fieldOfRows rows[s] NodeRow.acceleration with hacc
  set L : Spec.NodalField ℝ → ℝ := fun w => Spec.loadWork (Spec.loadsAt loads s) w -
    (Spec.systemWork AssemblyPart.mass inp.parts w acc +
      (Spec.systemWork AssemblyPart.damping inp.parts w vel + Spec.rayleighWork inp w vel)) with hL
  have hlin : ∀ (c : ℝ) (w1 w2 : Spec.NodalField ℝ), L (fun i k => w1 i k + c * w2 i k) = L w1 + c * L w2 := by
    intro c w1 w2
    simp only [hL, loadWork_combine, systemWork_combine, Spec.rayleighWork]
    split_ifs <;> ring
  have hunit : ∀ m c, L (Spec.unitField m c) =
      Spec.loadOn (Spec.loadsAt loads s) m c - Spec.motionOn inp vel acc m c := by
    intro m c
    simp only [hL, loadWork_unit, Spec.motionOn]
  obtain ⟨rail, pads, soil, f1, f2⟩ := g.forces v hv rows[s] hadm
    (fun k c => Spec.loadOn (Spec.loadsAt loads s) (track.position (track.rail.getD k 0)) c -
      Spec.motionOn inp vel acc (track.position (track.rail.getD k 0)) c)
    (fun i => Spec.loadOn (Spec.loadsAt loads s) (track.position (track.sleepers.getD i 0)) 1 -
      Spec.motionOn inp vel acc (track.position (track.sleepers.getD i 0)) 1) fun f w h0 hl => by
      have e1 := hwork _ (g.admissible v hv hm hp hsl hk f w h0 hl)
      have e2 := g.functional L hlin f w
      simp only [hunit] at e2
      rw [← e2]
      simp only [hL]
      exact eq_sub_of_add_eq' e1
  refine ⟨rail, pads, soil, ?_, f2⟩
  rw [List.getElem?_map, List.getElem?_eq_getElem hs', Option.map_some]
  exact congrArg some f1

/-! ### C127: the result file of the demo script -/

/-- **C127** (the part that holds) `vertical_force_rail` of the demo script is the shear force of each rail element and
`vertical_force_soil` is the soil stiffness times the vertical displacement of each sleeper, for all results in which the
bottom nodes do not move. -/
theorem C127_rail_soil_partial (hash : (Fin 3 → ℝ) → H) (n r : ℕ) (hn : 2 ≤ n * r) (d h : ℝ)
    (hd : 1 / 1000000000 < d / r) (hh : 1 / 1000000000 < h) (track : HorizontalTrack ℝ)
    (ht : createHorizontalTrack hash n r d h = .ok track) (v : TrackValues) (inp : SystemInput ℝ)
    (hinp : track.system v true = .ok inp) (row : List (NodeRow ℝ))
    (hrow : Spec.Admissible inp (Spec.fieldOfRows row NodeRow.displacement)) :
    demoRailForces (inp.parts.map fun p => p.elementForces row) = track.railElements.map (fun e =>
      trueElementForce (BeamPart.stiffness { v.rail with l := d / r }) ![true, true, true] 1 0
        (sixValues (Spec.fieldOfRows row NodeRow.displacement) (track.position e.1, track.position e.2)) 1) ∧
    demoSoilForces (inp.parts.map fun p => p.elementForces row) = track.sleepers.map (fun m =>
      v.soil.stiffness * Spec.fieldOfRows row NodeRow.displacement (track.position m) 1) := by
  have g : Generated hash n r d h track := ⟨hn, hd, hh, ht⟩
  obtain ⟨hlt, -, -⟩ := g.position
  rw [g.system v true] at hinp
  injection hinp with hinp
  subst hinp
  have ht' := ht
  rw [createHorizontalTrack_eq hash n r g.r_pos d h] at ht'
  simp only [Except.ok.injEq] at ht'
  have hre : track.railElements = (List.range (n * r - 1)).map fun i => (i, i + 1) := by rw [← ht']
  have hsle : track.sleepers = (List.range n).map (n * r + ·) := by rw [← ht']
  clear ht'
  have hbot : ∀ i < n, Spec.fieldOfRows row NodeRow.displacement (track.position (n * r + n + i)) 1 = 0 := by
    intro i hi
    apply hrow _ (hlt _ (by omega))
    left
    show Spec.Supported (generatedSupports track n r true) _ _
    rw [g.supported true _ (by omega)]
    left; omega
  show demoRailForces ((generatedParts track n r d v).parts.map _) = _ ∧
    demoSoilForces ((generatedParts track n r d v).parts.map _) = _
  unfold TrackParts.parts generatedParts demoRailForces demoSoilForces
  simp only [List.map_cons, List.map_nil, rod_elementForces, beam_elementForces, List.getD_cons_succ, List.getD_cons_zero,
    List.map_map, chainOf_map, chainOf_range, hre, hsle]
  refine ⟨rfl, ?_⟩
  apply List.map_congr_left
  intro i hi
  rw [List.mem_range] at hi
  simp [hbot i hi]

/-- **C127** fails for the pads: the pad forces that the demo script collects are zero for every track, load and solver,
whatever the forces in the pads are. -/
theorem C127_pads_violated (hash : (Fin 3 → ℝ) → H) (n r : ℕ) (hn : 2 ≤ n * r) (d h : ℝ)
    (hd : 1 / 1000000000 < d / r) (hh : 1 / 1000000000 < h) (track : HorizontalTrack ℝ)
    (ht : createHorizontalTrack hash n r d h = .ok track) (v : TrackValues) (inp : SystemInput ℝ)
    (hinp : track.system v true = .ok inp) (row : List (NodeRow ℝ)) :
    demoPadForces (inp.parts.map fun p => p.elementForces row) = List.replicate n 0 := by
  have g : Generated hash n r d h track := ⟨hn, hd, hh, ht⟩
  rw [g.system v true] at hinp
  injection hinp with hinp
  subst hinp
  show demoPadForces ((generatedParts track n r d v).parts.map _) = _
  unfold TrackParts.parts generatedParts demoPadForces
  simp only [List.map_cons, rod_elementForces, List.getD_cons_succ, List.getD_cons_zero, List.map_map]
  rw [List.eq_replicate_iff]
  simp

end

section
variable {K : Type*} [Field K] [LinearOrder K] [IsStrictOrderedRing K]

theorem collectSoil_fold (eqn : ℕ → Fin 3 → Option ℕ) (v : RodValues K) (c : K) (hc : v.damping = some c)
    (es : List (ℕ × ℕ)) (x : ℕ × ℕ → ℕ) (hx : ∀ e ∈ es, eqn e.1 1 = some (x e)) (hnd : (es.map x).Nodup)
    (s : SoilMatrices K) (hs : ∀ e ∈ es, s.stiff (x e) (x e) = 0 ∧ s.damp (x e) (x e) = 0) :
    es.foldlM (collectSoil eqn v) s = .ok {
      stiff := fun i j => if i = j ∧ i ∈ es.map x then v.stiffness else s.stiff i j
      damp := fun i j => if i = j ∧ i ∈ es.map x then c else s.damp i j
      idx := s.idx ++ es.map x } := by
  induction es generalizing s with
  | nil => simp [pure, Except.pure]
  | cons e es ih =>
    have h1 : collectSoil eqn v s e = .ok {
        stiff := fun i j => if i = x e ∧ j = x e then s.stiff (x e) (x e) + v.stiffness else s.stiff i j
        damp := fun i j => if i = x e ∧ j = x e then s.damp (x e) (x e) + c else s.damp i j
        idx := s.idx ++ [x e] } := by
      unfold collectSoil
      rw [hx e (by simp), hc]
    rw [List.foldlM_cons, h1]
    rw [List.map_cons, List.nodup_cons] at hnd
    have hne : ∀ e' ∈ es, x e' ≠ x e := by
      intro e' he' hc
      exact hnd.1 (by rw [← hc]; exact List.mem_map_of_mem he')
    refine (ih (fun e' he' => hx e' (by simp [he'])) hnd.2 _ (fun e' he' => ?_)).trans ?_
    · simp only [hne e' he', false_and, if_false]
      exact hs e' (by simp [he'])
    · obtain ⟨s1, s2⟩ := hs e (by simp)
      congr 1
      simp only [s1, s2, zero_add, List.map_cons, List.mem_cons, List.append_assoc, List.singleton_append,
        SoilMatrices.mk.injEq, and_true]
      constructor
      · funext i j
        by_cases a : i = x e
        · by_cases b : j = x e
          · simp [a, b]
          · have : ¬ x e = j := fun hc => b hc.symm
            simp [a, b, this]
        · simp only [a, false_and, false_or, if_false]
      · funext i j
        by_cases a : i = x e
        · by_cases b : j = x e
          · simp [a, b]
          · have : ¬ x e = j := fun hc => b hc.symm
            simp [a, b, this]
        · simp only [a, false_and, false_or, if_false]

end

section
variable {H : Type*} [DecidableEq H]

/-- **C127** (the soil matrices of the result file) For every generated track: they are diagonal, with the soil stiffness and
the soil damping at the vertical equation of every sleeper and zero elsewhere, and the index list names these equations, in
the order of the sleepers, each once. -/
theorem C127_soil_matrices_partial (hash : (Fin 3 → ℝ) → H) (n r : ℕ) (hn : 2 ≤ n * r) (d h : ℝ)
    (hd : 1 / 1000000000 < d / r) (hh : 1 / 1000000000 < h) (track : HorizontalTrack ℝ)
    (ht : createHorizontalTrack hash n r d h = .ok track) (v : TrackValues) (hv : v.Valid) (hm : v.NonNeg)
    (hp : RailPresent { v.rail with l := d / r }) (hsl : 1 / 10 ^ 8 < v.sleeperMass) (hk : 1 / 10 ^ 8 < v.pad.stiffness)
    (c : ℝ) (hc : v.soil.damping = some c) (inp : SystemInput ℝ) (hinp : track.system v true = .ok inp)
    (st : TrimState ℝ) (hst : inp.initialise freshFlags = .ok st) :
    ∃ s : SoilMatrices ℝ, collectSoilMatrices (nodeEquations st.nodes) v.soil
        (track.soil.map fun e => (track.position e.1, track.position e.2)) = .ok s ∧
      s.idx.map some = track.sleepers.map (fun m => nodeEquations st.nodes (track.position m) 1) ∧ s.idx.Nodup ∧
      (∀ k ∈ s.idx, k < st.N) ∧
      ∀ i j, s.stiff i j = (if i = j ∧ i ∈ s.idx then v.soil.stiffness else 0) ∧
        s.damp i j = if i = j ∧ i ∈ s.idx then c else 0 := by
  have g : Generated hash n r d h track := ⟨hn, hd, hh, ht⟩
  obtain ⟨hlt, -, hinj⟩ := g.position
  rw [g.system v true] at hinp
  injection hinp with hinp
  subst hinp
  have ht' := ht
  rw [createHorizontalTrack_eq hash n r g.r_pos d h] at ht'
  simp only [Except.ok.injEq] at ht'
  have hsle : track.sleepers = (List.range n).map (n * r + ·) := by rw [← ht']
  have hsoil : track.soil = (List.range n).map fun i => (n * r + i, n * r + n + i) := by rw [← ht']
  clear ht'
  have hsome : ∀ i < n, ∃ k, equationOf st.nodes (track.position (n * r + i)) 1 = some k := by
    intro i hi
    have := g.unknowns v hv hm hp hsl hk true st hst (n * r + i) (by omega) 1
    rw [if_neg (by omega)] at this
    cases he : equationOf st.nodes (track.position (n * r + i)) 1 with
    | some k => exact ⟨k, rfl⟩
    | none => exact absurd rfl (this.mp he (by omega))
  obtain ⟨hb1, hb2, -⟩ := C106_representable _ freshFlags st hst
  set x : ℕ × ℕ → ℕ := fun e => (equationOf st.nodes e.1 1).getD 0 with hx
  have hxs : ∀ i < n, equationOf st.nodes (track.position (n * r + i)) 1 =
      some (x (track.position (n * r + i), track.position (n * r + n + i))) := by
    intro i hi
    obtain ⟨k, hk⟩ := hsome i hi
    simp [hx, hk]
  have hes : (track.soil.map fun e => (track.position e.1, track.position e.2)) =
      (List.range n).map fun i => (track.position (n * r + i), track.position (n * r + n + i)) := by
    rw [hsoil, List.map_map]; rfl
  have hnd : ((track.soil.map fun e => (track.position e.1, track.position e.2)).map x).Nodup := by
    rw [hes, List.map_map]
    apply List.Nodup.map_on _ List.nodup_range
    intro i hi j hj he
    rw [List.mem_range] at hi hj
    simp only [Function.comp] at he
    have e1 := hxs i hi
    have e2 := hxs j hj
    rw [he] at e1
    have hlt2 := (hb2 _ _ _ e1).2
    have := (hb1 _ hlt2).unique (y₁ := (track.position (n * r + i), 1)) (y₂ := (track.position (n * r + j), 1)) e1 e2
    have := hinj _ (by omega) _ (by omega) (Prod.mk.inj this).1
    omega
  refine ⟨_, collectSoil_fold (nodeEquations st.nodes) v.soil c hc _ x ?_ hnd _ fun _ _ => ⟨rfl, rfl⟩, ?_, ?_, ?_, ?_⟩
  · intro e he
    rw [hes, List.mem_map] at he
    obtain ⟨i, hi, rfl⟩ := he
    rw [List.mem_range] at hi
    rw [nodeEquations_eq]
    exact hxs i hi
  · simp only [List.nil_append]
    rw [hes, hsle, List.map_map, List.map_map, List.map_map]
    apply List.map_congr_left
    intro i hi
    rw [List.mem_range] at hi
    simp only [Function.comp]
    rw [nodeEquations_eq, hxs i hi]
  · simpa using hnd
  · intro k hk
    simp only [List.nil_append, hes, List.map_map, List.mem_map, List.mem_range, Function.comp] at hk
    obtain ⟨i, hi, rfl⟩ := hk
    exact (hb2 _ _ _ (hxs i hi)).2
  · intro i j
    exact ⟨rfl, rfl⟩

/-! ### Examples -/

/-- Six sleepers at 0.6 m with two rail elements each, a load on the third rail node that grows with time: a correct static
solver exists, and the soil carries the load of 1000 per output index. -/
example : ∃ track, createHorizontalTrack (fun p : Fin 3 → ℝ => p) 6 2 (3 / 5) 1 = .ok track ∧
    ∃ inp, track.system exampleTrack true = .ok inp ∧
    ∃ solver st rows forces, SystemRun.mainForces ⟨inp,
        [⟨[track.position (track.rail.getD 2 0)], ![false, true, false], .table fun _ t => ![0, -1000 * t, 0]⟩]⟩
        freshFlags 10 solver = .ok (st, rows, forces) ∧
      ∀ s : ℕ, s < 10 → ∃ rail pads soil : List (Fin 3 → ℝ), forces[s]? = some [rail, pads, [], soil] ∧
        ∑ i ∈ range 6, soil.getD i 0 0 = -1000 * (s : ℝ) := by
  classical
  obtain ⟨track, ht, -⟩ := C48_structure (fun p : Fin 3 → ℝ => p) 6 2 (by norm_num) (3 / 5) 1
  have g : Generated (fun p : Fin 3 → ℝ => p) 6 2 (3 / 5) 1 track := ⟨by norm_num, by norm_num, by norm_num, ht⟩
  obtain ⟨hlt, -, hinj⟩ := g.position
  have ht' := ht
  rw [createHorizontalTrack_eq _ 6 2 (by norm_num) (3 / 5) 1] at ht'
  simp only [Except.ok.injEq] at ht'
  have hrail : track.rail = List.range 12 := by rw [← ht']
  have hsle : track.sleepers = (List.range 6).map (12 + ·) := by rw [← ht']
  clear ht'
  have hr2 : track.rail.getD 2 0 = 2 := by rw [hrail]; rfl
  refine ⟨track, ht, _, g.system exampleTrack true, ?_⟩
  rw [hr2]
  have hs := g.system exampleTrack true
  set solver : TrimState ℝ → (List ℕ → ℕ → ℕ → ℝ) → SolverOutput ℝ := fun st rhs =>
    if hex : ∃ u, Spec.SolvesStatics st rhs 10 u then Classical.choose hex else ⟨fun _ _ => 0, fun _ _ => 0, fun _ _ => 0⟩
    with hsolver
  have hsol : ∀ st rhs, (∃ u, Spec.SolvesStatics st rhs 10 u) → Spec.SolvesStatics st rhs 10 (solver st rhs) := by
    intro st rhs hex
    rw [hsolver]
    simp only [dif_pos hex]
    exact Classical.choose_spec hex
  obtain ⟨st, rows, forces, h1, h2, -, h3⟩ := C126_static _ 6 2 (by norm_num) (by norm_num) _ _ (by norm_num) (by norm_num)
    track ht exampleTrack exampleTrack_valid exampleTrack_nonNeg exampleTrack_railPresent (by norm_num [exampleTrack])
    (by norm_num [exampleTrack]) _ hs
    [⟨[track.position 2], ![false, true, false], .table fun _ t => ![0, -1000 * t, 0]⟩] (by simp)
    (by
      intro l hl m hm
      simp only [List.mem_singleton] at hl
      subst hl
      simp only [List.mem_singleton] at hm
      subst hm
      exact hlt 2 (by norm_num)) 10 solver hsol
  refine ⟨solver, st, rows, forces, h1, fun s hs' => ?_⟩
  obtain ⟨rail, pads, soil, f1, -, -, -, -, f2⟩ := h3 s (by omega)
  refine ⟨rail, pads, soil, f1, ?_⟩
  have hload : ∀ k < 18, Spec.loadOn (Spec.loadsAt
      [(⟨[track.position 2], ![false, true, false], .table fun _ t => ![0, -1000 * t, 0]⟩ : TimedLoad ℝ)] s)
      (track.position k) 1 = if k = 2 then -1000 * (s : ℝ) else 0 := by
    intro k hk
    have : track.position 2 = track.position k ↔ k = 2 :=
      ⟨fun e => (hinj _ (by norm_num) _ (by omega) e).symm, fun e => by rw [e]⟩
    simp [Spec.loadOn, Spec.loadsAt, this]
  have ht := f2.total
  rw [ht]
  have e1 : ∀ k ∈ range (6 * 2), Spec.loadOn (Spec.loadsAt
      [(⟨[track.position 2], ![false, true, false], .table fun _ t => ![0, -1000 * t, 0]⟩ : TimedLoad ℝ)] s)
      (track.position (track.rail.getD k 0)) 1 = if k = 2 then -1000 * (s : ℝ) else 0 := by
    intro k hk
    rw [Finset.mem_range] at hk
    have : track.rail.getD k 0 = k := by
      rw [hrail, List.getD_eq_getElem?_getD, List.getElem?_range (by omega)]; rfl
    rw [this, hload k (by omega)]
  have e2 : ∀ i ∈ range 6, Spec.loadOn (Spec.loadsAt
      [(⟨[track.position 2], ![false, true, false], .table fun _ t => ![0, -1000 * t, 0]⟩ : TimedLoad ℝ)] s)
      (track.position (track.sleepers.getD i 0)) 1 = 0 := by
    intro i hi
    rw [Finset.mem_range] at hi
    have : track.sleepers.getD i 0 = 12 + i := by simp [hsle, hi]
    rw [this, hload _ (by omega), if_neg (by omega)]
  rw [Finset.sum_congr rfl e1, Finset.sum_congr rfl e2]
  simp

/-- The track of the examples has the three sleeper equations in the soil matrices of the demo script. -/
example : ∃ track inp st s, createHorizontalTrack (fun p : Fin 3 → ℝ => p) 3 2 (3 / 5) 1 = .ok track ∧
    track.system exampleTrack true = .ok inp ∧ inp.initialise freshFlags = .ok st ∧
    collectSoilMatrices (nodeEquations st.nodes) exampleTrack.soil
        (track.soil.map fun e => (track.position e.1, track.position e.2)) = .ok s ∧ s.idx.length = 3 := by
  obtain ⟨t, ht, -⟩ := C48_structure (fun p : Fin 3 → ℝ => p) 3 2 (by norm_num) (3 / 5) 1
  obtain ⟨inp, st, h1, h2, -⟩ := C115_static _ 3 2 (by norm_num) (by norm_num) _ _ (by norm_num) (by norm_num) t ht _
    exampleTrack_valid freshFlags
  obtain ⟨s, h3, h4, -⟩ := C127_soil_matrices_partial _ 3 2 (by norm_num) _ _ (by norm_num) (by norm_num) t ht _
    exampleTrack_valid exampleTrack_nonNeg exampleTrack_railPresent (by norm_num [exampleTrack])
    (by norm_num [exampleTrack]) 30000 rfl inp h1 st h2
  refine ⟨t, inp, st, s, ht, h1, h2, h3, ?_⟩
  have := congrArg List.length h4
  rw [createHorizontalTrack_eq _ 3 2 (by norm_num) (3 / 5) 1] at ht
  simp only [Except.ok.injEq] at ht
  rw [← ht] at this
  simpa using this

end
end Rose
