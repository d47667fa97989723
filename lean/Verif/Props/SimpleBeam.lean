/-
C146: the calculation of a beam on two supports reports, at the nodes, the deflection of beam theory.
-/
import Verif.Model.SimpleBeam
import Verif.Props.AnalyticalBeam
import Verif.Props.Results
import Verif.Props.Cantilever

set_option linter.unusedSectionVars false

namespace Rose
open Finset Spec

/-! ### One element -/

/-- The end forces of an element in which the moment grows linearly. -/
theorem beam_linear_moment {K : Type*} [Field K] [LinearOrder K] [IsStrictOrderedRing K] (b : BeamPart K) (hb : b.Valid)
    (h1 : b.s1 = .inf) (h2 : b.s2 = .inf) (t w r M V : K) (i : Fin 6) :
    ∑ j, b.stiffness i j * (![t, w, r, t,
        w + r * b.l + M * b.l ^ 2 / (2 * (b.E * b.I)) + V * b.l ^ 3 / (6 * (b.E * b.I)) - b.shearFlexibility * V * b.l,
        r + M * b.l / (b.E * b.I) + V * b.l ^ 2 / (2 * (b.E * b.I))] : Fin 6 → K) j =
      (![0, V, -M, 0, -V, M + V * b.l] : Fin 6 → K) i := by
  have hs := shearFlexibility_nonneg b hb
  have hE := hb.E; have hA := hb.A; have hI := hb.I; have hl := hb.l
  have hp : 0 < b.l ^ 2 + 12 * b.E * b.I * b.shearFlexibility := by positivity
  have e1 : 1 + timoshenkoFactor b = (b.l ^ 2 + 12 * b.E * b.I * b.shearFlexibility) / b.l ^ 2 := by
    rw [timoshenkoFactor_eq b hb]; field_simp
  have e2 : 4 + timoshenkoFactor b = (4 * b.l ^ 2 + 12 * b.E * b.I * b.shearFlexibility) / b.l ^ 2 := by
    rw [timoshenkoFactor_eq b hb]; field_simp
  have e3 : 2 - timoshenkoFactor b = (2 * b.l ^ 2 - 12 * b.E * b.I * b.shearFlexibility) / b.l ^ 2 := by
    rw [timoshenkoFactor_eq b hb]; field_simp
  rw [BeamPart.stiffness, h1, h2, beamStiffness_eq]
  simp only [fixity, e1, e2, e3]
  generalize b.shearFlexibility = s at *
  rw [Fin.sum_univ_six]
  fin_cases i <;> simp <;> norm_num <;> field_simp <;> ring

/-- The work of an element in which the moment grows linearly. -/
theorem beam_linear_work {K : Type*} [Field K] [LinearOrder K] [IsStrictOrderedRing K] (b : BeamPart K) (hb : b.Valid)
    (h1 : b.s1 = .inf) (h2 : b.s2 = .inf) (v u : NodalField K) (i : ℕ) (M V : K) (h0 : u (i + 1) 0 = u i 0)
    (hw : u (i + 1) 1 = u i 1 + u i 2 * b.l + M * b.l ^ 2 / (2 * (b.E * b.I)) + V * b.l ^ 3 / (6 * (b.E * b.I)) -
      b.shearFlexibility * V * b.l)
    (hr : u (i + 1) 2 = u i 2 + M * b.l / (b.E * b.I) + V * b.l ^ 2 / (2 * (b.E * b.I))) :
    bilinear b.stiffness (sixValues v (i, i + 1)) (sixValues u (i, i + 1)) =
      (M + V * b.l) * v (i + 1) 2 - M * v i 2 - V * (v (i + 1) 1 - v i 1) := by
  have hu : sixValues u (i, i + 1) = ![u i 0, u i 1, u i 2, u i 0,
      u i 1 + u i 2 * b.l + M * b.l ^ 2 / (2 * (b.E * b.I)) + V * b.l ^ 3 / (6 * (b.E * b.I)) -
        b.shearFlexibility * V * b.l,
      u i 2 + M * b.l / (b.E * b.I) + V * b.l ^ 2 / (2 * (b.E * b.I))] := by
    rw [sixValues, h0, hw, hr]
  unfold bilinear
  simp only [mul_assoc, ← Finset.mul_sum]
  simp only [hu, beam_linear_moment b hb h1 h2]
  rw [Fin.sum_univ_six]
  simp [sixValues]
  ring

/-! ### The chain -/

theorem chainElements_eq (l : ℝ) (hl : 0 < l) (m : ℕ) :
    chainElements l m = horizontalElements ((List.range m).map fun i => (i, i + 1)) := by
  unfold chainElements horizontalElements
  rw [List.map_map]
  refine List.map_congr_left fun i _ => ?_
  have h : (i : ℝ) * l < ((i + 1 : ℕ) : ℝ) * l := by push_cast; nlinarith
  simp only [Function.comp_apply, rotation_right _ _ _ h, Real.cos_zero, Real.sin_zero]

/-- The work of the matrices of a chain of beam elements. -/
theorem chain_work (b : BeamPart ℝ) (hl : 0 < b.l) (m : ℕ) (hm : 0 < m) (v u : NodalField ℝ) :
    systemWork AssemblyPart.stiffness [chainPart b m] v u =
        ∑ i ∈ range m, bilinear b.stiffness (sixValues v (i, i + 1)) (sixValues u (i, i + 1)) ∧
      systemWork AssemblyPart.mass [chainPart b m] v u =
        ∑ i ∈ range m, bilinear b.massMatrix (sixValues v (i, i + 1)) (sixValues u (i, i + 1)) := by
  have hne : ((List.range m).map fun i => (i, i + 1)) ≠ [] := by
    intro h
    have := congrArg List.length h
    simp at this
    omega
  have key : ∀ A : Matrix (Fin 6) (Fin 6) ℝ, partWork (chainPart b m) (matrixEntries A) v u =
      ∑ i ∈ range m, bilinear A (sixValues v (i, i + 1)) (sixValues u (i, i + 1)) := by
    intro A
    rw [beam_partWork (chainPart b m) _ hne (chainElements_eq b.l hl m) rfl, List.map_map, Finset.sum_range]
    rw [← List.sum_ofFn, List.ofFn_eq_map, ← List.map_coe_finRange_eq_range, List.map_map]
    rfl
  constructor
  · rw [← key]
    simp [systemWork, chainPart, beamAssembly]
  · rw [← key]
    simp [systemWork, chainPart, beamAssembly]

theorem chain_unit (A : Matrix (Fin 6) (Fin 6) ℝ) (hA : ∀ u, 0 ≤ energy A u) (t : ℝ) (ht : ∀ k, t < A k k) (m : ℕ)
    (hm : 0 < m) (i : ℕ) (hi : i ≤ m) (c : Fin 3) :
    t < ∑ j ∈ range m, bilinear A (sixValues (unitField i c) (j, j + 1)) (sixValues (unitField i c) (j, j + 1)) := by
  have hex : ∃ j ∈ range m, ∃ q : Fin 6, sixValues (unitField i c) (j, j + 1) = Pi.single q (1 : ℝ) := by
    by_cases hlast : i < m
    · refine ⟨i, Finset.mem_range.mpr hlast, ⟨c, by omega⟩, ?_⟩
      ext q
      fin_cases c <;> fin_cases q <;> simp [sixValues, unitField]
    · refine ⟨i - 1, Finset.mem_range.mpr (by omega), ⟨c + 3, by omega⟩, ?_⟩
      have h1 : i - 1 ≠ i := by omega
      have h2 : i - 1 + 1 = i := by omega
      ext q
      fin_cases c <;> fin_cases q <;> simp [sixValues, unitField, h1, h2]
  obtain ⟨j, hj, q, hq⟩ := hex
  refine lt_of_lt_of_le ?_ (Finset.single_le_sum (f := fun j => bilinear A (sixValues (unitField i c) (j, j + 1))
    (sixValues (unitField i c) (j, j + 1))) (fun j _ => hA _) hj)
  simp only [hq]
  exact (ht q).trans_eq (energy_unit A q).symm

/-- In a chain of elements that are not trimmed away exactly the supported dofs are removed. -/
theorem chain_removed (inp : SystemInput ℝ) (b : BeamPart ℝ) (hb : b.Valid) (hp : RailPresent b) (m : ℕ) (hm : 0 < m)
    (hinp : inp.parts = [chainPart b m]) (i : ℕ) (hi : i ≤ m) (c : Fin 3) :
    Removed inp i c ↔ Supported inp.constraints i c := by
  refine ⟨?_, Or.inl⟩
  have h1 := chain_unit b.massMatrix (beam_mass_nonneg b hb) _ (fun k => (hp k).1) m hm i hi c
  have h2 := chain_unit b.stiffness (C19_beam_psd b hb) _ (fun k => (hp k).2) m hm i hi c
  rw [← (chain_work b hb.l m hm _ _).2, ← hinp] at h1
  rw [← (chain_work b hb.l m hm _ _).1, ← hinp] at h2
  rintro (h | h | h)
  · exact h
  · exact absurd (h1.trans_le (le_abs_self _)) (not_lt.mpr h)
  · exact absurd (h2.trans_le (le_abs_self _)) (not_lt.mpr h)

/-- A displacement of a chain without energy is a rigid motion. -/
theorem chain_energy_zero (b : BeamPart ℝ) (hb : b.Valid) (h1 : b.s1 = .inf) (h2 : b.s2 = .inf) (m : ℕ) (hm : 0 < m)
    (u : NodalField ℝ) (h : systemWork AssemblyPart.stiffness [chainPart b m] u u = 0) (i : ℕ) (hi : i ≤ m) :
    u i 0 = u 0 0 ∧ u i 1 = u 0 1 + i * (b.l * u 0 2) ∧ u i 2 = u 0 2 := by
  rw [(chain_work b hb.l m hm u u).1] at h
  have hz := (Finset.sum_eq_zero_iff_of_nonneg fun j _ => C19_beam_psd b hb _).mp h
  refine chain_rigid b.l (List.range (m + 1)) u (fun e he => ?_) 0 (by simp) i i (List.getElem?_range (by omega))
  rw [chainOf_range, List.mem_map] at he
  obtain ⟨j, hj, rfl⟩ := he
  rw [List.mem_range] at hj
  exact (C19_beam_kernel b hb h1 h2 _).mp (hz j (Finset.mem_range.mpr (by omega)))

/-! ### The beam on two supports -/

/-- The deflection of beam theory with the deflection by shear: the formula of the Euler-Bernoulli beam plus, for a shear
flexibility `s`, the moment of the load divided by the shear stiffness. -/
noncomputable def deflectionWithShear (EI s L F a x : ℝ) : ℝ :=
  simpleSupportStaticAt EI L F a x + s * (if x ≤ a then F * (L - a) * x / L else F * a * (L - x) / L)

/-- The nodal values of beam theory. -/
noncomputable def simpleField (b : BeamPart ℝ) (m k : ℕ) (F : ℝ) : NodalField ℝ := fun i =>
  ![0, deflectionWithShear (b.E * b.I) b.shearFlexibility (m * b.l) F (k * b.l) (i * b.l),
    simpleSlope (b.E * b.I) (m * b.l) F (k * b.l) (i * b.l)]

theorem simpleField_left (b : BeamPart ℝ) (hb : b.Valid) (m k : ℕ) (F : ℝ) (i : ℕ) (hi : i ≤ k) :
    simpleField b m k F i = ![0,
      F * (m * b.l - k * b.l) * (i * b.l) / (6 * (m * b.l) * (b.E * b.I)) *
        ((m * b.l) ^ 2 - (m * b.l - k * b.l) ^ 2 - (i * b.l) ^ 2) +
        b.shearFlexibility * (F * (m * b.l - k * b.l) * (i * b.l) / (m * b.l)),
      F * (m * b.l - k * b.l) / (6 * (m * b.l) * (b.E * b.I)) *
        ((m * b.l) ^ 2 - (m * b.l - k * b.l) ^ 2 - 3 * (i * b.l) ^ 2)] := by
  have hl := hb.l
  have h1 : (i : ℝ) * b.l ≤ k * b.l := by
    have : (i : ℝ) ≤ k := by exact_mod_cast hi
    nlinarith
  have h0 : 0 ≤ (i : ℝ) * b.l := by positivity
  unfold simpleField deflectionWithShear simpleSupportStaticAt simpleSlope
  simp only [h0, h1, and_self, if_true]

theorem simpleField_right (b : BeamPart ℝ) (hb : b.Valid) (m k : ℕ) (hm : 0 < m) (F : ℝ) (i : ℕ) (hi : k ≤ i) (him : i ≤ m) :
    simpleField b m k F i = ![0,
      F * (k * b.l) * (m * b.l - i * b.l) / (6 * (m * b.l) * (b.E * b.I)) *
        ((m * b.l) ^ 2 - (k * b.l) ^ 2 - (m * b.l - i * b.l) ^ 2) +
        b.shearFlexibility * (F * (k * b.l) * (m * b.l - i * b.l) / (m * b.l)),
      -(F * (k * b.l) / (6 * (m * b.l) * (b.E * b.I)) *
        ((m * b.l) ^ 2 - (k * b.l) ^ 2 - 3 * (m * b.l - i * b.l) ^ 2))] := by
  have hl := hb.l
  have hE := hb.E
  have hI := hb.I
  have hm' : (0 : ℝ) < m := by exact_mod_cast hm
  rcases hi.eq_or_lt with rfl | hlt
  · rw [simpleField_left b hb m k F k le_rfl]
    congr 1
    congr 1
    · field_simp
      ring
    · congr 1
      field_simp
      ring
  · have h1 : ¬ (i : ℝ) * b.l ≤ k * b.l := by
      have : (k : ℝ) < i := by exact_mod_cast hlt
      push Not
      nlinarith
    have h2 : (i : ℝ) * b.l ≤ m * b.l := by
      have : (i : ℝ) ≤ m := by exact_mod_cast him
      nlinarith
    unfold simpleField deflectionWithShear simpleSupportStaticAt simpleSlope
    simp only [h1, h2, and_false, if_false, if_true]

/-- In every virtual displacement that is zero at the supports the elements do the work of the load. -/
theorem simpleField_work (b : BeamPart ℝ) (hb : b.Valid) (h1 : b.s1 = .inf) (h2 : b.s2 = .inf) (m k : ℕ) (hm : 0 < m)
    (hk : k ≤ m) (F : ℝ) (v : NodalField ℝ) (v0 : v 0 1 = 0) (vm : v m 1 = 0) :
    systemWork AssemblyPart.stiffness [chainPart b m] v (simpleField b m k F) = F * v k 1 := by
  have hl := hb.l
  have hE := hb.E
  have hI := hb.I
  have hm' : (0 : ℝ) < m := by exact_mod_cast hm
  rw [(chain_work b hb.l m hm _ _).1]
  set mom : ℕ → ℝ := fun i => if i ≤ k then -(F * (m - k : ℝ) / m * (i * b.l)) else -(F * k / m * (m * b.l - i * b.l)) with hmom
  set shear : ℕ → ℝ := fun i => if i ≤ k then -(F * (m - k : ℝ) / m) else F * k / m with hshear
  have tele : ∀ i ∈ range m, bilinear b.stiffness (sixValues v (i, i + 1)) (sixValues (simpleField b m k F) (i, i + 1)) =
      (mom (i + 1) * v (i + 1) 2 - shear (i + 1) * v (i + 1) 1 + if k < i + 1 then F * v k 1 else 0) -
        (mom i * v i 2 - shear i * v i 1 + if k < i then F * v k 1 else 0) := by
    intro i hi
    rw [Finset.mem_range] at hi
    by_cases hik : i + 1 ≤ k
    · rw [beam_linear_work b hb h1 h2 v _ i (-(F * (m - k : ℝ) / m * (i * b.l))) (-(F * (m - k : ℝ) / m))]
      · simp only [hmom, hshear, if_pos hik, if_pos (show i ≤ k by omega), if_neg (show ¬ k < i + 1 by omega),
          if_neg (show ¬ k < i by omega)]
        push_cast
        ring
      · simp [simpleField]
      · rw [simpleField_left b hb m k F (i + 1) hik, simpleField_left b hb m k F i (by omega)]
        simp only [Matrix.cons_val]
        push_cast
        field_simp
        ring
      · rw [simpleField_left b hb m k F (i + 1) hik, simpleField_left b hb m k F i (by omega)]
        simp only [Matrix.cons_val]
        push_cast
        field_simp
        ring
    · have hki : k ≤ i := by omega
      rw [beam_linear_work b hb h1 h2 v _ i (-(F * k / m * (m * b.l - i * b.l))) (F * k / m)]
      · simp only [hmom, hshear, if_neg hik, if_pos (show k < i + 1 by omega)]
        rcases hki.eq_or_lt with rfl | hlt
        · simp only [le_refl, if_true, lt_irrefl, if_false]
          push_cast
          field_simp
          ring
        · simp only [if_neg (show ¬ i ≤ k by omega), if_pos hlt]
          push_cast
          ring
      · simp [simpleField]
      · rw [simpleField_right b hb m k hm F (i + 1) (by omega) hi, simpleField_right b hb m k hm F i hki hi.le]
        simp only [Matrix.cons_val]
        push_cast
        field_simp
        ring
      · rw [simpleField_right b hb m k hm F (i + 1) (by omega) hi, simpleField_right b hb m k hm F i hki hi.le]
        simp only [Matrix.cons_val]
        push_cast
        field_simp
        ring
  rw [Finset.sum_congr rfl tele, Finset.sum_range_sub (fun i => mom i * v i 2 - shear i * v i 1 + if k < i then F * v k 1 else 0)]
  have m0 : mom 0 = 0 := by simp [hmom]
  have mm : mom m = 0 := by
    simp only [hmom]
    split_ifs with h
    · obtain rfl : m = k := le_antisymm h hk
      simp
    · simp
  rw [m0, mm, v0, vm]
  rcases hk.eq_or_lt with rfl | hlt
  · simp [vm]
  · simp [hlt]

theorem simpleBeam_supported (m : ℕ) (hm : 0 < m) (i : ℕ) (d : Fin 3) :
    Supported (simpleSupports m) i d ↔ (i = 0 ∧ (d = 0 ∨ d = 1)) ∨ (i = m ∧ d = 1) := by
  rw [← supported_iff]
  have hm' := hm.ne'
  simp only [setConstraints, setConstraint, simpleSupports, List.foldl_cons, List.foldl_nil, Function.update_apply]
  by_cases h0 : i = 0
  · subst h0
    rw [if_neg hm'.symm]
    fin_cases d <;> simp [hm'.symm]
  · by_cases h1 : i = m
    · subst h1
      fin_cases d <;> simp [h0]
    · fin_cases d <;> simp [h0, h1, freshFlags]

/-- A static calculation in which only the zero field is free of energy reports the field that is in equilibrium. -/
theorem static_reported (c : SystemRun ℝ) (hc : c.WellFormed) (ha : AxisAligned c.system)
    (hdef : ∀ w, Admissible c.system w → systemWork AssemblyPart.stiffness c.system.parts w w = 0 → ∀ i < c.system.n, w i = 0)
    (times : ℕ) (solver : TrimState ℝ → (List ℕ → ℕ → ℕ → ℝ) → SolverOutput ℝ)
    (hs : ∀ st rhs, (∃ u, SolvesStatics st rhs times u) → SolvesStatics st rhs times (solver st rhs)) :
    ∃ st rows, c.main freshFlags times solver = .ok (st, rows) ∧ rows.length = times ∧
      ∀ t (ht : t < rows.length), rows[t].length = c.system.n ∧ ∀ u, Admissible c.system u →
        (∀ v, Admissible c.system v →
          systemWork AssemblyPart.stiffness c.system.parts v u = loadWork (loadsAt c.timed t) v) →
        ∀ i < c.system.n, fieldOfRows rows[t] NodeRow.displacement i = u i := by
  obtain ⟨st, rows, h1, h2, h3⟩ := C121_static_partial c hc ha times solver fun st hst => by
    apply hs
    have hsol := solvable_of_definite st.N st.Kg fun U hU k hk => by
      have hr := fieldOf_represents c.system.n st.nodes U
      have e := (C106_work_partial c.input freshFlags hc.mesh ha st hst U U _ _ hr hr).1
      have hz := hdef _ (represents_admissible c hc.mesh ha st hst _ _ hr) (e.symm.trans hU)
      obtain ⟨r1, r2, -⟩ := C106_representable c.input freshFlags st hst
      obtain ⟨⟨i, d⟩, hid, -⟩ := r1 k hk
      rw [hr.value i d k hid, hz i (r2 i d k hid).1]
      rfl
    choose U hU _ using hsol
    exact ⟨⟨fun t => U (c.rhs st [] t), fun _ _ => 0, fun _ _ => 0⟩, fun t _ => ⟨[], fun i hi => hU _ i hi⟩⟩
  refine ⟨st, rows, h1, h2, fun t ht => ?_⟩
  obtain ⟨g0, -, -, g3⟩ := h3 t ht
  exact ⟨g0, fun u hu hw i hi => (g3 hdef u hu hw i hi).symm⟩

theorem nodeLoad_work (k : ℕ) (force : ℕ → ℝ) (t : ℕ) (v : NodalField ℝ) :
    loadWork (loadsAt [nodeLoad k force] t) v = force t * v k 1 := by
  simp [loadWork, loadsAt, nodeLoad, Fin.sum_univ_three]
  ring

theorem chain_mesh (b : BeamPart ℝ) (m : ℕ) : ∀ p ∈ [chainPart b m], (∀ e ∈ p.elements, e.1.1 < m + 1 ∧ e.1.2 < m + 1) ∧
    ∀ i ∈ p.nodes, i < m + 1 := by
  intro p hp
  rw [List.mem_singleton] at hp
  subst hp
  constructor
  · intro e he
    simp only [chainPart, beamAssembly, chainElements, List.mem_map, List.mem_range] at he
    obtain ⟨i, hi, rfl⟩ := he
    constructor <;> dsimp only <;> omega
  · intro i hi
    simpa [chainPart, beamAssembly] using hi

theorem chain_aligned (b : BeamPart ℝ) (hl : 0 < b.l) (m : ℕ) : ∀ p ∈ [chainPart b m], ∀ e ∈ p.elements,
    e.2.2 = 0 ∨ (e.2.1 = 0 ∧ p.act 1 = false ∧ p.act 2 = false) := by
  intro p hp e he
  rw [List.mem_singleton] at hp
  subst hp
  left
  simp only [chainPart, beamAssembly, chainElements_eq b.l hl, horizontalElements, List.mem_map] at he
  obtain ⟨x, -, rfl⟩ := he
  rfl

theorem simpleBeam_rows (b : BeamPart ℝ) (hb : b.Valid) (h1 : b.s1 = .inf) (h2 : b.s2 = .inf) (hp : RailPresent b) (m k : ℕ)
    (hm : 0 < m) (hk : k ≤ m) (force : ℕ → ℝ) (times : ℕ) (solver : TrimState ℝ → (List ℕ → ℕ → ℕ → ℝ) → SolverOutput ℝ)
    (hs : ∀ st rhs, (∃ u, SolvesStatics st rhs times u) → SolvesStatics st rhs times (solver st rhs)) :
    ∃ st rows, (simpleBeamRun b m k force).main freshFlags times solver = .ok (st, rows) ∧ rows.length = times ∧
      ∀ t (ht : t < rows.length), rows[t].length = m + 1 ∧ ∀ i (hi : i < rows[t].length),
        rows[t][i].displacement 0 = 0 ∧
        rows[t][i].displacement 1 =
          deflectionWithShear (b.E * b.I) b.shearFlexibility (m * b.l) (force t) (k * b.l) (i * b.l) ∧
        rows[t][i].displacement 2 = simpleSlope (b.E * b.I) (m * b.l) (force t) (k * b.l) (i * b.l) := by
  set c := simpleBeamRun b m k force with hcdef
  have hl := hb.l
  have hm' : (0 : ℝ) < m := by exact_mod_cast hm
  have hrem : ∀ i ≤ m, ∀ d, Removed c.system i d ↔ (i = 0 ∧ (d = 0 ∨ d = 1)) ∨ (i = m ∧ d = 1) := fun i hi d =>
    (chain_removed c.system b hb hp m hm rfl i hi d).trans (simpleBeam_supported m hm i d)
  have hc : c.WellFormed := by
    refine ⟨chain_mesh b m, fun l hl => ?_, fun l hl => ?_⟩
    · obtain rfl := List.mem_singleton.mp hl
      simp [nodeLoad]
    · obtain rfl := List.mem_singleton.mp hl
      intro i hi
      obtain rfl := List.mem_singleton.mp hi
      exact Nat.lt_succ_of_le hk
  have hdef : ∀ w, Admissible c.system w → systemWork AssemblyPart.stiffness c.system.parts w w = 0 →
      ∀ i < c.system.n, w i = 0 := by
    intro w hw h0 i hi
    have hz := chain_energy_zero b hb h1 h2 m hm w h0
    have w00 : w 0 0 = 0 := hw 0 (Nat.succ_pos m) 0 ((hrem 0 (Nat.zero_le _) 0).mpr (by simp))
    have w01 : w 0 1 = 0 := hw 0 (Nat.succ_pos m) 1 ((hrem 0 (Nat.zero_le _) 1).mpr (by simp))
    have wm1 : w m 1 = 0 := hw m (Nat.lt_succ_self m) 1 ((hrem m le_rfl 1).mpr (by simp))
    have w02 : w 0 2 = 0 := by
      have := (hz m le_rfl).2.1
      rw [wm1, w01, zero_add] at this
      have h3 : (m : ℝ) * b.l ≠ 0 := by positivity
      exact (mul_eq_zero.mp (show (m : ℝ) * b.l * w 0 2 = 0 by linarith)).resolve_left h3
    obtain ⟨z0, z1, z2⟩ := hz i (Nat.le_of_lt_succ hi)
    funext d
    fin_cases d
    · exact z0.trans w00
    · show w i 1 = 0
      rw [z1, w01, w02]; ring
    · exact z2.trans w02
  obtain ⟨st, rows, g1, g2, g3⟩ := static_reported c hc (chain_aligned b hb.l m) hdef times solver hs
  refine ⟨st, rows, g1, g2, fun t ht => ?_⟩
  obtain ⟨g4, g5⟩ := g3 t ht
  refine ⟨g4, fun i hi => ?_⟩
  have hadm : Admissible c.system (simpleField b m k (force t)) := by
    intro i hi d hr
    rcases (hrem i (Nat.le_of_lt_succ hi) d).mp hr with ⟨rfl, rfl | rfl⟩ | ⟨rfl, rfl⟩
    · simp [simpleField]
    · rw [simpleField_left b hb m k _ 0 (Nat.zero_le _)]
      simp
    · rw [simpleField_right b hb i k hm _ i hk le_rfl]
      simp
  have key := g5 (simpleField b m k (force t)) hadm (fun v hv => by
    rw [show c.timed = [nodeLoad k force] from rfl, nodeLoad_work]
    exact simpleField_work b hb h1 h2 m k hm hk (force t) v (hv 0 (Nat.succ_pos m) 1 ((hrem 0 (Nat.zero_le _) 1).mpr (by simp)))
      (hv m (Nat.lt_succ_self m) 1 ((hrem m le_rfl 1).mpr (by simp)))) i (by rw [← g4]; exact hi)
  have hrow : fieldOfRows rows[t] NodeRow.displacement i = rows[t][i].displacement := by
    simp [fieldOfRows, hi]
  rw [hrow] at key
  rw [key]
  exact ⟨rfl, rfl, rfl⟩

/-- **C146** For every beam of any number of elements on two supports, valid section and material, load history on any node
and solver that solves the equilibrium equations: the calculation succeeds, and at every time the nodes report no
horizontal displacement, the deflection of Euler-Bernoulli theory plus the deflection by shear if the section has a shear
factor, and the slope of the former as their rotation. -/
theorem C146_deflection (b : BeamPart ℝ) (hb : b.Valid) (h1 : b.s1 = .inf) (h2 : b.s2 = .inf) (hp : RailPresent b) (m k : ℕ)
    (hm : 0 < m) (hk : k ≤ m) (force : ℕ → ℝ) (times : ℕ) (solver : TrimState ℝ → (List ℕ → ℕ → ℕ → ℝ) → SolverOutput ℝ)
    (hs : ∀ st rhs, (∃ u, SolvesStatics st rhs times u) → SolvesStatics st rhs times (solver st rhs)) :
    ∃ st rows, (simpleBeamRun b m k force).main freshFlags times solver = .ok (st, rows) ∧ rows.length = times ∧
      ∀ t (ht : t < rows.length), rows[t].length = m + 1 ∧
        ∀ w, BeamDeflection (b.E * b.I) (m * b.l) (force t) (k * b.l) w → ∀ i (hi : i < rows[t].length),
          rows[t][i].displacement 0 = 0 ∧
          rows[t][i].displacement 1 = w (i * b.l) + b.shearFlexibility *
            (if i ≤ k then force t * (m * b.l - k * b.l) * (i * b.l) / (m * b.l)
              else force t * (k * b.l) * (m * b.l - i * b.l) / (m * b.l)) ∧
          HasDerivWithinAt w (rows[t][i].displacement 2) (Set.Icc 0 (m * b.l)) (i * b.l) := by
  obtain ⟨st, rows, g1, g2, g3⟩ := simpleBeam_rows b hb h1 h2 hp m k hm hk force times solver hs
  refine ⟨st, rows, g1, g2, fun t ht => ?_⟩
  obtain ⟨g4, g5⟩ := g3 t ht
  refine ⟨g4, fun w hw i hi => ?_⟩
  obtain ⟨r0, r1, r2⟩ := g5 i hi
  have hl := hb.l
  have hEI : b.E * b.I ≠ 0 := (mul_pos hb.E hb.I).ne'
  have hm' : (0 : ℝ) < m := by exact_mod_cast hm
  have hL : 0 < (m : ℝ) * b.l := by positivity
  have ha : 0 ≤ (k : ℝ) * b.l := by positivity
  have haL : (k : ℝ) * b.l ≤ m * b.l := mul_le_mul_of_nonneg_right (by exact_mod_cast hk) hl.le
  have hx : (i : ℝ) * b.l ∈ Set.Icc 0 (m * b.l) := by
    refine ⟨by positivity, mul_le_mul_of_nonneg_right ?_ hl.le⟩
    rw [g4] at hi
    exact_mod_cast Nat.le_of_lt_succ hi
  have hf := beamDeflection_unique hEI hL hw (beamDeflection_formula (F := force t) hEI hL ha haL)
  refine ⟨r0, ?_, ?_⟩
  · rw [r1, deflectionWithShear, hf _ hx]
    congr 2
    have : (i : ℝ) * b.l ≤ k * b.l ↔ i ≤ k := by
      rw [mul_le_mul_iff_left₀ hl]
      exact Nat.cast_le
    simp only [this]
  · rw [r2]
    exact ((simpleSupport_smooth (F := force t) hEI hL ha haL).first _ hx).congr hf (hf _ hx)

/-- **C146** For a beam without a shear factor whose nodes are the coordinates of the analytical solution: the reported
vertical displacements are the deflections `u` of `SimpleSupportEulerStatic`. -/
theorem C146_benchmark (b : BeamPart ℝ) (hb : b.Valid) (h1 : b.s1 = .inf) (h2 : b.s2 = .inf) (hp : RailPresent b)
    (hk0 : b.kappa = 0) (m k : ℕ) (hm : 0 < m) (hk : k ≤ m) (force : ℕ → ℝ) (times : ℕ)
    (solver : TrimState ℝ → (List ℕ → ℕ → ℕ → ℝ) → SolverOutput ℝ)
    (hs : ∀ st rhs, (∃ u, SolvesStatics st rhs times u) → SolvesStatics st rhs times (solver st rhs)) :
    ∃ st rows, (simpleBeamRun b m k force).main freshFlags times solver = .ok (st, rows) ∧ rows.length = times ∧
      ∀ t (ht : t < rows.length), rows[t].map (fun row => row.displacement 1) =
        (simpleSupportStatic b.l b.E b.I (m * b.l) (force t) (k * b.l)).2 := by
  obtain ⟨st, rows, g1, g2, g3⟩ := simpleBeam_rows b hb h1 h2 hp m k hm hk force times solver hs
  refine ⟨st, rows, g1, g2, fun t ht => ?_⟩
  obtain ⟨g4, g5⟩ := g3 t ht
  have hl := hb.l
  have hceil : ⌈(m : ℝ) * b.l / b.l⌉₊ = m := by
    rw [mul_div_assoc, div_self hl.ne', mul_one, Nat.ceil_natCast]
  have hsf : b.shearFlexibility = 0 := by simp [BeamPart.shearFlexibility, hk0]
  refine List.ext_getElem ?_ fun i h3 h4 => ?_
  · simp [g4, simpleSupportStatic, simpleSupportMesh, linspace, hceil]
  · rw [List.getElem_map, (g5 i (by simpa using h3)).2.1]
    simp only [simpleSupportStatic, List.getElem_map]
    rw [simpleSupportMesh_getElem _ _ _ _ (by rw [hceil]; exact hm), hceil, deflectionWithShear, hsf, zero_mul, add_zero]
    have hm' : (m : ℝ) ≠ 0 := by exact_mod_cast hm.ne'
    rw [mul_div_cancel_left₀ _ hm']

/-! ### Examples -/

/-- The beam of the benchmark. -/
noncomputable def benchmarkBeam : BeamPart ℝ :=
  { E := 20e7, nu := 0, rho := 1000, A := 1, I := 1, kappa := 0, l := 1 / 100, s1 := .inf, s2 := .inf }

theorem benchmarkBeam_valid : benchmarkBeam.Valid := by
  constructor <;> norm_num [benchmarkBeam]

theorem benchmarkBeam_present : RailPresent benchmarkBeam := by
  intro k
  rw [BeamPart.stiffness, beamStiffness_eq, BeamPart.massMatrix, beamMass, beamTransMass_eq, if_neg (by norm_num [benchmarkBeam, timoshenkoFactor])]
  fin_cases k <;> constructor <;> norm_num [benchmarkBeam, timoshenkoFactor, fixity]

/-- The calculation of the benchmark: 100 elements, the load at 0.4 m, three output times. -/
example : ∃ st rows, (simpleBeamRun benchmarkBeam 100 40 fun _ => -1000).main freshFlags 3
      (fun st rhs => open Classical in if h : ∃ u, SolvesStatics st rhs 3 u then h.choose else ⟨fun _ _ => 0, fun _ _ => 0, fun _ _ => 0⟩) =
      .ok (st, rows) ∧ rows.length = 3 ∧
    ∀ t (ht : t < rows.length), rows[t].map (fun row => row.displacement 1) =
        (simpleSupportStatic (1 / 100) 20e7 1 ((100 : ℕ) * (1 / 100)) (-1000) ((40 : ℕ) * (1 / 100))).2 :=
  C146_benchmark benchmarkBeam benchmarkBeam_valid rfl rfl benchmarkBeam_present rfl 100 40 (by norm_num) (by norm_num) _ 3 _
    fun st rhs h => by
      rw [dif_pos h]
      exact h.choose_spec

end Rose
