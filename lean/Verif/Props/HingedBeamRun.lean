/-
C156: the calculation of a beam with a hinge reports, at the hinge, the deflection of beam theory.
-/
import Verif.Model.HingedBeamRun
import Verif.Props.SimpleBeam
import Verif.Props.HingedGenerated
import Verif.Props.AnalyticalHinge
import Verif.Props.WheelLoad

set_option linter.unusedSectionVars false

namespace Rose
open Finset Spec

/-! ### Elements -/

theorem bilinear_symmetric {n : ℕ} (A : Matrix (Fin n) (Fin n) ℝ) (h : A.IsSymm) (x y : Fin n → ℝ) : bilinear A x y = bilinear A y x := by
  unfold bilinear
  rw [Finset.sum_comm]
  refine Finset.sum_congr rfl fun j _ => Finset.sum_congr rfl fun i _ => ?_
  rw [show A i j = A j i from h.apply j i]
  ring

/-- The work of an element with a pin at its second end whose moment falls from `M` at its first end to zero. -/
theorem pinned_work (b : BeamPart ℝ) (hb : b.Valid) (hk : b.kappa = 0) (v u : NodalField ℝ) (i : ℕ) (M : ℝ)
    (h0 : u (i + 1) 0 = u i 0) (hw : u (i + 1) 1 = u i 1 + u i 2 * b.l + M * b.l ^ 2 / (3 * (b.E * b.I))) :
    bilinear (BeamPart.stiffness { b with s1 := .inf, s2 := .fin 0 }) (sixValues v (i, i + 1)) (sixValues u (i, i + 1)) =
      -M * v i 2 + M / b.l * (v (i + 1) 1 - v i 1) := by
  have hE := hb.E; have hA := hb.A; have hI := hb.I; have hl := hb.l
  have hphi : timoshenkoFactor b = 0 := by simp [timoshenkoFactor, hk]
  have hphi' : timoshenkoFactor { b with s1 := .inf, s2 := .fin 0 } = 0 := hphi
  rw [BeamPart.stiffness, hphi', beamStiffness_eq]
  simp only [fixity, lt_irrefl, if_false]
  unfold bilinear
  simp only [Fin.sum_univ_six]
  simp [sixValues, h0, hw]
  field_simp
  ring

/-- The work of an element with a pin at its first end that only turns. -/
theorem pinned_still (b : BeamPart ℝ) (hb : b.Valid) (hk : b.kappa = 0) (v u : NodalField ℝ) (i : ℕ)
    (h0 : u (i + 1) 0 = u i 0) (hw : u (i + 1) 1 = u i 1 + u (i + 1) 2 * b.l) :
    bilinear (BeamPart.stiffness { b with s1 := .fin 0, s2 := .inf }) (sixValues v (i, i + 1)) (sixValues u (i, i + 1)) = 0 := by
  have hE := hb.E; have hA := hb.A; have hI := hb.I; have hl := hb.l
  have hphi : timoshenkoFactor b = 0 := by simp [timoshenkoFactor, hk]
  have hphi' : timoshenkoFactor { b with s1 := .fin 0, s2 := .inf } = 0 := hphi
  rw [BeamPart.stiffness, hphi', beamStiffness_eq]
  simp only [fixity, lt_irrefl, if_false]
  unfold bilinear
  simp only [Fin.sum_univ_six]
  simp [sixValues, h0, hw]
  field_simp
  ring

/-! ### The parts -/

/-- The elements between `k + 1` successive nodes. -/
noncomputable def elementsFrom (l : ℝ) (a k : ℕ) : List ((ℕ × ℕ) × (ℝ × ℝ)) := beamElements l ((List.range' a k).map fun i => (i, i + 1))

/-- The four parts of the beam. -/
noncomputable def hingedBeamParts (b : BeamPart ℝ) (m h : ℕ) : List (AssemblyPart ℝ) :=
  [beamAssembly b (elementsFrom b.l 0 (h - 1)) (List.range h),
   beamAssembly { b with s1 := .inf, s2 := .fin 0 } (elementsFrom b.l (h - 1) 1) [h - 1, h],
   beamAssembly { b with s1 := .fin 0, s2 := .inf } (elementsFrom b.l h 1) [h, h + 1],
   beamAssembly b (elementsFrom b.l (h + 1) (m - h - 1)) (List.range' (h + 1) (m - h))]

/-- The constraint parts. -/
def hingedSupports (m : ℕ) : List ConstraintPart :=
  [{ nodes := [0], free := ![false, false, false] }, { nodes := [m], free := ![false, false, true] }]

/-- The calculation once the rail is split. -/
noncomputable def hingedBeamOf (b : BeamPart ℝ) (m h : ℕ) (place : ℕ → ℕ) (force : ℕ → ℝ) : SystemRun ℝ :=
  { system :=
      { n := m + 1, parts := hingedBeamParts b m h, loads := [], constraints := hingedSupports m
        isRayleigh := true, ratio := 3 / 10, w1 := 2, w2 := 500 }
    timed := [steppingLoad m place force] }

theorem split_unique (a b a' b' : List ℕ) (c : ℕ) (hnd : (a ++ [c] ++ b).Nodup) (heq : a ++ [c] ++ b = a' ++ [c] ++ b') :
    a = a' ∧ b = b' := by
  have hnd' := heq ▸ hnd
  have key : ∀ x y : List ℕ, (x ++ [c] ++ y).Nodup → (x ++ [c] ++ y).idxOf c = x.length := by
    intro x y h
    rw [List.append_assoc, List.idxOf_append_of_notMem]
    · simp
    · intro hc
      rw [List.append_assoc, List.nodup_append] at h
      exact h.2.2 c hc c (by simp) rfl
  have hl : a.length = a'.length := by rw [← key a b hnd, ← key a' b' hnd', heq]
  rw [List.append_assoc, List.append_assoc] at heq
  obtain ⟨h1, h2⟩ := List.append_inj heq hl
  exact ⟨h1, by simpa using h2⟩

/-- The split of the rail: nodes that are not close to each other, a hinge at an inner node. -/
theorem hingedBeamRun_eq (b : BeamPart ℝ) (hl : 0 < b.l) (m h : ℕ) (h2 : 2 ≤ h) (hm : h + 2 ≤ m)
    (near : 1 / 100000000 + 1 / 100000 * ((h : ℝ) * b.l) < b.l) (place : ℕ → ℕ) (force : ℕ → ℝ) :
    hingedBeamRun b m (h * b.l) place force = .ok (hingedBeamOf b m h place force) := by
  have hdec : List.range (m + 1) = List.range (h - 1) ++ (h - 1) :: h :: (h + 1) :: List.range' (h + 2) (m - h - 1) := by
    rw [List.range_eq_range', List.range_eq_range', show m + 1 = (h - 1) + (m - h - 1 + 3) by omega, ← List.range'_append_1]
    rw [List.range'_succ, List.range'_succ, List.range'_succ]
    simp only [zero_add, show h - 1 + 1 = h by omega]
  have hclose : npIsClose (((h : ℕ) : ℝ) * b.l) ((h : ℝ) * b.l) := by
    unfold npIsClose
    simp only [sub_self, abs_zero]
    positivity
  have hfirst : ∀ n ∈ List.range (h - 1) ++ [h - 1], ¬ npIsClose (((n : ℕ) : ℝ) * b.l) ((h : ℝ) * b.l) := by
    intro i hi
    have hi' : i < h := by
      rcases List.mem_append.mp hi with hi | hi
      · rw [List.mem_range] at hi; omega
      · rw [List.mem_singleton] at hi; omega
    unfold npIsClose
    have h1 : (i : ℝ) + 1 ≤ h := by exact_mod_cast hi'
    have h2 : ((i : ℝ) + 1) * b.l ≤ h * b.l := mul_le_mul_of_nonneg_right h1 hl.le
    rw [abs_of_nonpos (by nlinarith), abs_of_nonneg (by positivity)]
    intro hc
    nlinarith
  obtain ⟨p1, lp, rp, p2, hadd, -, hnodes, he1, he2, hle, hln, hre, hrn, hs1, hs2, hs3, hs4, hs5, hs6, hs7, hs8⟩ :=
    C50_split_partial (fun n : ℕ => (n : ℝ) * b.l) 0 ((h : ℝ) * b.l) _ _ _ _ _ (List.range (m + 1)) hdec List.nodup_range hclose hfirst
  obtain ⟨n1, n2⟩ := split_unique p1.nodes p2.nodes (List.range (h - 1) ++ [h - 1]) ((h + 1) :: List.range' (h + 2) (m - h - 1)) h
    (by rw [hnodes]; exact List.nodup_range) (by rw [hnodes, hdec]; simp)
  have n1' : p1.nodes = List.range h := by
    rw [n1, ← List.range_succ, Nat.succ_eq_add_one, show h - 1 + 1 = h by omega]
  have n2' : p2.nodes = List.range' (h + 1) (m - h) := by
    rw [n2, show m - h = m - h - 1 + 1 by omega, List.range'_succ]
    rfl
  have hch : chainOf (List.range (m + 1)) = (List.range m).map fun i => (i, i + 1) := by rw [chainOf_range]; rfl
  have b1 : p1.beam b = b := by simp [RailPart.beam, hs1, hs2]
  have b2 : p2.beam b = b := by simp [RailPart.beam, hs3, hs4]
  have b3 : lp.beam b = { b with s1 := .inf, s2 := .fin 0 } := by simp [RailPart.beam, hs5, hs6, springOf]
  have b4 : rp.beam b = { b with s1 := .fin 0, s2 := .inf } := by simp [RailPart.beam, hs7, hs8, springOf]
  have hhd : (List.range h).head? = some 0 := by
    rw [List.head?_range, if_neg (by omega)]
  have hlt : (List.range' (h + 1) (m - h)).getLast? = some m := by
    rw [List.getLast?_range', if_neg (by omega)]
    congr 1
    omega
  unfold hingedBeamRun
  rw [← hch, hadd]
  simp only [bind, Except.bind, List.head?_cons, Option.bind_some, List.getLast?_cons_cons, List.getLast?_singleton, n1', n2', hhd, hlt]
  unfold hingedBeamOf hingedBeamParts elementsFrom hingedSupports
  simp only [List.map_cons, List.map_nil, b1, b2, b3, b4, he1, he2, hle, hre, hln, hrn, n1', n2', chainOf_range',
    List.range_eq_range', List.range'_one, show h - 1 + 1 = h by omega]

theorem elementsFrom_eq (l : ℝ) (hl : 0 < l) (a k : ℕ) :
    elementsFrom l a k = horizontalElements ((List.range' a k).map fun i => (i, i + 1)) := by
  unfold elementsFrom beamElements horizontalElements
  rw [List.map_map, List.map_map]
  refine List.map_congr_left fun i _ => ?_
  have h : (i : ℝ) * l < ((i + 1 : ℕ) : ℝ) * l := by push_cast; nlinarith
  simp only [Function.comp_apply, rotation_right _ _ _ h, Real.cos_zero, Real.sin_zero]

theorem from_partWork (b : BeamPart ℝ) (l : ℝ) (hl : 0 < l) (a k : ℕ) (hk : 0 < k) (ns : List ℕ) (A : Matrix (Fin 6) (Fin 6) ℝ)
    (v u : NodalField ℝ) : partWork (beamAssembly b (elementsFrom l a k) ns) (matrixEntries A) v u =
      ∑ i ∈ range k, bilinear A (sixValues v (a + i, a + i + 1)) (sixValues u (a + i, a + i + 1)) := by
  have hne : ((List.range' a k).map fun i => (i, i + 1)) ≠ [] := by
    intro h
    have := congrArg List.length h
    simp at this
    omega
  rw [beam_partWork _ _ hne (elementsFrom_eq l hl a k) rfl, List.map_map, Finset.sum_range, ← List.sum_ofFn, List.ofFn_eq_map,
    List.range'_eq_map_range, ← List.map_coe_finRange_eq_range, List.map_map, List.map_map]
  rfl

/-- The work of the matrices of the beam with a hinge. -/
theorem hingedBeam_work (matrix : AssemblyPart ℝ → Option (ℕ × ℕ → ℝ)) (f : BeamPart ℝ → Matrix (Fin 6) (Fin 6) ℝ)
    (hf : ∀ b es ns, matrix (beamAssembly b es ns) = some (matrixEntries (f b))) (b : BeamPart ℝ) (hl : 0 < b.l) (m h : ℕ)
    (h2 : 2 ≤ h) (hm : h + 2 ≤ m) (v u : NodalField ℝ) :
    systemWork matrix (hingedBeamParts b m h) v u =
      (∑ i ∈ range (h - 1), bilinear (f b) (sixValues v (i, i + 1)) (sixValues u (i, i + 1))) +
      bilinear (f { b with s1 := .inf, s2 := .fin 0 }) (sixValues v (h - 1, h)) (sixValues u (h - 1, h)) +
      bilinear (f { b with s1 := .fin 0, s2 := .inf }) (sixValues v (h, h + 1)) (sixValues u (h, h + 1)) +
      ∑ i ∈ range (m - h - 1), bilinear (f b) (sixValues v (h + 1 + i, h + 1 + i + 1)) (sixValues u (h + 1 + i, h + 1 + i + 1)) := by
  have hh : h - 1 + 1 = h := by omega
  unfold hingedBeamParts
  rw [systemWork_cons_some matrix _ _ _ (hf _ _ _), systemWork_cons_some matrix _ _ _ (hf _ _ _),
    systemWork_cons_some matrix _ _ _ (hf _ _ _), systemWork_cons_some matrix _ _ _ (hf _ _ _),
    from_partWork _ _ hl _ _ (by omega), from_partWork _ _ hl _ _ (by omega), from_partWork _ _ hl _ _ (by omega),
    from_partWork _ _ hl _ _ (by omega)]
  simp only [Finset.sum_range_one, zero_add, add_zero, hh, systemWork, List.map_nil, List.sum_nil]
  ring

/-- The beam of element `i`. -/
def elementBeam (b : BeamPart ℝ) (h i : ℕ) : BeamPart ℝ :=
  if i + 1 = h then { b with s1 := .inf, s2 := .fin 0 } else if i = h then { b with s1 := .fin 0, s2 := .inf } else b

theorem elementBeam_valid (b : BeamPart ℝ) (hb : b.Valid) (h i : ℕ) : (elementBeam b h i).Valid := by
  unfold elementBeam
  split_ifs
  · exact ⟨hb.E, hb.nu, hb.rho, hb.A, hb.I, hb.kappa, hb.l⟩
  · exact ⟨hb.E, hb.nu, hb.rho, hb.A, hb.I, hb.kappa, hb.l⟩
  · exact hb

theorem elementBeam_mass (b : BeamPart ℝ) (h i : ℕ) : (elementBeam b h i).massMatrix = b.massMatrix := by
  unfold elementBeam
  split_ifs <;> rfl

theorem elementBeam_plain (b : BeamPart ℝ) (h i : ℕ) (h1 : i + 1 ≠ h) (h2 : i ≠ h) : elementBeam b h i = b := by
  simp [elementBeam, h1, h2]

/-- The same work element by element. -/
theorem hingedBeam_sum (matrix : AssemblyPart ℝ → Option (ℕ × ℕ → ℝ)) (f : BeamPart ℝ → Matrix (Fin 6) (Fin 6) ℝ)
    (hf : ∀ b es ns, matrix (beamAssembly b es ns) = some (matrixEntries (f b))) (b : BeamPart ℝ) (hl : 0 < b.l) (m h : ℕ)
    (h2 : 2 ≤ h) (hm : h + 2 ≤ m) (v u : NodalField ℝ) :
    systemWork matrix (hingedBeamParts b m h) v u =
      ∑ i ∈ range m, bilinear (f (elementBeam b h i)) (sixValues v (i, i + 1)) (sixValues u (i, i + 1)) := by
  have hh : h - 1 + 1 = h := by omega
  rw [hingedBeam_work matrix f hf b hl m h h2 hm]
  conv_rhs => rw [show m = h - 1 + 1 + 1 + (m - h - 1) by omega, Finset.sum_range_add, Finset.sum_range_succ, Finset.sum_range_succ]
  rw [hh]
  congr 1
  · congr 1
    · congr 1
      · refine Finset.sum_congr rfl fun i hi => ?_
        rw [Finset.mem_range] at hi
        rw [elementBeam_plain b h i (by omega) (by omega)]
      · simp [elementBeam, hh]
    · simp [elementBeam]
  · refine Finset.sum_congr rfl fun i hi => ?_
    rw [elementBeam_plain b h _ (by omega) (by omega)]

theorem hingedBeam_stiffness (b : BeamPart ℝ) (hl : 0 < b.l) (m h : ℕ) (h2 : 2 ≤ h) (hm : h + 2 ≤ m) (v u : NodalField ℝ) :
    systemWork AssemblyPart.stiffness (hingedBeamParts b m h) v u =
      ∑ i ∈ range m, bilinear (elementBeam b h i).stiffness (sixValues v (i, i + 1)) (sixValues u (i, i + 1)) :=
  hingedBeam_sum AssemblyPart.stiffness BeamPart.stiffness (fun _ _ _ => rfl) b hl m h h2 hm v u

theorem hingedBeam_mass (b : BeamPart ℝ) (hl : 0 < b.l) (m h : ℕ) (h2 : 2 ≤ h) (hm : h + 2 ≤ m) (v u : NodalField ℝ) :
    systemWork AssemblyPart.mass (hingedBeamParts b m h) v u =
      ∑ i ∈ range m, bilinear b.massMatrix (sixValues v (i, i + 1)) (sixValues u (i, i + 1)) := by
  rw [hingedBeam_sum AssemblyPart.mass BeamPart.massMatrix (fun _ _ _ => rfl) b hl m h h2 hm v u]
  simp only [elementBeam_mass]

/-- Work is symmetric. -/
theorem hingedBeam_symmetric (b : BeamPart ℝ) (hl : 0 < b.l) (m h : ℕ) (h2 : 2 ≤ h) (hm : h + 2 ≤ m) (v u : NodalField ℝ) :
    systemWork AssemblyPart.stiffness (hingedBeamParts b m h) v u = systemWork AssemblyPart.stiffness (hingedBeamParts b m h) u v := by
  rw [hingedBeam_stiffness b hl m h h2 hm, hingedBeam_stiffness b hl m h h2 hm]
  exact Finset.sum_congr rfl fun i _ => bilinear_symmetric _ (C19_beam_symmetric _) _ _

/-! ### What is removed -/

theorem family_unit (A : ℕ → Matrix (Fin 6) (Fin 6) ℝ) (hA : ∀ j u, 0 ≤ energy (A j) u) (t : ℝ) (m j : ℕ) (hj : j < m) (i : ℕ) (d : Fin 3)
    (q : Fin 6) (hq : sixValues (unitField i d) (j, j + 1) = Pi.single q (1 : ℝ)) (ht : t < A j q q) :
    t < ∑ j ∈ range m, bilinear (A j) (sixValues (unitField i d) (j, j + 1)) (sixValues (unitField i d) (j, j + 1)) := by
  refine lt_of_lt_of_le ?_ (Finset.single_le_sum (f := fun j => bilinear (A j) (sixValues (unitField i d) (j, j + 1))
    (sixValues (unitField i d) (j, j + 1))) (fun j _ => hA j _) (Finset.mem_range.mpr hj))
  simp only [hq]
  exact ht.trans_eq (energy_unit (A j) q).symm

theorem unit_first (i : ℕ) (d : Fin 3) : sixValues (unitField i d) (i, i + 1) = Pi.single (⟨d, by omega⟩ : Fin 6) (1 : ℝ) := by
  ext q
  fin_cases d <;> fin_cases q <;> simp [sixValues, unitField]

theorem unit_second (j : ℕ) (d : Fin 3) : sixValues (unitField (j + 1) d) (j, j + 1) = Pi.single (⟨d + 3, by omega⟩ : Fin 6) (1 : ℝ) := by
  ext q
  fin_cases d <;> fin_cases q <;> simp [sixValues, unitField]

theorem hingedBeam_supported (m : ℕ) (hm : 0 < m) (i : ℕ) (d : Fin 3) :
    Supported (hingedSupports m) i d ↔ i = 0 ∨ (i = m ∧ (d = 0 ∨ d = 1)) := by
  rw [← supported_iff]
  have hm' := hm.ne'
  simp only [setConstraints, setConstraint, hingedSupports, List.foldl_cons, List.foldl_nil, Function.update_apply]
  by_cases h0 : i = 0
  · subst h0
    rw [if_neg hm'.symm]
    fin_cases d <;> simp
  · by_cases h1 : i = m
    · subst h1
      fin_cases d <;> simp [h0]
    · fin_cases d <;> simp [h0, h1, freshFlags]

/-- A beam that is not trimmed away: the diagonal entries of its matrices and the stiffness `3 EI / l³` of an element with a pin. -/
structure HingedPresent (b : BeamPart ℝ) : Prop where
  rail : RailPresent b
  pin : 1 / 10 ^ 8 < 3 * b.E * b.I / b.l ^ 3

theorem hingedBeam_removed (b : BeamPart ℝ) (hb : b.Valid) (hk : b.kappa = 0) (hp : HingedPresent b) (m h : ℕ) (h2 : 2 ≤ h) (hm : h + 2 ≤ m)
    (place : ℕ → ℕ) (force : ℕ → ℝ) (i : ℕ) (hi : i ≤ m) (d : Fin 3) :
    Removed (hingedBeamOf b m h place force).system i d ↔ i = 0 ∨ (i = m ∧ (d = 0 ∨ d = 1)) ∨ (i = h ∧ d = 2) := by
  have hl := hb.l
  have hphi : timoshenkoFactor b = 0 := by simp [timoshenkoFactor, hk]
  have hs := hingedBeam_supported m (by omega) i d
  constructor
  · intro hr
    by_contra hno
    push Not at hno
    obtain ⟨n0, nm, nh⟩ := hno
    have hns : ¬ Supported (hingedSupports m) i d := by
      rw [hs]
      push Not
      exact ⟨n0, nm⟩
    obtain ⟨j, rfl⟩ : ∃ j, i = j + 1 := ⟨i - 1, by omega⟩
    have hmass : 1 / 10 ^ 8 < systemWork AssemblyPart.mass (hingedBeamParts b m h) (unitField (j + 1) d) (unitField (j + 1) d) := by
      rw [hingedBeam_mass b hl m h h2 hm]
      exact family_unit (fun _ => b.massMatrix) (fun _ => beam_mass_nonneg b hb) _ m j (by omega) (j + 1) d _ (unit_second j d) (hp.rail _).1
    have hstiff : 1 / 10 ^ 8 < systemWork AssemblyPart.stiffness (hingedBeamParts b m h) (unitField (j + 1) d) (unitField (j + 1) d) := by
      rw [hingedBeam_stiffness b hl m h h2 hm]
      have hpsd : ∀ j u, 0 ≤ energy (elementBeam b h j).stiffness u := fun j => C19_beam_psd _ (elementBeam_valid b hb h j)
      by_cases hj : j + 1 = h
      · refine family_unit (fun j => (elementBeam b h j).stiffness) hpsd _ m j (by omega) (j + 1) d _ (unit_second j d) ?_
        have hE := hb.E
        have hI := hb.I
        have r3 := (hp.rail 3).2
        have r4 := hp.pin
        have e : elementBeam b h j = { b with s1 := .inf, s2 := .fin 0 } := by simp [elementBeam, hj]
        have hphi' : timoshenkoFactor { b with s1 := .inf, s2 := .fin 0 } = 0 := hphi
        have hd : d = 0 ∨ d = 1 := by
          have := nh hj
          fin_cases d <;> simp_all
        rw [BeamPart.stiffness, hphi, beamStiffness_eq] at r3
        simp only [e]
        rw [BeamPart.stiffness, hphi', beamStiffness_eq]
        rcases hd with rfl | rfl
        · simpa [fixity] using r3
        · simp [fixity]
          norm_num at r4 ⊢
          refine r4.trans_eq ?_
          field_simp
      · by_cases hj' : j = h
        · refine family_unit (fun j => (elementBeam b h j).stiffness) hpsd _ m (j + 1) (by omega) (j + 1) d _ (unit_first (j + 1) d) ?_
          rw [elementBeam_plain b h _ (by omega) (by omega)]
          exact (hp.rail _).2
        · refine family_unit (fun j => (elementBeam b h j).stiffness) hpsd _ m j (by omega) (j + 1) d _ (unit_second j d) ?_
          rw [elementBeam_plain b h _ hj hj']
          exact (hp.rail _).2
    rcases hr with h | h | h
    · exact hns h
    · exact absurd (hmass.trans_le (le_abs_self _)) (not_lt.mpr h)
    · exact absurd (hstiff.trans_le (le_abs_self _)) (not_lt.mpr h)
  · rintro (h0 | h0 | ⟨rfl, rfl⟩)
    · exact Or.inl (hs.mpr (Or.inl h0))
    · exact Or.inl (hs.mpr (Or.inr h0))
    · right; right
      show |systemWork AssemblyPart.stiffness (hingedBeamParts b m i) (unitField i 2) (unitField i 2)| ≤ _
      rw [hingedBeam_stiffness b hl m i h2 hm, Finset.sum_eq_zero, abs_zero]
      · norm_num
      · intro j hj
        by_cases h1 : j + 1 = i
        · subst h1
          rw [unit_second, show bilinear (elementBeam b (j + 1) j).stiffness _ _ = energy _ _ from rfl, energy_unit]
          simp [elementBeam, BeamPart.stiffness, beamStiffness_eq, fixity]
        · by_cases h3 : j = i
          · subst h3
            rw [unit_first, show bilinear (elementBeam b j j).stiffness _ _ = energy _ _ from rfl, energy_unit]
            simp [elementBeam, BeamPart.stiffness, beamStiffness_eq, fixity]
          · have : sixValues (unitField i 2 : NodalField ℝ) (j, j + 1) = 0 := sixValues_unit_zero i 2 _ h3 h1
            rw [this, bilinear_zero]

/-! ### Equilibrium -/

/-- A static calculation in which only the zero field is free of energy reports an admissible field in equilibrium. -/
theorem static_equilibrium (c : SystemRun ℝ) (hc : c.WellFormed) (ha : AxisAligned c.system)
    (hdef : ∀ w, Admissible c.system w → systemWork AssemblyPart.stiffness c.system.parts w w = 0 → ∀ i < c.system.n, w i = 0)
    (times : ℕ) (solver : TrimState ℝ → (List ℕ → ℕ → ℕ → ℝ) → SolverOutput ℝ)
    (hs : ∀ st rhs, (∃ u, SolvesStatics st rhs times u) → SolvesStatics st rhs times (solver st rhs)) :
    ∃ st rows, c.main freshFlags times solver = .ok (st, rows) ∧ rows.length = times ∧
      ∀ t (ht : t < rows.length), rows[t].length = c.system.n ∧
        Admissible c.system (fieldOfRows rows[t] NodeRow.displacement) ∧
        ∀ v, Admissible c.system v →
          systemWork AssemblyPart.stiffness c.system.parts v (fieldOfRows rows[t] NodeRow.displacement) =
            loadWork (loadsAt c.timed t) v := by
  obtain ⟨st, rows, h1, h2, h3⟩ := C121_static_partial c hc ha times solver fun st hst => by
    apply hs
    have hsol := solvable_of_definite st.N st.Kg fun U hU k hk => by
      have hr := fieldOf_represents c.system.n st.nodes U
      have e := (C106_work_partial c.input freshFlags hc.mesh ha st hst U U _ _ hr hr).1
      have hz := hdef _ (represents_admissible c hc.mesh ha st hst _ _ hr) (e.symm.trans hU)
      obtain ⟨r1, r2, -⟩ := C106_representable c.input freshFlags st hst
      obtain ⟨⟨i, d⟩, hid, -⟩ := r1 k hk
      rw [hr.value i d k hid, hz i (r2 i d k hid).1]
      rfl
    choose U hU _ using hsol
    exact ⟨⟨fun t => U (c.rhs st [] t), fun _ _ => 0, fun _ _ => 0⟩, fun t _ => ⟨[], fun i hi => hU _ i hi⟩⟩
  refine ⟨st, rows, h1, h2, fun t ht => ?_⟩
  obtain ⟨g0, g1, g2, -⟩ := h3 t ht
  exact ⟨g0, g1, g2⟩

theorem chain_rigid_from (l : ℝ) (u : NodalField ℝ) (a k : ℕ)
    (h : ∀ i < k, RigidMotion l (sixValues u (a + i, a + i + 1))) (i : ℕ) (hi : i ≤ k) :
    u (a + i) 0 = u a 0 ∧ u (a + i) 1 = u a 1 + i * (l * u a 2) ∧ u (a + i) 2 = u a 2 := by
  refine chain_rigid l (List.range' a (k + 1)) u (fun e he => ?_) a (by simp) i (a + i) (by simp [List.getElem?_range' (by omega : i < k + 1)])
  rw [chainOf_range', List.mem_map] at he
  obtain ⟨j, hj, rfl⟩ := he
  rw [List.mem_range'_1] at hj
  obtain ⟨i, rfl⟩ : ∃ i, j = a + i := ⟨j - a, by omega⟩
  exact h i (by omega)

/-- No admissible field other than zero is free of energy. -/
theorem hingedBeam_definite (b : BeamPart ℝ) (hb : b.Valid) (h1 : b.s1 = .inf) (h2 : b.s2 = .inf) (m h : ℕ) (hh : 2 ≤ h) (hm : h + 2 ≤ m)
    (w : NodalField ℝ) (w0 : w 0 = 0) (wm : w m 1 = 0) (wh : w h 2 = 0)
    (hw : systemWork AssemblyPart.stiffness (hingedBeamParts b m h) w w = 0) (i : ℕ) (hi : i ≤ m) : w i = 0 := by
  have hl := hb.l
  rw [hingedBeam_stiffness b hl m h hh hm] at hw
  have hz := (Finset.sum_eq_zero_iff_of_nonneg fun j _ => C19_beam_psd _ (elementBeam_valid b hb h j) _).mp hw
  have left := chain_rigid_from b.l w 0 (h - 1) fun i hi => by
    have := hz (0 + i) (Finset.mem_range.mpr (by omega))
    rw [elementBeam_plain b h _ (by omega) (by omega)] at this
    exact (C19_beam_kernel b hb h1 h2 _).mp this
  have hleft : ∀ i < h, w i = 0 := by
    intro i hi
    obtain ⟨a0, a1, a2⟩ := left i (by omega)
    rw [zero_add] at a0 a1 a2
    funext d
    fin_cases d
    · simpa [w0] using a0
    · simpa [w0] using a1
    · simpa [w0] using a2
  have e1 : elementBeam b h (h - 1) = { b with s1 := .inf, s2 := .fin 0 } := by
    simp [elementBeam, show h - 1 + 1 = h by omega]
  have e2 : elementBeam b h h = { b with s1 := .fin 0, s2 := .inf } := by simp [elementBeam]
  have k1 := hz (h - 1) (Finset.mem_range.mpr (by omega))
  have k2 := hz h (Finset.mem_range.mpr (by omega))
  rw [e1] at k1
  rw [e2] at k2
  have v1 := elementBeam_valid b hb h (h - 1)
  have v2 := elementBeam_valid b hb h h
  rw [e1] at v1
  rw [e2] at v2
  obtain ⟨c0, c1, -⟩ := semi_second _ v1 rfl 0 rfl _ k1
  obtain ⟨d0, d1, -⟩ := semi_first _ v2 rfl 0 rfl _ k2
  simp only [sixValues, show h - 1 + 1 = h by omega, Matrix.cons_val, Matrix.cons_val_zero, Matrix.cons_val_one,
    hleft (h - 1) (by omega), Pi.zero_apply, mul_zero, add_zero] at c0 c1 d0 d1
  rw [c0] at d0
  rw [c1, zero_add] at d1
  have hzero : w h = 0 := by
    funext d
    fin_cases d
    · exact c0
    · exact c1
    · exact wh
  have right := chain_rigid_from b.l w (h + 1) (m - h - 1) fun i hi => by
    have := hz (h + 1 + i) (Finset.mem_range.mpr (by omega))
    rw [elementBeam_plain b h _ (by omega) (by omega)] at this
    exact (C19_beam_kernel b hb h1 h2 _).mp this
  have hslope : w (h + 1) 2 = 0 := by
    have := (right (m - h - 1) le_rfl).2.1
    rw [show h + 1 + (m - h - 1) = m by omega, wm, d1] at this
    have hp : 0 < b.l + ((m - h - 1 : ℕ) : ℝ) * b.l := by positivity
    exact (mul_eq_zero.mp (show (b.l + ((m - h - 1 : ℕ) : ℝ) * b.l) * w (h + 1) 2 = 0 by linarith)).resolve_left hp.ne'
  rw [hslope, mul_zero] at d1
  rcases lt_trichotomy i h with hi' | rfl | hi'
  · exact hleft i hi'
  · exact hzero
  · obtain ⟨j, rfl⟩ : ∃ j, i = h + 1 + j := ⟨i - h - 1, by omega⟩
    obtain ⟨r0, r1, r2⟩ := right j (by omega)
    funext d
    fin_cases d
    · exact r0.trans d0
    · show w (h + 1 + j) 1 = 0
      rw [r1, d1, hslope]; ring
    · exact r2.trans hslope

/-- The nodal values of the deflection under a load of one at the hinge. -/
noncomputable def hingeInfluence (b : BeamPart ℝ) (m h : ℕ) : NodalField ℝ := fun i =>
  if i < h then ![0, (i * b.l) ^ 2 * (3 * (h * b.l) - i * b.l) / (6 * (b.E * b.I)), i * b.l * (2 * (h * b.l) - i * b.l) / (2 * (b.E * b.I))]
  else if i = h then ![0, (h * b.l) ^ 3 / (3 * (b.E * b.I)), 0]
  else ![0, (h * b.l) ^ 3 / (3 * (b.E * b.I)) * ((m - i : ℝ) / (m - h)), -((h * b.l) ^ 3 / (3 * (b.E * b.I)) / ((m - h) * b.l))]

/-- In every virtual displacement that the supports admit, the elements do the work of the load of one. -/
theorem hingeInfluence_work (b : BeamPart ℝ) (hb : b.Valid) (h1 : b.s1 = .inf) (h2 : b.s2 = .inf) (hk : b.kappa = 0) (m h : ℕ)
    (hh : 2 ≤ h) (hm : h + 2 ≤ m) (v : NodalField ℝ) (v0 : v 0 = 0) :
    systemWork AssemblyPart.stiffness (hingedBeamParts b m h) v (hingeInfluence b m h) = v h 1 := by
  have hl := hb.l
  have hE := hb.E
  have hI := hb.I
  have hsf : b.shearFlexibility = 0 := by simp [BeamPart.shearFlexibility, hk]
  obtain ⟨p, rfl⟩ : ∃ p, h = p + 1 := ⟨h - 1, by omega⟩
  have hmh : (0 : ℝ) < m - (p + 1 : ℕ) := by
    have : ((p + 1 : ℕ) : ℝ) < m := by exact_mod_cast (show p + 1 < m by omega)
    linarith
  rw [hingedBeam_work AssemblyPart.stiffness BeamPart.stiffness (fun _ _ _ => rfl) b hl m (p + 1) hh hm]
  have first : ∑ i ∈ range (p + 1 - 1), bilinear b.stiffness (sixValues v (i, i + 1)) (sixValues (hingeInfluence b m (p + 1)) (i, i + 1)) =
      b.l * v p 2 + v p 1 := by
    have tele : ∀ i ∈ range (p + 1 - 1), bilinear b.stiffness (sixValues v (i, i + 1)) (sixValues (hingeInfluence b m (p + 1)) (i, i + 1)) =
        ((((p + 1 : ℕ) : ℝ) - (i + 1 : ℕ)) * b.l * v (i + 1) 2 + v (i + 1) 1) - ((((p + 1 : ℕ) : ℝ) - (i : ℕ)) * b.l * v i 2 + v i 1) := by
      intro i hi
      rw [Finset.mem_range] at hi
      have n1 : i < p + 1 := by omega
      have n2 : i + 1 < p + 1 := by omega
      rw [beam_linear_work b hb h1 h2 v _ i ((((p + 1 : ℕ) : ℝ) - i) * b.l) (-1)]
      · push_cast
        ring
      · simp [hingeInfluence, n1, n2]
      · simp only [hingeInfluence, n1, n2, if_true, Matrix.cons_val, Matrix.cons_val_zero, Matrix.cons_val_one, hsf]
        push_cast
        field_simp
        ring
      · simp only [hingeInfluence, n1, n2, if_true, Matrix.cons_val, Matrix.cons_val_zero, Matrix.cons_val_one]
        push_cast
        field_simp
        ring
    rw [Finset.sum_congr rfl tele, Finset.sum_range_sub (fun i : ℕ => (((p + 1 : ℕ) : ℝ) - (i : ℕ)) * b.l * v i 2 + v i 1)]
    simp [v0]
  have last : ∑ i ∈ range (m - (p + 1) - 1), bilinear b.stiffness (sixValues v (p + 1 + 1 + i, p + 1 + 1 + i + 1))
      (sixValues (hingeInfluence b m (p + 1)) (p + 1 + 1 + i, p + 1 + 1 + i + 1)) = 0 := by
    refine Finset.sum_eq_zero fun i _ => ?_
    have n1 : ¬ p + 1 + 1 + i < p + 1 := by omega
    have n2 : p + 1 + 1 + i ≠ p + 1 := by omega
    have n3 : ¬ p + 1 + 1 + i + 1 < p + 1 := by omega
    have n4 : p + 1 + 1 + i + 1 ≠ p + 1 := by omega
    rw [beam_linear_work b hb h1 h2 v _ (p + 1 + 1 + i) 0 0]
    · ring
    · simp only [hingeInfluence, n1, n2, n3, n4, if_false, Matrix.cons_val_zero]
    · simp only [hingeInfluence, n1, n2, n3, n4, if_false, Matrix.cons_val, Matrix.cons_val_one]
      push_cast at hmh ⊢
      field_simp
      ring
    · simp only [hingeInfluence, n1, n2, n3, n4, if_false, Matrix.cons_val]
      ring
  have pin : bilinear (BeamPart.stiffness { b with s1 := .inf, s2 := .fin 0 }) (sixValues v (p, p + 1))
      (sixValues (hingeInfluence b m (p + 1)) (p, p + 1)) = -b.l * v p 2 + b.l / b.l * (v (p + 1) 1 - v p 1) := by
    refine pinned_work b hb hk v _ p b.l ?_ ?_
    · simp [hingeInfluence]
    · simp only [hingeInfluence, lt_irrefl, if_false, if_true, Nat.lt_succ_self, Matrix.cons_val, Matrix.cons_val_one]
      push_cast
      field_simp
      ring
  have still : bilinear (BeamPart.stiffness { b with s1 := .fin 0, s2 := .inf }) (sixValues v (p + 1, p + 1 + 1))
      (sixValues (hingeInfluence b m (p + 1)) (p + 1, p + 1 + 1)) = 0 := by
    have n3 : ¬ p + 1 + 1 < p + 1 := by omega
    have n4 : p + 1 + 1 ≠ p + 1 := by omega
    refine pinned_still b hb hk v _ (p + 1) ?_ ?_
    · simp [hingeInfluence]
    · simp only [hingeInfluence, lt_irrefl, if_false, if_true, n3, n4, Matrix.cons_val, Matrix.cons_val_one]
      push_cast at hmh ⊢
      field_simp
      ring
  rw [first, last, show p + 1 - 1 = p from rfl, pin, still]
  field_simp
  ring

theorem steppingLoad_work (m : ℕ) (place : ℕ → ℕ) (force : ℕ → ℝ) (t : ℕ) (hp : place t ≤ m) (v : NodalField ℝ) :
    loadWork (loadsAt [steppingLoad m place force] t) v = force t * v (place t) 1 := by
  simp only [loadWork, loadsAt, steppingLoad, List.map_cons, List.map_nil, List.sum_cons, List.sum_nil, add_zero, List.length_range]
  rw [Finset.sum_eq_single (place t)]
  · simp [Fin.sum_univ_three, List.getD_eq_getElem?_getD, show place t < m + 1 by omega]
    ring
  · intro j hj hne
    rw [Finset.mem_range] at hj
    simp [Fin.sum_univ_three, List.getD_eq_getElem?_getD, hj, hne]
  · intro h
    exact absurd (Finset.mem_range.mpr (by omega)) h

/-- The influence of a load at a node on the hinge is the formula. -/
theorem hingeInfluence_formula (b : BeamPart ℝ) (hb : b.Valid) (m h k : ℕ) (hh : 2 ≤ h) (hm : h + 2 ≤ m) (hk : k ≤ m) (F : ℝ) :
    F * hingeInfluence b m h k 1 = (⟨h * b.l, m * b.l - h * b.l, b.E * b.I, F⟩ : HingedBeamFormula ℝ).maxDisp (k * b.l) := by
  have hl := hb.l
  have hE := hb.E
  have hI := hb.I
  have hh' : (2 : ℝ) ≤ h := by exact_mod_cast hh
  have hmh : (0 : ℝ) < m - h := by
    have : (h : ℝ) < m := by exact_mod_cast (show h < m by omega)
    linarith
  have hkm : (k : ℝ) ≤ m := by exact_mod_cast hk
  simp only [HingedBeamFormula.maxDisp, HingedBeamFormula.leftPart, HingedBeamFormula.rightPart, hingeInfluence]
  by_cases h1 : k < h
  · have hk' : (k : ℝ) < h := by exact_mod_cast h1
    have c2 : (k : ℝ) * b.l < h * b.l := mul_lt_mul_of_pos_right hk' hl
    rw [if_pos h1]
    rcases Nat.eq_zero_or_pos k with rfl | hk0
    · rw [if_neg (by simp), if_neg (by push Not; intro hc; exfalso; simp at hc; nlinarith)]
      simp
    · have : (0 : ℝ) < k := by exact_mod_cast hk0
      rw [if_pos ⟨by positivity, c2⟩]
      simp only [Matrix.cons_val_one]
      simp
      field_simp
  · have hk' : (h : ℝ) ≤ k := by exact_mod_cast not_lt.mp h1
    have c2 : (h : ℝ) * b.l ≤ k * b.l := mul_le_mul_of_nonneg_right hk' hl.le
    have c3 : (k : ℝ) * b.l ≤ m * b.l - h * b.l + h * b.l := by
      have := mul_le_mul_of_nonneg_right hkm hl.le
      linarith
    have c4 : (m : ℝ) * b.l - h * b.l ≠ 0 := by
      have : 0 < (m - h : ℝ) * b.l := by positivity
      nlinarith
    rw [if_neg h1, if_neg (show ¬ ((0 : ℝ) < k * b.l ∧ (k : ℝ) * b.l < h * b.l) from fun hc => absurd hc.2 (not_lt.mpr c2)), if_pos (And.intro c2 c3)]
    by_cases h3 : k = h
    · subst h3
      rw [if_pos rfl]
      simp
      field_simp
    · rw [if_neg h3]
      simp
      have : (m : ℝ) * b.l - h * b.l = (m - h) * b.l := by ring
      rw [this]
      field_simp
      ring

/-- **C156** The calculation of the benchmark: for a beam without shear factor of any number of elements, clamped at its first node and
held at its last, with a hinge at an inner node at least two elements from the ends, a load history and any path of the load along the
nodes, and any solver that solves the equilibrium equations: the calculation succeeds and reports, at every output time, at the hinge
the vertical displacement of `BeamWithHinge.calculate_max_disp`. -/
theorem C156_benchmark (b : BeamPart ℝ) (hb : b.Valid) (h1 : b.s1 = .inf) (h2 : b.s2 = .inf) (hk : b.kappa = 0) (hp : HingedPresent b)
    (m h : ℕ) (hh : 2 ≤ h) (hm : h + 2 ≤ m) (near : 1 / 100000000 + 1 / 100000 * ((h : ℝ) * b.l) < b.l)
    (place : ℕ → ℕ) (hplace : ∀ t, place t ≤ m) (force : ℕ → ℝ) (times : ℕ)
    (solver : TrimState ℝ → (List ℕ → ℕ → ℕ → ℝ) → SolverOutput ℝ)
    (hs : ∀ st rhs, (∃ u, SolvesStatics st rhs times u) → SolvesStatics st rhs times (solver st rhs)) :
    ∃ c st rows, hingedBeamRun b m (h * b.l) place force = .ok c ∧ c.main freshFlags times solver = .ok (st, rows) ∧ rows.length = times ∧
      ∀ t (ht : t < rows.length), rows[t].length = m + 1 ∧
        fieldOfRows rows[t] NodeRow.displacement h 1 =
          (⟨h * b.l, m * b.l - h * b.l, b.E * b.I, force t⟩ : HingedBeamFormula ℝ).maxDisp (place t * b.l) := by
  set c := hingedBeamOf b m h place force with hcdef
  have hl := hb.l
  have hrem := fun i hi d => hingedBeam_removed b hb hk hp m h hh hm place force i hi d
  have hadm : ∀ w, Admissible c.system w → w 0 = 0 ∧ w m 1 = 0 ∧ w h 2 = 0 := fun w hw => by
    refine ⟨funext fun d => hw 0 (Nat.succ_pos m) d ((hrem 0 (Nat.zero_le _) d).mpr (Or.inl rfl)),
      hw m (Nat.lt_succ_self m) 1 ((hrem m le_rfl 1).mpr (by simp)), hw h (show h < m + 1 by omega) 2 ((hrem h (by omega) 2).mpr (by simp))⟩
  have hdef : ∀ w, Admissible c.system w → systemWork AssemblyPart.stiffness c.system.parts w w = 0 → ∀ i < c.system.n, w i = 0 :=
    fun w hw h0 i hi => hingedBeam_definite b hb h1 h2 m h hh hm w (hadm w hw).1 (hadm w hw).2.1 (hadm w hw).2.2 h0 i (Nat.le_of_lt_succ hi)
  have hmem : ∀ p ∈ c.system.parts, (∃ a k, p.elements = elementsFrom b.l a k ∧ a + k ≤ m) ∧ ∀ i ∈ p.nodes, i < m + 1 := by
    intro p hp
    have hp' : p ∈ hingedBeamParts b m h := hp
    simp only [hingedBeamParts, List.mem_cons, List.not_mem_nil, or_false] at hp'
    rcases hp' with rfl | rfl | rfl | rfl
    · refine ⟨⟨_, _, rfl, by omega⟩, fun i hi => ?_⟩
      simp only [beamAssembly, List.mem_range] at hi
      omega
    · refine ⟨⟨_, _, rfl, by omega⟩, fun i hi => ?_⟩
      simp only [beamAssembly, List.mem_cons, List.not_mem_nil, or_false] at hi
      omega
    · refine ⟨⟨_, _, rfl, by omega⟩, fun i hi => ?_⟩
      simp only [beamAssembly, List.mem_cons, List.not_mem_nil, or_false] at hi
      omega
    · refine ⟨⟨_, _, rfl, by omega⟩, fun i hi => ?_⟩
      simp only [beamAssembly, List.mem_range'_1] at hi
      omega
  have hc : c.WellFormed := by
    refine ⟨fun p hp => ⟨fun e he => ?_, (hmem p hp).2⟩, fun l hl => ?_, fun l hl => ?_⟩
    · obtain ⟨a, k, hak, hle⟩ := (hmem p hp).1
      rw [hak, elementsFrom_eq _ hl] at he
      simp only [horizontalElements, List.mem_map, List.mem_range'_1] at he
      obtain ⟨x, ⟨i, hi, rfl⟩, rfl⟩ := he
      exact ⟨show i < m + 1 by omega, show i + 1 < m + 1 by omega⟩
    · obtain rfl := List.mem_singleton.mp hl
      exact List.nodup_range
    · obtain rfl := List.mem_singleton.mp hl
      intro i hi
      exact List.mem_range.mp hi
  have ha : AxisAligned c.system := by
    intro p hp e he
    obtain ⟨a, k, hak, -⟩ := (hmem p hp).1
    left
    rw [hak, elementsFrom_eq _ hl] at he
    simp only [horizontalElements, List.mem_map] at he
    obtain ⟨x, -, rfl⟩ := he
    rfl
  obtain ⟨st, rows, g1, g2, g3⟩ := static_equilibrium c hc ha hdef times solver hs
  refine ⟨c, st, rows, hingedBeamRun_eq b hl m h hh hm near place force, g1, g2, fun t ht => ?_⟩
  obtain ⟨g4, g5, g6⟩ := g3 t ht
  refine ⟨g4, ?_⟩
  have hG : Admissible c.system (hingeInfluence b m h) := by
    intro i hi d hr
    rcases (hrem i (Nat.le_of_lt_succ hi) d).mp hr with rfl | ⟨rfl, hd⟩ | ⟨rfl, rfl⟩
    · have : 0 < h := by omega
      fin_cases d <;> simp [hingeInfluence, this]
    · have n1 : ¬ i < h := by omega
      have n2 : i ≠ h := by omega
      rcases hd with rfl | rfl <;> simp [hingeInfluence, n1, n2]
    · simp [hingeInfluence]
  have key := g6 _ hG
  rw [show c.timed = [steppingLoad m place force] from rfl, steppingLoad_work m place force t (hplace t)] at key
  rw [show c.system.parts = hingedBeamParts b m h from rfl, hingedBeam_symmetric b hl m h hh hm,
    hingeInfluence_work b hb h1 h2 hk m h hh hm _ (hadm _ g5).1] at key
  rw [key]
  exact hingeInfluence_formula b hb m h (place t) hh hm (hplace t) (force t)

/-- **C156** In terms of beam theory: the displacement at the hinge is that of the deflection of a beam with a hinge under the load. -/
theorem C156_hinge (b : BeamPart ℝ) (hb : b.Valid) (h1 : b.s1 = .inf) (h2 : b.s2 = .inf) (hk : b.kappa = 0) (hp : HingedPresent b)
    (m h : ℕ) (hh : 2 ≤ h) (hm : h + 2 ≤ m) (near : 1 / 100000000 + 1 / 100000 * ((h : ℝ) * b.l) < b.l)
    (place : ℕ → ℕ) (hplace : ∀ t, place t ≤ m) (force : ℕ → ℝ) (times : ℕ)
    (solver : TrimState ℝ → (List ℕ → ℕ → ℕ → ℝ) → SolverOutput ℝ)
    (hs : ∀ st rhs, (∃ u, SolvesStatics st rhs times u) → SolvesStatics st rhs times (solver st rhs)) :
    ∃ c st rows, hingedBeamRun b m (h * b.l) place force = .ok c ∧ c.main freshFlags times solver = .ok (st, rows) ∧ rows.length = times ∧
      ∀ t (ht : t < rows.length) w z, HingedDeflection (b.E * b.I) (h * b.l) (m * b.l - h * b.l) (force t) (place t * b.l) w z →
        fieldOfRows rows[t] NodeRow.displacement h 1 = w (h * b.l) := by
  obtain ⟨c, st, rows, g1, g2, g3, g4⟩ := C156_benchmark b hb h1 h2 hk hp m h hh hm near place hplace force times solver hs
  refine ⟨c, st, rows, g1, g2, g3, fun t ht w z hw => ?_⟩
  have hl := hb.l
  have hh' : (0 : ℝ) < h := by exact_mod_cast (show 0 < h by omega)
  have hmh : (h : ℝ) < m := by exact_mod_cast (show h < m by omega)
  have hpm : (place t : ℝ) ≤ m := by exact_mod_cast hplace t
  rw [(g4 t ht).2]
  refine ((C153_hinge _ (mul_pos hb.E hb.I).ne' (by positivity) ?_ (place t * b.l) (by positivity) ?_).2 w z hw).1.symm
  · show 0 < (m : ℝ) * b.l - h * b.l
    have := mul_lt_mul_of_pos_right hmh hl
    linarith
  · show (place t : ℝ) * b.l ≤ h * b.l + (m * b.l - h * b.l)
    have := mul_le_mul_of_nonneg_right hpm hl.le
    linarith

/-- **C156** The nodal forces of a moving load at an end of a horizontal element: the whole force on that end. -/
theorem C156_load (phi l f : ℝ) (hphi : 1 + phi ≠ 0) (hl : l ≠ 0) (buf : Buffers ℝ) :
    (∀ j, globalNodalLoads 0 phi l 0 (0, f, 0) buf j = if j = 0 then (0, f, 0) else (0, 0, 0)) ∧
    ∀ j, globalNodalLoads 0 phi l l (0, f, 0) buf j = if j = 0 then (0, 0, 0) else (0, f, 0) := by
  have rot : ∀ θ : ℝ, θ = 0 → ∀ p : ℝ × ℝ × ℝ, rotatePoint θ p = p := by
    rintro _ rfl ⟨x, y, z⟩
    simp [rotatePoint]
  have s0 : yShape phi l 0 = ![1, 0, 0, 0] := by
    ext q
    fin_cases q <;> simp [yShape]
    field_simp
  have s1 : yShape phi l l = ![0, 0, 1, 0] := by
    ext q
    fin_cases q <;> simp [yShape] <;> field_simp <;> ring_nf <;> simp
  constructor <;> intro j <;> simp only [globalNodalLoads, rot 0 rfl, rot (-0) neg_zero, localNodalLoads_vertical, s0, s1] <;>
    fin_cases j <;> simp

/-! ### Example -/

/-- The beam of the benchmark. -/
noncomputable def hingedBenchmarkBeam : BeamPart ℝ :=
  { E := 1e7, nu := 0, rho := 10, A := 1, I := 1, kappa := 0, l := 1, s1 := .inf, s2 := .inf }

theorem hingedBenchmarkBeam_valid : hingedBenchmarkBeam.Valid := by
  constructor <;> norm_num [hingedBenchmarkBeam]

theorem hingedBenchmarkBeam_present : HingedPresent hingedBenchmarkBeam := by
  refine ⟨fun k => ?_, by norm_num [hingedBenchmarkBeam]⟩
  rw [BeamPart.stiffness, beamStiffness_eq, BeamPart.massMatrix, beamMass, beamTransMass_eq,
    if_neg (by norm_num [hingedBenchmarkBeam, timoshenkoFactor])]
  fin_cases k <;> constructor <;> norm_num [hingedBenchmarkBeam, timoshenkoFactor, fixity]

/-- The calculation of the benchmark: 100 elements, the hinge at 50 m, the load of 10 kN at time `t` on node `t`. The displacement at the
hinge is -18 m with the load at 30 m and -25 m with the load at 70 m. -/
example : ∃ c st rows, hingedBeamRun hingedBenchmarkBeam 100 ((50 : ℕ) * 1) (fun t => min t 100) (fun _ => -10000) = .ok c ∧
    c.main freshFlags 101 (fun st rhs => open Classical in
      if h : ∃ u, SolvesStatics st rhs 101 u then h.choose else ⟨fun _ _ => 0, fun _ _ => 0, fun _ _ => 0⟩) = .ok (st, rows) ∧
    ∃ (h30 : 30 < rows.length) (h70 : 70 < rows.length), fieldOfRows rows[30] NodeRow.displacement 50 1 = -18 ∧
      fieldOfRows rows[70] NodeRow.displacement 50 1 = -25 := by
  obtain ⟨c, st, rows, g1, g2, g3, g4⟩ := C156_benchmark hingedBenchmarkBeam hingedBenchmarkBeam_valid rfl rfl rfl
    hingedBenchmarkBeam_present 100 50 (by norm_num) (by norm_num) (by norm_num [hingedBenchmarkBeam]) (fun t => min t 100)
    (fun t => min_le_right _ _) (fun _ => -10000) 101 (fun st rhs => open Classical in
      if h : ∃ u, SolvesStatics st rhs 101 u then h.choose else ⟨fun _ _ => 0, fun _ _ => 0, fun _ _ => 0⟩)
    fun st rhs h => by
      rw [dif_pos h]
      exact h.choose_spec
  refine ⟨c, st, rows, g1, g2, by omega, by omega, ?_, ?_⟩
  · rw [(g4 30 (by omega)).2]
    norm_num [HingedBeamFormula.maxDisp, HingedBeamFormula.leftPart, HingedBeamFormula.rightPart, hingedBenchmarkBeam]
  · rw [(g4 70 (by omega)).2]
    norm_num [HingedBeamFormula.maxDisp, HingedBeamFormula.leftPart, HingedBeamFormula.rightPart, hingedBenchmarkBeam]

end Rose
