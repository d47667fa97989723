/-
C123, time steps: the steps of the free train have one solution each, whatever the step size, exactly if the springs are balanced.
-/
import Verif.Props.TrainRest
import Verif.Props.SltTrain
import Mathlib.Analysis.Normed.Module.FiniteDimension
import Mathlib.Topology.Order.Compact

set_option linter.unusedSectionVars false

namespace Rose
open Finset

/-- The energy of a displacement with `N` components. -/
noncomputable def finEnergy (N : ℕ) (A : ℕ → ℕ → ℝ) (u : Fin N → ℝ) : ℝ := ∑ i : Fin N, u i * ∑ j : Fin N, A i j * u j

theorem matEnergy_fin (N : ℕ) (A : ℕ → ℕ → ℝ) (U : ℕ → ℝ) : matEnergy N A U = finEnergy N A fun i => U i := by
  unfold matEnergy matForce finEnergy
  rw [Finset.sum_range]
  exact Finset.sum_congr rfl fun i _ => by rw [Finset.sum_range]

theorem finEnergy_smul (N : ℕ) (A : ℕ → ℕ → ℝ) (u : Fin N → ℝ) (s : ℝ) : finEnergy N A (s • u) = s ^ 2 * finEnergy N A u := by
  unfold finEnergy
  simp only [Pi.smul_apply, smul_eq_mul, Finset.mul_sum]
  exact Finset.sum_congr rfl fun i _ => Finset.sum_congr rfl fun j _ => by ring

theorem finEnergy_combine (N : ℕ) (M C Kg : ℕ → ℕ → ℝ) (a b c : ℝ) (u : Fin N → ℝ) :
    finEnergy N (fun i j => a * M i j + b * C i j + c * Kg i j) u = a * finEnergy N M u + b * finEnergy N C u + c * finEnergy N Kg u := by
  unfold finEnergy
  simp only [Finset.mul_sum, ← Finset.sum_add_distrib]
  exact Finset.sum_congr rfl fun i _ => Finset.sum_congr rfl fun j _ => by ring

theorem finEnergy_continuous (N : ℕ) (A : ℕ → ℕ → ℝ) : Continuous (finEnergy N A) := by
  unfold finEnergy
  fun_prop

/-- A displacement without energy produces no force, if no displacement has negative energy. -/
theorem force_of_no_energy (N : ℕ) (A : ℕ → ℕ → ℝ) (hs : ∀ i j, A i j = A j i) (h : ∀ u, 0 ≤ finEnergy N A u) (u : Fin N → ℝ)
    (hu : finEnergy N A u = 0) (i : Fin N) : ∑ j : Fin N, A i j * u j = 0 := by
  classical
  by_contra hne
  set f := ∑ j : Fin N, A i j * u j with hf
  have key : ∀ s : ℝ, finEnergy N A (u + s • Pi.single i 1) = 2 * s * f + s ^ 2 * A i i := by
    intro s
    have e : finEnergy N A (u + s • Pi.single i 1) = finEnergy N A u + s * ∑ k : Fin N, u k * A k i + s * f + s ^ 2 * A i i := by
      unfold finEnergy
      have : ∀ k : Fin N, ∑ j : Fin N, A k j * (u + s • (Pi.single i 1 : Fin N → ℝ)) j = ∑ j : Fin N, A k j * u j + s * A k i := by
        intro k
        simp only [Pi.add_apply, Pi.smul_apply, smul_eq_mul, mul_add, Finset.sum_add_distrib]
        congr 1
        rw [Finset.sum_eq_single i]
        · simp; ring
        · intro j _ hj; simp [hj]
        · simp
      simp only [this]
      simp only [Pi.add_apply, Pi.smul_apply, smul_eq_mul, add_mul, mul_add, Finset.sum_add_distrib]
      have s1 : ∑ k : Fin N, s * (Pi.single i 1 : Fin N → ℝ) k * ∑ j : Fin N, A k j * u j = s * f := by
        rw [Finset.sum_eq_single i]
        · simp [hf]
        · intro j _ hj; simp [hj]
        · simp
      have s2 : ∑ k : Fin N, s * (Pi.single i 1 : Fin N → ℝ) k * (s * A k i) = s ^ 2 * A i i := by
        rw [Finset.sum_eq_single i]
        · simp; ring
        · intro j _ hj; simp [hj]
        · simp
      have s3 : ∑ k : Fin N, u k * (s * A k i) = s * ∑ k : Fin N, u k * A k i := by
        rw [Finset.mul_sum]
        exact Finset.sum_congr rfl fun k _ => by ring
      rw [s1, s2, s3]
      ring
    have e2 : ∑ k : Fin N, u k * A k i = f := Finset.sum_congr rfl fun k _ => by rw [hs k i]; ring
    rw [e, hu, e2]; ring
  have hp := h (u + (-f / (|A i i| + 1)) • Pi.single i 1)
  rw [key] at hp
  have d0 : 0 < |A i i| + 1 := by positivity
  have f2 : 0 < f ^ 2 := by positivity
  have : 2 * (-f / (|A i i| + 1)) * f + (-f / (|A i i| + 1)) ^ 2 * A i i = f ^ 2 * (A i i - 2 * (|A i i| + 1)) / (|A i i| + 1) ^ 2 := by
    field_simp
    ring
  rw [this] at hp
  have l : A i i - 2 * (|A i i| + 1) < 0 := by linarith [le_abs_self (A i i), abs_nonneg (A i i)]
  have : f ^ 2 * (A i i - 2 * (|A i i| + 1)) / (|A i i| + 1) ^ 2 < 0 := div_neg_of_neg_of_pos (mul_neg_of_pos_of_neg f2 l) (by positivity)
  linarith

/-- If the mass matrix is positive definite and some displacement has negative energy, there is a first step size at which the
step is singular. -/
theorem first_singular (N : ℕ) (M C Kg : ℕ → ℕ → ℝ) (hM : ∀ i j, M i j = M j i) (hC : ∀ i j, C i j = C j i)
    (hK : ∀ i j, Kg i j = Kg j i) (hpos : ∀ u : Fin N → ℝ, u ≠ 0 → 0 < finEnergy N M u) (u₀ : Fin N → ℝ) (h0 : finEnergy N Kg u₀ < 0) :
    ∃ h : ℝ, 0 < h ∧ ¬ Spec.UniquelySolvable N fun i j => 4 / h ^ 2 * M i j + 2 / h * C i j + 1 * Kg i j := by
  set q : ℝ → (Fin N → ℝ) → ℝ := fun h u => 4 * finEnergy N M u + 2 * h * finEnergy N C u + h ^ 2 * finEnergy N Kg u with hq
  have qcont : Continuous fun p : ℝ × (Fin N → ℝ) => q p.1 p.2 := by
    have c1 := (finEnergy_continuous N M).comp (continuous_snd (X := ℝ))
    have c2 := (finEnergy_continuous N C).comp (continuous_snd (X := ℝ))
    have c3 := (finEnergy_continuous N Kg).comp (continuous_snd (X := ℝ))
    exact ((continuous_const.mul c1).add ((continuous_const.mul continuous_fst).mul c2)).add ((continuous_fst.pow 2).mul c3)
  have qsmul : ∀ h u (s : ℝ), q h (s • u) = s ^ 2 * q h u := by
    intro h u s
    simp only [hq, finEnergy_smul]; ring
  -- a step size with a non-positive direction
  set m := finEnergy N M u₀
  set c := finEnergy N C u₀
  set e := -finEnergy N Kg u₀ with he
  have e0 : 0 < e := by linarith
  set H := (|4 * m| + |2 * c|) / e + 1 with hH
  have H1 : 1 ≤ H := by
    have : 0 ≤ (|4 * m| + |2 * c|) / e := by positivity
    linarith
  have qH : q H u₀ ≤ 0 := by
    have a1 : 4 * m ≤ H * |4 * m| := by
      have := le_abs_self (4 * m)
      nlinarith [abs_nonneg (4 * m)]
    have a2 : 2 * H * c ≤ H * |2 * c| := by
      have := le_abs_self (2 * c)
      nlinarith
    have a3 : |4 * m| + |2 * c| = e * (H - 1) := by
      rw [hH]; field_simp; ring
    have : q H u₀ = 4 * m + 2 * H * c - H ^ 2 * e := by
      simp only [hq, he]
      ring
    rw [this]
    have : H * |4 * m| + H * |2 * c| = H * (e * (H - 1)) := by rw [← a3]; ring
    nlinarith [mul_pos (lt_of_lt_of_le one_pos H1) e0]
  have u0 : u₀ ≠ 0 := by
    rintro rfl
    have := finEnergy_smul N Kg 0 0
    simp at this
    rw [this] at h0
    exact lt_irrefl _ h0
  have nz : ‖u₀‖ ≠ 0 := norm_ne_zero_iff.2 u0
  set S : Set (ℝ × (Fin N → ℝ)) := (Set.Icc 0 H ×ˢ Metric.sphere 0 1) ∩ {p | q p.1 p.2 ≤ 0} with hS
  have Sc : IsCompact S := (isCompact_Icc.prod (isCompact_sphere 0 1)).inter_right (isClosed_le qcont continuous_const)
  have Sn : S.Nonempty := by
    refine ⟨(H, ‖u₀‖⁻¹ • u₀), ⟨⟨by linarith, le_rfl⟩, ?_⟩, ?_⟩
    · rw [mem_sphere_zero_iff_norm, norm_smul, norm_inv, norm_norm, inv_mul_cancel₀ nz]
    · show q H (‖u₀‖⁻¹ • u₀) ≤ 0
      rw [qsmul]
      exact mul_nonpos_of_nonneg_of_nonpos (sq_nonneg _) qH
  obtain ⟨⟨h, u⟩, hmem, hmin⟩ := Sc.exists_isMinOn Sn continuous_fst.continuousOn
  obtain ⟨⟨⟨hh0, hhH⟩, husph⟩, hqu⟩ := hmem
  simp only at hh0 hhH husph hqu
  have une : u ≠ 0 := by
    rintro rfl
    simp at husph
  have hpos' : 0 < h := by
    rcases hh0.lt_or_eq with hh | hh
    · exact hh
    · exfalso
      have : q h u = 4 * finEnergy N M u := by rw [← hh]; simp [hq]
      have h1 := hpos u une
      have : q h u ≤ 0 := hqu
      linarith
  have qnn : ∀ v, 0 ≤ q h v := by
    intro v
    by_contra hneg
    push Not at hneg
    have vne : ‖v‖ ≠ 0 := by
      rw [norm_ne_zero_iff]
      rintro rfl
      have := qsmul h 0 0
      simp at this
      rw [this] at hneg
      exact lt_irrefl _ hneg
    have hv : q h (‖v‖⁻¹ • v) < 0 := by
      rw [qsmul]
      exact mul_neg_of_pos_of_neg (by positivity) hneg
    -- a smaller step size with the same direction
    have cont : Continuous fun s => q s (‖v‖⁻¹ • v) := qcont.comp (by fun_prop : Continuous fun s : ℝ => (s, ‖v‖⁻¹ • v))
    have ev : ∀ᶠ s in nhds h, q s (‖v‖⁻¹ • v) < 0 := cont.continuousAt.eventually_lt continuousAt_const hv
    obtain ⟨δ, hδ, hball⟩ := Metric.eventually_nhds_iff.1 ev
    set s := h - min (δ / 2) (h / 2) with hs
    have mpos : 0 < min (δ / 2) (h / 2) := lt_min (by linarith) (by linarith)
    have hs1 : q s (‖v‖⁻¹ • v) < 0 := hball (by
      rw [Real.dist_eq, hs]
      have : h - min (δ / 2) (h / 2) - h = -min (δ / 2) (h / 2) := by ring
      rw [this, abs_neg, abs_of_pos mpos]
      exact lt_of_le_of_lt (min_le_left _ _) (by linarith))
    have : (s, ‖v‖⁻¹ • v) ∈ S := by
      refine ⟨⟨⟨?_, ?_⟩, ?_⟩, hs1.le⟩
      · have := min_le_right (δ / 2) (h / 2)
        show 0 ≤ s
        rw [hs]; linarith
      · show s ≤ H
        rw [hs]; linarith
      · show ‖v‖⁻¹ • v ∈ Metric.sphere 0 1
        rw [mem_sphere_zero_iff_norm, norm_smul, norm_inv, norm_norm, inv_mul_cancel₀ vne]
    have := hmin this
    have : h ≤ s := this
    rw [hs] at this
    linarith
  have qz : q h u = 0 := le_antisymm hqu (qnn u)
  set A : ℕ → ℕ → ℝ := fun i j => 4 / h ^ 2 * M i j + 2 / h * C i j + 1 * Kg i j with hA
  have qA : ∀ v, finEnergy N A v = q h v / h ^ 2 := by
    intro v
    rw [hA, finEnergy_combine]
    simp only [hq]
    field_simp
  refine ⟨h, hpos', ?_⟩
  intro hsol
  have force := force_of_no_energy N A (fun i j => by simp only [hA]; rw [hM, hC, hK])
    (fun v => by rw [qA]; exact div_nonneg (qnn v) (sq_nonneg h)) u (by rw [qA, qz, zero_div])
  obtain ⟨U, -, huniq⟩ := hsol fun _ => 0
  have z := huniq (fun _ => 0) (fun i _ => by simp)
  have w := huniq (fun k => if hk : k < N then u ⟨k, hk⟩ else 0) (by
    intro i hi
    rw [Finset.sum_range]
    have := force ⟨i, hi⟩
    simpa [hA] using this)
  apply une
  funext i
  have e1 := z i i.2
  have e2 := w i i.2
  simp only [i.2, dif_pos] at e2
  simpa [← e1] using e2

/-- The step matrices of the trapezoidal rule (Newmark with 1/2 and 1/4) for the free train and the step size `h`. -/
noncomputable def Train.stepMatrix (t : Train ℝ) (h : ℝ) : ℕ → ℕ → ℝ :=
  fun i j => 4 / h ^ 2 * t.massMatrix i j + 2 / h * t.damping i j + 1 * t.stiffness i j

/-- An unbalanced train with positive masses has a step size at which the step is singular. -/
theorem unbalanced_singular (t : Train ℝ) (hf : t.FactorsFit) (hk : ∀ c ∈ t.carts, c.stiffness ≠ 0)
    (hk' : ∀ b ∈ t.bogies, (t.bogie b).stiffness ≠ 0) (hpos : ∀ d, t.HasDof d → 0 < t.bodyInertia d) (hb : ¬ t.Balanced) :
    ∃ h, 0 < h ∧ ¬ Spec.UniquelySolvable t.numbering.next (t.stepMatrix h) := by
  obtain ⟨U, hU, -⟩ := unbalanced_negative t hf t.numbering.next le_rfl hk hk' hb
  rw [matEnergy_fin] at hU
  obtain ⟨d1, d2, -⟩ := C100_diagonal t
  apply first_singular _ _ _ _ ?_ (fun i j => (C35_symmetric t i j).2) (fun i j => (C35_symmetric t i j).1) ?_ _ hU
  · intro i j
    rcases eq_or_ne i j with rfl | hij
    · rfl
    · rw [d2 i j hij, d2 j i hij.symm]
  · intro u hu
    have e : finEnergy t.numbering.next t.massMatrix u = ∑ i : Fin t.numbering.next, t.massMatrix i i * u i ^ 2 := by
      unfold finEnergy
      refine Finset.sum_congr rfl fun i _ => ?_
      rw [Finset.sum_eq_single i]
      · ring
      · intro j _ hj
        rw [d2 i j (fun h => hj (Fin.ext h.symm)), zero_mul]
      · simp
    have diag : ∀ i : Fin t.numbering.next, 0 < t.massMatrix i i := by
      intro i
      obtain ⟨d, hd, hi⟩ := t.exists_dof i i.2
      rw [← hi, d1 d hd]
      exact hpos d hd
    rw [e]
    obtain ⟨i, hi⟩ := Function.ne_iff.1 hu
    refine Finset.sum_pos' (fun j _ => mul_nonneg (diag j).le (sq_nonneg _)) ⟨i, Finset.mem_univ i, mul_pos (diag i) ?_⟩
    have : u i ≠ 0 := hi
    positivity

/-- **C123, exact condition for the time steps** A train with positive masses, springs at two places of every body and dampers that do not
push: every time step of the trapezoidal rule has exactly one solution, whatever the step size, if and only if the springs of every body are balanced. -/
theorem C123_steps_iff (t : Train ℝ) (hf : t.FactorsFit) (hs : t.Sprung)
    (hc : ∀ c ∈ t.carts, 0 < c.mass ∧ 0 < c.inertia ∧ 0 ≤ c.damping)
    (hbm : ∀ b ∈ t.bogies, 0 < (t.bogie b).mass ∧ 0 < (t.bogie b).inertia ∧ 0 ≤ (t.bogie b).damping ∧
      ∀ w ∈ (t.bogie b).wheels, 0 < w.1) :
    (∀ h : ℝ, 0 < h → Spec.UniquelySolvable t.numbering.next
      fun i j => 4 / h ^ 2 * t.massMatrix i j + 2 / h * t.damping i j + 1 * t.stiffness i j) ↔ t.Balanced := by
  constructor
  · intro hall
    by_contra hb
    obtain ⟨h, h0, hn⟩ := unbalanced_singular t hf (fun c hc' => (hs.carts c hc').1.ne') (fun b hb' => (hs.bogies b hb').1.ne')
      (by
        intro d hd
        cases d with
        | cartY i =>
          have hi : i < t.carts.length := hd
          simpa [Train.bodyInertia, hi] using (hc _ (List.getElem_mem hi)).1
        | cartRot i =>
          have hi : i < t.carts.length := hd
          simpa [Train.bodyInertia, hi] using (hc _ (List.getElem_mem hi)).2.1
        | bogieY b => exact (hbm b hd).1
        | bogieRot b => exact (hbm b hd).2.1
        | wheelY b j =>
          have hj : j < (t.bogie b).wheels.length := hd.2
          simpa [Train.bodyInertia, hj] using (hbm b hd.1).2.2.2 _ (List.getElem_mem hj)) hb
    exact hn (hall h h0)
  · intro hb h h0
    exact C123_steps_partial t hf hb hs hc hbm _ _ _ (by positivity) (by positivity) zero_le_one

/-- **C123 is violated, time steps of the SLT** For every length of the default SLT there is a step size for which the step of the free
train does not have one solution. -/
theorem C123_slt_steps_violated (start : ℝ) (n : ℕ) (t : Train ℝ) (x : List ℝ) (h : setFullTrain .sprinterSLT start n = .ok (t, x)) :
    ∃ dt : ℝ, 0 < dt ∧ ¬ Spec.UniquelySolvable t.numbering.next
      fun i j => 4 / dt ^ 2 * t.massMatrix i j + 2 / dt * t.damping i j + 1 * t.stiffness i j := by
  have hn := (C122_slt start n t x h).1
  have hneg := (C122_slt_violated start n t x h t.numbering.next le_rfl).1
  rw [setFullTrain_slt start n hn] at h
  simp only [Except.ok.injEq, Prod.mk.injEq] at h
  obtain ⟨rfl, rfl⟩ := h
  have hfit := slt_fit (K := ℝ) n (by omega)
  refine unbalanced_singular _ hfit ?_ ?_ ?_ ?_
  · intro c hc
    obtain ⟨i, -, rfl⟩ := slt_mem_cart n c hc
    norm_num
  · intro b hb
    rw [slt_bogie n (by omega) b ((slt_mem_bogies n (by omega) b).1 hb)]
    norm_num
  · intro d hd
    cases d with
    | cartY i =>
      have hi : i < (fullTrain (sltRow n : List (BodyData ℝ × DCart ℝ))).carts.length := hd
      obtain ⟨k, -, hk⟩ := slt_mem_cart n _ (List.getElem_mem hi)
      simp only [Train.bodyInertia, List.getElem?_eq_getElem hi, hk]
      norm_num
    | cartRot i =>
      have hi : i < (fullTrain (sltRow n : List (BodyData ℝ × DCart ℝ))).carts.length := hd
      obtain ⟨k, -, hk⟩ := slt_mem_cart n _ (List.getElem_mem hi)
      simp only [Train.bodyInertia, List.getElem?_eq_getElem hi, hk]
      norm_num
    | bogieY b =>
      simp only [Train.bodyInertia]
      rw [slt_bogie n (by omega) b ((slt_mem_bogies n (by omega) b).1 hd)]
      norm_num
    | bogieRot b =>
      simp only [Train.bodyInertia]
      rw [slt_bogie n (by omega) b ((slt_mem_bogies n (by omega) b).1 hd)]
      norm_num
    | wheelY b j =>
      have hj := hd.2
      simp only [Train.bodyInertia]
      rw [slt_bogie n (by omega) b ((slt_mem_bogies n (by omega) b).1 hd.1)] at hj ⊢
      have hj : j < 2 := hj
      interval_cases j <;> norm_num
  · intro hb
    obtain ⟨u, hu⟩ := (fullTrain (sltRow n : List (BodyData ℝ × DCart ℝ))).exists_vector fun d => match d with
      | .cartY _ | .bogieY _ | .wheelY _ _ => 1
      | .cartRot _ | .bogieRot _ => 0
    have hr : (fullTrain (sltRow n)).Raised u 1 := ⟨fun i hi => ⟨hu (.cartY i) hi, hu (.cartRot i) hi⟩,
      fun b hb => ⟨hu (.bogieY b) hb, hu (.bogieRot b) hb, fun j hj => hu (.wheelY b j) ⟨hb, hj⟩⟩⟩
    have h1 := hneg u 1 hr
    rw [(C35_translation_partial _ hfit hb _ le_rfl u 1 hr _).1] at h1
    norm_num at h1

/-- The hypotheses of the violated theorem can be met. -/
example : ∃ r, setFullTrain (K := ℝ) .sprinterSLT 10 3 = .ok r := ⟨_, setFullTrain_slt 10 3 (by norm_num)⟩

end Rose
