/-
C178: a stiffer hinge, or no hinge at all, never lets the track give way more.
-/
import Verif.Props.Stiffer
import Verif.Props.WrittenResults

set_option linter.unusedSectionVars false

namespace Rose
open Finset

/-! ### The two elements at the hinge -/

theorem timoshenkoFactor_zero {b : BeamPart ℝ} (h : b.kappa = 0) : timoshenkoFactor b = 0 := by simp [timoshenkoFactor, h]

theorem left_energy {b : BeamPart ℝ} (hb : b.Valid) (hκ : b.kappa = 0) (s : Spring ℝ) (u : Fin 6 → ℝ) :
    Spec.energy (BeamPart.stiffness { b with s1 := .inf, s2 := s }) u = b.E * b.A / b.l * (u 0 - u 3) ^ 2 +
      12 * (b.E * b.I / b.l ^ 3) * (((u 1 - u 4 + b.l * u 2) ^ 2 + fixity (b.E * b.I) b.l s *
        ((u 1 - u 4 + b.l * u 5) ^ 2 + (u 1 - u 4 + b.l * u 2) * (u 1 - u 4 + b.l * u 5))) / (4 - fixity (b.E * b.I) b.l s)) := by
  have hI := hb.I; have hl := hb.l
  have hp : timoshenkoFactor { b with s1 := .inf, s2 := s } = 0 := timoshenkoFactor_zero hκ
  unfold BeamPart.stiffness
  simp only [hp]
  simp only [show fixity (b.E * b.I) b.l (.inf : Spring ℝ) = 1 from rfl]
  generalize fixity (b.E * b.I) b.l s = a
  rw [beamStiffness_eq]
  simp [Spec.energy, Fin.sum_univ_six]
  field_simp
  ring

theorem right_energy {b : BeamPart ℝ} (hb : b.Valid) (hκ : b.kappa = 0) (s : Spring ℝ) (u : Fin 6 → ℝ) :
    Spec.energy (BeamPart.stiffness { b with s1 := s, s2 := .inf }) u = b.E * b.A / b.l * (u 0 - u 3) ^ 2 +
      12 * (b.E * b.I / b.l ^ 3) * (((u 1 - u 4 + b.l * u 5) ^ 2 + fixity (b.E * b.I) b.l s *
        ((u 1 - u 4 + b.l * u 2) ^ 2 + (u 1 - u 4 + b.l * u 5) * (u 1 - u 4 + b.l * u 2))) / (4 - fixity (b.E * b.I) b.l s)) := by
  have hI := hb.I; have hl := hb.l
  have hp : timoshenkoFactor { b with s1 := s, s2 := .inf } = 0 := timoshenkoFactor_zero hκ
  unfold BeamPart.stiffness
  simp only [hp]
  simp only [show fixity (b.E * b.I) b.l (.inf : Spring ℝ) = 1 from rfl]
  generalize fixity (b.E * b.I) b.l s = a
  rw [beamStiffness_eq]
  simp [Spec.energy, Fin.sum_univ_six]
  field_simp
  ring

theorem bend_mono {a a' : ℝ} (h : a ≤ a') (h1 : a' ≤ 1) (p q : ℝ) :
    (p ^ 2 + a * (q ^ 2 + p * q)) / (4 - a) ≤ (p ^ 2 + a' * (q ^ 2 + p * q)) / (4 - a') := by
  rw [div_le_div_iff₀ (by linarith) (by linarith)]
  nlinarith [mul_nonneg (sub_nonneg.mpr h) (sq_nonneg (p + 2 * q))]

theorem fixity_mono {EI l : ℝ} (hE : 0 < EI) (hl : 0 < l) {s s' : ℝ} (h0 : 0 < s) (h : s ≤ s') :
    fixity EI l (.fin s) ≤ fixity EI l (.fin s') := by
  have h0' : 0 < s' := h0.trans_le h
  simp only [fixity, gt_iff_lt, h0, h0', if_true]
  refine one_div_le_one_div_of_le (by positivity) ?_
  have : 3 * EI / (s' * l) ≤ 3 * EI / (s * l) :=
    div_le_div_of_nonneg_left (by positivity) (by positivity) (mul_le_mul_of_nonneg_right h hl.le)
  linarith

theorem left_energy_mono {b : BeamPart ℝ} (hb : b.Valid) (hκ : b.kappa = 0) {s s' : Spring ℝ}
    (h : fixity (b.E * b.I) b.l s ≤ fixity (b.E * b.I) b.l s') (u : Fin 6 → ℝ) :
    Spec.energy (BeamPart.stiffness { b with s1 := .inf, s2 := s }) u ≤ Spec.energy (BeamPart.stiffness { b with s1 := .inf, s2 := s' }) u := by
  have hE := hb.E; have hI := hb.I; have hl := hb.l
  rw [left_energy hb hκ, left_energy hb hκ]
  have := mul_le_mul_of_nonneg_left (bend_mono h (fixity_le_one (by positivity) hl s') (u 1 - u 4 + b.l * u 2) (u 1 - u 4 + b.l * u 5))
    (by positivity : 0 ≤ 12 * (b.E * b.I / b.l ^ 3))
  linarith

theorem right_energy_mono {b : BeamPart ℝ} (hb : b.Valid) (hκ : b.kappa = 0) {s s' : Spring ℝ}
    (h : fixity (b.E * b.I) b.l s ≤ fixity (b.E * b.I) b.l s') (u : Fin 6 → ℝ) :
    Spec.energy (BeamPart.stiffness { b with s1 := s, s2 := .inf }) u ≤ Spec.energy (BeamPart.stiffness { b with s1 := s', s2 := .inf }) u := by
  have hE := hb.E; have hI := hb.I; have hl := hb.l
  rw [right_energy hb hκ, right_energy hb hκ]
  have := mul_le_mul_of_nonneg_left (bend_mono h (fixity_le_one (by positivity) hl s') (u 1 - u 4 + b.l * u 5) (u 1 - u 4 + b.l * u 2))
    (by positivity : 0 ≤ 12 * (b.E * b.I / b.l ^ 3))
  linarith

/-! ### The track -/

section standing
variable {inp : SystemInput ℝ} {T : TrackParts ℝ} {H : HingeCut ℝ}

theorem hinged_energy (T : TrackParts ℝ) (H : HingeCut ℝ) (hin : H.Inner) (u : Spec.NodalField ℝ) :
    Spec.systemWork AssemblyPart.stiffness (T.hinged H) u u =
      ((chainOf (H.A ++ [H.p])).map fun e => Spec.energy T.beam.stiffness (sixValues u e)).sum +
      (Spec.energy (BeamPart.stiffness { T.beam with s1 := .inf, s2 := .fin H.σ }) (sixValues u (H.p, H.c)) +
      (Spec.energy (BeamPart.stiffness { T.beam with s1 := .fin H.σ, s2 := .inf }) (sixValues u (H.c, H.q)) +
      (((chainOf (H.q :: H.B)).map fun e => Spec.energy T.beam.stiffness (sixValues u e)).sum +
      Spec.systemWork AssemblyPart.stiffness T.parts.tail u u))) :=
  hinged_work AssemblyPart.stiffness T H hin BeamPart.stiffness (fun _ _ _ => rfl) u u

theorem HingedStanding.intact_energy (h : HingedStanding inp T H) (s1 : T.beam.s1 = .inf) (s2 : T.beam.s2 = .inf) (u : Spec.NodalField ℝ) :
    Spec.systemWork AssemblyPart.stiffness T.parts u u =
      ((chainOf (H.A ++ [H.p])).map fun e => Spec.energy T.beam.stiffness (sixValues u e)).sum +
      (Spec.energy (BeamPart.stiffness { T.beam with s1 := .inf, s2 := .inf }) (sixValues u (H.p, H.c)) +
      (Spec.energy (BeamPart.stiffness { T.beam with s1 := .inf, s2 := .inf }) (sixValues u (H.c, H.q)) +
      (((chainOf (H.q :: H.B)).map fun e => Spec.energy T.beam.stiffness (sixValues u e)).sum +
      Spec.systemWork AssemblyPart.stiffness T.parts.tail u u))) := by
  have hb : ({ T.beam with s1 := .inf, s2 := .inf } : BeamPart ℝ) = T.beam := by
    cases hT : T.beam
    simp only [hT] at s1 s2
    subst s1 s2
    rfl
  rw [rail_work AssemblyPart.stiffness T h.standing.nonEmpty.rail BeamPart.stiffness (fun _ _ _ => rfl), h.rail, H.chain, hb]
  simp only [List.map_append, List.sum_append, List.map_cons, List.map_nil, List.sum_cons, List.sum_nil, add_zero]
  show _ + (_ + (_ + _)) + _ = _
  simp only [Spec.energy, bilinear]
  ring

/-- A hinge makes the track softer. -/
theorem HingedStanding.le_intact (h : HingedStanding inp T H) (s1 : T.beam.s1 = .inf) (s2 : T.beam.s2 = .inf) (hκ : T.beam.kappa = 0)
    (u : Spec.NodalField ℝ) :
    Spec.systemWork AssemblyPart.stiffness (T.hinged H) u u ≤ Spec.systemWork AssemblyPart.stiffness T.parts u u := by
  have hb := h.standing.beam
  have hf : fixity (T.beam.E * T.beam.I) T.beam.l (.fin H.σ) ≤ fixity (T.beam.E * T.beam.I) T.beam.l .inf :=
    fixity_le_one (mul_pos hb.E hb.I) hb.l _
  rw [hinged_energy T H h.inner, h.intact_energy s1 s2]
  have e1 := left_energy_mono hb hκ hf (sixValues u (H.p, H.c))
  have e2 := right_energy_mono hb hκ hf (sixValues u (H.c, H.q))
  linarith

/-- A softer hinge makes the track softer. -/
theorem HingedStanding.le_stiffer (h : HingedStanding inp T H) (hκ : T.beam.kappa = 0) (h0 : 0 < H.σ) {σ' : ℝ} (hσ : H.σ ≤ σ')
    (u : Spec.NodalField ℝ) :
    Spec.systemWork AssemblyPart.stiffness (T.hinged H) u u ≤ Spec.systemWork AssemblyPart.stiffness (T.hinged { H with σ := σ' }) u u := by
  have hb := h.standing.beam
  have hf := fixity_mono (mul_pos hb.E hb.I) hb.l h0 hσ
  rw [hinged_energy T H h.inner, hinged_energy T { H with σ := σ' } ⟨h.inner.left, h.inner.right⟩]
  have e1 := left_energy_mono hb hκ hf (sixValues u (H.p, H.c))
  have e2 := right_energy_mono hb hκ hf (sixValues u (H.c, H.q))
  show _ ≤ _ + (Spec.energy (BeamPart.stiffness { T.beam with s1 := .inf, s2 := .fin σ' }) _ +
    (Spec.energy (BeamPart.stiffness { T.beam with s1 := .fin σ', s2 := .inf }) _ + (_ + _)))
  linarith

/-- A unit displacement of a node of a chain is a unit displacement of one end of one of its elements. -/
theorem cut_chain_unit (L : List ℕ) (hnd : L.Nodup) (h2 : 2 ≤ L.length) (i : ℕ) (hi : i ∈ L) (d : Fin 3) :
    ∃ e ∈ chainOf L, ∃ q : Fin 6, sixValues (Spec.unitField i d) e = Pi.single q (1 : ℝ) := by
  obtain ⟨j, hj, rfl⟩ := List.mem_iff_getElem.mp hi
  have hne : ∀ a (ha : a < L.length), a ≠ j → L[a] ≠ L[j] := fun a ha hne he => hne ((List.Nodup.getElem_inj_iff hnd).mp he)
  by_cases hlast : j + 1 < L.length
  · refine ⟨_, getElem_chain L j hlast, ⟨d, by omega⟩, ?_⟩
    have h2 := hne (j + 1) hlast (by omega)
    ext q
    fin_cases d <;> fin_cases q <;> simp [sixValues, Spec.unitField, h2]
  · obtain ⟨a, rfl⟩ : ∃ a, j = a + 1 := ⟨j - 1, by omega⟩
    refine ⟨_, getElem_chain L a hj, ⟨d + 3, by omega⟩, ?_⟩
    have h1 := hne a (by omega) (by omega)
    ext q
    fin_cases d <;> fin_cases q <;> simp [sixValues, Spec.unitField, h1]

theorem HingedStanding.parts_nonneg (h : HingedStanding inp T H) (u : Spec.NodalField ℝ) :
    0 ≤ ((chainOf (H.A ++ [H.p])).map fun e => Spec.energy T.beam.stiffness (sixValues u e)).sum ∧
    0 ≤ Spec.energy (BeamPart.stiffness { T.beam with s1 := .inf, s2 := .fin H.σ }) (sixValues u (H.p, H.c)) ∧
    0 ≤ Spec.energy (BeamPart.stiffness { T.beam with s1 := .fin H.σ, s2 := .inf }) (sixValues u (H.c, H.q)) ∧
    0 ≤ ((chainOf (H.q :: H.B)).map fun e => Spec.energy T.beam.stiffness (sixValues u e)).sum ∧
    0 ≤ Spec.systemWork AssemblyPart.stiffness T.parts.tail u u :=
  ⟨list_sum_nonneg _ _ fun _ _ => C19_beam_psd _ h.standing.beam _, C19_beam_psd _ (h.valid _ _) _, C19_beam_psd _ (h.valid _ _) _,
    list_sum_nonneg _ _ fun _ _ => C19_beam_psd _ h.standing.beam _, h.rest_nonneg u⟩

/-- Every dof of the rail of a track with a hinge has stiffness, if the hinge is stiff enough. -/
theorem HingedStanding.hinge_stiff (h : HingedStanding inp T H) (hκ : T.beam.kappa = 0) (hp : RailPresent T.beam)
    (hy : 1 / 10 ^ 8 < 6 * T.beam.E * T.beam.I / T.beam.l ^ 3) (h0 : 0 < H.σ)
    (hrot : 1 / 10 ^ 8 < 8 * T.beam.E * T.beam.I * H.σ / (H.σ * T.beam.l + 4 * T.beam.E * T.beam.I)) (i : ℕ) (hi : i ∈ T.rail) (d : Fin 3) :
    1 / 10 ^ 8 < Spec.systemWork AssemblyPart.stiffness (T.hinged H) (Spec.unitField i d) (Spec.unitField i d) := by
  obtain ⟨d1, d2, d3, d4⟩ := h.distinct
  have hb := h.standing.beam
  have hE := hb.E; have hI := hb.I; have hl := hb.l; have hA := hb.A
  obtain ⟨n1, n2, n3, n4, n5⟩ := h.parts_nonneg (Spec.unitField i d)
  have hnd := h.nodup
  rw [h.rail, HingeCut.rail, show H.A ++ H.p :: H.c :: H.q :: H.B = (H.A ++ [H.p]) ++ (H.c :: H.q :: H.B) by simp] at hnd hi
  rw [List.nodup_append] at hnd
  rw [hinged_energy T H h.inner]
  have la := List.length_pos_iff.mpr h.inner.left
  have lb := List.length_pos_iff.mpr h.inner.right
  rcases List.mem_append.mp hi with hi | hi
  · obtain ⟨e, he, q, hq⟩ := cut_chain_unit _ hnd.1 (by simp; omega) i hi d
    have h1 := le_sum_of_mem _ (fun e => Spec.energy T.beam.stiffness (sixValues (Spec.unitField i d) e))
      (fun e _ => C19_beam_psd _ hb _) e he
    simp only [hq, energy_unit] at h1
    have := (hp q).2
    linarith
  rcases List.mem_cons.mp hi with rfl | hi
  · have z1 : ∃ q : Fin 6, (q : ℕ) = d + 3 ∧ sixValues (Spec.unitField H.c d : Spec.NodalField ℝ) (H.p, H.c) = Pi.single q 1 := by
      refine ⟨⟨d + 3, by omega⟩, rfl, ?_⟩
      ext k
      fin_cases d <;> fin_cases k <;> simp [sixValues, Spec.unitField, d1]
    have z2 : ∃ q : Fin 6, (q : ℕ) = d ∧ sixValues (Spec.unitField H.c d : Spec.NodalField ℝ) (H.c, H.q) = Pi.single q 1 := by
      refine ⟨⟨d, by omega⟩, rfl, ?_⟩
      ext k
      fin_cases d <;> fin_cases k <;> simp [sixValues, Spec.unitField, d2]
    obtain ⟨q1, v1, z1⟩ := z1
    obtain ⟨q2, v2, z2⟩ := z2
    rw [z1, left_energy hb hκ] at n2 ⊢
    rw [z2, right_energy hb hκ] at n3 ⊢
    have a0 := fixity_nonneg (mul_pos hE hI) hl (.fin H.σ)
    have a1 := fixity_le_one (mul_pos hE hI) hl (.fin H.σ)
    have af : fixity (T.beam.E * T.beam.I) T.beam.l (.fin H.σ) = 1 / (1 + 3 * (T.beam.E * T.beam.I) / (H.σ * T.beam.l)) := by
      simp only [fixity, gt_iff_lt, h0, if_true]
    generalize fixity (T.beam.E * T.beam.I) T.beam.l (.fin H.σ) = a at *
    fin_cases d
    · obtain rfl : q1 = 3 := Fin.ext v1
      obtain rfl : q2 = 0 := Fin.ext v2
      have h3 := (hp 0).2
      have e0 : T.beam.stiffness 0 0 = T.beam.E * T.beam.A / T.beam.l := by
        unfold BeamPart.stiffness
        rw [timoshenkoFactor_zero hκ, beamStiffness_eq]
        simp
        field_simp
      rw [e0] at h3
      simp at n1 n4 n5 ⊢
      have := h3.trans_le (le_refl _)
      norm_num at this ⊢
      have : 0 < T.beam.E * T.beam.A / T.beam.l := by positivity
      linarith
    · obtain rfl : q1 = 4 := Fin.ext v1
      obtain rfl : q2 = 1 := Fin.ext v2
      have key : 1 / 4 ≤ (1 + a * (1 + 1)) / (4 - a) := by
        rw [div_le_div_iff₀ (by norm_num) (by linarith)]
        linarith
      have key2 := mul_le_mul_of_nonneg_left key (by positivity : 0 ≤ 12 * (T.beam.E * T.beam.I / T.beam.l ^ 3))
      have e3 : 6 * T.beam.E * T.beam.I / T.beam.l ^ 3 = 2 * (12 * (T.beam.E * T.beam.I / T.beam.l ^ 3) * (1 / 4)) := by ring
      rw [e3] at hy
      simp at n1 n4 n5 ⊢
      norm_num at hy key2 ⊢
      linarith
    · obtain rfl : q1 = 5 := Fin.ext v1
      obtain rfl : q2 = 2 := Fin.ext v2
      have e3 : 8 * T.beam.E * T.beam.I * H.σ / (H.σ * T.beam.l + 4 * T.beam.E * T.beam.I) =
          2 * (12 * (T.beam.E * T.beam.I / T.beam.l ^ 3) * (a * T.beam.l ^ 2 / (4 - a))) := by
        have : (4 - a) ≠ 0 := by linarith
        rw [af] at this ⊢
        field_simp at this ⊢
        ring_nf at this ⊢
        field_simp
        ring
      rw [e3] at hrot
      simp at n1 n4 n5 ⊢
      norm_num at hrot ⊢
      linarith
  · obtain ⟨e, he, q, hq⟩ := cut_chain_unit _ (List.nodup_cons.mp hnd.2.1).2 (by simp; omega) i hi d
    have h1 := le_sum_of_mem _ (fun e => Spec.energy T.beam.stiffness (sixValues (Spec.unitField i d) e))
      (fun e _ => C19_beam_psd _ hb _) e he
    simp only [hq, energy_unit] at h1
    have := (hp q).2
    linarith

/-- A node that does not belong to the rail has the same stiffness with and without the hinge. -/
theorem HingedStanding.off_rail (h : HingedStanding inp T H) (i : ℕ) (hi : i ∉ T.rail) (d : Fin 3) :
    Spec.systemWork AssemblyPart.stiffness (T.hinged H) (Spec.unitField i d) (Spec.unitField i d) =
      Spec.systemWork AssemblyPart.stiffness T.parts (Spec.unitField i d) (Spec.unitField i d) := by
  have z : ∀ e ∈ chainOf H.rail, sixValues (Spec.unitField i d : Spec.NodalField ℝ) e = 0 := by
    intro e he
    rw [← h.rail] at he
    obtain ⟨m1, m2⟩ := mem_chainOf (a := e.1) (b := e.2) he
    exact sixValues_unit_zero i d e (fun hc => hi (hc ▸ m1)) (fun hc => hi (hc ▸ m2))
  rw [rail_work AssemblyPart.stiffness T h.standing.nonEmpty.rail BeamPart.stiffness (fun _ _ _ => rfl),
    hinged_work AssemblyPart.stiffness T H h.inner BeamPart.stiffness (fun _ _ _ => rfl), h.rail]
  have s : ∀ L : List (ℕ × ℕ), (∀ e ∈ L, e ∈ chainOf H.rail) → (L.map fun e => bilinear T.beam.stiffness (sixValues (Spec.unitField i d) e)
      (sixValues (Spec.unitField i d) e)).sum = 0 := by
    intro L hL
    apply List.sum_eq_zero
    intro x hx
    obtain ⟨e, he, rfl⟩ := List.mem_map.mp hx
    rw [z e (hL e he), bilinear_zero]
  rw [s _ fun e he => he, s _ fun e he => by rw [H.chain]; simp [he], s _ fun e he => by rw [H.chain]; simp [he],
    z (H.p, H.c) (by rw [H.chain]; simp), z (H.c, H.q) (by rw [H.chain]; simp), bilinear_zero, bilinear_zero]
  ring

theorem HingedStanding.mass_same (h : HingedStanding inp T H) (u : Spec.NodalField ℝ) :
    Spec.systemWork AssemblyPart.mass (T.hinged H) u u = Spec.systemWork AssemblyPart.mass T.parts u u :=
  hinged_work_same AssemblyPart.mass T H h.inner h.rail BeamPart.massMatrix (fun _ _ _ => rfl) (fun b _ _ => massMatrix_springs b _ _) u u

/-- The hinge removes no dof that the rail without hinge has. -/
theorem HingedStanding.removed (h : HingedStanding inp T H) (hparts : inp.parts = T.parts) (hκ : T.beam.kappa = 0) (hp : RailPresent T.beam)
    (hy : 1 / 10 ^ 8 < 6 * T.beam.E * T.beam.I / T.beam.l ^ 3) (h0 : 0 < H.σ)
    (hrot : 1 / 10 ^ 8 < 8 * T.beam.E * T.beam.I * H.σ / (H.σ * T.beam.l + 4 * T.beam.E * T.beam.I)) (i : ℕ) (d : Fin 3)
    (hrem : Spec.Removed (inp.withHinge T H) i d) : Spec.Removed inp i d := by
  rcases hrem with hr | hr | hr
  · exact Or.inl hr
  · right; left
    rw [hparts, ← h.mass_same]
    exact hr
  · right; right
    rw [hparts]
    by_cases hi : i ∈ T.rail
    · have := h.hinge_stiff hκ hp hy h0 hrot i hi d
      exact absurd (lt_of_lt_of_le this ((le_abs_self _).trans hr)) (lt_irrefl _)
    · rw [← h.off_rail i hi d]
      exact hr

/-- From a hinge to a stiffer hinge, and from a hinge to none. -/
theorem HingedStanding.noSofter (h : HingedStanding inp T H) (hparts : inp.parts = T.parts) (s1 : T.beam.s1 = .inf) (s2 : T.beam.s2 = .inf)
    (hκ : T.beam.kappa = 0) (hp : RailPresent T.beam)
    (hy : 1 / 10 ^ 8 < 6 * T.beam.E * T.beam.I / T.beam.l ^ 3) (h0 : 0 < H.σ)
    (hrot : 1 / 10 ^ 8 < 8 * T.beam.E * T.beam.I * H.σ / (H.σ * T.beam.l + 4 * T.beam.E * T.beam.I))
    (S : HeldStill (inp.withHinge T H)) (S0 : HeldStill inp) :
    (∀ σ', H.σ ≤ σ' → HeldStill (inp.withHinge T { H with σ := σ' }) →
      Spec.NoSofter (inp.withHinge T H) (inp.withHinge T { H with σ := σ' }) ∧
      Spec.NoDeeper (inp.withHinge T H) (inp.withHinge T { H with σ := σ' })) ∧
    Spec.NoSofter (inp.withHinge T H) inp ∧ Spec.NoDeeper (inp.withHinge T H) inp := by
  constructor
  · intro σ' hσ S'
    have h' : HingedStanding inp T { H with σ := σ' } := ⟨h.standing, ⟨h.inner.left, h.inner.right⟩, h.rail, h.nodup⟩
    have main : Spec.NoSofter (inp.withHinge T H) (inp.withHinge T { H with σ := σ' }) := by
      refine S.noSofter S' rfl ?_ fun w _ => h.le_stiffer hκ h0 hσ w
      intro w hw i hi d hrem
      refine hw i hi d ?_
      rcases h.removed hparts hκ hp hy h0 hrot i d hrem with hr | hr | hr
      · exact Or.inl hr
      · right; left
        rw [hparts, ← h'.mass_same] at hr
        exact hr
      · right; right
        rw [hparts] at hr
        refine le_trans ?_ hr
        show |Spec.systemWork AssemblyPart.stiffness (T.hinged { H with σ := σ' }) _ _| ≤ _
        rw [abs_of_nonneg (h'.energy_nonneg _)]
        exact (h'.le_intact s1 s2 hκ _).trans (le_abs_self _)
    exact ⟨main, main.deeper S S' rfl⟩
  · have main : Spec.NoSofter (inp.withHinge T H) inp := by
      refine S.noSofter S0 rfl (fun w hw i hi d hrem => hw i hi d (h.removed hparts hκ hp hy h0 hrot i d hrem)) fun w _ => ?_
      rw [hparts]
      exact h.le_intact s1 s2 hκ w
    exact ⟨main, main.deeper S S0 rfl⟩

/-- A moment on a free pin turns nothing, while it turns the rail without hinge. -/
theorem HingedStanding.pin_drops (h : HingedStanding inp T H) (hσ : H.σ ≤ 0) (hc : H.c < inp.n) (hr : ¬ Spec.Removed inp H.c 2)
    (S : HeldStill (inp.withHinge T H)) (S0 : HeldStill inp) : ¬ Spec.NoDeeper (inp.withHinge T H) inp := by
  intro hnd
  have fit : ∀ l ∈ [(⟨[H.c], fun e => decide (e = 2), .table fun _ _ e => if e = 2 then 1 else 0⟩ : TimedLoad ℝ)], Spec.LoadFits inp.n l := by
    intro l hl
    obtain rfl := List.mem_singleton.mp hl
    refine ⟨by simp, fun x hx => ?_⟩
    obtain rfl : x = H.c := by simpa using hx
    exact hc
  obtain ⟨r, R⟩ := S.results _ 1 fit
  obtain ⟨r0, R0⟩ := S0.results _ 1 fit
  have hle := hnd H.c hc 2 (fun _ => 1) 1 r r0 R R0 0 (by norm_num)
  obtain ⟨a, -⟩ := S.equilibrium fit R (s := 0) (by norm_num)
  obtain ⟨a0, e0⟩ := S0.equilibrium fit R0 (s := 0) (by norm_num)
  have hw : ∀ u : Spec.NodalField ℝ, Spec.loadWork (Spec.loadsAt
      [(⟨[H.c], fun e => decide (e = 2), .table fun _ _ e => if e = 2 then 1 else 0⟩ : TimedLoad ℝ)] 0) u = u H.c 2 := by
    intro u
    unfold Spec.loadWork Spec.loadsAt
    simp
  have z : Spec.shape r 0 H.c 2 = 0 := by
    refine a H.c hc 2 (Or.inr (Or.inr ?_))
    show |Spec.systemWork AssemblyPart.stiffness (T.hinged H) _ _| ≤ _
    rw [h.pin_unstiff hσ, abs_zero]
    norm_num
  have z0 : Spec.shape r0 0 H.c 2 = 0 := by
    rw [z, abs_zero] at hle
    exact abs_eq_zero.mp (le_antisymm hle (abs_nonneg _))
  have au : Spec.Admissible inp (Spec.unitField H.c 2) := by
    intro i hi d hrem
    unfold Spec.unitField
    split_ifs with hcase
    · exact absurd (hcase.1 ▸ hcase.2 ▸ hrem) hr
    · rfl
  have w0 := e0 _ a0
  have w1 := e0 _ au
  rw [hw, z0] at w0
  rw [hw] at w1
  have u1 : (Spec.unitField H.c 2 : Spec.NodalField ℝ) H.c 2 = 1 := by simp [Spec.unitField]
  rw [u1] at w1
  have p := (S0.energy _ au).1
  generalize hW : Spec.systemWork AssemblyPart.stiffness inp.parts (Spec.unitField H.c 2) (Spec.unitField H.c 2) = W at p
  have q := (S0.energy _ (admissible_combine a0 au (-(1 / (W + 1))))).1
  rw [S0.work_combine, systemWork_combine, systemWork_combine, w0, w1, S0.work_symm, w1, hW] at q
  have hpos : 0 < W + 1 := by linarith
  have : 0 + -(1 / (W + 1)) * 1 + -(1 / (W + 1)) * (1 + -(1 / (W + 1)) * W) = -((W + 2) / (W + 1) ^ 2) := by
    field_simp
    ring
  rw [this] at q
  have : 0 < (W + 2) / (W + 1) ^ 2 := by positivity
  linarith

end standing

/-! ### C178 -/

theorem hingeStiffness_of_lt {E I L f : ℝ} (hf : 0 ≤ f) (hf1 : f < 1) : hingeStiffness E I L f none = some (3 * E * I * f / ((1 - f) * L)) := by
  unfold hingeStiffness
  rw [if_pos ⟨hf, hf1⟩]

theorem hingeStiffness_mono {E I L f f' : ℝ} (hE : 0 < E) (hI : 0 < I) (hL : 0 < L) (hf : 0 < f) (hff : f ≤ f') (hf1 : f' < 1) :
    3 * E * I * f / ((1 - f) * L) ≤ 3 * E * I * f' / ((1 - f') * L) := by
  have h1 : 0 < 1 - f' := by linarith
  have h2 : 0 < f' := by linarith
  refine div_le_div₀ (by positivity) (mul_le_mul_of_nonneg_left hff (by positivity)) (by positivity) ?_
  exact mul_le_mul_of_nonneg_right (by linarith) hL.le

section combined
variable {H : Type*} [DecidableEq H] (hash : (Fin 3 → ℝ) → H) {r k : ℕ} {d : ℝ} {segments : List (ℕ × ℝ)}

/-- **C178** A track combined from segments, of a rail without shear deformation: a hinge of greater fixity factor gives way no more than one of
smaller fixity factor, and the rail without hinge no more than the rail with one. The hinge has to be stiff enough that its node keeps its
unknowns; a fixity factor of 1 stands for a hinge of `10^30`, which has to be stiffer than the other. -/
theorem C178_hinge_partial (g : GoodSegments r d segments) (length : ℝ) (hlength : 0 < length) (v : TrackValues) (soils : List (RodValues ℝ))
    (hs : segments.length ≤ soils.length) (kv : KeptValues (d / r) v soils) (hκ : v.rail.kappa = 0)
    (hk : 2 ≤ k) (hkm : k + 3 ≤ railCount r segments) (near : 1 / 100000000 + 1 / 100000 * ((k : ℝ) * (d / r)) < d / r)
    (f f' : ℝ) (hf : 0 < f) (hf1 : f < 1) (hff : f ≤ f')
    (hf' : f' < 1 ∨ f' = 1 ∧ 3 * v.rail.E * v.rail.I * f / ((1 - f) * length) ≤ 10 ^ 30)
    (hkept : Spec.HingeKept v.rail.E v.rail.I (d / r) (3 * v.rail.E * v.rail.I * f / ((1 - f) * length))) :
    ∃ c inp inp' inp₀, combinedTrack hash r d segments = .ok c ∧ c.hingedSystem length v soils f (k * (d / r)) true = .ok inp ∧
      c.hingedSystem length v soils f' (k * (d / r)) true = .ok inp' ∧ c.system length v soils true = .ok inp₀ ∧
      Spec.NoSofter inp inp' ∧ Spec.NoDeeper inp inp' ∧ Spec.NoSofter inp inp₀ ∧ Spec.NoDeeper inp inp₀ := by
  obtain ⟨c, hc, sound, -, -, -, -, -, -, hlen, -⟩ := C136_structure hash g
  have hs' : c.soils.length ≤ soils.length := by omega
  obtain ⟨w, hw⟩ := sound.some_soil hs'
  have V := kv.valid w hw
  have hE : 0 < v.rail.E := V.E
  have hI : 0 < v.rail.I := V.I
  have hl := sound.l_pos
  have h1 : 0 < 1 - f := by linarith
  obtain ⟨s', hs1, hs2⟩ : ∃ s', hingeStiffness v.rail.E v.rail.I length f' none = some s' ∧
      3 * v.rail.E * v.rail.I * f / ((1 - f) * length) ≤ s' := by
    rcases hf' with h | ⟨rfl, h⟩
    · exact ⟨_, hingeStiffness_of_lt (by linarith) h, hingeStiffness_mono hE hI hlength hf hff h⟩
    · refine ⟨10 ^ 30, ?_, h⟩
      unfold hingeStiffness
      rw [if_neg (by simp), if_pos (by norm_num [npIsCloseOne])]
  set s := 3 * v.rail.E * v.rail.I * f / ((1 - f) * length) with hsdef
  have s0 : 0 < s := by positivity
  obtain ⟨a, b, ha, hb, hsys⟩ := sound.hingedSystem length v soils hs' true hk hkm near f s (hingeStiffness_of_lt hf.le hf1)
  obtain ⟨a', b', ha', hb', hsys'⟩ := sound.hingedSystem length v soils hs' true hk hkm near f' s' hs1
  obtain ⟨a₀, b₀, ha₀, hb₀, hsys₀⟩ := sound.system length v soils hs' true
  obtain rfl : a = a' := Option.some.inj (ha.symm.trans ha')
  obtain rfl : b = b' := Option.some.inj (hb.symm.trans hb')
  obtain rfl : a = a₀ := Option.some.inj (ha.symm.trans ha₀)
  obtain rfl : b = b₀ := Option.some.inj (hb.symm.trans hb₀)
  have ma := List.mem_of_head? ha
  have mb := List.mem_of_getLast? hb
  have still : ∀ t : ℝ, 0 < t → HeldStill ((c.inputOf (d / r) v soils a b true).withHinge (c.partsOf (d / r) v soils) (c.cutAt k (t / 2))) :=
    fun t ht => sound.hingedStill hs' kv.valid ma mb hk hkm fun h => by linarith
  obtain ⟨m1, m2, m3⟩ := (sound.hinged v soils hs' kv.valid a b ma mb true hk hkm (s / 2)).noSofter rfl V.s1 V.s2 hκ kv.rail
    (by exact hkept.1) (by show 0 < s / 2; linarith) (by
      have h2 := hkept.2
      have e : 8 * v.rail.E * v.rail.I * (s / 2) / ((s / 2) * (d / r) + 4 * v.rail.E * v.rail.I) =
          8 * v.rail.E * v.rail.I * s / (s * (d / r) + 8 * v.rail.E * v.rail.I) := by
        rw [div_eq_div_iff (by positivity) (by positivity)]
        ring
      rw [← e] at h2
      exact h2) (still s s0) (sound.heldStill hs' kv.valid ma mb)
  obtain ⟨m4, m5⟩ := m1 (s' / 2) (by show s / 2 ≤ s' / 2; linarith) (still s' (by linarith))
  exact ⟨c, _, _, _, hc, hsys, hsys', hsys₀, m4, m5, m2, m3⟩

/-- **C178** A free pin is no hinge of fixity factor 0 in this sense: a moment on its node is left out of the equations, so that the node does
not turn, although it turns in the rail without hinge. -/
theorem C178_pin_violated (g : GoodSegments r d segments) (length : ℝ) (v : TrackValues) (soils : List (RodValues ℝ))
    (hs : segments.length ≤ soils.length) (kv : KeptValues (d / r) v soils) (h3 : 3 ≤ (segments.map Prod.fst).sum)
    (hk : 2 ≤ k) (hkm : k + 3 ≤ railCount r segments) (hkr : k + r < railCount r segments)
    (near : 1 / 100000000 + 1 / 100000 * ((k : ℝ) * (d / r)) < d / r) :
    ∃ c inp inp₀, combinedTrack hash r d segments = .ok c ∧ c.hingedSystem length v soils 0 (k * (d / r)) true = .ok inp ∧
      c.system length v soils true = .ok inp₀ ∧ ¬ Spec.NoDeeper inp inp₀ := by
  obtain ⟨c, hc, sound, -, -, -, -, hpads, -, hlen, -⟩ := C136_structure hash g
  have hs' : c.soils.length ≤ soils.length := by omega
  obtain ⟨a, b, ha, hb, hsys⟩ := sound.hingedSystem length v soils hs' true hk hkm near 0 0 (hingeStiffness_zero _ _ _)
  obtain ⟨a₀, b₀, ha₀, hb₀, hsys₀⟩ := sound.system length v soils hs' true
  obtain rfl : a = a₀ := Option.some.inj (ha.symm.trans ha₀)
  obtain rfl : b = b₀ := Option.some.inj (hb.symm.trans hb₀)
  have ma := List.mem_of_head? ha
  have mb := List.mem_of_getLast? hb
  have hpad : ∀ x ∈ c.sleepers, ∃ e ∈ c.pads, e.2 = x := by
    intro x hx
    rw [← hpads] at hx
    exact List.mem_map.mp hx
  have S0 := sound.heldStill hs' kv.valid ma mb
  have hrl := sound.len
  have hk' : k < c.rail.length := by omega
  have hcn : (c.cutAt k (0 / 2)).c = c.place c.rail[k] := by
    show c.railNumber k = _
    unfold CombinedTrack.railNumber
    rw [List.getD_eq_getElem _ _ (by rw [List.length_map]; omega), List.getElem_map]
  have hmem : c.rail[k] ∈ c.rail := List.getElem_mem _
  have hlt := sound.place_lt _ (sound.rail_mem _ hmem)
  refine ⟨c, _, _, hc, hsys, hsys₀, (sound.hinged v soils hs' kv.valid a b ma mb true hk hkm (0 / 2)).pin_drops (by show (0 : ℝ) / 2 ≤ 0; norm_num)
    (by rw [hcn]; exact hlt) ?_ (sound.hingedStill hs' kv.valid ma mb hk hkm (σ := 0 / 2)
    (fun _ => Or.inl (combined_holdsPin hash g v soils h3 (by omega) hkr c hc))) S0⟩
  obtain ⟨st, hst⟩ := C106_succeeds _ S0.mesh freshFlags
  intro hrem
  have hnone := (C106_unknowns_partial _ S0.mesh S0.aligned st hst _ (by rw [hcn]; exact hlt) 2).mpr hrem
  rw [hcn] at hnone
  exact absurd ((sound.unknowns hs' kv hpad a b ha hb st hst).1 _ hmem 2 |>.mp hnone).2 (by decide)

end combined

theorem stiffTrack_kept : KeptValues (3 / 5 / (2 : ℕ)) stiffTrack threeSoils := by
  refine ⟨?_, exampleTrack_nonNeg.padMass, threeSoils_kept.soilMass, ?_, by norm_num [stiffTrack, exampleTrack], by norm_num [stiffTrack, exampleTrack]⟩
  · intro w hw
    have h := threeSoils_kept.valid w hw
    exact ⟨h.E, h.nu, h.rho, h.A, h.I, le_rfl, h.s1, h.s2, h.pad, h.soil⟩
  · intro k
    rw [BeamPart.stiffness, beamStiffness_eq, BeamPart.massMatrix, beamMass, beamTransMass_eq, timoshenkoFactor_zero rfl, if_neg (by norm_num)]
    fin_cases k <;> constructor <;> norm_num [stiffTrack, exampleTrack, fixity]

/-- Three, one and four sleepers with a hinge at 3 m: a hinge of fixity 9/10 against one of 1/2, the rail without hinge, and a free pin. -/
example : ∃ c inp inp' inp₀, combinedTrack (fun p : Fin 3 → ℝ => p) 2 (3 / 5) [(3, 1), (1, 2), (4, 1 / 2)] = .ok c ∧
    c.hingedSystem (3 / 5) stiffTrack threeSoils (1 / 2) ((10 : ℕ) * (3 / 5 / (2 : ℕ))) true = .ok inp ∧
    c.hingedSystem (3 / 5) stiffTrack threeSoils (9 / 10) ((10 : ℕ) * (3 / 5 / (2 : ℕ))) true = .ok inp' ∧
    c.system (3 / 5) stiffTrack threeSoils true = .ok inp₀ ∧
    Spec.NoSofter inp inp' ∧ Spec.NoDeeper inp inp' ∧ Spec.NoSofter inp inp₀ ∧ Spec.NoDeeper inp inp₀ :=
  C178_hinge_partial _ exampleSegments (3 / 5) (by norm_num) stiffTrack threeSoils (by simp [threeSoils]) stiffTrack_kept rfl (by norm_num)
    (by decide) (by norm_num) (1 / 2) (9 / 10) (by norm_num) (by norm_num) (by norm_num) (Or.inl (by norm_num))
    (by constructor <;> norm_num [stiffTrack, exampleTrack])

example : ∃ c inp inp₀, combinedTrack (fun p : Fin 3 → ℝ => p) 2 (3 / 5) [(3, 1), (1, 2), (4, 1 / 2)] = .ok c ∧
    c.hingedSystem (3 / 5) stiffTrack threeSoils 0 ((10 : ℕ) * (3 / 5 / (2 : ℕ))) true = .ok inp ∧
    c.system (3 / 5) stiffTrack threeSoils true = .ok inp₀ ∧ ¬ Spec.NoDeeper inp inp₀ :=
  C178_pin_violated _ exampleSegments (3 / 5) stiffTrack threeSoils (by simp [threeSoils]) stiffTrack_kept (by norm_num) (by norm_num)
    (by decide) (by decide) (by norm_num)

end Rose
