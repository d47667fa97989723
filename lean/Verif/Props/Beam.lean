/-
Properties C17-C24, C26, C27: rod and beam elements.
-/
import Verif.Lemmas.Beam
import Mathlib.Tactic.NormNum

set_option linter.unusedSectionVars false

namespace Rose
open Spec

variable {K : Type*} [Field K] [LinearOrder K] [IsStrictOrderedRing K]

/-- Physically admissible beam: positive stiffness, section and length, `-1 < nu`, non-negative shear factor. -/
structure BeamPart.Valid (b : BeamPart K) : Prop where
  E : 0 < b.E
  nu : -1 < b.nu
  rho : 0 < b.rho
  A : 0 < b.A
  I : 0 < b.I
  kappa : 0 ≤ b.kappa
  l : 0 < b.l

/-- A shear-flexible steel-like beam of length 2 with a spring at its right end, used as the non-trivial example. -/
def exampleBeam : BeamPart ℚ :=
  { E := 200, nu := 1 / 4, rho := 8, A := 3, I := 5, kappa := 1 / 2, l := 2, s1 := .inf, s2 := .fin 300 }

theorem exampleBeam_valid : exampleBeam.Valid := by
  constructor <;> norm_num [exampleBeam]

theorem timoshenkoFactor_nonneg (b : BeamPart K) (h : b.Valid) : 0 ≤ timoshenkoFactor b := by
  have h1 := h.E; have h2 := h.nu; have h3 := h.A; have h4 := h.I; have h6 := h.l
  unfold timoshenkoFactor shearModulus
  split_ifs with hk
  · have hk' : 0 < b.kappa := hk
    have : 0 < 1 + b.nu := by linarith
    positivity
  · exact le_refl _

/-! ## C17 Rigid translation produces no force -/

/-- C17: rod stiffness, any global translation, any orientation. -/
theorem C17_rod_stiffness_translation (k c s tx ty : K) :
    ForceFree (rotateAux c s (rodEmbed (rodStiffness k))) (translation tx ty) := by
  rw [forceFree_iff, rotateAux_mulVec, rotT_mulVec, rodStiffness_eq, rodEmbed_eq]
  suffices h : Matrix.mulVec _ (toGlobal c s (translation tx ty)) = 0 by rw [h, Matrix.mulVec_zero]
  ext i
  fin_cases i <;> simp [Matrix.mulVec, dotProduct, Fin.sum_univ_six, toGlobal, translation]

/-- C17: rod damping, any global translation, any orientation. -/
theorem C17_rod_damping_translation (k c s tx ty : K) :
    ForceFree (rotateAux c s (rodEmbed (rodDamping k))) (translation tx ty) := by
  rw [forceFree_iff, rotateAux_mulVec, rotT_mulVec, rodDamping_eq, rodEmbed_eq]
  suffices h : Matrix.mulVec _ (toGlobal c s (translation tx ty)) = 0 by rw [h, Matrix.mulVec_zero]
  ext i
  fin_cases i <;> simp [Matrix.mulVec, dotProduct, Fin.sum_univ_six, toGlobal, translation]

/-- C17: beam stiffness, any material, section, shear factor, end springs, orientation and translation.
(No validity hypothesis is needed.) -/
theorem C17_beam_translation (b : BeamPart K) (c s tx ty : K) :
    ForceFree (rotateAux c s b.stiffness) (translation tx ty) := by
  rw [forceFree_iff, rotateAux_mulVec, rotT_mulVec, BeamPart.stiffness, beamStiffness_eq]
  suffices h : Matrix.mulVec _ (toGlobal c s (translation tx ty)) = 0 by rw [h, Matrix.mulVec_zero]
  ext i
  fin_cases i <;> simp [Matrix.mulVec, dotProduct, Fin.sum_univ_six, toGlobal, translation]

/-- The translation of the example is not the zero vector and its beam is flexible: the theorem is not about `0`. -/
example : translation (3 : ℚ) 4 ≠ 0 ∧ exampleBeam.stiffness ≠ 0 := by
  refine ⟨fun h => by simpa [translation] using congrFun h 0, fun h => ?_⟩
  have := congrFun (congrFun h 0) 0
  rw [BeamPart.stiffness, beamStiffness_eq] at this
  norm_num [exampleBeam, timoshenkoFactor, shearModulus, fixity] at this

/-! ## C18 Rigid rotation of a beam produces no force -/

/-- C18, exact characterisation in local axes: an infinitesimal rotation about every point is force free exactly if the
beam is shear-rigid or the fixity factors satisfy `a1 (1 - a2) = 0 = a2 (1 - a1)` (both ends rigid or both pinned). -/
theorem C18_rigid_rotation_iff {E A I phi l a1 a2 : K} (hE : E ≠ 0) (hI : I ≠ 0) (hphi : 1 + phi ≠ 0) (hl : l ≠ 0)
    (hd : 4 - a1 * a2 ≠ 0) :
    (∀ w px py, ForceFree (beamStiffness E A I phi l a1 a2) (rotationAbout w px py 0 0 l 0)) ↔
      phi = 0 ∨ (a1 * (1 - a2) = 0 ∧ a2 * (1 - a1) = 0) := by
  constructor
  · intro h
    have h2 := h 1 0 0 2
    have h5 := h 1 0 0 5
    rw [beamStiffness_eq] at h2 h5
    simp [Fin.sum_univ_six, rotationAbout] at h2 h5
    field_simp at h2 h5
    by_cases hp : phi = 0
    · exact Or.inl hp
    · right
      constructor
      · have : (E * I * phi) * (a1 * (1 - a2)) = 0 := by linear_combination h2 / 3
        exact (mul_eq_zero.mp this).resolve_left (by simp [hE, hI, hp])
      · have : (E * I * phi) * (a2 * (1 - a1)) = 0 := by linear_combination h5 / 3
        exact (mul_eq_zero.mp this).resolve_left (by simp [hE, hI, hp])
  · intro h w px py
    have e2 : phi * (a1 * (1 - a2)) = 0 := by
      rcases h with h | h
      · simp [h]
      · simp [h.1]
    have e5 : phi * (a2 * (1 - a1)) = 0 := by
      rcases h with h | h
      · simp [h]
      · simp [h.2]
    rw [forceFree_iff, beamStiffness_eq]
    ext i
    fin_cases i <;> simp [Matrix.mulVec, dotProduct, Fin.sum_univ_six, rotationAbout]
    · field_simp; ring
    · field_simp; linear_combination (3 * w * E * I * l) * e2
    · field_simp; ring
    · field_simp; linear_combination (3 * w * E * I * l / (4 - a2 * a1)) * e5

/-- C18 (partial: only for shear-rigid beams with any end springs, or shear-flexible beams with two rigid ends; the
missing case is refuted by `C18_violated`). -/
theorem C18_rigid_rotation_partial (b : BeamPart K) (hb : b.Valid)
    (h : b.kappa = 0 ∨ (b.s1 = .inf ∧ b.s2 = .inf)) (w px py : K) :
    ForceFree b.stiffness (rotationAbout w px py 0 0 b.l 0) := by
  have hphi := timoshenkoFactor_nonneg b hb
  have h1 := fixity_nonneg (mul_pos hb.E hb.I) hb.l b.s1
  have h1' := fixity_le_one (mul_pos hb.E hb.I) hb.l b.s1
  have h2' := fixity_le_one (mul_pos hb.E hb.I) hb.l b.s2
  refine (C18_rigid_rotation_iff hb.E.ne' hb.I.ne' (by positivity) hb.l.ne'
    (fixity_den_pos h1 h1' h2').ne').mpr ?_ w px py
  rcases h with h | ⟨h, h'⟩
  · left; simp [timoshenkoFactor, h]
  · right; simp [h, h', fixity]

/-- C18 fails: a rigid rotation of the (valid) shear-flexible beam with one semi-rigid end produces nodal moments. -/
theorem C18_violated :
    exampleBeam.Valid ∧ ¬ ForceFree exampleBeam.stiffness (rotationAbout 1 0 0 0 0 exampleBeam.l 0) := by
  refine ⟨exampleBeam_valid, fun h => ?_⟩
  have := h 2
  rw [BeamPart.stiffness, beamStiffness_eq] at this
  simp [Fin.sum_univ_six, rotationAbout, exampleBeam, timoshenkoFactor, shearModulus, fixity] at this
  norm_num at this

example : ({ exampleBeam with s2 := .inf } : BeamPart ℚ).Valid := by constructor <;> norm_num [exampleBeam]

/-! ## C19 Beam and rod stiffness: symmetric, no negative energy, resists deformation -/

theorem C19_beam_symmetric (b : BeamPart K) : b.stiffness.IsSymm := by
  unfold Matrix.IsSymm
  rw [BeamPart.stiffness, beamStiffness_eq]
  ext i j
  fin_cases i <;> fin_cases j <;> simp [Matrix.transpose]

theorem C19_rod_symmetric (k : K) : (rodStiffness k).IsSymm ∧ (rodDamping k).IsSymm ∧ (rodMass k).IsSymm := by
  refine ⟨?_, ?_, ?_⟩
  · rw [rodStiffness_eq]; unfold Matrix.IsSymm; ext i j; fin_cases i <;> fin_cases j <;> simp [Matrix.transpose]
  · rw [rodDamping_eq]; unfold Matrix.IsSymm; ext i j; fin_cases i <;> fin_cases j <;> simp [Matrix.transpose]
  · rw [rodMass_eq]; unfold Matrix.IsSymm; ext i j; fin_cases i <;> fin_cases j <;> simp [Matrix.transpose]

/-- Energy of a rod: stiffness times squared elongation. -/
theorem C19_rod_energy (k : K) (u : Fin 2 → K) : energy (rodStiffness k) u = k * (u 1 - u 0) ^ 2 := by
  rw [rodStiffness_eq]
  simp [energy, Fin.sum_univ_two]; ring

/-- Energy of the beam as a sum of squares (helper, also used for the kernel). -/
theorem beam_energy_formula {E A I phi l a1 a2 : K} (hI : I ≠ 0) (hphi : 1 + phi ≠ 0) (hl : l ≠ 0)
    (hd : 4 - a1 * a2 ≠ 0) (u : Fin 6 → K) :
    energy (beamStiffness E A I phi l a1 a2) u =
      E * A / l * (u 0 - u 3) ^ 2 +
      E * I / ((1 + phi) * l ^ 3) / (4 - a1 * a2) *
        (12 * (a1 * (l * u 2 + (u 1 - u 4)) ^ 2 + a2 * (l * u 5 + (u 1 - u 4)) ^ 2 +
          a1 * a2 * (l * u 2 + (u 1 - u 4)) * (l * u 5 + (u 1 - u 4))) +
         3 * phi * l ^ 2 * (a1 * u 2 ^ 2 + a2 * u 5 ^ 2 - 2 * a1 * a2 * u 2 * u 5)) := by
  rw [beamStiffness_eq]
  simp [energy, Fin.sum_univ_six]
  field_simp
  ring

theorem quad_aux {a1 a2 x y : K} (h1 : 0 ≤ a1) (h1' : a1 ≤ 1) (h2 : 0 ≤ a2) (h2' : a2 ≤ 1) :
    0 ≤ a1 * x ^ 2 + a2 * y ^ 2 + a1 * a2 * x * y := by
  have h12 : 0 ≤ a1 * a2 := mul_nonneg h1 h2
  have e1 : a1 * a2 * x ^ 2 ≤ a1 * x ^ 2 := by
    have : a1 * a2 ≤ a1 := by nlinarith
    nlinarith [sq_nonneg x]
  have e2 : a1 * a2 * y ^ 2 ≤ a2 * y ^ 2 := by
    have : a1 * a2 ≤ a2 := by nlinarith
    nlinarith [sq_nonneg y]
  nlinarith [mul_nonneg h12 (sq_nonneg (x + y)), mul_nonneg h12 (sq_nonneg x), mul_nonneg h12 (sq_nonneg y)]

theorem quad_aux' {a1 a2 x y : K} (h1 : 0 ≤ a1) (h1' : a1 ≤ 1) (h2 : 0 ≤ a2) (h2' : a2 ≤ 1) :
    0 ≤ a1 * x ^ 2 + a2 * y ^ 2 - 2 * a1 * a2 * x * y := by
  have e1 : a1 * a1 ≤ a1 := by nlinarith
  have e2 : a2 * a2 ≤ a2 := by nlinarith
  nlinarith [sq_nonneg (a1 * x - a2 * y), mul_le_mul_of_nonneg_right e1 (sq_nonneg x),
    mul_le_mul_of_nonneg_right e2 (sq_nonneg y)]

/-- C19: no displacement of a valid beam has negative energy, whatever the end springs and shear factor. -/
theorem C19_beam_psd (b : BeamPart K) (hb : b.Valid) : PosSemidef b.stiffness := by
  intro u
  have hphi := timoshenkoFactor_nonneg b hb
  have h1 := fixity_nonneg (mul_pos hb.E hb.I) hb.l b.s1
  have h1' := fixity_le_one (mul_pos hb.E hb.I) hb.l b.s1
  have h2 := fixity_nonneg (mul_pos hb.E hb.I) hb.l b.s2
  have h2' := fixity_le_one (mul_pos hb.E hb.I) hb.l b.s2
  have hd := fixity_den_pos h1 h1' h2'
  have hE := hb.E; have hI := hb.I; have hl := hb.l; have hA := hb.A
  rw [BeamPart.stiffness, beam_energy_formula hI.ne' (by positivity) hl.ne' hd.ne']
  have q1 := quad_aux (x := b.l * u 2 + (u 1 - u 4)) (y := b.l * u 5 + (u 1 - u 4)) h1 h1' h2 h2'
  have q2 := quad_aux' (x := u 2) (y := u 5) h1 h1' h2 h2'
  have q3 : 0 ≤ 3 * timoshenkoFactor b * b.l ^ 2 := by positivity
  have q4 := mul_nonneg q3 q2
  have : 0 ≤ b.E * b.A / b.l * (u 0 - u 3) ^ 2 := by positivity
  have hc : 0 ≤ b.E * b.I / ((1 + timoshenkoFactor b) * b.l ^ 3) /
      (4 - fixity (b.E * b.I) b.l b.s1 * fixity (b.E * b.I) b.l b.s2) := by positivity
  have := mul_nonneg hc (add_nonneg (mul_nonneg (by norm_num : (0 : K) ≤ 12) q1) q4)
  linarith

/-- C19: a valid beam with rigid ends stores energy in every displacement that is not a rigid body motion. -/
theorem C19_beam_kernel (b : BeamPart K) (hb : b.Valid) (h1 : b.s1 = .inf) (h2 : b.s2 = .inf) (u : Fin 6 → K) :
    energy b.stiffness u = 0 ↔ RigidMotion b.l u := by
  have hphi := timoshenkoFactor_nonneg b hb
  have hE := hb.E; have hI := hb.I; have hl := hb.l; have hA := hb.A
  have hp : (1 + timoshenkoFactor b) ≠ 0 := by positivity
  rw [BeamPart.stiffness, h1, h2]
  simp only [fixity]
  rw [beam_energy_formula hI.ne' hp hl.ne' (by norm_num)]
  have key : 12 * ((1 : K) * (b.l * u 2 + (u 1 - u 4)) ^ 2 + 1 * (b.l * u 5 + (u 1 - u 4)) ^ 2 +
          1 * 1 * (b.l * u 2 + (u 1 - u 4)) * (b.l * u 5 + (u 1 - u 4))) +
         3 * timoshenkoFactor b * b.l ^ 2 * (1 * u 2 ^ 2 + 1 * u 5 ^ 2 - 2 * 1 * 1 * u 2 * u 5) =
       36 * (u 1 - u 4 + b.l * (u 2 + u 5) / 2) ^ 2 +
         3 * b.l ^ 2 * (1 + timoshenkoFactor b) * (u 2 - u 5) ^ 2 := by ring
  rw [key]
  constructor
  · intro h
    have t1 : 0 ≤ b.E * b.A / b.l * (u 0 - u 3) ^ 2 := by positivity
    have hc : 0 < b.E * b.I / ((1 + timoshenkoFactor b) * b.l ^ 3) / (4 - 1 * 1) := by
      have : (0 : K) < 4 - 1 * 1 := by norm_num
      positivity
    have t2 : 0 ≤ 36 * (u 1 - u 4 + b.l * (u 2 + u 5) / 2) ^ 2 := by positivity
    have t3 : 0 ≤ 3 * b.l ^ 2 * (1 + timoshenkoFactor b) * (u 2 - u 5) ^ 2 := by positivity
    have t23 := mul_nonneg hc.le (add_nonneg t2 t3)
    have z1 : b.E * b.A / b.l * (u 0 - u 3) ^ 2 = 0 := by linarith
    have z23' : b.E * b.I / ((1 + timoshenkoFactor b) * b.l ^ 3) / (4 - 1 * 1) *
        (36 * (u 1 - u 4 + b.l * (u 2 + u 5) / 2) ^ 2 +
          3 * b.l ^ 2 * (1 + timoshenkoFactor b) * (u 2 - u 5) ^ 2) = 0 := by linarith
    have z23 := (mul_eq_zero.mp z23').resolve_left hc.ne'
    have z2 : 36 * (u 1 - u 4 + b.l * (u 2 + u 5) / 2) ^ 2 = 0 := by linarith
    have z3 : 3 * b.l ^ 2 * (1 + timoshenkoFactor b) * (u 2 - u 5) ^ 2 = 0 := by linarith
    have y1 : u 0 - u 3 = 0 := pow_eq_zero_iff (two_ne_zero) |>.mp
      ((mul_eq_zero.mp z1).resolve_left (by positivity))
    have y2 : u 1 - u 4 + b.l * (u 2 + u 5) / 2 = 0 := pow_eq_zero_iff (two_ne_zero) |>.mp
      ((mul_eq_zero.mp z2).resolve_left (by norm_num))
    have y3 : u 2 - u 5 = 0 := pow_eq_zero_iff (two_ne_zero) |>.mp
      ((mul_eq_zero.mp z3).resolve_left (by positivity))
    refine ⟨u 0, u 1, u 2, ?_⟩
    ext i
    fin_cases i
    · simp
    · simp
    · simp
    · show u 3 = u 0; linarith
    · show u 4 = u 1 + u 2 * b.l
      have : u 5 = u 2 := by linarith
      rw [this] at y2
      linear_combination -y2
    · show u 5 = u 2; linarith
  · rintro ⟨tx, ty, w, rfl⟩
    simp
    right
    ring

/-- The example beam with rigid ends: bending it (`u 5 = 1`) is not a rigid motion, so it stores energy. -/
example : ¬ RigidMotion (2 : ℚ) ![0, 0, 0, 0, 0, 1] := by
  rintro ⟨tx, ty, w, h⟩
  have h2 := congrFun h 2
  have h5 := congrFun h 5
  simp at h2 h5
  linarith

end Rose
