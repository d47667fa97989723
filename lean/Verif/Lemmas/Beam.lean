/- Explicit forms of the element matrices (helper lemmas). -/
import Verif.Model.Beam
import Verif.Spec.Mechanics
import Mathlib.Tactic.Ring
import Mathlib.Tactic.FieldSimp
import Mathlib.Tactic.LinearCombination
import Mathlib.Tactic.FinCases
import Mathlib.Tactic.Linarith
import Mathlib.Tactic.Positivity
import Mathlib.LinearAlgebra.Matrix.Notation
import Mathlib.Algebra.BigOperators.Fin

set_option linter.unusedSectionVars false

namespace Rose
variable {K : Type*} [Field K] [LinearOrder K] [IsStrictOrderedRing K]

theorem beamStiffness_eq (E A I phi l a1 a2 : K) :
    beamStiffness E A I phi l a1 a2 =
      (E * I / ((1 + phi) * l ^ 3)) •
      !![A / I * (1 + phi) * l ^ 2, 0, 0, -(A / I * (1 + phi) * l ^ 2), 0, 0;
         0, 12 * ((a1 + a2 + a1 * a2) / (4 - a1 * a2)), 6 * l * ((2 * a1 + a1 * a2) / (4 - a1 * a2)),
         0, -12 * ((a1 + a2 + a1 * a2) / (4 - a1 * a2)), 6 * l * ((2 * a2 + a1 * a2) / (4 - a1 * a2));
         0, 6 * l * ((2 * a1 + a1 * a2) / (4 - a1 * a2)), (4 + phi) * l ^ 2 * (3 * a1 / (4 - a1 * a2)),
         0, -6 * l * ((2 * a1 + a1 * a2) / (4 - a1 * a2)), (2 - phi) * l ^ 2 * (3 * a1 * a2 / (4 - a1 * a2));
         -(A / I * (1 + phi) * l ^ 2), 0, 0, A / I * (1 + phi) * l ^ 2, 0, 0;
         0, -12 * ((a1 + a2 + a1 * a2) / (4 - a1 * a2)), -6 * l * ((2 * a1 + a1 * a2) / (4 - a1 * a2)),
         0, 12 * ((a1 + a2 + a1 * a2) / (4 - a1 * a2)), -6 * l * ((2 * a2 + a1 * a2) / (4 - a1 * a2));
         0, 6 * l * ((2 * a2 + a1 * a2) / (4 - a1 * a2)), (2 - phi) * l ^ 2 * (3 * a1 * a2 / (4 - a1 * a2)),
         0, -6 * l * ((2 * a2 + a1 * a2) / (4 - a1 * a2)), (4 + phi) * l ^ 2 * (3 * a2 / (4 - a1 * a2))] := by
  ext i j
  fin_cases i <;> fin_cases j <;>
    simp [beamStiffness, dotScalar, hadamard, beamStiffnessCore, rigidPart, fancySet] <;> ring

theorem beamTransMass_eq (rho A phi l : K) :
    beamTransMass rho A phi l =
      (rho * A * l / (210 * (1 + phi) ^ 2)) •
      !![70 * (1 + phi) ^ 2, 0, 0, 35 * (1 + phi) ^ 2, 0, 0;
         0, 70 * phi ^ 2 + 147 * phi + 78, (35 * phi ^ 2 + 77 * phi + 44) * l / 4,
         0, 35 * phi ^ 2 + 63 * phi + 27, -(35 * phi ^ 2 + 63 * phi + 26) * l / 4;
         0, (35 * phi ^ 2 + 77 * phi + 44) * l / 4, (7 * phi ^ 2 + 14 * phi + 8) * (l ^ 2 / 4),
         0, (35 * phi ^ 2 + 63 * phi + 26) * (l / 4), -(7 * phi ^ 2 + 14 * phi + 6) * (l ^ 2 / 4);
         35 * (1 + phi) ^ 2, 0, 0, 70 * (1 + phi) ^ 2, 0, 0;
         0, 35 * phi ^ 2 + 63 * phi + 27, (35 * phi ^ 2 + 63 * phi + 26) * (l / 4),
         0, 70 * phi ^ 2 + 147 * phi + 78, -(35 * phi ^ 2 + 77 * phi + 44) * (l / 4);
         0, -(35 * phi ^ 2 + 63 * phi + 26) * l / 4, -(7 * phi ^ 2 + 14 * phi + 6) * (l ^ 2 / 4),
         0, -(35 * phi ^ 2 + 77 * phi + 44) * (l / 4), (7 * phi ^ 2 + 14 * phi + 8) * (l ^ 2 / 4)] := by
  ext i j
  fin_cases i <;> fin_cases j <;> simp [beamTransMass, dotScalar, fancySet] <;> ring

theorem beamRotMass_eq (rho I phi l : K) :
    beamRotMass rho I phi l =
      (rho * I / (30 * (1 + phi) ^ 2 * l)) •
      !![0, 0, 0, 0, 0, 0;
         0, 36, -(15 * phi - 3) * l, 0, -36, -(15 * phi - 3) * l;
         0, -(15 * phi - 3) * l, (10 * phi ^ 2 + 5 * phi + 4) * l ^ 2,
         0, (15 * phi - 3) * l, (5 * phi ^ 2 - 5 * phi - 1) * l ^ 2;
         0, 0, 0, 0, 0, 0;
         0, -36, (15 * phi - 3) * l, 0, 36, (15 * phi - 3) * l;
         0, -(15 * phi - 3) * l, (5 * phi ^ 2 - 5 * phi - 1) * l ^ 2,
         0, (15 * phi - 3) * l, (10 * phi ^ 2 + 5 * phi + 4) * l ^ 2] := by
  ext i j
  fin_cases i <;> fin_cases j <;> simp [beamRotMass, dotScalar, fancySet] <;> ring

theorem rotationMatrix_eq (c s : K) :
    rotationMatrix c s =
      !![c, s, 0, 0, 0, 0; -s, c, 0, 0, 0, 0; 0, 0, 1, 0, 0, 0;
         0, 0, 0, c, s, 0; 0, 0, 0, -s, c, 0; 0, 0, 0, 0, 0, 1] := by
  ext i j
  fin_cases i <;> fin_cases j <;> simp [rotationMatrix, fancySet]

theorem rodStiffness_eq (k : K) : rodStiffness k = !![k, -k; -k, k] := by
  ext i j
  fin_cases i <;> fin_cases j <;> simp [rodStiffness, fancySet]

theorem rodDamping_eq (k : K) : rodDamping k = !![k, -k; -k, k] := by
  ext i j
  fin_cases i <;> fin_cases j <;> simp [rodDamping, fancySet]

theorem rodMass_eq (m : K) : rodMass m = !![m / 3, m / 6; m / 6, m / 3] := by
  ext i j
  fin_cases i <;> fin_cases j <;> simp [rodMass, dotScalar, fancySet] <;> ring

theorem rodEmbed_eq (a b c d : K) : rodEmbed !![a, b; c, d] =
    !![a, 0, 0, b, 0, 0; 0, 0, 0, 0, 0, 0; 0, 0, 0, 0, 0, 0;
       c, 0, 0, d, 0, 0; 0, 0, 0, 0, 0, 0; 0, 0, 0, 0, 0, 0] := by
  ext i j
  fin_cases i <;> fin_cases j <;> simp [rodEmbed, fancySet]

theorem rotateAux_mulVec (c s : K) (a : Matrix (Fin 6) (Fin 6) K) (u : Fin 6 → K) :
    (rotateAux c s a).mulVec u =
      (rotationMatrix c s).mulVec (a.mulVec ((rotationMatrix c s).transpose.mulVec u)) := by
  simp [rotateAux, Matrix.mulVec_mulVec]

theorem rotT_mulVec (c s : K) (u : Fin 6 → K) :
    (rotationMatrix c s).transpose.mulVec u = Spec.toGlobal c s u := by
  rw [rotationMatrix_eq]
  ext i
  fin_cases i <;> simp [Matrix.mulVec, dotProduct, Fin.sum_univ_six, Spec.toGlobal, Matrix.transpose] <;> ring

theorem rot_mulVec (c s : K) (u : Fin 6 → K) :
    (rotationMatrix c s).mulVec u = Spec.toLocal c s u := by
  rw [rotationMatrix_eq]
  ext i
  fin_cases i <;> simp [Matrix.mulVec, dotProduct, Fin.sum_univ_six, Spec.toLocal]

theorem forceFree_iff {n : ℕ} (m : Matrix (Fin n) (Fin n) K) (u : Fin n → K) :
    Spec.ForceFree m u ↔ m.mulVec u = 0 := by
  constructor
  · intro h; ext i; simpa [Matrix.mulVec, dotProduct] using h i
  · intro h i; simpa [Matrix.mulVec, dotProduct] using congrFun h i

theorem energy_eq_dot {n : ℕ} (m : Matrix (Fin n) (Fin n) K) (u : Fin n → K) :
    Spec.energy m u = dotProduct u (m.mulVec u) := by
  simp [Spec.energy, dotProduct, Matrix.mulVec, Finset.mul_sum, mul_assoc]

theorem energy_rotateAux (c s : K) (a : Matrix (Fin 6) (Fin 6) K) (u : Fin 6 → K) :
    Spec.energy (rotateAux c s a) u = Spec.energy a (Spec.toGlobal c s u) := by
  rw [energy_eq_dot, energy_eq_dot, rotateAux_mulVec, Matrix.dotProduct_mulVec, ← rotT_mulVec,
    ← Matrix.mulVec_transpose]

theorem fixity_nonneg {EI l : K} (h : 0 < EI) (hl : 0 < l) (s : Spring K) : 0 ≤ fixity EI l s := by
  cases s with
  | inf => simp [fixity]
  | fin s =>
    simp only [fixity]; split_ifs with hs
    · positivity
    · exact le_refl _

theorem fixity_le_one {EI l : K} (h : 0 < EI) (hl : 0 < l) (s : Spring K) : fixity EI l s ≤ 1 := by
  cases s with
  | inf => simp [fixity]
  | fin s =>
    simp only [fixity]; split_ifs with hs
    · have hs' : 0 < s := hs
      rw [div_le_one (by positivity)]
      have : 0 ≤ 3 * EI / (s * l) := by positivity
      linarith
    · exact zero_le_one

theorem fixity_den_pos {a1 a2 : K} (h1 : 0 ≤ a1) (h1' : a1 ≤ 1) (h2' : a2 ≤ 1) :
    0 < 4 - a1 * a2 := by nlinarith

end Rose
