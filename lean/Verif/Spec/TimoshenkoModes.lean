/-
Specification of the motion of a Timoshenko beam on two supports in its first modes, under a load `F` that acts at `xF` from
time 0 on: the principle of virtual work for all combinations of the first `N` shapes, sines for the deflection and
cosines for the rotation of the cross-sections.
-/
import Verif.Spec.Modes

namespace Rose.Spec
open Finset

noncomputable def cosine (L : ℝ) (k : ℕ) (x : ℝ) : ℝ := Real.cos (k * Real.pi * x / L)

/-- `u x t` is the deflection in the first `N` shapes of a beam with bending stiffness `EI`, shear stiffness `S`, mass `m` and
rotary inertia `J` per length: the amplitudes `q k` of the deflection `∑ q k sin(k π x / L)` and `p k` of the rotation
`∑ p k cos(k π x / L)` start at rest, and in each shape of the deflection and each shape of the rotation as virtual
displacement the inertia, the bending moment `EI ψ'` and the shear force `S (w' - ψ)` do the work of the load. -/
def TimoshenkoMotion (EI S m J L F xF : ℝ) (N : ℕ) (u : ℝ → ℝ → ℝ) : Prop :=
  ∃ q q' q'' p p' p'' : ℕ → ℝ → ℝ,
    (∀ k t, HasDerivAt (q k) (q' k t) t ∧ HasDerivAt (q' k) (q'' k t) t) ∧
    (∀ k t, HasDerivAt (p k) (p' k t) t ∧ HasDerivAt (p' k) (p'' k t) t) ∧
    (∀ k, q k 0 = 0 ∧ q' k 0 = 0 ∧ p k 0 = 0 ∧ p' k 0 = 0) ∧
    (∀ x t, u x t = ∑ k ∈ Icc 1 N, q k t * sine L k x) ∧
    ∀ t, ∀ j ∈ Icc 1 N,
      ((∫ x in (0 : ℝ)..L, m * (∑ k ∈ Icc 1 N, q'' k t * sine L k x) * sine L j x) +
        (∫ x in (0 : ℝ)..L, S * (∑ k ∈ Icc 1 N, (q k t * (k * Real.pi / L) - p k t) * cosine L k x) *
          (j * Real.pi / L * cosine L j x)) = F * sine L j xF) ∧
      ((∫ x in (0 : ℝ)..L, J * (∑ k ∈ Icc 1 N, p'' k t * cosine L k x) * cosine L j x) +
        (∫ x in (0 : ℝ)..L, EI * (∑ k ∈ Icc 1 N, p k t * (-(k * Real.pi / L) * sine L k x)) *
          (-(j * Real.pi / L) * sine L j x)) +
        (∫ x in (0 : ℝ)..L, S * (∑ k ∈ Icc 1 N, (q k t * (k * Real.pi / L) - p k t) * cosine L k x) * (-cosine L j x)) = 0)

/-- `w` is a circular frequency of free vibration in shape `j`: some deflection `a sin(j π x / L) cos(w t)` and rotation
`b cos(j π x / L) cos(w t)`, not both zero, satisfy the equations of motion of a Timoshenko beam without load. -/
def TimoshenkoFrequency (EI S m J L : ℝ) (j : ℕ) (w : ℝ) : Prop :=
  ∃ a b : ℝ, (a ≠ 0 ∨ b ≠ 0) ∧
    -(m * w ^ 2 * a) + S * (j * Real.pi / L) * (j * Real.pi / L * a - b) = 0 ∧
    -(J * w ^ 2 * b) + EI * (j * Real.pi / L) ^ 2 * b - S * (j * Real.pi / L * a - b) = 0

end Rose.Spec
