/-
Specification of the comparison of two meshes of one track (C171).
-/
import Verif.Spec.ElasticBeam

namespace Rose.Spec

/-- The same vertical forces and moments on two tracks with `n` sleepers: one with `N` rail nodes, the other with `m` rail elements for
each element of the first. `P, P'` are the loads on the rail nodes (x, y, rotation), `Q, Q'` the vertical loads on the sleepers. The
additional nodes of the fine rail carry no load. -/
structure SameLoads (n N m : ℕ) (P P' : ℕ → Fin 3 → ℝ) (Q Q' : ℕ → ℝ) : Prop where
  shared : ∀ k < N, ∀ c, c ≠ 0 → P' (k * m) c = P k c
  additional : ∀ j < N * m, ¬ m ∣ j → ∀ c, c ≠ 0 → P' j c = 0
  sleepers : ∀ i < n, Q' i = Q i

/-- The deflections and rotations `f'` at the nodes of the fine rail (element length `l`) lie on the rail with the deflections and
rotations `f` at the coarse nodes: equal at the shared nodes, between two of these on the elastic curve (bending stiffness `EI`, shear
flexibility `s`), and beyond the last shared node on a straight line. -/
structure OnElasticRail (EI s l : ℝ) (N m : ℕ) (f f' : ℕ → Fin 3 → ℝ) : Prop where
  shared : ∀ k < N, f' (k * m) 1 = f k 1 ∧ f' (k * m) 2 = f k 2
  between : ∀ k, k + 1 < N → ∃ b : BeamState, b.Elastic 1 EI s ∧
    b.HasEnds (m * l) ![0, f k 1, f k 2, 0, f (k + 1) 1, f (k + 1) 2] ∧
    ∀ j ≤ m, f' (k * m + j) 1 = b.w (j * l) ∧ f' (k * m + j) 2 = b.theta (j * l)
  beyond : ∀ j < m, f' ((N - 1) * m + j) 1 = f (N - 1) 1 + f (N - 1) 2 * (j * l) ∧ f' ((N - 1) * m + j) 2 = f (N - 1) 2

end Rose.Spec
