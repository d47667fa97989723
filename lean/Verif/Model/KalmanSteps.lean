/-
Model of `rose/utils/Kalman_Filter.py`, continued: control matrices for time steps of varying size.
-/
import Verif.Model.Kalman
import Verif.Model.Signal

set_option linter.unusedSectionVars false

namespace Rose
open Matrix

variable {K : Type*} [Field K] [LinearOrder K] [IsStrictOrderedRing K]

/-- The arrays `A`, `B`, `H`, `C` with a last axis for the time steps, `rose/utils/Kalman_Filter.py:55-74`. -/
structure ControlArrays (K : Type*) where
  A : Fin 2 → Fin 2 → List K
  B : Fin 2 → List K
  H : Fin 2 → Fin 2 → List K
  C : Fin 2 → Fin 2 → List K

/-- `initialise_control_matrices`, `rose/utils/Kalman_Filter.py:55-74`. -/
def controlArrays (timesteps : List K) : ControlArrays K :=
  let n := timesteps.length
  let A : Fin 2 → Fin 2 → List K := fun i j =>
    if i = 1 ∧ j = 0 then List.replicate n 0 else if i = 0 ∧ j = 1 then timesteps else List.replicate n 1
  let H : Fin 2 → Fin 2 → List K := fun i j =>
    if i = 0 ∧ j = 0 then A 0 0 else if i = 1 ∧ j = 1 then A 1 1 else List.replicate n 0
  ⟨A, fun i => if i = 0 then timesteps.map fun t => 1 / 2 * t ^ 2 else timesteps, H, H⟩

/-- The matrices `_A`, `_B`, `_H`, `_C` of a step, `rose/utils/Kalman_Filter.py:76-88`. -/
structure ControlMatrices (K : Type*) where
  A : M2 K
  B : Fin 2 → K
  H : M2 K
  C : M2 K

/-- `a[:, :, t_idx]`, `rose/utils/Kalman_Filter.py:79, 85, 88`. -/
def sliceAt (a : Fin 2 → Fin 2 → List K) (i : ℤ) : Except Err (M2 K) := do
  let a00 ← pyIndex (a 0 0) i
  let a01 ← pyIndex (a 0 1) i
  let a10 ← pyIndex (a 1 0) i
  let a11 ← pyIndex (a 1 1) i
  .ok !![a00, a01; a10, a11]

/-- `update_control_matrices_by_index`, `rose/utils/Kalman_Filter.py:76-88`. -/
def ControlArrays.byIndex (c : ControlArrays K) (i : ℤ) : Except Err (ControlMatrices K) := do
  let A ← sliceAt c.A i
  let b0 ← pyIndex (c.B 0) i
  let b1 ← pyIndex (c.B 1) i
  let H ← sliceAt c.H i
  let C ← sliceAt c.C i
  .ok ⟨A, ![b0, b1], H, C⟩

/-- `update_control_matrices`, `rose/utils/Kalman_Filter.py:90-104`. -/
def ControlMatrices.ofStep (dt : K) : ControlMatrices K := ⟨!![1, dt; 0, 1], ![1 / 2 * dt ^ 2, dt], !![1, 0; 0, 1], !![1, 0; 0, 1]⟩

/-- `kalman_gain` with the matrix `H`, `rose/utils/Kalman_Filter.py:151-158`. -/
def gainWith (H P R : M2 K) : Option (M2 K) :=
  let N := P * Hᵀ
  let S := H * P * Hᵀ + R
  match gainEntry (N 0 0) (S 0 0), gainEntry (N 0 1) (S 0 1), gainEntry (N 1 0) (S 1 0), gainEntry (N 1 1) (S 1 1) with
  | some a, some b, some c, some e => some !![a, b; c, e]
  | _, _, _, _ => none

/-- One pass of the filter with given matrices, `rose/utils/Kalman_Filter.py:106-186, 210-221`; of `m` everything but the time step is used. -/
def Kalman.stepWith (c : ControlMatrices K) (k : Kalman K) (m : Measurement K) : Option (Kalman K) :=
  let x : Fin 2 → K := fun i => c.A.mulVec k.x i + c.B i * m.u
  let P' := c.A * k.P * c.Aᵀ + m.Q
  let P := if k.independent then diagPart P' else P'
  let R := covMatrix k.independent m.sx m.sy
  match gainWith c.H P R with
  | none => none
  | some G =>
    let x' : Fin 2 → K := fun i => x i + G.mulVec (fun j => c.C.mulVec m.y j - c.H.mulVec x j) i
    let P'' := (1 - G * c.H) * P
    some ⟨k.independent, x', P'', k.updatedX ++ [x'], k.updatedP ++ [P'']⟩

/-- The loop of the example, `rose/utils/Kalman_Filter.py:208-220`: the `i`-th measurement with the matrices of index `start + i`; `none` for a gain that is
not finite. -/
def Kalman.runByIndex (c : ControlArrays K) : ℤ → Kalman K → List (Measurement K) → Except Err (Option (Kalman K))
  | _, k, [] => .ok (some k)
  | i, k, m :: ms => do
    let M ← c.byIndex i
    match k.stepWith M m with
    | none => .ok none
    | some k' => Kalman.runByIndex c (i + 1) k' ms

end Rose
