/-
Model of `rose/utils/Kalman_Filter.py`: the filter with two components. Arrays of shape (2, 2) are matrices, `*` and `/` of
arrays are elementwise. Not modelled: `w`, `zk` (zero, never set). The alternative `update_control_matrices_by_index` is in `Model/KalmanSteps.lean`.
-/
import Mathlib.LinearAlgebra.Matrix.Notation
import Mathlib.Algebra.Order.Field.Basic

set_option linter.unusedSectionVars false

namespace Rose

open Matrix

variable {K : Type*} [Field K] [LinearOrder K] [IsStrictOrderedRing K]

/-- 2 x 2 matrices, `rose/utils/Kalman_Filter.py:90-104`. -/
abbrev M2 (K : Type*) := Matrix (Fin 2) (Fin 2) K

/-- `KalmanFilter.initial_cov_matrix` and `error_covariance_measures`, `rose/utils/Kalman_Filter.py:115-126, 138-149`. -/
def covMatrix (independent : Bool) (sx sy : K) : M2 K :=
  if independent then !![sx ^ 2, 0; 0, sy ^ 2] else !![sx ^ 2, sx * sy; sx * sy, sy ^ 2]

/-- State of the filter, `rose/utils/Kalman_Filter.py:16-51`: estimate, covariance, stored estimates and covariances. -/
structure Kalman (K : Type*) where
  independent : Bool
  x : Fin 2 → K
  P : M2 K
  updatedX : List (Fin 2 → K)
  updatedP : List (M2 K)

/-- `KalmanFilter.__init__`, `rose/utils/Kalman_Filter.py:6-53`. -/
def Kalman.new (independent : Bool) (x0 : Fin 2 → K) (sx sy : K) : Kalman K :=
  ⟨independent, x0, covMatrix independent sx sy, [x0], [covMatrix independent sx sy]⟩

/-- `_A`, `rose/utils/Kalman_Filter.py:92-93`. -/
def kA (dt : K) : M2 K := !![1, dt; 0, 1]

/-- `_B`, `rose/utils/Kalman_Filter.py:95-96`. -/
def kB (dt : K) : Fin 2 → K := ![1 / 2 * dt ^ 2, dt]

/-- `_H` (and `_C`), `rose/utils/Kalman_Filter.py:98-104`. -/
def kH : M2 K := !![1, 0; 0, 1]

/-- `KalmanFilter.state_matrix`, `rose/utils/Kalman_Filter.py:106-113`; `u`: control variable. -/
def predictX (dt u : K) (x : Fin 2 → K) : Fin 2 → K := fun i => (kA dt).mulVec x i + kB dt i * u

/-- `self.P * np.identity(2)`, elementwise, `rose/utils/Kalman_Filter.py:133`. -/
def diagPart (P : M2 K) : M2 K := fun i j => if i = j then P i j else 0

/-- `KalmanFilter.predict_process_cov_matrix`, `rose/utils/Kalman_Filter.py:128-136`; `Q`: process noise (zero unless the user sets it). -/
def predictP (independent : Bool) (dt : K) (Q P : M2 K) : M2 K :=
  let P' := kA dt * P * (kA dt)ᵀ + Q
  if independent then diagPart P' else P'

/-- Elementwise division; 0 / 0 is NaN, set to zero afterwards; a non-zero number divided by zero is infinite (`none`),
`rose/utils/Kalman_Filter.py:154-156`. -/
def gainEntry (p s : K) : Option K := if s = 0 then (if p = 0 then some 0 else none) else some (p / s)

/-- `KalmanFilter.kalman_gain`, `rose/utils/Kalman_Filter.py:151-158`. -/
def gain (P R : M2 K) : Option (M2 K) :=
  let N := P * kHᵀ
  let S := kH * P * kHᵀ + R
  match gainEntry (N 0 0) (S 0 0), gainEntry (N 0 1) (S 0 1), gainEntry (N 1 0) (S 1 0), gainEntry (N 1 1) (S 1 1) with
  | some a, some b, some c, some e => some !![a, b; c, e]
  | _, _, _, _ => none

/-- One measurement: time step, control variable, process noise, measurement errors, observation, `rose/utils/Kalman_Filter.py:76-168`. -/
structure Measurement (K : Type*) where
  dt : K
  u : K
  Q : M2 K
  sx : K
  sy : K
  y : Fin 2 → K

/-- `KalmanFilter.predicted_state`, `rose/utils/Kalman_Filter.py:170-177`; `Y = C y = y`, `rose/utils/Kalman_Filter.py:160-168`. -/
def updateX (G : M2 K) (x y : Fin 2 → K) : Fin 2 → K := fun i => x i + G.mulVec (fun j => kH.mulVec y j - kH.mulVec x j) i

/-- `KalmanFilter.update_process_covariance_matrix`, `rose/utils/Kalman_Filter.py:179-186`. -/
def updateP (G P : M2 K) : M2 K := (1 - G * kH) * P

/-- One pass of the filter in the order of the methods, `rose/utils/Kalman_Filter.py:210-221`. -/
def Kalman.step (k : Kalman K) (m : Measurement K) : Option (Kalman K) :=
  let x := predictX m.dt m.u k.x
  let P := predictP k.independent m.dt m.Q k.P
  let R := covMatrix k.independent m.sx m.sy
  match gain P R with
  | none => none
  | some G => some ⟨k.independent, updateX G x m.y, updateP G P, k.updatedX ++ [updateX G x m.y], k.updatedP ++ [updateP G P]⟩

/-- All measurements, `rose/utils/Kalman_Filter.py:210-220`. -/
def Kalman.run (k : Kalman K) : List (Measurement K) → Option (Kalman K)
  | [] => some k
  | m :: ms =>
    match k.step m with
    | none => none
    | some k' => Kalman.run k' ms

end Rose
