/-
Specification of a beam on an elastic foundation whose stiffness changes at `x = 0`, under a moving load.
-/
import Mathlib.Analysis.Calculus.Deriv.Basic
import Mathlib.Analysis.Complex.Basic
import Mathlib.Analysis.Complex.Exponential

namespace Rose.Spec
open Filter

/-- `w x t`, with the derivatives `w1`, `w2`, `w3` along the beam, is a motion of an unloaded beam with bending stiffness `EI` and mass `rho`
per length on a foundation of stiffness `k`. -/
structure FoundationWave (EI rho k : ℝ) (w w1 w2 w3 : ℝ → ℝ → ℝ) : Prop where
  slope : ∀ x t, HasDerivAt (fun y => w y t) (w1 x t) x
  curvature : ∀ x t, HasDerivAt (fun y => w1 y t) (w2 x t) x
  third : ∀ x t, HasDerivAt (fun y => w2 y t) (w3 x t) x
  motion : ∃ v : ℝ → ℝ → ℝ, ∀ x t, HasDerivAt (fun τ => w x τ) (v x t) t ∧
    ∃ w4 a, HasDerivAt (fun y => w3 y t) w4 x ∧ HasDerivAt (fun τ => v x τ) a t ∧ EI * w4 + rho * a + k * w x t = 0

/-- `u x t`, for negative times, is the displacement of a beam on a foundation of stiffness `k0` for `x < 0` and `k1` for `x > 0` under a load
`P` that is at `v * t`: behind the load, between the load and the change of stiffness, and ahead of the change the beam moves
without load; under the load displacement, slope and moment are continuous and the shear force jumps by `P`; at the change displacement,
slope, moment and shear force are continuous; far away the beam is at rest. -/
def LoadApproaches (EI rho k0 k1 P v : ℝ) (u : ℝ → ℝ → ℝ) : Prop :=
  ∃ b b1 b2 b3 c c1 c2 c3 d d1 d2 d3 : ℝ → ℝ → ℝ,
    FoundationWave EI rho k0 b b1 b2 b3 ∧ FoundationWave EI rho k0 c c1 c2 c3 ∧ FoundationWave EI rho k1 d d1 d2 d3 ∧
    ∀ t < 0, (∀ x, u x t = if x ≤ v * t then b x t else if x ≤ 0 then c x t else d x t) ∧
      (b (v * t) t = c (v * t) t ∧ b1 (v * t) t = c1 (v * t) t ∧ b2 (v * t) t = c2 (v * t) t ∧ EI * (c3 (v * t) t - b3 (v * t) t) = P) ∧
      (c 0 t = d 0 t ∧ c1 0 t = d1 0 t ∧ c2 0 t = d2 0 t ∧ c3 0 t = d3 0 t) ∧
      Tendsto (fun x => u x t) atBot (nhds 0) ∧ Tendsto (fun x => u x t) atTop (nhds 0)

/-- `f`, with the derivatives `f1`, `f2`, `f3`, is on `side` the transform (parameter `s`) of the displacement of a beam with unit bending stiffness
and mass on a foundation of stiffness `k`, that has at time zero the displacement `u0` and the velocity `v0`; `load` is the transform of
the load. -/
structure TransformedMotion (k s : ℂ) (side : Set ℝ) (u0 v0 : ℝ → ℝ) (load f f1 f2 f3 : ℝ → ℂ) : Prop where
  slope : ∀ x, HasDerivAt f (f1 x) x
  curvature : ∀ x, HasDerivAt f1 (f2 x) x
  third : ∀ x, HasDerivAt f2 (f3 x) x
  motion : ∀ x ∈ side, ∃ f4, HasDerivAt f3 f4 x ∧ f4 + (k + s ^ 2) * f x = s * u0 x + v0 x + load x

/-- `left` and `right` are the transform (parameter `s`) of the displacement, from time zero on, of a beam with unit bending stiffness and mass on a
foundation of stiffness `1` before and `k` behind `x = 0`, that has moved as `u` up to time zero and carries from then on the load `F` at
`α * t`, except that the displacements of the two sides differ at `x = 0` by `gap`: slope, moment and shear force do not. A beam that is not torn
has no gap. -/
def AfterTransition (gap : ℂ) (k F α : ℝ) (s : ℂ) (u : ℝ → ℝ → ℝ) (left right : ℝ → ℂ) : Prop :=
  ∃ (v0 : ℝ → ℝ) (l1 l2 l3 r1 r2 r3 : ℝ → ℂ), (∀ x ≠ 0, HasDerivAt (u x) (v0 x) 0) ∧
    TransformedMotion 1 s (Set.Iio 0) (fun x => u x 0) v0 (fun _ => 0) left l1 l2 l3 ∧
    TransformedMotion k s (Set.Ioi 0) (fun x => u x 0) v0 (fun x => F / α * Complex.exp (-s / α * x)) right r1 r2 r3 ∧
    left 0 - right 0 = gap ∧ l1 0 = r1 0 ∧ l2 0 = r2 0 ∧ l3 0 = r3 0 ∧
    Tendsto left atBot (nhds 0) ∧ Tendsto right atTop (nhds 0)

end Rose.Spec
