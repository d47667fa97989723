/-
Model of `rose/utils/Hmax.py`, `rose/utils/wolf_utils.py` and `rose/utils/random_field.py`. External: `scipy.signal` (spectral density,
filters), `gstools` (the Gaussian field), conversion of numbers to strings.
-/
import Verif.Model.Assembly
import Mathlib.Analysis.SpecialFunctions.Log.Basic
import Mathlib.Analysis.SpecialFunctions.Trigonometric.Basic

set_option linter.unusedSectionVars false

namespace Rose

/-! ### Hmax -/

/-- `HrsmMax.__init__`, `rose/utils/Hmax.py:18-60`: the analysis of the signal and the caller's array afterwards. `self.signal` is the caller's
array and `*=` changes it in place. `analysis`: everything computed from `self.signal`. -/
def hrsmMax {K R : Type*} [Field K] (analysis : List K → R) (convert : Bool) (signal : List K) : R × List K :=
  let s := if convert then signal.map (fun x => x * 1000) else signal
  (analysis s, s)

/-- `BANDS["one-third"]` and `derivative`, `rose/utils/Hmax.py:5-14, 35`. -/
noncomputable def bands : List (ℝ × ℝ × ℕ) :=
  [(8 / 100, 10 / 100, 0), (10 / 100, 126 / 1000, 0), (126 / 1000, 16 / 100, 0), (16 / 100, 20 / 100, 2), (20 / 100, 253 / 1000, 2),
    (253 / 1000, 32 / 100, 2), (32 / 100, 40 / 100, 2), (40 / 100, 50 / 100, 2), (50 / 100, 63 / 100, 2)]

open Classical in
/-- Weighting the spectral density within one band, `rose/utils/Hmax.py:85-86`. -/
noncomputable def weightBand (b : ℝ × ℝ × ℕ) (freq P : List ℝ) : List ℝ :=
  List.zipWith (fun f p => if b.1 ≤ f ∧ f < b.2.1 then (2 * Real.pi * f) ^ (2 * b.2.2) * p else p) freq P

open Classical in
/-- The rms of one band, `rose/utils/Hmax.py:87`. -/
noncomputable def rmsBand (b : ℝ × ℝ × ℕ) (freq P : List ℝ) (df : ℝ) : ℝ :=
  Real.sqrt ((List.zipWith (fun f p => if b.1 ≤ f ∧ f < b.2.1 then p * df else 0) freq P).sum)

/-- The loop of `HrsmMax.rms_effective`, `rose/utils/Hmax.py:83-87`: the weighted density and the rms of the bands. -/
noncomputable def rmsLoop (freq : List ℝ) (df : ℝ) : List (ℝ × ℝ × ℕ) → List ℝ → List ℝ × List ℝ
  | [], P => (P, [])
  | b :: bs, P =>
    let P' := weightBand b freq P
    let rest := rmsLoop freq df bs P'
    (rest.1, rmsBand b freq P' df :: rest.2)

/-- `HrsmMax.rms_effective`, `rose/utils/Hmax.py:74-87`; less than two frequencies raise. -/
noncomputable def rmsEffective (freq P : List ℝ) : Except Err (List ℝ × List ℝ) :=
  match freq with
  | f0 :: f1 :: fs => .ok (rmsLoop (f0 :: f1 :: fs) (f1 - f0) bands P)
  | _ => .error .indexError

/-- `np.diff(x) / dx`, `rose/utils/Hmax.py:104`. -/
def diffSignal {K : Type*} [Field K] (dx : K) (s : List K) : List K := List.zipWith (fun a b => (b - a) / dx) s s.tail

/-- `np.convolve` (full): entry `k` is the sum over `i + j = k` of `a[i] * g[j]`, `rose/utils/Hmax.py:110`. -/
def convolve {K : Type*} [Field K] (a g : List K) : List K :=
  (List.range (a.length + g.length - 1)).map fun k =>
    ((List.range (k + 1)).map fun i => a.getD i 0 * g.getD (k - i) 0).sum

/-- The weights, `rose/utils/Hmax.py:96, 107-108` with `n = 4`, `tau = 2`; `N = int(n * tau / dx + 1)` points. -/
noncomputable def decay (N : ℕ) : List ℝ :=
  (List.range N).map fun (k : ℕ) => 1 / (1 - Real.exp (-4)) * Real.exp (-(8 * (k : ℝ) / ((N : ℝ) - 1)) / 2)

/-- `convoluted_signal`, `rose/utils/Hmax.py:98-110`; `filtered`: the band-passed signal, `der`: how often it is differentiated. -/
noncomputable def convoluted (filtered : List ℝ) (der N : ℕ) (dx : ℝ) : List ℝ :=
  (convolve (((diffSignal dx)^[der] filtered).map fun x => x ^ 2) (decay N)).map fun c => Real.sqrt (c * dx / 2)

/-- `np.max`, `rose/utils/Hmax.py:111`. -/
def npMax {K : Type*} [LinearOrder K] : List K → Except Err K
  | [] => .error .valueError
  | x :: xs => .ok (xs.foldl max x)

/-- Indexing with a possibly negative index, `rose/utils/Hmax.py:112-115`. -/
def pyIndex {K : Type*} (c : List K) (i : ℤ) : Except Err K :=
  let j := if i < 0 then i + (c.length : ℤ) else i
  if j < 0 then .error .indexError
  else match c[j.toNat]? with
    | none => .error .indexError
    | some v => .ok v

/-- The window, `rose/utils/Hmax.py:112-113`: `n` samples in the signal, `m = floor(DX / dx)` in the window. -/
def windowValues {K : Type*} (c : List K) (n m : ℕ) : Except Err (List K) :=
  (List.range m).mapM (m := Except Err) fun (k : ℕ) => pyIndex c (((n : ℤ) - m) / 2 + (k : ℤ))

/-- `max_fast[i]` and `max_fast_Dx[i]`, `rose/utils/Hmax.py:111-115`. -/
def maxFast {K : Type*} [LinearOrder K] (c : List K) (n m : ℕ) : Except Err (K × K) :=
  match npMax c with
  | .error e => .error e
  | .ok a =>
    match windowValues c n m with
    | .error e => .error e
    | .ok w =>
      match npMax w with
      | .error e => .error e
      | .ok b => .ok (a, b)

/-! ### Layering -/

/-- Soil data of a scenario, columns by name, `rose/utils/wolf_utils.py:14-40`. -/
structure SosData (K : Type) where
  names : List String
  shear : List K
  poisson : List K
  gamma : List K
  damping : List K
  top : List K

/-- A row of the layering: thickness `none` is `"inf"`, `rose/utils/wolf_utils.py:22-40`. -/
inductive WolfRow (K : Type)
  | force
  | first
  | layer (name : String) (shear poisson density damping : K) (thickness : Option K)

/-- `xs[j]`, `rose/utils/wolf_utils.py:25-31`. -/
def pyGet {α : Type} (xs : List α) (j : ℕ) : Except Err α :=
  match xs[j]? with
  | none => .error .indexError
  | some v => .ok v

/-- `xs[-1]`, `rose/utils/wolf_utils.py:34-38`. -/
def pyLast {α : Type} (xs : List α) : Except Err α :=
  match xs.getLast? with
  | none => .error .indexError
  | some v => .ok v

/-- One row of the loop, `rose/utils/wolf_utils.py:25-32`. -/
def wolfLayer {K : Type} [Field K] (s : SosData K) (j : ℕ) : Except Err (WolfRow K) := do
  let n ← pyGet s.names j
  let g ← pyGet s.shear j
  let p ← pyGet s.poisson j
  let w ← pyGet s.gamma j
  let d ← pyGet s.damping j
  let t ← pyGet s.top j
  let t' ← pyGet s.top (j + 1)
  return .layer n (g * 1000000) p (w * 1000 / (981 / 100)) d (some (t - t'))

/-- The half space, `rose/utils/wolf_utils.py:34-39`. -/
def wolfHalfSpace {K : Type} [Field K] (s : SosData K) : Except Err (WolfRow K) := do
  let n ← pyLast s.names
  let g ← pyLast s.shear
  let p ← pyLast s.poisson
  let w ← pyLast s.gamma
  let d ← pyLast s.damping
  return .layer n (g * 1000000) p (w * 1000 / (981 / 100)) d none

/-- `create_layering_for_wolf`, `rose/utils/wolf_utils.py:14-41`. -/
def wolfLayering {K : Type} [Field K] (s : SosData K) : Except Err (List (WolfRow K)) := do
  let rows ← (List.range (s.names.length - 1)).mapM (wolfLayer s)
  let last ← wolfHalfSpace s
  return [.force, .first] ++ rows ++ [last]

/-! ### Random field -/

/-- `mu_prime`, `sigma_prime` of `create_rf`, `rose/utils/random_field.py:27-32`. -/
noncomputable def rfParams (mean cv : ℝ) (logNormal : Bool) : ℝ × ℝ :=
  if logNormal then (Real.log mean - 1 / 2 * Real.log (1 + cv ^ 2), Real.sqrt (Real.log (1 + cv ^ 2))) else (mean, mean * cv)

/-- The value returned by `create_rf` where the Gaussian field is `z`, `rose/utils/random_field.py:42-45`. -/
noncomputable def rfValue (logNormal : Bool) (z : ℝ) : ℝ := if logNormal then Real.exp z else z

end Rose
