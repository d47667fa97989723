/-
Model of the frequencies of `HrsmMax.power_spectral_density`, `rose/utils/Hmax.py:62-72`. `scipy.signal.welch` is external: of it only the
frequencies are modelled, its densities are a parameter of `rmsEffective` (`Verif/Model/Signal.lean`).
-/
import Verif.Model.Signal
import Mathlib.Analysis.SpecialFunctions.Log.Base

set_option linter.unusedSectionVars false

namespace Rose

/-- `n_fft`, `rose/utils/Hmax.py:37, 68`: `int(np.max([2 ** np.ceil(np.log2(len(signal))), 256]))`; for an empty signal the logarithm is minus
infinity and its power zero. Simplification: logarithms of real numbers, which for floats are the same below `2 ^ 48`. -/
noncomputable def fftLength (len : ℕ) : ℕ := max (if len = 0 then 0 else 2 ^ ⌈Real.logb 2 len⌉₊) 256

/-- `self.frequency`, `rose/utils/Hmax.py:71-72`: `welch` of a real signal with sampling frequency `1 / dx` and `nfft = n_fft` gives the
frequencies `k / (n_fft dx)` from zero to half the sampling frequency. -/
noncomputable def psdFrequencies (len : ℕ) (dx : ℝ) : List ℝ :=
  (List.range (fftLength len / 2 + 1)).map fun (k : ℕ) => (k : ℝ) / ((fftLength len : ℝ) * dx)

end Rose
