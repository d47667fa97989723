import Verif.Model.Spectrum
import Mathlib.Tactic.Linarith
import Mathlib.Tactic.FieldSimp
import Mathlib.Tactic.NormNum

set_option linter.unusedSectionVars false

namespace Rose

/-! ### C199: the frequencies of the spectrum -/

/-- **C199, number of samples** The spectrum is taken over the least power of two that is not below the number of samples and not below 256:
no sample is cut off. -/
theorem C199_samples (len : ℕ) : IsLeast {m | (∃ k : ℕ, m = 2 ^ k) ∧ len ≤ m ∧ 256 ≤ m} (fftLength len) := by
  have hceil : ⌈Real.logb 2 (len : ℝ)⌉₊ = Nat.clog 2 len := by
    have := Real.natCeil_logb_natCast 2 len
    simpa using this
  unfold fftLength
  by_cases h0 : len = 0
  · rw [if_pos h0]
    exact ⟨⟨⟨8, by norm_num⟩, by omega, le_max_right _ _⟩, fun m hm => by simpa using hm.2.2⟩
  · rw [if_neg h0, hceil]
    refine ⟨⟨?_, le_trans (Nat.le_pow_clog (by norm_num) len) (le_max_left _ _), le_max_right _ _⟩, ?_⟩
    · rcases le_total (2 ^ Nat.clog 2 len) 256 with h | h
      · exact ⟨8, by rw [max_eq_right h]; norm_num⟩
      · exact ⟨_, max_eq_left h⟩
    · rintro m ⟨⟨k, rfl⟩, h1, h2⟩
      refine max_le ?_ h2
      exact Nat.pow_le_pow_right (by norm_num) (Nat.clog_le_of_le_pow h1)

/-- **C199, frequencies in every band** If the signal with its zeros behind it spans at least 50 m and the sampling is fine enough for the
filter of the last band, every band has a frequency of the spectrum. -/
theorem C199_filled_partial (len : ℕ) (dx : ℝ) (hdx : 0 < dx) (hspan : 50 ≤ (fftLength len : ℝ) * dx) (hny : 63 / 100 * 2 * dx < 1) :
    ∀ b ∈ bands, ∃ f ∈ psdFrequencies len dx, b.1 ≤ f ∧ f < b.2.1 := by
  have hN : (0 : ℝ) < (fftLength len : ℝ) * dx := by linarith
  have hdf : 1 / ((fftLength len : ℝ) * dx) ≤ 1 / 50 := one_div_le_one_div_of_le (by norm_num) hspan
  have key : ∀ a b : ℝ, 0 ≤ a → 1 / 50 ≤ b - a → b ≤ 63 / 100 → ∃ f ∈ psdFrequencies len dx, a ≤ f ∧ f < b := by
    intro a b ha hab hb
    have h1 := Nat.le_ceil (a * ((fftLength len : ℝ) * dx))
    have h2 := Nat.ceil_lt_add_one (show 0 ≤ a * ((fftLength len : ℝ) * dx) by positivity)
    set k := ⌈a * ((fftLength len : ℝ) * dx)⌉₊ with hk
    have hlow : a ≤ (k : ℝ) / ((fftLength len : ℝ) * dx) := by rwa [le_div_iff₀ hN]
    have hup : (k : ℝ) / ((fftLength len : ℝ) * dx) < b := by
      rw [div_lt_iff₀ hN]
      have : 1 ≤ (b - a) * ((fftLength len : ℝ) * dx) := by
        have := mul_le_mul hab hspan (by norm_num) (by linarith)
        linarith
      linarith
    refine ⟨_, List.mem_map.2 ⟨k, List.mem_range.2 ?_, rfl⟩, hlow, hup⟩
    rw [div_lt_iff₀ hN] at hup
    have h3 : (k : ℝ) < (fftLength len : ℝ) / 2 := by
      have : b * ((fftLength len : ℝ) * dx) ≤ 63 / 100 * ((fftLength len : ℝ) * dx) := mul_le_mul_of_nonneg_right hb hN.le
      have h0 : (0 : ℝ) < fftLength len := (mul_pos_iff_of_pos_right hdx).1 hN
      nlinarith
    have h4 : 2 * k < fftLength len := by
      have : (2 : ℝ) * k < fftLength len := by linarith
      exact_mod_cast this
    omega
  intro b hb
  simp only [bands, List.mem_cons, List.not_mem_nil, or_false] at hb
  rcases hb with rfl | rfl | rfl | rfl | rfl | rfl | rfl | rfl | rfl <;> exact key _ _ (by norm_num) (by norm_num) (by norm_num)

/-- **C199 fails for short signals** Of every signal of at most 256 samples at distances of a decimetre, the value of the first band is zero
whatever its spectral density is: the band has no frequency. -/
theorem C199_empty_violated (len : ℕ) (hlen : len ≤ 256) (P : List ℝ) (df : ℝ) :
    rmsBand (8 / 100, 10 / 100, 0) (psdFrequencies len (1 / 10)) P df = 0 := by
  have hf : fftLength len = 256 := by
    apply le_antisymm ((C199_samples len).2 ⟨⟨8, by norm_num⟩, hlen, le_rfl⟩) (C199_samples len).1.2.2
  have hnone : ∀ f ∈ psdFrequencies len (1 / 10), ¬ ((8 / 100 : ℝ) ≤ f ∧ f < 10 / 100) := by
    intro f hm
    unfold psdFrequencies at hm
    rw [hf] at hm
    obtain ⟨k, -, rfl⟩ := List.mem_map.1 hm
    rintro ⟨h1, h2⟩
    rw [le_div_iff₀ (by norm_num)] at h1
    rw [div_lt_iff₀ (by norm_num)] at h2
    have a : (2 : ℝ) < k := by push_cast at h1; linarith
    have b : (k : ℝ) < 3 := by push_cast at h2; linarith
    have a' : 2 < k := by exact_mod_cast a
    have b' : k < 3 := by exact_mod_cast b
    omega
  unfold rmsBand
  rw [Real.sqrt_eq_zero']
  apply le_of_eq
  apply List.sum_eq_zero
  intro x hx
  generalize psdFrequencies len (1 / 10) = fs at hnone hx
  induction fs generalizing P with
  | nil => simp at hx
  | cons f fs ih =>
    cases P with
    | nil => simp at hx
    | cons p P =>
      rw [List.zipWith_cons_cons, List.mem_cons] at hx
      rcases hx with rfl | hx
      · rw [if_neg (hnone f (by simp))]
      · exact ih P (fun g hg => hnone g (by simp [hg])) hx

/-- A signal of 1000 samples at distances of a quarter of a metre has frequencies in all bands. -/
example : (0 : ℝ) < 1 / 4 ∧ 50 ≤ (fftLength 1000 : ℝ) * (1 / 4) ∧ 63 / 100 * 2 * (1 / 4 : ℝ) < 1 := by
  have := (C199_samples 1000).1.2.1
  have h : (1000 : ℝ) ≤ fftLength 1000 := by exact_mod_cast this
  refine ⟨by norm_num, by linarith, by norm_num⟩

end Rose
