/-
C188: reciprocity of results in time steps.
-/
import Mathlib.Algebra.BigOperators.NatAntidiagonal
import Verif.Spec.Reciprocity
import Verif.Props.LinearDynamics

set_option linter.unusedSectionVars false

namespace Rose
open Finset

/-- The sum of a table over one antidiagonal. -/
def folded (q : ℕ → ℕ → ℝ) (N : ℕ) : ℝ := ∑ p ∈ antidiagonal N, q p.1 p.2

theorem folded_swap (q : ℕ → ℕ → ℝ) (N : ℕ) : folded (fun i j => q j i) N = folded q N := by
  unfold folded
  exact Finset.Nat.sum_antidiagonal_swap (f := fun p : ℕ × ℕ => q p.1 p.2)

theorem folded_congr {q r : ℕ → ℕ → ℝ} {N T : ℕ} (hN : N < T) (h : ∀ i < T, ∀ j < T, q i j = r i j) : folded q N = folded r N := by
  unfold folded
  refine Finset.sum_congr rfl fun p hp => ?_
  have := mem_antidiagonal.mp hp
  exact h _ (by omega) _ (by omega)

theorem folded_step {q r : ℕ → ℕ → ℝ} {c : ℝ} {T N : ℕ} (hN : N + 1 < T) (h0 : ∀ i, r i 0 = 0)
    (h : ∀ i j, j + 1 < T → q i (j + 1) + q i j = c * (r i (j + 1) - r i j)) :
    folded q (N + 1) + folded q N = q (N + 1) 0 + c * (folded r (N + 1) - folded r N) := by
  unfold folded
  rw [Finset.Nat.sum_antidiagonal_succ', Finset.Nat.sum_antidiagonal_succ' (f := fun p : ℕ × ℕ => r p.1 p.2), h0, zero_add, add_assoc,
    ← Finset.sum_add_distrib, mul_sub, Finset.mul_sum, Finset.mul_sum, ← Finset.sum_sub_distrib]
  congr 1
  refine Finset.sum_congr rfl fun p hp => ?_
  have := mem_antidiagonal.mp hp
  rw [h p.1 p.2 (by omega)]
  ring

/-- Two rates of the same table. -/
theorem folded_rates {q q' r : ℕ → ℕ → ℝ} {c : ℝ} {T : ℕ} (h0 : ∀ i, r i 0 = 0) (h0' : ∀ j, r 0 j = 0)
    (h : ∀ i j, j + 1 < T → q i (j + 1) + q i j = c * (r i (j + 1) - r i j))
    (h' : ∀ i j, i + 1 < T → q' (i + 1) j + q' i j = c * (r (i + 1) j - r i j)) (z : ∀ i, q i 0 = 0) (z' : ∀ j, q' 0 j = 0) :
    ∀ N < T, folded q N = folded q' N := by
  intro N
  induction N with
  | zero => intro _; simp [folded, z, z']
  | succ N ih =>
    intro hN
    have e1 := folded_step hN h0 h
    have e2 := folded_step (q := fun i j => q' j i) (r := fun i j => r j i) hN h0' fun i j hj => h' j i hj
    rw [folded_swap q', folded_swap q', folded_swap r, folded_swap r] at e2
    rw [z] at e1
    simp only [z'] at e2
    have := ih (by omega)
    linarith

/-- A bilinear form keeps a linear relation. -/
theorem relation_kept {b : Spec.NodalField ℝ → Spec.NodalField ℝ → ℝ}
    (hb : ∀ (k : ℝ) w u₁ u₂, b w (fun i d => u₁ i d + k * u₂ i d) = b w u₁ + k * b w u₂) {c : ℝ} {q₀ q₁ r₀ r₁ : Spec.NodalField ℝ}
    (h : ∀ i d, q₁ i d + q₀ i d = c * (r₁ i d - r₀ i d)) (w : Spec.NodalField ℝ) : b w q₁ + b w q₀ = c * (b w r₁ - b w r₀) := by
  have z : b w (fun i d => r₀ i d + -1 * r₀ i d) = 0 := by rw [hb]; ring
  have e := hb (-c) w (fun i d => (fun i d => q₁ i d + 1 * q₀ i d) i d + c * r₀ i d) r₁
  rw [hb c w (fun i d => q₁ i d + 1 * q₀ i d) r₀, hb 1 w q₁ q₀,
    show (fun i d => (fun i d => (fun i d => q₁ i d + 1 * q₀ i d) i d + c * r₀ i d) i d + -c * r₁ i d) = fun i d => r₀ i d + -1 * r₀ i d by
      funext i d
      have := h i d
      simp only
      linear_combination this, z] at e
  linarith

section
variable {sys : SystemInput ℝ} {F F' : ℕ → Spec.NodalField ℝ → ℝ} {dt : ℝ} {times : ℕ} {U V A U' V' A' : ℕ → Spec.NodalField ℝ}

theorem FieldSteps.rate (f : FieldSteps sys F dt times U V A) (hdt : 0 < dt) {s : ℕ} (hs : s + 1 < times) (i : ℕ) (d : Fin 3) :
    V (s + 1) i d + V s i d = 2 / dt * (U (s + 1) i d - U s i d) ∧ A (s + 1) i d + A s i d = 2 / dt * (V (s + 1) i d - V s i d) := by
  rw [f.displacement s hs i d, f.velocity s hs i d]
  constructor
  · field_simp
    ring
  · field_simp
    ring

/-- The loads of one calculation, folded with the displacements of another, for two calculations from rest. -/
theorem FieldSteps.betti (h : HeldMoving sys) (hdt : 0 < dt) (f : FieldSteps sys F dt times U V A) (f' : FieldSteps sys F' dt times U' V' A')
    (hU : U 0 = 0) (hV : V 0 = 0) (hU' : U' 0 = 0) (hV' : V' 0 = 0) {N : ℕ} (hN : N + 1 < times) :
    folded (fun i j => F j (U' i)) (N + 1) + folded (fun i j => F j (U' i)) N - F 0 (U' (N + 1)) =
      folded (fun i j => F' i (U j)) (N + 1) + folded (fun i j => F' i (U j)) N - F' 0 (U (N + 1)) := by
  set m := Spec.systemWork AssemblyPart.mass sys.parts with hm
  set c := dampingWork sys with hc
  set k := Spec.systemWork AssemblyPart.stiffness sys.parts with hk
  have bm : ∀ (a : ℝ) w u₁ u₂, m w (fun i d => u₁ i d + a * u₂ i d) = m w u₁ + a * m w u₂ := fun a w u₁ u₂ => h.mass_combine a w u₁ u₂
  have bc : ∀ (a : ℝ) w u₁ u₂, c w (fun i d => u₁ i d + a * u₂ i d) = c w u₁ + a * c w u₂ := fun a w u₁ u₂ => h.damp_combine a w u₁ u₂
  have sm : ∀ w u, m w u = m u w := h.mass_symm
  have sc : ∀ w u, c w u = c u w := h.damp_symm
  have sk : ∀ w u, k w u = k u w := h.stiff_symm
  have zm : ∀ w, m w 0 = 0 := fun w => by
    have := bm (-1) w 0 0
    rw [show (fun i d => (0 : Spec.NodalField ℝ) i d + -1 * (0 : Spec.NodalField ℝ) i d) = 0 by funext i d; simp] at this
    linarith
  have zc : ∀ w, c w 0 = 0 := fun w => by
    have := bc (-1) w 0 0
    rw [show (fun i d => (0 : Spec.NodalField ℝ) i d + -1 * (0 : Spec.NodalField ℝ) i d) = 0 by funext i d; simp] at this
    linarith
  have zk : ∀ w, k w 0 = 0 := fun w => by
    have := h.stiff_combine (-1) w 0 0
    rw [show (fun i d => (0 : Spec.NodalField ℝ) i d + -1 * (0 : Spec.NodalField ℝ) i d) = 0 by funext i d; simp] at this
    have this : k w 0 = k w 0 + -1 * k w 0 := this
    linarith
  -- damping
  have ec : ∀ M < times, folded (fun i j => c (U' i) (V j)) M = folded (fun i j => c (V' i) (U j)) M :=
    folded_rates (r := fun i j => c (U' i) (U j)) (c := 2 / dt) (fun i => by rw [hU, zc]) (fun j => by rw [hU', sc, zc])
      (fun i j hj => relation_kept bc (fun a d => (f.rate hdt hj a d).1) _)
      (fun i j hi => by
        rw [sc (V' (i + 1)), sc (V' i), sc (U' (i + 1)), sc (U' i)]
        exact relation_kept bc (fun a d => (f'.rate hdt hi a d).1) _)
      (fun i => by rw [hV, zc]) (fun j => by rw [hV', sc, zc])
  have em : ∀ M < times, folded (fun i j => m (U' i) (V j)) M = folded (fun i j => m (V' i) (U j)) M :=
    folded_rates (r := fun i j => m (U' i) (U j)) (c := 2 / dt) (fun i => by rw [hU, zm]) (fun j => by rw [hU', sm, zm])
      (fun i j hj => relation_kept bm (fun a d => (f.rate hdt hj a d).1) _)
      (fun i j hi => by
        rw [sm (V' (i + 1)), sm (V' i), sm (U' (i + 1)), sm (U' i)]
        exact relation_kept bm (fun a d => (f'.rate hdt hi a d).1) _)
      (fun i => by rw [hV, zm]) (fun j => by rw [hV', sm, zm])
  -- inertia
  have a1 := folded_step (q := fun i j => m (U' i) (A j)) (r := fun i j => m (U' i) (V j)) (c := 2 / dt) hN (fun i => by rw [hV, zm])
    fun i j hj => relation_kept bm (fun a d => (f.rate hdt hj a d).2) _
  have a2 := folded_step (q := fun i j => m (A' j) (U i)) (r := fun i j => m (V' j) (U i)) (c := 2 / dt) hN (fun i => by rw [hV', sm, zm])
    fun i j hj => by
      rw [sm (A' (j + 1)), sm (A' j), sm (V' (j + 1)), sm (V' j)]
      exact relation_kept bm (fun a d => (f'.rate hdt hj a d).2) _
  have sw : ∀ M, folded (fun i j => m (A' j) (U i)) M = folded (fun i j => m (A' i) (U j)) M := folded_swap fun i j => m (A' i) (U j)
  have sw2 : ∀ M, folded (fun i j => m (V' j) (U i)) M = folded (fun i j => m (V' i) (U j)) M := folded_swap fun i j => m (V' i) (U j)
  rw [sw, sw, sw2, sw2] at a2
  rw [em _ hN, em N (by omega)] at a1
  -- balance
  have b1 : ∀ M < times, folded (fun i j => F j (U' i)) M = folded (fun i j => m (U' i) (A j)) M + folded (fun i j => c (U' i) (V j)) M +
      folded (fun i j => k (U' i) (U j)) M := by
    intro M hM
    unfold folded
    rw [← Finset.sum_add_distrib, ← Finset.sum_add_distrib]
    refine Finset.sum_congr rfl fun p hp => ?_
    have := mem_antidiagonal.mp hp
    exact (f.balance p.2 (by omega) _ (f'.admissible p.1 (by omega)).1).symm
  have b2 : ∀ M < times, folded (fun i j => F' i (U j)) M = folded (fun i j => m (A' i) (U j)) M + folded (fun i j => c (V' i) (U j)) M +
      folded (fun i j => k (U' i) (U j)) M := by
    intro M hM
    unfold folded
    rw [← Finset.sum_add_distrib, ← Finset.sum_add_distrib]
    refine Finset.sum_congr rfl fun p hp => ?_
    have := mem_antidiagonal.mp hp
    show F' p.1 (U p.2) = m (A' p.1) (U p.2) + c (V' p.1) (U p.2) + k (U' p.1) (U p.2)
    rw [sm, sc, sk]
    exact (f'.balance p.1 (by omega) _ (f.admissible p.2 (by omega)).1).symm
  have s1 : F 0 (U' (N + 1)) = m (U' (N + 1)) (A 0) := by
    rw [← f.balance 0 (by omega) _ (f'.admissible (N + 1) hN).1, hU, hV]
    show m _ _ + c _ _ + k _ _ = _
    rw [zc, zk]
    ring
  have s2 : F' 0 (U (N + 1)) = m (A' 0) (U (N + 1)) := by
    rw [← f'.balance 0 (by omega) _ (f.admissible (N + 1) hN).1, hU', hV']
    show m _ _ + c _ _ + k _ _ = _
    rw [zc, zk, sm]
    ring
  rw [b1 _ hN, b1 N (by omega), b2 _ hN, b2 N (by omega), s1, s2, ec _ hN, ec N (by omega)]
  linarith

/-- Loads that alternate in sign from step to step do not move a structure from rest. -/
theorem FieldSteps.alternating (h : HeldMoving sys) (hdt : 0 < dt) (f : FieldSteps sys F dt times U V A) (hU : U 0 = 0) (hV : V 0 = 0)
    (hF : ∀ s, s + 1 < times → ∀ w, F s w + F (s + 1) w = 0) : ∀ s < times, U s = 0 ∧ V s = 0 := by
  intro s
  induction s with
  | zero => exact fun _ => ⟨hU, hV⟩
  | succ s ih =>
    intro hs
    obtain ⟨u0, v0⟩ := ih (by omega)
    have ad := (f.admissible (s + 1) hs).1
    have e := hF s hs (U (s + 1))
    rw [← f.balance s (by omega) _ ad, ← f.balance (s + 1) hs _ ad, u0, v0] at e
    have r1 := relation_kept (b := fun w u => Spec.systemWork AssemblyPart.mass sys.parts w u) h.mass_combine
      (fun a d => (f.rate hdt hs a d).2) (U (s + 1))
    have r2 := relation_kept (b := fun w u => Spec.systemWork AssemblyPart.mass sys.parts w u) h.mass_combine
      (fun a d => (f.rate hdt hs a d).1) (U (s + 1))
    have r3 := relation_kept (b := fun w u => dampingWork sys w u) h.damp_combine
      (fun a d => (f.rate hdt hs a d).1) (U (s + 1))
    rw [u0, v0] at r2 r3
    rw [v0] at r1
    have zero : ∀ b : Spec.NodalField ℝ → Spec.NodalField ℝ → ℝ, (∀ (k : ℝ) w u₁ u₂, b w (fun i d => u₁ i d + k * u₂ i d) = b w u₁ + k * b w u₂) →
        ∀ w, b w 0 = 0 := fun b hb w => by
      have := hb (-1) w 0 0
      rw [show (fun i d => (0 : Spec.NodalField ℝ) i d + -1 * (0 : Spec.NodalField ℝ) i d) = 0 by funext i d; simp] at this
      linarith
    have z1 := zero _ h.mass_combine (U (s + 1))
    have z2 := zero _ h.damp_combine (U (s + 1))
    have z3 := zero _ h.stiff_combine (U (s + 1))
    obtain ⟨⟨m0, -⟩, c0, k0, kd⟩ := h.positive _ ad
    unfold motionWork at e
    rw [z1] at r1 r2
    rw [z2] at r3
    rw [z2, z3] at e
    have hd : 0 < 2 / dt := by positivity
    have key : 2 / dt * (2 / dt * Spec.systemWork AssemblyPart.mass sys.parts (U (s + 1)) (U (s + 1))) +
        2 / dt * dampingWork sys (U (s + 1)) (U (s + 1)) + Spec.systemWork AssemblyPart.stiffness sys.parts (U (s + 1)) (U (s + 1)) = 0 := by
      have e1 : Spec.systemWork AssemblyPart.mass sys.parts (U (s + 1)) (V (s + 1)) =
        2 / dt * Spec.systemWork AssemblyPart.mass sys.parts (U (s + 1)) (U (s + 1)) := by linarith
      have e2 : dampingWork sys (U (s + 1)) (V (s + 1)) = 2 / dt * dampingWork sys (U (s + 1)) (U (s + 1)) := by linarith
      rw [e1] at r1
      rw [e2] at e
      linarith
    have p1 := mul_nonneg hd.le (mul_nonneg hd.le m0)
    have p2 := mul_nonneg hd.le c0
    have hz := kd (by linarith)
    have u1 : U (s + 1) = 0 := by
      funext i
      by_cases hi : i < sys.n
      · exact hz i hi
      · exact (f.outside (s + 1) hs i (by omega)).1
    refine ⟨u1, ?_⟩
    funext i d
    have := (f.rate hdt hs i d).1
    rw [u0, u1, v0] at this
    simpa using this

/-- The motion at one place due to loads of a place with a history, and the other way round. -/
theorem FieldSteps.reciprocal (h : HeldMoving sys) (hdt : 0 < dt) {φ : ℕ → ℝ} {i j : ℕ} {d e : Fin 3} (f : FieldSteps sys F dt times U V A)
    (f' : FieldSteps sys F' dt times U' V' A') (hF : ∀ s w, F s w = φ s * w i d) (hF' : ∀ s w, F' s w = φ s * w j e)
    (hU : U 0 = 0) (hV : V 0 = 0) (hU' : U' 0 = 0) (hV' : V' 0 = 0) (k : ℕ) (hk : φ (k + 1) + φ k ≠ 0) (hmin : ∀ l < k, φ (l + 1) + φ l = 0)
    (s : ℕ) (hs : s + k + 1 < times) : U' s i d = U s j e := by
  induction s using Nat.strong_induction_on with
  | _ s ih =>
    have key := f.betti h hdt f' hU hV hU' hV' (N := s + k) (by omega)
    simp only [hF, hF'] at key
    unfold folded at key
    rw [Finset.Nat.sum_antidiagonal_succ', Finset.Nat.sum_antidiagonal_succ (f := fun p : ℕ × ℕ => φ p.1 * U p.2 j e)] at key
    have e1 : ∑ p ∈ antidiagonal (s + k), φ (p.2 + 1) * U' p.1 i d + ∑ p ∈ antidiagonal (s + k), φ p.2 * U' p.1 i d =
        ∑ p ∈ antidiagonal (s + k), φ (p.2 + 1) * U p.1 j e + ∑ p ∈ antidiagonal (s + k), φ p.2 * U p.1 j e := by
      have sw : ∀ g : ℕ × ℕ → ℝ, ∑ p ∈ antidiagonal (s + k), g p.swap = ∑ p ∈ antidiagonal (s + k), g p := fun g => Finset.Nat.sum_antidiagonal_swap
      have s1 := sw fun p => φ (p.1 + 1) * U p.2 j e
      have s2 := sw fun p => φ p.1 * U p.2 j e
      simp only [Prod.fst_swap, Prod.snd_swap] at s1 s2
      rw [s1, s2]
      linarith
    rw [← Finset.sum_add_distrib, ← Finset.sum_add_distrib] at e1
    have e2 : ∑ p ∈ antidiagonal (s + k), (φ (p.2 + 1) + φ p.2) * (U' p.1 i d - U p.1 j e) = 0 := by
      rw [← sub_eq_zero, ← Finset.sum_sub_distrib] at e1
      rw [← e1]
      exact Finset.sum_congr rfl fun p _ => by ring
    rw [Finset.sum_eq_single_of_mem (s, k) (mem_antidiagonal.mpr rfl)] at e2
    · exact sub_eq_zero.mp ((mul_eq_zero.mp e2).resolve_left hk)
    · intro p hp hne
      have hpp := mem_antidiagonal.mp hp
      rcases lt_trichotomy p.2 k with hlt | heq | hgt
      · rw [hmin _ hlt, zero_mul]
      · exact absurd (Prod.ext (show p.1 = s by omega) heq) hne
      · rw [ih p.1 (by omega) (by omega), sub_self, mul_zero]

/-- Accelerations at the start. -/
theorem FieldSteps.reciprocal_start (h : HeldMoving sys) (ht : 0 < times) {φ : ℕ → ℝ} {i j : ℕ} {d e : Fin 3} (f : FieldSteps sys F dt times U V A)
    (f' : FieldSteps sys F' dt times U' V' A') (hF : ∀ s w, F s w = φ s * w i d) (hF' : ∀ s w, F' s w = φ s * w j e)
    (hU : U 0 = 0) (hV : V 0 = 0) (hU' : U' 0 = 0) (hV' : V' 0 = 0) : A' 0 i d = A 0 j e := by
  have zero : ∀ b : Spec.NodalField ℝ → Spec.NodalField ℝ → ℝ, (∀ (k : ℝ) w u₁ u₂, b w (fun i d => u₁ i d + k * u₂ i d) = b w u₁ + k * b w u₂) →
      ∀ w, b w 0 = 0 := fun b hb w => by
    have := hb (-1) w 0 0
    rw [show (fun i d => (0 : Spec.NodalField ℝ) i d + -1 * (0 : Spec.NodalField ℝ) i d) = 0 by funext i d; simp] at this
    linarith
  have b : ∀ w, Spec.Admissible sys w → Spec.systemWork AssemblyPart.mass sys.parts w (A 0) = φ 0 * w i d := by
    intro w hw
    have := f.balance 0 ht w hw
    rw [hU, hV, hF] at this
    unfold motionWork at this
    rw [zero _ h.damp_combine, zero _ h.stiff_combine] at this
    linarith
  have b' : ∀ w, Spec.Admissible sys w → Spec.systemWork AssemblyPart.mass sys.parts w (A' 0) = φ 0 * w j e := by
    intro w hw
    have := f'.balance 0 ht w hw
    rw [hU', hV', hF'] at this
    unfold motionWork at this
    rw [zero _ h.damp_combine, zero _ h.stiff_combine] at this
    linarith
  have a := (f.admissible 0 ht).2.2
  have a' := (f'.admissible 0 ht).2.2
  by_cases h0 : φ 0 = 0
  · have v : ∀ {B : Spec.NodalField ℝ}, Spec.Admissible sys B → (∀ n, sys.n ≤ n → B n = 0) → Spec.systemWork AssemblyPart.mass sys.parts B B = 0 → B = 0 := by
      intro B hB ho hz
      funext n
      by_cases hn : n < sys.n
      · exact (h.positive _ hB).1.2 hz n hn
      · exact ho n (by omega)
    have z := v a (fun n hn => (f.outside 0 ht n hn).2.2) (by rw [b _ a, h0, zero_mul])
    have z' := v a' (fun n hn => (f'.outside 0 ht n hn).2.2) (by rw [b' _ a', h0, zero_mul])
    rw [z, z']
    rfl
  · have e1 := b _ a'
    have e2 := b' _ a
    rw [h.mass_symm] at e2
    rw [e1] at e2
    exact mul_left_cancel₀ h0 e2

theorem HeldMoving.reciprocal (h : HeldMoving sys) (hdt : 0 < dt) : Spec.ReciprocalMotion sys dt := by
  intro m hm m' hm' d d' φ times r r' R R' t ht
  have fit : ∀ m < sys.n, ∀ d, ∀ l ∈ [Spec.forceAt m d φ], Spec.LoadFits sys.n l := by
    intro m hm d l hl
    obtain rfl := List.mem_singleton.mp hl
    refine ⟨by simp [Spec.forceAt], fun x hx => ?_⟩
    obtain rfl : x = m := by simpa [Spec.forceAt] using hx
    exact hm
  have work : ∀ m d s (w : Spec.NodalField ℝ), Spec.loadWork (Spec.loadsAt [Spec.forceAt m d φ] s) w = φ s * w m d := by
    intro m d s w
    unfold Spec.loadWork Spec.loadsAt Spec.forceAt
    simp
    ring
  have rest : ∀ {T m d r}, m < sys.n → Spec.DynamicResults sys [Spec.forceAt m d φ] dt T 0 0 r → 0 < T → Spec.shape r 0 = 0 ∧ Spec.shapeRate r 0 = 0 := by
    intro T m d r hm R hT
    obtain ⟨f, z⟩ := h.results hdt (fit m hm d) R
    exact f.start_eq hT fun i hi b hb => z i hi b hb hT
  -- displacements
  have disp : ∀ s < times, Spec.shape r s m' d' = Spec.shape r' s m d := by
    intro s hs
    by_cases hex : ∃ k, φ (k + 1) + φ k ≠ 0
    · classical
      obtain ⟨r₁, R₁⟩ := h.hasResults hdt _ (s + Nat.find hex + 2) 0 0 (fit m hm d)
      obtain ⟨r₂, R₂⟩ := h.hasResults hdt _ (s + Nat.find hex + 2) 0 0 (fit m' hm' d')
      have L := h.linear hdt
      have c1 := (L.causal _ _ _ _ 0 0 r r₁ (fit m hm d) (fit m hm d) R R₁ s hs (by omega) fun _ _ => rfl) m' hm'
      have c2 := (L.causal _ _ _ _ 0 0 r' r₂ (fit m' hm' d') (fit m' hm' d') R' R₂ s hs (by omega) fun _ _ => rfl) m hm
      rw [c1.1, c2.1]
      obtain ⟨f, -⟩ := h.results hdt (fit m hm d) R₁
      obtain ⟨f', -⟩ := h.results hdt (fit m' hm' d') R₂
      obtain ⟨z1, z2⟩ := rest hm R₁ (by omega)
      obtain ⟨z3, z4⟩ := rest hm' R₂ (by omega)
      exact (f.reciprocal h hdt f' (fun s w => work m d s w) (fun s w => work m' d' s w) z1 z2 z3 z4 (Nat.find hex) (Nat.find_spec hex)
        (fun l hl => not_not.mp (Nat.find_min hex hl)) s (by omega)).symm
    · push Not at hex
      obtain ⟨f, -⟩ := h.results hdt (fit m hm d) R
      obtain ⟨f', -⟩ := h.results hdt (fit m' hm' d') R'
      obtain ⟨z1, z2⟩ := rest hm R (by omega)
      obtain ⟨z3, z4⟩ := rest hm' R' (by omega)
      have e1 := f.alternating h hdt z1 z2 (fun s _ w => by rw [work, work]; linear_combination w m d * hex s) s hs
      have e2 := f'.alternating h hdt z3 z4 (fun s _ w => by rw [work, work]; linear_combination w m' d' * hex s) s hs
      rw [e1.1, e2.1]
      rfl
  obtain ⟨f, -⟩ := h.results hdt (fit m hm d) R
  obtain ⟨f', -⟩ := h.results hdt (fit m' hm' d') R'
  obtain ⟨z1, z2⟩ := rest hm R (by omega)
  obtain ⟨z3, z4⟩ := rest hm' R' (by omega)
  have rate : ∀ s < times, Spec.shapeRate r s m' d' = Spec.shapeRate r' s m d := by
    intro s
    induction s with
    | zero => intro _; rw [z2, z4]; rfl
    | succ s ih =>
      intro hs
      have e1 := (f.rate hdt hs m' d').1
      have e2 := (f'.rate hdt hs m d).1
      rw [disp _ hs, disp s (by omega), ih (by omega), ← e2] at e1
      exact add_right_cancel e1
  refine ⟨disp t ht, rate t ht, ?_⟩
  induction t with
  | zero => exact (f.reciprocal_start h ht f' (fun s w => work m d s w) (fun s w => work m' d' s w) z1 z2 z3 z4).symm
  | succ s ih =>
    have e1 := (f.rate hdt ht m' d').2
    have e2 := (f'.rate hdt ht m d).2
    rw [rate _ ht, rate s (by omega), ih (by omega), ← e2] at e1
    exact add_right_cancel e1

end

/-- **C188** For every generated track with at least two sleepers on its boundaries, average acceleration steps of any size and every course of a force: the
motion at one place due to the force at another place equals the motion at the other place due to the force at the first. -/
theorem C188_track {H : Type*} [DecidableEq H] (hash : (Fin 3 → ℝ) → H) (n r : ℕ) (hn : 2 ≤ n) (hr : 0 < r) (d h : ℝ)
    (hd : 1 / 1000000000 < d / r) (hh : 1 / 1000000000 < h) (t : HorizontalTrack ℝ)
    (ht : createHorizontalTrack hash n r d h = .ok t) (v : TrackValues) (hv : v.Valid) (hm : v.NonNeg) (hR : v.Rayleigh) (dt : ℝ) (hdt : 0 < dt) :
    ∃ inp, t.system v true = .ok inp ∧ Spec.ReciprocalMotion inp dt := by
  have g : Generated hash n r d h t := ⟨by nlinarith, hd, hh, ht⟩
  exact ⟨_, g.system v true, (g.heldMoving hn hr hv hm hR).reciprocal hdt⟩

section combined
variable {H : Type*} [DecidableEq H] (hash : (Fin 3 → ℝ) → H) {r k : ℕ} {d : ℝ} {segments : List (ℕ × ℝ)}

/-- **C188** The same for every track that is combined from segments. -/
theorem C188_combined (g : GoodSegments r d segments) (length : ℝ) (v : TrackValues) (soils : List (RodValues ℝ))
    (hs : segments.length ≤ soils.length) (hv : ∀ w ∈ soils, ({ v with soil := w } : TrackValues).Valid)
    (hm : ∀ w ∈ soils, ({ v with soil := w } : TrackValues).NonNeg) (hR : v.Rayleigh) (dt : ℝ) (hdt : 0 < dt) :
    ∃ c inp, combinedTrack hash r d segments = .ok c ∧ c.system length v soils true = .ok inp ∧ Spec.ReciprocalMotion inp dt := by
  obtain ⟨c, hc, s, -, -, -, -, -, -, hlen, -⟩ := C136_structure hash g
  have hs' : c.soils.length ≤ soils.length := by omega
  obtain ⟨a, b, ha, hb, hsys⟩ := s.system length v soils hs' true
  exact ⟨c, _, hc, hsys, (s.heldMoving v soils hs' hv hm hR a b (List.mem_of_head? ha) (List.mem_of_getLast? hb)).reciprocal hdt⟩

/-- **C188** The same with a hinge in the rail, of a fixity factor greater than 0 and at most 1. -/
theorem C188_hinged (g : GoodSegments r d segments) (length : ℝ) (hlength : 0 < length) (v : TrackValues)
    (soils : List (RodValues ℝ)) (hs : segments.length ≤ soils.length) (hv : ∀ w ∈ soils, ({ v with soil := w } : TrackValues).Valid)
    (hm : ∀ w ∈ soils, ({ v with soil := w } : TrackValues).NonNeg) (hR : v.Rayleigh)
    (hk : 2 ≤ k) (hkm : k + 3 ≤ railCount r segments) (near : 1 / 100000000 + 1 / 100000 * ((k : ℝ) * (d / r)) < d / r)
    (f : ℝ) (hf : 0 < f) (hf1 : f ≤ 1) (dt : ℝ) (hdt : 0 < dt) :
    ∃ c inp, combinedTrack hash r d segments = .ok c ∧ c.hingedSystem length v soils f (k * (d / r)) true = .ok inp ∧
      Spec.ReciprocalMotion inp dt := by
  obtain ⟨c, hc, sound, -, -, -, -, -, -, hlen, -⟩ := C136_structure hash g
  have hs' : c.soils.length ≤ soils.length := by omega
  obtain ⟨w, hw⟩ := sound.some_soil hs'
  obtain ⟨σ, hσ, hσ0⟩ := hingeStiffness_pos (hv w hw).E (hv w hw).I hlength hf hf1
  obtain ⟨a, b, ha, hb, hsys⟩ := sound.hingedSystem length v soils hs' true hk hkm near f σ hσ
  exact ⟨c, _, hc, hsys, (sound.hinged_heldMoving v soils hs' hv hm hR a b (List.mem_of_head? ha) (List.mem_of_getLast? hb) hk hkm (σ / 2)
    (fun h => by linarith)).reciprocal hdt⟩

/-- **C188** The same with a free pin, if there are three or more sleepers and one of them is behind the pin. -/
theorem C188_pinned (g : GoodSegments r d segments) (length : ℝ) (v : TrackValues)
    (soils : List (RodValues ℝ)) (hs : segments.length ≤ soils.length) (hv : ∀ w ∈ soils, ({ v with soil := w } : TrackValues).Valid)
    (hm : ∀ w ∈ soils, ({ v with soil := w } : TrackValues).NonNeg) (hR : v.Rayleigh) (h3 : 3 ≤ (segments.map Prod.fst).sum)
    (hk : 2 ≤ k) (hkm : k + 3 ≤ railCount r segments) (hkr : k + r < railCount r segments)
    (near : 1 / 100000000 + 1 / 100000 * ((k : ℝ) * (d / r)) < d / r) (dt : ℝ) (hdt : 0 < dt) :
    ∃ c inp, combinedTrack hash r d segments = .ok c ∧ c.hingedSystem length v soils 0 (k * (d / r)) true = .ok inp ∧
      Spec.ReciprocalMotion inp dt := by
  obtain ⟨c, hc, sound, -, -, -, -, -, -, hlen, -⟩ := C136_structure hash g
  have hs' : c.soils.length ≤ soils.length := by omega
  obtain ⟨a, b, ha, hb, hsys⟩ := sound.hingedSystem length v soils hs' true hk hkm near 0 0 (hingeStiffness_zero _ _ _)
  exact ⟨c, _, hc, hsys, (sound.hinged_heldMoving v soils hs' hv hm hR a b (List.mem_of_head? ha) (List.mem_of_getLast? hb) hk hkm (0 / 2)
    (fun _ => Or.inl (combined_holdsPin hash g v soils h3 (by omega) hkr c hc))).reciprocal hdt⟩

end combined

/-- Three sleepers: a blow on the first rail node moves the third as the same blow on the third moves the first. -/
example : ∃ t, createHorizontalTrack (fun p : Fin 3 → ℝ => p) 3 2 (3 / 5) 1 = .ok t ∧ ∃ inp, t.system exampleTrack true = .ok inp ∧ ∃ r r',
    Spec.DynamicResults inp [Spec.forceAt 0 1 fun t => if t = 1 then -1000 else 0] (1 / 100) 50 0 0 r ∧
    Spec.DynamicResults inp [Spec.forceAt 2 1 fun t => if t = 1 then -1000 else 0] (1 / 100) 50 0 0 r' ∧
    ∀ t < 50, Spec.shape r t 2 1 = Spec.shape r' t 0 1 := by
  obtain ⟨t, ht, -⟩ := C48_structure (fun p : Fin 3 → ℝ => p) 3 2 (by norm_num) (3 / 5) 1
  have g : Generated (fun p : Fin 3 → ℝ => p) 3 2 (3 / 5) 1 t := ⟨by norm_num, by norm_num, by norm_num, ht⟩
  have hh := g.heldMoving (by norm_num) (by norm_num) exampleTrack_valid exampleTrack_nonNeg exampleTrack_rayleigh
  have pos : 2 < (generatedInput t 3 2 (3 / 5) exampleTrack true).n := by
    show 2 < 3 * 2 + 3 + 3
    omega
  have fit : ∀ m ≤ 2, ∀ l ∈ [Spec.forceAt m 1 fun t => if t = 1 then -1000 else 0], Spec.LoadFits (generatedInput t 3 2 (3 / 5) exampleTrack true).n l := by
    intro m hm l hl
    obtain rfl := List.mem_singleton.mp hl
    refine ⟨by simp [Spec.forceAt], fun x hx => ?_⟩
    obtain rfl : x = m := by simpa [Spec.forceAt] using hx
    exact lt_of_le_of_lt hm pos
  have hdt : (0 : ℝ) < 1 / 100 := by norm_num
  obtain ⟨r, R⟩ := hh.hasResults hdt _ 50 0 0 (fit 0 (by norm_num))
  obtain ⟨r', R'⟩ := hh.hasResults hdt _ 50 0 0 (fit 2 (by norm_num))
  exact ⟨t, ht, _, g.system _ true, r, r', R, R', fun s hs => (hh.reciprocal hdt 0 (by omega) 2 pos 1 1 _ 50 r r' R R' s hs).1⟩

end Rose
