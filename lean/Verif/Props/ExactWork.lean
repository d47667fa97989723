/-
C44 and C134: exactly when the rail forces do the work of the wheel loads, and when the distance shown is the one travelled.
-/
import Verif.Props.ExactConditions2
import Verif.Props.BatchRun

set_option linter.unusedSectionVars false

namespace Rose

/-! ## C44 Work of the wheel loads -/

section Work
variable {K : Type*} [Field K] [LinearOrder K] [IsStrictOrderedRing K]

/-- Specification: the share of its load that a wheel should give to rail dof `i`. -/
def WheelContact.share (w : WheelContact K × K) (i : ℕ) : K :=
  ∑ k, if w.1.dofs k = some i then w.1.shape k * w.2 else 0

theorem WheelContact.share_untouched (w : WheelContact K × K) (i : ℕ) (h : ∀ k, w.1.dofs k ≠ some i) :
    WheelContact.share w i = 0 := by
  unfold WheelContact.share
  apply Finset.sum_eq_zero
  intro k _
  rw [if_neg (h k)]

theorem WheelContact.share_touched (w : WheelContact K × K) (k : Fin 4) (i : ℕ) (hk : w.1.dofs k = some i)
    (hinj : ∀ k', w.1.dofs k' = some i → k' = k) : WheelContact.share w i = w.1.shape k * w.2 := by
  unfold WheelContact.share
  rw [Finset.sum_eq_single k]
  · rw [if_pos hk]
  · intro k' _ hne
    rw [if_neg (fun h => hne (hinj k' h))]
  · intro h
    exact absurd (Finset.mem_univ k) h

theorem shares_untouched (ws : List (WheelContact K × K)) (i : ℕ) (h : ∀ w ∈ ws, ∀ k, w.1.dofs k ≠ some i) :
    (ws.map fun w => WheelContact.share w i).sum = 0 := by
  apply List.sum_eq_zero
  intro x hx
  obtain ⟨w, hw, rfl⟩ := List.mem_map.mp hx
  exact WheelContact.share_untouched w i (h w hw)

theorem wheel_work (n : ℕ) (w : WheelContact K × K) (hlt : ∀ k i, w.1.dofs k = some i → i < n) (u : ℕ → K) :
    w.2 * dispAtWheel u w.1 = ∑ i ∈ Finset.range n, WheelContact.share w i * u i := by
  unfold WheelContact.share dispAtWheel
  simp only [Finset.sum_mul, Finset.mul_sum]
  rw [Finset.sum_comm]
  apply Finset.sum_congr rfl
  intro k _
  cases h : w.1.dofs k with
  | none => simp [dofDisp]
  | some i0 =>
    have := hlt k i0 h
    rw [Finset.sum_eq_single i0]
    · simp [dofDisp]; ring
    · intro i _ hne
      rw [if_neg (by rw [Option.some.injEq]; exact Ne.symm hne), zero_mul]
    · intro hi
      exact absurd (Finset.mem_range.mpr this) hi

theorem wheels_work (n : ℕ) (ws : List (WheelContact K × K)) (hlt : ∀ w ∈ ws, ∀ k i, w.1.dofs k = some i → i < n) (u : ℕ → K) :
    (ws.map fun w => w.2 * dispAtWheel u w.1).sum =
      ∑ i ∈ Finset.range n, (ws.map fun w => WheelContact.share w i).sum * u i := by
  induction ws with
  | nil => simp
  | cons w ws ih =>
    rw [List.map_cons, List.sum_cons, ih (fun w' hw' => hlt w' (by simp [hw'])), wheel_work n w (hlt w (by simp)),
      ← Finset.sum_add_distrib]
    apply Finset.sum_congr rfl
    intro i _
    rw [List.map_cons, List.sum_cons, add_mul]

/-- The last wheel that touches a dof. -/
theorem last_touching (ws : List (WheelContact K × K)) (i : ℕ) (h : ∃ w ∈ ws, ∃ k, w.1.dofs k = some i) :
    ∃ before w after, ws = before ++ w :: after ∧ (∃ k, w.1.dofs k = some i) ∧ ∀ w' ∈ after, ∀ k, w'.1.dofs k ≠ some i := by
  induction ws with
  | nil => obtain ⟨w, hw, _⟩ := h; simp at hw
  | cons w ws ih =>
    by_cases h' : ∃ w ∈ ws, ∃ k, w.1.dofs k = some i
    · obtain ⟨b, v, a, e, h1, h2⟩ := ih h'
      exact ⟨w :: b, v, a, by rw [e]; rfl, h1, h2⟩
    · refine ⟨[], w, ws, rfl, ?_, fun w' hw' k hk => h' ⟨w', hw', k, hk⟩⟩
      obtain ⟨v, hv, hk⟩ := h
      rcases List.mem_cons.mp hv with rfl | hv
      · exact hk
      · exact absurd ⟨v, hv, hk⟩ h'

/-- **C44, exactly** For all wheels whose own four dofs are distinct: the rail forces do the work of the wheel loads for every
displacement of the rail, if and only if for every rail dof the shares of all wheels before the last one that touches it cancel. So
every wheel whose share of a common dof is not cancelled by others makes the identity fail. -/
theorem C44_iff (n : ℕ) (ws : List (WheelContact K × K)) (hinj : ∀ w ∈ ws, ∀ j k i, w.1.dofs j = some i → w.1.dofs k = some i → j = k)
    (hlt : ∀ w ∈ ws, ∀ k i, w.1.dofs k = some i → i < n) :
    (∀ u : ℕ → K, ∑ i ∈ Finset.range n, setWheelLoads (fun _ => 0) ws i * u i = (ws.map fun w => w.2 * dispAtWheel u w.1).sum) ↔
      ∀ before w after, ws = before ++ w :: after → ∀ k i, w.1.dofs k = some i → (∀ w' ∈ after, ∀ k', w'.1.dofs k' ≠ some i) →
        (before.map fun w' => WheelContact.share w' i).sum = 0 := by
  have key : ∀ before w after, ws = before ++ w :: after → ∀ k i, w.1.dofs k = some i →
      (∀ w' ∈ after, ∀ k', w'.1.dofs k' ≠ some i) →
      (ws.map fun w' => WheelContact.share w' i).sum =
        (before.map fun w' => WheelContact.share w' i).sum + setWheelLoads (fun _ => 0) ws i := by
    intro before w after e k i hk hafter
    have hi := fun k' h => hinj w (by rw [e]; simp) k' k i h hk
    rw [e, (C43_exact (fun _ => 0) before after w k i hk hi hafter).1, List.map_append, List.sum_append, List.map_cons, List.sum_cons,
      shares_untouched after i hafter, add_zero, WheelContact.share_touched w k i hk hi]
  constructor
  · intro h before w after e k i hk hafter
    have hi : i < n := hlt w (by rw [e]; simp) k i hk
    have h1 := h (Pi.single i 1)
    rw [wheels_work n ws hlt] at h1
    have single : ∀ f : ℕ → K, ∑ j ∈ Finset.range n, f j * (Pi.single i 1 : ℕ → K) j = f i := by
      intro f
      rw [Finset.sum_eq_single i]
      · simp
      · intro j _ hj
        simp [hj]
      · intro hn
        exact absurd (Finset.mem_range.mpr hi) hn
    rw [single, single fun i => (ws.map fun w => WheelContact.share w i).sum, key before w after e k i hk hafter] at h1
    exact right_eq_add.mp h1
  · intro h u
    rw [wheels_work n ws hlt]
    apply Finset.sum_congr rfl
    intro i _
    by_cases ht : ∃ w ∈ ws, ∃ k, w.1.dofs k = some i
    · obtain ⟨before, w, after, e, ⟨k, hk⟩, hafter⟩ := last_touching ws i ht
      rw [key before w after e k i hk hafter, h before w after e k i hk hafter, zero_add]
    · have ht' : ∀ w ∈ ws, ∀ k, w.1.dofs k ≠ some i := fun w hw k hk => ht ⟨w, hw, k, hk⟩
      rw [shares_untouched ws i ht']
      congr 1
      unfold setWheelLoads
      have : ∀ (l : List (ℕ × K)) (F : ℕ → K), i ∉ l.map Prod.fst → writes F l i = F i := by
        intro l
        induction l with
        | nil => intro F _; rfl
        | cons p l ih =>
          intro F hp
          rw [List.map_cons, List.mem_cons, not_or] at hp
          unfold writes at ih ⊢
          rw [List.foldl_cons, ih _ hp.2]
          simp [write, hp.1]
      apply this
      rw [wheelLoadWrites_keys]
      unfold activeDofs
      intro hm
      obtain ⟨w, hw, hm⟩ := List.mem_flatMap.mp hm
      obtain ⟨k, _, hk⟩ := List.mem_filterMap.mp hm
      exact ht' w hw k hk

/-- Both sides occur: two wheels on one element with loads that do not cancel, and two wheels on separate elements. -/
example : (let ws : List (WheelContact ℚ × ℚ) := [(⟨![some 0, some 1, some 2, some 3], fun _ => 1⟩, 5), (⟨![some 0, some 1, some 2, some 3], fun _ => 1⟩, 7)]
    ¬ (((ws.take 1).map fun w' => WheelContact.share w' 0).sum = 0)) ∧
    ∀ k i, (![some 4, some 5, some 6, some 7] : Fin 4 → Option ℕ) k = some i →
      WheelContact.share ((⟨![some 0, some 1, some 2, some 3], fun _ => 1⟩, 5) : WheelContact ℚ × ℚ) i = 0 := by
  refine ⟨by simp [WheelContact.share, Fin.sum_univ_four], ?_⟩
  · intro k i hk
    fin_cases k <;> simp at hk <;> subst hk <;> simp [WheelContact.share, Fin.sum_univ_four]

end Work

/-! ## C134 The distance shown -/

section Shown
variable {K : Type} [Field K] [LinearOrder K] [IsStrictOrderedRing K]

/-- **C134, exactly** The distance shown is the one travelled since the first shown step at every output step, if and only if in each
shown output step the distance travelled is the velocity at the end of the step times its length. -/
theorem C134_iff (time vel dist ts vs : List K) (interval first : ℕ) (hi : 0 < interval)
    (hl : time.length = vel.length) (hd : cumDistanceFromVelocity time vel = .ok dist)
    (hts : sampled interval time = .ok ts) (hvs : sampled interval vel = .ok vs) :
    (∀ i, first + i < ts.length →
      (shownDistance first ts vs).getD i 0 = dist.getD (interval * (first + i)) 0 - dist.getD (interval * first) 0) ↔
    ∀ m, first + m + 1 < ts.length →
      ∑ j ∈ Finset.range interval, vel.getD (interval * (first + m) + j) 0 *
          (time.getD (interval * (first + m) + j + 1) 0 - time.getD (interval * (first + m) + j) 0) =
        vel.getD (interval * (first + m + 1)) 0 * (time.getD (interval * (first + m + 1)) 0 - time.getD (interval * (first + m)) 0) := by
  have hdist : ∀ k, k < time.length → dist.getD k 0 = ∑ j ∈ Finset.range k, vel.getD j 0 * (time.getD (j + 1) 0 - time.getD j 0) := by
    intro k hk
    unfold cumDistanceFromVelocity at hd
    rw [if_pos hl] at hd
    rw [← Except.ok.inj hd, runningSums_getD _ _ _ (by
      rw [List.length_zipWith, npDiff_length, List.length_dropLast]; omega), zero_add]
    apply Finset.sum_congr rfl
    intro j hj
    rw [Finset.mem_range] at hj
    exact steps_getD time vel hl j (by omega)
  have hstep : ∀ m, first + m + 1 < ts.length → ∑ j ∈ Finset.range interval, vel.getD (interval * (first + m) + j) 0 *
      (time.getD (interval * (first + m) + j + 1) 0 - time.getD (interval * (first + m) + j) 0) =
      dist.getD (interval * (first + m + 1)) 0 - dist.getD (interval * (first + m)) 0 := by
    intro m hm
    have h1 := (sampled_getD hi hts _).2.1 hm
    have h2 := (sampled_getD hi hts (first + m)).2.1 (by omega)
    rw [hdist _ h1, hdist _ h2, Nat.mul_succ, Finset.sum_range_add, add_sub_cancel_left]
  have hlen : ts.length = vs.length := by
    apply Nat.le_antisymm
    · by_contra hcon
      have h1 := (sampled_getD hi hts vs.length).2.1 (by omega)
      rw [hl] at h1
      have := (sampled_getD hi hvs vs.length).2.2 h1
      omega
    · by_contra hcon
      have h1 := (sampled_getD hi hvs ts.length).2.1 (by omega)
      rw [← hl] at h1
      have := (sampled_getD hi hts ts.length).2.2 h1
      omega
  have shown : ∀ i, first + i < ts.length → (shownDistance first ts vs).getD i 0 =
      ∑ m ∈ Finset.range i, vel.getD (interval * (first + m + 1)) 0 *
        (time.getD (interval * (first + m + 1)) 0 - time.getD (interval * (first + m)) 0) := by
    intro i hlast
    rw [C134_formula first ts vs hlen i hlast]
    apply Finset.sum_congr rfl
    intro m _
    rw [(sampled_getD hi hvs _).1, (sampled_getD hi hts _).1, (sampled_getD hi hts _).1]
  constructor
  · intro h m hm
    have h1 := h m (by omega)
    have h2 := h (m + 1) (by omega)
    rw [shown m (by omega)] at h1
    rw [shown (m + 1) (by omega), Finset.sum_range_succ, h1] at h2
    have e : first + (m + 1) = first + m + 1 := by omega
    rw [e] at h2
    rw [hstep m hm]
    linarith
  · intro h i
    induction i with
    | zero => intro hlast; rw [shown 0 hlast]; simp
    | succ i ih =>
      intro hlast
      have h1 := ih (by omega)
      have h2 := h i (by omega)
      rw [hstep i (by omega)] at h2
      rw [shown i (by omega)] at h1
      rw [shown (i + 1) hlast, Finset.sum_range_succ, h1]
      have e : first + (i + 1) = first + i + 1 := by omega
      rw [e]
      linarith

/-- In the scripts' numbers, scaled down, the condition fails in the step in which the train starts and holds after it. -/
example : let d := [(0 : ℚ), 0, 0, 0, 0, 30, 60, 90, 120]
    let v := [(0 : ℚ), 0, 0, 0, 30, 30, 30, 30, 30]
    d.getD 4 0 - d.getD 2 0 ≠ v.getD 4 0 * 2 ∧ d.getD 6 0 - d.getD 4 0 = v.getD 6 0 * 2 := by
  constructor <;> norm_num

end Shown

end Rose
