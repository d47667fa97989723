/-
C41-C47, C77, C80: train-track interaction.
-/
import Verif.Model.Coupled
import Verif.Props.Train
import Verif.Lemmas.Beam

set_option linter.unusedSectionVars false

namespace Rose

/-! ### C41 -/

theorem npSign_of_pos {x : ℝ} (h : 0 < x) : npSign x = 1 := by simp [npSign, sign_pos h]
theorem npSign_of_neg {x : ℝ} (h : x < 0) : npSign x = -1 := by simp [npSign, sign_neg h]
theorem npSign_zero : npSign 0 = 0 := by simp [npSign]

theorem contactForce_compressed (G p irr du : ℝ) (hG : 0 < G) (h : 0 < -irr - du) :
    contactForce G p irr (some du) = .ok (((-irr - du) / G) ^ p) := by
  have h1 : (0 : ℝ) ≤ 1 / G * (-irr - du) := by positivity
  simp only [contactForce, npSign_of_pos h, npPower, h1, if_true, nanToNum, Option.getD_some, one_mul]
  congr 2
  field_simp

/-- C41: a NaN displacement is reported; under compression `d > 0` the force is `(d / G)^p`, positive and strictly
increasing; at `d = 0` it is zero. -/
theorem C41_compression (G p irr : ℝ) (hG : 0 < G) (hp : 0 < p) :
    contactForce G p irr none = .error .valueError ∧
    (∀ du, 0 < -irr - du → ∃ f, contactForce G p irr (some du) = .ok f ∧ 0 < f ∧ f = ((-irr - du) / G) ^ p) ∧
    (∀ du, -irr - du = 0 → contactForce G p irr (some du) = .ok 0) ∧
    (∀ du du' f f', 0 < -irr - du → -irr - du < -irr - du' → contactForce G p irr (some du) = .ok f →
      contactForce G p irr (some du') = .ok f' → f < f') := by
  refine ⟨rfl, ?_, ?_, ?_⟩
  · intro du h
    exact ⟨_, contactForce_compressed G p irr du hG h, by positivity, rfl⟩
  · intro du h
    simp [contactForce, h, npSign_zero]
  · intro du du' f f' h h' hf hf'
    rw [contactForce_compressed G p irr du hG h] at hf
    rw [contactForce_compressed G p irr du' hG (h.trans h')] at hf'
    injection hf with hf
    injection hf' with hf'
    subst hf hf'
    apply Real.rpow_lt_rpow (by positivity) _ hp
    exact div_lt_div_of_pos_right h' hG

/-- C41 as far as it holds: for a Hertz power that is not an integer (such as 3/2) a wheel that is off the rail has no
contact force, so the contact never pulls. Missing: integer powers, `C41_odd_violated`, `C41_even_violated`. -/
theorem C41_separated_partial (G p irr du : ℝ) (hG : 0 < G) (hp : ¬ ∃ n : ℤ, p = n) (h : -irr - du < 0) :
    contactForce G p irr (some du) = .ok 0 := by
  have h1 : ¬ (0 : ℝ) ≤ 1 / G * (-irr - du) := by
    rw [not_le]
    exact mul_neg_of_pos_of_neg (by positivity) h
  simp only [contactForce, npPower, h1, if_false, hp, nanToNum, Option.getD_none, mul_zero]

example : ¬ ∃ n : ℤ, (3 / 2 : ℝ) = n := by
  rintro ⟨n, hn⟩
  have : (3 : ℝ) = 2 * n := by linarith
  have : (3 : ℤ) = 2 * n := by exact_mod_cast this
  omega

theorem contactForce_separated_int (G irr du : ℝ) (n : ℕ) (hG : 0 < G) (h : -irr - du < 0) :
    contactForce G n irr (some du) = .ok (-(((-irr - du) / G) ^ n)) := by
  have h1 : ¬ (0 : ℝ) ≤ 1 / G * (-irr - du) := by
    rw [not_le]
    exact mul_neg_of_pos_of_neg (by positivity) h
  have h2 : ∃ m : ℤ, ((n : ℕ) : ℝ) = m := ⟨n, by simp⟩
  have h3 : 1 / G * (-irr - du) = (-irr - du) / G := by field_simp
  simp only [contactForce]
  rw [npPower, if_neg h1, if_pos h2, h3]
  simp only [nanToNum, Option.getD_some, npSign_of_neg h, Int.floor_natCast, zpow_natCast, neg_one_mul]

/-- C41 fails for odd powers (including the linear law `p = 1`): a wheel above the rail is pushed up. -/
theorem C41_odd_violated (G irr du : ℝ) (n : ℕ) (hn : Odd n) (hG : 0 < G) (h : -irr - du < 0) :
    ∃ f, contactForce G n irr (some du) = .ok f ∧ 0 < f := by
  refine ⟨_, contactForce_separated_int G irr du n hG h, ?_⟩
  have : ((-irr - du) / G) ^ n < 0 := hn.pow_neg (div_neg_of_neg_of_pos h hG)
  linarith

/-- C41 fails for even powers: a wheel above the rail is pulled down. -/
theorem C41_even_violated (G irr du : ℝ) (n : ℕ) (hn : Even n) (hG : 0 < G) (h : -irr - du < 0) :
    ∃ f, contactForce G n irr (some du) = .ok f ∧ f < 0 := by
  refine ⟨_, contactForce_separated_int G irr du n hG h, ?_⟩
  have : 0 < ((-irr - du) / G) ^ n := hn.pow_pos (div_neg_of_neg_of_pos h hG).ne
  linarith

/-! ### C42 -/

/-- C42: with all displacements and irregularities zero, the contact force under the static contact deformation balances
the static load of every wheel that is pressed onto the rail. -/
theorem C42_static_balance (G p load : ℝ) (hG : 0 < G) (hp : 0 < p) (h : load ≤ 0) :
    contactForce G p 0 (some (0 + staticDeformation G p load - 0)) = .ok (-load) := by
  rcases h.eq_or_lt with h | h
  · subst h
    simp [staticDeformation, npSign_zero, contactForce]
  · have h1 : staticDeformation G p load = -(G * (-load) ^ (1 / p)) := by
      unfold staticDeformation
      rw [npSign_of_neg h, abs_of_neg h]; ring
    have hpos : 0 < (-load) ^ (1 / p) := Real.rpow_pos_of_pos (by linarith) _
    rw [h1, contactForce_compressed G p 0 _ hG (by have := mul_pos hG hpos; linarith)]
    congr 1
    have h2 : (-0 - (0 + -(G * (-load) ^ (1 / p)) - 0)) / G = (-load) ^ (1 / p) := by
      field_simp; ring
    rw [h2, ← Real.rpow_mul (by linarith), one_div, inv_mul_cancel₀ hp.ne', Real.rpow_one]

example : contactForce 2 (3 / 2) 0 (some (0 + staticDeformation 2 (3 / 2) (-8) - 0)) = .ok 8 := by
  rw [C42_static_balance 2 (3 / 2) (-8) (by norm_num) (by norm_num) (by norm_num)]
  norm_num

section generic
variable {K : Type*} [Field K] [LinearOrder K] [IsStrictOrderedRing K]

/-! ### C43 -/

/-- Specification: all active dofs under the wheels, wheel by wheel. -/
def activeDofs (ws : List (WheelContact K × K)) : List ℕ :=
  ws.flatMap fun w => [0, 1, 2, (3 : Fin 4)].filterMap w.1.dofs

theorem wheelLoadWrites_keys (ws : List (WheelContact K × K)) : (wheelLoadWrites ws).map Prod.fst = activeDofs ws := by
  unfold wheelLoadWrites activeDofs
  induction ws with
  | nil => rfl
  | cons w ws ih =>
    rw [List.flatMap_cons, List.flatMap_cons, List.map_append, ih]
    congr 1
    have key : ∀ ks : List (Fin 4), (ks.flatMap (wheelDofWrite w)).map Prod.fst = ks.filterMap w.1.dofs := by
      intro ks
      induction ks with
      | nil => rfl
      | cons k ks ih2 =>
        rw [List.flatMap_cons, List.map_append, ih2, List.filterMap_cons]
        unfold wheelDofWrite
        cases w.1.dofs k <;> simp
    exact key [0, 1, 2, 3]

theorem mem_wheelLoadWrites (ws : List (WheelContact K × K)) (p : ℕ × K) :
    p ∈ wheelLoadWrites ws ↔ ∃ w ∈ ws, ∃ k, w.1.dofs k = some p.1 ∧ p.2 = w.1.shape k * w.2 := by
  unfold wheelLoadWrites
  simp only [List.mem_flatMap]
  constructor
  · rintro ⟨w, hw, k, _, hp⟩
    unfold wheelDofWrite at hp
    cases hd : w.1.dofs k with
    | none => rw [hd] at hp; simp at hp
    | some i =>
      rw [hd] at hp
      simp only [List.mem_singleton] at hp
      subst hp
      exact ⟨w, hw, k, hd, rfl⟩
  · rintro ⟨w, hw, k, hd, hp⟩
    refine ⟨w, hw, k, by fin_cases k <;> simp, ?_⟩
    unfold wheelDofWrite
    rw [hd]
    simp [← hp]

theorem nodup_unique {l : List (ℕ × K)} (h : (l.map Prod.fst).Nodup) {p q : ℕ × K} (hp : p ∈ l) (hq : q ∈ l)
    (he : p.1 = q.1) : p = q := by
  exact List.inj_on_of_nodup_map h hp hq he

/-- C43 as far as it holds: if no two wheels touch a common rail dof, each rail dof gets its share of the wheel load,
and a track dof away from the wheels keeps its load. Missing: wheels on the same or on adjacent elements,
`C43_violated`. -/
theorem C43_written_partial (F : ℕ → K) (ws : List (WheelContact K × K)) (h : (activeDofs ws).Nodup) :
    (∀ w ∈ ws, ∀ k i, w.1.dofs k = some i → setWheelLoads F ws i = w.1.shape k * w.2) ∧
    ∀ i, (∀ w ∈ ws, ∀ k, w.1.dofs k ≠ some i) → setWheelLoads F ws i = F i := by
  rw [← wheelLoadWrites_keys] at h
  constructor
  · intro w hw k i hk
    apply writes_eq_of_mem
    · intro q hq hqi
      have hp : (i, w.1.shape k * w.2) ∈ wheelLoadWrites ws := (mem_wheelLoadWrites _ _).2 ⟨w, hw, k, hk, rfl⟩
      have := nodup_unique h hq hp hqi
      rw [this]
    · exact ⟨(i, w.1.shape k * w.2), (mem_wheelLoadWrites _ _).2 ⟨w, hw, k, hk, rfl⟩, rfl⟩
  · intro i hi
    apply writes_eq_of_not_mem
    intro q hq hqi
    obtain ⟨w, hw, k, hk, _⟩ := (mem_wheelLoadWrites _ _).1 hq
    exact hi w hw k (by rw [hk, hqi])

/-- C43 as far as it holds: if no two wheels touch a common rail dof, the contact dofs of the wheels are distinct train
dofs, and the vertical dofs of the rail are active, then the vertical forces on the rail sum to minus the sum of the
forces added to the wheels. Missing: `C43_violated`. -/
theorem C43_action_reaction_partial (nt : ℕ) (F Ft : ℕ → K) (wheels : List (ℕ × WheelContact K × K))
    (h : (activeDofs (wheels.map fun w => (w.2.1, -w.2.2))).Nodup) (hd : (wheels.map Prod.fst).Nodup)
    (htrain : ∀ w ∈ wheels, nt ≤ w.1) (htrack : ∀ w ∈ wheels, ∀ k i, w.2.1.dofs k = some i → i < nt)
    (i0 i2 : ℕ × WheelContact K × K → ℕ)
    (h0 : ∀ w ∈ wheels, w.2.1.dofs 0 = some (i0 w)) (h2 : ∀ w ∈ wheels, w.2.1.dofs 2 = some (i2 w))
    (hshape : ∀ w ∈ wheels, w.2.1.shape 0 + w.2.1.shape 2 = 1) :
    let F' := updateContactForces nt F Ft wheels
    (∀ w ∈ wheels, F' w.1 = F w.1 + w.2.2) ∧
    (wheels.map fun w => F' (i0 w) + F' (i2 w)).sum = -(wheels.map fun w => F' w.1 - F w.1).sum := by
  intro F'
  have hw1 : ∀ w ∈ wheels, F' w.1 = F w.1 + w.2.2 := by
    intro w hw
    simp only [F', updateContactForces]
    rw [if_neg (by have := htrain w hw; omega)]
    unfold addAtDofs
    have hnd : (((wheels.map fun w => (w.1, w.2.2)).map fun p => (p.1, F p.1 + p.2)).map Prod.fst).Nodup := by
      simpa [List.map_map, Function.comp_def] using hd
    have hmem : (w.1, F w.1 + w.2.2) ∈ (wheels.map fun w => (w.1, w.2.2)).map fun p => (p.1, F p.1 + p.2) := by
      rw [List.map_map]
      exact List.mem_map.2 ⟨w, hw, rfl⟩
    apply writes_eq_of_mem
    · intro q hq hqi
      have := nodup_unique hnd hq hmem hqi
      rw [this]
    · exact ⟨_, hmem, rfl⟩
  refine ⟨hw1, ?_⟩
  have hw2 : ∀ w ∈ wheels, F' (i0 w) + F' (i2 w) = -w.2.2 := by
    intro w hw
    have hmem : (w.2.1, -w.2.2) ∈ wheels.map fun w => (w.2.1, -w.2.2) := List.mem_map.2 ⟨w, hw, rfl⟩
    have e := (C43_written_partial Ft (wheels.map fun w => (w.2.1, -w.2.2)) h).1 _ hmem
    simp only [F', updateContactForces]
    rw [if_pos (htrack w hw 0 _ (h0 w hw)), if_pos (htrack w hw 2 _ (h2 w hw)), e 0 _ (h0 w hw), e 2 _ (h2 w hw)]
    have := hshape w hw
    linear_combination (-w.2.2) * this
  have hw3 : ∀ w ∈ wheels, F' w.1 - F w.1 = w.2.2 := fun w hw => by rw [hw1 w hw]; ring
  rw [List.map_congr_left hw2, List.map_congr_left hw3]
  clear_value F'
  clear hw1 hw2 hw3 h hd htrain htrack h0 h2 hshape
  induction wheels with
  | nil => simp
  | cons w ws ih => simp only [List.map_cons, List.sum_cons, ih]; ring

/-- The vertical shape factors of the rail add up to one at every position. -/
theorem C43_shape_sum {phi l : K} (hphi : 1 + phi ≠ 0) (hl : l ≠ 0) (x : K) :
    yShape phi l x 0 + yShape phi l x 2 = 1 := by
  simp [yShape]
  field_simp
  ring

/-- A wheel at a quarter of an element without shear flexibility. -/
def exampleContact : WheelContact ℚ := ⟨![some 0, some 1, some 2, some 3], ![1, 0, 0, 0]⟩

example : (activeDofs [(exampleContact, (1 : ℚ))]).Nodup := by decide +kernel

/-- C43 fails for two wheels on the same rail element: only the load of the second arrives. -/
theorem C43_violated :
    let ws := [(exampleContact, (10 : ℚ)), (exampleContact, 5)]
    setWheelLoads (fun _ => 0) ws 0 + setWheelLoads (fun _ => 0) ws 2 = 5 := by
  decide +kernel

/-! ### C44 -/

theorem sum_writes (n : ℕ) (l : List (ℕ × K)) (h : (l.map Prod.fst).Nodup) (hlt : ∀ p ∈ l, p.1 < n) (u : ℕ → K) :
    ∑ i ∈ Finset.range n, writes (fun _ => 0) l i * u i = (l.map fun p => p.2 * u p.1).sum := by
  have hval : ∀ p ∈ l, writes (fun _ => (0 : K)) l p.1 = p.2 := by
    intro p hp
    apply writes_eq_of_mem
    · intro q hq hqi
      rw [nodup_unique h hq hp hqi]
    · exact ⟨p, hp, rfl⟩
  have h1 : ∑ i ∈ Finset.range n, writes (fun _ => (0 : K)) l i * u i =
      ∑ i ∈ (l.map Prod.fst).toFinset, writes (fun _ => (0 : K)) l i * u i := by
    symm
    apply Finset.sum_subset
    · intro i hi
      rw [List.mem_toFinset, List.mem_map] at hi
      obtain ⟨p, hp, rfl⟩ := hi
      exact Finset.mem_range.2 (hlt p hp)
    · intro i _ hi
      rw [List.mem_toFinset] at hi
      rw [writes_eq_of_not_mem]
      · simp
      · intro q hq hqi
        exact hi (List.mem_map.2 ⟨q, hq, hqi⟩)
  rw [h1, List.sum_toFinset _ h, List.map_map]
  congr 1
  apply List.map_congr_left
  intro p hp
  simp [hval p hp]

/-- C44 as far as it holds: if no two wheels touch a common rail dof, the work (power) of the rail forces over a
displacement (velocity) `u` of the track is the sum of wheel load times the displacement under the wheel. Missing:
wheels sharing rail dofs, where C43 fails. -/
theorem C44_work_partial (n : ℕ) (ws : List (WheelContact K × K)) (h : (activeDofs ws).Nodup)
    (hlt : ∀ i ∈ activeDofs ws, i < n) (u : ℕ → K) :
    ∑ i ∈ Finset.range n, setWheelLoads (fun _ => 0) ws i * u i = (ws.map fun w => w.2 * dispAtWheel u w.1).sum := by
  unfold setWheelLoads
  rw [← wheelLoadWrites_keys] at h
  rw [sum_writes n _ h]
  · clear h hlt
    unfold wheelLoadWrites
    induction ws with
    | nil => rfl
    | cons w ws ih =>
      rw [List.flatMap_cons, List.map_append, List.sum_append, ih, List.map_cons, List.sum_cons]
      congr 1
      unfold dispAtWheel
      rw [Fin.sum_univ_four]
      simp only [List.flatMap_cons, List.flatMap_nil, List.append_nil, List.map_append, List.sum_append]
      have e : ∀ k, ((wheelDofWrite w k).map fun p : ℕ × K => p.2 * u p.1).sum =
          w.2 * (dofDisp u (w.1.dofs k) * w.1.shape k) := by
        intro k
        unfold wheelDofWrite dofDisp
        cases w.1.dofs k with
        | none => simp
        | some i => simp; ring
      rw [e, e, e, e]
      ring
  · intro p hp
    apply hlt
    rw [← wheelLoadWrites_keys]
    exact List.mem_map.2 ⟨p, hp, rfl⟩

/-- C44 for a single wheel with its four dofs distinct. -/
theorem C44_work_single (n : ℕ) (w : WheelContact K) (f : K) (hinj : ∀ j k i, w.dofs j = some i → w.dofs k = some i → j = k)
    (hlt : ∀ k i, w.dofs k = some i → i < n) (u : ℕ → K) :
    ∑ i ∈ Finset.range n, setWheelLoads (fun _ => 0) [(w, f)] i * u i = f * dispAtWheel u w := by
  have := C44_work_partial n [(w, f)] (by
    unfold activeDofs
    simp only [List.flatMap_cons, List.flatMap_nil, List.append_nil]
    apply List.Nodup.filterMap
    · intro a b c ha hb
      exact hinj a b c ha hb
    · decide) (by
    intro i hi
    simp only [activeDofs, List.flatMap_cons, List.flatMap_nil, List.append_nil, List.mem_filterMap] at hi
    obtain ⟨k, _, hk⟩ := hi
    exact hlt k i hk) u
  simpa using this

/-- C44: a uniform vertical displacement of the rail is reported unchanged. -/
theorem C44_uniform {phi l : K} (hphi : 1 + phi ≠ 0) (hl : l ≠ 0) (x h : K) (u : ℕ → K) (i0 i1 i2 i3 : ℕ)
    (hu0 : u i0 = h) (hu2 : u i2 = h) (hu1 : u i1 = 0) (hu3 : u i3 = 0) :
    dispAtWheel u ⟨![some i0, some i1, some i2, some i3], yShape phi l x⟩ = h := by
  unfold dispAtWheel
  rw [Fin.sum_univ_four]
  simp only [Matrix.cons_val, dofDisp, hu0, hu1, hu2, hu3]
  have := C43_shape_sum hphi hl x
  linear_combination h * this

/-- C44: for a linear rail profile (a tilted straight rail) the displacement at the wheel is that of the profile. -/
theorem C44_tilted {phi l : K} (hphi : 1 + phi ≠ 0) (hl : l ≠ 0) (x a b : K) (u : ℕ → K) (i0 i1 i2 i3 : ℕ)
    (hu0 : u i0 = a) (hu2 : u i2 = a + b * l) (hu1 : u i1 = b) (hu3 : u i3 = b) :
    dispAtWheel u ⟨![some i0, some i1, some i2, some i3], yShape phi l x⟩ = a + b * x := by
  unfold dispAtWheel
  rw [Fin.sum_univ_four]
  simp only [Matrix.cons_val, dofDisp, hu0, hu1, hu2, hu3, yShape]
  field_simp
  ring

/-- C44 fails for two wheels on one rail element (at a third and two thirds of its length): the rail forces do half of the
work of the wheel loads over a uniform velocity of the rail. -/
theorem C44_violated :
    let ws : List (WheelContact ℚ × ℚ) := [(⟨![some 0, some 1, some 2, some 3], yShape 0 3 1⟩, -6),
      (⟨![some 0, some 1, some 2, some 3], yShape 0 3 2⟩, -6)]
    let u : ℕ → ℚ := fun i => if i = 0 ∨ i = 2 then 1 else 0
    ∑ i ∈ Finset.range 4, setWheelLoads (fun _ => 0) ws i * u i = -6 ∧
      (ws.map fun w => w.2 * dispAtWheel u w.1).sum = -12 := by
  decide +kernel

/-! ### C45 -/

/-- C45: diagonal blocks, zero elsewhere; concatenated right hand side. -/
theorem C45_direct_sum (nt nv : ℕ) (track train : ℕ → ℕ → K) (F Ft Fv : ℕ → K) :
    let A := combineMatrices nt nv track train
    let R := combineRhs nt nv F Ft Fv
    (∀ i < nt, ∀ j < nt, A i j = track i j) ∧ (∀ i < nv, ∀ j < nv, A (nt + i) (nt + j) = train i j) ∧
    (∀ i < nt, ∀ j < nv, A i (nt + j) = 0 ∧ A (nt + j) i = 0) ∧
    (∀ i < nt, R i = Ft i) ∧ (∀ i < nv, R (nt + i) = Fv i) := by
  intro A R
  refine ⟨?_, ?_, ?_, ?_, ?_⟩
  · intro i hi j hj
    simp only [A, combineMatrices, assignBlock]
    rw [if_neg (by omega), if_pos (by omega)]
    simp
  · intro i hi j hj
    simp only [A, combineMatrices, assignBlock]
    rw [if_pos (by omega)]
    simp
  · intro i hi j hj
    simp only [A, combineMatrices, assignBlock]
    refine ⟨?_, ?_⟩
    · rw [if_neg (by omega), if_neg (by omega)]
    · rw [if_neg (by omega), if_neg (by omega)]
  · intro i hi
    simp only [R, combineRhs]
    rw [if_neg (by omega), if_pos hi]
  · intro i hi
    simp only [R, combineRhs]
    rw [if_pos (by omega)]
    simp

/-- C45: the quadratic form of the coupled system is the sum of those of track and train. -/
theorem C45_energy (nt nv : ℕ) (track train : ℕ → ℕ → K) (u : ℕ → K) :
    matEnergy (nt + nv) (combineMatrices nt nv track train) u =
      matEnergy nt track u + matEnergy nv train fun i => u (nt + i) := by
  obtain ⟨h1, h2, h3, _⟩ := C45_direct_sum nt nv track train (fun _ => 0) (fun _ => 0) (fun _ => 0)
  unfold matEnergy matForce
  rw [Finset.sum_range_add]
  congr 1
  · apply Finset.sum_congr rfl
    intro i hi
    rw [Finset.mem_range] at hi
    rw [Finset.sum_range_add]
    have : ∑ x ∈ Finset.range nv, combineMatrices nt nv track train i (nt + x) * u (nt + x) = 0 := by
      apply Finset.sum_eq_zero
      intro j hj
      rw [(h3 i hi j (Finset.mem_range.1 hj)).1, zero_mul]
    rw [this, add_zero]
    congr 1
    apply Finset.sum_congr rfl
    intro j hj
    rw [h1 i hi j (Finset.mem_range.1 hj)]
  · apply Finset.sum_congr rfl
    intro i hi
    rw [Finset.mem_range] at hi
    rw [Finset.sum_range_add]
    have : ∑ x ∈ Finset.range nt, combineMatrices nt nv track train (nt + i) x * u x = 0 := by
      apply Finset.sum_eq_zero
      intro j hj
      rw [(h3 j (Finset.mem_range.1 hj) i hi).2, zero_mul]
    rw [this, zero_add]
    congr 1
    apply Finset.sum_congr rfl
    intro j hj
    rw [h2 i hi j (Finset.mem_range.1 hj)]

/-- C45: shifted train dofs are not track dofs, stay below the total and stay distinct. -/
theorem C45_shift (nt nv : ℕ) (idx : Fin 3 → Option ℕ) (k : Fin 3) (i : ℕ) (h : shiftDofs nt idx k = some i)
    (hlt : ∀ k j, idx k = some j → j < nv) : nt ≤ i ∧ i < nt + nv ∧ idx k = some (i - nt) := by
  unfold shiftDofs at h
  cases hk : idx k with
  | none => rw [hk] at h; simp at h
  | some j =>
    rw [hk] at h
    simp only [Option.map_some, Option.some.injEq] at h
    have := hlt k j hk
    refine ⟨by omega, by omega, ?_⟩
    congr 1; omega

/-! ### C46 -/

theorem listMin_lt_iff (a : K) (l : List K) (c : K) : listMin a l < c ↔ ∃ x ∈ a :: l, x < c := by
  unfold listMin
  induction l generalizing a with
  | nil => simp
  | cons b l ih =>
    rw [List.foldl_cons, ih]
    simp [or_assoc]

theorem lt_listMax_iff (a : K) (l : List K) (c : K) : c < listMax a l ↔ ∃ x ∈ a :: l, c < x := by
  unfold listMax
  induction l generalizing a with
  | nil => simp
  | cons b l ih =>
    rw [List.foldl_cons, ih]
    simp [or_assoc]

theorem listMin_le_listMax (a : K) (l : List K) : listMin a l ≤ listMax a l := by
  have h1 : listMin a l ≤ a := by
    by_contra h
    exact h (le_of_not_gt fun hc => absurd ((listMin_lt_iff a l (listMin a l)).2 ⟨a, by simp, hc⟩) (lt_irrefl _))
  have h2 : a ≤ listMax a l := by
    by_contra h
    exact h (le_of_not_gt fun hc => absurd ((lt_listMax_iff a l (listMax a l)).2 ⟨a, by simp, hc⟩) (lt_irrefl _))
  exact h1.trans h2

/-- C46: the check raises exactly if at some time some wheel is more than the tolerance before every rail node or more
than the tolerance beyond every rail node. -/
theorem C46_check (x : K) (xs : List K) (wheels : List (K × List K)) :
    checkTrainPosition x xs wheels = .error .valueError ↔
      ∃ w ∈ wheels, ∃ d ∈ w.1 :: w.2, (∀ r ∈ x :: xs, d < r - 1 / 8388608) ∨ ∀ r ∈ x :: xs, r + 1 / 8388608 < d := by
  have hlo : ∀ d : K, d < listMin x xs - float32Eps ↔ ∀ r ∈ x :: xs, d < r - 1 / 8388608 := by
    intro d
    have h1 := (listMin_lt_iff x xs (d + 1 / 8388608)).not
    constructor
    · intro h r hr
      by_contra hc
      have : r ≤ d + 1 / 8388608 := by linarith [not_lt.1 hc]
      have h2 : listMin x xs ≤ r := le_of_not_gt fun hc' =>
        absurd ((listMin_lt_iff x xs (listMin x xs)).2 ⟨r, hr, hc'⟩) (lt_irrefl _)
      unfold float32Eps at h
      linarith
    · intro h
      by_contra hc
      unfold float32Eps at hc
      have hc' : listMin x xs ≤ d + 1 / 8388608 := by linarith [not_lt.1 hc]
      -- the minimum is attained
      have hatt : ∃ r ∈ x :: xs, r = listMin x xs := by
        clear h1 h hc hc'
        unfold listMin
        induction xs generalizing x with
        | nil => exact ⟨x, by simp, rfl⟩
        | cons b l ih =>
          obtain ⟨r, hr, he⟩ := ih (min x b)
          rw [List.foldl_cons]
          rcases List.mem_cons.1 hr with rfl | hr
          · rcases min_choice x b with hm | hm
            · exact ⟨x, by simp, by rw [← he, hm]⟩
            · exact ⟨b, by simp, by rw [← he, hm]⟩
          · exact ⟨r, by simp [hr], he⟩
      obtain ⟨r, hr, he⟩ := hatt
      have := h r hr
      linarith
  have hhi : ∀ d : K, d > listMax x xs + float32Eps ↔ ∀ r ∈ x :: xs, r + 1 / 8388608 < d := by
    intro d
    constructor
    · intro h r hr
      have h2 : r ≤ listMax x xs := le_of_not_gt fun hc' =>
        absurd ((lt_listMax_iff x xs (listMax x xs)).2 ⟨r, hr, hc'⟩) (lt_irrefl _)
      unfold float32Eps at h
      linarith
    · intro h
      have hatt : ∃ r ∈ x :: xs, r = listMax x xs := by
        clear h hlo
        unfold listMax
        induction xs generalizing x with
        | nil => exact ⟨x, by simp, rfl⟩
        | cons b l ih =>
          obtain ⟨r, hr, he⟩ := ih (max x b)
          rw [List.foldl_cons]
          rcases List.mem_cons.1 hr with rfl | hr
          · rcases max_choice x b with hm | hm
            · exact ⟨x, by simp, by rw [← he, hm]⟩
            · exact ⟨b, by simp, by rw [← he, hm]⟩
          · exact ⟨r, by simp [hr], he⟩
      obtain ⟨r, hr, he⟩ := hatt
      have := h r hr
      unfold float32Eps
      linarith
  have key : checkTrainPosition x xs wheels = .error .valueError ↔
      (wheels.any fun w => decide (listMin w.1 w.2 < listMin x xs - float32Eps ∨ listMax w.1 w.2 < listMin x xs - float32Eps)) = true ∨
      (wheels.any fun w => decide (listMin w.1 w.2 > listMax x xs + float32Eps ∨ listMax w.1 w.2 > listMax x xs + float32Eps)) = true := by
    unfold checkTrainPosition
    simp only
    split_ifs with h1 h2
    · exact ⟨fun _ => Or.inl h1, fun _ => rfl⟩
    · exact ⟨fun _ => Or.inr h2, fun _ => rfl⟩
    · simp only [reduceCtorEq, false_iff, not_or]
      exact ⟨h1, h2⟩
  rw [key]
  simp only [List.any_eq_true, decide_eq_true_eq]
  constructor
  · rintro (⟨w, hw, h⟩ | ⟨w, hw, h⟩)
    · have h' : listMin w.1 w.2 < listMin x xs - float32Eps := by
        rcases h with h | h
        · exact h
        · exact (listMin_le_listMax _ _).trans_lt h
      obtain ⟨d, hd, hlt⟩ := (listMin_lt_iff _ _ _).1 h'
      exact ⟨w, hw, d, hd, Or.inl ((hlo d).1 hlt)⟩
    · have h' : listMax x xs + float32Eps < listMax w.1 w.2 := by
        rcases h with h | h
        · exact lt_of_lt_of_le h (listMin_le_listMax _ _)
        · exact h
      obtain ⟨d, hd, hlt⟩ := (lt_listMax_iff _ _ _).1 h'
      exact ⟨w, hw, d, hd, Or.inr ((hhi d).1 hlt)⟩
  · rintro ⟨w, hw, d, hd, h | h⟩
    · exact Or.inl ⟨w, hw, Or.inl ((listMin_lt_iff _ _ _).2 ⟨d, hd, (hlo d).2 h⟩)⟩
    · exact Or.inr ⟨w, hw, Or.inr ((lt_listMax_iff _ _ _).2 ⟨d, hd, (hhi d).2 h⟩)⟩

example : checkTrainPosition (0 : ℚ) [1, 2] [(1, [2]), (0, [1])] = .ok () ∧
    checkTrainPosition (0 : ℚ) [1, 2] [(1, [2, 3])] = .error .valueError := by
  constructor <;> decide +kernel

/-! ### C77 -/

/-- C77: when the force on the wheel dof is its weight and the contact force `f` is added, the reported interaction force
is `-f`. -/
theorem C77_interaction (nt : ℕ) (F Ft : ℕ → K) (wheels : List (ℕ × WheelContact K × K)) (hd : (wheels.map Prod.fst).Nodup)
    (htrain : ∀ w ∈ wheels, nt ≤ w.1) (g : K) (mass : ℕ → K) (hF : ∀ w ∈ wheels, F w.1 = -mass w.1 * g) :
    ∀ w ∈ wheels, interactionForce g (mass w.1) (updateContactForces nt F Ft wheels) w.1 = -w.2.2 := by
  intro w hw
  have h : updateContactForces nt F Ft wheels w.1 = F w.1 + w.2.2 := by
    simp only [updateContactForces]
    rw [if_neg (by have := htrain w hw; omega)]
    unfold addAtDofs
    have hnd : (((wheels.map fun w => (w.1, w.2.2)).map fun p => (p.1, F p.1 + p.2)).map Prod.fst).Nodup := by
      simpa [List.map_map, Function.comp_def] using hd
    have hmem : (w.1, F w.1 + w.2.2) ∈ (wheels.map fun w => (w.1, w.2.2)).map fun p => (p.1, F p.1 + p.2) := by
      rw [List.map_map]
      exact List.mem_map.2 ⟨w, hw, rfl⟩
    apply writes_eq_of_mem
    · intro q hq hqi
      rw [nodup_unique hnd hq hmem hqi]
    · exact ⟨_, hmem, rfl⟩
  unfold interactionForce
  rw [h, hF w hw]
  ring

example : ([(10, exampleContact, (3 : ℚ)), (11, exampleContact, 4)].map Prod.fst).Nodup := by decide

end generic

/-! ### C47 -/

/-- C47: after every number `k + 1` of initialisations (with arbitrary newly created loads each time, `news i`), the track
has its other parts in unchanged order followed by exactly the loads created last. -/
theorem C47_one_load_per_wheel (parts : List TrackPart) (news : ℕ → List ℕ) (k : ℕ) :
    let after := (List.range (k + 1)).foldl (fun ps i => setWheelLoadParts (news i) ps) parts
    after.filter (fun p => !p.isMoving) = parts.filter (fun p => !p.isMoving) ∧
      after.filter TrackPart.isMoving = (news k).map .moving ∧
      after = (parts.filter fun p => !p.isMoving) ++ (news k).map .moving := by
  have hnew : ∀ l : List ℕ, (l.map TrackPart.moving).filter (fun p => !p.isMoving) = [] := by
    intro l
    induction l <;> simp_all [TrackPart.isMoving]
  have hnew2 : ∀ l : List ℕ, (l.map TrackPart.moving).filter TrackPart.isMoving = l.map TrackPart.moving := by
    intro l
    induction l <;> simp_all [TrackPart.isMoving]
  have key : ∀ k, (List.range (k + 1)).foldl (fun ps i => setWheelLoadParts (news i) ps) parts =
      (parts.filter fun p => !p.isMoving) ++ (news k).map .moving := by
    intro k
    induction k with
    | zero => rfl
    | succ k ih =>
      rw [List.range_succ, List.foldl_append, ih]
      simp only [List.foldl_cons, List.foldl_nil, setWheelLoadParts, List.filter_append, hnew, List.append_nil,
        List.filter_filter, Bool.and_self]
  intro after
  have ha : after = (parts.filter fun p => !p.isMoving) ++ (news k).map .moving := key k
  refine ⟨?_, ?_, ha⟩
  · rw [ha, List.filter_append, hnew, List.append_nil, List.filter_filter]
    simp
  · rw [ha, List.filter_append, hnew2, List.filter_filter]
    simp

example : setWheelLoadParts [7, 8] [.other 1, .moving 2, .other 3] = [.other 1, .other 3, .moving 7, .moving 8] := by decide

/-! ### C80 -/

theorem cumDistances_horizontal (x0 : ℝ) (xs : List ℝ) (y z : ℝ) (hmono : (x0 :: xs).Pairwise (· ≤ ·)) (k : ℕ)
    (hk : k < (x0 :: xs).length) :
    (cumDistances ((x0 :: xs).map fun x => (x, y, z))).getD k 0 = (x0 :: xs).getD k 0 - x0 := by
  have key : ∀ (xs : List ℝ) (x0 a : ℝ), (x0 :: xs).Pairwise (· ≤ ·) → ∀ k < (x0 :: xs).length,
      (runningSums a (segmentLengths ((x0 :: xs).map fun x => (x, y, z)))).getD k 0 = (x0 :: xs).getD k 0 - x0 + a := by
    intro xs
    induction xs with
    | nil =>
      intro x0 a _ k hk
      have : k = 0 := by simpa using hk
      subst this
      simp [segmentLengths, runningSums]
    | cons x1 xs ih =>
      intro x0 a h k hk
      rw [List.pairwise_cons] at h
      have h01 : x0 ≤ x1 := h.1 x1 (by simp)
      have hd : distance3 (x0, y, z) (x1, y, z) = x1 - x0 := by
        unfold distance3
        simp only [sub_self]
        rw [show (x0 - x1) ^ 2 + 0 ^ 2 + 0 ^ 2 = (x1 - x0) ^ 2 by ring, Real.sqrt_sq (by linarith)]
      simp only [List.map_cons, segmentLengths, runningSums, hd]
      cases k with
      | zero => simp
      | succ k =>
        simp only [List.getD_cons_succ]
        have := ih x1 (a + (x1 - x0)) h.2 k (by simpa using hk)
        simp only [List.map_cons] at this
        rw [this]
        ring
  have := key xs x0 0 hmono k hk
  simpa [cumDistances] using this

/-- C80 as far as it holds: on a rail at level zero, for contact elements that never go back, the local distance of a
wheel is its position minus that of the first node of the contact element. Missing: a rail at another level,
`C80_violated`. -/
theorem C80_local_distance_partial (x0 : ℝ) (xs dist : List ℝ) (hlen : dist.length = (x0 :: xs).length)
    (hmono : (x0 :: xs).Pairwise (· ≤ ·)) (k : ℕ) (hk : k < dist.length) :
    (wheelNodeDistances ((x0 :: xs).map fun x => (x, 0, 0)) dist).getD k 0 =
      dist.getD k 0 - (x0 :: xs).getD k 0 := by
  have hc := cumDistances_horizontal x0 xs 0 0 hmono k (by omega)
  have hclen : (cumDistances ((x0 :: xs).map fun x => (x, (0 : ℝ), (0 : ℝ)))).length = (x0 :: xs).length := by
    unfold cumDistances
    rw [runningSums_length]
    have : ∀ (l : List (ℝ × ℝ × ℝ)) (a : ℝ × ℝ × ℝ), (segmentLengths (a :: l)).length = l.length := by
      intro l
      induction l with
      | nil => intro a; rfl
      | cons b l ih => intro a; simp [segmentLengths, ih]
    rw [List.map_cons, this]
    simp
  have hd0 : distance3 (0, 0, 0) (x0, 0, 0) * npSign x0 = x0 := by
    unfold distance3
    simp only [sub_self]
    rw [show ((0 : ℝ) - x0) ^ 2 + 0 ^ 2 + 0 ^ 2 = x0 ^ 2 by ring, Real.sqrt_sq_eq_abs]
    rcases lt_trichotomy x0 0 with h | h | h
    · rw [npSign_of_neg h, abs_of_neg h]; ring
    · subst h; simp
    · rw [npSign_of_pos h, abs_of_pos h]; ring
  unfold wheelNodeDistances
  simp only [List.map_cons, List.headD_cons]
  rw [hd0]
  rw [List.map_cons] at hc hclen
  rw [List.getD_eq_getElem _ _ (by rw [List.length_zipWith]; omega), List.getElem_zipWith,
    ← List.getD_eq_getElem _ 0, ← List.getD_eq_getElem _ 0, hc]
  ring

example : ([0, 0, (1 : ℝ)]).Pairwise (· ≤ ·) := by simp

/-- C80 fails for a rail at level 4: a wheel at 3, at the first node of an element that starts at 3, is placed at
local distance -2. -/
theorem C80_violated : wheelNodeDistances [((3 : ℝ), 4, 0)] [3] = [-2] := by
  have h : distance3 (0, 0, 0) (3, 4, 0) = 5 := by
    unfold distance3
    rw [show ((0 : ℝ) - 3) ^ 2 + (0 - 4) ^ 2 + (0 - 0) ^ 2 = 5 ^ 2 by norm_num, Real.sqrt_sq (by norm_num)]
  have h2 : npSign 3 = 1 := npSign_of_pos (by norm_num)
  simp [wheelNodeDistances, cumDistances, segmentLengths, runningSums, h, h2]
  norm_num

end Rose
