import Verif.Model.Swarm
import Mathlib.Tactic.Linarith
import Mathlib.Tactic.NormNum
import Mathlib.Tactic.Ring
import Mathlib.Algebra.Order.Ring.Rat

set_option linter.unusedSectionVars false

namespace Rose

variable {K : Type*} [Field K] [LinearOrder K] [IsStrictOrderedRing K] {d : ℕ}

/-! ### Structure of an iteration -/

theorem evaluateAll_eq (cost : (Fin d → K) → K) (ps : List (Particle K d)) : ∀ g,
    evaluateAll cost g ps = ((ps.map (Particle.evaluate cost)).foldl Group.update g, ps.map (Particle.evaluate cost)) := by
  induction ps with
  | nil => intro g; rfl
  | cons p ps ih => intro g; simp only [evaluateAll, ih, List.map_cons, List.foldl_cons]

@[simp] theorem evaluate_position (cost : (Fin d → K) → K) (p : Particle K d) : (p.evaluate cost).position = p.position := by
  unfold Particle.evaluate; split_ifs <;> rfl

@[simp] theorem evaluate_err (cost : (Fin d → K) → K) (p : Particle K d) : (p.evaluate cost).err = cost p.position := by
  unfold Particle.evaluate; split_ifs <;> rfl

@[simp] theorem evaluate_seen (cost : (Fin d → K) → K) (p : Particle K d) : (p.evaluate cost).seen = p.seen ++ [p.position] := by
  unfold Particle.evaluate; split_ifs <;> rfl

theorem pso_length (cost : (Fin d → K) → K) (x0 : Fin d → K) (bounds : Fin d → K × K) (m : ℕ) (v0 : ℕ → Fin d → K)
    (r : ℕ → ℕ → Fin d → K × K) (n : ℕ) : (pso cost x0 bounds m v0 r n).particles.length = m := by
  induction n with
  | zero => simp [pso]
  | succ n ih => simp [pso, Swarm.step, evaluateAll_eq, ih]

theorem foldl_update_evaluated (ps : List (Particle K d)) : ∀ g : Group K d,
    (ps.foldl Group.update g).evaluated = g.evaluated ++ ps.map Particle.position := by
  induction ps with
  | nil => intro g; simp
  | cons p ps ih =>
    intro g
    rw [List.foldl_cons, ih]
    have : (g.update p).evaluated = g.evaluated ++ [p.position] := by unfold Group.update; split_ifs <;> rfl
    rw [this]; simp

/-- The positions evaluated in an iteration are those of the particles at its beginning. -/
theorem step_evaluated (cost : (Fin d → K) → K) (bounds : Fin d → K × K) (r : ℕ → Fin d → K × K) (s : Swarm K d) :
    (s.step cost bounds r).group.evaluated = s.group.evaluated ++ s.particles.map Particle.position := by
  simp only [Swarm.step, evaluateAll_eq, foldl_update_evaluated, List.map_map]
  congr 1
  apply List.map_congr_left
  intro p _; simp

/-! ### The best of the group -/

/-- What is known of the best of a group. -/
def GroupInv (cost : (Fin d → K) → K) (g : Group K d) : Prop :=
  (g.evaluated = [] → g = Group.new) ∧
  (g.evaluated ≠ [] → g.posBest.isSome) ∧
  ((∀ q ∈ g.evaluated, cost q ≠ -1) → g.evaluated ≠ [] → ∃ p, p ∈ g.evaluated ∧ g.posBest = some p ∧ g.errBest = cost p ∧
    ∀ q ∈ g.evaluated, cost p ≤ cost q)

theorem groupInv_new (cost : (Fin d → K) → K) : GroupInv cost (Group.new : Group K d) :=
  ⟨fun _ => rfl, fun h => absurd rfl h, fun _ h => absurd rfl h⟩

theorem groupInv_update (cost : (Fin d → K) → K) (g : Group K d) (p : Particle K d) (hp : p.err = cost p.position)
    (h : GroupInv cost g) : GroupInv cost (g.update p) := by
  obtain ⟨h1, h2, h3⟩ := h
  unfold Group.update
  by_cases hc : p.err < g.errBest ∨ g.errBest = -1
  · rw [if_pos hc]
    refine ⟨fun h => by simp at h, fun _ => rfl, ?_⟩
    intro hne _
    refine ⟨p.position, by simp, rfl, hp, ?_⟩
    intro q hq
    simp only [List.mem_append, List.mem_singleton] at hq
    rcases hq with hq | rfl
    · have hg : g.evaluated ≠ [] := List.ne_nil_of_mem hq
      obtain ⟨b, hb, -, he, hmin⟩ := h3 (fun q hq => hne q (by simp [hq])) hg
      rcases hc with hc | hc
      · rw [← hp]; exact (hc.le.trans (he ▸ hmin q hq))
      · exact absurd (he ▸ hc) (hne b (by simp [hb]))
    · exact le_rfl
  · rw [if_neg hc]
    push Not at hc
    have hg : g.evaluated ≠ [] := by
      intro h0
      rw [h1 h0] at hc
      exact hc.2 rfl
    refine ⟨fun h => by simp at h, fun _ => h2 hg, ?_⟩
    intro hne _
    obtain ⟨b, hb, hs, he, hmin⟩ := h3 (fun q hq => hne q (by simp [hq])) hg
    refine ⟨b, by simp [hb], hs, he, ?_⟩
    intro q hq
    simp only [List.mem_append, List.mem_singleton] at hq
    rcases hq with hq | rfl
    · exact hmin q hq
    · rw [← hp, ← he]; exact hc.1

theorem groupInv_foldl (cost : (Fin d → K) → K) (ps : List (Particle K d)) : ∀ g : Group K d,
    (∀ p ∈ ps, p.err = cost p.position) → GroupInv cost g → GroupInv cost (ps.foldl Group.update g) := by
  induction ps with
  | nil => intro g _ h; exact h
  | cons p ps ih =>
    intro g hp h
    exact ih _ (fun q hq => hp q (by simp [hq])) (groupInv_update cost g p (hp p (by simp)) h)

theorem groupInv_step (cost : (Fin d → K) → K) (bounds : Fin d → K × K) (r : ℕ → Fin d → K × K) (s : Swarm K d)
    (h : GroupInv cost s.group) : GroupInv cost (s.step cost bounds r).group := by
  simp only [Swarm.step, evaluateAll_eq]
  refine groupInv_foldl cost _ _ ?_ h
  intro p hp
  rw [List.mem_map] at hp
  obtain ⟨q, -, rfl⟩ := hp
  simp

theorem groupInv_pso (cost : (Fin d → K) → K) (x0 : Fin d → K) (bounds : Fin d → K × K) (m : ℕ) (v0 : ℕ → Fin d → K)
    (r : ℕ → ℕ → Fin d → K × K) (n : ℕ) : GroupInv cost (pso cost x0 bounds m v0 r n).group := by
  induction n with
  | zero => exact groupInv_new cost
  | succ n ih => exact groupInv_step cost bounds _ _ ih

theorem evaluated_length (cost : (Fin d → K) → K) (x0 : Fin d → K) (bounds : Fin d → K × K) (m : ℕ) (v0 : ℕ → Fin d → K)
    (r : ℕ → ℕ → Fin d → K × K) (n : ℕ) : (pso cost x0 bounds m v0 r n).group.evaluated.length = n * m := by
  induction n with
  | zero => simp [pso, Group.new]
  | succ n ih => rw [pso, step_evaluated, List.length_append, ih, List.length_map, pso_length]; ring

/-- With particles, the group has a best position after every iteration. -/
theorem step_posBest_some (cost : (Fin d → K) → K) (bounds : Fin d → K × K) (r : ℕ → Fin d → K × K) (s : Swarm K d)
    (h : GroupInv cost s.group) (hp : s.particles ≠ []) : ∃ g, (s.step cost bounds r).group.posBest = some g := by
  have h2 := (groupInv_step cost bounds r s h).2.1
  rw [step_evaluated] at h2
  exact Option.isSome_iff_exists.1 (h2 (by simp [hp]))

/-- The `j`-th particle after an iteration. -/
theorem step_particle (cost : (Fin d → K) → K) (bounds : Fin d → K × K) (r : ℕ → Fin d → K × K) (s : Swarm K d)
    (h : GroupInv cost s.group) (j : ℕ) (p : Particle K d) (hj : (s.step cost bounds r).particles[j]? = some p) :
    ∃ q g, s.particles[j]? = some q ∧ (s.step cost bounds r).group.posBest = some g ∧
      p = ((q.evaluate cost).updateVelocity g (r j)).updatePosition bounds := by
  have hne : s.particles ≠ [] := by
    intro h0
    simp [Swarm.step, evaluateAll_eq, h0] at hj
  obtain ⟨g, hg⟩ := step_posBest_some cost bounds r s h hne
  have hg' := hg
  simp only [Swarm.step, evaluateAll_eq] at hj hg'
  simp only [hg', List.getElem?_mapIdx, List.getElem?_map, Option.map_map, Option.map_eq_some_iff] at hj
  obtain ⟨q, hq, rfl⟩ := hj
  exact ⟨q, g, hq, hg, rfl⟩

/-! ### C69: bounds -/

/-- Within the bounds. -/
def InBounds (bounds : Fin d → K × K) (x : Fin d → K) : Prop := ∀ i, (bounds i).1 ≤ x i ∧ x i ≤ (bounds i).2

theorem clamp_mem (lo hi x : K) (h : lo ≤ hi) : lo ≤ clamp lo hi x ∧ clamp lo hi x ≤ hi := by
  unfold clamp
  simp only
  split_ifs with h1 h2 h2
  · exact ⟨le_rfl, h⟩
  · exact ⟨h, le_rfl⟩
  · exact ⟨le_rfl, h⟩
  · exact ⟨not_lt.1 h2, not_lt.1 h1⟩

/-- **C69** For every cost function, all bounds with minimum below maximum, all random draws, any start: after every iteration every
particle is within the bounds. -/
theorem C69_in_bounds (cost : (Fin d → K) → K) (x0 : Fin d → K) (bounds : Fin d → K × K) (hb : ∀ i, (bounds i).1 ≤ (bounds i).2)
    (m : ℕ) (v0 : ℕ → Fin d → K) (r : ℕ → ℕ → Fin d → K × K) (n : ℕ) (p : Particle K d)
    (hp : p ∈ (pso cost x0 bounds m v0 r (n + 1)).particles) : InBounds bounds p.position := by
  obtain ⟨j, hj⟩ := List.mem_iff_getElem?.1 hp
  obtain ⟨q, g, -, -, rfl⟩ := step_particle cost bounds (r n) _ (groupInv_pso cost x0 bounds m v0 r n) j p hj
  intro i
  exact clamp_mem _ _ _ (hb i)

/-- **C69, evaluations** From a start within the bounds the cost function is never evaluated outside the bounds. -/
theorem C69_evaluations (cost : (Fin d → K) → K) (x0 : Fin d → K) (bounds : Fin d → K × K) (hb : ∀ i, (bounds i).1 ≤ (bounds i).2)
    (hx : InBounds bounds x0) (m : ℕ) (v0 : ℕ → Fin d → K) (r : ℕ → ℕ → Fin d → K × K) (n : ℕ) :
    ∀ q ∈ (pso cost x0 bounds m v0 r n).group.evaluated, InBounds bounds q := by
  induction n with
  | zero => intro q hq; simp [pso, Group.new] at hq
  | succ n ih =>
    intro q hq
    rw [pso, step_evaluated, List.mem_append] at hq
    rcases hq with hq | hq
    · exact ih q hq
    · rw [List.mem_map] at hq
      obtain ⟨p, hp, rfl⟩ := hq
      cases n with
      | zero =>
        simp only [pso, List.mem_map] at hp
        obtain ⟨j, -, rfl⟩ := hp
        exact hx
      | succ k => exact C69_in_bounds cost x0 bounds hb m v0 r k p hp

theorem clamp_nearest (lo hi x y : K) (hy : lo ≤ y ∧ y ≤ hi) : |clamp lo hi x - x| ≤ |y - x| := by
  obtain ⟨h1, h2⟩ := hy
  unfold clamp
  simp only
  split_ifs with h3 h4 h4
  · exact absurd (le_trans h1 h2) (not_le.2 h4)
  · rw [abs_of_nonpos (by linarith), abs_of_nonpos (by linarith)]; linarith
  · rw [abs_of_nonneg (by linarith), abs_of_nonneg (by linarith)]; linarith
  · simp

/-- **C69, movement** In every iteration each particle keeps its place in the swarm and moves, in each dimension, to the point within the
bounds that is nearest to its position plus its velocity. -/
theorem C69_moves (cost : (Fin d → K) → K) (x0 : Fin d → K) (bounds : Fin d → K × K) (m : ℕ) (v0 : ℕ → Fin d → K)
    (r : ℕ → ℕ → Fin d → K × K) (n j : ℕ) (p : Particle K d) (hp : (pso cost x0 bounds m v0 r (n + 1)).particles[j]? = some p) :
    ∃ q, (pso cost x0 bounds m v0 r n).particles[j]? = some q ∧
      ∀ i y, (bounds i).1 ≤ y ∧ y ≤ (bounds i).2 →
        |p.position i - (q.position i + p.velocity i)| ≤ |y - (q.position i + p.velocity i)| := by
  obtain ⟨q, g, hq, -, rfl⟩ := step_particle cost bounds (r n) _ (groupInv_pso cost x0 bounds m v0 r n) j p hp
  refine ⟨q, hq, fun i y hy => ?_⟩
  have := clamp_nearest (bounds i).1 (bounds i).2
    (((q.evaluate cost).updateVelocity g (r n j)).position i + ((q.evaluate cost).updateVelocity g (r n j)).velocity i) y hy
  have e : ((q.evaluate cost).updateVelocity g (r n j)).position = q.position := by
    show (q.evaluate cost).position = _
    exact evaluate_position cost q
  rw [e] at this
  simp only [Particle.updatePosition, e]
  exact this

/-! ### C70: the best point -/

/-- **C70, the part that holds** If no evaluated cost is -1 (e.g. for a non-negative cost): the printed position is one of the
`n * m` evaluated ones, the printed error is its cost, and no evaluated position has a smaller one. -/
theorem C70_best_partial (cost : (Fin d → K) → K) (x0 : Fin d → K) (bounds : Fin d → K × K) (m : ℕ) (v0 : ℕ → Fin d → K)
    (r : ℕ → ℕ → Fin d → K × K) (n : ℕ) (hn : 1 ≤ n) (hm : 1 ≤ m)
    (hc : ∀ q ∈ (pso cost x0 bounds m v0 r n).group.evaluated, cost q ≠ -1) :
    ∃ p, (pso cost x0 bounds m v0 r n).group.posBest = some p ∧ (pso cost x0 bounds m v0 r n).group.errBest = cost p ∧
      p ∈ (pso cost x0 bounds m v0 r n).group.evaluated ∧
      (∀ q ∈ (pso cost x0 bounds m v0 r n).group.evaluated, cost p ≤ cost q) ∧
      (pso cost x0 bounds m v0 r n).group.evaluated.length = n * m := by
  have hl := evaluated_length cost x0 bounds m v0 r n
  have hne : (pso cost x0 bounds m v0 r n).group.evaluated ≠ [] := by
    intro h0
    rw [h0] at hl
    have : 1 ≤ n * m := Nat.one_le_iff_ne_zero.2 (by positivity)
    simp at hl
    omega
  obtain ⟨p, h1, h2, h3, h4⟩ := (groupInv_pso cost x0 bounds m v0 r n).2.2 hc hne
  exact ⟨p, h2, h3, h1, h4, hl⟩

/-- **C70, start** In particular the result is never worse than the start. -/
theorem C70_start_partial (cost : (Fin d → K) → K) (hc : ∀ x, 0 ≤ cost x) (x0 : Fin d → K) (bounds : Fin d → K × K) (m : ℕ)
    (v0 : ℕ → Fin d → K) (r : ℕ → ℕ → Fin d → K × K) (n : ℕ) (hn : 1 ≤ n) (hm : 1 ≤ m) :
    (pso cost x0 bounds m v0 r n).group.errBest ≤ cost x0 := by
  obtain ⟨p, -, h2, -, h4, -⟩ := C70_best_partial cost x0 bounds m v0 r n hn hm (fun q _ => by have := hc q; intro h; linarith)
  rw [h2]
  apply h4
  obtain ⟨k, rfl⟩ : ∃ k, n = k + 1 := ⟨n - 1, by omega⟩
  clear h4 h2 hn p
  induction k with
  | zero =>
    rw [pso, step_evaluated]
    simp only [pso, Group.new, List.nil_append, List.map_map, List.mem_map, List.mem_range]
    exact ⟨0, hm, rfl⟩
  | succ k ih => rw [pso, step_evaluated]; exact List.mem_append_left _ ih

/-- The cost is never -1: the sphere function of the program. -/
example (x : Fin 2 → ℚ) : 0 ≤ x 0 ^ 2 + x 1 ^ 2 := by positivity

/-- **C70 is violated** A best cost of -1 is taken for "not yet evaluated": the next evaluated particle replaces it, however bad it is. -/
theorem C70_violated (g : Group K d) (hg : g.errBest = -1) (p : Particle K d) :
    (g.update p).posBest = some p.position ∧ (g.update p).errBest = p.err := by
  unfold Group.update
  rw [if_pos (Or.inr hg)]
  exact ⟨rfl, rfl⟩

/-- Cost -1 at the origin, 5 elsewhere. -/
def sentinelCost (x : Fin 1 → ℚ) : ℚ := if x 0 = 0 then -1 else 5

/-- An execution in which this happens: one particle, two iterations, starting at the minimum with cost -1; it reports cost 5. -/
theorem C70_sentinel_violated :
    let s := pso sentinelCost (fun _ => 0) (fun _ => (-10, 10)) 1 (fun _ _ => 1) (fun _ _ _ => (0, 0)) 2
    s.group.errBest = 5 ∧ (fun _ => 0 : Fin 1 → ℚ) ∈ s.group.evaluated ∧ sentinelCost (fun _ => 0) = -1 := by
  refine ⟨by decide +kernel, ?_, by decide +kernel⟩
  rw [pso, step_evaluated, pso, step_evaluated]
  simp [pso, Group.new, Particle.new]

/-! ### C71: the particle's own best -/

/-- The particle keeps the error of its best evaluation (no cost -1). -/
def ErrInv (cost : (Fin d → K) → K) (p : Particle K d) : Prop :=
  (p.seen = [] → p.errBest = -1) ∧ ((∀ q ∈ p.seen, cost q ≠ -1) → p.seen ≠ [] →
    (∃ q ∈ p.seen, cost q = p.errBest) ∧ ∀ q ∈ p.seen, p.errBest ≤ cost q)

theorem errInv_evaluate (cost : (Fin d → K) → K) (p : Particle K d) (h : ErrInv cost p) : ErrInv cost (p.evaluate cost) := by
  obtain ⟨h1, h2⟩ := h
  refine ⟨fun h => by simp at h, ?_⟩
  intro hne _
  rw [evaluate_seen] at hne ⊢
  have hne' : ∀ q ∈ p.seen, cost q ≠ -1 := fun q hq => hne q (by simp [hq])
  unfold Particle.evaluate
  by_cases hc : cost p.position < p.errBest ∨ p.errBest = -1
  · rw [if_pos hc]
    refine ⟨⟨p.position, by simp, rfl⟩, ?_⟩
    intro q hq
    simp only [List.mem_append, List.mem_singleton] at hq
    rcases hq with hq | rfl
    · obtain ⟨⟨b, hb, he⟩, hmin⟩ := h2 hne' (List.ne_nil_of_mem hq)
      rcases hc with hc | hc
      · exact hc.le.trans (hmin q hq)
      · exact absurd (he.trans hc) (hne' b hb)
    · exact le_rfl
  · rw [if_neg hc]
    push Not at hc
    have hs : p.seen ≠ [] := fun h0 => hc.2 (h1 h0)
    obtain ⟨⟨b, hb, he⟩, hmin⟩ := h2 hne' hs
    refine ⟨⟨b, by simp [hb], he⟩, ?_⟩
    intro q hq
    simp only [List.mem_append, List.mem_singleton] at hq
    rcases hq with hq | rfl
    · exact hmin q hq
    · exact hc.1

/-- **C71, the part that holds** If no evaluated cost is -1, every particle keeps the smallest cost of its own evaluations. Missing: the
position of that evaluation. -/
theorem C71_error_partial (cost : (Fin d → K) → K) (x0 : Fin d → K) (bounds : Fin d → K × K) (m : ℕ) (v0 : ℕ → Fin d → K)
    (r : ℕ → ℕ → Fin d → K × K) (n : ℕ) (hn : 1 ≤ n) (p : Particle K d) (hp : p ∈ (pso cost x0 bounds m v0 r n).particles)
    (hc : ∀ q ∈ p.seen, cost q ≠ -1) :
    p.seen.length = n ∧ (∃ q ∈ p.seen, cost q = p.errBest) ∧ ∀ q ∈ p.seen, p.errBest ≤ cost q := by
  have key : ∀ n, ∀ p ∈ (pso cost x0 bounds m v0 r n).particles, ErrInv cost p ∧ p.seen.length = n := by
    intro n
    induction n with
    | zero =>
      intro p hp
      simp only [pso, List.mem_map] at hp
      obtain ⟨j, -, rfl⟩ := hp
      exact ⟨⟨fun _ => rfl, fun _ h => absurd rfl h⟩, rfl⟩
    | succ n ih =>
      intro p hp
      obtain ⟨j, hj⟩ := List.mem_iff_getElem?.1 hp
      obtain ⟨q, g, hq, -, rfl⟩ := step_particle cost bounds (r n) _ (groupInv_pso cost x0 bounds m v0 r n) j p hj
      have hi := ih q (List.mem_of_getElem? hq)
      have he := errInv_evaluate cost q hi.1
      refine ⟨he, ?_⟩
      change (q.evaluate cost).seen.length = n + 1
      rw [evaluate_seen, List.length_append, hi.2]; rfl
  obtain ⟨⟨-, h2⟩, h3⟩ := key n p hp
  have hs : p.seen ≠ [] := by intro h0; rw [h0] at h3; simp at h3; omega
  exact ⟨h3, h2 hc hs⟩

/-- Once evaluated, the remembered position is the present one. -/
theorem evaluate_best (cost : (Fin d → K) → K) (p : Particle K d) (h : p.bestIsPosition = true ∨ p.errBest = -1) :
    (p.evaluate cost).bestIsPosition = true := by
  unfold Particle.evaluate
  split_ifs with hc
  · rfl
  · push Not at hc
    rcases h with h | h
    · exact h
    · exact absurd h hc.2

/-- **C71 is violated** In every execution, in every iteration and for every particle: the remembered best position is the
present position, so that the pull to the particle's own best is zero: the new velocity is half the old one plus the pull to
the best of the group, whatever `r1` was drawn. -/
theorem C71_violated (cost : (Fin d → K) → K) (x0 : Fin d → K) (bounds : Fin d → K × K) (m : ℕ) (v0 : ℕ → Fin d → K)
    (r : ℕ → ℕ → Fin d → K × K) (n j : ℕ) (p : Particle K d) (hp : (pso cost x0 bounds m v0 r (n + 1)).particles[j]? = some p) :
    p.posBest = some p.position ∧
    ∃ q g, (pso cost x0 bounds m v0 r n).particles[j]? = some q ∧ (pso cost x0 bounds m v0 r (n + 1)).group.posBest = some g ∧
      ∀ i, p.velocity i = 1 / 2 * q.velocity i + 2 * (r n j i).2 * (g i - q.position i) := by
  have key : ∀ n, ∀ p ∈ (pso cost x0 bounds m v0 r n).particles, p.bestIsPosition = true ∨ p.errBest = -1 := by
    intro n
    induction n with
    | zero =>
      intro p hp
      simp only [pso, List.mem_map] at hp
      obtain ⟨j, -, rfl⟩ := hp
      exact Or.inr rfl
    | succ n ih =>
      intro p hp
      obtain ⟨j, hj⟩ := List.mem_iff_getElem?.1 hp
      obtain ⟨q, g, hq, -, rfl⟩ := step_particle cost bounds (r n) _ (groupInv_pso cost x0 bounds m v0 r n) j p hj
      exact Or.inl (evaluate_best cost q (ih q (List.mem_of_getElem? hq)))
  obtain ⟨q, g, hq, hg, rfl⟩ := step_particle cost bounds (r n) _ (groupInv_pso cost x0 bounds m v0 r n) j p hp
  have hb := evaluate_best cost q (key n q (List.mem_of_getElem? hq))
  constructor
  · have : (((q.evaluate cost).updateVelocity g (r n j)).updatePosition bounds).bestIsPosition = true := hb
    unfold Particle.posBest
    rw [if_pos this]
  · refine ⟨q, g, hq, hg, ?_⟩
    intro i
    have hv : (q.evaluate cost).velocity = q.velocity := by unfold Particle.evaluate; split_ifs <;> rfl
    have hpb : (q.evaluate cost).posBest = some q.position := by
      unfold Particle.posBest; rw [if_pos hb, evaluate_position]
    simp only [Particle.updatePosition, Particle.updateVelocity, hpb, hv, evaluate_position]
    ring

/-- The particle has moved away from its best point: it remembers a cost of 0 and a position of cost 1. -/
example : ∃ p ∈ (pso (fun x : Fin 1 → ℚ => x 0 ^ 2) (fun _ => 0) (fun _ => (-10, 10)) 1 (fun _ _ => 2) (fun _ _ _ => (0, 0)) 1).particles,
    p.errBest = 0 ∧ ∃ b, p.posBest = some b ∧ b 0 ^ 2 = 1 := by
  refine ⟨_, List.mem_singleton.2 rfl, by decide +kernel, _, rfl, by decide +kernel⟩

end Rose
