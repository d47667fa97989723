/-
C70 and C71: exactly when the particle swarm reports the best of its evaluations.
-/
import Verif.Props.Swarm

set_option linter.unusedSectionVars false

namespace Rose
variable {K : Type*} [Field K] [LinearOrder K] [IsStrictOrderedRing K] {d : ℕ}

/-- Specification: none of the costs is -1, or one is below -1, or the last one is -1. -/
def SentinelFree (costs : List K) : Prop :=
  (∀ c ∈ costs, c ≠ -1) ∨ (∃ c ∈ costs, c < -1) ∨ costs.getLast? = some (-1)

/-- What is known of the best cost that is kept for a list of costs. -/
def KeptBest (costs : List K) (best : K) : Prop :=
  (costs = [] → best = -1) ∧ (costs ≠ [] → best ∈ costs ∧ ((∀ c ∈ costs, best ≤ c) ↔ SentinelFree costs))

theorem keptBest_step (costs : List K) (best c : K) (h : KeptBest costs best) :
    KeptBest (costs ++ [c]) (if c < best ∨ best = -1 then c else best) := by
  obtain ⟨h1, h2⟩ := h
  refine ⟨fun h => by simp at h, fun _ => ?_⟩
  by_cases hne : costs = []
  · have hb := h1 hne
    subst hne
    rw [if_pos (Or.inr hb)]
    refine ⟨by simp, ?_⟩
    have hc : SentinelFree ([] ++ [c]) := by
      by_cases hc : c = -1
      · right; right; simp [hc]
      · left; simpa using hc
    exact ⟨fun _ => hc, fun _ => by simp⟩
  · obtain ⟨hm, hiff⟩ := h2 hne
    have mem : (if c < best ∨ best = -1 then c else best) ∈ costs ++ [c] := by
      split
      · simp
      · simp [hm]
    refine ⟨mem, ?_⟩
    simp only [List.mem_append, List.mem_singleton, SentinelFree, List.getLast?_append, List.getLast?_singleton, Option.some_or,
      Option.some.injEq] at *
    by_cases hlow : ∃ x ∈ costs, x < -1
    · have hall := hiff.mpr (Or.inr (Or.inl hlow))
      obtain ⟨x, hx, hx1⟩ := hlow
      have hb : best < -1 := (hall x hx).trans_lt hx1
      refine ⟨fun _ => Or.inr (Or.inl ⟨x, Or.inl hx, hx1⟩), fun _ y hy => ?_⟩
      by_cases hcb : c < best
      · rw [if_pos (Or.inl hcb)]
        rcases hy with hy | rfl
        · exact hcb.le.trans (hall y hy)
        · exact le_rfl
      · rw [if_neg (by rintro (h | h); exacts [hcb h, hb.ne h])]
        rcases hy with hy | rfl
        · exact hall y hy
        · exact not_lt.mp hcb
    · have hge : ∀ x ∈ costs, -1 ≤ x := fun x hx => not_lt.mp fun h => hlow ⟨x, hx, h⟩
      by_cases hno : ∀ x ∈ costs, x ≠ -1
      · have hall := hiff.mpr (Or.inl hno)
        have hb := hno best hm
        constructor
        · intro _
          by_cases hc : c = -1
          · exact Or.inr (Or.inr hc)
          · left
            rintro x (hx | rfl)
            · exact hno x hx
            · exact hc
        · intro _ y hy
          by_cases hcb : c < best
          · rw [if_pos (Or.inl hcb)]
            rcases hy with hy | rfl
            · exact hcb.le.trans (hall y hy)
            · exact le_rfl
          · rw [if_neg (by rintro (h | h); exacts [hcb h, hb h])]
            rcases hy with hy | rfl
            · exact hall y hy
            · exact not_lt.mp hcb
      · push Not at hno
        obtain ⟨x, hx, hx1⟩ := hno
        by_cases hlast : costs.getLast? = some (-1)
        · have hall := hiff.mpr (Or.inr (Or.inr hlast))
          have hb : best = -1 := le_antisymm (hx1 ▸ hall x hx) (hge best hm)
          rw [if_pos (Or.inr hb)]
          constructor
          · intro h
            have hc := h x (Or.inl hx)
            rw [hx1] at hc
            rcases hc.lt_or_eq with hc | hc
            · exact Or.inr (Or.inl ⟨c, Or.inr rfl, hc⟩)
            · exact Or.inr (Or.inr hc)
          · intro h y hy
            have hc : c ≤ -1 := by
              rcases h with h | ⟨z, hz | hz, hz1⟩ | h
              · exact absurd hx1 (h x (Or.inl hx))
              · exact absurd hz1 (not_lt.mpr (hge z hz))
              · rw [← hz]; exact hz1.le
              · exact h.le
            rcases hy with hy | rfl
            · exact hc.trans (hge y hy)
            · exact le_rfl
        · have hnot : ¬ ∀ y ∈ costs, best ≤ y := by
            rw [hiff]
            rintro (h | ⟨z, hz, hz1⟩ | h)
            · exact h x hx hx1
            · exact absurd hz1 (not_lt.mpr (hge z hz))
            · exact hlast h
          have hb : -1 < best := by
            rcases (hge best hm).lt_or_eq with h | h
            · exact h
            · exact absurd (fun y hy => h ▸ hge y hy) hnot
          constructor
          · intro h
            have hc := h x (Or.inl hx)
            rw [hx1] at hc
            by_cases hcb : c < best ∨ best = -1
            · rw [if_pos hcb] at hc
              rcases hc.lt_or_eq with hc | hc
              · exact Or.inr (Or.inl ⟨c, Or.inr rfl, hc⟩)
              · exact Or.inr (Or.inr hc)
            · rw [if_neg hcb] at hc
              exact absurd hc (not_le.mpr hb)
          · intro h y hy
            have hc : c ≤ -1 := by
              rcases h with h | ⟨z, hz | hz, hz1⟩ | h
              · exact absurd hx1 (h x (Or.inl hx))
              · exact absurd hz1 (not_lt.mpr (hge z hz))
              · rw [← hz]; exact hz1.le
              · exact h.le
            rw [if_pos (Or.inl (hc.trans_lt hb))]
            rcases hy with hy | rfl
            · exact hc.trans (hge y hy)
            · exact le_rfl

/-- What is known of the best of a group, whatever the costs are. -/
def GroupKept (cost : (Fin d → K) → K) (g : Group K d) : Prop :=
  KeptBest (g.evaluated.map cost) g.errBest ∧ (g.evaluated ≠ [] → ∃ p ∈ g.evaluated, g.posBest = some p ∧ g.errBest = cost p)

theorem groupKept_update (cost : (Fin d → K) → K) (g : Group K d) (p : Particle K d) (hp : p.err = cost p.position)
    (h : GroupKept cost g) : GroupKept cost (g.update p) := by
  obtain ⟨h1, h2⟩ := h
  have hs := keptBest_step _ _ (cost p.position) h1
  unfold Group.update
  rw [hp]
  by_cases hc : cost p.position < g.errBest ∨ g.errBest = -1
  · rw [if_pos hc] at hs ⊢
    exact ⟨by simpa using hs, fun _ => ⟨p.position, by simp, rfl, rfl⟩⟩
  · rw [if_neg hc] at hs ⊢
    refine ⟨by simpa using hs, fun _ => ?_⟩
    have hne : g.evaluated ≠ [] := fun h0 => hc (Or.inr (h1.1 (by simp [h0])))
    obtain ⟨q, hq, hq1, hq2⟩ := h2 hne
    exact ⟨q, by simp [hq], hq1, hq2⟩

theorem groupKept_foldl (cost : (Fin d → K) → K) (ps : List (Particle K d)) : ∀ g : Group K d,
    (∀ p ∈ ps, p.err = cost p.position) → GroupKept cost g → GroupKept cost (ps.foldl Group.update g) := by
  induction ps with
  | nil => intro g _ h; exact h
  | cons p ps ih =>
    intro g hp h
    exact ih _ (fun q hq => hp q (by simp [hq])) (groupKept_update cost g p (hp p (by simp)) h)

theorem groupKept_pso (cost : (Fin d → K) → K) (x0 : Fin d → K) (bounds : Fin d → K × K) (m : ℕ) (v0 : ℕ → Fin d → K)
    (r : ℕ → ℕ → Fin d → K × K) (n : ℕ) : GroupKept cost (pso cost x0 bounds m v0 r n).group := by
  induction n with
  | zero => exact ⟨⟨fun _ => rfl, fun h => absurd rfl h⟩, fun h => absurd rfl h⟩
  | succ n ih =>
    simp only [pso, Swarm.step, evaluateAll_eq]
    refine groupKept_foldl cost _ _ ?_ ih
    intro p hp
    rw [List.mem_map] at hp
    obtain ⟨q, -, rfl⟩ := hp
    simp

/-- **C70, exactly** In every execution the printed position is an evaluated one and the printed error is its cost; no evaluated position has
a smaller cost, if and only if no evaluated cost is -1, or one is below -1, or that of the last evaluation is -1. So the result is wrong
exactly if the smallest cost is -1 and the last evaluated one is greater. -/
theorem C70_iff (cost : (Fin d → K) → K) (x0 : Fin d → K) (bounds : Fin d → K × K) (m : ℕ) (v0 : ℕ → Fin d → K)
    (r : ℕ → ℕ → Fin d → K × K) (n : ℕ) (hn : 1 ≤ n) (hm : 1 ≤ m) :
    let g := (pso cost x0 bounds m v0 r n).group
    (∃ p ∈ g.evaluated, g.posBest = some p ∧ g.errBest = cost p) ∧
    ((∀ q ∈ g.evaluated, g.errBest ≤ cost q) ↔
      (∀ q ∈ g.evaluated, cost q ≠ -1) ∨ (∃ q ∈ g.evaluated, cost q < -1) ∨ g.evaluated.getLast?.map cost = some (-1)) := by
  intro g
  have hl := evaluated_length cost x0 bounds m v0 r n
  have hne : g.evaluated ≠ [] := by
    intro h0
    change g.evaluated.length = _ at hl
    rw [h0] at hl
    have : 1 ≤ n * m := Nat.one_le_iff_ne_zero.2 (by positivity)
    simp at hl
    omega
  obtain ⟨h1, h2⟩ := groupKept_pso cost x0 bounds m v0 r n
  refine ⟨h2 hne, ?_⟩
  have h3 := (h1.2 (by simpa using hne)).2
  simp only [SentinelFree, List.mem_map, exists_exists_and_eq_and, forall_exists_index, and_imp, forall_apply_eq_imp_iff₂, List.getLast?_map] at h3
  exact h3

/-- The execution of `C70_sentinel_violated` is on the wrong side: the smallest cost is -1, the last one 5. -/
example : ¬ SentinelFree [(-1 : ℚ), 5] ∧ SentinelFree [(-1 : ℚ), 5, -1] ∧ SentinelFree [(3 : ℚ), 5] := by
  refine ⟨?_, Or.inr (Or.inr rfl), Or.inl (by norm_num)⟩
  rintro (h | ⟨c, hc, h⟩ | h)
  · exact h (-1) (by simp) rfl
  · simp only [List.mem_cons, List.not_mem_nil, or_false] at hc
    rcases hc with rfl | rfl <;> norm_num at h
  · simp at h
    norm_num at h

/-- **C71, exactly, the remembered cost** In every execution every particle keeps the smallest cost of its own evaluations, if and only if none
of them is -1, or one is below -1, or the last one is -1. -/
theorem C71_error_iff (cost : (Fin d → K) → K) (x0 : Fin d → K) (bounds : Fin d → K × K) (m : ℕ) (v0 : ℕ → Fin d → K)
    (r : ℕ → ℕ → Fin d → K × K) (n : ℕ) (hn : 1 ≤ n) (p : Particle K d) (hp : p ∈ (pso cost x0 bounds m v0 r n).particles) :
    (∃ q ∈ p.seen, cost q = p.errBest) ∧
    ((∀ q ∈ p.seen, p.errBest ≤ cost q) ↔
      (∀ q ∈ p.seen, cost q ≠ -1) ∨ (∃ q ∈ p.seen, cost q < -1) ∨ p.seen.getLast?.map cost = some (-1)) := by
  have key : ∀ n, ∀ p ∈ (pso cost x0 bounds m v0 r n).particles, p.seen.length = n ∧ KeptBest (p.seen.map cost) p.errBest := by
    intro n
    induction n with
    | zero =>
      intro p hp
      simp only [pso, List.mem_map, List.mem_range] at hp
      obtain ⟨j, -, rfl⟩ := hp
      exact ⟨rfl, fun _ => rfl, fun h => absurd rfl h⟩
    | succ n ih =>
      intro p hp
      simp only [pso, Swarm.step, evaluateAll_eq] at hp
      obtain ⟨j, hj, rfl⟩ := List.mem_mapIdx.mp hp
      have hq : ∀ q ∈ (pso cost x0 bounds m v0 r n).particles,
          (q.evaluate cost).seen.length = n + 1 ∧ KeptBest ((q.evaluate cost).seen.map cost) (q.evaluate cost).errBest := by
        intro q hq
        obtain ⟨i1, i2⟩ := ih q hq
        refine ⟨by simp [i1], ?_⟩
        have hs := keptBest_step _ _ (cost q.position) i2
        have e : (q.evaluate cost).errBest = if cost q.position < q.errBest ∨ q.errBest = -1 then cost q.position else q.errBest := by
          unfold Particle.evaluate
          split_ifs <;> rfl
        rw [e, evaluate_seen, List.map_append]
        exact hs
      have hmem := List.getElem_mem hj
      rw [List.mem_map] at hmem
      obtain ⟨q, hqm, hqe⟩ := hmem
      have h3 := hq q hqm
      rw [hqe] at h3
      split
      · exact h3
      · exact h3
  obtain ⟨h1, h2⟩ := key n p hp
  have hne : p.seen ≠ [] := by
    intro h0
    rw [h0] at h1
    simp at h1
    omega
  obtain ⟨h3, h4⟩ := h2.2 (by simpa using hne)
  simp only [SentinelFree, List.mem_map, exists_exists_and_eq_and, forall_exists_index, and_imp, forall_apply_eq_imp_iff₂, List.getLast?_map] at h4
  exact ⟨List.mem_map.mp h3, h4⟩

end Rose
