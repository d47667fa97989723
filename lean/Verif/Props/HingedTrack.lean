/-
C140: a wheel on a rail with a hinge and the element it acts on.
-/
import Verif.Model.HingedTrack
import Verif.Spec.HingedTrack
import Verif.Props.TrainOnTrack
import Verif.Props.MeshUtils

set_option linter.unusedSectionVars false

namespace Rose

/-! ### Node lists with repeated nodes -/

section repeated
variable {K : Type*} [Field K] [LinearOrder K] [IsStrictOrderedRing K]

/-- The distances of the nodes do not decrease. -/
def Rising (nodes : List K) : Prop := ∀ i j, i ≤ j → j < nodes.length → nodes.getD i 0 ≤ nodes.getD j 0

theorem argminFrom_some_le (b : K) (bi i : ℕ) (vs : List K) (h : ∀ v ∈ vs, b ≤ v) :
    argminFrom (some b) bi i (vs.map some) = bi := by
  induction vs generalizing i with
  | nil => rfl
  | cons v vs ih =>
    simp only [List.map_cons, argminFrom]
    rw [if_neg (not_lt.2 (h v (by simp)))]
    exact ih _ (fun w hw => h w (by simp [hw]))

/-- The start element encloses the start position, also when nodes are repeated. -/
theorem firstElementIdx_rising (nodes : List K) (hinc : Rising nodes) (x0 : K) (h0 : nodes.getD 0 0 ≤ x0)
    (h1 : x0 < nodes.getD (nodes.length - 1) 0) (hlen : 2 ≤ nodes.length) :
    ∃ i : ℕ, firstElementIdx nodes x0 = i ∧ i + 1 < nodes.length ∧ nodes.getD i 0 ≤ x0 ∧ x0 < nodes.getD (i + 1) 0 := by
  classical
  have hex : ∃ m, m < nodes.length ∧ x0 < nodes.getD m 0 := ⟨nodes.length - 1, by omega, h1⟩
  obtain ⟨hm, hx⟩ := Nat.find_spec hex
  have hmin := fun k => Nat.find_min hex (m := k)
  set m := Nat.find hex with hmdef
  have hm0 : m ≠ 0 := by
    intro h; rw [h] at hx; exact absurd hx (not_lt.2 h0)
  have hlow : nodes.getD (m - 1) 0 ≤ x0 := by
    by_contra hc
    exact hmin (m - 1) (by omega) ⟨by omega, not_le.1 hc⟩
  refine ⟨m - 1, ?_, by omega, hlow, by rw [show m - 1 + 1 = m by omega]; exact hx⟩
  have hsplit : nodes.map (fun s => if s - x0 > 0 then some (s - x0) else none) =
      List.replicate m none ++ (some (nodes.getD m 0 - x0) :: ((nodes.drop (m + 1)).map fun s => s - x0).map some) := by
    apply List.ext_getElem
    · simp; omega
    · intro k hk1 hk2
      rw [List.getElem_map]
      simp only [List.length_map] at hk1
      rcases lt_trichotomy k m with h | h | h
      · rw [List.getElem_append_left (by simpa using h), List.getElem_replicate]
        have : ¬ (nodes[k] - x0 > 0) := by
          intro hc
          exact hmin k h ⟨hk1, by rw [List.getD_eq_getElem _ _ hk1]; linarith⟩
        simp [this]
      · subst h
        rw [List.getElem_append_right (by simp)]
        simp only [List.length_replicate, Nat.sub_self, List.getElem_cons_zero]
        rw [List.getD_eq_getElem _ _ hk1] at hx ⊢
        rw [if_pos (by linarith)]
      · rw [List.getElem_append_right (by simp; omega)]
        obtain ⟨j, rfl⟩ : ∃ j, k = m + 1 + j := ⟨k - (m + 1), by omega⟩
        simp only [List.length_replicate, show m + 1 + j - m = j + 1 by omega, List.getElem_cons_succ, List.getElem_map,
          List.getElem_drop]
        have := hinc m (m + 1 + j) (by omega) hk1
        rw [List.getD_eq_getElem nodes _ hk1] at this
        rw [if_pos (by linarith)]
  unfold firstElementIdx
  rw [hsplit, argminFrom_none]
  simp only [argminFrom]
  rw [argminFrom_some_le]
  · push_cast
    rw [Nat.cast_sub (by omega)]
    simp
  · intro v hv
    rw [List.mem_map] at hv
    obtain ⟨s, hs, rfl⟩ := hv
    obtain ⟨j, hj, rfl⟩ := List.mem_iff_getElem.1 hs
    rw [List.getElem_drop]
    rw [List.length_drop] at hj
    have := hinc m (m + 1 + j) (by omega) (by omega)
    rw [List.getD_eq_getElem nodes 0 (by omega : m + 1 + j < nodes.length)] at this
    linarith

/-- The pointer `j` of a load at `x`: it is on the interval, or on an interval without length and at most half an element
beyond it. -/
def PointsAt (nodes : List K) (l : K) (j : ℕ) (x : K) : Prop :=
  j + 1 < nodes.length ∧ nodes.getD j 0 ≤ x ∧
    (x ≤ nodes.getD (j + 1) 0 ∨ (nodes.getD (j + 1) 0 = nodes.getD j 0 ∧ x ≤ nodes.getD j 0 + l / 2))

/-- Consecutive nodes coincide or are `l` apart, and no three coincide. -/
structure EvenRepeated (nodes : List K) (l : K) : Prop where
  l_pos : 0 < l
  step : ∀ j, j + 1 < nodes.length → nodes.getD (j + 1) 0 = nodes.getD j 0 ∨ nodes.getD (j + 1) 0 = nodes.getD j 0 + l
  once : ∀ j, j + 2 < nodes.length → nodes.getD (j + 1) 0 = nodes.getD j 0 → nodes.getD (j + 2) 0 = nodes.getD (j + 1) 0 + l

theorem activePointers_repeated (nodes : List K) (l : K) (g : EvenRepeated nodes l) (xs : List K) (prev : K) (i : ℕ)
    (hi : PointsAt nodes l i prev) (hmono : (prev :: xs).Pairwise (· ≤ ·))
    (hstep : ∀ k < xs.length, xs.getD k 0 - (prev :: xs).getD k 0 ≤ l / 2)
    (hend : ∀ k < xs.length, xs.getD k 0 ≤ nodes.getD (nodes.length - 1) 0) :
    ∀ k < xs.length, ∃ j : ℕ, (activePointers nodes i xs).getD k 0 = j ∧ PointsAt nodes l j (xs.getD k 0) := by
  induction xs generalizing prev i with
  | nil => intro k hk; simp at hk
  | cons x xs ih =>
    rw [List.pairwise_cons] at hmono
    have hpx : prev ≤ x := hmono.1 x (by simp)
    have h0 := hstep 0 (by simp)
    have he := hend 0 (by simp)
    simp only [List.getD_cons_zero] at h0 he
    have hl := g.l_pos
    obtain ⟨hi1, hi2, hi3⟩ := hi
    have hnew : ∃ j : ℕ, (if (i : ℤ) < (nodes.length : ℤ) - 2 ∧ x > nodes.getD ((i : ℤ) + 1).toNat 0 then (i : ℤ) + 1 else i) = (j : ℤ)
        ∧ PointsAt nodes l j x := by
      have htn : ((i : ℤ) + 1).toNat = i + 1 := by omega
      rw [htn]
      split_ifs with hc
      · refine ⟨i + 1, by push_cast; rfl, by omega, hc.2.le, ?_⟩
        rw [show i + 1 + 1 = i + 2 by ring]
        rcases hi3 with h | ⟨h, h'⟩
        · rcases g.step (i + 1) (by omega) with hs | hs
          · right
            exact ⟨by rw [← hs], by linarith⟩
          · left
            rw [show i + 1 + 1 = i + 2 by ring] at hs
            linarith
        · left
          have := g.once i (by omega) h
          linarith
      · refine ⟨i, rfl, hi1, hi2.trans hpx, ?_⟩
        left
        by_cases hlast : i + 2 = nodes.length
        · rw [show i + 1 = nodes.length - 1 by omega]; exact he
        · by_contra hx
          exact hc ⟨by omega, not_le.1 hx⟩
    obtain ⟨j, hj, hj1⟩ := hnew
    intro k hk
    cases k with
    | zero =>
      refine ⟨j, ?_, by simpa using hj1⟩
      simp only [activePointers, List.getD_cons_zero]
      exact hj
    | succ k =>
      simp only [activePointers, List.getD_cons_succ]
      rw [hj]
      refine ih x j hj1 hmono.2 ?_ ?_ k (by simpa using hk)
      · intro k hk
        have := hstep (k + 1) (by simpa using hk)
        simpa using this
      · intro k hk
        have := hend (k + 1) (by simpa using hk)
        simpa using this

end repeated

/-! ### The node list of a rail with a hinge -/

/-- The node of the rail at place `i` of the concatenated node lists, when the hinge is at node `k`: the nodes `k - 1`, `k` and
`k + 1` occur twice. -/
def hingeNode (k i : ℕ) : ℕ :=
  i - (if k ≤ i then 1 else 0) - (if k + 2 ≤ i then 1 else 0) - (if k + 4 ≤ i then 1 else 0)

/-- A rail of `m` nodes at equal distances with a hinge at its inner node `k`, as `add_semi_rigid_hinge_at_x` makes it. The
last hypothesis: the rail is not so long that `np.isclose` takes the neighbour of the hinge for the hinge. -/
structure HingedRail (t : HorizontalTrack ℝ) (m : ℕ) (l : ℝ) (k : ℕ) (parts : List (RailPart ℝ)) : Prop where
  even : EvenRail t m l
  pos : 1 ≤ k
  lt : k + 1 < m
  parts : ∃ E I f le, t.hingedRail E I f le ((k : ℝ) * l) = .ok parts
  near : 1 / 100000000 + 1 / 100000 * ((k : ℝ) * l) < l

section hinged
variable {t : HorizontalTrack ℝ} {m k : ℕ} {l : ℝ} {parts : List (RailPart ℝ)}

/-- A hinge at the inner node `k` of a rail with nodes at equal distances. -/
theorem EvenRail.addHinge (g : EvenRail t m l) (hk : 1 ≤ k) (hkm : k + 1 < m)
    (near : 1 / 100000000 + 1 / 100000 * ((k : ℝ) * l) < l) (s : ℝ) :
    ∃ A B : List ℕ, ∃ p c q : ℕ, t.rail = A ++ p :: c :: q :: B ∧ A.length + 1 = k ∧
      addHinge (fun n => (t.store n).pos 0) s t.rail t.railElements ((k : ℝ) * l) =
        .ok [⟨A ++ [p], chainOf (A ++ [p]), none, none⟩, ⟨[p, c], [(p, c)], none, some (s / 2)⟩,
          ⟨[c, q], [(c, q)], some (s / 2), none⟩, ⟨q :: B, chainOf (q :: B), none, none⟩] ∧
      chainOf (A ++ [p]) ++ [(p, c)] ++ [(c, q)] ++ chainOf (q :: B) = chainOf t.rail := by
  have hlen := g.len
  have hl := g.l_pos
  have hdec : t.rail = t.rail.take (k - 1) ++ t.rail.getD (k - 1) 0 :: t.rail.getD k 0 :: t.rail.getD (k + 1) 0 :: t.rail.drop (k + 2) := by
    have h1 : t.rail.getD (k - 1) 0 :: t.rail.getD k 0 :: t.rail.getD (k + 1) 0 :: t.rail.drop (k + 2) = t.rail.drop (k - 1) := by
      rw [List.getD_eq_getElem _ _ (by omega : k - 1 < t.rail.length), List.getD_eq_getElem _ _ (by omega : k < t.rail.length),
        List.getD_eq_getElem _ _ (by omega : k + 1 < t.rail.length), List.drop_eq_getElem_cons (by omega : k - 1 < t.rail.length)]
      congr 1
      have : k - 1 + 1 = k := by omega
      rw [List.drop_eq_getElem_cons (by omega : k - 1 + 1 < t.rail.length)]
      simp only [this]
      congr 1
      rw [List.drop_eq_getElem_cons (by omega : k + 1 < t.rail.length)]
    rw [h1, List.take_append_drop]
  have hx : ∀ i < m, (t.store (t.rail.getD i 0)).pos 0 = (i : ℝ) * l := by
    intro i hi
    rw [g.pos i hi]
    rfl
  have hclose : npIsClose ((t.store (t.rail.getD k 0)).pos 0) ((k : ℝ) * l) := by
    rw [hx k (by omega)]
    unfold npIsClose
    simp only [sub_self, abs_zero]
    positivity
  have hfirst : ∀ n ∈ t.rail.take (k - 1) ++ [t.rail.getD (k - 1) 0], ¬ npIsClose ((t.store n).pos 0) ((k : ℝ) * l) := by
    have key : ∀ i < k, ¬ npIsClose ((t.store (t.rail.getD i 0)).pos 0) ((k : ℝ) * l) := by
      intro i hi
      rw [hx i (by omega)]
      unfold npIsClose
      have h1 : (i : ℝ) + 1 ≤ k := by exact_mod_cast hi
      have h2 : ((i : ℝ) + 1) * l ≤ k * l := mul_le_mul_of_nonneg_right h1 hl.le
      rw [abs_of_nonpos (by nlinarith), abs_of_nonneg (by positivity)]
      intro hc
      nlinarith
    intro n hn
    rcases List.mem_append.1 hn with hn | hn
    · obtain ⟨i, hi, rfl⟩ := List.mem_iff_getElem.1 hn
      rw [List.length_take] at hi
      have := key i (by omega)
      rw [List.getElem_take]
      rwa [List.getD_eq_getElem _ _ (by omega)] at this
    · rw [List.mem_singleton] at hn
      rw [hn]
      exact key (k - 1) (by omega)
  obtain ⟨p1, lp, rp, p2, hadd, hels, hnodes, he1, he2, hle, hln, hre, hrn, hs1, hs2, hs3, hs4, hs5, hs6, hs7, hs8⟩ :=
    C50_split_partial (fun n => (t.store n).pos 0) s ((k : ℝ) * l) _ _ _ _ _ t.rail hdec g.nodup hclose hfirst
  have hcnot : ∀ (a b a' b' : List ℕ) (c : ℕ), (a ++ [c] ++ b).Nodup → a ++ [c] ++ b = a' ++ [c] ++ b' → a = a' ∧ b = b' := by
    intro a b a' b' c hnd heq
    have hnd' := heq ▸ hnd
    have e1 : (a ++ [c] ++ b).idxOf c = a.length := by
      rw [List.append_assoc, List.idxOf_append_of_notMem]
      · simp
      · intro hc
        rw [List.append_assoc, List.nodup_append] at hnd
        exact hnd.2.2 c hc c (by simp) rfl
    have e2 : (a' ++ [c] ++ b').idxOf c = a'.length := by
      rw [List.append_assoc, List.idxOf_append_of_notMem]
      · simp
      · intro hc
        rw [List.append_assoc, List.nodup_append] at hnd'
        exact hnd'.2.2 c hc c (by simp) rfl
    have hl : a.length = a'.length := by rw [← e1, ← e2, heq]
    rw [List.append_assoc, List.append_assoc] at heq
    obtain ⟨h1, h2⟩ := List.append_inj heq hl
    exact ⟨h1, by simpa using h2⟩
  have hparts := hcnot p1.nodes p2.nodes (t.rail.take (k - 1) ++ [t.rail.getD (k - 1) 0]) (t.rail.getD (k + 1) 0 :: t.rail.drop (k + 2))
    (t.rail.getD k 0) (by rw [hnodes]; exact g.nodup) (by rw [hnodes]; simpa using hdec)
  rw [he1, hle, hre, he2, hparts.1, hparts.2] at hels
  refine ⟨_, _, _, _, _, hdec, by rw [List.length_take]; omega, ?_, hels⟩
  rw [g.chain, hadd]
  obtain ⟨n1, el1, a1, b1⟩ := p1
  obtain ⟨n2, el2, a2, b2⟩ := lp
  obtain ⟨n3, el3, a3, b3⟩ := rp
  obtain ⟨n4, el4, a4, b4⟩ := p2
  simp only at *
  rw [he1, he2, hparts.1, hparts.2, hle, hln, hre, hrn, hs1, hs2, hs3, hs4, hs5, hs6, hs7, hs8]

/-- A rail with a hinge exists for every inner node and every fixity. -/
theorem HingedRail.make (g : EvenRail t m l) (hk : 1 ≤ k) (hkm : k + 1 < m)
    (near : 1 / 100000000 + 1 / 100000 * ((k : ℝ) * l) < l) (E I f le : ℝ) (hf : 0 ≤ f) (hf' : f < 1) :
    ∃ parts, t.hingedRail E I f le ((k : ℝ) * l) = .ok parts ∧ HingedRail t m l k parts := by
  obtain ⟨A, B, p, c, q, -, -, hadd, -⟩ := g.addHinge hk hkm near (3 * E * I * f / ((1 - f) * le))
  have e := hadd
  rw [show addHinge (fun n => (t.store n).pos 0) (3 * E * I * f / ((1 - f) * le)) t.rail t.railElements ((k : ℝ) * l) =
    t.hingedRail E I f le ((k : ℝ) * l) by unfold HorizontalTrack.hingedRail hingeStiffness; rw [if_pos ⟨hf, hf'⟩]] at e
  exact ⟨_, e, g, hk, hkm, ⟨E, I, f, le, e⟩, near⟩

theorem HingedRail.split (h : HingedRail t m l k parts) :
    ∃ A B : List ℕ, ∃ p c q : ℕ, t.rail = A ++ p :: c :: q :: B ∧ A.length + 1 = k ∧
      parts.flatMap RailPart.nodes = A ++ [p] ++ [p, c] ++ [c, q] ++ q :: B ∧
      parts.flatMap RailPart.elements = chainOf t.rail ∧
      (parts.map fun p => p.elements.length) = [k - 1, 1, 1, m - k - 2] := by
  have hlen := h.even.len
  have hk := h.pos
  have hkm := h.lt
  obtain ⟨E, I, f, le, hp⟩ := h.parts
  unfold HorizontalTrack.hingedRail at hp
  cases hs : hingeStiffness E I le f none with
  | none => rw [hs] at hp; simp at hp
  | some s =>
    rw [hs] at hp
    simp only at hp
    obtain ⟨A, B, p, c, q, hr, hA, hadd, hels⟩ := h.even.addHinge h.pos h.lt h.near s
    rw [hadd] at hp
    injection hp with hp
    subst hp
    refine ⟨A, B, p, c, q, hr, hA, by simp, ?_, ?_⟩
    · rw [← hels]; simp
    · rw [hr] at hlen
      simp at hlen
      simp [length_chainOf]
      omega

theorem HingedRail.nodes (h : HingedRail t m l k parts) :
    parts.flatMap RailPart.nodes = (List.range (m + 3)).map fun i => t.rail.getD (hingeNode k i) 0 := by
  obtain ⟨A, B, p, c, q, hrail, hA, hn, _⟩ := h.split
  have hlen := h.even.len
  rw [hn, hrail]
  rw [hrail] at hlen
  simp only [List.length_append, List.length_cons] at hlen
  apply List.ext_getElem
  · simp; omega
  · intro i h1 h2
    simp only [List.getElem_map, List.getElem_range]
    simp only [List.length_append, List.length_cons, List.length_nil] at h1
    rw [← List.getD_eq_getElem _ 0]
    unfold hingeNode
    subst hA
    rcases lt_or_ge i A.length with h | h
    · rw [if_neg (by omega), if_neg (by omega), if_neg (by omega)]
      simp only [Nat.sub_zero, List.append_assoc]
      rw [List.getD_append _ _ _ _ h, List.getD_append _ _ _ _ h]
    · obtain ⟨j, rfl⟩ : ∃ j, i = A.length + j := ⟨i - A.length, by omega⟩
      simp only [List.append_assoc]
      rw [List.getD_append_right _ _ _ _ (by omega), Nat.add_sub_cancel_left]
      rcases j with _ | _ | _ | _ | _ | j
      · rw [if_neg (by omega), if_neg (by omega), if_neg (by omega)]
        simp
      · simp
      · simp
      · simp
      · simp
      · rw [if_pos (by omega), if_pos (by omega), if_pos (by omega),
          show A.length + (j + 1 + 1 + 1 + 1 + 1) - 1 - 1 - 1 = A.length + (j + 2) by omega,
          List.getD_append_right A _ _ _ (by omega), Nat.add_sub_cancel_left]
        simp

theorem hingeNode_mono (k i j : ℕ) (h : i ≤ j) : hingeNode k i ≤ hingeNode k j := by
  unfold hingeNode
  split_ifs <;> omega

theorem hingeNode_lt (m k i : ℕ) (hk : k + 1 < m) (h : i < m + 3) : hingeNode k i < m := by
  unfold hingeNode
  split_ifs <;> omega

theorem HingedRail.cum (h : HingedRail t m l k parts) :
    cumDistances ((parts.flatMap RailPart.nodes).map t.coords) = (List.range (m + 3)).map fun i => (hingeNode k i : ℝ) * l := by
  have hl := h.even.l_pos
  have hpts : (parts.flatMap RailPart.nodes).map t.coords =
      ((List.range (m + 3)).map fun i => (hingeNode k i : ℝ) * l).map fun x => (x, (0 : ℝ), (0 : ℝ)) := by
    rw [h.nodes, List.map_map, List.map_map]
    apply List.map_congr_left
    intro i hi
    exact h.even.coords _ (hingeNode_lt m k i h.lt (List.mem_range.1 hi))
  have hsplit : (List.range (m + 3)).map (fun i => (hingeNode k i : ℝ) * l) =
      (0 : ℝ) :: (List.range (m + 2)).map fun i => (hingeNode k (i + 1) : ℝ) * l := by
    rw [List.range_succ_eq_map]
    have : hingeNode k 0 = 0 := by unfold hingeNode; omega
    simp [Function.comp_def, this]
  have hmono : ((List.range (m + 3)).map (fun i => (hingeNode k i : ℝ) * l)).Pairwise (· ≤ ·) := by
    rw [List.pairwise_map]
    refine List.pairwise_lt_range.imp fun {a b} hab => ?_
    have : (hingeNode k a : ℝ) ≤ hingeNode k b := by exact_mod_cast hingeNode_mono k a b hab.le
    exact mul_le_mul_of_nonneg_right this hl.le
  have hlen : ∀ (q : List (ℝ × ℝ × ℝ)) (a : ℝ × ℝ × ℝ), (segmentLengths (a :: q)).length = q.length := by
    intro q
    induction q with
    | nil => intro a; rfl
    | cons b q ih => intro a; simp [segmentLengths, ih]
  rw [hpts]
  apply List.ext_getElem
  · rw [hsplit, List.map_cons]
    unfold cumDistances
    rw [runningSums_length, hlen]
    simp
  · intro i h1 h2
    rw [hsplit] at hmono
    have hc := cumDistances_horizontal 0 _ 0 0 hmono i (by rw [← hsplit]; exact h2)
    rw [← hsplit, List.getD_eq_getElem _ _ h1, List.getD_eq_getElem _ _ h2] at hc
    rw [hc, sub_zero]

/-- The places of the concatenated nodes. -/
noncomputable def hingeCum (m k : ℕ) (l : ℝ) : List ℝ := (List.range (m + 3)).map fun i => (hingeNode k i : ℝ) * l

theorem hingeCum_length (m k : ℕ) (l : ℝ) : (hingeCum m k l).length = m + 3 := by simp [hingeCum]

theorem hingeCum_getD (m k : ℕ) (l : ℝ) (i : ℕ) (hi : i < m + 3) : (hingeCum m k l).getD i 0 = (hingeNode k i : ℝ) * l := by
  rw [List.getD_eq_getElem _ _ (by rw [hingeCum_length]; exact hi)]
  simp [hingeCum]

theorem hingeCum_even (m k : ℕ) (l : ℝ) (hl : 0 < l) (hk : 1 ≤ k) : EvenRepeated (hingeCum m k l) l where
  l_pos := hl
  step := by
    intro j hj
    rw [hingeCum_length] at hj
    rw [hingeCum_getD _ _ _ _ hj, hingeCum_getD _ _ _ _ (by omega)]
    have : hingeNode k (j + 1) = hingeNode k j ∨ hingeNode k (j + 1) = hingeNode k j + 1 := by
      unfold hingeNode
      split_ifs <;> omega
    rcases this with h | h
    · left; rw [h]
    · right; rw [h]; push_cast; ring
  once := by
    intro j hj h
    rw [hingeCum_length] at hj
    rw [hingeCum_getD _ _ _ _ (by omega), hingeCum_getD _ _ _ _ (by omega)] at h
    rw [hingeCum_getD _ _ _ _ (by omega), hingeCum_getD _ _ _ _ (by omega)]
    have h' : hingeNode k (j + 1) = hingeNode k j := by
      have := mul_right_cancel₀ hl.ne' h
      exact_mod_cast this
    have : hingeNode k (j + 2) = hingeNode k (j + 1) + 1 := by
      revert h'
      unfold hingeNode
      split_ifs <;> omega
    rw [this]; push_cast; ring

theorem hingeCum_rising (m k : ℕ) (l : ℝ) (hl : 0 < l) : Rising (hingeCum m k l) := by
  intro i j hij hj
  rw [hingeCum_length] at hj
  rw [hingeCum_getD _ _ _ _ hj, hingeCum_getD _ _ _ _ (by omega)]
  have : (hingeNode k i : ℝ) ≤ hingeNode k j := by exact_mod_cast hingeNode_mono k i j hij
  exact mul_le_mul_of_nonneg_right this hl.le

/-- The result of `railContact` in terms of the pointers. -/
theorem HingedRail.contact_ok (h : HingedRail t m l k parts) (s0 : ℝ) (path : List ℝ) (els : List (ℕ × ℕ))
    (hc : railContact t parts (s0 :: path) = .ok els) :
    ∃ act : List ℕ, els = act.map (fun i => (t.rail.getD i 0, t.rail.getD (i + 1) 0)) ∧ (∀ i ∈ act, i + 1 < m) ∧
      activePointers (hingeCum m k l) (firstElementIdx (hingeCum m k l) s0) (s0 :: path) = act.map fun i : ℕ => (i : ℤ) := by
  obtain ⟨A, B, p, c, q, hrail, hA, hn, hels, _⟩ := h.split
  have hlen : (chainOf t.rail).length = m - 1 := by simp [length_chainOf, h.even.len]
  unfold railContact at hc
  simp only [hels, h.cum] at hc
  change (activeElements (chainOf t.rail).length (hingeCum m k l) (s0 :: path)).bind _ = _ at hc
  cases ha : activeElements (chainOf t.rail).length (hingeCum m k l) (s0 :: path) with
  | error e => rw [ha] at hc; simp [Except.bind] at hc
  | ok act =>
    rw [ha] at hc
    simp only [Except.bind] at hc
    have hsorted := activeElements_sorted _ _ _ _ ha
    cases hp : contactParts (parts.map fun p => p.elements.length) act with
    | error e => rw [hp] at hc; simp [bind, Except.bind] at hc
    | ok o =>
      rw [hp] at hc
      simp only [bind, Except.bind] at hc
      injection hc with hc
      have hlt : ∀ i ∈ act, i + 1 < m := by
        intro i hi
        have := hsorted.2 i hi
        have := h.lt
        omega
      refine ⟨act, ?_, hlt, ?_⟩
      · rw [← hc]
        apply List.map_congr_left
        intro i hi
        rw [← h.even.chain]
        exact h.even.element i (hlt i hi)
      · unfold activeElements at ha
        simp only at ha
        split_ifs at ha with hall
        injection ha with ha
        rw [List.all_eq_true] at hall
        rw [← ha, List.map_map]
        conv_lhs => rw [← List.map_id (activePointers _ _ _)]
        apply List.map_congr_left
        intro z hz
        have := hall z hz
        simp only [decide_eq_true_eq] at this
        simp only [id, Function.comp_apply]
        omega

theorem contactPartsFrom_first (sizes : List ℕ) (mx : ℕ) (act : List ℕ) (h : ∀ e ∈ act, e < mx) :
    contactPartsFrom sizes 0 mx act = .ok (act.map fun _ => 0) := by
  induction act with
  | nil => rfl
  | cons e es ih =>
    have he := h e (by simp)
    simp only [contactPartsFrom]
    rw [if_neg (by omega), ih fun x hx => h x (by simp [hx])]
    rfl

theorem activePointers_bounded (nodes : List ℝ) (b : ℕ) (xs : List ℝ) (i : ℤ) (h0 : 0 ≤ i) (hi : i ≤ b)
    (hx : ∀ x ∈ xs, x ≤ nodes.getD (b + 1) 0) : ∀ z ∈ activePointers nodes i xs, 0 ≤ z ∧ z ≤ b := by
  induction xs generalizing i with
  | nil => intro z hz; simp [activePointers] at hz
  | cons x xs ih =>
    have hnew : 0 ≤ (if i < (nodes.length : ℤ) - 2 ∧ x > nodes.getD (i + 1).toNat 0 then i + 1 else i) ∧
        (if i < (nodes.length : ℤ) - 2 ∧ x > nodes.getD (i + 1).toNat 0 then i + 1 else i) ≤ b := by
      split_ifs with hc
      · refine ⟨by omega, ?_⟩
        by_contra hb
        have : i = b := by omega
        subst this
        have h1 := hx x (by simp)
        have h2 := hc.2
        rw [show ((b : ℤ) + 1).toNat = b + 1 by omega] at h2
        linarith
      · exact ⟨h0, hi⟩
    intro z hz
    simp only [activePointers, List.mem_cons] at hz
    rcases hz with rfl | hz
    · exact hnew
    · exact ih _ hnew.1 hnew.2 (fun y hy => hx y (by simp [hy])) z hz

theorem HingedRail.start (h : HingedRail t m l k parts) (s0 : ℝ) (h0 : 0 ≤ s0) (h1 : s0 < ((m : ℝ) - 1) * l) :
    ∃ i : ℕ, firstElementIdx (hingeCum m k l) s0 = i ∧ i + 1 < m + 3 ∧ (hingeNode k i : ℝ) * l ≤ s0 ∧ s0 < (hingeNode k (i + 1) : ℝ) * l := by
  have hl := h.even.l_pos
  have hk := h.pos
  have hkm := h.lt
  have hz : hingeNode k 0 = 0 := by unfold hingeNode; omega
  have hlast : hingeNode k (m + 2) = m - 1 := by unfold hingeNode; split_ifs <;> omega
  obtain ⟨i, hi, hi1, hi2, hi3⟩ := firstElementIdx_rising (hingeCum m k l) (hingeCum_rising m k l hl) s0
    (by rw [hingeCum_getD _ _ _ _ (by omega), hz]; simpa using h0)
    (by
      rw [hingeCum_length, hingeCum_getD _ _ _ _ (by omega), show m + 3 - 1 = m + 2 by omega, hlast, Nat.cast_sub (by omega)]
      simpa using h1)
    (by rw [hingeCum_length]; omega)
  rw [hingeCum_length] at hi1
  rw [hingeCum_getD _ _ _ _ (by omega)] at hi2 hi3
  exact ⟨i, hi, hi1, hi2, hi3⟩

theorem HingedRail.place (h : HingedRail t m l k parts) (i : ℕ) (hi : i < m) : (t.store (t.rail.getD i 0)).pos 0 = (i : ℝ) * l := by
  rw [h.even.pos i hi]
  rfl

theorem nat_mul_lt {a b : ℕ} {l : ℝ} (hl : 0 < l) (h : (a : ℝ) * l < (b : ℝ) * l) : a < b := by
  have := lt_of_mul_lt_mul_right h hl.le
  exact_mod_cast this

theorem nat_mul_le {a b : ℕ} {l : ℝ} (hl : 0 < l) (h : a ≤ b) : (a : ℝ) * l ≤ (b : ℝ) * l := by
  have : (a : ℝ) ≤ b := by exact_mod_cast h
  exact mul_le_mul_of_nonneg_right this hl.le

/-- The contact of a wheel that stays before the hinge, by the numbers of the elements. -/
theorem HingedRail.before (h : HingedRail t m l k parts) (path : List ℝ) (hne : path ≠ []) (h0 : 0 ≤ path.headD 0)
    (h1 : path.headD 0 < ((k : ℝ) - 1) * l) (hmono : path.Pairwise (· ≤ ·))
    (hstep : ∀ j, j + 1 < path.length → path.getD (j + 1) 0 - path.getD j 0 ≤ l) (hend : ∀ s ∈ path, s ≤ ((k : ℝ) - 1) * l) :
    ∃ act, activeElements (m - 1) (hingeCum m k l) path = .ok act ∧
      contactParts [k - 1, 1, 1, m - k - 2] act = .ok (act.map fun _ => 0) ∧ act.length = path.length ∧
      ∀ j < path.length, act.getD j 0 + 1 < k ∧ (act.getD j 0 : ℝ) * l ≤ path.getD j 0 ∧
        path.getD j 0 ≤ ((act.getD j 0 + 1 : ℕ) : ℝ) * l := by
  have hl := h.even.l_pos
  have hk := h.pos
  have hkm := h.lt
  obtain ⟨s0, xs, rfl⟩ := List.exists_cons_of_ne_nil hne
  simp only [List.headD_cons] at h0 h1
  have hk2 : 2 ≤ k := by
    by_contra hc
    have : k = 1 := by omega
    subst this
    simp at h1
    linarith
  have hkc : ((k - 1 : ℕ) : ℝ) = (k : ℝ) - 1 := by rw [Nat.cast_sub hk]; simp
  rw [← hkc] at h1 hend
  have hkm' : ((k : ℝ)) + 2 ≤ m := by exact_mod_cast hkm
  obtain ⟨i, hi, hi1, hi2, hi3⟩ := h.start s0 h0 (by rw [hkc] at h1; nlinarith)
  have hik : i ≤ k - 2 := by
    have := nat_mul_lt hl (lt_of_le_of_lt hi2 h1)
    unfold hingeNode at this
    split_ifs at this <;> omega
  have hspec := activePointers_spec (hingeCum m k l) (s0 :: xs) s0 i (by rw [hingeCum_length]; exact hi1)
    (by rw [hingeCum_getD _ _ _ _ (by omega)]; exact hi2)
    (Or.inl (by rw [hingeCum_getD _ _ _ _ (by omega)]; exact hi3.le))
    (List.pairwise_cons.2 ⟨fun y hy => by
      rcases List.mem_cons.1 hy with rfl | hy
      · exact le_refl _
      · exact (List.pairwise_cons.1 hmono).1 y hy, hmono⟩)
    (by
      intro j hj c hc hx
      have hs : (s0 :: xs).getD j 0 - (s0 :: s0 :: xs).getD j 0 ≤ l := by
        cases j with
        | zero => simpa using hl.le
        | succ j =>
          have := hstep j (by simpa using hj)
          simpa using this
      rw [hingeCum_length] at hc
      rw [hingeCum_getD _ _ _ _ (by omega)] at hx ⊢
      by_cases hck : c + 2 ≤ k - 1
      · have e1 : hingeNode k (c + 1) = c + 1 := by unfold hingeNode; split_ifs <;> omega
        have e2 : hingeNode k (c + 2) = c + 2 := by unfold hingeNode; split_ifs <;> omega
        rw [e1] at hx
        rw [e2]
        push_cast at hx ⊢
        nlinarith
      · have e2 : k - 1 ≤ hingeNode k (c + 2) := by unfold hingeNode; split_ifs <;> omega
        have hm : (s0 :: xs).getD j 0 ≤ ((k - 1 : ℕ) : ℝ) * l := by
          rw [List.getD_eq_getElem _ _ hj]
          exact hend _ (List.getElem_mem _)
        exact hm.trans (nat_mul_le hl e2))
  have hbound := activePointers_bounded (hingeCum m k l) (k - 2) (s0 :: xs) i (by omega) (by omega) (by
    intro x hx
    rw [hingeCum_getD _ _ _ _ (by omega)]
    have e : hingeNode k (k - 2 + 1) = k - 1 := by unfold hingeNode; split_ifs <;> omega
    rw [e]
    exact hend x hx)
  set is := activePointers (hingeCum m k l) i (s0 :: xs) with his
  have hislen : is.length = (s0 :: xs).length := activePointers_length _ _ _
  have hact : activeElements (m - 1) (hingeCum m k l) (s0 :: xs) = .ok (is.map Int.toNat) := by
    simp only [activeElements, hi, ← his]
    rw [if_pos]
    rw [List.all_eq_true]
    intro z hz
    have := hbound z hz
    simp only [decide_eq_true_eq]
    omega
  have hcp : contactParts [k - 1, 1, 1, m - k - 2] (is.map Int.toNat) = .ok ((is.map Int.toNat).map fun _ => 0) := by
    unfold contactParts
    simp only
    apply contactPartsFrom_first
    intro e he
    obtain ⟨z, hz, rfl⟩ := List.mem_map.1 he
    have := hbound z hz
    omega
  refine ⟨is.map Int.toNat, hact, hcp, by simp [hislen], ?_⟩
  intro j hj
  obtain ⟨b, hb, hb1, hb2, hb3⟩ := hspec j hj
  rw [hingeCum_length] at hb1
  rw [List.getD_eq_getElem _ _ (by simpa [hislen] using hj)]
  rw [List.getD_eq_getElem _ _ (by omega)] at hb
  have hbk := (hbound _ (List.getElem_mem (l := is) (by omega : j < is.length))).2
  rw [hb] at hbk
  simp only [List.getElem_map, hb, Int.toNat_natCast]
  rw [hingeCum_getD _ _ _ _ (by omega)] at hb2 hb3
  have e1 : hingeNode k b = b := by unfold hingeNode; split_ifs <;> omega
  have e2 : hingeNode k (b + 1) = b + 1 := by unfold hingeNode; split_ifs <;> omega
  rw [e1] at hb2
  rw [e2] at hb3
  refine ⟨by omega, hb2, ?_⟩
  rcases hb3 with hb3 | hb3
  · exact hb3
  · rw [hingeCum_length] at hb3
    omega

theorem HingedRail.contact_eq (h : HingedRail t m l k parts) (path : List ℝ) (act o : List ℕ)
    (ha : activeElements (m - 1) (hingeCum m k l) path = .ok act) (hp : contactParts [k - 1, 1, 1, m - k - 2] act = .ok o) :
    railContact t parts path = .ok (act.map fun i => (chainOf t.rail).getD i (0, 0)) := by
  obtain ⟨A, B, p, c, q, hrail, hA, hn, hels, hsize⟩ := h.split
  have hlen : (chainOf t.rail).length = m - 1 := by simp [length_chainOf, h.even.len]
  unfold railContact
  simp only [hels, h.cum]
  change (activeElements (chainOf t.rail).length (hingeCum m k l) path).bind _ = _
  rw [hlen, ha]
  simp only [Except.bind, hsize, hp]
  rfl

/-- **C140, as far as it holds.** A wheel that starts on the rail before the last node in front of the hinge, never goes back,
makes steps not longer than an element and does not go beyond that node: the calculation of the contact succeeds and at every time
index the wheel stands on its contact element. Missing: wheels at the hinge or beyond it (`C140_start_violated`, `C140_passed_violated`,
`C140_end_violated`). -/
theorem C140_before_partial (h : HingedRail t m l k parts) (path : List ℝ) (hne : path ≠ []) (h0 : 0 ≤ path.headD 0)
    (h1 : path.headD 0 < ((k : ℝ) - 1) * l) (hmono : path.Pairwise (· ≤ ·))
    (hstep : ∀ j, j + 1 < path.length → path.getD (j + 1) 0 - path.getD j 0 ≤ l) (hend : ∀ s ∈ path, s ≤ ((k : ℝ) - 1) * l) :
    ∃ els, railContact t parts path = .ok els ∧ els.length = path.length ∧
      ∀ j < path.length, Spec.StandsOn t (els.getD j (0, 0)) (path.getD j 0) := by
  have hkm := h.lt
  obtain ⟨act, ha, hc, hlen, hj⟩ := h.before path hne h0 h1 hmono hstep hend
  refine ⟨_, h.contact_eq path act _ ha hc, by simpa using hlen, fun j hjl => ?_⟩
  obtain ⟨b1, b2, b3⟩ := hj j hjl
  rw [List.getD_eq_getElem act _ (by omega)] at b1 b2 b3
  rw [List.getD_eq_getElem _ _ (by simpa [hlen] using hjl), List.getElem_map, ← h.even.chain, h.even.element _ (by omega)]
  unfold Spec.StandsOn
  simp only
  rw [h.place _ (by omega), h.place _ (by omega)]
  exact ⟨b2, b3⟩

/-- C140 is violated: a wheel that starts at the last node before the hinge or anywhere beyond it is given a contact element that
lies ahead of it. -/
theorem C140_start_violated (h : HingedRail t m l k parts) (path : List ℝ) (hne : path ≠ [])
    (h0 : ((k : ℝ) - 1) * l ≤ path.headD 0) (h1 : path.headD 0 < ((m : ℝ) - 1) * l) (els : List (ℕ × ℕ))
    (hok : railContact t parts path = .ok els) : Spec.LiesAhead t (els.getD 0 (0, 0)) (path.headD 0) := by
  have hl := h.even.l_pos
  have hk := h.pos
  have hkm := h.lt
  obtain ⟨s0, xs, rfl⟩ := List.exists_cons_of_ne_nil hne
  simp only [List.headD_cons] at h0 h1 ⊢
  have hkc : ((k - 1 : ℕ) : ℝ) = (k : ℝ) - 1 := by rw [Nat.cast_sub hk]; simp
  rw [← hkc] at h0
  obtain ⟨i, hi, hi1, hi2, hi3⟩ := h.start s0 (le_trans (by positivity) h0) h1
  obtain ⟨act, rfl, hlt, hptr⟩ := h.contact_ok s0 xs els hok
  have hik : k ≤ i := by
    have := nat_mul_lt hl (lt_of_le_of_lt h0 hi3)
    unfold hingeNode at this
    split_ifs at this <;> omega
  cases act with
  | nil => simp [activePointers] at hptr
  | cons a as =>
    simp only [activePointers, List.map_cons, List.cons.injEq, hi] at hptr
    have hne : ¬ ((i : ℤ) < ((hingeCum m k l).length : ℤ) - 2 ∧ s0 > (hingeCum m k l).getD ((i : ℤ) + 1).toNat 0) := by
      rintro ⟨-, hc⟩
      rw [show ((i : ℤ) + 1).toNat = i + 1 by omega, hingeCum_getD _ _ _ _ (by omega)] at hc
      linarith
    rw [if_neg hne] at hptr
    have hia : i = a := by exact_mod_cast hptr.1
    have ham := hlt a (by simp)
    simp only [List.map_cons, List.getD_cons_zero]
    unfold Spec.LiesAhead
    simp only
    rw [h.place a (by omega)]
    refine lt_of_lt_of_le hi3 (nat_mul_le hl ?_)
    subst hia
    unfold hingeNode
    split_ifs <;> omega

/-- C140 is violated: a wheel that runs over the hinge in steps of at most half an element. From half an element beyond the last
node before the hinge on, except exactly on the hinge, its contact element lies ahead of it; from one and a half elements behind the
hinge on, the contact element is the third one after the element on which the wheel stands. -/
theorem C140_passed_violated (h : HingedRail t m l k parts) (path : List ℝ) (hne : path ≠ []) (h0 : 0 ≤ path.headD 0)
    (h1 : path.headD 0 < ((m : ℝ) - 1) * l) (hmono : path.Pairwise (· ≤ ·))
    (hstep : ∀ j, j + 1 < path.length → path.getD (j + 1) 0 - path.getD j 0 ≤ l / 2) (hend : ∀ s ∈ path, s ≤ ((m : ℝ) - 1) * l)
    (els : List (ℕ × ℕ)) (hok : railContact t parts path = .ok els) (j : ℕ) (hj : j < path.length)
    (hs : ((k : ℝ) - 1) * l + l / 2 < path.getD j 0) :
    (path.getD j 0 ≠ (k : ℝ) * l → Spec.LiesAhead t (els.getD j (0, 0)) (path.getD j 0)) ∧
    (((k : ℝ) + 1) * l + l / 2 < path.getD j 0 → ∃ e, e + 4 < m ∧ Spec.StandsOn t (t.rail.getD e 0, t.rail.getD (e + 1) 0) (path.getD j 0) ∧
      els.getD j (0, 0) = (t.rail.getD (e + 3) 0, t.rail.getD (e + 4) 0)) := by
  have hl := h.even.l_pos
  have hk := h.pos
  have hkm := h.lt
  obtain ⟨s0, xs, rfl⟩ := List.exists_cons_of_ne_nil hne
  simp only [List.headD_cons] at h0 h1
  have hkc : ((k - 1 : ℕ) : ℝ) = (k : ℝ) - 1 := by rw [Nat.cast_sub hk]; simp
  have hlast : hingeNode k (m + 2) = m - 1 := by unfold hingeNode; split_ifs <;> omega
  obtain ⟨i, hi, hi1, hi2, hi3⟩ := h.start s0 h0 h1
  obtain ⟨act, rfl, hlt, hptr⟩ := h.contact_ok s0 xs els hok
  obtain ⟨b, hb, hb1, hb2, hb3⟩ := activePointers_repeated (hingeCum m k l) l (hingeCum_even m k l hl hk) (s0 :: xs) s0 i
    ⟨by rw [hingeCum_length]; exact hi1, by rw [hingeCum_getD _ _ _ _ (by omega)]; exact hi2,
      Or.inl (by rw [hingeCum_getD _ _ _ _ (by omega)]; exact hi3.le)⟩
    (List.pairwise_cons.2 ⟨fun y hy => by
      rcases List.mem_cons.1 hy with rfl | hy
      · exact le_refl _
      · exact (List.pairwise_cons.1 hmono).1 y hy, hmono⟩)
    (by
      intro c hc
      cases c with
      | zero => simpa using (half_pos hl).le
      | succ c =>
        have := hstep c (by simpa using hc)
        simpa using this)
    (by
      intro c hc
      rw [hingeCum_length, hingeCum_getD _ _ _ _ (by omega), show m + 3 - 1 = m + 2 by omega, hlast, Nat.cast_sub (by omega)]
      rw [List.getD_eq_getElem _ _ hc]
      have := hend _ (List.getElem_mem hc)
      simpa using this) j hj
  rw [← hi, hptr] at hb
  have hactlen : act.length = (s0 :: xs).length := by
    have := congrArg List.length hptr
    rw [activePointers_length, List.length_map] at this
    exact this.symm
  have hja : j < act.length := by omega
  rw [List.getD_eq_getElem _ _ (by simpa using hja), List.getElem_map] at hb
  have hab : act[j] = b := by exact_mod_cast hb
  have hbm : b + 1 < m := by
    rw [← hab]; exact hlt _ (List.getElem_mem hja)
  have hel : (act.map fun i => (t.rail.getD i 0, t.rail.getD (i + 1) 0)).getD j (0, 0) = (t.rail.getD b 0, t.rail.getD (b + 1) 0) := by
    rw [List.getD_eq_getElem _ _ (by simpa using hja), List.getElem_map, hab]
  rw [hel]
  rw [hingeCum_getD _ _ _ _ (by omega)] at hb2
  rw [hingeCum_getD _ _ _ _ (by omega), hingeCum_getD _ _ _ _ (by omega)] at hb3
  set s := (s0 :: xs).getD j 0
  have hkb : k ≤ b := by
    have : k - 1 < hingeNode k (b + 1) ∨ (hingeNode k (b + 1) = hingeNode k b ∧ k - 1 < hingeNode k b) := by
      rcases hb3 with h3 | ⟨h3, h4⟩
      · left
        apply nat_mul_lt hl
        rw [hkc]
        linarith
      · right
        refine ⟨by have := mul_right_cancel₀ hl.ne' h3; exact_mod_cast this, ?_⟩
        apply nat_mul_lt hl
        rw [hkc]
        linarith
    unfold hingeNode at this
    split_ifs at this <;> omega
  constructor
  · intro hsk
    unfold Spec.LiesAhead
    simp only
    rw [h.place b (by omega)]
    rcases hb3 with h3 | ⟨h3, h4⟩
    · rcases Nat.eq_or_lt_of_le hkb with hbk | hbk
      · subst hbk
        have e : hingeNode k (k + 1) = k := by unfold hingeNode; split_ifs <;> omega
        rw [e] at h3
        exact lt_of_le_of_ne h3 hsk
      · have e : hingeNode k (b + 1) < b := by unfold hingeNode; split_ifs <;> omega
        have : ((hingeNode k (b + 1) : ℕ) : ℝ) * l < (b : ℝ) * l := by
          have : (hingeNode k (b + 1) : ℝ) < b := by exact_mod_cast e
          exact mul_lt_mul_of_pos_right this hl
        linarith
    · have e0 : hingeNode k (b + 1) = hingeNode k b := by
        have := mul_right_cancel₀ hl.ne' h3
        exact_mod_cast this
      have e : hingeNode k b + 1 ≤ b := by
        revert e0
        unfold hingeNode
        split_ifs <;> omega
      have := nat_mul_le hl e
      push_cast at this
      nlinarith
  · intro hs2
    have hkb4 : k + 4 ≤ b := by
      have : k + 1 < hingeNode k (b + 1) ∨ (hingeNode k (b + 1) = hingeNode k b ∧ k + 1 < hingeNode k b) := by
        rcases hb3 with h3 | ⟨h3, h4⟩
        · left
          apply nat_mul_lt hl
          push_cast
          linarith
        · right
          refine ⟨by have := mul_right_cancel₀ hl.ne' h3; exact_mod_cast this, ?_⟩
          apply nat_mul_lt hl
          push_cast
          linarith
      unfold hingeNode at this
      split_ifs at this <;> omega
    have e1 : hingeNode k b = b - 3 := by unfold hingeNode; split_ifs <;> omega
    have e2 : hingeNode k (b + 1) = b - 3 + 1 := by unfold hingeNode; split_ifs <;> omega
    refine ⟨b - 3, by omega, ⟨?_, ?_⟩, ?_⟩
    · simp only
      rw [h.place _ (by omega), ← e1]
      exact hb2
    · simp only
      rw [h.place _ (by omega), ← e2]
      rcases hb3 with h3 | ⟨h3, h4⟩
      · exact h3
      · exfalso
        have := mul_right_cancel₀ hl.ne' h3
        have : hingeNode k (b + 1) = hingeNode k b := by exact_mod_cast this
        omega
    · rw [show b - 3 + 3 = b by omega, show b - 3 + 4 = b + 1 by omega]

/-- C140 is violated: a wheel that runs over the hinge in steps of at most half an element and comes nearer than three elements to
the end of the rail: the calculation stops with an exception, although the wheel is on the rail all the time. -/
theorem C140_end_violated (h : HingedRail t m l k parts) (path : List ℝ) (hne : path ≠ []) (h0 : 0 ≤ path.headD 0)
    (h1 : path.headD 0 < ((m : ℝ) - 1) * l) (hmono : path.Pairwise (· ≤ ·))
    (hstep : ∀ j, j + 1 < path.length → path.getD (j + 1) 0 - path.getD j 0 ≤ l / 2) (hend : ∀ s ∈ path, s ≤ ((m : ℝ) - 1) * l)
    (j : ℕ) (hj : j < path.length) (hs : ((k : ℝ) + 1) * l + l / 2 < path.getD j 0) (hs' : ((m : ℝ) - 4) * l < path.getD j 0) :
    ∃ e, railContact t parts path = .error e := by
  cases hok : railContact t parts path with
  | error e => exact ⟨e, rfl⟩
  | ok els =>
    exfalso
    have hl := h.even.l_pos
    obtain ⟨-, h2⟩ := C140_passed_violated h path hne h0 h1 hmono hstep hend els hok j hj (by nlinarith)
    obtain ⟨e, he, hst, -⟩ := h2 hs
    have h3 := hst.2
    simp only at h3
    rw [h.place _ (by omega)] at h3
    have : ((e + 1 : ℕ) : ℝ) ≤ (m : ℝ) - 4 := by
      have : ((e + 5 : ℕ) : ℝ) ≤ m := by exact_mod_cast he
      push_cast at this ⊢
      linarith
    have := mul_le_mul_of_nonneg_right this hl.le
    linarith

end hinged

/-! ### A case that meets the hypotheses -/

/-- The wheel of the example: it runs from 1.5 m to 6 m over a hinge at 3 m in steps of half a metre. -/
noncomputable def exampleCrossing : List ℝ := [3 / 2, 2, 5 / 2, 3, 7 / 2, 4, 9 / 2, 5, 11 / 2, 6]

theorem activePointers_stay (nodes : List ℝ) (i : ℕ) (x : ℝ) (xs : List ℝ) (h : x ≤ nodes.getD (i + 1) 0) :
    activePointers nodes i (x :: xs) = (i : ℤ) :: activePointers nodes i xs := by
  simp only [activePointers]
  rw [show ((i : ℤ) + 1).toNat = i + 1 by omega, if_neg (fun hc => absurd hc.2 (not_lt.2 h))]

theorem activePointers_move (nodes : List ℝ) (i : ℕ) (x : ℝ) (xs : List ℝ) (hi : i + 2 < nodes.length) (h : nodes.getD (i + 1) 0 < x) :
    activePointers nodes i (x :: xs) = ((i + 1 : ℕ) : ℤ) :: activePointers nodes ((i + 1 : ℕ) : ℤ) xs := by
  simp only [activePointers]
  rw [show ((i : ℤ) + 1).toNat = i + 1 by omega, if_pos ⟨by omega, h⟩]
  push_cast
  rfl

theorem exampleCrossing_active : activeElements 11 (hingeCum 12 3 1) exampleCrossing = .ok [1, 1, 2, 3, 4, 5, 6, 7, 8, 8] := by
  have e : hingeCum 12 3 1 = [0, 1, 2, 2, 3, 3, 4, 4, 5, 6, 7, 8, 9, 10, 11] := by
    simp [hingeCum, List.range_succ, hingeNode]
  rw [e]
  unfold exampleCrossing activeElements
  have e0 : firstElementIdx [0, 1, 2, 2, 3, 3, 4, 4, 5, 6, 7, 8, 9, 10, 11] (3 / 2 : ℝ) = ((1 : ℕ) : ℤ) := by
    simp only [firstElementIdx, List.map_cons, List.map_nil, argminFrom]
    norm_num [argminFrom]
  simp only
  rw [e0, activePointers_stay _ _ _ _ (by norm_num), activePointers_stay _ _ _ _ (by norm_num),
    activePointers_move _ _ _ _ (by norm_num) (by norm_num), activePointers_move _ _ _ _ (by norm_num) (by norm_num),
    activePointers_move _ _ _ _ (by norm_num) (by norm_num), activePointers_move _ _ _ _ (by norm_num) (by norm_num),
    activePointers_move _ _ _ _ (by norm_num) (by norm_num), activePointers_move _ _ _ _ (by norm_num) (by norm_num),
    activePointers_move _ _ _ _ (by norm_num) (by norm_num), activePointers_stay _ _ _ _ (by norm_num)]
  simp [activePointers]

/-- A generated track of 12 rail nodes with a hinge in its fourth node: all hypotheses of `C140_passed_violated` hold for a wheel that
runs over the hinge, the calculation succeeds, and the wheel at 6 m has the element from 8 m to 9 m as contact element. -/
example : ∃ (t : HorizontalTrack ℝ) (parts : List (RailPart ℝ)) (els : List (ℕ × ℕ)),
    createHorizontalTrack (fun p : Fin 3 → ℝ => p) 6 2 2 1 = .ok t ∧ HingedRail t 12 1 3 parts ∧
    exampleCrossing.Pairwise (· ≤ ·) ∧ (∀ j, j + 1 < exampleCrossing.length → exampleCrossing.getD (j + 1) 0 - exampleCrossing.getD j 0 ≤ 1 / 2) ∧
    railContact t parts exampleCrossing = .ok els ∧ exampleCrossing.getD 9 0 = 6 ∧
    (t.store (els.getD 9 (0, 0)).1).pos 0 = 8 ∧ (t.store (els.getD 9 (0, 0)).2).pos 0 = 9 := by
  obtain ⟨t, ht, -⟩ := C48_structure (fun p : Fin 3 → ℝ => p) 6 2 (by norm_num) 2 1
  have g : EvenRail t 12 1 := by
    have := (Generated.mk (by norm_num) (by norm_num) (by norm_num) ht : Generated _ 6 2 2 1 t).even
    norm_num at this
    exact this
  obtain ⟨parts, -, hr⟩ := HingedRail.make (k := 3) g (by norm_num) (by norm_num) (by norm_num) 1 1 0 1 le_rfl one_pos
  have hc := hr.contact_eq exampleCrossing _ [0, 0, 1, 2, 3, 3, 3, 3, 3, 3] exampleCrossing_active rfl
  refine ⟨t, parts, _, ht, hr, ?_, ?_, hc, rfl, ?_, ?_⟩
  · norm_num [exampleCrossing]
  · intro j hj
    simp only [exampleCrossing, List.length_cons, List.length_nil] at hj
    have hj' : j < 9 := by omega
    clear hj
    interval_cases j <;> norm_num [exampleCrossing]
  · rw [← g.chain]
    simp only [List.map_cons, List.getD_cons_succ, List.getD_cons_zero, List.map_nil]
    rw [g.element 8 (by norm_num)]
    simp only
    rw [hr.place 8 (by norm_num)]
    norm_num
  · rw [← g.chain]
    simp only [List.map_cons, List.getD_cons_succ, List.getD_cons_zero, List.map_nil]
    rw [g.element 8 (by norm_num)]
    simp only
    rw [hr.place 9 (by norm_num)]
    norm_num

end Rose
