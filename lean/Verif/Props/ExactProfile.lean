/-
C97: how a further segment of any number of points is joined to a profile.
-/
import Verif.Props.Profile

set_option linter.unusedSectionVars false

namespace Rose

/-- **C97, what is done.** A further segment with points `a, b, …` is put behind the profile drawn so far, or that profile turned around, so that its end
`e` is joined. The segment is turned around, which joins its last point, exactly if its second point `b` was taken. The pair of `e` and the taken
point `s` is the closest of the four pairs of an end of the profile with the first or second point. -/
theorem C97_exact (times : List ℝ) (time fct : ℝ) (segs : List ProfileSegment) (t : ProfileSegment) (a b : ℝ × ℝ) (rest : List (ℝ × ℝ))
    (ht : t.coords = a :: b :: rest) (pts0 pts : List DrawnPoint) (h0 : plotProfile times time fct segs = .ok pts0)
    (h : plotProfile times time fct (segs ++ [t]) = .ok pts) :
    ∃ x y first last e s, pts.map DrawnPoint.coord = x ++ y ∧
      (pts0.map DrawnPoint.coord).head? = some first ∧ (pts0.map DrawnPoint.coord).getLast? = some last ∧
      (x = pts0.map DrawnPoint.coord ∧ e = last ∨ x = (pts0.map DrawnPoint.coord).reverse ∧ e = first) ∧
      (y = t.coords ∧ s = a ∨ y = t.coords.reverse ∧ s = b) ∧ x.getLast? = some e ∧
      planeDist e s ≤ planeDist first a ∧ planeDist e s ≤ planeDist first b ∧ planeDist e s ≤ planeDist last a ∧
      planeDist e s ≤ planeDist last b := by
  obtain ⟨v0, k0, p0, d0, f0, a0, c0, -, -, rfl⟩ := plot_ok _ _ _ _ _ h0
  obtain ⟨v, k, p, d, f1, a1, c1, -, -, rfl⟩ := plot_ok _ _ _ _ _ h
  rw [f0] at f1
  simp only [Except.ok.injEq, Prod.mk.injEq] at f1
  obtain ⟨-, rfl⟩ := f1
  rw [pts_coord p d fct (cumulativeDistance_ok _ _ c1).2.2, pts_coord p0 d0 fct (cumulativeDistance_ok _ _ c0).2.2]
  rw [addAll_append, a0] at a1
  simp only [Profile.addAll] at a1
  have hne := (cumulativeDistance_ok _ _ c0).1
  cases hq : p0.add k0 t with
  | error e => rw [hq] at a1; simp at a1
  | ok q =>
    rw [hq] at a1
    simp only [Except.ok.injEq] at a1
    subst a1
    obtain ⟨i, hi, rfl⟩ := add_ok k0 p0 q t hq
    obtain ⟨first, hf⟩ : ∃ u, p0.coords.head? = some u := ⟨_, List.head?_eq_some_head hne⟩
    obtain ⟨last, hl⟩ : ∃ u, p0.coords.getLast? = some u := ⟨_, List.getLast?_eq_some_getLast hne⟩
    unfold closestIdx at hi
    rw [hf, hl, ht] at hi
    simp only [List.getElem?_cons_zero, List.getElem?_cons_succ, Except.ok.injEq, computeDistance_eq] at hi
    obtain ⟨s1, s2, -⟩ := argminList_spec (planeDist a first) [planeDist a last, planeDist b first, planeDist b last]
    rw [hi] at s1
    have t1 := s2 (planeDist a first) (by simp)
    have t2 := s2 (planeDist a last) (by simp)
    have t3 := s2 (planeDist b first) (by simp)
    have t4 := s2 (planeDist b last) (by simp)
    rw [planeDist_comm a first, planeDist_comm a last, planeDist_comm b first, planeDist_comm b last] at s1 t1 t2 t3 t4
    have hi4 : i < 4 := by
      by_contra hc
      rw [List.getElem?_eq_none (by simpa using hc)] at s1; simp at s1
    show ∃ x y first last e s, joinCoords i p0.coords t.coords = x ++ y ∧ _
    have hx : i = 0 ∨ i = 1 ∨ i = 2 ∨ i = 3 := by omega
    rcases hx with rfl | rfl | rfl | rfl
    · simp at s1
      exact ⟨p0.coords.reverse, t.coords, first, last, first, a, by simp [joinCoords], hf, hl, Or.inr ⟨rfl, rfl⟩, Or.inl ⟨rfl, rfl⟩,
        by simp [List.getLast?_reverse, hf], le_of_eq_of_le s1 t1, le_of_eq_of_le s1 t3, le_of_eq_of_le s1 t2, le_of_eq_of_le s1 t4⟩
    · simp at s1
      exact ⟨p0.coords, t.coords, first, last, last, a, by simp [joinCoords], hf, hl, Or.inl ⟨rfl, rfl⟩, Or.inl ⟨rfl, rfl⟩,
        hl, le_of_eq_of_le s1 t1, le_of_eq_of_le s1 t3, le_of_eq_of_le s1 t2, le_of_eq_of_le s1 t4⟩
    · simp at s1
      exact ⟨p0.coords.reverse, t.coords.reverse, first, last, first, b, by simp [joinCoords], hf, hl, Or.inr ⟨rfl, rfl⟩, Or.inr ⟨rfl, rfl⟩,
        by simp [List.getLast?_reverse, hf], le_of_eq_of_le s1 t1, le_of_eq_of_le s1 t3, le_of_eq_of_le s1 t2, le_of_eq_of_le s1 t4⟩
    · simp at s1
      exact ⟨p0.coords, t.coords.reverse, first, last, last, b, by simp [joinCoords], hf, hl, Or.inl ⟨rfl, rfl⟩, Or.inr ⟨rfl, rfl⟩,
        hl, le_of_eq_of_le s1 t1, le_of_eq_of_le s1 t3, le_of_eq_of_le s1 t2, le_of_eq_of_le s1 t4⟩

/-- **C97, first point nearest.** If the first point of a further segment is nearer to an end of the profile than its second point, and as near as its
last point, to any end, the two are joined at the ends closest to each other. Missing: other segments of more than two points (`C97_violated`). -/
theorem C97_first_point_partial (times : List ℝ) (time fct : ℝ) (segs : List ProfileSegment) (t : ProfileSegment) (a b : ℝ × ℝ) (rest : List (ℝ × ℝ))
    (ht : t.coords = a :: b :: rest) (pts0 pts : List DrawnPoint) (h0 : plotProfile times time fct segs = .ok pts0)
    (h : plotProfile times time fct (segs ++ [t]) = .ok pts) (z : ℝ × ℝ) (first last : ℝ × ℝ)
    (hf : (pts0.map DrawnPoint.coord).head? = some first) (hl : (pts0.map DrawnPoint.coord).getLast? = some last)
    (near : ∃ u ∈ [first, last], ∀ w ∈ [first, last], planeDist u a < planeDist w b ∧ planeDist u a ≤ planeDist w z) :
    ∃ x e, pts.map DrawnPoint.coord = x ++ t.coords ∧ (x = pts0.map DrawnPoint.coord ∨ x = (pts0.map DrawnPoint.coord).reverse) ∧
      x.getLast? = some e ∧ ∀ w ∈ [first, last], planeDist e a ≤ planeDist w a ∧ planeDist e a ≤ planeDist w z := by
  obtain ⟨x, y, first', last', e, s, h1, h2, h3, h4, h5, h6, m1, m2, m3, m4⟩ := C97_exact times time fct segs t a b rest ht pts0 pts h0 h
  obtain rfl : first = first' := Option.some.inj (hf.symm.trans h2)
  obtain rfl : last = last' := Option.some.inj (hl.symm.trans h3)
  obtain ⟨u, hu, near⟩ := near
  have hus : planeDist e s ≤ planeDist u a := by
    simp only [List.mem_cons, List.not_mem_nil, or_false] at hu
    rcases hu with rfl | rfl
    · exact m1
    · exact m3
  have he : e ∈ [first, last] := by
    rcases h4 with ⟨-, rfl⟩ | ⟨-, rfl⟩ <;> simp
  rcases h5 with ⟨rfl, rfl⟩ | ⟨-, rfl⟩
  · refine ⟨x, e, h1, h4.imp And.left And.left, h6, fun w hw => ⟨?_, hus.trans (near w hw).2⟩⟩
    simp only [List.mem_cons, List.not_mem_nil, or_false] at hw
    rcases hw with rfl | rfl
    · exact m1
    · exact m3
  · exact absurd (near e he).1 (not_lt.mpr hus)

/-- **C97, wrong end.** If the second point of a further segment is nearer to the ends of the profile than its first point, and the last point is further
away than the first one, the segment is joined with its last point, and so not at the closest ends. -/
theorem C97_second_point_violated (times : List ℝ) (time fct : ℝ) (segs : List ProfileSegment) (t : ProfileSegment) (a b : ℝ × ℝ)
    (rest : List (ℝ × ℝ)) (ht : t.coords = a :: b :: rest) (pts0 pts : List DrawnPoint) (h0 : plotProfile times time fct segs = .ok pts0)
    (h : plotProfile times time fct (segs ++ [t]) = .ok pts) (z : ℝ × ℝ) (hz : t.coords.getLast? = some z) (first last : ℝ × ℝ)
    (hf : (pts0.map DrawnPoint.coord).head? = some first) (hl : (pts0.map DrawnPoint.coord).getLast? = some last)
    (near : ∃ u ∈ [first, last], ∀ w ∈ [first, last], planeDist u b < planeDist w a)
    (far : ∀ u ∈ [first, last], ∀ w ∈ [first, last], planeDist u a < planeDist w z) :
    ∃ x y e, pts.map DrawnPoint.coord = x ++ y ∧ x.getLast? = some e ∧ y.head? = some z ∧ e ∈ [first, last] ∧
      ∀ w ∈ [first, last], planeDist w a < planeDist e z := by
  obtain ⟨x, y, first', last', e, s, h1, h2, h3, h4, h5, h6, m1, m2, m3, m4⟩ := C97_exact times time fct segs t a b rest ht pts0 pts h0 h
  obtain rfl : first = first' := Option.some.inj (hf.symm.trans h2)
  obtain rfl : last = last' := Option.some.inj (hl.symm.trans h3)
  obtain ⟨u, hu, near⟩ := near
  have hus : planeDist e s ≤ planeDist u b := by
    simp only [List.mem_cons, List.not_mem_nil, or_false] at hu
    rcases hu with rfl | rfl
    · exact m2
    · exact m4
  have he : e ∈ [first, last] := by
    rcases h4 with ⟨-, rfl⟩ | ⟨-, rfl⟩ <;> simp
  rcases h5 with ⟨-, rfl⟩ | ⟨rfl, rfl⟩
  · exact absurd (near e he) (not_lt.mpr hus)
  · exact ⟨x, _, e, h1, h6, by rw [List.head?_reverse, hz], he, fun w hw => far w hw e he⟩

/-- A profile from 0 to 1 on a straight track, and a further segment of three points. -/
theorem demo_profile (c : List (ℝ × ℝ)) (i : ℕ) (h : closestIdx [(0, 0), (1, 0)] c = .ok i) :
    ∃ pts0 pts, plotProfile [0] 0 2 [⟨[([1], 1)], [(0, 0), (1, 0)]⟩] = .ok pts0 ∧
      plotProfile [0] 0 2 ([⟨[([1], 1)], [(0, 0), (1, 0)]⟩] ++ [⟨[([2], 1)], c⟩]) = .ok pts ∧
      pts0.map DrawnPoint.coord = [(0, 0), (1, 0)] := by
  have hn : findNearest [0] 0 = .ok (0, 0) := by simp [findNearest, argminList]
  have h1 : Profile.addAll 0 ⟨[], [], []⟩ [⟨[([1], 1)], [(0, 0), (1, 0)]⟩] = .ok ⟨[1, 1], [0, 0], [(0, 0), (1, 0)]⟩ := by
    simp only [Profile.addAll, demo_first]
    rfl
  have h2 : Profile.addAll 0 ⟨[], [], []⟩ ([⟨[([1], 1)], [(0, 0), (1, 0)]⟩] ++ [⟨[([2], 1)], c⟩]) =
      .ok ⟨[1, 1] ++ List.replicate c.length 2, [0, 0] ++ List.replicate c.length 0, joinCoords i [(0, 0), (1, 0)] c⟩ := by
    rw [addAll_append, h1]
    simp only [Profile.addAll]
    rw [demo_add _ _ _ i h]
  obtain ⟨d1, e1⟩ : ∃ d, cumulativeDistance [((0 : ℝ), (0 : ℝ)), (1, 0)] = .ok d := ⟨_, rfl⟩
  obtain ⟨d2, e2⟩ : ∃ d, cumulativeDistance (joinCoords i [((0 : ℝ), (0 : ℝ)), (1, 0)] c) = .ok d := by
    unfold joinCoords
    split_ifs <;> exact ⟨_, rfl⟩
  refine ⟨_, _, by unfold plotProfile; simp only [hn, h1, e1]; rfl, by unfold plotProfile; simp only [hn, h2, e2]; rfl, ?_⟩
  exact pts_coord ⟨[1, 1], [0, 0], [(0, 0), (1, 0)]⟩ d1 2 (cumulativeDistance_ok _ _ e1).2.2

theorem axis_planeDist (a b : ℝ) : planeDist (a, 0) (b, 0) = |a - b| := by
  rw [← computeDistance_eq, axis_dist]

/-- The segment 2, 3, 5 is joined with its first point. -/
example : ∃ pts x e, plotProfile [0] 0 2 ([⟨[([1], 1)], [(0, 0), (1, 0)]⟩] ++ [⟨[([2], 1)], [(2, 0), (3, 0), (5, 0)]⟩]) = .ok pts ∧
    pts.map DrawnPoint.coord = x ++ [(2, 0), (3, 0), (5, 0)] ∧ x.getLast? = some e ∧ planeDist e (2, 0) ≤ 1 := by
  obtain ⟨pts0, pts, h0, h, hc⟩ := demo_profile [(2, 0), (3, 0), (5, 0)] _ rfl
  obtain ⟨x, e, h1, -, h3, h4⟩ := C97_first_point_partial _ _ _ _ ⟨[([2], 1)], [(2, 0), (3, 0), (5, 0)]⟩ (2, 0) (3, 0) [(5, 0)] rfl pts0 pts h0 h
    (5, 0) (0, 0) (1, 0) (by rw [hc]; rfl) (by rw [hc]; rfl) ⟨(1, 0), by simp, by
      simp only [List.mem_cons, List.not_mem_nil, or_false, forall_eq_or_imp, forall_eq, axis_planeDist]
      norm_num⟩
  refine ⟨pts, x, e, h, h1, h3, ((h4 (1, 0) (by simp)).1).trans ?_⟩
  rw [axis_planeDist]
  norm_num

/-- The segment 3, 2, 9 is joined with its last point, 8 or more away from the profile, while its first point is 2 away. -/
example : ∃ pts x y e, plotProfile [0] 0 2 ([⟨[([1], 1)], [(0, 0), (1, 0)]⟩] ++ [⟨[([2], 1)], [(3, 0), (2, 0), (9, 0)]⟩]) = .ok pts ∧
    pts.map DrawnPoint.coord = x ++ y ∧ x.getLast? = some e ∧ y.head? = some (9, 0) := by
  obtain ⟨pts0, pts, h0, h, hc⟩ := demo_profile [(3, 0), (2, 0), (9, 0)] _ rfl
  obtain ⟨x, y, e, h1, h2, h3, -⟩ := C97_second_point_violated _ _ _ _ ⟨[([2], 1)], [(3, 0), (2, 0), (9, 0)]⟩ (3, 0) (2, 0) [(9, 0)] rfl pts0 pts h0 h
    (9, 0) rfl (0, 0) (1, 0) (by rw [hc]; rfl) (by rw [hc]; rfl) ⟨(1, 0), by simp, by
      simp only [List.mem_cons, List.not_mem_nil, or_false, forall_eq_or_imp, forall_eq, axis_planeDist]
      norm_num [abs_of_pos, abs_of_neg]⟩ (by
      simp only [List.mem_cons, List.not_mem_nil, or_false, forall_eq_or_imp, forall_eq, axis_planeDist]
      norm_num [abs_of_pos, abs_of_neg])
  exact ⟨pts, x, y, e, h, h1, h2, h3⟩

end Rose
