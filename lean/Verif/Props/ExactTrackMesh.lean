import Verif.Props.MeshUtils
import Verif.Props.NodeRounding

set_option linter.unusedSectionVars false

namespace Rose

variable {K : Type*} [Field K] [LinearOrder K] [IsStrictOrderedRing K] {H : Type*} [DecidableEq H]

/-! ### C48: when the mesh holds every node of the track -/

theorem trackStore_rounded (r' : K → ℤ) (hr' : RoundsToNano r') (n r : ℕ) (hr : 0 < r) (d h : K) (hd : 1 / 1000000000 < d / r)
    (h1 : r' (-1 - h) ≠ r' (-1)) (h2 : r' (-1 - h) ≠ r' 0) (a b : ℕ)
    (hc : ∀ i, r' ((trackStore n r d h a).pos i) = r' ((trackStore n r d h b).pos i)) : a = b := by
  have hrp : (0 : K) < r := by exact_mod_cast hr
  have hr1 : (1 : K) ≤ r := by exact_mod_cast hr
  have hd' : d / r ≤ d := by
    have h0 : (0 : K) < d / r := lt_trans (by norm_num) hd
    have hd0 : 0 < d := by
      have := mul_pos h0 hrp
      rwa [div_mul_cancel₀ _ hrp.ne'] at this
    exact div_le_self hd0.le hr1
  have key : ∀ (i j : ℕ) (s : K), 1 / 1000000000 < s → |(i : K) * s - (j : K) * s| ≤ 1 / 1000000000 → i = j := by
    intro i j s hs habs
    by_contra hne
    rw [← sub_mul, abs_mul, abs_of_pos (a := s) (lt_trans (by norm_num) hs)] at habs
    have h1 : (1 : K) ≤ |(i : K) - j| := by
      rcases Nat.lt_or_gt_of_ne hne with hlt | hlt
      · have : (i : K) + 1 ≤ j := by exact_mod_cast hlt
        rw [abs_of_neg (by linarith)]; linarith
      · have : (j : K) + 1 ≤ i := by exact_mod_cast hlt
        rw [abs_of_pos (by linarith)]; linarith
    have h2 : s ≤ |(i : K) - j| * s := le_mul_of_one_le_left (lt_trans (by norm_num) hs).le h1
    linarith
  have h01 : r' 0 ≠ r' (-1) := by
    intro e
    have := (hr'.coincide (p := ![(0 : K), 0, 0]) (q := ![(-1 : K), -1, -1]) (by intro i; fin_cases i <;> simpa using e)) 0
    simp at this
    norm_num at this
  have c0 := (hr'.coincide hc) 0
  have c1 := hc 1
  have hs2 : 1 / 1000000000 < d := lt_of_lt_of_le hd hd'
  unfold trackStore at c0 c1
  split_ifs at c0 c1 with g1 g2 g3 g4 g5 g6 g7 g8 <;>
    simp only [newNode, Matrix.cons_val_zero, Matrix.cons_val_one] at c0 c1
  · rw [mul_div_assoc, mul_div_assoc] at c0
    exact key a b _ hd c0
  · exact absurd c1 h01
  · exact absurd c1.symm h2
  · exact absurd c1.symm h01
  · have := key _ _ _ hs2 c0
    omega
  · exact absurd c1.symm h1
  · exact absurd c1 h2
  · exact absurd c1 h1
  · have := key _ _ _ hs2 c0
    omega

/-- **C48, exactly when the mesh is complete** For node distances above the merging tolerance, nodes hashed by coordinates rounded to nine
decimals and any soil depth: all nodes of rail, sleepers and soil are in the mesh if and only if the level of the soil nodes rounds neither
to the level of the sleepers nor to that of the rail. -/
theorem C48_mesh_iff (hash : (Fin 3 → K) → H) (r' : K → ℤ) (hr' : RoundsToNano r')
    (hhash : ∀ p q, hash p = hash q ↔ ∀ i, r' (p i) = r' (q i)) (n r : ℕ) (hn : 0 < n) (hr : 0 < r) (d h : K)
    (hd : 1 / 1000000000 < d / r) (t : HorizontalTrack K) (ht : createHorizontalTrack hash n r d h = .ok t) :
    (∀ k, k ∈ t.rail ∨ k ∈ t.sleepers ∨ k ∈ t.soil.map Prod.snd → k ∈ t.meshNodes) ↔
      r' (-1 - h) ≠ r' (-1) ∧ r' (-1 - h) ≠ r' 0 := by
  rw [createHorizontalTrack_eq hash n r hr d h] at ht
  simp only [Except.ok.injEq] at ht
  subst ht
  simp only
  have huniq := C01_rounded_hash hash r' hr' hhash (trackStore n r d h) (trackMeshCalls n r)
  obtain ⟨-, hmem, hpos⟩ := C01_represented hash (trackStore n r d h) (trackMeshCalls n r)
  simp only at huniq
  have hin : ∀ k, k ∈ (trackMeshCalls n r).flatten ↔ k < n * r + n + n := by
    intro k
    simp only [trackMeshCalls, List.flatten_cons, List.flatten_nil, List.append_nil, List.mem_append, List.mem_range,
      List.mem_flatMap, List.mem_map, List.mem_cons, List.not_mem_nil, or_false]
    constructor
    · rintro (h | ⟨i, hi, h | h⟩ | ⟨i, hi, h⟩ | ⟨i, hi, h | h⟩ | ⟨i, hi, h⟩)
      · omega
      · have : i * r < n * r := Nat.mul_lt_mul_of_pos_right hi hr
        omega
      all_goals omega
    · intro h
      by_cases h1 : k < n * r
      · exact Or.inl h1
      · by_cases h2 : k < n * r + n
        · exact Or.inr (Or.inl ⟨k - n * r, by omega, Or.inr (by omega)⟩)
        · exact Or.inr (Or.inr (Or.inr (Or.inr ⟨k - (n * r + n), by omega, by omega⟩)))
  have hnr : 0 < n * r := Nat.mul_pos hn hr
  constructor
  · intro hall
    have same : ∀ a b, a < n * r + n + n → a ∈ (List.foldl (addUniqueNodes hash) (trackStore n r d h, []) (trackMeshCalls n r)).2 →
        b ∈ (List.foldl (addUniqueNodes hash) (trackStore n r d h, []) (trackMeshCalls n r)).2 →
        (∀ i, r' ((trackStore n r d h b).pos i) = r' ((trackStore n r d h a).pos i)) → a = b := by
      intro a b ha hma hmb hr
      exact (huniq a ((hin a).2 ha)).unique ⟨hma, fun i => by rw [hpos]⟩ ⟨hmb, fun i => by rw [hpos]; exact hr i⟩
    have m0 := hall 0 (Or.inl (List.mem_range.2 hnr))
    have m1 := hall (n * r) (Or.inr (Or.inl (List.mem_map.2 ⟨0, List.mem_range.2 hn, rfl⟩)))
    have m2 := hall (n * r + n) (Or.inr (Or.inr (by
      rw [List.map_map]
      exact List.mem_map.2 ⟨0, List.mem_range.2 hn, rfl⟩)))
    have p0 : (trackStore n r d h 0).pos = ![0, 0, 0] := by rw [trackStore_rail n r d h 0 hnr]; simp
    have p1 : (trackStore n r d h (n * r)).pos = ![0, -1, 0] := by
      have := trackStore_sleeper n r d h 0 hn
      rw [Nat.add_zero] at this
      rw [this]; simp
    have p2 : (trackStore n r d h (n * r + n)).pos = ![0, -1 - h, 0] := by
      have := trackStore_bottom n r d h 0
      rw [Nat.add_zero] at this
      rw [this]; simp
    constructor
    · intro e
      have := same (n * r) (n * r + n) (by omega) m1 m2 (by
        rw [p1, p2]; intro i; fin_cases i <;> simp [e])
      omega
    · intro e
      have := same 0 (n * r + n) (by omega) m0 m2 (by
        rw [p0, p2]; intro i; fin_cases i <;> simp [e])
      omega
  · rintro ⟨h1, h2⟩ k hk
    have hlt : k < n * r + n + n := by
      simp only [List.mem_range, List.mem_map, Prod.exists] at hk
      rcases hk with h | ⟨i, hi, h⟩ | ⟨a, b, ⟨i, hi, h⟩, h'⟩
      · omega
      · omega
      · simp only [Prod.mk.injEq] at h
        omega
    obtain ⟨m, ⟨hm, hp⟩, -⟩ := huniq k ((hin k).2 hlt)
    rw [hpos] at hp
    rw [← trackStore_rounded r' hr' n r hr d h hd h1 h2 m k hp]
    exact hm

/-- With rounding to the nearest: a depth of 4 m gives the complete mesh, depths of 0.3 nanometres and of -1 m do not. -/
example : RoundsToNano (fun x : ℚ => ⌊x * 1000000000 + 1 / 2⌋) ∧ (1 : ℚ) / 1000000000 < (3 / 5) / (2 : ℕ) ∧
    (⌊((-1 - 4) * 1000000000 + 1 / 2 : ℚ)⌋ ≠ ⌊((-1) * 1000000000 + 1 / 2 : ℚ)⌋) ∧
    (⌊((-1 - 4) * 1000000000 + 1 / 2 : ℚ)⌋ ≠ ⌊(0 * 1000000000 + 1 / 2 : ℚ)⌋) ∧
    (⌊((-1 - 3 / 10000000000) * 1000000000 + 1 / 2 : ℚ)⌋ = ⌊((-1) * 1000000000 + 1 / 2 : ℚ)⌋) ∧
    (⌊((-1 - -1) * 1000000000 + 1 / 2 : ℚ)⌋ = ⌊(0 * 1000000000 + 1 / 2 : ℚ)⌋) := by
  refine ⟨floor_rounds, by norm_num, by norm_num, by norm_num, ?_, by norm_num⟩
  have h1 : ⌊((-1 - 3 / 10000000000) * 1000000000 + 1 / 2 : ℚ)⌋ = -1000000000 := Int.floor_eq_iff.2 (by norm_num)
  have h2 : ⌊((-1) * 1000000000 + 1 / 2 : ℚ)⌋ = -1000000000 := Int.floor_eq_iff.2 (by norm_num)
  rw [h1, h2]

end Rose
