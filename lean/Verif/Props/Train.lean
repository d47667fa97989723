/-
C34-C40: the train model.
-/
import Verif.Model.Train
import Verif.Props.MovingLoad
import Verif.Lemmas.Assembly
import Mathlib.Data.Matrix.Mul
import Mathlib.Data.List.Nodup

set_option linter.unusedSectionVars false

namespace Rose

/-! ### C34 -/

/-- Specification: the degrees of freedom of a train with the given bogies per cart and wheels per bogie. -/
def IsTrainDof (nWheels : ℕ → ℕ) (carts : List (List ℕ)) : TrainDof → Prop
  | .cartY i => i < carts.length
  | .cartRot i => i < carts.length
  | .bogieY b => ∃ c ∈ carts, b ∈ c
  | .bogieRot b => ∃ c ∈ carts, b ∈ c
  | .wheelY b j => (∃ c ∈ carts, b ∈ c) ∧ j < nWheels b

/-- Invariant: `L` lists the numbered dofs in order. -/
structure NumInv (start : ℕ) (s : Numbering) (L : List TrainDof) : Prop where
  nodup : L.Nodup
  next : s.next = start + L.length
  idx : ∀ d, s.idx d = if d ∈ L then some (start + L.idxOf d) else none

theorem NumInv.push {start : ℕ} {s : Numbering} {L : List TrainDof} (h : NumInv start s L) (d : TrainDof) (hd : d ∉ L) :
    NumInv start (s.push d) (L ++ [d]) := by
  refine ⟨?_, ?_, ?_⟩
  · rw [List.nodup_append]
    refine ⟨h.nodup, by simp, ?_⟩
    intro a ha b hb
    rw [List.mem_singleton] at hb
    rintro rfl
    exact hd (hb ▸ ha)
  · simp [Numbering.push, h.next]; omega
  · intro e
    simp only [Numbering.push, write]
    by_cases he : e = d
    · subst he
      simp [List.idxOf_append_of_notMem hd, h.next]
    · simp only [he, if_false]
      rw [h.idx]
      by_cases hL : e ∈ L
      · simp [hL, List.idxOf_append_of_mem hL]
      · simp [hL, he]

/-- What is numbered after some carts (and possibly some bogies of the next cart). -/
structure NumClosed (nWheels : ℕ → ℕ) (n : ℕ) (L : List TrainDof) (B : ℕ → Prop) : Prop where
  cartY : ∀ i, TrainDof.cartY i ∈ L ↔ i < n
  cartRot : ∀ i, TrainDof.cartRot i ∈ L ↔ i < n
  bogieY : ∀ b, TrainDof.bogieY b ∈ L ↔ B b
  bogieRot : ∀ b, TrainDof.bogieRot b ∈ L ↔ B b
  wheel : ∀ b j, TrainDof.wheelY b j ∈ L ↔ B b ∧ j < nWheels b

theorem push_wheels (start b m : ℕ) {s : Numbering} {L : List TrainDof} (h : NumInv start s L)
    (hw : ∀ j, TrainDof.wheelY b j ∉ L) :
    NumInv start ((List.range m).foldl (fun s j => s.push (.wheelY b j)) s)
      (L ++ (List.range m).map fun j => TrainDof.wheelY b j) := by
  induction m with
  | zero => simpa using h
  | succ m ih =>
    rw [List.range_succ, List.foldl_append, List.map_append, ← List.append_assoc]
    refine ih.push _ ?_
    simp only [List.mem_append, List.mem_map, List.mem_range, not_or]
    refine ⟨hw m, ?_⟩
    rintro ⟨j, hj, he⟩
    injection he
    omega

theorem numberBogie_inv (nWheels : ℕ → ℕ) (start n b : ℕ) {s : Numbering} {L : List TrainDof} {B : ℕ → Prop}
    (h : NumInv start s L) (hc : NumClosed nWheels n L B) :
    ∃ L', NumInv start (numberBogie nWheels s b) (L ++ L') ∧
      NumClosed nWheels n (L ++ L') (fun x => B x ∨ x = b) := by
  unfold numberBogie
  by_cases hb : B b
  · have h1 : s.idx (.bogieY b) ≠ none := by
      rw [h.idx, if_pos ((hc.bogieY b).2 hb)]; simp
    rw [if_neg (fun hh => h1 hh.1)]
    refine ⟨[], by simpa using h, ?_⟩
    have hB : (fun x => B x ∨ x = b) = B := by
      funext x
      exact propext ⟨fun hx => hx.elim id (fun e => e ▸ hb), Or.inl⟩
    rw [List.append_nil, hB]
    exact hc
  · have hY : TrainDof.bogieY b ∉ L := fun hx => hb ((hc.bogieY b).1 hx)
    have hR : TrainDof.bogieRot b ∉ L := fun hx => hb ((hc.bogieRot b).1 hx)
    have hW : ∀ j, TrainDof.wheelY b j ∉ L := fun j hx => hb ((hc.wheel b j).1 hx).1
    rw [if_pos ⟨by rw [h.idx, if_neg hY], by rw [h.idx, if_neg hR]⟩]
    have h1 := h.push _ hY
    have h2 := h1.push (.bogieRot b) (by simp [hR])
    have h3 := push_wheels start b (nWheels b) h2 (by simp [hW])
    refine ⟨[.bogieY b] ++ [.bogieRot b] ++ (List.range (nWheels b)).map fun j => TrainDof.wheelY b j, ?_, ?_⟩
    · simpa [List.append_assoc] using h3
    · refine ⟨?_, ?_, ?_, ?_, ?_⟩
      · intro i; simp [hc.cartY]
      · intro i; simp [hc.cartRot]
      · intro x; simp [hc.bogieY]
      · intro x; simp [hc.bogieRot]
      · intro x j
        simp only [List.mem_append, hc.wheel, List.mem_singleton, List.mem_map, List.mem_range, reduceCtorEq, or_false,
          false_or, TrainDof.wheelY.injEq]
        constructor
        · rintro (hx | ⟨k, hk, rfl, rfl⟩)
          · exact ⟨Or.inl hx.1, hx.2⟩
          · exact ⟨Or.inr rfl, hk⟩
        · rintro ⟨hx | rfl, hj⟩
          · exact Or.inl ⟨hx, hj⟩
          · exact Or.inr ⟨j, hj, rfl, rfl⟩

theorem numberBogies_inv (nWheels : ℕ → ℕ) (start n : ℕ) (bs : List ℕ) : ∀ {s : Numbering} {L : List TrainDof}
    {B : ℕ → Prop}, NumInv start s L → NumClosed nWheels n L B →
    ∃ L', NumInv start (bs.foldl (numberBogie nWheels) s) (L ++ L') ∧
      NumClosed nWheels n (L ++ L') (fun x => B x ∨ x ∈ bs) := by
  induction bs with
  | nil => intro s L B h hc; exact ⟨[], by simpa using h, by simpa using hc⟩
  | cons b bs ih =>
    intro s L B h hc
    obtain ⟨L1, h1, hc1⟩ := numberBogie_inv nWheels start n b h hc
    obtain ⟨L2, h2, hc2⟩ := ih h1 hc1
    refine ⟨L1 ++ L2, by simpa [List.append_assoc] using h2, ?_⟩
    have : (fun x => (B x ∨ x = b) ∨ x ∈ bs) = (fun x => B x ∨ x ∈ b :: bs) := by
      funext x; simp [or_assoc]
    rw [this] at hc2
    simpa [List.append_assoc] using hc2

theorem numberCart_inv (nWheels : ℕ → ℕ) (start n : ℕ) (bs : List ℕ) {s : Numbering} {L : List TrainDof}
    {B : ℕ → Prop} (h : NumInv start s L) (hc : NumClosed nWheels n L B) :
    ∃ L', NumInv start (numberCart nWheels s (n, bs)) (L ++ L') ∧
      NumClosed nWheels (n + 1) (L ++ L') (fun x => B x ∨ x ∈ bs) := by
  have h1 := h.push (.cartY n) (fun hx => lt_irrefl _ ((hc.cartY n).1 hx))
  have h2 := h1.push (.cartRot n) (by
    simp only [List.mem_append, List.mem_singleton, reduceCtorEq, or_false]
    exact fun hx => lt_irrefl _ ((hc.cartRot n).1 hx))
  have hc2 : NumClosed nWheels (n + 1) (L ++ [.cartY n] ++ [.cartRot n]) B := by
    refine ⟨?_, ?_, ?_, ?_, ?_⟩
    · intro i; simp [hc.cartY]; omega
    · intro i; simp [hc.cartRot]; omega
    · intro b; simp [hc.bogieY]
    · intro b; simp [hc.bogieRot]
    · intro b j; simp [hc.wheel]
  obtain ⟨L', h3, hc3⟩ := numberBogies_inv nWheels start (n + 1) bs h2 hc2
  exact ⟨[.cartY n] ++ [.cartRot n] ++ L', by simpa [numberCart, List.append_assoc] using h3,
    by simpa [List.append_assoc] using hc3⟩

theorem numberCarts_concat (nWheels : ℕ → ℕ) (start : ℕ) (carts : List (List ℕ)) (c : List ℕ) :
    numberCarts nWheels start (carts ++ [c]) =
      numberCart nWheels (numberCarts nWheels start carts) (carts.length, c) := by
  unfold numberCarts
  rw [List.length_append, List.length_singleton, List.range_succ, List.map_append, List.foldl_append]
  have h1 : (List.range carts.length).map (fun i => (i, (carts ++ [c]).getD i [])) =
      (List.range carts.length).map fun i => (i, carts.getD i []) := by
    apply List.map_congr_left
    intro i hi
    rw [List.mem_range] at hi
    simp [List.getElem?_append_left hi]
  rw [h1]
  simp

theorem numberCarts_inv (nWheels : ℕ → ℕ) (start : ℕ) (carts : List (List ℕ)) :
    ∃ L, NumInv start (numberCarts nWheels start carts) L ∧
      NumClosed nWheels carts.length L (fun b => ∃ c ∈ carts, b ∈ c) := by
  induction carts using List.reverseRecOn with
  | nil =>
    refine ⟨[], ⟨by simp, by simp [numberCarts], by simp [numberCarts]⟩, ?_⟩
    constructor <;> simp
  | append_singleton carts c ih =>
    obtain ⟨L, h, hc⟩ := ih
    obtain ⟨L', h1, hc1⟩ := numberCart_inv nWheels start carts.length c h hc
    refine ⟨L ++ L', by rw [numberCarts_concat]; exact h1, ?_⟩
    have : (fun x => (∃ d ∈ carts, x ∈ d) ∨ x ∈ c) = (fun b => ∃ d ∈ carts ++ [c], b ∈ d) := by
      funext x; simp [or_and_right, exists_or]
    rw [this] at hc1
    simpa using hc1

/-- C34: a dof has an index exactly if it belongs to the train; different dofs have different indices; the indices are
exactly the numbers from `start` up to the final running index. -/
theorem C34_numbered_once (nWheels : ℕ → ℕ) (start : ℕ) (carts : List (List ℕ)) :
    let s := numberCarts nWheels start carts
    (∀ d, (∃ k, s.idx d = some k) ↔ IsTrainDof nWheels carts d) ∧
    (∀ d e k, s.idx d = some k → s.idx e = some k → d = e) ∧
    (∀ k, (∃ d, s.idx d = some k) ↔ start ≤ k ∧ k < s.next) := by
  intro s
  obtain ⟨L, h, hc⟩ := numberCarts_inv nWheels start carts
  change NumInv start s L at h
  have hmem : ∀ d, d ∈ L ↔ IsTrainDof nWheels carts d := by
    intro d
    cases d with
    | cartY i => exact hc.cartY i
    | cartRot i => exact hc.cartRot i
    | bogieY b => exact hc.bogieY b
    | bogieRot b => exact hc.bogieRot b
    | wheelY b j => exact hc.wheel b j
  refine ⟨?_, ?_, ?_⟩
  · intro d
    rw [← hmem]
    rw [h.idx]
    by_cases hd : d ∈ L <;> simp [hd]
  · intro d e k h1 h2
    rw [h.idx] at h1 h2
    split_ifs at h1 with hd
    split_ifs at h2 with he
    injection h1 with h1
    injection h2 with h2
    exact List.idxOf_inj hd |>.1 (by omega)
  · intro k
    constructor
    · rintro ⟨d, hd⟩
      rw [h.idx] at hd
      split_ifs at hd with hm
      injection hd with hd
      have := List.idxOf_lt_length_of_mem hm
      have := h.next
      omega
    · rintro ⟨h1, h2⟩
      have hlt : k - start < L.length := by have := h.next; omega
      refine ⟨L[k - start], ?_⟩
      rw [h.idx, if_pos (List.getElem_mem _), h.nodup.idxOf_getElem]
      congr 1; omega

/-- C34: an index that a dof has after the first carts (for example that of a shared bogie) is kept. -/
theorem C34_first_visit_kept (nWheels : ℕ → ℕ) (start : ℕ) (carts more : List (List ℕ)) (d : TrainDof) (k : ℕ)
    (h : (numberCarts nWheels start carts).idx d = some k) : (numberCarts nWheels start (carts ++ more)).idx d = some k := by
  induction more using List.reverseRecOn with
  | nil => simpa using h
  | append_singleton more c ih =>
    rw [← List.append_assoc, numberCarts_concat]
    obtain ⟨L, h1, hc⟩ := numberCarts_inv nWheels start (carts ++ more)
    obtain ⟨L', h2, _⟩ := numberCart_inv nWheels start (carts ++ more).length c h1 hc
    rw [h1.idx] at ih
    rw [h2.idx]
    by_cases hd : d ∈ L
    · rw [if_pos hd] at ih
      rw [if_pos (by simp [hd]), List.idxOf_append_of_mem hd]
      exact ih
    · simp [hd] at ih

/-- C34: the bodies of one bogie are numbered consecutively: vertical, rotation, then its wheels. -/
theorem C34_consecutive (nWheels : ℕ → ℕ) (s : Numbering) (b : ℕ)
    (h : s.idx (.bogieY b) = none ∧ s.idx (.bogieRot b) = none) :
    let s' := numberBogie nWheels s b
    s'.idx (.bogieY b) = some s.next ∧ s'.idx (.bogieRot b) = some (s.next + 1) ∧
      (∀ j < nWheels b, s'.idx (.wheelY b j) = some (s.next + 2 + j)) ∧ s'.next = s.next + 2 + nWheels b := by
  intro s'
  have key : ∀ (m : ℕ) (s : Numbering), let r := (List.range m).foldl (fun s j => s.push (.wheelY b j)) s
      r.next = s.next + m ∧ (∀ j < m, r.idx (.wheelY b j) = some (s.next + j)) ∧
        r.idx (.bogieY b) = s.idx (.bogieY b) ∧ r.idx (.bogieRot b) = s.idx (.bogieRot b) := by
    intro m s
    induction m with
    | zero => simp
    | succ m ih =>
      simp only [List.range_succ, List.foldl_append, List.foldl_cons, List.foldl_nil] at ih ⊢
      obtain ⟨i1, i2, i3, i4⟩ := ih
      generalize (List.range m).foldl (fun s j => s.push (.wheelY b j)) s = r at i1 i2 i3 i4 ⊢
      refine ⟨by simp [Numbering.push, i1]; omega, ?_, by simp [Numbering.push, write, i3],
        by simp [Numbering.push, write, i4]⟩
      intro j hj
      simp only [Numbering.push, write, TrainDof.wheelY.injEq, true_and]
      by_cases hjm : j = m
      · subst hjm; simp [i1]
      · simp only [hjm, if_false]; exact i2 j (by omega)
  simp only [s', numberBogie, if_pos h]
  obtain ⟨k1, k2, k3, k4⟩ := key (nWheels b) ((s.push (.bogieY b)).push (.bogieRot b))
  refine ⟨?_, ?_, ?_, ?_⟩
  · rw [k3]; simp [Numbering.push, write]
  · rw [k4]; simp [Numbering.push, write]
  · intro j hj; rw [k2 j hj]; simp [Numbering.push]
  · rw [k1]; simp [Numbering.push]

/-- C34 on a train of two carts that share bogie 1, with two wheels per bogie. -/
example : let s := numberCarts (fun _ => 2) 0 [[0, 1], [1, 2]]
    s.next = 16 ∧ s.idx (.bogieY 1) = some 6 ∧ s.idx (.cartY 1) = some 10 ∧ s.idx (.wheelY 2 1) = some 15 := by
  decide +kernel

theorem numberBogie_next_le (nWheels : ℕ → ℕ) (s : Numbering) (b : ℕ) :
    (numberBogie nWheels s b).next ≤ s.next + (2 + nWheels b) := by
  by_cases h : s.idx (.bogieY b) = none ∧ s.idx (.bogieRot b) = none
  · have := (C34_consecutive nWheels s b h).2.2.2
    omega
  · simp [numberBogie, if_neg h]

/-- C34: the matrix size reserved for the train is large enough for every index. -/
theorem C34_size {K : Type*} (t : Train K) : t.numbering.next ≤ t.totalNdof := by
  unfold Train.numbering Train.totalNdof
  set nW := fun b => (t.bogie b).wheels.length
  have hb : ∀ (bs : List ℕ) (s : Numbering), (bs.foldl (numberBogie nW) s).next ≤ s.next + (bs.map fun b => 2 + nW b).sum := by
    intro bs
    induction bs with
    | nil => intro s; simp
    | cons b bs ih =>
      intro s
      rw [List.foldl_cons, List.map_cons, List.sum_cons]
      have h1 := ih (numberBogie nW s b)
      have h2 := numberBogie_next_le nW s b
      omega
  have hc : ∀ carts : List (List ℕ), (numberCarts nW 0 carts).next ≤
      (carts.map fun c => 2 + (c.map fun b => 2 + nW b).sum).sum := by
    intro carts
    induction carts using List.reverseRecOn with
    | nil => simp [numberCarts]
    | append_singleton carts c ih =>
      rw [numberCarts_concat, List.map_append, List.sum_append]
      have := hb c (((numberCarts nW 0 carts).push (.cartY carts.length)).push (.cartRot carts.length))
      simp only [numberCart]
      simp only [Numbering.push] at this ⊢
      simp only [List.map_cons, List.map_nil, List.sum_cons, List.sum_nil]
      omega
  have := hc (t.carts.map fun c => c.bogies.map Prod.fst)
  simpa [List.map_map, Function.comp_def] using this


/-! ### C35 and C36 -/

section matrices
variable {K : Type*} [Field K]

/-- Force at dof `a` for displacement `u` of a system with `n` dofs. -/
def matForce (n : ℕ) (A : ℕ → ℕ → K) (u : ℕ → K) (a : ℕ) : K := ∑ b ∈ Finset.range n, A a b * u b

/-- `uᵀ A u`. -/
def matEnergy (n : ℕ) (A : ℕ → ℕ → K) (u : ℕ → K) : K := ∑ a ∈ Finset.range n, u a * matForce n A u a

theorem addAt_eq (A : ℕ → ℕ → K) (i j : ℕ) (v : K) (a b : ℕ) :
    addAt A i j v a b = A a b + if a = i ∧ b = j then v else 0 := by
  unfold addAt; split_ifs <;> simp

theorem matForce_addAt (n : ℕ) (A : ℕ → ℕ → K) (i j : ℕ) (hj : j < n) (v : K) (u : ℕ → K) (a : ℕ) :
    matForce n (addAt A i j v) u a = matForce n A u a + if a = i then v * u j else 0 := by
  unfold matForce
  simp only [addAt_eq, add_mul, Finset.sum_add_distrib]
  congr 1
  by_cases ha : a = i
  · simp [ha, hj]
  · simp [ha]

/-- Force of one spring of a suspension. -/
def childForce (s : Suspension K) (u : ℕ → K) (c : ℕ) (d f : K) (a : ℕ) : K :=
  (if a = s.r then s.k * d ^ 2 * f * u s.r + s.k * d * f * u c else 0) + (if a = s.y then -s.k * f * u c else 0) +
    if a = c then -s.k * f * u s.y + s.k * d * f * u s.r + s.k * f * u c else 0

theorem matForce_fillChild (n : ℕ) (s : Suspension K) (A : ℕ → ℕ → K) (c : ℕ) (d f : K) (hy : s.y < n) (hr : s.r < n)
    (hc : c < n) (u : ℕ → K) (a : ℕ) :
    matForce n (fillChild s A c d f) u a = matForce n A u a + childForce s u c d f a := by
  unfold fillChild childForce
  simp only
  rw [matForce_addAt _ _ _ _ hc, matForce_addAt _ _ _ _ hr, matForce_addAt _ _ _ _ hc, matForce_addAt _ _ _ _ hy,
    matForce_addAt _ _ _ _ hc, matForce_addAt _ _ _ _ hr]
  split_ifs <;> ring

/-- The dofs of a suspension are below `n` and there is one factor per child. -/
def Suspension.Valid (n : ℕ) (s : Suspension K) : Prop :=
  s.y < n ∧ s.r < n ∧ (∀ c ∈ s.children, c.1 < n) ∧ s.factors.length = s.children.length

theorem matForce_fillSuspension (n : ℕ) (A : ℕ → ℕ → K) (s : Suspension K) (hs : s.Valid n) (u : ℕ → K) (a : ℕ) :
    matForce n (fillSuspension A s) u a = matForce n A u a + (if a = s.y then s.k * s.factors.sum * u s.y else 0) +
      ((s.children.zip s.factors).map fun p => childForce s u p.1.1 p.1.2 p.2 a).sum := by
  obtain ⟨hy, hr, hc, _⟩ := hs
  have key : ∀ (l : List ((ℕ × K) × K)) (A : ℕ → ℕ → K), (∀ p ∈ l, p.1.1 < n) →
      matForce n (l.foldl (fun A p => fillChild s A p.1.1 p.1.2 p.2) A) u a =
        matForce n A u a + (l.map fun p => childForce s u p.1.1 p.1.2 p.2 a).sum := by
    intro l
    induction l with
    | nil => intro A _; simp
    | cons p l ih =>
      intro A hl
      rw [List.foldl_cons, ih _ (fun q hq => hl q (by simp [hq])),
        matForce_fillChild n s A _ _ _ hy hr (hl p (by simp)), List.map_cons, List.sum_cons, add_assoc]
  unfold fillSuspension
  rw [key _ _ (fun p hp => hc _ (List.of_mem_zip hp).1), matForce_addAt _ _ _ _ hy]

theorem sum_zip_snd {α : Type*} (l : List α) (fs : List K) (h : fs.length = l.length) :
    ((l.zip fs).map fun p => p.2).sum = fs.sum := by
  have : (l.zip fs).map (fun p => p.2) = fs := by
    change (l.zip fs).map Prod.snd = fs
    rw [List.map_snd_zip]; omega
  rw [this]

/-- `Σ f_i d_i` over the springs of a suspension. -/
def Suspension.moment (s : Suspension K) : K := ((s.children.zip s.factors).map fun p => p.2 * p.1.2).sum

theorem list_sum_eq_mul {α : Type*} (l : List α) (f g : α → K) (c : K) (h : ∀ a ∈ l, f a = c * g a) :
    (l.map f).sum = c * (l.map g).sum := by
  rw [List.map_congr_left h, List.sum_map_mul_left]

theorem suspension_translation (n : ℕ) (A : ℕ → ℕ → K) (s : Suspension K) (hs : s.Valid n) (u : ℕ → K) (h : K)
    (hy : u s.y = h) (hr : u s.r = 0) (hc : ∀ c ∈ s.children, u c.1 = h) (a : ℕ) :
    matForce n (fillSuspension A s) u a = matForce n A u a + if a = s.r then s.k * h * s.moment else 0 := by
  rw [matForce_fillSuspension n A s hs, hy, add_assoc]
  congr 1
  have h1 : ((s.children.zip s.factors).map fun p => childForce s u p.1.1 p.1.2 p.2 a) =
      (s.children.zip s.factors).map fun p =>
        (if a = s.r then s.k * h else 0) * (p.2 * p.1.2) + (if a = s.y then -s.k * h else 0) * p.2 := by
    apply List.map_congr_left
    intro p hp
    have := hc p.1 (List.of_mem_zip hp).1
    simp only [childForce, hy, hr, this]
    split_ifs <;> ring
  rw [h1, List.sum_map_add, List.sum_map_mul_left, List.sum_map_mul_left, sum_zip_snd _ _ hs.2.2.2]
  unfold Suspension.moment
  split_ifs <;> ring

theorem suspension_energy (n : ℕ) (A : ℕ → ℕ → K) (s : Suspension K) (hs : s.Valid n) (u : ℕ → K) :
    matEnergy n (fillSuspension A s) u = matEnergy n A u +
      ((s.children.zip s.factors).map fun p => s.k * p.2 * (u s.y - p.1.2 * u s.r - u p.1.1) ^ 2).sum +
      2 * s.k * u s.y * u s.r * s.moment := by
  have hvalid := hs
  obtain ⟨hy, hr, hc, hlen⟩ := hs
  unfold matEnergy
  simp only [matForce_fillSuspension n A s hvalid, mul_add, Finset.sum_add_distrib]
  rw [add_assoc, add_assoc]
  congr 1
  have h1 : ∑ x ∈ Finset.range n, u x * (if x = s.y then s.k * s.factors.sum * u s.y else 0) =
      s.k * u s.y ^ 2 * ((s.children.zip s.factors).map fun p => p.2).sum := by
    rw [sum_zip_snd _ _ hlen]
    simp only [mul_ite, mul_zero, Finset.sum_ite_eq', Finset.mem_range, hy, if_true]
    ring
  have h2 : ∀ l : List ((ℕ × K) × K), (∀ p ∈ l, p.1.1 < n) →
      ∑ x ∈ Finset.range n, u x * (l.map fun p => childForce s u p.1.1 p.1.2 p.2 x).sum =
        (l.map fun p => s.k * p.2 * (p.1.2 ^ 2 * u s.r ^ 2 + 2 * p.1.2 * u s.r * u p.1.1 - 2 * u s.y * u p.1.1 +
          u p.1.1 ^ 2)).sum := by
    intro l
    induction l with
    | nil => simp
    | cons p l ih =>
      intro hl
      have hp := hl p (by simp)
      simp only [List.map_cons, List.sum_cons]
      rw [Finset.sum_congr rfl (fun x _ => mul_add _ _ _), Finset.sum_add_distrib,
        ih (fun q hq => hl q (by simp [hq]))]
      congr 1
      simp only [childForce, mul_add, Finset.sum_add_distrib, mul_ite, mul_zero, Finset.sum_ite_eq', Finset.mem_range,
        hy, hr, hp, if_true]
      ring
  rw [h1, h2 _ (fun p hp => hc _ (List.of_mem_zip hp).1)]
  unfold Suspension.moment
  rw [← List.sum_map_mul_left, ← List.sum_map_mul_left, ← List.sum_map_add, ← List.sum_map_add]
  congr 1
  apply List.map_congr_left
  intro p _
  ring

/-! Train level -/

theorem mem_distinctInOrder (l : List ℕ) (x : ℕ) : x ∈ distinctInOrder l ↔ x ∈ l := by
  have key : ∀ (l acc : List ℕ), x ∈ l.foldl (fun acc e => if e ∈ acc then acc else acc ++ [e]) acc ↔
      x ∈ acc ∨ x ∈ l := by
    intro l
    induction l with
    | nil => simp
    | cons e l ih =>
      intro acc
      rw [List.foldl_cons, ih]
      split_ifs with h
      · constructor
        · rintro (h1 | h1) <;> simp [h1]
        · rintro (h1 | h1)
          · exact Or.inl h1
          · rcases List.mem_cons.1 h1 with rfl | h1
            · exact Or.inl h
            · exact Or.inr h1
      · simp [or_assoc]
  simpa [distinctInOrder] using key l []

theorem nodup_distinctInOrder (l : List ℕ) : (distinctInOrder l).Nodup := by
  have key : ∀ (l acc : List ℕ), acc.Nodup →
      (l.foldl (fun acc e => if e ∈ acc then acc else acc ++ [e]) acc).Nodup := by
    intro l
    induction l with
    | nil => intro acc h; exact h
    | cons e l ih =>
      intro acc h
      rw [List.foldl_cons]
      apply ih
      split_ifs with he
      · exact h
      · rw [List.nodup_append]
        refine ⟨h, by simp, ?_⟩
        intro a ha b hb
        rw [List.mem_singleton] at hb
        rintro rfl
        exact he (hb ▸ ha)
  exact key l [] List.nodup_nil

theorem Train.mem_bogies (t : Train K) (b : ℕ) : b ∈ t.bogies ↔ ∃ c ∈ t.carts, ∃ d, (b, d) ∈ c.bogies := by
  unfold Train.bogies
  rw [mem_distinctInOrder]
  simp [List.mem_flatMap]

/-- The degrees of freedom of a train. -/
def Train.HasDof (t : Train K) : TrainDof → Prop
  | .cartY i => i < t.carts.length
  | .cartRot i => i < t.carts.length
  | .bogieY b => b ∈ t.bogies
  | .bogieRot b => b ∈ t.bogies
  | .wheelY b j => b ∈ t.bogies ∧ j < (t.bogie b).wheels.length

theorem Train.hasDof_iff (t : Train K) (d : TrainDof) :
    IsTrainDof (fun b => (t.bogie b).wheels.length) (t.carts.map fun c => c.bogies.map Prod.fst) d ↔ t.HasDof d := by
  cases d <;> simp [IsTrainDof, Train.HasDof, Train.mem_bogies]

/-- Every dof of the train has an index below the number of numbered dofs, and no two share one. -/
theorem Train.dof_lt (t : Train K) (d : TrainDof) (h : t.HasDof d) : t.dof d < t.numbering.next := by
  obtain ⟨h1, _, h3⟩ := C34_numbered_once (fun b => (t.bogie b).wheels.length) 0 (t.carts.map fun c => c.bogies.map Prod.fst)
  obtain ⟨k, hk⟩ := (h1 d).2 ((t.hasDof_iff d).2 h)
  have := ((h3 k).1 ⟨d, hk⟩).2
  unfold Train.dof Train.numbering
  rw [hk]
  exact this

theorem Train.dof_inj (t : Train K) (d e : TrainDof) (hd : t.HasDof d) (he : t.HasDof e) (h : t.dof d = t.dof e) :
    d = e := by
  obtain ⟨h1, h2, _⟩ := C34_numbered_once (fun b => (t.bogie b).wheels.length) 0 (t.carts.map fun c => c.bogies.map Prod.fst)
  obtain ⟨k, hk⟩ := (h1 d).2 ((t.hasDof_iff d).2 hd)
  obtain ⟨k', hk'⟩ := (h1 e).2 ((t.hasDof_iff e).2 he)
  unfold Train.dof Train.numbering at h
  rw [hk, hk'] at h
  simp only [Option.getD_some] at h
  subst h
  exact h2 d e k hk hk'

/-- Specification: the distribution factors are absent or there is one per connected body. -/
def Train.FactorsFit (t : Train K) : Prop :=
  (∀ c ∈ t.carts, c.factors = [] ∨ c.factors.length = c.bogies.length) ∧
    ∀ b ∈ t.bogies, (t.bogie b).factors = [] ∨ (t.bogie b).factors.length = (t.bogie b).wheels.length

theorem length_factorsOrOnes (n : ℕ) (fs : List K) (h : fs = [] ∨ fs.length = n) : (factorsOrOnes n fs).length = n := by
  unfold factorsOrOnes
  split_ifs with h0
  · simp
  · rcases h with h | h
    · exact absurd h h0
    · exact h

theorem Train.suspensions_valid (t : Train K) (ht : t.FactorsFit) (qc : Cart K → K) (qb : Bogie K → K) (n : ℕ)
    (hn : t.numbering.next ≤ n) : ∀ s ∈ t.suspensions qc qb, s.Valid n := by
  intro s hs
  unfold Train.suspensions at hs
  rcases List.mem_append.1 hs with hs | hs
  · rw [List.mem_flatMap] at hs
    obtain ⟨i, hi, hs⟩ := hs
    rw [List.mem_range] at hi
    rw [List.getElem?_eq_getElem hi] at hs
    simp only [Option.toList_some, List.map_cons, List.map_nil, List.mem_singleton] at hs
    subst hs
    have hmem : t.carts[i] ∈ t.carts := List.getElem_mem _
    refine ⟨(t.dof_lt (.cartY i) hi).trans_le hn, (t.dof_lt (.cartRot i) hi).trans_le hn, ?_, ?_⟩
    · intro c hc
      simp only [Train.cartSuspension, List.mem_map] at hc
      obtain ⟨⟨b, d⟩, hb, rfl⟩ := hc
      exact (t.dof_lt (.bogieY b) ((t.mem_bogies b).2 ⟨_, hmem, d, hb⟩)).trans_le hn
    · simp only [Train.cartSuspension, List.length_map]
      exact length_factorsOrOnes _ _ (ht.1 _ hmem)
  · rw [List.mem_map] at hs
    obtain ⟨b, hb, rfl⟩ := hs
    refine ⟨(t.dof_lt (.bogieY b) hb).trans_le hn, (t.dof_lt (.bogieRot b) hb).trans_le hn, ?_, ?_⟩
    · intro c hc
      simp only [Train.bogieSuspension, List.mem_map, List.mem_range] at hc
      obtain ⟨j, hj, rfl⟩ := hc
      exact (t.dof_lt (.wheelY b j) ⟨hb, hj⟩).trans_le hn
    · simp only [Train.bogieSuspension, List.length_map, List.length_range]
      exact length_factorsOrOnes _ _ (ht.2 _ hb)

/-- C35: the train stiffness and damping matrices are symmetric. -/
theorem C35_symmetric (t : Train K) (a b : ℕ) :
    t.stiffness a b = t.stiffness b a ∧ t.damping a b = t.damping b a := by
  have hchild : ∀ (s : Suspension K) (A : ℕ → ℕ → K) (c : ℕ) (d f : K), (∀ a b, A a b = A b a) →
      ∀ a b, fillChild s A c d f a b = fillChild s A c d f b a := by
    intro s A c d f hA a b
    simp only [fillChild, addAt_eq]
    rw [hA a b]
    simp only [and_comm (a := a = s.r), and_comm (a := a = s.y), and_comm (a := a = c)]
    ring
  have hsusp : ∀ (s : Suspension K) (A : ℕ → ℕ → K), (∀ a b, A a b = A b a) →
      ∀ a b, fillSuspension A s a b = fillSuspension A s b a := by
    intro s A hA
    unfold fillSuspension
    have : ∀ (l : List ((ℕ × K) × K)) (A : ℕ → ℕ → K), (∀ a b, A a b = A b a) → ∀ a b,
        l.foldl (fun A p => fillChild s A p.1.1 p.1.2 p.2) A a b = l.foldl (fun A p => fillChild s A p.1.1 p.1.2 p.2) A b a := by
      intro l
      induction l with
      | nil => intro A h; exact h
      | cons p l ih => intro A h; exact ih _ (hchild s A _ _ _ h)
    apply this
    intro a b
    simp only [addAt_eq]
    rw [hA a b]
    simp only [and_comm (a := a = s.y)]
  have hall : ∀ (l : List (Suspension K)) (A : ℕ → ℕ → K), (∀ a b, A a b = A b a) → ∀ a b,
      l.foldl fillSuspension A a b = l.foldl fillSuspension A b a := by
    intro l
    induction l with
    | nil => intro A h; exact h
    | cons s l ih => intro A h; exact ih _ (hsusp s A h)
  exact ⟨hall _ _ (fun _ _ => rfl) a b, hall _ _ (fun _ _ => rfl) a b⟩

/-- Specification: a displacement vector that raises every body by `h` without turning any. -/
def Train.Raised (t : Train K) (u : ℕ → K) (h : K) : Prop :=
  (∀ i < t.carts.length, u (t.dof (.cartY i)) = h ∧ u (t.dof (.cartRot i)) = 0) ∧
  (∀ b ∈ t.bogies, u (t.dof (.bogieY b)) = h ∧ u (t.dof (.bogieRot b)) = 0 ∧
    ∀ j < (t.bogie b).wheels.length, u (t.dof (.wheelY b j)) = h)

theorem foldl_translation (n : ℕ) (l : List (Suspension K)) (u : ℕ → K) (h : K) (hv : ∀ s ∈ l, s.Valid n)
    (hu : ∀ s ∈ l, u s.y = h ∧ u s.r = 0 ∧ ∀ c ∈ s.children, u c.1 = h) (A : ℕ → ℕ → K) (a : ℕ) :
    matForce n (l.foldl fillSuspension A) u a =
      matForce n A u a + (l.map fun s => if a = s.r then s.k * h * s.moment else 0).sum := by
  induction l generalizing A with
  | nil => simp
  | cons s l ih =>
    obtain ⟨h1, h2, h3⟩ := hu s (by simp)
    rw [List.foldl_cons, ih (fun s hs => hv s (by simp [hs])) (fun s hs => hu s (by simp [hs])),
      suspension_translation n A s (hv s (by simp)) u h h1 h2 h3, List.map_cons, List.sum_cons, add_assoc]

theorem Train.raised_suspensions (t : Train K) (qc : Cart K → K) (qb : Bogie K → K) (u : ℕ → K) (h : K)
    (hu : t.Raised u h) : ∀ s ∈ t.suspensions qc qb, u s.y = h ∧ u s.r = 0 ∧ ∀ c ∈ s.children, u c.1 = h := by
  intro s hs
  unfold Train.suspensions at hs
  rcases List.mem_append.1 hs with hs | hs
  · rw [List.mem_flatMap] at hs
    obtain ⟨i, hi, hs⟩ := hs
    rw [List.mem_range] at hi
    rw [List.getElem?_eq_getElem hi] at hs
    simp only [Option.toList_some, List.map_cons, List.map_nil, List.mem_singleton] at hs
    subst hs
    refine ⟨(hu.1 i hi).1, (hu.1 i hi).2, ?_⟩
    intro c hc
    simp only [Train.cartSuspension, List.mem_map] at hc
    obtain ⟨⟨b, d⟩, hb, rfl⟩ := hc
    exact (hu.2 b ((t.mem_bogies b).2 ⟨_, List.getElem_mem _, d, hb⟩)).1
  · rw [List.mem_map] at hs
    obtain ⟨b, hb, rfl⟩ := hs
    refine ⟨(hu.2 b hb).1, (hu.2 b hb).2.1, ?_⟩
    intro c hc
    simp only [Train.bogieSuspension, List.mem_map, List.mem_range] at hc
    obtain ⟨j, hj, rfl⟩ := hc
    exact (hu.2 b hb).2.2 j hj

/-- Specification: the springs of every body are balanced about its centre, `Σ f_i d_i = 0` (as for equal factors and
symmetric distances). -/
def Train.Balanced (t : Train K) : Prop :=
  (∀ c ∈ t.carts, ((c.bogies.zip (factorsOrOnes c.bogies.length c.factors)).map fun p => p.2 * p.1.2).sum = 0) ∧
  ∀ b ∈ t.bogies, (((t.bogie b).wheels.zip (factorsOrOnes (t.bogie b).wheels.length (t.bogie b).factors)).map
    fun p => p.2 * p.1.2).sum = 0

theorem range_map_getD {α : Type*} (l : List α) (d : α) : (List.range l.length).map (fun j => l.getD j d) = l := by
  apply List.ext_getElem
  · simp
  · intro i h1 h2
    simp [h2]

theorem Train.balanced_suspensions (t : Train K) (ht : t.Balanced) (qc : Cart K → K) (qb : Bogie K → K) :
    ∀ s ∈ t.suspensions qc qb, s.moment = 0 := by
  intro s hs
  unfold Train.suspensions at hs
  rcases List.mem_append.1 hs with hs | hs
  · rw [List.mem_flatMap] at hs
    obtain ⟨i, hi, hs⟩ := hs
    rw [List.mem_range] at hi
    rw [List.getElem?_eq_getElem hi] at hs
    simp only [Option.toList_some, List.map_cons, List.map_nil, List.mem_singleton] at hs
    subst hs
    have := ht.1 t.carts[i] (List.getElem_mem _)
    unfold Suspension.moment Train.cartSuspension
    rw [List.zip_map_left, List.map_map]
    exact this
  · rw [List.mem_map] at hs
    obtain ⟨b, hb, rfl⟩ := hs
    have := ht.2 b hb
    unfold Suspension.moment Train.bogieSuspension
    simp only
    generalize factorsOrOnes (t.bogie b).wheels.length (t.bogie b).factors = fs at this ⊢
    have e : (t.bogie b).wheels = (List.range (t.bogie b).wheels.length).map fun j => (t.bogie b).wheels.getD j (0, 0) :=
      (range_map_getD _ _).symm
    rw [e, List.zip_map_left, List.map_map] at this
    rw [List.zip_map_left, List.map_map]
    simpa [Function.comp_def] using this

/-- C35 as far as it holds: if the springs of every body are balanced, raising (or moving with equal vertical
velocity) the whole train produces no force and no moment at any dof. Missing: unbalanced bodies, such as the end carts
of the sprinter, `C35_violated`; `C35_raise_moment` gives the spurious moment. -/
theorem C35_translation_partial (t : Train K) (hf : t.FactorsFit) (hb : t.Balanced) (n : ℕ) (hn : t.numbering.next ≤ n)
    (u : ℕ → K) (h : K) (hu : t.Raised u h) (a : ℕ) :
    matForce n t.stiffness u a = 0 ∧ matForce n t.damping u a = 0 := by
  have key : ∀ (qc : Cart K → K) (qb : Bogie K → K),
      matForce n ((t.suspensions qc qb).foldl fillSuspension fun _ _ => 0) u a = 0 := by
    intro qc qb
    rw [foldl_translation n _ u h (t.suspensions_valid hf qc qb n hn) (t.raised_suspensions qc qb u h hu)]
    have : (t.suspensions qc qb).map (fun s => if a = s.r then s.k * h * s.moment else 0) =
        (t.suspensions qc qb).map fun _ => (0 : K) := by
      apply List.map_congr_left
      intro s hs
      rw [t.balanced_suspensions hb qc qb s hs]
      simp
    rw [this]
    simp [matForce]
  exact ⟨key _ _, key _ _⟩

/-- The force in general: raising the train by `h` gives no vertical force; at the rotation of each body there is the
moment `k h Σ f_i d_i`. -/
theorem C35_raise_moment (t : Train K) (hf : t.FactorsFit) (n : ℕ) (hn : t.numbering.next ≤ n)
    (u : ℕ → K) (h : K) (hu : t.Raised u h) (a : ℕ) :
    matForce n t.stiffness u a =
      ((t.suspensions Cart.stiffness Bogie.stiffness).map fun s => if a = s.r then s.k * h * s.moment else 0).sum := by
  unfold Train.stiffness
  rw [foldl_translation n _ u h (t.suspensions_valid hf _ _ n hn) (t.raised_suspensions _ _ u h hu)]
  simp [matForce]

/-- Specification: sum over the springs of a train of stiffness (times distribution factor) times squared elongation:
the body above has vertical displacement `y` and rotation `r`, the attachment at distance `d` moves by `y - d r`. -/
def springEnergy (t : Train K) (v : TrainDof → K) : K :=
  ((List.range t.carts.length).flatMap fun i => (t.carts[i]?.toList).flatMap fun c =>
    (c.bogies.zip (factorsOrOnes c.bogies.length c.factors)).map fun p =>
      c.stiffness * p.2 * (v (.cartY i) - p.1.2 * v (.cartRot i) - v (.bogieY p.1.1)) ^ 2).sum +
  (t.bogies.flatMap fun b =>
    ((List.range (t.bogie b).wheels.length).zip (factorsOrOnes (t.bogie b).wheels.length (t.bogie b).factors)).map fun p =>
      (t.bogie b).stiffness * p.2 *
        (v (.bogieY b) - ((t.bogie b).wheels.getD p.1 (0, 0)).2 * v (.bogieRot b) - v (.wheelY b p.1)) ^ 2).sum

theorem foldl_energy (n : ℕ) (l : List (Suspension K)) (u : ℕ → K) (hv : ∀ s ∈ l, s.Valid n) (A : ℕ → ℕ → K) :
    matEnergy n (l.foldl fillSuspension A) u = matEnergy n A u +
      (l.map fun s => ((s.children.zip s.factors).map fun p => s.k * p.2 * (u s.y - p.1.2 * u s.r - u p.1.1) ^ 2).sum).sum +
      (l.map fun s => 2 * s.k * u s.y * u s.r * s.moment).sum := by
  induction l generalizing A with
  | nil => simp
  | cons s l ih =>
    rw [List.foldl_cons, ih (fun s hs => hv s (by simp [hs])), suspension_energy n A s (hv s (by simp))]
    simp only [List.map_cons, List.sum_cons]
    ring

theorem springEnergy_eq (t : Train K) (u : ℕ → K) :
    ((t.suspensions Cart.stiffness Bogie.stiffness).map fun s =>
      ((s.children.zip s.factors).map fun p => s.k * p.2 * (u s.y - p.1.2 * u s.r - u p.1.1) ^ 2).sum).sum =
    springEnergy t fun d => u (t.dof d) := by
  have hflat : ∀ {α : Type} (l : List α) (f : α → List K), (l.flatMap f).sum = (l.map fun a => (f a).sum).sum := by
    intro α l f
    rw [List.flatMap_def, List.sum_flatten, List.map_map]
    rfl
  unfold Train.suspensions springEnergy
  rw [List.map_append, List.sum_append, hflat, hflat, List.map_flatMap, hflat]
  congr 1
  · congr 1
    apply List.map_congr_left
    intro i hi
    rw [List.mem_range] at hi
    rw [List.getElem?_eq_getElem hi]
    simp only [Option.toList_some, List.map_cons, List.map_nil, List.sum_cons, List.sum_nil, add_zero,
      List.flatMap_cons, List.flatMap_nil, List.append_nil]
    simp only [Train.cartSuspension]
    rw [List.zip_map_left, List.map_map]
    rfl
  · rw [List.map_map]
    congr 1
    apply List.map_congr_left
    intro b _
    simp only [Function.comp, Train.bogieSuspension]
    rw [List.zip_map_left, List.map_map]
    rfl

/-- C36 as far as it holds: for a train whose springs are balanced, `uᵀ K u` is the sum over springs of stiffness times
squared elongation. Missing: unbalanced bodies, `C36_violated`; `C36_energy_general` is the exact value. -/
theorem C36_energy_partial (t : Train K) (hf : t.FactorsFit) (hb : t.Balanced) (n : ℕ) (hn : t.numbering.next ≤ n)
    (u : ℕ → K) : matEnergy n t.stiffness u = springEnergy t fun d => u (t.dof d) := by
  unfold Train.stiffness
  rw [foldl_energy n _ u (t.suspensions_valid hf _ _ n hn), springEnergy_eq]
  have : (t.suspensions Cart.stiffness Bogie.stiffness).map (fun s => 2 * s.k * u s.y * u s.r * s.moment) =
      (t.suspensions Cart.stiffness Bogie.stiffness).map fun _ => (0 : K) := by
    apply List.map_congr_left
    intro s hs
    rw [t.balanced_suspensions hb _ _ s hs]
    simp
  rw [this]
  simp [matEnergy, matForce]

/-- The energy in general: for each body the term `2 k y r Σ f_i d_i` is added to the energy of the springs. -/
theorem C36_energy_general (t : Train K) (hf : t.FactorsFit) (n : ℕ) (hn : t.numbering.next ≤ n) (u : ℕ → K) :
    matEnergy n t.stiffness u = (springEnergy t fun d => u (t.dof d)) +
      ((t.suspensions Cart.stiffness Bogie.stiffness).map fun s => 2 * s.k * u s.y * u s.r * s.moment).sum := by
  unfold Train.stiffness
  rw [foldl_energy n _ u (t.suspensions_valid hf _ _ n hn), springEnergy_eq]
  simp [matEnergy, matForce]

end matrices

/-- C36 as far as it holds: for non-negative stiffnesses and factors and balanced springs the energy is not negative. -/
theorem C36_nonneg_partial {K : Type*} [Field K] [LinearOrder K] [IsStrictOrderedRing K] (t : Train K)
    (hf : t.FactorsFit) (hb : t.Balanced) (n : ℕ) (hn : t.numbering.next ≤ n) (u : ℕ → K)
    (hk : ∀ c ∈ t.carts, 0 ≤ c.stiffness ∧ ∀ f ∈ c.factors, 0 ≤ f)
    (hk' : ∀ b ∈ t.bogies, 0 ≤ (t.bogie b).stiffness ∧ ∀ f ∈ (t.bogie b).factors, 0 ≤ f) :
    0 ≤ matEnergy n t.stiffness u := by
  have hones : ∀ (m : ℕ) (fs : List K), (∀ f ∈ fs, 0 ≤ f) → ∀ f ∈ factorsOrOnes m fs, 0 ≤ f := by
    intro m fs h f hfm
    unfold factorsOrOnes at hfm
    split_ifs at hfm
    · rw [List.eq_of_mem_replicate hfm]; exact zero_le_one
    · exact h f hfm
  rw [C36_energy_partial t hf hb n hn u]
  unfold springEnergy
  apply add_nonneg
  · apply List.sum_nonneg
    intro x hx
    simp only [List.mem_flatMap, List.mem_range] at hx
    obtain ⟨i, hi, c, hc, hx⟩ := hx
    rw [List.getElem?_eq_getElem hi] at hc
    simp only [Option.toList_some, List.mem_singleton] at hc
    subst hc
    rw [List.mem_map] at hx
    obtain ⟨p, hp, rfl⟩ := hx
    obtain ⟨k1, k2⟩ := hk t.carts[i] (List.getElem_mem _)
    exact mul_nonneg (mul_nonneg k1 (hones _ _ k2 _ (List.of_mem_zip hp).2)) (sq_nonneg _)
  · apply List.sum_nonneg
    intro x hx
    simp only [List.mem_flatMap] at hx
    obtain ⟨b, hb, hx⟩ := hx
    rw [List.mem_map] at hx
    obtain ⟨p, hp, rfl⟩ := hx
    obtain ⟨k1, k2⟩ := hk' b hb
    exact mul_nonneg (mul_nonneg k1 (hones _ _ k2 _ (List.of_mem_zip hp).2)) (sq_nonneg _)

/-- The default double-decker bogies and carts are balanced: a one-cart train with symmetric distances. -/
def exampleTrain : Train ℚ where
  carts := [⟨50, 700, 2708, 64, [(0, 10), (1, -10)], []⟩]
  bogie := fun _ => ⟨3, 1, 4400, 6, [(1, 5 / 4), (1, -5 / 4)], []⟩

example : exampleTrain.FactorsFit ∧ exampleTrain.Balanced ∧ exampleTrain.numbering.next = 10 := by
  refine ⟨⟨?_, ?_⟩, ⟨?_, ?_⟩, ?_⟩
  · intro c hc; left; simp [exampleTrain] at hc; simp [hc]
  · intro b _; left; rfl
  · intro c hc; simp [exampleTrain] at hc; simp [hc, factorsOrOnes, List.replicate]
  · intro b _; simp [exampleTrain, factorsOrOnes, List.replicate]; norm_num
  · decide +kernel

/-- The default sprinter SLT with two carts (`rose/pre_process/default_trains.py:197-260`): the middle bogie is shared
and counts half for each cart. -/
def sprinterTrain : Train ℚ where
  carts := [⟨23000, 36700, 2468000, 50200, [(0, 1557 / 200), (1, -1557 / 200)], [1, 1 / 2]⟩,
    ⟨23000, 36700, 2468000, 50200, [(1, 1557 / 200), (2, -1557 / 200)], [1 / 2, 1]⟩]
  bogie := fun _ => ⟨1600, 85, 4400000, 590, [(1500, -7 / 5), (1500, 7 / 5)], []⟩

/-- C35 fails for the default sprinter: lifting the whole train by 1 produces a moment on the first cart. -/
theorem C35_violated :
    let u : ℕ → ℚ := fun a => if a ∈ [1, 3, 7, 11, 13] then 0 else 1
    sprinterTrain.Raised u 1 ∧ matForce sprinterTrain.numbering.next sprinterTrain.stiffness u
      (sprinterTrain.dof (.cartRot 0)) ≠ 0 := by
  intro u
  constructor
  · refine ⟨?_, ?_⟩
    · intro i hi
      have : i < 2 := hi
      interval_cases i <;> decide +kernel
    · intro b hb
      have : sprinterTrain.bogies = [0, 1, 2] := by decide +kernel
      rw [this] at hb
      simp only [List.mem_cons, List.not_mem_nil, or_false] at hb
      refine ⟨?_, ?_, ?_⟩
      · rcases hb with rfl | rfl | rfl <;> decide +kernel
      · rcases hb with rfl | rfl | rfl <;> decide +kernel
      · intro j hj
        have hj : j < 2 := hj
        rcases hb with rfl | rfl | rfl <;> interval_cases j <;> decide +kernel
  · decide +kernel

/-- C36 fails for the default sprinter: the energy of this displacement of the train is negative, although all spring
stiffnesses are positive. The first cart is raised and turned, the other bodies follow without straining their springs
as far as possible. -/
theorem C36_violated : ∃ u : ℕ → ℚ, matEnergy sprinterTrain.numbering.next sprinterTrain.stiffness u < 0 := by
  refine ⟨fun a => [8, -1, 8 + 1557 / 200, 0, 8 + 1557 / 200, 8 + 1557 / 200, 8 - 1557 / 200, 0, 8 - 1557 / 200,
    8 - 1557 / 200, 8 - 1557 / 200, 0, 8 - 1557 / 200, 0, 8 - 1557 / 200, 8 - 1557 / 200].getD a 0, ?_⟩
  decide +kernel


/-! ### C37 and C38 -/

section loads
variable {K : Type*} [Field K] [LinearOrder K] [IsStrictOrderedRing K]

/-- C37: the force vector of the train holds `-mass * g` at the vertical dof of every body (and the mass matrix its
mass): `h` is the assigned function of the mass. -/
theorem C37_force_vector (t : Train K) (h : K → K) :
    (∀ i c, t.carts[i]? = some c → writes (fun _ => 0) (t.massWrites h) (.cartY i) = h c.mass) ∧
    (∀ b ∈ t.bogies, writes (fun _ => 0) (t.massWrites h) (.bogieY b) = h (t.bogie b).mass ∧
      ∀ j (hj : j < (t.bogie b).wheels.length),
        writes (fun _ => 0) (t.massWrites h) (.wheelY b j) = h ((t.bogie b).wheels[j]).1) := by
  have hmem : ∀ w, w ∈ t.massWrites h ↔ ∃ (i : ℕ) (c : Cart K), t.carts[i]? = some c ∧ (w = (TrainDof.cartY i, h c.mass) ∨
      ∃ b ∈ c.bogies, w = (TrainDof.bogieY b.1, h (t.bogie b.1).mass) ∨
        ∃ j < (t.bogie b.1).wheels.length, w = (TrainDof.wheelY b.1 j, h ((t.bogie b.1).wheels.getD j (0, 0)).1)) := by
    intro w
    simp only [Train.massWrites, List.mem_flatMap, List.mem_range, Option.mem_toList, List.mem_cons, List.mem_map,
      Option.mem_def]
    constructor
    · rintro ⟨i, hi, c, hc, h1⟩
      refine ⟨i, c, hc, h1.imp id ?_⟩
      rintro ⟨b, hb, h2⟩
      refine ⟨b, hb, h2.imp id ?_⟩
      rintro ⟨j, hj, rfl⟩
      exact ⟨j, hj, rfl⟩
    · rintro ⟨i, c, hc, h1⟩
      refine ⟨i, (List.getElem?_eq_some_iff.1 hc).1, c, hc, h1.imp id ?_⟩
      rintro ⟨b, hb, h2⟩
      refine ⟨b, hb, h2.imp id ?_⟩
      rintro ⟨j, hj, rfl⟩
      exact ⟨j, hj, rfl⟩
  refine ⟨?_, ?_⟩
  · intro i c hc
    apply writes_eq_of_mem
    · intro w hw hp
      rw [hmem] at hw
      obtain ⟨i', c', hc', rfl | ⟨b, hb, rfl | ⟨j, hj, rfl⟩⟩⟩ := hw
      · simp only [TrainDof.cartY.injEq] at hp
        subst hp
        rw [hc] at hc'
        injection hc' with hc'
        rw [hc']
      · simp at hp
      · simp at hp
    · exact ⟨_, (hmem _).2 ⟨i, c, hc, Or.inl rfl⟩, rfl⟩
  · intro b hb
    obtain ⟨c, hc, d, hd⟩ := (t.mem_bogies b).1 hb
    obtain ⟨i, hi, hic⟩ := List.mem_iff_getElem.1 hc
    have hci : t.carts[i]? = some c := by rw [List.getElem?_eq_getElem hi, hic]
    refine ⟨?_, ?_⟩
    · apply writes_eq_of_mem
      · intro w hw hp
        rw [hmem] at hw
        obtain ⟨i', c', hc', rfl | ⟨b', hb', rfl | ⟨j, hj, rfl⟩⟩⟩ := hw
        · simp at hp
        · simp only [TrainDof.bogieY.injEq] at hp
          rw [hp]
        · simp at hp
      · exact ⟨_, (hmem _).2 ⟨i, c, hci, Or.inr ⟨(b, d), hd, Or.inl rfl⟩⟩, rfl⟩
    · intro j hj
      apply writes_eq_of_mem
      · intro w hw hp
        rw [hmem] at hw
        obtain ⟨i', c', hc', rfl | ⟨b', hb', rfl | ⟨j', hj', rfl⟩⟩⟩ := hw
        · simp at hp
        · simp at hp
        · simp only [TrainDof.wheelY.injEq] at hp
          obtain ⟨rfl, rfl⟩ := hp
          simp [hj]
      · exact ⟨_, (hmem _).2 ⟨i, c, hci, Or.inr ⟨(b, d), hd, Or.inr ⟨j, hj, rfl⟩⟩⟩, rfl⟩

/-- What the carts give to bogie `b`: each cart divides its weight over its bogies. -/
def cartShare (t : Train K) (g : K) (b : ℕ) : K :=
  (t.carts.map fun c => ((c.bogies.map Prod.fst).count b : K) * (-c.mass * g / c.bogies.length)).sum

theorem addBogieLoads (own : ℕ → K) (ext : K) (bs : List ℕ) (s : StaticLoads K) (b : ℕ) :
    let s' := bs.foldl (addBogieLoad own ext) s
    (s'.bogie b).getD (own b) = (s.bogie b).getD (own b) + (bs.count b : K) * ext ∧
      (b ∈ bs → (s'.bogie b).isSome) ∧ ((s.bogie b).isSome → (s'.bogie b).isSome) ∧ s'.wheel = s.wheel := by
  induction bs generalizing s with
  | nil => simp
  | cons x bs ih =>
    obtain ⟨h1, h2, h3, h4⟩ := ih (addBogieLoad own ext s x)
    simp only [List.foldl_cons]
    refine ⟨?_, ?_, ?_, ?_⟩
    · rw [h1]
      by_cases hx : b = x
      · subst hx
        simp [addBogieLoad, write]; ring
      · simp [addBogieLoad, write, hx, List.count_cons_of_ne (Ne.symm hx)]
    · intro hb
      rcases List.mem_cons.1 hb with rfl | hb
      · exact h3 (by simp [addBogieLoad, write])
      · exact h2 hb
    · intro hs
      apply h3
      by_cases hx : b = x
      · subst hx; simp [addBogieLoad, write]
      · simp [addBogieLoad, write, hx, hs]
    · rw [h4]; rfl

theorem cartLoads (t : Train K) (g : K) (own : ℕ → K) (cs : List (Cart K)) (s : StaticLoads K) (b : ℕ) :
    let s' := cs.foldl (cartLoad own g (0 / t.carts.length)) s
    (s'.bogie b).getD (own b) = (s.bogie b).getD (own b) +
        (cs.map fun c => ((c.bogies.map Prod.fst).count b : K) * (-c.mass * g / c.bogies.length)).sum ∧
      ((∃ c ∈ cs, b ∈ c.bogies.map Prod.fst) → (s'.bogie b).isSome) ∧ ((s.bogie b).isSome → (s'.bogie b).isSome) ∧
      s'.wheel = s.wheel := by
  induction cs generalizing s with
  | nil => simp
  | cons c cs ih =>
    simp only [List.foldl_cons, zero_div] at ih ⊢
    obtain ⟨h1, h2, h3, h4⟩ := ih (cartLoad own g 0 s c)
    obtain ⟨k1, k2, k3, k4⟩ := addBogieLoads own ((-c.mass * g + 0) / c.bogies.length) (c.bogies.map Prod.fst) s b
    refine ⟨?_, ?_, ?_, ?_⟩
    · rw [h1]
      unfold cartLoad
      rw [k1, List.map_cons, List.sum_cons, add_zero, add_assoc]
    · rintro ⟨c', hc', hb⟩
      rcases List.mem_cons.1 hc' with rfl | hc'
      · exact h3 (k2 hb)
      · exact h2 ⟨c', hc', hb⟩
    · exact fun hs => h3 (k3 hs)
    · rw [h4]; exact k4

/-- Own weight force of wheel `j` of bogie `b`. -/
def wheelOwn (t : Train K) (g : K) (b j : ℕ) : K := -((t.bogie b).wheels.getD j (0, 0)).1 * g

theorem distributeBogie_spec (t : Train K) (g : K) (s : StaticLoads K) (b b' j' : ℕ) :
    let s' := distributeBogie t g s b
    s'.bogie = s.bogie ∧
    s'.wheel b' j' = if b' = b ∧ j' < (t.bogie b).wheels.length then
        some ((s.wheel b j').getD (wheelOwn t g b j') + (s.bogie b).getD 0 / (t.bogie b).wheels.length)
      else s.wheel b' j' := by
  unfold distributeBogie
  simp only
  generalize (s.bogie b).getD 0 / ((t.bogie b).wheels.length : K) = e
  generalize (t.bogie b).wheels.length = m
  induction m with
  | zero => simp
  | succ m ih =>
    rw [List.range_succ, List.foldl_append]
    obtain ⟨h1, h2⟩ := ih
    generalize (List.range m).foldl (fun s' j => addWheelLoad (-((t.bogie b).wheels.getD j (0, 0)).1 * g) e b s' j) s = r
      at h1 h2 ⊢
    refine ⟨by simpa [addWheelLoad] using h1, ?_⟩
    simp only [List.foldl_cons, List.foldl_nil, addWheelLoad]
    by_cases hb : b' = b
    · subst hb
      by_cases hj : j' = m
      · subst hj
        rw [h2]
        simp [wheelOwn]
      · rw [h2]
        by_cases hlt : j' < m
        · simp [hj, hlt, show j' < m + 1 by omega]
        · simp [hj, hlt, show ¬ j' < m + 1 by omega]
    · rw [h2]; simp [hb]

theorem distributeBogies_spec (t : Train K) (g : K) (bs : List ℕ) (hnd : bs.Nodup) (s : StaticLoads K) (b j : ℕ) :
    let s' := bs.foldl (distributeBogie t g) s
    s'.bogie = s.bogie ∧
    s'.wheel b j = if b ∈ bs ∧ j < (t.bogie b).wheels.length then
        some ((s.wheel b j).getD (wheelOwn t g b j) + (s.bogie b).getD 0 / (t.bogie b).wheels.length)
      else s.wheel b j := by
  induction bs generalizing s with
  | nil => simp
  | cons x bs ih =>
    rw [List.nodup_cons] at hnd
    simp only [List.foldl_cons]
    obtain ⟨h1, h2⟩ := ih hnd.2 (distributeBogie t g s x)
    obtain ⟨k1, k2⟩ := distributeBogie_spec t g s x b j
    refine ⟨h1.trans k1, ?_⟩
    rw [h2, k1]
    by_cases hx : b = x
    · subst hx
      simp only [hnd.1, false_and, if_false, k2, List.mem_cons, true_or, true_and]
    · rw [k2]
      simp [hx]

/-- One run of the static load calculation. -/
theorem totalStaticLoad_spec (t : Train K) (g : K) (s : StaticLoads K) (b : ℕ) (hb : b ∈ t.bogies) :
    let own := -(t.bogie b).mass * g
    let s' := totalStaticLoad t g s
    s'.bogie b = some ((s.bogie b).getD own + cartShare t g b) ∧
    ∀ j < (t.bogie b).wheels.length, s'.wheel b j =
      some ((s.wheel b j).getD (wheelOwn t g b j) +
        ((s.bogie b).getD own + cartShare t g b) / (t.bogie b).wheels.length) := by
  intro own s'
  obtain ⟨c, hc, d, hd⟩ := (t.mem_bogies b).1 hb
  obtain ⟨k1, k2, _, k4⟩ := cartLoads t g (fun b => -(t.bogie b).mass * g) t.carts s b
  have hsome := k2 ⟨c, hc, List.mem_map.2 ⟨_, hd, rfl⟩⟩
  obtain ⟨v, hv⟩ := Option.isSome_iff_exists.1 hsome
  rw [hv] at k1
  simp only [Option.getD_some] at k1
  have hv' : (t.carts.foldl (cartLoad (fun b => -(t.bogie b).mass * g) g (0 / t.carts.length)) s).bogie b =
      some ((s.bogie b).getD own + cartShare t g b) := by rw [hv, k1]; rfl
  refine ⟨?_, ?_⟩
  · have := (distributeBogies_spec t g t.bogies (nodup_distinctInOrder _)
      (t.carts.foldl (cartLoad (fun b => -(t.bogie b).mass * g) g (0 / t.carts.length)) s) b 0).1
    change (totalStaticLoad t g s).bogie b = _
    unfold totalStaticLoad
    rw [this, hv']
  · intro j hj
    have := (distributeBogies_spec t g t.bogies (nodup_distinctInOrder _)
      (t.carts.foldl (cartLoad (fun b => -(t.bogie b).mass * g) g (0 / t.carts.length)) s) b j).2
    change (totalStaticLoad t g s).wheel b j = _
    unfold totalStaticLoad
    rw [this, if_pos ⟨hb, hj⟩, hv', k4]
    rfl

theorem sum_count_mul (U l : List ℕ) (hU : U.Nodup) (hl : ∀ x ∈ l, x ∈ U) (e : K) :
    (U.map fun b => (l.count b : K) * e).sum = l.length * e := by
  induction l with
  | nil => simp
  | cons x l ih =>
    have hx : x ∈ U := hl x (by simp)
    have h1 : (U.map fun b => ((x :: l).count b : K) * e) = U.map fun b => (l.count b : K) * e + if b = x then e else 0 := by
      apply List.map_congr_left
      intro b _
      by_cases hb : b = x
      · subst hb; simp; ring
      · simp [hb, List.count_cons_of_ne (Ne.symm hb)]
    have h2 : (U.map fun b => if b = x then e else 0).sum = e := by
      rw [← List.sum_toFinset _ hU]
      simp [hx]
    rw [h1, List.sum_map_add, ih (fun y hy => hl y (by simp [hy])), h2]
    simp; ring

theorem list_sum_comm {α β : Type*} (l : List α) (m : List β) (f : α → β → K) :
    (l.map fun a => (m.map fun b => f a b).sum).sum = (m.map fun b => (l.map fun a => f a b).sum).sum := by
  induction l with
  | nil => simp
  | cons a l ih => simp [ih, List.sum_map_add]

/-- Specification: the total mass of a train, each shared bogie once. -/
def totalMass (t : Train K) : K :=
  (t.carts.map Cart.mass).sum + (t.bogies.map fun b => (t.bogie b).mass + ((t.bogie b).wheels.map Prod.fst).sum).sum

/-- C37: on a fresh train with at least one bogie per cart and one wheel per bogie, every wheel gets a static load and
the loads sum to minus the weight of the whole train. -/
theorem C37_total_weight (t : Train K) (g : K) (hc : ∀ c ∈ t.carts, c.bogies ≠ [])
    (hw : ∀ b ∈ t.bogies, (t.bogie b).wheels ≠ []) :
    let s := totalStaticLoad t g StaticLoads.fresh
    (∀ b ∈ t.bogies, ∀ j < (t.bogie b).wheels.length, (s.wheel b j).isSome) ∧
    (t.bogies.map fun b => ((List.range (t.bogie b).wheels.length).map fun j => (s.wheel b j).getD 0).sum).sum =
      -totalMass t * g := by
  intro s
  have hs := totalStaticLoad_spec t g StaticLoads.fresh
  refine ⟨fun b hb j hj => by rw [(hs b hb).2 j hj]; rfl, ?_⟩
  have h1 : ∀ b ∈ t.bogies, ((List.range (t.bogie b).wheels.length).map fun j => (s.wheel b j).getD 0).sum =
      -(((t.bogie b).mass + ((t.bogie b).wheels.map Prod.fst).sum)) * g + cartShare t g b := by
    intro b hb
    have h2 : ((List.range (t.bogie b).wheels.length).map fun j => (s.wheel b j).getD 0) =
        (List.range (t.bogie b).wheels.length).map fun j => ((t.bogie b).wheels.getD j (0, 0)).1 * (-g) +
          (-(t.bogie b).mass * g + cartShare t g b) / (t.bogie b).wheels.length := by
      apply List.map_congr_left
      intro j hj
      rw [List.mem_range] at hj
      change ((totalStaticLoad t g StaticLoads.fresh).wheel b j).getD 0 = _
      rw [(hs b hb).2 j hj]
      simp [StaticLoads.fresh, wheelOwn]
    have h3 : ((List.range (t.bogie b).wheels.length).map fun j => ((t.bogie b).wheels.getD j (0, 0)).1).sum =
        ((t.bogie b).wheels.map Prod.fst).sum := by
      conv_rhs => rw [← range_map_getD (t.bogie b).wheels (0, 0)]
      rw [List.map_map]; rfl
    have h4 : ((t.bogie b).wheels.length : K) ≠ 0 := by
      have := List.length_pos_of_ne_nil (hw b hb)
      exact_mod_cast this.ne'
    rw [h2, List.sum_map_add, List.sum_map_mul_right, h3]
    simp only [List.map_const', List.length_range, List.sum_replicate, nsmul_eq_mul]
    field_simp
    ring
  rw [List.map_congr_left h1, List.sum_map_add]
  have h5 : (t.bogies.map (cartShare t g)).sum = -(t.carts.map Cart.mass).sum * g := by
    unfold cartShare
    rw [list_sum_comm]
    have : (t.carts.map fun c => (t.bogies.map fun b =>
        (((c.bogies.map Prod.fst).count b : ℕ) : K) * (-c.mass * g / c.bogies.length)).sum) =
        t.carts.map fun c => c.mass * (-g) := by
      apply List.map_congr_left
      intro c hcm
      rw [sum_count_mul t.bogies (c.bogies.map Prod.fst) (nodup_distinctInOrder _)]
      · have h4 : (c.bogies.length : K) ≠ 0 := by
          have := List.length_pos_of_ne_nil (hc c hcm)
          exact_mod_cast this.ne'
        rw [List.length_map]
        field_simp
      · intro x hx
        rw [List.mem_map] at hx
        obtain ⟨⟨x, d⟩, hx, rfl⟩ := hx
        exact (t.mem_bogies x).2 ⟨c, hcm, d, hx⟩
    rw [this, List.sum_map_mul_right]
    ring
  have h6 : (t.bogies.map fun b => -(((t.bogie b).mass + ((t.bogie b).wheels.map Prod.fst).sum)) * g).sum =
      (t.bogies.map fun b => (t.bogie b).mass + ((t.bogie b).wheels.map Prod.fst).sum).sum * (-g) := by
    rw [← List.sum_map_mul_right]
    congr 1
    apply List.map_congr_left
    intro b _; ring
  change _ + (t.bogies.map (cartShare t g)).sum = _
  rw [h5, h6]
  unfold totalMass
  ring

example : (∀ c ∈ sprinterTrain.carts, c.bogies ≠ []) ∧ ∀ b ∈ sprinterTrain.bogies, (sprinterTrain.bogie b).wheels ≠ [] := by
  constructor
  · intro c hc; simp [sprinterTrain] at hc; rcases hc with rfl | rfl <;> simp
  · intro b _; simp [sprinterTrain]

/-- The state after `k + 1` initialisations of the same train. -/
theorem C38_loads_after (t : Train K) (g : K) (k : ℕ) (b : ℕ) (hb : b ∈ t.bogies) :
    let own := -(t.bogie b).mass * g
    let s := (totalStaticLoad t g)^[k + 1] StaticLoads.fresh
    s.bogie b = some (own + (k + 1 : K) * cartShare t g b) ∧
    ∀ j < (t.bogie b).wheels.length, s.wheel b j = some (wheelOwn t g b j +
      ∑ i ∈ Finset.range (k + 1), (own + (i + 1 : K) * cartShare t g b) / (t.bogie b).wheels.length) := by
  induction k with
  | zero =>
    intro own s
    obtain ⟨h1, h2⟩ := totalStaticLoad_spec t g StaticLoads.fresh b hb
    refine ⟨?_, ?_⟩
    · change (totalStaticLoad t g StaticLoads.fresh).bogie b = _
      rw [h1]; simp [StaticLoads.fresh, own]
    · intro j hj
      change (totalStaticLoad t g StaticLoads.fresh).wheel b j = _
      rw [h2 j hj]; simp [StaticLoads.fresh, own]
  | succ k ih =>
    intro own s
    obtain ⟨i1, i2⟩ := ih
    obtain ⟨h1, h2⟩ := totalStaticLoad_spec t g ((totalStaticLoad t g)^[k + 1] StaticLoads.fresh) b hb
    have hs : s = totalStaticLoad t g ((totalStaticLoad t g)^[k + 1] StaticLoads.fresh) := Function.iterate_succ_apply' _ _ _
    rw [hs]
    refine ⟨?_, ?_⟩
    · rw [h1, i1]
      simp only [Option.getD_some]
      congr 1
      push_cast
      ring
    · intro j hj
      rw [h2 j hj, i1, i2 j hj]
      simp only [Option.getD_some]
      rw [Finset.sum_range_succ _ (k + 1)]
      congr 1
      push_cast
      ring

/-- C38 fails for every train with non-negative masses and a bogie that carries weight: a second initialisation makes
every wheel of that bogie heavier. -/
theorem C38_violated (t : Train K) (g : K) (hg : 0 < g) (hm : ∀ c ∈ t.carts, 0 ≤ c.mass) (b : ℕ) (hb : b ∈ t.bogies)
    (hbm : 0 < (t.bogie b).mass) (j : ℕ) (hj : j < (t.bogie b).wheels.length) :
    ((totalStaticLoad t g (totalStaticLoad t g StaticLoads.fresh)).wheel b j).getD 0 <
      ((totalStaticLoad t g StaticLoads.fresh).wheel b j).getD 0 := by
  have h1 := (C38_loads_after t g 0 b hb).2 j hj
  have h2 := (C38_loads_after t g 1 b hb).2 j hj
  change (totalStaticLoad t g StaticLoads.fresh).wheel b j = _ at h1
  change (totalStaticLoad t g (totalStaticLoad t g StaticLoads.fresh)).wheel b j = _ at h2
  rw [h1, h2]
  simp only [Option.getD_some, Finset.sum_range_succ, Finset.sum_range_zero, zero_add]
  have hlen : (0 : K) < (t.bogie b).wheels.length := by exact_mod_cast (by omega : 0 < (t.bogie b).wheels.length)
  have hshare : cartShare t g b ≤ 0 := by
    unfold cartShare
    have : ∀ l : List (Cart K), (∀ c ∈ l, 0 ≤ c.mass) →
        (l.map fun c => ((c.bogies.map Prod.fst).count b : K) * (-c.mass * g / c.bogies.length)).sum ≤ 0 := by
      intro l
      induction l with
      | nil => simp
      | cons c l ih =>
        intro hl
        rw [List.map_cons, List.sum_cons]
        have h0 := ih (fun c hc => hl c (by simp [hc]))
        have h3 : -c.mass * g / (c.bogies.length : K) ≤ 0 := by
          apply div_nonpos_of_nonpos_of_nonneg
          · have := mul_nonneg (hl c (by simp)) hg.le
            linarith
          · exact Nat.cast_nonneg _
        have h4 : (((c.bogies.map Prod.fst).count b : ℕ) : K) * (-c.mass * g / (c.bogies.length : K)) ≤ 0 :=
          mul_nonpos_of_nonneg_of_nonpos (Nat.cast_nonneg _) h3
        linarith
    exact this t.carts hm
  have hneg : (-(t.bogie b).mass * g + ((1 : ℕ) + 1 : K) * cartShare t g b) / ((t.bogie b).wheels.length : K) < 0 := by
    apply div_neg_of_neg_of_pos _ hlen
    have := mul_pos hbm hg
    push_cast
    linarith
  linarith

example : 0 < (exampleTrain.bogie 0).mass ∧ 0 ∈ exampleTrain.bogies ∧ 1 < (exampleTrain.bogie 0).wheels.length := by
  refine ⟨by norm_num [exampleTrain], by decide +kernel, by decide +kernel⟩

/-- C38 as far as it holds: without generated irregularities, the irregularities at the wheels are unchanged by every
further initialisation. Missing: the static loads (`C38_violated`) and generated irregularities
(`C38_irregularities_violated`). -/
theorem C38_irregularities_partial (s : ℕ → ℕ → K) (k : ℕ) : (initIrregularities none)^[k] (some s) = some s := by
  induction k with
  | zero => rfl
  | succ k ih =>
    rw [Function.iterate_succ_apply', ih]
    simp [initIrregularities]

/-- C38 fails with generated irregularities: after `k` initialisations the wheels have `k` times the generated
irregularity (for a fixed seed). -/
theorem C38_irregularities_violated (gen : ℕ → ℕ → K) (k : ℕ) :
    (initIrregularities (some gen))^[k + 1] none = some fun w i => (k + 1 : K) * gen w i := by
  induction k with
  | zero => simp [initIrregularities]
  | succ k ih =>
    rw [Function.iterate_succ_apply', ih]
    simp only [initIrregularities, Option.some.injEq]
    funext w i
    push_cast; ring

/-! ### C39 -/

theorem travelled_length (time vel : List K) (h : time.length = vel.length) (hne : time ≠ []) :
    (travelled time vel).length = time.length := by
  have : 0 < time.length := List.length_pos_of_ne_nil hne
  unfold travelled
  rw [runningSums_length, List.length_zipWith, npDiff_length, List.length_dropLast]
  omega

/-- C39: at every time index the wheel distance is the distance travelled by the train plus the start coordinate of the
cart plus the offsets of the bogie and the wheel. -/
theorem C39_offsets (time vel : List K) (h : time.length = vel.length) (hne : time ≠ []) (x0 db dw : K) (k : ℕ)
    (hk : k < time.length) :
    (wheelDistances time vel x0 db dw).length = time.length ∧
    (wheelDistances time vel x0 db dw).getD k 0 = (cartDistances time vel x0).getD k 0 + db + dw ∧
    (cartDistances time vel x0).getD k 0 = x0 +
      ∑ i ∈ Finset.range k, vel.getD i 0 * (time.getD (i + 1) 0 - time.getD i 0) := by
  have hl := travelled_length time vel h hne
  refine ⟨by simp [wheelDistances, cartDistances, hl], ?_, ?_⟩
  · unfold wheelDistances
    rw [List.getD_eq_getElem _ _ (by simpa [cartDistances, hl] using hk),
      List.getD_eq_getElem _ _ (by simpa [cartDistances, hl] using hk)]
    simp only [List.getElem_map]
  · unfold cartDistances
    rw [List.getD_eq_getElem _ _ (by simpa [hl] using hk), List.getElem_map,
      ← List.getD_eq_getElem _ 0 (by rw [hl]; exact hk), add_comm]
    congr 1
    unfold travelled
    have hlen : (List.zipWith (· * ·) vel.dropLast (npDiff time)).length = time.length - 1 := by
      rw [List.length_zipWith, npDiff_length, List.length_dropLast]; omega
    rw [runningSums_getD _ _ _ (by rw [hlen]; omega), zero_add]
    apply Finset.sum_congr rfl
    intro i hi
    rw [Finset.mem_range] at hi
    have e : List.zipWith (· * ·) vel.dropLast (npDiff time) = List.zipWith (· * ·) (npDiff time) vel.dropLast := by
      rw [List.zipWith_comm]
      congr 1
      funext a b
      exact mul_comm _ _
    rw [e]
    exact steps_getD time vel h i (by omega)

/-- C39: the distance between two wheels of a train is the same at all times. -/
theorem C39_constant (time vel : List K) (h : time.length = vel.length) (x0 db dw x0' db' dw' : K) (k l : ℕ)
    (hk : k < time.length) (hl : l < time.length) :
    (wheelDistances time vel x0 db dw).getD k 0 - (wheelDistances time vel x0' db' dw').getD k 0 =
      (wheelDistances time vel x0 db dw).getD l 0 - (wheelDistances time vel x0' db' dw').getD l 0 := by
  have hne : time ≠ [] := by rintro rfl; simp at hk
  have e := C39_offsets time vel h hne
  obtain ⟨_, a1, a2⟩ := e x0 db dw k hk
  obtain ⟨_, b1, b2⟩ := e x0' db' dw' k hk
  obtain ⟨_, c1, c2⟩ := e x0 db dw l hl
  obtain ⟨_, d1, d2⟩ := e x0' db' dw' l hl
  rw [a1, a2, b1, b2, c1, c2, d1, d2]
  ring

example : wheelDistances [0, 1, (2 : ℚ)] [3, 4, 5] 10 2 (-1) = [11, 14, 18] := by decide +kernel

/-! ### C40 -/

variable {ι : Type*} [Fintype ι] [DecidableEq ι]

/-- The displacement the code computes: `uf` solves the reduced system (rows and columns of the wheels deleted) with the
modified force; the wheels get the prescribed displacement. -/
def IsCodeInitial (A : Matrix ι ι K) (F : ι → K) (w : ι → Prop) [DecidablePred w] (u : ι → K) (disp : ι → K) : Prop :=
  (∀ i, w i → disp i = u i) ∧
    ∀ i : {i // ¬ w i}, ∑ j : {j // ¬ w j}, A i j * disp j = imposeDisplacement A F w u i

/-- Specification: equilibrium of every body that is not a wheel. -/
def BodyEquilibrium (A : Matrix ι ι K) (F : ι → K) (w : ι → Prop) (disp : ι → K) : Prop :=
  ∀ i, ¬ w i → A.mulVec disp i = F i

theorem split_wheels (A : Matrix ι ι K) (w : ι → Prop) [DecidablePred w] (d : ι → K) (i : ι) :
    A.mulVec d i = (∑ j : {j // ¬ w j}, A i j * d j) + A.mulVec (fun j => if w j then d j else 0) i := by
  have h1 : (∑ j : {j // ¬ w j}, A i j * d j) = ∑ j, A i j * (if w j then 0 else d j) := by
    rw [← Finset.sum_subtype (Finset.univ.filter fun j => ¬ w j) (by simp) (fun j => A i j * d j), Finset.sum_filter]
    apply Finset.sum_congr rfl
    intro j _
    by_cases hj : w j <;> simp [hj]
  rw [h1]
  simp only [Matrix.mulVec, dotProduct, ← Finset.sum_add_distrib]
  apply Finset.sum_congr rfl
  intro j _
  by_cases hj : w j <;> simp [hj]

/-- C40: what the code computes satisfies the equations of the bodies up to twice the force of the prescribed wheel
displacement: `K u = F + 2 K u_wheels`. -/
theorem C40_residual (A : Matrix ι ι K) (F : ι → K) (w : ι → Prop) [DecidablePred w] (u disp : ι → K)
    (h : IsCodeInitial A F w u disp) (i : ι) (hi : ¬ w i) :
    A.mulVec disp i = F i + 2 * A.mulVec (fun j => if w j then u j else 0) i := by
  have h1 : (fun j => if w j then disp j else 0) = fun j => if w j then u j else 0 := by
    funext j
    by_cases hj : w j
    · simp [hj, h.1 j hj]
    · simp [hj]
  rw [split_wheels A w disp i, h.2 ⟨i, hi⟩, h1]
  simp only [imposeDisplacement, Pi.add_apply]
  ring

/-- C40, exactly: the initial displacement is in equilibrium if and only if the prescribed wheel displacement exerts no
force on the other bodies. -/
theorem C40_iff (A : Matrix ι ι K) (F : ι → K) (w : ι → Prop) [DecidablePred w] (u disp : ι → K)
    (h : IsCodeInitial A F w u disp) :
    BodyEquilibrium A F w disp ↔ ∀ i, ¬ w i → A.mulVec (fun j => if w j then u j else 0) i = 0 := by
  constructor
  · intro he i hi
    have h1 := C40_residual A F w u disp h i hi
    rw [he i hi] at h1
    have : 2 * A.mulVec (fun j => if w j then u j else 0) i = 0 := by linarith
    linarith
  · intro hz i hi
    rw [C40_residual A F w u disp h i hi, hz i hi]
    ring

/-- C40 as far as it holds: with the wheels held at zero displacement. Missing: non-zero wheel displacements,
`C40_violated`. -/
theorem C40_zero_partial (A : Matrix ι ι K) (F : ι → K) (w : ι → Prop) [DecidablePred w] (u disp : ι → K)
    (hu : ∀ i, w i → u i = 0) (h : IsCodeInitial A F w u disp) : BodyEquilibrium A F w disp := by
  rw [C40_iff A F w u disp h]
  intro i _
  have : (fun j => if w j then u j else 0) = fun _ => (0 : K) := by
    funext j
    by_cases hj : w j <;> simp [hj, hu]
  rw [this]
  simp [Matrix.mulVec]

/-- C40 fails: a weightless body on one spring above a wheel that is lowered by 1 is placed 1 above its rest position
instead of 1 below, and is not in equilibrium. -/
theorem C40_violated :
    let A : Matrix (Fin 2) (Fin 2) ℚ := !![1, -1; -1, 1]
    let w : Fin 2 → Prop := fun i => i = 1
    let disp : Fin 2 → ℚ := ![1, -1]
    IsCodeInitial A 0 w (fun _ => -1) disp ∧ ¬ BodyEquilibrium A 0 w disp := by
  intro A w disp
  constructor
  · refine ⟨?_, ?_⟩
    · intro i hi
      simp only [w] at hi
      subst hi
      simp [disp]
    · rintro ⟨i, hi⟩
      have h0 : i = 0 := by
        fin_cases i
        · rfl
        · exact absurd rfl hi
      subst h0
      have huniv : (Finset.univ : Finset {j : Fin 2 // ¬ w j}) = {⟨0, hi⟩} := by
        ext ⟨j, hj⟩
        fin_cases j
        · simp
        · exact absurd rfl hj
      rw [huniv]
      simp [A, w, disp, imposeDisplacement, Matrix.mulVec, dotProduct, Fin.sum_univ_two]
  · intro h
    have := h 0 (by simp [w])
    simp [A, disp, Matrix.mulVec, dotProduct, Fin.sum_univ_two] at this

end loads

end Rose
