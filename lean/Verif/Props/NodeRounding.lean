/-
C01, exact form: the mesh has one node for each set of coordinates rounded to nine decimals.
-/
import Verif.Props.Geometry
import Mathlib.Data.Rat.Floor
import Mathlib.Tactic.Linarith

set_option linter.unusedSectionVars false

namespace Rose

variable {K : Type*} [Field K] [LinearOrder K] [IsStrictOrderedRing K] {H : Type*} [DecidableEq H]

/-- Specification: a rounding to nine decimals, in units of `1e-9`: an integer at most half a unit away. Ties may go either way. -/
def RoundsToNano (r : K → ℤ) : Prop := ∀ x, |x * 1000000000 - r x| ≤ 1 / 2

/-- Points with the same rounded coordinates coincide. -/
theorem RoundsToNano.coincide {r : K → ℤ} (hr : RoundsToNano r) {p q : Fin 3 → K} (h : ∀ i, r (p i) = r (q i)) : Coincide p q := by
  intro i
  have h1 := abs_le.1 (hr (p i))
  have h2 := abs_le.1 (hr (q i))
  rw [h i] at h1
  rw [abs_le]
  constructor <;> linarith [h1.1, h1.2, h2.1, h2.2]

/-- **C01, which nodes the mesh has** Nodes are hashed by their coordinates rounded to nine decimals: after all calls there is, for every
node that was added, exactly one node in the mesh with the same rounded coordinates. -/
theorem C01_rounded_hash (hash : (Fin 3 → K) → H) (r : K → ℤ) (hr : RoundsToNano r)
    (hhash : ∀ p q, hash p = hash q ↔ ∀ i, r (p i) = r (q i)) (s0 : ℕ → NodeObj K) (calls : List (List ℕ)) :
    let fin := calls.foldl (addUniqueNodes hash) (s0, [])
    ∀ n ∈ calls.flatten, ∃! m, m ∈ fin.2 ∧ ∀ i, r ((fin.1 m).pos i) = r ((s0 n).pos i) := by
  intro fin n hn
  obtain ⟨hrep, -, hpos⟩ := C01_represented hash s0 calls
  obtain ⟨m, hm, ⟨_, _, _, ⟨-, hh⟩, -⟩, -⟩ := hrep n hn
  refine ⟨m, ⟨hm, by rw [hpos]; exact (hhash _ _).1 hh⟩, ?_⟩
  rintro m' ⟨hm', hp'⟩
  have hpair := C01_no_duplicates_partial hash s0 calls
  have key : ∀ a b, (∀ i, r ((fin.1 a).pos i) = r ((s0 n).pos i)) → (∀ i, r ((fin.1 b).pos i) = r ((s0 n).pos i)) →
      Coincide (fin.1 a).pos (fin.1 b).pos ∧ hash (fin.1 a).pos = hash (fin.1 b).pos := by
    intro a b ha hb
    have : ∀ i, r ((fin.1 a).pos i) = r ((fin.1 b).pos i) := fun i => (ha i).trans (hb i).symm
    exact ⟨hr.coincide this, (hhash _ _).2 this⟩
  have hp : ∀ i, r ((fin.1 m).pos i) = r ((s0 n).pos i) := by rw [hpos]; exact (hhash _ _).1 hh
  by_contra hne
  rcases List.mem_iff_getElem.1 hm with ⟨i, hi, hi'⟩
  rcases List.mem_iff_getElem.1 hm' with ⟨j, hj, hj'⟩
  have hij : i ≠ j := by rintro rfl; exact hne (hj'.symm.trans hi')
  rw [List.pairwise_iff_getElem] at hpair
  rcases lt_or_gt_of_ne hij with h | h
  · exact (hpair i j hi hj h).2 (by rw [hi', hj']; exact key _ _ hp hp')
  · exact (hpair j i hj hi h).2 (by rw [hi', hj']; exact key _ _ hp' hp)

/-- **C01, which nodes are merged** Two nodes are in the same place of the mesh exactly if their coordinates round to the same nine
decimals. -/
theorem C01_merged_iff (hash : (Fin 3 → K) → H) (r : K → ℤ) (hr : RoundsToNano r)
    (hhash : ∀ p q, hash p = hash q ↔ ∀ i, r (p i) = r (q i)) (s0 : ℕ → NodeObj K) (calls : List (List ℕ)) (n n' m m' : ℕ)
    (hm : Represents hash s0 (calls.foldl (addUniqueNodes hash) (s0, [])).2 m n)
    (hm' : Represents hash s0 (calls.foldl (addUniqueNodes hash) (s0, [])).2 m' n') :
    m = m' ↔ ∀ i, r ((s0 n).pos i) = r ((s0 n').pos i) := by
  have h1 := (hhash _ _).1 hm.choose_spec.choose_spec.2.1.2
  have h2 := (hhash _ _).1 hm'.choose_spec.choose_spec.2.1.2
  constructor
  · rintro rfl i
    exact (h1 i).symm.trans (h2 i)
  · intro h
    rw [represents_iff] at hm hm'
    have e : (fun k => sameNode hash (s0 k) (s0 n)) = fun k => sameNode hash (s0 k) (s0 n') := by
      funext k
      rw [Bool.eq_iff_iff, sameNode_iff, sameNode_iff]
      have a : ∀ x y, (∀ i, r ((s0 x).pos i) = r ((s0 y).pos i)) → Coincide (s0 k).pos (s0 x).pos ∧ hash (s0 k).pos = hash (s0 x).pos →
          Coincide (s0 k).pos (s0 y).pos ∧ hash (s0 k).pos = hash (s0 y).pos := by
        rintro x y hxy ⟨-, hk⟩
        have : ∀ i, r ((s0 k).pos i) = r ((s0 y).pos i) := fun i => ((hhash _ _).1 hk i).trans (hxy i)
        exact ⟨hr.coincide this, (hhash _ _).2 this⟩
      exact ⟨a n n' h, a n' n fun i => (h i).symm⟩
    rw [e, hm'] at hm
    exact (Option.some.inj hm).symm

/-- Rounding up from half a unit. -/
theorem floor_rounds : RoundsToNano fun x : ℚ => ⌊x * 1000000000 + 1 / 2⌋ := by
  intro x
  have h1 := Int.floor_le (x * 1000000000 + 1 / 2)
  have h2 := Int.lt_floor_add_one (x * 1000000000 + 1 / 2)
  rw [abs_le]
  constructor <;> linarith

/-- **C01, the rounded coordinates** The hash used by nodes: one mesh node for each triple of rounded coordinates. -/
theorem C01_rounded (s0 : ℕ → NodeObj ℚ) (calls : List (List ℕ)) :
    let fin := calls.foldl (addUniqueNodes roundedCoords) (s0, [])
    ∀ n ∈ calls.flatten, ∃! m, m ∈ fin.2 ∧ ∀ i, ⌊(fin.1 m).pos i * 10 ^ 9 + 1 / 2⌋ = ⌊(s0 n).pos i * 10 ^ 9 + 1 / 2⌋ := by
  have h := C01_rounded_hash roundedCoords (fun x : ℚ => ⌊x * 1000000000 + 1 / 2⌋) floor_rounds (fun p q => by
    unfold roundedCoords
    rw [Prod.mk.injEq, Prod.mk.injEq, Fin.forall_fin_succ, Fin.forall_fin_succ, Fin.forall_fin_succ]
    simp) s0 calls
  norm_num at h ⊢
  exact h

/-- Three nodes at `x = 0, 1` and a third of a unit beside 0: two mesh nodes. -/
example : let s0 : ℕ → NodeObj ℚ := fun n => { pos := ![if n = 1 then 1 else if n = 2 then 1 / 3000000000 else 0, 0, 0], index := none, idx := fun _ => none, act := fun _ => true, parts := [] }
    (addUniqueNodes roundedCoords (s0, []) [0, 1, 2]).2 = [0, 1] := by decide +kernel

end Rose
