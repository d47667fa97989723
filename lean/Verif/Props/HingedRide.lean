/-
C143: a train on a track with a semi-rigid hinge.
-/
import Verif.Model.HingedRide
import Verif.Props.HingedGenerated
import Verif.Props.DefaultRide

set_option linter.unusedSectionVars false

namespace Rose
open Finset

/-! ### A wheel on the parts of the rail -/

section wheel
variable {t : HorizontalTrack ℝ} {m k : ℕ} {l : ℝ} {parts : List (RailPart ℝ)}

theorem zip_flatMap_parts {α β γ : Type*} (a : List α) (b : List β) (hab : a.length ≤ b.length) (f : α → List γ) :
    ((a.zip b).flatMap fun q => f q.1) = a.flatMap f := by
  conv_rhs => rw [← List.map_fst_zip hab, List.flatMap_map]

/-- The load and the contact of a wheel whose contact element the code finds, wherever that element lies. -/
theorem wheelOnParts_ok (h : HingedRail t m l k parts) (beams : List (BeamPart ℝ)) (hbl : beams.length = parts.length)
    (hb : ∀ b ∈ beams, b.l = l ∧ timoshenkoFactor b = 0) (time vel D : List ℝ) (load G p : ℝ) (irr : ℕ → ℝ)
    (hpath : movingLoadDistances time vel (some (D.headD 0)) = .ok D) (hlen : D.length = time.length) (act o : List ℕ)
    (ha : activeElements (m - 1) (hingeCum m k l) D = .ok act) (ho : contactParts [k - 1, 1, 1, m - k - 2] act = .ok o)
    (halen : act.length = D.length) :
    ∃ w : RailWheel ℝ, wheelOnParts t (parts.zip beams) time vel D load G p irr = .ok w ∧
      (∀ j, act.getD j 0 + 1 < m) ∧
      (∀ j, w.element j = (t.position (t.rail.getD (act.getD j 0) 0), t.position (t.rail.getD (act.getD j 0 + 1) 0))) ∧
      (∀ j < time.length, w.shape j = yShape 0 l (D.getD j 0 - act.getD j 0 * l)) ∧
      (∀ j i c, i < (parts.flatMap RailPart.nodes).length → w.load i j c ≠ 0 → c ≠ 0 ∧
        ((parts.flatMap RailPart.nodes).getD i 0 = t.rail.getD (act.getD j 0) 0 ∨
          (parts.flatMap RailPart.nodes).getD i 0 = t.rail.getD (act.getD j 0 + 1) 0)) ∧
      w.static = staticDeformation G p load ∧
      ∀ j x, w.law j x = match contactForce G p (irr j) (some x) with | .ok f => f | .error _ => 0 := by
  have g := h.even
  have hl := g.l_pos
  have hm := g.two
  obtain ⟨A, B, a, c, b, hrail, hA, hn, hels, hsize⟩ := h.split
  have hclen : (chainOf t.rail).length = m - 1 := by simp [length_chainOf, g.len]
  have hz1 : ((parts.zip beams).flatMap fun q => q.1.nodes) = parts.flatMap RailPart.nodes :=
    zip_flatMap_parts parts beams hbl.ge RailPart.nodes
  have hz2 : ((parts.zip beams).flatMap fun q => q.1.elements) = chainOf t.rail := by
    rw [← hels]; exact zip_flatMap_parts parts beams hbl.ge RailPart.elements
  have hz3 : ((parts.zip beams).map fun q => q.1.elements.length) = [k - 1, 1, 1, m - k - 2] := by
    rw [← hsize]
    conv_rhs => rw [← List.map_fst_zip hbl.ge, List.map_map]
    rfl
  have hcum : cumDistances ((parts.flatMap RailPart.nodes).map t.coords) = hingeCum m k l := h.cum
  have helem : ∀ j, j + 1 < m → (chainOf t.rail).getD j (0, 0) = (t.rail.getD j 0, t.rail.getD (j + 1) 0) := by
    intro j hj
    rw [← g.chain]
    exact g.element j hj
  obtain ⟨hsort, hltm⟩ := activeElements_sorted _ _ _ _ ha
  have hact1 : ∀ j, act.getD j 0 + 1 < m := by
    intro j
    by_cases hj : j < act.length
    · have := hltm _ (List.getElem_mem hj)
      rw [List.getD_eq_getElem _ _ hj]
      omega
    · rw [List.getD_eq_default _ _ (by omega)]
      omega
  have hloaded : loadedElements act = act := C30_loaded_nodes act hsort
  have hnmem : ∀ j < m, t.rail.getD j 0 ∈ parts.flatMap RailPart.nodes := by
    intro j hj
    have := g.mem j hj
    generalize t.rail.getD j 0 = y at this ⊢
    rw [hrail] at this
    rw [hn]
    simp at this ⊢
    tauto
  unfold wheelOnParts
  simp only [hpath, bind, Except.bind, hz1, hz2, hz3, hcum, hclen, ha, ho]
  refine ⟨_, rfl, hact1, ?_, ?_, ?_, rfl, fun _ _ => rfl⟩
  · intro j
    simp only [helem _ (hact1 j)]
  · intro j hj
    have hj' : j < D.length := by rw [hlen]; exact hj
    have hx : (wheelNodeDistances ((List.range time.length).map fun j => t.coords ((chainOf t.rail).getD (act.getD j 0) (0, 0)).1) D).getD j 0
        = D.getD j 0 - act.getD j 0 * l := by
      have hfirst : ((List.range time.length).map fun j => t.coords ((chainOf t.rail).getD (act.getD j 0) (0, 0)).1) =
          ((List.range time.length).map fun j => ((act.getD j 0 : ℕ) : ℝ) * l).map fun x => (x, (0 : ℝ), (0 : ℝ)) := by
        rw [List.map_map]
        refine List.map_congr_left fun j _ => ?_
        rw [helem _ (hact1 j)]
        exact g.coords _ (by have := hact1 j; omega)
      rw [hfirst, wheelNodeDistances_horizontal _ D (by simp [hlen]) ?_ j hj']
      · rw [List.getD_eq_getElem ((List.range time.length).map _) _ (by simpa using hj), List.getElem_map, List.getElem_range]
      · rw [List.pairwise_map]
        rw [List.pairwise_iff_getElem] at hsort ⊢
        intro i j hi hj hij
        simp only [List.length_range] at hi hj
        rw [List.getElem_range, List.getElem_range]
        have := hsort i j (by rw [halen, hlen]; exact hi) (by rw [halen, hlen]; exact hj) hij
        rw [← List.getD_eq_getElem _ 0, ← List.getD_eq_getElem _ 0] at this
        have : ((act.getD i 0 : ℕ) : ℝ) ≤ (act.getD j 0 : ℕ) := by exact_mod_cast this
        exact mul_le_mul_of_nonneg_right this hl.le
    simp only [hx]
    have hmem : (chainOf t.rail).getD (act.getD j 0) (0, 0) ∈ (parts.zip beams).flatMap fun q => q.1.elements := by
      rw [hz2, List.getD_eq_getElem _ _ (by have := hact1 j; omega)]
      exact List.getElem_mem _
    obtain ⟨q0, hq0, hq1⟩ := List.mem_flatMap.1 hmem
    split
    · rename_i hnone
      rw [List.getLast?_eq_none_iff, List.filter_eq_nil_iff] at hnone
      exact absurd (decide_eq_true hq1) (hnone q0 hq0)
    · rename_i q' hq'
      have hq2 := List.mem_of_getLast? hq'
      have hq3 := (List.of_mem_zip (List.mem_filter.1 hq2).1).2
      rw [(hb _ hq3).1, (hb _ hq3).2]
  · intro j i e hi hc
    have hj := hact1 j
    simp only [hloaded, helem _ hj] at hc
    have hget : ∀ y < m, (parts.flatMap RailPart.nodes).getD ((parts.flatMap RailPart.nodes).idxOf (t.rail.getD y 0)) 0 = t.rail.getD y 0 := by
      intro y hy
      have := List.idxOf_lt_length_of_mem (hnmem y hy)
      rw [List.getD_eq_getElem _ _ this]
      exact List.getElem_idxOf this
    set i0 := (parts.flatMap RailPart.nodes).idxOf (t.rail.getD (act.getD j 0) 0) with hi0
    set i1 := (parts.flatMap RailPart.nodes).idxOf (t.rail.getD (act.getD j 0 + 1) 0) with hi1
    by_cases hin : i = i0 ∨ i = i1
    · refine ⟨?_, ?_⟩
      · rintro rfl
        apply hc
        rw [g.coords _ (by omega), g.coords _ hj,
          rotation_level _ _ _ (mul_le_mul_of_nonneg_right (by push_cast; linarith) hl.le)]
        simp only [Matrix.cons_val_zero]
        cases (parts.zip beams)[o.getD j 0]? with
        | none => simp [scatterNodal]
        | some q => simp [scatterNodal, globalNodalLoads_level]
      · rcases hin with rfl | rfl
        · left; exact hget _ (by omega)
        · right; exact hget _ hj
    · push Not at hin
      exfalso
      apply hc
      have hz : ∀ f : Fin 2 → ℝ, scatterNodal i0 i1 f i = 0 := by
        intro f
        unfold scatterNodal
        rw [if_neg hin.1, if_neg hin.2, add_zero]
      rw [hz, hz, hz]
      fin_cases e <;> rfl

theorem contactPartsFrom_ok (sizes : List ℕ) (act : List ℕ) (p mx : ℕ) (hp : p < sizes.length) (hmx : mx = (sizes.take (p + 1)).sum)
    (h : ∀ e ∈ act, e < sizes.sum) : ∃ o, contactPartsFrom sizes p mx act = .ok o := by
  induction act generalizing p mx with
  | nil => exact ⟨[], rfl⟩
  | cons e es ih =>
    have he := h e (by simp)
    simp only [contactPartsFrom]
    split_ifs with hc
    · have hp1 : p + 1 < sizes.length := by
        by_contra hn
        rw [List.take_of_length_le (by omega)] at hmx
        omega
      rw [List.getElem?_eq_getElem hp1]
      simp only
      obtain ⟨o, ho⟩ := ih (p + 1) (mx + sizes[p + 1]) hp1 (by rw [hmx, List.sum_take_succ _ _ hp1]) fun x hx => h x (by simp [hx])
      rw [ho]
      exact ⟨_, rfl⟩
    · obtain ⟨o, ho⟩ := ih p mx hp hmx fun x hx => h x (by simp [hx])
      rw [ho]
      exact ⟨_, rfl⟩

/-- The contact of a wheel that runs over the hinge and stays four elements before the end of the rail, by the numbers of the
elements. -/
theorem HingedRail.across (h : HingedRail t m l k parts) (path : List ℝ) (hne : path ≠ []) (h0 : 0 ≤ path.headD 0)
    (h1 : path.headD 0 < ((m : ℝ) - 1) * l) (hmono : path.Pairwise (· ≤ ·))
    (hstep : ∀ j, j + 1 < path.length → path.getD (j + 1) 0 - path.getD j 0 ≤ l / 2) (hend : ∀ s ∈ path, s ≤ ((m : ℝ) - 5) * l) :
    ∃ act, activeElements (m - 1) (hingeCum m k l) path = .ok act ∧ (∃ o, contactParts [k - 1, 1, 1, m - k - 2] act = .ok o) ∧
      act.length = path.length ∧
      ∀ j < path.length, (hingeNode k (act.getD j 0) : ℝ) * l ≤ path.getD j 0 ∧
        path.getD j 0 ≤ ((hingeNode k (act.getD j 0) + 1 : ℕ) : ℝ) * l ∧
        (((k : ℝ) + 1) * l + l / 2 < path.getD j 0 → k + 4 ≤ act.getD j 0) := by
  have hl := h.even.l_pos
  have hk := h.pos
  have hkm := h.lt
  obtain ⟨s0, xs, rfl⟩ := List.exists_cons_of_ne_nil hne
  simp only [List.headD_cons] at h0 h1
  have hlast : hingeNode k (m + 2) = m - 1 := by unfold hingeNode; split_ifs <;> omega
  obtain ⟨i, hi, hi1, hi2, hi3⟩ := h.start s0 h0 h1
  have hpts := activePointers_repeated (hingeCum m k l) l (hingeCum_even m k l hl hk) (s0 :: xs) s0 i
    ⟨by rw [hingeCum_length]; exact hi1, by rw [hingeCum_getD _ _ _ _ (by omega)]; exact hi2,
      Or.inl (by rw [hingeCum_getD _ _ _ _ (by omega)]; exact hi3.le)⟩
    (List.pairwise_cons.2 ⟨fun y hy => by
      rcases List.mem_cons.1 hy with rfl | hy
      · exact le_refl _
      · exact (List.pairwise_cons.1 hmono).1 y hy, hmono⟩)
    (by
      intro c hc
      cases c with
      | zero => simpa using (half_pos hl).le
      | succ c =>
        have := hstep c (by simpa using hc)
        simpa using this)
    (by
      intro c hc
      rw [hingeCum_length, hingeCum_getD _ _ _ _ (by omega), show m + 3 - 1 = m + 2 by omega, hlast, Nat.cast_sub (by omega)]
      rw [List.getD_eq_getElem _ _ hc]
      have := hend _ (List.getElem_mem hc)
      push_cast
      nlinarith)
  set is := activePointers (hingeCum m k l) i (s0 :: xs) with his
  have hislen : is.length = (s0 :: xs).length := activePointers_length _ _ _
  have hb : ∀ j (hj : j < (s0 :: xs).length), ∃ b : ℕ, is[j]'(by omega) = b ∧ b + 1 < m ∧ (hingeNode k b : ℝ) * l ≤ (s0 :: xs).getD j 0 ∧
      ((s0 :: xs).getD j 0 ≤ (hingeNode k (b + 1) : ℝ) * l ∨
        (hingeNode k (b + 1) = hingeNode k b ∧ (s0 :: xs).getD j 0 ≤ (hingeNode k b : ℝ) * l + l / 2)) := by
    intro j hj
    obtain ⟨b, hb, hb1, hb2, hb3⟩ := hpts j hj
    rw [List.getD_eq_getElem _ _ (by omega)] at hb
    rw [hingeCum_length] at hb1
    rw [hingeCum_getD _ _ _ _ (by omega)] at hb2
    rw [hingeCum_getD _ _ _ _ (by omega), hingeCum_getD _ _ _ _ (by omega)] at hb3
    refine ⟨b, hb, ?_, hb2, ?_⟩
    · have h5 := hend ((s0 :: xs).getD j 0) (by rw [List.getD_eq_getElem _ _ hj]; exact List.getElem_mem hj)
      have h6 : (hingeNode k b : ℝ) + 5 ≤ m := by
        have := le_of_mul_le_mul_right (hb2.trans h5) hl
        linarith
      have h7 : hingeNode k b + 5 ≤ m := by exact_mod_cast h6
      revert h7
      unfold hingeNode
      split_ifs <;> omega
    · rcases hb3 with hb3 | ⟨hb3, hb4⟩
      · exact Or.inl hb3
      · right
        refine ⟨?_, hb4⟩
        have := mul_right_cancel₀ hl.ne' hb3
        exact_mod_cast this
  have hact : activeElements (m - 1) (hingeCum m k l) (s0 :: xs) = .ok (is.map Int.toNat) := by
    simp only [activeElements, hi, ← his]
    rw [if_pos]
    rw [List.all_eq_true]
    intro z hz
    obtain ⟨j, hj, rfl⟩ := List.mem_iff_getElem.mp hz
    obtain ⟨b, hb1, hb2, -⟩ := hb j (by omega)
    rw [hb1]
    simp only [decide_eq_true_eq]
    omega
  refine ⟨_, hact, ?_, by simp [hislen], ?_⟩
  · unfold contactParts
    simp only
    refine contactPartsFrom_ok _ _ 0 _ (by simp) (by simp) ?_
    intro e he
    have := (activeElements_sorted _ _ _ _ hact).2 e he
    simp
    omega
  · intro j hj
    obtain ⟨b, hb1, hb2, hb3, hb4⟩ := hb j hj
    have e : (is.map Int.toNat).getD j 0 = b := by
      rw [List.getD_eq_getElem _ _ (by simpa [hislen] using hj), List.getElem_map, hb1]
      rfl
    rw [e]
    refine ⟨hb3, ?_, ?_⟩
    · rcases hb4 with hb4 | ⟨-, hb4⟩
      · have : hingeNode k (b + 1) ≤ hingeNode k b + 1 := by
          unfold hingeNode
          split_ifs <;> omega
        exact hb4.trans (nat_mul_le hl this)
      · push_cast
        linarith
    · intro hs
      have : k + 1 < hingeNode k (b + 1) ∨ (hingeNode k (b + 1) = hingeNode k b ∧ k + 1 < hingeNode k b) := by
        rcases hb4 with h3 | ⟨h3, h4⟩
        · left
          apply nat_mul_lt hl
          push_cast
          linarith
        · right
          refine ⟨h3, ?_⟩
          apply nat_mul_lt hl
          push_cast
          linarith
      unfold hingeNode at this
      split_ifs at this <;> omega

end wheel

/-! ### The ride -/

section ride
variable {H : Type*} [DecidableEq H] {hash : (Fin 3 → ℝ) → H} {q : TrackRide} {n r k : ℕ} {d h : ℝ}

theorem hingeStiffness_some (E I l f : ℝ) (hf : 0 ≤ f) (hf' : f ≤ 1) : ∃ s, hingeStiffness E I l f none = some s := by
  unfold hingeStiffness
  by_cases h1 : f < 1
  · exact ⟨_, if_pos ⟨hf, h1⟩⟩
  · have : f = 1 := le_antisymm hf' (not_lt.mp h1)
    subst this
    rw [if_neg (by simp), if_pos (by unfold npIsCloseOne; norm_num)]
    exact ⟨_, rfl⟩

section even
variable {m : ℕ} {l : ℝ} {sys : SystemInput ℝ}

/-- The pieces of an even rail with a hinge and their beams. -/
theorem EvenRail.hingedPieces {t : HorizontalTrack ℝ} (ge : EvenRail t m l) (hk : 2 ≤ k) (hkm : k + 3 ≤ m)
    (near : 1 / 100000000 + 1 / 100000 * ((k : ℝ) * l) < l) (rail : BeamPart ℝ) (hκ : rail.kappa ≤ 0) (f s : ℝ)
    (hs : hingeStiffness rail.E rail.I t.lengthElement f none = some s) :
    ∃ pieces beams, t.hingedRail rail.E rail.I f t.lengthElement ((k : ℝ) * l) = .ok pieces ∧
      pieces.mapM (t.pieceBeam rail) = .ok beams ∧ beams.length = pieces.length ∧
      (∀ b ∈ beams, b.l = l ∧ timoshenkoFactor b = 0) ∧ HingedRail t (m) l k pieces := by
  obtain ⟨A, B, p, c, b, hr, hA, hadd, -⟩ := ge.addHinge (k := k) (by omega) (by omega) near s
  have hlen := ge.len
  rw [hr] at hlen
  simp only [List.length_append, List.length_cons] at hlen
  have hrail := hadd
  rw [show Rose.addHinge (fun n => (t.store n).pos 0) s t.rail t.railElements ((k : ℝ) * l) =
    t.hingedRail rail.E rail.I f t.lengthElement ((k : ℝ) * l) by unfold HorizontalTrack.hingedRail; rw [hs]] at hrail
  have piece : ∀ (X S Y : List ℕ) (els : List (ℕ × ℕ)) (s1 s2 : Option ℝ), t.rail = X ++ S ++ Y → 2 ≤ S.length →
      t.pieceBeam rail ⟨S, els, s1, s2⟩ = .ok { (⟨S, els, s1, s2⟩ : RailPart ℝ).beam rail with l := l } := by
    intro X S Y els s1 s2 h1 h2
    unfold HorizontalTrack.pieceBeam
    rw [ge.piece_length X S Y h1 h2]
  refine ⟨_, List.map (fun p => { p.beam rail with l := l }) _, hrail, mapM_eq_map _ _ _ ?_, by simp, ?_, ge, by omega, by omega,
    ⟨_, _, _, _, hrail⟩, near⟩
  · intro x hx
    simp only [List.mem_cons, List.not_mem_nil, or_false] at hx
    rcases hx with rfl | rfl | rfl | rfl
    · exact piece [] (A ++ [p]) (c :: b :: B) _ _ _ (by simp [hr]) (by simp; omega)
    · exact piece A [p, c] (b :: B) _ _ _ (by simp [hr]) (by simp)
    · exact piece (A ++ [p]) [c, b] B _ _ _ (by simp [hr]) (by simp)
    · exact piece (A ++ [p, c]) (b :: B) [] _ _ _ (by simp [hr]) (by simp; omega)
  · intro y hy
    obtain ⟨x, -, rfl⟩ := List.mem_map.mp hy
    refine ⟨rfl, ?_⟩
    have hk' : (x.beam rail).kappa = rail.kappa := by
      unfold RailPart.beam
      split_ifs <;> rfl
    unfold timoshenkoFactor
    rw [if_neg]
    simpa [hk'] using hκ

/-- The check of the positions passes for a train that stays on the first `m'` nodes of a rail with a hinge. -/
theorem TrackRide.Runs.checkOn {m m' : ℕ} {l : ℝ} {pieces : List (RailPart ℝ)} (v : q.Runs m' l) (hm' : m' ≤ m)
    (hr : HingedRail q.track m l k pieces) : q.checkOn (pieces.flatMap RailPart.nodes) = .ok () := by
  have hk := hr.pos
  have hkm := hr.lt
  have hl := hr.even.l_pos
  have hx : ((pieces.flatMap RailPart.nodes).map fun i => (q.track.store i).pos 0) =
      (List.range (m + 3)).map fun i => (hingeNode k i : ℝ) * l := by
    rw [hr.nodes, List.map_map]
    apply List.map_congr_left
    intro i hi
    exact hr.place _ (hingeNode_lt m k i hkm (List.mem_range.1 hi))
  have hsplit : (List.range (m + 3)).map (fun i => (hingeNode k i : ℝ) * l) =
      (0 : ℝ) :: (List.range (m + 2)).map fun i => (hingeNode k (i + 1) : ℝ) * l := by
    rw [List.range_succ_eq_map]
    have : hingeNode k 0 = 0 := by unfold hingeNode; omega
    simp [Function.comp_def, this]
  unfold TrackRide.checkOn
  rw [hx, hsplit]
  simp only
  have hempty : ¬ ((q.train.wheelList.map q.distances).any List.isEmpty) = true := by
    simp only [List.any_map, List.any_eq_true, Function.comp_apply, not_exists, not_and]
    intro w hw
    have h1 := (v.runsOn w hw).length
    have h2 := (v.runsOn w hw).pos
    cases hD : q.distances w with
    | nil => rw [hD] at h1; simp at h1; omega
    | cons a l => simp
  rw [if_neg hempty]
  by_contra hc
  have herr : ∀ (x : ℝ) xs ws, checkTrainPosition x xs ws ≠ .ok () → checkTrainPosition x xs ws = .error .valueError := by
    intro x xs ws hne
    unfold checkTrainPosition at hne ⊢
    simp only at hne ⊢
    split_ifs at hne ⊢
    · rfl
    · rfl
    · exact absurd rfl hne
  obtain ⟨w', hw', e, he, hbad⟩ := (C46_check _ _ _).1 (herr _ _ _ hc)
  obtain ⟨w, hw, rfl⟩ := List.mem_map.mp hw'
  have hrun := v.runsOn w hw
  have he' : e ∈ q.distances w := by
    cases hD : q.distances w with
    | nil => have h1 := hrun.length; have h2 := hrun.pos; rw [hD] at h1; simp at h1; omega
    | cons a l => rw [hD] at he; simpa using he
  obtain ⟨j, hj, rfl⟩ := List.mem_iff_getElem.mp he'
  rw [← List.getD_eq_getElem _ 0] at hbad
  rw [hrun.length] at hj
  rcases hbad with hbad | hbad
  · have h1 := hbad _ (List.mem_cons_self ..)
    have h2 : (q.distances w).getD 0 0 ≤ (q.distances w).getD j 0 := by
      rcases Nat.eq_zero_or_pos j with rfl | hj0
      · exact le_rfl
      · have := List.pairwise_iff_getElem.mp hrun.forward 0 j (by rw [hrun.length]; exact hrun.pos) (by rw [hrun.length]; exact hj) hj0
        rwa [← List.getD_eq_getElem _ 0, ← List.getD_eq_getElem _ 0] at this
    have := hrun.start
    linarith
  · have hlast : hingeNode k (m + 2) = m - 1 := by unfold hingeNode; split_ifs <;> omega
    have h1 := hbad (((m - 1 : ℕ) : ℝ) * l) (by
      rw [← hsplit, ← hlast]
      exact List.mem_map.mpr ⟨m + 2, List.mem_range.mpr (by omega), rfl⟩)
    have h2 := hrun.stop j hj
    have h3 : ((m' - 1 : ℕ) : ℝ) * l ≤ ((m - 1 : ℕ) : ℝ) * l := nat_mul_le hl (by omega)
    linarith

/-- The calculation of a ride on a track with a hinge whose wheels all find contact elements. -/
theorem TrackRide.Runs.onCut {m' : ℕ} (v : q.Runs m' l) (hm' : m' ≤ m) (g : EvenRail q.track m l) (hk : 2 ≤ k)
    (hkm : k + 3 ≤ m) (near : 1 / 100000000 + 1 / 100000 * ((k : ℝ) * l) < l) (f s : ℝ)
    (hs : hingeStiffness q.values.rail.E q.values.rail.I q.track.lengthElement f none = some s) (acts : ℕ → List ℕ)
    (hacts : ∀ w < q.train.wheelList.length,
      activeElements (m - 1) (hingeCum (m) k l) (q.distances (q.train.wheelList.getD w (0, 0))) = .ok (acts w) ∧
      (∃ o, contactParts [k - 1, 1, 1, m - k - 2] (acts w) = .ok o) ∧ (acts w).length = q.time.length) :
    ∃ (nodes : List ℕ) (R : ℕ → RailWheel ℝ), q.coupledOnCut f ((k : ℝ) * l) sys = .ok (q.runOn sys nodes R) ∧
      q.WheelsAt (m) l nodes R fun w j => (acts w).getD j 0 := by
  classical
  obtain ⟨pieces, beams, hrail, hbeams, hbl, hb, hr⟩ := g.hingedPieces hk hkm near q.values.rail v.bending f s hs
  have hmem : ∀ w (hw : w < q.train.wheelList.length), q.train.wheelList.getD w (0, 0) ∈ q.train.wheelList := by
    intro w hw
    rw [List.getD_eq_getElem _ _ hw]
    exact List.getElem_mem hw
  have hex : ∀ w, ∃ R : RailWheel ℝ, w < q.train.wheelList.length →
      wheelOnParts q.track (pieces.zip beams) q.time q.vel (q.distances (q.train.wheelList.getD w (0, 0)))
        (q.staticLoad (q.train.wheelList.getD w (0, 0))) q.G q.p (q.irr w) = .ok R ∧
      (∀ j, (acts w).getD j 0 + 1 < m) ∧
      (∀ j, R.element j = (q.track.position (q.track.rail.getD ((acts w).getD j 0) 0),
        q.track.position (q.track.rail.getD ((acts w).getD j 0 + 1) 0))) ∧
      (∀ j < q.time.length, R.shape j = yShape 0 l
        ((q.distances (q.train.wheelList.getD w (0, 0))).getD j 0 - (acts w).getD j 0 * l)) ∧
      (∀ j i c, i < (pieces.flatMap RailPart.nodes).length → R.load i j c ≠ 0 → c ≠ 0 ∧
        ((pieces.flatMap RailPart.nodes).getD i 0 = q.track.rail.getD ((acts w).getD j 0) 0 ∨
          (pieces.flatMap RailPart.nodes).getD i 0 = q.track.rail.getD ((acts w).getD j 0 + 1) 0)) ∧
      R.static = staticDeformation q.G q.p (q.staticLoad (q.train.wheelList.getD w (0, 0))) ∧
      ∀ j x, R.law j x = match contactForce q.G q.p (q.irr w j) (some x) with | .ok f => f | .error _ => 0 := by
    intro w
    by_cases hw : w < q.train.wheelList.length
    · obtain ⟨a1, ⟨o, a2⟩, a3⟩ := hacts w hw
      have hlen := (v.runsOn _ (hmem w hw)).length
      obtain ⟨R, e⟩ := wheelOnParts_ok hr beams hbl hb q.time q.vel (q.distances (q.train.wheelList.getD w (0, 0)))
        (q.staticLoad (q.train.wheelList.getD w (0, 0))) q.G q.p (q.irr w) (load_path q v.samples _) hlen _ o a1 a2 (by rw [a3, hlen])
      exact ⟨R, fun _ => e⟩
    · exact ⟨noWheel, fun h => absurd h hw⟩
  choose R hR using hex
  have hmap : ((List.range q.train.wheelList.length).zip q.train.wheelList).mapM (fun w =>
      wheelOnParts q.track (pieces.zip beams) q.time q.vel (q.distances w.2) (q.staticLoad w.2) q.G q.p (q.irr w.1)) =
      .ok ((List.range q.train.wheelList.length).map R) := by
    rw [mapM_eq_map _ (fun w => R w.1)]
    · congr 1
      apply List.ext_getElem
      · simp
      · intro i h1 h2
        simp
    · intro x hx
      obtain ⟨i, hi, rfl⟩ := List.mem_iff_getElem.mp hx
      simp only [List.length_zip, List.length_range, min_self] at hi
      have := (hR i hi).1
      rw [List.getD_eq_getElem _ _ hi] at this
      simpa using this
  refine ⟨(pieces.flatMap RailPart.nodes).map q.track.position, fun w => if w < q.train.wheelList.length then R w else noWheel, ?_, ?_⟩
  · unfold TrackRide.coupledOnCut
    simp only [hrail, hbeams, v.checkOn hm' hr, hmap, bind, Except.bind]
    unfold TrackRide.runOn
    simp only [Except.ok.injEq, CoupledRun.mk.injEq, true_and, and_true]
    funext w
    split_ifs with hw
    · rw [List.getD_eq_getElem _ _ (by simpa using hw), List.getElem_map, List.getElem_range]
    · rw [List.getD_eq_default _ _ (by simpa using hw)]
      rfl
  · refine ⟨fun w hw => (hR w hw).2.1, fun w hw => ?_, fun w hw => ?_, fun w hw => ?_, fun w hw => ?_,
      fun w hw => ?_, fun w hw => if_neg hw⟩
    · rw [if_pos hw]; exact (hR w hw).2.2.1
    · rw [if_pos hw]; exact (hR w hw).2.2.2.1
    · rw [if_pos hw]
      intro j i e hi hne
      have hi' : i < (pieces.flatMap RailPart.nodes).length := by simpa using hi
      obtain ⟨h1, h2⟩ := (hR w hw).2.2.2.2.1 j i e hi' hne
      refine ⟨h1, ?_⟩
      rw [List.getD_eq_getElem _ _ hi, List.getElem_map]
      rw [List.getD_eq_getElem _ _ hi'] at h2
      rcases h2 with h2 | h2
      · exact Or.inl (by rw [h2])
      · exact Or.inr (by rw [h2])
    · rw [if_pos hw]; exact (hR w hw).2.2.2.2.2.1
    · rw [if_pos hw]; exact (hR w hw).2.2.2.2.2.2

/-- A train that stays before the hinge. -/
theorem TrackRide.Runs.beforeHinge (v : q.Runs k l) (g : EvenRail q.track m l) (hk : 2 ≤ k)
    (hkm : k + 3 ≤ m) (near : 1 / 100000000 + 1 / 100000 * ((k : ℝ) * l) < l) (hplaced : PlacedRail q.track sys) (f s : ℝ)
    (hs : hingeStiffness q.values.rail.E q.values.rail.I q.track.lengthElement f none = some s) :
    ∃ (nodes : List ℕ) (R : ℕ → RailWheel ℝ), q.coupledOnCut f ((k : ℝ) * l) sys = .ok (q.runOn sys nodes R) ∧
      (q.runOn sys nodes R).WellFormed ∧ ∀ t < q.time.length, q.Contacts (m) l R t := by
  classical
  obtain ⟨pieces, -, -, -, -, -, hr⟩ := g.hingedPieces hk hkm near q.values.rail v.bending f s hs
  have hkc : ((k - 1 : ℕ) : ℝ) = (k : ℝ) - 1 := by rw [Nat.cast_sub (by omega)]; simp
  have hex : ∀ w, ∃ act : List ℕ, w < q.train.wheelList.length →
      activeElements (m - 1) (hingeCum (m) k l) (q.distances (q.train.wheelList.getD w (0, 0))) = .ok act ∧
      (∃ o, contactParts [k - 1, 1, 1, m - k - 2] act = .ok o) ∧ act.length = q.time.length ∧
      ∀ j < q.time.length, (act.getD j 0 : ℝ) * l ≤ (q.distances (q.train.wheelList.getD w (0, 0))).getD j 0 ∧
        (q.distances (q.train.wheelList.getD w (0, 0))).getD j 0 ≤ ((act.getD j 0 + 1 : ℕ) : ℝ) * l := by
    intro w
    by_cases hw : w < q.train.wheelList.length
    · have hrun := v.runsOn _ (show q.train.wheelList.getD w (0, 0) ∈ q.train.wheelList by
        rw [List.getD_eq_getElem _ _ hw]; exact List.getElem_mem hw)
      have h0 := hrun.pos
      have h1 := hrun.length
      have hhead : (q.distances (q.train.wheelList.getD w (0, 0))).headD 0 = (q.distances (q.train.wheelList.getD w (0, 0))).getD 0 0 := by
        cases q.distances (q.train.wheelList.getD w (0, 0)) <;> simp
      obtain ⟨act, a1, a2, a3, a4⟩ := hr.before (q.distances (q.train.wheelList.getD w (0, 0)))
        (by rintro hc; rw [hc] at h1; simp at h1; omega) (by rw [hhead]; exact hrun.start)
        (by rw [hhead, ← hkc]; exact hrun.before) hrun.forward (fun j hj => hrun.slow j (by omega))
        (by
          intro x hx
          obtain ⟨j, hj, rfl⟩ := List.mem_iff_getElem.mp hx
          rw [← hkc, ← List.getD_eq_getElem _ 0]
          exact hrun.stop j (by omega))
      exact ⟨act, fun _ => ⟨a1, ⟨_, a2⟩, by omega, fun j hj => (a4 j (by omega)).2⟩⟩
    · exact ⟨[], fun h => absurd h hw⟩
  choose acts hacts using hex
  obtain ⟨nodes, R, hc, hat⟩ := v.onCut (by omega) g hk hkm near f s hs acts fun w hw =>
    ⟨(hacts w hw).1, (hacts w hw).2.1, (hacts w hw).2.2.1⟩
  exact ⟨nodes, R, hc, v.wheelsOn g hplaced nodes R _ ⟨hat, fun w hw => (hacts w hw).2.2.2⟩⟩

/-- A train that runs over the hinge and stays four elements before the end of the rail. -/
theorem TrackRide.Runs.acrossHinge (v : q.Runs (m - 4) l) (g : EvenRail q.track m l) (hk : 2 ≤ k)
    (hkm : k + 3 ≤ m) (near : 1 / 100000000 + 1 / 100000 * ((k : ℝ) * l) < l) (hplaced : PlacedRail q.track sys)
    (hslow : ∀ j, j + 1 < q.time.length → q.vel.getD j 0 * (q.time.getD (j + 1) 0 - q.time.getD j 0) ≤ l / 2) (f s : ℝ)
    (hs : hingeStiffness q.values.rail.E q.values.rail.I q.track.lengthElement f none = some s) :
    ∃ (nodes : List ℕ) (R : ℕ → RailWheel ℝ) (A : ℕ → ℕ → ℕ),
      q.coupledOnCut f ((k : ℝ) * l) sys = .ok (q.runOn sys nodes R) ∧
      (q.runOn sys nodes R).WellFormed ∧ q.WheelsAt (m) l nodes R A ∧
      ∀ t < q.time.length, DistinctElements R q.train.wheelList.length t ∧ ∀ w < q.train.wheelList.length,
        (hingeNode k (A w t) : ℝ) * l ≤ Spec.wheelX q.time q.vel (q.startOf (q.train.wheelList.getD w (0, 0))) t ∧
        Spec.wheelX q.time q.vel (q.startOf (q.train.wheelList.getD w (0, 0))) t ≤ ((hingeNode k (A w t) + 1 : ℕ) : ℝ) * l ∧
        (((k : ℝ) + 1) * l + l / 2 < Spec.wheelX q.time q.vel (q.startOf (q.train.wheelList.getD w (0, 0))) t →
          k + 4 ≤ A w t) := by
  classical
  have hl := g.l_pos
  obtain ⟨pieces, -, -, -, -, -, hr⟩ := g.hingedPieces hk hkm near q.values.rail v.bending f s hs
  have hmem : ∀ w (hw : w < q.train.wheelList.length), q.train.wheelList.getD w (0, 0) ∈ q.train.wheelList := by
    intro w hw
    rw [List.getD_eq_getElem _ _ hw]
    exact List.getElem_mem hw
  have hmc : ((m - 4 - 1 : ℕ) : ℝ) = ((m : ℕ) : ℝ) - 5 := by
    rw [show m - 4 - 1 = m - 5 by omega, Nat.cast_sub (by omega)]
    norm_num
  have hex : ∀ w, ∃ act : List ℕ, w < q.train.wheelList.length →
      activeElements (m - 1) (hingeCum (m) k l) (q.distances (q.train.wheelList.getD w (0, 0))) = .ok act ∧
      (∃ o, contactParts [k - 1, 1, 1, m - k - 2] act = .ok o) ∧ act.length = q.time.length ∧
      ∀ j < q.time.length, (hingeNode k (act.getD j 0) : ℝ) * l ≤ (q.distances (q.train.wheelList.getD w (0, 0))).getD j 0 ∧
        (q.distances (q.train.wheelList.getD w (0, 0))).getD j 0 ≤ ((hingeNode k (act.getD j 0) + 1 : ℕ) : ℝ) * l ∧
        (((k : ℝ) + 1) * l + l / 2 < (q.distances (q.train.wheelList.getD w (0, 0))).getD j 0 → k + 4 ≤ act.getD j 0) := by
    intro w
    by_cases hw : w < q.train.wheelList.length
    · have hrun := v.runsOn _ (hmem w hw)
      have h0 := hrun.pos
      have h1 := hrun.length
      have hb := hrun.before
      rw [hmc] at hb
      have hhead : (q.distances (q.train.wheelList.getD w (0, 0))).headD 0 = (q.distances (q.train.wheelList.getD w (0, 0))).getD 0 0 := by
        cases q.distances (q.train.wheelList.getD w (0, 0)) <;> simp
      obtain ⟨act, a1, a2, a3, a4⟩ := hr.across (q.distances (q.train.wheelList.getD w (0, 0)))
        (by rintro hc; rw [hc] at h1; simp at h1; omega) (by rw [hhead]; exact hrun.start)
        (by rw [hhead]; nlinarith) hrun.forward
        (by
          intro j hj
          rw [distances_getD q v.samples _ j (by omega), distances_getD q v.samples _ (j + 1) (by omega), wheelX_step]
          have := hslow j (by omega)
          linarith)
        (by
          intro x hx
          obtain ⟨j, hj, rfl⟩ := List.mem_iff_getElem.mp hx
          rw [← hmc, ← List.getD_eq_getElem _ 0]
          exact hrun.stop j (by omega))
      exact ⟨act, fun _ => ⟨a1, a2, by omega, fun j hj => a4 j (by omega)⟩⟩
    · exact ⟨[], fun h => absurd h hw⟩
  choose acts hacts using hex
  obtain ⟨nodes, R, hc, hat⟩ := v.onCut (by omega) g hk hkm near f s hs acts fun w hw =>
    ⟨(hacts w hw).1, (hacts w hw).2.1, (hacts w hw).2.2.1⟩
  refine ⟨nodes, R, _, hc, v.wellFormedOn g hplaced nodes R _ hat, hat, fun t ht => ?_⟩
  have hX : ∀ w < q.train.wheelList.length, _ := fun w hw => (hacts w hw).2.2.2 t ht
  have hXe : ∀ w, (q.distances (q.train.wheelList.getD w (0, 0))).getD t 0 =
      Spec.wheelX q.time q.vel (q.startOf (q.train.wheelList.getD w (0, 0))) t :=
    fun w => distances_getD q v.samples _ t ht
  simp only [hXe] at hX
  refine ⟨?_, hX⟩
  refine hat.distinct g hplaced t fun a ha b hb hab => ?_
  have hne : q.train.wheelList.getD a (0, 0) ≠ q.train.wheelList.getD b (0, 0) := by
    rw [List.getD_eq_getElem _ _ ha, List.getD_eq_getElem _ _ hb]
    intro he
    exact hab ((List.Nodup.getElem_inj_iff (wheelList_nodup q.train)).mp he)
  have hap := v.apart _ (hmem a ha) _ (hmem b hb) hne
  obtain ⟨a1, a2, -⟩ := hX a ha
  obtain ⟨b1, b2, -⟩ := hX b hb
  unfold Spec.wheelX at a1 a2 b1 b2
  push_cast at a2 b2
  have key : ∀ x y : ℕ, (hingeNode k y : ℝ) * l + 2 * l < ((hingeNode k x : ℝ) + 1) * l → y + 2 ≤ x := by
    intro x y hxy
    have h3 : ((hingeNode k y : ℝ) + 2) * l < ((hingeNode k x : ℝ) + 1) * l := by linarith
    have h4 := lt_of_mul_lt_mul_right h3 hl.le
    have h5 : hingeNode k y + 2 < hingeNode k x + 1 := by exact_mod_cast h4
    by_contra hlt
    revert h5
    unfold hingeNode
    split_ifs <;> omega
  rcases lt_abs.mp hap with hap | hap
  · exact Or.inr (key _ _ (by linarith))
  · exact Or.inl (key _ _ (by linarith))

/-- A train off the rail is refused. -/
theorem EvenRail.cutRejects (g : EvenRail q.track m l) (hk : 2 ≤ k) (hkm : k + 3 ≤ m)
    (near : 1 / 100000000 + 1 / 100000 * ((k : ℝ) * l) < l) (hκ : q.values.rail.kappa ≤ 0) (f s : ℝ)
    (hst : hingeStiffness q.values.rail.E q.values.rail.I q.track.lengthElement f none = some s)
    (w : ℕ × ℕ) (hw : w ∈ q.train.wheelList) (hlen : q.vel.length = q.time.length) (t : ℕ) (ht : t < q.time.length)
    (hoff : Spec.wheelX q.time q.vel (q.startOf w) t < -(1 / 8388608) ∨
      ((m - 1 : ℕ) : ℝ) * l + 1 / 8388608 < Spec.wheelX q.time q.vel (q.startOf w) t) :
    q.coupledOnCut f ((k : ℝ) * l) sys = .error .valueError := by
  obtain ⟨pieces, beams, hp, hb, -, -, hr⟩ := g.hingedPieces hk hkm near q.values.rail hκ f s hst
  have hl := g.l_pos
  have hx : ((pieces.flatMap RailPart.nodes).map fun i => (q.track.store i).pos 0) =
      (List.range (m + 3)).map fun i => (hingeNode k i : ℝ) * l := by
    rw [hr.nodes, List.map_map]
    apply List.map_congr_left
    intro i hi
    exact hr.place _ (hingeNode_lt (m) k i (by omega) (List.mem_range.1 hi))
  have hcheck : q.checkOn (pieces.flatMap RailPart.nodes) = .error .valueError := by
    unfold TrackRide.checkOn
    rw [hx]
    cases hxs : (List.range (m + 3)).map (fun i => (hingeNode k i : ℝ) * l) with
    | nil => rfl
    | cons x xs =>
      simp only
      split_ifs with hem
      · rfl
      · refine (C46_check _ _ _).2 ⟨_, List.mem_map.mpr ⟨w, hw, rfl⟩, (q.distances w).getD t 0, ?_, ?_⟩
        · have h1 := distances_length q hlen.symm (by rintro h0; rw [h0] at ht; simp at ht) w
          have h2 : (q.distances w).getD t 0 ∈ q.distances w := by
            rw [List.getD_eq_getElem _ _ (by omega)]
            exact List.getElem_mem _
          have h3 : ∀ (l : List ℝ) (y : ℝ), y ∈ l → y ∈ l.headD 0 :: l.tail := by
            intro l y hy
            cases l with
            | nil => cases hy
            | cons a l => exact hy
          exact h3 _ _ h2
        · rw [distances_getD q hlen.symm w t ht]
          rw [← hxs]
          rcases hoff with hoff | hoff
          · refine Or.inl fun y hy => ?_
            obtain ⟨i, -, rfl⟩ := List.mem_map.mp hy
            have : 0 ≤ (hingeNode k i : ℝ) * l := by positivity
            unfold TrackRide.startOf at hoff
            linarith
          · refine Or.inr fun y hy => ?_
            obtain ⟨i, hi, rfl⟩ := List.mem_map.mp hy
            have h1 := hingeNode_lt (m) k i (by omega) (List.mem_range.1 hi)
            have : (hingeNode k i : ℝ) * l ≤ ((m - 1 : ℕ) : ℝ) * l := nat_mul_le hl (by omega)
            unfold TrackRide.startOf at hoff
            linarith
  unfold TrackRide.coupledOnCut
  rw [hp]
  simp only [bind, Except.bind]
  rw [hb]
  simp only
  rw [hcheck]

/-- A wheel that has passed the hinge and has no other wheel close behind it does not press on the nodes of its element. -/
theorem TrackRide.Runs.passedHinge (v : q.Runs (m - 4) l) (g : EvenRail q.track m l) (hk : 2 ≤ k) (hkm : k + 3 ≤ m)
    (near : 1 / 100000000 + 1 / 100000 * ((k : ℝ) * l) < l) (hplaced : PlacedRail q.track sys)
    (hfree : ∀ i < m, i ≠ k → ¬ Spec.Removed sys (q.track.position (q.track.rail.getD i 0)) 1)
    (hslow : ∀ j, j + 1 < q.time.length → q.vel.getD j 0 * (q.time.getD (j + 1) 0 - q.time.getD j 0) ≤ l / 2) (f s : ℝ)
    (hst : hingeStiffness q.values.rail.E q.values.rail.I q.track.lengthElement f none = some s)
    (times : ℕ) (htimes : times ≤ q.time.length)
    (solver : TrimState ℝ → (List (ℕ × List (ℕ → ℝ)) → List (ℕ → ℝ) → ℕ → (ℕ → ℝ) → ℕ → ℝ) → SolverOutput ℝ)
    (hs : ∀ c st, q.coupledOnCut f ((k : ℝ) * l) sys = .ok c → c.loadedTrack.input.initialise freshFlags = .ok st →
      Spec.SolvesCoupled (c.system hash st) (c.rhs hash st) times (solver (c.system hash st) (c.rhs hash st)))
    (t : ℕ) (ht : t < times) (w : ℕ) (hw : w < q.train.wheelList.length)
    (hpass : ((k : ℝ) + 1) * l + l / 2 < Spec.wheelX q.time q.vel (q.startOf (q.train.wheelList.getD w (0, 0))) t)
    (hfar : ∀ w' < q.train.wheelList.length,
      q.startOf (q.train.wheelList.getD w' (0, 0)) < q.startOf (q.train.wheelList.getD w (0, 0)) →
      5 * l < q.startOf (q.train.wheelList.getD w (0, 0)) - q.startOf (q.train.wheelList.getD w' (0, 0))) :
    ∃ c res, q.coupledOnCut f ((k : ℝ) * l) sys = .ok c ∧ c.main hash (fun _ _ => true) times solver = .ok res ∧
      res.trackRows.length = times ∧ res.trainRows.length = times ∧
      ∃ (h1 : t < res.trackRows.length) (h2 : t < res.trainRows.length),
        Spec.ObeysLaws hash q sys l (m) (fun i => q.track.position (q.track.rail.getD i 0)) res →
        Spec.hertz q.G q.p (q.G * (-q.staticLoad (q.train.wheelList.getD w (0, 0))) ^ (1 / q.p) +
          Spec.railDeflection l (m) (fun i => q.track.position (q.track.rail.getD i 0))
            (Spec.fieldOfRows res.trackRows[t] NodeRow.displacement)
            (Spec.wheelX q.time q.vel (q.startOf (q.train.wheelList.getD w (0, 0))) t) -
          Spec.reportedDof (q.partRow hash res.trainRows[t]) NodeRow.displacement
            (.wheelY (q.train.wheelList.getD w (0, 0)).1 (q.train.wheelList.getD w (0, 0)).2) - q.irr w t) = 0 := by
  obtain ⟨nodes, R, A, hc, hwf, hat, hfacts⟩ := v.acrossHinge g hk hkm near hplaced hslow f s hst
  have ge := g
  have hl := g.l_pos
  obtain ⟨res, h1, h2, h3, h4⟩ := C124_motion_partial hash _ hwf times solver fun st hi => hs _ st hc hi
  refine ⟨_, res, hc, h1, h2, h3, by omega, by omega, ?_⟩
  intro hlaws
  obtain ⟨hdist, hX⟩ := hfacts t (by omega)
  obtain ⟨-, -, hmain⟩ := h4 t (by omega) (by omega)
  obtain ⟨-, -, -, hwork, -⟩ := hmain hdist
  obtain ⟨-, -, -, -, hlaw, -⟩ := hlaws t (by omega) (by omega)
  set P : ℕ → ℕ := fun i => q.track.position (q.track.rail.getD i 0) with hP
  have hinj : ∀ a < m, ∀ b < m, P a = P b → a = b := by
    intro a ha b hb he
    have := hplaced.inj _ (ge.mem a ha) _ (ge.mem b hb) he
    rw [← ge.idxOf a ha, ← ge.idxOf b hb, this]
  -- the element on which the wheel stands
  obtain ⟨x1, x2, x3⟩ := hX w hw
  have hb := x3 hpass
  have hin := hat.inside w hw t
  obtain ⟨e, he⟩ : ∃ e, A w t = e + 3 := ⟨A w t - 3, by omega⟩
  have hne : hingeNode k (A w t) = e := by rw [he]; unfold hingeNode; split_ifs <;> omega
  rw [hne] at x1 x2
  -- the rail moves up by one at this element only
  set δ : Spec.NodalField ℝ := fun i c => if c = 1 ∧ (i = P e ∨ i = P (e + 1)) then 1 else 0 with hδ
  have hadm : Spec.Admissible sys δ := by
    intro i _ c hrem
    rw [hδ]
    simp only
    rw [if_neg]
    rintro ⟨rfl, hi⟩
    rcases hi with rfl | rfl
    · exact hfree e (by omega) (by omega) hrem
    · exact hfree (e + 1) (by omega) (by omega) hrem
  have hzero : ∀ j < m, j ≠ e → j ≠ e + 1 → ∀ c, δ (P j) c = 0 := by
    intro j hj h5 h6 c
    rw [hδ]
    simp only
    rw [if_neg]
    rintro ⟨-, h7 | h7⟩
    · exact h5 (hinj _ hj _ (by omega) h7)
    · exact h6 (hinj _ hj _ (by omega) h7)
  have hnode : ∀ x, hingeNode k x ≤ x ∧ x ≤ hingeNode k x + 3 := by
    intro x
    unfold hingeNode
    split_ifs <;> omega
  have hnode1 : ∀ x, x + 1 < m → hingeNode k x + 1 < m := fun x hx => by have := hnode x; omega
  have haway : ∀ w' < q.train.wheelList.length, w' ≠ w → hingeNode k (A w' t) + 5 ≤ e ∨ e + 2 ≤ hingeNode k (A w' t) := by
    intro w' hw' hne'
    obtain ⟨y1, y2, -⟩ := hX w' hw'
    have hwne : q.train.wheelList.getD w' (0, 0) ≠ q.train.wheelList.getD w (0, 0) := by
      rw [List.getD_eq_getElem _ _ hw', List.getD_eq_getElem _ _ hw]
      intro he
      exact hne' ((List.Nodup.getElem_inj_iff (wheelList_nodup q.train)).mp he)
    have hmem : ∀ a < q.train.wheelList.length, q.train.wheelList.getD a (0, 0) ∈ q.train.wheelList := by
      intro a ha
      rw [List.getD_eq_getElem _ _ ha]
      exact List.getElem_mem ha
    have hap := v.apart _ (hmem w' hw') _ (hmem w hw) hwne
    have hf5 := hfar w' hw'
    unfold Spec.wheelX at x1 x2 y1 y2
    push_cast at x2 y2
    have key : ∀ c x y : ℕ, (y : ℝ) * l + c * l < ((x : ℝ) + 1) * l → y + c ≤ x := by
      intro c x y hxy
      have h3 : ((y : ℝ) + c) * l < ((x : ℝ) + 1) * l := by linarith
      have h4 := lt_of_mul_lt_mul_right h3 hl.le
      have h5 : y + c < x + 1 := by exact_mod_cast h4
      omega
    rcases lt_abs.mp hap with h5 | h5
    · exact Or.inr (key 2 _ _ (by push_cast; linarith))
    · have := hf5 (by linarith)
      exact Or.inl (key 5 _ _ (by push_cast; linarith))
  have hcode : ∀ w' < q.train.wheelList.length, Spec.railAt (R w') t δ = 0 := by
    intro w' hw'
    have hi := hat.inside w' hw' t
    have ha : A w' t ≠ e ∧ A w' t ≠ e + 1 ∧ A w' t + 1 ≠ e := by
      by_cases hww : w' = w
      · subst hww; omega
      · have := haway w' hw' hww
        have := hnode (A w' t)
        omega
    unfold Spec.railAt
    rw [hat.element w' hw' t]
    have z1 := hzero (A w' t) (by omega) ha.1 ha.2.1
    have z2 := hzero (A w' t + 1) hi ha.2.2 (by omega)
    simp only [hP] at z1 z2
    simp only [z1, z2]
    ring
  have hspec : ∀ w' < q.train.wheelList.length, w' ≠ w →
      Spec.railDeflection l (m) P δ (Spec.wheelX q.time q.vel (q.startOf (q.train.wheelList.getD w' (0, 0))) t) = 0 := by
    intro w' hw' hne'
    obtain ⟨y1, y2, -⟩ := hX w' hw'
    have hi := hnode1 _ (hat.inside w' hw' t)
    have ha := haway w' hw' hne'
    rw [railDeflection_eq l hl (m) P δ _ (hingeNode k (A w' t)) hi y1 y2]
    have z1 := hzero (hingeNode k (A w' t)) (by omega) (by omega) (by omega)
    have z2 := hzero (hingeNode k (A w' t) + 1) hi (by omega) (by omega)
    simp only [z1, z2]
    unfold Spec.timoDeflection
    ring
  have hself : Spec.railDeflection l (m) P δ (Spec.wheelX q.time q.vel (q.startOf (q.train.wheelList.getD w (0, 0))) t) = 1 := by
    rw [railDeflection_eq l hl (m) P δ _ e (by omega) x1 x2]
    have o1 : δ (P e) 1 = 1 := by simp [hδ]
    have o2 : δ (P (e + 1)) 1 = 1 := by simp [hδ]
    have o3 : δ (P e) 2 = 0 := by simp [hδ]
    have o4 : δ (P (e + 1)) 2 = 0 := by simp [hδ]
    rw [o1, o2, o3, o4]
    unfold Spec.timoDeflection
    ring
  have e1 := (hlaw δ hadm).symm.trans (hwork δ hadm)
  have e2 : Spec.loadWork (Spec.loadsAt (q.runOn sys nodes R).track.timed t)
    (Spec.awayFromWheels (q.runOn sys nodes R).rail
      (q.runOn sys nodes R).train.wheelList.length t δ) = 0 := rfl
  rw [e2, zero_sub, neg_inj] at e1
  have e3 := e1.trans (sum_eq_zero fun w' hw' => by
    rw [show (q.runOn sys nodes R).rail = R from rfl, hcode w' (Finset.mem_range.mp hw'), mul_zero])
  rw [sum_eq_single w (fun w' hw' hne' => by
      dsimp only
      rw [hspec w' (Finset.mem_range.mp hw') hne', mul_zero]) fun hnot => absurd (Finset.mem_range.mpr hw) hnot] at e3
  dsimp only at e3
  rw [hself, mul_one] at e3
  exact e3

end even

/-- The system of the generated track of the ride with a hinge of stiffness `s`. -/
noncomputable def TrackRide.hingedInput (q : TrackRide) (n r : ℕ) (d : ℝ) (k : ℕ) (s : ℝ) : SystemInput ℝ :=
  (generatedInput q.track n r d q.values q.held).withHinge (generatedParts q.track n r d q.values) (generatedCut q.track n r k (s / 2))

theorem Generated.hingedPlaced (g : Generated hash n r d h q.track) (hn : 2 ≤ n) (hk : 2 ≤ k) (hkm : k + 3 ≤ n * r)
    (hv : q.values.Valid) (s : ℝ) : PlacedRail q.track (q.hingedInput n r d k s) := by
  have hg := g.hinged hn hk hkm q.values hv q.held (s / 2)
  have hp := g.placedRail q.values q.held
  exact ⟨hp.within, hp.inj, hg.mesh, hg.aligned⟩

/-- A rail node other than the hinge moves up and down freely. -/
theorem Generated.hinged_free (g : Generated hash n r d h q.track) (hn : 2 ≤ n) (hk : 2 ≤ k) (hkm : k + 3 ≤ n * r) (hv : q.values.Valid)
    (hm : q.values.NonNeg) (hp : RailPresent { q.values.rail with l := d / r }) (s : ℝ) (i : ℕ) (hi : i < n * r) (hik : i ≠ k) :
    ¬ Spec.Removed (q.hingedInput n r d k s) (q.track.position i) 1 := by
  have hg := g.hinged hn hk hkm q.values hv q.held (s / 2)
  have w1 := (g.rail_work q.values hv hm hp i hi 1).1
  have w2 := g.hinged_stiff hn hk hkm q.values hv hp (s / 2) i hi hik 1
  intro hc
  change Spec.Supported (generatedSupports q.track n r q.held) _ _ ∨
    |Spec.systemWork AssemblyPart.mass ((generatedParts q.track n r d q.values).hinged (generatedCut q.track n r k (s / 2))) _ _| ≤ _ ∨
    |Spec.systemWork AssemblyPart.stiffness ((generatedParts q.track n r d q.values).hinged (generatedCut q.track n r k (s / 2))) _ _| ≤ _
    at hc
  rw [g.supported q.held i (by omega) 1, hinged_work_same AssemblyPart.mass _ _ hg.inner hg.rail BeamPart.massMatrix (fun _ _ _ => rfl)
    massMatrix_springs] at hc
  rcases hc with (hx | ⟨-, -, hx⟩) | hx | hx
  · omega
  · simp at hx
  · have := le_abs_self (Spec.systemWork AssemblyPart.mass (generatedParts q.track n r d q.values).parts
      (Spec.unitField (q.track.position i) 1) (Spec.unitField (q.track.position i) 1))
    linarith
  · have := le_abs_self (Spec.systemWork AssemblyPart.stiffness
      ((generatedParts q.track n r d q.values).hinged (generatedCut q.track n r k (s / 2)))
      (Spec.unitField (q.track.position i) 1) (Spec.unitField (q.track.position i) 1))
    linarith

/-! ### C143 -/

theorem coupledOnHinged_eq {f xh : ℝ} (sys : SystemInput ℝ) (h : q.track.hingedSystem q.values f xh q.held = .ok sys) :
    q.coupledOnHinged f xh = q.coupledOnCut f xh sys := by
  unfold TrackRide.coupledOnHinged
  rw [h]
  rfl

theorem mainOnHinged_eq (hash : (Fin 3 → ℝ) → H) {f xh : ℝ} (sys : SystemInput ℝ) (h : q.track.hingedSystem q.values f xh q.held = .ok sys)
    {times : ℕ} {solver : TrimState ℝ → (List (ℕ × List (ℕ → ℝ)) → List (ℕ → ℝ) → ℕ → (ℕ → ℝ) → ℕ → ℝ) → SolverOutput ℝ} :
    q.mainOnHinged hash f xh times solver = (q.coupledOnCut f xh sys).bind fun c => c.main hash (fun _ _ => true) times solver := by
  unfold TrackRide.mainOnHinged
  rw [coupledOnHinged_eq _ h]
  rfl

theorem Generated.lengthElement {t : HorizontalTrack ℝ} (g : Generated hash n r d h t) : t.lengthElement = d :=
  generated_length hash n r d h t g.track

/-- **C143, as far as it holds.** A train that runs over a generated track with a hinge and does not go beyond the last node before it:
the calculation succeeds and its results obey the laws of motion of the train and of the track with the hinge. Missing: trains that
reach the hinge, see `C143_passed_violated`. The condition on the solver can be met, see `C143_solvable`. -/
theorem C143_motion_partial (g : Generated hash n r d h q.track) (hn : 2 ≤ n) (hv : q.values.Valid) (hk : 2 ≤ k) (hkm : k + 3 ≤ n * r)
    (near : 1 / 100000000 + 1 / 100000 * ((k : ℝ) * (d / r)) < d / r) (f : ℝ) (hf : 0 ≤ f) (hf' : f ≤ 1) (v : q.Runs k (d / r))
    (times : ℕ) (htimes : times ≤ q.time.length)
    (solver : TrimState ℝ → (List (ℕ × List (ℕ → ℝ)) → List (ℕ → ℝ) → ℕ → (ℕ → ℝ) → ℕ → ℝ) → SolverOutput ℝ)
    (hs : ∀ c st, q.coupledOnHinged f ((k : ℝ) * (d / r)) = .ok c → c.loadedTrack.input.initialise freshFlags = .ok st →
      Spec.SolvesCoupled (c.system hash st) (c.rhs hash st) times (solver (c.system hash st) (c.rhs hash st))) :
    ∃ sys res, q.track.hingedSystem q.values f ((k : ℝ) * (d / r)) q.held = .ok sys ∧
      q.mainOnHinged hash f ((k : ℝ) * (d / r)) times solver = .ok res ∧
      res.trackRows.length = times ∧ res.trainRows.length = times ∧
      Spec.ObeysLaws hash q sys (d / r) (n * r) (fun i => q.track.position (q.track.rail.getD i 0)) res := by
  obtain ⟨s, hst⟩ := hingeStiffness_some q.values.rail.E q.values.rail.I d f hf hf'
  obtain ⟨nodes, R, hc, hwf, hfacts⟩ := v.beforeHinge g.even hk hkm near (g.hingedPlaced hn hk hkm hv s) f s
    (by rw [g.lengthElement]; exact hst)
  rw [← coupledOnHinged_eq (q.hingedInput n r d k s) (g.hingedSystem hk hkm near q.values q.held f s hst)] at hc
  obtain ⟨res, h1, h2, h3, h4⟩ := v.lawsOn hash nodes R hwf hfacts times htimes solver fun st hi => hs _ st hc hi
  refine ⟨_, res, g.hingedSystem hk hkm near q.values q.held f s hst, ?_, h2, h3, h4⟩
  unfold TrackRide.mainOnHinged
  simp only [bind, Except.bind, hc]
  exact h1

/-- **C143, the condition on the solver can be met** For every such ride there is a solver as in `C143_motion_partial`. -/
theorem C143_solvable (g : Generated hash n r d h q.track) (hn : 2 ≤ n) (hv : q.values.Valid) (hk : 2 ≤ k) (hkm : k + 3 ≤ n * r)
    (near : 1 / 100000000 + 1 / 100000 * ((k : ℝ) * (d / r)) < d / r) (f : ℝ) (hf : 0 ≤ f) (hf' : f ≤ 1) (v : q.Runs k (d / r))
    (times : ℕ) (htimes : times ≤ q.time.length) :
    ∃ solver : TrimState ℝ → (List (ℕ × List (ℕ → ℝ)) → List (ℕ → ℝ) → ℕ → (ℕ → ℝ) → ℕ → ℝ) → SolverOutput ℝ,
      ∀ c st, q.coupledOnHinged f ((k : ℝ) * (d / r)) = .ok c → c.loadedTrack.input.initialise freshFlags = .ok st →
        Spec.SolvesCoupled (c.system hash st) (c.rhs hash st) times (solver (c.system hash st) (c.rhs hash st)) := by
  obtain ⟨s, hst⟩ := hingeStiffness_some q.values.rail.E q.values.rail.I d f hf hf'
  obtain ⟨nodes, R, hc, hwf, hfacts⟩ := v.beforeHinge g.even hk hkm near (g.hingedPlaced hn hk hkm hv s) f s
    (by rw [g.lengthElement]; exact hst)
  rw [← coupledOnHinged_eq (q.hingedInput n r d k s) (g.hingedSystem hk hkm near q.values q.held f s hst)] at hc
  obtain ⟨solver, hs⟩ := v.solvesOn (hash := hash) nodes R hwf hfacts times htimes
  refine ⟨solver, fun c st hc' hi => ?_⟩
  rw [hc] at hc'
  cases hc'
  exact hs st hi

/-- **C143, trains off the rail** A train of which a wheel is at some time in front of the rail or beyond its end, by more than the
tolerance of the check: the calculation on the track with the hinge is refused. -/
theorem C143_rejects (g : Generated hash n r d h q.track) (hk : 2 ≤ k) (hkm : k + 3 ≤ n * r)
    (near : 1 / 100000000 + 1 / 100000 * ((k : ℝ) * (d / r)) < d / r) (hκ : q.values.rail.kappa ≤ 0) (f : ℝ) (hf : 0 ≤ f) (hf' : f ≤ 1)
    (w : ℕ × ℕ) (hw : w ∈ q.train.wheelList) (hlen : q.vel.length = q.time.length) (t : ℕ) (ht : t < q.time.length)
    (hoff : Spec.wheelX q.time q.vel (q.startOf w) t < -(1 / 8388608) ∨
      ((n * r - 1 : ℕ) : ℝ) * (d / r) + 1 / 8388608 < Spec.wheelX q.time q.vel (q.startOf w) t) (times : ℕ)
    (solver : TrimState ℝ → (List (ℕ × List (ℕ → ℝ)) → List (ℕ → ℝ) → ℕ → (ℕ → ℝ) → ℕ → ℝ) → SolverOutput ℝ) :
    q.mainOnHinged hash f ((k : ℝ) * (d / r)) times solver = .error .valueError := by
  obtain ⟨s, hst⟩ := hingeStiffness_some q.values.rail.E q.values.rail.I d f hf hf'
  rw [mainOnHinged_eq hash _ (g.hingedSystem hk hkm near q.values q.held f s hst), g.even.cutRejects hk hkm near hκ f s
    (by rw [g.lengthElement]; exact hst) w hw hlen t ht hoff]
  rfl

/-- C143 is violated: a train that runs over the hinge in steps of at most half an element. At a time when a wheel is one and a half
elements past the hinge and the wheels behind it are more than five elements away from it, the results obey the laws of motion only if
this wheel does not press on the rail at all: the calculation lets no force act on the nodes of the element on which it stands. -/
theorem C143_passed_violated (g : Generated hash n r d h q.track) (hn : 2 ≤ n) (hv : q.values.Valid) (hm : q.values.NonNeg)
    (hp : RailPresent { q.values.rail with l := d / r }) (hk : 2 ≤ k) (hkm : k + 3 ≤ n * r)
    (near : 1 / 100000000 + 1 / 100000 * ((k : ℝ) * (d / r)) < d / r) (f : ℝ) (hf : 0 ≤ f) (hf' : f ≤ 1) (v : q.Runs (n * r - 4) (d / r))
    (hslow : ∀ j, j + 1 < q.time.length → q.vel.getD j 0 * (q.time.getD (j + 1) 0 - q.time.getD j 0) ≤ d / r / 2)
    (times : ℕ) (htimes : times ≤ q.time.length)
    (solver : TrimState ℝ → (List (ℕ × List (ℕ → ℝ)) → List (ℕ → ℝ) → ℕ → (ℕ → ℝ) → ℕ → ℝ) → SolverOutput ℝ)
    (hs : ∀ c st, q.coupledOnHinged f ((k : ℝ) * (d / r)) = .ok c → c.loadedTrack.input.initialise freshFlags = .ok st →
      Spec.SolvesCoupled (c.system hash st) (c.rhs hash st) times (solver (c.system hash st) (c.rhs hash st)))
    (t : ℕ) (ht : t < times) (w : ℕ) (hw : w < q.train.wheelList.length)
    (hpass : ((k : ℝ) + 1) * (d / r) + d / r / 2 < Spec.wheelX q.time q.vel (q.startOf (q.train.wheelList.getD w (0, 0))) t)
    (hfar : ∀ w' < q.train.wheelList.length,
      q.startOf (q.train.wheelList.getD w' (0, 0)) < q.startOf (q.train.wheelList.getD w (0, 0)) →
      5 * (d / r) < q.startOf (q.train.wheelList.getD w (0, 0)) - q.startOf (q.train.wheelList.getD w' (0, 0))) :
    ∃ sys res, q.track.hingedSystem q.values f ((k : ℝ) * (d / r)) q.held = .ok sys ∧
      q.mainOnHinged hash f ((k : ℝ) * (d / r)) times solver = .ok res ∧
      ∃ (h1 : t < res.trackRows.length) (h2 : t < res.trainRows.length),
        Spec.ObeysLaws hash q sys (d / r) (n * r) (fun i => q.track.position (q.track.rail.getD i 0)) res →
        Spec.hertz q.G q.p (q.G * (-q.staticLoad (q.train.wheelList.getD w (0, 0))) ^ (1 / q.p) +
          Spec.railDeflection (d / r) (n * r) (fun i => q.track.position (q.track.rail.getD i 0))
            (Spec.fieldOfRows res.trackRows[t] NodeRow.displacement)
            (Spec.wheelX q.time q.vel (q.startOf (q.train.wheelList.getD w (0, 0))) t) -
          Spec.reportedDof (q.partRow hash res.trainRows[t]) NodeRow.displacement
            (.wheelY (q.train.wheelList.getD w (0, 0)).1 (q.train.wheelList.getD w (0, 0)).2) - q.irr w t) = 0 := by
  obtain ⟨s, hst⟩ := hingeStiffness_some q.values.rail.E q.values.rail.I d f hf hf'
  have hsys : _ = Except.ok (q.hingedInput n r d k s) := g.hingedSystem hk hkm near q.values q.held f s hst
  obtain ⟨c, res, hc, h1, -, -, h4⟩ := v.passedHinge (hash := hash) g.even hk hkm near (g.hingedPlaced hn hk hkm hv s)
    (by
      intro i hi hik
      rw [show q.track.rail.getD i 0 = i by rw [g.rail_eq.1, List.getD_eq_getElem _ _ (by simpa using hi), List.getElem_range]]
      exact g.hinged_free hn hk hkm hv hm hp s i hi hik)
    hslow f s (by rw [g.lengthElement]; exact hst) times htimes solver
    (fun c st hc hi => hs c st (by rw [coupledOnHinged_eq _ hsys]; exact hc) hi) t ht w hw hpass hfar
  refine ⟨_, res, hsys, ?_, h4⟩
  rw [mainOnHinged_eq hash _ hsys, hc]
  exact h1

/-- For every such ride there is a solver as in `C143_passed_violated`. -/
theorem C143_passed_solvable (g : Generated hash n r d h q.track) (hn : 2 ≤ n) (hv : q.values.Valid) (hk : 2 ≤ k) (hkm : k + 3 ≤ n * r)
    (near : 1 / 100000000 + 1 / 100000 * ((k : ℝ) * (d / r)) < d / r) (f : ℝ) (hf : 0 ≤ f) (hf' : f ≤ 1) (v : q.Runs (n * r - 4) (d / r))
    (hslow : ∀ j, j + 1 < q.time.length → q.vel.getD j 0 * (q.time.getD (j + 1) 0 - q.time.getD j 0) ≤ d / r / 2)
    (times : ℕ) (htimes : times ≤ q.time.length) :
    ∃ solver : TrimState ℝ → (List (ℕ × List (ℕ → ℝ)) → List (ℕ → ℝ) → ℕ → (ℕ → ℝ) → ℕ → ℝ) → SolverOutput ℝ,
      ∀ c st, q.coupledOnHinged f ((k : ℝ) * (d / r)) = .ok c → c.loadedTrack.input.initialise freshFlags = .ok st →
        Spec.SolvesCoupled (c.system hash st) (c.rhs hash st) times (solver (c.system hash st) (c.rhs hash st)) := by
  obtain ⟨s, hst⟩ := hingeStiffness_some q.values.rail.E q.values.rail.I d f hf hf'
  obtain ⟨nodes, R, A, hc, hwf, hat, hfacts⟩ := v.acrossHinge g.even hk hkm near (g.hingedPlaced hn hk hkm hv s) hslow f s
    (by rw [g.lengthElement]; exact hst)
  rw [← coupledOnHinged_eq (q.hingedInput n r d k s) (g.hingedSystem hk hkm near q.values q.held f s hst)] at hc
  obtain ⟨solver, hs⟩ := v.solvesLifted (hash := hash) nodes R hwf times (fun t ht => (hfacts t (by omega)).1) (by
    intro t ht w hw
    refine ⟨-q.irr w t, fun x hx => ?_⟩
    rw [hat.law w hw, law_hertz _ _ _ _ v.coefficient v.power]
    unfold Spec.hertz
    rw [if_neg (by linarith)])
  refine ⟨solver, fun c st hc' hi => ?_⟩
  rw [hc] at hc'
  cases hc'
  exact hs st hi

end ride

/-! ### Examples -/

section examples

theorem bendingTrack_railPresent : RailPresent { bendingTrack.rail with l := 3 / 5 / (2 : ℕ) } := by
  intro k
  rw [BeamPart.stiffness, beamStiffness_eq, BeamPart.massMatrix, beamMass, beamTransMass_eq,
    if_neg (by norm_num [bendingTrack, exampleTrack, timoshenkoFactor])]
  fin_cases k <;> constructor <;> norm_num [bendingTrack, exampleTrack, timoshenkoFactor, fixity]

/-- A double-dekker cart as in `exampleRide` at a given speed. -/
noncomputable def rideAt (speed : ℝ) (track : HorizontalTrack ℝ) : TrackRide :=
  { exampleRide track (fullTrain (dataRow (fun _ => (typeData .doubleDekker, bodyData .doubleDekker)) 1),
      cartPositions 20 (typeData .doubleDekker).length 1) with vel := [speed, speed, speed] }

theorem rideAt_runs (speed : ℝ) (h0 : 0 ≤ speed) (h1 : speed ≤ 30) (track : HorizontalTrack ℝ) (count : ℕ) (hc : 150 ≤ count) :
    (rideAt speed track).Runs count (3 / 5 / (2 : ℕ)) := by
  have ht := setFullTrain_eq (K := ℝ) .doubleDekker (by decide) 20 1
  have hcount : (149 : ℝ) ≤ ((count - 1 : ℕ) : ℝ) := by exact_mod_cast (by omega : 149 ≤ count - 1)
  refine default_runs .doubleDekker (by decide) 20 1 ht (by norm_num) le_rfl rfl (by simp [rideAt, exampleRide]) ?_ ?_ ?_ ?_ ?_ ?_ ?_ ?_
  · intro k hk
    have hk' : k + 1 < 3 := hk
    have : k < 2 := by omega
    interval_cases k <;> norm_num [rideAt, exampleRide] <;> linarith
  · intro k hk
    have hk' : k + 1 < 3 := hk
    have : k < 2 := by omega
    interval_cases k <;> norm_num [rideAt, exampleRide] <;> linarith
  · norm_num [Spec.trainSheet]
  · norm_num [Spec.trainSheet]
    linarith
  · intro k hk
    have : k < 3 := by simpa [rideAt, exampleRide] using hk
    interval_cases k <;> norm_num [rideAt, exampleRide, Spec.trainSheet, Spec.wheelX, Finset.sum_range_succ] <;> linarith
  · norm_num [rideAt, exampleRide]
  · norm_num [rideAt, exampleRide]
  · rintro ⟨z, hz⟩
    have h2 : (3 : ℝ) = ((2 * z : ℤ) : ℝ) := by
      push_cast
      rw [← hz]
      norm_num [rideAt, exampleRide]
    have h3 : (3 : ℤ) = 2 * z := by exact_mod_cast h2
    omega

theorem bendingTrack_valid : bendingTrack.Valid := stiffTrack_valid

theorem bendingTrack_nonNeg : bendingTrack.NonNeg := stiffTrack_nonNeg

/-- A train in front of a hinge at 45 m: the conditions of C143 are met. -/
example : ∃ track, Generated (fun p : Fin 3 → ℝ => p) 100 2 (3 / 5) 1 track ∧ (rideAt 30 track).values.Valid ∧
    (rideAt 30 track).Runs 150 (3 / 5 / (2 : ℕ)) ∧
    ∃ solver : TrimState ℝ → (List (ℕ × List (ℕ → ℝ)) → List (ℕ → ℝ) → ℕ → (ℕ → ℝ) → ℕ → ℝ) → SolverOutput ℝ,
      ∀ c st, (rideAt 30 track).coupledOnHinged (1 / 2) (((150 : ℕ) : ℝ) * (3 / 5 / (2 : ℕ))) = .ok c →
        c.loadedTrack.input.initialise freshFlags = .ok st →
        Spec.SolvesCoupled (c.system (fun p : Fin 3 → ℝ => p) st) (c.rhs (fun p : Fin 3 → ℝ => p) st) 3
          (solver (c.system (fun p : Fin 3 → ℝ => p) st) (c.rhs (fun p : Fin 3 → ℝ => p) st)) := by
  obtain ⟨track, htrack, -⟩ := C48_structure (fun p : Fin 3 → ℝ => p) 100 2 (by norm_num) (3 / 5) 1
  have g : Generated (fun p : Fin 3 → ℝ => p) 100 2 (3 / 5) 1 track := ⟨by norm_num, by norm_num, by norm_num, htrack⟩
  have v := rideAt_runs 30 (by norm_num) le_rfl track 150 le_rfl
  exact ⟨track, g, bendingTrack_valid, v, C143_solvable (q := rideAt 30 track) g (by norm_num) bendingTrack_valid (by norm_num)
    (by norm_num) (by norm_num) (1 / 2) (by norm_num) (by norm_num) v 3 le_rfl⟩

theorem rideAt_wheels (speed : ℝ) (track : HorizontalTrack ℝ) : (rideAt speed track).train.wheelList = [(0, 0), (0, 1), (1, 0), (1, 1)] :=
  rfl

theorem rideAt_start (speed : ℝ) (track : HorizontalTrack ℝ) (a : ℕ) (ha : a < 4) :
    (rideAt speed track).startOf ((rideAt speed track).train.wheelList.getD a (0, 0)) =
      20 + (Spec.trainSheet .doubleDekker).axles.getD a 0 := by
  have ht := setFullTrain_eq (K := ℝ) .doubleDekker (by decide) 20 1
  obtain ⟨-, -, -, -, -, h6⟩ := C122_sheet .doubleDekker (by decide) 20 1 _ _ ht
  have := (h6 0 (by norm_num) a ha).1
  rw [rideAt_wheels]
  unfold TrackRide.startOf
  refine Eq.trans ?_ (this.trans (by simp))
  interval_cases a <;> rfl

/-- A train that leaves the rail of 59.7 m within two hundredths of a second: its calculation is refused. -/
example : ∃ track, Generated (fun p : Fin 3 → ℝ => p) 100 2 (3 / 5) 1 track ∧
    ∀ solver, (rideAt 4000 track).mainOnHinged (fun p : Fin 3 → ℝ => p) (1 / 2) (((150 : ℕ) : ℝ) * (3 / 5 / (2 : ℕ))) 3 solver =
      .error .valueError := by
  obtain ⟨track, htrack, -⟩ := C48_structure (fun p : Fin 3 → ℝ => p) 100 2 (by norm_num) (3 / 5) 1
  have g : Generated (fun p : Fin 3 → ℝ => p) 100 2 (3 / 5) 1 track := ⟨by norm_num, by norm_num, by norm_num, htrack⟩
  refine ⟨track, g, fun solver => C143_rejects (q := rideAt 4000 track) g (by norm_num) (by norm_num) (by norm_num)
    (rideAt_runs 0 le_rfl (by norm_num) track 150 le_rfl).bending (1 / 2) (by norm_num) (by norm_num)
    ((rideAt 4000 track).train.wheelList.getD 0 (0, 0)) (by rw [rideAt_wheels]; simp) rfl 2 (by norm_num [rideAt, exampleRide])
    (Or.inr ?_) 3 solver⟩
  rw [rideAt_start 4000 track 0 (by norm_num)]
  norm_num [rideAt, exampleRide, Spec.trainSheet, Spec.wheelX, Finset.sum_range_succ]

/-- A train that has passed a hinge at 6 m: the conditions of `C143_passed_violated` are met, for each of its wheels and each time. -/
example : ∃ track, Generated (fun p : Fin 3 → ℝ => p) 100 2 (3 / 5) 1 track ∧ (rideAt 15 track).values.Valid ∧
    (rideAt 15 track).values.NonNeg ∧ RailPresent { (rideAt 15 track).values.rail with l := 3 / 5 / (2 : ℕ) } ∧
    (rideAt 15 track).Runs (100 * 2 - 4) (3 / 5 / (2 : ℕ)) ∧
    (∀ j, j + 1 < (rideAt 15 track).time.length → (rideAt 15 track).vel.getD j 0 *
      ((rideAt 15 track).time.getD (j + 1) 0 - (rideAt 15 track).time.getD j 0) ≤ 3 / 5 / (2 : ℕ) / 2) ∧
    (∃ solver : TrimState ℝ → (List (ℕ × List (ℕ → ℝ)) → List (ℕ → ℝ) → ℕ → (ℕ → ℝ) → ℕ → ℝ) → SolverOutput ℝ,
      ∀ c st, (rideAt 15 track).coupledOnHinged (1 / 2) (((20 : ℕ) : ℝ) * (3 / 5 / (2 : ℕ))) = .ok c →
        c.loadedTrack.input.initialise freshFlags = .ok st →
        Spec.SolvesCoupled (c.system (fun p : Fin 3 → ℝ => p) st) (c.rhs (fun p : Fin 3 → ℝ => p) st) 3
          (solver (c.system (fun p : Fin 3 → ℝ => p) st) (c.rhs (fun p : Fin 3 → ℝ => p) st))) ∧
    (rideAt 15 track).train.wheelList.length = 4 ∧
    ∀ w < 4, (∀ t < 3, (((20 : ℕ) : ℝ) + 1) * (3 / 5 / (2 : ℕ)) + 3 / 5 / (2 : ℕ) / 2 <
        Spec.wheelX (rideAt 15 track).time (rideAt 15 track).vel
          ((rideAt 15 track).startOf ((rideAt 15 track).train.wheelList.getD w (0, 0))) t) ∧
      ∀ w' < 4, (rideAt 15 track).startOf ((rideAt 15 track).train.wheelList.getD w' (0, 0)) <
          (rideAt 15 track).startOf ((rideAt 15 track).train.wheelList.getD w (0, 0)) →
        5 * (3 / 5 / (2 : ℕ)) < (rideAt 15 track).startOf ((rideAt 15 track).train.wheelList.getD w (0, 0)) -
          (rideAt 15 track).startOf ((rideAt 15 track).train.wheelList.getD w' (0, 0)) := by
  obtain ⟨track, htrack, -⟩ := C48_structure (fun p : Fin 3 → ℝ => p) 100 2 (by norm_num) (3 / 5) 1
  have g : Generated (fun p : Fin 3 → ℝ => p) 100 2 (3 / 5) 1 track := ⟨by norm_num, by norm_num, by norm_num, htrack⟩
  have v := rideAt_runs 15 (by norm_num) (by norm_num) track (100 * 2 - 4) (by norm_num)
  have hslow : ∀ j, j + 1 < (rideAt 15 track).time.length → (rideAt 15 track).vel.getD j 0 *
      ((rideAt 15 track).time.getD (j + 1) 0 - (rideAt 15 track).time.getD j 0) ≤ 3 / 5 / (2 : ℕ) / 2 := by
    intro k hk
    have hk' : k + 1 < 3 := hk
    have : k < 2 := by omega
    interval_cases k <;> norm_num [rideAt, exampleRide]
  refine ⟨track, g, bendingTrack_valid, bendingTrack_nonNeg, bendingTrack_railPresent, v, hslow,
    C143_passed_solvable (q := rideAt 15 track) g (by norm_num) bendingTrack_valid (by norm_num) (by norm_num) (by norm_num) (1 / 2)
      (by norm_num) (by norm_num) v hslow 3 le_rfl, rfl, fun w hw => ⟨fun t ht => ?_, fun w' hw' hne => ?_⟩⟩
  · rw [rideAt_start 15 track w hw]
    interval_cases w <;> interval_cases t <;>
      norm_num [rideAt, exampleRide, Spec.trainSheet, Spec.wheelX, Finset.sum_range_succ]
  · rw [rideAt_start 15 track w hw, rideAt_start 15 track w' hw'] at *
    revert hne
    interval_cases w <;> interval_cases w' <;> simp only [Spec.trainSheet] <;> norm_num

end examples

end Rose
