/-
C163: the rows of the result files of the scripts.
-/
import Verif.Model.WrittenResults
import Verif.Spec.WrittenResults
import Verif.Props.TrackForces
import Verif.Props.CombinedUnknowns
import Verif.Props.HingedCombined
import Verif.Props.BatchBase

set_option linter.unusedSectionVars false

namespace Rose
open Finset

section layout
variable {H : Type*} [DecidableEq H] (hash : (Fin 3 → ℝ) → H) {r : ℕ} {d : ℝ} {segments : List (ℕ × ℝ)}

theorem sum_take (L : List (ℕ × ℝ)) (n : ℕ → ℕ) (h : ∀ k (hk : k < L.length), L[k].1 = n k) (k : ℕ) (hk : k ≤ L.length) :
    ((L.map Prod.fst).take k).sum = ∑ j ∈ range k, n j := by
  induction k with
  | zero => simp
  | succ k ih =>
    have hk' : k < L.length := by omega
    rw [Finset.sum_range_succ, ← ih (by omega), List.take_add_one, List.sum_append, List.getElem?_map, List.getElem?_eq_getElem hk']
    simp [h k hk']

/-- The order of nodes and elements in the parts of a combined track. -/
theorem combined_layout (g : GoodSegments r d segments) : ∃ c, combinedTrack hash r d segments = .ok c ∧
    SoundTrack c (railCount r segments) (d / r) ∧ c.soils.length = segments.length ∧
    c.padNodes = c.pads.flatMap (fun e => [e.1, e.2]) ∧ c.pads.map Prod.snd = c.sleepers ∧
    (∀ p ∈ c.soils, p.2 = p.1.flatMap fun e => [e.1, e.2]) ∧
    c.soils.map (fun p => p.1.length) = segments.map Prod.fst ∧ (c.soils.flatMap Prod.fst).map Prod.fst = c.sleepers ∧
    c.sleepers.map (fun x => (c.store x).pos 0) = Spec.sleeperPlaces r (d / r) (segments.map Prod.fst) := by
  obtain ⟨n, h, t, m, store, gen, hm, hseg, hstore, htwo, hcount, heq⟩ := combinedTrack_generated hash g
  obtain ⟨c, hc, hmesh, hlen, hpos, hchain, hrail, hsl, hpads, hpn, hsoils, hstore', hidx⟩ :=
    combine_horizontal_generated gen m store hstore
  have sound := combine_sound gen m store hstore htwo c hc
  rw [hcount] at sound
  have hn : ∀ k (hk : k < segments.length), segments[k].1 = n k := fun k hk => by rw [hseg k hk]
  refine ⟨c, by rw [heq, hc], sound, by rw [hsoils]; simp [hm], ?_, ?_, ?_, ?_, ?_, ?_⟩
  · rw [hpn, hpads, List.flatMap_assoc]
    congr 1
    funext j
    rw [List.flatMap_map]
  · rw [hpads, hsl, List.map_flatMap]
    simp [Function.comp_def]
  · intro p hp
    rw [hsoils] at hp
    obtain ⟨j, -, rfl⟩ := List.mem_map.mp hp
    simp only [List.flatMap_map]
  · rw [hsoils, List.map_map]
    apply List.ext_getElem
    · simp [hm]
    · intro k h1 h2
      have hk : k < segments.length := by simpa using h2
      simp [hn k hk]
  · rw [hsoils, hsl, List.flatMap_map, List.map_flatMap]
    simp [Function.comp_def]
  · rw [hsl, List.map_flatMap]
    unfold Spec.sleeperPlaces
    rw [List.length_map, hm]
    apply List.flatMap_congr
    intro k hk
    have hk : k < m + 1 := List.mem_range.mp hk
    have hk' : k < segments.length := by omega
    rw [List.getD_eq_getElem _ _ (by simpa using hk'), List.getElem_map, hn k hk', List.map_map]
    apply List.map_congr_left
    intro i hi
    have hi : i < n k := List.mem_range.mp hi
    simp only [Function.comp]
    rw [hstore' k (by omega) _ (by omega), sum_take segments n hn k hk'.le]
    have hr : (r : ℝ) ≠ 0 := by exact_mod_cast g.r_pos.ne'
    simp only [movedPos, trackStore_sleeper _ _ _ _ _ hi, segStart_eq, Matrix.cons_val_zero]
    push_cast
    field_simp
    ring

end layout

section parts
variable {K : Type*} [Field K] [LinearOrder K] [IsStrictOrderedRing K]

theorem writtenHistory_eq (rows : List (List (NodeRow K))) (n : ℕ) : writtenHistory rows n = Spec.vertical rows n := by
  unfold writtenHistory Spec.vertical Spec.fieldOfRows
  apply List.map_congr_left
  intro row _
  cases row[n]? <;> rfl

theorem forces_of {α : Type*} (a : AssemblyPart K) (rows : List (List (NodeRow K))) (col : Fin 3) (cls : PartClass) (es : List α)
    (f : List (NodeRow K) → α → Fin 3 → K) (hlen : a.elements.length = es.length) (h : ∀ row, a.elementForces row = es.map (f row)) :
    (ScriptPart.ofPart cls a).forces rows col = es.map fun e => rows.map fun row => f row e col := by
  unfold ScriptPart.forces ScriptPart.ofPart
  dsimp only
  apply List.ext_getElem
  · simp [hlen]
  · intro i h1 h2
    have hi : i < es.length := by simpa using h2
    simp only [List.getElem_map, List.getElem_range]
    apply List.map_congr_left
    intro row _
    rw [h row, List.getD_eq_getElem _ _ (by simpa using hi), List.getElem_map]

theorem rod_forces (w : RodValues K) (es : List (ℕ × ℕ)) (nodes : List ℕ) (rows : List (List (NodeRow K))) (cls : PartClass) (col : Fin 3) :
    (ScriptPart.ofPart cls (rodAssembly w (downElements es) nodes)).forces rows col = es.map fun e => rows.map fun row =>
      (![w.stiffness * (Spec.fieldOfRows row NodeRow.displacement e.1 1 - Spec.fieldOfRows row NodeRow.displacement e.2 1), 0, 0] :
        Fin 3 → K) col :=
  forces_of _ rows col cls es _ (by simp [rodAssembly, downElements]) fun row => rod_elementForces w es nodes row

theorem beam_forces (b : BeamPart K) (es : List (ℕ × ℕ)) (nodes : List ℕ) (rows : List (List (NodeRow K))) (cls : PartClass) (col : Fin 3) :
    (ScriptPart.ofPart cls (beamAssembly b (horizontalElements es) nodes)).forces rows col = es.map fun e => rows.map fun row =>
      trueElementForce b.stiffness ![true, true, true] 1 0 (sixValues (Spec.fieldOfRows row NodeRow.displacement) e) col :=
  forces_of _ rows col cls es _ (by simp [beamAssembly, horizontalElements]) fun row => beam_elementForces b es nodes row

theorem soilIds_skip (i : ℕ) (ps qs : List (ScriptPart K)) (h : ∀ p ∈ ps, p.cls ≠ .soil) : soilIds i (ps ++ qs) = soilIds i qs := by
  induction ps with
  | nil => rfl
  | cons p ps ih =>
    rw [List.cons_append, soilIds, if_neg (h p List.mem_cons_self), ih fun p hp => h p (List.mem_cons_of_mem _ hp)]

theorem soilIds_soils (ps qs : List (ScriptPart K)) (h : ∀ p ∈ ps, p.cls = .soil) (hq : ∀ p ∈ qs, p.cls ≠ .soil) (i : ℕ) :
    soilIds i (ps ++ qs) = (List.range ps.length).flatMap fun k => List.replicate ((ps.map ScriptPart.count).getD k 0) (i + k) := by
  induction ps generalizing i with
  | nil =>
    rw [List.nil_append, ← List.append_nil qs, soilIds_skip i qs [] hq]
    rfl
  | cons p ps ih =>
    rw [List.cons_append, soilIds, if_pos (h p List.mem_cons_self), ih (fun p hp => h p (List.mem_cons_of_mem _ hp)),
      List.length_cons, List.range_succ_eq_map, List.flatMap_cons, List.flatMap_map]
    simp only [List.map_cons, List.getD_cons_zero, List.getD_cons_succ, add_zero]
    congr 1
    apply List.flatMap_congr
    intro k _
    congr 1
    omega

/-- The nodes of a list that are not close to each other are kept. -/
theorem uniqueNodes_append (pos : ℕ → Fin 3 → K) (acc L : List ℕ)
    (h : (acc ++ L).Pairwise fun a b => a ≠ b ∧ ¬ Coincide (pos b) (pos a)) :
    L.foldl (fun acc n => if acc.any (fun m => decide (n = m) ||
      ((List.finRange 3).all fun i => decide (|pos n i - pos m i| ≤ 1 / 1000000000))) then acc else acc ++ [n]) acc = acc ++ L := by
  induction L generalizing acc with
  | nil => simp
  | cons n L ih =>
    have hn : ¬ (acc.any (fun m => decide (n = m) ||
      ((List.finRange 3).all fun i => decide (|pos n i - pos m i| ≤ 1 / 1000000000))) = true) := by
      intro hc
      obtain ⟨m, hm, hd⟩ := List.any_eq_true.mp hc
      obtain ⟨h1, h2⟩ := (List.pairwise_append.mp h).2.2 m hm n List.mem_cons_self
      rcases Bool.or_eq_true_iff.mp hd with hd | hd
      · exact h1 (of_decide_eq_true hd).symm
      · exact h2 fun i => of_decide_eq_true (List.all_eq_true.mp hd i (List.mem_finRange i))
    rw [List.foldl_cons, if_neg hn, ih (acc ++ [n]) (by simpa using h)]
    simp

theorem uniqueNodes_mem (pos : ℕ → Fin 3 → K) (acc L : List ℕ) (h : ∀ n ∈ L, n ∈ acc) :
    L.foldl (fun acc n => if acc.any (fun m => decide (n = m) ||
      ((List.finRange 3).all fun i => decide (|pos n i - pos m i| ≤ 1 / 1000000000))) then acc else acc ++ [n]) acc = acc := by
  induction L with
  | nil => rfl
  | cons n L ih =>
    have hn : acc.any (fun m => decide (n = m) ||
      ((List.finRange 3).all fun i => decide (|pos n i - pos m i| ≤ 1 / 1000000000))) = true :=
      List.any_eq_true.mpr ⟨n, h n List.mem_cons_self, by simp⟩
    rw [List.foldl_cons, if_pos hn, ih fun n hn => h n (List.mem_cons_of_mem _ hn)]

/-- The nodes of the four pieces of a rail with a hinge, each once and in order. -/
theorem uniqueNodes_cut (pos : ℕ → Fin 3 → K) (C : HingeCut K)
    (h : C.rail.Pairwise fun a b => a ≠ b ∧ ¬ Coincide (pos b) (pos a)) :
    uniqueNodes pos ((C.A ++ [C.p]) ++ [C.p, C.c] ++ [C.c, C.q] ++ (C.q :: C.B)) = C.rail := by
  unfold HingeCut.rail at h ⊢
  have e : (C.A ++ [C.p]) ++ [C.p, C.c] ++ [C.c, C.q] ++ (C.q :: C.B) =
      (C.A ++ [C.p]) ++ ([C.p] ++ ([C.c] ++ ([C.c] ++ ([C.q] ++ ([C.q] ++ C.B))))) := by simp
  have sub : ∀ L M : List ℕ, L ++ M = C.A ++ C.p :: C.c :: C.q :: C.B →
      L.Pairwise fun a b => a ≠ b ∧ ¬ Coincide (pos b) (pos a) := by
    intro L M hLM
    rw [← hLM] at h
    exact (List.pairwise_append.mp h).1
  unfold uniqueNodes
  rw [e]
  simp only [List.foldl_append (l := C.A ++ [C.p]), List.foldl_append (l := [C.p]), List.foldl_append (l := [C.c]),
    List.foldl_append (l := [C.q])]
  rw [uniqueNodes_append pos [] (C.A ++ [C.p]) (sub _ (C.c :: C.q :: C.B) (by simp)), List.nil_append,
    uniqueNodes_mem pos (C.A ++ [C.p]) [C.p] (by simp), uniqueNodes_append pos (C.A ++ [C.p]) [C.c] (sub _ (C.q :: C.B) (by simp)),
    uniqueNodes_mem pos (C.A ++ [C.p] ++ [C.c]) [C.c] (by simp),
    uniqueNodes_append pos (C.A ++ [C.p] ++ [C.c]) [C.q] (sub _ C.B (by simp)),
    uniqueNodes_mem pos (C.A ++ [C.p] ++ [C.c] ++ [C.q]) [C.q] (by simp),
    uniqueNodes_append pos (C.A ++ [C.p] ++ [C.c] ++ [C.q]) C.B (sub _ [] (by simp))]
  simp

theorem collectAll_fold (eqn : ℕ → Fin 3 → Option ℕ) (ps : List (RodValues K × List (ℕ × ℕ))) (damp : RodValues K → K)
    (hd : ∀ p ∈ ps, p.1.damping = some (damp p.1)) (x : ℕ × ℕ → ℕ) (hx : ∀ p ∈ ps, ∀ e ∈ p.2, eqn e.1 1 = some (x e))
    (hnd : ((ps.flatMap Prod.snd).map x).Nodup) (s : SoilMatrices K)
    (hs : ∀ p ∈ ps, ∀ e ∈ p.2, s.stiff (x e) (x e) = 0 ∧ s.damp (x e) (x e) = 0) :
    ∃ s', ps.foldlM (fun s p => p.2.foldlM (collectSoil eqn p.1) s) s = .ok s' ∧ s'.idx = s.idx ++ (ps.flatMap Prod.snd).map x ∧
      (∀ p ∈ ps, ∀ e ∈ p.2, s'.stiff (x e) (x e) = p.1.stiffness ∧ s'.damp (x e) (x e) = damp p.1) ∧
      ∀ i j, (i = j → i ∉ (ps.flatMap Prod.snd).map x) → s'.stiff i j = s.stiff i j ∧ s'.damp i j = s.damp i j := by
  induction ps generalizing s with
  | nil => exact ⟨s, rfl, by simp, by simp, fun _ _ _ => ⟨rfl, rfl⟩⟩
  | cons p ps ih =>
    rw [List.flatMap_cons, List.map_append, List.nodup_append] at hnd
    obtain ⟨n1, n2, n3⟩ := hnd
    have h1 := collectSoil_fold eqn p.1 (damp p.1) (hd p List.mem_cons_self) p.2 x (fun e he => hx p List.mem_cons_self e he) n1 s
      (fun e he => hs p List.mem_cons_self e he)
    have hne : ∀ p' ∈ ps, ∀ e ∈ p'.2, x e ∉ p.2.map x := by
      intro p' hp' e he hc
      exact n3 (x e) hc (x e) (List.mem_map_of_mem (List.mem_flatMap.mpr ⟨p', hp', he⟩)) rfl
    obtain ⟨s', e1, e2, e3, e4⟩ := ih (fun p hp => hd p (List.mem_cons_of_mem _ hp)) (fun p hp => hx p (List.mem_cons_of_mem _ hp)) n2
      { stiff := fun i j => if i = j ∧ i ∈ p.2.map x then p.1.stiffness else s.stiff i j
        damp := fun i j => if i = j ∧ i ∈ p.2.map x then damp p.1 else s.damp i j
        idx := s.idx ++ p.2.map x } (by
        intro p' hp' e he
        simp only [true_and, if_neg (hne p' hp' e he)]
        exact hs p' (List.mem_cons_of_mem _ hp') e he)
    refine ⟨s', ?_, ?_, ?_, ?_⟩
    · rw [List.foldlM_cons, h1]
      exact e1
    · rw [e2, List.flatMap_cons, List.map_append, List.append_assoc]
    · intro p' hp' e he
      rcases List.mem_cons.mp hp' with rfl | hp'
      · have := e4 (x e) (x e) (fun _ hc => n3 (x e) (List.mem_map_of_mem he) (x e) hc rfl)
        rw [this.1, this.2]
        simp only [true_and, if_pos (List.mem_map_of_mem he : x e ∈ p'.2.map x)]
      · exact e3 p' hp' e he
    · intro i j hij
      rw [List.flatMap_cons, List.map_append] at hij
      have := e4 i j (fun h hc => hij h (List.mem_append_right _ hc))
      rw [this.1, this.2]
      have h0 : ¬ (i = j ∧ i ∈ p.2.map x) := fun h => hij h.1 (List.mem_append_left _ h.2)
      exact ⟨if_neg h0, if_neg h0⟩

end parts

section script
variable {K : Type*} [Field K] [LinearOrder K] [IsStrictOrderedRing K]

/-- The list of the script for a system of rails, pads, sleepers and soils. -/
theorem scriptParts_eq (inp : SystemInput K) (rails : List (AssemblyPart K)) (pad sleeper : AssemblyPart K) (as : List (AssemblyPart K))
    (side : ConstraintPart) (bottoms : List ConstraintPart) (hp : inp.parts = rails ++ pad :: sleeper :: as)
    (hc : inp.constraints = side :: bottoms) :
    scriptParts rails.length inp = rails.map (.ofPart .rail) ++ ([.ofPart .railPad pad, .ofPart .sleeper sleeper, .ofConstraint side] ++
      (as.map (.ofPart .soil) ++ bottoms.map .ofConstraint)) := by
  have h1 : (rails ++ pad :: sleeper :: as).drop (rails.length + 1) = sleeper :: as := by
    rw [← List.drop_drop, List.drop_left]; rfl
  have h2 : (rails ++ pad :: sleeper :: as).drop (rails.length + 2) = as := by
    rw [← List.drop_drop, List.drop_left]; rfl
  unfold scriptParts
  rw [hp, hc, h1, h2, List.take_left, List.drop_left]
  simp

theorem scriptParts_soil (rails : List (AssemblyPart K)) (pad sleeper : AssemblyPart K) (as : List (AssemblyPart K))
    (side : ConstraintPart) (bottoms : List ConstraintPart) :
    soilParts (rails.map (.ofPart .rail) ++ ([.ofPart .railPad pad, .ofPart .sleeper sleeper, .ofConstraint side] ++
      (as.map (.ofPart .soil) ++ bottoms.map .ofConstraint))) = as.map (.ofPart .soil) := by
  unfold soilParts
  rw [List.filter_append, List.filter_append, List.filter_append,
    List.filter_eq_nil_iff.mpr (by simp [ScriptPart.ofPart] : ∀ p ∈ rails.map (ScriptPart.ofPart .rail), ¬ decide (p.cls = .soil) = true),
    List.filter_eq_self.mpr (by simp [ScriptPart.ofPart] : ∀ p ∈ as.map (ScriptPart.ofPart .soil), decide (p.cls = .soil) = true),
    List.filter_eq_nil_iff.mpr (by simp [ScriptPart.ofConstraint] :
      ∀ p ∈ bottoms.map (ScriptPart.ofConstraint (K := K)), ¬ decide (p.cls = .soil) = true)]
  simp [ScriptPart.ofPart, ScriptPart.ofConstraint]

theorem scriptParts_ids (rails : List (AssemblyPart K)) (pad sleeper : AssemblyPart K) (as : List (AssemblyPart K))
    (side : ConstraintPart) (bottoms : List ConstraintPart) :
    soilIds 0 (rails.map (.ofPart .rail) ++ ([.ofPart .railPad pad, .ofPart .sleeper sleeper, .ofConstraint side] ++
      (as.map (.ofPart .soil) ++ bottoms.map .ofConstraint))) = Spec.perSleeper (as.map fun a => a.elements.length) id := by
  rw [soilIds_skip 0 _ _ (by simp [ScriptPart.ofPart]), soilIds_skip 0 _ _ (by simp [ScriptPart.ofPart, ScriptPart.ofConstraint]),
    soilIds_soils _ _ (by simp [ScriptPart.ofPart]) (by simp [ScriptPart.ofConstraint])]
  unfold Spec.perSleeper
  simp [Function.comp_def, ScriptPart.count, ScriptPart.ofPart]

end script

section sound
variable {ι : Type*} [DecidableEq ι] {c : CombinedTrack ι ℝ} {m : ℕ} {l : ℝ} {soils : List (RodValues ℝ)}

/-- The order of nodes and elements in pads and soils. -/
structure InOrder (c : CombinedTrack ι ℝ) (counts : List ℕ) : Prop where
  padNodes : c.padNodes = c.pads.flatMap fun e => [e.1, e.2]
  padEnds : c.pads.map Prod.snd = c.sleepers
  soilNodes : ∀ p ∈ c.soils, p.2 = p.1.flatMap fun e => [e.1, e.2]
  counts : c.soils.map (fun p => p.1.length) = counts
  soilTops : (c.soils.flatMap Prod.fst).map Prod.fst = c.sleepers

/-- The soil parts of a track. -/
noncomputable def CombinedTrack.soilAssemblies (c : CombinedTrack ι ℝ) (soils : List (RodValues ℝ)) : List (AssemblyPart ℝ) :=
  (soils.zip c.soils).map fun s => rodAssembly s.1 (downElements (c.placeAll s.2.1)) (s.2.2.map c.place)

theorem soilAssemblies_count (h : c.soils.length ≤ soils.length) :
    (c.soilAssemblies soils).map (fun a => a.elements.length) = c.soils.map fun p => p.1.length := by
  unfold CombinedTrack.soilAssemblies
  rw [List.map_map]
  have : (soils.zip c.soils).map Prod.snd = c.soils := List.map_snd_zip h
  conv_rhs => rw [← this, List.map_map]
  apply List.map_congr_left
  intro s _
  simp [rodAssembly, downElements, CombinedTrack.placeAll]

theorem flatMap_snd_zip {α β γ : Type*} (as : List α) (bs : List β) (h : bs.length ≤ as.length) (f : β → List γ) :
    (as.zip bs).flatMap (fun s => f s.2) = bs.flatMap f := by
  conv_rhs => rw [← List.map_snd_zip h]
  rw [List.flatMap_map]

/-- The nodes of the soils: each sleeper and the node below it. -/
theorem InOrder.soil_nodes {counts : List ℕ} (o : InOrder c counts) (h : c.soils.length ≤ soils.length) {α : Type*} (f : ℕ → α) :
    ((c.soilAssemblies soils).map (ScriptPart.ofPart .soil)).flatMap (fun p => p.nodes.map f) =
      (c.soils.flatMap Prod.fst).flatMap fun e => [f (c.place e.1), f (c.place e.2)] := by
  unfold CombinedTrack.soilAssemblies
  rw [List.map_map, List.flatMap_map, List.flatMap_assoc]
  rw [← flatMap_snd_zip soils c.soils h]
  apply List.flatMap_congr
  intro s hs
  have h2 := o.soilNodes s.2 (List.of_mem_zip hs).2
  simp only [Function.comp, ScriptPart.ofPart, rodAssembly]
  rw [h2]
  simp [List.map_flatMap]

/-- The forces of the soils: stiffness of the segment times the compression of the spring. -/
theorem soil_forces_eq (rows : List (List (NodeRow ℝ))) :
    ((c.soilAssemblies soils).map (ScriptPart.ofPart .soil)).flatMap (ScriptPart.forces rows 0) =
      (soils.zip c.soils).flatMap fun s => s.2.1.map fun e => rows.map fun row => s.1.stiffness *
        (Spec.fieldOfRows row NodeRow.displacement (c.place e.1) 1 - Spec.fieldOfRows row NodeRow.displacement (c.place e.2) 1) := by
  unfold CombinedTrack.soilAssemblies
  rw [List.map_map, List.flatMap_map]
  apply List.flatMap_congr
  intro s _
  simp only [Function.comp]
  rw [rod_forces]
  simp [CombinedTrack.placeAll, Function.comp_def]

theorem perSleeper_cons {α : Type*} (n : ℕ) (ns : List ℕ) (a : ℕ → α) :
    Spec.perSleeper (n :: ns) a = List.replicate n (a 0) ++ Spec.perSleeper ns fun k => a (k + 1) := by
  unfold Spec.perSleeper
  rw [List.length_cons, List.range_succ_eq_map, List.flatMap_cons, List.flatMap_map]
  simp

theorem perSleeper_length {α : Type*} (ns : List ℕ) (a : ℕ → α) : (Spec.perSleeper ns a).length = ns.sum := by
  induction ns generalizing a with
  | nil => rfl
  | cons n ns ih => rw [perSleeper_cons, List.length_append, ih]; simp

theorem zip_perSleeper {α β γ δ : Type*} (ks : List α) (ps : List (List β)) (h : ps.length ≤ ks.length) (z : α) (g : α → γ) (F : γ → β → δ) :
    (ks.zip ps).flatMap (fun s => s.2.map (F (g s.1))) =
      ((Spec.perSleeper (ps.map List.length) fun k => g (ks.getD k z)).zip ps.flatten).map fun q => F q.1 q.2 := by
  induction ps generalizing ks with
  | nil => simp [Spec.perSleeper]
  | cons p ps ih =>
    cases ks with
    | nil => simp at h
    | cons k ks =>
      rw [List.zip_cons_cons, List.flatMap_cons, ih ks (by simpa using h), List.map_cons, perSleeper_cons, List.flatten_cons,
        List.zip_append (by simp), List.map_append]
      simp only [List.getD_cons_zero, List.getD_cons_succ]
      congr 1
      apply List.ext_getElem
      · simp
      · intro i h1 h2
        simp

/-- The lower ends of the soil springs do not move. -/
theorem SoundTrack.bottom_zero (s : SoundTrack c m l) (a b : ι) (ha : a ∈ c.rail) (hb : b ∈ c.rail) (inp : SystemInput ℝ)
    (hn : inp.n = c.meshNodes.length) (hc : inp.constraints = c.supports a b true) (f : Spec.NodalField ℝ) (hf : Spec.Admissible inp f)
    (p : List (ι × ι) × List ι) (hp : p ∈ c.soils) (e : ι × ι) (he : e ∈ p.1) (d : Fin 3) : f (c.place e.2) d = 0 := by
  refine hf _ (by rw [hn]; exact s.place_lt _ (s.bottom_mem p hp e he)) d (Or.inl ?_)
  rw [hc]
  exact s.bottom_supported a b ha hb true p hp e he d

variable {counts : List ℕ} {r : ℕ}

/-- The entries of the result file, from the nodes of the rail and the other parts of the track. -/
theorem SoundTrack.file (s : SoundTrack c m l) (o : InOrder c counts)
    (hx : c.sleepers.map (fun x => (c.store x).pos 0) = Spec.sleeperPlaces r l counts) (hs : c.soils.length ≤ soils.length) (length : ℝ)
    (v : TrackValues) (a b : ι) (ha : a ∈ c.rail) (hb : b ∈ c.rail) (inp : SystemInput ℝ) (hn : inp.n = c.meshNodes.length)
    (hc : inp.constraints = c.supports a b true) (rows : List (List (NodeRow ℝ)))
    (hr : ∀ row ∈ rows, Spec.Admissible inp (Spec.fieldOfRows row NodeRow.displacement)) (forces padForces : List (List ℝ)) :
    Spec.TrackFile c r m l counts (fun k => (soils.getD k v.soil).stiffness) rows {
      railDisplacements := (c.rail.map c.place).map (writtenHistory rows)
      railForces := forces
      railCoords := (c.rail.map c.place).map fun k => ((c.numbered length).store k).pos 0
      padDisplacements := (ScriptPart.ofPart .railPad (rodAssembly v.pad (downElements (c.placeAll c.pads)) (c.padNodes.map c.place))).displacements rows
      padForces := padForces
      padCoords := (c.padNodes.map c.place).map fun k => ((c.numbered length).store k).pos 0
      sleeperDisplacements := (ScriptPart.ofPart .sleeper (sleeperAssembly v.sleeperMass (c.sleepers.map c.place))).displacements rows
      soilDisplacements := ((c.soilAssemblies soils).map (ScriptPart.ofPart .soil)).flatMap (ScriptPart.displacements rows)
      soilForces := ((c.soilAssemblies soils).map (ScriptPart.ofPart .soil)).flatMap (ScriptPart.forces rows 0)
      soilCoords := ((c.soilAssemblies soils).map (ScriptPart.ofPart .soil)).flatMap
        fun p => p.nodes.map fun n => ((c.numbered length).store n).pos 0
      soilId := Spec.perSleeper ((c.soilAssemblies soils).map fun a => a.elements.length) id } := by
  have hbot : ∀ row ∈ rows, ∀ e ∈ c.soils.flatMap Prod.fst, Spec.fieldOfRows row NodeRow.displacement (c.place e.2) 1 = 0 := by
    intro row hrow e he
    obtain ⟨p, hp, he⟩ := List.mem_flatMap.mp he
    exact s.bottom_zero a b ha hb inp hn hc _ (hr row hrow) p hp e he 1
  refine ⟨?_, ?_, ?_, ?_, o.padEnds, ?_, ?_, ?_, ?_, ?_⟩
  · simp only [List.map_map]
    apply List.ext_getElem
    · simp [s.len]
    · intro i h1 h2
      have hi : i < c.rail.length := by simpa using h1
      simp only [List.getElem_map, List.getElem_range, Function.comp]
      rw [s.store length _ (s.rail_mem _ (List.getElem_mem hi)), s.railPos i hi]
      rfl
  · rw [List.map_map]
    exact List.map_congr_left fun x _ => writtenHistory_eq rows _
  · dsimp only
    rw [← hx, ← o.padEnds, o.padNodes, List.map_map, List.map_map, List.flatMap_map, List.map_flatMap]
    apply List.flatMap_congr
    intro e he
    obtain ⟨p1, p2, p3⟩ := s.pads e he
    simp only [List.map_cons, List.map_nil, Function.comp, s.store length _ (s.rail_mem _ p1), s.store length _ (s.sleeper_mem _ p2), p3]
  · show ((c.padNodes.map c.place).map (writtenHistory rows)) = _
    rw [o.padNodes, List.map_map, List.map_flatMap]
    apply List.flatMap_congr
    intro e _
    simp only [List.map_cons, List.map_nil, Function.comp, writtenHistory_eq]
    rfl
  · show ((c.sleepers.map c.place).map (writtenHistory rows)) = _
    rw [List.map_map]
    exact List.map_congr_left fun x _ => writtenHistory_eq rows _
  · dsimp only
    rw [o.soil_nodes hs, ← hx, ← o.soilTops, List.map_map, List.flatMap_map]
    apply List.flatMap_congr
    intro e he
    obtain ⟨p, hp, he⟩ := List.mem_flatMap.mp he
    obtain ⟨p1, p2, p3⟩ := s.soils p hp e he
    simp only [Function.comp, s.store length _ (s.bottom_mem p hp e he), s.store length _ (s.sleeper_mem _ p1), p2]
  · show ((c.soilAssemblies soils).map (ScriptPart.ofPart .soil)).flatMap (fun p => p.nodes.map (writtenHistory rows)) = _
    rw [o.soil_nodes hs, ← o.soilTops, List.flatMap_map]
    apply List.flatMap_congr
    intro e he
    rw [writtenHistory_eq, writtenHistory_eq]
    have : Spec.vertical rows (c.place e.2) = rows.map fun _ => 0 :=
      List.map_congr_left fun row hrow => hbot row hrow e he
    rw [this]
    rfl
  · dsimp only
    rw [soilAssemblies_count hs, o.counts]
  · dsimp only
    rw [soil_forces_eq]
    have h1 : ((soils.zip c.soils).flatMap fun s => s.2.1.map fun e => rows.map fun row => s.1.stiffness *
        (Spec.fieldOfRows row NodeRow.displacement (c.place e.1) 1 - Spec.fieldOfRows row NodeRow.displacement (c.place e.2) 1)) =
        (soils.zip (c.soils.map fun p => p.1.map Prod.fst)).flatMap fun s => s.2.map fun x => rows.map fun row => s.1.stiffness *
          Spec.fieldOfRows row NodeRow.displacement (c.place x) 1 := by
      rw [List.zip_map_right, List.flatMap_map]
      apply List.flatMap_congr
      intro q hq
      simp only [Prod.map_fst, Prod.map_snd, List.map_map]
      apply List.map_congr_left
      intro e he
      apply List.map_congr_left
      intro row hrow
      rw [hbot row hrow e (List.mem_flatMap.mpr ⟨_, (List.of_mem_zip hq).2, he⟩), sub_zero]
      rfl
    rw [h1, zip_perSleeper soils (c.soils.map fun p => p.1.map Prod.fst) (by simpa using hs) v.soil RodValues.stiffness
      (fun k x => rows.map fun row => k * Spec.fieldOfRows row NodeRow.displacement (c.place x) 1), ← o.soilTops, List.map_flatMap,
      List.map_map]
    simp only [Function.comp_def, List.length_map, o.counts, List.flatMap_def]
    rfl

/-- The energy in a pad is at most that of the track with the hinge. -/
theorem HingedStanding.pad_work {inp : SystemInput ℝ} {T : TrackParts ℝ} {H : HingeCut ℝ} (h : HingedStanding inp T H) (u : Spec.NodalField ℝ)
    (he : ∃ e ∈ T.pads, (u e.2 1 - u e.1 1) ^ 2 = 1) : T.pad.stiffness ≤ Spec.systemWork AssemblyPart.stiffness (T.hinged H) u u := by
  obtain ⟨e, he, he1⟩ := he
  have hb := h.standing.beam
  rw [hinged_work AssemblyPart.stiffness _ _ h.inner BeamPart.stiffness (fun _ _ _ => rfl), h.rest]
  have n1 := list_sum_nonneg (chainOf (H.A ++ [H.p])) (fun e => Spec.energy T.beam.stiffness (sixValues u e)) fun e _ => C19_beam_psd _ hb _
  have n4 := list_sum_nonneg (chainOf (H.q :: H.B)) (fun e => Spec.energy T.beam.stiffness (sixValues u e)) fun e _ => C19_beam_psd _ hb _
  have n2 := C19_beam_psd _ (h.valid .inf (.fin H.σ)) (sixValues u (H.p, H.c))
  have n3 := C19_beam_psd _ (h.valid (.fin H.σ) .inf) (sixValues u (H.c, H.q))
  have n5 := le_sum_of_mem T.pads (fun e => T.pad.stiffness * (u e.2 1 - u e.1 1) ^ 2) (fun e _ => mul_nonneg h.standing.pad.le (sq_nonneg _)) e he
  have n6 := list_sum_nonneg T.soils (fun s => (s.2.1.map fun e => s.1.stiffness * (u e.2 1 - u e.1 1) ^ 2).sum) fun s hs =>
    list_sum_nonneg _ _ fun e _ => mul_nonneg (h.standing.soil s hs).le (sq_nonneg _)
  simp only [he1, mul_one] at n5
  change T.pad.stiffness ≤ ((chainOf (H.A ++ [H.p])).map fun e => Spec.energy T.beam.stiffness (sixValues u e)).sum +
    (Spec.energy (BeamPart.stiffness { T.beam with s1 := .inf, s2 := .fin H.σ }) (sixValues u _) +
    (Spec.energy (BeamPart.stiffness { T.beam with s1 := .fin H.σ, s2 := .inf }) (sixValues u _) +
    (((chainOf (H.q :: H.B)).map fun e => Spec.energy T.beam.stiffness (sixValues u e)).sum + _)))
  linarith

/-- The soil matrices of a track whose sleepers have vertical equations. -/
theorem SoundTrack.soil_matrices (s : SoundTrack c m l) (o : InOrder c counts) (hnd : c.sleepers.Nodup) (hs : c.soils.length ≤ soils.length)
    (z : RodValues ℝ) (damp : RodValues ℝ → ℝ) (hd : ∀ w ∈ soils, w.damping = some (damp w)) (inp : SystemInput ℝ)
    (st : TrimState ℝ) (hst : inp.initialise freshFlags = .ok st) (heq : ∀ x ∈ c.sleepers, equationOf st.nodes (c.place x) 1 ≠ none) :
    ∃ q, collectAllSoil (nodeEquations st.nodes) ((soils.zip c.soils).map fun q => (q.1, c.placeAll q.2.1)) = .ok q ∧
      q.idx.map some = c.sleepers.map (fun x => equationOf st.nodes (c.place x) 1) ∧ q.idx.Nodup ∧ (∀ k ∈ q.idx, k < st.N) ∧
      q.idx.map (fun k => q.stiff k k) = Spec.perSleeper counts (fun k => (soils.getD k z).stiffness) ∧
      q.idx.map (fun k => q.damp k k) = Spec.perSleeper counts (fun k => damp (soils.getD k z)) ∧
      ∀ i j, (i = j → i ∉ q.idx) → q.stiff i j = 0 ∧ q.damp i j = 0 := by
  obtain ⟨hb1, hb2, -⟩ := C106_representable _ freshFlags st hst
  set x : ℕ × ℕ → ℕ := fun e => (equationOf st.nodes e.1 1).getD 0 with hx
  have hxs : ∀ y ∈ c.sleepers, ∀ k, equationOf st.nodes (c.place y) 1 = some (x (c.place y, k)) := by
    intro y hy k
    obtain ⟨j, hj⟩ := Option.ne_none_iff_exists'.mp (heq y hy)
    simp [hx, hj]
  set ps := (soils.zip c.soils).map fun q => (q.1, c.placeAll q.2.1) with hps
  have hflat : (ps.flatMap Prod.snd).map x = c.sleepers.map fun y => x (c.place y, 0) := by
    rw [← o.soilTops, hps, List.flatMap_map]
    have := flatMap_snd_zip soils c.soils hs (fun p => c.placeAll p.1)
    rw [this, List.map_flatMap, List.map_flatMap, List.map_flatMap]
    simp [CombinedTrack.placeAll, hx, Function.comp_def]
  have hmem : ∀ p ∈ ps, ∀ e ∈ p.2, ∃ y ∈ c.sleepers, e.1 = c.place y := by
    intro p hp e he
    obtain ⟨q, hq, rfl⟩ := List.mem_map.mp hp
    obtain ⟨f, hf, rfl⟩ := List.mem_map.mp he
    exact ⟨f.1, (s.soils q.2 (List.of_mem_zip hq).2 f hf).1, rfl⟩
  have hnodup : ((ps.flatMap Prod.snd).map x).Nodup := by
    rw [hflat]
    apply List.Nodup.map_on _ hnd
    intro y hy y' hy' he
    have e1 := hxs y hy 0
    have e2 := hxs y' hy' 0
    rw [he] at e1
    have := (hb1 _ (hb2 _ _ _ e1).2).unique (y₁ := (c.place y, 1)) (y₂ := (c.place y', 1)) e1 e2
    exact s.place_inj y y' (s.sleeper_mem y hy) (Prod.mk.inj this).1
  obtain ⟨q, q1, q2, q3, q4⟩ := collectAll_fold (nodeEquations st.nodes) ps damp
    (by
      intro p hp
      obtain ⟨q, hq, rfl⟩ := List.mem_map.mp hp
      exact hd _ (List.of_mem_zip hq).1) x
    (by
      intro p hp e he
      obtain ⟨y, hy, e0⟩ := hmem p hp e he
      rw [nodeEquations_eq, e0, hxs y hy e.2, ← e0]) hnodup ⟨fun _ _ => 0, fun _ _ => 0, []⟩ (fun _ _ _ _ => ⟨rfl, rfl⟩)
  rw [List.nil_append] at q2
  have hdiag : ∀ (f : ℕ → ℝ) (g : RodValues ℝ → ℝ), (∀ p ∈ ps, ∀ e ∈ p.2, f (x e) = g p.1) →
      q.idx.map f = Spec.perSleeper counts (fun k => g (soils.getD k z)) := by
    intro f g hfg
    have h1 : q.idx.map f = (soils.zip (c.soils.map fun p => c.placeAll p.1)).flatMap fun s => s.2.map fun _ => g s.1 := by
      rw [q2, List.map_map, List.map_flatMap, hps, List.flatMap_map, List.zip_map_right, List.flatMap_map]
      apply List.flatMap_congr
      intro t ht
      apply List.map_congr_left
      intro e he
      exact hfg _ (List.mem_map_of_mem ht) e he
    rw [h1, zip_perSleeper soils _ (by simpa using hs) z g (fun k _ => k)]
    have hl : (c.soils.map fun p => c.placeAll p.1).map List.length = counts := by
      rw [← o.counts]
      simp [Function.comp_def, CombinedTrack.placeAll]
    rw [hl]
    exact List.map_fst_zip (by rw [perSleeper_length, List.length_flatten, hl])
  refine ⟨q, q1, ?_, by rw [q2]; exact hnodup, ?_, hdiag (fun k => q.stiff k k) RodValues.stiffness (fun p hp e he => (q3 p hp e he).1),
    hdiag (fun k => q.damp k k) damp (fun p hp e he => (q3 p hp e he).2), ?_⟩
  · rw [q2, hflat, List.map_map]
    exact List.map_congr_left fun y hy => (hxs y hy 0).symm
  · intro k hk
    rw [q2, hflat] at hk
    obtain ⟨y, hy, rfl⟩ := List.mem_map.mp hk
    exact (hb2 _ _ _ (hxs y hy 0)).2
  · intro i j hij
    rw [q2] at hij
    exact q4 i j hij

end sound

theorem chainOf_eq (L : List ℕ) : chainOf L = (List.range (L.length - 1)).map fun i => (L.getD i 0, L.getD (i + 1) 0) := by
  unfold chainOf
  apply List.ext_getElem
  · simp
  · intro i h1 h2
    have hi : i + 1 < L.length := by
      simp at h2
      omega
    rw [List.getElem_zip, List.getElem_map, List.getElem_range, List.getElem_tail, List.getD_eq_getElem _ _ (by omega),
      List.getD_eq_getElem _ _ hi]

theorem chainOf_append_single (A : List ℕ) (p q : ℕ) (R : List ℕ) : chainOf (A ++ p :: q :: R) = chainOf (A ++ [p]) ++ (p, q) :: chainOf (q :: R) := by
  rw [chain_append]
  rfl

/-- The elements of the four pieces of a rail with a hinge, from left to right. -/
theorem cut_chain {α : Type*} (A B : List ℕ) (p c q : ℕ) (F1 F2 F3 : ℕ × ℕ → α) (k : ℕ) (hk : A.length + 1 = k) :
    (chainOf (A ++ [p])).map F1 ++ (F2 (p, c) :: F3 (c, q) :: (chainOf (q :: B)).map F1) =
      (List.range ((A ++ p :: c :: q :: B).length - 1)).map fun i =>
        (if i + 1 = k then F2 else if i = k then F3 else F1)
          ((A ++ p :: c :: q :: B).getD i 0, (A ++ p :: c :: q :: B).getD (i + 1) 0) := by
  set L := A ++ p :: c :: q :: B with hL
  have hsplit : List.range (L.length - 1) = List.range A.length ++ ([A.length, k] ++ (List.range B.length).map (k + 1 + ·)) := by
    rw [show L.length - 1 = (A.length + 1 + 1) + B.length by simp [hL]; omega, List.range_add, List.range_succ, List.range_succ, hk]
    simp
  have g0 : ∀ j, L.getD (A.length + j) 0 = (p :: c :: q :: B).getD j 0 := by
    intro j
    rw [hL, List.getD_append_right _ _ _ _ (by omega), Nat.add_sub_cancel_left]
  rw [hsplit, List.map_append, chainOf_eq, List.map_map]
  congr 1
  · rw [List.length_append, List.length_singleton, Nat.add_sub_cancel]
    apply List.map_congr_left
    intro i hi
    have hi : i < A.length := List.mem_range.mp hi
    simp only [Function.comp]
    rw [if_neg (by omega), if_neg (by omega)]
    have e1 : (A ++ [p]).getD i 0 = L.getD i 0 := by
      rw [hL, List.getD_append _ _ _ _ hi, List.getD_append _ _ _ _ hi]
    have e2 : (A ++ [p]).getD (i + 1) 0 = L.getD (i + 1) 0 := by
      rcases Nat.lt_or_ge (i + 1) A.length with h | h
      · rw [hL, List.getD_append _ _ _ _ h, List.getD_append _ _ _ _ h]
      · rw [hL, List.getD_append_right _ _ _ _ h, List.getD_append_right _ _ _ _ h, show i + 1 - A.length = 0 by omega]
        rfl
    rw [e1, e2]
  · have g1 : L.getD A.length 0 = p := g0 0
    have g2 : L.getD k 0 = c := by rw [← hk]; exact g0 1
    have g3 : L.getD (k + 1) 0 = q := by rw [← hk]; exact g0 2
    rw [List.map_append, List.map_map, chainOf_eq, List.map_map, List.length_cons, Nat.add_sub_cancel]
    simp only [List.map_cons, List.map_nil, List.cons_append, List.nil_append, hk, if_true, g1, g2, g3, if_neg (Nat.succ_ne_self k)]
    congr 2
    apply List.map_congr_left
    intro i _
    simp only [Function.comp]
    rw [if_neg (by omega), if_neg (by omega)]
    have e1 : ∀ j, L.getD (k + 1 + j) 0 = (q :: B).getD j 0 := by
      intro j
      rw [show k + 1 + j = A.length + (j + 2) by omega, g0]
      rfl
    rw [e1, show k + 1 + i + 1 = k + 1 + (i + 1) by omega, e1]

section claims
variable {H : Type*} [DecidableEq H] (hash : (Fin 3 → ℝ) → H) {r : ℕ} {d : ℝ} {segments : List (ℕ × ℝ)}

/-- The shear force of the rail element `i` with the beam values `b`, at all output indices. -/
noncomputable def shearHistory {ι : Type*} [DecidableEq ι] (c : CombinedTrack ι ℝ) (b : BeamPart ℝ) (rows : List (List (NodeRow ℝ))) (i : ℕ) : List ℝ :=
  rows.map fun row => trueElementForce b.stiffness ![true, true, true] 1 0
    (sixValues (Spec.fieldOfRows row NodeRow.displacement) (c.railNumber i, c.railNumber (i + 1))) 1

/-- **C163, demo scripts** For all segments that can be combined and all results that respect the supports, the script writes: rail nodes from left to right with their
places and displacements; the shear force of every rail element; sleepers, pads and soil springs sleeper by sleeper through all segments with their places and
displacements; the number of the segment and the force (stiffness of the soil of this segment times displacement of the sleeper) of every soil spring.
The pad forces are zero (see C127). -/
theorem C163_demo (g : GoodSegments r d segments) (length : ℝ) (v : TrackValues) (soils : List (RodValues ℝ))
    (hs : segments.length ≤ soils.length) :
    ∃ c inp, combinedTrack hash r d segments = .ok c ∧ c.system length v soils true = .ok inp ∧
      ∀ rows : List (List (NodeRow ℝ)), (∀ row ∈ rows, Spec.Admissible inp (Spec.fieldOfRows row NodeRow.displacement)) →
        ∃ w, writeDemo (fun k => ((c.numbered length).store k).pos) (scriptParts 1 inp) rows = .ok w ∧
          Spec.TrackFile c r (railCount r segments) (d / r) (segments.map Prod.fst) (fun k => (soils.getD k v.soil).stiffness) rows w ∧
          w.railForces = (List.range (railCount r segments - 1)).map (shearHistory c { v.rail with l := d / r } rows) ∧
          w.padForces = c.pads.map fun _ => rows.map fun _ => 0 := by
  obtain ⟨c, hc, s, hlen, h1, h2, h3, h4, h5, h6⟩ := combined_layout hash g
  have hs' : c.soils.length ≤ soils.length := by omega
  obtain ⟨a, b, ha, hb, hsys⟩ := s.system length v soils hs' true
  refine ⟨c, _, hc, hsys, fun rows hr => ?_⟩
  have hfile := s.file (r := r) (soils := soils) ⟨h1, h2, h3, h4, h5⟩ h6 hs' length v a b (List.mem_of_head? ha) (List.mem_of_getLast? hb) _ rfl rfl rows hr
  have hparts : (c.inputOf (d / r) v soils a b true).parts =
      [beamAssembly { v.rail with l := d / r } (horizontalElements (chainOf (c.rail.map c.place))) (c.rail.map c.place)] ++
      rodAssembly v.pad (downElements (c.placeAll c.pads)) (c.padNodes.map c.place) ::
        sleeperAssembly v.sleeperMass (c.sleepers.map c.place) :: c.soilAssemblies soils := by
    show (c.partsOf (d / r) v soils).parts = _
    unfold TrackParts.parts CombinedTrack.partsOf CombinedTrack.soilAssemblies
    simp [Function.comp_def]
  have hscript := scriptParts_eq _ _ _ _ _ ⟨[c.place a, c.place b], ![false, true, true]⟩
    (c.soils.map fun s => ⟨s.1.map fun e => c.place e.2, ![false, false, false]⟩) hparts rfl
  rw [List.length_singleton] at hscript
  rw [hscript]
  unfold writeDemo
  rw [scriptParts_soil, scriptParts_ids]
  refine ⟨_, rfl, hfile _ _, ?_, ?_⟩
  · dsimp only
    rw [beam_forces, chainOf_eq, List.map_map, List.length_map, s.len]
    rfl
  · dsimp only
    rw [rod_forces]
    simp [CombinedTrack.placeAll, Function.comp_def]

/-- **C163, scripts with a hinge** As `C163_demo`, for the track with a hinge of stiffness `σ` at the rail node `k`: each rail node is listed once, from left to right; the two
elements beside the hinge have end springs of stiffness `σ / 2` at the hinge. -/
theorem C163_semi_rigid (g : GoodSegments r d segments) (length : ℝ) (v : TrackValues) (soils : List (RodValues ℝ))
    (hs : segments.length ≤ soils.length) (k : ℕ) (hk : 2 ≤ k) (hkm : k + 3 ≤ railCount r segments)
    (near : 1 / 100000000 + 1 / 100000 * ((k : ℝ) * (d / r)) < d / r) (f σ : ℝ)
    (hσ : hingeStiffness v.rail.E v.rail.I length f none = some σ) :
    ∃ c inp, combinedTrack hash r d segments = .ok c ∧ c.hingedSystem length v soils f (k * (d / r)) true = .ok inp ∧
      ∀ rows : List (List (NodeRow ℝ)), (∀ row ∈ rows, Spec.Admissible inp (Spec.fieldOfRows row NodeRow.displacement)) →
        ∃ w, writeSemiRigid (fun k => ((c.numbered length).store k).pos) (scriptParts 4 inp) rows = .ok w ∧
          Spec.TrackFile c r (railCount r segments) (d / r) (segments.map Prod.fst) (fun k => (soils.getD k v.soil).stiffness) rows w ∧
          w.railForces = (List.range (railCount r segments - 1)).map (fun i => shearHistory c
            (if i + 1 = k then { v.rail with l := d / r, s1 := .inf, s2 := .fin (σ / 2) }
              else if i = k then { v.rail with l := d / r, s1 := .fin (σ / 2), s2 := .inf } else { v.rail with l := d / r }) rows i) ∧
          w.padForces = c.pads.map fun _ => rows.map fun _ => 0 := by
  obtain ⟨c, hc, s, hlen, h1, h2, h3, h4, h5, h6⟩ := combined_layout hash g
  have hs' : c.soils.length ≤ soils.length := by omega
  obtain ⟨a, b, ha, hb, hsys⟩ := s.hingedSystem length v soils hs' true hk hkm near f σ hσ
  refine ⟨c, _, hc, hsys, fun rows hr => ?_⟩
  set C := c.cutAt k (σ / 2) with hC
  have hcut : c.rail.map c.place = C.rail := s.cut_rail (by omega) (by omega) _
  have hfile := s.file (r := r) (soils := soils) ⟨h1, h2, h3, h4, h5⟩ h6 hs' length v a b (List.mem_of_head? ha) (List.mem_of_getLast? hb) _ rfl rfl rows hr
  have hparts : ((c.inputOf (d / r) v soils a b true).withHinge (c.partsOf (d / r) v soils) C).parts =
      C.pieces { v.rail with l := d / r } ++
      rodAssembly v.pad (downElements (c.placeAll c.pads)) (c.padNodes.map c.place) ::
        sleeperAssembly v.sleeperMass (c.sleepers.map c.place) :: c.soilAssemblies soils := by
    show C.pieces (c.partsOf (d / r) v soils).beam ++ (c.partsOf (d / r) v soils).parts.tail = _
    unfold TrackParts.parts CombinedTrack.partsOf CombinedTrack.soilAssemblies
    simp [Function.comp_def]
  have hscript := scriptParts_eq _ _ _ _ _ ⟨[c.place a, c.place b], ![false, true, true]⟩
    (c.soils.map fun s => ⟨s.1.map fun e => c.place e.2, ![false, false, false]⟩) hparts rfl
  rw [show (C.pieces { v.rail with l := d / r }).length = 4 from rfl] at hscript
  rw [hscript]
  have hun : uniqueNodes (fun k => ((c.numbered length).store k).pos) ((C.A ++ [C.p]) ++ [C.p, C.c] ++ [C.c, C.q] ++ (C.q :: C.B)) =
      c.rail.map c.place := by
    rw [hcut]
    apply uniqueNodes_cut
    rw [← hcut, List.pairwise_iff_getElem]
    intro i j hi hj hij
    have hi' : i < c.rail.length := by simpa using hi
    have hj' : j < c.rail.length := by simpa using hj
    rw [List.getElem_map, List.getElem_map]
    have hclose : ¬ Coincide ((c.numbered length).store (c.place c.rail[j])).pos ((c.numbered length).store (c.place c.rail[i])).pos := by
      intro hco
      have := hco 0
      rw [s.store length _ (s.rail_mem _ (List.getElem_mem hi')), s.store length _ (s.rail_mem _ (List.getElem_mem hj')),
        s.railPos i hi', s.railPos j hj'] at this
      simp only [Matrix.cons_val_zero] at this
      have hij' : (i : ℝ) + 1 ≤ j := by exact_mod_cast hij
      have hd := g.distance
      have h0 := s.l_pos
      have h2 : d / r ≤ (j : ℝ) * (d / r) - i * (d / r) := by nlinarith
      have h3 := le_abs_self ((j : ℝ) * (d / r) - i * (d / r))
      linarith
    refine ⟨fun he => hclose ?_, hclose⟩
    rw [he]
    intro i
    simp
  unfold writeSemiRigid
  rw [scriptParts_soil, scriptParts_ids]
  have hm4 : ∀ (x1 x2 x3 x4 : ScriptPart ℝ) (R : List (ScriptPart ℝ)), (List.range 4).mapM (partAt (x1 :: x2 :: x3 :: x4 :: R)) =
      .ok [x1, x2, x3, x4] := fun _ _ _ _ _ => rfl
  have hnodes : ([ScriptPart.ofPart .rail (beamAssembly { v.rail with l := d / r } (horizontalElements (chainOf (C.A ++ [C.p]))) (C.A ++ [C.p])),
      ScriptPart.ofPart .rail (beamAssembly { v.rail with l := d / r, s1 := .inf, s2 := .fin C.σ } (horizontalElements [(C.p, C.c)]) [C.p, C.c]),
      ScriptPart.ofPart .rail (beamAssembly { v.rail with l := d / r, s1 := .fin C.σ, s2 := .inf } (horizontalElements [(C.c, C.q)]) [C.c, C.q]),
      ScriptPart.ofPart .rail (beamAssembly { v.rail with l := d / r } (horizontalElements (chainOf (C.q :: C.B))) (C.q :: C.B))]).flatMap
      ScriptPart.nodes = (C.A ++ [C.p]) ++ [C.p, C.c] ++ [C.c, C.q] ++ (C.q :: C.B) := by
    simp [ScriptPart.ofPart, beamAssembly]
  simp only [HingeCut.pieces, List.map_cons, List.map_nil, List.cons_append, List.nil_append, hm4, bind, Except.bind, hnodes, hun]
  refine ⟨_, rfl, hfile _ _, ?_, ?_⟩
  · simp only [List.flatMap_cons, List.flatMap_nil, beam_forces, List.append_nil, List.map_cons, List.map_nil]
    have hA : C.A.length + 1 = k := by
      have := s.len
      simp only [hC, CombinedTrack.cutAt, List.length_take, List.length_map]
      omega
    have hnum : ∀ i, c.railNumber i = (C.A ++ C.p :: C.c :: C.q :: C.B).getD i 0 := fun i => congrArg (fun L => List.getD L i 0) hcut
    have hlen' : (C.A ++ C.p :: C.c :: C.q :: C.B).length = railCount r segments := by
      rw [← s.len, ← List.length_map (f := c.place), hcut]
      rfl
    have := cut_chain C.A C.B C.p C.c C.q (fun e => rows.map fun row => trueElementForce (BeamPart.stiffness { v.rail with l := d / r })
        ![true, true, true] 1 0 (sixValues (Spec.fieldOfRows row NodeRow.displacement) e) 1)
      (fun e => rows.map fun row => trueElementForce (BeamPart.stiffness { v.rail with l := d / r, s1 := .inf, s2 := .fin C.σ })
        ![true, true, true] 1 0 (sixValues (Spec.fieldOfRows row NodeRow.displacement) e) 1)
      (fun e => rows.map fun row => trueElementForce (BeamPart.stiffness { v.rail with l := d / r, s1 := .fin C.σ, s2 := .inf })
        ![true, true, true] 1 0 (sixValues (Spec.fieldOfRows row NodeRow.displacement) e) 1) k hA
    rw [hlen'] at this
    refine Eq.trans this ?_
    apply List.map_congr_left
    intro i _
    unfold shearHistory
    rw [hnum, hnum]
    split_ifs <;> rfl
  · dsimp only
    rw [rod_forces]
    simp [CombinedTrack.placeAll, Function.comp_def]

/-- **C163, soil matrices of the demo scripts** For all segments: diagonal, with the stiffness and the damping of the soil of the segment at the vertical equation of every sleeper;
`idx` names these equations in the order of the sleepers, each once. -/
theorem C163_soil_matrices (g : GoodSegments r d segments) (length : ℝ) (v : TrackValues) (soils : List (RodValues ℝ))
    (hs : segments.length ≤ soils.length) (k : KeptValues (d / r) v soils) (damp : RodValues ℝ → ℝ)
    (hd : ∀ w ∈ soils, w.damping = some (damp w)) :
    ∃ c inp st q, combinedTrack hash r d segments = .ok c ∧ c.system length v soils true = .ok inp ∧ inp.initialise freshFlags = .ok st ∧
      collectAllSoil (nodeEquations st.nodes) ((soils.zip c.soils).map fun q => (q.1, c.placeAll q.2.1)) = .ok q ∧
      q.idx.map some = c.sleepers.map (fun x => equationOf st.nodes (c.meshNodes.idxOf x) 1) ∧ q.idx.Nodup ∧ (∀ k ∈ q.idx, k < st.N) ∧
      q.idx.map (fun k => q.stiff k k) = Spec.perSleeper (segments.map Prod.fst) (fun k => (soils.getD k v.soil).stiffness) ∧
      q.idx.map (fun k => q.damp k k) = Spec.perSleeper (segments.map Prod.fst) (fun k => damp (soils.getD k v.soil)) ∧
      ∀ i j, (i = j → i ∉ q.idx) → q.stiff i j = 0 ∧ q.damp i j = 0 := by
  obtain ⟨c, hc, s, hlen, h1, h2, h3, h4, h5, h6⟩ := combined_layout hash g
  obtain ⟨c', hc', -, -, -, hnd, -⟩ := C136_structure hash g
  rw [hc] at hc'
  injection hc' with hc'
  subst c'
  have hs' : c.soils.length ≤ soils.length := by omega
  obtain ⟨a, b, ha, hb, hsys⟩ := s.system length v soils hs' true
  have hstand := s.standing v soils hs' k.valid a b (List.mem_of_head? ha) (List.mem_of_getLast? hb) true
  obtain ⟨st, hst⟩ := C106_succeeds _ hstand.mesh freshFlags
  have hpad : ∀ x ∈ c.sleepers, ∃ e ∈ c.pads, e.2 = x := by
    intro x hx
    rw [← h2] at hx
    exact List.mem_map.mp hx
  obtain ⟨-, hk, -⟩ := s.unknowns hs' k hpad a b ha hb st hst
  obtain ⟨q, hq⟩ := s.soil_matrices ⟨h1, h2, h3, h4, h5⟩ hnd hs' v.soil damp hd _ st hst (fun x hx h0 => (hk x hx 1).mp h0 rfl)
  exact ⟨c, _, st, q, hc, hsys, hst, hq⟩

/-- **C163, soil matrices of the scripts with a hinge** The hinge changes nothing. -/
theorem C163_hinged_soil_matrices (g : GoodSegments r d segments) (length : ℝ) (v : TrackValues) (soils : List (RodValues ℝ))
    (hs : segments.length ≤ soils.length) (kv : KeptValues (d / r) v soils) (damp : RodValues ℝ → ℝ)
    (hd : ∀ w ∈ soils, w.damping = some (damp w)) (k : ℕ) (hk : 2 ≤ k) (hkm : k + 3 ≤ railCount r segments)
    (near : 1 / 100000000 + 1 / 100000 * ((k : ℝ) * (d / r)) < d / r) (f σ : ℝ)
    (hσ : hingeStiffness v.rail.E v.rail.I length f none = some σ) :
    ∃ c inp st q, combinedTrack hash r d segments = .ok c ∧ c.hingedSystem length v soils f (k * (d / r)) true = .ok inp ∧
      inp.initialise freshFlags = .ok st ∧
      collectAllSoil (nodeEquations st.nodes) ((soils.zip c.soils).map fun q => (q.1, c.placeAll q.2.1)) = .ok q ∧
      q.idx.map some = c.sleepers.map (fun x => equationOf st.nodes (c.meshNodes.idxOf x) 1) ∧ q.idx.Nodup ∧ (∀ k ∈ q.idx, k < st.N) ∧
      q.idx.map (fun k => q.stiff k k) = Spec.perSleeper (segments.map Prod.fst) (fun k => (soils.getD k v.soil).stiffness) ∧
      q.idx.map (fun k => q.damp k k) = Spec.perSleeper (segments.map Prod.fst) (fun k => damp (soils.getD k v.soil)) ∧
      ∀ i j, (i = j → i ∉ q.idx) → q.stiff i j = 0 ∧ q.damp i j = 0 := by
  obtain ⟨c, hc, s, hlen, h1, h2, h3, h4, h5, h6⟩ := combined_layout hash g
  obtain ⟨c', hc', -, -, -, hnd, -⟩ := C136_structure hash g
  rw [hc] at hc'
  injection hc' with hc'
  subst c'
  have hs' : c.soils.length ≤ soils.length := by omega
  obtain ⟨a, b, ha, hb, hsys⟩ := s.hingedSystem length v soils hs' true hk hkm near f σ hσ
  have ha' := List.mem_of_head? ha
  have hb' := List.mem_of_getLast? hb
  have hg := s.hinged v soils hs' kv.valid a b ha' hb' true hk hkm (σ / 2)
  obtain ⟨st, hst⟩ := C106_succeeds _ hg.mesh freshFlags
  have key := C106_unknowns_partial _ hg.mesh hg.aligned st hst
  have hpad : ∀ x ∈ c.sleepers, ∃ e ∈ c.pads, e.2 = x := by
    intro x hx
    rw [← h2] at hx
    exact List.mem_map.mp hx
  have heq : ∀ x ∈ c.sleepers, equationOf st.nodes (c.place x) 1 ≠ none := by
    intro x hx h0
    have h0 := (key _ (s.place_lt x (s.sleeper_mem x hx)) 1).mp h0
    obtain ⟨w1, -⟩ := s.sleeper_work hs' kv hpad x hx
    have w2 : v.pad.stiffness ≤ _ := hg.pad_work (Spec.unitField (c.place x) 1) (by
      obtain ⟨e, he, rfl⟩ := hpad x hx
      refine ⟨_, List.mem_map_of_mem he, ?_⟩
      have hne : c.place e.1 ≠ c.place e.2 := by
        intro h
        have := s.place_inj _ _ (s.rail_mem _ (s.pads e he).1) h
        exact s.rail_sleeper e.2 (this ▸ (s.pads e he).1) hx
      simp [Spec.unitField, hne])
    change Spec.Supported (c.supports a b true) _ _ ∨
      |Spec.systemWork AssemblyPart.mass ((c.partsOf (d / r) v soils).hinged (c.cutAt k (σ / 2))) _ _| ≤ _ ∨
      |Spec.systemWork AssemblyPart.stiffness ((c.partsOf (d / r) v soils).hinged (c.cutAt k (σ / 2))) _ _| ≤ _ at h0
    rw [hinged_work_same AssemblyPart.mass _ _ hg.inner hg.rail BeamPart.massMatrix (fun _ _ _ => rfl) massMatrix_springs] at h0
    rcases h0 with h | h | h
    · exact absurd (s.supported_end a b x (Or.inr hx) 1 h).2 (by decide)
    · exact absurd ((kv.sleeper.trans_le w1).trans_le (le_abs_self _)) (not_lt.mpr h)
    · exact absurd ((kv.pad.trans_le w2).trans_le (le_abs_self _)) (not_lt.mpr h)
  obtain ⟨q, hq⟩ := s.soil_matrices ⟨h1, h2, h3, h4, h5⟩ hnd hs' v.soil damp hd _ st hst heq
  exact ⟨c, _, st, q, hc, hsys, hst, hq⟩

end claims

/-! ### C164: the dynamic stiffness that is read from the files of the batch -/

section peaks
variable {K : Type*} [Field K] [LinearOrder K] [IsStrictOrderedRing K]

theorem peak_nonneg (xs : List K) : 0 ≤ Spec.peak xs := by
  cases xs with
  | nil => exact le_rfl
  | cons x xs => exact le_trans (abs_nonneg x) (le_max_left _ _)

theorem foldl_max_eq (xs : List K) (m : K) (hm : 0 ≤ m) : (xs.map fun x => |x|).foldl max m = max m (Spec.peak xs) := by
  induction xs generalizing m with
  | nil => exact (max_eq_left hm).symm
  | cons x xs ih =>
    rw [List.map_cons, List.foldl_cons, ih _ (le_max_of_le_left hm)]
    show _ = max m (max |x| (Spec.peak xs))
    rw [max_assoc]

theorem npMax_abs (xs : List K) (h : xs ≠ []) : npMax (xs.map fun x => |x|) = .ok (Spec.peak xs) := by
  cases xs with
  | nil => exact absurd rfl h
  | cons x xs =>
    show Except.ok ((xs.map fun x => |x|).foldl max |x|) = _
    rw [foldl_max_eq xs _ (abs_nonneg x)]
    rfl

theorem peak_mul (k : K) (hk : 0 ≤ k) (xs : List K) : Spec.peak (xs.map fun x => k * x) = k * Spec.peak xs := by
  induction xs with
  | nil => exact (mul_zero k).symm
  | cons x xs ih =>
    show max |k * x| (Spec.peak (xs.map fun x => k * x)) = k * max |x| (Spec.peak xs)
    rw [ih, mul_max_of_nonneg _ _ hk, abs_mul, abs_of_nonneg hk]

theorem peak_zero {α : Type*} (xs : List α) : Spec.peak (xs.map fun _ => (0 : K)) = 0 := by
  induction xs with
  | nil => rfl
  | cons x xs ih =>
    show max |0| (Spec.peak (xs.map fun _ => (0 : K))) = 0
    rw [ih]
    simp

theorem every_map {α β : Type*} (interval : ℕ) (f : α → β) (xs : List α) : Spec.every interval (xs.map f) = (Spec.every interval xs).map f := by
  unfold Spec.every
  rw [List.zipIdx_map, List.filter_map, List.map_map, List.map_map]
  rfl

theorem every_mem {α : Type*} (interval : ℕ) (xs : List α) (x : α) (h : x ∈ Spec.every interval xs) : x ∈ xs := by
  unfold Spec.every at h
  obtain ⟨e, he, rfl⟩ := List.mem_map.mp h
  have he := (List.mem_filter.mp he).1
  obtain ⟨i, hi⟩ := List.mem_iff_getElem?.mp he
  rw [List.getElem?_zipIdx] at hi
  obtain ⟨y, hy, rfl⟩ := Option.map_eq_some_iff.mp hi
  exact List.mem_of_getElem? hy

theorem every_ne {α : Type*} (interval : ℕ) (xs : List α) (h : xs ≠ []) : Spec.every interval xs ≠ [] := by
  cases xs with
  | nil => exact absurd rfl h
  | cons x xs => simp [Spec.every]

theorem sampled_mapM {α β : Type} (interval : ℕ) (hi : interval ≠ 0) (ns : List α) (rows : List β) {γ : Type} (f : α → β → γ) :
    (ns.map fun n => rows.map (f n)).mapM (sampled interval) = .ok (ns.map fun n => (Spec.every interval rows).map (f n)) := by
  induction ns with
  | nil => rfl
  | cons n ns ih =>
    rw [List.map_cons, List.mapM_cons, ih]
    have : sampled interval (rows.map (f n)) = .ok ((Spec.every interval rows).map (f n)) := by
      unfold sampled
      rw [if_neg hi, ← every_map]
      rfl
    rw [this]
    rfl

end peaks

section batch
variable {H : Type*} [DecidableEq H] (hash : (Fin 3 → ℝ) → H) {r n : ℕ} {d h : ℝ}

/-- The largest absolute vertical displacement of the sleeper `j` in the results that are kept. -/
noncomputable def sleeperPeak {ι : Type*} [DecidableEq ι] (c : CombinedTrack ι ℝ) (rows : List (List (NodeRow ℝ))) (j : ℕ) : ℝ :=
  Spec.peak (Spec.vertical rows ((c.sleepers.map c.meshNodes.idxOf).getD j 0))

theorem getElem_pairs {α β : Type*} (f g : α → β) (L : List α) (i : ℕ) :
    (L.flatMap fun a => [f a, g a])[2 * i]? = (L[i]?).map f ∧ (L.flatMap fun a => [f a, g a])[2 * i + 1]? = (L[i]?).map g := by
  induction L generalizing i with
  | nil => simp
  | cons a L ih =>
    cases i with
    | zero => simp
    | succ i =>
      obtain ⟨h1, h2⟩ := ih i
      rw [List.flatMap_cons, show 2 * (i + 1) = 2 * i + 2 by ring]
      exact ⟨h1, h2⟩

/-- The soil entries of a file of the batch: displacements of each sleeper and of the node below it, but only one force per sleeper. -/
theorem batch_file (g : GoodSegments r d [(n, h)]) (length : ℝ) (v : TrackValues) (w : RodValues ℝ) (interval : ℕ) (hi : interval ≠ 0) :
    ∃ c inp, combinedTrack hash r d [(n, h)] = .ok c ∧ c.system length v [w] true = .ok inp ∧ c.sleepers.length = n ∧
      ∀ (name : Name) (rows : List (List (NodeRow ℝ))),
        (∀ row ∈ rows, Spec.Admissible inp (Spec.fieldOfRows row NodeRow.displacement)) →
        ∃ F, writeBatch (scriptParts 1 inp) interval name rows = .ok F ∧ F.name = name ∧
          F.displacements = c.sleepers.flatMap (fun x => [Spec.vertical (Spec.every interval rows) (c.meshNodes.idxOf x),
            (Spec.every interval rows).map fun _ => 0]) ∧
          F.forces = c.sleepers.map fun x => (Spec.vertical (Spec.every interval rows) (c.meshNodes.idxOf x)).map fun u => w.stiffness * u := by
  obtain ⟨c, hc, s, hlen, h1, h2, h3, h4, h5, h6⟩ := combined_layout hash g
  have hs' : c.soils.length ≤ [w].length := by simp at hlen; simp [hlen]
  obtain ⟨a, b, ha, hb, hsys⟩ := s.system length v [w] hs' true
  obtain ⟨p, hp⟩ : ∃ p, c.soils = [p] := List.length_eq_one_iff.mp (by simpa using hlen)
  have hsl : c.sleepers.length = n := by
    rw [← h5, hp]
    simp [hp] at h4
    simp [h4]
  refine ⟨c, _, hc, hsys, hsl, fun name rows hr => ?_⟩
  have hfile := s.file (r := r) (soils := [w]) ⟨h1, h2, h3, h4, h5⟩ h6 hs' length v a b (List.mem_of_head? ha) (List.mem_of_getLast? hb) _ rfl rfl
    (Spec.every interval rows) (fun row hrow => hr row (every_mem _ _ _ hrow)) [] []
  set A := rodAssembly w (downElements (c.placeAll p.1)) (p.2.map c.place) with hA
  have has : c.soilAssemblies [w] = [A] := by
    unfold CombinedTrack.soilAssemblies
    rw [hp]
    rfl
  have hparts : (c.inputOf (d / r) v [w] a b true).parts =
      [beamAssembly { v.rail with l := d / r } (horizontalElements (chainOf (c.rail.map c.place))) (c.rail.map c.place)] ++
      rodAssembly v.pad (downElements (c.placeAll c.pads)) (c.padNodes.map c.place) ::
        sleeperAssembly v.sleeperMass (c.sleepers.map c.place) :: [A] := by
    show (c.partsOf (d / r) v [w]).parts = _
    rw [← has]
    unfold TrackParts.parts CombinedTrack.partsOf CombinedTrack.soilAssemblies
    simp [Function.comp_def]
  have hscript := scriptParts_eq _ _ _ _ _ ⟨[c.place a, c.place b], ![false, true, true]⟩
    (c.soils.map fun s => ⟨s.1.map fun e => c.place e.2, ![false, false, false]⟩) hparts rfl
  rw [List.length_singleton] at hscript
  have hdisp := hfile.soilDisplacements
  have hforce := hfile.soilForces
  rw [has] at hdisp hforce
  simp only [List.map_cons, List.map_nil, List.flatMap_cons, List.flatMap_nil, List.append_nil] at hdisp hforce
  refine ⟨⟨resultFileName name, name, (ScriptPart.ofPart .soil A).displacements (Spec.every interval rows),
    (ScriptPart.ofPart .soil A).forces (Spec.every interval rows) 0⟩, ?_, rfl, hdisp, ?_⟩
  · rw [hscript]
    unfold writeBatch
    have e1 : ((ScriptPart.ofPart .soil A).displacements rows).mapM (sampled interval) =
        .ok ((ScriptPart.ofPart .soil A).displacements (Spec.every interval rows)) :=
      sampled_mapM interval hi _ rows fun n (row : List (NodeRow ℝ)) => ((row[n]?).map fun (q : NodeRow ℝ) => q.displacement 1).getD 0
    have e2 : ((ScriptPart.ofPart .soil A).forces rows 0).mapM (sampled interval) =
        .ok ((ScriptPart.ofPart .soil A).forces (Spec.every interval rows) 0) :=
      sampled_mapM interval hi _ rows fun e row => (A.elementForces row).getD e 0 0
    show (do
      let displacements ← ((ScriptPart.ofPart .soil A).displacements rows).mapM (sampled interval)
      let forces ← ((ScriptPart.ofPart .soil A).forces rows 0).mapM (sampled interval)
      Except.ok (DynamicFile.mk (resultFileName name) name displacements forces)) = _
    rw [e1, e2]
    rfl
  · rw [hforce]
    have hper : Spec.perSleeper [n] (fun k => ([w].getD k v.soil).stiffness) = List.replicate n w.stiffness := by
      simp [Spec.perSleeper]
    rw [hper]
    apply List.ext_getElem
    · simp [hsl]
    · intro i q1 q2
      simp [Spec.vertical]

/-- **C164** (what is read) From a file of the batch, `get_batch_dynamic_stiffnesses` with the node number `node` returns: for `node = 2 j` the stiffness of the soil times the peak
displacement of the sleeper `2 j`, divided by the peak displacement of the sleeper `j`; for odd `node` it divides by zero; for `node` at least the number of
sleepers it raises, although there are displacements of twice as many nodes. -/
theorem C164_read (g : GoodSegments r d [(n, h)]) (length : ℝ) (v : TrackValues) (w : RodValues ℝ) (hw : 0 ≤ w.stiffness)
    (interval : ℕ) (hi : interval ≠ 0) :
    ∃ c inp, combinedTrack hash r d [(n, h)] = .ok c ∧ c.system length v [w] true = .ok inp ∧
      ∀ (name : Name) (ids : Name × Name) (rows : List (List (NodeRow ℝ))), parseName name = .ok ids → rows ≠ [] →
        (∀ row ∈ rows, Spec.Admissible inp (Spec.fieldOfRows row NodeRow.displacement)) →
        ∃ F, writeBatch (scriptParts 1 inp) interval name rows = .ok F ∧ F.displacements.length = 2 * n ∧
          (∀ j, 2 * j < n → readDynamic (2 * j) F = .ok ⟨ids.1, ids.2, w.stiffness * sleeperPeak c (Spec.every interval rows) (2 * j) /
            sleeperPeak c (Spec.every interval rows) j⟩) ∧
          (∀ j, 2 * j + 1 < n → largestAbs F.displacements (2 * j + 1) = .ok 0) ∧
          ∀ node, n ≤ node → readDynamic node F = .error .indexError := by
  obtain ⟨c, inp, hc, hinp, hsl, hall⟩ := batch_file hash g length v w interval hi
  refine ⟨c, inp, hc, hinp, fun name ids rows hids hne hr => ?_⟩
  obtain ⟨F, hF, hname, hD, hFo⟩ := hall name rows hr
  have hne' : Spec.every interval rows ≠ [] := every_ne interval rows hne
  have hd : ∀ j (hj : j < n), largestAbs F.displacements (2 * j) = .ok (sleeperPeak c (Spec.every interval rows) j) ∧
      largestAbs F.displacements (2 * j + 1) = .ok 0 := by
    intro j hj
    obtain ⟨p1, p2⟩ := getElem_pairs (fun x => Spec.vertical (Spec.every interval rows) (c.meshNodes.idxOf x))
      (fun _ => (Spec.every interval rows).map fun _ => (0 : ℝ)) c.sleepers j
    rw [List.getElem?_eq_getElem (by omega : j < c.sleepers.length), Option.map_some] at p1 p2
    constructor
    · unfold largestAbs
      rw [hD, p1]
      simp only
      rw [npMax_abs _ (by simpa [Spec.vertical] using hne')]
      unfold sleeperPeak
      rw [List.getD_eq_getElem _ _ (by simpa [hsl] using hj), List.getElem_map]
    · unfold largestAbs
      rw [hD, p2]
      simp only
      rw [npMax_abs _ (by simpa using hne'), peak_zero]
  have hf : ∀ j (hj : j < n), largestAbs F.forces j = .ok (w.stiffness * sleeperPeak c (Spec.every interval rows) j) := by
    intro j hj
    unfold largestAbs
    rw [hFo, List.getElem?_map, List.getElem?_eq_getElem (by omega), Option.map_some]
    simp only
    rw [npMax_abs _ (by simpa [Spec.vertical] using hne'), peak_mul _ hw]
    unfold sleeperPeak
    rw [List.getD_eq_getElem _ _ (by simpa [hsl] using hj), List.getElem_map]
  refine ⟨F, hF, ?_, ?_, fun j hj => ?_, ?_⟩
  · rw [hD]
    simp [hsl, List.length_flatMap]
    omega
  · intro j hj
    unfold readDynamic
    rw [(hd j (by omega)).1, hf (2 * j) hj, hname, hids]
    rfl
  · exact (hd j (by omega)).2
  · intro node hnode
    have hfn : largestAbs F.forces node = .error .indexError := by
      unfold largestAbs
      rw [hFo, List.getElem?_eq_none (by simpa [hsl] using hnode)]
    unfold readDynamic
    rcases Nat.lt_or_ge node (2 * n) with h0 | h0
    · rcases Nat.even_or_odd' node with ⟨j, rfl | rfl⟩
      · rw [(hd j (by omega)).1, hfn]; rfl
      · rw [(hd j (by omega)).2, hfn]; rfl
    · have : largestAbs F.displacements node = .error .indexError := by
        unfold largestAbs
        rw [hD, List.getElem?_eq_none]
        simp [List.length_flatMap, hsl]
        omega
      rw [this]; rfl

/-- **C164** (the part that holds) Of the first sleeper the stiffness is read correctly: it is the stiffness of the soil spring. -/
theorem C164_first_partial (g : GoodSegments r d [(n, h)]) (length : ℝ) (v : TrackValues) (w : RodValues ℝ) (hw : 0 ≤ w.stiffness)
    (interval : ℕ) (hi : interval ≠ 0) :
    ∃ c inp, combinedTrack hash r d [(n, h)] = .ok c ∧ c.system length v [w] true = .ok inp ∧
      ∀ (name : Name) (ids : Name × Name) (rows : List (List (NodeRow ℝ))), parseName name = .ok ids → rows ≠ [] →
        (∀ row ∈ rows, Spec.Admissible inp (Spec.fieldOfRows row NodeRow.displacement)) →
        sleeperPeak c (Spec.every interval rows) 0 ≠ 0 →
        ∃ F, writeBatch (scriptParts 1 inp) interval name rows = .ok F ∧ readDynamic 0 F = .ok ⟨ids.1, ids.2, w.stiffness⟩ := by
  obtain ⟨c, inp, hc, hinp, hall⟩ := C164_read hash g length v w hw interval hi
  refine ⟨c, inp, hc, hinp, fun name ids rows hids hne hr h0 => ?_⟩
  obtain ⟨F, hF, -, hj, -⟩ := hall name ids rows hids hne hr
  have hn := (g.each (n, h) (by simp)).1
  refine ⟨F, hF, ?_⟩
  have := hj 0 (by simpa using hn)
  rw [mul_zero] at this
  rw [this, mul_div_assoc, div_self h0, mul_one]

/-- **C164** fails for the other sleepers: for the node `2 j` (the sleeper `j`) the value is the stiffness of the soil only if the sleepers `j` and `2 j` have the same peak
displacement. -/
theorem C164_dynamic_violated (g : GoodSegments r d [(n, h)]) (length : ℝ) (v : TrackValues) (w : RodValues ℝ) (hw : 0 < w.stiffness)
    (interval : ℕ) (hi : interval ≠ 0) :
    ∃ c inp, combinedTrack hash r d [(n, h)] = .ok c ∧ c.system length v [w] true = .ok inp ∧
      ∀ (name : Name) (ids : Name × Name) (rows : List (List (NodeRow ℝ))), parseName name = .ok ids → rows ≠ [] →
        (∀ row ∈ rows, Spec.Admissible inp (Spec.fieldOfRows row NodeRow.displacement)) →
        ∃ F, writeBatch (scriptParts 1 inp) interval name rows = .ok F ∧
          ∀ j, 2 * j < n → sleeperPeak c (Spec.every interval rows) j ≠ 0 →
            (readDynamic (2 * j) F = .ok ⟨ids.1, ids.2, w.stiffness⟩ ↔
              sleeperPeak c (Spec.every interval rows) (2 * j) = sleeperPeak c (Spec.every interval rows) j) := by
  obtain ⟨c, inp, hc, hinp, hall⟩ := C164_read hash g length v w hw.le interval hi
  refine ⟨c, inp, hc, hinp, fun name ids rows hids hne hr => ?_⟩
  obtain ⟨F, hF, -, hj, -⟩ := hall name ids rows hids hne hr
  refine ⟨F, hF, fun j hjn h0 => ?_⟩
  rw [hj j hjn]
  simp only [Except.ok.injEq, ResultFile.mk.injEq, true_and]
  rw [div_eq_iff h0]
  constructor
  · exact fun h => mul_left_cancel₀ hw.ne' h
  · exact fun h => by rw [h]

/-- One result in which node `i` of `n` has moved by one in the vertical direction and the others have not. -/
noncomputable def oneMoved (n i : ℕ) : List (NodeRow ℝ) := (List.range n).map fun k => ⟨Spec.unitField i 1 k, 0, 0⟩

theorem oneMoved_field (n i k : ℕ) (hk : k < n) : Spec.fieldOfRows (oneMoved n i) NodeRow.displacement k = Spec.unitField i 1 k := by
  simp [Spec.fieldOfRows, oneMoved, hk]

/-- **C164, how wrong** For every sleeper `j` (not the first) there are results, with the supports at rest, in which the soil under this sleeper is pressed and the value read for
the node `2 j` is nevertheless 0 instead of the stiffness of the soil. -/
theorem C164_zero_violated (g : GoodSegments r d [(n, h)]) (length : ℝ) (v : TrackValues) (w : RodValues ℝ) (hw : 0 < w.stiffness)
    (kv : KeptValues (d / r) v [w]) (interval : ℕ) (hi : interval ≠ 0) (j : ℕ) (hj : 0 < j) (hjn : 2 * j < n) :
    ∃ c inp rows, combinedTrack hash r d [(n, h)] = .ok c ∧ c.system length v [w] true = .ok inp ∧
      (∀ row ∈ rows, Spec.Admissible inp (Spec.fieldOfRows row NodeRow.displacement)) ∧ sleeperPeak c (Spec.every interval rows) j = 1 ∧
      ∀ name ids, parseName name = .ok ids → ∃ F, writeBatch (scriptParts 1 inp) interval name rows = .ok F ∧
        readDynamic (2 * j) F = .ok ⟨ids.1, ids.2, 0⟩ := by
  obtain ⟨c, hc, s, hlen, h1, h2, h3, h4, h5, h6⟩ := combined_layout hash g
  obtain ⟨c', hc', -, -, -, hnd, -⟩ := C136_structure hash g
  rw [hc] at hc'
  injection hc' with hc'
  subst c'
  have hs' : c.soils.length ≤ [w].length := by simpa using hlen.le
  obtain ⟨a, b, ha, hb, hsys⟩ := s.system length v [w] hs' true
  have hstand := s.standing v [w] hs' kv.valid a b (List.mem_of_head? ha) (List.mem_of_getLast? hb) true
  obtain ⟨st, hst⟩ := C106_succeeds _ hstand.mesh freshFlags
  have hpad : ∀ x ∈ c.sleepers, ∃ e ∈ c.pads, e.2 = x := by
    intro x hx
    rw [← h2] at hx
    exact List.mem_map.mp hx
  obtain ⟨-, hk, -⟩ := s.unknowns hs' kv hpad a b ha hb st hst
  obtain ⟨c', inp', hc', hinp', hall⟩ := C164_read hash g length v w hw.le interval hi
  rw [hc] at hc'
  injection hc' with hc'
  subst c'
  rw [hsys] at hinp'
  injection hinp' with hinp'
  subst inp'
  have hsl : c.sleepers.length = n := by
    rw [← h5, List.length_map, List.length_flatMap, h4]
    simp
  have hx : c.sleepers[j]'(by omega) ∈ c.sleepers := List.getElem_mem _
  have hadm : Spec.Admissible (c.inputOf (d / r) v [w] a b true)
      (Spec.fieldOfRows (oneMoved c.meshNodes.length (c.place (c.sleepers[j]'(by omega)))) NodeRow.displacement) := by
    intro i hin dir hrem
    rw [oneMoved_field _ _ _ (show i < c.meshNodes.length from hin)]
    by_contra hne
    have he : i = c.place (c.sleepers[j]'(by omega)) ∧ dir = 1 := by
      by_contra h0
      apply hne
      simp only [Spec.unitField]
      rw [if_neg h0]
    rw [he.1, he.2] at hrem
    rw [he.1] at hin
    exact (hk _ hx 1).mp ((C106_unknowns_partial _ hstand.mesh hstand.aligned st hst _ hin 1).mpr hrem) rfl
  have hpeak : ∀ i (hi : i < n), sleeperPeak c (Spec.every interval [oneMoved c.meshNodes.length (c.place (c.sleepers[j]'(by omega)))]) i =
      if i = j then 1 else 0 := by
    intro i hin
    have hev : ∀ x : List (NodeRow ℝ), Spec.every interval [x] = [x] := by
      intro x
      simp [Spec.every, List.zipIdx_cons]
    rw [hev]
    have hxi : c.sleepers[i]'(by omega) ∈ c.sleepers := List.getElem_mem _
    have hlt := s.place_lt _ (s.sleeper_mem _ hxi)
    have e : (c.sleepers.map c.meshNodes.idxOf).getD i 0 = c.place (c.sleepers[i]'(by omega)) := by
      rw [List.getD_eq_getElem _ _ (by simpa [hsl] using hin)]
      simp [CombinedTrack.place]
    simp only [sleeperPeak, Spec.vertical, e, List.map_cons, List.map_nil, Spec.peak, List.foldr]
    rw [oneMoved_field _ _ _ hlt]
    by_cases hij : i = j
    · subst hij
      simp [Spec.unitField]
    · have : c.place (c.sleepers[i]'(by omega)) ≠ c.place (c.sleepers[j]'(by omega)) := by
        intro h0
        have := s.place_inj _ _ (s.sleeper_mem _ hxi) h0
        exact hij ((List.Nodup.getElem_inj_iff hnd).mp this)
      simp [Spec.unitField, hij, this]
  refine ⟨c, _, [oneMoved c.meshNodes.length (c.place (c.sleepers[j]'(by omega)))], hc, hsys, ?_, ?_, ?_⟩
  · intro row hrow
    rw [List.mem_singleton] at hrow
    subst hrow
    exact hadm
  · rw [hpeak j (by omega), if_pos rfl]
  · intro name ids hids
    obtain ⟨F, hF, -, hval, -⟩ := hall name ids [oneMoved c.meshNodes.length (c.place (c.sleepers[j]'(by omega)))] hids (by simp) (by
      intro row hrow
      rw [List.mem_singleton] at hrow
      subst hrow
      exact hadm)
    refine ⟨F, hF, ?_⟩
    rw [hval j hjn, hpeak _ hjn, hpeak j (by omega), if_neg (by omega)]
    simp

/-- **C163, a run of the demo script** For every input that fits, every train (not the SLT) and every solver that solves what it is given, the script calculates and writes
these entries for the results it has calculated. -/
theorem C163_script (i : DemoInput) (j : DemoJob) (f : i.Fits j) (irr : ℕ → ℕ → ℝ)
    (solver : TrimState ℝ → (List (ℕ × List (ℕ → ℝ)) → List (ℕ → ℝ) → ℕ → (ℕ → ℝ) → ℕ → ℝ) → SolverOutput ℝ)
    (hs : i.Solves hash irr solver j) :
    ∃ c sys res w, combinedTrack hash i.perSleeper (3 / 5) (i.sleepers.map fun n => (n, 1)) = .ok c ∧
      c.system (3 / 5) demoValues (demoSoils (3 / 5) i.stiffness i.damping) true = .ok sys ∧
      i.calculate hash irr solver j = .ok res ∧ res.trackRows.length = 5 + (demoSteps j.runningTime i.step - 1) ∧
      writeDemo (fun k => ((c.numbered (3 / 5)).store k).pos) (scriptParts 1 sys) res.trackRows = .ok w ∧
      Spec.TrackFile c i.perSleeper (railCount i.perSleeper (i.sleepers.map fun n => (n, 1))) (3 / 5 / i.perSleeper) i.sleepers
        (fun k => ((demoSoils (3 / 5) i.stiffness i.damping).getD k demoValues.soil).stiffness) res.trackRows w ∧
      w.railForces = (List.range (railCount i.perSleeper (i.sleepers.map fun n => (n, 1)) - 1)).map
        (shearHistory c { demoValues.rail with l := 3 / 5 / i.perSleeper } res.trackRows) := by
  have hr0 : (0 : ℝ) < i.perSleeper := by exact_mod_cast f.perSleeper.1
  have hr1 : (i.perSleeper : ℝ) < 600000000 := by exact_mod_cast f.perSleeper.2
  have hsegs : GoodSegments i.perSleeper (3 / 5) (i.sleepers.map fun n => (n, 1)) := by
    refine ⟨f.perSleeper.1, ?_, ?_, ?_⟩
    · rw [lt_div_iff₀ hr0]
      linarith
    · intro s hs
      obtain ⟨n, hn, rfl⟩ := List.mem_map.mp hs
      exact ⟨f.sleepers n hn, by norm_num⟩
    · rw [List.map_map, show (Prod.fst ∘ fun n : ℕ => (n, (1 : ℝ))) = id from rfl, List.map_id]
      exact f.two
  have hsoils : i.sleepers.length ≤ (demoSoils (3 / 5) i.stiffness i.damping).length := by
    have h1 := f.stiffness
    have h2 := f.damping
    simp only [demoSoils, List.length_zipWith]
    omega
  obtain ⟨c, train, sys, res, hc, -, hsys, hcalc, h1, h2, hlaw⟩ := C139_motion_partial hash i j f irr solver hs
  obtain ⟨c', sys', hc', hsys', hall⟩ := C163_demo hash hsegs (3 / 5) demoValues (demoSoils (3 / 5) i.stiffness i.damping) (by simpa using hsoils)
  rw [hc] at hc'
  injection hc' with hc'
  subst c'
  rw [hsys] at hsys'
  injection hsys' with hsys'
  subst sys'
  obtain ⟨w, hw, hfile, hrail, -⟩ := hall res.trackRows (by
    intro row hrow
    obtain ⟨t, ht, rfl⟩ := List.mem_iff_getElem.mp hrow
    exact (hlaw t ht (by omega)).2.1)
  rw [List.map_map, show (Prod.fst ∘ fun n : ℕ => (n, (1 : ℝ))) = id from rfl, List.map_id] at hfile
  exact ⟨c, sys, res, w, hc, hsys, hcalc, h1, hw, hfile, hrail⟩

/-- **C164, a run of the batch** The files that the script writes for its own results are read this way: the node `2 j` gives the stiffness of the soil spring times the peak of
the sleeper `2 j`, divided by the peak of the sleeper `j`. -/
theorem C164_script_violated (i : BatchInput) (ty : TrainType) (v : ℝ) (f : i.Fits ty v) (irr : ℕ → ℕ → ℝ)
    (solver : TrimState ℝ → (List (ℕ × List (ℕ → ℝ)) → List (ℕ → ℝ) → ℕ → (ℕ → ℝ) → ℕ → ℝ) → SolverOutput ℝ)
    (r : WolfResult ℝ) (hk : 0 < r.stiffness) (hs : i.Solves hash ty irr solver v r) (ids : Name × Name) (hids : parseName r.name = .ok ids) :
    ∃ c sys res F, combinedTrack hash i.perSleeper i.distance [(i.sleepers, i.depth)] = .ok c ∧
      c.system i.distance batchValues [⟨r.stiffness * i.distance, none, some (r.damping * i.distance)⟩] true = .ok sys ∧
      i.calculate hash ty irr solver v r = .ok res ∧ writeBatch (scriptParts 1 sys) 10 r.name res.trackRows = .ok F ∧
      (∀ j, 2 * j < i.sleepers → readDynamic (2 * j) F = .ok ⟨ids.1, ids.2, r.stiffness * i.distance *
        sleeperPeak c (Spec.every 10 res.trackRows) (2 * j) / sleeperPeak c (Spec.every 10 res.trackRows) j⟩) ∧
      (∀ j, 2 * j + 1 < i.sleepers → largestAbs F.displacements (2 * j + 1) = .ok 0) ∧
      ∀ node, i.sleepers ≤ node → readDynamic node F = .error .indexError := by
  have hr0 : (0 : ℝ) < i.perSleeper := by exact_mod_cast f.perSleeper
  have hdist : 0 < i.distance := by
    have h1 : 0 < i.distance / i.perSleeper := lt_trans (by norm_num) f.long
    have := mul_pos h1 hr0
    rwa [div_mul_cancel₀ _ hr0.ne'] at this
  have hsegs : GoodSegments i.perSleeper i.distance [(i.sleepers, i.depth)] := by
    refine ⟨f.perSleeper, f.long, ?_, by simpa using f.sleepers⟩
    intro s hs
    simp only [List.mem_singleton] at hs
    subst hs
    exact ⟨by have := f.sleepers; simp; omega, f.depth⟩
  obtain ⟨c, train, sys, res, hc, -, hsys, hcalc, h1, h2, hlaw, -⟩ := C142_motion_partial hash i ty v f irr solver r hk hs
  obtain ⟨c', sys', hc', hsys', hall⟩ := C164_read hash hsegs i.distance batchValues
    ⟨r.stiffness * i.distance, none, some (r.damping * i.distance)⟩ (mul_pos hk hdist).le 10 (by norm_num)
  rw [hc] at hc'
  injection hc' with hc'
  subst c'
  rw [hsys] at hsys'
  injection hsys' with hsys'
  subst sys'
  obtain ⟨F, hF, -, e1, e2, e3⟩ := hall r.name ids res.trackRows hids
    (by
      intro h0
      have := f.iniPoints
      rw [h0] at h1
      simp at h1
      omega)
    (by
      intro row hrow
      obtain ⟨t, ht, rfl⟩ := List.mem_iff_getElem.mp hrow
      exact (hlaw t ht (by omega)).2.1)
  exact ⟨c, sys, res, F, hc, hsys, hcalc, hF, e1, e2, e3⟩

end batch

/-! ### Examples -/

/-- The shipped script with a double-dekker. -/
example (hash : (Fin 3 → ℝ) → ℕ) (irr : ℕ → ℕ → ℝ) : ∃ solver, ∃ c sys res w,
    combinedTrack hash demoInput.perSleeper (3 / 5) (demoInput.sleepers.map fun n => (n, 1)) = .ok c ∧
    demoInput.calculate hash irr solver ⟨.doubleDekker, 140 / 3.6, 14⟩ = .ok res ∧
    writeDemo (fun k => ((c.numbered (3 / 5)).store k).pos) (scriptParts 1 sys) res.trackRows = .ok w ∧
    w.soilId = Spec.perSleeper demoInput.sleepers id := by
  have f := C139_shipped ⟨.doubleDekker, 140 / 3.6, 14⟩ (by simp [demoJobs]) (by simp)
  obtain ⟨solver, hs⟩ := C139_solvable hash _ _ f irr
  obtain ⟨c, sys, res, w, h1, -, h3, -, h4, h5, -⟩ := C163_script hash _ _ f irr solver hs
  exact ⟨solver, c, sys, res, w, h1, h3, h4, h5.soilId⟩

/-- The rows of two segments with two and three sleepers: 0, 0, 1, 1, 1. -/
example : Spec.perSleeper [2, 3] id = [0, 0, 1, 1, 1] := by decide

/-- The shipped batch with node 100: the force of the sleeper 100 and the displacement of the sleeper 50. -/
example (hash : (Fin 3 → ℝ) → ℕ) (irr : ℕ → ℕ → ℝ) : ∃ solver, ∃ c sys res F,
    combinedTrack hash 1 (3 / 5) [(200, 1)] = .ok c ∧
    batchInput.calculate hash .doubleDekker irr solver batchInput.speed ⟨"res_1001_1".toList, 10, 5 * 10 ^ 7, 10 ^ 4⟩ = .ok res ∧
    writeBatch (scriptParts 1 sys) 10 "res_1001_1".toList res.trackRows = .ok F ∧
    readDynamic 100 F = .ok ⟨"1001".toList, "1".toList, 5 * 10 ^ 7 * (3 / 5) *
      sleeperPeak c (Spec.every 10 res.trackRows) 100 / sleeperPeak c (Spec.every 10 res.trackRows) 50⟩ ∧
    readDynamic 200 F = .error .indexError := by
  have f := C142_shipped .doubleDekker (by decide)
  obtain ⟨solver, hs⟩ := C142_solvable hash _ _ _ f irr ⟨"res_1001_1".toList, 10, 5 * 10 ^ 7, 10 ^ 4⟩ (by norm_num)
  obtain ⟨c, sys, res, F, h1, -, h3, h4, h5, -, h6⟩ := C164_script_violated hash _ _ _ f irr solver _ (by norm_num) hs
    ("1001".toList, "1".toList) (by decide)
  exact ⟨solver, c, sys, res, F, h1, h3, h4, h5 50 (by norm_num [batchInput]), h6 200 (by norm_num [batchInput])⟩

/-- Three segments with soft, stiff and medium soil. -/
noncomputable def threeSoils : List (RodValues ℝ) := [⟨10 ^ 7, none, some 1000⟩, ⟨10 ^ 9, some 50, some 20⟩, ⟨10 ^ 8, none, some 0⟩]

theorem threeSoils_kept : KeptValues (3 / 5 / (2 : ℕ)) exampleTrack threeSoils := by
  refine ⟨?_, exampleTrack_nonNeg.padMass, ?_, exampleTrack_railPresent, by norm_num [exampleTrack], by norm_num [exampleTrack]⟩
  · have h := exampleTrack_valid
    intro w hw
    refine ⟨h.E, h.nu, h.rho, h.A, h.I, h.kappa, h.s1, h.s2, h.pad, ?_⟩
    simp only [threeSoils, List.mem_cons, List.not_mem_nil, or_false] at hw
    rcases hw with rfl | rfl | rfl <;> norm_num
  · intro w hw
    simp only [threeSoils, List.mem_cons, List.not_mem_nil, or_false] at hw
    rcases hw with rfl | rfl | rfl <;> simp

/-- The diagonal of the soil stiffness matrix of three, one and four sleepers, with and without a hinge at 3 m. -/
example : ∃ c inp st q, combinedTrack (fun p : Fin 3 → ℝ => p) 2 (3 / 5) [(3, 1), (1, 2), (4, 1 / 2)] = .ok c ∧
    c.system (3 / 5) exampleTrack threeSoils true = .ok inp ∧ inp.initialise freshFlags = .ok st ∧
    collectAllSoil (nodeEquations st.nodes) ((threeSoils.zip c.soils).map fun q => (q.1, c.placeAll q.2.1)) = .ok q ∧
    q.idx.map (fun k => q.stiff k k) = [10 ^ 7, 10 ^ 7, 10 ^ 7, 10 ^ 9, 10 ^ 8, 10 ^ 8, 10 ^ 8, 10 ^ 8] ∧
    q.idx.map (fun k => q.damp k k) = [1000, 1000, 1000, 20, 0, 0, 0, 0] := by
  obtain ⟨c, inp, st, q, h1, h2, h3, h4, -, -, -, h5, h6, -⟩ := C163_soil_matrices (fun p : Fin 3 → ℝ => p) exampleSegments (3 / 5) exampleTrack
    threeSoils (by simp [threeSoils]) threeSoils_kept (fun w => w.damping.getD 0) (by
      intro w hw
      simp only [threeSoils, List.mem_cons, List.not_mem_nil, or_false] at hw
      rcases hw with rfl | rfl | rfl <;> simp)
  exact ⟨c, inp, st, q, h1, h2, h3, h4, by rw [h5]; rfl, by rw [h6]; rfl⟩

example : ∃ c inp st q, combinedTrack (fun p : Fin 3 → ℝ => p) 2 (3 / 5) [(3, 1), (1, 2), (4, 1 / 2)] = .ok c ∧
    c.hingedSystem (3 / 5) exampleTrack threeSoils (1 / 2) ((10 : ℕ) * (3 / 5 / (2 : ℕ))) true = .ok inp ∧ inp.initialise freshFlags = .ok st ∧
    collectAllSoil (nodeEquations st.nodes) ((threeSoils.zip c.soils).map fun q => (q.1, c.placeAll q.2.1)) = .ok q ∧
    q.idx.map (fun k => q.stiff k k) = [10 ^ 7, 10 ^ 7, 10 ^ 7, 10 ^ 9, 10 ^ 8, 10 ^ 8, 10 ^ 8, 10 ^ 8] := by
  obtain ⟨c, inp, st, q, h1, h2, h3, h4, -, -, -, h5, -⟩ := C163_hinged_soil_matrices (fun p : Fin 3 → ℝ => p) exampleSegments (3 / 5) exampleTrack
    threeSoils (by simp [threeSoils]) threeSoils_kept (fun w => w.damping.getD 0) (by
      intro w hw
      simp only [threeSoils, List.mem_cons, List.not_mem_nil, or_false] at hw
      rcases hw with rfl | rfl | rfl <;> simp) 10 (by norm_num) (by decide) (by norm_num) (1 / 2) _
      (by norm_num [hingeStiffness]; rfl)
  exact ⟨c, inp, st, q, h1, h2, h3, h4, by rw [h5]; rfl⟩

/-- The file of the same track with a hinge, for any results in which the supports rest. -/
example : ∃ c inp, combinedTrack (fun p : Fin 3 → ℝ => p) 2 (3 / 5) [(3, 1), (1, 2), (4, 1 / 2)] = .ok c ∧
    c.hingedSystem (3 / 5) exampleTrack threeSoils (1 / 2) ((10 : ℕ) * (3 / 5 / (2 : ℕ))) true = .ok inp ∧
    ∀ rows : List (List (NodeRow ℝ)), (∀ row ∈ rows, Spec.Admissible inp (Spec.fieldOfRows row NodeRow.displacement)) →
      ∃ w, writeSemiRigid (fun k => ((c.numbered (3 / 5)).store k).pos) (scriptParts 4 inp) rows = .ok w ∧ w.soilId = [0, 0, 0, 1, 2, 2, 2, 2] := by
  obtain ⟨c, inp, h1, h2, h⟩ := C163_semi_rigid (fun p : Fin 3 → ℝ => p) exampleSegments (3 / 5) exampleTrack threeSoils (by simp [threeSoils]) 10
    (by norm_num) (by decide) (by norm_num) (1 / 2) _ (by norm_num [hingeStiffness]; rfl)
  refine ⟨c, inp, h1, h2, fun rows hr => ?_⟩
  obtain ⟨w, h3, h4, -⟩ := h rows hr
  exact ⟨w, h3, by rw [h4.soilId]; decide⟩

/-- A track of eight sleepers on soft soil: the soil under sleeper 3 is pressed, the value of node 6 is 0. -/
example : ∃ c inp rows F, combinedTrack (fun p : Fin 3 → ℝ => p) 2 (3 / 5) [(8, 1)] = .ok c ∧
    c.system (3 / 5) exampleTrack [⟨10 ^ 7, none, some 1000⟩] true = .ok inp ∧ sleeperPeak c (Spec.every 10 rows) 3 = 1 ∧
    writeBatch (scriptParts 1 inp) 10 "res_1001_1".toList rows = .ok F ∧ readDynamic 6 F = .ok ⟨"1001".toList, "1".toList, 0⟩ := by
  obtain ⟨c, inp, rows, h1, h2, -, h3, h4⟩ := C164_zero_violated (fun p : Fin 3 → ℝ => p) (r := 2) (d := 3 / 5) (n := 8) (h := 1)
    ⟨by norm_num, by norm_num, by intro s hs; simp at hs; subst hs; norm_num, by norm_num⟩ (3 / 5) exampleTrack ⟨10 ^ 7, none, some 1000⟩ (by norm_num)
    ⟨fun w hw => threeSoils_kept.valid w (by simp at hw; simp [threeSoils, hw]), threeSoils_kept.padMass,
      fun w hw => threeSoils_kept.soilMass w (by simp at hw; simp [threeSoils, hw]), exampleTrack_railPresent,
      by norm_num [exampleTrack], by norm_num [exampleTrack]⟩ 10 (by norm_num) 3 (by norm_num) (by norm_num)
  obtain ⟨F, h5, h6⟩ := h4 "res_1001_1".toList ("1001".toList, "1".toList) (by decide)
  exact ⟨c, inp, rows, F, h1, h2, h3, h5, h6⟩

end Rose
