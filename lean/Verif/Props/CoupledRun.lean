/-
Properties of a whole coupled calculation: C124 the reported results of track and train satisfy the laws of motion with the
contact forces between wheels and rail.
-/
import Verif.Spec.CoupledMotion
import Verif.Props.Results
import Verif.Props.TrainSystem
import Verif.Props.Coupled

set_option linter.unusedSectionVars false

namespace Rose
open Finset

section
variable {K : Type*} [Field K] [LinearOrder K] [IsStrictOrderedRing K]

/-! ### The coupled matrices -/

theorem combine_row_track (nt nv : ℕ) (A B : ℕ → ℕ → K) (U : ℕ → K) (i : ℕ) (hi : i < nt) :
    ∑ j ∈ range (nt + nv), combineMatrices nt nv A B i j * U j = ∑ j ∈ range nt, A i j * U j := by
  obtain ⟨h1, -, h3, -⟩ := C45_direct_sum nt nv A B (fun _ => 0) (fun _ => 0) (fun _ => 0)
  rw [Finset.sum_range_add]
  have : ∑ j ∈ range nv, combineMatrices nt nv A B i (nt + j) * U (nt + j) = 0 :=
    sum_eq_zero fun j hj => by rw [(h3 i hi j (Finset.mem_range.mp hj)).1, zero_mul]
  rw [this, add_zero]
  exact sum_congr rfl fun j hj => by rw [h1 i hi j (Finset.mem_range.mp hj)]

theorem combine_row_train (nt nv : ℕ) (A B : ℕ → ℕ → K) (U : ℕ → K) (i : ℕ) (hi : i < nv) :
    ∑ j ∈ range (nt + nv), combineMatrices nt nv A B (nt + i) j * U j = ∑ j ∈ range nv, B i j * U (nt + j) := by
  obtain ⟨-, h2, h3, -⟩ := C45_direct_sum nt nv A B (fun _ => 0) (fun _ => 0) (fun _ => 0)
  rw [Finset.sum_range_add]
  have : ∑ j ∈ range nt, combineMatrices nt nv A B (nt + i) j * U j = 0 :=
    sum_eq_zero fun j hj => by rw [(h3 j (Finset.mem_range.mp hj) i hi).2, zero_mul]
  rw [this, zero_add]
  exact sum_congr rfl fun j hj => by rw [h2 i hi j (Finset.mem_range.mp hj)]

variable {H : Type*} [DecidableEq H] (hash : (Fin 3 → K) → H)

theorem coupled_damping (c : CoupledRun K) (st : TrimState K) (i j : ℕ) :
    (c.system hash st).C i j = combineMatrices st.N (c.trainState hash).N st.C (c.trainState hash).C i j +
      (combineMatrices st.N (c.trainState hash).N st.M (c.trainState hash).M i j *
          Spec.rayleighMass c.isRayleigh c.ratio c.w1 c.w2 +
        combineMatrices st.N (c.trainState hash).N st.Kg (c.trainState hash).Kg i j *
          Spec.rayleighStiffness c.isRayleigh c.ratio c.w1 c.w2) := by
  unfold CoupledRun.system Spec.rayleighMass Spec.rayleighStiffness
  simp only
  split_ifs
  · simp only [rayleighFactors]
    ring
  · ring

/-- The rows of the coupled system in the rows of the track and of the train. -/
theorem coupled_row (c : CoupledRun K) (st : TrimState K) (a v u : ℕ → K) (nt nv : ℕ) (hnt : nt = st.N)
    (hnv : nv = (c.trainState hash).N) :
    (∀ i < nt, ∑ j ∈ range (nt + nv), ((c.system hash st).M i j * a j + (c.system hash st).C i j * v j +
        (c.system hash st).Kg i j * u j) =
      ∑ j ∈ range nt, st.M i j * a j + (∑ j ∈ range nt, st.C i j * v j +
        (Spec.rayleighMass c.isRayleigh c.ratio c.w1 c.w2 * ∑ j ∈ range nt, st.M i j * v j +
          Spec.rayleighStiffness c.isRayleigh c.ratio c.w1 c.w2 * ∑ j ∈ range nt, st.Kg i j * v j)) +
        ∑ j ∈ range nt, st.Kg i j * u j) ∧
    ∀ i < nv, ∑ j ∈ range (nt + nv), ((c.system hash st).M (nt + i) j * a j + (c.system hash st).C (nt + i) j * v j +
        (c.system hash st).Kg (nt + i) j * u j) =
      ∑ j ∈ range nv, (c.trainState hash).M i j * a (nt + j) + (∑ j ∈ range nv, (c.trainState hash).C i j * v (nt + j) +
        (Spec.rayleighMass c.isRayleigh c.ratio c.w1 c.w2 * ∑ j ∈ range nv, (c.trainState hash).M i j * v (nt + j) +
          Spec.rayleighStiffness c.isRayleigh c.ratio c.w1 c.w2 * ∑ j ∈ range nv, (c.trainState hash).Kg i j * v (nt + j))) +
        ∑ j ∈ range nv, (c.trainState hash).Kg i j * u (nt + j) := by
  have split : ∀ i, ∑ j ∈ range (nt + nv), ((c.system hash st).M i j * a j + (c.system hash st).C i j * v j +
        (c.system hash st).Kg i j * u j) =
      ∑ j ∈ range (nt + nv), combineMatrices nt nv st.M (c.trainState hash).M i j * a j +
        (∑ j ∈ range (nt + nv), combineMatrices nt nv st.C (c.trainState hash).C i j * v j +
          (Spec.rayleighMass c.isRayleigh c.ratio c.w1 c.w2 *
              ∑ j ∈ range (nt + nv), combineMatrices nt nv st.M (c.trainState hash).M i j * v j +
            Spec.rayleighStiffness c.isRayleigh c.ratio c.w1 c.w2 *
              ∑ j ∈ range (nt + nv), combineMatrices nt nv st.Kg (c.trainState hash).Kg i j * v j)) +
        ∑ j ∈ range (nt + nv), combineMatrices nt nv st.Kg (c.trainState hash).Kg i j * u j := by
    intro i
    rw [Finset.mul_sum, Finset.mul_sum, ← sum_add_distrib, ← sum_add_distrib, ← sum_add_distrib, ← sum_add_distrib]
    refine sum_congr rfl fun j _ => ?_
    rw [coupled_damping, hnt, hnv]
    show combineMatrices _ _ _ _ i j * a j + _ + combineMatrices _ _ _ _ i j * u j = _
    ring
  constructor
  · intro i hi
    rw [split]
    simp only [combine_row_track nt nv _ _ _ i hi]
  · intro i hi
    rw [split]
    simp only [combine_row_train nt nv _ _ _ i hi]

/-! ### The wheels -/

theorem contactDofs_shift (t : Train K) (idx : TrainPart → Fin 3 → Option ℕ) (nt : ℕ) :
    t.contactDofs (fun p => shiftDofs nt (idx p)) = (t.contactDofs idx).map (· + nt) := by
  unfold Train.contactDofs shiftDofs
  simp only [List.map_flatMap, List.map_filterMap]

theorem contactDofs_coupled (c : CoupledRun K) (hsep : c.train.Separated c.start) (hm : c.train.Massive) (nt : ℕ) :
    c.train.contactDofs (c.trainIdx hash nt) =
      c.train.wheelList.map fun p => c.train.dof (.wheelY p.1 p.2) + nt := by
  have h := (C103_contact_partial hash c.train c.start c.g hsep hm).1
  have e : c.trainIdx hash nt = fun p => shiftDofs nt (c.train.trimmedIdx c.g (c.train.initialMesh hash c.start) p) := rfl
  rw [e, contactDofs_shift, h]
  unfold Train.wheelList
  simp only [List.map_flatMap, List.map_map, Function.comp_def]

/-- The wheel with number `w` at time index `t`, in terms of the input. -/
def CoupledRun.wheelOf (c : CoupledRun K) (st : TrimState K) (t w : ℕ) : WheelAt K :=
  { dof := c.train.dof (.wheelY (c.train.wheelList.getD w (0, 0)).1 (c.train.wheelList.getD w (0, 0)).2) + st.N
    contact := ⟨railDofs (nodeEquations st.nodes) ((c.rail w).element t), (c.rail w).shape t⟩
    static := (c.rail w).static
    law := (c.rail w).law t }

theorem data_wheels (c : CoupledRun K) (hsep : c.train.Separated c.start) (hm : c.train.Massive) (st : TrimState K) (t : ℕ) :
    (c.data hash st).wheels t = (List.range c.train.wheelList.length).map (c.wheelOf st t) := by
  show (c.train.contactDofs (c.trainIdx hash st.N)).mapIdx _ = _
  rw [contactDofs_coupled hash c hsep hm]
  apply List.ext_getElem
  · simp
  · intro i h1 h2
    have hi : i < c.train.wheelList.length := by simpa using h2
    simp [CoupledRun.wheelOf, List.getD_eq_getElem?_getD, hi]

theorem wheelList_nodup (t : Train K) : t.wheelList.Nodup := by
  unfold Train.wheelList
  rw [List.nodup_flatMap]
  refine ⟨fun b _ => List.nodup_range.map fun x y hxy => by simpa using hxy, ?_⟩
  refine (nodup_distinctInOrder _).imp ?_
  intro a b hab x hx hy
  simp only [List.mem_map] at hx hy
  obtain ⟨j, _, rfl⟩ := hx
  obtain ⟨j', _, hy⟩ := hy
  simp only [Prod.mk.injEq] at hy
  exact hab hy.1.symm

theorem mem_wheelList (t : Train K) (p : ℕ × ℕ) : p ∈ t.wheelList ↔ t.HasDof (.wheelY p.1 p.2) := by
  unfold Train.wheelList
  simp only [List.mem_flatMap, List.mem_map, List.mem_range, Train.HasDof]
  constructor
  · rintro ⟨b, hb, j, hj, rfl⟩
    exact ⟨hb, hj⟩
  · rintro ⟨hb, hj⟩
    exact ⟨p.1, hb, p.2, hj, rfl⟩

theorem wheel_hasDof (t : Train K) (w : ℕ) (hw : w < t.wheelList.length) :
    t.HasDof (.wheelY (t.wheelList.getD w (0, 0)).1 (t.wheelList.getD w (0, 0)).2) := by
  rw [← mem_wheelList, List.getD_eq_getElem?_getD, List.getElem?_eq_getElem hw]
  exact List.getElem_mem hw

theorem list_sum_range (n : ℕ) (f : ℕ → K) : ((List.range n).map f).sum = ∑ w ∈ range n, f w := by
  induction n with
  | zero => rfl
  | succ n ih => rw [List.range_succ, List.map_append, List.sum_append, ih, sum_range_succ]; simp

theorem addAtDofs_sum (F : ℕ → K) (n : ℕ) (dof : ℕ → ℕ) (f : ℕ → K)
    (hinj : ∀ w < n, ∀ w' < n, dof w = dof w' → w = w') (i : ℕ) :
    addAtDofs F ((List.range n).map fun w => (dof w, f w)) i = F i + ∑ w ∈ range n, if dof w = i then f w else 0 := by
  unfold addAtDofs
  by_cases h : ∃ w < n, dof w = i
  · obtain ⟨w, hw, rfl⟩ := h
    rw [Finset.sum_eq_single_of_mem w (Finset.mem_range.mpr hw)]
    · rw [if_pos rfl]
      apply writes_eq_of_mem
      · intro q hq hqi
        simp only [List.map_map, List.mem_map, List.mem_range, Function.comp_apply] at hq
        obtain ⟨w', hw', rfl⟩ := hq
        simp only at hqi
        rw [hinj w' hw' w hw hqi]
      · refine ⟨(dof w, F (dof w) + f w), ?_, rfl⟩
        simp only [List.map_map, List.mem_map, List.mem_range, Function.comp_apply]
        exact ⟨w, hw, rfl⟩
    · intro b hb hne
      rw [if_neg]
      intro hd
      exact hne (hinj b (Finset.mem_range.mp hb) w hw hd)
  · push Not at h
    rw [sum_eq_zero (fun w hw => if_neg (h w (Finset.mem_range.mp hw))), add_zero]
    apply writes_eq_of_not_mem
    intro q hq hqi
    simp only [List.map_map, List.mem_map, List.mem_range, Function.comp_apply] at hq
    obtain ⟨w', hw', rfl⟩ := hq
    exact h w' hw' hqi

/-! ### The forces on the track -/

/-- No two of the `n` wheels are on elements with a common node at time index `t`. -/
def DistinctElements (rail : ℕ → RailWheel K) (n t : ℕ) : Prop :=
  ((List.range n).flatMap fun w => [((rail w).element t).1, ((rail w).element t).2]).Nodup

theorem represents_eq (n : ℕ) (nodes : List DofNode) (U : ℕ → K) (u : Spec.NodalField K) (h : RepresentsField n nodes U u)
    (i : ℕ) (hi : i < n) (d : Fin 3) : dofDisp U (nodeEquations nodes i d) = u i d := by
  rw [nodeEquations_eq]
  cases hk : equationOf nodes i d with
  | none => exact (h.removed i hi d hk).symm
  | some k => exact h.value i d k hk

theorem dispAtWheel_eq (n : ℕ) (nodes : List DofNode) (U : ℕ → K) (u : Spec.NodalField K) (h : RepresentsField n nodes U u)
    (w : RailWheel K) (t : ℕ) (h1 : (w.element t).1 < n) (h2 : (w.element t).2 < n) :
    dispAtWheel U ⟨railDofs (nodeEquations nodes) (w.element t), w.shape t⟩ = Spec.railAt w t u := by
  unfold dispAtWheel railDofs Spec.railAt
  rw [Fin.sum_univ_four]
  simp only [Matrix.cons_val, represents_eq n nodes U u h _ h1, represents_eq n nodes U u h _ h2]
  ring

theorem mem_railDofs (eqn : ℕ → Fin 3 → Option ℕ) (e : ℕ × ℕ) (o : ℕ) :
    (∃ k, railDofs eqn e k = some o) ↔ ∃ i d, (i = e.1 ∨ i = e.2) ∧ d ≠ 0 ∧ eqn i d = some o := by
  constructor
  · rintro ⟨k, hk⟩
    fin_cases k
    · exact ⟨e.1, 1, Or.inl rfl, by decide, hk⟩
    · exact ⟨e.1, 2, Or.inl rfl, by decide, hk⟩
    · exact ⟨e.2, 1, Or.inr rfl, by decide, hk⟩
    · exact ⟨e.2, 2, Or.inr rfl, by decide, hk⟩
  · rintro ⟨i, d, rfl | rfl, hd, h⟩ <;> fin_cases d
    · exact absurd rfl hd
    · exact ⟨0, h⟩
    · exact ⟨1, h⟩
    · exact absurd rfl hd
    · exact ⟨2, h⟩
    · exact ⟨3, h⟩

/-- The active dofs under the wheels, wheel by wheel, as pairs of node and direction. -/
theorem activeDofs_eq (eqn : ℕ → Fin 3 → Option ℕ) (rail : ℕ → RailWheel K) (n t : ℕ) (f : ℕ → K) :
    activeDofs ((List.range n).map fun w => ((⟨railDofs eqn ((rail w).element t), (rail w).shape t⟩ : WheelContact K), f w)) =
      ((List.range n).flatMap fun w => [((rail w).element t).1, ((rail w).element t).2]).flatMap fun i =>
        [1, (2 : Fin 3)].filterMap fun d => eqn i d := by
  unfold activeDofs railDofs
  rw [List.flatMap_map, List.flatMap_assoc]
  congr 1
  funext w
  simp only [List.flatMap_cons, List.flatMap_nil, List.append_nil]
  have e : ∀ o1 o2 o3 o4 : Option ℕ, [0, 1, 2, (3 : Fin 4)].filterMap ![o1, o2, o3, o4] =
      [o1, o2].filterMap id ++ [o3, o4].filterMap id := by
    intro o1 o2 o3 o4
    cases o1 <;> cases o2 <;> cases o3 <;> cases o4 <;> rfl
  have e2 : ∀ i, [1, (2 : Fin 3)].filterMap (fun d => eqn i d) = [eqn i 1, eqn i 2].filterMap id := by
    intro i
    cases h1 : eqn i 1 <;> cases h2 : eqn i 2 <;> simp [h1, h2]
  rw [e, e2, e2]

theorem activeDofs_nodup (inp : SystemInput K) (flags : ℕ → Fin 3 → Bool) (st : TrimState K)
    (h : inp.initialise flags = .ok st) (rail : ℕ → RailWheel K) (n t : ℕ) (f : ℕ → K) (hd : DistinctElements rail n t) :
    (activeDofs ((List.range n).map fun w =>
      ((⟨railDofs (nodeEquations st.nodes) ((rail w).element t), (rail w).shape t⟩ : WheelContact K), f w))).Nodup := by
  obtain ⟨h1, h2, -⟩ := C106_representable inp flags st h
  have inj : ∀ i d j e k, nodeEquations st.nodes i d = some k → nodeEquations st.nodes j e = some k → i = j ∧ d = e := by
    intro i d j e k g1 g2
    rw [nodeEquations_eq] at g1 g2
    obtain ⟨p, -, hp⟩ := h1 k (h2 _ _ _ g1).2
    have e1 := (hp (i, d) g1).trans (hp (j, e) g2).symm
    simpa using e1
  rw [activeDofs_eq, List.nodup_flatMap]
  refine ⟨fun i _ => ?_, ?_⟩
  · apply List.Nodup.filterMap
    · intro a b k ha hb
      exact (inj _ _ _ _ k ha hb).2
    · decide
  · refine hd.imp ?_
    intro i j hij k hk hk'
    simp only [List.mem_filterMap] at hk hk'
    obtain ⟨d, -, g1⟩ := hk
    obtain ⟨e, -, g2⟩ := hk'
    exact hij (inj _ _ _ _ k g1 g2).1

theorem setWheelLoads_work (n : ℕ) (F : ℕ → K) (ws : List (WheelContact K × K)) (h : (activeDofs ws).Nodup)
    (hlt : ∀ i ∈ activeDofs ws, i < n) (V V' : ℕ → K) (hV : ∀ i ∈ activeDofs ws, V' i = 0)
    (hV' : ∀ i, i ∉ activeDofs ws → V' i = V i) :
    ∑ i ∈ range n, V i * setWheelLoads F ws i =
      ∑ i ∈ range n, V' i * F i + (ws.map fun w => w.2 * dispAtWheel V w.1).sum := by
  rw [← C44_work_partial n ws h hlt V, ← sum_add_distrib]
  refine sum_congr rfl fun i _ => ?_
  by_cases hi : i ∈ activeDofs ws
  · rw [hV i hi]
    have : setWheelLoads F ws i = setWheelLoads (fun _ => 0) ws i := by
      unfold setWheelLoads
      apply writes_congr
      rw [wheelLoadWrites_keys]
      exact Or.inl hi
    rw [this]
    ring
  · have e : ∀ G : ℕ → K, setWheelLoads G ws i = G i := by
      intro G
      unfold setWheelLoads
      apply writes_eq_of_not_mem
      intro w hw he
      apply hi
      rw [← wheelLoadWrites_keys]
      exact List.mem_map.mpr ⟨w, hw, he⟩
    rw [e, e, hV' i hi]
    ring

/-- The static wheel loads act on the vertical and rotational dofs of the element under their wheel only. -/
def LoadsUnderWheels (c : CoupledRun K) : Prop :=
  ∀ w t i d, i < c.railNodes.length → (c.rail w).load i t d ≠ 0 →
    d ≠ 0 ∧ (c.railNodes.getD i 0 = ((c.rail w).element t).1 ∨ c.railNodes.getD i 0 = ((c.rail w).element t).2)

theorem loadWork_append (l m : List (NodalLoad K)) (v : Spec.NodalField K) :
    Spec.loadWork (l ++ m) v = Spec.loadWork l v + Spec.loadWork m v := by
  simp [Spec.loadWork]

theorem writes_same {ι : Type*} [DecidableEq ι] (ws : List (ι × K)) (a : ι → K) (p : ι) (x : K) (hx : a p = x)
    (h : ∀ w ∈ ws, w.1 = p → w.2 = x) : writes a ws p = x := by
  induction ws generalizing a with
  | nil => exact hx
  | cons w ws ih =>
    refine ih _ ?_ fun v hv => h v (List.mem_cons_of_mem _ hv)
    unfold write
    split_ifs with hp
    · exact h w (List.mem_cons_self ..) hp.symm
    · exact hx

theorem addCondition_idle (F : ℕ → K) (c : LoadPart K) (k : ℕ) (h : ∀ p ∈ c.masked, p.1 = k → p.2 = 0) :
    addCondition F c k = F k := by
  unfold addCondition fancyAdd
  refine writes_same _ _ _ _ rfl ?_
  intro w hw he
  rw [List.mem_map] at hw
  obtain ⟨p, hp, rfl⟩ := hw
  dsimp only at he ⊢
  rw [h p hp he, he, add_zero]

theorem foldl_idle (cs : List (LoadPart K)) (F : ℕ → K) (k : ℕ) (h : ∀ c ∈ cs, ∀ p ∈ c.masked, p.1 = k → p.2 = 0) :
    cs.foldl addCondition F k = F k := by
  induction cs generalizing F with
  | nil => rfl
  | cons c cs ih =>
    rw [List.foldl_cons, ih _ fun d hd => h d (List.mem_cons_of_mem _ hd)]
    exact addCondition_idle F c k (h c (List.mem_cons_self ..))

/-- A force of a load on a dof is that of one of the places where the load lists the node. -/
theorem masked_numbered (eqn : ℕ → Fin 3 → Option ℕ) (l : NodalLoad K) (p : ℕ × K) (hp : p ∈ (l.numbered eqn).masked) :
    ∃ i d, i < l.nodes.length ∧ eqn (l.nodes.getD i 0) d = some p.1 ∧ p.2 = (l.force.getD i fun _ => 0) d := by
  unfold LoadPart.masked at hp
  rw [List.mem_filterMap] at hp
  obtain ⟨⟨i, d⟩, hm, he⟩ := hp
  have hi : i < l.nodes.length := by
    simp only [flatPositions, NodalLoad.numbered, List.length_map, List.mem_flatMap, List.mem_range, List.mem_map,
      Prod.mk.injEq] at hm
    obtain ⟨j, hj, e, -, rfl, -⟩ := hm
    exact hj
  have he : (if l.act d then ((l.nodes.map eqn).getD i fun _ => none) d |>.map fun e => (e, (l.force.getD i fun _ => 0) d)
    else none) = some p := he
  split_ifs at he
  rw [Option.map_eq_some_iff] at he
  obtain ⟨k, hk, rfl⟩ := he
  refine ⟨i, d, hi, ?_, rfl⟩
  have e : (l.nodes.map eqn).getD i (fun _ => none) = eqn (l.nodes.getD i 0) := by
    simp [List.getD_eq_getElem?_getD, hi]
  rw [← hk, e]

/-- Away from the wheels the wheel loads, on whatever nodes they are listed, do not change the force vector of the track. -/
theorem wheelLoads_away (c : CoupledRun K) (hl : LoadsUnderWheels c) (t : ℕ) (eqn : ℕ → Fin 3 → Option ℕ) (k : ℕ)
    (hk : ∀ i d, Spec.UnderWheel c.rail c.train.wheelList.length t i → d ≠ 0 → eqn i d ≠ some k) :
    timeStepRhs ((Spec.loadsAt c.loadedTrack.timed t).map (NodalLoad.numbered eqn)) k =
      timeStepRhs ((Spec.loadsAt c.track.timed t).map (NodalLoad.numbered eqn)) k := by
  have e : Spec.loadsAt c.loadedTrack.timed t = Spec.loadsAt c.track.timed t ++
      Spec.loadsAt ((List.range c.train.wheelList.length).map fun w =>
        { nodes := c.railNodes, act := c.railAct, source := .moving (c.rail w).load }) t := by
    simp [CoupledRun.loadedTrack, Spec.loadsAt]
  rw [e, List.map_append]
  unfold timeStepRhs
  rw [List.foldl_append]
  refine foldl_idle _ _ _ ?_
  intro l hl' p hp he
  simp only [Spec.loadsAt, List.map_map, List.mem_map, List.mem_range, Function.comp_apply] at hl'
  obtain ⟨w, hw, rfl⟩ := hl'
  obtain ⟨i, d, hi, h1, h2⟩ := masked_numbered eqn _ p hp
  dsimp only at hi h1 h2
  by_contra h0
  rw [h2] at h0
  have hv : (c.rail w).load i t d ≠ 0 := by
    intro hz
    exact h0 (by simp [List.getD_eq_getElem?_getD, hi, hz])
  obtain ⟨g1, g2⟩ := hl w t i d hi hv
  exact hk _ d ⟨w, hw, g2⟩ g1 (by rw [h1, he])

/-- The force vector of the track does the work of its own loads away from the wheels and of the contact forces. -/
theorem track_rhs_work (c : CoupledRun K) (hc : c.track.WellFormed) (hsep : c.train.Separated c.start)
    (hm : c.train.Massive) (hl : LoadsUnderWheels c)
    (hel : ∀ w t, ((c.rail w).element t).1 < c.track.system.n ∧ ((c.rail w).element t).2 < c.track.system.n)
    (flags : ℕ → Fin 3 → Bool) (st : TrimState K) (h : c.loadedTrack.input.initialise flags = .ok st)
    (sched : List (ℕ × List (ℕ → K))) (us : List (ℕ → K)) (t : ℕ) (hd : DistinctElements c.rail c.train.wheelList.length t)
    (U V : ℕ → K) (v : Spec.NodalField K) (hV : RepresentsField c.track.system.n st.nodes V v) :
    ∑ k ∈ range st.N, V k * c.rhs hash st sched us t U k =
      Spec.loadWork (Spec.loadsAt c.track.timed t) (Spec.awayFromWheels c.rail c.train.wheelList.length t v) +
        ∑ w ∈ range c.train.wheelList.length, -(c.wheelOf st t w).force U * Spec.railAt (c.rail w) t v := by
  have hs : ∀ o ∈ (c.loadedTrack.loaded st).loads, o.Sized := by
    intro o ho
    simp only [SystemRun.loaded, List.mem_map] at ho
    obtain ⟨l, -, rfl⟩ := ho
    exact object_sized _ l
  have e1 : ∀ k < st.N, c.rhs hash st sched us t U k =
      setWheelLoads (timeStepRhs ((Spec.loadsAt c.loadedTrack.timed t).map (NodalLoad.numbered (nodeEquations st.nodes))))
        ((List.range c.train.wheelList.length).map fun w =>
          ((⟨railDofs (nodeEquations st.nodes) ((c.rail w).element t), (c.rail w).shape t⟩ : WheelContact K),
            -(c.wheelOf st t w).force U)) k := by
    intro k hk
    unfold CoupledRun.rhs
    rw [iterate_eq (c.data hash st) _ hs sched t us U k
      (show k < st.N + (c.trainState hash).N from Nat.lt_add_right _ hk),
      if_pos (show k < (c.data hash st).nt from hk), data_wheels hash c hsep hm, List.map_map]
    have e2 : (c.loadedTrack.loaded st).loads.map (LoadObject.loadAt t) =
        (Spec.loadsAt c.loadedTrack.timed t).map (NodalLoad.numbered (nodeEquations st.nodes)) := by
      simp only [SystemRun.loaded, Spec.loadsAt, List.map_map]
      refine List.map_congr_left fun l _ => ?_
      simp only [Function.comp_apply, LoadObject.loadAt, LoadObject.initialize, TimedLoad.object, NodalLoad.numbered,
        List.length_map]
      congr 1
    simp only [e2]
    rfl
  rw [sum_congr rfl fun k hk => by rw [e1 k (Finset.mem_range.mp hk)]]
  obtain ⟨r1, r2, r3⟩ := C106_representable c.loadedTrack.input flags st h
  set n := c.train.wheelList.length with hn
  set ws := (List.range n).map fun w =>
          ((⟨railDofs (nodeEquations st.nodes) ((c.rail w).element t), (c.rail w).shape t⟩ : WheelContact K),
            -(c.wheelOf st t w).force U) with hws
  have hmem : ∀ k, k ∈ activeDofs ws ↔ ∃ i d, Spec.UnderWheel c.rail n t i ∧ d ≠ 0 ∧ equationOf st.nodes i d = some k := by
    intro k
    simp only [activeDofs, hws, List.mem_flatMap, List.mem_map, List.mem_range]
    constructor
    · rintro ⟨x, ⟨w, hw, rfl⟩, hx⟩
      rw [List.mem_filterMap] at hx
      obtain ⟨q, -, hq⟩ := hx
      obtain ⟨i, d, hi, hd0, hk⟩ := (mem_railDofs _ _ k).1 ⟨q, hq⟩
      exact ⟨i, d, ⟨w, hw, hi⟩, hd0, by rw [← nodeEquations_eq]; exact hk⟩
    · rintro ⟨i, d, ⟨w, hw, hi⟩, hd0, hk⟩
      rw [← nodeEquations_eq] at hk
      obtain ⟨q, hq⟩ := (mem_railDofs (nodeEquations st.nodes) ((c.rail w).element t) k).2 ⟨i, d, hi, hd0, hk⟩
      refine ⟨_, ⟨w, hw, rfl⟩, ?_⟩
      rw [List.mem_filterMap]
      exact ⟨q, by fin_cases q <;> simp, hq⟩
  classical
  set V' : ℕ → K := fun k => if k ∈ activeDofs ws then 0 else V k with hV'
  have hrep : RepresentsField c.track.system.n st.nodes V' (Spec.awayFromWheels c.rail n t v) := by
    constructor
    · intro i d k hk
      by_cases hu : Spec.UnderWheel c.rail n t i ∧ d ≠ 0
      · have : k ∈ activeDofs ws := (hmem k).2 ⟨i, d, hu.1, hu.2, hk⟩
        rw [hV', Spec.awayFromWheels, if_pos hu]
        exact if_pos this
      · have : k ∉ activeDofs ws := by
          intro hm'
          obtain ⟨j, e, g1, g2, g3⟩ := (hmem k).1 hm'
          obtain ⟨p, -, hp⟩ := r1 k (r2 _ _ _ hk).2
          have e1 := (hp (i, d) hk).trans (hp (j, e) g3).symm
          simp only [Prod.mk.injEq] at e1
          exact hu ⟨e1.1 ▸ g1, e1.2 ▸ g2⟩
        rw [hV', Spec.awayFromWheels, if_neg hu]
        exact (if_neg this).trans (hV.value i d k hk)
    · intro i hi d hk
      unfold Spec.awayFromWheels
      split_ifs
      · rfl
      · exact hV.removed i hi d hk
  rw [setWheelLoads_work st.N _ ws (activeDofs_nodup _ flags st h c.rail n t _ hd) (fun k hk => by
      obtain ⟨i, d, -, -, g⟩ := (hmem k).1 hk
      exact (r2 _ _ _ g).2) V V' (fun i hi => if_pos hi) (fun i hi => if_neg hi)]
  congr 1
  · have hsame : ∀ k, V' k * timeStepRhs ((Spec.loadsAt c.loadedTrack.timed t).map
        (NodalLoad.numbered (nodeEquations st.nodes))) k =
        V' k * timeStepRhs ((Spec.loadsAt c.track.timed t).map (NodalLoad.numbered (nodeEquations st.nodes))) k := by
      intro k
      by_cases hk : k ∈ activeDofs ws
      · rw [show V' k = 0 from if_pos hk, zero_mul, zero_mul]
      · rw [wheelLoads_away c hl]
        intro i d hi hd0 he
        exact hk ((hmem k).2 ⟨i, d, hi, hd0, by rw [← nodeEquations_eq]; exact he⟩)
    rw [sum_congr rfl fun k _ => hsame k]
    refine trimmed_load_work c.loadedTrack.input flags st h _ ?_ ?_ V' _ hrep
    · intro l hl
      simp only [Spec.loadsAt, List.mem_map] at hl
      obtain ⟨o, ho, rfl⟩ := hl
      exact hc.nodup o ho
    · intro l hl
      simp only [Spec.loadsAt, List.mem_map] at hl
      obtain ⟨o, ho, rfl⟩ := hl
      exact hc.loads o ho
  · rw [hws, List.map_map, list_sum_range]
    refine sum_congr rfl fun w _ => ?_
    simp only [Function.comp_apply]
    rw [dispAtWheel_eq c.track.system.n st.nodes V v hV (c.rail w) t (hel w t).1 (hel w t).2]

/-! ### The train -/

theorem train_exists_dof (t : Train K) (o : ℕ) (ho : o < t.numbering.next) : ∃ d, t.HasDof d ∧ t.dof d = o := by
  obtain ⟨h1, _, h3⟩ := C34_numbered_once (fun b => (t.bogie b).wheels.length) 0
    (t.carts.map fun c => c.bogies.map Prod.fst)
  obtain ⟨d, hd⟩ := (h3 o).2 ⟨by omega, ho⟩
  have hd' : t.numbering.idx d = some o := hd
  exact ⟨d, (t.hasDof_iff d).1 ((h1 d).1 ⟨o, hd⟩), by rw [Train.dof, hd']; rfl⟩

theorem sum_dofs (t : Train K) (f : ℕ → K) :
    ∑ a ∈ range t.numbering.next, f a = (t.allDofs.map fun d => f (t.dof d)).sum := by
  classical
  have h1 : range t.numbering.next = t.allDofs.toFinset.image t.dof := by
    ext a
    rw [Finset.mem_range, Finset.mem_image]
    constructor
    · intro ha
      obtain ⟨d, hd, rfl⟩ := train_exists_dof t a ha
      exact ⟨d, by rw [List.mem_toFinset, t.mem_allDofs]; exact hd, rfl⟩
    · rintro ⟨d, hd, rfl⟩
      rw [List.mem_toFinset, t.mem_allDofs] at hd
      exact t.dof_lt d hd
  rw [h1, Finset.sum_image]
  · rw [List.sum_toFinset _ t.nodup_allDofs]
  · intro d hd e he h
    rw [Finset.mem_coe, List.mem_toFinset, t.mem_allDofs] at hd he
    exact t.dof_inj d e hd he h

theorem sum_row (t : Train K) (A : ℕ → ℕ → K) (U : ℕ → K) (x : TrainDof → K) (hx : ∀ e, t.HasDof e → U (t.dof e) = x e)
    (d : TrainDof) : ∑ b ∈ range t.numbering.next, A (t.dof d) b * U b = Spec.trainRow t A x t.allDofs d := by
  rw [sum_dofs t fun b => A (t.dof d) b * U b]
  unfold Spec.trainRow
  congr 1
  refine List.map_congr_left fun e he => ?_
  rw [hx e ((t.mem_allDofs e).1 he)]

theorem mass_row (t : Train K) (x : TrainDof → K) (d : TrainDof) (hd : t.HasDof d) :
    Spec.trainRow t t.massMatrix x t.allDofs d = t.bodyInertia d * x d := by
  obtain ⟨h1, h2, -⟩ := C100_diagonal t
  unfold Spec.trainRow
  classical
  rw [← List.sum_toFinset _ t.nodup_allDofs, Finset.sum_eq_single_of_mem d (by rw [List.mem_toFinset, t.mem_allDofs]; exact hd),
    h1 d hd]
  intro e he hne
  rw [List.mem_toFinset, t.mem_allDofs] at he
  rw [h2 _ _ fun h => hne (t.dof_inj d e hd he h).symm, zero_mul]

theorem hasPart_partOf (t : Train K) (d : TrainDof) (hd : t.HasDof d) : t.HasPart (Spec.partOf d) := by
  cases d <;> exact hd

theorem partIdx_direction (t : Train K) (d : TrainDof) (hd : t.HasDof d) :
    partIdx t.numbering (Spec.partOf d) (Spec.directionOf d) = some (t.dof d) := by
  obtain ⟨h1, _, _⟩ := C34_numbered_once (fun b => (t.bogie b).wheels.length) 0
    (t.carts.map fun c => c.bogies.map Prod.fst)
  obtain ⟨k, hk⟩ := (h1 d).2 ((t.hasDof_iff d).2 hd)
  have hk' : t.numbering.idx d = some k := hk
  have : t.numbering.idx d = some (t.dof d) := by rw [Train.dof, hk']; rfl
  cases d <;> simpa [partIdx, Spec.partOf, Spec.directionOf] using this

theorem train_rows (c : CoupledRun K) (nt : ℕ) (out : SolverOutput K) (t : ℕ) :
    ((c.trainState hash).nodes.map fun n => { n with idx := shiftDofs nt n.idx }).mapM (nodeRow out t) =
      .ok (((c.trainState hash).nodes.map fun n => ({ n with idx := shiftDofs nt n.idx } : DofNode)).map fun n =>
        (⟨reportedRow (out.u t) n, reportedRow (out.v t) n, reportedRow (out.a t) n⟩ : NodeRow K)) := by
  refine mapM_eq_map _ _ _ fun n hn => ?_
  rw [List.mem_map] at hn
  obtain ⟨m, hm, rfl⟩ := hn
  have hfl : ∀ d, m.act d = (shiftDofs nt m.idx d).isSome := fun d => by
    rw [flags_after_trim _ m hm d]
    simp [shiftDofs]
  have e : ∀ u : ℕ → K, assignResultRow ({ m with idx := shiftDofs nt m.idx } : DofNode) u =
      .ok (reportedRow u { m with idx := shiftDofs nt m.idx }) := fun u =>
    maskAssign_spec (fun _ => 0) { m with idx := shiftDofs nt m.idx } u hfl
  unfold nodeRow
  rw [e, e, e]
  rfl

/-- What the node of a body reports is the value of the solver at the dof of the body behind the dofs of the track. -/
theorem reportedDof_eq (c : CoupledRun K) (hsep : c.train.Separated c.start) (hm : c.train.Massive) (nt : ℕ)
    (rows : List (NodeRow K)) (result : NodeRow K → Fin 3 → K) (U : ℕ → K)
    (hr : rows.map result = ((c.trainState hash).nodes.map fun n => ({ n with idx := shiftDofs nt n.idx } : DofNode)).map
      (reportedRow U)) (d : TrainDof) (hd : c.train.HasDof d) :
    Spec.reportedDof (c.partRow hash rows) result d = U (nt + c.train.dof d) := by
  have hp := hasPart_partOf c.train d hd
  obtain ⟨-, h2, -⟩ := C102_trimmed_partial hash c.train c.start c.g hsep hm
  obtain ⟨-, -, -, h4⟩ := C101_mesh hash c.train c.start hsep
  have h2 := h2 _ hp
  set m := c.train.initialMesh hash c.start with hmdef
  have hidx : m.mesh.idxOf (m.node (Spec.partOf d)) < m.mesh.length := List.idxOf_lt_length_iff.2 (h4 _ hp).1
  have hlen : (c.trainState hash).nodes.length = m.mesh.length := by
    show (recalcNodes _ 0 _).1.length = _
    rw [(recalcNodes_flat _ 0 _).2.2.1]
    show (m.mesh.map _).length = _
    simp
  unfold Train.trimmedIdx at h2
  have hget : (trimAll (c.train.system c.g m)).nodes[m.mesh.idxOf (m.node (Spec.partOf d))]? =
      some ((c.trainState hash).nodes[m.mesh.idxOf (m.node (Spec.partOf d))]'(by rw [hlen]; exact hidx)) :=
    List.getElem?_eq_getElem _
  rw [hget] at h2
  simp only at h2
  unfold Spec.reportedDof CoupledRun.partRow
  simp only
  rw [← hmdef, ← List.getElem?_map, hr, List.getElem?_map, List.getElem?_map]
  have hget' : (c.trainState hash).nodes[m.mesh.idxOf (m.node (Spec.partOf d))]? = _ := hget
  rw [hget']
  simp only [Option.map_some, Option.getD_some, reportedRow, shiftDofs]
  rw [h2, partIdx_direction c.train d hd]
  simp [add_comm]

theorem train_rhs (c : CoupledRun K) (hsep : c.train.Separated c.start) (hm : c.train.Massive) (st : TrimState K)
    (sched : List (ℕ × List (ℕ → K))) (us : List (ℕ → K)) (t : ℕ) (U : ℕ → K) (d : TrainDof) (hd : c.train.HasDof d) :
    c.rhs hash st sched us t U (st.N + c.train.dof d) = c.train.forceVector c.g (c.train.dof d) +
      ∑ w ∈ range c.train.wheelList.length,
        if TrainDof.wheelY (c.train.wheelList.getD w (0, 0)).1 (c.train.wheelList.getD w (0, 0)).2 = d then
          (c.wheelOf st t w).force U else 0 := by
  obtain ⟨h1, -, h3⟩ := C102_trimmed_partial hash c.train c.start c.g hsep hm
  have hs : ∀ o ∈ (c.loadedTrack.loaded st).loads, o.Sized := by
    intro o ho
    simp only [SystemRun.loaded, List.mem_map] at ho
    obtain ⟨l, -, rfl⟩ := ho
    exact object_sized _ l
  have hlt := c.train.dof_lt d hd
  unfold CoupledRun.rhs
  rw [iterate_eq (c.data hash st) _ hs sched t us U _
    (show st.N + c.train.dof d < st.N + (c.trainState hash).N by
      have : (c.trainState hash).N = c.train.numbering.next := h1
      omega),
    if_neg (show ¬ st.N + c.train.dof d < (c.data hash st).nt from by
      show ¬ st.N + c.train.dof d < st.N
      omega), data_wheels hash c hsep hm, List.map_map]
  have := addAtDofs_sum (fun j => (c.trainState hash).F (j - st.N)) c.train.wheelList.length
    (fun w => (c.wheelOf st t w).dof) (fun w => (c.wheelOf st t w).force U) (by
      intro w hw w' hw' h
      have h' : c.train.dof _ + st.N = c.train.dof _ + st.N := h
      have e := c.train.dof_inj _ _ (wheel_hasDof c.train w hw) (wheel_hasDof c.train w' hw') (by omega)
      simp only [TrainDof.wheelY.injEq] at e
      have e' : c.train.wheelList.getD w (0, 0) = c.train.wheelList.getD w' (0, 0) := Prod.ext e.1 e.2
      rw [List.getD_eq_getElem?_getD, List.getD_eq_getElem?_getD, List.getElem?_eq_getElem hw,
        List.getElem?_eq_getElem hw'] at e'
      exact (List.Nodup.getElem_inj_iff (wheelList_nodup c.train)).mp e') (st.N + c.train.dof d)
  refine Eq.trans this ?_
  congr 1
  · simp only [Nat.add_sub_cancel_left]
    exact (h3 d d hd hd).2.2.2
  · refine sum_congr rfl fun w hw => ?_
    have hw' := wheel_hasDof c.train w (Finset.mem_range.mp hw)
    by_cases he : TrainDof.wheelY (c.train.wheelList.getD w (0, 0)).1 (c.train.wheelList.getD w (0, 0)).2 = d
    · rw [if_pos he, if_pos]
      show c.train.dof _ + st.N = _
      rw [he, add_comm]
    · rw [if_neg he, if_neg]
      intro h
      have h' : c.train.dof _ + st.N = st.N + c.train.dof d := h
      exact he (c.train.dof_inj _ _ hw' hd (by omega))

theorem rayleigh_work_eq (inp : SystemInput K) (v u : Spec.NodalField K) :
    (rayleighPair inp).1 * Spec.systemWork AssemblyPart.mass inp.parts v u +
      (rayleighPair inp).2 * Spec.systemWork AssemblyPart.stiffness inp.parts v u = Spec.rayleighWork inp v u := by
  unfold rayleighPair Spec.rayleighWork
  split_ifs
  · rfl
  · simp

/-! ### C124 -/

/-- The conditions of C124: the parts and own loads of the track are on nodes of its mesh and none of these loads lists a node
twice; elements are horizontal or vertical rods; the wheels are on elements of the mesh and the static wheel loads on these
elements (their list of rail nodes may repeat nodes, as it does at a hinge); the bodies of the train are at different places and all have mass and stiffness. -/
structure CoupledRun.WellFormed (c : CoupledRun K) : Prop where
  track : c.track.WellFormed
  aligned : Spec.AxisAligned c.track.system
  rail : ∀ w t, ((c.rail w).element t).1 < c.track.system.n ∧ ((c.rail w).element t).2 < c.track.system.n
  loads : LoadsUnderWheels c
  separated : c.train.Separated c.start
  massive : c.train.Massive

/-- **C124** A coupled calculation on a new mesh succeeds and gives every node of the track and every body of the train a row of
results for every output index. If the solver satisfies the equations of motion that it is given, then at every time at which
no two wheels are on elements with a common node: the track results respect all supports; in every admissible virtual
displacement the inertia, damping and stiffness forces of the track do the work of the loads of the track away from the
wheels minus the work of the contact forces over the displacement of the rail under the wheels; for every dof of the train
inertia, damping and stiffness forces are the weight plus, at a wheel, its contact force. The contact force is the contact
law of the reported displacements of wheel and rail, the same for both. Missing: wheels on neighbouring elements (C43 fails),
loads of the track under a wheel, which are lost (`C124_violated`), inclined elements (C121). -/
theorem C124_motion_partial (c : CoupledRun K) (hc : c.WellFormed) (times : ℕ)
    (solver : TrimState K → (List (ℕ × List (ℕ → K)) → List (ℕ → K) → ℕ → (ℕ → K) → ℕ → K) → SolverOutput K)
    (hs : ∀ st, c.loadedTrack.input.initialise freshFlags = .ok st →
      Spec.SolvesCoupled (c.system hash st) (c.rhs hash st) times (solver (c.system hash st) (c.rhs hash st))) :
    ∃ r, c.main hash freshFlags times solver = .ok r ∧ r.trackRows.length = times ∧ r.trainRows.length = times ∧
      ∀ t (h1 : t < r.trackRows.length) (h2 : t < r.trainRows.length),
        r.trackRows[t].length = c.track.system.n ∧
        (∀ p, c.train.HasPart p → (c.partRow hash r.trainRows[t] p).isSome) ∧
        (DistinctElements c.rail c.train.wheelList.length t →
          let u := Spec.fieldOfRows r.trackRows[t] NodeRow.displacement
          let v := Spec.fieldOfRows r.trackRows[t] NodeRow.velocity
          let a := Spec.fieldOfRows r.trackRows[t] NodeRow.acceleration
          let ut := Spec.reportedDof (c.partRow hash r.trainRows[t]) NodeRow.displacement
          let vt := Spec.reportedDof (c.partRow hash r.trainRows[t]) NodeRow.velocity
          let at' := Spec.reportedDof (c.partRow hash r.trainRows[t]) NodeRow.acceleration
          let f := fun w => Spec.wheelForce c.rail t u ut w (c.train.wheelList.getD w (0, 0))
          let a₀ := Spec.rayleighMass c.isRayleigh c.ratio c.w1 c.w2
          let a₁ := Spec.rayleighStiffness c.isRayleigh c.ratio c.w1 c.w2
          Spec.Admissible c.track.system u ∧ Spec.Admissible c.track.system v ∧ Spec.Admissible c.track.system a ∧
          (∀ δ, Spec.Admissible c.track.system δ →
            Spec.systemWork AssemblyPart.mass c.track.system.parts δ a +
            (Spec.systemWork AssemblyPart.damping c.track.system.parts δ v + Spec.rayleighWork c.track.system δ v +
              (a₀ * Spec.systemWork AssemblyPart.mass c.track.system.parts δ v +
                a₁ * Spec.systemWork AssemblyPart.stiffness c.track.system.parts δ v)) +
            Spec.systemWork AssemblyPart.stiffness c.track.system.parts δ u =
              Spec.loadWork (Spec.loadsAt c.track.timed t) (Spec.awayFromWheels c.rail c.train.wheelList.length t δ) -
                ∑ w ∈ range c.train.wheelList.length, f w * Spec.railAt (c.rail w) t δ) ∧
          ∀ d, c.train.HasDof d →
            c.train.bodyInertia d * at' d +
            (Spec.trainRow c.train c.train.damping vt c.train.allDofs d +
              (a₀ * (c.train.bodyInertia d * vt d) + a₁ * Spec.trainRow c.train c.train.stiffness vt c.train.allDofs d)) +
            Spec.trainRow c.train c.train.stiffness ut c.train.allDofs d =
              c.train.forceVector c.g (c.train.dof d) + ∑ w ∈ range c.train.wheelList.length,
                if TrainDof.wheelY (c.train.wheelList.getD w (0, 0)).1 (c.train.wheelList.getD w (0, 0)).2 = d then f w
                else 0) := by
  obtain ⟨st, hst⟩ := C106_succeeds c.loadedTrack.input hc.track.mesh freshFlags
  have hsep := hc.separated
  have hm := hc.massive
  set out := solver (c.system hash st) (c.rhs hash st) with hout
  have hmain : c.main hash freshFlags times solver = .ok ⟨st, (List.range times).map fun t => st.nodes.map fun n =>
      ⟨reportedRow (out.u t) n, reportedRow (out.v t) n, reportedRow (out.a t) n⟩,
      (List.range times).map fun t =>
        ((c.trainState hash).nodes.map fun n => ({ n with idx := shiftDofs st.N n.idx } : DofNode)).map fun n =>
        (⟨reportedRow (out.u t) n, reportedRow (out.v t) n, reportedRow (out.a t) n⟩ : NodeRow K)⟩ := by
    unfold CoupledRun.main
    rw [hst]
    simp only [bind, Except.bind]
    rw [← hout, mapM_eq_map _ (fun t => st.nodes.map fun n => (⟨reportedRow (out.u t) n,
      reportedRow (out.v t) n, reportedRow (out.a t) n⟩ : NodeRow K)), mapM_eq_map _ _ _ fun t _ => train_rows hash c st.N out t]
    intro t _
    refine mapM_eq_map _ _ _ fun n hn => ?_
    unfold nodeRow
    rw [assignResultRow_eq _ _ st hst n hn, assignResultRow_eq _ _ st hst n hn, assignResultRow_eq _ _ st hst n hn]
    rfl
  refine ⟨_, hmain, by simp, by simp, fun t ht _ => ?_⟩
  have ht' : t < times := by simpa using ht
  simp only [List.getElem_map, List.getElem_range]
  set row := st.nodes.map fun n =>
      (⟨reportedRow (out.u t) n, reportedRow (out.v t) n, reportedRow (out.a t) n⟩ : NodeRow K) with hrow
  set trow := ((c.trainState hash).nodes.map fun n => ({ n with idx := shiftDofs st.N n.idx } : DofNode)).map fun n =>
        (⟨reportedRow (out.u t) n, reportedRow (out.v t) n, reportedRow (out.a t) n⟩ : NodeRow K) with htrow
  refine ⟨by rw [hrow, List.length_map]; exact nodes_length c.loadedTrack.input _ st hst, ?_, ?_⟩
  · intro p hp
    obtain ⟨-, -, -, h4⟩ := C101_mesh hash c.train c.start hsep
    unfold CoupledRun.partRow
    simp only
    set m := c.train.initialMesh hash c.start with hmdef
    have hidx : m.mesh.idxOf (m.node p) < m.mesh.length := List.idxOf_lt_length_iff.2 (h4 _ hp).1
    have hlen : (c.trainState hash).nodes.length = m.mesh.length := by
      show (recalcNodes _ 0 _).1.length = _
      rw [(recalcNodes_flat _ 0 _).2.2.1]
      show (m.mesh.map _).length = _
      simp
    rw [List.getElem?_eq_getElem (by simp [htrow, hlen, hidx])]
    rfl
  intro hd
  have ru : RepresentsField c.track.system.n st.nodes (out.u t) (Spec.fieldOfRows row NodeRow.displacement) :=
    reported_represents _ _ _ _ _ (by rw [hrow, List.map_map]; rfl)
  have rv : RepresentsField c.track.system.n st.nodes (out.v t) (Spec.fieldOfRows row NodeRow.velocity) :=
    reported_represents _ _ _ _ _ (by rw [hrow, List.map_map]; rfl)
  have ra : RepresentsField c.track.system.n st.nodes (out.a t) (Spec.fieldOfRows row NodeRow.acceleration) :=
    reported_represents _ _ _ _ _ (by rw [hrow, List.map_map]; rfl)
  have du := reportedDof_eq hash c hsep hm st.N trow NodeRow.displacement (out.u t) (by rw [htrow, List.map_map]; rfl)
  have dv := reportedDof_eq hash c hsep hm st.N trow NodeRow.velocity (out.v t) (by rw [htrow, List.map_map]; rfl)
  have da := reportedDof_eq hash c hsep hm st.N trow NodeRow.acceleration (out.a t) (by rw [htrow, List.map_map]; rfl)
  have hforce : ∀ w < c.train.wheelList.length, (c.wheelOf st t w).force (out.u t) =
      Spec.wheelForce c.rail t (Spec.fieldOfRows row NodeRow.displacement)
        (Spec.reportedDof (c.partRow hash trow) NodeRow.displacement) w (c.train.wheelList.getD w (0, 0)) := by
    intro w hw
    unfold WheelAt.force Spec.wheelForce
    rw [du _ (wheel_hasDof c.train w hw)]
    have e := dispAtWheel_eq c.track.system.n st.nodes (out.u t) _ ru (c.rail w) t (hc.rail w t).1 (hc.rail w t).2
    show (c.rail w).law t (out.u t (c.train.dof _ + st.N) + (c.rail w).static - dispAtWheel (out.u t) _) = _
    rw [add_comm (c.train.dof _) st.N]
    show (c.rail w).law t (_ + (c.rail w).static - dispAtWheel (out.u t)
      ⟨railDofs (nodeEquations st.nodes) ((c.rail w).element t), (c.rail w).shape t⟩) = _
    rw [e]
  obtain ⟨sched, us, heq⟩ := hs st hst t ht'
  rw [← hout] at heq
  have hN : (c.system hash st).N = st.N + (c.trainState hash).N := rfl
  obtain ⟨q1, q2⟩ := coupled_row hash c st (out.a t) (out.v t) (out.u t) st.N (c.trainState hash).N rfl rfl
  refine ⟨represents_admissible c.loadedTrack hc.track.mesh hc.aligned st hst _ _ ru,
    represents_admissible c.loadedTrack hc.track.mesh hc.aligned st hst _ _ rv,
    represents_admissible c.loadedTrack hc.track.mesh hc.aligned st hst _ _ ra, ?_, ?_⟩
  · intro δ hδ
    obtain ⟨V, hV⟩ := admissible_represents c.loadedTrack hc.track.mesh hc.aligned st hst δ hδ
    have wa := (C106_work_partial c.loadedTrack.input freshFlags hc.track.mesh hc.aligned st hst V _ δ _ hV ra).2.1
    obtain ⟨wvk, wvm, wv⟩ := C106_work_partial c.loadedTrack.input freshFlags hc.track.mesh hc.aligned st hst V _ δ _ hV rv
    have wu := (C106_work_partial c.loadedTrack.input freshFlags hc.track.mesh hc.aligned st hst V _ δ _ hV ru).1
    have wv' := wv
    rw [wvk, wvm] at wv'
    have hR := rayleigh_work_eq c.loadedTrack.input δ (Spec.fieldOfRows row NodeRow.velocity)
    rw [add_assoc, hR] at wv'
    have hT := track_rhs_work hash c hc.track hsep hm hc.loads hc.rail freshFlags st hst sched us t hd (out.u t) V δ hV
    have e3 : ∑ w ∈ range c.train.wheelList.length, -(c.wheelOf st t w).force (out.u t) * Spec.railAt (c.rail w) t δ =
        -∑ w ∈ range c.train.wheelList.length, Spec.wheelForce c.rail t (Spec.fieldOfRows row NodeRow.displacement)
          (Spec.reportedDof (c.partRow hash trow) NodeRow.displacement) w (c.train.wheelList.getD w (0, 0)) *
          Spec.railAt (c.rail w) t δ := by
      rw [← Finset.sum_neg_distrib]
      refine sum_congr rfl fun w hw => ?_
      rw [hforce w (Finset.mem_range.mp hw)]
      ring
    rw [e3, ← sub_eq_add_neg] at hT
    rw [← hT]
    change _ = Spec.systemWork AssemblyPart.damping c.track.system.parts δ _ + Spec.rayleighWork c.track.system δ _ at wv'
    change _ = Spec.systemWork AssemblyPart.mass c.track.system.parts δ _ at wa
    change _ = Spec.systemWork AssemblyPart.mass c.track.system.parts δ _ at wvm
    change _ = Spec.systemWork AssemblyPart.stiffness c.track.system.parts δ _ at wvk
    change _ = Spec.systemWork AssemblyPart.stiffness c.track.system.parts δ _ at wu
    rw [← wv', ← wa, ← wvm, ← wvk, ← wu]
    simp only [matrixWork_eq, Finset.mul_sum (s := range st.N) (a := Spec.rayleighMass c.isRayleigh c.ratio c.w1 c.w2),
      Finset.mul_sum (s := range st.N) (a := Spec.rayleighStiffness c.isRayleigh c.ratio c.w1 c.w2)]
    rw [← Finset.sum_add_distrib, ← Finset.sum_add_distrib, ← Finset.sum_add_distrib, ← Finset.sum_add_distrib]
    refine sum_congr rfl fun i hi => ?_
    have hi' := Finset.mem_range.mp hi
    rw [← heq i (by rw [hN]; omega), hN, q1 i hi']
    ring
  · intro d hdof
    obtain ⟨n1, -, n3⟩ := C102_trimmed_partial hash c.train c.start c.g hsep hm
    have n1' : (c.trainState hash).N = c.train.numbering.next := n1
    have n3 : ∀ d e, c.train.HasDof d → c.train.HasDof e →
      (c.trainState hash).M (c.train.dof d) (c.train.dof e) = c.train.massMatrix (c.train.dof d) (c.train.dof e) ∧
      (c.trainState hash).C (c.train.dof d) (c.train.dof e) = c.train.damping (c.train.dof d) (c.train.dof e) ∧
      (c.trainState hash).Kg (c.train.dof d) (c.train.dof e) = c.train.stiffness (c.train.dof d) (c.train.dof e) ∧
      (c.trainState hash).F (c.train.dof d) = c.train.forceVector c.g (c.train.dof d) := n3
    have hlt := c.train.dof_lt d hdof
    have row_eq : ∀ (A B : ℕ → ℕ → K) (U : ℕ → K) (x : TrainDof → K)
        (_ : ∀ e, c.train.HasDof e → A (c.train.dof d) (c.train.dof e) = B (c.train.dof d) (c.train.dof e))
        (_ : ∀ e, c.train.HasDof e → x e = U (st.N + c.train.dof e)),
        ∑ j ∈ range (c.trainState hash).N, A (c.train.dof d) j * U (st.N + j) =
          Spec.trainRow c.train B x c.train.allDofs d := by
      intro A B U x hA hx
      rw [n1', sum_row c.train A (fun j => U (st.N + j)) x (fun e he => (hx e he).symm) d]
      unfold Spec.trainRow
      congr 1
      refine List.map_congr_left fun e he => ?_
      rw [hA e ((c.train.mem_allDofs e).1 he)]
    have h := heq (st.N + c.train.dof d) (by rw [hN]; omega)
    rw [train_rhs hash c hsep hm st sched us t (out.u t) d hdof, hN, q2 _ (by omega)] at h
    rw [row_eq _ c.train.massMatrix _ _ (fun e he => (n3 d e hdof he).1) da,
      row_eq _ c.train.massMatrix _ _ (fun e he => (n3 d e hdof he).1) dv,
      row_eq _ c.train.damping _ _ (fun e he => (n3 d e hdof he).2.1) dv,
      row_eq _ c.train.stiffness _ _ (fun e he => (n3 d e hdof he).2.2.1) dv,
      row_eq _ c.train.stiffness _ _ (fun e he => (n3 d e hdof he).2.2.1) du,
      mass_row c.train _ d hdof, mass_row c.train _ d hdof] at h
    rw [h]
    congr 1
    refine sum_congr rfl fun w hw => ?_
    rw [hforce w (Finset.mem_range.mp hw)]

end
end Rose
