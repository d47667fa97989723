/-
C182: the order of nodes and model parts.
-/
import Verif.Spec.SameModel
import Verif.Props.LinearDynamics

set_option linter.unusedSectionVars false

namespace Rose
open Finset

section
variable {K : Type*} [Field K] [LinearOrder K] [IsStrictOrderedRing K] {σ : Equiv.Perm ℕ}

/-! ### The work of the parts -/

theorem SameItems.sum {α β : Type*} {R : α → β → Prop} {xs : List α} {ys : List β} (h : Spec.SameItems R xs ys) (f : α → K) (g : β → K)
    (he : ∀ x y, R x y → f x = g y) : (ys.map g).sum = (xs.map f).sum := by
  obtain ⟨zs, h1, h2⟩ := h
  rw [← (h2.map g).sum_eq]
  clear h2
  induction h1 with
  | nil => rfl
  | cons a _ ih => rw [List.map_cons, List.sum_cons, List.map_cons, List.sum_cons, ih, he _ _ a]

theorem SameItems.mem {α β : Type*} {R : α → β → Prop} {xs : List α} {ys : List β} (h : Spec.SameItems R xs ys) :
    (∀ x ∈ xs, ∃ y ∈ ys, R x y) ∧ ∀ y ∈ ys, ∃ x ∈ xs, R x y := by
  obtain ⟨zs, h1, h2⟩ := h
  have : (∀ x ∈ xs, ∃ y ∈ zs, R x y) ∧ ∀ y ∈ zs, ∃ x ∈ xs, R x y := by
    clear h2
    induction h1 with
    | nil => simp
    | @cons a b l l' hab _ ih =>
      refine ⟨fun x hx => ?_, fun y hy => ?_⟩
      · rcases List.mem_cons.mp hx with rfl | hx
        · exact ⟨b, by simp, hab⟩
        · obtain ⟨y, hy, hr⟩ := ih.1 x hx
          exact ⟨y, List.mem_cons_of_mem _ hy, hr⟩
      · rcases List.mem_cons.mp hy with rfl | hy
        · exact ⟨a, by simp, hab⟩
        · obtain ⟨x, hx, hr⟩ := ih.2 y hy
          exact ⟨x, List.mem_cons_of_mem _ hx, hr⟩
  exact ⟨fun x hx => let ⟨y, hy, hr⟩ := this.1 x hx; ⟨y, h2.mem_iff.mp hy, hr⟩, fun y hy => this.2 y (h2.mem_iff.mpr hy)⟩

theorem SamePart.work {p p' : AssemblyPart K} (h : Spec.SamePart σ p p') (a : ℕ × ℕ → K) (v u v' u' : Spec.NodalField K)
    (hv : ∀ i, v' (σ i) = v i) (hu : ∀ i, u' (σ i) = u i) :
    Spec.partWork p'.mirrored a v' u' = Spec.partWork p.mirrored a v u := by
  have ax : ∀ (c s : K) (w w' : Spec.NodalField K), (∀ i, w' (σ i) = w i) → ∀ e : ℕ × ℕ,
      Spec.inElementAxes c s w' (σ e.1, σ e.2) = Spec.inElementAxes c s w e := by
    intro c s w w' hw e
    funext i
    unfold Spec.inElementAxes
    fin_cases i <;> simp [hw]
  have hnil : p'.mirrored.elements = [] ↔ p.mirrored.elements = [] := by
    simp only [AssemblyPart.mirrored, List.map_eq_nil_iff]
    constructor
    · intro h0
      have := h.elements.length_eq
      rw [h0, List.length_map] at this
      exact List.eq_nil_of_length_eq_zero this.symm
    · intro h0
      have := h.elements.length_eq
      rw [h0] at this
      exact List.eq_nil_of_length_eq_zero this
  unfold Spec.partWork
  by_cases h0 : p.mirrored.elements = []
  · rw [if_pos h0, if_pos (hnil.mpr h0)]
    simp only [AssemblyPart.mirrored]
    rw [(h.nodes.map _).sum_eq, List.map_map, h.act]
    congr 1
    refine List.map_congr_left fun m _ => ?_
    simp only [Function.comp_apply, hv, hu]
  · rw [if_neg h0, if_neg (fun h1 => h0 (hnil.mp h1))]
    simp only [AssemblyPart.mirrored, List.map_map]
    rw [(h.elements.map _).sum_eq, List.map_map, h.act]
    congr 1
    refine List.map_congr_left fun e _ => ?_
    simp only [Function.comp_apply]
    rw [ax _ _ v v' hv, ax _ _ u u' hu]

theorem sameWork {c c' : SystemRun K} (h : Spec.SameModel σ c c') (matrix : AssemblyPart K → Option (ℕ × ℕ → K))
    (hm : ∀ p, matrix p.mirrored = matrix p) (hs : ∀ p p', Spec.SamePart σ p p' → matrix p' = matrix p)
    (v u v' u' : Spec.NodalField K) (hv : ∀ i, v' (σ i) = v i) (hu : ∀ i, u' (σ i) = u i) :
    Spec.systemWork matrix (c'.system.parts.map AssemblyPart.mirrored) v' u' =
      Spec.systemWork matrix (c.system.parts.map AssemblyPart.mirrored) v u := by
  unfold Spec.systemWork
  rw [List.map_map, List.map_map]
  refine SameItems.sum h.parts _ _ fun p p' hp => ?_
  simp only [Function.comp_apply, hm, hs p p' hp]
  cases matrix p with
  | none => rfl
  | some a => exact (SamePart.work hp a v u v' u' hv hu).symm

theorem sameLoadWork {xs ys : List (TimedLoad K)} (h : Spec.SameItems (Spec.SameLoad σ) xs ys) (f : TimedLoad K → NodalLoad K)
    (hf : ∀ l, (f l).nodes = l.nodes ∧ (f l).act = l.act) (hforce : ∀ l l', Spec.SameLoad σ l l' → (f l').force = (f l).force)
    (v v' : Spec.NodalField K) (hv : ∀ i, v' (σ i) = v i) : Spec.loadWork (ys.map f) v' = Spec.loadWork (xs.map f) v := by
  unfold Spec.loadWork
  rw [List.map_map, List.map_map]
  refine SameItems.sum h _ _ fun l l' hl => ?_
  simp only [Function.comp_apply, (hf l).1, (hf l).2, (hf l').1, (hf l').2, hl.nodes, hl.act, hforce l l' hl, List.length_map]
  refine sum_congr rfl fun j hj => sum_congr rfl fun d _ => ?_
  have hj : j < l.nodes.length := mem_range.mp hj
  have : (l.nodes.map σ).getD j 0 = σ (l.nodes.getD j 0) := by
    rw [List.getD_eq_getElem _ _ (by simpa using hj), List.getElem_map, List.getD_eq_getElem _ _ hj]
  rw [this, hv]

theorem unitField_same (i : ℕ) (d : Fin 3) (j : ℕ) : Spec.unitField (K := K) (σ i) d (σ j) = Spec.unitField i d j := by
  funext e
  unfold Spec.unitField
  simp

/-! ### Supports -/

theorem supported_agree (ps : List ConstraintPart) (h : Spec.SupportsAgree ps) (i : ℕ) (d : Fin 3) :
    Spec.Supported ps i d ↔ ∃ p ∈ ps, i ∈ p.nodes ∧ p.free d = false := by
  constructor
  · rintro ⟨before, p, after, rfl, hi, -, hf⟩
    exact ⟨p, by simp, hi, hf⟩
  · rintro ⟨p, hp, hi, hf⟩
    have hlast : ∀ qs : List ConstraintPart, (∃ q ∈ qs, i ∈ q.nodes) →
        ∃ before q after, qs = before ++ q :: after ∧ i ∈ q.nodes ∧ ∀ r ∈ after, i ∉ r.nodes := by
      intro qs
      induction qs with
      | nil => simp
      | cons q qs ih =>
        intro hex
        by_cases hq : ∃ r ∈ qs, i ∈ r.nodes
        · obtain ⟨b, r, a, rfl, h1, h2⟩ := ih hq
          exact ⟨q :: b, r, a, rfl, h1, h2⟩
        · push Not at hq
          obtain ⟨r, hr, hir⟩ := hex
          rcases List.mem_cons.mp hr with rfl | hr
          · exact ⟨[], r, qs, rfl, hir, hq⟩
          · exact absurd hir (hq r hr)
    obtain ⟨b, q, a, he, hq, ha⟩ := hlast ps ⟨p, hp, hi⟩
    refine ⟨b, q, a, he, hq, ha, ?_⟩
    rw [← h p hp q (by rw [he]; simp) i hi hq]
    exact hf

theorem sameSupported {c c' : SystemRun K} (h : Spec.SameModel σ c c') (ha : Spec.SupportsAgree c.system.constraints) (i : ℕ) (d : Fin 3) :
    Spec.Supported c'.system.constraints (σ i) d ↔ Spec.Supported c.system.constraints i d := by
  obtain ⟨m1, m2⟩ := SameItems.mem h.supports
  have ha' : Spec.SupportsAgree c'.system.constraints := by
    intro p hp q hq j hj hj'
    obtain ⟨x, hx, sx⟩ := m2 p hp
    obtain ⟨y, hy, sy⟩ := m2 q hq
    rw [sx.nodes.mem_iff, List.mem_map] at hj
    rw [sy.nodes.mem_iff, List.mem_map] at hj'
    obtain ⟨k, hk, rfl⟩ := hj
    obtain ⟨k', hk', e⟩ := hj'
    rw [σ.injective e] at hk'
    rw [sx.free, sy.free]
    exact ha x hx y hy k hk hk'
  rw [supported_agree _ ha, supported_agree _ ha']
  constructor
  · rintro ⟨p, hp, hi, hf⟩
    obtain ⟨x, hx, sx⟩ := m2 p hp
    rw [sx.nodes.mem_iff, List.mem_map] at hi
    obtain ⟨k, hk, e⟩ := hi
    rw [σ.injective e] at hk
    exact ⟨x, hx, hk, by rw [← sx.free]; exact hf⟩
  · rintro ⟨p, hp, hi, hf⟩
    obtain ⟨y, hy, sy⟩ := m1 p hp
    exact ⟨y, hy, sy.nodes.mem_iff.mpr (List.mem_map_of_mem hi), by rw [sy.free]; exact hf⟩

/-! ### Equations -/

theorem unknowns_mirrored (inp : SystemInput K) (hm : Spec.NodesInMesh inp) (st : TrimState K) (h : inp.initialise freshFlags = .ok st)
    (i : ℕ) (hi : i < inp.n) (d : Fin 3) :
    equationOf st.nodes i d = none ↔ Spec.Supported inp.constraints i d ∨
      |Spec.systemWork AssemblyPart.mass (inp.parts.map AssemblyPart.mirrored) (Spec.unitField i d) (Spec.unitField i d)| ≤ 1 / 10 ^ 8 ∨
      |Spec.systemWork AssemblyPart.stiffness (inp.parts.map AssemblyPart.mirrored) (Spec.unitField i d) (Spec.unitField i d)| ≤ 1 / 10 ^ 8 := by
  obtain ⟨stiff, mass, damp, a1, a2, a3, rfl⟩ := initialise_ok inp _ st h
  rw [initialise_equation inp _ stiff mass damp i hi d, obsolete_untrimmed inp _ stiff mass damp i hi d, supported_iff,
    ← matrixWork_unit inp.n mass i hi d, ← matrixWork_unit inp.n stiff i hi d,
    assembled_work inp hm AssemblyPart.mass (fun _ => rfl) mass a2,
    assembled_work inp hm AssemblyPart.stiffness (fun _ => rfl) stiff a1]

/-- The vector of one unknown represents the field that moves its dof. -/
theorem unit_represents (inp : SystemInput K) (st : TrimState K) (h : inp.initialise freshFlags = .ok st) (i : ℕ) (d : Fin 3) (a : ℕ)
    (ha : equationOf st.nodes i d = some a) :
    RepresentsField inp.n st.nodes (fun k => if k = a then 1 else 0) (Spec.unitField (K := K) i d) := by
  obtain ⟨r1, r2, -⟩ := C106_representable inp freshFlags st h
  constructor
  · intro j e k hk
    unfold Spec.unitField
    by_cases hka : k = a
    · subst hka
      obtain ⟨p, -, hp⟩ := r1 k (r2 _ _ _ hk).2
      have := (hp (j, e) hk).trans (hp (i, d) ha).symm
      obtain ⟨rfl, rfl⟩ := Prod.mk.inj this
      simp
    · rw [if_neg hka, if_neg]
      rintro ⟨rfl, rfl⟩
      rw [ha] at hk
      injection hk with hk
      exact hka hk.symm
  · intro j _ e he
    unfold Spec.unitField
    rw [if_neg]
    rintro ⟨rfl, rfl⟩
    rw [ha] at he
    cases he

theorem matrixWork_single (N : ℕ) (g : ℕ → ℕ → K) (a b : ℕ) (ha : a < N) (hb : b < N) :
    matrixWork N g (fun k => if k = a then 1 else 0) (fun k => if k = b then 1 else 0) = g a b := by
  unfold matrixWork
  rw [Finset.sum_eq_single_of_mem a (mem_range.mpr ha), Finset.sum_eq_single_of_mem b (mem_range.mpr hb)]
  · simp
  · intro j _ hj; simp [hj]
  · intro j _ hj
    apply Finset.sum_eq_zero
    intro k _
    simp [hj]

/-- What the equations are, by the dofs of their unknowns. -/
theorem equations_work (c : SystemRun K) (hc : c.WellFormed) (st : TrimState K) (h : c.input.initialise freshFlags = .ok st)
    (i j : ℕ) (d e : Fin 3) (a b : ℕ) (ha : equationOf st.nodes i d = some a) (hb : equationOf st.nodes j e = some b) :
    st.Kg a b = Spec.systemWork AssemblyPart.stiffness (c.system.parts.map AssemblyPart.mirrored) (Spec.unitField i d) (Spec.unitField j e) ∧
    st.M a b = Spec.systemWork AssemblyPart.mass (c.system.parts.map AssemblyPart.mirrored) (Spec.unitField i d) (Spec.unitField j e) ∧
    st.C a b = Spec.systemWork AssemblyPart.damping (c.system.parts.map AssemblyPart.mirrored) (Spec.unitField i d) (Spec.unitField j e) +
      (rayleighPair c.system).1 * st.M a b + (rayleighPair c.system).2 * st.Kg a b ∧
    st.F a = Spec.loadWork (c.timed.map TimedLoad.initial) (Spec.unitField i d) ∧
    ∀ asked t, c.rhs st asked t a = Spec.loadWork (Spec.loadsAt c.timed t) (Spec.unitField i d) := by
  obtain ⟨r1, r2, -⟩ := C106_representable c.input freshFlags st h
  have haN := (r2 _ _ _ ha).2
  have hbN := (r2 _ _ _ hb).2
  have hi := unit_represents c.input st h i d a ha
  have hj := unit_represents c.input st h j e b hb
  obtain ⟨w1, w2, w3⟩ := C106_work_mirrored c.input freshFlags hc.mesh st h _ _ _ _ hi hj
  rw [matrixWork_single _ _ _ _ haN hbN] at w1 w2 w3
  rw [matrixWork_single _ _ _ _ haN hbN, matrixWork_single _ _ _ _ haN hbN] at w3
  have single : ∀ f : ℕ → K, ∑ k ∈ range st.N, (if k = a then (1 : K) else 0) * f k = f a := by
    intro f
    rw [Finset.sum_eq_single_of_mem a (mem_range.mpr haN)]
    · simp
    · intro k _ hk; simp [hk]
  refine ⟨w1, w2, w3, ?_, fun asked t => ?_⟩
  · have := C106_load_partial c.input freshFlags st h (by
      intro l hl
      obtain ⟨o, ho, rfl⟩ := List.mem_map.mp hl
      exact hc.nodup o ho) (by
      intro l hl
      obtain ⟨o, ho, rfl⟩ := List.mem_map.mp hl
      exact hc.loads o ho) _ _ hi
    rw [single] at this
    exact this
  · have := rhs_work c hc freshFlags st h asked t _ _ hi
    rwa [single] at this

theorem SameModel.wellFormed {c c' : SystemRun K} (h : Spec.SameModel σ c c') (hc : c.WellFormed) : c'.WellFormed := by
  constructor
  · intro p hp
    obtain ⟨x, hx, s⟩ := (SameItems.mem h.parts).2 p hp
    obtain ⟨h1, h2⟩ := hc.mesh x hx
    rw [h.size]
    constructor
    · intro e he
      rw [s.elements.mem_iff, List.mem_map] at he
      obtain ⟨e', he', rfl⟩ := he
      exact ⟨(h.mesh _).mpr (h1 e' he').1, (h.mesh _).mpr (h1 e' he').2⟩
    · intro m hm
      rw [s.nodes.mem_iff, List.mem_map] at hm
      obtain ⟨m', hm', rfl⟩ := hm
      exact (h.mesh _).mpr (h2 m' hm')
  · intro l hl
    obtain ⟨x, hx, s⟩ := (SameItems.mem h.loads).2 l hl
    rw [s.nodes]
    exact (hc.nodup x hx).map σ.injective
  · intro l hl m hm
    obtain ⟨x, hx, s⟩ := (SameItems.mem h.loads).2 l hl
    rw [s.nodes, List.mem_map] at hm
    obtain ⟨m', hm', rfl⟩ := hm
    rw [h.size]
    exact (h.mesh _).mpr (hc.loads x hx m' hm')

/-- **C182** The same structure with its nodes in another order in the mesh and its model parts, loads and supports in another order has the same
equations, with the unknowns in another order, and gives its solver the same right hand sides. Missing: supports that share a node and hold it in
different ways, where the last one listed counts (`C182_violated`), and load conditions that list a node twice. -/
theorem C182_equations_partial {c c' : SystemRun K} (h : Spec.SameModel σ c c') (hc : c.WellFormed)
    (ha : Spec.SupportsAgree c.system.constraints) :
    ∃ st st' τ, c.input.initialise freshFlags = .ok st ∧ c'.input.initialise freshFlags = .ok st' ∧
      Spec.SameEquations σ c.system.n τ st st' ∧
      ∀ asked asked' t, ∀ a < st.N, c'.rhs st' asked' t (τ a) = c.rhs st asked t a := by
  have hc' := SameModel.wellFormed h hc
  obtain ⟨st, hst⟩ := C106_succeeds c.input hc.mesh freshFlags
  obtain ⟨st', hst'⟩ := C106_succeeds c'.input hc'.mesh freshFlags
  obtain ⟨r1, r2, -⟩ := C106_representable c.input freshFlags st hst
  obtain ⟨r1', r2', -⟩ := C106_representable c'.input freshFlags st' hst'
  have none_iff : ∀ i < c.system.n, ∀ d, equationOf st'.nodes (σ i) d = none ↔ equationOf st.nodes i d = none := by
    intro i hi d
    rw [unknowns_mirrored c.input hc.mesh st hst i hi d, unknowns_mirrored c'.input hc'.mesh st' hst' (σ i)
      (show σ i < c'.system.n by rw [h.size]; exact (h.mesh i).mpr hi) d]
    have e1 := sameWork h AssemblyPart.mass (fun _ => rfl) (fun _ _ s => s.mass) (Spec.unitField i d) (Spec.unitField i d)
      (Spec.unitField (σ i) d) (Spec.unitField (σ i) d) (unitField_same i d) (unitField_same i d)
    have e2 := sameWork h AssemblyPart.stiffness (fun _ => rfl) (fun _ _ s => s.stiffness) (Spec.unitField i d) (Spec.unitField i d)
      (Spec.unitField (σ i) d) (Spec.unitField (σ i) d) (unitField_same i d) (unitField_same i d)
    have e3 := sameSupported h ha i d
    show Spec.Supported c'.system.constraints _ _ ∨ |Spec.systemWork _ (c'.system.parts.map _) _ _| ≤ _ ∨
      |Spec.systemWork _ (c'.system.parts.map _) _ _| ≤ _ ↔ _
    rw [e1, e2, e3]
    rfl
  choose! p hp hpu using r1
  have hp : ∀ a < st.N, equationOf st.nodes (p a).1 (p a).2 = some a := hp
  have hpn : ∀ a < st.N, (p a).1 < c.system.n := fun a ha => (r2 _ _ _ (hp a ha)).1
  set τ : ℕ → ℕ := fun a => (equationOf st'.nodes (σ (p a).1) (p a).2).getD 0 with hτ
  have hτe : ∀ a < st.N, equationOf st'.nodes (σ (p a).1) (p a).2 = some (τ a) := by
    intro a haN
    rw [hτ]
    cases hx : equationOf st'.nodes (σ (p a).1) (p a).2 with
    | none =>
      have := (none_iff _ (hpn a haN) _).mp hx
      rw [hp a haN] at this
      cases this
    | some k => simp [hx]
  have hlt : ∀ a < st.N, τ a < st'.N := fun a haN => (r2' _ _ _ (hτe a haN)).2
  have hinj : ∀ a < st.N, ∀ b < st.N, τ a = τ b → a = b := by
    intro a haN b hbN hab
    obtain ⟨q, -, hq⟩ := r1' (τ a) (hlt a haN)
    have e1 := hq (σ (p a).1, (p a).2) (hτe a haN)
    have e2 := hq (σ (p b).1, (p b).2) (by rw [hab]; exact hτe b hbN)
    obtain ⟨f1, f2⟩ := Prod.mk.inj (e1.trans e2.symm)
    have f3 := σ.injective f1
    have g1 := hp a haN
    rw [f3, f2, hp b hbN] at g1
    injection g1 with g1
    exact g1.symm
  have unknown : ∀ i < c.system.n, ∀ d, equationOf st'.nodes (σ i) d = (equationOf st.nodes i d).map τ := by
    intro i hi d
    cases hx : equationOf st.nodes i d with
    | none => exact (none_iff i hi d).mpr hx
    | some a =>
      have haN := (r2 _ _ _ hx).2
      have e := hpu a haN (i, d) hx
      have := hτe a haN
      rw [← e] at this
      exact this
  have hN : st'.N = st.N := by
    have := Finset.card_bij (s := range st.N) (t := range st'.N) (fun a _ => τ a) (fun a haN => mem_range.mpr (hlt a (mem_range.mp haN)))
      (fun a haN b hbN => hinj a (mem_range.mp haN) b (mem_range.mp hbN)) (fun b hb => by
        obtain ⟨⟨j, d⟩, hj, -⟩ := r1' b (mem_range.mp hb)
        have hj : equationOf st'.nodes j d = some b := hj
        obtain ⟨i, rfl⟩ := σ.surjective j
        have hi : i < c.system.n := (h.mesh i).mp (by rw [← h.size]; exact (r2' _ _ _ hj).1)
        rw [unknown i hi d] at hj
        cases hx : equationOf st.nodes i d with
        | none => rw [hx] at hj; cases hj
        | some a =>
          rw [hx, Option.map_some] at hj
          injection hj with hj
          exact ⟨a, mem_range.mpr (r2 _ _ _ hx).2, hj⟩)
    simpa using this.symm
  have hray : rayleighPair c'.system = rayleighPair c.system := by
    unfold rayleighPair
    rw [h.isRayleigh, h.ratio, h.w1, h.w2]
  have entries : ∀ a < st.N, ∀ b < st.N, st'.M (τ a) (τ b) = st.M a b ∧ st'.C (τ a) (τ b) = st.C a b ∧ st'.Kg (τ a) (τ b) = st.Kg a b := by
    intro a haN b hbN
    obtain ⟨k1, m1, c1, -, -⟩ := equations_work c hc st hst _ _ _ _ a b (hp a haN) (hp b hbN)
    obtain ⟨k2, m2, c2, -, -⟩ := equations_work c' hc' st' hst' _ _ _ _ _ _ (hτe a haN) (hτe b hbN)
    have em : st'.M (τ a) (τ b) = st.M a b := by
      rw [m1, m2]
      exact sameWork h AssemblyPart.mass (fun _ => rfl) (fun _ _ s => s.mass) _ _ _ _ (unitField_same _ _) (unitField_same _ _)
    have ek : st'.Kg (τ a) (τ b) = st.Kg a b := by
      rw [k1, k2]
      exact sameWork h AssemblyPart.stiffness (fun _ => rfl) (fun _ _ s => s.stiffness) _ _ _ _ (unitField_same _ _) (unitField_same _ _)
    refine ⟨em, ?_, ek⟩
    rw [c1, c2, em, ek, hray]
    rw [sameWork h AssemblyPart.damping (fun _ => rfl) (fun _ _ s => s.damping) _ _ _ _ (unitField_same _ _) (unitField_same _ _)]
  refine ⟨st, st', τ, hst, hst', ⟨hN, fun a haN => hN ▸ hlt a haN, hinj, ?_, fun a x b y => (entries a x b y).1,
    fun a x b y => (entries a x b y).2.1, fun a x b y => (entries a x b y).2.2, ?_⟩, ?_⟩
  · intro i hi d
    rw [nodeEquations_eq, nodeEquations_eq]
    exact unknown i hi d
  · intro a haN
    obtain ⟨-, -, -, f1, -⟩ := equations_work c hc st hst _ _ _ _ a a (hp a haN) (hp a haN)
    obtain ⟨-, -, -, f2, -⟩ := equations_work c' hc' st' hst' _ _ _ _ _ _ (hτe a haN) (hτe a haN)
    rw [f1, f2]
    refine sameLoadWork h.loads TimedLoad.initial (fun l => ⟨rfl, rfl⟩) (fun l l' hl => ?_) _ _ (unitField_same _ _)
    simp only [TimedLoad.initial, TimedLoad.object, LoadObject.initialize, hl.nodes, hl.source, List.length_map]
  · intro asked asked' t a haN
    obtain ⟨-, -, -, -, f1⟩ := equations_work c hc st hst _ _ _ _ a a (hp a haN) (hp a haN)
    obtain ⟨-, -, -, -, f2⟩ := equations_work c' hc' st' hst' _ _ _ _ _ _ (hτe a haN) (hτe a haN)
    rw [f1, f2]
    refine sameLoadWork h.loads (fun l => { nodes := l.nodes, act := l.act, force := (List.range l.nodes.length).map fun i => match l.source with | .table f => f i t | .moving f => f i t })
      (fun l => ⟨rfl, rfl⟩) (fun l l' hl => ?_) _ _ (unitField_same _ _)
    simp only [hl.nodes, hl.source, List.length_map]

end
end Rose
