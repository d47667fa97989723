/-
Properties of a whole initialised system: C106 the work identity from parts to equations, C107 and C108 repeated
initialisation.
-/
import Verif.Spec.Work
import Verif.Props.Assembly
import Verif.Props.Trim
import Verif.Props.System
import Verif.Props.Massless
import Verif.Lemmas.Beam

set_option linter.unusedSectionVars false

namespace Rose
open Finset

section
variable {K : Type*} [Field K] [LinearOrder K] [IsStrictOrderedRing K]

/-! ### C106: assembly -/

/-- The work `vᵀ g u` of an `N × N` matrix given by its entries. -/
def matrixWork (N : ℕ) (g : ℕ → ℕ → K) (v u : ℕ → K) : K :=
  ∑ i ∈ range N, ∑ j ∈ range N, v i * g i j * u j

def contributionWork (c : Contribution K) (v u : ℕ → K) : K :=
  ∑ p, ∑ q, elementDisplacement c v p * c.mat p q * elementDisplacement c u q

theorem share_work (N : ℕ) (c : Contribution K) (h : c.Numbered N) (v u : ℕ → K) :
    matrixWork N (elementShare c) v u = contributionWork c v u := by
  choose e he hd using h
  have h1 : ∀ i ∈ range N, ∀ j ∈ range N, v i * elementShare c i j * u j =
      ∑ p : Fin c.n, ∑ q : Fin c.n, if e p = i ∧ e q = j then v i * c.mat p q * u j else 0 := by
    intro i _ j _
    unfold elementShare
    rw [Finset.mul_sum, Finset.sum_mul]
    refine Finset.sum_congr rfl fun p _ => ?_
    rw [Finset.mul_sum, Finset.sum_mul]
    refine Finset.sum_congr rfl fun q _ => ?_
    simp only [hd, Option.some.injEq]
    split_ifs <;> simp
  unfold matrixWork contributionWork
  rw [Finset.sum_congr rfl fun i hi => Finset.sum_congr rfl fun j hj => h1 i hi j hj]
  have h2 : ∀ i, ∑ j ∈ range N, ∑ p : Fin c.n, ∑ q : Fin c.n,
      (if e p = i ∧ e q = j then v i * c.mat p q * u j else 0) =
      ∑ p : Fin c.n, ∑ q : Fin c.n, if e p = i then v i * c.mat p q * u (e q) else 0 := by
    intro i
    rw [Finset.sum_comm]
    refine Finset.sum_congr rfl fun p _ => ?_
    rw [Finset.sum_comm]
    refine Finset.sum_congr rfl fun q _ => ?_
    rw [Finset.sum_eq_single_of_mem (e q) (Finset.mem_range.mpr (he q))]
    · simp
    · intro b _ hb; rw [if_neg]; exact fun h => hb h.2.symm
  rw [Finset.sum_congr rfl fun i _ => h2 i, Finset.sum_comm]
  refine Finset.sum_congr rfl fun p _ => ?_
  rw [Finset.sum_comm]
  refine Finset.sum_congr rfl fun q _ => ?_
  rw [Finset.sum_eq_single_of_mem (e p) (Finset.mem_range.mpr (he p))]
  · simp [elementDisplacement, hd]
  · intro b _ hb; rw [if_neg]; exact fun h => hb h.symm

theorem matrixWork_add (N : ℕ) (g h : ℕ → ℕ → K) (v u : ℕ → K) :
    matrixWork N (fun i j => g i j + h i j) v u = matrixWork N g v u + matrixWork N h v u := by
  simp [matrixWork, mul_add, add_mul, Finset.sum_add_distrib]

theorem matrixWork_list (N : ℕ) (cs : List (Contribution K)) (h : ∀ c ∈ cs, c.Numbered N) (v u : ℕ → K) :
    matrixWork N (fun i j => (cs.map fun c => elementShare c i j).sum) v u =
      (cs.map fun c => contributionWork c v u).sum := by
  induction cs with
  | nil => simp [matrixWork]
  | cons c cs ih =>
    simp only [List.map_cons, List.sum_cons]
    rw [matrixWork_add, share_work N c (h c (List.mem_cons_self ..)),
      ih fun d hd => h d (List.mem_cons_of_mem _ hd)]

theorem addParts_work (N : ℕ) (parts : List (List (Contribution K))) (g' : ℕ → ℕ → K)
    (hn : ∀ p ∈ parts, ∀ c ∈ p, c.Numbered N) (h : addParts N (fun _ _ => 0) parts = .ok g') (v u : ℕ → K) :
    matrixWork N g' v u = (parts.flatten.map fun c => contributionWork c v u).sum := by
  have : matrixWork N g' v u =
      matrixWork N (fun i j => (parts.flatten.map fun c => elementShare c i j).sum) v u := by
    unfold matrixWork
    refine Finset.sum_congr rfl fun i hi => Finset.sum_congr rfl fun j hj => ?_
    rw [C06_all_parts N parts _ g' h (Finset.mem_range.mp hi) (Finset.mem_range.mp hj), zero_add]
  rw [this, matrixWork_list]
  intro c hc
  obtain ⟨p, hp, hc⟩ := List.mem_flatten.mp hc
  exact hn p hp c hc

/-! #### Local work of the embedded and rotated matrices -/

theorem dofRank_eq (act : Fin 3 → Bool) (k : Fin 3) :
    dofRank [act 0, act 1, act 2] k = Spec.activeBefore act k := by
  revert act k; unfold dofRank Spec.activeBefore; decide

theorem count_eq (act : Fin 3 → Bool) : [act 0, act 1, act 2].count true = Spec.activeCount act := by
  revert act; unfold Spec.activeCount; decide

theorem getD_act (act : Fin 3 → Bool) (k : Fin 3) : [act 0, act 1, act 2].getD k false = act k := by
  fin_cases k <;> rfl

theorem reshaped_apply (act : Fin 3 → Bool) (a : ℕ × ℕ → K) (m : ℕ) (i j : Fin m) (k l : Fin 3) :
    reshapeAux m [act 0, act 1, act 2] a (3 * i + k, 3 * j + l) =
      if act k = true ∧ act l = true then
        a (i * Spec.activeCount act + Spec.activeBefore act k, j * Spec.activeCount act + Spec.activeBefore act l)
      else 0 := by
  have h := C08_embedding m [act 0, act 1, act 2] a i.2 j.2 (k := k) (l := l) (by simp) (by simp)
  rw [getD_act, getD_act, dofRank_eq, dofRank_eq, count_eq] at h
  rw [← h]
  simp [mul_comm]

theorem sum_six (f : Fin 6 → K) :
    ∑ p, f p = ∑ i : Fin 2, ∑ k : Fin 3, f ⟨3 * i + k, by omega⟩ := by
  simp only [Fin.sum_univ_six, Fin.sum_univ_two, Fin.sum_univ_three]
  have : ∀ a b c d e g : K, a + b + c + d + e + g = a + b + c + (d + e + g) := by intros; ring
  rw [this]
  rfl

/-- The six values of a two node element. -/
def flatTwo (w : Fin 2 → Fin 3 → K) : Fin 6 → K := ![w 0 0, w 0 1, w 0 2, w 1 0, w 1 1, w 1 2]

theorem flatTwo_apply (w : Fin 2 → Fin 3 → K) (i : Fin 2) (k : Fin 3) (h : 3 * (i : ℕ) + k < 6) :
    flatTwo w ⟨3 * i + k, h⟩ = w i k := by
  fin_cases i <;> fin_cases k <;> rfl

theorem embedded_work_two (act : Fin 3 → Bool) (a : ℕ × ℕ → K) (w z : Fin 2 → Fin 3 → K) :
    ∑ p : Fin 6, ∑ q : Fin 6, flatTwo w p * reshapeAux 2 [act 0, act 1, act 2] a (p, q) * flatTwo z q =
      Spec.localWork 2 act a w z := by
  unfold Spec.localWork
  rw [sum_six]
  refine sum_congr rfl fun i _ => ?_
  rw [Finset.sum_congr rfl fun k _ => sum_six _, Finset.sum_comm]
  refine sum_congr rfl fun j _ => sum_congr rfl fun k _ => sum_congr rfl fun l _ => ?_
  simp only [flatTwo_apply]
  rw [reshaped_apply act a 2 i j k l]
  split_ifs <;> simp

theorem embedded_work_one (act : Fin 3 → Bool) (a : ℕ × ℕ → K) (w z : Fin 3 → K) :
    ∑ p : Fin 3, ∑ q : Fin 3, w p * reshapeAux 1 [act 0, act 1, act 2] a (p, q) * z q =
      Spec.localWork 1 act a (fun _ => w) (fun _ => z) := by
  unfold Spec.localWork
  simp only [Finset.univ_unique, Fin.default_eq_zero, sum_singleton]
  refine sum_congr rfl fun k _ => sum_congr rfl fun l _ => ?_
  have := reshaped_apply act a 1 0 0 k l
  simp only [Fin.coe_ofNat_eq_mod, Nat.zero_mod, mul_zero, zero_add, zero_mul] at this ⊢
  rw [this]
  split_ifs <;> simp

theorem rotated_work (c s : K) (A : Matrix (Fin 6) (Fin 6) K) (w z : Fin 6 → K) :
    ∑ p, ∑ q, w p * rotateAux c s A p q * z q =
      ∑ p, ∑ q, Spec.toGlobal c s w p * A p q * Spec.toGlobal c s z q := by
  have e : ∀ (B : Matrix (Fin 6) (Fin 6) K) (x y : Fin 6 → K),
      ∑ p, ∑ q, x p * B p q * y q = dotProduct x (B.mulVec y) := by
    intro B x y
    simp [dotProduct, Matrix.mulVec, Finset.mul_sum, mul_assoc]
  rw [e, e, rotateAux_mulVec, Matrix.dotProduct_mulVec, ← rotT_mulVec, ← rotT_mulVec, ← Matrix.mulVec_transpose]

/-! #### The numbered system -/

/-- The nodal field as a vector over the equations `3 i + d`. -/
def flatField (u : Spec.NodalField K) (o : ℕ) : K := u (o / 3) ⟨o % 3, Nat.mod_lt _ (by norm_num)⟩

theorem flatField_apply (u : Spec.NodalField K) (i : ℕ) (d : Fin 3) : flatField u (3 * i + d) = u i d := by
  unfold flatField
  have h1 : (3 * i + (d : ℕ)) / 3 = i := by omega
  have h2 : (3 * i + (d : ℕ)) % 3 = d := by omega
  simp only [h1, h2]

/-- `index_dof` after numbering `n` nodes. -/
def sequentialEquations (n i : ℕ) (d : Fin 3) : Option ℕ := if i < n then some (3 * i + d) else none

theorem nodeEquations_fresh (n : ℕ) (flags : ℕ → Fin 3 → Bool) :
    nodeEquations (initialiseNdof ((List.range n).map fun i => (⟨fun _ => none, flags i⟩ : DofNode))).1 =
      sequentialEquations n := by
  funext i d
  unfold sequentialEquations
  by_cases hi : i < n
  · have h := C05_closed_form ((List.range n).map fun i => (⟨fun _ => none, flags i⟩ : DofNode)) i (by simpa) d
    rw [if_pos hi, ← h]
    unfold nodeEquations equationOf
    cases (initialiseNdof ((List.range n).map fun i => (⟨fun _ => none, flags i⟩ : DofNode))).1[i]? <;> rfl
  · rw [if_neg hi]
    unfold nodeEquations
    rw [List.getElem?_eq_none]
    · rfl
    · simp [initialiseNdof, initialiseNdofFrom_length]; omega

/-- The nodes before trimming. -/
def numberedNodes (n : ℕ) (flags : ℕ → Fin 3 → Bool) : List DofNode :=
  (List.range n).map fun i => (⟨sequentialEquations n i, flags i⟩ : DofNode)

theorem numberedNodes_equation (n : ℕ) (flags : ℕ → Fin 3 → Bool) (i : ℕ) (d : Fin 3) :
    equationOf (numberedNodes n flags) i d = sequentialEquations n i d := by
  unfold equationOf numberedNodes sequentialEquations
  by_cases hi : i < n
  · simp [hi]
  · simp [hi]

theorem initialiseNdofFrom_seq (n : ℕ) (flags : ℕ → Fin 3 → Bool) :
    flatIdx (numberedNodes n flags) =
      flatIdx (initialiseNdof ((List.range n).map fun i => (⟨fun _ => none, flags i⟩ : DofNode))).1 := by
  apply List.ext_getElem?
  intro o
  have ho : 3 * (o / 3) + ((⟨o % 3, Nat.mod_lt _ (by norm_num)⟩ : Fin 3) : ℕ) = o := Nat.div_add_mod o 3
  rw [← ho, flatIdx_get, flatIdx_get]
  set i := o / 3
  set d : Fin 3 := ⟨o % 3, Nat.mod_lt _ (by norm_num)⟩
  by_cases hi : i < n
  · have h := C05_closed_form ((List.range n).map fun i => (⟨fun _ => none, flags i⟩ : DofNode)) i (by simpa) d
    unfold equationOf at h
    have h2 := numberedNodes_equation n flags i d
    unfold equationOf sequentialEquations at h2
    rw [if_pos hi, ← h] at h2
    have e1 : i < (numberedNodes n flags).length := by simp [numberedNodes, hi]
    have e2 : i < (initialiseNdof ((List.range n).map fun i => (⟨fun _ => none, flags i⟩ : DofNode))).1.length := by
      simp [initialiseNdof, initialiseNdofFrom_length, hi]
    rw [List.getElem?_eq_getElem e1, List.getElem?_eq_getElem e2] at *
    simpa using h2
  · rw [List.getElem?_eq_none (by simp [numberedNodes]; omega), List.getElem?_eq_none (by
      simp [initialiseNdof, initialiseNdofFrom_length]; omega)]

theorem numberedNodes_ordered (n : ℕ) (flags : ℕ → Fin 3 → Bool) :
    OrderedNumbering (numberedNodes n flags) (3 * n) := by
  have h := C09_numbering_ordered ((List.range n).map fun i => (⟨fun _ => none, flags i⟩ : DofNode))
  unfold OrderedNumbering at h ⊢
  rw [initialiseNdofFrom_seq]
  rw [h]
  simp [initialiseNdof]

/-- The system before trimming, from its assembled matrices. -/
def SystemInput.untrimmed (inp : SystemInput K) (flags : ℕ → Fin 3 → Bool) (stiff mass damp : ℕ → ℕ → K) : TrimState K :=
  { nodes := numberedNodes inp.n (setConstraints flags inp.constraints), N := 3 * inp.n, M := mass, C := damp, Kg := stiff,
    F := timeStepRhs (inp.loads.map (NodalLoad.numbered (sequentialEquations inp.n))) }

theorem initialise_eq (inp : SystemInput K) (flags : ℕ → Fin 3 → Bool) :
    inp.initialise flags = (do
      let stiff ← addParts (3 * inp.n) (fun _ _ => 0)
        (allContributions (sequentialEquations inp.n) AssemblyPart.stiffness inp.parts)
      let mass ← addParts (3 * inp.n) (fun _ _ => 0)
        (allContributions (sequentialEquations inp.n) AssemblyPart.mass inp.parts)
      let damp ← addParts (3 * inp.n) (fun _ _ => 0)
        (allContributions (sequentialEquations inp.n) AssemblyPart.damping inp.parts)
      .ok (inp.damped (trimAll (inp.untrimmed flags stiff mass damp)))) := by
  unfold SystemInput.initialise
  simp only [nodeEquations_fresh]
  have : (initialiseNdof ((List.range inp.n).map fun i => (⟨fun _ => none, flags i⟩ : DofNode))).2 = 3 * inp.n := by
    simp [initialiseNdof]
  rw [this]
  rfl

theorem initialise_ok (inp : SystemInput K) (flags : ℕ → Fin 3 → Bool) (st : TrimState K)
    (h : inp.initialise flags = .ok st) :
    ∃ stiff mass damp, addParts (3 * inp.n) (fun _ _ => 0)
        (allContributions (sequentialEquations inp.n) AssemblyPart.stiffness inp.parts) = .ok stiff ∧
      addParts (3 * inp.n) (fun _ _ => 0)
        (allContributions (sequentialEquations inp.n) AssemblyPart.mass inp.parts) = .ok mass ∧
      addParts (3 * inp.n) (fun _ _ => 0)
        (allContributions (sequentialEquations inp.n) AssemblyPart.damping inp.parts) = .ok damp ∧
      st = inp.damped (trimAll (inp.untrimmed flags stiff mass damp)) := by
  rw [initialise_eq] at h
  cases h1 : addParts (3 * inp.n) (fun _ _ => 0)
        (allContributions (sequentialEquations inp.n) AssemblyPart.stiffness inp.parts) with
  | error e => rw [h1] at h; cases h
  | ok stiff =>
    cases h2 : addParts (3 * inp.n) (fun _ _ => 0)
          (allContributions (sequentialEquations inp.n) AssemblyPart.mass inp.parts) with
    | error e => rw [h1, h2] at h; cases h
    | ok mass =>
      cases h3 : addParts (3 * inp.n) (fun _ _ => 0)
            (allContributions (sequentialEquations inp.n) AssemblyPart.damping inp.parts) with
      | error e => rw [h1, h2, h3] at h; cases h
      | ok damp =>
        rw [h1, h2, h3] at h
        injection h with h
        exact ⟨stiff, mass, damp, rfl, rfl, rfl, h.symm⟩

theorem contributions_numbered (inp : SystemInput K) (hm : Spec.NodesInMesh inp)
    (matrix : AssemblyPart K → Option (ℕ × ℕ → K)) :
    ∀ q ∈ allContributions (sequentialEquations inp.n) matrix inp.parts, ∀ c ∈ q, c.Numbered (3 * inp.n) := by
  intro q hq c hc
  simp only [allContributions, List.mem_filterMap, Option.map_eq_some_iff] at hq
  obtain ⟨p, hp, a, -, rfl⟩ := hq
  obtain ⟨h1, h2⟩ := hm p hp
  unfold AssemblyPart.contributions at hc
  split_ifs at hc with hl
  · rw [List.mem_map] at hc
    obtain ⟨e, he, rfl⟩ := hc
    obtain ⟨ha, hb⟩ := h1 e he
    intro i
    have hs : ∀ m < inp.n, ∀ d : Fin 3, sequentialEquations inp.n m d = some (3 * m + (d : ℕ)) ∧
        3 * m + (d : ℕ) < 3 * inp.n := by
      intro m hm d
      exact ⟨by simp [sequentialEquations, hm], by omega⟩
    change Fin 6 at i
    fin_cases i
    · exact ⟨_, (hs _ ha 0).2, (hs _ ha 0).1⟩
    · exact ⟨_, (hs _ ha 1).2, (hs _ ha 1).1⟩
    · exact ⟨_, (hs _ ha 2).2, (hs _ ha 2).1⟩
    · exact ⟨_, (hs _ hb 0).2, (hs _ hb 0).1⟩
    · exact ⟨_, (hs _ hb 1).2, (hs _ hb 1).1⟩
    · exact ⟨_, (hs _ hb 2).2, (hs _ hb 2).1⟩
  · rw [List.mem_map] at hc
    obtain ⟨m, hmm, rfl⟩ := hc
    have hmn := h2 m hmm
    intro i
    change Fin 3 at i
    refine ⟨3 * m + i, by omega, ?_⟩
    fin_cases i <;> simp [sequentialEquations, hmn]

/-- C106: initialisation succeeds if the parts only use nodes of the mesh. -/
theorem C106_succeeds (inp : SystemInput K) (hm : Spec.NodesInMesh inp) (flags : ℕ → Fin 3 → Bool) :
    ∃ st, inp.initialise flags = .ok st := by
  obtain ⟨a, ha⟩ := C06_all_succeed _ _ (fun _ _ => 0) (contributions_numbered inp hm AssemblyPart.stiffness)
  obtain ⟨b, hb⟩ := C06_all_succeed _ _ (fun _ _ => 0) (contributions_numbered inp hm AssemblyPart.mass)
  obtain ⟨c, hc⟩ := C06_all_succeed _ _ (fun _ _ => 0) (contributions_numbered inp hm AssemblyPart.damping)
  refine ⟨inp.damped (trimAll (inp.untrimmed flags a b c)), ?_⟩
  rw [initialise_eq, ha, hb, hc]
  rfl

/-- The same structure with all elements mirrored in the x axis. -/
def AssemblyPart.mirrored (p : AssemblyPart K) : AssemblyPart K :=
  { p with elements := p.elements.map fun e => (e.1, (e.2.1, -e.2.2)) }

theorem contribution_work_part (n : ℕ) (p : AssemblyPart K) (a : ℕ × ℕ → K) (v u : Spec.NodalField K)
    (h1 : ∀ e ∈ p.elements, e.1.1 < n ∧ e.1.2 < n) (h2 : ∀ m ∈ p.nodes, m < n) :
    ((p.contributions (sequentialEquations n) a).map fun c => contributionWork c (flatField v) (flatField u)).sum =
      Spec.partWork p.mirrored a v u := by
  have hseq : ∀ m < n, ∀ (w : Spec.NodalField K) (d : Fin 3),
      ((sequentialEquations n m d).map (flatField w)).getD 0 = w m d := by
    intro m hm w d
    simp [sequentialEquations, hm, flatField_apply]
  unfold AssemblyPart.contributions Spec.partWork AssemblyPart.mirrored
  by_cases hl : p.elements = []
  · simp only [hl, List.length_nil, gt_iff_lt, lt_self_iff_false, if_false, List.map_nil, if_true, List.map_map]
    congr 1
    apply List.map_congr_left
    intro m hm
    have hmn := h2 m hm
    simp only [Function.comp, contributionWork]
    rw [← embedded_work_one]
    refine sum_congr rfl fun k _ => sum_congr rfl fun l _ => ?_
    have e : ∀ (w : Spec.NodalField K) (k : Fin 3), elementDisplacement
        ({ n := 3, dofs := ![sequentialEquations n m 0, sequentialEquations n m 1, sequentialEquations n m 2],
           mat := Matrix.of fun i j => p.reshaped a (i, j) } : Contribution K) (flatField w) k = w m k := by
      intro w k
      have h := hseq m hmn w k
      unfold elementDisplacement
      fin_cases k <;> exact h
    refine congrArg₂ (· * ·) (congrArg₂ (· * ·) (e v k) ?_) (e u l)
    simp [AssemblyPart.reshaped, hl]
  · have hpos : p.elements.length > 0 := List.length_pos_iff.mpr hl
    have hne : (p.elements.map fun e => (e.1, (e.2.1, -e.2.2))) ≠ [] := by simpa using hl
    simp only [hpos, if_true, hne, if_false, List.map_map]
    congr 1
    apply List.map_congr_left
    intro e he
    obtain ⟨ha, hb⟩ := h1 e he
    simp only [Function.comp, contributionWork]
    rw [← embedded_work_two]
    have e6 : ∀ (w : Spec.NodalField K), (fun k => elementDisplacement
        ({ n := 6
           dofs := ![sequentialEquations n e.1.1 0, sequentialEquations n e.1.1 1, sequentialEquations n e.1.1 2,
             sequentialEquations n e.1.2 0, sequentialEquations n e.1.2 1, sequentialEquations n e.1.2 2]
           mat := rotateAux e.2.1 e.2.2 (Matrix.of fun i j => p.reshaped a (i, j)) } : Contribution K)
          (flatField w) k) = ![w e.1.1 0, w e.1.1 1, w e.1.1 2, w e.1.2 0, w e.1.2 1, w e.1.2 2] := by
      intro w
      funext k
      change Fin 6 at k
      unfold elementDisplacement
      fin_cases k
      · exact hseq _ ha w 0
      · exact hseq _ ha w 1
      · exact hseq _ ha w 2
      · exact hseq _ hb w 0
      · exact hseq _ hb w 1
      · exact hseq _ hb w 2
    have hl2 : ∀ w : Spec.NodalField K, flatTwo (Spec.inElementAxes e.2.1 (-e.2.2) w e.1) =
        Spec.toGlobal e.2.1 e.2.2 ![w e.1.1 0, w e.1.1 1, w e.1.1 2, w e.1.2 0, w e.1.2 1, w e.1.2 2] := by
      intro w
      funext k
      fin_cases k <;> simp [flatTwo, Spec.inElementAxes, Spec.toGlobal] <;> ring
    rw [hl2, hl2]
    have hr := rotated_work e.2.1 e.2.2 (Matrix.of fun i j : Fin 6 => p.reshaped a (i, j))
      ![v e.1.1 0, v e.1.1 1, v e.1.1 2, v e.1.2 0, v e.1.2 1, v e.1.2 2]
      ![u e.1.1 0, u e.1.1 1, u e.1.1 2, u e.1.2 0, u e.1.2 1, u e.1.2 2]
    have hres : p.reshaped a = reshapeAux 2 [p.act 0, p.act 1, p.act 2] a := by
      simp [AssemblyPart.reshaped, hpos]
    rw [hres] at hr
    refine Eq.trans ?_ hr
    refine sum_congr rfl fun k _ => sum_congr rfl fun l _ => ?_
    refine congrArg₂ (· * ·) (congrArg₂ (· * ·) (congrFun (e6 v) k) ?_) (congrFun (e6 u) l)
    rw [hres]

theorem assembled_work (inp : SystemInput K) (hm : Spec.NodesInMesh inp) (matrix : AssemblyPart K → Option (ℕ × ℕ → K))
    (hmat : ∀ p, matrix (AssemblyPart.mirrored p) = matrix p) (g : ℕ → ℕ → K)
    (h : addParts (3 * inp.n) (fun _ _ => 0) (allContributions (sequentialEquations inp.n) matrix inp.parts) = .ok g)
    (v u : Spec.NodalField K) :
    matrixWork (3 * inp.n) g (flatField v) (flatField u) =
      Spec.systemWork matrix (inp.parts.map AssemblyPart.mirrored) v u := by
  rw [addParts_work _ _ g (contributions_numbered inp hm matrix) h]
  unfold Spec.systemWork allContributions
  rw [List.map_map]
  unfold Spec.NodesInMesh at hm
  clear h
  revert hm
  induction inp.parts with
  | nil => intro _; rfl
  | cons p ps ih =>
    intro hm
    obtain ⟨h1, h2⟩ := hm p (List.mem_cons_self ..)
    rw [List.filterMap_cons, List.map_cons, List.sum_cons, ← ih (fun q hq => hm q (List.mem_cons_of_mem _ hq))]
    simp only [Function.comp, hmat]
    cases hp : matrix p with
    | none => simp
    | some a =>
      simp only [Option.map_some, List.flatten_cons, List.map_append, List.sum_append]
      rw [contribution_work_part inp.n p a v u h1 h2]

/-! #### Trimming -/

/-- The vector `U` over the equations holds the nodal values of the field `u`, and `u` is zero at the dofs that have no
equation. -/
structure RepresentsField (n : ℕ) (nodes : List DofNode) (U : ℕ → K) (u : Spec.NodalField K) : Prop where
  value : ∀ i d k, equationOf nodes i d = some k → U k = u i d
  removed : ∀ i < n, ∀ d, equationOf nodes i d = none → u i d = 0

theorem trim_sum (st : TrimState K) (h : OrderedNumbering st.nodes st.N) (f : ℕ → K)
    (hf : ∀ o < st.N, Obsolete st o → f o = 0) :
    ∑ k ∈ range (trimAll st).N, f ((keptIndices st.N (obsoleteIndices st.N st.nodes st.M st.Kg)).getD k 0) =
      ∑ o ∈ range st.N, f o := by
  set rem := obsoleteIndices st.N st.nodes st.M st.Kg with hrem
  have hN : (trimAll st).N = (keptIndices st.N rem).length := by
    have t2 : (trimAll st).N = 0 + keptCount rem (flatIdx st.nodes) := (recalcNodes_flat rem 0 st.nodes).2.1
    rw [t2, keptCount, keptIndices_eq st le_rfl h rem fun o h1 h2 => by omega]
    simp
  rw [hN]
  refine (sum_kept st.N rem f).trans ?_
  rw [sub_eq_self]
  apply Finset.sum_eq_zero
  intro o ho
  rw [Finset.mem_filter, Finset.mem_range] at ho
  exact hf o ho.1 ((mem_obsoleteIndices st o).1 ho.2)

theorem flat_old (st : TrimState K) (n : ℕ) (flags : ℕ → Fin 3 → Bool) (hn : st.nodes = numberedNodes n flags)
    (hN : st.N = 3 * n) (U : ℕ → K) (u : Spec.NodalField K) (hu : RepresentsField n (trimAll st).nodes U u) :
    (∀ k < (trimAll st).N,
      U k = flatField u ((keptIndices st.N (obsoleteIndices st.N st.nodes st.M st.Kg)).getD k 0)) ∧
    ∀ o < st.N, Obsolete st o → flatField u o = 0 := by
  have hord : OrderedNumbering st.nodes st.N := by rw [hn, hN]; exact numberedNodes_ordered n flags
  constructor
  · intro k hk
    obtain ⟨p, hp, -⟩ := C09_bijection st k hk
    obtain ⟨o, b1, -, -, b4⟩ := trim_old st le_rfl hord (fun o h1 h2 => by omega) p.1 p.2 k hp
    rw [b4, hu.value p.1 p.2 k hp]
    rw [hn, numberedNodes_equation, sequentialEquations] at b1
    split_ifs at b1 with hlt
    injection b1 with b1
    rw [← b1, flatField_apply]
  · intro o ho hob
    have hlt : o / 3 < n := by omega
    have he : equationOf st.nodes (o / 3) ⟨o % 3, Nat.mod_lt _ (by norm_num)⟩ = some o := by
      rw [hn, numberedNodes_equation, sequentialEquations, if_pos hlt]
      simp only [Nat.div_add_mod]
    exact hu.removed _ hlt _ ((C09_removed st he).1.mpr hob)

theorem trim_work (st : TrimState K) (n : ℕ) (flags : ℕ → Fin 3 → Bool) (hn : st.nodes = numberedNodes n flags)
    (hN : st.N = 3 * n) (V U : ℕ → K) (v u : Spec.NodalField K) (hv : RepresentsField n (trimAll st).nodes V v)
    (hu : RepresentsField n (trimAll st).nodes U u) (g : ℕ → ℕ → K) :
    matrixWork (trimAll st).N (deleteRowsCols st.N (obsoleteIndices st.N st.nodes st.M st.Kg) g) V U =
      matrixWork st.N g (flatField v) (flatField u) := by
  have hord : OrderedNumbering st.nodes st.N := by rw [hn, hN]; exact numberedNodes_ordered n flags
  obtain ⟨v1, v2⟩ := flat_old st n flags hn hN V v hv
  obtain ⟨u1, u2⟩ := flat_old st n flags hn hN U u hu
  unfold matrixWork
  rw [← trim_sum st hord (fun i => ∑ j ∈ range st.N, flatField v i * g i j * flatField u j)]
  · refine sum_congr rfl fun k hk => ?_
    rw [Finset.mem_range] at hk
    rw [v1 k hk]
    rw [← trim_sum st hord (fun j => flatField v _ * g _ j * flatField u j)]
    · refine sum_congr rfl fun l hl => ?_
      rw [Finset.mem_range] at hl
      rw [u1 l hl]
      rfl
    · intro o ho hob
      rw [u2 o ho hob, mul_zero]
  · intro o ho hob
    apply Finset.sum_eq_zero
    intro j _
    rw [v2 o ho hob]
    simp

theorem trim_force_work (st : TrimState K) (n : ℕ) (flags : ℕ → Fin 3 → Bool) (hn : st.nodes = numberedNodes n flags)
    (hN : st.N = 3 * n) (V : ℕ → K) (v : Spec.NodalField K) (hv : RepresentsField n (trimAll st).nodes V v) :
    ∑ k ∈ range (trimAll st).N, V k * (trimAll st).F k = ∑ o ∈ range st.N, flatField v o * st.F o := by
  have hord : OrderedNumbering st.nodes st.N := by rw [hn, hN]; exact numberedNodes_ordered n flags
  obtain ⟨v1, v2⟩ := flat_old st n flags hn hN V v hv
  rw [← trim_sum st hord (fun o => flatField v o * st.F o)]
  · refine sum_congr rfl fun k hk => ?_
    rw [Finset.mem_range] at hk
    rw [v1 k hk]
    rfl
  · intro o ho hob
    rw [v2 o ho hob, zero_mul]

/-! #### Loads -/

theorem load_distinct (n : ℕ) (l : NodalLoad K) (h : l.nodes.Nodup) :
    DistinctDofs (l.numbered (sequentialEquations n)) := by
  intro i hi j hj d d' e _ _ h1 h2
  simp only [NodalLoad.numbered, List.length_map] at hi hj
  have g : ∀ k (hk : k < l.nodes.length) (d : Fin 3),
      ((l.numbered (sequentialEquations n)).nodes.getD k fun _ => none) d = sequentialEquations n l.nodes[k] d := by
    intro k hk d
    simp [NodalLoad.numbered, List.getD_eq_getElem?_getD, hk]
  rw [g i hi] at h1
  rw [g j hj] at h2
  unfold sequentialEquations at h1 h2
  split_ifs at h1 h2
  injection h1 with h1
  injection h2 with h2
  have hd := d.2
  have hd' := d'.2
  have e1 : l.nodes[i] = l.nodes[j] := by omega
  exact ⟨(List.Nodup.getElem_inj_iff h).mp e1, Fin.ext (by omega)⟩

theorem load_work (n : ℕ) (loads : List (NodalLoad K)) (hnd : ∀ l ∈ loads, l.nodes.Nodup)
    (hin : ∀ l ∈ loads, ∀ m ∈ l.nodes, m < n) (v : Spec.NodalField K) :
    ∑ o ∈ range (3 * n), flatField v o * timeStepRhs (loads.map (NodalLoad.numbered (sequentialEquations n))) o =
      Spec.loadWork loads v := by
  have h1 : ∀ o, timeStepRhs (loads.map (NodalLoad.numbered (sequentialEquations n))) o =
      (loads.map fun l => conditionForce (l.numbered (sequentialEquations n)) o).sum := by
    intro o
    rw [C15_superposition_partial, List.map_map]
    · rfl
    · intro c hc
      rw [List.mem_map] at hc
      obtain ⟨l, hl, rfl⟩ := hc
      exact load_distinct n l (hnd l hl)
  simp only [h1]
  unfold Spec.loadWork
  clear h1
  induction loads with
  | nil => simp
  | cons l ls ih =>
    simp only [List.map_cons, List.sum_cons, mul_add, Finset.sum_add_distrib]
    rw [ih (fun x hx => hnd x (List.mem_cons_of_mem _ hx)) (fun x hx => hin x (List.mem_cons_of_mem _ hx))]
    congr 1
    unfold conditionForce
    simp only [NodalLoad.numbered, List.length_map, Finset.mul_sum]
    rw [Finset.sum_comm]
    refine sum_congr rfl fun j hj => ?_
    rw [Finset.sum_comm]
    refine sum_congr rfl fun d _ => ?_
    rw [Finset.mem_range] at hj
    have hm : l.nodes[j] < n := hin l (List.mem_cons_self ..) _ (List.getElem_mem hj)
    have e1 : (((l.nodes.map (sequentialEquations n)).getD j fun _ => none) d) = some (3 * l.nodes[j] + (d : ℕ)) := by
      simp [List.getD_eq_getElem?_getD, hj, sequentialEquations, hm]
    have e2 : l.nodes.getD j 0 = l.nodes[j] := by simp [List.getD_eq_getElem?_getD, hj]
    simp only [e1, e2]
    by_cases ha : l.act d = true
    · rw [Finset.sum_eq_single_of_mem (3 * l.nodes[j] + (d : ℕ)) (by rw [Finset.mem_range]; omega)]
      · simp [ha, flatField_apply]
      · intro b _ hb
        rw [if_neg, mul_zero]
        rintro ⟨-, h⟩
        injection h with h
        exact hb h.symm
    · simp [ha]

/-! #### The theorems -/

theorem damped_nodes (inp : SystemInput K) (st : TrimState K) :
    (inp.damped st).nodes = st.nodes ∧ (inp.damped st).N = st.N ∧ (inp.damped st).M = st.M ∧
      (inp.damped st).Kg = st.Kg ∧ (inp.damped st).F = st.F := by
  unfold SystemInput.damped
  split_ifs <;> simp

/-- The Rayleigh coefficients of the mass and of the stiffness; zero if Rayleigh damping is off. -/
def rayleighPair (inp : SystemInput K) : K × K :=
  if inp.isRayleigh then (2 * inp.ratio * inp.w1 * inp.w2 / (inp.w1 + inp.w2), 2 * inp.ratio / (inp.w1 + inp.w2))
  else (0, 0)

/-- C106 for every structure, as the code computes it: stiffness, mass, damping and force of the initialised system do the
work of all parts, where the elements are mirrored in the x axis (the sense of rotation of C24). -/
theorem C106_work_mirrored (inp : SystemInput K) (flags : ℕ → Fin 3 → Bool) (hm : Spec.NodesInMesh inp)
    (st : TrimState K) (h : inp.initialise flags = .ok st) (V U : ℕ → K) (v u : Spec.NodalField K)
    (hv : RepresentsField inp.n st.nodes V v) (hu : RepresentsField inp.n st.nodes U u) :
    matrixWork st.N st.Kg V U = Spec.systemWork AssemblyPart.stiffness (inp.parts.map AssemblyPart.mirrored) v u ∧
    matrixWork st.N st.M V U = Spec.systemWork AssemblyPart.mass (inp.parts.map AssemblyPart.mirrored) v u ∧
    matrixWork st.N st.C V U = Spec.systemWork AssemblyPart.damping (inp.parts.map AssemblyPart.mirrored) v u +
      (rayleighPair inp).1 * matrixWork st.N st.M V U + (rayleighPair inp).2 * matrixWork st.N st.Kg V U := by
  obtain ⟨stiff, mass, damp, a1, a2, a3, rfl⟩ := initialise_ok inp flags st h
  obtain ⟨d1, d2, d3, d4, d5⟩ := damped_nodes inp (trimAll (inp.untrimmed flags stiff mass damp))
  rw [d1] at hv hu
  rw [d2, d3, d4]
  have tw := trim_work (inp.untrimmed flags stiff mass damp) inp.n _ rfl rfl V U v u hv hu
  have tK : matrixWork (trimAll (inp.untrimmed flags stiff mass damp)).N
      (trimAll (inp.untrimmed flags stiff mass damp)).Kg V U =
        Spec.systemWork AssemblyPart.stiffness (inp.parts.map AssemblyPart.mirrored) v u :=
    (tw stiff).trans (assembled_work inp hm AssemblyPart.stiffness (fun _ => rfl) stiff a1 v u)
  have tM : matrixWork (trimAll (inp.untrimmed flags stiff mass damp)).N
      (trimAll (inp.untrimmed flags stiff mass damp)).M V U =
        Spec.systemWork AssemblyPart.mass (inp.parts.map AssemblyPart.mirrored) v u :=
    (tw mass).trans (assembled_work inp hm AssemblyPart.mass (fun _ => rfl) mass a2 v u)
  have tC : matrixWork (trimAll (inp.untrimmed flags stiff mass damp)).N
      (trimAll (inp.untrimmed flags stiff mass damp)).C V U =
        Spec.systemWork AssemblyPart.damping (inp.parts.map AssemblyPart.mirrored) v u :=
    (tw damp).trans (assembled_work inp hm AssemblyPart.damping (fun _ => rfl) damp a3 v u)
  refine ⟨tK, tM, ?_⟩
  rw [← tC]
  unfold SystemInput.damped rayleighPair rayleighFactors
  split_ifs with hr
  · simp only [matrixWork, Finset.mul_sum, ← Finset.sum_add_distrib]
    refine sum_congr rfl fun i _ => sum_congr rfl fun j _ => ?_
    ring
  · simp

theorem mirrored_aligned (p : AssemblyPart K) (a : ℕ × ℕ → K)
    (h : ∀ e ∈ p.elements, e.2.2 = 0 ∨ (e.2.1 = 0 ∧ p.act 1 = false ∧ p.act 2 = false)) (v u : Spec.NodalField K) :
    Spec.partWork p.mirrored a v u = Spec.partWork p a v u := by
  unfold Spec.partWork AssemblyPart.mirrored
  by_cases hl : p.elements = []
  · simp [hl]
  · simp only [List.map_eq_nil_iff, hl, if_false, List.map_map]
    congr 1
    apply List.map_congr_left
    intro e he
    simp only [Function.comp]
    rcases h e he with h0 | ⟨h0, h1, h2⟩
    · rw [h0, neg_zero]
    · unfold Spec.localWork Spec.inElementAxes
      refine sum_congr rfl fun i _ => sum_congr rfl fun j _ => sum_congr rfl fun k _ => sum_congr rfl fun l _ => ?_
      by_cases hk : p.act k = true ∧ p.act l = true
      · have e0 : k = 0 ∧ l = 0 := by
          constructor
          · have := hk.1; fin_cases k <;> simp_all
          · have := hk.2; fin_cases l <;> simp_all
        obtain ⟨rfl, rfl⟩ := e0
        rw [if_pos hk, if_pos hk]
        simp only [h0, Matrix.cons_val_zero]
        ring
      · simp [hk]

theorem systemWork_aligned (inp : SystemInput K) (ha : Spec.AxisAligned inp)
    (matrix : AssemblyPart K → Option (ℕ × ℕ → K)) (hmat : ∀ p, matrix (AssemblyPart.mirrored p) = matrix p)
    (v u : Spec.NodalField K) :
    Spec.systemWork matrix (inp.parts.map AssemblyPart.mirrored) v u = Spec.systemWork matrix inp.parts v u := by
  unfold Spec.systemWork
  rw [List.map_map]
  congr 1
  apply List.map_congr_left
  intro p hp
  simp only [Function.comp, hmat]
  cases matrix p with
  | none => rfl
  | some a => exact mirrored_aligned p a (ha p hp) v u

/-- C106, as far as it holds: for a structure of horizontal elements and vertical rods, and all displacement fields that
are zero at the dofs without an equation, the stiffness, mass and damping matrices of the initialised system do the work of
all parts of the structure (plus the Rayleigh share of mass and stiffness). Missing: inclined elements and vertical
beams, `C106_violated`; what holds for them is `C106_work_mirrored`. -/
theorem C106_work_partial (inp : SystemInput K) (flags : ℕ → Fin 3 → Bool) (hm : Spec.NodesInMesh inp)
    (ha : Spec.AxisAligned inp) (st : TrimState K) (h : inp.initialise flags = .ok st) (V U : ℕ → K)
    (v u : Spec.NodalField K) (hv : RepresentsField inp.n st.nodes V v) (hu : RepresentsField inp.n st.nodes U u) :
    matrixWork st.N st.Kg V U = Spec.systemWork AssemblyPart.stiffness inp.parts v u ∧
    matrixWork st.N st.M V U = Spec.systemWork AssemblyPart.mass inp.parts v u ∧
    matrixWork st.N st.C V U = Spec.systemWork AssemblyPart.damping inp.parts v u +
      (rayleighPair inp).1 * matrixWork st.N st.M V U + (rayleighPair inp).2 * matrixWork st.N st.Kg V U := by
  have := C106_work_mirrored inp flags hm st h V U v u hv hu
  rwa [systemWork_aligned inp ha _ (fun _ => rfl), systemWork_aligned inp ha _ (fun _ => rfl),
    systemWork_aligned inp ha _ (fun _ => rfl)] at this

/-- C106, loads: the force vector of the initialised system does the work of the nodal forces of all load conditions, if
no condition lists a node twice (see C15). -/
theorem C106_load_partial (inp : SystemInput K) (flags : ℕ → Fin 3 → Bool) (st : TrimState K)
    (h : inp.initialise flags = .ok st) (hnd : ∀ l ∈ inp.loads, l.nodes.Nodup)
    (hin : ∀ l ∈ inp.loads, ∀ m ∈ l.nodes, m < inp.n) (V : ℕ → K) (v : Spec.NodalField K)
    (hv : RepresentsField inp.n st.nodes V v) :
    ∑ k ∈ range st.N, V k * st.F k = Spec.loadWork inp.loads v := by
  obtain ⟨stiff, mass, damp, a1, a2, a3, rfl⟩ := initialise_ok inp flags st h
  obtain ⟨d1, d2, d3, d4, d5⟩ := damped_nodes inp (trimAll (inp.untrimmed flags stiff mass damp))
  rw [d1] at hv
  rw [d2, d5, trim_force_work (inp.untrimmed flags stiff mass damp) inp.n _ rfl rfl V v hv, ← load_work inp.n inp.loads hnd hin v]
  rfl

theorem supported_iff (ps : List ConstraintPart) (i : ℕ) (d : Fin 3) :
    setConstraints freshFlags ps i d = false ↔ Spec.Supported ps i d := by
  constructor
  · intro h
    by_cases hex : ∃ q ∈ ps, i ∈ q.nodes
    · obtain ⟨before, p, after, hp, hi, hafter⟩ :
          ∃ before p after, ps = before ++ p :: after ∧ i ∈ p.nodes ∧ ∀ q ∈ after, i ∉ q.nodes := by
        clear h
        induction ps with
        | nil => simp at hex
        | cons q qs ih =>
          by_cases hq : ∃ r ∈ qs, i ∈ r.nodes
          · obtain ⟨b, p, a, rfl, h1, h2⟩ := ih hq
            exact ⟨q :: b, p, a, rfl, h1, h2⟩
          · push Not at hq
            obtain ⟨r, hr, hir⟩ := hex
            rcases List.mem_cons.mp hr with rfl | hr
            · exact ⟨[], r, qs, rfl, hir, hq⟩
            · exact absurd hir (hq r hr)
      subst hp
      rw [C10_last_wins _ _ _ _ _ hi hafter] at h
      exact ⟨before, p, after, rfl, hi, hafter, h⟩
    · push Not at hex
      rw [C10_untouched _ _ _ hex] at h
      simp [freshFlags] at h
  · rintro ⟨before, p, after, rfl, hi, hafter, hf⟩
    rw [C10_last_wins _ _ _ _ _ hi hafter, hf]

theorem matrixWork_unit (n : ℕ) (g : ℕ → ℕ → K) (i : ℕ) (hi : i < n) (d : Fin 3) :
    matrixWork (3 * n) g (flatField (Spec.unitField i d)) (flatField (Spec.unitField i d)) =
      g (3 * i + d) (3 * i + d) := by
  have hf : ∀ o, flatField (Spec.unitField (K := K) i d) o = if o = 3 * i + d then 1 else 0 := by
    intro o
    unfold flatField Spec.unitField
    have hd := d.2
    by_cases ho : o = 3 * i + d
    · subst ho
      have h1 : (3 * i + (d : ℕ)) / 3 = i := by omega
      have h2 : (3 * i + (d : ℕ)) % 3 = d := by omega
      simp [h1, h2]
    · rw [if_neg ho, if_neg]
      rintro ⟨h1, h2⟩
      apply ho
      have h3 : o % 3 = d := by rw [← h2]
      omega
  unfold matrixWork
  have hlt : 3 * i + (d : ℕ) < 3 * n := by have := d.2; omega
  rw [Finset.sum_eq_single_of_mem (3 * i + (d : ℕ)) (Finset.mem_range.mpr hlt)]
  · rw [Finset.sum_eq_single_of_mem (3 * i + (d : ℕ)) (Finset.mem_range.mpr hlt)]
    · simp [hf]
    · intro b _ hb; simp [hf, hb]
  · intro b _ hb
    apply Finset.sum_eq_zero
    intro j _
    simp [hf, hb]

theorem obsolete_untrimmed (inp : SystemInput K) (flags : ℕ → Fin 3 → Bool) (stiff mass damp : ℕ → ℕ → K) (i : ℕ)
    (hi : i < inp.n) (d : Fin 3) :
    Obsolete (inp.untrimmed flags stiff mass damp) (3 * i + d) ↔
      setConstraints flags inp.constraints i d = false ∨ |mass (3 * i + d) (3 * i + d)| ≤ 1 / 10 ^ 8 ∨
        |stiff (3 * i + d) (3 * i + d)| ≤ 1 / 10 ^ 8 := by
  have hd := d.2
  have hlt : 3 * i + (d : ℕ) < 3 * inp.n := by omega
  unfold Obsolete SystemInput.untrimmed numberedNodes
  simp only [hlt, true_and]
  apply or_congr_left
  constructor
  · rintro ⟨x, hx, d', h1, h2⟩
    rw [List.mem_map] at hx
    obtain ⟨j, hj, rfl⟩ := hx
    simp only [sequentialEquations] at h1
    split_ifs at h1
    injection h1 with h1
    have hd' := d'.2
    have : j = i := by omega
    subst this
    have : d' = d := Fin.ext (by omega)
    subst this
    exact h2
  · intro h
    exact ⟨⟨sequentialEquations inp.n i, setConstraints flags inp.constraints i⟩,
      List.mem_map.mpr ⟨i, List.mem_range.mpr hi, rfl⟩, d, by simp [sequentialEquations, hi], h⟩

theorem initialise_equation (inp : SystemInput K) (flags : ℕ → Fin 3 → Bool) (stiff mass damp : ℕ → ℕ → K) (i : ℕ)
    (hi : i < inp.n) (d : Fin 3) :
    equationOf (inp.damped (trimAll (inp.untrimmed flags stiff mass damp))).nodes i d = none ↔
      Obsolete (inp.untrimmed flags stiff mass damp) (3 * i + d) := by
  rw [(damped_nodes inp _).1]
  refine (C09_removed (inp.untrimmed flags stiff mass damp) ?_).1
  show equationOf (numberedNodes _ _) i d = _
  rw [numberedNodes_equation, sequentialEquations, if_pos hi]

/-- C106, unknowns: after initialising a new mesh, a dof of a node has no equation exactly if its last support holds it, or
moving it alone by one does a mass or stiffness work below `1e-8`. (For structures of horizontal elements and vertical
rods; with inclined elements the diagonal is the one of the mirrored structure.) -/
theorem C106_unknowns_partial (inp : SystemInput K) (hm : Spec.NodesInMesh inp) (ha : Spec.AxisAligned inp)
    (st : TrimState K) (h : inp.initialise freshFlags = .ok st) (i : ℕ) (hi : i < inp.n) (d : Fin 3) :
    equationOf st.nodes i d = none ↔ Spec.Supported inp.constraints i d ∨
      |Spec.systemWork AssemblyPart.mass inp.parts (Spec.unitField i d) (Spec.unitField i d)| ≤ 1 / 10 ^ 8 ∨
      |Spec.systemWork AssemblyPart.stiffness inp.parts (Spec.unitField i d) (Spec.unitField i d)| ≤ 1 / 10 ^ 8 := by
  obtain ⟨stiff, mass, damp, a1, a2, a3, rfl⟩ := initialise_ok inp _ st h
  rw [initialise_equation inp _ stiff mass damp i hi d, obsolete_untrimmed inp _ stiff mass damp i hi d, supported_iff,
    ← matrixWork_unit inp.n mass i hi d, ← matrixWork_unit inp.n stiff i hi d,
    assembled_work inp hm AssemblyPart.mass (fun _ => rfl) mass a2,
    assembled_work inp hm AssemblyPart.stiffness (fun _ => rfl) stiff a1, systemWork_aligned inp ha _ (fun _ => rfl),
    systemWork_aligned inp ha _ (fun _ => rfl)]

/-- C106: every field that is zero at the dofs without an equation has its vector of unknowns, and every equation
belongs to exactly one dof of one node. -/
theorem C106_representable (inp : SystemInput K) (flags : ℕ → Fin 3 → Bool) (st : TrimState K)
    (h : inp.initialise flags = .ok st) :
    (∀ k < st.N, ∃! p : ℕ × Fin 3, equationOf st.nodes p.1 p.2 = some k) ∧
    (∀ i d k, equationOf st.nodes i d = some k → i < inp.n ∧ k < st.N) ∧
    ∀ u : Spec.NodalField K, (∀ i < inp.n, ∀ d, equationOf st.nodes i d = none → u i d = 0) →
      ∃ U, RepresentsField inp.n st.nodes U u := by
  obtain ⟨stiff, mass, damp, a1, a2, a3, rfl⟩ := initialise_ok inp flags st h
  obtain ⟨d1, d2, d3, d4, d5⟩ := damped_nodes inp (trimAll (inp.untrimmed flags stiff mass damp))
  rw [d1, d2]
  have hb := C09_bijection (inp.untrimmed flags stiff mass damp)
  have hlt : ∀ i d k, equationOf (trimAll (inp.untrimmed flags stiff mass damp)).nodes i d = some k →
      i < inp.n ∧ k < (trimAll (inp.untrimmed flags stiff mass damp)).N := by
    intro i d k hk
    obtain ⟨o, b1, -, b3, -⟩ := trim_old (inp.untrimmed flags stiff mass damp) le_rfl (numberedNodes_ordered _ _)
      (fun o h1 h2 => absurd h2 (not_lt.mpr h1)) i d k hk
    refine ⟨?_, b3⟩
    change equationOf (numberedNodes _ _) i d = _ at b1
    rw [numberedNodes_equation, sequentialEquations] at b1
    by_contra hc
    rw [if_neg hc] at b1
    cases b1
  refine ⟨hb, hlt, fun u hu => ?_⟩
  classical
  refine ⟨fun k => if hk : k < (trimAll (inp.untrimmed flags stiff mass damp)).N then
      u (hb k hk).choose.1 (hb k hk).choose.2 else 0, ?_, hu⟩
  intro i d k hk
  have hkN := (hlt i d k hk).2
  simp only [hkN, dif_pos]
  have := (hb k hkN).choose_spec.2 (i, d) hk
  rw [← this]

/-! ### C107, C108: repeated initialisation -/

theorem recalcFlat_congr (a b : List ℕ) (l : List (Option ℕ)) (h : ∀ o, some o ∈ l → (o ∈ a ↔ o ∈ b)) (j : ℕ) :
    recalcFlat a j l = recalcFlat b j l ∧ keptCount a l = keptCount b l := by
  induction l generalizing j with
  | nil => simp [recalcFlat, keptCount]
  | cons x l ih =>
    have ih' := fun j => ih (fun o ho => h o (List.mem_cons_of_mem _ ho)) j
    cases x with
    | none =>
      refine ⟨by simp [recalcFlat, (ih' j).1], ?_⟩
      have := (ih' 0).2
      unfold keptCount at this ⊢
      simpa using this
    | some o =>
      have ho := h o (List.mem_cons_self ..)
      have k0 := (ih' 0).2
      unfold keptCount at k0 ⊢
      by_cases hb : o ∈ b
      · have ha := ho.mpr hb
        simp [recalcFlat, ha, hb, (ih' j).1]
        simpa using k0
      · have ha : o ∉ a := fun hc => hb (ho.mp hc)
        simp [recalcFlat, ha, hb, (ih' (j + 1)).1]
        simpa using k0

theorem flatIdx_numbered (n : ℕ) (f g : ℕ → Fin 3 → Bool) : flatIdx (numberedNodes n f) = flatIdx (numberedNodes n g) := by
  simp [flatIdx, numberedNodes, List.flatMap_map]

theorem mem_flatIdx_numbered (n : ℕ) (f : ℕ → Fin 3 → Bool) (o : ℕ) (h : some o ∈ flatIdx (numberedNodes n f)) :
    ∃ i < n, ∃ d : Fin 3, o = 3 * i + d := by
  simp only [flatIdx, numberedNodes, List.flatMap_map, List.mem_flatMap, List.mem_range, sequentialEquations] at h
  obtain ⟨i, hi, h⟩ := h
  simp [hi] at h
  rcases h with h | h | h
  · exact ⟨i, hi, 0, by simpa using h⟩
  · exact ⟨i, hi, 1, by simpa using h⟩
  · exact ⟨i, hi, 2, by simpa using h⟩

theorem trim_congr (inp : SystemInput K) (f g : ℕ → Fin 3 → Bool) (stiff mass damp : ℕ → ℕ → K)
    (h : ∀ i < inp.n, ∀ d : Fin 3, Obsolete (inp.untrimmed f stiff mass damp) (3 * i + d) ↔
      Obsolete (inp.untrimmed g stiff mass damp) (3 * i + d)) :
    trimAll (inp.untrimmed f stiff mass damp) = trimAll (inp.untrimmed g stiff mass damp) := by
  set A := inp.untrimmed f stiff mass damp with hA
  set B := inp.untrimmed g stiff mass damp with hB
  have hmem : ∀ o < 3 * inp.n, (o ∈ obsoleteIndices A.N A.nodes A.M A.Kg ↔ o ∈ obsoleteIndices B.N B.nodes B.M B.Kg) := by
    intro o ho
    rw [mem_obsoleteIndices, mem_obsoleteIndices]
    have := h (o / 3) (by omega) ⟨o % 3, Nat.mod_lt _ (by norm_num)⟩
    simpa only [Nat.div_add_mod] using this
  have hkept : keptIndices A.N (obsoleteIndices A.N A.nodes A.M A.Kg) =
      keptIndices B.N (obsoleteIndices B.N B.nodes B.M B.Kg) := by
    unfold keptIndices
    show (List.range (3 * inp.n)).filter _ = (List.range (3 * inp.n)).filter _
    apply List.filter_congr
    intro o ho
    rw [List.mem_range] at ho
    simp only [hmem o ho]
  obtain ⟨a1, a2, a3, -⟩ := recalcNodes_flat (obsoleteIndices A.N A.nodes A.M A.Kg) 0 A.nodes
  obtain ⟨b1, b2, b3, -⟩ := recalcNodes_flat (obsoleteIndices B.N B.nodes B.M B.Kg) 0 B.nodes
  have hflat : flatIdx A.nodes = flatIdx B.nodes := flatIdx_numbered inp.n _ _
  have hcong := recalcFlat_congr (obsoleteIndices A.N A.nodes A.M A.Kg) (obsoleteIndices B.N B.nodes B.M B.Kg)
    (flatIdx B.nodes) (fun o ho => hmem o (by
      obtain ⟨i, hi, d, rfl⟩ := mem_flatIdx_numbered _ _ o ho
      have := d.2
      omega)) 0
  have hidx : flatIdx (trimAll A).nodes = flatIdx (trimAll B).nodes := by
    show flatIdx (recalcNodes _ 0 A.nodes).1 = flatIdx (recalcNodes _ 0 B.nodes).1
    rw [a1, b1, hflat, hcong.1]
  have hlenA : (trimAll A).nodes.length = inp.n := by
    show (recalcNodes _ 0 A.nodes).1.length = _
    rw [a3]; simp [hA, SystemInput.untrimmed, numberedNodes]
  have hlenB : (trimAll B).nodes.length = inp.n := by
    show (recalcNodes _ 0 B.nodes).1.length = _
    rw [b3]; simp [hB, SystemInput.untrimmed, numberedNodes]
  have hnodes : (trimAll A).nodes = (trimAll B).nodes := by
    apply List.ext_getElem (by rw [hlenA, hlenB])
    intro i h1 h2
    have hd : ∀ d, (trimAll A).nodes[i].idx d = (trimAll B).nodes[i].idx d := by
      intro d
      have e1 := flatIdx_get (trimAll A).nodes i d
      have e2 := flatIdx_get (trimAll B).nodes i d
      rw [hidx, e2, List.getElem?_eq_getElem h1, List.getElem?_eq_getElem h2] at e1
      simpa using e1.symm
    have ha : ∀ d, (trimAll A).nodes[i].act d = (trimAll B).nodes[i].act d := by
      intro d
      rw [flags_after_trim A _ (List.getElem_mem h1), flags_after_trim B _ (List.getElem_mem h2), hd]
    cases hx : (trimAll A).nodes[i] with
    | mk ia aa =>
      cases hy : (trimAll B).nodes[i] with
      | mk ib ab =>
        rw [hx, hy] at hd ha
        congr 1
        · funext d; exact hd d
        · funext d; exact ha d
  have hN : (trimAll A).N = (trimAll B).N := by
    show (recalcNodes _ 0 A.nodes).2 = (recalcNodes _ 0 B.nodes).2
    rw [a2, b2, hflat, hcong.2]
  have hmat : ∀ m : ℕ → ℕ → K, deleteRowsCols A.N (obsoleteIndices A.N A.nodes A.M A.Kg) m =
      deleteRowsCols B.N (obsoleteIndices B.N B.nodes B.M B.Kg) m := by
    intro m
    unfold deleteRowsCols
    rw [hkept]
  have hvec : ∀ v : ℕ → K, deleteRows A.N (obsoleteIndices A.N A.nodes A.M A.Kg) v =
      deleteRows B.N (obsoleteIndices B.N B.nodes B.M B.Kg) v := by
    intro v
    unfold deleteRows
    rw [hkept]
  have e : ∀ s t : TrimState K, s.nodes = t.nodes → s.N = t.N → s.M = t.M → s.C = t.C → s.Kg = t.Kg → s.F = t.F →
      s = t := by
    rintro ⟨⟩ ⟨⟩ h1 h2 h3 h4 h5 h6
    simp_all
  exact e _ _ hnodes hN (hmat mass) (hmat damp) (hmat stiff) (hvec _)

theorem setConstraints_listed (f g : ℕ → Fin 3 → Bool) (ps : List ConstraintPart) (i : ℕ) (h : ∃ q ∈ ps, i ∈ q.nodes) :
    setConstraints f ps i = setConstraints g ps i := by
  induction ps generalizing f g with
  | nil => simp at h
  | cons q qs ih =>
    unfold setConstraints at ih ⊢
    rw [List.foldl_cons, List.foldl_cons]
    by_cases hq : ∃ r ∈ qs, i ∈ r.nodes
    · exact ih _ _ hq
    · push Not at hq
      have e := fun f => C10_untouched f qs i hq
      unfold setConstraints at e
      obtain ⟨r, hr, hir⟩ := h
      rcases List.mem_cons.mp hr with rfl | hr
      · rw [e, e, setConstraint_apply, setConstraint_apply, if_pos hir, if_pos hir]
      · exact absurd hir (hq r hr)

theorem flagsAfter_eq (inp : SystemInput K) (flags : ℕ → Fin 3 → Bool) (st : TrimState K)
    (h : inp.initialise flags = .ok st) (i : ℕ) (hi : i < inp.n) (d : Fin 3) :
    flagsAfter st i d = (equationOf st.nodes i d).isSome := by
  obtain ⟨stiff, mass, damp, a1, a2, a3, rfl⟩ := initialise_ok inp flags st h
  unfold flagsAfter equationOf
  rw [(damped_nodes inp _).1]
  have hl : i < (trimAll (inp.untrimmed flags stiff mass damp)).nodes.length := by
    show i < (recalcNodes _ 0 _).1.length
    rw [(recalcNodes_flat _ 0 _).2.2.1]
    simpa [SystemInput.untrimmed, numberedNodes] using hi
  rw [List.getElem?_eq_getElem hl]
  simpa using flags_after_trim _ _ (List.getElem_mem hl) d

theorem again_ok (inp : SystemInput K) (f : ℕ → Fin 3 → Bool) (st : TrimState K) (h : inp.initialise f = .ok st)
    (g : ℕ → Fin 3 → Bool)
    (hfg : ∀ i < inp.n, ∀ d, (∀ q ∈ inp.constraints, i ∉ q.nodes) →
      (g i d = false → equationOf st.nodes i d = none) ∧ (f i d = false → g i d = false)) :
    inp.initialise g = .ok st := by
  obtain ⟨stiff, mass, damp, a1, a2, a3, rfl⟩ := initialise_ok inp f st h
  rw [initialise_eq, a1, a2, a3]
  show Except.ok (inp.damped (trimAll (inp.untrimmed g stiff mass damp))) = _
  rw [trim_congr inp g f stiff mass damp]
  intro i hi d
  by_cases hl : ∃ q ∈ inp.constraints, i ∈ q.nodes
  · rw [obsolete_untrimmed inp _ _ _ _ i hi, obsolete_untrimmed inp _ _ _ _ i hi,
      setConstraints_listed g f inp.constraints i hl]
  · push Not at hl
    obtain ⟨h1, h2⟩ := hfg i hi d hl
    rw [initialise_equation inp f stiff mass damp i hi d] at h1
    constructor
    · intro ho
      rw [obsolete_untrimmed inp _ _ _ _ i hi, C10_untouched _ _ _ hl] at ho
      rcases ho with ho | ho
      · exact h1 ho
      · rw [obsolete_untrimmed inp _ _ _ _ i hi]
        exact Or.inr ho
    · intro ho
      rw [obsolete_untrimmed inp _ _ _ _ i hi, C10_untouched _ _ _ hl] at ho ⊢
      rcases ho with ho | ho
      · exact Or.inl (h2 ho)
      · exact Or.inr ho

/-- C107: initialising the same model again on the same nodes gives the same equations, matrices and forces. -/
theorem C107_same (inp : SystemInput K) (flags : ℕ → Fin 3 → Bool) :
    initialiseAgain inp inp flags = inp.initialise flags := by
  cases h : inp.initialise flags with
  | error e => unfold initialiseAgain; rw [h]; rfl
  | ok st =>
    unfold initialiseAgain
    rw [h]
    show inp.initialise (flagsAfter st) = _
    refine again_ok inp flags st h _ fun i hi d hl => ?_
    rw [flagsAfter_eq inp flags st h i hi d]
    refine ⟨by simp, fun hf => ?_⟩
    obtain ⟨stiff, mass, damp, a1, a2, a3, rfl⟩ := initialise_ok inp flags st h
    have : equationOf (inp.damped (trimAll (inp.untrimmed flags stiff mass damp))).nodes i d = none := by
      rw [initialise_equation inp flags stiff mass damp i hi d, obsolete_untrimmed inp _ _ _ _ i hi,
        C10_untouched _ _ _ hl]
      exact Or.inl hf
    rw [this]
    rfl

/-- C107: the same for any number of repetitions. -/
theorem C107_iterated (inp : SystemInput K) (flags : ℕ → Fin 3 → Bool) (k : ℕ) :
    initialiseTimes inp flags k = inp.initialise flags := by
  induction k with
  | zero => rfl
  | succ k ih =>
    unfold initialiseTimes
    rw [ih]
    exact C107_same inp flags

/-- C108, exact: initialising a changed model on nodes that were used before gives the same system as on new nodes
exactly if every dof that lost its equation the first time, and whose node no support of the changed model lists, would
have none in the changed model anyway. -/
theorem C108_iff (first second : SystemInput K) (hn : first.n = second.n) (st1 st2 : TrimState K)
    (h1 : first.initialise freshFlags = .ok st1) (h2 : second.initialise freshFlags = .ok st2) :
    initialiseAgain first second freshFlags = .ok st2 ↔
      ∀ i < second.n, ∀ d, (∀ q ∈ second.constraints, i ∉ q.nodes) → equationOf st1.nodes i d = none →
        equationOf st2.nodes i d = none := by
  unfold initialiseAgain
  rw [h1]
  show second.initialise (flagsAfter st1) = _ ↔ _
  have hfl : ∀ i < second.n, ∀ d, flagsAfter st1 i d = (equationOf st1.nodes i d).isSome :=
    fun i hi d => flagsAfter_eq first freshFlags st1 h1 i (hn ▸ hi) d
  constructor
  · intro h i hi d hl he
    obtain ⟨stiff, mass, damp, a1, a2, a3, rfl⟩ := initialise_ok second _ st2 h
    rw [initialise_equation second _ stiff mass damp i hi d, obsolete_untrimmed second _ _ _ _ i hi,
      C10_untouched _ _ _ hl, hfl i hi d, he]
    exact Or.inl rfl
  · intro h
    refine again_ok second freshFlags st2 h2 _ fun i hi d hl => ⟨fun hf => ?_, fun hf => by simp [freshFlags] at hf⟩
    rw [hfl i hi d] at hf
    exact h i hi d hl (by simpa using hf)

/-- C108 as far as it holds: if the change only removes dofs, or every node concerned is listed in a support of the
changed model, the result is that of new nodes. Missing: `C108_violated`. -/
theorem C108_fresh_partial (first second : SystemInput K) (hn : first.n = second.n) (st1 st2 : TrimState K)
    (h1 : first.initialise freshFlags = .ok st1) (h2 : second.initialise freshFlags = .ok st2)
    (h : ∀ i < second.n, ∀ d, equationOf st1.nodes i d = none → equationOf st2.nodes i d = none ∨
      ∃ q ∈ second.constraints, i ∈ q.nodes) :
    initialiseAgain first second freshFlags = .ok st2 := by
  rw [C108_iff first second hn st1 st2 h1 h2]
  intro i hi d hl he
  rcases h i hi d he with h | ⟨q, hq, hiq⟩
  · exact h
  · exact absurd hiq (hl q hq)

end

/-! ### Examples -/

/-- Two nodes with a spring of stiffness 5 between them (direction `(c, s)`), masses 1 in x and y at both, a damper of 2 in
y at node 1, the first node held, a force of 7 in y on node 1. -/
def springExample (c s : ℚ) : SystemInput ℚ :=
  { n := 2
    parts := [
      { elements := [((0, 1), (c, s))], nodes := [0, 1], act := ![true, false, false],
        stiffness := some fun p => if p.1 = p.2 then 5 else -5, mass := none, damping := none },
      { elements := [], nodes := [0, 1], act := ![true, true, false], stiffness := none,
        mass := some fun p => if p.1 = p.2 then 1 else 0, damping := none },
      { elements := [], nodes := [1], act := ![false, true, false], stiffness := none, mass := none,
        damping := some fun _ => 2 }]
    loads := [{ nodes := [1], act := ![false, true, false], force := [![0, 7, 0]] }]
    constraints := [⟨[0], ![false, false, false]⟩]
    isRayleigh := false, ratio := 0, w1 := 1, w2 := 1 }

example : Spec.NodesInMesh (springExample 0 1) ∧ Spec.AxisAligned (springExample 0 1) := by
  constructor
  · simp [springExample, Spec.NodesInMesh]
    omega
  · intro p hp e he
    simp [springExample] at hp
    rcases hp with rfl | rfl | rfl <;> simp_all

/-- The vertical spring has one unknown, the y displacement of node 1. -/
example : ((springExample 0 1).initialise freshFlags).map (fun st => [st.Kg 0 0, st.M 0 0, st.C 0 0, st.F 0]) =
      .ok [5, 1, 2, 7] ∧
    ((springExample 0 1).initialise freshFlags).map (fun st => (st.N, equationOf st.nodes 1 1)) = .ok (1, some 0) := by
  decide +kernel

/-- C106 fails for inclined elements: moving node 1 at right angles to a spring of slope 4:3 does no work on the spring,
but the stiffness matrix of the initialised system does. -/
theorem C106_violated :
    let u : Spec.NodalField ℚ := fun i => if i = 1 then ![-4 / 5, 3 / 5, 0] else 0
    Spec.systemWork AssemblyPart.stiffness (springExample (3 / 5) (4 / 5)).parts u u = 0 ∧
    ∃ st, (springExample (3 / 5) (4 / 5)).initialise freshFlags = .ok st ∧ st.N = 2 ∧
      ∃ U, RepresentsField 2 st.nodes U u ∧ matrixWork st.N st.Kg U U ≠ 0 := by
  intro u
  have hmesh : Spec.NodesInMesh (springExample (3 / 5) (4 / 5)) := by
    simp [springExample, Spec.NodesInMesh]
    omega
  refine ⟨by decide +kernel, ?_⟩
  obtain ⟨st, hst⟩ := C106_succeeds (springExample (3 / 5) (4 / 5)) hmesh freshFlags
  have hmap : ((springExample (3 / 5) (4 / 5)).initialise freshFlags).map (fun st => (st.N, equationOf st.nodes 1 0,
      equationOf st.nodes 1 1)) = .ok (2, some 0, some 1) := by decide +kernel
  rw [hst] at hmap
  simp only [Except.map, Except.ok.injEq, Prod.mk.injEq] at hmap
  obtain ⟨hN, hx, hy⟩ := hmap
  refine ⟨st, hst, hN, ?_⟩
  obtain ⟨U, hU⟩ := (C106_representable _ freshFlags st hst).2.2 u (by
    intro i hi d he
    change i < 2 at hi
    interval_cases i
    · rfl
    · fin_cases d
      · simp at he; rw [hx] at he; cases he
      · simp at he; rw [hy] at he; cases he
      · rfl)
  refine ⟨U, hU, ?_⟩
  rw [(C106_work_mirrored _ freshFlags hmesh st hst U U u u hU hU).1]
  decide +kernel

/-- A mass of 3 on a spring of stiffness 5 in y, with or without a support. -/
def supportExample (supports : List ConstraintPart) : SystemInput ℚ :=
  { n := 1
    parts := [{ elements := [], nodes := [0], act := ![false, true, false], stiffness := some fun _ => 5,
                mass := some fun _ => 3, damping := none }]
    loads := [], constraints := supports, isRayleigh := false, ratio := 0, w1 := 1, w2 := 1 }

/-- C108 fails: the support of the first calculation is removed for the second one, but the dof stays without an
equation; on new nodes it has one. -/
theorem C108_violated :
    let held := supportExample [⟨[0], ![true, false, true]⟩]
    let released := supportExample []
    (initialiseAgain held released freshFlags).map (fun st => st.N) = .ok 0 ∧
      (released.initialise freshFlags).map (fun st => st.N) = .ok 1 := by
  decide +kernel

/-- C108: the hypotheses of `C108_fresh_partial` are met when a support is added. -/
example : let held := supportExample [⟨[0], ![true, false, true]⟩]
    (initialiseAgain (supportExample []) held freshFlags).map (fun st => st.N) = .ok 0 ∧
      ((supportExample []).initialise freshFlags).map (fun st => (equationOf st.nodes 0 0, equationOf st.nodes 0 1)) =
        .ok (none, some 0) ∧
      (held.initialise freshFlags).map (fun st => (equationOf st.nodes 0 0, equationOf st.nodes 0 1)) =
        .ok (none, none) := by
  decide +kernel

end Rose
