/-
Specification: two inputs describe the same structure, with its nodes in another order in the mesh and its model parts in another order (C182).
-/
import Verif.Spec.LinearDynamics
import Mathlib.Logic.Equiv.Basic
import Mathlib.Data.List.Forall2

set_option linter.unusedSectionVars false

namespace Rose.Spec

variable {K : Type*} [Field K] [LinearOrder K] [IsStrictOrderedRing K]

/-- The same part on renumbered nodes: `σ i` is the new position of the node at position `i`. Elements and nodes are listed in any order. -/
structure SamePart (σ : Equiv.Perm ℕ) (p p' : AssemblyPart K) : Prop where
  elements : p'.elements.Perm (p.elements.map fun e => ((σ e.1.1, σ e.1.2), e.2))
  nodes : p'.nodes.Perm (p.nodes.map σ)
  act : p'.act = p.act
  stiffness : p'.stiffness = p.stiffness
  mass : p'.mass = p.mass
  damping : p'.damping = p.damping

/-- The same support. -/
structure SameSupport (σ : Equiv.Perm ℕ) (p p' : ConstraintPart) : Prop where
  nodes : p'.nodes.Perm (p.nodes.map σ)
  free : p'.free = p.free

/-- The same load condition. Its forces are listed by node, so its nodes keep their order. -/
structure SameLoad (σ : Equiv.Perm ℕ) (l l' : TimedLoad K) : Prop where
  nodes : l'.nodes = l.nodes.map σ
  act : l'.act = l.act
  source : l'.source = l.source

/-- The items of the second list are those of the first, up to `R` and in any order. -/
def SameItems {α β : Type*} (R : α → β → Prop) (xs : List α) (ys : List β) : Prop := ∃ zs : List β, List.Forall₂ R xs zs ∧ zs.Perm ys

/-- The same structure under the same loads, with renumbered nodes and its parts, loads and supports in any order. -/
structure SameModel (σ : Equiv.Perm ℕ) (c c' : SystemRun K) : Prop where
  size : c'.system.n = c.system.n
  mesh : ∀ i, σ i < c.system.n ↔ i < c.system.n
  parts : SameItems (SamePart σ) c.system.parts c'.system.parts
  supports : SameItems (SameSupport σ) c.system.constraints c'.system.constraints
  loads : SameItems (SameLoad σ) c.timed c'.timed
  isRayleigh : c'.system.isRayleigh = c.system.isRayleigh
  ratio : c'.system.ratio = c.system.ratio
  w1 : c'.system.w1 = c.system.w1
  w2 : c'.system.w2 = c.system.w2

/-- Supports that share a node hold it in the same way. -/
def SupportsAgree (ps : List ConstraintPart) : Prop := ∀ p ∈ ps, ∀ q ∈ ps, ∀ i ∈ p.nodes, i ∈ q.nodes → p.free = q.free

/-- Every node has the same results in both. -/
def SameRows (σ : Equiv.Perm ℕ) (n : ℕ) (rows rows' : List (List (NodeRow K))) : Prop :=
  rows'.length = rows.length ∧ ∀ t < rows.length, ∀ i < n, (rows'.getD t [])[σ i]? = (rows.getD t [])[i]?

/-- The equations of the two systems are the same, with the unknowns in another order: `τ a` is the new number of unknown `a`. -/
structure SameEquations (σ : Equiv.Perm ℕ) (n : ℕ) (τ : ℕ → ℕ) (st st' : TrimState K) : Prop where
  size : st'.N = st.N
  maps : ∀ a < st.N, τ a < st.N
  one : ∀ a < st.N, ∀ b < st.N, τ a = τ b → a = b
  unknown : ∀ i < n, ∀ d, nodeEquations st'.nodes (σ i) d = (nodeEquations st.nodes i d).map τ
  mass : ∀ a < st.N, ∀ b < st.N, st'.M (τ a) (τ b) = st.M a b
  damping : ∀ a < st.N, ∀ b < st.N, st'.C (τ a) (τ b) = st.C a b
  stiffness : ∀ a < st.N, ∀ b < st.N, st'.Kg (τ a) (τ b) = st.Kg a b
  force : ∀ a < st.N, st'.F (τ a) = st.F a

/-- The results of a structure do not depend on the order of its nodes in the mesh nor on the order of its parts, loads and supports. -/
structure OrderFree (inp : SystemInput ℝ) (dt : ℝ) : Prop where
  /-- Every node has the same static displacements. -/
  static : ∀ (σ : Equiv.Perm ℕ) inp' loads loads' times r r', SameModel σ ⟨inp, loads⟩ ⟨inp', loads'⟩ → (∀ l ∈ loads, LoadFits inp.n l) →
    StaticResults inp loads times r → StaticResults inp' loads' times r' → ∀ t < times, ∀ i < inp.n, shape r' t (σ i) = shape r t i
  /-- Every node has the same displacements, velocities and accelerations at all times, if it starts in the same way. -/
  dynamic : ∀ (σ : Equiv.Perm ℕ) inp' loads loads' times u₀ v₀ u₀' v₀' r r', SameModel σ ⟨inp, loads⟩ ⟨inp', loads'⟩ →
    (∀ l ∈ loads, LoadFits inp.n l) → (∀ i < inp.n, u₀' (σ i) = u₀ i ∧ v₀' (σ i) = v₀ i) → DynamicResults inp loads dt times u₀ v₀ r →
    DynamicResults inp' loads' dt times u₀' v₀' r' → SameRows σ inp.n r r'

end Rose.Spec
