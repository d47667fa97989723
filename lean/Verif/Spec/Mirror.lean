/-
Specification of mirror images: positions, loads and results of a track seen from its other end (C185).
-/
import Verif.Spec.LinearDynamics

set_option linter.unusedSectionVars false

namespace Rose.Spec

/-- What a mirror at a vertical plane does to the values of a node: the x component and the rotation change their sign, the y component
stays. -/
def seenFromBehind : Fin 3 → ℝ := ![-1, 1, -1]

/-- `q` is the mirror image of `p` on a line of length `L`: the same height, and as far from the end as `p` is from the start. -/
def MirrorPosition (L : ℝ) (p q : Fin 3 → ℝ) : Prop := q 0 = L - p 0 ∧ q 1 = p 1 ∧ q 2 = p 2

/-- The mirror image of a load condition: the same forces on the mirror images `σ i` of the nodes `i`, horizontal forces and moments with
the other sign. -/
noncomputable def mirroredLoad (σ : ℕ → ℕ) (l : TimedLoad ℝ) : TimedLoad ℝ where
  nodes := l.nodes.map σ
  act := l.act
  source := match l.source with
    | .table f => .table fun i t d => seenFromBehind d * f i t d
    | .moving f => .moving fun i t d => seenFromBehind d * f i t d

/-- The mirror image of values of the nodes. -/
noncomputable def mirroredField (σ : Equiv.Perm ℕ) (u : NodalField ℝ) : NodalField ℝ := fun j d => seenFromBehind d * u (σ.symm j) d

/-- The second structure, under the mirror images of the loads of the first, reports the mirror images of its results; `σ i` is the number
of the mirror image of node `i`. -/
structure MirroredResults (σ : Equiv.Perm ℕ) (sys sys' : SystemInput ℝ) (dt : ℝ) : Prop where
  size : sys'.n = sys.n
  inside : ∀ i, σ i < sys'.n ↔ i < sys.n
  static : ∀ (loads : List (TimedLoad ℝ)) times r r', (∀ l ∈ loads, LoadFits sys.n l) → StaticResults sys loads times r →
    StaticResults sys' (loads.map (mirroredLoad σ)) times r' → ∀ s < times, ∀ i < sys.n, ∀ d,
      shape r' s (σ i) d = seenFromBehind d * shape r s i d
  dynamic : ∀ (loads : List (TimedLoad ℝ)) times u₀ v₀ r r', (∀ l ∈ loads, LoadFits sys.n l) →
    DynamicResults sys loads dt times u₀ v₀ r →
    DynamicResults sys' (loads.map (mirroredLoad σ)) dt times (mirroredField σ u₀) (mirroredField σ v₀) r' →
    ∀ s < times, ∀ i < sys.n, ∀ d, shape r' s (σ i) d = seenFromBehind d * shape r s i d ∧
      shapeRate r' s (σ i) d = seenFromBehind d * shapeRate r s i d ∧
      shapeAcceleration r' s (σ i) d = seenFromBehind d * shapeAcceleration r s i d

end Rose.Spec
