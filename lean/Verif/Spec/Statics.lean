/-
Specification of linear statics: superposition, reciprocity and least energy of the reported displacements (C175), and the comparison of two
structures (C176).
-/
import Verif.Spec.Motion
import Mathlib.Data.Real.Basic

set_option linter.unusedSectionVars false

namespace Rose.Spec

/-- A load condition acts on different nodes of a mesh of `n` nodes. -/
structure LoadFits (n : ℕ) (l : TimedLoad ℝ) : Prop where
  nodup : l.nodes.Nodup
  mesh : ∀ m ∈ l.nodes, m < n

/-- A load condition with all its forces multiplied by `k`. -/
noncomputable def scaledLoad (k : ℝ) (l : TimedLoad ℝ) : TimedLoad ℝ :=
  { l with source := match l.source with
      | .table f => .table fun i t d => k * f i t d
      | .moving f => .moving fun i t d => k * f i t d }

/-- A solver that finds equilibrium whenever there is one. -/
def SolvesWhenever (times : ℕ) (solver : TrimState ℝ → (List ℕ → ℕ → ℕ → ℝ) → SolverOutput ℝ) : Prop :=
  ∀ st rhs, (∃ u, SolvesStatics st rhs times u) → SolvesStatics st rhs times (solver st rhs)

/-- `rows` are the results of a static calculation of the structure under the loads, with some such solver. -/
def StaticResults (inp : SystemInput ℝ) (loads : List (TimedLoad ℝ)) (times : ℕ) (rows : List (List (NodeRow ℝ))) : Prop :=
  ∃ solver st, SolvesWhenever times solver ∧ SystemRun.main ⟨inp, loads⟩ freshFlags times solver = .ok (st, rows)

/-- The displacements reported at output index `s`. -/
noncomputable def shape (rows : List (List (NodeRow ℝ))) (s : ℕ) : NodalField ℝ := fieldOfRows (rows.getD s []) NodeRow.displacement

/-- Potential energy of a displacement field: half the work of the stiffness less the work of the loads. -/
noncomputable def potential (inp : SystemInput ℝ) (loads : List (NodalLoad ℝ)) (w : NodalField ℝ) : ℝ :=
  1 / 2 * systemWork AssemblyPart.stiffness inp.parts w w - loadWork loads w

/-- The static results of a structure depend linearly on its loads, are reciprocal and have the least energy. -/
structure LinearStatics (inp : SystemInput ℝ) : Prop where
  /-- The calculation ends, with one list of rows per output index. -/
  ends : ∀ (loads : List (TimedLoad ℝ)) times solver, (∀ l ∈ loads, LoadFits inp.n l) → SolvesWhenever times solver →
    ∃ st rows, SystemRun.main ⟨inp, loads⟩ freshFlags times solver = .ok (st, rows) ∧ rows.length = times
  /-- Equal loads, at the same or at different indices of the same or of different calculations, have equal displacements. -/
  same : ∀ (l₁ l₂ : List (TimedLoad ℝ)) t₁ t₂ r₁ r₂, (∀ l ∈ l₁, LoadFits inp.n l) → (∀ l ∈ l₂, LoadFits inp.n l) →
    StaticResults inp l₁ t₁ r₁ → StaticResults inp l₂ t₂ r₂ → ∀ s₁ < t₁, ∀ s₂ < t₂, loadsAt l₁ s₁ = loadsAt l₂ s₂ →
      ∀ i < inp.n, ∀ d, shape r₁ s₁ i d = shape r₂ s₂ i d
  /-- The displacements under two sets of loads together are the sum. -/
  superpose : ∀ (l₁ l₂ : List (TimedLoad ℝ)) times r₁ r₂ r, (∀ l ∈ l₁, LoadFits inp.n l) → (∀ l ∈ l₂, LoadFits inp.n l) →
    StaticResults inp l₁ times r₁ → StaticResults inp l₂ times r₂ → StaticResults inp (l₁ ++ l₂) times r →
      ∀ s < times, ∀ i < inp.n, ∀ d, shape r s i d = shape r₁ s i d + shape r₂ s i d
  /-- A multiple of the loads has the same multiple of the displacements. -/
  scale : ∀ (k : ℝ) (loads : List (TimedLoad ℝ)) times r r', (∀ l ∈ loads, LoadFits inp.n l) →
    StaticResults inp loads times r → StaticResults inp (loads.map (scaledLoad k)) times r' →
      ∀ s < times, ∀ i < inp.n, ∀ d, shape r' s i d = k * shape r s i d
  /-- The first loads do the same work on the displacements of the second as the second on those of the first (Betti). -/
  reciprocal : ∀ (l₁ l₂ : List (TimedLoad ℝ)) t₁ t₂ r₁ r₂, (∀ l ∈ l₁, LoadFits inp.n l) → (∀ l ∈ l₂, LoadFits inp.n l) →
    StaticResults inp l₁ t₁ r₁ → StaticResults inp l₂ t₂ r₂ → ∀ s₁ < t₁, ∀ s₂ < t₂,
      loadWork (loadsAt l₁ s₁) (shape r₂ s₂) = loadWork (loadsAt l₂ s₂) (shape r₁ s₁)
  /-- The work of the loads on their own displacements is twice the energy of the deformation; it is positive if anything moves. -/
  work : ∀ (loads : List (TimedLoad ℝ)) times r, (∀ l ∈ loads, LoadFits inp.n l) → StaticResults inp loads times r → ∀ s < times,
    loadWork (loadsAt loads s) (shape r s) = systemWork AssemblyPart.stiffness inp.parts (shape r s) (shape r s) ∧
    ((∃ i < inp.n, shape r s i ≠ 0) → 0 < loadWork (loadsAt loads s) (shape r s))
  /-- No other admissible field has as little potential energy. -/
  least : ∀ (loads : List (TimedLoad ℝ)) times r, (∀ l ∈ loads, LoadFits inp.n l) → StaticResults inp loads times r → ∀ s < times,
    Admissible inp (shape r s) ∧ ∀ w, Admissible inp w → (∃ i < inp.n, w i ≠ shape r s i) →
      potential inp (loadsAt loads s) (shape r s) < potential inp (loadsAt loads s) w

/-- Loads never do more work on the displacements of the second structure than on those of the first. -/
def NoSofter (inp inp' : SystemInput ℝ) : Prop :=
  ∀ (loads : List (TimedLoad ℝ)) times r r', (∀ l ∈ loads, LoadFits inp.n l) →
    StaticResults inp loads times r → StaticResults inp' loads times r' → ∀ s < times,
      0 ≤ loadWork (loadsAt loads s) (shape r' s) ∧ loadWork (loadsAt loads s) (shape r' s) ≤ loadWork (loadsAt loads s) (shape r s)

/-- A force on one dof of one node never moves this dof further in the second structure than in the first. -/
def NoDeeper (inp inp' : SystemInput ℝ) : Prop :=
  ∀ m < inp.n, ∀ (d : Fin 3) (f : ℕ → ℝ) times r r',
    StaticResults inp [⟨[m], fun e => decide (e = d), .table fun _ t e => if e = d then f t else 0⟩] times r →
    StaticResults inp' [⟨[m], fun e => decide (e = d), .table fun _ t e => if e = d then f t else 0⟩] times r' →
    ∀ s < times, |shape r' s m d| ≤ |shape r s m d|

/-- The second rail is at least as stiff as the first: modulus, area and inertia are not smaller, Poisson's ratio is not greater, and it does not
shear more (shear factor 0: no shear deformation). -/
structure RailNoSofter (b b' : BeamPart ℝ) : Prop where
  E : b.E ≤ b'.E
  A : b.A ≤ b'.A
  I : b.I ≤ b'.I
  nu : b'.nu ≤ b.nu
  kappa : b'.kappa = 0 ∨ 0 < b.kappa ∧ b.kappa ≤ b'.kappa

/-- The node of a hinge of stiffness `s`, between rail elements of length `l`, keeps its unknowns: moving it takes more than the tolerance. -/
def HingeKept (E I l s : ℝ) : Prop := 1 / 10 ^ 8 < 6 * E * I / l ^ 3 ∧ 1 / 10 ^ 8 < 8 * E * I * s / (s * l + 8 * E * I)

end Rose.Spec
