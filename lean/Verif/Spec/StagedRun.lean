/-
Specification of a solver that computes one stage.
-/
import Verif.Model.StagedRun
import Verif.Spec.CoupledMotion

set_option linter.unusedSectionVars false

namespace Rose.Spec
open Finset

variable {K : Type*} [Field K] [LinearOrder K] [IsStrictOrderedRing K]

/-- The rows before index `a` are the same in both arrays. -/
def KeptBefore (a : ℕ) (out out' : SolverOutput K) : Prop := ∀ t < a, out'.u t = out.u t ∧ out'.v t = out.v t ∧ out'.a t = out.a t

/-- `a, .., b` are indices of the time array between which all steps have one size (`rnd` rounds it). -/
def OneStep (rnd : K → K) (time : List K) (a b : ℕ) : Prop :=
  b < time.length ∧ ∀ i, a ≤ i → i < b → rnd (time.getD (i + 1) 0 - time.getD i 0) = rnd (time.getD (a + 1) 0 - time.getD a 0)

/-- No step size of the time array returns after a different one. -/
def NoReturn (rnd : K → K) (time : List K) : Prop :=
  ∀ i j k, i < j → j < k → k < time.length - 1 →
    rnd (time.getD (i + 1) 0 - time.getD i 0) = rnd (time.getD (k + 1) 0 - time.getD k 0) →
    rnd (time.getD (j + 1) 0 - time.getD j 0) = rnd (time.getD (i + 1) 0 - time.getD i 0)

/-- The solver is dynamic; for a stage with one step size from `a` to `b` it keeps the results before `a` and delivers values that satisfy the equations of motion at the indices `a, .., b`,
with right hand sides that it has been given. `before` is what the stages before have asked for. -/
def StageMotion (rnd : K → K) (time : List K) (st : TrimState K) (rhs : List ℕ → ℕ → ℕ → K) (s : StageSolver K ℕ (ℕ → ℕ → K)) : Prop :=
  s.type = .dynamic ∧ ∀ before a b out, a < b → OneStep rnd time a b →
    let out' := (s.calculate st (fun l => rhs (before ++ l)) a b out).1
    KeptBefore a out out' ∧ ∀ t, a ≤ t → t ≤ b → ∃ asked, ∀ i < st.N,
      ∑ j ∈ range st.N, (st.M i j * out'.a t j + st.C i j * out'.v t j + st.Kg i j * out'.u t j) = rhs asked t i

/-- The same for a static solver, which gets the stiffness only. -/
def StageStatics (rnd : K → K) (time : List K) (st : TrimState K) (rhs : List ℕ → ℕ → ℕ → K) (s : StageSolver K ℕ (ℕ → ℕ → K)) : Prop :=
  s.type = .static ∧ ∀ before a b out, a < b → OneStep rnd time a b →
    let out' := (s.calculate { st with M := fun _ _ => 0, C := fun _ _ => 0 } (fun l => rhs (before ++ l)) a b out).1
    KeptBefore a out out' ∧ ∀ t, a ≤ t → t ≤ b → ∃ asked, ∀ i < st.N, ∑ j ∈ range st.N, st.Kg i j * out'.u t j = rhs asked t i

/-- The same for a dynamic solver of a coupled model whose non-linear iterations converge. -/
def StageCoupled (rnd : K → K) (time : List K) (sys : TrimState K) (rhs : List (ℕ × List (ℕ → K)) → List (ℕ → K) → ℕ → (ℕ → K) → ℕ → K)
    (s : StageSolver K (ℕ × List (ℕ → K)) (List (ℕ → K) → ℕ → (ℕ → K) → ℕ → K)) : Prop :=
  s.type = .dynamic ∧ ∀ before a b out, a < b → OneStep rnd time a b →
    let out' := (s.calculate sys (fun l => rhs (before ++ l)) a b out).1
    KeptBefore a out out' ∧ ∀ t, a ≤ t → t ≤ b → ∃ sched us, ∀ i < sys.N,
      ∑ j ∈ range sys.N, (sys.M i j * out'.a t j + sys.C i j * out'.v t j + sys.Kg i j * out'.u t j) = rhs sched us t (out'.u t) i

end Rose.Spec
