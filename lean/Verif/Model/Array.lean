/-
Model of the numpy indexing primitives the code relies on.
-/
import Mathlib.Data.Matrix.Basic
import Mathlib.Algebra.Order.Field.Basic

namespace Rose

/-- numpy `a[[r0, r1, ..], [c0, c1, ..]] = v` with a scalar `v`: every listed (row, column) pair is overwritten.
Models the fancy assignments in `rose/model/model_part.py` (e.g. lines 418-421, 633-660, 726-733, 748-762),
`rose/model/model_part.py:618-770`. -/
def fancySet {n : ℕ} {K : Type*} (m : Matrix (Fin n) (Fin n) K) (ps : List (Fin n × Fin n)) (v : K) :
    Matrix (Fin n) (Fin n) K :=
  fun i j => if (i, j) ∈ ps then v else m i j

/-- numpy elementwise product `a * b` of two arrays of one shape (`rose/model/model_part.py:765`). -/
def hadamard {n : ℕ} {K : Type*} [Mul K] (a b : Matrix (Fin n) (Fin n) K) : Matrix (Fin n) (Fin n) K :=
  fun i j => a i j * b i j

/-- `a.dot(c)` with a scalar `c` (`rose/model/model_part.py:434, 665, 698, 767`). -/
def dotScalar {n : ℕ} {K : Type*} [Mul K] (a : Matrix (Fin n) (Fin n) K) (c : K) : Matrix (Fin n) (Fin n) K :=
  fun i j => a i j * c

end Rose
