import Verif.Evaluation.Double

/-!
# Normalization of features with doubles

`normalize_features` (`multimodal/lib/array_utils.py`) with numbers as computed, see `Verif/Evaluation/Double.lean`. Results
are given by columns.
-/

namespace Verif.Arrays.D

open Verif Verif.Evaluation.D

/-- The columns which are kept (`/repo/multimodal/lib/array_utils.py:39-40`): `sums.nonzero()`, which NaN belongs to. -/
def kept (p : ℕ) (sums : ℕ → Flt) : List ℕ := (List.range p).filter fun j => decide (sums j ≠ .fin 0)

/-- The divisors for dense data (`/repo/multimodal/lib/array_utils.py:37-38`). -/
def divisor (s : Flt) : Flt := add (.fin (if s = .fin 0 then 1 else 0)) s

/-- `normalize_features` (`/repo/multimodal/lib/array_utils.py:25-40`) on a dense array with `n` rows and `p` columns, whose
column `j` is added in the order `order j`: the columns of the result. -/
def normalizeDense (n p : ℕ) (order : ℕ → Tree) (X : ℕ → ℕ → Flt) : List (List Flt) :=
  let sums := fun j => (order j).sum fun i => X i j
  (kept p sums).map fun j => (List.range n).map fun i => div (X i j) (divisor (sums j))

/-- The same on a sparse matrix in canonical format: column `j` stores the entries of rows `stored j`, which are added in the
order `order j`; stored zeros are eliminated, and others are divided (`/repo/multimodal/lib/array_utils.py:30-34`). -/
def normalizeSparse (n p : ℕ) (stored : ℕ → List ℕ) (order : ℕ → Tree) (X : ℕ → ℕ → Flt) : List (List Flt) :=
  let sums := fun j => (order j).sum fun i => X i j
  (kept p sums).map fun j => (List.range n).map fun i =>
    if i ∈ stored j ∧ X i j ≠ .fin 0 then div (X i j) (sums j) else .fin 0

end Verif.Arrays.D
