import Verif.Evaluation.Double

/-!
# Entropies with doubles

`entropy`, `mutual_information` and `conditional_entropy` of `multimodal/lib/metrics.py` with numbers as computed.
-/

namespace Verif.Evaluation.D

open Verif Verif.Window

variable (L : Lib)

/-- `1 * (x == 0)`. -/
def isZero (x : Flt) : Flt := .fin (if x = .fin 0 then 1 else 0)

/-- The terms of `entropy` (`/repo/multimodal/lib/metrics.py:33-34`). -/
def logTerm (x : Flt) : Flt := mul x (log L (add x (isZero x)))

/-- `entropy` (`/repo/multimodal/lib/metrics.py:33-34`); arrays with several axes are flattened. -/
def entropy (t : Tree) (a : Row) : Flt := neg (t.sum fun k => logTerm L (a k))

/-- `np.allclose(s, 1.)` with default tolerances. -/
def closeToOne (s : Flt) : Bool :=
  let tolerance := add (round (1 / 10 ^ 8)) (mul (round (1 / 10 ^ 5)) (.fin 1))
  match sub s (.fin 1) with
  | .fin d => ge tolerance (.fin |d|)
  | _ => false

/-- The entry of a flattened matrix with `m` columns. -/
def flat (m : ℕ) (h : ℕ → ℕ → Flt) : Row := fun k => h (k / m) (k % m)

/-- The orders of the additions for a matrix: of all its entries, of each of its columns, of each of its rows. -/
structure Orders where
  all : Tree
  col : ℕ → Tree
  row : ℕ → Tree

/-- The sums of columns, `histo.sum(axis=0)`. -/
def Orders.colSum (o : Orders) (h : ℕ → ℕ → Flt) (j : ℕ) : Flt := (o.col j).sum fun i => h i j

/-- The sums of rows, `histo.sum(axis=1)`. -/
def Orders.rowSum (o : Orders) (h : ℕ → ℕ → Flt) (i : ℕ) : Flt := (o.row i).sum fun j => h i j

/-- The terms of `mutual_information` (`/repo/multimodal/lib/metrics.py:40-43`). -/
def infoTerm (o : Orders) (h : ℕ → ℕ → Flt) (i j : ℕ) : Flt :=
  let zeros := isZero (h i j)
  mul (h i j) (log L (div (add (h i j) zeros) (add (mul (o.colSum h j) (o.rowSum h i)) zeros)))

/-- `mutual_information` (`/repo/multimodal/lib/metrics.py:37-43`) of a matrix with `m` columns; both sums of all entries
have the same order. -/
def mutualInformation (m : ℕ) (o : Orders) (h : ℕ → ℕ → Flt) : Py Flt :=
  if closeToOne (o.all.sum (flat m h)) then .ok (o.all.sum (flat m (infoTerm L o h)))
  else .error .assertionError

/-- `conditional_entropy` (`/repo/multimodal/lib/metrics.py:46-55`) of a matrix with `m` columns; `marginal` is the order of
additions of the entropy of the sums of rows or columns. For axis 0, `swapaxes(0, -1)` transposes, hence sums are those of
rows, and for the last axis it does nothing. Other axes raise `AxisError`, which is a `ValueError`. -/
def conditionalEntropy (m : ℕ) (o : Orders) (marginal : Tree) (h : ℕ → ℕ → Flt) (axis : ℤ) : Py Flt :=
  if closeToOne (o.all.sum (flat m h)) then
    if axis = 0 ∨ axis = -2 then .ok (sub (entropy L o.all (flat m h)) (entropy L marginal (o.rowSum h)))
    else if axis = 1 ∨ axis = -1 then .ok (sub (entropy L o.all (flat m h)) (entropy L marginal (o.colSum h)))
    else .error .valueError
  else .error .assertionError

end Verif.Evaluation.D
