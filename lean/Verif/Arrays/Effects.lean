import Verif.Arrays.Model
import Mathlib.Data.List.Dedup
import Mathlib.Data.Rat.Floor

/-!
# Model of `normalize_features` as a call: its argument afterwards, types of arrays, failures

Values are exact; see `Verif/Arrays/Double.lean` for doubles.
-/

namespace Verif.Arrays

open Verif

/-- Formats of sparse matrices; `lil`, `dok` and `dia` matrices, which have no method `eliminate_zeros`, are `other`. -/
inductive Format
  | csr | csc | coo | other
  deriving DecidableEq, Repr

/-- An argument or result of `normalize_features`: a dense array or a sparse matrix, of integers or of floats. -/
inductive Features
  | dense (ints : Bool) (m : Mat)
  | sparse (fmt : Format) (ints : Bool) (s : Sparse)

/-- `X.eliminate_zeros()`, which modifies `X`. -/
def Sparse.eliminateZeros (s : Sparse) : Sparse := { s with entries := s.entries.filter fun t => t.2.2 ≠ 0 }

/-- `X.tocsr()`: entries at the same place of a `coo` matrix are added; those of other formats are kept. -/
def Sparse.tocsr (fmt : Format) (s : Sparse) : Sparse :=
  match fmt with
  | .coo => { s with entries := (s.entries.map fun t => (t.1, t.2.1)).dedup.map fun p =>
      (p.1, p.2, ((s.entries.filter fun t => t.1 = p.1 ∧ t.2.1 = p.2).map fun t => t.2.2).sum) }
  | _ => s

/-- `y[:, cols]` of a sparse matrix. -/
def Sparse.columns (s : Sparse) (cols : List ℕ) : Sparse :=
  ⟨s.n1, cols.length, cols.zipIdx.flatMap fun c =>
    (s.entries.filter fun t => t.2.1 = c.1).map fun t => (t.1, c.2, t.2.2)⟩

/-- `normalize_features` (`/repo/multimodal/lib/array_utils.py:25-40`): the argument after the call and the result.
In-place division of integers by floats raises `TypeError` (lines 33 and 38; since numpy 1.10), as does in python 3 the
division of integers by integers of line 33; in python 2 this is a division with integer quotient.  The quotients by zero
concern columns which are then removed; here they are 0. -/
def normalizeFeatures (py3 : Bool) (X : Features) : Features × Py Features :=
  match X with
  | .dense ints m =>
    if ints then (X, .error .typeError)
    else (X, .ok (.dense false (normalizeDense m)))
  | .sparse fmt ints s =>
    let sums := s.colSum
    if fmt = .other then (X, .error .attributeError)
    else
      let s := s.eliminateZeros
      let x := s.tocsr fmt
      if ints ∧ py3 then (.sparse fmt ints s, .error .typeError)
      else
        let data := x.entries.map fun t =>
          (t.1, t.2.1, if ints then (⌊t.2.2 / sums t.2.1⌋ : ℚ) else t.2.2 / sums t.2.1)
        let y : Sparse := ⟨x.n1, x.n2, data⟩
        (.sparse fmt ints s, .ok (.sparse .csc ints (y.columns (kept x.n2 sums))))

end Verif.Arrays
