import Verif.PyMore
import Mathlib.Algebra.BigOperators.Group.List.Basic

/-!
# Model of `multimodal/lib/array_utils.py`

Entries are exact rationals.  Arrays are given by their shape and a function from indices to
entries, of which only the part inside the shape is meaningful.
-/

namespace Verif.Arrays

/-- An array of any dimension: shape, and entry for each list of indices. -/
structure NDArray where
  shape : List ℕ
  e : List ℕ → ℚ

/-- Sum of an array along an axis, as an array of the original dimension in which the value does
not depend on the index along the axis: `np.expand_dims(np.sum(a, axis=axis), axis)`, broadcast
(`/repo/multimodal/lib/array_utils.py:22`). -/
def sumAxis (a : NDArray) (ax : ℕ) (idx : List ℕ) : ℚ :=
  ((List.range (a.shape.getD ax 0)).map fun k => a.e (idx.set ax k)).sum

/-- `normalize_sum` (`/repo/multimodal/lib/array_utils.py:19-22`).  A negative axis counts from the
end; below `-ndim`, `np.sum` raises `AxisError`, which is a `ValueError`. -/
def normalizeSum (a : NDArray) (axis : ℤ) (eps : ℚ) : Py NDArray :=
  if (a.shape.length : ℤ) ≤ axis then .error .valueError
  else if axis + a.shape.length < 0 then .error .valueError
  else
    let ax : ℕ := if axis < 0 then (axis + a.shape.length).toNat else axis.toNat
    .ok ⟨a.shape, fun idx => a.e idx / (eps + sumAxis a ax idx)⟩

/-- A dense matrix. -/
structure Mat where
  n1 : ℕ
  n2 : ℕ
  e : ℕ → ℕ → ℚ

/-- A sparse matrix: the list of the stored entries (row, column, value).  Several entries at the
same place are added, as `scipy.sparse` does; stored zeros are allowed. -/
structure Sparse where
  n1 : ℕ
  n2 : ℕ
  entries : List (ℕ × ℕ × ℚ)

/-- `X.toarray()`. -/
def Sparse.toDense (x : Sparse) : Mat :=
  ⟨x.n1, x.n2, fun i j => ((x.entries.filter fun t => t.1 = i ∧ t.2.1 = j).map fun t => t.2.2).sum⟩

/-- `X.sum(axis=0)` of a dense matrix. -/
def Mat.colSum (x : Mat) (j : ℕ) : ℚ := ((List.range x.n1).map fun i => x.e i j).sum

/-- `X.sum(axis=0)` of a sparse matrix. -/
def Sparse.colSum (x : Sparse) (j : ℕ) : ℚ :=
  ((x.entries.filter fun t => t.2.1 = j).map fun t => t.2.2).sum

/-- `sums.nonzero()[0]`. -/
def kept (n : ℕ) (sums : ℕ → ℚ) : List ℕ := (List.range n).filter fun j => sums j ≠ 0

/-- `normalize_features` on a dense matrix of floats (`/repo/multimodal/lib/array_utils.py:29,36-40`). -/
def normalizeDense (x : Mat) : Mat :=
  let y : ℕ → ℕ → ℚ := fun i j => x.e i j / (1 * (if x.colSum j = 0 then 1 else 0) + x.colSum j)
  let cols := kept x.n2 x.colSum
  ⟨x.n1, cols.length, fun i j => y i (cols.getD j 0)⟩

/-- `normalize_features` on a sparse matrix (`/repo/multimodal/lib/array_utils.py:29-34,40`).  The
divisions by zero of columns of null sum (`inf` or `nan` in the code) only concern columns which
are then removed; here they give 0. -/
def normalizeSparse (x : Sparse) : Sparse :=
  let data := x.entries.filter fun t => t.2.2 ≠ 0
  let y := data.map fun t => (t.1, t.2.1, t.2.2 / x.colSum t.2.1)
  let cols := kept x.n2 x.colSum
  ⟨x.n1, cols.length, cols.zipIdx.flatMap fun c =>
    (y.filter fun t => t.2.1 = c.1).map fun t => (t.1, c.2, t.2.2)⟩

/-- Attributes of `GrowingLILMatrix`: `_shape`, `rows` (column indices of the non-zero values of
each row) and `data` (these values). -/
structure LIL where
  shape : ℕ × ℕ
  rows : List (List ℕ)
  data : List (List ℚ)

/-- `GrowingLILMatrix()` (`/repo/multimodal/lib/array_utils.py:45-50`): the underlying 1 x 1 matrix
keeps its empty row. -/
def LIL.new : LIL := ⟨(0, 0), [[]], [[]]⟩

/-- `sp.lil_matrix(row)` for a list: one row holding the non-zero values. -/
def lilOfRow (row : List ℚ) : LIL :=
  let nz := row.zipIdx.filter fun p => p.1 ≠ 0
  ⟨(1, row.length), [nz.map Prod.snd], [nz.map Prod.fst]⟩

/-- `GrowingLILMatrix.add_row` (`/repo/multimodal/lib/array_utils.py:52-66`). -/
def LIL.addRow (m : LIL) (row : List ℚ) : LIL :=
  let s := lilOfRow row
  if m.shape = (0, 0) then ⟨s.shape, s.rows, s.data⟩
  else
    let nbCol := max row.length m.shape.2
    ⟨(1 + m.shape.1, nbCol), m.rows ++ s.rows.take 1, m.data ++ s.data.take 1⟩

/-- `m[i, j]`: the value stored for column `j` in row `i`, 0 if there is none. -/
def LIL.get (m : LIL) (i j : ℕ) : ℚ :=
  ((((m.rows.getD i []).zip (m.data.getD i [])).find? fun p => p.1 = j).map Prod.snd).getD 0

end Verif.Arrays
