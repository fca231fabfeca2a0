import Verif.Py
import Verif.PyMore
import Mathlib.Analysis.SpecialFunctions.Pow.Real
import Mathlib.Data.List.InsertIdx

/-!
# Model of `vector_norm` and `unit_vector` on arrays (`multimodal/lib/transformations.py`)

Arrays of any number of dimensions are lists of values in the order of C, with their shapes.  Values are real numbers, and
results of divisions are numbers or `nan` (`none`).  Data are arrays already: the conversion of nested lists, which fails
when their lengths differ, is left out.  Types of arrays are those of floats.
-/

namespace Verif.NDArray

/-- An array: its shape and its values, the last index changing fastest. -/
structure ND (α : Type) where
  shape : List ℕ
  data : List α

variable {α β γ : Type}

/-- The indices of an array, in the order of C. -/
def indices : List ℕ → List (List ℕ)
  | [] => [[]]
  | n :: s => (List.range n).flatMap fun i => (indices s).map fun l => i :: l

/-- The position of an index among values. -/
def position : List ℕ → List ℕ → ℕ
  | _ :: s, i :: l => i * s.prod + position s l
  | _, _ => 0

/-- `a[i, j, …]`. -/
def ND.get (a : ND α) (idx : List ℕ) : Option α := a.data[position a.shape idx]?

/-- The array of values given by indices. -/
def ofIndices (s : List ℕ) (f : List ℕ → α) : ND α := ⟨s, (indices s).map f⟩

/-- `numpy.core.numeric.normalize_axis_index`: axes from the end are negative, others raise `AxisError`, which is a
`ValueError`. -/
def checkAxis (n : ℕ) (axis : ℤ) : Py ℕ :=
  if 0 ≤ axis ∧ axis < n then .ok axis.toNat
  else if -n ≤ axis ∧ axis < 0 then .ok (axis + n).toNat
  else .error .valueError

/-- `numpy.sum(a, axis=axis)`: a line of values is added for each index of the result.  Axes 0 and -1 are accepted for
arrays without dimension. -/
def npSum (a : ND ℝ) : Option ℤ → Py (ND ℝ)
  | none => .ok ⟨[], [a.data.sum]⟩
  | some axis =>
    if a.shape = [] ∧ (axis = 0 ∨ axis = -1) then .ok ⟨[], [a.data.sum]⟩
    else do
      let k ← checkAxis a.shape.length axis
      return ofIndices (a.shape.eraseIdx k) fun idx =>
        ((List.range (a.shape.getD k 0)).map fun j => (a.get (idx.insertIdx k j)).getD 0).sum

/-- `numpy.atleast_1d`. -/
def atleast1d (a : ND α) : ND α := if a.shape = [] then ⟨[1], a.data⟩ else a

/-- `numpy.expand_dims(a, axis)`. -/
def expandDims (a : ND α) (axis : ℤ) : Py (ND α) := do
  let k ← checkAxis (a.shape.length + 1) axis
  return ⟨a.shape.insertIdx k 1, a.data⟩

/-- Values entry by entry. -/
def ND.map (f : α → β) (a : ND α) : ND β := ⟨a.shape, a.data.map f⟩

/-- Whether an array of shape `s` can be used where one of shape `t` is needed: for each of the last dimensions, it has the
same length or length 1, and it has not more dimensions. -/
def fits (s t : List ℕ) : Bool :=
  s.length ≤ t.length && (List.zipWith (fun n m => n == m || n == 1) s.reverse t.reverse).all id

/-- The index in an array of shape `s` which is used for an index of an array with more dimensions. -/
def reduceIndex (s idx : List ℕ) : List ℕ :=
  List.zipWith (fun n i => if n = 1 then 0 else i) s (idx.drop (idx.length - s.length))

/-- `numpy.broadcast_to(a, t)`: `ValueError` if shapes don't fit. -/
def broadcastTo [Inhabited α] (a : ND α) (t : List ℕ) : Py (ND α) :=
  if fits a.shape t then .ok (ofIndices t fun idx => (a.get (reduceIndex a.shape idx)).getD default)
  else .error .valueError

/-- A shape without its first dimensions, while they are 1 and there are more than `n`. -/
def stripOnes (n : ℕ) : List ℕ → List ℕ
  | [] => []
  | m :: s => if n < s.length + 1 ∧ m = 1 then stripOnes n s else m :: s

/-- `out[:] = a`: the content of `out` after the assignment.  `IndexError` for an array without dimension. -/
def assign [Inhabited α] (out a : ND α) : Py (ND α) :=
  if out.shape = [] then .error .indexError
  else broadcastTo ⟨stripOnes out.shape.length a.shape, a.data⟩ out.shape

/-- A division of floats, `nan` (or infinite) when the divisor is zero. -/
noncomputable def divide (x y : ℝ) : Option ℝ := if y = 0 then none else some (x / y)

/-- `a /= b`. -/
noncomputable def idiv (a b : ND ℝ) : Py (ND (Option ℝ)) := do
  let b ← broadcastTo b a.shape
  return ⟨a.shape, List.zipWith divide a.data b.data⟩

/-- `vector_norm(data, axis)` (`/repo/multimodal/lib/transformations.py:1560-1567`).  The result for vectors is a number,
which is here an array without dimension. -/
noncomputable def vectorNorm (data : ND ℝ) (axis : Option ℤ) : Py (ND ℝ) :=
  if data.shape.length = 1 then .ok ⟨[], [Real.sqrt (data.data.map fun x => x * x).sum]⟩
  else do
    let s ← npSum (data.map fun x => x * x) axis
    return (atleast1d s).map Real.sqrt

/-- `vector_norm(data, axis, out)` (`/repo/multimodal/lib/transformations.py:1568-1571`): `out` after the call, and the
result, `None`.  `numpy.sum` raises `ValueError` for an `out` of another shape. -/
noncomputable def vectorNormOut (data : ND ℝ) (axis : Option ℤ) (out : ND ℝ) : ND ℝ × Py Unit :=
  match npSum (data.map fun x => x * x) axis with
  | .error e => (out, .error e)
  | .ok s => if s.shape = out.shape then (s.map Real.sqrt, .ok ()) else (out, .error .valueError)

/-- The end of `unit_vector` (`/repo/multimodal/lib/transformations.py:1609-1613`). -/
noncomputable def normalize (data : ND ℝ) (axis : Option ℤ) : Py (ND (Option ℝ)) := do
  let s ← npSum (data.map fun x => x * x) axis
  let length := (atleast1d s).map Real.sqrt
  let length ← match axis with
    | none => pure length
    | some axis => expandDims length axis
  idiv data length

/-- `unit_vector(data, axis)` (`/repo/multimodal/lib/transformations.py:1600-1604,1609-1615`). -/
noncomputable def unitVector (data : ND ℝ) (axis : Option ℤ) : Py (ND (Option ℝ)) :=
  if data.shape.length = 1 then
    .ok (data.map fun x => divide x (Real.sqrt (data.data.map fun x => x * x).sum))
  else normalize data axis

/-- `unit_vector(data, axis, out)` (`/repo/multimodal/lib/transformations.py:1605-1613`): `out` after the call, and the
result, `None`.  `data` is `none` when it is `out` itself. -/
noncomputable def unitVectorOut (data : Option (ND ℝ)) (axis : Option ℤ) (out : ND ℝ) : ND (Option ℝ) × Py Unit :=
  match data.elim (.ok out) (assign out) with
  | .error e => (out.map some, .error e)
  | .ok d =>
    match normalize d axis with
    | .error e => (d.map some, .error e)
    | .ok r => (r, .ok ())

end Verif.NDArray
