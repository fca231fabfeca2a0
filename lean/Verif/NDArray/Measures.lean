import Verif.NDArray.Model
import Verif.Metrics.Model

/-!
# Model of measures on arrays of any number of dimensions (`multimodal/lib/metrics.py`, `multimodal/evaluation.py`)

`Verif/Metrics/Model.lean` has measures on one line of values, and `Verif/Evaluation/Model.lean` takes `all_distances` to
be the table of measures of pairs of rows.  Here arrays are broadcast as numpy does for each operation, and these are
consequences.  Operations on numbers are parameters: results hold for real numbers as well as for doubles.
-/

namespace Verif.NDArray

variable {α : Type}

/-- Operations on numbers.  `sum` adds a line of values: the order of additions is taken to depend on their number only.
`isZero` is the comparison with 0, as a number. -/
structure Arith (α : Type) where
  add : α → α → α
  sub : α → α → α
  mul : α → α → α
  div : α → α → α
  neg : α → α
  log : α → α
  sqrt : α → α
  isZero : α → α
  half : α
  eps : α
  sum : List α → α

/-- The length of a dimension from those of two arrays: they must be the same unless one is 1. -/
def bcDim (n m : ℕ) : Option ℕ := if m = 1 then some n else if n = 1 then some m else if n = m then some n else none

/-- `bcastShape` for shapes in the reverse order. -/
def bcastRev : List ℕ → List ℕ → Option (List ℕ)
  | [], t => some t
  | n :: s, [] => some (n :: s)
  | n :: s, m :: t => do
    let k ← bcDim n m
    let r ← bcastRev s t
    return k :: r

/-- The shape of the result of an operation on arrays of shapes `s` and `t`: last dimensions are compared first. -/
def bcastShape (s t : List ℕ) : Option (List ℕ) := (bcastRev s.reverse t.reverse).map List.reverse

/-- An operation of numpy on two arrays, entry by entry: `ValueError` if shapes cannot be broadcast together. -/
def bop [Inhabited α] (f : α → α → α) (a b : ND α) : Py (ND α) :=
  match bcastShape a.shape b.shape with
  | some t => .ok (ofIndices t fun idx =>
      f ((a.get (reduceIndex a.shape idx)).getD default) ((b.get (reduceIndex b.shape idx)).getD default))
  | none => .error .valueError

/-- `a.sum(axis=axis)`, as `npSum` for any numbers. -/
def sumAxis [Inhabited α] (A : Arith α) (a : ND α) : Option ℤ → Py (ND α)
  | none => .ok ⟨[], [A.sum a.data]⟩
  | some axis =>
    if a.shape = [] ∧ (axis = 0 ∨ axis = -1) then .ok ⟨[], [A.sum a.data]⟩
    else do
      let k ← checkAxis a.shape.length axis
      return ofIndices (a.shape.eraseIdx k) fun idx =>
        A.sum ((List.range (a.shape.getD k 0)).map fun j => (a.get (idx.insertIdx k j)).getD default)

/-- `np.square(a)`. -/
def square (A : Arith α) (a : ND α) : ND α := a.map fun x => A.mul x x

/-- `generalized_KL` (`/repo/multimodal/lib/metrics.py:18-20`). -/
def generalizedKL [Inhabited α] (A : Arith α) (x y : ND α) (eps : α) (axis : Option ℤ) : Py (ND α) := do
  let q ← bop A.div (x.map fun v => A.add v eps) (y.map fun v => A.add v eps)
  let p ← bop A.mul x (q.map A.log)
  let d ← bop A.sub p x
  let t ← bop A.add d y
  sumAxis A t axis

/-- `kl_div` with `normalize=False` (`/repo/multimodal/lib/metrics.py:58-62`); `eps` is ignored. -/
def klDiv [Inhabited α] (A : Arith α) (a b : ND α) (axis : ℤ) : Py (ND α) := generalizedKL A a b A.eps (some axis)

/-- `rev_kl_div` (`/repo/multimodal/lib/metrics.py:65-66`). -/
def revKlDiv [Inhabited α] (A : Arith α) (a b : ND α) (axis : ℤ) : Py (ND α) := klDiv A b a axis

/-- `sym_kl_div` (`/repo/multimodal/lib/metrics.py:69-70`). -/
def symKlDiv [Inhabited α] (A : Arith α) (a b : ND α) (axis : ℤ) : Py (ND α) := do
  let k ← klDiv A a b axis
  let r ← revKlDiv A a b axis
  let s ← bop A.add k r
  return s.map fun v => A.mul A.half v

/-- `frobenius` (`/repo/multimodal/lib/metrics.py:73-74`). -/
def frobenius [Inhabited α] (A : Arith α) (a b : ND α) (axis : ℤ) : Py (ND α) := do
  let d ← bop A.sub a b
  let s ← sumAxis A (square A d) (some axis)
  return s.map A.sqrt

/-- `cosine_similarity` (`/repo/multimodal/lib/metrics.py:77-82`). -/
def cosineSimilarity [Inhabited α] (A : Arith α) (a b : ND α) (axis : ℤ) : Py (ND α) := do
  let p ← bop A.mul a b
  let ab ← sumAxis A p (some axis)
  let aa ← sumAxis A (square A a) (some axis)
  let bb ← sumAxis A (square A b) (some axis)
  let n ← bop A.mul aa bb
  let d ← bop A.add (n.map A.sqrt) (ab.map A.isZero)
  bop A.div ab d

/-- `cosine_diff` (`/repo/multimodal/lib/metrics.py:85-86`). -/
def cosineDiff [Inhabited α] (A : Arith α) (a b : ND α) (axis : ℤ) : Py (ND α) := do
  let c ← cosineSimilarity A a b axis
  return c.map A.neg

/-- The measures which are used with `all_distances`. -/
inductive Measure
  | kl | revKl | symKl | frob | cos | cosDiff

/-- A measure as a function. -/
def Measure.run [Inhabited α] (A : Arith α) : Measure → ND α → ND α → ℤ → Py (ND α)
  | .kl => klDiv A
  | .revKl => revKlDiv A
  | .symKl => symKlDiv A
  | .frob => frobenius A
  | .cos => cosineSimilarity A
  | .cosDiff => cosineDiff A

/-- `x[:, np.newaxis, :]`: `IndexError` with less than two dimensions. -/
def newaxisSecond (x : ND α) : Py (ND α) :=
  match x.shape with
  | n :: d :: s => .ok ⟨n :: 1 :: d :: s, x.data⟩
  | _ => .error .indexError

/-- `x[np.newaxis, :, :]`: `IndexError` with less than two dimensions. -/
def newaxisFirst (x : ND α) : Py (ND α) :=
  match x.shape with
  | n :: d :: s => .ok ⟨1 :: n :: d :: s, x.data⟩
  | _ => .error .indexError

/-- `all_distances` (`/repo/multimodal/evaluation.py:103-106`) of arrays which are not sparse. -/
def allDistances (reco ex : ND α) (measure : ND α → ND α → ℤ → Py (ND α)) : Py (ND α) := do
  let reco ← newaxisSecond reco
  let ex ← newaxisFirst ex
  measure reco ex (-1)

/-- `x[i]` for an array with two dimensions. -/
def row (x : ND α) (i : ℕ) : ND α :=
  match x.shape with
  | [_, d] => ⟨[d], (x.data.drop (i * d)).take d⟩
  | _ => x

open Classical in
/-- Operations on real numbers. -/
noncomputable def realArith : Arith ℝ where
  add := (· + ·)
  sub := (· - ·)
  mul := (· * ·)
  div := (· / ·)
  neg x := -x
  log := Real.log
  sqrt := Real.sqrt
  isZero x := if x = 0 then 1 else 0
  half := 1 / 2
  eps := Metrics.EPSILON
  sum := List.sum

end Verif.NDArray
