import Verif.Py
import Verif.PyMore
import Mathlib.Data.List.Sort
import Mathlib.Algebra.BigOperators.Group.Finset.Basic

/-!
# Model of `multimodal/lib/sklearn_utils.py`

Arrays carry what the module looks at: type of data, dimensions, layout, values, and which object and which
memory they are. Values are finite numbers, infinities or `nan`.
-/

namespace Verif.Sklearn

/-- A value of an array of floats. -/
inductive Flt
  | fin (q : ℚ)
  | pinf
  | ninf
  | nan
  deriving DecidableEq

/-- `np.isfinite`. -/
def Flt.isFinite : Flt → Bool
  | .fin _ => true
  | _ => false

/-- A type of data: a name, and whether its character is in `np.typecodes['AllFloat']`. -/
structure DType where
  name : String
  float : Bool
  deriving DecidableEq

/-- Orders of arrays which can be asked for; `none` is `order=None`. -/
inductive Order
  | c
  | f
  deriving DecidableEq

/-- A `numpy` array. `same` tells that it is the object given to the function, `shares` that it uses the
memory of that object; `isMatrix` is for instances of `np.matrix`. -/
structure Arr where
  dtype : DType
  shape : List ℕ
  data : List Flt
  contigC : Bool
  contigF : Bool
  isMatrix : Bool
  same : Bool
  shares : Bool
  deriving DecidableEq

/-- A sparse matrix: whether it is in CSR format, and its stored values with their positions (without
duplicates). -/
structure Sp where
  csr : Bool
  dtype : DType
  rows : ℕ
  cols : ℕ
  entries : List ((ℕ × ℕ) × Flt)
  deriving DecidableEq

/-- What may be given to the functions: nested lists are arrays which share nothing. -/
inductive Input
  | dense (a : Arr)
  | sparse (s : Sp)
  deriving DecidableEq

/-- External parts: `X.sum()` and conversions between types. -/
structure Env where
  sum : List Flt → Flt
  cast : DType → DType → Flt → Flt

/-- Contract: a sum with an infinity or `nan` is one of them (a sum of finite values may overflow), and a
conversion to the same type does nothing. -/
structure Env.OK (E : Env) : Prop where
  sum : ∀ l, (∃ v ∈ l, v.isFinite = false) → (E.sum l).isFinite = false
  cast : ∀ t v, E.cast t t v = v

/-- `safe_copy` (`/repo/multimodal/lib/sklearn_utils.py:52-54`): the layout is kept. -/
def safeCopy (a : Arr) : Arr := { a with same := false, shares := false }

/-- `assert_all_finite` (`/repo/multimodal/lib/sklearn_utils.py:59-69`). -/
def assertAllFinite (E : Env) : Input → Py Unit
  | .dense a =>
    if a.dtype.float && !(E.sum a.data).isFinite && !(a.data.all Flt.isFinite) then .error .valueError
    else .ok ()
  | .sparse s =>
    if s.dtype.float && !(E.sum (s.entries.map Prod.snd)).isFinite &&
        !((s.entries.map Prod.snd).all Flt.isFinite) then .error .valueError
    else .ok ()

/-- `np.atleast_2d`: views of arrays with fewer dimensions (new objects), other arrays themselves. -/
def atleast2d (a : Arr) : Arr :=
  match a.shape with
  | [] => { a with shape := [1, 1], same := false }
  | [n] => { a with shape := [1, n], same := false }
  | _ => a

/-- Whether an array has the order which is asked for. -/
def hasOrder (a : Arr) : Option Order → Bool
  | none => true
  | some .c => a.contigC
  | some .f => a.contigF

/-- `np.asarray(a, dtype=dtype, order=order)`: a new array if the type or the order is not the right one, a
view of instances of `np.matrix`, else the array itself. -/
def asarray (E : Env) (a : Arr) (dtype : Option DType) (order : Option Order) : Arr :=
  let t := dtype.getD a.dtype
  if t = a.dtype ∧ hasOrder a order then
    if a.isMatrix then { a with isMatrix := false, same := false } else a
  else
    { a with dtype := t, data := a.data.map (E.cast a.dtype t), isMatrix := false, same := false,
             shares := false, contigC := order != some .f, contigF := order == some .f }

/-- `array2d` (`/repo/multimodal/lib/sklearn_utils.py:72-80`). -/
def array2d (E : Env) (x : Input) (dtype : Option DType) (order : Option Order) (copy : Bool) : Py Arr :=
  match x with
  | .sparse _ => .error .typeError
  | .dense a =>
    let r := asarray E (atleast2d a) dtype order
    .ok (if r.same && copy then safeCopy r else r)

/-- `X.tocsr()` (the matrix itself when it is in this format) and `sparse.csr_matrix(X, dtype=dtype)`:
stored values are sorted by positions. -/
def toCsr (s : Sp) : Sp :=
  if s.csr then s
  else
    let sorted := s.entries.mergeSort fun a b => decide (a.1.1 < b.1.1 ∨ a.1.1 = b.1.1 ∧ a.1.2 ≤ b.1.2)
    { s with csr := true, entries := sorted }

/-- `atleast2d_or_csr` (`/repo/multimodal/lib/sklearn_utils.py:83-97`). -/
def atleast2dOrCsr (E : Env) (x : Input) (dtype : Option DType) (order : Option Order) (copy : Bool) :
    Py Input := do
  let r ← match x with
    | .sparse s =>
      if dtype = none ∨ dtype = some s.dtype then .ok (Input.sparse (toCsr s))
      else
        let t := dtype.getD s.dtype
        let u := toCsr s
        .ok (Input.sparse { u with dtype := t, entries := u.entries.map fun e => (e.1, E.cast s.dtype t e.2) })
    | .dense _ => do
      let a ← array2d E x dtype order copy
      .ok (Input.dense a)
  assertAllFinite E r
  return r

/-- A matrix in a product: dimensions, coefficients, and whether it is sparse. -/
structure Mat (K : Type) where
  rows : ℕ
  cols : ℕ
  e : ℕ → ℕ → K
  sparse : Bool

/-- The product of `scipy` (`a * b` when one is sparse, sparse if both are) or `np.dot`. -/
def mul {K : Type} [AddCommMonoid K] [Mul K] (a b : Mat K) : Py (Mat K) :=
  if a.cols = b.rows then
    .ok ⟨a.rows, b.cols, fun i j => ∑ k ∈ Finset.range a.cols, a.e i k * b.e k j, a.sparse && b.sparse⟩
  else .error .valueError

/-- `safe_sparse_dot` (`/repo/multimodal/lib/sklearn_utils.py:102-110`). -/
def safeSparseDot {K : Type} [AddCommMonoid K] [Mul K] (a b : Mat K) (denseOutput : Bool) : Py (Mat K) := do
  if a.sparse || b.sparse then
    let ret ← mul a b
    if denseOutput && ret.sparse then
      return { ret with sparse := false }
    else
      return ret
  else mul a b

end Verif.Sklearn
