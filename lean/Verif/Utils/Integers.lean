import Verif.Utils.Rounded

/-!
# Model of `multimodal/lib/utils.py` on arrays of integers

Arrays have a type of elements, as in numpy: integers of a number of bits, whose operations wrap around, or doubles.
-/

namespace Verif.Utils

open Verif

/-- Types of machine integers: `int8` is `⟨true, 8⟩`, `uint16` is `⟨false, 16⟩`. -/
structure IntTy where
  signed : Bool
  bits : ℕ
  deriving DecidableEq, Repr

/-- The integer kept by an operation with result `x`. -/
def IntTy.wrap (t : IntTy) (x : ℤ) : ℤ :=
  if t.signed then (x + 2 ^ (t.bits - 1)) % 2 ^ t.bits - 2 ^ (t.bits - 1) else x % 2 ^ t.bits

/-- Types of elements of arrays. -/
inductive DType
  | int (t : IntTy)
  | float
  deriving DecidableEq, Repr

/-- A two-dimensional array with `d` columns. -/
structure Arr (d : ℕ) where
  ty : DType
  rows : List (Fin d → ℚ)

/-- What an operation on elements of a type keeps of the exact result; results of sums and differences of integers are
integers. -/
def DType.keep (fl : ℚ → ℚ) : DType → ℚ → ℚ
  | .int t => fun x => (t.wrap ⌊x⌋ : ℚ)
  | .float => fl

/-- The type of results of operations between arrays of two types. Simplified: two different types of integers give
doubles; they do not occur here. -/
def DType.promote (a b : DType) : DType := if a = b then a else .float

/-- Conversion to another type, either the same one or doubles. -/
def Arr.convert (fl : ℚ → ℚ) {d : ℕ} (a : Arr d) (ty : DType) : List (Fin d → ℚ) :=
  if a.ty = ty then a.rows else a.rows.map fun (r : Fin d → ℚ) (j : Fin d) => fl (r j)

/-- `np.vstack((a, b))`. -/
def vstackA (fl : ℚ → ℚ) {d : ℕ} (a b : Arr d) : Arr d :=
  let ty := a.ty.promote b.ty
  ⟨ty, a.convert fl ty ++ b.convert fl ty⟩

/-- `a - b`. -/
def subA (fl : ℚ → ℚ) {d : ℕ} (a b : Arr d) : Py (Arr d) := do
  let ty := a.ty.promote b.ty
  let rows ← subRowsR (ty.keep fl) (a.convert fl ty) (b.convert fl ty)
  pure ⟨ty, rows⟩

/-- `velocities` (utils.py:94-100). -/
def velocitiesA (fl : ℚ → ℚ) {d : ℕ} (positions : Arr d) : Py (Arr d) := do
  let first ← pyGet positions.rows 0
  let slided := vstackA fl ⟨positions.ty, pyFrom positions.rows 1⟩ ⟨positions.ty, [first]⟩
  subA fl slided positions

/-- `delayed_velocities` (utils.py:103-123); `np.zeros` of line 119 has doubles. -/
def delayedVelocitiesA (fl : ℚ → ℚ) {d : ℕ} (delay : ℤ) (positions : Arr d) (padding : String) : Py (Arr d) := do
  let n : ℤ := positions.rows.length
  let delay := if delay > n then n else delay
  let after : Arr d := ⟨positions.ty, pyUpto positions.rows (-delay)⟩
  if padding = "circular" then
    subA fl positions (vstackA fl ⟨positions.ty, pyFrom positions.rows (-delay)⟩ after)
  else if padding = "zeros" then
    if delay < 0 then .error .valueError
    else subA fl positions (vstackA fl ⟨.float, List.replicate delay.toNat 0⟩ after)
  else .error .valueError

/-- `filter_cont` (utils.py:77-89). The quotient of line 88 is a quotient of doubles for doubles and, in python 3, for
integers; in python 2 it is the integer quotient. -/
def filterContA (py3 : Bool) (fl : ℚ → ℚ) {d : ℕ} (data : Arr d) : Py (Arr d) := do
  let first ← pyGet data.rows 0
  let last ← pyGet data.rows (-1)
  let l1 := [first] ++ data.rows ++ [last]
  let l2 := pyUpto l1 (-2)
  let l3 := pyFrom l1 2
  let l1 := pySlice l1 1 (-1)
  let s : List (Fin d → ℚ) := List.zipWith (fun x y => fun j => data.ty.keep fl (x j + y j)) l1 l2
  let s : List (Fin d → ℚ) := List.zipWith (fun x y => fun j => data.ty.keep fl (x j + y j)) s l3
  match data.ty, py3 with
  | .int t, false => pure ⟨.int t, s.map fun (r : Fin d → ℚ) (j : Fin d) => (⌊r j / 3⌋ : ℚ)⟩
  | .int _, true => pure ⟨.float, s.map fun (r : Fin d → ℚ) (j : Fin d) => fl (fl (r j) / 3)⟩
  | .float, _ => pure ⟨.float, s.map fun (r : Fin d → ℚ) (j : Fin d) => fl (r j / 3)⟩

/-- `manualy_normalize` (utils.py:8-18) on one element, when bounds and data are integers of the same type: differences of
lines 15 and 17 are integers, the sum of line 16 and the quotient of line 17 are doubles (in all versions of python, as
`widths` are doubles after line 16). -/
def manualyNormalizeI (fl : ℚ → ℚ) (t : IntTy) (low up x : ℤ) : ℚ :=
  let widths := t.wrap (up - low)
  let widths := fl (fl widths + 1 * (if widths = 0 then 1 else 0))
  fl (fl (t.wrap (x - low)) / widths)

end Verif.Utils
