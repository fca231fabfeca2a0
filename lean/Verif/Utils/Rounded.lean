import Verif.Utils.Model
import Verif.Window.Float

/-!
# Model of `multimodal/lib/utils.py` with rounded operations

Each operation on floats is followed by a rounding `fl`; `dbl` of `Verif/Window/Float.lean` rounds as
doubles do.
-/

namespace Verif.Utils

open Verif

/-- What `random_split` raises: `OverflowError` (`int` of an infinite float) or another exception. -/
inductive SplitErr
  | py (e : PyErr)
  | overflow
  deriving DecidableEq, Repr

/-- `int(x)` of a float which is the result of an operation rounded to `x`: it is infinite from `2 ^ 1024` on. -/
def intFloat (x : ℚ) : Except SplitErr ℤ :=
  if 2 ^ 1024 ≤ |x| then .error .overflow else .ok (pyInt x)

/-- `random_split` (utils.py:127-135): the product of line 128 and the quotient of line 132 are rounded. `n_samples` is
converted to a float, which is exact up to `2 ^ 53`. `shuffled` is the value of `indices` after `np.random.shuffle`, any
permutation of `range(n_samples)`. -/
def randomSplitR (fl : ℚ → ℚ) (nSamples : ℕ) (ratio : ℚ) (shuffled : List ℕ) :
    Except SplitErr (List (List ℕ × List ℕ)) := do
  let nbTest ← intFloat (fl (ratio * nSamples))
  if ratio = 0 then .error (.py .zeroDivisionError)
  else
    let inv ← intFloat (fl (1 / ratio))
    match pyRange 0 (nbTest * inv) nbTest with
    | .error e => .error (.py e)
    | .ok starts => .ok (starts.map fun i =>
        (pyUpto shuffled i ++ pyFrom shuffled (i + nbTest), pySlice shuffled i (i + nbTest)))

/-- `manualy_normalize` (utils.py:8-18), on one element: the difference and the sum of lines 15 and 16, the difference and
the quotient of line 17 are rounded. -/
def manualyNormalizeR (fl : ℚ → ℚ) (low up x : ℚ) : ℚ :=
  let widths := fl (up - low)
  let widths := fl (widths + 1 * (if widths = 0 then 1 else 0))
  fl (fl (x - low) / widths)

/-- Rounded difference of two two-dimensional arrays, with numpy's broadcasting of the first dimension. -/
def subRowsR (fl : ℚ → ℚ) {d : ℕ} (a b : List (Fin d → ℚ)) : Py (List (Fin d → ℚ)) :=
  let sub := fun (x y : Fin d → ℚ) (j : Fin d) => fl (x j - y j)
  if a.length = b.length then .ok (List.zipWith sub a b)
  else match a, b with
    | [x], _ => .ok (b.map fun y => sub x y)
    | _, [y] => .ok (a.map fun x => sub x y)
    | _, _ => .error .valueError

/-- `filter_cont` (utils.py:77-89): the two sums and the quotient of line 88 are rounded, in that order. -/
def filterContR (fl : ℚ → ℚ) {d : ℕ} (data : List (Fin d → ℚ)) : Py (List (Fin d → ℚ)) := do
  let first ← pyGet data 0
  let last ← pyGet data (-1)
  let l1 := [first] ++ data ++ [last]
  let l2 := pyUpto l1 (-2)
  let l3 := pyFrom l1 2
  let l1 := pySlice l1 1 (-1)
  let s := List.zipWith (fun x y => fun j => fl (x j + y j)) l1 l2
  pure (List.zipWith (fun x y => fun j => fl (fl (x j + y j) / 3)) s l3)

/-- `velocities` (utils.py:94-100), with a rounded difference. -/
def velocitiesR (fl : ℚ → ℚ) {d : ℕ} (positions : List (Fin d → ℚ)) : Py (List (Fin d → ℚ)) := do
  let first ← pyGet positions 0
  let slided := pyFrom positions 1 ++ [first]
  subRowsR fl slided positions

/-- `delayed_velocities` (utils.py:103-123), with a rounded difference. -/
def delayedVelocitiesR (fl : ℚ → ℚ) {d : ℕ} (delay : ℤ) (positions : List (Fin d → ℚ)) (padding : String) :
    Py (List (Fin d → ℚ)) := do
  let n : ℤ := positions.length
  let delay := if delay > n then n else delay
  if padding = "circular" then
    let slided := pyFrom positions (-delay) ++ pyUpto positions (-delay)
    subRowsR fl positions slided
  else if padding = "zeros" then
    if delay < 0 then .error .valueError
    else
      let slided := List.replicate delay.toNat (0 : Fin d → ℚ) ++ pyUpto positions (-delay)
      subRowsR fl positions slided
  else .error .valueError

end Verif.Utils
