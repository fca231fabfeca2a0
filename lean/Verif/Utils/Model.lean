import Verif.PyMore
import Mathlib.Algebra.Group.Pi.Basic
import Mathlib.Algebra.Order.Field.Rat

/-!
# Model of `multimodal/lib/utils.py`

Arrays of floats are lists of rows, rows are functions `Fin d → ℚ` (floating point rounding is not
modelled). The functions which numpy applies element by element are modelled on one element.
-/

namespace Verif.Utils

open Verif

/-- `manualy_normalize` (utils.py:8-18), on one element. -/
def manualyNormalize (low up x : ℚ) : ℚ :=
  let widths := up - low
  let widths := widths + 1 * (if widths = 0 then 1 else 0)
  (x - low) / widths

/-- `filter_bound` (utils.py:23-26), on one element. -/
def filterBound (x inf sup : ℚ) : ℚ := max (min x sup) inf

/-! ## Nested lists -/

/-- Lists nested `n` times over elements of `α`. -/
def Nest (α : Type) : ℕ → Type
  | 0 => α
  | n + 1 => List (Nest α n)

/-- `meta_map` (utils.py:31-39). In Python 3 `map` returns an iterator; the model is the list of
its values. -/
def metaMap {α β : Type} (f : α → β) : (n : ℕ) → Nest α n → Nest β n
  | 0, x => f x
  | n + 1, l => List.map (metaMap f n) l

/-- `distribute` (utils.py:42-60). -/
def distribute {α : Type} (values : List α) : (level : ℕ) → Nest (List α) level →
    Nest (List α) (level + 1)
  | 0, x => values.map fun v => (show List α from x) ++ [v]
  | n + 1, x => List.map (distribute values n) x

/-- `flatten` (utils.py:63-72): the values of the generator, in order. -/
def flatten {α : Type} : (level : ℕ) → Nest α level → List α
  | 0, x => [x]
  | n + 1, l => List.flatMap (flatten n) l

/-! ## Filters and velocities -/

/-- Difference of two two-dimensional arrays, with numpy's broadcasting of the first dimension. -/
def subRows {V : Type} [Sub V] (a b : List V) : Py (List V) :=
  if a.length = b.length then .ok (List.zipWith (· - ·) a b)
  else match a, b with
    | [x], _ => .ok (b.map fun y => x - y)
    | _, [y] => .ok (a.map fun x => x - y)
    | _, _ => .error .valueError

/-- `filter_cont` (utils.py:77-89). -/
def filterCont {d : ℕ} (data : List (Fin d → ℚ)) : Py (List (Fin d → ℚ)) := do
  let first ← pyGet data 0
  let last ← pyGet data (-1)
  let l1 := [first] ++ data ++ [last]
  let l2 := pyUpto l1 (-2)
  let l3 := pyFrom l1 2
  let l1 := pySlice l1 1 (-1)
  pure (List.zipWith (fun x y => fun j => (x j + y j) / 3) l1 (List.zipWith (· + ·) l2 l3))

/-- `velocities` (utils.py:94-100). -/
def velocities {d : ℕ} (positions : List (Fin d → ℚ)) : Py (List (Fin d → ℚ)) := do
  let first ← pyGet positions 0
  let slided := pyFrom positions 1 ++ [first]
  subRows slided positions

/-- `delayed_velocities` (utils.py:103-123). `np.zeros` raises `ValueError` on a negative size. -/
def delayedVelocities {d : ℕ} (delay : ℤ) (positions : List (Fin d → ℚ)) (padding : String) :
    Py (List (Fin d → ℚ)) := do
  let n : ℤ := positions.length
  let delay := if delay > n then n else delay
  if padding = "circular" then
    let slided := pyFrom positions (-delay) ++ pyUpto positions (-delay)
    subRows positions slided
  else if padding = "zeros" then
    if delay < 0 then .error .valueError
    else
      let slided := List.replicate delay.toNat (0 : Fin d → ℚ) ++ pyUpto positions (-delay)
      subRows positions slided
  else .error .valueError

/-! ## Train and test sets -/

/-- `random_split` (utils.py:127-135); `shuffled` is the value of `indices` after
`np.random.shuffle`, any permutation of `range(n_samples)`. -/
def randomSplit (nSamples : ℕ) (ratio : ℚ) (shuffled : List ℕ) : Py (List (List ℕ × List ℕ)) :=
  let nbTest := pyInt (ratio * nSamples)
  if ratio = 0 then .error .zeroDivisionError
  else do
    let starts ← pyRange 0 (nbTest * pyInt (1 / ratio)) nbTest
    pure (starts.map fun i =>
      (pyUpto shuffled i ++ pyFrom shuffled (i + nbTest), pySlice shuffled i (i + nbTest)))

/-- `leave_one_out` (utils.py:138-142). -/
def leaveOneOut (nSamples : ℕ) : List (List ℕ × List ℕ) :=
  (List.range nSamples).map fun i => ((List.range nSamples).filter fun j => j != i, [i])

end Verif.Utils
