import Verif.Window.Model

/-!
# Null steps and rates (`multimodal/lib/window.py`)

In `Verif/Window/Model.lean` quotients by zero are those of Lean.  Here they raise `ZeroDivisionError`, as Python's do (a
numpy number would give `inf` or `nan` with a warning: steps and rates are Python numbers).
-/

namespace Verif.Window

open Verif

/-- `x / y` of Python numbers. -/
def pyDiv (x y : ℚ) : Py ℚ := if y = 0 then .error .zeroDivisionError else .ok (x / y)

/-- `_arange` (window.py:37-50). -/
def arangePy (left right step : ℚ) (incl : Bool) (tol : ℚ) : Py (List ℚ) := do
  let x ← pyDiv ((right - left) * 1) step
  let t ← pyDiv tol step
  let nSteps := toApproxInt x t false
  if nSteps < 0 then pure []
  else
    let l := (List.range nSteps.toNat).map fun (i : ℕ) => left + (i : ℚ) * step
    let last := snapAbove (left + (nSteps : ℚ) * step) right tol
    pure (if incl || last != right then l ++ [last] else l)

/-- `slider` (window.py:345-357). -/
def sliderPy (tStart tEnd width shift : ℚ) (partialWin : Bool) (tol : ℚ) : Py (List (ℚ × ℚ)) := do
  let endStart := if partialWin then tEnd else tEnd - width
  let starts ← arangePy tStart endStart shift (!partialWin) tol
  pure (starts.map fun t => (t, snapAbove (t + width) tEnd tol))

/-- `concat_of_frames` (window.py:360-367). -/
def concatOfFramesPy {α γ : Type} (tStart tEnd rate : ℚ) : Py (Concat α (Option γ)) := do
  let duration ← pyDiv 1 rate
  let times ← sliderPy tStart tEnd duration duration true TOL
  Concat.init (times.map fun p => Win.basic ⟨p.1, p.2, none⟩)

/-- `ArrayTimeWindow.__init__` (window.py:170-172) with `SampledTimeWindow.__init__` (window.py:132-136). -/
def ArrayWin.initPy {α : Type} (array : List α) (start rate : ℚ) : Py (ArrayWin α) := do
  let d ← pyDiv ((array.length : ℤ) * 1) rate
  pure ⟨array, start, start + d, rate⟩

end Verif.Window
