import Verif.Evaluation.Double

/-!
# Soft vector quantisation with doubles

`multimodal/lib/vector_quantization.py` with numbers as computed, see `Verif/Evaluation/Double.lean`.
-/

namespace Verif.Features.D

open Verif Verif.Window Verif.Evaluation.D

/-- `np.exp(a)`; `ex` gives the values of the library at doubles. -/
def exp (ex : ℚ → ℚ) : Flt → Flt
  | .fin x => if |ex x| < 2 ^ 1024 then .fin (ex x) else .inf false
  | .inf s => if s then .fin 0 else .inf false
  | .nan => .nan

/-- `np.min` of a row, which has an element: NaN if there is one, else the least value. -/
def npMin (l : List Flt) : Flt :=
  match argmin l with
  | .ok m => l.getD m .nan
  | .error _ => .nan

/-- `EPSILON` (`/repo/multimodal/lib/vector_quantization.py:12`). -/
def EPSILON : ℚ := dbl (1 / 10 ^ 9)

/-- An element of `square_distances` (`/repo/multimodal/lib/vector_quantization.py:15-25`). -/
def squareDistance (t : Tree) (v c : Row) : Flt := t.sum fun j => square (sub (v j) (c j))

/-- A row of the result of `soft_associate` (`/repo/multimodal/lib/vector_quantization.py:42-48`), from a row of distances.
-/
def softRow (ex : ℚ → ℚ) (t : Tree) (alpha : Flt) (dists : List Flt) : List Flt :=
  let minDist := npMin dists
  let weights := dists.map fun d => exp ex (div (mul (neg alpha) d) (add (.fin EPSILON) minDist))
  let sums := t.sum fun k => weights.getD k (.fin 0)
  weights.map fun w => div w sums

/-- `soft_associate` (`/repo/multimodal/lib/vector_quantization.py:36-48`), for vectors of `dv` and centroids of `dc`
columns.  The order of additions may depend on positions: `t` for the distances, `tk` for the weights.  The least value of
nothing raises `ValueError`. -/
def softAssociate (ex : ℚ → ℚ) (t : ℕ → ℕ → Tree) (tk : ℕ → Tree) (dv dc : ℕ) (vectors centroids : List Row)
    (alpha : Flt) : Py (List (List Flt)) :=
  if dv ≠ dc then .error .assertionError
  else if centroids = [] then .error .valueError
  else .ok (vectors.mapIdx fun i v => softRow ex (tk i) alpha (centroids.mapIdx fun k c => squareDistance (t i k) v c))

end Verif.Features.D
