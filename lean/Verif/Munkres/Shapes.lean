import Verif.Munkres.Model

/-!
# Weights of matrices which are not square (`multimodal/lib/munkres.py:163-198`)

`np.multiply` repeats axes of size 1, and indices from the end are accepted in permutations.
-/

namespace Verif.Munkres

open Verif

/-- `permutation_matrix` (`/repo/multimodal/lib/munkres.py:163-167`) for a list of integers. -/
def permutationMatrixAny (perm : List ℤ) : Py Mat :=
  match perm.mapM (pyIndex perm.length) with
  | some cols => .ok ⟨perm.length, perm.length, fun i j => if cols[i]? = some j then 1 else 0⟩
  | none => .error .indexError

/-- The size of an axis after broadcasting. -/
def axisSize (a b : ℕ) : Option ℕ :=
  if a = b then some a else if a = 1 then some b else if b = 1 then some a else none

/-- The position which is read in an axis of size `n`. -/
def axisPos (n i : ℕ) : ℕ := if n = 1 then 0 else i

/-- `np.multiply` of two arrays. -/
def multiply (a b : Mat) : Py Mat :=
  match axisSize a.n1 b.n1, axisSize a.n2 b.n2 with
  | some n, some m => .ok ⟨n, m, fun i j =>
      a.e (axisPos a.n1 i) (axisPos a.n2 j) * b.e (axisPos b.n1 i) (axisPos b.n2 j)⟩
  | _, _ => .error .valueError

/-- `weight` (`/repo/multimodal/lib/munkres.py:170-171`). -/
def weightAny (perm : List ℤ) (w : Mat) : Py ℚ := do
  let p ← permutationMatrixAny perm
  let m ← multiply w p
  return m.entries.sum

/-- `min_weight` (`/repo/multimodal/lib/munkres.py:174-177`); `noIndex` is what numpy raises for an index
`None` in a list of indices (`IndexError`, or `TypeError` in former versions). -/
def minWeightAny (noIndex : PyErr) (fuel : ℕ) (w : Mat) : Option (Py ℚ) :=
  (minWeightPerm fuel w).map fun r => r.bind fun l =>
    if none ∈ l then .error noIndex else weightAny (l.map fun o => ((o.getD 0 : ℕ) : ℤ)) w

/-- `min_weight_perm_brute_force` (`/repo/multimodal/lib/munkres.py:189-198`). -/
def bruteForceAny (w : Mat) : Py (List ℕ) := do
  let init : ℚ × List ℕ := (((List.range (min w.n1 w.n2)).map fun i => w.e i i).sum, List.range w.n1)
  let r ← (allPerms (List.range w.n1)).foldlM (fun (acc : ℚ × List ℕ) perm => do
    let c ← weightAny (perm.map fun (j : ℕ) => (j : ℤ)) w
    return if c < acc.1 then (c, perm) else acc) init
  return r.2

end Verif.Munkres
