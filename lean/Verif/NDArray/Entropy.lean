import Verif.NDArray.Model
import Verif.Metrics.Model

/-!
# Model of `conditional_entropy` and `hoyer_sparseness` on arrays of any number of dimensions

`Verif/Metrics/Model.lean` has them on matrices.  Values are real numbers.
-/

namespace Verif.NDArray

/-- A list with two positions exchanged. -/
def swapL (k l : ℕ) (x : List ℕ) : List ℕ :=
  (List.range x.length).map fun i => x.getD (if i = k then l else if i = l then k else i) 0

/-- `a.swapaxes(axis1, axis2)`: `AxisError`, a `ValueError`, for axes which the array does not have. -/
def swapaxes (a : ND ℝ) (axis1 axis2 : ℤ) : Py (ND ℝ) := do
  let k ← checkAxis a.shape.length axis1
  let l ← checkAxis a.shape.length axis2
  return ofIndices (swapL k l a.shape) fun idx => (a.get (swapL k l idx)).getD 0

/-- `s.reshape((np.prod(s.shape[:-1]), s.shape[-1]))` (`/repo/multimodal/lib/metrics.py:54`).  The product of no length is
the float 1.0, which is not a length: `TypeError` (versions of numpy before 1.12 accept it).  An array without dimension,
for which `swapaxes` raises before, has no last length: `IndexError`. -/
def flattenFirst (s : ND ℝ) : Py (ND ℝ) :=
  if s.shape = [] then .error .indexError
  else if s.shape.dropLast = [] then .error .typeError
  else .ok ⟨[s.shape.dropLast.prod, s.shape.getLastD 0], s.data⟩

/-- `entropy` (`/repo/multimodal/lib/metrics.py:33-34`) of an array. -/
noncomputable def entropyND (a : ND ℝ) : ℝ :=
  -(a.data.map fun v => v * Real.log (v + 1 * Metrics.ind (v = 0))).sum

/-- `conditional_entropy` (`/repo/multimodal/lib/metrics.py:46-55`). -/
noncomputable def conditionalEntropyND (histo : ND ℝ) (axis : ℤ) : Py ℝ :=
  if Metrics.allcloseOne histo.data.sum then do
    let s ← swapaxes histo axis (-1)
    let s ← flattenFirst s
    let s ← npSum s (some 0)
    return entropyND histo - entropyND s
  else .error .assertionError

/-- `t[i]` for a tuple: `IndexError` if it has no such position. -/
def tupleGet (t : List ℕ) (i : ℤ) : Py ℕ :=
  if 0 ≤ i ∧ i < t.length then .ok (t.getD i.toNat 0)
  else if -t.length ≤ i ∧ i < 0 then .ok (t.getD (i + t.length).toNat 0)
  else .error .indexError

/-- `np.average(a)`, `nan` without values. -/
noncomputable def averageND (a : ND ℝ) : Option ℝ := if a.data.length = 0 then none else some (a.data.sum / a.data.length)

/-- `hoyer_sparseness` (`/repo/multimodal/lib/metrics.py:23-30`); `none` is `nan` or an infinite value, from an average of
no value or a division by zero.  `norm_1` and `norm_2` have the same shape. -/
noncomputable def hoyerND (X : ND ℝ) (axis : ℤ) (eps : ℝ) : Py (Option ℝ) := do
  let n ← tupleGet X.shape axis
  let sqrtN := Real.sqrt n
  let s1 ← npSum (X.map fun x => |x|) (some axis)
  let norm1 := s1.map fun x => x + eps
  let s2 ← npSum (X.map fun x => x * x) (some axis)
  let norm2 := s2.map fun x => Real.sqrt x + eps
  let average := averageND ⟨norm1.shape, List.zipWith (· / ·) norm1.data norm2.data⟩
  return average.bind fun m => divide (sqrtN - m) (sqrtN - 1)

end Verif.NDArray
