import Verif.Py
import Mathlib.Analysis.SpecialFunctions.Log.Basic
import Mathlib.Analysis.SpecialFunctions.Sqrt
import Mathlib.Algebra.BigOperators.Fin

/-!
# Model of `multimodal/lib/metrics.py`

Floats are real numbers.  An array is a function on a finite type of indices, so that every
statement holds for vectors of any length and, when the sum is over all axes, for arrays of any
shape.  When the code sums along an axis the model is that of one slice, the slices being
independent.  Quotients by zero and logarithms of zero, which are `nan` or `inf` in numpy and 0 in
Lean, are excluded by the hypotheses of the theorems.
-/

namespace Verif.Metrics

open Classical in
/-- The truth value of a comparison used as a number. -/
noncomputable def ind (p : Prop) : ℝ := if p then 1 else 0

variable {ι κ : Type} [Fintype ι] [Fintype κ]

/-- `EPSILON` (`/repo/multimodal/lib/metrics.py:15`). -/
noncomputable def EPSILON : ℝ := 1 / 10 ^ 8

/-- `generalized_KL` (`/repo/multimodal/lib/metrics.py:18-20`). -/
noncomputable def generalizedKL (x y : ι → ℝ) (eps : ℝ) : ℝ :=
  ∑ i, (x i * Real.log ((x i + eps) / (y i + eps)) - x i + y i)

/-- `hoyer_sparseness` (`/repo/multimodal/lib/metrics.py:23-30`) of an array whose slices along the
given axis are indexed by `ι` and have the indices `κ`. -/
noncomputable def hoyer (X : ι → κ → ℝ) (eps : ℝ) : ℝ :=
  let sqrtN := Real.sqrt (Fintype.card κ)
  let norm1 : ι → ℝ := fun i => (∑ j, |X i j|) + eps
  let norm2 : ι → ℝ := fun i => Real.sqrt (∑ j, X i j ^ 2) + eps
  let average := (∑ i, norm1 i / norm2 i) / (Fintype.card ι : ℝ)
  (sqrtN - average) / (sqrtN - 1)

/-- `entropy` (`/repo/multimodal/lib/metrics.py:33-34`). -/
noncomputable def entropy (v : ι → ℝ) : ℝ :=
  -∑ i, v i * Real.log (v i + 1 * ind (v i = 0))

open Classical in
/-- `np.allclose(x, 1.)` with default tolerances. -/
noncomputable def allcloseOne (x : ℝ) : Bool := decide (|x - 1| ≤ 1 / 10 ^ 8 + 1 / 10 ^ 5 * |(1 : ℝ)|)

/-- `mutual_information` (`/repo/multimodal/lib/metrics.py:37-43`) of a matrix. -/
noncomputable def mutualInformation (h : ι → κ → ℝ) : Py ℝ :=
  if allcloseOne (∑ i, ∑ j, h i j) then
    let zeros : ι → κ → ℝ := fun i j => ind (h i j = 0) * 1
    .ok (∑ i, ∑ j, h i j * Real.log ((h i j + zeros i j) /
      ((∑ i', h i' j) * (∑ j', h i j') + zeros i j)))
  else .error .assertionError

/-- The marginal `s` of `conditional_entropy` (`/repo/multimodal/lib/metrics.py:53-54`) for a matrix
and `axis=0`: `swapaxes(0, -1)` transposes, and the sum over the first axis remains. -/
noncomputable def marginal0 (h : ι → κ → ℝ) : ι → ℝ :=
  let s : κ → ι → ℝ := fun j i => h i j
  fun i => ∑ j, s j i

/-- The same for `axis=1` (or -1), for which `swapaxes` does nothing. -/
noncomputable def marginal1 (h : ι → κ → ℝ) : κ → ℝ :=
  fun j => ∑ i, h i j

/-- `conditional_entropy` (`/repo/multimodal/lib/metrics.py:46-55`) of a matrix.  An axis outside
the array raises `AxisError`, which is a `ValueError`. -/
noncomputable def conditionalEntropy (h : ι → κ → ℝ) (axis : ℤ) : Py ℝ :=
  if allcloseOne (∑ i, ∑ j, h i j) then
    let joint : ι × κ → ℝ := fun p => h p.1 p.2
    if axis = 0 ∨ axis = -2 then .ok (entropy joint - entropy (marginal0 h))
    else if axis = 1 ∨ axis = -1 then .ok (entropy joint - entropy (marginal1 h))
    else .error .valueError
  else .error .assertionError

/-- `a /= np.expand_dims(a.sum(axis=axis), axis)` on one slice. -/
noncomputable def normalizeSlice (a : ι → ℝ) : ι → ℝ := fun i => a i / ∑ j, a j

/-- `kl_div` (`/repo/multimodal/lib/metrics.py:58-62`) on one slice of arrays of floats.  The
arguments are modified in place: the result is the value and the arguments after the call. -/
noncomputable def klDiv (a b : ι → ℝ) (_eps : ℝ) (normalize : Bool) : ℝ × (ι → ℝ) × (ι → ℝ) :=
  let a := if normalize then normalizeSlice a else a
  let b := if normalize then normalizeSlice b else b
  (generalizedKL a b EPSILON, a, b)

/-- `rev_kl_div` (`/repo/multimodal/lib/metrics.py:65-66`). -/
noncomputable def revKlDiv (a b : ι → ℝ) (eps : ℝ) (normalize : Bool) : ℝ × (ι → ℝ) × (ι → ℝ) :=
  let r := klDiv b a eps normalize
  (r.1, r.2.2, r.2.1)

/-- `sym_kl_div` (`/repo/multimodal/lib/metrics.py:69-70`): the second call sees the arguments as
the first one left them. -/
noncomputable def symKlDiv (a b : ι → ℝ) (eps : ℝ) (normalize : Bool) : ℝ × (ι → ℝ) × (ι → ℝ) :=
  let r := klDiv a b eps normalize
  let r' := revKlDiv r.2.1 r.2.2 eps normalize
  (1 / 2 * (r.1 + r'.1), r'.2)

/-- `frobenius` (`/repo/multimodal/lib/metrics.py:73-74`) on one slice. -/
noncomputable def frobenius (a b : ι → ℝ) : ℝ := Real.sqrt (∑ i, (a i - b i) ^ 2)

/-- `cosine_similarity` (`/repo/multimodal/lib/metrics.py:77-82`) on one slice. -/
noncomputable def cosineSimilarity (a b : ι → ℝ) : ℝ :=
  let ab := ∑ i, a i * b i
  ab / (Real.sqrt ((∑ i, a i ^ 2) * ∑ i, b i ^ 2) + ind (ab = 0))

/-- `cosine_diff` (`/repo/multimodal/lib/metrics.py:85-86`) on one slice. -/
noncomputable def cosineDiff (a b : ι → ℝ) : ℝ := -cosineSimilarity a b

end Verif.Metrics
