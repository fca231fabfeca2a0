import Verif.Evaluation.Model

/-!
# Comparisons of labels for arrays of any shapes (`multimodal/evaluation.py:8-33`)

`Verif.Evaluation.Model` has the comparison of one row of activations with one row of labels of the same
size. Here arrays have one or two dimensions, of any sizes. A result without dimension is a list with one
element, which has the same average.
-/

namespace Verif.Evaluation

open Verif

/-- An array with one dimension, or with two and its number of columns. -/
inductive NArr (α : Type)
  | vec (l : List α)
  | mat (cols : ℕ) (rows : List (List α))

/-- The rows have the number of columns. -/
def NArr.Wf {α : Type} : NArr α → Prop
  | .vec _ => True
  | .mat cols rows => ∀ r ∈ rows, r.length = cols

/-- One row of `compare_labels_given_nb` (`/repo/multimodal/evaluation.py:12-19`): indices out of the
identity matrix `e` raise `IndexError`. -/
def rowGivenNb (idx : List ℕ) (labels : List ℤ) : Py Bool :=
  if (pyUpto idx labels.sum).all (· < labels.length) then .ok (compareGivenNb idx labels)
  else .error .indexError

/-- `compare_labels_given_nb` (`/repo/multimodal/evaluation.py:12-19`) for two dimensions: there are as many
rows as rows of labels. -/
def rowsGivenNb (idx : List (List ℕ)) (labels : List (List ℤ)) : Py (List Bool) :=
  if labels = [] then .error .valueError
  else labels.zipIdx.mapM fun p => do
    let r ← pyGet idx (p.2 : ℤ)
    rowGivenNb r p.1

/-- `compare_labels_given_nb` (`/repo/multimodal/evaluation.py:8-19`); `idx` is the array which `argsort` gives
for the opposite of activations, of their shape. For one row of activations and two dimensions of labels,
`nb_true[0]` is an array, which is not the bound of a slice (numpy before 1.12, which takes an array of one
element, is not modelled); for two dimensions of activations and one row of
labels, `nb_true` has no dimension, thus no element. -/
def compareGivenNbAny : NArr ℕ → NArr ℤ → Py (List Bool)
  | .vec idx, .vec labels => rowsGivenNb [idx] [labels]
  | .vec _, .mat _ _ => .error .typeError
  | .mat _ _, .vec labels => if labels = [] then .error .valueError else .error .indexError
  | .mat _ idx, .mat _ labels => rowsGivenNb idx labels

/-- `score_labels_given_nb` (`/repo/multimodal/evaluation.py:22-24`). -/
def scoreGivenNbAny (idx : NArr ℕ) (labels : NArr ℤ) : Py (Option ℚ) := do
  let found ← compareGivenNbAny idx labels
  return average found

/-- The size of an axis after broadcasting. -/
def bdim (a b : ℕ) : Option ℕ := if a = b then some a else if a = 1 then some b else if b = 1 then some a else none

/-- Broadcasting of an axis of size 1. -/
def stretch {α : Type} (n : ℕ) : List α → List α
  | [a] => List.replicate n a
  | l => l

/-- An array as rows: one dimension is one row. -/
def NArr.cols {α : Type} : NArr α → ℕ
  | .vec l => l.length
  | .mat cols _ => cols

/-- An array as rows: one dimension is one row. -/
def NArr.rows {α : Type} : NArr α → List (List α)
  | .vec l => [l]
  | .mat _ rows => rows

/-- `compare_labels_threshold` (`/repo/multimodal/evaluation.py:27-28`). `mismatch` is what is raised for shapes
which do not match: `==` raises `ValueError`, or is `False` in former versions of numpy, which has no `all`
(`AttributeError`). -/
def compareThresholdAny (mismatch : PyErr) (reco : NArr ℚ) (labels : NArr ℤ) (threshold : ℚ) : Py (List Bool) :=
  match bdim reco.rows.length labels.rows.length, bdim reco.cols labels.cols with
  | some n, some m => .ok (List.zipWith (fun r l => compareThreshold (stretch m r) (stretch m l) threshold)
      (stretch n reco.rows) (stretch n labels.rows))
  | _, _ => .error mismatch

/-- `score_labels_threshold` (`/repo/multimodal/evaluation.py:31-33`). -/
def scoreThresholdAny (mismatch : PyErr) (reco : NArr ℚ) (labels : NArr ℤ) (threshold : ℚ) : Py (Option ℚ) := do
  let found ← compareThresholdAny mismatch reco labels threshold
  return average found

end Verif.Evaluation
