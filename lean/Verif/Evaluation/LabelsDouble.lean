import Verif.Evaluation.Double
import Verif.Evaluation.Model

/-!
# Recognition of labels with doubles

The functions of `multimodal/evaluation.py` which compare activations with labels, on floats with infinities and NaN.
-/

namespace Verif.Evaluation.D

open Verif Verif.Window

/-- `argmax` of a row: the first NaN if there is one, else the first of the greatest. -/
def argmax (row : List Flt) : Py ℕ := argmin (row.map neg)

/-- `evaluate_label_reco` (`/repo/multimodal/evaluation.py:50-58`) for a one-dimensional array of labels and activations
with `nCols` columns. -/
def evaluateLabelReco (nCols : ℕ) (recoActi : List (List Flt)) (labels : List ℤ) : Py Flt := do
  let best ← if nCols = 0 then .error .valueError else recoActi.mapM argmax
  if best.length = labels.length then
    return average ((best.zip labels).map fun p => decide ((p.1 : ℤ) = p.2))
  else .error .assertionError

/-- One row of `compare_labels_threshold` (`/repo/multimodal/evaluation.py:27-28`); shapes are assumed to match. -/
def compareThreshold (reco : List Flt) (trueVect : List ℤ) (threshold : Flt) : Bool :=
  (reco.zip trueVect).all fun p => decide ((if ge p.1 threshold then (1 : ℤ) else 0) = p.2)

/-- `score_labels_threshold` (`/repo/multimodal/evaluation.py:31-33`). -/
def scoreThreshold (reco : List (List Flt)) (trueVects : List (List ℤ)) (threshold : Flt) : Flt :=
  average ((reco.zip trueVects).map fun p => compareThreshold p.1 p.2 threshold)

/-- `score_labels_given_nb` (`/repo/multimodal/evaluation.py:22-24`); `idx` is what `argsort` gives for the opposite of
activations, and rows are compared by `compareGivenNb`, which does not depend on the kind of numbers. -/
def scoreGivenNb (idx : List (List ℕ)) (trueVects : List (List ℤ)) : Py Flt :=
  if trueVects = [] then .error .valueError
  else .ok (average ((idx.zip trueVects).map fun p => compareGivenNb p.1 p.2))

/-- `scores_from_dists` (`/repo/multimodal/evaluation.py:62-72`) without printing; `nCols` is the second dimension of the
array. -/
def scoresFromDists {α : Type} [DecidableEq α] (nCols : ℕ) (dists : List (List Flt)) (true0 : List α)
    (true1 : Option (List α)) : Py Flt := do
  let true1 ← match true1 with
    | none => if dists.length = nCols then .ok true0 else .error .assertionError
    | some l => .ok l
  let matching ← argminRows nCols dists
  let found ← matching.mapM fun (m : ℕ) => pyGet true1 (m : ℤ)
  return average ((found.zip true0).map fun p => decide (p.1 = p.2))

/-- `evaluate_NN_label` (`/repo/multimodal/evaluation.py:119-130`). -/
def evaluateNNLabel {α : Type} [DecidableEq α] (reco test : List Row) (trueLabels testLabels : List α)
    (measure : ℕ → ℕ → Row → Row → Flt) : Py Flt :=
  scoresFromDists test.length (allDistances reco test measure) trueLabels (some testLabels)

end Verif.Evaluation.D
