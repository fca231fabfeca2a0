import Verif.PyMore
import Mathlib.Data.Rat.Lemmas

/-!
# Model of `multimodal/evaluation.py`

Arrays are lists of rows of rational numbers (numpy floats are idealised, `nan` values are not
modelled except for the mean of an empty list, see `average`).  Sparse inputs
(`multimodal/evaluation.py:96-100`, `todense`) are represented by their dense value.
-/

namespace Verif.Evaluation

open Verif

/-- Position of the first minimum, given the best one so far (value and position). -/
def argMinFrom (best : ℚ) (bi i : ℕ) : List ℚ → ℕ
  | [] => bi
  | x :: xs => if x < best then argMinFrom x i (i + 1) xs else argMinFrom best bi (i + 1) xs

/-- numpy `argmin` of a row: position of the first minimum, `ValueError` if there is none. -/
def argMin : List ℚ → Py ℕ
  | [] => .error .valueError
  | x :: xs => .ok (argMinFrom x 0 1 xs)

/-- numpy `argmax` of a row: position of the first maximum, `ValueError` if there is none. -/
def argMax (row : List ℚ) : Py ℕ := argMin (row.map (- ·))

/-- numpy `average` of a list of booleans; `none` stands for `nan` (empty list). -/
def average (l : List Bool) : Option ℚ :=
  if l = [] then none else some ((l.map fun b => if b then (1 : ℚ) else 0).sum / l.length)

/-- `np.argmin(dists, axis=1)` for an array with `nCols` columns: `ValueError` without columns. -/
def argMinRows (nCols : ℕ) (dists : List (List ℚ)) : Py (List ℕ) :=
  if nCols = 0 then .error .valueError else dists.mapM argMin

/-- `multimodal/evaluation.py:103-106`, `all_distances`; `measure` is applied to each pair of rows
(the broadcasting of lines 104-105). -/
def allDistances (reco ex : List (List ℚ)) (measure : List ℚ → List ℚ → ℚ) : List (List ℚ) :=
  reco.map fun r => ex.map fun e => measure r e

/-- `multimodal/evaluation.py:75-78`, `dists_to_found_labels`. -/
def distsToFoundLabels {L : Type} (nCols : ℕ) (dists : List (List ℚ)) (exLabels : List L) :
    Py (List L) := do
  let matching ← argMinRows nCols dists
  matching.mapM fun (m : ℕ) => pyGet exLabels (m : ℤ)

/-- `multimodal/evaluation.py:81-84`, `found_labels_to_score`. -/
def foundLabelsToScore {L : Type} [DecidableEq L] (true_ found : List L) : Option ℚ :=
  average ((found.zip true_).map fun p => decide (p.1 = p.2))

/-- `multimodal/evaluation.py:62-72`, `scores_from_dists`; `nCols` is the second dimension of the
array (printing is not modelled). -/
def scoresFromDists {L : Type} [DecidableEq L] (nCols : ℕ) (dists : List (List ℚ))
    (true0 : List L) (true1 : Option (List L)) : Py (Option ℚ) := do
  let true1 ← match true1 with
    | none => if dists.length = nCols then .ok true0 else .error .assertionError
    | some l => .ok l
  let matching ← argMinRows nCols dists
  let found ← matching.mapM fun (m : ℕ) => pyGet true1 (m : ℤ)
  .ok (average ((found.zip true0).map fun p => decide (p.1 = p.2)))

/-- `multimodal/evaluation.py:109-116`, `classify_NN`. -/
def classifyNN {L : Type} (reco ex : List (List ℚ)) (exLabels : List L)
    (measure : List ℚ → List ℚ → ℚ) : Py (List L) :=
  distsToFoundLabels ex.length (allDistances reco ex measure) exLabels

/-- `multimodal/evaluation.py:119-130`, `evaluate_NN_label`. -/
def evaluateNNLabel {L : Type} [DecidableEq L] (reco test : List (List ℚ))
    (trueLabels testLabels : List L) (measure : List ℚ → List ℚ → ℚ) : Py (Option ℚ) :=
  scoresFromDists test.length (allDistances reco test measure) trueLabels (some testLabels)

/-- `labels.index(l, start)`: first position from `start` on; `none` is `ValueError`. -/
def indexFrom {L : Type} [DecidableEq L] (labels : List L) (l : L) (start : ℕ) : Option ℕ :=
  (labels.drop start).findIdx? (fun x => decide (x = l)) |>.map (· + start)

/-- `multimodal/evaluation.py:43-46`, inner loop of `chose_examples`; `next` is `start + 1`. -/
def choseLoop {L : Type} [DecidableEq L] (labels : List L) (l : L) : ℕ → ℕ → Py (List ℕ)
  | 0, _ => .ok []
  | k + 1, next =>
    match indexFrom labels l next with
    | none => .error .valueError
    | some start => do
      let rest ← choseLoop labels l k (start + 1)
      .ok (start :: rest)

/-- `multimodal/evaluation.py:36-47`, `chose_examples`; `labelSet` is the set in iteration order. -/
def choseExamples {L : Type} [DecidableEq L] (labels : List L) (labelSet : List L) (number : ℕ) :
    Py (List ℕ) := do
  let out ← labelSet.mapM fun l => choseLoop labels l number 0
  .ok out.flatten

/-- `multimodal/evaluation.py:50-58`, `evaluate_label_reco` for a one-dimensional array of
labels. -/
def evaluateLabelReco (nCols : ℕ) (recoActi : List (List ℚ)) (labels : List ℤ) :
    Py (Option ℚ) := do
  let best ← if nCols = 0 then .error .valueError else recoActi.mapM argMax
  if best.length = labels.length then
    .ok (average ((best.zip labels).map fun p => decide ((p.1 : ℤ) = p.2)))
  else .error .assertionError

/-- Broadcasting of two index arrays to the same length; `none` when they do not match. -/
def broadcast {A : Type} (a b : List A) : Option (List (A × A)) :=
  match a, b with
  | [x], b => some (b.map fun y => (x, y))
  | a, [y] => some (a.map fun x => (x, y))
  | a, b => if a.length = b.length then some (a.zip b) else none

/-- numpy `conf[true, found] += 1` (`multimodal/evaluation.py:92`) on the matrix `conf` of size `n`:
the values at all index pairs are read, incremented, then written back in order; indices out of
bounds and shapes that do not match raise `IndexError`. -/
def incrementAt (n : ℕ) (conf : ℕ → ℕ → ℚ) (true_ found : List ℤ) : Py (ℕ → ℕ → ℚ) :=
  match broadcast true_ found with
  | none => .error .indexError
  | some pairs => do
    let idx ← pairs.mapM fun p => match pyIndex n p.1, pyIndex n p.2 with
      | some i, some j => (.ok (i, j) : Py (ℕ × ℕ))
      | _, _ => .error .indexError
    let values := idx.map fun p => conf p.1 p.2 + 1
    .ok ((idx.zip values).foldl
      (fun c q => fun i j => if i = q.1.1 ∧ j = q.1.2 then q.2 else c i j) conf)

/-- `multimodal/evaluation.py:87-93`, `found_labels_to_confusion`; the matrix is a function of its
two indices. -/
def foundLabelsToConfusion (true_ found : List ℤ) (n : ℕ) : Py (ℕ → ℕ → ℚ) :=
  incrementAt n (fun _ _ => 0) true_ found

/-- `multimodal/evaluation.py:13-19`, one row of `compare_labels_given_nb`: `idx` is the row of
`argsort` (an argument, as it depends on the sorting algorithm in case of ties).  The labels are
integers and the row has as many labels as scores (simplification: shapes are assumed to match;
other shapes are in `Verif.Evaluation.Shapes`). -/
def compareGivenNb (idx : List ℕ) (trueVect : List ℤ) : Bool :=
  let nbTrue := trueVect.sum
  let reco := (List.range trueVect.length).map fun j => (((pyUpto idx nbTrue).count j : ℕ) : ℤ)
  decide (reco = trueVect)

/-- `multimodal/evaluation.py:22-24`, `score_labels_given_nb` (and line 17: no row raises
`ValueError` in `vstack`). -/
def scoreGivenNb (idx : List (List ℕ)) (trueVects : List (List ℤ)) : Py (Option ℚ) :=
  if trueVects = [] then .error .valueError
  else .ok (average ((idx.zip trueVects).map fun p => compareGivenNb p.1 p.2))

/-- `multimodal/evaluation.py:27-28`, one row of `compare_labels_threshold` (shapes are assumed to
match; other shapes are in `Verif.Evaluation.Shapes`). -/
def compareThreshold (reco : List ℚ) (trueVect : List ℤ) (threshold : ℚ) : Bool :=
  (reco.zip trueVect).all fun p => decide ((if p.1 ≥ threshold then (1 : ℤ) else 0) = p.2)

/-- `multimodal/evaluation.py:31-33`, `score_labels_threshold`. -/
def scoreThreshold (reco : List (List ℚ)) (trueVects : List (List ℤ)) (threshold : ℚ) : Option ℚ :=
  average ((reco.zip trueVects).map fun p => compareThreshold p.1 p.2 threshold)

end Verif.Evaluation
