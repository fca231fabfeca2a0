import Verif.PyMore
import Verif.Corpus.Model
import Verif.Metrics.Model
import Verif.Munkres.Model
import Verif.Pairing.Model
import Verif.Window.Model
import Verif.Experiment.Model

/-!
# Model of the scripts of `/repo/samples`

What the scripts compute from logs, records and windows: the statistics of words and labels and the
confusion matrix (`plot_image_sound_eval_sliding.py`), the information between internal
coefficients and labels (`plot_info_matrix.py`), the names of the jobs and the collection of their
results (`launcher.py`), and the sliding windows (`image_sound_eval_sliding.py`).  Drawing, command
lines, pools of processes and the features of the windows are not modelled.  Counts and quotients
of counts, which are floats in the code, are rational or real numbers.
-/

namespace Verif.Samples

open Verif.Corpus (Str)

/-! ### Words and labels -/

/-- `list(set(l))`: the elements of `l` without repetition, in an order which is not specified. -/
structure SetOrder where
  enum : List Str → List Str

/-- `list(set(l))` has the elements of `l`, once each. -/
def SetOrder.OK (S : SetOrder) : Prop :=
  ∀ l, (S.enum l).Nodup ∧ ∀ x, x ∈ S.enum l ↔ x ∈ l

/-- `l.index(x)`: `ValueError` when absent. -/
def listIndex {α : Type} [BEq α] [LawfulBEq α] (l : List α) (x : α) : Py ℕ :=
  if x ∈ l then .ok (l.idxOf x) else .error .valueError

/-- `r.trans.strip('.?!').lower().split()`
(`/repo/samples/plot_image_sound_eval_sliding.py:61`); `ws` tells the white spaces.  Only the ASCII
letters are changed by `lower`. -/
def transWords (ws : Char → Bool) (t : Str) : List Str :=
  Corpus.words ws (Corpus.lower (Corpus.strip (fun c => c == '.' || c == '?' || c == '!') t))

/-- `np.bincount(idx, minlength=n)`. -/
def bincount (idx : List ℕ) (n : ℕ) : List ℕ :=
  (List.range (max n (idx.foldr (fun i m => max (i + 1) m) 0))).map fun k => idx.count k

/-- `sum of the rows`, `np.sum(1. * np.vstack(l), axis=0)`: `vstack` of an empty list, or of rows of
different lengths, raises `ValueError`. -/
def sumRows (l : List (List ℕ)) : Py (List ℚ) :=
  match l with
  | [] => .error .valueError
  | r :: _ =>
    if l.all (fun x => x.length == r.length) then
      .ok ((List.range r.length).map fun i => (l.map fun x => ((x.getD i 0 : ℕ) : ℚ)).sum)
    else .error .valueError

/-- `np.vstack(rows).T`. -/
def stackTransposed (rows : List (List ℚ)) : Py (List (List ℚ)) :=
  match rows with
  | [] => .error .valueError
  | r :: _ =>
    if rows.all (fun x => x.length == r.length) then
      .ok ((List.range r.length).map fun i => rows.map fun x => x.getD i 0)
    else .error .valueError

/-- The loop which groups the counts by label
(`/repo/samples/plot_image_sound_eval_sliding.py:67-69`). -/
def groupCounts (allLabels : List Str) :
    List (Str × List ℕ) → List (List (List ℕ)) → Py (List (List (List ℕ)))
  | [], acc => .ok acc
  | (l, h) :: rest, acc => do
    let j ← listIndex allLabels l
    groupCounts allLabels rest (acc.modify j fun b => b ++ [h])

/-- `all_words` (`/repo/samples/plot_image_sound_eval_sliding.py:62-64`). -/
def allWords (S : SetOrder) (allLabels : List Str) (wordsByRecord : List (List Str)) : List Str :=
  allLabels ++ Corpus.sorted ((S.enum wordsByRecord.flatten).filter fun w => decide (w ∉ allLabels))

/-- `word_histo_by_label` (`/repo/samples/plot_image_sound_eval_sliding.py:57-74`) of the
transcriptions of the records and their labels: `h`, `p_labels`, `all_labels` and `all_words`. -/
def wordHisto (ws : Char → Bool) (S : SetOrder) (trans labels : List Str) :
    Py (List (List ℚ) × List ℚ × List Str × List Str) := do
  Experiment.pyAssert (trans.length == labels.length)
  let labels := labels.map Corpus.lower
  let allLabels := S.enum labels
  let wordsByRecord := trans.map (transWords ws)
  let words := allWords S allLabels wordsByRecord
  let wordIdx ← wordsByRecord.mapM fun t => (S.enum t).mapM (listIndex words)
  let wordCounts := wordIdx.map fun t => bincount t words.length
  let countsByLabels ← groupCounts allLabels (labels.zip wordCounts) (allLabels.map fun _ => [])
  let sums ← countsByLabels.mapM sumRows
  let h ← stackTransposed sums
  let h := h.map fun row => row.map fun x => x / (trans.length : ℚ)
  let pLabels := countsByLabels.map fun l => ((l.length : ℕ) : ℚ) / (trans.length : ℚ)
  return (h, pLabels, allLabels, words)

/-- `hist` for the word `i` and the label `j`
(`/repo/samples/plot_image_sound_eval_sliding.py:82-86`), `row` being `h[i, :]`. -/
def histWordLabel (row pLabels : List ℚ) (j : ℕ) : List (List ℚ) :=
  [[row.getD j 0, (row.take j).sum + (row.drop (j + 1)).sum],
   [pLabels.getD j 0 - row.getD j 0,
    (List.zipWith (fun p x => p - x) pLabels row).sum - pLabels.getD j 0 + row.getD j 0]]

/-- A list of lists as a matrix. -/
def matOf (l : List (List ℚ)) (m n : ℕ) : Fin m → Fin n → ℝ := fun i j =>
  (((l.getD i.1 []).getD j.1 0 : ℚ) : ℝ)

/-- `word_label_info` (`/repo/samples/plot_image_sound_eval_sliding.py:79-87`). -/
noncomputable def wordLabelInfo (h : List (List ℚ)) (pLabels : List ℚ) : Py (List (List ℝ)) :=
  h.mapM fun row => (List.range pLabels.length).mapM fun j =>
    Metrics.mutualInformation (matOf (histWordLabel row pLabels j) 2 2)

/-! ### Information between internal coefficients and labels -/

/-- `a.min()` and `a.max()`: `ValueError` on an empty array. -/
def valueRange : List ℚ → Py (ℚ × ℚ)
  | [] => .error .valueError
  | x :: l => .ok (l.foldl min x, l.foldl max x)

/-- The bin of a value of the range, for bins of equal widths (the rounding corrections of numpy
are not needed with exact numbers). -/
def binOf (lo hi : ℚ) (bins : ℕ) (a : ℚ) : ℕ :=
  min ⌊(a - lo) / (hi - lo) * bins⌋.toNat (bins - 1)

/-- `np.histogram(vals, bins=bins, range=(lo, hi))[0]`: a range reduced to a point is extended by a
half on each side, and the values outside of the range are ignored. -/
def npHistogram (vals : List ℚ) (bins : ℕ) (lo hi : ℚ) : Py (List ℕ) :=
  if hi < lo then .error .valueError
  else
    let first := if lo = hi then lo - 1 / 2 else lo
    let last := if lo = hi then hi + 1 / 2 else hi
    .ok ((List.range bins).map fun b =>
      (vals.filter fun a => decide (first ≤ a ∧ a ≤ last)).countP fun a =>
        decide (binOf first last bins a = b))

/-- `internal_histograms_by_label` (`/repo/samples/plot_info_matrix.py:65-71`). -/
def internalHistograms (vals : List ℚ) (byLabels : List (List ℕ)) : Py (List (List ℕ)) := do
  let (lo, hi) ← valueRange vals
  byLabels.mapM fun idx => do
    let v ← idx.mapM fun (i : ℕ) => pyGet vals (i : ℤ)
    npHistogram v 10 lo hi

/-- `_sum_all_but_i` (`/repo/samples/plot_info_matrix.py:74-78`) on rows of length 10. -/
def sumAllBut (a : List (List ℕ)) (i : ℕ) : List ℕ :=
  (List.range 10).map fun b => (a.mapIdx fun k row => if k = i then 0 else row.getD b 0).sum

/-- `1. * h / h.sum()` for `h` with the rows `r0` and `r1`. -/
def normalizedPair (r0 r1 : List ℕ) : List (List ℚ) :=
  [r0.map fun (x : ℕ) => (x : ℚ) / ((r0.sum + r1.sum : ℕ) : ℚ),
   r1.map fun (x : ℕ) => (x : ℚ) / ((r0.sum + r1.sum : ℕ) : ℚ)]

/-- `mutual_information_by_label` (`/repo/samples/plot_info_matrix.py:81-92`).  The function uses
the global variable `by_label` instead of its argument; the only call (`:137`) gives this variable
as argument, so that one parameter represents both. -/
noncomputable def informationByLabel (vals : List ℚ) (byLabel : List (List ℕ)) : Py (List ℝ) := do
  let hists ← internalHistograms vals byLabel
  (List.range hists.length).mapM fun i =>
    Metrics.mutualInformation (matOf (normalizedPair (hists.getD i []) (sumAllBut hists i)) 2 10)

/-- The column of a matrix with `n` columns at a position given by `min_weight_perm`: not at `None`,
nor outside (`IndexError`). -/
def column (n : ℕ) : Option ℕ → Py ℕ
  | none => .error .indexError
  | some j => if j < n then .ok j else .error .indexError

/-- The order of the columns in `plot_mutual_info` (`/repo/samples/plot_info_matrix.py:95-99`):
`perm + not_in_perm` and the permuted matrix, `k` being the global `K`. -/
def orderColumns (fuel k : ℕ) (m : Munkres.Mat) : Option (Py (List ℕ × List (List ℚ))) :=
  match Munkres.minWeightPerm fuel ⟨m.n1, m.n2, fun i j => -m.e i j⟩ with
  | none => none
  | some (.error e) => some (.error e)
  | some (.ok perm) =>
    let notIn := (List.range k).filter fun i => decide (some i ∉ perm)
    some (do
      let p ← perm.mapM (column m.n2)
      let q ← notIn.mapM fun j => column m.n2 (some j)
      return (p ++ q, (List.range m.n1).map fun i => (p ++ q).map fun j => m.e i j))

/-! ### Labels computed again from the logs -/

/-- `[label_assoc[m].index(raw_labels[m][a[m]]) for a in assoc]`
(`/repo/samples/plot_info_matrix.py:121` with `m = 0`). -/
def labelsAgain {L : Type} [BEq L] [LawfulBEq L] (names raw : List L) (m : ℕ)
    (assoc : List (List ℕ)) : Py (List ℕ) :=
  assoc.mapM fun (a : List ℕ) => do
    let s ← pyGet a (m : ℤ)
    let x ← pyGet raw ((s : ℕ) : ℤ)
    listIndex names x

/-- `test_idx` (`/repo/samples/plot_image_sound_eval_sliding.py:29-30`). -/
def slidingTestIdx (assoc : List (List ℕ)) (m : ℕ) (test : List ℕ) : Py (List ℕ) :=
  test.mapM fun (i : ℕ) => do
    let a ← pyGet assoc (i : ℤ)
    pyGet a (m : ℤ)

/-- `test_labels` (`/repo/samples/plot_image_sound_eval_sliding.py:37`). -/
def slidingTestLabels {L : Type} [BEq L] [LawfulBEq L] (names raw : List L) (testIdx : List ℕ) :
    Py (List ℕ) :=
  testIdx.mapM fun (i : ℕ) => do
    let x ← pyGet raw (i : ℤ)
    listIndex names x

/-- The loop which fills the confusion matrix
(`/repo/samples/plot_image_sound_eval_sliding.py:173-174`). -/
def countPairs (n : ℕ) : List (ℕ × ℕ) → List (List ℕ) → Py (List (List ℕ))
  | [], acc => .ok acc
  | (a, b) :: rest, acc =>
    if a < n ∧ b < n then countPairs n rest (acc.modify a fun row => row.modify b (· + 1))
    else .error .indexError

/-- The confusion matrix (`/repo/samples/plot_image_sound_eval_sliding.py:171-174`). -/
def confusion (n : ℕ) (testLabels foundLabels : List ℕ) : Py (List (List ℕ)) := do
  Experiment.pyAssert (testLabels.length == foundLabels.length)
  countPairs n (testLabels.zip foundLabels) (List.replicate n (List.replicate n 0))

end Verif.Samples
