import Verif.PyMore
import Verif.Window.Model
import Verif.Pairing.Model
import Verif.Experiment.Model

/-!
# Model of `multimodal/plots.py` and of `plot_var` of `multimodal/lib/plot.py`

What is modelled is what the functions give matplotlib to draw: positions, values, texts, limits.
Colours, styles, legends and the figures themselves are not.  When a function raises an exception,
what was drawn before is not modelled.  Times and values are rational numbers.
-/

namespace Verif.Plots

open Verif Verif.Window

/-- Names of modalities and keys. -/
abbrev Str := Logger.Key

/-! ### Pairs of modalities -/

section Pairs

variable {A : Type} [DecidableEq A]

/-- `all_pairs` (`/repo/multimodal/plots.py:45-46`). -/
def allPairs (l : List A) : List (List A × List A) :=
  l.flatMap fun i => (l.filter fun j => i != j).map fun j => ([i], [j])

/-- `combinations` (`/repo/multimodal/plots.py:49-54`). -/
def combinations (l : List A) : List (List A × List A) :=
  let twoToOne := l.map fun i => (l.filter fun j => j != i, [i])
  allPairs l ++ twoToOne

end Pairs

/-- The key of `plot_one_curve` (`/repo/multimodal/plots.py:59-60`); its argument `metric` is not
used. -/
def curveKey (mods : List Str × List Str) (_metric : Str) : Str :=
  "score_".toList ++
    (Experiment.joinUnderscore mods.1 ++ '2' :: Experiment.joinUnderscore mods.2)

/-- The key of `plot_boxes_one_exp` (`/repo/multimodal/plots.py:110-111`). -/
def boxKey (mods : List Str × List Str) : Str :=
  "score_".toList ++ (Experiment.joinUnderscore mods.1 ++
    '2' :: (Experiment.joinUnderscore mods.2 ++ "_cosine".toList))

/-- `TEN_COLORS` (`/repo/multimodal/lib/plot.py:25-36`). -/
def TEN_COLORS : List Str := ["#3989d4".toList, "#ffad4c".toList, "#ff728d".toList, "#a8efa0".toList,
  "#a0c2fc".toList, "#eba7f7".toList, "#ffd1af".toList, "#ffff2d".toList, "#5ab578".toList,
  "#60708d".toList]

/-- `COLORS` (`/repo/multimodal/plots.py:12-15`). -/
def COLORS : Dict Str Str := [("motion".toList, "#006EB8".toList), ("image".toList, "orange".toList),
  ("sound".toList, "#3C8031".toList)]

/-- `PAIRS_COLORS` (`/repo/multimodal/plots.py:17-23`). -/
def PAIRS_COLORS : Dict (Str × Str) Str :=
  [(("image".toList, "motion".toList), TEN_COLORS.getD 0 []),
   (("motion".toList, "image".toList), TEN_COLORS.getD 1 []),
   (("motion".toList, "sound".toList), TEN_COLORS.getD 2 []),
   (("sound".toList, "motion".toList), TEN_COLORS.getD 3 []),
   (("image".toList, "sound".toList), TEN_COLORS.getD 4 []),
   (("sound".toList, "image".toList), TEN_COLORS.getD 5 [])]

/-- `d[k]`. -/
def dictItem {K V : Type} [DecidableEq K] (d : Dict K V) (k : K) : Py V :=
  match dictGet? d k with
  | some v => .ok v
  | none => .error .keyError

/-- `get_color_for_modalities` (`/repo/multimodal/plots.py:34-38`); `pairs` tells whether `colors` is
`'pairs'`. -/
def colorFor (mods1 mods2 : List Str) (pairs : Bool) : Py Str :=
  if pairs then do
    let a ← pyGet mods1 0
    let b ← pyGet mods2 0
    dictItem PAIRS_COLORS (a, b)
  else do
    let b ← pyGet mods2 0
    dictItem COLORS b

/-! ### Means and deviations -/

/-- Mean of a row (`np.mean(y, axis=1)`). -/
def mean (row : List ℚ) : ℚ := row.sum / row.length

/-- Square of the standard deviation of a row (`np.std(y, axis=1)` is its square root). -/
def variance (row : List ℚ) : ℚ := mean (row.map fun v => (v - mean row) * (v - mean row))

/-- The abscissas of `plot_var` (`/repo/multimodal/lib/plot.py:95-96`). -/
def abscissas (isArray : Bool) (y : List (List ℚ)) : Option (List ℚ) → Py (List ℚ)
  | some xs => .ok xs
  | none => if isArray then .ok ((List.range y.length).map fun (i : ℕ) => (i : ℚ))
    else .error .attributeError

/-- The curve of `plot_var` (`/repo/multimodal/lib/plot.py:81-111`): abscissas, means and squares of
the widths of the area on each side of the curve.  `y` is an array (`isArray`) or a list of lists, and
has as many values in each row.  A list has no `shape`. matplotlib wants as many abscissas as
ordinates. -/
def plotVar (isArray : Bool) (y : List (List ℚ)) (x : Option (List ℚ)) : Py (List (ℚ × ℚ × ℚ)) := do
  let means := y.map mean
  let vars := y.map variance
  let xs ← abscissas isArray y x
  if xs.length ≠ y.length then .error .valueError
  else .ok (xs.zip (means.zip vars))

/-- `plot_one_curve` (`/repo/multimodal/plots.py:57-65`): the points of the curve.  `getValues` is
`get_values` of loggers, whose values are numbers.  `np.mean(res, axis=1)` needs as many values for
each `k`. -/
def plotOneCurve {G : Type} (getValues : G → Str → Py (List ℚ)) (loggers : List G)
    (mods : List Str × List Str) (ks : List ℚ) (metric : Str) : Py (List (ℚ × ℚ × ℚ)) := do
  let res ← ks.zipIdx.mapM fun (k : ℚ × ℕ) => do
    let l ← pyGet loggers (k.2 : ℤ)
    getValues l (curveKey mods metric)
  let _ ← colorFor mods.1 mods.2 true
  if res.any (fun r => r.length != (res.headD []).length) then .error .valueError
  else plotVar false res (some ks)

/-- `np.split(a, 3)`. -/
def split3 {A : Type} (a : List A) : Py (List (List A)) :=
  if a.length % 3 = 0 then
    .ok [a.take (a.length / 3), (a.drop (a.length / 3)).take (a.length / 3),
      a.drop (2 * (a.length / 3))]
  else .error .valueError

/-- The modalities whose names are in each of the three legends of `plot_boxes_all_mods`
(`/repo/multimodal/plots.py:159-172`). -/
def legends (mods : List Str) : Py (List (List (List Str × List Str))) := do
  let _ ← (combinations mods).mapM fun c => colorFor c.1 c.2 false
  split3 (combinations mods)

/-! ### `ScorePlot` -/

/-- `mean_time` (`/repo/multimodal/lib/window.py:79-80`). -/
def meanTime {β : Type} (w : BasicWin β) : ℚ := 1 / 2 * (w.stop + w.start)

/-- Values of the appearance dictionaries. -/
inductive Rc
  | flag (b : Bool)
  | num (q : ℚ)
  | text (s : Str)
  | colors (l : List Str)
  | none
  deriving DecidableEq, Repr

/-- Truth value of an object. -/
def Rc.truth : Rc → Bool
  | .flag b => b
  | .num q => q != 0
  | .text s => !s.isEmpty
  | .colors l => !l.isEmpty
  | .none => false

/-- `default_plot_rc` of `ScorePlot` (`/repo/multimodal/plots.py:201-209`). -/
def DEFAULT_RC : Dict Str Rc :=
  [("draw_sentence_boundaries".toList, .flag true), ("use_relative_time".toList, .flag false),
   ("print_sentences".toList, .flag true), ("window_boundaries_color".toList, .text "white".toList),
   ("window_boundaries_line_width".toList, .num 2), ("markersize".toList, .num 5),
   ("colors".toList, .none)]

/-- `d.update(other)`; `None` cannot be iterated. -/
def update (d : Dict Str Rc) (other : Option (Dict Str Rc)) : Py (Dict Str Rc) :=
  match other with
  | none => .error .typeError
  | some o => .ok (o.foldl (fun d p => dictSet d p.1 p.2) d)

/-- What can be passed as similarities or labels: an array with two dimensions or a list. -/
inductive Arg (X : Type)
  | array (rows : List (List ℚ))
  | list (l : List X)

/-- `a[i, :]`: a list cannot be indexed by a tuple. -/
def Arg.row {X : Type} (a : Arg X) (i : ℕ) : Py (List ℚ) :=
  match a with
  | .array rows => pyGet rows (i : ℤ)
  | .list _ => .error .typeError

/-- `ScorePlot` (`/repo/multimodal/plots.py:199-224`).  Of sliding windows only the times are used.
Figures and the position of annotations are not modelled. -/
structure Score (X R : Type) where
  current : BasicWin Unit
  records : Concat Unit R
  sliding : List (BasicWin Unit)
  similarity : List (BasicWin (List ℚ))
  labels : Arg X
  rc : Dict Str Rc
  isTest : Option (R → Bool)

variable {X R : Type}

/-- A window of similarities (`/repo/multimodal/plots.py:216-217`). -/
def similarityWin (similarities : Arg X) (wi : BasicWin Unit × ℕ) : Py (BasicWin (List ℚ)) := do
  let r ← similarities.row wi.2
  return ⟨wi.1.start, wi.1.stop, r⟩

/-- `ScorePlot.__init__` (`/repo/multimodal/plots.py:211-224`). -/
def Score.new (records : Concat Unit R) (sliding : List (BasicWin Unit)) (similarities labels : Arg X)
    (rc : Option (Dict Str Rc)) (isTest : Option (R → Bool)) : Py (Score X R) := do
  let similarity ← sliding.zipIdx.mapM (similarityWin similarities)
  let rc ← update DEFAULT_RC rc
  return ⟨⟨0, 20, ()⟩, records, sliding, similarity, labels, rc, isTest⟩

/-- `is_test` (`/repo/multimodal/plots.py:226-234`). -/
def Score.testRecord (p : Score X R) (r : R) : Bool :=
  match p.isTest with
  | none => true
  | some f => f r

/-- `subwindows` (`/repo/multimodal/plots.py:236-238`). -/
def Score.subwindows (p : Score X R) (win : Concat Unit R) : Py (List (Win Unit R)) := do
  let c ← win.getSub p.current.start p.current.stop
  return c.windows

/-- `time_in_current` (`/repo/multimodal/plots.py:240-245`): only `TimeOutOfBound` is caught. -/
def Score.timeInCurrent (p : Score X R) (t : ℚ) : Py Bool :=
  match checkTime p.current.start p.current.stop t with
  | .ok _ => .ok true
  | .error .timeOutOfBound => .ok false
  | .error e => .error e

/-- `filter_windows` (`/repo/multimodal/plots.py:247-249`). -/
def Score.filterWindows {β : Type} (p : Score X R) : List (BasicWin β) → Py (List (BasicWin β))
  | [] => .ok []
  | w :: ws => do
    let b ← p.timeInCurrent (meanTime w)
    let rest ← p.filterWindows ws
    return if b then w :: rest else rest

/-- `relative_time` (`/repo/multimodal/plots.py:251-257`). -/
def Score.relativeTime (p : Score X R) (t : ℚ) : Py ℚ := do
  let r ← dictItem p.rc "use_relative_time".toList
  return if r.truth then t - p.current.start else t

/-- `relative` (`/repo/multimodal/plots.py:259-268`), of a window from `start` to `stop`. -/
def Score.relative (p : Score X R) (time : Str) (start stop : ℚ) : Py ℚ :=
  if time = "start".toList then p.relativeTime start
  else if time = "end".toList then p.relativeTime stop
  else if time = "mean".toList then p.relativeTime (1 / 2 * (stop + start))
  else .error .valueError

/-- `max(s)`. -/
def pyMax : List ℚ → Py ℚ
  | [] => .error .valueError
  | a :: l => .ok (l.foldl max a)

/-- What a call of `draw` shows: the segments for windows (from, to, height), the abscissas and the
values of curves (one list of values for each abscissa), the sentences (position, record, whether it
is a test record), the vertical lines and the limits of the abscissas. -/
structure Drawing (R : Type) where
  segments : List (ℚ × ℚ × ℚ)
  times : List ℚ
  curves : List (List ℚ)
  texts : List (ℚ × R × Bool)
  lines : List ℚ
  xbound : ℚ × ℚ

/-- The limits of a window in the plot (`/repo/multimodal/plots.py:273-277`). -/
def Score.boundary (p : Score X R) (w : BasicWin Unit) : Py (ℚ × ℚ) := do
  let s ← p.relative "start".toList w.start w.stop
  let cs ← p.relative "start".toList p.current.start p.current.stop
  let e ← p.relative "end".toList w.start w.stop
  let ce ← p.relative "end".toList p.current.start p.current.stop
  return (max s cs, min e ce)

/-- A segment for a window (`/repo/multimodal/plots.py:285-290`). -/
def segment (ts : (ℚ × ℚ) × List ℚ) : Py (ℚ × ℚ × ℚ) := do
  let y ← pyMax ts.2
  return (ts.1.1, ts.1.2, y)

/-- The text of a sentence (`/repo/multimodal/plots.py:298-305`). -/
def Score.sentence (p : Score X R) (w : Win Unit R) : Py (List (ℚ × R × Bool)) := do
  let r ← dictItem p.rc "print_sentences".toList
  if r.truth then do
    let t ← p.relative "mean".toList w.start w.stop
    let x ← Pairing.winObj w
    return [(t, x, p.testRecord x)]
  else return []

/-- The end of a sentence (`/repo/multimodal/plots.py:306-307`). -/
def Score.sentenceEnd (p : Score X R) (w : Win Unit R) : Py (List ℚ) := do
  let r ← dictItem p.rc "draw_sentence_boundaries".toList
  if r.truth then do
    let t ← p.relative "end".toList w.start w.stop
    return [t]
  else return []

/-- `draw` (`/repo/multimodal/plots.py:270-313`); matplotlib wants as many abscissas as lists of
values. -/
def Score.draw (p : Score X R) : Py (Drawing R) := do
  let filtered ← p.filterWindows p.sliding
  let times ← filtered.mapM fun w => p.relative "mean".toList w.start w.stop
  let boundaries ← filtered.mapM p.boundary
  let similarities := (← p.filterWindows p.similarity).map BasicWin.obj
  let segments ← (boundaries.zip similarities).mapM segment
  if times.length ≠ similarities.length then .error .valueError
  else do
    let subs ← p.subwindows p.records
    let texts ← subs.mapM p.sentence
    let lines ← subs.mapM p.sentenceEnd
    let a ← p.relative "start".toList p.current.start p.current.stop
    let b ← p.relative "end".toList p.current.start p.current.stop
    return ⟨segments, times, similarities, texts.flatten, lines.flatten, (a, b)⟩

/-! ### `InteractivePlot` -/

/-- `InteractivePlot` (`/repo/multimodal/plots.py:331-348`): the plot, and the values of the sliders
`Start` and `Width`. -/
structure Interactive (X R : Type) where
  score : Score X R
  start : ℚ
  width : ℚ

/-- `InteractivePlot.__init__` (`/repo/multimodal/plots.py:333-348`), with what it draws.  The third
and fourth arguments are called `example_labels` and `similarities`. -/
def Interactive.new (records : Concat Unit R) (sliding : List (BasicWin Unit))
    (exampleLabels similarities : Arg X) (isTest : Option (R → Bool)) (rc : Option (Dict Str Rc)) :
    Py (Interactive X R × Drawing R) := do
  let score ← Score.new records sliding exampleLabels similarities rc isTest
  let d ← score.draw
  let _ ← score.records.stop
  return (⟨score, 0, 15⟩, d)

/-- `update` (`/repo/multimodal/plots.py:350-355`). -/
def Interactive.update (p : Interactive X R) : Interactive X R × Py (Drawing R) :=
  let cur : BasicWin Unit := ⟨p.start, p.start + p.width, ()⟩
  let score := { p.score with current := cur }
  ({ p with score := score }, score.draw)

/-- `slider_start.set_val(v)`: `bound` is what the widget does with values out of its range
(`[0, end]`), which depends on the version of matplotlib; `update` is called, and its exceptions are
not caught. -/
def Interactive.setStart (bound : ℚ → ℚ) (p : Interactive X R) (v : ℚ) :
    Interactive X R × Py (Drawing R) :=
  Interactive.update { p with start := bound v }

/-- `slider_width.set_val(v)`. -/
def Interactive.setWidth (bound : ℚ → ℚ) (p : Interactive X R) (v : ℚ) :
    Interactive X R × Py (Drawing R) :=
  Interactive.update { p with width := bound v }

/-- `on_key` (`/repo/multimodal/plots.py:357-366`); nothing is drawn for other keys. -/
def Interactive.onKey (bound : ℚ → ℚ) (p : Interactive X R) (key : Str) :
    Interactive X R × Py (Option (Drawing R)) :=
  let move (direction : ℚ) : Interactive X R × Py (Option (Drawing R)) :=
    match p.setStart bound (p.start + direction * (1 / 2) * p.width) with
    | (p', .error e) => (p', .error e)
    | (p', .ok _) => (p'.update.1, p'.update.2.map some)
  if key = "right".toList then move 1
  else if key = "left".toList then move (-1)
  else (p, .ok none)

/-! ### `plot_one_sentence` -/

/-- The default appearance of `plot_one_sentence` (`/repo/multimodal/plots.py:372-375`). -/
def SENTENCE_RC : Dict Str Rc :=
  [("draw_sentence_boundaries".toList, .flag false), ("use_relative_time".toList, .flag true),
   ("print_sentences".toList, .flag false)]

/-- `plot_one_sentence` (`/repo/multimodal/plots.py:369-386`) without annotations; the record whose
transcription is the title and what is drawn. -/
def plotOneSentence (recordWin : BasicWin R) (sliding : List (BasicWin Unit))
    (exampleLabels similarities : Arg X) (rc : Option (Dict Str Rc)) : Py (R × Drawing R) := do
  let rc ← update SENTENCE_RC rc
  let records ← Concat.init [.basic recordWin]
  let score : Score X R ← Score.new records sliding exampleLabels similarities (some rc) none
  let cur : BasicWin Unit := ⟨recordWin.start, recordWin.stop, ()⟩
  let d ← Score.draw { score with current := cur }
  return (recordWin.obj, d)

end Verif.Plots
