import Verif.Samples.SlidingEval
import Verif.Plots.Annotate

/-!
# Model of `samples/plot_image_sound_eval_sliding.py`

The script loads the log of the evaluation along sentences, builds the windows again, shows the similarities and writes
figures.  The statistics of words (lines 57-88), which the script only keeps in variables, are modelled in
`Verif.Samples.Model`; what is printed is not modelled, except the confusion matrix.
-/

namespace Verif.Samples

open Verif Verif.Window Verif.Plots
open Verif.Logger (Key Val)
open Verif.Experiment

variable {α L R : Type}

/-- `logger.get_value('modalities')`. -/
def logModalities (l : Log L) : Py (List Key) := do
  match ← l.getValue "modalities".toList with
  | .plain (.mods m) => .ok m
  | _ => .error .attributeError

/-- `logger.get_value('sample_pairing')`. -/
def logPairing (l : Log L) : Py (List (List ℕ)) := do
  match ← l.getValue "sample_pairing".toList with
  | .plain (.pairing a) => .ok a
  | _ => .error .typeError

/-- `logger.get_value('label_pairing')`. -/
def logNames (l : Log L) : Py (List (List L)) := do
  match ← l.getValue "label_pairing".toList with
  | .plain (.names n) => .ok n
  | _ => .error .typeError

/-- `logger.get_last_value(k)`, a list of indices. -/
def logIndices (l : Log L) (k : Key) : Py (List ℕ) := do
  match ← l.getLastValue k with
  | .plain (.idx i) => .ok i
  | _ => .error .typeError

/-- `logger.get_last_value('sliding_distances')`, an array. -/
def logDistances (l : Log L) : Py Mx := do
  match ← l.getLastValue "sliding_distances".toList with
  | .arr x => .ok x
  | _ => .error .typeError

/-- What the script computes from the log and from the corpus; records stand for objects, which are compared by
identity. -/
structure SlidingView (L R : Type) where
  testRecords : List R
  testLabels : List ℕ
  names : List L
  records : Concat Unit R
  sliding : List (BasicWin Unit)
  similarities : List (List ℚ)
  exampleLabels : List L

/-- The times of a sliding window. -/
def timesOf (w : Concat α Unit) : Py (BasicWin Unit) := do
  let s ← w.start
  let e ← w.stop
  return ⟨s, e, ()⟩

/-- A window of records without samples: these windows are basic windows. -/
def withoutSamples (w : Win α R) : Py (Win Unit R) := do
  let x ← Pairing.winObj w
  return .basic ⟨w.start, w.stop, x⟩

/-- The windows and similarities (`/repo/samples/plot_image_sound_eval_sliding.py:27-54,93`); `raw` has the labels of the
records, `path` is `get_audio_path`. -/
def slidingView [BEq L] [LawfulBEq L] (files : WavFiles α) (path : R → String) (records : List R) (raw : List L)
    (l : Log L) : Py (SlidingView L R) := do
  let mods ← logModalities l
  let sound ← listIndex mods "sound".toList
  let assoc ← logPairing l
  let test ← logIndices l "test".toList
  let testIdx ← slidingTestIdx assoc sound test
  let testRecords ← testIdx.mapM fun (i : ℕ) => pyGet records (i : ℤ)
  let wavs ← wavPaths path records sound assoc
  let names ← logNames l
  let names ← pyGet names (sound : ℤ)
  let testLabels ← slidingTestLabels names raw testIdx
  let c ← concatFromListOfWavs files wavs none
  let rc ← recordWins records sound assoc c
  let rc ← rc.windows.mapM withoutSamples
  let wins ← slidingWins c (1 / 2) (1 / 10)
  let times ← wins.mapM timesOf
  let dist ← logDistances l
  let ex ← logIndices l "label_ex".toList
  let exampleLabels ← ex.mapM fun (i : ℕ) => pyGet names (i : ℤ)
  return ⟨testRecords, testLabels, names, ⟨rc⟩, times, dist.rows.map fun r => r.map fun x => -x, exampleLabels⟩

/-- `is_test` (`/repo/samples/plot_image_sound_eval_sliding.py:95`). -/
def SlidingView.isTest [DecidableEq R] (v : SlidingView L R) (r : R) : Bool := decide (r ∈ v.testRecords)

/-- `myplot` (`/repo/samples/plot_image_sound_eval_sliding.py:94-96`). -/
def SlidingView.interactive [DecidableEq R] (v : SlidingView L R) : Py (Interactive L R × Drawing R) :=
  Interactive.new v.records v.sliding (.array v.similarities) (.list v.exampleLabels) (some v.isTest)
    (some [("colors".toList, .colors TEN_COLORS)])

/-- `SENTENCE_PLOT_RC` (`/repo/samples/plot_image_sound_eval_sliding.py:118-123`). -/
def SENTENCE_PLOT_RC : Dict Str Rc :=
  [("window_boundaries_color".toList, .text "gray".toList), ("window_boundaries_line_width".toList, .num 1),
   ("colors".toList, .colors TEN_COLORS), ("markersize".toList, .num 3)]

/-- `ANNOTATIONS` (`/repo/samples/plot_image_sound_eval_sliding.py:147-153`). -/
def ANNOTATIONS : List (ℕ × List (Str × ℚ × ℚ)) :=
  [(36, [("book".toList, 8 / 10, 1)]), (89, [("Daddy".toList, 72 / 100, 96 / 100)]),
   (16, [("Angus".toList, 74 / 100, 101 / 100), ("shoe".toList, 153 / 100, 193 / 100)]),
   (67, [("bottle".toList, 1, 128 / 100)])]

/-- The directories which exist, and the contents of texts and figures by path; what else could exist at the path of a
directory is not modelled. -/
structure PlotDisk (R : Type) where
  dirs : List Str
  texts : Dict Str Str
  figures : Dict Str (R × Drawing R × Canvas)

/-- `os.path.join(a, b)` for `a` which does not end with a separator. -/
def under (a b : Str) : Str := a ++ '/' :: b

/-- `os.mkdir(os.path.join(parent, name))`. -/
def mkdirIn (parent name : Str) : M (PlotDisk R) Unit := fun d =>
  if parent ∈ d.dirs ∧ under parent name ∉ d.dirs then ({ d with dirs := d.dirs ++ [under parent name] }, .ok ())
  else (d, .error .ioError)

/-- The directory of figures (`/repo/samples/plot_image_sound_eval_sliding.py:99-102`). -/
def makeDest (workdir : Str) : M (PlotDisk R) Unit := fun d =>
  if under workdir "sliding_win_plots".toList ∈ d.dirs then (d, .ok ())
  else (do
    mkdirIn workdir "sliding_win_plots".toList
    mkdirIn (under workdir "sliding_win_plots".toList) "annotated".toList) d

/-- Lines in a file of a directory, separated by `'\n'`. -/
def writeLines (dir name : Str) (lines : List Str) : M (PlotDisk R) Unit := fun d =>
  if dir ∈ d.dirs then
    ({ d with texts := dictSet d.texts (under dir name) (List.intercalate ['\n'] lines) }, .ok ())
  else (d, .error .ioError)

/-- `savefig`. -/
def saveFigure (dir name : Str) (fig : R × Drawing R × Canvas) : M (PlotDisk R) Unit := fun d =>
  if dir ∈ d.dirs then ({ d with figures := dictSet d.figures (under dir name) fig }, .ok ())
  else (d, .error .ioError)

/-- `record.audio.split('.')[0]` with an extension (`/repo/samples/plot_image_sound_eval_sliding.py:166-168`). -/
def figureName (audio ext : Str) : Str := audio.takeWhile (· ≠ '.') ++ '.' :: ext

/-- A window of `record_wins.windows`, which are basic windows. -/
def basicWin (w : Win Unit R) : Py (BasicWin R) := do
  let x ← Pairing.winObj w
  return ⟨w.start, w.stop, x⟩

/-- `test_record_wins` (`/repo/samples/plot_image_sound_eval_sliding.py:125-126,157-158`). -/
def SlidingView.testWins [DecidableEq R] (v : SlidingView L R) : Py (List (BasicWin R)) := do
  let ws ← v.records.windows.mapM basicWin
  return ws.filter fun w => v.isTest w.obj

/-- A loop without result. -/
def forEach {A σ : Type} (f : A → M σ Unit) : List A → M σ Unit
  | [] => pure ()
  | a :: l => do
    f a
    forEach f l

/-- The figures of an annotated sentence (`/repo/samples/plot_image_sound_eval_sliding.py:159-170`). -/
def annotatedPlot (limits : Drawing R → ℚ × ℚ) (audio : R → Str) (annotated : Str) (v : SlidingView L R)
    (wins : List (BasicWin R)) (a : ℕ × List (Str × ℚ × ℚ)) : M (PlotDisk R) Unit := do
  let win ← lift (pyGet wins (a.1 : ℤ))
  let fig ← lift (plotOneSentenceAnnotated limits win v.sliding (.array v.similarities) (.list v.exampleLabels)
    (some SENTENCE_PLOT_RC) a.2)
  forEach (fun ext => saveFigure annotated (figureName (audio win.obj) ext) fig)
    ["svg".toList, "pdf".toList, "eps".toList]

/-- The script (`/repo/samples/plot_image_sound_eval_sliding.py:24-176`) after the log has been loaded: the plot, what is
drawn at first, and the confusion matrix.  `trans` and `audio` are attributes of records. -/
def plotSlidingScript [BEq L] [LawfulBEq L] [DecidableEq R] (limits : Drawing R → ℚ × ℚ) (files : WavFiles α)
    (path : R → String) (trans audio : R → Str) (records : List R) (raw : List L) (workdir : Str) (l : Log L) :
    M (PlotDisk R) (Interactive L R × Drawing R × List (List ℕ)) := do
  let v ← lift (slidingView files path records raw l)
  let pd ← lift v.interactive
  makeDest workdir
  let dest := under workdir "sliding_win_plots".toList
  let wins ← lift v.testWins
  writeLines dest "train_trans.txt".toList ((records.filter fun r => !v.isTest r).map trans)
  forEach (annotatedPlot limits audio (under dest "annotated".toList) v wins) ANNOTATIONS
  let found ← lift (logIndices l "found_sound2objects_cosine".toList)
  let m ← lift (confusion v.names.length v.testLabels found)
  return (pd.1, pd.2, m)

end Verif.Samples
