import Verif.Samples.Sliding
import Verif.Samples.Model
import Verif.Experiment.Model

/-!
# Model of `samples/image_sound_eval_sliding.py`

The script runs an experiment with a single run, then compares windows which slide along the sounds with the examples of
objects.  What the script prints is not modelled, nor the directory which it creates and removes without using it.
-/

namespace Verif.Samples

open Verif Verif.Window
open Verif.Logger (Key Val)
open Verif.Experiment

variable {α L R Λ : Type}

/-- What the script calls: `hac` with the codebooks which it loads (`/repo/samples/image_sound_eval_sliding.py:94-99`),
as numbers, and a learner with the parameters of the experiment and a dictionary
(`/repo/samples/image_sound_eval_sliding.py:118-120`). -/
structure SlidingTools (α Λ : Type) where
  hac : List α → ℚ → Py (List ℚ)
  restore : List Key → List ℕ → List (Option ℚ) → ℕ → Mx → Λ

/-- `logger.get_last_value('test')`: indices. -/
def lastTest : M (World L) (List ℕ) := fun w => (w, do
  match ← w.log.getLastValue "test".toList with
  | .plain (.idx l) => .ok l
  | _ => .error .typeError)

/-- `logger.get_value('sample_pairing')`: pairings. -/
def pairingOf : M (World L) (List (List ℕ)) := fun w => (w, do
  match ← w.log.getValue "sample_pairing".toList with
  | .plain (.pairing l) => .ok l
  | _ => .error .typeError)

/-- `logger.get_last_value('dictionary')`: a matrix. -/
def lastDictionary : M (World L) Mx := fun w => (w, do
  match ← w.log.getLastValue "dictionary".toList with
  | .arr x => .ok x
  | _ => .error .typeError)

/-- `process_win` (`/repo/samples/image_sound_eval_sliding.py:97-100`). -/
def processWin (T : SlidingTools α Λ) (files : WavFiles α) (w : Concat α Unit) : Py (List ℚ) := do
  let a ← w.toArray files
  T.hac a.array a.rate

/-- `sp.vstack` (`/repo/samples/image_sound_eval_sliding.py:113`): `ValueError` without rows or with rows of different
lengths. -/
def vstackRows (vectors : List (List ℚ)) : Py Mx :=
  match vectors with
  | [] => .error .valueError
  | v :: l => if ∀ u ∈ l, u.length = v.length then .ok ⟨v.length, vectors⟩ else .error .valueError

/-- The windows of indices (`/repo/samples/image_sound_eval_sliding.py:79-82`). -/
def idxWin {β : Type} (m : ℕ) (p : List ℕ × Win α β) : Py (Win α ℕ) := do
  let s ← pyGet p.1 (m : ℤ)
  return .basic ⟨p.2.start, p.2.stop, s⟩

/-- The features of sliding windows (`/repo/samples/image_sound_eval_sliding.py:74-113`), with windows of .5 second each
.1 second.  Windows of indices are built and copied; the labels which the copies get are not modelled, as they are not
used. -/
def slidingFeatures (T : SlidingTools α Λ) (files : WavFiles α) (path : R → String) (records : List R) (sound : ℕ)
    (assoc : List (List ℕ)) : Py Mx := do
  let wavs ← wavPaths path records sound assoc
  let c ← concatFromListOfWavs files wavs none
  let ws ← (assoc.zip c.windows).mapM (idxWin sound)
  let idx ← Concat.init ws
  let _ ← idx.copy
  let wins ← slidingWins c (1 / 2) (1 / 10)
  let vectors ← wins.mapM (processWin T files)
  vstackRows vectors

/-- `X[:, :n]`. -/
def cutCols (x : Mx) (n : ℕ) : Mx := ⟨min n x.cols, x.rows.map fun r => r.take n⟩

/-- The evaluation of the script after the run (`/repo/samples/image_sound_eval_sliding.py:56-132`), for the attributes
`p` of the experiment. -/
def slidingEval (T : SlidingTools α Λ) (X : Ext Λ) (measure : List ℚ → List ℚ → ℚ) (files : WavFiles α)
    (path : R → String) (records : List R) (e : Exp) (p : Prepared L) : M (World L) Unit := do
  let sound ← lift (listIndex e.modalities "sound".toList)
  let objects ← lift (listIndex e.modalities "objects".toList)
  let test ← lastTest
  let _ ← lift (test.mapM fun (t : ℕ) => pyGet p.labels (t : ℤ))
  let assoc ← pairingOf
  let x ← lift (slidingFeatures T files path records sound (if e.debug then assoc.take 10 else assoc))
  let soundData ← lift (pyGet p.data (sound : ℤ))
  let x := if e.debug then cutCols x soundData.cols else x
  let dico ← lastDictionary
  let learner := T.restore e.modalities (p.data.map Mx.cols) p.coefs e.k dico
  let coefs ← lift (X.internal learner ["sound".toList] [x] e.iterTest)
  let ex ← lift (pyGet p.dataEx (objects : ℤ))
  let exCoefs ← lift (X.internal learner ["objects".toList] [ex] e.iterTest)
  store "sliding_distances".toList (.arr ⟨exCoefs.rows.length, Evaluation.allDistances coefs.rows exCoefs.rows measure⟩)
  store "label_ex".toList (.plain (.idx p.labelsEx))
  saveLog

/-- The script (`/repo/samples/image_sound_eval_sliding.py:50-132`), from `run`; the attributes of the experiment are those
which `prepare` gave it. -/
def slidingScript [DecidableEq L] (T : SlidingTools α Λ) (X : Ext Λ) (metrics : List (List ℚ → List ℚ → ℚ))
    (measure : List ℚ → List ℚ → ℚ) (files : WavFiles α) (path : R → String) (records : List R) (Rn : Rand L) (e : Exp)
    (rawLabels : Py (List (List L))) (rawData : Py (List Mx)) (start stop : Key) : M (World L) Unit := fun w =>
  match run X Rn e rawLabels rawData (evaluateTwo X e metrics) start stop w, prepare Rn e rawLabels rawData w with
  | (w', .ok ()), (_, .ok p) => slidingEval T X measure files path records e p w'
  | (w', .ok ()), (_, .error x) => (w', .error x)
  | (w', .error x), _ => (w', .error x)

end Verif.Samples
