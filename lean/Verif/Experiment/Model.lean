import Verif.Logger.Model
import Verif.Pairing.Model
import Verif.Evaluation.Model
import Verif.Utils.Model

/-!
# Model of `multimodal/experiment.py`

On top of the models of the logger, the pairing, the evaluation and the splits.  Data are matrices
of rational numbers.  The learner is an argument: it may compute anything and raise anything (the
model of `multimodal/learner.py` is in `Verif.Learner`).  The loaders are given by the results of
their calls.  Random shuffles and orders of sets are arguments.  Methods which log or save act on a
state and keep what was done before an exception.  Names of modalities are lists of characters.
Printing and the conversions made by JSON are not modelled.
-/

namespace Verif.Experiment

open Verif Verif.Logger

/-! ### State and exceptions -/

/-- Python code acting on a state: the new state and a value or an exception. -/
def M (σ α : Type) := σ → σ × Py α

variable {σ α β L Λ : Type}

instance : Monad (M σ) where
  pure a := fun s => (s, .ok a)
  bind m f := fun s => match m s with
    | (s', .ok a) => f a s'
    | (s', .error e) => (s', .error e)

/-- A call which does not act on the state. -/
def lift (x : Py α) : M σ α := fun s => (s, x)

/-- A `for` loop. -/
def each : List α → (α → M σ Unit) → M σ Unit
  | [], _ => pure ()
  | x :: xs, f => do
    f x
    each xs f

/-! ### Parameters -/

/-- A two dimensional array: number of columns and rows. -/
structure Mx where
  cols : ℕ
  rows : List (List ℚ)
  deriving DecidableEq

/-- `run_mode` (`/repo/multimodal/experiment.py:54`): one of the strings of `get_generator`, a number, or another string. -/
inductive RunMode
  | leaveOneOut
  | single
  | ratio (q : ℚ)
  | other (s : {s : Key // s ≠ "leave-one-out".toList ∧ s ≠ "single".toList})
  deriving DecidableEq

/-- What `serialize` of a loader returns: `None`, a number or the dictionary of
`/repo/multimodal/db/objects.py:92-93`. -/
inductive Conf
  | none
  | num (n : ℤ)
  | cfg (features labels : List Key)
  deriving DecidableEq

/-- Parameters of a loader: `Year1Loader(speaker)`, `Choreo2Loader()` and
`ObjectsLoader(features, labels)` (`/repo/multimodal/db/acorns.py:62-64`,
`/repo/multimodal/db/models/loader.py:3-4`, `/repo/multimodal/db/objects.py:56-61`).  The set of
labels is a list, compared by membership. -/
inductive Ldr
  | acorns (speaker : Conf)
  | choreo2
  | objects (features labels : List Key)
  deriving DecidableEq

/-- The parameters of an experiment (`/repo/multimodal/experiment.py:44-55`); a coefficient is
`none` when it is infinite or not a number. -/
structure Exp where
  modalities : List Key
  loaders : List Ldr
  k : ℕ
  coefs : Option (List (Option ℚ))
  iterTrain : ℕ
  iterTest : ℕ
  shuffleLabels : Bool
  runMode : RunMode
  debug : Bool
  deriving DecidableEq

/-- `MultimodalExperiment(...)` (`/repo/multimodal/experiment.py:44-55`). -/
def Exp.new (loaders : Dict Key Ldr) (k iterTrain iterTest : ℕ) (coefs : Option (List (Option ℚ)))
    (shuffleLabels : Bool) (runMode : RunMode) (debug : Bool) : Exp :=
  ⟨dictKeys loaders, (dictKeys loaders).filterMap (dictGet? loaders), k, coefs, iterTrain, iterTest,
    shuffleLabels, runMode, debug⟩

/-- Logged values other than arrays. -/
inductive LogVal (L : Type)
  | mods (l : List Key)
  | num (n : ℕ)
  | coefs (c : Option (List (Option ℚ)))
  | flag (b : Bool)
  | mode (m : RunMode)
  | names (l : List (List L))
  | pairing (l : List (List ℕ))
  | idx (l : List ℕ)
  | score (s : Option ℚ)
  | time (t : Key)
  | loaders (l : List (Key × Conf))
  deriving DecidableEq

/-- Logs of experiments: arrays are matrices. -/
abbrev Log (L : Type) := Logger (LogVal L) Mx

/-- `_parameters_to_dict` (`/repo/multimodal/experiment.py:61-65`) for the attributes of
`params_to_store` (`/repo/multimodal/experiment.py:193-196`). -/
def Exp.parametersToDict (e : Exp) : Dict Key (LogVal L) :=
  [("modalities".toList, .mods e.modalities), ("k".toList, .num e.k),
   ("coefs".toList, .coefs e.coefs), ("iter_train".toList, .num e.iterTrain),
   ("iter_test".toList, .num e.iterTest), ("shuffle_labels".toList, .flag e.shuffleLabels),
   ("run_mode".toList, .mode e.runMode), ("debug".toList, .flag e.debug)]

/-! ### Serialization -/

/-- `dataset_name` (`/repo/multimodal/db/acorns.py:60`, `/repo/multimodal/db/choreo2.py:48`,
`/repo/multimodal/db/objects.py:54`). -/
def Ldr.datasetName : Ldr → Key
  | .acorns _ => "acorns".toList
  | .choreo2 => "choreo2".toList
  | .objects _ _ => "objects".toList

/-- `serialize` (`/repo/multimodal/db/acorns.py:86-87`, `/repo/multimodal/db/models/loader.py:12-13`,
`/repo/multimodal/db/objects.py:91-93`); `enum` is the order in which `list` enumerates a set. -/
def Ldr.serialize (enum : List Key → List Key) : Ldr → Conf
  | .acorns s => s
  | .choreo2 => .none
  | .objects f l => .cfg f (enum l)

/-- `MultimodalExperiment.get_loader` (`/repo/multimodal/experiment.py:198-211`) with `get_loader` of
the classes (`/repo/multimodal/db/acorns.py:89-91`, `/repo/multimodal/db/models/loader.py:15-17`,
`/repo/multimodal/db/objects.py:95-97`). -/
def getLoader (dataset : Key) (conf : Conf) : Py Ldr :=
  if dataset = "acorns".toList then .ok (.acorns conf)
  else if dataset = "choreo2".toList then .ok .choreo2
  else if dataset = "objects".toList then
    match conf with
    | .cfg f l => .ok (.objects f l)
    | _ => .error .typeError
  else .error .valueError

/-- `serialize_parameters` (`/repo/multimodal/experiment.py:182-186`). -/
def Exp.serializeParameters (enum : List Key → List Key) (e : Exp) : Dict Key (LogVal L) :=
  dictSet e.parametersToDict "loaders".toList
    (.loaders (e.loaders.map fun l => (l.datasetName, l.serialize enum)))

/-- `d[key]`. -/
def getKey (d : Dict Key (LogVal L)) (k : Key) : Py (LogVal L) :=
  match dictGet? d k with
  | none => .error .keyError
  | some v => .ok v

/-- A value which is a list of names; others are not modelled. -/
def asMods : LogVal L → Py (List Key) | .mods l => .ok l | _ => .error .typeError
/-- A value which is a list of data sets and configurations; others are not modelled. -/
def asLoaders : LogVal L → Py (List (Key × Conf)) | .loaders l => .ok l | _ => .error .typeError
/-- A value which is a number; others are not modelled. -/
def asNum : LogVal L → Py ℕ | .num n => .ok n | _ => .error .typeError
/-- A value which is a boolean; others are not modelled. -/
def asFlag : LogVal L → Py Bool | .flag n => .ok n | _ => .error .typeError
/-- A value which is `None` or a list of coefficients; others are not modelled. -/
def asCoefs : LogVal L → Py (Option (List (Option ℚ))) | .coefs n => .ok n | _ => .error .typeError
/-- A value which is a run mode; others are not modelled. -/
def asMode : LogVal L → Py RunMode | .mode n => .ok n | _ => .error .typeError

/-- The loop of `from_serialized` (`/repo/multimodal/experiment.py:216-218`). -/
def addLoader (d : Dict Key Ldr) (p : Key × Key × Conf) : Py (Dict Key Ldr) := do
  let l ← getLoader p.2.1 p.2.2
  return dictSet d p.1 l

/-- `from_serialized` (`/repo/multimodal/experiment.py:213-222`). -/
def fromSerialized (s : Dict Key (LogVal L)) : Py Exp := do
  let mods ← getKey s "modalities".toList >>= asMods
  let confs ← getKey s "loaders".toList >>= asLoaders
  let loaders ← (mods.zip confs).foldlM addLoader []
  let k ← getKey s "k".toList >>= asNum
  let itrain ← getKey s "iter_train".toList >>= asNum
  let itest ← getKey s "iter_test".toList >>= asNum
  let coefs ← getKey s "coefs".toList >>= asCoefs
  let shuffle ← getKey s "shuffle_labels".toList >>= asFlag
  let mode ← getKey s "run_mode".toList >>= asMode
  let debug ← getKey s "debug".toList >>= asFlag
  return Exp.new loaders k itrain itest coefs shuffle mode debug

/-! ### Preparation -/

/-- What an experiment reads and writes: its logger and the files. -/
structure World (L : Type) where
  log : Log L
  fs : FS (LogVal L) Mx

/-- `self.logger.store_global(k, v)`. -/
def storeGlobal (k : Key) (v : LogVal L) : M (World L) Unit :=
  fun w => ({ w with log := w.log.storeGlobal k (.plain v) }, .ok ())

/-- A call of the logger which may raise. -/
def onLog (f : Log L → Py (Log L)) : M (World L) Unit := fun w =>
  match f w.log with
  | .ok l => ({ w with log := l }, .ok ())
  | .error e => (w, .error e)

/-- `self.logger.store(k, v)`. -/
def store (k : Key) (v : Val (LogVal L) Mx) : M (World L) Unit := onLog fun l => l.store k v

/-- `self.logger.store_result(k, v)`. -/
def storeResult (k : Key) (v : Val (LogVal L) Mx) : M (World L) Unit :=
  onLog fun l => l.storeResult k v

/-- `self.logger.new_run()`. -/
def newRun : M (World L) Unit := onLog fun l => .ok l.newRun

/-- Orders of sets and random shuffles: `namesOf` and `shuf` for `associate_samples`, `setOrd` for
`set(labels)` in `chose_examples`, `shuffled` for `random_split`. -/
structure Rand (L : Type) where
  namesOf : ℕ → List L → List L
  shuf : ℕ → ℕ → List ℕ → List ℕ
  setOrd : List ℕ → List ℕ
  shuffled : ℕ → List ℕ

/-- `x[idx, :]`: raises `IndexError`. -/
def takeRows (x : Mx) (idx : List ℕ) : Py Mx := do
  let rows ← idx.mapM fun (i : ℕ) => pyGet x.rows (i : ℤ)
  return ⟨x.cols, rows⟩

/-- `x[:200, :11]`. -/
def cut (x : Mx) : Mx := ⟨min 11 x.cols, (x.rows.take 200).map fun r => r.take 11⟩

/-- `np.average(x.sum(axis=1))`. -/
def averageSum (x : Mx) : ℚ := (x.rows.map List.sum).sum / x.rows.length

/-- `1. / np.average(x.sum(axis=1))` (`/repo/multimodal/experiment.py:72`): infinite when the
average is null, not a number without rows. -/
def defaultCoef (x : Mx) : Option ℚ := if averageSum x = 0 then none else some (1 / averageSum x)

/-- `_set_coefs` (`/repo/multimodal/experiment.py:70-72`): the new value of the attribute. -/
def setCoefs (coefs : Option (List (Option ℚ))) (rawData : List Mx) : List (Option ℚ) :=
  match coefs with
  | some c => c
  | none => rawData.map defaultCoef

/-- The attributes set by `prepare`; the generator is the list of its values, or the exception it
raises when its first value is asked. -/
structure Prepared (L : Type) where
  coefs : List (Option ℚ)
  labelAssociation : List (List L)
  samplePairing : List (List ℕ)
  labelsAll : List ℕ
  examples : List ℕ
  others : List ℕ
  dataEx : List Mx
  data : List Mx
  labelsEx : List ℕ
  labels : List ℕ
  generator : Py (List (List ℕ × List ℕ))

/-- The element of `self.data` for the modality `i` (`/repo/multimodal/experiment.py:84-85`). -/
def orderData (assocIdx : List (List ℕ)) (xi : Mx × ℕ) : Py Mx := do
  let idx ← assocIdx.mapM fun t => pyGet t (xi.2 : ℤ)
  takeRows xi.1 idx

/-- Whether `int(s)` accepts a string: spaces around, a sign and digits (underscores between digits and digits which are not
those of ASCII are left out). -/
def isIntLiteral (s : Key) : Bool :=
  let ws : Char → Bool := fun c => c = ' ' || c = '\t' || c = '\n' || c = '\r'
  let t := ((s.dropWhile ws).reverse.dropWhile ws).reverse
  let d := match t with
    | '+' :: d => d
    | '-' :: d => d
    | d => d
  !d.isEmpty && d.all Char.isDigit

/-- `random_split(n_samples, ratio)` (`/repo/multimodal/lib/utils.py:127-131`) when the ratio is a string, at its first value:
`ratio * n_samples` is the string repeated, which `int` reads or not (`ValueError`), and then `1. / ratio` raises
`TypeError`. -/
def randomSplitStr (n : ℕ) (s : Key) : Py (List (List ℕ × List ℕ)) :=
  if isIntLiteral (List.replicate n s).flatten then .error .typeError else .error .valueError

/-- `get_generator` (`/repo/multimodal/experiment.py:123-130`): a generator function runs when its
first value is asked. -/
def getGenerator (shuffled : ℕ → List ℕ) (mode : RunMode) (n : ℕ) :
    Py (Py (List (List ℕ × List ℕ))) :=
  match mode with
  | .leaveOneOut => .ok (.ok (Utils.leaveOneOut n))
  | .single => do
    let splits ← Utils.randomSplit n (1 / 10) (shuffled n)
    match splits with
    | [] => .error .stopIteration
    | s :: _ => return .ok [s]
  | .ratio q => .ok (Utils.randomSplit n q (shuffled n))
  | .other s => .ok (randomSplitStr n s.1)

/-- `assert c`. -/
def pyAssert (c : Bool) : Py Unit := if c then .ok () else .error .assertionError

/-- The part of `_set_labels_and_prepare_data` which loads and orders data
(`/repo/multimodal/experiment.py:79-90`): the data, the labels and the coefficients. -/
def orderAll [DecidableEq L] (e : Exp) (rawData : Py (List Mx)) (labels : List ℕ)
    (assocIdx : List (List ℕ)) : Py (List Mx × List ℕ × List (Option ℚ)) := do
  let raw ← rawData
  let coefs := setCoefs e.coefs raw
  let data ← raw.zipIdx.mapM (orderData assocIdx)
  return if e.debug then (data.map cut, labels.take 200, coefs) else (data, labels, coefs)

/-- The part of `_set_data_and_labels_for_examples` after the examples are logged and the end of
`prepare` (`/repo/multimodal/experiment.py:97-102,117-121`). -/
def splitExamples (R : Rand L) (e : Exp) (names : List (List L)) (assocIdx : List (List ℕ))
    (coefs : List (Option ℚ)) (data : List Mx) (labelsAll examples : List ℕ) : Py (Prepared L) := do
  let others := (List.range labelsAll.length).filter fun i => decide (i ∉ examples)
  let dataEx ← data.mapM fun x => takeRows x examples
  let data ← data.mapM fun x => takeRows x others
  let labelsEx ← examples.mapM fun (i : ℕ) => pyGet labelsAll (i : ℤ)
  let labels ← others.mapM fun (i : ℕ) => pyGet labelsAll (i : ℤ)
  let generator ← getGenerator R.shuffled e.runMode labels.length
  pyAssert (decide ((∀ l ∈ labelsEx, l ∈ labelsAll) ∧ ∀ l ∈ labelsAll, l ∈ labelsEx))
  pyAssert (decide (∀ x ∈ data, labels.length = x.rows.length))
  pyAssert (decide (∀ l ∈ labels, l < 10))
  return ⟨coefs, names, assocIdx, labelsAll, examples, others, dataEx, data, labelsEx, labels,
    generator⟩

/-- `prepare` (`/repo/multimodal/experiment.py:104-121`); `rawLabels` and `rawData` are what the
loaders return. -/
def prepare [DecidableEq L] (R : Rand L) (e : Exp) (rawLabels : Py (List (List L)))
    (rawData : Py (List Mx)) : M (World L) (Prepared L) := do
  each e.parametersToDict fun kv => storeGlobal kv.1 kv.2
  let raw ← lift rawLabels
  let (names, labels, assocIdx) ← lift (Pairing.associateSamples R.namesOf R.shuf raw)
  storeGlobal "label_pairing".toList (.names names)
  storeGlobal "sample_pairing".toList (.pairing assocIdx)
  let (data, labelsAll, coefs) ← lift (orderAll (L := L) e rawData labels assocIdx)
  let examples ← lift (Evaluation.choseExamples labelsAll (R.setOrd labelsAll) 1)
  storeGlobal "examples".toList (.idx examples)
  lift (splitExamples R e names assocIdx coefs data labelsAll examples)

/-! ### Runs -/

/-- What an experiment uses of the learner: training a new one (the first argument tells which run
it is, as training is random), its dictionary, `reconstruct_internal_multi` (`reconstruct_internal`
is its case of one modality, `/repo/multimodal/learner.py:67-69`) and `reconstruct_modality`. -/
structure Ext (Λ : Type) where
  train : ℕ → List Key → List ℕ → List (Option ℚ) → ℕ → List Mx → ℕ → Py Λ
  dico : Λ → Mx
  internal : Λ → List Key → List Mx → ℕ → Py Mx
  reconstruct : Λ → Key → Mx → Py Mx

/-- What `_evaluate` does with a learner, the test data and the test labels. -/
abbrev Evaluate (L Λ : Type) := Λ → List Mx → List ℕ → M (World L) Unit

/-- `_get_new_learner` and `train` (`/repo/multimodal/experiment.py:154-156,166-169`). -/
def trainNew (X : Ext Λ) (e : Exp) (p : Prepared L) (dataTrain : List Mx) : M (World L) Λ :=
  fun w => (w, X.train w.log.exps.length e.modalities (p.data.map Mx.cols) p.coefs e.k dataTrain
    e.iterTrain)

/-- `_perform_one_run` (`/repo/multimodal/experiment.py:158-172`) after `next`. -/
def performOneRun (X : Ext Λ) (e : Exp) (p : Prepared L) (evaluate : Evaluate L Λ)
    (split : List ℕ × List ℕ) : M (World L) Unit := do
  newRun
  store "train".toList (.plain (.idx split.1))
  store "test".toList (.plain (.idx split.2))
  let dataTrain ← lift (p.data.mapM fun x => takeRows x split.1)
  let dataTest ← lift (p.data.mapM fun x => takeRows x split.2)
  let testLabels ← lift (split.2.mapM fun (t : ℕ) => pyGet p.labels (t : ℤ))
  let learner ← trainNew X e p dataTrain
  store "dictionary".toList (.arr (X.dico learner))
  evaluate learner dataTest testLabels

/-- `except StopIteration: pass` (`/repo/multimodal/experiment.py:146-147`). -/
def catchStop (m : M σ Unit) : M σ Unit := fun s =>
  match m s with
  | (s', .error .stopIteration) => (s', .ok ())
  | r => r

/-- `self.logger.save()` with its handler (`/repo/multimodal/experiment.py:149-152`). -/
def saveLog : M (World L) Unit := fun w =>
  match w.log.save w.fs with
  | .ok fs => ({ w with fs := fs }, .ok ())
  | .error .noFileError => (w, .ok ())
  | .error e => (w, .error e)

/-- The loop of `run` (`/repo/multimodal/experiment.py:143-147`): the exhausted generator raises
`StopIteration`, like any code inside of the loop may. -/
def runLoop (generator : Py (List (List ℕ × List ℕ))) (body : List ℕ × List ℕ → M σ Unit) :
    M σ Unit :=
  catchStop (do
    let splits ← lift generator
    each splits body)

/-- `run` (`/repo/multimodal/experiment.py:140-152`); `start` and `stop` are the times. -/
def run [DecidableEq L] (X : Ext Λ) (R : Rand L) (e : Exp) (rawLabels : Py (List (List L)))
    (rawData : Py (List Mx)) (evaluate : Prepared L → Evaluate L Λ) (start stop : Key) :
    M (World L) Unit := do
  let p ← prepare R e rawLabels rawData
  storeGlobal "start_time".toList (.time start)
  runLoop p.generator (performOneRun X e p (evaluate p))
  storeGlobal "end_time".toList (.time stop)
  saveLog

/-! ### `TwoModalitiesExperiment` -/

/-- The suffixes of the metrics (`/repo/multimodal/experiment.py:246`). -/
def SUFFIXES : List Key := ["".toList, "_bis".toList, "_frob".toList, "_cosine".toList]

/-- The four metrics and their suffixes (`/repo/multimodal/experiment.py:244-246`); the metrics
`kl_div, rev_kl_div, frobenius, cosine_diff` are arguments. -/
def metricsSuffixes (metrics : List (List ℚ → List ℚ → ℚ)) :
    List ((List ℚ → List ℚ → ℚ) × Key) := metrics.zip SUFFIXES

/-- `_get_all_internals` (`/repo/multimodal/experiment.py:177-180`). -/
def allInternals (X : Ext Λ) (e : Exp) (learner : Λ) (dataSet : List Mx) : Py (List Mx) :=
  dataSet.zipIdx.mapM fun xi => do
    let m ← pyGet e.modalities (xi.2 : ℤ)
    X.internal learner [m] [xi.1] e.iterTest

/-- The values of `out[in_mod]` (`/repo/multimodal/experiment.py:270-276`). -/
def transformRow (X : Ext Λ) (e : Exp) (learner : Λ) (dataSet internals : List Mx) (inMod : ℕ) :
    Py (List Mx) := do
  let x ← pyGet dataSet (inMod : ℤ)
  let row ← (List.range e.modalities.length).mapM fun (outMod : ℕ) =>
    if outMod = inMod then .ok x
    else do
      let m ← pyGet e.modalities (outMod : ℤ)
      let i ← pyGet internals (inMod : ℤ)
      X.reconstruct learner m i
  let i ← pyGet internals (inMod : ℤ)
  return row ++ [i]

/-- `_get_all_transformations` (`/repo/multimodal/experiment.py:259-277`). -/
def allTransformations (X : Ext Λ) (e : Exp) (learner : Λ) (dataSet : List Mx) :
    Py (List (List Mx)) := do
  let internals ← allInternals X e learner dataSet
  (List.range e.modalities.length).mapM fun (inMod : ℕ) =>
    transformRow X e learner dataSet internals inMod

/-- The part of the key for the compared modality (`/repo/multimodal/experiment.py:282`). -/
def expCmp (e : Exp) (modCmp : ℤ) : Py Key :=
  if modCmp = -1 then .ok []
  else do
    let m ← pyGet e.modalities modCmp
    return '_' :: m

/-- `_get_exp_key` (`/repo/multimodal/experiment.py:279-283`). -/
def expKey (e : Exp) (mod1 mod2 modCmp : ℤ) (metric : Key) : Py Key := do
  let m1 ← pyGet e.modalities mod1
  let m2 ← pyGet e.modalities mod2
  let c ← expCmp e modCmp
  return m1 ++ '2' :: (m2 ++ c ++ metric)

/-- `to_test` (`/repo/multimodal/experiment.py:240-242`). -/
def toTest (n : ℕ) : List (ℕ × ℕ × ℤ) :=
  (List.range n).flatMap fun a => (List.range n).flatMap fun b =>
    ((-1 : ℤ) :: (List.range n).map fun (c : ℕ) => (c : ℤ)).map fun c => (a, b, c)

/-- `x[i][j]`. -/
def get2 (x : List (List Mx)) (i j : ℤ) : Py Mx := do
  let row ← pyGet x i
  pyGet row j

/-- The inner loop of `_evaluate` (`/repo/multimodal/experiment.py:247-257`). -/
def evaluateTwoStep (e : Exp) (labelsEx : List ℕ) (test ex : List (List Mx)) (testLabels : List ℕ)
    (c : ℕ × ℕ × ℤ) (ms : (List ℚ → List ℚ → ℚ) × Key) : M (World L) Unit := do
  let t ← lift (get2 test c.1 c.2.2)
  let x ← lift (get2 ex c.2.1 c.2.2)
  let found ← lift (Evaluation.classifyNN t.rows x.rows labelsEx ms.1)
  let key ← lift (expKey e c.1 c.2.1 c.2.2 ms.2)
  storeResult ("found_".toList ++ key) (.plain (.idx found))
  storeResult ("score_".toList ++ key)
    (.plain (.score (Evaluation.foundLabelsToScore testLabels found)))

/-- `TwoModalitiesExperiment._evaluate` (`/repo/multimodal/experiment.py:233-257`). -/
def evaluateTwo (X : Ext Λ) (e : Exp) (metrics : List (List ℚ → List ℚ → ℚ)) (p : Prepared L) :
    Evaluate L Λ := fun learner dataTest testLabels => do
  let test ← lift (allTransformations X e learner dataTest)
  let ex ← lift (allTransformations X e learner p.dataEx)
  each (toTest e.modalities.length) fun c =>
    each (metricsSuffixes metrics) fun ms => evaluateTwoStep e p.labelsEx test ex testLabels c ms

/-! ### `ThreeModalitiesExperiment` -/

/-- `two_to_one` (`/repo/multimodal/experiment.py:354-356`). -/
def twoToOne (n : ℕ) : List (List ℕ × List ℕ) :=
  (List.range n).map fun mod => ((List.range n).filter fun m => m != mod, [mod])

/-- `_tested_combinations` (`/repo/multimodal/experiment.py:350-359`). -/
def testedCombinations (n : ℕ) : List (List ℕ × List ℕ) :=
  ((List.range n).flatMap fun mod1 =>
    ((List.range n).filter fun mod2 => mod1 != mod2).map fun mod2 => ([mod1], [mod2])) ++
  twoToOne n ++ (twoToOne n).map fun p => (p.2, p.1)

/-- `'_'.join(l)`. -/
def joinUnderscore : List Key → Key
  | [] => []
  | [a] => a
  | a :: l => a ++ '_' :: joinUnderscore l

/-- `_get_score_key` (`/repo/multimodal/experiment.py:371-375`). -/
def scoreKey3 (e : Exp) (mods1 mods2 : List ℕ) (metric : Key) : Py Key := do
  let m1 ← mods1.mapM fun (m : ℕ) => pyGet e.modalities (m : ℤ)
  let m2 ← mods2.mapM fun (m : ℕ) => pyGet e.modalities (m : ℤ)
  return "score_".toList ++ (joinUnderscore m1 ++ '2' :: (joinUnderscore m2 ++ metric))

/-- An iteration of `_get_all_internals` (`/repo/multimodal/experiment.py:363-368`). -/
def addInternal (X : Ext Λ) (e : Exp) (learner : Λ) (dataSet : List Mx) (d : Dict (List ℕ) Mx)
    (c : List ℕ × List ℕ) : Py (Dict (List ℕ) Mx) :=
  if (dictGet? d c.1).isSome then .ok d
  else do
    let ms ← c.1.mapM fun (m : ℕ) => pyGet e.modalities (m : ℤ)
    let xs ← c.1.mapM fun (m : ℕ) => pyGet dataSet (m : ℤ)
    let i ← X.internal learner ms xs e.iterTest
    return dictSet d c.1 i

/-- `_get_all_internals` (`/repo/multimodal/experiment.py:361-369`). -/
def allInternals3 (X : Ext Λ) (e : Exp) (learner : Λ) (dataSet : List Mx) :
    Py (Dict (List ℕ) Mx) :=
  (testedCombinations e.modalities.length).foldlM (addInternal X e learner dataSet) []

/-- `d[mods]`. -/
def getInternal (d : Dict (List ℕ) Mx) (mods : List ℕ) : Py Mx :=
  match dictGet? d mods with
  | none => .error .keyError
  | some x => .ok x

/-- The inner loop of `_evaluate` (`/repo/multimodal/experiment.py:341-348`). -/
def evaluateThreeStep (e : Exp) (labelsEx : List ℕ) (test ex : Dict (List ℕ) Mx)
    (testLabels : List ℕ) (c : List ℕ × List ℕ) (ms : (List ℚ → List ℚ → ℚ) × Key) :
    M (World L) Unit := do
  let t ← lift (getInternal test c.1)
  let x ← lift (getInternal ex c.2)
  let found ← lift (Evaluation.classifyNN t.rows x.rows labelsEx ms.1)
  let key ← lift (scoreKey3 e c.1 c.2 ms.2)
  storeResult key (.plain (.score (Evaluation.foundLabelsToScore testLabels found)))

/-- `ThreeModalitiesExperiment._evaluate` (`/repo/multimodal/experiment.py:332-348`). -/
def evaluateThree (X : Ext Λ) (e : Exp) (metrics : List (List ℚ → List ℚ → ℚ)) (p : Prepared L) :
    Evaluate L Λ := fun learner dataTest testLabels => do
  let test ← lift (allInternals3 X e learner dataTest)
  let ex ← lift (allInternals3 X e learner p.dataEx)
  each (testedCombinations e.modalities.length) fun c =>
    each (metricsSuffixes metrics) fun ms => evaluateThreeStep e p.labelsEx test ex testLabels c ms

end Verif.Experiment
