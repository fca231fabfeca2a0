import Verif.Experiment.Model

/-!
# Model of files of parameters

`/repo/multimodal/experiment.py:188-191, 224-228`: parameters of experiments are written as JSON documents, and read
by `from_serialized`.  Here values of JSON documents are explicit: tuples are written as lists.
-/

namespace Verif.Experiment

open Verif Verif.Logger

variable {L : Type}

/-- A JSON value, and the python value which `json.load` gives for it.  A float is `none` when it is infinite or not a
number, which `json` writes and reads. -/
inductive JVal
  | null
  | bool (b : Bool)
  | int (n : ℤ)
  | float (q : Option ℚ)
  | str (s : Key)
  | arr (l : List JVal)
  | obj (d : List (Key × JVal))

/-- `json.dump` of the value of `serialize` of a loader. -/
def Conf.toJson : Conf → JVal
  | .none => .null
  | .num n => .int n
  | .cfg f l => .obj [("features".toList, .arr (f.map .str)), ("labels".toList, .arr (l.map .str))]

/-- `json.dump` of `run_mode` (`/repo/multimodal/experiment.py:125-130`): a string or a float. -/
def RunMode.toJson : RunMode → JVal
  | .leaveOneOut => .str "leave-one-out".toList
  | .single => .str "single".toList
  | .ratio q => .float (some q)
  | .other s => .str s.1

/-- The document written by `json.dump(params, f)` for `serialize_parameters`
(`/repo/multimodal/experiment.py:61-65, 182-196`). -/
def Exp.toJson (enum : List Key → List Key) (e : Exp) : List (Key × JVal) :=
  [("modalities".toList, .arr (e.modalities.map .str)), ("k".toList, .int e.k),
   ("coefs".toList, match e.coefs with | none => .null | some l => .arr (l.map .float)),
   ("iter_train".toList, .int e.iterTrain), ("iter_test".toList, .int e.iterTest),
   ("shuffle_labels".toList, .bool e.shuffleLabels), ("run_mode".toList, e.runMode.toJson),
   ("debug".toList, .bool e.debug),
   ("loaders".toList, .arr (e.loaders.map fun l => .arr [.str l.datasetName, (l.serialize enum).toJson]))]

/-- `d[key]`. -/
def jget (d : List (Key × JVal)) (k : Key) : Py JVal :=
  match dictGet? d k with
  | none => .error .keyError
  | some v => .ok v

/-- Values which are strings, as names of modalities or of features; others are not modelled. -/
def JVal.asStr : JVal → Py Key | .str s => .ok s | _ => .error .typeError
/-- Values which can be enumerated; dictionaries and strings, which can too, are not modelled. -/
def JVal.asList : JVal → Py (List JVal) | .arr l => .ok l | _ => .error .typeError
/-- Values which are numbers of iterations or of components; others are not modelled. -/
def JVal.asNat : JVal → Py ℕ
  | .int n => if 0 ≤ n then .ok n.toNat else .error .typeError
  | _ => .error .typeError
/-- Values which are booleans; others are not modelled. -/
def JVal.asBool : JVal → Py Bool | .bool b => .ok b | _ => .error .typeError
/-- Values which are numbers; others are not modelled. -/
def JVal.asFloat : JVal → Py (Option ℚ) | .float q => .ok q | .int n => .ok (some n) | _ => .error .typeError
/-- Coefficients: `None` or a list of numbers. -/
def JVal.asCoefs : JVal → Py (Option (List (Option ℚ)))
  | .null => .ok none
  | v => do
    let l ← v.asList
    let l ← l.mapM JVal.asFloat
    return some l
/-- Run modes: strings and ratios. -/
def JVal.asMode : JVal → Py RunMode
  | .str s =>
    if h1 : s = "leave-one-out".toList then .ok .leaveOneOut
    else if h2 : s = "single".toList then .ok .single
    else .ok (.other ⟨s, h1, h2⟩)
  | .float (some q) => .ok (.ratio q)
  | _ => .error .typeError

/-- `get_loader` (`/repo/multimodal/experiment.py:198-211`), with `get_loader` of the classes
(`/repo/multimodal/db/acorns.py:89-91`, `/repo/multimodal/db/models/loader.py:15-17`,
`/repo/multimodal/db/objects.py:95-97`): speakers which are not numbers are not modelled. -/
def jLoader (dataset conf : JVal) : Py Ldr := do
  let dataset ← dataset.asStr
  if dataset = "acorns".toList then
    match conf with
    | .int n => .ok (.acorns (.num n))
    | .null => .ok (.acorns .none)
    | _ => .error .typeError
  else if dataset = "choreo2".toList then .ok .choreo2
  else if dataset = "objects".toList then
    match conf with
    | .obj d => do
      let f ← jget d "features".toList >>= JVal.asList
      let f ← f.mapM JVal.asStr
      let l ← jget d "labels".toList >>= JVal.asList
      let l ← l.mapM JVal.asStr
      return .objects f l
    | _ => .error .typeError
  else .error .valueError

/-- `for m, (dataset, conf) in zip(...)` (`/repo/multimodal/experiment.py:216-218`). -/
def jAddLoader (d : Dict Key Ldr) (p : JVal × JVal) : Py (Dict Key Ldr) := do
  let c ← p.2.asList
  match c with
  | [dataset, conf] => do
    let l ← jLoader dataset conf
    let m ← p.1.asStr
    return dictSet d m l
  | _ => .error .valueError

/-- `from_serialized` (`/repo/multimodal/experiment.py:213-222`). -/
def jFromSerialized (s : List (Key × JVal)) : Py Exp := do
  let mods ← jget s "modalities".toList >>= JVal.asList
  let confs ← jget s "loaders".toList >>= JVal.asList
  let loaders ← (mods.zip confs).foldlM jAddLoader []
  let k ← jget s "k".toList >>= JVal.asNat
  let itrain ← jget s "iter_train".toList >>= JVal.asNat
  let itest ← jget s "iter_test".toList >>= JVal.asNat
  let coefs ← jget s "coefs".toList >>= JVal.asCoefs
  let shuffle ← jget s "shuffle_labels".toList >>= JVal.asBool
  let mode ← jget s "run_mode".toList >>= JVal.asMode
  let debug ← jget s "debug".toList >>= JVal.asBool
  return Exp.new loaders k itrain itest coefs shuffle mode debug

/-- Files of parameters. -/
abbrev PFS := Key → Option (List (Key × JVal))

/-- `save_serialized_parameters` (`/repo/multimodal/experiment.py:188-191`): the file is replaced. -/
def saveSerialized (enum : List Key → List Key) (fs : PFS) (e : Exp) (destination : Key) : PFS :=
  fun q => if q = destination then some (e.toJson enum) else fs q

/-- `load_from_serialized` (`/repo/multimodal/experiment.py:224-228`). -/
def loadFromSerialized (fs : PFS) (path : Key) : Py Exp :=
  match fs path with
  | none => .error .ioError
  | some d => jFromSerialized d

end Verif.Experiment
