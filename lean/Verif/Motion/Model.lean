import Verif.PyMore
import Verif.Logger.Model

/-!
# Model of `multimodal/db/models/kinect_motion.py`

Strings are lists of characters, `D` is the type of data arrays.  The files are those of one
directory and file names have no separator.  JSON reproduces strings, integers, lists and `None`,
and turns the keys of dictionaries into strings.  Printing and the `mat` format are not modelled.
-/

namespace Verif.Motion

open Verif.Logger (Key decStr)

/-- A label: integer or string. -/
inductive Label
  | int (i : ℤ)
  | str (s : Key)
  deriving DecidableEq

/-- `label_descriptions`: `None`, a list or a dictionary. -/
inductive Desc
  | none
  | list (l : List Key)
  | dict (d : Dict Label Key)
  deriving DecidableEq

/-- `desc[label]`. -/
def Desc.get : Desc → Label → Py Key
  | .none, _ => .error .typeError
  | .list l, .int i => pyGet l i
  | .list _, .str _ => .error .typeError
  | .dict d, x => match dictGet? d x with
    | some v => .ok v
    | Option.none => .error .keyError

/-- Attributes of a `MotionDatabase` (`/repo/multimodal/db/models/kinect_motion.py:56-60`). -/
structure DB (D : Type) where
  name : Key
  markerNames : List Key
  records : List (D × List Label)
  desc : Desc
  deriving DecidableEq

variable {D : Type}

/-- `get_description_safe` (`/repo/multimodal/db/models/kinect_motion.py:65-71`). -/
def DB.descriptionSafe (db : DB D) (x : Label) : Py Key :=
  if db.desc ≠ .none then
    match db.desc.get x with
    | .ok v => .ok v
    | .error .indexError => .ok []
    | .error .keyError => .ok []
    | .error e => .error e
  else .ok []

/-- `data` (`/repo/multimodal/db/models/kinect_motion.py:80-84`). -/
def DB.data (db : DB D) : List D := db.records.map Prod.fst

/-- `labels` (`/repo/multimodal/db/models/kinect_motion.py:86-90`). -/
def DB.labels (db : DB D) : List (List Label) := db.records.map Prod.snd

/-- The labels of `get_occuring_labels`, before they are made a set
(`/repo/multimodal/db/models/kinect_motion.py:100-103`). -/
def DB.occuring (db : DB D) : List Label := db.records.flatMap Prod.snd

/-- `extend` (`/repo/multimodal/db/models/kinect_motion.py:105-117`).  `order` lists the elements of
the union of the two sets of labels, in the order in which Python visits them. -/
def DB.extend (db other : DB D) (order : List Label) : Py (DB D) :=
  if db.markerNames ≠ other.markerNames then .error .valueError
  else do
    let eqs ← order.mapM fun l => do
      let a ← db.desc.get l
      let b ← other.desc.get l
      return decide (a = b)
    if !(eqs.all id) then .error .valueError
    else return { db with records := db.records ++ other.records }

/-! ### Files -/

/-- The meta data (`/repo/multimodal/db/models/kinect_motion.py:169-195`). -/
structure Meta where
  name : Key
  markerNames : List Key
  desc : Desc
  records : List (ℕ × List Label)
  dataFile : Key
  deriving DecidableEq

/-- Contents of files. -/
inductive File (D : Type)
  | json (m : Meta)
  | npz (arrays : Dict Key D)
  | txt (a : D)

/-- Files by name. -/
abbrev FS (D : Type) := Key → Option (File D)

/-- A file write. -/
def FS.write (fs : FS D) (p : Key) (f : File D) : FS D := fun q => if q = p then some f else fs q

/-- `str(i)`. -/
def intStr (i : ℤ) : Key := if i < 0 then '-' :: decStr i.natAbs else decStr i.natAbs

/-- JSON makes strings of the keys of dictionaries. -/
def jsonKey : Label → Label
  | .int i => .str (intStr i)
  | .str s => .str s

/-- `json.load` of `json.dump` on descriptions: of several equal keys the last one wins. -/
def jsonDesc : Desc → Desc
  | .none => .none
  | .list l => .list l
  | .dict d => .dict (dictOf (d.map fun kv => (jsonKey kv.1, kv.2)))

/-- `_get_meta` with type `npz` (`/repo/multimodal/db/models/kinect_motion.py:169-195`). -/
def DB.getMeta (db : DB D) (filename : Key) : Meta :=
  ⟨db.name, db.markerNames, db.desc, db.labels.zipIdx.map fun p => (p.2, p.1),
    filename ++ ".npz".toList⟩

/-- `save_data_npz` (`/repo/multimodal/db/models/kinect_motion.py:197-201`): the archive. -/
def DB.npzData (db : DB D) : Dict Key D := dictOf (db.records.zipIdx.map fun p => (decStr p.2, p.1.1))

/-- `export` (`/repo/multimodal/db/models/kinect_motion.py:119-151,166-167`) with type `npz` or an
unknown type; the JSON file holds the converted descriptions. -/
def DB.export (db : DB D) (fs : FS D) (filename : Option Key) (dataType : Key) : Py (FS D) :=
  let filename := filename.getD db.name
  if dataType = "npz".toList then
    let m := db.getMeta filename
    let fs := fs.write (filename ++ ".json".toList) (.json { m with desc := jsonDesc m.desc })
    .ok (fs.write m.dataFile (.npz db.npzData))
  else .error .valueError

/-- Data and labels of a record (`/repo/multimodal/db/models/kinect_motion.py:254-256`). -/
def fetchRecord (arrays : Dict Key D) (r : ℕ × List Label) : Py (D × List Label) :=
  match dictGet? arrays (decStr r.1) with
  | some d => .ok (d, r.2)
  | none => .error .keyError

/-- `load_from_npz` (`/repo/multimodal/db/models/kinect_motion.py:229-261`). -/
def load (fs : FS D) (location : Key) : Py (DB D) :=
  match fs location with
  | some (.json m) =>
    match fs m.dataFile with
    | some (.npz arrays) => do
      let rs ← m.records.mapM (fetchRecord arrays)
      return ⟨m.name, m.markerNames, rs, m.desc⟩
    | some _ => .error .valueError
    | none => .error .ioError
  | some _ => .error .valueError
  | none => .error .ioError

/-- `save_data_txt` (`/repo/multimodal/db/models/kinect_motion.py:203-220`): the files written, and
the exception which ends the loop if any.  `ndim` is the number of dimensions of an array and
`flat` the reshaping to two dimensions. -/
def saveTxt (ndim : D → ℕ) (flat : D → D) (forceFlat : Bool) : ℕ → List D →
    List (Key × D) × Py Unit
  | _, [] => ([], .ok ())
  | i, d :: ds =>
    if ndim d ≠ 2 then
      if forceFlat ∧ 2 < ndim d then
        let r := saveTxt ndim flat forceFlat (i + 1) ds
        ((decStr i ++ ".txt".toList, flat d) :: r.1, r.2)
      else ([], .error .valueError)
    else
      let r := saveTxt ndim flat forceFlat (i + 1) ds
      ((decStr i ++ ".txt".toList, d) :: r.1, r.2)

end Verif.Motion
