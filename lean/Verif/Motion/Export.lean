import Verif.Datasets.Model

/-!
# Model of the files of `multimodal/db/models/kinect_motion.py` in directories

Exports of all types with their destination, the directories of text exports, loading from a path and what it prints.
A file system tells which directories there are (the current one is `""`) and the content of files; opening a file for
writing fails with `IOError` exactly when its directory does not exist.  Two spellings of a path are two paths.  Writing
and reading contents does not fail.  `D` is the type of arrays.
-/

namespace Verif.Motion

open Verif.Corpus (pathJoin dirname)
open Verif.Logger (Key decStr)
open Verif.Datasets (andThen)

/-- The entry of meta data which tells where data are (`/repo/multimodal/db/models/kinect_motion.py:179-183`). -/
inductive Place
  | dataFile (n : Key)
  | dataDir (n : Key)
  deriving DecidableEq

/-- Meta data in a JSON file (`/repo/multimodal/db/models/kinect_motion.py:169-186`). -/
structure JsonMeta where
  name : Key
  markerNames : List Key
  desc : Desc
  place : Place
  records : List (ℕ × List Label)
  deriving DecidableEq

/-- What is saved with type `mat` (`/repo/multimodal/db/models/kinect_motion.py:169-174,188-190`): the entry of descriptions
is left out when there are none. -/
structure MatMeta (D : Type) where
  name : Key
  markerNames : List Key
  desc : Option Desc
  data : List D
  labels : List (List Label)
  deriving DecidableEq

/-- Contents of files. -/
inductive Saved (D : Type)
  | json (m : JsonMeta)
  | npz (arrays : Dict Key D)
  | txt (a : D)
  | mat (m : MatMeta D)
  deriving DecidableEq

/-- Directories and files. -/
abbrev Disk (D : Type) := Datasets.FS (Saved D)

variable {D : Type}

/-- `has_label_descriptions` (`/repo/multimodal/db/models/kinect_motion.py:62-63`). -/
def DB.hasDescriptions (db : DB D) : Bool := decide (db.desc ≠ .none)

/-- `add` (`/repo/multimodal/db/models/kinect_motion.py:92-95`). -/
def DB.add (db : DB D) (data : D) (label : List Label) : DB D := { db with records := db.records ++ [(data, label)] }

/-- `size` (`/repo/multimodal/db/models/kinect_motion.py:97-98`). -/
def DB.size (db : DB D) : ℕ := db.records.length

/-- `get_data_dimension` (`/repo/multimodal/db/models/kinect_motion.py:73-78`); `shape` is that of arrays. -/
def DB.dimension (shape : D → List ℕ) (db : DB D) : Py (List ℕ) :=
  match db.records with
  | [] => .error .valueError
  | r :: _ => .ok ((shape r.1).drop 1)

/-- `os.mkdir`, for a path without slash at its end. -/
def mkdir (fs : Disk D) (p : Key) : Disk D × Py Unit :=
  if fs.exist p then (fs, .error .ioError)
  else if fs.isDir (dirname p) then (⟨fun q => decide (q = p) || fs.isDir q, fs.file⟩, .ok ())
  else (fs, .error .ioError)

/-- `if not os.path.exists(p): os.mkdir(p)`. -/
def mkdirIf (fs : Disk D) (p : Key) : Disk D × Py Unit := if !fs.exist p then mkdir fs p else (fs, .ok ())

/-- The directories of text exports (`/repo/multimodal/db/models/kinect_motion.py:268-269`). -/
def textDirs (dest filename : Key) : Key × Key :=
  let d := pathJoin dest filename
  (d, pathJoin d (filename ++ "_data".toList))

/-- `create_text_subdirs` (`/repo/multimodal/db/models/kinect_motion.py:263-274`). -/
def createTextSubdirs (dest filename : Key) (fs : Disk D) : Disk D × Py Unit :=
  andThen (mkdirIf fs (textDirs dest filename).1) fun fs => mkdirIf fs (textDirs dest filename).2

/-- `meta_records` (`/repo/multimodal/db/models/kinect_motion.py:175-178`). -/
def DB.metaRecords (db : DB D) : List (ℕ × List Label) := db.labels.zipIdx.map fun p => (p.2, p.1)

/-- `_get_meta` (`/repo/multimodal/db/models/kinect_motion.py:169-195`) for JSON files, in which keys of descriptions are
strings. -/
def DB.jsonMeta (db : DB D) (place : Place) : JsonMeta := ⟨db.name, db.markerNames, jsonDesc db.desc, place, db.metaRecords⟩

/-- `_get_meta` (`/repo/multimodal/db/models/kinect_motion.py:169-195`) with type `mat`. -/
def DB.matMeta (db : DB D) : MatMeta D :=
  ⟨db.name, db.markerNames, if db.hasDescriptions then some db.desc else none, db.data, db.labels⟩

/-- The loop of `save_data_txt` (`/repo/multimodal/db/models/kinect_motion.py:203-220`).  `ndim` is the number of dimensions
of an array and `flat` the reshaping to two dimensions. -/
def saveDataTxt (ndim : D → ℕ) (flat : D → D) (forceFlat : Bool) (dir : Key) : ℕ → List D → Disk D → Disk D × Py Unit
  | _, [], fs => (fs, .ok ())
  | i, d :: ds, fs =>
    if ndim d ≠ 2 then
      if forceFlat ∧ 2 < ndim d then
        andThen (fs.save (pathJoin dir (decStr i ++ ".txt".toList)) (.txt (flat d))) (saveDataTxt ndim flat forceFlat dir (i + 1) ds)
      else (fs, .error .valueError)
    else andThen (fs.save (pathJoin dir (decStr i ++ ".txt".toList)) (.txt d)) (saveDataTxt ndim flat forceFlat dir (i + 1) ds)

/-- `export` (`/repo/multimodal/db/models/kinect_motion.py:119-167`): an unknown type fails in `_get_meta`, before anything
is written. -/
def DB.exportTo (ndim : D → ℕ) (flat : D → D) (db : DB D) (dest : Key) (filename : Option Key) (dataType : Key)
    (forceFlat : Bool) (fs : Disk D) : Disk D × Py Unit :=
  let f := filename.getD db.name
  if dataType = "npz".toList then
    andThen (fs.save (pathJoin dest (f ++ ".json".toList)) (.json (db.jsonMeta (.dataFile (f ++ ".npz".toList))))) fun fs =>
      fs.save (pathJoin dest (f ++ ".npz".toList)) (.npz db.npzData)
  else if dataType = "txt".toList then
    andThen (createTextSubdirs dest f fs) fun fs =>
      andThen (fs.save (pathJoin (textDirs dest f).1 (f ++ ".json".toList))
          (.json (db.jsonMeta (.dataDir (f ++ "_data".toList))))) fun fs =>
        saveDataTxt ndim flat forceFlat (textDirs dest f).2 0 db.data fs
  else if dataType = "mat".toList then fs.save (pathJoin dest (f ++ ".mat".toList)) (.mat db.matMeta)
  else (fs, .error .valueError)

/-- `load_from_npz` (`/repo/multimodal/db/models/kinect_motion.py:229-261`) without what it prints.  `KeyError` for the
meta data of text exports. -/
def loadFrom (fs : Disk D) (location : Key) : Py (DB D) :=
  match fs.file location with
  | some (.json m) =>
    match m.place with
    | .dataFile n =>
      match fs.file (pathJoin (dirname location) n) with
      | some (.npz arrays) => do
        let rs ← m.records.mapM (fetchRecord arrays)
        return ⟨m.name, m.markerNames, rs, m.desc⟩
      | some _ => .error .valueError
      | none => .error .ioError
    | .dataDir _ => .error .keyError
  | some _ => .error .valueError
  | none => .error .ioError

/-- `', '.join`. -/
def joinStr (sep : Key) : List Key → Key
  | [] => []
  | [s] => s
  | s :: l => s ++ sep ++ joinStr sep l

/-- `print_info` (`/repo/multimodal/db/models/kinect_motion.py:222-227`): what is printed, and the exception if any. -/
def DB.printInfo (shape : D → List ℕ) (db : DB D) : List Key × Py Unit :=
  match db.dimension shape with
  | .error e => ([], .error e)
  | .ok dims => (["Each data example is a (".toList ++ joinStr ", ".toList ("T".toList :: dims.map decStr) ++ ") array.".toList,
      "The second dimension corresponds to markers:".toList, "\t- ".toList ++ joinStr "\n\t- ".toList db.markerNames], .ok ())

/-- `load_from_npz(location, verbose=True)` (`/repo/multimodal/db/models/kinect_motion.py:229-261`): what is printed, and the
database. -/
def loadVerbose (shape : D → List ℕ) (fs : Disk D) (location : Key) : List Key × Py (DB D) :=
  match loadFrom fs location with
  | .error e => ([], .error e)
  | .ok db =>
    let line := "Loaded ".toList ++ decStr db.records.length ++ " examples for ``".toList ++ db.name ++ "`` set.".toList
    match db.printInfo shape with
    | (out, .ok ()) => (line :: out, .ok db)
    | (out, .error e) => (line :: out, .error e)

end Verif.Motion
