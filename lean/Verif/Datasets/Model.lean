import Verif.Corpus.Model
import Verif.Objects.Model
import Verif.Motion.Model

/-!
# Model of the modules and scripts which find, download and build data sets

`multimodal/local.py`, `multimodal/db/acorns.py`, `multimodal/db/choreo2.py`,
`multimodal/db/objects.py`, `multimodal/db/vctk.py` (files), `multimodal/db/models/objects.py`
(`save` and `load`) and `multimodal/db/scripts/`.

Paths are strings; a file system tells which directories there are and the content of files.  JSON
and `mat` files are read as they were written.  Opening a file for writing fails with `IOError`
exactly when its directory does not exist.
-/

namespace Verif.Datasets

open Verif.Corpus (Str Info pathJoin dirname extension configGet splitChar checkYear nSpeakers)
open Verif.Loaders (popAll popRecords blacklistY1 takeRows featureFileName acornsFile allSpeakers)

/-! ### Files -/

/-- Directories and contents of files by path. -/
structure FS (C : Type) where
  isDir : Str → Bool
  file : Str → Option C

variable {C : Type}

/-- A write. -/
def FS.write (fs : FS C) (p : Str) (c : C) : FS C :=
  ⟨fs.isDir, fun q => if q = p then some c else fs.file q⟩

/-- `os.path.exists`. -/
def FS.exist (fs : FS C) (p : Str) : Bool := fs.isDir p || (fs.file p).isSome

/-- `open(p, 'w')` and what is written: `IOError` when there is no such directory. -/
def FS.save (fs : FS C) (p : Str) (c : C) : FS C × Py Unit :=
  if fs.isDir (dirname p) then (fs.write p c, .ok ()) else (fs, .error .ioError)

/-- `os.path.basename`. -/
def basename (p : Str) : Str := (p.reverse.takeWhile fun c => c ≠ '/').reverse

/-- `os.path.splitext(p)[0]`. -/
def stem (p : Str) : Str := p.take (p.length - (extension p).length)

/-- `CONFIG` (`/repo/multimodal/local.py:10-17`), for the home directory `home` without trailing slash
(`expanduser` removes it). -/
def localConfig (home : Str) : Dict Str Str :=
  let data := home ++ "/work/data/".toList
  [("data-dir".toList, data), ("db-dir".toList, pathJoin data "db".toList),
    ("feat-dir".toList, pathJoin data "features".toList)]

/-! ### Downloads -/

/-- `check_destination_path` (`/repo/multimodal/lib/net.py:8-18`). -/
def checkPath (fs : FS C) (path name : Str) (overwrite : Bool) : Py Str :=
  let p := pathJoin path name
  if !fs.isDir path then .error .ioError
  else if fs.exist p && !overwrite then .error .ioError
  else .ok p

/-- `urlretrieve(url, check_destination_path(path, name, overwrite=overwrite))`: `get` is what the
server sends for an address.  A retrieval which fails writes nothing. -/
def retrieve (get : Str → Py C) (overwrite : Bool) (fs : FS C) (url path name : Str) : FS C × Py Unit :=
  match checkPath fs path name overwrite with
  | .error e => (fs, .error e)
  | .ok p =>
    match get url with
    | .error e => (fs, .error e)
    | .ok c => (fs.write p c, .ok ())

/-- One command after the other. -/
def andThen (r : FS C × Py Unit) (f : FS C → FS C × Py Unit) : FS C × Py Unit :=
  match r with
  | (fs, .error e) => (fs, .error e)
  | (fs, .ok ()) => f fs

/-- A value, perhaps an error, used by a command. -/
def withVal {α : Type} (fs : FS C) (x : Py α) (f : α → FS C × Py Unit) : FS C × Py Unit :=
  match x with
  | .error e => (fs, .error e)
  | .ok a => f a

/-- Calls of `retrieve` with the same address `src`, one after the other: names and directories. -/
def retrieveAll (get : Str → Py C) (overwrite : Bool) (src : Str) (fs : FS C) : List (Str × Str) → FS C × Py Unit
  | [] => (fs, .ok ())
  | (path, name) :: l =>
    andThen (retrieve get overwrite fs (src ++ name) path name) fun fs => retrieveAll get overwrite src fs l

/-- `SRC` (`/repo/multimodal/db/choreo2.py:24`). -/
def choreo2Src : Str := "http://olivier.mangin.com/data/choreo2/".toList

/-- `DEFAULT_META_FILE_NAME` (`/repo/multimodal/db/choreo2.py:25`). -/
def choreo2Meta : Str := "choreo2.json".toList

/-- `DEFAULT_FEATURES_FILE_NAME` (`/repo/multimodal/db/choreo2.py:26`). -/
def choreo2Feat : Str := "choreo2_angle_hist.npz".toList

/-- `default_db_file` (`/repo/multimodal/db/choreo2.py:29-30`). -/
def choreo2DbFile (cfg : Dict Str Str) : Py Str := do
  let d ← configGet cfg "db-dir".toList
  return pathJoin (pathJoin d "choreo2".toList) choreo2Meta

/-- `get_default_feature_file` (`/repo/multimodal/db/choreo2.py:33-34`). -/
def choreo2FeatFile (cfg : Dict Str Str) : Py Str := do
  let d ← configGet cfg "feat-dir".toList
  return pathJoin d choreo2Feat

/-- `__get_dest` (`/repo/multimodal/db/choreo2.py:97-106`). -/
def getDest (cfg : Dict Str Str) (dest : Option Str) (ext : Bool) : Py (Str × Str) := do
  let p ← match dest with
    | none => (choreo2DbFile cfg).map fun f => (dirname f, basename f)
    | some d => .ok (d, choreo2Meta)
  return (p.1, if ext then p.2 else stem p.2)

/-- `download_meta` (`/repo/multimodal/db/choreo2.py:109-113`). -/
def choreo2DownloadMeta (get : Str → Py C) (cfg : Dict Str Str) (dest : Option Str) (overwrite : Bool) (fs : FS C) :
    FS C × Py Unit :=
  withVal fs (getDest cfg dest true) fun d => retrieve get overwrite fs (choreo2Src ++ d.2) d.1 d.2

/-- `download` (`/repo/multimodal/db/choreo2.py:116-124`). -/
def choreo2Download (get : Str → Py C) (cfg : Dict Str Str) (dest : Option Str) (overwrite : Bool) (fs : FS C) :
    FS C × Py Unit :=
  withVal fs (getDest cfg dest false) fun d => retrieveAll get overwrite choreo2Src fs
    [(d.1, d.2 ++ ".json".toList), (d.1, d.2 ++ ".npz".toList)]

/-- `download_with_features` (`/repo/multimodal/db/choreo2.py:127-136`). -/
def choreo2DownloadAll (get : Str → Py C) (cfg : Dict Str Str) (metaDest featDest : Option Str) (overwrite : Bool)
    (fs : FS C) : FS C × Py Unit :=
  andThen (choreo2Download get cfg metaDest overwrite fs) fun fs =>
    withVal fs (match featDest with
      | none => configGet cfg "feat-dir".toList
      | some d => .ok d) fun d => retrieveAll get overwrite choreo2Src fs [(d, choreo2Feat)]

/-- `SRC` (`/repo/multimodal/db/acorns.py:22`). -/
def acornsSrc : Str := "http://olivier.mangin.com/data/acorns-caregiver/".toList

/-- `default_acorns_dir` (`/repo/multimodal/db/acorns.py:26-28`). -/
def acornsDir (cfg : Dict Str Str) : Py Str := do
  let d ← configGet cfg "db-dir".toList
  return pathJoin d "ACORNS".toList

/-- `download_meta_and_features` (`/repo/multimodal/db/acorns.py:133-148`). -/
def acornsDownload (get : Str → Py C) (cfg : Dict Str Str) (year : ℕ) (metaDest featDest : Option Str)
    (overwrite : Bool) (fs : FS C) : FS C × Py Unit :=
  withVal fs (match metaDest with
    | none => acornsDir cfg
    | some d => .ok d) fun m =>
  andThen (retrieveAll get overwrite acornsSrc fs [(m, acornsFile year)]) fun fs =>
    withVal fs (match featDest with
      | none => configGet cfg "feat-dir".toList
      | some d => .ok d) fun d =>
    withVal fs (pyGet allSpeakers ((year : ℤ) - 1)) fun sp =>
      retrieveAll get overwrite acornsSrc fs (sp.map fun s => (d, featureFileName year s))

/-- `SRC` (`/repo/multimodal/db/objects.py:36`). -/
def objectsSrc : Str := "http://olivier.mangin.com/data/objects/".toList

/-- `get_default_db_file` (`/repo/multimodal/db/objects.py:39-43`). -/
def objectsDbFile (cfg : Dict Str Str) (ext : Bool) : Py Str := do
  let d ← configGet cfg "db-dir".toList
  return pathJoin (pathJoin d "objects".toList) ("single_object_label".toList ++ if ext then ".json".toList else [])

/-- `download_meta_and_features` (`/repo/multimodal/db/objects.py:112-124`); the argument `dest` has no
default value but may be `None`. -/
def objectsDownload (get : Str → Py C) (cfg : Dict Str Str) (dest : Option Str) (overwrite : Bool) (fs : FS C) :
    FS C × Py Unit :=
  withVal fs (objectsDbFile cfg false) fun f =>
    let name := basename f
    let d := dest.getD (dirname f)
    retrieveAll get overwrite objectsSrc fs [(d, name ++ ".json".toList), (d, name ++ ".mat".toList)]

/-- The script `download_dbs` (`/repo/multimodal/db/scripts/download_dbs:13-15`): the last call has no
argument `dest`, hence `TypeError`. -/
def downloadDbs (get : Str → Py C) (cfg : Dict Str Str) (fs : FS C) : FS C × Py Unit :=
  andThen (choreo2DownloadAll get cfg none none true fs) fun fs =>
    andThen (acornsDownload get cfg 1 none none true fs) fun fs => (fs, .error .typeError)

/-! ### Databases of objects -/

/-- The JSON file of a database of objects (`/repo/multimodal/db/models/objects.py:102-106`); keys may
be missing. -/
structure ObjMeta where
  objectNames : Option (List (Option Str))
  dataFile : Option Str
  frames : Option (List (Str × ℤ × ℚ × List (Option (List ℤ))))

/-- Contents of files: descriptions of sounds, features (a matrix given by its lines, variable `hac` or
`Xmotion`), codebooks, descriptions of objects, `mat` files of named matrices, lines of text. -/
inductive Content (R B M : Type)
  | sound (d : Sound.Doc Str Info)
  | features (rows : List R)
  | codebooks (b : B)
  | objects (m : ObjMeta)
  | matrices (d : Dict Str M)
  | text (lines : List Str)

variable {R B M : Type}

/-- `FEATURES` (`/repo/multimodal/db/models/objects.py:13`). -/
def FEATURES : List Str := ["SURF".toList, "color".toList, "SURF_pairs".toList, "color_pairs".toList,
  "color_triplets".toList]

/-- Attributes of an `ObjectDB` (`/repo/multimodal/db/models/objects.py:86-90`); matrices by frame are
`None` as long as they are not computed. -/
structure ObjectDB (M : Type) where
  frames : List Objects.Frame
  histos : List M
  byFrame : List (Option M)
  objectNames : Option (List (Option Str))
  deriving DecidableEq

/-- The matrices given to `savemat` (`/repo/multimodal/db/models/objects.py:109-111`). -/
def ObjectDB.matrices (db : ObjectDB M) : Dict Str (Option M) :=
  ((FEATURES.map ("by_frame_".toList ++ ·)).zip db.byFrame).foldl (fun d p => dictSet d p.1 p.2)
    (dictOf (FEATURES.zip (db.histos.map some)))

/-- `savemat` writes variables one after the other and raises `TypeError` on `None`: the variables written
and the result. -/
def savemat : List (Str × Option M) → Dict Str M × Py Unit
  | [] => ([], .ok ())
  | (_, none) :: _ => ([], .error .typeError)
  | (k, some m) :: l => ((k, m) :: (savemat l).1, (savemat l).2)

/-- `ObjectDB.save` (`/repo/multimodal/db/models/objects.py:99-112`); `order` is the order in which the
dictionary of matrices is visited. -/
def ObjectDB.save (order : Dict Str (Option M) → List (Str × Option M)) (db : ObjectDB M) (path name : Str)
    (fs : FS (Content R B M)) : FS (Content R B M) × Py Unit :=
  let metaFile := pathJoin path (name ++ ".json".toList)
  let dataFile := pathJoin path (name ++ ".mat".toList)
  let m : ObjMeta := ⟨db.objectNames, some (name ++ ".mat".toList), some (db.frames.map Objects.Frame.toDict)⟩
  andThen (fs.save metaFile (.objects m)) fun fs =>
    let r := savemat (order db.matrices)
    andThen (fs.save dataFile (.matrices r.1)) fun fs => (fs, r.2)

/-- `data[key]`. -/
def getKey {V : Type} (d : Dict Str V) (k : Str) : Py V :=
  match dictGet? d k with
  | some v => .ok v
  | none => .error .keyError

/-- `loadmat(path)` for named matrices. -/
def loadMatrices (fs : FS (Content R B M)) (path : Str) : Py (Dict Str M) :=
  match fs.file path with
  | some (.matrices d) => .ok d
  | some _ => .error .valueError
  | none => .error .ioError

/-- `ObjectDB.load` (`/repo/multimodal/db/models/objects.py:173-187`); `empty` is `GrowingLILMatrix()`. -/
def loadObjects (empty : M) (fs : FS (Content R B M)) (path : Str) : Py (ObjectDB M) := do
  let m ← (match fs.file path with
    | some (.objects m) => .ok m
    | some _ => .error .valueError
    | none => .error .ioError : Py ObjMeta)
  let frames ← Corpus.metaGet m.frames
  let frames := frames.map Objects.Frame.fromDict
  match m.dataFile with
  | none => return ⟨frames, FEATURES.map fun _ => empty, FEATURES.map fun _ => none, m.objectNames⟩
  | some f => do
    let data ← loadMatrices fs (pathJoin (dirname path) f)
    let histos ← FEATURES.mapM (getKey data)
    let byFrame ← FEATURES.mapM fun f => getKey data ("by_frame_".toList ++ f)
    return ⟨frames, histos, byFrame.map some, m.objectNames⟩

/-- `objects.load` (`/repo/multimodal/db/objects.py:46-49`). -/
def objectsLoad (empty : M) (cfg : Dict Str Str) (dbFile : Option Str) (fs : FS (Content R B M)) : Py (ObjectDB M) := do
  let p ← (match dbFile with
    | none => objectsDbFile cfg true
    | some p => .ok p : Py Str)
  loadObjects empty fs p

/-- Lines of a text file. -/
def readText (fs : FS (Content R B M)) (path : Str) : Py (List Str) :=
  match fs.file path with
  | some (.text l) => .ok l
  | some _ => .error .valueError
  | none => .error .ioError

/-- The matrices of the database built, of growing matrices (`grow`) and by frame (`dense`). -/
def buildObjects (cv : Objects.Conv) (grow : Arrays.LIL → M) (dense : Arrays.Mat → M)
    (names : Option (List (Option Str))) (fs : FS (Content R B M)) (path : Str) : Py (ObjectDB M) := do
  let lines ← readText fs path
  let r ← Objects.buildFrom cv (fun f => readText fs (pathJoin (pathJoin (dirname path) "histograms".toList) f)) lines
  return ⟨r.1.frames, r.1.histos.map grow, r.2.2.map fun m => some (dense m), names⟩

/-- `OBJ_NAMES` (`/repo/multimodal/db/scripts/parse_objects:9-33`). -/
def OBJ_NAMES : List (Option Str) :=
  [some "hand".toList, some "blue octopus".toList, some "red pooh".toList, some "pink octopus".toList,
   some "yellow car".toList, some "blue and yellow whale".toList, some "blue-eyes-green-yellow".toList,
   some "orange fish".toList, some "brown and white squirrel".toList, some "mouse?".toList,
   some "dark green and white cube".toList, some "blue on red wagon".toList, none, some "white bottle".toList,
   some "ketchup bottle".toList, none, some "donkey".toList, none, none, none, some "pink moose".toList,
   some "orangina can".toList, none, none, none, some "multicolor ball".toList, some "giraffe".toList,
   some "green car".toList, some "red hammer".toList, some "blue rake".toList, some "green spade".toList, none,
   some "light green box".toList]

/-- `DEFAULT_LABELS` (`/repo/multimodal/db/objects.py:24-35`). -/
def DEFAULT_LABELS : List Str :=
  ["blue octopus".toList, "red pooh".toList, "pink octopus".toList, "yellow car".toList,
   "blue and yellow whale".toList, "blue-eyes-green-yellow".toList, "orange fish".toList,
   "brown and white squirrel".toList, "mouse?".toList, "dark green and white cube".toList]

/-- The script `parse_objects` (`/repo/multimodal/db/scripts/parse_objects:7-42`). -/
def parseObjects (cv : Objects.Conv) (grow : Arrays.LIL → M) (dense : Arrays.Mat → M)
    (order : Dict Str (Option M) → List (Str × Option M)) (abspath : Str → Str) (cfg : Dict Str Str)
    (fs : FS (Content R B M)) : FS (Content R B M) × Py Unit :=
  withVal fs (objectsDbFile cfg false) fun dbFile =>
    let source := pathJoin (dirname dbFile) "stat_one_obj_no_hand".toList
    if fs.exist dbFile then (fs, .ok ())
    else withVal fs (buildObjects cv grow dense (some OBJ_NAMES) fs source) fun db =>
      db.save order (abspath (dirname dbFile)) (basename dbFile) fs

/-! ### Sounds -/

/-- `DataBase.load_from` on a file, in a new database. -/
def loadSound (fs : FS (Content R B M)) (path : Str) : Py Corpus.DB :=
  match fs.file path with
  | some (.sound doc) => (Sound.DB.new 0).loadFrom doc true
  | some _ => .error .valueError
  | none => .error .ioError

/-- `BLACKLIST_Y2` (`/repo/multimodal/db/acorns.py:20`). -/
def blacklistY2 : List (List ℕ) := List.replicate 10 []

/-- `BLACKLIST_Y1 if year == 1 else BLACKLIST_Y2`. -/
def blacklist (year : ℤ) : List (List ℕ) := if year = 1 then blacklistY1 else blacklistY2

/-- The file read by `acorns.load` (`/repo/multimodal/db/acorns.py:46-47`). -/
def acornsDbPath (cfg : Dict Str Str) (year : ℤ) : Option Str → Py Str
  | none => (acornsDir cfg).map fun d => pathJoin d (acornsFile year.toNat)
  | some p => .ok p

/-- `acorns.load` (`/repo/multimodal/db/acorns.py:42-55`). -/
def acornsLoad (cfg : Dict Str Str) (fs : FS (Content R B M)) (year : ℤ) (dbFile : Option Str) (bl : Bool) :
    Py Corpus.DB := do
  checkYear year
  let p ← acornsDbPath cfg year dbFile
  let db ← loadSound fs p
  if bl then do
    let recs ← popRecords db.records (blacklist year)
    return { db with records := recs }
  else return db

/-- `check_speaker` (`/repo/multimodal/db/acorns.py:35-39`): it raises a tuple, hence `TypeError`, and
accepts one speaker too many. -/
def checkSpeaker (year speaker : ℤ) : Py Unit :=
  if speaker < 0 ∨ (nSpeakers year : ℤ) < speaker then .error .typeError else .ok ()

/-- `loadmat(path)['hac']` or `np.load(path)['Xmotion']`. -/
def loadRows (fs : FS (Content R B M)) (path : Str) : Py (List R) :=
  match fs.file path with
  | some (.features l) => .ok l
  | some (.codebooks _) => .error .keyError
  | some (.matrices _) => .error .keyError
  | some _ => .error .valueError
  | none => .error .ioError

/-- `acorns.load_features` (`/repo/multimodal/db/acorns.py:107-121`). -/
def acornsFeatures (cfg : Dict Str Str) (fs : FS (Content R B M)) (year speaker : ℤ) (bl : Bool) : Py (List R) := do
  checkYear year
  checkSpeaker year speaker
  let d ← configGet cfg "feat-dir".toList
  let x ← loadRows fs (pathJoin d (featureFileName year.toNat speaker.toNat))
  if bl then do
    let b ← pyGet (blacklist year) speaker
    let all ← popAll (List.range x.length) b
    takeRows x all
  else return x

/-- `acorns.load_features_and_labels` (`/repo/multimodal/db/acorns.py:95-100`). -/
def acornsFeaturesAndLabels (cfg : Dict Str Str) (fs : FS (Content R B M)) (year speaker : ℤ) (bl : Bool)
    (dbFile : Option Str) : Py (List R × List (List ℤ) × List Str) := do
  let db ← acornsLoad cfg fs year dbFile bl
  let recs ← pyGet db.records speaker
  let labels := recs.map Sound.Rec.tags
  let x ← acornsFeatures cfg fs year speaker bl
  if x.length = labels.length then return (x, labels, db.tags) else .error .assertionError

/-- `Record.get_audio_path` (`/repo/multimodal/db/models/sound.py:51-52`) with `DataBase.get_wav_dir`
(`/repo/multimodal/db/models/sound.py:126-128`), for a directory `sub` of sounds; joining `None` raises
`TypeError`. -/
def audioPath (sub : Str) (db : Corpus.DB) (r : Sound.Rec Str) : Py Str := do
  let s ← pyGet db.spkrs r.spkr
  let root ← (match db.root with
    | none => .error .typeError
    | some root => .ok root : Py Str)
  match r.audio with
  | none => .error .typeError
  | some a => return pathJoin (pathJoin (pathJoin root sub) s) a

/-- `print(r)` with `Record.__str__` (`/repo/multimodal/db/models/sound.py:37-43`), which looks up the tags
and the speaker. -/
def printRecord (db : Corpus.DB) (r : Sound.Rec Str) : Py Unit := do
  let _ ← Sound.tagNames db r
  let _ ← pyGet db.spkrs r.spkr
  return ()

/-- `WAV_DIR` (`/repo/multimodal/db/models/acorns.py:32`). -/
def acornsWav : Str := "WAV".toList

/-- The features of a record (`/repo/multimodal/db/scripts/build_acorns_features:48-50`). -/
def recordFeatures (wav2hac : B → Str → Py R) (b : B) (db : Corpus.DB) (r : Sound.Rec Str) : Py R := do
  printRecord db r
  let p ← audioPath acornsWav db r
  wav2hac b p

/-- The loop over speakers (`/repo/multimodal/db/scripts/build_acorns_features:46-55`), from a speaker on:
`vstack` of no matrix raises `ValueError`. -/
def buildSpeakers (wav2hac : B → Str → Py R) (b : B) (feat : Str) (year : ℕ) (db : Corpus.DB) :
    ℕ → List (List (Sound.Rec Str)) → FS (Content R B M) → FS (Content R B M) × Py Unit
  | _, [], fs => (fs, .ok ())
  | s, recs :: l, fs =>
    withVal fs (recs.mapM (recordFeatures wav2hac b db)) fun rows =>
      if rows.isEmpty then (fs, .error .valueError)
      else andThen (fs.save (pathJoin feat (featureFileName year s)) (.features rows)) fun fs =>
        buildSpeakers wav2hac b feat year db (s + 1) l fs

/-- The loop over years (`/repo/multimodal/db/scripts/build_acorns_features:44-55`). -/
def buildYears (wav2hac : B → Str → Py R) (b : B) (cfg : Dict Str Str) (feat : Str) :
    List ℕ → FS (Content R B M) → FS (Content R B M) × Py Unit
  | [], fs => (fs, .ok ())
  | y :: ys, fs =>
    withVal fs (acornsLoad cfg fs (y : ℤ) none false) fun db =>
      andThen (buildSpeakers wav2hac b feat y db 0 db.records fs) fun fs => buildYears wav2hac b cfg feat ys fs

/-- `loadmat(CODEBOOK_PATH)['codebooks']` (`/repo/multimodal/db/scripts/build_acorns_features:40`). -/
def loadCodebooks (fs : FS (Content R B M)) (path : Str) : Py B :=
  match fs.file path with
  | some (.codebooks b) => .ok b
  | some (.features _) => .error .keyError
  | some (.matrices _) => .error .keyError
  | some _ => .error .valueError
  | none => .error .ioError

/-- The script `build_acorns_features` (`/repo/multimodal/db/scripts/build_acorns_features:30-55`), where
`BUILD_CODEBOOK` is false. -/
def buildAcornsFeatures (wav2hac : B → Str → Py R) (cfg : Dict Str Str) (fs : FS (Content R B M)) :
    FS (Content R B M) × Py Unit :=
  withVal fs (configGet cfg "feat-dir".toList) fun feat =>
    withVal fs (loadCodebooks fs (pathJoin feat "vctk_codebook.mat".toList)) fun b =>
      buildYears wav2hac b cfg feat [1, 2] fs

/-- `build_acorns_codebook` (`/repo/multimodal/db/acorns.py:124-130`): the files given to
`build_codebooks_from_list_of_wav`.  The paths are found by each record from its own database. -/
def acornsCodebookFiles (cfg : Dict Str Str) (fs : FS (Content R B M)) : Py (List Str) := do
  let d1 ← acornsLoad cfg fs 1 none false
  let d2 ← acornsLoad cfg fs 2 none false
  let l1 ← d1.records.flatten.mapM (audioPath acornsWav d1)
  let l2 ← d2.records.flatten.mapM (audioPath acornsWav d2)
  return l1 ++ l2

/-! ### Second choreography -/

/-- The file of features (`/repo/multimodal/db/choreo2.py:73-74` and `83-84`). -/
def featPath (cfg : Dict Str Str) : Option Str → Py Str
  | none => choreo2FeatFile cfg
  | some p => .ok p

/-- `choreo2.load_features` (`/repo/multimodal/db/choreo2.py:72-75`). -/
def choreo2Features (cfg : Dict Str Str) (fs : FS (Content R B M)) (featFile : Option Str) : Py (List R) := do
  let p ← featPath cfg featFile
  loadRows fs p

/-- `choreo2.load` (`/repo/multimodal/db/choreo2.py:39-42`); `loadNpz` is `MotionDatabase.load_from_npz`. -/
def choreo2Load {D : Type} (loadNpz : FS (Content R B M) → Str → Py D) (cfg : Dict Str Str)
    (fs : FS (Content R B M)) (dbFile : Option Str) : Py D := do
  let p ← (match dbFile with
    | none => choreo2DbFile cfg
    | some p => .ok p : Py Str)
  loadNpz fs p

/-- `choreo2.load_features_and_labels` (`/repo/multimodal/db/choreo2.py:64-69`). -/
def choreo2FeaturesAndLabels {A : Type} (loadNpz : FS (Content R B M) → Str → Py (Motion.DB A)) (cfg : Dict Str Str)
    (fs : FS (Content R B M)) (dbFile featFile : Option Str) : Py (List R × List (List Motion.Label) × Motion.Desc) := do
  let db ← choreo2Load loadNpz cfg fs dbFile
  let x ← choreo2Features cfg fs featFile
  let labels := db.records.map Prod.snd
  if x.length = labels.length then return (x, labels, db.desc) else .error .assertionError

/-- The file written by `np.savez(p)`: the extension `.npz` is added to a name without it. -/
def npzName (p : Str) : Str := if ".npz".toList.isSuffixOf p then p else p ++ ".npz".toList

/-- `choreo2.build_features` (`/repo/multimodal/db/choreo2.py:78-94`); `hist` is `db_to_VQ_hist_matrix`
with its arguments. -/
def choreo2Build {A : Type} (loadNpz : FS (Content R B M) → Str → Py (Motion.DB A)) (hist : Motion.DB A → Py (List R))
    (cfg : Dict Str Str) (fs : FS (Content R B M)) (dbFile featFile : Option Str) (force : Bool) :
    FS (Content R B M) × Py Unit :=
  withVal fs (featPath cfg featFile) fun p =>
    if fs.exist p && !force then (fs, .error .valueError)
    else withVal fs (choreo2Load loadNpz cfg fs dbFile) fun db =>
      withVal fs (hist db) fun x => fs.save (npzName p) (.features x)

end Verif.Datasets
