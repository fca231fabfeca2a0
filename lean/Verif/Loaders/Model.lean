import Verif.PyMore
import Verif.Logger.Model

/-!
# Model of the data set loaders and of downloads

`multimodal/db/models/loader.py`, the loader classes of `multimodal/db/objects.py`,
`multimodal/db/acorns.py` and `multimodal/db/choreo2.py`, and the downloads which use
`multimodal/lib/net.py`.

A method which modifies the loader returns its new state and a result or an exception: the changes
made before an exception remain.  What a file contains when it is read is an argument of the call,
so that files may change, or be unreadable, between calls.  `R` is the type of matrix rows and `S`
of strings.  Matrices are lists of rows.
-/

namespace Verif.Loaders

open Verif.Logger (Key decStr)

variable {R S : Type}

/-- `Loader.check_n_samples` (`/repo/multimodal/db/models/loader.py:6-10`) on the attribute
`n_samples`. -/
def checkN (nSamples : Option ℕ) (n : ℕ) : Option ℕ × Py Unit :=
  match nSamples with
  | none => (some n, .ok ())
  | some m => (some m, if m = n then .ok () else .error .assertionError)

/-! ### Objects -/

/-- What the loader reads of an `ObjectDB`: the labels of the frames, the object names and the
matrix of each feature (`/repo/multimodal/db/models/objects.py:85-89`). -/
structure ObjDB (R S : Type) where
  frames : List ℤ
  objectNames : Option (List S)
  histosByFrame : Dict S (List R)

/-- Attributes of an `ObjectsLoader` (`/repo/multimodal/db/objects.py:56-61`). -/
structure ObjLoader (R S : Type) where
  featureList : List S
  labelsToKeep : List S
  nSamples : Option ℕ
  db : Option (ObjDB R S)
  keepIdx : Option (List ℕ)

/-- A new loader (`/repo/multimodal/db/objects.py:56-61`). -/
def ObjLoader.new (features labels : List S) : ObjLoader R S := ⟨features, labels, none, none, none⟩

/-- `object_names[label]`. -/
def ObjDB.name (d : ObjDB R S) (label : ℤ) : Py S :=
  match d.objectNames with
  | some l => pyGet l label
  | none => .error .typeError

/-- The property `db` (`/repo/multimodal/db/objects.py:63-67`); `src` is the result of `load()`. -/
def ObjLoader.getDb (s : ObjLoader R S) (src : Py (ObjDB R S)) : ObjLoader R S × Py (ObjDB R S) :=
  match s.db with
  | some d => (s, .ok d)
  | none => match src with
    | .ok d => ({ s with db := some d }, .ok d)
    | .error e => (s, .error e)

variable [DecidableEq S]

/-- The comprehension of `keep_idx` (`/repo/multimodal/db/objects.py:73-75`), from frame `i`. -/
def keepFrom (d : ObjDB R S) (labels : List S) : ℕ → List ℤ → Py (List ℕ)
  | _, [] => .ok []
  | i, f :: fs => do
    let n ← d.name f
    let rest ← keepFrom d labels (i + 1) fs
    return if n ∈ labels then i :: rest else rest

/-- The property `keep_idx` (`/repo/multimodal/db/objects.py:69-76`). -/
def ObjLoader.getKeepIdx (s : ObjLoader R S) (src : Py (ObjDB R S)) :
    ObjLoader R S × Py (List ℕ) :=
  match s.keepIdx with
  | some k => (s, .ok k)
  | none =>
    match s.getDb src with
    | (s, .error e) => (s, .error e)
    | (s, .ok d) =>
      match keepFrom d s.labelsToKeep 0 d.frames with
      | .error e => (s, .error e)
      | .ok k => ({ s with keepIdx := some k }, .ok k)

/-- `get_histos_matrix_by_frame` (`/repo/multimodal/db/models/objects.py:117-118`). -/
def ObjDB.histos (d : ObjDB R S) (f : S) : Py (List R) :=
  match dictGet? d.histosByFrame f with
  | some m => .ok m
  | none => .error .keyError

/-- `hstack` (`/repo/multimodal/lib/array_utils.py:5-9`): `ValueError` without blocks or with blocks
of different heights; `cat` joins the rows of the blocks. -/
def hstack (cat : List R → R) : List (List R) → Py (List R)
  | [] => .error .valueError
  | b :: bs =>
    if bs.all fun c => c.length = b.length then
      .ok ((List.range b.length).map fun i => cat ((b :: bs).filterMap fun c => c[i]?))
    else .error .valueError

/-- Row selection `X[idx, :]`. -/
def takeRows (x : List R) (idx : List ℕ) : Py (List R) := idx.mapM fun i : ℕ => pyGet x (i : ℤ)

/-- `get_data` (`/repo/multimodal/db/objects.py:78-83`). -/
def ObjLoader.getData (cat : List R → R) (s : ObjLoader R S) (src : Py (ObjDB R S)) :
    ObjLoader R S × Py (List R) :=
  match (if s.featureList = [] then (s, .error .valueError) else
      match s.getDb src with
      | (s, .error e) => (s, .error e)
      | (s, .ok d) => (s, s.featureList.mapM d.histos >>= hstack cat)) with
  | (s, .error e) => (s, .error e)
  | (s, .ok x) =>
    match s.getKeepIdx src with
    | (s, .error e) => (s, .error e)
    | (s, .ok k) =>
      match takeRows x k with
      | .error e => (s, .error e)
      | .ok x =>
        let c := checkN s.nSamples x.length
        ({ s with nSamples := c.1 }, c.2.map fun _ => x)

/-- `get_labels` (`/repo/multimodal/db/objects.py:85-89`). -/
def ObjLoader.getLabels (s : ObjLoader R S) (src : Py (ObjDB R S)) : ObjLoader R S × Py (List S) :=
  match s.getKeepIdx src with
  | (s, .error e) => (s, .error e)
  | (s, .ok k) =>
    match s.getDb src with
    | (s, .error e) => (s, .error e)
    | (s, .ok d) =>
      match k.mapM (fun i : ℕ => do
          let f ← pyGet d.frames (i : ℤ)
          d.name f) with
      | .error e => (s, .error e)
      | .ok l =>
        let c := checkN s.nSamples l.length
        ({ s with nSamples := c.1 }, c.2.map fun _ => l)

/-- Results of the two methods of a loader. -/
inductive Out (R S : Type)
  | data (x : Py (List R))
  | labels (l : Py (List S))

/-- A sequence of calls: `true` for `get_data`; with what each call would read from files. -/
def ObjLoader.run (cat : List R → R) (s : ObjLoader R S) :
    List (Bool × Py (ObjDB R S)) → List (Out R S)
  | [] => []
  | (b, src) :: cs =>
    if b then let r := s.getData cat src; .data r.2 :: r.1.run cat cs
    else let r := s.getLabels src; .labels r.2 :: r.1.run cat cs

/-! ### Acorns -/

omit [DecidableEq S] in
/-- `for r in bl: l.pop(r)` with non negative ranks (`/repo/multimodal/db/acorns.py:53-54,117-118`). -/
def popAll {α : Type} : List α → List ℕ → Py (List α)
  | l, [] => .ok l
  | l, r :: rs => if r < l.length then popAll (l.eraseIdx r) rs else .error .indexError

/-- `BLACKLIST_Y1` (`/repo/multimodal/db/acorns.py:19`). -/
def blacklistY1 : List (List ℕ) := [[], [176], [], []]

/-- What the loader reads of an `AcornsDB`: the tags of each record, by speaker, and the names of
tags. -/
structure AcDB (S : Type) where
  records : List (List (List ℤ))
  tags : List S

omit [DecidableEq S] in
/-- `load(1, blacklist=True)` (`/repo/multimodal/db/acorns.py:50-55`) after the file is read.  `bl`
is the blacklist: `zip` leaves further speakers aside. -/
def popRecords {α : Type} : List (List α) → List (List ℕ) → Py (List (List α))
  | [], _ => .ok []
  | recs, [] => .ok recs
  | r :: recs, b :: bl => do
    let r ← popAll r b
    let recs ← popRecords recs bl
    return r :: recs

/-- `Year1Loader` (`/repo/multimodal/db/acorns.py:62-65`). -/
structure AcLoader (S : Type) where
  speaker : ℤ
  nSamples : Option ℕ
  db : Option (AcDB S)

/-- The property `db` (`/repo/multimodal/db/acorns.py:67-71`). -/
def AcLoader.getDb (s : AcLoader S) (src : Py (AcDB S)) : AcLoader S × Py (AcDB S) :=
  match s.db with
  | some d => (s, .ok d)
  | none => match src >>= fun d => (popRecords d.records blacklistY1).map fun r => AcDB.mk r d.tags with
    | .ok d => ({ s with db := some d }, .ok d)
    | .error e => (s, .error e)

/-- `load_features(1, speaker, blacklist=True)` (`/repo/multimodal/db/acorns.py:107-121`), with
`check_speaker` (`/repo/multimodal/db/acorns.py:35-39`), which raises a tuple, hence `TypeError`,
and accepts the speaker 4. -/
def loadFeatures (speaker : ℤ) (src : Py (List R)) : Py (List R) :=
  if speaker < 0 ∨ 4 < speaker then .error .typeError
  else do
    let x ← src
    let bl ← pyGet blacklistY1 speaker
    let all ← popAll (List.range x.length) bl
    takeRows x all

/-- `get_data` (`/repo/multimodal/db/acorns.py:77-80`). -/
def AcLoader.getData (s : AcLoader S) (src : Py (List R)) : AcLoader S × Py (List R) :=
  match loadFeatures s.speaker src with
  | .error e => (s, .error e)
  | .ok x =>
    let c := checkN s.nSamples x.length
    ({ s with nSamples := c.1 }, c.2.map fun _ => x)

/-- `self.db.tags[r.tags[0]]` (`/repo/multimodal/db/acorns.py:84`). -/
def AcDB.firstTag (d : AcDB S) (r : List ℤ) : Py S := do
  let t ← pyGet r 0
  pyGet d.tags t

/-- `get_labels` (`/repo/multimodal/db/acorns.py:82-84`). -/
def AcLoader.getLabels (s : AcLoader S) (src : Py (AcDB S)) : AcLoader S × Py (List S) :=
  match s.getDb src with
  | (s, .error e) => (s, .error e)
  | (s, .ok d) =>
    match pyGet d.records s.speaker with
    | .error e => (s, .error e)
    | .ok recs =>
      let c := checkN s.nSamples recs.length
      ({ s with nSamples := c.1 }, c.2 >>= fun _ => recs.mapM d.firstTag)

/-- A sequence of calls, with the files each of them would read. -/
def AcLoader.run (s : AcLoader S) : List (Py (List R) ⊕ Py (AcDB S)) → List (Out R S)
  | [] => []
  | .inl src :: cs => let r := s.getData src; .data r.2 :: r.1.run cs
  | .inr src :: cs => let r := s.getLabels src; .labels r.2 :: r.1.run cs

/-! ### Choreo2 -/

/-- `Choreo2Loader.get_data` (`/repo/multimodal/db/choreo2.py:50-53`) on the attribute
`n_samples`. -/
def c2Data (n : Option ℕ) (src : Py (List R)) : Option ℕ × Py (List R) :=
  match src with
  | .error e => (n, .error e)
  | .ok x => ((checkN n x.length).1, (checkN n x.length).2.map fun _ => x)

/-- `Choreo2Loader.get_labels` (`/repo/multimodal/db/choreo2.py:55-59`); `src` holds the labels of
the records and the names of motions, a list. -/
def c2Labels (n : Option ℕ) (src : Py (List (List ℤ) × List S)) : Option ℕ × Py (List S) :=
  match src with
  | .error e => (n, .error e)
  | .ok (recs, names) => ((checkN n recs.length).1, (checkN n recs.length).2 >>= fun _ =>
      recs.mapM fun r => do
        let l ← pyGet r 0
        pyGet names l)

/-- A sequence of calls, with the files each of them would read. -/
def c2Run (n : Option ℕ) : List (Py (List R) ⊕ Py (List (List ℤ) × List S)) → List (Out R S)
  | [] => []
  | .inl src :: cs => .data (c2Data n src).2 :: c2Run (c2Data n src).1 cs
  | .inr src :: cs => .labels (c2Labels n src).2 :: c2Run (c2Labels n src).1 cs

/-! ### Downloads -/

/-- A file system: which directories exist, and the content of each directory by name. -/
structure FS (P C : Type) where
  isDir : P → Bool
  file : P → Key → Option C

variable {P C : Type} [DecidableEq P]

/-- `check_destination_path` (`/repo/multimodal/lib/net.py:8-18`); the path returned is the pair of
directory and name. -/
def checkDestinationPath (fs : FS P C) (path : P) (name : Key) (overwrite : Bool) : Py (P × Key) :=
  if !fs.isDir path then .error .ioError
  else if (fs.file path name).isSome && !overwrite then .error .ioError
  else .ok (path, name)

/-- A write. -/
def FS.write (fs : FS P C) (f : P × Key) (c : C) : FS P C :=
  ⟨fs.isDir, fun p n => if p = f.1 ∧ n = f.2 then some c else fs.file p n⟩

/-- Check and `urlretrieve`, one file after the other, as in
`/repo/multimodal/db/acorns.py:139-148` and `/repo/multimodal/db/choreo2.py:118-135`.  `get` is what
the server sends for each name: a retrieval which fails writes nothing. -/
def downloadAll (get : Key → Py C) (overwrite : Bool) (fs : FS P C) : List (P × Key) →
    FS P C × Py Unit
  | [] => (fs, .ok ())
  | (path, name) :: fl =>
    match checkDestinationPath fs path name overwrite with
    | .error e => (fs, .error e)
    | .ok f =>
      match get name with
      | .error e => (fs, .error e)
      | .ok c => downloadAll get overwrite (fs.write f c) fl

/-- `'{:02d}'.format(n)`. -/
def pad2 (n : ℕ) : Key := if n < 10 then '0' :: decStr n else decStr n

/-- `feature_file_name` (`/repo/multimodal/db/acorns.py:103-104`) for natural numbers. -/
def featureFileName (year speaker : ℕ) : Key :=
  "acorns_HAC_Y".toList ++ (decStr year ++ ("_S".toList ++ (pad2 (1 + speaker) ++
    "_python.mat".toList)))

/-- `default_acorns_file` (`/repo/multimodal/db/acorns.py:31-32`) for natural numbers. -/
def acornsFile (year : ℕ) : Key := "Acorns_Y".toList ++ (decStr year ++ ".json".toList)

/-- `ALL_SPEAKERS` (`/repo/multimodal/db/acorns.py:23`). -/
def allSpeakers : List (List ℕ) := [List.range 4, List.range 10]

/-- `download_meta_and_features` (`/repo/multimodal/db/acorns.py:133-148`) with explicit
destinations. -/
def downloadAcorns (get : Key → Py C) (overwrite : Bool) (fs : FS P C) (year : ℕ) (metaDest featDest : P) :
    FS P C × Py Unit :=
  match downloadAll get overwrite fs [(metaDest, acornsFile year)] with
  | (fs, .error e) => (fs, .error e)
  | (fs, .ok _) =>
    match pyGet allSpeakers ((year : ℤ) - 1) with
    | .error e => (fs, .error e)
    | .ok sp => downloadAll get overwrite fs (sp.map fun s => (featDest, featureFileName year s))

end Verif.Loaders
