import Verif.PyMore
import Verif.Sound.Model
import Verif.Loaders.Model
import Mathlib.Data.Char
import Mathlib.Data.List.Lex

/-!
# Model of the construction of corpora from files

`multimodal/db/models/vctk.py`, `multimodal/db/models/acorns.py`, `multimodal/db/choreo1.py` and
`multimodal/lib/config.py`.

Strings are lists of characters, ordered as Python orders them.  The file system does not change
during a call and is given by what the calls to `os` observe of it.  Case conversion is that of
ASCII letters and universal newlines are not modelled.  `ws` tells which characters are white space.
-/

namespace Verif.Corpus

/-- Strings. -/
abbrev Str := List Char

/-! ### Strings and paths (standard library) -/

/-- `s.split(c)`. -/
def splitChar (c : Char) : Str → List Str
  | [] => [[]]
  | x :: s =>
    if x = c then [] :: splitChar c s
    else match splitChar c s with
      | [] => [[x]]
      | w :: ws => (x :: w) :: ws

/-- `s.split()`, `acc` being the word begun. -/
def wordsFrom (ws : Char → Bool) : Str → Str → List Str
  | acc, [] => if acc = [] then [] else [acc]
  | acc, c :: s =>
    if ws c then (if acc = [] then wordsFrom ws [] s else acc :: wordsFrom ws [] s)
    else wordsFrom ws (acc ++ [c]) s

/-- `s.split()`. -/
def words (ws : Char → Bool) (s : Str) : List Str := wordsFrom ws [] s

/-- `s.strip()`. -/
def strip (ws : Char → Bool) (s : Str) : Str := ((s.dropWhile ws).reverse.dropWhile ws).reverse

/-- `' '.join(l)`. -/
def joinSpace : List Str → Str
  | [] => []
  | [w] => w
  | w :: v :: l => w ++ ' ' :: joinSpace (v :: l)

/-- `f.readlines()` on the content of a file: each line but perhaps the last ends with `'\n'`. -/
def lines : Str → List Str
  | [] => []
  | c :: s =>
    if c = '\n' then [c] :: lines s
    else match lines s with
      | [] => [[c]]
      | l :: ls => (c :: l) :: ls

/-- `s.lower()` for ASCII letters. -/
def lower (s : Str) : Str := s.map Char.toLower

/-- `os.path.join(a, b)` on POSIX systems. -/
def pathJoin (a b : Str) : Str :=
  if b.head? = some '/' then b
  else if a = [] ∨ a.getLast? = some '/' then a ++ b
  else a ++ '/' :: b

/-- `os.path.splitext(p)[-1]` on POSIX systems: leading dots of the last component do not count. -/
def extension (p : Str) : Str :=
  let base := ((splitChar '/' p).getLastD []).dropWhile fun c => c = '.'
  if '.' ∈ base then '.' :: (splitChar '.' base).getLastD [] else []

/-- What is observed of the file system: `os.path.abspath`, `os.listdir` (`none` when it raises
`OSError`), `os.path.isfile`, `os.path.isdir`, `os.path.exists`, and the content of a text file
(`none` when opening it raises `IOError`). -/
structure Files where
  abspath : Str → Str
  listdir : Str → Option (List Str)
  isfile : Str → Bool
  isdir : Str → Bool
  exist : Str → Bool
  read : Str → Option Str

/-! ### VCTK -/

/-- The dictionary built by `_parse_speaker_info` (`/repo/multimodal/db/models/vctk.py:12-17`). -/
structure Info where
  age : Str
  genre : Str
  accent : Str
  region : Str
  deriving DecidableEq

/-- Databases of utterances. -/
abbrev DB := Sound.DB Str Info

/-- `_parse_speaker_info` (`/repo/multimodal/db/models/vctk.py:9-17`): unpacking less than four words
raises `ValueError`. -/
def parseSpeakerInfo (ws : Char → Bool) (line : Str) : Py (Str × Info) :=
  match words ws (strip ws line) with
  | spkr :: age :: genre :: accent :: l => .ok (spkr, ⟨age, genre, accent, joinSpace l⟩)
  | _ => .error .valueError

/-- `_files_in` (`/repo/multimodal/db/models/vctk.py:20-29`); `none` when listing the directory
raises `OSError`. -/
def filesIn (fs : Files) (dirname ext : Str) : Option (List Str) :=
  (fs.listdir dirname).map fun l =>
    (l.map (pathJoin dirname)).filter fun p => fs.isfile p && (lower (extension p)).drop 1 == ext

/-- The comprehension of `_speaker_names_from` (`/repo/multimodal/db/models/vctk.py:37`). -/
def namesOf : List Str → Py (List Str)
  | [] => .ok []
  | d :: ds => do
    let c ← pyGet d 0
    let r ← namesOf ds
    return if c = 'p' then d.drop 1 :: r else r

/-- `_speaker_names_from` (`/repo/multimodal/db/models/vctk.py:32-37`). -/
def speakerNames (fs : Files) (path : Str) : Py (List Str) :=
  match fs.listdir path with
  | none => .error .ioError
  | some l => namesOf (l.filter fun p => fs.isdir (pathJoin path p))

/-- `_records_list_from` (`/repo/multimodal/db/models/vctk.py:40-45`). -/
def recordsList (fs : Files) (path ext : Str) : List Str :=
  match filesIn fs path ext with
  | none => []
  | some files => files.map fun f =>
      (splitChar '.' ((splitChar '_' f).getLastD [])).headD []

/-- `STYLE` (`/repo/multimodal/db/models/vctk.py:6`). -/
def STYLE : Str := "ADS".toList

/-- `WAV_DIR` (`/repo/multimodal/db/models/vctk.py:50`). -/
def WAV_DIR : Str := "wav48".toList

/-- `TXT_DIR` (`/repo/multimodal/db/models/vctk.py:51`). -/
def TXT_DIR : Str := "txt".toList

/-- `SPKR_FILE` (`/repo/multimodal/db/models/vctk.py:52`). -/
def SPKR_FILE : Str := "speaker-info.txt".toList

/-- `_get_speaker_dir` (`/repo/multimodal/db/models/vctk.py:105-106`). -/
def speakerDir (d : DB) (spkr : ℤ) : Py Str := do
  let s ← pyGet d.spkrs spkr
  return 'p' :: s

/-- `get_wav_dir` and `get_txt_dir` (`/repo/multimodal/db/models/vctk.py:108-114`) for a directory
name `sub`; joining `None` raises `TypeError`. -/
def dirOf (sub : Str) (d : DB) (spkr : ℤ) : Py Str := do
  let s ← speakerDir d spkr
  match d.root with
  | none => .error .typeError
  | some r => return pathJoin (pathJoin r sub) s

/-- The record built by `_build_record` (`/repo/multimodal/db/models/vctk.py:89-102`). -/
def buildRecord (fs : Files) (d : DB) (name : Str) (spkr : ℤ) : Py (Sound.Rec Str) := do
  let s ← speakerDir d spkr
  let pre := s ++ '_' :: name
  let txtDir ← dirOf TXT_DIR d spkr
  let transcription := fs.read (pathJoin txtDir (pre ++ ".txt".toList))
  let audio := pre ++ ".wav".toList
  let wavDir ← dirOf WAV_DIR d spkr
  return ⟨d.id, spkr, if fs.exist (pathJoin wavDir audio) then some audio else none, [],
    transcription, some STYLE⟩

/-- The loop over utterances (`/repo/multimodal/db/models/vctk.py:86-87,103`): the new state, and an
exception if one is raised. -/
def addRecords (fs : Files) (spkr : ℤ) (d : DB) : List Str → DB × Py Unit
  | [] => (d, .ok ())
  | r :: rs =>
    match buildRecord fs d r spkr >>= d.addRecord with
    | .error e => (d, .error e)
    | .ok d => addRecords fs spkr d rs

/-- `sorted(l)`. -/
def sorted (l : List Str) : List Str := l.mergeSort fun a b => decide (a ≤ b)

/-- Names of the utterances of a speaker (`/repo/multimodal/db/models/vctk.py:84-86`). -/
def utterances (fs : Files) (d : DB) (spkr : ℤ) : Py (List Str) := do
  let wav ← dirOf WAV_DIR d spkr
  let snd := recordsList fs wav "wav".toList
  let txt ← dirOf TXT_DIR d spkr
  let txts := recordsList fs txt "txt".toList
  return sorted (snd ++ txts).dedup

/-- The loop over speakers (`/repo/multimodal/db/models/vctk.py:81-87`). -/
def addSpeakers (fs : Files) (info : Dict Str Info) (d : DB) : List Str → DB × Py Unit
  | [] => (d, .ok ())
  | s :: ss =>
    match d.addSpeaker s (dictGet? info s) with
    | .error e => (d, .error e)
    | .ok (d, spkr) =>
      match utterances fs d (spkr : ℤ) with
      | .error e => (d, .error e)
      | .ok us =>
        match addRecords fs (spkr : ℤ) d us with
        | (d, .error e) => (d, .error e)
        | (d, .ok ()) => addSpeakers fs info d ss

/-- `_parse_speakers_info` (`/repo/multimodal/db/models/vctk.py:116-118`). -/
def parseSpeakersInfo (ws : Char → Bool) (fs : Files) (root : Str) : Py (Dict Str Info) :=
  match fs.read (pathJoin root SPKR_FILE) with
  | none => .error .ioError
  | some s => do
    let l ← (lines s).mapM (parseSpeakerInfo ws)
    return dictOf l

/-- The choice of speakers (`/repo/multimodal/db/models/vctk.py:65-80`); `set(speakers_info.keys)`
is the set of the elements of a method, hence `TypeError`. -/
def chooseSpeakers (ws : Char → Bool) (fs : Files) (root mode : Str) :
    Py (Dict Str Info × List Str) := do
  let info ← parseSpeakersInfo ws fs root
  let inWav ← speakerNames fs (pathJoin root WAV_DIR)
  let inTxt ← speakerNames fs (pathJoin root TXT_DIR)
  if mode = "sound".toList then return (info, inWav)
  else if mode = "text".toList then return (info, inTxt)
  else if mode = "info".toList then return (info, dictKeys info)
  else if mode = "everything".toList then .error .typeError
  else .error .valueError

/-- `VCTKDB.from_db_root` (`/repo/multimodal/db/models/vctk.py:57-87`): the new state, and an
exception if one is raised. -/
def fromDbRoot (ws : Char → Bool) (fs : Files) (d : DB) (root mode : Str) : DB × Py Unit :=
  let root := fs.abspath root
  let d := { d with root := some root }
  match chooseSpeakers ws fs root mode with
  | .error e => (d, .error e)
  | .ok (info, speakers) => addSpeakers fs info d (sorted speakers)

/-! ### Acorns -/

/-- Nodes of XML documents: elements, with their attributes and children, and text. -/
inductive Node
  | elem (tag : Str) (attrs : Dict Str Str) (children : List Node)
  | text (data : Str)

/-- `getElementsByTagName(t)` on a node with the given children: the elements with this name, in
document order. -/
def byTag (t : Str) : List Node → List Node
  | [] => []
  | .text _ :: ns => byTag t ns
  | .elem n a cs :: ns => (if n = t then [.elem n a cs] else []) ++ byTag t cs ++ byTag t ns

/-- `node.childNodes`. -/
def Node.childNodes : Node → List Node
  | .elem _ _ cs => cs
  | .text _ => []

/-- `node.getAttribute(a)`: an empty string if there is no such attribute. -/
def Node.getAttribute (a : Str) : Node → Py Str
  | .elem _ attrs _ => .ok ((dictGet? attrs a).getD [])
  | .text _ => .error .attributeError

/-- `node.data`. -/
def Node.data : Node → Py Str
  | .text s => .ok s
  | .elem _ _ _ => .error .attributeError

/-- `check_year` (`/repo/multimodal/db/models/acorns.py:7-9`): it raises a tuple, which is a
`TypeError` in Python 3. -/
def checkYear (year : ℤ) : Py Unit := if year = 1 ∨ year = 2 then .ok () else .error .typeError

/-- `_filter_XML` (`/repo/multimodal/db/models/acorns.py:12-14`). -/
def isXML (fs : Files) (p : Str) : Bool := fs.isfile p && lower (extension p) == ".xml".toList

/-- `_get_XML_files_in` (`/repo/multimodal/db/models/acorns.py:17-22`). -/
def xmlFilesIn (fs : Files) (dirname : Str) : Py (List Str) :=
  match fs.listdir dirname with
  | none => .error .ioError
  | some l => .ok ((l.map (pathJoin dirname)).filter (isXML fs))

/-- `_get_tag_node_name` (`/repo/multimodal/db/models/acorns.py:25-26`). -/
def tagNodeName (year : ℤ) : Str := "vistag".toList ++ if year = 1 then [] else "s".toList

/-- `XML_DIR` (`/repo/multimodal/db/models/acorns.py:31`). -/
def XML_DIR : Str := "XML".toList

/-- `WAV_EXT` (`/repo/multimodal/db/models/acorns.py:33`). -/
def WAV_EXT : Str := ".wav".toList

/-- `n_speakers` (`/repo/multimodal/db/models/acorns.py:74-76`). -/
def nSpeakers (year : ℤ) : ℕ := if year = 1 then 4 else 10

/-- `get_speakers` (`/repo/multimodal/db/models/acorns.py:78-81`). -/
def getSpeakers (year : ℤ) : List Str :=
  (List.range (nSpeakers year)).map fun i => "Speaker-".toList ++ Loaders.pad2 (i + 1)

/-- The beginning of `_parse_record` (`/repo/multimodal/db/models/acorns.py:56-66`), which does not
change the database: the utterance, the style, the name of the audio file and the tags.  `parse` is
`dom.parse`, giving the children of the document. -/
def parseHead (parse : Str → Py (List Node)) (root speaker xmlFile tagNode : Str) :
    Py (Node × Str × Str × Str) := do
  let parsed ← parse (pathJoin (pathJoin (pathJoin root XML_DIR) speaker) xmlFile)
  let utt ← pyGet (byTag "utterance".toList parsed) 0
  let styles ← pyGet (byTag "style".toList utt.childNodes) 0
  let style ← styles.getAttribute "value".toList
  let audios ← pyGet (byTag "audio-file".toList utt.childNodes) 0
  let audio ← audios.getAttribute "value".toList
  let tags ← pyGet (byTag tagNode utt.childNodes) 0
  let tag ← pyGet tags.childNodes 0
  let tagNames ← tag.data
  return (utt, style, audio ++ WAV_EXT, tagNames)

/-- The transcription (`/repo/multimodal/db/models/acorns.py:69-71`). -/
def parseTrans (ws : Char → Bool) (utt : Node) : Py Str := do
  let trans ← pyGet (byTag "trans".toList utt.childNodes) 0
  let t ← pyGet trans.childNodes 2
  let s ← t.data
  return strip ws s

/-- `_parse_record` (`/repo/multimodal/db/models/acorns.py:55-72`): the database, to which tags may be
added, and the record. -/
def parseRecord (ws : Char → Bool) (parse : Str → Py (List Node)) (d : DB) (root : Str) (spkr : ℤ)
    (speaker xmlFile tagNode : Str) : DB × Py (Sound.Rec Str) :=
  match parseHead parse root speaker xmlFile tagNode with
  | .error e => (d, .error e)
  | .ok (utt, style, audio, tagNames) =>
    match Sound.tagsOfNames d (words ws tagNames) with
    | .error e => (d, .error e)
    | .ok (d, tags) =>
      (d, do
        let trans ← parseTrans ws utt
        return ⟨d.id, spkr, some audio, tags, some trans, some style⟩)

/-- The loop over files (`/repo/multimodal/db/models/acorns.py:50-52`). -/
def addFiles (ws : Char → Bool) (parse : Str → Py (List Node)) (root : Str) (spkr : ℤ)
    (speaker tagNode : Str) (d : DB) : List Str → DB × Py Unit
  | [] => (d, .ok ())
  | f :: fl =>
    match parseRecord ws parse d root spkr speaker f tagNode with
    | (d, .error e) => (d, .error e)
    | (d, .ok r) =>
      match d.addRecord r with
      | .error e => (d, .error e)
      | .ok d => addFiles ws parse root spkr speaker tagNode d fl

/-- The loop over speakers (`/repo/multimodal/db/models/acorns.py:46-52`). -/
def addAcornsSpeakers (ws : Char → Bool) (fs : Files) (parse : Str → Py (List Node)) (root tagNode : Str)
    (d : DB) : List Str → DB × Py Unit
  | [] => (d, .ok ())
  | s :: ss =>
    match d.addSpeaker s none with
    | .error e => (d, .error e)
    | .ok (d, spkr) =>
      match xmlFilesIn fs (pathJoin (pathJoin root XML_DIR) s) with
      | .error e => (d, .error e)
      | .ok files =>
        match addFiles ws parse root (spkr : ℤ) s tagNode d files with
        | (d, .error e) => (d, .error e)
        | (d, .ok ()) => addAcornsSpeakers ws fs parse root tagNode d ss

/-- `AcornsDB.from_ACORNS_root` (`/repo/multimodal/db/models/acorns.py:38-53`). -/
def fromAcornsRoot (ws : Char → Bool) (fs : Files) (parse : Str → Py (List Node)) (d : DB) (root : Str)
    (year : ℤ) : DB × Py Unit :=
  match checkYear year with
  | .error e => (d, .error e)
  | .ok () =>
    let root := fs.abspath root
    let d := { d with root := some root }
    match addAcornsSpeakers ws fs parse root (tagNodeName year) d (getSpeakers year) with
    | (d, .error e) => (d, .error e)
    | (d, .ok ()) =>
      match d.sort with
      | .error e => (d, .error e)
      | .ok d => (d, .ok ())

/-! ### Choreography 1 and configuration -/

/-- `Config.__getitem__` (`/repo/multimodal/lib/config.py:10-15`): `NoConfigValueError` is a
`LookupError`. -/
def configGet {V : Type} (c : Dict Str V) (k : Str) : Py V :=
  match dictGet? c k with
  | some v => .ok v
  | none => .error .lookupError

/-- The message of `NoConfigValueError` (`/repo/multimodal/lib/config.py:3-5`) for a key. -/
def configMessage (k : Str) : Str :=
  "No local configuration value for: '".toList ++ k ++ "'.".toList

/-- `DATASETS` (`/repo/multimodal/db/choreo1.py:62`). -/
def DATASETS : List Str := ["primitive".toList, "mixed_partial".toList, "mixed_full".toList]

/-- The description read from the JSON file of a data set: the name of the data file, the pairs
`str(data-id)` and labels of the records, the name and the names of markers, any of which may be
missing. -/
structure Meta where
  dataFile : Option Str
  records : Option (List (Str × List ℤ))
  name : Option Str
  markers : Option (List Str)

/-- `meta[key]`. -/
def metaGet {α : Type} : Option α → Py α
  | some x => .ok x
  | none => .error .keyError

/-- `os.path.dirname(pathJoin d f)` where `f` has no slash: `d` without trailing slashes, unless it
is made of slashes. -/
def dirname (p : Str) : Str :=
  let head := (p.reverse.dropWhile fun c => c ≠ '/').reverse
  let trimmed := (head.reverse.dropWhile fun c => c = '/').reverse
  if trimmed = [] then head else trimmed

/-- The path of data (`/repo/multimodal/db/choreo1.py:84-85`). -/
def choreoPath (config : Dict Str Str) : Option Str → Py Str
  | some p => .ok p
  | none => (configGet config "db-dir".toList).map fun d => pathJoin d "choreo".toList

/-- `choreo1.load` (`/repo/multimodal/db/choreo1.py:65-104`).  `A` is the type of arrays,
`readMeta` and `readData` read and parse files.  In Python 3 (`py3`) the statement of line 103
applies `%` to the result of `print`, which is `None`.  Formats of lines 98-102 do not fail. -/
def choreo1Load {A : Type} (py3 : Bool) (config : Dict Str Str) (readMeta : Str → Py Meta)
    (readData : Str → Py (Dict Str A)) (dataset : Str) (dataPath : Option Str) :
    Py (List A × List (List ℤ) × List Str) := do
  let dataPath ← choreoPath config dataPath
  if dataset ∉ DATASETS then .error .valueError
  else
    let filename := pathJoin dataPath (dataset ++ ".json".toList)
    let m ← readMeta filename
    let f ← metaGet m.dataFile
    let loaded ← readData (pathJoin (dirname filename) f)
    let records ← metaGet m.records
    let data ← records.mapM fun r => metaGet (dictGet? loaded r.1)
    let labels := records.map Prod.snd
    let _ ← metaGet m.name
    let markers ← metaGet m.markers
    if py3 then .error .typeError
    else return (data, labels, markers)

end Verif.Corpus
