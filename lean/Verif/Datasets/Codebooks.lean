import Verif.Datasets.Model
import Verif.Features.Model

/-!
# Model of scripts which parse corpora and build codebooks

`multimodal/db/vctk.py`, `build_codebooks_from_list_of_wav` and `wav2hac` of `multimodal/features/hac.py`,
`multimodal/db/scripts/parse_acorns`, `parse_vctk` and `build_codebook`.  The corpora which are read (`Files`)
are kept apart from the files which the scripts write (`FS`).  Reading sounds, the computation of MFCC and of
their derivatives and the algorithms of quantisation are parameters.  Printing is left out.
-/

namespace Verif.Datasets

open Verif.Corpus (Str Files Node pathJoin configGet fromAcornsRoot fromDbRoot dirOf)
open Verif.Loaders (acornsFile)

variable {R B M : Type}

/-- `default_vctk_dir` (`/repo/multimodal/db/vctk.py:25-27`). -/
def vctkDir (cfg : Dict Str Str) : Py Str := do
  let d ← configGet cfg "db-dir".toList
  return pathJoin d "VCTK-Corpus".toList

/-- `DEFAULT_VCTK_FILE` (`/repo/multimodal/db/vctk.py:30`). -/
def vctkFile : Str := "VCTK.json".toList

/-- The file read by `vctk.load` (`/repo/multimodal/db/vctk.py:34-35`). -/
def vctkDbPath (cfg : Dict Str Str) : Option Str → Py Str
  | none => (vctkDir cfg).map fun d => pathJoin d vctkFile
  | some p => .ok p

/-- `vctk.load` (`/repo/multimodal/db/vctk.py:33-38`). -/
def vctkLoad (cfg : Dict Str Str) (fs : FS (Content R B M)) (dbFile : Option Str) : Py Corpus.DB := do
  let p ← vctkDbPath cfg dbFile
  loadSound fs p

/-- `Record.get_audio_path` (`/repo/multimodal/db/models/sound.py:51-52`) of a record of VCTK: joining `None`
raises `TypeError`. -/
def vctkAudioPath (db : Corpus.DB) (r : Sound.Rec Str) : Py Str := do
  let dir ← dirOf Corpus.WAV_DIR db r.spkr
  match r.audio with
  | none => .error .typeError
  | some a => return pathJoin dir a

/-- The sounds of `build_vctk_codebook` (`/repo/multimodal/db/vctk.py:41-44`). -/
def vctkCodebookFiles (cfg : Dict Str Str) (fs : FS (Content R B M)) : Py (List Str) := do
  let db ← vctkLoad cfg fs none
  db.allRecords.mapM (vctkAudioPath db)

/-- `np.vstack`, which raises `ValueError` without arrays. -/
def vstackAll {V : Type} (l : List (List V)) : Py (List V) := if l.isEmpty then .error .valueError else .ok l.flatten

/-- `build_codebooks_from_list_of_wav` (`/repo/multimodal/features/hac.py:110-153`).  `read` reads a sound,
`mfcc` is the function of the same name with the parameters completed, `delta m k` the derivative of order
`k`, `rows m` the lines of `m.T`, and `book` is `build_codebook` with a mode. -/
def codebooksFromWavs {A S V K C : Type} (read : Str → Py A) (mfcc : A → S) (delta : S → ℕ → S) (rows : S → List V)
    (book : List V → K → Py C) (wavs : List Str) (ks : List K) : Py (List C) := do
  let mfccs ← wavs.mapM fun w => (read w).map mfcc
  let x0 ← vstackAll (mfccs.map rows)
  let k0 ← pyGet ks 0
  let c0 ← book x0 k0
  let x1 ← vstackAll (mfccs.map fun m => rows (delta m 1))
  let k1 ← pyGet ks 1
  let c1 ← book x1 k1
  let x2 ← vstackAll (mfccs.map fun m => rows (delta m 2))
  let k2 ← pyGet ks 2
  let c2 ← book x2 k2
  return [c0, c1, c2]

/-- `wav2hac` (`/repo/multimodal/features/hac.py:199-201`) with its default lags. -/
def wav2hac {A S C : Type} (read : Str → Py A) (mfcc : A → S) (delta : S → ℕ → S) (vq : S → C → List ℕ)
    (size : C → ℕ) (codebooks : List C) (p : Str) : Py (List ℕ) := do
  let data ← read p
  Features.hac mfcc delta vq size data codebooks [5, 2]

/-- `KS` (`/repo/multimodal/db/scripts/build_codebook:18`). -/
def KS : List ℕ := [150, 150, 100]

/-- The script `build_codebook` (`/repo/multimodal/db/scripts/build_codebook:17-23`); `build` is
`build_codebooks_from_list_of_wav`. -/
def buildCodebookScript (build : List Str → List ℕ → Py B) (cfg : Dict Str Str) (fs : FS (Content R B M)) :
    FS (Content R B M) × Py Unit :=
  withVal fs (configGet cfg "feat-dir".toList) fun feat =>
    withVal fs (vctkCodebookFiles cfg fs) fun wavs =>
      withVal fs (build wavs KS) fun b => fs.save (pathJoin feat "vctk_codebook.mat".toList) (.codebooks b)

/-- The database built by an import, or its error. -/
def imported (r : Corpus.DB × Py Unit) : Py Corpus.DB := r.2.map fun _ => r.1

/-- `write_json` (`/repo/multimodal/db/models/sound.py:130-144`): the file is opened when the description is
known. -/
def writeJson (db : Corpus.DB) (path : Str) (fs : FS (Content R B M)) : FS (Content R B M) × Py Unit :=
  withVal fs db.writeJson fun doc => fs.save path (.sound doc)

/-- The script `parse_vctk` (`/repo/multimodal/db/scripts/parse_vctk:13-22`); `arg` is its argument. -/
def parseVctk (ws : Char → Bool) (files : Files) (cfg : Dict Str Str) (arg : Option Str) (fs : FS (Content R B M)) :
    FS (Content R B M) × Py Unit :=
  withVal fs (match arg with
    | some p => .ok p
    | none => vctkDir cfg) fun out =>
    withVal fs (vctkDir cfg) fun dir =>
      withVal fs (imported (fromDbRoot ws files (Sound.DB.new 0) dir "sound".toList)) fun db =>
        writeJson db (pathJoin out vctkFile) fs

/-- The directory of a year (`/repo/multimodal/db/scripts/parse_acorns:21-23`). -/
def yearDir (dir : Str) (year : ℕ) : Str :=
  pathJoin dir ("ACORNS-English-Corpora-ev01/ACORNS-Y".toList ++ (Logger.decStr year ++ "-ENG".toList))

/-- A turn of the loop of `parse_acorns` (`/repo/multimodal/db/scripts/parse_acorns:18-26`). -/
def parseYear (ws : Char → Bool) (files : Files) (parse : Str → Py (List Node)) (cfg : Dict Str Str) (out : Str)
    (year : ℕ) (fs : FS (Content R B M)) : FS (Content R B M) × Py Unit :=
  withVal fs (acornsDir cfg) fun dir =>
    withVal fs (imported (fromAcornsRoot ws files parse (Sound.DB.new 0) (yearDir dir year) (year : ℤ))) fun db =>
      writeJson db (pathJoin out (acornsFile year)) fs

/-- The script `parse_acorns` (`/repo/multimodal/db/scripts/parse_acorns:13-26`). -/
def parseAcorns (ws : Char → Bool) (files : Files) (parse : Str → Py (List Node)) (cfg : Dict Str Str)
    (arg : Option Str) (fs : FS (Content R B M)) : FS (Content R B M) × Py Unit :=
  withVal fs (match arg with
    | some p => .ok p
    | none => acornsDir cfg) fun out =>
    andThen (parseYear ws files parse cfg out 1 fs) fun fs => parseYear ws files parse cfg out 2 fs

end Verif.Datasets
