import Verif.Logger.Model

/-!
# Saves which are interrupted or fail (`multimodal/lib/logger.py:79-101`)

The save of `Verif.Logger.Model` writes the archive at once and every value can be written. Here an archive is
incomplete while it is written, and `json.dump` raises `TypeError` on some values (numpy scalars, for instance),
after it has written what precedes them: the file is left incomplete.
-/

namespace Verif.Logger

open Verif

variable {P A : Type}

/-- All the values of a document can be written in JSON. -/
def Doc.serializable (ser : P → Bool) (d : Doc P) : Bool :=
  d.glob.all (fun kv => ser kv.2) && d.exps.all fun e => e.all fun kv => ser kv.2

/-- The writes made by `Logger.save` (`/repo/multimodal/lib/logger.py:79-101`), in order, and its outcome. `ser`
tells which values JSON can write. -/
def saveSteps (ser : P → Bool) (l : Logger P A) : List (Key × File P A) × Py Unit :=
  match l.filename with
  | none => ([], .error .noFileError)
  | some f =>
    let d := saveDicts l
    let doc : Doc P := ⟨d.1, d.2.1, l.expKeys, l.resultKeys, decide (0 < d.2.2.length)⟩
    let before := (if 0 < d.2.2.length then [(npzPath f, File.truncated), (npzPath f, File.npz d.2.2)] else []) ++
      [(f ++ ".json".toList, File.truncated)]
    if doc.serializable ser then (before ++ [(f ++ ".json".toList, File.json doc)], .ok ())
    else (before, .error .typeError)

/-- The files after `Logger.save` (`/repo/multimodal/lib/logger.py:79-101`), and its outcome. -/
def Logger.saveF (ser : P → Bool) (fs : FS P A) (l : Logger P A) : FS P A × Py Unit :=
  (fs.writes (saveSteps ser l).1, (saveSteps ser l).2)

end Verif.Logger
