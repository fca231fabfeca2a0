import Verif.Motion.Model

/-!
# Exports of motion databases which are interrupted or fail (`multimodal/db/models/kinect_motion.py:119-167`)

A file which is being written is incomplete, and `json.dump` raises `TypeError` on some labels (numpy integers in python 3,
for instance) after it has written what precedes them: the file is left incomplete.
-/

namespace Verif.Motion

open Verif.Logger (Key decStr)

variable {D : Type}

/-- Files by name; `some none` is an incomplete file. -/
abbrev Files (D : Type) := Key → Option (Option (File D))

/-- A write. -/
def Files.write (fs : Files D) (w : Key × Option (File D)) : Files D := fun q => if q = w.1 then some w.2 else fs q

/-- Writes in order. -/
def Files.writes (fs : Files D) (ws : List (Key × Option (File D))) : Files D := ws.foldl Files.write fs

/-- The writes made by `export` with type `npz` (`/repo/multimodal/db/models/kinect_motion.py:119-151`), in order, and its
outcome.  `ser` tells which labels JSON can write. -/
def DB.exportSteps (ser : Label → Bool) (db : DB D) (filename : Option Key) : List (Key × Option (File D)) × Py Unit :=
  let f := filename.getD db.name
  let m := db.getMeta f
  let json := f ++ ".json".toList
  if m.records.all fun r => r.2.all ser then
    ([(json, none), (json, some (.json { m with desc := jsonDesc m.desc })), (m.dataFile, none),
      (m.dataFile, some (.npz db.npzData))], .ok ())
  else ([(json, none)], .error .typeError)

/-- `load_from_npz` (`/repo/multimodal/db/models/kinect_motion.py:229-261`). Incomplete JSON gives `ValueError`; the
exception for an incomplete archive depends on what it has, here it is `ValueError` too. -/
def loadFiles (fs : Files D) (location : Key) : Py (DB D) :=
  match fs location with
  | some (some (.json m)) =>
    match fs m.dataFile with
    | some (some (.npz arrays)) => do
      let rs ← m.records.mapM (fetchRecord arrays)
      return ⟨m.name, m.markerNames, rs, m.desc⟩
    | some _ => .error .valueError
    | none => .error .ioError
  | some _ => .error .valueError
  | none => .error .ioError

end Verif.Motion
