import Verif.Sound.Model

/-!
# Loading a file in a database which is not empty (`multimodal/db/models/sound.py:146-158`)

`load_from` changes the database step by step: when it raises, what was done before remains.  Functions here return the
database as it is left, and the outcome.
-/

namespace Verif.Sound

variable {S I : Type} [LinearOrder S]

/-- The loop over tags (`/repo/multimodal/db/models/sound.py:150-151`). -/
def loadTagsS (d : DB S I) : List S → DB S I × Py Unit
  | [] => (d, .ok ())
  | t :: ts =>
    match d.addTag t with
    | .ok p => loadTagsS p.1 ts
    | .error e => (d, .error e)

/-- The loop over the records of a speaker (`/repo/multimodal/db/models/sound.py:154-156`); tags of a record which raises
are left out, as they do not raise in databases whose tags are consistent. -/
def loadRecordsS (spk : ℕ) (d : DB S I) : List (RecDoc S) → DB S I × Py Unit
  | [] => (d, .ok ())
  | r :: rs =>
    match loadRecord spk d r with
    | .ok d' => loadRecordsS spk d' rs
    | .error e => (d, .error e)

/-- The loop over speakers (`/repo/multimodal/db/models/sound.py:152-156`). -/
def loadSpeakersS (d : DB S I) : List (SpeakerDoc S I) → DB S I × Py Unit
  | [] => (d, .ok ())
  | s :: ss =>
    match d.addSpeaker s.name s.info with
    | .error e => (d, .error e)
    | .ok p =>
      match loadRecordsS p.2 p.1 s.records with
      | (d', .ok ()) => loadSpeakersS d' ss
      | (d', .error e) => (d', .error e)

/-- The loop of `sort` (`/repo/multimodal/db/models/sound.py:122-124`): `left` is how a list is left when its sort raises. -/
def sortS (left : List (Rec S) → List (Rec S)) : List (List (Rec S)) → List (List (Rec S)) × Py Unit
  | [] => ([], .ok ())
  | l :: ls =>
    match sortRecords l with
    | .error e => (left l :: ls, .error e)
    | .ok l' => let q := sortS left ls; (l' :: q.1, q.2)

/-- `DataBase.load_from` (`/repo/multimodal/db/models/sound.py:146-158`): `self.root` is set first. -/
def DB.loadFromS (left : List (Rec S) → List (Rec S)) (d : DB S I) (data : Doc S I) (sort : Bool) : DB S I × Py Unit :=
  match loadTagsS { d with root := data.root } data.tags with
  | (d, .error e) => (d, .error e)
  | (d, .ok ()) =>
    match loadSpeakersS d data.speakers with
    | (d, .error e) => (d, .error e)
    | (d, .ok ()) =>
      if sort then
        let q := sortS left d.records
        ({ d with records := q.1 }, q.2)
      else (d, .ok ())

end Verif.Sound
