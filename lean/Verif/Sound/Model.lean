import Verif.PyMore
import Mathlib.Order.Defs.LinearOrder

/-!
# Model of `multimodal/db/models/sound.py`

`S` is the type of strings, which Python orders totally, and `I` that of the information attached
to speakers.  JSON is supposed to reproduce strings, `None` and this information.  XML output and
printing are not modelled, except for the failures of `statistics`.
-/

namespace Verif.Sound

variable {S I : Type} [LinearOrder S]

/-- Attributes of a `Record` (`/repo/multimodal/db/models/sound.py:14-21`).  The database it
belongs to is given by an identifier. -/
structure Rec (S : Type) where
  db : ℕ
  spkr : ℤ
  audio : Option S
  tags : List ℤ
  trans : Option S
  style : Option S
  deriving DecidableEq

/-- `Record.__lt__` (`/repo/multimodal/db/models/sound.py:23-25`); a missing audio name cannot be
compared. -/
def Rec.lt (a b : Rec S) : Py Bool :=
  match a.audio, b.audio with
  | some x, some y => .ok (decide (x < y))
  | _, _ => .error .typeError

/-- `Record.__le__` (`/repo/multimodal/db/models/sound.py:27-29`).  Records do not define `__eq__`,
so `self == other` tells whether both are the same object: this is the argument `same`. -/
def Rec.le (same : Bool) (a b : Rec S) : Py Bool := if same then .ok true else a.lt b

/-- `Record.__gt__` (`/repo/multimodal/db/models/sound.py:31-32`). -/
def Rec.gt (same : Bool) (a b : Rec S) : Py Bool := do
  let r ← a.le same b
  return !r

/-- `Record.__ge__` (`/repo/multimodal/db/models/sound.py:34-35`). -/
def Rec.ge (a b : Rec S) : Py Bool := do
  let r ← a.lt b
  return !r

/-- Attributes of a `DataBase` (`/repo/multimodal/db/models/sound.py:90-100`), with an identifier. -/
structure DB (S I : Type) where
  id : ℕ
  records : List (List (Rec S))
  tags : List S
  tagId : Dict S ℕ
  root : Option S
  spkrs : List S
  spkrsInfo : List (Option I)
  deriving DecidableEq

/-- `DataBase()` (`/repo/multimodal/db/models/sound.py:90-100`). -/
def DB.new (id : ℕ) : DB S I := ⟨id, [], [], [], none, [], []⟩

/-- `DataBase.has_tag` (`/repo/multimodal/db/models/sound.py:102-103`). -/
def DB.hasTag (d : DB S I) (t : S) : Bool := (dictGet? d.tagId t).isSome

/-- `DataBase.add_tag` (`/repo/multimodal/db/models/sound.py:105-111`): the new state and the id. -/
def DB.addTag (d : DB S I) (t : S) : Py (DB S I × ℕ) :=
  if d.hasTag t then .error .valueError
  else
    let tags := d.tags ++ [t]
    let tagid := tags.length - 1
    .ok ({ d with tags := tags, tagId := dictSet d.tagId t tagid }, tagid)

/-- `DataBase.get_tag_add` (`/repo/multimodal/db/models/sound.py:113-120`). -/
def DB.getTagAdd (d : DB S I) (t : S) : Py (DB S I × ℕ) :=
  if !d.hasTag t then d.addTag t
  else match dictGet? d.tagId t with
    | some i => .ok (d, i)
    | none => .error .keyError

/-- `DataBase.add_speaker` (`/repo/multimodal/db/models/sound.py:160-166`). -/
def DB.addSpeaker (d : DB S I) (name : S) (info : Option I) : Py (DB S I × ℕ) :=
  if name ∈ d.spkrs then .error .valueError
  else
    let spkrs := d.spkrs ++ [name]
    .ok ({ d with records := d.records ++ [[]], spkrs := spkrs, spkrsInfo := d.spkrsInfo ++ [info] },
      spkrs.length - 1)

/-- `DataBase.add_record` (`/repo/multimodal/db/models/sound.py:168-174`). -/
def DB.addRecord (d : DB S I) (r : Rec S) : Py (DB S I) :=
  if r.db ≠ d.id then .error .valueError
  else if r.tags.any fun t => decide ((d.tags.length : ℤ) < t) then .error .valueError
  else match pyIndex d.records.length r.spkr with
    | none => .error .indexError
    | some i => .ok { d with records := d.records.modify i fun l => l ++ [r] }

/-- `Record.get_tag_names` (`/repo/multimodal/db/models/sound.py:48-49`). -/
def tagNames (d : DB S I) (r : Rec S) : Py (List S) := r.tags.mapM fun t => pyGet d.tags t

/-- `Record.to_dict` (`/repo/multimodal/db/models/sound.py:54-59`). -/
structure RecDoc (S : Type) where
  audio : Option S
  tags : List S
  trans : Option S
  style : Option S

/-- An element of `data['speakers']` (`/repo/multimodal/db/models/sound.py:138-142`). -/
structure SpeakerDoc (S I : Type) where
  name : S
  info : Option I
  records : List (RecDoc S)

/-- The content of the JSON file (`/repo/multimodal/db/models/sound.py:131-134`). -/
structure Doc (S I : Type) where
  root : Option S
  tags : List S
  speakers : List (SpeakerDoc S I)

/-- `Record.to_dict` (`/repo/multimodal/db/models/sound.py:54-59`). -/
def toDict (d : DB S I) (r : Rec S) : Py (RecDoc S) := do
  let names ← tagNames d r
  return ⟨r.audio, names, r.trans, r.style⟩

/-- `DataBase.write_json` (`/repo/multimodal/db/models/sound.py:130-144`): the document written. -/
def DB.writeJson (d : DB S I) : Py (Doc S I) := do
  let speakers ← (d.spkrs.zip (d.spkrsInfo.zip d.records)).mapM fun s => do
    let rs ← s.2.2.mapM (toDict d)
    return (⟨s.1, s.2.1, rs⟩ : SpeakerDoc S I)
  return ⟨d.root, d.tags, speakers⟩

/-- The comprehension of `Record.from_dict` (`/repo/multimodal/db/models/sound.py:82`), which may
add tags to the database. -/
def tagsOfNames (d : DB S I) : List S → Py (DB S I × List ℤ)
  | [] => .ok (d, [])
  | t :: ts => do
    let p ← d.getTagAdd t
    let q ← tagsOfNames p.1 ts
    return (q.1, (p.2 : ℤ) :: q.2)

/-- `Record.from_dict` (`/repo/multimodal/db/models/sound.py:79-83`). -/
def fromDict (d : DB S I) (spkr : ℕ) (r : RecDoc S) : Py (DB S I × Rec S) := do
  let p ← tagsOfNames d r.tags
  return (p.1, ⟨d.id, spkr, r.audio, p.2, r.trans, r.style⟩)

/-- Order of audio names used for sorting. -/
def audioLe (a b : Rec S) : Bool :=
  match a.audio, b.audio with
  | none, _ => true
  | some _, none => false
  | some x, some y => decide (x ≤ y)

/-- `list.sort` on records: a stable sort by audio name; comparing a missing name, which happens as
soon as there are two records, raises `TypeError`. -/
def sortRecords (l : List (Rec S)) : Py (List (Rec S)) :=
  if 2 ≤ l.length ∧ l.any (fun r => r.audio.isNone) then .error .typeError
  else .ok (l.mergeSort audioLe)

/-- `DataBase.sort` (`/repo/multimodal/db/models/sound.py:122-124`). -/
def DB.sort (d : DB S I) : Py (DB S I) := do
  let rs ← d.records.mapM sortRecords
  return { d with records := rs }

/-- Body of the loop over the records of a speaker (`/repo/multimodal/db/models/sound.py:154-156`):
`self.records[-1]` is the list of the speaker just added. -/
def loadRecord (spk : ℕ) (d : DB S I) (r : RecDoc S) : Py (DB S I) := do
  let p ← fromDict d spk r
  match p.1.records with
  | [] => .error .indexError
  | _ :: _ => return { p.1 with
      records := p.1.records.modify (p.1.records.length - 1) fun l => l ++ [p.2] }

/-- Body of the loop over speakers (`/repo/multimodal/db/models/sound.py:152-156`). -/
def loadSpeaker (d : DB S I) (s : SpeakerDoc S I) : Py (DB S I) := do
  let p ← d.addSpeaker s.name s.info
  s.records.foldlM (loadRecord p.2) p.1

/-- `DataBase.load_from` (`/repo/multimodal/db/models/sound.py:146-158`). -/
def DB.loadFrom (d : DB S I) (data : Doc S I) (sort : Bool) : Py (DB S I) := do
  let d := { d with root := data.root }
  let d ← data.tags.foldlM (fun d t => do let p ← d.addTag t; return p.1) d
  let d ← data.speakers.foldlM loadSpeaker d
  if sort then d.sort else return d

/-- `DataBase.size` (`/repo/multimodal/db/models/sound.py:176-177`). -/
def DB.size (d : DB S I) : ℕ := (d.records.map List.length).sum

/-- `DataBase.all_records` (`/repo/multimodal/db/models/sound.py:194-197`). -/
def DB.allRecords (d : DB S I) : List (Rec S) := d.records.flatten

/-- `counts[t][u] += 1`. -/
def incCount (c : List (List ℕ)) (t u : ℤ) : Py (List (List ℕ)) :=
  match pyIndex c.length t with
  | none => .error .indexError
  | some i => match pyIndex (c.getD i []).length u with
    | none => .error .indexError
    | some j => .ok (c.modify i fun row => row.modify j (· + 1))

/-- Body of the loop over records (`/repo/multimodal/db/models/sound.py:188-191`). -/
def countRecord (c : List (List ℕ)) (r : Rec S) : Py (List (List ℕ)) :=
  r.tags.foldlM (fun c t => r.tags.foldlM (fun c u => if t ≠ u then incCount c t u else .ok c) c) c

/-- `DataBase.count_by_keywords` (`/repo/multimodal/db/models/sound.py:183-192`). -/
def DB.countByKeywords (d : DB S I) : Py (List (List ℕ)) :=
  let nbKw := d.tags.length
  d.records.foldlM (fun c s => s.foldlM countRecord c) (List.replicate nbKw (List.replicate nbKw 0))

/-- `", ".join(l)` for a list of objects which are not strings: only an empty list can be joined. -/
def joinNonStrings {α : Type} (l : List α) : Py Unit :=
  if l.isEmpty then .ok () else .error .typeError

/-- `DataBase.statistics` (`/repo/multimodal/db/models/sound.py:199-209`), printing left out: the
joined sequences hold integers and tuples. -/
def DB.statistics (d : DB S I) : Py Unit := do
  joinNonStrings (d.records.map List.length)
  let counts ← d.allRecords.foldlM (fun (c : List ℕ) r => r.tags.foldlM (fun c t =>
    match pyIndex c.length t with
    | none => Except.error PyErr.indexError
    | some i => .ok (c.modify i (· + 1))) c) (d.tags.map fun _ => 0)
  joinNonStrings (d.tags.zip counts)

end Verif.Sound
