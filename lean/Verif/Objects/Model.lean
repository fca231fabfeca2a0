import Verif.PyMore
import Verif.Arrays.Model

/-!
# Model of `multimodal/db/models/objects.py`

Strings are lists of characters; white space and digits are those of ASCII.  `int` and `float` on
strings are parameters (`Conv`), and so is the reading of feature files.  `save` and `load` are
modelled here as far as `to_dict` and `from_dict` go, and wholly in `Verif.Datasets`.  Printing and `verbosity` are left out.  Floats are
exact rationals.
-/

namespace Verif.Objects

open Verif.Arrays

/-- Strings. -/
abbrev Str := List Char

/-- The functions `int` and `float` on strings. -/
structure Conv where
  toInt : Str → Py ℤ
  toFloat : Str → Py ℚ

/-- `s.split('|')`. -/
def splitBar : Str → List Str
  | [] => [[]]
  | c :: cs =>
    if c = '|' then [] :: splitBar cs
    else match splitBar cs with
      | [] => [[c]]
      | b :: bs => (c :: b) :: bs

/-- White space. -/
def isSpace (c : Char) : Bool := c.toNat = 32 ∨ (9 ≤ c.toNat ∧ c.toNat ≤ 13)

/-- `[0-9]`. -/
def isDigit (c : Char) : Bool := 48 ≤ c.toNat ∧ c.toNat ≤ 57

/-- `s.split()`, with the beginning `cur` of the current word. -/
def wordsAux : Str → Str → List Str
  | cur, [] => if cur = [] then [] else [cur]
  | cur, c :: cs =>
    if isSpace c then (if cur = [] then wordsAux [] cs else cur :: wordsAux [] cs)
    else wordsAux (cur ++ [c]) cs

/-- `s.split()`. -/
def words (s : Str) : List Str := wordsAux [] s

/-- `s.isspace()`. -/
def allSpace (s : Str) : Bool := s ≠ [] ∧ s.all isSpace

/-- `_string_to_object_view` (`/repo/multimodal/db/models/objects.py:18-19`). -/
def stringToObjectView (cv : Conv) (s : Str) : Py (List ℤ) := (words s).mapM cv.toInt

/-- `_string_to_features` (`/repo/multimodal/db/models/objects.py:22-23`). -/
def stringToFeatures (cv : Conv) (s : Str) : Py (List ℚ) := (words s).mapM cv.toFloat

/-- `len(FEATURES)` (`/repo/multimodal/db/models/objects.py:13`). -/
def nbFeatures : ℕ := 5

/-- Attributes of a `Frame` (`/repo/multimodal/db/models/objects.py:30-40`); a view is a tuple of
integers or `None`. -/
structure Frame where
  filename : Str
  label : ℤ
  timestamp : ℚ
  views : List (Option (List ℤ))
  deriving DecidableEq

/-- `Frame.__init__` (`/repo/multimodal/db/models/objects.py:32-40`): a list of four views is taken
for a single view without label. -/
def Frame.init (filename : Str) (label : ℤ) (timestamp : ℚ) (views : List (Option (List ℤ))) :
    Frame :=
  match views with
  | [a, b, c, d] => ⟨filename, label, timestamp, [none, a, b, c, d]⟩
  | views => ⟨filename, label, timestamp, views⟩

/-- `Frame.to_dict` (`/repo/multimodal/db/models/objects.py:55-59`), as a tuple. -/
def Frame.toDict (f : Frame) : Str × ℤ × ℚ × List (Option (List ℤ)) :=
  (f.filename, f.label, f.timestamp, f.views)

/-- `Frame.from_dict` (`/repo/multimodal/db/models/objects.py:69-72`). -/
def Frame.fromDict (d : Str × ℤ × ℚ × List (Option (List ℤ))) : Frame :=
  Frame.init d.1 d.2.1 d.2.2.1 d.2.2.2

/-- Whether `[0-9]+.[0-9]+` matches the whole of `t` (`/repo/multimodal/db/models/objects.py:76`).
The dot of the expression is any character but a new line. -/
def timeMatch (t : Str) : Bool :=
  let a := t.takeWhile isDigit
  match t.dropWhile isDigit with
  | [] => 3 ≤ a.length
  | c :: b => a ≠ [] ∧ c ≠ '\n' ∧ b ≠ [] ∧ b.all isDigit

/-- Match of `_o([0-9]+)_([0-9]+.[0-9]+)$` at the beginning of `s`
(`/repo/multimodal/db/models/objects.py:76`): `$` matches at the end or before a last new line. -/
def matchAt (s : Str) : Option (Str × Str) :=
  match s with
  | '_' :: 'o' :: r =>
    let l := r.takeWhile isDigit
    match r.dropWhile isDigit with
    | '_' :: t' =>
      let t := if t'.getLast? = some '\n' then t'.dropLast else t'
      if l ≠ [] ∧ timeMatch t then some (l, t) else none
    | _ => none
  | _ => none

/-- `re.search`: first position from which there is a match. -/
def search : Str → Option (Str × Str)
  | [] => none
  | c :: cs => match matchAt (c :: cs) with
    | some x => some x
    | none => search cs

/-- `Frame._parse_filename` (`/repo/multimodal/db/models/objects.py:74-81`). -/
def parseFilename (cv : Conv) (name : Str) : Py (ℤ × ℚ) :=
  match search name with
  | some (l, t) => do
    let label ← cv.toInt l
    let time ← cv.toFloat t
    return (label, time)
  | none => .error .valueError

/-- `Frame.from_line` (`/repo/multimodal/db/models/objects.py:61-67`). -/
def fromLine (cv : Conv) (line : Str) : Py Frame := do
  let blocks := splitBar line
  let filename := (blocks.headD []).dropLast
  let views ← blocks.tail.mapM (stringToObjectView cv)
  let (label, time) ← parseFilename cv filename
  return Frame.init filename label time (views.map some)

/-- `[_string_to_features(lines.pop()) for f in FEATURES]`, for `n` features: result and lines left. -/
def popLines (cv : Conv) : ℕ → List Str → Py (List (List ℚ) × List Str)
  | 0, l => .ok ([], l)
  | n + 1, l => match l.getLast? with
    | none => .error .indexError
    | some x => do
      let f ← stringToFeatures cv x
      let r ← popLines cv n l.dropLast
      return (f :: r.1, r.2)

/-- The outer list of `/repo/multimodal/db/models/objects.py:52-53`, for `n` views. -/
def popViews (cv : Conv) : ℕ → List Str → Py (List (List (List ℚ)) × List Str)
  | 0, l => .ok ([], l)
  | n + 1, l => do
    let o ← popLines cv nbFeatures l
    let r ← popViews cv n o.2
    return (o.1 :: r.1, r.2)

/-- `Frame.read_features` (`/repo/multimodal/db/models/objects.py:45-53`); `read` gives the lines of
a feature file, or fails with `IOError`. -/
def Frame.readFeatures (cv : Conv) (read : Str → Py (List Str)) (f : Frame) :
    Py (List (List (List ℚ))) := do
  let content ← read f.filename
  let lines := (content.reverse.filter fun l => !allSpace l).reverse
  if lines.length ≠ f.views.length * nbFeatures then .error .wrongNumberOfFeatures
  else do
    let r ← popViews cv f.views.length lines
    return r.1

/-- Attributes `frames` and `histos` of an `ObjectDB` (`/repo/multimodal/db/models/objects.py:86-90`). -/
structure DB where
  frames : List Frame
  histos : List LIL

/-- `ObjectDB()` (`/repo/multimodal/db/models/objects.py:86-90`). -/
def DB.new : DB := ⟨[], List.replicate nbFeatures LIL.new⟩

/-- Adds a row to each matrix which has one: `zip` stops with the shortest list. -/
def addRows : List LIL → List (List ℚ) → List LIL
  | h :: hs, r :: rs => h.addRow r :: addRows hs rs
  | hs, _ => hs

/-- `ObjectDB.add_feats` (`/repo/multimodal/db/models/objects.py:95-97`). -/
def DB.addFeats (db : DB) (feats : List (List ℚ)) : DB := ⟨db.frames, addRows db.histos feats⟩

/-- `ObjectDB.add_frame` (`/repo/multimodal/db/models/objects.py:92-93`). -/
def DB.addFrame (db : DB) (f : Frame) : DB := ⟨db.frames ++ [f], db.histos⟩

/-- Body of the loop over frames in `ObjectDB.build_from`
(`/repo/multimodal/db/models/objects.py:151-164`), with the number of skipped files. -/
def buildStep (cv : Conv) (read : Str → Py (List Str)) (s : DB × ℕ) (f : Frame) : Py (DB × ℕ) :=
  match f.readFeatures cv read with
  | .ok feats => .ok ((feats.foldl DB.addFeats s.1).addFrame f, s.2)
  | .error .ioError => .ok (s.1, s.2 + 1)
  | .error .wrongNumberOfFeatures => .ok (s.1, s.2 + 1)
  | .error e => .error e

/-- `np.cumsum`, from a first value. -/
def cumsum (acc : ℕ) : List ℕ → List ℕ
  | [] => []
  | n :: ns => (acc + n) :: cumsum (acc + n) ns

/-- `np.roll(l, 1)`. -/
def roll1 (l : List ℕ) : List ℕ :=
  match l.getLast? with
  | none => []
  | some x => x :: l.dropLast

/-- The dense view of a growing matrix. -/
def LIL.toMat (m : LIL) : Mat := ⟨m.shape.1, m.shape.2, m.get⟩

/-- `ObjectDB._compute_histos_matrix_by_frame` (`/repo/multimodal/db/models/objects.py:120-136`), from
the numbers of views of the frames and the matrix of the views.  `idx_fst[0] = 0` raises `IndexError`
when there is no frame, and selecting a missing row raises it too; slices stop at the last row. -/
def histosByFrame (nbViews : List ℕ) (orig : Mat) : Py Mat :=
  match roll1 (cumsum 0 nbViews) with
  | [] => .error .indexError
  | _ :: rest =>
    let idx := 0 :: rest
    if idx.any fun i => orig.n1 ≤ i then .error .indexError
    else .ok ⟨idx.length, orig.n2, fun j c =>
      let i := idx.getD j 0
      let n := nbViews.getD j 0
      if 1 < n then
        let rows := (List.range orig.n1).drop i |>.take n
        (rows.map fun r => orig.e r c).sum / rows.length
      else orig.e i c⟩

/-- `ObjectDB.build_from` (`/repo/multimodal/db/models/objects.py:138-171`) from the lines of the
statistics file: database, number of skipped files, and matrices by frame. -/
def buildFrom (cv : Conv) (read : Str → Py (List Str)) (lines : List Str) :
    Py (DB × ℕ × List Mat) := do
  let frames ← (lines.filter fun l => !allSpace l).mapM (fromLine cv)
  let s ← frames.foldlM (buildStep cv read) (DB.new, 0)
  let byFrame ← s.1.histos.mapM fun h =>
    histosByFrame (s.1.frames.map fun f => f.views.length) (LIL.toMat h)
  return (s.1, s.2, byFrame)

end Verif.Objects
