import Verif.PyMore
import Mathlib.Data.Nat.Digits.Defs

/-!
# Model of `multimodal/lib/logger.py`

Keys and file names are lists of characters.  `P` is the type of plain values, which JSON stores
and reads back unchanged (the conversions made by JSON, of tuples to lists for example, are not
modelled), `A` the type of numpy arrays.  A Python set is a list, compared by membership.  Printing
and `get_stats` are not modelled here.  The sharing of run dictionaries between loggers after
`append_exps_from_other` is described in `Verif/Logger/Heap.lean`.
-/

namespace Verif.Logger

/-- Keys and file names. -/
abbrev Key := List Char

/-- A logged value: JSON value or numpy array (the test of `/repo/multimodal/lib/logger.py:141`). -/
inductive Val (P A : Type)
  | plain (p : P)
  | arr (a : A)
  deriving DecidableEq

/-- Attributes of a `Logger` (`/repo/multimodal/lib/logger.py:17-22`). -/
structure Logger (P A : Type) where
  glob : Dict Key (Val P A)
  exps : List (Dict Key (Val P A))
  expKeys : List Key
  resultKeys : List Key
  filename : Option Key
  deriving DecidableEq

variable {P A : Type}

/-- `Logger(filename)` (`/repo/multimodal/lib/logger.py:17-22`). -/
def Logger.new (filename : Option Key) : Logger P A := ⟨[], [], [], [], filename⟩

/-- `set.add`. -/
def setAdd (s : List Key) (k : Key) : List Key := if k ∈ s then s else s ++ [k]

/-- `Logger.new_run` (`/repo/multimodal/lib/logger.py:37-38`). -/
def Logger.newRun (l : Logger P A) : Logger P A := { l with exps := l.exps ++ [[]] }

/-- `Logger.store_global` (`/repo/multimodal/lib/logger.py:40-41`). -/
def Logger.storeGlobal (l : Logger P A) (k : Key) (v : Val P A) : Logger P A :=
  { l with glob := dictSet l.glob k v }

/-- `Logger.store` (`/repo/multimodal/lib/logger.py:43-50`): `exps[-1]` raises `IndexError` when
there is no run.  Returns the new state; an exception leaves the state unchanged. -/
def Logger.store (l : Logger P A) (k : Key) (v : Val P A) : Py (Logger P A) :=
  match l.exps.getLast? with
  | none => .error .indexError
  | some last =>
    if (dictGet? last k).isSome then .error .valueError
    else .ok { l with expKeys := setAdd l.expKeys k, exps := l.exps.dropLast ++ [dictSet last k v] }

/-- `Logger.store_result` (`/repo/multimodal/lib/logger.py:52-54`). -/
def Logger.storeResult (l : Logger P A) (k : Key) (v : Val P A) : Py (Logger P A) := do
  let l ← l.store k v
  return { l with resultKeys := setAdd l.resultKeys k }

/-- `Logger.get_values` (`/repo/multimodal/lib/logger.py:56-57`). -/
def Logger.getValues (l : Logger P A) (k : Key) : List (Option (Val P A)) :=
  l.exps.map fun d => dictGet? d k

/-- `Logger.get_value` (`/repo/multimodal/lib/logger.py:59-60`). -/
def Logger.getValue (l : Logger P A) (k : Key) : Py (Val P A) :=
  match dictGet? l.glob k with
  | none => .error .keyError
  | some v => .ok v

/-- `Logger.get_last_value` (`/repo/multimodal/lib/logger.py:62-63`). -/
def Logger.getLastValue (l : Logger P A) (k : Key) : Py (Val P A) :=
  match l.exps.getLast? with
  | none => .error .indexError
  | some d => match dictGet? d k with
    | none => .error .keyError
    | some v => .ok v

/-- `Logger.append_exps_from_other` (`/repo/multimodal/lib/logger.py:103-105`): sets are compared by
membership. -/
def Logger.append (l other : Logger P A) : Py (Logger P A) :=
  if (∀ k ∈ l.expKeys, k ∈ other.expKeys) ∧ (∀ k ∈ other.expKeys, k ∈ l.expKeys) then
    .ok { l with exps := l.exps ++ other.exps }
  else .error .assertionError

/-- `Logger.merge_experiments` (`/repo/multimodal/lib/logger.py:107-114`): the first logger is
modified and returned. -/
def mergeExperiments : List (Logger P A) → Py (Logger P A)
  | [] => .error .valueError
  | l0 :: ls => ls.foldlM Logger.append l0

/-! ### Files -/

/-- The content of the JSON file (`/repo/multimodal/lib/logger.py:83-88`). -/
structure Doc (P : Type) where
  glob : Dict Key P
  exps : List (Dict Key P)
  expKeys : List Key
  resultKeys : List Key
  hasNp : Bool

/-- Contents of a file: complete JSON document, archive of arrays, or just opened for writing. -/
inductive File (P A : Type)
  | json (d : Doc P)
  | npz (arrays : Dict Key A)
  | truncated

/-- Files by name. -/
abbrev FS (P A : Type) := Key → Option (File P A)

/-- A file write. -/
def FS.write (fs : FS P A) (p : Key) (f : File P A) : FS P A := fun q => if q = p then some f else fs q

/-- `'%d' % i` for a natural number. -/
def decStr (i : ℕ) : Key :=
  if i = 0 then ['0'] else ((Nat.digits 10 i).reverse.map fun d => Char.ofNat (48 + d))

/-- `int(s)` for a string of decimal digits; `ValueError` on anything else (signs, spaces and
underscores, which `int` also accepts, do not occur). -/
def parseNat (s : Key) : Py ℕ :=
  if s ≠ [] ∧ s.all (fun c => decide (48 ≤ c.toNat ∧ c.toNat ≤ 57)) then
    .ok (s.foldl (fun acc c => acc * 10 + (c.toNat - 48)) 0)
  else .error .valueError

/-- `s.split('_', 1)` when `s` contains an underscore. -/
def splitFirst : Key → Option (Key × Key)
  | [] => none
  | c :: cs => if c = '_' then some ([], cs) else (splitFirst cs).map fun p => (c :: p.1, p.2)

/-- `_split_for_save` (`/repo/multimodal/lib/logger.py:139-144`); returns both dictionaries. -/
def splitForSave (orig : Dict Key (Val P A)) (save : Dict Key P) (saveNp : Dict Key A)
    (npPrefix : Key) : Dict Key P × Dict Key A :=
  orig.foldl (fun acc kv => match kv.2 with
    | .arr a => (acc.1, dictSet acc.2 (npPrefix ++ '_' :: kv.1) a)
    | .plain p => (dictSet acc.1 kv.1 p, acc.2)) (save, saveNp)

/-- The dictionaries built by `Logger.save` (`/repo/multimodal/lib/logger.py:83-93`). -/
def saveDicts (l : Logger P A) : Dict Key P × List (Dict Key P) × Dict Key A :=
  let g := splitForSave l.glob [] [] "glob".toList
  let r := l.exps.zipIdx.foldl (fun (acc : List (Dict Key P) × Dict Key A) ei =>
    let s := splitForSave ei.1 [] acc.2 ("exp_".toList ++ decStr ei.2)
    (acc.1 ++ [s.1], s.2)) ([], g.2)
  (g.1, r.1, r.2)

/-- `np.savez` appends `.npz` to the name unless it already ends so. -/
def npzPath (f : Key) : Key := if ".npz".toList <:+ f then f else f ++ ".npz".toList

/-- The file writes made by `Logger.save` (`/repo/multimodal/lib/logger.py:79-101`), in order.
Opening the JSON file for writing truncates it first. -/
def saveWrites (l : Logger P A) : Py (List (Key × File P A)) :=
  match l.filename with
  | none => .error .noFileError
  | some f =>
    let d := saveDicts l
    let doc : Doc P := ⟨d.1, d.2.1, l.expKeys, l.resultKeys, decide (0 < d.2.2.length)⟩
    .ok ((if 0 < d.2.2.length then [(npzPath f, File.npz d.2.2)] else []) ++
      [(f ++ ".json".toList, File.truncated), (f ++ ".json".toList, File.json doc)])

/-- The files after a sequence of writes. -/
def FS.writes (fs : FS P A) (ws : List (Key × File P A)) : FS P A :=
  ws.foldl (fun fs w => fs.write w.1 w.2) fs

/-- `Logger.save` (`/repo/multimodal/lib/logger.py:79-101`). -/
def Logger.save (fs : FS P A) (l : Logger P A) : Py (FS P A) := do
  let ws ← saveWrites l
  return fs.writes ws

/-- Body of the loop over the archive in `Logger.load` (`/repo/multimodal/lib/logger.py:127-133`). -/
def loadStep (l : Logger P A) (kv : Key × A) : Py (Logger P A) :=
  match splitFirst kv.1 with
  | none => .error .valueError
  | some (p, k) =>
    if p = "glob".toList then .ok (l.storeGlobal k (.arr kv.2))
    else if p = "exp".toList then
      match splitFirst k with
      | none => .error .valueError
      | some (num, name) => do
        let i ← parseNat num
        if i < l.exps.length then
          return { l with exps := l.exps.modify i fun d => dictSet d name (.arr kv.2) }
        else .error .indexError
    else .ok l

/-- Values read from JSON. -/
def plainDict (d : Dict Key P) : Dict Key (Val P A) := d.map fun kv => (kv.1, .plain kv.2)

/-- `Logger.load` (`/repo/multimodal/lib/logger.py:116-136`): the result keys are put in an
attribute `exp_results` which nothing reads, so `result_keys` stays empty.  A missing file raises
`IOError`, a truncated JSON document `ValueError`. -/
def load (fs : FS P A) (filename : Key) (setFilename loadNp : Bool) : Py (Logger P A) :=
  match fs (filename ++ ".json".toList) with
  | none => .error .ioError
  | some .truncated => .error .valueError
  | some (.npz _) => .error .valueError
  | some (.json d) => do
    let l : Logger P A := ⟨plainDict d.glob, d.exps.map plainDict, d.expKeys, [], none⟩
    let l ← if d.hasNp && loadNp then
        match fs (filename ++ ".npz".toList) with
        | some (.npz arrays) => arrays.foldlM loadStep l
        | _ => .error .ioError
      else .ok l
    return { l with filename := if setFilename then some filename else none }

end Verif.Logger
