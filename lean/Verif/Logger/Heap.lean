import Verif.Logger.Model
import Mathlib.Logic.Function.Basic

/-!
# Logs as objects (`multimodal/lib/logger.py`)

`Verif/Logger/Model.lean` describes logs by their values.  Here logs and the dictionaries of runs have addresses:
`append_exps_from_other` puts the dictionaries of the other log, not copies, at the end of the list of runs.
-/

namespace Verif.Logger.H

open Verif

variable {P A : Type}

/-- A `Logger` object (`/repo/multimodal/lib/logger.py:17-22`); runs are given by the addresses of their
dictionaries. -/
structure Obj (P A : Type) where
  glob : Dict Key (Val P A)
  exps : List ℕ
  expKeys : List Key
  resultKeys : List Key
  filename : Option Key

/-- Dictionaries of runs and logs, with the first addresses which are not used. -/
structure Heap (P A : Type) where
  runs : ℕ → Dict Key (Val P A)
  nextRun : ℕ
  logs : ℕ → Obj P A
  nextLog : ℕ

namespace Heap

/-- What a log looks like. -/
def value (h : Heap P A) (l : ℕ) : Logger P A :=
  ⟨(h.logs l).glob, (h.logs l).exps.map h.runs, (h.logs l).expKeys, (h.logs l).resultKeys, (h.logs l).filename⟩

/-- Assignment of an attribute of a log. -/
def setLog (h : Heap P A) (l : ℕ) (o : Obj P A) : Heap P A := { h with logs := Function.update h.logs l o }

/-- `Logger(filename)` (`/repo/multimodal/lib/logger.py:17-22`). -/
def new (h : Heap P A) (filename : Option Key) : Heap P A × ℕ :=
  ({ h with logs := Function.update h.logs h.nextLog ⟨[], [], [], [], filename⟩, nextLog := h.nextLog + 1 }, h.nextLog)

/-- `Logger.new_run` (`/repo/multimodal/lib/logger.py:37-38`). -/
def newRun (h : Heap P A) (l : ℕ) : Heap P A :=
  { (h.setLog l { h.logs l with exps := (h.logs l).exps ++ [h.nextRun] }) with
    runs := Function.update h.runs h.nextRun [], nextRun := h.nextRun + 1 }

/-- `Logger.store_global` (`/repo/multimodal/lib/logger.py:40-41`). -/
def storeGlobal (h : Heap P A) (l : ℕ) (k : Key) (v : Val P A) : Heap P A :=
  h.setLog l { h.logs l with glob := dictSet (h.logs l).glob k v }

/-- `Logger.store` (`/repo/multimodal/lib/logger.py:43-50`). -/
def store (h : Heap P A) (l : ℕ) (k : Key) (v : Val P A) : Heap P A × Py Unit :=
  match (h.logs l).exps.getLast? with
  | none => (h, .error .indexError)
  | some r =>
    if (dictGet? (h.runs r) k).isSome then (h, .error .valueError)
    else
      ({ (h.setLog l { h.logs l with expKeys := setAdd (h.logs l).expKeys k }) with
          runs := Function.update h.runs r (dictSet (h.runs r) k v) }, .ok ())

/-- `Logger.store_result` (`/repo/multimodal/lib/logger.py:52-54`). -/
def storeResult (h : Heap P A) (l : ℕ) (k : Key) (v : Val P A) : Heap P A × Py Unit :=
  match h.store l k v with
  | (h, .error e) => (h, .error e)
  | (h, .ok ()) => (h.setLog l { h.logs l with resultKeys := setAdd (h.logs l).resultKeys k }, .ok ())

/-- `Logger.append_exps_from_other` (`/repo/multimodal/lib/logger.py:103-105`). -/
def append (h : Heap P A) (l other : ℕ) : Heap P A × Py Unit :=
  if (∀ k ∈ (h.logs l).expKeys, k ∈ (h.logs other).expKeys) ∧ (∀ k ∈ (h.logs other).expKeys, k ∈ (h.logs l).expKeys) then
    (h.setLog l { h.logs l with exps := (h.logs l).exps ++ (h.logs other).exps }, .ok ())
  else (h, .error .assertionError)

/-- The loop of `Logger.merge_experiments` (`/repo/multimodal/lib/logger.py:112-113`). -/
def mergeLoop (h : Heap P A) (l0 : ℕ) : List ℕ → Heap P A × Py Unit
  | [] => (h, .ok ())
  | l :: ls =>
    match h.append l0 l with
    | (h, .error e) => (h, .error e)
    | (h, .ok ()) => h.mergeLoop l0 ls

/-- `Logger.merge_experiments` (`/repo/multimodal/lib/logger.py:107-114`). -/
def merge (h : Heap P A) : List ℕ → Heap P A × Py ℕ
  | [] => (h, .error .valueError)
  | l0 :: ls =>
    match h.mergeLoop l0 ls with
    | (h, .error e) => (h, .error e)
    | (h, .ok ()) => (h, .ok l0)

end Heap

end Verif.Logger.H
