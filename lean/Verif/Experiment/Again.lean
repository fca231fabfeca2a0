import Verif.Experiment.Model

/-!
# Model of an experiment object on which `run` is called several times
-/

namespace Verif.Experiment

open Verif Verif.Logger

variable {L Λ : Type}

/-- One call of `run` (`/repo/multimodal/experiment.py:140-152`): random choices, what the loaders return during this call and the
times.  Loaders keep what they read (`/repo/multimodal/db/models/loader.py`), but may fail in a call and not in another. -/
structure RunCall (L : Type) where
  R : Rand L
  rawLabels : Py (List (List L))
  rawData : Py (List Mx)
  start : Key
  stop : Key

/-- The attribute `coefs` after `run`: `_set_coefs` (`/repo/multimodal/experiment.py:70-72,79-82`) is called when labels have been
paired and data loaded, whatever happens later. -/
def coefsAfter [DecidableEq L] (e : Exp) (c : RunCall L) : Option (List (Option ℚ)) :=
  match c.rawLabels with
  | .error _ => e.coefs
  | .ok labels =>
    match Pairing.associateSamples c.R.namesOf c.R.shuf labels with
    | .error _ => e.coefs
    | .ok _ =>
      match c.rawData with
      | .error _ => e.coefs
      | .ok raw => some (setCoefs e.coefs raw)

/-- `run` on an object: the parameters and the log are kept from one call to the next one; the attributes which `prepare` sets
(`/repo/multimodal/experiment.py:75-102,117`) are replaced before they are read. -/
def runAgain [DecidableEq L] (X : Ext Λ) (evaluate : Exp → Prepared L → Evaluate L Λ) (s : Exp × World L) (c : RunCall L) :
    (Exp × World L) × Py Unit :=
  let r := run X c.R s.1 c.rawLabels c.rawData (evaluate s.1) c.start c.stop s.2
  (({ s.1 with coefs := coefsAfter s.1 c }, r.1), r.2)

/-- Calls of `run` one after another; exceptions are caught by the caller. -/
def runAll [DecidableEq L] (X : Ext Λ) (evaluate : Exp → Prepared L → Evaluate L Λ) (s : Exp × World L)
    (calls : List (RunCall L)) : Exp × World L :=
  calls.foldl (fun s c => (runAgain X evaluate s c).1) s

end Verif.Experiment
