import Verif.Experiment.CoefsDouble

/-!
# One run of an experiment with doubles
-/

namespace Verif.Learner.D

open Verif.NMF.D

variable {M : Type} [DecidableEq M] (A : Arith) (o : Order)

/-- `x[idx, :]`, for indices of lines of `x` (others are modelled in `Verif/Experiment/Model.lean`). -/
def pick (X : Data) (idx : List ℕ) : Data := ⟨X.sparse, idx.length, X.mat.c, fun i j => X.mat.e (idx.getD i 0) j⟩

/-- The data of an experiment once paired samples are in order and examples are removed
(`/repo/multimodal/experiment.py:84-85,100`), not in debug mode. -/
def preparedData (raw : List Data) (assoc : List (List ℕ)) (others : List ℕ) : List Data :=
  raw.mapIdx fun i x => pick (pick x (assoc.map fun t => t.getD i 0)) others

/-- The new learner of a run (`/repo/multimodal/experiment.py:154-156`). -/
def newLearner (mods : List M) (coefs : List Num) (k : ℕ) (data : List Data) : Learner M :=
  ⟨mods, data.map fun X => X.mat.c, coefs, k, none⟩

/-- The learner of one run and the coefficients of test samples for each modality, by `_perform_one_run` and
`_get_all_internals` (`/repo/multimodal/experiment.py:158-169,177-180`), without what is logged. There are as many modalities as data:
the `IndexError` of `self.modalities[mod]` for more data is not modelled. `rnd' m` are the random numbers drawn for modality `m`. -/
def oneRun (mods : List M) (coefs : Option (List Num)) (k iterTrain iterTest : ℕ) (raw : List Data) (assoc : List (List ℕ))
    (others train test : List ℕ) (rnd : ℕ → ℕ → ℚ) (rnd' : M → ℕ → ℕ → ℚ) : Py (Learner M × List Mat) := do
  let data := preparedData raw assoc others
  let r := (newLearner mods (setCoefs A o coefs raw) k data).train A o (data.map fun X => pick X train) iterTrain rnd
  let _ ← r.2
  let internals ← (mods.zip (data.map fun X => pick X test)).mapM fun p =>
    r.1.reconstructInternalMulti A o [p.1] [p.2] iterTest (rnd' p.1)
  return (r.1, internals)

end Verif.Learner.D
