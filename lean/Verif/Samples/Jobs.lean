import Verif.Samples.Actions
import Verif.Experiment.Model

/-!
# Model of the jobs of `/repo/samples/launcher.py`

The scripts `/repo/samples/two_modalities.py` and `/repo/samples/three_modalities.py` call `run_class` of the package
`expjobs`, which is not part of the repository: it loads the experiment of the job, gives it the path and name of the
job, and calls `run`.  What `run` prints afterwards is modelled in `Verif.Experiment.Table`; the log is saved before.
-/

namespace Verif.Samples

open Verif.Logger (Key)
open Verif.Experiment (Exp Ext Rand Evaluate Prepared World Mx Log evaluateTwo evaluateThree run)

variable {L Λ : Type}

/-- What a job does not have in its parameters: the learner, random choices, what the loaders return, the times. -/
structure JobEnv (L Λ : Type) where
  learner : Ext Λ
  rand : Rand L
  labels : Py (List (List L))
  data : Py (List Mx)
  start : Key
  stop : Key

/-- The evaluation of a script (`/repo/samples/two_modalities.py:14`, `/repo/samples/three_modalities.py:14`). -/
def Script.evaluate (metrics : List (List ℚ → List ℚ → ℚ)) (X : Ext Λ) (e : Exp) : Script → Prepared L → Evaluate L Λ
  | .two => evaluateTwo X e metrics
  | .three => evaluateThree X e metrics

/-- A job (`/repo/samples/two_modalities.py:14-23`, `/repo/samples/three_modalities.py:14-23`,
`/repo/multimodal/experiment.py:38-39`). -/
def runJob [DecidableEq L] (metrics : List (List ℚ → List ℚ → ℚ)) (env : JobEnv L Λ) (j : Job) (e : Exp)
    (fs : Disk L) : World L × Py Unit :=
  run env.learner env.rand e env.labels env.data (j.script.evaluate metrics env.learner e) env.start env.stop
    ⟨Logger.Logger.new (some (Corpus.pathJoin j.path j.name)), fs⟩

/-- Jobs, one after another on the same disk: the disk, and the log and outcome of each.  A job which fails does not
stop others.  For jobs at the same time, which only share the disk, see
`Verif.Samples.PropsParallel`. -/
def runJobs [DecidableEq L] (metrics : List (List ℚ → List ℚ → ℚ)) (env : Key → JobEnv L Λ) :
    List (Job × Exp) → Disk L → Disk L × List (Key × Log L × Py Unit)
  | [], fs => (fs, [])
  | x :: l, fs =>
    let r := runJob metrics (env x.1.name) x.1 x.2 fs
    let s := runJobs metrics env l r.1.fs
    (s.1, (x.1.name, r.1.log, r.2) :: s.2)

end Verif.Samples
