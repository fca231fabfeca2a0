import Verif.Samples.Prepare
import Verif.Plots.Figures
import Verif.Corpus.Model

/-!
# Model of the actions of `/repo/samples/launcher.py`

The command line is parsed by `argparse`, which only gives one of the five actions.  The pools of the package
`expjobs` are not part of the repository: a pool is modelled by what its attributes `status` and `status_counts` give
each time one of them is read.
-/

namespace Verif.Samples

open Verif.Logger (Key decStr FS load)
open Verif.Experiment (Log LogVal PFS)
open Verif.Plots (Figure Curve Box plot2kGraphs plotBoxes plotBoxesByFeats plotBoxesAllMods)

/-! ### Figures -/

variable {L : Type}

/-- A value of a log as a number. -/
def asScore : Option (Logger.Val (LogVal L) Experiment.Mx) → Py ℚ
  | some (.plain (.score (some s))) => .ok s
  | _ => .error .typeError

/-- `get_values` (`/repo/multimodal/lib/logger.py:57-58`), for values which are drawn: matplotlib and numpy need
numbers. -/
def scoresOf (l : Log L) (key : Key) : Py (List ℚ) := (l.getValues key).mapM asScore

/-- `get_value('modalities')`. -/
def modalitiesOf (l : Log L) : Py (List Key) := do
  let v ← l.getValue "modalities".toList
  match v with
  | .plain (.mods ms) => .ok ms
  | _ => .error .typeError

/-- `l.index(x)`. -/
def indexOf (l : List ℕ) (x : ℕ) : Py ℕ :=
  if l.idxOf x < l.length then .ok (l.idxOf x) else .error .valueError

/-- The four figures of the action `plot`. -/
structure Figures where
  all_k : List Curve × Dict Key Curve × List (Key × Key)
  one2one : Figure
  feats : Figure
  all_mod : List Box × Key × List (List (Box × Key))

/-- The log of a pair for the index of 50 (`/repo/samples/launcher.py:230`). -/
def atIndex (i : ℕ) (x : (Key × Key) × List (Log L)) : Py (List Key × Log L) := do
  let l ← pyGet x.2 (i : ℤ)
  return ([x.1.1, x.1.2], l)

/-- The figures of the action `plot` (`/repo/samples/launcher.py:221-233`). -/
def makeFigures (wrap : Key → ℕ → List Key) (fs : Disk L) (P : Plan) (jobs : Dict Key Job) : Py Figures := do
  let loggers2 ← collectResults fs P jobs
  let loggers3 ← collectResults3 fs P jobs
  let loggersImage ← collectResultsImage fs P jobs
  let fig2k ← plot2kGraphs scoresOf [loggers2, loggers3] (P.ks.map fun (k : ℕ) => (k : ℚ)) "_cosine".toList
  let idx50 ← indexOf P.ks 50
  let pairs ← loggers2.mapM (atIndex idx50)
  let ls3 ← Plots.dictItem loggers3 ("image".toList, "motion".toList)
  let l3 ← pyGet ls3 (idx50 : ℤ)
  let one2one ← plotBoxes scoresOf modalitiesOf pairs l3
  let feats ← plotBoxesByFeats scoresOf wrap loggersImage
  let allMod ← plotBoxesAllMods scoresOf modalitiesOf l3
  return ⟨fig2k, one2one, feats, allMod⟩

/-- The names of the saved figures (`/repo/samples/launcher.py:239-243`). -/
def FIGURE_NAMES : List Key := ["one_to_one_all_k".toList, "one_to_one_all".toList, "image_feats".toList,
  "three_modalities".toList]

/-- The files in which figures are written (`/repo/samples/launcher.py:234-250`), in the order of the dictionary
(`order`).  `dest` is the option `--plot-dest` after `os.path.expanduser`. -/
def savedFiles (order : List Key → List Key) (save : Bool) (dest : Option Key) (dflt format : Key) : List Key :=
  if save then (order FIGURE_NAMES).map fun n => Corpus.pathJoin (dest.getD dflt) (n ++ '.' :: format) else []

/-! ### Pools -/

/-- What is read of a pool. -/
structure Obs where
  status : ℕ
  name : Key
  counts : List (Key × ℕ)

/-- `get_stats` (`/repo/samples/launcher.py:181-184`): `status` and `status_counts` are read one after the other. -/
def getStats (o : ℕ → Obs) (t : ℕ) : Key :=
  (o t).name ++ " (".toList ++ Plots.joinComma ((o (t + 1)).counts.map fun x => x.1 ++ ": ".toList ++ decStr x.2) ++
    ")".toList

/-- `print_refreshed_stats` (`/repo/samples/launcher.py:191-195`) with at most `fuel` turns; `t` is the number of
readings so far.  Gives the printed lines, `none` when the loop has not ended. -/
def refreshed (failed : ℕ) (o : ℕ → Obs) : ℕ → ℕ → Option (List Key)
  | 0, _ => none
  | fuel + 1, t =>
    if (o t).status < failed then (refreshed failed o fuel (t + 3)).map (getStats o (t + 1) :: ·)
    else some [getStats o (t + 1)]

/-- The actions of the command line (`/repo/samples/launcher.py:23-24`). -/
inductive Action
  | prepare
  | run
  | resume
  | plot
  | status
  deriving DecidableEq, Repr

/-- What an action does: start the pool, print the status once, print it until the end, write configurations, make
figures. -/
inductive Effect
  | start
  | stats
  | watch
  | configs
  | figures
  deriving DecidableEq, Repr

/-- The launcher (`/repo/samples/launcher.py:61-64`): `process` tells whether it is `'process'`. -/
def launcherOf (given : Option Bool) (hasQsub : Bool) : Bool := given.getD (!hasQsub)

/-- What an action does (`/repo/samples/launcher.py:198-253`). -/
def effects (a : Action) (process watch : Bool) : List Effect :=
  match a with
  | .prepare => [.configs]
  | .run => .start :: if process || watch then [.watch] else []
  | .status => if watch then [.watch] else [.stats]
  | .plot => [.figures]
  | .resume => []

end Verif.Samples
