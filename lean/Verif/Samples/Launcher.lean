import Verif.Samples.Model
import Verif.Experiment.Model
import Verif.Logger.Model

/-!
# Model of `/repo/samples/launcher.py`

The experiments and their names, the jobs, and the collection of their logs.  `Job` and the pools of
the package `expjobs` are not part of the repository: a job is modelled by the path, the name and
the script which it is given.
-/

namespace Verif.Samples

open Verif.Logger (Key decStr FS load mergeExperiments)
open Verif.Experiment (Exp Ldr Log LogVal Mx)

/-- The constants of the launcher: `Ks`, `N_RUN`, `descriptor_sets`
(`/repo/samples/launcher.py:68-69, 101-108`) and `DEFAULT_LABELS` (`/repo/multimodal/db/objects.py:24-35`). -/
structure Plan where
  ks : List ℕ
  nRun : ℕ
  sets : List (List Key)
  labels : List Key

/-- `"<prefix>_{}_{}".format(k, i)`. -/
def runName (pre : Key) (k i : ℕ) : Key := pre ++ '_' :: (decStr k ++ '_' :: decStr i)

/-- An experiment with the parameters of `/repo/samples/launcher.py:71-82`. -/
def launched (loaders : Dict Key Ldr) (k : ℕ) : Exp := Exp.new loaders k 50 50 none true .single false

/-- `ObjectsLoader(['SURF', 'color'])`. -/
def Plan.image (P : Plan) : Ldr := .objects ["SURF".toList, "color".toList] P.labels

/-- Named experiments for all `k` and all runs. -/
def named (P : Plan) (pre : Key) (loaders : Dict Key Ldr) : List (Key × Exp) :=
  P.ks.flatMap fun k => (List.range P.nRun).map fun i => (runName pre k i, launched loaders k)

/-- `exps_2` (`/repo/samples/launcher.py:77-92`). -/
def exps2 (P : Plan) : List (Key × Exp) :=
  named P "motion_sound".toList [("motion".toList, .choreo2), ("sound".toList, .acorns (.num 1))] ++
  named P "image_sound".toList [("image".toList, P.image), ("sound".toList, .acorns (.num 1))] ++
  named P "image_motion".toList [("image".toList, P.image), ("motion".toList, .choreo2)]

/-- `exps_3` (`/repo/samples/launcher.py:93-99`). -/
def exps3 (P : Plan) : List (Key × Exp) :=
  named P "image_motion_sound".toList [("image".toList, P.image), ("motion".toList, .choreo2),
    ("sound".toList, .acorns (.num 1))]

/-- `'_'.join(l)`. -/
def joinUnderscore (l : List Key) : Key := List.intercalate ['_'] l

/-- `"image_sound_feats_{}_{}".format('_'.join(descriptors), i)`. -/
def featsName (feats : List Key) (i : ℕ) : Key :=
  "image_sound_feats_".toList ++ (joinUnderscore feats ++ '_' :: decStr i)

/-- `exp_images` (`/repo/samples/launcher.py:109-114`). -/
def expsImage (P : Plan) : List (Key × Exp) :=
  P.sets.flatMap fun feats => (List.range P.nRun).map fun i =>
    (featsName feats i,
      launched [("image".toList, .objects feats P.labels), ("sound".toList, .acorns (.num 1))] 50)

/-- `exps` (`/repo/samples/launcher.py:116`). -/
def allExps (P : Plan) : List (Key × Exp) := exps2 P ++ exps3 P ++ expsImage P

/-- The scripts (`/repo/samples/launcher.py:42-43`). -/
inductive Script
  | two
  | three
  deriving DecidableEq

/-- `Job(path, name, script)`. -/
structure Job where
  path : Key
  name : Key
  script : Script
  deriving DecidableEq

/-- `jobs` (`/repo/samples/launcher.py:118-120`). -/
def allJobs (P : Plan) (wd : Key) : List Job :=
  (exps2 P).map (fun ne => ⟨wd, ne.1, .two⟩) ++ (exps3 P).map (fun ne => ⟨wd, ne.1, .three⟩) ++
    (expsImage P).map fun ne => ⟨wd, ne.1, .two⟩

/-- The configurations which the action `prepare` writes (`/repo/samples/launcher.py:198-201`): for
each job, the experiment the parameters of which are written. -/
def preparedJobs (P : Plan) (wd : Key) : List (Job × Exp) :=
  ((allExps P).zip (allJobs P wd)).map fun x => (x.2, x.1.2)

/-- `EXPS_BY_NAME` (`/repo/samples/launcher.py:132`). -/
def expsByName (P : Plan) : Dict Key Exp := dictOf (allExps P)

/-- `JOBS_BY_NAME` (`/repo/samples/launcher.py:133`). -/
def jobsByName (P : Plan) (wd : Key) : Dict Key Job :=
  dictOf ((allJobs P wd).map fun j => (j.name, j))

/-- `MOD_PAIRS` (`/repo/samples/launcher.py:129-131`). -/
def MOD_PAIRS : List (Key × Key) :=
  [("motion".toList, "sound".toList), ("image".toList, "motion".toList),
   ("image".toList, "sound".toList)]

variable {L : Type}

/-- The files of the logs. -/
abbrev Disk (L : Type) := FS (LogVal L) Mx

/-- `Logger.load(os.path.join(job.path, job.name), load_np=False)` for the job of a name. -/
def loadJob (fs : Disk L) (jobs : Dict Key Job) (name : Key) : Py (Log L) :=
  match dictGet? jobs name with
  | none => .error .keyError
  | some j => load fs (Corpus.pathJoin j.path j.name) false false

/-- The logs of the runs `0, …, N_RUN - 1`, merged (the loops of `/repo/samples/launcher.py:141-148,
157-162, 171-177`). -/
def collectRuns (fs : Disk L) (jobs : Dict Key Job) (nRun : ℕ) (name : ℕ → Key) : Py (Log L) := do
  let logs ← (List.range nRun).mapM fun i => loadJob fs jobs (name i)
  mergeExperiments logs

/-- `"{}_{}_{}_{}".format(mod1, mod2, k, i)`. -/
def pairName (m1 m2 : Key) (k i : ℕ) : Key :=
  m1 ++ '_' :: (m2 ++ '_' :: (decStr k ++ '_' :: decStr i))

/-- One step of the loop over pairs of modalities (`/repo/samples/launcher.py:139-148`). -/
def collectPair (fs : Disk L) (P : Plan) (jobs : Dict Key Job) (d : Dict (Key × Key) (List (Log L)))
    (m : Key × Key) : Py (Dict (Key × Key) (List (Log L))) := do
  let ls ← P.ks.mapM fun k => collectRuns fs jobs P.nRun (pairName m.1 m.2 k)
  return dictSet d m ls

/-- `collect_results` (`/repo/samples/launcher.py:136-149`). -/
def collectResults (fs : Disk L) (P : Plan) (jobs : Dict Key Job) :
    Py (Dict (Key × Key) (List (Log L))) :=
  MOD_PAIRS.foldlM (collectPair fs P jobs) []

/-- One step of the loop over the values of `k` (`/repo/samples/launcher.py:156-164`). -/
def collectStep3 (fs : Disk L) (P : Plan) (jobs : Dict Key Job)
    (d : Dict (Key × Key) (List (Log L))) (k : ℕ) : Py (Dict (Key × Key) (List (Log L))) := do
  let l ← collectRuns fs jobs P.nRun (runName "image_motion_sound".toList k)
  return MOD_PAIRS.foldl (fun d m => dictSet d m ((dictGet? d m).getD [] ++ [l])) d

/-- `collect_results3` (`/repo/samples/launcher.py:152-165`). -/
def collectResults3 (fs : Disk L) (P : Plan) (jobs : Dict Key Job) :
    Py (Dict (Key × Key) (List (Log L))) :=
  P.ks.foldlM (collectStep3 fs P jobs) (MOD_PAIRS.foldl (fun d m => dictSet d m []) [])

/-- One step of the loop over sets of descriptors (`/repo/samples/launcher.py:170-177`). -/
def collectFeats (fs : Disk L) (P : Plan) (jobs : Dict Key Job) (d : Dict (List Key) (Log L))
    (feats : List Key) : Py (Dict (List Key) (Log L)) := do
  let l ← collectRuns fs jobs P.nRun (featsName feats)
  return dictSet d feats l

/-- `collect_results_image` (`/repo/samples/launcher.py:168-178`). -/
def collectResultsImage (fs : Disk L) (P : Plan) (jobs : Dict Key Job) :
    Py (Dict (List Key) (Log L)) :=
  P.sets.foldlM (collectFeats fs P jobs) []

/-- `image_features` (`/repo/samples/launcher.py:101-102`). -/
def IMAGE_FEATURES : List Key :=
  ["SURF".toList, "color".toList, "SURF_pairs".toList, "color_pairs".toList, "color_triplets".toList]

/-- The constants of the script (`/repo/samples/launcher.py:68-69, 101-108`,
`/repo/multimodal/db/objects.py:24-35`). -/
def PLAN : Plan where
  ks := [5, 10, 15, 20, 30, 40, 50, 75, 100, 200]
  nRun := 20
  sets := IMAGE_FEATURES.map (fun f => [f]) ++ [["SURF".toList, "color".toList],
    ["SURF_pairs".toList, "color_pairs".toList], ["SURF_pairs".toList, "color_triplets".toList],
    IMAGE_FEATURES]
  labels := ["blue octopus".toList, "red pooh".toList, "pink octopus".toList, "yellow car".toList,
    "blue and yellow whale".toList, "blue-eyes-green-yellow".toList, "orange fish".toList,
    "brown and white squirrel".toList, "mouse?".toList, "dark green and white cube".toList]

end Verif.Samples
