import Verif.Samples.Launcher
import Verif.Experiment.Json

/-!
# Model of the action `prepare` of `/repo/samples/launcher.py`
-/

namespace Verif.Samples

open Verif.Logger (Key)
open Verif.Experiment (PFS saveSerialized)

/-- `/repo/samples/launcher.py:198-201`: `config` is the file of parameters of a job, which the package `expjobs`
chooses. -/
def prepareAction (enum : List Key → List Key) (config : Job → Key) (P : Plan) (wd : Key) (fs : PFS) : PFS :=
  ((allExps P).zip (allJobs P wd)).foldl (fun fs x => saveSerialized enum fs x.1.2 (config x.2)) fs

end Verif.Samples
