import Verif.Experiment.Table
import Verif.Loaders.Model
import Verif.Datasets.Model

/-!
# Model of `samples/icdl2013.py` and `samples/image_sound.py`

The experiments of these scripts, from what the loaders read in files to the table which is printed.
-/

namespace Verif.Experiment

open Verif Verif.Logger
open Verif.Loaders (AcDB AcLoader ObjDB ObjLoader c2Data c2Labels)
open Verif.Datasets (DEFAULT_LABELS)

variable {Λ : Type}

/-! ### Loaders -/

/-- What the loaders read: features and records of motions (`/repo/multimodal/db/choreo2.py:50-59`), features of
the second speaker and database of the first year of ACORNS (`/repo/multimodal/db/acorns.py:67-84`), database of
objects, with the number of columns of each feature (`/repo/multimodal/db/objects.py:63-83`). -/
structure Sources where
  motion : Py Mx
  motionDb : Py (List (List ℤ) × List Key)
  sound : Py Mx
  soundDb : Py (AcDB Key)
  objects : Py (ObjDB (List ℚ) Key)
  objectsCols : Key → ℕ

/-- A loader and its state. -/
inductive LdrState
  | choreo2 (nSamples : Option ℕ)
  | acorns (s : AcLoader Key)
  | objects (s : ObjLoader (List ℚ) Key)

/-- A new loader (`/repo/multimodal/db/models/loader.py:3-4`, `/repo/multimodal/db/acorns.py:62-65`,
`/repo/multimodal/db/objects.py:56-61`); speakers which are not numbers are not modelled. -/
def Ldr.state : Ldr → Option LdrState
  | .choreo2 => some (.choreo2 none)
  | .acorns (.num n) => some (.acorns ⟨n, none, none⟩)
  | .acorns _ => none
  | .objects features labels => some (.objects (ObjLoader.new features labels))

/-- `get_labels` of the three classes. -/
def LdrState.getLabels (src : Sources) : LdrState → LdrState × Py (List Key)
  | .choreo2 n => let r := c2Labels n src.motionDb; (.choreo2 r.1, r.2)
  | .acorns s => let r := s.getLabels src.soundDb; (.acorns r.1, r.2)
  | .objects s => let r := s.getLabels src.objects; (.objects r.1, r.2)

/-- `get_data` of the three classes. -/
def LdrState.getData (src : Sources) : LdrState → LdrState × Py Mx
  | .choreo2 n =>
    let r := c2Data n (src.motion.map Mx.rows)
    (.choreo2 r.1, r.2 >>= fun rows => src.motion.map fun x => ⟨x.cols, rows⟩)
  | .acorns s =>
    let r := s.getData (src.sound.map Mx.rows)
    (.acorns r.1, r.2 >>= fun rows => src.sound.map fun x => ⟨x.cols, rows⟩)
  | .objects s =>
    let r := s.getData List.flatten src.objects
    (.objects r.1, r.2.map fun rows => ⟨(s.featureList.map src.objectsCols).sum, rows⟩)

/-- `[loader.f() for loader in self.loaders]` (`/repo/multimodal/experiment.py:67-68,80`). -/
def callAll {σ α : Type} (f : σ → σ × Py α) : List σ → List σ × Py (List α)
  | [] => ([], .ok [])
  | s :: l =>
    match f s with
    | (s, .error e) => (s :: l, .error e)
    | (s, .ok a) => (s :: (callAll f l).1, (callAll f l).2.map fun as => a :: as)

/-! ### Scripts -/

/-- The first lines of the scripts (`/repo/samples/icdl2013.py:19-22`, `/repo/samples/image_sound.py:15-18`):
`DEBUG` and `sys.argv`. -/
def debugArg (argv : List Key) : Bool × List Key :=
  match argv with
  | a :: b :: l => if b = "--debug".toList then (true, a :: l) else (false, argv)
  | _ => (false, argv)

/-- The loaders of `/repo/samples/icdl2013.py:24-25`. -/
def icdlLoaders : Dict Key Ldr := [("motion".toList, .choreo2), ("sound".toList, .acorns (.num 1))]

/-- The loaders of `/repo/samples/image_sound.py:20-21`. -/
def imageLoaders : Dict Key Ldr :=
  [("objects".toList, .objects ["SURF".toList, "color".toList] DEFAULT_LABELS),
    ("sound".toList, .acorns (.num 1))]

/-- The experiment of a script (`/repo/samples/icdl2013.py:24-26`, `/repo/samples/image_sound.py:20-22`), with the
defaults of `/repo/multimodal/experiment.py:44-45`; `order` is the order of the dictionary of loaders, which
depends on the version of python. -/
def scriptExp (order : Dict Key Ldr → Dict Key Ldr) (loaders : Dict Key Ldr) (argv : List Key) : Exp :=
  Exp.new (order loaders) 50 50 50 none false (.ratio (1 / 10)) (debugArg argv).1

/-- A script (`/repo/samples/icdl2013.py:19-28`, `/repo/samples/image_sound.py:15-24`): labels are loaded, then
data, by the same loaders; the log has no file. -/
def script (shown : Option (ℚ × ℚ) → Key) (X : Ext Λ) (R : Rand Key) (metrics : List (List ℚ → List ℚ → ℚ))
    (start stop : Key) (src : Sources) (order : Dict Key Ldr → Dict Key Ldr) (loaders : Dict Key Ldr)
    (argv : List Key) (fs : FS (LogVal Key) Mx) : World Key × List Key × Py Unit :=
  let e := scriptExp order loaders argv
  let labels := callAll (LdrState.getLabels src) (e.loaders.filterMap Ldr.state)
  let data := callAll (LdrState.getData src) labels.1
  runAndPrint (run X R e labels.2 data.2 (evaluateTwo X e metrics) start stop) (printTwo shown e)
    ⟨Logger.new none, fs⟩

end Verif.Experiment
