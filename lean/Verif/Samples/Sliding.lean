import Verif.Window.PropsFrames
import Verif.Window.PropsConcat
import Verif.Window.PropsTimes
import Verif.PyMore

/-!
# Model of the sliding windows of `samples/image_sound_eval_sliding.py`

The same windows are built again in `samples/plot_image_sound_eval_sliding.py`. The samples of the
files are read when a window is transformed into an array window.
-/

namespace Verif.Samples

open Verif Verif.Window

/-- The sliding windows (`/repo/samples/image_sound_eval_sliding.py:87-91`,
`/repo/samples/plot_image_sound_eval_sliding.py:47-51`). -/
def slidingWins {α β : Type} (c : Concat α β) (width shift : ℚ) : Py (List (Concat α β)) := do
  let s ← c.start
  let e ← c.stop
  (slider s e width shift false TOL).mapM fun p => c.getSub p.1 p.2

/-- The window of a record (`/repo/samples/plot_image_sound_eval_sliding.py:42-44`). -/
def recordWin {α β R : Type} (records : List R) (m : ℕ) (p : List ℕ × Win α β) : Py (Win α R) := do
  let s ← pyGet p.1 (m : ℤ)
  let r ← pyGet records (s : ℤ)
  return .basic ⟨p.2.start, p.2.stop, r⟩

/-- The windows of the records (`/repo/samples/plot_image_sound_eval_sliding.py:41-45`); the indices
themselves are the objects in `/repo/samples/image_sound_eval_sliding.py:79-82`. -/
def recordWins {α β R : Type} (records : List R) (m : ℕ) (assoc : List (List ℕ))
    (c : Concat α β) : Py (Concat α R) := do
  let ws ← (assoc.zip c.windows).mapM (recordWin records m)
  Concat.init ws

/-- The paths of the sounds (`/repo/samples/image_sound_eval_sliding.py:74-75`,
`/repo/samples/plot_image_sound_eval_sliding.py:32-33`); `path` is `get_audio_path`. -/
def wavPaths {R : Type} (path : R → String) (records : List R) (m : ℕ) (assoc : List (List ℕ)) :
    Py (List String) :=
  assoc.mapM fun (a : List ℕ) => do
    let s ← pyGet a (m : ℤ)
    let r ← pyGet records (s : ℤ)
    return path r

end Verif.Samples
