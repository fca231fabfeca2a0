import Verif.Plots.Model

/-!
# Model of the annotations of `ScorePlot`
-/

namespace Verif.Plots

open Verif Verif.Window

/-- What annotations change in a plot: the limits of ordinates, `_y_annotation`, the areas and the texts with their
positions. -/
structure Canvas where
  limits : ℚ × ℚ
  yAnnotation : Option ℚ
  spans : List (ℚ × ℚ)
  texts : List (Str × ℚ × ℚ)
  deriving DecidableEq, Repr

/-- `_y_annotation` after the test of `annotate` (`/repo/multimodal/plots.py:322-324`); `set_ybound` sorts its arguments
(ordinates are not inverted). -/
def Canvas.place (c : Canvas) : Canvas × ℚ :=
  match c.yAnnotation with
  | none => ({ c with
      limits := (min 0 (c.limits.2 + 3 / 100), max 0 (c.limits.2 + 3 / 100)), yAnnotation := some c.limits.2 }, c.limits.2)
  | some y => (c, y)

/-- `annotate` (`/repo/multimodal/plots.py:319-328`).  Areas have no height of their own: they don't change the limits of
ordinates. -/
def Canvas.annotate (c : Canvas) (boundaries : ℚ × ℚ) (text : Str) : Canvas :=
  let c := { c with spans := c.spans ++ [boundaries] }
  let p := c.place
  { p.1 with texts := p.1.texts ++ [(text, 1 / 2 * (boundaries.1 + boundaries.2), p.2)] }

/-- `plot_one_sentence` (`/repo/multimodal/plots.py:369-386`) with annotations; `limits` are the limits of ordinates which
matplotlib chooses for a drawing. -/
def plotOneSentenceAnnotated {X R : Type} (limits : Drawing R → ℚ × ℚ) (recordWin : BasicWin R)
    (sliding : List (BasicWin Unit)) (exampleLabels similarities : Arg X) (rc : Option (Dict Str Rc))
    (annotations : List (Str × ℚ × ℚ)) : Py (R × Drawing R × Canvas) := do
  let rd ← plotOneSentence recordWin sliding exampleLabels similarities rc
  return (rd.1, rd.2, annotations.foldl (fun c a => c.annotate a.2 a.1) ⟨limits rd.2, none, [], []⟩)

end Verif.Plots
