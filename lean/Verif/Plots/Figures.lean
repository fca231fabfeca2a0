import Verif.Plots.Model

/-!
# Model of the figures made from logs (`multimodal/plots.py`)

A figure is described by what its panels show: values and colour of each box, titles, labels, legends, place on
the grid; for curves the points, label, colour and style.  Spines, grids, fonts and margins are not modelled, nor
the shapes computed by matplotlib for boxes (the coordinates of a polygon are those of its box).
-/

namespace Verif.Plots

open Verif Verif.Window

variable {G : Type}

/-- A box of a panel: the values it summarises and its colour. -/
structure Box where
  values : List ℚ
  color : Str
  deriving DecidableEq, Inhabited

/-- `', '.join(l)`. -/
def joinComma : List Str → Str
  | [] => []
  | [a] => a
  | a :: l => a ++ ',' :: ' ' :: joinComma l

/-- `mod_to_mod_str` (`/repo/multimodal/plots.py:41-42`), once its arguments are text. -/
def modToMod (a b : Str) : Str := a ++ " $\\rightarrow$ ".toList ++ b

/-- `repr` of a list of names, for names without quotes, backslashes or special characters. -/
def listRepr (l : List Str) : Str := '[' :: (joinComma (l.map fun s => '\'' :: (s ++ ['\''])) ++ [']'])

/-- The labels of boxes (`/repo/multimodal/plots.py:122-123`). -/
def boxLabel (m : List Str × List Str) : Str := modToMod (joinComma m.1) (joinComma m.2)

/-- The box of some values (`/repo/multimodal/plots.py:116-121`). -/
def boxOf (pairs : Bool) (x : List ℚ × (List Str × List Str)) : Py Box := do
  let c ← colorFor x.2.1 x.2.2 pairs
  return ⟨x.1, c⟩

/-- `plot_boxes_one_exp` (`/repo/multimodal/plots.py:106-127`): boxes and labels.  `getValues` is `get_values` of
loggers; matplotlib gives one box for each list of values. -/
def plotBoxesOneExp (getValues : G → Str → Py (List ℚ)) (logger : G) (mods : List (List Str × List Str))
    (pairs : Bool) : Py (List Box × List Str) := do
  let vals ← mods.mapM fun m => getValues logger (boxKey m)
  let polygons ← (vals.zip mods).mapM (boxOf pairs)
  return (polygons, mods.map boxLabel)

/-- `plot_boxes_one_exp_pairs` (`/repo/multimodal/plots.py:130-132`), with `colors='pairs'`. -/
def plotBoxesOneExpPairs (getValues : G → Str → Py (List ℚ)) (logger : G) (mods : List Str) :
    Py (List Box × List Str) :=
  plotBoxesOneExp getValues logger (allPairs mods) true

/-- A panel `plt.subplot(1, cols, index)`: whether it has a label for ordinates, whether its ordinates are shared
with those of the first panel, its title and its boxes. -/
structure Panel where
  cols : ℕ
  index : ℕ
  ylabel : Bool
  shared : Bool
  title : Str
  boxes : List Box
  deriving DecidableEq

/-- A figure: its panels and the legend (box and label). -/
structure Figure where
  panels : List Panel
  legend : List (Box × Str)
  deriving DecidableEq

/-- The panel of a pair in `plot_boxes` (`/repo/multimodal/plots.py:138-148`). -/
def pairPanel (getValues : G → Str → Py (List ℚ)) (n : ℕ) (x : (List Str × G) × ℕ) : Py Panel := do
  let r ← plotBoxesOneExpPairs getValues x.1.2 x.1.1
  return ⟨2 * n, 1 + x.2, x.2 == 0, x.2 != 0, joinComma x.1.1, r.1⟩

/-- `plot_boxes` (`/repo/multimodal/plots.py:135-157`).  `modalities` is `get_value('modalities')`.  Without pairs
`ax1` is not defined. -/
def plotBoxes (getValues : G → Str → Py (List ℚ)) (modalities : G → Py (List Str)) (loggers2 : List (List Str × G))
    (logger3 : G) : Py Figure := do
  let left ← loggers2.zipIdx.mapM (pairPanel getValues loggers2.length)
  if left.isEmpty then .error .unboundLocalError
  else do
    let mods ← modalities logger3
    let r ← plotBoxesOneExpPairs getValues logger3 mods
    return ⟨left ++ [⟨2, 2, false, true, joinComma mods, r.1⟩], r.1.zip r.2⟩

/-- `s.replace('_', '-')`. -/
def dashes (s : Str) : Str := s.map fun c => if c = '_' then '-' else c

/-- `'\n'.join(l)`. -/
def joinLines : List Str → Str
  | [] => []
  | [a] => a
  | a :: l => a ++ '\n' :: joinLines l

/-- The two modalities of `plot_boxes_by_feats` (`/repo/multimodal/plots.py:179`). -/
def FEATS_MODS : List Str := ["image".toList, "sound".toList]

/-- The panel of some features in `plot_boxes_by_feats` (`/repo/multimodal/plots.py:181-191`), with the labels of
its boxes.  `wrap` is `textwrap.wrap`. -/
def featsPanel (getValues : G → Str → Py (List ℚ)) (wrap : Str → ℕ → List Str) (n : ℕ)
    (x : (List Str × G) × ℕ) : Py (Panel × List Str) := do
  let r ← plotBoxesOneExpPairs getValues x.1.2 FEATS_MODS
  return (⟨n, 1 + x.2, x.2 == 0, x.2 != 0, joinLines (wrap (dashes (joinComma x.1.1)) 15), r.1⟩, r.2)

/-- `plot_boxes_by_feats` (`/repo/multimodal/plots.py:177-195`): the legend has the boxes of the last panel. -/
def plotBoxesByFeats (getValues : G → Str → Py (List ℚ)) (wrap : Str → ℕ → List Str)
    (loggers : List (List Str × G)) : Py Figure := do
  let ps ← loggers.zipIdx.mapM (featsPanel getValues wrap loggers.length)
  match ps.getLast? with
  | none => .error .unboundLocalError
  | some p => .ok ⟨ps.map Prod.fst, p.1.boxes.zip p.2⟩

/-- `plot_boxes_all_mods` (`/repo/multimodal/plots.py:159-174`): boxes, title and the three legends from left to
right. -/
def plotBoxesAllMods (getValues : G → Str → Py (List ℚ)) (modalities : G → Py (List Str)) (logger3 : G) :
    Py (List Box × Str × List (List (Box × Str))) := do
  let mods ← modalities logger3
  let r ← plotBoxesOneExp getValues logger3 (combinations mods) false
  let pols ← split3 r.1
  let labs ← split3 r.2
  return (r.1, joinComma mods, (pols.zip labs).map fun x => x.1.zip x.2)

/-! ### Curves -/

/-- A curve with its label, colour, style and the way deviations are shown. -/
structure Curve where
  label : Str
  color : Str
  style : Str
  varStyle : Str
  points : List (ℚ × ℚ × ℚ)
  deriving DecidableEq, Inhabited

/-- `plot_one_curve` (`/repo/multimodal/plots.py:57-65`), as a curve.  `mods` has two lists, whose `repr` are in the
label. -/
def curveOf (getValues : G → Str → Py (List ℚ)) (loggers : List G) (mods : List Str × List Str) (ks : List ℚ)
    (metric style varStyle : Str) : Py Curve := do
  let ps ← plotOneCurve getValues loggers mods ks metric
  let c ← colorFor mods.1 mods.2 true
  return ⟨modToMod (listRepr mods.1) (listRepr mods.2), c, style, varStyle, ps⟩

/-- Both curves of a pair (`/repo/multimodal/plots.py:71-74`, `85-90`). -/
def pairCurves (getValues : G → Str → Py (List ℚ)) (ks : List ℚ) (metric style varStyle : Str)
    (x : (Str × Str) × List G) : Py (Curve × Curve) := do
  let l1 ← curveOf getValues x.2 ([x.1.1], [x.1.2]) ks metric style varStyle
  let l2 ← curveOf getValues x.2 ([x.1.2], [x.1.1]) ks metric style varStyle
  return (l1, l2)

/-- `plot_k_graphs` (`/repo/multimodal/plots.py:68-78`): the curves; the legend shows their labels. -/
def plotKGraphs (getValues : G → Str → Py (List ℚ)) (loggers : List ((Str × Str) × List G)) (ks : List ℚ)
    (metric : Str) : Py (List Curve) := do
  let cs ← loggers.mapM (pairCurves getValues ks metric "-".toList "fill".toList)
  return cs.flatMap fun c => [c.1, c.2]

/-- Entries of the dictionary of lines for a pair (`/repo/multimodal/plots.py:91-92`). -/
def addLines (d : Dict Str Curve) (x : (Str × Str) × (Curve × Curve)) : Dict Str Curve :=
  dictSet (dictSet d (modToMod x.1.1 x.1.2) x.2.1) (modToMod x.1.2 x.1.1) x.2.2

/-- Curves of some logs and their dictionary (`/repo/multimodal/plots.py:83-92`). -/
def logCurves (getValues : G → Str → Py (List ℚ)) (ks : List ℚ) (metric : Str)
    (x : List ((Str × Str) × List G) × Str) : Py (List Curve × Dict Str Curve) := do
  let cs ← x.1.mapM (pairCurves getValues ks metric x.2 "bar".toList)
  return (cs.flatMap fun c => [c.1, c.2], ((x.1.map Prod.fst).zip cs).foldl addLines [])

/-- The two styles (`/repo/multimodal/plots.py:83`). -/
def STYLES : List Str := ["-".toList, "--".toList]

/-- `plot_2k_graphs` (`/repo/multimodal/plots.py:80-103`): curves, first legend and second legend (style and
label). -/
def plot2kGraphs (getValues : G → Str → Py (List ℚ)) (loggers : List (List ((Str × Str) × List G))) (ks : List ℚ)
    (metric : Str) : Py (List Curve × Dict Str Curve × List (Str × Str)) := do
  let lines ← (loggers.zip STYLES).mapM (logCurves getValues ks metric)
  let l0 ← pyGet lines 0
  return (lines.flatMap Prod.fst, l0.2,
    [("-".toList, "Trained on two modalities.".toList), ("--".toList, "Trained on all three modalities.".toList)])

end Verif.Plots
