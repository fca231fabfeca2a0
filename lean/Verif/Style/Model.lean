import Verif.PyMore
import Mathlib.Data.Rat.Floor
import Mathlib.Logic.Function.Basic

/-!
# Model of `multimodal/lib/plot.py`

Axes of matplotlib are modelled by what this module sets: spines, positions of tick marks, ticks, labels of
ticks, limits and grids.  Lines, boxes and meshes are drawn by matplotlib: a call is modelled by the axes on
which it is made and by its keyword arguments.  `plot_var` is in the area Plots.
-/

namespace Verif.Style

/-- Text. -/
abbrev Str := List Char

/-- A spine (`ax.spines[name]`). -/
structure Spine where
  visible : Bool
  width : ℚ
  deriving DecidableEq

/-- An axis: whether its scale is `'log'`, the position of its tick marks, its ticks with their labels, and its
limits. -/
structure Axis where
  log : Bool
  position : Str
  ticks : List ℚ
  labels : List Str
  lim : ℚ × ℚ
  deriving DecidableEq

/-- What is set on axes; `grids` are the axes for which a grid was asked. -/
structure Axes where
  spine : Str → Spine
  x : Axis
  y : Axis
  grids : List Str

/-- `all_spines` (`/repo/multimodal/lib/plot.py:181`), the keys of `ax.spines`. -/
def ALL_SPINES : List Str := ["top".toList, "bottom".toList, "right".toList, "left".toList]

/-- `ax.spines[name].set_visible(False)`. -/
def Axes.hide (ax : Axes) (name : Str) : Axes :=
  { ax with spine := Function.update ax.spine name { ax.spine name with visible := false } }

/-- `ax.spines[name].set_linewidth(0.5)`. -/
def Axes.thin (ax : Axes) (name : Str) : Axes :=
  { ax with spine := Function.update ax.spine name { ax.spine name with width := 1 / 2 } }

/-- The first loop (`/repo/multimodal/lib/plot.py:182-183`). -/
def hideAll (ax : Axes) : List Str → Axes × Py Unit
  | [] => (ax, .ok ())
  | s :: l => if s ∈ ALL_SPINES then hideAll (ax.hide s) l else (ax, .error .keyError)

/-- The second loop (`/repo/multimodal/lib/plot.py:187-189`). -/
def thinOthers (spines : List Str) (ax : Axes) : Axes :=
  ALL_SPINES.foldl (fun ax s => if s ∈ spines then ax else ax.thin s) ax

/-- A turn of the third loop (`/repo/multimodal/lib/plot.py:199-208`); `order` is the order in which a set is
visited. -/
def tickMarks (order : List Str → List Str) (spines pos : List Str) (axis : Axis) : Axis :=
  if axis.log then
    (order (pos.filter fun p => p ∉ spines)).foldl (fun axis p => { axis with position := p }) axis
  else { axis with position := "none".toList }

/-- The grid (`/repo/multimodal/lib/plot.py:210-213`): `for g in grid` visits the characters. -/
def setGrid (ax : Axes) : Option Str → Axes × Py Unit
  | none => (ax, .ok ())
  | some g =>
    if g.all fun c => c = 'x' || c = 'y' then ({ ax with grids := ax.grids ++ [g] }, .ok ())
    else (ax, .error .assertionError)

/-- The labels of ticks (`/repo/multimodal/lib/plot.py:215-222`): the comparison of a set with `0` raises
`TypeError` (in both versions of Python), so that the lines which follow are never reached. -/
def removeLabels (ax : Axes) : Option (List Str) → Axes × Py Unit
  | none => (ax, .ok ())
  | some _ => (ax, .error .typeError)

/-- One command after the other. -/
def andThen (r : Axes × Py Unit) (f : Axes → Axes × Py Unit) : Axes × Py Unit :=
  match r with
  | (ax, .error e) => (ax, .error e)
  | (ax, .ok ()) => f ax

/-- `remove_chartjunk` (`/repo/multimodal/lib/plot.py:171-222`); a string given for `ticklabels` is a list of
one. -/
def removeChartjunk (order : List Str → List Str) (ax : Axes) (spines : List Str) (grid : Option Str)
    (ticklabels : Option (List Str)) : Axes × Py Unit :=
  andThen (hideAll ax spines) fun ax =>
    let ax := thinOthers spines ax
    let ax := { ax with x := tickMarks order spines ["top".toList, "bottom".toList] ax.x }
    let ax := { ax with y := tickMarks order spines ["left".toList, "right".toList] ax.y }
    andThen (setGrid ax grid) fun ax => removeLabels ax ticklabels

/-! ### Calls with keyword arguments -/

/-- Default colour maps. -/
inductive Cmap
  | reds
  | blues
  | bluesR
  deriving DecidableEq

/-- Values of arguments: `None`, axes or a figure, numbers, text, labels, colour maps. -/
inductive Arg (T : Type)
  | none
  | target (t : T)
  | num (q : ℚ)
  | str (s : Str)
  | labels (l : List Str)
  | cmap (c : Cmap)
  | flag (b : Bool)
  deriving DecidableEq

variable {T : Type} [DecidableEq T]

/-- `kwargs.pop(k, None)`. -/
def pop (d : Dict Str (Arg T)) (k : Str) : Option (Arg T) × Dict Str (Arg T) :=
  (dictGet? d k, d.filter fun p => p.1 ≠ k)

/-- `if k not in kwargs: kwargs[k] = v`. -/
def setDefault (d : Dict Str (Arg T)) (k : Str) (v : Arg T) : Dict Str (Arg T) :=
  if (dictGet? d k).isSome then d else dictSet d k v

/-- `v or plt.gca()`, where a method of the result is called next; values other than `None`, axes and figures
are not considered and raise `AttributeError`. -/
def orCurrent (gca : T) : Option (Arg T) → Py T
  | none => .ok gca
  | some .none => .ok gca
  | some (.target t) => .ok t
  | some _ => .error .attributeError

/-- State of all axes after a call which may fail, and its result. -/
abbrev Res (T α : Type) := (T → Axes) × Py α

/-- `plot` (`/repo/multimodal/lib/plot.py:56-62`): the axes on which `plot` is called and its arguments. -/
def plot (order : List Str → List Str) (gca : T) (w : T → Axes) (kwargs : Dict Str (Arg T)) :
    Res T (T × Dict Str (Arg T)) :=
  let p := pop kwargs "ax".toList
  match orCurrent gca p.1 with
  | .error e => (w, .error e)
  | .ok t =>
    let kw := setDefault p.2 "linewidth".toList (.num (3 / 4))
    let r := removeChartjunk order (w t) ["top".toList, "right".toList] none none
    (Function.update w t r.1, r.2.map fun _ => (t, kw))

/-- `legend` (`/repo/multimodal/lib/plot.py:65-78`): where the method `legend` is called and its arguments.  An
argument given twice raises `TypeError`. -/
def legend (gca : T) (kwargs : Dict Str (Arg T)) : Py (T × Dict Str (Arg T)) := do
  let f := pop kwargs "fig".toList
  let a := pop f.2 "ax".toList
  let t ← orCurrent gca (if a.1.isSome then a.1 else f.1)
  let kw := setDefault a.2 "loc".toList (.str "best".toList)
  if (dictGet? kw "frameon".toList).isSome || (dictGet? kw "scatterpoints".toList).isSome then .error .typeError
  else return (t, [("frameon".toList, .flag true), ("scatterpoints".toList, .num 1)] ++ kw)

/-- `ax.xaxis.set_ticklabels(v)` for `v` not `None`. -/
def setLabels (v : Option (Arg T)) (axis : Axis) : Py Axis :=
  match v with
  | none => .ok axis
  | some .none => .ok axis
  | some (.labels l) => .ok { axis with labels := l }
  | some _ => .error .typeError

/-- `boxplot` (`/repo/multimodal/lib/plot.py:114-146`): the axes on which `boxplot` is called and its arguments.
Colours of the boxes are left out. -/
def boxplot (order : List Str → List Str) (gca : T) (w : T → Axes) (kwargs : Dict Str (Arg T)) :
    Res T (T × Dict Str (Arg T)) :=
  let a := pop kwargs "ax".toList
  match orCurrent gca a.1 with
  | .error e => (w, .error e)
  | .ok t =>
    let l := pop a.2 "xticklabels".toList
    let kw := setDefault l.2 "widths".toList (.num (3 / 20))
    match setLabels l.1 (w t).x with
    | .error e => (w, .error e)
    | .ok x =>
      let r := removeChartjunk order { w t with x := x } ["top".toList, "right".toList, "bottom".toList] none none
      (Function.update w t (if r.2 = .ok () then r.1.thin "left".toList else r.1), r.2.map fun _ => (t, kw))

/-- `_cmap_from_data` (`/repo/multimodal/lib/plot.py:39-49`). -/
def cmapFromData (x : List (List ℚ)) : Cmap :=
  if x.all fun r => r.all fun v => 0 ≤ v then .reds
  else if x.all fun r => r.all fun v => v ≤ 0 then .blues
  else .bluesR

/-- `np.arange(a, b)` on numbers. -/
def arange (a b : ℚ) : List ℚ := (List.range ⌈b - a⌉.toNat).map fun i : ℕ => a + i

/-- The labels in an argument which counts as true (`/repo/multimodal/lib/plot.py:160-163`): neither missing, nor
`None`, nor an empty list. -/
def trueLabels : Option (Arg T) → Py (Option (List Str))
  | none => .ok none
  | some .none => .ok none
  | some (.labels []) => .ok none
  | some (.labels l) => .ok (some l)
  | some _ => .error .typeError

/-- Ticks at the middle of `n` cells (`/repo/multimodal/lib/plot.py:160-165`). -/
def setTicks (n : ℕ) (axis : Axis) : Option (List Str) → Axis
  | none => axis
  | some l => { axis with ticks := arange (1 / 2) (n + 1 / 2), labels := l }

/-- `pcolormesh` (`/repo/multimodal/lib/plot.py:149-168`) of a matrix given by its lines and its number of
columns. -/
def pcolormesh (order : List Str → List Str) (gca : T) (w : T → Axes) (x : List (List ℚ)) (cols : ℕ)
    (kwargs : Dict Str (Arg T)) : Res T (T × Dict Str (Arg T)) :=
  let a := pop kwargs "ax".toList
  match orCurrent gca a.1 with
  | .error e => (w, .error e)
  | .ok t =>
    let kw := setDefault a.2 "cmap".toList (.cmap (cmapFromData x))
    let lx := pop kw "xticklabels".toList
    let ly := pop lx.2 "yticklabels".toList
    let r := removeChartjunk order (w t) ["top".toList, "right".toList, "bottom".toList, "left".toList] none none
    match r.2, trueLabels lx.1 with
    | .error e, _ => (Function.update w t r.1, .error e)
    | .ok (), .error e => (Function.update w t r.1, .error e)
    | .ok (), .ok labX =>
      let ax := { r.1 with x := setTicks cols r.1.x labX }
      match trueLabels ly.1 with
      | .error e => (Function.update w t ax, .error e)
      | .ok labY =>
        let ax := { ax with y := setTicks x.length ax.y labY }
        let ax := { ax with x := { ax.x with lim := (0, cols) }, y := { ax.y with lim := (0, x.length) } }
        (Function.update w t ax, .ok (t, ly.2))

/-- `get_n_colors` (`/repo/multimodal/lib/plot.py:52-53`) for `n ≥ 0`. -/
def getNColors {α : Type} (n : ℕ) (cmap : ℚ → α) : List α := (List.range n).map fun i : ℕ => cmap ((i : ℚ) / n)

end Verif.Style
