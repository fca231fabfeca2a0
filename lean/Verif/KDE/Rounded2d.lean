import Verif.KDE.Rounded

/-!
# Model of linear binning in two dimensions with rounded operations

`get_bins_2d` as in `Verif.KDE.Model`, with the rounding `fl` of the result of each operation on floats (see
`Verif.Window.Float`; `dbl` for doubles).  Overflow is not modelled.  Steps and grids (`deltaR`, `gridR`) are computed
as in one dimension: `/repo/multimodal/lib/kde2d.py:54-60` for `/repo/multimodal/lib/kde1d.py:48-52`.
-/

namespace Verif.KDE

/-- `bins[b, c] += w` for a two dimensional array (`/repo/multimodal/lib/kde2d.py:74-77`). -/
def addAt2R (fl : ℚ → ℚ) (bins : List (List ℚ)) (b c : ℤ) (w : ℚ) : Py (List (List ℚ)) :=
  match pyIndex bins.length b with
  | some k =>
    match bins[k]? with
    | some row => do
      let row' ← addAtR fl row c w
      return bins.set k row'
    | none => .error .indexError
  | none => .error .indexError

/-- Body of the loop of `get_bins_2d` (`/repo/multimodal/lib/kde2d.py:70-77`): products are computed from the left. -/
def spread2R (fl : ℚ → ℚ) (xGrid yGrid : List ℚ) (dx dy weight : ℚ) (bins : List (List ℚ)) (s : ℚ × ℚ)
    (xb yb : ℤ) : Py (List (List ℚ)) := do
  let gx1 ← pyGet xGrid (xb + 1)
  let weightLeft := fl (fl (gx1 - s.1) / dx)
  let gy1 ← pyGet yGrid (yb + 1)
  let weightBottom := fl (fl (gy1 - s.2) / dy)
  let gx ← pyGet xGrid xb
  let weightRight := fl (fl (s.1 - gx) / dx)
  let gy ← pyGet yGrid yb
  let weightUp := fl (fl (s.2 - gy) / dy)
  let bins ← addAt2R fl bins xb yb (fl (fl (weight * weightLeft) * weightBottom))
  let bins ← addAt2R fl bins xb (yb + 1) (fl (fl (weight * weightLeft) * weightUp))
  let bins ← addAt2R fl bins (xb + 1) yb (fl (fl (weight * weightRight) * weightBottom))
  addAt2R fl bins (xb + 1) (yb + 1) (fl (fl (weight * weightRight) * weightUp))

/-- The bins of `get_bins_2d` before the last ones are removed (`/repo/multimodal/lib/kde2d.py:52-77`); null steps as
in `fullBins2`. -/
def fullBins2R (fl : ℚ → ℚ) (samples : List (ℚ × ℚ)) (lo hi : ℚ × ℚ) (nb : ℕ) : Py (List (List ℚ)) :=
  let dx := deltaR fl lo.1 hi.1 nb
  let dy := deltaR fl lo.2 hi.2 nb
  if (dx = 0 ∨ dy = 0) ∧ samples ≠ [] then .error .indexError
  else
    let weight := fl (1 / fl (fl ((samples.length : ℚ) * dx) * dy))
    samples.foldlM (fun bins s => spread2R fl (gridR fl lo.1 dx nb) (gridR fl lo.2 dy nb) dx dy weight bins s
        ⌊fl (fl (s.1 - lo.1) / dx)⌋ ⌊fl (fl (s.2 - lo.2) / dy)⌋)
      (List.replicate (nb + 1) (List.replicate (nb + 1) 0))

/-- `get_bins_2d` (`/repo/multimodal/lib/kde2d.py:16-79`) for samples with two columns: grids and bins. -/
def getBins2R (fl : ℚ → ℚ) (samples : List (ℚ × ℚ)) (nbBins : ℤ) (bounds : Option ((ℚ × ℚ) × (ℚ × ℚ))) :
    Py (List ℚ × List ℚ × List (List ℚ)) := do
  if nbBins < 2 then .error .valueError
  else
    let nb := nbBins.toNat
    let (lo, hi) ← bounds2 samples bounds
    let bins ← fullBins2R fl samples lo hi nb
    return (pyUpto (gridR fl lo.1 (deltaR fl lo.1 hi.1 nb) nb) (-1),
      pyUpto (gridR fl lo.2 (deltaR fl lo.2 hi.2 nb) nb) (-1),
      (pyUpto bins (-1)).map fun row => pyUpto row (-1))

/-- `np.arange(start, stop, step)` with rounded operations: the length is the smallest integer above
`(stop - start) / step`; the first two values are `start` and `start + step`, and their difference is the step of the
following ones. -/
def arangeR (fl : ℚ → ℚ) (start stop step : ℚ) : List ℚ :=
  (List.range ⌈fl (fl (stop - start) / step)⌉.toNat).map fun i : ℕ =>
    if i = 0 then start else if i = 1 then fl (start + step)
    else fl (start + fl ((i : ℚ) * fl (fl (start + step) - start)))

/-- `x_ker_grid` (`/repo/multimodal/lib/kde2d.py:98-106`), from the grid of bins; the other axis in the same way. -/
def kernelGridR (fl : ℚ → ℚ) (xGrid : List ℚ) : Py (List ℚ) := do
  let last ← pyGet xGrid (-1)
  let first ← pyGet xGrid 0
  let second ← pyGet xGrid 1
  let xRange := fl (last - first)
  let delta := fl (second - first)
  return arangeR fl (fl (-xRange / 2)) (fl (xRange / 2)) delta

/-- The grids on which `gaussian_kde_2d` computes its kernel (`/repo/multimodal/lib/kde2d.py:97-107`).  Values of the
estimate with rounded operations are not modelled. -/
def kernelGrids2R (fl : ℚ → ℚ) (samples : List (ℚ × ℚ)) (nbBins : ℤ) (bounds : Option ((ℚ × ℚ) × (ℚ × ℚ))) :
    Py (List ℚ × List ℚ) := do
  let (xGrid, yGrid, _) ← getBins2R fl samples nbBins bounds
  let x ← kernelGridR fl xGrid
  let y ← kernelGridR fl yGrid
  return (x, y)

end Verif.KDE
