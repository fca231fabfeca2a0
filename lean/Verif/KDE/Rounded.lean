import Verif.KDE.Model
import Verif.Window.Float

/-!
# Model of linear binning with rounded operations

`get_bins_1d` as in `Verif.KDE.Model`, with the rounding `fl` of the result of each operation on floats (see
`Verif.Window.Float`; `dbl` for doubles).  Overflow is not modelled.
-/

namespace Verif.KDE

/-- `delta_x` (`/repo/multimodal/lib/kde1d.py:48-50`): `x_range / float(nb_bins - 1)`; the number of bins is a float
exactly, up to `2 ^ 53`. -/
def deltaR (fl : ℚ → ℚ) (lo hi : ℚ) (nb : ℕ) : ℚ := fl (fl (hi - lo) / ((nb : ℚ) - 1))

/-- `x_min + (np.arange(nb_bins + 1) * delta_x)` (`/repo/multimodal/lib/kde1d.py:52`). -/
def gridR (fl : ℚ → ℚ) (lo delta : ℚ) (nb : ℕ) : List ℚ :=
  (List.range (nb + 1)).map fun i : ℕ => fl (lo + fl ((i : ℚ) * delta))

/-- `bins[b] += w`. -/
def addAtR (fl : ℚ → ℚ) (bins : List ℚ) (b : ℤ) (w : ℚ) : Py (List ℚ) :=
  match pyIndex bins.length b with
  | some k => .ok (bins.modify k fun v => fl (v + w))
  | none => .error .indexError

/-- Body of the loop of `get_bins_1d` (`/repo/multimodal/lib/kde1d.py:63-66`), for a sample and its
bin. -/
def spread1R (fl : ℚ → ℚ) (xGrid : List ℚ) (delta weight : ℚ) (bins : List ℚ) (x : ℚ) (b : ℤ) : Py (List ℚ) := do
  let right ← pyGet xGrid (b + 1)
  let weightLeft := fl (fl (weight * fl (right - x)) / delta)
  let left ← pyGet xGrid b
  let weightRight := fl (fl (weight * fl (x - left)) / delta)
  let bins ← addAtR fl bins b weightLeft
  addAtR fl bins (b + 1) weightRight

/-- The bins of `get_bins_1d` before the last one is removed (`/repo/multimodal/lib/kde1d.py:48-66`); a null step as
in `fullBins1`. -/
def fullBins1R (fl : ℚ → ℚ) (x : List ℚ) (lo hi : ℚ) (nb : ℕ) : Py (List ℚ) :=
  let delta := deltaR fl lo hi nb
  let xGrid := gridR fl lo delta nb
  if delta = 0 then .error .indexError
  else
    let weight := fl (1 / fl ((x.length : ℚ) * delta))
    x.foldlM (fun bins s => spread1R fl xGrid delta weight bins s ⌊fl (fl (s - lo) / delta)⌋)
      (List.replicate (nb + 1) 0)

/-- `get_bins_1d` (`/repo/multimodal/lib/kde1d.py:17-68`): grid and bins. -/
def getBins1R (fl : ℚ → ℚ) (x : List ℚ) (nbBins : ℤ) (bounds : Option (ℚ × ℚ)) : Py (List ℚ × List ℚ) := do
  if nbBins < 2 then .error .valueError
  else
    let nb := nbBins.toNat
    let (lo, hi) ← bounds1 x bounds
    let bins ← fullBins1R fl x lo hi nb
    return (pyUpto (gridR fl lo (deltaR fl lo hi nb) nb) (-1), pyUpto bins (-1))

/-- The number of values of the kernel in `gaussian_kde_1d` (`/repo/multimodal/lib/kde1d.py:84-91`): the length of
`np.arange(start, stop, step)` is the smallest integer above `(stop - start) / step`. -/
def kernelSizeR (fl : ℚ → ℚ) (xGrid : List ℚ) : Py ℕ := do
  let last ← pyGet xGrid (-1)
  let first ← pyGet xGrid 0
  let second ← pyGet xGrid 1
  let xRange := fl (last - first)
  let delta := fl (second - first)
  let start := fl (-xRange / 2)
  let stop := fl (xRange / 2)
  return ⌈fl (fl (stop - start) / delta)⌉.toNat

/-- The numbers of values of the grid and of the estimate returned by `gaussian_kde_1d`
(`/repo/multimodal/lib/kde1d.py:71-103`): the convolution of `n` by `m` values has `n + m - 1` values.  Values of the
estimate with rounded operations are not modelled; the width of the kernel is not null. -/
def gaussianSizes1R (fl : ℚ → ℚ) (x : List ℚ) (nbBins : ℤ) (bounds : Option (ℚ × ℚ)) : Py (ℕ × ℕ) := do
  let (xGrid, bins) ← getBins1R fl x nbBins bounds
  let m ← kernelSizeR fl xGrid
  return (xGrid.length, bins.length + m - 1)

end Verif.KDE
