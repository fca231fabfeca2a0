import Verif.Py
import Verif.PyMore
import Mathlib.Algebra.Order.Floor.Ring
import Mathlib.Algebra.BigOperators.Intervals
import Mathlib.Analysis.SpecialFunctions.Log.Basic

/-!
# Model of `multimodal/lib/kde1d.py` and `multimodal/lib/kde2d.py`

Floats are the elements of an ordered field with integer parts (`ℚ`, which computes, or `ℝ`); divisions
are those of Python 3 or of floats.  The positions of bins come from `np.floor`, and are floats: they are
used as indices, as `numpy` before 1.12 allows (later versions raise `IndexError`).  FFT convolution is
taken to be exact, so that `fft` has no effect.
-/

namespace Verif.KDE

section Bins

variable {K : Type} [Field K] [LinearOrder K] [FloorRing K]

/-- `np.min`, which raises `ValueError` on an empty array. -/
def npMin : List K → Py K
  | [] => .error .valueError
  | x :: xs => .ok (xs.foldl min x)

/-- `np.max`, which raises `ValueError` on an empty array. -/
def npMax : List K → Py K
  | [] => .error .valueError
  | x :: xs => .ok (xs.foldl max x)

/-- `lo + (np.arange(nb + 1) * delta)`. -/
def grid (lo delta : K) (nb : ℕ) : List K := (List.range (nb + 1)).map fun i : ℕ => lo + (i : K) * delta

/-- `bins[b] += w`. -/
def addAt (bins : List K) (b : ℤ) (w : K) : Py (List K) :=
  match pyIndex bins.length b with
  | some k => .ok (bins.modify k (· + w))
  | none => .error .indexError

/-- Body of the loop of `get_bins_1d` (`/repo/multimodal/lib/kde1d.py:63-66`), for a sample and its
bin. -/
def spread1 (xGrid : List K) (delta weight : K) (bins : List K) (x : K) (b : ℤ) : Py (List K) := do
  let right ← pyGet xGrid (b + 1)
  let weightLeft := weight * (right - x) / delta
  let left ← pyGet xGrid b
  let weightRight := weight * (x - left) / delta
  let bins ← addAt bins b weightLeft
  addAt bins (b + 1) weightRight

/-- Bounds in `get_bins_1d` (`/repo/multimodal/lib/kde1d.py:40-47`). -/
def bounds1 (x : List K) (bounds : Option (K × K)) : Py (K × K) :=
  match bounds with
  | none => do
    let lo ← npMin x
    let hi ← npMax x
    return (lo, hi)
  | some (lo, hi) => do
    let m ← npMin x
    let m' ← npMax x
    if lo > m ∨ hi < m' then .error .valueError else return (lo, hi)

/-- The bins of `get_bins_1d` before the last one is removed (`/repo/multimodal/lib/kde1d.py:48-66`).
When all is in a point, `np.floor` gives `nan`, which is not an index (or the common weight raises
`ZeroDivisionError` for bounds which are Python floats): taken to be `IndexError`. -/
def fullBins1 (x : List K) (lo hi : K) (nb : ℕ) : Py (List K) :=
  let delta := (hi - lo) / ((nb : K) - 1)
  let xGrid := grid lo delta nb
  if delta = 0 then .error .indexError
  else
    let weight := 1 / ((x.length : K) * delta)
    x.foldlM (fun bins s => spread1 xGrid delta weight bins s ⌊(s - lo) / delta⌋)
      (List.replicate (nb + 1) 0)

/-- `get_bins_1d` (`/repo/multimodal/lib/kde1d.py:17-68`): grid and bins. -/
def getBins1 (x : List K) (nbBins : ℤ) (bounds : Option (K × K)) : Py (List K × List K) := do
  if nbBins < 2 then .error .valueError
  else
    let nb := nbBins.toNat
    let (lo, hi) ← bounds1 x bounds
    let bins ← fullBins1 x lo hi nb
    return (pyUpto (grid lo ((hi - lo) / ((nb : K) - 1)) nb) (-1), pyUpto bins (-1))

/-- `bins[b, c] += w` for a two dimensional array. -/
def addAt2 (bins : List (List K)) (b c : ℤ) (w : K) : Py (List (List K)) :=
  match pyIndex bins.length b with
  | some k =>
    match bins[k]? with
    | some row => do
      let row' ← addAt row c w
      return bins.set k row'
    | none => .error .indexError
  | none => .error .indexError

/-- Body of the loop of `get_bins_2d` (`/repo/multimodal/lib/kde2d.py:70-77`). -/
def spread2 (xGrid yGrid : List K) (dx dy weight : K) (bins : List (List K)) (s : K × K) (xb yb : ℤ) :
    Py (List (List K)) := do
  let gx1 ← pyGet xGrid (xb + 1)
  let weightLeft := (gx1 - s.1) / dx
  let gy1 ← pyGet yGrid (yb + 1)
  let weightBottom := (gy1 - s.2) / dy
  let gx ← pyGet xGrid xb
  let weightRight := (s.1 - gx) / dx
  let gy ← pyGet yGrid yb
  let weightUp := (s.2 - gy) / dy
  let bins ← addAt2 bins xb yb (weight * weightLeft * weightBottom)
  let bins ← addAt2 bins xb (yb + 1) (weight * weightLeft * weightUp)
  let bins ← addAt2 bins (xb + 1) yb (weight * weightRight * weightBottom)
  addAt2 bins (xb + 1) (yb + 1) (weight * weightRight * weightUp)

/-- Bounds in `get_bins_2d` (`/repo/multimodal/lib/kde2d.py:40-51`): smallest values, greatest
values. -/
def bounds2 (samples : List (K × K)) (bounds : Option ((K × K) × (K × K))) : Py ((K × K) × (K × K)) :=
  match bounds with
  | none => do
    let xMin ← npMin (samples.map Prod.fst)
    let xMax ← npMax (samples.map Prod.fst)
    let yMin ← npMin (samples.map Prod.snd)
    let yMax ← npMax (samples.map Prod.snd)
    return ((xMin, yMin), (xMax, yMax))
  | some b => .ok b

/-- The bins of `get_bins_2d` before the last ones are removed
(`/repo/multimodal/lib/kde2d.py:52-77`). Null ranges as in `fullBins1`: without samples there is no index
to compute (and the common weight is taken to be infinite, not to raise `ZeroDivisionError`). -/
def fullBins2 (samples : List (K × K)) (lo hi : K × K) (nb : ℕ) : Py (List (List K)) :=
  let dx := (hi.1 - lo.1) / ((nb : K) - 1)
  let dy := (hi.2 - lo.2) / ((nb : K) - 1)
  if (dx = 0 ∨ dy = 0) ∧ samples ≠ [] then .error .indexError
  else
    let weight := 1 / ((samples.length : K) * dx * dy)
    samples.foldlM (fun bins s => spread2 (grid lo.1 dx nb) (grid lo.2 dy nb) dx dy weight bins s
        ⌊(s.1 - lo.1) / dx⌋ ⌊(s.2 - lo.2) / dy⌋)
      (List.replicate (nb + 1) (List.replicate (nb + 1) 0))

/-- `get_bins_2d` (`/repo/multimodal/lib/kde2d.py:16-79`) for samples with two columns: grids and
bins. -/
def getBins2 (samples : List (K × K)) (nbBins : ℤ) (bounds : Option ((K × K) × (K × K))) :
    Py (List K × List K × List (List K)) := do
  if nbBins < 2 then .error .valueError
  else
    let nb := nbBins.toNat
    let (lo, hi) ← bounds2 samples bounds
    let bins ← fullBins2 samples lo hi nb
    return (pyUpto (grid lo.1 ((hi.1 - lo.1) / ((nb : K) - 1)) nb) (-1),
      pyUpto (grid lo.2 ((hi.2 - lo.2) / ((nb : K) - 1)) nb) (-1),
      (pyUpto bins (-1)).map fun row => pyUpto row (-1))

end Bins

section Gaussian

/-! ## Smoothing with a Gaussian kernel -/

/-- `np.arange(start, stop, step)`. With floats, rounding may add an element. -/
noncomputable def arange (start stop step : ℝ) : List ℝ :=
  (List.range ⌈(stop - start) / step⌉.toNat).map fun i : ℕ => start + (i : ℝ) * step

/-- `scipy.convolve(a, b)`, or `fftconvolve(a, b)`, for arrays which are not empty. -/
noncomputable def convolve (a b : List ℝ) : List ℝ :=
  (List.range (a.length + b.length - 1)).map fun n =>
    ∑ i ∈ Finset.range a.length, if i ≤ n then a.getD i 0 * b.getD (n - i) 0 else 0

/-- `gaussian_kde_1d` (`/repo/multimodal/lib/kde1d.py:71-103`). The sum of the kernel is not null: see
`Underflow.lean` for exponentials which underflow. -/
noncomputable def gaussian1 (x : List ℝ) (h : ℝ) (nbBins : ℤ) (_fft : Bool) (bounds : Option (ℝ × ℝ)) :
    Py (List ℝ × List ℝ) := do
  let (xGrid, bins) ← getBins1 x nbBins bounds
  let last ← pyGet xGrid (-1)
  let first ← pyGet xGrid 0
  let second ← pyGet xGrid 1
  let xRange := last - first
  let delta := second - first
  let kerGrid := arange (-xRange / 2) (xRange / 2) delta
  if h = 0 then .error .zeroDivisionError
  else
    let ker := kerGrid.map fun t => Real.exp (-(1 / 2) / h ^ 2 * t ^ 2)
    let s := ker.sum
    let ker := ker.map fun v => v / s
    return (xGrid, convolve bins ker)

/-- `EPSILON` (`/repo/multimodal/lib/kde1d.py:105`). -/
noncomputable def EPSILON : ℝ := 1 / 10 ^ 14

/-- `trapz(y, dx=dx)`. -/
noncomputable def trapz (y : List ℝ) (dx : ℝ) : ℝ :=
  ∑ i ∈ Finset.range (y.length - 1), dx * (y.getD i 0 + y.getD (i + 1) 0) / 2

/-- `kde_entropy_gaussian_1d` (`/repo/multimodal/lib/kde1d.py:107-121`). -/
noncomputable def entropy1 (x : List ℝ) (h : ℝ) (nbBins : ℤ) (fft : Bool) : Py ℝ := do
  let (g, kde) ← gaussian1 x h nbBins fft none
  let second ← pyGet g 1
  let first ← pyGet g 0
  return trapz (kde.map fun p => -p * Real.log (p + EPSILON)) (second - first)

/-- `kde_KL_divergence_1d` (`/repo/multimodal/lib/kde1d.py:123-149`). -/
noncomputable def klDivergence1 (x y : List ℝ) (h : ℝ) (nbBins : ℤ) (fft : Bool) : Py ℝ := do
  let mx ← npMin x
  let my ← npMin y
  let mx' ← npMax x
  let my' ← npMax y
  let bounds := some (min mx my, max mx' my')
  let (g, kdeX) ← gaussian1 x h nbBins fft bounds
  let (_, kdeY) ← gaussian1 y h nbBins fft bounds
  let second ← pyGet g 1
  let first ← pyGet g 0
  return trapz (List.zipWith (fun p q => -p * Real.log ((p + EPSILON) / (q + EPSILON))) kdeX kdeY)
    (second - first)

/-- `convolve2d(a, k, mode='same')`, or `fftconvolve(a, k, mode='same')`: the part of the convolution
around its centre, of the size of `a` (`n` lines and columns); `k` has `m` and `m'`. -/
noncomputable def convolveSame (a : ℕ → ℕ → ℝ) (n : ℕ) (k : ℕ → ℕ → ℝ) (m m' : ℕ) (i j : ℕ) : ℝ :=
  ∑ p ∈ Finset.range n, ∑ q ∈ Finset.range n,
    if p ≤ i + (m - 1) / 2 ∧ i + (m - 1) / 2 - p < m ∧ q ≤ j + (m' - 1) / 2 ∧ j + (m' - 1) / 2 - q < m' then
      a p q * k (i + (m - 1) / 2 - p) (j + (m' - 1) / 2 - q) else 0

/-- `gaussian_kde_2d` (`/repo/multimodal/lib/kde2d.py:81-127`), as `gaussian1`. -/
noncomputable def gaussian2 (samples : List (ℝ × ℝ)) (hX hY : ℝ) (nbBins : ℤ) (_fft : Bool)
    (bounds : Option ((ℝ × ℝ) × (ℝ × ℝ))) : Py (List ℝ × List ℝ × List (List ℝ)) := do
  let (xGrid, yGrid, bins) ← getBins2 samples nbBins bounds
  let lastX ← pyGet xGrid (-1)
  let firstX ← pyGet xGrid 0
  let lastY ← pyGet yGrid (-1)
  let firstY ← pyGet yGrid 0
  let secondX ← pyGet xGrid 1
  let secondY ← pyGet yGrid 1
  let xRange := lastX - firstX
  let yRange := lastY - firstY
  let deltaX := secondX - firstX
  let deltaY := secondY - firstY
  let xKer := arange (-xRange / 2) (xRange / 2) deltaX
  let yKer := arange (-yRange / 2) (yRange / 2) deltaY
  if hX = 0 ∨ hY = 0 then .error .zeroDivisionError
  else
    let ker := fun k l : ℕ => Real.exp (-(1 / 2) / hX ^ 2 * xKer.getD k 0 ^ 2 +
      -(1 / 2) / hY ^ 2 * yKer.getD l 0 ^ 2)
    let s := ∑ k ∈ Finset.range xKer.length, ∑ l ∈ Finset.range yKer.length, ker k l
    let kde := (List.range bins.length).map fun i => (List.range bins.length).map fun j =>
      convolveSame (fun p q => (bins.getD p []).getD q 0) bins.length (fun k l => ker k l / s)
        xKer.length yKer.length i j
    return (xGrid, yGrid, kde)

/-- Binding of arguments in a call with `pos` positional arguments and the keywords `kw`, for parameters
which have a default or not: `TypeError` for too many arguments, for unknown or repeated ones, and for
missing ones. -/
def bindArgs (params : List (String × Bool)) (pos : ℕ) (kw : List String) : Py Unit :=
  if params.length < pos ∨ (∃ k ∈ kw, k ∉ params.map Prod.fst ∨ k ∈ (params.take pos).map Prod.fst) ∨
      ∃ p ∈ params.drop pos, p.2 = false ∧ p.1 ∉ kw then .error .typeError
  else .ok ()

/-- The parameters of `gaussian_kde_2d` (`/repo/multimodal/lib/kde2d.py:81`). -/
def KDE_2D_PARAMS : List (String × Bool) :=
  [("samples", false), ("h_x", false), ("h_y", false), ("nb_bins", false), ("fft", true), ("bounds", true)]

/-- `kde_entropy_gaussian_2d` (`/repo/multimodal/lib/kde2d.py:131-148`); if the call of `gaussian_kde_2d`
(line 141) were accepted, it would have the same width for both coordinates. -/
noncomputable def entropy2 (samples : List (ℝ × ℝ)) (h : ℝ) (nbBins : ℤ) (fft : Bool) : Py ℝ := do
  bindArgs KDE_2D_PARAMS 2 ["nb_bins", "fft"]
  let k ← gaussian2 samples h h nbBins fft none
  let x1 ← pyGet k.1 1
  let x0 ← pyGet k.1 0
  let y1 ← pyGet k.2.1 1
  let y0 ← pyGet k.2.1 0
  return trapz (k.2.2.map fun row => trapz (row.map fun p => -p * Real.log (p + EPSILON)) (y1 - y0)) (x1 - x0)

/-- `np.min(x, axis=0)` and `np.max(x, axis=0)` of samples with two columns. -/
noncomputable def npExtrema (x : List (ℝ × ℝ)) : Py ((ℝ × ℝ) × (ℝ × ℝ)) := do
  let x0 ← npMin (x.map Prod.fst)
  let y0 ← npMin (x.map Prod.snd)
  let x1 ← npMax (x.map Prod.fst)
  let y1 ← npMax (x.map Prod.snd)
  return ((x0, y0), (x1, y1))

/-- The integrand of `kde_KL_divergence_2d` (`/repo/multimodal/lib/kde2d.py:173`). -/
noncomputable def plogp2 (kdeX kdeY : List (List ℝ)) : List (List ℝ) :=
  List.zipWith (List.zipWith fun p q => -p * Real.log ((p + EPSILON) / (q + EPSILON))) kdeX kdeY

/-- `kde_KL_divergence_2d` (`/repo/multimodal/lib/kde2d.py:150-176`): lines are integrated with the step of
the first coordinate. -/
noncomputable def klDivergence2 (x y : List (ℝ × ℝ)) (hX hY : ℝ) (nbBins : ℤ) (fft : Bool) : Py ℝ := do
  let ex ← npExtrema x
  let ey ← npExtrema y
  let bounds := some ((min ex.1.1 ey.1.1, min ex.1.2 ey.1.2), (max ex.2.1 ey.2.1, max ex.2.2 ey.2.2))
  let kx ← gaussian2 x hX hY nbBins fft bounds
  let ky ← gaussian2 y hX hY nbBins fft bounds
  let x1 ← pyGet kx.1 1
  let x0 ← pyGet kx.1 0
  let y1 ← pyGet kx.2.1 1
  let y0 ← pyGet kx.2.1 0
  return trapz ((plogp2 kx.2.2 ky.2.2).map fun row => trapz row (x1 - x0)) (y1 - y0)

end Gaussian

end Verif.KDE
