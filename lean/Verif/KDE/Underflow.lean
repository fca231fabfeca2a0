import Verif.KDE.Model

/-!
# Model of density estimation when exponentials underflow

`np.exp` returns 0 for large negative numbers, thus the sum of a kernel may be null; the quotient is then
`nan`, which is `none` here. Other operations are exact. `ex` stands for `np.exp`.
-/

namespace Verif.KDE

open scoped Classical in
/-- `ker / s` (`/repo/multimodal/lib/kde1d.py:96`, `/repo/multimodal/lib/kde2d.py:121`), for an element of
the kernel, which is not negative: the quotient of zero by zero is `nan`. When the sum is null, all elements
are. -/
noncomputable def quotient (v s : ℝ) : Option ℝ := if s = 0 then none else some (v / s)

/-- The sum of `n` floats, `nan` as soon as one is. -/
noncomputable def sumN (n : ℕ) (f : ℕ → Option ℝ) : Option ℝ :=
  (List.range n).foldl (fun acc i => do
    let a ← acc
    let v ← f i
    return a + v) (some 0)

/-- The product of a float and an element of the kernel: `nan` if this element is, even with 0. -/
noncomputable def mulN (a : ℝ) (k : Option ℝ) : Option ℝ := k.map fun v => a * v

/-- `convolve_1d(a, b)` when elements of the kernel may be `nan`. -/
noncomputable def convolveN (a : List ℝ) (b : List (Option ℝ)) : List (Option ℝ) :=
  (List.range (a.length + b.length - 1)).map fun n =>
    sumN a.length fun i => if i ≤ n ∧ n - i < b.length then mulN (a.getD i 0) (b.getD (n - i) none) else some 0

/-- `fftconvolve(a, b)` when elements of the kernel may be `nan`: transforms mix all elements. -/
noncomputable def fftconvolveN (a : List ℝ) (b : List (Option ℝ)) : List (Option ℝ) :=
  if none ∈ b then List.replicate (a.length + b.length - 1) none else convolveN a b

open scoped Classical in
/-- `gaussian_kde_1d` (`/repo/multimodal/lib/kde1d.py:71-103`): whether the warning is printed
(lines 94-95), and the returned value. That `h ** 2` or its inverse is out of the range of doubles is not
modelled. -/
noncomputable def gaussian1U (ex : ℝ → ℝ) (x : List ℝ) (h : ℝ) (nbBins : ℤ) (fft : Bool)
    (bounds : Option (ℝ × ℝ)) : Py (Bool × List ℝ × List (Option ℝ)) := do
  let (xGrid, bins) ← getBins1 x nbBins bounds
  let last ← pyGet xGrid (-1)
  let first ← pyGet xGrid 0
  let second ← pyGet xGrid 1
  let xRange := last - first
  let delta := second - first
  let kerGrid := arange (-xRange / 2) (xRange / 2) delta
  if h = 0 then .error .zeroDivisionError
  else
    let ker := kerGrid.map fun t => ex (-(1 / 2) / h ^ 2 * t ^ 2)
    let s := ker.sum
    let warning := decide (s = 0)
    let ker := ker.map fun v => quotient v s
    let kde := if fft then fftconvolveN bins ker else convolveN bins ker
    return (warning, xGrid, kde)

/-- `trapz(y, dx=dx)` when elements may be `nan`. -/
noncomputable def trapzN (y : List (Option ℝ)) (dx : ℝ) : Option ℝ :=
  sumN (y.length - 1) fun i => do
    let a ← y.getD i none
    let b ← y.getD (i + 1) none
    return dx * (a + b) / 2

/-- `kde_entropy_gaussian_1d` (`/repo/multimodal/lib/kde1d.py:107-121`). -/
noncomputable def entropy1U (ex : ℝ → ℝ) (x : List ℝ) (h : ℝ) (nbBins : ℤ) (fft : Bool) :
    Py (Option ℝ) := do
  let (_, g, kde) ← gaussian1U ex x h nbBins fft none
  let second ← pyGet g 1
  let first ← pyGet g 0
  return trapzN (kde.map fun p => p.map fun p => -p * Real.log (p + EPSILON)) (second - first)

/-- `kde_KL_divergence_1d` (`/repo/multimodal/lib/kde1d.py:123-149`). -/
noncomputable def klDivergence1U (ex : ℝ → ℝ) (x y : List ℝ) (h : ℝ) (nbBins : ℤ) (fft : Bool) :
    Py (Option ℝ) := do
  let mx ← npMin x
  let my ← npMin y
  let mx' ← npMax x
  let my' ← npMax y
  let bounds := some (min mx my, max mx' my')
  let (_, g, kdeX) ← gaussian1U ex x h nbBins fft bounds
  let (_, _, kdeY) ← gaussian1U ex y h nbBins fft bounds
  let second ← pyGet g 1
  let first ← pyGet g 0
  return trapzN (List.zipWith (fun p q => do
    let p ← p
    let q ← q
    return -p * Real.log ((p + EPSILON) / (q + EPSILON))) kdeX kdeY) (second - first)

/-- `convolve2d(a, k, mode='same')` at a point, when elements of the kernel may be `nan`. -/
noncomputable def convolveSameN (a : ℕ → ℕ → ℝ) (n : ℕ) (k : ℕ → ℕ → Option ℝ) (m m' : ℕ) (i j : ℕ) :
    Option ℝ :=
  sumN n fun p => sumN n fun q =>
    if p ≤ i + (m - 1) / 2 ∧ i + (m - 1) / 2 - p < m ∧ q ≤ j + (m' - 1) / 2 ∧ j + (m' - 1) / 2 - q < m' then
      mulN (a p q) (k (i + (m - 1) / 2 - p) (j + (m' - 1) / 2 - q)) else some 0

open scoped Classical in
/-- `fftconvolve(a, k, mode='same')` at a point, when elements of the kernel may be `nan`. -/
noncomputable def fftconvolveSameN (a : ℕ → ℕ → ℝ) (n : ℕ) (k : ℕ → ℕ → Option ℝ) (m m' : ℕ) (i j : ℕ) :
    Option ℝ :=
  if ∃ p < m, ∃ q < m', k p q = none then none else convolveSameN a n k m m' i j

open scoped Classical in
/-- `gaussian_kde_2d` (`/repo/multimodal/lib/kde2d.py:81-127`), as `gaussian1U`; lines 118-121 for the
warning and the quotient. -/
noncomputable def gaussian2U (ex : ℝ → ℝ) (samples : List (ℝ × ℝ)) (hX hY : ℝ) (nbBins : ℤ) (fft : Bool)
    (bounds : Option ((ℝ × ℝ) × (ℝ × ℝ))) :
    Py (Bool × List ℝ × List ℝ × List (List (Option ℝ))) := do
  let (xGrid, yGrid, bins) ← getBins2 samples nbBins bounds
  let lastX ← pyGet xGrid (-1)
  let firstX ← pyGet xGrid 0
  let lastY ← pyGet yGrid (-1)
  let firstY ← pyGet yGrid 0
  let secondX ← pyGet xGrid 1
  let secondY ← pyGet yGrid 1
  let xRange := lastX - firstX
  let yRange := lastY - firstY
  let deltaX := secondX - firstX
  let deltaY := secondY - firstY
  let xKer := arange (-xRange / 2) (xRange / 2) deltaX
  let yKer := arange (-yRange / 2) (yRange / 2) deltaY
  if hX = 0 ∨ hY = 0 then .error .zeroDivisionError
  else
    let ker := fun k l : ℕ => ex (-(1 / 2) / hX ^ 2 * xKer.getD k 0 ^ 2 +
      -(1 / 2) / hY ^ 2 * yKer.getD l 0 ^ 2)
    let s := ∑ k ∈ Finset.range xKer.length, ∑ l ∈ Finset.range yKer.length, ker k l
    let conv := if fft then fftconvolveSameN else convolveSameN
    let kde := (List.range bins.length).map fun i => (List.range bins.length).map fun j =>
      conv (fun p q => (bins.getD p []).getD q 0) bins.length (fun k l => quotient (ker k l) s)
        xKer.length yKer.length i j
    return (decide (s = 0), xGrid, yGrid, kde)

end Verif.KDE
