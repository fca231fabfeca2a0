import Verif.Py
import Verif.PyMore
import Verif.NMF.Model
import Verif.Utils.Model
import Mathlib.Analysis.SpecialFunctions.Exp

/-!
# Model of `multimodal/features/hac.py`, `multimodal/features/angle_histograms.py` (histograms) and
`multimodal/lib/vector_quantization.py`

Sounds, streams of vectors and codebooks of `hac.py` are of any type; MFCC, deltas, vector
quantisation (`scipy.cluster.vq.vq`), k-means and singular values are parameters.
-/

namespace Verif.Features

open Verif.NMF Finset

/-! ## Histograms of acoustic co-occurrences -/

/-- `np.bincount(l, minlength=m)`. -/
def bincount (l : List ℕ) (m : ℕ) : List ℕ :=
  (List.range (l.foldl (fun s x => max s (x + 1)) m)).map fun v => l.count v

/-- `a + b` for one dimensional arrays, with broadcasting. -/
def broadcastAdd (a b : List ℕ) : Py (List ℕ) :=
  if a.length = b.length then .ok (List.zipWith (· + ·) a b)
  else match a, b with
    | [x], b => .ok (b.map (x + ·))
    | a, [y] => .ok (a.map (· + y))
    | _, _ => .error .valueError

/-- `coocurrences` (`/repo/multimodal/features/hac.py:152-169`). -/
def coocurrences (q : List ℕ) (n : ℕ) (lag : ℤ) : Py (List ℕ) := do
  let pairIdx ← broadcastAdd ((pyFrom q lag).map (· * n)) (pyUpto q (-lag))
  return bincount pairIdx (n ^ 2)

/-- `np.hstack` of one dimensional arrays. -/
def hstack1 {α : Type} (l : List (List α)) : Py (List α) :=
  if l = [] then .error .valueError else .ok l.flatten

/-- `compute_coocurrences` (`/repo/multimodal/features/hac.py:172-175`); `size` is
`centroids.shape[0]`. -/
def computeCoocurrences {S C : Type} (vq : S → C → List ℕ) (size : C → ℕ) (data : S) (centroids : C)
    (lags : List ℤ) : Py (List ℕ) := do
  let quantized := vq data centroids
  let coocs ← lags.mapM (coocurrences quantized (size centroids))
  if coocs = [] then .error .valueError else .ok coocs.flatten

/-- `hac` (`/repo/multimodal/features/hac.py:178-196`); `delta m k` is the delta of order `k`, and
transposition is left to the parameters. -/
def hac {A S C : Type} (mfcc : A → S) (delta : S → ℕ → S) (vq : S → C → List ℕ) (size : C → ℕ)
    (data : A) (codebooks : List C) (lags : List ℤ) : Py (List ℕ) := do
  let m := mfcc data
  let streams := [m, delta m 1, delta m 2]
  let blocks ← (streams.zip codebooks).mapM fun p => computeCoocurrences vq size p.1 p.2 lags
  if blocks = [] then .error .valueError else .ok blocks.flatten

/-! ## Iterative k-means -/

/-- The routines called by `iterative_kmeans`: `vq` gives codes, `svd` the first right singular vector
and the first singular value (or raises an exception), `kmeans2` the new centroids. -/
structure Routines (d : ℕ) where
  vq : List (Fin d → ℝ) → List (Fin d → ℝ) → List ℕ
  svd : List (Fin d → ℝ) → Py ((Fin d → ℝ) × ℝ)
  kmeans2 : List (Fin d → ℝ) → List (Fin d → ℝ) → List (Fin d → ℝ)

/-- `counts.argmax()` of a non empty array: the first greatest count. -/
def argmaxNat (l : List ℕ) : ℕ := l.idxOf (l.foldl max 0)

/-- One turn of the loop of `iterative_kmeans` (`/repo/multimodal/features/hac.py:79-96`). -/
noncomputable def splitStep {d : ℕ} (R : Routines d) (data : List (Fin d → ℝ)) (alpha : ℝ)
    (centroids : List (Fin d → ℝ)) : Py (List (Fin d → ℝ)) := do
  let quantized := R.vq data centroids
  let counts := bincount quantized centroids.length
  let m := argmaxNat counts
  let associated := ((data.zip quantized).filter fun p => p.2 = m).map Prod.fst
  let (v, s) ← R.svd associated
  let p : Fin d → ℝ := fun j => v j * Real.sqrt s
  let c ← pyGet centroids (m : ℤ)
  let p1 : Fin d → ℝ := fun j => c j + alpha * p j
  let p2 : Fin d → ℝ := fun j => c j - alpha * p j
  let centroids := pyUpto centroids (m : ℤ) ++ pyFrom centroids ((m : ℤ) + 1) ++ [p1] ++ [p2]
  return R.kmeans2 data centroids

/-- The loop; `none` when fuel runs out. -/
noncomputable def splitLoop {d : ℕ} (R : Routines d) (data : List (Fin d → ℝ)) (alpha : ℝ) (k : ℤ) :
    ℕ → List (Fin d → ℝ) → Option (Py (List (Fin d → ℝ)))
  | 0, _ => none
  | fuel + 1, centroids =>
    if (centroids.length : ℤ) < k then
      match splitStep R data alpha centroids with
      | .error e => some (.error e)
      | .ok c => splitLoop R data alpha k fuel c
    else some (.ok centroids)

/-- `data.mean(axis=0)`. -/
noncomputable def mean {d : ℕ} (data : List (Fin d → ℝ)) : Fin d → ℝ :=
  fun j => (data.map fun x => x j).sum / data.length

/-- `iterative_kmeans` (`/repo/multimodal/features/hac.py:68-97`). -/
noncomputable def iterativeKmeans {d : ℕ} (R : Routines d) (data : List (Fin d → ℝ)) (k : ℤ)
    (alpha : ℝ) (fuel : ℕ) : Option (Py (List (Fin d → ℝ))) :=
  splitLoop R data alpha k fuel [mean data]

/-- `build_codebook` (`/repo/multimodal/features/hac.py:100-107`); `raw` is `kmeans2(data, k)`. -/
noncomputable def buildCodebook {d : ℕ} (R : Routines d)
    (raw : List (Fin d → ℝ) → ℤ → Py (List (Fin d → ℝ))) (data : List (Fin d → ℝ)) (k : ℤ)
    (mode : String) (fuel : ℕ) : Option (Py (List (Fin d → ℝ))) :=
  if mode = "raw" then some (raw data k)
  else if mode = "iterative" then iterativeKmeans R data k (1 / 100) fuel
  else some (.error .valueError)

/-! ## Vector quantisation -/

/-- `square_distances` (`/repo/multimodal/lib/vector_quantization.py:15-25`). -/
noncomputable def squareDistances (vectors centroids : Mat) : Py Mat :=
  if vectors.c = centroids.c then
    .ok ⟨vectors.r, centroids.r, fun i k => ∑ j ∈ range vectors.c, (vectors.e i j - centroids.e k j) ^ 2⟩
  else .error .assertionError

open Classical in
/-- `np.argmin` of `f 0, ..., f (n - 1)`. -/
noncomputable def argmin (f : ℕ → ℝ) : ℕ → ℕ
  | 0 => 0
  | n + 1 => if f n < f (argmin f n) then n else argmin f n

/-- `associate` (`/repo/multimodal/lib/vector_quantization.py:28-33`): as many codes as vectors; the
`argmin` of nothing raises `ValueError`. -/
noncomputable def associate (vectors centroids : Mat) : Py (ℕ → ℕ) := do
  let dists ← squareDistances vectors centroids
  if dists.c = 0 then .error .valueError
  else return fun i => argmin (dists.e i) dists.c

/-- `EPSILON` (`/repo/multimodal/lib/vector_quantization.py:12`). -/
noncomputable def EPSILON : ℝ := 1 / 10 ^ 9

/-- `soft_associate` (`/repo/multimodal/lib/vector_quantization.py:36-48`). -/
noncomputable def softAssociate (vectors centroids : Mat) (alpha : ℝ) : Py Mat := do
  let dists ← squareDistances vectors centroids
  if dists.c = 0 then .error .valueError
  else
    let minDist := fun i => dists.e i (argmin (dists.e i) dists.c)
    let weights := fun i k => Real.exp (-alpha * dists.e i k / (EPSILON + minDist i))
    return ⟨dists.r, dists.c, fun i k => weights i k / ∑ l ∈ range dists.c, weights i l⟩

/-- `get_histos` (`/repo/multimodal/lib/vector_quantization.py:51-60`); `vq` gives the code of each
line.  A code which is not one of a centroid raises `IndexError`. -/
noncomputable def getHistos (vq : Mat → Mat → Py (ℕ → ℕ)) (x cb : Mat) (soft : Option ℝ) : Py Mat :=
  match soft with
  | none => do
    let c ← vq x cb
    if ∀ i ∈ List.range x.r, c i < cb.r then
      return ⟨x.r, cb.r, fun i k => if c i = k then 1 else 0⟩
    else .error .indexError
  | some alpha => softAssociate x cb alpha

/-! ## Histograms of angles and velocities -/

/-- `compact_examples` (`/repo/multimodal/features/angle_histograms.py:158-163`): arrays are lists of
lines, all with the same number of columns. -/
def compactExamples {V : Type} (x : List (List V)) : Py (List V × List ℕ) :=
  if x = [] then .error .valueError
  else .ok (x.flatten, ((x.map List.length).scanl (· + ·) 0).tail)

/-- `un_compact_examples` (`/repo/multimodal/features/angle_histograms.py:166-168`). -/
def unCompactExamples {V : Type} (v : List V) (idx : List ℕ) : List (List V) :=
  List.zipWith (fun i j : ℕ => pySlice v (i : ℤ) (j : ℤ)) ([0] ++ pyUpto idx (-1)) idx

/-- `db_to_angles_and_vels` (`/repo/multimodal/features/angle_histograms.py:75-79`), from the arrays of
angles of the records. -/
def dbToAnglesAndVels {d : ℕ} (angles : List (List (Fin d → ℚ))) (velDelay : ℤ) (velPadding : String) :
    Py (List (List (Fin d → ℚ)) × List (List (Fin d → ℚ))) := do
  let vels ← angles.mapM fun a => Utils.delayedVelocities velDelay a velPadding
  return (angles, vels)

/-- All values of a list of arrays. -/
def values {d : ℕ} (l : List (List (Fin d → ℚ))) : List ℚ :=
  l.flatten.flatMap fun x => List.ofFn x

/-- `get_bounds` (`/repo/multimodal/features/angle_histograms.py:82-85`): without values, `ValueError`. -/
def getBounds {d : ℕ} (l : List (List (Fin d → ℚ))) : Py (ℚ × ℚ) :=
  match values l with
  | [] => .error .valueError
  | x :: xs => .ok (xs.foldl min x, xs.foldl max x)

/-- `filter_values` (`/repo/multimodal/features/angle_histograms.py:88-94`): the values of the
`map`. -/
def filterValues {d : ℕ} (data : List (List (Fin d → ℚ))) (bounds : ℚ × ℚ) :
    List (List (Fin d → ℚ)) :=
  data.map fun a => a.map fun x => fun j => max (min (x j) bounds.2) bounds.1

/-- Bounds given or computed, and data cut to them or not
(`/repo/multimodal/features/angle_histograms.py:124-133`). -/
def boundsAndData {d : ℕ} (bounds : Option (ℚ × ℚ)) (data : List (List (Fin d → ℚ))) :
    Py ((ℚ × ℚ) × List (List (Fin d → ℚ))) :=
  match bounds with
  | none => do
    let b ← getBounds data
    return (b, data)
  | some b => .ok (b, filterValues data b)

/-- `db_to_binned_hist_matrix` (`/repo/multimodal/features/angle_histograms.py:97-155`).  `kde` gives
the flattened third value of `gaussian_kde_2d`. Iterators are used once each, so that they behave as
lists. -/
def dbToBinnedHistMatrix {d : ℕ} {R : Type}
    (kde : List (ℚ × ℚ) → ℚ → ℚ → ℕ → (ℚ × ℚ) × (ℚ × ℚ) → Bool → Py (List R))
    (angles : List (List (Fin d → ℚ))) (_velDelay : ℤ) (_velPadding : String) (nbBins : ℕ)
    (bounds velBounds : Option (ℚ × ℚ)) (relH : ℚ) (fft : Bool) : Py (List (List R)) := do
  let av ← dbToAnglesAndVels angles 1 "zeros"
  let ba ← boundsAndData bounds av.1
  let bv ← boundsAndData velBounds av.2
  let h := relH * (ba.1.2 - ba.1.1)
  let hVel := relH * (bv.1.2 - bv.1.1)
  let n := Nat.sqrt nbBins
  let rows ← (ba.2.zip bv.2).mapM fun x =>
    (List.finRange d).mapM fun dim =>
      kde (List.zipWith (fun a v : Fin d → ℚ => (a dim, v dim)) x.1 x.2) h hVel n
        ((ba.1.1, bv.1.1), (ba.1.2, bv.1.2)) fft
  let rows ← rows.mapM hstack1
  if rows = [] then .error .valueError
  else return rows

/-- What is left in `map(f, l)` after an iteration over it: in Python 3 nothing, while in Python 2 it
is a list. -/
def mapLeft {α : Type} (py3 : Bool) (l : List α) : List α := if py3 then [] else l

/-- `angles[0]` (`/repo/multimodal/features/angle_histograms.py:201`) raises `TypeError` on the `map`
object which `filter_values` returns in Python 3. -/
def checkIndexable (py3 : Bool) (bounds : Option (ℚ × ℚ)) : Py Unit :=
  if py3 ∧ bounds.isSome then .error .typeError else .ok ()

/-- Data cut to bounds, if given (`/repo/multimodal/features/angle_histograms.py:193-198`). -/
def cutTo {d : ℕ} (bounds : Option (ℚ × ℚ)) (l : List (List (Fin d → ℚ))) : List (List (Fin d → ℚ)) :=
  match bounds with
  | none => l
  | some b => filterValues l b

/-- `db_to_VQ_hist_matrix` (`/repo/multimodal/features/angle_histograms.py:171-223`), in Python 3 or
2.  `whiten`, `kmeans` and `histos` (`get_histos`) are parameters; `reshape` raises `ValueError` unless
there are `nb_bins` centroids, and `h.sum(axis=0)` is of arrays with as many columns. `swapaxes` raises
`ValueError` on an array without second axis.  The line of a record without frames, which numpy fills with
NaNs, is null here. -/
noncomputable def dbToVQHistMatrix {d : ℕ} (py3 : Bool)
    (whiten : List (ℚ × ℚ) → List (ℚ × ℚ)) (kmeans : List (ℚ × ℚ) → ℕ → Py (List (ℚ × ℚ)))
    (histos : List (ℚ × ℚ) → List (ℚ × ℚ) → Option ℝ → Py (List (List ℝ)))
    (angles : List (List (Fin d → ℚ))) (_velDelay : ℤ) (_velPadding : String) (nbBins : ℕ)
    (bounds velBounds : Option (ℚ × ℚ)) (soft : Option ℝ) : Py (List (List ℝ)) := do
  let av ← dbToAnglesAndVels angles 1 "zeros"
  checkIndexable py3 bounds
  let angles := cutTo bounds av.1
  let vels := cutTo velBounds av.2
  let _ ← pyGet angles 0
  -- in Python 3 bounded velocities are an iterator, empty after the first degree of freedom
  let velsFor := fun dof : Fin d =>
    if velBounds.isSome ∧ 0 < dof.val then mapLeft py3 vels else vels
  let data := (List.finRange d).map fun dof =>
    List.zipWith (fun a v => List.zipWith (fun x y : Fin d → ℚ => (x dof, y dof)) a v) angles
      (velsFor dof)
  let compacted ← data.mapM compactExamples
  let allData := compacted.map fun c => whiten c.1
  let compacted := mapLeft py3 compacted
  let centro ← allData.mapM fun x => kmeans x nbBins
  let hs ← (allData.zip centro).mapM fun p => histos p.1 p.2 soft
  let byEx := List.zipWith (fun h c => unCompactExamples h c.2) hs compacted
  let exHistos := byEx.map fun l => l.map fun h => (List.range nbBins).map fun k =>
    (h.map fun row => row.getD k 0).sum
  if exHistos = [] then .error .valueError
  else if ∃ c ∈ centro, c.length ≠ nbBins then .error .valueError
  else
    let X := (List.range angles.length).map fun i => exHistos.flatMap fun l => l.getD i []
    return X.map fun row => row.map fun x => x / row.sum

end Verif.Features
