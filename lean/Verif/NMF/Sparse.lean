import Verif.NMF.Model

/-!
# Model of `multimodal/lib/nmf.py` on stored sparse matrices

In `Verif.NMF.Model` sparse data are a matrix.  Here they are what `scipy.sparse` stores: rows of entries in any order,
maybe several at the same place, maybe zeros.  Operations of `scipy.sparse` are modelled entry by entry.
-/

namespace Verif.NMF

open Finset

/-- A `csr_matrix`: the stored entries of each row, as columns and values, in the order of `indices` and `data`. -/
structure Csr where
  r : ℕ
  c : ℕ
  rows : List (List (ℕ × ℝ))

/-- `X.data`. -/
def Csr.data (x : Csr) : List ℝ := x.rows.flatten.map Prod.snd

open Classical in
/-- `X.eliminate_zeros()`, which changes `X`. -/
noncomputable def Csr.eliminateZeros (x : Csr) : Csr :=
  { x with rows := x.rows.map fun row => row.filter fun p => p.2 ≠ 0 }

/-- The entries `(i, j, v)` of rows from number `n`, as in `X.tocoo()`. -/
def entriesFrom : ℕ → List (List (ℕ × ℝ)) → List (ℕ × ℕ × ℝ)
  | _, [] => []
  | n, row :: rows => row.map (fun p => (n, p.1, p.2)) ++ entriesFrom (n + 1) rows

open Classical in
/-- `X.nonzero()`: the places of entries which are not zero. -/
noncomputable def Csr.nonzero (x : Csr) : List (ℕ × ℕ) :=
  ((entriesFrom 0 x.rows).filter fun e => e.2.2 ≠ 0).map fun e => (e.1, e.2.1)

/-- An entry in a row with sorted columns: it is added to the one of the same column. -/
noncomputable def addEntry (j : ℕ) (v : ℝ) : List (ℕ × ℝ) → List (ℕ × ℝ)
  | [] => [(j, v)]
  | (k, w) :: row =>
    if j < k then (j, v) :: (k, w) :: row else if j = k then (k, w + v) :: row else (k, w) :: addEntry j v row

/-- `sp.coo_matrix((v, (ii, jj)), shape=(r, c)).tocsr()`: columns of rows are sorted and entries at the same place are
added. -/
noncomputable def cooToCsr (r c : ℕ) (es : List (ℕ × ℕ × ℝ)) : Csr :=
  ⟨r, c, (List.range r).map fun i => (es.filter fun e => e.1 = i).foldl (fun row e => addEntry e.2.1 e.2.2 row) []⟩

/-- `_special_sparse_dot` (`/repo/multimodal/lib/nmf.py:52-70`) for matrices whose dimensions agree: the reference matrix,
which has changed, and the result. -/
noncomputable def specialDot (a b : Mat) (x : Csr) : Csr × Csr :=
  let y := x.eliminateZeros
  (y, cooToCsr y.r y.c (y.nonzero.map fun p => (p.1, p.2, ∑ k ∈ range a.c, a.e p.1 k * b.e k p.2)))

/-- An operation of `numpy` on two arrays with one dimension: one with a single value is broadcast. -/
noncomputable def broadcast (f : ℝ → ℝ → ℝ) (a b : List ℝ) : Py (List ℝ) :=
  if a.length = b.length then .ok (List.zipWith f a b)
  else match a, b with
    | [x], b => .ok (b.map (f x))
    | a, [y] => .ok (a.map fun x => f x y)
    | _, _ => .error .valueError

/-- Rows with the same columns whose values are those of an array, in order; more values than entries are not used. -/
def setData : List (List (ℕ × ℝ)) → List ℝ → List (List (ℕ × ℝ))
  | [], _ => []
  | row :: rows, d => (row.map Prod.fst).zip (d.take row.length) :: setData rows (d.drop row.length)

/-- `_Q` (`/repo/multimodal/lib/nmf.py:325-334`) on a sparse matrix: the matrix, which has changed, and the result. -/
noncomputable def csrQ (X : Csr) (W H : Mat) (eps : ℝ) : Py (Csr × Csr) := do
  let s := specialDot W H X
  let d ← broadcast (fun x wh => (x + eps) / (wh + eps)) s.1.data s.2.data
  return (s.1, ⟨s.2.r, s.2.c, setData s.2.rows d⟩)

/-- `error` (`/repo/multimodal/lib/nmf.py:297-308`) on a sparse matrix. -/
noncomputable def csrError (X : Csr) (W H : Mat) (_weights : ℝ) : Py (Csr × ℝ) := do
  let s := specialDot W H X
  let whSum := ∑ k ∈ range W.c, (∑ i ∈ range W.r, W.e i k) * ∑ j ∈ range H.c, H.e k j
  let q ← broadcast (fun x wh => Real.log ((x + EPS) / (wh + EPS))) s.1.data s.2.data
  let t ← broadcast (fun x l => x * l) s.1.data q
  return (s.1, t.sum - s.1.data.sum + whSum)

/-- The product of a sparse matrix and an array, `safe_sparse_dot(X, B)` (`/repo/multimodal/lib/sklearn_utils.py:102-110`). -/
noncomputable def csrDot (X : Csr) (B : Mat) : Mat :=
  ⟨X.r, B.c, fun i k => (((X.rows[i]?).getD []).map fun p => p.2 * B.e p.1 k).sum⟩

/-- The product of an array and a sparse matrix, `safe_sparse_dot(A, X)` (`/repo/multimodal/lib/sklearn_utils.py:102-110`). -/
noncomputable def dotCsr (A : Mat) (X : Csr) : Mat :=
  ⟨A.r, X.c, fun k j => (((entriesFrom 0 X.rows).filter fun e => e.2.1 = j).map fun e => A.e k e.1 * e.2.2).sum⟩

/-- `_update` (`/repo/multimodal/lib/nmf.py:232-257`) with `scale_W=False` on a sparse matrix. -/
noncomputable def csrUpdate (X : Csr) (W H : Mat) (fit : Bool) : Py (Csr × Mat × Mat) := do
  let q ← csrQ X W H EPS
  let W' := mul W (csrDot q.2 H.T)
  return (q.1, W', if fit then normalizeSum1 (mul H (dotCsr W'.T q.2)) else H)

open Classical in
/-- The loop of `fit_transform` (`/repo/multimodal/lib/nmf.py:212-222`) on a sparse matrix. -/
noncomputable def csrLoop (fit : Bool) (tol weights : ℝ) : ℕ → ℕ → Option ℝ → Csr → Mat → Mat → List ℝ → Py Loop
  | 0, n, _, _, W, H, errs => .ok ⟨W, H, errs, n - 1⟩
  | left + 1, n, prev, X, W, H, errs => do
    let err ← csrError X W H weights
    if stop prev err.2 tol then return ⟨W, H, errs, n⟩
    else
      let u ← csrUpdate err.1 W H fit
      csrLoop fit tol weights left (n + 1) (some err.2) u.1 u.2.1 u.2.2 (errs ++ [err.2])

open Classical in
/-- `check_non_negative` (`/repo/multimodal/lib/nmf.py:23-26`) on a sparse matrix. -/
noncomputable def csrNonNegative (X : Csr) : Py Unit :=
  if ∃ v ∈ X.data, v < 0 then .error .valueError else .ok ()

/-- `_init` (`/repo/multimodal/lib/nmf.py:147-157`) on a sparse matrix. -/
noncomputable def csrInit (k : ℕ) (d : Option Mat) (X : Csr) (rnd : ℕ → ℕ → ℝ) : Py (Mat × Mat) :=
  match d with
  | none =>
    let H := normalizeSum1 ⟨k, X.c, fun i j => |rnd i j| + 1 / 100⟩
    .ok (csrDot X H.T, H)
  | some H => if H.r = k ∧ H.c = X.c then .ok (csrDot X H.T, H) else .error .assertionError

open Classical in
/-- `fit_transform` (`/repo/multimodal/lib/nmf.py:159-230`) on a sparse matrix, as in `fitTransform`.  When an iteration
raises an exception the components are not tracked: they are those of the state before the loop. -/
noncomputable def csrFitTransform (s : Nmf) (X : Csr) (rnd : ℕ → ℕ → ℝ) (fit : Bool) (weights : ℝ)
    (_scaleW : Bool) : Nmf × Py Result :=
  match csrNonNegative X with
  | .error e => (s, .error e)
  | .ok _ =>
    let k := setComponents s.nComponents X.c
    let s := { s with nComponents := some k }
    match csrInit k s.initDictionary X rnd with
    | .error e => (s, .error e)
    | .ok (W, H) =>
      let s := if fit then { s with components := some H } else s
      match s.components with
      | none => (s, .error .attributeError)
      | some comps =>
        let tol := s.tol * X.r * X.c
        if s.maxIter = 0 then (s, .error .unboundLocalError)
        else
          match csrLoop fit tol weights s.maxIter 1 none X W comps [] with
          | .error e => (s, .error e)
          | .ok l =>
            let s := if fit then { s with components := some l.H } else s
            (s, .ok ⟨l.W, l.errors, decide (l.nIter = s.maxIter ∧ 0 < tol)⟩)

end Verif.NMF
