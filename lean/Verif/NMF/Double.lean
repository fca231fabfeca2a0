import Verif.Py
import Verif.Window.Float

/-!
# The factorization with doubles

`multimodal/lib/nmf.py` with numbers as computed: each operation is rounded to the nearest double and a result which is too
large for doubles, or is divided by zero, is not finite.  Numbers which are not finite (infinities and NaN) are all
represented by `none`, which is kept by every operation: `C197` shows that they do not appear.  Libraries are free to
choose the order of the additions of sums and of matrix products, to fuse products with additions, and to skip products
with zero.
-/

namespace Verif.NMF.D

open Verif.Window (dbl)

/-- A double, or `none` for infinities and NaN. -/
abbrev Num := Option ℚ

/-- The operations of the processor: how results are rounded, and the logarithm of numpy. -/
structure Arith where
  fin : ℚ → Num
  lg : ℚ → Num

/-- The result of an operation on doubles. -/
def finite (x : ℚ) : Num := if |dbl x| < 2 ^ 1024 then some (dbl x) else none

variable (A : Arith)

/-- `a + b`. -/
def add (a b : Num) : Num := do
  let x ← a
  let y ← b
  A.fin (x + y)

/-- `a - b`. -/
def sub (a b : Num) : Num := do
  let x ← a
  let y ← b
  A.fin (x - y)

/-- `a * b`. -/
def times (a b : Num) : Num := do
  let x ← a
  let y ← b
  A.fin (x * y)

/-- `a / b` (numpy gives an infinity or NaN when `b` is zero). -/
def divide (a b : Num) : Num := do
  let x ← a
  let y ← b
  if y = 0 then none else A.fin (x / y)

/-- `np.log(a)`, which is not finite except for positive numbers. -/
def log (a : Num) : Num := do
  let x ← a
  if 0 < x then A.lg x else none

/-- The order in which products are added: `fma` rounds the sum of a product with what comes before only once. -/
inductive Plan
  | zero
  | term (k : ℕ)
  | plus (p q : Plan)
  | fma (p : Plan) (k : ℕ)

/-- The indices of the products which are added. -/
def Plan.leaves : Plan → List ℕ
  | .zero => []
  | .term k => [k]
  | .plus p q => p.leaves ++ q.leaves
  | .fma p k => p.leaves ++ [k]

/-- The sum of products `a k * b k` in the given order. -/
def Plan.eval (a b : ℕ → Num) : Plan → Num
  | .zero => some 0
  | .term k => times A (a k) (b k)
  | .plus p q => add A (p.eval a b) (q.eval a b)
  | .fma p k => do
    let s ← p.eval a b
    let x ← a k
    let y ← b k
    A.fin (s + x * y)

/-- The plan adds each of the `n` products once, except that products with zero may be skipped. -/
def Plan.Covers (p : Plan) (n : ℕ) (a b : ℕ → Num) : Prop :=
  p.leaves.Nodup ∧ (∀ k ∈ p.leaves, k < n) ∧ ∀ k < n, k ∉ p.leaves → a k = some 0 ∨ b k = some 0

/-- A matrix. -/
structure Mat where
  r : ℕ
  c : ℕ
  e : ℕ → ℕ → Num

/-- `M.T`. -/
def Mat.T (M : Mat) : Mat := ⟨M.c, M.r, fun i j => M.e j i⟩

/-- Factors of sums: numbers are added as products with 1, which are exact. -/
def ones : ℕ → Num := fun _ => some 1

/-- The entries of a matrix, line after line. -/
def Mat.flat (M : Mat) : ℕ → Num := fun t => M.e (t / M.c) (t % M.c)

/-- The orders of additions chosen by libraries, for each matrix product, and for each sum along a line or a column or of a
whole matrix. -/
structure Order where
  dot : Mat → Mat → ℕ → ℕ → Plan
  line : Mat → ℕ → Plan
  col : Mat → ℕ → Plan
  all : Mat → Plan

/-- Libraries compute sums and products of matrices. -/
structure Order.Ok (o : Order) : Prop where
  dot : ∀ M N i j, (o.dot M N i j).Covers M.c (M.e i) fun k => N.e k j
  line : ∀ M i, (o.line M i).Covers M.c (M.e i) ones
  col : ∀ M j, (o.col M j).Covers M.r (fun i => M.e i j) ones
  all : ∀ M, (o.all M).Covers (M.r * M.c) M.flat ones

variable (o : Order)

/-- `np.dot(M, N)`, `safe_sparse_dot(M, N)` (`/repo/multimodal/lib/sklearn_utils.py:102-110`) and the products of
`_special_sparse_dot` (`/repo/multimodal/lib/nmf.py:68`). -/
def dot (M N : Mat) : Mat := ⟨M.r, N.c, fun i j => (o.dot M N i j).eval A (M.e i) fun k => N.e k j⟩

/-- `np.multiply(M, N)`. -/
def mul (M N : Mat) : Mat := ⟨M.r, M.c, fun i j => times A (M.e i j) (N.e i j)⟩

/-- The sum of a line. -/
def sumLine (M : Mat) (i : ℕ) : Num := (o.line M i).eval A (M.e i) ones

/-- The sum of a column. -/
def sumCol (M : Mat) (j : ℕ) : Num := (o.col M j).eval A (fun i => M.e i j) ones

/-- The sum of all entries. -/
def sumAll (M : Mat) : Num := (o.all M).eval A M.flat ones

/-- `normalize_sum(H, axis=1)` (`/repo/multimodal/lib/array_utils.py:19-22`). -/
def normalizeSum1 (H : Mat) : Mat :=
  ⟨H.r, H.c, fun k j => divide A (H.e k j) (add A (A.fin (1 / 10 ^ 16)) (sumLine A o H k))⟩

/-- Data: `sparse` tells whether `sp.issparse` is true; then zeros are not stored. -/
structure Data where
  sparse : Bool
  mat : Mat

/-- The default `eps` of the methods. -/
def EPS : Num := A.fin (1 / 10 ^ 8)

/-- `(X + eps) / (WH + eps)`. -/
def ratio (x wh : Num) : Num := divide A (add A x (EPS A)) (add A wh (EPS A))

/-- `_Q` (`/repo/multimodal/lib/nmf.py:325-336`), with the default `eps`. -/
def Q (X : Data) (W H : Mat) : Mat :=
  ⟨X.mat.r, X.mat.c, fun i j =>
    if X.sparse = true ∧ X.mat.e i j = some 0 then some 0 else ratio A (X.mat.e i j) ((dot A o W H).e i j)⟩

/-- `_updated_W` (`/repo/multimodal/lib/nmf.py:338-343`) given `Q`. -/
def updatedW (W H q : Mat) : Mat := mul A W (dot A o q H.T)

/-- `_updated_H` (`/repo/multimodal/lib/nmf.py:345-351`) given `Q`. -/
def updatedH (W H q : Mat) : Mat := normalizeSum1 A o (mul A H (dot A o W.T q))

/-- `_update` (`/repo/multimodal/lib/nmf.py:232-257`) with `scale_W=False`, as called by `fit_transform`: new coefficients
and components. -/
def update (X : Data) (W H : Mat) (fit : Bool) : Mat × Mat :=
  let q := Q A o X W H
  let W' := updatedW A o W H q
  (W', if fit then updatedH A o W' H q else H)

/-- The terms of the error for dense data: `generalized_KL` (`/repo/multimodal/lib/metrics.py:17-19`) before the sum. -/
def klTerms (X : Data) (W H : Mat) : Mat :=
  ⟨X.mat.r, X.mat.c, fun i j =>
    let x := X.mat.e i j
    let wh := (dot A o W H).e i j
    add A (sub A (times A x (log A (ratio A x wh))) x) wh⟩

/-- The terms `X.data * log((X.data + eps) / (WH.data + eps))` of the error for sparse data
(`/repo/multimodal/lib/nmf.py:305-308`); entries which are not stored are zeros, which may be skipped by the sum. -/
def logTerms (X : Data) (W H : Mat) : Mat :=
  ⟨X.mat.r, X.mat.c, fun i j =>
    let x := X.mat.e i j
    if x = some 0 then some 0 else times A x (log A (ratio A x ((dot A o W H).e i j)))⟩

/-- The products of sums of the columns of coefficients and of the lines of components
(`/repo/multimodal/lib/nmf.py:304`), as a matrix with one line. -/
def sumTerms (W H : Mat) : Mat := ⟨1, W.c, fun _ k => times A (sumCol A o W k) (sumLine A o H k)⟩

/-- `error` (`/repo/multimodal/lib/nmf.py:297-310`); weights are not used by the code. -/
def error (X : Data) (W H : Mat) : Num :=
  if X.sparse then
    add A (sub A (sumAll A o (logTerms A o X W H)) (sumAll A o X.mat)) (sumAll A o (sumTerms A o W H))
  else sumAll A o (klTerms A o X W H)

/-- Attributes of a `KLdivNMF` (`/repo/multimodal/lib/nmf.py:136-145`). -/
structure Nmf where
  nComponents : Option ℕ
  initDictionary : Option Mat
  tol : ℚ
  maxIter : ℕ
  components : Option Mat

/-- `_init` (`/repo/multimodal/lib/nmf.py:147-157`); `rnd` gives the random numbers. -/
def init (k : ℕ) (d : Option Mat) (X : Data) (rnd : ℕ → ℕ → ℚ) : Py (Mat × Mat) :=
  match d with
  | none =>
    let H := normalizeSum1 A o ⟨k, X.mat.c, fun i j => add A (some |rnd i j|) (A.fin (1 / 100))⟩
    .ok (dot A o X.mat H.T, H)
  | some H =>
    if H.r = k ∧ H.c = X.mat.c then .ok (dot A o X.mat H.T, H) else .error .assertionError

/-- The result of the loop: coefficients, components, errors and the value of `n_iter`. -/
structure Loop where
  W : Mat
  H : Mat
  errors : List Num
  nIter : ℕ

/-- `prev_error - error < tol` (`/repo/multimodal/lib/nmf.py:215`); `prev` is `none` for the infinite initial value.
Comparisons with NaN are false (and those of infinities, which do not appear, are not distinguished from them). -/
def stop (prev : Option Num) (err tol : Num) : Bool :=
  match prev with
  | none => false
  | some p =>
    match sub A p err, tol with
    | some d, some t => decide (d < t)
    | _, _ => false

/-- The loop of `fit_transform` (`/repo/multimodal/lib/nmf.py:212-222`) from iteration `n`, with `left` iterations left. -/
def loop (X : Data) (fit : Bool) (tol : Num) : ℕ → ℕ → Option Num → Mat → Mat → List Num → Loop
  | 0, n, _, W, H, errs => ⟨W, H, errs, n - 1⟩
  | left + 1, n, prev, W, H, errs =>
    let err := error A o X W H
    if stop A prev err tol then ⟨W, H, errs, n⟩
    else
      let u := update A o X W H fit
      loop X fit tol left (n + 1) (some err) u.1 u.2 (errs ++ [err])

/-- What `fit_transform` returns, and whether it writes a warning. -/
structure Result where
  W : Mat
  errors : List Num
  warned : Bool

/-- `if not self.n_components: self.n_components = n_features` (`/repo/multimodal/lib/nmf.py:198-199`). -/
def setComponents (n : Option ℕ) (nFeatures : ℕ) : ℕ :=
  match n with
  | none => nFeatures
  | some k => if k = 0 then nFeatures else k

/-- `self.tol * n_samples * n_features` (`/repo/multimodal/lib/nmf.py:207`). -/
def tolerance (tol : ℚ) (r c : ℕ) : Num := times A (times A (some tol) (A.fin r)) (A.fin c)

/-- `fit_transform` (`/repo/multimodal/lib/nmf.py:159-230`), for `_fit=True` and for `_fit=False` as called by `transform`.
Data which are not finite are refused by `atleast2d_or_csr` (`/repo/multimodal/lib/sklearn_utils.py:59-69,83-98`), those with a
negative number by `check_non_negative` (`/repo/multimodal/lib/nmf.py:23-26`). -/
def fitTransform (s : Nmf) (X : Data) (rnd : ℕ → ℕ → ℚ) (fit : Bool) : Nmf × Py Result :=
  if ∃ i < X.mat.r, ∃ j < X.mat.c, (X.mat.e i j).isNone then (s, .error .valueError)
  else if ∃ i < X.mat.r, ∃ j < X.mat.c, (X.mat.e i j).any (· < 0) then (s, .error .valueError)
  else
    let k := setComponents s.nComponents X.mat.c
    let s := { s with nComponents := some k }
    match init A o k s.initDictionary X rnd with
    | .error e => (s, .error e)
    | .ok (W, H) =>
      let s := if fit then { s with components := some H } else s
      match s.components with
      | none => (s, .error .attributeError)
      | some comps =>
        let tol := tolerance A s.tol X.mat.r X.mat.c
        if s.maxIter = 0 then (s, .error .unboundLocalError)
        else
          let l := loop A o X fit tol s.maxIter 1 none W comps []
          let s := if fit then { s with components := some l.H } else s
          (s, .ok ⟨l.W, l.errors, decide (l.nIter = s.maxIter) && tol.any (0 < ·)⟩)

/-- `fit` (`/repo/multimodal/lib/nmf.py:259-273`). -/
def fit (s : Nmf) (X : Data) (rnd : ℕ → ℕ → ℚ) : Nmf × Py Unit :=
  let r := fitTransform A o s X rnd true
  (r.1, r.2.map fun _ => ())

/-- `transform` (`/repo/multimodal/lib/nmf.py:275-291`). -/
def transform (s : Nmf) (X : Data) (rnd : ℕ → ℕ → ℚ) : Nmf × Py Result :=
  match s.components with
  | none => (s, .error .attributeError)
  | some H => fitTransform A o { s with initDictionary := some H } X rnd false

end Verif.NMF.D
