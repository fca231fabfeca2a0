import Verif.Py
import Verif.Metrics.Model
import Mathlib.Algebra.BigOperators.Intervals

/-!
# Model of `multimodal/lib/nmf.py`

Floats are real numbers.  A matrix has two dimensions and a function giving its entries; what the
function gives outside of the dimensions is never used.  Data are a matrix and a flag telling
whether it is sparse: what is stored for sparse matrices is modelled in `Verif.NMF.Sparse` (C191).  Overflow and values
which are not finite are modelled in `Verif.NMF.Double` (C197).
-/

namespace Verif.NMF

open Finset

/-- A matrix. -/
structure Mat where
  r : ℕ
  c : ℕ
  e : ℕ → ℕ → ℝ

/-- Same dimensions and same entries. -/
def Mat.Same (A B : Mat) : Prop := A.r = B.r ∧ A.c = B.c ∧ ∀ i < A.r, ∀ j < A.c, A.e i j = B.e i j

/-- `np.dot(A, B)` for matrices whose dimensions agree. -/
noncomputable def dot (A B : Mat) : Mat := ⟨A.r, B.c, fun i j => ∑ k ∈ range A.c, A.e i k * B.e k j⟩

/-- `A.T`. -/
def Mat.T (A : Mat) : Mat := ⟨A.c, A.r, fun i j => A.e j i⟩

/-- `np.multiply(A, B)`. -/
def mul (A B : Mat) : Mat := ⟨A.r, A.c, fun i j => A.e i j * B.e i j⟩

/-- Data: `sparse` tells whether `sp.issparse` is true. -/
structure Data where
  sparse : Bool
  mat : Mat

open Classical in
/-- `check_non_negative` (`/repo/multimodal/lib/nmf.py:23-26`). -/
noncomputable def checkNonNegative (X : Data) : Py Unit :=
  if ∃ i < X.mat.r, ∃ j < X.mat.c, X.mat.e i j < 0 then .error .valueError else .ok ()

/-- `normalize_sum(H, axis=1)` (`/repo/multimodal/lib/array_utils.py:19-22`). -/
noncomputable def normalizeSum1 (H : Mat) : Mat :=
  ⟨H.r, H.c, fun k j => H.e k j / (1 / 10 ^ 16 + ∑ l ∈ range H.c, H.e k l)⟩

/-- `_scale` (`/repo/multimodal/lib/nmf.py:29-49`) of a matrix with factors of length `n`: `squeeze`
makes a single factor a scalar, which has no axis to index; a matrix with a single line (or column)
is broadcast. -/
noncomputable def scale1 (A : Mat) (n : ℕ) (f : ℕ → ℝ) (axis : ℕ) : Py Mat :=
  if axis ≠ 0 ∧ axis ≠ 1 then .error .valueError
  else if axis = 1 then
    if n = 1 then .error .indexError
    else if n = A.r then .ok ⟨A.r, A.c, fun i j => A.e i j * f i⟩
    else if A.r = 1 then .ok ⟨n, A.c, fun i j => A.e 0 j * f i⟩
    else .error .valueError
  else
    if n = 1 then .ok ⟨A.r, A.c, fun i j => A.e i j * f 0⟩
    else if n = A.c then .ok ⟨A.r, A.c, fun i j => A.e i j * f j⟩
    else if A.c = 1 then .ok ⟨A.r, n, fun i j => A.e i 0 * f j⟩
    else .error .valueError

/-- `KLdivNMF.scale` (`/repo/multimodal/lib/nmf.py:314-321`); `eps` is the attribute. -/
noncomputable def scale (eps : ℝ) (W H : Mat) (n : ℕ) (factors : ℕ → ℝ) : Py (Mat × Mat) := do
  let safe := fun k => factors k + eps
  let sW ← scale1 W n safe 0
  let sH ← scale1 H n (fun k => 1 / safe k) 1
  return (sW, sH)

/-- The default `eps` of the methods. -/
noncomputable def EPS : ℝ := 1 / 10 ^ 8

open Classical in
/-- `_Q` (`/repo/multimodal/lib/nmf.py:325-336`), with `_special_sparse_dot`
(`/repo/multimodal/lib/nmf.py:52-70`) for sparse data. -/
noncomputable def Q (X : Data) (W H : Mat) (eps : ℝ) : Mat :=
  ⟨X.mat.r, X.mat.c, fun i j =>
    if X.sparse then
      if X.mat.e i j ≠ 0 then (X.mat.e i j + eps) / ((dot W H).e i j + eps) else 0
    else (X.mat.e i j + eps) / ((dot W H).e i j + eps)⟩

/-- `_updated_W` (`/repo/multimodal/lib/nmf.py:338-343`) given `Q`. -/
noncomputable def updatedW (W H q : Mat) : Mat := mul W (dot q H.T)

/-- `_updated_H` (`/repo/multimodal/lib/nmf.py:345-351`) given `Q`. -/
noncomputable def updatedH (W H q : Mat) : Mat := normalizeSum1 (mul H (dot W.T q))

/-- `_update` (`/repo/multimodal/lib/nmf.py:232-257`) with `scale_W=False`, as called by
`fit_transform`: new coefficients and components. -/
noncomputable def update (X : Data) (W H : Mat) (fit : Bool) : Mat × Mat :=
  let q := Q X W H EPS
  let W' := updatedW W H q
  (W', if fit then updatedH W' H q else H)

open Classical in
/-- `error` (`/repo/multimodal/lib/nmf.py:297-310`); `weights` is not used by the code. -/
noncomputable def error (X : Data) (W H : Mat) (_weights : ℝ) : ℝ :=
  if X.sparse then
    (∑ i ∈ range X.mat.r, ∑ j ∈ range X.mat.c, if X.mat.e i j ≠ 0 then
      X.mat.e i j * Real.log ((X.mat.e i j + EPS) / ((dot W H).e i j + EPS)) else 0)
    - (∑ i ∈ range X.mat.r, ∑ j ∈ range X.mat.c, if X.mat.e i j ≠ 0 then X.mat.e i j else 0)
    + ∑ k ∈ range W.c, (∑ i ∈ range W.r, W.e i k) * ∑ j ∈ range H.c, H.e k j
  else
    ∑ i ∈ range X.mat.r, ∑ j ∈ range X.mat.c,
      (X.mat.e i j * Real.log ((X.mat.e i j + EPS) / ((dot W H).e i j + EPS))
        - X.mat.e i j + (dot W H).e i j)

/-- Attributes of a `KLdivNMF` (`/repo/multimodal/lib/nmf.py:136-145`); `components` is `none` before
it is assigned. -/
structure Nmf where
  nComponents : Option ℕ
  initDictionary : Option Mat
  tol : ℝ
  maxIter : ℕ
  components : Option Mat

/-- `_init` (`/repo/multimodal/lib/nmf.py:147-157`); `rnd` gives the random numbers. -/
noncomputable def init (k : ℕ) (d : Option Mat) (X : Data) (rnd : ℕ → ℕ → ℝ) : Py (Mat × Mat) :=
  match d with
  | none =>
    let H := normalizeSum1 ⟨k, X.mat.c, fun i j => |rnd i j| + 1 / 100⟩
    .ok (dot X.mat H.T, H)
  | some H =>
    if H.r = k ∧ H.c = X.mat.c then .ok (dot X.mat H.T, H) else .error .assertionError

/-- The result of the loop: coefficients, components, errors and the value of `n_iter`. -/
structure Loop where
  W : Mat
  H : Mat
  errors : List ℝ
  nIter : ℕ

/-- `prev_error - error < tol` (`/repo/multimodal/lib/nmf.py:215`); `prev` is `none` for the infinite
initial value. -/
def stop (prev : Option ℝ) (err tol : ℝ) : Prop := ∃ p, prev = some p ∧ p - err < tol

open Classical in
/-- The loop of `fit_transform` (`/repo/multimodal/lib/nmf.py:212-222`) from iteration `n`, with
`left` iterations left. -/
noncomputable def loop (X : Data) (fit : Bool) (tol weights : ℝ) : ℕ → ℕ → Option ℝ → Mat → Mat →
    List ℝ → Loop
  | 0, n, _, W, H, errs => ⟨W, H, errs, n - 1⟩
  | left + 1, n, prev, W, H, errs =>
    let err := error X W H weights
    if stop prev err tol then ⟨W, H, errs, n⟩
    else
      let u := update X W H fit
      loop X fit tol weights left (n + 1) (some err) u.1 u.2 (errs ++ [err])

/-- What `fit_transform` returns, and whether it writes a warning. -/
structure Result where
  W : Mat
  errors : List ℝ
  warned : Bool

/-- `if not self.n_components: self.n_components = n_features`
(`/repo/multimodal/lib/nmf.py:198-199`). -/
def setComponents (n : Option ℕ) (nFeatures : ℕ) : ℕ :=
  match n with
  | none => nFeatures
  | some k => if k = 0 then nFeatures else k

open Classical in
/-- `fit_transform` (`/repo/multimodal/lib/nmf.py:159-230`), for `_fit=True` and for `_fit=False` as
called by `transform`: then the components are those of `_init_dictionary`. -/
noncomputable def fitTransform (s : Nmf) (X : Data) (rnd : ℕ → ℕ → ℝ) (fit : Bool) (weights : ℝ)
    (_scaleW : Bool) : Nmf × Py Result :=
  match checkNonNegative X with
  | .error e => (s, .error e)
  | .ok _ =>
    let k := setComponents s.nComponents X.mat.c
    let s := { s with nComponents := some k }
    match init k s.initDictionary X rnd with
    | .error e => (s, .error e)
    | .ok (W, H) =>
      let s := if fit then { s with components := some H } else s
      match s.components with
      | none => (s, .error .attributeError)
      | some comps =>
        let tol := s.tol * X.mat.r * X.mat.c
        if s.maxIter = 0 then (s, .error .unboundLocalError)
        else
          let l := loop X fit tol weights s.maxIter 1 none W comps []
          let s := if fit then { s with components := some l.H } else s
          (s, .ok ⟨l.W, l.errors, decide (l.nIter = s.maxIter ∧ 0 < tol)⟩)

/-- `fit` (`/repo/multimodal/lib/nmf.py:259-273`). -/
noncomputable def fit (s : Nmf) (X : Data) (rnd : ℕ → ℕ → ℝ) (weights : ℝ) (scaleW : Bool) :
    Nmf × Py Unit :=
  let r := fitTransform s X rnd true weights scaleW
  (r.1, r.2.map fun _ => ())

/-- `transform` (`/repo/multimodal/lib/nmf.py:275-291`). -/
noncomputable def transform (s : Nmf) (X : Data) (rnd : ℕ → ℕ → ℝ) (weights : ℝ) (scaleW : Bool) :
    Nmf × Py Result :=
  match s.components with
  | none => (s, .error .attributeError)
  | some H => fitTransform { s with initDictionary := some H } X rnd false weights scaleW

end Verif.NMF
