import Verif.Geom.Model
import Mathlib.Algebra.BigOperators.Fin
import Mathlib.LinearAlgebra.Matrix.Determinant.Basic

/-!
# Model of `superimposition_matrix` (`multimodal/lib/transformations.py`)

The sets of vectors are arrays of shape (3, n), or (4, n) of which the last row is ignored; `v i` is the
column `i`.  `numpy.linalg.svd` and `numpy.linalg.eig` are parameters, of which the properties assume the contracts
`IsSvd` and `IsEig` for the matrix they are given.
-/

namespace Verif.Geom

open Verif Real Matrix
open Verif.Transf (Mat4 Quat EPS)

/-- `numpy.mean(v, axis=1)`. -/
noncomputable def mean3 {n : ℕ} (v : Fin n → P3) : P3 := fun k => (∑ i, v i k) / n

/-- `v - t.reshape(3, 1)` (`/repo/multimodal/lib/transformations.py:922-923`). -/
def moveTo {n : ℕ} (v : Fin n → P3) (t : P3) : Fin n → P3 := fun i k => v i k - t k

/-- `numpy.dot(v1, v0.T)`. -/
def covariance {n : ℕ} (v0 v1 : Fin n → P3) : Matrix (Fin 3) (Fin 3) ℝ :=
  Matrix.of fun a b => ∑ i, v1 i a * v0 i b

/-- The rotation of the singular value decomposition (`/repo/multimodal/lib/transformations.py:929-936`). The
change of `s`, which is not used afterwards, is left out. -/
noncomputable def svdRotation (u vh : Matrix (Fin 3) (Fin 3) ℝ) : Mat4 :=
  let R : Matrix (Fin 3) (Fin 3) ℝ := u * vh
  let R : Matrix (Fin 3) (Fin 3) ℝ := if R.det < 0 then R - Matrix.of fun a b => u a 2 * (vh 2 b * 2) else R
  affine R 0

/-- `numpy.sum(v0 * numpy.roll(v1, -k, axis=0), axis=1)[a]`: the products of the row `a` of `v0` with the row
`b = a + k` (modulo 3) of `v1`. -/
def products {n : ℕ} (v0 v1 : Fin n → P3) (a b : Fin 3) : ℝ := ∑ i, v0 i a * v1 i b

/-- `N` (`/repo/multimodal/lib/transformations.py:939-945`). -/
def hornMatrix {n : ℕ} (v0 v1 : Fin n → P3) : Mat4 :=
  let xx := products v0 v1 0 0
  let yy := products v0 v1 1 1
  let zz := products v0 v1 2 2
  let xy := products v0 v1 0 1
  let yz := products v0 v1 1 2
  let zx := products v0 v1 2 0
  let xz := products v0 v1 0 2
  let yx := products v0 v1 1 0
  let zy := products v0 v1 2 1
  !![xx + yy + zz, yz - zy, zx - xz, xy - yx;
    yz - zy, xx - yy - zz, xy + yx, zx + xz;
    zx - xz, xy + yx, -xx + yy - zz, yz + zy;
    xy - yx, zx + xz, yz + zy, -xx - yy + zz]

/-- `numpy.argmax` of four numbers: the first of the greatest. -/
noncomputable def argmax4 (l : Fin 4 → ℝ) : Fin 4 :=
  let k : Fin 4 := if l 1 > l 0 then 1 else 0
  let k := if l 2 > l k then 2 else k
  if l 3 > l k then 3 else k

/-- The rotation of the quaternion (`/repo/multimodal/lib/transformations.py:948-952`); NaN for a null vector. -/
noncomputable def hornRotation (l : Fin 4 → ℝ) (V : Mat4) : Option Mat4 := do
  let q ← unit4 fun a => V a (argmax4 l)
  return Transf.quatMatrix ![q 1, q 2, q 3, q 0]

/-- `numpy.sum(v * v)`. -/
def squares {n : ℕ} (v : Fin n → P3) : ℝ := ∑ i, dot3 (v i) (v i)

/-- The factor (`/repo/multimodal/lib/transformations.py:955-958`); dividing by zero gives NaN or an
infinite number. -/
noncomputable def superScale {n : ℕ} (v0 v1 : Fin n → P3) (scaling : Bool) : Option ℝ :=
  if scaling then
    if squares v0 = 0 then none else some √(squares v1 / squares v0)
  else some 1

/-- The end of the function (`/repo/multimodal/lib/transformations.py:958-965`): the first three rows and columns are
multiplied, the last column is set, and the translation is put on the right. -/
def superEnd (M : Mat4) (c : ℝ) (t0 t1 : P3) : Mat4 :=
  (!![M 0 0 * c, M 0 1 * c, M 0 2 * c, t1 0;
    M 1 0 * c, M 1 1 * c, M 1 2 * c, t1 1;
    M 2 0 * c, M 2 1 * c, M 2 2 * c, t1 2;
    M 3 0, M 3 1, M 3 2, M 3 3] : Mat4) * affine 1 fun k => -t0 k

/-- `superimposition_matrix` after the test (`/repo/multimodal/lib/transformations.py:919-965`). -/
noncomputable def superimpose {n : ℕ} (svd : Matrix (Fin 3) (Fin 3) ℝ →
      Matrix (Fin 3) (Fin 3) ℝ × P3 × Matrix (Fin 3) (Fin 3) ℝ) (eig : Mat4 → (Fin 4 → ℝ) × Mat4)
    (v0 v1 : Fin n → P3) (scaling usesvd : Bool) : Option Mat4 := do
  let t0 := mean3 v0
  let t1 := mean3 v1
  let v0 := moveTo v0 t0
  let v1 := moveTo v1 t1
  let M ← if usesvd then some (svdRotation (svd (covariance v0 v1)).1 (svd (covariance v0 v1)).2.2)
    else hornRotation (eig (hornMatrix v0 v1)).1 (eig (hornMatrix v0 v1)).2
  let c ← superScale v0 v1 scaling
  return superEnd M c t0 t1

/-- `superimposition_matrix` (`/repo/multimodal/lib/transformations.py:866-965`). -/
noncomputable def superimpositionMatrix {n0 n1 : ℕ} (svd : Matrix (Fin 3) (Fin 3) ℝ →
      Matrix (Fin 3) (Fin 3) ℝ × P3 × Matrix (Fin 3) (Fin 3) ℝ) (eig : Mat4 → (Fin 4 → ℝ) × Mat4)
    (v0 : Fin n0 → P3) (v1 : Fin n1 → P3) (scaling usesvd : Bool) : Py (Option Mat4) :=
  if h : n0 ≠ n1 ∨ n0 < 3 then .error .valueError
  else .ok (superimpose svd eig v0 (fun i => v1 (Fin.cast (by tauto) i)) scaling usesvd)

/-- The contract of `numpy.linalg.svd`. -/
structure IsSvd (A u : Matrix (Fin 3) (Fin 3) ℝ) (s : P3) (vh : Matrix (Fin 3) (Fin 3) ℝ) : Prop where
  product : A = u * Matrix.diagonal s * vh
  left : uᵀ * u = 1
  right : vh * vhᵀ = 1
  sorted : s 1 ≤ s 0 ∧ s 2 ≤ s 1
  nonneg : 0 ≤ s 2

/-- The contract of `numpy.linalg.eig`, of a real symmetric matrix: the columns are eigenvectors of norm one,
and all eigenvalues are there. -/
structure IsEig (N : Mat4) (l : Fin 4 → ℝ) (V : Mat4) : Prop where
  vector : ∀ k, N *ᵥ (fun a => V a k) = l k • fun a => V a k
  unit : ∀ k, Transf.dot4 (fun a => V a k) (fun a => V a k) = 1
  all : ∀ (x : Fin 4 → ℝ) (μ : ℝ), x ≠ 0 → N *ᵥ x = μ • x → ∃ k, l k = μ

end Verif.Geom
