import Verif.Geom.Model
import Mathlib.LinearAlgebra.Matrix.NonsingularInverse

/-!
# Model of `decompose_matrix` and `compose_matrix` (`multimodal/lib/transformations.py`)
-/

namespace Verif.Geom

open Verif Real Matrix
open Verif.Transf (Mat4 Quat EPS atan2)

/-- The result of `decompose_matrix`. -/
structure Parts where
  /-- `scale`. -/
  scale : P3
  /-- `shear`: for the x-y, x-z and y-z axes. -/
  shear : P3
  /-- `angles`: about the static x, y and z axes. -/
  angles : P3
  /-- `translate`. -/
  translate : P3
  /-- `perspective`. -/
  perspective : Fin 4 → ℝ

/-- The variables `scale`, `shear` and `row`. -/
structure Rows where
  /-- `scale`. -/
  scale : P3
  /-- `shear`. -/
  shear : P3
  /-- `row[0]`. -/
  row0 : P3
  /-- `row[1]`. -/
  row1 : P3
  /-- `row[2]`. -/
  row2 : P3

/-- The orthonormalisation of `decompose_matrix` (`/repo/multimodal/lib/transformations.py:753-767`). The
norms which divide are not null, the matrix being not singular. -/
noncomputable def orthonormalise (row0 row1 row2 : P3) : Rows :=
  let scale0 := norm3 row0
  let row0 : P3 := fun i => row0 i / scale0
  let shear0 := dot3 row0 row1
  let row1 : P3 := fun i => row1 i - row0 i * shear0
  let scale1 := norm3 row1
  let row1 : P3 := fun i => row1 i / scale1
  let shear0 := shear0 / scale1
  let shear1 := dot3 row0 row2
  let row2 : P3 := fun i => row2 i - row0 i * shear1
  let shear2 := dot3 row1 row2
  let row2 : P3 := fun i => row2 i - row1 i * shear2
  let scale2 := norm3 row2
  let row2 : P3 := fun i => row2 i / scale2
  ⟨![scale0, scale1, scale2], ![shear0, shear1 / scale2, shear2 / scale2], row0, row1, row2⟩

/-- The change of sign (`/repo/multimodal/lib/transformations.py:769-771`). -/
noncomputable def direct (r : Rows) : Rows :=
  if dot3 r.row0 (cross r.row1 r.row2) < 0 then
    { r with scale := fun i => r.scale i * -1, row0 := fun i => r.row0 i * -1, row1 := fun i => r.row1 i * -1,
             row2 := fun i => r.row2 i * -1 }
  else r

/-- The angles of `decompose_matrix` (`/repo/multimodal/lib/transformations.py:773-780`). -/
noncomputable def rowAngles (r : Rows) : Py P3 :=
  if -r.row0 2 < -1 ∨ 1 < -r.row0 2 then .error .valueError
  else
    let angle1 := arcsin (-r.row0 2)
    if cos angle1 ≠ 0 then .ok ![atan2 (r.row1 2) (r.row2 2), angle1, atan2 (r.row0 1) (r.row0 0)]
    else .ok ![atan2 (-r.row2 1) (r.row1 1), angle1, 0]

/-- `P`, of the transposed and divided matrix (`/repo/multimodal/lib/transformations.py:735-736`). -/
def withoutPerspective (M : Mat4) : Mat4 :=
  Matrix.of fun i j => if j = 3 then if i = 3 then 1 else 0 else M i j

/-- `perspective` (`/repo/multimodal/lib/transformations.py:744-748`). -/
noncomputable def perspectiveOf (M : Mat4) : Fin 4 → ℝ :=
  if |M 0 3| > EPS ∨ |M 1 3| > EPS ∨ |M 2 3| > EPS then
    (fun i => M i 3) ᵥ* (withoutPerspective M)ᵀ⁻¹
  else ![0, 0, 0, 1]

/-- The end of `decompose_matrix` (`/repo/multimodal/lib/transformations.py:737-782`), of the
transposed and divided matrix. -/
noncomputable def decomposeRows (M : Mat4) : Py Parts :=
  if (withoutPerspective M).det = 0 then .error .valueError
  else
    let r := direct (orthonormalise ![M 0 0, M 0 1, M 0 2] ![M 1 0, M 1 1, M 1 2] ![M 2 0, M 2 1, M 2 2])
    (rowAngles r).map fun angles =>
      { scale := r.scale, shear := r.shear, angles := angles, translate := ![M 3 0, M 3 1, M 3 2],
        perspective := perspectiveOf M }

/-- `decompose_matrix` (`/repo/multimodal/lib/transformations.py:700-782`). -/
noncomputable def decomposeMatrix (matrix : Mat4) : Py Parts :=
  if |matrixᵀ 3 3| < EPS then .error .valueError
  else decomposeRows (Matrix.of fun i j => matrixᵀ i j / matrixᵀ 3 3)

/-- The identity in which the last row has been set (`/repo/multimodal/lib/transformations.py:811-814`). -/
def perspectivePart (perspective : Option (Fin 4 → ℝ)) (M : Mat4) : Mat4 :=
  match perspective with
  | none => M
  | some p => M * !![1, 0, 0, 0; 0, 1, 0, 0; 0, 0, 1, 0; p 0, p 1, p 2, p 3]

/-- `/repo/multimodal/lib/transformations.py:815-818`. -/
def translatePart (translate : Option P3) (M : Mat4) : Mat4 :=
  match translate with
  | none => M
  | some t => M * affine 1 t

/-- `/repo/multimodal/lib/transformations.py:819-821`. -/
noncomputable def anglesPart (angles : Option P3) (M : Mat4) : Py Mat4 :=
  match angles with
  | none => .ok M
  | some a => (Transf.eulerMatrix (a 0) (a 1) (a 2) Transf.sxyz).map fun R => M * R

/-- `/repo/multimodal/lib/transformations.py:822-827`. -/
def shearPart (shear : Option P3) (M : Mat4) : Mat4 :=
  match shear with
  | none => M
  | some h => M * !![1, h 0, h 1, 0; 0, 1, h 2, 0; 0, 0, 1, 0; 0, 0, 0, 1]

/-- `/repo/multimodal/lib/transformations.py:828-833`. -/
def scalePart (scale : Option P3) (M : Mat4) : Mat4 :=
  match scale with
  | none => M
  | some s => M * !![s 0, 0, 0, 0; 0, s 1, 0, 0; 0, 0, s 2, 0; 0, 0, 0, 1]

/-- `compose_matrix` (`/repo/multimodal/lib/transformations.py:785-835`). The final division by zero gives
NaN or infinite entries: `none`. -/
noncomputable def composeMatrix (scale shear angles translate : Option P3) (perspective : Option (Fin 4 → ℝ)) :
    Py (Option Mat4) :=
  (anglesPart angles (translatePart translate (perspectivePart perspective 1))).map fun M =>
    let M := scalePart scale (shearPart shear M)
    if M 3 3 = 0 then none else some (Matrix.of fun i j => M i j / M 3 3)

end Verif.Geom
