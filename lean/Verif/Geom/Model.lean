import Verif.Transf.Model
import Mathlib.Analysis.SpecialFunctions.Trigonometric.Inverse

/-!
# Model of `multimodal/lib/transformations.py` (homogeneous matrices)

Floats are real numbers.  Points, directions and normals may be given with more than three entries,
of which only the first three are used: they are functions of `Fin 3`.  Results which numpy fills
with NaN (a null vector divided by its norm) are `none`.
-/

namespace Verif.Geom

open Verif Real Matrix
open Verif.Transf (Mat4 Quat EPS atan2)

/-- Vectors of length three. -/
abbrev P3 := Fin 3 → ℝ

/-- `numpy.dot(u, v)` of vectors of length three. -/
def dot3 (u v : P3) : ℝ := u 0 * v 0 + u 1 * v 1 + u 2 * v 2

/-- `numpy.cross(u, v)`. -/
def cross (u v : P3) : P3 :=
  ![u 1 * v 2 - u 2 * v 1, u 2 * v 0 - u 0 * v 2, u 0 * v 1 - u 1 * v 0]

/-- `numpy.outer(u, v)`. -/
def outer (u v : P3) : Matrix (Fin 3) (Fin 3) ℝ := Matrix.of fun i j => u i * v j

/-- `vector_norm` of a vector of length three (`/repo/multimodal/lib/transformations.py:1535-1571`). -/
noncomputable def norm3 (v : P3) : ℝ := √(dot3 v v)

/-- `unit_vector` of a vector of length three (`/repo/multimodal/lib/transformations.py:1574-1615`). -/
noncomputable def unit3 (v : P3) : Option P3 :=
  if norm3 v = 0 then none else some fun i => v i / norm3 v

/-- The identity of size four in which `M[:3, :3]` and `M[:3, 3]` have been set. -/
def affine (A : Matrix (Fin 3) (Fin 3) ℝ) (t : P3) : Mat4 :=
  !![A 0 0, A 0 1, A 0 2, t 0;
    A 1 0, A 1 1, A 1 2, t 1;
    A 2 0, A 2 1, A 2 2, t 2;
    0, 0, 0, 1]

/-- `identity_matrix` (`/repo/multimodal/lib/transformations.py:180-192`). -/
def identityMatrix : Mat4 := 1

/-- `translation_matrix` (`/repo/multimodal/lib/transformations.py:195-205`). -/
def translationMatrix (direction : P3) : Mat4 := affine 1 direction

/-- `translation_from_matrix` (`/repo/multimodal/lib/transformations.py:208-217`). -/
def translationFromMatrix (M : Mat4) : P3 := ![M 0 3, M 1 3, M 2 3]

/-- `reflection_matrix` (`/repo/multimodal/lib/transformations.py:220-243`). -/
noncomputable def reflectionMatrix (point normal : P3) : Option Mat4 := do
  let normal ← unit3 normal
  return affine (1 - (2 : ℝ) • outer normal normal) fun i => 2 * dot3 point normal * normal i

/-- `rotation_matrix` (`/repo/multimodal/lib/transformations.py:275-316`). -/
noncomputable def rotationMatrix (angle : ℝ) (direction : P3) (point : Option P3) : Option Mat4 := do
  let sina := sin angle
  let cosa := cos angle
  let d ← unit3 direction
  let R : Matrix (Fin 3) (Fin 3) ℝ := !![cosa, 0, 0; 0, cosa, 0; 0, 0, cosa]
  let R := R + (1 - cosa) • outer d d
  let s : P3 := fun i => d i * sina
  let R := R + !![0, -s 2, s 1; s 2, 0, -s 0; -s 1, s 0, 0]
  match point with
  | none => return affine R 0
  | some p => return affine R fun i => p i - (R *ᵥ p) i

/-- `scale_matrix` (`/repo/multimodal/lib/transformations.py:359-393`). -/
noncomputable def scaleMatrix (factor : ℝ) (origin direction : Option P3) : Option Mat4 :=
  match direction with
  | none =>
    let A : Matrix (Fin 3) (Fin 3) ℝ := !![factor, 0, 0; 0, factor, 0; 0, 0, factor]
    match origin with
    | none => some (affine A 0)
    | some o => some (affine A fun i => o i * (1 - factor))
  | some d => do
    let d ← unit3 d
    let factor := 1 - factor
    let A := 1 - factor • outer d d
    match origin with
    | none => return affine A 0
    | some o => return affine A fun i => factor * dot3 o d * d i

/-- `projection_matrix` with a perspective point (`/repo/multimodal/lib/transformations.py:472-487`).
The first three diagonal entries of the identity are set before the products are subtracted. -/
noncomputable def perspectiveMatrix (point normal perspective : P3) (pseudo : Bool) : Option Mat4 := do
  let n ← unit3 normal
  let c := dot3 (fun i => perspective i - point i) n
  let A : Matrix (Fin 3) (Fin 3) ℝ := !![c, 0, 0; 0, c, 0; 0, 0, c]
  let A := A - outer perspective n
  let A := if pseudo then A - outer n n else A
  let t : P3 := if pseudo then fun i => dot3 point n * (perspective i + n i)
    else fun i => dot3 point n * perspective i
  return !![A 0 0, A 0 1, A 0 2, t 0;
    A 1 0, A 1 1, A 1 2, t 1;
    A 2 0, A 2 1, A 2 2, t 2;
    -n 0, -n 1, -n 2, dot3 perspective n]

/-- `projection_matrix` along a direction, or orthogonally
(`/repo/multimodal/lib/transformations.py:488-497`). A direction in the plane gives infinite entries
or NaN: `none`. -/
noncomputable def parallelMatrix (point normal : P3) (direction : Option P3) : Option Mat4 := do
  let n ← unit3 normal
  match direction with
  | some d =>
    let scale := dot3 d n
    if scale = 0 then none
    else
      return affine (1 - Matrix.of fun i j => outer d n i j / scale)
        fun i => d i * (dot3 point n / scale)
  | none => return affine (1 - outer n n) fun i => dot3 point n * n i

/-- `projection_matrix` (`/repo/multimodal/lib/transformations.py:437-497`). -/
noncomputable def projectionMatrix (point normal : P3) (direction perspective : Option P3)
    (pseudo : Bool) : Option Mat4 :=
  match perspective with
  | some p => perspectiveMatrix point normal p pseudo
  | none => parallelMatrix point normal direction

/-- `clip_matrix` (`/repo/multimodal/lib/transformations.py:572-621`). -/
noncomputable def clipMatrix (left right bottom top near far : ℝ) (perspective : Bool) : Py Mat4 :=
  if left ≥ right ∨ bottom ≥ top ∨ near ≥ far then .error .valueError
  else if perspective then
    if near ≤ EPS then .error .valueError
    else
      let t := 2 * near
      .ok !![-t / (right - left), 0, (right + left) / (right - left), 0;
        0, -t / (top - bottom), (top + bottom) / (top - bottom), 0;
        0, 0, -(far + near) / (far - near), t * far / (far - near);
        0, 0, -1, 0]
  else
    .ok !![2 / (right - left), 0, 0, (right + left) / (left - right);
      0, 2 / (top - bottom), 0, (top + bottom) / (bottom - top);
      0, 0, 2 / (far - near), (far + near) / (near - far);
      0, 0, 0, 1]

/-- `shear_matrix` (`/repo/multimodal/lib/transformations.py:624-652`). With a null vector the test
on NaN is false, and the matrix has NaN entries. `math.tan` is the
tangent of the angle; where the cosine is null (no float is such an angle) the number given by Lean is
meaningless, and the properties leave these angles out. -/
noncomputable def shearMatrix (angle : ℝ) (direction point normal : P3) : Py (Option Mat4) :=
  match unit3 normal, unit3 direction with
  | some n, some d =>
    if |dot3 n d| > 1 / 1000000 then .error .valueError
    else
      let a := tan angle
      .ok (some (affine (1 + a • outer d n) fun i => -a * dot3 point n * d i))
  | _, _ => .ok none

/-- `concatenate_matrices` (`/repo/multimodal/lib/transformations.py:1649-1662`). -/
def concatenateMatrices (matrices : List Mat4) : Mat4 := matrices.foldl (fun M i => M * i) 1

/-- `numpy.allclose(a, b)`, with its default tolerances. -/
noncomputable def allClose (A B : Mat4) : Bool :=
  decide (∀ i j, |A i j - B i j| ≤ 1 / 10 ^ 8 + 1 / 10 ^ 5 * |B i j|)

/-- `is_same_transform` (`/repo/multimodal/lib/transformations.py:1665-1678`). When the
entry which divides is null it becomes NaN, which is never close to anything: the result is `False`. -/
noncomputable def isSameTransform (A B : Mat4) : Bool :=
  if A 3 3 = 0 ∨ B 3 3 = 0 then false
  else allClose (Matrix.of fun i j => A i j / A 3 3) (Matrix.of fun i j => B i j / B 3 3)

/-- `orthogonalization_matrix` (`/repo/multimodal/lib/transformations.py:838-863`). `ValueError` from
`math.sqrt` of a negative number. With a null sine the division by zero gives an infinite number or
NaN: `ValueError` in the first case, NaN (`none`) in the second. -/
noncomputable def orthogonalizationMatrix (lengths angles : P3) : Py (Option Mat4) :=
  let rad := fun x : ℝ => x * π / 180
  let sina := sin (rad (angles 0))
  let sinb := sin (rad (angles 1))
  let cosa := cos (rad (angles 0))
  let cosb := cos (rad (angles 1))
  let cosg := cos (rad (angles 2))
  if sina * sinb = 0 then
    if cosa * cosb - cosg = 0 then .ok none else .error .valueError
  else
    let co := (cosa * cosb - cosg) / (sina * sinb)
    if 1 - co * co < 0 then .error .valueError
    else .ok (some !![lengths 0 * sinb * √(1 - co * co), 0, 0, 0;
      -lengths 0 * sinb * co, lengths 1 * sina, 0, 0;
      lengths 0 * cosb, lengths 1 * cosa, lengths 2, 0;
      0, 0, 0, 1])

/-! ## Quaternions -/

/-- `unit_vector` of a vector of length four. -/
noncomputable def unit4 (q : Quat) : Option Quat :=
  if Transf.norm4 q = 0 then none else some fun i => q i / Transf.norm4 q

/-- `math.acos(x)` after `angle = math.acos(d) + spin * math.pi`, and the rest of
`quaternion_slerp` (`/repo/multimodal/lib/transformations.py:1300-1308`). -/
noncomputable def slerpArc (q0 q1 : Quat) (d fraction : ℝ) (spin : ℤ) : Py Quat :=
  if d < -1 ∨ 1 < d then .error .valueError
  else
    let angle := arccos d + spin * π
    if |angle| < EPS then .ok q0
    else if sin angle = 0 then .error .zeroDivisionError
    else
      let isin := 1 / sin angle
      .ok fun i => q0 i * (sin ((1 - fraction) * angle) * isin) + q1 i * (sin (fraction * angle) * isin)

/-- `quaternion_slerp` (`/repo/multimodal/lib/transformations.py:1270-1308`). A quaternion of NaN is `none`: given,
or the unit vector of a null one. With NaN all tests are false and the result is NaN, except at the
fractions 0 and 1 where the other quaternion does not matter. -/
noncomputable def slerp (quat0 quat1 : Option Quat) (fraction : ℝ) (spin : ℤ) (shortest : Bool) :
    Py (Option Quat) :=
  let q0 := quat0.bind unit4
  let q1 := quat1.bind unit4
  if fraction = 0 then .ok q0
  else if fraction = 1 then .ok q1
  else
    match q0, q1 with
    | some q0, some q1 =>
      let d := Transf.dot4 q0 q1
      if |(|d| - 1)| < EPS then .ok (some q0)
      else if shortest = true ∧ d < 0 then (slerpArc q0 (fun i => q1 i * -1) (-d) fraction spin).map some
      else (slerpArc q0 q1 d fraction spin).map some
    | _, _ => .ok none

/-- `random_quaternion` (`/repo/multimodal/lib/transformations.py:1311-1338`) of the numbers `rand`,
given or drawn. The square root of a negative number is NaN: `none`. -/
noncomputable def randomQuaternion (rand : List ℝ) : Py (Option Quat) :=
  match rand with
  | [a, b, c] =>
    if a < 0 ∨ 1 < a then .ok none
    else
      let r1 := √(1 - a)
      let r2 := √a
      let t1 := π * 2 * b
      let t2 := π * 2 * c
      .ok (some ![sin t1 * r1, cos t1 * r1, sin t2 * r2, cos t2 * r2])
  | _ => .error .assertionError

/-- `random_rotation_matrix` (`/repo/multimodal/lib/transformations.py:1341-1353`). -/
noncomputable def randomRotationMatrix (rand : List ℝ) : Py (Option Mat4) :=
  match randomQuaternion rand with
  | .ok q => .ok (q.map Transf.quatMatrix)
  | .error e => .error e

end Verif.Geom
