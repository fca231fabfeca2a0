import Verif.Py
import Verif.PyMore
import Mathlib.Analysis.SpecialFunctions.Complex.Arg
import Mathlib.LinearAlgebra.Matrix.Notation

/-!
# Model of `multimodal/lib/transformations.py` (rotations) and of the angles of
`multimodal/features/angle_histograms.py`

Floats are real numbers, arrays of shape `(4,)` are functions of `Fin 4` and homogeneous matrices are
4 by 4 matrices.  `math.atan2(y, x)` is the argument of `x + i y` (there is no negative zero).
-/

namespace Verif.Transf

open Verif Real

/-- Quaternions are arrays `(x, y, z, w)`. -/
abbrev Quat := Fin 4 → ℝ

/-- Homogeneous matrices. -/
abbrev Mat4 := Matrix (Fin 4) (Fin 4) ℝ

/-- `math.atan2(y, x)`. -/
noncomputable def atan2 (y x : ℝ) : ℝ := Complex.arg ⟨x, y⟩

/-- `_EPS` (`/repo/multimodal/lib/transformations.py:1515`): four times the epsilon of floats, `2^-52`. -/
noncomputable def EPS : ℝ := 1 / 2 ^ 50

/-- `numpy.dot(q, p)` of vectors of length four. -/
def dot4 (q p : Quat) : ℝ := q 0 * p 0 + q 1 * p 1 + q 2 * p 2 + q 3 * p 3

/-! ## Quaternions -/

/-- `quaternion_multiply(q1, q0)` (`/repo/multimodal/lib/transformations.py:1228-1242`). -/
def quatMul (q1 q0 : Quat) : Quat :=
  let x0 := q0 0
  let y0 := q0 1
  let z0 := q0 2
  let w0 := q0 3
  let x1 := q1 0
  let y1 := q1 1
  let z1 := q1 2
  let w1 := q1 3
  ![x1 * w0 + y1 * z0 - z1 * y0 + w1 * x0,
    -x1 * z0 + y1 * w0 + z1 * x0 + w1 * y0,
    x1 * y0 - y1 * x0 + z1 * w0 + w1 * z0,
    -x1 * x0 - y1 * y0 - z1 * z0 + w1 * w0]

/-- `quaternion_conjugate` (`/repo/multimodal/lib/transformations.py:1245-1255`). -/
def quatConj (q : Quat) : Quat := ![-q 0, -q 1, -q 2, q 3]

/-- `quaternion_inverse` (`/repo/multimodal/lib/transformations.py:1258-1267`): `none` stands for the
four NaNs which numpy returns for the null quaternion. -/
noncomputable def quatInv (q : Quat) : Option Quat :=
  if dot4 q q = 0 then none else some fun i => quatConj q i / dot4 q q

/-- `quaternion_matrix` (`/repo/multimodal/lib/transformations.py:1174-1193`). -/
noncomputable def quatMatrix (quaternion : Quat) : Mat4 :=
  let nq := dot4 quaternion quaternion
  if nq < EPS then 1
  else
    let r : Quat := fun i => quaternion i * √(2 / nq)
    let q : Fin 4 → Fin 4 → ℝ := fun i j => r i * r j
    !![1 - q 1 1 - q 2 2, q 0 1 - q 2 3, q 0 2 + q 1 3, 0;
      q 0 1 + q 2 3, 1 - q 0 0 - q 2 2, q 1 2 - q 0 3, 0;
      q 0 2 - q 1 3, q 1 2 + q 0 3, 1 - q 0 0 - q 1 1, 0;
      0, 0, 0, 1]

/-- `M[i, j] = v`. -/
def setEntry (M : Mat4) (i j : Fin 4) (v : ℝ) : Mat4 :=
  Matrix.of fun a b => if a = i ∧ b = j then v else M a b

/-- `q[i] = v`. -/
def setAt (q : Quat) (i : Fin 4) (v : ℝ) : Quat := fun a => if a = i then v else q a

/-- `q *= 0.5 / math.sqrt(x)` (`/repo/multimodal/lib/transformations.py:1224`): `ValueError` from
`math.sqrt` when `x` is negative, `ZeroDivisionError` when it is zero. -/
noncomputable def scaleQuat (q : Quat) (x : ℝ) : Py Quat :=
  if x < 0 then .error .valueError
  else if x = 0 then .error .zeroDivisionError
  else .ok fun a => q a * (1 / 2 / √x)

/-- `quaternion_from_matrix` (`/repo/multimodal/lib/transformations.py:1196-1225`): what
`numpy.empty` gives is zero (each entry is set). -/
noncomputable def quatFromMatrix (M : Mat4) : Py Quat :=
  let t := M 0 0 + M 1 1 + M 2 2 + M 3 3
  if t > M 3 3 then
    scaleQuat ![M 2 1 - M 1 2, M 0 2 - M 2 0, M 1 0 - M 0 1, t] (t * M 3 3)
  else
    let ijk : Fin 4 × Fin 4 × Fin 4 := (0, 1, 2)
    let ijk := if M 1 1 > M 0 0 then (1, 2, 0) else ijk
    let ijk := if M 2 2 > M ijk.1 ijk.1 then (2, 0, 1) else ijk
    let i := ijk.1
    let j := ijk.2.1
    let k := ijk.2.2
    let t := M i i - (M j j + M k k) + M 3 3
    let q := setAt 0 i t
    let q := setAt q j (M i j + M j i)
    let q := setAt q k (M k i + M i k)
    let q := setAt q 3 (M k j - M j k)
    scaleQuat q (t * M 3 3)

/-- `vector_norm` of a vector of length four (`/repo/multimodal/lib/transformations.py:1535-1571`). -/
noncomputable def norm4 (q : Quat) : ℝ := √(dot4 q q)

/-- `quaternion_about_axis` (`/repo/multimodal/lib/transformations.py:1157-1171`). -/
noncomputable def quatAboutAxis (angle : ℝ) (axis : Fin 3 → ℝ) : Quat :=
  let q : Quat := ![axis 0, axis 1, axis 2, 0]
  let qlen := norm4 q
  let q : Quat := if qlen > EPS then fun a => q a * (sin (angle / 2) / qlen) else q
  setAt q 3 (cos (angle / 2))

/-! ## Euler angles -/

/-- A tuple `(firstaxis, parity, repetition, frame)`. -/
abbrev AxesTuple := ℕ × ℕ × ℕ × ℕ

/-- `_AXES2TUPLE` (`/repo/multimodal/lib/transformations.py:1521-1529`). -/
def axes2tuple : List (List Char × AxesTuple) :=
  [("sxyz".toList, 0, 0, 0, 0), ("sxyx".toList, 0, 0, 1, 0), ("sxzy".toList, 0, 1, 0, 0),
   ("sxzx".toList, 0, 1, 1, 0), ("syzx".toList, 1, 0, 0, 0), ("syzy".toList, 1, 0, 1, 0),
   ("syxz".toList, 1, 1, 0, 0), ("syxy".toList, 1, 1, 1, 0), ("szxy".toList, 2, 0, 0, 0),
   ("szxz".toList, 2, 0, 1, 0), ("szyx".toList, 2, 1, 0, 0), ("szyz".toList, 2, 1, 1, 0),
   ("rzyx".toList, 0, 0, 0, 1), ("rxyx".toList, 0, 0, 1, 1), ("ryzx".toList, 0, 1, 0, 1),
   ("rxzx".toList, 0, 1, 1, 1), ("rxzy".toList, 1, 0, 0, 1), ("ryzy".toList, 1, 0, 1, 1),
   ("rzxy".toList, 1, 1, 0, 1), ("ryxy".toList, 1, 1, 1, 1), ("ryxz".toList, 2, 0, 0, 1),
   ("rzxz".toList, 2, 0, 1, 1), ("rxyz".toList, 2, 1, 0, 1), ("rzyz".toList, 2, 1, 1, 1)]

/-- The argument `axes`: a string or an encoded tuple. -/
inductive AxesArg
  | name (s : List Char)
  | tuple (t : AxesTuple)
  deriving DecidableEq

/-- `_AXES2TUPLE[axes]`, or `axes` itself when it is in `_TUPLE2AXES`
(`/repo/multimodal/lib/transformations.py:987-991`). -/
def resolve : AxesArg → Py AxesTuple
  | .name s => match axes2tuple.find? fun p => p.1 == s with
    | some p => .ok p.2
    | none => .error .keyError
  | .tuple t => if t ∈ axes2tuple.map Prod.snd then .ok t else .error .keyError

/-- The same with `axes.lower()` (`/repo/multimodal/lib/transformations.py:1050-1054`). -/
def resolveLower : AxesArg → Py AxesTuple
  | .name s => match axes2tuple.find? fun p => p.1 == s.map Char.toLower with
    | some p => .ok p.2
    | none => .error .keyError
  | .tuple t => resolve (.tuple t)

/-- `_NEXT_AXIS` (`/repo/multimodal/lib/transformations.py:1518`). -/
def nextAxis (n : ℕ) : Fin 4 := [1, 2, 0, 1].getD n 0

/-- The axes `i`, `j` and `k` (`/repo/multimodal/lib/transformations.py:993-995`, also 1056-1058 and
1117-1119). -/
def axesOf (t : AxesTuple) : Fin 4 × Fin 4 × Fin 4 :=
  ([0, 1, 2].getD t.1 0, nextAxis (t.1 + t.2.1), nextAxis (t.1 + 1 - t.2.1))

/-- The entries of `euler_matrix` (`/repo/multimodal/lib/transformations.py:1005-1027`). -/
noncomputable def eulerEntries (i j k : Fin 4) (repetition : Bool) (ai aj ak : ℝ) : Mat4 :=
  let si := sin ai
  let sj := sin aj
  let sk := sin ak
  let ci := cos ai
  let cj := cos aj
  let ck := cos ak
  let cc := ci * ck
  let cs := ci * sk
  let sc := si * ck
  let ss := si * sk
  if repetition then
    let M := setEntry 1 i i cj
    let M := setEntry M i j (sj * si)
    let M := setEntry M i k (sj * ci)
    let M := setEntry M j i (sj * sk)
    let M := setEntry M j j (-cj * ss + cc)
    let M := setEntry M j k (-cj * cs - sc)
    let M := setEntry M k i (-sj * ck)
    let M := setEntry M k j (cj * sc + cs)
    setEntry M k k (cj * cc - ss)
  else
    let M := setEntry 1 i i (cj * ck)
    let M := setEntry M i j (sj * sc - cs)
    let M := setEntry M i k (sj * cc + ss)
    let M := setEntry M j i (cj * sk)
    let M := setEntry M j j (sj * ss + cc)
    let M := setEntry M j k (sj * cs - sc)
    let M := setEntry M k i (-sj)
    let M := setEntry M k j (cj * si)
    setEntry M k k (cj * ci)

/-- `euler_matrix` (`/repo/multimodal/lib/transformations.py:968-1028`), once the axes are known. -/
noncomputable def eulerMatrixOf (t : AxesTuple) (ai aj ak : ℝ) : Mat4 :=
  let (i, j, k) := axesOf t
  let (ai, ak) := if t.2.2.2 ≠ 0 then (ak, ai) else (ai, ak)
  let (ai, aj, ak) := if t.2.1 ≠ 0 then (-ai, -aj, -ak) else (ai, aj, ak)
  eulerEntries i j k (t.2.2.1 ≠ 0) ai aj ak

/-- `euler_matrix` (`/repo/multimodal/lib/transformations.py:968-1028`). -/
noncomputable def eulerMatrix (ai aj ak : ℝ) (axes : AxesArg) : Py Mat4 := do
  let t ← resolve axes
  return eulerMatrixOf t ai aj ak

/-- The angles of `euler_from_matrix` before signs and order
(`/repo/multimodal/lib/transformations.py:1060-1080`). -/
noncomputable def eulerAngles (i j k : Fin 4) (repetition : Bool) (M : Mat4) : ℝ × ℝ × ℝ :=
  if repetition then
    let sy := √(M i j * M i j + M i k * M i k)
    if sy > EPS then (atan2 (M i j) (M i k), atan2 sy (M i i), atan2 (M j i) (-M k i))
    else (atan2 (-M j k) (M j j), atan2 sy (M i i), 0)
  else
    let cy := √(M i i * M i i + M j i * M j i)
    if cy > EPS then (atan2 (M k j) (M k k), atan2 (-M k i) cy, atan2 (M j i) (M i i))
    else (atan2 (-M j k) (M j j), atan2 (-M k i) cy, 0)

/-- `euler_from_matrix` (`/repo/multimodal/lib/transformations.py:1031-1086`), once the axes are
known. -/
noncomputable def eulerFromMatrixOf (t : AxesTuple) (M : Mat4) : ℝ × ℝ × ℝ :=
  let (i, j, k) := axesOf t
  let (ax, ay, az) := eulerAngles i j k (t.2.2.1 ≠ 0) M
  let (ax, ay, az) := if t.2.1 ≠ 0 then (-ax, -ay, -az) else (ax, ay, az)
  if t.2.2.2 ≠ 0 then (az, ay, ax) else (ax, ay, az)

/-- `euler_from_matrix` (`/repo/multimodal/lib/transformations.py:1031-1086`). -/
noncomputable def eulerFromMatrix (M : Mat4) (axes : AxesArg) : Py (ℝ × ℝ × ℝ) := do
  let t ← resolveLower axes
  return eulerFromMatrixOf t M

/-- `euler_from_quaternion` (`/repo/multimodal/lib/transformations.py:1089-1097`). -/
noncomputable def eulerFromQuat (q : Quat) (axes : AxesArg) : Py (ℝ × ℝ × ℝ) :=
  eulerFromMatrix (quatMatrix q) axes

/-- `quaternion_from_euler` (`/repo/multimodal/lib/transformations.py:1100-1154`), once the axes are
known; what `numpy.empty` gives is zero (each entry is set). -/
noncomputable def quatFromEulerOf (t : AxesTuple) (ai aj ak : ℝ) : Quat :=
  let (i, j, k) := axesOf t
  let (ai, ak) := if t.2.2.2 ≠ 0 then (ak, ai) else (ai, ak)
  let aj := if t.2.1 ≠ 0 then -aj else aj
  let ai := ai / 2
  let aj := aj / 2
  let ak := ak / 2
  let ci := cos ai
  let si := sin ai
  let cj := cos aj
  let sj := sin aj
  let ck := cos ak
  let sk := sin ak
  let cc := ci * ck
  let cs := ci * sk
  let sc := si * ck
  let ss := si * sk
  let q : Quat :=
    if t.2.2.1 ≠ 0 then
      let q := setAt 0 i (cj * (cs + sc))
      let q := setAt q j (sj * (cc + ss))
      let q := setAt q k (sj * (cs - sc))
      setAt q 3 (cj * (cc - ss))
    else
      let q := setAt 0 i (cj * sc - sj * cs)
      let q := setAt q j (cj * ss + sj * cc)
      let q := setAt q k (cj * cs - sj * sc)
      setAt q 3 (cj * cc + sj * ss)
  if t.2.1 ≠ 0 then setAt q j (q j * (-1)) else q

/-- `quaternion_from_euler` (`/repo/multimodal/lib/transformations.py:1100-1154`). -/
noncomputable def quatFromEuler (ai aj ak : ℝ) (axes : AxesArg) : Py Quat := do
  let t ← resolveLower axes
  return quatFromEulerOf t ai aj ak

/-- The default `axes='sxyz'`. -/
def sxyz : AxesArg := .name "sxyz".toList

/-! ## Angles of postures -/

/-- A sample: position and quaternion of each frame. -/
abbrev Sample := List (Fin 7 → ℝ)

/-- `sample[frame, 3:]`. -/
def quatOf (sample : Sample) (frame : ℕ) : Py Quat := do
  let l ← pyGet sample (frame : ℤ)
  return ![l 3, l 4, l 5, l 6]

/-- `get_angles` (`/repo/multimodal/features/angle_histograms.py:45-57`); `none` when the angles are
NaNs, the quaternion of the source being null. -/
noncomputable def getAngles (sample : Sample) (source dest : ℕ) : Py (Option (ℝ × ℝ × ℝ)) := do
  let qs ← quatOf sample source
  let qd ← quatOf sample dest
  match quatInv qs with
  | none => return none
  | some inv => do
    let a ← eulerFromQuat (quatMul inv qd) sxyz
    return some a

/-- `ANGLES` (`/repo/multimodal/features/angle_histograms.py:26-37`). -/
def angleFrames : List (List Char × List Char) :=
  [("left_shoulder".toList, "left_elbow".toList), ("left_elbow".toList, "left_hand".toList),
   ("torso".toList, "left_hip".toList), ("left_hip".toList, "left_knee".toList),
   ("left_knee".toList, "left_foot".toList), ("right_shoulder".toList, "right_elbow".toList),
   ("right_elbow".toList, "right_hand".toList), ("torso".toList, "right_hip".toList),
   ("right_hip".toList, "right_knee".toList), ("right_knee".toList, "right_foot".toList)]

/-- `l.index(x)`. -/
def listIndex (l : List (List Char)) (x : List Char) : Py ℕ :=
  if x ∈ l then .ok (l.idxOf x) else .error .valueError

/-- `angles_indices` (`/repo/multimodal/features/angle_histograms.py:40-42`). -/
def anglesIndices (markers : List (List Char)) : Py (List (ℕ × ℕ)) :=
  angleFrames.mapM fun p => do
    let s ← listIndex markers p.1
    let d ← listIndex markers p.2
    return (s, d)

/-- `get_angle_array` (`/repo/multimodal/features/angle_histograms.py:60-62`): the angles of the
triplets, in order (`numpy.hstack`; `ValueError` when there is none). -/
noncomputable def getAngleArray (sample : Sample) (idx : List (ℕ × ℕ)) :
    Py (List (Option (ℝ × ℝ × ℝ))) := do
  let angles ← idx.mapM fun p => getAngles sample p.1 p.2
  if angles = [] then .error .valueError else return angles

/-- `record_to_angle_array` (`/repo/multimodal/features/angle_histograms.py:65-67`): one line for each
sample (`numpy.vstack`; `ValueError` when there is none). -/
noncomputable def recordToAngleArray (record : List Sample) (idx : List (ℕ × ℕ)) :
    Py (List (List (Option (ℝ × ℝ × ℝ)))) := do
  let lines ← record.mapM fun s => getAngleArray s idx
  if lines = [] then .error .valueError else return lines

/-- `db_to_list_of_angle_arrays` (`/repo/multimodal/features/angle_histograms.py:70-72`). -/
noncomputable def dbToAngleArrays (markers : List (List Char)) (records : List (List Sample)) :
    Py (List (List (List (Option (ℝ × ℝ × ℝ))))) := do
  let idx ← anglesIndices markers
  records.mapM fun r => recordToAngleArray r idx

end Verif.Transf
