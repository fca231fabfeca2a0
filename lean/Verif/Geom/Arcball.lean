import Verif.Geom.Model

/-!
# Model of the `Arcball` class (`multimodal/lib/transformations.py`)

Vectors and quaternions filled with NaN are `none`.  Each method gives the new state of the object
together with the outcome.
-/

namespace Verif.Geom

open Verif Real
open Verif.Transf (Mat4 Quat EPS)

/-- `arcball_map_to_sphere` (`/repo/multimodal/lib/transformations.py:1471-1481`). Cursor positions are
pairs of Python numbers, for which a null radius raises ZeroDivisionError. -/
noncomputable def mapToSphere (point center : ℝ × ℝ) (radius : ℝ) : Py P3 :=
  if radius = 0 then .error .zeroDivisionError
  else
    let x := (point.1 - center.1) / radius
    let y := (center.2 - point.2) / radius
    let n := x * x + y * y
    if n > 1 then .ok ![x / √n, y / √n, 0 / √n]
    else .ok ![x, y, √(1 - n)]

/-- The end of `arcball_constrain_to_axis` (`/repo/multimodal/lib/transformations.py:1489-1498`), of the
projection `v` of the point. -/
noncomputable def constrainFrom (v axis : P3) : Option P3 :=
  let n := norm3 v
  if n > EPS then
    let v : P3 := if v 2 < 0 then fun i => v i * -1 else v
    some fun i => v i / n
  else if axis 2 = 1 then some ![1, 0, 0]
  else unit3 ![-axis 1, axis 0, 0]

/-- `arcball_constrain_to_axis` (`/repo/multimodal/lib/transformations.py:1484-1498`). -/
noncomputable def constrainToAxis (point axis : P3) : Option P3 :=
  constrainFrom (fun i => point i - axis i * dot3 axis point) axis

/-- The loop of `arcball_nearest_axis` (`/repo/multimodal/lib/transformations.py:1506-1510`), with
the current values of `nearest` and `mx`. An axis of NaN, or for which the constrained point is NaN, is
never greater. -/
noncomputable def nearestLoop (point : P3) : List (Option P3) → Option P3 → ℝ → Option P3
  | [], nearest, _ => nearest
  | axis :: axes, nearest, mx =>
    match axis, axis.bind (constrainToAxis point) with
    | some a, some c =>
      if dot3 c point > mx then nearestLoop point axes (some a) (dot3 c point)
      else nearestLoop point axes nearest mx
    | _, _ => nearestLoop point axes nearest mx

/-- `arcball_nearest_axis` (`/repo/multimodal/lib/transformations.py:1501-1511`). -/
noncomputable def nearestAxis (point : P3) (axes : List (Option P3)) : Option P3 :=
  nearestLoop point axes none (-1)

/-- The attributes of an `Arcball` (`/repo/multimodal/lib/transformations.py:1380-1405`). -/
structure Ball where
  /-- `_axis`. -/
  axis : Option P3
  /-- `_axes`; each is a unit vector or NaN. -/
  axes : Option (List (Option P3))
  /-- `_radius`. -/
  radius : ℝ
  /-- `_center`. -/
  center : ℝ × ℝ
  /-- `_vdown`. -/
  vdown : Option P3
  /-- `_constrain`. -/
  constrain : Bool
  /-- `_qdown`. -/
  qdown : Option Quat
  /-- `_qpre`. -/
  qpre : Option Quat
  /-- `_qnow`. -/
  qnow : Option Quat

/-- The argument of the constructor. -/
inductive Initial where
  /-- `None`. -/
  | default
  /-- An array of shape (4, 4). -/
  | matrix (M : Mat4)
  /-- An array of shape (4,). -/
  | quaternion (q : Quat)
  /-- An array of another shape. -/
  | other

/-- The quaternion of the constructor (`/repo/multimodal/lib/transformations.py:1393-1403`). -/
noncomputable def initialQuat : Initial → Py (Option Quat)
  | .default => .ok (some ![0, 0, 0, 1])
  | .matrix M => (Transf.quatFromMatrix M).map some
  | .quaternion q => .ok (unit4 q)
  | .other => .error .valueError

/-- `Arcball.__init__` (`/repo/multimodal/lib/transformations.py:1380-1405`). -/
noncomputable def ballInit (initial : Initial) : Py Ball :=
  (initialQuat initial).map fun q =>
    { axis := none, axes := none, radius := 1, center := (0, 0), vdown := some ![0, 0, 1],
      constrain := false, qdown := q, qpre := q, qnow := q }

/-- `Arcball.place` (`/repo/multimodal/lib/transformations.py:1407-1418`). -/
def ballPlace (b : Ball) (center : ℝ × ℝ) (radius : ℝ) : Ball := { b with radius, center }

/-- `Arcball.setaxes` (`/repo/multimodal/lib/transformations.py:1420-1425`): `axes` is the tuple of
the arguments, never `None`. Axes have three entries. -/
noncomputable def ballSetAxes (b : Ball) (axes : List P3) : Ball :=
  { b with axes := some (axes.map unit3) }

/-- `Arcball.setconstrain` (`/repo/multimodal/lib/transformations.py:1427-1429`). -/
def ballSetConstrain (b : Ball) (constrain : Bool) : Ball := { b with constrain }

/-- The two lines of `Arcball.down` which use the nearest axis
(`/repo/multimodal/lib/transformations.py:1441-1442`). When no axis is nearest,
`arcball_constrain_to_axis` makes an array of `None` (NaN, without dimension), of which it asks for
the entry 2: IndexError. -/
noncomputable def ballPick (b : Ball) (v : P3) : Option P3 → Ball × Py Unit
  | some a => ({ b with axis := some a, vdown := constrainToAxis v a }, .ok ())
  | none => ({ b with axis := none }, .error .indexError)

/-- `Arcball.down` (`/repo/multimodal/lib/transformations.py:1435-1444`). -/
noncomputable def ballDown (b : Ball) (point : ℝ × ℝ) : Ball × Py Unit :=
  match mapToSphere point b.center b.radius with
  | .error e => (b, .error e)
  | .ok v =>
    let b := { b with vdown := some v, qdown := b.qnow, qpre := b.qnow }
    match b.constrain, b.axes with
    | true, some axes => ballPick b v (nearestAxis v axes)
    | _, _ => ({ b with axis := none }, .ok ())

/-- The quaternion of an arc (`/repo/multimodal/lib/transformations.py:1455-1460`): `vdown` to `vnow`. -/
noncomputable def arcQuat (vdown vnow : Option P3) (qdown : Option Quat) : Option Quat :=
  match vdown, vnow with
  | some v, some w =>
    let t := cross v w
    if dot3 t t < EPS then qdown
    else qdown.map (Transf.quatMul ![t 0, t 1, t 2, dot3 v w])
  | _, _ => none

/-- The test of `Arcball.drag` on the axis (`/repo/multimodal/lib/transformations.py:1450-1451`). -/
noncomputable def constrainIf (axis : Option P3) (v : P3) : Option P3 :=
  match axis with
  | some a => constrainToAxis v a
  | none => some v

/-- `Arcball.drag` (`/repo/multimodal/lib/transformations.py:1446-1460`). With NaN the test on the cross
product is false, and the product of quaternions is NaN. -/
noncomputable def ballDrag (b : Ball) (point : ℝ × ℝ) : Ball × Py Unit :=
  match mapToSphere point b.center b.radius with
  | .error e => (b, .error e)
  | .ok v =>
    ({ b with qpre := b.qnow, qnow := arcQuat b.vdown (constrainIf b.axis v) b.qdown }, .ok ())

/-- `Arcball.next` (`/repo/multimodal/lib/transformations.py:1462-1465`). `False` is given for the
number of half turns; `shortestpath` keeps its default. -/
noncomputable def ballNext (b : Ball) (acceleration : ℝ) : Ball × Py Unit :=
  match slerp b.qpre b.qnow (2 + acceleration) 0 true with
  | .error e => (b, .error e)
  | .ok q => ({ b with qpre := b.qnow, qnow := q }, .ok ())

/-- `Arcball.matrix` (`/repo/multimodal/lib/transformations.py:1467-1469`). -/
noncomputable def ballMatrix (b : Ball) : Option Mat4 := b.qnow.map Transf.quatMatrix

/-- The calls of the methods which change the object. -/
inductive Call where
  /-- `place(center, radius)`. -/
  | place (center : ℝ × ℝ) (radius : ℝ)
  /-- `setaxes(*axes)`. -/
  | setaxes (axes : List P3)
  /-- `setconstrain(constrain)`. -/
  | setconstrain (constrain : Bool)
  /-- `down(point)`. -/
  | down (point : ℝ × ℝ)
  /-- `drag(point)`. -/
  | drag (point : ℝ × ℝ)
  /-- `next(acceleration)`. -/
  | next (acceleration : ℝ)

/-- One call. -/
noncomputable def ballCall (b : Ball) : Call → Ball × Py Unit
  | .place c r => (ballPlace b c r, .ok ())
  | .setaxes axes => (ballSetAxes b axes, .ok ())
  | .setconstrain c => (ballSetConstrain b c, .ok ())
  | .down p => ballDown b p
  | .drag p => ballDrag b p
  | .next a => ballNext b a

/-- The state after a sequence of calls, whether they raise or not. -/
noncomputable def ballAfter (b : Ball) (calls : List Call) : Ball :=
  calls.foldl (fun b c => (ballCall b c).1) b

end Verif.Geom
