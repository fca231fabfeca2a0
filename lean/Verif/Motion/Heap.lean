import Verif.Motion.Model
import Mathlib.Logic.Function.Basic

/-!
# Motion databases as objects (`multimodal/db/models/kinect_motion.py`)

`Verif/Motion/Model.lean` describes databases by their values.  Here databases, data arrays and lists of
labels have addresses: `add` and `extend` keep the arrays and lists they are given, not copies of them.
Marker names and descriptions are still values.
-/

namespace Verif.Motion.H

open Verif.Logger (Key)

variable {D : Type}

/-- A `MotionDatabase` object (`/repo/multimodal/db/models/kinect_motion.py:56-60`); records are given by the
addresses of their array and of their list of labels. -/
structure Obj where
  name : Key
  markerNames : List Key
  records : List (ℕ × ℕ)
  desc : Desc

/-- Arrays, lists of labels and databases, with the first address of a database which is not used. -/
structure Heap (D : Type) where
  arrays : ℕ → D
  tags : ℕ → List Label
  dbs : ℕ → Obj
  next : ℕ

namespace Heap

/-- What a database looks like. -/
def value (h : Heap D) (x : ℕ) : DB D :=
  ⟨(h.dbs x).name, (h.dbs x).markerNames, (h.dbs x).records.map fun r => (h.arrays r.1, h.tags r.2), (h.dbs x).desc⟩

/-- `MotionDatabase(name, marker_names, label_descriptions)`
(`/repo/multimodal/db/models/kinect_motion.py:56-60`). -/
def new (h : Heap D) (name : Key) (markers : List Key) (desc : Desc) : Heap D :=
  { h with dbs := Function.update h.dbs h.next ⟨name, markers, [], desc⟩, next := h.next + 1 }

/-- `add` (`/repo/multimodal/db/models/kinect_motion.py:92-95`). -/
def add (h : Heap D) (x data labels : ℕ) : Heap D :=
  { h with dbs := Function.update h.dbs x { h.dbs x with records := (h.dbs x).records ++ [(data, labels)] } }

/-- `extend` (`/repo/multimodal/db/models/kinect_motion.py:105-117`); both databases may be the same.  `enum`
gives the order in which Python visits the set of the labels listed. -/
def extend (h : Heap D) (x y : ℕ) (enum : List Label → List Label) : Heap D × Py Unit :=
  let a := h.value x
  let b := h.value y
  if a.markerNames ≠ b.markerNames then (h, .error .valueError)
  else
    match (enum (a.occuring ++ b.occuring)).mapM fun l => do
        let u ← a.desc.get l
        let v ← b.desc.get l
        return decide (u = v) with
    | .error e => (h, .error e)
    | .ok eqs =>
      if !(eqs.all id) then (h, .error .valueError)
      else
        let o := { h.dbs x with records := (h.dbs x).records ++ (h.dbs y).records }
        ({ h with dbs := Function.update h.dbs x o }, .ok ())

/-- An array is overwritten by its owner. -/
def setArray (h : Heap D) (a : ℕ) (d : D) : Heap D := { h with arrays := Function.update h.arrays a d }

/-- A list of labels is changed by its owner. -/
def setTags (h : Heap D) (a : ℕ) (l : List Label) : Heap D := { h with tags := Function.update h.tags a l }

end Heap

/-- Steps of a program. -/
inductive Op (D : Type)
  | new (name : Key) (markers : List Key) (desc : Desc)
  | add (x data labels : ℕ)
  | extend (x y : ℕ) (enum : List Label → List Label)
  | setArray (a : ℕ) (d : D)
  | setTags (a : ℕ) (l : List Label)

/-- The objects after a step, which may have raised. -/
def Op.run (h : Heap D) : Op D → Heap D
  | .new n m d => h.new n m d
  | .add x a l => h.add x a l
  | .extend x y e => (h.extend x y e).1
  | .setArray a d => h.setArray a d
  | .setTags a l => h.setTags a l

/-- The objects after a program. -/
def runAll (h : Heap D) (ops : List (Op D)) : Heap D := ops.foldl Op.run h

end Verif.Motion.H
