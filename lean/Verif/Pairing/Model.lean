import Verif.PyMore
import Verif.Window.Model

/-!
# Model of `multimodal/pairing.py`

The iteration order of sets and the random shuffles are parameters of the model; the theorems
assume their contracts (`IsSetOrder`, permutations) and hold for all of them.
-/

namespace Verif.Pairing

open Verif Verif.Window

/-- `multimodal/pairing.py:11-16`, `named_labels_to_range`.  `names` is the value of the variable
`names` once listed from the set (line 12) and possibly shuffled (line 14). -/
def namedLabelsToRange {L : Type} [DecidableEq L] (names labels : List L) :
    Py (List L × List ℕ) := do
  let inversion : Dict L ℕ := dictOf names.zipIdx
  let idx ← labels.mapM fun n => match dictGet? inversion n with
    | some i => .ok i
    | none => .error .keyError
  .ok (names, idx)

/-- `multimodal/pairing.py:19-21`, `associate_labels`, before `zip(*_)`; `namesOf m` gives the names
listed for the `m`-th modality.  Lists of pairs are unzipped at the (only) place of use. -/
def associateLabels {L : Type} [DecidableEq L] (namesOf : ℕ → List L → List L)
    (labels : List (List L)) : Py (List (List L × List ℕ)) :=
  labels.zipIdx.mapM fun p => namedLabelsToRange (namesOf p.2 p.1) p.1

/-- `multimodal/pairing.py:29-30`, loop of `organize_by_values` from the given buckets. -/
def organizeLoop {ι : Type} : List (List ι) → List (ι × ℤ) → Py (List (List ι))
  | buckets, [] => .ok buckets
  | buckets, (i, x) :: enum =>
    match pyIndex buckets.length x with
    | some v => organizeLoop (buckets.modify v (· ++ [i])) enum
    | none => .error .indexError

/-- `multimodal/pairing.py:24-31`, `organize_by_values` with `indices`. -/
def organizeIndices {ι : Type} (l : List ℤ) (nbValues : Option ℕ) (indices : List ι) :
    Py (List (List ι)) :=
  let nb := nbValues.getD l.dedup.length
  organizeLoop ((List.range nb).map fun _ => []) (indices.zip l)

/-- `multimodal/pairing.py:24-31`, `organize_by_values` without `indices` (positions are
enumerated). -/
def organizeEnum (l : List ℤ) (nbValues : Option ℕ) : Py (List (List ℕ)) :=
  let nb := nbValues.getD l.dedup.length
  organizeLoop ((List.range nb).map fun _ => []) (l.zipIdx.map fun p => (p.2, p.1))

/-- `multimodal/pairing.py:34-36`, `associate`. -/
def associate {ι : Type} (l : List (List (List ι))) : List (List (List ι)) :=
  (pyZipStar l).map pyZipStar

/-- `multimodal/pairing.py:43-62`, `associate_samples`: names, labels and associated indices.
`shuf m v` is the shuffle applied to the bucket of the `v`-th label of the `m`-th modality. -/
def associateSamples {L : Type} [DecidableEq L] (namesOf : ℕ → List L → List L)
    (shuf : ℕ → ℕ → List ℕ → List ℕ) (labels : List (List L)) :
    Py (List (List L) × List ℕ × List (List ℕ)) := do
  let pairs ← associateLabels namesOf labels
  match pairs.head? with
  | none => .error .valueError
  | some p0 =>
    let names := pairs.map Prod.fst
    let nLabels := p0.1.length
    if names.all fun l => l.length = nLabels then
      let byLabels ← (pairs.map Prod.snd).mapM fun l =>
        organizeEnum (l.map fun (k : ℕ) => (k : ℤ)) (some nLabels)
      let shuffled := byLabels.mapIdx fun m lMod => lMod.mapIdx fun v l => shuf m v l
      let associated := associate shuffled
      let newLabels := associated.mapIdx fun i l => List.replicate l.length i
      .ok (names, newLabels.flatten, associated.flatten)
    else .error .assertionError

/-- `.obj` of a window (`multimodal/lib/window.py:106`); only basic windows have that attribute. -/
def winObj {α β : Type} : Win α β → Py β
  | .basic w => .ok w.obj
  | _ => .error .attributeError

/-- Assignment `f.obj = x` (`multimodal/pairing.py:90`). -/
def setObj {α ι : Type} (x : ι) : Win α (Option ι) → Win α (Option ι)
  | .basic w => .basic { w with obj := some x }
  | w => w

/-- `buckets[label].pop()`: the element and the buckets left; `none` is `IndexError`. -/
def popAt {ι : Type} (buckets : List (List ι)) (label : ℤ) : Option (ι × List (List ι)) := do
  let v ← pyIndex buckets.length label
  let bucket ← buckets[v]?
  let x ← bucket.getLast?
  some (x, buckets.set v bucket.dropLast)

/-- `multimodal/pairing.py:85-93`, loop of `associate_to_window` over the frames. -/
def assignFrames {α ι : Type} (labels : Concat α ℤ) : List (List ι) → List (Win α (Option ι)) →
    Py (List (Win α (Option ι)))
  | _, [] => .ok []
  | buckets, f :: fs => do
    let w ← labels.getSubAt f.start
    let label ← winObj w
    match popAt buckets label with
    | none => .error .valueError
    | some (x, buckets') => do
      let rest ← assignFrames labels buckets' fs
      .ok (setObj x f :: rest)

/-- `multimodal/pairing.py:65-94`, `associate_to_window`.  `shuf v` is the shuffle of the `v`-th
bucket. -/
def associateToWindow {α ι : Type} (shuf : ℕ → List ι → List ι) (labels : Concat α ℤ)
    (frameIndex : List ι) (frameLabels : List ℤ) (rate : ℚ) : Py (Concat α (Option ι)) := do
  let grouped ← organizeIndices frameLabels none frameIndex
  let grouped := grouped.mapIdx shuf
  let start ← labels.start
  let stop ← labels.stop
  let framed ← concatOfFrames start stop rate
  let windows ← assignFrames labels grouped framed.windows
  .ok ⟨windows⟩

end Verif.Pairing
