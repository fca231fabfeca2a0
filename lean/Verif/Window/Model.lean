import Verif.Py
import Mathlib.Data.Rat.Floor

/-!
# Model of `multimodal/lib/window.py`

Times, rates and tolerances are rationals (floating point rounding is not modelled).
The classes are modelled as values; mutating methods return the new value.
Nested `ConcatTimeWindow`s (a concatenation inside a concatenation) are in
`Verif/Window/Nested.lean`.
-/

namespace Verif.Window

open Verif

/-- `TOL` (window.py:8). -/
def TOL : ℚ := 1 / 100000000

/-- `_to_approx_int` (window.py:20-30). -/
def toApproxInt (x tol : ℚ) (above : Bool) : ℤ :=
  let f := ⌊x⌋
  let c := ⌈x⌉
  if (c : ℚ) - x < tol then c
  else if x - (f : ℚ) < tol then f
  else if above then c
  else f

/-- `_snap_above` (window.py:33-34). -/
def snapAbove (x ref tol : ℚ) : ℚ :=
  if ref - tol < x then ref else x

/-- `_arange` (window.py:37-50). Division by a null step is Lean's `x / 0 = 0`, Python raises
`ZeroDivisionError`: see `Verif/Window/Steps.lean`. -/
def arange (left right step : ℚ) (incl : Bool) (tol : ℚ) : List ℚ :=
  let nSteps := toApproxInt ((right - left) * 1 / step) (tol / step) false
  if nSteps < 0 then []
  else
    let l := (List.range nSteps.toNat).map fun (i : ℕ) => left + (i : ℚ) * step
    let last := snapAbove (left + (nSteps : ℚ) * step) right tol
    if incl || last != right then l ++ [last] else l

/-- `TimeWindow.check_time` (window.py:86-92), on the bounds of the window. -/
def checkTime (start stop t : ℚ) : Py Unit :=
  if t < start then .error .timeOutOfBound
  else if t > stop then .error .timeOutOfBound
  else .ok ()

/-! ## Basic windows -/

/-- `BasicTimeWindow` (window.py:99-122). -/
structure BasicWin (β : Type) where
  start : ℚ
  stop : ℚ
  obj : β
  deriving DecidableEq, Repr

/-- `BasicTimeWindow.copy` (window.py:120-122). -/
def BasicWin.copy {β : Type} (w : BasicWin β) : BasicWin β := ⟨w.start, w.stop, w.obj⟩

/-- `BasicTimeWindow.get_subwindow` (window.py:112-118). -/
def BasicWin.getSub {β : Type} (w : BasicWin β) (tStart tEnd : ℚ) : Py (BasicWin β) := do
  checkTime w.start w.stop tStart
  checkTime w.start w.stop tEnd
  let new := w.copy
  pure { new with start := tStart, stop := if tStart < tEnd then tEnd else tStart }

/-- `TimeWindow.move` (window.py:82-84) on a basic window. -/
def BasicWin.move {β : Type} (w : BasicWin β) (delta : ℚ) : BasicWin β :=
  { w with start := w.start + delta, stop := w.stop + delta }

/-! ## Sampled windows -/

/-- `SampledTimeWindow._samples_to_duration` (window.py:146-147). -/
def samplesToDuration (rate : ℚ) (n : ℤ) : ℚ := (n : ℚ) * 1 / rate

/-- `SampledTimeWindow._get_index_after` (window.py:149-152). -/
def indexAfter (start stop rate t : ℚ) : Py ℤ := do
  checkTime start stop t
  pure (toApproxInt ((t - start) * rate) (TOL * rate) true)

/-- `SampledTimeWindow._get_index_before` (window.py:154-157). -/
def indexBefore (start stop rate t : ℚ) : Py ℤ := do
  checkTime start stop t
  pure (toApproxInt ((t - start) * rate) (TOL * rate) false)

/-- `SampledTimeWindow.get_times` (window.py:159-162). -/
def getTimes (start rate : ℚ) (nSamples : ℕ) : List ℚ :=
  (List.range nSamples).map fun (i : ℕ) =>
    start + (1 / 2 + (i : ℚ)) * samplesToDuration rate 1

/-- `ArrayTimeWindow` (window.py:165-201); `stop` is the attribute `absolute_end`. -/
structure ArrayWin (α : Type) where
  array : List α
  start : ℚ
  stop : ℚ
  rate : ℚ
  deriving DecidableEq, Repr

/-- `ArrayTimeWindow.__init__` (window.py:170-172) with `SampledTimeWindow.__init__`
(window.py:132-136). -/
def ArrayWin.init {α : Type} (array : List α) (start rate : ℚ) : ArrayWin α :=
  { array := array, start := start, rate := rate
    stop := start + samplesToDuration rate (array.length : ℤ) }

/-- `ArrayTimeWindow.get_subwindow` (window.py:178-183). -/
def ArrayWin.getSub {α : Type} (w : ArrayWin α) (tStart tEnd : ℚ) : Py (ArrayWin α) := do
  let iStart ← indexAfter w.start w.stop w.rate tStart
  let iEnd ← indexBefore w.start w.stop w.rate tEnd
  let newStart := w.start + samplesToDuration w.rate iStart
  pure (ArrayWin.init (pySlice w.array iStart iEnd) newStart w.rate)

/-- `ArrayTimeWindow.copy` (window.py:188-189), also `to_array_window` (window.py:185-186). -/
def ArrayWin.copy {α : Type} (w : ArrayWin α) : ArrayWin α :=
  ArrayWin.init w.array w.start w.rate

/-- `TimeWindow.move` (window.py:82-84) on an array window. -/
def ArrayWin.move {α : Type} (w : ArrayWin α) (delta : ℚ) : ArrayWin α :=
  { w with start := w.start + delta, stop := w.stop + delta }

/-- `ArrayTimeWindow.concatenate` (window.py:194-201). An empty list raises `ValueError` in
`np.hstack`. -/
def ArrayWin.concatenate {α : Type} (wins : List (ArrayWin α)) : Py (ArrayWin α) :=
  match wins with
  | [] => .error .valueError
  | w0 :: ws =>
    if (w0 :: ws).all (fun w => w.rate == w0.rate) then
      .ok (ArrayWin.init ((w0 :: ws).map (fun w => w.array)).flatten w0.start w0.rate)
    else .error .valueError

/-- Wav files: for each path, the sample rate and the samples (`wavfile.read`). -/
abbrev WavFiles (α : Type) := String → ℚ × List α

/-- `WavFileTimeWindow` (window.py:204-261). -/
structure WavWin where
  path : String
  start : ℚ
  stop : ℚ
  rate : ℚ
  startAfter : ℤ
  stopIndex : ℤ
  deriving DecidableEq, Repr

/-- `WavFileTimeWindow.__init__` (window.py:211-221) with `n_samples_and_rate` given. -/
def WavWin.initWith (path : String) (start : ℚ) (nSamples : ℤ) (rate : ℚ) : WavWin :=
  { path := path, start := start, rate := rate
    stop := start + samplesToDuration rate nSamples
    startAfter := 0, stopIndex := nSamples }

/-- `WavFileTimeWindow.__init__` (window.py:211-221) reading the file. -/
def WavWin.init {α : Type} (files : WavFiles α) (path : String) (start : ℚ) : WavWin :=
  let (rate, samples) := files path
  WavWin.initWith path start (samples.length : ℤ) rate

/-- `WavFileTimeWindow.n_samples` (window.py:223-225). -/
def WavWin.nSamples (w : WavWin) : ℤ := w.stopIndex - w.startAfter

/-- `WavFileTimeWindow._delay_start` (window.py:227-232). -/
def WavWin.delayStart (w : WavWin) (t : ℚ) : Py WavWin := do
  let shift ← indexAfter w.start w.stop w.rate t
  pure { w with
    start := w.start + samplesToDuration w.rate shift
    startAfter := w.startAfter + shift }

/-- `WavFileTimeWindow._stop_at` (window.py:234-238). -/
def WavWin.stopAt (w : WavWin) (t : ℚ) : Py WavWin := do
  let stopAfter ← indexBefore w.start w.stop w.rate t
  pure { w with
    stopIndex := w.startAfter + stopAfter
    stop := w.start + samplesToDuration w.rate stopAfter }

/-- `WavFileTimeWindow._crop` (window.py:240-242). -/
def WavWin.crop (w : WavWin) (tStart tEnd : ℚ) : Py WavWin := do
  let w ← w.delayStart tStart
  w.stopAt tEnd

/-- `WavFileTimeWindow.copy` (window.py:249-256). -/
def WavWin.copy (w : WavWin) : WavWin :=
  let new := WavWin.initWith w.path w.start (w.stopIndex - w.startAfter) w.rate
  { new with startAfter := w.startAfter, stopIndex := w.stopIndex }

/-- `WavFileTimeWindow.get_subwindow` (window.py:244-247). -/
def WavWin.getSub (w : WavWin) (tStart tEnd : ℚ) : Py WavWin :=
  w.copy.crop tStart tEnd

/-- `TimeWindow.move` (window.py:82-84) on a wav window. -/
def WavWin.move (w : WavWin) (delta : ℚ) : WavWin :=
  { w with start := w.start + delta, stop := w.stop + delta }

/-- `WavFileTimeWindow.to_array_window` (window.py:258-261). -/
def WavWin.toArray {α : Type} (files : WavFiles α) (w : WavWin) : ArrayWin α :=
  let (sr, samples) := files w.path
  ArrayWin.init (pySlice samples w.startAfter w.stopIndex) w.start sr

/-! ## Windows of any kind -/

/-- A window of one of the three basic classes. -/
inductive Win (α β : Type)
  | basic (w : BasicWin β)
  | array (w : ArrayWin α)
  | wav (w : WavWin)
  deriving DecidableEq, Repr

namespace Win

variable {α β : Type}

/-- Attribute `absolute_start`. -/
def start : Win α β → ℚ
  | basic w => w.start
  | array w => w.start
  | wav w => w.start

/-- Attribute `absolute_end`. -/
def stop : Win α β → ℚ
  | basic w => w.stop
  | array w => w.stop
  | wav w => w.stop

/-- `TimeWindow.duration` (window.py:65-66). -/
def duration (w : Win α β) : ℚ := w.stop - w.start

/-- `TimeWindow.move` (window.py:82-84). -/
def move (w : Win α β) (delta : ℚ) : Win α β :=
  match w with
  | basic w => basic (w.move delta)
  | array w => array (w.move delta)
  | wav w => wav (w.move delta)

/-- `copy` (window.py:120-122, 188-189, 249-256). -/
def copy : Win α β → Win α β
  | basic w => basic w.copy
  | array w => array w.copy
  | wav w => wav w.copy

/-- `get_subwindow` (window.py:112-118, 178-183, 244-247). -/
def getSub (w : Win α β) (a b : ℚ) : Py (Win α β) :=
  match w with
  | basic w => do pure (basic (← w.getSub a b))
  | array w => do pure (array (← w.getSub a b))
  | wav w => do pure (wav (← w.getSub a b))

/-- `to_array_window` (window.py:185-186, 258-261); basic windows have no such method. -/
def toArray (files : WavFiles α) : Win α β → Py (ArrayWin α)
  | basic _ => .error .attributeError
  | array w => .ok w.copy
  | wav w => .ok (w.toArray files)

end Win

/-! ## Concatenated windows -/

/-- `ConcatTimeWindow` (window.py:264-329). -/
structure Concat (α β : Type) where
  windows : List (Win α β)
  deriving DecidableEq, Repr

/-- Loop of `bisect.bisect_left(a, x, lo, hi)` of the Python standard library: binary search. The
first argument bounds the number of iterations; `hi - lo` iterations always suffice. -/
def bisectLeftAux (a : List ℚ) (x : ℚ) : ℕ → ℕ → ℕ → ℕ
  | 0, lo, _ => lo
  | k + 1, lo, hi =>
    if lo < hi then
      let mid := (lo + hi) / 2
      if a.getD mid 0 < x then bisectLeftAux a x k (mid + 1) hi
      else bisectLeftAux a x k lo mid
    else lo

/-- `bisect.bisect_left(a, x)`. -/
def bisectLeft (a : List ℚ) (x : ℚ) : ℕ := bisectLeftAux a x a.length 0 a.length

namespace Concat

variable {α β : Type}

/-- `ConcatTimeWindow._ends` (window.py:311-312). -/
def ends (ws : List (Win α β)) : List ℚ := ws.map Win.stop

/-- `ConcatTimeWindow.__init__` (window.py:267-276). -/
def init (windows : List (Win α β)) : Py (Concat α β) :=
  if windows.length < 1 then .error .valueError
  else
    let starts := (windows.drop 1).map Win.start
    let es := (ends windows).dropLast
    let gaps := (List.zip es starts).map (fun p => |p.1 - p.2|) ++ [0]
    if gaps.foldl max 0 > TOL then .error .valueError
    else .ok ⟨windows⟩

/-- Property `absolute_start` (window.py:278-280). -/
def start (c : Concat α β) : Py ℚ :=
  match c.windows.head? with
  | some w => .ok w.start
  | none => .error .indexError

/-- Property `absolute_end` (window.py:282-284). -/
def stop (c : Concat α β) : Py ℚ :=
  match c.windows.getLast? with
  | some w => .ok w.stop
  | none => .error .indexError

/-- `ConcatTimeWindow.move` (window.py:286-288). -/
def move (c : Concat α β) (delta : ℚ) : Concat α β :=
  ⟨c.windows.map (fun w => w.move delta)⟩

/-- `ConcatTimeWindow._get_file_index_from_time` (window.py:314-316). -/
def fileIndex (c : Concat α β) (t : ℚ) : Py ℕ := do
  let s ← c.start
  let e ← c.stop
  checkTime s e t
  pure (bisectLeft (ends c.windows) t)

/-- `ConcatTimeWindow.get_subwindow` (window.py:290-298). The first assignment replaces the head
of the list of copies, the second one its last element. -/
def getSub (c : Concat α β) (tStart tEnd : ℚ) : Py (Concat α β) := do
  let iStart ← c.fileIndex tStart
  let iEnd ← c.fileIndex tEnd
  let news := (pySlice c.windows iStart (1 + iEnd)).map Win.copy
  match news with
  | [] => .error .indexError
  | w0 :: rest =>
    let w0' ← w0.getSub tStart w0.stop
    match (w0' :: rest).getLast? with
    | none => .error .indexError
    | some wl => do
      let wl' ← wl.getSub wl.start tEnd
      init ((w0' :: rest).dropLast ++ [wl'])

/-- `ConcatTimeWindow.to_array_window` (window.py:300-303). -/
def toArray (files : WavFiles α) (c : Concat α β) : Py (ArrayWin α) := do
  let arrays ← c.windows.mapM (Win.toArray files)
  ArrayWin.concatenate arrays

/-- `ConcatTimeWindow.copy` (window.py:305-306). -/
def copy (c : Concat α β) : Py (Concat α β) := init (c.windows.map Win.copy)

/-- `ConcatTimeWindow.get_subwindow_at` (window.py:308-309). -/
def getSubAt (c : Concat α β) (t : ℚ) : Py (Win α β) := do
  let i ← c.fileIndex t
  pyGet c.windows i

/-- Loop of `ConcatTimeWindow.align` (window.py:325-328). -/
def alignFrom (t : ℚ) : List (Win α β) → List (Win α β)
  | [] => []
  | w :: ws =>
    let w' := w.move (t - w.start)
    w' :: alignFrom (t + w'.duration) ws

/-- `ConcatTimeWindow.align` (window.py:318-329). -/
def align (windows : List (Win α β)) (start : Option ℚ) : Py (List (Win α β)) :=
  match start with
  | some t => .ok (alignFrom t windows)
  | none =>
    match windows with
    | [] => .error .indexError
    | w :: ws => .ok (alignFrom w.start (w :: ws))

end Concat

/-- `concat_from_list_of_wavs` (window.py:332-335). -/
def concatFromListOfWavs {α : Type} (files : WavFiles α) (paths : List String)
    (start : Option ℚ) : Py (Concat α Unit) := do
  let ws ← Concat.align (paths.map fun f => Win.wav (WavWin.init files f 0)) start
  Concat.init ws

/-- `save_wav` (window.py:338-342): what is written (rate and samples). A window without a rate
raises `AttributeError`. -/
def saveWav {α β : Type} (files : WavFiles α) (c : Concat α β) : Py (ℚ × List α) :=
  match c.windows.head? with
  | none => .error .indexError
  | some w => do
    let rate ← (match w with
      | .basic _ => .error .attributeError
      | .array w => .ok w.rate
      | .wav w => .ok w.rate : Py ℚ)
    let arr ← c.toArray files
    pure (rate, arr.array)

/-- `slider` (window.py:345-357). -/
def slider (tStart tEnd width shift : ℚ) (partialWin : Bool) (tol : ℚ) : List (ℚ × ℚ) :=
  let endStart := if partialWin then tEnd else tEnd - width
  let starts := arange tStart endStart shift (!partialWin) tol
  starts.map fun t => (t, snapAbove (t + width) tEnd tol)

/-- `concat_of_frames` (window.py:360-367); the frames carry `None`. -/
def concatOfFrames {α γ : Type} (tStart tEnd rate : ℚ) : Py (Concat α (Option γ)) :=
  let duration := 1 / rate
  let times := slider tStart tEnd duration duration true TOL
  Concat.init (times.map fun p => Win.basic ⟨p.1, p.2, none⟩)

end Verif.Window
