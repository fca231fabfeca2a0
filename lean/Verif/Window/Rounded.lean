import Verif.Window.Model
import Verif.Window.Float

/-!
# Model of `multimodal/lib/window.py` with rounding

The model of `Verif.Window.Model`, where each operation on times is rounded by `fl`.  Windows are the same values.
Conversions of integers to floats are not rounded: they are exact up to 2 ^ 53.
-/

namespace Verif.Window.Fl

open Verif Verif.Window

variable (fl : ℚ → ℚ)

/-- `TOL` (`/repo/multimodal/lib/window.py:8`), the float which is nearest to the literal. -/
def TOL : ℚ := fl (1 / 100000000)

/-- `_to_approx_int` (`/repo/multimodal/lib/window.py:20-30`). -/
def toApproxInt (x tol : ℚ) (above : Bool) : ℤ :=
  let f := ⌊x⌋
  let c := ⌈x⌉
  if fl ((c : ℚ) - x) < tol then c
  else if fl (x - (f : ℚ)) < tol then f
  else if above then c
  else f

/-- `_snap_above` (`/repo/multimodal/lib/window.py:33-34`). -/
def snapAbove (x ref tol : ℚ) : ℚ :=
  if fl (ref - tol) < x then ref else x

/-- `_arange` (`/repo/multimodal/lib/window.py:37-50`), for a step which is not null. -/
def arange (left right step : ℚ) (incl : Bool) (tol : ℚ) : List ℚ :=
  let nSteps := toApproxInt fl (fl (fl (fl (right - left) * 1) / step)) (fl (tol / step)) false
  if nSteps < 0 then []
  else
    let l := (List.range nSteps.toNat).map fun (i : ℕ) => fl (left + fl ((i : ℚ) * step))
    let last := snapAbove fl (fl (left + fl ((nSteps : ℚ) * step))) right tol
    if incl || last != right then l ++ [last] else l

/-! ## Windows -/

/-- `TimeWindow.move` (`/repo/multimodal/lib/window.py:82-84`) on a basic window. -/
def basicMove {β : Type} (w : BasicWin β) (delta : ℚ) : BasicWin β :=
  { w with start := fl (w.start + delta), stop := fl (w.stop + delta) }

/-- `SampledTimeWindow._samples_to_duration` (`/repo/multimodal/lib/window.py:146-147`). -/
def samplesToDuration (rate : ℚ) (n : ℤ) : ℚ := fl (fl ((n : ℚ) * 1) / rate)

/-- `SampledTimeWindow._get_index_after` (`/repo/multimodal/lib/window.py:149-152`). -/
def indexAfter (start stop rate t : ℚ) : Py ℤ := do
  checkTime start stop t
  pure (toApproxInt fl (fl (fl (t - start) * rate)) (fl (TOL fl * rate)) true)

/-- `SampledTimeWindow._get_index_before` (`/repo/multimodal/lib/window.py:154-157`). -/
def indexBefore (start stop rate t : ℚ) : Py ℤ := do
  checkTime start stop t
  pure (toApproxInt fl (fl (fl (t - start) * rate)) (fl (TOL fl * rate)) false)

/-- `ArrayTimeWindow.__init__` (`/repo/multimodal/lib/window.py:170-172`) with `SampledTimeWindow.__init__`
(`/repo/multimodal/lib/window.py:132-136`). -/
def arrayInit {α : Type} (array : List α) (start rate : ℚ) : ArrayWin α :=
  { array := array, start := start, rate := rate
    stop := fl (start + samplesToDuration fl rate (array.length : ℤ)) }

/-- `ArrayTimeWindow.get_subwindow` (`/repo/multimodal/lib/window.py:178-183`). -/
def arrayGetSub {α : Type} (w : ArrayWin α) (tStart tEnd : ℚ) : Py (ArrayWin α) := do
  let iStart ← indexAfter fl w.start w.stop w.rate tStart
  let iEnd ← indexBefore fl w.start w.stop w.rate tEnd
  let newStart := fl (w.start + samplesToDuration fl w.rate iStart)
  pure (arrayInit fl (pySlice w.array iStart iEnd) newStart w.rate)

/-- `ArrayTimeWindow.copy` (`/repo/multimodal/lib/window.py:188-189`), also `to_array_window`
(`/repo/multimodal/lib/window.py:185-186`). -/
def arrayCopy {α : Type} (w : ArrayWin α) : ArrayWin α := arrayInit fl w.array w.start w.rate

/-- `TimeWindow.move` (`/repo/multimodal/lib/window.py:82-84`) on an array window. -/
def arrayMove {α : Type} (w : ArrayWin α) (delta : ℚ) : ArrayWin α :=
  { w with start := fl (w.start + delta), stop := fl (w.stop + delta) }

/-- `ArrayTimeWindow.concatenate` (`/repo/multimodal/lib/window.py:194-201`). -/
def concatenate {α : Type} (wins : List (ArrayWin α)) : Py (ArrayWin α) :=
  match wins with
  | [] => .error .valueError
  | w0 :: ws =>
    if (w0 :: ws).all (fun w => w.rate == w0.rate) then
      .ok (arrayInit fl ((w0 :: ws).map (fun w => w.array)).flatten w0.start w0.rate)
    else .error .valueError

/-- `WavFileTimeWindow.__init__` (`/repo/multimodal/lib/window.py:211-221`) with `n_samples_and_rate` given. -/
def wavInitWith (path : String) (start : ℚ) (nSamples : ℤ) (rate : ℚ) : WavWin :=
  { path := path, start := start, rate := rate
    stop := fl (start + samplesToDuration fl rate nSamples)
    startAfter := 0, stopIndex := nSamples }

/-- `WavFileTimeWindow.__init__` (`/repo/multimodal/lib/window.py:211-221`) reading the file. -/
def wavInit {α : Type} (files : WavFiles α) (path : String) (start : ℚ) : WavWin :=
  let (rate, samples) := files path
  wavInitWith fl path start (samples.length : ℤ) rate

/-- `WavFileTimeWindow._delay_start` (`/repo/multimodal/lib/window.py:227-232`). -/
def delayStart (w : WavWin) (t : ℚ) : Py WavWin := do
  let shift ← indexAfter fl w.start w.stop w.rate t
  pure { w with
    start := fl (w.start + samplesToDuration fl w.rate shift)
    startAfter := w.startAfter + shift }

/-- `WavFileTimeWindow._stop_at` (`/repo/multimodal/lib/window.py:234-238`). -/
def stopAt (w : WavWin) (t : ℚ) : Py WavWin := do
  let stopAfter ← indexBefore fl w.start w.stop w.rate t
  pure { w with
    stopIndex := w.startAfter + stopAfter
    stop := fl (w.start + samplesToDuration fl w.rate stopAfter) }

/-- `WavFileTimeWindow._crop` (`/repo/multimodal/lib/window.py:240-242`). -/
def crop (w : WavWin) (tStart tEnd : ℚ) : Py WavWin := do
  let w ← delayStart fl w tStart
  stopAt fl w tEnd

/-- `WavFileTimeWindow.copy` (`/repo/multimodal/lib/window.py:249-256`). -/
def wavCopy (w : WavWin) : WavWin :=
  let new := wavInitWith fl w.path w.start (w.stopIndex - w.startAfter) w.rate
  { new with startAfter := w.startAfter, stopIndex := w.stopIndex }

/-- `WavFileTimeWindow.get_subwindow` (`/repo/multimodal/lib/window.py:244-247`). -/
def wavGetSub (w : WavWin) (tStart tEnd : ℚ) : Py WavWin := crop fl (wavCopy fl w) tStart tEnd

/-- `TimeWindow.move` (`/repo/multimodal/lib/window.py:82-84`) on a wav window. -/
def wavMove (w : WavWin) (delta : ℚ) : WavWin :=
  { w with start := fl (w.start + delta), stop := fl (w.stop + delta) }

/-- `WavFileTimeWindow.to_array_window` (`/repo/multimodal/lib/window.py:258-261`). -/
def wavToArray {α : Type} (files : WavFiles α) (w : WavWin) : ArrayWin α :=
  let (sr, samples) := files w.path
  arrayInit fl (pySlice samples w.startAfter w.stopIndex) w.start sr

/-- `TimeWindow.duration` (`/repo/multimodal/lib/window.py:65-66`). -/
def duration {α β : Type} (w : Win α β) : ℚ := fl (w.stop - w.start)

/-- `TimeWindow.move` (`/repo/multimodal/lib/window.py:82-84`). -/
def move {α β : Type} (w : Win α β) (delta : ℚ) : Win α β :=
  match w with
  | .basic w => .basic (basicMove fl w delta)
  | .array w => .array (arrayMove fl w delta)
  | .wav w => .wav (wavMove fl w delta)

/-- `copy` (`/repo/multimodal/lib/window.py:120-122,188-189,249-256`). -/
def copy {α β : Type} : Win α β → Win α β
  | .basic w => .basic w.copy
  | .array w => .array (arrayCopy fl w)
  | .wav w => .wav (wavCopy fl w)

/-- `get_subwindow` (`/repo/multimodal/lib/window.py:112-118,178-183,244-247`). -/
def getSub {α β : Type} (w : Win α β) (a b : ℚ) : Py (Win α β) :=
  match w with
  | .basic w => do pure (.basic (← w.getSub a b))
  | .array w => do pure (.array (← arrayGetSub fl w a b))
  | .wav w => do pure (.wav (← wavGetSub fl w a b))

/-! ## Concatenated windows -/

variable {α β : Type}

/-- `ConcatTimeWindow.__init__` (`/repo/multimodal/lib/window.py:267-276`). -/
def concatInit (windows : List (Win α β)) : Py (Concat α β) :=
  if windows.length < 1 then .error .valueError
  else
    let starts := (windows.drop 1).map Win.start
    let es := (Concat.ends windows).dropLast
    let gaps := (List.zip es starts).map (fun p => |fl (p.1 - p.2)|) ++ [0]
    if gaps.foldl max 0 > TOL fl then .error .valueError
    else .ok ⟨windows⟩

/-- `ConcatTimeWindow.move` (`/repo/multimodal/lib/window.py:286-288`). -/
def concatMove (c : Concat α β) (delta : ℚ) : Concat α β := ⟨c.windows.map (fun w => move fl w delta)⟩

/-- `ConcatTimeWindow.get_subwindow` (`/repo/multimodal/lib/window.py:290-298`), as in `Concat.getSub`. -/
def concatGetSub (c : Concat α β) (tStart tEnd : ℚ) : Py (Concat α β) := do
  let iStart ← c.fileIndex tStart
  let iEnd ← c.fileIndex tEnd
  let news := (pySlice c.windows iStart (1 + iEnd)).map (copy fl)
  match news with
  | [] => .error .indexError
  | w0 :: rest =>
    let w0' ← getSub fl w0 tStart w0.stop
    match (w0' :: rest).getLast? with
    | none => .error .indexError
    | some wl => do
      let wl' ← getSub fl wl wl.start tEnd
      concatInit fl ((w0' :: rest).dropLast ++ [wl'])

/-- Loop of `ConcatTimeWindow.align` (`/repo/multimodal/lib/window.py:325-328`). -/
def alignFrom (t : ℚ) : List (Win α β) → List (Win α β)
  | [] => []
  | w :: ws =>
    let w' := move fl w (fl (t - w.start))
    w' :: alignFrom (fl (t + duration fl w')) ws

/-- `ConcatTimeWindow.align` (`/repo/multimodal/lib/window.py:318-329`). -/
def align (windows : List (Win α β)) (start : Option ℚ) : Py (List (Win α β)) :=
  match start with
  | some t => .ok (alignFrom fl t windows)
  | none =>
    match windows with
    | [] => .error .indexError
    | w :: ws => .ok (alignFrom fl w.start (w :: ws))

/-- `concat_from_list_of_wavs` (`/repo/multimodal/lib/window.py:332-335`). -/
def concatFromListOfWavs (files : WavFiles α) (paths : List String) (start : Option ℚ) : Py (Concat α Unit) := do
  let ws ← align fl (paths.map fun f => Win.wav (wavInit fl files f 0)) start
  concatInit fl ws

/-- `slider` (`/repo/multimodal/lib/window.py:345-357`). -/
def slider (tStart tEnd width shift : ℚ) (partialWin : Bool) (tol : ℚ) : List (ℚ × ℚ) :=
  let endStart := if partialWin then tEnd else fl (tEnd - width)
  let starts := arange fl tStart endStart shift (!partialWin) tol
  starts.map fun t => (t, snapAbove fl (fl (t + width)) tEnd tol)

/-- `concat_of_frames` (`/repo/multimodal/lib/window.py:360-367`); the frames carry `None`. -/
def concatOfFrames {γ : Type} (tStart tEnd rate : ℚ) : Py (Concat α (Option γ)) :=
  let duration := fl (1 / rate)
  let times := slider fl tStart tEnd duration duration true (TOL fl)
  concatInit fl (times.map fun p => Win.basic ⟨p.1, p.2, none⟩)

/-! ## Without rounding -/

/-- Without rounding this is the model of `Verif.Window.Model`. -/
theorem model_id {γ : Type} :
    (∀ l r s i t, arange id l r s i t = Window.arange l r s i t) ∧
    (∀ (w : Win α β) a b, getSub id w a b = w.getSub a b) ∧
    (∀ (c : Concat α β) a b, concatGetSub id c a b = c.getSub a b) ∧
    (∀ (ws : List (Win α β)) s, align id ws s = Concat.align ws s) ∧
    (∀ (f : WavFiles α) p s, concatFromListOfWavs id f p s = Window.concatFromListOfWavs f p s) ∧
    (∀ a b w s p t, slider id a b w s p t = Window.slider a b w s p t) ∧
    (∀ a b r, concatOfFrames (α := α) (γ := γ) id a b r = Window.concatOfFrames a b r) := by
  have hc : ∀ w : Win α β, copy id w = w.copy := by intro w; cases w <;> rfl
  have hg : ∀ (w : Win α β) a b, getSub id w a b = w.getSub a b := by intro w a b; cases w <;> rfl
  have ha' : ∀ {β : Type} (ws : List (Win α β)) t, alignFrom id t ws = Concat.alignFrom t ws := by
    intro β ws
    induction ws with
    | nil => intro t; rfl
    | cons w ws ih =>
      intro t
      unfold alignFrom Concat.alignFrom
      simp only []
      rw [ih]
      cases w <;> rfl
  have ha : ∀ {β : Type} (ws : List (Win α β)) s, align id ws s = Concat.align ws s := by
    intro β ws s
    unfold align Concat.align
    cases s with
    | some t => simp only [ha']
    | none => cases ws with
      | nil => rfl
      | cons w ws => simp only [ha']
  refine ⟨fun _ _ _ _ _ => rfl, hg, ?_, ha, ?_, fun _ _ _ _ _ _ => rfl, fun _ _ _ => rfl⟩
  · intro c a b
    unfold concatGetSub Concat.getSub
    rw [show (copy id : Win α β → Win α β) = Win.copy from funext hc]
    simp only [hg]
    rfl
  · intro f p s
    unfold concatFromListOfWavs Window.concatFromListOfWavs
    rw [ha]
    rfl

end Verif.Window.Fl
