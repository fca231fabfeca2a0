import Verif.Window.Model
import Mathlib.Logic.Function.Basic

/-!
# Windows as objects (`multimodal/lib/window.py`)

`Verif/Window/Model.lean` describes windows by their values.  In the code windows are objects which `move` and
`align` change in place, a concatenation keeps the list it was given, and arrays of copies and of sub-windows are
numpy views of the same memory.  Here windows, arrays and lists have addresses.
-/

namespace Verif.Window.H

open Verif

variable {α β : Type}

/-- A numpy view: `len` consecutive elements from `off` of the memory at address `buf`. -/
structure View where
  buf : ℕ
  off : ℕ
  len : ℕ
  deriving DecidableEq, Repr

/-- `a[i:j]` for a numpy array: a view of the same memory (bounds as in `pySlice`). -/
def View.slice (v : View) (i j : ℤ) : View :=
  ⟨v.buf, v.off + pyBound v.len i, pyBound v.len j - pyBound v.len i⟩

/-- Objects of the three basic classes of windows (window.py:99-261); the array of an `ArrayTimeWindow` is a view. -/
inductive Obj (β : Type)
  | basic (w : BasicWin β)
  | array (v : View) (start stop rate : ℚ)
  | wav (w : WavWin)
  deriving DecidableEq, Repr

/-- Objects, memory of arrays and lists of windows, each with the first address which is not used. -/
structure Heap (α β : Type) where
  objs : ℕ → Obj β
  next : ℕ
  bufs : ℕ → List α
  nextBuf : ℕ
  lists : ℕ → List ℕ
  nextList : ℕ

namespace Obj

/-- Attribute `absolute_start`. -/
def start : Obj β → ℚ
  | basic w => w.start
  | array _ s _ _ => s
  | wav w => w.start

/-- Attribute `absolute_end`. -/
def stop : Obj β → ℚ
  | basic w => w.stop
  | array _ _ e _ => e
  | wav w => w.stop

/-- `TimeWindow.move` (window.py:82-84). -/
def move (o : Obj β) (d : ℚ) : Obj β :=
  match o with
  | basic w => basic (w.move d)
  | array v s e r => array v (s + d) (e + d) r
  | wav w => wav (w.move d)

/-- `ArrayTimeWindow.__init__` (window.py:170-172) of a view. -/
def ofView (v : View) (start rate : ℚ) : Obj β := array v start (start + samplesToDuration rate (v.len : ℤ)) rate

/-- `copy` (window.py:120-122, 188-189, 249-256): the array is given to the new window as it is. -/
def copy : Obj β → Obj β
  | basic w => basic w.copy
  | array v s _ r => ofView v s r
  | wav w => wav w.copy

/-- `get_subwindow` (window.py:112-118, 178-183, 244-247). -/
def getSub (o : Obj β) (a b : ℚ) : Py (Obj β) :=
  match o with
  | basic w => do pure (basic (← w.getSub a b))
  | array v s e r => do
    let iStart ← indexAfter s e r a
    let iEnd ← indexBefore s e r b
    pure (ofView (v.slice iStart iEnd) (s + samplesToDuration r iStart) r)
  | wav w => do pure (wav (← w.getSub a b))

end Obj

namespace Heap

/-- The elements of a view. -/
def read (h : Heap α β) (v : View) : List α := ((h.bufs v.buf).drop v.off).take v.len

/-- What an object looks like. -/
def value (h : Heap α β) : Obj β → Win α β
  | .basic w => .basic w
  | .array v s e r => .array ⟨h.read v, s, e, r⟩
  | .wav w => .wav w

/-- What the window at an address looks like. -/
def win (h : Heap α β) (l : ℕ) : Win α β := h.value (h.objs l)

/-- The windows of a list, as values. -/
def values (h : Heap α β) (c : ℕ) : List (Win α β) := (h.lists c).map h.win

/-- A new object. -/
def alloc (h : Heap α β) (o : Obj β) : Heap α β × ℕ :=
  ({ h with objs := Function.update h.objs h.next o, next := h.next + 1 }, h.next)

/-- A new array. -/
def allocBuf (h : Heap α β) (l : List α) : Heap α β × View :=
  ({ h with bufs := Function.update h.bufs h.nextBuf l, nextBuf := h.nextBuf + 1 }, ⟨h.nextBuf, 0, l.length⟩)

/-- A new list. -/
def allocList (h : Heap α β) (ls : List ℕ) : Heap α β × ℕ :=
  ({ h with lists := Function.update h.lists h.nextList ls, nextList := h.nextList + 1 }, h.nextList)

/-- `w.move(d)` (window.py:82-84) in place. -/
def moveAt (h : Heap α β) (l : ℕ) (d : ℚ) : Heap α β :=
  { h with objs := Function.update h.objs l ((h.objs l).move d) }

/-- `w.copy()`. -/
def copyAt (h : Heap α β) (l : ℕ) : Heap α β × ℕ := h.alloc (h.objs l).copy

/-- `w.get_subwindow(a, b)`.  The copy made by `WavFileTimeWindow.get_subwindow` before an exception is lost and
left out. -/
def subAt (h : Heap α β) (l : ℕ) (a b : ℚ) : Heap α β × Py ℕ :=
  match (h.objs l).getSub a b with
  | .error e => (h, .error e)
  | .ok o => ((h.alloc o).1, .ok (h.alloc o).2)

/-- `w.array[i] = x` for the window at an address, as done by users of a window; `IndexError` and other windows are
left out. -/
def write (h : Heap α β) (l i : ℕ) (x : α) : Heap α β :=
  match h.objs l with
  | .array v _ _ _ =>
    if i < v.len then { h with bufs := Function.update h.bufs v.buf ((h.bufs v.buf).set (v.off + i) x) } else h
  | _ => h

/-! ### Concatenations

The only attribute of a `ConcatTimeWindow` is its list of windows: it is given by the address of this list. -/

/-- `ConcatTimeWindow.__init__` (window.py:267-276): the list itself is kept. -/
def concatNew (h : Heap α β) (c : ℕ) : Py ℕ := do
  let _ ← Concat.init (h.values c)
  pure c

/-- `ConcatTimeWindow.move` (window.py:286-288). -/
def concatMove (h : Heap α β) (c : ℕ) (d : ℚ) : Heap α β := (h.lists c).foldl (fun h l => h.moveAt l d) h

/-- The loop of `ConcatTimeWindow.align` (window.py:325-328). -/
def alignLoop (h : Heap α β) (t : ℚ) : List ℕ → Heap α β
  | [] => h
  | l :: ls =>
    let h' := h.moveAt l (t - (h.objs l).start)
    alignLoop h' (t + ((h'.objs l).stop - (h'.objs l).start)) ls

/-- `ConcatTimeWindow.align` (window.py:318-329), which returns the list it is given. -/
def align (h : Heap α β) (c : ℕ) (start : Option ℚ) : Heap α β × Py ℕ :=
  match start with
  | some t => (h.alignLoop t (h.lists c), .ok c)
  | none =>
    match h.lists c with
    | [] => (h, .error .indexError)
    | l :: ls => (h.alignLoop (h.objs l).start (l :: ls), .ok c)

/-- `[w.copy() for w in windows]`. -/
def copyAll (h : Heap α β) : List ℕ → Heap α β × List ℕ
  | [] => (h, [])
  | l :: ls => (((h.copyAt l).1.copyAll ls).1, (h.copyAt l).2 :: ((h.copyAt l).1.copyAll ls).2)

/-- `ConcatTimeWindow.copy` (window.py:305-306). -/
def concatCopy (h : Heap α β) (c : ℕ) : Heap α β × Py ℕ :=
  let r := h.copyAll (h.lists c)
  let r' := r.1.allocList r.2
  (r'.1, r'.1.concatNew r'.2)

/-- `ConcatTimeWindow.get_subwindow_at` (window.py:308-309): the window itself, not a copy. -/
def concatAt (h : Heap α β) (c : ℕ) (t : ℚ) : Py ℕ := do
  let i ← (Concat.mk (h.values c)).fileIndex t
  pyGet (h.lists c) i

/-- The end of `ConcatTimeWindow.get_subwindow` (window.py:293-298), from the copies of windows. -/
def crop (h : Heap α β) (news : List ℕ) (a b : ℚ) : Heap α β × Py ℕ :=
  match news with
  | [] => (h, .error .indexError)
  | l :: rest =>
    match h.subAt l a (h.objs l).stop with
    | (h, .error e) => (h, .error e)
    | (h, .ok l') =>
      match (l' :: rest).getLast? with
      | none => (h, .error .indexError)
      | some k =>
        match h.subAt k (h.objs k).start b with
        | (h, .error e) => (h, .error e)
        | (h, .ok k') =>
          let r := h.allocList ((l' :: rest).dropLast ++ [k'])
          (r.1, r.1.concatNew r.2)

/-- `ConcatTimeWindow.get_subwindow` (window.py:290-298). -/
def concatSub (h : Heap α β) (c : ℕ) (a b : ℚ) : Heap α β × Py ℕ :=
  match (Concat.mk (h.values c)).fileIndex a with
  | .error e => (h, .error e)
  | .ok i =>
    match (Concat.mk (h.values c)).fileIndex b with
    | .error e => (h, .error e)
    | .ok j =>
      let r := h.copyAll (pySlice (h.lists c) i (1 + j))
      r.1.crop r.2 a b

/-- `wins.append(w)` on a list, as done by users. -/
def append (h : Heap α β) (c l : ℕ) : Heap α β :=
  { h with lists := Function.update h.lists c (h.lists c ++ [l]) }

/-- `to_array_window` (window.py:185-186, 258-261): the array read from a file is new, the one of a window is
shared. -/
def toArrayAt (files : WavFiles α) (h : Heap α β) (l : ℕ) : Heap α β × Py ℕ :=
  match h.objs l with
  | .basic _ => (h, .error .attributeError)
  | .array _ _ _ _ => ((h.copyAt l).1, .ok (h.copyAt l).2)
  | .wav w =>
    let r := h.allocBuf (files w.path).2
    let r' := r.1.alloc (.ofView (r.2.slice w.startAfter w.stopIndex) w.start (files w.path).1)
    (r'.1, .ok r'.2)

/-- `[win.to_array_window() for win in self.windows]` (window.py:302). -/
def toArrayAll (files : WavFiles α) (h : Heap α β) : List ℕ → Heap α β × Py (List ℕ)
  | [] => (h, .ok [])
  | l :: ls =>
    match h.toArrayAt files l with
    | (h, .error e) => (h, .error e)
    | (h, .ok l') =>
      match h.toArrayAll files ls with
      | (h, .error e) => (h, .error e)
      | (h, .ok ls') => (h, .ok (l' :: ls'))

/-- The array window at an address. -/
def arrayWin (h : Heap α β) (l : ℕ) : ArrayWin α :=
  match h.win l with
  | .array w => w
  | _ => ⟨[], 0, 0, 0⟩

/-- `ConcatTimeWindow.to_array_window` (window.py:300-303) with `ArrayTimeWindow.concatenate` (window.py:194-201):
`np.hstack` makes a new array. -/
def concatToArray (files : WavFiles α) (h : Heap α β) (c : ℕ) : Heap α β × Py ℕ :=
  match h.toArrayAll files (h.lists c) with
  | (h, .error e) => (h, .error e)
  | (h, .ok ls) =>
    match ArrayWin.concatenate (ls.map h.arrayWin) with
    | .error e => (h, .error e)
    | .ok w =>
      let r := h.allocBuf w.array
      let r' := r.1.alloc (.array r.2 w.start w.stop w.rate)
      (r'.1, .ok r'.2)

end Heap

end Verif.Window.H
