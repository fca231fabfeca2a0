import Verif.Window.Model

/-!
# Concatenations of concatenations (window.py:264-329)

`ConcatTimeWindow` only calls methods of its elements, so its elements may be concatenations too.
`Ops` lists the attributes and methods which it uses, `concatOps` the ones of the class in terms
of those of its elements, and `nestOps` ties the knot for any number of levels. As in
`Verif/Window/Model.lean` objects are values: an object which appears twice in a tree is not
modelled here (see `Verif/Window/Heap.lean` for shared windows).
-/

namespace Verif.Window

open Verif

/-- Attributes and methods which `ConcatTimeWindow` uses on its elements (window.py:264-329). -/
structure Ops (α A : Type) where
  /-- `absolute_start` -/
  start : A → Py ℚ
  /-- `absolute_end` -/
  stop : A → Py ℚ
  /-- `move` -/
  move : A → ℚ → A
  /-- `copy` -/
  copy : A → Py A
  /-- `get_subwindow` -/
  getSub : A → ℚ → ℚ → Py A
  /-- `to_array_window` -/
  toArray : A → Py (ArrayWin α)

/-- The three basic classes (window.py:99-261). -/
def winOps {α β : Type} (files : WavFiles α) : Ops α (Win α β) where
  start w := .ok w.start
  stop w := .ok w.stop
  move := Win.move
  copy w := .ok w.copy
  getSub := Win.getSub
  toArray := Win.toArray files

section
variable {α A : Type} (o : Ops α A)

/-- `ConcatTimeWindow.__init__` (window.py:267-276); an object is its list `windows`. -/
def nestInit (windows : List A) : Py (List A) :=
  if windows.length < 1 then .error .valueError
  else do
    let starts ← (windows.drop 1).mapM o.start
    let ends ← windows.mapM o.stop
    let gaps := (List.zip ends.dropLast starts).map (fun p => |p.1 - p.2|) ++ [0]
    if gaps.foldl max 0 > TOL then .error .valueError
    else .ok windows

/-- Property `absolute_start` (window.py:278-280). -/
def nestStart (windows : List A) : Py ℚ :=
  match windows.head? with
  | some w => o.start w
  | none => .error .indexError

/-- Property `absolute_end` (window.py:282-284). -/
def nestStop (windows : List A) : Py ℚ :=
  match windows.getLast? with
  | some w => o.stop w
  | none => .error .indexError

/-- `ConcatTimeWindow._get_file_index_from_time` (window.py:314-316), with `check_time`
(window.py:86-92) and `_ends` (window.py:311-312). -/
def nestIndex (windows : List A) (t : ℚ) : Py ℕ := do
  let s ← nestStart o windows
  let e ← nestStop o windows
  checkTime s e t
  let ends ← windows.mapM o.stop
  pure (bisectLeft ends t)

/-- `ConcatTimeWindow.get_subwindow` (window.py:290-298). -/
def nestGetSub (windows : List A) (tStart tEnd : ℚ) : Py (List A) := do
  let iStart ← nestIndex o windows tStart
  let iEnd ← nestIndex o windows tEnd
  let news ← (pySlice windows iStart (1 + iEnd)).mapM o.copy
  match news with
  | [] => .error .indexError
  | w0 :: rest =>
    let e ← o.stop w0
    let w0' ← o.getSub w0 tStart e
    match (w0' :: rest).getLast? with
    | none => .error .indexError
    | some wl => do
      let s ← o.start wl
      let wl' ← o.getSub wl s tEnd
      nestInit o ((w0' :: rest).dropLast ++ [wl'])

/-- `ConcatTimeWindow.to_array_window` (window.py:300-303). -/
def nestToArray (windows : List A) : Py (ArrayWin α) := do
  let arrays ← windows.mapM o.toArray
  ArrayWin.concatenate arrays

/-- `ConcatTimeWindow.copy` (window.py:305-306). -/
def nestCopy (windows : List A) : Py (List A) := do
  let copies ← windows.mapM o.copy
  nestInit o copies

/-- `ConcatTimeWindow.get_subwindow_at` (window.py:308-309). -/
def nestGetSubAt (windows : List A) (t : ℚ) : Py A := do
  let i ← nestIndex o windows t
  pyGet windows i

/-- Loop of `ConcatTimeWindow.align` (window.py:325-328), with `TimeWindow.duration`
(window.py:65-66). -/
def nestAlignFrom (t : ℚ) : List A → Py (List A)
  | [] => .ok []
  | w :: ws => do
    let s ← o.start w
    let w' := o.move w (t - s)
    let e' ← o.stop w'
    let s' ← o.start w'
    let rest ← nestAlignFrom (t + (e' - s')) ws
    pure (w' :: rest)

/-- `ConcatTimeWindow` (window.py:264-329) as an element of another one. -/
def concatOps : Ops α (List A) where
  start := nestStart o
  stop := nestStop o
  move ws d := ws.map (fun w => o.move w d)
  copy := nestCopy o
  getSub := nestGetSub o
  toArray := nestToArray o

end

/-- Dynamic dispatch of methods on the class of the object. -/
def sumOps {α A B : Type} (o : Ops α A) (p : Ops α B) : Ops α (A ⊕ B) where
  start := Sum.elim o.start p.start
  stop := Sum.elim o.stop p.stop
  move w d := w.map (fun a => o.move a d) (fun b => p.move b d)
  copy := Sum.elim (fun a => (o.copy a).map .inl) (fun b => (p.copy b).map .inr)
  getSub := Sum.elim (fun a s e => (o.getSub a s e).map .inl)
    (fun b s e => (p.getSub b s e).map .inr)
  toArray := Sum.elim o.toArray p.toArray

/-- Windows with at most `n` levels of concatenation: a basic class, or a list of windows with
one level less. -/
def Nest (α β : Type) : ℕ → Type
  | 0 => Win α β
  | n + 1 => Win α β ⊕ List (Nest α β n)

/-- The methods of such windows (window.py:99-329). -/
def nestOps {α β : Type} (files : WavFiles α) : (n : ℕ) → Ops α (Nest α β n)
  | 0 => winOps files
  | n + 1 => sumOps (winOps files) (concatOps (nestOps files n))

end Verif.Window
