import Mathlib.Data.List.Basic
import Mathlib.Data.Int.Basic

/-!
# Python vocabulary

Pieces of Python semantics shared by the models.  They model the language and
its standard library, not code of `/repo`.
-/

namespace Verif

/-- Exception classes which the modelled code may raise (messages are not modelled). -/
inductive PyErr
  | valueError | indexError | typeError | keyError | assertionError
  | attributeError | zeroDivisionError | unboundLocalError | stopIteration
  | ioError | noFileError | timeOutOfBound | wrongNumberOfFeatures
  | notImplemented | lookupError
  deriving DecidableEq, Repr

/-- Result of a Python call: a value or an exception. -/
abbrev Py := Except PyErr

instance {ε α : Type*} [DecidableEq ε] [DecidableEq α] : DecidableEq (Except ε α)
  | .ok a, .ok b => if h : a = b then isTrue (h ▸ rfl) else isFalse (fun e => h (Except.ok.inj e))
  | .error a, .error b =>
      if h : a = b then isTrue (h ▸ rfl) else isFalse (fun e => h (Except.error.inj e))
  | .ok _, .error _ => isFalse (fun e => by cases e)
  | .error _, .ok _ => isFalse (fun e => by cases e)

/-- Position denoted by a slice bound `i` in a sequence of length `n`: negative bounds count from
the end, and bounds are clamped to `[0, n]`. -/
def pyBound (n : ℕ) (i : ℤ) : ℕ :=
  if i < 0 then (i + n).toNat else min i.toNat n

/-- `l[i:j]`. -/
def pySlice {α : Type*} (l : List α) (i j : ℤ) : List α :=
  (l.drop (pyBound l.length i)).take (pyBound l.length j - pyBound l.length i)

/-- `l[i:]`. -/
def pyFrom {α : Type*} (l : List α) (i : ℤ) : List α :=
  l.drop (pyBound l.length i)

/-- `l[:j]`. -/
def pyUpto {α : Type*} (l : List α) (j : ℤ) : List α :=
  l.take (pyBound l.length j)

/-- `l[i]`, with negative indices counted from the end; raises `IndexError`. -/
def pyGet {α : Type*} (l : List α) (i : ℤ) : Py α :=
  if i < 0 then
    if i + l.length < 0 then .error .indexError
    else match l[(i + l.length).toNat]? with
      | some x => .ok x
      | none => .error .indexError
  else match l[i.toNat]? with
    | some x => .ok x
    | none => .error .indexError

theorem pyBound_nonneg {n : ℕ} {i : ℤ} (h : 0 ≤ i) : pyBound n i = min i.toNat n := by
  unfold pyBound; rw [if_neg (by omega)]

theorem pySlice_nat {α : Type*} (l : List α) (i j : ℕ) :
    pySlice l (i : ℤ) (j : ℤ) = (l.drop i).take (j - i) := by
  unfold pySlice
  rw [pyBound_nonneg (by omega), pyBound_nonneg (by omega)]
  simp only [Int.toNat_natCast]
  rcases le_total l.length i with h | h
  · rw [min_eq_right h]; simp [List.drop_eq_nil_of_le h]
  · rw [min_eq_left h]
    rcases le_total l.length j with h' | h'
    · rw [min_eq_right h', List.take_of_length_le (by simp), List.take_of_length_le (by simp; omega)]
    · rw [min_eq_left h']

theorem pyGet_nat {α : Type*} (l : List α) (i : ℕ) (h : i < l.length) :
    pyGet l (i : ℤ) = .ok l[i] := by
  unfold pyGet
  rw [if_neg (by omega)]
  simp [List.getElem?_eq_getElem h]

end Verif
