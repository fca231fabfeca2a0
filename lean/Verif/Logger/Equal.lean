import Verif.Logger.Model

/-!
# Model of `Logger.__eq__`
-/

namespace Verif.Logger

variable {P A : Type}

/-- Comparisons of values by `==` and the truth value of the result, for values which are not the same object
(python compares the content of dictionaries by identity first): those of plain values are decided, those which
involve arrays are made by numpy. -/
structure Cmp (P A : Type) where
  arrays : A → A → Py Bool
  plainArray : P → A → Py Bool

/-- `v == w`, as a truth value. -/
def Cmp.val [DecidableEq P] (c : Cmp P A) : Val P A → Val P A → Py Bool
  | .plain p, .plain q => .ok (decide (p = q))
  | .arr a, .arr b => c.arrays a b
  | .plain p, .arr b => c.plainArray p b
  | .arr a, .plain q => c.plainArray q a

/-- The entries of a dictionary, compared one after the other to those of another one: the comparison stops at the
first missing key, different value or error. -/
def entriesEq {V : Type} (eqv : V → V → Py Bool) (other : Dict Key V) : List (Key × V) → Py Bool
  | [] => .ok true
  | (k, v) :: l =>
    match dictGet? other k with
    | none => .ok false
    | some w => do
      let b ← eqv v w
      if b then entriesEq eqv other l else .ok false

/-- `d == e` for dictionaries: sizes are compared first. -/
def dictEq {V : Type} (eqv : V → V → Py Bool) (d e : Dict Key V) : Py Bool :=
  if d.length = e.length then entriesEq eqv e d else .ok false

/-- The items of two lists, up to the first difference. -/
def itemsEq {V : Type} (eqv : V → V → Py Bool) : List V → List V → Py Bool
  | v :: l, w :: l' => do
    let b ← eqv v w
    if b then itemsEq eqv l l' else .ok false
  | _, _ => .ok true

/-- `l == l'` for lists: lengths are compared first. -/
def listEq {V : Type} (eqv : V → V → Py Bool) (l l' : List V) : Py Bool :=
  if l.length = l'.length then itemsEq eqv l l' else .ok false

/-- `a == b` for sets. -/
def setEq (a b : List Key) : Bool := (∀ k ∈ a, k ∈ b) ∧ (∀ k ∈ b, k ∈ a)

/-- `Logger.__eq__` (`/repo/multimodal/lib/logger.py:24-32`); `other` is none for an object which is not a
`Logger`. -/
def Logger.eq [DecidableEq P] (c : Cmp P A) (self : Logger P A) (other : Option (Logger P A)) : Py Bool :=
  match other with
  | none => .ok false
  | some o =>
    if self.filename = o.filename then do
      let g ← dictEq c.val self.glob o.glob
      if g then do
        let e ← listEq (dictEq c.val) self.exps o.exps
        if e then
          .ok (setEq self.expKeys o.expKeys && setEq self.resultKeys o.resultKeys)
        else .ok false
      else .ok false
    else .ok false

end Verif.Logger
