import Verif.PyMore

/-!
# Model of `_import_module` (`multimodal/lib/transformations.py`)

The global names of a module are a dictionary.  Names which the function itself uses (`globals`, `dir`, `getattr`,
`warnings`) are not redefined by the imported module.
-/

namespace Verif.Imports

/-- Names and text. -/
abbrev Key := List Char

variable {V : Type}

/-- Global names, and the texts of warnings. -/
structure State (V : Type) where
  globals : Dict Key V
  warned : List Key

/-- `warnings.warn`. -/
def State.warn (s : State V) (text : Key) : State V := { s with warned := s.warned ++ [text] }

/-- The text of a warning (`/repo/multimodal/lib/transformations.py:1703`). -/
def noImplementation (attr : Key) : Key := "No Python implementation of ".toList ++ attr

/-- What is done of the former value of a name (`/repo/multimodal/lib/transformations.py:1699-1703`); text which is empty
counts as false. -/
def keepFormer (warn : Bool) (pre attr : Key) (s : State V) : State V :=
  if pre = [] then s
  else match dictGet? s.globals attr with
    | some v => { s with globals := dictSet s.globals (pre ++ attr) v }
    | none => if warn then s.warn (noImplementation attr) else s

/-- A turn of the loop (`/repo/multimodal/lib/transformations.py:1696-1704`). -/
def importAttr (warn : Bool) (pre ignore : Key) (s : State V) (a : Key × V) : State V :=
  if ignore ≠ [] ∧ ignore.isPrefixOf a.1 then s
  else
    let s := keepFormer warn pre a.1 s
    { s with globals := dictSet s.globals a.1 a.2 }

/-- `_import_module` (`/repo/multimodal/lib/transformations.py:1681-1705`).  `imported` has the names given by `dir` and
their values, or is `none` when `ImportError` is raised.  The result is `True` or `None`. -/
def importModule (imported : Key → Option (List (Key × V))) (name : Key) (warn : Bool) (pre ignore : Key) (s : State V) :
    State V × Option Bool :=
  match imported name with
  | none => (if warn then s.warn ("Failed to import module ".toList ++ name) else s, none)
  | some attrs => (attrs.foldl (importAttr warn pre ignore) s, some true)

end Verif.Imports
