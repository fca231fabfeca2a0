import Verif.Imports.Props

/-!
# Concrete cases of properties of `_import_module`
-/

namespace Verif.Imports

/-- A module with a function which replaces one, a new one and a private name. -/
def exModule : List (Key × ℕ) := [("_x".toList, 7), ("norm".toList, 1), ("zoom".toList, 2)]

/-- Global names before. -/
def exState : State ℕ := ⟨[("norm".toList, 10), ("_x".toList, 11)], []⟩

/-- Hypotheses of C189 with the default arguments. -/
example : (exModule.map Prod.fst).Nodup ∧ "_py_".toList ≠ [] ∧ "_".toList ≠ [] ∧ "_".toList <+: "_py_".toList ∧
    Public "_".toList "norm".toList := by
  refine ⟨by decide, by decide, by decide, by decide, Or.inr (by decide)⟩

example : (importModule (fun _ => some exModule) "m".toList true "_py_".toList "_".toList exState).1.globals =
    [("norm".toList, 1), ("_x".toList, 11), ("_py_norm".toList, 10), ("zoom".toList, 2)] := by decide +kernel

example : (importModule (fun _ => some exModule) "m".toList true "_py_".toList "_".toList exState).1.warned =
    ["No Python implementation of zoom".toList] := by decide +kernel

example : (importModule (fun _ => some exModule) "m".toList true [] "_".toList exState).1.globals =
    [("norm".toList, 1), ("_x".toList, 11), ("zoom".toList, 2)] := by decide +kernel

example : (importModule (V := ℕ) (fun _ => none) "m".toList true "_py_".toList "_".toList exState).1.warned =
    ["Failed to import module m".toList] := by decide +kernel

end Verif.Imports
