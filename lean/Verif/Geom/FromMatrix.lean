import Verif.Geom.Model
import Mathlib.Data.Complex.Basic
import Mathlib.Analysis.SpecialFunctions.Trigonometric.Arctan
import Mathlib.Algebra.BigOperators.Fin

/-!
# Model of the functions `*_from_matrix` (`multimodal/lib/transformations.py`)

`numpy.linalg.eig` is a parameter, of which the properties assume the contract `IsEigC` for the matrices it is given: it
gives the eigenvalues, which may not be real, and the matrix of which the columns are eigenvectors. Divisions
by zero give NaN or infinite numbers without exception: the result is then `none`.
-/

namespace Verif.Geom

open Verif Real Matrix
open Verif.Transf (Mat4 atan2)

/-- `numpy.linalg.eig`. -/
abbrev Eig (n : ℕ) := Matrix (Fin n) (Fin n) ℝ → (Fin n → ℂ) × Matrix (Fin n) (Fin n) ℂ

/-- The contract of `numpy.linalg.eig`: the columns are eigenvectors of norm one, those of real eigenvalues are real, and
all real eigenvalues are there. -/
structure IsEigC {n : ℕ} (A : Matrix (Fin n) (Fin n) ℝ) (l : Fin n → ℂ) (V : Matrix (Fin n) (Fin n) ℂ) : Prop where
  vector : ∀ k, A.map Complex.ofReal *ᵥ (fun a => V a k) = l k • fun a => V a k
  unit : ∀ k, ∑ a, Complex.normSq (V a k) = 1
  real : ∀ k, (l k).im = 0 → ∀ a, (V a k).im = 0
  all : ∀ (x : Fin n → ℝ) (μ : ℝ), x ≠ 0 → A *ᵥ x = μ • x → ∃ k, l k = (μ : ℂ)

/-- `numpy.where(abs(numpy.real(l) - x) < tol)[0]`. -/
noncomputable def near {n : ℕ} (l : Fin n → ℂ) (x tol : ℝ) : List (Fin n) :=
  (List.finRange n).filter fun k => |(l k).re - x| < tol

/-- `numpy.real(V[:, k]).squeeze()`. -/
def realColumn {n : ℕ} (V : Matrix (Fin n) (Fin n) ℂ) (k : Fin n) : Fin n → ℝ := fun a => (V a k).re

/-- `if not len(i): raise ValueError(...)`, before `i[0]` or `i[-1]` is used. -/
def orValueError {α : Type} : Option α → Py α
  | none => .error .valueError
  | some a => .ok a

/-- `M[:3, :3]`. -/
def linear (M : Mat4) : Matrix (Fin 3) (Fin 3) ℝ := M.submatrix Fin.castSucc Fin.castSucc

/-- `point /= point[3]`. -/
noncomputable def overLast (x : Fin 4 → ℝ) : Option (Fin 4 → ℝ) :=
  if x 3 = 0 then none else some fun a => x a / x 3

/-- `point[:3]`. -/
def first3 (x : Fin 4 → ℝ) : P3 := ![x 0, x 1, x 2]

/-- The last eigenvector of eigenvalue one, divided by its last coordinate (end of `reflection_from_matrix`, of
`rotation_from_matrix`, of `scale_from_matrix` and of `shear_from_matrix`;
`/repo/multimodal/lib/transformations.py:265-271, 338-344, 427-433, 690-696`). -/
noncomputable def fixedPoint (eig4 : Eig 4) (M : Mat4) : Py (Option (Fin 4 → ℝ)) := do
  let k ← orValueError (near (eig4 M).1 1 (1 / 10 ^ 8)).getLast?
  return overLast (realColumn (eig4 M).2 k)

/-- `reflection_from_matrix` (`/repo/multimodal/lib/transformations.py:246-272`): the point and the normal. -/
noncomputable def reflectionFromMatrix (eig3 : Eig 3) (eig4 : Eig 4) (M : Mat4) : Py (Option ((Fin 4 → ℝ) × P3)) := do
  let k ← orValueError (near (eig3 (linear M)).1 (-1) (1 / 10 ^ 8)).head?
  let normal := realColumn (eig3 (linear M)).2 k
  let point ← fixedPoint eig4 M
  return point.map fun p => (p, normal)

/-- `sina` (`/repo/multimodal/lib/transformations.py:347-352`). -/
noncomputable def sineOf (M : Mat4) (d : P3) (cosa : ℝ) : Option ℝ :=
  if |d 2| > 1 / 10 ^ 8 then some ((M 1 0 + (cosa - 1) * d 0 * d 1) / d 2)
  else if |d 1| > 1 / 10 ^ 8 then some ((M 0 2 + (cosa - 1) * d 0 * d 2) / d 1)
  else if d 0 = 0 then none
  else some ((M 2 1 + (cosa - 1) * d 1 * d 2) / d 0)

/-- `rotation_from_matrix` (`/repo/multimodal/lib/transformations.py:319-356`): angle, direction, point. -/
noncomputable def rotationFromMatrix (eig3 : Eig 3) (eig4 : Eig 4) (M : Mat4) :
    Py (Option (ℝ × P3 × (Fin 4 → ℝ))) := do
  let k ← orValueError (near (eig3 (linear M)ᵀ).1 1 (1 / 10 ^ 8)).getLast?
  let direction := realColumn (eig3 (linear M)ᵀ).2 k
  let point ← fixedPoint eig4 M
  let cosa := (M 0 0 + M 1 1 + M 2 2 - 1) / 2
  return do
    let point ← point
    let sina ← sineOf M direction cosa
    return (atan2 sina cosa, direction, point)

/-- The factor and the direction (`/repo/multimodal/lib/transformations.py:415-426`). -/
noncomputable def scaleParts (eig3 : Eig 3) (M : Mat4) : Option (ℝ × Option P3) :=
  let factor := M 0 0 + M 1 1 + M 2 2 - 2
  match (near (eig3 (linear M)).1 factor (1 / 10 ^ 8)).head? with
  | none => some ((factor + 2) / 3, none)
  | some k => (unit3 (realColumn (eig3 (linear M)).2 k)).map fun d => (factor, some d)

/-- `scale_from_matrix` (`/repo/multimodal/lib/transformations.py:396-434`): factor, origin, direction. -/
noncomputable def scaleFromMatrix (eig3 : Eig 3) (eig4 : Eig 4) (M : Mat4) :
    Py (Option (ℝ × (Fin 4 → ℝ) × Option P3)) := do
  let origin ← fixedPoint eig4 M
  return do
    let parts ← scaleParts eig3 M
    let origin ← origin
    return (parts.1, origin, parts.2)

/-- The arguments of `projection_matrix`. -/
structure Projection where
  /-- `point`. -/
  point : Fin 4 → ℝ
  /-- `normal`. -/
  normal : P3
  /-- `direction`. -/
  direction : Option P3
  /-- `perspective`. -/
  perspective : Option P3
  /-- `pseudo`. -/
  pseudo : Bool

/-- The normal of a parallel projection (`/repo/multimodal/lib/transformations.py:545-555`). -/
noncomputable def parallelNormal (eig3 : Eig 3) (M : Mat4) (point : Fin 4 → ℝ) (direction : P3) : Option Projection :=
  match (near (eig3 (linear M)ᵀ).1 0 (1 / 10 ^ 8)).head? with
  | some k => (unit3 (realColumn (eig3 (linear M)ᵀ).2 k)).map fun n => ⟨point, n, some direction, none, false⟩
  | none => some ⟨point, direction, none, none, false⟩

/-- The parallel branch (`/repo/multimodal/lib/transformations.py:534-555`). -/
noncomputable def parallelFromMatrix (eig3 : Eig 3) (M : Mat4) (x : Fin 4 → ℝ) : Py (Option Projection) := do
  let k ← orValueError (near (eig3 (linear M)).1 0 (1 / 10 ^ 8)).head?
  return do
    let point ← overLast x
    let direction ← unit3 (realColumn (eig3 (linear M)).2 k)
    parallelNormal eig3 M point direction

/-- The perspective branch (`/repo/multimodal/lib/transformations.py:557-569`). -/
noncomputable def perspectiveFromMatrix (eig4 : Eig 4) (M : Mat4) (pseudo : Bool) : Py (Option Projection) := do
  let k ← orValueError ((List.finRange 4).filter fun k => |((eig4 M).1 k).re| > 1 / 10 ^ 8).getLast?
  return do
    let point ← overLast (realColumn (eig4 M).2 k)
    let normal : P3 := ![-M 3 0, -M 3 1, -M 3 2]
    let c := dot3 (first3 point) normal
    if c = 0 then none
    else
      let perspective : P3 := ![M 0 3 / c, M 1 3 / c, M 2 3 / c]
      return ⟨point, normal, none, some (if pseudo then fun i => perspective i - normal i else perspective), pseudo⟩

/-- `projection_from_matrix` (`/repo/multimodal/lib/transformations.py:499-569`). -/
noncomputable def projectionFromMatrix (eig3 : Eig 3) (eig4 : Eig 4) (M : Mat4) (pseudo : Bool) :
    Py (Option Projection) :=
  match pseudo, (near (eig4 M).1 1 (1 / 10 ^ 8)).getLast? with
  | false, some k => parallelFromMatrix eig3 M (realColumn (eig4 M).2 k)
  | _, _ => perspectiveFromMatrix eig4 M pseudo

/-- A step of the loop (`/repo/multimodal/lib/transformations.py:678-683`): the normal which was found and its norm
before and after two rows are considered. -/
noncomputable def longer (best : P3 × ℝ) (u v : P3) : P3 × ℝ :=
  if norm3 (cross u v) > best.2 then (cross u v, norm3 (cross u v)) else best

/-- The longest cross product of the rows (`/repo/multimodal/lib/transformations.py:675-683`). With two rows
`V[2]` raises `IndexError`. -/
noncomputable def longest (rows : List P3) : Py (P3 × ℝ) :=
  match rows with
  | a :: b :: c :: _ => .ok (longer (longer (longer (0, -1) a b) a c) b c)
  | [_, _] => .error .indexError
  | _ => .error .valueError

/-- `shear_from_matrix` (`/repo/multimodal/lib/transformations.py:655-697`): angle, direction, point, normal. -/
noncomputable def shearFromMatrix (eig3 : Eig 3) (eig4 : Eig 4) (M : Mat4) :
    Py (Option (ℝ × P3 × (Fin 4 → ℝ) × P3)) := do
  let best ← longest ((near (eig3 (linear M)).1 1 (1 / 10 ^ 4)).map (realColumn (eig3 (linear M)).2))
  let point ← fixedPoint eig4 M
  return do
    let point ← point
    if best.2 = 0 then none
    else
      let normal : P3 := fun i => best.1 i / best.2
      let direction := (linear M - 1) *ᵥ normal
      let angle := norm3 direction
      let direction ← unit3 direction
      return (Real.arctan angle, direction, point, normal)

end Verif.Geom
