import Verif.NMF.Double
import Verif.PyMore

/-!
# The learner with doubles

`multimodal/learner.py` on the model of the factorization with doubles (`Verif.NMF.D`): each operation is rounded to the nearest
double, numbers which are not finite are `none`, and libraries choose the order of additions.
-/

set_option linter.dupNamespace false

namespace Verif.Learner.D

open Verif.NMF.D

variable {M : Type} [DecidableEq M] (A : Arith) (o : Order)

/-- `np.hstack([A, B])` for matrices with as many lines. -/
def hcat (P Q : Mat) : Mat := ⟨P.r, P.c + Q.c, fun i j => if j < P.c then P.e i j else Q.e i (j - P.c)⟩

/-- `np.hstack(blocks)` (the same for `sp.hstack`): raises `ValueError` without blocks and for blocks whose numbers of lines
differ. -/
def hstack : List Mat → Py Mat
  | [] => .error .valueError
  | [P] => .ok P
  | P :: rest => do
    let Q ← hstack rest
    if P.r = Q.r then return hcat P Q else .error .valueError

/-- `safe_hstack` (`/repo/multimodal/lib/array_utils.py:5-9`). -/
def safeHstack (blocks : List Data) : Py Data := do
  let m ← hstack (blocks.map Data.mat)
  return ⟨blocks.any Data.sparse, m⟩

/-- `D[:, start:stop]`. -/
def cols (D : Mat) (start stop : ℕ) : Mat :=
  ⟨D.r, min stop D.c - min start D.c, fun i j => D.e i (j + min start D.c)⟩

/-- `c * m`: zeros of sparse matrices are not stored, hence not multiplied, which only matters for a `c` which is not finite. -/
def smul (c : Num) (m : Data) : Data :=
  ⟨m.sparse, m.mat.r, m.mat.c, fun i j =>
    if m.sparse = true ∧ m.mat.e i j = some 0 then some 0 else times A c (m.mat.e i j)⟩

/-- `P.dot(Q)`: raises `ValueError` when dimensions do not agree. -/
def dotPy (P Q : Mat) : Py Mat := if P.c = Q.r then .ok (dot A o P Q) else .error .valueError

/-- `fit_coefficients` (`/repo/multimodal/learner.py:11-15`). `fit_transform` does not use `scale_W`
(`/repo/multimodal/lib/nmf.py:159-230`). -/
def fitCoefficients (dataObs : Data) (dictionary : Mat) (iterNmf : ℕ) (rnd : ℕ → ℕ → ℚ) : Py Mat :=
  (transform A o ⟨some dictionary.r, none, 0, iterNmf, some dictionary⟩ dataObs rnd).2.map Result.W

/-- Attributes of a `MultimodalLearner` (`/repo/multimodal/learner.py:20-29`) without `sparseness`, which is `None`. -/
structure Learner (M : Type) where
  mod : List M
  dim : List ℕ
  coef : List Num
  k : ℕ
  dico : Option Mat

/-- `get_index` (`/repo/multimodal/learner.py:64-65`). -/
def Learner.getIndex (L : Learner M) (m : M) : Py ℕ :=
  if m ∈ L.mod then .ok (L.mod.idxOf m) else .error .valueError

/-- `get_axis_range` (`/repo/multimodal/learner.py:58-62`). -/
def Learner.getAxisRange (L : Learner M) (m : M) : Py (ℕ × ℕ) := do
  let idx ← L.getIndex m
  let start := (L.dim.take idx).sum
  let d ← pyGet L.dim (idx : ℤ)
  return (start, start + d)

/-- `get_dico` (`/repo/multimodal/learner.py:43-48`) of a modality: `TypeError` before training. -/
def Learner.getDico (L : Learner M) (m : M) : Py Mat := do
  let r ← L.getAxisRange m
  match L.dico with
  | none => .error .typeError
  | some D => return cols D r.1 r.2

/-- `get_stacked_dicos` (`/repo/multimodal/learner.py:50-51`): dictionaries are arrays, hence `safe_hstack` is `np.hstack`. -/
def Learner.getStackedDicos (L : Learner M) (ms : List M) : Py Mat := do
  let ds ← ms.mapM L.getDico
  hstack ds

/-- `self.coef[self.get_index(mod)]`. -/
def Learner.getCoef (L : Learner M) (m : M) : Py Num := do
  let i ← L.getIndex m
  pyGet L.coef (i : ℤ)

/-- `stack_data` (`/repo/multimodal/learner.py:53-56`). -/
def Learner.stackData (L : Learner M) (ms : List M) (data : List Data) : Py Data := do
  let coefs ← ms.mapM L.getCoef
  safeHstack ((data.zip coefs).map fun p => smul A p.2 p.1)

/-- `train` (`/repo/multimodal/learner.py:31-41`). The attribute `nmf_train` is left out, and `fit_transform` does not use
`scale_W`. -/
def Learner.train (L : Learner M) (data : List Data) (iterations : ℕ) (rnd : ℕ → ℕ → ℚ) : Learner M × Py Unit :=
  match data with
  | [] => (L, .error .indexError)
  | first :: _ =>
    if (data.zip L.dim).all (fun p => p.1.mat.r == first.mat.r && p.1.mat.c == p.2) then
      match L.stackData A L.mod data with
      | .error e => (L, .error e)
      | .ok V =>
        let r := fit A o ⟨some L.k, none, 0, iterations, none⟩ V rnd
        match r.2 with
        | .error e => (L, .error e)
        | .ok _ => ({ L with dico := r.1.components }, .ok ())
    else (L, .error .assertionError)

/-- The check of `reconstruct_internal_multi` (`/repo/multimodal/learner.py:73`). -/
def Learner.checkDim (L : Learner M) (p : M × Data) : Py Unit := do
  let i ← L.getIndex p.1
  let d ← pyGet L.dim (i : ℤ)
  if p.2.mat.c = d then return () else .error .assertionError

/-- `reconstruct_internal_multi` (`/repo/multimodal/learner.py:71-78`). -/
def Learner.reconstructInternalMulti (L : Learner M) (origMods : List M) (testData : List Data) (iterations : ℕ)
    (rnd : ℕ → ℕ → ℚ) : Py Mat := do
  let _ ← (origMods.zip testData).mapM L.checkDim
  let dico ← L.getStackedDicos origMods
  let data ← L.stackData A origMods testData
  fitCoefficients A o data dico iterations rnd

/-- `reconstruct_modalities` (`/repo/multimodal/learner.py:83-84`). -/
def Learner.reconstructModalities (L : Learner M) (destMods : List M) (internal : Mat) : Py Mat := do
  let D ← L.getStackedDicos destMods
  dotPy A o internal D

/-- `modalities_to_modalities` (`/repo/multimodal/learner.py:90-94`); `modality_to_modality` (`/repo/multimodal/learner.py:86-88`) is
the case of lists with one element. -/
def Learner.modalitiesToModalities (L : Learner M) (origMods destMods : List M) (testData : List Data) (iterations : ℕ)
    (rnd : ℕ → ℕ → ℚ) : Py Mat := do
  let internal ← L.reconstructInternalMulti A o origMods testData iterations rnd
  L.reconstructModalities A o destMods internal

end Verif.Learner.D
