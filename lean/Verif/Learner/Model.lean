import Verif.NMF.Model
import Verif.PyMore

/-!
# Model of `multimodal/learner.py`

On top of the model of `multimodal/lib/nmf.py`.  Names of modalities are of any type with decidable
equality.  The dictionary is always a dense matrix (this is what `KLdivNMF` makes, for sparse data
also).
-/

namespace Verif.Learner

open Verif.NMF Finset

variable {M : Type} [DecidableEq M]

/-- `np.hstack([A, B])` for matrices with as many lines. -/
def hcat (A B : Mat) : Mat := ⟨A.r, A.c + B.c, fun i j => if j < A.c then A.e i j else B.e i (j - A.c)⟩

/-- `np.hstack(blocks)` (the same for `sp.hstack`): raises `ValueError` without blocks and for blocks
whose numbers of lines differ. -/
def hstack : List Mat → Py Mat
  | [] => .error .valueError
  | [A] => .ok A
  | A :: rest => do
    let B ← hstack rest
    if A.r = B.r then return hcat A B else .error .valueError

/-- `safe_hstack` (`/repo/multimodal/lib/array_utils.py:5-9`). -/
def safeHstack (blocks : List Data) : Py Data := do
  let m ← hstack (blocks.map Data.mat)
  return ⟨blocks.any Data.sparse, m⟩

/-- `A[:, start:stop]`. -/
def cols (A : Mat) (start stop : ℕ) : Mat :=
  ⟨A.r, min stop A.c - min start A.c, fun i j => A.e i (j + min start A.c)⟩

/-- `c * m`. -/
def smul (c : ℝ) (m : Data) : Data := ⟨m.sparse, m.mat.r, m.mat.c, fun i j => c * m.mat.e i j⟩

/-- `A.dot(B)`: raises `ValueError` when dimensions do not agree. -/
noncomputable def dotPy (A B : Mat) : Py Mat := if A.c = B.r then .ok (dot A B) else .error .valueError

/-- `fit_coefficients` (`/repo/multimodal/learner.py:11-15`). -/
noncomputable def fitCoefficients (dataObs : Data) (dictionary : Mat) (iterNmf : ℕ) (rnd : ℕ → ℕ → ℝ) :
    Py Mat :=
  let nmf : Nmf := ⟨some dictionary.r, none, 0, iterNmf, some dictionary⟩
  (NMF.transform nmf dataObs rnd 1 true).2.map Result.W

/-- Attributes of a `MultimodalLearner` (`/repo/multimodal/learner.py:20-29`); `sparseness` tells
whether it is not `None`. -/
structure Learner (M : Type) where
  mod : List M
  dim : List ℕ
  coef : List ℝ
  k : ℕ
  sparseness : Bool
  dico : Option Mat

/-- `get_index` (`/repo/multimodal/learner.py:64-65`). -/
def Learner.getIndex (L : Learner M) (m : M) : Py ℕ :=
  if m ∈ L.mod then .ok (L.mod.idxOf m) else .error .valueError

/-- `get_axis_range` (`/repo/multimodal/learner.py:58-62`). -/
def Learner.getAxisRange (L : Learner M) (m : M) : Py (ℕ × ℕ) := do
  let idx ← L.getIndex m
  let start := (L.dim.take idx).sum
  let d ← pyGet L.dim (idx : ℤ)
  return (start, start + d)

/-- `get_dico` (`/repo/multimodal/learner.py:43-48`) of a modality: `TypeError` before training. -/
def Learner.getDico (L : Learner M) (m : M) : Py Mat := do
  let r ← L.getAxisRange m
  match L.dico with
  | none => .error .typeError
  | some D => return cols D r.1 r.2

/-- `get_stacked_dicos` (`/repo/multimodal/learner.py:50-51`). -/
def Learner.getStackedDicos (L : Learner M) (ms : List M) : Py Mat := do
  let ds ← ms.mapM L.getDico
  hstack ds

/-- `self.coef[self.get_index(mod)]`. -/
def Learner.getCoef (L : Learner M) (m : M) : Py ℝ := do
  let i ← L.getIndex m
  pyGet L.coef (i : ℤ)

/-- `stack_data` (`/repo/multimodal/learner.py:53-56`). -/
def Learner.stackData (L : Learner M) (ms : List M) (data : List Data) : Py Data := do
  let coefs ← ms.mapM L.getCoef
  safeHstack ((data.zip coefs).map fun p => smul p.2 p.1)

/-- `train` (`/repo/multimodal/learner.py:31-41`); `raise NotImplemented` is a `TypeError`. -/
noncomputable def Learner.train (L : Learner M) (data : List Data) (iterations : ℕ)
    (rnd : ℕ → ℕ → ℝ) : Learner M × Py Unit :=
  match data with
  | [] => (L, .error .indexError)
  | first :: _ =>
    if (data.zip L.dim).all (fun p => p.1.mat.r == first.mat.r && p.1.mat.c == p.2) then
      match L.stackData L.mod data with
      | .error e => (L, .error e)
      | .ok V =>
        if L.sparseness then (L, .error .typeError)
        else
          let nmf : Nmf := ⟨some L.k, none, 0, iterations, none⟩
          let r := NMF.fit nmf V rnd 1 true
          match r.2 with
          | .error e => (L, .error e)
          | .ok _ => ({ L with dico := r.1.components }, .ok ())
    else (L, .error .assertionError)

/-- The check of `reconstruct_internal_multi` (`/repo/multimodal/learner.py:73`). -/
def Learner.checkDim (L : Learner M) (p : M × Data) : Py Unit := do
  let i ← L.getIndex p.1
  let d ← pyGet L.dim (i : ℤ)
  if p.2.mat.c = d then return () else .error .assertionError

/-- `reconstruct_internal_multi` (`/repo/multimodal/learner.py:71-78`). -/
noncomputable def Learner.reconstructInternalMulti (L : Learner M) (origMods : List M)
    (testData : List Data) (iterations : ℕ) (rnd : ℕ → ℕ → ℝ) : Py Mat := do
  let _ ← (origMods.zip testData).mapM L.checkDim
  let dico ← L.getStackedDicos origMods
  let data ← L.stackData origMods testData
  fitCoefficients data dico iterations rnd

/-- `reconstruct_internal` (`/repo/multimodal/learner.py:67-69`). -/
noncomputable def Learner.reconstructInternal (L : Learner M) (origMod : M) (testData : Data)
    (iterations : ℕ) (rnd : ℕ → ℕ → ℝ) : Py Mat :=
  L.reconstructInternalMulti [origMod] [testData] iterations rnd

/-- `reconstruct_modality` (`/repo/multimodal/learner.py:80-81`). -/
noncomputable def Learner.reconstructModality (L : Learner M) (destMod : M) (internal : Mat) :
    Py Mat := do
  let D ← L.getDico destMod
  dotPy internal D

/-- `reconstruct_modalities` (`/repo/multimodal/learner.py:83-84`). -/
noncomputable def Learner.reconstructModalities (L : Learner M) (destMods : List M) (internal : Mat) :
    Py Mat := do
  let D ← L.getStackedDicos destMods
  dotPy internal D

/-- `modalities_to_modalities` (`/repo/multimodal/learner.py:90-94`). -/
noncomputable def Learner.modalitiesToModalities (L : Learner M) (origMods destMods : List M)
    (testData : List Data) (iterations : ℕ) (rnd : ℕ → ℕ → ℝ) : Py Mat := do
  let internal ← L.reconstructInternalMulti origMods testData iterations rnd
  L.reconstructModalities destMods internal

/-- `modality_to_modality` (`/repo/multimodal/learner.py:86-88`). -/
noncomputable def Learner.modalityToModality (L : Learner M) (origMod destMod : M) (testData : Data)
    (iterations : ℕ) (rnd : ℕ → ℕ → ℝ) : Py Mat :=
  L.modalitiesToModalities [origMod] [destMod] [testData] iterations rnd

end Verif.Learner
