import Verif.Learner.Double

/-!
# Default coefficients of modalities with doubles
-/

namespace Verif.Learner.D

open Verif.NMF.D

variable (A : Arith) (o : Order)

/-- `x.sum(axis=1)` as a column. -/
def rowSums (X : Data) : Mat := ⟨X.mat.r, 1, fun i _ => sumLine A o X.mat i⟩

/-- `1. / np.average(x.sum(axis=1))` (`/repo/multimodal/experiment.py:72`): the average is the sum divided by the number of values,
and a division by zero gives an infinity or NaN. -/
def defaultCoef (X : Data) : Num :=
  divide A (some 1) (divide A (sumCol A o (rowSums A o X) 0) (A.fin X.mat.r))

/-- `_set_coefs` (`/repo/multimodal/experiment.py:70-72`): the coefficients afterwards. -/
def setCoefs (coefs : Option (List Num)) (raw : List Data) : List Num :=
  match coefs with
  | none => raw.map (defaultCoef A o)
  | some cs => cs

end Verif.Learner.D
