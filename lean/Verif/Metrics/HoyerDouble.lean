import Verif.Evaluation.Double

/-!
# Hoyer's sparseness with doubles

`hoyer_sparseness` of `multimodal/lib/metrics.py` with numbers as computed, see `Verif/Evaluation/Double.lean`.
-/

namespace Verif.Metrics.D

open Verif Verif.Evaluation.D

variable (L : Lib)

/-- `np.abs(a)`. -/
def absolute : Flt → Flt
  | .fin x => .fin |x|
  | .inf _ => .inf false
  | .nan => .nan

/-- `norm_1` of a line (`/repo/multimodal/lib/metrics.py:28`). -/
def norm1 (t : Tree) (eps : Flt) (x : Row) : Flt := add (t.sum fun k => absolute (x k)) eps

/-- `norm_2` of a line (`/repo/multimodal/lib/metrics.py:29`). -/
def norm2 (t : Tree) (eps : Flt) (x : Row) : Flt := add (sqrt L (t.sum fun k => square (x k))) eps

/-- `hoyer_sparseness` (`/repo/multimodal/lib/metrics.py:23-30`) of an array whose lines along the axis are `lines`, of
length `n`.  Line `i` is added in the order `t i`, its squares in the order `t2 i`, and quotients in the order `tm`. -/
def hoyerSparseness (n : ℕ) (lines : List Row) (t t2 : ℕ → Tree) (tm : Tree) (eps : Flt) : Flt :=
  let sqrtN := sqrt L (.fin n)
  let q := lines.mapIdx fun i x => div (norm1 (t i) eps x) (norm2 L (t2 i) eps x)
  let average := div (tm.sum fun i => q.getD i (.fin 0)) (.fin q.length)
  div (sub sqrtN average) (sub sqrtN (.fin 1))

end Verif.Metrics.D
