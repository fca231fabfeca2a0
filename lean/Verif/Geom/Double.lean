import Verif.Evaluation.Double

/-!
# Norms and unit vectors with doubles

`vector_norm` and `unit_vector` with numbers as computed, see `Verif/Evaluation/Double.lean`.
-/

namespace Verif.Geom.D

open Verif Verif.Evaluation.D

variable (L : Lib)

/-- `vector_norm` (`/repo/multimodal/lib/transformations.py:1535-1571`) of a vector, or of a line of an array along an
axis; products are rounded and then added in the order `t` (some libraries use fused operations instead). -/
def vectorNorm (t : Tree) (a : Row) : Flt := sqrt L (t.sum fun k => mul (a k) (a k))

/-- `unit_vector` (`/repo/multimodal/lib/transformations.py:1574-1615`) of a vector, or of a line of an array along an
axis.  Division by zero gives infinite values or NaN. -/
def unitVector (t : Tree) (a : Row) : Row := fun k => div (a k) (vectorNorm L t a)

end Verif.Geom.D
