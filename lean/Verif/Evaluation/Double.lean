import Verif.PyMore
import Verif.Window.Float

/-!
# Distances and nearest neighbours with doubles

`multimodal/lib/metrics.py` and the classification of `multimodal/evaluation.py` with numbers as computed: each operation
is rounded to the nearest double, results which are too large are infinite, and results which are not defined are NaN.
The sign of zeros is not represented: divisors of the modelled code are sums, which are never negative zeros.
Libraries are free to choose the order of the additions of a sum.
-/

namespace Verif.Evaluation.D

open Verif Verif.Window

/-- A float: a double, an infinity (`inf true` is negative) or NaN. -/
inductive Flt
  | fin (x : ℚ)
  | inf (negative : Bool)
  | nan
  deriving DecidableEq

/-- The result of an operation whose exact value is `x`. -/
def round (x : ℚ) : Flt := if |dbl x| < 2 ^ 1024 then .fin (dbl x) else .inf (decide (x < 0))

/-- `-a`. -/
def neg : Flt → Flt
  | .fin x => .fin (-x)
  | .inf s => .inf !s
  | .nan => .nan

/-- `a + b`. -/
def add : Flt → Flt → Flt
  | .nan, _ => .nan
  | _, .nan => .nan
  | .fin x, .fin y => round (x + y)
  | .fin _, .inf s => .inf s
  | .inf s, .fin _ => .inf s
  | .inf s, .inf t => if s = t then .inf s else .nan

/-- `a - b`. -/
def sub (a b : Flt) : Flt := add a (neg b)

/-- `a * b`. -/
def mul : Flt → Flt → Flt
  | .nan, _ => .nan
  | _, .nan => .nan
  | .fin x, .fin y => round (x * y)
  | .fin x, .inf s => if x = 0 then .nan else .inf (s != decide (x < 0))
  | .inf s, .fin x => if x = 0 then .nan else .inf (s != decide (x < 0))
  | .inf s, .inf t => .inf (s != t)

/-- `a / b`, where a divisor which is zero is positive. -/
def div : Flt → Flt → Flt
  | .nan, _ => .nan
  | _, .nan => .nan
  | .fin x, .fin y => if y = 0 then if x = 0 then .nan else .inf (decide (x < 0)) else round (x / y)
  | .fin _, .inf _ => .fin 0
  | .inf s, .fin y => .inf (s != decide (y < 0))
  | .inf _, .inf _ => .nan

/-- `a >= b`: false with NaN. -/
def ge : Flt → Flt → Bool
  | .nan, _ => false
  | _, .nan => false
  | .fin x, .fin y => decide (y ≤ x)
  | .fin _, .inf s => s
  | .inf s, .fin _ => !s
  | .inf s, .inf t => !s || t

/-- Functions of the library: square root and logarithm of positive doubles. -/
structure Lib where
  sq : ℚ → ℚ
  lg : ℚ → ℚ

variable (L : Lib)

/-- `np.sqrt(a)`. -/
def sqrt : Flt → Flt
  | .fin x => if x < 0 then .nan else .fin (L.sq x)
  | .inf s => if s then .nan else .inf false
  | .nan => .nan

/-- `np.log(a)`. -/
def log : Flt → Flt
  | .fin x => if 0 < x then .fin (L.lg x) else if x = 0 then .inf true else .nan
  | .inf s => if s then .nan else .inf false
  | .nan => .nan

/-- `np.square(a)`. -/
def square (a : Flt) : Flt := mul a a

/-- The order of the additions of a sum. -/
inductive Tree
  | zero
  | leaf (k : ℕ)
  | plus (p q : Tree)

/-- The indices of the terms. -/
def Tree.leaves : Tree → List ℕ
  | .zero => []
  | .leaf k => [k]
  | .plus p q => p.leaves ++ q.leaves

/-- The sum of terms in the given order. -/
def Tree.sum (a : ℕ → Flt) : Tree → Flt
  | .zero => .fin 0
  | .leaf k => a k
  | .plus p q => add (p.sum a) (q.sum a)

/-- The order is one of the `n` terms. -/
def Tree.Adds (t : Tree) (n : ℕ) : Prop := t.leaves.Perm (List.range n)

/-- A row of an array. -/
abbrev Row := ℕ → Flt

/-- `frobenius` (`/repo/multimodal/lib/metrics.py:73-74`) of two rows. -/
def frobenius (t : Tree) (a b : Row) : Flt := sqrt L (t.sum fun k => square (sub (a k) (b k)))

/-- `cosine_similarity` (`/repo/multimodal/lib/metrics.py:77-82`) of two rows; the order of additions depends on the
length of rows only. -/
def cosineSimilarity (t : Tree) (a b : Row) : Flt :=
  let ab := t.sum fun k => mul (a k) (b k)
  div ab (add (sqrt L (mul (t.sum fun k => square (a k)) (t.sum fun k => square (b k))))
    (.fin (if ab = .fin 0 then 1 else 0)))

/-- `cosine_diff` (`/repo/multimodal/lib/metrics.py:85-86`). -/
def cosineDiff (t : Tree) (a b : Row) : Flt := neg (cosineSimilarity L t a b)

/-- `EPSILON` (`/repo/multimodal/lib/metrics.py:15`). -/
def EPSILON : Flt := round (1 / 10 ^ 8)

/-- The terms of `generalized_KL` (`/repo/multimodal/lib/metrics.py:18-20`). -/
def klTerm (x y : Flt) : Flt := add (sub (mul x (log L (div (add x EPSILON) (add y EPSILON)))) x) y

/-- `kl_div` (`/repo/multimodal/lib/metrics.py:58-62`) of two rows, without normalization: it is `generalized_KL`. -/
def klDiv (t : Tree) (a b : Row) : Flt := t.sum fun k => klTerm L (a k) (b k)

/-- `rev_kl_div` (`/repo/multimodal/lib/metrics.py:65-66`). -/
def revKlDiv (t : Tree) (a b : Row) : Flt := klDiv L t b a

/-- `sym_kl_div` (`/repo/multimodal/lib/metrics.py:69-70`). -/
def symKlDiv (t : Tree) (a b : Row) : Flt := mul (.fin (1 / 2)) (add (klDiv L t a b) (revKlDiv L t a b))

/-- `np.argmin` of the rest of a row, given the least value so far and its position: a value which is not at least the
least one (a smaller one or NaN) replaces it, and the search stops at NaN. -/
def argminFrom (best : Flt) (bi i : ℕ) : List Flt → ℕ
  | [] => bi
  | x :: xs => if ge x best then argminFrom best bi (i + 1) xs else if x = .nan then i else argminFrom x i (i + 1) xs

/-- `np.argmin` of a row. -/
def argmin : List Flt → Py ℕ
  | [] => .error .valueError
  | x :: xs => .ok (if x = .nan then 0 else argminFrom x 0 1 xs)

/-- `all_distances` (`/repo/multimodal/evaluation.py:103-106`): the measure of each pair of rows; the order of additions
may depend on the pair, hence positions are arguments of the measure. -/
def allDistances (reco ex : List Row) (measure : ℕ → ℕ → Row → Row → Flt) : List (List Flt) :=
  reco.mapIdx fun i r => ex.mapIdx fun j e => measure i j r e

/-- `np.argmin(dists, axis=1)` for an array with `nCols` columns: `ValueError` without columns. -/
def argminRows (nCols : ℕ) (dists : List (List Flt)) : Py (List ℕ) :=
  if nCols = 0 then .error .valueError else dists.mapM argmin

/-- `dists_to_found_labels` (`/repo/multimodal/evaluation.py:75-78`). -/
def distsToFoundLabels {α : Type} (nCols : ℕ) (dists : List (List Flt)) (exLabels : List α) : Py (List α) := do
  let matching ← argminRows nCols dists
  matching.mapM fun (m : ℕ) => pyGet exLabels (m : ℤ)

/-- `classify_NN` (`/repo/multimodal/evaluation.py:109-116`). -/
def classifyNN {α : Type} (reco ex : List Row) (exLabels : List α) (measure : ℕ → ℕ → Row → Row → Flt) : Py (List α) :=
  distsToFoundLabels ex.length (allDistances reco ex measure) exLabels

/-- `np.average` of a list of booleans: numpy adds floats 0 and 1 one after the other (integers below `2 ^ 53`, whose sums
are exact whatever the order), then divides by the length; NaN for an empty list. -/
def average (l : List Bool) : Flt := div (round (l.map fun b => if b then (1 : ℚ) else 0).sum) (round l.length)

/-- `found_labels_to_score` (`/repo/multimodal/evaluation.py:81-84`). -/
def foundLabelsToScore {α : Type} [DecidableEq α] (true_ found : List α) : Flt :=
  average ((found.zip true_).map fun p => decide (p.1 = p.2))

end Verif.Evaluation.D
