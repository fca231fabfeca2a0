import Verif.PyMore
import Mathlib.Algebra.BigOperators.Group.List.Basic

/-!
# Model of `multimodal/lib/munkres.py`

Weights are exact rationals (the code uses floats: its tests `slack == 0` and `slacks == alpha` are
exact here).  The Python lists of length `n` (`labels`, `matching`, `S`, `T`, `father`) are functions
on indices; `Lemmas.lean` shows that every index used is below `n`, so that no access raises.  Loops
are given fuel: `none` means that the fuel did not suffice; `Props.lean` gives sufficient fuels.
-/

namespace Verif.Munkres

/-- A matrix given by its shape and its entries (only those inside the shape are meaningful).
Models the `numpy` arrays `w` of `/repo/multimodal/lib/munkres.py`. -/
structure Mat where
  n1 : ℕ
  n2 : ℕ
  e : ℕ → ℕ → ℚ

/-- `w.T`, as used at `/repo/multimodal/lib/munkres.py:140`. -/
def Mat.T (w : Mat) : Mat := ⟨w.n2, w.n1, fun i j => w.e j i⟩

/-- The entries of a matrix in row-major order. -/
def Mat.entries (w : Mat) : List ℚ :=
  (List.range w.n1).flatMap fun i => (List.range w.n2).map fun j => w.e i j

/-- Update of one cell of an array. -/
def upd {α : Type*} (f : ℕ → α) (i : ℕ) (a : α) : ℕ → α := fun j => if j = i then a else f j

/-- `np.max` of a collection: `ValueError` when it is empty. -/
def npMax : List ℚ → Py ℚ
  | [] => .error .valueError
  | x :: xs => .ok (xs.foldl max x)

/-- `np.min` of a collection: `ValueError` when it is empty. -/
def npMin : List ℚ → Py ℚ
  | [] => .error .valueError
  | x :: xs => .ok (xs.foldl min x)

/-- Attributes of `BipartiteGraph`: size, weights, both labellings and both sides of the matching
(`/repo/multimodal/lib/munkres.py:67-82`). -/
structure Graph where
  n : ℕ
  w : ℕ → ℕ → ℚ
  l0 : ℕ → ℚ
  l1 : ℕ → ℚ
  m0 : ℕ → Option ℕ
  m1 : ℕ → Option ℕ

/-- Attributes of `AlternateTree` (`/repo/multimodal/lib/munkres.py:9-18`); `stack` has its left end
first. -/
structure Tree where
  S : ℕ → Bool
  T : ℕ → Bool
  father : ℕ → Option ℕ
  stack : List ℕ

/-- `BipartiteGraph.slack` and an entry of `slack_matrix` (`/repo/multimodal/lib/munkres.py:84-91`). -/
def slack (g : Graph) (u v : ℕ) : ℚ := g.l0 u + g.l1 v - g.w u v

/-- `BipartiteGraph.neighbours_in_G_l` (`/repo/multimodal/lib/munkres.py:93-95`). -/
def neighbours (g : Graph) (u : ℕ) : List ℕ :=
  (List.range g.n).filter fun v => slack g u v = 0

/-- Body of the loops that register a father (`/repo/multimodal/lib/munkres.py:28-30` and `61-63`,
the latter after its test of `S[u]`). -/
def adopt (t : Tree) (u v : ℕ) : Tree :=
  if t.father v = none then { t with father := upd t.father v (some u), stack := t.stack ++ [v] }
  else t

/-- `AlternateTree.explore` (`/repo/multimodal/lib/munkres.py:20-30`). -/
def explore (g : Graph) (t : Tree) (u : ℕ) : Tree :=
  if t.S u then t
  else (neighbours g u).foldl (fun t v => adopt t u v) { t with S := upd t.S u true }

/-- `AlternateTree.__init__` (`/repo/multimodal/lib/munkres.py:10-18`). -/
def newTree (g : Graph) (root : ℕ) : Tree :=
  explore g ⟨fun _ => false, fun _ => false, fun _ => none, []⟩ root

/-- The label update (`/repo/multimodal/lib/munkres.py:43-63`): `np.min` fails on an empty
selection; `argmins` is computed on the whole slack matrix before the labels change. -/
def relabel (g : Graph) (t : Tree) : Py (Graph × Tree) := do
  let s := (List.range g.n).filter fun u => t.S u
  let nt := (List.range g.n).filter fun v => !t.T v
  let alpha ← npMin (s.flatMap fun u => nt.map fun v => slack g u v)
  let argmins := (List.range g.n).flatMap fun u =>
    ((List.range g.n).filter fun v => slack g u v = alpha).map fun v => (u, v)
  let g' := { g with
    l0 := fun i => if t.S i then g.l0 i - alpha else g.l0 i
    l1 := fun i => if t.T i then g.l1 i + alpha else g.l1 i }
  let t' := argmins.foldl (fun t p => if t.S p.1 then adopt t p.1 p.2 else t) t
  return (g', t')

/-- `AlternateTree.find_augmenting_path` (`/repo/multimodal/lib/munkres.py:32-64`): one unit of fuel
per iteration.  The `IndexError` caught by the code is the one of `popleft` on an empty stack. -/
def findPath : ℕ → Graph → Tree → Option (Py (Graph × Tree × ℕ))
  | 0, _, _ => none
  | fuel + 1, g, t =>
    match t.stack with
    | v :: rest =>
      let t := { t with stack := rest, T := upd t.T v true }
      match g.m1 v with
      | none => some (.ok (g, t, v))
      | some u => findPath fuel g (explore g t u)
    | [] =>
      match relabel g t with
      | .error e => some (.error e)
      | .ok (g', t') => findPath fuel g' t'

/-- `BipartiteGraph.augment_matching` (`/repo/multimodal/lib/munkres.py:97-104`).  A column without
father would make `matching[0][None]` raise `TypeError`. -/
def augment (father : ℕ → Option ℕ) : ℕ → Graph → Option ℕ → Option (Py Graph)
  | _, g, none => some (.ok g)
  | 0, _, some _ => none
  | fuel + 1, g, some v =>
    match father v with
    | none => some (.error .typeError)
    | some u =>
      augment father fuel
        { g with m1 := upd g.m1 v (some u), m0 := upd g.m0 u (some v) } (g.m0 u)

/-- The loop of `BipartiteGraph.max_weight_matching` (`/repo/multimodal/lib/munkres.py:109-120`);
`pathFuel` and `augFuel` are given to the two inner loops. -/
def matchLoop (pathFuel augFuel : ℕ) : ℕ → ℕ → Graph → Option (Py Graph)
  | 0, _, _ => none
  | fuel + 1, u, g =>
    if u < g.n then
      match g.m0 u with
      | none =>
        match findPath pathFuel g (newTree g u) with
        | none => none
        | some (.error e) => some (.error e)
        | some (.ok (g', t, v)) =>
          match augment t.father augFuel g' (some v) with
          | none => none
          | some (.error e) => some (.error e)
          | some (.ok g'') => matchLoop pathFuel augFuel fuel u g''
      | some _ => matchLoop pathFuel augFuel fuel (u + 1) g
    else some (.ok g)

/-- The graph after `init_labels` and `init_matching` (`/repo/multimodal/lib/munkres.py:75-82`), for
a non-empty square matrix of weights (`np.max` of a row is then defined). -/
def initGraph (n : ℕ) (w : ℕ → ℕ → ℚ) : Graph where
  n := n
  w := w
  l0 := fun u => ((List.range n).map (w u)).foldl max (w u 0)
  l1 := fun _ => 0
  m0 := fun _ => none
  m1 := fun _ => none

/-- `BipartiteGraph.max_weight_matching` (`/repo/multimodal/lib/munkres.py:106-122`); `fuel` bounds
each of the three loops. -/
def maxWeightMatching (fuel n : ℕ) (w : ℕ → ℕ → ℚ) : Option (Py (List (Option ℕ))) :=
  match matchLoop fuel fuel fuel 0 (initGraph n w) with
  | none => none
  | some (.error e) => some (.error e)
  | some (.ok g) => some (.ok ((List.range n).map g.m0))

/-- `_min_weight_perm_square` (`/repo/multimodal/lib/munkres.py:157-160`), on a square matrix. -/
def minWeightPermSquare (fuel : ℕ) (w : Mat) : Option (Py (List (Option ℕ))) :=
  match npMax w.entries with
  | .error e => some (.error e)
  | .ok m => maxWeightMatching fuel w.n1 fun u v => m - w.e u v

/-- The assignments `rev[j] = i` of `reverse_function` (`/repo/multimodal/lib/munkres.py:152-153`),
starting at position `i`. -/
def reverseFrom : List ℤ → ℕ → List (Option ℕ) → Py (List (Option ℕ))
  | [], _, rev => .ok rev
  | j :: s, i, rev =>
    match pyIndex rev.length j with
    | none => .error .indexError
    | some k => reverseFrom s (i + 1) (rev.set k (some i))

/-- `max(s)`: `ValueError` on an empty list. -/
def pyMax : List ℤ → Py ℤ
  | [] => .error .valueError
  | x :: xs => .ok (xs.foldl max x)

/-- `reverse_function` (`/repo/multimodal/lib/munkres.py:144-154`). -/
def reverseFunction (s : List ℤ) (size : Option ℤ) : Py (List (Option ℕ)) := do
  let size ← match size with
    | none => pyMax s
    | some n => .ok n
  reverseFrom s 0 (List.replicate size.toNat none)

/-- A list of indices in which `None` makes an indexing raise `TypeError`. -/
def asIndices (l : List (Option ℕ)) : Py (List ℤ) :=
  l.mapM fun o => match o with
    | none => .error .typeError
    | some (j : ℕ) => .ok (j : ℤ)

/-- The cases `n1 < n2` and `n1 = n2` of `min_weight_perm`
(`/repo/multimodal/lib/munkres.py:135-138,141`). -/
def minWeightPermWide (fuel : ℕ) (w : Mat) : Option (Py (List (Option ℕ))) :=
  if w.n1 < w.n2 then
    match npMax w.entries with
    | .error e => some (.error e)
    | .ok m =>
      (minWeightPermSquare fuel ⟨w.n2, w.n2, fun i j => if i < w.n1 then w.e i j else m + 1⟩).map
        fun r => r.map fun l => l.take w.n1
  else (minWeightPermSquare fuel w).map fun r => r.map fun l => l.take w.n1

/-- `min_weight_perm` (`/repo/multimodal/lib/munkres.py:126-141`); the recursive call on `w.T` has
fewer rows than columns. -/
def minWeightPerm (fuel : ℕ) (w : Mat) : Option (Py (List (Option ℕ))) :=
  if w.n2 < w.n1 then
    (minWeightPermWide fuel w.T).map fun r => r.bind fun l => (asIndices l).bind fun s =>
      reverseFunction s (some (w.n1 : ℤ))
  else minWeightPermWide fuel w

/-- `permutation_matrix` (`/repo/multimodal/lib/munkres.py:163-167`): entry `(i, j)` for a list of
natural indices, `IndexError` when one is not below the length. -/
def permutationMatrix (perm : List ℕ) : Py Mat :=
  if perm.all (· < perm.length) then
    .ok ⟨perm.length, perm.length, fun i j => if perm[i]? = some j then 1 else 0⟩
  else .error .indexError

/-- `weight` (`/repo/multimodal/lib/munkres.py:170-171`) for a square matrix of the same size as the
permutation (simplification: others raise `ValueError`; their broadcasting is in `Verif.Munkres.Shapes`). -/
def weight (perm : List ℕ) (w : Mat) : Py ℚ := do
  let p ← permutationMatrix perm
  if w.n1 = p.n1 ∧ w.n2 = p.n2 then
    .ok (Mat.entries ⟨w.n1, w.n2, fun i j => w.e i j * p.e i j⟩).sum
  else .error .valueError

/-- `min_weight` (`/repo/multimodal/lib/munkres.py:174-177`), on a square matrix; others are in
`Verif.Munkres.Shapes`. -/
def minWeight (fuel : ℕ) (w : Mat) : Option (Py ℚ) :=
  (minWeightPerm fuel w).map fun r => r.bind fun l => (asIndices l).bind fun s =>
    weight (s.map Int.toNat) w

/-- `all_perms` (`/repo/multimodal/lib/munkres.py:180-186`): the list of the values yielded. -/
def allPerms {α : Type*} : List α → List (List α)
  | [] => [[]]
  | [a] => [[a]]
  | a :: b :: l => (allPerms (b :: l)).flatMap fun perm =>
      (List.range (l.length + 2)).map fun i => perm.take i ++ [a] ++ perm.drop i

/-- `min_weight_perm_brute_force` (`/repo/multimodal/lib/munkres.py:189-198`), on a square matrix;
others are in `Verif.Munkres.Shapes`. -/
def bruteForce (w : Mat) : Py (List ℕ) := do
  let init : ℚ × List ℕ := (((List.range w.n1).map fun i => w.e i i).sum, List.range w.n1)
  let r ← (allPerms (List.range w.n1)).foldlM (fun (acc : ℚ × List ℕ) perm => do
    let c ← weight perm w
    return if c < acc.1 then (c, perm) else acc) init
  return r.2

end Verif.Munkres
