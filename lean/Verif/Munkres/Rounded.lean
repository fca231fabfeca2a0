import Verif.Munkres.Model

/-!
# Model of `multimodal/lib/munkres.py` with rounded operations

The functions of `Model.lean` that compute with weights, each sum and each difference being rounded by `fl`
(comparisons, `np.max` and `np.min` round nothing).  The other functions (`adopt`, `augment`, `reverseFunction`, …) are
those of `Model.lean`.
-/

namespace Verif.Munkres.Fl

variable (fl : ℚ → ℚ)

/-- `BipartiteGraph.slack` and an entry of `slack_matrix` (`/repo/multimodal/lib/munkres.py:84-91`): the sum of labels is
rounded, then the difference. -/
def slack (g : Graph) (u v : ℕ) : ℚ := fl (fl (g.l0 u + g.l1 v) - g.w u v)

/-- `BipartiteGraph.neighbours_in_G_l` (`/repo/multimodal/lib/munkres.py:93-95`). -/
def neighbours (g : Graph) (u : ℕ) : List ℕ :=
  (List.range g.n).filter fun v => slack fl g u v = 0

/-- `AlternateTree.explore` (`/repo/multimodal/lib/munkres.py:20-30`). -/
def explore (g : Graph) (t : Tree) (u : ℕ) : Tree :=
  if t.S u then t
  else (neighbours fl g u).foldl (fun t v => adopt t u v) { t with S := upd t.S u true }

/-- `AlternateTree.__init__` (`/repo/multimodal/lib/munkres.py:10-18`). -/
def newTree (g : Graph) (root : ℕ) : Tree :=
  explore fl g ⟨fun _ => false, fun _ => false, fun _ => none, []⟩ root

/-- The label update (`/repo/multimodal/lib/munkres.py:43-63`), new labels being rounded. -/
def relabel (g : Graph) (t : Tree) : Py (Graph × Tree) := do
  let s := (List.range g.n).filter fun u => t.S u
  let nt := (List.range g.n).filter fun v => !t.T v
  let alpha ← npMin (s.flatMap fun u => nt.map fun v => slack fl g u v)
  let argmins := (List.range g.n).flatMap fun u =>
    ((List.range g.n).filter fun v => slack fl g u v = alpha).map fun v => (u, v)
  let g' := { g with
    l0 := fun i => if t.S i then fl (g.l0 i - alpha) else g.l0 i
    l1 := fun i => if t.T i then fl (g.l1 i + alpha) else g.l1 i }
  let t' := argmins.foldl (fun t p => if t.S p.1 then adopt t p.1 p.2 else t) t
  return (g', t')

/-- `AlternateTree.find_augmenting_path` (`/repo/multimodal/lib/munkres.py:32-64`). -/
def findPath : ℕ → Graph → Tree → Option (Py (Graph × Tree × ℕ))
  | 0, _, _ => none
  | fuel + 1, g, t =>
    match t.stack with
    | v :: rest =>
      let t := { t with stack := rest, T := upd t.T v true }
      match g.m1 v with
      | none => some (.ok (g, t, v))
      | some u => findPath fuel g (explore fl g t u)
    | [] =>
      match relabel fl g t with
      | .error e => some (.error e)
      | .ok (g', t') => findPath fuel g' t'

/-- The loop of `BipartiteGraph.max_weight_matching` (`/repo/multimodal/lib/munkres.py:109-120`). -/
def matchLoop (pathFuel augFuel : ℕ) : ℕ → ℕ → Graph → Option (Py Graph)
  | 0, _, _ => none
  | fuel + 1, u, g =>
    if u < g.n then
      match g.m0 u with
      | none =>
        match findPath fl pathFuel g (newTree fl g u) with
        | none => none
        | some (.error e) => some (.error e)
        | some (.ok (g', t, v)) =>
          match augment t.father augFuel g' (some v) with
          | none => none
          | some (.error e) => some (.error e)
          | some (.ok g'') => matchLoop pathFuel augFuel fuel u g''
      | some _ => matchLoop pathFuel augFuel fuel (u + 1) g
    else some (.ok g)

/-- `BipartiteGraph.max_weight_matching` (`/repo/multimodal/lib/munkres.py:106-122`). -/
def maxWeightMatching (fuel n : ℕ) (w : ℕ → ℕ → ℚ) : Option (Py (List (Option ℕ))) :=
  match matchLoop fl fuel fuel fuel 0 (initGraph n w) with
  | none => none
  | some (.error e) => some (.error e)
  | some (.ok g) => some (.ok ((List.range n).map g.m0))

/-- `_min_weight_perm_square` (`/repo/multimodal/lib/munkres.py:157-160`), on a square matrix: the entries of `m - w` are
rounded. -/
def minWeightPermSquare (fuel : ℕ) (w : Mat) : Option (Py (List (Option ℕ))) :=
  match npMax w.entries with
  | .error e => some (.error e)
  | .ok m => maxWeightMatching fl fuel w.n1 fun u v => fl (m - w.e u v)

/-- The cases `n1 < n2` and `n1 = n2` of `min_weight_perm` (`/repo/multimodal/lib/munkres.py:135-138,141`): `m + 1` is
rounded (its product with `1.0` is exact). -/
def minWeightPermWide (fuel : ℕ) (w : Mat) : Option (Py (List (Option ℕ))) :=
  if w.n1 < w.n2 then
    match npMax w.entries with
    | .error e => some (.error e)
    | .ok m =>
      (minWeightPermSquare fl fuel
        ⟨w.n2, w.n2, fun i j => if i < w.n1 then w.e i j else fl (m + 1)⟩).map
        fun r => r.map fun l => l.take w.n1
  else (minWeightPermSquare fl fuel w).map fun r => r.map fun l => l.take w.n1

/-- `min_weight_perm` (`/repo/multimodal/lib/munkres.py:126-141`). -/
def minWeightPerm (fuel : ℕ) (w : Mat) : Option (Py (List (Option ℕ))) :=
  if w.n2 < w.n1 then
    (minWeightPermWide fl fuel w.T).map fun r => r.bind fun l => (asIndices l).bind fun s =>
      reverseFunction s (some (w.n1 : ℤ))
  else minWeightPermWide fl fuel w

/-- Without rounding these are the functions of `Model.lean`. -/
theorem model_id : minWeightPerm id = Munkres.minWeightPerm := by
  have hs : slack id = Munkres.slack := rfl
  have hx : explore id = Munkres.explore := rfl
  have hn : newTree id = Munkres.newTree := rfl
  have hr : relabel id = Munkres.relabel := rfl
  have hp : findPath id = Munkres.findPath := by
    funext fuel
    induction fuel with
    | zero => rfl
    | succ f ih =>
      funext g t
      unfold findPath Munkres.findPath
      rw [ih, hx, hr]
      rfl
  have hl : matchLoop id = Munkres.matchLoop := by
    funext pf af fuel
    induction fuel with
    | zero => rfl
    | succ f ih =>
      funext u g
      unfold matchLoop Munkres.matchLoop
      rw [ih, hn, hp]
      rfl
  have hm : maxWeightMatching id = Munkres.maxWeightMatching := by
    funext fuel n w
    unfold maxWeightMatching Munkres.maxWeightMatching
    rw [hl]
    rfl
  have hq : minWeightPermSquare id = Munkres.minWeightPermSquare := by
    funext fuel w
    unfold minWeightPermSquare Munkres.minWeightPermSquare
    rw [hm]
    rfl
  have hw : minWeightPermWide id = Munkres.minWeightPermWide := by
    funext fuel w
    unfold minWeightPermWide Munkres.minWeightPermWide
    rw [hq]
    rfl
  funext fuel w
  unfold minWeightPerm Munkres.minWeightPerm
  rw [hw]

end Verif.Munkres.Fl
