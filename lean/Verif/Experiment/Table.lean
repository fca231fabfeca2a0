import Verif.Experiment.Model

/-!
# Model of the printing of results (`multimodal/experiment.py`, `multimodal/lib/logger.py`)

Functions which print give the lines which have been printed and a value or an exception.
-/

namespace Verif.Experiment

open Verif Verif.Logger

variable {L : Type}

/-! ### Statistics -/

/-- The numbers in a value of a run, and how many there are when it is a list. Missing values and values
which are not numbers raise `TypeError` (arrays are not modelled). -/
def asNumbers : Option (Val (LogVal L) Mx) → Py (Option ℕ × List (Option ℚ))
  | some (.plain (.score s)) => .ok (none, [s])
  | some (.plain (.idx l)) => .ok (some l.length, l.map fun (i : ℕ) => some (i : ℚ))
  | some (.plain (.num n)) => .ok (none, [some (n : ℚ)])
  | _ => .error .typeError

/-- The values, if none is `nan`. -/
def allFinite : List (Option ℚ) → Option (List ℚ)
  | [] => some []
  | none :: _ => none
  | some q :: l => (allFinite l).map (q :: ·)

/-- `(np.average(vals), np.std(vals))`: `none` for `nan`; the standard deviation is given by its square. -/
def averageStd (l : List (Option ℚ)) : Option (ℚ × ℚ) :=
  match allFinite l with
  | none => none
  | some [] => none
  | some (q :: l) =>
    let m := (q :: l).sum / ((q :: l).length : ℚ)
    some (m, (((q :: l).map fun x => (x - m) * (x - m)).sum) / ((q :: l).length : ℚ))

/-- `Logger.get_stats` (`/repo/multimodal/lib/logger.py:65-67`), for values which are numbers or lists of
numbers: lists of different lengths raise `ValueError` (as since `numpy` 1.24). -/
def getStats (l : Log L) (key : Key) : Py (Option (ℚ × ℚ)) := do
  let rows ← (l.getValues key).mapM asNumbers
  if ∃ r ∈ rows, ∃ r' ∈ rows, r.1 ≠ r'.1 then .error .valueError
  else .ok (averageStd (rows.flatMap Prod.snd))

/-! ### Text -/

/-- `s.center(width)`. -/
def center (width : ℕ) (s : Key) : Key :=
  let margin := width - s.length
  let left := margin / 2 + if margin % 2 = 1 ∧ width % 2 = 1 then 1 else 0
  List.replicate left ' ' ++ s ++ List.replicate (margin - left) ' '

/-- `sep.join(l)`. -/
def joinWith (sep : Key) : List Key → Key
  | [] => []
  | [a] => a
  | a :: l => a ++ sep ++ joinWith sep l

/-- `" ".join(["{}" for _dummy in range(n)]).format(*cells)`. -/
def tableLine (n : ℕ) (cells : List Key) : Py Key :=
  if cells.length < n then .error .indexError else .ok (joinWith " ".toList (cells.take n))

/-- `'-' * n`. -/
def rule (n : ℕ) : Key := List.replicate n '-'

/-- Lines which are printed one after the other, until the first exception. -/
def printAll : List (Py Key) → List Key × Py Unit
  | [] => ([], .ok ())
  | .ok l :: r => (l :: (printAll r).1, (printAll r).2)
  | .error e :: _ => ([], .error e)

/-! ### Tables -/

/-- `metr` in `/repo/multimodal/experiment.py:316,401`. -/
def TABLE_METRICS : List Key := ["".toList, "_frob".toList, "_cosine".toList]

/-- `TwoModalitiesExperiment._get_result` (`/repo/multimodal/experiment.py:291-293`). -/
def getResultTwo (e : Exp) (l : Log L) (mod1 mod2 modCmp : ℤ) (metric : Key) :
    Py (Option (ℚ × ℚ)) := do
  let key ← expKey e mod1 mod2 modCmp metric
  getStats l ("score_".toList ++ key)

/-- A line of the table (`/repo/multimodal/experiment.py:310-318`); `shown` is the text given by
`"%.3f (%.3f)"`. -/
def tableTwoLine (shown : Option (ℚ × ℚ) → Key) (e : Exp) (l : Log L) (mod1 mod2 : ℤ) (comp : ℤ × Key) :
    Py Key := do
  let m1 ← pyGet e.modalities mod1
  let m2 ← pyGet e.modalities mod2
  let res ← TABLE_METRICS.mapM fun metr => do
    let r ← getResultTwo e l mod1 mod2 comp.1 metr
    return shown r
  tableLine 6 (([center 13 m1, center 13 m2, center 13 comp.2] ++ res).map (center 13))

/-- `[(-1, 'internal')] + list(enumerate(self.modalities))` (`/repo/multimodal/experiment.py:308-309`). -/
def comparisons (mods : List Key) : List (ℤ × Key) :=
  (-1, "internal".toList) :: mods.zipIdx.map fun mi => ((mi.2 : ℤ), mi.1)

/-- `TwoModalitiesExperiment.print_result_table` (`/repo/multimodal/experiment.py:295-319`). -/
def printTwo (shown : Option (ℚ × ℚ) → Key) (e : Exp) (l : Log L) : List Key × Py Unit :=
  printAll ([.ok (rule (13 * 6 + 5)),
    .ok (center (13 * 3 + 2) "Modalities".toList ++ center (13 * 3 + 2) "Score: avg (std)".toList),
    .ok (rule (13 * 3 + 2) ++ " ".toList ++ rule (13 * 3 + 2)),
    tableLine 6 (["Test".toList, "Reference".toList, "Comparison".toList, "KL".toList, "Euclidean".toList,
      "Cosine".toList].map (center 13)),
    .ok (joinWith " ".toList (List.replicate 6 (rule 13)))] ++
    ([((0 : ℤ), (1 : ℤ)), (1, 0)].flatMap fun m =>
      (comparisons e.modalities).map fun c => tableTwoLine shown e l m.1 m.2 c) ++
    [.ok (rule (13 * 6 + 5))])

/-- `ThreeModalitiesExperiment._get_result` (`/repo/multimodal/experiment.py:377-379`). -/
def getResultThree (e : Exp) (l : Log L) (mods1 mods2 : List ℕ) (metric : Key) :
    Py (Option (ℚ × ℚ)) := do
  let key ← scoreKey3 e mods1 mods2 metric
  getStats l key

/-- A line of the table (`/repo/multimodal/experiment.py:393-402`). `"{:.3f} ({:.3f})".format` is given the
tuple itself and formats it: `TypeError` in Python 3, `ValueError` in Python 2. -/
def tableThreeLine (py3 : Bool) (e : Exp) (l : Log L) (c : List ℕ × List ℕ) : Py Key := do
  let m1 ← c.1.mapM fun (m : ℕ) => pyGet e.modalities (m : ℤ)
  let m2 ← c.2.mapM fun (m : ℕ) => pyGet e.modalities (m : ℤ)
  let res ← TABLE_METRICS.mapM fun metr => do
    let _ ← getResultThree e l c.1 c.2 metr
    if py3 then Except.error PyErr.typeError else Except.error PyErr.valueError
  tableLine 5 (([center 15 (joinWith " & ".toList m1), center 15 (joinWith " & ".toList m2)] ++ res).map
    (center 15))

/-- `ThreeModalitiesExperiment.print_result_table` (`/repo/multimodal/experiment.py:381-404`). -/
def printThree (py3 : Bool) (e : Exp) (l : Log L) : List Key × Py Unit :=
  printAll ([.ok (rule (15 * 5 + 5)),
    .ok (center (15 * 2 + 2) "Modalities".toList ++ center (15 * 3 + 2) "Score: avg (std)".toList),
    .ok (rule (15 * 2 + 1) ++ " ".toList ++ rule (15 * 3 + 2)),
    tableLine 5 (["Test".toList, "Reference".toList, "KL".toList, "Euclidean".toList,
      "Cosine".toList].map (center 15)),
    .ok (joinWith " ".toList (List.replicate 5 (rule 15)))] ++
    ((testedCombinations e.modalities.length).map fun c => tableThreeLine py3 e l c) ++
    [.ok (rule (15 * 5 + 5))])

/-- `Logger.print_result` (`/repo/multimodal/lib/logger.py:69-73`); `shown` is the text given by
`"%s: %g (std dev.: %g)"`. -/
def printResult (shown : Key → Option (ℚ × ℚ) → Key) (l : Log L) (key : Key) (text : Option Key) : Py Key := do
  let s ← getStats l key
  return shown (text.getD key) s

/-- `Logger.print_all_results` (`/repo/multimodal/lib/logger.py:75-77`); `enum` gives the order of a set. -/
def printAllResults (shown : Key → Option (ℚ × ℚ) → Key) (enum : List Key → List Key) (l : Log L) :
    List Key × Py Unit :=
  printAll ((enum l.resultKeys).map fun k => printResult shown l k none)

/-- `run` of the classes of `/repo/samples/two_modalities.py:14-20` and
`/repo/samples/three_modalities.py:14-20`: an experiment, then its table. -/
def runAndPrint (exp : M (World L) Unit) (print : Log L → List Key × Py Unit) (w : World L) :
    World L × List Key × Py Unit :=
  match exp w with
  | (w', .error x) => (w', [], .error x)
  | (w', .ok ()) => (w', print w'.log)

end Verif.Experiment
