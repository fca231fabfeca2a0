import Verif.Samples.PropsWords
import Verif.Samples.PropsInfo
import Verif.Samples.PropsLabels
import Verif.Samples.PropsLauncher
import Verif.Samples.PropsSliding

/-!
# Examples for the properties of the sample scripts (C131 to C141)
-/

namespace Verif.Samples

open Verif Verif.Window Verif.Experiment
open Verif.Logger (Key)

/-- An order of sets. -/
def exOrder : SetOrder := ⟨List.dedup⟩

theorem exOrder_ok : exOrder.OK := fun l => ⟨List.nodup_dedup l, fun _ => List.mem_dedup⟩

/-- White spaces. -/
def exWs (c : Char) : Bool := c == ' '

/-- C131: `"Look a dog."` is the sentence of the spelled words between marks. -/
example : transWords exWs "Look a Dog?!".toList = ["look".toList, "a".toList, "dog".toList] := by
  decide +kernel

/-- C131, C132: three records with two labels. -/
example : ["See a dog.".toList, "A cat!".toList, "dog".toList].length =
    ["dog".toList, "Cat".toList, "DOG".toList].length ∧
    proportion (records exWs ["See a dog.".toList, "A cat!".toList, "dog".toList]
      ["dog".toList, "Cat".toList, "DOG".toList])
      (fun r => r.1 = "dog".toList ∧ "a".toList ∈ r.2) = 1 / 3 ∧
    proportion (records exWs ["See a dog.".toList, "A cat!".toList, "dog".toList]
      ["dog".toList, "Cat".toList, "DOG".toList]) (fun r => r.1 = "dog".toList) = 2 / 3 := by
  decide +kernel

/-- C131: lists of different lengths. -/
example : ["dog".toList].length ≠ ([] : List Key).length := by decide

/-- C133: four values of a coefficient, and their labels. -/
example : [(0 : ℚ), 1, 1 / 2, 1].length = [0, 1, 0, 2].length ∧ [(0 : ℚ), 1, 1 / 2, 1] ≠ [] ∧
    (∀ l ∈ [0, 1, 0, 2], l < 3) ∧
    internalHistograms [(0 : ℚ), 1, 1 / 2, 1] [[0, 2], [1], [3]] = .ok
      [[1, 0, 0, 0, 0, 1, 0, 0, 0, 0], [0, 0, 0, 0, 0, 0, 0, 0, 0, 1],
       [0, 0, 0, 0, 0, 0, 0, 0, 0, 1]] := by
  decide +kernel

/-- C134: two labels and three coefficients; the second label takes the first coefficient. -/
example : orderColumns 7 3 ⟨2, 3, fun i j => [[5, 4, 1], [6, 2, 1]].getD i [] |>.getD j 0⟩ =
    some (.ok ([1, 0, 2], [[4, 5, 1], [2, 6, 1]])) := by
  decide +kernel

/-- C134: more labels than coefficients. -/
example : 0 < (⟨3, 2, fun _ _ => 0⟩ : Munkres.Mat).n2 ∧
    (⟨3, 2, fun _ _ => 0⟩ : Munkres.Mat).n2 < (⟨3, 2, fun _ _ => 0⟩ : Munkres.Mat).n1 := by
  decide

/-- C135, C137: `prepare` succeeds on the example with two modalities, and the second modality has
labels. -/
example : (prepare exRand exTwo (.ok exLabels) (.ok exData) exWorld).2.toOption.isSome = true ∧
    exLabels[1]? = some [8, 8, 9, 9] ∧ exWorld.log = Logger.Logger.new none := by
  refine ⟨by decide +kernel, rfl, rfl⟩

/-- C135: labels computed again. -/
example : labelsAgain [8, 9] [8, 8, 9, 9] 1 [[0, 0], [1, 2], [2, 3]] = .ok [0, 1, 1] ∧
    labelsAgain [8] [8, 8, 9, 9] 1 [[0, 0], [1, 2], [2, 3]] = .error .valueError := by
  decide +kernel

/-- C137: the true labels when the examples are after the tested samples. -/
example : ∀ i ∈ [0, 1], ∀ j ∈ [2, 3], i < j := by decide

/-- C136: a confusion matrix, and the errors. -/
example : confusion 3 [0, 1, 1, 2] [0, 1, 2, 0] = .ok [[1, 0, 0], [0, 1, 1], [1, 0, 0]] ∧
    confusion 3 [0] [] = .error .assertionError ∧ confusion 3 [0, 3] [1, 1] = .error .indexError := by
  decide +kernel

/-- A plan with one value of `k`, two runs and two sets of descriptors. -/
def exPlan : Plan := ⟨[5], 2, [["SURF".toList], ["SURF".toList, "color".toList]], ["a".toList]⟩

theorem exPlan_ok : exPlan.OK := ⟨by decide, by decide +kernel⟩

/-- C138: the names and the scripts of the jobs. -/
example : (allJobs exPlan "wd".toList).map Job.name =
    ["motion_sound_5_0".toList, "motion_sound_5_1".toList, "image_sound_5_0".toList,
      "image_sound_5_1".toList, "image_motion_5_0".toList, "image_motion_5_1".toList,
      "image_motion_sound_5_0".toList, "image_motion_sound_5_1".toList,
      "image_sound_feats_SURF_0".toList, "image_sound_feats_SURF_1".toList,
      "image_sound_feats_SURF_color_0".toList, "image_sound_feats_SURF_color_1".toList] ∧
    ((allJobs exPlan "wd".toList).filter (fun j => j.script = .three)).length = 2 := by
  decide +kernel

/-- The log of a job of the examples: one experiment with a score. -/
def exJobLog (n : Key) : Log ℕ :=
  ⟨[("k".toList, .plain (.num 5))], [[("score".toList, .plain (.score (some 1)))]],
    ["score".toList], [], some (Corpus.pathJoin "wd".toList n)⟩

/-- C139, C140: all the logs of the plan saved, then collected. -/
example : ∃ fs' logs d, (allExps exPlan).foldlM (fun fs x => (exJobLog x.1).save fs)
      (fun _ => none : Disk ℕ) = .ok fs' ∧ OnDisk exPlan "wd".toList fs' logs ∧
    collectResults fs' exPlan (jobsByName exPlan "wd".toList) = .ok d ∧ dictKeys d = MOD_PAIRS := by
  obtain ⟨fs', logs, h1, h2, -⟩ := C140_on_disk exPlan exPlan_ok "wd".toList exJobLog
    (fun n e _ => ⟨rfl, by
      constructor
      · show (dictKeys [("k".toList, _)]).Nodup
        simp [dictKeys]
      · intro d hd
        simp only [exJobLog, List.mem_singleton] at hd
        subst hd
        show (dictKeys [("score".toList, _)]).Nodup
        simp [dictKeys]⟩)
    (fun _ _ _ _ _ _ _ _ => Iff.rfl) (fun _ => none)
  obtain ⟨d, h3, h4, -⟩ := C139_collect_pairs exPlan exPlan_ok (by decide) "wd".toList fs' logs h2
  exact ⟨fs', logs, d, h1, h2, h3, h4⟩

/-- C139: without runs, and the names of the experiments whose logs have to be there. -/
example (fs : Disk ℕ) : collectResultsImage fs { exPlan with nRun := 0 } [] = .error .valueError ∧
    (exps3 exPlan).map Prod.fst = ["image_motion_sound_5_0".toList, "image_motion_sound_5_1".toList] ∧
    (expsImage exPlan).length = 4 :=
  ⟨(C139_no_runs { exPlan with nRun := 0 } rfl (by decide) (by decide) fs []).2.2, by decide +kernel,
    by decide +kernel⟩

/-- Three files at two samples per second. -/
def exWavs : WavFiles ℕ := fun p =>
  (2, if p = "a" then [1, 2, 3] else if p = "b" then [] else [4, 5])

/-- The samples of the sliding windows of one second, every half second. -/
def exSlide (paths : List String) : Py (List (List ℕ)) := do
  let c ← concatFromListOfWavs exWavs paths none
  let wins ← slidingWins c 1 (1 / 2)
  wins.mapM fun (w : Concat ℕ Unit) => do
    let x ← w.toArray exWavs
    return x.array

/-- C141: the hypotheses of the theorem, windows which cross files, and the case of a sound which is
hardly shorter than the width. -/
example : (0 : ℚ) < 2 ∧ 2 * TOL * 2 ≤ 1 ∧ (∀ p ∈ ["a", "b", "c"], (exWavs p).1 = 2) ∧
    (1 : ℚ) / 2 ≤ 1 ∧ 2 * TOL ≤ 1 / 2 ∧
    exSlide ["a", "b", "c"] = .ok [[1, 2], [2, 3], [3, 4], [4, 5]] ∧
    (do
      let c ← concatFromListOfWavs exWavs ["c"] none
      slidingWins c (1 + TOL / 2) 1) = .error .timeOutOfBound := by
  decide +kernel

/-- C141: the windows of the records. -/
example : List.Forall₂ (fun (a : List ℕ) r => ∃ s, a[1]? = some s ∧ ["c", "a"][s]? = some r)
      [[0, 1], [1, 0]] ["a", "c"] ∧
    (do
      let paths ← wavPaths id ["c", "a"] 1 [[0, 1], [1, 0]]
      let c ← concatFromListOfWavs exWavs paths none
      recordWins ["c", "a"] 1 [[0, 1], [1, 0]] c) =
        .ok ⟨[.basic ⟨0, 3 / 2, "a"⟩, .basic ⟨3 / 2, 5 / 2, "c"⟩]⟩ := by
  constructor
  · exact .cons ⟨1, rfl, rfl⟩ (.cons ⟨0, rfl, rfl⟩ .nil)
  · decide +kernel

end Verif.Samples
