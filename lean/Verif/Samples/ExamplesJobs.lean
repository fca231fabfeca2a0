import Verif.Samples.ExamplesActions
import Verif.Samples.PropsJobs
import Verif.Experiment.Examples

/-!
# Examples for jobs (C182)
-/

namespace Verif.Samples

open Verif.Logger (Key)
open Verif.Experiment

/-- A plan with one value of `k`, one run, one set of descriptors: five jobs. -/
def exPlanJ : Plan := ⟨[50], 1, [["SURF".toList]], ["a".toList]⟩

theorem exPlanJ_ok : exPlanJ.OK := ⟨by decide, by decide +kernel⟩

/-- Four metrics. -/
def exMetrics4 : List (List ℚ → List ℚ → ℚ) := exMetrics ++ [fun a b => a.sum + b.sum, fun _ b => b.sum]

/-- What jobs find: twelve samples of two labels in each modality. -/
def exEnv (n : Key) : JobEnv ℕ Unit :=
  let m := if "image_motion_sound".toList.isPrefixOf n then 3 else 2
  ⟨exLearner, exRand, .ok (List.replicate m [5, 6, 5, 6, 5, 6, 5, 6, 5, 6, 5, 6]),
    .ok (List.replicate m ⟨1, [[1], [2], [3], [4], [5], [6], [7], [8], [9], [10], [11], [12]]⟩), "0".toList, "1".toList⟩

theorem exEnv_ok (n : Key) : (exEnv n).OK where
  rand := exRand_ok
  noStop := exLearner_no_stop
  rows := ⟨fun l ms xs it y n h hne hn => by
      cases xs with
      | nil => exact absurd rfl hne
      | cons x xs => cases h; exact hn _ List.mem_cons_self,
    fun l m x y h => by cases h; rfl⟩

/-- All jobs of the plan, from the last one. -/
def exJobs : List (Job × Exp) := (preparedJobs exPlanJ "wd".toList).reverse

theorem exJobs_ok : ∀ r ∈ (runJobs exMetrics4 exEnv exJobs (fun _ => none)).2, r.2.2.toOption = some () := by
  decide +kernel

theorem sameExp_refl (e : Exp) : SameExp e e :=
  ⟨rfl, List.forall₂_same.2 fun l _ => by
    cases l with
    | acorns s => exact .acorns s
    | choreo2 => exact .choreo2
    | objects f l => exact .objects fun _ => Iff.rfl, rfl, rfl, rfl, rfl, rfl, rfl, rfl⟩

/-- C182: five jobs succeed, and their figures are drawn. -/
example (wrap : Key → ℕ → List Key) : ∃ f log,
    makeFigures wrap (runJobs exMetrics4 exEnv exJobs (fun _ => none)).1 exPlanJ (jobsByName exPlanJ "wd".toList) = .ok f ∧
    (∀ r ∈ (runJobs exMetrics4 exEnv exJobs (fun _ => none)).2, log r.1 = r.2.1) ∧
    Drawn exPlanJ (RunScores exPlanJ log) f ∧ exJobs.length = 5 := by
  obtain ⟨hn, hp, -, hje⟩ := C138_jobs exPlanJ exPlanJ_ok "wd".toList
  obtain ⟨f, log, h1, h2, h3⟩ := C182_figures wrap exPlanJ exPlanJ_ok (by decide) (by decide) (by decide) "wd".toList
    exMetrics4 (by decide) exEnv exEnv_ok exJobs
    (by unfold exJobs; rw [List.map_reverse, hp]; exact List.reverse_perm _)
    (by
      intro j e' hj e he
      unfold exJobs at hj
      rw [List.mem_reverse] at hj
      have h4 := (hje _ _ hj).1
      have : e' = e := congrArg Prod.snd (List.inj_on_of_nodup_map (names_nodup exPlanJ_ok) h4 he rfl)
      subst this
      exact sameExp_refl _)
    (fun _ => none)
    (by
      intro r hr
      have := exJobs_ok r hr
      rcases hr2 : r.2.2 with x | ⟨⟩
      · rw [hr2] at this; cases this
      · rfl)
  exact ⟨f, log, h1, h2, h3, by decide +kernel⟩

/-- C182: a job, whose log has the score of its two modalities. -/
example : ∃ w d s, runJob exMetrics4 (exEnv "j".toList) ⟨"wd".toList, "j".toList, .two⟩
      (launched [("motion".toList, .choreo2), ("sound".toList, .acorns (.num 0))] 50) (fun _ => none) = (w, .ok ()) ∧
    w.log.exps = [d] ∧ Has d "score_motion2sound_cosine".toList s := by
  have h : (runJob exMetrics4 (exEnv "j".toList) ⟨"wd".toList, "j".toList, .two⟩
      (launched [("motion".toList, .choreo2), ("sound".toList, .acorns (.num 0))] 50) (fun _ => none)).2.toOption = some () := by
    decide +kernel
  rcases hr : runJob exMetrics4 (exEnv "j".toList) ⟨"wd".toList, "j".toList, .two⟩
      (launched [("motion".toList, .choreo2), ("sound".toList, .acorns (.num 0))] 50) (fun _ => none) with ⟨w, x | ⟨⟩⟩
  · rw [hr] at h; cases h
  · obtain ⟨h1, -⟩ := C182_job _ _ (exEnv_ok _) _ _ rfl (by decide) _ _ hr
    obtain ⟨d, hd, hs⟩ := h1.scores
    obtain ⟨s, hs⟩ := hs "score_motion2sound_cosine".toList (by decide +kernel) (by decide +kernel)
    exact ⟨w, d, s, rfl, hd, hs⟩

end Verif.Samples
