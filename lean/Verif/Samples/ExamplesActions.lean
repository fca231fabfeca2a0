import Verif.Samples.PropsWatch

/-!
# Examples for the actions of the launcher (C180, C181)
-/

namespace Verif.Samples

open Verif.Logger (Key)
open Verif.Experiment (Log)
open Verif.Plots (combinations allPairs)

/-- A plan with two values of `k`, two runs and one set of descriptors. -/
def exPlan50 : Plan := ⟨[50, 5], 2, [["SURF".toList]], ["a".toList]⟩

theorem exPlan50_ok : exPlan50.OK := ⟨by decide, by decide +kernel⟩

def exThree : List Key := ["image".toList, "motion".toList, "sound".toList]

/-- The keys of scores which figures need. -/
def exKeys : List Key := ((combinations exThree).map fun c => scoreKey c.1 c.2 "_cosine".toList) ++
  (allPairs exThree).map fun c => scoreKey c.1 c.2 []

/-- The log of a job: its modalities, one run with scores. -/
def exRunLog (n : Key) : Log ℕ :=
  ⟨[("modalities".toList, .plain (.mods ((((allExps exPlan50).find? fun x => x.1 = n).map
      fun x => x.2.modalities).getD [])))],
    [exKeys.map fun k => (k, .plain (.score (some (1 / 2))))], exKeys, [], some (Corpus.pathJoin "wd".toList n)⟩

theorem exRunLog_complete : Complete exPlan50 exRunLog := by
  have hsub : ∀ x ∈ allExps exPlan50, x.2.modalities ⊆ exThree ∧
      (x.2.modalities.length = 3 → x.2.modalities = exThree) := by decide +kernel
  have hp : ∀ x ∈ exThree, ∀ y ∈ exThree, x ≠ y → scoreKey [x] [y] [] ∈ exKeys ∧
      scoreKey [x] [y] "_cosine".toList ∈ exKeys := by decide +kernel
  have hq : ∀ c ∈ combinations exThree, scoreKey c.1 c.2 "_cosine".toList ∈ exKeys := by decide +kernel
  have hget : ∀ k ∈ exKeys, ∀ n, ∃ s, Has (((exRunLog n).exps[0]?).getD []) k s := by
    intro k hk n
    refine ⟨1 / 2, ?_⟩
    show dictGet? (exKeys.map fun k => (k, _)) k = _
    unfold dictGet?
    rcases hf : (exKeys.map fun k => (k, (.plain (.score (some (1 / 2))) : Logger.Val (Experiment.LogVal ℕ)
      Experiment.Mx))).find? (fun p => decide (p.1 = k)) with _ | p
    · rw [List.find?_eq_none] at hf
      exact absurd (decide_eq_true rfl) (hf _ (List.mem_map.2 ⟨k, hk, rfl⟩))
    · obtain ⟨k', _, rfl⟩ := List.mem_map.1 (List.mem_of_find?_eq_some hf)
      rw [hf]
      rfl
  constructor
  · have h : ∀ x ∈ allExps exPlan50, dictGet? (exRunLog x.1).glob "modalities".toList =
        some (.plain (.mods x.2.modalities)) := by
      intro x hx
      have : ∀ x ∈ allExps exPlan50, (((allExps exPlan50).find? fun y => y.1 = x.1).map
          fun y => y.2.modalities).getD [] = x.2.modalities := by decide +kernel
      show some (Logger.Val.plain (Experiment.LogVal.mods _)) = _
      rw [this x hx]
    exact fun n e he => h (n, e) he
  · intro n e he
    obtain ⟨h1, h2⟩ := hsub (n, e) he
    refine ⟨_, rfl, fun x hx y hy hxy => ?_, fun hl c hc => ?_⟩
    · obtain ⟨h3, h4⟩ := hp x (h1 hx) y (h1 hy) hxy
      exact ⟨hget _ h3 n, hget _ h4 n⟩
    · have := h2 hl
      simp only [] at this
      rw [this] at hc
      exact hget _ (hq c hc) n

/-- C180: all logs of a plan saved, then plotted. -/
example (wrap : Key → ℕ → List Key) : ∃ fs' f, (allExps exPlan50).foldlM (fun fs x => (exRunLog x.1).save fs)
      (fun _ => none : Disk ℕ) = .ok fs' ∧
    makeFigures wrap fs' exPlan50 (jobsByName exPlan50 "wd".toList) = .ok f ∧ f.all_k.1.length = 12 := by
  obtain ⟨fs', logs, h1, h2, h3⟩ := C140_on_disk exPlan50 exPlan50_ok "wd".toList exRunLog
    (fun n e _ => ⟨rfl, by
      constructor
      · show (dictKeys [("modalities".toList, _)]).Nodup
        simp [dictKeys]
      · intro d hd
        simp only [exRunLog, List.mem_singleton] at hd
        subst hd
        show (dictKeys (exKeys.map fun k => (k, _))).Nodup
        rw [show dictKeys (exKeys.map fun k => (k, (.plain (.score (some (1 / 2))) : Logger.Val (Experiment.LogVal ℕ)
          Experiment.Mx))) = exKeys by simp [dictKeys, Function.comp_def]]
        decide +kernel⟩)
    (fun _ _ _ _ _ _ _ _ => Iff.rfl) (fun _ => none)
  obtain ⟨f, hf, -, h12, -⟩ := C180_plot wrap exPlan50 exPlan50_ok (by decide) (by decide) (by decide) "wd".toList fs' logs
    h2 (complete_plain exRunLog_complete h3)
  exact ⟨fs', f, h1, hf, h12⟩

/-- C181: the files of the figures. -/
example : savedFiles id true none "/d/".toList "svg".toList = ["/d/one_to_one_all_k.svg".toList,
    "/d/one_to_one_all.svg".toList, "/d/image_feats.svg".toList, "/d/three_modalities.svg".toList] := by decide +kernel

/-- A pool which is at the end from its fifth reading. -/
def exPool (t : ℕ) : Obs :=
  if t < 4 then ⟨2, "RUNNING".toList, [("DONE".toList, 1), ("RUNNING".toList, 2)]⟩ else ⟨5, "DONE".toList, [("DONE".toList, 3)]⟩

/-- C181: three turns are needed, and the second one shows the end before the last one. -/
example : refreshed 4 exPool 5 0 = some ["RUNNING (DONE: 1, RUNNING: 2)".toList, "DONE (DONE: 3)".toList,
      "DONE (DONE: 3)".toList] ∧ refreshed 4 exPool 2 0 = none ∧
    (∀ t, 4 ≤ t → exPool t = ⟨5, "DONE".toList, [("DONE".toList, 3)]⟩) ∧ ∀ t, 4 ≤ (exPool t).status → 4 ≤ t := by
  refine ⟨by decide +kernel, by decide +kernel, fun t ht => ?_, fun t ht => ?_⟩
  · unfold exPool
    rw [if_neg (by omega)]
  · unfold exPool at ht
    split at ht
    · exact absurd ht (by decide)
    · omega

end Verif.Samples
