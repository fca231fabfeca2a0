import Verif.Samples.PropsJobs
import Verif.Logger.PropsParallel

/-!
# Property C190: jobs of the launcher at the same time
-/

namespace Verif.Samples

open Verif.Logger (Key FS File load AtTheSameTime Finished)
open Verif.Experiment

variable {L Λ : Type}

/-- The log of a job which runs while the disk is `seen`. -/
def logOf [DecidableEq L] (metrics : List (List ℚ → List ℚ → ℚ)) (env : Key → JobEnv L Λ) (seen : Key → Disk L)
    (x : Job × Exp) : Log L :=
  (runJob metrics (env x.1.name) x.1 x.2 (seen x.1.name)).1.log

/-- **C190.** Jobs of the launcher at the same time: each sees any disk, changes it at its end by saving its log
(`C182_job`), and the writes of all jobs come in any order which keeps the order of those of each job.  When each succeeds,
the action `plot` draws its figures from the disk, and what they show are the scores which the jobs had in their logs. -/
theorem C190_figures [DecidableEq L] (wrap : Key → ℕ → List Key) (P : Plan) (h : P.OK) (hn : 0 < P.nRun)
    (h50 : 50 ∈ P.ks) (hsets : P.sets ≠ []) (wd : Key) (metrics : List (List ℚ → List ℚ → ℚ))
    (hm : 4 ≤ metrics.length) (env : Key → JobEnv L Λ) (henv : ∀ n, (env n).OK) (jobs : List (Job × Exp))
    (hjobs : (jobs.map Prod.fst).Perm (allJobs P wd))
    (hexp : ∀ j e', (j, e') ∈ jobs → ∀ e, (j.name, e) ∈ allExps P → SameExp e' e) (seen : Key → Disk L)
    (hok : ∀ x ∈ jobs, (runJob metrics (env x.1.name) x.1 x.2 (seen x.1.name)).2 = .ok ()) (fs : Disk L)
    (sched : List (Fin jobs.length × Key × File (LogVal L) Mx))
    (hfin : ∀ i, Finished (fun i : Fin jobs.length => logOf metrics env seen jobs[i]) sched i) :
    ∃ f log, makeFigures wrap (fs.writes (sched.map Prod.snd)) P (jobsByName P wd) = .ok f ∧
      (∀ x ∈ jobs, log x.1.name = logOf metrics env seen x) ∧ Drawn P (RunScores P log) f := by
  have hjob := jobs_exps h hjobs hexp
  have hmode := jobs_modes h hjobs hexp
  have hlog : ∀ x ∈ jobs, JobLog metrics x.1 x.2 (logOf metrics env seen x) := fun x hx =>
    (C182_job metrics (env x.1.name) (henv _) x.1 x.2 (hmode x hx).1 (hmode x hx).2 (seen x.1.name) _
      (Prod.ext rfl (hok x hx))).1
  have hlogs : List.Forall₂ (fun x (r : Key × Log L) => r.1 = x.1.name ∧ JobLog metrics x.1 x.2 r.2) jobs
      (jobs.map fun x => (x.1.name, logOf metrics env seen x)) := by
    rw [List.forall₂_map_right_iff]
    exact List.forall₂_same.2 fun x hx => ⟨rfl, hlog x hx⟩
  have hnd : (jobs.map fun x => x.1.name).Nodup := by
    have := logs_nodup h hjobs hlogs
    rw [List.map_map] at this
    exact this
  have hfile : ∀ i : Fin jobs.length,
      (logOf metrics env seen jobs[i]).filename = some (Corpus.pathJoin wd jobs[i].1.name) := by
    intro i
    have hi : jobs[i] ∈ jobs := List.getElem_mem _
    obtain ⟨e, -, hp, -⟩ := hjob jobs[i].1 jobs[i].2 hi
    rw [(hlog _ hi).file, hp]
  have hinj : ∀ i j : Fin jobs.length, Corpus.pathJoin wd jobs[i].1.name = Corpus.pathJoin wd jobs[j].1.name → i = j := by
    intro i j hij
    obtain ⟨e, he, -⟩ := hjob jobs[i].1 jobs[i].2 (List.getElem_mem _)
    obtain ⟨e', he', -⟩ := hjob jobs[j].1 jobs[j].2 (List.getElem_mem _)
    have := pathJoin_inj (name_head he) (name_head he') hij
    have h1 : (jobs.map fun x => x.1.name)[i.1]'(by simp) = (jobs.map fun x => x.1.name)[j.1]'(by simp) := by
      rw [List.getElem_map, List.getElem_map]
      exact this
    exact Fin.ext ((List.Nodup.getElem_inj_iff hnd).1 h1)
  have s2 : ∀ n l, (n, l) ∈ jobs.map (fun x => (x.1.name, logOf metrics env seen x)) →
      ∃ l', load (fs.writes (sched.map Prod.snd)) (Corpus.pathJoin wd n) false false = .ok l' ∧
      Logger.PlainOf l'.glob l.glob ∧ List.Forall₂ Logger.PlainOf l'.exps l.exps ∧ l'.expKeys = l.expKeys := by
    intro n l hnl
    obtain ⟨x, hx, e⟩ := List.mem_map.1 hnl
    cases e
    obtain ⟨i, hi, rfl⟩ := List.getElem_of_mem hx
    exact Logger.C190_finished_plain (fun i : Fin jobs.length => logOf metrics env seen jobs[i]) _ hfile hinj fs sched
      (fun i => ⟨_, hfin i, List.prefix_refl _⟩) ⟨i, hi⟩ (hfin _) (hlog _ hx).wf false
  obtain ⟨f, log, h1, h2, h3⟩ := figures_of_logs wrap P h hn h50 hsets wd metrics hm jobs hjobs hexp _ hlogs _ s2
  exact ⟨f, log, h1, fun x hx => h2 _ (List.mem_map_of_mem
    (f := fun x : Job × Exp => (x.1.name, logOf metrics env seen x)) hx), h3⟩

end Verif.Samples
