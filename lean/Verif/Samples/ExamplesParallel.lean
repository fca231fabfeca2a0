import Verif.Samples.ExamplesJobs
import Verif.Samples.PropsParallel

/-!
# Examples for saves and jobs at the same time (C190)
-/

namespace Verif.Logger

/-- Two logs with an array each. -/
def exPar (b : Bool) : Logger ℕ ℕ :=
  ⟨[("n".toList, .plain 1), ("x".toList, .arr (if b then 2 else 3))], [], [], [], some (if b then "a" else "b").toList⟩

/-- Their files, written in turn; the second log is not finished. -/
def exParSched : List (Bool × Key × File ℕ ℕ) :=
  [(true, "a.npz".toList, .npz [("glob_x".toList, 2)]), (false, "b.npz".toList, .npz [("glob_x".toList, 3)]),
   (true, "a.json".toList, .truncated), (false, "b.json".toList, .truncated),
   (true, "a.json".toList, .json ⟨[("n".toList, 1)], [], [], [], true⟩)]

theorem exPar_same : AtTheSameTime exPar exParSched := by
  rintro (_ | _)
  · exact ⟨_, rfl, ⟨[("b.json".toList, .json ⟨[("n".toList, 1)], [], [], [], true⟩)], rfl⟩⟩
  · exact ⟨_, rfl, List.prefix_refl _⟩

/-- C190: the finished log is loaded. -/
example (fs : FS ℕ ℕ) : ∃ l', load (fs.writes (exParSched.map Prod.snd)) "a".toList true true = .ok l' ∧
    dictGet? l'.glob "x".toList = some (.arr 2) := by
  obtain ⟨l', h1, h2, -⟩ := C190_finished exPar (fun b => (if b then "a" else "b").toList) (by decide)
    (by decide) (by decide) fs exParSched exPar_same true rfl
    (C72_reachable_wf _ (.storeGlobal "x".toList (.arr _) (.storeGlobal "n".toList (.plain _) (.new _)))) true
  exact ⟨l', h1, (h2 _).trans (by decide)⟩

/-- C190: before the second log is written, its file is loaded as before. -/
example (fs : FS ℕ ℕ) : load (fs.writes (([exParSched[0]].map Prod.snd))) "b".toList true true =
    load fs "b".toList true true :=
  C190_waiting exPar (fun b => (if b then "a" else "b").toList) (by decide) (by decide) (by decide) fs [exParSched[0]]
    (by
      rintro (_ | _)
      · exact ⟨_, rfl, List.nil_prefix⟩
      · exact ⟨_, rfl, ⟨_, rfl⟩⟩) false (by decide) true true

/-- Each save makes its first write, then each its second one, then each its third one. -/
def inTurn {W : Type} (n : ℕ) (ws : Fin n → List W) : List (Fin n × W) :=
  (List.range 3).flatMap fun k => (List.finRange n).filterMap fun i => ((ws i)[k]?).map fun w => (i, w)

theorem filter_turn {n : ℕ} {W : Type} (g : Fin n → Option W) (i : Fin n) (l : List (Fin n)) (h : l.Nodup) :
    ((l.filterMap fun j => (g j).map fun w => (j, w)).filter fun x => x.1 = i).map Prod.snd =
      if i ∈ l then (g i).toList else [] := by
  induction l with
  | nil => rfl
  | cons j l ih =>
    rw [List.nodup_cons] at h
    have ih := ih h.2
    by_cases hj : j = i
    · subst hj
      rw [if_neg h.1] at ih
      rcases hg : g j with _ | w
      · simp [List.filterMap_cons, hg] at ih ⊢
        exact ih
      · simp [List.filterMap_cons, hg] at ih ⊢
        exact ih
    · rcases hg : g j with _ | w
      · rw [List.filterMap_cons]
        simp only [hg, Option.map_none]
        rw [ih]
        simp [Ne.symm hj]
      · rw [List.filterMap_cons]
        simp only [hg, Option.map_some]
        rw [List.filter_cons_of_neg (by simpa using hj), ih]
        simp [Ne.symm hj]

theorem writesOf_inTurn {P A : Type} {n : ℕ} (ws : Fin n → List (Key × File P A)) (h : ∀ i, (ws i).length ≤ 3) (i : Fin n) :
    writesOf (inTurn n ws) i = ws i := by
  unfold writesOf inTurn
  have hk : ∀ k : ℕ, (((List.finRange n).filterMap fun i => ((ws i)[k]?).map fun w => (i, w)).filter
      fun x => x.1 = i).map Prod.snd = ((ws i)[k]?).toList := by
    intro k
    rw [filter_turn (fun i => (ws i)[k]?) i _ (List.nodup_finRange n), if_pos (List.mem_finRange i)]
  rw [show List.range 3 = [0, 1, 2] from rfl]
  simp only [List.flatMap_cons, List.flatMap_nil, List.append_nil, List.filter_append, List.map_append, hk]
  have := h i
  generalize ws i = l at this
  match l, this with
  | [], _ => rfl
  | [_], _ => rfl
  | [_, _], _ => rfl
  | [_, _, _], _ => rfl
  | _ :: _ :: _ :: _ :: _, h => exact absurd h (by simp only [List.length_cons]; omega)

end Verif.Logger

namespace Verif.Samples

open Verif.Logger (Key saveWrites inTurn writesOf_inTurn)
open Verif.Experiment

theorem exPar_ok : ∀ x ∈ exJobs, (runJob exMetrics4 (exEnv x.1.name) x.1 x.2 (fun _ => none)).2.toOption = some () := by
  decide +kernel

/-- C190: the five jobs of the example of C182 at the same time, each on an empty disk, all saving in turn. -/
example (wrap : Key → ℕ → List Key) (fs : Disk ℕ) :
    ∃ (sched : List (Fin exJobs.length × Key × Logger.File (LogVal ℕ) Mx)) (f : Figures) (log : Key → Log ℕ),
      makeFigures wrap (fs.writes (sched.map Prod.snd)) exPlanJ (jobsByName exPlanJ "wd".toList) = .ok f ∧
      (∀ x ∈ exJobs, log x.1.name = logOf exMetrics4 exEnv (fun _ _ => none) x) ∧
      Drawn exPlanJ (RunScores exPlanJ log) f ∧ exJobs.length = 5 := by
  obtain ⟨hn, hp, -, hje⟩ := C138_jobs exPlanJ exPlanJ_ok "wd".toList
  have hjobs : (exJobs.map Prod.fst).Perm (allJobs exPlanJ "wd".toList) := by
    unfold exJobs; rw [List.map_reverse, hp]; exact List.reverse_perm _
  have hexp : ∀ j e', (j, e') ∈ exJobs → ∀ e, (j.name, e) ∈ allExps exPlanJ → SameExp e' e := by
    intro j e' hj e he
    unfold exJobs at hj
    rw [List.mem_reverse] at hj
    have h4 := (hje _ _ hj).1
    have : e' = e := congrArg Prod.snd (List.inj_on_of_nodup_map (names_nodup exPlanJ_ok) h4 he rfl)
    subst this
    exact sameExp_refl _
  have hok : ∀ x ∈ exJobs, (runJob exMetrics4 (exEnv x.1.name) x.1 x.2 (fun _ => none)).2 = .ok () := by
    intro x hx
    have := exPar_ok x hx
    rcases hr2 : (runJob exMetrics4 (exEnv x.1.name) x.1 x.2 (fun _ => none)).2 with e | ⟨⟩
    · rw [hr2] at this; cases this
    · rfl
  have hw : ∀ i : Fin exJobs.length, ∃ ws, saveWrites (logOf exMetrics4 exEnv (fun _ _ => none) exJobs[i]) = .ok ws ∧
      ws.length ≤ 3 := by
    intro i
    have hi : exJobs[i] ∈ exJobs := List.getElem_mem _
    have hm := jobs_modes exPlanJ_ok hjobs hexp _ hi
    have := (C182_job exMetrics4 (exEnv _) (exEnv_ok _) exJobs[i].1 exJobs[i].2 hm.1 hm.2 (fun _ => none) _
      (Prod.ext rfl (hok _ hi))).1.file
    unfold saveWrites
    rw [show (logOf exMetrics4 exEnv (fun _ _ => none) exJobs[i]).filename = _ from this]
    refine ⟨_, rfl, ?_⟩
    split_ifs <;> simp
  choose ws hws hlen using hw
  obtain ⟨f, log, h⟩ := C190_figures wrap exPlanJ exPlanJ_ok (by decide) (by decide) (by decide) "wd".toList
    exMetrics4 (by decide) exEnv exEnv_ok exJobs hjobs hexp (fun _ _ => none) hok fs (inTurn _ ws)
    (fun i => by
      unfold Logger.Finished
      rw [writesOf_inTurn ws hlen]
      exact hws i)
  exact ⟨_, f, log, h.1, h.2.1, h.2.2, by decide +kernel⟩

end Verif.Samples
