import Verif.Samples.Prepare
import Verif.Samples.PropsLauncher
import Verif.Experiment.PropsJson

/-!
# Property C177: configurations of the jobs of the launcher
-/

namespace Verif.Samples

open Verif.Logger (Key)
open Verif.Experiment

theorem built_launched (loaders : Dict Key Ldr) (hn : (dictKeys loaders).Nodup)
    (hc : ∀ f l, Ldr.acorns (.cfg f l) ∉ loaders.map Prod.snd) (k : ℕ) : Built (launched loaders k) := by
  have hl : (launched loaders k).loaders = loaders.map Prod.snd := filterMap_get loaders hn
  refine ⟨hn, ?_, ?_⟩
  · rw [hl]
    show (dictKeys loaders).length = _
    simp [dictKeys]
  · rw [hl]
    exact hc

theorem built_all {P : Plan} {n : Key} {e : Exp} (h : (n, e) ∈ allExps P) : Built e := by
  have hnamed : ∀ pre (loaders : Dict Key Ldr), (dictKeys loaders).Nodup →
      (∀ f l, Ldr.acorns (.cfg f l) ∉ loaders.map Prod.snd) → (n, e) ∈ named P pre loaders → Built e := by
    intro pre loaders h1 h2 hm
    unfold named at hm
    rw [List.mem_flatMap] at hm
    obtain ⟨k, -, hm⟩ := hm
    obtain ⟨i, -, he⟩ := List.mem_map.1 hm
    obtain rfl := (Prod.mk.inj he).2
    exact built_launched loaders h1 h2 k
  unfold allExps exps2 exps3 at h
  simp only [List.mem_append] at h
  rcases h with (((h | h) | h) | h) | h
  · exact hnamed _ _ (by decide) (by simp) h
  · exact hnamed _ _ (by simp [dictKeys]) (by simp [Plan.image]) h
  · exact hnamed _ _ (by simp [dictKeys]) (by simp [Plan.image]) h
  · exact hnamed _ _ (by simp [dictKeys]) (by simp [Plan.image]) h
  · unfold expsImage at h
    rw [List.mem_flatMap] at h
    obtain ⟨f, -, h⟩ := h
    obtain ⟨i, -, he⟩ := List.mem_map.1 h
    obtain rfl := (Prod.mk.inj he).2
    exact built_launched _ (by simp [dictKeys]) (by simp) 50

theorem saved_foldl (enum : List Key → List Key) (henum : ∀ l x, x ∈ enum l ↔ x ∈ l) (config : Job → Key)
    (l : List ((Key × Exp) × Job)) (hb : ∀ x ∈ l, Built x.1.2) (hn : (l.map fun x => config x.2).Nodup) :
    ∀ fs : PFS,
    (∀ x ∈ l, ∃ e', loadFromSerialized (l.foldl (fun fs x => saveSerialized enum fs x.1.2 (config x.2)) fs)
      (config x.2) = .ok e' ∧ SameExp e' x.1.2) ∧
    ∀ q, (∀ x ∈ l, config x.2 ≠ q) →
      (l.foldl (fun fs x => saveSerialized enum fs x.1.2 (config x.2)) fs) q = fs q := by
  induction l with
  | nil => exact fun fs => ⟨by simp, fun q _ => rfl⟩
  | cons x l ih =>
    intro fs
    rw [List.map_cons, List.nodup_cons] at hn
    obtain ⟨h1, h2⟩ := ih (fun y hy => hb y (List.mem_cons_of_mem _ hy)) hn.2
      (saveSerialized enum fs x.1.2 (config x.2))
    rw [List.foldl_cons]
    constructor
    · intro y hy
      rcases List.mem_cons.1 hy with rfl | hy
      · obtain ⟨e', g1, g2, -⟩ := C177_round_trip enum henum fs y.1.2 (hb y List.mem_cons_self) (config y.2)
        refine ⟨e', ?_, g2⟩
        rw [← g1]
        unfold loadFromSerialized
        rw [h2 (config y.2) fun z hz e => hn.1 (List.mem_map.2 ⟨z, hz, e⟩)]
      · exact h1 y hy
    · intro q hq
      rw [h2 q fun z hz => hq z (List.mem_cons_of_mem _ hz)]
      unfold saveSerialized
      rw [if_neg fun e => hq x List.mem_cons_self e.symm]

/-- **C177.** After the action `prepare`, the configuration of each job gives the experiment of its name; other
files are as before.  Jobs with different names in a directory have different configurations. -/
theorem C177_prepare (enum : List Key → List Key) (henum : ∀ l x, x ∈ enum l ↔ x ∈ l) (config : Job → Key)
    (hconfig : ∀ j j', j.path = j'.path → config j = config j' → j.name = j'.name) (P : Plan) (h : P.OK) (wd : Key)
    (fs : PFS) :
    (∀ n e, (n, e) ∈ allExps P → ∃ j ∈ allJobs P wd, j.name = n ∧
      ∃ e', loadFromSerialized (prepareAction enum config P wd fs) (config j) = .ok e' ∧ SameExp e' e) ∧
    ∀ q, (∀ j ∈ allJobs P wd, config j ≠ q) → (prepareAction enum config P wd fs) q = fs q := by
  obtain ⟨hn, hjobs, -, hje⟩ := C138_jobs P h wd
  have hlen : (allExps P).length = (allJobs P wd).length := by
    have h2 := congrArg List.length (jobs_names P wd)
    simpa using h2.symm
  have hpath : ∀ j ∈ allJobs P wd, j.path = wd := by
    intro j hj
    rw [← hjobs] at hj
    obtain ⟨⟨j', e⟩, hm, rfl⟩ := List.mem_map.1 hj
    exact (hje j' e hm).2.1
  have hnd : (((allExps P).zip (allJobs P wd)).map fun x => config x.2).Nodup := by
    have e1 : (((allExps P).zip (allJobs P wd)).map fun x => config x.2) = (allJobs P wd).map config := by
      conv_rhs => rw [← List.map_snd_zip hlen.ge, List.map_map]
      rfl
    rw [e1]
    have hj : (allJobs P wd).Nodup := List.Nodup.of_map _ hn
    refine List.Nodup.map_on ?_ hj
    intro j hj1 j' hj2 e
    have := hconfig j j' ((hpath j hj1).trans (hpath j' hj2).symm) e
    exact List.inj_on_of_nodup_map hn hj1 hj2 this
  have hmem : ∀ x ∈ (allExps P).zip (allJobs P wd), x.1 ∈ allExps P ∧ x.2 ∈ allJobs P wd :=
    fun x hx => List.of_mem_zip hx
  obtain ⟨g1, g2⟩ := saved_foldl enum henum config ((allExps P).zip (allJobs P wd))
    (fun x hx => built_all (n := x.1.1) (hmem x hx).1) hnd fs
  constructor
  · intro n e he
    obtain ⟨i, hi, hei⟩ := List.getElem_of_mem he
    have hij : i < (allJobs P wd).length := hlen ▸ hi
    have hx : ((allExps P)[i], (allJobs P wd)[i]) ∈ (allExps P).zip (allJobs P wd) := by
      rw [List.mem_iff_getElem]
      exact ⟨i, by simp [hi, hij], by simp⟩
    obtain ⟨e', a1, a2⟩ := g1 _ hx
    have hname : (allJobs P wd)[i].name = n := by
      have hm : ((allJobs P wd)[i], (allExps P)[i].2) ∈ preparedJobs P wd :=
        List.mem_map.2 ⟨_, hx, rfl⟩
      have hj2 := jobs_names P wd
      have : ((allJobs P wd).map Job.name)[i]? = ((allExps P).map Prod.fst)[i]? := by rw [hj2]
      rw [List.getElem?_map, List.getElem?_map, List.getElem?_eq_getElem hij, List.getElem?_eq_getElem hi] at this
      have := Option.some.inj this
      rw [this, hei]
    refine ⟨(allJobs P wd)[i], List.getElem_mem _, hname, e', a1, ?_⟩
    rw [hei] at a2
    exact a2
  · intro q hq
    exact g2 q fun x hx => hq x.2 (hmem x hx).2

/-- C177: the plan of the launcher, with configurations named after jobs. -/
example : PLAN.OK ∧ ∀ j j' : Job, j.path = j'.path → j.path ++ '/' :: (j.name ++ ".json".toList) =
    j'.path ++ '/' :: (j'.name ++ ".json".toList) → j.name = j'.name := by
  refine ⟨plan_ok, fun j j' hp h => ?_⟩
  rw [hp, List.append_cancel_left_eq, List.cons.injEq, List.append_cancel_right_eq] at h
  exact h.2

end Verif.Samples
