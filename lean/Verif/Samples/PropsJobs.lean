import Verif.Samples.Jobs
import Verif.Samples.PropsActions
import Verif.Samples.PropsPrepare
import Verif.Experiment.PropsSingle

/-!
# Property C182: from jobs to figures
-/

namespace Verif.Samples

open Verif.Logger (Key FS load)
open Verif.Experiment
open Verif.Plots (Figure Curve Box Directed mean variance combinations)

variable {L Λ : Type}

/-! ### Specification -/

/-- What the figures of the launcher show, where `S sel key r` tells that `r` are the values of a score for the
selected experiments. -/
def Drawn (P : Plan) (S : (Key → Exp → Prop) → Key → List ℚ → Prop) (f : Figures) : Prop :=
  (∀ m ∈ MOD_PAIRS, ∀ a b, (a, b) = m ∨ (b, a) = m → ∃ c c', c ∈ f.all_k.1 ∧ c' ∈ f.all_k.1 ∧
    c.style = "-".toList ∧ c'.style = "--".toList ∧
    (a ++ " $\\rightarrow$ ".toList ++ b, c) ∈ f.all_k.2.1 ∧
    c.points.length = P.ks.length ∧ c'.points.length = P.ks.length ∧
    ∀ (i k : ℕ), P.ks[i]? = some k → ∃ r r',
      S (Sel2 P m k) (scoreKey [a] [b] []) r ∧ c.points[i]? = some ((k : ℚ), mean r, variance r) ∧
      S (Sel3 P k) (scoreKey [a] [b] []) r' ∧ c'.points[i]? = some ((k : ℚ), mean r', variance r')) ∧
  f.all_k.1.length = 12 ∧
  (∃ left last, f.one2one.panels = left ++ [last] ∧ left.length = 3 ∧
    (∀ (i : ℕ) m, MOD_PAIRS[i]? = some m → ∃ p q, left[i]? = some p ∧ p.title = m.1 ++ ", ".toList ++ m.2 ∧
      Directed [m.1, m.2] q ∧ List.Forall₂ (fun ab (b : Box) =>
        S (Sel2 P m 50) (scoreKey [ab.1] [ab.2] "_cosine".toList) b.values) q p.boxes) ∧
    ∃ q, Directed ["image".toList, "motion".toList, "sound".toList] q ∧ List.Forall₂ (fun ab (b : Box) =>
        S (Sel3 P 50) (scoreKey [ab.1] [ab.2] "_cosine".toList) b.values) q last.boxes) ∧
  (f.feats.panels.length = P.sets.length ∧ ∀ (i : ℕ) s, P.sets[i]? = some s → ∃ p q, f.feats.panels[i]? = some p ∧
    Directed ["image".toList, "sound".toList] q ∧ List.Forall₂ (fun ab (b : Box) =>
      S (SelImage P s) (scoreKey [ab.1] [ab.2] "_cosine".toList) b.values) q p.boxes) ∧
  List.Forall₂ (fun c (b : Box) => S (Sel3 P 50) (scoreKey c.1 c.2 "_cosine".toList) b.values)
    (combinations ["image".toList, "motion".toList, "sound".toList]) f.all_mod.1

/-- What is assumed of what a job does not have in its parameters. -/
structure JobEnv.OK [DecidableEq L] (env : JobEnv L Λ) : Prop where
  rand : env.rand.OK
  noStop : env.learner.NoStop
  rows : env.learner.KeepsRows

/-! ### Figures of other values -/

theorem Drawn.mono {P : Plan} {S S' : (Key → Exp → Prop) → Key → List ℚ → Prop} {f : Figures}
    (hS : ∀ sel key r, (∀ n e, sel n e → (n, e) ∈ allExps P) → S sel key r → S' sel key r) (h : Drawn P S f) :
    Drawn P S' f := by
  have s2 : ∀ m k n e, Sel2 P m k n e → (n, e) ∈ allExps P := fun m k n e h => mem_all2 h.1
  have s3 : ∀ k n e, Sel3 P k n e → (n, e) ∈ allExps P := fun k n e h => mem_all3 h.1
  have si : ∀ s n e, SelImage P s n e → (n, e) ∈ allExps P := fun s n e h => mem_allImage h.1
  obtain ⟨h1, h2, ⟨left, last, h3, h4, h5, q, h6, h7⟩, ⟨h8, h9⟩, h10⟩ := h
  refine ⟨?_, h2, ⟨left, last, h3, h4, ?_, q, h6, h7.imp fun _ _ hs => hS _ _ _ (s3 _) hs⟩, ⟨h8, ?_⟩,
    h10.imp fun _ _ hs => hS _ _ _ (s3 _) hs⟩
  · intro m hm a b hab
    obtain ⟨c, c', g1, g2, g3, g4, g5, g6, g7, g8⟩ := h1 m hm a b hab
    refine ⟨c, c', g1, g2, g3, g4, g5, g6, g7, fun i k hk => ?_⟩
    obtain ⟨r, r', e1, e2, e3, e4⟩ := g8 i k hk
    exact ⟨r, r', hS _ _ _ (s2 _ _) e1, e2, hS _ _ _ (s3 _) e3, e4⟩
  · intro i m hm
    obtain ⟨p, q, g1, g2, g3, g4⟩ := h5 i m hm
    exact ⟨p, q, g1, g2, g3, g4.imp fun _ _ hs => hS _ _ _ (s2 _ _) hs⟩
  · intro i s hs
    obtain ⟨p, q, g1, g2, g3⟩ := h9 i s hs
    exact ⟨p, q, g1, g2, g3.imp fun _ _ hs => hS _ _ _ (si _) hs⟩

/-! ### Experiments of the launcher -/

/-- The names of modalities of the experiments. -/
def PAIRS : List (List Key) := [["motion".toList, "sound".toList], ["image".toList, "sound".toList],
  ["image".toList, "motion".toList]]

theorem launched_mods {P : Plan} {n : Key} {e : Exp} (h : (n, e) ∈ allExps P) :
    e.runMode = .single ∧
      (e.modalities ∈ PAIRS ∨ e.modalities = ["image".toList, "motion".toList, "sound".toList]) := by
  unfold allExps exps2 exps3 at h
  simp only [List.mem_append] at h
  rcases h with (((h | h) | h) | h) | h
  · obtain ⟨k, _, i, _, _, rfl⟩ := mem_named.1 h
    exact ⟨rfl, Or.inl (List.mem_cons_self)⟩
  · obtain ⟨k, _, i, _, _, rfl⟩ := mem_named.1 h
    exact ⟨rfl, Or.inl (List.mem_cons_of_mem _ List.mem_cons_self)⟩
  · obtain ⟨k, _, i, _, _, rfl⟩ := mem_named.1 h
    exact ⟨rfl, Or.inl (List.mem_cons_of_mem _ (List.mem_cons_of_mem _ List.mem_cons_self))⟩
  · obtain ⟨k, _, i, _, _, rfl⟩ := mem_named.1 h
    exact ⟨rfl, Or.inr rfl⟩
  · obtain ⟨k, _, i, _, _, rfl⟩ := mem_expsImage.1 h
    exact ⟨rfl, Or.inl (List.mem_cons_of_mem _ List.mem_cons_self)⟩

/-- The keys of the results of a script. -/
def Script.keys (metrics : List (List ℚ → List ℚ → ℚ)) (mods : List Key) : Script → List Key
  | .two => keysTwo mods metrics
  | .three => keysThree mods metrics

theorem pair_key_two {metrics : List (List ℚ → List ℚ → ℚ)} (hm : 4 ≤ metrics.length) {mods : List Key} {x y suf : Key}
    {i : ℕ} (hx : x ∈ mods) (hy : y ∈ mods) (hs : SUFFIXES[i]? = some suf) :
    scoreKey [x] [y] suf ∈ keysTwo mods metrics := by
  obtain ⟨a, ha⟩ := List.getElem?_of_mem hx
  obtain ⟨b, hb⟩ := List.getElem?_of_mem hy
  obtain ⟨f, hf⟩ := metric_suffix hm i suf hs
  unfold keysTwo
  refine List.mem_flatMap.2 ⟨(a, b, -1), mem_toTest.2 ⟨(List.getElem?_eq_some_iff.1 ha).1,
    (List.getElem?_eq_some_iff.1 hb).1, Or.inl rfl⟩, List.mem_flatMap.2 ⟨(f, suf), hf, ?_⟩⟩
  refine List.mem_cons_of_mem _ (List.mem_singleton.2 ?_)
  unfold scoreKey keyTwo cmpName
  simp only [ha, hb]
  rw [if_pos (by decide)]
  simp [List.intercalate, cmpPart]

theorem joinUnderscore_intercalate (l : List Key) : Experiment.joinUnderscore l = List.intercalate ['_'] l :=
  Plots.joinUnderscore_eq l

theorem key_three {metrics : List (List ℚ → List ℚ → ℚ)} (hm : 4 ≤ metrics.length) {mods : List Key}
    {c : List ℕ × List ℕ} (hc : c ∈ testedCombinations mods.length) {suf : Key} {i : ℕ}
    (hs : SUFFIXES[i]? = some suf) :
    scoreKey (namesAt mods c.1) (namesAt mods c.2) suf ∈ keysThree mods metrics := by
  obtain ⟨f, hf⟩ := metric_suffix hm i suf hs
  unfold keysThree
  refine List.mem_flatMap.2 ⟨c, hc, List.mem_flatMap.2 ⟨(f, suf), hf, List.mem_singleton.2 ?_⟩⟩
  unfold scoreKey keyThree
  rw [joinUnderscore_intercalate, joinUnderscore_intercalate]
  generalize "score_".toList = s
  simp [List.append_assoc]

/-- What the log of a job has. -/
structure JobLog (metrics : List (List ℚ → List ℚ → ℚ)) (j : Job) (e : Exp) (l : Log L) :
    Prop where
  file : l.filename = some (Corpus.pathJoin j.path j.name)
  wf : Logger.WF l
  mods : dictGet? l.glob "modalities".toList = some (.plain (.mods e.modalities))
  keys : ∀ k, k ∈ l.expKeys ↔ k ∈ FIRST_KEYS ∨ k ∈ j.script.keys metrics e.modalities
  scores : ∃ d, l.exps = [d] ∧ ∀ k, k ∈ j.script.keys metrics e.modalities → "score_".toList <+: k → ∃ s, Has d k s

/-- **C182.** The log of a job which succeeded: the modalities, and one run with a number for each score. -/
theorem C182_job [DecidableEq L] (metrics : List (List ℚ → List ℚ → ℚ)) (env : JobEnv L Λ)
    (henv : env.OK) (j : Job) (e : Exp) (hmode : e.runMode = .single) (h2 : 2 ≤ e.modalities.length) (fs : Disk L)
    (w : World L) (h : runJob metrics env j e fs = (w, .ok ())) :
    JobLog metrics j e w.log ∧ w.log.save fs = .ok w.fs := by
  unfold runJob at h
  have hev : ∀ p learner data labels,
      OnlyStores (j.script.evaluate (L := L) metrics env.learner e p learner data labels) := by
    intro p learner data labels
    cases j.script
    · exact onlyStores_two _ _ _ _ _ _ _
    · exact onlyStores_three _ _ _ _ _ _ _
  have hno' : ∀ p learner data labels w,
      (j.script.evaluate (L := L) metrics env.learner e p learner data labels w).2 ≠ .error .stopIteration := by
    intro p learner data labels w
    cases j.script
    · exact two_no_stop _ henv.noStop _ _ _ _ _ _ w
    · exact three_no_stop _ henv.noStop _ _ _ _ _ _ w
  have hadds : ∀ p learner data labels, (∀ x ∈ data, x.rows.length = labels.length) → 0 < labels.length →
      AddsP (fun k v => ("score_".toList <+: k → IsScore v))
        (j.script.evaluate (L := L) metrics env.learner e p learner data labels)
        (j.script.keys metrics e.modalities) := by
    intro p learner data labels hl h0
    cases j.script
    · exact addsP_two henv.rows _ _ _ _ _ _ hl h0
    · exact addsP_three henv.rows _ h2 _ _ _ _ _ hl h0
  obtain ⟨d, kvs, g1, g2, g3, g4, g5, g6, g7, g8, g9⟩ := single_keys env.learner env.rand henv.rand e env.labels env.data
    _ env.start env.stop _ fs w _ hmode hev henv.noStop.train hno' hadds h
  have hwf := Logger.C72_reachable_wf _ g7
  refine ⟨⟨g6, hwf, g9, ?_, d ++ kvs, g1, ?_⟩, g8⟩
  · intro k
    rw [g7.inv.keys, g1]
    have hk : dictKeys (d ++ kvs) = FIRST_KEYS ++ j.script.keys metrics e.modalities := by
      rw [← g2, ← g3]
      simp [dictKeys]
    constructor
    · rintro ⟨d', hd', hk'⟩
      rw [List.mem_singleton] at hd'
      subst hd'
      rw [hk] at hk'
      exact List.mem_append.1 hk'
    · intro hk'
      exact ⟨_, List.mem_singleton.2 rfl, by rw [hk]; exact List.mem_append.2 hk'⟩
  · intro k hk hs
    rw [← g3] at hk
    obtain ⟨⟨k', v⟩, hkv, rfl⟩ := List.mem_map.1 hk
    obtain ⟨s, hv⟩ := g5 _ hkv hs
    simp only [] at hv
    subst hv
    exact ⟨s, dictGet?_mem g4 (List.mem_append_right _ hkv)⟩

theorem runJobs_ok [DecidableEq L] (metrics : List (List ℚ → List ℚ → ℚ)) (env : Key → JobEnv L Λ)
    (henv : ∀ n, (env n).OK) (jobs : List (Job × Exp))
    (hj : ∀ x ∈ jobs, x.2.runMode = .single ∧ 2 ≤ x.2.modalities.length) (fs : Disk L)
    (hok : ∀ r ∈ (runJobs metrics env jobs fs).2, r.2.2 = .ok ()) :
    List.Forall₂ (fun x r => r.1 = x.1.name ∧ JobLog metrics x.1 x.2 r.2.1) jobs (runJobs metrics env jobs fs).2 ∧
    ((runJobs metrics env jobs fs).2.map fun r => (r.1, r.2.1)).foldlM (fun fs x => x.2.save fs) fs =
      .ok (runJobs metrics env jobs fs).1 := by
  induction jobs generalizing fs with
  | nil => exact ⟨.nil, rfl⟩
  | cons x jobs ih =>
    obtain ⟨hm, h2⟩ := hj x List.mem_cons_self
    have h0 : (runJob metrics (env x.1.name) x.1 x.2 fs).2 = .ok () :=
      hok (x.1.name, (runJob metrics (env x.1.name) x.1 x.2 fs).1.log, (runJob metrics (env x.1.name) x.1 x.2 fs).2)
        List.mem_cons_self
    obtain ⟨g1, g2⟩ := C182_job metrics (env x.1.name) (henv _) x.1 x.2 hm h2 fs
      (runJob metrics (env x.1.name) x.1 x.2 fs).1 (Prod.ext rfl h0)
    obtain ⟨i1, i2⟩ := ih (fun y hy => hj y (List.mem_cons_of_mem _ hy))
      (runJob metrics (env x.1.name) x.1 x.2 fs).1.fs (fun r hr => hok r (List.mem_cons_of_mem _ hr))
    refine ⟨.cons ⟨rfl, g1⟩ i1, ?_⟩
    show List.foldlM _ fs ((x.1.name, (runJob metrics (env x.1.name) x.1 x.2 fs).1.log) :: _) = _
    rw [List.foldlM_cons]
    simp only [g2]
    exact i2

/-- Scores of the figures are among results of the script for the modalities. -/
theorem figure_keys {metrics : List (List ℚ → List ℚ → ℚ)} (hm : 4 ≤ metrics.length) {s : Script} {mods : List Key}
    (h : mods ∈ PAIRS ∧ s = .two ∨ mods = ["image".toList, "motion".toList, "sound".toList] ∧ s = .three) :
    (∀ x ∈ mods, ∀ y ∈ mods, x ≠ y → scoreKey [x] [y] [] ∈ s.keys metrics mods ∧
      scoreKey [x] [y] "_cosine".toList ∈ s.keys metrics mods) ∧
    (mods.length = 3 → ∀ c ∈ combinations mods, scoreKey c.1 c.2 "_cosine".toList ∈ s.keys metrics mods) := by
  rcases h with ⟨h, rfl⟩ | ⟨rfl, rfl⟩
  · refine ⟨fun x hx y hy _ => ⟨pair_key_two (i := 0) hm hx hy rfl, pair_key_two (i := 3) hm hx hy rfl⟩, fun h3 => ?_⟩
    have : ∀ l ∈ PAIRS, l.length ≠ 3 := by decide
    exact absurd h3 (this _ h)
  · constructor
    · intro x hx y hy hxy
      have hc : ∀ x ∈ ["image".toList, "motion".toList, "sound".toList],
          ∀ y ∈ ["image".toList, "motion".toList, "sound".toList], x ≠ y → ∃ c ∈ testedCombinations 3,
          namesAt ["image".toList, "motion".toList, "sound".toList] c.1 = [x] ∧
          namesAt ["image".toList, "motion".toList, "sound".toList] c.2 = [y] := by decide
      obtain ⟨c, hc, h1, h2⟩ := hc x hx y hy hxy
      rw [← h1, ← h2]
      exact ⟨key_three (i := 0) hm hc rfl, key_three (i := 3) hm hc rfl⟩
    · intro _ d hd
      have hc : ∀ d ∈ combinations ["image".toList, "motion".toList, "sound".toList], ∃ c ∈ testedCombinations 3,
          namesAt ["image".toList, "motion".toList, "sound".toList] c.1 = d.1 ∧
          namesAt ["image".toList, "motion".toList, "sound".toList] c.2 = d.2 := by decide
      obtain ⟨c, hc, h1, h2⟩ := hc d hd
      rw [← h1, ← h2]
      exact key_three (i := 3) hm hc rfl

theorem scoreKey_prefix (A B : List Key) (suf : Key) : "score_".toList <+: scoreKey A B suf := by
  unfold scoreKey
  generalize "score_".toList = s
  simp only [List.append_assoc]
  exact List.prefix_append _ _

/-- The jobs of the launcher. -/
theorem jobs_exps {P : Plan} (h : P.OK) {wd : Key} {jobs : List (Job × Exp)}
    (hjobs : (jobs.map Prod.fst).Perm (allJobs P wd))
    (hexp : ∀ j e', (j, e') ∈ jobs → ∀ e, (j.name, e) ∈ allExps P → SameExp e' e) :
    ∀ j e', (j, e') ∈ jobs → ∃ e, (j.name, e) ∈ allExps P ∧ j.path = wd ∧ SameExp e' e ∧
      e.runMode = .single ∧ (e.modalities ∈ PAIRS ∧ j.script = .two ∨
        e.modalities = ["image".toList, "motion".toList, "sound".toList] ∧ j.script = .three) := by
  obtain ⟨hnames, hprep, -, hje⟩ := C138_jobs P h wd
  intro j e' hj
  have : j ∈ allJobs P wd := hjobs.mem_iff.1 (List.mem_map_of_mem (f := Prod.fst) hj)
  rw [← hprep] at this
  obtain ⟨⟨j', e⟩, hm', rfl⟩ := List.mem_map.1 this
  obtain ⟨a1, a2, a3, a4, -⟩ := hje _ _ hm'
  obtain ⟨b1, b2⟩ := launched_mods a1
  refine ⟨e, a1, a2, hexp _ _ hj _ a1, b1, ?_⟩
  rcases b2 with b2 | b2
  · have : ∀ l ∈ PAIRS, l.length = 2 := by decide
    exact Or.inl ⟨b2, a4.2 (this _ b2)⟩
  · exact Or.inr ⟨b2, a3.2 (by rw [b2]; rfl)⟩

theorem jobs_modes {P : Plan} (h : P.OK) {wd : Key} {jobs : List (Job × Exp)}
    (hjobs : (jobs.map Prod.fst).Perm (allJobs P wd))
    (hexp : ∀ j e', (j, e') ∈ jobs → ∀ e, (j.name, e) ∈ allExps P → SameExp e' e) :
    ∀ x ∈ jobs, x.2.runMode = .single ∧ 2 ≤ x.2.modalities.length := by
  rintro ⟨j, e'⟩ hx
  obtain ⟨e, -, -, hs, hr, hmods⟩ := jobs_exps h hjobs hexp j e' hx
  refine ⟨hs.runMode.trans hr, ?_⟩
  show 2 ≤ e'.modalities.length
  rw [hs.modalities]
  have : ∀ l ∈ PAIRS, l.length = 2 := by decide
  rcases hmods with ⟨h1, -⟩ | ⟨h1, -⟩
  · rw [this _ h1]
  · rw [h1]; decide

theorem logs_of_jobs {metrics : List (List ℚ → List ℚ → ℚ)} {jobs : List (Job × Exp)} {R : List (Key × Log L)}
    (hlogs : List.Forall₂ (fun x r => r.1 = x.1.name ∧ JobLog metrics x.1 x.2 r.2) jobs R) :
    R.map Prod.fst = jobs.map (fun x => x.1.name) ∧
      ∀ r ∈ R, ∃ j e', (j, e') ∈ jobs ∧ r.1 = j.name ∧ JobLog metrics j e' r.2 := by
  induction hlogs with
  | nil => exact ⟨rfl, fun r hr => by cases hr⟩
  | @cons x r jobs R hab _ ih =>
    refine ⟨by simp only [List.map_cons, hab.1, ih.1], fun r' hr' => ?_⟩
    rcases List.mem_cons.1 hr' with rfl | hr'
    · exact ⟨x.1, x.2, List.mem_cons_self, hab⟩
    · obtain ⟨j, e', h1, h2⟩ := ih.2 r' hr'
      exact ⟨j, e', List.mem_cons_of_mem _ h1, h2⟩

theorem logs_nodup {P : Plan} (h : P.OK) {wd : Key} {metrics : List (List ℚ → List ℚ → ℚ)} {jobs : List (Job × Exp)}
    (hjobs : (jobs.map Prod.fst).Perm (allJobs P wd)) {R : List (Key × Log L)}
    (hlogs : List.Forall₂ (fun x r => r.1 = x.1.name ∧ JobLog metrics x.1 x.2 r.2) jobs R) :
    (R.map Prod.fst).Nodup := by
  rw [(logs_of_jobs hlogs).1]
  have : (jobs.map fun x => x.1.name) = (jobs.map Prod.fst).map Job.name := by rw [List.map_map]; rfl
  rw [this]
  exact (hjobs.map Job.name).nodup_iff.2 (C138_jobs P h wd).1

/-- The figures from logs of jobs on a disk from which they can be loaded. -/
theorem figures_of_logs (wrap : Key → ℕ → List Key) (P : Plan) (h : P.OK) (hn : 0 < P.nRun)
    (h50 : 50 ∈ P.ks) (hsets : P.sets ≠ []) (wd : Key) (metrics : List (List ℚ → List ℚ → ℚ))
    (hm : 4 ≤ metrics.length) (jobs : List (Job × Exp))
    (hjobs : (jobs.map Prod.fst).Perm (allJobs P wd))
    (hexp : ∀ j e', (j, e') ∈ jobs → ∀ e, (j.name, e) ∈ allExps P → SameExp e' e) (R : List (Key × Log L))
    (hlogs : List.Forall₂ (fun x r => r.1 = x.1.name ∧ JobLog metrics x.1 x.2 r.2) jobs R) (fs' : Disk L)
    (s2 : ∀ n l, (n, l) ∈ R → ∃ l', load fs' (Corpus.pathJoin wd n) false false = .ok l' ∧
      Logger.PlainOf l'.glob l.glob ∧ List.Forall₂ Logger.PlainOf l'.exps l.exps ∧ l'.expKeys = l.expKeys) :
    ∃ f log, makeFigures wrap fs' P (jobsByName P wd) = .ok f ∧
      (∀ r ∈ R, log r.1 = r.2) ∧ Drawn P (RunScores P log) f := by
  have hnd := names_nodup h
  have hjob := jobs_exps h hjobs hexp
  obtain ⟨hRn, hRall⟩ := logs_of_jobs hlogs
  have hRnd := logs_nodup h hjobs hlogs
  have hex : ∀ n e, (n, e) ∈ allExps P → ∃ r ∈ R, r.1 = n := by
    intro n e hne
    have : n ∈ (allJobs P wd).map Job.name := by
      rw [jobs_names]; exact List.mem_map_of_mem (f := Prod.fst) hne
    have h2 : n ∈ (jobs.map Prod.fst).map Job.name := ((hjobs.map Job.name).mem_iff).2 this
    rw [List.map_map] at h2
    have h3 : n ∈ R.map Prod.fst := by rw [hRn]; exact h2
    obtain ⟨r, hr, rfl⟩ := List.mem_map.1 h3
    exact ⟨r, hr, rfl⟩
  let log : Key → Log L := fun n => ((R.find? fun r => decide (r.1 = n)).map fun r => r.2).getD (Logger.Logger.new none)
  have hlog : ∀ r ∈ R, log r.1 = r.2 := by
    intro r hr
    show ((R.find? fun r' => decide (r'.1 = r.1)).map fun r => r.2).getD _ = _
    rcases hf : R.find? (fun r' => decide (r'.1 = r.1)) with _ | r'
    · have := List.find?_eq_none.1 hf r hr
      simp at this
    · have e1 := List.find?_some hf
      have e2 := List.mem_of_find?_eq_some hf
      have : r' = r := List.inj_on_of_nodup_map hRnd e2 hr (by simpa using e1)
      rw [hf, this]; rfl
  have huniq : ∀ n e e', (n, e) ∈ allExps P → (n, e') ∈ allExps P → e = e' := fun n e e' h1 h2 =>
    congrArg Prod.snd (List.inj_on_of_nodup_map hnd h1 h2 rfl)
  -- the log of each experiment
  have hall : ∀ n e, (n, e) ∈ allExps P → ∃ j e', SameExp e' e ∧ j.name = n ∧ j.path = wd ∧
      JobLog metrics j e' (log n) ∧ (e.modalities ∈ PAIRS ∧ j.script = .two ∨
        e.modalities = ["image".toList, "motion".toList, "sound".toList] ∧ j.script = .three) := by
    intro n e hne
    obtain ⟨r, hr, rfl⟩ := hex n e hne
    obtain ⟨j, e', hj, hrn, hjl⟩ := hRall r hr
    obtain ⟨e1, a1, a2, a3, -, a4⟩ := hjob j e' hj
    have : e1 = e := huniq _ _ _ a1 (hrn ▸ hne)
    subst this
    exact ⟨j, e', a3, hrn.symm, a2, by rw [hlog r hr]; exact hjl, a4⟩
  have hcomp : Complete P log := by
    constructor
    · intro n e hne
      obtain ⟨j, e', hs, -, -, hl, -⟩ := hall n e hne
      rw [hl.mods, hs.modalities]
    · intro n e hne
      obtain ⟨j, e', hs, -, -, hl, hmods⟩ := hall n e hne
      obtain ⟨d, hd, hsc⟩ := hl.scores
      rw [hs.modalities] at hsc
      obtain ⟨k1, k2⟩ := figure_keys hm hmods
      refine ⟨d, hd, fun x hx y hy hxy => ⟨hsc _ (k1 x hx y hy hxy).1 (scoreKey_prefix _ _ _),
        hsc _ (k1 x hx y hy hxy).2 (scoreKey_prefix _ _ _)⟩, fun h3 c hc => hsc _ (k2 h3 c hc) (scoreKey_prefix _ _ _)⟩
  have hload : ∀ n : Key, ∃ l', (∃ e, (n, e) ∈ allExps P) → load fs' (Corpus.pathJoin wd n) false false = .ok l' ∧
      Logger.PlainOf l'.glob (log n).glob ∧ List.Forall₂ Logger.PlainOf l'.exps (log n).exps ∧
      l'.expKeys = (log n).expKeys := by
    intro n
    by_cases hne : ∃ e, (n, e) ∈ allExps P
    · obtain ⟨e, hne⟩ := hne
      obtain ⟨r, hr, rfl⟩ := hex n e hne
      obtain ⟨l', hl'⟩ := s2 r.1 r.2 hr
      exact ⟨l', fun _ => by rw [hlog r hr]; exact hl'⟩
    · exact ⟨log n, fun h => absurd h hne⟩
  choose logs hlogs' using hload
  have hdisk : OnDisk P wd fs' logs := by
    constructor
    · intro n e hne
      exact (hlogs' n ⟨e, hne⟩).1
    · intro n e n' e' hne hne' hmm
      rw [(hlogs' n ⟨e, hne⟩).2.2.2, (hlogs' n' ⟨e', hne'⟩).2.2.2]
      obtain ⟨j, e1, hs, -, -, hl, hmods⟩ := hall n e hne
      obtain ⟨j', e1', hs', -, -, hl', hmods'⟩ := hall n' e' hne'
      have hscript : j.script = j'.script := by
        have hl2 : ∀ l ∈ PAIRS, l ≠ ["image".toList, "motion".toList, "sound".toList] := by decide
        rcases hmods with ⟨a, b⟩ | ⟨a, b⟩ <;> rcases hmods' with ⟨a', b'⟩ | ⟨a', b'⟩
        · rw [b, b']
        · exact absurd (hmm.trans a') (hl2 _ a)
        · exact absurd (hmm.symm.trans a) (hl2 _ a')
        · rw [b, b']
      intro k
      rw [hl.keys, hl'.keys, hscript, hs.modalities, hs'.modalities, hmm]
  have hcomp' : Complete P logs := complete_plain hcomp fun n e hne =>
    ⟨(hlogs' n ⟨e, hne⟩).2.2.1, (hlogs' n ⟨e, hne⟩).2.1⟩
  obtain ⟨f, hf, hdraw⟩ := C180_plot wrap P h hn h50 hsets wd fs' logs hdisk hcomp'
  refine ⟨f, log, hf, hlog, Drawn.mono ?_ (show Drawn P (RunScores P logs) f from hdraw)⟩
  rintro sel key r hsel ⟨names, n1, n2, n3, n4⟩
  refine ⟨names, n1, n2, n3, ?_⟩
  have hmem : ∀ n ∈ names, ∃ e, (n, e) ∈ allExps P := fun n hn =>
    let ⟨e, he⟩ := (n3 n).1 hn
    ⟨e, hsel n e he⟩
  clear n1 n2 n3
  induction n4 with
  | nil => exact .nil
  | cons hab _ ih =>
    refine .cons ?_ (ih fun n hn => hmem n (List.mem_cons_of_mem _ hn))
    obtain ⟨d, hd, hs⟩ := hab
    have hp := (hlogs' _ (hmem _ List.mem_cons_self)).2.2.1
    rw [hd] at hp
    obtain ⟨d', l, hdd, hl, hlog'⟩ := List.forall₂_cons_left_iff.1 hp
    rw [List.forall₂_nil_left_iff] at hl
    subst hl
    exact ⟨d', hlog', ((hdd _ _).1 hs).1⟩

/-- **C182.** Run all jobs of the launcher, in any order and from any disk, on experiments with the parameters the
launcher gave them (those its action `prepare` saved, by C177).  When each succeeds, its action `plot` draws its
figures, and what they show are the scores which the jobs had in their logs. -/
theorem C182_figures [DecidableEq L] (wrap : Key → ℕ → List Key) (P : Plan) (h : P.OK) (hn : 0 < P.nRun)
    (h50 : 50 ∈ P.ks) (hsets : P.sets ≠ []) (wd : Key) (metrics : List (List ℚ → List ℚ → ℚ))
    (hm : 4 ≤ metrics.length) (env : Key → JobEnv L Λ) (henv : ∀ n, (env n).OK) (jobs : List (Job × Exp))
    (hjobs : (jobs.map Prod.fst).Perm (allJobs P wd))
    (hexp : ∀ j e', (j, e') ∈ jobs → ∀ e, (j.name, e) ∈ allExps P → SameExp e' e) (fs : Disk L)
    (hok : ∀ r ∈ (runJobs metrics env jobs fs).2, r.2.2 = .ok ()) :
    ∃ f log, makeFigures wrap (runJobs metrics env jobs fs).1 P (jobsByName P wd) = .ok f ∧
      (∀ r ∈ (runJobs metrics env jobs fs).2, log r.1 = r.2.1) ∧ Drawn P (RunScores P log) f := by
  have hjob := jobs_exps h hjobs hexp
  obtain ⟨hlogs, hsave⟩ := runJobs_ok metrics env henv jobs (jobs_modes h hjobs hexp) fs hok
  generalize (runJobs metrics env jobs fs).2 = R at *
  generalize (runJobs metrics env jobs fs).1 = fs' at *
  have hlogs' : List.Forall₂ (fun x r => r.1 = x.1.name ∧ JobLog metrics x.1 x.2 r.2) jobs
      (R.map fun r => (r.1, r.2.1)) := List.forall₂_map_right_iff.2 hlogs
  have hRall := (logs_of_jobs hlogs').2
  obtain ⟨fs1, s1, s2, -⟩ := C140_saved P wd (R.map fun r => (r.1, r.2.1)) (logs_nodup h hjobs hlogs')
    (by
      intro n l hl
      obtain ⟨j, e', hj, hrn, -⟩ := hRall _ hl
      obtain ⟨e1, a1, -⟩ := hjob j e' hj
      exact ⟨e1, by rw [show n = j.name from hrn]; exact a1⟩)
    (by
      intro n l hl
      obtain ⟨j, e', hj, hrn, hjl⟩ := hRall _ hl
      obtain ⟨e1, -, a2, -⟩ := hjob j e' hj
      exact ⟨by rw [show l.filename = _ from hjl.file, a2, show n = j.name from hrn], hjl.wf⟩) fs
  rw [hsave] at s1
  cases s1
  obtain ⟨f, log, h1, h2, h3⟩ := figures_of_logs wrap P h hn h50 hsets wd metrics hm jobs hjobs hexp _ hlogs' fs' s2
  exact ⟨f, log, h1, fun r hr => h2 _ (List.mem_map_of_mem (f := fun r : Key × Log L × Py Unit => (r.1, r.2.1)) hr), h3⟩

/-- **C182.** The launcher from its action `prepare` to its action `plot`: jobs which load the parameters which `prepare`
saved, run in any order, and succeed, are what the figures show. -/
theorem C182_launcher [DecidableEq L] (wrap : Key → ℕ → List Key) (enum : List Key → List Key)
    (henum : ∀ l x, x ∈ enum l ↔ x ∈ l) (config : Job → Key)
    (hconfig : ∀ j j', j.path = j'.path → config j = config j' → j.name = j'.name) (P : Plan) (h : P.OK)
    (hn : 0 < P.nRun) (h50 : 50 ∈ P.ks) (hsets : P.sets ≠ []) (wd : Key) (pfs : PFS)
    (metrics : List (List ℚ → List ℚ → ℚ)) (hm : 4 ≤ metrics.length) (env : Key → JobEnv L Λ)
    (henv : ∀ n, (env n).OK) (jobs : List (Job × Exp)) (hjobs : (jobs.map Prod.fst).Perm (allJobs P wd))
    (hload : ∀ x ∈ jobs, loadFromSerialized (prepareAction enum config P wd pfs) (config x.1) = .ok x.2)
    (fs : Disk L) (hok : ∀ r ∈ (runJobs metrics env jobs fs).2, r.2.2 = .ok ()) :
    ∃ f log, makeFigures wrap (runJobs metrics env jobs fs).1 P (jobsByName P wd) = .ok f ∧
      (∀ r ∈ (runJobs metrics env jobs fs).2, log r.1 = r.2.1) ∧ Drawn P (RunScores P log) f := by
  refine C182_figures wrap P h hn h50 hsets wd metrics hm env henv jobs hjobs ?_ fs hok
  intro j e' hj e he
  obtain ⟨j2, hj2, hname, e2, h1, h2⟩ := (C177_prepare enum henum config hconfig P h wd pfs).1 _ _ he
  have hj' : j ∈ allJobs P wd := hjobs.mem_iff.1 (List.mem_map_of_mem (f := Prod.fst) hj)
  have : j2 = j := List.inj_on_of_nodup_map (C138_jobs P h wd).1 hj2 hj' hname
  subst this
  have h3 := hload _ hj
  simp only [] at h3
  rw [h1] at h3
  cases h3
  exact h2

end Verif.Samples
