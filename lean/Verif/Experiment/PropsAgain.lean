import Verif.Experiment.Again
import Verif.Samples.PropsLabels
import Verif.Experiment.Examples

/-!
# Property C237: an experiment object on which `run` is called several times
-/

namespace Verif.Experiment

open Verif Verif.Logger

variable {α β L Λ : Type}

/-! ### What `prepare` does not change -/

/-- Code which changes neither runs nor files. -/
def KeepsRuns (m : M (World L) α) : Prop :=
  ∀ w, (m w).1.log.exps = w.log.exps ∧ (m w).1.fs = w.fs ∧ (m w).1.log.filename = w.log.filename

theorem keepsRuns_bind {m : M (World L) α} {f : α → M (World L) β} (h : KeepsRuns m) (h' : ∀ a, KeepsRuns (f a)) :
    KeepsRuns (m >>= f) := by
  intro w
  have h1 := h w
  rcases hm : m w with ⟨w', r | a⟩
  · rw [bind_error hm]
    rw [hm] at h1
    exact h1
  · rw [bind_ok hm]
    rw [hm] at h1
    have h2 := h' a w'
    exact ⟨h2.1.trans h1.1, h2.2.1.trans h1.2.1, h2.2.2.trans h1.2.2⟩

theorem keepsRuns_lift (x : Py α) : KeepsRuns (lift x : M (World L) α) := fun _ => ⟨rfl, rfl, rfl⟩

theorem keepsRuns_storeGlobal (k : Key) (v : LogVal L) : KeepsRuns (storeGlobal k v) := fun _ => ⟨rfl, rfl, rfl⟩

theorem keepsRuns_each (l : List α) (f : α → M (World L) Unit) (h : ∀ a, KeepsRuns (f a)) : KeepsRuns (each l f) := by
  induction l with
  | nil => exact fun _ => ⟨rfl, rfl, rfl⟩
  | cons a l ih => exact keepsRuns_bind (h a) fun _ => ih

theorem keepsRuns_prepare [DecidableEq L] (R : Rand L) (e : Exp) (rawLabels : Py (List (List L))) (rawData : Py (List Mx)) :
    KeepsRuns (prepare R e rawLabels rawData) := by
  unfold prepare
  refine keepsRuns_bind (keepsRuns_each _ _ fun _ => keepsRuns_storeGlobal _ _) fun _ => keepsRuns_bind (keepsRuns_lift _) fun _ =>
    keepsRuns_bind (keepsRuns_lift _) fun x => ?_
  obtain ⟨names, labels, assoc⟩ := x
  refine keepsRuns_bind (keepsRuns_storeGlobal _ _) fun _ => keepsRuns_bind (keepsRuns_storeGlobal _ _) fun _ =>
    keepsRuns_bind (keepsRuns_lift _) fun y => ?_
  obtain ⟨data, labelsAll, coefs⟩ := y
  exact keepsRuns_bind (keepsRuns_lift _) fun _ => keepsRuns_bind (keepsRuns_storeGlobal _ _) fun _ => keepsRuns_lift _

/-! ### Coefficients -/

/-- The call read its data, after having paired samples. -/
def GotData [DecidableEq L] (c : RunCall L) (raw : List Mx) : Prop :=
  ∃ labels r, c.rawLabels = .ok labels ∧ Pairing.associateSamples c.R.namesOf c.R.shuf labels = .ok r ∧ c.rawData = .ok raw

/-- One over the average of the sums of rows, if this is not null. -/
def inverseAverage (x : Mx) : Option ℚ :=
  if (x.rows.map List.sum).sum = 0 then none else some (x.rows.length / (x.rows.map List.sum).sum)

theorem defaultCoef_inverse (x : Mx) : defaultCoef x = inverseAverage x := by
  unfold defaultCoef inverseAverage averageSum
  by_cases hs : (x.rows.map List.sum).sum = 0
  · rw [if_pos (by rw [hs, zero_div]), if_pos hs]
  · have hl : (x.rows.length : ℚ) ≠ 0 := by
      intro h
      have h0 : x.rows.length = 0 := by exact_mod_cast h
      rw [List.length_eq_zero_iff] at h0
      rw [h0] at hs
      exact hs rfl
    rw [if_neg (div_ne_zero hs hl), if_neg hs, one_div_div]

theorem coefsAfter_some [DecidableEq L] {e : Exp} {cs : List (Option ℚ)} (h : e.coefs = some cs) (c : RunCall L) :
    coefsAfter e c = some cs := by
  unfold coefsAfter
  rw [h]
  rcases c.rawLabels with _ | labels
  · rfl
  · simp only []
    rcases Pairing.associateSamples c.R.namesOf c.R.shuf labels with _ | r
    · rfl
    · simp only []
      rcases c.rawData with _ | raw <;> rfl

theorem coefsAfter_data [DecidableEq L] {e : Exp} (h : e.coefs = none) {c : RunCall L} {raw : List Mx} (hd : GotData c raw) :
    coefsAfter e c = some (raw.map inverseAverage) := by
  obtain ⟨labels, r, h1, h2, h3⟩ := hd
  unfold coefsAfter
  rw [h1, h, h3]
  simp only [h2, setCoefs]
  congr 1
  exact List.map_congr_left fun x _ => defaultCoef_inverse x

theorem coefsAfter_none [DecidableEq L] {e : Exp} (h : e.coefs = none) {c : RunCall L} (hd : ∀ raw, ¬ GotData c raw) :
    coefsAfter e c = none := by
  unfold coefsAfter
  rw [h]
  rcases h1 : c.rawLabels with _ | labels
  · rfl
  · simp only []
    rcases h2 : Pairing.associateSamples c.R.namesOf c.R.shuf labels with _ | r
    · rfl
    · simp only []
      rcases h3 : c.rawData with _ | raw
      · rfl
      · exact absurd ⟨labels, r, h1, h2, h3⟩ (hd raw)

variable [DecidableEq L]

/-- **C237.** Whatever the calls of `run` and their outcomes, parameters other than coefficients remain those of the constructor.
Coefficients which were given remain; otherwise they are those of the data of the first call which could read them. -/
theorem C237_coefs (X : Ext Λ) (evaluate : Exp → Prepared L → Evaluate L Λ) (e : Exp) (w : World L) (calls : List (RunCall L)) :
    (∃ cs, (runAll X evaluate (e, w) calls).1 = { e with coefs := cs }) ∧
    (∀ cs, e.coefs = some cs → (runAll X evaluate (e, w) calls).1 = e) ∧
    (e.coefs = none → (∀ c ∈ calls, ∀ raw, ¬ GotData c raw) → (runAll X evaluate (e, w) calls).1 = e) ∧
    ∀ before c after raw, e.coefs = none → calls = before ++ c :: after → (∀ b ∈ before, ∀ r, ¬ GotData b r) →
      GotData c raw → (runAll X evaluate (e, w) calls).1 = { e with coefs := some (raw.map inverseAverage) } := by
  have given : ∀ (calls : List (RunCall L)) (e : Exp) (w : World L) cs, e.coefs = some cs →
      (runAll X evaluate (e, w) calls).1 = e := by
    intro calls
    induction calls with
    | nil => exact fun e w cs _ => rfl
    | cons c calls ih =>
      intro e w cs h
      have h1 : ({ e with coefs := coefsAfter e c } : Exp) = e := by
        rw [coefsAfter_some h, ← h]
      show (runAll X evaluate (({ e with coefs := coefsAfter e c } : Exp), _) calls).1 = e
      rw [h1]
      exact ih e _ cs h
  have none : ∀ (calls more : List (RunCall L)) (e : Exp) (w : World L), e.coefs = none →
      (∀ c ∈ calls, ∀ raw, ¬ GotData c raw) → ∃ w', runAll X evaluate (e, w) (calls ++ more) = runAll X evaluate (e, w') more := by
    intro calls more
    induction calls with
    | nil => exact fun e w _ _ => ⟨w, rfl⟩
    | cons c calls ih =>
      intro e w h hc
      have h1 : ({ e with coefs := coefsAfter e c } : Exp) = e := by
        rw [coefsAfter_none h (hc c List.mem_cons_self), ← h]
      obtain ⟨w', hw⟩ := ih e (runAgain X evaluate (e, w) c).1.2 h fun d hd => hc d (List.mem_cons_of_mem _ hd)
      refine ⟨w', ?_⟩
      rw [← hw]
      show runAll X evaluate (({ e with coefs := coefsAfter e c } : Exp), _) (calls ++ more) = _
      rw [h1]
      rfl
  have all : ∀ (calls : List (RunCall L)) (e : Exp) (w : World L), ∃ cs, (runAll X evaluate (e, w) calls).1 =
      { e with coefs := cs } := by
    intro calls
    induction calls with
    | nil => exact fun e w => ⟨e.coefs, rfl⟩
    | cons c calls ih =>
      intro e w
      obtain ⟨cs, h⟩ := ih (runAgain X evaluate (e, w) c).1.1 (runAgain X evaluate (e, w) c).1.2
      exact ⟨cs, h⟩
  refine ⟨all calls e w, given calls e w, fun h hc => ?_, ?_⟩
  · obtain ⟨w', hw⟩ := none calls [] e w h hc
    rw [List.append_nil] at hw
    rw [hw]
    rfl
  · rintro before c after raw h rfl hb hd
    obtain ⟨w', hw⟩ := none before (c :: after) e w h hb
    rw [hw]
    show (runAll X evaluate (({ e with coefs := coefsAfter e c } : Exp), _) after).1 = _
    rw [coefsAfter_data h hd]
    exact given after _ _ _ rfl

/-! ### Runs and global values -/

/-- The evaluation and the training of a learner do not raise `StopIteration`, and the evaluation only stores results. -/
structure PlainEval (X : Ext Λ) (evaluate : Exp → Prepared L → Evaluate L Λ) : Prop where
  stores : ∀ e p learner data labels, OnlyStores (evaluate e p learner data labels)
  train : ∀ n ms fs cs k data it, X.train n ms fs cs k data it ≠ .error .stopIteration
  evaluate : ∀ e p learner data labels w, (evaluate e p learner data labels w).2 ≠ .error .stopIteration

/-- **C237.** Runs which are in the log remain in it, as they are and at their places, after any calls of `run`. -/
theorem C237_runs (X : Ext Λ) (evaluate : Exp → Prepared L → Evaluate L Λ) (hX : PlainEval X evaluate) (calls : List (RunCall L))
    (e : Exp) (w : World L) : w.log.exps <+: (runAll X evaluate (e, w) calls).2.log.exps := by
  induction calls generalizing e w with
  | nil => exact List.prefix_refl _
  | cons c calls ih =>
    refine List.IsPrefix.trans ?_ (ih (runAgain X evaluate (e, w) c).1.1 (runAgain X evaluate (e, w) c).1.2)
    show w.log.exps <+: (run X c.R e c.rawLabels c.rawData (evaluate e) c.start c.stop w).1.log.exps
    rcases hp : prepare c.R e c.rawLabels c.rawData w with ⟨w1, x | p⟩
    · rw [(C88_no_run X c.R e c.rawLabels c.rawData (evaluate e) c.start c.stop w w1).1 x hp]
      have := (keepsRuns_prepare c.R e c.rawLabels c.rawData w).1
      rw [hp] at this
      rw [← this]
    · rcases hg : p.generator with x | splits
      · obtain ⟨w', h1, h2, -⟩ := (C88_no_run X c.R e c.rawLabels c.rawData (evaluate e) c.start c.stop w w1).2 p x hp hg
        rw [h1]
        exact h2 ▸ List.prefix_refl _
      · obtain ⟨w', r, ds, h1, h2, -⟩ := C88_run X c.R e c.rawLabels c.rawData (evaluate e) c.start c.stop w w1 p splits hp hg
          (hX.stores e p) hX.train (hX.evaluate e p)
        rw [h1]
        exact ⟨ds, h2.symm⟩

/-- **C237.** After any calls, a call which is prepared and has splits replaces the pairing, the examples and the parameters in the
log by its own, whether its runs succeed or not; the coefficients of the log are those before the call, hence `None` in the first
one when none were given.  All its runs are trained with the coefficients which the object has afterwards. -/
theorem C237_last (X : Ext Λ) (evaluate : Exp → Prepared L → Evaluate L Λ) (hX : PlainEval X evaluate) (e : Exp) (w w1 : World L)
    (c : RunCall L) (p : Prepared L) (splits : List (List ℕ × List ℕ)) (hp : prepare c.R e c.rawLabels c.rawData w = (w1, .ok p))
    (hg : p.generator = .ok splits) :
    ∃ e' w' r cs ds, runAgain X evaluate (e, w) c = ((e', w'), r) ∧ e'.coefs = some cs ∧ w'.log.exps = w.log.exps ++ ds ∧
      w'.log.getValue "coefs".toList = .ok (.plain (.coefs e.coefs)) ∧
      w'.log.getValue "label_pairing".toList = .ok (.plain (.names p.labelAssociation)) ∧
      w'.log.getValue "sample_pairing".toList = .ok (.plain (.pairing p.samplePairing)) ∧
      w'.log.getValue "examples".toList = .ok (.plain (.idx p.examples)) ∧
      (r = .ok () → ds.length = splits.length ∧
        ∀ (i : ℕ) (d : Dict Key (Val (LogVal L) Mx)) (s : List ℕ × List ℕ), ds[i]? = some d → splits[i]? = some s →
          Record d s ∧ ∃ data learner, List.Forall₂ (fun x y : Mx => y.cols = x.cols ∧ Picks x.rows s.1 y.rows) p.data data ∧
            X.train (w.log.exps.length + i + 1) e.modalities (p.data.map Mx.cols) cs e.k data e.iterTrain = .ok learner ∧
            dictGet? d "dictionary".toList = some (.arr (X.dico learner))) := by
  obtain ⟨w', r, ds, h1, h2, h3, h4, -⟩ := C88_run X c.R e c.rawLabels c.rawData (evaluate e) c.start c.stop w w1 p splits hp hg
    (hX.stores e p) hX.train (hX.evaluate e p)
  have hgl := C88_globals X c.R e c.rawLabels c.rawData (evaluate e) c.start c.stop w w1 p splits hp hg
    (hX.stores e p) hX.train (hX.evaluate e p)
  obtain ⟨g1, g2, g3, -, -, g6, -⟩ := C87_logged c.R e c.rawLabels c.rawData w w1 p hp
  have hcs : coefsAfter e c = some p.coefs := by
    obtain ⟨labels, names, newLabels, tuples, data, labelsAll, coefs, examples, a1, a2, a3, a4, a5, -⟩ := prepare_ok hp
    obtain ⟨b1, -⟩ := splitExamples_ok a5
    unfold orderAll at a3
    rw [pyBind_eq_ok] at a3
    obtain ⟨raw, c1, c2⟩ := a3
    simp only [] at c2
    rw [pyBind_eq_ok] at c2
    obtain ⟨d', -, c3⟩ := c2
    have : coefs = setCoefs e.coefs raw := by
      split_ifs at c3 <;> cases c3 <;> rfl
    unfold coefsAfter
    rw [a1, c1]
    simp only [a2]
    rw [b1, this]
  rw [h1] at hgl
  refine ⟨{ e with coefs := coefsAfter e c }, w', r, p.coefs, ds, ?_, hcs, h2, ?_, ?_, ?_, ?_, fun hr => ⟨(h4 hr).1, ?_⟩⟩
  · unfold runAgain
    simp only [h1]
  · rw [hgl _ (by decide) (by decide), g6]
  · rw [hgl _ (by decide) (by decide), g1]
  · rw [hgl _ (by decide) (by decide), g2]
  · rw [hgl _ (by decide) (by decide), g3]
  · intro i d s hd hs
    exact ⟨h3 i d s hd hs, (h4 hr).2.1 i d s hd hs⟩

/-- **C237.** After such a call, the labels which are computed from the log for the samples which are not examples (C135) are those of
the last call, also for the runs of earlier calls. -/
theorem C237_labels (X : Ext Λ) (evaluate : Exp → Prepared L → Evaluate L Λ) (hX : PlainEval X evaluate) (e : Exp) (w w1 : World L)
    (c : RunCall L) (hR : c.R.OK) (rawLabels : List (List L)) (hl : c.rawLabels = .ok rawLabels) (p : Prepared L)
    (splits : List (List ℕ × List ℕ)) (hp : prepare c.R e c.rawLabels c.rawData w = (w1, .ok p)) (hg : p.generator = .ok splits)
    (m : ℕ) (l : List L) (hm : rawLabels[m]? = some l) :
    ∃ names assoc nm again, (runAgain X evaluate (e, w) c).1.2.log.getValue "label_pairing".toList = .ok (.plain (.names names)) ∧
      (runAgain X evaluate (e, w) c).1.2.log.getValue "sample_pairing".toList = .ok (.plain (.pairing assoc)) ∧
      names[m]? = some nm ∧ Samples.labelsAgain nm l m assoc = .ok again ∧ Picks again p.others p.labels := by
  have hgl := C88_globals X c.R e c.rawLabels c.rawData (evaluate e) c.start c.stop w w1 p splits hp hg
    (hX.stores e p) hX.train (hX.evaluate e p)
  rw [hl] at hp hgl
  obtain ⟨names, assoc, nm, again, h1, h2, h3, h4, -, h5, -⟩ := Samples.C135_labels_again c.R hR e rawLabels c.rawData w w1 p hp m l hm
  refine ⟨names, assoc, nm, again, ?_, ?_, h3, h4, h5⟩
  · rw [← h1, ← hgl _ (by decide) (by decide), ← hl]
    rfl
  · rw [← h2, ← hgl _ (by decide) (by decide), ← hl]
    rfl

/-! ### Examples -/

/-- The order of names is reversed. -/
def exRand2 : Rand ℕ := { exRand with namesOf := fun _ l => l.dedup.reverse }

/-- A first and a second call. -/
def exCall (R : Rand ℕ) : RunCall ℕ := ⟨R, .ok exLabels, .ok exData, "0".toList, "1".toList⟩

theorem exRand2_ok : exRand2.OK where
  names m l := ⟨List.nodup_reverse.2 (List.nodup_dedup l), fun x => by simp [exRand2]⟩
  shuf := exRand_ok.shuf
  set := exRand_ok.set
  shuffled := exRand_ok.shuffled

/-- The evaluation of the examples. -/
def exEvaluate : Exp → Prepared ℕ → Evaluate ℕ Unit := fun e => evaluateTwo exLearner e exMetrics

/-- Both calls: the test sets and the coefficients of the log, those of the object and the labels of both preparations. -/
def exTwice : Option (List (Option (Val (LogVal ℕ) Mx)) × Option (Val (LogVal ℕ) Mx) × Option (List (Option ℚ)) ×
    List ℕ × List ℕ) :=
  match prepare exRand exTwo (.ok exLabels) (.ok exData) exWorld,
      runAgain exLearner exEvaluate (exTwo, exWorld) (exCall exRand) with
  | (_, .ok p), (s, .ok _) =>
    match prepare exRand2 s.1 (.ok exLabels) (.ok exData) s.2, runAgain exLearner exEvaluate s (exCall exRand2) with
    | (_, .ok q), (s', .ok _) => some (s'.2.log.exps.map (fun d => dictGet? d "test".toList),
      dictGet? s'.2.log.glob "coefs".toList, s'.1.coefs, p.labels, q.labels)
    | _, _ => none
  | _, _ => none

/-- Both calls succeed; in both, the only run tests the sample 0, whose label is 1 in the first one and 0 in the second one.  The
coefficients which the second call logs are those which the first one computed. -/
theorem exTwice_eq : exTwice = some ([some (.plain (.idx [0])), some (.plain (.idx [0]))],
    some (.plain (.coefs (some [some (3 / 4), some (4 / 11)]))), some [some (3 / 4), some (4 / 11)], [1], [0]) := by
  set_option synthInstance.maxSize 1024 in
  set_option synthInstance.maxHeartbeats 200000 in
  decide +kernel

/-- **C237.** There is an experiment, run twice successfully, whose log gives to the test sample of its first run another label than
the one with which the run was evaluated: the labels of `C237_labels` are those of the second call. -/
theorem C237_wrong_labels : ∃ (e : Exp) (w : World ℕ) (c d : RunCall ℕ) (s s' : Exp × World ℕ) (p q : Prepared ℕ) (wp wq : World ℕ),
    c.R.OK ∧ d.R.OK ∧ c.rawLabels = d.rawLabels ∧ c.rawData = d.rawData ∧
    prepare c.R e c.rawLabels c.rawData w = (wp, .ok p) ∧ runAgain exLearner exEvaluate (e, w) c = (s, .ok ()) ∧
    prepare d.R s.1 d.rawLabels d.rawData s.2 = (wq, .ok q) ∧ runAgain exLearner exEvaluate s d = (s', .ok ()) ∧
    (s'.2.log.exps.map fun r => dictGet? r "test".toList) = [some (.plain (.idx [0])), some (.plain (.idx [0]))] ∧
    p.labels = [1] ∧ q.labels = [0] := by
  have h := exTwice_eq
  unfold exTwice at h
  rcases hp : prepare exRand exTwo (.ok exLabels) (.ok exData) exWorld with ⟨wp, _ | p⟩
  · rw [hp] at h
    cases h
  rcases hr : runAgain exLearner exEvaluate (exTwo, exWorld) (exCall exRand) with ⟨s, _ | u⟩
  · rw [hp, hr] at h
    cases h
  rw [hp, hr] at h
  simp only [] at h
  rcases hq : prepare exRand2 s.1 (.ok exLabels) (.ok exData) s.2 with ⟨wq, _ | q⟩
  · rw [hq] at h
    cases h
  rcases hr' : runAgain exLearner exEvaluate s (exCall exRand2) with ⟨s', _ | u'⟩
  · rw [hq, hr'] at h
    cases h
  rw [hq, hr'] at h
  simp only [Option.some.injEq, Prod.mk.injEq] at h
  exact ⟨exTwo, exWorld, exCall exRand, exCall exRand2, s, s', p, q, wp, wq, exRand_ok, exRand2_ok, rfl, rfl, hp, hr, hq, hr', h.1,
    h.2.2.2.1, h.2.2.2.2⟩

/-- The hypotheses of C237 hold for the evaluation of the examples, and data are read. -/
example : PlainEval exLearner exEvaluate ∧ GotData (exCall exRand) exData ∧
    (∃ w1 p, prepare exRand exTwo (exCall exRand).rawLabels (exCall exRand).rawData exWorld = (w1, .ok p) ∧
      p.generator = .ok [([], [0])]) := by
  obtain ⟨w1, p, hp, hg, _⟩ := exTwo_prepared
  refine ⟨⟨fun e p => onlyStores_two exLearner e exMetrics p, exLearner_no_stop.train, fun e p learner data labels w => ?_⟩, ?_,
    w1, p, hp, hg⟩
  · exact two_no_stop exLearner exLearner_no_stop e exMetrics p learner data labels w
  · obtain ⟨labels, names, newLabels, tuples, _, _, _, _, a1, a2, _⟩ := prepare_ok hp
    exact ⟨labels, _, a1, a2, rfl⟩

end Verif.Experiment
