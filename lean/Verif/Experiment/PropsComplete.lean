import Verif.Experiment.PropsThreeRun

/-!
# Experiments which complete (C88, C89 and C90)
-/

namespace Verif.Experiment

open Verif Verif.Logger

variable {σ α β L Λ : Type}

/-- The rows `part` of each matrix. -/
def Parts (data : List Mx) (part : List ℕ) (out : List Mx) : Prop :=
  List.Forall₂ (fun x y : Mx => y.cols = x.cols ∧ Picks x.rows part y.rows) data out

theorem parts_exists (data : List Mx) (part : List ℕ) (n : ℕ) (h : ∀ x ∈ data, x.rows.length = n)
    (hp : ∀ t ∈ part, t < n) : ∃ out, (data.mapM fun x => takeRows x part) = .ok out ∧
      Parts data part out := by
  obtain ⟨out, ho⟩ := mapM_exists (fun x => takeRows x part) data fun x hx => by
    obtain ⟨rows, hr⟩ := picks_of_lt x.rows part (fun t ht => by rw [h x hx]; exact hp t ht)
    exact ⟨⟨x.cols, rows⟩, (takeRows_ok x _ part).2 ⟨rfl, hr⟩⟩
  exact ⟨out, ho, (Objects.mapM_py_ok.1 ho).imp fun x y hxy => (takeRows_ok x y part).1 hxy⟩

/-- The evaluation of a run succeeds, and `P` holds of the run after it. -/
def Evaluates (evaluate : Evaluate L Λ)
    (P : Λ → List Mx → List ℕ → Dict Key (Val (LogVal L) Mx) → Prop)
    (learner : Λ) (test : List Mx) (labels : List ℕ) : Prop :=
  ∀ (w : World L) ini d, w.log.exps = ini ++ [d] → NoResult d →
    ∃ w' d', evaluate learner test labels w = (w', .ok ()) ∧ w'.log.exps = ini ++ [d'] ∧
      P learner test labels d'

theorem performOneRun_ok (X : Ext Λ) (e : Exp) (p : Prepared L) (evaluate : Evaluate L Λ)
    (P : Λ → List Mx → List ℕ → Dict Key (Val (LogVal L) Mx) → Prop)
    (s : List ℕ × List ℕ) (w : World L) (hrows : ∀ x ∈ p.data, x.rows.length = p.labels.length)
    (hs : ∀ t ∈ s.1 ++ s.2, t < p.labels.length)
    (ht : ∀ n train test labels, Parts p.data s.1 train → Parts p.data s.2 test →
      Picks p.labels s.2 labels → ∃ learner,
        X.train n e.modalities (p.data.map Mx.cols) p.coefs e.k train e.iterTrain = .ok learner ∧
        Evaluates evaluate P learner test labels) :
    ∃ w' d train test labels learner, performOneRun X e p evaluate s w = (w', .ok ()) ∧
      w'.log.exps = w.log.exps ++ [d] ∧ Parts p.data s.1 train ∧ Parts p.data s.2 test ∧
      Picks p.labels s.2 labels ∧
      X.train (w.log.exps.length + 1) e.modalities (p.data.map Mx.cols) p.coefs e.k train
        e.iterTrain = .ok learner ∧ P learner test labels d := by
  obtain ⟨train, ht1, ht2⟩ := parts_exists p.data s.1 _ hrows fun t h => hs t (List.mem_append_left _ h)
  obtain ⟨test, hs1, hs2⟩ := parts_exists p.data s.2 _ hrows fun t h => hs t (List.mem_append_right _ h)
  obtain ⟨labels, hl⟩ := picks_of_lt p.labels s.2 fun t h => hs t (List.mem_append_right _ h)
  set w1 : World L := { w with log := w.log.newRun } with hw1
  have he1 : w1.log.exps = w.log.exps ++ [[]] := rfl
  obtain ⟨l2, hs2', hx2, _⟩ := (store_last he1 "train".toList (.plain (.idx s.1))).2
    (by simp [dictKeys])
  obtain ⟨l3, hs3, hx3, _⟩ := (store_last hx2 "test".toList (.plain (.idx s.2))).2
    (by simp [dictKeys])
  obtain ⟨learner, hlr, hev⟩ := ht l3.exps.length train test labels ht2 hs2 hl
  obtain ⟨l5, hs5, hx5, _⟩ := (store_last hx3 "dictionary".toList (.arr (X.dico learner))).2
    (by simp [dictKeys])
  unfold performOneRun
  rw [bind_ok (by rfl : newRun w = (w1, .ok ()))]
  rw [bind_ok (s' := { w with log := l2 }) (a := ()) (store_run (w := w1) hs2'),
    bind_ok (s' := { w with log := l3 }) (a := ()) (store_run (w := { w with log := l2 }) hs3),
    lift_ok ht1, lift_ok hs1, lift_ok ((mapM_pyGet p.labels s.2 labels).2 hl),
    bind_ok (s' := { w with log := l3 }) (a := learner) (by unfold trainNew; rw [hlr]),
    bind_ok (s' := { w with log := l5 }) (a := ()) (store_run (w := { w with log := l3 }) hs5)]
  have hl3 : l3.exps.length = w.log.exps.length + 1 := by
    rw [hx3]
    simp
  have hno : NoResult ([] ++ [("train".toList, Val.plain (LogVal.idx s.1))] ++
      [("test".toList, Val.plain (LogVal.idx s.2))] ++
      [("dictionary".toList, (Val.arr (X.dico learner) : Val (LogVal L) Mx))]) := by
    constructor
    · simp only [dictKeys, List.nil_append, List.cons_append, List.map_cons, List.map_nil]
      decide
    · intro k hk
      simp only [dictKeys, List.nil_append, List.cons_append, List.map_cons, List.map_nil,
        List.mem_cons, List.not_mem_nil, or_false] at hk
      rcases hk with rfl | rfl | rfl <;> decide
  obtain ⟨w', d', hw', hd', hP⟩ := hev { w with log := l5 } _ _ hx5 hno
  exact ⟨w', d', train, test, labels, learner, hw', hd', ht2, hs2, hl, by rw [← hl3]; exact hlr, hP⟩

/-- **C88.** When `prepare` succeeds and the generator gives splits, for a learner which can be
trained on the training sets and evaluated on the test sets, `run` completes (and then makes all of
the runs, see `C88_run`); what the evaluation ensures holds for each run, for a learner trained on
the rows of its training set and evaluated on the rows and labels of its test set. -/
theorem C88_completes [DecidableEq L] (X : Ext Λ) (R : Rand L) (hR : R.OK) (e : Exp)
    (rawLabels : Py (List (List L))) (rawData : Py (List Mx))
    (evaluate : Prepared L → Evaluate L Λ)
    (P : Λ → List Mx → List ℕ → Dict Key (Val (LogVal L) Mx) → Prop)
    (start stop : Key) (w w1 : World L) (p : Prepared L)
    (splits : List (List ℕ × List ℕ)) (hp : prepare R e rawLabels rawData w = (w1, .ok p))
    (hg : p.generator = .ok splits) (hq : ∀ q, e.runMode = .ratio q → 0 < q)
    (ht : ∀ s ∈ splits, ∀ n train test labels, Parts p.data s.1 train → Parts p.data s.2 test →
      Picks p.labels s.2 labels → ∃ learner,
        X.train n e.modalities (p.data.map Mx.cols) p.coefs e.k train e.iterTrain = .ok learner ∧
        Evaluates (evaluate p) P learner test labels) :
    ∃ w' ds, run X R e rawLabels rawData evaluate start stop w = (w', .ok ()) ∧
      w'.log.exps = w.log.exps ++ ds ∧ ds.length = splits.length ∧
      ∀ (i : ℕ) (s : List ℕ × List ℕ) (d : Dict Key (Val (LogVal L) Mx)), splits[i]? = some s →
        ds[i]? = some d → ∃ train test labels learner,
          Parts p.data s.1 train ∧ Parts p.data s.2 test ∧ Picks p.labels s.2 labels ∧
          X.train (w.log.exps.length + i + 1) e.modalities (p.data.map Mx.cols) p.coefs e.k train
            e.iterTrain = .ok learner ∧ P learner test labels d := by
  have hrows : ∀ x ∈ p.data, x.rows.length = p.labels.length := by
    obtain ⟨_, _, _, _, _, _, _, _, _, _, _, _, h5, _⟩ := prepare_ok hp
    obtain ⟨_, _, _, _, _, _, _, _, _, _, _, h, _⟩ := splitExamples_ok h5
    exact fun x hx => (h x hx).symm
  have hloop : ∀ (l : List (List ℕ × List ℕ)) (w : World L), (∀ s ∈ l, s ∈ splits) →
      ∃ w' ds, each l (performOneRun X e p (evaluate p)) w = (w', .ok ()) ∧
        w'.log.exps = w.log.exps ++ ds ∧ ds.length = l.length ∧
        ∀ (i : ℕ) (s : List ℕ × List ℕ) (d : Dict Key (Val (LogVal L) Mx)), l[i]? = some s →
        ds[i]? = some d → ∃ train test labels learner,
          Parts p.data s.1 train ∧ Parts p.data s.2 test ∧ Picks p.labels s.2 labels ∧
          X.train (w.log.exps.length + i + 1) e.modalities (p.data.map Mx.cols) p.coefs e.k train
            e.iterTrain = .ok learner ∧ P learner test labels d := by
    intro l
    induction l with
    | nil => exact fun w _ => ⟨w, [], rfl, by simp, rfl, by simp⟩
    | cons s l ih =>
      intro w hl
      have hs := hl s List.mem_cons_self
      obtain ⟨w2, d, train, test, labels, learner, hr, hd, g1, g2, g3, g4, g5⟩ :=
        performOneRun_ok X e p (evaluate p) P s w hrows (fun t h => by
          obtain ⟨hperm, _⟩ := C87_runs R hR e rawLabels rawData _ w1 p hp hq splits hg s hs
          exact List.mem_range.1 (hperm.mem_iff.1 h)) (ht s hs)
      obtain ⟨w3, ds, h1, h2, h3, h4⟩ := ih w2 fun s' hs' => hl s' (List.mem_cons_of_mem _ hs')
      refine ⟨w3, d :: ds, ?_, by rw [h2, hd, List.append_assoc]; rfl, by simp [h3], ?_⟩
      · unfold each
        rw [bind_ok hr, h1]
      · intro i s' d' hi hdi
        cases i with
        | zero =>
          simp only [List.getElem?_cons_zero, Option.some.injEq] at hi hdi
          subst hi hdi
          exact ⟨train, test, labels, learner, g1, g2, g3, g4, g5⟩
        | succ i =>
          simp only [List.getElem?_cons_succ] at hi hdi
          have := h4 i s' d' hi hdi
          rw [hd, List.length_append, List.length_singleton] at this
          rwa [show w.log.exps.length + (i + 1) + 1 = w.log.exps.length + 1 + i + 1 by omega]
  set w2 : World L := { w1 with log := w1.log.storeGlobal "start_time".toList (.plain (.time start)) }
    with hw2
  obtain ⟨w3, ds, hr, h2, h3, h4⟩ := hloop splits w2 fun _ h => h
  obtain ⟨w5, hs1, hs2, _⟩ := saveLog_spec
    { w3 with log := w3.log.storeGlobal "end_time".toList (.plain (.time stop)) }
  have hx2 : w2.log.exps = w.log.exps := by
    obtain ⟨_, _, _, _, _, _, _, _, _, _, _, h1, _⟩ := C87_logged R e rawLabels rawData w w1 p hp
    exact h1
  rw [hx2] at h2 h4
  refine ⟨w5, ds, ?_, by rw [hs2]; exact h2, h3, h4⟩
  unfold run
  rw [bind_ok hp, bind_ok (storeGlobal_run _ _ _)]
  rw [bind_ok (s' := w3) (a := ()) ?_, bind_ok (storeGlobal_run _ _ _), hs1]
  unfold runLoop catchStop
  rw [hg, lift_ok rfl, hr]

/-- The scores stored in a run by `TwoModalitiesExperiment`. -/
def ScoresTwo (X : Ext Λ) (e : Exp) (metrics : List (List ℚ → List ℚ → ℚ)) (p : Prepared L)
    (learner : Λ) (test : List Mx) (labels : List ℕ) (d : Dict Key (Val (LogVal L) Mx)) : Prop :=
  ∀ (a b i : ℕ) (c : ℤ) metric suf, a < e.modalities.length → b < e.modalities.length →
    CmpIn e.modalities.length c → metrics[i]? = some metric → SUFFIXES[i]? = some suf →
    ∃ key t x found, expKey e a b c suf = .ok key ∧
      Transformed X e learner test a c t ∧ Transformed X e learner p.dataEx b c x ∧
      Evaluation.classifyNN t.rows x.rows p.labelsEx metric = .ok found ∧
      dictGet? d ("found_".toList ++ key) = some (.plain (.idx found)) ∧
      dictGet? d ("score_".toList ++ key) =
        some (.plain (.score (Evaluation.foundLabelsToScore labels found)))

/-- The number of rows of the data of examples. -/
theorem dataEx_rows [DecidableEq L] {R : Rand L} {e : Exp} {rawLabels : Py (List (List L))}
    {rawData : Py (List Mx)} {w w1 : World L} {p : Prepared L}
    (hp : prepare R e rawLabels rawData w = (w1, .ok p)) :
    ∀ x ∈ p.dataEx, x.rows.length = p.labelsEx.length := by
  obtain ⟨_, _, _, _, _, _, _, _, _, _, _, _, h5, _⟩ := prepare_ok hp
  obtain ⟨_, _, _, _, e5, _, h1, _, h2, _⟩ := splitExamples_ok h5
  intro x hx
  obtain ⟨i, hi⟩ := List.getElem?_of_mem hx
  obtain ⟨y, _, hy⟩ := forall₂_get h1.flip hi
  rw [hy.2.length, h2.length]

/-- **C89.** Complete experiments: with at least one sample, distinct names without `2` and `_` other
than `bis`, `frob` and `cosine`, and a learner which can be trained on the training sets and transform
the test sets and the examples, `TwoModalitiesExperiment.run` completes, and each run has the scores
of all comparisons. -/
theorem C89_run [DecidableEq L] (X : Ext Λ) (R : Rand L) (hR : R.OK) (e : Exp)
    (rawLabels : Py (List (List L))) (rawData : Py (List Mx)) (metrics : List (List ℚ → List ℚ → ℚ))
    (start stop : Key) (w w1 : World L) (p : Prepared L)
    (splits : List (List ℕ × List ℕ)) (hp : prepare R e rawLabels rawData w = (w1, .ok p))
    (hg : p.generator = .ok splits) (hq : ∀ q, e.runMode = .ratio q → 0 < q)
    (hn : e.modalities.Nodup) (hnames : ∀ m ∈ e.modalities, Plain m) (hex : p.labelsEx ≠ [])
    (ht : ∀ s ∈ splits, ∀ n train test, Parts p.data s.1 train → Parts p.data s.2 test → ∃ learner,
      X.train n e.modalities (p.data.map Mx.cols) p.coefs e.k train e.iterTrain = .ok learner ∧
      Transforms X e learner test ∧ Transforms X e learner p.dataEx) :
    ∃ w' ds, run X R e rawLabels rawData (evaluateTwo X e metrics) start stop w = (w', .ok ()) ∧
      w'.log.exps = w.log.exps ++ ds ∧ ds.length = splits.length ∧
      ∀ (i : ℕ) (s : List ℕ × List ℕ) (d : Dict Key (Val (LogVal L) Mx)), splits[i]? = some s →
        ds[i]? = some d → ∃ train test labels learner,
          Parts p.data s.1 train ∧ Parts p.data s.2 test ∧ Picks p.labels s.2 labels ∧
          X.train (w.log.exps.length + i + 1) e.modalities (p.data.map Mx.cols) p.coefs e.k train
            e.iterTrain = .ok learner ∧ ScoresTwo X e metrics p learner test labels d := by
  refine C88_completes X R hR e rawLabels rawData (evaluateTwo X e metrics)
    (ScoresTwo X e metrics p) start stop w w1 p splits hp hg hq ?_
  intro s hs n train test labels h1 h2 h3
  obtain ⟨learner, g1, g2, g3⟩ := ht s hs n train test h1 h2
  refine ⟨learner, g1, fun w ini d hw hd => ?_⟩
  obtain ⟨w', d', k1, k2, _, _, k5⟩ := C89_evaluate X e metrics p learner test labels hn hnames g2 g3
    (fun x hx => by
      have hl := dataEx_rows hp x hx
      refine ⟨fun h0 => hex ?_, by rw [hl]⟩
      rw [h0] at hl
      exact List.length_eq_zero_iff.1 hl.symm) w ini d hw hd
  exact ⟨w', d', k1, k2, k5⟩

/-- The scores stored in a run by `ThreeModalitiesExperiment`. -/
def ScoresThree (X : Ext Λ) (e : Exp) (metrics : List (List ℚ → List ℚ → ℚ)) (p : Prepared L)
    (learner : Λ) (test : List Mx) (labels : List ℕ) (d : Dict Key (Val (LogVal L) Mx)) : Prop :=
  ∀ (a b : List ℕ) (i : ℕ) metric suf, (a, b) ∈ testedCombinations e.modalities.length →
    metrics[i]? = some metric → SUFFIXES[i]? = some suf →
    ∃ key t x found, scoreKey3 e a b suf = .ok key ∧
      Internal X e learner test a t ∧ Internal X e learner p.dataEx b x ∧
      Evaluation.classifyNN t.rows x.rows p.labelsEx metric = .ok found ∧
      dictGet? d key = some (.plain (.score (Evaluation.foundLabelsToScore labels found)))

/-- **C90.** Complete experiments: the same for `ThreeModalitiesExperiment`, with at least three
modalities. -/
theorem C90_run [DecidableEq L] (X : Ext Λ) (R : Rand L) (hR : R.OK) (e : Exp)
    (rawLabels : Py (List (List L))) (rawData : Py (List Mx)) (metrics : List (List ℚ → List ℚ → ℚ))
    (start stop : Key) (w w1 : World L) (p : Prepared L)
    (splits : List (List ℕ × List ℕ)) (hp : prepare R e rawLabels rawData w = (w1, .ok p))
    (hg : p.generator = .ok splits) (hq : ∀ q, e.runMode = .ratio q → 0 < q)
    (h3 : 3 ≤ e.modalities.length) (hn : e.modalities.Nodup) (hnames : ∀ m ∈ e.modalities, NoSep m)
    (hbad : ¬ BadThree e.modalities) (hex : p.labelsEx ≠ [])
    (ht : ∀ s ∈ splits, ∀ n train test, Parts p.data s.1 train → Parts p.data s.2 test → ∃ learner,
      X.train n e.modalities (p.data.map Mx.cols) p.coefs e.k train e.iterTrain = .ok learner ∧
      Transforms3 X e learner test s.2.length ∧
      Transforms3 X e learner p.dataEx p.labelsEx.length) :
    ∃ w' ds, run X R e rawLabels rawData (evaluateThree X e metrics) start stop w = (w', .ok ()) ∧
      w'.log.exps = w.log.exps ++ ds ∧ ds.length = splits.length ∧
      ∀ (i : ℕ) (s : List ℕ × List ℕ) (d : Dict Key (Val (LogVal L) Mx)), splits[i]? = some s →
        ds[i]? = some d → ∃ train test labels learner,
          Parts p.data s.1 train ∧ Parts p.data s.2 test ∧ Picks p.labels s.2 labels ∧
          X.train (w.log.exps.length + i + 1) e.modalities (p.data.map Mx.cols) p.coefs e.k train
            e.iterTrain = .ok learner ∧ ScoresThree X e metrics p learner test labels d := by
  refine C88_completes X R hR e rawLabels rawData (evaluateThree X e metrics)
    (ScoresThree X e metrics p) start stop w w1 p splits hp hg hq ?_
  intro s hs n train test labels h1 h2 h4
  obtain ⟨learner, g1, g2, g3⟩ := ht s hs n train test h1 h2
  refine ⟨learner, g1, fun w ini d hw hd => ?_⟩
  obtain ⟨w', d', k1, k2, _, _, k5⟩ := C90_evaluate X e metrics p learner test labels h3 hn hnames hbad
    _ g2 g3 hex w ini d hw hd
  exact ⟨w', d', k1, k2, k5⟩

end Verif.Experiment
