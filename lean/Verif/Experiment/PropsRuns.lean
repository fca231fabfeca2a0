import Verif.Experiment.PropsRun

/-!
# Properties of `run` (C88)
-/

namespace Verif.Experiment

open Verif Verif.Logger

variable {σ α β L Λ : Type}

theorem saveLog_spec (w : World L) : ∃ w', saveLog w = (w', .ok ()) ∧ w'.log = w.log ∧
    (w.log.filename = none → w'.fs = w.fs) ∧
    (∀ f, w.log.filename = some f → w.log.save w.fs = .ok w'.fs) := by
  unfold saveLog
  rcases hf : w.log.filename with _ | f
  · have : w.log.save w.fs = .error .noFileError := C72_no_file w.fs w.log hf
    rw [this]
    exact ⟨w, rfl, rfl, fun _ => rfl, fun f h => (by cases h)⟩
  · have : ∃ fs', w.log.save w.fs = .ok fs' := by
      unfold Logger.save saveWrites
      rw [hf]
      exact ⟨_, rfl⟩
    obtain ⟨fs', h⟩ := this
    rw [h]
    exact ⟨{ w with fs := fs' }, rfl, rfl, fun h => (by cases h), fun f _ => rfl⟩

theorem storeGlobal_run (k : Key) (v : LogVal L) (w : World L) :
    storeGlobal k v w = ({ w with log := w.log.storeGlobal k (.plain v) }, .ok ()) := rfl

/-- **C88.** When `prepare` succeeds and the generator gives `splits`, `run` adds to the log one run
for each split, in order, with its training and test sets, and the dictionary of a learner trained
on the rows of the training set; earlier runs are not changed.  When it succeeds, there are as many
runs as splits, both times are logged and the log is saved if there is a file name.  When it fails,
at least one run was made, the last one is the run which failed, nothing is saved and `end_time` is
not stored.  The evaluation may be any code which only stores results (see `onlyStores_two` and
`onlyStores_three`). -/
theorem C88_run [DecidableEq L] (X : Ext Λ) (R : Rand L) (e : Exp)
    (rawLabels : Py (List (List L))) (rawData : Py (List Mx))
    (evaluate : Prepared L → Evaluate L Λ) (start stop : Key) (w w1 : World L) (p : Prepared L)
    (splits : List (List ℕ × List ℕ)) (hp : prepare R e rawLabels rawData w = (w1, .ok p))
    (hg : p.generator = .ok splits)
    (hev : ∀ learner data labels, OnlyStores (evaluate p learner data labels))
    (hno : ∀ n ms fs cs k data it, X.train n ms fs cs k data it ≠ .error .stopIteration)
    (hno' : ∀ learner data labels w, (evaluate p learner data labels w).2 ≠ .error .stopIteration) :
    ∃ w' r ds, run X R e rawLabels rawData evaluate start stop w = (w', r) ∧
      w'.log.exps = w.log.exps ++ ds ∧
      (∀ (i : ℕ) (d : Dict Key (Val (LogVal L) Mx)) (s : List ℕ × List ℕ), ds[i]? = some d →
        splits[i]? = some s → Record d s) ∧
      (r = .ok () → ds.length = splits.length ∧
        (∀ (i : ℕ) (d : Dict Key (Val (LogVal L) Mx)) (s : List ℕ × List ℕ), ds[i]? = some d →
          splits[i]? = some s → ∃ data learner,
            List.Forall₂ (fun x y : Mx => y.cols = x.cols ∧ Picks x.rows s.1 y.rows) p.data data ∧
            X.train (w.log.exps.length + i + 1) e.modalities (p.data.map Mx.cols) p.coefs e.k data
              e.iterTrain = .ok learner ∧
            dictGet? d "dictionary".toList = some (.arr (X.dico learner))) ∧
        w'.log.getValue "start_time".toList = .ok (.plain (.time start)) ∧
        w'.log.getValue "end_time".toList = .ok (.plain (.time stop)) ∧
        (w.log.filename = none → w'.fs = w.fs) ∧
        ∀ f, w.log.filename = some f → w'.log.save w.fs = .ok w'.fs) ∧
      (∀ x, r = .error x → 0 < ds.length ∧ ds.length ≤ splits.length ∧ w'.fs = w.fs ∧
        dictGet? w'.log.glob "end_time".toList = dictGet? w.log.glob "end_time".toList) ∧
      w'.log.filename = w.log.filename ∧ (Reach w.log → Reach w'.log) := by
  obtain ⟨_, names, _, tuples, _, _, _, examples, _, _, _, _, _, hw1⟩ := prepare_ok hp
  have hexp1 : w1.log.exps = w.log.exps ∧ w1.log.filename = w.log.filename ∧ w1.fs = w.fs := by
    obtain ⟨_, _, _, _, _, _, _, _, _, _, _, h1, h2, h3, _⟩ := C87_logged R e rawLabels rawData w w1 p hp
    exact ⟨h1, h2, h3⟩
  have hreach1 : Reach w.log → Reach w1.log := by
    intro h
    rw [hw1]
    refine .storeGlobal _ _ (.storeGlobal _ _ (.storeGlobal _ _ ?_))
    generalize (Exp.parametersToDict e : Dict Key (LogVal L)) = d
    revert h
    generalize w.log = l
    intro h
    induction d generalizing l with
    | nil => exact h
    | cons kv d ih => exact ih _ (.storeGlobal _ _ h)
  have hend1 : dictGet? w1.log.glob "end_time".toList = dictGet? w.log.glob "end_time".toList := by
    rw [hw1]
    simp only [Exp.parametersToDict, List.foldl, Logger.storeGlobal, dictGet?_set]
    simp
  set w2 : World L := { w1 with log := w1.log.storeGlobal "start_time".toList (.plain (.time start)) }
    with hw2
  obtain ⟨w3, r, ds, h1, h2, h3, h4, h5, h6, h7, h8, h9⟩ :=
    each_runs X e p (evaluate p) hev hno hno' splits w2
  have hx2 : w2.log.exps = w.log.exps := hexp1.1
  have hrun : run X R e rawLabels rawData evaluate start stop w =
      (runLoop p.generator (performOneRun X e p (evaluate p)) >>= fun _ =>
        storeGlobal "end_time".toList (.time stop) >>= fun _ => saveLog) w2 := by
    unfold run
    rw [bind_ok hp, bind_ok (storeGlobal_run _ _ _)]
  have hloop : runLoop p.generator (performOneRun X e p (evaluate p)) w2 = (w3, r) := by
    unfold runLoop catchStop
    rw [hg, lift_ok rfl, h1]
    rcases r with x | u
    · cases x <;> first | rfl | exact absurd rfl h5
    · rfl
  rcases r with x | ⟨⟩
  · refine ⟨w3, .error x, ds, by rw [hrun, bind_error hloop], by rw [h3, hx2], h8,
      fun h => (by cases h), ?_, ?_, fun h => h4 (.storeGlobal _ _ (hreach1 h))⟩
    · intro x' _
      obtain ⟨ha, hb⟩ := h7 ⟨x, rfl⟩
      refine ⟨ha, hb, h2.fs.trans hexp1.2.2, ?_⟩
      rw [h2.glob]
      show dictGet? (dictSet w1.log.glob _ _) _ = _
      rw [dictGet?_set, if_neg (by decide), hend1]
    · rw [h2.filename]
      exact hexp1.2.1
  · set w4 : World L := { w3 with log := w3.log.storeGlobal "end_time".toList (.plain (.time stop)) }
      with hw4
    obtain ⟨w5, hs1, hs2, hs3, hs4⟩ := saveLog_spec w4
    have hf4 : w4.log.filename = w.log.filename := by
      show w3.log.filename = _
      rw [h2.filename]
      exact hexp1.2.1
    have hfs4 : w4.fs = w.fs := h2.fs.trans hexp1.2.2
    refine ⟨w5, .ok (), ds, ?_, ?_, h8, ?_, fun x h => (by cases h), ?_, ?_⟩
    · rw [hrun, bind_ok hloop, bind_ok (storeGlobal_run _ _ _), hs1]
    · rw [hs2]
      show w3.log.exps = _
      rw [h3, hx2]
    · intro _
      refine ⟨h6 rfl, ?_, ?_, ?_, ?_, ?_⟩
      · intro i d s hi hs
        obtain ⟨data, learner, ha, hb, hc⟩ := h9 rfl i d s hi hs
        refine ⟨data, learner, ?_, by rw [← hx2]; exact hb, hc⟩
        exact (Objects.mapM_py_ok.1 ha).imp fun x y hxy => (takeRows_ok x y s.1).1 hxy
      · rw [hs2]
        have hd : dictGet? w4.log.glob "start_time".toList = some (.plain (.time start)) := by
          show dictGet? (dictSet w3.log.glob _ _) _ = _
          rw [dictGet?_set, if_neg (by decide), h2.glob]
          show dictGet? (dictSet w1.log.glob _ _) _ = _
          rw [dictGet?_set, if_pos rfl]
        unfold Logger.getValue
        rw [hd]
      · rw [hs2]
        have hd : dictGet? w4.log.glob "end_time".toList = some (.plain (.time stop)) := by
          show dictGet? (dictSet w3.log.glob _ _) _ = _
          rw [dictGet?_set, if_pos rfl]
        unfold Logger.getValue
        rw [hd]
      · intro hf
        rw [hs3 (hf4.trans hf), hfs4]
      · intro f hf
        rw [hs2, ← hfs4]
        exact hs4 f (hf4.trans hf)
    · rw [hs2]
      exact hf4
    · intro h
      rw [hs2]
      exact .storeGlobal _ _ (h4 (.storeGlobal _ _ (hreach1 h)))

/-- **C88.** The global values which `prepare` logged are still in the log after the runs, whether
they succeed or not: only the two times are added. -/
theorem C88_globals [DecidableEq L] (X : Ext Λ) (R : Rand L) (e : Exp)
    (rawLabels : Py (List (List L))) (rawData : Py (List Mx))
    (evaluate : Prepared L → Evaluate L Λ) (start stop : Key) (w w1 : World L) (p : Prepared L)
    (splits : List (List ℕ × List ℕ)) (hp : prepare R e rawLabels rawData w = (w1, .ok p))
    (hg : p.generator = .ok splits)
    (hev : ∀ learner data labels, OnlyStores (evaluate p learner data labels))
    (hno : ∀ n ms fs cs k data it, X.train n ms fs cs k data it ≠ .error .stopIteration)
    (hno' : ∀ learner data labels w, (evaluate p learner data labels w).2 ≠ .error .stopIteration)
    (k : Key) (h1 : k ≠ "start_time".toList) (h2 : k ≠ "end_time".toList) :
    (run X R e rawLabels rawData evaluate start stop w).1.log.getValue k = w1.log.getValue k := by
  set w2 : World L := { w1 with log := w1.log.storeGlobal "start_time".toList (.plain (.time start)) }
    with hw2
  obtain ⟨w3, r, ds, g1, g2, _, _, g5, _⟩ := each_runs X e p (evaluate p) hev hno hno' splits w2
  have hrun : run X R e rawLabels rawData evaluate start stop w =
      (runLoop p.generator (performOneRun X e p (evaluate p)) >>= fun _ =>
        storeGlobal "end_time".toList (.time stop) >>= fun _ => saveLog) w2 := by
    unfold run
    rw [bind_ok hp, bind_ok (storeGlobal_run _ _ _)]
  have hloop : runLoop p.generator (performOneRun X e p (evaluate p)) w2 = (w3, r) := by
    unfold runLoop catchStop
    rw [hg, lift_ok rfl, g1]
    rcases r with x | u
    · cases x <;> first | rfl | exact absurd rfl g5
    · rfl
  have hd : dictGet? w3.log.glob k = dictGet? w1.log.glob k := by
    rw [g2.glob]
    show dictGet? (dictSet w1.log.glob _ _) _ = _
    rw [dictGet?_set, if_neg (fun h => h1 h.symm)]
  rcases r with x | ⟨⟩
  · rw [hrun, bind_error hloop]
    unfold Logger.getValue
    rw [hd]
  · obtain ⟨w5, hs1, hs2, _⟩ := saveLog_spec
      { w3 with log := w3.log.storeGlobal "end_time".toList (.plain (.time stop)) }
    rw [hrun, bind_ok hloop, bind_ok (storeGlobal_run _ _ _), hs1]
    simp only [hs2]
    unfold Logger.getValue Logger.storeGlobal
    simp only []
    rw [dictGet?_set, if_neg (fun h => h2 h.symm), hd]

/-- **C88.** When `prepare` fails, or the generator when its first value is asked, `run` fails
likewise; there is no run and nothing is saved. -/
theorem C88_no_run [DecidableEq L] (X : Ext Λ) (R : Rand L) (e : Exp)
    (rawLabels : Py (List (List L))) (rawData : Py (List Mx))
    (evaluate : Prepared L → Evaluate L Λ) (start stop : Key) (w w1 : World L) :
    (∀ x, prepare R e rawLabels rawData w = (w1, .error x) →
      run X R e rawLabels rawData evaluate start stop w = (w1, .error x)) ∧
    (∀ p x, prepare R e rawLabels rawData w = (w1, .ok p) → p.generator = .error x →
      ∃ w', run X R e rawLabels rawData evaluate start stop w = (w', .error x) ∧
        w'.log.exps = w.log.exps ∧ w'.fs = w.fs) := by
  constructor
  · intro x hx
    unfold run
    rw [bind_error hx]
  · intro p x hp hg
    have hns : x ≠ .stopIteration := by
      obtain ⟨_, _, _, _, _, _, _, _, _, _, _, _, h5, _⟩ := prepare_ok hp
      obtain ⟨_, _, _, _, _, _, _, _, _, _, hgen, _⟩ := splitExamples_ok h5
      rw [hg] at hgen
      rcases hm : e.runMode with _ | _ | q | s
      · rw [hm] at hgen
        cases hgen
      · rw [hm] at hgen
        unfold getGenerator at hgen
        rw [pyBind_eq_ok] at hgen
        obtain ⟨r, _, hgen⟩ := hgen
        rcases r with _ | ⟨s, r⟩ <;> cases hgen
      · rw [hm] at hgen
        simp only [getGenerator, Except.ok.injEq] at hgen
        rintro rfl
        unfold Utils.randomSplit at hgen
        simp only [] at hgen
        split_ifs at hgen
        · cases hgen
        · rcases hpr : pyRange 0 (pyInt (q * (p.labels.length : ℚ)) * pyInt (1 / q))
            (pyInt (q * (p.labels.length : ℚ))) with x | l
          · rw [hpr] at hgen
            have hx : x = .stopIteration := by
              have : (Except.error x : Py (List (List ℕ × List ℕ))) = .error .stopIteration := hgen
              cases this
              rfl
            subst hx
            unfold pyRange at hpr
            split_ifs at hpr
            cases hpr
          · rw [hpr] at hgen
            cases hgen
      · rw [hm] at hgen
        simp only [getGenerator, Except.ok.injEq, randomSplitStr] at hgen
        rintro rfl
        split_ifs at hgen <;> cases hgen
    obtain ⟨_, _, _, _, _, _, _, _, _, _, _, h1, _, h3, _⟩ := C87_logged R e rawLabels rawData w w1 p hp
    refine ⟨{ w1 with log := w1.log.storeGlobal "start_time".toList (.plain (.time start)) }, ?_, h1, h3⟩
    unfold run
    rw [bind_ok hp, bind_ok (storeGlobal_run _ _ _)]
    rw [bind_error (e := x) (s' :=
      { w1 with log := w1.log.storeGlobal "start_time".toList (.plain (.time start)) }) ?_]
    unfold runLoop catchStop
    rw [hg, lift_error rfl]
    cases x <;> first | rfl | exact absurd rfl hns

/-- **C88.** With `leave-one-out` a successful `run` makes as many runs as there are samples besides
the examples; the run `i` tests the sample `i` and trains on all of the others. -/
theorem C88_leave_one_out [DecidableEq L] (X : Ext Λ) (R : Rand L) (e : Exp)
    (rawLabels : Py (List (List L))) (rawData : Py (List Mx))
    (evaluate : Prepared L → Evaluate L Λ) (start stop : Key) (w w1 w' : World L) (p : Prepared L)
    (hm : e.runMode = .leaveOneOut) (hp : prepare R e rawLabels rawData w = (w1, .ok p))
    (hev : ∀ learner data labels, OnlyStores (evaluate p learner data labels))
    (hno : ∀ n ms fs cs k data it, X.train n ms fs cs k data it ≠ .error .stopIteration)
    (hno' : ∀ learner data labels w, (evaluate p learner data labels w).2 ≠ .error .stopIteration)
    (hr : run X R e rawLabels rawData evaluate start stop w = (w', .ok ())) :
    w'.log.exps.length = w.log.exps.length + p.labels.length ∧
    ∀ i, i < p.labels.length → ∃ d train, w'.log.exps[w.log.exps.length + i]? = some d ∧
      dictGet? d "test".toList = some (.plain (.idx [i])) ∧
      dictGet? d "train".toList = some (.plain (.idx train)) ∧ train.Pairwise (· < ·) ∧
      ∀ j, j ∈ train ↔ j < p.labels.length ∧ j ≠ i := by
  have hg : p.generator = .ok (Utils.leaveOneOut p.labels.length) := by
    obtain ⟨_, _, _, _, _, _, _, _, _, _, _, _, h5, _⟩ := prepare_ok hp
    obtain ⟨_, _, _, _, _, _, _, _, _, _, hgen, _⟩ := splitExamples_ok h5
    rw [hm] at hgen
    simp only [getGenerator, Except.ok.injEq] at hgen
    exact hgen.symm
  obtain ⟨w2, r, ds, h1, h2, h3, h4, _⟩ := C88_run X R e rawLabels rawData evaluate start stop w w1 p
    _ hp hg hev hno hno'
  rw [hr] at h1
  cases h1
  obtain ⟨hlen, hall⟩ := Utils.C24_leave_one_out p.labels.length
  have hdl := (h4 rfl).1
  rw [hlen] at hdl
  refine ⟨by rw [h2, List.length_append, hdl], ?_⟩
  intro i hi
  have hd : ds[i]? = some ds[i] := List.getElem?_eq_getElem (by omega)
  have hs : (Utils.leaveOneOut p.labels.length)[i]? = some (Utils.leaveOneOut p.labels.length)[i] :=
    List.getElem?_eq_getElem (by omega)
  obtain ⟨a, b, c⟩ := hall i _ hs
  have hrec := h3 i _ _ hd hs
  refine ⟨ds[i], (Utils.leaveOneOut p.labels.length)[i].1, ?_, ?_, hrec.train, b, c⟩
  · rw [h2, List.getElem?_append_right (by omega), Nat.add_sub_cancel_left, hd]
  · rw [hrec.test, a]

/-- **C88.** With `single` a successful `run` makes one run, testing on a tenth of the samples. -/
theorem C88_single [DecidableEq L] (X : Ext Λ) (R : Rand L) (hR : R.OK) (e : Exp)
    (rawLabels : Py (List (List L))) (rawData : Py (List Mx))
    (evaluate : Prepared L → Evaluate L Λ) (start stop : Key) (w w1 w' : World L) (p : Prepared L)
    (hm : e.runMode = .single) (hp : prepare R e rawLabels rawData w = (w1, .ok p))
    (hev : ∀ learner data labels, OnlyStores (evaluate p learner data labels))
    (hno : ∀ n ms fs cs k data it, X.train n ms fs cs k data it ≠ .error .stopIteration)
    (hno' : ∀ learner data labels w, (evaluate p learner data labels w).2 ≠ .error .stopIteration)
    (hr : run X R e rawLabels rawData evaluate start stop w = (w', .ok ())) :
    ∃ d train test, w'.log.exps = w.log.exps ++ [d] ∧
      dictGet? d "test".toList = some (.plain (.idx test)) ∧
      dictGet? d "train".toList = some (.plain (.idx train)) ∧
      (train ++ test).Perm (List.range p.labels.length) ∧ test.length = p.labels.length / 10 := by
  obtain ⟨_, _, _, _, _, _, _, _, _, _, _, _, h5, _⟩ := prepare_ok hp
  obtain ⟨_, _, _, _, _, _, _, _, _, _, hgen, _⟩ := splitExamples_ok h5
  rw [hm] at hgen
  unfold getGenerator at hgen
  rw [pyBind_eq_ok] at hgen
  obtain ⟨rs, hrs, hgen⟩ := hgen
  rcases rs with _ | ⟨s, rest⟩
  · cases hgen
  simp only [] at hgen
  have hg : p.generator = .ok [s] := (Except.ok.inj hgen).symm
  obtain ⟨w2, r, ds, h1, h2, h3, h4, _⟩ := C88_run X R e rawLabels rawData evaluate start stop w w1 p
    _ hp hg hev hno hno'
  rw [hr] at h1
  cases h1
  have hdl := (h4 rfl).1
  obtain ⟨d, rfl⟩ := List.length_eq_one_iff.1 hdl
  have hrec := h3 0 d s rfl rfl
  refine ⟨d, s.1, s.2, h2, hrec.test, hrec.train, ?_⟩
  obtain ⟨c1, c2⟩ := Utils.C23_random_split p.labels.length (1 / 10) (by norm_num) _
    (hR.shuffled p.labels.length)
  by_cases hz : ⌊(1 / 10 : ℚ) * (p.labels.length : ℚ)⌋ = 0
  · rw [c1 hz] at hrs
    cases hrs
  · obtain ⟨r', hr', _, hall, _⟩ := c2 hz
    rw [hrs] at hr'
    cases hr'
    obtain ⟨ha, hb, _⟩ := hall s List.mem_cons_self
    refine ⟨hb, ?_⟩
    have : ⌊(1 / 10 : ℚ) * (p.labels.length : ℚ)⌋ = ((p.labels.length / 10 : ℕ) : ℤ) := by
      rw [Int.floor_eq_iff]
      have h1 := Nat.div_mul_le_self p.labels.length 10
      have h2 := Nat.lt_div_mul_add (a := p.labels.length) (b := 10) (by norm_num)
      generalize p.labels.length / 10 = q at *
      have h1' : (q : ℚ) * 10 ≤ p.labels.length := by exact_mod_cast h1
      have h2' : (p.labels.length : ℚ) < q * 10 + 10 := by exact_mod_cast h2
      push_cast
      constructor <;> linarith
    rw [this] at ha
    exact_mod_cast ha

/-- **C88.** What `run` saved can be loaded: the same values for all keys, for the experiment and
for each of its runs (for a file name which does not end with `.npz`, see C72). -/
theorem C88_saved [DecidableEq L] (X : Ext Λ) (R : Rand L) (e : Exp)
    (rawLabels : Py (List (List L))) (rawData : Py (List Mx))
    (evaluate : Prepared L → Evaluate L Λ) (start stop : Key) (w w1 w' : World L) (p : Prepared L)
    (splits : List (List ℕ × List ℕ)) (f : Key) (hf : w.log.filename = some f)
    (hname : ¬ (".npz".toList <:+ f)) (hreach : Reach w.log)
    (hp : prepare R e rawLabels rawData w = (w1, .ok p)) (hg : p.generator = .ok splits)
    (hev : ∀ learner data labels, OnlyStores (evaluate p learner data labels))
    (hno : ∀ n ms fs cs k data it, X.train n ms fs cs k data it ≠ .error .stopIteration)
    (hno' : ∀ learner data labels w, (evaluate p learner data labels w).2 ≠ .error .stopIteration)
    (hr : run X R e rawLabels rawData evaluate start stop w = (w', .ok ())) (setF : Bool) :
    ∃ l, load w'.fs f setF true = .ok l ∧ SameDict l.glob w'.log.glob ∧
      List.Forall₂ SameDict l.exps w'.log.exps := by
  obtain ⟨w2, r, ds, h1, h2, h3, h4, _, h6, h7⟩ := C88_run X R e rawLabels rawData evaluate start stop
    w w1 p _ hp hg hev hno hno'
  rw [hr] at h1
  cases h1
  obtain ⟨_, _, _, _, _, hs⟩ := h4 rfl
  obtain ⟨fs', l', ha, hb, hc, hd, _⟩ := C72_save_load w.fs w'.log f setF (C72_reachable_wf _ (h7 hreach))
    (h6.trans hf) (Or.inl hname)
  rw [hs f hf] at ha
  cases ha
  exact ⟨l', hb, hc, hd⟩

/-- **C88.** An evaluation which raises `StopIteration` stops the experiment silently: no further
run, and no error (the learner and the evaluations of this module raise none). -/
theorem C88_stop_iteration [DecidableEq L] (X : Ext Λ) (R : Rand L) (e : Exp)
    (rawLabels : Py (List (List L))) (rawData : Py (List Mx))
    (evaluate : Prepared L → Evaluate L Λ) (start stop : Key) (w w1 w2 : World L) (p : Prepared L)
    (s : List ℕ × List ℕ) (rest : List (List ℕ × List ℕ))
    (hp : prepare R e rawLabels rawData w = (w1, .ok p)) (hg : p.generator = .ok (s :: rest))
    (hs : performOneRun X e p (evaluate p) s
      { w1 with log := w1.log.storeGlobal "start_time".toList (.plain (.time start)) } =
      (w2, .error .stopIteration)) :
    ∃ w', run X R e rawLabels rawData evaluate start stop w = (w', .ok ()) ∧
      w'.log.exps = w2.log.exps := by
  obtain ⟨w5, hs1, hs2, _⟩ := saveLog_spec
    { w2 with log := w2.log.storeGlobal "end_time".toList (.plain (.time stop)) }
  refine ⟨w5, ?_, by rw [hs2]; rfl⟩
  unfold run
  rw [bind_ok hp, bind_ok (storeGlobal_run _ _ _)]
  rw [bind_ok (s' := w2) (a := ()) ?_, bind_ok (storeGlobal_run _ _ _), hs1]
  unfold runLoop catchStop
  rw [hg, lift_ok rfl]
  unfold each
  rw [bind_error hs]

end Verif.Experiment
