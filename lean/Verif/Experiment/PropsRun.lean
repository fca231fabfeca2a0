import Verif.Experiment.PropsTotal

/-!
# Properties of the runs of experiments (C88)
-/

namespace Verif.Experiment

open Verif Verif.Logger

variable {σ α β L Λ : Type}

/-- `l'` is `l` after storing some results. -/
inductive Results : Log L → Log L → Prop
  | refl (l) : Results l l
  | step {l l' l''} (k v) : Results l l' → l'.storeResult k v = .ok l'' → Results l l''

/-- Code which does nothing but storing results, and may raise. -/
def OnlyStores (m : M (World L) α) : Prop :=
  ∀ w, Results w.log (m w).1.log ∧ (m w).1.fs = w.fs

theorem Results.trans {a b c : Log L} (h : Results a b) (h' : Results b c) : Results a c := by
  induction h' with
  | refl => exact h
  | step k v _ hs ih => exact .step k v ih hs

theorem onlyStores_bind {m : M (World L) α} {f : α → M (World L) β} (h : OnlyStores m)
    (h' : ∀ a, OnlyStores (f a)) : OnlyStores (m >>= f) := by
  intro w
  have h1 := h w
  rcases hm : m w with ⟨w', r | a⟩
  · rw [bind_error hm]
    rw [hm] at h1
    exact h1
  · rw [bind_ok hm]
    rw [hm] at h1
    have h2 := h' a w'
    exact ⟨h1.1.trans h2.1, h2.2.trans h1.2⟩

theorem onlyStores_lift (x : Py α) : OnlyStores (lift x : M (World L) α) :=
  fun w => ⟨.refl _, rfl⟩

theorem onlyStores_pure (a : α) : OnlyStores (pure a : M (World L) α) := fun w => ⟨.refl _, rfl⟩

theorem onLog_ok {f : Log L → Py (Log L)} {w : World L} {l : Log L} (h : f w.log = .ok l) :
    onLog f w = ({ w with log := l }, .ok ()) := by
  unfold onLog
  rw [h]

theorem onLog_error {f : Log L → Py (Log L)} {w : World L} {x : PyErr} (h : f w.log = .error x) :
    onLog f w = (w, .error x) := by
  unfold onLog
  rw [h]

theorem store_run {k : Key} {v : Val (LogVal L) Mx} {w : World L} {l : Log L}
    (h : w.log.store k v = .ok l) : store k v w = ({ w with log := l }, .ok ()) := onLog_ok h

theorem storeResult_run {k : Key} {v : Val (LogVal L) Mx} {w : World L} {l : Log L}
    (h : w.log.storeResult k v = .ok l) : storeResult k v w = ({ w with log := l }, .ok ()) :=
  onLog_ok h

theorem storeResult_fail {k : Key} {v : Val (LogVal L) Mx} {w : World L} {x : PyErr}
    (h : w.log.storeResult k v = .error x) : storeResult k v w = (w, .error x) := onLog_error h

theorem onlyStores_storeResult (k : Key) (v : Val (LogVal L) Mx) :
    OnlyStores (storeResult k v) := by
  intro w
  unfold storeResult
  rcases h : w.log.storeResult k v with e | l
  · rw [onLog_error h]
    exact ⟨.refl _, rfl⟩
  · rw [onLog_ok h]
    exact ⟨.step k v (.refl _) h, rfl⟩

theorem onlyStores_each (l : List α) (f : α → M (World L) Unit) (h : ∀ a ∈ l, OnlyStores (f a)) :
    OnlyStores (each l f) := by
  induction l with
  | nil => exact onlyStores_pure ()
  | cons a l ih =>
    unfold each
    exact onlyStores_bind (h a List.mem_cons_self) fun _ =>
      ih fun b hb => h b (List.mem_cons_of_mem _ hb)

/-- The evaluation of `TwoModalitiesExperiment` only stores results. -/
theorem onlyStores_two (X : Ext Λ) (e : Exp) (metrics : List (List ℚ → List ℚ → ℚ))
    (p : Prepared L) (learner : Λ) (data : List Mx) (labels : List ℕ) :
    OnlyStores (evaluateTwo X e metrics p learner data labels) := by
  unfold evaluateTwo
  refine onlyStores_bind (onlyStores_lift _) fun test => onlyStores_bind (onlyStores_lift _) fun ex =>
    onlyStores_each _ _ fun c _ => onlyStores_each _ _ fun ms _ => ?_
  unfold evaluateTwoStep
  exact onlyStores_bind (onlyStores_lift _) fun _ => onlyStores_bind (onlyStores_lift _) fun _ =>
    onlyStores_bind (onlyStores_lift _) fun _ => onlyStores_bind (onlyStores_lift _) fun _ =>
    onlyStores_bind (onlyStores_storeResult _ _) fun _ => onlyStores_storeResult _ _

/-- The evaluation of `ThreeModalitiesExperiment` only stores results. -/
theorem onlyStores_three (X : Ext Λ) (e : Exp) (metrics : List (List ℚ → List ℚ → ℚ))
    (p : Prepared L) (learner : Λ) (data : List Mx) (labels : List ℕ) :
    OnlyStores (evaluateThree X e metrics p learner data labels) := by
  unfold evaluateThree
  refine onlyStores_bind (onlyStores_lift _) fun test => onlyStores_bind (onlyStores_lift _) fun ex =>
    onlyStores_each _ _ fun c _ => onlyStores_each _ _ fun ms _ => ?_
  unfold evaluateThreeStep
  exact onlyStores_bind (onlyStores_lift _) fun _ => onlyStores_bind (onlyStores_lift _) fun _ =>
    onlyStores_bind (onlyStores_lift _) fun _ => onlyStores_bind (onlyStores_lift _) fun _ =>
    onlyStores_storeResult _ _

theorem store_last {l : Log L} {ini : List (Dict Key (Val (LogVal L) Mx))}
    {d : Dict Key (Val (LogVal L) Mx)} (h : l.exps = ini ++ [d]) (k : Key) (v : Val (LogVal L) Mx) :
    (k ∈ dictKeys d → l.store k v = .error .valueError) ∧
    (k ∉ dictKeys d → ∃ l', l.store k v = .ok l' ∧ l'.exps = ini ++ [d ++ [(k, v)]] ∧
      l'.glob = l.glob ∧ l'.filename = l.filename) := by
  unfold Logger.store
  rw [h, List.getLast?_concat]
  constructor
  · intro hk
    rw [← dictGet?_isSome] at hk
    exact if_pos hk
  · intro hk
    have hk' : ¬ (dictGet? d k).isSome = true := by rwa [dictGet?_isSome]
    refine ⟨_, if_neg hk', ?_, rfl, rfl⟩
    show (ini ++ [d]).dropLast ++ [dictSet d k v] = _
    rw [List.dropLast_concat, dictSet_fresh d k v hk]

theorem storeResult_last {l : Log L} {ini : List (Dict Key (Val (LogVal L) Mx))}
    {d : Dict Key (Val (LogVal L) Mx)} (h : l.exps = ini ++ [d]) (k : Key) (v : Val (LogVal L) Mx) :
    (k ∈ dictKeys d → l.storeResult k v = .error .valueError) ∧
    (k ∉ dictKeys d → ∃ l', l.storeResult k v = .ok l' ∧ l'.exps = ini ++ [d ++ [(k, v)]] ∧
      l'.glob = l.glob ∧ l'.filename = l.filename) := by
  obtain ⟨h1, h2⟩ := store_last h k v
  constructor
  · intro hk
    unfold Logger.storeResult
    rw [h1 hk]
    rfl
  · intro hk
    obtain ⟨l', ha, hb, hc, hd⟩ := h2 hk
    unfold Logger.storeResult
    rw [ha]
    exact ⟨_, rfl, hb, hc, hd⟩

theorem Results.last {l l' : Log L} (h : Results l l')
    {ini : List (Dict Key (Val (LogVal L) Mx))} {d : Dict Key (Val (LogVal L) Mx)}
    (hl : l.exps = ini ++ [d]) :
    (∃ r, l'.exps = ini ++ [d ++ r]) ∧ l'.glob = l.glob ∧ l'.filename = l.filename := by
  induction h with
  | refl => exact ⟨⟨[], by rw [hl, List.append_nil]⟩, rfl, rfl⟩
  | step k v _ hs ih =>
    obtain ⟨⟨r, hr⟩, hg, hf⟩ := ih
    obtain ⟨h1, h2⟩ := storeResult_last hr k v
    by_cases hk : k ∈ dictKeys (d ++ r)
    · rw [h1 hk] at hs
      cases hs
    · obtain ⟨l3, ha, hb, hc, hd⟩ := h2 hk
      rw [hs] at ha
      cases ha
      exact ⟨⟨r ++ [(k, v)], by rw [hb, List.append_assoc]⟩, hc.trans hg, hd.trans hf⟩

theorem Results.reach {l l' : Log L} (h : Results l l') (hl : Reach l) : Reach l' := by
  induction h with
  | refl => exact hl
  | step k v _ hs ih => exact .storeResult k v ih hs

theorem dictGet?_append_some {K V : Type} [DecidableEq K] {d e : Dict K V} {k : K} {v : V}
    (h : dictGet? d k = some v) : dictGet? (d ++ e) k = some v := by
  rw [dictGet?_append, h]
  rfl

/-- The record of a run in the log. -/
structure Record (d : Dict Key (Val (LogVal L) Mx)) (s : List ℕ × List ℕ) : Prop where
  train : dictGet? d "train".toList = some (.plain (.idx s.1))
  test : dictGet? d "test".toList = some (.plain (.idx s.2))

/-- What does not change in a run. -/
structure SameGlobal (w w' : World L) : Prop where
  glob : w'.log.glob = w.log.glob
  filename : w'.log.filename = w.log.filename
  fs : w'.fs = w.fs

theorem mapM_no_stop {γ : Type} (f : α → Py γ) (l : List α)
    (h : ∀ x, f x ≠ .error .stopIteration) : l.mapM f ≠ .error .stopIteration := by
  induction l with
  | nil => simp [pure, Except.pure]
  | cons a l ih =>
    rw [List.mapM_cons]
    rcases ha : f a with e | y
    · intro hc
      have : (Except.error e : Py (List γ)) = .error .stopIteration := hc
      cases this
      exact h a ha
    · rcases hb : l.mapM f with e | ys
      · intro hc
        have : (Except.error e : Py (List γ)) = .error .stopIteration := hc
        cases this
        exact ih hb
      · intro hc
        cases hc

theorem pyGet_no_stop (l : List α) (i : ℤ) : pyGet l i ≠ .error .stopIteration := by
  unfold pyGet
  split_ifs
  · simp
  · split <;> simp
  · split <;> simp

theorem takeRows_no_stop (x : Mx) (idx : List ℕ) : takeRows x idx ≠ .error .stopIteration := by
  unfold takeRows
  rcases h : idx.mapM fun (i : ℕ) => pyGet x.rows (i : ℤ) with e | rows
  · intro hc
    have : (Except.error e : Py Mx) = .error .stopIteration := hc
    cases this
    exact mapM_no_stop _ _ (fun i => pyGet_no_stop _ _) h
  · intro hc
    cases hc

/-- One run. -/
theorem performOneRun_spec (X : Ext Λ) (e : Exp) (p : Prepared L) (evaluate : Evaluate L Λ)
    (hev : ∀ learner data labels, OnlyStores (evaluate learner data labels))
    (s : List ℕ × List ℕ) (w : World L) :
    SameGlobal w (performOneRun X e p evaluate s w).1 ∧
    (∃ d, (performOneRun X e p evaluate s w).1.log.exps = w.log.exps ++ [d] ∧ Record d s ∧
      ((performOneRun X e p evaluate s w).2 = .ok () → ∃ data learner,
        (p.data.mapM fun x => takeRows x s.1) = .ok data ∧
        X.train (w.log.exps.length + 1) e.modalities (p.data.map Mx.cols) p.coefs e.k data
          e.iterTrain = .ok learner ∧
        dictGet? d "dictionary".toList = some (.arr (X.dico learner)))) ∧
    (Reach w.log → Reach (performOneRun X e p evaluate s w).1.log) ∧
    ((∀ n ms fs cs k data it, X.train n ms fs cs k data it ≠ .error .stopIteration) →
      (∀ learner data labels w, (evaluate learner data labels w).2 ≠ .error .stopIteration) →
      (performOneRun X e p evaluate s w).2 ≠ .error .stopIteration) := by
  -- new run, training set and test set
  set w1 : World L := { w with log := w.log.newRun } with hw1
  have he1 : w1.log.exps = w.log.exps ++ [[]] := rfl
  obtain ⟨l2, hs2, hx2, hg2, hf2⟩ := (store_last he1 "train".toList (.plain (.idx s.1))).2
    (by simp [dictKeys])
  obtain ⟨l3, hs3, hx3, hg3, hf3⟩ := (store_last hx2 "test".toList (.plain (.idx s.2))).2
    (by simp [dictKeys])
  set w3 : World L := { w with log := l3 } with hw3
  have hrun : ∃ m : M (World L) Unit, performOneRun X e p evaluate s w = m w3 ∧
      m = (do
        let dataTrain ← lift (p.data.mapM fun x => takeRows x s.1)
        let dataTest ← lift (p.data.mapM fun x => takeRows x s.2)
        let testLabels ← lift (s.2.mapM fun (t : ℕ) => pyGet p.labels (t : ℤ))
        let learner ← trainNew X e p dataTrain
        store "dictionary".toList (.arr (X.dico learner))
        evaluate learner dataTest testLabels) := by
    refine ⟨_, ?_, rfl⟩
    unfold performOneRun
    rw [bind_ok (by rfl : newRun w = (w1, .ok ()))]
    rw [bind_ok (s' := { w with log := l2 }) (a := ()) (store_run (w := w1) hs2),
      bind_ok (s' := w3) (a := ()) (store_run (w := { w with log := l2 }) hs3)]
  obtain ⟨m, hm, hmdef⟩ := hrun
  rw [hm, hmdef]
  clear hm hmdef m
  have hrec : Record ([] ++ [("train".toList, Val.plain (LogVal.idx s.1))] ++
      [("test".toList, (Val.plain (LogVal.idx s.2) : Val (LogVal L) Mx))]) s := by
    constructor
    · rfl
    · rfl
  have hsame : SameGlobal w w3 := ⟨by rw [← hw3] at *; exact hg3.trans hg2, hf3.trans hf2, rfl⟩
  have hreach3 : Reach w.log → Reach w3.log := fun h => .store _ _ (.store _ _ (.newRun h) hs2) hs3
  have stop : ∀ x : PyErr, x ≠ .stopIteration →
      SameGlobal w w3 ∧ (∃ d, w3.log.exps = w.log.exps ++ [d] ∧ Record d s ∧
        ((Except.error x : Py Unit) = .ok () → ∃ data learner,
        (p.data.mapM fun x => takeRows x s.1) = .ok data ∧
        X.train (w.log.exps.length + 1) e.modalities (p.data.map Mx.cols) p.coefs e.k data
          e.iterTrain = .ok learner ∧
        dictGet? d "dictionary".toList = some (.arr (X.dico learner)))) ∧
      (Reach w.log → Reach w3.log) ∧
      ((∀ n ms fs cs k data it, X.train n ms fs cs k data it ≠ .error .stopIteration) →
      (∀ learner data labels w, (evaluate learner data labels w).2 ≠ .error .stopIteration) →
        (Except.error x : Py Unit) ≠ .error .stopIteration) := by
    intro x hx
    exact ⟨hsame, ⟨_, hx3, hrec, fun h => by cases h⟩, hreach3, fun _ _ h => hx (by cases h; rfl)⟩
  rcases h1 : p.data.mapM (fun x => takeRows x s.1) with x | dataTrain
  · rw [lift_error rfl]
    rw [h1] at stop
    refine stop x ?_
    rintro rfl
    exact mapM_no_stop _ _ (fun y => takeRows_no_stop y _) h1
  rw [lift_ok rfl]
  rw [h1] at stop
  rcases h2 : p.data.mapM (fun x => takeRows x s.2) with x | dataTest
  · rw [lift_error rfl]
    refine stop x ?_
    rintro rfl
    exact mapM_no_stop _ _ (fun y => takeRows_no_stop y _) h2
  rw [lift_ok rfl]
  rcases h3 : s.2.mapM (fun (t : ℕ) => pyGet p.labels (t : ℤ)) with x | testLabels
  · rw [lift_error rfl]
    refine stop x ?_
    rintro rfl
    exact mapM_no_stop _ _ (fun y => pyGet_no_stop _ _) h3
  rw [lift_ok rfl]
  have hlen3 : w3.log.exps.length = w.log.exps.length + 1 := by
    show l3.exps.length = _
    rw [hx3]
    simp
  rcases h4 : X.train w3.log.exps.length e.modalities (p.data.map Mx.cols) p.coefs e.k dataTrain
    e.iterTrain with x | learner
  · rw [bind_error (s' := w3) (e := x) (by unfold trainNew; rw [h4])]
    by_cases hx : x = .stopIteration
    · subst hx
      exact ⟨hsame, ⟨_, hx3, hrec, fun h => by cases h⟩, hreach3,
        fun hno _ _ => hno _ _ _ _ _ _ _ h4⟩
    · exact stop x hx
  rw [bind_ok (s' := w3) (a := learner) (by unfold trainNew; rw [h4])]
  obtain ⟨l5, hs5, hx5, hg5, hf5⟩ := (store_last hx3 "dictionary".toList (.arr (X.dico learner))).2
    (by simp [dictKeys])
  rw [bind_ok (s' := { w with log := l5 }) (a := ()) (store_run (w := w3) hs5)]
  obtain ⟨hres, hfs⟩ := hev learner dataTest testLabels { w with log := l5 }
  obtain ⟨⟨r, hr⟩, hg, hf⟩ := hres.last hx5
  refine ⟨⟨?_, ?_, hfs⟩, ⟨_, hr, ?_, ?_⟩, ?_, ?_⟩
  · rw [hg]
    exact (hg5.trans hg3).trans hg2
  · rw [hf]
    exact (hf5.trans hf3).trans hf2
  · exact ⟨dictGet?_append_some (dictGet?_append_some hrec.train),
      dictGet?_append_some (dictGet?_append_some hrec.test)⟩
  · intro _
    refine ⟨dataTrain, learner, rfl, by rw [← hlen3]; exact h4, dictGet?_append_some ?_⟩
    rfl
  · intro h
    exact hres.reach (.store _ _ (hreach3 h) hs5)
  · intro _ hno
    exact hno _ _ _ _

/-- The loop over the splits. -/
theorem each_runs (X : Ext Λ) (e : Exp) (p : Prepared L) (evaluate : Evaluate L Λ)
    (hev : ∀ learner data labels, OnlyStores (evaluate learner data labels))
    (hno : ∀ n ms fs cs k data it, X.train n ms fs cs k data it ≠ .error .stopIteration)
    (hno' : ∀ learner data labels w, (evaluate learner data labels w).2 ≠ .error .stopIteration)
    (splits : List (List ℕ × List ℕ)) (w : World L) :
    ∃ w' r ds, each splits (performOneRun X e p evaluate) w = (w', r) ∧
      SameGlobal w w' ∧ w'.log.exps = w.log.exps ++ ds ∧ (Reach w.log → Reach w'.log) ∧
      r ≠ .error .stopIteration ∧
      (r = .ok () → ds.length = splits.length) ∧
      ((∃ x, r = .error x) → 0 < ds.length ∧ ds.length ≤ splits.length) ∧
      (∀ (i : ℕ) (d : Dict Key (Val (LogVal L) Mx)) (s : List ℕ × List ℕ),
        ds[i]? = some d → splits[i]? = some s → Record d s) ∧
      (r = .ok () → ∀ (i : ℕ) (d : Dict Key (Val (LogVal L) Mx)) (s : List ℕ × List ℕ),
        ds[i]? = some d → splits[i]? = some s → ∃ data learner,
        (p.data.mapM fun x => takeRows x s.1) = .ok data ∧
        X.train (w.log.exps.length + i + 1) e.modalities (p.data.map Mx.cols) p.coefs e.k data
          e.iterTrain = .ok learner ∧
        dictGet? d "dictionary".toList = some (.arr (X.dico learner))) := by
  induction splits generalizing w with
  | nil =>
    exact ⟨w, .ok (), [], rfl, ⟨rfl, rfl, rfl⟩, by simp, id, by simp, by simp, by simp, by simp,
      by simp⟩
  | cons s splits ih =>
    obtain ⟨hsame, ⟨d, hd, hrec, hdict⟩, hreach, hns⟩ := performOneRun_spec X e p evaluate hev s w
    have hns := hns hno hno'
    rcases hrun : performOneRun X e p evaluate s w with ⟨w1, r1⟩
    rw [hrun] at hsame hd hreach hns hdict
    simp only [] at hsame hd hreach hns hdict
    rcases r1 with x | u
    · refine ⟨w1, .error x, [d], ?_, hsame, hd, hreach, ?_, ?_, ?_, ?_, ?_⟩
      · unfold each
        rw [bind_error hrun]
      · intro h
        cases h
        exact hns rfl
      · intro h
        cases h
      · intro _
        simp
      · intro i d' s' hi hs
        cases i with
        | zero =>
          simp only [List.getElem?_cons_zero, Option.some.injEq] at hi hs
          subst hi hs
          exact hrec
        | succ i => simp at hi
      · intro h
        cases h
    · obtain ⟨w2, r, ds, h1, h2, h3, h4, h5, h6, h7, h8, h9⟩ := ih w1
      refine ⟨w2, r, d :: ds, ?_, ⟨h2.glob.trans hsame.glob, h2.filename.trans hsame.filename,
        h2.fs.trans hsame.fs⟩, ?_, fun h => h4 (hreach h), h5, ?_, ?_, ?_, ?_⟩
      · unfold each
        rw [bind_ok hrun, h1]
      · rw [h3, hd, List.append_assoc]
        rfl
      · intro h
        rw [List.length_cons, List.length_cons, h6 h]
      · intro h
        have := h7 h
        simp only [List.length_cons]
        omega
      · intro i d' s' hi hs
        cases i with
        | zero =>
          simp only [List.getElem?_cons_zero, Option.some.injEq] at hi hs
          subst hi hs
          exact hrec
        | succ i =>
          simp only [List.getElem?_cons_succ] at hi hs
          exact h8 i d' s' hi hs
      · intro hr i d' s' hi hs
        cases i with
        | zero =>
          simp only [List.getElem?_cons_zero, Option.some.injEq] at hi hs
          subst hi hs
          exact hdict rfl
        | succ i =>
          simp only [List.getElem?_cons_succ] at hi hs
          have := h9 hr i d' s' hi hs
          rw [hd, List.length_append, List.length_singleton] at this
          rwa [show w.log.exps.length + (i + 1) + 1 = w.log.exps.length + 1 + i + 1 by omega]

end Verif.Experiment
