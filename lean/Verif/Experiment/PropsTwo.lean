import Verif.Experiment.Keys

/-!
# Results of `TwoModalitiesExperiment` (C89)
-/

namespace Verif.Experiment

open Verif Verif.Logger

variable {σ α β L Λ : Type}

/-! ### Storing several results -/

/-- Storing results one after the other. -/
def storeAll (kvs : List (Key × Val (LogVal L) Mx)) : M (World L) Unit :=
  each kvs fun kv => storeResult kv.1 kv.2

theorem storeAll_ok (kvs : List (Key × Val (LogVal L) Mx)) (w : World L)
    (ini : List (Dict Key (Val (LogVal L) Mx))) (d : Dict Key (Val (LogVal L) Mx))
    (h : w.log.exps = ini ++ [d]) (hn : (dictKeys d ++ kvs.map Prod.fst).Nodup) :
    ∃ l', storeAll kvs w = ({ w with log := l' }, .ok ()) ∧ l'.exps = ini ++ [d ++ kvs] := by
  induction kvs generalizing w d with
  | nil => exact ⟨w.log, rfl, by rw [h, List.append_nil]⟩
  | cons kv kvs ih =>
    obtain ⟨k, v⟩ := kv
    have hk : k ∉ dictKeys d := by
      intro hk
      rw [List.map_cons, List.nodup_append] at hn
      exact hn.2.2 k hk k List.mem_cons_self rfl
    obtain ⟨l1, h1, h2, _, _⟩ := (storeResult_last h k v).2 hk
    have hn' : (dictKeys (d ++ [(k, v)]) ++ kvs.map Prod.fst).Nodup := by
      simpa [dictKeys] using hn
    obtain ⟨l', h3, h4⟩ := ih { w with log := l1 } (d ++ [(k, v)]) h2 hn'
    refine ⟨l', ?_, by rw [h4]; simp⟩
    unfold storeAll at h3 ⊢
    unfold each
    rw [bind_ok (storeResult_run h1), h3]

theorem storeAll_error (kvs : List (Key × Val (LogVal L) Mx)) (w : World L)
    (ini : List (Dict Key (Val (LogVal L) Mx))) (d : Dict Key (Val (LogVal L) Mx))
    (h : w.log.exps = ini ++ [d]) (hd : (dictKeys d).Nodup)
    (hn : ¬ (dictKeys d ++ kvs.map Prod.fst).Nodup) :
    (storeAll kvs w).2 = .error .valueError := by
  induction kvs generalizing w d with
  | nil => exact absurd (by simpa using hd) hn
  | cons kv kvs ih =>
    obtain ⟨k, v⟩ := kv
    unfold storeAll each
    by_cases hk : k ∈ dictKeys d
    · rw [bind_error (storeResult_fail ((storeResult_last h k v).1 hk))]
    · obtain ⟨l1, h1, h2, _, _⟩ := (storeResult_last h k v).2 hk
      rw [bind_ok (storeResult_run h1)]
      refine ih { w with log := l1 } (d ++ [(k, v)]) h2 ?_ ?_
      · rw [show dictKeys (d ++ [(k, v)]) = dictKeys d ++ [k] by simp [dictKeys]]
        rw [List.nodup_append]
        refine ⟨hd, by simp, ?_⟩
        intro a ha b hb
        rw [List.mem_singleton] at hb
        rintro rfl
        exact hk (hb ▸ ha)
      · intro hc
        exact hn (by simpa [dictKeys] using hc)

theorem each_append (l l' : List α) (f : α → M σ Unit) (s : σ) :
    each (l ++ l') f s = (each l f >>= fun _ => each l' f) s := by
  induction l generalizing s with
  | nil => rfl
  | cons a l ih =>
    rw [List.cons_append]
    unfold each
    rcases h : f a s with ⟨s', x | u⟩
    · rw [bind_error h, bind_error]
      rw [bind_error h]
    · rw [bind_ok h, ih]
      rcases h' : each l f s' with ⟨s2, x | u⟩
      · rw [bind_error h', bind_error (by rw [bind_ok h, h'])]
      · rw [bind_ok h', bind_ok (by rw [bind_ok h, h'])]
        cases l' <;> rfl

theorem each_storeAll (l : List α) (f : α → M (World L) Unit)
    (g : α → List (Key × Val (LogVal L) Mx)) (h : ∀ a ∈ l, ∀ w, f a w = storeAll (g a) w)
    (w : World L) : each l f w = storeAll (l.flatMap g) w := by
  induction l generalizing w with
  | nil => rfl
  | cons a l ih =>
    unfold storeAll
    rw [List.flatMap_cons, each_append, show each (a :: l) f = (f a >>= fun _ => each l f) from rfl]
    have ha := h a List.mem_cons_self w
    unfold storeAll at ha
    have ih := ih fun b hb => h b (List.mem_cons_of_mem _ hb)
    rcases hf : each (g a) (fun kv : Key × Val (LogVal L) Mx => storeResult kv.1 kv.2) w with ⟨w', x | u⟩
    · rw [bind_error (ha.trans hf), bind_error hf]
    · rw [bind_ok (ha.trans hf), bind_ok hf]
      exact ih w'

/-- When `m` succeeds, it has added the keys `ks` to the last run. -/
def Adds (m : M (World L) α) (ks : List Key) : Prop :=
  ∀ w w' a, m w = (w', .ok a) → ∀ ini d, w.log.exps = ini ++ [d] → (dictKeys d).Nodup →
    ∃ kvs, kvs.map Prod.fst = ks ∧ w'.log.exps = ini ++ [d ++ kvs] ∧ (dictKeys (d ++ kvs)).Nodup

theorem adds_lift {x : Py α} {f : α → M (World L) β} {ks : List Key}
    (h : ∀ a, x = .ok a → Adds (f a) ks) : Adds (lift x >>= f) ks := by
  intro w w' b hm
  rw [bind_eq_ok] at hm
  obtain ⟨s, a, h1, h2⟩ := hm
  obtain ⟨rfl, ha⟩ := Prod.mk.inj h1
  exact h a ha _ w' b h2

theorem adds_bind {m : M (World L) α} {m' : M (World L) β} {ks ks' : List Key} (h : Adds m ks)
    (h' : Adds m' ks') : Adds (m >>= fun _ => m') (ks ++ ks') := by
  intro w w' b hm ini d hw hd
  rw [bind_eq_ok] at hm
  obtain ⟨s, a, h1, h2⟩ := hm
  obtain ⟨kvs, e1, e2, e3⟩ := h w s a h1 ini d hw hd
  obtain ⟨kvs', e4, e5, e6⟩ := h' s w' b h2 ini _ e2 e3
  exact ⟨kvs ++ kvs', by rw [List.map_append, e1, e4], by rw [e5, List.append_assoc],
    by rwa [← List.append_assoc]⟩

theorem adds_storeResult (k : Key) (v : Val (LogVal L) Mx) : Adds (storeResult k v) [k] := by
  intro w w' a hm ini d hw hd
  by_cases hk : k ∈ dictKeys d
  · rw [storeResult_fail ((storeResult_last hw k v).1 hk)] at hm
    cases hm
  · obtain ⟨l1, h1, h2, _, _⟩ := (storeResult_last hw k v).2 hk
    rw [storeResult_run h1] at hm
    cases hm
    refine ⟨[(k, v)], rfl, h2, ?_⟩
    rw [show dictKeys (d ++ [(k, v)]) = dictKeys d ++ [k] by simp [dictKeys], List.nodup_append]
    refine ⟨hd, by simp, ?_⟩
    intro a ha b hb
    rw [List.mem_singleton] at hb
    rintro rfl
    exact hk (hb ▸ ha)

theorem adds_each (l : List α) (f : α → M (World L) Unit) (g : α → List Key)
    (h : ∀ a ∈ l, Adds (f a) (g a)) : Adds (each l f) (l.flatMap g) := by
  induction l with
  | nil =>
    intro w w' a hm ini d hw hd
    cases hm
    exact ⟨[], rfl, by rw [hw, List.append_nil], by simpa using hd⟩
  | cons a l ih =>
    unfold each
    rw [List.flatMap_cons]
    exact adds_bind (h a List.mem_cons_self) (ih fun b hb => h b (List.mem_cons_of_mem _ hb))

/-- Code which does not raise `StopIteration`. -/
def NoStop (m : M σ α) : Prop := ∀ s, (m s).2 ≠ .error .stopIteration

theorem noStop_bind {m : M σ α} {f : α → M σ β} (h : NoStop m) (h' : ∀ a, NoStop (f a)) :
    NoStop (m >>= f) := by
  intro s
  rcases hm : m s with ⟨s', x | a⟩
  · rw [bind_error hm]
    have := h s
    rw [hm] at this
    intro hc
    cases hc
    exact this rfl
  · rw [bind_ok hm]
    exact h' a s'

theorem noStop_lift {x : Py α} (h : x ≠ .error .stopIteration) : NoStop (lift x : M σ α) :=
  fun _ => h

theorem noStop_each (l : List α) (f : α → M σ Unit) (h : ∀ a ∈ l, NoStop (f a)) :
    NoStop (each l f) := by
  induction l with
  | nil => intro s hc; cases hc
  | cons a l ih =>
    unfold each
    exact noStop_bind (h a List.mem_cons_self) fun _ => ih fun b hb => h b (List.mem_cons_of_mem _ hb)

theorem pyBind_no_stop {x : Py α} {f : α → Py β} (h : x ≠ .error .stopIteration)
    (h' : ∀ a, f a ≠ .error .stopIteration) : (x >>= f) ≠ .error .stopIteration := by
  rcases x with e | a
  · intro hc
    have : (Except.error e : Py β) = .error .stopIteration := hc
    cases this
    exact h rfl
  · exact h' a

theorem storeResult_no_stop (k : Key) (v : Val (LogVal L) Mx) : NoStop (storeResult k v) := by
  intro w
  have key : ∀ (l : Log L), l.storeResult k v ≠ .error .stopIteration := by
    intro l
    unfold Logger.storeResult Logger.store
    rcases l.exps.getLast? with _ | d
    · intro hc; cases hc
    · intro hc
      by_cases hk : (dictGet? d k).isSome = true
      · simp only [hk, if_true] at hc
        cases hc
      · simp only [hk] at hc
        cases hc
  rcases h : w.log.storeResult k v with x | l
  · rw [storeResult_fail h]
    intro hc
    cases hc
    exact key _ h
  · rw [storeResult_run h]
    intro hc
    cases hc

theorem classify_no_stop (reco ex : List (List ℚ)) (labels : List ℕ)
    (measure : List ℚ → List ℚ → ℚ) :
    Evaluation.classifyNN reco ex labels measure ≠ .error .stopIteration := by
  unfold Evaluation.classifyNN Evaluation.distsToFoundLabels
  refine pyBind_no_stop ?_ fun a => mapM_no_stop _ _ fun i => ?_
  · unfold Evaluation.argMinRows
    split_ifs
    · simp
    · refine mapM_no_stop _ _ fun r => ?_
      unfold Evaluation.argMin
      split <;> simp
  · first
    | exact pyGet_no_stop _ _
    | (split <;> simp)

/-- The learner raises no `StopIteration`. -/
structure Ext.NoStop (X : Ext Λ) : Prop where
  train : ∀ n ms fs cs k data it, X.train n ms fs cs k data it ≠ .error .stopIteration
  internal : ∀ l ms xs it, X.internal l ms xs it ≠ .error .stopIteration
  reconstruct : ∀ l m i, X.reconstruct l m i ≠ .error .stopIteration

theorem allTransformations_no_stop (X : Ext Λ) (hX : X.NoStop) (e : Exp) (learner : Λ)
    (data : List Mx) : allTransformations X e learner data ≠ .error .stopIteration := by
  unfold allTransformations allInternals transformRow
  refine pyBind_no_stop (mapM_no_stop _ _ fun xi => pyBind_no_stop (pyGet_no_stop _ _) fun m =>
    hX.internal _ _ _ _) fun internals => mapM_no_stop _ _ fun i =>
    pyBind_no_stop (pyGet_no_stop _ _) fun x => pyBind_no_stop (mapM_no_stop _ _ fun o => ?_) fun row =>
    pyBind_no_stop (pyGet_no_stop _ _) fun i => ?_
  · split_ifs
    · simp
    · exact pyBind_no_stop (pyGet_no_stop _ _) fun m => pyBind_no_stop (pyGet_no_stop _ _) fun i =>
        hX.reconstruct _ _ _
  · intro hc
    cases hc

/-- The evaluation of `TwoModalitiesExperiment` raises no `StopIteration` (used in C88). -/
theorem two_no_stop (X : Ext Λ) (hX : X.NoStop) (e : Exp) (metrics : List (List ℚ → List ℚ → ℚ))
    (p : Prepared L) (learner : Λ) (data : List Mx) (labels : List ℕ) :
    NoStop (evaluateTwo X e metrics p learner data labels) := by
  unfold evaluateTwo
  refine noStop_bind (noStop_lift (allTransformations_no_stop X hX e learner data)) fun test =>
    noStop_bind (noStop_lift (allTransformations_no_stop X hX e learner _)) fun ex =>
    noStop_each _ _ fun c _ => noStop_each _ _ fun ms _ => ?_
  unfold evaluateTwoStep get2
  refine noStop_bind (noStop_lift (pyBind_no_stop (pyGet_no_stop _ _) fun _ => pyGet_no_stop _ _))
    fun t => noStop_bind (noStop_lift (pyBind_no_stop (pyGet_no_stop _ _) fun _ => pyGet_no_stop _ _))
    fun x => noStop_bind (noStop_lift (classify_no_stop _ _ _ _)) fun found =>
    noStop_bind (noStop_lift ?_) fun key =>
    noStop_bind (storeResult_no_stop _ _) fun _ => storeResult_no_stop _ _
  unfold expKey expCmp
  refine pyBind_no_stop (pyGet_no_stop _ _) fun _ => pyBind_no_stop (pyGet_no_stop _ _) fun _ =>
    pyBind_no_stop ?_ fun _ => ?_
  · split_ifs
    · simp
    · exact pyBind_no_stop (pyGet_no_stop _ _) fun _ => fun hc => (by cases hc)
  · intro hc
    cases hc

end Verif.Experiment
