import Verif.Experiment.PropsComplete

/-!
# Logs of experiments which completed (C182)
-/

namespace Verif.Experiment

open Verif Verif.Logger

variable {σ α β L Λ : Type}

/-! ### Results with a property -/

/-- When `m` succeeds, it has added the keys `ks` to the last run, with values which satisfy `g`. -/
def AddsP (g : Key → Val (LogVal L) Mx → Prop) (m : M (World L) α) (ks : List Key) : Prop :=
  ∀ w w' a, m w = (w', .ok a) → ∀ ini d, w.log.exps = ini ++ [d] → (dictKeys d).Nodup →
    ∃ kvs, kvs.map Prod.fst = ks ∧ w'.log.exps = ini ++ [d ++ kvs] ∧ (dictKeys (d ++ kvs)).Nodup ∧
      ∀ kv ∈ kvs, g kv.1 kv.2

variable {g : Key → Val (LogVal L) Mx → Prop}

theorem addsP_lift {x : Py α} {f : α → M (World L) β} {ks : List Key}
    (h : ∀ a, x = .ok a → AddsP g (f a) ks) : AddsP g (lift x >>= f) ks := by
  intro w w' b hm
  rw [bind_eq_ok] at hm
  obtain ⟨s, a, h1, h2⟩ := hm
  obtain ⟨rfl, ha⟩ := Prod.mk.inj h1
  exact h a ha _ w' b h2

theorem addsP_bind {m : M (World L) α} {m' : M (World L) β} {ks ks' : List Key} (h : AddsP g m ks)
    (h' : AddsP g m' ks') : AddsP g (m >>= fun _ => m') (ks ++ ks') := by
  intro w w' b hm ini d hw hd
  rw [bind_eq_ok] at hm
  obtain ⟨s, a, h1, h2⟩ := hm
  obtain ⟨kvs, e1, e2, e3, e7⟩ := h w s a h1 ini d hw hd
  obtain ⟨kvs', e4, e5, e6, e8⟩ := h' s w' b h2 ini _ e2 e3
  refine ⟨kvs ++ kvs', by rw [List.map_append, e1, e4], by rw [e5, List.append_assoc],
    by rwa [← List.append_assoc], fun kv hkv => ?_⟩
  rcases List.mem_append.1 hkv with h | h
  · exact e7 kv h
  · exact e8 kv h

theorem addsP_storeResult (k : Key) (v : Val (LogVal L) Mx) (hg : g k v) : AddsP g (storeResult k v) [k] := by
  intro w w' a hm ini d hw hd
  by_cases hk : k ∈ dictKeys d
  · rw [storeResult_fail ((storeResult_last hw k v).1 hk)] at hm
    cases hm
  · obtain ⟨l1, h1, h2, _, _⟩ := (storeResult_last hw k v).2 hk
    rw [storeResult_run h1] at hm
    cases hm
    refine ⟨[(k, v)], rfl, h2, ?_, by simpa using hg⟩
    rw [show dictKeys (d ++ [(k, v)]) = dictKeys d ++ [k] by simp [dictKeys], List.nodup_append]
    refine ⟨hd, by simp, ?_⟩
    intro a ha b hb
    rw [List.mem_singleton] at hb
    rintro rfl
    exact hk (hb ▸ ha)

theorem addsP_each (l : List α) (f : α → M (World L) Unit) (ks : α → List Key)
    (h : ∀ a ∈ l, AddsP g (f a) (ks a)) : AddsP g (each l f) (l.flatMap ks) := by
  induction l with
  | nil =>
    intro w w' a hm ini d hw hd
    cases hm
    exact ⟨[], rfl, by rw [hw, List.append_nil], by simpa using hd, by simp⟩
  | cons a l ih =>
    unfold each
    rw [List.flatMap_cons]
    exact addsP_bind (h a List.mem_cons_self) (ih fun b hb => h b (List.mem_cons_of_mem _ hb))

/-! ### Numbers of rows -/

/-- The learner keeps the number of samples. -/
structure Ext.KeepsRows (X : Ext Λ) : Prop where
  internal : ∀ l ms xs it y n, X.internal l ms xs it = .ok y → xs ≠ [] → (∀ x ∈ xs, x.rows.length = n) →
    y.rows.length = n
  reconstruct : ∀ l m x y, X.reconstruct l m x = .ok y → y.rows.length = x.rows.length

theorem pyGet_mem {l : List α} {i : ℤ} {x : α} (h : pyGet l i = .ok x) : x ∈ l := by
  unfold pyGet at h
  split_ifs at h
  · rcases hx : l[(i + l.length).toNat]? with _ | y
    · rw [hx] at h; cases h
    · rw [hx] at h; cases h; exact List.mem_of_getElem? hx
  · rcases hx : l[i.toNat]? with _ | y
    · rw [hx] at h; cases h
    · rw [hx] at h; cases h; exact List.mem_of_getElem? hx

theorem mapM_mem {f : α → Py β} {l : List α} {r : List β} (h : l.mapM f = .ok r) {y : β} (hy : y ∈ r) :
    ∃ x ∈ l, f x = .ok y := by
  have h2 := Objects.mapM_py_ok.1 h
  clear h
  induction h2 with
  | nil => cases hy
  | cons hab _ ih =>
    rcases List.mem_cons.1 hy with rfl | hy
    · exact ⟨_, List.mem_cons_self, hab⟩
    · obtain ⟨x, hx, hf⟩ := ih hy
      exact ⟨x, List.mem_cons_of_mem _ hx, hf⟩

theorem allTransformations_rows {X : Ext Λ} (hX : X.KeepsRows) {e : Exp} {learner : Λ} {data : List Mx}
    {T : List (List Mx)} {n : ℕ} (h : allTransformations X e learner data = .ok T)
    (hn : ∀ x ∈ data, x.rows.length = n) {i j : ℤ} {t : Mx} (ht : get2 T i j = .ok t) : t.rows.length = n := by
  unfold allTransformations at h
  rw [pyBind_eq_ok] at h
  obtain ⟨I, h1, h2⟩ := h
  unfold get2 at ht
  rw [pyBind_eq_ok] at ht
  obtain ⟨row, h3, h4⟩ := ht
  have hI : ∀ y ∈ I, y.rows.length = n := by
    intro y hy
    unfold allInternals at h1
    obtain ⟨xi, hxi, hf⟩ := mapM_mem h1 hy
    rw [pyBind_eq_ok] at hf
    obtain ⟨m, -, hf⟩ := hf
    refine hX.internal _ _ _ _ _ n hf (by simp) fun x hx => ?_
    rw [List.mem_singleton] at hx
    subst hx
    exact hn _ (List.mem_of_getElem? (List.mem_zipIdx_iff_getElem?.1 hxi))
  obtain ⟨a, -, hrow⟩ := mapM_mem h2 (pyGet_mem h3)
  unfold transformRow at hrow
  rw [pyBind_eq_ok] at hrow
  obtain ⟨x, hx, hrow⟩ := hrow
  rw [pyBind_eq_ok] at hrow
  obtain ⟨r, hr, hrow⟩ := hrow
  rw [pyBind_eq_ok] at hrow
  obtain ⟨i', hi', hrow⟩ := hrow
  have e := Except.ok.inj hrow
  subst e
  rcases List.mem_append.1 (pyGet_mem h4) with hm | hm
  · obtain ⟨b, -, hb⟩ := mapM_mem hr hm
    split_ifs at hb
    · cases hb
      exact hn _ (pyGet_mem hx)
    · rw [pyBind_eq_ok] at hb
      obtain ⟨m, -, hb⟩ := hb
      rw [pyBind_eq_ok] at hb
      obtain ⟨z, hz, hb⟩ := hb
      rw [hX.reconstruct _ _ _ _ hb]
      exact hI _ (pyGet_mem hz)
  · rw [List.mem_singleton] at hm
    subst hm
    exact hI _ (pyGet_mem hi')

theorem allInternals3_rows {X : Ext Λ} (hX : X.KeepsRows) {e : Exp} (h2 : 2 ≤ e.modalities.length) {learner : Λ}
    {data : List Mx} {T : Dict (List ℕ) Mx} {n : ℕ} (h : allInternals3 X e learner data = .ok T)
    (hn : ∀ x ∈ data, x.rows.length = n) {mods : List ℕ} {t : Mx} (ht : getInternal T mods = .ok t) :
    t.rows.length = n := by
  have key : ∀ (l : List (List ℕ × List ℕ)) (d d' : Dict (List ℕ) Mx), (∀ c ∈ l, c.1 ≠ []) →
      (∀ k y, dictGet? d k = some y → y.rows.length = n) → l.foldlM (addInternal X e learner data) d = .ok d' →
      ∀ k y, dictGet? d' k = some y → y.rows.length = n := by
    intro l
    induction l with
    | nil =>
      intro d d' _ hd hf
      cases hf
      exact hd
    | cons c l ih =>
      intro d d' hl hd hf
      rw [List.foldlM_cons, pyBind_eq_ok] at hf
      obtain ⟨d1, h1, hf⟩ := hf
      refine ih d1 d' (fun c' hc' => hl c' (List.mem_cons_of_mem _ hc')) ?_ hf
      unfold addInternal at h1
      split_ifs at h1
      · cases h1
        exact hd
      · rw [pyBind_eq_ok] at h1
        obtain ⟨ms, -, h1⟩ := h1
        rw [pyBind_eq_ok] at h1
        obtain ⟨xs, hxs, h1⟩ := h1
        rw [pyBind_eq_ok] at h1
        obtain ⟨z, hz, h1⟩ := h1
        have e1 := Except.ok.inj h1
        subst e1
        intro k y hy
        rw [dictGet?_set] at hy
        split_ifs at hy
        · cases hy
          refine hX.internal _ _ _ _ _ n hz ?_ fun x hx => ?_
          · intro h0
            have := (Objects.mapM_py_ok.1 hxs).length_eq
            rw [h0, List.length_nil, List.length_eq_zero_iff] at this
            exact hl c List.mem_cons_self this
          · obtain ⟨a, -, ha⟩ := mapM_mem hxs hx
            exact hn _ (pyGet_mem ha)
        · exact hd k y hy
  unfold getInternal at ht
  rcases hg : dictGet? T mods with _ | y
  · rw [hg] at ht; cases ht
  · rw [hg] at ht
    cases ht
    exact key _ [] T (fun c hc => tested_ne_nil h2 hc) (by simp [dictGet?]) h mods _ hg

theorem classify_length {reco ex : List (List ℚ)} {labels found : List ℕ} {m : List ℚ → List ℚ → ℚ}
    (h : Evaluation.classifyNN reco ex labels m = .ok found) : found.length = reco.length := by
  unfold Evaluation.classifyNN Evaluation.distsToFoundLabels at h
  rw [pyBind_eq_ok] at h
  obtain ⟨ms, h1, h2⟩ := h
  unfold Evaluation.argMinRows at h1
  split_ifs at h1
  have l1 := (Objects.mapM_py_ok.1 h1).length_eq
  have l2 := (Objects.mapM_py_ok.1 h2).length_eq
  rw [← l2, ← l1]
  unfold Evaluation.allDistances
  rw [List.length_map]

theorem score_some {labels found : List ℕ} (h1 : found.length = labels.length) (h2 : 0 < labels.length) :
    ∃ s, Evaluation.foundLabelsToScore labels found = some s := by
  unfold Evaluation.foundLabelsToScore Evaluation.average
  rw [if_neg]
  · exact ⟨_, rfl⟩
  · intro h
    have := congrArg List.length h
    rw [List.length_map, List.length_zip, List.length_nil] at this
    omega

/-! ### Evaluations which succeed -/

/-- A value which is a score. -/
def IsScore (v : Val (LogVal L) Mx) : Prop := ∃ s : ℚ, v = .plain (.score (some s))

theorem addsP_two {X : Ext Λ} (hX : X.KeepsRows) (e : Exp) (metrics : List (List ℚ → List ℚ → ℚ)) (p : Prepared L)
    (learner : Λ) (data : List Mx) (labels : List ℕ) (hl : ∀ x ∈ data, x.rows.length = labels.length)
    (h0 : 0 < labels.length) :
    AddsP (fun k v => ("score_".toList <+: k → IsScore v)) (evaluateTwo X e metrics p learner data labels)
      (keysTwo e.modalities metrics) := by
  unfold evaluateTwo
  refine addsP_lift fun T hT => addsP_lift fun E hE => addsP_each _ _ _ fun c hc =>
    addsP_each _ _ _ fun ms hms => ?_
  unfold evaluateTwoStep
  obtain ⟨g1, g2, g3⟩ := mem_toTest.1 hc
  refine addsP_lift fun t ht => addsP_lift fun x _ => addsP_lift fun found hf => addsP_lift fun key hkey => ?_
  rw [expKey_ok e _ _ _ _ g1 g2 g3] at hkey
  cases hkey
  refine addsP_bind (addsP_storeResult _ _ ?_) (addsP_storeResult _ _ ?_)
  · rintro ⟨k, hk⟩
    exact absurd hk.symm (found_ne_score _ _)
  · intro _
    obtain ⟨s, hs⟩ := score_some ((classify_length hf).trans (allTransformations_rows hX hT hl ht)) h0
    exact ⟨s, by rw [hs]⟩

theorem addsP_three {X : Ext Λ} (hX : X.KeepsRows) (e : Exp) (h2 : 2 ≤ e.modalities.length)
    (metrics : List (List ℚ → List ℚ → ℚ)) (p : Prepared L)
    (learner : Λ) (data : List Mx) (labels : List ℕ) (hl : ∀ x ∈ data, x.rows.length = labels.length)
    (h0 : 0 < labels.length) :
    AddsP (fun k v => ("score_".toList <+: k → IsScore v)) (evaluateThree X e metrics p learner data labels)
      (keysThree e.modalities metrics) := by
  unfold evaluateThree
  refine addsP_lift fun T hT => addsP_lift fun E hE => addsP_each _ _ _ fun c hc =>
    addsP_each _ _ _ fun ms hms => ?_
  unfold evaluateThreeStep
  refine addsP_lift fun t ht => addsP_lift fun x _ => addsP_lift fun found hf => addsP_lift fun key hkey => ?_
  rw [scoreKey3_ok e c _ hc] at hkey
  cases hkey
  refine addsP_storeResult _ _ fun _ => ?_
  obtain ⟨s, hs⟩ := score_some ((classify_length hf).trans (allInternals3_rows hX h2 hT hl ht)) h0
  exact ⟨s, by rw [hs]⟩

/-! ### Runs which succeed -/

/-- The keys of a run before its evaluation. -/
def FIRST_KEYS : List Key := ["train".toList, "test".toList, "dictionary".toList]

theorem performOneRun_keys (X : Ext Λ) (e : Exp) (p : Prepared L) (evaluate : Evaluate L Λ) (ks : List Key)
    (s : List ℕ × List ℕ)
    (hadds : ∀ learner data labels, (∀ x ∈ data, x.rows.length = labels.length) → labels.length = s.2.length →
      AddsP g (evaluate learner data labels) ks) (w w' : World L)
    (h : performOneRun X e p evaluate s w = (w', .ok ())) :
    ∃ d kvs, w'.log.exps = w.log.exps ++ [d ++ kvs] ∧ dictKeys d = FIRST_KEYS ∧ kvs.map Prod.fst = ks ∧
      (dictKeys (d ++ kvs)).Nodup ∧ ∀ kv ∈ kvs, g kv.1 kv.2 := by
  set w1 : World L := { w with log := w.log.newRun } with hw1
  have he1 : w1.log.exps = w.log.exps ++ [[]] := rfl
  obtain ⟨l2, hs2, hx2, _⟩ := (store_last he1 "train".toList (.plain (.idx s.1))).2 (by simp [dictKeys])
  obtain ⟨l3, hs3, hx3, _⟩ := (store_last hx2 "test".toList (.plain (.idx s.2))).2 (by simp [dictKeys])
  unfold performOneRun at h
  rw [bind_ok (by rfl : newRun w = (w1, .ok ())),
    bind_ok (s' := { w with log := l2 }) (a := ()) (store_run (w := w1) hs2),
    bind_ok (s' := { w with log := l3 }) (a := ()) (store_run (w := { w with log := l2 }) hs3), bind_eq_ok] at h
  obtain ⟨_, train, h1, h⟩ := h
  rw [lift_eq_ok] at h1
  obtain ⟨rfl, h1⟩ := h1
  rw [bind_eq_ok] at h
  obtain ⟨_, test, h2, h⟩ := h
  rw [lift_eq_ok] at h2
  obtain ⟨rfl, h2⟩ := h2
  rw [bind_eq_ok] at h
  obtain ⟨_, labels, h3, h⟩ := h
  rw [lift_eq_ok] at h3
  obtain ⟨rfl, h3⟩ := h3
  rw [bind_eq_ok] at h
  obtain ⟨w4, learner, h4, h⟩ := h
  obtain ⟨rfl, -⟩ := Prod.mk.inj h4
  obtain ⟨l5, hs5, hx5, _⟩ := (store_last hx3 "dictionary".toList (.arr (X.dico learner))).2 (by simp [dictKeys])
  rw [bind_ok (s' := { w with log := l5 }) (a := ()) (store_run (w := { w with log := l3 }) hs5)] at h
  have hl : labels.length = s.2.length := ((Objects.mapM_py_ok.1 h3).length_eq).symm
  have hrow : ∀ x ∈ test, x.rows.length = labels.length := by
    intro x hx
    obtain ⟨y, -, hy⟩ := mapM_mem h2 hx
    rw [takeRows_ok] at hy
    rw [hy.2.length, hl]
  obtain ⟨kvs, k1, k2, k3, k4⟩ := hadds learner test labels hrow hl _ w' () h _ _ hx5 (by
    simp only [dictKeys, List.nil_append, List.cons_append, List.map_cons, List.map_nil]
    decide)
  exact ⟨_, kvs, k2, by rfl, k1, k3, k4⟩

/-- **C182.** A successful experiment with a single run, which evaluates with the results `ks`: its log has one run
more, with the indices of both sets, the dictionary and these results, and the same file. -/
theorem single_keys [DecidableEq L] (X : Ext Λ) (R : Rand L) (hR : R.OK) (e : Exp)
    (rawLabels : Py (List (List L))) (rawData : Py (List Mx))
    (evaluate : Prepared L → Evaluate L Λ) (start stop : Key) (f : Key) (fs : FS (LogVal L) Mx) (w' : World L)
    (ks : List Key) (hm : e.runMode = .single)
    (hev : ∀ p learner data labels, OnlyStores (evaluate p learner data labels))
    (hno : ∀ n ms fs cs k data it, X.train n ms fs cs k data it ≠ .error .stopIteration)
    (hno' : ∀ p learner data labels w, (evaluate p learner data labels w).2 ≠ .error .stopIteration)
    (hadds : ∀ p learner data labels, (∀ x ∈ data, x.rows.length = labels.length) → 0 < labels.length →
      AddsP g (evaluate p learner data labels) ks)
    (hr : run X R e rawLabels rawData evaluate start stop ⟨Logger.new (some f), fs⟩ = (w', .ok ())) :
    ∃ d kvs, w'.log.exps = [d ++ kvs] ∧ dictKeys d = FIRST_KEYS ∧ kvs.map Prod.fst = ks ∧
      (dictKeys (d ++ kvs)).Nodup ∧ (∀ kv ∈ kvs, g kv.1 kv.2) ∧
      w'.log.filename = some f ∧ Reach w'.log ∧ w'.log.save fs = .ok w'.fs ∧
      dictGet? w'.log.glob "modalities".toList = some (.plain (.mods e.modalities)) := by
  have hr0 := hr
  unfold run at hr
  rw [bind_eq_ok] at hr
  obtain ⟨w1, p, hp, -⟩ := hr
  obtain ⟨_, _, _, _, _, _, _, _, _, _, _, _, h5, _⟩ := prepare_ok hp
  obtain ⟨_, _, _, _, _, _, _, _, _, _, hgen, _⟩ := splitExamples_ok h5
  rw [hm] at hgen
  unfold getGenerator at hgen
  rw [pyBind_eq_ok] at hgen
  obtain ⟨rs, hrs, hgen⟩ := hgen
  rcases rs with _ | ⟨s, rest⟩
  · cases hgen
  simp only [] at hgen
  have hg : p.generator = .ok [s] := (Except.ok.inj hgen).symm
  have hpos : 0 < s.2.length := by
    obtain ⟨c1, c2⟩ := Utils.C23_random_split p.labels.length (1 / 10) (by norm_num) _
      (hR.shuffled p.labels.length)
    by_cases hz : ⌊(1 / 10 : ℚ) * (p.labels.length : ℚ)⌋ = 0
    · rw [c1 hz] at hrs
      cases hrs
    · obtain ⟨r', hr', _, hall, _⟩ := c2 hz
      rw [hrs] at hr'
      cases hr'
      have := (hall s List.mem_cons_self).1
      have h0 : (0 : ℤ) ≤ ⌊(1 / 10 : ℚ) * (p.labels.length : ℚ)⌋ := Int.floor_nonneg.2 (by positivity)
      omega
  obtain ⟨w2, r, ds, h1, _, _, h4, _, h6, h7⟩ := C88_run X R e rawLabels rawData evaluate start stop _ w1 p
    _ hp hg (hev p) hno (hno' p)
  rw [hr0] at h1
  cases h1
  obtain ⟨_, _, _, _, _, hs⟩ := h4 rfl
  have hmods : w'.log.getValue "modalities".toList = .ok (.plain (.mods e.modalities)) := by
    have := C88_globals X R e rawLabels rawData evaluate start stop _ w1 p _ hp hg (hev p) hno (hno' p)
      "modalities".toList (by decide) (by decide)
    rw [hr0] at this
    rw [this]
    obtain ⟨_, _, _, h, _⟩ := C87_logged R e rawLabels rawData _ w1 p hp
    exact h
  obtain ⟨_, _, _, _, _, _, _, _, _, _, _, hx1, _⟩ := C87_logged R e rawLabels rawData _ w1 p hp
  have hr1 := hr0
  unfold run at hr1
  rw [bind_ok hp, bind_ok (storeGlobal_run _ _ _)] at hr1
  rw [bind_eq_ok] at hr1
  obtain ⟨w3, u, hloop, hr1⟩ := hr1
  rw [bind_ok (storeGlobal_run _ _ _)] at hr1
  obtain ⟨w5, hs1, hs2, _⟩ := saveLog_spec
    { w3 with log := w3.log.storeGlobal "end_time".toList (.plain (.time stop)) }
  rw [hs1] at hr1
  cases hr1
  have hone : performOneRun X e p (evaluate p) s
      { w1 with log := w1.log.storeGlobal "start_time".toList (.plain (.time start)) } = (w3, .ok ()) := by
    unfold runLoop catchStop at hloop
    rw [hg, lift_ok rfl] at hloop
    unfold each at hloop
    rcases hq : performOneRun X e p (evaluate p) s
      { w1 with log := w1.log.storeGlobal "start_time".toList (.plain (.time start)) } with ⟨w4, x | v⟩
    · rw [bind_error hq] at hloop
      have hns := (performOneRun_spec X e p (evaluate p) (hev p) s
        { w1 with log := w1.log.storeGlobal "start_time".toList (.plain (.time start)) }).2.2.2 hno (hno' p)
      rw [hq] at hns
      cases x <;> first | exact absurd rfl hns | cases hloop
    · rw [bind_ok hq] at hloop
      unfold each at hloop
      cases hloop
      rfl
  obtain ⟨d, kvs, e1, e2, e3, e4, e5⟩ := performOneRun_keys X e p (evaluate p) ks s
    (fun learner data labels ha hb => hadds p learner data labels ha (by rw [hb]; exact hpos)) _ w3 hone
  refine ⟨d, kvs, ?_, e2, e3, e4, e5, h6, h7 (.new _), hs f rfl, ?_⟩
  · rw [hs2]
    show w3.log.exps = _
    rw [e1]
    show w1.log.exps ++ _ = _
    rw [hx1]
    rfl
  · unfold Logger.getValue at hmods
    rcases hq : dictGet? w'.log.glob "modalities".toList with _ | v
    · rw [hq] at hmods
      simp only [] at hmods
      exact absurd hmods (by simp)
    · rw [hq] at hmods
      cases hmods
      rfl

end Verif.Experiment
