import Verif.Experiment.PropsTwoKeys

/-!
# Evaluation in `TwoModalitiesExperiment` (C89)
-/

namespace Verif.Experiment

open Verif Verif.Logger

variable {σ α β L Λ : Type}

theorem dictGet?_mem {K V : Type} [DecidableEq K] {d : Dict K V} {k : K} {v : V}
    (hn : (dictKeys d).Nodup) (h : (k, v) ∈ d) : dictGet? d k = some v := by
  induction d with
  | nil => cases h
  | cons kv d ih =>
    obtain ⟨k', v'⟩ := kv
    simp only [dictKeys, List.map_cons, List.nodup_cons] at hn
    rw [dictGet?]
    rcases List.mem_cons.1 h with h | h
    · cases h
      simp
    · have : k' ≠ k := by
        rintro rfl
        exact hn.1 (List.mem_map.2 ⟨_, h, rfl⟩)
      have := ih hn.2 h
      unfold dictGet? at this
      rwa [List.find?_cons_of_neg (by simpa using ‹k' ≠ k›)]

/-- The two results of a comparison. -/
def resultsTwo (names : List Key) (labelsEx testLabels : List ℕ) (T E : List (List Mx))
    (c : ℕ × ℕ × ℤ) (ms : (List ℚ → List ℚ → ℚ) × Key) : List (Key × Val (LogVal L) Mx) :=
  match get2 T c.1 c.2.2, get2 E c.2.1 c.2.2 with
  | .ok t, .ok x =>
    match Evaluation.classifyNN t.rows x.rows labelsEx ms.1 with
    | .ok found =>
      [("found_".toList ++ keyTwo names c.1 c.2.1 c.2.2 ms.2, .plain (.idx found)),
       ("score_".toList ++ keyTwo names c.1 c.2.1 c.2.2 ms.2,
        .plain (.score (Evaluation.foundLabelsToScore testLabels found)))]
    | _ => []
  | _, _ => []

theorem two_storeAll (X : Ext Λ) (e : Exp) (metrics : List (List ℚ → List ℚ → ℚ)) (p : Prepared L)
    (learner : Λ) (data : List Mx) (labels : List ℕ) (ht : Transforms X e learner data)
    (hte : Transforms X e learner p.dataEx)
    (hex : ∀ x ∈ p.dataEx, x.rows ≠ [] ∧ x.rows.length ≤ p.labelsEx.length) :
    ∃ kvs : List (Key × Val (LogVal L) Mx), kvs.map Prod.fst = keysTwo e.modalities metrics ∧
      (∀ w, evaluateTwo X e metrics p learner data labels w = storeAll kvs w) ∧
      ∀ (a b i : ℕ) (c : ℤ) metric suf, a < e.modalities.length → b < e.modalities.length →
        CmpIn e.modalities.length c → metrics[i]? = some metric → SUFFIXES[i]? = some suf →
        ∃ t x found, Transformed X e learner data a c t ∧ Transformed X e learner p.dataEx b c x ∧
          Evaluation.classifyNN t.rows x.rows p.labelsEx metric = .ok found ∧
          ("found_".toList ++ keyTwo e.modalities a b c suf, Val.plain (LogVal.idx found)) ∈ kvs ∧
          ("score_".toList ++ keyTwo e.modalities a b c suf,
            Val.plain (LogVal.score (Evaluation.foundLabelsToScore labels found))) ∈ kvs := by
  obtain ⟨T, hT, hTg⟩ := allTransformations_ok X e learner data ht
  obtain ⟨E, hE, hEg⟩ := allTransformations_ok X e learner p.dataEx hte
  -- one comparison
  have hone : ∀ (c : ℕ × ℕ × ℤ), c ∈ toTest e.modalities.length → ∀ measure : List ℚ → List ℚ → ℚ,
      ∃ t x found, get2 T c.1 c.2.2 = .ok t ∧ get2 E c.2.1 c.2.2 = .ok x ∧
        Transformed X e learner data c.1 c.2.2 t ∧ Transformed X e learner p.dataEx c.2.1 c.2.2 x ∧
        Evaluation.classifyNN t.rows x.rows p.labelsEx measure = .ok found := by
    intro c hc measure
    obtain ⟨h1, h2, h3⟩ := mem_toTest.1 hc
    obtain ⟨t, _, ht1, _, _, ht2⟩ := hTg c.1 c.2.2 h1 h3
    obtain ⟨x, x0, hx1, hx0, hxl, hx2⟩ := hEg c.2.1 c.2.2 h2 h3
    obtain ⟨hne, hle⟩ := hex x0 (List.mem_of_getElem? hx0)
    obtain ⟨found, hf, _⟩ := (Evaluation.C45_classify_NN t.rows x.rows p.labelsEx measure).2
      (by
        rw [ne_eq, ← List.length_eq_zero_iff, hxl, List.length_eq_zero_iff]
        exact hne) (by rw [hxl]; exact hle)
    exact ⟨t, x, found, ht1, hx1, ht2, hx2, hf⟩
  have hres : ∀ (c : ℕ × ℕ × ℤ), c ∈ toTest e.modalities.length → ∀ ms,
      ∃ t x found, get2 T c.1 c.2.2 = .ok t ∧ get2 E c.2.1 c.2.2 = .ok x ∧
        Transformed X e learner data c.1 c.2.2 t ∧ Transformed X e learner p.dataEx c.2.1 c.2.2 x ∧
        Evaluation.classifyNN t.rows x.rows p.labelsEx ms.1 = .ok found ∧
        (resultsTwo e.modalities p.labelsEx labels T E c ms : List (Key × Val (LogVal L) Mx)) =
          [("found_".toList ++ keyTwo e.modalities c.1 c.2.1 c.2.2 ms.2, .plain (.idx found)),
           ("score_".toList ++ keyTwo e.modalities c.1 c.2.1 c.2.2 ms.2,
            .plain (.score (Evaluation.foundLabelsToScore labels found)))] := by
    intro c hc ms
    obtain ⟨t, x, found, h1, h2, h3, h4, h5⟩ := hone c hc ms.1
    refine ⟨t, x, found, h1, h2, h3, h4, h5, ?_⟩
    unfold resultsTwo
    rw [h1, h2]
    simp only [h5]
  refine ⟨(toTest e.modalities.length).flatMap fun c => (metricsSuffixes metrics).flatMap fun ms =>
    resultsTwo e.modalities p.labelsEx labels T E c ms, ?_, ?_, ?_⟩
  · unfold keysTwo
    rw [List.map_flatMap]
    apply List.flatMap_congr
    intro c hc
    rw [List.map_flatMap]
    apply List.flatMap_congr
    intro ms hms
    obtain ⟨t, x, found, _, _, _, _, _, h⟩ := hres c hc ms
    rw [h]
    rfl
  · intro w
    unfold evaluateTwo
    rw [lift_ok hT, lift_ok hE]
    refine each_storeAll _ _ _ (fun c hc w => ?_) w
    refine each_storeAll _ _ _ (fun ms hms w => ?_) w
    obtain ⟨t, x, found, h1, h2, _, _, h5, h6⟩ := hres c hc ms
    obtain ⟨g1, g2, g3⟩ := mem_toTest.1 hc
    rw [h6]
    unfold evaluateTwoStep storeAll
    rw [lift_ok h1, lift_ok h2, lift_ok h5, lift_ok (expKey_ok e _ _ _ _ g1 g2 g3)]
    rcases hs : storeResult ("found_".toList ++ keyTwo e.modalities c.1 c.2.1 c.2.2 ms.2)
      (.plain (.idx found) : Val (LogVal L) Mx) w with ⟨w1, y | u⟩
    · rw [bind_error hs]
      unfold each
      rw [bind_error hs]
    · rw [bind_ok hs]
      unfold each
      rw [bind_ok hs]
      unfold each
      rcases hs' : storeResult ("score_".toList ++ keyTwo e.modalities c.1 c.2.1 c.2.2 ms.2)
        (.plain (.score (Evaluation.foundLabelsToScore labels found)) : Val (LogVal L) Mx) w1
        with ⟨w2, y | u⟩
      · rw [bind_error hs']
      · rw [bind_ok hs']
        rfl
  · intro a b i c metric suf ha hb hc hm hsuf
    have hmem : (a, b, c) ∈ toTest e.modalities.length := mem_toTest.2 ⟨ha, hb, hc⟩
    have hms : (metric, suf) ∈ metricsSuffixes metrics := by
      unfold metricsSuffixes
      apply List.mem_of_getElem? (i := i)
      rw [List.getElem?_zip_eq_some]
      exact ⟨hm, hsuf⟩
    obtain ⟨t, x, found, _, _, h3, h4, h5, h6⟩ := hres _ hmem (metric, suf)
    refine ⟨t, x, found, h3, h4, h5, ?_, ?_⟩
    · exact List.mem_flatMap.2 ⟨_, hmem, List.mem_flatMap.2 ⟨_, hms, by rw [h6]; exact List.mem_cons_self⟩⟩
    · exact List.mem_flatMap.2 ⟨_, hmem, List.mem_flatMap.2 ⟨_, hms, by
        rw [h6]; exact List.mem_cons_of_mem _ List.mem_cons_self⟩⟩

/-- The keys of a run before its evaluation. -/
def NoResult (d : Dict Key (Val (LogVal L) Mx)) : Prop :=
  (dictKeys d).Nodup ∧
  ∀ k ∈ dictKeys d, ¬ "found_".toList <+: k ∧ ¬ "score_".toList <+: k

/-- **C89.** With distinct names without `2` and `_` other than `bis`, `frob` and `cosine`, the
evaluation of a learner which can transform the data never fails; for any two modalities, any
comparison (internal, or in a modality) and any metric, it stores under the key of these the labels
of the nearest examples for this metric in this representation (see C45), and their score. -/
theorem C89_evaluate (X : Ext Λ) (e : Exp) (metrics : List (List ℚ → List ℚ → ℚ)) (p : Prepared L)
    (learner : Λ) (data : List Mx) (labels : List ℕ) (hn : e.modalities.Nodup)
    (hp : ∀ m ∈ e.modalities, Plain m) (ht : Transforms X e learner data)
    (hte : Transforms X e learner p.dataEx)
    (hex : ∀ x ∈ p.dataEx, x.rows ≠ [] ∧ x.rows.length ≤ p.labelsEx.length)
    (w : World L) (ini : List (Dict Key (Val (LogVal L) Mx))) (d : Dict Key (Val (LogVal L) Mx))
    (hw : w.log.exps = ini ++ [d]) (hd : NoResult d) :
    ∃ w' d', evaluateTwo X e metrics p learner data labels w = (w', .ok ()) ∧
      w'.log.exps = ini ++ [d'] ∧ (∀ k v, dictGet? d k = some v → dictGet? d' k = some v) ∧
      (∀ k, k ∈ dictKeys d' ↔ k ∈ dictKeys d ∨ ∃ (a b i : ℕ) (c : ℤ) (suf key : Key),
        CmpIn e.modalities.length c ∧ i < metrics.length ∧ SUFFIXES[i]? = some suf ∧
        expKey e a b c suf = .ok key ∧ (k = "found_".toList ++ key ∨ k = "score_".toList ++ key)) ∧
      ∀ (a b i : ℕ) (c : ℤ) metric suf, a < e.modalities.length → b < e.modalities.length →
        CmpIn e.modalities.length c → metrics[i]? = some metric → SUFFIXES[i]? = some suf →
        ∃ key t x found, expKey e a b c suf = .ok key ∧
          Transformed X e learner data a c t ∧ Transformed X e learner p.dataEx b c x ∧
          Evaluation.classifyNN t.rows x.rows p.labelsEx metric = .ok found ∧
          dictGet? d' ("found_".toList ++ key) = some (.plain (.idx found)) ∧
          dictGet? d' ("score_".toList ++ key) =
            some (.plain (.score (Evaluation.foundLabelsToScore labels found))) := by
  obtain ⟨kvs, hk, hrun, hval⟩ := two_storeAll X e metrics p learner data labels ht hte hex
  have hnod : (dictKeys d ++ kvs.map Prod.fst).Nodup := by
    rw [hk, List.nodup_append]
    refine ⟨hd.1, keysTwo_nodup e metrics hn hp, ?_⟩
    intro k hk1 k' hk2
    rintro rfl
    unfold keysTwo at hk2
    obtain ⟨c, _, hk2⟩ := List.mem_flatMap.1 hk2
    obtain ⟨ms, _, hk2⟩ := List.mem_flatMap.1 hk2
    simp only [List.mem_cons, List.not_mem_nil, or_false] at hk2
    rcases hk2 with rfl | rfl
    · exact (hd.2 _ hk1).1 (List.prefix_append _ _)
    · exact (hd.2 _ hk1).2 (List.prefix_append _ _)
  obtain ⟨l', h1, h2⟩ := storeAll_ok kvs w ini d hw hnod
  have hkeys : dictKeys (d ++ kvs) = dictKeys d ++ kvs.map Prod.fst := by simp [dictKeys]
  refine ⟨{ w with log := l' }, d ++ kvs, by rw [hrun, h1], h2,
    fun k v h => dictGet?_append_some h, ?_, ?_⟩
  · intro k
    rw [hkeys, hk, List.mem_append]
    refine or_congr_right ?_
    unfold keysTwo
    constructor
    · intro h
      obtain ⟨c, hc, h⟩ := List.mem_flatMap.1 h
      obtain ⟨ms, hms, h⟩ := List.mem_flatMap.1 h
      obtain ⟨g1, g2, g3⟩ := mem_toTest.1 hc
      obtain ⟨i, hi⟩ := List.getElem?_of_mem hms
      unfold metricsSuffixes at hi
      rw [List.getElem?_zip_eq_some] at hi
      refine ⟨c.1, c.2.1, i, c.2.2, ms.2, _, g3, (List.getElem?_eq_some_iff.1 hi.1).1, hi.2,
        expKey_ok e _ _ _ _ g1 g2 g3, ?_⟩
      simpa using h
    · rintro ⟨a, b, i, c, suf, key, hc, hi, hsuf, hkey, h⟩
      have lt : ∀ j : ℕ, (∃ x, pyGet e.modalities (j : ℤ) = .ok x) → j < e.modalities.length := by
        rintro j ⟨x, hx⟩
        exact (List.getElem?_eq_some_iff.1 ((pyGet_some _ _ _).1 hx)).1
      have hab : a < e.modalities.length ∧ b < e.modalities.length := by
        unfold expKey at hkey
        rw [pyBind_eq_ok] at hkey
        obtain ⟨m1, hm1, hkey⟩ := hkey
        rw [pyBind_eq_ok] at hkey
        obtain ⟨m2, hm2, hkey⟩ := hkey
        exact ⟨lt a ⟨_, hm1⟩, lt b ⟨_, hm2⟩⟩
      rw [expKey_ok e a b c suf hab.1 hab.2 hc] at hkey
      cases hkey
      refine List.mem_flatMap.2 ⟨(a, b, c), mem_toTest.2 ⟨hab.1, hab.2, hc⟩, List.mem_flatMap.2
        ⟨(metrics[i], suf), ?_, by simpa using h⟩⟩
      unfold metricsSuffixes
      apply List.mem_of_getElem? (i := i)
      rw [List.getElem?_zip_eq_some]
      exact ⟨List.getElem?_eq_getElem hi, hsuf⟩
  · intro a b i c metric suf ha hb hc hm hsuf
    obtain ⟨t, x, found, h3, h4, h5, h6, h7⟩ := hval a b i c metric suf ha hb hc hm hsuf
    have hnod' : (dictKeys (d ++ kvs)).Nodup := by rw [hkeys]; exact hnod
    exact ⟨_, t, x, found, expKey_ok e a b c suf ha hb hc, h3, h4, h5,
      dictGet?_mem hnod' (List.mem_append_right _ h6), dictGet?_mem hnod' (List.mem_append_right _ h7)⟩

/-! ### Names which make the experiment fail -/

theorem reserved_suffix {m : Key} (h : m = "bis".toList ∨ m = "frob".toList ∨ m = "cosine".toList) :
    ∃ i : ℕ, 0 < i ∧ i < 4 ∧ SUFFIXES[i]? = some ('_' :: m) := by
  rcases h with rfl | rfl | rfl
  · exact ⟨1, by decide, by decide, rfl⟩
  · exact ⟨2, by decide, by decide, rfl⟩
  · exact ⟨3, by decide, by decide, rfl⟩

theorem disjoint_of_nodup_flatMap {l : List α} {f : α → List β} (h : (l.flatMap f).Nodup) {x y : α}
    (hx : x ∈ l) (hy : y ∈ l) (hne : x ≠ y) : (f x).Disjoint (f y) := by
  rw [List.nodup_flatMap] at h
  haveI : Std.Symm (Function.onFun List.Disjoint f) := ⟨fun a b hab => List.Disjoint.symm hab⟩
  exact List.Pairwise.forall h.2 hx hy hne

/-- A modality named as a suffix gives twice the same key. -/
theorem keysTwo_dup (names : List Key) (metrics : List (List ℚ → List ℚ → ℚ))
    (hm : 4 ≤ metrics.length) (r : Key) (hr : r ∈ names)
    (h : r = "bis".toList ∨ r = "frob".toList ∨ r = "cosine".toList) :
    ¬ (keysTwo names metrics).Nodup := by
  obtain ⟨i, hi0, hi4, hsuf⟩ := reserved_suffix h
  obtain ⟨a, hra⟩ := List.getElem?_of_mem hr
  have ha : a < names.length := (List.getElem?_eq_some_iff.1 hra).1
  intro hnod
  unfold keysTwo at hnod
  have hc1 : (a, a, (-1 : ℤ)) ∈ toTest names.length := mem_toTest.2 ⟨ha, ha, Or.inl rfl⟩
  have hc2 : (a, a, (a : ℤ)) ∈ toTest names.length := mem_toTest.2 ⟨ha, ha, Or.inr ⟨a, ha, rfl⟩⟩
  have hne : (a, a, (-1 : ℤ)) ≠ (a, a, (a : ℤ)) := by
    intro hc
    have : (-1 : ℤ) = a := congrArg (fun x : ℕ × ℕ × ℤ => x.2.2) hc
    omega
  have hdis := disjoint_of_nodup_flatMap hnod hc1 hc2 hne
  have hms : ∀ j s, j < 4 → SUFFIXES[j]? = some s → ∃ f, (f, s) ∈ metricsSuffixes metrics := by
    intro j s hj hs
    refine ⟨metrics[j], ?_⟩
    unfold metricsSuffixes
    apply List.mem_of_getElem? (i := j)
    rw [List.getElem?_zip_eq_some]
    exact ⟨List.getElem?_eq_getElem (by omega), hs⟩
  obtain ⟨f1, hf1⟩ := hms i _ hi4 hsuf
  obtain ⟨f0, hf0⟩ := hms 0 _ (by decide) (rfl : SUFFIXES[0]? = some [])
  rw [List.disjoint_left] at hdis
  refine @hdis ("found_".toList ++ keyTwo names a a (-1) ('_' :: r)) ?_ ?_
  · exact List.mem_flatMap.2 ⟨_, hf1, List.mem_cons_self⟩
  · refine List.mem_flatMap.2 ⟨_, hf0, ?_⟩
    have : keyTwo names a a (-1) ('_' :: r) = keyTwo names a a (a : ℤ) [] := by
      unfold keyTwo cmpName
      rw [if_pos (by decide), if_neg (by omega), Int.toNat_natCast, hra]
      simp [cmpPart]
    rw [this]
    exact List.mem_cons_self

theorem adds_two (X : Ext Λ) (e : Exp) (metrics : List (List ℚ → List ℚ → ℚ)) (p : Prepared L)
    (learner : Λ) (data : List Mx) (labels : List ℕ) :
    Adds (evaluateTwo X e metrics p learner data labels) (keysTwo e.modalities metrics) := by
  unfold evaluateTwo
  refine adds_lift fun T hT => adds_lift fun E hE => adds_each _ _ _ fun c hc =>
    adds_each _ _ _ fun ms hms => ?_
  unfold evaluateTwoStep
  obtain ⟨g1, g2, g3⟩ := mem_toTest.1 hc
  refine adds_lift fun t _ => adds_lift fun x _ => adds_lift fun found _ => adds_lift fun key hkey => ?_
  rw [expKey_ok e _ _ _ _ g1 g2 g3] at hkey
  cases hkey
  exact adds_bind (adds_storeResult _ _) (adds_storeResult _ _)

/-- **C89.** With a modality named `bis`, `frob` or `cosine`, no evaluation succeeds, whatever the
learner and the data; one where the computations succeed raises `ValueError`. -/
theorem C89_reserved (X : Ext Λ) (e : Exp) (metrics : List (List ℚ → List ℚ → ℚ))
    (hm : 4 ≤ metrics.length) (p : Prepared L) (learner : Λ) (data : List Mx) (labels : List ℕ)
    (r : Key) (hr : r ∈ e.modalities)
    (hres : r = "bis".toList ∨ r = "frob".toList ∨ r = "cosine".toList)
    (w : World L) (ini : List (Dict Key (Val (LogVal L) Mx))) (d : Dict Key (Val (LogVal L) Mx))
    (hw : w.log.exps = ini ++ [d]) (hd : (dictKeys d).Nodup) :
    (evaluateTwo X e metrics p learner data labels w).2 ≠ .ok () ∧
    (Transforms X e learner data → Transforms X e learner p.dataEx →
      (∀ x ∈ p.dataEx, x.rows ≠ [] ∧ x.rows.length ≤ p.labelsEx.length) →
      (evaluateTwo X e metrics p learner data labels w).2 = .error .valueError) := by
  have hdup := keysTwo_dup e.modalities metrics hm r hr hres
  constructor
  · intro hc
    rcases hx : evaluateTwo X e metrics p learner data labels w with ⟨w', x⟩
    rw [hx] at hc
    simp only [] at hc
    subst hc
    obtain ⟨kvs, h1, h2, h3⟩ := adds_two X e metrics p learner data labels w w' () hx ini d hw hd
    rw [show dictKeys (d ++ kvs) = dictKeys d ++ kvs.map Prod.fst by simp [dictKeys], h1,
      List.nodup_append] at h3
    exact hdup h3.2.1
  · intro ht hte hex
    obtain ⟨kvs, hk, hrun, _⟩ := two_storeAll X e metrics p learner data labels ht hte hex
    rw [hrun]
    refine storeAll_error kvs w ini d hw hd ?_
    rw [hk]
    intro hc
    exact hdup (List.nodup_append.1 hc).2.1

end Verif.Experiment
