import Verif.Experiment.PropsThree

/-!
# Evaluation in `ThreeModalitiesExperiment` (C90)
-/

namespace Verif.Experiment

open Verif Verif.Logger

variable {σ α β L Λ : Type}

/-- `y` is the internal representation of the data of the modalities `mods`. -/
def Internal (X : Ext Λ) (e : Exp) (learner : Λ) (data : List Mx) (mods : List ℕ) (y : Mx) : Prop :=
  ∃ ms xs, Picks e.modalities mods ms ∧ Picks data mods xs ∧
    X.internal learner ms xs e.iterTest = .ok y

theorem Internal.unique {X : Ext Λ} {e : Exp} {learner : Λ} {data : List Mx} {mods : List ℕ}
    {y y' : Mx} (h : Internal X e learner data mods y) (h' : Internal X e learner data mods y') :
    y = y' := by
  obtain ⟨ms, xs, h1, h2, h3⟩ := h
  obtain ⟨ms', xs', h1', h2', h3'⟩ := h'
  have inj : ∀ {γ : Type} {a b : List γ}, a.map some = b.map some → a = b :=
    fun h => (List.map_injective_iff.2 (Option.some_injective _)) h
  have e1 : ms = ms' := inj (Eq.trans h1 (Eq.symm h1'))
  have e2 : xs = xs' := inj (Eq.trans h2 (Eq.symm h2'))
  subst e1 e2
  rw [h3] at h3'
  exact Except.ok.inj h3'

/-- The learner has internal representations for these data, for one modality and for all but one;
they have `n` rows. -/
def Transforms3 (X : Ext Λ) (e : Exp) (learner : Λ) (data : List Mx) (n : ℕ) : Prop :=
  ∀ m, m < e.modalities.length →
    (∃ y, Internal X e learner data [m] y ∧ y.rows.length = n) ∧
    ∃ y, Internal X e learner data (others e.modalities.length m) y ∧ y.rows.length = n

theorem Transforms3.tested {X : Ext Λ} {e : Exp} {learner : Λ} {data : List Mx} {n : ℕ}
    (h : Transforms3 X e learner data n) {c : List ℕ × List ℕ}
    (hc : c ∈ testedCombinations e.modalities.length) :
    ∃ y, Internal X e learner data c.1 y ∧ y.rows.length = n := by
  rcases mem_tested.1 hc with ⟨a, b, ha, hb, hab, rfl⟩ | ⟨m, hm, rfl | rfl⟩
  · exact (h a ha).1
  · exact (h m hm).2
  · exact (h m hm).1

/-- All of the values are the internal representations of their keys. -/
def GoodInternals (X : Ext Λ) (e : Exp) (learner : Λ) (data : List Mx) (d : Dict (List ℕ) Mx) : Prop :=
  ∀ mods y, dictGet? d mods = some y → Internal X e learner data mods y

theorem addInternal_ok (X : Ext Λ) (e : Exp) (learner : Λ) (data : List Mx) (d : Dict (List ℕ) Mx)
    (c : List ℕ × List ℕ) (hd : GoodInternals X e learner data d)
    (hc : ∃ y, Internal X e learner data c.1 y) :
    ∃ d', addInternal X e learner data d c = .ok d' ∧ GoodInternals X e learner data d' ∧
      (dictGet? d' c.1).isSome ∧ ∀ k, (dictGet? d k).isSome → (dictGet? d' k).isSome := by
  unfold addInternal
  by_cases h : (dictGet? d c.1).isSome = true
  · exact ⟨d, if_pos h, hd, h, fun _ h => h⟩
  · obtain ⟨y, ms, xs, h1, h2, h3⟩ := hc
    refine ⟨dictSet d c.1 y, ?_, ?_, ?_, ?_⟩
    · rw [if_neg h, (mapM_pyGet e.modalities c.1 ms).2 h1, (mapM_pyGet data c.1 xs).2 h2]
      show (do let i ← X.internal learner ms xs e.iterTest; return dictSet d c.1 i) = _
      rw [h3]
      rfl
    · intro mods z hz
      rw [dictGet?_set] at hz
      split_ifs at hz with hk
      · cases hz
        subst hk
        exact ⟨ms, xs, h1, h2, h3⟩
      · exact hd mods z hz
    · rw [dictGet?_set, if_pos rfl]
      rfl
    · intro k hk
      rw [dictGet?_set]
      split_ifs
      · rfl
      · exact hk

theorem allInternals3_ok (X : Ext Λ) (e : Exp) (learner : Λ) (data : List Mx)
    (h : ∀ c ∈ testedCombinations e.modalities.length, ∃ y, Internal X e learner data c.1 y) :
    ∃ d, allInternals3 X e learner data = .ok d ∧
      ∀ c ∈ testedCombinations e.modalities.length,
        ∃ y, getInternal d c.1 = .ok y ∧ Internal X e learner data c.1 y := by
  have key : ∀ (l : List (List ℕ × List ℕ)) (d : Dict (List ℕ) Mx), GoodInternals X e learner data d →
      (∀ c ∈ l, ∃ y, Internal X e learner data c.1 y) →
      ∃ d', l.foldlM (addInternal X e learner data) d = .ok d' ∧ GoodInternals X e learner data d' ∧
        (∀ c ∈ l, (dictGet? d' c.1).isSome) ∧ ∀ k, (dictGet? d k).isSome → (dictGet? d' k).isSome := by
    intro l
    induction l with
    | nil => exact fun d hd _ => ⟨d, rfl, hd, by simp, fun _ h => h⟩
    | cons c l ih =>
      intro d hd hl
      obtain ⟨d1, h1, h2, h3, h4⟩ := addInternal_ok X e learner data d c hd (hl c List.mem_cons_self)
      obtain ⟨d2, g1, g2, g3, g4⟩ := ih d1 h2 fun c' hc' => hl c' (List.mem_cons_of_mem _ hc')
      refine ⟨d2, ?_, g2, ?_, fun k hk => g4 k (h4 k hk)⟩
      · rw [List.foldlM_cons, h1]
        exact g1
      · intro c' hc'
        rcases List.mem_cons.1 hc' with rfl | hc'
        · exact g4 _ h3
        · exact g3 c' hc'
  obtain ⟨d, h1, h2, h3, _⟩ := key (testedCombinations e.modalities.length) []
    (fun mods y hy => by cases hy) h
  refine ⟨d, h1, fun c hc => ?_⟩
  obtain ⟨y, hy⟩ := Option.isSome_iff_exists.1 (h3 c hc)
  refine ⟨y, ?_, h2 _ _ hy⟩
  unfold getInternal
  rw [hy]

/-- The result of a comparison. -/
def resultThree (names : List Key) (labelsEx testLabels : List ℕ) (T E : Dict (List ℕ) Mx)
    (c : List ℕ × List ℕ) (ms : (List ℚ → List ℚ → ℚ) × Key) : List (Key × Val (LogVal L) Mx) :=
  match getInternal T c.1, getInternal E c.2 with
  | .ok t, .ok x =>
    match Evaluation.classifyNN t.rows x.rows labelsEx ms.1 with
    | .ok found => [("score_".toList ++ keyThree names c ms.2,
        .plain (.score (Evaluation.foundLabelsToScore testLabels found)))]
    | _ => []
  | _, _ => []

theorem three_storeAll (X : Ext Λ) (e : Exp) (metrics : List (List ℚ → List ℚ → ℚ)) (p : Prepared L)
    (learner : Λ) (data : List Mx) (labels : List ℕ) (n : ℕ) (ht : Transforms3 X e learner data n)
    (hte : Transforms3 X e learner p.dataEx p.labelsEx.length) (hex : p.labelsEx ≠ []) :
    ∃ kvs : List (Key × Val (LogVal L) Mx), kvs.map Prod.fst = keysThree e.modalities metrics ∧
      (∀ w, evaluateThree X e metrics p learner data labels w = storeAll kvs w) ∧
      ∀ (c : List ℕ × List ℕ) (i : ℕ) metric suf, c ∈ testedCombinations e.modalities.length →
        metrics[i]? = some metric → SUFFIXES[i]? = some suf →
        ∃ t x found, Internal X e learner data c.1 t ∧ Internal X e learner p.dataEx c.2 x ∧
          Evaluation.classifyNN t.rows x.rows p.labelsEx metric = .ok found ∧
          ("score_".toList ++ keyThree e.modalities c suf,
            Val.plain (LogVal.score (Evaluation.foundLabelsToScore labels found))) ∈ kvs := by
  obtain ⟨T, hT, hTg⟩ := allInternals3_ok X e learner data fun c hc => by
    obtain ⟨y, hy, _⟩ := ht.tested hc
    exact ⟨y, hy⟩
  obtain ⟨E, hE, hEg⟩ := allInternals3_ok X e learner p.dataEx fun c hc => by
    obtain ⟨y, hy, _⟩ := hte.tested hc
    exact ⟨y, hy⟩
  have hres : ∀ c, c ∈ testedCombinations e.modalities.length → ∀ ms,
      ∃ t x found, getInternal T c.1 = .ok t ∧ getInternal E c.2 = .ok x ∧
        Internal X e learner data c.1 t ∧ Internal X e learner p.dataEx c.2 x ∧
        Evaluation.classifyNN t.rows x.rows p.labelsEx ms.1 = .ok found ∧
        (resultThree e.modalities p.labelsEx labels T E c ms : List (Key × Val (LogVal L) Mx)) =
          [("score_".toList ++ keyThree e.modalities c ms.2,
            .plain (.score (Evaluation.foundLabelsToScore labels found)))] := by
    intro c hc ms
    obtain ⟨t, ht1, ht2⟩ := hTg c hc
    obtain ⟨x, hx1, hx2⟩ := hEg _ (tested_swap hc)
    obtain ⟨x', hx', hl⟩ := hte.tested (tested_swap hc)
    have := hx'.unique hx2
    subst this
    have hl0 : p.labelsEx.length ≠ 0 := fun h => hex (List.length_eq_zero_iff.1 h)
    obtain ⟨found, hf, _⟩ := (Evaluation.C45_classify_NN t.rows x'.rows p.labelsEx ms.1).2
      (by
        intro h0
        rw [h0] at hl
        exact hl0 hl.symm) (by rw [hl])
    refine ⟨t, x', found, ht1, hx1, ht2, hx2, hf, ?_⟩
    unfold resultThree
    have hx1' : getInternal E c.2 = .ok x' := hx1
    rw [ht1, hx1']
    simp only [hf]
  refine ⟨(testedCombinations e.modalities.length).flatMap fun c =>
    (metricsSuffixes metrics).flatMap fun ms =>
    resultThree e.modalities p.labelsEx labels T E c ms, ?_, ?_, ?_⟩
  · unfold keysThree
    rw [List.map_flatMap]
    apply List.flatMap_congr
    intro c hc
    rw [List.map_flatMap]
    apply List.flatMap_congr
    intro ms hms
    obtain ⟨t, x, found, _, _, _, _, _, h⟩ := hres c hc ms
    rw [h]
    rfl
  · intro w
    unfold evaluateThree
    rw [lift_ok hT, lift_ok hE]
    refine each_storeAll _ _ _ (fun c hc w => ?_) w
    refine each_storeAll _ _ _ (fun ms hms w => ?_) w
    obtain ⟨t, x, found, h1, h2, _, _, h5, h6⟩ := hres c hc ms
    rw [h6]
    unfold evaluateThreeStep storeAll
    rw [lift_ok h1, lift_ok h2, lift_ok h5, lift_ok (scoreKey3_ok e c _ hc)]
    unfold each
    rcases hs' : storeResult ("score_".toList ++ keyThree e.modalities c ms.2)
      (.plain (.score (Evaluation.foundLabelsToScore labels found)) : Val (LogVal L) Mx) w
      with ⟨w2, y | u⟩
    · rw [bind_error hs']
    · rw [bind_ok hs']
      rfl
  · intro c i metric suf hc hm hsuf
    have hms : (metric, suf) ∈ metricsSuffixes metrics := by
      unfold metricsSuffixes
      apply List.mem_of_getElem? (i := i)
      rw [List.getElem?_zip_eq_some]
      exact ⟨hm, hsuf⟩
    obtain ⟨t, x, found, _, _, h3, h4, h5, h6⟩ := hres _ hc (metric, suf)
    exact ⟨t, x, found, h3, h4, h5, List.mem_flatMap.2 ⟨_, hc, List.mem_flatMap.2 ⟨_, hms, by
      rw [h6]; exact List.mem_cons_self⟩⟩⟩

theorem adds_three (X : Ext Λ) (e : Exp) (metrics : List (List ℚ → List ℚ → ℚ)) (p : Prepared L)
    (learner : Λ) (data : List Mx) (labels : List ℕ) :
    Adds (evaluateThree X e metrics p learner data labels) (keysThree e.modalities metrics) := by
  unfold evaluateThree
  refine adds_lift fun T hT => adds_lift fun E hE => adds_each _ _ _ fun c hc =>
    adds_each _ _ _ fun ms hms => ?_
  unfold evaluateThreeStep
  refine adds_lift fun t _ => adds_lift fun x _ => adds_lift fun found _ => adds_lift fun key hkey => ?_
  rw [scoreKey3_ok e c _ hc] at hkey
  cases hkey
  exact adds_storeResult _ _

/-- **C90.** With at least three modalities, of distinct names without `2` and `_` (and when there are
three, the last two not named `bis`, `frob` or `cosine`), different comparisons have different
keys. -/
theorem C90_keys (e : Exp) (h3 : 3 ≤ e.modalities.length) (hn : e.modalities.Nodup)
    (hp : ∀ m ∈ e.modalities, NoSep m) (hbad : ¬ BadThree e.modalities)
    (a b a' b' : List ℕ) (s s' k : Key) (hc : (a, b) ∈ testedCombinations e.modalities.length)
    (hc' : (a', b') ∈ testedCombinations e.modalities.length) (hs : s ∈ SUFFIXES)
    (hs' : s' ∈ SUFFIXES) (h : scoreKey3 e a b s = .ok k) (h' : scoreKey3 e a' b' s' = .ok k) :
    a = a' ∧ b = b' ∧ s = s' := by
  have g := scoreKey3_ok e (a, b) s hc
  have g' := scoreKey3_ok e (a', b') s' hc'
  simp only [] at g g'
  rw [g] at h
  rw [g'] at h'
  cases h
  have hk := List.append_cancel_left (Except.ok.inj h').symm
  obtain ⟨h1, h2⟩ := keyThree_inj h3 hn hp hbad hc hc' hs hs' hk
  exact ⟨congrArg Prod.fst h1, congrArg Prod.snd h1, h2⟩

/-- **C90.** The comparisons of `ThreeModalitiesExperiment`: each modality to each other, all but one
to it, and it to all of the others; with at least three modalities each of these is done once. -/
theorem C90_combinations (n : ℕ) :
    (∀ a b : List ℕ, (a, b) ∈ testedCombinations n ↔
      (∃ i j, i < n ∧ j < n ∧ i ≠ j ∧ a = [i] ∧ b = [j]) ∨
      ∃ m rest, m < n ∧ rest.Pairwise (· < ·) ∧ (∀ x, x ∈ rest ↔ x < n ∧ x ≠ m) ∧
        ((a = rest ∧ b = [m]) ∨ (a = [m] ∧ b = rest))) ∧
    (3 ≤ n → (testedCombinations n).Nodup) := by
  refine ⟨fun a b => ?_, tested_nodup⟩
  rw [mem_tested]
  refine or_congr ?_ ?_
  · simp only [Prod.mk.injEq]
  · constructor
    · rintro ⟨m, hm, h⟩
      refine ⟨m, others n m, hm, others_sorted n m, fun x => mem_others, ?_⟩
      simpa using h
    · rintro ⟨m, rest, hm, hs, hx, h⟩
      have : rest = others n m := by
        refine List.Perm.eq_of_pairwise' hs (others_sorted n m) ?_
        rw [List.perm_ext_iff_of_nodup (hs.imp fun h => by omega)
          ((others_sorted n m).imp fun h => by omega)]
        intro x
        rw [hx, mem_others]
      subst this
      exact ⟨m, hm, by simpa using h⟩

/-- **C90.** With such names the evaluation of a learner which can transform the data never fails; for
each comparison and each metric it stores, under the key of these, the score of the labels of the
nearest examples for this metric (see C45). -/
theorem C90_evaluate (X : Ext Λ) (e : Exp) (metrics : List (List ℚ → List ℚ → ℚ)) (p : Prepared L)
    (learner : Λ) (data : List Mx) (labels : List ℕ) (h3 : 3 ≤ e.modalities.length)
    (hn : e.modalities.Nodup) (hp : ∀ m ∈ e.modalities, NoSep m) (hbad : ¬ BadThree e.modalities)
    (n : ℕ) (ht : Transforms3 X e learner data n)
    (hte : Transforms3 X e learner p.dataEx p.labelsEx.length) (hex : p.labelsEx ≠ [])
    (w : World L) (ini : List (Dict Key (Val (LogVal L) Mx))) (d : Dict Key (Val (LogVal L) Mx))
    (hw : w.log.exps = ini ++ [d]) (hd : NoResult d) :
    ∃ w' d', evaluateThree X e metrics p learner data labels w = (w', .ok ()) ∧
      w'.log.exps = ini ++ [d'] ∧ (∀ k v, dictGet? d k = some v → dictGet? d' k = some v) ∧
      (∀ k, k ∈ dictKeys d' ↔ k ∈ dictKeys d ∨ ∃ (a b : List ℕ) (i : ℕ) (suf : Key),
        (a, b) ∈ testedCombinations e.modalities.length ∧ i < metrics.length ∧
        SUFFIXES[i]? = some suf ∧ scoreKey3 e a b suf = .ok k) ∧
      ∀ (a b : List ℕ) (i : ℕ) metric suf, (a, b) ∈ testedCombinations e.modalities.length →
        metrics[i]? = some metric → SUFFIXES[i]? = some suf →
        ∃ key t x found, scoreKey3 e a b suf = .ok key ∧
          Internal X e learner data a t ∧ Internal X e learner p.dataEx b x ∧
          Evaluation.classifyNN t.rows x.rows p.labelsEx metric = .ok found ∧
          dictGet? d' key = some (.plain (.score (Evaluation.foundLabelsToScore labels found))) := by
  obtain ⟨kvs, hk, hrun, hval⟩ := three_storeAll X e metrics p learner data labels n ht hte hex
  have hnod : (dictKeys d ++ kvs.map Prod.fst).Nodup := by
    rw [hk, List.nodup_append]
    refine ⟨hd.1, keysThree_nodup e.modalities metrics h3 hn hp hbad, ?_⟩
    intro k hk1 k' hk2
    rintro rfl
    unfold keysThree at hk2
    obtain ⟨c, _, hk2⟩ := List.mem_flatMap.1 hk2
    obtain ⟨ms, _, hk2⟩ := List.mem_flatMap.1 hk2
    rw [List.mem_singleton] at hk2
    subst hk2
    exact (hd.2 _ hk1).2 (List.prefix_append _ _)
  obtain ⟨l', h1, h2⟩ := storeAll_ok kvs w ini d hw hnod
  have hkeys : dictKeys (d ++ kvs) = dictKeys d ++ kvs.map Prod.fst := by simp [dictKeys]
  refine ⟨{ w with log := l' }, d ++ kvs, by rw [hrun, h1], h2,
    fun k v h => dictGet?_append_some h, ?_, ?_⟩
  · intro k
    rw [hkeys, hk, List.mem_append]
    refine or_congr_right ?_
    unfold keysThree
    constructor
    · intro h
      obtain ⟨c, hc, h⟩ := List.mem_flatMap.1 h
      obtain ⟨ms, hms, h⟩ := List.mem_flatMap.1 h
      rw [List.mem_singleton] at h
      subst h
      obtain ⟨i, hi⟩ := List.getElem?_of_mem hms
      unfold metricsSuffixes at hi
      rw [List.getElem?_zip_eq_some] at hi
      exact ⟨c.1, c.2, i, ms.2, hc, (List.getElem?_eq_some_iff.1 hi.1).1, hi.2, scoreKey3_ok e c _ hc⟩
    · rintro ⟨a, b, i, suf, hc, hi, hsuf, hkey⟩
      have g := scoreKey3_ok e (a, b) suf hc
      simp only [] at g
      rw [g] at hkey
      cases hkey
      refine List.mem_flatMap.2 ⟨(a, b), hc, List.mem_flatMap.2
        ⟨(metrics[i], suf), ?_, List.mem_cons_self⟩⟩
      unfold metricsSuffixes
      apply List.mem_of_getElem? (i := i)
      rw [List.getElem?_zip_eq_some]
      exact ⟨List.getElem?_eq_getElem hi, hsuf⟩
  · intro a b i metric suf hc hm hsuf
    obtain ⟨t, x, found, h3, h4, h5, h6⟩ := hval (a, b) i metric suf hc hm hsuf
    have hnod' : (dictKeys (d ++ kvs)).Nodup := by rw [hkeys]; exact hnod
    exact ⟨_, t, x, found, scoreKey3_ok e (a, b) suf hc, h3, h4, h5,
      dictGet?_mem hnod' (List.mem_append_right _ h6)⟩

/-- **C90.** With exactly two modalities, or with three of which the second or the third is named
`bis`, `frob` or `cosine`, no evaluation succeeds, whatever the learner and the data; one where the
computations succeed raises `ValueError`. -/
theorem C90_fails (X : Ext Λ) (e : Exp) (metrics : List (List ℚ → List ℚ → ℚ))
    (hm : 4 ≤ metrics.length) (p : Prepared L) (learner : Λ) (data : List Mx) (labels : List ℕ)
    (h : e.modalities.length = 2 ∨ BadThree e.modalities)
    (w : World L) (ini : List (Dict Key (Val (LogVal L) Mx))) (d : Dict Key (Val (LogVal L) Mx))
    (hw : w.log.exps = ini ++ [d]) (hd : (dictKeys d).Nodup) :
    (evaluateThree X e metrics p learner data labels w).2 ≠ .ok () ∧
    (∀ n, Transforms3 X e learner data n → Transforms3 X e learner p.dataEx p.labelsEx.length →
      p.labelsEx ≠ [] →
      (evaluateThree X e metrics p learner data labels w).2 = .error .valueError) := by
  have hdup : ¬ (keysThree e.modalities metrics).Nodup := by
    rcases h with h | h
    · exact keysThree_two _ _ (by rintro rfl; simp at hm) h
    · exact keysThree_bad _ _ hm h
  constructor
  · intro hc
    rcases hx : evaluateThree X e metrics p learner data labels w with ⟨w', x⟩
    rw [hx] at hc
    simp only [] at hc
    subst hc
    obtain ⟨kvs, h1, h2, h3⟩ := adds_three X e metrics p learner data labels w w' () hx ini d hw hd
    rw [show dictKeys (d ++ kvs) = dictKeys d ++ kvs.map Prod.fst by simp [dictKeys], h1,
      List.nodup_append] at h3
    exact hdup h3.2.1
  · intro n ht hte hex
    obtain ⟨kvs, hk, hrun, _⟩ := three_storeAll X e metrics p learner data labels n ht hte hex
    rw [hrun]
    refine storeAll_error kvs w ini d hw hd ?_
    rw [hk]
    intro hc
    exact hdup (List.nodup_append.1 hc).2.1

/-- The evaluation of `ThreeModalitiesExperiment` raises no `StopIteration` (used in C88). -/
theorem three_no_stop (X : Ext Λ) (hX : X.NoStop) (e : Exp) (metrics : List (List ℚ → List ℚ → ℚ))
    (p : Prepared L) (learner : Λ) (data : List Mx) (labels : List ℕ) :
    NoStop (evaluateThree X e metrics p learner data labels) := by
  have hint : ∀ data, allInternals3 X e learner data ≠ .error .stopIteration := by
    intro data
    unfold allInternals3
    generalize testedCombinations e.modalities.length = l
    generalize ([] : Dict (List ℕ) Mx) = d
    induction l generalizing d with
    | nil => intro hc; cases hc
    | cons c l ih =>
      rw [List.foldlM_cons]
      refine pyBind_no_stop ?_ fun d' => ih d'
      unfold addInternal
      split_ifs
      · simp
      · exact pyBind_no_stop (mapM_no_stop _ _ fun _ => pyGet_no_stop _ _) fun _ =>
          pyBind_no_stop (mapM_no_stop _ _ fun _ => pyGet_no_stop _ _) fun _ =>
          pyBind_no_stop (hX.internal _ _ _ _) fun _ => fun hc => (by cases hc)
  have hget : ∀ (d : Dict (List ℕ) Mx) mods, getInternal d mods ≠ .error .stopIteration := by
    intro d mods
    unfold getInternal
    split <;> simp
  unfold evaluateThree
  refine noStop_bind (noStop_lift (hint _)) fun test => noStop_bind (noStop_lift (hint _)) fun ex =>
    noStop_each _ _ fun c _ => noStop_each _ _ fun ms _ => ?_
  unfold evaluateThreeStep scoreKey3
  exact noStop_bind (noStop_lift (hget _ _)) fun t => noStop_bind (noStop_lift (hget _ _)) fun x =>
    noStop_bind (noStop_lift (classify_no_stop _ _ _ _)) fun found =>
    noStop_bind (noStop_lift (pyBind_no_stop (mapM_no_stop _ _ fun _ => pyGet_no_stop _ _) fun _ =>
      pyBind_no_stop (mapM_no_stop _ _ fun _ => pyGet_no_stop _ _) fun _ => fun hc => (by cases hc)))
    fun key => storeResult_no_stop _ _

end Verif.Experiment
