import Verif.Samples.SlidingEval
import Verif.Samples.PropsSliding
import Verif.Samples.PropsWords
import Verif.Experiment.PropsSingle

/-!
# Property C183: recognition along sentences
-/

namespace Verif.Samples

open Verif Verif.Window
open Verif.Logger (Key Val)
open Verif.Experiment

variable {α L R Λ : Type}

/-! ### Specification -/

/-- The windows of half a second each tenth of a second, in a sound. -/
structure SlidAlong (samples : List α) (rate : ℚ) (wins : List (ArrayWin α)) : Prop where
  count : ∀ i : ℕ, i < wins.length ↔ (i : ℚ) * (1 / 10) + 1 / 2 < (samples.length : ℚ) / rate + TOL
  holds : ∀ (i : ℕ) (w : ArrayWin α), wins[i]? = some w → ∃ a, Holds samples rate a (a + 1 / 2) w ∧ 0 ≤ a ∧
    a + 1 / 2 ≤ (samples.length : ℚ) / rate ∧ |a - (i : ℚ) * (1 / 10)| < TOL

/-- The features which learners get for rows of features: in debug mode only their first columns. -/
def Shown (debug : Bool) (n : ℕ) (feats : List (List ℚ)) (x : Mx) : Prop :=
  List.Forall₂ (fun f r => if debug then r = f.take n else r = f) feats x.rows

/-- The data of the samples which the log says were used for training. -/
def TrainedOn (d : Dict Key (Logger.Val (LogVal L) Mx)) (data dataTrain : List Mx) : Prop :=
  ∃ train, dictGet? d "train".toList = some (.plain (.idx train)) ∧
    List.Forall₂ (fun x y : Mx => y.cols = x.cols ∧ Picks x.rows train y.rows) data dataTrain

/-! ### Windows -/

theorem idxWins_ok {files : WavFiles α} {path : R → String} {records : List R} {m : ℕ} {assoc : List (List ℕ)}
    (hne : assoc ≠ []) {rs : List R} {rate : ℚ}
    (hrs : List.Forall₂ (fun a r => ∃ s, a[m]? = some s ∧ records[s]? = some r) assoc rs)
    (h : ∀ r ∈ rs, (files (path r)).1 = rate) {c : Concat α Unit}
    (hc : concatFromListOfWavs files (rs.map path) none = .ok c) :
    ∃ ws, (assoc.zip c.windows).mapM (idxWin m) = .ok ws ∧ Concat.init ws = .ok ⟨ws⟩ ∧
      (⟨ws⟩ : Concat α ℕ).copy = .ok ⟨ws⟩ := by
  -- records are their own indices
  obtain ⟨is, his⟩ : ∃ is : List ℕ, List.Forall₂ (fun a s => a[m]? = some s ∧ s < records.length) assoc is := by
    clear hc h hne
    induction hrs with
    | nil => exact ⟨[], .nil⟩
    | cons hab _ ih =>
      obtain ⟨is, his⟩ := ih
      obtain ⟨s, h1, h2⟩ := hab
      exact ⟨s :: is, .cons ⟨h1, (List.getElem?_eq_some_iff.1 h2).1⟩ his⟩
  have hpath : ∀ (d : String), is.map (fun s => (records[s]?).elim d path) = rs.map path := by
    intro d
    clear hc h hne
    induction his generalizing rs with
    | nil => cases hrs; rfl
    | cons hab _ ih =>
      cases hrs with
      | cons hcd htl =>
        obtain ⟨s, h1, h2⟩ := hcd
        have : s = _ := Option.some.inj (h1.symm.trans hab.1)
        subst this
        rw [List.map_cons, List.map_cons, ih htl, h2]
        rfl
  obtain ⟨-, c', rc, h1, h2, -, -⟩ := C141_records (α := α) files rate
    (fun s : ℕ => (records[s]?).elim "" path) (List.range records.length) m assoc hne is
    (his.imp fun a s hs => ⟨s, hs.1, List.getElem?_range hs.2⟩)
    (by
      intro s hs
      have : (files ((records[s]?).elim "" path)).1 ∈ (is.map fun s => (records[s]?).elim "" path).map
          fun q => (files q).1 := by
        rw [List.map_map]
        exact List.mem_map_of_mem (f := fun s => (files ((records[s]?).elim "" path)).1) hs
      rw [hpath] at this
      obtain ⟨q, hq, hq2⟩ := List.mem_map.1 this
      obtain ⟨r, hr, rfl⟩ := List.mem_map.1 hq
      rw [← hq2]
      exact h r hr)
  rw [hpath, hc] at h1
  cases h1
  unfold recordWins at h2
  rw [pyBind_eq_ok] at h2
  obtain ⟨ws, h3, h4⟩ := h2
  have hw : (assoc.zip c.windows).mapM (idxWin (α := α) m) = .ok ws := by
    rw [Corpus.mapM_ok_iff] at h3 ⊢
    refine h3.imp fun p x hx => ?_
    unfold recordWin at hx
    rw [pyBind_eq_ok] at hx
    obtain ⟨s, s1, s2⟩ := hx
    rw [pyBind_eq_ok] at s2
    obtain ⟨r, s2, s3⟩ := s2
    have hr : (List.range records.length)[s]? = some r := (pyGet_some _ _ _).1 s2
    have : r = s := by
      obtain ⟨q, hq⟩ := List.getElem?_eq_some_iff.1 hr
      rw [List.getElem_range] at hq
      exact hq.symm
    subst this
    unfold idxWin
    rw [pyBind_eq_ok]
    exact ⟨_, s1, s3⟩
  have hinit : Concat.init ws = .ok ⟨ws⟩ := by
    have h5 := h4
    unfold Concat.init at h4
    dsimp only at h4
    split_ifs at h4 with a b
    cases h4
    exact h5
  refine ⟨ws, hw, hinit, ?_⟩
  have hcopy : ws.map Win.copy = ws := by
    rw [List.map_congr_left (g := id), List.map_id]
    intro x hx
    obtain ⟨p, hp, hpx⟩ := mapM_mem hw hx
    unfold idxWin at hpx
    rw [pyBind_eq_ok] at hpx
    obtain ⟨s, -, hs⟩ := hpx
    cases hs
    rfl
  unfold Concat.copy
  rw [hcopy]
  exact hinit

theorem vstackRows_ok {vectors : List (List ℚ)} (h : vectors ≠ []) {n : ℕ} (hn : ∀ v ∈ vectors, v.length = n) :
    vstackRows vectors = .ok ⟨n, vectors⟩ := by
  cases vectors with
  | nil => exact absurd rfl h
  | cons v l =>
    unfold vstackRows
    simp only []
    rw [if_pos fun u hu => (hn u (List.mem_cons_of_mem _ hu)).trans (hn v List.mem_cons_self).symm,
      hn v List.mem_cons_self]

/-- The windows which the scripts build along the sounds of pairings, and these windows once loaded. -/
def Slides (files : WavFiles α) (path : R → String) (rs : List R) (wins : List (ArrayWin α)) : Prop :=
  ∃ (c : Concat α Unit) (swins : List (Concat α Unit)), concatFromListOfWavs files (rs.map path) none = .ok c ∧
    slidingWins c (1 / 2) (1 / 10) = .ok swins ∧
    List.Forall₂ (fun (s : Concat α Unit) w => s.toArray files = .ok w ∧ s.start = .ok w.start ∧ s.stop = .ok w.stop)
      swins wins

/-- Features of windows along the sounds of pairings. -/
theorem slidingFeatures_ok (T : SlidingTools α Λ) (files : WavFiles α) (rate : ℚ) (hr : 2 ≤ rate)
    (hr' : 2 * TOL * rate ≤ 1) (path : R → String) (records : List R) (m : ℕ) (assoc : List (List ℕ)) (hne : assoc ≠ [])
    (rs : List R) (hrs : List.Forall₂ (fun a r => ∃ s, a[m]? = some s ∧ records[s]? = some r) assoc rs)
    (h : ∀ r ∈ rs, (files (path r)).1 = rate)
    (hT : 1 / 2 ≤ ((rs.flatMap fun r => (files (path r)).2).length : ℚ) / rate)
    (n : ℕ) (hhac : ∀ a, ∃ v, T.hac a rate = .ok v ∧ v.length = n) :
    ∃ wins feats, Slides files path rs wins ∧ SlidAlong (rs.flatMap fun r => (files (path r)).2) rate wins ∧
      List.Forall₂ (fun w v => T.hac w.array rate = .ok v) wins feats ∧
      slidingFeatures T files path records m assoc = .ok ⟨n, feats⟩ := by
  have hr0 : 0 < rate := by linarith
  obtain ⟨hw, -⟩ := C141_records (α := α) files rate path records m assoc hne rs hrs h
  have hne' : rs.map path ≠ [] := by
    intro h0
    rw [List.map_eq_nil_iff] at h0
    subst h0
    cases hrs
    exact hne rfl
  obtain ⟨c, hc, hs, -⟩ := C141_sliding (α := α) files rate hr0 hr' (rs.map path) hne'
    (by
      intro q hq
      obtain ⟨r, hr, rfl⟩ := List.mem_map.1 hq
      exact h r hr) (1 / 2) (1 / 10)
    (by rw [div_le_div_iff₀ hr0 (by norm_num)]; linarith) (by unfold TOL; norm_num)
  have hsam : ((rs.map path).flatMap fun p => (files p).2) = rs.flatMap fun r => (files (path r)).2 := by
    rw [List.flatMap_map]
  rw [hsam] at hs
  obtain ⟨wins, h1, h2, h3⟩ := hs (Or.inl hT)
  obtain ⟨ws, i1, i2, i3⟩ := idxWins_ok hne hrs h hc
  -- arrays
  obtain ⟨arrs, ha⟩ : ∃ arrs, List.Forall₂ (fun (s : Concat α Unit) (w : ArrayWin α) => s.toArray files = .ok w ∧
      s.start = .ok w.start ∧ s.stop = .ok w.stop) wins arrs := by
    have : ∀ s ∈ wins, ∃ w : ArrayWin α, s.toArray files = .ok w ∧ s.start = .ok w.start ∧ s.stop = .ok w.stop := by
      intro w hw
      obtain ⟨i, hi⟩ := List.getElem?_of_mem hw
      obtain ⟨a, -, ha, ha', ha'', -⟩ := h3 i w hi
      exact ⟨a, ha, ha', ha''⟩
    clear h1 h2 h3
    induction wins with
    | nil => exact ⟨[], .nil⟩
    | cons w wins ih =>
      obtain ⟨a, ha⟩ := this w List.mem_cons_self
      obtain ⟨l, hl⟩ := ih fun w hw => this w (List.mem_cons_of_mem _ hw)
      exact ⟨a :: l, .cons ha hl⟩
  have hslid : SlidAlong (rs.flatMap fun r => (files (path r)).2) rate arrs := by
    constructor
    · intro i
      rw [← ha.length_eq]
      exact h2 i
    · intro i w hw
      obtain ⟨q, hq⟩ := List.getElem?_eq_some_iff.1 hw
      have hi : i < wins.length := by rw [ha.length_eq]; exact q
      obtain ⟨w', a, g1, -, -, g2, g3, g4, g5, -⟩ := h3 i wins[i] (List.getElem?_eq_getElem hi)
      have := (List.forall₂_iff_get.1 ha).2 i hi q
      rw [List.get_eq_getElem, List.get_eq_getElem, hq, g1] at this
      cases this.1
      exact ⟨a, g2, g3, g4, g5⟩
  have hrate : ∀ a ∈ arrs, a.rate = rate := by
    intro a ha'
    obtain ⟨i, hi⟩ := List.getElem?_of_mem ha'
    obtain ⟨_, ⟨_, _, _, _, _, _, _, _, _, hh⟩, -⟩ := hslid.holds i a hi
    exact hh
  obtain ⟨feats, hf⟩ : ∃ feats, List.Forall₂ (fun (w : ArrayWin α) v => T.hac w.array rate = .ok v) arrs feats := by
    clear ha hslid hrate
    induction arrs with
    | nil => exact ⟨[], .nil⟩
    | cons a l ih =>
      obtain ⟨v, hv, -⟩ := hhac a.array
      obtain ⟨l', hl'⟩ := ih
      exact ⟨v :: l', .cons hv hl'⟩
  refine ⟨arrs, feats, ⟨c, wins, hc, h1, ha⟩, hslid, hf, ?_⟩
  have hproc : wins.mapM (processWin T files) = .ok feats := by
    rw [Corpus.mapM_ok_iff]
    clear h1 h2 h3 hslid
    induction ha generalizing feats with
    | nil => cases hf; exact .nil
    | cons hab _ ih =>
      cases hf with
      | cons hv hf' =>
        refine .cons ?_ (ih (fun a ha => hrate a (List.mem_cons_of_mem _ ha)) _ hf')
        unfold processWin
        rw [hab.1]
        simp only [bind, Except.bind]
        rw [hrate _ List.mem_cons_self]
        exact hv
  have hlen : ∀ v ∈ feats, v.length = n := by
    intro v hv
    clear hproc hslid ha hrate
    induction hf with
    | nil => cases hv
    | cons hab _ ih =>
      rcases List.mem_cons.1 hv with rfl | hv
      · obtain ⟨v', h1, h2⟩ := hhac _
        rw [hab] at h1
        cases h1
        exact h2
      · exact ih hv
  have hne2 : feats ≠ [] := by
    intro h0
    subst h0
    cases hf
    have := (hslid.count 0).2 (by
      have : (0 : ℚ) < TOL := by unfold TOL; norm_num
      simp only [Nat.cast_zero, zero_mul, zero_add]
      linarith)
    simp at this
  unfold slidingFeatures
  rw [hw]
  simp only [bind, Except.bind]
  rw [hc]
  simp only []
  rw [i1]
  simp only []
  rw [i2]
  simp only []
  rw [i3]
  simp only []
  rw [h1]
  simp only []
  rw [hproc]
  exact vstackRows_ok hne2 hlen

/-- The evaluation of the script for a log whose last run is `d`. -/
theorem slidingEval_ok (T : SlidingTools α Λ) (X : Ext Λ) (measure : List ℚ → List ℚ → ℚ) (files : WavFiles α)
    (path : R → String) (records : List R) (e : Exp) (p : Prepared L) (w : World L)
    (hs : "sound".toList ∈ e.modalities) (ho : "objects".toList ∈ e.modalities)
    (ini : List (Dict Key (Val (LogVal L) Mx))) (d : Dict Key (Val (LogVal L) Mx)) (hd : w.log.exps = ini ++ [d])
    (test : List ℕ) (htest : dictGet? d "test".toList = some (.plain (.idx test))) (hin : ∀ t ∈ test, t < p.labels.length)
    (D : Mx) (hD : dictGet? d "dictionary".toList = some (.arr D))
    (h1 : "sliding_distances".toList ∉ dictKeys d) (h2 : "label_ex".toList ∉ dictKeys d)
    (assoc : List (List ℕ)) (hassoc : w.log.getValue "sample_pairing".toList = .ok (.plain (.pairing assoc)))
    (x xs xo : Mx) (hx : slidingFeatures T files path records (e.modalities.idxOf "sound".toList)
      (if e.debug then assoc.take 10 else assoc) = .ok x)
    (hxs : p.data[e.modalities.idxOf "sound".toList]? = some xs)
    (hxo : p.dataEx[e.modalities.idxOf "objects".toList]? = some xo) (C E : Mx)
    (hC : X.internal (T.restore e.modalities (p.data.map Mx.cols) p.coefs e.k D) ["sound".toList]
      [if e.debug then cutCols x xs.cols else x] e.iterTest = .ok C)
    (hE : X.internal (T.restore e.modalities (p.data.map Mx.cols) p.coefs e.k D) ["objects".toList] [xo] e.iterTest = .ok E) :
    ∃ w', slidingEval T X measure files path records e p w = (w', .ok ()) ∧
      w'.log.exps = ini ++ [d ++ [("sliding_distances".toList, .arr ⟨E.rows.length, C.rows.map fun r => E.rows.map (measure r)⟩),
        ("label_ex".toList, .plain (.idx p.labelsEx))]] ∧
      w'.log.glob = w.log.glob ∧ w'.log.filename = w.log.filename ∧ (Logger.Reach w.log → Logger.Reach w'.log) ∧
      (w.log.filename = none → w'.fs = w.fs) ∧ ∀ f, w.log.filename = some f → w'.log.save w.fs = .ok w'.fs := by
  have hlast : ∀ k v, dictGet? d k = some v → w.log.getLastValue k = .ok v := by
    intro k v hk
    unfold Logger.Logger.getLastValue
    rw [hd, List.getLast?_concat]
    simp only [hk]
  obtain ⟨l1, s1, x1, g1, f1⟩ := (store_last hd "sliding_distances".toList (.arr ⟨E.rows.length,
    Evaluation.allDistances C.rows E.rows measure⟩)).2 h1
  obtain ⟨l2, s2, x2, g2, f2⟩ := (store_last x1 "label_ex".toList (.plain (.idx p.labelsEx))).2 (by
    intro hk
    simp only [dictKeys, List.map_append, List.mem_append, List.map_cons, List.map_nil, List.mem_singleton] at hk
    rcases hk with hk | hk
    · exact h2 hk
    · exact absurd hk (by decide))
  obtain ⟨w3, v1, v2, v3, v4⟩ := saveLog_spec (⟨l2, w.fs⟩ : World L)
  refine ⟨w3, ?_, ?_, ?_, ?_, ?_, ?_, ?_⟩
  · unfold slidingEval
    rw [lift_ok (listIndex_mem hs), lift_ok (listIndex_mem ho)]
    have t1 : (lastTest : M (World L) (List ℕ)) w = (w, .ok test) := by
      unfold lastTest
      rw [hlast _ _ htest]
      rfl
    rw [bind_ok t1]
    obtain ⟨ls, hls⟩ := picks_of_lt p.labels test hin
    rw [lift_ok ((mapM_pyGet _ _ _).2 hls)]
    have t2 : (pairingOf : M (World L) (List (List ℕ))) w = (w, .ok assoc) := by
      unfold pairingOf
      rw [hassoc]
      rfl
    rw [bind_ok t2, lift_ok hx, lift_ok ((pyGet_some _ _ _).2 hxs)]
    have t3 : (lastDictionary : M (World L) Mx) w = (w, .ok D) := by
      unfold lastDictionary
      rw [hlast _ _ hD]
      rfl
    rw [bind_ok t3]
    rw [lift_ok hC, lift_ok ((pyGet_some _ _ _).2 hxo), lift_ok hE]
    have t4 : store "sliding_distances".toList (.arr ⟨E.rows.length, Evaluation.allDistances C.rows E.rows measure⟩) w =
        (⟨l1, w.fs⟩, .ok ()) := by
      unfold store onLog
      dsimp only
      rw [s1]
    rw [bind_ok t4]
    have t5 : store "label_ex".toList (.plain (.idx p.labelsEx)) (⟨l1, w.fs⟩ : World L) = (⟨l2, w.fs⟩, .ok ()) := by
      unfold store onLog
      simp only []
      rw [s2]
    rw [bind_ok t5]
    exact v1
  · rw [v2, x2, List.append_assoc]
    rfl
  · rw [v2, g2, g1]
  · rw [v2, f2, f1]
  · intro hR
    rw [v2]
    exact .store _ _ (.store _ _ hR s1) s2
  · intro hf
    exact v3 (by rw [f2, f1]; exact hf)
  · intro f hf
    rw [v2]
    exact v4 f (by rw [f2, f1]; exact hf)

theorem keysTwo_prefix {mods : List Key} {metrics : List (List ℚ → List ℚ → ℚ)} {k : Key} (h : k ∈ keysTwo mods metrics) :
    "found_".toList <+: k ∨ "score_".toList <+: k := by
  unfold keysTwo at h
  obtain ⟨c, -, h⟩ := List.mem_flatMap.1 h
  obtain ⟨m, -, h⟩ := List.mem_flatMap.1 h
  rcases List.mem_cons.1 h with rfl | h
  · exact Or.inl (List.prefix_append _ _)
  · rw [List.mem_singleton] at h
    subst h
    exact Or.inr (List.prefix_append _ _)

/-- C183, with the windows which are built. -/
theorem sliding_core [DecidableEq L] (T : SlidingTools α Λ) (X : Ext Λ) (hX : X.NoStop) (hX' : X.KeepsRows)
    (metrics : List (List ℚ → List ℚ → ℚ)) (measure : List ℚ → List ℚ → ℚ) (files : WavFiles α)
    (path : R → String) (records : List R) (Rn : Rand L) (hR : Rn.OK) (e : Exp) (hmode : e.runMode = .single)
    (hs : "sound".toList ∈ e.modalities) (ho : "objects".toList ∈ e.modalities)
    (rawLabels : List (List L)) (raw : List Mx) (hraw : raw.length = e.modalities.length) (start stop f : Key)
    (fs : Logger.FS (LogVal L) Mx) (w0 w1 : World L) (p : Prepared L)
    (hp : prepare Rn e (.ok rawLabels) (.ok raw) ⟨Logger.Logger.new (some f), fs⟩ = (w0, .ok p))
    (hrun : run X Rn e (.ok rawLabels) (.ok raw) (evaluateTwo X e metrics) start stop ⟨Logger.Logger.new (some f), fs⟩ =
      (w1, .ok ()))
    (hrestore : ∀ n ms cols cs k data it l, X.train n ms cols cs k data it = .ok l →
      ∀ ms' xs it', X.internal (T.restore ms cols cs k (X.dico l)) ms' xs it' = X.internal l ms' xs it')
    (rate : ℚ) (hr : 2 ≤ rate) (hr' : 2 * TOL * rate ≤ 1) (rs : List R)
    (hrs : List.Forall₂ (fun a r => ∃ s, a[e.modalities.idxOf "sound".toList]? = some s ∧ records[s]? = some r)
      (if e.debug then p.samplePairing.take 10 else p.samplePairing) rs)
    (hrate : ∀ r ∈ rs, (files (path r)).1 = rate)
    (hT : 1 / 2 ≤ ((rs.flatMap fun r => (files (path r)).2).length : ℚ) / rate)
    (n : ℕ) (hhac : ∀ a, ∃ v, T.hac a rate = .ok v ∧ v.length = n) :
    ∃ d learner dataTrain wins feats x xs xo, w1.log.exps = [d] ∧
      (∀ k ∈ ["sliding_distances".toList, "label_ex".toList], k ∉ dictKeys d) ∧ TrainedOn d p.data dataTrain ∧
      X.train 1 e.modalities (p.data.map Mx.cols) p.coefs e.k dataTrain e.iterTrain = .ok learner ∧
      Slides files path rs wins ∧ SlidAlong (rs.flatMap fun r => (files (path r)).2) rate wins ∧
      List.Forall₂ (fun w v => T.hac w.array rate = .ok v) wins feats ∧
      p.data[e.modalities.idxOf "sound".toList]? = some xs ∧ Shown e.debug xs.cols feats x ∧
      p.dataEx[e.modalities.idxOf "objects".toList]? = some xo ∧
      ∀ C E, X.internal learner ["sound".toList] [x] e.iterTest = .ok C →
        X.internal learner ["objects".toList] [xo] e.iterTest = .ok E →
        ∃ w2, slidingScript T X metrics measure files path records Rn e (.ok rawLabels) (.ok raw) start stop
            ⟨Logger.Logger.new (some f), fs⟩ = (w2, .ok ()) ∧
          w2.log.exps = [d ++ [("sliding_distances".toList, .arr ⟨E.rows.length, C.rows.map fun r => E.rows.map (measure r)⟩),
            ("label_ex".toList, .plain (.idx p.labelsEx))]] ∧
          w2.log.glob = w1.log.glob ∧
          (¬ (".npz".toList <:+ f) → ∀ setF, ∃ l, Logger.load w2.fs f setF true = .ok l ∧
            Logger.SameDict l.glob w2.log.glob ∧ List.Forall₂ Logger.SameDict l.exps w2.log.exps) := by
  -- what the run leaves
  have hev := fun (p : Prepared L) => onlyStores_two X e metrics p
  have hno' := fun (p : Prepared L) => two_no_stop X hX e metrics p
  obtain ⟨d0, kvs, k1, k2, k3, -, -, k6, k7, -, -⟩ := single_keys (g := fun k v => "score_".toList <+: k → IsScore v) X Rn hR e
    (.ok rawLabels) (.ok raw) _ start stop f fs w1 (keysTwo e.modalities metrics) hmode hev hX.train hno'
    (fun p learner data labels hl h0 => addsP_two hX' e metrics p learner data labels hl h0) hrun
  obtain ⟨d, train, test, r1, r2, -, r4, -⟩ := C88_single X Rn hR e _ _ _ start stop _ w0 w1 p hmode hp (hev p) hX.train
    (hno' p) hrun
  rw [k1] at r1
  have hdd : d0 ++ kvs = d := by
    have : [d0 ++ kvs] = [d] := r1
    exact List.head_eq_of_cons_eq this
  subst hdd
  have hgen : ∃ s, p.generator = .ok [s] := by
    obtain ⟨_, _, _, _, _, _, _, _, _, _, _, _, h5, _⟩ := prepare_ok hp
    obtain ⟨_, _, _, _, _, _, _, _, _, _, hgen, _⟩ := splitExamples_ok h5
    rw [hmode] at hgen
    unfold getGenerator at hgen
    rw [pyBind_eq_ok] at hgen
    obtain ⟨rs, hrs, hgen⟩ := hgen
    rcases rs with _ | ⟨s, rest⟩
    · cases hgen
    exact ⟨s, (Except.ok.inj hgen).symm⟩
  obtain ⟨s, hg⟩ := hgen
  obtain ⟨w1', rr, ds, q1, q2, q3, q4, -⟩ := C88_run X Rn e _ _ _ start stop _ w0 p _ hp hg (hev p) hX.train (hno' p)
  rw [hrun] at q1
  cases q1
  obtain ⟨-, q5, -⟩ := q4 rfl
  rw [k1] at q2
  have hds : ds = [d0 ++ kvs] := by
    have : [d0 ++ kvs] = [] ++ ds := q2
    simpa using this.symm
  obtain ⟨dataTrain, learner, t1, t2, t3⟩ := q5 0 (d0 ++ kvs) s (by rw [hds]; rfl) rfl
  have htr := (q3 0 (d0 ++ kvs) s (by rw [hds]; rfl) rfl).train
  -- pairing
  have hpair : w1.log.getValue "sample_pairing".toList = .ok (.plain (.pairing p.samplePairing)) := by
    have := C88_globals X Rn e _ _ _ start stop _ w0 p _ hp hg (hev p) hX.train (hno' p)
      "sample_pairing".toList (by decide) (by decide)
    rw [hrun] at this
    rw [this]
    exact (C87_logged Rn e _ _ _ w0 p hp).2.1
  have hne : (if e.debug then p.samplePairing.take 10 else p.samplePairing) ≠ [] := by
    intro h0
    rw [h0] at hrs
    cases hrs
    norm_num at hT
  obtain ⟨wins, feats, hsl, hslid, hfeat, hsf⟩ := slidingFeatures_ok T files rate hr hr' path records _ _ hne rs hrs hrate hT n hhac
  obtain ⟨-, -, -, -, -, -, le, ld, -⟩ := C87_examples Rn hR e rawLabels raw _ w0 p hp
  obtain ⟨xs, hxs⟩ : ∃ xs, p.data[e.modalities.idxOf "sound".toList]? = some xs :=
    ⟨_, List.getElem?_eq_getElem (by rw [ld, hraw]; exact List.idxOf_lt_length_of_mem hs)⟩
  obtain ⟨xo, hxo⟩ : ∃ xo, p.dataEx[e.modalities.idxOf "objects".toList]? = some xo :=
    ⟨_, List.getElem?_eq_getElem (by rw [le, hraw]; exact List.idxOf_lt_length_of_mem ho)⟩
  have hkey : ∀ k, k ∈ ["sliding_distances".toList, "label_ex".toList] → k ∉ dictKeys (d0 ++ kvs) := by
    intro k hk hmem
    have hsplit : k ∈ FIRST_KEYS ∨ k ∈ keysTwo e.modalities metrics := by
      rw [← k2, ← k3]
      simpa [dictKeys] using hmem
    rcases hsplit with h | h
    · have : ∀ k ∈ ["sliding_distances".toList, "label_ex".toList], k ∉ FIRST_KEYS := by
        decide
      exact this k hk h
    · have h3 := keysTwo_prefix h
      have : ∀ k ∈ ["sliding_distances".toList, "label_ex".toList], ¬ ("found_".toList <+: k ∨ "score_".toList <+: k) := by
        decide
      exact this k hk h3
  refine ⟨d0 ++ kvs, learner, dataTrain, wins, feats, if e.debug then cutCols ⟨n, feats⟩ xs.cols else ⟨n, feats⟩, xs, xo, k1,
    hkey, ⟨_, htr, t1⟩, t2, hsl, hslid, hfeat, hxs, ?_, hxo, ?_⟩
  · unfold Shown cutCols
    cases e.debug
    · simp [List.forall₂_same]
    · simp [List.forall₂_map_right_iff, List.forall₂_same]
  intro C E hC hE
  obtain ⟨w2, u1, u2, u3, u4, u5, -, u7⟩ := slidingEval_ok T X measure files path records e p w1 hs ho [] (d0 ++ kvs)
    (by rw [k1]; rfl) test r2
    (by
      intro t ht
      have := (r4.mem_iff (a := t)).1 (List.mem_append_right _ ht)
      exact List.mem_range.1 this)
    (X.dico learner) t3 (hkey _ List.mem_cons_self) (hkey _ (List.mem_cons_of_mem _ List.mem_cons_self))
    p.samplePairing hpair ⟨n, feats⟩ xs xo hsf hxs hxo C E (by rw [hrestore _ _ _ _ _ _ _ _ t2]; exact hC)
    (by rw [hrestore _ _ _ _ _ _ _ _ t2]; exact hE)
  refine ⟨w2, ?_, u2, u3, ?_⟩
  · unfold slidingScript
    rw [hrun, hp]
    exact u1
  · intro hf setF
    obtain ⟨fs', l, a1, a2, a3, a4, -⟩ := Logger.C72_save_load w1.fs w2.log f setF (Logger.C72_reachable_wf _ (u5 k7))
      (u4.trans k6) (Or.inl hf)
    rw [u7 f k6] at a1
    cases a1
    exact ⟨l, a2, a3, a4⟩

/-- **C183.** When the experiment fails the script fails in the same way, with the log which the experiment left. -/
theorem C183_failed [DecidableEq L] (T : SlidingTools α Λ) (X : Ext Λ) (metrics : List (List ℚ → List ℚ → ℚ))
    (measure : List ℚ → List ℚ → ℚ) (files : WavFiles α) (path : R → String) (records : List R) (Rn : Rand L) (e : Exp)
    (rawLabels : Py (List (List L))) (raw : Py (List Mx)) (start stop : Key) (w w' : World L) (x : PyErr)
    (hrun : run X Rn e rawLabels raw (evaluateTwo X e metrics) start stop w = (w', .error x)) :
    slidingScript T X metrics measure files path records Rn e rawLabels raw start stop w = (w', .error x) := by
  unfold slidingScript
  rw [hrun]

/-- **C183.** The script after a successful experiment: it adds to the log of the run the distances between the windows of
half a second, each tenth of a second, of the sounds of all pairings one after another (of the first ten in debug mode)
and the examples of objects, both as internal coefficients of the learner of this run, and the labels of examples.
Nothing else of the log changes; what is then loaded from the file is this log. -/
theorem C183_sliding [DecidableEq L] (T : SlidingTools α Λ) (X : Ext Λ) (hX : X.NoStop) (hX' : X.KeepsRows)
    (metrics : List (List ℚ → List ℚ → ℚ)) (measure : List ℚ → List ℚ → ℚ) (files : WavFiles α)
    (path : R → String) (records : List R) (Rn : Rand L) (hR : Rn.OK) (e : Exp) (hmode : e.runMode = .single)
    (hs : "sound".toList ∈ e.modalities) (ho : "objects".toList ∈ e.modalities)
    (rawLabels : List (List L)) (raw : List Mx) (hraw : raw.length = e.modalities.length) (start stop f : Key)
    (fs : Logger.FS (LogVal L) Mx) (w0 w1 : World L) (p : Prepared L)
    (hp : prepare Rn e (.ok rawLabels) (.ok raw) ⟨Logger.Logger.new (some f), fs⟩ = (w0, .ok p))
    (hrun : run X Rn e (.ok rawLabels) (.ok raw) (evaluateTwo X e metrics) start stop ⟨Logger.Logger.new (some f), fs⟩ =
      (w1, .ok ()))
    (hrestore : ∀ n ms cols cs k data it l, X.train n ms cols cs k data it = .ok l →
      ∀ ms' xs it', X.internal (T.restore ms cols cs k (X.dico l)) ms' xs it' = X.internal l ms' xs it')
    (rate : ℚ) (hr : 2 ≤ rate) (hr' : 2 * TOL * rate ≤ 1) (rs : List R)
    (hrs : List.Forall₂ (fun a r => ∃ s, a[e.modalities.idxOf "sound".toList]? = some s ∧ records[s]? = some r)
      (if e.debug then p.samplePairing.take 10 else p.samplePairing) rs)
    (hrate : ∀ r ∈ rs, (files (path r)).1 = rate)
    (hT : 1 / 2 ≤ ((rs.flatMap fun r => (files (path r)).2).length : ℚ) / rate)
    (n : ℕ) (hhac : ∀ a, ∃ v, T.hac a rate = .ok v ∧ v.length = n) :
    ∃ d learner dataTrain wins feats x xs xo, w1.log.exps = [d] ∧ TrainedOn d p.data dataTrain ∧
      X.train 1 e.modalities (p.data.map Mx.cols) p.coefs e.k dataTrain e.iterTrain = .ok learner ∧
      SlidAlong (rs.flatMap fun r => (files (path r)).2) rate wins ∧
      List.Forall₂ (fun w v => T.hac w.array rate = .ok v) wins feats ∧
      p.data[e.modalities.idxOf "sound".toList]? = some xs ∧ Shown e.debug xs.cols feats x ∧
      p.dataEx[e.modalities.idxOf "objects".toList]? = some xo ∧
      ∀ C E, X.internal learner ["sound".toList] [x] e.iterTest = .ok C →
        X.internal learner ["objects".toList] [xo] e.iterTest = .ok E →
        ∃ w2, slidingScript T X metrics measure files path records Rn e (.ok rawLabels) (.ok raw) start stop
            ⟨Logger.Logger.new (some f), fs⟩ = (w2, .ok ()) ∧
          w2.log.exps = [d ++ [("sliding_distances".toList, .arr ⟨E.rows.length, C.rows.map fun r => E.rows.map (measure r)⟩),
            ("label_ex".toList, .plain (.idx p.labelsEx))]] ∧
          w2.log.glob = w1.log.glob ∧
          (¬ (".npz".toList <:+ f) → ∀ setF, ∃ l, Logger.load w2.fs f setF true = .ok l ∧
            Logger.SameDict l.glob w2.log.glob ∧ List.Forall₂ Logger.SameDict l.exps w2.log.exps) := by
  obtain ⟨d, learner, dataTrain, wins, feats, x, xs, xo, h1, -, ht, h2, -, h3⟩ := sliding_core T X hX hX' metrics measure files path
    records Rn hR e hmode hs ho rawLabels raw hraw start stop f fs w0 w1 p hp hrun hrestore rate hr hr' rs hrs hrate hT n hhac
  exact ⟨d, learner, dataTrain, wins, feats, x, xs, xo, h1, ht, h2, h3⟩

end Verif.Samples
