import Verif.Samples.SlidingPlot
import Verif.Samples.PropsSlidingEval
import Verif.Samples.PropsLabels
import Verif.Plots.PropsView

/-!
# Property C186: what is shown of the recognition along sentences
-/

namespace Verif.Samples

open Verif Verif.Window Verif.Plots
open Verif.Logger (Key Val)
open Verif.Experiment

variable {α L R Λ : Type}

/-! ### Specification -/

/-- The windows of records one after another: each has the duration of the sound of its record. -/
def OneAfterAnother (files : WavFiles α) (path : R → String) (rate : ℚ) (rs : List R) (c : Concat Unit R) : Prop :=
  c.windows.length = rs.length ∧ ∀ pre r post, rs = pre ++ r :: post →
    c.windows[pre.length]? = some (.basic ⟨(samplesBefore files path pre : ℚ) / rate,
      ((samplesBefore files path pre : ℚ) + (files (path r)).2.length) / rate, r⟩)

/-- The records which are shown as test records: those of the samples at the positions of the test, in the list of all
samples (see C137: test positions are among the samples which are not examples). -/
def ShownAsTest (d : Dict Key (Val (LogVal L) Mx)) (records : List R) (m : ℕ) (assoc : List (List ℕ)) (r : R) : Prop :=
  ∃ test t a s, dictGet? d "test".toList = some (.plain (.idx test)) ∧ t ∈ test ∧ assoc[t]? = some a ∧ a[m]? = some s ∧
    records[s]? = some r

/-! ### Windows of records -/

theorem samplesBefore_append (files : WavFiles α) (path : R → String) (a b : List R) :
    samplesBefore files path (a ++ b) = samplesBefore files path a + samplesBefore files path b := by
  unfold samplesBefore
  simp

theorem samplesBefore_all (files : WavFiles α) (path : R → String) (rs : List R) :
    samplesBefore files path rs = (rs.flatMap fun r => (files (path r)).2).length := by
  unfold samplesBefore
  simp [List.length_flatMap, Function.comp_def]

theorem oneAfterAnother_facts {files : WavFiles α} {path : R → String} {rate : ℚ} (hr : 0 < rate) {rs : List R}
    {c : Concat Unit R} (h : OneAfterAnother files path rate rs c) (hne : rs ≠ []) :
    Aligned c.windows ∧ (∀ w ∈ c.windows, ∃ x, w = .basic x) ∧ (∀ w ∈ c.windows, w.start ≤ w.stop) ∧
    c.start = .ok 0 ∧ c.stop = .ok (((rs.flatMap fun r => (files (path r)).2).length : ℚ) / rate) := by
  obtain ⟨hl, hat⟩ := h
  have hget : ∀ (i : ℕ) (hi : i < rs.length), c.windows[i]? = some (.basic
      ⟨(samplesBefore files path (rs.take i) : ℚ) / rate, (samplesBefore files path (rs.take (i + 1)) : ℚ) / rate, rs[i]⟩) := by
    intro i hi
    have := hat (rs.take i) rs[i] (rs.drop (i + 1)) (by rw [List.getElem_cons_drop, List.take_append_drop])
    rw [List.length_take, Nat.min_eq_left hi.le] at this
    rw [this, ← List.take_append_getElem hi, samplesBefore_append]
    unfold samplesBefore
    simp
  have hwin : ∀ w ∈ c.windows, ∃ i, ∃ hi : i < rs.length, w = .basic
      ⟨(samplesBefore files path (rs.take i) : ℚ) / rate, (samplesBefore files path (rs.take (i + 1)) : ℚ) / rate, rs[i]⟩ := by
    intro w hw
    obtain ⟨i, hi⟩ := List.getElem?_of_mem hw
    have hi' : i < rs.length := by
      rw [← hl]
      exact (List.getElem?_eq_some_iff.1 hi).1
    refine ⟨i, hi', ?_⟩
    rw [hget i hi'] at hi
    exact (Option.some.inj hi).symm
  refine ⟨?_, ?_, ?_, ?_, ?_⟩
  · unfold Aligned
    rw [List.isChain_iff_getElem]
    intro i hi
    have h1 := hget i (by omega)
    have h2 := hget (i + 1) (by omega)
    rw [List.getElem?_eq_getElem (by omega)] at h1 h2
    rw [Option.some.inj h1, Option.some.inj h2]
    rfl
  · intro w hw
    obtain ⟨i, hi, rfl⟩ := hwin w hw
    exact ⟨_, rfl⟩
  · intro w hw
    obtain ⟨i, hi, rfl⟩ := hwin w hw
    show (samplesBefore files path (rs.take i) : ℚ) / rate ≤ (samplesBefore files path (rs.take (i + 1)) : ℚ) / rate
    rw [← List.take_append_getElem hi, samplesBefore_append]
    push_cast
    gcongr
    exact le_add_of_nonneg_right (Nat.cast_nonneg _)
  · have h0 := hget 0 (List.length_pos_iff.2 hne)
    unfold Concat.start
    rw [List.head?_eq_getElem?, h0]
    simp [Win.start, samplesBefore]
  · have hpos := List.length_pos_iff.2 hne
    have h0 := hget (rs.length - 1) (by omega)
    unfold Concat.stop
    rw [List.getLast?_eq_getElem?, hl, h0]
    simp only [Win.stop]
    rw [show rs.length - 1 + 1 = rs.length by omega, List.take_length, samplesBefore_all]

/-! ### What the script computes from the log -/

theorem logGet {l : Log L} {v : Val (LogVal L) Mx} {k : Key} (h : dictGet? l.glob k = some v) : l.getValue k = .ok v := by
  unfold Logger.Logger.getValue
  rw [h]

/-- The windows and similarities, from the contents of a log. -/
theorem slidingView_ok [DecidableEq L] (files : WavFiles α) (rate : ℚ) (path : R → String) (records : List R) (raw : List L)
    (l : Log L) (mods : List Key) (hs : "sound".toList ∈ mods) (assoc : List (List ℕ)) (hne : assoc ≠ []) (names : List (List L))
    (nm : List L) (test idx labs ex : List ℕ) (D : Mx)
    (h1 : l.getValue "modalities".toList = .ok (.plain (.mods mods)))
    (h2 : l.getValue "sample_pairing".toList = .ok (.plain (.pairing assoc)))
    (h3 : l.getValue "label_pairing".toList = .ok (.plain (.names names)))
    (hnm : names[mods.idxOf "sound".toList]? = some nm)
    (h4 : l.getLastValue "test".toList = .ok (.plain (.idx test)))
    (h5 : l.getLastValue "sliding_distances".toList = .ok (.arr D))
    (h6 : l.getLastValue "label_ex".toList = .ok (.plain (.idx ex)))
    (hidx : slidingTestIdx assoc (mods.idxOf "sound".toList) test = .ok idx)
    (hlabs : slidingTestLabels nm raw idx = .ok labs) (exl : List L) (hex : Picks nm ex exl) (rs : List R)
    (hrs : List.Forall₂ (fun a r => ∃ s, a[mods.idxOf "sound".toList]? = some s ∧ records[s]? = some r) assoc rs)
    (hrate : ∀ r ∈ rs, (files (path r)).1 = rate) (wins : List (ArrayWin α)) (hsl : Slides files path rs wins) :
    ∃ v, slidingView files path records raw l = .ok v ∧ Picks records idx v.testRecords ∧ v.testLabels = labs ∧
      v.names = nm ∧ OneAfterAnother files path rate rs v.records ∧
      v.sliding = wins.map (fun w => ⟨w.start, w.stop, ()⟩) ∧
      v.similarities = D.rows.map (fun r => r.map fun x => -x) ∧ v.exampleLabels = exl := by
  obtain ⟨c, swins, c1, c2, c3⟩ := hsl
  obtain ⟨hw, c', rc, r1, r2, r3, r4⟩ := C141_records (α := α) files rate path records _ assoc hne rs hrs hrate
  rw [c1] at r1
  cases r1
  -- test records
  obtain ⟨tr, htr⟩ : ∃ tr, Picks records idx tr := by
    apply picks_of_lt
    intro i hi
    obtain ⟨t, ht, hti⟩ := mapM_mem hidx hi
    rw [pyBind_eq_ok] at hti
    obtain ⟨a, ha, hai⟩ := hti
    have ha' : a ∈ assoc := pyGet_mem ha
    obtain ⟨j, hj, rfl⟩ := List.mem_iff_getElem.1 ha'
    obtain ⟨s, s1, s2⟩ := (List.forall₂_iff_get.1 hrs).2 j hj (by rw [← hrs.length_eq]; exact hj)
    rw [List.get_eq_getElem] at s1
    have := (pyGet_some _ _ _).1 hai
    rw [s1] at this
    cases this
    exact (List.getElem?_eq_some_iff.1 s2).1
  -- windows of records
  obtain ⟨ws, hws⟩ : ∃ ws : List (Win Unit R), ws = rc.windows.map fun w => .basic ⟨w.start, w.stop, match w with
      | .basic x => x.obj
      | _ => (rs.head?.getD (rs.head (by intro h0; subst h0; cases hrs; exact hne rfl)))⟩ := ⟨_, rfl⟩
  have hall : ∀ (i : ℕ) (hi : i < rs.length), rc.windows[i]? = some (.basic
      ⟨(samplesBefore files path (rs.take i) : ℚ) / rate,
        ((samplesBefore files path (rs.take i) : ℚ) + (files (path rs[i])).2.length) / rate, rs[i]⟩) := by
    intro i hi
    have := r4 (rs.take i) rs[i] (rs.drop (i + 1)) (by rw [List.getElem_cons_drop, List.take_append_drop])
    rwa [List.length_take, Nat.min_eq_left hi.le] at this
  have hbas : ∀ w ∈ rc.windows, ∃ x, w = .basic x := by
    intro w hw
    obtain ⟨i, hi⟩ := List.getElem?_of_mem hw
    have hi' : i < rs.length := by
      rw [← hrs.length_eq, ← r3]
      exact (List.getElem?_eq_some_iff.1 hi).1
    rw [hall i hi'] at hi
    exact ⟨_, (Option.some.inj hi).symm⟩
  have hwo : rc.windows.mapM withoutSamples = .ok ws := by
    rw [hws]
    apply mapM_ok
    intro w hw
    obtain ⟨x, rfl⟩ := hbas w hw
    rfl
  have hone : OneAfterAnother files path rate rs ⟨ws⟩ := by
    constructor
    · show ws.length = _
      rw [hws, List.length_map, r3, hrs.length_eq]
    · intro pre r post hsplit
      show ws[pre.length]? = _
      rw [hws, List.getElem?_map, r4 pre r post hsplit]
      rfl
  have htimes : swins.mapM timesOf = .ok (wins.map fun w => (⟨w.start, w.stop, ()⟩ : BasicWin Unit)) := by
    rw [Corpus.mapM_ok_iff, List.forall₂_map_right_iff]
    refine c3.imp fun s w hsw => ?_
    unfold timesOf
    rw [hsw.2.1, hsw.2.2]
    rfl
  refine ⟨⟨tr, labs, nm, ⟨ws⟩, _, _, exl⟩, ?_, htr, rfl, rfl, hone, rfl, rfl, rfl⟩
  unfold slidingView logModalities logPairing logNames logDistances logIndices
  rw [h1, h2, h3, h4, h5, h6]
  simp only [bind, Except.bind, pure, Except.pure]
  rw [listIndex_mem hs]
  simp only []
  rw [hidx]
  simp only []
  rw [(mapM_pyGet _ _ _).2 htr]
  simp only []
  rw [hw]
  simp only []
  rw [(pyGet_some _ _ _).2 hnm]
  simp only []
  rw [hlabs]
  simp only []
  rw [c1]
  simp only []
  rw [r2]
  simp only []
  rw [hwo]
  simp only []
  rw [c2]
  simp only []
  rw [htimes]
  simp only []
  rw [(mapM_pyGet _ _ _).2 hex]


theorem dictGet?_fresh {K V : Type} [DecidableEq K] {d : Dict K V} {k : K} (h : k ∉ dictKeys d) : dictGet? d k = none := by
  rw [← Option.not_isSome_iff_eq_none, dictGet?_isSome]
  exact h

theorem getLast_same {l : Log L} {d : Dict Key (Val (LogVal L) Mx)} (h : List.Forall₂ Logger.SameDict l.exps [d]) {k : Key}
    {v : Val (LogVal L) Mx} (hv : dictGet? d k = some v) : l.getLastValue k = .ok v := by
  unfold Logger.Logger.getLastValue
  generalize hx : l.exps = x at h
  cases h with
  | cons hd ht =>
    cases ht
    have hk := hd k
    rw [hv] at hk
    simp only [List.getLast?_singleton, hk]

theorem slides_unique {files : WavFiles α} {path : R → String} {rs : List R} {a b : List (ArrayWin α)}
    (ha : Slides files path rs a) (hb : Slides files path rs b) : a = b := by
  obtain ⟨c, s, c1, c2, c3⟩ := ha
  obtain ⟨c', s', d1, d2, d3⟩ := hb
  rw [c1] at d1
  cases d1
  rw [c2] at d2
  cases d2
  clear c2
  induction c3 generalizing b with
  | nil => cases d3; rfl
  | cons h _ ih =>
    cases d3 with
    | cons h' t' =>
      rw [ih t']
      have := h.1.symm.trans h'.1
      cases this
      rfl

/-- What the script computes from the log of the evaluation along sentences. -/
theorem plot_core [DecidableEq L] (T : SlidingTools α Λ) (X : Ext Λ) (hX : X.NoStop) (hX' : X.KeepsRows)
    (metrics : List (List ℚ → List ℚ → ℚ)) (measure : List ℚ → List ℚ → ℚ) (files : WavFiles α)
    (path : R → String) (records : List R) (Rn : Rand L) (hR : Rn.OK) (e : Exp) (hmode : e.runMode = .single)
    (hs : "sound".toList ∈ e.modalities) (ho : "objects".toList ∈ e.modalities)
    (rawLabels : List (List L)) (raw : List Mx) (hraw : raw.length = e.modalities.length) (start stop f : Key)
    (hf : ¬ (".npz".toList <:+ f))
    (fs : Logger.FS (LogVal L) Mx) (w0 w1 : World L) (p : Prepared L)
    (hp : prepare Rn e (.ok rawLabels) (.ok raw) ⟨Logger.Logger.new (some f), fs⟩ = (w0, .ok p))
    (hrun : run X Rn e (.ok rawLabels) (.ok raw) (evaluateTwo X e metrics) start stop ⟨Logger.Logger.new (some f), fs⟩ =
      (w1, .ok ()))
    (hrestore : ∀ n ms cols cs k data it l, X.train n ms cols cs k data it = .ok l →
      ∀ ms' xs it', X.internal (T.restore ms cols cs k (X.dico l)) ms' xs it' = X.internal l ms' xs it')
    (rate : ℚ) (hr : 2 ≤ rate) (hr' : 2 * TOL * rate ≤ 1) (rs : List R)
    (hrs : List.Forall₂ (fun a r => ∃ s, a[e.modalities.idxOf "sound".toList]? = some s ∧ records[s]? = some r)
      p.samplePairing rs)
    (hrate : ∀ r ∈ rs, (files (path r)).1 = rate)
    (hT : 1 / 2 ≤ (((if e.debug then rs.take 10 else rs).flatMap fun r => (files (path r)).2).length : ℚ) / rate)
    (n : ℕ) (hhac : ∀ a, ∃ v, T.hac a rate = .ok v ∧ v.length = n)
    (soundLabels : List L) (hlab : rawLabels[e.modalities.idxOf "sound".toList]? = some soundLabels) :
    ∃ d learner dataTrain wins shown feats x xs xo, w1.log.exps = [d] ∧ TrainedOn d p.data dataTrain ∧
      X.train 1 e.modalities (p.data.map Mx.cols) p.coefs e.k dataTrain e.iterTrain = .ok learner ∧
      (e.debug = false → wins = shown) ∧
      SlidAlong ((if e.debug then rs.take 10 else rs).flatMap fun r => (files (path r)).2) rate wins ∧
      SlidAlong (rs.flatMap fun r => (files (path r)).2) rate shown ∧
      List.Forall₂ (fun w v => T.hac w.array rate = .ok v) wins feats ∧
      p.data[e.modalities.idxOf "sound".toList]? = some xs ∧ Shown e.debug xs.cols feats x ∧
      p.dataEx[e.modalities.idxOf "objects".toList]? = some xo ∧
      ∀ C E, X.internal learner ["sound".toList] [x] e.iterTest = .ok C →
        X.internal learner ["objects".toList] [xo] e.iterTest = .ok E →
        C.rows.length = wins.length ∧ E.rows.length = p.examples.length ∧ p.examples ≠ [] ∧
        ∃ w2, slidingScript T X metrics measure files path records Rn e (.ok rawLabels) (.ok raw) start stop
            ⟨Logger.Logger.new (some f), fs⟩ = (w2, .ok ()) ∧
          ∀ setF, ∃ l v, Logger.load w2.fs f setF true = .ok l ∧
            slidingView files path records soundLabels l = .ok v ∧
            v.sliding = shown.map (fun w => ⟨w.start, w.stop, ()⟩) ∧
            v.similarities = C.rows.map (fun r => E.rows.map fun o => -measure r o) ∧
            List.Forall₂ (fun i x => ∃ t r, p.samplePairing[i]? = some t ∧
              t[e.modalities.idxOf "sound".toList]? = some r ∧ soundLabels[r]? = some x) p.examples v.exampleLabels ∧
            OneAfterAnother files path rate rs v.records ∧
            ∀ r, r ∈ v.testRecords ↔ ShownAsTest d records (e.modalities.idxOf "sound".toList) p.samplePairing r := by
  have hev := fun (p : Prepared L) => onlyStores_two X e metrics p
  have hno' := fun (p : Prepared L) => two_no_stop X hX e metrics p
  have hrs' : List.Forall₂ (fun a r => ∃ s, a[e.modalities.idxOf "sound".toList]? = some s ∧ records[s]? = some r)
      (if e.debug then p.samplePairing.take 10 else p.samplePairing) (if e.debug then rs.take 10 else rs) := by
    cases e.debug
    · exact hrs
    · exact List.forall₂_take _ hrs
  have hrate' : ∀ r ∈ (if e.debug then rs.take 10 else rs), (files (path r)).1 = rate := by
    intro r hr
    apply hrate
    cases hd : e.debug
    · rw [hd] at hr; exact hr
    · rw [hd] at hr; exact List.mem_of_mem_take hr
  obtain ⟨d, learner, dataTrain, wins, feats, x, xs, xo, k1, kf, kt, k2, k3, k4, k5, k6, k7, k8, k9⟩ := sliding_core T X hX hX' metrics
    measure files path records Rn hR e hmode hs ho rawLabels raw hraw start stop f fs w0 w1 p hp hrun hrestore rate hr hr' _
    hrs' hrate' hT n hhac
  have hne : p.samplePairing ≠ [] := by
    intro h0
    rw [h0] at hrs
    cases hrs
    simp at hT
    norm_num at hT
  have hTall : 1 / 2 ≤ ((rs.flatMap fun r => (files (path r)).2).length : ℚ) / rate := by
    refine hT.trans ?_
    have : 0 < rate := by linarith
    gcongr
    cases e.debug
    · exact le_rfl
    · simp only [if_true]
      conv_rhs => rw [← List.take_append_drop 10 rs, List.flatMap_append, List.length_append]
      omega
  obtain ⟨shown, -, s1, s2, -, -⟩ := slidingFeatures_ok T files rate hr hr' path records _ _ hne rs hrs hrate hTall n hhac
  -- examples
  obtain ⟨q1, q2, -, q4, q5, -, q7, -, q9, q10, -⟩ := C87_examples Rn hR e rawLabels raw _ w0 p hp
  have hexne : p.examples ≠ [] := by
    intro h0
    have hl : 0 < p.labelsAll.length := by
      have := List.length_pos_iff.2 hne
      rw [q4]
      split <;> omega
    obtain ⟨i, ⟨hi, -⟩, -⟩ := q1 p.labelsAll[0] (List.getElem_mem hl)
    rw [h0] at hi
    cases hi
  have hxo : xo.rows.length = p.examples.length := by
    obtain ⟨_, _, _, _, _, _, _, _, _, _, _, _, g5, _⟩ := prepare_ok hp
    obtain ⟨_, _, _, _, g6, _, g7, _⟩ := splitExamples_ok g5
    have hm := (List.getElem?_eq_some_iff.1 k8)
    obtain ⟨hm, hm'⟩ := hm
    have := ((List.forall₂_iff_get.1 g7).2 _ (by rw [g7.length_eq]; exact hm) hm).2
    rw [List.get_eq_getElem, List.get_eq_getElem, hm'] at this
    have := congrArg List.length this
    rw [g6]
    simpa using this
  refine ⟨d, learner, dataTrain, wins, shown, feats, x, xs, xo, k1, kt, k2, ?_, k4, s2, k5, k6, k7, k8, ?_⟩
  · intro hd
    rw [hd] at k3
    exact slides_unique k3 s1
  intro C E hC hE
  have hCl : C.rows.length = wins.length := by
    rw [hX'.internal _ _ _ _ _ x.rows.length hC (by simp) (by simp), k5.length_eq, k7.length_eq]
  have hEl : E.rows.length = p.examples.length := by
    rw [hX'.internal _ _ _ _ _ xo.rows.length hE (by simp) (by simp), hxo]
  refine ⟨hCl, hEl, hexne, ?_⟩
  obtain ⟨w2, u1, u2, u3, u4⟩ := k9 C E hC hE
  refine ⟨w2, u1, ?_⟩
  intro setF
  obtain ⟨l, v1, v2, v3⟩ := u4 hf setF
  -- what is in the log
  obtain ⟨d', train, test, r1, r2, -, r4, -⟩ := C88_single X Rn hR e _ _ _ start stop _ w0 w1 p hmode hp (hev p) hX.train
    (hno' p) hrun
  have hdd : d' = d := by
    rw [k1] at r1
    have : [d] = [] ++ [d'] := r1
    simpa using this.symm
  subst hdd
  obtain ⟨s, hg⟩ : ∃ s, p.generator = .ok [s] := by
    obtain ⟨_, _, _, _, _, _, _, _, _, _, _, _, h5, _⟩ := prepare_ok hp
    obtain ⟨_, _, _, _, _, _, _, _, _, _, hgen, _⟩ := splitExamples_ok h5
    rw [hmode] at hgen
    unfold getGenerator at hgen
    rw [pyBind_eq_ok] at hgen
    obtain ⟨rs, hrs, hgen⟩ := hgen
    rcases rs with _ | ⟨s, rest⟩
    · cases hgen
    exact ⟨s, (Except.ok.inj hgen).symm⟩
  have hglob : ∀ k v, w0.log.getValue k = .ok v → k ≠ "start_time".toList → k ≠ "end_time".toList →
      l.getValue k = .ok v := by
    intro k v hk h1 h2
    have := C88_globals X Rn e _ _ _ start stop _ w0 p _ hp hg (hev p) hX.train (hno' p) k h1 h2
    rw [hrun] at this
    have hk' : w1.log.getValue k = .ok v := this.trans hk
    unfold Logger.Logger.getValue at hk' ⊢
    rw [v2 k, u3]
    exact hk'
  obtain ⟨g1, g2, -, g4, -⟩ := C87_logged Rn e _ _ _ w0 p hp
  have hlast : ∀ k v, dictGet? (d' ++ [("sliding_distances".toList, .arr ⟨E.rows.length, C.rows.map fun r => E.rows.map (measure r)⟩),
        ("label_ex".toList, .plain (.idx p.labelsEx))]) k = some v → l.getLastValue k = .ok v := by
    intro k v hk
    rw [u2] at v3
    exact getLast_same v3 hk
  have hsd : dictGet? (d' ++ [("sliding_distances".toList, .arr ⟨E.rows.length, C.rows.map fun r => E.rows.map (measure r)⟩),
        ("label_ex".toList, .plain (.idx p.labelsEx))]) "sliding_distances".toList =
      some (.arr ⟨E.rows.length, C.rows.map fun r => E.rows.map (measure r)⟩) := by
    rw [dictGet?_append, dictGet?_fresh (kf _ List.mem_cons_self)]
    rfl
  have hle : dictGet? (d' ++ [("sliding_distances".toList, .arr ⟨E.rows.length, C.rows.map fun r => E.rows.map (measure r)⟩),
        ("label_ex".toList, .plain (.idx p.labelsEx))]) "label_ex".toList = some (.plain (.idx p.labelsEx)) := by
    rw [dictGet?_append, dictGet?_fresh (kf _ (List.mem_cons_of_mem _ List.mem_cons_self))]
    rfl
  -- labels of examples
  obtain ⟨names, assoc, nm, idx, labs, t1, t2, t3, t4, t5, -, -⟩ := C137_test_labels Rn hR e rawLabels _ _ w0 p hp _ _ hlab test
    (by
      intro t ht
      have := (r4.mem_iff (a := t)).1 (List.mem_append_right _ ht)
      exact List.mem_range.1 this)
  rw [g1] at t1
  cases t1
  rw [g2] at t2
  cases t2
  have hexl : ∀ i ∈ p.examples, ∃ v x t r, p.labelsAll[i]? = some v ∧ nm[v]? = some x ∧ p.samplePairing[i]? = some t ∧
      t[e.modalities.idxOf "sound".toList]? = some r ∧ soundLabels[r]? = some x := by
    intro i hi
    have hlt : i < p.labelsAll.length :=
      List.mem_range.1 ((q2.mem_iff (a := i)).1 (List.mem_append_left _ hi))
    have hlt' : i < p.samplePairing.length := by
      rw [q4] at hlt
      split at hlt <;> omega
    obtain ⟨r, x, a1, a2, a3⟩ := q10 i _ _ (List.getElem?_eq_getElem hlt) (List.getElem?_eq_getElem hlt') _ _ _ hlab t3
    exact ⟨_, x, _, r, List.getElem?_eq_getElem hlt, a3, List.getElem?_eq_getElem hlt', a1, a2⟩
  obtain ⟨exl, hexp, hexf⟩ : ∃ exl, Picks nm p.labelsEx exl ∧ List.Forall₂ (fun i x => ∃ t r, p.samplePairing[i]? = some t ∧
      t[e.modalities.idxOf "sound".toList]? = some r ∧ soundLabels[r]? = some x) p.examples exl := by
    clear hEl hexne hxo q1 q2 q9
    generalize p.examples = exs at q5 hexl
    generalize p.labelsEx = les at q5
    induction exs generalizing les with
    | nil =>
      have : les = [] := by
        have := congrArg List.length q5
        simpa using this
      subst this
      exact ⟨[], rfl, .nil⟩
    | cons i exs ih =>
      rcases les with _ | ⟨v, les⟩
      · have := congrArg List.length q5
        simp at this
      · unfold Picks at q5
        rw [List.map_cons, List.map_cons, List.cons.injEq] at q5
        obtain ⟨exl, y1, y2⟩ := ih (fun i hi => hexl i (List.mem_cons_of_mem _ hi)) les q5.2
        obtain ⟨v', x, t, r, b1, b2, b3, b4, b5⟩ := hexl i List.mem_cons_self
        rw [b1] at q5
        have hv : v = v' := Option.some.inj q5.1
        subst hv
        refine ⟨x :: exl, ?_, .cons ⟨t, r, b3, b4, b5⟩ y2⟩
        unfold Picks at y1 ⊢
        rw [List.map_cons, List.map_cons, y1, b2]
  obtain ⟨v, z1, z2, z3, z4, z5, z6, z7, z8⟩ := slidingView_ok files rate path records soundLabels l e.modalities hs
    p.samplePairing hne p.labelAssociation nm test idx labs p.labelsEx _ (hglob _ _ g4 (by decide) (by decide))
    (hglob _ _ g2 (by decide) (by decide)) (hglob _ _ g1 (by decide) (by decide)) t3
    (hlast _ _ (dictGet?_append_some r2)) (hlast _ _ hsd) (hlast _ _ hle) t4 t5 exl hexp rs hrs hrate shown s1
  refine ⟨l, v, v1, z1, z6, ?_, ?_, z5, ?_⟩
  · rw [z7, List.map_map]
    apply List.map_congr_left
    intro r _
    simp
  · rw [z8]
    exact hexf
  · intro r
    have hmem : r ∈ v.testRecords ↔ ∃ i ∈ idx, records[i]? = some r := by
      have : r ∈ v.testRecords ↔ some r ∈ v.testRecords.map some := by simp
      rw [this, show v.testRecords.map some = _ from z2, List.mem_map]
    rw [hmem]
    constructor
    · rintro ⟨i, hi, hir⟩
      obtain ⟨t, ht, hti⟩ := mapM_mem t4 hi
      rw [pyBind_eq_ok] at hti
      obtain ⟨a, ha, hai⟩ := hti
      exact ⟨test, t, a, i, r2, ht, (pyGet_some _ _ _).1 ha, (pyGet_some _ _ _).1 hai, hir⟩
    · rintro ⟨test', t, a, i, h1, ht, ha, hai, hir⟩
      rw [r2] at h1
      cases h1
      have hf2 := (Corpus.mapM_ok_iff _ _ _).1 t4
      obtain ⟨j, hj⟩ := List.getElem?_of_mem ht
      obtain ⟨hj1, hj2⟩ := List.getElem?_eq_some_iff.1 hj
      have := (List.forall₂_iff_get.1 hf2).2 j hj1 (by rw [← hf2.length_eq]; exact hj1)
      rw [List.get_eq_getElem, List.get_eq_getElem, hj2, pyBind_eq_ok] at this
      obtain ⟨a', ha', hai'⟩ := this
      rw [(pyGet_some _ _ _).1 ha'] at ha
      cases ha
      rw [(pyGet_some _ _ _).1 hai'] at hai
      cases hai
      exact ⟨_, List.getElem_mem _, hir⟩


theorem interactive_score {X : Type} {records : Concat Unit R} {sliding : List (BasicWin Unit)} {sim labels : Arg X}
    {isTest : Option (R → Bool)} {rc : Option (Dict Str Rc)} {P : Interactive X R} {d : Drawing R}
    (h : Interactive.new records sliding sim labels isTest rc = .ok (P, d)) :
    Score.new records sliding sim labels rc isTest = .ok P.score := by
  unfold Interactive.new at h
  rw [pyBind_eq_ok] at h
  obtain ⟨a, h1, h⟩ := h
  rw [pyBind_eq_ok] at h
  obtain ⟨b, h2, h⟩ := h
  rw [pyBind_eq_ok] at h
  obtain ⟨_, -, h⟩ := h
  cases h
  exact h1

/-- **C186.** The plot script applied to the log of an evaluation along sentences shows, for each half second of the
sentences of the samples one after another, the opposite of the distances computed by the evaluation between the
coefficients of this window and those of the examples.  The similarities are labelled by the labels of the sounds paired
with the examples, and the sentences are shown when they are pronounced, as test sentences for those of the samples at
the positions of the test among all samples. -/
theorem C186_shown [DecidableEq L] [DecidableEq R] (T : SlidingTools α Λ) (X : Ext Λ) (hX : X.NoStop) (hX' : X.KeepsRows)
    (metrics : List (List ℚ → List ℚ → ℚ)) (measure : List ℚ → List ℚ → ℚ) (files : WavFiles α)
    (path : R → String) (records : List R) (Rn : Rand L) (hR : Rn.OK) (e : Exp) (hmode : e.runMode = .single)
    (hdebug : e.debug = false)
    (hs : "sound".toList ∈ e.modalities) (ho : "objects".toList ∈ e.modalities)
    (rawLabels : List (List L)) (raw : List Mx) (hraw : raw.length = e.modalities.length) (start stop f : Key)
    (hf : ¬ (".npz".toList <:+ f))
    (fs : Logger.FS (LogVal L) Mx) (w0 w1 : World L) (p : Prepared L)
    (hp : prepare Rn e (.ok rawLabels) (.ok raw) ⟨Logger.Logger.new (some f), fs⟩ = (w0, .ok p))
    (hrun : run X Rn e (.ok rawLabels) (.ok raw) (evaluateTwo X e metrics) start stop ⟨Logger.Logger.new (some f), fs⟩ =
      (w1, .ok ()))
    (hrestore : ∀ n ms cols cs k data it l, X.train n ms cols cs k data it = .ok l →
      ∀ ms' xs it', X.internal (T.restore ms cols cs k (X.dico l)) ms' xs it' = X.internal l ms' xs it')
    (rate : ℚ) (hr : 2 ≤ rate) (hr' : 2 * TOL * rate ≤ 1) (rs : List R)
    (hrs : List.Forall₂ (fun a r => ∃ s, a[e.modalities.idxOf "sound".toList]? = some s ∧ records[s]? = some r)
      p.samplePairing rs)
    (hrate : ∀ r ∈ rs, (files (path r)).1 = rate)
    (hT : 20 ≤ ((rs.flatMap fun r => (files (path r)).2).length : ℚ) / rate)
    (n : ℕ) (hhac : ∀ a, ∃ v, T.hac a rate = .ok v ∧ v.length = n)
    (soundLabels : List L) (hlab : rawLabels[e.modalities.idxOf "sound".toList]? = some soundLabels) :
    ∃ d learner dataTrain wins feats x xs xo, w1.log.exps = [d] ∧ TrainedOn d p.data dataTrain ∧
      X.train 1 e.modalities (p.data.map Mx.cols) p.coefs e.k dataTrain e.iterTrain = .ok learner ∧
      SlidAlong (rs.flatMap fun r => (files (path r)).2) rate wins ∧
      List.Forall₂ (fun w v => T.hac w.array rate = .ok v) wins feats ∧
      p.data[e.modalities.idxOf "sound".toList]? = some xs ∧ Shown false xs.cols feats x ∧
      p.dataEx[e.modalities.idxOf "objects".toList]? = some xo ∧
      ∀ C E, X.internal learner ["sound".toList] [x] e.iterTest = .ok C →
        X.internal learner ["objects".toList] [xo] e.iterTest = .ok E →
        ∃ w2, slidingScript T X metrics measure files path records Rn e (.ok rawLabels) (.ok raw) start stop
            ⟨Logger.Logger.new (some f), fs⟩ = (w2, .ok ()) ∧
          ∀ setF, ∃ l v P dr, Logger.load w2.fs f setF true = .ok l ∧
            slidingView files path records soundLabels l = .ok v ∧ v.interactive = .ok (P, dr) ∧
            P.start = 0 ∧ P.width = 15 ∧
            C.rows.length = wins.length ∧ P.score.similarity.length = wins.length ∧
            (∀ (i : ℕ) w c, wins[i]? = some w → C.rows[i]? = some c → P.score.similarity[i]? =
              some ⟨w.start, w.stop, E.rows.map fun o => -measure c o⟩) ∧
            E.rows.length = p.examples.length ∧ P.score.labels = .list v.exampleLabels ∧
            List.Forall₂ (fun i x => ∃ t r, p.samplePairing[i]? = some t ∧
              t[e.modalities.idxOf "sound".toList]? = some r ∧ soundLabels[r]? = some x) p.examples v.exampleLabels ∧
            OneAfterAnother files path rate rs P.score.records ∧
            ∀ r, P.score.testRecord r = true ↔
              ShownAsTest d records (e.modalities.idxOf "sound".toList) p.samplePairing r := by
  have hpos : 0 < rate := by linarith
  obtain ⟨d, learner, dataTrain, wins, shown, feats, x, xs, xo, kd, kt, k1, k2, k3, k4, k5, k6, k7, k8, k9⟩ := plot_core T X hX hX'
    metrics measure files path records Rn hR e hmode hs ho rawLabels raw hraw start stop f hf fs w0 w1 p hp hrun hrestore
    rate hr hr' rs hrs hrate (by rw [hdebug]; simp only [Bool.false_eq_true, if_false]; linarith) n hhac soundLabels hlab
  have := k2 hdebug
  subst this
  rw [hdebug] at k7
  refine ⟨d, learner, dataTrain, wins, feats, x, xs, xo, kd, kt, k1, k4, k5, k6, k7, k8, ?_⟩
  intro C E hC hE
  obtain ⟨m1, m2, m3, w2, m4, m5⟩ := k9 C E hC hE
  refine ⟨w2, m4, fun setF => ?_⟩
  obtain ⟨l, v, n1, n2, n3, n4, n5, n6, n7⟩ := m5 setF
  have hrsne : rs ≠ [] := by
    intro h0
    subst h0
    simp at hT
    norm_num at hT
  obtain ⟨y1, y2, y3, y4, y5⟩ := oneAfterAnother_facts hpos n6 hrsne
  have hlen : v.sliding.length = v.similarities.length := by
    rw [n3, n4, List.length_map, List.length_map, m1]
  obtain ⟨P, dr, z1, z2, z3, -, -⟩ := (C128_interactive v.records v.sliding v.similarities (.list v.exampleLabels)
    [("colors".toList, .colors TEN_COLORS)] (some v.isTest) hlen.le (by
      intro r hr
      rw [n4] at hr
      obtain ⟨c, -, rfl⟩ := List.mem_map.1 hr
      intro h0
      rw [List.map_eq_nil_iff] at h0
      rw [h0] at m2
      exact m3 (List.length_eq_zero_iff.1 m2.symm)) y1 y2 y3 0 _ y4 y5).1 ⟨le_rfl, hT⟩
  obtain ⟨s, t1, -, -, t4, -, t6, t7, t8, t9, -⟩ := (C126_new v.records v.sliding v.similarities (.list v.exampleLabels)
    [("colors".toList, .colors TEN_COLORS)] (some v.isTest)).2 hlen.le
  rw [interactive_score z1] at t1
  cases t1
  refine ⟨l, v, P, dr, n1, n2, z1, z2, z3, m1, ?_, ?_, m2, t6, n5, ?_, ?_⟩
  · rw [t8, n3, List.length_map]
  · intro i w c hw hc
    exact t9 i _ _ (by rw [n3, List.getElem?_map, hw]; rfl) (by rw [n4, List.getElem?_map, hc]; rfl)
  · rw [t4]
    exact n6
  · intro r
    rw [← n7]
    unfold Score.testRecord
    rw [t7]
    exact decide_eq_true_iff

/-- **C186.** The log of an evaluation in debug mode, which only uses the ten first samples, can't be plotted when there are
more windows along the sentences of all samples: the plot script, which always uses all samples, misses distances. -/
theorem C186_debug [DecidableEq L] [DecidableEq R] (T : SlidingTools α Λ) (X : Ext Λ) (hX : X.NoStop) (hX' : X.KeepsRows)
    (metrics : List (List ℚ → List ℚ → ℚ)) (measure : List ℚ → List ℚ → ℚ) (files : WavFiles α)
    (path : R → String) (records : List R) (Rn : Rand L) (hR : Rn.OK) (e : Exp) (hmode : e.runMode = .single)
    (hdebug : e.debug = true)
    (hs : "sound".toList ∈ e.modalities) (ho : "objects".toList ∈ e.modalities)
    (rawLabels : List (List L)) (raw : List Mx) (hraw : raw.length = e.modalities.length) (start stop f : Key)
    (hf : ¬ (".npz".toList <:+ f))
    (fs : Logger.FS (LogVal L) Mx) (w0 w1 : World L) (p : Prepared L)
    (hp : prepare Rn e (.ok rawLabels) (.ok raw) ⟨Logger.Logger.new (some f), fs⟩ = (w0, .ok p))
    (hrun : run X Rn e (.ok rawLabels) (.ok raw) (evaluateTwo X e metrics) start stop ⟨Logger.Logger.new (some f), fs⟩ =
      (w1, .ok ()))
    (hrestore : ∀ n ms cols cs k data it l, X.train n ms cols cs k data it = .ok l →
      ∀ ms' xs it', X.internal (T.restore ms cols cs k (X.dico l)) ms' xs it' = X.internal l ms' xs it')
    (rate : ℚ) (hr : 2 ≤ rate) (hr' : 2 * TOL * rate ≤ 1) (rs : List R)
    (hrs : List.Forall₂ (fun a r => ∃ s, a[e.modalities.idxOf "sound".toList]? = some s ∧ records[s]? = some r)
      p.samplePairing rs)
    (hrate : ∀ r ∈ rs, (files (path r)).1 = rate)
    (hT : 1 / 2 ≤ (((rs.take 10).flatMap fun r => (files (path r)).2).length : ℚ) / rate)
    (hmore : (((rs.take 10).flatMap fun r => (files (path r)).2).length : ℚ) / rate + 1 / 10 ≤
      ((rs.flatMap fun r => (files (path r)).2).length : ℚ) / rate)
    (n : ℕ) (hhac : ∀ a, ∃ v, T.hac a rate = .ok v ∧ v.length = n)
    (soundLabels : List L) (hlab : rawLabels[e.modalities.idxOf "sound".toList]? = some soundLabels) :
    ∃ d learner dataTrain wins feats x xs xo, w1.log.exps = [d] ∧ TrainedOn d p.data dataTrain ∧
      X.train 1 e.modalities (p.data.map Mx.cols) p.coefs e.k dataTrain e.iterTrain = .ok learner ∧
      SlidAlong ((rs.take 10).flatMap fun r => (files (path r)).2) rate wins ∧
      List.Forall₂ (fun w v => T.hac w.array rate = .ok v) wins feats ∧
      p.data[e.modalities.idxOf "sound".toList]? = some xs ∧ Shown true xs.cols feats x ∧
      p.dataEx[e.modalities.idxOf "objects".toList]? = some xo ∧
      ∀ C E, X.internal learner ["sound".toList] [x] e.iterTest = .ok C →
        X.internal learner ["objects".toList] [xo] e.iterTest = .ok E →
        ∃ w2, slidingScript T X metrics measure files path records Rn e (.ok rawLabels) (.ok raw) start stop
            ⟨Logger.Logger.new (some f), fs⟩ = (w2, .ok ()) ∧
          ∀ setF, ∃ l v, Logger.load w2.fs f setF true = .ok l ∧
            slidingView files path records soundLabels l = .ok v ∧ v.interactive = .error .indexError := by
  have hpos : 0 < rate := by linarith
  obtain ⟨d, learner, dataTrain, wins, shown, feats, x, xs, xo, kd, kt, k1, -, k3, k4, k5, k6, k7, k8, k9⟩ := plot_core T X hX hX'
    metrics measure files path records Rn hR e hmode hs ho rawLabels raw hraw start stop f hf fs w0 w1 p hp hrun hrestore
    rate hr hr' rs hrs hrate (by rw [hdebug]; exact hT) n hhac soundLabels hlab
  rw [hdebug] at k3 k7
  simp only [if_true] at k3
  refine ⟨d, learner, dataTrain, wins, feats, x, xs, xo, kd, kt, k1, k3, k5, k6, k7, k8, ?_⟩
  intro C E hC hE
  obtain ⟨m1, m2, m3, w2, m4, m5⟩ := k9 C E hC hE
  refine ⟨w2, m4, fun setF => ?_⟩
  obtain ⟨l, v, n1, n2, n3, n4, n5, n6, -⟩ := m5 setF
  refine ⟨l, v, n1, n2, ?_⟩
  have hlt : wins.length < shown.length := by
    rw [k4.count]
    rcases Nat.eq_zero_or_pos wins.length with h0 | h0
    · rw [h0]
      have : 0 < TOL := by norm_num [TOL]
      push_cast
      linarith
    · have := (k3.count (wins.length - 1)).1 (by omega)
      rw [Nat.cast_sub h0] at this
      push_cast at this
      linarith
  unfold SlidingView.interactive Interactive.new
  rw [(C126_new v.records v.sliding v.similarities (.list v.exampleLabels)
    [("colors".toList, .colors TEN_COLORS)] (some v.isTest)).1 (by
      rw [n3, n4, List.length_map, List.length_map, m1]
      exact hlt)]
  rfl

end Verif.Samples
