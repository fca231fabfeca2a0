import Verif.Experiment.Scripts
import Verif.Experiment.PropsTable
import Verif.Experiment.PropsTotal
import Verif.Loaders.Props
import Verif.Loaders.PropsMore
import Mathlib.Data.List.Permutation
import Mathlib.Algebra.Order.BigOperators.Group.List

/-!
# Property C175: experiments of the samples
-/

namespace Verif.Experiment

open Verif Verif.Logger

variable {L Λ : Type}

/-! ### Experiments with ten labels -/

/-- Ten labels, with two samples of each at least. -/
def Ten [DecidableEq L] (labels : List L) : Prop := labels.dedup.length = 10 ∧ ∀ x ∈ labels, 2 ≤ labels.count x

/-- A learner for the modalities of the experiment: it can be trained on samples with the given numbers of
features, then transforms any samples with these numbers of features. -/
def Learns (X : Ext Λ) (e : Exp) : Prop :=
  ∀ n feats coefs (train : List Mx), train.map Mx.cols = feats → train.length = e.modalities.length →
    (∀ x ∈ train, x.rows ≠ []) →
    ∃ learner, X.train n e.modalities feats coefs e.k train e.iterTrain = .ok learner ∧
      ∀ data, data.map Mx.cols = feats → Transforms X e learner data

/-- A list of numbers below ten, with each of them twice at least. -/
theorem twenty (l : List ℕ) (h : ∀ x ∈ l, x < 10) (h2 : ∀ x < 10, 2 ≤ l.count x) : 20 ≤ l.length := by
  have hp : l.dedup.Perm (List.range 10) := by
    rw [List.perm_ext_iff_of_nodup (List.nodup_dedup _) List.nodup_range]
    intro x
    rw [List.mem_dedup, List.mem_range]
    refine ⟨h x, fun hx => ?_⟩
    have := h2 x hx
    exact List.count_pos_iff.1 (by omega)
  have hs := List.sum_map_count_dedup_eq_length l
  have hc : ∀ x ∈ l.dedup.map (fun x => l.count x), 2 ≤ x := by
    intro y hy
    obtain ⟨x, hx, rfl⟩ := List.mem_map.1 hy
    exact h2 x (h x (List.mem_dedup.1 hx))
  have := List.card_nsmul_le_sum _ 2 hc
  rw [List.length_map, hp.length_eq, List.length_range, show (10 : ℕ) • (2 : ℕ) = 20 from rfl] at this
  rw [← hs]
  exact this

theorem cols_eq {e : Exp} [DecidableEq L] {R : Rand L} {rawLabels : Py (List (List L))} {rawData : Py (List Mx)}
    {w w1 : World L} {p : Prepared L} (hp : prepare R e rawLabels rawData w = (w1, .ok p)) :
    p.dataEx.map Mx.cols = p.data.map Mx.cols := by
  obtain ⟨_, _, _, _, data, _, _, _, _, _, _, _, h5, _⟩ := prepare_ok hp
  obtain ⟨_, _, _, _, _, _, h1, h2, _⟩ := splitExamples_ok h5
  have gen : ∀ (P Q : List (List ℚ) → List (List ℚ) → Prop) (a b c : List Mx),
      List.Forall₂ (fun x y : Mx => y.cols = x.cols ∧ P x.rows y.rows) a b →
      List.Forall₂ (fun x y : Mx => y.cols = x.cols ∧ Q x.rows y.rows) a c → b.map Mx.cols = c.map Mx.cols := by
    intro P Q a b c hb
    induction hb generalizing c with
    | nil =>
      intro hc
      cases hc
      rfl
    | cons hxy _ ih =>
      intro hc
      cases hc with
      | cons hxz hc => rw [List.map_cons, List.map_cons, ih _ hc, hxy.1, hxz.1]
  exact gen (fun a b => Picks a _ b) (fun a b => Picks a _ b) _ _ _ h1 h2

theorem Parts.cols {data out : List Mx} {part : List ℕ} (h : Parts data part out) :
    out.map Mx.cols = data.map Mx.cols := by
  unfold Parts at h
  induction h with
  | nil => rfl
  | cons hxy _ ih => rw [List.map_cons, List.map_cons, ih, hxy.1]

theorem completes [DecidableEq L] (shown : Option (ℚ × ℚ) → Key) (X : Ext Λ) (R : Rand L) (hR : R.OK)
    (hX : X.NoStop) (e : Exp) (labels : List (List L)) (raw : List Mx) (metrics : List (List ℚ → List ℚ → ℚ))
    (hm : metrics.length = 4) (start stop : Key) (w : World L) (hw : w.log.exps = []) (hf : w.log.filename = none)
    (hmode : e.runMode = .ratio (1 / 10)) (hn : e.modalities.Nodup) (hnames : ∀ m ∈ e.modalities, Plain m)
    (h2 : 2 ≤ e.modalities.length) (hlen : raw.length = e.modalities.length)
    (hrows : List.Forall₂ (fun (l : List L) (x : Mx) => l.length = x.rows.length) labels raw)
    (hten : ∀ l ∈ labels, Ten l) (hl : Learns X e) :
    ∃ w' lines, runAndPrint (run X R e (.ok labels) (.ok raw) (evaluateTwo X e metrics) start stop)
        (printTwo shown e) w = (w', lines, .ok ()) ∧ w'.log.exps.length = 10 ∧ Table shown e w'.log lines ∧
      w'.fs = w.fs := by
  have hne : labels ≠ [] := by
    rintro rfl
    cases hrows
    simp at hlen
    omega
  have hd : ∀ l ∈ labels, ∀ l' ∈ labels, l.dedup.length = l'.dedup.length := by
    intro l hl l' hl'
    rw [(hten l hl).1, (hten l' hl').1]
  obtain ⟨names, newLabels, tuples, ha, w1, r, hp, -, -, hok⟩ := C87_total R hR e labels raw w hne hd hrows
  obtain ⟨-, hlt, hcount⟩ := Pairing.C18_no_reuse_maximal R.namesOf R.shuf labels (fun m l _ => hR.names m l) hR.shuf
    names newLabels tuples ha
  obtain ⟨names', _, _, ha', _, hnl, hset⟩ := (Pairing.C19_associate_samples_total R.namesOf R.shuf labels
    (fun m l _ => hR.names m l) hR.shuf).2.2 hne hd
  rw [ha] at ha'
  obtain ⟨rfl, rfl, rfl⟩ : names = names' ∧ _ ∧ _ := by
    have := Except.ok.inj ha'
    simp only [Prod.mk.injEq] at this
    exact this
  have hset10 : ∀ (m : ℕ) (l nm : List L), labels[m]? = some l → names[m]? = some nm → nm.length = 10 := by
    intro m l nm h1 h2
    have h := hset m l nm h1 h2
    rw [← (hten l (List.mem_of_getElem? h1)).1]
    apply List.Perm.length_eq
    rw [List.perm_ext_iff_of_nodup h.1 (List.nodup_dedup _)]
    intro x
    rw [h.2, List.mem_dedup]
  have hnm10 : ∀ nm ∈ names, nm.length = 10 := by
    intro nm hnm
    obtain ⟨m, hm⟩ := List.getElem?_of_mem hnm
    have : m < labels.length := by
      rw [← hnl]
      exact (List.getElem?_eq_some_iff.1 hm).1
    exact hset10 m _ nm (List.getElem?_eq_getElem this) hm
  have hnn : names ≠ [] := by
    rintro rfl
    exact hne (List.length_eq_zero_iff.1 hnl.symm)
  obtain ⟨nm0, hnm0⟩ := List.exists_mem_of_ne_nil _ hnn
  have hlt10 : ∀ v ∈ newLabels, v < 10 := by
    intro v hv
    have := hlt v hv nm0 hnm0
    rw [hnm10 _ hnm0] at this
    exact this
  have hge2 : ∀ v < 10, 2 ≤ newLabels.count v := by
    intro v hv
    obtain ⟨m, l, nm, x, g1, g2, g3, g4⟩ := (hcount v (fun nm hnm => by rw [hnm10 nm hnm]; exact hv)).2
    rw [g4]
    exact (hten l (List.mem_of_getElem? g1)).2 x (((hset m l nm g1 g2).2 x).1 (List.mem_of_getElem? g3))
  have h20 := twenty newLabels hlt10 hge2
  obtain ⟨p, rfl⟩ := hok (by
      rintro ⟨h, -⟩
      rw [hmode] at h
      cases h) (by
    intro l hl
    have : l ∉ (if e.debug then newLabels.take 200 else newLabels) := by
      intro hmem
      have : l ∈ newLabels := by
        split at hmem
        · exact List.mem_of_mem_take hmem
        · exact hmem
      have := hlt10 l this
      omega
    rw [List.count_eq_zero_of_not_mem this]
    omega)
  obtain ⟨_, names', newLabels', tuples', data, labelsAll, coefs, examples, q1, q2, q3, q4, q5, -⟩ := prepare_ok hp
  obtain rfl := Except.ok.inj q1
  rw [ha] at q2
  obtain ⟨rfl, rfl, rfl⟩ : names = names' ∧ newLabels = newLabels' ∧ tuples = tuples' := by
    have := Except.ok.inj q2
    simp only [Prod.mk.injEq] at this
    exact this
  obtain ⟨raw', r1, -, r3, r4, -⟩ := orderAll_ok q3
  obtain rfl := Except.ok.inj r1
  obtain ⟨-, -, -, s4, s5, s6, s7, s8, s9, s10, s11, s12, s13⟩ := splitExamples_ok q5
  obtain ⟨ex, x1, x2, x3, x4, -⟩ := examples_spec labelsAll (R.setOrd labelsAll) (hR.set labelsAll).1
    (hR.set labelsAll).2
  rw [q4] at x1
  obtain rfl := Except.ok.inj x1
  have hall : ∀ v ∈ labelsAll, v < 10 := by
    intro v hv
    rw [r3] at hv
    split at hv
    · exact hlt10 v (List.mem_of_mem_take hv)
    · exact hlt10 v hv
  have hall20 : 20 ≤ labelsAll.length := by
    rw [r3]
    split
    · rw [List.length_take]
      omega
    · exact h20
  have hex10 : examples.length ≤ 10 := by
    rw [x4]
    have := ((hR.set labelsAll).1.subperm (l₂ := List.range 10) (fun v hv =>
      List.mem_range.2 (hall v (((hR.set labelsAll).2 v).1 hv)))).length_le
    rwa [List.length_range] at this
  have hpl : 10 ≤ p.labels.length := by
    rw [s10.length, s6]
    have := (examples_others labelsAll.length examples x2 x3).length_eq
    rw [List.length_append, List.length_range] at this
    omega
  have hexne : p.labelsEx ≠ [] := by
    intro h
    have h1 := s9.length
    rw [h, x4] at h1
    have h0 : R.setOrd labelsAll = [] := List.length_eq_zero_iff.1 h1.symm
    have : labelsAll[0] ∈ R.setOrd labelsAll := ((hR.set labelsAll).2 _).2 (List.getElem_mem (by omega))
    rw [h0] at this
    cases this
  have hfl : ⌊(1 / 10 : ℚ) * p.labels.length⌋ ≠ 0 := by
    have : (1 : ℤ) ≤ ⌊(1 / 10 : ℚ) * p.labels.length⌋ := by
      rw [Int.le_floor]
      have : (10 : ℚ) ≤ p.labels.length := by exact_mod_cast hpl
      push_cast
      linarith
    omega
  obtain ⟨splits, t1, t2, t3, -⟩ := (Utils.C23_random_split p.labels.length (1 / 10) (by norm_num)
    (R.shuffled p.labels.length) (hR.shuffled _)).2 hfl
  have hg : p.generator = .ok splits := by
    rw [hmode] at s11
    simp only [getGenerator, Except.ok.injEq] at s11
    rw [← s11, t1]
  have hs10 : splits.length = 10 := by
    norm_num at t2
    exact_mod_cast t2
  have hq : ∀ q, e.runMode = .ratio q → 0 < q := by
    intro q h
    rw [hmode] at h
    cases h
    norm_num
  have hdl : p.data.length = e.modalities.length := by rw [← s8.length_eq, r4, hlen]
  obtain ⟨w', lines, u1, u2, u3, u4⟩ := C166_two_run shown X R hR e (.ok labels) (.ok raw) metrics hm start stop w w1
    hw p splits hp hg hq hn hnames hexne h2 (by
      intro s hs n train test k1 k2
      obtain ⟨learner, l1, l2⟩ := hl n (p.data.map Mx.cols) p.coefs train k1.cols
        (by rw [← k1.length_eq, hdl]) (by
          intro x hx h0
          obtain ⟨i, hi⟩ := List.getElem?_of_mem hx
          obtain ⟨y, _, hy⟩ := forall₂_get k1.flip hi
          have hlen := hy.2.length
          rw [h0] at hlen
          obtain ⟨v1, v2, -⟩ := t3 s hs
          have hs1 : s.1.length = 0 := hlen.symm
          have hperm := v2.length_eq
          rw [List.length_append, List.length_range, hs1, zero_add] at hperm
          rw [hperm] at v1
          have hle : ((⌊(1 / 10 : ℚ) * p.labels.length⌋ : ℤ) : ℚ) ≤ (1 / 10 : ℚ) * p.labels.length := Int.floor_le _
          rw [← v1] at hle
          have : (10 : ℚ) ≤ p.labels.length := by exact_mod_cast hpl
          push_cast at hle
          linarith)
      exact ⟨learner, l1, l2 test k2.cols, l2 _ (cols_eq hp)⟩)
  refine ⟨w', lines, u3, by rw [u2, hs10], u4, ?_⟩
  obtain ⟨w2, r, ds, v1, -, -, v4, -⟩ := C88_run X R e (.ok labels) (.ok raw) (evaluateTwo X e metrics) start stop w w1 p
    splits hp hg (fun _ _ _ => onlyStores_two _ _ _ _ _ _ _) hX.train (fun _ _ _ => two_no_stop _ hX _ _ _ _ _ _)
  rw [u1] at v1
  cases v1
  exact (v4 rfl).2.2.2.2.1 hf

/-! ### Loaders -/

/-- Labels and features of motions: the name of the first label of each record, and a row for each. -/
def Motions (src : Sources) (labels : List Key) (x : Mx) : Prop :=
  ∃ recs names, src.motionDb = .ok (recs, names) ∧ src.motion = .ok x ∧ x.rows.length = recs.length ∧
    List.Forall₂ (fun r n => ∃ t, r[0]? = some t ∧ pyGet names t = .ok n) recs labels

/-- Labels and features of the second speaker of ACORNS, but for the record 176: the name of the first tag of each
record, and the corresponding row. -/
def Sounds (src : Sources) (labels : List Key) (x : Mx) : Prop :=
  ∃ d recs raw, src.soundDb = .ok d ∧ d.records[1]? = some recs ∧ src.sound = .ok raw ∧
    raw.rows.length = recs.length ∧ 176 < recs.length ∧
    List.Forall₂ (fun r n => ∃ t, r[0]? = some t ∧ pyGet d.tags t = .ok n) (recs.eraseIdx 176) labels ∧
    x = ⟨raw.cols, raw.rows.eraseIdx 176⟩

/-- Labels and features of objects: names of the frames with one of the ten default names, in order, and their
features, one after the other. -/
def Images (src : Sources) (labels : List Key) (x : Mx) : Prop :=
  ∃ d idx, src.objects = .ok d ∧ (∀ f ∈ d.frames, ∃ n, d.name f = .ok n) ∧
    (∀ f ∈ ["SURF".toList, "color".toList], ∃ m, dictGet? d.histosByFrame f = some m ∧
      m.length = d.frames.length) ∧
    Loaders.KeptFrames d Datasets.DEFAULT_LABELS idx ∧
    List.Forall₂ (fun i n => Loaders.FrameName d i n ∧ n ∈ Datasets.DEFAULT_LABELS) idx labels ∧
    List.Forall₂ (Loaders.FrameRow List.flatten d ["SURF".toList, "color".toList]) idx x.rows ∧
    x.cols = src.objectsCols "SURF".toList + src.objectsCols "color".toList

/-- The loader gives these labels, then these data. -/
def Gives (src : Sources) (s : LdrState) (labels : List Key) (x : Mx) : Prop :=
  ∃ s', s.getLabels src = (s', .ok labels) ∧ (s'.getData src).2 = .ok x

theorem firsts {names : List Key} {recs : List (List ℤ)} {labels : List Key}
    (h : List.Forall₂ (fun r n => ∃ t, r[0]? = some t ∧ pyGet names t = .ok n) recs labels) :
    (recs.mapM fun r => do
      let l ← pyGet r 0
      pyGet names l) = .ok labels := by
  apply Objects.mapM_py_ok.2
  refine h.imp ?_
  rintro r n ⟨t, h1, h2⟩
  have : pyGet r 0 = .ok t := (Loaders.pyGet_ok r 0 t).2 h1
  simp only [bind, Except.bind, this]
  exact h2

theorem gives_motions {src : Sources} {labels : List Key} {x : Mx} (h : Motions src labels x) :
    Gives src (.choreo2 none) labels x := by
  obtain ⟨recs, names, h1, h2, h3, h4⟩ := h
  refine ⟨.choreo2 (some recs.length), ?_, ?_⟩
  · unfold LdrState.getLabels Loaders.c2Labels
    rw [h1]
    simp only [Loaders.checkN]
    rw [show ((Except.ok () : Py Unit) >>= fun _ => recs.mapM fun r => do
      let l ← pyGet r 0
      pyGet names l) = .ok labels from firsts h4]
  · unfold LdrState.getData Loaders.c2Data
    rw [h2]
    simp only [Except.map, Loaders.checkN, h3, if_true]
    rfl

theorem popRecords_speaker {α : Type} : ∀ (recs : List (List α)) (r : List α), recs[1]? = some r → 176 < r.length →
    ∃ recs', Loaders.popRecords recs Loaders.blacklistY1 = .ok recs' ∧ recs'[1]? = some (r.eraseIdx 176)
  | [], r, h, _ => by simp at h
  | [a], r, h, _ => by simp at h
  | a :: b :: recs, r, h, hl => by
    obtain rfl : b = r := by simpa using h
    have h1 : Loaders.popAll b [176] = .ok (b.eraseIdx 176) := by
      unfold Loaders.popAll Loaders.popAll
      rw [if_pos hl]
    have h3 : ∀ (n : ℕ) (l : List (List α)), ∃ l', Loaders.popRecords l (List.replicate n []) = .ok l' := by
      intro n
      induction n with
      | zero =>
        intro l
        cases l with
        | nil => exact ⟨_, rfl⟩
        | cons a l => exact ⟨_, rfl⟩
      | succ n ih =>
        intro l
        cases l with
        | nil => exact ⟨_, rfl⟩
        | cons a l =>
          obtain ⟨l', hl'⟩ := ih l
          refine ⟨a :: l', ?_⟩
          rw [List.replicate_succ]
          unfold Loaders.popRecords Loaders.popAll
          simp only [bind, Except.bind, hl']
          rfl
    obtain ⟨l', hl'⟩ := h3 2 recs
    refine ⟨a :: b.eraseIdx 176 :: l', ?_, rfl⟩
    have step : ∀ (r : List α) (recs : List (List α)) (b : List ℕ) (bl : List (List ℕ)),
        Loaders.popRecords (r :: recs) (b :: bl) = Loaders.popAll r b >>= fun r' =>
          Loaders.popRecords recs bl >>= fun l => pure (r' :: l) := fun _ _ _ _ => rfl
    show Loaders.popRecords (a :: b :: recs) ([] :: [176] :: List.replicate 2 []) = _
    rw [step, step, h1, hl']
    rfl

theorem gives_sounds {src : Sources} {labels : List Key} {x : Mx} (h : Sounds src labels x) :
    Gives src (.acorns ⟨1, none, none⟩) labels x := by
  obtain ⟨d, recs, raw, h1, h2, h3, h4, h5, h6, rfl⟩ := h
  obtain ⟨recs', p1, p2⟩ := popRecords_speaker d.records recs h2 h5
  have hl : (recs.eraseIdx 176).length = (raw.rows.eraseIdx 176).length := by
    rw [List.length_eraseIdx_of_lt h5, List.length_eraseIdx_of_lt (by omega), h4]
  refine ⟨.acorns ⟨1, some (recs.eraseIdx 176).length, some ⟨recs', d.tags⟩⟩, ?_, ?_⟩
  · unfold LdrState.getLabels Loaders.AcLoader.getLabels Loaders.AcLoader.getDb
    simp only [h1, bind, Except.bind, p1, Except.map]
    have hg : pyGet recs' 1 = .ok (recs.eraseIdx 176) := (Loaders.pyGet_ok recs' 1 _).2 p2
    rw [hg]
    simp only [Loaders.checkN]
    congr 1
    exact firsts h6
  · have hf : Loaders.loadFeatures 1 (Except.map Mx.rows (Except.ok raw)) = .ok (raw.rows.eraseIdx 176) := by
      have hp : Loaders.popAll raw.rows [176] = .ok (raw.rows.eraseIdx 176) := by
        unfold Loaders.popAll Loaders.popAll
        rw [if_pos (by omega)]
      obtain ⟨idx, g1, g2⟩ := (Loaders.popAll_idx _ _ _).1 hp
      unfold Loaders.loadFeatures
      rw [if_neg (by omega)]
      simp only [Except.map, bind, Except.bind]
      rw [show pyGet Loaders.blacklistY1 1 = .ok [176] from rfl]
      simp only [g1]
      apply Objects.mapM_py_ok.2
      exact g2.imp fun i a h => (Loaders.pyGet_ok _ _ _).2 h
    unfold LdrState.getData Loaders.AcLoader.getData
    rw [h3]
    simp only [hf, Loaders.checkN, hl, if_true]
    rfl

theorem forall₂_unique {α β : Type} {P Q : α → β → Prop} (h : ∀ a b c, P a b → Q a c → b = c) {l : List α}
    {m n : List β} (hm : List.Forall₂ P l m) (hn : List.Forall₂ Q l n) : m = n := by
  induction hm generalizing n with
  | nil =>
    cases hn
    rfl
  | cons hab _ ih =>
    cases hn with
    | cons hac hn => rw [h _ _ _ hab hac, ih hn]

theorem getLabels_features (s : Loaders.ObjLoader (List ℚ) Key) (src : Py (Loaders.ObjDB (List ℚ) Key)) :
    (s.getLabels src).1.featureList = s.featureList := by
  have h1 : ∀ s : Loaders.ObjLoader (List ℚ) Key, (s.getDb src).1.featureList = s.featureList := by
    intro s
    unfold Loaders.ObjLoader.getDb
    split
    · rfl
    · split <;> rfl
  have h2 : (s.getKeepIdx src).1.featureList = s.featureList := by
    unfold Loaders.ObjLoader.getKeepIdx
    split
    · rfl
    · have h := h1 s
      split
      · rename_i hg
        rw [hg] at h
        exact h
      · rename_i hg
        rw [hg] at h
        split
        · exact h
        · exact h
  unfold Loaders.ObjLoader.getLabels
  split
  · rename_i hg
    rw [hg] at h2
    exact h2
  · rename_i s1 k hg
    rw [hg] at h2
    have h := h1 s1
    split
    · rename_i hg
      rw [hg] at h
      exact h.trans h2
    · rename_i hg
      rw [hg] at h
      split
      · exact h.trans h2
      · exact h.trans h2

theorem gives_images {src : Sources} {labels : List Key} {x : Mx} (h : Images src labels x) :
    Gives src (.objects (Loaders.ObjLoader.new ["SURF".toList, "color".toList] Datasets.DEFAULT_LABELS)) labels x := by
  obtain ⟨d, idx, h1, h2, h3, h4, h5, h6, h7⟩ := h
  have ok := Loaders.C86_objects_success List.flatten ["SURF".toList, "color".toList] Datasets.DEFAULT_LABELS d (by simp)
    h2 h3 [false, true]
  have al := Loaders.C86_objects List.flatten ["SURF".toList, "color".toList] Datasets.DEFAULT_LABELS
    [(false, .ok d), (true, .ok d)]
  simp only [List.map_cons, List.map_nil] at ok
  generalize hs : (Loaders.ObjLoader.new ["SURF".toList, "color".toList] Datasets.DEFAULT_LABELS :
    Loaders.ObjLoader (List ℚ) Key) = s at *
  have hf := getLabels_features s (.ok d)
  simp only [Loaders.ObjLoader.run] at ok al
  have hf' : (s.getLabels (.ok d)).1.featureList = ["SURF".toList, "color".toList] := by
    rw [hf, ← hs]
    rfl
  rcases ho : s.getLabels (.ok d) with ⟨s', e | l⟩
  · rw [ho] at ok
    exact absurd trivial (ok _ List.mem_cons_self)
  rw [ho] at ok al hf'
  rcases ho' : s'.getData List.flatten (.ok d) with ⟨s2, e | y⟩
  · simp only [ho'] at ok
    exact absurd trivial (ok (.data (.error e)) (by simp))
  simp only [ho'] at al
  obtain ⟨d', idx', ⟨b, hb⟩, a2, a3⟩ := al.resolve_left fun h => h (.labels (.ok l)) (by simp)
  obtain rfl : d' = d := by
    have : b = false ∧ d' = d ∨ b = true ∧ d' = d := by simpa using hb
    exact this.elim And.right And.right
  have hidx : idx' = idx := by
    refine List.Perm.eq_of_pairwise' a2.1 h4.1 ?_
    rw [List.perm_ext_iff_of_nodup (a2.1.imp fun h => Nat.ne_of_lt h) (h4.1.imp fun h => Nat.ne_of_lt h)]
    intro i
    rw [a2.2, h4.2]
  subst hidx
  have al1 := a3 (.labels (.ok l)) (by simp)
  have al2 := a3 (.data (.ok y)) (by simp)
  have hl : l = labels := by
    refine forall₂_unique ?_ al1 h5
    rintro i n n' ⟨⟨f, ns, q1, q2, q3⟩, -⟩ ⟨⟨f', ns', q1', q2', q3'⟩, -⟩
    rw [q1] at q1'
    rw [q2] at q2'
    cases q1'
    cases q2'
    rw [q3] at q3'
    exact Except.ok.inj q3'
  have hy : y = x.rows := by
    refine forall₂_unique ?_ al2 h6
    rintro i r r' ⟨rs, rfl, q⟩ ⟨rs', rfl, q'⟩
    rw [forall₂_unique ?_ q q']
    rintro f v v' ⟨m, g1, g2⟩ ⟨m', g1', g2'⟩
    rw [g1] at g1'
    cases g1'
    rw [g2] at g2'
    exact Option.some.inj g2'
  subst hl
  refine ⟨.objects s', ?_, ?_⟩
  · unfold LdrState.getLabels
    rw [h1]
    simp only [ho]
  · unfold LdrState.getData
    rw [h1]
    have hf2 : s'.featureList = ["SURF".toList, "color".toList] := hf'
    simp only [ho', Except.map, hf2, List.map_cons, List.map_nil, List.sum_cons, List.sum_nil, add_zero, ← h7, hy]

/-! ### Scripts -/

theorem callAll_two {src : Sources} {a b : LdrState} {la lb : List Key} {xa xb : Mx} (ha : Gives src a la xa)
    (hb : Gives src b lb xb) :
    ∃ ss, callAll (LdrState.getLabels src) [a, b] = (ss, .ok [la, lb]) ∧
      (callAll (LdrState.getData src) ss).2 = .ok [xa, xb] := by
  obtain ⟨a', a1, a2⟩ := ha
  obtain ⟨b', b1, b2⟩ := hb
  refine ⟨[a', b'], ?_, ?_⟩
  · unfold callAll
    rw [a1]
    simp only []
    unfold callAll
    rw [b1]
    simp [callAll, Except.map]
  · unfold callAll
    rcases ha : a'.getData src with ⟨a2', e | x⟩
    · rw [ha] at a2
      cases a2
    rw [ha] at a2
    obtain rfl := Except.ok.inj a2
    simp only []
    unfold callAll
    rcases hb : b'.getData src with ⟨b2', e | y⟩
    · rw [hb] at b2
      cases b2
    rw [hb] at b2
    obtain rfl := Except.ok.inj b2
    simp [callAll, Except.map]

theorem sounds_length {src : Sources} {labels : List Key} {x : Mx} (h : Sounds src labels x) :
    labels.length = x.rows.length := by
  obtain ⟨d, recs, raw, -, -, -, h4, h5, h6, rfl⟩ := h
  rw [← h6.length_eq]
  show _ = (raw.rows.eraseIdx 176).length
  rw [List.length_eraseIdx_of_lt h5, List.length_eraseIdx_of_lt (by omega), h4]

/-- **C175**: the argument `--debug` is taken away when it is the first one; no other argument counts. -/
theorem C175_debug (name : Key) (args : List Key) :
    (∀ l, args = "--debug".toList :: l → debugArg (name :: args) = (true, name :: l)) ∧
    (args.head? ≠ some "--debug".toList → debugArg (name :: args) = (false, name :: args)) := by
  constructor
  · rintro l rfl
    show (if "--debug".toList = "--debug".toList then (true, name :: l) else (false, name :: "--debug".toList :: l)) = _
    rw [if_pos rfl]
  · intro h
    unfold debugArg
    cases args with
    | nil => rfl
    | cons a l =>
      simp only []
      rw [if_neg fun e => h (by rw [e]; rfl)]

theorem exp_two (order : Dict Key Ldr → Dict Key Ldr) (argv : List Key) (n1 n2 : Key) (l1 l2 : Ldr) (hne : n1 ≠ n2)
    (loaders : Dict Key Ldr) (h : order loaders = [(n1, l1), (n2, l2)]) :
    (scriptExp order loaders argv).modalities = [n1, n2] ∧ (scriptExp order loaders argv).loaders = [l1, l2] := by
  unfold scriptExp Exp.new
  rw [h]
  simp [dictKeys, dictGet?, hne]

theorem script_two (shown : Option (ℚ × ℚ) → Key) (X : Ext Λ) (R : Rand Key) (hR : R.OK) (hX : X.NoStop)
    (metrics : List (List ℚ → List ℚ → ℚ)) (hm : metrics.length = 4) (start stop : Key) (src : Sources)
    (order : Dict Key Ldr → Dict Key Ldr) (horder : ∀ d, (order d).Perm d) (argv : List Key)
    (fs : FS (LogVal Key) Mx) (n1 n2 : Key) (l1 l2 : Ldr) (s1 s2 : LdrState) (hne : n1 ≠ n2) (hn1 : Plain n1)
    (hn2 : Plain n2) (hs1 : l1.state = some s1) (hs2 : l2.state = some s2) (labels labels' : List Key) (x x' : Mx)
    (h : Gives src s1 labels x) (h' : Gives src s2 labels' x') (hlen : labels.length = x.rows.length)
    (hlen' : labels'.length = x'.rows.length) (ht : Ten labels) (ht' : Ten labels')
    (hl : Learns X (scriptExp order [(n1, l1), (n2, l2)] argv)) :
    ∃ w lines, script shown X R metrics start stop src order [(n1, l1), (n2, l2)] argv fs = (w, lines, .ok ()) ∧
      w.log.exps.length = 10 ∧ Table shown (scriptExp order [(n1, l1), (n2, l2)] argv) w.log lines ∧ w.fs = fs := by
  rcases List.perm_pair.1 (horder [(n1, l1), (n2, l2)]) with ho | ho
  · obtain ⟨e1, e2⟩ := exp_two order argv n1 n2 l1 l2 hne _ ho
    obtain ⟨ss, c1, c2⟩ := callAll_two h h'
    unfold script
    have hmode : (scriptExp order [(n1, l1), (n2, l2)] argv).runMode = .ratio (1 / 10) := rfl
    generalize scriptExp order [(n1, l1), (n2, l2)] argv = e at *
    simp only [e2, List.filterMap_cons, hs1, hs2, List.filterMap_nil, c1, c2]
    obtain ⟨w, lines, r1, r2, r3, r4⟩ := completes shown X R hR hX e [labels, labels'] [x, x'] metrics hm start stop
      ⟨Logger.new none, fs⟩ rfl rfl hmode (by rw [e1]; simp [hne]) (by rw [e1]; simp [hn1, hn2]) (by rw [e1]; simp)
      (by rw [e1]; rfl) (.cons hlen (.cons hlen' .nil)) (by simp [ht, ht']) hl
    exact ⟨w, lines, r1, r2, r3, r4⟩
  · obtain ⟨e1, e2⟩ := exp_two order argv n2 n1 l2 l1 hne.symm _ ho
    obtain ⟨ss, c1, c2⟩ := callAll_two h' h
    unfold script
    have hmode : (scriptExp order [(n1, l1), (n2, l2)] argv).runMode = .ratio (1 / 10) := rfl
    generalize scriptExp order [(n1, l1), (n2, l2)] argv = e at *
    simp only [e2, List.filterMap_cons, hs1, hs2, List.filterMap_nil, c1, c2]
    obtain ⟨w, lines, r1, r2, r3, r4⟩ := completes shown X R hR hX e [labels', labels] [x', x] metrics hm start stop
      ⟨Logger.new none, fs⟩ rfl rfl hmode (by rw [e1]; simp [hne.symm]) (by rw [e1]; simp [hn1, hn2]) (by rw [e1]; simp)
      (by rw [e1]; rfl) (.cons hlen' (.cons hlen .nil)) (by simp [ht, ht']) hl
    exact ⟨w, lines, r1, r2, r3, r4⟩

/-- **C175**: the script `icdl2013.py`.  When data can be read, have a row by record, ten labels and two samples
of each at least, the experiment completes in ten runs, whatever the order of dictionaries, prints its table and
writes no file. -/
theorem C175_icdl (shown : Option (ℚ × ℚ) → Key) (X : Ext Λ) (R : Rand Key) (hR : R.OK) (hX : X.NoStop)
    (metrics : List (List ℚ → List ℚ → ℚ)) (hm : metrics.length = 4) (start stop : Key) (src : Sources)
    (order : Dict Key Ldr → Dict Key Ldr) (horder : ∀ d, (order d).Perm d) (argv : List Key)
    (fs : FS (LogVal Key) Mx) (labels labels' : List Key) (x x' : Mx) (h : Motions src labels x)
    (h' : Sounds src labels' x') (ht : Ten labels) (ht' : Ten labels')
    (hl : Learns X (scriptExp order icdlLoaders argv)) :
    ∃ w lines, script shown X R metrics start stop src order icdlLoaders argv fs = (w, lines, .ok ()) ∧
      w.log.exps.length = 10 ∧ Table shown (scriptExp order icdlLoaders argv) w.log lines ∧ w.fs = fs := by
  refine script_two shown X R hR hX metrics hm start stop src order horder argv fs _ _ _ _ _ _ (by decide) (by decide)
    (by decide) rfl rfl labels labels' x x' (gives_motions h) (gives_sounds h') ?_ (sounds_length h') ht ht' hl
  obtain ⟨recs, names, -, -, q1, q2⟩ := h
  rw [q1, q2.length_eq]

/-- **C175**: the script `image_sound.py`, in the same way. -/
theorem C175_image (shown : Option (ℚ × ℚ) → Key) (X : Ext Λ) (R : Rand Key) (hR : R.OK) (hX : X.NoStop)
    (metrics : List (List ℚ → List ℚ → ℚ)) (hm : metrics.length = 4) (start stop : Key) (src : Sources)
    (order : Dict Key Ldr → Dict Key Ldr) (horder : ∀ d, (order d).Perm d) (argv : List Key)
    (fs : FS (LogVal Key) Mx) (labels labels' : List Key) (x x' : Mx) (h : Images src labels x)
    (h' : Sounds src labels' x') (ht : Ten labels) (ht' : Ten labels')
    (hl : Learns X (scriptExp order imageLoaders argv)) :
    ∃ w lines, script shown X R metrics start stop src order imageLoaders argv fs = (w, lines, .ok ()) ∧
      w.log.exps.length = 10 ∧ Table shown (scriptExp order imageLoaders argv) w.log lines ∧ w.fs = fs := by
  refine script_two shown X R hR hX metrics hm start stop src order horder argv fs _ _ _ _ _ _ (by decide) (by decide)
    (by decide) rfl rfl labels labels' x x' (gives_images h) (gives_sounds h') ?_ (sounds_length h') ht ht' hl
  obtain ⟨d, idx, -, -, -, -, q1, q2, -⟩ := h
  rw [← q1.length_eq, q2.length_eq]

/-- Nothing was done: an error, no run, no line and no file. -/
def Refused (fs : FS (LogVal Key) Mx) (x : PyErr) (r : World Key × List Key × Py Unit) : Prop :=
  r.1.log.exps = [] ∧ r.1.fs = fs ∧ r.2.1 = [] ∧ r.2.2 = .error x

theorem params_rest (d : Dict Key (LogVal L)) : ∀ l : Log L,
    (d.foldl (fun l kv => l.storeGlobal kv.1 (.plain kv.2)) l).exps = l.exps := by
  induction d with
  | nil => intro l; rfl
  | cons kv d ih =>
    intro l
    rw [List.foldl_cons, ih]
    rfl

theorem run_refused (shown : Option (ℚ × ℚ) → Key) (X : Ext Λ) (R : Rand Key) (e : Exp)
    (rawLabels : List (List Key)) (rawData : Py (List Mx)) (ev : Prepared Key → Evaluate Key Λ) (start stop : Key)
    (fs : FS (LogVal Key) Mx) (x : PyErr)
    (h : Pairing.associateSamples R.namesOf R.shuf rawLabels = .error x ∨
      (∃ r, Pairing.associateSamples R.namesOf R.shuf rawLabels = .ok r) ∧ rawData = .error x) :
    Refused fs x (runAndPrint (run X R e (.ok rawLabels) rawData ev start stop) (printTwo shown e)
      ⟨Logger.new none, fs⟩) := by
  have hprep : ∃ w', prepare R e (.ok rawLabels) rawData (⟨Logger.new none, fs⟩ : World Key) = (w', .error x) ∧
      w'.log.exps = [] ∧ w'.fs = fs := by
    unfold prepare
    rw [bind_ok (each_storeGlobal _ _), lift_ok rfl]
    rcases h with h | ⟨⟨⟨names, labels, tuples⟩, h⟩, h'⟩
    · rw [lift_error h]
      exact ⟨_, rfl, params_rest _ _, rfl⟩
    · rw [lift_ok h]
      simp only []
      rw [bind_ok (by rfl : storeGlobal "label_pairing".toList (.names names) _ = (_, .ok ())),
        bind_ok (by rfl : storeGlobal "sample_pairing".toList (.pairing tuples) _ = (_, .ok ())),
        lift_error (e := x) (by unfold orderAll; rw [h']; rfl)]
      exact ⟨_, rfl, params_rest _ _, rfl⟩
  obtain ⟨w', h1, h2, h3⟩ := hprep
  have hr := (C88_no_run X R e (.ok rawLabels) rawData ev start stop _ w').1 x h1
  unfold runAndPrint
  rw [hr]
  exact ⟨h2, h3, rfl, rfl⟩

theorem associate_two (R : Rand Key) (hR : R.OK) (l l' : List Key) :
    (l.dedup.length ≠ l'.dedup.length →
      Pairing.associateSamples R.namesOf R.shuf [l, l'] = .error .assertionError) ∧
    (l.dedup.length = l'.dedup.length → ∃ r, Pairing.associateSamples R.namesOf R.shuf [l, l'] = .ok r) := by
  obtain ⟨-, h2, h3⟩ := Pairing.C19_associate_samples_total R.namesOf R.shuf [l, l'] (fun m k _ => hR.names m k) hR.shuf
  constructor
  · intro h
    exact h2 (by simp) fun h' => h (h' l (by simp) l' (by simp))
  · intro h
    obtain ⟨n, a, t, e, -⟩ := h3 (by simp) (by simp [h])
    exact ⟨_, e⟩

/-- **C175**: with different numbers of labels, or with a file of features of motions which does not have a row by
record, the script `icdl2013.py` raises `AssertionError` before any run. -/
theorem C175_refused (shown : Option (ℚ × ℚ) → Key) (X : Ext Λ) (R : Rand Key) (hR : R.OK)
    (metrics : List (List ℚ → List ℚ → ℚ)) (start stop : Key) (src : Sources)
    (order : Dict Key Ldr → Dict Key Ldr) (horder : ∀ d, (order d).Perm d) (argv : List Key)
    (fs : FS (LogVal Key) Mx) (labels labels' : List Key) (x x' : Mx) (recs : List (List ℤ)) (names : List Key)
    (hdb : src.motionDb = .ok (recs, names))
    (hlab : List.Forall₂ (fun r n => ∃ t, r[0]? = some t ∧ pyGet names t = .ok n) recs labels)
    (hx : src.motion = .ok x) (h' : Sounds src labels' x')
    (h : labels.dedup.length ≠ labels'.dedup.length ∨ x.rows.length ≠ recs.length) :
    Refused fs .assertionError (script shown X R metrics start stop src order icdlLoaders argv fs) := by
  obtain ⟨b', b1, b2⟩ := gives_sounds h'
  have a1 : (LdrState.choreo2 none).getLabels src = (.choreo2 (some recs.length), .ok labels) := by
    unfold LdrState.getLabels Loaders.c2Labels
    rw [hdb]
    simp only [Loaders.checkN]
    rw [show ((Except.ok () : Py Unit) >>= fun _ => recs.mapM fun r => do
      let l ← pyGet r 0
      pyGet names l) = .ok labels from firsts hlab]
  have a2 : x.rows.length ≠ recs.length →
      ∃ s, (LdrState.choreo2 (some recs.length)).getData src = (s, .error .assertionError) := by
    intro hne
    unfold LdrState.getData Loaders.c2Data
    rw [hx]
    have hne' : ¬ recs.length = x.rows.length := fun e => hne e.symm
    simp only [Except.map, Loaders.checkN, if_neg hne']
    exact ⟨_, rfl⟩
  obtain ⟨s, hb⟩ : ∃ s, b'.getData src = (s, .ok x') := by
    rcases hb : b'.getData src with ⟨s, r⟩
    rw [hb] at b2
    exact ⟨s, by rw [← b2]⟩
  unfold script
  rcases List.perm_pair.1 (horder icdlLoaders) with ho | ho
  · obtain ⟨e1, e2⟩ := exp_two order argv _ _ _ _ (by decide) _ ho
    generalize scriptExp order icdlLoaders argv = e at *
    simp only [e2, List.filterMap_cons, Ldr.state, List.filterMap_nil, callAll, a1, b1, Except.map]
    apply run_refused
    by_cases hd : labels.dedup.length = labels'.dedup.length
    · refine .inr ⟨(associate_two R hR _ _).2 hd, ?_⟩
      obtain ⟨s', ha⟩ := a2 (h.resolve_left fun hn => hn hd)
      simp only [callAll, ha, hb, Except.map]
    · exact .inl ((associate_two R hR _ _).1 hd)
  · obtain ⟨e1, e2⟩ := exp_two order argv _ _ _ _ (by decide) _ ho
    generalize scriptExp order icdlLoaders argv = e at *
    simp only [e2, List.filterMap_cons, Ldr.state, List.filterMap_nil, callAll, a1, b1, Except.map]
    apply run_refused
    by_cases hd : labels'.dedup.length = labels.dedup.length
    · refine .inr ⟨(associate_two R hR _ _).2 hd, ?_⟩
      obtain ⟨s', ha⟩ := a2 (h.resolve_left fun hn => hn hd.symm)
      simp only [callAll, ha, hb, Except.map]
    · exact .inl ((associate_two R hR _ _).1 hd)

end Verif.Experiment
