import Verif.Experiment.Lemmas

/-!
# Properties of the preparation of experiments (C87)
-/

namespace Verif.Experiment

open Verif Verif.Logger

variable {σ α β L Λ : Type}

/-- Contracts of the orders of sets and of the shuffles. -/
structure Rand.OK [DecidableEq L] (R : Rand L) : Prop where
  names : ∀ m l, Pairing.IsSetOrder (R.namesOf m l) l
  shuf : ∀ m v l, (R.shuf m v l).Perm l
  set : ∀ l, (R.setOrd l).Nodup ∧ ∀ x, x ∈ R.setOrd l ↔ x ∈ l
  shuffled : ∀ n, (R.shuffled n).Perm (List.range n)

theorem lift_eq_ok {x : Py α} {s s' : σ} {a : α} :
    lift x s = (s', .ok a) ↔ s' = s ∧ x = .ok a := by
  unfold lift
  rw [Prod.mk.injEq]
  exact ⟨fun h => ⟨h.1.symm, h.2⟩, fun h => ⟨h.1.symm, h.2⟩⟩

/-- What `chose_examples` returns for a set of labels in any order. -/
theorem examples_spec (labels labelSet : List ℕ) (hn : labelSet.Nodup)
    (hs : ∀ x, x ∈ labelSet ↔ x ∈ labels) :
    ∃ out, Evaluation.choseExamples labels labelSet 1 = .ok out ∧ out.Nodup ∧
      (∀ i ∈ out, i < labels.length) ∧ out.length = labelSet.length ∧
      ∀ l ∈ labels, ∃! i, i ∈ out ∧ labels[i]? = some l := by
  obtain ⟨out, h1, h2, h3, h4⟩ := (Evaluation.C47_chose_examples labels labelSet 1).2 (by
    intro l hl
    exact List.one_le_count_iff.2 ((hs l).1 hl))
  have key : ∀ (l i : ℕ), i ∈ ((List.range labels.length).filter fun i =>
      decide (labels[i]? = some l)).take 1 → i < labels.length ∧ labels[i]? = some l := by
    intro l i hi
    have := List.mem_of_mem_take hi
    rw [List.mem_filter, List.mem_range] at this
    exact ⟨this.1, by simpa using this.2⟩
  refine ⟨out, h1, h4 hn, ?_, by rw [h3, Nat.mul_one], ?_⟩
  · intro i hi
    rw [h2, List.mem_flatMap] at hi
    obtain ⟨l, _, hi⟩ := hi
    exact (key l i hi).1
  · intro l hl
    have hpos : l ∈ labelSet := (hs l).2 hl
    obtain ⟨k, hk⟩ := List.getElem?_of_mem hl
    have hkl : k < labels.length := by
      by_contra hc
      rw [List.getElem?_eq_none (by omega)] at hk
      cases hk
    have hmem : k ∈ (List.range labels.length).filter fun i => decide (labels[i]? = some l) := by
      rw [List.mem_filter, List.mem_range]
      exact ⟨hkl, by simpa using hk⟩
    rcases hf : (List.range labels.length).filter (fun i => decide (labels[i]? = some l)) with
      _ | ⟨a, rest⟩
    · rw [hf] at hmem
      cases hmem
    have ha : a ∈ ((List.range labels.length).filter fun i =>
        decide (labels[i]? = some l)).take 1 := by rw [hf]; simp
    refine ⟨a, ⟨?_, (key l a ha).2⟩, ?_⟩
    · rw [h2, List.mem_flatMap]
      exact ⟨l, hpos, ha⟩
    · rintro b ⟨hb, hbl⟩
      rw [h2, List.mem_flatMap] at hb
      obtain ⟨l', _, hb⟩ := hb
      have := (key l' b hb).2
      rw [hbl] at this
      cases this
      rw [hf] at hb
      simpa using hb

/-- The parts of `prepare` when it succeeds. -/
theorem prepare_ok [DecidableEq L] {R : Rand L} {e : Exp} {rawLabels : Py (List (List L))}
    {rawData : Py (List Mx)} {w w' : World L} {p : Prepared L}
    (h : prepare R e rawLabels rawData w = (w', .ok p)) :
    ∃ labels names newLabels tuples data labelsAll coefs examples,
      rawLabels = .ok labels ∧
      Pairing.associateSamples R.namesOf R.shuf labels = .ok (names, newLabels, tuples) ∧
      orderAll (L := L) e rawData newLabels tuples = .ok (data, labelsAll, coefs) ∧
      Evaluation.choseExamples labelsAll (R.setOrd labelsAll) 1 = .ok examples ∧
      splitExamples R e names tuples coefs data labelsAll examples = .ok p ∧
      w' = { w with log := (((e.parametersToDict.foldl
        (fun l kv => l.storeGlobal kv.1 (.plain kv.2)) w.log).storeGlobal "label_pairing".toList
          (.plain (.names names))).storeGlobal "sample_pairing".toList
          (.plain (.pairing tuples))).storeGlobal "examples".toList (.plain (.idx examples)) } := by
  unfold prepare at h
  rw [bind_ok (each_storeGlobal _ _), bind_eq_ok] at h
  obtain ⟨w1, labels, h1, h⟩ := h
  rw [lift_eq_ok] at h1
  obtain ⟨rfl, h1⟩ := h1
  rw [bind_eq_ok] at h
  obtain ⟨w2, ⟨names, newLabels, tuples⟩, h2, h⟩ := h
  rw [lift_eq_ok] at h2
  obtain ⟨rfl, h2⟩ := h2
  simp only [] at h
  rw [bind_ok (by rfl : storeGlobal "label_pairing".toList (.names names) _ = (_, .ok ())),
    bind_ok (by rfl : storeGlobal "sample_pairing".toList (.pairing tuples) _ = (_, .ok ())),
    bind_eq_ok] at h
  obtain ⟨w3, ⟨data, labelsAll, coefs⟩, h3, h⟩ := h
  rw [lift_eq_ok] at h3
  obtain ⟨rfl, h3⟩ := h3
  simp only [] at h
  rw [bind_eq_ok] at h
  obtain ⟨w4, examples, h4, h⟩ := h
  rw [lift_eq_ok] at h4
  obtain ⟨rfl, h4⟩ := h4
  rw [bind_ok (by rfl : storeGlobal "examples".toList (.idx examples) _ = (_, .ok ())),
    lift_eq_ok] at h
  exact ⟨labels, names, newLabels, tuples, data, labelsAll, coefs, examples, h1, h2, h3, h4, h.2,
    h.1⟩

theorem splitExamples_ok {R : Rand L} {e : Exp} {names : List (List L)} {tuples : List (List ℕ)}
    {coefs : List (Option ℚ)} {data : List Mx} {labelsAll examples : List ℕ} {p : Prepared L}
    (h : splitExamples R e names tuples coefs data labelsAll examples = .ok p) :
    p.coefs = coefs ∧ p.labelAssociation = names ∧ p.samplePairing = tuples ∧
    p.labelsAll = labelsAll ∧ p.examples = examples ∧
    p.others = (List.range labelsAll.length).filter (fun i => decide (i ∉ examples)) ∧
    List.Forall₂ (fun x y : Mx => y.cols = x.cols ∧ Picks x.rows examples y.rows) data p.dataEx ∧
    List.Forall₂ (fun x y : Mx => y.cols = x.cols ∧ Picks x.rows p.others y.rows) data p.data ∧
    Picks labelsAll examples p.labelsEx ∧ Picks labelsAll p.others p.labels ∧
    getGenerator R.shuffled e.runMode p.labels.length = .ok p.generator ∧
    (∀ x ∈ p.data, p.labels.length = x.rows.length) ∧ ∀ l ∈ p.labels, l < 10 := by
  unfold splitExamples at h
  simp only [] at h
  rw [pyBind_eq_ok] at h
  obtain ⟨dataEx, h1, h⟩ := h
  rw [pyBind_eq_ok] at h
  obtain ⟨data', h2, h⟩ := h
  rw [pyBind_eq_ok] at h
  obtain ⟨labelsEx, h3, h⟩ := h
  rw [pyBind_eq_ok] at h
  obtain ⟨labels, h4, h⟩ := h
  rw [pyBind_eq_ok] at h
  obtain ⟨generator, h5, h⟩ := h
  rw [pyBind_eq_ok] at h
  obtain ⟨_, h6, h⟩ := h
  rw [pyBind_eq_ok] at h
  obtain ⟨_, h7, h⟩ := h
  rw [pyBind_eq_ok] at h
  obtain ⟨_, h8, h⟩ := h
  cases h
  rw [Objects.mapM_py_ok] at h1 h2
  rw [mapM_pyGet] at h3 h4
  rw [pyAssert_ok] at h6 h7 h8
  have fold : ∀ {idx : List ℕ} {a b : List Mx},
      List.Forall₂ (fun x y => takeRows x idx = .ok y) a b →
      List.Forall₂ (fun x y : Mx => y.cols = x.cols ∧ Picks x.rows idx y.rows) a b := by
    intro idx a b hf
    exact hf.imp fun x y hxy => (takeRows_ok x y idx).1 hxy
  exact ⟨rfl, rfl, rfl, rfl, rfl, rfl, fold h1, fold h2, h3, h4, h5, by simpa using h7,
    by simpa using h8⟩

/-- The data of `_set_labels_and_prepare_data` when it succeeds. -/
theorem orderAll_ok [DecidableEq L] {e : Exp} {rawData : Py (List Mx)} {labels : List ℕ}
    {tuples : List (List ℕ)} {data : List Mx} {labelsAll : List ℕ} {coefs : List (Option ℚ)}
    (h : orderAll (L := L) e rawData labels tuples = .ok (data, labelsAll, coefs)) :
    ∃ raw, rawData = .ok raw ∧ coefs = setCoefs e.coefs raw ∧
      labelsAll = (if e.debug then labels.take 200 else labels) ∧
      data.length = raw.length ∧
      ∀ (m : ℕ) (x : Mx), raw[m]? = some x → ∃ (d : Mx) (idx : List ℕ) (rows : List (List ℚ)),
        data[m]? = some d ∧ tuples.map (fun t => t[m]?) = idx.map some ∧ Picks x.rows idx rows ∧
        d = if e.debug then cut ⟨x.cols, rows⟩ else ⟨x.cols, rows⟩ := by
  unfold orderAll at h
  rw [pyBind_eq_ok] at h
  obtain ⟨raw, h1, h⟩ := h
  simp only [] at h
  rw [pyBind_eq_ok] at h
  obtain ⟨data', h2, h⟩ := h
  rw [Objects.mapM_py_ok] at h2
  have hlen : data'.length = raw.length := by
    have := h2.length_eq
    simpa using this.symm
  have hget : ∀ (m : ℕ) (x : Mx), raw[m]? = some x → ∃ (idx : List ℕ) (rows : List (List ℚ)),
      data'[m]? = some ⟨x.cols, rows⟩ ∧ tuples.map (fun t => t[m]?) = idx.map some ∧
      Picks x.rows idx rows := by
    intro m x hm
    have hm' : m < raw.length := by
      by_contra hc
      rw [List.getElem?_eq_none (by omega)] at hm
      cases hm
    have hz : raw.zipIdx[m]? = some (x, m) := by
      rw [List.getElem?_zipIdx, hm]
      simp
    have hmd : m < data'.length := by omega
    have := (List.forall₂_iff_get.1 h2).2 m (by simpa using hm') hmd
    have e1 : raw.zipIdx.get ⟨m, by simpa using hm'⟩ = (x, m) := by
      have := List.getElem?_eq_getElem (l := raw.zipIdx) (i := m) (by simpa using hm')
      rw [hz] at this
      exact (Option.some.inj this).symm
    rw [e1] at this
    unfold orderData at this
    rw [pyBind_eq_ok] at this
    obtain ⟨idx, h3, h4⟩ := this
    rw [takeRows_ok] at h4
    refine ⟨idx, (data'.get ⟨m, hmd⟩).rows, ?_, ?_, h4.2⟩
    · rw [List.getElem?_eq_getElem hmd]
      rw [← h4.1]
      rfl
    · rw [Objects.mapM_py_ok] at h3
      clear h4 h2
      induction h3 with
      | nil => rfl
      | cons ha _ ih =>
        rw [List.map_cons, List.map_cons, ih, (pyGet_some _ _ _).1 ha]
  by_cases hd : e.debug = true
  · rw [if_pos hd] at h
    cases h
    refine ⟨raw, h1, rfl, by rw [if_pos hd], by simpa using hlen, ?_⟩
    intro m x hm
    obtain ⟨idx, rows, ha, hb, hc⟩ := hget m x hm
    exact ⟨_, idx, rows, by rw [List.getElem?_map, ha]; rfl, hb, hc, by rw [if_pos hd]⟩
  · rw [if_neg hd] at h
    cases h
    refine ⟨raw, h1, rfl, by rw [if_neg hd], by simpa using hlen, ?_⟩
    intro m x hm
    obtain ⟨idx, rows, ha, hb, hc⟩ := hget m x hm
    exact ⟨_, idx, rows, ha, hb, hc, by rw [if_neg hd]⟩

/-- What debugging keeps of a row. -/
def shown (debug : Bool) (row : List ℚ) : List ℚ := if debug then row.take 11 else row

/-- The rows of `d` are, in order, the rows of the samples `part` in the modality `m` whose raw
data are `x`: `pairing[i][m]` is the row of the sample `i`. -/
def RowsOf (debug : Bool) (pairing : List (List ℕ)) (m : ℕ) (x : Mx) (part : List ℕ) (d : Mx) :
    Prop :=
  d.rows.length = part.length ∧ d.cols = (if debug then min 11 x.cols else x.cols) ∧
  ∀ (j i : ℕ), part[j]? = some i → ∃ t r row, pairing[i]? = some t ∧ t[m]? = some r ∧
    x.rows[r]? = some row ∧ d.rows[j]? = some (shown debug row)

theorem getElem?_take_some {n i : ℕ} {l : List α} {a : α} (h : (l.take n)[i]? = some a) :
    l[i]? = some a := by
  rw [List.getElem?_take] at h
  by_cases hi : i < n
  · rwa [if_pos hi] at h
  · rw [if_neg hi] at h
    cases h

theorem rowsOf_of_picks {debug : Bool} {pairing : List (List ℕ)} {m : ℕ} {x d d' : Mx}
    {part idx : List ℕ} {rows : List (List ℚ)} (h1 : pairing.map (fun t => t[m]?) = idx.map some)
    (h2 : Picks x.rows idx rows)
    (h3 : d = if debug then cut ⟨x.cols, rows⟩ else ⟨x.cols, rows⟩)
    (h4 : d'.cols = d.cols ∧ Picks d.rows part d'.rows) : RowsOf debug pairing m x part d' := by
  refine ⟨h4.2.length, ?_, ?_⟩
  · rw [h4.1, h3]
    cases debug <;> rfl
  · intro j i hj
    obtain ⟨row', hr1, hr2⟩ := h4.2.get hj
    have hrow : ∃ row, rows[i]? = some row ∧ row' = shown debug row := by
      cases debug with
      | false => exact ⟨row', by rw [h3] at hr2; exact hr2, rfl⟩
      | true =>
        rw [h3] at hr2
        simp only [if_true, cut, List.getElem?_map, Option.map_eq_some_iff] at hr2
        obtain ⟨a, ha, rfl⟩ := hr2
        exact ⟨a, getElem?_take_some ha, rfl⟩
    obtain ⟨row, hrow, rfl⟩ := hrow
    have hil : i < idx.length := by
      rw [← h2.length]
      by_contra hc
      rw [List.getElem?_eq_none (by omega)] at hrow
      cases hrow
    have hi : idx[i]? = some idx[i] := List.getElem?_eq_getElem hil
    obtain ⟨y, hy1, hy2⟩ := h2.get hi
    rw [hrow] at hy1
    cases hy1
    have := congrArg (fun l => l[i]?) h1
    simp only [List.getElem?_map, hi, Option.map_some] at this
    rw [Option.map_eq_some_iff] at this
    obtain ⟨t, ht1, ht2⟩ := this
    exact ⟨t, idx[i], row, ht1, ht2, hy2, hr1⟩

theorem forall₂_get {γ : Type} {P : α → γ → Prop} {a : List α} {b : List γ}
    (h : List.Forall₂ P a b) {m : ℕ} {x : α} (hm : a[m]? = some x) :
    ∃ y, b[m]? = some y ∧ P x y := by
  induction h generalizing m with
  | nil => simp at hm
  | cons hxy _ ih =>
    cases m with
    | zero =>
      simp only [List.getElem?_cons_zero, Option.some.injEq] at hm
      subst hm
      exact ⟨_, rfl, hxy⟩
    | succ m =>
      simp only [List.getElem?_cons_succ] at hm ⊢
      exact ih hm

theorem examples_others (n : ℕ) (ex : List ℕ) (hn : ex.Nodup) (hl : ∀ i ∈ ex, i < n) :
    (ex ++ (List.range n).filter fun i => decide (i ∉ ex)).Perm (List.range n) := by
  rw [List.perm_ext_iff_of_nodup]
  · intro i
    rw [List.mem_append, List.mem_filter, List.mem_range]
    have := hl i
    by_cases h : i ∈ ex <;> simp [h] <;> tauto
  · rw [List.nodup_append]
    refine ⟨hn, List.nodup_range.filter _, ?_⟩
    intro i hi j hj hij
    subst hij
    rw [List.mem_filter] at hj
    simp [hi] at hj
  · exact List.nodup_range

/-- **C87.** When `prepare` succeeds: the examples contain exactly one sample of each label and
nothing else; examples and others partition the paired samples (the first 200 of them when
debugging); labels and data rows of both parts are those of their samples, in the same order, for
each modality; the raw labels of the rows of a sample are the names associated with its label; and
the labels left for training and testing are lower than 10. -/
theorem C87_examples [DecidableEq L] (R : Rand L) (hR : R.OK) (e : Exp) (rawLabels : List (List L))
    (raw : List Mx) (w w' : World L) (p : Prepared L)
    (h : prepare R e (.ok rawLabels) (.ok raw) w = (w', .ok p)) :
    (∀ l ∈ p.labelsAll, ∃! i, i ∈ p.examples ∧ p.labelsAll[i]? = some l) ∧
    (p.examples ++ p.others).Perm (List.range p.labelsAll.length) ∧
    p.others.Pairwise (· < ·) ∧
    p.labelsAll.length = (if e.debug then min 200 p.samplePairing.length
      else p.samplePairing.length) ∧
    Picks p.labelsAll p.examples p.labelsEx ∧ Picks p.labelsAll p.others p.labels ∧
    p.dataEx.length = raw.length ∧ p.data.length = raw.length ∧
    (∀ (m : ℕ) (x : Mx), raw[m]? = some x → ∃ de d, p.dataEx[m]? = some de ∧ p.data[m]? = some d ∧
      RowsOf e.debug p.samplePairing m x p.examples de ∧
      RowsOf e.debug p.samplePairing m x p.others d) ∧
    (∀ (i v : ℕ) (t : List ℕ), p.labelsAll[i]? = some v → p.samplePairing[i]? = some t →
      ∀ (m : ℕ) (l nm : List L), rawLabels[m]? = some l → p.labelAssociation[m]? = some nm →
        ∃ (r : ℕ) (x : L), t[m]? = some r ∧ l[r]? = some x ∧ nm[v]? = some x) ∧
    ∀ l ∈ p.labels, l < 10 := by
  obtain ⟨labels, names, newLabels, tuples, data, labelsAll, coefs, examples, h1, h2, h3, h4, h5, _⟩ :=
    prepare_ok h
  cases h1
  obtain ⟨_, e2, e3, e4, e5, e6, hex, hd, hle, hlo, _, _, h10⟩ := splitExamples_ok h5
  obtain ⟨raw', hraw, _, hla, hlen, hrows⟩ := orderAll_ok h3
  cases hraw
  obtain ⟨out, ho1, ho2, ho3, _, ho4⟩ := examples_spec labelsAll (R.setOrd labelsAll)
    (hR.set labelsAll).1 (hR.set labelsAll).2
  rw [h4] at ho1
  cases ho1
  obtain ⟨names', new', tuples', ht1, ht2, _⟩ :=
    (Pairing.C19_associate_samples_total R.namesOf R.shuf rawLabels (fun m l _ => hR.names m l)
      hR.shuf).2.2 (by
        rintro rfl
        rw [(Pairing.C19_associate_samples_total R.namesOf R.shuf [] (fun m l _ => hR.names m l)
          hR.shuf).1 rfl] at h2
        cases h2) (by
        by_contra hc
        by_cases hne : rawLabels = []
        · subst hne
          simp at hc
        · rw [(Pairing.C19_associate_samples_total R.namesOf R.shuf rawLabels
            (fun m l _ => hR.names m l) hR.shuf).2.1 hne hc] at h2
          cases h2)
  rw [h2] at ht1
  cases ht1
  have hperm := examples_others labelsAll.length examples ho2 ho3
  rw [e2, e3, e4, e5, e6]
  rw [e6] at hd hlo
  refine ⟨ho4, hperm, ?_, ?_, hle, hlo, ?_, ?_, ?_, ?_, h10⟩
  · exact (List.pairwise_lt_range).filter _
  · rw [hla]
    by_cases hdb : e.debug = true
    · rw [if_pos hdb, if_pos hdb, List.length_take, ht2]
    · rw [if_neg hdb, if_neg hdb, ht2]
  · rw [← hex.length_eq, hlen]
  · rw [← hd.length_eq, hlen]
  · intro m x hm
    obtain ⟨dm, idx, rows, ha, hb, hc, hdm⟩ := hrows m x hm
    obtain ⟨de, hde, hde'⟩ := forall₂_get hex ha
    obtain ⟨d, hd1, hd2⟩ := forall₂_get hd ha
    exact ⟨de, d, hde, hd1, rowsOf_of_picks hb hc hdm hde', rowsOf_of_picks hb hc hdm hd2⟩
  · intro i v t hi ht m l nm hm hnm
    have hv : newLabels[i]? = some v := by
      rw [hla] at hi
      by_cases hdb : e.debug = true
      · rw [if_pos hdb] at hi
        exact getElem?_take_some hi
      · rw [if_neg hdb] at hi
        exact hi
    have hz : (v, t) ∈ newLabels.zip tuples := by
      apply List.mem_of_getElem? (i := i)
      rw [List.getElem?_zip_eq_some]
      exact ⟨hv, ht⟩
    exact (Pairing.C17_labels_match R.namesOf R.shuf rawLabels (fun m l _ => hR.names m l) hR.shuf
      names newLabels tuples h2 v t hz).2 m l nm hm hnm

/-- **C87.** No run trains or tests on an example: the training and test sets of a run partition the
positions of the other samples. -/
theorem C87_runs [DecidableEq L] (R : Rand L) (hR : R.OK) (e : Exp) (rawLabels : Py (List (List L)))
    (rawData : Py (List Mx)) (w w' : World L) (p : Prepared L)
    (h : prepare R e rawLabels rawData w = (w', .ok p))
    (hq : ∀ q, e.runMode = .ratio q → 0 < q) (splits : List (List ℕ × List ℕ))
    (hs : p.generator = .ok splits) (s : List ℕ × List ℕ) (hm : s ∈ splits) :
    (s.1 ++ s.2).Perm (List.range p.labels.length) ∧
    ∀ t ∈ s.1 ++ s.2, ∃ i, p.others[t]? = some i ∧ i ∉ p.examples ∧ i < p.labelsAll.length := by
  obtain ⟨labels, names, newLabels, tuples, data, labelsAll, coefs, examples, h1, h2, h3, h4, h5, _⟩ :=
    prepare_ok h
  obtain ⟨_, _, _, e4, e5, e6, _, _, _, hlo, hg, _⟩ := splitExamples_ok h5
  have hperm : (s.1 ++ s.2).Perm (List.range p.labels.length) := by
    have hrs : ∀ q, 0 < q → ∀ r, Utils.randomSplit p.labels.length q (R.shuffled p.labels.length) =
        .ok r → ∀ s ∈ r, (s.1 ++ s.2).Perm (List.range p.labels.length) := by
      intro q h0 r hr s hs
      obtain ⟨c1, c2⟩ := Utils.C23_random_split p.labels.length q h0 _ (hR.shuffled p.labels.length)
      by_cases hz : ⌊q * (p.labels.length : ℚ)⌋ = 0
      · rw [c1 hz] at hr
        cases hr
      · obtain ⟨r', hr', _, hall, _⟩ := c2 hz
        rw [hr] at hr'
        cases hr'
        exact (hall s hs).2.1
    rw [hs] at hg
    rcases hmode : e.runMode with _ | _ | q | z
    · rw [hmode] at hg
      simp only [getGenerator, Except.ok.injEq] at hg
      rw [← hg] at hm
      obtain ⟨i, hi⟩ := List.getElem?_of_mem hm
      obtain ⟨hlen, hall⟩ := Utils.C24_leave_one_out p.labels.length
      have hil : i < p.labels.length := by
        rw [← hlen]
        by_contra hc
        rw [List.getElem?_eq_none (by omega)] at hi
        cases hi
      obtain ⟨a, b, c⟩ := hall i s hi
      rw [List.perm_ext_iff_of_nodup _ List.nodup_range]
      · intro j
        rw [List.mem_append, c, a, List.mem_singleton, List.mem_range]
        constructor
        · rintro (h | h) <;> omega
        · intro h
          by_cases hji : j = i
          · exact Or.inr hji
          · exact Or.inl ⟨h, hji⟩
      · rw [List.nodup_append]
        refine ⟨b.imp (fun h => ne_of_lt h), by rw [a]; simp, ?_⟩
        intro x hx y hy hxy
        rw [a, List.mem_singleton] at hy
        exact ((c x).1 hx).2 (hxy.trans hy)
    · rw [hmode] at hg
      unfold getGenerator at hg
      rw [pyBind_eq_ok] at hg
      obtain ⟨r, hr, hg⟩ := hg
      rcases r with _ | ⟨s0, rest⟩
      · cases hg
      · cases hg
        rw [List.mem_singleton] at hm
        exact hrs _ (by norm_num) _ hr s (by rw [hm]; exact List.mem_cons_self)
    · rw [hmode] at hg
      simp only [getGenerator, Except.ok.injEq] at hg
      exact hrs q (hq q hmode) _ hg s hm
    · rw [hmode] at hg
      simp only [getGenerator, Except.ok.injEq, randomSplitStr] at hg
      split_ifs at hg <;> cases hg
  refine ⟨hperm, ?_⟩
  intro t ht
  have ht' := hperm.mem_iff.1 ht
  rw [List.mem_range, hlo.length] at ht'
  refine ⟨p.others[t], List.getElem?_eq_getElem ht', ?_⟩
  have hmem : p.others[t] ∈ p.others := List.getElem_mem ht'
  generalize p.others[t] = i at hmem
  rw [e6, List.mem_filter, List.mem_range] at hmem
  rw [e5, e4]
  exact ⟨by simpa using hmem.2, hmem.1⟩

/-- **C87.** What `prepare` logs: parameters, pairing and examples, for all runs; it changes neither
runs nor files. -/
theorem C87_logged [DecidableEq L] (R : Rand L) (e : Exp) (rawLabels : Py (List (List L)))
    (rawData : Py (List Mx)) (w w' : World L) (p : Prepared L)
    (h : prepare R e rawLabels rawData w = (w', .ok p)) :
    w'.log.getValue "label_pairing".toList = .ok (.plain (.names p.labelAssociation)) ∧
    w'.log.getValue "sample_pairing".toList = .ok (.plain (.pairing p.samplePairing)) ∧
    w'.log.getValue "examples".toList = .ok (.plain (.idx p.examples)) ∧
    w'.log.getValue "modalities".toList = .ok (.plain (.mods e.modalities)) ∧
    w'.log.getValue "k".toList = .ok (.plain (.num e.k)) ∧
    w'.log.getValue "coefs".toList = .ok (.plain (.coefs e.coefs)) ∧
    w'.log.getValue "iter_train".toList = .ok (.plain (.num e.iterTrain)) ∧
    w'.log.getValue "iter_test".toList = .ok (.plain (.num e.iterTest)) ∧
    w'.log.getValue "shuffle_labels".toList = .ok (.plain (.flag e.shuffleLabels)) ∧
    w'.log.getValue "run_mode".toList = .ok (.plain (.mode e.runMode)) ∧
    w'.log.getValue "debug".toList = .ok (.plain (.flag e.debug)) ∧
    w'.log.exps = w.log.exps ∧ w'.log.filename = w.log.filename ∧ w'.fs = w.fs ∧
    w'.log.expKeys = w.log.expKeys ∧ w'.log.resultKeys = w.log.resultKeys := by
  obtain ⟨labels, names, newLabels, tuples, data, labelsAll, coefs, examples, h1, h2, h3, h4, h5, hw⟩ :=
    prepare_ok h
  obtain ⟨_, e2, e3, _, e5, _⟩ := splitExamples_ok h5
  subst hw
  rw [e2, e3, e5]
  simp only [Exp.parametersToDict, List.foldl, Logger.storeGlobal, Logger.getValue, dictGet?_set]
  simp

end Verif.Experiment
