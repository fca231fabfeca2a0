import Verif.Experiment.Props

/-!
# When the preparation of an experiment succeeds (C87), and default coefficients (C108)
-/

namespace Verif.Experiment

open Verif Verif.Logger

variable {σ α β L Λ : Type}

theorem perm_of_map_some {a b : List α} (h : (a.map some).Perm (b.map some)) : a.Perm b := by
  have := h.filterMap id
  simpa [List.filterMap_map] using this

theorem picks_perm {src : List α} {idx : List ℕ} {out : List α} (h : Picks src idx out)
    (hp : idx.Perm (List.range src.length)) : out.Perm src := by
  apply perm_of_map_some
  unfold Picks at h
  rw [h]
  have h2 : src.map some = (List.range src.length).map fun i => src[i]? := by
    apply List.ext_getElem?
    intro i
    by_cases hi : i < src.length
    · simp [hi]
    · simp [hi]
  rw [h2]
  exact hp.map _

theorem Picks.append {src : List α} {i j : List ℕ} {a b : List α} (h : Picks src i a)
    (h' : Picks src j b) : Picks src (i ++ j) (a ++ b) := by
  unfold Picks at *
  rw [List.map_append, List.map_append, h, h']

theorem labelsEx_nodup {labels ex lex : List ℕ} (hn : ex.Nodup) (hl : ∀ i ∈ ex, i < labels.length)
    (hu : ∀ l ∈ labels, ∃! i, i ∈ ex ∧ labels[i]? = some l) (hp : Picks labels ex lex) :
    lex.Nodup ∧ ∀ l, l ∈ lex ↔ l ∈ labels := by
  constructor
  · apply List.Nodup.of_map some
    unfold Picks at hp
    rw [hp]
    apply List.Nodup.map_on _ hn
    intro i hi j hj hij
    have hil := hl i hi
    have h1 : labels[i]? = some labels[i] := List.getElem?_eq_getElem hil
    obtain ⟨k, _, hk⟩ := hu _ (List.getElem_mem hil)
    rw [hk i ⟨hi, h1⟩, hk j ⟨hj, by rw [← hij, h1]⟩]
  · intro l
    constructor
    · intro hm
      have : some l ∈ lex.map some := List.mem_map_of_mem hm
      unfold Picks at hp
      rw [hp, List.mem_map] at this
      obtain ⟨i, _, h2⟩ := this
      exact List.mem_of_getElem? h2
    · intro hm
      obtain ⟨i, ⟨h1, h2⟩, _⟩ := hu l hm
      have : some l ∈ lex.map some := by
        unfold Picks at hp
        rw [hp, List.mem_map]
        exact ⟨i, h1, h2⟩
      rw [List.mem_map] at this
      obtain ⟨a, ha, hb⟩ := this
      cases hb
      exact ha

theorem mapM_exists {γ : Type} (f : α → Py γ) (l : List α) (h : ∀ x ∈ l, ∃ y, f x = .ok y) :
    ∃ ys, l.mapM f = .ok ys := by
  induction l with
  | nil => exact ⟨[], rfl⟩
  | cons a l ih =>
    obtain ⟨y, hy⟩ := h a List.mem_cons_self
    obtain ⟨ys, hys⟩ := ih fun x hx => h x (List.mem_cons_of_mem _ hx)
    refine ⟨y :: ys, ?_⟩
    rw [List.mapM_cons, hy, hys]
    rfl

/-- `_set_labels_and_prepare_data` succeeds when the pairing gives existing rows. -/
theorem orderAll_exists [DecidableEq L] (e : Exp) (raw : List Mx) (labels : List ℕ)
    (tuples : List (List ℕ))
    (h : ∀ t ∈ tuples, ∀ (m : ℕ) (x : Mx), raw[m]? = some x → ∃ r, t[m]? = some r ∧
      r < x.rows.length) :
    ∃ data coefs, orderAll (L := L) e (.ok raw) labels tuples =
      .ok (data, if e.debug then labels.take 200 else labels, coefs) := by
  have h1 : ∃ data, raw.zipIdx.mapM (orderData tuples) = .ok data := by
    apply mapM_exists
    rintro ⟨x, m⟩ hx
    rw [List.mk_mem_zipIdx_iff_getElem?] at hx
    unfold orderData
    obtain ⟨idx, hidx⟩ := mapM_exists (fun (t : List ℕ) => pyGet t ((m : ℕ) : ℤ)) tuples (by
      intro t ht
      obtain ⟨r, hr, _⟩ := h t ht m x hx
      exact ⟨r, (pyGet_some t m r).2 hr⟩)
    have hlt : ∀ r ∈ idx, r < x.rows.length := by
      have hf := Objects.mapM_py_ok.1 hidx
      intro r hr
      obtain ⟨j, hj⟩ := List.getElem?_of_mem hr
      obtain ⟨t, ht, hp⟩ := forall₂_get hf.flip hj
      have htm : t ∈ tuples := List.mem_of_getElem? ht
      obtain ⟨r', hr', hlt⟩ := h t htm m x hx
      have hp' : pyGet t (m : ℤ) = .ok r := hp
      rw [pyGet_some, hr'] at hp'
      cases hp'
      exact hlt
    obtain ⟨rows, hrows⟩ := picks_of_lt x.rows idx hlt
    refine ⟨⟨x.cols, rows⟩, ?_⟩
    rw [pyBind_eq_ok]
    exact ⟨idx, hidx, (takeRows_ok x _ idx).2 ⟨rfl, hrows⟩⟩
  obtain ⟨data, hd⟩ := h1
  by_cases hdb : e.debug = true
  · refine ⟨data.map cut, setCoefs e.coefs raw, ?_⟩
    rw [if_pos hdb]
    unfold orderAll
    simp only [bind, Except.bind]
    rw [hd]
    simp only [hdb, if_true]
    rfl
  · refine ⟨data, setCoefs e.coefs raw, ?_⟩
    rw [if_neg hdb]
    unfold orderAll
    simp only [bind, Except.bind]
    rw [hd]
    simp only [hdb]
    rfl

/-- `prepare` fails: `single` needs a tenth of the samples left without the examples. -/
def TooFew (e : Exp) (labels : List ℕ) : Prop :=
  e.runMode = .single ∧ labels.length < labels.dedup.length + 10

/-- **C87.** When `prepare` succeeds: for loaders which return as many labels as rows, and as many
distinct labels in each modality (C19 gives the other cases), it fails only with the `single` run
mode and less than ten samples besides examples (`ValueError`), or when a label numbered 10 or more
has at least two samples (`AssertionError`). -/
theorem C87_total [DecidableEq L] (R : Rand L) (hR : R.OK) (e : Exp) (rawLabels : List (List L))
    (raw : List Mx) (w : World L) (hne : rawLabels ≠ [])
    (hd : ∀ l ∈ rawLabels, ∀ l' ∈ rawLabels, l.dedup.length = l'.dedup.length)
    (hrows : List.Forall₂ (fun (l : List L) (x : Mx) => l.length = x.rows.length) rawLabels raw) :
    ∃ names newLabels tuples,
      Pairing.associateSamples R.namesOf R.shuf rawLabels = .ok (names, newLabels, tuples) ∧
      ∃ w' r, prepare R e (.ok rawLabels) (.ok raw) w = (w', r) ∧
        let labels := if e.debug then newLabels.take 200 else newLabels
        (TooFew e labels → r = .error .valueError) ∧
        (¬ TooFew e labels → (∃ l, 10 ≤ l ∧ 2 ≤ labels.count l) → r = .error .assertionError) ∧
        (¬ TooFew e labels → (∀ l, 10 ≤ l → labels.count l ≤ 1) → ∃ p, r = .ok p) := by
  obtain ⟨names, newLabels, tuples, ha, hlen, hnl, _⟩ :=
    (Pairing.C19_associate_samples_total R.namesOf R.shuf rawLabels (fun m l _ => hR.names m l)
      hR.shuf).2.2 hne hd
  refine ⟨names, newLabels, tuples, ha, ?_⟩
  have htup : ∀ t ∈ tuples, ∀ (m : ℕ) (x : Mx), raw[m]? = some x → ∃ r, t[m]? = some r ∧
      r < x.rows.length := by
    intro t ht m x hm
    obtain ⟨i, hi⟩ := List.getElem?_of_mem ht
    have hil : i < newLabels.length := by
      rw [hlen]
      by_contra hc
      rw [List.getElem?_eq_none (by omega)] at hi
      cases hi
    have hz : (newLabels[i], t) ∈ newLabels.zip tuples := by
      apply List.mem_of_getElem? (i := i)
      rw [List.getElem?_zip_eq_some]
      exact ⟨List.getElem?_eq_getElem hil, hi⟩
    obtain ⟨l, hl, hlx⟩ := forall₂_get hrows.flip hm
    have hml : m < names.length := by
      rw [hnl]
      by_contra hc
      rw [List.getElem?_eq_none (by omega)] at hl
      cases hl
    obtain ⟨r, y, hr, hy, _⟩ := (Pairing.C17_labels_match R.namesOf R.shuf rawLabels
      (fun m l _ => hR.names m l) hR.shuf names newLabels tuples ha newLabels[i] t hz).2 m l
      names[m] hl (List.getElem?_eq_getElem hml)
    refine ⟨r, hr, ?_⟩
    have hlx' : l.length = x.rows.length := hlx
    rw [← hlx']
    by_contra hc
    rw [List.getElem?_eq_none (by omega)] at hy
    cases hy
  obtain ⟨data, coefs, ho⟩ := orderAll_exists (L := L) e raw newLabels tuples htup
  obtain ⟨raw', hraw, _, _, hdlen, hget⟩ := orderAll_ok ho
  cases hraw
  have hdl : ∀ x ∈ data, x.rows.length =
      (if e.debug then newLabels.take 200 else newLabels).length := by
    intro d hd'
    obtain ⟨m, hm⟩ := List.getElem?_of_mem hd'
    have hml : m < raw.length := by
      rw [← hdlen]
      by_contra hc
      rw [List.getElem?_eq_none (by omega)] at hm
      cases hm
    obtain ⟨d', idx, rows, h1, h2, h3, h4⟩ := hget m raw[m] (List.getElem?_eq_getElem hml)
    rw [hm] at h1
    cases h1
    have hl1 := h3.length
    have hl2 := congrArg List.length h2
    simp only [List.length_map] at hl2
    rw [h4]
    by_cases hdb : e.debug = true
    · rw [if_pos hdb, if_pos hdb]
      simp only [cut, List.length_map, List.length_take]
      omega
    · rw [if_neg hdb, if_neg hdb]
      show rows.length = _
      omega
  generalize hla : (if e.debug then newLabels.take 200 else newLabels) = labels at *
  obtain ⟨ex, he1, he2, he3, he4, he5⟩ := examples_spec labels (R.setOrd labels) (hR.set labels).1
    (hR.set labels).2
  have hexl : ex.length = labels.dedup.length := by
    rw [he4]
    apply List.Perm.length_eq
    rw [List.perm_ext_iff_of_nodup (hR.set labels).1 (List.nodup_dedup _)]
    intro x
    rw [(hR.set labels).2, List.mem_dedup]
  have hperm := examples_others labels.length ex he2 he3
  set others := (List.range labels.length).filter fun i => decide (i ∉ ex) with hothers
  have hol : ∀ i ∈ others, i < labels.length := by
    intro i hi
    rw [hothers, List.mem_filter, List.mem_range] at hi
    exact hi.1
  obtain ⟨lex, hlex⟩ := picks_of_lt labels ex he3
  obtain ⟨lo, hlo⟩ := picks_of_lt labels others hol
  obtain ⟨hlexn, hlexm⟩ := labelsEx_nodup he2 he3 he5 hlex
  have hlp : (lex ++ lo).Perm labels := picks_perm (hlex.append hlo) hperm
  have hcount : ∀ l, lo.count l = labels.count l - 1 := by
    intro l
    have h1 := hlp.count_eq l
    rw [List.count_append] at h1
    by_cases hl : l ∈ labels
    · rw [List.count_eq_one_of_mem hlexn ((hlexm l).2 hl)] at h1
      omega
    · rw [List.count_eq_zero_of_not_mem (fun hc => hl ((hlexm l).1 hc))] at h1
      rw [List.count_eq_zero_of_not_mem hl] at h1 ⊢
      omega
  have hlol : lo.length + labels.dedup.length = labels.length := by
    have h1 := hlp.length_eq
    rw [List.length_append, hlex.length, hexl] at h1
    omega
  have htake : ∀ idx : List ℕ, (∀ i ∈ idx, i < labels.length) →
      ∃ ys, (data.mapM fun x => takeRows x idx) = .ok ys := by
    intro idx hidx
    apply mapM_exists
    intro x hx
    obtain ⟨rows, hr⟩ := picks_of_lt x.rows idx (by rw [hdl x hx]; exact hidx)
    exact ⟨⟨x.cols, rows⟩, (takeRows_ok _ _ _).2 ⟨rfl, hr⟩⟩
  obtain ⟨dex, hdex⟩ := htake ex he3
  obtain ⟨dlo, hdlo⟩ := htake others hol
  have hdlo' : ∀ x ∈ dlo, lo.length = x.rows.length := by
    intro x hx
    obtain ⟨m, hm⟩ := List.getElem?_of_mem hx
    obtain ⟨y, _, hy⟩ := forall₂_get (Objects.mapM_py_ok.1 hdlo).flip hm
    have hy' : takeRows y others = .ok x := hy
    rw [takeRows_ok] at hy'
    rw [hy'.2.length, hlo.length]
  have hsplit : splitExamples R e names tuples coefs data labels ex =
      (getGenerator R.shuffled e.runMode lo.length >>= fun g =>
        pyAssert (decide (∀ l ∈ lo, l < 10)) >>= fun _ =>
        (.ok ⟨coefs, names, tuples, labels, ex, others, dex, dlo, lex, lo, g⟩ : Py (Prepared L))) := by
    unfold splitExamples
    rw [hdex]
    show ((data.mapM fun x => takeRows x others) >>= _) = _
    rw [hdlo]
    show ((ex.mapM fun (i : ℕ) => pyGet labels (i : ℤ)) >>= _) = _
    rw [(mapM_pyGet _ _ _).2 hlex]
    show ((others.mapM fun (i : ℕ) => pyGet labels (i : ℤ)) >>= _) = _
    rw [(mapM_pyGet _ _ _).2 hlo]
    show (getGenerator R.shuffled e.runMode lo.length >>= _) = _
    congr 1
    funext g
    rw [(pyAssert_ok _).2 (by
      rw [decide_eq_true_iff]
      exact ⟨fun l hl => (hlexm l).1 hl, fun l hl => (hlexm l).2 hl⟩)]
    show (pyAssert _ >>= _) = _
    rw [(pyAssert_ok _).2 (by rw [decide_eq_true_iff]; exact hdlo')]
    rfl
  have hprep : ∃ w', prepare R e (.ok rawLabels) (.ok raw) w =
      (w', splitExamples R e names tuples coefs data labels ex) := by
    unfold prepare
    rw [bind_ok (each_storeGlobal _ _), lift_ok rfl, lift_ok ha]
    simp only []
    rw [bind_ok (by rfl : storeGlobal "label_pairing".toList (.names names) _ = (_, .ok ())),
      bind_ok (by rfl : storeGlobal "sample_pairing".toList (.pairing tuples) _ = (_, .ok ())),
      lift_ok ho]
    simp only []
    rw [lift_ok he1,
      bind_ok (by rfl : storeGlobal "examples".toList (.idx ex) _ = (_, .ok ()))]
    exact ⟨_, rfl⟩
  obtain ⟨w', hw'⟩ := hprep
  refine ⟨w', _, hw', ?_⟩
  rw [hsplit]
  have hten : ∀ n : ℕ, n < 10 → Utils.randomSplit n (1 / 10) (R.shuffled n) = .error .valueError := by
    intro n hn
    refine (Utils.C23_random_split n (1 / 10) (by norm_num) _ (hR.shuffled n)).1 ?_
    rw [Int.floor_eq_iff]
    constructor
    · positivity
    · have : (n : ℚ) < 10 := by exact_mod_cast hn
      push_cast
      linarith
  have hgen : ¬ TooFew e labels → ∃ g, getGenerator R.shuffled e.runMode lo.length = .ok g := by
    intro hf
    rcases hmode : e.runMode with _ | _ | q | z
    · exact ⟨_, rfl⟩
    · have hn : 10 ≤ lo.length := by
        by_contra hc
        exact hf ⟨hmode, by omega⟩
      obtain ⟨r, hr, hrl, _⟩ := (Utils.C23_random_split lo.length (1 / 10) (by norm_num) _
        (hR.shuffled lo.length)).2 (by
          intro hz
          rw [Int.floor_eq_iff] at hz
          have : (10 : ℚ) ≤ lo.length := by exact_mod_cast hn
          push_cast at hz
          linarith [hz.2])
      unfold getGenerator
      simp only [bind, Except.bind]
      rw [hr]
      rcases r with _ | ⟨s, r⟩
      · norm_num at hrl
      · exact ⟨_, rfl⟩
    · exact ⟨_, rfl⟩
    · exact ⟨_, rfl⟩
  refine ⟨?_, ?_, ?_⟩
  · rintro ⟨hm, hlt⟩
    unfold getGenerator
    rw [hm]
    simp only [bind, Except.bind]
    rw [hten lo.length (by omega)]
  · rintro hf ⟨l, hl, hc⟩
    obtain ⟨g, hg⟩ := hgen hf
    rw [hg]
    have : decide (∀ l ∈ lo, l < 10) = false := by
      rw [decide_eq_false_iff_not]
      intro hall
      have : l ∈ lo := by
        rw [← List.count_pos_iff, hcount l]
        omega
      have := hall l this
      omega
    rw [this]
    rfl
  · intro hf hall
    obtain ⟨g, hg⟩ := hgen hf
    rw [hg]
    have : decide (∀ l ∈ lo, l < 10) = true := by
      rw [decide_eq_true_iff]
      intro l hl
      by_contra hc
      have h1 := hall l (by omega)
      rw [← List.count_pos_iff, hcount l] at hl
      omega
    rw [this]
    exact ⟨_, rfl⟩

/-- **C108.** Coefficients: given ones are kept; default ones give every modality the same weight,
the average over its samples of the sum of the weighted features is one (when the features of a
modality do not sum to zero). -/
theorem C108_coefs (raw : List Mx) :
    (∀ c, setCoefs (some c) raw = c) ∧ (setCoefs none raw).length = raw.length ∧
    ∀ (m : ℕ) (x : Mx), raw[m]? = some x →
      ((x.rows.map List.sum).sum = 0 → (setCoefs none raw)[m]? = some none) ∧
      ((x.rows.map List.sum).sum ≠ 0 → ∃ c, (setCoefs none raw)[m]? = some (some c) ∧
        ((x.rows.map fun r => (r.map (c * ·)).sum).sum / x.rows.length = 1)) := by
  refine ⟨fun c => rfl, by simp [setCoefs], ?_⟩
  intro m x hm
  have hget : (setCoefs none raw)[m]? = some (defaultCoef x) := by
    simp [setCoefs, List.getElem?_map, hm]
  rw [hget]
  constructor
  · intro h
    unfold defaultCoef averageSum
    rw [h, zero_div, if_pos rfl]
  · intro h
    have hl : (x.rows.length : ℚ) ≠ 0 := by
      intro hc
      apply h
      have : x.rows.length = 0 := by exact_mod_cast hc
      rw [List.length_eq_zero_iff.1 this]
      rfl
    have ha : averageSum x ≠ 0 := div_ne_zero h hl
    refine ⟨1 / averageSum x, by unfold defaultCoef; rw [if_neg ha], ?_⟩
    have hs : (x.rows.map fun r => (r.map ((1 / averageSum x) * ·)).sum) =
        (x.rows.map List.sum).map ((1 / averageSum x) * ·) := by
      rw [List.map_map]
      apply List.map_congr_left
      intro r _
      rw [List.sum_map_mul_left]
      simp
    rw [hs, List.sum_map_mul_left, List.map_id']
    unfold averageSum
    field_simp

end Verif.Experiment
