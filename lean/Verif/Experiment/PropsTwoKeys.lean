import Verif.Experiment.PropsTwo

/-!
# Keys and values stored by `TwoModalitiesExperiment` (C89)
-/

namespace Verif.Experiment

open Verif Verif.Logger

variable {σ α β L Λ : Type}

theorem pyGet_at {l : List α} {i : ℕ} {x : α} (h : l[i]? = some x) : pyGet l (i : ℤ) = .ok x :=
  (pyGet_some l i x).2 h

/-- `c` is `-1` (internal representations) or the position of a modality. -/
def CmpIn (n : ℕ) (c : ℤ) : Prop := c = -1 ∨ ∃ k : ℕ, k < n ∧ c = (k : ℤ)

/-- The name of the compared modality. -/
def cmpName (names : List Key) (c : ℤ) : Option Key := if c < 0 then none else names[c.toNat]?

/-- The key of an experiment. -/
def keyTwo (names : List Key) (a b : ℕ) (c : ℤ) (s : Key) : Key :=
  (names[a]?).getD [] ++ '2' :: ((names[b]?).getD [] ++ cmpPart (cmpName names c) ++ s)

theorem expKey_ok (e : Exp) (a b : ℕ) (c : ℤ) (s : Key) (ha : a < e.modalities.length)
    (hb : b < e.modalities.length) (hc : CmpIn e.modalities.length c) :
    expKey e a b c s = .ok (keyTwo e.modalities a b c s) := by
  have h : ∀ i : ℕ, i < e.modalities.length → pyGet e.modalities (i : ℤ) =
      .ok ((e.modalities[i]?).getD []) := by
    intro i hi
    rw [pyGet_at (List.getElem?_eq_getElem hi), List.getElem?_eq_getElem hi]
    rfl
  unfold expKey expCmp keyTwo cmpName
  rw [h a ha, h b hb]
  rcases hc with rfl | ⟨k, hk, rfl⟩
  · rfl
  · rw [if_neg (by omega), if_neg (by omega), h k hk, Int.toNat_natCast,
      List.getElem?_eq_getElem hk]
    rfl

theorem names_inj {names : List Key} (hn : names.Nodup) {a a' : ℕ} (ha : a < names.length)
    (ha' : a' < names.length) (h : (names[a]?).getD [] = (names[a']?).getD []) : a = a' := by
  rw [List.getElem?_eq_getElem ha, List.getElem?_eq_getElem ha'] at h
  exact (List.Nodup.getElem_inj_iff hn).1 h

/-- **C89.** With distinct names without `2` and `_` other than `bis`, `frob` and `cosine`, different
comparisons have different keys. -/
theorem C89_keys (e : Exp) (hn : e.modalities.Nodup) (hp : ∀ m ∈ e.modalities, Plain m)
    (a b a' b' : ℕ) (c c' : ℤ) (s s' k : Key) (ha : a < e.modalities.length)
    (hb : b < e.modalities.length) (hc : CmpIn e.modalities.length c) (ha' : a' < e.modalities.length)
    (hb' : b' < e.modalities.length) (hc' : CmpIn e.modalities.length c') (hs : s ∈ SUFFIXES)
    (hs' : s' ∈ SUFFIXES) (h : expKey e a b c s = .ok k) (h' : expKey e a' b' c' s' = .ok k) :
    a = a' ∧ b = b' ∧ c = c' ∧ s = s' := by
  rw [expKey_ok e a b c s ha hb hc] at h
  rw [expKey_ok e a' b' c' s' ha' hb' hc'] at h'
  have hk : keyTwo e.modalities a b c s = keyTwo e.modalities a' b' c' s' := by
    cases h
    exact (Except.ok.inj h').symm
  have pl : ∀ i, i < e.modalities.length → Plain ((e.modalities[i]?).getD []) := by
    intro i hi
    rw [List.getElem?_eq_getElem hi]
    exact hp _ (List.getElem_mem hi)
  have plc : ∀ c m, cmpName e.modalities c = some m → Plain m := by
    intro c m hm
    unfold cmpName at hm
    split_ifs at hm
    exact hp m (List.mem_of_getElem? hm)
  obtain ⟨h1, h2, h3, h4⟩ := key2_inj (pl a ha) (pl a' ha') (pl b hb) (pl b' hb') (plc c) (plc c') hs
    hs' hk
  refine ⟨names_inj hn ha ha' h1, names_inj hn hb hb' h2, ?_, h4⟩
  unfold cmpName at h3
  rcases hc with rfl | ⟨x, hx, rfl⟩ <;> rcases hc' with rfl | ⟨y, hy, rfl⟩
  · rfl
  · rw [if_pos (by decide), if_neg (by omega), Int.toNat_natCast, List.getElem?_eq_getElem hy] at h3
    cases h3
  · rw [if_pos (by decide : (-1 : ℤ) < 0), if_neg (by omega), Int.toNat_natCast,
      List.getElem?_eq_getElem hx] at h3
    cases h3
  · rw [if_neg (by omega), if_neg (by omega), Int.toNat_natCast, Int.toNat_natCast] at h3
    have := names_inj hn hx hy (by rw [h3])
    rw [this]

example : expKey (Exp.new [("motion".toList, .choreo2), ("sound".toList, .acorns (.num 0))] 50 50 50
    none true .leaveOneOut false) 0 1 (-1) "_frob".toList = .ok "motion2sound_frob".toList := by
  decide +kernel

/-! ### All of the keys of a run -/

theorem mem_toTest {n : ℕ} {c : ℕ × ℕ × ℤ} :
    c ∈ toTest n ↔ c.1 < n ∧ c.2.1 < n ∧ CmpIn n c.2.2 := by
  obtain ⟨a, b, c⟩ := c
  unfold toTest CmpIn
  simp only [List.mem_flatMap, List.mem_range, List.mem_map, List.mem_cons, Prod.mk.injEq]
  constructor
  · rintro ⟨a', ha, b', hb, c', hc, rfl, rfl, rfl⟩
    refine ⟨ha, hb, hc.imp_right ?_⟩
    rintro ⟨k, hk, rfl⟩
    exact ⟨k, hk, rfl⟩
  · rintro ⟨ha, hb, hc⟩
    refine ⟨a, ha, b, hb, c, hc.imp_right ?_, rfl, rfl, rfl⟩
    rintro ⟨k, hk, rfl⟩
    exact ⟨k, hk, rfl⟩

theorem toTest_nodup (n : ℕ) : (toTest n).Nodup := by
  unfold toTest
  rw [List.nodup_flatMap]
  constructor
  · intro a _
    rw [List.nodup_flatMap]
    constructor
    · intro b _
      refine List.Nodup.map (fun x y h => by cases h; rfl) ?_
      rw [List.nodup_cons]
      constructor
      · simp
      · exact List.nodup_range.map (fun x y h => by exact_mod_cast h)
    · refine List.nodup_range.imp fun {b b'} hbb => ?_
      rw [Function.onFun, List.disjoint_left]
      intro x hx hy
      obtain ⟨_, _, rfl⟩ := List.mem_map.1 hx
      obtain ⟨_, _, h⟩ := List.mem_map.1 hy
      cases h
      exact hbb rfl
  · refine List.nodup_range.imp fun {a a'} haa => ?_
    rw [Function.onFun, List.disjoint_left]
    intro x hx hy
    obtain ⟨_, _, hx⟩ := List.mem_flatMap.1 hx
    obtain ⟨_, _, hy⟩ := List.mem_flatMap.1 hy
    obtain ⟨_, _, rfl⟩ := List.mem_map.1 hx
    obtain ⟨_, _, h⟩ := List.mem_map.1 hy
    cases h
    exact haa rfl

/-- The keys stored by the evaluation, in order. -/
def keysTwo (names : List Key) (metrics : List (List ℚ → List ℚ → ℚ)) : List Key :=
  (toTest names.length).flatMap fun c => (metricsSuffixes metrics).flatMap fun ms =>
    ["found_".toList ++ keyTwo names c.1 c.2.1 c.2.2 ms.2,
     "score_".toList ++ keyTwo names c.1 c.2.1 c.2.2 ms.2]

theorem mem_metrics_suffix {metrics : List (List ℚ → List ℚ → ℚ)} {ms : (List ℚ → List ℚ → ℚ) × Key}
    (h : ms ∈ metricsSuffixes metrics) : ms.2 ∈ SUFFIXES := by
  unfold metricsSuffixes at h
  exact (List.of_mem_zip (a := ms.1) (b := ms.2) h).2

theorem metrics_pairwise (metrics : List (List ℚ → List ℚ → ℚ)) :
    (metricsSuffixes metrics).Pairwise fun a b => a.2 ≠ b.2 := by
  have h1 : ((metricsSuffixes metrics).map Prod.snd).Nodup := by
    unfold metricsSuffixes
    have hp : (metrics.zip SUFFIXES).map Prod.snd = SUFFIXES.take metrics.length := by
      rcases metrics with _ | ⟨a, _ | ⟨b, _ | ⟨c, _ | ⟨d, l⟩⟩⟩⟩ <;> simp [SUFFIXES]
    rw [hp]
    exact List.Nodup.sublist (List.take_sublist _ _) (by decide)
  rwa [List.Nodup, List.pairwise_map] at h1

theorem found_ne_score (k k' : Key) : "found_".toList ++ k ≠ "score_".toList ++ k' := by
  intro h
  have : 'f' = 's' := congrArg (fun l : List Char => l.headD 'x') h
  exact absurd this (by decide)

theorem keysTwo_nodup (e : Exp) (metrics : List (List ℚ → List ℚ → ℚ)) (hn : e.modalities.Nodup)
    (hp : ∀ m ∈ e.modalities, Plain m) : (keysTwo e.modalities metrics).Nodup := by
  have inj : ∀ (c c' : ℕ × ℕ × ℤ) (s s' : Key), c ∈ toTest e.modalities.length →
      c' ∈ toTest e.modalities.length → s ∈ SUFFIXES → s' ∈ SUFFIXES →
      keyTwo e.modalities c.1 c.2.1 c.2.2 s = keyTwo e.modalities c'.1 c'.2.1 c'.2.2 s' →
      c = c' ∧ s = s' := by
    intro c c' s s' hc hc' hs hs' hk
    obtain ⟨h1, h2, h3⟩ := mem_toTest.1 hc
    obtain ⟨h1', h2', h3'⟩ := mem_toTest.1 hc'
    obtain ⟨e1, e2, e3, e4⟩ := C89_keys e hn hp c.1 c.2.1 c'.1 c'.2.1 c.2.2 c'.2.2 s s' _ h1 h2 h3 h1'
      h2' h3' hs hs' (expKey_ok e _ _ _ _ h1 h2 h3) (by rw [expKey_ok e _ _ _ _ h1' h2' h3', hk])
    exact ⟨Prod.ext e1 (Prod.ext e2 e3), e4⟩
  have mem : ∀ (c : ℕ × ℕ × ℤ) (ms : (List ℚ → List ℚ → ℚ) × Key) (x : Key),
      x ∈ ["found_".toList ++ keyTwo e.modalities c.1 c.2.1 c.2.2 ms.2,
        "score_".toList ++ keyTwo e.modalities c.1 c.2.1 c.2.2 ms.2] →
      ∃ pre, (pre = "found_".toList ∨ pre = "score_".toList) ∧
        x = pre ++ keyTwo e.modalities c.1 c.2.1 c.2.2 ms.2 := by
    intro c ms x hx
    simp only [List.mem_cons, List.not_mem_nil, or_false] at hx
    rcases hx with rfl | rfl
    · exact ⟨_, Or.inl rfl, rfl⟩
    · exact ⟨_, Or.inr rfl, rfl⟩
  have strip : ∀ (pre pre' k k' : Key), (pre = "found_".toList ∨ pre = "score_".toList) →
      (pre' = "found_".toList ∨ pre' = "score_".toList) → pre ++ k = pre' ++ k' → k = k' := by
    rintro pre pre' k k' (rfl | rfl) (rfl | rfl) h
    · exact List.append_cancel_left h
    · exact absurd h (found_ne_score _ _)
    · exact absurd h.symm (found_ne_score _ _)
    · exact List.append_cancel_left h
  unfold keysTwo
  rw [List.nodup_flatMap]
  constructor
  · intro c hc
    rw [List.nodup_flatMap]
    constructor
    · intro ms _
      simp
    · refine List.Pairwise.imp_of_mem ?_ (metrics_pairwise metrics)
      intro ms ms' hms hms' hne
      rw [Function.onFun, List.disjoint_left]
      intro x hx hy
      obtain ⟨p1, hp1, rfl⟩ := mem c ms x hx
      obtain ⟨p2, hp2, h⟩ := mem c ms' _ hy
      exact hne (inj c c _ _ hc hc (mem_metrics_suffix hms) (mem_metrics_suffix hms')
        (strip _ _ _ _ hp1 hp2 h)).2
  · refine List.Pairwise.imp_of_mem ?_ (toTest_nodup _)
    intro c c' hc hc' hne
    rw [Function.onFun, List.disjoint_left]
    intro x hx hy
    obtain ⟨ms, hms, hx⟩ := List.mem_flatMap.1 hx
    obtain ⟨ms', hms', hy⟩ := List.mem_flatMap.1 hy
    obtain ⟨p1, hp1, rfl⟩ := mem c ms x hx
    obtain ⟨p2, hp2, h⟩ := mem c' ms' _ hy
    exact hne (inj c c' _ _ hc hc' (mem_metrics_suffix hms) (mem_metrics_suffix hms')
        (strip _ _ _ _ hp1 hp2 h)).1

/-! ### The values -/

/-- What `data` of modality `a` becomes for the comparison `c`: its internal representation, itself,
or its reconstruction in another modality. -/
inductive Transformed (X : Ext Λ) (e : Exp) (learner : Λ) (data : List Mx) (a : ℕ) : ℤ → Mx → Prop
  | internal {m x y} : e.modalities[a]? = some m → data[a]? = some x →
      X.internal learner [m] [x] e.iterTest = .ok y → Transformed X e learner data a (-1) y
  | itself {x} : data[a]? = some x → Transformed X e learner data a a x
  | other {m x i b m' y} : b ≠ a → e.modalities[a]? = some m → data[a]? = some x →
      X.internal learner [m] [x] e.iterTest = .ok i → e.modalities[b]? = some m' →
      X.reconstruct learner m' i = .ok y → Transformed X e learner data a (b : ℤ) y

/-- The learner can transform these data, and the transformations keep the number of samples. -/
structure Transforms (X : Ext Λ) (e : Exp) (learner : Λ) (data : List Mx) : Prop where
  length : data.length = e.modalities.length
  internal : ∀ (a : ℕ) (m : Key) (x : Mx), e.modalities[a]? = some m → data[a]? = some x →
    ∃ i, X.internal learner [m] [x] e.iterTest = .ok i ∧ i.rows.length = x.rows.length ∧
      ∀ m' ∈ e.modalities, ∃ y, X.reconstruct learner m' i = .ok y ∧ y.rows.length = x.rows.length

theorem range_mapM_get {γ : Type} {f : ℕ → Py γ} {n : ℕ} {ys : List γ}
    (h : (List.range n).mapM f = .ok ys) : ys.length = n ∧ ∀ (i : ℕ) y, ys[i]? = some y → f i = .ok y := by
  have h2 := Objects.mapM_py_ok.1 h
  have hl := h2.length_eq
  rw [List.length_range] at hl
  refine ⟨hl.symm, fun i y hy => ?_⟩
  have hi : i < ys.length := (List.getElem?_eq_some_iff.1 hy).1
  have := (List.forall₂_iff_get.1 h2).2 i (by simp; omega) hi
  rw [List.getElem?_eq_getElem hi, Option.some.injEq] at hy
  simp only [List.get_eq_getElem, List.getElem_range, hy] at this
  exact this

theorem allTransformations_ok (X : Ext Λ) (e : Exp) (learner : Λ) (data : List Mx)
    (h : Transforms X e learner data) :
    ∃ T, allTransformations X e learner data = .ok T ∧
      ∀ (a : ℕ) (c : ℤ), a < e.modalities.length → CmpIn e.modalities.length c →
        ∃ y x, get2 T a c = .ok y ∧ data[a]? = some x ∧ y.rows.length = x.rows.length ∧
          Transformed X e learner data a c y := by
  -- internal representations
  have hint : ∃ I, allInternals X e learner data = .ok I := by
    unfold allInternals
    refine mapM_exists _ _ fun xi hxi => ?_
    have hx : data[xi.2]? = some xi.1 := List.mem_zipIdx_iff_getElem?.1 hxi
    have hlt : xi.2 < e.modalities.length := by
      rw [← h.length]
      exact (List.getElem?_eq_some_iff.1 hx).1
    have hm : e.modalities[xi.2]? = some e.modalities[xi.2] := List.getElem?_eq_getElem hlt
    obtain ⟨i, hi, _⟩ := h.internal _ _ _ hm hx
    exact ⟨i, by rw [pyGet_at hm]; exact hi⟩
  obtain ⟨I, hI⟩ := hint
  have hI2 := Objects.mapM_py_ok.1 hI
  have hIlen : I.length = e.modalities.length := by
    rw [← hI2.length_eq, List.length_zipIdx, h.length]
  have hIget : ∀ (a : ℕ) (m : Key) (x : Mx), e.modalities[a]? = some m → data[a]? = some x →
      ∃ i, I[a]? = some i ∧ X.internal learner [m] [x] e.iterTest = .ok i := by
    intro a m x hm hx
    have ha : a < I.length := by
      rw [hIlen]
      exact (List.getElem?_eq_some_iff.1 hm).1
    have hz : data.zipIdx[a]? = some (x, a) := by
      rw [List.getElem?_zipIdx, hx]
      simp
    obtain ⟨i, hi, this⟩ := forall₂_get hI2 hz
    rw [pyGet_at (show e.modalities[((x, a) : Mx × ℕ).2]? = some m from hm)] at this
    exact ⟨_, hi, this⟩
  -- rows
  have hrow : ∀ a, a < e.modalities.length → ∃ row, transformRow X e learner data I a = .ok row ∧
      ∀ c, CmpIn e.modalities.length c → ∃ y x, pyGet row c = .ok y ∧ data[a]? = some x ∧
        y.rows.length = x.rows.length ∧ Transformed X e learner data a c y := by
    intro a ha
    have hm : e.modalities[a]? = some e.modalities[a] := List.getElem?_eq_getElem ha
    have hx : data[a]? = some (data[a]'(by rw [h.length]; exact ha)) :=
      List.getElem?_eq_getElem (by rw [h.length]; exact ha)
    generalize data[a]'(by rw [h.length]; exact ha) = x at hx
    generalize e.modalities[a] = m at hm
    obtain ⟨i, hi, hil, hrec⟩ := h.internal a m x hm hx
    obtain ⟨i', hi', hi2⟩ := hIget a m x hm hx
    rw [hi] at hi2
    cases hi2
    have hcols : ∃ row, ((List.range e.modalities.length).mapM fun (outMod : ℕ) =>
        if outMod = a then (.ok x : Py Mx)
        else do
          let m ← pyGet e.modalities (outMod : ℤ)
          let i ← pyGet I (a : ℤ)
          X.reconstruct learner m i) = .ok row := by
      refine mapM_exists _ _ fun b hb => ?_
      rw [List.mem_range] at hb
      by_cases hba : b = a
      · exact ⟨x, if_pos hba⟩
      · obtain ⟨y, hy, _⟩ := hrec _ (List.getElem_mem hb)
        refine ⟨y, ?_⟩
        rw [if_neg hba, pyGet_at (List.getElem?_eq_getElem hb), pyGet_at hi']
        exact hy
    obtain ⟨row, hrow⟩ := hcols
    obtain ⟨hlen, hget⟩ := range_mapM_get hrow
    refine ⟨row ++ [i], ?_, ?_⟩
    · unfold transformRow
      rw [pyGet_at hx]
      show (do let row ← _; let i ← pyGet I (a : ℤ); return row ++ [i]) = _
      rw [hrow, pyGet_at hi']
      rfl
    · rintro c (rfl | ⟨b, hb, rfl⟩)
      · refine ⟨i, x, ?_, hx, hil, .internal hm hx hi⟩
        unfold pyGet
        simp
      · have hbr : row[b]? = some (row[b]'(by omega)) := List.getElem?_eq_getElem (by omega)
        generalize row[b]'(by omega) = y at hbr
        have hy := hget b y hbr
        have hg : pyGet (row ++ [i]) (b : ℤ) = .ok y :=
          pyGet_at (by rw [List.getElem?_append_left (by omega)]; exact hbr)
        by_cases hba : b = a
        · rw [if_pos hba] at hy
          cases hy
          subst hba
          exact ⟨x, x, hg, hx, rfl, .itself hx⟩
        · rw [if_neg hba, pyGet_at (List.getElem?_eq_getElem hb), pyGet_at hi'] at hy
          obtain ⟨y', hy', hl⟩ := hrec _ (List.getElem_mem hb)
          have hyy : X.reconstruct learner e.modalities[b] i = .ok y := hy
          rw [hyy] at hy'
          cases hy'
          exact ⟨y, x, hg, hx, hl, .other hba hm hx hi (List.getElem?_eq_getElem hb) hyy⟩
  have hall : ∃ T, allTransformations X e learner data = .ok T ∧
      (List.range e.modalities.length).mapM (fun (inMod : ℕ) =>
        transformRow X e learner data I inMod) = .ok T := by
    obtain ⟨T, hT⟩ := mapM_exists (fun (inMod : ℕ) => transformRow X e learner data I inMod)
      (List.range e.modalities.length) (fun a ha => by
        obtain ⟨row, hr, _⟩ := hrow a (List.mem_range.1 ha)
        exact ⟨row, hr⟩)
    refine ⟨T, ?_, hT⟩
    unfold allTransformations
    rw [hI]
    exact hT
  obtain ⟨T, hT, hTm⟩ := hall
  obtain ⟨hTl, hTg⟩ := range_mapM_get hTm
  refine ⟨T, hT, fun a c ha hc => ?_⟩
  obtain ⟨row, hr, hall⟩ := hrow a ha
  obtain ⟨y, x, h1, h2, h3, h4⟩ := hall c hc
  have hTa : T[a]? = some (T[a]'(by omega)) := List.getElem?_eq_getElem (by omega)
  have := hTg a _ hTa
  rw [hr] at this
  rw [← Except.ok.inj this] at hTa
  refine ⟨y, x, ?_, h2, h3, h4⟩
  unfold get2
  rw [pyGet_at hTa]
  exact h1

theorem Transformed.unique {X : Ext Λ} {e : Exp} {learner : Λ} {data : List Mx} {a : ℕ} {c : ℤ}
    {y y' : Mx} (h : Transformed X e learner data a c y) (h' : Transformed X e learner data a c y') :
    y = y' := by
  cases h with
  | internal h1 h2 h3 =>
    generalize hc : (-1 : ℤ) = c at h'
    cases h' with
    | internal g1 g2 g3 =>
      rw [h1] at g1; cases g1
      rw [h2] at g2; cases g2
      rw [h3] at g3; cases g3
      rfl
    | itself g => omega
    | other => omega
  | itself h1 =>
    generalize hc : (a : ℤ) = c at h'
    cases h' with
    | internal => omega
    | itself g =>
      rw [h1] at g; cases g
      rfl
    | other g => omega
  | @other m x i b m' y g1 h1 h2 h3 h4 h5 =>
    generalize hc : (b : ℤ) = c at h'
    cases h' with
    | internal => omega
    | itself g => omega
    | @other n x' i' b' n' y' g1' k1 k2 k3 k4 k5 =>
      have : b = b' := by omega
      subst this
      rw [h1] at k1; cases k1
      rw [h2] at k2; cases k2
      rw [h3] at k3; cases k3
      rw [h4] at k4; cases k4
      rw [h5] at k5; cases k5
      rfl

end Verif.Experiment
