import Verif.Experiment.PropsTwoRun

/-!
# Results of `ThreeModalitiesExperiment` (C90)
-/

namespace Verif.Experiment

open Verif Verif.Logger

variable {σ α β L Λ : Type}

/-- All of the modalities but one. -/
def others (n m : ℕ) : List ℕ := (List.range n).filter fun x => x != m

theorem mem_others {n m x : ℕ} : x ∈ others n m ↔ x < n ∧ x ≠ m := by
  simp [others]

/-- Two modalities, or one modality and all of the others. -/
theorem mem_tested {n : ℕ} {c : List ℕ × List ℕ} :
    c ∈ testedCombinations n ↔ (∃ a b, a < n ∧ b < n ∧ a ≠ b ∧ c = ([a], [b])) ∨
      ∃ m, m < n ∧ (c = (others n m, [m]) ∨ c = ([m], others n m)) := by
  unfold testedCombinations twoToOne
  simp only [List.mem_append, List.mem_flatMap, List.mem_map, List.mem_filter, List.mem_range,
    bne_iff_ne]
  constructor
  · rintro ((⟨a, ha, b, ⟨hb, hab⟩, rfl⟩ | ⟨m, hm, rfl⟩) | ⟨_, ⟨m, hm, rfl⟩, rfl⟩)
    · exact Or.inl ⟨a, b, ha, hb, hab, rfl⟩
    · exact Or.inr ⟨m, hm, Or.inl rfl⟩
    · exact Or.inr ⟨m, hm, Or.inr rfl⟩
  · rintro (⟨a, b, ha, hb, hab, rfl⟩ | ⟨m, hm, rfl | rfl⟩)
    · exact Or.inl (Or.inl ⟨a, ha, b, ⟨hb, hab⟩, rfl⟩)
    · exact Or.inl (Or.inr ⟨m, hm, rfl⟩)
    · exact Or.inr ⟨_, ⟨m, hm, rfl⟩, rfl⟩

theorem tested_swap {n : ℕ} {c : List ℕ × List ℕ} (h : c ∈ testedCombinations n) :
    (c.2, c.1) ∈ testedCombinations n := by
  rw [mem_tested] at h ⊢
  rcases h with ⟨a, b, ha, hb, hab, rfl⟩ | ⟨m, hm, rfl | rfl⟩
  · exact Or.inl ⟨b, a, hb, ha, hab.symm, rfl⟩
  · exact Or.inr ⟨m, hm, Or.inr rfl⟩
  · exact Or.inr ⟨m, hm, Or.inl rfl⟩

theorem others_ne_single {n : ℕ} (hn : 3 ≤ n) (m a : ℕ) : others n m ≠ [a] := by
  intro h
  have key : ∀ x, x < n → x = m ∨ x = a := by
    intro x hx
    by_cases hxm : x = m
    · exact Or.inl hxm
    · right
      have : x ∈ others n m := mem_others.2 ⟨hx, hxm⟩
      rw [h] at this
      simpa using this
  have h0 := key 0 (by omega)
  have h1 := key 1 (by omega)
  have h2 := key 2 (by omega)
  omega

theorem tested_lt {n : ℕ} {c : List ℕ × List ℕ} (h : c ∈ testedCombinations n) :
    ∀ x ∈ c.1, x < n := by
  rw [mem_tested] at h
  rcases h with ⟨a, b, ha, hb, hab, rfl⟩ | ⟨m, hm, rfl | rfl⟩
  · simpa using ha
  · intro x hx
    exact (mem_others.1 hx).1
  · simpa using hm

theorem tested_ne_nil {n : ℕ} (hn : 2 ≤ n) {c : List ℕ × List ℕ} (h : c ∈ testedCombinations n) :
    c.1 ≠ [] := by
  rw [mem_tested] at h
  rcases h with ⟨a, b, ha, hb, hab, rfl⟩ | ⟨m, hm, rfl | rfl⟩
  · simp
  · intro hc
    have : (if m = 0 then 1 else 0) ∈ others n m := by
      rw [mem_others]
      split_ifs <;> omega
    have hc' : others n m = [] := hc
    rw [hc'] at this
    cases this
  · simp

theorem tested_nodup {n : ℕ} (hn : 3 ≤ n) : (testedCombinations n).Nodup := by
  unfold testedCombinations
  have h2 : (twoToOne n).Nodup := by
    unfold twoToOne
    exact List.nodup_range.map fun x y h => by
      have := congrArg Prod.snd h
      simpa using this
  have m2 : ∀ c, c ∈ twoToOne n → ∃ m, c = (others n m, [m]) := by
    intro c hc
    unfold twoToOne at hc
    obtain ⟨m, _, rfl⟩ := List.mem_map.1 hc
    exact ⟨m, rfl⟩
  rw [List.nodup_append, List.nodup_append]
  refine ⟨⟨?_, h2, ?_⟩, ?_, ?_⟩
  · rw [List.nodup_flatMap]
    constructor
    · intro a _
      exact (List.nodup_range.filter _).map fun x y h => by
        have := congrArg Prod.snd h
        simpa using this
    · refine List.nodup_range.imp fun {a a'} haa => ?_
      rw [Function.onFun, List.disjoint_left]
      intro x hx hy
      obtain ⟨b, _, rfl⟩ := List.mem_map.1 hx
      obtain ⟨b', _, h⟩ := List.mem_map.1 hy
      have := congrArg Prod.fst h
      simp only [List.cons.injEq, and_true] at this
      exact haa this.symm
  · intro x hx y hy hxy
    obtain ⟨a, _, hx⟩ := List.mem_flatMap.1 hx
    obtain ⟨b, _, rfl⟩ := List.mem_map.1 hx
    obtain ⟨m, rfl⟩ := m2 y hy
    exact others_ne_single hn m a (congrArg Prod.fst hxy).symm
  · exact h2.map fun x y h => by
      have h1 := congrArg Prod.fst h
      have h2 := congrArg Prod.snd h
      exact Prod.ext h2 h1
  · intro x hx y hy hxy
    obtain ⟨c, hc, rfl⟩ := List.mem_map.1 hy
    obtain ⟨m, rfl⟩ := m2 c hc
    subst hxy
    rcases List.mem_append.1 hx with hx | hx
    · obtain ⟨a, _, hx⟩ := List.mem_flatMap.1 hx
      obtain ⟨b, _, hx⟩ := List.mem_map.1 hx
      exact others_ne_single hn m b (congrArg Prod.snd hx).symm
    · obtain ⟨m', h⟩ := m2 _ hx
      exact others_ne_single hn m m' (congrArg Prod.snd h)

/-! ### Keys -/

/-- Names of some modalities. -/
def namesAt (names : List Key) (l : List ℕ) : List Key := l.map fun i => (names[i]?).getD []

/-- The key of a comparison. -/
def keyThree (names : List Key) (c : List ℕ × List ℕ) (s : Key) : Key :=
  joinUnderscore (namesAt names c.1) ++ '2' :: (joinUnderscore (namesAt names c.2) ++ s)

theorem mapM_names (names : List Key) (l : List ℕ) (h : ∀ x ∈ l, x < names.length) :
    (l.mapM fun (m : ℕ) => pyGet names (m : ℤ)) = .ok (namesAt names l) := by
  induction l with
  | nil => rfl
  | cons a l ih =>
    have ha := h a List.mem_cons_self
    rw [List.mapM_cons, pyGet_at (List.getElem?_eq_getElem ha),
      ih fun x hx => h x (List.mem_cons_of_mem _ hx)]
    unfold namesAt
    rw [List.map_cons, List.getElem?_eq_getElem ha]
    rfl

theorem scoreKey3_ok (e : Exp) (c : List ℕ × List ℕ) (s : Key)
    (hc : c ∈ testedCombinations e.modalities.length) :
    scoreKey3 e c.1 c.2 s = .ok ("score_".toList ++ keyThree e.modalities c s) := by
  unfold scoreKey3
  rw [mapM_names _ _ (tested_lt hc), mapM_names _ _ (tested_lt (tested_swap hc))]
  rfl

theorem namesAt_inj {names : List Key} (hn : names.Nodup) {l l' : List ℕ}
    (h : ∀ x ∈ l, x < names.length) (h' : ∀ x ∈ l', x < names.length)
    (e : namesAt names l = namesAt names l') : l = l' := by
  induction l generalizing l' with
  | nil =>
    cases l' with
    | nil => rfl
    | cons a l' => cases e
  | cons a l ih =>
    cases l' with
    | nil => cases e
    | cons a' l' =>
      unfold namesAt at e
      rw [List.map_cons, List.map_cons, List.cons.injEq] at e
      rw [names_inj hn (h a List.mem_cons_self) (h' a' List.mem_cons_self) e.1,
        ih (fun x hx => h x (List.mem_cons_of_mem _ hx))
          (fun x hx => h' x (List.mem_cons_of_mem _ hx)) e.2]

/-- Three modalities, the second or the third being named as a suffix of keys. -/
def BadThree (names : List Key) : Prop :=
  names.length = 3 ∧ ∃ (j : ℕ) (r : Key), 0 < j ∧ names[j]? = some r ∧ Reserved r

theorem others_length {n m : ℕ} (hm : m < n) : (others n m).length + 1 = n := by
  have h1 : (others n m).length + (((List.range n).filter fun x => x == m)).length = n := by
    unfold others
    rw [← List.countP_eq_length_filter, ← List.countP_eq_length_filter]
    have := List.length_eq_countP_add_countP (fun x => x != m) (l := List.range n)
    rw [List.length_range] at this
    rw [show (fun x : ℕ => x == m) = fun x => decide (¬ (x != m) = true) by funext x; simp [beq_eq_decide]]
    exact this.symm
  have h2 : ((List.range n).filter fun x => x == m).length = 1 := by
    rw [← List.countP_eq_length_filter]
    have : List.count m (List.range n) = 1 := List.count_eq_one_of_mem List.nodup_range (by simpa using hm)
    unfold List.count at this
    exact this
  omega

theorem others_sorted (n m : ℕ) : (others n m).Pairwise (· < ·) :=
  List.Pairwise.filter _ List.pairwise_lt_range

theorem keyThree_inj {names : List Key} (h3 : 3 ≤ names.length) (hn : names.Nodup)
    (hp : ∀ m ∈ names, NoSep m) (hbad : ¬ BadThree names) {c c' : List ℕ × List ℕ} {s s' : Key}
    (hc : c ∈ testedCombinations names.length) (hc' : c' ∈ testedCombinations names.length)
    (hs : s ∈ SUFFIXES) (hs' : s' ∈ SUFFIXES) (h : keyThree names c s = keyThree names c' s') :
    c = c' ∧ s = s' := by
  have ne : ∀ {l : List ℕ}, l ≠ [] → namesAt names l ≠ [] := by
    intro l hl hc
    unfold namesAt at hc
    exact hl (List.map_eq_nil_iff.1 hc)
  have pl : ∀ {l : List ℕ}, (∀ x ∈ l, x < names.length) → ∀ m ∈ namesAt names l, NoSep m := by
    intro l hl m hm
    unfold namesAt at hm
    obtain ⟨i, hi, rfl⟩ := List.mem_map.1 hm
    rw [List.getElem?_eq_getElem (hl i hi)]
    exact hp _ (List.getElem_mem _)
  have hsw := tested_swap hc
  have hsw' := tested_swap hc'
  obtain ⟨h1, h2⟩ := key3_inj (ne (tested_ne_nil (by omega) hc)) (ne (tested_ne_nil (by omega) hc'))
    (ne (tested_ne_nil (by omega) hsw)) (ne (tested_ne_nil (by omega) hsw')) (pl (tested_lt hc))
    (pl (tested_lt hc')) (pl (tested_lt hsw)) (pl (tested_lt hsw')) hs hs' h
  have e1 := namesAt_inj hn (tested_lt hc) (tested_lt hc') h1
  -- a longer second part is excluded
  have key : ∀ {c c' : List ℕ × List ℕ} (r : Key), c ∈ testedCombinations names.length →
      c' ∈ testedCombinations names.length → Reserved r →
      namesAt names c.2 = namesAt names c'.2 ++ [r] → False := by
    intro c c' r hc hc' hr hx
    have hlen := congrArg List.length hx
    simp only [namesAt, List.length_append, List.length_map, List.length_singleton] at hlen
    have len : ∀ {c : List ℕ × List ℕ}, c ∈ testedCombinations names.length →
        c.2.length = 1 ∨ ∃ m, m < names.length ∧ c.2 = others names.length m := by
      intro c hc
      rcases mem_tested.1 hc with ⟨a, b, ha, hb, hab, rfl⟩ | ⟨m, hm, rfl | rfl⟩
      · exact Or.inl rfl
      · exact Or.inl rfl
      · exact Or.inr ⟨m, hm, rfl⟩
    rcases len hc with g | ⟨m, hm, g⟩ <;> rcases len hc' with g' | ⟨m', hm', g'⟩
    · omega
    · have := others_length hm'
      rw [g'] at hlen
      omega
    · have hol := others_length hm
      rw [g] at hlen
      have hlen3 : names.length = 3 := by omega
      rw [g'] at hlen
      have hsort := others_sorted names.length m
      rcases ho : others names.length m with _ | ⟨x, _ | ⟨y, _ | ⟨z, l⟩⟩⟩
      · rw [ho] at hlen
        simp at hlen
      · exact others_ne_single h3 m x ho
      · rw [ho] at hsort
        have hxy : x < y := by simpa using hsort
        have hy : y < names.length := (mem_others.1 (by rw [ho]; simp : y ∈ others names.length m)).1
        refine hbad ⟨hlen3, y, r, by omega, ?_, hr⟩
        obtain ⟨u, hu⟩ := List.length_eq_one_iff.1 g'
        rw [g, ho, hu] at hx
        simp only [namesAt, List.map_cons, List.map_nil, List.cons_append, List.nil_append,
          List.cons.injEq, and_true] at hx
        rw [List.getElem?_eq_getElem hy] at hx ⊢
        rw [← hx.2]
        rfl
      · rw [ho] at hol
        simp at hol
        omega
    · have := others_length hm'
      have := others_length hm
      rw [g, g'] at hlen
      omega
  rcases h2 with ⟨h2, h4⟩ | ⟨r, hr, h2 | h2⟩
  · exact ⟨Prod.ext e1 (namesAt_inj hn (tested_lt hsw) (tested_lt hsw') h2), h4⟩
  · exact (key r hc hc' hr h2).elim
  · exact (key r hc' hc hr h2).elim

/-- The keys stored by the evaluation, in order. -/
def keysThree (names : List Key) (metrics : List (List ℚ → List ℚ → ℚ)) : List Key :=
  (testedCombinations names.length).flatMap fun c => (metricsSuffixes metrics).flatMap fun ms =>
    ["score_".toList ++ keyThree names c ms.2]

theorem keysThree_nodup (names : List Key) (metrics : List (List ℚ → List ℚ → ℚ))
    (h3 : 3 ≤ names.length) (hn : names.Nodup) (hp : ∀ m ∈ names, NoSep m)
    (hbad : ¬ BadThree names) : (keysThree names metrics).Nodup := by
  unfold keysThree
  rw [List.nodup_flatMap]
  constructor
  · intro c hc
    rw [List.nodup_flatMap]
    constructor
    · intro ms _
      simp
    · refine List.Pairwise.imp_of_mem ?_ (metrics_pairwise metrics)
      intro ms ms' hms hms' hne
      rw [Function.onFun, List.disjoint_left]
      intro x hx hy
      rw [List.mem_singleton] at hx hy
      exact hne (keyThree_inj h3 hn hp hbad hc hc (mem_metrics_suffix hms) (mem_metrics_suffix hms')
        (List.append_cancel_left (hx.symm.trans hy))).2
  · refine List.Pairwise.imp_of_mem ?_ (tested_nodup h3)
    intro c c' hc hc' hne
    rw [Function.onFun, List.disjoint_left]
    intro x hx hy
    obtain ⟨ms, hms, hx⟩ := List.mem_flatMap.1 hx
    obtain ⟨ms', hms', hy⟩ := List.mem_flatMap.1 hy
    rw [List.mem_singleton] at hx hy
    exact hne (keyThree_inj h3 hn hp hbad hc hc' (mem_metrics_suffix hms) (mem_metrics_suffix hms')
        (List.append_cancel_left (hx.symm.trans hy))).1

theorem metric_suffix {metrics : List (List ℚ → List ℚ → ℚ)} (hm : 4 ≤ metrics.length) (j : ℕ)
    (s : Key) (hs : SUFFIXES[j]? = some s) : ∃ f, (f, s) ∈ metricsSuffixes metrics := by
  have hj : j < 4 := (List.getElem?_eq_some_iff.1 hs).1
  refine ⟨metrics[j], ?_⟩
  unfold metricsSuffixes
  apply List.mem_of_getElem? (i := j)
  rw [List.getElem?_zip_eq_some]
  exact ⟨List.getElem?_eq_getElem (by omega), hs⟩

theorem keysThree_bad (names : List Key) (metrics : List (List ℚ → List ℚ → ℚ))
    (hm : 4 ≤ metrics.length) (h : BadThree names) : ¬ (keysThree names metrics).Nodup := by
  obtain ⟨hl, j, r, hj, hr, hres⟩ := h
  intro hnod
  unfold keysThree at hnod
  rw [hl] at hnod
  have hj3 : j < 3 := by
    have := (List.getElem?_eq_some_iff.1 hr).1
    omega
  -- the other modality
  have hm2 : ∃ m, m < 3 ∧ m ≠ 0 ∧ others 3 m = [0, j] := by
    have : j = 1 ∨ j = 2 := by omega
    rcases this with rfl | rfl
    · exact ⟨2, by decide, by decide, by decide⟩
    · exact ⟨1, by decide, by decide, by decide⟩
  obtain ⟨m, hm3, hm0, hmo⟩ := hm2
  have hc1 : ([m], [0]) ∈ testedCombinations 3 := mem_tested.2 (Or.inl ⟨m, 0, hm3, by decide, hm0, rfl⟩)
  have hc2 : ([m], [0, j]) ∈ testedCombinations 3 :=
    mem_tested.2 (Or.inr ⟨m, hm3, Or.inr (by rw [hmo])⟩)
  have hdis := disjoint_of_nodup_flatMap hnod hc1 hc2 (by simp)
  obtain ⟨i, _, _, hsuf⟩ := reserved_suffix hres
  obtain ⟨f1, hf1⟩ := metric_suffix hm i _ hsuf
  obtain ⟨f0, hf0⟩ := metric_suffix hm 0 _ (rfl : SUFFIXES[0]? = some [])
  rw [List.disjoint_left] at hdis
  refine @hdis ("score_".toList ++ keyThree names ([m], [0]) ('_' :: r)) ?_ ?_
  · exact List.mem_flatMap.2 ⟨_, hf1, List.mem_cons_self⟩
  · refine List.mem_flatMap.2 ⟨_, hf0, ?_⟩
    have : keyThree names ([m], [0]) ('_' :: r) = keyThree names ([m], [0, j]) [] := by
      unfold keyThree namesAt
      simp [joinUnderscore, hr]
    rw [this]
    exact List.mem_cons_self

theorem keysThree_two (names : List Key) (metrics : List (List ℚ → List ℚ → ℚ))
    (hm : metrics ≠ []) (h : names.length = 2) : ¬ (keysThree names metrics).Nodup := by
  obtain ⟨f, metrics, rfl⟩ := List.exists_cons_of_ne_nil hm
  intro hnod
  unfold keysThree at hnod
  rw [h, show testedCombinations 2 = ([0], [1]) :: ([1], [0]) :: ([1], [0]) ::
    [([0], [1]), ([0], [1]), ([1], [0])] by decide] at hnod
  simp only [List.flatMap_cons, List.nodup_append] at hnod
  have hmem : "score_".toList ++ keyThree names ([1], [0]) [] ∈
      (metricsSuffixes (f :: metrics)).flatMap fun ms =>
        ["score_".toList ++ keyThree names ([1], [0]) ms.2] :=
    List.mem_flatMap.2 ⟨(f, []), by
      unfold metricsSuffixes
      apply List.mem_of_getElem? (i := 0)
      rfl, List.mem_cons_self⟩
  exact hnod.2.1.2.2 _ hmem _ (List.mem_append_left _ hmem) rfl

end Verif.Experiment
