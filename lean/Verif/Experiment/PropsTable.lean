import Verif.Experiment.Table
import Verif.Experiment.PropsComplete

/-!
# Printed results (C166)
-/

namespace Verif.Experiment

open Verif Verif.Logger

variable {L Λ : Type}

/-! ### Statistics -/

/-- Average and square of the standard deviation of scores: `nan` without scores or with one which is
`nan`. -/
def Stats (scores : List (Option ℚ)) : Option (ℚ × ℚ) → Prop
  | none => scores = [] ∨ none ∈ scores
  | some (m, v) => ∃ xs : List ℚ, scores = xs.map some ∧ xs ≠ [] ∧ m * xs.length = xs.sum ∧
      v * xs.length = (xs.map fun x => (x - m) ^ 2).sum

theorem allFinite_none {l : List (Option ℚ)} : allFinite l = none ↔ none ∈ l := by
  induction l with
  | nil => simp [allFinite]
  | cons a l ih =>
    cases a with
    | none => simp [allFinite]
    | some q => simp [allFinite, ih]

theorem allFinite_some {l : List (Option ℚ)} {xs : List ℚ} : allFinite l = some xs ↔ l = xs.map some := by
  induction l generalizing xs with
  | nil =>
    simp only [allFinite, Option.some.injEq]
    constructor
    · rintro rfl
      rfl
    · intro h
      exact (List.map_eq_nil_iff.1 h.symm).symm
  | cons a l ih =>
    cases a with
    | none =>
      simp only [allFinite]
      constructor
      · intro h
        cases h
      · intro h
        cases xs with
        | nil => cases h
        | cons x xs =>
          rw [List.map_cons] at h
          injection h with h _
          cases h
    | some q =>
      simp only [allFinite, Option.map_eq_some_iff]
      constructor
      · rintro ⟨ys, h, rfl⟩
        rw [ih.1 h]
        rfl
      · intro h
        cases xs with
        | nil => cases h
        | cons x xs =>
          rw [List.map_cons] at h
          injection h with h1 h2
          injection h1 with h1
          exact ⟨xs, ih.2 h2, by rw [h1]⟩

theorem averageStd_spec (scores : List (Option ℚ)) : Stats scores (averageStd scores) := by
  unfold averageStd
  split
  · rename_i h
    exact Or.inr (allFinite_none.1 h)
  · rename_i h
    exact Or.inl (by simpa using allFinite_some.1 h)
  · rename_i q l h
    have hl : (((q :: l).length : ℕ) : ℚ) ≠ 0 := by
      rw [List.length_cons]
      positivity
    refine ⟨q :: l, allFinite_some.1 h, by simp, ?_, ?_⟩
    · rw [div_mul_cancel₀ _ hl]
    · rw [div_mul_cancel₀ _ hl]
      simp only [pow_two]

theorem Stats.unique {scores : List (Option ℚ)} {s t : Option (ℚ × ℚ)} (hs : Stats scores s)
    (ht : Stats scores t) : s = t := by
  have key : ∀ xs : List ℚ, scores = xs.map some → xs ≠ [] → ¬ (scores = [] ∨ none ∈ scores) := by
    rintro xs rfl hne (h | h)
    · exact hne (by simpa using h)
    · simp at h
  rcases s with _ | ⟨m, v⟩ <;> rcases t with _ | ⟨m', v'⟩
  · rfl
  · obtain ⟨xs, h1, h2, _⟩ := ht
    exact absurd hs (key xs h1 h2)
  · obtain ⟨xs, h1, h2, _⟩ := hs
    exact absurd ht (key xs h1 h2)
  · obtain ⟨xs, h1, h2, h3, h4⟩ := hs
    obtain ⟨ys, g1, g2, g3, g4⟩ := ht
    have : xs = ys := List.map_injective_iff.2 (Option.some_injective _) (h1.symm.trans g1)
    subst this
    have hl : ((xs.length : ℕ) : ℚ) ≠ 0 := by
      rw [Nat.cast_ne_zero]
      simpa using h2
    have hm : m = m' := mul_right_cancel₀ hl (h3.trans g3.symm)
    subst hm
    rw [mul_right_cancel₀ hl (h4.trans g4.symm)]

/-- **C166**: `get_stats` of a key which has a score in each run gives their average and standard deviation,
`nan` without runs or if a score is `nan`. -/
theorem C166_stats (l : Log L) (key : Key) (scores : List (Option ℚ))
    (h : List.Forall₂ (fun d s => dictGet? d key = some (.plain (.score s))) l.exps scores) :
    ∃ s, getStats l key = .ok s ∧ Stats scores s := by
  refine ⟨averageStd scores, ?_, averageStd_spec scores⟩
  have h1 : (l.getValues key).mapM asNumbers = .ok (scores.map fun s => (none, [s])) := by
    unfold Logger.getValues
    revert h
    generalize l.exps = ds
    intro h
    induction h with
    | nil => rfl
    | cons hd _ ih =>
      rw [List.map_cons, List.mapM_cons, hd, ih]
      rfl
  unfold getStats
  rw [h1]
  simp only [bind, Except.bind]
  rw [if_neg]
  · congr 2
    clear h h1
    induction scores with
    | nil => rfl
    | cons a l ih =>
      rw [List.map_cons, List.flatMap_cons, ih]
      rfl
  · rintro ⟨r, hr, r', hr', hne⟩
    obtain ⟨_, _, rfl⟩ := List.mem_map.1 hr
    obtain ⟨_, _, rfl⟩ := List.mem_map.1 hr'
    exact hne rfl

/-- **C166**: with scores in the other runs, a run without value makes `get_stats` raise `TypeError`. -/
theorem C166_missing (l : Log L) (key : Key)
    (h : ∀ d ∈ l.exps, ∀ v, dictGet? d key = some v → ∃ s, v = .plain (.score s))
    (hm : ∃ d ∈ l.exps, dictGet? d key = none) : getStats l key = .error .typeError := by
  have h1 : (l.getValues key).mapM asNumbers = .error .typeError := by
    unfold Logger.getValues
    revert h hm
    generalize l.exps = ds
    intro h hm
    induction ds with
    | nil =>
      obtain ⟨_, h, _⟩ := hm
      cases h
    | cons d ds ih =>
      rw [List.map_cons, List.mapM_cons]
      rcases hd : dictGet? d key with _ | v
      · rfl
      · obtain ⟨s, rfl⟩ := h d List.mem_cons_self v hd
        rw [ih (fun d' h' => h d' (List.mem_cons_of_mem _ h')) ?_]
        · rfl
        · obtain ⟨d', h1, h2⟩ := hm
          rcases List.mem_cons.1 h1 with rfl | h1
          · rw [hd] at h2
            cases h2
          · exact ⟨d', h1, h2⟩
  unfold getStats
  rw [h1]
  rfl

/-! ### Text -/

/-- A text in the middle of `w` characters. -/
def Centred (w : ℕ) (s t : Key) : Prop :=
  ∃ a b, t = List.replicate a ' ' ++ s ++ List.replicate b ' ' ∧ a + b = w - s.length ∧
    a ≤ b + 1 ∧ b ≤ a + 1

theorem center_spec (w : ℕ) (s : Key) : Centred w s (center w s) := by
  unfold center
  simp only []
  refine ⟨_, _, rfl, ?_⟩
  split_ifs <;> omega

theorem Centred.length {w : ℕ} {s t : Key} (h : Centred w s t) : t.length = max w s.length := by
  obtain ⟨a, b, rfl, h1, _⟩ := h
  simp only [List.length_append, List.length_replicate]
  omega

theorem center_center (w : ℕ) (s : Key) : center w (center w s) = center w s := by
  have h : w - (center w s).length = 0 := by
    rw [(center_spec w s).length]
    omega
  generalize center w s = t at h
  unfold center
  simp only [h]
  simp

theorem joinWith_eq (sep : Key) (l : List Key) : joinWith sep l = sep.intercalate l := by
  induction l with
  | nil => rfl
  | cons a l ih =>
    cases l with
    | nil => simp [joinWith]
    | cons b l =>
      rw [joinWith, ih]
      simp [List.intercalate]
      simp

theorem printAll_append (xs : List Key) (r : List (Py Key)) :
    printAll (xs.map .ok ++ r) = (xs ++ (printAll r).1, (printAll r).2) := by
  induction xs with
  | nil => rfl
  | cons a l ih =>
    rw [List.map_cons, List.cons_append, printAll, ih]
    rfl

theorem printAll_ok (xs : List Key) : printAll (xs.map .ok) = (xs, .ok ()) := by
  have := printAll_append xs []
  rw [List.append_nil] at this
  rw [this]
  simp [printAll]

/-! ### The table for two modalities -/

/-- `s` are the statistics of the scores of a comparison and metric in the runs. -/
def ScoreStats (e : Exp) (l : Log L) (i k : ℕ) (c : ℤ) (suf : Key) (s : Option (ℚ × ℚ)) : Prop :=
  ∃ key scores, expKey e i k c suf = .ok key ∧
    List.Forall₂ (fun d sc => dictGet? d ("score_".toList ++ key) = some (.plain (.score sc))) l.exps scores ∧
    Stats scores s

/-- The line for the modality `i` (0 or 1) tested against the other one, compared in the modality `j - 1`, or
by internal coefficients for `j = 0`: names, and statistics for three metrics. -/
def TableLine (shown : Option (ℚ × ℚ) → Key) (e : Exp) (l : Log L) (i j : ℕ) (line : Key) : Prop :=
  ∃ n1 n2 cmp c stats cells, e.modalities[i]? = some n1 ∧ e.modalities[1 - i]? = some n2 ∧
    ((j = 0 ∧ cmp = "internal".toList ∧ c = -1) ∨
      ∃ k : ℕ, j = k + 1 ∧ e.modalities[k]? = some cmp ∧ c = (k : ℤ)) ∧
    List.Forall₂ (ScoreStats e l i (1 - i) c) ["".toList, "_frob".toList, "_cosine".toList] stats ∧
    List.Forall₂ (Centred 13) ([n1, n2, cmp] ++ stats.map shown) cells ∧
    line = " ".toList.intercalate cells

/-- What is printed: five lines, then a line for each order of the first two modalities and each
comparison, then a line. -/
def Table (shown : Option (ℚ × ℚ) → Key) (e : Exp) (l : Log L) (lines : List Key) : Prop :=
  ∃ head rows, lines = head ++ rows ++ [List.replicate 83 '-'] ∧ head.length = 5 ∧
    rows.length = 2 * (e.modalities.length + 1) ∧
    ∀ i j, i < 2 → j ≤ e.modalities.length → ∃ line,
      rows[i * (e.modalities.length + 1) + j]? = some line ∧ TableLine shown e l i j line

theorem comparisons_get (mods : List Key) (j : ℕ) (hj : j ≤ mods.length) :
    ∃ c cmp, (comparisons mods)[j]? = some (c, cmp) ∧ CmpIn mods.length c ∧
      ((j = 0 ∧ cmp = "internal".toList ∧ c = -1) ∨
        ∃ k : ℕ, j = k + 1 ∧ mods[k]? = some cmp ∧ c = (k : ℤ)) := by
  unfold comparisons
  cases j with
  | zero => exact ⟨-1, _, rfl, Or.inl rfl, Or.inl ⟨rfl, rfl, rfl⟩⟩
  | succ k =>
    have hk : k < mods.length := by omega
    refine ⟨(k : ℤ), mods[k], ?_, Or.inr ⟨k, hk, rfl⟩, Or.inr ⟨k, rfl, ?_, rfl⟩⟩
    · simp [List.getElem?_eq_getElem hk]
    · exact List.getElem?_eq_getElem hk

theorem line_ok (shown : Option (ℚ × ℚ) → Key) (e : Exp) (l : Log L) (h2 : 2 ≤ e.modalities.length)
    (i j : ℕ) (hi : i < 2) (hj : j ≤ e.modalities.length)
    (h : ∀ (c : ℤ), CmpIn e.modalities.length c →
      ∀ suf ∈ ["".toList, "_frob".toList, "_cosine".toList], ∃ key scores, expKey e i (1 - i : ℕ) c suf = .ok key ∧
        List.Forall₂ (fun d sc => dictGet? d ("score_".toList ++ key) = some (.plain (.score sc)))
          l.exps scores) :
    ∃ c line, (comparisons e.modalities)[j]? = some c ∧
      tableTwoLine shown e l (i : ℤ) ((1 - i : ℕ) : ℤ) c = .ok line ∧ TableLine shown e l i j line := by
  obtain ⟨c, cmp, hc, hin, hcase⟩ := comparisons_get e.modalities j hj
  have hone : ∀ suf ∈ ["".toList, "_frob".toList, "_cosine".toList], ∃ s,
      getResultTwo e l (i : ℤ) ((1 - i : ℕ) : ℤ) c suf = .ok s ∧ ScoreStats e l i (1 - i) c suf s := by
    intro suf hs
    obtain ⟨key, scores, hk, hsc⟩ := h c hin suf hs
    obtain ⟨s, g1, g2⟩ := C166_stats l _ scores hsc
    refine ⟨s, ?_, key, scores, hk, hsc, g2⟩
    unfold getResultTwo
    rw [hk]
    exact g1
  obtain ⟨s0, a0, b0⟩ := hone _ (by simp : "".toList ∈ _)
  obtain ⟨s1, a1, b1⟩ := hone _ (by simp : "_frob".toList ∈ _)
  obtain ⟨s2, a2, b2⟩ := hone _ (by simp : "_cosine".toList ∈ _)
  have e1 : pyGet e.modalities (i : ℤ) = .ok e.modalities[i] := pyGet_nat _ _ (by omega)
  have e2 : pyGet e.modalities ((1 - i : ℕ) : ℤ) = .ok e.modalities[1 - i] := pyGet_nat _ _ (by omega)
  refine ⟨(c, cmp), _, hc, ?_, e.modalities[i], e.modalities[1 - i], cmp, c, [s0, s1, s2],
    [center 13 e.modalities[i], center 13 e.modalities[1 - i], center 13 cmp, center 13 (shown s0),
      center 13 (shown s1), center 13 (shown s2)], List.getElem?_eq_getElem _, List.getElem?_eq_getElem _,
    hcase, ?_, ?_, rfl⟩
  · unfold tableTwoLine
    rw [e1, e2]
    simp only [TABLE_METRICS, List.mapM_cons, List.mapM_nil, a0, a1, a2, bind, Except.bind, pure, Except.pure,
      tableLine, List.map_append, List.map_cons, List.map_nil, List.cons_append, List.nil_append,
      center_center, joinWith_eq]
    rfl
  · exact .cons b0 (.cons b1 (.cons b2 .nil))
  · exact .cons (center_spec _ _) (.cons (center_spec _ _) (.cons (center_spec _ _) (.cons (center_spec _ _)
      (.cons (center_spec _ _) (.cons (center_spec _ _) .nil)))))

/-- The five first lines. -/
def headTwo : List Key := [rule (13 * 6 + 5),
    center (13 * 3 + 2) "Modalities".toList ++ center (13 * 3 + 2) "Score: avg (std)".toList,
    rule (13 * 3 + 2) ++ " ".toList ++ rule (13 * 3 + 2),
    joinWith " ".toList (["Test".toList, "Reference".toList, "Comparison".toList, "KL".toList,
      "Euclidean".toList, "Cosine".toList].map (center 13)),
    joinWith " ".toList (List.replicate 6 (rule 13))]

theorem printTwo_eq (shown : Option (ℚ × ℚ) → Key) (e : Exp) (l : Log L) :
    printTwo shown e l = printAll (headTwo.map .ok ++
    (([((0 : ℤ), (1 : ℤ)), (1, 0)].flatMap fun m =>
      (comparisons e.modalities).map fun c => tableTwoLine shown e l m.1 m.2 c) ++
    [.ok (rule (13 * 6 + 5))])) := by
  unfold printTwo headTwo
  rw [List.append_assoc]
  rfl

theorem map_lines {α : Type} (f : α → Py Key) (P : ℕ → Key → Prop) (l : List α)
    (h : ∀ j, j < l.length → ∃ a line, l[j]? = some a ∧ f a = .ok line ∧ P j line) :
    ∃ lines : List Key, l.map f = lines.map .ok ∧ lines.length = l.length ∧
      ∀ j, j < l.length → ∃ line, lines[j]? = some line ∧ P j line := by
  induction l generalizing P with
  | nil => exact ⟨[], rfl, rfl, fun j hj => absurd hj (by simp)⟩
  | cons a l ih =>
    obtain ⟨b, line, h1, h2, h3⟩ := h 0 (by simp)
    simp only [List.getElem?_cons_zero, Option.some.injEq] at h1
    subst h1
    obtain ⟨lines, g1, g2, g3⟩ := ih (fun j => P (j + 1)) fun j hj => by
      obtain ⟨b, line, k1, k2, k3⟩ := h (j + 1) (by simpa using hj)
      exact ⟨b, line, by simpa using k1, k2, k3⟩
    refine ⟨line :: lines, by rw [List.map_cons, List.map_cons, h2, g1], by simp [g2], ?_⟩
    intro j hj
    cases j with
    | zero => exact ⟨line, rfl, h3⟩
    | succ j =>
      obtain ⟨x, k1, k2⟩ := g3 j (by simpa using hj)
      exact ⟨x, by simpa using k1, k2⟩

/-- **C166**: with two modalities at least and scores in all runs, the table is printed, and has for each
order of the first two modalities and each comparison the statistics of the scores of this comparison. -/
theorem C166_two (shown : Option (ℚ × ℚ) → Key) (e : Exp) (l : Log L) (h2 : 2 ≤ e.modalities.length)
    (h : ∀ (a b : ℕ) (c : ℤ), a < 2 → b < 2 → CmpIn e.modalities.length c →
      ∀ suf ∈ ["".toList, "_frob".toList, "_cosine".toList], ∃ key, expKey e a b c suf = .ok key ∧
        ∀ d ∈ l.exps, ∃ s, dictGet? d ("score_".toList ++ key) = some (.plain (.score s))) :
    ∃ lines, printTwo shown e l = (lines, .ok ()) ∧ Table shown e l lines := by
  have h' : ∀ i : ℕ, i < 2 → ∀ (c : ℤ), CmpIn e.modalities.length c →
      ∀ suf ∈ ["".toList, "_frob".toList, "_cosine".toList], ∃ key scores,
        expKey e i (1 - i : ℕ) c suf = .ok key ∧
        List.Forall₂ (fun d sc => dictGet? d ("score_".toList ++ key) = some (.plain (.score sc)))
          l.exps scores := by
    intro i hi c hc suf hs
    obtain ⟨key, h1, h2⟩ := h i (1 - i) c hi (by omega) hc suf hs
    refine ⟨key, ?_⟩
    revert h2
    generalize l.exps = ds
    intro h2
    induction ds with
    | nil => exact ⟨[], h1, .nil⟩
    | cons d ds ih =>
      obtain ⟨s, hs⟩ := h2 d List.mem_cons_self
      obtain ⟨ss, k1, k2⟩ := ih fun d' hd' => h2 d' (List.mem_cons_of_mem _ hd')
      exact ⟨s :: ss, h1, .cons hs k2⟩
  have hlen : (comparisons e.modalities).length = e.modalities.length + 1 := by simp [comparisons]
  have hrows : ∀ i : ℕ, i < 2 → ∃ lines : List Key, ((comparisons e.modalities).map fun c =>
      tableTwoLine shown e l (i : ℤ) ((1 - i : ℕ) : ℤ) c) = lines.map .ok ∧
      lines.length = e.modalities.length + 1 ∧
      ∀ j, j < e.modalities.length + 1 → ∃ line, lines[j]? = some line ∧ TableLine shown e l i j line := by
    intro i hi
    have := map_lines (fun c => tableTwoLine shown e l (i : ℤ) ((1 - i : ℕ) : ℤ) c)
      (fun j line => TableLine shown e l i j line) (comparisons e.modalities) (fun j hj =>
        line_ok shown e l h2 i j hi (by omega) (h' i hi))
    rwa [hlen] at this
  obtain ⟨r0, a1, a2, a3⟩ := hrows 0 (by omega)
  obtain ⟨r1, b1, b2, b3⟩ := hrows 1 (by omega)
  refine ⟨headTwo ++ (r0 ++ r1) ++ [rule (13 * 6 + 5)], ?_, headTwo, r0 ++ r1, rfl, rfl, ?_, ?_⟩
  · rw [printTwo_eq]
    have : (([((0 : ℤ), (1 : ℤ)), (1, 0)].flatMap fun m =>
        (comparisons e.modalities).map fun c => tableTwoLine shown e l m.1 m.2 c)) =
        (r0 ++ r1).map .ok := by
      rw [List.map_append, ← a1, ← b1]
      simp
    rw [this, ← List.append_assoc, ← List.map_append, printAll_append]
    simp [printAll]
  · rw [List.length_append, a2, b2]
    omega
  · intro i j hi hj
    have : i = 0 ∨ i = 1 := by omega
    rcases this with rfl | rfl
    · obtain ⟨line, g1, g2⟩ := a3 j (by omega)
      refine ⟨line, ?_, g2⟩
      rw [Nat.zero_mul, Nat.zero_add, List.getElem?_append_left (by omega), g1]
    · obtain ⟨line, g1, g2⟩ := b3 j (by omega)
      refine ⟨line, ?_, g2⟩
      rw [Nat.one_mul, List.getElem?_append_right (by omega), a2, Nat.add_sub_cancel_left, g1]

theorem intercalate_length (l : List Key) (n : ℕ) (h : ∀ s ∈ l, s.length = n) :
    (" ".toList.intercalate l).length = l.length * n + (l.length - 1) := by
  rw [← joinWith_eq]
  induction l with
  | nil => simp [joinWith]
  | cons a l ih =>
    cases l with
    | nil =>
      simp [joinWith, h a]
    | cons b l =>
      rw [show joinWith " ".toList (a :: b :: l) = a ++ " ".toList ++ joinWith " ".toList (b :: l) from rfl,
        List.length_append, List.length_append, ih fun s hs => h s (List.mem_cons_of_mem _ hs),
        h a List.mem_cons_self]
      simp only [List.length_cons]
      show n + 1 + _ = _
      rw [Nat.add_mul (l.length + 1) 1 n]
      omega

/-- **C166**: when names and results have at most 13 characters, the lines have 83 of them (one less in the
second one). -/
theorem C166_width (shown : Option (ℚ × ℚ) → Key) (e : Exp) (l : Log L)
    (hn : ∀ m ∈ e.modalities, m.length ≤ 13) (hs : ∀ s, (shown s).length ≤ 13) (lines : List Key)
    (h : printTwo shown e l = (lines, .ok ())) (i : ℕ) (line : Key) (hi : lines[i]? = some line) :
    line.length = if i = 1 then 82 else 83 := by
  have hhead : ∀ j x, headTwo[j]? = some x → x.length = if j = 1 then 82 else 83 := by
    intro j x hx
    have hj : j < 5 := (List.getElem?_eq_some_iff.1 hx).1
    interval_cases j <;> · rw [← Option.some.inj hx]; decide +kernel
  have hline : ∀ m1 m2 c x, c ∈ comparisons e.modalities → tableTwoLine shown e l m1 m2 c = .ok x →
      x.length = 83 := by
    intro m1 m2 c x hc hx
    have hlc : c.2.length ≤ 13 := by
      unfold comparisons at hc
      rcases List.mem_cons.1 hc with rfl | hc
      · decide
      · obtain ⟨mi, hmi, rfl⟩ := List.mem_map.1 hc
        exact hn _ (List.mem_of_getElem? (List.mem_zipIdx_iff_getElem?.1 hmi))
    unfold tableTwoLine at hx
    rw [pyBind_eq_ok] at hx
    obtain ⟨n1, g1, hx⟩ := hx
    rw [pyBind_eq_ok] at hx
    obtain ⟨n2, g2, hx⟩ := hx
    rw [pyBind_eq_ok] at hx
    obtain ⟨res, g3, hx⟩ := hx
    have hmem : ∀ (k : ℤ) n, pyGet e.modalities k = .ok n → n ∈ e.modalities := by
      intro k n hk
      unfold pyGet at hk
      by_cases h1 : k < 0
      · rw [if_pos h1] at hk
        by_cases h2 : k + e.modalities.length < 0
        · rw [if_pos h2] at hk
          cases hk
        · rw [if_neg h2] at hk
          rcases h3 : e.modalities[(k + e.modalities.length).toNat]? with _ | y
          · rw [h3] at hk; cases hk
          · rw [h3] at hk
            cases hk
            exact List.mem_of_getElem? h3
      · rw [if_neg h1] at hk
        rcases h3 : e.modalities[k.toNat]? with _ | y
        · rw [h3] at hk; cases hk
        · rw [h3] at hk
          cases hk
          exact List.mem_of_getElem? h3
    have hres : res.length = 3 ∧ ∀ t ∈ res, t.length ≤ 13 := by
      have := Objects.mapM_py_ok.1 g3
      refine ⟨this.length_eq.symm, ?_⟩
      intro t ht
      obtain ⟨i, hi⟩ := List.getElem?_of_mem ht
      obtain ⟨suf, _, h2⟩ := forall₂_get this.flip hi
      rw [pyBind_eq_ok] at h2
      obtain ⟨s, _, h3⟩ := h2
      cases h3
      exact hs s
    unfold tableLine at hx
    rw [if_neg (by simp [hres.1])] at hx
    cases hx
    rw [joinWith_eq, List.take_of_length_le (by simp [hres.1]), intercalate_length _ 13]
    · simp [hres.1]
    · intro s hs'
      obtain ⟨t, ht, rfl⟩ := List.mem_map.1 hs'
      rw [(center_spec 13 t).length]
      have : t.length ≤ 13 := by
        rcases List.mem_append.1 ht with ht | ht
        · simp only [List.mem_cons, List.not_mem_nil, or_false] at ht
          rcases ht with rfl | rfl | rfl
          · rw [(center_spec _ _).length, max_eq_left (hn _ (hmem _ _ g1))]
          · rw [(center_spec _ _).length, max_eq_left (hn _ (hmem _ _ g2))]
          · rw [(center_spec _ _).length, max_eq_left hlc]
        · exact hres.2 t ht
      omega
  have hrest : ∀ (rs : List (Py Key)), (∀ r ∈ rs, ∀ x, r = .ok x → x.length = 83) →
      ∀ x ∈ (printAll rs).1, x.length = 83 := by
    intro rs
    induction rs with
    | nil => exact fun _ x hx => by cases hx
    | cons r rs ih =>
      intro h x hx
      cases r with
      | error y => cases hx
      | ok y =>
        rw [printAll] at hx
        rcases List.mem_cons.1 hx with rfl | hx
        · exact h _ List.mem_cons_self _ rfl
        · exact ih (fun r hr => h r (List.mem_cons_of_mem _ hr)) x hx
  rw [printTwo_eq, printAll_append] at h
  obtain ⟨rfl, -⟩ := Prod.mk.inj h
  by_cases hlt : i < 5
  · rw [List.getElem?_append_left (by exact hlt)] at hi
    exact hhead i line hi
  · rw [if_neg (by omega)]
    rw [List.getElem?_append_right (by show 5 ≤ i; omega)] at hi
    refine hrest _ ?_ line (List.mem_of_getElem? hi)
    intro r hr x hx
    subst hx
    rcases List.mem_append.1 hr with hr | hr
    · obtain ⟨m, _, hr⟩ := List.mem_flatMap.1 hr
      obtain ⟨c, hc, hr⟩ := List.mem_map.1 hr
      exact hline _ _ c x hc hr
    · simp only [List.mem_singleton] at hr
      injection hr with hr
      subst hr
      decide

/-- **C166**: with fewer than two modalities, five lines are printed before `IndexError`. -/
theorem C166_few (shown : Option (ℚ × ℚ) → Key) (e : Exp) (l : Log L) (h2 : e.modalities.length < 2) :
    (printTwo shown e l).1.length = 5 ∧ (printTwo shown e l).2 = .error .indexError := by
  have hget : ∀ i : ℤ, 0 ≤ i → (e.modalities.length : ℤ) ≤ i → pyGet e.modalities i = .error .indexError := by
    intro i h0 hi
    unfold pyGet
    rw [if_neg (by omega), List.getElem?_eq_none (by omega)]
  have hline : tableTwoLine shown e l 0 1 (-1, "internal".toList) = .error .indexError := by
    unfold tableTwoLine
    rw [hget 1 (by omega) (by omega)]
    rcases hm : e.modalities with _ | ⟨m, ms⟩
    · rfl
    · rfl
  rw [printTwo_eq, printAll_append]
  have : ([((0 : ℤ), (1 : ℤ)), (1, 0)].flatMap fun m =>
      (comparisons e.modalities).map fun c => tableTwoLine shown e l m.1 m.2 c) =
      .error .indexError :: (([((0 : ℤ), (1 : ℤ)), (1, 0)].flatMap fun m =>
      (comparisons e.modalities).map fun c => tableTwoLine shown e l m.1 m.2 c)).tail := by
    conv_lhs => unfold comparisons
    simp only [List.flatMap_cons, List.map_cons, hline, List.cons_append]
    unfold comparisons
    simp only [List.map_cons, List.cons_append, List.tail_cons]
  rw [this, List.cons_append, printAll]
  exact ⟨rfl, rfl⟩

/-- **C166**: under the hypotheses of `C89_run`, with two modalities at least and a new log, the experiment
of `samples/two_modalities.py` completes and prints the table of its scores. -/
theorem C166_two_run [DecidableEq L] (shown : Option (ℚ × ℚ) → Key) (X : Ext Λ) (R : Rand L) (hR : R.OK)
    (e : Exp) (rawLabels : Py (List (List L))) (rawData : Py (List Mx))
    (metrics : List (List ℚ → List ℚ → ℚ)) (hm : metrics.length = 4)
    (start stop : Key) (w w1 : World L) (hw : w.log.exps = []) (p : Prepared L)
    (splits : List (List ℕ × List ℕ)) (hp : prepare R e rawLabels rawData w = (w1, .ok p))
    (hg : p.generator = .ok splits) (hq : ∀ q, e.runMode = .ratio q → 0 < q)
    (hn : e.modalities.Nodup) (hnames : ∀ m ∈ e.modalities, Plain m) (hex : p.labelsEx ≠ [])
    (h2 : 2 ≤ e.modalities.length)
    (ht : ∀ s ∈ splits, ∀ n train test, Parts p.data s.1 train → Parts p.data s.2 test → ∃ learner,
      X.train n e.modalities (p.data.map Mx.cols) p.coefs e.k train e.iterTrain = .ok learner ∧
      Transforms X e learner test ∧ Transforms X e learner p.dataEx) :
    ∃ w' lines, run X R e rawLabels rawData (evaluateTwo X e metrics) start stop w = (w', .ok ()) ∧
      w'.log.exps.length = splits.length ∧
      runAndPrint (run X R e rawLabels rawData (evaluateTwo X e metrics) start stop) (printTwo shown e) w =
        (w', lines, .ok ()) ∧ Table shown e w'.log lines := by
  obtain ⟨w', ds, h1, h3, h4, h5⟩ := C89_run X R hR e rawLabels rawData metrics start stop w w1 p splits hp hg hq
    hn hnames hex ht
  rw [hw, List.nil_append] at h3
  obtain ⟨lines, g1, g2⟩ := C166_two shown e w'.log h2 fun a b c ha hb hc suf hsuf => by
    refine ⟨_, expKey_ok e a b c suf (by omega) (by omega) hc, fun d hd => ?_⟩
    rw [h3] at hd
    obtain ⟨i, hi⟩ := List.getElem?_of_mem hd
    have hil : i < splits.length := by
      rw [← h4]
      exact (List.getElem?_eq_some_iff.1 hi).1
    obtain ⟨_, _, _, _, _, _, _, _, hsc⟩ := h5 i _ d (List.getElem?_eq_getElem hil) hi
    have hs : ∃ k : ℕ, k < 4 ∧ SUFFIXES[k]? = some suf := by
      simp only [List.mem_cons, List.not_mem_nil, or_false] at hsuf
      rcases hsuf with rfl | rfl | rfl
      · exact ⟨0, by omega, rfl⟩
      · exact ⟨2, by omega, rfl⟩
      · exact ⟨3, by omega, rfl⟩
    obtain ⟨k, hk, hsk⟩ := hs
    obtain ⟨key, t, x, found, k1, _, _, _, _, k6⟩ := hsc a b k c metrics[k] suf (by omega) (by omega) hc
      (List.getElem?_eq_getElem _) hsk
    rw [expKey_ok e a b c suf (by omega) (by omega) hc] at k1
    injection k1 with k1
    rw [← k1] at k6
    exact ⟨_, k6⟩
  refine ⟨w', lines, h1, by rw [h3, h4], ?_, g2⟩
  unfold runAndPrint
  rw [h1]
  simp only []
  rw [g1]

/-! ### The table for three modalities -/

/-- **C166**: the table of `ThreeModalitiesExperiment` is never printed: after five lines, `TypeError`
(`ValueError` in Python 2 if a run has all scores), whatever the scores; there are no modalities
otherwise. -/
theorem C166_three (py3 : Bool) (e : Exp) (l : Log L) :
    (e.modalities = [] → (printThree py3 e l).1.length = 6 ∧ (printThree py3 e l).2 = .ok ()) ∧
    (e.modalities ≠ [] → (∀ d ∈ l.exps, ∀ c ∈ testedCombinations e.modalities.length, ∀ key v,
        scoreKey3 e c.1 c.2 [] = .ok key → dictGet? d key = some v → ∃ s, v = .plain (.score s)) →
      (printThree py3 e l).1.length = 5 ∧
      ((printThree py3 e l).2 = .error .typeError ∨ py3 = false ∧ (printThree py3 e l).2 = .error .valueError) ∧
      ((∀ d ∈ l.exps, ∀ c ∈ testedCombinations e.modalities.length, ∀ key,
          scoreKey3 e c.1 c.2 [] = .ok key → dictGet? d key ≠ none) →
        (printThree py3 e l).2 = .error (if py3 then .typeError else .valueError))) := by
  have hsplit : printThree py3 e l = printAll ([rule (15 * 5 + 5),
      center (15 * 2 + 2) "Modalities".toList ++ center (15 * 3 + 2) "Score: avg (std)".toList,
      rule (15 * 2 + 1) ++ " ".toList ++ rule (15 * 3 + 2),
      joinWith " ".toList (["Test".toList, "Reference".toList, "KL".toList, "Euclidean".toList,
        "Cosine".toList].map (center 15)),
      joinWith " ".toList (List.replicate 5 (rule 15))].map .ok ++
      (((testedCombinations e.modalities.length).map fun c => tableThreeLine py3 e l c) ++
      [.ok (rule (15 * 5 + 5))])) := by
    unfold printThree
    rw [List.append_assoc]
    rfl
  rw [hsplit, printAll_append]
  constructor
  · intro h
    rw [h]
    exact ⟨rfl, rfl⟩
  · intro hne hsc
    have hnil : testedCombinations e.modalities.length ≠ [] := by
      have h0 : 0 < e.modalities.length := List.length_pos_iff.2 hne
      intro h
      unfold testedCombinations twoToOne at h
      rw [List.append_eq_nil_iff, List.append_eq_nil_iff] at h
      have := h.1.2
      rw [List.map_eq_nil_iff, List.range_eq_nil] at this
      omega
    rcases hc : testedCombinations e.modalities.length with _ | ⟨c, cs⟩
    · exact absurd hc hnil
    · have hmem : c ∈ testedCombinations e.modalities.length := by rw [hc]; exact List.mem_cons_self
      set key := "score_".toList ++ keyThree e.modalities c "".toList with hkey
      have hst : (∃ s, getStats l key = .ok s) ∨
          (getStats l key = .error .typeError ∧ ∃ d ∈ l.exps, dictGet? d key = none) := by
        by_cases hmiss : ∃ d ∈ l.exps, dictGet? d key = none
        · exact Or.inr ⟨C166_missing l key
            (fun d hd v hv => hsc d hd c hmem key v (scoreKey3_ok e c _ hmem) hv) hmiss, hmiss⟩
        · left
          have : ∃ scores, List.Forall₂ (fun d s => dictGet? d key = some (.plain (.score s)))
              l.exps scores := by
            have hall : ∀ d ∈ l.exps, ∃ s, dictGet? d key = some (.plain (.score s)) := by
              intro d hd
              rcases hv : dictGet? d key with _ | v
              · exact absurd ⟨d, hd, hv⟩ hmiss
              · obtain ⟨s, rfl⟩ := hsc d hd c hmem key v (scoreKey3_ok e c _ hmem) hv
                exact ⟨s, rfl⟩
            revert hall
            generalize l.exps = ds
            intro hall
            induction ds with
            | nil => exact ⟨[], .nil⟩
            | cons d ds ih =>
              obtain ⟨s, hs⟩ := hall d List.mem_cons_self
              obtain ⟨ss, k⟩ := ih fun d' hd' => hall d' (List.mem_cons_of_mem _ hd')
              exact ⟨s :: ss, .cons hs k⟩
          obtain ⟨scores, hsc⟩ := this
          obtain ⟨s, g, _⟩ := C166_stats l key scores hsc
          exact ⟨s, g⟩
      have hline : ∀ x, getStats l key = x → tableThreeLine py3 e l c =
          (x.bind fun _ => if py3 then .error .typeError else .error .valueError) := by
        intro x hx
        unfold tableThreeLine
        rw [mapM_names _ _ (tested_lt hmem), mapM_names _ _ (tested_lt (tested_swap hmem))]
        unfold getResultThree
        simp only [TABLE_METRICS, List.mapM_cons, scoreKey3_ok e c _ hmem, bind, Except.bind, ← hkey, hx]
        rcases x with y | s
        · rfl
        · cases py3 <;> rfl
      have hprint : ∀ y, tableThreeLine py3 e l c = .error y →
          printAll ((List.map (fun c => tableThreeLine py3 e l c) (c :: cs)) ++
            [Except.ok (rule (15 * 5 + 5))]) = ([], .error y) := by
        intro y hy
        rw [List.map_cons, List.cons_append, hy]
        rfl
      rcases hst with ⟨s, hs⟩ | ⟨hs, d, hd, hdk⟩
      · have := hprint (if py3 then .typeError else .valueError) (by rw [hline _ hs]; cases py3 <;> rfl)
        rw [this]
        refine ⟨rfl, ?_, fun _ => rfl⟩
        cases py3
        · exact Or.inr ⟨rfl, rfl⟩
        · exact Or.inl rfl
      · rw [hprint .typeError (by rw [hline _ hs]; rfl)]
        exact ⟨rfl, Or.inl rfl, fun h => absurd hdk (h d hd c List.mem_cons_self key (scoreKey3_ok e c _ hmem))⟩

/-- **C166**: under the hypotheses of `C90_run`, the experiment of `samples/three_modalities.py` completes,
with its log saved, and then prints five lines and raises `TypeError` (`ValueError` in Python 2). -/
theorem C166_three_run [DecidableEq L] (py3 : Bool) (X : Ext Λ) (R : Rand L) (hR : R.OK) (e : Exp)
    (rawLabels : Py (List (List L))) (rawData : Py (List Mx)) (metrics : List (List ℚ → List ℚ → ℚ))
    (hm : metrics.length = 4) (start stop : Key) (w w1 : World L) (hw : w.log.exps = []) (p : Prepared L)
    (splits : List (List ℕ × List ℕ)) (hp : prepare R e rawLabels rawData w = (w1, .ok p))
    (hg : p.generator = .ok splits) (hq : ∀ q, e.runMode = .ratio q → 0 < q)
    (h3 : 3 ≤ e.modalities.length) (hn : e.modalities.Nodup) (hnames : ∀ m ∈ e.modalities, NoSep m)
    (hbad : ¬ BadThree e.modalities) (hex : p.labelsEx ≠ [])
    (ht : ∀ s ∈ splits, ∀ n train test, Parts p.data s.1 train → Parts p.data s.2 test → ∃ learner,
      X.train n e.modalities (p.data.map Mx.cols) p.coefs e.k train e.iterTrain = .ok learner ∧
      Transforms3 X e learner test s.2.length ∧
      Transforms3 X e learner p.dataEx p.labelsEx.length) :
    ∃ w' lines, run X R e rawLabels rawData (evaluateThree X e metrics) start stop w = (w', .ok ()) ∧
      w'.log.exps.length = splits.length ∧ lines.length = 5 ∧
      runAndPrint (run X R e rawLabels rawData (evaluateThree X e metrics) start stop) (printThree py3 e) w =
        (w', lines, .error (if py3 then .typeError else .valueError)) := by
  obtain ⟨w', ds, h1, h4, h5, h6⟩ := C90_run X R hR e rawLabels rawData metrics start stop w w1 p splits hp hg hq
    h3 hn hnames hbad hex ht
  rw [hw, List.nil_append] at h4
  have hsc : ∀ d ∈ w'.log.exps, ∀ c ∈ testedCombinations e.modalities.length, ∀ key,
      scoreKey3 e c.1 c.2 [] = .ok key → ∃ s, dictGet? d key = some (.plain (.score s)) := by
    intro d hd c hc key hkey
    rw [h4] at hd
    obtain ⟨i, hi⟩ := List.getElem?_of_mem hd
    have hil : i < splits.length := by
      rw [← h5]
      exact (List.getElem?_eq_some_iff.1 hi).1
    obtain ⟨_, _, _, _, _, _, _, _, hs⟩ := h6 i _ d (List.getElem?_eq_getElem hil) hi
    obtain ⟨key', t, x, found, k1, _, _, _, k5⟩ := hs c.1 c.2 0 metrics[0] [] hc (List.getElem?_eq_getElem _) rfl
    rw [hkey] at k1
    injection k1 with k1
    subst k1
    exact ⟨_, k5⟩
  have hne : e.modalities ≠ [] := by
    intro h
    rw [h] at h3
    simp at h3
  obtain ⟨g1, g2⟩ := (C166_three py3 e w'.log).2 hne fun d hd c hc key v hk hv => by
    obtain ⟨s, hs⟩ := hsc d hd c hc key hk
    rw [hs] at hv
    exact ⟨s, (Option.some.inj hv).symm⟩
  refine ⟨w', (printThree py3 e w'.log).1, h1, by rw [h4, h5], g1, ?_⟩
  unfold runAndPrint
  rw [h1]
  simp only []
  rw [Prod.ext_iff]
  refine ⟨rfl, ?_⟩
  rw [Prod.ext_iff]
  refine ⟨rfl, g2.2 fun d hd c hc key hk h0 => ?_⟩
  obtain ⟨s, hs⟩ := hsc d hd c hc key hk
  rw [h0] at hs
  cases hs

/-- **C166**: `print_result` shows the statistics of the scores of a key after the text given, or else after the key. -/
theorem C166_text (shown : Key → Option (ℚ × ℚ) → Key) (l : Log L) (k : Key) (text : Option Key) (scores : List (Option ℚ))
    (h : List.Forall₂ (fun d s => dictGet? d k = some (.plain (.score s))) l.exps scores) :
    ∃ s, Stats scores s ∧ printResult shown l k text = .ok (match text with
      | none => shown k s
      | some t => shown t s) := by
  obtain ⟨s, g1, g2⟩ := C166_stats l k scores h
  refine ⟨s, g2, ?_⟩
  unfold printResult
  rw [g1]
  cases text <;> rfl

/-- **C166**: `print_all_results` prints one line for each result key, in the order of the set, when each of
them has a score in each run. -/
theorem C166_all (shown : Key → Option (ℚ × ℚ) → Key) (enum : List Key → List Key) (l : Log L)
    (h : ∀ k ∈ enum l.resultKeys, ∀ d ∈ l.exps, ∃ s, dictGet? d k = some (.plain (.score s))) :
    ∃ lines, printAllResults shown enum l = (lines, .ok ()) ∧
      List.Forall₂ (fun k line => ∃ scores s, Stats scores s ∧ line = shown k s ∧
        List.Forall₂ (fun d s => dictGet? d k = some (.plain (.score s))) l.exps scores)
        (enum l.resultKeys) lines := by
  unfold printAllResults
  revert h
  generalize enum l.resultKeys = ks
  intro h
  induction ks with
  | nil => exact ⟨[], rfl, .nil⟩
  | cons k ks ih =>
    obtain ⟨lines, h1, h2⟩ := ih fun k' hk' => h k' (List.mem_cons_of_mem _ hk')
    have hk := h k List.mem_cons_self
    have : ∃ scores, List.Forall₂ (fun d s => dictGet? d k = some (.plain (.score s))) l.exps scores := by
      revert hk
      generalize l.exps = ds
      intro hk
      induction ds with
      | nil => exact ⟨[], .nil⟩
      | cons d ds ih =>
        obtain ⟨s, hs⟩ := hk d List.mem_cons_self
        obtain ⟨ss, k⟩ := ih fun d' hd' => hk d' (List.mem_cons_of_mem _ hd')
        exact ⟨s :: ss, .cons hs k⟩
    obtain ⟨scores, hsc⟩ := this
    obtain ⟨s, g1, g2⟩ := C166_stats l k scores hsc
    refine ⟨shown k s :: lines, ?_, .cons ⟨scores, s, g2, rfl, hsc⟩ h2⟩
    have hp : printResult shown l k none = .ok (shown k s) := by
      unfold printResult
      rw [g1]
      rfl
    rw [List.map_cons, hp, printAll, h1]

/-! ### Examples -/

/-- Scores of a run of an experiment with one modality compared with itself. -/
def exScores (q : ℚ) : Dict Key (Val (LogVal ℕ) Mx) := [("score_a2b".toList, .plain (.score (some q)))]

/-- A log with two runs. -/
def exTable : Log ℕ := { Logger.new none with exps := [exScores 1, exScores (1 / 2)] }

example : getStats exTable "score_a2b".toList = .ok (some (3 / 4, 1 / 16)) := by decide +kernel

example : printResult (fun t s => t ++ if s = some (3 / 4, 1 / 16) then "!".toList else []) exTable "score_a2b".toList
    (some "from a".toList) = .ok "from a!".toList := by decide +kernel

example : getStats exTable "score_b2a".toList = .error .typeError := by decide +kernel

example : center 13 "sound".toList = "    sound    ".toList := by decide +kernel

example : center 13 "motion".toList = "    motion   ".toList := by decide +kernel

example : (printTwo (fun _ => []) (Exp.new [("a".toList, .choreo2)] 2 10 10 none false .single false)
    exTable).2 = .error .indexError := by decide +kernel

example : (printTwo (L := ℕ) (fun _ => "0.750 (0.250)".toList) (Exp.new [("motion".toList, .choreo2),
    ("sound".toList, .acorns (.num 0))] 2 10 10 none false .single false) (Logger.new none)).1.getD 5 [] =
    "    motion        sound        internal   0.750 (0.250) 0.750 (0.250) 0.750 (0.250)".toList := by
  decide +kernel

end Verif.Experiment
