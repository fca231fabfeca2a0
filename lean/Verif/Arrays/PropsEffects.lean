import Verif.Arrays.Effects
import Verif.Arrays.Props

/-!
# Property C226: argument, types and failures of `normalize_features`
-/

namespace Verif.Arrays

open Verif

theorem sum_filter_ne_zero (l : List (ℕ × ℕ × ℚ)) (q : ℕ × ℕ × ℚ → Prop) [DecidablePred q] :
    (((l.filter fun t => t.2.2 ≠ 0).filter fun t => q t).map fun t => t.2.2).sum =
      ((l.filter fun t => q t).map fun t => t.2.2).sum := by
  induction l with
  | nil => rfl
  | cons a l ih =>
    by_cases h : a.2.2 = 0 <;> by_cases hq : q a <;> simp_all

theorem eliminate_dense (s : Sparse) : s.eliminateZeros.toDense = s.toDense := by
  unfold Sparse.toDense Sparse.eliminateZeros
  simp only []
  congr 1
  funext i j
  exact sum_filter_ne_zero s.entries (fun t => t.1 = i ∧ t.2.1 = j)

theorem eliminate_colSum (s : Sparse) : s.eliminateZeros.colSum = s.colSum := by
  funext j
  exact sum_filter_ne_zero s.entries (fun t => t.2.1 = j)

theorem eliminate_idem (s : Sparse) : s.eliminateZeros.eliminateZeros = s.eliminateZeros := by
  unfold Sparse.eliminateZeros
  simp only [List.filter_filter, Bool.and_self]

/-- **C226.** The argument after a call: dense arrays and sparse matrices in formats without `eliminate_zeros` are as
before; other sparse matrices keep their format, type, shape and all values, and lose exactly their stored zeros, even
if the call fails. -/
theorem C226_argument (py3 : Bool) :
    (∀ ints m, (normalizeFeatures py3 (.dense ints m)).1 = .dense ints m) ∧
    (∀ ints s, (normalizeFeatures py3 (.sparse .other ints s)).1 = .sparse .other ints s) ∧
    ∀ fmt ints s, fmt ≠ .other → ∃ s' : Sparse, (normalizeFeatures py3 (.sparse fmt ints s)).1 = .sparse fmt ints s' ∧
      s'.n1 = s.n1 ∧ s'.n2 = s.n2 ∧ (∀ i j, s'.toDense.e i j = s.toDense.e i j) ∧
      s'.entries.Sublist s.entries ∧ (∀ t ∈ s.entries, t ∈ s'.entries ↔ t.2.2 ≠ 0) := by
  refine ⟨?_, fun _ _ => rfl, ?_⟩
  · intro ints m
    cases ints <;> rfl
  · intro fmt ints s hf
    refine ⟨s.eliminateZeros, ?_, rfl, rfl, ?_, ?_, ?_⟩
    · unfold normalizeFeatures
      simp only [if_neg hf]
      split_ifs <;> rfl
    · intro i j; rw [eliminate_dense]
    · exact List.filter_sublist
    · intro t ht
      unfold Sparse.eliminateZeros
      simp [List.mem_filter, ht]

/-- **C226.** A second call with the same object does the same. -/
theorem C226_again (py3 : Bool) (X : Features) :
    normalizeFeatures py3 (normalizeFeatures py3 X).1 = normalizeFeatures py3 X := by
  cases X with
  | dense ints m => cases ints <;> rfl
  | sparse fmt ints s =>
    by_cases hf : fmt = .other
    · subst hf; rfl
    · have e : (normalizeFeatures py3 (.sparse fmt ints s)).1 = .sparse fmt ints s.eliminateZeros := by
        unfold normalizeFeatures
        simp only [if_neg hf]
        split_ifs <;> rfl
      rw [e]
      unfold normalizeFeatures
      simp only [if_neg hf, eliminate_colSum, eliminate_idem]

/-- **C226.** Failures: integers in dense arrays, and in python 3 in sparse matrices, raise `TypeError`; `lil`, `dok` and
`dia` matrices raise `AttributeError`; nothing else fails. -/
theorem C226_failures (py3 : Bool) :
    (∀ ints m, (∃ e, (normalizeFeatures py3 (.dense ints m)).2 = .error e) ↔ ints = true) ∧
    (∀ m, (normalizeFeatures py3 (.dense true m)).2 = .error .typeError) ∧
    (∀ ints s, (normalizeFeatures py3 (.sparse .other ints s)).2 = .error .attributeError) ∧
    (∀ fmt ints s, fmt ≠ .other → ((∃ e, (normalizeFeatures py3 (.sparse fmt ints s)).2 = .error e) ↔
      ints = true ∧ py3 = true) ∧
      (ints = true → py3 = true → (normalizeFeatures py3 (.sparse fmt ints s)).2 = .error .typeError)) := by
  refine ⟨?_, fun _ => rfl, fun _ _ => rfl, ?_⟩
  · intro ints m
    cases ints <;> simp [normalizeFeatures]
  · intro fmt ints s hf
    unfold normalizeFeatures
    simp only [if_neg hf]
    by_cases h : ints = true ∧ py3 = true
    · rw [if_pos h]
      exact ⟨⟨fun _ => h, fun _ => ⟨_, rfl⟩⟩, fun _ _ => rfl⟩
    · rw [if_neg h]
      refine ⟨⟨?_, fun a => absurd a h⟩, fun a b => absurd ⟨a, b⟩ h⟩
      rintro ⟨e, he⟩
      exact absurd he (by simp)

theorem filter_dedup_eq (l : List (ℕ × ℕ)) (f : ℕ × ℕ → ℚ) (i j : ℕ) :
    (((l.dedup.map fun p => (p.1, p.2, f p)).filter fun t : ℕ × ℕ × ℚ => t.1 = i ∧ t.2.1 = j).map fun t => t.2.2) =
      if (i, j) ∈ l then [f (i, j)] else [] := by
  have key : ∀ l : List (ℕ × ℕ), l.Nodup →
      (((l.map fun p => (p.1, p.2, f p)).filter fun t : ℕ × ℕ × ℚ => t.1 = i ∧ t.2.1 = j).map fun t => t.2.2) =
      if (i, j) ∈ l then [f (i, j)] else [] := by
    intro l hnd
    induction l with
    | nil => rfl
    | cons a l ih =>
      rw [List.nodup_cons] at hnd
      have := ih hnd.2
      rw [List.map_cons, List.filter_cons]
      by_cases h : a.1 = i ∧ a.2 = j
      · have ha : a = (i, j) := Prod.ext h.1 h.2
        rw [if_pos (by simpa using h), List.map_cons, this, ha]
        rw [if_neg (by rw [← ha]; exact hnd.1), if_pos (by simp)]
      · rw [if_neg (by simpa using h), this]
        have hne : (i, j) ≠ a := fun e => h ⟨by rw [← e], by rw [← e]⟩
        by_cases hm : (i, j) ∈ l
        · rw [if_pos hm, if_pos (List.mem_cons_of_mem _ hm)]
        · rw [if_neg hm, if_neg (by simp only [List.mem_cons, not_or]; exact ⟨hne, hm⟩)]
  rw [key _ (List.nodup_dedup l)]
  simp only [List.mem_dedup]

/-- The values stored at a place. -/
def Sparse.at (s : Sparse) (i j : ℕ) : List ℚ :=
  (s.entries.filter fun t => t.1 = i ∧ t.2.1 = j).map fun t => t.2.2

theorem tocsr_at (s : Sparse) (fmt : Format) (i j : ℕ) :
    ((s.tocsr fmt).at i j).sum = (s.at i j).sum ∧
    (fmt = .coo → ((s.tocsr fmt).at i j).length ≤ 1) ∧ (fmt ≠ .coo → (s.tocsr fmt).at i j = s.at i j) := by
  cases fmt with
  | coo =>
    have e := filter_dedup_eq (s.entries.map fun t => (t.1, t.2.1))
      (fun p => ((s.entries.filter fun t => t.1 = p.1 ∧ t.2.1 = p.2).map fun t => t.2.2).sum) i j
    have e' : (s.tocsr .coo).at i j = if (i, j) ∈ s.entries.map (fun t => (t.1, t.2.1)) then [(s.at i j).sum] else [] := e
    rw [e']
    refine ⟨?_, fun _ => by split_ifs <;> simp, fun h => absurd rfl h⟩
    split_ifs with h
    · simp
    · have : s.at i j = [] := by
        unfold Sparse.at
        rw [List.map_eq_nil_iff, List.filter_eq_nil_iff]
        intro t ht
        simp only [decide_eq_true_eq]
        rintro ⟨h1, h2⟩
        exact h (List.mem_map.mpr ⟨t, ht, by rw [h1, h2]⟩)
      rw [this]
  | csr => exact ⟨rfl, fun h => absurd h (by simp), fun _ => rfl⟩
  | csc => exact ⟨rfl, fun h => absurd h (by simp), fun _ => rfl⟩
  | other => exact ⟨rfl, fun h => absurd h (by simp), fun _ => rfl⟩

theorem kept_nodup (n : ℕ) (f : ℕ → ℚ) : (kept n f).Nodup := by
  unfold kept
  exact List.Nodup.filter _ List.nodup_range

/-- The values at a place of the result. -/
theorem columns_at (x : Sparse) (f : ℕ → ℚ → ℚ) (cols : List ℕ) (hnd : cols.Nodup) {i p c : ℕ} (hp : cols[p]? = some c) :
    (Sparse.columns ⟨x.n1, x.n2, x.entries.map fun t => (t.1, t.2.1, f t.2.1 t.2.2)⟩ cols).toDense.e i p =
      ((x.at i c).map (f c)).sum := by
  have key := flatMap_zipIdx_filter cols hnd (x.entries.map fun t => (t.1, t.2.1, f t.2.1 t.2.2)) i p c 0 hp
  rw [Nat.zero_add] at key
  unfold Sparse.toDense Sparse.columns Sparse.at
  simp only []
  rw [key]
  congr 1
  generalize x.entries = l
  induction l with
  | nil => rfl
  | cons a l ih =>
    rw [List.map_cons, List.filter_cons, List.filter_cons]
    by_cases h : a.1 = i ∧ a.2.1 = c
    · simp only [h, and_self, decide_true, if_true, List.map_cons, ih]
    · rw [if_neg (by simpa using h), if_neg (by simpa using h), ih]

/-- **C226.** For floats the result of a `csr`, `csc` or `coo` matrix is a `csc` matrix of floats with the values of the
result for the dense array of the same values. -/
theorem C226_formats (py3 : Bool) (fmt : Format) (hf : fmt ≠ .other) (s : Sparse) (hs : ∀ t ∈ s.entries, t.1 < s.n1) :
    ∃ y : Sparse, (normalizeFeatures py3 (.sparse fmt false s)).2 = .ok (.sparse .csc false y) ∧
      ∃ m : Mat, (normalizeFeatures py3 (.dense false s.toDense)).2 = .ok (.dense false m) ∧
        y.n1 = m.n1 ∧ y.n2 = m.n2 ∧ ∀ i p, p < m.n2 → y.toDense.e i p = m.e i p := by
  have hsum : s.toDense.colSum = s.colSum := funext (colSum_toDense s hs)
  have hx : (s.eliminateZeros.tocsr fmt).n1 = s.n1 ∧ (s.eliminateZeros.tocsr fmt).n2 = s.n2 := by
    cases fmt <;> exact ⟨rfl, rfl⟩
  unfold normalizeFeatures
  simp only [if_neg hf]
  rw [if_neg (by simp)]
  refine ⟨_, rfl, _, rfl, hx.1, ?_, ?_⟩
  · unfold normalizeDense Sparse.columns
    simp only []
    rw [hsum, hx.2]
    rfl
  · intro i p hp
    have hn2 : (normalizeDense s.toDense).n2 = (kept s.n2 s.colSum).length := by
      unfold normalizeDense; simp only []; rw [hsum]; rfl
    rw [hn2] at hp
    have hc : (kept s.n2 s.colSum)[p]? = some (kept s.n2 s.colSum)[p] := List.getElem?_eq_getElem hp
    have := columns_at (s.eliminateZeros.tocsr fmt) (fun j v => v / s.colSum j) (kept s.n2 s.colSum) (kept_nodup _ _)
      (i := i) hc
    rw [hx.2]
    simp only [Bool.false_eq_true, if_false]
    rw [hx.2] at this
    rw [this]
    have hd : ∀ (l : List ℚ) (c : ℚ), (l.map fun v => v / c).sum = l.sum / c := by
      intro l c
      induction l with
      | nil => simp
      | cons a l ih => simp only [List.map_cons, List.sum_cons, ih]; ring
    rw [hd, (tocsr_at _ fmt i _).1]
    have hv : (s.eliminateZeros.at i (kept s.n2 s.colSum)[p]).sum = s.toDense.e i (kept s.n2 s.colSum)[p] := by
      rw [← eliminate_dense]; rfl
    have hne : s.colSum (kept s.n2 s.colSum)[p] ≠ 0 := by
      have hk : ∀ c, c ∈ kept s.n2 s.colSum → s.colSum c ≠ 0 := fun c h => by
        unfold kept at h
        simpa using (List.mem_filter.mp h).2
      exact hk _ (List.getElem_mem hp)
    rw [hv]
    unfold normalizeDense
    simp only []
    rw [hsum]
    have hg : (kept s.toDense.n2 s.colSum).getD p 0 = (kept s.n2 s.colSum)[p] := by
      rw [List.getD_eq_getElem?_getD]
      have : s.toDense.n2 = s.n2 := rfl
      rw [this, hc]; rfl
    rw [hg, if_neg hne]
    ring

/-- **C226.** In python 2 the result for a sparse matrix of counts, with one entry at each place, is a matrix of integers
whose columns are not normalised: a value is 1 where the count is the whole sum of its column and 0 elsewhere. -/
theorem C226_counts (fmt : Format) (hf : fmt ≠ .other) (s : Sparse)
    (hc : ∀ t ∈ s.entries, 0 ≤ t.2.2) (hu : fmt = .coo ∨ ∀ i j, (s.at i j).length ≤ 1) :
    ∃ y : Sparse, (normalizeFeatures false (.sparse fmt true s)).2 = .ok (.sparse .csc true y) ∧
      ∃ cols : List ℕ, cols = (List.range s.n2).filter (fun j => s.colSum j ≠ 0) ∧ y.n1 = s.n1 ∧ y.n2 = cols.length ∧
        ∀ i p c, cols[p]? = some c → y.toDense.e i p = if s.toDense.e i c = s.colSum c then 1 else 0 := by
  have hx : (s.eliminateZeros.tocsr fmt).n1 = s.n1 ∧ (s.eliminateZeros.tocsr fmt).n2 = s.n2 := by
    cases fmt <;> exact ⟨rfl, rfl⟩
  unfold normalizeFeatures
  simp only [if_neg hf]
  rw [if_neg (by simp)]
  refine ⟨_, rfl, kept s.n2 s.colSum, rfl, hx.1, ?_, ?_⟩
  · unfold Sparse.columns
    simp only []
    rw [hx.2]
  intro i p c hp
  have := columns_at (s.eliminateZeros.tocsr fmt) (fun j v => (⌊v / s.colSum j⌋ : ℚ)) (kept s.n2 s.colSum)
    (kept_nodup _ _) (i := i) hp
  simp only [if_true]
  rw [hx.2] at this ⊢
  rw [this]
  have hne : s.colSum c ≠ 0 := by
    have := List.mem_of_getElem? hp
    unfold kept at this
    simpa using (List.mem_filter.mp this).2
  have hsum0 : ∀ (l : List (ℕ × ℕ × ℚ)) (q : ℕ × ℕ × ℚ → Prop) [DecidablePred q], (∀ t ∈ l, 0 ≤ t.2.2) →
      0 ≤ ((l.filter fun t => q t).map fun t => t.2.2).sum := by
    intro l q _ h
    apply List.sum_nonneg
    intro v hv
    obtain ⟨t, ht, rfl⟩ := List.mem_map.mp hv
    exact h t (List.mem_filter.mp ht).1
  have hpos : 0 < s.colSum c := lt_of_le_of_ne (hsum0 s.entries (fun t => t.2.1 = c) hc) (Ne.symm hne)
  have hv0 : 0 ≤ s.toDense.e i c := hsum0 s.entries (fun t => t.1 = i ∧ t.2.1 = c) hc
  have hvle : s.toDense.e i c ≤ s.colSum c := by
    show ((s.entries.filter fun t => t.1 = i ∧ t.2.1 = c).map fun t => t.2.2).sum ≤
      ((s.entries.filter fun t => t.2.1 = c).map fun t => t.2.2).sum
    generalize hl : s.entries = l at hc
    clear hl
    induction l with
    | nil => simp
    | cons a l ih =>
      have ih := ih (fun t ht => hc t (List.mem_cons_of_mem _ ht))
      have ha := hc a (by simp)
      by_cases h1 : a.1 = i <;> by_cases h2 : a.2.1 = c <;> (simp_all; try linarith)
  -- at most one value at the place
  have hone : ((s.eliminateZeros.tocsr fmt).at i c).length ≤ 1 := by
    by_cases hco : fmt = .coo
    · exact (tocsr_at _ fmt i c).2.1 hco
    · rw [(tocsr_at _ fmt i c).2.2 hco]
      have h1 := hu.resolve_left hco i c
      refine le_trans ?_ h1
      unfold Sparse.at Sparse.eliminateZeros
      simp only [List.length_map]
      exact (List.Sublist.filter _ List.filter_sublist).length_le
  have hval : ((s.eliminateZeros.tocsr fmt).at i c).sum = s.toDense.e i c := by
    rw [(tocsr_at _ fmt i c).1, ← eliminate_dense]; rfl
  match hl : (s.eliminateZeros.tocsr fmt).at i c, hone, hval with
  | [], _, hval =>
    simp only [List.sum_nil] at hval
    rw [← hval, if_neg (by exact hne.symm)]
    rfl
  | [v], _, hval =>
    simp only [List.sum_cons, List.sum_nil, add_zero] at hval
    rw [← hval] at hv0 hvle ⊢
    simp only [List.map_cons, List.map_nil, List.sum_cons, List.sum_nil, add_zero]
    by_cases he : v = s.colSum c
    · rw [if_pos he, he, div_self hne]; norm_num
    · rw [if_neg he]
      have : ⌊v / s.colSum c⌋ = 0 := by
        rw [Int.floor_eq_iff]
        refine ⟨by push_cast; positivity, ?_⟩
        rw [Int.cast_zero, zero_add, div_lt_one hpos]
        exact lt_of_le_of_ne hvle he
      rw [this]; rfl
  | _ :: _ :: _, h, _ => simp at h

/-- A matrix with a stored zero, a repeated place and a column of null sum. -/
def exampleSparse : Sparse := ⟨2, 3, [(0, 0, 1), (1, 0, 3), (0, 1, 0), (0, 2, 1), (0, 2, 1)]⟩

example : ∃ s' y, normalizeFeatures false (.sparse .coo true exampleSparse) =
      (.sparse .coo true s', .ok (.sparse .csc true y)) ∧
    s'.entries = [(0, 0, 1), (1, 0, 3), (0, 2, 1), (0, 2, 1)] ∧ y.n2 = 2 ∧
    (List.range 2).map (fun i => (List.range 2).map fun j => y.toDense.e i j) = [[0, 1], [0, 0]] :=
  ⟨_, _, rfl, by decide +kernel, by decide +kernel, by decide +kernel⟩

example : ∃ s' y, normalizeFeatures true (.sparse .csr false exampleSparse) =
      (.sparse .csr false s', .ok (.sparse .csc false y)) ∧
    (List.range 2).map (fun i => (List.range 2).map fun j => y.toDense.e i j) = [[1 / 4, 1], [3 / 4, 0]] :=
  ⟨_, _, rfl, by decide +kernel⟩

example : normalizeFeatures true (.sparse .csr true exampleSparse) =
    (.sparse .csr true ⟨2, 3, [(0, 0, 1), (1, 0, 3), (0, 2, 1), (0, 2, 1)]⟩, .error .typeError) := by
  rfl

end Verif.Arrays
