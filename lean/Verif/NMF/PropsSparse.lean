import Verif.NMF.Sparse
import Mathlib.Algebra.BigOperators.Ring.Finset
import Mathlib.Tactic.Ring
import Mathlib.Tactic.NormNum
import Mathlib.Tactic.Linarith

/-!
# Property C191: factorization of stored sparse matrices
-/

namespace Verif.NMF

open Finset

/-! ### Specification -/

/-- The value of a row at a column: stored entries are added. -/
def rowAt (row : List (ℕ × ℝ)) (j : ℕ) : ℝ := ((row.filter fun p => p.1 = j).map Prod.snd).sum

/-- The matrix which is stored. -/
def Csr.toMat (x : Csr) : Mat := ⟨x.r, x.c, fun i j => rowAt ((x.rows[i]?).getD []) j⟩

/-- The format of sparse matrices: as many rows as told, and columns in the bounds. -/
def Csr.Valid (x : Csr) : Prop := x.rows.length = x.r ∧ ∀ row ∈ x.rows, ∀ p ∈ row, p.1 < x.c

/-- Sorted columns without duplicates, `has_canonical_format`; zeros may be stored. -/
def Csr.Canonical (x : Csr) : Prop := ∀ row ∈ x.rows, (row.map Prod.fst).Pairwise (· < ·)

/-! ### Rows -/

theorem rowAt_nil (j : ℕ) : rowAt [] j = 0 := rfl

theorem rowAt_cons (p : ℕ × ℝ) (row : List (ℕ × ℝ)) (j : ℕ) :
    rowAt (p :: row) j = (if p.1 = j then p.2 else 0) + rowAt row j := by
  unfold rowAt
  by_cases h : p.1 = j
  · rw [List.filter_cons_of_pos (by simpa using h), if_pos h]; rfl
  · rw [List.filter_cons_of_neg (by simpa using h), if_neg h, zero_add]

theorem rowAt_append (a b : List (ℕ × ℝ)) (j : ℕ) : rowAt (a ++ b) j = rowAt a j + rowAt b j := by
  unfold rowAt
  simp

theorem rowAt_fresh {row : List (ℕ × ℝ)} {j : ℕ} (h : ∀ p ∈ row, p.1 ≠ j) : rowAt row j = 0 := by
  unfold rowAt
  rw [List.filter_eq_nil_iff.2 (fun p hp => by simpa using h p hp)]
  rfl

theorem rowAt_sorted {row : List (ℕ × ℝ)} (h : (row.map Prod.fst).Pairwise (· < ·)) {p : ℕ × ℝ} (hp : p ∈ row) :
    rowAt row p.1 = p.2 := by
  induction row with
  | nil => cases hp
  | cons q row ih =>
    rw [List.map_cons, List.pairwise_cons] at h
    rw [rowAt_cons]
    rcases List.mem_cons.1 hp with rfl | hp
    · rw [if_pos rfl, rowAt_fresh, add_zero]
      intro q hq
      exact (h.1 _ (List.mem_map_of_mem hq)).ne'
    · rw [if_neg (h.1 _ (List.mem_map_of_mem hp)).ne, zero_add]
      exact ih h.2 hp

theorem rowAt_filter (row : List (ℕ × ℝ)) (j : ℕ) [DecidablePred fun p : ℕ × ℝ => p.2 ≠ 0] :
    rowAt (row.filter fun p => p.2 ≠ 0) j = rowAt row j := by
  induction row with
  | nil => rfl
  | cons p row ih =>
    rw [rowAt_cons]
    by_cases h : p.2 ≠ 0
    · rw [List.filter_cons_of_pos (by simpa using h), rowAt_cons, ih]
    · rw [List.filter_cons_of_neg (by simpa using h), ih]
      push Not at h
      rw [h]
      simp

/-- A sum over a row is a sum over columns. -/
theorem sum_row (row : List (ℕ × ℝ)) (c : ℕ) (hc : ∀ p ∈ row, p.1 < c) (b : ℕ → ℝ) :
    (row.map fun p => p.2 * b p.1).sum = ∑ j ∈ range c, rowAt row j * b j := by
  induction row with
  | nil => simp [rowAt_nil]
  | cons p row ih =>
    rw [List.map_cons, List.sum_cons, ih fun q hq => hc q (List.mem_cons_of_mem _ hq)]
    simp only [rowAt_cons, add_mul, sum_add_distrib, ite_mul, zero_mul]
    rw [sum_ite_eq, if_pos (mem_range.2 (hc p List.mem_cons_self))]

open Classical in
/-- A sum over a sorted row without zeros is a sum over columns whose value is not zero. -/
theorem sum_row_nonzero (row : List (ℕ × ℝ)) (c : ℕ) (hc : ∀ p ∈ row, p.1 < c)
    (hs : (row.map Prod.fst).Pairwise (· < ·)) (h0 : ∀ p ∈ row, p.2 ≠ 0) (g : ℕ → ℝ → ℝ) :
    (row.map fun p => g p.1 p.2).sum = ∑ j ∈ range c, if rowAt row j ≠ 0 then g j (rowAt row j) else 0 := by
  induction row with
  | nil => simp [rowAt_nil]
  | cons p row ih =>
    have hs' := hs
    rw [List.map_cons, List.pairwise_cons] at hs
    have hfresh : rowAt row p.1 = 0 := rowAt_fresh fun q hq => (hs.1 _ (List.mem_map_of_mem hq)).ne'
    rw [List.map_cons, List.sum_cons, ih (fun q hq => hc q (List.mem_cons_of_mem _ hq)) hs.2
      fun q hq => h0 q (List.mem_cons_of_mem _ hq)]
    have : ∀ j ∈ range c, (if rowAt (p :: row) j ≠ 0 then g j (rowAt (p :: row) j) else 0) =
        (if p.1 = j then g p.1 p.2 else 0) + if rowAt row j ≠ 0 then g j (rowAt row j) else 0 := by
      intro j _
      rw [rowAt_cons]
      by_cases hj : p.1 = j
      · subst hj
        rw [if_pos rfl, if_pos rfl, hfresh, add_zero, if_pos (h0 p List.mem_cons_self)]
        simp
      · rw [if_neg hj, if_neg hj, zero_add, zero_add]
    rw [sum_congr rfl this, sum_add_distrib, sum_ite_eq, if_pos (mem_range.2 (hc p List.mem_cons_self))]

/-! ### Conversions from triples -/

theorem rowAt_addEntry (j : ℕ) (v : ℝ) (row : List (ℕ × ℝ)) (k : ℕ) :
    rowAt (addEntry j v row) k = (if j = k then v else 0) + rowAt row k := by
  induction row with
  | nil => unfold addEntry; rw [rowAt_cons]
  | cons p row ih =>
    unfold addEntry
    by_cases h1 : j < p.1
    · rw [if_pos h1, rowAt_cons]
    · rw [if_neg h1]
      by_cases h2 : j = p.1
      · rw [if_pos h2, rowAt_cons, rowAt_cons, h2]
        by_cases h3 : p.1 = k
        · simp only [if_pos h3]; ring
        · simp only [if_neg h3]; ring
      · rw [if_neg h2, rowAt_cons, ih, rowAt_cons]
        ring

theorem addEntry_keys (j : ℕ) (v : ℝ) (row : List (ℕ × ℝ)) {k : ℕ} :
    k ∈ (addEntry j v row).map Prod.fst ↔ k = j ∨ k ∈ row.map Prod.fst := by
  induction row with
  | nil => simp [addEntry]
  | cons p row ih =>
    unfold addEntry
    by_cases h1 : j < p.1
    · rw [if_pos h1, List.map_cons, List.mem_cons]
    · rw [if_neg h1]
      by_cases h2 : j = p.1
      · rw [if_pos h2]
        simp only [List.map_cons, List.mem_cons, h2]
        tauto
      · rw [if_neg h2]
        simp only [List.map_cons, List.mem_cons, ih]
        tauto

theorem addEntry_sorted (j : ℕ) (v : ℝ) {row : List (ℕ × ℝ)} (h : (row.map Prod.fst).Pairwise (· < ·)) :
    ((addEntry j v row).map Prod.fst).Pairwise (· < ·) := by
  induction row with
  | nil => simp [addEntry]
  | cons p row ih =>
    have h' := h
    rw [List.map_cons, List.pairwise_cons] at h
    unfold addEntry
    by_cases h1 : j < p.1
    · rw [if_pos h1, List.map_cons, List.pairwise_cons]
      refine ⟨fun k hk => ?_, h'⟩
      rcases List.mem_cons.1 hk with rfl | hk
      · exact h1
      · exact h1.trans (h.1 _ hk)
    · rw [if_neg h1]
      by_cases h2 : j = p.1
      · rw [if_pos h2]
        exact h'
      · rw [if_neg h2, List.map_cons, List.pairwise_cons]
        refine ⟨fun k hk => ?_, ih h.2⟩
        rcases (addEntry_keys j v row).1 hk with rfl | hk
        · show p.1 < k
          omega
        · exact h.1 _ hk

theorem foldl_addEntry_at (es : List (ℕ × ℕ × ℝ)) (row : List (ℕ × ℝ)) (k : ℕ) :
    rowAt (es.foldl (fun row e => addEntry e.2.1 e.2.2 row) row) k =
      rowAt row k + rowAt (es.map fun e => (e.2.1, e.2.2)) k := by
  induction es generalizing row with
  | nil => rw [List.foldl_nil, List.map_nil, rowAt_nil, add_zero]
  | cons e es ih =>
    rw [List.foldl_cons, ih, rowAt_addEntry, List.map_cons, rowAt_cons]
    ring

theorem foldl_addEntry_sorted (es : List (ℕ × ℕ × ℝ)) {row : List (ℕ × ℝ)} (h : (row.map Prod.fst).Pairwise (· < ·)) :
    ((es.foldl (fun row e => addEntry e.2.1 e.2.2 row) row).map Prod.fst).Pairwise (· < ·) := by
  induction es generalizing row with
  | nil => exact h
  | cons e es ih => exact ih (addEntry_sorted _ _ h)

theorem foldl_addEntry_keys (es : List (ℕ × ℕ × ℝ)) (row : List (ℕ × ℝ)) {k : ℕ}
    (h : k ∈ (es.foldl (fun row e => addEntry e.2.1 e.2.2 row) row).map Prod.fst) :
    k ∈ row.map Prod.fst ∨ ∃ e ∈ es, e.2.1 = k := by
  induction es generalizing row with
  | nil => exact Or.inl h
  | cons e es ih =>
    rcases ih _ h with h | ⟨e', he', rfl⟩
    · rcases (addEntry_keys _ _ _).1 h with rfl | h
      · exact Or.inr ⟨e, List.mem_cons_self, rfl⟩
      · exact Or.inl h
    · exact Or.inr ⟨e', List.mem_cons_of_mem _ he', rfl⟩

theorem addEntry_last (j : ℕ) (v : ℝ) (row : List (ℕ × ℝ)) (h : ∀ p ∈ row, p.1 < j) :
    addEntry j v row = row ++ [(j, v)] := by
  induction row with
  | nil => rfl
  | cons p row ih =>
    have h1 := h p List.mem_cons_self
    unfold addEntry
    rw [if_neg (by omega), if_neg (by omega), ih fun q hq => h q (List.mem_cons_of_mem _ hq)]
    rfl

/-- Sorted entries of a row are kept. -/
theorem foldl_sorted (n : ℕ) (l acc : List (ℕ × ℝ)) (h : ((acc ++ l).map Prod.fst).Pairwise (· < ·)) :
    (l.map fun p => (n, p.1, p.2)).foldl (fun row (e : ℕ × ℕ × ℝ) => addEntry e.2.1 e.2.2 row) acc = acc ++ l := by
  induction l generalizing acc with
  | nil => simp
  | cons p l ih =>
    rw [List.map_cons, List.foldl_cons]
    have : addEntry p.1 p.2 acc = acc ++ [p] := by
      apply addEntry_last
      intro q hq
      rw [List.map_append, List.pairwise_append] at h
      exact h.2.2 _ (List.mem_map_of_mem hq) _ (by simp)
    simp only [this]
    rw [ih _ (by rwa [List.append_assoc, List.singleton_append]), List.append_assoc, List.singleton_append]

theorem filter_entries (n i : ℕ) (rows : List (List (ℕ × ℝ))) :
    (entriesFrom n rows).filter (fun e => e.1 = n + i) =
      ((rows[i]?).getD []).map fun p => (n + i, p.1, p.2) := by
  have hbig : ∀ (rows : List (List (ℕ × ℝ))) (m k : ℕ), k < m → (entriesFrom m rows).filter (fun e => e.1 = k) = [] := by
    intro rows
    induction rows with
    | nil => intros; rfl
    | cons row rows ih =>
      intro m k hk
      unfold entriesFrom
      rw [List.filter_append, ih _ _ (by omega), List.append_nil, List.filter_eq_nil_iff]
      intro e he
      obtain ⟨p, -, rfl⟩ := List.mem_map.1 he
      simp
      omega
  induction rows generalizing n i with
  | nil => rfl
  | cons row rows ih =>
    unfold entriesFrom
    rw [List.filter_append]
    cases i with
    | zero =>
      rw [hbig _ _ _ (by omega), List.append_nil, List.filter_eq_self.2]
      · rfl
      · intro e he
        obtain ⟨p, -, rfl⟩ := List.mem_map.1 he
        simp
    | succ i =>
      rw [List.filter_eq_nil_iff.2, List.nil_append]
      · have := ih (n + 1) i
        rw [show n + 1 + i = n + (i + 1) by omega] at this
        rw [this]
        rfl
      · intro e he
        obtain ⟨p, -, rfl⟩ := List.mem_map.1 he
        simp

/-- **C191.** A matrix converted from triples, in any order and with duplicates, is stored in the canonical format, and each
of its values is the sum of the values given for its place. -/
theorem C191_from_triples (r c : ℕ) (es : List (ℕ × ℕ × ℝ)) (h : ∀ e ∈ es, e.1 < r ∧ e.2.1 < c) :
    (cooToCsr r c es).Valid ∧ (cooToCsr r c es).Canonical ∧ (cooToCsr r c es).r = r ∧ (cooToCsr r c es).c = c ∧
    ∀ i j, (cooToCsr r c es).toMat.e i j = ((es.filter fun e => e.1 = i ∧ e.2.1 = j).map fun e => e.2.2).sum := by
  refine ⟨⟨by simp [cooToCsr], ?_⟩, ?_, rfl, rfl, ?_⟩
  · intro row hrow p hp
    obtain ⟨i, -, rfl⟩ := List.mem_map.1 hrow
    rcases foldl_addEntry_keys _ _ (List.mem_map_of_mem (f := Prod.fst) hp) with h' | ⟨e, he, hk⟩
    · cases h'
    · rw [← hk]
      exact (h e (List.mem_of_mem_filter he)).2
  · intro row hrow
    obtain ⟨i, -, rfl⟩ := List.mem_map.1 hrow
    exact foldl_addEntry_sorted _ List.Pairwise.nil
  · intro i j
    have key : rowAt ((es.filter fun e => e.1 = i).map fun e => (e.2.1, e.2.2)) j =
        ((es.filter fun e => e.1 = i ∧ e.2.1 = j).map fun e => e.2.2).sum := by
      unfold rowAt
      rw [List.filter_map, List.filter_filter, List.map_map]
      congr 2
      apply List.filter_congr
      intro e _
      simp [Bool.and_comm]
    show rowAt ((((List.range r).map _)[i]?).getD []) j = _
    rw [List.getElem?_map]
    by_cases hi : i < r
    · rw [List.getElem?_range hi]
      simp only [Option.map_some, Option.getD_some]
      rw [foldl_addEntry_at, rowAt_nil, zero_add, key]
    · rw [List.getElem?_eq_none (by simpa using hi)]
      simp only [Option.map_none, Option.getD_none]
      rw [rowAt_nil, ← key, List.filter_eq_nil_iff.2, List.map_nil, rowAt_nil]
      intro e he
      have := (h e he).1
      simp
      omega

/-! ### Products -/

theorem csrDot_eq {X : Csr} (hv : X.Valid) (B : Mat) : csrDot X B = dot X.toMat B := by
  unfold csrDot dot Csr.toMat
  congr 1
  funext i k
  refine sum_row _ _ ?_ fun j => B.e j k
  intro p hp
  rcases hi : X.rows[i]? with _ | row
  · rw [hi] at hp; cases hp
  · rw [hi] at hp
    exact hv.2 row (List.mem_of_getElem? hi) p hp

theorem entries_sum (n : ℕ) (rows : List (List (ℕ × ℝ))) (a : ℕ → ℝ) (j : ℕ) :
    (((entriesFrom n rows).filter fun e => e.2.1 = j).map fun e => a e.1 * e.2.2).sum =
      ∑ i ∈ range rows.length, a (n + i) * rowAt ((rows[i]?).getD []) j := by
  induction rows generalizing n with
  | nil => simp [entriesFrom]
  | cons row rows ih =>
    unfold entriesFrom
    rw [List.filter_append, List.map_append, List.sum_append, ih, List.length_cons, sum_range_succ', add_comm]
    congr 1
    · apply sum_congr rfl
      intro i _
      rw [show n + 1 + i = n + (i + 1) by omega]
      rfl
    · rw [List.filter_map, List.map_map]
      show _ = a (n + 0) * rowAt row j
      unfold rowAt
      rw [← List.sum_map_mul_left]
      rfl

theorem dotCsr_eq {X : Csr} (hv : X.Valid) (A : Mat) (hA : A.c = X.r) : dotCsr A X = dot A X.toMat := by
  unfold dotCsr dot Csr.toMat
  congr 1
  funext k j
  rw [entries_sum, hv.1, hA]
  simp only [zero_add]

/-! ### Zeros -/

theorem elim_valid {X : Csr} (h : X.Valid) : X.eliminateZeros.Valid := by
  refine ⟨by simpa [Csr.eliminateZeros] using h.1, ?_⟩
  intro row hrow p hp
  obtain ⟨row', h', rfl⟩ := List.mem_map.1 hrow
  exact h.2 row' h' p (List.mem_of_mem_filter hp)

theorem elim_canonical {X : Csr} (h : X.Canonical) : X.eliminateZeros.Canonical := by
  intro row hrow
  obtain ⟨row', h', rfl⟩ := List.mem_map.1 hrow
  exact (h row' h').sublist (List.Sublist.map _ List.filter_sublist)

theorem elim_toMat (X : Csr) : X.eliminateZeros.toMat = X.toMat := by
  unfold Csr.toMat Csr.eliminateZeros
  congr 1
  funext i j
  rw [List.getElem?_map]
  cases X.rows[i]? with
  | none => rfl
  | some row => exact rowAt_filter row j

/-- No stored zeros. -/
def NoZeros (X : Csr) : Prop := ∀ row ∈ X.rows, ∀ p ∈ row, p.2 ≠ 0

theorem elim_noZeros (X : Csr) : NoZeros X.eliminateZeros := by
  intro row hrow p hp
  obtain ⟨row', h', rfl⟩ := List.mem_map.1 hrow
  simpa using List.of_mem_filter hp

/-! ### Entry by entry -/

/-- The same entries with other values. -/
def mapEntries (f : ℕ → ℕ → ℝ → ℝ) : ℕ → List (List (ℕ × ℝ)) → List (List (ℕ × ℝ))
  | _, [] => []
  | n, row :: rows => (row.map fun p => (p.1, f n p.1 p.2)) :: mapEntries f (n + 1) rows

theorem mapEntries_get (f : ℕ → ℕ → ℝ → ℝ) (n : ℕ) (rows : List (List (ℕ × ℝ))) (i : ℕ) :
    (mapEntries f n rows)[i]? = (rows[i]?).map fun row => row.map fun p => (p.1, f (n + i) p.1 p.2) := by
  induction rows generalizing n i with
  | nil => rfl
  | cons row rows ih =>
    unfold mapEntries
    cases i with
    | zero => rfl
    | succ i =>
      rw [List.getElem?_cons_succ, List.getElem?_cons_succ, ih, show n + 1 + i = n + (i + 1) by omega]

theorem mapEntries_length (f : ℕ → ℕ → ℝ → ℝ) (n : ℕ) (rows : List (List (ℕ × ℝ))) :
    (mapEntries f n rows).length = rows.length := by
  induction rows generalizing n with
  | nil => rfl
  | cons row rows ih => unfold mapEntries; rw [List.length_cons, ih, List.length_cons]

theorem mapEntries_data_length (f : ℕ → ℕ → ℝ → ℝ) (n : ℕ) (rows : List (List (ℕ × ℝ))) :
    ((mapEntries f n rows).flatten.map Prod.snd).length = (rows.flatten.map Prod.snd).length := by
  induction rows generalizing n with
  | nil => rfl
  | cons row rows ih =>
    unfold mapEntries
    have := ih (n + 1)
    simp only [List.length_map] at this ⊢
    rw [List.flatten_cons, List.flatten_cons, List.length_append, List.length_append, this, List.length_map]

theorem zip_self (row : List (ℕ × ℝ)) (g : ℝ → ℝ → ℝ) (h : ℕ → ℝ → ℝ) :
    List.zipWith g (row.map Prod.snd) ((row.map fun p => (p.1, h p.1 p.2)).map Prod.snd) =
      row.map fun p => g p.2 (h p.1 p.2) := by
  induction row with
  | nil => rfl
  | cons p row ih => simp only [List.map_cons, List.zipWith_cons_cons, ih]

theorem zip_entries (f : ℕ → ℕ → ℝ → ℝ) (g : ℝ → ℝ → ℝ) (n : ℕ) (rows : List (List (ℕ × ℝ))) :
    List.zipWith g (rows.flatten.map Prod.snd) ((mapEntries f n rows).flatten.map Prod.snd) =
      (mapEntries (fun i j v => g v (f i j v)) n rows).flatten.map Prod.snd := by
  induction rows generalizing n with
  | nil => rfl
  | cons row rows ih =>
    unfold mapEntries
    rw [List.flatten_cons, List.flatten_cons, List.flatten_cons, List.map_append, List.map_append, List.map_append,
      List.zipWith_append (by simp), ih, zip_self row g (f n), List.map_map]
    rfl

theorem zip_row (row : List (ℕ × ℝ)) (f g : ℕ → ℝ → ℝ) :
    ((row.map fun p => (p.1, f p.1 p.2)).map Prod.fst).zip ((row.map fun p => (p.1, g p.1 p.2)).map Prod.snd) =
      row.map fun p => (p.1, g p.1 p.2) := by
  induction row with
  | nil => rfl
  | cons p row ih => simp only [List.map_cons, List.zip_cons_cons, ih]

theorem setData_entries (f g : ℕ → ℕ → ℝ → ℝ) (n : ℕ) (rows : List (List (ℕ × ℝ))) :
    setData (mapEntries f n rows) ((mapEntries g n rows).flatten.map Prod.snd) = mapEntries g n rows := by
  induction rows generalizing n with
  | nil => rfl
  | cons row rows ih =>
    unfold mapEntries setData
    rw [List.flatten_cons, List.map_append, List.length_map]
    congr 1
    · rw [List.take_left' (by simp)]
      exact zip_row row (f n) (g n)
    · rw [List.drop_left' (by simp), ih]

/-- The result of `_special_sparse_dot` has the entries of the matrix. -/
theorem specialDot_rows {X : Csr} (hv : X.Valid) (hc : X.Canonical) (W H : Mat) :
    (specialDot W H X).1 = X.eliminateZeros ∧ (specialDot W H X).2.r = X.r ∧ (specialDot W H X).2.c = X.c ∧
    (specialDot W H X).2.rows = mapEntries (fun i j _ => (dot W H).e i j) 0 X.eliminateZeros.rows := by
  refine ⟨rfl, rfl, rfl, ?_⟩
  have hv' := elim_valid hv
  have hc' := elim_canonical hc
  have h0 := elim_noZeros X
  unfold specialDot
  simp only []
  generalize X.eliminateZeros = y at *
  apply List.ext_getElem?
  intro i
  rw [mapEntries_get]
  unfold cooToCsr
  simp only [List.getElem?_map]
  have hnz : y.nonzero.map (fun p => (p.1, p.2, ∑ k ∈ range W.c, W.e p.1 k * H.e k p.2)) =
      (entriesFrom 0 y.rows).map fun e => (e.1, e.2.1, (dot W H).e e.1 e.2.1) := by
    unfold Csr.nonzero
    rw [List.filter_eq_self.2, List.map_map]
    · rfl
    · intro e he
      have : ∀ (rows : List (List (ℕ × ℝ))) (n : ℕ), (∀ row ∈ rows, ∀ p ∈ row, p.2 ≠ 0) →
          ∀ e ∈ entriesFrom n rows, e.2.2 ≠ 0 := by
        intro rows
        induction rows with
        | nil => intro n _ e he; cases he
        | cons row rows ih =>
          intro n h e he
          rcases List.mem_append.1 he with he | he
          · obtain ⟨p, hp, rfl⟩ := List.mem_map.1 he
            exact h row List.mem_cons_self p hp
          · exact ih _ (fun r hr => h r (List.mem_cons_of_mem _ hr)) e he
      simpa using this _ _ h0 e he
  rw [hnz]
  by_cases hi : i < y.r
  · have hi' : i < y.rows.length := by rw [hv'.1]; exact hi
    rw [List.getElem?_range hi, List.getElem?_eq_getElem hi']
    simp only [Option.map_some, zero_add]
    congr 1
    rw [List.filter_map]
    have := filter_entries 0 i y.rows
    rw [zero_add] at this
    rw [show ((fun e : ℕ × ℕ × ℝ => decide (e.1 = i)) ∘ fun e : ℕ × ℕ × ℝ => (e.1, e.2.1, (dot W H).e e.1 e.2.1)) =
      fun e => decide (e.1 = i) from rfl, this, List.getElem?_eq_getElem hi', Option.getD_some, List.map_map]
    have := foldl_sorted i (y.rows[i].map fun p => (p.1, (dot W H).e i p.1)) [] (by
      rw [List.nil_append, List.map_map]
      exact hc' _ (List.getElem_mem hi'))
    rw [List.map_map, List.nil_append] at this
    exact this
  · rw [List.getElem?_eq_none (by simpa using hi), List.getElem?_eq_none (by rw [hv'.1]; omega)]
    rfl

open Classical in
/-- The matrix with other values. -/
theorem mapEntries_toMat {y : Csr} (hc : y.Canonical) (h0 : NoZeros y) (f : ℕ → ℕ → ℝ → ℝ) (r c i j : ℕ) :
    (Csr.toMat ⟨r, c, mapEntries f 0 y.rows⟩).e i j = if y.toMat.e i j ≠ 0 then f i j (y.toMat.e i j) else 0 := by
  unfold Csr.toMat
  simp only []
  rw [mapEntries_get]
  rcases hi : y.rows[i]? with _ | row
  · simp [rowAt_nil]
  · simp only [Option.map_some, Option.getD_some, zero_add]
    have hs := hc row (List.mem_of_getElem? hi)
    have hz := h0 row (List.mem_of_getElem? hi)
    by_cases hj : ∃ p ∈ row, p.1 = j
    · obtain ⟨p, hp, rfl⟩ := hj
      rw [rowAt_sorted hs hp, if_pos (hz p hp)]
      have := rowAt_sorted (row := row.map fun p => (p.1, f i p.1 p.2)) (by rw [List.map_map]; exact hs)
        (List.mem_map_of_mem hp)
      exact this
    · push Not at hj
      rw [rowAt_fresh hj, rowAt_fresh]
      · simp
      · intro q hq
        obtain ⟨p, hp, rfl⟩ := List.mem_map.1 hq
        exact hj p hp

open Classical in
/-- Sums over entries are sums over the matrix. -/
theorem mapEntries_sum {y : Csr} (hv : y.Valid) (hc : y.Canonical) (h0 : NoZeros y) (f : ℕ → ℕ → ℝ → ℝ) :
    ((mapEntries f 0 y.rows).flatten.map Prod.snd).sum =
      ∑ i ∈ range y.r, ∑ j ∈ range y.c, if y.toMat.e i j ≠ 0 then f i j (y.toMat.e i j) else 0 := by
  have : ∀ (rows : List (List (ℕ × ℝ))) (n : ℕ), (∀ row ∈ rows, ∀ p ∈ row, p.1 < y.c) →
      (∀ row ∈ rows, (row.map Prod.fst).Pairwise (· < ·)) → (∀ row ∈ rows, ∀ p ∈ row, p.2 ≠ 0) →
      ((mapEntries f n rows).flatten.map Prod.snd).sum = ∑ i ∈ range rows.length, ∑ j ∈ range y.c,
        if rowAt ((rows[i]?).getD []) j ≠ 0 then f (n + i) j (rowAt ((rows[i]?).getD []) j) else 0 := by
    intro rows
    induction rows with
    | nil => intros; simp [mapEntries]
    | cons row rows ih =>
      intro n h1 h2 h3
      unfold mapEntries
      rw [List.flatten_cons, List.map_append, List.sum_append, ih (n + 1) (fun r hr => h1 r (List.mem_cons_of_mem _ hr))
        (fun r hr => h2 r (List.mem_cons_of_mem _ hr)) (fun r hr => h3 r (List.mem_cons_of_mem _ hr)), List.length_cons,
        sum_range_succ', add_comm]
      congr 1
      · apply sum_congr rfl
        intro i _
        rw [show n + 1 + i = n + (i + 1) by omega]
        rfl
      · rw [List.map_map]
        exact sum_row_nonzero row y.c (h1 row List.mem_cons_self) (h2 row List.mem_cons_self) (h3 row List.mem_cons_self)
          fun j v => f n j v
  rw [this y.rows 0 hv.2 hc h0, hv.1]
  simp only [zero_add]
  rfl

theorem mapEntries_valid {y : Csr} (hv : y.Valid) (f : ℕ → ℕ → ℝ → ℝ) :
    Csr.Valid ⟨y.r, y.c, mapEntries f 0 y.rows⟩ := by
  refine ⟨by rw [mapEntries_length]; exact hv.1, ?_⟩
  intro row hrow p hp
  obtain ⟨i, hi⟩ := List.getElem?_of_mem hrow
  rw [mapEntries_get] at hi
  obtain ⟨row', h', rfl⟩ := Option.map_eq_some_iff.1 hi
  obtain ⟨q, hq, rfl⟩ := List.mem_map.1 hp
  exact hv.2 row' (List.mem_of_getElem? h') q hq

theorem broadcast_same (f : ℝ → ℝ → ℝ) {a b : List ℝ} (h : a.length = b.length) :
    broadcast f a b = .ok (List.zipWith f a b) := by
  unfold broadcast
  rw [if_pos h]

/-- `_Q` of stored entries. -/
theorem csrQ_eq {X : Csr} (hv : X.Valid) (hc : X.Canonical) (W H : Mat) (eps : ℝ) :
    ∃ q, csrQ X W H eps = .ok (X.eliminateZeros, q) ∧ q.Valid ∧ q.toMat = Q ⟨true, X.toMat⟩ W H eps := by
  obtain ⟨h1, h2, h3, h4⟩ := specialDot_rows hv hc W H
  unfold csrQ
  simp only []
  rw [h1, h2, h3, h4]
  have hd : (specialDot W H X).2.data =
      (mapEntries (fun i j _ => (dot W H).e i j) 0 X.eliminateZeros.rows).flatten.map Prod.snd := by
    unfold Csr.data
    rw [h4]
  rw [hd, show X.eliminateZeros.data = X.eliminateZeros.rows.flatten.map Prod.snd from rfl,
    broadcast_same _ (mapEntries_data_length _ 0 _).symm, zip_entries]
  refine ⟨_, rfl, ?_, ?_⟩
  · rw [setData_entries]
    exact mapEntries_valid (y := X.eliminateZeros) (elim_valid hv) _
  · rw [setData_entries]
    unfold Q
    have := mapEntries_toMat (elim_canonical hc) (elim_noZeros X)
      (fun i j v => (v + eps) / ((dot W H).e i j + eps)) X.r X.c
    rw [elim_toMat] at this
    have e : ∀ A : Mat, A = ⟨A.r, A.c, A.e⟩ := fun A => rfl
    rw [e (Csr.toMat _)]
    congr 1
    funext i j
    rw [this i j]
    simp only [if_true]

/-- `error` of stored entries. -/
theorem csrError_eq {X : Csr} (hv : X.Valid) (hc : X.Canonical) (W H : Mat) (w : ℝ) :
    csrError X W H w = .ok (X.eliminateZeros, error ⟨true, X.toMat⟩ W H w) := by
  obtain ⟨h1, -, -, h4⟩ := specialDot_rows hv hc W H
  unfold csrError
  simp only []
  rw [h1]
  have hd : (specialDot W H X).2.data =
      (mapEntries (fun i j _ => (dot W H).e i j) 0 X.eliminateZeros.rows).flatten.map Prod.snd := by
    unfold Csr.data
    rw [h4]
  have hx : X.eliminateZeros.data = X.eliminateZeros.rows.flatten.map Prod.snd := rfl
  have hi : X.eliminateZeros.rows = mapEntries (fun _ _ v => v) 0 X.eliminateZeros.rows := by
    apply List.ext_getElem?
    intro i
    rw [mapEntries_get]
    simp
  rw [hd, hx, broadcast_same _ (mapEntries_data_length _ 0 _).symm, zip_entries]
  simp only [bind, Except.bind]
  rw [broadcast_same _ (mapEntries_data_length _ 0 _).symm, zip_entries]
  simp only [pure, Except.pure]
  congr 2
  unfold error
  rw [if_pos rfl, mapEntries_sum (elim_valid hv) (elim_canonical hc) (elim_noZeros X)]
  have h5 := by
    have := congrArg (fun r : List (List (ℕ × ℝ)) => (r.flatten.map Prod.snd).sum) hi
    exact this.trans <| mapEntries_sum (elim_valid hv) (elim_canonical hc) (elim_noZeros X) fun _ _ v => v
  rw [h5, elim_toMat]
  rfl

/-- `_update` of stored entries. -/
theorem csrUpdate_eq {X : Csr} (hv : X.Valid) (hc : X.Canonical) (W H : Mat) (hW : W.r = X.r) (fit : Bool) :
    csrUpdate X W H fit = .ok (X.eliminateZeros, update ⟨true, X.toMat⟩ W H fit) := by
  obtain ⟨q, hq, hqv, hqm⟩ := csrQ_eq hv hc W H EPS
  unfold csrUpdate
  rw [hq]
  simp only [bind, Except.bind, pure, Except.pure]
  have hr : q.r = X.r := by
    have := congrArg Mat.r hqm
    exact this
  rw [csrDot_eq hqv, dotCsr_eq hqv _ (by rw [hr]; exact hW), hqm]
  unfold update updatedW updatedH
  rfl

/-- The loop on stored entries. -/
theorem csrLoop_eq (fit : Bool) (tol w : ℝ) (left n : ℕ) (prev : Option ℝ) {X : Csr} (hv : X.Valid) (hc : X.Canonical)
    (W H : Mat) (hW : W.r = X.r) (errs : List ℝ) :
    csrLoop fit tol w left n prev X W H errs = .ok (loop ⟨true, X.toMat⟩ fit tol w left n prev W H errs) := by
  induction left generalizing n prev X W H errs with
  | zero => rfl
  | succ left ih =>
    unfold csrLoop loop
    rw [csrError_eq hv hc]
    simp only [bind, Except.bind, pure, Except.pure]
    split_ifs with hs
    · rfl
    · rw [csrUpdate_eq (elim_valid hv) (elim_canonical hc) W H hW]
      simp only []
      rw [ih (n + 1) _ (elim_valid (elim_valid hv)) (elim_canonical (elim_canonical hc))
        (update ⟨true, X.eliminateZeros.toMat⟩ W H fit).1 _ hW, elim_toMat, elim_toMat]

theorem csrNonNegative_eq {X : Csr} (hv : X.Valid) (hc : X.Canonical) :
    csrNonNegative X = checkNonNegative ⟨true, X.toMat⟩ := by
  unfold csrNonNegative checkNonNegative
  have : (∃ v ∈ X.data, v < 0) ↔ ∃ i < X.toMat.r, ∃ j < X.toMat.c, X.toMat.e i j < 0 := by
    constructor
    · rintro ⟨v, hm, h0⟩
      obtain ⟨p, hp, rfl⟩ := List.mem_map.1 hm
      obtain ⟨row, hrow, hp⟩ := List.mem_flatten.1 hp
      obtain ⟨i, hi⟩ := List.getElem?_of_mem hrow
      refine ⟨i, ?_, p.1, hv.2 row hrow p hp, ?_⟩
      · have := (List.getElem?_eq_some_iff.1 hi).1
        rw [hv.1] at this
        exact this
      · show rowAt ((X.rows[i]?).getD []) p.1 < 0
        rw [hi, Option.getD_some, rowAt_sorted (hc row hrow) hp]
        exact h0
    · rintro ⟨i, -, j, -, h⟩
      replace h : rowAt ((X.rows[i]?).getD []) j < 0 := h
      rcases hi : X.rows[i]? with _ | row
      · rw [hi, Option.getD_none, rowAt_nil] at h
        exact absurd h (lt_irrefl _)
      · rw [hi, Option.getD_some] at h
        have hrow := List.mem_of_getElem? hi
        by_cases hj : ∃ p ∈ row, p.1 = j
        · obtain ⟨p, hp, rfl⟩ := hj
          rw [rowAt_sorted (hc row hrow) hp] at h
          exact ⟨p.2, List.mem_map.2 ⟨p, List.mem_flatten.2 ⟨row, hrow, hp⟩, rfl⟩, h⟩
        · push Not at hj
          rw [rowAt_fresh hj] at h
          exact absurd h (lt_irrefl _)
  simp only [this]

theorem csrInit_eq {X : Csr} (hv : X.Valid) (k : ℕ) (d : Option Mat) (rnd : ℕ → ℕ → ℝ) :
    csrInit k d X rnd = init k d ⟨true, X.toMat⟩ rnd := by
  unfold csrInit init
  cases d with
  | none => simp only []; rw [csrDot_eq hv]; rfl
  | some H => simp only []; rw [csrDot_eq hv]; rfl

/-- C191: factorizing a sparse matrix in canonical format, with or without stored zeros, is factorizing the matrix which it
stands for. -/
theorem C191_fit (s : Nmf) {X : Csr} (hv : X.Valid) (hc : X.Canonical) (rnd : ℕ → ℕ → ℝ) (fit : Bool) (w : ℝ)
    (scaleW : Bool) : csrFitTransform s X rnd fit w scaleW = fitTransform s ⟨true, X.toMat⟩ rnd fit w scaleW := by
  unfold csrFitTransform fitTransform
  rw [csrNonNegative_eq hv hc]
  cases checkNonNegative ⟨true, X.toMat⟩ with
  | error e => rfl
  | ok u =>
    simp only []
    rw [csrInit_eq hv]
    have hr : ∀ W H, init (setComponents s.nComponents X.toMat.c) s.initDictionary ⟨true, X.toMat⟩ rnd = .ok (W, H) →
        W.r = X.r := by
      intro W H h
      unfold init at h
      cases hd : s.initDictionary with
      | none =>
        rw [hd] at h
        cases h
        rfl
      | some D =>
        rw [hd] at h
        simp only [] at h
        split_ifs at h
        cases h
        rfl
    change (match init (setComponents s.nComponents X.toMat.c) s.initDictionary ⟨true, X.toMat⟩ rnd with
      | .error e => _
      | .ok (W, H) => _) = _
    rcases hi : init (setComponents s.nComponents X.toMat.c) s.initDictionary ⟨true, X.toMat⟩ rnd with e | ⟨W, H⟩
    · rfl
    · have hl := fun tol n prev comps errs => csrLoop_eq fit tol w s.maxIter n prev hv hc W comps (hr W H hi) errs
      cases fit with
      | true =>
        simp only [if_true]
        split_ifs
        · rfl
        · rw [hl]
          rfl
      | false =>
        simp only [Bool.false_eq_true, if_false]
        cases s.components with
        | none => rfl
        | some comps =>
          simp only []
          split_ifs
          · rfl
          · rw [hl]
            rfl

/-- C191, the error: the one of the matrix; the given matrix only loses its stored zeros, so that it stands for the same
matrix. -/
theorem C191_error {X : Csr} (hv : X.Valid) (hc : X.Canonical) (W H : Mat) (w : ℝ) :
    ∃ X', csrError X W H w = .ok (X', error ⟨true, X.toMat⟩ W H w) ∧ X'.toMat = X.toMat ∧ X'.Valid ∧ X'.Canonical ∧
      (∀ row ∈ X'.rows, ∀ p ∈ row, p.2 ≠ 0) ∧
      ∀ (i : ℕ) (p : ℕ × ℝ), p ∈ (X'.rows[i]?).getD [] ↔ p ∈ (X.rows[i]?).getD [] ∧ p.2 ≠ 0 := by
  refine ⟨_, csrError_eq hv hc W H w, elim_toMat X, elim_valid hv, elim_canonical hc, elim_noZeros X, ?_⟩
  intro i p
  unfold Csr.eliminateZeros
  rw [List.getElem?_map]
  cases X.rows[i]? with
  | none => simp
  | some row => simp [List.mem_filter]

/-- C191, triples: a matrix given by triples in any order, with zeros and duplicates, is factorized as the matrix of their
sums. -/
theorem C191_fit_triples (s : Nmf) (r c : ℕ) (es : List (ℕ × ℕ × ℝ)) (h : ∀ e ∈ es, e.1 < r ∧ e.2.1 < c)
    (rnd : ℕ → ℕ → ℝ) (fit : Bool) (w : ℝ) (scaleW : Bool) :
    csrFitTransform s (cooToCsr r c es) rnd fit w scaleW =
      fitTransform s ⟨true, r, c, fun i j => ((es.filter fun e => e.1 = i ∧ e.2.1 = j).map fun e => e.2.2).sum⟩
        rnd fit w scaleW := by
  obtain ⟨hv, hc, -, -, he⟩ := C191_from_triples r c es h
  rw [C191_fit s hv hc]
  have : (cooToCsr r c es).toMat =
      ⟨r, c, fun i j => ((es.filter fun e => e.1 = i ∧ e.2.1 = j).map fun e => e.2.2).sum⟩ := by
    have e : ∀ A : Mat, A = ⟨A.r, A.c, A.e⟩ := fun A => rfl
    rw [e (cooToCsr r c es).toMat]
    congr 1
    funext i j
    exact he i j
  rw [this]

/-- The matrix `[[1, 2]]`, stored with its columns in the other order. -/
def unsorted : Csr := ⟨1, 2, [[(1, 2), (0, 1)]]⟩

/-- The matrix `[[2, 1]]`, stored with two entries at the same place. -/
def twice : Csr := ⟨1, 2, [[(0, 1), (0, 1), (1, 1)]]⟩

/-- C191, columns which are not sorted: the values of the two matrices are not at the same places, and `_Q` is wrong. -/
theorem C191_unsorted (W H : Mat) (eps : ℝ) (h0 : (dot W H).e 0 0 + eps ≠ 0) :
    unsorted.Valid ∧ unsorted.toMat.e 0 0 = 1 ∧ unsorted.toMat.e 0 1 = 2 ∧
    ∃ X' q, csrQ unsorted W H eps = .ok (X', q) ∧ q.toMat.e 0 0 = (2 + eps) / ((dot W H).e 0 0 + eps) ∧
      q.toMat.e 0 0 ≠ (Q ⟨true, unsorted.toMat⟩ W H eps).e 0 0 := by
  have e0 : unsorted.toMat.e 0 0 = 1 := by simp [unsorted, Csr.toMat, rowAt]
  have e1 : unsorted.toMat.e 0 1 = 2 := by simp [unsorted, Csr.toMat, rowAt]
  have hq : (Q ⟨true, unsorted.toMat⟩ W H eps).e 0 0 = (1 + eps) / ((dot W H).e 0 0 + eps) := by
    unfold Q
    simp only [if_true, e0]
    simp
  refine ⟨⟨rfl, by intro row hr p hp; simp [unsorted] at hr; subst hr; simp at hp; rcases hp with rfl | rfl <;> decide⟩,
    e0, e1, ?_⟩
  have key : ∃ X' q, csrQ unsorted W H eps = .ok (X', q) ∧ q.toMat.e 0 0 = (2 + eps) / ((dot W H).e 0 0 + eps) := by
    refine ⟨unsorted, ⟨1, 2, [[(0, (2 + eps) / ((dot W H).e 0 0 + eps)), (1, (1 + eps) / ((dot W H).e 0 1 + eps))]]⟩, ?_, ?_⟩
    · simp [csrQ, specialDot, unsorted, Csr.eliminateZeros, Csr.nonzero, entriesFrom, cooToCsr, addEntry, Csr.data,
        broadcast, setData, dot, List.range_succ, bind, Except.bind, pure, Except.pure]
    · simp [Csr.toMat, rowAt]
  obtain ⟨X', q, h1, h2⟩ := key
  refine ⟨X', q, h1, h2, ?_⟩
  rw [h2, hq]
  intro h
  rw [div_left_inj' h0] at h
  linarith

/-- C191, two entries at the same place: the arrays of values have different lengths. -/
theorem C191_duplicates (W H : Mat) (eps w : ℝ) :
    twice.Valid ∧ twice.toMat.e 0 0 = 2 ∧ twice.toMat.e 0 1 = 1 ∧
    csrQ twice W H eps = .error .valueError ∧ csrError twice W H w = .error .valueError := by
  refine ⟨⟨rfl, by
    intro row hr p hp; simp [twice] at hr; subst hr; simp at hp; rcases hp with rfl | rfl <;> decide⟩, ?_, ?_, ?_, ?_⟩
  · simp [twice, Csr.toMat, rowAt]; norm_num
  · simp [twice, Csr.toMat, rowAt]
  · simp [csrQ, specialDot, twice, Csr.eliminateZeros, Csr.nonzero, entriesFrom, cooToCsr, addEntry, Csr.data,
        broadcast, bind, Except.bind, List.range_succ]
  · simp [csrError, specialDot, twice, Csr.eliminateZeros, Csr.nonzero, entriesFrom, cooToCsr, addEntry, Csr.data,
        broadcast, bind, Except.bind, List.range_succ]

end Verif.NMF
