import Verif.Arrays.Model
import Mathlib.Algebra.Order.Field.Basic
import Mathlib.Data.Finset.Card
import Mathlib.Data.Finset.Prod
import Mathlib.Data.Rat.Cast.Order
import Mathlib.Tactic.FieldSimp
import Mathlib.Tactic.Linarith
import Mathlib.Tactic.NormNum

/-!
# `real_sparsity` of `multimodal/lib/metrics.py` and its property C98
-/

namespace Verif.Metrics

open Verif.Arrays

/-- Places of a matrix of `n1` rows and `n2` columns. -/
def places (n1 n2 : ℕ) : List (ℕ × ℕ) :=
  (List.range n1).flatMap fun i => (List.range n2).map fun j => (i, j)

/-- `real_sparsity` of a dense matrix (`/repo/multimodal/lib/metrics.py:96-97`): `(X != 0).sum()`.
Exact rationals; numpy gives `nan` for empty matrices, which are excluded below. -/
def realSparsityDense (x : Mat) : ℚ :=
  let nonZero := ((places x.n1 x.n2).filter fun p => x.e p.1 p.2 ≠ 0).length
  1 - (nonZero : ℚ) / ((x.n1 * x.n2 : ℕ) : ℚ)

/-- `real_sparsity` of a sparse matrix (`/repo/multimodal/lib/metrics.py:93-94,97`):
`X.nonzero()` lists the stored entries whose value is not null. -/
def realSparsitySparse (x : Sparse) : ℚ :=
  let nonZero := (x.entries.filter fun t => t.2.2 ≠ 0).length
  1 - (nonZero : ℚ) / ((x.n1 * x.n2 : ℕ) : ℚ)

theorem mem_places {n1 n2 : ℕ} {p : ℕ × ℕ} : p ∈ places n1 n2 ↔ p.1 < n1 ∧ p.2 < n2 := by
  unfold places
  rw [List.mem_flatMap]
  constructor
  · rintro ⟨i, hi, hp⟩
    obtain ⟨j, hj, rfl⟩ := List.mem_map.1 hp
    exact ⟨List.mem_range.1 hi, List.mem_range.1 hj⟩
  · rintro ⟨h1, h2⟩
    exact ⟨p.1, List.mem_range.2 h1, List.mem_map.2 ⟨p.2, List.mem_range.2 h2, rfl⟩⟩

theorem length_places (n1 n2 : ℕ) : (places n1 n2).length = n1 * n2 := by
  unfold places
  simp

theorem nodup_places (n1 n2 : ℕ) : (places n1 n2).Nodup := by
  unfold places
  rw [List.nodup_flatMap]
  constructor
  · intro i _
    exact List.Nodup.map (fun a b h => (Prod.mk.inj h).2) List.nodup_range
  · refine (List.nodup_range (n := n1)).imp ?_
    intro a b hab
    rw [Function.onFun, List.disjoint_left]
    intro p hp hq
    obtain ⟨_, _, rfl⟩ := List.mem_map.1 hp
    obtain ⟨_, _, h⟩ := List.mem_map.1 hq
    exact hab (Prod.mk.inj h).1.symm

/-- Number of null coefficients of a matrix (specification, as the cardinal of a set). -/
def nbZeros (x : Mat) : ℕ :=
  (((Finset.range x.n1) ×ˢ (Finset.range x.n2)).filter fun p => x.e p.1 p.2 = 0).card

theorem nbZeros_eq (x : Mat) :
    nbZeros x = ((places x.n1 x.n2).filter fun p => x.e p.1 p.2 = 0).length := by
  unfold nbZeros
  rw [← List.toFinset_card_of_nodup ((nodup_places _ _).filter _)]
  congr 1
  ext p
  simp [mem_places]

/-- **C98.** On a non-empty dense matrix, `real_sparsity` is the ratio of null coefficients: it lies
between 0 and 1, is 1 exactly for the null matrix and 0 exactly when no coefficient is null. -/
theorem C98_ratio (x : Mat) (h1 : 0 < x.n1) (h2 : 0 < x.n2) :
    realSparsityDense x = (nbZeros x : ℚ) / ((x.n1 : ℚ) * x.n2) ∧
    0 ≤ realSparsityDense x ∧ realSparsityDense x ≤ 1 ∧
    (realSparsityDense x = 1 ↔ ∀ i < x.n1, ∀ j < x.n2, x.e i j = 0) ∧
    (realSparsityDense x = 0 ↔ ∀ i < x.n1, ∀ j < x.n2, x.e i j ≠ 0) := by
  have hpos : (0 : ℚ) < (x.n1 : ℚ) * x.n2 := by
    have := Nat.mul_pos h1 h2
    exact_mod_cast this
  have hsum : nbZeros x + ((places x.n1 x.n2).filter fun p => x.e p.1 p.2 ≠ 0).length
      = x.n1 * x.n2 := by
    rw [nbZeros_eq, ← length_places]
    generalize places x.n1 x.n2 = l
    induction l with
    | nil => rfl
    | cons p l ih =>
      by_cases hp : x.e p.1 p.2 = 0
      · simp [hp] at ih ⊢; omega
      · simp [hp] at ih ⊢; omega
  have hq : (nbZeros x : ℚ) + (((places x.n1 x.n2).filter fun p => x.e p.1 p.2 ≠ 0).length : ℚ)
      = (x.n1 : ℚ) * x.n2 := by exact_mod_cast hsum
  have hr : realSparsityDense x = (nbZeros x : ℚ) / ((x.n1 : ℚ) * x.n2) := by
    unfold realSparsityDense
    simp only []
    push_cast
    rw [eq_div_iff hpos.ne', sub_mul, div_mul_cancel₀ _ hpos.ne']
    linarith
  have hnn : (0 : ℚ) ≤ (((places x.n1 x.n2).filter fun p => x.e p.1 p.2 ≠ 0).length : ℚ) :=
    Nat.cast_nonneg _
  refine ⟨hr, ?_, ?_, ?_, ?_⟩
  · rw [hr]; exact div_nonneg (Nat.cast_nonneg _) hpos.le
  · rw [hr, div_le_one hpos]; linarith
  · rw [hr, div_eq_one_iff_eq hpos.ne']
    have : ((nbZeros x : ℚ) = (x.n1 : ℚ) * x.n2) ↔
        ((places x.n1 x.n2).filter fun p => x.e p.1 p.2 ≠ 0).length = 0 := by
      constructor
      · intro h
        have : (((places x.n1 x.n2).filter fun p => x.e p.1 p.2 ≠ 0).length : ℚ) = 0 := by linarith
        exact_mod_cast this
      · intro h
        rw [h] at hq
        push_cast at hq
        linarith
    rw [this, List.length_eq_zero_iff, List.filter_eq_nil_iff]
    constructor
    · intro h i hi j hj
      have := h (i, j) (mem_places.2 ⟨hi, hj⟩)
      simpa using this
    · rintro h p hp
      have := mem_places.1 hp
      simpa using h p.1 this.1 p.2 this.2
  · rw [hr, div_eq_zero_iff, or_iff_left hpos.ne']
    have : ((nbZeros x : ℚ) = 0) ↔ nbZeros x = 0 := by exact_mod_cast Iff.rfl
    rw [this, nbZeros_eq, List.length_eq_zero_iff, List.filter_eq_nil_iff]
    constructor
    · intro h i hi j hj
      have := h (i, j) (mem_places.2 ⟨hi, hj⟩)
      simpa using this
    · rintro h p hp
      have := mem_places.1 hp
      simpa using h p.1 this.1 p.2 this.2

theorem sum_filter_of_nodup (l : List (ℕ × ℕ × ℚ)) (hn : (l.map fun t => (t.1, t.2.1)).Nodup)
    (t : ℕ × ℕ × ℚ) (ht : t ∈ l) :
    ((l.filter fun s => s.1 = t.1 ∧ s.2.1 = t.2.1).map fun s => s.2.2).sum = t.2.2 := by
  induction l with
  | nil => cases ht
  | cons s l ih =>
    rw [List.map_cons, List.nodup_cons] at hn
    rcases List.mem_cons.1 ht with rfl | ht
    · have : l.filter (fun s => s.1 = t.1 ∧ s.2.1 = t.2.1) = [] := by
        rw [List.filter_eq_nil_iff]
        intro s hs hc
        simp only [decide_eq_true_eq] at hc
        exact hn.1 (List.mem_map.2 ⟨s, hs, by rw [hc.1, hc.2]⟩)
      rw [List.filter_cons_of_pos (by simp), this]
      simp
    · have hne : ¬ (s.1 = t.1 ∧ s.2.1 = t.2.1) := by
        intro hc
        exact hn.1 (List.mem_map.2 ⟨t, ht, by rw [hc.1, hc.2]⟩)
      rw [List.filter_cons_of_neg (by simpa using hne)]
      exact ih hn.2 ht

/-- **C98.** A sparse matrix without repeated places has the sparsity of its dense version, stored
zeros included. -/
theorem C98_sparse (x : Sparse) (hn : (x.entries.map fun t => (t.1, t.2.1)).Nodup)
    (hr : ∀ t ∈ x.entries, t.1 < x.n1 ∧ t.2.1 < x.n2) :
    realSparsitySparse x = realSparsityDense x.toDense := by
  unfold realSparsitySparse realSparsityDense
  simp only []
  have hlen : (x.entries.filter fun t => t.2.2 ≠ 0).length
      = ((places x.n1 x.n2).filter fun p => x.toDense.e p.1 p.2 ≠ 0).length := by
    have h1 : ((x.entries.filter fun t => t.2.2 ≠ 0).map fun t => (t.1, t.2.1)).Nodup :=
      hn.sublist (List.Sublist.map _ List.filter_sublist)
    have h2 := (nodup_places x.n1 x.n2).filter fun p => x.toDense.e p.1 p.2 ≠ 0
    rw [← List.length_map (as := x.entries.filter fun t => t.2.2 ≠ 0) (fun t => (t.1, t.2.1))]
    rw [← List.toFinset_card_of_nodup h1, ← List.toFinset_card_of_nodup h2]
    congr 1
    ext p
    simp only [List.mem_toFinset, List.mem_map, List.mem_filter, decide_eq_true_eq, mem_places]
    constructor
    · rintro ⟨t, ⟨ht, hv⟩, rfl⟩
      refine ⟨hr t ht, ?_⟩
      have := sum_filter_of_nodup x.entries hn t ht
      show ((x.entries.filter fun s => s.1 = t.1 ∧ s.2.1 = t.2.1).map fun s => s.2.2).sum ≠ 0
      rw [this]
      exact hv
    · rintro ⟨_, hv⟩
      have hv : ((x.entries.filter fun s => s.1 = p.1 ∧ s.2.1 = p.2).map fun s => s.2.2).sum ≠ 0 := hv
      by_cases hex : ∃ t ∈ x.entries, t.1 = p.1 ∧ t.2.1 = p.2
      · obtain ⟨t, ht, h1, h2⟩ := hex
        refine ⟨t, ⟨ht, ?_⟩, Prod.ext h1 h2⟩
        rw [← h1, ← h2, sum_filter_of_nodup x.entries hn t ht] at hv
        exact hv
      · exfalso
        apply hv
        rw [List.filter_eq_nil_iff.2]
        · rfl
        · intro t ht hc
          simp only [decide_eq_true_eq] at hc
          exact hex ⟨t, ht, hc⟩
  rw [hlen]
  rfl

/-- **C98.** With repeated places the two may differ: the entries 1 and -1 at the same place are
counted as two non-null coefficients of a null matrix, whose sparsity becomes negative. -/
theorem C98_sparse_repeated :
    realSparsitySparse ⟨1, 1, [(0, 0, 1), (0, 0, -1)]⟩ = -1 ∧
    realSparsityDense (Sparse.toDense ⟨1, 1, [(0, 0, 1), (0, 0, -1)]⟩) = 1 := by
  decide +kernel

/-- Non-vacuity: a matrix with three null coefficients out of four. -/
example : realSparsityDense ⟨2, 2, fun i j => if i = 1 ∧ j = 0 then 5 else 0⟩ = 3 / 4 ∧
    realSparsitySparse ⟨2, 2, [(1, 0, 5), (0, 0, 0)]⟩ = 3 / 4 := by decide +kernel

example : realSparsitySparse ⟨2, 2, [(1, 0, 5), (0, 0, 0)]⟩
    = realSparsityDense (Sparse.toDense ⟨2, 2, [(1, 0, 5), (0, 0, 0)]⟩) :=
  C98_sparse _ (by decide) (by decide)

end Verif.Metrics
