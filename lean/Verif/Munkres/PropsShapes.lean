import Verif.Munkres.Shapes
import Verif.Munkres.PropsBrute

/-!
# Weights of matrices which are not square (C216)
-/

namespace Verif.Munkres

open Verif

/-! ## Specification -/

/-- The column which an index designates, from the start or from the end. -/
def column (n : ℕ) (x : ℤ) : ℕ := if 0 ≤ x then x.toNat else (x + n).toNat

/-- Two sizes of an axis match. -/
def Fits (a n : ℕ) : Prop := a = n ∨ a = 1 ∨ n = 1

/-- The value of a matrix, of which a single row or column stands for all. -/
def repeatedEntry (w : Mat) (i j : ℕ) : ℚ := w.e (if w.n1 = 1 then 0 else i) (if w.n2 = 1 then 0 else j)

/-! ## Lemmas -/

theorem pyIndex_column (n : ℕ) (x : ℤ) : pyIndex n x = if -(n : ℤ) ≤ x ∧ x < n then some (column n x) else none := by
  unfold pyIndex column
  split_ifs <;> first | rfl | omega

theorem mapM_pyIndex (n : ℕ) (perm : List ℤ) :
    ((∀ x ∈ perm, -(n : ℤ) ≤ x ∧ x < n) → perm.mapM (pyIndex n) = some (perm.map (column n))) ∧
    ((∃ x ∈ perm, x < -(n : ℤ) ∨ (n : ℤ) ≤ x) → perm.mapM (pyIndex n) = none) := by
  induction perm with
  | nil => exact ⟨fun _ => rfl, fun ⟨x, hx, _⟩ => by cases hx⟩
  | cons y perm ih =>
    rw [List.mapM_cons, pyIndex_column]
    constructor
    · intro h
      rw [if_pos (h y List.mem_cons_self), ih.1 fun x hx => h x (List.mem_cons_of_mem _ hx)]
      rfl
    · rintro ⟨x, hx, h⟩
      split_ifs with hy
      · rcases List.mem_cons.1 hx with rfl | hx
        · omega
        · rw [ih.2 ⟨x, hx, h⟩]
          rfl
      · rfl

theorem axisSize_some (a n : ℕ) : (∃ m, axisSize a n = some m) ↔ Fits a n := by
  unfold axisSize Fits
  split_ifs with h1 h2 h3 <;> simp [h1, *]

theorem axisSize_eq (a n m : ℕ) (h : axisSize a n = some m) (hn : n ≠ 1) : m = n := by
  unfold axisSize at h
  split_ifs at h
  · simp at h; omega
  · simp at h; omega

theorem axisSize_one (a : ℕ) : axisSize a 1 = some a := by
  unfold axisSize
  by_cases h : a = 1 <;> simp [h]

theorem sum_row (f : ℕ → ℚ) (n j : ℕ) (h : j < n) :
    ((List.range n).map fun k => f k * if some j = some k then 1 else 0).sum = f j := sum_range_ite f n j h

/-! ## C216 -/

/-- **C216**: `weight(perm, w)` for all lists of integers and matrices. It raises `IndexError` when a value is not
between `-n` and `n - 1`, for the length `n` of the list; else `ValueError` when the size of an axis of the matrix
is neither `n` nor 1 while `n` is not 1. Otherwise it is the sum of the weights of rows and their columns, where a
single row or column stands for all; but with one value it is the sum of the whole matrix. -/
theorem C216_weight (perm : List ℤ) (w : Mat) :
    ((∃ x ∈ perm, x < -(perm.length : ℤ) ∨ (perm.length : ℤ) ≤ x) → weightAny perm w = .error .indexError) ∧
    ((∀ x ∈ perm, -(perm.length : ℤ) ≤ x ∧ x < perm.length) →
      (¬ (Fits w.n1 perm.length ∧ Fits w.n2 perm.length) → weightAny perm w = .error .valueError) ∧
      (Fits w.n1 perm.length → Fits w.n2 perm.length → perm.length ≠ 1 →
        weightAny perm w = .ok (perm.mapIdx fun i x => repeatedEntry w i (column perm.length x)).sum) ∧
      (perm.length = 1 → weightAny perm w =
        .ok ((List.range w.n1).map fun i => ((List.range w.n2).map fun j => w.e i j).sum).sum)) := by
  constructor
  · intro h
    unfold weightAny permutationMatrixAny
    rw [(mapM_pyIndex perm.length perm).2 h]
    rfl
  · intro h
    have hw : weightAny perm w = (multiply w ⟨perm.length, perm.length, fun i j =>
        if (perm.map (column perm.length))[i]? = some j then 1 else 0⟩).map fun m => m.entries.sum := by
      unfold weightAny permutationMatrixAny
      rw [(mapM_pyIndex perm.length perm).1 h]
      simp only [bind, Except.bind, pure, Except.pure, Except.map]
    refine ⟨fun hf => ?_, fun h1 h2 hn => ?_, fun hn => ?_⟩
    · rw [hw]
      unfold multiply
      simp only []
      cases e1 : axisSize w.n1 perm.length with
      | none => rfl
      | some n =>
        cases e2 : axisSize w.n2 perm.length with
        | none => rfl
        | some m => exact absurd ⟨(axisSize_some _ _).1 ⟨n, e1⟩, (axisSize_some _ _).1 ⟨m, e2⟩⟩ hf
    · obtain ⟨n, e1⟩ := (axisSize_some _ _).2 h1
      obtain ⟨m, e2⟩ := (axisSize_some _ _).2 h2
      have hn1 := axisSize_eq _ _ _ e1 hn
      have hm1 := axisSize_eq _ _ _ e2 hn
      subst hn1
      have e2' : axisSize w.n2 perm.length = some perm.length := by rw [e2, hm1]
      rw [hw]
      unfold multiply
      simp only [e1, e2', Except.map]
      congr 1
      unfold Mat.entries
      simp only []
      rw [List.flatMap, List.sum_flatten, List.map_map]
      congr 1
      apply List.ext_getElem
      · simp
      · intro i k1 k2
        have hi : i < perm.length := by simpa using k2
        simp only [List.getElem_map, List.getElem_range, Function.comp, List.getElem_mapIdx, axisPos, if_neg hn]
        have hcol : column perm.length perm[i] < perm.length := by
          have := h perm[i] (List.getElem_mem hi)
          unfold column
          split_ifs <;> omega
        rw [List.getElem?_eq_getElem (by simpa using hi), List.getElem_map]
        exact sum_row (fun k => w.e (if w.n1 = 1 then 0 else i) (if w.n2 = 1 then 0 else k)) perm.length _ hcol
    · obtain ⟨x, rfl⟩ := List.length_eq_one_iff.1 hn
      have hx := h x List.mem_cons_self
      have hcol : column 1 x = 0 := by
        simp only [List.length_singleton] at hx
        unfold column
        split_ifs <;> omega
      rw [hw]
      simp only [List.length_singleton, List.map_cons, List.map_nil, hcol]
      unfold multiply
      simp only [axisSize_one, Except.map]
      congr 1
      unfold Mat.entries
      simp only []
      rw [List.flatMap, List.sum_flatten, List.map_map]
      congr 1
      apply List.map_congr_left
      intro i hi
      have hi := List.mem_range.1 hi
      simp only [Function.comp]
      congr 1
      apply List.map_congr_left
      intro j hj
      have hj := List.mem_range.1 hj
      have a1 : axisPos w.n1 i = i := by unfold axisPos; split_ifs <;> omega
      have a2 : axisPos w.n2 j = j := by unfold axisPos; split_ifs <;> omega
      rw [a1, a2]
      simp [axisPos]

theorem cast_bounds (s : List ℕ) (n : ℕ) (h : ∀ j ∈ s, j < n) :
    ∀ x ∈ s.map fun (j : ℕ) => (j : ℤ), -(n : ℤ) ≤ x ∧ x < n := by
  intro x hx
  obtain ⟨j, hj, rfl⟩ := List.mem_map.1 hx
  have := h j hj
  constructor <;> omega

theorem column_nat (n j : ℕ) : column n (j : ℤ) = j := by
  unfold column
  simp

/-- **C216**: on square matrices these are the functions of `Verif.Munkres.Model`. -/
theorem C216_square (noIndex : PyErr) (fuel : ℕ) (w : Mat) (hsq : w.n1 = w.n2) (hpos : 0 < w.n1)
    (hf : 2 * w.n1 + 1 ≤ fuel) :
    (∀ p : List ℕ, p.Perm (List.range w.n1) → weightAny (p.map fun (j : ℕ) => (j : ℤ)) w = .ok (cost w.e p)) ∧
    ∃ s : List ℕ, s.Perm (List.range w.n1) ∧ minWeightAny noIndex fuel w = some (.ok (cost w.e s)) ∧
      ∀ p : List ℕ, p.Perm (List.range w.n1) → cost w.e s ≤ cost w.e p := by
  have hweight : ∀ p : List ℕ, p.Perm (List.range w.n1) →
      weightAny (p.map fun (j : ℕ) => (j : ℤ)) w = .ok (cost w.e p) := by
    intro p hp
    have hlen : p.length = w.n1 := by rw [hp.length_eq, List.length_range]
    have hb := (C216_weight (p.map fun (j : ℕ) => (j : ℤ)) w).2 (by
      rw [List.length_map]
      exact cast_bounds p _ fun j hj => by rw [hlen]; exact List.mem_range.1 (hp.mem_iff.1 hj))
    rw [List.length_map] at hb
    rcases Nat.lt_or_ge 1 p.length with h1 | h1
    · rw [hb.2.1 (Or.inl hlen.symm) (Or.inl (by omega)) (by omega)]
      congr 1
      unfold cost
      congr 1
      apply List.ext_getElem
      · simp
      · intro i k1 k2
        simp only [List.getElem_mapIdx, List.getElem_map, repeatedEntry, column_nat]
        rw [if_neg (by omega), if_neg (by omega)]
    · have h1' : p.length = 1 := by omega
      rw [hb.2.2 h1']
      obtain ⟨j, rfl⟩ := List.length_eq_one_iff.1 h1'
      have hj : j < w.n1 := List.mem_range.1 (hp.mem_iff.1 List.mem_cons_self)
      have hn : w.n1 = 1 := by rw [← hlen]; rfl
      have hn2 : w.n2 = 1 := by omega
      have hj0 : j = 0 := by omega
      subst hj0
      simp [hn, hn2, cost]
  refine ⟨hweight, ?_⟩
  obtain ⟨s, h1, h2, h3⟩ := C29_min_weight_perm_square fuel w hsq hpos hf
  refine ⟨s, h2, ?_, h3⟩
  unfold minWeightAny
  rw [h1]
  simp only [Option.map_some, Except.bind]
  rw [if_neg (by simp), List.map_map]
  exact congrArg some (hweight s h2)

/-- **C216**: on square matrices the brute force is the one of `Verif.Munkres.Model`, and finds a permutation of
minimal weight (C32). -/
theorem C216_brute_force_square (w : Mat) (hsq : w.n1 = w.n2) :
    bruteForceAny w = bruteForce w ∧ ∃ s : List ℕ, bruteForceAny w = .ok s ∧ s.Perm (List.range w.n1) ∧
      ∀ p : List ℕ, p.Perm (List.range w.n1) → cost w.e s ≤ cost w.e p := by
  have hweight : ∀ p ∈ allPerms (List.range w.n1), weightAny (p.map fun (j : ℕ) => (j : ℤ)) w = weight p w := by
    intro p hp
    have hp' := (C32_all_perms _ p).1 hp
    rw [C32_weight w hsq p hp']
    rcases Nat.eq_zero_or_pos w.n1 with h0 | hpos
    · have hnil : p = [] := by
        rw [h0] at hp'
        exact List.perm_nil.1 hp'
      subst hnil
      have h2 : w.n2 = 0 := by omega
      rw [List.map_nil, ((C216_weight ([] : List ℤ) w).2 (by simp)).2.1 (Or.inl h0) (Or.inl h2) (by simp)]
      rfl
    · exact (C216_square .indexError (2 * w.n1 + 1) w hsq hpos le_rfl).1 p hp'
  have heq : bruteForceAny w = bruteForce w := by
    unfold bruteForceAny bruteForce
    rw [← hsq, min_self]
    simp only []
    have : ∀ (ps : List (List ℕ)) (acc : ℚ × List ℕ), (∀ p ∈ ps, p ∈ allPerms (List.range w.n1)) →
        ps.foldlM (fun (acc : ℚ × List ℕ) perm => do
          let c ← weightAny (perm.map fun (j : ℕ) => (j : ℤ)) w
          return if c < acc.1 then (c, perm) else acc) acc = (ps.foldlM (fun (acc : ℚ × List ℕ) perm => do
          let c ← weight perm w
          return if c < acc.1 then (c, perm) else acc) acc : Py (ℚ × List ℕ)) := by
      intro ps
      induction ps with
      | nil => intro acc _; rfl
      | cons p ps ih =>
        intro acc h
        rw [List.foldlM_cons, List.foldlM_cons, hweight p (h p List.mem_cons_self)]
        congr 1
        funext acc'
        exact ih acc' fun x hx => h x (List.mem_cons_of_mem _ hx)
    rw [this _ _ fun p hp => hp]
  refine ⟨heq, ?_⟩
  rw [heq]
  exact C32_brute_force w hsq

/-- **C216**: `min_weight(w)` with fewer rows than columns. It raises `IndexError` when a row has a column beyond
the number of rows, else `ValueError` with at least two rows: it returns nothing. With one row, it returns
something only when `min_weight_perm` choses the first column, and this is the sum of the row. -/
theorem C216_min_weight_fewer_rows (noIndex : PyErr) (fuel : ℕ) (w : Mat) (hlt : w.n1 < w.n2) (hpos : 0 < w.n1)
    (hf : 2 * w.n2 + 1 ≤ fuel) :
    ∃ s : List ℕ, minWeightPerm fuel w = some (.ok (s.map some)) ∧ s.length = w.n1 ∧
      ((∃ j ∈ s, w.n1 ≤ j) → minWeightAny noIndex fuel w = some (.error .indexError)) ∧
      ((∀ j ∈ s, j < w.n1) → 2 ≤ w.n1 → minWeightAny noIndex fuel w = some (.error .valueError)) ∧
      ((∀ j ∈ s, j < w.n1) → w.n1 = 1 → s = [0] ∧
        minWeightAny noIndex fuel w = some (.ok ((List.range w.n2).map fun j => w.e 0 j).sum)) := by
  obtain ⟨s, h1, h2, h3, h4, -⟩ := C30_fewer_rows fuel w hlt hpos hf
  have hm : minWeightAny noIndex fuel w = some (weightAny (s.map fun (j : ℕ) => (j : ℤ)) w) := by
    unfold minWeightAny
    rw [h1]
    simp only [Option.map_some, Except.bind]
    rw [if_neg (by simp), List.map_map]
    rfl
  have hw := C216_weight (s.map fun (j : ℕ) => (j : ℤ)) w
  rw [List.length_map, h2] at hw
  refine ⟨s, h1, h2, ?_, ?_, ?_⟩
  · rintro ⟨j, hj, hjn⟩
    rw [hm, hw.1 ⟨(j : ℤ), List.mem_map.2 ⟨j, hj, rfl⟩, Or.inr (by omega)⟩]
  · intro hb h2n
    rw [hm, (hw.2 (cast_bounds s _ hb)).1]
    rintro ⟨-, h⟩
    unfold Fits at h
    omega
  · intro hb hn
    rw [hm, (hw.2 (cast_bounds s _ hb)).2.2 hn]
    constructor
    · obtain ⟨j, rfl⟩ := List.length_eq_one_iff.1 (h2.trans hn)
      have := hb j List.mem_cons_self
      rw [show j = 0 by omega]
    · simp [hn]

/-- **C216**: `min_weight(w)` with more rows than columns raises, since some row has no column; without rows or
without columns it raises `ValueError`. -/
theorem C216_min_weight_more_rows (noIndex : PyErr) (fuel : ℕ) (w : Mat) (hlt : w.n2 < w.n1)
    (hf : 2 * w.n1 + 1 ≤ fuel) :
    minWeightAny noIndex fuel w = some (.error (if w.n2 = 0 then .valueError else noIndex)) := by
  split_ifs with h0
  · unfold minWeightAny
    rw [C29_empty_matrix fuel w (Or.inr h0)]
    rfl
  · obtain ⟨r, h1, h2, h3, h4, -⟩ := C30_more_rows fuel w hlt (by omega) hf
    unfold minWeightAny
    rw [h1]
    simp only [Option.map_some, Except.bind]
    rw [if_pos]
    by_contra hnone
    -- every row has its own column
    have hall : ∀ i : Fin w.n1, ∃ j : Fin w.n2, r[(i : ℕ)]? = some (some (j : ℕ)) := by
      intro i
      have hi : (i : ℕ) < r.length := by rw [h2]; exact i.2
      cases e : r[(i : ℕ)] with
      | none => exact absurd (e ▸ List.getElem_mem hi) hnone
      | some j =>
        have hj : j < w.n2 := h3 j (e ▸ List.getElem_mem hi)
        exact ⟨⟨j, hj⟩, by rw [List.getElem?_eq_getElem hi]; exact congrArg some e⟩
    choose f hfn using hall
    have hinj : Function.Injective f := by
      intro a b hfab
      exact Fin.ext ((h4 (f a) (f a).2).unique (hfn a) (by rw [hfab]; exact hfn b))
    have := Fintype.card_le_of_injective f hinj
    rw [Fintype.card_fin, Fintype.card_fin] at this
    omega

theorem allPerms_head {α : Type} (l : List α) : ∃ rest, allPerms l = l :: rest := by
  induction l with
  | nil => exact ⟨[], rfl⟩
  | cons a l ih =>
    cases l with
    | nil => exact ⟨[], rfl⟩
    | cons b l =>
      obtain ⟨rest, h⟩ := ih
      unfold allPerms
      rw [h, List.flatMap_cons, List.range_succ_eq_map, List.map_cons]
      exact ⟨_, rfl⟩

/-- **C216**: `min_weight_perm_brute_force(w)` when the matrix is not square: `ValueError`, except with one row or
one column; it then returns the identity, whatever the weights. -/
theorem C216_brute_force (w : Mat) (hsq : w.n1 ≠ w.n2) :
    (w.n1 ≠ 1 → w.n2 ≠ 1 → bruteForceAny w = .error .valueError) ∧
    (w.n1 = 1 ∨ w.n2 = 1 → bruteForceAny w = .ok (List.range w.n1)) := by
  have hb : ∀ p ∈ allPerms (List.range w.n1), p.length = w.n1 ∧
      ∀ x ∈ p.map fun (j : ℕ) => (j : ℤ), -(w.n1 : ℤ) ≤ x ∧ x < w.n1 := by
    intro p hp
    have hp' := (C32_all_perms _ p).1 hp
    have hlen : p.length = w.n1 := by rw [hp'.length_eq, List.length_range]
    exact ⟨hlen, cast_bounds p _ fun j hj => List.mem_range.1 (hp'.mem_iff.1 hj)⟩
  constructor
  · intro h1 h2
    obtain ⟨rest, hr⟩ := allPerms_head (List.range w.n1)
    have hw := C216_weight ((List.range w.n1).map fun (j : ℕ) => (j : ℤ)) w
    rw [List.length_map, List.length_range] at hw
    have he := (hw.2 (hb _ (by rw [hr]; exact List.mem_cons_self)).2).1 (by
      unfold Fits
      rintro ⟨-, h⟩
      omega)
    unfold bruteForceAny
    simp only []
    rw [hr, List.foldlM_cons, he]
    rfl
  · intro h1
    -- all permutations have the same weight
    obtain ⟨c, hc⟩ : ∃ c : ℚ, ∀ p ∈ allPerms (List.range w.n1),
        weightAny (p.map fun (j : ℕ) => (j : ℤ)) w = .ok c := by
      by_cases hn : w.n1 = 1
      · refine ⟨((List.range w.n1).map fun i => ((List.range w.n2).map fun j => w.e i j).sum).sum, fun p hp => ?_⟩
        have hw := C216_weight (p.map fun (j : ℕ) => (j : ℤ)) w
        rw [List.length_map, (hb p hp).1] at hw
        exact (hw.2 (hb p hp).2).2.2 hn
      · have hn2 : w.n2 = 1 := h1.resolve_left hn
        refine ⟨((List.range w.n1).map fun i => w.e i 0).sum, fun p hp => ?_⟩
        have hw := C216_weight (p.map fun (j : ℕ) => (j : ℤ)) w
        rw [List.length_map, (hb p hp).1] at hw
        rw [(hw.2 (hb p hp).2).2.1 (Or.inl rfl) (Or.inr (Or.inl hn2)) hn]
        congr 2
        apply List.ext_getElem
        · simp [(hb p hp).1]
        · intro i k1 k2
          simp [repeatedEntry, hn, hn2]
    have hfold : ∀ (ps : List (List ℕ)) (v : ℚ) (q : List ℕ), v ≤ c →
        (∀ p ∈ ps, weightAny (p.map fun (j : ℕ) => (j : ℤ)) w = .ok c) →
        ps.foldlM (fun (acc : ℚ × List ℕ) perm => do
          let c ← weightAny (perm.map fun (j : ℕ) => (j : ℤ)) w
          return if c < acc.1 then (c, perm) else acc) (v, q) = (.ok (v, q) : Py _) := by
      intro ps v q hv
      induction ps with
      | nil => intro _; rfl
      | cons p ps ih =>
        intro h
        rw [List.foldlM_cons, h p List.mem_cons_self]
        simp only [bind, Except.bind, pure, Except.pure] at ih ⊢
        rw [if_neg (not_lt.2 hv)]
        exact ih fun x hx => h x (List.mem_cons_of_mem _ hx)
    obtain ⟨rest, hr⟩ := allPerms_head (List.range w.n1)
    unfold bruteForceAny
    simp only []
    rw [hr, List.foldlM_cons, hc _ (by rw [hr]; exact List.mem_cons_self)]
    simp only [bind, Except.bind, pure, Except.pure] at hfold ⊢
    split_ifs with hlt
    · rw [hfold rest c _ le_rfl fun p hp => hc p (by rw [hr]; exact List.mem_cons_of_mem _ hp)]
    · rw [hfold rest _ _ (not_lt.1 hlt) fun p hp => hc p (by rw [hr]; exact List.mem_cons_of_mem _ hp)]

/-! ## Examples and findings -/

/-- **C216**: the weight of the minimal choice is 1 in both, but `min_weight` returns 6 or raises, and the brute
force choses the first column. -/
theorem C216_one_row :
    minWeightPerm 7 ⟨1, 2, fun _ j => if j = 0 then 1 else 5⟩ = some (.ok [some 0]) ∧
    minWeightAny .indexError 7 ⟨1, 2, fun _ j => if j = 0 then 1 else 5⟩ = some (.ok 6) ∧
    minWeightPerm 7 ⟨1, 2, fun _ j => if j = 0 then 5 else 1⟩ = some (.ok [some 1]) ∧
    minWeightAny .indexError 7 ⟨1, 2, fun _ j => if j = 0 then 5 else 1⟩ = some (.error .indexError) ∧
    bruteForceAny ⟨1, 2, fun _ j => if j = 0 then 5 else 1⟩ = .ok [0] := by
  refine ⟨?_, ?_, ?_, ?_, ?_⟩ <;> decide +kernel

/-- Rows which repeat a column, and indices from the end. -/
example : weightAny [1, -1] ⟨2, 2, fun i j => 10 * i + j⟩ = .ok 12 ∧
    weightAny [1, 0, 1] ⟨1, 3, fun _ j => 1 + j⟩ = .ok 5 ∧
    weightAny [1, 0] ⟨2, 3, fun _ _ => 1⟩ = .error .valueError ∧
    weightAny [2, 0] ⟨2, 3, fun _ _ => 1⟩ = .error .indexError := by
  refine ⟨?_, ?_, ?_, ?_⟩ <;> decide +kernel

/-- Two rows and three columns: both exceptions occur. -/
example : minWeightAny .indexError 7 ⟨2, 3, ex3.e⟩ = some (.error .indexError) ∧
    minWeightAny .indexError 7 ⟨2, 3, fun i j => if i = j then 0 else 1⟩ = some (.error .valueError) ∧
    minWeightAny .indexError 7 ⟨3, 2, ex3.e⟩ = some (.error .indexError) := by
  refine ⟨?_, ?_, ?_⟩ <;> decide +kernel

example : bruteForceAny ⟨2, 3, ex3.e⟩ = .error .valueError ∧ bruteForceAny ⟨3, 1, ex3.e⟩ = .ok [0, 1, 2] := by
  constructor <;> decide +kernel

end Verif.Munkres
