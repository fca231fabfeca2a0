import Verif.NDArray.Model
import Mathlib.Algebra.BigOperators.Ring.Finset
import Mathlib.Algebra.BigOperators.Field

/-!
# Properties of `vector_norm` and `unit_vector` on arrays
-/

namespace Verif.NDArray

open Finset

variable {α β γ : Type}

/-! ### Arrays -/

/-- There is a value for each index. -/
def ND.WF (a : ND α) : Prop := a.data.length = a.shape.prod

/-- The indices of a shape. -/
def Valid (s idx : List ℕ) : Prop := List.Forall₂ (fun i n => i < n) idx s

/-- The value at an index. -/
noncomputable def ND.value (a : ND ℝ) (idx : List ℕ) : ℝ := (a.get idx).getD 0

theorem length_indices (s : List ℕ) : (indices s).length = s.prod := by
  induction s with
  | nil => rfl
  | cons n s ih =>
    simp [indices, List.length_flatMap, ih]

theorem position_lt {s idx : List ℕ} (h : Valid s idx) : position s idx < s.prod := by
  induction h with
  | nil => simp [position]
  | @cons i n idx s hi _ ih =>
    simp only [position, List.prod_cons]
    calc i * s.prod + position s idx < i * s.prod + s.prod := by omega
      _ = (i + 1) * s.prod := by ring
      _ ≤ n * s.prod := Nat.mul_le_mul_right _ hi

theorem getElem?_flatMap_range (m : ℕ) (f : ℕ → List α) (hf : ∀ i, (f i).length = m) (n i j : ℕ) (hi : i < n) (hj : j < m) :
    ((List.range n).flatMap f)[i * m + j]? = (f i)[j]? := by
  induction n with
  | zero => omega
  | succ n ih =>
    have hl : ((List.range n).flatMap f).length = n * m := by
      rw [List.length_flatMap]
      simp [hf]
    rw [List.range_succ, List.flatMap_append]
    simp only [List.flatMap_cons, List.flatMap_nil, List.append_nil]
    by_cases h : i < n
    · rw [List.getElem?_append_left, ih h]
      rw [hl]
      calc i * m + j < i * m + m := by omega
        _ = (i + 1) * m := by ring
        _ ≤ n * m := Nat.mul_le_mul_right _ h
    · obtain rfl : i = n := by omega
      rw [List.getElem?_append_right (by rw [hl]; omega), hl]
      congr 1
      omega

theorem indices_position {s idx : List ℕ} (h : Valid s idx) : (indices s)[position s idx]? = some idx := by
  induction h with
  | nil => rfl
  | @cons i n idx s hi hv ih =>
    simp only [indices, position]
    rw [getElem?_flatMap_range s.prod _ (by simp [length_indices]) n i _ hi (position_lt hv)]
    simp [ih]

theorem mem_indices {s idx : List ℕ} : idx ∈ indices s ↔ Valid s idx := by
  induction s generalizing idx with
  | nil => simp [indices, Valid]
  | cons n s ih =>
    simp only [indices, List.mem_flatMap, List.mem_range, List.mem_map]
    constructor
    · rintro ⟨i, hi, l, hl, rfl⟩
      exact List.Forall₂.cons hi (ih.1 hl)
    · intro h
      rcases h with _ | ⟨hi, hl⟩
      exact ⟨_, hi, _, ih.2 hl, rfl⟩

theorem get_ofIndices (f : List ℕ → α) {s idx : List ℕ} (h : Valid s idx) : (ofIndices s f).get idx = some (f idx) := by
  simp [ofIndices, ND.get, indices_position h]

theorem wf_ofIndices (s : List ℕ) (f : List ℕ → α) : (ofIndices s f).WF := by
  simp [ND.WF, ofIndices, length_indices]

theorem get_map (f : α → β) (a : ND α) (idx : List ℕ) : (a.map f).get idx = (a.get idx).map f := by
  simp [ND.map, ND.get]

theorem wf_map (f : α → β) {a : ND α} (h : a.WF) : (a.map f).WF := by simpa [ND.WF, ND.map] using h

theorem get_some {a : ND α} (h : a.WF) {idx : List ℕ} (hi : Valid a.shape idx) : ∃ x, a.get idx = some x := by
  have : position a.shape idx < a.data.length := by rw [h]; exact position_lt hi
  exact ⟨_, List.getElem?_eq_getElem this⟩

theorem get_value {a : ND ℝ} (h : a.WF) {idx : List ℕ} (hi : Valid a.shape idx) : a.get idx = some (a.value idx) := by
  obtain ⟨x, hx⟩ := get_some h hi
  simp [ND.value, hx]

theorem map_position (s : List ℕ) : (indices s).map (position s) = List.range s.prod := by
  induction s with
  | nil => rfl
  | cons n s ih =>
    have h1 : ∀ n : ℕ, ((List.range n).flatMap fun i => (List.range s.prod).map fun x => i * s.prod + x) =
        List.range (n * s.prod) := by
      intro n
      induction n with
      | zero => simp
      | succ n ihn =>
        rw [List.range_succ, List.flatMap_append, ihn, Nat.succ_mul, List.range_add]
        simp
    rw [List.prod_cons, ← h1]
    simp only [indices, List.map_flatMap, List.map_map]
    congr 1
    funext i
    rw [← ih, List.map_map]
    rfl

/-- The values are those at all indices. -/
theorem data_eq {a : ND ℝ} (h : a.WF) : a.data = (indices a.shape).map a.value := by
  have h1 : (indices a.shape).map a.value = ((indices a.shape).map (position a.shape)).map fun n => (a.data[n]?).getD 0 := by
    rw [List.map_map]
    rfl
  rw [h1, map_position, ← h]
  apply List.ext_getElem
  · simp
  · intro n h1 h2
    simp [h1]

/-! ### Axes -/

theorem Valid.length {s idx : List ℕ} (h : Valid s idx) : idx.length = s.length := List.Forall₂.length_eq h

theorem valid_insert {s idx : List ℕ} {k j : ℕ} (hk : k < s.length) (h : Valid (s.eraseIdx k) idx) (hj : j < s.getD k 0) :
    Valid s (idx.insertIdx k j) := by
  induction k generalizing s idx with
  | zero =>
    obtain ⟨n, s, rfl⟩ := List.exists_cons_of_length_pos (by omega : 0 < s.length)
    exact List.Forall₂.cons (by simpa using hj) h
  | succ k ih =>
    obtain ⟨n, s, rfl⟩ := List.exists_cons_of_length_pos (by omega : 0 < s.length)
    rcases h with _ | ⟨hi, hl⟩
    exact List.Forall₂.cons hi (ih (by simpa using hk) hl (by simpa using hj))

theorem valid_erase {s idx : List ℕ} (k : ℕ) (h : Valid s idx) : Valid (s.eraseIdx k) (idx.eraseIdx k) := by
  induction k generalizing s idx with
  | zero => cases h with
    | nil => exact List.Forall₂.nil
    | cons _ h => exact h
  | succ k ih => cases h with
    | nil => exact List.Forall₂.nil
    | cons hi h => exact List.Forall₂.cons hi (ih h)

/-- Indices differ from that of a line by the place on the line. -/
theorem insert_erase {idx : List ℕ} {k : ℕ} (hk : k < idx.length) : (idx.eraseIdx k).insertIdx k (idx.getD k 0) = idx := by
  induction k generalizing idx with
  | zero =>
    obtain ⟨n, s, rfl⟩ := List.exists_cons_of_length_pos (by omega : 0 < idx.length)
    rfl
  | succ k ih =>
    obtain ⟨n, s, rfl⟩ := List.exists_cons_of_length_pos (by omega : 0 < idx.length)
    simpa using ih (by simpa using hk)

theorem position_insert_one {s idx : List ℕ} {k : ℕ} (hk : k ≤ s.length) (h : idx.length = s.length) :
    position (s.insertIdx k 1) (idx.insertIdx k 0) = position s idx := by
  induction k generalizing s idx with
  | zero => simp [position]
  | succ k ih =>
    obtain ⟨n, s, rfl⟩ := List.exists_cons_of_length_pos (by omega : 0 < s.length)
    obtain ⟨i, idx, rfl⟩ := List.exists_cons_of_length_pos (by simp at h; omega : 0 < idx.length)
    simp only [List.insertIdx_succ_cons, position]
    rw [ih (by simpa using hk) (by simpa using h)]
    congr 2
    rw [List.prod_insertIdx (by simpa using hk) fun _ _ => Commute.one_left _, one_mul]

/-- An axis given by its number or from the end. -/
def IsAxis (n : ℕ) (axis : ℤ) (k : ℕ) : Prop := k < n ∧ (axis = k ∨ axis = k - n)

theorem checkAxis_ok {n k : ℕ} {axis : ℤ} (h : IsAxis n axis k) : checkAxis n axis = .ok k := by
  obtain ⟨hk, rfl | rfl⟩ := h
  · simp [checkAxis, hk]
  · unfold checkAxis
    rw [if_neg (by omega), if_pos (by omega)]
    congr 1
    omega

theorem checkAxis_error {n : ℕ} {axis : ℤ} (h : ∀ k, ¬ IsAxis n axis k) : checkAxis n axis = .error .valueError := by
  unfold checkAxis
  rw [if_neg, if_neg]
  · exact fun ⟨h1, h2⟩ => h (axis + n).toNat ⟨by omega, Or.inr (by omega)⟩
  · exact fun ⟨h1, h2⟩ => h axis.toNat ⟨by omega, Or.inl (by omega)⟩

/-- The norm of the line of values along an axis: `idx` has the other indices. -/
noncomputable def lineNorm (a : ND ℝ) (k : ℕ) (idx : List ℕ) : ℝ :=
  Real.sqrt (∑ j ∈ range (a.shape.getD k 0), a.value (idx.insertIdx k j) ^ 2)

/-- The norm of all values. -/
noncomputable def totalNorm (a : ND ℝ) : ℝ := Real.sqrt ((indices a.shape).map fun idx => a.value idx ^ 2).sum

theorem sum_range_map (n : ℕ) (f : ℕ → ℝ) : ((List.range n).map f).sum = ∑ j ∈ range n, f j := by
  induction n with
  | zero => simp
  | succ n ih => rw [List.range_succ, List.map_append, List.sum_append, ih, sum_range_succ]; simp

theorem value_sq {a : ND ℝ} (h : a.WF) {idx : List ℕ} (hi : Valid a.shape idx) :
    ((a.map fun x => x * x).get idx).getD 0 = a.value idx ^ 2 := by
  rw [get_map, get_value h hi]
  simp [sq]

/-- Squares added along an axis. -/
theorem npSum_axis {a : ND ℝ} (h : a.WF) {axis : ℤ} {k : ℕ} (hk : IsAxis a.shape.length axis k) :
    ∃ s, npSum (a.map fun x => x * x) (some axis) = .ok s ∧ s.shape = a.shape.eraseIdx k ∧ s.WF ∧
      ∀ idx, Valid (a.shape.eraseIdx k) idx →
        s.get idx = some (∑ j ∈ range (a.shape.getD k 0), a.value (idx.insertIdx k j) ^ 2) := by
  refine ⟨_, ?_, rfl, wf_ofIndices _ fun idx =>
    ((List.range (a.shape.getD k 0)).map fun j => ((a.map fun x => x * x).get (idx.insertIdx k j)).getD 0).sum, ?_⟩
  · have hne : a.shape ≠ [] := by
      intro h0
      have := hk.1
      simp [h0] at this
    unfold npSum
    simp only [ND.map, hne, false_and, if_false, checkAxis_ok hk]
    rfl
  · intro idx hi
    rw [get_ofIndices _ hi, sum_range_map]
    congr 1
    apply sum_congr rfl
    intro j hj
    exact value_sq h (valid_insert hk.1 hi (mem_range.1 hj))

theorem npSum_error {a : ND ℝ} {axis : ℤ} (ha : a.shape ≠ []) (h : ∀ k, ¬ IsAxis a.shape.length axis k) :
    npSum a (some axis) = .error .valueError := by
  simp only [npSum, ha, false_and, if_false, checkAxis_error h]
  rfl

theorem sum_squares {a : ND ℝ} (h : a.WF) :
    (a.data.map fun x => x * x).sum = ((indices a.shape).map fun idx => a.value idx ^ 2).sum := by
  rw [data_eq h, List.map_map]
  congr 1
  apply List.map_congr_left
  intro idx _
  simp [sq]

/-- **C188** (vectors).  The norm of a vector is the square root of the sum of the squares of its values; the axis is not
looked at, even if there is no such axis. -/
theorem C188_norm_vector (a : ND ℝ) (h : a.WF) (n : ℕ) (hs : a.shape = [n]) (axis : Option ℤ) :
    vectorNorm a axis = .ok ⟨[], [Real.sqrt (∑ i ∈ range n, a.value [i] ^ 2)]⟩ := by
  unfold vectorNorm
  rw [if_pos (by simp [hs]), sum_squares h, hs]
  simp only [indices, List.map_cons, List.map_nil, ← List.map_eq_flatMap, List.map_map]
  rw [sum_range_map]
  rfl

/-- **C188** (norms along an axis).  In arrays with at least two dimensions there is one norm for each index without the
axis, that of the line of values along the axis. -/
theorem C188_norm_axis (a : ND ℝ) (h : a.WF) (hd : 2 ≤ a.shape.length) (axis : ℤ) (k : ℕ)
    (hk : IsAxis a.shape.length axis k) :
    ∃ r, vectorNorm a (some axis) = .ok r ∧ r.shape = a.shape.eraseIdx k ∧ r.WF ∧
      ∀ idx, Valid (a.shape.eraseIdx k) idx → r.get idx = some (lineNorm a k idx) := by
  obtain ⟨s, hs, hsh, hwf, hget⟩ := npSum_axis h hk
  have h1 : s.shape ≠ [] := by
    rw [hsh]
    intro h0
    have := congrArg List.length h0
    rw [List.length_eraseIdx_of_lt hk.1] at this
    simp at this
    omega
  have h2 : atleast1d s = s := by simp [atleast1d, h1]
  refine ⟨s.map Real.sqrt, ?_, hsh, wf_map _ hwf, ?_⟩
  · unfold vectorNorm
    rw [if_neg (by omega), hs]
    simp only [bind, Except.bind, h2]
    rfl
  · intro idx hi
    rw [get_map, hget idx hi]
    rfl

/-- **C188** (norms of all values).  Without axis, arrays which are not vectors have one norm in an array of length 1. -/
theorem C188_norm_all (a : ND ℝ) (h : a.WF) (hd : a.shape.length ≠ 1) :
    vectorNorm a none = .ok ⟨[1], [totalNorm a]⟩ := by
  unfold vectorNorm totalNorm
  rw [if_neg hd, ← sum_squares h]
  rfl

/-- **C188** (arrays without dimension).  Axes 0 and -1 are accepted for a number, whose norm is its absolute value, in an
array of length 1; other axes raise `ValueError`. -/
theorem C188_norm_scalar (x : ℝ) (axis : ℤ) :
    (axis = 0 ∨ axis = -1 → vectorNorm ⟨[], [x]⟩ (some axis) = .ok ⟨[1], [|x|]⟩) ∧
    (axis ≠ 0 → axis ≠ -1 → vectorNorm ⟨[], [x]⟩ (some axis) = .error .valueError) := by
  constructor
  · intro h
    unfold vectorNorm npSum
    rw [if_neg (by simp)]
    simp only [ND.map]
    rw [if_pos ⟨trivial, h⟩]
    simp [bind, Except.bind, pure, Except.pure, atleast1d, Real.sqrt_mul_self_eq_abs]
  · intro h1 h2
    unfold vectorNorm npSum
    rw [if_neg (by simp)]
    simp only [ND.map]
    rw [if_neg (by tauto)]
    have : checkAxis ([] : List ℕ).length axis = .error .valueError := by
      unfold checkAxis
      simp only [List.length_nil, Nat.cast_zero, neg_zero]
      rw [if_neg (by omega), if_neg (by omega)]
    rw [this]
    rfl

/-- **C188** (axes which do not exist).  `ValueError`, except for vectors. -/
theorem C188_norm_no_axis (a : ND ℝ) (hd : 2 ≤ a.shape.length) (axis : ℤ) (h : ∀ k, ¬ IsAxis a.shape.length axis k) :
    vectorNorm a (some axis) = .error .valueError ∧ unitVector a (some axis) = .error .valueError := by
  have h0 : (a.map fun x => x * x).shape ≠ [] := by
    intro h0
    have h2 : a.shape = [] := h0
    simp [h2] at hd
  have h1 := npSum_error (axis := axis) h0 h
  constructor
  · unfold vectorNorm
    rw [if_neg (by omega), h1]
    rfl
  · unfold unitVector normalize
    rw [if_neg (by omega), h1]
    rfl

/-- **C188** (norms with `out`).  The norms along an axis are written in `out` when it has the right shape, vectors
included; otherwise `out` is unchanged and `ValueError` is raised. -/
theorem C188_norm_out (a : ND ℝ) (h : a.WF) (axis : ℤ) (k : ℕ) (hk : IsAxis a.shape.length axis k) (out : ND ℝ) :
    (out.shape = a.shape.eraseIdx k → ∃ r, vectorNormOut a (some axis) out = (r, .ok ()) ∧ r.shape = out.shape ∧ r.WF ∧
      ∀ idx, Valid (a.shape.eraseIdx k) idx → r.get idx = some (lineNorm a k idx)) ∧
    (out.shape ≠ a.shape.eraseIdx k → vectorNormOut a (some axis) out = (out, .error .valueError)) := by
  obtain ⟨s, hs, hsh, hwf, hget⟩ := npSum_axis h hk
  unfold vectorNormOut
  rw [hs]
  constructor
  · intro ho
    refine ⟨s.map Real.sqrt, ?_, by rw [ho]; exact hsh, wf_map _ hwf, ?_⟩
    · simp [hsh, ho]
    · intro idx hi
      rw [get_map, hget idx hi]
      rfl
  · intro ho
    simp [hsh, Ne.symm ho]

/-! ### Normalisation -/

theorem reduceIndex_insert {s idx : List ℕ} {k : ℕ} (hk : k < s.length) (h : Valid s idx) :
    reduceIndex ((s.eraseIdx k).insertIdx k 1) idx = (idx.eraseIdx k).insertIdx k 0 := by
  have hl := h.length
  have h1 : ((s.eraseIdx k).insertIdx k 1).length = s.length := by
    rw [List.length_insertIdx_of_le_length (by rw [List.length_eraseIdx_of_lt hk]; omega), List.length_eraseIdx_of_lt hk]
    omega
  unfold reduceIndex
  rw [h1, hl, Nat.sub_self, List.drop_zero]
  clear h1 hl
  have same : ∀ {s idx : List ℕ}, Valid s idx → List.zipWith (fun n i => if n = 1 then 0 else i) s idx = idx := by
    intro s idx h
    induction h with
    | nil => rfl
    | @cons i n idx s hi _ ih =>
      simp only [List.zipWith_cons_cons, ih]
      congr 1
      split_ifs with h1
      · omega
      · rfl
  induction k generalizing s idx with
  | zero =>
    cases h with
    | nil => simp at hk
    | @cons i n idx s hi h => simpa using same h
  | succ k ih =>
    cases h with
    | nil => simp at hk
    | @cons i n idx s hi h =>
      simp only [List.eraseIdx_cons_succ, List.insertIdx_succ_cons, List.zipWith_cons_cons]
      rw [ih (by simpa using hk) h]
      congr 1
      split_ifs with h1
      · omega
      · rfl

theorem fits_insert {s : List ℕ} {k : ℕ} (hk : k < s.length) : fits ((s.eraseIdx k).insertIdx k 1) s = true := by
  have h1 : ((s.eraseIdx k).insertIdx k 1).length = s.length := by
    rw [List.length_insertIdx_of_le_length (by rw [List.length_eraseIdx_of_lt hk]; omega), List.length_eraseIdx_of_lt hk]
    omega
  unfold fits
  rw [h1, ← List.reverse_zipWith h1]
  simp only [le_refl, decide_true, Bool.true_and, List.all_reverse]
  clear h1
  have same : ∀ s : List ℕ, (List.zipWith (fun n m => n == m || n == 1) s s).all id = true := by
    intro s
    induction s with
    | nil => rfl
    | cons n s ih => simp
  induction k generalizing s with
  | zero =>
    obtain ⟨n, s, rfl⟩ := List.exists_cons_of_length_pos (by omega : 0 < s.length)
    simp
  | succ k ih =>
    obtain ⟨n, s, rfl⟩ := List.exists_cons_of_length_pos (by omega : 0 < s.length)
    have := ih (s := s) (by simpa using hk)
    simpa using this

theorem get_zipWith {a : ND ℝ} {b : ND ℝ} (hb : b.shape = a.shape) (idx : List ℕ) {x y : ℝ} (hx : a.get idx = some x)
    (hy : b.get idx = some y) : (⟨a.shape, List.zipWith divide a.data b.data⟩ : ND (Option ℝ)).get idx = some (divide x y) := by
  unfold ND.get at *
  rw [hb] at hy
  simp [List.getElem?_zipWith, hx, hy]

theorem wf_zipWith {a b : ND ℝ} (ha : a.WF) (hb : b.WF) (h : b.shape = a.shape) :
    (⟨a.shape, List.zipWith divide a.data b.data⟩ : ND (Option ℝ)).WF := by
  unfold ND.WF at *
  simp only [List.length_zipWith, ha, hb, h, min_self]

/-- What is left of a value once divided by the norm: `nan` when it is null. -/
noncomputable def scaled (x norm : ℝ) : Option ℝ := if norm = 0 then none else some (x / norm)

theorem normalize_axis {a : ND ℝ} (h : a.WF) (hd : 2 ≤ a.shape.length) {axis : ℤ} {k : ℕ}
    (hk : IsAxis a.shape.length axis k) :
    ∃ r, normalize a (some axis) = .ok r ∧ r.shape = a.shape ∧ r.WF ∧
      ∀ idx, Valid a.shape idx → r.get idx = some (scaled (a.value idx) (lineNorm a k (idx.eraseIdx k))) := by
  obtain ⟨s, hs, hsh, hwf, hget⟩ := npSum_axis h hk
  have hlen : (a.shape.eraseIdx k).length + 1 = a.shape.length := by rw [List.length_eraseIdx_of_lt hk.1]; omega
  have h1 : s.shape ≠ [] := by
    rw [hsh]
    intro h0
    rw [h0] at hlen
    simp at hlen
    omega
  have h2 : atleast1d s = s := by simp [atleast1d, h1]
  let e : ND ℝ := ⟨(a.shape.eraseIdx k).insertIdx k 1, s.data.map Real.sqrt⟩
  have he : expandDims (s.map Real.sqrt) axis = .ok e := by
    have : checkAxis ((s.map Real.sqrt).shape.length + 1) axis = .ok k := by
      apply checkAxis_ok
      show IsAxis (s.shape.length + 1) axis k
      rw [hsh, hlen]
      exact hk
    unfold expandDims
    rw [this]
    simp only [bind, Except.bind, e, ND.map, hsh]
    rfl
  let b : ND ℝ := ofIndices a.shape fun idx => (e.get (reduceIndex e.shape idx)).getD default
  have hb : broadcastTo e a.shape = .ok b := by
    unfold broadcastTo
    rw [if_pos (fits_insert hk.1)]
  refine ⟨⟨a.shape, List.zipWith divide a.data b.data⟩, ?_, rfl, wf_zipWith h (wf_ofIndices _ _) rfl, ?_⟩
  · unfold normalize
    rw [hs]
    simp only [bind, Except.bind, h2, he, idiv, hb]
    rfl
  · intro idx hi
    rw [get_zipWith (a := a) (b := b) rfl idx (get_value h hi) (get_ofIndices _ hi)]
    have h3 : e.get (reduceIndex e.shape idx) = some (lineNorm a k (idx.eraseIdx k)) := by
      have h4 := hget _ (valid_erase k hi)
      show e.get (reduceIndex ((a.shape.eraseIdx k).insertIdx k 1) idx) = _
      rw [reduceIndex_insert hk.1 hi]
      unfold ND.get at h4 ⊢
      rw [hsh] at h4
      show (s.data.map Real.sqrt)[position ((a.shape.eraseIdx k).insertIdx k 1) ((idx.eraseIdx k).insertIdx k 0)]? = _
      rw [position_insert_one (by have := hk.1; omega) (valid_erase k hi).length, List.getElem?_map, h4]
      rfl
    rw [h3]
    rfl

theorem totalNorm_eq {a : ND ℝ} (h : a.WF) : totalNorm a = Real.sqrt (a.data.map fun x => x * x).sum := by
  unfold totalNorm
  rw [sum_squares h]

theorem normalize_all {a : ND ℝ} (h : a.WF) (hd : a.shape ≠ []) :
    ∃ r, normalize a none = .ok r ∧ r.shape = a.shape ∧ r.WF ∧
      ∀ idx, Valid a.shape idx → r.get idx = some (scaled (a.value idx) (totalNorm a)) := by
  let e : ND ℝ := ⟨[1], [totalNorm a]⟩
  let b : ND ℝ := ofIndices a.shape fun idx => (e.get (reduceIndex e.shape idx)).getD default
  have hb : broadcastTo e a.shape = .ok b := by
    unfold broadcastTo
    rw [if_pos]
    have : 1 ≤ a.shape.length := List.length_pos_iff.2 hd
    obtain ⟨l, n, hn⟩ := List.eq_nil_or_concat a.shape |>.resolve_left hd
    simp [fits, e, hn]
  refine ⟨⟨a.shape, List.zipWith divide a.data b.data⟩, ?_, rfl, wf_zipWith h (wf_ofIndices _ _) rfl, ?_⟩
  · unfold normalize
    have h1 : (atleast1d (⟨[], [(a.data.map fun x => x * x).sum]⟩ : ND ℝ)).map Real.sqrt = e := by
      simp [atleast1d, ND.map, e, totalNorm_eq h]
    simp only [npSum, bind, Except.bind, pure, Except.pure]
    rw [show (ND.map (fun x => x * x) a).data = a.data.map fun x => x * x from rfl, h1]
    simp only [idiv, hb, bind, Except.bind]
    rfl
  · intro idx hi
    rw [get_zipWith (a := a) (b := b) rfl idx (get_value h hi) (get_ofIndices _ hi)]
    have h3 : e.get (reduceIndex e.shape idx) = some (totalNorm a) := by
      have h4 : 1 ≤ idx.length := by
        rw [hi.length]
        exact List.length_pos_iff.2 hd
      obtain ⟨l, n, hn⟩ := List.eq_nil_or_concat idx |>.resolve_left (List.length_pos_iff.1 h4)
      simp [reduceIndex, e, hn, ND.get, position]
    rw [h3]
    rfl

theorem idiv_error {a b : ND ℝ} (h : a.shape.length < b.shape.length) : idiv a b = .error .valueError := by
  unfold idiv broadcastTo fits
  have : ¬ b.shape.length ≤ a.shape.length := by omega
  simp only [this, decide_false, Bool.false_and]
  rfl

theorem normalize_scalar {a : ND ℝ} (hs : a.shape = []) (axis : Option ℤ) : normalize a axis = .error .valueError := by
  have hm : (a.map fun x => x * x).shape = [] := hs
  unfold normalize npSum
  rcases axis with _ | axis
  · simp only [bind, Except.bind, pure, Except.pure]
    exact idiv_error (by simp [hs, atleast1d, ND.map])
  · simp only [hm, true_and]
    split_ifs with h
    · simp only [bind, Except.bind, atleast1d, if_true, ND.map, expandDims]
      have hc : checkAxis ([1].length + 1) axis = .ok (if axis = 0 then 0 else 1) := by
        rcases h with rfl | rfl <;> rfl
      rw [hc]
      refine idiv_error ?_
      rw [hs]
      split_ifs <;> simp
    · rw [checkAxis_error]
      · rfl
      · rintro k ⟨hk, _⟩
        simp at hk

/-- **C188** (vectors).  A vector is divided by its norm; the axis is not looked at. -/
theorem C188_unit_vector (a : ND ℝ) (h : a.WF) (n : ℕ) (hs : a.shape = [n]) (axis : Option ℤ) :
    ∃ r, unitVector a axis = .ok r ∧ r.shape = [n] ∧ r.WF ∧
      ∀ i < n, r.get [i] = some (scaled (a.value [i]) (Real.sqrt (∑ i ∈ range n, a.value [i] ^ 2))) := by
  have h1 : Real.sqrt (∑ i ∈ range n, a.value [i] ^ 2) = Real.sqrt (a.data.map fun x => x * x).sum := by
    rw [sum_squares h, hs]
    simp only [indices, List.map_cons, List.map_nil, ← List.map_eq_flatMap, List.map_map]
    rw [sum_range_map]
    rfl
  refine ⟨_, by unfold unitVector; rw [if_pos (by simp [hs])], hs, wf_map _ h, ?_⟩
  intro i hi
  have hv : Valid a.shape [i] := by rw [hs]; exact List.Forall₂.cons hi List.Forall₂.nil
  rw [get_map, get_value h hv, h1]
  rfl

/-- **C188** (normalisation along an axis).  Each value is divided by the norm of its line. -/
theorem C188_unit_axis (a : ND ℝ) (h : a.WF) (hd : 2 ≤ a.shape.length) (axis : ℤ) (k : ℕ)
    (hk : IsAxis a.shape.length axis k) :
    ∃ r, unitVector a (some axis) = .ok r ∧ r.shape = a.shape ∧ r.WF ∧
      ∀ idx, Valid a.shape idx → r.get idx = some (scaled (a.value idx) (lineNorm a k (idx.eraseIdx k))) := by
  unfold unitVector
  rw [if_neg (by omega)]
  exact normalize_axis h hd hk

/-- **C188** (normalisation of all values).  Without axis, each value is divided by the norm of all; an array without
dimension raises `ValueError`. -/
theorem C188_unit_all (a : ND ℝ) (h : a.WF) :
    (2 ≤ a.shape.length → ∃ r, unitVector a none = .ok r ∧ r.shape = a.shape ∧ r.WF ∧
      ∀ idx, Valid a.shape idx → r.get idx = some (scaled (a.value idx) (totalNorm a))) ∧
    (a.shape = [] → ∀ axis, unitVector a axis = .error .valueError) := by
  constructor
  · intro hd
    unfold unitVector
    rw [if_neg (by omega)]
    exact normalize_all h (by intro h0; simp [h0] at hd)
  · intro hs axis
    unfold unitVector
    rw [if_neg (by simp [hs])]
    exact normalize_scalar hs axis

/-- **C188** (norms of what is normalised).  Lines along the axis have norm 1 when they were not null, and are `nan`
otherwise. -/
theorem C188_unit_norm (a : ND ℝ) (h : a.WF) (hd : 2 ≤ a.shape.length) (axis : ℤ) (k : ℕ)
    (hk : IsAxis a.shape.length axis k) (r : ND (Option ℝ)) (hr : unitVector a (some axis) = .ok r) (idx : List ℕ)
    (hi : Valid (a.shape.eraseIdx k) idx) :
    ((∃ j < a.shape.getD k 0, a.value (idx.insertIdx k j) ≠ 0) → ∃ v : ℕ → ℝ,
      (∀ j < a.shape.getD k 0, r.get (idx.insertIdx k j) = some (some (v j))) ∧
      ∑ j ∈ range (a.shape.getD k 0), v j ^ 2 = 1) ∧
    ((∀ j < a.shape.getD k 0, a.value (idx.insertIdx k j) = 0) →
      ∀ j < a.shape.getD k 0, r.get (idx.insertIdx k j) = some none) := by
  obtain ⟨r', hr', -, -, hget⟩ := C188_unit_axis a h hd axis k hk
  obtain rfl : r' = r := by rw [hr] at hr'; exact (Except.ok.inj hr').symm
  have hg : ∀ j < a.shape.getD k 0, r'.get (idx.insertIdx k j) =
      some (scaled (a.value (idx.insertIdx k j)) (lineNorm a k idx)) := by
    intro j hj
    rw [hget _ (valid_insert hk.1 hi hj), List.eraseIdx_insertIdx_self]
  have hnn : 0 ≤ ∑ j ∈ range (a.shape.getD k 0), a.value (idx.insertIdx k j) ^ 2 := sum_nonneg fun _ _ => sq_nonneg _
  constructor
  · rintro ⟨j, hj, hne⟩
    have hpos : 0 < ∑ j ∈ range (a.shape.getD k 0), a.value (idx.insertIdx k j) ^ 2 :=
      sum_pos' (fun _ _ => sq_nonneg _) ⟨j, mem_range.2 hj, by positivity⟩
    have hne : lineNorm a k idx ≠ 0 := (Real.sqrt_pos.2 hpos).ne'
    refine ⟨fun j => a.value (idx.insertIdx k j) / lineNorm a k idx, ?_, ?_⟩
    · intro j hj
      rw [hg j hj]
      simp [scaled, hne]
    · simp only [div_pow, ← sum_div]
      have : lineNorm a k idx ^ 2 = ∑ j ∈ range (a.shape.getD k 0), a.value (idx.insertIdx k j) ^ 2 := Real.sq_sqrt hnn
      rw [this]
      exact div_self hpos.ne'
  · intro h0 j hj
    have hz : lineNorm a k idx = 0 := by
      unfold lineNorm
      rw [sum_eq_zero, Real.sqrt_zero]
      intro j hj
      rw [h0 j (mem_range.1 hj)]
      simp
    rw [hg j hj]
    simp [scaled, hz]

/-! ### `out` -/

theorem reduceIndex_self {s idx : List ℕ} (h : Valid s idx) : reduceIndex s idx = idx := by
  unfold reduceIndex
  rw [h.length, Nat.sub_self, List.drop_zero]
  induction h with
  | nil => rfl
  | @cons i n idx s hi _ ih =>
    simp only [List.zipWith_cons_cons, ih]
    congr 1
    split_ifs with h1
    · omega
    · rfl

theorem fits_self (s : List ℕ) : fits s s = true := by
  have same : ∀ s : List ℕ, (List.zipWith (fun n m => n == m || n == 1) s s).all id = true := by
    intro s
    induction s with
    | nil => rfl
    | cons n s ih => simp
  simp only [fits, le_refl, decide_true, Bool.true_and]
  exact same _

theorem stripOnes_self (s : List ℕ) : stripOnes s.length s = s := by
  cases s with
  | nil => rfl
  | cons n s => simp [stripOnes]

theorem broadcastTo_self {a : ND ℝ} (h : a.WF) : broadcastTo a a.shape = .ok a := by
  unfold broadcastTo
  rw [if_pos (fits_self _)]
  congr 1
  unfold ofIndices
  have h1 : (indices a.shape).map (fun idx => (a.get (reduceIndex a.shape idx)).getD default) = a.data := by
    rw [data_eq h]
    apply List.map_congr_left
    intro idx hi
    have hv := mem_indices.1 hi
    rw [reduceIndex_self hv, get_value h hv]
    rfl
  rw [h1]

theorem assign_same {out a : ND ℝ} (h : a.WF) (hs : a.shape = out.shape) (hne : out.shape ≠ []) : assign out a = .ok a := by
  unfold assign
  rw [if_neg hne, ← hs, stripOnes_self]
  exact broadcastTo_self h

/-- **C188** (normalisation in `out`).  For arrays with at least two dimensions, `out` has what would be returned, for
data of the same shape or for `out` itself; in case of an error it has the data. -/
theorem C188_unit_out (a : ND ℝ) (h : a.WF) (hd : 2 ≤ a.shape.length) (axis : Option ℤ) :
    (∀ r, unitVector a axis = .ok r →
      unitVectorOut none axis a = (r, .ok ()) ∧
      ∀ out : ND ℝ, out.shape = a.shape → unitVectorOut (some a) axis out = (r, .ok ())) ∧
    (∀ e, unitVector a axis = .error e →
      unitVectorOut none axis a = (a.map some, .error e) ∧
      ∀ out : ND ℝ, out.shape = a.shape → unitVectorOut (some a) axis out = (a.map some, .error e)) := by
  have hu : unitVector a axis = normalize a axis := by
    unfold unitVector
    rw [if_neg (by omega)]
  rw [hu]
  have hn : ∀ out : ND ℝ, out.shape = a.shape → assign out a = .ok a := fun out ho =>
    assign_same h ho.symm (by rw [ho]; intro h0; simp [h0] at hd)
  constructor
  · intro r hr
    refine ⟨by simp [unitVectorOut, hr], fun out ho => ?_⟩
    simp [unitVectorOut, hn out ho, hr]
  · intro e he
    refine ⟨by simp [unitVectorOut, he], fun out ho => ?_⟩
    simp [unitVectorOut, hn out ho, he]

/-- **C188** (vectors in `out`).  Without axis, `out` is the vector divided by its norm; with an axis, even the only one,
the vector is copied in `out` and `ValueError` is raised. -/
theorem C188_unit_out_vector (a : ND ℝ) (h : a.WF) (n : ℕ) (hs : a.shape = [n]) (out : ND ℝ) (ho : out.shape = [n]) :
    (∃ r, unitVectorOut (some a) none out = (r, .ok ()) ∧ r.shape = [n] ∧ r.WF ∧
      ∀ i < n, r.get [i] = some (scaled (a.value [i]) (Real.sqrt (∑ i ∈ range n, a.value [i] ^ 2)))) ∧
    ∀ axis : ℤ, unitVectorOut (some a) (some axis) out = (a.map some, .error .valueError) := by
  have hn : assign out a = .ok a := assign_same h (by rw [hs, ho]) (by simp [ho])
  constructor
  · obtain ⟨r, hr, hrs, hwf, hget⟩ := normalize_all h (by simp [hs])
    refine ⟨r, by simp [unitVectorOut, hn, hr], by rw [hrs, hs], hwf, fun i hi => ?_⟩
    rw [hget [i] (by rw [hs]; exact List.Forall₂.cons hi List.Forall₂.nil)]
    unfold totalNorm
    rw [hs]
    simp only [indices, List.map_cons, List.map_nil, ← List.map_eq_flatMap, List.map_map]
    rw [sum_range_map]
    rfl
  · intro axis
    have hz : normalize a (some axis) = .error .valueError := by
      have hne : (a.map fun x => x * x).shape ≠ [] := by simp [ND.map, hs]
      by_cases hax : IsAxis 1 axis 0
      · obtain ⟨s, hsum, hsh, -, -⟩ := npSum_axis h (axis := axis) (k := 0) (by rw [hs]; exact hax)
        have hsh : s.shape = [] := by rw [hsh, hs]; rfl
        unfold normalize
        rw [hsum]
        simp only [bind, Except.bind]
        have h1 : (atleast1d s).map Real.sqrt = ⟨[1], s.data.map Real.sqrt⟩ := by simp [atleast1d, hsh, ND.map]
        rw [h1]
        have h2 : ∃ k ≤ 1, checkAxis ([1].length + 1) axis = .ok k := by
          obtain ⟨-, rfl | rfl⟩ := hax
          · exact ⟨0, by omega, rfl⟩
          · exact ⟨1, by omega, rfl⟩
        obtain ⟨k, hk, hc⟩ := h2
        simp only [expandDims, hc, bind, Except.bind, pure, Except.pure]
        apply idiv_error
        rw [hs]
        show 1 < (List.insertIdx [1] k 1).length
        rw [List.length_insertIdx_of_le_length (by simpa using hk)]
        simp
      · have := npSum_error (axis := axis) hne (by
          rintro k hk
          have hl : (a.map fun x => x * x).shape.length = 1 := by simp [ND.map, hs]
          rw [hl] at hk
          obtain rfl : k = 0 := by have := hk.1; omega
          exact hax hk)
        unfold normalize
        rw [this]
        rfl
    simp [unitVectorOut, hn, hz]

/-- **C188** (data of another shape).  When some dimension of data is neither that of `out` nor 1, `out` is unchanged and
`ValueError` is raised. -/
theorem C188_unit_out_shape (a out : ND ℝ) (axis : Option ℤ) (hl : a.shape.length = out.shape.length)
    (h : ∃ i < a.shape.length, a.shape.getD i 0 ≠ out.shape.getD i 0 ∧ a.shape.getD i 0 ≠ 1) :
    unitVectorOut (some a) axis out = (out.map some, .error .valueError) := by
  have hne : out.shape ≠ [] := by
    rintro h0
    obtain ⟨i, hi, -⟩ := h
    rw [hl, h0] at hi
    simp at hi
  have hf : fits a.shape out.shape = false := by
    unfold fits
    rw [← List.reverse_zipWith hl, List.all_reverse, Bool.and_eq_false_iff]
    right
    rw [List.all_eq_false]
    obtain ⟨i, hi, h1, h2⟩ := h
    have hi' : i < out.shape.length := by omega
    simp only [List.getD_eq_getElem?_getD, List.getElem?_eq_getElem hi, List.getElem?_eq_getElem hi', Option.getD_some] at h1 h2
    refine ⟨(a.shape[i] == out.shape[i] || a.shape[i] == 1), ?_, by simp [h1, h2]⟩
    rw [List.mem_iff_getElem]
    exact ⟨i, by simp [hi, hi'], by simp⟩
  have : assign out a = .error .valueError := by
    unfold assign broadcastTo
    rw [if_neg hne, ← hl, stripOnes_self]
    simp [hf]
  simp [unitVectorOut, this]

end Verif.NDArray
