import Verif.Sklearn.Model
import Mathlib.Algebra.BigOperators.Group.List.Basic

/-!
# Properties of `multimodal/lib/sklearn_utils.py` (C165)
-/

namespace Verif.Sklearn

/-- The stored values of an array or of a sparse matrix. -/
def Input.values : Input → List Flt
  | .dense a => a.data
  | .sparse s => s.entries.map Prod.snd

/-- Type of data. -/
def Input.dtype : Input → DType
  | .dense a => a.dtype
  | .sparse s => s.dtype

/-- **C165**: `assert_all_finite` raises `ValueError` exactly on data of a type of floats with an infinity
or `nan`, whatever the way in which the sum overflows. -/
theorem C165_finite (E : Env) (hE : E.OK) (x : Input) :
    assertAllFinite E x = if x.dtype.float = true ∧ ∃ v ∈ x.values, v.isFinite = false then
      .error .valueError else .ok () := by
  have key : ∀ (f : Bool) (l : List Flt), ((f && !(E.sum l).isFinite && !(l.all Flt.isFinite)) = true) ↔
      (f = true ∧ ∃ v ∈ l, v.isFinite = false) := by
    intro f l
    have h1 : (!(l.all Flt.isFinite)) = true ↔ ∃ v ∈ l, v.isFinite = false := by simp
    rw [Bool.and_eq_true, Bool.and_eq_true, h1]
    constructor
    · rintro ⟨⟨a, -⟩, b⟩
      exact ⟨a, b⟩
    · rintro ⟨a, b⟩
      exact ⟨⟨a, by rw [hE.sum l b]; rfl⟩, b⟩
  cases x with
  | dense a =>
    unfold assertAllFinite
    simp only [key]
    rfl
  | sparse s =>
    unfold assertAllFinite
    simp only [key]
    rfl

/-- The dimensions of the result: a number is a matrix of one value, a vector is a line. -/
def dims2 : List ℕ → List ℕ
  | [] => [1, 1]
  | [n] => [1, n]
  | l => l

theorem atleast2d_spec (a : Arr) : (atleast2d a).shape = dims2 a.shape ∧ (atleast2d a).data = a.data ∧
    (atleast2d a).dtype = a.dtype ∧ (atleast2d a).isMatrix = a.isMatrix ∧
    (atleast2d a).contigC = a.contigC ∧ (atleast2d a).contigF = a.contigF ∧
    (atleast2d a).shares = a.shares ∧
    ((atleast2d a).same = true ↔ a.same = true ∧ 2 ≤ a.shape.length) := by
  unfold atleast2d dims2
  rcases h : a.shape with _ | ⟨n, _ | ⟨m, l⟩⟩
  · simp
  · simp
  · refine ⟨?_, rfl, rfl, rfl, rfl, rfl, rfl, ?_⟩
    · simp only [h]
    · simp

/-- **C165**: `array2d` refuses sparse matrices; of an array it gives one with at least two dimensions, with
the same values in the same order (converted, if a type is asked for), of the type asked for. -/
theorem C165_array2d (E : Env) (hE : E.OK) (x : Input) (dtype : Option DType) (order : Option Order)
    (copy : Bool) :
    (∀ s, x = .sparse s → array2d E x dtype order copy = .error .typeError) ∧
    ∀ a, x = .dense a → ∃ r, array2d E x dtype order copy = .ok r ∧ r.shape = dims2 a.shape ∧
      r.dtype = dtype.getD a.dtype ∧ r.isMatrix = false ∧
      r.data = a.data.map (E.cast a.dtype (dtype.getD a.dtype)) ∧
      (order = some .c → r.contigC = true) ∧ (order = some .f → r.contigF = true) := by
  constructor
  · rintro s rfl
    rfl
  · rintro a rfl
    obtain ⟨h1, h2, h3, h4, h5, h6, h7, h8⟩ := atleast2d_spec a
    have hcast : ∀ l : List Flt, l.map (E.cast a.dtype a.dtype) = l := by
      intro l
      rw [List.map_congr_left (g := id) (fun v _ => hE.cast _ v), List.map_id]
    refine ⟨_, rfl, ?_⟩
    have hc : ∀ r : Arr, (if (r.same && copy) = true then safeCopy r else r).shape = r.shape ∧
        (if (r.same && copy) = true then safeCopy r else r).dtype = r.dtype ∧
        (if (r.same && copy) = true then safeCopy r else r).isMatrix = r.isMatrix ∧
        (if (r.same && copy) = true then safeCopy r else r).data = r.data ∧
        (if (r.same && copy) = true then safeCopy r else r).contigC = r.contigC ∧
        (if (r.same && copy) = true then safeCopy r else r).contigF = r.contigF := by
      intro r
      split_ifs <;> simp [safeCopy]
    obtain ⟨c1, c2, c3, c4, c5, c6⟩ := hc (asarray E (atleast2d a) dtype order)
    rw [c1, c2, c3, c4, c5, c6]
    unfold asarray
    simp only [h3]
    by_cases hk : dtype.getD a.dtype = a.dtype ∧ hasOrder (atleast2d a) order = true
    · rw [if_pos hk, hk.1, hcast]
      have ho := hk.2
      have ho1 : order = some .c → (atleast2d a).contigC = true := by
        rintro rfl
        exact ho
      have ho2 : order = some .f → (atleast2d a).contigF = true := by
        rintro rfl
        exact ho
      by_cases hm : (atleast2d a).isMatrix = true
      · rw [if_pos hm]
        exact ⟨h1, rfl, rfl, h2, ho1, ho2⟩
      · rw [if_neg hm]
        exact ⟨h1, h3, by simpa using hm, h2, ho1, ho2⟩
    · rw [if_neg hk]
      refine ⟨h1, rfl, rfl, by rw [h2], ?_, ?_⟩
      · rintro rfl
        rfl
      · rintro rfl
        rfl

/-- **C165**: the result is the array which was given, and not another object, exactly without `copy`, for an array with two
dimensions or more which is no `np.matrix`, of the type and the order asked for. -/
theorem C165_same (E : Env) (a : Arr) (hs : a.same = true) (dtype : Option DType) (order : Option Order) (copy : Bool) :
    ∃ r, array2d E (.dense a) dtype order copy = .ok r ∧
      (r.same = true ↔ copy = false ∧ 2 ≤ a.shape.length ∧ a.isMatrix = false ∧ (dtype = none ∨ dtype = some a.dtype) ∧
        (order = some .c → a.contigC = true) ∧ (order = some .f → a.contigF = true)) := by
  obtain ⟨h1, h2, h3, h4, h5, h6, h7, h8⟩ := atleast2d_spec a
  refine ⟨_, rfl, ?_⟩
  have ht : dtype.getD a.dtype = a.dtype ↔ dtype = none ∨ dtype = some a.dtype := by
    cases dtype <;> simp
  have ho : hasOrder (atleast2d a) order = true ↔
      (order = some .c → a.contigC = true) ∧ (order = some .f → a.contigF = true) := by
    rcases order with _ | ⟨_ | _⟩ <;> simp [hasOrder, h5, h6]
  unfold asarray
  simp only [h3]
  by_cases hk : dtype.getD a.dtype = a.dtype ∧ hasOrder (atleast2d a) order = true
  · rw [if_pos hk]
    rw [ht, ho] at hk
    by_cases hm : (atleast2d a).isMatrix = true
    · rw [if_pos hm]
      rw [h4] at hm
      simp [hm]
    · rw [if_neg hm]
      rw [h4] at hm
      have hm' : a.isMatrix = false := by simpa using hm
      by_cases hc : ((atleast2d a).same && copy) = true
      · rw [if_pos hc]
        rw [Bool.and_eq_true] at hc
        simp [safeCopy, hc.2]
      · rw [if_neg hc]
        rw [Bool.and_eq_true, not_and] at hc
        rw [h8]
        constructor
        · rintro ⟨-, hl⟩
          refine ⟨?_, by omega, hm', hk.1, hk.2.1, hk.2.2⟩
          simpa using hc (h8.2 ⟨hs, hl⟩)
        · rintro ⟨-, hl, -⟩
          exact ⟨hs, by omega⟩
  · rw [if_neg hk]
    rw [ht, ho] at hk
    simp only [Bool.false_and, Bool.false_eq_true, if_false, false_iff]
    rintro ⟨-, -, -, g1, g2, g3⟩
    exact hk ⟨g1, g2, g3⟩

/-- **C165**: which results share the memory of the array which is given: with `copy`, still vectors,
numbers and instances of `np.matrix` the type and order of which are right, of which a view is given. -/
theorem C165_copy (E : Env) (a : Arr) (hs : a.same = true) (hsh : a.shares = true)
    (dtype : Option DType) (order : Option Order) (copy : Bool) :
    ∃ r, array2d E (.dense a) dtype order copy = .ok r ∧
      (r.shares = true ↔ (dtype = none ∨ dtype = some a.dtype) ∧
        (order = some .c → a.contigC = true) ∧ (order = some .f → a.contigF = true) ∧
        (copy = true → a.shape.length < 2 ∨ a.isMatrix = true)) := by
  obtain ⟨h1, h2, h3, h4, h5, h6, h7, h8⟩ := atleast2d_spec a
  refine ⟨_, rfl, ?_⟩
  have ht : dtype.getD a.dtype = a.dtype ↔ dtype = none ∨ dtype = some a.dtype := by
    cases dtype <;> simp
  have ho : hasOrder (atleast2d a) order = true ↔
      (order = some .c → a.contigC = true) ∧ (order = some .f → a.contigF = true) := by
    rcases order with _ | ⟨_ | _⟩ <;> simp [hasOrder, h5, h6]
  unfold asarray
  simp only [h3]
  by_cases hk : dtype.getD a.dtype = a.dtype ∧ hasOrder (atleast2d a) order = true
  · rw [if_pos hk]
    rw [ht, ho] at hk
    by_cases hm : (atleast2d a).isMatrix = true
    · rw [if_pos hm]
      rw [h4] at hm
      simp only [Bool.false_and, Bool.false_eq_true, if_false, h7, hsh, hm, or_true, implies_true, and_true,
        true_iff]
      exact ⟨hk.1, hk.2.1, hk.2.2⟩
    · rw [if_neg hm]
      rw [h4] at hm
      by_cases hc : ((atleast2d a).same && copy) = true
      · rw [if_pos hc]
        rw [Bool.and_eq_true, h8] at hc
        simp only [safeCopy, Bool.false_eq_true, false_iff]
        rintro ⟨-, -, -, h⟩
        rcases h hc.2 with h | h
        · omega
        · exact hm h
      · rw [if_neg hc]
        simp only [h7, hsh, true_iff]
        refine ⟨hk.1, hk.2.1, hk.2.2, fun hcp => ?_⟩
        rw [Bool.and_eq_true, h8] at hc
        left
        by_contra hl
        exact hc ⟨⟨hs, by omega⟩, hcp⟩
  · rw [if_neg hk]
    rw [ht, ho] at hk
    simp only [Bool.false_and, Bool.false_eq_true, if_false, false_iff]
    rintro ⟨h1, h2, h3, -⟩
    exact hk ⟨h1, h2, h3⟩

/-- **C165**: so an array which is asked to be copied may share its memory. -/
theorem C165_copy_shares : ∃ (a : Arr) (r : Arr), ∀ E, array2d E (.dense a) none none true = .ok r ∧
    a.shares = true ∧ r.shares = true :=
  ⟨⟨⟨"float64", true⟩, [2], [.fin 1, .fin 2], true, true, false, true, true⟩,
   ⟨⟨"float64", true⟩, [1, 2], [.fin 1, .fin 2], true, true, false, false, true⟩, fun _ => ⟨rfl, rfl, rfl⟩⟩

/-- **C165**: what `atleast2d_or_csr` accepts and gives: sparse matrices stay sparse, with the same values at
the same positions, in CSR format; arrays become as in `array2d`; `ValueError` exactly if an infinity or
`nan` is left. -/
theorem C165_atleast2d (E : Env) (hE : E.OK) (dtype : Option DType) (order : Option Order) (copy : Bool) :
    (∀ s, ∃ r : Sp, r.csr = true ∧ r.rows = s.rows ∧ r.cols = s.cols ∧ r.dtype = dtype.getD s.dtype ∧
      r.entries.Perm (s.entries.map fun e => (e.1, E.cast s.dtype (dtype.getD s.dtype) e.2)) ∧
      atleast2dOrCsr E (.sparse s) dtype order copy =
        if r.dtype.float = true ∧ ∃ e ∈ r.entries, e.2.isFinite = false then .error .valueError
        else .ok (.sparse r)) ∧
    ∀ a, ∃ r, array2d E (.dense a) dtype order copy = .ok r ∧
      atleast2dOrCsr E (.dense a) dtype order copy =
        if r.dtype.float = true ∧ ∃ v ∈ r.data, v.isFinite = false then .error .valueError
        else .ok (.dense r) := by
  have hif : ∀ (p : Prop) [Decidable p] (x : Input),
      ((if p then Except.error PyErr.valueError else Except.ok () : Py Unit).bind fun _ => Except.ok x) =
      if p then Except.error PyErr.valueError else Except.ok x := by
    intro p _ x
    split_ifs <;> rfl
  have hval : ∀ r : Sp, (∃ v ∈ (Input.sparse r).values, v.isFinite = false) ↔
      ∃ e ∈ r.entries, e.2.isFinite = false := by
    intro r
    unfold Input.values
    simp only [List.mem_map, exists_exists_and_eq_and]
  constructor
  · intro s
    have hcsr : (toCsr s).csr = true ∧ (toCsr s).rows = s.rows ∧ (toCsr s).cols = s.cols ∧
        (toCsr s).dtype = s.dtype ∧ (toCsr s).entries.Perm s.entries := by
      unfold toCsr
      split_ifs with h
      · exact ⟨h, rfl, rfl, rfl, List.Perm.refl _⟩
      · exact ⟨rfl, rfl, rfl, rfl, List.mergeSort_perm _ _⟩
    obtain ⟨h1, h2, h3, h4, h5⟩ := hcsr
    by_cases ht : dtype = none ∨ dtype = some s.dtype
    · have hg : dtype.getD s.dtype = s.dtype := by rcases ht with rfl | rfl <;> rfl
      refine ⟨toCsr s, h1, h2, h3, h4.trans hg.symm, ?_, ?_⟩
      · rw [hg, List.map_congr_left (g := id) (fun e _ => by rw [hE.cast]; rfl), List.map_id]
        exact h5
      · unfold atleast2dOrCsr
        simp only [if_pos ht]
        show (assertAllFinite E (.sparse (toCsr s))).bind _ = _
        rw [C165_finite E hE]
        simp only [pure, Except.pure, hif]
        simp only [hval, Input.dtype]
    · refine ⟨{ toCsr s with dtype := dtype.getD s.dtype, entries := (toCsr s).entries.map fun e =>
        (e.1, E.cast s.dtype (dtype.getD s.dtype) e.2) }, h1, h2, h3, rfl, h5.map _, ?_⟩
      unfold atleast2dOrCsr
      simp only [if_neg ht]
      show (assertAllFinite E (.sparse _)).bind _ = _
      rw [C165_finite E hE]
      simp only [pure, Except.pure, hif]
      simp only [hval, Input.dtype]
  · intro a
    refine ⟨_, rfl, ?_⟩
    unfold atleast2dOrCsr
    show (assertAllFinite E (.dense _)).bind _ = _
    rw [C165_finite E hE]
    simp only [pure, Except.pure, hif]
    rfl

/-- **C165**: `safe_sparse_dot` is the product of matrices for all kinds of arguments, `ValueError` if
dimensions do not fit; the result is sparse if both are and `dense_output` is not set. -/
theorem C165_dot {K : Type} [AddCommMonoid K] [Mul K] (a b : Mat K) (denseOutput : Bool) :
    (a.cols ≠ b.rows → safeSparseDot a b denseOutput = .error .valueError) ∧
    (a.cols = b.rows → ∃ r, safeSparseDot a b denseOutput = .ok r ∧ r.rows = a.rows ∧ r.cols = b.cols ∧
      (∀ i j, r.e i j = ∑ k ∈ Finset.range a.cols, a.e i k * b.e k j) ∧
      (r.sparse = true ↔ a.sparse = true ∧ b.sparse = true ∧ denseOutput = false)) := by
  constructor
  · intro h
    unfold safeSparseDot mul
    rw [if_neg h]
    split_ifs <;> rfl
  · intro h
    unfold safeSparseDot mul
    rw [if_pos h]
    rcases ha : a.sparse <;> rcases hb : b.sparse <;> rcases denseOutput with _ | _ <;>
      exact ⟨_, rfl, rfl, rfl, fun i j => rfl, by simp⟩

/-- Sums of finite values which are too big are taken to be infinite. -/
def bigSum (l : List Flt) : Flt :=
  if l.all Flt.isFinite && l.length < 3 then .fin 0 else .pinf

example : (⟨bigSum, fun _ _ v => v⟩ : Env).OK := by
  refine ⟨?_, fun _ _ => rfl⟩
  rintro l ⟨v, h1, h2⟩
  have : l.all Flt.isFinite = false := by
    rw [List.all_eq_false]
    exact ⟨v, h1, by simp [h2]⟩
  simp [bigSum, this, Flt.isFinite]

example : assertAllFinite ⟨bigSum, fun _ _ v => v⟩ (.dense ⟨⟨"float64", true⟩, [3],
    [.fin 1, .fin 2, .fin 3], true, true, false, true, true⟩) = .ok () := by decide +kernel

example : assertAllFinite ⟨bigSum, fun _ _ v => v⟩ (.dense ⟨⟨"float64", true⟩, [2], [.fin 1, .nan], true,
    true, false, true, true⟩) = .error .valueError := by decide +kernel

end Verif.Sklearn
