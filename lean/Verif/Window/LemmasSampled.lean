import Verif.Window.Lemmas

/-! # Helper lemmas on sampled windows -/

namespace Verif.Window

open Verif

theorem checkTime_ok {s e t : ℚ} (h1 : s ≤ t) (h2 : t ≤ e) : checkTime s e t = .ok () := by
  unfold checkTime; rw [if_neg (not_lt.mpr h1), if_neg (not_lt.mpr h2)]

theorem checkTime_err {s e t : ℚ} (h : t < s ∨ e < t) :
    checkTime s e t = .error .timeOutOfBound := by
  unfold checkTime
  split_ifs with h1 h2
  · rfl
  · rfl
  · rcases h with h | h
    · exact absurd h h1
    · exact absurd h h2

theorem checkTime_ok_iff {s e t : ℚ} : checkTime s e t = .ok () ↔ s ≤ t ∧ t ≤ e := by
  constructor
  · intro h
    by_contra hn
    rw [not_and_or, not_le, not_le] at hn
    rw [checkTime_err hn] at h
    cases h
  · rintro ⟨h1, h2⟩; exact checkTime_ok h1 h2

/-- Rounded index, when the time is accepted. -/
def idxA (start rate t : ℚ) : ℤ := toApproxInt ((t - start) * rate) (TOL * rate) true

/-- Rounded index, when the time is accepted. -/
def idxB (start rate t : ℚ) : ℤ := toApproxInt ((t - start) * rate) (TOL * rate) false

theorem indexAfter_ok {s e r t : ℚ} (h1 : s ≤ t) (h2 : t ≤ e) :
    indexAfter s e r t = .ok (idxA s r t) := by
  unfold indexAfter; rw [checkTime_ok h1 h2]; rfl

theorem indexAfter_err {s e r t : ℚ} (h : t < s ∨ e < t) :
    indexAfter s e r t = .error .timeOutOfBound := by
  unfold indexAfter; rw [checkTime_err h]; rfl

theorem indexBefore_ok {s e r t : ℚ} (h1 : s ≤ t) (h2 : t ≤ e) :
    indexBefore s e r t = .ok (idxB s r t) := by
  unfold indexBefore; rw [checkTime_ok h1 h2]; rfl

theorem indexBefore_err {s e r t : ℚ} (h : t < s ∨ e < t) :
    indexBefore s e r t = .error .timeOutOfBound := by
  unfold indexBefore; rw [checkTime_err h]; rfl

theorem toApproxInt_between {x : ℚ} {m n : ℤ} (hm : (m : ℚ) ≤ x) (hn : x ≤ n) (tol : ℚ)
    (above : Bool) : m ≤ toApproxInt x tol above ∧ toApproxInt x tol above ≤ n := by
  have h1 : m ≤ ⌊x⌋ := Int.le_floor.mpr hm
  have h2 : ⌈x⌉ ≤ n := Int.ceil_le.mpr hn
  have h3 := Int.floor_le_ceil x
  unfold toApproxInt
  simp only []
  split_ifs <;> omega

theorem rel_bounds {s r t : ℚ} {n : ℤ} (hr : 0 < r) (h1 : s ≤ t) (h2 : t ≤ s + (n : ℚ) * 1 / r) :
    ((0 : ℤ) : ℚ) ≤ (t - s) * r ∧ (t - s) * r ≤ n := by
  constructor
  · push_cast
    exact mul_nonneg (by linarith) hr.le
  · have h3 : t - s ≤ (n : ℚ) * 1 / r := by linarith
    have := mul_le_mul_of_nonneg_right h3 hr.le
    have e : (n : ℚ) * 1 / r * r = n := by field_simp
    linarith

theorem idxA_bounds {s r t : ℚ} {n : ℤ} (hr : 0 < r) (h1 : s ≤ t)
    (h2 : t ≤ s + (n : ℚ) * 1 / r) : 0 ≤ idxA s r t ∧ idxA s r t ≤ n :=
  toApproxInt_between (rel_bounds hr h1 h2).1 (rel_bounds hr h1 h2).2 _ _

theorem idxB_bounds {s r t : ℚ} {n : ℤ} (hr : 0 < r) (h1 : s ≤ t)
    (h2 : t ≤ s + (n : ℚ) * 1 / r) : 0 ≤ idxB s r t ∧ idxB s r t ≤ n :=
  toApproxInt_between (rel_bounds hr h1 h2).1 (rel_bounds hr h1 h2).2 _ _

theorem idx_shift {s r t : ℚ} (hr : 0 < r) (k : ℤ) (above : Bool) :
    toApproxInt ((t - (s + samplesToDuration r k)) * r) (TOL * r) above =
      toApproxInt ((t - s) * r) (TOL * r) above - k := by
  have e : (t - (s + samplesToDuration r k)) * r = (t - s) * r + ((-k : ℤ) : ℚ) := by
    unfold samplesToDuration; push_cast; field_simp; ring
  rw [e, toApproxInt_add_int]; ring

theorem idxA_shift {s r t : ℚ} (hr : 0 < r) (k : ℤ) :
    idxA (s + samplesToDuration r k) r t = idxA s r t - k := idx_shift hr k true

theorem idxB_shift {s r t : ℚ} (hr : 0 < r) (k : ℤ) :
    idxB (s + samplesToDuration r k) r t = idxB s r t - k := idx_shift hr k false

theorem idxA_le_iff {s r t : ℚ} (hr : 0 < r) (hr' : 2 * TOL * r ≤ 1) (n : ℤ) :
    idxA s r t ≤ n ↔ t - TOL < s + (n : ℚ) / r := by
  unfold idxA
  rw [toApproxInt_above_iff (mul_pos TOL_pos hr) (by linarith), ← sub_lt_iff_lt_add',
    lt_div_iff₀ hr]
  constructor <;> intro h <;> linarith

theorem le_idxB_iff {s r t : ℚ} (hr : 0 < r) (hr' : 2 * TOL * r ≤ 1) (n : ℤ) :
    n ≤ idxB s r t ↔ s + (n : ℚ) / r < t + TOL := by
  unfold idxB
  rw [toApproxInt_below_iff (mul_pos TOL_pos hr) (by linarith), ← lt_sub_iff_add_lt',
    div_lt_iff₀ hr]
  constructor <;> intro h <;> linarith

/-- Selecting a contiguous range of positions is dropping and taking. -/
theorem filter_range_eq_slice {α : Type*} (l : List α) (i j : ℕ) :
    ((List.range l.length).filter (fun k => decide (i ≤ k ∧ k < j))).filterMap (fun k => l[k]?) =
      (l.drop i).take (j - i) := by
  induction l generalizing i j with
  | nil => simp
  | cons x xs ih =>
    rw [List.length_cons, List.range_succ_eq_map, List.filter_cons, List.filter_map]
    have hfun : ((fun k => decide (i ≤ k ∧ k < j)) ∘ Nat.succ) =
        (fun k => decide (i - 1 ≤ k ∧ k < j - 1)) := by
      funext k
      simp only [Function.comp_apply, Nat.succ_eq_add_one, decide_eq_decide]
      omega
    rw [hfun]
    have hget : ∀ p : ℕ → Bool,
        (List.map Nat.succ ((List.range xs.length).filter p)).filterMap (fun k => (x :: xs)[k]?) =
          ((List.range xs.length).filter p).filterMap (fun k => xs[k]?) := by
      intro p
      rw [List.filterMap_map]
      rfl
    cases i with
    | zero =>
      cases j with
      | zero =>
        simp
      | succ j =>
        rw [if_pos (by simp), List.filterMap_cons_some (b := x) (by simp), hget, ih]
        simp
    | succ i =>
      rw [if_neg (by simp), hget, ih]
      simp [Nat.sub_sub, Nat.add_comm]

end Verif.Window
