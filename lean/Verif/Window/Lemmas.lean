import Verif.Window.Model
import Mathlib.Tactic.Linarith
import Mathlib.Tactic.FieldSimp
import Mathlib.Tactic.Ring
import Mathlib.Tactic.Positivity
import Mathlib.Algebra.Order.Floor.Ring

/-! # Helper lemmas on windows -/

namespace Verif.Window

open Verif

theorem TOL_pos : 0 < TOL := by norm_num [TOL]

theorem toApproxInt_above_iff {x tol : ℚ} (h0 : 0 < tol) (h1 : tol ≤ 1 / 2) (n : ℤ) :
    toApproxInt x tol true ≤ n ↔ x - tol < n := by
  have hf := Int.floor_le x
  have hf' := Int.lt_floor_add_one x
  have hc := Int.le_ceil x
  have hc' := Int.ceil_lt_add_one x
  unfold toApproxInt
  simp only []
  split_ifs with a b
  · constructor
    · intro h
      have : ((⌈x⌉ : ℤ) : ℚ) ≤ n := by exact_mod_cast h
      linarith
    · intro h
      by_contra hn
      push Not at hn
      have : (n : ℚ) + 1 ≤ ((⌈x⌉ : ℤ) : ℚ) := by exact_mod_cast hn
      linarith
  · constructor
    · intro h
      have : ((⌊x⌋ : ℤ) : ℚ) ≤ n := by exact_mod_cast h
      linarith
    · intro h
      by_contra hn
      push Not at hn
      have : (n : ℚ) + 1 ≤ ((⌊x⌋ : ℤ) : ℚ) := by exact_mod_cast hn
      linarith
  · constructor
    · intro h
      have : ((⌈x⌉ : ℤ) : ℚ) ≤ n := by exact_mod_cast h
      linarith
    · intro h
      by_contra hn
      push Not at hn
      have h2 : (n : ℚ) + 1 ≤ ((⌈x⌉ : ℤ) : ℚ) := by exact_mod_cast hn
      -- then `n < x` so `n ≤ ⌊x⌋`
      have h3 : n ≤ ⌊x⌋ := Int.le_floor.mpr (by linarith)
      have h4 : (n : ℚ) ≤ ((⌊x⌋ : ℤ) : ℚ) := by exact_mod_cast h3
      linarith

theorem toApproxInt_below_iff {x tol : ℚ} (h0 : 0 < tol) (h1 : tol ≤ 1 / 2) (n : ℤ) :
    n ≤ toApproxInt x tol false ↔ (n : ℚ) < x + tol := by
  have hf := Int.floor_le x
  have hf' := Int.lt_floor_add_one x
  have hc := Int.le_ceil x
  have hc' := Int.ceil_lt_add_one x
  have hfc : ⌊x⌋ ≤ ⌈x⌉ := Int.floor_le_ceil x
  unfold toApproxInt
  simp only [Bool.false_eq_true, if_false]
  split_ifs with a b
  · constructor
    · intro h
      have : (n : ℚ) ≤ ((⌈x⌉ : ℤ) : ℚ) := by exact_mod_cast h
      linarith
    · intro h
      by_contra hn
      push Not at hn
      have : ((⌈x⌉ : ℤ) : ℚ) + 1 ≤ n := by exact_mod_cast hn
      linarith
  all_goals
    constructor
    · intro h
      have : (n : ℚ) ≤ ((⌊x⌋ : ℤ) : ℚ) := by exact_mod_cast h
      linarith
    · intro h
      by_contra hn
      push Not at hn
      have h2 : ((⌊x⌋ : ℤ) : ℚ) + 1 ≤ n := by exact_mod_cast hn
      have h3 : ⌈x⌉ ≤ n := Int.ceil_le.mpr (by linarith)
      have h4 : ((⌈x⌉ : ℤ) : ℚ) ≤ n := by exact_mod_cast h3
      linarith

theorem toApproxInt_add_int (x tol : ℚ) (above : Bool) (n : ℤ) :
    toApproxInt (x + n) tol above = toApproxInt x tol above + n := by
  unfold toApproxInt
  simp only [Int.floor_add_intCast, Int.ceil_add_intCast]
  push_cast
  have e1 : ((⌈x⌉ : ℤ) : ℚ) + n - (x + n) = ⌈x⌉ - x := by ring
  have e2 : x + n - (((⌊x⌋ : ℤ) : ℚ) + n) = x - ⌊x⌋ := by ring
  rw [e1, e2]
  split_ifs <;> rfl

theorem toApproxInt_int {tol : ℚ} (h0 : 0 < tol) (above : Bool) (n : ℤ) :
    toApproxInt (n : ℚ) tol above = n := by
  unfold toApproxInt
  simp [h0]

theorem toApproxInt_mono_above {x y tol : ℚ} (h0 : 0 < tol) (h1 : tol ≤ 1 / 2) (h : x ≤ y) :
    toApproxInt x tol true ≤ toApproxInt y tol true := by
  rw [toApproxInt_above_iff h0 h1]
  have := (toApproxInt_above_iff (x := y) h0 h1 _).1 le_rfl
  linarith

theorem toApproxInt_mono_below {x y tol : ℚ} (h0 : 0 < tol) (h1 : tol ≤ 1 / 2) (h : x ≤ y) :
    toApproxInt x tol false ≤ toApproxInt y tol false := by
  rw [toApproxInt_below_iff h0 h1]
  have := (toApproxInt_below_iff (x := x) h0 h1 _).1 le_rfl
  linarith

open Classical in
/-- Closed form of `_arange`. -/
theorem arange_eq {left right step tol : ℚ} (incl : Bool) (ht : 0 < tol) (hs : 2 * tol ≤ step) :
    ∃ m : ℕ, (∀ i : ℕ, i < m ↔ left + (i : ℚ) * step ≤ right - tol) ∧
      arange left right step incl tol =
        (List.range m).map (fun i : ℕ => left + (i : ℚ) * step) ++
          (if incl = true ∧ ∃ k : ℕ, |left + (k : ℚ) * step - right| < tol then [right] else []) := by
  have hstep : 0 < step := by linarith
  have hT0 : 0 < tol / step := by positivity
  have hT1 : tol / step ≤ 1 / 2 := by rw [div_le_iff₀ hstep]; linarith
  have key : ∀ n : ℤ, n ≤ toApproxInt ((right - left) * 1 / step) (tol / step) false ↔
      left + (n : ℚ) * step < right + tol := by
    intro n
    rw [toApproxInt_below_iff hT0 hT1, mul_one, ← add_div, lt_div_iff₀ hstep]
    constructor <;> intro h <;> linarith
  unfold arange
  simp only []
  generalize toApproxInt ((right - left) * 1 / step) (tol / step) false = N at key
  have hN : left + (N : ℚ) * step < right + tol := (key N).1 le_rfl
  have hN1 : right + tol ≤ left + (N : ℚ) * step + step := by
    by_contra h
    push Not at h
    have := (key (N + 1)).2 (by push_cast; linarith)
    omega
  -- all indices with a point close to `right` are `N`
  have huniq : ∀ k : ℕ, |left + (k : ℚ) * step - right| < tol → (k : ℤ) = N := by
    intro k hk
    rw [abs_lt] at hk
    have h1 : (k : ℤ) ≤ N := (key k).2 (by push_cast; linarith)
    by_contra hne
    have h2 : (k : ℤ) + 1 ≤ N := by omega
    have h3 : (k : ℚ) + 1 ≤ N := by exact_mod_cast h2
    have h4 : ((k : ℚ) + 1) * step ≤ N * step := mul_le_mul_of_nonneg_right h3 hstep.le
    linarith
  by_cases hneg : N < 0
  · rw [if_pos hneg]
    refine ⟨0, ?_, ?_⟩
    · intro i
      refine ⟨fun h => absurd h (by omega), fun h => ?_⟩
      have := (key (i : ℤ)).2 (by push_cast; linarith)
      omega
    · have : ¬ (incl = true ∧ ∃ k : ℕ, |left + (k : ℚ) * step - right| < tol) := by
        rintro ⟨_, k, hk⟩
        have := huniq k hk
        omega
      rw [if_neg this]; simp
  · rw [if_neg hneg]
    obtain ⟨n, rfl⟩ : ∃ n : ℕ, N = n := ⟨N.toNat, by omega⟩
    simp only [Int.cast_natCast, Int.toNat_natCast] at *
    by_cases hsnap : right - tol < left + (n : ℚ) * step
    · -- the last point is the border
      have e : snapAbove (left + (n : ℚ) * step) right tol = right := by
        unfold snapAbove; rw [if_pos hsnap]
      have hex : ∃ k : ℕ, |left + (k : ℚ) * step - right| < tol :=
        ⟨n, by rw [abs_lt]; constructor <;> linarith⟩
      refine ⟨n, ?_, ?_⟩
      · intro i
        constructor
        · intro h
          have h3 : (i : ℚ) + 1 ≤ n := by exact_mod_cast h
          have h4 : ((i : ℚ) + 1) * step ≤ n * step := mul_le_mul_of_nonneg_right h3 hstep.le
          linarith
        · intro h
          by_contra hn
          have h3 : (n : ℚ) ≤ i := by exact_mod_cast (not_lt.mp hn)
          have h4 : (n : ℚ) * step ≤ i * step := mul_le_mul_of_nonneg_right h3 hstep.le
          linarith
      · rw [e]
        cases incl
        · simp
        · simp only [Bool.true_or, if_true]
          rw [if_pos ⟨trivial, hex⟩]
    · have e : snapAbove (left + (n : ℚ) * step) right tol = left + (n : ℚ) * step := by
        unfold snapAbove; rw [if_neg hsnap]
      push Not at hsnap
      have hne : (left + (n : ℚ) * step != right) = true := by
        simp only [bne_iff_ne, ne_eq]; intro h; linarith
      have hnex : ¬ (incl = true ∧ ∃ k : ℕ, |left + (k : ℚ) * step - right| < tol) := by
        rintro ⟨_, k, hk⟩
        have := huniq k hk
        have : k = n := by exact_mod_cast this
        subst this
        rw [abs_lt] at hk
        linarith
      refine ⟨n + 1, ?_, ?_⟩
      · intro i
        constructor
        · intro h
          have h3 : (i : ℚ) ≤ n := by exact_mod_cast Nat.lt_succ_iff.mp h
          have h4 : (i : ℚ) * step ≤ n * step := mul_le_mul_of_nonneg_right h3 hstep.le
          linarith
        · intro h
          by_contra hn
          have h3 : (n : ℚ) + 1 ≤ i := by exact_mod_cast (not_lt.mp hn)
          have h4 : ((n : ℚ) + 1) * step ≤ i * step := mul_le_mul_of_nonneg_right h3 hstep.le
          linarith
      · rw [e, if_pos (by rw [hne]; simp), if_neg hnex, List.range_succ]
        simp

end Verif.Window
