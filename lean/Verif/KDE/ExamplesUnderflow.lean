import Verif.KDE.PropsUnderflow

/-!
# Examples for density estimation when exponentials underflow (C214)
-/

namespace Verif.KDE

open scoped Classical in
/-- The exponential, null below -745. -/
noncomputable def cutExp (t : ℝ) : ℝ := if t < -745 then 0 else Real.exp t

theorem cutExp_underflows : Underflows cutExp 745 := by
  refine ⟨by norm_num, fun t => ?_, fun t => ?_⟩
  · unfold cutExp
    split_ifs
    · exact le_rfl
    · exact (Real.exp_pos t).le
  · unfold cutExp
    split_ifs with h
    · simp [h]
    · simp [h, (Real.exp_pos t).ne']

theorem bounds_unit : Bounds none ([0, 1] : List ℝ) 0 1 := by
  refine ⟨⟨by simp, ?_⟩, by simp, ?_⟩ <;> intro s hs <;> simp at hs <;> rcases hs with rfl | rfl <;> norm_num

/-- **C214**: the entropy of the samples 0 and 1 for the width 0.00001 and the default number of bins is
`nan`; with one more bin it is a number. -/
theorem C214_default : entropy1U cutExp [0, 1] (1 / 10 ^ 5) 1000 true = .ok none ∧
    ∃ v : ℝ, entropy1U cutExp [0, 1] (1 / 10 ^ 5) 1001 true = .ok (some v) := by
  constructor
  · obtain ⟨v, e, h⟩ := C214_entropy cutExp_underflows [0, 1] (1 / 10 ^ 5) (by norm_num) 1000 (by norm_num) true 0 1
      bounds_unit (by norm_num)
    rw [← h.2 ⟨by decide, by unfold TooShort; norm_num⟩]
    exact_mod_cast e
  · obtain ⟨v, e, h⟩ := C214_entropy cutExp_underflows [0, 1] (1 / 10 ^ 5) (by norm_num) 1001 (by norm_num) true 0 1
      bounds_unit (by norm_num)
    cases v with
    | none => exact absurd (h.1 rfl).1 (by decide)
    | some v => exact ⟨v, by exact_mod_cast e⟩

/-- Hypotheses of `C214_exact`: a width which is a fifth of the range. -/
example : (∀ t : ℝ, -745 ≤ t → t ≤ 0 → cutExp t = Real.exp t) ∧ ((1 : ℝ) - 0) ^ 2 / (8 * (1 / 5) ^ 2) ≤ 745 := by
  refine ⟨fun t h _ => if_neg (by linarith), by norm_num⟩

/-- Hypotheses of `C214_unsmoothed`: three bins. -/
example : Odd 3 ∧ (745 : ℝ) < ((1 - 0) / (((3 : ℕ) : ℝ) - 1)) ^ 2 / (2 * (1 / 100) ^ 2) := by
  refine ⟨by decide, by norm_num⟩

/-- Hypotheses of `C214_divergence`. -/
example : Bounds none (([0] : List ℝ) ++ [1]) 0 1 ∧ TooShort 745 ((1 - 0) / (((2 : ℕ) : ℝ) - 1)) (1 / 100) :=
  ⟨bounds_unit, by unfold TooShort; norm_num⟩

/-- Hypotheses of `C214_estimate2`, with and without the warning. -/
example : Bounds2 none ([(0, 0), (1, 2)] : List (ℝ × ℝ)) 0 0 1 2 ∧
    (745 : ℝ) < ((1 - 0) / (((2 : ℕ) : ℝ) - 1)) ^ 2 / (8 * (1 / 100) ^ 2) +
      ((2 - 0) / (((2 : ℕ) : ℝ) - 1)) ^ 2 / (8 * 1 ^ 2) ∧
    ¬ (745 : ℝ) < ((1 - 0) / (((2 : ℕ) : ℝ) - 1)) ^ 2 / (8 * (1 / 10) ^ 2) +
      ((2 - 0) / (((2 : ℕ) : ℝ) - 1)) ^ 2 / (8 * 1 ^ 2) := by
  refine ⟨?_, by norm_num, by norm_num⟩
  refine ⟨⟨⟨by simp, ?_⟩, by simp, ?_⟩, ⟨by simp, ?_⟩, by simp, ?_⟩ <;> intro s hs <;> simp at hs <;>
    rcases hs with rfl | rfl <;> norm_num

end Verif.KDE
