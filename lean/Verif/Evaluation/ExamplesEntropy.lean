import Verif.Evaluation.PropsMutualDouble

/-!
# Entropies with doubles on concrete histograms
-/

namespace Verif.Evaluation.D

open Verif Verif.Window
open Verif.NMF.D (double_one double_zero)

variable {L : Lib}

/-- Sums of two numbers, and of four by pairs. -/
def orders : Orders :=
  ⟨.plus (.plus (.leaf 0) (.leaf 1)) (.plus (.leaf 2) (.leaf 3)), fun _ => .plus (.leaf 0) (.leaf 1),
    fun _ => .plus (.leaf 0) (.leaf 1)⟩

theorem orders_fit : orders.Fits 2 2 := by
  refine ⟨?_, fun _ _ => ?_, fun _ _ => ?_⟩
  · show List.Perm [0, 1, 2, 3] (List.range (2 * 2))
    exact List.Perm.refl _
  · exact List.Perm.refl _
  · exact List.Perm.refl _

/-- A matrix with two rows and two columns. -/
def square2 (a b c d : ℚ) : ℕ → ℕ → ℚ := fun i j => if i = 0 then if j = 0 then a else b else if j = 0 then c else d

theorem square2_table {a b c d : ℚ} (ha : Dbl a ∧ 0 ≤ a) (hb : Dbl b ∧ 0 ≤ b) (hc : Dbl c ∧ 0 ≤ c) (hd : Dbl d ∧ 0 ≤ d) :
    Table 2 2 (fun i j => .fin (square2 a b c d i j)) (square2 a b c d) := by
  intro i _ j _
  refine ⟨rfl, ?_⟩
  unfold square2
  split_ifs <;> assumption

theorem square2_total (a b c d : ℚ) : total 2 2 (square2 a b c d) = a + b + (c + d) := by
  simp [total, Finset.sum_range_succ, square2]

theorem dbl_half_pow (p : ℕ) (hp : p ≤ 1074) : Dbl (2 ^ (-(p : ℤ))) := by
  refine ⟨⟨1, -p, by norm_num, by omega, by norm_num⟩, ?_⟩
  rw [abs_of_pos (two_zpow_pos _)]
  calc (2 : ℚ) ^ (-(p : ℤ)) ≤ 2 ^ (0 : ℤ) := zpow_le_zpow_right₀ (by norm_num) (by omega)
    _ = 1 := by norm_num
    _ < 2 ^ 1024 := one_lt_pow₀ (by norm_num) (by norm_num)

theorem dbl_half : Dbl (1 / 2) ∧ (0 : ℚ) ≤ 1 / 2 := ⟨by simpa using dbl_half_pow 1 (by norm_num), by norm_num⟩

theorem dbl_quarter : Dbl (1 / 4) ∧ (0 : ℚ) ≤ 1 / 4 := by
  refine ⟨?_, by norm_num⟩
  have := dbl_half_pow 2 (by norm_num)
  rwa [show (2 : ℚ) ^ (-((2 : ℕ) : ℤ)) = 1 / 4 by norm_num] at this

theorem joint_table : Table 2 2 (fun i j => .fin (square2 (1 / 2) 0 (1 / 4) (1 / 4) i j)) (square2 (1 / 2) 0 (1 / 4) (1 / 4)) :=
  square2_table dbl_half ⟨dbl_zero', le_rfl⟩ dbl_quarter dbl_quarter

theorem joint_total : total 2 2 (square2 (1 / 2) 0 (1 / 4) (1 / 4)) = 1 := by
  rw [square2_total]
  norm_num

theorem both_adds : (Tree.plus (.leaf 0) (.leaf 1)).Adds 2 := List.Perm.refl _

/-- The probabilities 1/2 and 1/2. -/
def coin : ℕ → ℚ := fun _ => 1 / 2

theorem coin_doubles : Doubles 2 (fun k => .fin (coin k)) coin := fun _ _ => ⟨rfl, dbl_half.1⟩

-- C206_error: the entropy of a coin is the logarithm of two, up to an error.
example (hL : IsLog L.lg) : ∃ d, entropy L (.plus (.leaf 0) (.leaf 1)) (fun k => .fin (coin k)) = .fin d ∧ Double d ∧
    |d| ≤ 2 ^ 470 ∧ |(d : ℝ) - ent 2 coin| ≤ ((2 : ℕ) + 16) / 2 ^ 52 * mass 2 coin + (2 : ℕ) / 2 ^ 1074 :=
  C206_error hL (by norm_num) both_adds coin_doubles
    fun _ _ => ⟨dbl_half.2, le_trans (b := 1) (by norm_num [coin]) (one_le_pow₀ (by norm_num))⟩

-- C206_range: it is positive.
example (hL : IsLog L.lg) :
    ∃ d, entropy L (.plus (.leaf 0) (.leaf 1)) (fun k => .fin (coin k)) = .fin d ∧ 0 < d := by
  obtain ⟨d, h1, h2, h3⟩ := C206_range (L := L) hL (n := 2) (by norm_num) (t := .plus (.leaf 0) (.leaf 1)) both_adds
    coin_doubles fun _ _ => ⟨dbl_half.2, by norm_num [coin]⟩
  refine ⟨d, h1, lt_of_le_of_ne h2 fun h => ?_⟩
  have := h3.1 h.symm 0 (by norm_num)
  norm_num [coin] at this

-- C206_upper: it is not above the logarithm of two, up to an error.
example (hL : IsLog L.lg) : ∃ d : ℚ, entropy L (.plus (.leaf 0) (.leaf 1)) (fun k => .fin (coin k)) = .fin d ∧
    (d : ℝ) ≤ (1 + ((2 : ℕ) + 16) / 2 ^ 52) * Real.log (2 : ℕ) + (2 : ℕ) / 2 ^ 1074 :=
  C206_upper hL (by norm_num) both_adds coin_doubles (fun _ _ => dbl_half.2)
    (by norm_num [coin, Finset.sum_range_succ])

-- C206_nan: numbers which are negative.
example : entropy L (.plus (.leaf 0) (.leaf 1)) (fun _ => .fin (-1)) = .nan :=
  C206_nan (n := 2) both_adds (k := 1) (by norm_num)
    (.inr (.inr ⟨-1, rfl, ⟨Double.neg double_one, by
      rw [abs_neg, abs_one]
      exact one_lt_pow₀ (by norm_num) (by norm_num)⟩, by norm_num⟩))

-- C207_assertion: counts rather than probabilities.
example : mutualInformation L 2 orders (fun i j => .fin (square2 1 0 0 1 i j)) = .error .assertionError ∧
    ∀ axis, conditionalEntropy L 2 orders .zero (fun i j => .fin (square2 1 0 0 1 i j)) axis = .error .assertionError := by
  have d1 : Dbl 1 ∧ (0 : ℚ) ≤ 1 := ⟨by simpa using dbl_half_pow 0 (by norm_num), by norm_num⟩
  refine (C207_assertion (by norm_num) orders_fit .zero
    (square2_table d1 ⟨dbl_zero', le_rfl⟩ ⟨dbl_zero', le_rfl⟩ d1) ?_).2 (by rw [square2_total]; norm_num)
  intro i _ j _
  refine le_trans (b := 1) ?_ (one_le_pow₀ (by norm_num))
  unfold square2
  split_ifs <;> norm_num

-- C207_conditional, C207_conditional_range, C207_mutual and C207_mutual_range: joint probabilities.
example (hL : IsLog L.lg) :
    ∃ d : ℚ, conditionalEntropy L 2 orders (.plus (.leaf 0) (.leaf 1))
      (fun i j => .fin (square2 (1 / 2) 0 (1 / 4) (1 / 4) i j)) 0 = .ok (.fin d) := by
  obtain ⟨d, h, _⟩ := (C207_conditional_range hL (by norm_num) (by norm_num) (by norm_num) orders_fit
    joint_table joint_total).1 (.plus (.leaf 0) (.leaf 1)) both_adds 0 (.inl rfl)
  exact ⟨d, h⟩

theorem joint_low : ∀ i < 2, ∀ j < 2, square2 (1 / 2) 0 (1 / 4) (1 / 4) i j = 0 ∨
    2 ^ (-500 : ℤ) ≤ square2 (1 / 2) 0 (1 / 4) (1 / 4) i j := by
  intro i _ j _
  have h : (2 : ℚ) ^ (-500 : ℤ) ≤ 2 ^ (-2 : ℤ) := zpow_le_zpow_right₀ (by norm_num) (by norm_num)
  have h2 : (2 : ℚ) ^ (-2 : ℤ) = 1 / 4 := by norm_num
  rw [h2] at h
  have h3 : (1 : ℚ) / 4 ≤ 1 / 2 := by norm_num
  unfold square2
  split_ifs
  · exact .inr (h.trans h3)
  · exact .inl rfl
  · exact .inr h
  · exact .inr h

example (hL : IsLog L.lg) :
    ∃ d : ℚ, mutualInformation L 2 orders (fun i j => .fin (square2 (1 / 2) 0 (1 / 4) (1 / 4) i j)) = .ok (.fin d) ∧
      |(d : ℝ) - mutualInfo 2 2 (square2 (1 / 2) 0 (1 / 4) (1 / 4))| ≤ infoBound 2 2 (square2 (1 / 2) 0 (1 / 4) (1 / 4)) :=
  C207_mutual hL (by norm_num) (by norm_num) orders_fit joint_table (by rw [joint_total]; norm_num) joint_low

example (hL : IsLog L.lg) :
    ∃ d : ℚ, mutualInformation L 2 orders (fun i j => .fin (square2 (1 / 2) 0 (1 / 4) (1 / 4) i j)) = .ok (.fin d) := by
  obtain ⟨d, h, _⟩ := C207_mutual_range hL (by norm_num) (by norm_num) (by norm_num) (by norm_num) orders_fit joint_table
    joint_total joint_low
  exact ⟨d, h⟩

-- C207_underflow: two variables which are equal, one value of which has a tiny probability.
example (hL : IsLog L.lg) :
    mutualInformation L 2 orders (fun i j => .fin (square2 1 0 0 (2 ^ (-540 : ℤ)) i j)) = .ok (.inf false) := by
  have d1 : Dbl 1 ∧ (0 : ℚ) ≤ 1 := ⟨by simpa using dbl_half_pow 0 (by norm_num), by norm_num⟩
  have h0 := two_zpow_pos (-540)
  have h1 : (2 : ℚ) ^ (-540 : ℤ) ≤ 1 / 2 ^ 539 := by
    rw [one_div, ← zpow_natCast, ← zpow_neg]
    exact zpow_le_zpow_right₀ (by norm_num) (by norm_num)
  have h2 : (2 : ℚ) ^ (-540 : ℤ) ≤ 1 / 2 ^ 19 := by
    rw [one_div, ← zpow_natCast, ← zpow_neg]
    exact zpow_le_zpow_right₀ (by norm_num) (by norm_num)
  have h3 : (2 : ℚ) ^ (-500 : ℤ) ≤ 1 := zpow_le_one_of_nonpos₀ (by norm_num) (by norm_num)
  have h4 := dbl_half_pow 540 (by norm_num)
  push_cast at h4
  have hT := square2_total 1 0 0 (2 ^ (-540 : ℤ))
  generalize (2 : ℚ) ^ (-540 : ℤ) = w at *
  have hc : colTotal 2 (square2 1 0 0 w) 1 = w := by simp [colTotal, Finset.sum_range_succ, square2]
  have hr : rowTotal 2 (square2 1 0 0 w) 1 = w := by simp [rowTotal, Finset.sum_range_succ, square2]
  have hlow : ∀ i < 2, ∀ j < 2, square2 1 0 0 w i j = 0 ∨ 2 ^ (-500 : ℤ) ≤ square2 1 0 0 w i j ∨
      0 < square2 1 0 0 w i j ∧ colTotal 2 (square2 1 0 0 w) j ≤ 1 / 2 ^ 539 ∧ rowTotal 2 (square2 1 0 0 w) i ≤ 1 / 2 ^ 539 := by
    intro i hi j hj
    obtain rfl | rfl : i = 0 ∨ i = 1 := by omega
    · obtain rfl | rfl : j = 0 ∨ j = 1 := by omega
      · exact .inr (.inl h3)
      · exact .inl rfl
    · obtain rfl | rfl : j = 0 ∨ j = 1 := by omega
      · exact .inl rfl
      · exact .inr (.inr ⟨h0, by rw [hc]; exact h1, by rw [hr]; exact h1⟩)
  refine C207_underflow hL (n := 2) (by norm_num) (by norm_num) orders_fit
    (square2_table d1 ⟨dbl_zero', le_rfl⟩ ⟨dbl_zero', le_rfl⟩ ⟨h4, h0.le⟩) ?_ hlow (i₀ := 1) (j₀ := 1) (by norm_num)
    (by norm_num) h0 (by rw [hc]; exact h1) (by rw [hr]; exact h1)
  rw [hT, show 1 + 0 + (0 + w) - 1 = w by ring, abs_of_pos h0]
  exact h2

end Verif.Evaluation.D
