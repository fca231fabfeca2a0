import Verif.Evaluation.PropsDouble

/-!
# Scores with doubles (C202)
-/

namespace Verif.Evaluation.D

open Verif Verif.Window
open Verif.NMF.D (double_mul double_pow double_one double_zero dbl_le le_dbl abs_dbl_le)

/-- The number of positions at which both lists agree. -/
def agreements {α : Type} [DecidableEq α] : List α → List α → ℕ
  | a :: l, b :: m => (if a = b then 1 else 0) + agreements l m
  | _, _ => 0

theorem agreements_le {α : Type} [DecidableEq α] : ∀ l m : List α, agreements l m ≤ min l.length m.length
  | [], _ => by simp [agreements]
  | _ :: _, [] => by simp [agreements]
  | a :: l, b :: m => by
    have := agreements_le l m
    simp only [agreements, List.length_cons]
    split_ifs <;> omega

theorem sum_zip {α : Type} [DecidableEq α] : ∀ l m : List α,
    (((m.zip l).map fun p => decide (p.1 = p.2)).map fun b => if b = true then (1 : ℚ) else 0).sum = agreements l m
  | [], m => by simp [agreements]
  | _ :: _, [] => by simp [agreements]
  | a :: l, b :: m => by
    simp only [List.zip_cons_cons, List.map_cons, List.sum_cons, sum_zip l m, agreements]
    push_cast
    congr 1
    simp [eq_comm]

theorem nat_dbl {n : ℕ} (h : n ≤ 2 ^ 53) : Dbl (n : ℚ) := by
  refine ⟨⟨n, 0, ?_, by norm_num, by simp⟩, ?_⟩
  · rw [abs_of_nonneg (by positivity)]
    exact_mod_cast h
  · rw [abs_of_nonneg (by positivity)]
    have h1 : (n : ℚ) ≤ 2 ^ 53 := by exact_mod_cast h
    exact lt_of_le_of_lt h1 (pow_lt_pow_right₀ (by norm_num) (by norm_num))

/-- **C202.** The score is the double nearest to the number of agreements over the number of compared labels; it is NaN
without labels. -/
theorem C202_score {α : Type} [DecidableEq α] (l m : List α) (hlen : min l.length m.length ≤ 2 ^ 53) :
    foundLabelsToScore l m = if min l.length m.length = 0 then .nan else
      .fin (dbl (agreements l m / (min l.length m.length : ℕ))) := by
  unfold foundLabelsToScore average
  rw [sum_zip, List.length_map, List.length_zip, min_comm m.length, round_dbl (nat_dbl ((agreements_le l m).trans hlen)),
    round_dbl (nat_dbl hlen)]
  set n := min l.length m.length with hn
  have hle := agreements_le l m
  rw [← hn] at hle
  show (if (n : ℚ) = 0 then (if (agreements l m : ℚ) = 0 then Flt.nan else .inf _) else round _) = _
  by_cases h0 : n = 0
  · have h1 : agreements l m = 0 := by omega
    simp [h0, h1]
  · rw [if_neg (by exact_mod_cast h0), if_neg h0]
    apply round_of_le double_one
    · rw [abs_of_nonneg (by positivity), div_le_one (by exact_mod_cast Nat.pos_of_ne_zero h0)]
      exact_mod_cast hle
    · exact one_lt_pow₀ (by norm_num) (by norm_num)

theorem dbl_unit {q : ℚ} (h0 : 0 ≤ q) (h1 : q ≤ 1) : 0 ≤ dbl q ∧ dbl q ≤ 1 := ⟨dbl_nonneg h0, dbl_le double_one h1⟩

/-- The error of a number from 0 to 1, below 1. -/
theorem dbl_unit_err {q : ℚ} (h0 : 0 ≤ q) (h1 : q < 1) : |dbl q - q| ≤ 1 / 2 ^ 54 := by
  rcases h0.lt_or_eq with h0 | rfl
  · refine (dbl_err q).trans ?_
    have hl : Int.log 2 |q| < 0 := (Int.lt_zpow_iff_log_lt (b := 2) (by norm_num) (abs_pos.2 h0.ne')).1 (by
      rw [abs_of_pos h0]
      simpa using h1)
    have he : expo q ≤ -53 := by
      unfold expo
      omega
    have h2 : (2 : ℚ) ^ expo q ≤ 2 ^ (-53 : ℤ) := zpow_le_zpow_right₀ (by norm_num) he
    have h3 : (2 : ℚ) ^ (-53 : ℤ) = 1 / 2 ^ 53 := by norm_num
    rw [h3] at h2
    norm_num at h2 ⊢
    linarith
  · rw [dbl_zero]
    norm_num

/-- Doubles nearest to fractions which differ enough. -/
theorem dbl_lt {p q : ℚ} (h0 : 0 ≤ p) (h1 : q ≤ 1) (h : 1 / 2 ^ 52 ≤ q - p) : dbl p < dbl q := by
  have hp1 : p < 1 := by
    have : (0 : ℚ) < 1 / 2 ^ 52 := by norm_num
    linarith
  have hp := dbl_unit_err h0 hp1
  rw [abs_le] at hp
  rcases h1.lt_or_eq with h1 | rfl
  · have hq := dbl_unit_err (q := q) (by
      have : (0 : ℚ) < 1 / 2 ^ 52 := by norm_num
      linarith) h1
    rw [abs_le] at hq
    norm_num at *
    linarith [hp.2, hq.1]
  · rw [dbl_of_double double_one]
    norm_num at *
    linarith [hp.2]

/-- **C202.** Scores of lists of the same numbers of labels are in the order of the numbers of agreements: in particular a
score is 1 when all labels are found and only then, and 0 when none is and only then. -/
theorem C202_order {α β : Type} [DecidableEq α] [DecidableEq β] {l m : List α} {l' m' : List β} {n : ℕ} (h0 : 0 < n)
    (hn : n ≤ 2 ^ 52) (h1 : min l.length m.length = n) (h2 : min l'.length m'.length = n) :
    ∃ s s', foundLabelsToScore l m = .fin s ∧ foundLabelsToScore l' m' = .fin s' ∧ 0 ≤ s ∧ s ≤ 1 ∧
      (s < s' ↔ agreements l m < agreements l' m') ∧ (s = 1 ↔ agreements l m = n) ∧ (s = 0 ↔ agreements l m = 0) := by
  have e1 := C202_score l m (by omega)
  have e2 := C202_score l' m' (by omega)
  have a1 := agreements_le l m
  have a2 := agreements_le l' m'
  rw [h1, if_neg h0.ne'] at e1
  rw [h2, if_neg h0.ne'] at e2
  rw [h1] at a1
  rw [h2] at a2
  have hnq : (0 : ℚ) < n := by exact_mod_cast h0
  have hnq2 : (n : ℚ) ≤ 2 ^ 52 := by exact_mod_cast hn
  -- one more agreement
  have step : ∀ i j : ℕ, i < j → j ≤ n → dbl (i / n) < dbl (j / n) := by
    intro i j hij hj
    apply dbl_lt (by positivity)
    · rw [div_le_one hnq]
      exact_mod_cast hj
    · rw [← sub_div, div_le_div_iff₀ (by norm_num) hnq, one_mul]
      have : ((i + 1 : ℕ) : ℚ) ≤ j := by exact_mod_cast hij
      push_cast at this
      nlinarith
  have u := dbl_unit (q := agreements l m / n) (by positivity) (by
    rw [div_le_one hnq]
    exact_mod_cast a1)
  refine ⟨_, _, e1, e2, u.1, u.2, ?_, ?_, ?_⟩
  · constructor
    · intro h
      by_contra hc
      push Not at hc
      have : dbl ((agreements l' m' : ℚ) / n) ≤ dbl ((agreements l m : ℚ) / n) := by
        apply dbl_mono
        gcongr
      exact absurd h (not_lt.2 this)
    · intro h
      exact step _ _ h a2
  · constructor
    · intro h
      by_contra hc
      have h3 := step (agreements l m) n (by omega) le_rfl
      rw [h, div_self hnq.ne', dbl_of_double double_one] at h3
      exact lt_irrefl _ h3
    · intro h
      rw [h, div_self hnq.ne', dbl_of_double double_one]
  · constructor
    · intro h
      by_contra hc
      have h3 := step 0 (agreements l m) (by omega) a1
      rw [h] at h3
      simp [dbl_zero] at h3
    · intro h
      rw [h]
      simp [dbl_zero]

/-- **C202.** Scores of lists of different lengths are in the order of the fractions of agreements, when the product of
lengths is at most `2 ^ 52`. -/
theorem C202_lengths {α β : Type} [DecidableEq α] [DecidableEq β] {l m : List α} {l' m' : List β} {n n' : ℕ} (h0 : 0 < n)
    (h0' : 0 < n') (hn : n * n' ≤ 2 ^ 52) (h1 : min l.length m.length = n) (h2 : min l'.length m'.length = n') :
    ∃ s s', foundLabelsToScore l m = .fin s ∧ foundLabelsToScore l' m' = .fin s' ∧
      (s < s' ↔ agreements l m * n' < agreements l' m' * n) ∧ (s = s' ↔ agreements l m * n' = agreements l' m' * n) := by
  have b1 : n ≤ n * n' := Nat.le_mul_of_pos_right n h0'
  have b2 : n' ≤ n * n' := Nat.le_mul_of_pos_left n' h0
  have e1 := C202_score l m (by omega)
  have e2 := C202_score l' m' (by omega)
  have a1 := agreements_le l m
  have a2 := agreements_le l' m'
  rw [h1, if_neg h0.ne'] at e1
  rw [h2, if_neg h0'.ne'] at e2
  rw [h1] at a1
  rw [h2] at a2
  have hnq : (0 : ℚ) < n := by exact_mod_cast h0
  have hnq' : (0 : ℚ) < n' := by exact_mod_cast h0'
  have hnn : (n : ℚ) * n' ≤ 2 ^ 52 := by exact_mod_cast hn
  have step : ∀ (i j p q : ℕ), 0 < p → 0 < q → (p : ℚ) * q ≤ 2 ^ 52 → j ≤ q → i * q < j * p →
      dbl ((i : ℚ) / p) < dbl ((j : ℚ) / q) := by
    intro i j p q hp hq hpq hj hij
    have hp' : (0 : ℚ) < p := by exact_mod_cast hp
    have hq' : (0 : ℚ) < q := by exact_mod_cast hq
    apply dbl_lt (by positivity)
    · rw [div_le_one hq']
      exact_mod_cast hj
    · rw [div_sub_div _ _ hq'.ne' hp'.ne', div_le_div_iff₀ (by norm_num) (by positivity), one_mul]
      have : ((i * q + 1 : ℕ) : ℚ) ≤ ((j * p : ℕ) : ℚ) := by exact_mod_cast hij
      push_cast at this
      nlinarith
  refine ⟨_, _, e1, e2, ?_, ?_⟩
  · constructor
    · intro h
      by_contra hc
      push Not at hc
      have : dbl ((agreements l' m' : ℚ) / n') ≤ dbl ((agreements l m : ℚ) / n) := by
        apply dbl_mono
        rw [div_le_div_iff₀ hnq' hnq]
        exact_mod_cast hc
      exact absurd h (not_lt.2 this)
    · intro h
      exact step _ _ _ _ h0 h0' hnn a2 h
  · constructor
    · intro h
      rcases lt_trichotomy (agreements l m * n') (agreements l' m' * n) with hlt | heq | hgt
      · exact absurd h (step _ _ _ _ h0 h0' hnn a2 hlt).ne
      · exact heq
      · exact absurd h (step _ _ _ _ h0' h0 (by rw [mul_comm]; exact hnn) a1 hgt).ne'
    · intro h
      congr 1
      rw [div_eq_div_iff hnq.ne' hnq'.ne']
      exact_mod_cast h

/-- Two of three labels: the score is the double nearest to 2/3. -/
example : agreements ["a", "b", "c"] ["a", "b", "a"] = 2 ∧
    foundLabelsToScore ["a", "b", "c"] ["a", "b", "a"] = .fin (6004799503160661 / 2 ^ 53) := by decide +kernel

end Verif.Evaluation.D
