import Verif.Evaluation.PropsKlDouble
import Verif.Evaluation.PropsScores
import Verif.Evaluation.PropsLabelsDouble

/-!
# Nearest neighbours with doubles: examples (C199 - C201, C205)

One sample `(0, 1)`, and two examples: a copy of it, and `(1, 1)`.
-/

namespace Verif.Evaluation.D

open Verif Verif.Window
open Verif.NMF.D (double_one double_zero)

variable {L : Lib}

/-- The entries of the sample. -/
def xs : ℕ → ℚ := fun k => if k = 0 then 0 else 1

/-- The entries of the other example. -/
def ys : ℕ → ℚ := fun _ => 1

theorem xs_doubles : Doubles 2 (two 0 1) xs := by
  intro k hk
  have : k = 0 ∨ k = 1 := by omega
  rcases this with rfl | rfl
  · exact ⟨rfl, double_zero, by decide +kernel⟩
  · exact ⟨rfl, double_one, by decide +kernel⟩

theorem ys_doubles : Doubles 2 (two 1 1) ys := by
  intro k hk
  have : k = 0 ∨ k = 1 := by omega
  rcases this with rfl | rfl <;> exact ⟨rfl, double_one, by decide +kernel⟩

theorem doubles_unique {n : ℕ} {a : Row} {x y : ℕ → ℚ} (h1 : Doubles n a x) (h2 : Doubles n a y) : ∀ k < n, x k = y k := by
  intro k hk
  have h := (h1 k hk).1
  rw [(h2 k hk).1] at h
  injection h with h
  exact h.symm

/-- The classification ends. -/
theorem found (measure : ℕ → ℕ → Row → Row → Flt) :
    ∃ f, classifyNN [two 0 1] [two 0 1, two 1 1] ["same", "other"] measure = .ok f :=
  (C199_found [two 0 1] [two 0 1, two 1 1] ["same", "other"] measure (by simp) rfl).imp fun _ h => h.1

theorem cases_ex {P : Row → (ℕ → ℚ) → Prop} (h1 : P (two 0 1) xs) (h2 : P (two 1 1) ys) :
    ∀ e ∈ [two 0 1, two 1 1], ∃ y, P e y := by
  intro e he
  simp only [List.mem_cons, List.not_mem_nil, or_false] at he
  rcases he with rfl | rfl
  · exact ⟨_, h1⟩
  · exact ⟨_, h2⟩

/-- The only example with another label. -/
theorem other_label {j : ℕ} {e : Row} (h : [two 0 1, two 1 1][j]? = some e)
    (hl : ["same", "other"][j]? ≠ ["same", "other"][0]?) : e = two 1 1 := by
  match j with
  | 0 => exact absurd rfl hl
  | 1 => exact (Option.some.inj h).symm
  | j + 2 => simp at h

theorem moderate_xs : Moderate 2 xs xs := by
  intro k hk
  rw [sub_self, abs_zero]
  exact ⟨by positivity, .inl rfl⟩

theorem moderate_ys : Moderate 2 xs ys := by
  intro k hk
  have : k = 0 ∨ k = 1 := by omega
  rcases this with rfl | rfl
  · refine ⟨?_, .inr ?_⟩
    · show |(0 : ℚ) - 1| ≤ _
      rw [zero_sub, abs_neg, abs_one]
      exact one_le_pow₀ (by norm_num)
    · show _ ≤ |(0 : ℚ) - 1|
      rw [zero_sub, abs_neg, abs_one]
      exact zpow_le_one_of_nonpos₀ (by norm_num) (by norm_num)
  · exact ⟨by rw [show xs 1 - ys 1 = 0 by simp [xs, ys], abs_zero]; positivity, .inl rfl⟩

theorem far_frobenius (j : ℕ) (e' : Row) (y' : ℕ → ℚ) (hj : [two 0 1, two 1 1][j]? = some e') (hy' : Doubles 2 e' y')
    (hne : ["same", "other"][j]? ≠ ["same", "other"][0]?) :
    (1 + ((2 : ℕ) + 4) / 2 ^ 52) * dist 2 xs xs < (1 - ((2 : ℕ) + 4) / 2 ^ 52) * dist 2 xs y' := by
  rw [other_label hj hne] at hy'
  have hu := doubles_unique hy' ys_doubles
  have h1 : dist 2 xs xs = 0 := by simp [dist]
  have h2 : dist 2 xs y' = 1 := by
    unfold dist
    rw [Finset.sum_range_succ, Finset.sum_range_one, hu 0 (by norm_num), hu 1 (by norm_num)]
    norm_num [xs, ys]
  rw [h1, h2]
  norm_num

/-- C199: the copy is found with `frobenius`. -/
example (hL : IsSqrt L.sq) {f : List String}
    (hf : classifyNN [two 0 1] [two 0 1, two 1 1] ["same", "other"] (fun _ _ => frobenius L pair) = .ok f) :
    f[0]? = some "same" :=
  C199_nearest hL (n := 2) (by norm_num) (order := fun _ _ => pair) (fun _ _ => pair_adds)
    (reco := [two 0 1]) (ex := [two 0 1, two 1 1]) (labels := ["same", "other"]) rfl hf (i := 0) (c := 0) rfl xs_doubles rfl xs_doubles
    (cases_ex (P := fun e y => Doubles 2 e y ∧ Moderate 2 xs y) ⟨xs_doubles, moderate_xs⟩ ⟨ys_doubles, moderate_ys⟩)
    far_frobenius

/-- The only sample. -/
theorem only_sample {P : ℕ → Row → Prop} (h : P 0 (two 0 1)) : ∀ (i : ℕ) r, [two 0 1][i]? = some r → P i r := by
  intro i r hr
  match i with
  | 0 => obtain rfl := Option.some.inj hr; exact h
  | i + 1 => simp at hr

/-- C205: the label of the copy is found with `frobenius`. -/
example (hL : IsSqrt L.sq) : evaluateNNLabel [two 0 1] [two 0 1, two 1 1] ["same"] ["same", "other"]
    (fun _ _ => frobenius L pair) = .ok (.fin 1) :=
  C205_frobenius hL (n := 2) (by norm_num) (order := fun _ _ => pair) (fun _ _ => pair_adds) (by simp) rfl rfl (by simp)
    (by norm_num) (only_sample ⟨0, two 0 1, xs, xs, rfl, rfl, xs_doubles, xs_doubles,
      cases_ex (P := fun e y => Doubles 2 e y ∧ Moderate 2 xs y) ⟨xs_doubles, moderate_xs⟩ ⟨ys_doubles, moderate_ys⟩,
      far_frobenius⟩)

theorem mid_xs : Mid 2 xs := by
  intro k hk
  have : k = 0 ∨ k = 1 := by omega
  rcases this with rfl | rfl
  · exact .inl rfl
  · refine .inr ?_
    show _ ≤ |(1 : ℚ)| ∧ |(1 : ℚ)| ≤ _
    rw [abs_one]
    exact ⟨zpow_le_one_of_nonpos₀ (by norm_num) (by norm_num), one_le_pow₀ (by norm_num)⟩

theorem mid_ys : Mid 2 ys := by
  intro k hk
  refine .inr ?_
  show _ ≤ |(1 : ℚ)| ∧ |(1 : ℚ)| ≤ _
  rw [abs_one]
  exact ⟨zpow_le_one_of_nonpos₀ (by norm_num) (by norm_num), one_le_pow₀ (by norm_num)⟩

theorem far_cosine (j : ℕ) (e' : Row) (y' : ℕ → ℚ) (hj : [two 0 1, two 1 1][j]? = some e') (hy' : Doubles 2 e' y')
    (hne : ["same", "other"][j]? ≠ ["same", "other"][0]?) :
    cosine 2 xs y' + 2 * ((3 * (2 : ℕ) + 8) / 2 ^ 52) < cosine 2 xs xs := by
  rw [other_label hj hne] at hy'
  have hu := doubles_unique hy' ys_doubles
  have h1 : cosine 2 xs xs = 1 := by
    unfold cosine
    simp [Finset.sum_range_succ, xs]
  have h2 : cosine 2 xs y' ≤ 3 / 4 := by
    unfold cosine
    simp only [Finset.sum_range_succ, Finset.sum_range_zero, hu 0 (by norm_num), hu 1 (by norm_num)]
    have h3 : (4 : ℝ) / 3 ≤ √2 := Real.le_sqrt_of_sq_le (by norm_num)
    norm_num [xs, ys]
    rw [inv_le_comm₀ (by positivity) (by norm_num)]
    norm_num
    exact h3
  rw [h1]
  norm_num
  linarith

/-- C200: the copy is found with `cosine_diff`. -/
example (hL : IsSqrt L.sq) {f : List String}
    (hf : classifyNN [two 0 1] [two 0 1, two 1 1] ["same", "other"] (fun _ _ => cosineDiff L pair) = .ok f) :
    f[0]? = some "same" :=
  C200_nearest hL (n := 2) (by norm_num) (order := fun _ _ => pair) (fun _ _ => pair_adds)
    (reco := [two 0 1]) (ex := [two 0 1, two 1 1]) (labels := ["same", "other"]) rfl hf (i := 0) (c := 0) rfl xs_doubles mid_xs rfl
    xs_doubles (cases_ex (P := fun e y => Doubles 2 e y ∧ Mid 2 y) ⟨xs_doubles, mid_xs⟩ ⟨ys_doubles, mid_ys⟩) far_cosine

/-- C205: the label of the copy is found with `cosine_diff`. -/
example (hL : IsSqrt L.sq) : evaluateNNLabel [two 0 1] [two 0 1, two 1 1] ["same"] ["same", "other"]
    (fun _ _ => cosineDiff L pair) = .ok (.fin 1) :=
  C205_cosine hL (n := 2) (by norm_num) (order := fun _ _ => pair) (fun _ _ => pair_adds) (by simp) rfl rfl (by simp)
    (by norm_num) (cases_ex (P := fun e y => Doubles 2 e y ∧ Mid 2 y) ⟨xs_doubles, mid_xs⟩ ⟨ys_doubles, mid_ys⟩)
    (only_sample ⟨0, two 0 1, xs, xs, rfl, rfl, xs_doubles, mid_xs, xs_doubles, far_cosine⟩)

theorem histo_xs : Histo 2 xs := by
  intro k hk
  have : k = 0 ∨ k = 1 := by omega
  rcases this with rfl | rfl
  · exact ⟨le_rfl, by show (0 : ℚ) ≤ _; positivity⟩
  · exact ⟨zero_le_one, one_le_pow₀ (by norm_num)⟩

theorem histo_ys : Histo 2 ys := fun k hk => ⟨zero_le_one, one_le_pow₀ (by norm_num)⟩

theorem far_kl (j : ℕ) (e' : Row) (y' : ℕ → ℚ) (hj : [two 0 1, two 1 1][j]? = some e') (hy' : Doubles 2 e' y')
    (hne : ["same", "other"][j]? ≠ ["same", "other"][0]?) :
    kl 2 xs xs + klBound 2 xs xs < kl 2 xs y' - klBound 2 xs y' := by
  rw [other_label hj hne] at hy'
  have hu := doubles_unique hy' ys_doubles
  have h1 : kl 2 xs xs = 0 := by
    simp [kl, term, xs]
  have h2 : kl 2 xs y' = 1 := by
    simp [kl, Finset.sum_range_succ, term, hu 0 (by norm_num), hu 1 (by norm_num), xs, ys]
  have b1 : ∑ k ∈ Finset.range 2, size (xs k) (xs k) = 2 := by
    norm_num [Finset.sum_range_succ, size, xs]
  have b2 : ∑ k ∈ Finset.range 2, size (xs k) (y' k) = 3 := by
    norm_num [Finset.sum_range_succ, size, hu 0 (by norm_num), hu 1 (by norm_num), xs, ys]
  have b3 : ((2 : ℕ) : ℝ) / 2 ^ 1072 ≤ 1 / 2 ^ 3 := by
    rw [div_le_div_iff₀ (by positivity) (by positivity), one_mul, show (1072 : ℕ) = 1068 + 4 by norm_num, pow_add]
    have : (1 : ℝ) ≤ 2 ^ 1068 := one_le_pow₀ (by norm_num)
    calc ((2 : ℕ) : ℝ) * 2 ^ 3 = 1 * 2 ^ 4 := by norm_num
      _ ≤ 2 ^ 1068 * 2 ^ 4 := mul_le_mul_of_nonneg_right this (by norm_num)
  unfold klBound
  rw [h1, h2, b1, b2]
  generalize ((2 : ℕ) : ℝ) / 2 ^ 1072 = η at b3
  norm_num at b3 ⊢
  linarith only [b3]

/-- C201: the copy is found with `kl_div`. -/
example (hL : IsLog L.lg) {f : List String}
    (hf : classifyNN [two 0 1] [two 0 1, two 1 1] ["same", "other"] (fun _ _ => klDiv L pair) = .ok f) :
    f[0]? = some "same" :=
  C201_nearest hL (n := 2) (by norm_num) (order := fun _ _ => pair) (fun _ _ => pair_adds)
    (reco := [two 0 1]) (ex := [two 0 1, two 1 1]) (labels := ["same", "other"]) rfl hf (i := 0) (c := 0) rfl xs_doubles histo_xs rfl
    xs_doubles (cases_ex (P := fun e y => Doubles 2 e y ∧ Histo 2 y) ⟨xs_doubles, histo_xs⟩ ⟨ys_doubles, histo_ys⟩) far_kl

/-- C205: the label of the copy is found with `kl_div`. -/
example (hL : IsLog L.lg) : evaluateNNLabel [two 0 1] [two 0 1, two 1 1] ["same"] ["same", "other"]
    (fun _ _ => klDiv L pair) = .ok (.fin 1) :=
  C205_kl hL (n := 2) (by norm_num) (order := fun _ _ => pair) (fun _ _ => pair_adds) (by simp) rfl rfl (by simp)
    (by norm_num) (cases_ex (P := fun e y => Doubles 2 e y ∧ Histo 2 y) ⟨xs_doubles, histo_xs⟩ ⟨ys_doubles, histo_ys⟩)
    (only_sample ⟨0, two 0 1, xs, xs, rfl, rfl, xs_doubles, histo_xs, xs_doubles, far_kl⟩)

/-- C199: the hypotheses of the claim about copies are met. -/
example (hL : IsSqrt L.sq) {f : List String}
    (hf : classifyNN [two 0 1] [two 0 1, two 1 1] ["same", "other"] (fun _ _ => frobenius L pair) = .ok f) :
    ∃ (m : ℕ) (e' : Row) (y : ℕ → ℚ), m ≤ 0 ∧ [two 0 1, two 1 1][m]? = some e' ∧ f[0]? = ["same", "other"][m]? ∧
      m < 2 ∧ Doubles 2 e' y ∧ ∀ k < 2, |xs k - y k| < 2 ^ (-537 : ℤ) :=
  C199_copy hL (order := fun _ _ => pair) (fun _ _ => pair_adds) (reco := [two 0 1]) (labels := ["same", "other"]) rfl
    (cases_ex xs_doubles ys_doubles) hf rfl xs_doubles rfl fun _ _ => rfl

/-- C200: rows without common entries. -/
example (hL : IsSqrt L.sq) : cosineSimilarity L pair (two 0 1) (two 1 0) = .fin 0 := by
  have hb : ∀ q : ℚ, q = 0 ∨ q = 1 → |q| ≤ 2 ^ 200 := by
    rintro q (rfl | rfl)
    · rw [abs_zero]; positivity
    · rw [abs_one]; exact one_le_pow₀ (by norm_num)
  refine C200_orthogonal hL (n := 2) (by norm_num) pair_adds xs_doubles (y := fun k => if k = 0 then 1 else 0) ?_ ?_ ?_ ?_
  · intro k hk
    have : k = 0 ∨ k = 1 := by omega
    rcases this with rfl | rfl
    · exact ⟨rfl, double_one, by decide +kernel⟩
    · exact ⟨rfl, double_zero, by decide +kernel⟩
  · intro k _
    apply hb
    unfold xs
    split_ifs <;> simp
  · intro k _
    apply hb
    beta_reduce
    split_ifs <;> simp
  · intro k hk
    have : k = 0 ∨ k = 1 := by omega
    rcases this with rfl | rfl
    · exact .inl rfl
    · exact .inr rfl

/-- The similarity of rows so small that their squares underflow is not NaN. -/
example (hL : IsSqrt L.sq) : cosineSimilarity L pair (two (2 ^ (-300 : ℤ)) 0) (two (2 ^ (-300 : ℤ)) 0) ≠ .nan ∧
    ge (cosineSimilarity L pair (two (2 ^ (-300 : ℤ)) 0) (two (2 ^ (-300 : ℤ)) 0)) (.fin 0) = true := by
  have hd : Doubles 2 (two (2 ^ (-300 : ℤ)) 0) (fun k => if k = 0 then 2 ^ (-300 : ℤ) else 0) := by
    intro k hk
    have : k = 0 ∨ k = 1 := by omega
    rcases this with rfl | rfl
    · exact ⟨rfl, (dbl_pow_neg (e := -300) (by norm_num) (by norm_num)).1, by decide +kernel⟩
    · exact ⟨rfl, double_zero, by decide +kernel⟩
  have hb : Bounded 2 (fun k => if k = 0 then (2 : ℚ) ^ (-300 : ℤ) else 0) := by
    intro k hk
    have : k = 0 ∨ k = 1 := by omega
    rcases this with rfl | rfl
    · decide +kernel
    · decide +kernel
  obtain ⟨h1, h2⟩ := C200_not_nan hL (n := 2) (by norm_num) pair_adds hd hd hb hb
  have h0 : ∀ k < 2, 0 ≤ (fun k : ℕ => if k = 0 then (2 : ℚ) ^ (-300 : ℤ) else 0) k := by
    intro k _
    beta_reduce
    split_ifs
    · positivity
    · exact le_refl _
  exact ⟨h1, h2 h0 h0⟩

end Verif.Evaluation.D
