import Verif.Evaluation.PropsDouble
import Mathlib.Algebra.Order.BigOperators.Ring.Finset
import Mathlib.Algebra.BigOperators.Field

/-!
# Cosine similarities with doubles (C200)
-/

namespace Verif.Evaluation.D

open Verif Verif.Window
open Verif.NMF.D (double_mul double_pow double_one double_zero dbl_le le_dbl abs_dbl_le)

variable {L : Lib}

/-- **C200.** The similarity does not depend on the order of the two rows, whatever their entries. -/
theorem C200_symm (t : Tree) (a b : Row) : cosineSimilarity L t a b = cosineSimilarity L t b a := by
  unfold cosineSimilarity
  have h : (fun k => mul (a k) (b k)) = fun k => mul (b k) (a k) := funext fun k => mul_comm' _ _
  rw [h, mul_comm' (t.sum fun k => square (a k))]

/-! ### The error of dot products -/

/-- Entries are zeros or numbers of moderate size. -/
def Mid (n : ℕ) (x : ℕ → ℚ) : Prop := ∀ k < n, x k = 0 ∨ 2 ^ (-120 : ℤ) ≤ |x k| ∧ |x k| ≤ 2 ^ 120

theorem mul_err {x y : ℚ} (hx : x = 0 ∨ 2 ^ (-120 : ℤ) ≤ |x| ∧ |x| ≤ 2 ^ 120)
    (hy : y = 0 ∨ 2 ^ (-120 : ℤ) ≤ |y| ∧ |y| ≤ 2 ^ 120) :
    mul (.fin x) (.fin y) = .fin (dbl (x * y)) ∧ Double (dbl (x * y)) ∧ |dbl (x * y)| ≤ 2 ^ 240 ∧
      |dbl (x * y) - x * y| ≤ |x * y| / 2 ^ 53 := by
  have hb : |x * y| ≤ 2 ^ 240 := by
    rw [abs_mul, show (240 : ℕ) = 120 + 120 by norm_num, pow_add]
    have h1 : |x| ≤ 2 ^ 120 := by
      rcases hx with rfl | h
      · rw [abs_zero]; positivity
      · exact h.2
    have h2 : |y| ≤ 2 ^ 120 := by
      rcases hy with rfl | h
      · rw [abs_zero]; positivity
      · exact h.2
    exact mul_le_mul h1 h2 (abs_nonneg _) (by positivity)
  refine ⟨round_of_le (double_pow 240) hb (pow_lt_pow_right₀ (by norm_num) (by norm_num)), dbl_double _,
    abs_dbl_le (double_pow 240) hb, ?_⟩
  rcases hx with rfl | hx
  · simp [dbl_zero]
  rcases hy with rfl | hy
  · simp [dbl_zero]
  apply dbl_rel_ge
  rw [abs_mul]
  have : (2 : ℚ) ^ (-240 : ℤ) ≤ |x| * |y| := by
    rw [show (-240 : ℤ) = -120 + -120 by norm_num, zpow_add₀ (by norm_num)]
    exact mul_le_mul hx.1 hy.1 (two_zpow_pos _).le (abs_nonneg _)
  exact (zpow_le_zpow_right₀ (by norm_num) (by norm_num)).trans this

/-- Sums of products, whatever the order of additions. -/
theorem dot_err {n : ℕ} (hn : n ≤ 2 ^ 48) {t : Tree} (ht : t.Adds n) {a b : Row} {x y : ℕ → ℚ} (ha : Doubles n a x)
    (hb : Doubles n b y) (hx : Mid n x) (hy : Mid n y) :
    ∃ c, t.sum (fun k => mul (a k) (b k)) = .fin c ∧ Double c ∧ |c| ≤ 2 ^ 290 ∧
      |c - ∑ k ∈ Finset.range n, x k * y k| ≤ (n + 1) / 2 ^ 52 * ∑ k ∈ Finset.range n, |x k * y k| := by
  have hz : ∀ k < n, mul (a k) (b k) = .fin (dbl (x k * y k)) ∧ Double (dbl (x k * y k)) ∧ |dbl (x k * y k)| ≤ 2 ^ 240 ∧
      |dbl (x k * y k) - x k * y k| ≤ |x k * y k| / 2 ^ 53 := by
    intro k hk
    rw [(ha k hk).1, (hb k hk).1]
    exact mul_err (hx k hk) (hy k hk)
  have hsum : t.sum (fun k => mul (a k) (b k)) = t.sum fun k => .fin (dbl (x k * y k)) :=
    sum_congr t fun k hk => (hz k (ht.lt hk)).1
  obtain ⟨s, hs, ds, bs⟩ := sum_bd (w := fun k => dbl (x k * y k)) (p := 240) (by norm_num) t (by rw [ht.length]; omega)
    fun k hk => ⟨(hz k (ht.lt hk)).2.1, (hz k (ht.lt hk)).2.2.1⟩
  obtain ⟨_, es⟩ := sum_err t s (fun k hk => (hz k (ht.lt hk)).2.1) hs
  refine ⟨s, by rw [hsum, hs], ds, ?_, ?_⟩
  · refine bs.trans ?_
    rw [ht.length, show (290 : ℕ) = 50 + 240 by norm_num, pow_add]
    have h1 : (n : ℚ) ≤ 2 ^ 48 := by exact_mod_cast hn
    have : (n : ℚ) ≤ 2 ^ 50 := h1.trans (by norm_num)
    gcongr
  · rw [ht.length, sum_leaves ht, sum_leaves ht] at es
    set G := ∑ k ∈ Finset.range n, x k * y k
    set S := ∑ k ∈ Finset.range n, |x k * y k|
    set Z := ∑ k ∈ Finset.range n, dbl (x k * y k)
    set Y := ∑ k ∈ Finset.range n, |dbl (x k * y k)|
    have hS0 : 0 ≤ S := Finset.sum_nonneg fun k _ => abs_nonneg _
    have hZ : |Z - G| ≤ S / 2 ^ 53 := by
      rw [← Finset.sum_sub_distrib, Finset.sum_div]
      exact (Finset.abs_sum_le_sum_abs _ _).trans
        (Finset.sum_le_sum fun k hk => (hz k (Finset.mem_range.1 hk)).2.2.2)
    have hY : Y ≤ (1 + 1 / 2 ^ 53) * S := by
      rw [Finset.mul_sum]
      refine Finset.sum_le_sum fun k hk => ?_
      have h1 := (hz k (Finset.mem_range.1 hk)).2.2.2
      have h2 := abs_sub_abs_le_abs_sub (dbl (x k * y k)) (x k * y k)
      linarith
    set g : ℚ := (1 + 1 / 2 ^ 53) ^ n with hg
    have hg1 : 1 ≤ g := grow_one n
    have hg2 : g * (1 + 1 / 2 ^ 53) ≤ 1 + (n + 1) / 2 ^ 52 := by
      have := grow_le (n + 1) (by omega)
      rw [pow_succ] at this
      push_cast at this
      exact this
    calc |s - G| = |(s - Z) + (Z - G)| := by congr 1; ring
      _ ≤ |s - Z| + |Z - G| := abs_add_le _ _
      _ ≤ (g - 1) * ((1 + 1 / 2 ^ 53) * S) + S / 2 ^ 53 := by
        refine add_le_add (es.trans ?_) hZ
        apply mul_le_mul_of_nonneg_left hY
        linarith
      _ = (g * (1 + 1 / 2 ^ 53) - 1) * S := by ring
      _ ≤ (n + 1) / 2 ^ 52 * S := by
        apply mul_le_mul_of_nonneg_right _ hS0
        linarith

/-- The exact similarity, zero if a row is zero. -/
noncomputable def cosine (n : ℕ) (x y : ℕ → ℚ) : ℝ :=
  ((∑ k ∈ Finset.range n, x k * y k : ℚ) : ℝ) /
    √(((∑ k ∈ Finset.range n, x k * x k) * ∑ k ∈ Finset.range n, y k * y k : ℚ) : ℝ)

/-- Cauchy and Schwarz. -/
theorem abs_dot_le (n : ℕ) (x y : ℕ → ℚ) :
    ((∑ k ∈ Finset.range n, |x k * y k| : ℚ) : ℝ) ≤
      √(((∑ k ∈ Finset.range n, x k * x k) * ∑ k ∈ Finset.range n, y k * y k : ℚ) : ℝ) := by
  apply Real.le_sqrt_of_sq_le
  have h := Finset.sum_mul_sq_le_sq_mul_sq (Finset.range n) (fun k => |x k|) fun k => |y k|
  simp only [sq_abs] at h
  have h2 : (∑ k ∈ Finset.range n, |x k * y k|) ^ 2 ≤
      (∑ k ∈ Finset.range n, x k * x k) * ∑ k ∈ Finset.range n, y k * y k := by
    simp only [abs_mul, ← sq]
    exact h
  exact_mod_cast h2

/-- The sum of the squares of a row which is not zero. -/
theorem squares_ge {n : ℕ} {x : ℕ → ℚ} (hx : Mid n x) (h0 : ∑ k ∈ Finset.range n, x k * x k ≠ 0) :
    2 ^ (-240 : ℤ) ≤ ∑ k ∈ Finset.range n, x k * x k := by
  obtain ⟨k, hk, hne⟩ : ∃ k ∈ Finset.range n, x k * x k ≠ 0 := by
    by_contra hc
    push Not at hc
    exact h0 (Finset.sum_eq_zero hc)
  have h1 : (2 : ℚ) ^ (-240 : ℤ) ≤ x k * x k := by
    rcases hx k (Finset.mem_range.1 hk) with h | h
    · rw [h, mul_zero] at hne
      exact absurd rfl hne
    · rw [← abs_mul_abs_self, show (-240 : ℤ) = -120 + -120 by norm_num, zpow_add₀ (by norm_num)]
      exact mul_le_mul h.1 h.1 (two_zpow_pos _).le (abs_nonneg _)
  exact h1.trans (Finset.single_le_sum (f := fun k => x k * x k) (fun k _ => mul_self_nonneg _) hk)

/-- The error of a product of sums of squares and of its square root. -/
theorem norm_err (hL : IsSqrt L.sq) {n : ℕ} (hn : n ≤ 2 ^ 48) {α β a b : ℚ} (hα : 2 ^ (-240 : ℤ) ≤ α)
    (hβ : 2 ^ (-240 : ℤ) ≤ β) (ha : |a - α| ≤ (n + 1) / 2 ^ 52 * α) (hb : |b - β| ≤ (n + 1) / 2 ^ 52 * β)
    (ba : |a| ≤ 2 ^ 290) (bb : |b| ≤ 2 ^ 290) :
    mul (.fin a) (.fin b) = .fin (dbl (a * b)) ∧ 0 ≤ dbl (a * b) ∧
      |(L.sq (dbl (a * b)) : ℝ) - √((α * β : ℚ) : ℝ)| ≤ (n + 3) / 2 ^ 52 * √((α * β : ℚ) : ℝ) := by
  have hα0 : 0 < α := lt_of_lt_of_le (two_zpow_pos _) hα
  have hβ0 : 0 < β := lt_of_lt_of_le (two_zpow_pos _) hβ
  have hnq : (n : ℚ) ≤ 2 ^ 48 := by exact_mod_cast hn
  set ε : ℚ := (n + 1) / 2 ^ 52 with hε
  have hε0 : 0 ≤ ε := by positivity
  have hε1 : ε ≤ 1 / 8 := by
    rw [hε, div_le_iff₀ (by norm_num)]
    linarith
  rw [abs_le] at ha hb
  have la : (1 - ε) * α ≤ a := by linarith [ha.1]
  have ua : a ≤ (1 + ε) * α := by linarith [ha.2]
  have lb : (1 - ε) * β ≤ b := by linarith [hb.1]
  have ub : b ≤ (1 + ε) * β := by linarith [hb.2]
  have ha0 : 0 < a := lt_of_lt_of_le (mul_pos (by linarith) hα0) la
  have hb0 : 0 < b := lt_of_lt_of_le (mul_pos (by linarith) hβ0) lb
  have hab0 := mul_pos ha0 hb0
  have bab : |a * b| ≤ 2 ^ 580 := by
    rw [abs_mul, show (580 : ℕ) = 290 + 290 by norm_num, pow_add]
    exact mul_le_mul ba bb (abs_nonneg _) (by positivity)
  have lab : (1 - ε) ^ 2 * (α * β) ≤ a * b := by
    have := mul_le_mul la lb (mul_nonneg (by linarith) hβ0.le) ha0.le
    linarith
  have uab : a * b ≤ (1 + ε) ^ 2 * (α * β) := by
    have := mul_le_mul ua ub hb0.le (mul_nonneg (by linarith) hα0.le)
    linarith
  have hαβ : (2 : ℚ) ^ (-480 : ℤ) ≤ α * β := by
    rw [show (-480 : ℤ) = -240 + -240 by norm_num, zpow_add₀ (by norm_num)]
    exact mul_le_mul hα hβ (two_zpow_pos _).le hα0.le
  have hlow : (2 : ℚ) ^ (-1022 : ℤ) ≤ |a * b| := by
    rw [abs_of_pos hab0]
    have h1 : (2 : ℚ) ^ (-481 : ℤ) ≤ a * b := by
      have h2 : (2 : ℚ) ^ (-481 : ℤ) = 2 ^ (-480 : ℤ) / 2 := by
        rw [show (-481 : ℤ) = -480 - 1 by norm_num, zpow_sub_one₀ (by norm_num)]
        rfl
      rw [h2]
      have h3 : 1 / 2 * (α * β) ≤ (1 - ε) ^ 2 * (α * β) := by
        apply mul_le_mul_of_nonneg_right _ (mul_pos hα0 hβ0).le
        nlinarith only [hε0, hε1]
      linarith only [h3, lab, hαβ]
    exact (zpow_le_zpow_right₀ (by norm_num) (by norm_num)).trans h1
  have hP := dbl_rel_ge hlow
  rw [abs_of_pos hab0, abs_le] at hP
  clear hlow
  set P := dbl (a * b) with hPd
  have hP0 : 0 ≤ P := dbl_nonneg hab0.le
  have lP : (1 - 1 / 2 ^ 53) * (a * b) ≤ P := by linarith only [hP.1]
  have uP : P ≤ (1 + 1 / 2 ^ 53) * (a * b) := by linarith only [hP.2]
  refine ⟨round_of_le (double_pow 580) bab (pow_lt_pow_right₀ (by norm_num) (by norm_num)), hP0, ?_⟩
  have hq := sq_rel hL (dbl_double (a * b)) hP0
  set N := √((α * β : ℚ) : ℝ) with hN
  have hN0 : 0 ≤ N := Real.sqrt_nonneg _
  have lo : ((1 - 1 / 2 ^ 53) * (1 - ε)) ^ 2 * (α * β) ≤ P := by
    have h1 : (0 : ℚ) ≤ α * β := (mul_pos hα0 hβ0).le
    calc ((1 - 1 / 2 ^ 53) * (1 - ε)) ^ 2 * (α * β) = (1 - 1 / 2 ^ 53) ^ 2 * ((1 - ε) ^ 2 * (α * β)) := by ring
      _ ≤ (1 - 1 / 2 ^ 53) * ((1 - ε) ^ 2 * (α * β)) := by
        exact mul_le_mul_of_nonneg_right (by norm_num) (mul_nonneg (sq_nonneg _) h1)
      _ ≤ (1 - 1 / 2 ^ 53) * (a * b) := mul_le_mul_of_nonneg_left lab (by norm_num)
      _ ≤ P := lP
  have up : P ≤ ((1 + 1 / 2 ^ 53) * (1 + ε)) ^ 2 * (α * β) := by
    have h1 : (0 : ℚ) ≤ α * β := (mul_pos hα0 hβ0).le
    calc P ≤ (1 + 1 / 2 ^ 53) * (a * b) := uP
      _ ≤ (1 + 1 / 2 ^ 53) * ((1 + ε) ^ 2 * (α * β)) := mul_le_mul_of_nonneg_left uab (by norm_num)
      _ ≤ (1 + 1 / 2 ^ 53) ^ 2 * ((1 + ε) ^ 2 * (α * β)) := by
        exact mul_le_mul_of_nonneg_right (by norm_num) (mul_nonneg (sq_nonneg _) h1)
      _ = _ := by ring
  have loR : ((1 - 1 / 2 ^ 53) * (1 - (ε : ℝ))) * N ≤ √(P : ℝ) := by
    have h7 : (0 : ℝ) ≤ (1 - 1 / 2 ^ 53) * (1 - (ε : ℝ)) := by
      have h8 : (0 : ℚ) ≤ (1 - 1 / 2 ^ 53) * (1 - ε) := mul_nonneg (by norm_num) (by linarith only [hε1])
      have h9 := (Rat.cast_le (K := ℝ)).2 h8
      push_cast at h9
      exact h9
    rw [← Real.sqrt_sq h7, hN, ← Real.sqrt_mul (sq_nonneg _)]
    apply Real.sqrt_le_sqrt
    have h8 := (Rat.cast_le (K := ℝ)).2 lo
    push_cast at h8 ⊢
    exact h8
  have upR : √(P : ℝ) ≤ ((1 + 1 / 2 ^ 53) * (1 + (ε : ℝ))) * N := by
    have h7 : (0 : ℝ) ≤ (1 + 1 / 2 ^ 53) * (1 + (ε : ℝ)) := by
      have h8 : (0 : ℚ) ≤ (1 + 1 / 2 ^ 53) * (1 + ε) := mul_nonneg (by norm_num) (by linarith only [hε0])
      have h9 := (Rat.cast_le (K := ℝ)).2 h8
      push_cast at h9
      exact h9
    rw [← Real.sqrt_sq h7, hN, ← Real.sqrt_mul (sq_nonneg _)]
    apply Real.sqrt_le_sqrt
    have h8 := (Rat.cast_le (K := ℝ)).2 up
    push_cast at h8 ⊢
    exact h8
  have hεR : (ε : ℝ) = ((n : ℝ) + 1) / 2 ^ 52 := by rw [hε]; push_cast; ring
  have hεR0 : (0 : ℝ) ≤ ε := by exact_mod_cast hε0
  have hεR1 : (ε : ℝ) ≤ 1 / 8 := by
    have h9 := (Rat.cast_le (K := ℝ)).2 hε1
    push_cast at h9
    exact h9
  have hgoal : ((n : ℝ) + 3) / 2 ^ 52 = ε + 2 / 2 ^ 52 := by rw [hεR]; ring
  rw [hgoal]
  rw [abs_le] at hq ⊢
  have hs0 := Real.sqrt_nonneg (P : ℝ)
  have l2 : (1 - 1 / 2 ^ 53) * (((1 - 1 / 2 ^ 53) * (1 - (ε : ℝ))) * N) ≤ (1 - 1 / 2 ^ 53) * √(P : ℝ) :=
    mul_le_mul_of_nonneg_left loR (by norm_num)
  have u2 : (1 + 1 / 2 ^ 53) * √(P : ℝ) ≤ (1 + 1 / 2 ^ 53) * (((1 + 1 / 2 ^ 53) * (1 + (ε : ℝ))) * N) :=
    mul_le_mul_of_nonneg_left upR (by norm_num)
  have hεN : 0 ≤ (ε : ℝ) * N := mul_nonneg hεR0 hN0
  have hεN2 : (ε : ℝ) * N ≤ N / 8 := by nlinarith only [hεR1, hN0]
  constructor
  · linarith only [hq.1, l2, hεN, hεN2, hN0]
  · linarith only [hq.2, u2, hεN, hεN2, hN0]

/-- The divisor of a similarity which is zero. -/
theorem add_one (hL : IsSqrt L.sq) {P : ℚ} (hP0 : 0 ≤ P) (h3 : P < 2 ^ 1024) :
    ∃ z, 0 < z ∧ add (.fin (L.sq P)) (.fin 1) = .fin z := by
  have hwq := sq_nonneg' hL hP0
  refine ⟨dbl (L.sq P + 1), ?_, ?_⟩
  · exact lt_of_lt_of_le one_pos (le_dbl double_one (by linarith only [hwq]))
  · apply round_of_le (double_pow 600) _ (pow_lt_pow_right₀ (by norm_num) (by norm_num))
    have h1 : L.sq P ≤ 2 ^ 513 := by
      have h2 := sq_le hL hP0
      have h5 : √(P : ℝ) ≤ 2 ^ 512 := by
        rw [Real.sqrt_le_left (by positivity), ← pow_mul]
        have h6 := (Rat.cast_lt (K := ℝ)).2 h3
        push_cast at h6
        exact h6.le
      have h7 : (L.sq P : ℝ) ≤ ((2 ^ 513 : ℚ) : ℝ) := by
        push_cast
        calc (L.sq P : ℝ) ≤ 2 * 2 ^ 512 := by linarith only [h2, h5]
          _ = 2 ^ 513 := by rw [← pow_succ']
      exact_mod_cast h7
    rw [abs_of_pos (by linarith only [hwq])]
    have h8 : (2 : ℚ) ^ 513 + 1 ≤ 2 ^ 513 + 2 ^ 513 := by
      have : (1 : ℚ) ≤ 2 ^ 513 := one_le_pow₀ (by norm_num)
      exact add_le_add le_rfl this
    have h9 : (2 : ℚ) ^ 513 + 2 ^ 513 = 2 ^ 514 := by rw [← two_mul, ← pow_succ']
    have h10 : (2 : ℚ) ^ 514 ≤ 2 ^ 600 := pow_le_pow_right₀ (by norm_num) (by norm_num)
    exact (add_le_add h1 le_rfl).trans (h8.trans (h9.le.trans h10))

/-- **C200.** The error of a similarity, whatever the order of additions. -/
theorem C200_error (hL : IsSqrt L.sq) {n : ℕ} (hn : n ≤ 2 ^ 48) {t : Tree} (ht : t.Adds n) {a b : Row} {x y : ℕ → ℚ}
    (ha : Doubles n a x) (hb : Doubles n b y) (hx : Mid n x) (hy : Mid n y) :
    ∃ d, cosineSimilarity L t a b = .fin d ∧ |(d : ℝ) - cosine n x y| ≤ (3 * n + 8) / 2 ^ 52 := by
  obtain ⟨c, hc, dc, bc, ec⟩ := dot_err hn ht ha hb hx hy
  obtain ⟨p, hp, dp, bp, ep⟩ := dot_err hn ht ha ha hx hx
  obtain ⟨q, hq, dq, bq, eq⟩ := dot_err hn ht hb hb hy hy
  have hunf : cosineSimilarity L t a b = div (.fin c) (add (sqrt L (mul (.fin p) (.fin q))) (.fin (if Flt.fin c = .fin 0 then 1 else 0))) := by
    unfold cosineSimilarity
    simp only [square]
    rw [hc, hp, hq]
  have hself : ∀ z : ℕ → ℚ, ∑ k ∈ Finset.range n, |z k * z k| = ∑ k ∈ Finset.range n, z k * z k :=
    fun z => Finset.sum_congr rfl fun k _ => abs_of_nonneg (mul_self_nonneg _)
  rw [hself] at ep eq
  have hS := abs_dot_le n x y
  unfold cosine
  set γ := ∑ k ∈ Finset.range n, x k * y k with hγ
  set S := ∑ k ∈ Finset.range n, |x k * y k| with hSd
  set α := ∑ k ∈ Finset.range n, x k * x k with hα
  set β := ∑ k ∈ Finset.range n, y k * y k with hβ
  have hγS : |γ| ≤ S := Finset.abs_sum_le_sum_abs _ _
  have hS0 : 0 ≤ S := (abs_nonneg _).trans hγS
  have hbnd : (0 : ℝ) ≤ (3 * (n : ℝ) + 8) / 2 ^ 52 := by positivity
  have hα0 : 0 ≤ α := Finset.sum_nonneg fun k _ => mul_self_nonneg _
  have hβ0 : 0 ≤ β := Finset.sum_nonneg fun k _ => mul_self_nonneg _
  by_cases hz : α * β = 0
  · -- a row is zero
    rw [hz] at hS ⊢
    rw [Rat.cast_zero, Real.sqrt_zero] at hS
    have hS1 : S ≤ 0 := by exact_mod_cast hS
    have hS2 : S = 0 := le_antisymm hS1 hS0
    rw [hS2, mul_zero] at ec
    have hγ0 : γ = 0 := by
      rw [hS2] at hγS
      exact abs_nonpos_iff.1 hγS
    have hc0 : c = 0 := by
      rw [hγ0, sub_zero] at ec
      exact abs_nonpos_iff.1 ec
    have hpq : p * q = 0 := by
      rcases mul_eq_zero.1 hz with h | h
      · rw [h, mul_zero, sub_zero] at ep
        rw [abs_nonpos_iff.1 ep, zero_mul]
      · rw [h, mul_zero, sub_zero] at eq
        rw [abs_nonpos_iff.1 eq, mul_zero]
    refine ⟨0, ?_, ?_⟩
    · rw [hunf, hc0, if_pos rfl]
      have h1 : mul (.fin p) (.fin q) = .fin 0 := by
        show round (p * q) = _
        rw [hpq, round_dbl dbl_zero']
      rw [h1]
      have h2 : sqrt L (.fin 0) = .fin 0 := by simp [sqrt, sq_zero hL]
      rw [h2]
      have h3 : add (.fin 0) (.fin 1) = .fin 1 := by
        show round (0 + 1) = _
        rw [zero_add]
        exact round_dbl ⟨double_one, by rw [abs_one]; exact one_lt_pow₀ (by norm_num) (by norm_num)⟩
      rw [h3]
      show (if (1 : ℚ) = 0 then (if (0 : ℚ) = 0 then .nan else .inf (decide ((0 : ℚ) < 0))) else round (0 / 1)) = _
      rw [if_neg one_ne_zero, zero_div, round_dbl dbl_zero']
    · rw [hγ0, Rat.cast_zero, zero_div, sub_zero, abs_zero]
      exact hbnd
  · have hαn : α ≠ 0 := fun h => hz (by rw [h, zero_mul])
    have hβn : β ≠ 0 := fun h => hz (by rw [h, mul_zero])
    obtain ⟨hm, hP0, hN⟩ := norm_err hL hn (squares_ge hx hαn) (squares_ge hy hβn) ep eq bp bq
    rw [hm] at hunf
    set P := dbl (p * q)
    set N := √((α * β : ℚ) : ℝ) with hNd
    have hsq : sqrt L (.fin P) = .fin (L.sq P) := by simp [sqrt, not_lt.2 hP0]
    rw [hsq] at hunf
    have hN1 : 0 < N := Real.sqrt_pos.2 (by
      have : 0 < α * β := lt_of_le_of_ne (mul_nonneg hα0 hβ0) (Ne.symm hz)
      exact_mod_cast this)
    have hnR : (n : ℝ) ≤ 2 ^ 48 := by exact_mod_cast hn
    set η : ℝ := ((n : ℝ) + 3) / 2 ^ 52 with hη
    have hη0 : 0 ≤ η := by positivity
    have hη1 : η ≤ 1 / 8 := by
      rw [hη, div_le_iff₀ (by norm_num)]
      linarith
    rw [abs_le] at hN
    set w : ℝ := (L.sq P : ℝ) with hw
    have hw1 : (1 - η) * N ≤ w := by linarith [hN.1]
    have hw0 : 0 < w := lt_of_lt_of_le (mul_pos (by linarith) hN1) hw1
    have hwq : 0 < L.sq P := (Rat.cast_pos (K := ℝ)).1 hw0
    have hγN : |(γ : ℝ)| ≤ N := by
      have : |(γ : ℝ)| ≤ (S : ℝ) := by exact_mod_cast hγS
      exact this.trans hS
    have ecR : |(c : ℝ) - γ| ≤ ((n : ℝ) + 1) / 2 ^ 52 * N := by
      have h1 := (Rat.cast_le (K := ℝ)).2 ec
      push_cast at h1
      have h2 : ((n : ℝ) + 1) / 2 ^ 52 * (S : ℝ) ≤ ((n : ℝ) + 1) / 2 ^ 52 * N :=
        mul_le_mul_of_nonneg_left hS (by positivity)
      exact h1.trans h2
    have hratio : |(c : ℝ) / w - γ / N| ≤ (3 * (n : ℝ) + 5) / 2 ^ 52 := by
      have h1 : (c : ℝ) / w - γ / N = ((c - γ) * N + γ * (N - w)) / (w * N) := by
        field_simp
        ring
      rw [h1, abs_div, abs_of_pos (mul_pos hw0 hN1), div_le_iff₀ (mul_pos hw0 hN1)]
      have h2 : |N - w| ≤ η * N := by
        rw [abs_le]
        constructor <;> linarith [hN.1, hN.2]
      have h3 : |(γ : ℝ) * (N - w)| ≤ N * (η * N) := by
        rw [abs_mul]
        exact mul_le_mul hγN h2 (abs_nonneg _) hN1.le
      have h4 : |((c : ℝ) - γ) * N| ≤ ((n : ℝ) + 1) / 2 ^ 52 * N * N := by
        rw [abs_mul, abs_of_pos hN1]
        exact mul_le_mul_of_nonneg_right ecR hN1.le
      have h5 : ((n : ℝ) + 1) / 2 ^ 52 + η ≤ (3 * (n : ℝ) + 5) / 2 ^ 52 * (1 - η) := by
        have h6 : ((n : ℝ) + 1) / 2 ^ 52 + η = (2 * n + 4) / 2 ^ 52 := by rw [hη]; ring
        have h7 : (3 * (n : ℝ) + 5) / 2 ^ 52 * (7 / 8) ≤ (3 * (n : ℝ) + 5) / 2 ^ 52 * (1 - η) :=
          mul_le_mul_of_nonneg_left (by linarith) (by positivity)
        have h8 : (2 * (n : ℝ) + 4) / 2 ^ 52 ≤ (3 * (n : ℝ) + 5) / 2 ^ 52 * (7 / 8) := by
          rw [div_mul_eq_mul_div, div_le_div_iff_of_pos_right (by norm_num)]
          have : (0 : ℝ) ≤ n := Nat.cast_nonneg n
          linarith
        linarith
      calc |((c : ℝ) - γ) * N + γ * (N - w)| ≤ ((n : ℝ) + 1) / 2 ^ 52 * N * N + N * (η * N) :=
            (abs_add_le _ _).trans (add_le_add h4 h3)
        _ = (((n : ℝ) + 1) / 2 ^ 52 + η) * (N * N) := by ring
        _ ≤ ((3 * (n : ℝ) + 5) / 2 ^ 52 * (1 - η)) * (N * N) := mul_le_mul_of_nonneg_right h5 (by positivity)
        _ = (3 * (n : ℝ) + 5) / 2 ^ 52 * (((1 - η) * N) * N) := by ring
        _ ≤ (3 * (n : ℝ) + 5) / 2 ^ 52 * (w * N) := by gcongr
    have hcw : |(c : ℝ) / w| ≤ 2 := by
      have h1 : |(γ : ℝ) / N| ≤ 1 := by
        rw [abs_div, abs_of_pos hN1, div_le_one hN1]
        exact hγN
      have h2 : (3 * (n : ℝ) + 5) / 2 ^ 52 ≤ 1 := by
        rw [div_le_one (by norm_num)]
        linarith
      have h3 : |(c : ℝ) / w| ≤ |(c : ℝ) / w - γ / N| + |(γ : ℝ) / N| := by
        have := abs_add_le ((c : ℝ) / w - γ / N) (γ / N)
        rwa [sub_add_cancel] at this
      linarith
    have hcq : |c / L.sq P| ≤ 2 := by
      rw [hw] at hcw
      exact_mod_cast hcw
    have hdiv : cosineSimilarity L t a b = .fin (dbl (c / L.sq P)) := by
      by_cases hc0 : c = 0
      · rw [hunf, hc0, if_pos rfl, zero_div, dbl_zero]
        have h3 : |P| < 2 ^ 1024 := by
          have h4 : |p * q| ≤ 2 ^ 580 := by
            rw [abs_mul, show (580 : ℕ) = 290 + 290 by norm_num, pow_add]
            exact mul_le_mul bp bq (abs_nonneg _) (by positivity)
          exact lt_of_le_of_lt (abs_dbl_le (double_pow 580) h4) (pow_lt_pow_right₀ (by norm_num) (by norm_num))
        have := add_one hL hP0 (lt_of_abs_lt h3)
        obtain ⟨z, hz0, hz⟩ := this
        rw [hz]
        show (if z = 0 then _ else round (0 / z)) = _
        rw [if_neg hz0.ne', zero_div, round_dbl dbl_zero']
      · rw [hunf, if_neg (by simpa using hc0)]
        have h1 : add (.fin (L.sq P)) (.fin 0) = .fin (L.sq P) := by
          show round (L.sq P + 0) = _
          rw [add_zero]
          apply round_dbl
          apply sq_dbl hL hP0
          have h4 : |p * q| ≤ 2 ^ 580 := by
            rw [abs_mul, show (580 : ℕ) = 290 + 290 by norm_num, pow_add]
            exact mul_le_mul bp bq (abs_nonneg _) (by positivity)
          have h5 : |P| < 2 ^ 1024 :=
            lt_of_le_of_lt (abs_dbl_le (double_pow 580) h4) (pow_lt_pow_right₀ (by norm_num) (by norm_num))
          exact lt_of_abs_lt h5
        rw [h1]
        show (if L.sq P = 0 then _ else round (c / L.sq P)) = _
        rw [if_neg hwq.ne']
        apply round_of_le (B := 2) _ hcq
        · calc (2 : ℚ) = 2 ^ 1 := by norm_num
            _ < 2 ^ 1024 := pow_lt_pow_right₀ (by norm_num) (by norm_num)
        · simpa using double_pow 1
    refine ⟨_, hdiv, ?_⟩
    have hr := dbl_near (c / L.sq P)
    have hr2 : |dbl (c / L.sq P) - c / L.sq P| ≤ 2 / 2 ^ 52 := by
      refine hr.trans ?_
      have h1 : (1 : ℚ) / 2 ^ 1075 ≤ 1 / 2 ^ 53 := by
        apply one_div_le_one_div_of_le (by positivity)
        exact pow_le_pow_right₀ (by norm_num) (by norm_num)
      have h2 : |c / L.sq P| / 2 ^ 53 ≤ 2 / 2 ^ 53 := by gcongr
      have h3 : (2 : ℚ) / 2 ^ 53 + 1 / 2 ^ 53 ≤ 2 / 2 ^ 52 := by norm_num
      linarith
    have hr3 : |(dbl (c / L.sq P) : ℝ) - c / w| ≤ 2 / 2 ^ 52 := by
      have h1 := (Rat.cast_le (K := ℝ)).2 hr2
      push_cast at h1
      exact h1
    calc |(dbl (c / L.sq P) : ℝ) - γ / N| = |((dbl (c / L.sq P) : ℝ) - c / w) + (c / w - γ / N)| := by congr 1; ring
      _ ≤ 2 / 2 ^ 52 + (3 * (n : ℝ) + 5) / 2 ^ 52 := (abs_add_le _ _).trans (add_le_add hr3 hratio)
      _ ≤ (3 * (n : ℝ) + 8) / 2 ^ 52 := by
        rw [← add_div, div_le_div_iff_of_pos_right (by norm_num)]
        linarith

/-- Entries are not so large that similarities overflow. -/
def Bounded (n : ℕ) (x : ℕ → ℚ) : Prop := ∀ k < n, |x k| ≤ 2 ^ 200

/-- Sums of products of such entries are finite. -/
theorem dot_fin {n : ℕ} (hn : n ≤ 2 ^ 53) {t : Tree} (ht : t.Adds n) {a b : Row} {x y : ℕ → ℚ} (ha : Doubles n a x)
    (hb : Doubles n b y) (hx : Bounded n x) (hy : Bounded n y) :
    (∀ k < n, mul (a k) (b k) = .fin (dbl (x k * y k))) ∧
      ∃ c, t.sum (fun k => mul (a k) (b k)) = .fin c ∧ Double c ∧ |c| ≤ 2 ^ 453 := by
  have hk : ∀ k < n, |x k * y k| ≤ 2 ^ 400 := by
    intro k hk
    rw [abs_mul, show (400 : ℕ) = 200 + 200 by norm_num, pow_add]
    exact mul_le_mul (hx k hk) (hy k hk) (abs_nonneg _) (by positivity)
  have hz : ∀ k < n, mul (a k) (b k) = .fin (dbl (x k * y k)) := by
    intro k hlt
    rw [(ha k hlt).1, (hb k hlt).1]
    exact round_of_le (double_pow 400) (hk k hlt) (pow_lt_pow_right₀ (by norm_num) (by norm_num))
  refine ⟨hz, ?_⟩
  have hsum : t.sum (fun k => mul (a k) (b k)) = t.sum fun k => .fin (dbl (x k * y k)) :=
    sum_congr t fun k hk => hz k (ht.lt hk)
  obtain ⟨s, hs, ds, bs⟩ := sum_bd (w := fun k => dbl (x k * y k)) (p := 400) (by norm_num) t (by rw [ht.length]; omega)
    fun k hlt => ⟨dbl_double _, abs_dbl_le (double_pow 400) (hk k (ht.lt hlt))⟩
  refine ⟨s, by rw [hsum, hs], ds, bs.trans ?_⟩
  rw [ht.length, show (453 : ℕ) = 53 + 400 by norm_num, pow_add]
  have h1 : (n : ℚ) ≤ 2 ^ 53 := by exact_mod_cast hn
  exact mul_le_mul_of_nonneg_right h1 (by positivity)

/-- Sums of squares. -/
theorem squares_fin {n : ℕ} (hn : n ≤ 2 ^ 53) {t : Tree} (ht : t.Adds n) {a : Row} {x : ℕ → ℚ} (ha : Doubles n a x)
    (hx : Bounded n x) : ∃ p, t.sum (fun k => mul (a k) (a k)) = .fin p ∧ Double p ∧ 0 ≤ p ∧ |p| ≤ 2 ^ 453 ∧
      ∀ k < n, dbl (x k * x k) ≤ p := by
  obtain ⟨hz, p, hp, dp, bp⟩ := dot_fin hn ht ha ha hx hx
  have hnn : ∀ k ∈ t.leaves, NonNeg (mul (a k) (a k)) := by
    intro k hk
    rw [(ha k (ht.lt hk)).1]
    exact round_nonneg (mul_self_nonneg _)
  obtain ⟨_, p0, hge⟩ := sum_ge t hnn p hp
  refine ⟨p, hp, dp, p0, bp, fun k hk => ?_⟩
  obtain ⟨y, e, hy⟩ := hge k (ht.mem hk)
  rw [hz k hk] at e
  injection e with e
  rw [e]
  exact hy

/-- The product of two of them, and its root. -/
theorem root_fin (hL : IsSqrt L.sq) {p q : ℚ} (hp : 0 ≤ p) (hq : 0 ≤ q) (bp : |p| ≤ 2 ^ 453) (bq : |q| ≤ 2 ^ 453) :
    ∃ P, mul (.fin p) (.fin q) = .fin P ∧ P = dbl (p * q) ∧ 0 ≤ P ∧ P < 2 ^ 1024 ∧ sqrt L (.fin P) = .fin (L.sq P) := by
  have hpq : |p * q| ≤ 2 ^ 906 := by
    rw [abs_mul, show (906 : ℕ) = 453 + 453 by norm_num, pow_add]
    exact mul_le_mul bp bq (abs_nonneg _) (by positivity)
  have h0 := dbl_nonneg (mul_nonneg hp hq)
  refine ⟨dbl (p * q), round_of_le (double_pow 906) hpq (pow_lt_pow_right₀ (by norm_num) (by norm_num)), rfl, h0, ?_, ?_⟩
  · exact lt_of_abs_lt (lt_of_le_of_lt (abs_dbl_le (double_pow 906) hpq) (pow_lt_pow_right₀ (by norm_num) (by norm_num)))
  · simp [sqrt, not_lt.2 h0]

/-- **C200.** The similarity of a row with itself is exactly 1, if it has an entry which is not tiny. -/
theorem C200_self (hL : IsSqrt L.sq) {n : ℕ} (hn : n ≤ 2 ^ 53) {t : Tree} (ht : t.Adds n) {a : Row} {x : ℕ → ℚ}
    (ha : Doubles n a x) (hx : Bounded n x) (h0 : ∃ k < n, 2 ^ (-200 : ℤ) ≤ |x k|) : cosineSimilarity L t a a = .fin 1 := by
  obtain ⟨p, hp, dp, p0, bp, lp⟩ := squares_fin hn ht ha hx
  obtain ⟨k, hk, hbig⟩ := h0
  have hp1 : (2 : ℚ) ^ (-400 : ℤ) ≤ p := by
    refine le_trans (le_dbl (dbl_pow_neg (e := -400) (by norm_num) (by norm_num)).1 ?_) (lp k hk)
    rw [← abs_mul_abs_self, show (-400 : ℤ) = -200 + -200 by norm_num, zpow_add₀ (by norm_num)]
    exact mul_le_mul hbig hbig (two_zpow_pos _).le (abs_nonneg _)
  have hp2 : (2 : ℚ) ^ (-500 : ℤ) ≤ p := (zpow_le_zpow_right₀ (by norm_num) (by norm_num)).trans hp1
  have hp0 : 0 < p := lt_of_lt_of_le (two_zpow_pos _) hp1
  obtain ⟨P, hm, rfl, _, _, hsq⟩ := root_fin hL p0 p0 bp bp
  rw [sq_dbl_mul_self hL dp hp2] at hsq
  unfold cosineSimilarity
  simp only [square]
  rw [hp, hm, hsq, if_neg (by simpa using hp0.ne')]
  have hadd : add (.fin p) (.fin 0) = .fin p := by
    show round (p + 0) = _
    rw [add_zero]
    exact round_dbl ⟨dp, lt_of_le_of_lt bp (pow_lt_pow_right₀ (by norm_num) (by norm_num))⟩
  rw [hadd]
  show (if p = 0 then (if p = 0 then .nan else .inf (decide (p < 0))) else round (p / p)) = _
  rw [if_neg hp0.ne', div_self hp0.ne']
  exact round_dbl ⟨double_one, by rw [abs_one]; exact one_lt_pow₀ (by norm_num) (by norm_num)⟩

/-- **C200.** The similarity of rows which have no entry in common is exactly 0, in particular with a row of zeros. -/
theorem C200_orthogonal (hL : IsSqrt L.sq) {n : ℕ} (hn : n ≤ 2 ^ 53) {t : Tree} (ht : t.Adds n) {a b : Row} {x y : ℕ → ℚ}
    (ha : Doubles n a x) (hb : Doubles n b y) (hx : Bounded n x) (hy : Bounded n y) (h0 : ∀ k < n, x k = 0 ∨ y k = 0) :
    cosineSimilarity L t a b = .fin 0 := by
  obtain ⟨p, hp, _, p0, bp, _⟩ := squares_fin hn ht ha hx
  obtain ⟨q, hq, _, q0, bq, _⟩ := squares_fin hn ht hb hy
  have hc : t.sum (fun k => mul (a k) (b k)) = .fin 0 := by
    refine sum_zero t fun k hk => ?_
    rw [(dot_fin hn ht ha hb hx hy).1 k (ht.lt hk)]
    have : x k * y k = 0 := by
      rcases h0 k (ht.lt hk) with h | h <;> rw [h] <;> simp
    rw [this, dbl_zero]
  obtain ⟨P, hm, _, hP0, hP1, hsq⟩ := root_fin hL p0 q0 bp bq
  obtain ⟨z, hz0, hz⟩ := add_one hL hP0 hP1
  unfold cosineSimilarity
  simp only [square]
  rw [hc, hp, hq, hm, hsq, if_pos rfl, hz]
  show (if z = 0 then (if (0 : ℚ) = 0 then .nan else .inf (decide ((0 : ℚ) < 0))) else round (0 / z)) = _
  rw [if_neg hz0.ne', zero_div, round_dbl dbl_zero']

/-- **C200.** The similarity of rows whose entries are not so large is never NaN, nor negative for rows whose entries are
not. -/
theorem C200_not_nan (hL : IsSqrt L.sq) {n : ℕ} (hn : n ≤ 2 ^ 53) {t : Tree} (ht : t.Adds n) {a b : Row} {x y : ℕ → ℚ}
    (ha : Doubles n a x) (hb : Doubles n b y) (hx : Bounded n x) (hy : Bounded n y) :
    cosineSimilarity L t a b ≠ .nan ∧
      ((∀ k < n, 0 ≤ x k) → (∀ k < n, 0 ≤ y k) → ge (cosineSimilarity L t a b) (.fin 0) = true) := by
  obtain ⟨p, hp, _, p0, bp, _⟩ := squares_fin hn ht ha hx
  obtain ⟨q, hq, _, q0, bq, _⟩ := squares_fin hn ht hb hy
  obtain ⟨hz, c, hc, dc, bc⟩ := dot_fin hn ht ha hb hx hy
  have hc0 : (∀ k < n, 0 ≤ x k) → (∀ k < n, 0 ≤ y k) → 0 ≤ c := by
    intro h1 h2
    refine (sum_ge t (fun k hk => ?_) c hc).2.1
    rw [(ha k (ht.lt hk)).1, (hb k (ht.lt hk)).1]
    exact round_nonneg (mul_nonneg (h1 k (ht.lt hk)) (h2 k (ht.lt hk)))
  obtain ⟨P, hm, _, hP0, hP1, hsq⟩ := root_fin hL p0 q0 bp bq
  have hs0 := sq_nonneg' hL hP0
  have hsd := sq_dbl hL hP0 hP1
  have hval : cosineSimilarity L t a b = div (.fin c) (add (.fin (L.sq P)) (.fin (if Flt.fin c = .fin 0 then 1 else 0))) := by
    unfold cosineSimilarity
    simp only [square]
    rw [hc, hp, hq, hm, hsq]
  rw [hval]
  by_cases h0 : c = 0
  · obtain ⟨z, hz0, hz⟩ := add_one hL hP0 hP1
    subst h0
    rw [if_pos rfl, hz]
    have : div (.fin 0) (.fin z) = .fin 0 := by
      show (if z = 0 then _ else round (0 / z)) = _
      rw [if_neg hz0.ne', zero_div, round_dbl dbl_zero']
    rw [this]
    exact ⟨by simp, fun _ _ => by simp [ge]⟩
  · rw [if_neg (by simpa using h0)]
    have hadd : add (.fin (L.sq P)) (.fin 0) = .fin (L.sq P) := by
      show round (L.sq P + 0) = _
      rw [add_zero, round_dbl hsd]
    rw [hadd]
    have hdiv : div (.fin c) (.fin (L.sq P)) =
        if L.sq P = 0 then .inf (decide (c < 0)) else round (c / L.sq P) := by
      show (if L.sq P = 0 then (if c = 0 then Flt.nan else .inf (decide (c < 0))) else round (c / L.sq P)) = _
      rw [if_neg h0]
    rw [hdiv]
    split_ifs with hs
    · refine ⟨by simp, fun h1 h2 => ?_⟩
      simp [ge, hc0 h1 h2]
    · constructor
      · rcases round_cases (c / L.sq P) with ⟨h, _⟩ | h <;> rw [h] <;> simp
      · intro h1 h2
        rcases round_nonneg (div_nonneg (hc0 h1 h2) hs0) with ⟨v, hv, _, e⟩ | e <;> rw [e] <;> simp [ge]
        exact hv

/-- **C200.** With `cosine_diff`, a sample gets the label of the examples of largest exact similarity when the similarities
with examples with other labels are smaller by more than the errors, whatever the order of additions. -/
theorem C200_nearest {α : Type} (hL : IsSqrt L.sq) {n : ℕ} (hn : n ≤ 2 ^ 48) {order : ℕ → ℕ → Tree}
    (ho : ∀ i j, (order i j).Adds n) {reco ex : List Row} {labels found : List α} (hl : labels.length = ex.length)
    (hf : classifyNN reco ex labels (fun i j => cosineDiff L (order i j)) = .ok found)
    {i c : ℕ} {r e : Row} {x y : ℕ → ℚ} (hr : reco[i]? = some r) (hrx : Doubles n r x) (hx : Mid n x)
    (hc : ex[c]? = some e) (hey : Doubles n e y) (hmid : ∀ e' ∈ ex, ∃ y', Doubles n e' y' ∧ Mid n y')
    (hfar : ∀ (j : ℕ) e' y', ex[j]? = some e' → Doubles n e' y' → labels[j]? ≠ labels[c]? →
      cosine n x y' + 2 * ((3 * n + 8) / 2 ^ 52) < cosine n x y) :
    found[i]? = labels[c]? := by
  have hne : ex ≠ [] := by
    rintro rfl
    simp at hc
  obtain ⟨found', h1, _, h3⟩ := C199_found reco ex labels (fun i j => cosineDiff L (order i j)) hne hl
  rw [hf] at h1
  injection h1 with h1
  subst h1
  obtain ⟨m, ⟨e', he', hm⟩, hfm, hml⟩ := h3 i r hr
  rw [hfm]
  by_contra hdiff
  obtain ⟨y', hy', hmy'⟩ := hmid e' (List.mem_iff_getElem?.2 ⟨m, he'⟩)
  obtain ⟨y2, hy2, hmy2⟩ := hmid e (List.mem_iff_getElem?.2 ⟨c, hc⟩)
  have hmy : Mid n y := by
    intro k hk
    have : y k = y2 k := by
      have h4 := (hey k hk).1
      rw [(hy2 k hk).1] at h4
      injection h4 with h4
      exact h4.symm
    rw [this]
    exact hmy2 k hk
  obtain ⟨d1, hd1, hb1⟩ := C200_error hL hn (ho i m) hrx hy' hx hmy'
  obtain ⟨d2, hd2, hb2⟩ := C200_error hL hn (ho i c) hrx hey hx hmy
  have hlt := hfar m e' y' he' hy' hdiff
  have e1 : cosineDiff L (order i m) r e' = .fin (-d1) := by unfold cosineDiff; rw [hd1]; rfl
  have e2 : cosineDiff L (order i c) r e = .fin (-d2) := by unfold cosineDiff; rw [hd2]; rfl
  rcases hm with ⟨hm, _⟩ | ⟨_, hm2, _⟩
  · simp only [e1] at hm
    cases hm
  · have h4 : ge (cosineDiff L (order i c) r e) (cosineDiff L (order i m) r e') = true := hm2 c e hc
    rw [e1, e2] at h4
    have h5 : d2 ≤ d1 := by simpa [ge] using h4
    have h6 : (d2 : ℝ) ≤ d1 := by exact_mod_cast h5
    rw [abs_le] at hb1 hb2
    linarith [hb1.2, hb2.1]

/-! ### Witnesses -/

/-- A row with two entries. -/
def two (x y : ℚ) : Row
  | 0 => .fin x
  | _ => .fin y

/-- The sum of two terms. -/
def pair : Tree := .plus (.leaf 0) (.leaf 1)

/-- The sum of two terms adds them. -/
theorem pair_adds : pair.Adds 2 := List.Perm.refl _

set_option exponentiation.threshold 2000 in
/-- **C200.** Rounded similarities may exceed 1: a sample `(0.2, 0.3)` which is a copy of the first example gets the label
of the second one `(0.6, 0.9)`. -/
theorem C200_above (hL : IsSqrt L.sq) :
    cosineSimilarity L pair (two (dbl (2 / 10)) (dbl (3 / 10))) (two (dbl (6 / 10)) (dbl (9 / 10))) = .fin (1 + 1 / 2 ^ 52) ∧
    classifyNN [two (dbl (2 / 10)) (dbl (3 / 10))]
      [two (dbl (2 / 10)) (dbl (3 / 10)), two (dbl (6 / 10)) (dbl (9 / 10))] ["same", "other"]
      (fun _ _ => cosineDiff L pair) = .ok ["other"] := by
  set a := two (dbl (2 / 10)) (dbl (3 / 10)) with ha
  set b := two (dbl (6 / 10)) (dbl (9 / 10)) with hb
  have hab : pair.sum (fun k => mul (a k) (b k)) = .fin (7025615418697974 / 2 ^ 54) := by decide +kernel
  have haa : pair.sum (fun k => mul (a k) (a k)) = .fin (4683743612465316 / 2 ^ 55) := by decide +kernel
  have hbb : pair.sum (fun k => mul (b k) (b k)) = .fin (5269211564023480 / 2 ^ 52) := by decide +kernel
  have hP : mul (.fin (4683743612465316 / 2 ^ 55)) (.fin (5269211564023480 / 2 ^ 52)) = .fin (5479980026584419 / 2 ^ 55) := by
    decide +kernel
  have hsq : L.sq (5479980026584419 / 2 ^ 55) = (7025615418697973 : ℤ) * 2 ^ (-54 : ℤ) := by
    refine sq_eq hL (δ := 2 ^ (-54 : ℤ) / 2) ⟨_, -54, by norm_num, by norm_num, rfl⟩ (by norm_num) (by norm_num) ?_
      (by norm_num) (by norm_num)
    intro d hd hne
    have := double_sep (m := 7025615418697973) (e := -54) (by norm_num) hd hne
    exact le_trans (by norm_num) this
  have hsqrt : sqrt L (.fin (5479980026584419 / 2 ^ 55)) = .fin ((7025615418697973 : ℤ) * 2 ^ (-54 : ℤ)) := by
    show (if (5479980026584419 / 2 ^ 55 : ℚ) < 0 then Flt.nan else .fin (L.sq (5479980026584419 / 2 ^ 55))) = _
    rw [if_neg (by norm_num), hsq]
  have h1 : cosineSimilarity L pair a b = .fin (1 + 1 / 2 ^ 52) := by
    unfold cosineSimilarity
    simp only [square]
    rw [hab, haa, hbb, hP, hsqrt]
    decide +kernel
  have h2 : cosineSimilarity L pair a a = .fin 1 := by
    refine C200_self hL (n := 2) (by norm_num) pair_adds (x := fun k => if k = 0 then dbl (2 / 10) else dbl (3 / 10)) ?_ ?_
      ⟨0, by norm_num, ?_⟩
    · intro k hk
      have : k = 0 ∨ k = 1 := by omega
      rcases this with rfl | rfl
      · exact ⟨rfl, dbl_double _, by decide +kernel⟩
      · exact ⟨rfl, dbl_double _, by decide +kernel⟩
    · intro k hk
      have : k = 0 ∨ k = 1 := by omega
      rcases this with rfl | rfl
      · exact (by decide +kernel : |dbl (2 / 10)| ≤ 2 ^ 200)
      · exact (by decide +kernel : |dbl (3 / 10)| ≤ 2 ^ 200)
    · exact (by decide +kernel : 2 ^ (-200 : ℤ) ≤ |dbl (2 / 10)|)
  refine ⟨h1, ?_⟩
  show distsToFoundLabels 2 [[neg (cosineSimilarity L pair a a), neg (cosineSimilarity L pair a b)]] _ = _
  rw [h1, h2]
  decide +kernel

/-- The square root of the square of a double. -/
theorem sq_mul_self (hL : IsSqrt L.sq) {v : ℚ} (hv : Double v) (h0 : 0 ≤ v) : L.sq (v * v) = v := by
  have h1 := (hL (v * v) (mul_self_nonneg v)).2 v hv
  have h2 : √((v * v : ℚ) : ℝ) = v := by
    push_cast
    exact Real.sqrt_mul_self (by exact_mod_cast h0)
  rw [h2, sub_self, abs_zero] at h1
  have h3 := abs_nonpos_iff.1 h1
  have : (L.sq (v * v) : ℝ) = v := by linarith
  exact_mod_cast this

set_option exponentiation.threshold 2000 in
/-- **C200.** Products of squares of tiny numbers are zero, by which similarities are divided: the similarity with a row
which is not parallel is infinite, so that it is found instead of a parallel one. -/
theorem C200_underflow (hL : IsSqrt L.sq) :
    cosineSimilarity L pair (two (1 / 2 ^ 300) (1 / 2 ^ 300)) (two (1 / 2 ^ 300) 0) = .inf false ∧
    classifyNN [two (1 / 2 ^ 300) (1 / 2 ^ 300)] [two 1 1, two (1 / 2 ^ 300) 0] ["parallel", "other"]
      (fun _ _ => cosineDiff L pair) = .ok ["other"] := by
  have h1 : cosineSimilarity L pair (two (1 / 2 ^ 300) (1 / 2 ^ 300)) (two (1 / 2 ^ 300) 0) = .inf false := by
    unfold cosineSimilarity
    have : mul (pair.sum fun k => square (two (1 / 2 ^ 300) (1 / 2 ^ 300) k)) (pair.sum fun k => square (two (1 / 2 ^ 300) 0 k))
        = .fin 0 := by decide +kernel
    rw [this]
    have : sqrt L (.fin 0) = .fin 0 := by simp [sqrt, sq_zero hL]
    rw [this]
    decide +kernel
  have h2 : cosineSimilarity L pair (two (1 / 2 ^ 300) (1 / 2 ^ 300)) (two 1 1) = .fin 1 := by
    unfold cosineSimilarity
    have : mul (pair.sum fun k => square (two (1 / 2 ^ 300) (1 / 2 ^ 300) k)) (pair.sum fun k => square (two 1 1 k))
        = .fin (1 / 2 ^ 299 * (1 / 2 ^ 299)) := by decide +kernel
    rw [this]
    have : sqrt L (.fin (1 / 2 ^ 299 * (1 / 2 ^ 299))) = .fin (1 / 2 ^ 299) := by
      show (if (1 / 2 ^ 299 * (1 / 2 ^ 299) : ℚ) < 0 then Flt.nan else .fin (L.sq (1 / 2 ^ 299 * (1 / 2 ^ 299)))) = _
      rw [if_neg (not_lt.2 (mul_self_nonneg _)), sq_mul_self hL _ (by positivity)]
      refine ⟨1, -299, by norm_num, by norm_num, ?_⟩
      rw [zpow_neg, show (299 : ℤ) = ((299 : ℕ) : ℤ) by norm_num, zpow_natCast]
      push_cast
      ring
    rw [this]
    decide +kernel
  refine ⟨h1, ?_⟩
  show distsToFoundLabels 2 [[neg (cosineSimilarity L pair (two (1 / 2 ^ 300) (1 / 2 ^ 300)) (two 1 1)),
    neg (cosineSimilarity L pair (two (1 / 2 ^ 300) (1 / 2 ^ 300)) (two (1 / 2 ^ 300) 0))]] _ = _
  rw [h1, h2]
  decide +kernel

set_option exponentiation.threshold 2000 in
/-- **C200.** Similarities of large numbers are NaN, which `argmin` finds first: a row of the opposite direction is found
instead of a copy of the sample. -/
theorem C200_overflow :
    classifyNN [one (2 ^ 600)] [one 1, one (-2 ^ 600), one (2 ^ 600)] ["parallel", "opposite", "same"]
      (fun _ _ => cosineDiff L (.leaf 0)) = .ok ["opposite"] := by
  have hi : sqrt L (.inf false) = .inf false := rfl
  have h1 : cosineSimilarity L (.leaf 0) (one (2 ^ 600)) (one 1) = .fin 0 := by
    unfold cosineSimilarity
    have : mul ((Tree.leaf 0).sum fun k => square (one (2 ^ 600) k)) ((Tree.leaf 0).sum fun k => square (one 1 k))
        = .inf false := by decide +kernel
    rw [this, hi]
    decide +kernel
  have h2 : cosineSimilarity L (.leaf 0) (one (2 ^ 600)) (one (-2 ^ 600)) = .nan := by
    unfold cosineSimilarity
    have : mul ((Tree.leaf 0).sum fun k => square (one (2 ^ 600) k)) ((Tree.leaf 0).sum fun k => square (one (-2 ^ 600) k))
        = .inf false := by decide +kernel
    rw [this, hi]
    decide +kernel
  have h3 : cosineSimilarity L (.leaf 0) (one (2 ^ 600)) (one (2 ^ 600)) = .nan := by
    unfold cosineSimilarity
    have : mul ((Tree.leaf 0).sum fun k => square (one (2 ^ 600) k)) ((Tree.leaf 0).sum fun k => square (one (2 ^ 600) k))
        = .inf false := by decide +kernel
    rw [this, hi]
    decide +kernel
  show distsToFoundLabels 3 [[neg (cosineSimilarity L (.leaf 0) (one (2 ^ 600)) (one 1)),
    neg (cosineSimilarity L (.leaf 0) (one (2 ^ 600)) (one (-2 ^ 600))),
    neg (cosineSimilarity L (.leaf 0) (one (2 ^ 600)) (one (2 ^ 600)))]] _ = _
  rw [h1, h2, h3]
  decide +kernel

end Verif.Evaluation.D
