import Verif.Metrics.PropsHoyerDouble
import Mathlib.Algebra.Order.Chebyshev
import Mathlib.Algebra.Order.BigOperators.Ring.Finset

/-!
# Property C229: the error of Hoyer's sparseness with doubles
-/

namespace Verif.Metrics.D

open Verif Verif.Window Verif.Evaluation.D
open Verif.Geom.D (dbl_nat Usual exactNorm vectorNorm C228_norm two_doubles)
open Verif.NMF.D (double_mul double_pow double_one double_zero dbl_le le_dbl abs_dbl_le)

set_option exponentiation.threshold 2000

variable {L : Lib}

/-! ### Relative errors -/

theorem rel_round {c c' v ε u : ℝ} (hv : 0 ≤ v) (hu : 0 ≤ u) (h : |c - v| ≤ ε * v) (h' : |c' - c| ≤ u * |c|) :
    |c' - v| ≤ (ε + u + ε * u) * v := by
  have h1 : |c| ≤ (1 + ε) * v := by
    calc |c| = |(c - v) + v| := by ring_nf
      _ ≤ |c - v| + |v| := abs_add_le _ _
      _ ≤ _ := by rw [abs_of_nonneg hv]; linarith
  calc |c' - v| ≤ |c' - c| + |c - v| := abs_sub_le _ _ _
    _ ≤ u * ((1 + ε) * v) + ε * v := by
      have := mul_le_mul_of_nonneg_left h1 hu
      linarith
    _ = _ := by ring

theorem rel_div {a b A B α β : ℝ} (hA : 0 < A) (hB : 0 < B) (hα : 0 ≤ α) (hβ : 0 ≤ β) (hβ' : β ≤ 1 / 11)
    (ha : |a - A| ≤ α * A) (hb : |b - B| ≤ β * B) : 0 < b ∧ |a / b - A / B| ≤ 11 / 10 * (α + β) * (A / B) := by
  have hb1 : 10 / 11 * B ≤ b := by
    have := (abs_le.1 hb).1
    nlinarith
  have hb0 : 0 < b := by linarith
  refine ⟨hb0, ?_⟩
  have e : a / b - A / B = ((a - A) * B - A * (b - B)) / (b * B) := by field_simp; ring
  rw [e, abs_div, abs_of_pos (mul_pos hb0 hB), div_le_iff₀ (mul_pos hb0 hB)]
  calc |(a - A) * B - A * (b - B)| ≤ |(a - A) * B| + |A * (b - B)| := abs_sub _ _
    _ ≤ α * A * B + A * (β * B) := by
      rw [abs_mul, abs_mul, abs_of_pos hB, abs_of_pos hA]
      gcongr
    _ = 11 / 10 * (α + β) * (A / B) * (10 / 11 * B * B) := by field_simp
    _ ≤ 11 / 10 * (α + β) * (A / B) * (b * B) := by gcongr

/-- The exact quotient of norms of a line. -/
noncomputable def exactQuotient (n : ℕ) (x : ℕ → ℚ) : ℝ :=
  (((∑ k ∈ Finset.range n, |x k| : ℚ) : ℝ) + e8) / (exactNorm n x + e8)

theorem exactQuotient_bounds (n : ℕ) (hn : 1 ≤ n) (x : ℕ → ℚ) : 1 ≤ exactQuotient n x ∧ exactQuotient n x ≤ √(n : ℝ) := by
  have hE0 : (0 : ℝ) < e8 := by
    have : 0 < e8 := lt_of_lt_of_le (by norm_num) e8_bounds.1
    exact_mod_cast this
  set S1 : ℚ := ∑ k ∈ Finset.range n, |x k| with hS1
  set S2 : ℚ := ∑ k ∈ Finset.range n, x k ^ 2 with hS2
  have h10 : 0 ≤ S1 := Finset.sum_nonneg fun k _ => abs_nonneg _
  have hN : exactNorm n x = √(S2 : ℝ) := rfl
  have hN0 : 0 ≤ √(S2 : ℝ) := Real.sqrt_nonneg _
  have a1 : S2 ≤ S1 ^ 2 := by
    have := Finset.sum_sq_le_sq_sum_of_nonneg (s := Finset.range n) (f := fun k => |x k|) fun k _ => abs_nonneg _
    simpa [sq_abs] using this
  have a2 : S1 ^ 2 ≤ n * S2 := by
    have := sq_sum_le_card_mul_sum_sq (s := Finset.range n) (f := fun k => |x k|)
    simpa [sq_abs] using this
  have b1 : √(S2 : ℝ) ≤ S1 := by
    rw [Real.sqrt_le_left (by exact_mod_cast h10)]
    exact_mod_cast a1
  have b2 : (S1 : ℝ) ≤ √(n : ℝ) * √(S2 : ℝ) := by
    rw [← Real.sqrt_mul (by positivity)]
    apply Real.le_sqrt_of_sq_le
    exact_mod_cast a2
  have b3 : 1 ≤ √(n : ℝ) := by
    rw [Real.one_le_sqrt]
    exact_mod_cast hn
  unfold exactQuotient
  rw [hN]
  constructor
  · rw [le_div_iff₀ (by linarith)]
    linarith
  · rw [div_le_iff₀ (by linarith)]
    nlinarith

/-- The quotient of norms of a line. -/
theorem quotient_error (hL : IsSqrt L.sq) {n : ℕ} (h1 : 1 ≤ n) (hn : n ≤ 2 ^ 40) {a : Row} {x : ℕ → ℚ} (ha : Doubles n a x)
    (hm : ∀ k < n, Usual (x k)) {t t2 : Tree} (ht : t.Adds n) (ht2 : t2.Adds n) :
    ∃ r, div (norm1 t EPSILON a) (norm2 L t2 EPSILON a) = .fin r ∧ Double r ∧ 0 ≤ r ∧ r ≤ 2 ^ 21 ∧
      |(r : ℝ) - exactQuotient n x| ≤ (3 * n + 10) / 2 ^ 52 * exactQuotient n x := by
  have hEb := e8_bounds
  have hE0 : 0 < e8 := lt_of_lt_of_le (by norm_num) hEb.1
  have hER : (0 : ℝ) < e8 := by exact_mod_cast hE0
  have hnR : (n : ℝ) ≤ 2 ^ 40 := by exact_mod_cast hn
  have hnQ : (n : ℚ) ≤ 2 ^ 40 := by exact_mod_cast hn
  have hn0 : (0 : ℝ) ≤ n := by positivity
  -- the first norm
  have dabs : ∀ k ∈ t.leaves, Double |x k| := by
    intro k hk
    rcases abs_choice (x k) with h | h <;> rw [h]
    · exact (ha k (ht.lt hk)).2.1
    · exact Double.neg (ha k (ht.lt hk)).2.1
  have hlen : t.leaves.length = n := by rw [ht.length_eq, List.length_range]
  obtain ⟨s, hs, ds, bs⟩ := sum_bd (w := fun k => |x k|) (p := 480) (by norm_num) t
    (by rw [hlen]; omega) fun k hk => ⟨dabs k hk, by rw [abs_abs]; exact (hm k (ht.lt hk)).1⟩
  obtain ⟨_, es⟩ := sum_err t s dabs hs
  have hs' : (t.sum fun k => absolute (a k)) = .fin s := by
    rw [← hs]
    refine sum_congr _ fun k hk => ?_
    rw [(ha k (ht.lt hk)).1]; rfl
  simp only [abs_abs] at es
  rw [hlen, sum_leaves ht] at es
  rw [hlen] at bs
  set S1 : ℚ := ∑ k ∈ Finset.range n, |x k| with hS1
  have hS10 : 0 ≤ S1 := Finset.sum_nonneg fun k _ => abs_nonneg _
  have es' : |s - S1| ≤ n / 2 ^ 52 * S1 := by
    refine es.trans ?_
    have := grow_le n (by omega)
    have h2 : (1 + 1 / 2 ^ 53 : ℚ) ^ n - 1 ≤ n / 2 ^ 52 := by linarith
    gcongr
  have hs0 : 0 ≤ s := by
    have h3 : (n : ℚ) / 2 ^ 52 ≤ 1 := by
      rw [div_le_one (by norm_num)]
      refine hnQ.trans ?_
      norm_num
    have h4 := (abs_le.1 es').1
    nlinarith
  have hsb : s ≤ 2 ^ 520 := by
    have h3 : (n : ℚ) * 2 ^ 480 ≤ 2 ^ 40 * 2 ^ 480 := by gcongr
    have h4 : (2 : ℚ) ^ 40 * 2 ^ 480 = 2 ^ 520 := by norm_num
    rw [abs_of_nonneg hs0] at bs
    linarith
  have dE : Double e8 := dbl_double _
  have r1 : norm1 t EPSILON a = .fin (dbl (s + e8)) := by
    unfold norm1
    rw [hs', epsilon_eq]
    refine round_of_le (double_pow 521) ?_ (by norm_num)
    rw [abs_of_nonneg (by linarith)]
    have : (2 : ℚ) ^ 520 + 1001 / 10 ^ 11 ≤ 2 ^ 521 := by norm_num
    linarith [hEb.2]
  have c1 : |((dbl (s + e8) : ℚ) : ℝ) - ((S1 : ℝ) + e8)| ≤ (n + 1) / 2 ^ 52 * ((S1 : ℝ) + e8) := by
    have g1 : |((s + e8 : ℚ) : ℝ) - ((S1 : ℝ) + e8)| ≤ n / 2 ^ 52 * ((S1 : ℝ) + e8) := by
      have := (Rat.cast_le (K := ℝ)).2 es'
      push_cast at this ⊢
      have e : (s : ℝ) + e8 - (S1 + e8) = s - S1 := by ring
      rw [e]
      refine this.trans ?_
      have : (0 : ℝ) ≤ n / 2 ^ 52 := by positivity
      nlinarith
    have g2 : |((dbl (s + e8) : ℚ) : ℝ) - ((s + e8 : ℚ) : ℝ)| ≤ 1 / 2 ^ 53 * |((s + e8 : ℚ) : ℝ)| := by
      have := (Rat.cast_le (K := ℝ)).2 (dbl_rel_add ds dE)
      push_cast at this ⊢
      linarith
    have hS1R : (0 : ℝ) ≤ S1 := by exact_mod_cast hS10
    refine (rel_round (by linarith) (by norm_num) g1 g2).trans ?_
    apply mul_le_mul_of_nonneg_right _ (by linarith)
    have : (n : ℝ) / 2 ^ 52 ≤ 1 := by
      rw [div_le_one (by norm_num)]
      refine hnR.trans ?_
      norm_num
    have e : ((n : ℝ) + 1) / 2 ^ 52 = n / 2 ^ 52 + 1 / 2 ^ 53 + 1 * (1 / 2 ^ 53) := by ring
    rw [e]
    gcongr
  -- the second norm
  obtain ⟨d, ed, d0, hd⟩ := C228_norm hL (by omega) ht2 ha hm
  set N := exactNorm n x with hN
  have hN0 : 0 ≤ N := Real.sqrt_nonneg _
  have dd : Double d := by
    rcases Geom.D.norm_nonneg' hL ht2 ha with ⟨v, _, dv, h⟩ | h
    · rw [ed] at h
      injection h with h
      rw [h]; exact dv.1
    · rw [ed] at h; cases h
  have hdb : d ≤ 2 ^ 1000 := by
    -- the norm is at most twice the exact one, which is at most the sum
    have hNS : N ≤ S1 := by
      rw [hN, exactNorm, Real.sqrt_le_left (by exact_mod_cast hS10)]
      have := Finset.sum_sq_le_sq_sum_of_nonneg (s := Finset.range n) (f := fun k => |x k|) fun k _ => abs_nonneg _
      simp only [sq_abs] at this
      exact_mod_cast this
    have hS1b : S1 ≤ 2 ^ 520 := by
      have : S1 ≤ ∑ k ∈ Finset.range n, (2 : ℚ) ^ 480 :=
        Finset.sum_le_sum fun k hk => (hm k (Finset.mem_range.1 hk)).1
      rw [Finset.sum_const, Finset.card_range, nsmul_eq_mul] at this
      have h3 : (n : ℚ) * 2 ^ 480 ≤ 2 ^ 40 * 2 ^ 480 := by gcongr
      have h4 : (2 : ℚ) ^ 40 * 2 ^ 480 = 2 ^ 520 := by norm_num
      linarith
    have hS1R : (S1 : ℝ) ≤ 2 ^ 520 := by
      have := (Rat.cast_le (K := ℝ)).2 hS1b
      push_cast at this
      exact this
    have h5 : ((n : ℝ) + 4) / 2 ^ 52 ≤ 1 := by
      rw [div_le_one (by norm_num)]
      have : (2 : ℝ) ^ 40 + 4 ≤ 2 ^ 52 := by norm_num
      linarith
    have h6 : (d : ℝ) ≤ 2 * 2 ^ 520 := by
      have := (abs_le.1 hd).2
      nlinarith
    have h7 : (d : ℝ) ≤ ((2 ^ 1000 : ℚ) : ℝ) := by
      refine h6.trans ?_
      push_cast
      norm_num
    exact_mod_cast h7
  have r2 : norm2 L t2 EPSILON a = .fin (dbl (d + e8)) := by
    unfold norm2
    have e : (fun k => square (a k)) = fun k => mul (a k) (a k) := rfl
    unfold vectorNorm at ed
    rw [e, ed, epsilon_eq]
    refine round_of_le (double_pow 1001) ?_ (by norm_num)
    rw [abs_of_nonneg (by linarith)]
    have : (2 : ℚ) ^ 1000 + 1001 / 10 ^ 11 ≤ 2 ^ 1001 := by norm_num
    linarith [hEb.2]
  have c2 : |((dbl (d + e8) : ℚ) : ℝ) - (N + e8)| ≤ (n + 5) / 2 ^ 52 * (N + e8) := by
    have g1 : |((d + e8 : ℚ) : ℝ) - (N + e8)| ≤ (n + 4) / 2 ^ 52 * (N + e8) := by
      push_cast
      have e : (d : ℝ) + e8 - (N + e8) = d - N := by ring
      rw [e]
      refine hd.trans ?_
      have : (0 : ℝ) ≤ (n + 4) / 2 ^ 52 := by positivity
      nlinarith
    have g2 : |((dbl (d + e8) : ℚ) : ℝ) - ((d + e8 : ℚ) : ℝ)| ≤ 1 / 2 ^ 53 * |((d + e8 : ℚ) : ℝ)| := by
      have := (Rat.cast_le (K := ℝ)).2 (dbl_rel_add dd dE)
      push_cast at this ⊢
      linarith
    refine (rel_round (by linarith) (by norm_num) g1 g2).trans ?_
    apply mul_le_mul_of_nonneg_right _ (by linarith)
    have : ((n : ℝ) + 4) / 2 ^ 52 ≤ 1 := by
      rw [div_le_one (by norm_num)]
      have : (2 : ℝ) ^ 40 + 4 ≤ 2 ^ 52 := by norm_num
      linarith
    have e : ((n : ℝ) + 5) / 2 ^ 52 = (n + 4) / 2 ^ 52 + 1 / 2 ^ 53 + 1 * (1 / 2 ^ 53) := by ring
    rw [e]
    gcongr
  -- the quotient
  set R := exactQuotient n x with hR
  have hRe : R = ((S1 : ℝ) + e8) / (N + e8) := rfl
  obtain ⟨R1, R2⟩ := exactQuotient_bounds n h1 x
  rw [← hR] at R1 R2
  have hS1R : (0 : ℝ) ≤ S1 := by exact_mod_cast hS10
  have hβ : ((n : ℝ) + 5) / 2 ^ 52 ≤ 1 / 11 := by
    rw [div_le_iff₀ (by norm_num)]
    have : (2 : ℝ) ^ 40 + 5 ≤ 1 / 11 * 2 ^ 52 := by norm_num
    linarith
  obtain ⟨hb0, c3⟩ := rel_div (α := (n + 1) / 2 ^ 52) (β := (n + 5) / 2 ^ 52) (by linarith : (0 : ℝ) < S1 + e8)
    (by linarith : (0 : ℝ) < N + e8) (by positivity) (by positivity) hβ c1 c2
  rw [← hRe] at c3
  have hb0' : 0 < dbl (d + e8) := by exact_mod_cast hb0
  have hRb : R ≤ 2 ^ 20 := by
    refine R2.trans ?_
    rw [Real.sqrt_le_left (by positivity)]
    refine hnR.trans ?_
    norm_num
  have hα1 : 11 / 10 * (((n : ℝ) + 1) / 2 ^ 52 + (n + 5) / 2 ^ 52) ≤ 1 / 2 := by
    have e : 11 / 10 * (((n : ℝ) + 1) / 2 ^ 52 + (n + 5) / 2 ^ 52) = (11 / 10 * (2 * n + 6)) / 2 ^ 52 := by ring
    rw [e, div_le_iff₀ (by norm_num)]
    have : 11 / 10 * (2 * (2 : ℝ) ^ 40 + 6) ≤ 1 / 2 * 2 ^ 52 := by norm_num
    linarith
  set q := dbl (s + e8) / dbl (d + e8) with hq
  have hqR : (q : ℝ) = ((dbl (s + e8) : ℚ) : ℝ) / ((dbl (d + e8) : ℚ) : ℝ) := by rw [hq]; push_cast; rfl
  rw [← hqR] at c3
  have hq1 : (1 : ℝ) / 2 ≤ q := by
    have := (abs_le.1 c3).1
    nlinarith
  have hq2 : (q : ℝ) ≤ 2 ^ 21 := by
    have h2 := (abs_le.1 c3).2
    have h3 : (2 : ℝ) ^ 21 = 2 * 2 ^ 20 := by norm_num
    nlinarith
  have hq2' : q ≤ 2 ^ 21 := by
    have : (q : ℝ) ≤ ((2 ^ 21 : ℚ) : ℝ) := by push_cast; exact hq2
    exact_mod_cast this
  have hq1' : 1 / 2 ≤ q := by
    have : ((1 / 2 : ℚ) : ℝ) ≤ q := by push_cast; exact hq1
    exact_mod_cast this
  refine ⟨dbl q, ?_, dbl_double _, le_dbl double_zero (by linarith), dbl_le (double_pow 21) hq2', ?_⟩
  · rw [r1, r2]
    show (if dbl (d + e8) = 0 then _ else _) = _
    rw [if_neg hb0'.ne']
    exact round_of_le (double_pow 21) (by rw [abs_of_nonneg (by linarith)]; exact hq2') (by norm_num)
  · have g2 : |((dbl q : ℚ) : ℝ) - q| ≤ 1 / 2 ^ 53 * |(q : ℝ)| := by
      have h3 := dbl_rel_ge (x := q) (by
        rw [abs_of_nonneg (by linarith)]
        refine le_trans ?_ hq1'
        have : (2 : ℚ) ^ (-1022 : ℤ) ≤ 2 ^ (-1 : ℤ) := zpow_le_zpow_right₀ (by norm_num) (by norm_num)
        refine this.trans ?_
        norm_num)
      have := (Rat.cast_le (K := ℝ)).2 h3
      push_cast at this
      linarith
    refine (rel_round (by linarith) (by norm_num) c3 g2).trans ?_
    apply mul_le_mul_of_nonneg_right _ (by linarith)
    have e : 11 / 10 * (((n : ℝ) + 1) / 2 ^ 52 + (n + 5) / 2 ^ 52) = (11 / 10 * (2 * n + 6)) / 2 ^ 52 := by ring
    have e2 : 11 / 10 * (((n : ℝ) + 1) / 2 ^ 52 + (n + 5) / 2 ^ 52) * (1 / 2 ^ 53) ≤ 1 / 2 * (1 / 2 ^ 53) := by gcongr
    have e3 : (1 : ℝ) / 2 ^ 53 = 1 / 2 / 2 ^ 52 := by norm_num
    have e4 : 11 / 10 * (2 * (n : ℝ) + 6) / 2 ^ 52 + 1 / 2 / 2 ^ 52 + 1 / 2 * (1 / 2 / 2 ^ 52) ≤ (3 * n + 10) / 2 ^ 52 := by
      have : 11 / 10 * (2 * (n : ℝ) + 6) / 2 ^ 52 + 1 / 2 / 2 ^ 52 + 1 / 2 * (1 / 2 / 2 ^ 52) =
          (11 / 10 * (2 * n + 6) + 1 / 2 + 1 / 4) / 2 ^ 52 := by ring
      rw [this]
      apply div_le_div_of_nonneg_right _ (by norm_num)
      linarith
    rw [e3] at e2
    rw [e3]
    linarith

/-- The exact sparseness. -/
noncomputable def exactHoyer (n m : ℕ) (x : ℕ → ℕ → ℚ) : ℝ :=
  (√(n : ℝ) - (∑ i ∈ Finset.range m, exactQuotient n (x i)) / m) / (√(n : ℝ) - 1)

/-- The last operations: from an average near the exact one. -/
theorem finish_error (hL : IsSqrt L.sq) {n m : ℕ} (h2 : 2 ≤ n) (hn : n ≤ 2 ^ 40) (hmb : (m : ℝ) ≤ 2 ^ 40) {avg : ℚ} {v : ℝ}
    (davg : Double avg) (avg0 : 0 ≤ avg) (avg21 : avg ≤ 2 ^ 21) (hVm0 : 0 < v) (hVmA : v ≤ √(n : ℝ))
    (c7 : |(avg : ℝ) - v| ≤ (4 * n + m + 13) / 2 ^ 52 * √(n : ℝ)) :
    ∃ s, div (sub (sqrt L (.fin (n : ℚ))) (.fin avg)) (sub (sqrt L (.fin (n : ℚ))) (.fin 1)) = .fin s ∧
      |(s : ℝ) - (√(n : ℝ) - v) / (√(n : ℝ) - 1)| ≤ (n + m + 8) / 2 ^ 48 := by
  have hnb : (n : ℝ) ≤ 2 ^ 40 := by exact_mod_cast hn
  have hn2 : (2 : ℝ) ≤ n := by exact_mod_cast h2
  set A : ℝ := √(n : ℝ) with hA
  have hA1 : (7 : ℝ) / 5 ≤ A := by
    rw [hA]
    apply Real.le_sqrt_of_sq_le
    norm_num
    linarith
  -- the square root of the length
  have hnQ0 : (0 : ℚ) ≤ n := by positivity
  obtain ⟨w, e1, dw, w1, w2⟩ := sqrt_length hL h2 (by omega)
  have ew : w = L.sq n := by
    have h3 : sqrt L (.fin (n : ℚ)) = .fin (L.sq n) := by simp only [sqrt, not_lt.2 hnQ0, if_false]
    rw [h3] at e1
    injection e1 with e1
    exact e1.symm
  have cw : |(w : ℝ) - A| ≤ A / 2 ^ 53 := by
    have := sq_rel hL (dbl_nat n (by omega)).1 hnQ0
    rw [ew]
    push_cast at this
    exact this
  -- numerator and denominator
  have hδ2 : (4 * (n : ℝ) + m + 13) / 2 ^ 52 ≤ 1 / 100 := by
    rw [div_le_iff₀ (by norm_num)]
    have : 4 * (2 : ℝ) ^ 40 + 2 ^ 40 + 13 ≤ 1 / 100 * 2 ^ 52 := by norm_num
    linarith
  have hA0 : 0 < A := by linarith
  have wub : (w : ℝ) ≤ 2 * A := by
    have := (abs_le.1 cw).2
    have h3 : A / 2 ^ 53 ≤ A := div_le_self hA0.le (by norm_num)
    linarith
  have wlb : 0 ≤ (w : ℝ) := by
    have : (0 : ℚ) ≤ w := by linarith
    exact_mod_cast this
  have aub : (avg : ℝ) ≤ 2 * A := by
    have := (abs_le.1 c7).2
    nlinarith
  have alb : 0 ≤ (avg : ℝ) := by
    exact_mod_cast avg0
  have num : |((dbl (w + -avg) : ℚ) : ℝ) - (A - v)| ≤ (4 * n + m + 15) / 2 ^ 52 * A := by
    have g1 := (Rat.cast_le (K := ℝ)).2 (dbl_rel_add dw (Double.neg davg))
    push_cast at g1
    have g2 : |(w : ℝ) + -avg| ≤ 2 * A := by rw [abs_le]; constructor <;> linarith
    have g3 : |(w : ℝ) + -avg| / 2 ^ 53 ≤ 2 * A / 2 ^ 53 := by gcongr
    have g4 : |(w : ℝ) + -avg - (A - v)| ≤ A / 2 ^ 53 + (4 * n + m + 13) / 2 ^ 52 * A := by
      have e : (w : ℝ) + -avg - (A - v) = (w - A) - (avg - v) := by ring
      rw [e]
      exact (abs_sub _ _).trans (by linarith)
    have g5 : (4 * (n : ℝ) + m + 15) / 2 ^ 52 * A = (4 * n + m + 13) / 2 ^ 52 * A + 4 * (A / 2 ^ 53) := by ring
    have g6 : 2 * A / 2 ^ 53 = 2 * (A / 2 ^ 53) := by ring
    have g7 : 0 ≤ A / 2 ^ 53 := by positivity
    calc |((dbl (w + -avg) : ℚ) : ℝ) - (A - v)|
        ≤ |((dbl (w + -avg) : ℚ) : ℝ) - ((w : ℝ) + -avg)| + |(w : ℝ) + -avg - (A - v)| := abs_sub_le _ _ _
      _ ≤ _ := by rw [g5]; linarith
  have den : |((dbl (w + -1) : ℚ) : ℝ) - (A - 1)| ≤ 2 / 2 ^ 52 * A := by
    have g1 := (Rat.cast_le (K := ℝ)).2 (dbl_rel_add dw (Double.neg double_one))
    push_cast at g1
    have g2 : |(w : ℝ) + -1| ≤ 2 * A := by rw [abs_le]; constructor <;> linarith
    have g3 : |(w : ℝ) + -1| / 2 ^ 53 ≤ 2 * A / 2 ^ 53 := by gcongr
    have g4 : |(w : ℝ) + -1 - (A - 1)| ≤ A / 2 ^ 53 := by
      have e : (w : ℝ) + -1 - (A - 1) = w - A := by ring
      rw [e]; exact cw
    have g5 : 2 / 2 ^ 52 * A = 4 * (A / 2 ^ 53) := by ring
    have g6 : 2 * A / 2 ^ 53 = 2 * (A / 2 ^ 53) := by ring
    have g7 : 0 ≤ A / 2 ^ 53 := by positivity
    calc |((dbl (w + -1) : ℚ) : ℝ) - (A - 1)|
        ≤ |((dbl (w + -1) : ℚ) : ℝ) - ((w : ℝ) + -1)| + |(w : ℝ) + -1 - (A - 1)| := abs_sub_le _ _ _
      _ ≤ _ := by rw [g5]; linarith
  set N := dbl (w + -avg) with hN
  set D := dbl (w + -1) with hD
  have hw27 : (2 : ℚ) ^ 27 + 2 ^ 21 ≤ 2 ^ 28 := by norm_num
  have eN : sub (.fin w) (.fin avg) = .fin N := by
    refine round_of_le (double_pow 28) ?_ (by norm_num)
    rw [abs_le]
    constructor <;> linarith
  have eD : sub (.fin w) (.fin 1) = .fin D := by
    refine round_of_le (double_pow 28) ?_ (by norm_num)
    rw [abs_le]
    constructor <;> linarith
  have hDl : A / 4 ≤ D := by
    have := (abs_le.1 den).1
    have h3 : (2 : ℝ) / 2 ^ 52 * A ≤ 1 / 100 * A := mul_le_mul_of_nonneg_right (by norm_num) hA0.le
    linarith
  have hD0 : (0 : ℝ) < D := by linarith
  have hD0' : 0 < D := by exact_mod_cast hD0
  have hNub : |(N : ℝ)| ≤ 2 * A := by
    have h3 : |A - v| ≤ A := by rw [abs_le]; constructor <;> linarith
    have h4 : (4 * (n : ℝ) + m + 15) / 2 ^ 52 * A ≤ 1 * A := by
      apply mul_le_mul_of_nonneg_right _ hA0.le
      rw [div_le_one (by norm_num)]
      have : 4 * (2 : ℝ) ^ 40 + 2 ^ 40 + 15 ≤ 2 ^ 52 := by norm_num
      linarith
    calc |(N : ℝ)| = |(N - (A - v)) + (A - v)| := by ring_nf
      _ ≤ |(N : ℝ) - (A - v)| + |A - v| := abs_add_le _ _
      _ ≤ _ := by linarith
  have hND : |(N : ℝ) / D| ≤ 8 := by
    rw [abs_div, abs_of_pos hD0, div_le_iff₀ hD0]
    linarith
  have hND' : |N / D| ≤ 2 ^ 3 := by
    have : ((|N / D| : ℚ) : ℝ) ≤ ((2 ^ 3 : ℚ) : ℝ) := by push_cast; refine hND.trans (by norm_num)
    exact_mod_cast this
  refine ⟨dbl (N / D), ?_, ?_⟩
  · rw [e1, eN, eD]
    show (if D = 0 then _ else _) = _
    rw [if_neg hD0'.ne']
    exact round_of_le (double_pow 3) hND' (by norm_num)
  · have f1 : |((dbl (N / D) : ℚ) : ℝ) - (N : ℝ) / D| ≤ 8 / 2 ^ 53 + 1 / 2 ^ 1075 := by
      have := (Rat.cast_le (K := ℝ)).2 (dbl_near (N / D))
      push_cast at this
      have h3 : |(N : ℝ) / D| / 2 ^ 53 ≤ 8 / 2 ^ 53 := by gcongr
      linarith
    have hA1' : A / 4 ≤ A - 1 := by linarith
    have hA10 : 0 < A - 1 := by linarith
    have f2 : |(N : ℝ) / D - (A - v) / (A - 1)| ≤ 4 * ((4 * n + m + 15) / 2 ^ 52) + 32 / 2 ^ 52 := by
      have e : (N : ℝ) / D - (A - v) / (A - 1) = (N - (A - v)) / D + (A - v) / (A - 1) * (((A - 1) - D) / D) := by
        field_simp
        ring
      rw [e]
      refine (abs_add_le _ _).trans ?_
      have p1 : |((N : ℝ) - (A - v)) / D| ≤ 4 * ((4 * n + m + 15) / 2 ^ 52) := by
        rw [abs_div, abs_of_pos hD0, div_le_iff₀ hD0]
        refine num.trans ?_
        have : 0 ≤ (4 * (n : ℝ) + m + 15) / 2 ^ 52 := by positivity
        nlinarith
      have p2 : |(A - v) / (A - 1)| ≤ 4 := by
        rw [abs_div, abs_of_pos hA10, div_le_iff₀ hA10]
        have h3 : |A - v| ≤ A := by rw [abs_le]; constructor <;> linarith
        linarith
      have p3 : |((A - 1) - D) / D| ≤ 8 / 2 ^ 52 := by
        rw [abs_div, abs_of_pos hD0, div_le_iff₀ hD0, abs_sub_comm]
        refine den.trans ?_
        have : (2 : ℝ) / 2 ^ 52 * A = 8 / 2 ^ 52 * (A / 4) := by ring
        rw [this]
        gcongr
      have p4 : |(A - v) / (A - 1) * (((A - 1) - D) / D)| ≤ 4 * (8 / 2 ^ 52) := by
        rw [abs_mul]
        exact mul_le_mul p2 p3 (abs_nonneg _) (by norm_num)
      have p5 : (4 : ℝ) * (8 / 2 ^ 52) = 32 / 2 ^ 52 := by norm_num
      linarith
    have f3 : (1 : ℝ) / 2 ^ 1075 ≤ 1 / 2 ^ 52 := by
      apply one_div_le_one_div_of_le (by positivity)
      exact pow_le_pow_right₀ (by norm_num) (by norm_num)
    calc |((dbl (N / D) : ℚ) : ℝ) - (A - v) / (A - 1)|
        ≤ |((dbl (N / D) : ℚ) : ℝ) - (N : ℝ) / D| + |(N : ℝ) / D - (A - v) / (A - 1)| := abs_sub_le _ _ _
      _ ≤ (8 / 2 ^ 53 + 1 / 2 ^ 52) + (4 * ((4 * n + m + 15) / 2 ^ 52) + 32 / 2 ^ 52) := by linarith
      _ = (16 * n + 4 * m + 97) / 2 ^ 52 := by ring
      _ ≤ (16 * (n + m + 8)) / 2 ^ 52 := by
        apply div_le_div_of_nonneg_right _ (by norm_num)
        linarith
      _ = (n + m + 8) / 2 ^ 48 := by ring

/-- **C229.** The error of sparseness of usual numbers, whatever the orders of additions. -/
theorem C229_error (hL : IsSqrt L.sq) {n : ℕ} (h2 : 2 ≤ n) (hn : n ≤ 2 ^ 40) {lines : List Row} {t t2 : ℕ → Tree}
    {tm : Tree} (h0 : lines ≠ []) (hlen : lines.length ≤ 2 ^ 40) (ht : ∀ i, (t i).Adds n) (ht2 : ∀ i, (t2 i).Adds n)
    (htm : tm.Adds lines.length) (x : ℕ → ℕ → ℚ)
    (hx : ∀ (i : ℕ) (a : Row), lines[i]? = some a → Doubles n a (x i) ∧ ∀ k < n, Usual (x i k)) :
    ∃ s, hoyerSparseness L n lines t t2 tm EPSILON = .fin s ∧
      |(s : ℝ) - exactHoyer n lines.length x| ≤ (n + lines.length + 8) / 2 ^ 48 := by
  set m := lines.length with hm
  have hm0 : 0 < m := List.length_pos_of_ne_nil h0
  have hmR : (0 : ℝ) < m := by exact_mod_cast hm0
  have hmQ : (0 : ℚ) < m := by exact_mod_cast hm0
  have hmb : (m : ℝ) ≤ 2 ^ 40 := by exact_mod_cast hlen
  have hnb : (n : ℝ) ≤ 2 ^ 40 := by exact_mod_cast hn
  have hn2 : (2 : ℝ) ≤ n := by exact_mod_cast h2
  -- quotients
  have hq : ∀ i, ∃ r : ℚ, i < m → (lines.mapIdx fun i x => div (norm1 (t i) EPSILON x) (norm2 L (t2 i) EPSILON x)).getD i
      (.fin 0) = .fin r ∧ Double r ∧ 0 ≤ r ∧ r ≤ 2 ^ 21 ∧
      |(r : ℝ) - exactQuotient n (x i)| ≤ (3 * n + 10) / 2 ^ 52 * exactQuotient n (x i) := by
    intro i
    by_cases hi : i < m
    · obtain ⟨hd, hu⟩ := hx i _ (List.getElem?_eq_getElem hi)
      obtain ⟨r, e, hr⟩ := quotient_error hL (by omega) hn hd hu (ht i) (ht2 i)
      refine ⟨r, fun _ => ⟨?_, hr⟩⟩
      rw [List.getD_eq_getElem?_getD, List.getElem?_mapIdx, List.getElem?_eq_getElem hi]
      exact e
    · exact ⟨0, fun h => absurd h hi⟩
  choose r hr using hq
  have hsum : (tm.sum fun i => (lines.mapIdx fun i x => div (norm1 (t i) EPSILON x) (norm2 L (t2 i) EPSILON x)).getD i
      (.fin 0)) = tm.sum fun i => .fin (r i) := sum_congr _ fun i hi => (hr i (htm.lt hi)).1
  have hml : tm.leaves.length = m := by rw [htm.length_eq, List.length_range]
  have dr : ∀ i ∈ tm.leaves, Double (r i) := fun i hi => (hr i (htm.lt hi)).2.1
  obtain ⟨s, hs, ds, bs⟩ := sum_bd (w := r) (p := 21) (by norm_num) tm (by rw [hml]; omega) fun i hi =>
    ⟨dr i hi, by rw [abs_of_nonneg (hr i (htm.lt hi)).2.2.1]; exact (hr i (htm.lt hi)).2.2.2.1⟩
  obtain ⟨_, es⟩ := sum_err tm s dr hs
  have habs : (tm.leaves.map fun k => |r k|).sum = (tm.leaves.map r).sum := by
    congr 1
    apply List.map_congr_left
    intro k hk
    exact abs_of_nonneg (hr k (htm.lt hk)).2.2.1
  rw [habs, hml, sum_leaves htm] at es
  rw [hml] at bs
  set Q : ℚ := ∑ i ∈ Finset.range m, r i with hQ
  have hQ0 : 0 ≤ Q := Finset.sum_nonneg fun i hi => (hr i (Finset.mem_range.1 hi)).2.2.1
  set V : ℝ := ∑ i ∈ Finset.range m, exactQuotient n (x i) with hV
  set A : ℝ := √(n : ℝ) with hA
  have hA1 : (7 : ℝ) / 5 ≤ A := by
    rw [hA]
    apply Real.le_sqrt_of_sq_le
    norm_num
    linarith
  have hAb : A ≤ 2 ^ 20 := by
    rw [hA, Real.sqrt_le_left (by positivity)]
    refine hnb.trans ?_
    norm_num
  have hVm : (m : ℝ) ≤ V := by
    have : ∑ i ∈ Finset.range m, (1 : ℝ) ≤ V :=
      Finset.sum_le_sum fun i _ => (exactQuotient_bounds n (by omega) (x i)).1
    simpa using this
  have hVA : V ≤ m * A := by
    have : V ≤ ∑ i ∈ Finset.range m, A := Finset.sum_le_sum fun i _ => (exactQuotient_bounds n (by omega) (x i)).2
    simpa using this
  -- their sum
  set δ : ℝ := (3 * n + 10) / 2 ^ 52 with hδ
  have hδ0 : 0 ≤ δ := by positivity
  have hδ1 : δ ≤ 1 / 100 := by
    rw [hδ, div_le_iff₀ (by norm_num)]
    have : 3 * (2 : ℝ) ^ 40 + 10 ≤ 1 / 100 * 2 ^ 52 := by norm_num
    linarith
  set μ : ℝ := m / 2 ^ 52 with hμ
  have hμ0 : 0 ≤ μ := by positivity
  have hμ1 : μ ≤ 1 / 100 := by
    rw [hμ, div_le_iff₀ (by norm_num)]
    have : (2 : ℝ) ^ 40 ≤ 1 / 100 * 2 ^ 52 := by norm_num
    linarith
  have c1 : |(Q : ℝ) - V| ≤ δ * V := by
    have e : (Q : ℝ) - V = ∑ i ∈ Finset.range m, ((r i : ℝ) - exactQuotient n (x i)) := by
      rw [Finset.sum_sub_distrib, hQ]
      push_cast
      rfl
    rw [e, hV, Finset.mul_sum]
    refine (Finset.abs_sum_le_sum_abs _ _).trans ?_
    exact Finset.sum_le_sum fun i hi => (hr i (Finset.mem_range.1 hi)).2.2.2.2
  have c2 : |(s : ℝ) - Q| ≤ μ * |(Q : ℝ)| := by
    have h3 : |s - Q| ≤ m / 2 ^ 52 * Q := by
      refine es.trans ?_
      have := grow_le m (by omega)
      have h4 : (1 + 1 / 2 ^ 53 : ℚ) ^ m - 1 ≤ m / 2 ^ 52 := by linarith
      gcongr
    have := (Rat.cast_le (K := ℝ)).2 h3
    push_cast at this
    have hQR : (0 : ℝ) ≤ Q := by exact_mod_cast hQ0
    rw [abs_of_nonneg hQR]
    exact this
  have hV0 : 0 < V := by linarith
  have c3 := rel_round hV0.le hμ0 c1 c2
  -- the mean
  set ε : ℝ := δ + μ + δ * μ with hε
  have hε0 : 0 ≤ ε := by positivity
  have hε1 : ε ≤ 3 / 100 := by nlinarith
  have hsV : (97 : ℝ) / 100 * V ≤ s := by
    have := (abs_le.1 c3).1
    nlinarith
  have hs0 : (0 : ℝ) < s := by nlinarith
  have hs0' : 0 < s := by exact_mod_cast hs0
  have hsm : s / m ≤ 2 ^ 21 := by
    rw [div_le_iff₀ hmQ, mul_comm]
    exact (le_abs_self s).trans bs
  have hsm1 : (1 : ℝ) / 2 ≤ (s : ℝ) / m := by
    rw [le_div_iff₀ hmR]
    linarith
  have hsm1' : 1 / 2 ≤ s / m := by
    have : ((1 / 2 : ℚ) : ℝ) ≤ ((s / m : ℚ) : ℝ) := by push_cast; exact hsm1
    exact_mod_cast this
  have eavg : div (.fin s) (.fin (m : ℚ)) = .fin (dbl (s / m)) := by
    show (if (m : ℚ) = 0 then _ else _) = _
    rw [if_neg hmQ.ne']
    exact round_of_le (double_pow 21) (by rw [abs_of_nonneg (by linarith)]; exact hsm) (by norm_num)
  have c4 : |((s / m : ℚ) : ℝ) - V / m| ≤ ε * (V / m) := by
    push_cast
    rw [← sub_div, abs_div, abs_of_pos hmR, ← mul_div_assoc]
    gcongr
  have c5 : |((dbl (s / m) : ℚ) : ℝ) - ((s / m : ℚ) : ℝ)| ≤ 1 / 2 ^ 53 * |((s / m : ℚ) : ℝ)| := by
    have h3 := dbl_rel_ge (x := s / m) (by
      rw [abs_of_nonneg (by linarith)]
      refine le_trans ?_ hsm1'
      have : (2 : ℚ) ^ (-1022 : ℤ) ≤ 2 ^ (-1 : ℤ) := zpow_le_zpow_right₀ (by norm_num) (by norm_num)
      refine this.trans ?_
      norm_num)
    have := (Rat.cast_le (K := ℝ)).2 h3
    push_cast at this ⊢
    linarith
  have hVm0 : 0 < V / m := by positivity
  have hVmA : V / m ≤ A := by rw [div_le_iff₀ hmR, mul_comm]; exact hVA
  have c6 := rel_round hVm0.le (by norm_num) c4 c5
  set avg := dbl (s / m) with havg
  set v := V / m with hv
  have c7 : |(avg : ℝ) - v| ≤ (4 * n + m + 13) / 2 ^ 52 * A := by
    have h3 : ε + 1 / 2 ^ 53 + ε * (1 / 2 ^ 53) ≤ (4 * n + m + 13) / 2 ^ 52 := by
      have a1 : δ * μ ≤ δ * (1 / 100) := by gcongr
      have a2 : ε * (1 / 2 ^ 53) ≤ 1 * (1 / 2 ^ 53) := by gcongr; linarith
      have a3 : δ * (1 / 100) + δ ≤ (4 * n + 12) / 2 ^ 52 := by
        have : δ * (1 / 100) + δ = (101 / 100 * (3 * n + 10)) / 2 ^ 52 := by rw [hδ]; ring
        rw [this]
        apply div_le_div_of_nonneg_right _ (by norm_num)
        linarith
      have a4 : (4 * (n : ℝ) + m + 13) / 2 ^ 52 = (4 * n + 12) / 2 ^ 52 + μ + 2 * (1 / 2 ^ 53) := by rw [hμ]; ring
      rw [a4]
      linarith
    calc |(avg : ℝ) - v| ≤ (ε + 1 / 2 ^ 53 + ε * (1 / 2 ^ 53)) * v := c6
      _ ≤ (4 * n + m + 13) / 2 ^ 52 * A := by gcongr
  obtain ⟨s', e', b'⟩ := finish_error hL h2 hn hmb (dbl_double _) (le_dbl double_zero (by linarith))
    (dbl_le (double_pow 21) hsm) hVm0 hVmA c7
  refine ⟨s', ?_, b'⟩
  unfold hoyerSparseness
  simp only [List.length_mapIdx]
  rw [hsum, hs, ← hm, eavg]
  exact e'

/-- **C229.** The exact sparseness is from 0 to 1, so that the computed one of usual numbers is so up to the error. -/
theorem C229_range (n m : ℕ) (h2 : 2 ≤ n) (hm : 0 < m) (x : ℕ → ℕ → ℚ) : 0 ≤ exactHoyer n m x ∧ exactHoyer n m x ≤ 1 := by
  have hmR : (0 : ℝ) < m := by exact_mod_cast hm
  have hn2 : (2 : ℝ) ≤ n := by exact_mod_cast h2
  have hA1 : (7 : ℝ) / 5 ≤ √(n : ℝ) := by
    apply Real.le_sqrt_of_sq_le
    norm_num
    linarith
  have hV1 : (m : ℝ) ≤ ∑ i ∈ Finset.range m, exactQuotient n (x i) := by
    have : ∑ i ∈ Finset.range m, (1 : ℝ) ≤ ∑ i ∈ Finset.range m, exactQuotient n (x i) :=
      Finset.sum_le_sum fun i _ => (exactQuotient_bounds n (by omega) (x i)).1
    simpa using this
  have hV2 : ∑ i ∈ Finset.range m, exactQuotient n (x i) ≤ m * √(n : ℝ) := by
    have : ∑ i ∈ Finset.range m, exactQuotient n (x i) ≤ ∑ i ∈ Finset.range m, √(n : ℝ) :=
      Finset.sum_le_sum fun i _ => (exactQuotient_bounds n (by omega) (x i)).2
    simpa using this
  unfold exactHoyer
  constructor
  · apply div_nonneg _ (by linarith)
    rw [sub_nonneg, div_le_iff₀ hmR, mul_comm]
    exact hV2
  · rw [div_le_one (by linarith)]
    have : 1 ≤ (∑ i ∈ Finset.range m, exactQuotient n (x i)) / m := by rw [le_div_iff₀ hmR]; linarith
    linarith

/-- Lines (3, 0) and (0, 1): sparseness 1.  Line (3, 4): error at most 11 / 2 ** 48.  Line (2 ** 600, 1): more than 1.
Column of 3: NaN. -/
example : ∃ L : Lib, hoyerSparseness L 2 [Geom.D.two 3 0, Geom.D.two 0 1] (fun _ => .plus (.leaf 0) (.leaf 1))
      (fun _ => .plus (.leaf 1) (.leaf 0)) (.plus (.leaf 0) (.leaf 1)) EPSILON = .fin 1 ∧
    (∃ s, hoyerSparseness L 2 [Geom.D.two 3 4] (fun _ => .plus (.leaf 0) (.leaf 1)) (fun _ => .plus (.leaf 0) (.leaf 1))
      (.leaf 0) EPSILON = .fin s ∧
      |(s : ℝ) - exactHoyer 2 1 fun _ k => if k = 0 then 3 else 4| ≤ 11 / 2 ^ 48) ∧
    (∃ s, hoyerSparseness L 2 [Geom.D.two (2 ^ 600) 1] (fun _ => .plus (.leaf 0) (.leaf 1)) (fun _ => .plus (.leaf 0) (.leaf 1))
      (.leaf 0) EPSILON = .fin s ∧ 1 < s) ∧
    hoyerSparseness L 1 [Geom.D.two 3 0] (fun _ => .leaf 0) (fun _ => .leaf 0) (.leaf 0) EPSILON = .nan := by
  obtain ⟨sq, hsq⟩ := exists_isSqrt
  have d0 : Dbl 0 := dbl_zero'
  have d1 : Dbl 1 := by simpa using dbl_nat 1 (by norm_num)
  have d3 : Dbl 3 := by simpa using dbl_nat 3 (by norm_num)
  have d4 : Dbl 4 := by simpa using dbl_nat 4 (by norm_num)
  have dB : Dbl (2 ^ 600) := ⟨double_pow 600, by norm_num⟩
  have hsmall : (2 : ℚ) ^ (-500 : ℤ) ≤ 1 := by
    rw [zpow_neg]; exact inv_le_one_of_one_le₀ (one_le_zpow₀ (by norm_num) (by norm_num))
  have adds1 : (Tree.leaf 0).Adds 1 := List.Perm.refl _
  have adds' : (Tree.plus (.leaf 1) (.leaf 0)).Adds 2 := List.Perm.swap 0 1 []
  let L : Lib := ⟨sq, fun _ => 0⟩
  refine ⟨L, C229_sparse (L := L) hsq (by norm_num) (by norm_num) (by simp) (by norm_num) (fun _ => Geom.D.pair_adds)
    (fun _ => adds') Geom.D.pair_adds ?_, ?_, C229_huge (L := L) hsq (by norm_num) (by norm_num) (two_doubles dB d1) ?_
    ⟨0, by norm_num, by norm_num⟩ (fun _ => Geom.D.pair_adds) (fun _ => Geom.D.pair_adds) adds1,
    C229_one (L := L) hsq (by simp) (by norm_num) (fun _ => adds1) (fun _ => adds1) adds1 ?_⟩
  · intro a ha
    simp only [List.mem_cons, List.not_mem_nil, or_false] at ha
    rcases ha with rfl | rfl
    · refine ⟨0, 3, by norm_num, d3.1, by norm_num, fun k hk => ?_⟩
      obtain rfl | rfl : k = 0 ∨ k = 1 := by omega
      · norm_num [Geom.D.two]
      · norm_num [Geom.D.two]
    · refine ⟨1, 1, by norm_num, d1.1, by norm_num, fun k hk => ?_⟩
      obtain rfl | rfl : k = 0 ∨ k = 1 := by omega
      · norm_num [Geom.D.two]
      · norm_num [Geom.D.two]
  · obtain ⟨s, e, b⟩ := C229_error (L := L) hsq (n := 2) (by norm_num) (by norm_num) (lines := [Geom.D.two 3 4]) (by simp)
      (by norm_num) (fun _ => Geom.D.pair_adds) (fun _ => Geom.D.pair_adds) adds1 (fun _ k => if k = 0 then 3 else 4) (by
        intro i a h
        have h := List.mem_of_getElem? h
        simp only [List.mem_cons, List.not_mem_nil, or_false] at h
        subst h
        refine ⟨two_doubles d3 d4, fun k _ => ?_⟩
        split_ifs
        · exact ⟨by norm_num, .inr <| by rw [abs_of_pos (by norm_num)]; linarith⟩
        · exact ⟨by norm_num, .inr <| by rw [abs_of_pos (by norm_num)]; linarith⟩)
    refine ⟨s, e, b.trans (le_of_eq ?_)⟩
    simp only [List.length_cons, List.length_nil]
    norm_num
  · intro k _
    split_ifs
    · rw [abs_of_pos (by positivity)]
      exact pow_le_pow_right₀ (by norm_num) (by norm_num)
    · rw [abs_one]; exact one_le_pow₀ (by norm_num)
  · intro a ha
    simp only [List.mem_cons, List.not_mem_nil, or_false] at ha
    subst ha
    exact ⟨3, rfl, d3.1, by norm_num⟩

end Verif.Metrics.D
