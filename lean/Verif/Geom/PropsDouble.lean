import Verif.Geom.Double
import Verif.Evaluation.PropsCosine

/-!
# Property C228: norms and unit vectors with doubles
-/

namespace Verif.Geom.D

open Verif Verif.Window Verif.Evaluation.D
open Verif.NMF.D (double_mul double_pow double_one double_zero dbl_le le_dbl abs_dbl_le)

set_option exponentiation.threshold 2000

variable {L : Lib}

/-- Doubles which are not tiny have 53 significant bits. -/
theorem normal_form {x : ℚ} (hd : Double x) (hx : 2 ^ (-1022 : ℤ) ≤ x) :
    ∃ (m e : ℤ), x = m * 2 ^ e ∧ 2 ^ 52 ≤ m ∧ m < 2 ^ 53 ∧ -1074 ≤ e := by
  have hx0 : 0 < x := lt_of_lt_of_le (two_zpow_pos _) hx
  have hl : (2 : ℚ) ^ Int.log 2 x ≤ x := by
    have := Int.zpow_log_le_self (b := 2) (by norm_num) hx0
    exact_mod_cast this
  have hlog : -1022 ≤ Int.log 2 x :=
    (Int.zpow_le_iff_le_log (b := 2) (by norm_num) hx0 (x := -1022)).1 (by exact_mod_cast hx)
  have hlt := log_lt x
  rw [abs_of_pos hx0] at hlt
  have he : expo x = Int.log 2 x - 52 := by
    unfold expo
    rw [abs_of_pos hx0]
    omega
  have hq := two_zpow_pos (expo x)
  have e1 : x = halfEven (x / 2 ^ expo x) * 2 ^ expo x := (dbl_of_double hd).symm
  set m := halfEven (x / 2 ^ expo x) with hm
  clear_value m
  refine ⟨m, expo x, e1, ?_, ?_, le_max_right _ _⟩
  · have h1 : (2 : ℚ) ^ Int.log 2 x = 2 ^ 52 * 2 ^ expo x := by
      rw [he, ← zpow_natCast, ← zpow_add₀ (by norm_num)]
      congr 1; push_cast; ring
    have : (2 : ℚ) ^ 52 * 2 ^ expo x ≤ m * 2 ^ expo x := by rw [← e1, ← h1]; exact hl
    have := le_of_mul_le_mul_right this hq
    exact_mod_cast this
  · have h1 : (2 : ℚ) ^ (Int.log 2 x + 1) = 2 ^ 53 * 2 ^ expo x := by
      rw [he, ← zpow_natCast, ← zpow_add₀ (by norm_num)]
      congr 1; push_cast; ring
    have : (m : ℚ) * 2 ^ expo x < 2 ^ 53 * 2 ^ expo x := by rw [← e1, ← h1]; exact hlt
    have := lt_of_mul_lt_mul_right this hq.le
    exact_mod_cast this

/-- The distance of doubles to one with 53 significant bits and which is not a power of two. -/
theorem double_gap {m e : ℤ} (hm : 2 ^ 52 < m) {y : ℚ} (hy : Double y) :
    y ≤ m * 2 ^ e - 2 ^ e ∨ y = m * 2 ^ e ∨ m * 2 ^ e + 2 ^ e ≤ y := by
  obtain ⟨k, f, hk, _, rfl⟩ := hy
  have he := two_zpow_pos e
  rcases le_or_gt e f with h | h
  · have h1 : (2 : ℚ) ^ f = 2 ^ (f - e).toNat * 2 ^ e := by
      rw [← zpow_natCast, ← zpow_add₀ (by norm_num)]
      congr 1; omega
    rw [h1, ← mul_assoc]
    have h2 : (k : ℚ) * 2 ^ (f - e).toNat = ((k * 2 ^ (f - e).toNat : ℤ) : ℚ) := by push_cast; rfl
    rw [h2]
    generalize k * 2 ^ (f - e).toNat = j
    rcases lt_trichotomy j m with h3 | h3 | h3
    · left
      have : (j : ℚ) ≤ m - 1 := by
        have : j ≤ m - 1 := by omega
        exact_mod_cast this
      nlinarith
    · right; left; rw [h3]
    · right; right
      have : (m : ℚ) + 1 ≤ j := by
        have : m + 1 ≤ j := by omega
        exact_mod_cast this
      nlinarith
  · left
    have h1 : (k : ℚ) * 2 ^ f ≤ 2 ^ 53 * 2 ^ (e - 1) := by
      have hk' : (k : ℚ) ≤ 2 ^ 53 := by
        have := (le_abs_self k).trans hk
        exact_mod_cast this
      have hf : (2 : ℚ) ^ f ≤ 2 ^ (e - 1) := zpow_le_zpow_right₀ (by norm_num) (by omega)
      have hf0 := two_zpow_pos f
      calc (k : ℚ) * 2 ^ f ≤ 2 ^ 53 * 2 ^ f := by gcongr
        _ ≤ _ := by gcongr
    have h2 : (2 : ℚ) ^ 53 * 2 ^ (e - 1) = 2 ^ 52 * 2 ^ e := by
      rw [zpow_sub_one₀ (by norm_num)]; ring
    have h3 : (2 : ℚ) ^ 52 ≤ m - 1 := by
      have : (2 : ℤ) ^ 52 ≤ m - 1 := by omega
      exact_mod_cast this
    nlinarith

/-- The square root of the rounded square of a double is this double. -/
theorem sq_square (hL : IsSqrt L.sq) {x : ℚ} (hd : Double x) (hx : 2 ^ (-500 : ℤ) ≤ x) : L.sq (dbl (x * x)) = x := by
  have hx0 : 0 < x := lt_of_lt_of_le (two_zpow_pos _) hx
  obtain ⟨m, e, hxe, hm1, hm2, he⟩ := normal_form hd
    ((zpow_le_zpow_right₀ (by norm_num) (by norm_num) : (2 : ℚ) ^ (-1022 : ℤ) ≤ 2 ^ (-500 : ℤ)).trans hx)
  have hep := two_zpow_pos e
  rcases hm1.lt_or_eq with hm1 | hm1
  · -- the rounded square
    have hxx : (2 : ℚ) ^ (-1022 : ℤ) ≤ x * x := by
      calc (2 : ℚ) ^ (-1022 : ℤ) ≤ 2 ^ (-500 : ℤ) * 2 ^ (-500 : ℤ) := by
            rw [← zpow_add₀ (by norm_num)]
            exact zpow_le_zpow_right₀ (by norm_num) (by norm_num)
        _ ≤ x * x := mul_le_mul hx hx (two_zpow_pos _).le hx0.le
    have hrel := dbl_rel_ge (x := x * x) (by rw [abs_of_nonneg (mul_self_nonneg x)]; exact hxx)
    rw [abs_of_nonneg (mul_self_nonneg x)] at hrel
    set w := dbl (x * x) with hw
    have hw0 : 0 ≤ w := le_dbl double_zero (mul_self_nonneg x)
    clear_value w
    -- as real numbers
    obtain ⟨hsd, hnear⟩ := hL w hw0
    have hn := hnear x hd
    set r := √(w : ℝ) with hr
    have hr0 : 0 ≤ r := Real.sqrt_nonneg _
    have hrr : r * r = w := Real.mul_self_sqrt (by exact_mod_cast hw0)
    have hX0 : (0 : ℝ) < x := by exact_mod_cast hx0
    have hW : |r * r - x * x| ≤ (x : ℝ) * x / 2 ^ 53 := by
      rw [hrr]
      have := (Rat.cast_le (K := ℝ)).2 hrel
      push_cast at this
      exact this
    rw [abs_le] at hW
    set E : ℝ := ((2 ^ e : ℚ) : ℝ) with hE
    have hE0 : 0 < E := by rw [hE]; exact_mod_cast hep
    have hXE : (x : ℝ) ≤ (2 ^ 53 - 1) * E := by
      have h1 : x ≤ (2 ^ 53 - 1) * 2 ^ e := by
        rw [hxe]
        have : (m : ℚ) ≤ 2 ^ 53 - 1 := by
          have : m ≤ 2 ^ 53 - 1 := by omega
          exact_mod_cast this
        gcongr
      have := (Rat.cast_le (K := ℝ)).2 h1
      push_cast at this
      rw [hE]; push_cast
      exact this
    have hrE : r * r ≤ (x * (1 + 1 / 2 ^ 53)) * (x * (1 + 1 / 2 ^ 53)) := by nlinarith
    clear_value r E
    -- the exact root is at less than half a unit
    have key : |(x : ℝ) - r| < E / 2 := by
      rw [abs_lt]
      constructor
      · -- r - x < E / 2
        by_contra hc
        have h1 : (x : ℝ) + E / 2 ≤ r := by linarith
        have h2 : ((x : ℝ) + E / 2) * (x + E / 2) ≤ r * r := mul_self_le_mul_self (by positivity) h1
        have h3 : (x : ℝ) * x / 2 ^ 53 ≤ x * E := by
          rw [div_le_iff₀ (by positivity)]
          nlinarith
        nlinarith
      · by_contra hc
        have h1 : r ≤ (x : ℝ) - E / 2 := by linarith
        have h2 : r * r ≤ ((x : ℝ) - E / 2) * (x - E / 2) := mul_self_le_mul_self hr0 h1
        -- `x² (1 - 2⁻⁵³) ≤ x² - x E + E² / 4`
        have h3 : (x : ℝ) * E - E * E / 4 ≤ x * x / 2 ^ 53 := by nlinarith
        have h4 : (x : ℝ) * x / 2 ^ 53 ≤ x * ((2 ^ 53 - 1) * E) / 2 ^ 53 := by gcongr
        have h5 : (x : ℝ) * ((2 ^ 53 - 1) * E) / 2 ^ 53 = x * E - x * E / 2 ^ 53 := by ring
        have h6 : (x : ℝ) * E / 2 ^ 53 ≤ E * E / 4 := by linarith
        have h7 : (2 : ℝ) ^ 52 * E < x := by
          have h1 : 2 ^ 52 * 2 ^ e < x := by
            rw [hxe]
            have : (2 : ℚ) ^ 52 < m := by exact_mod_cast hm1
            gcongr
          have := (Rat.cast_lt (K := ℝ)).2 h1
          rw [hE]
          push_cast at this ⊢
          exact this
        have h8 : (2 : ℝ) ^ 52 * E * E < x * E := by nlinarith
        have h9 : (2 : ℝ) ^ 52 * E * E / 2 ^ 53 < x * E / 2 ^ 53 := by gcongr
        nlinarith
    have hfin : |(L.sq w : ℝ) - x| < E := by
      calc |(L.sq w : ℝ) - x| ≤ |(L.sq w : ℝ) - r| + |(x : ℝ) - r| := by
            rw [abs_sub_comm (x : ℝ) r]
            exact abs_sub_le _ _ _
        _ < E := by linarith
    rw [abs_lt] at hfin
    rw [hE] at hfin
    have l1 : x - 2 ^ e < L.sq w := by
      have : ((x - 2 ^ e : ℚ) : ℝ) < L.sq w := by push_cast at hfin ⊢; linarith [hfin.1]
      exact_mod_cast this
    have l2 : L.sq w < x + 2 ^ e := by
      have : (L.sq w : ℝ) < ((x + 2 ^ e : ℚ) : ℝ) := by push_cast at hfin ⊢; linarith [hfin.2]
      exact_mod_cast this
    rcases double_gap (e := e) hm1 hsd with h | h | h <;> rw [← hxe] at h
    · linarith
    · exact h
    · linarith
  · -- a power of two
    have hxx : Double (x * x) := by
      have hp : x = 2 ^ (e + 52) := by
        rw [hxe, ← hm1, zpow_add₀ (by norm_num)]
        push_cast
        rw [mul_comm]
      have h2 : -500 ≤ e + 52 := by
        rw [hp] at hx
        exact (zpow_le_zpow_iff_right₀ (by norm_num)).1 hx
      refine ⟨1, (e + 52) + (e + 52), by norm_num, by omega, ?_⟩
      rw [hp, ← zpow_add₀ (by norm_num)]
      push_cast; ring
    rw [dbl_of_double hxx]
    exact sq_mul_self hL hd hx0.le

/-! ### Terms -/

theorem mul_self_nonneg' (x : ℚ) : NonNeg (mul (.fin x) (.fin x)) := round_nonneg (mul_self_nonneg x)

theorem Doubles.terms {n : ℕ} {a : Row} {x : ℕ → ℚ} (ha : Doubles n a x) {t : Tree} (ht : t.Adds n) :
    ∀ k ∈ t.leaves, NonNeg (mul (a k) (a k)) := by
  intro k hk
  rw [(ha k (ht.lt hk)).1]
  exact mul_self_nonneg' _

theorem sub_zero' {x : ℚ} (h : Dbl x) : sub (.fin x) (.fin 0) = .fin x := by
  show Evaluation.D.round (x + -0) = _
  rw [neg_zero, add_zero, round_dbl h]

/-- The norm is the distance to zero. -/
theorem norm_eq {n : ℕ} {a : Row} {x : ℕ → ℚ} (ha : Doubles n a x) {t : Tree} (ht : t.Adds n) :
    vectorNorm L t a = frobenius L t a fun _ => .fin 0 := by
  unfold vectorNorm frobenius
  congr 1
  refine sum_congr t fun k hk => ?_
  obtain ⟨h1, h2⟩ := ha k (ht.lt hk)
  unfold square
  rw [h1, sub_zero' h2]

theorem zeros (n : ℕ) : Doubles n (fun _ => .fin 0) fun _ => 0 := fun _ _ => ⟨rfl, dbl_zero'⟩

/-- Not so large that squares overflow, nor so small that they are not accurate. -/
def Usual (x : ℚ) : Prop := |x| ≤ 2 ^ 480 ∧ (x = 0 ∨ 2 ^ (-500 : ℤ) ≤ |x|)

/-- The exact norm. -/
noncomputable def exactNorm (n : ℕ) (x : ℕ → ℚ) : ℝ := √((∑ k ∈ Finset.range n, x k ^ 2 : ℚ) : ℝ)

/-- **C228.** The error of norms, whatever the order of additions. -/
theorem C228_norm (hL : IsSqrt L.sq) {n : ℕ} (hn : n ≤ 2 ^ 50) {t : Tree} (ht : t.Adds n) {a : Row} {x : ℕ → ℚ}
    (ha : Doubles n a x) (hm : ∀ k < n, Usual (x k)) :
    ∃ d, vectorNorm L t a = .fin d ∧ 0 ≤ d ∧ |(d : ℝ) - exactNorm n x| ≤ (n + 4) / 2 ^ 52 * exactNorm n x := by
  obtain ⟨d, h1, h2⟩ := C199_error hL hn ht ha (zeros n) fun k hk => by
    have := hm k hk
    unfold Usual at this
    simpa using this
  have e : Evaluation.D.dist n x (fun _ => 0) = exactNorm n x := by
    unfold Evaluation.D.dist exactNorm
    simp
  rw [e] at h2
  refine ⟨d, by rw [norm_eq ha ht]; exact h1, ?_, h2⟩
  have := (C199_frobenius hL ht ha (zeros n)).1
  rw [h1] at this
  rcases this with ⟨v, hv, _, h⟩ | h
  · injection h with h
    rw [h]; exact hv
  · cases h

/-- **C228.** The error of unit vectors of vectors which are not null, whatever the order of additions. -/
theorem C228_unit (hL : IsSqrt L.sq) {n : ℕ} (hn : n ≤ 2 ^ 50) {t : Tree} (ht : t.Adds n) {a : Row} {x : ℕ → ℚ}
    (ha : Doubles n a x) (hm : ∀ k < n, Usual (x k)) (hne : ∃ k < n, x k ≠ 0) (k : ℕ) (hk : k < n) :
    ∃ u, unitVector L t a k = .fin u ∧
      |(u : ℝ) - x k / exactNorm n x| ≤ (2 * n + 9) / 2 ^ 52 * (|(x k : ℝ)| / exactNorm n x) + 1 / 2 ^ 1075 := by
  obtain ⟨d, e1, d0, h⟩ := C228_norm hL hn ht ha hm
  set N := exactNorm n x with hN
  have hxN : ∀ j < n, |(x j : ℝ)| ≤ N := by
    intro j hj
    rw [hN, exactNorm]
    apply Real.le_sqrt_of_sq_le
    rw [sq_abs]
    have : x j ^ 2 ≤ ∑ k ∈ Finset.range n, x k ^ 2 :=
      Finset.single_le_sum (f := fun k => x k ^ 2) (fun i _ => sq_nonneg _) (Finset.mem_range.2 hj)
    exact_mod_cast this
  have hN0 : 0 < N := by
    obtain ⟨j, hj, hne⟩ := hne
    refine lt_of_lt_of_le ?_ (hxN j hj)
    rw [abs_pos]
    exact_mod_cast hne
  clear_value N
  set q : ℝ := (n + 4) / 2 ^ 52 with hq
  have hq0 : 0 ≤ q := by positivity
  have hq1 : q ≤ 1 / 2 := by
    rw [hq, div_le_iff₀ (by norm_num)]
    have : (n : ℝ) ≤ 2 ^ 50 := by exact_mod_cast hn
    linarith
  have hD : N / 2 ≤ d := by
    have := (abs_le.mp h).1
    nlinarith
  have hdp : (0 : ℝ) < d := by linarith
  have hdq : 0 < d := by exact_mod_cast hdp
  set X : ℝ := ((x k : ℚ) : ℝ) with hX
  have hX2 : |X| / d ≤ 2 * (|X| / N) := by
    rw [div_le_iff₀ hdp]
    have : 2 * (|X| / N) * d = |X| * (2 * d / N) := by ring
    rw [this]
    have h1 : 1 ≤ 2 * d / N := by rw [le_div_iff₀ hN0]; linarith
    nlinarith [abs_nonneg X]
  have hXN : |X| / N ≤ 1 := by rw [div_le_one hN0]; exact hxN k hk
  have habs : |x k / d| ≤ 2 := by
    have : ((|x k / d| : ℚ) : ℝ) ≤ 2 := by
      push_cast
      rw [abs_div, abs_of_pos hdp]
      linarith
    exact_mod_cast this
  have d2 : Double 2 := by simpa using double_pow 1
  refine ⟨dbl (x k / d), ?_, ?_⟩
  · unfold unitVector
    rw [e1, (ha k hk).1]
    show (if d = 0 then _ else _) = _
    rw [if_neg hdq.ne']
    exact round_of_le d2 habs (by norm_num)
  · have r1 := dbl_near (x k / d)
    have r2 : |((dbl (x k / d) : ℚ) : ℝ) - X / d| ≤ |X| / d / 2 ^ 53 + 1 / 2 ^ 1075 := by
      have := (Rat.cast_le (K := ℝ)).2 r1
      push_cast at this
      rw [abs_div, abs_of_pos hdp] at this
      exact this
    have r3 : |X / d - X / N| ≤ 2 * q * (|X| / N) := by
      have e2 : X / d - X / N = X / d * ((N - d) / N) := by field_simp
      rw [e2, abs_mul, abs_div, abs_div, abs_of_pos hdp, abs_of_pos hN0, abs_sub_comm]
      have h1 : |(d : ℝ) - N| / N ≤ q := by rw [div_le_iff₀ hN0]; exact h
      calc |X| / d * (|(d : ℝ) - N| / N) ≤ 2 * (|X| / N) * q := by
            apply mul_le_mul hX2 h1 (by positivity) (by positivity)
        _ = _ := by ring
    have r4 : |X| / d / 2 ^ 53 ≤ 1 / 2 ^ 52 * (|X| / N) := by
      rw [div_le_iff₀ (by norm_num)]
      have : 1 / 2 ^ 52 * (|X| / N) * 2 ^ 53 = 2 * (|X| / N) := by ring
      rw [this]; exact hX2
    calc |((dbl (x k / d) : ℚ) : ℝ) - X / N| ≤ |((dbl (x k / d) : ℚ) : ℝ) - X / d| + |X / d - X / N| := abs_sub_le _ _ _
      _ ≤ (1 / 2 ^ 52 * (|X| / N) + 1 / 2 ^ 1075) + 2 * q * (|X| / N) := by linarith
      _ = _ := by rw [hq]; ring

/-- Norms are numbers which are not negative, or infinite. -/
theorem norm_nonneg' (hL : IsSqrt L.sq) {n : ℕ} {t : Tree} (ht : t.Adds n) {a : Row} {x : ℕ → ℚ} (ha : Doubles n a x) :
    NonNeg (vectorNorm L t a) := sqrt_nonneg' hL (sum_nonneg t (Doubles.terms ha ht))

/-- The norm is at least the absolute value of entries which are not tiny. -/
theorem norm_ge (hL : IsSqrt L.sq) {n : ℕ} {t : Tree} (ht : t.Adds n) {a : Row} {x : ℕ → ℚ} (ha : Doubles n a x)
    {d : ℚ} (hd : vectorNorm L t a = .fin d) {k : ℕ} (hk : k < n) (hx : 2 ^ (-500 : ℤ) ≤ |x k|) : |x k| ≤ d := by
  have hnn := Doubles.terms ha ht
  rcases sum_nonneg t hnn with ⟨s, s0, ds, hs⟩ | hs
  · obtain ⟨_, _, hge⟩ := sum_ge t hnn s hs
    obtain ⟨y, hy, hys⟩ := hge k (ht.mem hk)
    rw [(ha k hk).1] at hy
    have hy' : Evaluation.D.round (x k * x k) = .fin y := hy
    have ey : y = dbl (x k * x k) := by
      rcases round_cases (x k * x k) with ⟨h, _⟩ | h <;> rw [h] at hy'
      · injection hy' with hy'; exact hy'.symm
      · cases hy'
    have habs : Double |x k| := by
      rcases abs_choice (x k) with h | h <;> rw [h]
      · exact (ha k hk).2.1
      · exact Double.neg (ha k hk).2.1
    have e1 : L.sq y = |x k| := by
      rw [ey, ← abs_mul_abs_self]
      exact sq_square hL habs hx
    have e2 : d = L.sq s := by
      unfold vectorNorm at hd
      rw [hs] at hd
      simp only [sqrt, not_lt.2 s0, if_false] at hd
      injection hd with hd; exact hd.symm
    rw [← e1, e2]
    exact sq_mono hL (by rw [ey]; exact le_dbl double_zero (mul_self_nonneg _)) hys
  · unfold vectorNorm at hd
    rw [hs] at hd
    cases hd

/-- **C228.** When an entry at least is not tiny, entries of unit vectors are numbers of the signs of those of the vector, and
their absolute values are at most 1, without error. -/
theorem C228_bound (hL : IsSqrt L.sq) {n : ℕ} {t : Tree} (ht : t.Adds n) {a : Row} {x : ℕ → ℚ} (ha : Doubles n a x)
    (hb : ∃ j < n, 2 ^ (-500 : ℤ) ≤ |x j|) (k : ℕ) (hk : k < n) :
    ∃ u, unitVector L t a k = .fin u ∧ |u| ≤ 1 ∧ 0 ≤ u * x k := by
  unfold unitVector
  rw [(ha k hk).1]
  rcases norm_nonneg' hL ht ha with ⟨d, d0, dd, e⟩ | e <;> rw [e]
  · obtain ⟨j, hj, hxj⟩ := hb
    have h1 := norm_ge hL ht ha e hj hxj
    have hpos : 0 < d := lt_of_lt_of_le (lt_of_lt_of_le (two_zpow_pos _) hxj) h1
    have hle : |x k| ≤ d := by
      rcases le_or_gt (2 ^ (-500 : ℤ)) |x k| with h | h
      · exact norm_ge hL ht ha e hk h
      · exact (h.le.trans hxj).trans h1
    have hq : |x k / d| ≤ 1 := by rw [abs_div, abs_of_pos hpos]; exact (div_le_one hpos).2 hle
    refine ⟨dbl (x k / d), ?_, abs_dbl_le double_one hq, ?_⟩
    · show (if d = 0 then _ else _) = _
      rw [if_neg hpos.ne']
      exact round_of_le double_one hq (by norm_num)
    · rcases le_total 0 (x k) with h | h
      · exact mul_nonneg (le_dbl double_zero (div_nonneg h hpos.le)) h
      · exact mul_nonneg_of_nonpos_of_nonpos (dbl_le double_zero (div_nonpos_of_nonpos_of_nonneg h hpos.le)) h
  · exact ⟨0, rfl, by norm_num, by norm_num⟩

/-- **C228.** The norm of a vector with only one entry which is not zero is exactly its absolute value, and its unit vector is
exactly a vector of a basis or the opposite of one. -/
theorem C228_axis (hL : IsSqrt L.sq) {n : ℕ} {t : Tree} (ht : t.Adds n) {a : Row} {x : ℕ → ℚ} (ha : Doubles n a x)
    {j : ℕ} (hj : j < n) (hl : 2 ^ (-500 : ℤ) ≤ |x j|) (hu : |x j| ≤ 2 ^ 500) (h0 : ∀ k < n, k ≠ j → x k = 0) :
    vectorNorm L t a = .fin |x j| ∧
    ∀ k < n, unitVector L t a k = .fin (if k = j then if 0 < x j then 1 else -1 else 0) := by
  have habs : Double |x j| := by
    rcases abs_choice (x j) with h | h <;> rw [h]
    · exact (ha j hj).2.1
    · exact Double.neg (ha j hj).2.1
  have hpos : 0 < |x j| := lt_of_lt_of_le (two_zpow_pos _) hl
  have hb : |x j * x j| ≤ 2 ^ 1000 := by
    rw [abs_mul]
    calc |x j| * |x j| ≤ 2 ^ 500 * 2 ^ 500 := mul_le_mul hu hu hpos.le (by positivity)
      _ = _ := by norm_num
  have hsum : ∀ (t : Tree), t.leaves.Nodup → (∀ k ∈ t.leaves, k < n) → t.sum (fun k => mul (a k) (a k)) =
      .fin (if j ∈ t.leaves then dbl (x j * x j) else 0) := by
    intro t
    induction t with
    | zero => intro _ _; rfl
    | leaf k =>
      intro _ hk
      have hk := hk k (by simp [Tree.leaves])
      show mul (a k) (a k) = _
      rw [(ha k hk).1]
      show Evaluation.D.round (x k * x k) = _
      by_cases e : k = j
      · subst e
        rw [if_pos (by simp [Tree.leaves]), round_of_le (double_pow 1000) hb (by norm_num)]
      · rw [if_neg (by simp [Tree.leaves, Ne.symm e]), h0 k hk e, mul_zero, round_dbl dbl_zero']
    | plus p q ih1 ih2 =>
      intro hn hk
      have hn' : (p.leaves ++ q.leaves).Nodup := hn
      have hd := List.disjoint_of_nodup_append hn'
      show add (p.sum _) (q.sum _) = _
      rw [ih1 (List.Nodup.of_append_left hn') fun k h => hk k (by simp [Tree.leaves, h]),
        ih2 (List.Nodup.of_append_right hn') fun k h => hk k (by simp [Tree.leaves, h])]
      have hD : Dbl (dbl (x j * x j)) :=
        ⟨dbl_double _, lt_of_le_of_lt (abs_dbl_le (double_pow 1000) hb) (by norm_num)⟩
      show Evaluation.D.round (_ + _) = _
      by_cases h1 : j ∈ p.leaves
      · have h2 : j ∉ q.leaves := fun h => hd h1 h
        rw [if_pos h1, if_neg h2, if_pos (by simp [Tree.leaves, h1]), add_zero, round_dbl hD]
      · by_cases h2 : j ∈ q.leaves
        · rw [if_neg h1, if_pos h2, if_pos (by simp [Tree.leaves, h2]), zero_add, round_dbl hD]
        · rw [if_neg h1, if_neg h2, if_neg (by simp [Tree.leaves, h1, h2]), zero_add, round_dbl dbl_zero']
  have hs := hsum t (ht.nodup_iff.mpr List.nodup_range) fun k hk => ht.lt hk
  rw [if_pos (ht.mem hj)] at hs
  have hnorm : vectorNorm L t a = .fin |x j| := by
    unfold vectorNorm
    rw [hs]
    have : 0 ≤ dbl (x j * x j) := le_dbl double_zero (mul_self_nonneg _)
    simp only [sqrt, not_lt.2 this, if_false]
    rw [← abs_mul_abs_self, sq_square hL habs hl]
  refine ⟨hnorm, ?_⟩
  intro k hk
  unfold unitVector
  rw [hnorm, (ha k hk).1]
  show (if |x j| = 0 then _ else _) = _
  rw [if_neg hpos.ne']
  by_cases e : k = j
  · subst e
    rw [if_pos rfl]
    split_ifs with hx
    · rw [abs_of_pos hx, div_self hx.ne', round_dbl ⟨double_one, by norm_num⟩]
    · have hx' : x k < 0 := lt_of_le_of_ne (not_lt.1 hx) (abs_pos.1 hpos)
      rw [abs_of_neg hx', div_neg, div_self hx'.ne, round_dbl ⟨Double.neg double_one, by norm_num⟩]
  · rw [if_neg e, h0 k hk e, zero_div, round_dbl dbl_zero']

/-- **C228.** The norm of a vector whose entries are at most `2 ^ -538`, such as zero, is zero, and its unit vector has NaN
for zeros and infinite values elsewhere. -/
theorem C228_tiny (hL : IsSqrt L.sq) {n : ℕ} {t : Tree} (ht : t.Adds n) {a : Row} {x : ℕ → ℚ} (ha : Doubles n a x)
    (h : ∀ k < n, |x k| ≤ 2 ^ (-538 : ℤ)) :
    vectorNorm L t a = .fin 0 ∧
    ∀ k < n, unitVector L t a k = if x k = 0 then .nan else .inf (decide (x k < 0)) := by
  have h1 : vectorNorm L t a = .fin 0 := by
    rw [norm_eq ha ht]
    exact (C199_frobenius hL ht ha (zeros n)).2.2.1 fun k hk => by simpa using h k hk
  refine ⟨h1, fun k hk => ?_⟩
  unfold unitVector
  rw [h1, (ha k hk).1]
  simp only [div, if_true]

/-- **C228.** The norm of a vector with an entry of at least `2 ^ 512` is infinite, and its unit vector is zero. -/
theorem C228_huge {n : ℕ} {t : Tree} (ht : t.Adds n) {a : Row} {x : ℕ → ℚ} (ha : Doubles n a x)
    (h : ∃ j < n, 2 ^ 512 ≤ |x j|) :
    vectorNorm L t a = .inf false ∧ ∀ k < n, unitVector L t a k = .fin 0 := by
  obtain ⟨j, hj, hx⟩ := h
  have hnn := Doubles.terms ha ht
  have h1 : vectorNorm L t a = .inf false := by
    unfold vectorNorm
    rcases sum_nonneg t hnn with ⟨s, s0, ds, hs⟩ | hs
    · obtain ⟨_, _, hge⟩ := sum_ge t hnn s hs
      obtain ⟨y, hy, _⟩ := hge j (ht.mem hj)
      rw [(ha j hj).1] at hy
      have hy' : Evaluation.D.round (x j * x j) = .fin y := hy
      have hb : (2 : ℚ) ^ 1024 ≤ x j * x j := by
        rw [← abs_mul_abs_self]
        calc (2 : ℚ) ^ 1024 = 2 ^ 512 * 2 ^ 512 := by norm_num
          _ ≤ |x j| * |x j| := mul_le_mul hx hx (by positivity) (abs_nonneg _)
      have hc : (2 : ℚ) ^ 1024 ≤ dbl (x j * x j) := le_dbl (double_pow 1024) hb
      rw [Evaluation.D.round, if_neg (not_lt.2 (hc.trans (le_abs_self _)))] at hy'
      cases hy'
    · rw [hs]; rfl
  refine ⟨h1, fun k hk => ?_⟩
  unfold unitVector
  rw [h1, (ha k hk).1]
  rfl

/-! ### Concrete cases -/

/-- A vector with two entries. -/
def two (x y : ℚ) : Row := fun k => .fin (if k = 0 then x else y)

theorem two_doubles {x y : ℚ} (hx : Dbl x) (hy : Dbl y) : Doubles 2 (two x y) fun k => if k = 0 then x else y :=
  fun k _ => ⟨rfl, by dsimp only; split_ifs <;> assumption⟩

theorem dbl_nat (n : ℕ) (h : n ≤ 2 ^ 53) : Dbl (n : ℚ) := by
  refine ⟨by simpa using double_mul (n := n) (p := 0) h (by norm_num), ?_⟩
  have : (n : ℚ) ≤ 2 ^ 53 := by exact_mod_cast h
  rw [abs_of_nonneg (by positivity)]
  exact lt_of_le_of_lt this (by norm_num)

theorem pair_adds : (Tree.plus (.leaf 0) (.leaf 1)).Adds 2 := List.Perm.refl _

example : ∃ L : Lib, vectorNorm L (.plus (.leaf 0) (.leaf 1)) (two 3 0) = .fin 3 ∧
    unitVector L (.plus (.leaf 0) (.leaf 1)) (two 3 0) 0 = .fin 1 ∧
    (∃ u, unitVector L (.plus (.leaf 0) (.leaf 1)) (two 3 4) 1 = .fin u ∧ |u| ≤ 1) ∧
    vectorNorm L (.plus (.leaf 0) (.leaf 1)) (two (2 ^ 600) 1) = .inf false ∧
    unitVector L (.plus (.leaf 0) (.leaf 1)) (two (2 ^ 600) 1) 0 = .fin 0 ∧
    unitVector L (.plus (.leaf 0) (.leaf 1)) (two 0 (1 / 2 ^ 600)) 1 = .inf false := by
  obtain ⟨sq, hsq⟩ := exists_isSqrt
  have d0 : Dbl 0 := dbl_zero'
  have d1 : Dbl 1 := by simpa using dbl_nat 1 (by norm_num)
  have d3 : Dbl 3 := by simpa using dbl_nat 3 (by norm_num)
  have d4 : Dbl 4 := by simpa using dbl_nat 4 (by norm_num)
  have dB : Dbl (2 ^ 600) := ⟨double_pow 600, by norm_num⟩
  have dT : Dbl (1 / 2 ^ 600) := by
    refine ⟨⟨1, -600, by norm_num, by norm_num, ?_⟩, by norm_num⟩
    rw [zpow_neg]; norm_cast
  have hsmall : (2 : ℚ) ^ (-500 : ℤ) ≤ 1 := by
    rw [zpow_neg]; exact inv_le_one_of_one_le₀ (one_le_zpow₀ (by norm_num) (by norm_num))
  let L : Lib := ⟨sq, fun _ => 0⟩
  have A := C228_axis (L := L) hsq pair_adds (two_doubles d3 d0) (j := 0) (by norm_num)
    (by rw [if_pos rfl, abs_of_pos (by norm_num)]; linarith) (by norm_num) (fun k _ hk => if_neg hk)
  have B := C228_bound (L := L) hsq pair_adds (two_doubles d3 d4)
    ⟨0, by norm_num, by rw [if_pos rfl, abs_of_pos (by norm_num)]; linarith⟩ 1 (by norm_num)
  have C := C228_huge (L := L) pair_adds (two_doubles dB d1) ⟨0, by norm_num, by norm_num⟩
  have D := C228_tiny (L := L) hsq pair_adds (two_doubles d0 dT) (fun k hk => by
    split_ifs
    · rw [abs_zero]; exact (two_zpow_pos _).le
    · rw [zpow_neg, ← one_div, abs_of_pos (by positivity)]
      apply one_div_le_one_div_of_le (by positivity)
      rw [show (538 : ℤ) = ((538 : ℕ) : ℤ) by norm_num, zpow_natCast]
      exact pow_le_pow_right₀ (by norm_num) (by norm_num))
  refine ⟨L, ?_, ?_, ?_, C.1, C.2 0 (by norm_num), ?_⟩
  · rw [A.1]; norm_num
  · rw [A.2 0 (by norm_num)]; norm_num
  · obtain ⟨u, h1, h2, _⟩ := B
    exact ⟨u, h1, h2⟩
  · rw [D.2 1 (by norm_num)]; norm_num

end Verif.Geom.D
