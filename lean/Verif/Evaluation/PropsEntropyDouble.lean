import Verif.Evaluation.EntropyDouble
import Verif.Evaluation.PropsKlDouble

/-!
# Entropies with doubles (C206)
-/

namespace Verif.Evaluation.D

open Verif Verif.Window
open Verif.NMF.D (double_mul double_pow double_one double_zero dbl_le le_dbl abs_dbl_le)

variable {L : Lib}

/-! ### Specification -/

/-- The exact entropy of `n` numbers. -/
noncomputable def ent (n : ℕ) (x : ℕ → ℚ) : ℝ := -∑ k ∈ Finset.range n, (x k : ℝ) * Real.log (x k)

/-- The sum of the absolute values of its terms. -/
noncomputable def mass (n : ℕ) (x : ℕ → ℚ) : ℝ := ∑ k ∈ Finset.range n, |(x k : ℝ) * Real.log (x k)|

/-! ### Lemmas -/

theorem neg_neg' (a : Flt) : neg (neg a) = a := by
  cases a <;> simp [neg]

theorem neg_round (x : ℚ) : neg (round x) = round (-x) := by
  unfold round
  rw [dbl_neg, abs_neg]
  split_ifs with h
  · rfl
  · show Flt.inf _ = _
    have hx : x ≠ 0 := by
      rintro rfl
      rw [dbl_zero, abs_zero] at h
      exact h (by positivity)
    rcases lt_or_gt_of_ne hx with h1 | h1
    · simp [h1, not_lt.2 h1.le]
    · simp [h1, not_lt.2 h1.le]

theorem neg_add' (a b : Flt) : neg (add a b) = add (neg a) (neg b) := by
  rcases a with x | s | _ <;> rcases b with y | t | _ <;> try rfl
  · show neg (round _) = round _
    rw [neg_round, neg_add]
  · cases s <;> cases t <;> rfl

theorem neg_sum (a : ℕ → Flt) : ∀ t : Tree, neg (t.sum a) = t.sum fun k => neg (a k)
  | .zero => by show Flt.fin (-0) = _; rw [neg_zero]; rfl
  | .leaf k => rfl
  | .plus p q => by
    show neg (add _ _) = add _ _
    rw [neg_add', neg_sum a p, neg_sum a q]

theorem sum_nan {a : ℕ → Flt} : ∀ t : Tree, (∃ k ∈ t.leaves, a k = .nan) → t.sum a = .nan
  | .zero, h => by simp [Tree.leaves] at h
  | .leaf k, h => by simpa [Tree.leaves, Tree.sum] using h
  | .plus p q, ⟨k, hk, h⟩ => by
    show add _ _ = _
    rcases List.mem_append.1 hk with hk | hk
    · rw [sum_nan p ⟨k, hk, h⟩]
      rfl
    · rw [sum_nan q ⟨k, hk, h⟩]
      cases p.sum a <;> rfl

/-- Sums of terms which are known up to errors. -/
theorem sum_total {n : ℕ} (hn : n ≤ 2 ^ 48) {t : Tree} (ht : t.Adds n) {f : ℕ → Flt} {z : ℕ → ℚ} {T E : ℕ → ℝ}
    (h : ∀ k < n, f k = .fin (z k) ∧ Double (z k) ∧ |z k| ≤ 2 ^ 412 ∧ |(z k : ℝ) - T k| ≤ E k) :
    ∃ s, t.sum f = .fin s ∧ Double s ∧ |s| ≤ 2 ^ 470 ∧
      |(s : ℝ) - ∑ k ∈ Finset.range n, T k| ≤ ∑ k ∈ Finset.range n, E k +
        n / 2 ^ 52 * (∑ k ∈ Finset.range n, |T k| + ∑ k ∈ Finset.range n, E k) := by
  have hsum : t.sum f = t.sum fun k => .fin (z k) := sum_congr t fun k hk => (h k (ht.lt hk)).1
  obtain ⟨s, hs, ds, bs⟩ := sum_bd (w := z) (p := 412) (by norm_num) t (by rw [ht.length]; omega)
    fun k hk => ⟨(h k (ht.lt hk)).2.1, (h k (ht.lt hk)).2.2.1⟩
  obtain ⟨_, es⟩ := sum_err t s (fun k hk => (h k (ht.lt hk)).2.1) hs
  have hnq : (n : ℚ) ≤ 2 ^ 48 := by exact_mod_cast hn
  refine ⟨s, by rw [hsum, hs], ds, ?_, ?_⟩
  · refine bs.trans ?_
    rw [ht.length, show (470 : ℕ) = 58 + 412 by norm_num, pow_add]
    have : (n : ℚ) ≤ 2 ^ 58 := hnq.trans (by norm_num)
    gcongr
  · rw [ht.length, sum_leaves ht, sum_leaves ht] at es
    have hg2 := grow_le n (by omega)
    have es2 : |s - ∑ k ∈ Finset.range n, z k| ≤ n / 2 ^ 52 * ∑ k ∈ Finset.range n, |z k| := by
      refine es.trans (mul_le_mul_of_nonneg_right ?_ (Finset.sum_nonneg fun k _ => abs_nonneg _))
      linarith only [hg2]
    have es3 := (Rat.cast_le (K := ℝ)).2 es2
    push_cast at es3
    set Z := ∑ k ∈ Finset.range n, ((z k : ℚ) : ℝ)
    set Y := ∑ k ∈ Finset.range n, |((z k : ℚ) : ℝ)|
    have hZ : |Z - ∑ k ∈ Finset.range n, T k| ≤ ∑ k ∈ Finset.range n, E k := by
      rw [← Finset.sum_sub_distrib]
      exact (Finset.abs_sum_le_sum_abs _ _).trans (Finset.sum_le_sum fun k hk => (h k (Finset.mem_range.1 hk)).2.2.2)
    have hY : Y ≤ ∑ k ∈ Finset.range n, |T k| + ∑ k ∈ Finset.range n, E k := by
      rw [← Finset.sum_add_distrib]
      refine Finset.sum_le_sum fun k hk => ?_
      have h1 := (h k (Finset.mem_range.1 hk)).2.2.2
      have h2 := abs_sub_abs_le_abs_sub ((z k : ℚ) : ℝ) (T k)
      linarith only [h1, h2]
    have h4 : (n : ℝ) / 2 ^ 52 * Y ≤ n / 2 ^ 52 * (∑ k ∈ Finset.range n, |T k| + ∑ k ∈ Finset.range n, E k) :=
      mul_le_mul_of_nonneg_left hY (div_nonneg (Nat.cast_nonneg n) (by norm_num))
    have h6 : |(s : ℝ) - ∑ k ∈ Finset.range n, T k| ≤ |(s : ℝ) - Z| + |Z - ∑ k ∈ Finset.range n, T k| := by
      calc |(s : ℝ) - ∑ k ∈ Finset.range n, T k| = |((s : ℝ) - Z) + (Z - ∑ k ∈ Finset.range n, T k)| := by congr 1; ring
        _ ≤ _ := abs_add_le _ _
    linarith only [es3, h4, h6, hZ]

theorem logTerm_zero (hL : IsLog L.lg) : logTerm L (.fin 0) = .fin 0 := by
  have h1 : add (.fin 0) (isZero (.fin 0)) = .fin 1 := by decide +kernel
  unfold logTerm
  rw [h1]
  have h2 : log L (.fin 1) = .fin 0 := by simp [log, hL.one]
  rw [h2]
  decide +kernel

theorem logTerm_pos {x : ℚ} (hd : Dbl x) (h0 : 0 < x) : logTerm L (.fin x) = round (x * L.lg x) := by
  have h1 : add (.fin x) (isZero (.fin x)) = .fin x := by
    have : isZero (.fin x) = .fin 0 := by simp [isZero, h0.ne']
    rw [this]
    show round (x + 0) = _
    rw [add_zero, round_dbl hd]
  unfold logTerm
  rw [h1]
  simp [log, h0, mul]

theorem log_two_le : Real.log 2 ≤ 1 := by
  have := Real.log_le_sub_one_of_pos (show (0 : ℝ) < 2 by norm_num)
  linarith

/-- Logarithms of doubles are not large. -/
theorem log_abs_le {x : ℚ} (hd : Double x) (h0 : 0 < x) (h1 : x ≤ 2 ^ 400) : |Real.log (x : ℝ)| ≤ 1074 := by
  have hx : (0 : ℝ) < x := by exact_mod_cast h0
  have hl := Double.ge hd h0
  have hu' : (x : ℝ) ≤ 2 ^ 400 := by
    have := (Rat.cast_le (K := ℝ)).2 h1
    push_cast at this
    exact this
  have hl' : ((2 : ℝ) ^ (-1074 : ℤ)) ≤ x := by
    have := (Rat.cast_le (K := ℝ)).2 hl
    push_cast at this
    exact this
  have a := Real.log_le_log hx hu'
  have b := Real.log_le_log (by positivity) hl'
  rw [Real.log_pow] at a
  rw [Real.log_zpow] at b
  have l2 := log_two_le
  have l3 : 0 ≤ Real.log 2 := Real.log_nonneg (by norm_num)
  push_cast at a b
  rw [abs_le]
  constructor <;> linarith only [a, b, l2, l3]

/-- The computed term. -/
theorem logTerm_err (hL : IsLog L.lg) {x : ℚ} (hd : Dbl x) (h0 : 0 ≤ x) (h1 : x ≤ 2 ^ 400) :
    ∃ z, logTerm L (.fin x) = .fin z ∧ Double z ∧ |z| ≤ 2 ^ 412 ∧
      |(z : ℝ) - x * Real.log x| ≤ |(x : ℝ) * Real.log x| / 2 ^ 49 + 1 / 2 ^ 1075 := by
  rcases h0.eq_or_lt with rfl | h0
  · refine ⟨0, logTerm_zero hL, double_zero, by rw [abs_zero]; positivity, ?_⟩
    rw [Rat.cast_zero, zero_mul, sub_zero, abs_zero, zero_div, zero_add]
    positivity
  · obtain ⟨hdl, hl⟩ := hL x h0 hd.1
    have hb := log_abs_le hd.1 h0 h1
    have hxr : (0 : ℝ) < x := by exact_mod_cast h0
    have hlb : |L.lg x| ≤ 2 ^ 12 := by
      have h4 : |(L.lg x : ℝ)| ≤ 2 * 1074 := by
        have h5 := abs_sub_abs_le_abs_sub (L.lg x : ℝ) (Real.log (x : ℝ))
        have h6 : |Real.log (x : ℝ)| / 2 ^ 50 ≤ |Real.log (x : ℝ)| := div_le_self (abs_nonneg _) (by norm_num)
        linarith only [h5, h6, hb, hl]
      have h7 : |(L.lg x : ℝ)| ≤ ((2 ^ 12 : ℚ) : ℝ) := h4.trans (by norm_num)
      exact_mod_cast h7
    have b3 : |x * L.lg x| ≤ 2 ^ 412 := by
      rw [abs_mul, abs_of_pos h0, show (412 : ℕ) = 400 + 12 by norm_num, pow_add]
      exact mul_le_mul h1 hlb (abs_nonneg _) (by positivity)
    refine ⟨dbl (x * L.lg x), ?_, dbl_double _, abs_dbl_le (double_pow 412) b3, ?_⟩
    · rw [logTerm_pos hd h0]
      exact round_of_le (double_pow 412) b3 (pow_lt_pow_right₀ (by norm_num) (by norm_num))
    · have r3 := (Rat.cast_le (K := ℝ)).2 (dbl_near (x * L.lg x))
      push_cast at r3
      generalize (1 : ℝ) / 2 ^ 1075 = η at r3 ⊢
      generalize ((dbl (x * L.lg x) : ℚ) : ℝ) = Z at *
      generalize ((L.lg x : ℚ) : ℝ) = Λ at *
      set r := Real.log (x : ℝ)
      clear b3 hlb h1 hb
      generalize (x : ℝ) = X at *
      have s1 : |X * Λ - X * r| ≤ |X * r| / 2 ^ 50 := by
        rw [← mul_sub, abs_mul, abs_mul, abs_of_pos hxr, mul_div_assoc]
        exact mul_le_mul_of_nonneg_left hl hxr.le
      have s2 := abs_sub_abs_le_abs_sub (X * Λ) (X * r)
      have s3 : |Z - X * r| ≤ |Z - X * Λ| + |X * Λ - X * r| := by
        calc |Z - X * r| = |(Z - X * Λ) + (X * Λ - X * r)| := by congr 1; ring
          _ ≤ _ := abs_add_le _ _
      have s4 := abs_nonneg (X * r)
      norm_num at *
      linarith only [s1, s2, s3, s4, r3]

/-- The opposite of the computed term of a number up to 1 is not negative, and is zero only for 0 and 1. -/
theorem logTerm_sign (hL : IsLog L.lg) {x : ℚ} (hd : Dbl x) (h0 : 0 ≤ x) (h1 : x ≤ 1) :
    ∃ z, logTerm L (.fin x) = .fin (-z) ∧ Dbl z ∧ 0 ≤ z ∧ (z = 0 ↔ x = 0 ∨ x = 1) := by
  have hbig : x ≤ 2 ^ 400 := h1.trans (one_le_pow₀ (by norm_num))
  obtain ⟨z, e1, e2, e3, _⟩ := logTerm_err hL hd h0 hbig
  refine ⟨-z, by rw [neg_neg]; exact e1, Dbl.neg ⟨e2, lt_of_le_of_lt e3 (pow_lt_pow_right₀ (by norm_num) (by norm_num))⟩, ?_⟩
  rcases h0.eq_or_lt with rfl | h0
  · rw [logTerm_zero hL] at e1
    obtain rfl := Flt.fin.inj e1
    simp
  rcases h1.eq_or_lt with rfl | h1
  · rw [logTerm_pos hd h0, hL.one, mul_zero, round_dbl dbl_zero'] at e1
    obtain rfl := Flt.fin.inj e1
    simp
  have hz : z = dbl (x * L.lg x) := by
    rw [logTerm_pos hd h0] at e1
    rcases round_cases (x * L.lg x) with ⟨h, _⟩ | h
    · rw [e1] at h
      exact Flt.fin.inj h
    · rw [e1] at h
      cases h
  have hxr : (0 : ℝ) < x := by exact_mod_cast h0
  have hx1 : (x : ℝ) < 1 := by exact_mod_cast h1
  have hlog : Real.log (x : ℝ) < 0 := Real.log_neg hxr hx1
  obtain ⟨hdl, hl⟩ := hL x h0 hd.1
  have hge := log_ge h0 hd.1 h1.ne
  have hpos : 0 < dbl (-(x * L.lg x)) := by
    rcases le_or_gt x (1 / 4) with hq | hq
    · have hqr : (x : ℝ) ≤ 1 / 4 := by
        have := (Rat.cast_le (K := ℝ)).2 hq
        push_cast at this
        exact this
      have h4 : Real.log (x : ℝ) ≤ -(2 * Real.log 2) := by
        have := Real.log_le_log hxr hqr
        rw [show (1 : ℝ) / 4 = (2 ^ 2)⁻¹ by norm_num, Real.log_inv, Real.log_pow] at this
        push_cast at this
        exact this
      have h5 := Real.log_two_gt_d9
      have h6 : (1 : ℝ) ≤ -(L.lg x : ℝ) := by
        rw [abs_of_neg hlog, abs_le] at hl
        norm_num at hl h4 h5 ⊢
        linarith only [hl.2, h4, h5]
      have h7 : (1 : ℚ) ≤ -L.lg x := by exact_mod_cast h6
      have h8 : (2 : ℚ) ^ (-1074 : ℤ) ≤ -(x * L.lg x) := by
        rw [← mul_neg]
        calc (2 : ℚ) ^ (-1074 : ℤ) ≤ x := Double.ge hd.1 h0
          _ = x * 1 := (mul_one x).symm
          _ ≤ x * -L.lg x := mul_le_mul_of_nonneg_left h7 h0.le
      exact lt_of_lt_of_le (two_zpow_pos _) (le_dbl ⟨1, -1074, by norm_num, by norm_num, by norm_num⟩ h8)
    · have h6 : (1 : ℝ) / 2 ^ 55 ≤ -(L.lg x : ℝ) := by
        rw [abs_of_neg hlog] at hl hge
        rw [abs_le] at hl
        norm_num at hl hge ⊢
        linarith only [hl.2, hge]
      have h7 : (1 : ℚ) / 2 ^ 55 ≤ -L.lg x := by
        have : (((1 : ℚ) / 2 ^ 55 : ℚ) : ℝ) ≤ ((-L.lg x : ℚ) : ℝ) := by
          push_cast
          exact h6
        exact_mod_cast this
      have h8 : (1 : ℚ) / 2 ^ 57 ≤ -(x * L.lg x) := by
        rw [← mul_neg]
        calc (1 : ℚ) / 2 ^ 57 = 1 / 4 * (1 / 2 ^ 55) := by norm_num
          _ ≤ x * -L.lg x := mul_le_mul hq.le h7 (by norm_num) h0.le
      exact lt_of_lt_of_le (by norm_num) (le_dbl (B := 1 / 2 ^ 57) ⟨1, -57, by norm_num, by norm_num, by norm_num⟩ h8)
  rw [dbl_neg, ← hz] at hpos
  exact ⟨hpos.le, ⟨fun h => absurd h hpos.ne', by rintro (h | h) <;> linarith⟩⟩

/-! ### Theorems -/

/-- **C206.** The computed entropy, whatever the order of additions. -/
theorem C206_error (hL : IsLog L.lg) {n : ℕ} (hn : n ≤ 2 ^ 48) {t : Tree} (ht : t.Adds n) {a : Row} {x : ℕ → ℚ}
    (ha : Doubles n a x) (hx : Histo n x) :
    ∃ d, entropy L t a = .fin d ∧ Double d ∧ |d| ≤ 2 ^ 470 ∧
      |(d : ℝ) - ent n x| ≤ (n + 16) / 2 ^ 52 * mass n x + n / 2 ^ 1074 := by
  have hz : ∀ k, ∃ z, k < n → logTerm L (a k) = .fin z ∧ Double z ∧ |z| ≤ 2 ^ 412 ∧
      |(z : ℝ) - x k * Real.log (x k)| ≤ |(x k : ℝ) * Real.log (x k)| / 2 ^ 49 + 1 / 2 ^ 1075 := by
    intro k
    by_cases hk : k < n
    · obtain ⟨z, hz⟩ := logTerm_err hL (ha k hk).2 (hx k hk).1 (hx k hk).2
      refine ⟨z, fun _ => ?_⟩
      rw [(ha k hk).1]
      exact hz
    · exact ⟨0, fun h => absurd h hk⟩
  choose z hz using hz
  obtain ⟨s, hs, ds, bs, es⟩ := sum_total hn ht (f := fun k => logTerm L (a k)) hz
  refine ⟨-s, by unfold entropy; rw [hs]; rfl, Double.neg ds, by rw [abs_neg]; exact bs, ?_⟩
  unfold ent
  push_cast
  rw [← neg_sub', abs_neg]
  refine es.trans ?_
  rw [Finset.sum_add_distrib, Finset.sum_const, Finset.card_range, nsmul_eq_mul, ← Finset.sum_div]
  unfold mass
  set S := ∑ k ∈ Finset.range n, |(x k : ℝ) * Real.log (x k)|
  have hS0 : 0 ≤ S := Finset.sum_nonneg fun k _ => abs_nonneg _
  have hη : (n : ℝ) / 2 ^ 1074 = 2 * (n * (1 / 2 ^ 1075)) := by
    rw [show (1075 : ℕ) = 1074 + 1 by norm_num, pow_succ]
    field_simp
  have hη0 : (0 : ℝ) ≤ n * (1 / 2 ^ 1075) :=
    mul_nonneg (Nat.cast_nonneg n) (one_div_nonneg.2 (pow_nonneg (by norm_num) _))
  rw [hη]
  generalize (n : ℝ) * (1 / 2 ^ 1075) = η at *
  have hn0 : (0 : ℝ) ≤ n := Nat.cast_nonneg n
  have hnr : (n : ℝ) ≤ 2 ^ 48 := by exact_mod_cast hn
  have h1 : (n : ℝ) / 2 ^ 52 ≤ 1 / 2 ^ 4 := by
    rw [div_le_div_iff₀ (by norm_num) (by norm_num)]
    linarith only [hnr]
  have h2 : (n : ℝ) / 2 ^ 52 * η ≤ 1 / 2 ^ 4 * η := mul_le_mul_of_nonneg_right h1 hη0
  have h3 : (n : ℝ) / 2 ^ 52 * (S / 2 ^ 49) ≤ 1 / 2 ^ 4 * (S / 2 ^ 49) :=
    mul_le_mul_of_nonneg_right h1 (by positivity)
  have h4 : S / 2 ^ 49 + η + n / 2 ^ 52 * (S + (S / 2 ^ 49 + η)) =
      S / 2 ^ 49 + η + n / 2 ^ 52 * S + n / 2 ^ 52 * (S / 2 ^ 49) + n / 2 ^ 52 * η := by ring
  have h5 : ((n : ℝ) + 16) / 2 ^ 52 * S = n / 2 ^ 52 * S + 2 * (S / 2 ^ 49) := by ring
  rw [h4, h5]
  have h6 : 0 ≤ S / 2 ^ 49 := by positivity
  generalize S / 2 ^ 49 = U at *
  norm_num at h2 h3
  linarith only [h2, h3, h6, hη0]

/-- **C206.** The computed entropy of numbers between 0 and 1 is not negative, and is zero exactly when each of them is 0
or 1. -/
theorem C206_range (hL : IsLog L.lg) {n : ℕ} (hn : n ≤ 2 ^ 48) {t : Tree} (ht : t.Adds n) {a : Row} {x : ℕ → ℚ}
    (ha : Doubles n a x) (hx : ∀ k < n, 0 ≤ x k ∧ x k ≤ 1) :
    ∃ d, entropy L t a = .fin d ∧ 0 ≤ d ∧ (d = 0 ↔ ∀ k < n, x k = 0 ∨ x k = 1) := by
  obtain ⟨d, h1, _⟩ := C206_error hL hn ht ha fun k hk => ⟨(hx k hk).1, (hx k hk).2.trans (one_le_pow₀ (by norm_num))⟩
  refine ⟨d, h1, ?_⟩
  unfold entropy at h1
  rw [neg_sum] at h1
  have hz : ∀ k, ∃ z, k < n → neg (logTerm L (a k)) = .fin z ∧ Dbl z ∧ 0 ≤ z ∧ (z = 0 ↔ x k = 0 ∨ x k = 1) := by
    intro k
    by_cases hk : k < n
    · obtain ⟨z, h2, h3⟩ := logTerm_sign hL (ha k hk).2 (hx k hk).1 (hx k hk).2
      refine ⟨z, fun _ => ⟨?_, h3⟩⟩
      rw [(ha k hk).1, h2]
      show Flt.fin (- -z) = _
      rw [neg_neg]
    · exact ⟨0, fun h => absurd h hk⟩
  choose z hz using hz
  have hnn : ∀ k ∈ t.leaves, NonNeg (neg (logTerm L (a k))) := fun k hk =>
    .inl ⟨z k, (hz k (ht.lt hk)).2.2.1, (hz k (ht.lt hk)).2.1, (hz k (ht.lt hk)).1⟩
  refine ⟨(sum_ge t hnn d h1).2.1, ?_, ?_⟩
  · rintro rfl k hk
    have h2 := sum_eq_zero t hnn h1 k (ht.mem hk)
    rw [(hz k hk).1] at h2
    exact (hz k hk).2.2.2.1 (Flt.fin.inj h2)
  · intro h
    have h2 : t.sum (fun k => neg (logTerm L (a k))) = .fin 0 := by
      refine sum_zero t fun k hk => ?_
      rw [(hz k (ht.lt hk)).1, (hz k (ht.lt hk)).2.2.2.2 (h k (ht.lt hk))]
    rw [h1] at h2
    exact Flt.fin.inj h2

/-- **C206.** The entropy is NaN as soon as one of the numbers is negative or NaN. -/
theorem C206_nan {n : ℕ} {t : Tree} (ht : t.Adds n) {a : Row} {k : ℕ} (hk : k < n)
    (h : a k = .nan ∨ a k = .inf true ∨ ∃ x, a k = .fin x ∧ Dbl x ∧ x < 0) : entropy L t a = .nan := by
  have : logTerm L (a k) = .nan := by
    rcases h with h | h | ⟨x, h, hd, hx⟩
    · rw [h]
      rfl
    · rw [h]
      rfl
    · rw [h]
      unfold logTerm
      have h1 : add (.fin x) (isZero (.fin x)) = .fin x := by
        have : isZero (.fin x) = .fin 0 := by simp [isZero, hx.ne]
        rw [this]
        show round (x + 0) = _
        rw [add_zero, round_dbl hd]
      rw [h1]
      simp [log, not_lt.2 hx.le, hx.ne, mul]
  unfold entropy
  rw [sum_nan t ⟨k, ht.mem hk, this⟩]
  rfl

end Verif.Evaluation.D
