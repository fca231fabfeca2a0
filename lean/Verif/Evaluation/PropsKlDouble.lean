import Verif.Evaluation.PropsCosine
import Mathlib.Analysis.SpecialFunctions.Log.Basic
import Mathlib.Analysis.Complex.ExponentialBounds

/-!
# Divergences with doubles (C201)
-/

namespace Verif.Evaluation.D

open Verif Verif.Window
open Verif.NMF.D (double_mul double_pow double_one double_zero dbl_le le_dbl abs_dbl_le)

variable {L : Lib}

/-- The contract of the logarithm of the library: exact for 1, and else within four units in the last place. -/
def IsLog (lg : ℚ → ℚ) : Prop :=
  ∀ x, 0 < x → Double x → Double (lg x) ∧ |(lg x : ℝ) - Real.log (x : ℝ)| ≤ |Real.log (x : ℝ)| / 2 ^ 50

theorem IsLog.one {lg : ℚ → ℚ} (h : IsLog lg) : lg 1 = 0 := by
  have := (h 1 one_pos double_one).2
  rw [Rat.cast_one, Real.log_one, abs_zero, zero_div, sub_zero] at this
  have := abs_nonpos_iff.1 this
  exact_mod_cast this

/-- Logarithms of doubles other than 1 are not tiny. -/
theorem log_ge {x : ℚ} (hx : 0 < x) (hd : Double x) (h1 : x ≠ 1) : (1 : ℝ) / 2 ^ 54 ≤ |Real.log (x : ℝ)| := by
  have hs : (1 : ℚ) / 2 ^ 53 ≤ |x - 1| := by
    have h2 : ((2 ^ 53 : ℤ) : ℚ) * 2 ^ (-53 : ℤ) = 1 := by norm_num
    have := double_sep (m := 2 ^ 53) (e := -53) (by norm_num) hd (by rw [h2]; exact h1)
    rw [h2] at this
    exact le_trans (by norm_num) this
  have hxr : (0 : ℝ) < x := by exact_mod_cast hx
  rcases lt_or_gt_of_ne h1 with h | h
  · rw [abs_of_neg (by linarith)] at hs
    have h3 := (Rat.cast_le (K := ℝ)).2 hs
    push_cast at h3
    have h4 := Real.log_le_sub_one_of_pos hxr
    have h5 := neg_le_abs (Real.log (x : ℝ))
    norm_num at h3 ⊢
    linarith
  · rw [abs_of_pos (by linarith)] at hs
    have h3 := (Rat.cast_le (K := ℝ)).2 hs
    push_cast at h3
    have h4 := Real.one_sub_inv_le_log_of_pos hxr
    have h5 := le_abs_self (Real.log (x : ℝ))
    have h6 : (1 : ℝ) < x := by exact_mod_cast h
    refine le_trans ?_ (h4.trans h5)
    rw [le_sub_iff_add_le, ← le_sub_iff_add_le', inv_le_comm₀ hxr (by norm_num)]
    rw [inv_le_comm₀ (by norm_num) hxr]
    rw [inv_eq_one_div, div_le_iff₀ hxr]
    norm_num at h3 ⊢
    linarith

/-- There is such a logarithm. -/
theorem exists_isLog : ∃ lg, IsLog lg := by
  have key : ∀ x : ℚ, ∃ v : ℚ, 0 < x → Double x →
      Double v ∧ |(v : ℝ) - Real.log (x : ℝ)| ≤ |Real.log (x : ℝ)| / 2 ^ 50 := by
    intro x
    by_cases h : 0 < x ∧ Double x
    · by_cases h1 : x = 1
      · exact ⟨0, fun _ _ => ⟨double_zero, by rw [h1]; simp⟩⟩
      · have hl := log_ge h.1 h.2 h1
        set l := Real.log (x : ℝ)
        have hl0 : 0 < |l| := lt_of_lt_of_le (by norm_num) hl
        obtain ⟨q, hq1, hq2⟩ := exists_rat_btwn (show l - |l| / 2 ^ 52 < l + |l| / 2 ^ 52 by
          have : 0 < |l| / 2 ^ 52 := by positivity
          linarith)
        refine ⟨dbl q, fun _ _ => ⟨dbl_double q, ?_⟩⟩
        have hq : |(q : ℝ) - l| ≤ |l| / 2 ^ 52 := by
          rw [abs_le]
          constructor <;> linarith
        have hn := (Rat.cast_le (K := ℝ)).2 (dbl_near q)
        push_cast at hn
        have hqa : |(q : ℝ)| ≤ 2 * |l| := by
          have h2 := abs_sub_abs_le_abs_sub (q : ℝ) l
          have h3 : |l| / 2 ^ 52 ≤ |l| := div_le_self hl0.le (by norm_num)
          linarith
        have htiny : (1 : ℝ) / 2 ^ 1075 ≤ |l| / 2 ^ 53 := by
          rw [div_le_div_iff₀ (by positivity) (by positivity), one_mul]
          have h5 : (2 : ℝ) ^ 107 = 1 / 2 ^ 54 * 2 ^ 161 := by norm_num
          calc (2 : ℝ) ^ 53 ≤ 2 ^ 107 := by norm_num
            _ = 1 / 2 ^ 54 * 2 ^ 161 := h5
            _ ≤ |l| * 2 ^ 161 := by gcongr
            _ ≤ |l| * 2 ^ 1075 := by gcongr <;> norm_num
        generalize (1 : ℝ) / 2 ^ 1075 = η at hn htiny
        calc |(dbl q : ℝ) - l| = |((dbl q : ℝ) - q) + (q - l)| := by congr 1; ring
          _ ≤ |(dbl q : ℝ) - q| + |(q : ℝ) - l| := abs_add_le _ _
          _ ≤ |l| / 2 ^ 50 := by
            norm_num at hn hq htiny hqa ⊢
            linarith
    · exact ⟨0, fun a b => absurd ⟨a, b⟩ h⟩
  choose lg hlg using key
  exact ⟨lg, hlg⟩

/-! ### Symmetry, and the divergence of a row from itself -/

/-- **C201.** The symmetric divergence does not depend on the order of the two rows, whatever their entries. -/
theorem C201_symm (t : Tree) (a b : Row) : symKlDiv L t a b = symKlDiv L t b a := by
  unfold symKlDiv revKlDiv
  rw [dbl_add_comm]

/-- The constant. -/
def eps : ℚ := dbl (1 / 10 ^ 8)

theorem EPSILON_eq : EPSILON = .fin eps := by decide +kernel

theorem eps_pos : 0 < eps := by decide +kernel

theorem eps_double : Double eps := dbl_double _

theorem eps_near : |eps - 1 / 10 ^ 8| ≤ 1 / 10 ^ 8 / 2 ^ 53 := by
  have h : (2 : ℚ) ^ (-27 : ℤ) ≤ |1 / 10 ^ 8| := by norm_num
  have h2 : (2 : ℚ) ^ (-1022 : ℤ) ≤ 2 ^ (-27 : ℤ) := zpow_le_zpow_right₀ (by norm_num) (by norm_num)
  have h3 := dbl_rel_ge (h2.trans h)
  rw [abs_of_pos (show (0 : ℚ) < 1 / 10 ^ 8 by norm_num)] at h3
  exact h3

theorem eps_bounds : (1 : ℚ) / 2 ^ 27 ≤ eps ∧ eps ≤ 1 := by decide +kernel

/-- Rows of doubles which are not negative, nor so large that divergences overflow. -/
def Histo (n : ℕ) (x : ℕ → ℚ) : Prop := ∀ k < n, 0 ≤ x k ∧ x k ≤ 2 ^ 400

theorem add_eps {x : ℚ} (h0 : 0 ≤ x) (h1 : x ≤ 2 ^ 400) :
    add (.fin x) EPSILON = .fin (dbl (x + eps)) ∧ 1 / 2 ^ 27 ≤ dbl (x + eps) ∧ dbl (x + eps) ≤ 2 ^ 401 := by
  have he := eps_bounds
  have h2 : x + eps ≤ 2 ^ 401 := by
    calc x + eps ≤ 2 ^ 400 + 2 ^ 400 := add_le_add h1 (he.2.trans (one_le_pow₀ (by norm_num)))
      _ = 2 ^ 401 := by rw [← two_mul, ← pow_succ']
  have h3 : 0 ≤ x + eps := add_nonneg h0 eps_pos.le
  have hd : Double (1 / 2 ^ 27) := ⟨1, -27, by norm_num, by norm_num, by norm_num⟩
  refine ⟨?_, le_dbl hd (by linarith only [h0, he.1]), dbl_le (double_pow 401) h2⟩
  rw [EPSILON_eq]
  exact round_of_le (double_pow 401) (by rw [abs_of_nonneg h3]; exact h2) (pow_lt_pow_right₀ (by norm_num) (by norm_num))

/-- **C201.** The divergence of a row from itself is exactly zero. -/
theorem C201_self (hL : IsLog L.lg) {n : ℕ} {t : Tree} (ht : t.Adds n) {a : Row} {x : ℕ → ℚ} (ha : Doubles n a x)
    (hx : Histo n x) : klDiv L t a a = .fin 0 ∧ revKlDiv L t a a = .fin 0 ∧ symKlDiv L t a a = .fin 0 := by
  have h : klDiv L t a a = .fin 0 := by
    refine sum_zero t fun k hk => ?_
    have hk := ht.lt hk
    obtain ⟨h1, h2, h3⟩ := add_eps (hx k hk).1 (hx k hk).2
    have hne : dbl (x k + eps) ≠ 0 := (lt_of_lt_of_le (by norm_num) h2).ne'
    have e1 : div (.fin (dbl (x k + eps))) (.fin (dbl (x k + eps))) = .fin 1 := by
      show (if dbl (x k + eps) = 0 then _ else round _) = _
      rw [if_neg hne, div_self hne]
      exact round_dbl ⟨double_one, by rw [abs_one]; exact one_lt_pow₀ (by norm_num) (by norm_num)⟩
    have e2 : log L (.fin 1) = .fin 0 := by
      simp [log, hL.one]
    have e3 : mul (.fin (x k)) (.fin 0) = .fin 0 := by
      show round (x k * 0) = _
      rw [mul_zero, round_dbl dbl_zero']
    have e4 : sub (.fin 0) (.fin (x k)) = .fin (-x k) := by
      show round (0 + -x k) = _
      rw [zero_add, round_dbl (Dbl.neg (ha k hk).2)]
    have e5 : add (.fin (-x k)) (.fin (x k)) = .fin 0 := by
      show round (-x k + x k) = _
      rw [neg_add_cancel, round_dbl dbl_zero']
    unfold klTerm
    rw [(ha k hk).1, h1, e1, e2, e3, e4, e5]
  refine ⟨h, h, ?_⟩
  unfold symKlDiv revKlDiv
  rw [h]
  decide +kernel

/-! ### The error of divergences -/

/-- One term of the divergence, and the size of its parts. -/
noncomputable def term (x y : ℚ) : ℝ := x * Real.log ((x + 1 / 10 ^ 8) / (y + 1 / 10 ^ 8)) - x + y

/-- The size of the parts of a term. -/
noncomputable def size (x y : ℚ) : ℝ := x + y + x * |Real.log ((x + 1 / 10 ^ 8) / (y + 1 / 10 ^ 8))|

/-- The exact divergence. -/
noncomputable def kl (n : ℕ) (x y : ℕ → ℚ) : ℝ := ∑ k ∈ Finset.range n, term (x k) (y k)

theorem log_perturb {r r' : ℝ} (hr : 0 < r) (h : |r' - r| ≤ r / 2 ^ 49) : |Real.log r' - Real.log r| ≤ 1 / 2 ^ 48 := by
  rw [abs_le] at h
  have hd : r / 2 ^ 49 ≤ r / 2 := by gcongr <;> norm_num
  have hr' : 0 < r' := by linarith
  rw [← Real.log_div hr'.ne' hr.ne']
  have hq : 0 < r' / r := div_pos hr' hr
  have u := Real.log_le_sub_one_of_pos hq
  have l := Real.one_sub_inv_le_log_of_pos hq
  have hq1 : r' / r ≤ 1 + 1 / 2 ^ 49 := by
    rw [div_le_iff₀ hr]
    linarith
  have hq2 : 1 - 1 / 2 ^ 49 ≤ r' / r := by
    rw [le_div_iff₀ hr]
    linarith
  have hinv : (r' / r)⁻¹ ≤ 1 + 1 / 2 ^ 48 := by
    rw [inv_le_comm₀ hq (by norm_num)]
    exact le_trans (by norm_num) hq2
  rw [abs_le]
  norm_num at *
  constructor <;> linarith

/-- The computed number plus the constant. -/
theorem add_eps_err {x : ℚ} (hd : Double x) (h0 : 0 ≤ x) : |dbl (x + eps) - (x + 1 / 10 ^ 8)| ≤ (x + 1 / 10 ^ 8) / 2 ^ 51 := by
  have h1 := dbl_rel_add hd eps_double
  rw [abs_of_nonneg (add_nonneg h0 eps_pos.le)] at h1
  have h2 := eps_near
  rw [abs_le] at h1 h2 ⊢
  constructor <;> linarith only [h1.1, h1.2, h2.1, h2.2, h0]

/-- The computed quotient. -/
theorem quotient_err {x y : ℚ} (hdx : Double x) (hdy : Double y) (hx : 0 ≤ x) (hy : 0 ≤ y) (bx : x ≤ 2 ^ 400)
    (by_ : y ≤ 2 ^ 400) :
    ∃ q, div (add (.fin x) EPSILON) (add (.fin y) EPSILON) = .fin q ∧ Double q ∧ 0 < q ∧ q ≤ 2 ^ 428 ∧ 1 / 2 ^ 428 ≤ q ∧
      |q - (x + 1 / 10 ^ 8) / (y + 1 / 10 ^ 8)| ≤ (x + 1 / 10 ^ 8) / (y + 1 / 10 ^ 8) / 2 ^ 49 := by
  obtain ⟨e1, l1, u1⟩ := add_eps hx bx
  obtain ⟨e2, l2, u2⟩ := add_eps hy by_
  have r1 := add_eps_err hdx hx
  have r2 := add_eps_err hdy hy
  set X := dbl (x + eps)
  set Y := dbl (y + eps)
  have hX : 0 < X := lt_of_lt_of_le (by norm_num) l1
  have hY : 0 < Y := lt_of_lt_of_le (by norm_num) l2
  have hlow : 1 / 2 ^ 428 ≤ X / Y := by
    rw [div_le_div_iff₀ (by positivity) hY, one_mul]
    calc Y ≤ 2 ^ 401 := u2
      _ = 1 / 2 ^ 27 * 2 ^ 428 := by rw [show (428 : ℕ) = 27 + 401 by norm_num, pow_add]; field_simp
      _ ≤ X * 2 ^ 428 := mul_le_mul_of_nonneg_right l1 (by positivity)
  have hup : X / Y ≤ 2 ^ 428 := by
    rw [div_le_iff₀ hY]
    calc X ≤ 2 ^ 401 := u1
      _ = 2 ^ 428 * (1 / 2 ^ 27) := by rw [show (428 : ℕ) = 27 + 401 by norm_num, pow_add]; field_simp
      _ ≤ 2 ^ 428 * Y := mul_le_mul_of_nonneg_left l2 (by positivity)
  have hdl : Double (1 / 2 ^ 428) := ⟨1, -428, by norm_num, by norm_num, by norm_num⟩
  have hXY : 0 < X / Y := div_pos hX hY
  have hq0 : 1 / 2 ^ 428 ≤ dbl (X / Y) := le_dbl hdl hlow
  refine ⟨dbl (X / Y), ?_, dbl_double _, lt_of_lt_of_le (by positivity) hq0, dbl_le (double_pow 428) hup, hq0, ?_⟩
  · rw [e1, e2]
    show (if Y = 0 then _ else round (X / Y)) = _
    rw [if_neg hY.ne']
    exact round_of_le (double_pow 428) (by rw [abs_of_pos hXY]; exact hup) (pow_lt_pow_right₀ (by norm_num) (by norm_num))
  · have hr : |dbl (X / Y) - X / Y| ≤ X / Y / 2 ^ 53 := by
      have h3 : (2 : ℚ) ^ (-1022 : ℤ) ≤ |X / Y| := by
        rw [abs_of_pos hXY]
        refine le_trans ?_ hlow
        rw [show (1 : ℚ) / 2 ^ 428 = 2 ^ (-428 : ℤ) by norm_num]
        exact zpow_le_zpow_right₀ (by norm_num) (by norm_num)
      have := dbl_rel_ge h3
      rwa [abs_of_pos hXY] at this
    set A := x + 1 / 10 ^ 8
    set B := y + 1 / 10 ^ 8
    have hA : 0 < A := by positivity
    have hB : 0 < B := by positivity
    set r := A / B
    have hr0 : 0 < r := div_pos hA hB
    have hArB : A = r * B := by simp only [r]; field_simp
    rw [abs_le] at r1 r2 hr ⊢
    -- bounds of the quotient before rounding
    have hq1 : X / Y ≤ r * (1 + 1 / 2 ^ 50 + 1 / 2 ^ 90) := by
      rw [div_le_iff₀ hY]
      have h4 : (1 - 1 / 2 ^ 51) * B ≤ Y := by linarith only [r2.1]
      calc X ≤ (1 + 1 / 2 ^ 51) * A := by linarith only [r1.2]
        _ = r * ((1 + 1 / 2 ^ 51) * B) := by rw [hArB]; ring
        _ ≤ r * ((1 + 1 / 2 ^ 50 + 1 / 2 ^ 90) * ((1 - 1 / 2 ^ 51) * B)) := by
          apply mul_le_mul_of_nonneg_left _ hr0.le
          rw [← mul_assoc]
          apply mul_le_mul_of_nonneg_right _ hB.le
          norm_num
        _ ≤ r * ((1 + 1 / 2 ^ 50 + 1 / 2 ^ 90) * Y) := by
          apply mul_le_mul_of_nonneg_left _ hr0.le
          exact mul_le_mul_of_nonneg_left h4 (by norm_num)
        _ = _ := by ring
    have hq2 : r * (1 - 1 / 2 ^ 50) ≤ X / Y := by
      rw [le_div_iff₀ hY]
      have h4 : Y ≤ (1 + 1 / 2 ^ 51) * B := by linarith only [r2.2]
      calc r * (1 - 1 / 2 ^ 50) * Y ≤ r * (1 - 1 / 2 ^ 50) * ((1 + 1 / 2 ^ 51) * B) := by
            apply mul_le_mul_of_nonneg_left h4
            exact mul_nonneg hr0.le (by norm_num)
        _ = r * B * ((1 - 1 / 2 ^ 50) * (1 + 1 / 2 ^ 51)) := by ring
        _ = A * ((1 - 1 / 2 ^ 50) * (1 + 1 / 2 ^ 51)) := by rw [← hArB]
        _ ≤ A * (1 - 1 / 2 ^ 51) := by
          apply mul_le_mul_of_nonneg_left _ hA.le
          norm_num
        _ ≤ X := by linarith only [r1.1]
    constructor
    · have : r * (1 - 1 / 2 ^ 50) * (1 - 1 / 2 ^ 53) ≤ X / Y * (1 - 1 / 2 ^ 53) :=
        mul_le_mul_of_nonneg_right hq2 (by norm_num)
      norm_num at this hr ⊢
      linarith only [this, hr.1, hr0]
    · have : X / Y * (1 + 1 / 2 ^ 53) ≤ r * (1 + 1 / 2 ^ 50 + 1 / 2 ^ 90) * (1 + 1 / 2 ^ 53) :=
        mul_le_mul_of_nonneg_right hq1 (by norm_num)
      norm_num at this hr ⊢
      linarith only [this, hr.2, hr0]

/-- The computed logarithm of a quotient. -/
theorem log_err (hL : IsLog L.lg) {x y q : ℚ} (hx : 0 ≤ x) (hy : 0 ≤ y) (hd : Double q) (h0 : 0 < q) (hu : q ≤ 2 ^ 428)
    (hl : 1 / 2 ^ 428 ≤ q)
    (he : |q - (x + 1 / 10 ^ 8) / (y + 1 / 10 ^ 8)| ≤ (x + 1 / 10 ^ 8) / (y + 1 / 10 ^ 8) / 2 ^ 49) :
    Double (L.lg q) ∧ |L.lg q| ≤ 2 ^ 10 ∧
      |(L.lg q : ℝ) - Real.log ((x + 1 / 10 ^ 8) / (y + 1 / 10 ^ 8))| ≤
        1 / 2 ^ 47 + |Real.log (((x : ℝ) + 1 / 10 ^ 8) / (y + 1 / 10 ^ 8))| / 2 ^ 50 := by
  obtain ⟨h1, h2⟩ := hL q h0 hd
  have hq0 : (0 : ℝ) < q := by exact_mod_cast h0
  have hxr : (0 : ℝ) ≤ x := by exact_mod_cast hx
  have hyr : (0 : ℝ) ≤ y := by exact_mod_cast hy
  have hb : |Real.log (q : ℝ)| ≤ 428 := by
    have e : Real.log ((2 : ℝ) ^ 428) = 428 * Real.log 2 := by rw [Real.log_pow]; norm_num
    have l2 : Real.log 2 ≤ 1 := by
      have := Real.log_le_sub_one_of_pos (show (0 : ℝ) < 2 by norm_num)
      linarith
    have hu' : (q : ℝ) ≤ 2 ^ 428 := by
      have := (Rat.cast_le (K := ℝ)).2 hu
      push_cast at this
      exact this
    have hl' : ((2 : ℝ) ^ 428)⁻¹ ≤ q := by
      have := (Rat.cast_le (K := ℝ)).2 hl
      push_cast at this
      rw [inv_eq_one_div]
      exact this
    have a := Real.log_le_log hq0 hu'
    have b := Real.log_le_log (by positivity) hl'
    rw [Real.log_inv, e] at b
    rw [e] at a
    rw [abs_le]
    constructor <;> linarith only [a, b, l2]
  have her := (Rat.cast_le (K := ℝ)).2 he
  push_cast at her
  have hr0 : (0 : ℝ) < (x + 1 / 10 ^ 8) / (y + 1 / 10 ^ 8) := by positivity
  have h3 := log_perturb hr0 her
  refine ⟨h1, ?_, ?_⟩
  · have h4 : |(L.lg q : ℝ)| ≤ 2 * 428 := by
      have h5 := abs_sub_abs_le_abs_sub (L.lg q : ℝ) (Real.log (q : ℝ))
      have h6 : |Real.log (q : ℝ)| / 2 ^ 50 ≤ |Real.log (q : ℝ)| := div_le_self (abs_nonneg _) (by norm_num)
      linarith only [h5, h6, hb, h2]
    have h7 : |(L.lg q : ℝ)| ≤ ((2 ^ 10 : ℚ) : ℝ) := h4.trans (by norm_num)
    exact_mod_cast h7
  · set r := Real.log (((x : ℝ) + 1 / 10 ^ 8) / (y + 1 / 10 ^ 8))
    set l := Real.log (q : ℝ)
    have h4 := abs_sub_abs_le_abs_sub l r
    have h5 : |(L.lg q : ℝ) - r| ≤ |(L.lg q : ℝ) - l| + |l - r| := by
      calc |(L.lg q : ℝ) - r| = |((L.lg q : ℝ) - l) + (l - r)| := by congr 1; ring
        _ ≤ _ := abs_add_le _ _
    norm_num at *
    linarith only [h2, h3, h4, h5]

/-- The computed term of a divergence. -/
theorem term_err (hL : IsLog L.lg) {x y : ℚ} (hdx : Double x) (hdy : Double y) (hx : 0 ≤ x) (hy : 0 ≤ y) (bx : x ≤ 2 ^ 400)
    (by_ : y ≤ 2 ^ 400) :
    ∃ z, klTerm L (.fin x) (.fin y) = .fin z ∧ Double z ∧ |z| ≤ 2 ^ 412 ∧
      |(z : ℝ) - term x y| ≤ size x y / 2 ^ 44 + 1 / 2 ^ 1073 := by
  obtain ⟨q, e1, dq, q0, qu, ql, qe⟩ := quotient_err hdx hdy hx hy bx by_
  obtain ⟨dl, bl, el⟩ := log_err hL hx hy dq q0 qu ql qe
  have e2 : log L (.fin q) = .fin (L.lg q) := by simp [log, q0]
  set l := L.lg q
  -- product
  have b3 : |x * l| ≤ 2 ^ 410 := by
    rw [abs_mul, abs_of_nonneg hx, show (410 : ℕ) = 400 + 10 by norm_num, pow_add]
    exact mul_le_mul bx bl (abs_nonneg _) (by positivity)
  have e3 : mul (.fin x) (.fin l) = .fin (dbl (x * l)) :=
    round_of_le (double_pow 410) b3 (pow_lt_pow_right₀ (by norm_num) (by norm_num))
  have r3 := dbl_near (x * l)
  have c3 := abs_dbl_le (double_pow 410) b3
  have d3 : Double (dbl (x * l)) := dbl_double _
  set p := dbl (x * l)
  -- difference
  have b4 : |p + -x| ≤ 2 ^ 411 := by
    refine (abs_add_le _ _).trans ?_
    rw [abs_neg, abs_of_nonneg hx, pow_succ, mul_two]
    exact add_le_add c3 (bx.trans (pow_le_pow_right₀ (by norm_num) (by norm_num)))
  have e4 : sub (.fin p) (.fin x) = .fin (dbl (p + -x)) :=
    round_of_le (double_pow 411) b4 (pow_lt_pow_right₀ (by norm_num) (by norm_num))
  have r4 := dbl_rel_add d3 (Double.neg hdx)
  have c4 := abs_dbl_le (double_pow 411) b4
  have d4 : Double (dbl (p + -x)) := dbl_double _
  set d := dbl (p + -x)
  -- sum
  have b5 : |d + y| ≤ 2 ^ 412 := by
    refine (abs_add_le _ _).trans ?_
    rw [abs_of_nonneg hy, pow_succ, mul_two]
    exact add_le_add c4 (by_.trans (pow_le_pow_right₀ (by norm_num) (by norm_num)))
  have e5 : add (.fin d) (.fin y) = .fin (dbl (d + y)) :=
    round_of_le (double_pow 412) b5 (pow_lt_pow_right₀ (by norm_num) (by norm_num))
  have r5 := dbl_rel_add d4 hdy
  have c5 := abs_dbl_le (double_pow 412) b5
  refine ⟨dbl (d + y), ?_, dbl_double _, c5, ?_⟩
  · unfold klTerm
    rw [e1, e2, e3, e4, e5]
  · set z := dbl (d + y)
    have r3' := (Rat.cast_le (K := ℝ)).2 r3
    have r4' := (Rat.cast_le (K := ℝ)).2 r4
    have r5' := (Rat.cast_le (K := ℝ)).2 r5
    push_cast at r3' r4' r5'
    have hxr : (0 : ℝ) ≤ x := by exact_mod_cast hx
    have hyr : (0 : ℝ) ≤ y := by exact_mod_cast hy
    unfold term size
    set r := Real.log (((x : ℝ) + 1 / 10 ^ 8) / (y + 1 / 10 ^ 8))
    clear b3 b4 b5 c3 c4 c5 e1 e2 e3 e4 e5 r3 r4 r5 bx by_ qu ql qe dq q0 d3 d4 dl bl
    have hη : (1 : ℝ) / 2 ^ 1073 = 4 * (1 / 2 ^ 1075) := by
      rw [show (1075 : ℕ) = 1073 + 2 by norm_num, pow_add]
      field_simp
      norm_num
    have hη0 : (0 : ℝ) ≤ 1 / 2 ^ 1075 := by positivity
    rw [hη]
    generalize (1 : ℝ) / 2 ^ 1075 = η at *
    generalize (z : ℝ) = Z at *
    generalize (d : ℝ) = D at *
    generalize (p : ℝ) = P at *
    generalize (l : ℝ) = Λ at *
    generalize (x : ℝ) = X at *
    generalize (y : ℝ) = Y at *
    -- the product
    have hR := abs_nonneg r
    have hXR : 0 ≤ X * |r| := mul_nonneg hxr hR
    have s1 : |X * Λ - X * r| ≤ X * (1 / 2 ^ 47) + X * |r| / 2 ^ 50 := by
      rw [← mul_sub, abs_mul, abs_of_nonneg hxr]
      calc X * |Λ - r| ≤ X * (1 / 2 ^ 47 + |r| / 2 ^ 50) := mul_le_mul_of_nonneg_left el hxr
        _ = _ := by ring
    have s2 : |X * r| = X * |r| := by rw [abs_mul, abs_of_nonneg hxr]
    have s3 : |X * Λ| ≤ X * |r| + (X * (1 / 2 ^ 47) + X * |r| / 2 ^ 50) := by
      have := abs_sub_abs_le_abs_sub (X * Λ) (X * r)
      linarith only [this, s1, s2]
    have s4 : |P - X * r| ≤ |P - X * Λ| + |X * Λ - X * r| := by
      calc |P - X * r| = |(P - X * Λ) + (X * Λ - X * r)| := by congr 1; ring
        _ ≤ _ := abs_add_le _ _
    have s5 : |P| ≤ |P - X * r| + X * |r| := by
      have := abs_sub_abs_le_abs_sub P (X * r)
      linarith only [this, s2]
    have s6 : |P + -X| ≤ |P| + X := by
      refine (abs_add_le _ _).trans ?_
      rw [abs_neg, abs_of_nonneg hxr]
    have s7 : |D - (X * r - X)| ≤ |D - (P + -X)| + |P - X * r| := by
      calc |D - (X * r - X)| = |(D - (P + -X)) + (P - X * r)| := by congr 1; ring
        _ ≤ _ := abs_add_le _ _
    have s8 : |D| ≤ |D - (P + -X)| + |P + -X| := by
      have := abs_sub_abs_le_abs_sub D (P + -X)
      linarith only [this]
    have s9 : |D + Y| ≤ |D| + Y := by
      refine (abs_add_le _ _).trans ?_
      rw [abs_of_nonneg hyr]
    have s10 : |Z - (X * r - X + Y)| ≤ |Z - (D + Y)| + |D - (X * r - X)| := by
      calc |Z - (X * r - X + Y)| = |(Z - (D + Y)) + (D - (X * r - X))| := by congr 1; ring
        _ ≤ _ := abs_add_le _ _
    generalize |Z - (X * r - X + Y)| = A at *
    norm_num at *
    linarith only [s1, s3, s4, s5, s6, s7, s8, s9, s10, r3', r4', r5', hxr, hyr, hXR, hη0]

/-- The size of terms is not negative. -/
theorem size_nonneg {x y : ℚ} (hx : 0 ≤ x) (hy : 0 ≤ y) : 0 ≤ size x y := by
  unfold size
  have hxr : (0 : ℝ) ≤ x := by exact_mod_cast hx
  have hyr : (0 : ℝ) ≤ y := by exact_mod_cast hy
  positivity

theorem term_le_size {x y : ℚ} (hx : 0 ≤ x) (hy : 0 ≤ y) : |term x y| ≤ size x y := by
  unfold term size
  have hxr : (0 : ℝ) ≤ x := by exact_mod_cast hx
  have hyr : (0 : ℝ) ≤ y := by exact_mod_cast hy
  set r := Real.log (((x : ℝ) + 1 / 10 ^ 8) / (y + 1 / 10 ^ 8))
  have h1 : |(x : ℝ) * r| = x * |r| := by rw [abs_mul, abs_of_nonneg hxr]
  have h2 := abs_le.1 (le_of_eq h1)
  rw [abs_le]
  constructor <;> linarith only [h2.1, h2.2, hxr, hyr]

/-- **C201.** The error of a divergence, which is finite, whatever the order of additions. -/
theorem C201_error (hL : IsLog L.lg) {n : ℕ} (hn : n ≤ 2 ^ 48) {t : Tree} (ht : t.Adds n) {a b : Row} {x y : ℕ → ℚ}
    (ha : Doubles n a x) (hb : Doubles n b y) (hx : Histo n x) (hy : Histo n y) :
    ∃ d, klDiv L t a b = .fin d ∧ Double d ∧ |d| ≤ 2 ^ 470 ∧
      |(d : ℝ) - kl n x y| ≤ (n + 128) / 2 ^ 51 * (∑ k ∈ Finset.range n, size (x k) (y k)) + n / 2 ^ 1072 := by
  have hz : ∀ k, ∃ z, k < n → klTerm L (a k) (b k) = .fin z ∧ Double z ∧ |z| ≤ 2 ^ 412 ∧
      |(z : ℝ) - term (x k) (y k)| ≤ size (x k) (y k) / 2 ^ 44 + 1 / 2 ^ 1073 := by
    intro k
    by_cases hk : k < n
    · obtain ⟨z, hz⟩ := term_err hL (ha k hk).2.1 (hb k hk).2.1 (hx k hk).1 (hy k hk).1 (hx k hk).2 (hy k hk).2
      refine ⟨z, fun _ => ?_⟩
      rw [(ha k hk).1, (hb k hk).1]
      exact hz
    · exact ⟨0, fun h => absurd h hk⟩
  choose z hz using hz
  have hsum : klDiv L t a b = t.sum fun k => .fin (z k) := sum_congr t fun k hk => (hz k (ht.lt hk)).1
  obtain ⟨s, hs, ds, bs⟩ := sum_bd (w := z) (p := 412) (by norm_num) t (by rw [ht.length]; omega)
    fun k hk => ⟨(hz k (ht.lt hk)).2.1, (hz k (ht.lt hk)).2.2.1⟩
  obtain ⟨_, es⟩ := sum_err t s (fun k hk => (hz k (ht.lt hk)).2.1) hs
  have hnq : (n : ℚ) ≤ 2 ^ 48 := by exact_mod_cast hn
  refine ⟨s, by rw [hsum, hs], ds, ?_, ?_⟩
  · refine bs.trans ?_
    rw [ht.length, show (470 : ℕ) = 58 + 412 by norm_num, pow_add]
    have : (n : ℚ) ≤ 2 ^ 58 := hnq.trans (by norm_num)
    gcongr
  · rw [ht.length, sum_leaves ht, sum_leaves ht] at es
    have hg2 := grow_le n (by omega)
    have es2 : |s - ∑ k ∈ Finset.range n, z k| ≤ n / 2 ^ 52 * ∑ k ∈ Finset.range n, |z k| := by
      refine es.trans (mul_le_mul_of_nonneg_right ?_ (Finset.sum_nonneg fun k _ => abs_nonneg _))
      linarith only [hg2]
    have es3 := (Rat.cast_le (K := ℝ)).2 es2
    push_cast at es3
    unfold kl
    set S := ∑ k ∈ Finset.range n, size (x k) (y k)
    have hS0 : 0 ≤ S := Finset.sum_nonneg fun k hk =>
      size_nonneg (hx k (Finset.mem_range.1 hk)).1 (hy k (Finset.mem_range.1 hk)).1
    set T := ∑ k ∈ Finset.range n, term (x k) (y k)
    set Z := ∑ k ∈ Finset.range n, ((z k : ℚ) : ℝ)
    set Y := ∑ k ∈ Finset.range n, |((z k : ℚ) : ℝ)|
    have hZ : |Z - T| ≤ S / 2 ^ 44 + n * (1 / 2 ^ 1073) := by
      rw [← Finset.sum_sub_distrib]
      refine (Finset.abs_sum_le_sum_abs _ _).trans ?_
      refine (Finset.sum_le_sum fun k hk => (hz k (Finset.mem_range.1 hk)).2.2.2).trans (le_of_eq ?_)
      rw [Finset.sum_add_distrib, ← Finset.sum_div, Finset.sum_const, Finset.card_range, nsmul_eq_mul]
    have hY : Y ≤ S + (S / 2 ^ 44 + n * (1 / 2 ^ 1073)) := by
      have : ∀ k ∈ Finset.range n, |((z k : ℚ) : ℝ)| ≤ size (x k) (y k) + (size (x k) (y k) / 2 ^ 44 + 1 / 2 ^ 1073) := by
        intro k hk
        have hk := Finset.mem_range.1 hk
        have h1 := (hz k hk).2.2.2
        have h2 := abs_sub_abs_le_abs_sub ((z k : ℚ) : ℝ) (term (x k) (y k))
        have h3 := term_le_size (hx k hk).1 (hy k hk).1
        linarith only [h1, h2, h3]
      refine (Finset.sum_le_sum this).trans (le_of_eq ?_)
      rw [Finset.sum_add_distrib, Finset.sum_add_distrib, ← Finset.sum_div, Finset.sum_const, Finset.card_range, nsmul_eq_mul]
    have hη : (n : ℝ) / 2 ^ 1072 = 2 * (n * (1 / 2 ^ 1073)) := by
      rw [show (1073 : ℕ) = 1072 + 1 by norm_num, pow_succ]
      field_simp
    have hη0 : (0 : ℝ) ≤ n * (1 / 2 ^ 1073) :=
      mul_nonneg (Nat.cast_nonneg n) (one_div_nonneg.2 (pow_nonneg (by norm_num) _))
    rw [hη]
    generalize (n : ℝ) * (1 / 2 ^ 1073) = η at *
    have hn0 : (0 : ℝ) ≤ n := Nat.cast_nonneg n
    have hnr : (n : ℝ) ≤ 2 ^ 48 := by exact_mod_cast hn
    have h4 : (n : ℝ) / 2 ^ 52 * Y ≤ n / 2 ^ 52 * (S + (S / 2 ^ 44 + η)) :=
      mul_le_mul_of_nonneg_left hY (div_nonneg hn0 (by norm_num))
    have h0 : (0 : ℝ) ≤ n / 2 ^ 52 := div_nonneg hn0 (by norm_num)
    have h5 : (n : ℝ) / 2 ^ 52 * (S / 2 ^ 44) ≤ n / 2 ^ 52 * S :=
      mul_le_mul_of_nonneg_left (div_le_self hS0 (by norm_num)) h0
    have h5' : (n : ℝ) / 2 ^ 52 * η ≤ 1 * η := by
      apply mul_le_mul_of_nonneg_right _ hη0
      rw [div_le_iff₀ (by norm_num)]
      linarith only [hnr]
    have h6 : |(s : ℝ) - T| ≤ |(s : ℝ) - Z| + |Z - T| := by
      calc |(s : ℝ) - T| = |((s : ℝ) - Z) + (Z - T)| := by congr 1; ring
        _ ≤ _ := abs_add_le _ _
    have h7 : ((n : ℝ) + 128) / 2 ^ 51 * S = n / 2 ^ 52 * S + n / 2 ^ 52 * S + S / 2 ^ 44 := by ring
    have h9 : (n : ℝ) / 2 ^ 52 * (S + (S / 2 ^ 44 + η)) = n / 2 ^ 52 * S + n / 2 ^ 52 * (S / 2 ^ 44) + n / 2 ^ 52 * η := by
      ring
    rw [h7]
    linarith only [es3, h4, h5, h5', h6, h9, hZ]

/-- The bound of the error of a divergence. -/
noncomputable def klBound (n : ℕ) (x y : ℕ → ℚ) : ℝ :=
  (n + 128) / 2 ^ 51 * (∑ k ∈ Finset.range n, size (x k) (y k)) + n / 2 ^ 1072

/-- One term of a divergence is at least minus the constant. -/
theorem term_ge {x y : ℚ} (hx : 0 ≤ x) (hy : 0 ≤ y) : -(1 / 10 ^ 8) ≤ term x y := by
  unfold term
  have hxr : (0 : ℝ) ≤ x := by exact_mod_cast hx
  have hyr : (0 : ℝ) ≤ y := by exact_mod_cast hy
  generalize (x : ℝ) = X at *
  generalize (y : ℝ) = Y at *
  have hr : 0 < (X + 1 / 10 ^ 8) / (Y + 1 / 10 ^ 8) := by positivity
  have h1 := Real.one_sub_inv_le_log_of_pos hr
  have h2 : X * (1 - ((X + 1 / 10 ^ 8) / (Y + 1 / 10 ^ 8))⁻¹) ≤ X * Real.log ((X + 1 / 10 ^ 8) / (Y + 1 / 10 ^ 8)) :=
    mul_le_mul_of_nonneg_left h1 hxr
  have h3 : X * (1 - ((X + 1 / 10 ^ 8) / (Y + 1 / 10 ^ 8))⁻¹) - X + Y = 1 / 10 ^ 8 * (Y - X) / (X + 1 / 10 ^ 8) := by
    field_simp
    ring
  have h4 : -(1 / 10 ^ 8) ≤ 1 / 10 ^ 8 * (Y - X) / (X + 1 / 10 ^ 8) := by
    rw [le_div_iff₀ (by positivity)]
    nlinarith
  linarith

/-- **C201.** A computed divergence is at least minus the constant per entry, up to the error. -/
theorem C201_lower (hL : IsLog L.lg) {n : ℕ} (hn : n ≤ 2 ^ 48) {t : Tree} (ht : t.Adds n) {a b : Row} {x y : ℕ → ℚ}
    (ha : Doubles n a x) (hb : Doubles n b y) (hx : Histo n x) (hy : Histo n y) :
    ∃ d : ℚ, klDiv L t a b = .fin d ∧ -(n / 10 ^ 8) - klBound n x y ≤ (d : ℝ) := by
  obtain ⟨d, h1, _, _, h2⟩ := C201_error hL hn ht ha hb hx hy
  refine ⟨d, h1, ?_⟩
  have h3 : -((n : ℝ) / 10 ^ 8) ≤ kl n x y := by
    have : -((n : ℝ) / 10 ^ 8) = ∑ k ∈ Finset.range n, -(1 / 10 ^ 8 : ℝ) := by
      rw [Finset.sum_const, Finset.card_range, nsmul_eq_mul]
      ring
    rw [this]
    exact Finset.sum_le_sum fun k hk => term_ge (hx k (Finset.mem_range.1 hk)).1 (hy k (Finset.mem_range.1 hk)).1
  rw [abs_le] at h2
  unfold klBound
  linarith only [h2.1, h3]

/-- **C201.** Reverse and symmetric divergences are finite too. -/
theorem C201_finite (hL : IsLog L.lg) {n : ℕ} (hn : n ≤ 2 ^ 48) {t : Tree} (ht : t.Adds n) {a b : Row} {x y : ℕ → ℚ}
    (ha : Doubles n a x) (hb : Doubles n b y) (hx : Histo n x) (hy : Histo n y) :
    ∃ d d' m, klDiv L t a b = .fin d ∧ revKlDiv L t a b = .fin d' ∧ symKlDiv L t a b = .fin m ∧
      m = dbl (dbl (d + d') / 2) := by
  obtain ⟨d, h1, _, b1, _⟩ := C201_error hL hn ht ha hb hx hy
  obtain ⟨d', h2, _, b2, _⟩ := C201_error hL hn ht hb ha hy hx
  refine ⟨d, d', _, h1, h2, ?_, rfl⟩
  have h3 : |d + d'| ≤ 2 ^ 471 := by
    refine (abs_add_le _ _).trans ?_
    rw [pow_succ, mul_two]
    exact add_le_add b1 b2
  have e3 : add (.fin d) (.fin d') = .fin (dbl (d + d')) :=
    round_of_le (double_pow 471) h3 (pow_lt_pow_right₀ (by norm_num) (by norm_num))
  have c3 := abs_dbl_le (double_pow 471) h3
  unfold symKlDiv revKlDiv
  rw [h1, h2, e3]
  show round (1 / 2 * dbl (d + d')) = _
  rw [show 1 / 2 * dbl (d + d') = dbl (d + d') / 2 by ring]
  refine round_of_le (double_pow 471) ?_ (pow_lt_pow_right₀ (by norm_num) (by norm_num))
  rw [abs_div, abs_two]
  exact (half_le_self (abs_nonneg _)).trans c3

/-- **C201.** With `kl_div`, a sample gets the label of the example of least exact divergence when the divergences from
examples with other labels are larger by more than the errors, whatever the order of additions. -/
theorem C201_nearest {α : Type} (hL : IsLog L.lg) {n : ℕ} (hn : n ≤ 2 ^ 48) {order : ℕ → ℕ → Tree}
    (ho : ∀ i j, (order i j).Adds n) {reco ex : List Row} {labels found : List α} (hl : labels.length = ex.length)
    (hf : classifyNN reco ex labels (fun i j => klDiv L (order i j)) = .ok found)
    {i c : ℕ} {r e : Row} {x y : ℕ → ℚ} (hr : reco[i]? = some r) (hrx : Doubles n r x) (hx : Histo n x)
    (hc : ex[c]? = some e) (hey : Doubles n e y) (hmid : ∀ e' ∈ ex, ∃ y', Doubles n e' y' ∧ Histo n y')
    (hfar : ∀ (j : ℕ) e' y', ex[j]? = some e' → Doubles n e' y' → labels[j]? ≠ labels[c]? →
      kl n x y + klBound n x y < kl n x y' - klBound n x y') :
    found[i]? = labels[c]? := by
  have hne : ex ≠ [] := by
    rintro rfl
    simp at hc
  obtain ⟨found', h1, _, h3⟩ := C199_found reco ex labels (fun i j => klDiv L (order i j)) hne hl
  rw [hf] at h1
  injection h1 with h1
  subst h1
  obtain ⟨m, ⟨e', he', hm⟩, hfm, hml⟩ := h3 i r hr
  rw [hfm]
  by_contra hdiff
  obtain ⟨y', hy', hmy'⟩ := hmid e' (List.mem_iff_getElem?.2 ⟨m, he'⟩)
  obtain ⟨y2, hy2, hmy2⟩ := hmid e (List.mem_iff_getElem?.2 ⟨c, hc⟩)
  have hmy : Histo n y := by
    intro k hk
    have : y k = y2 k := by
      have h4 := (hey k hk).1
      rw [(hy2 k hk).1] at h4
      injection h4 with h4
      exact h4.symm
    rw [this]
    exact hmy2 k hk
  obtain ⟨d1, hd1, _, _, hb1⟩ := C201_error hL hn (ho i m) hrx hy' hx hmy'
  obtain ⟨d2, hd2, _, _, hb2⟩ := C201_error hL hn (ho i c) hrx hey hx hmy
  have hlt := hfar m e' y' he' hy' hdiff
  rcases hm with ⟨hm, _⟩ | ⟨_, hm2, _⟩
  · simp only [hd1] at hm
    cases hm
  · have h4 : ge (klDiv L (order i c) r e) (klDiv L (order i m) r e') = true := hm2 c e hc
    rw [hd1, hd2] at h4
    have h5 : d1 ≤ d2 := by simpa [ge] using h4
    have h6 : (d1 : ℝ) ≤ d2 := by exact_mod_cast h5
    rw [abs_le] at hb1 hb2
    unfold klBound at hlt
    linarith only [hb1.1, hb2.2, hlt, h6]

/-! ### A witness -/

/-- The computed logarithm of 2. -/
theorem lg_two (hL : IsLog L.lg) : 0 < L.lg 2 ∧ L.lg 2 ≤ 3 / 4 := by
  have h := (hL 2 (by norm_num) ⟨2, 0, by norm_num, by norm_num, by norm_num⟩).2
  have a := Real.log_two_gt_d9
  have b := Real.log_two_lt_d9
  push_cast at h
  rw [abs_of_pos (Real.log_pos (by norm_num)), abs_le] at h
  have h1 : (0 : ℝ) < (L.lg 2 : ℚ) := by
    norm_num at h a b
    linarith [h.1]
  have h2 : ((L.lg 2 : ℚ) : ℝ) ≤ ((3 / 4 : ℚ) : ℝ) := by
    norm_num at h a b ⊢
    linarith [h.2]
  exact ⟨by exact_mod_cast h1, by exact_mod_cast h2⟩

/-- **C201.** A computed divergence may be negative: a sample which is a copy of the first example gets the label of the
second one. -/
theorem C201_negative (hL : IsLog L.lg) :
    (∃ d, klDiv L (.leaf 0) (one eps) (one 0) = .fin d ∧ d < 0) ∧
    classifyNN [one eps] [one eps, one 0] ["same", "other"] (fun _ _ => klDiv L (.leaf 0)) = .ok ["other"] := by
  have ht : (Tree.leaf 0).Adds 1 := List.Perm.refl _
  have h0 : klDiv L (.leaf 0) (one eps) (one eps) = .fin 0 := by
    refine (C201_self hL ht (x := fun _ => eps) (fun k _ => ⟨rfl, eps_double, ?_⟩) fun k _ => ⟨eps_pos.le, ?_⟩).1
    · rw [abs_of_pos eps_pos]
      exact lt_of_le_of_lt eps_bounds.2 (one_lt_pow₀ (by norm_num) (by norm_num))
    · exact eps_bounds.2.trans (one_le_pow₀ (by norm_num))
  obtain ⟨l1, l2⟩ := lg_two hL
  have hneg : ∃ d, klDiv L (.leaf 0) (one eps) (one 0) = .fin d ∧ d < 0 := by
    have e1 : div (add (.fin eps) EPSILON) (add (.fin 0) EPSILON) = .fin 2 := by decide +kernel
    have e2 : log L (.fin 2) = .fin (L.lg 2) := by simp [log]
    have p0 : 0 ≤ eps * L.lg 2 := mul_nonneg eps_pos.le l1.le
    have p1 : eps * L.lg 2 ≤ eps * (3 / 4) := mul_le_mul_of_nonneg_left l2 eps_pos.le
    have p2 : eps * L.lg 2 ≤ 1 := p1.trans (by decide +kernel)
    have big : (1 : ℚ) < 2 ^ 1024 := one_lt_pow₀ (by norm_num) (by norm_num)
    have e3 : mul (.fin eps) (.fin (L.lg 2)) = .fin (dbl (eps * L.lg 2)) :=
      round_of_le double_one (by rw [abs_of_nonneg p0]; exact p2) big
    have q0 := dbl_nonneg p0
    have q1 : dbl (eps * L.lg 2) ≤ dbl (eps * (3 / 4)) := dbl_mono p1
    set p := dbl (eps * L.lg 2)
    have r1 : p + -eps ≤ dbl (eps * (3 / 4)) + -eps := by linarith only [q1]
    have r2 : -eps ≤ p + -eps := by linarith only [q0]
    have r3 : dbl (eps * (3 / 4)) + -eps ≤ 0 := by decide +kernel
    have e4 : sub (.fin p) (.fin eps) = .fin (dbl (p + -eps)) := by
      refine round_of_le double_one ?_ big
      rw [abs_le]
      exact ⟨by linarith only [r2, eps_bounds.2], by linarith only [r1, r3]⟩
    have s1 : dbl (p + -eps) ≤ dbl (dbl (eps * (3 / 4)) + -eps) := dbl_mono r1
    have s2 : dbl (dbl (eps * (3 / 4)) + -eps) < 0 := by decide +kernel
    have s3 : -1 ≤ dbl (p + -eps) := by
      have := le_dbl (Double.neg double_one) (show -1 ≤ p + -eps by linarith only [r2, eps_bounds.2])
      exact this
    have s4 : dbl (p + -eps) < 0 := lt_of_le_of_lt s1 s2
    have e5 : add (.fin (dbl (p + -eps))) (.fin 0) = .fin (dbl (p + -eps)) := by
      show round (_ + 0) = _
      rw [add_zero]
      refine round_dbl ⟨dbl_double _, ?_⟩
      rw [abs_of_neg s4]
      exact lt_of_le_of_lt (by linarith only [s3]) big
    refine ⟨dbl (p + -eps), ?_, s4⟩
    show klTerm L (.fin eps) (.fin 0) = _
    unfold klTerm
    rw [e1, e2, e3, e4, e5]
  refine ⟨hneg, ?_⟩
  obtain ⟨d, hd, hlt⟩ := hneg
  show distsToFoundLabels 2 [[klDiv L (.leaf 0) (one eps) (one eps), klDiv L (.leaf 0) (one eps) (one 0)]] _ = _
  rw [h0, hd]
  have h1 : argmin [.fin 0, .fin d] = .ok 1 := by
    have : ge (.fin d) (.fin 0) = false := by simpa [ge] using hlt
    simp [argmin, argminFrom, this]
  unfold distsToFoundLabels argminRows
  rw [if_neg (by norm_num)]
  show (do let matching ← ([[Flt.fin 0, .fin d]].mapM argmin); matching.mapM _) = _
  rw [List.mapM_cons, h1]
  rfl

/-! ### Examples -/

/-- Hypotheses are met by two rows of two entries. -/
example : ∃ L : Lib, IsLog L.lg ∧ IsSqrt L.sq ∧ Doubles 2 (two 1 (1 / 2)) (fun k => if k = 0 then 1 else 1 / 2) ∧
    Histo 2 (fun k => if k = 0 then 1 else 1 / 2) := by
  obtain ⟨lg, hlg⟩ := exists_isLog
  obtain ⟨sq, hsq⟩ := exists_isSqrt
  refine ⟨⟨sq, lg⟩, hlg, hsq, ?_, ?_⟩
  · intro k hk
    have hh : Double (1 / 2) := ⟨1, -1, by norm_num, by norm_num, by norm_num⟩
    have : k = 0 ∨ k = 1 := by omega
    rcases this with rfl | rfl
    · exact ⟨rfl, double_one, by decide +kernel⟩
    · exact ⟨rfl, hh, by decide +kernel⟩
  · intro k hk
    have : k = 0 ∨ k = 1 := by omega
    rcases this with rfl | rfl
    · exact ⟨by norm_num, one_le_pow₀ (by norm_num)⟩
    · exact ⟨by norm_num, le_trans (by norm_num) (one_le_pow₀ (show (1 : ℚ) ≤ 2 by norm_num))⟩

end Verif.Evaluation.D
