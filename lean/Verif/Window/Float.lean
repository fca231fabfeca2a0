import Mathlib.Data.Rat.Floor
import Mathlib.Data.Int.Log
import Mathlib.Tactic.Linarith
import Mathlib.Tactic.Ring
import Mathlib.Tactic.FieldSimp
import Mathlib.Tactic.NormNum

/-!
# Rounding of floats

Python floats are IEEE 754 doubles: the result of an operation is the nearest double to the exact result, with ties to
even mantissas.  `dbl` is this rounding on rational numbers; overflow is not modelled: exponents are not bounded above.
Theorems about rounded operations hold for each rounding which meets `IsRounding`, as `dbl` does.
-/

namespace Verif.Window

/-- What is used of the rounding of floats: it is increasing, floats are not changed, the error is at most half a unit in
the last place, which is relative (except for tiny numbers) and at most half the distance between two larger floats. -/
structure IsRounding (fl : ℚ → ℚ) : Prop where
  mono : ∀ x y, x ≤ y → fl x ≤ fl y
  idem : ∀ x, fl (fl x) = fl x
  neg : ∀ x, fl (-x) = -fl x
  near : ∀ x, |fl x - x| ≤ |x| / 2 ^ 53 + 1 / 2 ^ 1075
  gap : ∀ x a b, 0 ≤ x → x ≤ a → fl a = a → fl b = b → a < b → |fl x - x| ≤ (b - a) / 2
  int : ∀ n : ℤ, |n| ≤ 2 ^ 53 → fl n = n

/-- Operations without rounding. -/
theorem isRounding_id : IsRounding id where
  mono _ _ h := h
  idem _ := rfl
  neg _ := rfl
  near x := by simp only [id, sub_self, abs_zero]; positivity
  gap x a b _ _ _ _ h := by simp only [id, sub_self, abs_zero]; linarith
  int _ _ := rfl

/-! ### Doubles -/

/-- The nearest integer, the even one of two. -/
def halfEven (y : ℚ) : ℤ :=
  if y - ⌊y⌋ < 1 / 2 then ⌊y⌋
  else if 1 / 2 < y - ⌊y⌋ then ⌊y⌋ + 1
  else if ⌊y⌋ % 2 = 0 then ⌊y⌋ else ⌊y⌋ + 1

/-- The exponent of the last place of doubles near `x`. -/
def expo (x : ℚ) : ℤ := max (Int.log 2 |x| - 52) (-1074)

/-- The nearest double. -/
def dbl (x : ℚ) : ℚ := halfEven (x / 2 ^ expo x) * 2 ^ expo x

theorem halfEven_near (y : ℚ) : |(halfEven y : ℚ) - y| ≤ 1 / 2 := by
  have h1 := Int.floor_le y
  have h2 := Int.lt_floor_add_one y
  unfold halfEven
  rw [abs_le]
  split_ifs <;> push_cast <;> constructor <;> linarith

theorem halfEven_int (n : ℤ) : halfEven n = n := by
  unfold halfEven
  rw [if_pos (by simp), Int.floor_intCast]

theorem halfEven_mono {x y : ℚ} (h : x ≤ y) : halfEven x ≤ halfEven y := by
  have hf := Int.floor_mono h
  rcases hf.lt_or_eq with hlt | heq
  · have a : halfEven x ≤ ⌊x⌋ + 1 := by unfold halfEven; split_ifs <;> omega
    have b : ⌊y⌋ ≤ halfEven y := by unfold halfEven; split_ifs <;> omega
    omega
  · unfold halfEven
    rw [heq]
    have : x - (⌊y⌋ : ℚ) ≤ y - ⌊y⌋ := by linarith
    split_ifs <;> first | omega | (exfalso; linarith)

theorem halfEven_neg (y : ℚ) : halfEven (-y) = -halfEven y := by
  by_cases hi : (⌊y⌋ : ℚ) = y
  · rw [← hi, ← Int.cast_neg, halfEven_int, halfEven_int]
  · have h1 := Int.floor_le y
    have h2 := Int.lt_floor_add_one y
    have h1' : (⌊y⌋ : ℚ) < y := lt_of_le_of_ne h1 hi
    have hn : ⌊-y⌋ = -⌊y⌋ - 1 := by
      rw [Int.floor_eq_iff]
      push_cast
      constructor <;> linarith
    unfold halfEven
    rw [hn]
    push_cast
    split_ifs <;> first | omega | (exfalso; linarith)

theorem two_zpow_pos (e : ℤ) : (0 : ℚ) < 2 ^ e := zpow_pos (by norm_num) e

theorem expo_neg (x : ℚ) : expo (-x) = expo x := by unfold expo; rw [abs_neg]

theorem dbl_neg (x : ℚ) : dbl (-x) = -dbl x := by
  unfold dbl
  rw [expo_neg, neg_div, halfEven_neg]
  push_cast
  ring

theorem dbl_err (x : ℚ) : |dbl x - x| ≤ 2 ^ expo x / 2 := by
  have hq := two_zpow_pos (expo x)
  have : dbl x - x = (halfEven (x / 2 ^ expo x) - x / 2 ^ expo x) * 2 ^ expo x := by
    unfold dbl
    field_simp
  rw [this, abs_mul, abs_of_pos hq]
  have := halfEven_near (x / 2 ^ expo x)
  nlinarith

theorem dbl_zero : dbl 0 = 0 := by
  unfold dbl
  rw [zero_div]
  have := halfEven_int 0
  rw [Int.cast_zero] at this
  rw [this]
  simp

theorem expo_mono {x y : ℚ} (h0 : 0 < x) (h : x ≤ y) : expo x ≤ expo y := by
  unfold expo
  rw [abs_of_pos h0, abs_of_pos (lt_of_lt_of_le h0 h)]
  have := Int.log_mono_right (b := 2) h0 h
  omega

set_option exponentiation.threshold 2000 in
theorem dbl_near (x : ℚ) : |dbl x - x| ≤ |x| / 2 ^ 53 + 1 / 2 ^ 1075 := by
  rcases eq_or_ne x 0 with rfl | h0
  · rw [dbl_zero, sub_self, abs_zero]
    positivity
  · have hx : 0 < |x| := abs_pos.2 h0
    refine (dbl_err x).trans ?_
    have hl : (2 : ℚ) ^ Int.log 2 |x| ≤ |x| := by
      have := Int.zpow_log_le_self (b := 2) (by norm_num) hx
      exact_mod_cast this
    have h1 : (0 : ℚ) < 1 / 2 ^ 1075 := by positivity
    have h2 : 0 < |x| / 2 ^ 53 := by positivity
    unfold expo
    rcases le_total (Int.log 2 |x| - 52) (-1074) with h | h
    · rw [max_eq_right h]
      have : (2 : ℚ) ^ (-1074 : ℤ) / 2 = 1 / 2 ^ 1075 := by
        rw [zpow_neg, show (1074 : ℤ) = ((1074 : ℕ) : ℤ) by norm_num, zpow_natCast, pow_succ' (2 : ℚ) 1074]
        field_simp
      linarith
    · rw [max_eq_left h, zpow_sub₀ (by norm_num)]
      have : (2 : ℚ) ^ Int.log 2 |x| / 2 ^ (52 : ℤ) / 2 ≤ |x| / 2 ^ 53 := by
        rw [show (52 : ℤ) = ((52 : ℕ) : ℤ) by norm_num, zpow_natCast, div_div, ← pow_succ]
        gcongr
      linarith

/-- Doubles are integers times powers of two. -/
def Double (x : ℚ) : Prop := ∃ (m e : ℤ), |m| ≤ 2 ^ 53 ∧ -1074 ≤ e ∧ x = m * 2 ^ e

theorem log_lt (x : ℚ) : |x| < 2 ^ (Int.log 2 |x| + 1) := by
  have := Int.lt_zpow_succ_log_self (b := 2) (by norm_num) |x|
  exact_mod_cast this

theorem dbl_double (x : ℚ) : Double (dbl x) := by
  refine ⟨halfEven (x / 2 ^ expo x), expo x, ?_, le_max_right _ _, rfl⟩
  have hq := two_zpow_pos (expo x)
  have h1 : |x / 2 ^ expo x| ≤ ((2 ^ 53 : ℤ) : ℚ) := by
    rw [abs_div, abs_of_pos hq, div_le_iff₀ hq]
    refine (log_lt x).le.trans ?_
    have : Int.log 2 |x| + 1 ≤ 53 + expo x := by unfold expo; omega
    calc (2 : ℚ) ^ (Int.log 2 |x| + 1) ≤ 2 ^ (53 + expo x) := zpow_le_zpow_right₀ (by norm_num) this
      _ = _ := by rw [zpow_add₀ (by norm_num)]; norm_num
  rw [abs_le] at h1 ⊢
  constructor
  · have := halfEven_mono h1.1
    rw [← Int.cast_neg, halfEven_int] at this
    exact this
  · have := halfEven_mono h1.2
    rw [halfEven_int] at this
    exact this

theorem dbl_of_multiple {x : ℚ} {m : ℤ} (h : x = m * 2 ^ expo x) : dbl x = x := by
  have hq := two_zpow_pos (expo x)
  unfold dbl
  have : x / 2 ^ expo x = m := by rw [div_eq_iff hq.ne']; exact h
  rw [this, halfEven_int]
  exact h.symm

theorem multiple_of_le {m e e' : ℤ} (h : e' ≤ e) : ∃ m' : ℤ, (m : ℚ) * 2 ^ e = m' * 2 ^ e' := by
  refine ⟨m * 2 ^ (e - e').toNat, ?_⟩
  have : (2 : ℚ) ^ e = 2 ^ (e - e').toNat * 2 ^ e' := by
    rw [← zpow_natCast, ← zpow_add₀ (by norm_num)]
    congr 1
    omega
  rw [this]
  push_cast
  ring

theorem dbl_of_double {x : ℚ} (h : Double x) : dbl x = x := by
  obtain ⟨m, e, hm, he, rfl⟩ := h
  rcases eq_or_ne m 0 with rfl | h0
  · simp [dbl_zero]
  have hpos : 0 < |(m : ℚ) * 2 ^ e| := abs_pos.2 (mul_ne_zero (by exact_mod_cast h0) (two_zpow_pos e).ne')
  have habs : |(m : ℚ) * 2 ^ e| = |(m : ℚ)| * 2 ^ e := by rw [abs_mul, abs_of_pos (two_zpow_pos e)]
  have hmq : |(m : ℚ)| ≤ 2 ^ 53 := by exact_mod_cast hm
  rcases hm.lt_or_eq with hlt | heq
  · have hlt' : |(m : ℚ)| < 2 ^ 53 := by exact_mod_cast hlt
    have : Int.log 2 |(m : ℚ) * 2 ^ e| < 53 + e := by
      rw [← Int.lt_zpow_iff_log_lt (by norm_num) hpos, habs]
      push_cast
      rw [zpow_add₀ (by norm_num)]
      have h53 : (2 : ℚ) ^ (53 : ℤ) = 2 ^ 53 := by norm_num
      rw [h53]
      exact mul_lt_mul_of_pos_right hlt' (two_zpow_pos e)
    have hle : expo ((m : ℚ) * 2 ^ e) ≤ e := by unfold expo; omega
    obtain ⟨m', hm'⟩ := multiple_of_le (m := m) hle
    exact dbl_of_multiple hm'
  · have habs2 : |(m : ℚ) * 2 ^ e| = 2 ^ (53 + e) := by
      rw [habs, zpow_add₀ (by norm_num)]
      congr 1
      have : |(m : ℚ)| = ((2 ^ 53 : ℤ) : ℚ) := by exact_mod_cast heq
      rw [this]
      norm_num
    have hexp : expo ((m : ℚ) * 2 ^ e) = e + 1 := by
      unfold expo
      have : Int.log 2 ((2 : ℚ) ^ (53 + e)) = 53 + e := by
        have := Int.log_zpow (R := ℚ) (b := 2) (by norm_num) (53 + e)
        exact_mod_cast this
      rw [habs2, this]
      omega
    have hm2 : ∃ k : ℤ, m = 2 * k := by
      rcases abs_eq (by norm_num : (0 : ℤ) ≤ 2 ^ 53) |>.1 heq with h | h
      · exact ⟨2 ^ 52, by rw [h]; norm_num⟩
      · exact ⟨-2 ^ 52, by rw [h]; norm_num⟩
    obtain ⟨k, rfl⟩ := hm2
    refine dbl_of_multiple (m := k) ?_
    rw [hexp, zpow_add_one₀ (by norm_num)]
    push_cast
    ring

theorem dbl_nonneg {x : ℚ} (h : 0 ≤ x) : 0 ≤ dbl x := by
  have hq := two_zpow_pos (expo x)
  have := halfEven_mono (div_nonneg h hq.le)
  have h0 := halfEven_int 0
  rw [Int.cast_zero] at h0
  rw [h0] at this
  unfold dbl
  have : (0 : ℚ) ≤ halfEven (x / 2 ^ expo x) := by exact_mod_cast this
  positivity

theorem dbl_mono_pos {x y : ℚ} (h0 : 0 < x) (h : x ≤ y) : dbl x ≤ dbl y := by
  have hy0 := lt_of_lt_of_le h0 h
  rcases (expo_mono h0 h).lt_or_eq with hlt | heq
  · set p : ℚ := 2 ^ Int.log 2 |y| with hp
    have hley : Int.log 2 |y| - 52 = expo y := by
      unfold expo at hlt ⊢
      omega
    have hxp : x ≤ p := by
      have h1 := log_lt x
      rw [abs_of_pos h0] at h1
      have : Int.log 2 |x| + 1 ≤ Int.log 2 |y| := by
        unfold expo at hlt
        omega
      rw [abs_of_pos h0] at this
      exact h1.le.trans (zpow_le_zpow_right₀ (by norm_num) this)
    have hpy : p ≤ y := by
      have := Int.zpow_log_le_self (b := 2) (by norm_num) (abs_pos.2 hy0.ne')
      rw [abs_of_pos hy0] at this hp
      rw [hp]
      exact_mod_cast this
    have key : ∀ z : ℚ, expo z ≤ expo y → ∃ m : ℤ, p / 2 ^ expo z = m := by
      intro z hz
      obtain ⟨m, hm⟩ := multiple_of_le (m := 1) (e := Int.log 2 |y|) (e' := expo z) (by omega)
      refine ⟨m, ?_⟩
      rw [div_eq_iff (two_zpow_pos _).ne', ← hm, hp]
      push_cast
      ring
    have a : dbl x ≤ p := by
      obtain ⟨m, hm⟩ := key x hlt.le
      have hq := two_zpow_pos (expo x)
      have h1 : x / 2 ^ expo x ≤ (m : ℚ) := by rw [← hm]; gcongr
      have h2 := halfEven_mono h1
      rw [halfEven_int] at h2
      have h3 : ((halfEven (x / 2 ^ expo x) : ℤ) : ℚ) ≤ m := by exact_mod_cast h2
      unfold dbl
      rw [← hm] at h3
      rwa [le_div_iff₀ hq] at h3
    have b : p ≤ dbl y := by
      obtain ⟨m, hm⟩ := key y le_rfl
      have hq := two_zpow_pos (expo y)
      have h1 : (m : ℚ) ≤ y / 2 ^ expo y := by rw [← hm]; gcongr
      have h2 := halfEven_mono h1
      rw [halfEven_int] at h2
      have h3 : (m : ℚ) ≤ ((halfEven (y / 2 ^ expo y) : ℤ) : ℚ) := by exact_mod_cast h2
      unfold dbl
      rw [← hm] at h3
      rwa [div_le_iff₀ hq] at h3
    exact a.trans b
  · unfold dbl
    rw [heq]
    have hq := two_zpow_pos (expo y)
    have h1 : x / 2 ^ expo y ≤ y / 2 ^ expo y := by gcongr
    have := halfEven_mono h1
    have : ((halfEven (x / 2 ^ expo y) : ℤ) : ℚ) ≤ halfEven (y / 2 ^ expo y) := by exact_mod_cast this
    gcongr

theorem dbl_mono {x y : ℚ} (h : x ≤ y) : dbl x ≤ dbl y := by
  rcases lt_or_ge 0 x with hx | hx
  · exact dbl_mono_pos hx h
  · have h1 : dbl x ≤ 0 := by
      have := dbl_nonneg (neg_nonneg.2 hx)
      rw [dbl_neg] at this
      linarith
    rcases le_or_gt 0 y with hy | hy
    · exact h1.trans (dbl_nonneg hy)
    · have := dbl_mono_pos (neg_pos.2 hy) (neg_le_neg h)
      rw [dbl_neg, dbl_neg] at this
      linarith

/-- Doubles meet the contract. -/
theorem isRounding_dbl : IsRounding dbl where
  mono _ _ h := dbl_mono h
  idem x := dbl_of_double (dbl_double x)
  neg := dbl_neg
  near := dbl_near
  gap x a b h0 h1 ha hb hab := by
    rcases h0.lt_or_eq with h0 | rfl
    · refine (dbl_err x).trans ?_
      have ha0 := lt_of_lt_of_le h0 h1
      have e1 := expo_mono h0 h1
      have e2 := expo_mono ha0 hab.le
      obtain ⟨m, hm⟩ := multiple_of_le (m := halfEven (a / 2 ^ expo a)) e1
      obtain ⟨n, hn⟩ := multiple_of_le (m := halfEven (b / 2 ^ expo b)) (e1.trans e2)
      have ha' : a = m * 2 ^ expo x := by rw [← hm]; exact ha.symm
      have hb' : b = n * 2 ^ expo x := by rw [← hn]; exact hb.symm
      have hq := two_zpow_pos (expo x)
      have hlt : m < n := by
        have : (m : ℚ) * 2 ^ expo x < n * 2 ^ expo x := by rw [← ha', ← hb']; exact hab
        exact_mod_cast lt_of_mul_lt_mul_right this hq.le
      have : (1 : ℚ) ≤ (n : ℚ) - m := by
        have : m + 1 ≤ n := hlt
        have : ((m + 1 : ℤ) : ℚ) ≤ n := by exact_mod_cast this
        push_cast at this
        linarith
      have : b - a = (n - m) * 2 ^ expo x := by rw [ha', hb']; ring
      nlinarith
    · rw [dbl_zero, sub_self, abs_zero]
      linarith
  int n hn := dbl_of_double ⟨n, 0, hn, by norm_num, by simp⟩

end Verif.Window
