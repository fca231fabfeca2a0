import Verif.Evaluation.Double
import Verif.NMF.LemmasDouble
import Mathlib.Data.Real.Sqrt
import Mathlib.Data.Set.Finite.Lemmas
import Mathlib.Order.Interval.Finset.Basic
import Mathlib.Order.Interval.Set.Infinite
import Mathlib.Analysis.SpecialFunctions.Sqrt
import Mathlib.Tactic.Linarith
import Mathlib.Tactic.Positivity

/-!
# Lemmas on sums, square roots and comparisons of floats
-/

namespace Verif.Evaluation.D

open Verif Verif.Window
open Verif.NMF.D (double_mul double_pow double_one double_zero dbl_le le_dbl abs_dbl_le)

/-- Contract of the square root: the nearest double to the exact one (with no rule for ties). -/
def IsSqrt (sq : ℚ → ℚ) : Prop :=
  ∀ x, 0 ≤ x → Double (sq x) ∧ ∀ d, Double d → |(sq x : ℝ) - √(x : ℝ)| ≤ |(d : ℝ) - √(x : ℝ)|

/-- A double which is not an overflow. -/
def Dbl (x : ℚ) : Prop := Double x ∧ |x| < 2 ^ 1024

theorem dbl_of_expo {x : ℚ} (h : expo x = -1074) {m : ℤ} (hm : x = m * 2 ^ (-1074 : ℤ)) : dbl x = x :=
  dbl_of_multiple (m := m) (by rw [h]; exact hm)

/-- The relative error of a number which is not tiny. -/
theorem dbl_rel_ge {x : ℚ} (h : 2 ^ (-1022 : ℤ) ≤ |x|) : |dbl x - x| ≤ |x| / 2 ^ 53 := by
  have hx : 0 < |x| := lt_of_lt_of_le (two_zpow_pos _) h
  refine (dbl_err x).trans ?_
  have hl : (2 : ℚ) ^ Int.log 2 |x| ≤ |x| := by
    have := Int.zpow_log_le_self (b := 2) (by norm_num) hx
    exact_mod_cast this
  have hlog : -1022 ≤ Int.log 2 |x| := by
    have := (Int.zpow_le_iff_le_log (b := 2) (by norm_num) hx (x := -1022)).1 (by exact_mod_cast h)
    exact this
  unfold expo
  rw [max_eq_left (by omega), zpow_sub₀ (by norm_num), show (52 : ℤ) = ((52 : ℕ) : ℤ) by norm_num, zpow_natCast, div_div,
    ← pow_succ]
  gcongr

/-- Doubles are multiples of the least one. -/
theorem Double.multiple {x : ℚ} (h : Double x) : ∃ m : ℤ, x = m * 2 ^ (-1074 : ℤ) := by
  obtain ⟨m, e, _, he, rfl⟩ := h
  exact multiple_of_le he

/-- The least positive double. -/
theorem Double.ge {x : ℚ} (hd : Double x) (hx : 0 < x) : 2 ^ (-1074 : ℤ) ≤ x := by
  obtain ⟨m, hm⟩ := Double.multiple hd
  have hm1 : (1 : ℚ) ≤ m := by
    have : (0 : ℚ) < m := by
      by_contra hc
      push Not at hc
      have : (m : ℚ) * 2 ^ (-1074 : ℤ) ≤ 0 := mul_nonpos_of_nonpos_of_nonneg hc (two_zpow_pos _).le
      rw [← hm] at this
      exact absurd hx (not_lt.2 this)
    have : 0 < m := by exact_mod_cast this
    exact_mod_cast this
  rw [hm]
  exact le_mul_of_one_le_left (two_zpow_pos _).le hm1

/-- Sums and differences of doubles have a relative error only. -/
theorem dbl_rel {x : ℚ} {m : ℤ} (hm : x = m * 2 ^ (-1074 : ℤ)) : |dbl x - x| ≤ |x| / 2 ^ 53 := by
  rcases lt_or_ge |x| (2 ^ (-1022 : ℤ)) with h | h
  · rcases eq_or_ne x 0 with rfl | h0
    · simp [dbl_zero]
    have hx : 0 < |x| := abs_pos.2 h0
    have : Int.log 2 |x| < -1022 := (Int.lt_zpow_iff_log_lt (by norm_num) hx).1 (by exact_mod_cast h)
    have he : expo x = -1074 := by unfold expo; omega
    rw [dbl_of_expo he hm, sub_self, abs_zero]
    positivity
  · exact dbl_rel_ge h

theorem dbl_rel_add {x y : ℚ} (hx : Double x) (hy : Double y) : |dbl (x + y) - (x + y)| ≤ |x + y| / 2 ^ 53 := by
  obtain ⟨m, hm⟩ := Double.multiple hx
  obtain ⟨n, hn⟩ := Double.multiple hy
  exact dbl_rel (m := m + n) (by rw [hm, hn]; push_cast; ring)

theorem Double.neg {x : ℚ} (h : Double x) : Double (-x) := by
  obtain ⟨m, e, hm, he, rfl⟩ := h
  exact ⟨-m, e, by rwa [abs_neg], he, by push_cast; ring⟩

theorem Dbl.neg {x : ℚ} (h : Dbl x) : Dbl (-x) := ⟨Double.neg h.1, by rw [abs_neg]; exact h.2⟩

theorem round_fin {x : ℚ} (h : |dbl x| < 2 ^ 1024) : round x = .fin (dbl x) := if_pos h

theorem round_dbl {x : ℚ} (h : Dbl x) : round x = .fin x := by
  unfold round
  rw [dbl_of_double h.1, if_pos h.2]

theorem round_of_le {x B : ℚ} (hB : Double B) (h : |x| ≤ B) (hlt : B < 2 ^ 1024) : round x = .fin (dbl x) :=
  round_fin (lt_of_le_of_lt (abs_dbl_le hB h) hlt)

theorem round_cases (x : ℚ) : (round x = .fin (dbl x) ∧ Dbl (dbl x)) ∨ round x = .inf (decide (x < 0)) := by
  unfold round
  split_ifs with h
  · exact .inl ⟨rfl, dbl_double x, h⟩
  · exact .inr rfl

theorem dbl_add_comm (a b : Flt) : add a b = add b a := by
  cases a <;> cases b <;> simp [add, add_comm, eq_comm]
  split_ifs with h <;> simp [h]

theorem mul_comm' (a b : Flt) : mul a b = mul b a := by
  cases a <;> cases b <;> simp [mul, mul_comm, bne_comm]

/-! ### Sums of numbers which are not negative -/

/-- A finite float which is not negative, or positive infinity. -/
def NonNeg (a : Flt) : Prop := (∃ x, 0 ≤ x ∧ Dbl x ∧ a = .fin x) ∨ a = .inf false

theorem dbl_zero' : Dbl 0 := ⟨double_zero, by rw [abs_zero]; positivity⟩

theorem round_nonneg {x : ℚ} (h : 0 ≤ x) : NonNeg (round x) := by
  rcases round_cases x with ⟨h1, h2⟩ | h1
  · exact .inl ⟨_, dbl_nonneg h, h2, h1⟩
  · right
    rw [h1]
    simp [not_lt.2 h]

theorem add_nonneg' {a b : Flt} (ha : NonNeg a) (hb : NonNeg b) : NonNeg (add a b) := by
  rcases ha with ⟨x, hx, _, rfl⟩ | rfl <;> rcases hb with ⟨y, hy, _, rfl⟩ | rfl
  · exact round_nonneg (add_nonneg hx hy)
  · exact .inr rfl
  · exact .inr rfl
  · exact .inr rfl

theorem sum_nonneg {a : ℕ → Flt} : ∀ (t : Tree), (∀ k ∈ t.leaves, NonNeg (a k)) → NonNeg (t.sum a)
  | .zero, _ => .inl ⟨0, le_rfl, dbl_zero', rfl⟩
  | .leaf k, h => h k (by simp [Tree.leaves])
  | .plus p q, h => add_nonneg' (sum_nonneg p fun k hk => h k (by simp [Tree.leaves, hk]))
      (sum_nonneg q fun k hk => h k (by simp [Tree.leaves, hk]))

theorem sum_congr {a b : ℕ → Flt} : ∀ (t : Tree), (∀ k ∈ t.leaves, a k = b k) → t.sum a = t.sum b
  | .zero, _ => rfl
  | .leaf k, h => h k (by simp [Tree.leaves])
  | .plus p q, h => by
    unfold Tree.sum
    rw [sum_congr p fun k hk => h k (by simp [Tree.leaves, hk]), sum_congr q fun k hk => h k (by simp [Tree.leaves, hk])]

/-- A sum of zeros. -/
theorem sum_zero {a : ℕ → Flt} : ∀ (t : Tree), (∀ k ∈ t.leaves, a k = .fin 0) → t.sum a = .fin 0
  | .zero, _ => rfl
  | .leaf k, h => h k (by simp [Tree.leaves])
  | .plus p q, h => by
    unfold Tree.sum
    rw [sum_zero p fun k hk => h k (by simp [Tree.leaves, hk]), sum_zero q fun k hk => h k (by simp [Tree.leaves, hk])]
    show round (0 + 0) = _
    rw [add_zero, round_dbl dbl_zero']


theorem NonNeg.eq_zero {a b : Flt} (ha : NonNeg a) (hb : NonNeg b) (h : add a b = .fin 0) : a = .fin 0 ∧ b = .fin 0 := by
  rcases ha with ⟨x, hx, hdx, rfl⟩ | rfl <;> rcases hb with ⟨y, hy, hdy, rfl⟩ | rfl
  · have h1 : round (x + y) = .fin 0 := h
    rcases round_cases (x + y) with ⟨h2, _⟩ | h2
    · rw [h1] at h2
      injection h2 with h2
      have a := le_dbl hdx.1 (show x ≤ x + y by linarith)
      have b := le_dbl hdy.1 (show y ≤ x + y by linarith)
      rw [← h2] at a b
      rw [le_antisymm a hx, le_antisymm b hy]
      exact ⟨rfl, rfl⟩
    · rw [h1] at h2
      cases h2
  · cases h
  · cases h
  · cases h

/-- The terms of a sum which is zero are zeros. -/
theorem sum_eq_zero {a : ℕ → Flt} : ∀ (t : Tree), (∀ k ∈ t.leaves, NonNeg (a k)) → t.sum a = .fin 0 →
    ∀ k ∈ t.leaves, a k = .fin 0
  | .zero, _, _ => by simp [Tree.leaves]
  | .leaf k, _, h => by simpa [Tree.leaves, Tree.sum] using h
  | .plus p q, hn, h => by
    have hp : ∀ k ∈ p.leaves, NonNeg (a k) := fun k hk => hn k (by simp [Tree.leaves, hk])
    have hq : ∀ k ∈ q.leaves, NonNeg (a k) := fun k hk => hn k (by simp [Tree.leaves, hk])
    obtain ⟨h1, h2⟩ := (sum_nonneg p hp).eq_zero (sum_nonneg q hq) h
    intro k hk
    rcases List.mem_append.1 hk with hk | hk
    · exact sum_eq_zero p hp h1 k hk
    · exact sum_eq_zero q hq h2 k hk

/-! ### Square roots -/

variable {L : Lib}

theorem sq_nonneg' (hL : IsSqrt L.sq) {x : ℚ} (hx : 0 ≤ x) : 0 ≤ L.sq x := by
  have h := (hL x hx).2 0 double_zero
  have hr := Real.sqrt_nonneg (x : ℝ)
  rw [Rat.cast_zero, zero_sub, abs_neg, abs_of_nonneg hr, abs_le] at h
  have : (0 : ℝ) ≤ (L.sq x : ℝ) := by linarith [h.1]
  exact_mod_cast this

theorem sq_le (hL : IsSqrt L.sq) {x : ℚ} (hx : 0 ≤ x) : (L.sq x : ℝ) ≤ 2 * √(x : ℝ) := by
  have h := (hL x hx).2 0 double_zero
  have hr := Real.sqrt_nonneg (x : ℝ)
  rw [Rat.cast_zero, zero_sub, abs_neg, abs_of_nonneg hr, abs_le] at h
  linarith [h.2]

theorem sq_zero (hL : IsSqrt L.sq) : L.sq 0 = 0 := by
  have h1 := sq_nonneg' hL le_rfl
  have h2 := sq_le hL le_rfl
  rw [Rat.cast_zero, Real.sqrt_zero, mul_zero] at h2
  have : L.sq 0 ≤ 0 := by exact_mod_cast h2
  exact le_antisymm this h1

theorem sq_dbl (hL : IsSqrt L.sq) {x : ℚ} (hx : 0 ≤ x) (hlt : x < 2 ^ 1024) : Dbl (L.sq x) := by
  refine ⟨(hL x hx).1, ?_⟩
  rw [abs_of_nonneg (sq_nonneg' hL hx)]
  have h := sq_le hL hx
  have h2 : √(x : ℝ) ≤ 2 ^ 512 := by
    rw [Real.sqrt_le_left (by positivity), ← pow_mul]
    have : ((x : ℚ) : ℝ) < ((2 ^ 1024 : ℚ) : ℝ) := by exact_mod_cast hlt
    push_cast at this
    exact this.le
  have h3 : (L.sq x : ℝ) ≤ ((2 ^ 513 : ℚ) : ℝ) := by
    push_cast
    calc (L.sq x : ℝ) ≤ 2 * 2 ^ 512 := by linarith
      _ = 2 ^ 513 := by rw [← pow_succ']
  have h4 : L.sq x ≤ 2 ^ 513 := by exact_mod_cast h3
  exact lt_of_le_of_lt h4 (pow_lt_pow_right₀ (by norm_num) (by norm_num))

/-- The square root of a double which is positive is positive. -/
theorem sq_pos (hL : IsSqrt L.sq) {x : ℚ} (hd : Double x) (hx : 0 < x) : 0 < L.sq x := by
  rcases (sq_nonneg' hL hx.le).lt_or_eq with h | h
  · exact h
  exfalso
  have hx2 := Double.ge hd hx
  set d : ℚ := 2 ^ (-537 : ℤ) with hd'
  have hdd : Double d := ⟨1, -537, by norm_num, by norm_num, by rw [hd']; push_cast; ring⟩
  have hd0 : (0 : ℝ) < (d : ℝ) := by exact_mod_cast two_zpow_pos (-537)
  have hds : (d : ℝ) ≤ √(x : ℝ) := by
    apply Real.le_sqrt_of_sq_le
    have : d ^ 2 ≤ x := by
      rw [hd', ← zpow_natCast, ← zpow_mul]
      exact hx2
    exact_mod_cast this
  have hn := (hL x hx.le).2 d hdd
  rw [← h, Rat.cast_zero, zero_sub, abs_neg, abs_of_nonneg (Real.sqrt_nonneg _), abs_of_nonpos (by linarith)] at hn
  linarith

theorem sqrt_nonneg' (hL : IsSqrt L.sq) {a : Flt} (ha : NonNeg a) : NonNeg (sqrt L a) := by
  rcases ha with ⟨x, hx, hd, rfl⟩ | rfl
  · refine .inl ⟨L.sq x, sq_nonneg' hL hx, sq_dbl hL hx (by rw [← abs_of_nonneg hx]; exact hd.2), ?_⟩
    simp [sqrt, not_lt.2 hx]
  · exact .inr rfl

theorem sqrt_eq_zero (hL : IsSqrt L.sq) {a : Flt} (ha : NonNeg a) : sqrt L a = .fin 0 ↔ a = .fin 0 := by
  rcases ha with ⟨x, hx, hd, rfl⟩ | rfl
  · simp only [sqrt, not_lt.2 hx, if_false, Flt.fin.injEq]
    constructor
    · intro h
      rcases hx.lt_or_eq with hx | hx
      · exact absurd h (sq_pos hL hd.1 hx).ne'
      · exact hx.symm
    · rintro rfl
      exact sq_zero hL
  · simp [sqrt]

theorem sq_mono (hL : IsSqrt L.sq) {x y : ℚ} (hx : 0 ≤ x) (h : x ≤ y) : L.sq x ≤ L.sq y := by
  rcases h.lt_or_eq with h | rfl
  · by_contra hc
    push Not at hc
    have a := (hL x hx).2 _ (hL y (hx.trans h.le)).1
    have b := (hL y (hx.trans h.le)).2 _ (hL x hx).1
    have hlt : √(x : ℝ) < √(y : ℝ) := Real.sqrt_lt_sqrt (by exact_mod_cast hx) (by exact_mod_cast h)
    have hc' : (L.sq y : ℝ) < L.sq x := by exact_mod_cast hc
    have a' := sq_le_sq.2 a
    have b' := sq_le_sq.2 b
    nlinarith
  · exact le_rfl

/-- The relative error of square roots of doubles. -/
theorem sq_rel (hL : IsSqrt L.sq) {x : ℚ} (hd : Double x) (hx : 0 ≤ x) :
    |(L.sq x : ℝ) - √(x : ℝ)| ≤ √(x : ℝ) / 2 ^ 53 := by
  rcases hx.lt_or_eq with hpos | rfl
  · have hlow : (2 : ℝ) ^ (-537 : ℤ) ≤ √(x : ℝ) := by
      have hx2 := Double.ge hd hpos
      apply Real.le_sqrt_of_sq_le
      rw [← zpow_natCast, ← zpow_mul]
      have : ((2 ^ (-1074 : ℤ) : ℚ) : ℝ) ≤ x := by exact_mod_cast hx2
      push_cast at this
      exact this
    set r := √(x : ℝ)
    have hr0 : 0 < r := lt_of_lt_of_le (by positivity) hlow
    apply le_of_forall_pos_le_add
    intro ε hε
    obtain ⟨q, hq1, hq2⟩ := exists_rat_btwn (show r < r + ε / 2 by linarith)
    have hq0 : (0 : ℝ) < q := hr0.trans hq1
    have hql : 2 ^ (-1022 : ℤ) ≤ |q| := by
      have h1 : ((2 ^ (-1022 : ℤ) : ℚ) : ℝ) ≤ q := by
        push_cast
        have : (2 : ℝ) ^ (-1022 : ℤ) ≤ 2 ^ (-537 : ℤ) := zpow_le_zpow_right₀ (by norm_num) (by norm_num)
        linarith
      have h2 : (2 ^ (-1022 : ℤ) : ℚ) ≤ q := by exact_mod_cast h1
      exact h2.trans (le_abs_self q)
    have hrel := dbl_rel_ge hql
    rw [abs_of_pos (show 0 < q by exact_mod_cast hq0)] at hrel
    have hrel' : |(dbl q : ℝ) - q| ≤ q / 2 ^ 53 := by exact_mod_cast hrel
    refine ((hL x hx).2 (dbl q) (dbl_double q)).trans ?_
    calc |(dbl q : ℝ) - r| = |((dbl q : ℝ) - q) + (q - r)| := by congr 1; ring
      _ ≤ |(dbl q : ℝ) - q| + |(q : ℝ) - r| := abs_add_le _ _
      _ ≤ q / 2 ^ 53 + (q - r) := by rw [abs_of_pos (show 0 < (q : ℝ) - r by linarith)]; linarith
      _ ≤ r / 2 ^ 53 + ε := by
        have : (q : ℝ) / 2 ^ 53 ≤ r / 2 ^ 53 + ε / 2 := by
          rw [div_le_iff₀ (by positivity), add_mul, div_mul_cancel₀ _ (by positivity)]
          nlinarith
        linarith
  · rw [sq_zero hL]
    simp

/-- The contract of square roots can be met. -/
theorem exists_isSqrt : ∃ sq, IsSqrt sq := by
  have key : ∀ x : ℚ, ∃ v, 0 ≤ x → Double v ∧ ∀ d, Double d → |(v : ℝ) - √(x : ℝ)| ≤ |(d : ℝ) - √(x : ℝ)| := by
    intro x
    set r := √(x : ℝ) with hr
    have hr0 : 0 ≤ r := Real.sqrt_nonneg _
    obtain ⟨M, hM⟩ := exists_nat_ge (2 * r / (2 : ℝ) ^ (-1074 : ℤ))
    let s : Set ℤ := {m | 0 ≤ m ∧ m ≤ M ∧ Double ((m : ℚ) * 2 ^ (-1074 : ℤ))}
    have hfin : s.Finite := (Set.finite_Icc (0 : ℤ) M).subset fun m hm => ⟨hm.1, hm.2.1⟩
    have h0 : (0 : ℤ) ∈ s := ⟨le_rfl, by positivity, by simpa using double_zero⟩
    obtain ⟨m, hm, hmin⟩ := Set.exists_min_image s (fun m => |((m : ℚ) * 2 ^ (-1074 : ℤ) : ℚ) - r|) hfin ⟨0, h0⟩
    refine ⟨(m : ℚ) * 2 ^ (-1074 : ℤ), fun _ => ⟨hm.2.2, fun d hd => ?_⟩⟩
    have hz := hmin 0 h0
    simp only [Int.cast_zero, zero_mul, Rat.cast_zero, zero_sub, abs_neg, abs_of_nonneg hr0] at hz
    by_cases hd0 : 0 ≤ (d : ℝ) ∧ (d : ℝ) ≤ 2 * r
    · obtain ⟨k, hk⟩ := Double.multiple hd
      have hp : (0 : ℝ) < 2 ^ (-1074 : ℤ) := by positivity
      have hkR : (d : ℝ) = k * 2 ^ (-1074 : ℤ) := by
        rw [hk]
        push_cast
        ring
      have hk0 : (0 : ℝ) ≤ k := by
        by_contra hc
        push Not at hc
        have := mul_neg_of_neg_of_pos hc hp
        rw [← hkR] at this
        linarith [hd0.1]
      have hkM : (k : ℝ) ≤ M := by
        refine le_trans ?_ hM
        rw [le_div_iff₀ hp, ← hkR]
        exact hd0.2
      have := hmin k ⟨by exact_mod_cast hk0, by exact_mod_cast hkM, hk ▸ hd⟩
      rw [hk]
      exact this
    · refine hz.trans ?_
      by_cases h1 : 0 ≤ (d : ℝ)
      · have h2 : 2 * r < d := by
          by_contra hc
          push Not at hc
          exact hd0 ⟨h1, hc⟩
        rw [abs_of_pos (by linarith)]
        linarith
      · push Not at h1
        rw [abs_of_neg (by linarith)]
        linarith
  choose sq hsq using key
  exact ⟨sq, fun x hx => hsq x hx⟩

/-- Doubles other than `m * 2 ^ e` are not nearer than `2 ^ e`, when the mantissa has 53 bits and is not the least one. -/
theorem double_sep {m e : ℤ} (h1 : 2 ^ 52 < m) {d : ℚ} (hd : Double d) (hne : d ≠ m * 2 ^ e) :
    2 ^ e ≤ |d - m * 2 ^ e| := by
  have hp := two_zpow_pos e
  have hm : ((2 ^ 52 + 1 : ℤ) : ℚ) ≤ m := by exact_mod_cast h1
  push_cast at hm
  by_cases hlow : d < 2 ^ 52 * 2 ^ e
  · rw [abs_sub_comm, abs_of_pos (by nlinarith)]
    nlinarith
  · push Not at hlow
    have hd0 : 0 < d := lt_of_lt_of_le (by positivity) hlow
    have hlog : 52 + e ≤ Int.log 2 |d| := by
      rw [← Int.zpow_le_iff_le_log (by norm_num) (abs_pos.2 hd0.ne'), abs_of_pos hd0]
      push_cast
      rw [zpow_add₀ (by norm_num)]
      have : (2 : ℚ) ^ (52 : ℤ) = 2 ^ 52 := by norm_num
      rw [this]
      exact hlow
    have hexp : e ≤ expo d := by
      unfold expo
      omega
    obtain ⟨k, hk⟩ := multiple_of_le (m := halfEven (d / 2 ^ expo d)) hexp
    have hdk : d = k * 2 ^ e := by
      rw [← hk]
      exact (dbl_of_double hd).symm
    rw [hdk, ← sub_mul, abs_mul, abs_of_pos hp]
    have hkm : k ≠ m := by
      rintro rfl
      exact hne hdk
    have : (1 : ℚ) ≤ |(k : ℚ) - m| := by
      have : 1 ≤ |k - m| := Int.one_le_abs (sub_ne_zero.2 hkm)
      exact_mod_cast this
    nlinarith

/-- The value of a square root. -/
theorem sq_eq (hL : IsSqrt L.sq) {x v δ : ℚ} (hv : Double v) (hδ : δ < v) (h0 : 0 < δ)
    (hsep : ∀ d, Double d → d ≠ v → 2 * δ ≤ |d - v|) (hl : (v - δ) ^ 2 < x) (hu : x < (v + δ) ^ 2) : L.sq x = v := by
  have hx : 0 ≤ x := (sq_nonneg _).trans hl.le
  by_contra hne
  have h1 := (hL x hx).2 v hv
  have h2 := hsep _ (hL x hx).1 hne
  have h2' : (2 : ℝ) * δ ≤ |(L.sq x : ℝ) - v| := by exact_mod_cast h2
  set r := √(x : ℝ)
  have hr1 : (v : ℝ) - δ < r := by
    apply Real.lt_sqrt_of_sq_lt
    exact_mod_cast hl
  have hr2 : r < (v : ℝ) + δ := by
    rw [Real.sqrt_lt' (by
      have : 0 < v + δ := by linarith
      exact_mod_cast this)]
    exact_mod_cast hu
  have h3 : |(v : ℝ) - r| < δ := by
    rw [abs_lt]
    constructor <;> linarith
  have h4 : |(L.sq x : ℝ) - v| ≤ |(L.sq x : ℝ) - r| + |(v : ℝ) - r| := by
    rw [abs_sub_comm (v : ℝ) r]
    exact abs_sub_le _ _ _
  linarith

/-- The square root of the rounded square of a double is this double. -/
theorem sq_dbl_mul_self (hL : IsSqrt L.sq) {x : ℚ} (hd : Double x) (hlow : 2 ^ (-500 : ℤ) ≤ x) :
    L.sq (dbl (x * x)) = x := by
  have hx : 0 < x := lt_of_lt_of_le (two_zpow_pos _) hlow
  set e := expo x with he
  set m := halfEven (x / 2 ^ e) with hmd
  have hxm : x = m * 2 ^ e := (dbl_of_double hd).symm
  have hp := two_zpow_pos e
  have hlog : -500 ≤ Int.log 2 |x| := by
    rw [← Int.zpow_le_iff_le_log (by norm_num) (abs_pos.2 hx.ne'), abs_of_pos hx]
    exact_mod_cast hlow
  have hee : Int.log 2 |x| = e + 52 := by
    rw [he]
    unfold expo
    omega
  have hge : (2 : ℚ) ^ 52 * 2 ^ e ≤ x := by
    have := Int.zpow_log_le_self (b := 2) (by norm_num) (abs_pos.2 hx.ne')
    rw [hee, abs_of_pos hx] at this
    push_cast at this
    rw [zpow_add₀ (by norm_num)] at this
    have h52 : (2 : ℚ) ^ (52 : ℤ) = 2 ^ 52 := by norm_num
    rw [h52] at this
    linarith
  have hlt : x < 2 ^ 53 * 2 ^ e := by
    have := log_lt x
    rw [hee, abs_of_pos hx, show e + 52 + 1 = 53 + e by ring, zpow_add₀ (by norm_num)] at this
    have h53 : (2 : ℚ) ^ (53 : ℤ) = 2 ^ 53 := by norm_num
    rwa [h53] at this
  have hm1 : 2 ^ 52 ≤ m := by
    rw [hxm] at hge
    have := le_of_mul_le_mul_right hge hp
    exact_mod_cast this
  rcases hm1.lt_or_eq with hm2 | hm2
  · -- the error of the square
    have herr := dbl_err (x * x)
    have hexp : (2 : ℚ) ^ expo (x * x) ≤ 2 ^ (2 * e + 53) := by
      apply zpow_le_zpow_right₀ (by norm_num)
      unfold expo
      have h1 : Int.log 2 |x * x| < 2 * e + 106 := by
        rw [← Int.lt_zpow_iff_log_lt (by norm_num) (abs_pos.2 (mul_pos hx hx).ne'), abs_of_pos (mul_pos hx hx)]
        push_cast
        have : (2 : ℚ) ^ (2 * e + 106) = (2 ^ 53 * 2 ^ e) * (2 ^ 53 * 2 ^ e) := by
          rw [show 2 * e + 106 = e + e + 106 by ring, zpow_add₀ (by norm_num), zpow_add₀ (by norm_num)]
          have : (2 : ℚ) ^ (106 : ℤ) = 2 ^ 53 * 2 ^ 53 := by norm_num
          rw [this]
          ring
        rw [this]
        exact mul_lt_mul'' hlt hlt hx.le hx.le
      omega
    have hhalf : (2 : ℚ) ^ (2 * e + 53) / 2 = 2 ^ 52 * (2 ^ e * 2 ^ e) := by
      rw [show 2 * e + 53 = e + e + 53 by ring, zpow_add₀ (by norm_num), zpow_add₀ (by norm_num)]
      have : (2 : ℚ) ^ (53 : ℤ) = 2 ^ 52 * 2 := by norm_num
      rw [this]
      ring
    have hb : |dbl (x * x) - x * x| ≤ 2 ^ 52 * (2 ^ e * 2 ^ e) := by
      rw [← hhalf]
      linarith
    rw [abs_le] at hb
    have hmq : ((2 ^ 52 + 1 : ℤ) : ℚ) ≤ m := by exact_mod_cast hm2
    push_cast at hmq
    set p : ℚ := 2 ^ e
    have hxp : (2 ^ 52 + 1) * p ≤ x := by
      rw [hxm]
      exact mul_le_mul_of_nonneg_right (by linarith) hp.le
    refine sq_eq hL (δ := p / 2) hd (by nlinarith) (by positivity) ?_ ?_ ?_
    · intro d hdd hne
      have := double_sep (e := e) hm2 hdd (by rw [← hxm]; exact hne)
      rw [← hxm] at this
      linarith
    · nlinarith [hb.1]
    · nlinarith [hb.2]
  · have hsq : x * x = ((1 : ℤ) : ℚ) * 2 ^ (2 * e + 104) := by
      rw [hxm, ← hm2, show 2 * e + 104 = e + e + 104 by ring, zpow_add₀ (by norm_num), zpow_add₀ (by norm_num)]
      have : (2 : ℚ) ^ (104 : ℤ) = 2 ^ 52 * 2 ^ 52 := by norm_num
      rw [this]
      push_cast
      ring
    have hdd : Double (x * x) := ⟨1, 2 * e + 104, by norm_num, by omega, hsq⟩
    rw [dbl_of_double hdd]
    have h1 := (hL (x * x) (mul_self_nonneg x)).2 x hd
    have h2 : √((x * x : ℚ) : ℝ) = x := by
      push_cast
      exact Real.sqrt_mul_self (by exact_mod_cast hx.le)
    rw [h2, sub_self, abs_zero] at h1
    have h3 := abs_nonpos_iff.1 h1
    have : (L.sq (x * x) : ℝ) = x := by linarith
    exact_mod_cast this

/-! ### The least element of a row -/

theorem ge_refl {a : Flt} (h : a ≠ .nan) : ge a a = true := by
  cases a with
  | fin x => simp [ge]
  | inf s => cases s <;> rfl
  | nan => exact absurd rfl h

theorem ge_trans {a b c : Flt} (h1 : ge a b = true) (h2 : ge b c = true) : ge a c = true := by
  cases a <;> cases b <;> cases c <;> simp_all [ge]
  · exact le_trans h2 h1
  all_goals
    rename_i s t
    cases s <;> cases t <;> simp_all

theorem ge_total {a b : Flt} (ha : a ≠ .nan) (hb : b ≠ .nan) : ge a b = true ∨ ge b a = true := by
  cases a <;> cases b <;> simp_all [ge, le_total]
  all_goals
    rename_i s
    cases s <;> simp

/-- Not at least: less. -/
theorem ge_false {a b : Flt} (ha : a ≠ .nan) (hb : b ≠ .nan) (h : ge a b = false) : ge b a = true := by
  rcases ge_total ha hb with h1 | h1
  · rw [h] at h1
    cases h1
  · exact h1

theorem argminFrom_spec : ∀ (l : List Flt) (best : Flt) (bi i : ℕ), bi < i → best ≠ .nan →
    ∃ r, argminFrom best bi i l = r ∧
      ((r = bi ∧ ∀ x ∈ l, ge x best = true) ∨
        ∃ j x, r = i + j ∧ l[j]? = some x ∧
          ((x = .nan ∧ ∀ y ∈ l.take j, y ≠ .nan) ∨
            (x ≠ .nan ∧ ge x best = false ∧ (∀ y ∈ l, ge y x = true) ∧ ∀ y ∈ l.take j, ge x y = false)))
  | [], best, bi, i, _, _ => ⟨bi, rfl, .inl ⟨rfl, by simp⟩⟩
  | x :: xs, best, bi, i, hi, hb => by
    unfold argminFrom
    by_cases hx : ge x best = true
    · rw [if_pos hx]
      have hxn : x ≠ .nan := by
        rintro rfl
        simp [ge] at hx
      obtain ⟨r, hr, h⟩ := argminFrom_spec xs best bi (i + 1) (by omega) hb
      refine ⟨r, hr, ?_⟩
      rcases h with ⟨h1, h2⟩ | ⟨j, y, h1, h2, h3⟩
      · left
        exact ⟨h1, by simpa [hx] using h2⟩
      · right
        refine ⟨j + 1, y, by omega, by simpa using h2, ?_⟩
        rcases h3 with ⟨h3, h4⟩ | ⟨h3, h4, h5, h6⟩
        · left
          exact ⟨h3, by simpa [hxn] using h4⟩
        · right
          have hxy : ge y x = false := by
            cases hc : ge y x with
            | false => rfl
            | true => rw [ge_trans hc hx] at h4; cases h4
          refine ⟨h3, h4, ?_, ?_⟩
          · intro z hz
            rcases List.mem_cons.1 hz with rfl | hz
            · exact ge_false h3 hxn hxy
            · exact h5 z hz
          · intro z hz
            rw [List.take_succ_cons] at hz
            rcases List.mem_cons.1 hz with rfl | hz
            · exact hxy
            · exact h6 z hz
    · rw [if_neg hx]
      have hx' : ge x best = false := by simpa using hx
      by_cases hn : x = .nan
      · rw [if_pos hn]
        exact ⟨i, rfl, .inr ⟨0, x, rfl, rfl, .inl ⟨hn, by simp⟩⟩⟩
      · rw [if_neg hn]
        obtain ⟨r, hr, h⟩ := argminFrom_spec xs x i (i + 1) (by omega) hn
        refine ⟨r, hr, .inr ?_⟩
        rcases h with ⟨h1, h2⟩ | ⟨j, y, h1, h2, h3⟩
        · exact ⟨0, x, by omega, rfl, .inr ⟨hn, hx', by simpa [ge_refl hn] using h2, by simp⟩⟩
        · refine ⟨j + 1, y, by omega, by simpa using h2, ?_⟩
          rcases h3 with ⟨h3, h4⟩ | ⟨h3, h4, h5, h6⟩
          · left
            exact ⟨h3, by simpa [hn] using h4⟩
          · right
            refine ⟨h3, ?_, ?_, ?_⟩
            · cases hc : ge y best with
              | false => rfl
              | true => rw [ge_trans hc (ge_false hn hb hx')] at h4; cases h4
            · intro z hz
              rcases List.mem_cons.1 hz with rfl | hz
              · exact ge_false h3 hn h4
              · exact h5 z hz
            · intro z hz
              rw [List.take_succ_cons] at hz
              rcases List.mem_cons.1 hz with rfl | hz
              · exact h4
              · exact h6 z hz

/-- `argmin` finds the first NaN, or else the first of the least elements. -/
theorem argmin_spec (l : List Flt) (h : l ≠ []) : ∃ m x, argmin l = .ok m ∧ l[m]? = some x ∧
    ((x = .nan ∧ ∀ y ∈ l.take m, y ≠ .nan) ∨
      (x ≠ .nan ∧ (∀ y ∈ l, ge y x = true) ∧ ∀ y ∈ l.take m, ge x y = false)) := by
  obtain ⟨x, xs, rfl⟩ := List.exists_cons_of_ne_nil h
  simp only [argmin]
  by_cases hx : x = .nan
  · rw [if_pos hx]
    exact ⟨0, x, rfl, rfl, .inl ⟨hx, by simp⟩⟩
  · rw [if_neg hx]
    obtain ⟨r, hr, h⟩ := argminFrom_spec xs x 0 1 (by omega) hx
    rw [hr]
    rcases h with ⟨h1, h2⟩ | ⟨j, y, h1, h2, h3⟩
    · exact ⟨0, x, by rw [h1], rfl, .inr ⟨hx, by simpa [ge_refl hx] using h2, by simp⟩⟩
    · refine ⟨j + 1, y, by rw [h1, Nat.add_comm], by simpa using h2, ?_⟩
      rcases h3 with ⟨h3, h4⟩ | ⟨h3, h4, h5, h6⟩
      · left
        exact ⟨h3, by simpa [hx] using h4⟩
      · right
        refine ⟨h3, ?_, ?_⟩
        · intro z hz
          rcases List.mem_cons.1 hz with rfl | hz
          · exact ge_false h3 hx h4
          · exact h5 z hz
        · intro z hz
          rw [List.take_succ_cons] at hz
          rcases List.mem_cons.1 hz with rfl | hz
          · exact h4
          · exact h6 z hz

/-! ### The error of sums -/

theorem grow_one (m : ℕ) : (1 : ℚ) ≤ (1 + 1 / 2 ^ 53) ^ m := one_le_pow₀ (by norm_num)

/-- Sums of at most `2 ^ 53` terms of absolute value at most a power of two are finite. -/
theorem sum_bd {w : ℕ → ℚ} {p : ℕ} (hp : p ≤ 970) : ∀ (t : Tree), t.leaves.length ≤ 2 ^ 53 →
    (∀ k ∈ t.leaves, Double (w k) ∧ |w k| ≤ 2 ^ p) →
    ∃ s, t.sum (fun k => .fin (w k)) = .fin s ∧ Double s ∧ |s| ≤ t.leaves.length * 2 ^ p
  | .zero, _, _ => ⟨0, rfl, double_zero, by simp [Tree.leaves]⟩
  | .leaf k, _, h => ⟨w k, rfl, (h k (by simp [Tree.leaves])).1, by simpa [Tree.leaves] using (h k (by simp [Tree.leaves])).2⟩
  | .plus a b, hl, h => by
    have hlen : (Tree.plus a b).leaves.length = a.leaves.length + b.leaves.length := by simp [Tree.leaves]
    rw [hlen] at hl
    obtain ⟨s, hs, ds, bs⟩ := sum_bd hp a (by omega) fun k hk => h k (by simp [Tree.leaves, hk])
    obtain ⟨u, hu, du, bu⟩ := sum_bd hp b (by omega) fun k hk => h k (by simp [Tree.leaves, hk])
    have hB : Double (((a.leaves.length + b.leaves.length : ℕ) : ℚ) * 2 ^ p) := by
      have := double_mul (n := a.leaves.length + b.leaves.length) (p := p) hl (by omega)
      simpa using this
    have hle : |s + u| ≤ ((a.leaves.length + b.leaves.length : ℕ) : ℚ) * 2 ^ p := by
      refine (abs_add_le s u).trans ?_
      push_cast
      rw [add_mul]
      exact add_le_add bs bu
    have hlt : ((a.leaves.length + b.leaves.length : ℕ) : ℚ) * 2 ^ p < 2 ^ 1024 := by
      have h1 : ((a.leaves.length + b.leaves.length : ℕ) : ℚ) ≤ 2 ^ 53 := by exact_mod_cast hl
      calc ((a.leaves.length + b.leaves.length : ℕ) : ℚ) * 2 ^ p ≤ 2 ^ 53 * 2 ^ p := by gcongr
        _ = 2 ^ (53 + p) := by rw [pow_add]
        _ < 2 ^ 1024 := pow_lt_pow_right₀ (by norm_num) (by omega)
    refine ⟨dbl (s + u), ?_, dbl_double _, ?_⟩
    · show add (a.sum _) (b.sum _) = _
      rw [hs, hu]
      exact round_of_le hB hle hlt
    · rw [hlen]
      exact abs_dbl_le hB hle

theorem sum_fin_empty {w : ℕ → ℚ} : ∀ (t : Tree), t.leaves = [] → t.sum (fun k => .fin (w k)) = .fin 0
  | .zero, _ => rfl
  | .leaf k, h => by simp [Tree.leaves] at h
  | .plus a b, h => by
    simp only [Tree.leaves, List.append_eq_nil_iff] at h
    show add (a.sum _) (b.sum _) = _
    rw [sum_fin_empty a h.1, sum_fin_empty b h.2]
    show round (0 + 0) = _
    rw [add_zero, round_dbl dbl_zero']

theorem abs_sum_le' (w : ℕ → ℚ) : ∀ l : List ℕ, |(l.map w).sum| ≤ (l.map fun k => |w k|).sum
  | [] => by simp
  | x :: l => by
    simp only [List.map_cons, List.sum_cons]
    exact (abs_add_le _ _).trans (add_le_add le_rfl (abs_sum_le' w l))

/-- The error of a sum, whatever the order of additions. -/
theorem sum_err {w : ℕ → ℚ} : ∀ (t : Tree) (s : ℚ), (∀ k ∈ t.leaves, Double (w k)) →
    t.sum (fun k => .fin (w k)) = .fin s →
    Double s ∧ |s - (t.leaves.map w).sum| ≤ ((1 + 1 / 2 ^ 53) ^ t.leaves.length - 1) * (t.leaves.map fun k => |w k|).sum
  | .zero, s, _, h => by
    have : (0 : ℚ) = s := by injection h
    subst this
    exact ⟨double_zero, by simp [Tree.leaves]⟩
  | .leaf k, s, hd, h => by
    have : w k = s := by injection h
    subst this
    refine ⟨hd k (by simp [Tree.leaves]), ?_⟩
    simp only [Tree.leaves, List.map_cons, List.map_nil, List.sum_cons, List.sum_nil, add_zero, sub_self, abs_zero]
    have := grow_one [k].length
    have := abs_nonneg (w k)
    apply mul_nonneg <;> linarith
  | .plus a b, v, hd, h => by
    have hda : ∀ k ∈ a.leaves, Double (w k) := fun k hk => hd k (by simp [Tree.leaves, hk])
    have hdb : ∀ k ∈ b.leaves, Double (w k) := fun k hk => hd k (by simp [Tree.leaves, hk])
    have h' : add (a.sum fun k => .fin (w k)) (b.sum fun k => .fin (w k)) = .fin v := h
    obtain ⟨s, hs⟩ : ∃ s, a.sum (fun k => .fin (w k)) = .fin s := by
      cases hc : a.sum (fun k => Flt.fin (w k)) with
      | fin s => exact ⟨s, rfl⟩
      | nan => rw [hc] at h'; simp [add] at h'
      | inf z =>
        rw [hc] at h'
        cases hc' : b.sum (fun k => Flt.fin (w k)) <;> rw [hc'] at h' <;> simp [add] at h'
        split_ifs at h'
    obtain ⟨u, hu⟩ : ∃ u, b.sum (fun k => .fin (w k)) = .fin u := by
      cases hc : b.sum (fun k => Flt.fin (w k)) with
      | fin s => exact ⟨s, rfl⟩
      | nan => rw [hc, hs] at h'; simp [add] at h'
      | inf z => rw [hc, hs] at h'; simp [add] at h'
    obtain ⟨ds, es⟩ := sum_err a s hda hs
    obtain ⟨du, eu⟩ := sum_err b u hdb hu
    rw [hs, hu] at h'
    have hv : v = dbl (s + u) := by
      have h2 : round (s + u) = .fin v := h'
      rcases round_cases (s + u) with ⟨h3, _⟩ | h3 <;> rw [h3] at h2
      · injection h2 with h2
        exact h2.symm
      · cases h2
    refine ⟨hv ▸ dbl_double _, ?_⟩
    simp only [Tree.leaves, List.map_append, List.sum_append, List.length_append]
    have zero_case : ∀ c : Tree, c.leaves = [] → ∀ z, c.sum (fun k => .fin (w k)) = .fin z → z = 0 := by
      intro c hc z hz
      rw [sum_fin_empty c hc] at hz
      injection hz with hz
      exact hz.symm
    by_cases ha : a.leaves = []
    · have hs0 := zero_case a ha s hs
      rw [hv, hs0, zero_add, dbl_of_double du]
      simpa [ha] using eu
    by_cases hb : b.leaves = []
    · have hu0 := zero_case b hb u hu
      rw [hv, hu0, add_zero, dbl_of_double ds]
      simpa [hb] using es
    have la : 1 ≤ a.leaves.length := List.length_pos_iff.2 ha
    have lb : 1 ≤ b.leaves.length := List.length_pos_iff.2 hb
    set S := (a.leaves.map w).sum
    set U := (b.leaves.map w).sum
    set S' := (a.leaves.map fun k => |w k|).sum
    set U' := (b.leaves.map fun k => |w k|).sum
    have aS : |S| ≤ S' := abs_sum_le' w _
    have aU : |U| ≤ U' := abs_sum_le' w _
    set n := a.leaves.length + b.leaves.length - 1
    have g1 : (1 + 1 / 2 ^ 53 : ℚ) ^ a.leaves.length ≤ (1 + 1 / 2 ^ 53) ^ n :=
      pow_le_pow_right₀ (by norm_num) (by omega)
    have g2 : (1 + 1 / 2 ^ 53 : ℚ) ^ b.leaves.length ≤ (1 + 1 / 2 ^ 53) ^ n :=
      pow_le_pow_right₀ (by norm_num) (by omega)
    have g3 : (1 + 1 / 2 ^ 53 : ℚ) ^ (a.leaves.length + b.leaves.length) = (1 + 1 / 2 ^ 53) ^ n * (1 + 1 / 2 ^ 53) := by
      rw [← pow_succ]
      congr 1
      omega
    rw [g3]
    set g : ℚ := (1 + 1 / 2 ^ 53) ^ n
    have hS0 : 0 ≤ S' := (abs_nonneg _).trans aS
    have hU0 : 0 ≤ U' := (abs_nonneg _).trans aU
    have es' : |s - S| ≤ (g - 1) * S' := es.trans (by gcongr)
    have eu' : |u - U| ≤ (g - 1) * U' := eu.trans (by gcongr)
    have er := dbl_rel_add ds du
    have hsu : |s + u| ≤ g * (S' + U') := by
      calc |s + u| = |(s - S) + (u - U) + (S + U)| := by congr 1; ring
        _ ≤ |s - S| + |u - U| + (|S| + |U|) := (abs_add_le _ _).trans (add_le_add (abs_add_le _ _) (abs_add_le _ _))
        _ ≤ _ := by linarith
    rw [hv]
    calc |dbl (s + u) - (S + U)| = |(dbl (s + u) - (s + u)) + ((s - S) + (u - U))| := by congr 1; ring
      _ ≤ |dbl (s + u) - (s + u)| + (|s - S| + |u - U|) := (abs_add_le _ _).trans (by gcongr; exact abs_add_le _ _)
      _ ≤ g * (S' + U') / 2 ^ 53 + ((g - 1) * S' + (g - 1) * U') := by
        have : |s + u| / 2 ^ 53 ≤ g * (S' + U') / 2 ^ 53 := by gcongr
        linarith
      _ = (g * (1 + 1 / 2 ^ 53) - 1) * (S' + U') := by ring

/-- The computed sum is at least each entry. -/
theorem sum_ge {a : ℕ → Flt} : ∀ (t : Tree), (∀ k ∈ t.leaves, NonNeg (a k)) → ∀ s, t.sum a = .fin s →
    Double s ∧ 0 ≤ s ∧ ∀ k ∈ t.leaves, ∃ y, a k = .fin y ∧ y ≤ s
  | .zero, _, s, h => by
    have : (0 : ℚ) = s := by injection h
    subst this
    exact ⟨double_zero, le_rfl, by simp [Tree.leaves]⟩
  | .leaf k, hn, s, h => by
    have h1 : a k = .fin s := h
    rcases hn k (by simp [Tree.leaves]) with ⟨y, hy, hd, e⟩ | e
    · rw [h1] at e
      injection e with e
      subst e
      refine ⟨hd.1, hy, fun k' hk' => ?_⟩
      rw [Tree.leaves, List.mem_singleton] at hk'
      subst hk'
      exact ⟨s, h1, le_rfl⟩
    · rw [h1] at e
      cases e
  | .plus p q, hn, s, h => by
    have hp := sum_nonneg p fun k hk => hn k (by simp [Tree.leaves, hk])
    have hq := sum_nonneg q fun k hk => hn k (by simp [Tree.leaves, hk])
    have h1 : add (p.sum a) (q.sum a) = .fin s := h
    rcases hp with ⟨y, hy, hdy, ey⟩ | ey <;> rcases hq with ⟨z, hz, hdz, ez⟩ | ez <;> rw [ey, ez] at h1
    · have h2 : round (y + z) = .fin s := h1
      rcases round_cases (y + z) with ⟨h3, h4⟩ | h3 <;> rw [h2] at h3
      · injection h3 with h3
        subst h3
        have a1 := le_dbl hdy.1 (show y ≤ y + z by linarith)
        have a2 := le_dbl hdz.1 (show z ≤ y + z by linarith)
        obtain ⟨_, _, ip⟩ := sum_ge p (fun k hk => hn k (by simp [Tree.leaves, hk])) y ey
        obtain ⟨_, _, iq⟩ := sum_ge q (fun k hk => hn k (by simp [Tree.leaves, hk])) z ez
        refine ⟨dbl_double _, hy.trans a1, fun k hk => ?_⟩
        rw [Tree.leaves, List.mem_append] at hk
        rcases hk with hk | hk
        · obtain ⟨w, e, hw⟩ := ip k hk
          exact ⟨w, e, hw.trans a1⟩
        · obtain ⟨w, e, hw⟩ := iq k hk
          exact ⟨w, e, hw.trans a2⟩
      · cases h3
    · cases h1
    · cases h1
    · cases h1

end Verif.Evaluation.D
