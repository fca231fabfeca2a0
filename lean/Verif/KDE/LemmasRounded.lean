import Verif.KDE.Rounded
import Verif.KDE.Props

/-!
# Lemmas about linear binning with rounded operations
-/

namespace Verif.KDE

open Verif.Window

/-- The unit of errors. -/
def UNIT : ℚ := 1 / 2 ^ 52

theorem UNIT_pos : 0 < UNIT := by norm_num [UNIT]

theorem UNIT_small : UNIT * 2 ^ 40 = 1 / 4096 := by norm_num [UNIT]

theorem rnd {fl : ℚ → ℚ} (hf : IsRounding fl) {x a : ℚ} (h : |x| ≤ a) (ha : 1 / 2 ^ 1000 ≤ a) :
    |fl x - x| ≤ UNIT * a := by
  have h1 := hf.near x
  have e1 : (1 : ℚ) / 2 ^ 1075 = 1 / 2 ^ 1000 / 2 ^ 75 := by
    rw [div_div, ← pow_add]
  rw [e1] at h1
  generalize (1 : ℚ) / 2 ^ 1000 = q at *
  have : UNIT = 1 / 2 ^ 52 := rfl
  rw [this]
  have h2 : q / 2 ^ 75 ≤ a / 2 ^ 75 := by gcongr
  have h3 : |x| / 2 ^ 53 ≤ a / 2 ^ 53 := by gcongr
  have ha0 : 0 ≤ a := le_trans (abs_nonneg x) h
  norm_num at *
  linarith

/-- Sizes: `d` is the exact step, `M` bounds the ends. -/
structure Sizes (lo hi d M : ℚ) (nb n : ℕ) : Prop where
  nb2 : 2 ≤ nb
  step : ((nb : ℚ) - 1) * d = hi - lo
  lo_le : |lo| ≤ M
  hi_le : |hi| ≤ M
  d_small : 1 / 2 ^ 900 ≤ d
  d_large : d ≤ 2 ^ 900
  ratio : M ≤ 2 ^ 40 * d
  n1 : 1 ≤ n
  n_le : (n : ℚ) ≤ 2 ^ 40

namespace Sizes

variable {lo hi d M : ℚ} {nb n : ℕ} {fl : ℚ → ℚ}

theorem d_pos (S : Sizes lo hi d M nb n) : 0 < d := lt_of_lt_of_le (by positivity) S.d_small

theorem d_tiny (S : Sizes lo hi d M nb n) : 1 / 2 ^ 1000 ≤ d / 2 := by
  have h := S.d_small
  have : (1 : ℚ) / 2 ^ 1000 = 1 / 2 ^ 900 / 2 ^ 100 := by rw [div_div, ← pow_add]
  rw [this]
  generalize (1 : ℚ) / 2 ^ 900 = q at *
  have := S.d_pos
  have : q / 2 ^ 100 ≤ d / 2 ^ 100 := by gcongr
  norm_num at this ⊢
  linarith

theorem nb1 (S : Sizes lo hi d M nb n) : (1 : ℚ) ≤ (nb : ℚ) - 1 := by
  have : (2 : ℚ) ≤ nb := by exact_mod_cast S.nb2
  linarith

theorem d_le_range (S : Sizes lo hi d M nb n) : d ≤ hi - lo := by
  rw [← S.step]
  have := S.nb1
  have := S.d_pos
  nlinarith

theorem range_le (S : Sizes lo hi d M nb n) : hi - lo ≤ 2 * M := by
  have h1 := abs_le.1 S.lo_le
  have h2 := abs_le.1 S.hi_le
  linarith

theorem d_le (S : Sizes lo hi d M nb n) : d ≤ 2 * M := S.d_le_range.trans S.range_le

theorem unitM (S : Sizes lo hi d M nb n) : UNIT * M ≤ d / 4096 := by
  have := mul_le_mul_of_nonneg_left S.ratio UNIT_pos.le
  have e := UNIT_small
  have : UNIT * (2 ^ 40 * d) = d / 4096 := by rw [← mul_assoc, e]; ring
  linarith

/-- The step. -/
theorem delta_near (S : Sizes lo hi d M nb n) (hf : IsRounding fl) :
    |deltaR fl lo hi nb - d| ≤ 3 * UNIT * d := by
  have hd := S.d_pos
  have hn := S.nb1
  have ht := S.d_tiny
  have hr := S.d_le_range
  have h1 := rnd hf (x := hi - lo) (a := hi - lo) (by rw [abs_of_nonneg (by linarith)]) (by linarith)
  have hn0 : (0 : ℚ) < (nb : ℚ) - 1 := by linarith
  have h2 : |fl (hi - lo) / ((nb : ℚ) - 1) - d| ≤ UNIT * d := by
    have : fl (hi - lo) / ((nb : ℚ) - 1) - d = (fl (hi - lo) - (hi - lo)) / ((nb : ℚ) - 1) := by
      rw [← S.step]; field_simp
    rw [this, abs_div, abs_of_pos hn0, div_le_iff₀ hn0]
    calc _ ≤ _ := h1
      _ = _ := by rw [← S.step]; ring
  have hu : UNIT * d ≤ d / 4096 := by
    have : UNIT ≤ 1 / 4096 := by norm_num [UNIT]
    nlinarith
  have h2' := abs_le.1 h2
  have h3 := rnd hf (x := fl (hi - lo) / ((nb : ℚ) - 1)) (a := 2 * d)
    (by rw [abs_le]; constructor <;> linarith) (by linarith)
  have h3' := abs_le.1 h3
  unfold deltaR
  rw [abs_le]
  constructor <;> linarith

theorem delta_bounds (S : Sizes lo hi d M nb n) (hf : IsRounding fl) :
    d * (999 / 1000) ≤ deltaR fl lo hi nb ∧ deltaR fl lo hi nb ≤ d * (1001 / 1000) := by
  have h := abs_le.1 (S.delta_near hf)
  have hd := S.d_pos
  have : UNIT * d ≤ d / 4096 := by
    have : UNIT ≤ 1 / 4096 := by norm_num [UNIT]
    nlinarith
  constructor <;> linarith

/-- Grid points. -/
theorem grid_near (S : Sizes lo hi d M nb n) (hf : IsRounding fl) (i : ℕ) (hi' : i ≤ nb) :
    |fl (lo + fl ((i : ℚ) * deltaR fl lo hi nb)) - (lo + i * d)| ≤ 23 * UNIT * M := by
  have hd := S.d_pos
  have hdM := S.d_le
  have hM : 0 < M := by linarith
  have ht := S.d_tiny
  have hu := S.unitM
  have hid : (i : ℚ) * d ≤ 4 * M := by
    have h1 : (i : ℚ) * d ≤ nb * d := by
      have : (i : ℚ) ≤ nb := by exact_mod_cast hi'
      nlinarith
    have := S.step
    have := S.range_le
    linarith
  have hi0 : (0 : ℚ) ≤ i := Nat.cast_nonneg _
  have hid0 : 0 ≤ (i : ℚ) * d := by positivity
  have h1 : |(i : ℚ) * deltaR fl lo hi nb - i * d| ≤ 12 * (UNIT * M) := by
    rw [← mul_sub, abs_mul, abs_of_nonneg hi0]
    calc (i : ℚ) * |deltaR fl lo hi nb - d| ≤ i * (3 * UNIT * d) := by
          gcongr; exact S.delta_near hf
      _ = 3 * (UNIT * (i * d)) := by ring
      _ ≤ 3 * (UNIT * (4 * M)) := by have := UNIT_pos; gcongr
      _ = _ := by ring
  have h1' := abs_le.1 h1
  have h2 := abs_le.1 (rnd hf (x := (i : ℚ) * deltaR fl lo hi nb) (a := 5 * M)
    (by rw [abs_le]; constructor <;> linarith) (by linarith))
  have hlo := abs_le.1 S.lo_le
  have h3 := abs_le.1 (rnd hf (x := lo + fl ((i : ℚ) * deltaR fl lo hi nb)) (a := 6 * M)
    (by rw [abs_le]; constructor <;> linarith) (by linarith))
  rw [abs_le]
  constructor <;> linarith

/-- The common weight. -/
theorem weight_near (S : Sizes lo hi d M nb n) (hf : IsRounding fl) :
    |fl (1 / fl ((n : ℚ) * deltaR fl lo hi nb)) - 1 / (n * d)| ≤ 8 * UNIT * (1 / (n * d)) := by
  have hd := S.d_pos
  have ht := S.d_tiny
  have hn : (1 : ℚ) ≤ n := by exact_mod_cast S.n1
  have hU := UNIT_pos
  have hU' : UNIT ≤ 1 / 4096 := by norm_num [UNIT]
  have hnd : 0 < (n : ℚ) * d := by positivity
  have hnd1 : d ≤ (n : ℚ) * d := by nlinarith
  have h1 : |(n : ℚ) * deltaR fl lo hi nb - n * d| ≤ 3 * (UNIT * (n * d)) := by
    rw [← mul_sub, abs_mul, abs_of_nonneg (by linarith)]
    calc (n : ℚ) * |deltaR fl lo hi nb - d| ≤ n * (3 * UNIT * d) := by
          gcongr; exact S.delta_near hf
      _ = _ := by ring
  have hs : UNIT * ((n : ℚ) * d) ≤ n * d / 4096 := by nlinarith
  have h1' := abs_le.1 h1
  have h2 := abs_le.1 (rnd hf (x := (n : ℚ) * deltaR fl lo hi nb) (a := (n * d) * (11 / 10))
    (by rw [abs_le]; constructor <;> linarith) (by linarith))
  generalize hp : fl ((n : ℚ) * deltaR fl lo hi nb) = p at *
  have hp1 : (n * d) * (1 - 5 * UNIT) ≤ p := by linarith
  have hp2 : p ≤ (n * d) * (1 + 5 * UNIT) := by linarith
  have hw : 0 < 1 / ((n : ℚ) * d) := by positivity
  have hp0 : 0 < p := lt_of_lt_of_le (mul_pos hnd (by linarith)) hp1
  -- the inverse
  have h3 : |1 / p - 1 / (n * d)| ≤ 6 * (UNIT * (1 / (n * d))) := by
    have e : 1 / p - 1 / (n * d) = (n * d - p) / p * (1 / (n * d)) := by field_simp
    rw [e, abs_mul, abs_of_pos hw, abs_div, abs_of_pos hp0]
    have : |n * d - p| / p ≤ 6 * UNIT := by
      rw [div_le_iff₀ hp0, abs_le]
      have : 6 * UNIT * (n * d * (1 - 5 * UNIT)) ≤ 6 * UNIT * p := by gcongr
      have h30 : 30 * UNIT ≤ 1 := by linarith
      have : 30 * UNIT * (UNIT * (n * d)) ≤ UNIT * (n * d) := by
        have : 0 ≤ UNIT * (n * d) := by positivity
        nlinarith
      constructor <;> nlinarith
    calc _ ≤ (6 * UNIT) * (1 / (n * d)) := by gcongr
      _ = _ := by ring
  have h3' := abs_le.1 h3
  have hw1 : 1 / 2 ^ 1000 ≤ 1 / ((n : ℚ) * d) := by
    have h900 := S.d_large
    have h40 := S.n_le
    apply one_div_le_one_div_of_le hnd
    calc (n : ℚ) * d ≤ 2 ^ 40 * 2 ^ 900 := by gcongr
      _ ≤ 2 ^ 1000 := by
        rw [← pow_add]
        exact pow_le_pow_right₀ (by norm_num) (by norm_num)
  have hs' : UNIT * (1 / ((n : ℚ) * d)) ≤ 1 / (n * d) / 4096 := by
    have := mul_le_mul_of_nonneg_right hU' hw.le
    linarith
  generalize 1 / ((n : ℚ) * d) = w at *
  have h4 := abs_le.1 (rnd hf (x := 1 / p) (a := 2 * w)
    (by rw [abs_le]; constructor <;> linarith) (by linarith))
  rw [abs_le]
  constructor <;> linarith

/-- The bin of a sample. -/
theorem bin_near (S : Sizes lo hi d M nb n) (hf : IsRounding fl) (x : ℚ) (h0 : lo ≤ x) (h1 : x ≤ hi) :
    ∃ b : ℕ, ⌊fl (fl (x - lo) / deltaR fl lo hi nb)⌋ = b ∧ b + 1 ≤ nb ∧
      -(12 * UNIT * M) ≤ x - lo - b * d ∧ x - lo - b * d ≤ d + 12 * UNIT * M := by
  have hd := S.d_pos
  have hdM := S.d_le
  have hM : 0 < M := by linarith
  have ht := S.d_tiny
  have hu := S.unitM
  have hU := UNIT_pos
  obtain ⟨hδ1, hδ2⟩ := S.delta_bounds hf
  have hδ := S.delta_near hf
  have hnb := S.nb1
  have hrange := S.range_le
  have hx2 : x - lo ≤ 2 * M := by linarith
  have a1 := abs_le.1 (rnd hf (x := x - lo) (a := 2 * M) (by rw [abs_le]; constructor <;> linarith)
    (by linarith))
  have f0 : fl 0 = 0 := by simpa using hf.int 0 (by norm_num)
  have a0 : 0 ≤ fl (x - lo) := by
    rw [← f0]; exact hf.mono _ _ (by linarith)
  generalize fl (x - lo) = v at *
  generalize deltaR fl lo hi nb = δ at *
  have hδ0 : 0 < δ := by linarith
  have q0 : 0 ≤ v / δ := div_nonneg a0 hδ0.le
  have e0 : v / δ * δ = v := by field_simp
  have hU8 : UNIT ≤ 1 / 4096 := by norm_num [UNIT]
  -- the quotient, times the step
  have key : |v / δ * d - (x - lo)| ≤ 9 * (UNIT * M) := by
    have e : v / δ * d - (x - lo) = (v * (d - δ)) / δ + (v - (x - lo)) := by
      field_simp; ring
    have b1 : |v * (d - δ) / δ| ≤ 7 * (UNIT * M) := by
      rw [abs_div, abs_mul, abs_of_nonneg a0, abs_of_pos hδ0, div_le_iff₀ hδ0, abs_sub_comm]
      have hv : v ≤ (2 + 2 / 4096) * M := by
        have : UNIT * M ≤ 1 / 4096 * M := by gcongr
        linarith
      calc v * |δ - d| ≤ ((2 + 2 / 4096) * M) * (3 * UNIT * d) := by gcongr
        _ = (3 * (2 + 2 / 4096)) * (UNIT * M) * d := by ring
        _ ≤ 7 * (UNIT * M) * (d * (999 / 1000)) := by
          have : 0 ≤ UNIT * M * d := by positivity
          linarith
        _ ≤ _ := by gcongr
    rw [e]
    have b1' := abs_le.1 b1
    rw [abs_le]
    constructor <;> linarith
  have key' := abs_le.1 key
  -- rounding of the quotient
  have hq : v / δ ≤ 3 * M / d := by
    rw [le_div_iff₀ hd]
    linarith
  have hMd : 1 / 2 ≤ M / d := by rw [le_div_iff₀ hd]; linarith
  have h5 := abs_le.1 (rnd hf (x := v / δ) (a := 3 * M / d) (by rw [abs_of_nonneg q0]; exact hq) (by
    have : (1 : ℚ) / 2 ^ 1000 ≤ 1 / 2 := by
      apply one_div_le_one_div_of_le (by norm_num)
      calc (2 : ℚ) = 2 ^ 1 := by norm_num
        _ ≤ _ := pow_le_pow_right₀ (by norm_num) (by norm_num)
    have e : 3 * M / d = 3 * (M / d) := by ring
    linarith))
  have p0 : 0 ≤ fl (v / δ) := by rw [← f0]; exact hf.mono _ _ q0
  generalize fl (v / δ) = p at *
  generalize v / δ = q at *
  have e3 : UNIT * (3 * M / d) * d = 3 * (UNIT * M) := by field_simp
  have h6 : p * d ≤ q * d + 3 * (UNIT * M) := by nlinarith
  have h7 : q * d - 3 * (UNIT * M) ≤ p * d := by nlinarith
  have hb0 : 0 ≤ ⌊p⌋ := Int.floor_nonneg.2 p0
  have hf1 := Int.floor_le p
  have hf2 := Int.lt_floor_add_one p
  refine ⟨⌊p⌋.toNat, (Int.toNat_of_nonneg hb0).symm, ?_, ?_⟩
  · have hlt : p < nb := by
      have : p * d < nb * d := by
        have := S.step
        linarith
      exact lt_of_mul_lt_mul_right this hd.le
    have : ⌊p⌋ < (nb : ℤ) := by
      rw [Int.floor_lt]
      exact_mod_cast hlt
    omega
  · have hc : ((⌊p⌋.toNat : ℕ) : ℚ) = (⌊p⌋ : ℚ) := by
      have := Int.toNat_of_nonneg hb0
      exact_mod_cast congrArg (Int.cast : ℤ → ℚ) this
    rw [hc]
    generalize (⌊p⌋ : ℚ) = b at *
    have g1 : b * d ≤ p * d := by gcongr
    have g2 : p * d ≤ (b + 1) * d := by gcongr
    constructor <;> linarith

/-- A weight, from a difference `D` near `c` (times the step `d`). -/
theorem share_near (S : Sizes lo hi d M nb n) (hf : IsRounding fl) (w D t : ℚ)
    (hw : |w - 1 / (n * d)| ≤ 8 * UNIT * (1 / (n * d))) (hD : |D - d * t| ≤ 23 * UNIT * M)
    (ht1 : -(12 * UNIT * M) ≤ d * t) (ht2 : d * t ≤ d + 12 * UNIT * M) :
    |fl (fl (w * fl D) / deltaR fl lo hi nb) - 1 / (n * d) * t| ≤ 86 * UNIT * (M / d) * (1 / (n * d)) := by
  have hd := S.d_pos
  have hdM := S.d_le
  have hM : 0 < M := by linarith
  have ht := S.d_tiny
  have hu := S.unitM
  have hU := UNIT_pos
  have hU8 : UNIT ≤ 1 / 4096 := by norm_num [UNIT]
  obtain ⟨hδ1, hδ2⟩ := S.delta_bounds hf
  have hδ := S.delta_near hf
  have hn : (1 : ℚ) ≤ n := by exact_mod_cast S.n1
  have hw0 : 0 < 1 / ((n : ℚ) * d) := by positivity
  have hw1 : 1 / 2 ^ 41 ≤ 1 / ((n : ℚ) * d) * M := by
    have h40 := S.n_le
    have : 1 / ((n : ℚ) * d) * M = M / d * (1 / n) := by field_simp
    rw [this]
    have hMd : 1 / 2 ≤ M / d := by rw [le_div_iff₀ hd]; linarith
    have h1n : 1 / 2 ^ 40 ≤ 1 / (n : ℚ) := one_div_le_one_div_of_le (by linarith) h40
    calc (1 : ℚ) / 2 ^ 41 = 1 / 2 * (1 / 2 ^ 40) := by norm_num
      _ ≤ _ := by gcongr
  have hw2 : 1 / 2 ^ 1000 ≤ 1 / ((n : ℚ) * d) := by
    have h900 := S.d_large
    have h40 := S.n_le
    apply one_div_le_one_div_of_le (by positivity)
    calc (n : ℚ) * d ≤ 2 ^ 40 * 2 ^ 900 := by gcongr
      _ ≤ 2 ^ 1000 := by
        rw [← pow_add]
        exact pow_le_pow_right₀ (by norm_num) (by norm_num)
  have h41 : (1 : ℚ) / 2 ^ 1000 ≤ 1 / 2 ^ 41 :=
    one_div_le_one_div_of_le (by positivity) (pow_le_pow_right₀ (by norm_num) (by norm_num))
  generalize 1 / ((n : ℚ) * d) = w0 at *
  have hud : UNIT * d ≤ 2 * (UNIT * M) := by
    have := mul_le_mul_of_nonneg_left hdM hU.le
    linarith
  have hD' := abs_le.1 hD
  have h1 := abs_le.1 (rnd hf (x := D) (a := 2 * d) (by rw [abs_le]; constructor <;> linarith) (by linarith))
  have hE : |fl D - d * t| ≤ 27 * (UNIT * M) := by rw [abs_le]; constructor <;> linarith
  generalize fl D = E at *
  have hE' := abs_le.1 hE
  have hE2 : |E| ≤ 2 * d := by rw [abs_le]; constructor <;> linarith
  -- the product
  have h2 : |w * E - w0 * (d * t)| ≤ 59 * (UNIT * M) * w0 := by
    have e : w * E - w0 * (d * t) = (w - w0) * E + w0 * (E - d * t) := by ring
    have a1 : |(w - w0) * E| ≤ 32 * (UNIT * M) * w0 := by
      rw [abs_mul]
      calc |w - w0| * |E| ≤ (8 * UNIT * w0) * (2 * d) := by gcongr
        _ = 16 * (UNIT * d) * w0 := by ring
        _ ≤ 16 * (2 * (UNIT * M)) * w0 := by gcongr
        _ = _ := by ring
    have a2 : |w0 * (E - d * t)| ≤ 27 * (UNIT * M) * w0 := by
      rw [abs_mul, abs_of_pos hw0, mul_comm]
      gcongr
    rw [e]
    have := abs_add_le ((w - w0) * E) (w0 * (E - d * t))
    linarith
  have hUM : 0 < UNIT * M := by positivity
  have hUMw : UNIT * M * w0 ≤ d / 4096 * w0 := by gcongr
  have hdw : d * w0 ≤ 2 * M * w0 := by gcongr
  have hdw0 : 0 < d * w0 := by positivity
  have hU4 : UNIT * M * w0 ≤ M * w0 / 4096 := by
    have : UNIT * (M * w0) ≤ 1 / 4096 * (M * w0) := by gcongr
    linarith
  have hMw : 0 < M * w0 := by positivity
  have b1 : w0 * (d * t) ≤ 2 * (d * w0) := by
    have : w0 * (d * t) ≤ w0 * (d + 12 * UNIT * M) := by gcongr
    linarith
  have b2 : -(d * w0) ≤ w0 * (d * t) := by
    have : w0 * (-(12 * UNIT * M)) ≤ w0 * (d * t) := by gcongr
    linarith
  have h2' := abs_le.1 h2
  have h3 := abs_le.1 (rnd hf (x := w * E) (a := 6 * (M * w0)) (by rw [abs_le]; constructor <;> linarith)
    (by linarith))
  have hF : |fl (w * E) - w0 * (d * t)| ≤ 65 * (UNIT * M) * w0 := by rw [abs_le]; constructor <;> linarith
  generalize fl (w * E) = F at *
  generalize deltaR fl lo hi nb = δ at *
  have hδ0 : 0 < δ := by linarith
  have hF' := abs_le.1 hF
  -- the quotient
  have h4 : |F / δ - w0 * t| ≤ 80 * (UNIT * (M / d)) * w0 := by
    have e : F / δ - w0 * t = ((F - w0 * (d * t)) + w0 * t * (d - δ)) / δ := by
      field_simp; ring
    have ht' : |t| ≤ 2 := by
      rw [abs_le]
      constructor
      · have : (-2) * d ≤ t * d := by linarith
        exact le_of_mul_le_mul_right this hd
      · have : t * d ≤ 2 * d := by linarith
        exact le_of_mul_le_mul_right this hd
    have a2 : |w0 * t * (d - δ)| ≤ 12 * (UNIT * M) * w0 := by
      rw [abs_mul, abs_mul, abs_of_pos hw0, abs_sub_comm]
      calc w0 * |t| * |δ - d| ≤ w0 * 2 * (3 * UNIT * d) := by gcongr
        _ = 6 * (UNIT * d) * w0 := by ring
        _ ≤ 6 * (2 * (UNIT * M)) * w0 := by gcongr
        _ = _ := by ring
    rw [e, abs_div, abs_of_pos hδ0, div_le_iff₀ hδ0]
    calc _ ≤ |F - w0 * (d * t)| + |w0 * t * (d - δ)| := abs_add_le _ _
      _ ≤ 77 * (UNIT * M) * w0 := by linarith
      _ = 77 * (UNIT * (M / d)) * w0 * d := by field_simp
      _ ≤ 80 * (UNIT * (M / d)) * w0 * (d * (999 / 1000)) := by
        have : 0 ≤ UNIT * (M / d) * w0 * d := by positivity
        linarith
      _ ≤ _ := by gcongr
  have h4' := abs_le.1 h4
  have hr : UNIT * (M / d) ≤ 1 / 4096 := by
    rw [← mul_div_assoc, div_le_iff₀ hd]; linarith
  have hr2 : UNIT ≤ 2 * (UNIT * (M / d)) := by
    have hMd : 1 / 2 ≤ M / d := by rw [le_div_iff₀ hd]; linarith
    have := mul_le_mul_of_nonneg_left hMd hU.le
    linarith
  have hrw : UNIT * (M / d) * w0 ≤ 1 / 4096 * w0 := by gcongr
  have hrw2 : UNIT * w0 ≤ 2 * (UNIT * (M / d)) * w0 := by gcongr
  have c1 : w0 * t ≤ 2 * w0 := by
    have : (w0 * t) * d ≤ (2 * w0) * d := by linarith
    exact le_of_mul_le_mul_right this hd
  have c2 : -w0 ≤ w0 * t := by
    have : (-w0) * d ≤ (w0 * t) * d := by linarith
    exact le_of_mul_le_mul_right this hd
  have h5 := abs_le.1 (rnd hf (x := F / δ) (a := 3 * w0) (by rw [abs_le]; constructor <;> linarith)
    (by linarith))
  rw [abs_le]
  constructor <;> linarith

end Sizes

end Verif.KDE
