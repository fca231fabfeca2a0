import Verif.KDE.Rounded2d
import Verif.KDE.LemmasRounded2
import Verif.KDE.Props2

/-!
# Lemmas about linear binning in two dimensions with rounded operations
-/

namespace Verif.KDE

open Verif.Window

theorem UNIT_le : UNIT ≤ 1 / 2 ^ 50 := by norm_num [UNIT]

/-- Relative errors. -/
def Rel (k x y : ℚ) : Prop := |x - y| ≤ k * UNIT * y

theorem Rel.bounds {k x y : ℚ} (h : Rel k x y) : y * (1 - k * UNIT) ≤ x ∧ x ≤ y * (1 + k * UNIT) := by
  have := abs_le.1 h
  constructor <;> linarith

theorem Rel.mul {j k x y x' y' : ℚ} (h : Rel j x y) (h' : Rel k x' y') (hy : 0 ≤ y) (hy' : 0 ≤ y')
    (hj : 0 ≤ j) (hj1 : j ≤ 100) (hk : 0 ≤ k) (hk1 : k ≤ 100) : Rel (j + k + 1) (x * x') (y * y') := by
  unfold Rel at *
  have hU := UNIT_pos
  have hU' := UNIT_le
  have e : x * x' - y * y' = (x - y) * (x' - y') + (x - y) * y' + y * (x' - y') := by ring
  have hp : 0 ≤ y * y' := mul_nonneg hy hy'
  have a1 : |(x - y) * (x' - y')| ≤ UNIT * (y * y') := by
    rw [abs_mul]
    calc |x - y| * |x' - y'| ≤ (j * UNIT * y) * (k * UNIT * y') := by gcongr
      _ = (j * k * UNIT) * (UNIT * (y * y')) := by ring
      _ ≤ 1 * (UNIT * (y * y')) := by
        gcongr
        calc j * k * UNIT ≤ 100 * 100 * (1 / 2 ^ 50) := by gcongr
          _ ≤ 1 := by norm_num
      _ = _ := one_mul _
  have a2 : |(x - y) * y'| ≤ j * (UNIT * (y * y')) := by
    rw [abs_mul, abs_of_nonneg hy']
    calc |x - y| * y' ≤ (j * UNIT * y) * y' := by gcongr
      _ = _ := by ring
  have a3 : |y * (x' - y')| ≤ k * (UNIT * (y * y')) := by
    rw [abs_mul, abs_of_nonneg hy]
    calc y * |x' - y'| ≤ y * (k * UNIT * y') := by gcongr
      _ = _ := by ring
  rw [e]
  have b1 := abs_add_le ((x - y) * (x' - y') + (x - y) * y') (y * (x' - y'))
  have b2 := abs_add_le ((x - y) * (x' - y')) ((x - y) * y')
  linarith

theorem Rel.inv {k x y : ℚ} (h : Rel k x y) (hy : 0 < y) (hk : 0 ≤ k) (hk1 : k ≤ 100) : Rel (k + 1) (1 / x) (1 / y) := by
  obtain ⟨h1, h2⟩ := h.bounds
  unfold Rel at *
  have hU := UNIT_pos
  have hU' := UNIT_le
  have hkU : k * UNIT ≤ 1 / 2 ^ 40 := by
    calc k * UNIT ≤ 100 * (1 / 2 ^ 50) := by gcongr
      _ ≤ _ := by norm_num
  have hx : 0 < x := lt_of_lt_of_le (mul_pos hy (by norm_num at hkU ⊢; linarith)) h1
  have e : 1 / x - 1 / y = (y - x) / x * (1 / y) := by field_simp
  have hw : 0 < 1 / y := by positivity
  rw [e, abs_mul, abs_of_pos hw, abs_div, abs_of_pos hx]
  have : |y - x| / x ≤ (k + 1) * UNIT := by
    rw [div_le_iff₀ hx, abs_sub_comm]
    have h3 : (k + 1) * UNIT * (y * (1 - k * UNIT)) ≤ (k + 1) * UNIT * x := by gcongr
    have h4 : (k + 1) * k * UNIT ≤ 1 := by
      calc (k + 1) * k * UNIT ≤ (100 + 1) * 100 * (1 / 2 ^ 50) := by gcongr
        _ ≤ 1 := by norm_num
    have h5 : (k + 1) * k * UNIT * (UNIT * y) ≤ 1 * (UNIT * y) := by
      gcongr
    linarith
  gcongr

theorem Rel.fl {fl : ℚ → ℚ} (hf : IsRounding fl) {k x y : ℚ} (h : Rel k x y) (hy : 1 / 2 ^ 1000 ≤ y) (hk : 0 ≤ k)
    (hk1 : k ≤ 100) : Rel (k + 2) (fl x) y := by
  have hy0 : 0 < y := lt_of_lt_of_le (by positivity) hy
  obtain ⟨h1, h2⟩ := h.bounds
  unfold Rel at *
  have hkU : k * UNIT ≤ 1 / 2 := by
    have := UNIT_pos
    calc k * UNIT ≤ 100 * (1 / 2 ^ 50) := by gcongr; exact UNIT_le
      _ ≤ _ := by norm_num
  have hyk : y * (k * UNIT) ≤ y * (1 / 2) := by gcongr
  have h3 := rnd hf (x := x) (a := 2 * y) (by rw [abs_le]; constructor <;> linarith) (by linarith)
  have e : fl x - y = (fl x - x) + (x - y) := by ring
  rw [e]
  have := abs_add_le (fl x - x) (x - y)
  linarith

/-- A product of three factors. -/
theorem term_near {fl : ℚ → ℚ} (hf : IsRounding fl) (W w a α b β ρ σ : ℚ) (hw : 1 / 2 ^ 1000 ≤ w) (hW : Rel 15 W w)
    (ha : |a - α| ≤ 44 * ρ) (hα : |α| ≤ 1 + 12 * ρ) (hb : |b - β| ≤ 44 * σ) (hβ : |β| ≤ 1 + 12 * σ)
    (hρ : ρ ≤ 1 / 4096) (hσ : σ ≤ 1 / 4096) (hUρ : UNIT ≤ 2 * ρ) (hUσ : UNIT ≤ 2 * σ) :
    |fl (fl (W * a) * b) - w * (α * β)| ≤ 84 * (ρ + σ) * w := by
  have hU := UNIT_pos
  have hw0 : 0 < w := lt_of_lt_of_le (by positivity) hw
  have hρ0 : 0 < ρ := by linarith
  have hσ0 : 0 < σ := by linarith
  have ha2 : |a| ≤ 102 / 100 := by
    have : |a| ≤ |a - α| + |α| := by simpa using abs_add_le (a - α) α
    linarith
  have hb2 : |b| ≤ 102 / 100 := by
    have : |b| ≤ |b - β| + |β| := by simpa using abs_add_le (b - β) β
    linarith
  have hUw : UNIT * w ≤ 2 * (ρ * w) := by nlinarith
  have hUw' : UNIT * w ≤ 2 * (σ * w) := by nlinarith
  have hρw : ρ * w ≤ 1 / 4096 * w := by gcongr
  have hσw : σ * w ≤ 1 / 4096 * w := by gcongr
  have hρw0 : 0 < ρ * w := by positivity
  have hσw0 : 0 < σ * w := by positivity
  unfold Rel at hW
  have h1 : |W * a - w * α| ≤ 75 * (ρ * w) := by
    have e : W * a - w * α = (W - w) * a + w * (a - α) := by ring
    have a1 : |(W - w) * a| ≤ 153 / 10 * (UNIT * w) := by
      rw [abs_mul]
      calc |W - w| * |a| ≤ (15 * UNIT * w) * (102 / 100) := by gcongr
        _ = _ := by ring
    have a2 : |w * (a - α)| ≤ 44 * (ρ * w) := by
      rw [abs_mul, abs_of_pos hw0]
      calc w * |a - α| ≤ w * (44 * ρ) := by gcongr
        _ = _ := by ring
    rw [e]
    have := abs_add_le ((W - w) * a) (w * (a - α))
    linarith
  have hwα : |w * α| ≤ w + 12 * (ρ * w) := by
    rw [abs_mul, abs_of_pos hw0]
    calc w * |α| ≤ w * (1 + 12 * ρ) := by gcongr
      _ = _ := by ring
  have h1' := abs_le.1 h1
  have hwα' := abs_le.1 hwα
  have h2 := abs_le.1 (rnd hf (x := W * a) (a := 2 * w) (by rw [abs_le]; constructor <;> linarith) (by linarith))
  have hF : |fl (W * a) - w * α| ≤ 79 * (ρ * w) := by rw [abs_le]; constructor <;> linarith
  generalize fl (W * a) = F at *
  have h3 : |F * b - w * (α * β)| ≤ 81 * (ρ * w) + 45 * (σ * w) := by
    have e : F * b - w * (α * β) = (F - w * α) * b + w * α * (b - β) := by ring
    have a1 : |(F - w * α) * b| ≤ 81 * (ρ * w) := by
      rw [abs_mul]
      calc |F - w * α| * |b| ≤ (79 * (ρ * w)) * (102 / 100) := by gcongr
        _ ≤ _ := by linarith
    have a2 : |w * α * (b - β)| ≤ 45 * (σ * w) := by
      rw [abs_mul]
      calc |w * α| * |b - β| ≤ (101 / 100 * w) * (44 * σ) := by gcongr; linarith
        _ = (101 / 100 * 44) * (σ * w) := by ring
        _ ≤ _ := by linarith
    rw [e]
    have := abs_add_le ((F - w * α) * b) (w * α * (b - β))
    linarith
  have hwαβ : |w * (α * β)| ≤ 11 / 10 * w := by
    rw [← mul_assoc, abs_mul]
    calc |w * α| * |β| ≤ (101 / 100 * w) * (101 / 100) := by gcongr <;> linarith
      _ ≤ _ := by linarith
  have h3' := abs_le.1 h3
  have hwαβ' := abs_le.1 hwαβ
  have h4 := abs_le.1 (rnd hf (x := F * b) (a := 2 * w) (by rw [abs_le]; constructor <;> linarith) (by linarith))
  rw [abs_le]
  constructor <;> linarith

namespace Sizes

variable {lo hi d M : ℚ} {nb n : ℕ} {fl : ℚ → ℚ}

theorem rho_le (S : Sizes lo hi d M nb n) : UNIT * (M / d) ≤ 1 / 4096 := by
  have := S.unitM
  rw [← mul_div_assoc, div_le_iff₀ S.d_pos]; linarith

theorem unit_rho (S : Sizes lo hi d M nb n) : UNIT ≤ 2 * (UNIT * (M / d)) := by
  have hMd : 1 / 2 ≤ M / d := by
    rw [le_div_iff₀ S.d_pos]
    have := S.d_le
    linarith
  have := mul_le_mul_of_nonneg_left hMd UNIT_pos.le
  linarith

/-- The share of a coordinate. -/
theorem share2_near (S : Sizes lo hi d M nb n) (hf : IsRounding fl) (D t : ℚ) (hD : |D - d * t| ≤ 23 * UNIT * M)
    (ht1 : -(12 * UNIT * M) ≤ d * t) (ht2 : d * t ≤ d + 12 * UNIT * M) :
    |fl (fl D / deltaR fl lo hi nb) - t| ≤ 44 * (UNIT * (M / d)) := by
  have hd := S.d_pos
  have hdM := S.d_le
  have hM : 0 < M := by linarith
  have ht := S.d_tiny
  have hu := S.unitM
  have hU := UNIT_pos
  obtain ⟨hδ1, hδ2⟩ := S.delta_bounds hf
  have hδ := S.delta_near hf
  have hr := S.rho_le
  have hr2 := S.unit_rho
  have hud : UNIT * d ≤ 2 * (UNIT * M) := by
    have := mul_le_mul_of_nonneg_left hdM hU.le
    linarith
  have hD' := abs_le.1 hD
  have h1 := abs_le.1 (rnd hf (x := D) (a := 2 * d) (by rw [abs_le]; constructor <;> linarith) (by linarith))
  have hE : |fl D - d * t| ≤ 27 * (UNIT * M) := by rw [abs_le]; constructor <;> linarith
  generalize fl D = E at *
  generalize deltaR fl lo hi nb = δ at *
  have hδ0 : 0 < δ := by linarith
  have ht' : |t| ≤ 11 / 10 := by
    rw [abs_le]
    constructor
    · have : (-(11 / 10)) * d ≤ t * d := by linarith
      exact le_of_mul_le_mul_right this hd
    · have : t * d ≤ 11 / 10 * d := by linarith
      exact le_of_mul_le_mul_right this hd
  have h4 : |E / δ - t| ≤ 40 * (UNIT * (M / d)) := by
    have e : E / δ - t = ((E - d * t) + t * (d - δ)) / δ := by
      field_simp; ring
    have a2 : |t * (d - δ)| ≤ 7 * (UNIT * M) := by
      rw [abs_mul, abs_sub_comm]
      calc |t| * |δ - d| ≤ 11 / 10 * (3 * UNIT * d) := by gcongr
        _ = 33 / 10 * (UNIT * d) := by ring
        _ ≤ 33 / 10 * (2 * (UNIT * M)) := by gcongr
        _ ≤ _ := by
          have : 0 < UNIT * M := by positivity
          linarith
    rw [e, abs_div, abs_of_pos hδ0, div_le_iff₀ hδ0]
    calc _ ≤ |E - d * t| + |t * (d - δ)| := abs_add_le _ _
      _ ≤ 34 * (UNIT * M) := by linarith
      _ = 34 * (UNIT * (M / d)) * d := by field_simp
      _ ≤ 40 * (UNIT * (M / d)) * (d * (999 / 1000)) := by
        have : 0 ≤ UNIT * (M / d) * d := by positivity
        linarith
      _ ≤ _ := by gcongr
  have h4' := abs_le.1 h4
  have ht'' := abs_le.1 ht'
  have h5 := abs_le.1 (rnd hf (x := E / δ) (a := 2) (by rw [abs_le]; constructor <;> linarith) (by
    have : (1 : ℚ) / 2 ^ 1000 ≤ 1 / 1 := one_div_le_one_div_of_le (by norm_num) (one_le_pow₀ (by norm_num))
    linarith))
  rw [abs_le]
  constructor <;> linarith

/-- A coordinate of a sample: its bin and its shares. -/
theorem coord (S : Sizes lo hi d M nb n) (hf : IsRounding fl) (x : ℚ) (h0 : lo ≤ x) (h1 : x ≤ hi) :
    ∃ (b : ℕ) (t : ℚ), ⌊fl (fl (x - lo) / deltaR fl lo hi nb)⌋ = b ∧ b + 1 ≤ nb ∧
      |fl (fl (fl (lo + fl (((b + 1 : ℕ) : ℚ) * deltaR fl lo hi nb)) - x) / deltaR fl lo hi nb) - (1 - t)| ≤
        44 * (UNIT * (M / d)) ∧
      |fl (fl (x - fl (lo + fl ((b : ℚ) * deltaR fl lo hi nb))) / deltaR fl lo hi nb) - t| ≤ 44 * (UNIT * (M / d)) ∧
      -(12 * (UNIT * (M / d))) ≤ t ∧ t ≤ 1 + 12 * (UNIT * (M / d)) ∧
      ∀ i : ℕ, (x - (lo + i * d)) / d = t + b - i := by
  have hd := S.d_pos
  obtain ⟨b, hb, hbn, hlo', hhi'⟩ := S.bin_near hf x h0 h1
  have g1 := S.grid_near hf (b + 1) (by omega)
  have g0 := S.grid_near hf b (by omega)
  obtain ⟨t, ht⟩ : ∃ t, t = (x - lo) / d - b := ⟨_, rfl⟩
  have hdt : d * t = x - lo - b * d := by rw [ht]; field_simp
  refine ⟨b, t, hb, hbn, ?_, ?_, ?_, ?_, fun i => by rw [ht]; field_simp; ring⟩
  · apply S.share2_near hf
    · have : fl (lo + fl (((b + 1 : ℕ) : ℚ) * deltaR fl lo hi nb)) - x - d * (1 - t) =
          fl (lo + fl (((b + 1 : ℕ) : ℚ) * deltaR fl lo hi nb)) - (lo + ((b + 1 : ℕ) : ℚ) * d) := by
        rw [mul_sub, hdt]; push_cast; ring
      rw [this]; exact g1
    · rw [mul_sub, hdt]; linarith
    · rw [mul_sub, hdt]; linarith
  · apply S.share2_near hf
    · have : x - fl (lo + fl ((b : ℚ) * deltaR fl lo hi nb)) - d * t =
          -(fl (lo + fl ((b : ℚ) * deltaR fl lo hi nb)) - (lo + b * d)) := by rw [hdt]; ring
      rw [this, abs_neg]; exact g0
    · rw [hdt]; linarith
    · rw [hdt]; linarith
  · have : (-(12 * (UNIT * (M / d)))) * d ≤ t * d := by
      have e : -(12 * (UNIT * (M / d))) * d = -(12 * UNIT * M) := by field_simp
      rw [e, mul_comm t, hdt]; linarith
    exact le_of_mul_le_mul_right this hd
  · have : t * d ≤ (1 + 12 * (UNIT * (M / d))) * d := by
      have e : (1 + 12 * (UNIT * (M / d))) * d = d + 12 * UNIT * M := by field_simp
      rw [e, mul_comm t, hdt]; linarith
    exact le_of_mul_le_mul_right this hd

end Sizes

/-- Sizes for two coordinates: products of steps are far from the smallest and greatest floats. -/
structure Sizes2 (lx ly hx hy dx dy Mx My : ℚ) (nb n : ℕ) : Prop where
  x : Sizes lx hx dx Mx nb n
  y : Sizes ly hy dy My nb n
  x_small : 1 / 2 ^ 400 ≤ dx
  x_large : dx ≤ 2 ^ 400
  y_small : 1 / 2 ^ 400 ≤ dy
  y_large : dy ≤ 2 ^ 400

namespace Sizes2

variable {lx ly hx hy dx dy Mx My : ℚ} {nb n : ℕ} {fl : ℚ → ℚ}

theorem area (S : Sizes2 lx ly hx hy dx dy Mx My nb n) :
    0 < dx * dy ∧ 1 / 2 ^ 1000 ≤ dx * dy ∧ 1 / 2 ^ 1000 ≤ 1 / (n * dx * dy) ∧ 1 / (n * dx * dy) ≤ 1 / (dx * dy) := by
  have h1 := S.x.d_pos
  have h2 := S.y.d_pos
  have hn : (1 : ℚ) ≤ n := by exact_mod_cast S.x.n1
  refine ⟨by positivity, ?_, ?_, ?_⟩
  · calc (1 : ℚ) / 2 ^ 1000 ≤ 1 / 2 ^ 400 * (1 / 2 ^ 400) := by
          rw [div_mul_div_comm, one_mul, ← pow_add]
          exact one_div_le_one_div_of_le (by positivity) (pow_le_pow_right₀ (by norm_num) (by norm_num))
      _ ≤ dx * dy := mul_le_mul S.x_small S.y_small (by positivity) h1.le
  · apply one_div_le_one_div_of_le (by positivity)
    calc (n : ℚ) * dx * dy ≤ 2 ^ 40 * 2 ^ 400 * 2 ^ 400 := by
          have := S.x.n_le
          have := S.x_large
          have := S.y_large
          gcongr
      _ ≤ 2 ^ 1000 := by
        rw [← pow_add, ← pow_add]
        exact pow_le_pow_right₀ (by norm_num) (by norm_num)
  · apply one_div_le_one_div_of_le (by positivity)
    rw [mul_assoc]
    have : 0 < dx * dy := by positivity
    nlinarith

/-- The common weight. -/
theorem weight_near (S : Sizes2 lx ly hx hy dx dy Mx My nb n) (hf : IsRounding fl) :
    Rel 15 (fl (1 / fl (fl ((n : ℚ) * deltaR fl lx hx nb) * deltaR fl ly hy nb))) (1 / (n * dx * dy)) := by
  have h1 := S.x.d_pos
  have h2 := S.y.d_pos
  have hn : (1 : ℚ) ≤ n := by exact_mod_cast S.x.n1
  obtain ⟨a0, a1, a2, -⟩ := S.area
  have ha : dx ≤ (n : ℚ) * dx := by nlinarith
  have hb : dx * dy ≤ (n : ℚ) * dx * dy := by gcongr
  have r1 : Rel 3 ((n : ℚ) * deltaR fl lx hx nb) (n * dx) := by
    unfold Rel
    rw [← mul_sub, abs_mul, abs_of_nonneg (by linarith)]
    calc (n : ℚ) * |deltaR fl lx hx nb - dx| ≤ n * (3 * UNIT * dx) := by
          gcongr; exact S.x.delta_near hf
      _ = _ := by ring
  have ht := S.x.d_tiny
  have r2 := r1.fl hf (by linarith) (by norm_num) (by norm_num)
  have r3 := r2.mul (S.y.delta_near hf) (by positivity) h2.le (by norm_num) (by norm_num) (by norm_num) (by norm_num)
  have r4 := r3.fl hf (a1.trans hb) (by norm_num) (by norm_num)
  have r5 := r4.inv (by positivity) (by norm_num) (by norm_num)
  have r6 := r5.fl hf a2 (by norm_num) (by norm_num)
  have e : (3 : ℚ) + 2 + 3 + 1 + 2 + 1 + 2 = 14 := by norm_num
  rw [e] at r6
  unfold Rel at *
  refine r6.trans ?_
  have := UNIT_pos
  gcongr
  norm_num

end Sizes2

theorem addAt2R_spec (fl : ℚ → ℚ) (n m : ℕ) (bins : List (List ℚ)) (hs : Shape n m bins) (b c : ℕ) (hb : b < n)
    (hc : c < m) (w : ℚ) :
    ∃ r, addAt2R fl bins (b : ℤ) (c : ℤ) w = .ok r ∧ Shape n m r ∧
      ∀ i < n, ∀ j < m, get2 r i j = if i = b ∧ j = c then fl (get2 bins i j + w) else get2 bins i j := by
  obtain ⟨hl, hr⟩ := hs
  have hbl : b < bins.length := by omega
  have hrow : (bins[b]).length = m := hr _ (List.getElem_mem hbl)
  obtain ⟨row', h1, h2, h3⟩ := addAtR_spec fl bins[b] c w (by omega)
  refine ⟨bins.set b row', ?_, ⟨by simp [hl], fun row hm => ?_⟩, fun i hi j hj => ?_⟩
  · unfold addAt2R pyIndex
    rw [if_pos (by omega), if_pos (by omega)]
    simp only [Int.toNat_natCast, List.getElem?_eq_getElem hbl, h1]
    rfl
  · rcases List.mem_or_eq_of_mem_set hm with h | h
    · exact hr row h
    · rw [h, h2, hrow]
  · unfold get2
    rw [List.getD_eq_getElem?_getD (l := bins.set b row'), List.getElem?_set]
    by_cases hib : b = i
    · subst hib
      rw [if_pos rfl, if_pos hbl, Option.getD_some, h3 j (by omega),
        List.getD_eq_getElem?_getD (l := bins), List.getElem?_eq_getElem hbl, Option.getD_some]
      simp
    · have h' : ¬ (i = b ∧ j = c) := fun h => hib h.1.symm
      rw [if_neg hib, if_neg h', List.getD_eq_getElem?_getD (l := bins)]

theorem sum_pair (f : ℕ → ℚ) (N b : ℕ) (hb : b + 1 < N) (h : ∀ i, i ≠ b → i ≠ b + 1 → f i = 0) :
    ∑ i ∈ Finset.range N, f i = f b + f (b + 1) := by
  have : ∀ i ∈ Finset.range N, f i = (if i = b then f b else 0) + if i = b + 1 then f (b + 1) else 0 := by
    intro i _
    by_cases c1 : i = b
    · subst c1; simp
    · by_cases c2 : i = b + 1
      · subst c2; simp
      · simp [c1, c2, h i c1 c2]
  rw [Finset.sum_congr rfl this, Finset.sum_add_distrib, Finset.sum_ite_eq', Finset.sum_ite_eq',
    if_pos (by simp; omega), if_pos (by simp; omega)]

/-- The sum of the first bins. -/
def total2 (bins : List (List ℚ)) (N : ℕ) : ℚ :=
  ∑ i ∈ Finset.range N, ∑ j ∈ Finset.range N, get2 bins i j

/-- The exact share of bin `i`. -/
def cell (t : ℚ) (b i : ℕ) : ℚ := if i = b then 1 - t else if i = b + 1 then t else 0

theorem cell_abs (t e : ℚ) (b i : ℕ) (he : 0 ≤ e) (h0 : -e ≤ t) (h1 : t ≤ 1 + e) : |cell t b i| ≤ 1 + e := by
  unfold cell
  rw [abs_le]
  split_ifs <;> constructor <;> linarith

theorem cell_hat (t u e e' : ℚ) (b c i j : ℕ) (he : 0 ≤ e) (he1 : e ≤ 1 / 100) (h0 : -e ≤ t) (h1 : t ≤ 1 + e)
    (he' : 0 ≤ e') (he1' : e' ≤ 1 / 100) (h0' : -e' ≤ u) (h1' : u ≤ 1 + e') :
    |cell t b i * cell u c j - hat (t + b - i) * hat (u + c - j)| ≤ 25 / 12 * (e + e') := by
  have a1 := hat_cell t e i b he (by linarith) h0 h1
  have a2 := hat_cell u e' j c he' (by linarith) h0' h1'
  have a3 := cell_abs u e' c j he' h0' h1'
  have a4 := hat_nonneg (t + b - i)
  have a5 := hat_le (t + b - i)
  change |cell t b i - _| ≤ _ at a1
  change |cell u c j - _| ≤ _ at a2
  generalize cell t b i = A at *
  generalize cell u c j = B at *
  generalize hat (t + b - i) = H at *
  generalize hat (u + c - j) = G at *
  have hsplit : A * B - H * G = (A - H) * B + H * (B - G) := by ring
  have b1 : |(A - H) * B| ≤ 202 / 100 * e := by
    rw [abs_mul]
    calc |A - H| * |B| ≤ (2 * e) * (101 / 100) := by gcongr; linarith
      _ = _ := by ring
  have b2 : |H * (B - G)| ≤ 2 * e' := by
    rw [abs_mul, abs_of_nonneg a4]
    calc H * |B - G| ≤ 1 * (2 * e') := by gcongr
      _ = _ := by ring
  rw [hsplit]
  have := abs_add_le ((A - H) * B) (H * (B - G))
  linarith

namespace Sizes2

variable {lx ly hx hy dx dy Mx My : ℚ} {nb n : ℕ} {fl : ℚ → ℚ}

/-- A sample added to bins. -/
theorem spread_near (S : Sizes2 lx ly hx hy dx dy Mx My nb n) (hf : IsRounding fl) (W : ℚ) (s : ℚ × ℚ)
    (hW : Rel 15 W (1 / (n * dx * dy))) (h0 : lx ≤ s.1) (h1 : s.1 ≤ hx) (h2 : ly ≤ s.2) (h3 : s.2 ≤ hy)
    (bins : List (List ℚ)) (hs : Shape (nb + 1) (nb + 1) bins)
    (hbins : ∀ i < nb + 1, ∀ j < nb + 1, |get2 bins i j| ≤ 2 * (1 / (dx * dy))) :
    ∃ r, spread2R fl (gridR fl lx (deltaR fl lx hx nb) nb) (gridR fl ly (deltaR fl ly hy nb) nb) (deltaR fl lx hx nb)
        (deltaR fl ly hy nb) W bins s ⌊fl (fl (s.1 - lx) / deltaR fl lx hx nb)⌋
        ⌊fl (fl (s.2 - ly) / deltaR fl ly hy nb)⌋ = .ok r ∧ Shape (nb + 1) (nb + 1) r ∧
      (∀ i < nb + 1, ∀ j < nb + 1, |get2 r i j - get2 bins i j -
          1 / (n * dx * dy) * (hat ((s.1 - (lx + i * dx)) / dx) * hat ((s.2 - (ly + j * dy)) / dy))| ≤
        109 * (UNIT * (Mx / dx) + UNIT * (My / dy)) * (1 / (n * dx * dy)) + 4 * UNIT * (1 / (dx * dy))) ∧
      |total2 r (nb + 1) - total2 bins (nb + 1) - 1 / (n * dx * dy)| ≤
        336 * (UNIT * (Mx / dx) + UNIT * (My / dy)) * (1 / (n * dx * dy)) + 16 * UNIT * (1 / (dx * dy)) := by
  have hU := UNIT_pos
  obtain ⟨p0, p1, p2, p3⟩ := S.area
  obtain ⟨b, t, hb, hbn, wl, wr, t0, t1, hhx⟩ := S.x.coord hf s.1 h0 h1
  obtain ⟨c, u, hc, hcn, wb, wu, u0, u1, hhy⟩ := S.y.coord hf s.2 h2 h3
  have hρ := S.x.rho_le
  have hσ := S.y.rho_le
  have hρ2 := S.x.unit_rho
  have hσ2 := S.y.unit_rho
  unfold spread2R
  rw [hb, hc]
  have eb : ((b : ℤ) + 1) = ((b + 1 : ℕ) : ℤ) := by push_cast; rfl
  have ec : ((c : ℤ) + 1) = ((c + 1 : ℕ) : ℤ) := by push_cast; rfl
  rw [eb, ec, pyGet_gridR fl lx _ nb (b + 1) (by omega), pyGet_gridR fl lx _ nb b (by omega),
    pyGet_gridR fl ly _ nb (c + 1) (by omega), pyGet_gridR fl ly _ nb c (by omega)]
  simp only [bind, Except.bind]
  generalize fl (fl (fl (lx + fl (((b + 1 : ℕ) : ℚ) * deltaR fl lx hx nb)) - s.1) / deltaR fl lx hx nb) = L at *
  generalize fl (fl (s.1 - fl (lx + fl ((b : ℚ) * deltaR fl lx hx nb))) / deltaR fl lx hx nb) = R at *
  generalize fl (fl (fl (ly + fl (((c + 1 : ℕ) : ℚ) * deltaR fl ly hy nb)) - s.2) / deltaR fl ly hy nb) = B at *
  generalize fl (fl (s.2 - fl (ly + fl ((c : ℚ) * deltaR fl ly hy nb))) / deltaR fl ly hy nb) = Up at *
  obtain ⟨r1, e1, s1, g1⟩ := addAt2R_spec fl _ _ bins hs b c (by omega) (by omega) (fl (fl (W * L) * B))
  obtain ⟨r2, e2, s2, g2⟩ := addAt2R_spec fl _ _ r1 s1 b (c + 1) (by omega) (by omega) (fl (fl (W * L) * Up))
  obtain ⟨r3, e3, s3, g3⟩ := addAt2R_spec fl _ _ r2 s2 (b + 1) c (by omega) (by omega) (fl (fl (W * R) * B))
  obtain ⟨r4, e4, s4, g4⟩ := addAt2R_spec fl _ _ r3 s3 (b + 1) (c + 1) (by omega) (by omega) (fl (fl (W * R) * Up))
  have hD1 : 1 / 2 ^ 1000 ≤ 1 / (dx * dy) := p2.trans p3
  generalize UNIT * (Mx / dx) = ρ at *
  generalize UNIT * (My / dy) = σ at *
  generalize 1 / (n * dx * dy) = w at *
  generalize 1 / (dx * dy) = D at *
  have hw0 : 0 < w := lt_of_lt_of_le (by positivity) p2
  have hρ0 : 0 < ρ := by linarith
  have hσ0 : 0 < σ := by linarith
  -- the terms
  obtain ⟨a, ha⟩ : ∃ a : ℕ → ℚ, a = fun i => if i = b then L else R := ⟨_, rfl⟩
  obtain ⟨f, hfd⟩ : ∃ f : ℕ → ℚ, f = fun j => if j = c then B else Up := ⟨_, rfl⟩
  have hval : ∀ i < nb + 1, ∀ j < nb + 1, get2 r4 i j =
      if (i = b ∨ i = b + 1) ∧ (j = c ∨ j = c + 1) then fl (get2 bins i j + fl (fl (W * a i) * f j))
      else get2 bins i j := by
    intro i hi j hj
    rw [g4 i hi j hj, g3 i hi j hj, g2 i hi j hj, g1 i hi j hj, ha, hfd]
    by_cases c1 : i = b
    · have c1' : ¬ i = b + 1 := by omega
      by_cases c2 : j = c
      · have c2' : ¬ j = c + 1 := by omega
        simp [c1, c2]
      · by_cases c3 : j = c + 1
        · simp [c1, c3]
        · simp [c1, c2, c3]
    · by_cases c4 : i = b + 1
      · by_cases c2 : j = c
        · simp [c4, c2]
        · by_cases c3 : j = c + 1
          · simp [c4, c3]
          · simp [c2, c3]
      · simp [c1, c4]
  have hsmall : 84 * (ρ + σ) * w ≤ 1 / 10 * w := by
    gcongr
    linarith
  have hterm : ∀ i j, (i = b ∨ i = b + 1) → (j = c ∨ j = c + 1) →
      |fl (fl (W * a i) * f j) - w * (cell t b i * cell u c j)| ≤ 84 * (ρ + σ) * w ∧
        |fl (fl (W * a i) * f j)| ≤ 2 * D := by
    intro i j hi hj
    have hα := cell_abs t (12 * ρ) b i (by linarith) t0 t1
    have hβ := cell_abs u (12 * σ) c j (by linarith) u0 u1
    have h := term_near hf W w (a i) (cell t b i) (f j) (cell u c j) ρ σ p2 hW
      (by
        rw [ha]; unfold cell
        rcases hi with rfl | rfl
        · simpa using wl
        · simpa using wr) hα
      (by
        rw [hfd]; unfold cell
        rcases hj with rfl | rfl
        · simpa using wb
        · simpa using wu) hβ hρ hσ hρ2 hσ2
    refine ⟨h, ?_⟩
    have h' : |w * (cell t b i * cell u c j)| ≤ 11 / 10 * w := by
      rw [abs_mul, abs_mul, abs_of_pos hw0]
      calc w * (|cell t b i| * |cell u c j|) ≤ w * ((101 / 100) * (101 / 100)) := by gcongr <;> linarith
        _ ≤ _ := by linarith
    have := abs_le.1 h
    have := abs_le.1 h'
    rw [abs_le]; constructor <;> linarith
  have hadd : ∀ i < nb + 1, ∀ j < nb + 1, ∀ y, |y| ≤ 2 * D →
      |fl (get2 bins i j + y) - (get2 bins i j + y)| ≤ 4 * UNIT * D := by
    intro i hi j hj y hy
    have := rnd hf (x := get2 bins i j + y) (a := 4 * D)
      ((abs_add_le _ _).trans (by linarith [hbins i hi j hj])) (by linarith)
    linarith
  have hdiff : ∀ i < nb + 1, ∀ j < nb + 1, |get2 r4 i j - get2 bins i j - w * (cell t b i * cell u c j)| ≤
      84 * (ρ + σ) * w + 4 * UNIT * D := by
    intro i hi j hj
    rw [hval i hi j hj]
    split_ifs with hcell
    · obtain ⟨k1, k2⟩ := hterm i j hcell.1 hcell.2
      have k1' := abs_le.1 k1
      have := abs_le.1 (hadd i hi j hj _ k2)
      rw [abs_le]; constructor <;> linarith
    · have : cell t b i * cell u c j = 0 := by
        unfold cell
        by_cases k : i = b ∨ i = b + 1
        · have : ¬ (j = c ∨ j = c + 1) := fun h => hcell ⟨k, h⟩
          push Not at this
          simp [this.1, this.2]
        · push Not at k
          simp [k.1, k.2]
      rw [this, sub_self, mul_zero, sub_zero, abs_zero]
      have : 0 < D := lt_of_lt_of_le hw0 p3
      positivity
  refine ⟨r4, ?_, s4, fun i hi j hj => ?_, ?_⟩
  · rw [e1]
    simp only []
    rw [e2]
    simp only []
    rw [e3]
    simp only []
    rw [e4]
  · rw [hhx i, hhy j]
    have k1 := cell_hat t u (12 * ρ) (12 * σ) b c i j (by linarith) (by linarith) t0 t1 (by linarith) (by linarith)
      u0 u1
    have k2 : |w * (cell t b i * cell u c j) - w * (hat (t + b - i) * hat (u + c - j))| ≤ 25 * (ρ + σ) * w := by
      rw [← mul_sub, abs_mul, abs_of_pos hw0]
      calc _ ≤ w * (25 / 12 * (12 * ρ + 12 * σ)) := by gcongr
        _ = _ := by ring
    have k2' := abs_le.1 k2
    have k3 := abs_le.1 (hdiff i hi j hj)
    rw [abs_le]; constructor <;> linarith
  · have hsum : total2 r4 (nb + 1) - total2 bins (nb + 1) =
        ((get2 r4 b c - get2 bins b c) + (get2 r4 b (c + 1) - get2 bins b (c + 1))) +
        ((get2 r4 (b + 1) c - get2 bins (b + 1) c) + (get2 r4 (b + 1) (c + 1) - get2 bins (b + 1) (c + 1))) := by
      have hz : ∀ i < nb + 1, ∀ j < nb + 1, ¬ ((i = b ∨ i = b + 1) ∧ (j = c ∨ j = c + 1)) →
          get2 r4 i j - get2 bins i j = 0 := by
        intro i hi j hj h
        rw [hval i hi j hj, if_neg h, sub_self]
      have hrow : ∀ i ∈ Finset.range (nb + 1), ∑ j ∈ Finset.range (nb + 1), (get2 r4 i j - get2 bins i j) =
          if i = b ∨ i = b + 1 then
            (get2 r4 i c - get2 bins i c) + (get2 r4 i (c + 1) - get2 bins i (c + 1)) else 0 := by
        intro i hi
        have hi' := Finset.mem_range.1 hi
        have k := sum_pair (fun j => if j < nb + 1 then get2 r4 i j - get2 bins i j else 0) (nb + 1) c (by omega) (by
          intro j h1 h2
          by_cases hj : j < nb + 1
          · simp only [if_pos hj]
            exact hz i hi' j hj (by omega)
          · simp only [if_neg hj])
        have e : ∑ j ∈ Finset.range (nb + 1), (get2 r4 i j - get2 bins i j) =
            ∑ j ∈ Finset.range (nb + 1), if j < nb + 1 then get2 r4 i j - get2 bins i j else 0 :=
          Finset.sum_congr rfl fun j hj => by rw [if_pos (Finset.mem_range.1 hj)]
        rw [e, k, if_pos (by omega), if_pos (by omega)]
        split_ifs with hh
        · rfl
        · rw [hz i hi' c (by omega) (by omega), hz i hi' (c + 1) (by omega) (by omega), add_zero]
      unfold total2
      rw [← Finset.sum_sub_distrib]
      simp only [← Finset.sum_sub_distrib]
      rw [Finset.sum_congr rfl hrow, sum_pair _ (nb + 1) b (by omega)]
      · simp
      · intro i k1 k2
        rw [if_neg (by omega)]
    rw [hsum]
    have q1 := abs_le.1 (hdiff b (by omega) c (by omega))
    have q2 := abs_le.1 (hdiff b (by omega) (c + 1) (by omega))
    have q3 := abs_le.1 (hdiff (b + 1) (by omega) c (by omega))
    have q4 := abs_le.1 (hdiff (b + 1) (by omega) (c + 1) (by omega))
    have x0 : cell t b b = 1 - t := by simp [cell]
    have x1 : cell t b (b + 1) = t := by simp [cell]
    have y0 : cell u c c = 1 - u := by simp [cell]
    have y1 : cell u c (c + 1) = u := by simp [cell]
    rw [x0, y0] at q1
    rw [x0, y1] at q2
    rw [x1, y0] at q3
    rw [x1, y1] at q4
    have hone : w = w * ((1 - t) * (1 - u)) + w * ((1 - t) * u) + (w * (t * (1 - u)) + w * (t * u)) := by ring
    generalize w * ((1 - t) * (1 - u)) = z1 at *
    generalize w * ((1 - t) * u) = z2 at *
    generalize w * (t * (1 - u)) = z3 at *
    generalize w * (t * u) = z4 at *
    rw [abs_le]; constructor <;> linarith

/-- All samples. -/
theorem fold_near (S : Sizes2 lx ly hx hy dx dy Mx My nb n) (hf : IsRounding fl) (W : ℚ)
    (hW : Rel 15 W (1 / (n * dx * dy))) (x : List (ℚ × ℚ))
    (hin : ∀ s ∈ x, (lx ≤ s.1 ∧ s.1 ≤ hx) ∧ ly ≤ s.2 ∧ s.2 ≤ hy) (y : List (ℚ × ℚ))
    (hn : y.length + x.length ≤ n) (bins : List (List ℚ)) (hs : Shape (nb + 1) (nb + 1) bins)
    (hb : ∀ i < nb + 1, ∀ j < nb + 1, |get2 bins i j - 1 / (n * dx * dy) *
        (y.map fun s => hat ((s.1 - (lx + i * dx)) / dx) * hat ((s.2 - (ly + j * dy)) / dy)).sum| ≤
      y.length * (109 * (UNIT * (Mx / dx) + UNIT * (My / dy)) * (1 / (n * dx * dy)) + 4 * UNIT * (1 / (dx * dy))))
    (ht : |total2 bins (nb + 1) - y.length * (1 / (n * dx * dy))| ≤
      y.length * (336 * (UNIT * (Mx / dx) + UNIT * (My / dy)) * (1 / (n * dx * dy)) + 16 * UNIT * (1 / (dx * dy)))) :
    ∃ r, x.foldlM (fun bins s => spread2R fl (gridR fl lx (deltaR fl lx hx nb) nb)
        (gridR fl ly (deltaR fl ly hy nb) nb) (deltaR fl lx hx nb) (deltaR fl ly hy nb) W bins s
        ⌊fl (fl (s.1 - lx) / deltaR fl lx hx nb)⌋ ⌊fl (fl (s.2 - ly) / deltaR fl ly hy nb)⌋) bins = .ok r ∧
      Shape (nb + 1) (nb + 1) r ∧
      (∀ i < nb + 1, ∀ j < nb + 1, |get2 r i j - 1 / (n * dx * dy) *
          ((y ++ x).map fun s => hat ((s.1 - (lx + i * dx)) / dx) * hat ((s.2 - (ly + j * dy)) / dy)).sum| ≤
        (y ++ x).length * (109 * (UNIT * (Mx / dx) + UNIT * (My / dy)) * (1 / (n * dx * dy)) +
          4 * UNIT * (1 / (dx * dy)))) ∧
      |total2 r (nb + 1) - (y ++ x).length * (1 / (n * dx * dy))| ≤
        (y ++ x).length * (336 * (UNIT * (Mx / dx) + UNIT * (My / dy)) * (1 / (n * dx * dy)) +
          16 * UNIT * (1 / (dx * dy))) := by
  induction x generalizing y bins with
  | nil => exact ⟨bins, rfl, hs, by simpa using hb, by simpa using ht⟩
  | cons s x ih =>
    have hdx := S.x.d_pos
    have hdy := S.y.d_pos
    have hU := UNIT_pos
    have hn1 : (1 : ℚ) ≤ n := by exact_mod_cast S.x.n1
    have hn0 : (0 : ℚ) < n := by linarith
    rw [List.length_cons] at hn
    have hyn : (y.length : ℚ) ≤ n := by
      have : y.length ≤ n := by omega
      exact_mod_cast this
    have hbins : ∀ i < nb + 1, ∀ j < nb + 1, |get2 bins i j| ≤ 2 * (1 / (dx * dy)) := by
      intro i hi j hj
      have h1 := hb i hi j hj
      have h2 : 0 ≤ (y.map fun s => hat ((s.1 - (lx + i * dx)) / dx) * hat ((s.2 - (ly + j * dy)) / dy)).sum := by
        apply List.sum_nonneg
        intro v hv
        obtain ⟨s, -, rfl⟩ := List.mem_map.1 hv
        exact mul_nonneg (hat_nonneg _) (hat_nonneg _)
      have h3 : (y.map fun s => hat ((s.1 - (lx + i * dx)) / dx) * hat ((s.2 - (ly + j * dy)) / dy)).sum ≤
          y.length := by
        have := List.sum_le_card_nsmul
          (y.map fun s => hat ((s.1 - (lx + i * dx)) / dx) * hat ((s.2 - (ly + j * dy)) / dy)) 1 (by
          intro v hv
          obtain ⟨s, -, rfl⟩ := List.mem_map.1 hv
          exact mul_le_one₀ (hat_le _) (hat_nonneg _) (hat_le _))
        simpa using this
      generalize (y.map fun s => hat ((s.1 - (lx + i * dx)) / dx) * hat ((s.2 - (ly + j * dy)) / dy)).sum = Q at *
      have h4 : 1 / (n * dx * dy) * Q ≤ 1 / (dx * dy) := by
        calc 1 / (n * dx * dy) * Q ≤ 1 / (n * dx * dy) * n := by
              gcongr; exact h3.trans hyn
          _ = 1 / (dx * dy) := by field_simp
      have h4' : 0 ≤ 1 / (n * dx * dy) * Q := by positivity
      have h5 : (y.length : ℚ) * (109 * (UNIT * (Mx / dx) + UNIT * (My / dy)) * (1 / (n * dx * dy)) +
          4 * UNIT * (1 / (dx * dy))) ≤ 1 / (dx * dy) := by
        have hr := S.x.rho_le
        have hr' := S.y.rho_le
        have hr2 := S.x.unit_rho
        have hr2' := S.y.unit_rho
        have hUn : UNIT * n ≤ 1 / 4096 := by
          have := mul_le_mul_of_nonneg_left S.x.n_le hU.le
          rw [UNIT_small] at this
          exact this
        generalize UNIT * (Mx / dx) = ρ at *
        generalize UNIT * (My / dy) = σ at *
        have hρ0 : 0 < ρ := by linarith
        have hσ0 : 0 < σ := by linarith
        calc _ ≤ (n : ℚ) * (109 * (ρ + σ) * (1 / (n * dx * dy)) + 4 * UNIT * (1 / (dx * dy))) := by gcongr
          _ = (109 * (ρ + σ) + 4 * (UNIT * n)) * (1 / (dx * dy)) := by field_simp
          _ ≤ 1 * (1 / (dx * dy)) := by gcongr; linarith
          _ = _ := one_mul _
      have h1' := abs_le.1 h1
      rw [abs_le]
      constructor <;> linarith
    obtain ⟨⟨m1, m2⟩, m3, m4⟩ := hin s List.mem_cons_self
    obtain ⟨r1, k1, k2, k3, k4⟩ := S.spread_near hf W s hW m1 m2 m3 m4 bins hs hbins
    obtain ⟨r, k5, k6, k7, k8⟩ := ih (fun s hs => hin s (List.mem_cons_of_mem _ hs)) (y ++ [s])
      (by simp; omega) r1 k2
      (by
        intro i hi j hj
        have a1 := abs_le.1 (k3 i hi j hj)
        have a2 := abs_le.1 (hb i hi j hj)
        simp only [List.map_append, List.map_cons, List.map_nil, List.sum_append, List.sum_cons, List.sum_nil,
          List.length_append, List.length_cons, List.length_nil]
        push_cast
        rw [abs_le]
        constructor <;> linarith)
      (by
        have a1 := abs_le.1 k4
        have a2 := abs_le.1 ht
        simp only [List.length_append, List.length_cons, List.length_nil]
        push_cast
        rw [abs_le]
        constructor <;> linarith)
    refine ⟨r, ?_, k6, ?_, ?_⟩
    · rw [List.foldlM_cons, k1]
      exact k5
    · simpa using k7
    · simpa using k8

/-- All bins. -/
theorem full_near (S : Sizes2 lx ly hx hy dx dy Mx My nb n) (hf : IsRounding fl) (x : List (ℚ × ℚ))
    (hxn : x.length = n) (hin : ∀ s ∈ x, (lx ≤ s.1 ∧ s.1 ≤ hx) ∧ ly ≤ s.2 ∧ s.2 ≤ hy) :
    ∃ r, fullBins2R fl x (lx, ly) (hx, hy) nb = .ok r ∧ Shape (nb + 1) (nb + 1) r ∧
      (∀ i < nb + 1, ∀ j < nb + 1, |get2 r i j - linearBin2 x dx dy (lx + i * dx) (ly + j * dy)| ≤
        (109 * (Mx / dx + My / dy) + 4 * n) * UNIT / (dx * dy)) ∧
      |total2 r (nb + 1) * (dx * dy) - 1| ≤ (336 * (Mx / dx + My / dy) + 16 * n) * UNIT := by
  have hdx := S.x.d_pos
  have hdy := S.y.d_pos
  have hn1 : (1 : ℚ) ≤ n := by exact_mod_cast S.x.n1
  have hn0 : (0 : ℚ) < n := by linarith
  have hshape : Shape (nb + 1) (nb + 1) (List.replicate (nb + 1) (List.replicate (nb + 1) (0 : ℚ))) := by
    refine ⟨by simp, fun row h => ?_⟩
    rw [(List.mem_replicate.1 h).2, List.length_replicate]
  have hz : ∀ i < nb + 1, ∀ j < nb + 1,
      get2 (List.replicate (nb + 1) (List.replicate (nb + 1) (0 : ℚ))) i j = 0 := by
    intro i hi j hj
    unfold get2
    rw [List.getD_eq_getElem?_getD (l := List.replicate (nb + 1) (List.replicate (nb + 1) (0 : ℚ))),
      List.getElem?_replicate, if_pos hi, Option.getD_some, List.getD_eq_getElem?_getD, List.getElem?_replicate,
      if_pos hj, Option.getD_some]
  have hzt : total2 (List.replicate (nb + 1) (List.replicate (nb + 1) (0 : ℚ))) (nb + 1) = 0 :=
    Finset.sum_eq_zero fun i hi' => Finset.sum_eq_zero fun j hj' =>
      hz i (Finset.mem_range.1 hi') j (Finset.mem_range.1 hj')
  obtain ⟨r, k1, k2, k3, k4⟩ := S.fold_near hf _ (S.weight_near hf) x hin []
    (by simp; omega) _ hshape (by intro i hi' j hj'; rw [hz i hi' j hj']; simp) (by rw [hzt]; simp)
  refine ⟨r, ?_, k2, fun i hi' j hj' => ?_, ?_⟩
  · unfold fullBins2R
    simp only []
    have a1 := (S.x.delta_bounds hf).1
    have a2 := (S.y.delta_bounds hf).1
    rw [if_neg (by
      rintro ⟨h | h, -⟩
      · rw [h] at a1; linarith
      · rw [h] at a2; linarith), hxn]
    exact k1
  · have := k3 i hi' j hj'
    simp only [List.nil_append] at this
    unfold linearBin2
    rw [hxn] at this ⊢
    have e1 : ∀ q : ℚ, q / (n * dx * dy) = 1 / (n * dx * dy) * q := fun q => by ring
    rw [e1]
    refine this.trans (le_of_eq ?_)
    field_simp
  · simp only [List.nil_append] at k4
    rw [hxn] at k4
    have e1 : total2 r (nb + 1) * (dx * dy) - 1 = (total2 r (nb + 1) - n * (1 / (n * dx * dy))) * (dx * dy) := by
      field_simp
    rw [e1, abs_mul, abs_of_pos (mul_pos hdx hdy)]
    calc _ ≤ (n * (336 * (UNIT * (Mx / dx) + UNIT * (My / dy)) * (1 / (n * dx * dy)) +
          16 * UNIT * (1 / (dx * dy)))) * (dx * dy) := by gcongr
      _ = _ := by field_simp

end Sizes2

end Verif.KDE
