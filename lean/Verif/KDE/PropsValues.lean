import Verif.KDE.PropsGauss2
import Mathlib.Algebra.Ring.Parity

/-!
# Values of density estimates (C106, C107)
-/

namespace Verif.KDE

/-! ## Specification -/

open Classical in
/-- A Gaussian of width `h`, cut to an interval of length `R` around 0 (closed below, open above). -/
noncomputable def cutGauss (R h t : ℝ) : ℝ :=
  if -R / 2 ≤ t ∧ t < R / 2 then Real.exp (-(t ^ 2) / (2 * h ^ 2)) else 0

/-- Its sum on the points of the kernel. -/
noncomputable def gaussSum (R d h : ℝ) (nb : ℕ) : ℝ :=
  ∑ k ∈ Finset.range (nb - 1), cutGauss R h (-R / 2 + k * d)

/-! ## Lemmas -/

theorem cutGauss_grid (R d h : ℝ) (nb : ℕ) (hd : 0 < d) (hR : R = ((nb : ℝ) - 1) * d) (z : ℤ) :
    cutGauss R h (-R / 2 + z * d) =
      if 0 ≤ z ∧ z < (nb : ℤ) - 1 then kernel R d h z.toNat else 0 := by
  unfold cutGauss
  have h1 : (-R / 2 ≤ -R / 2 + z * d) ↔ 0 ≤ z := by
    rw [le_add_iff_nonneg_right, mul_nonneg_iff_of_pos_right hd]
    exact Int.cast_nonneg_iff
  have h2 : (-R / 2 + z * d < R / 2) ↔ z < (nb : ℤ) - 1 := by
    have e : (-R / 2 + z * d < R / 2) ↔ (z : ℝ) * d < ((nb : ℝ) - 1) * d := by
      rw [← hR]
      constructor <;> intro h <;> linarith
    rw [e, mul_lt_mul_iff_of_pos_right hd]
    have : ((nb : ℝ) - 1) = (((nb : ℤ) - 1 : ℤ) : ℝ) := by push_cast; rfl
    rw [this, Int.cast_lt]
  simp only [h1, h2]
  split_ifs with h
  · unfold kernel
    have : ((z.toNat : ℕ) : ℝ) = (z : ℝ) := by
      have : ((z.toNat : ℤ) : ℝ) = (z : ℝ) := by rw [Int.toNat_of_nonneg h.1]
      exact_mod_cast this
    rw [this]
    congr 1
    ring
  · rfl

theorem gaussSum_eq (R d h : ℝ) (nb : ℕ) (hd : 0 < d) (hR : R = ((nb : ℝ) - 1) * d) :
    gaussSum R d h nb = kernelSum R d h nb := by
  unfold gaussSum kernelSum
  refine Finset.sum_congr rfl fun k hk => ?_
  rw [Finset.mem_range] at hk
  have := cutGauss_grid R d h nb hd hR (k : ℤ)
  rw [if_pos (by omega), Int.cast_natCast, Int.toNat_natCast] at this
  exact this

/-! ## C106, C107: values -/

/-- **C106**: the estimate at a point is the sum over grid points of their bins times the value of the
(cut) Gaussian for their difference, normalised; points go from the lower bound minus half of the
range. -/
theorem C106_values (x : List ℝ) (h : ℝ) (hh : h ≠ 0) (nb : ℕ) (hnb : 2 ≤ nb) (fft : Bool)
    (bounds : Option (ℝ × ℝ)) (lo hi : ℝ) (hb : Bounds bounds x lo hi) (hlt : lo < hi)
    (d : ℝ) (hd : d = (hi - lo) / ((nb : ℝ) - 1)) :
    gaussian1 x h nb fft bounds = .ok
      ((List.range nb).map fun i : ℕ => lo + i * d,
       (List.range (2 * nb - 2)).map fun t : ℕ => ∑ i ∈ Finset.range nb,
        linearBin x d (lo + i * d) *
          (cutGauss (hi - lo) h (lo - (hi - lo) / 2 + t * d - (lo + i * d)) /
            gaussSum (hi - lo) d h nb)) := by
  obtain ⟨hdp, e⟩ := steps_pos lo hi nb hnb hlt
  rw [gaussian1_eq x h hh nb hnb fft bounds lo hi hb hlt, convolve_map, ← hd]
  rw [← hd] at hdp e
  have hR : hi - lo = ((nb : ℝ) - 1) * d := by linarith
  rw [gaussSum_eq _ d h nb hdp hR, show nb + (nb - 1) - 1 = 2 * nb - 2 from by omega]
  congr 2
  apply List.map_congr_left
  intro t _
  refine Finset.sum_congr rfl fun i _ => ?_
  have hz : lo - (hi - lo) / 2 + t * d - (lo + i * d) = -(hi - lo) / 2 + (((t : ℤ) - i : ℤ) : ℝ) * d := by
    push_cast
    ring
  rw [hz, cutGauss_grid _ d h nb hdp hR]
  by_cases h1 : i ≤ t
  · rw [if_pos h1]
    by_cases h2 : t - i < nb - 1
    · rw [if_pos h2, if_pos (by omega)]
      congr 3
      omega
    · rw [if_neg h2, if_neg (by omega), zero_div]
  · rw [if_neg h1, if_neg (by omega), zero_div, mul_zero]

/-- **C107**: the estimate at a grid point is the sum over grid points of their bins times the values of
the (cut) Gaussians for their differences, moved by half of a step when the number of bins is even and by
a step when it is odd, normalised. -/
theorem C107_values (samples : List (ℝ × ℝ)) (hX hY : ℝ) (hhx : hX ≠ 0) (hhy : hY ≠ 0) (nb : ℕ)
    (hnb : 2 ≤ nb) (fft : Bool) (bounds : Option ((ℝ × ℝ) × (ℝ × ℝ))) (lx ly hx hy : ℝ)
    (hb : Bounds2 bounds samples lx ly hx hy) (hltx : lx < hx) (hlty : ly < hy)
    (dx dy s : ℝ) (hdx : dx = (hx - lx) / ((nb : ℝ) - 1)) (hdy : dy = (hy - ly) / ((nb : ℝ) - 1))
    (hs : s = if Even nb then 1 / 2 else 1) :
    gaussian2 samples hX hY nb fft bounds = .ok
      ((List.range nb).map fun i : ℕ => lx + i * dx, (List.range nb).map fun j : ℕ => ly + j * dy,
       (List.range nb).map fun i : ℕ => (List.range nb).map fun j : ℕ =>
        ∑ p ∈ Finset.range nb, ∑ q ∈ Finset.range nb,
          linearBin2 samples dx dy (lx + p * dx) (ly + q * dy) *
            (cutGauss (hx - lx) hX (lx + i * dx - (lx + p * dx) - s * dx) / gaussSum (hx - lx) dx hX nb *
             (cutGauss (hy - ly) hY (ly + j * dy - (ly + q * dy) - s * dy) /
              gaussSum (hy - ly) dy hY nb))) := by
  obtain ⟨hpx, ex⟩ := steps_pos lx hx nb hnb hltx
  obtain ⟨hpy, ey⟩ := steps_pos ly hy nb hnb hlty
  rw [gaussian2_eq samples hX hY hhx hhy nb hnb fft bounds lx ly hx hy hb hltx hlty, ← hdx, ← hdy]
  rw [← hdx] at hpx ex
  rw [← hdy] at hpy ey
  have hRx : hx - lx = ((nb : ℝ) - 1) * dx := by linarith
  have hRy : hy - ly = ((nb : ℝ) - 1) * dy := by linarith
  rw [gaussSum_eq _ dx hX nb hpx hRx, gaussSum_eq _ dy hY nb hpy hRy]
  have hshift : s = ((nb : ℝ) - 1) / 2 - (((nb - 1 - 1) / 2 : ℕ) : ℝ) := by
    rw [hs]
    by_cases he : Even nb
    · rw [if_pos he]
      obtain ⟨m, rfl⟩ := he
      rw [show (m + m - 1 - 1) / 2 = m - 1 from by omega, Nat.cast_sub (by omega)]
      push_cast
      ring
    · rw [if_neg he]
      obtain ⟨m, rfl⟩ := Nat.not_even_iff_odd.1 he
      rw [show (2 * m + 1 - 1 - 1) / 2 = m - 1 from by omega, Nat.cast_sub (by omega)]
      push_cast
      ring
  have key : ∀ (lo R d h : ℝ) (i p : ℕ), 0 < d → R = ((nb : ℝ) - 1) * d →
      cutGauss R h (lo + i * d - (lo + p * d) - s * d) =
      if p ≤ i + (nb - 1 - 1) / 2 ∧ i + (nb - 1 - 1) / 2 - p < nb - 1 then
        kernel R d h (i + (nb - 1 - 1) / 2 - p) else 0 := by
    intro lo R d h i p hd hR
    generalize (nb - 1 - 1) / 2 = c at hshift ⊢
    have hz : lo + i * d - (lo + p * d) - s * d =
        -R / 2 + (((i : ℤ) + (c : ℕ) - p : ℤ) : ℝ) * d := by
      rw [hshift, hR]
      push_cast
      ring
    rw [hz, cutGauss_grid _ d h nb hd hR]
    by_cases h1 : p ≤ i + c ∧ i + c - p < nb - 1
    · rw [if_pos h1, if_pos (by omega)]
      congr 1
      omega
    · rw [if_neg h1, if_neg (by omega)]
  congr 3
  apply List.map_congr_left
  intro i _
  apply List.map_congr_left
  intro j _
  unfold convolveSame
  refine Finset.sum_congr rfl fun p _ => Finset.sum_congr rfl fun q _ => ?_
  rw [key lx (hx - lx) dx hX i p hpx hRx, key ly (hy - ly) dy hY j q hpy hRy]
  by_cases h1 : p ≤ i + (nb - 1 - 1) / 2 ∧ i + (nb - 1 - 1) / 2 - p < nb - 1
  · by_cases h2 : q ≤ j + (nb - 1 - 1) / 2 ∧ j + (nb - 1 - 1) / 2 - q < nb - 1
    · rw [if_pos ⟨h1.1, h1.2, h2.1, h2.2⟩, if_pos h1, if_pos h2]
      unfold kernel2
      congr 1
      rw [div_mul_div_comm]
    · rw [if_neg (fun h => h2 ⟨h.2.2.1, h.2.2.2⟩), if_neg h2]
      ring
  · rw [if_neg (fun h => h1 ⟨h.1, h.2.1⟩), if_neg h1]
    ring

end Verif.KDE
