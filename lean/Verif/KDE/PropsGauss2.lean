import Verif.KDE.PropsGauss

/-!
# Properties of kernel density estimation in two dimensions (C107)
-/

namespace Verif.KDE

/-! ## Specification -/

/-- The kernel in two dimensions, normalised. -/
noncomputable def kernel2 (Rx Ry dx dy hX hY : ℝ) (nb : ℕ) (k l : ℕ) : ℝ :=
  kernel Rx dx hX k * kernel Ry dy hY l / (kernelSum Rx dx hX nb * kernelSum Ry dy hY nb)

/-! ## Lemmas -/

theorem kernel2_sum (Rx Ry dx dy hX hY : ℝ) (nb : ℕ) (hnb : 2 ≤ nb) :
    ∑ k ∈ Finset.range (nb - 1), ∑ l ∈ Finset.range (nb - 1), kernel2 Rx Ry dx dy hX hY nb k l = 1 := by
  unfold kernel2
  simp only [← Finset.sum_div, ← Finset.sum_mul_sum]
  exact div_self (mul_pos (kernelSum_pos _ _ _ _ hnb) (kernelSum_pos _ _ _ _ hnb)).ne'

theorem kernel2_pos (Rx Ry dx dy hX hY : ℝ) (nb : ℕ) (hnb : 2 ≤ nb) (k l : ℕ) :
    0 < kernel2 Rx Ry dx dy hX hY nb k l :=
  div_pos (mul_pos (Real.exp_pos _) (Real.exp_pos _))
    (mul_pos (kernelSum_pos _ _ _ _ hnb) (kernelSum_pos _ _ _ _ hnb))

theorem convolveSame_congr (a : ℕ → ℕ → ℝ) (n : ℕ) (k k' : ℕ → ℕ → ℝ) (m m' i j : ℕ)
    (h : ∀ p < m, ∀ q < m', k p q = k' p q) :
    convolveSame a n k m m' i j = convolveSame a n k' m m' i j := by
  unfold convolveSame
  refine Finset.sum_congr rfl fun p _ => Finset.sum_congr rfl fun q _ => ?_
  split_ifs with hc
  · rw [h _ hc.2.1 _ hc.2.2.2]
  · rfl

theorem convolveSame_congr_left (a a' : ℕ → ℕ → ℝ) (n : ℕ) (k : ℕ → ℕ → ℝ) (m m' i j : ℕ)
    (h : ∀ p < n, ∀ q < n, a p q = a' p q) :
    convolveSame a n k m m' i j = convolveSame a' n k m m' i j := by
  unfold convolveSame
  refine Finset.sum_congr rfl fun p hp => Finset.sum_congr rfl fun q hq => ?_
  rw [h p (Finset.mem_range.1 hp) q (Finset.mem_range.1 hq)]

/-- What `gaussian_kde_2d` returns. -/
theorem gaussian2_eq (samples : List (ℝ × ℝ)) (hX hY : ℝ) (hhx : hX ≠ 0) (hhy : hY ≠ 0) (nb : ℕ)
    (hnb : 2 ≤ nb) (fft : Bool) (bounds : Option ((ℝ × ℝ) × (ℝ × ℝ))) (lx ly hx hy : ℝ)
    (hb : Bounds2 bounds samples lx ly hx hy) (hltx : lx < hx) (hlty : ly < hy) :
    gaussian2 samples hX hY nb fft bounds = .ok
      ((List.range nb).map fun i : ℕ => lx + i * ((hx - lx) / ((nb : ℝ) - 1)),
       (List.range nb).map fun j : ℕ => ly + j * ((hy - ly) / ((nb : ℝ) - 1)),
       (List.range nb).map fun i : ℕ => (List.range nb).map fun j : ℕ =>
        convolveSame (fun p q => linearBin2 samples ((hx - lx) / ((nb : ℝ) - 1))
            ((hy - ly) / ((nb : ℝ) - 1)) (lx + p * ((hx - lx) / ((nb : ℝ) - 1)))
            (ly + q * ((hy - ly) / ((nb : ℝ) - 1)))) nb
          (kernel2 (hx - lx) (hy - ly) ((hx - lx) / ((nb : ℝ) - 1)) ((hy - ly) / ((nb : ℝ) - 1)) hX hY nb)
          (nb - 1) (nb - 1) i j) := by
  obtain ⟨hdx, ex⟩ := steps_pos lx hx nb hnb hltx
  obtain ⟨hdy, ey⟩ := steps_pos ly hy nb hnb hlty
  unfold gaussian2
  rw [C69_bins samples nb hnb bounds lx ly hx hy hb hltx hlty]
  simp only [bind, Except.bind]
  have p0 : ∀ f : ℕ → ℝ, pyGet ((List.range nb).map f) 0 = .ok (f 0) :=
    fun f => pyGet_map_range nb 0 f (by omega)
  have p1 : ∀ f : ℕ → ℝ, pyGet ((List.range nb).map f) 1 = .ok (f 1) :=
    fun f => pyGet_map_range nb 1 f (by omega)
  rw [pyGet_map_last _ _ (by omega), pyGet_map_last _ _ (by omega), p0, p0, p1, p1]
  simp only []
  rw [if_neg (by rintro (h | h) <;> [exact hhx h; exact hhy h])]
  have e1 : ∀ lo hi : ℝ, lo + ((nb : ℝ) - 1) * ((hi - lo) / ((nb : ℝ) - 1)) = hi →
      lo + ((nb - 1 : ℕ) : ℝ) * ((hi - lo) / ((nb : ℝ) - 1)) -
      (lo + ((0 : ℕ) : ℝ) * ((hi - lo) / ((nb : ℝ) - 1))) = hi - lo := by
    intro lo hi e
    rw [Nat.cast_sub (by omega), Nat.cast_one, e]
    simp
  have e2 : ∀ lo hi : ℝ, lo + ((1 : ℕ) : ℝ) * ((hi - lo) / ((nb : ℝ) - 1)) -
      (lo + ((0 : ℕ) : ℝ) * ((hi - lo) / ((nb : ℝ) - 1))) = (hi - lo) / ((nb : ℝ) - 1) := by
    intro lo hi
    push_cast; ring
  rw [e1 lx hx ex, e1 ly hy ey, e2, e2,
    arange_eq (hx - lx) ((hx - lx) / ((nb : ℝ) - 1)) nb hdx hnb (by linarith),
    arange_eq (hy - ly) ((hy - ly) / ((nb : ℝ) - 1)) nb hdy hnb (by linarith)]
  simp only [List.length_map, List.length_range, pure, Except.pure]
  congr 3
  apply List.map_congr_left
  intro i _
  apply List.map_congr_left
  intro j _
  have hker : ∀ k < nb - 1, ∀ l < nb - 1,
      Real.exp (-(1 / 2) / hX ^ 2 * ((List.range (nb - 1)).map fun k : ℕ =>
          -(hx - lx) / 2 + (k : ℝ) * ((hx - lx) / ((nb : ℝ) - 1))).getD k 0 ^ 2 +
        -(1 / 2) / hY ^ 2 * ((List.range (nb - 1)).map fun k : ℕ =>
          -(hy - ly) / 2 + (k : ℝ) * ((hy - ly) / ((nb : ℝ) - 1))).getD l 0 ^ 2) =
      kernel (hx - lx) ((hx - lx) / ((nb : ℝ) - 1)) hX k *
        kernel (hy - ly) ((hy - ly) / ((nb : ℝ) - 1)) hY l := by
    intro k hk l hl
    rw [Real.exp_add, getD_map_range, getD_map_range, if_pos hk, if_pos hl]
    rfl
  rw [convolveSame_congr_left _ _ nb _ _ _ _ _ (fun p hp q hq => ?_)]
  · apply convolveSame_congr
    intro k hk l hl
    rw [hker k hk l hl]
    unfold kernel2
    congr 1
    unfold kernelSum
    rw [Finset.sum_mul_sum]
    exact Finset.sum_congr rfl fun k hk => Finset.sum_congr rfl fun l hl =>
      hker k (Finset.mem_range.1 hk) l (Finset.mem_range.1 hl)
  · rw [List.getD_eq_getElem?_getD (l := List.map _ _), List.getElem?_map, List.getElem?_range hp,
      Option.map_some, Option.getD_some, getD_map_range, if_pos hq]

/-- Values of a kernel met by moving a window. -/
theorem window_le (f : ℕ → ℝ) (hf : ∀ k, 0 ≤ f k) (n m c p : ℕ) :
    ∑ i ∈ Finset.range n, (if p ≤ i + c ∧ i + c - p < m then f (i + c - p) else 0) ≤
      ∑ k ∈ Finset.range m, f k := by
  rw [← Finset.sum_filter, ← Finset.sum_image (f := f) (g := fun i => i + c - p)]
  · apply Finset.sum_le_sum_of_subset_of_nonneg
    · intro k hk
      obtain ⟨i, hi, rfl⟩ := Finset.mem_image.1 hk
      exact Finset.mem_range.2 (Finset.mem_filter.1 hi).2.2
    · intro k _ _
      exact hf k
  · intro i hi j hj h
    have h1 := (Finset.mem_filter.1 hi).2.1
    have h2 := (Finset.mem_filter.1 hj).2.1
    simp only at h
    omega

/-- A part of the convolution of arrays which are not negative has a sum at most the product of sums. -/
theorem convolveSame_sum_le (a k : ℕ → ℕ → ℝ) (ha : ∀ p q, 0 ≤ a p q) (hk : ∀ p q, 0 ≤ k p q)
    (n m m' : ℕ) :
    ∑ i ∈ Finset.range n, ∑ j ∈ Finset.range n, convolveSame a n k m m' i j ≤
      (∑ p ∈ Finset.range n, ∑ q ∈ Finset.range n, a p q) *
        ∑ p ∈ Finset.range m, ∑ q ∈ Finset.range m', k p q := by
  unfold convolveSame
  have h1 : ∑ i ∈ Finset.range n, ∑ j ∈ Finset.range n, ∑ p ∈ Finset.range n, ∑ q ∈ Finset.range n,
      (if p ≤ i + (m - 1) / 2 ∧ i + (m - 1) / 2 - p < m ∧ q ≤ j + (m' - 1) / 2 ∧
        j + (m' - 1) / 2 - q < m' then a p q * k (i + (m - 1) / 2 - p) (j + (m' - 1) / 2 - q) else 0) =
      ∑ p ∈ Finset.range n, ∑ q ∈ Finset.range n, ∑ i ∈ Finset.range n, ∑ j ∈ Finset.range n,
      (if p ≤ i + (m - 1) / 2 ∧ i + (m - 1) / 2 - p < m ∧ q ≤ j + (m' - 1) / 2 ∧
        j + (m' - 1) / 2 - q < m' then a p q * k (i + (m - 1) / 2 - p) (j + (m' - 1) / 2 - q) else 0) := by
    rw [Finset.sum_congr rfl fun i _ => Finset.sum_comm, Finset.sum_comm]
    refine Finset.sum_congr rfl fun p _ => ?_
    rw [Finset.sum_congr rfl fun i _ => Finset.sum_comm, Finset.sum_comm]
  rw [h1, Finset.sum_mul]
  refine Finset.sum_le_sum fun p _ => ?_
  rw [Finset.sum_mul]
  refine Finset.sum_le_sum fun q _ => ?_
  have h2 : ∀ i ∈ Finset.range n, ∑ j ∈ Finset.range n,
      (if p ≤ i + (m - 1) / 2 ∧ i + (m - 1) / 2 - p < m ∧ q ≤ j + (m' - 1) / 2 ∧
        j + (m' - 1) / 2 - q < m' then a p q * k (i + (m - 1) / 2 - p) (j + (m' - 1) / 2 - q) else 0) ≤
      if p ≤ i + (m - 1) / 2 ∧ i + (m - 1) / 2 - p < m then
        a p q * ∑ l ∈ Finset.range m', k (i + (m - 1) / 2 - p) l else 0 := by
    intro i _
    split_ifs with hc
    · have : ∀ j ∈ Finset.range n, (if p ≤ i + (m - 1) / 2 ∧ i + (m - 1) / 2 - p < m ∧
          q ≤ j + (m' - 1) / 2 ∧ j + (m' - 1) / 2 - q < m' then
          a p q * k (i + (m - 1) / 2 - p) (j + (m' - 1) / 2 - q) else 0) =
          a p q * if q ≤ j + (m' - 1) / 2 ∧ j + (m' - 1) / 2 - q < m' then
            k (i + (m - 1) / 2 - p) (j + (m' - 1) / 2 - q) else 0 := by
        intro j _
        rw [mul_ite, mul_zero]
        simp only [hc.1, hc.2, true_and]
      rw [Finset.sum_congr rfl this, ← Finset.mul_sum]
      exact mul_le_mul_of_nonneg_left (window_le _ (fun l => hk _ l) _ _ _ _) (ha p q)
    · apply le_of_eq
      apply Finset.sum_eq_zero
      intro j _
      rw [if_neg fun h => hc ⟨h.1, h.2.1⟩]
  refine le_trans (Finset.sum_le_sum h2) ?_
  have h3 : ∀ i ∈ Finset.range n, (if p ≤ i + (m - 1) / 2 ∧ i + (m - 1) / 2 - p < m then
      a p q * ∑ l ∈ Finset.range m', k (i + (m - 1) / 2 - p) l else 0) =
      a p q * if p ≤ i + (m - 1) / 2 ∧ i + (m - 1) / 2 - p < m then
        (fun u => ∑ l ∈ Finset.range m', k u l) (i + (m - 1) / 2 - p) else 0 := by
    intro i _
    rw [mul_ite, mul_zero]
  rw [Finset.sum_congr rfl h3, ← Finset.mul_sum]
  exact mul_le_mul_of_nonneg_left
    (window_le (fun u => ∑ l ∈ Finset.range m', k u l) (fun u => Finset.sum_nonneg fun l _ => hk u l)
      _ _ _ _) (ha p q)

/-- The convolution at a point where the array is positive is positive. -/
theorem convolveSame_ge (a k : ℕ → ℕ → ℝ) (ha : ∀ p q, 0 ≤ a p q) (hk : ∀ p q, 0 ≤ k p q)
    (n m m' i j : ℕ) (hi : i < n) (hj : j < n) (hm : 1 ≤ m) (hm' : 1 ≤ m') :
    a i j * k ((m - 1) / 2) ((m' - 1) / 2) ≤ convolveSame a n k m m' i j := by
  unfold convolveSame
  have hnn : ∀ p q, 0 ≤ (if p ≤ i + (m - 1) / 2 ∧ i + (m - 1) / 2 - p < m ∧ q ≤ j + (m' - 1) / 2 ∧
        j + (m' - 1) / 2 - q < m' then a p q * k (i + (m - 1) / 2 - p) (j + (m' - 1) / 2 - q) else 0) := by
    intro p q
    split_ifs
    · exact mul_nonneg (ha _ _) (hk _ _)
    · exact le_rfl
  refine le_trans ?_ (Finset.single_le_sum (fun p _ => Finset.sum_nonneg fun q _ => hnn p q)
    (Finset.mem_range.2 hi))
  refine le_trans ?_ (Finset.single_le_sum (fun q _ => hnn i q) (Finset.mem_range.2 hj))
  rw [if_pos (by omega), Nat.add_sub_cancel_left, Nat.add_sub_cancel_left]

theorem convolveSame_nonneg (a k : ℕ → ℕ → ℝ) (ha : ∀ p q, 0 ≤ a p q) (hk : ∀ p q, 0 ≤ k p q)
    (n m m' i j : ℕ) : 0 ≤ convolveSame a n k m m' i j := by
  unfold convolveSame
  refine Finset.sum_nonneg fun p _ => Finset.sum_nonneg fun q _ => ?_
  split_ifs
  · exact mul_nonneg (ha _ _) (hk _ _)
  · exact le_rfl

/-! ## C107: two dimensions -/

/-- **C107**: the estimate has the shape of the grid, is not negative, and what the borders do not cut of
its mass is positive and at most 1. -/
theorem C107_mass (samples : List (ℝ × ℝ)) (hX hY : ℝ) (hhx : hX ≠ 0) (hhy : hY ≠ 0) (nb : ℕ)
    (hnb : 2 ≤ nb) (fft : Bool) (bounds : Option ((ℝ × ℝ) × (ℝ × ℝ))) (lx ly hx hy : ℝ)
    (hb : Bounds2 bounds samples lx ly hx hy) (hltx : lx < hx) (hlty : ly < hy) :
    ∃ gx gy kde, gaussian2 samples hX hY nb fft bounds = .ok (gx, gy, kde) ∧
      gx.length = nb ∧ gy.length = nb ∧ Shape nb nb kde ∧ (∀ row ∈ kde, ∀ v ∈ row, 0 ≤ v) ∧
      0 < (kde.map List.sum).sum * (((hx - lx) / ((nb : ℝ) - 1)) * ((hy - ly) / ((nb : ℝ) - 1))) ∧
      (kde.map List.sum).sum * (((hx - lx) / ((nb : ℝ) - 1)) * ((hy - ly) / ((nb : ℝ) - 1))) ≤ 1 := by
  obtain ⟨hdx, ex⟩ := steps_pos lx hx nb hnb hltx
  obtain ⟨hdy, ey⟩ := steps_pos ly hy nb hnb hlty
  have hnn := fun p q : ℕ => linearBin2_nonneg samples ((hx - lx) / ((nb : ℝ) - 1))
    ((hy - ly) / ((nb : ℝ) - 1)) (lx + p * ((hx - lx) / ((nb : ℝ) - 1)))
    (ly + q * ((hy - ly) / ((nb : ℝ) - 1))) hdx hdy
  have hkp := kernel2_pos (hx - lx) (hy - ly) ((hx - lx) / ((nb : ℝ) - 1)) ((hy - ly) / ((nb : ℝ) - 1))
    hX hY nb hnb
  have hks := kernel2_sum (hx - lx) (hy - ly) ((hx - lx) / ((nb : ℝ) - 1)) ((hy - ly) / ((nb : ℝ) - 1))
    hX hY nb hnb
  have hmass : (∑ p ∈ Finset.range nb, ∑ q ∈ Finset.range nb,
      linearBin2 samples ((hx - lx) / ((nb : ℝ) - 1))
        ((hy - ly) / ((nb : ℝ) - 1)) (lx + p * ((hx - lx) / ((nb : ℝ) - 1)))
        (ly + q * ((hy - ly) / ((nb : ℝ) - 1)))) *
      (((hx - lx) / ((nb : ℝ) - 1)) * ((hy - ly) / ((nb : ℝ) - 1))) = 1 := by
    obtain ⟨gx, gy, b, full, e, -, -, -, -, hm, -⟩ := C69_mass samples nb hnb bounds lx ly hx hy hb hltx hlty
    have := (C69_bins samples nb hnb bounds lx ly hx hy hb hltx hlty).symm.trans e
    injection this with this
    injection this with _ this
    injection this with _ this
    rw [← this, List.map_map] at hm
    simp only [Function.comp_def, sum_range] at hm
    exact hm
  refine ⟨_, _, _, gaussian2_eq samples hX hY hhx hhy nb hnb fft bounds lx ly hx hy hb hltx hlty,
    by simp, by simp, ?_, ?_, ?_, ?_⟩
  · refine ⟨by simp, fun row hr => ?_⟩
    obtain ⟨i, -, rfl⟩ := List.mem_map.1 hr
    simp
  · intro row hr v hv
    obtain ⟨i, -, rfl⟩ := List.mem_map.1 hr
    obtain ⟨j, -, rfl⟩ := List.mem_map.1 hv
    exact convolveSame_nonneg _ _ hnn (fun p q => (hkp p q).le) _ _ _ _ _
  · rw [List.map_map]
    simp only [Function.comp_def, sum_range]
    refine mul_pos ?_ (mul_pos hdx hdy)
    have hpos : 0 < ∑ p ∈ Finset.range nb, ∑ q ∈ Finset.range nb,
        linearBin2 samples ((hx - lx) / ((nb : ℝ) - 1))
          ((hy - ly) / ((nb : ℝ) - 1)) (lx + p * ((hx - lx) / ((nb : ℝ) - 1)))
          (ly + q * ((hy - ly) / ((nb : ℝ) - 1))) := by
      by_contra hc
      have := mul_nonpos_of_nonpos_of_nonneg (not_lt.1 hc) (mul_pos hdx hdy).le
      rw [hmass] at this
      linarith
    refine lt_of_lt_of_le (mul_pos hpos (hkp ((nb - 1 - 1) / 2) ((nb - 1 - 1) / 2))) ?_
    rw [Finset.sum_mul]
    refine Finset.sum_le_sum fun i hi => ?_
    rw [Finset.sum_mul]
    refine Finset.sum_le_sum fun j hj => ?_
    exact convolveSame_ge _ _ hnn (fun p q => (hkp p q).le) nb (nb - 1) (nb - 1) i j
      (Finset.mem_range.1 hi) (Finset.mem_range.1 hj) (by omega) (by omega)
  · rw [List.map_map]
    simp only [Function.comp_def, sum_range]
    have := convolveSame_sum_le _ _ hnn (fun p q => (hkp p q).le) nb (nb - 1) (nb - 1)
    rw [hks, mul_one] at this
    refine le_trans (mul_le_mul_of_nonneg_right this (mul_pos hdx hdy).le) (le_of_eq hmass)

/-- **C107**: errors of the bins, then null widths. -/
theorem C107_errors (samples : List (ℝ × ℝ)) (hX hY : ℝ) (nb : ℤ) (fft : Bool)
    (bounds : Option ((ℝ × ℝ) × (ℝ × ℝ))) :
    (∀ e, getBins2 samples nb bounds = .error e → gaussian2 samples hX hY nb fft bounds = .error e) ∧
    ∀ lx ly hx hy, 2 ≤ nb → Bounds2 bounds samples lx ly hx hy → lx < hx → ly < hy →
      hX = 0 ∨ hY = 0 → gaussian2 samples hX hY nb fft bounds = .error .zeroDivisionError := by
  constructor
  · intro e he
    unfold gaussian2
    rw [he]
    rfl
  · intro lx ly hx hy h2 hb hltx hlty h0
    obtain ⟨n, rfl⟩ := Int.eq_ofNat_of_zero_le (show 0 ≤ nb by omega)
    have hn : 2 ≤ n := by omega
    unfold gaussian2
    rw [C69_bins samples n hn bounds lx ly hx hy hb hltx hlty]
    simp only [bind, Except.bind]
    have p0 : ∀ f : ℕ → ℝ, pyGet ((List.range n).map f) 0 = .ok (f 0) :=
      fun f => pyGet_map_range n 0 f (by omega)
    have p1 : ∀ f : ℕ → ℝ, pyGet ((List.range n).map f) 1 = .ok (f 1) :=
      fun f => pyGet_map_range n 1 f (by omega)
    rw [pyGet_map_last _ _ (by omega), pyGet_map_last _ _ (by omega), p0, p0, p1, p1]
    simp only []
    rw [if_pos h0]

example : Bounds2 none ([(0, 0), (1, 2), (2, 1)] : List (ℝ × ℝ)) 0 0 2 2 := by norm_num [Bounds2]

end Verif.KDE
