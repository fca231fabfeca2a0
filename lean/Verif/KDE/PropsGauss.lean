import Verif.KDE.Props2
import Mathlib.Algebra.BigOperators.Field
import Mathlib.Algebra.Order.BigOperators.Ring.Finset

/-!
# Properties of kernel density estimation (C106)
-/

namespace Verif.KDE

/-! ## Specification -/

/-- The kernel, before it is normalised, at its grid point `k`; `R` is the range and `d` the step. -/
noncomputable def kernel (R d h : ℝ) (k : ℕ) : ℝ := Real.exp (-(1 / 2) / h ^ 2 * (-R / 2 + k * d) ^ 2)

/-- Sum of the kernel on its grid of `nb - 1` points. -/
noncomputable def kernelSum (R d h : ℝ) (nb : ℕ) : ℝ := ∑ k ∈ Finset.range (nb - 1), kernel R d h k

/-! ## Lemmas -/

theorem pyGet_map_range (n i : ℕ) (f : ℕ → ℝ) (h : i < n) :
    pyGet ((List.range n).map f) (i : ℤ) = .ok (f i) := by
  rw [pyGet_nat _ _ (by simpa using h)]
  simp

theorem pyGet_map_last (n : ℕ) (f : ℕ → ℝ) (h : 0 < n) :
    pyGet ((List.range n).map f) (-1) = .ok (f (n - 1)) := by
  unfold pyGet
  rw [if_pos (by omega), if_neg (by simp; omega)]
  have : (-1 + (((List.range n).map f).length : ℤ)).toNat = n - 1 := by simp; omega
  rw [this, List.getElem?_map, List.getElem?_range (by omega)]
  rfl

theorem arange_eq (R d : ℝ) (nb : ℕ) (hd : 0 < d) (hnb : 2 ≤ nb) (hR : R = ((nb : ℝ) - 1) * d) :
    arange (-R / 2) (R / 2) d = (List.range (nb - 1)).map fun k : ℕ => -R / 2 + (k : ℝ) * d := by
  unfold arange
  have : (R / 2 - -R / 2) / d = ((nb - 1 : ℕ) : ℤ) := by
    rw [Int.cast_natCast, Nat.cast_sub (by omega), Nat.cast_one, hR]
    field_simp
    ring
  rw [this, Int.ceil_intCast, Int.toNat_natCast]

theorem getD_map_range (n i : ℕ) (f : ℕ → ℝ) :
    ((List.range n).map f).getD i 0 = if i < n then f i else 0 := by
  rw [List.getD_eq_getElem?_getD, List.getElem?_map]
  by_cases h : i < n
  · rw [List.getElem?_range h, if_pos h]; rfl
  · rw [List.getElem?_eq_none (by simp; omega), if_neg h]; rfl

theorem kernelSum_pos (R d h : ℝ) (nb : ℕ) (hnb : 2 ≤ nb) : 0 < kernelSum R d h nb :=
  Finset.sum_pos (fun _ _ => Real.exp_pos _) ⟨0, Finset.mem_range.2 (by omega)⟩

/-- What `gaussian_kde_1d` returns. -/
theorem gaussian1_eq (x : List ℝ) (h : ℝ) (hh : h ≠ 0) (nb : ℕ) (hnb : 2 ≤ nb) (fft : Bool)
    (bounds : Option (ℝ × ℝ)) (lo hi : ℝ) (hb : Bounds bounds x lo hi) (hlt : lo < hi) :
    gaussian1 x h nb fft bounds = .ok
      ((List.range nb).map fun i : ℕ => lo + i * ((hi - lo) / ((nb : ℝ) - 1)),
       convolve ((List.range nb).map fun i : ℕ =>
          linearBin x ((hi - lo) / ((nb : ℝ) - 1)) (lo + i * ((hi - lo) / ((nb : ℝ) - 1))))
        ((List.range (nb - 1)).map fun k => kernel (hi - lo) ((hi - lo) / ((nb : ℝ) - 1)) h k /
          kernelSum (hi - lo) ((hi - lo) / ((nb : ℝ) - 1)) h nb)) := by
  obtain ⟨hd, e⟩ := steps_pos lo hi nb hnb hlt
  unfold gaussian1
  rw [C68_bins x nb hnb bounds lo hi hb hlt]
  simp only [bind, Except.bind]
  rw [pyGet_map_last _ _ (by omega), show (0 : ℤ) = ((0 : ℕ) : ℤ) from rfl,
    pyGet_map_range _ 0 _ (by omega), show (1 : ℤ) = ((1 : ℕ) : ℤ) from rfl,
    pyGet_map_range _ 1 _ (by omega)]
  simp only []
  rw [if_neg hh]
  have e1 : lo + ((nb - 1 : ℕ) : ℝ) * ((hi - lo) / ((nb : ℝ) - 1)) -
      (lo + ((0 : ℕ) : ℝ) * ((hi - lo) / ((nb : ℝ) - 1))) = hi - lo := by
    rw [Nat.cast_sub (by omega), Nat.cast_one, e]
    simp
  have e2 : lo + ((1 : ℕ) : ℝ) * ((hi - lo) / ((nb : ℝ) - 1)) -
      (lo + ((0 : ℕ) : ℝ) * ((hi - lo) / ((nb : ℝ) - 1))) = (hi - lo) / ((nb : ℝ) - 1) := by
    push_cast; ring
  rw [e1, e2, arange_eq (hi - lo) ((hi - lo) / ((nb : ℝ) - 1)) nb hd hnb (by linarith)]
  simp only [List.map_map, Function.comp_def, sum_range]
  rfl

/-- Weighted sum of a convolution. -/
theorem convolve_moment (n m : ℕ) (hm : 1 ≤ m) (a b w : ℕ → ℝ) :
    ∑ t ∈ Finset.range (n + m - 1), (∑ i ∈ Finset.range n,
      (if i ≤ t then a i * (if t - i < m then b (t - i) else 0) else 0)) * w t =
      ∑ i ∈ Finset.range n, ∑ k ∈ Finset.range m, a i * b k * w (i + k) := by
  simp only [Finset.sum_mul]
  rw [Finset.sum_comm]
  apply Finset.sum_congr rfl
  intro i hi
  rw [Finset.mem_range] at hi
  have hsub : Finset.image (fun k => i + k) (Finset.range m) ⊆ Finset.range (n + m - 1) := by
    intro t ht
    obtain ⟨k, hk, rfl⟩ := Finset.mem_image.1 ht
    rw [Finset.mem_range] at hk ⊢
    omega
  rw [← Finset.sum_subset hsub, Finset.sum_image fun k _ l _ h => by simpa using h]
  · apply Finset.sum_congr rfl
    intro k hk
    rw [Finset.mem_range] at hk
    rw [if_pos (by omega), Nat.add_sub_cancel_left, if_pos hk]
  · intro t _ ht
    split_ifs with h1 h2
    · exact absurd (Finset.mem_image.2 ⟨t - i, Finset.mem_range.2 h2, by omega⟩) ht
    · rw [mul_zero, zero_mul]
    · rw [zero_mul]

/-- Sum of a convolution. -/
theorem convolve_sum (n m : ℕ) (hm : 1 ≤ m) (a b : ℕ → ℝ) :
    ∑ t ∈ Finset.range (n + m - 1), ∑ i ∈ Finset.range n,
      (if i ≤ t then a i * (if t - i < m then b (t - i) else 0) else 0) =
      (∑ i ∈ Finset.range n, a i) * ∑ k ∈ Finset.range m, b k := by
  have h := convolve_moment n m hm a b fun _ => 1
  simp only [mul_one] at h
  rw [h, Finset.sum_mul_sum]

theorem convolve_map (n m : ℕ) (a b : ℕ → ℝ) :
    convolve ((List.range n).map a) ((List.range m).map b) =
      (List.range (n + m - 1)).map fun t => ∑ i ∈ Finset.range n,
        if i ≤ t then a i * (if t - i < m then b (t - i) else 0) else 0 := by
  unfold convolve
  simp only [List.length_map, List.length_range, getD_map_range]
  apply List.map_congr_left
  intro t _
  apply Finset.sum_congr rfl
  intro i hi
  rw [Finset.mem_range] at hi
  rw [if_pos hi]

theorem linearBin_nonneg (x : List ℝ) (d g : ℝ) (hd : 0 < d) : 0 ≤ linearBin x d g := by
  unfold linearBin
  refine div_nonneg (List.sum_nonneg ?_) (by positivity)
  intro w hw
  obtain ⟨s, -, rfl⟩ := List.mem_map.1 hw
  exact hat_nonneg _

/-! ## C106: one dimension -/

/-- **C106**: the estimate on `2 * nb - 2` points is not negative and has mass 1. -/
theorem C106_mass (x : List ℝ) (h : ℝ) (hh : h ≠ 0) (nb : ℕ) (hnb : 2 ≤ nb) (fft : Bool)
    (bounds : Option (ℝ × ℝ)) (lo hi : ℝ) (hb : Bounds bounds x lo hi) (hlt : lo < hi) :
    ∃ g kde, gaussian1 x h nb fft bounds = .ok (g, kde) ∧ g.length = nb ∧ kde.length = 2 * nb - 2 ∧
      (∀ v ∈ kde, 0 ≤ v) ∧ kde.sum * ((hi - lo) / ((nb : ℝ) - 1)) = 1 := by
  obtain ⟨hd, e⟩ := steps_pos lo hi nb hnb hlt
  obtain ⟨h1, hne, hx⟩ := bounds1_eq bounds x lo hi hb
  refine ⟨_, _, gaussian1_eq x h hh nb hnb fft bounds lo hi hb hlt, by simp, ?_, ?_, ?_⟩
  · rw [convolve_map]
    simp
    omega
  · rw [convolve_map]
    intro v hv
    obtain ⟨t, -, rfl⟩ := List.mem_map.1 hv
    apply Finset.sum_nonneg
    intro i _
    split_ifs
    · exact mul_nonneg (linearBin_nonneg _ _ _ hd)
        (div_nonneg (Real.exp_pos _).le (kernelSum_pos _ _ _ _ hnb).le)
    · rw [mul_zero]
    · exact le_rfl
  · rw [convolve_map, sum_range, convolve_sum nb (nb - 1) (by omega)
      (fun i : ℕ => linearBin x ((hi - lo) / ((nb : ℝ) - 1)) (lo + i * ((hi - lo) / ((nb : ℝ) - 1))))
      (fun k => kernel (hi - lo) ((hi - lo) / ((nb : ℝ) - 1)) h k /
        kernelSum (hi - lo) ((hi - lo) / ((nb : ℝ) - 1)) h nb), ← Finset.sum_div]
    have : (∑ i ∈ Finset.range (nb - 1), kernel (hi - lo) ((hi - lo) / ((nb : ℝ) - 1)) h i) /
        kernelSum (hi - lo) ((hi - lo) / ((nb : ℝ) - 1)) h nb = 1 :=
      div_self (kernelSum_pos _ _ _ _ hnb).ne'
    rw [this, mul_one]
    exact (linearBin_sums x hne lo _ nb hd fun s hs => by rw [e]; exact hx s hs).1

/-- The kernel is symmetric, but for its first point. -/
theorem kernel_moment (d h : ℝ) (nb : ℕ) (hnb : 2 ≤ nb) :
    ∑ k ∈ Finset.range (nb - 1), kernel (((nb : ℝ) - 1) * d) d h k *
        (-(((nb : ℝ) - 1) * d) / 2 + k * d) =
      kernel (((nb : ℝ) - 1) * d) d h 0 * (-(((nb : ℝ) - 1) * d) / 2) := by
  obtain ⟨m, rfl⟩ : ∃ m, nb = m + 2 := ⟨nb - 2, by omega⟩
  rw [show m + 2 - 1 = m + 1 from rfl, Finset.sum_range_succ']
  set f : ℕ → ℝ := fun k => kernel ((((m + 2 : ℕ) : ℝ) - 1) * d) d h (k + 1) *
    (-((((m + 2 : ℕ) : ℝ) - 1) * d) / 2 + ((k + 1 : ℕ) : ℝ) * d) with hf
  have h0 : ∑ k ∈ Finset.range m, f k = 0 := by
    have h1 := Finset.sum_range_reflect f m
    have h2 : ∀ k ∈ Finset.range m, f (m - 1 - k) = - f k := by
      intro k hk
      rw [Finset.mem_range] at hk
      have e : ((m - 1 - k + 1 : ℕ) : ℝ) = (m : ℝ) - k := by
        rw [show m - 1 - k + 1 = m - k from by omega, Nat.cast_sub hk.le]
      have t : -((((m + 2 : ℕ) : ℝ) - 1) * d) / 2 + ((m - 1 - k + 1 : ℕ) : ℝ) * d =
          -(-((((m + 2 : ℕ) : ℝ) - 1) * d) / 2 + ((k + 1 : ℕ) : ℝ) * d) := by
        rw [e]
        push_cast
        ring
      simp only [hf, kernel]
      rw [t, neg_sq]
      ring
    rw [Finset.sum_congr rfl h2, Finset.sum_neg_distrib] at h1
    linarith
  rw [h0, zero_add]
  simp

/-- **C106**: on the points from the lower bound minus half of the range, the mean of the estimate is the
mean of samples minus half of the range times the first value of the kernel, which nothing balances. -/
theorem C106_mean (x : List ℝ) (h : ℝ) (hh : h ≠ 0) (nb : ℕ) (hnb : 2 ≤ nb) (fft : Bool)
    (bounds : Option (ℝ × ℝ)) (lo hi : ℝ) (hb : Bounds bounds x lo hi) (hlt : lo < hi) :
    ∃ g kde, gaussian1 x h nb fft bounds = .ok (g, kde) ∧
      (∑ t ∈ Finset.range kde.length, kde.getD t 0 *
        (lo - (hi - lo) / 2 + t * ((hi - lo) / ((nb : ℝ) - 1)))) * ((hi - lo) / ((nb : ℝ) - 1)) =
      x.sum / x.length - (hi - lo) / 2 *
        (kernel (hi - lo) ((hi - lo) / ((nb : ℝ) - 1)) h 0 /
          kernelSum (hi - lo) ((hi - lo) / ((nb : ℝ) - 1)) h nb) := by
  obtain ⟨hd, e⟩ := steps_pos lo hi nb hnb hlt
  obtain ⟨h1, hne, hx⟩ := bounds1_eq bounds x lo hi hb
  refine ⟨_, _, gaussian1_eq x h hh nb hnb fft bounds lo hi hb hlt, ?_⟩
  obtain ⟨s1, s2, -⟩ := linearBin_sums x hne lo ((hi - lo) / ((nb : ℝ) - 1)) nb hd
    fun s hs => by rw [e]; exact hx s hs
  have hR : hi - lo = ((nb : ℝ) - 1) * ((hi - lo) / ((nb : ℝ) - 1)) := by linarith
  have hk := kernel_moment ((hi - lo) / ((nb : ℝ) - 1)) h nb hnb
  rw [← hR] at hk
  have hS := kernelSum_pos (hi - lo) ((hi - lo) / ((nb : ℝ) - 1)) h nb hnb
  have hS' : ∑ k ∈ Finset.range (nb - 1), kernel (hi - lo) ((hi - lo) / ((nb : ℝ) - 1)) h k =
    kernelSum (hi - lo) ((hi - lo) / ((nb : ℝ) - 1)) h nb := rfl
  rw [convolve_map]
  simp only [List.length_map, List.length_range, getD_map_range]
  generalize hd' : (hi - lo) / ((nb : ℝ) - 1) = d at *
  have e1 : ∀ t ∈ Finset.range (nb + (nb - 1) - 1), ∀ v w : ℝ,
      (if t < nb + (nb - 1) - 1 then v else 0) * w = v * w :=
    fun t ht v w => by rw [if_pos (Finset.mem_range.1 ht)]
  rw [Finset.sum_congr rfl fun t ht => e1 t ht _ _,
    convolve_moment nb (nb - 1) (by omega) (fun i : ℕ => linearBin x d (lo + i * d))
      (fun k => kernel (hi - lo) d h k / kernelSum (hi - lo) d h nb)
      (fun t : ℕ => lo - (hi - lo) / 2 + t * d)]
  have e2 : ∀ i ∈ Finset.range nb, ∑ k ∈ Finset.range (nb - 1), linearBin x d (lo + i * d) *
      (kernel (hi - lo) d h k / kernelSum (hi - lo) d h nb) *
      (lo - (hi - lo) / 2 + ((i + k : ℕ) : ℝ) * d) =
      linearBin x d (lo + i * d) * (lo + i * d) +
      linearBin x d (lo + i * d) *
        (kernel (hi - lo) d h 0 * (-(hi - lo) / 2) / kernelSum (hi - lo) d h nb) := by
    intro i _
    have e3 : ∀ k ∈ Finset.range (nb - 1), linearBin x d (lo + i * d) *
      (kernel (hi - lo) d h k / kernelSum (hi - lo) d h nb) *
      (lo - (hi - lo) / 2 + ((i + k : ℕ) : ℝ) * d) =
      linearBin x d (lo + i * d) * (lo + i * d) / kernelSum (hi - lo) d h nb *
        kernel (hi - lo) d h k +
      linearBin x d (lo + i * d) / kernelSum (hi - lo) d h nb *
        (kernel (hi - lo) d h k * (-(hi - lo) / 2 + k * d)) := by
      intro k _
      push_cast
      ring
    rw [Finset.sum_congr rfl e3, Finset.sum_add_distrib, ← Finset.mul_sum, ← Finset.mul_sum, hk, hS']
    field_simp
  rw [Finset.sum_congr rfl e2, Finset.sum_add_distrib, ← Finset.sum_mul, add_mul, s2]
  have e4 : ∀ u : ℝ, (∑ i ∈ Finset.range nb, linearBin x d (lo + i * d)) * u * d = u := by
    intro u
    rw [mul_right_comm, s1, one_mul]
  rw [e4]
  ring

/-- **C106**: errors of the bins, then a null width. -/
theorem C106_errors (x : List ℝ) (h : ℝ) (nb : ℤ) (fft : Bool) (bounds : Option (ℝ × ℝ)) :
    (∀ e, getBins1 x nb bounds = .error e → gaussian1 x h nb fft bounds = .error e) ∧
    ∀ lo hi, 2 ≤ nb → Bounds bounds x lo hi → lo < hi →
      gaussian1 x 0 nb fft bounds = .error .zeroDivisionError := by
  constructor
  · intro e he
    unfold gaussian1
    rw [he]
    rfl
  · intro lo hi h2 hb hlt
    obtain ⟨n, rfl⟩ := Int.eq_ofNat_of_zero_le (show 0 ≤ nb by omega)
    have hn : 2 ≤ n := by omega
    unfold gaussian1
    rw [C68_bins x n hn bounds lo hi hb hlt]
    simp only [bind, Except.bind]
    rw [pyGet_map_last _ _ (by omega), show (0 : ℤ) = ((0 : ℕ) : ℤ) from rfl,
      pyGet_map_range _ 0 _ (by omega), show (1 : ℤ) = ((1 : ℕ) : ℤ) from rfl,
      pyGet_map_range _ 1 _ (by omega)]
    exact if_pos trivial

/-- **C106**: moving samples (and bounds) moves the grid and leaves the estimate as it is. -/
theorem C106_shift (x : List ℝ) (h c : ℝ) (hh : h ≠ 0) (nb : ℕ) (hnb : 2 ≤ nb) (fft : Bool)
    (bounds : Option (ℝ × ℝ)) (lo hi : ℝ) (hb : Bounds bounds x lo hi) (hlt : lo < hi) :
    ∃ g kde, gaussian1 x h nb fft bounds = .ok (g, kde) ∧
      gaussian1 (x.map (· + c)) h nb fft (bounds.map fun b => (b.1 + c, b.2 + c)) =
        .ok (g.map (· + c), kde) := by
  refine ⟨_, _, gaussian1_eq x h hh nb hnb fft bounds lo hi hb hlt, ?_⟩
  have hb' : Bounds (bounds.map fun b => (b.1 + c, b.2 + c)) (x.map (· + c)) (lo + c) (hi + c) := by
    cases bounds with
    | none =>
      obtain ⟨⟨h1, h2⟩, h3, h4⟩ := hb
      refine ⟨⟨List.mem_map_of_mem h1, ?_⟩, List.mem_map_of_mem h3, ?_⟩
      · intro s hs
        obtain ⟨t, ht, rfl⟩ := List.mem_map.1 hs
        simpa using h2 t ht
      · intro s hs
        obtain ⟨t, ht, rfl⟩ := List.mem_map.1 hs
        simpa using h4 t ht
    | some b =>
      obtain ⟨rfl, hne, hx⟩ := hb
      refine ⟨rfl, by simpa using hne, ?_⟩
      intro s hs
      obtain ⟨t, ht, rfl⟩ := List.mem_map.1 hs
      simpa using hx t ht
  rw [gaussian1_eq (x.map (· + c)) h hh nb hnb fft _ _ _ hb' (by linarith)]
  have e : hi + c - (lo + c) = hi - lo := by ring
  have el : ∀ g, linearBin (x.map (· + c)) ((hi - lo) / ((nb : ℝ) - 1)) (g + c) =
      linearBin x ((hi - lo) / ((nb : ℝ) - 1)) g := by
    intro g
    unfold linearBin
    rw [List.map_map, List.length_map]
    congr 3
    funext s
    simp
  rw [e]
  have eg : ∀ i : ℕ, lo + c + i * ((hi - lo) / ((nb : ℝ) - 1)) =
      lo + i * ((hi - lo) / ((nb : ℝ) - 1)) + c := fun i => by ring
  simp only [eg, el, List.map_map, Function.comp_def]

example : Bounds none ([0, 1, 3, 4] : List ℝ) 0 4 ∧ Bounds (some (-1, 5)) ([0, 1, 3, 4] : List ℝ) (-1) 5 := by
  constructor
  · norm_num [Bounds]
  · refine ⟨rfl, by simp, by norm_num⟩

end Verif.KDE
