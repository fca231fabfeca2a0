import Verif.KDE.LemmasRounded2

/-!
# Properties of linear binning with rounded operations (C211, C212)
-/

namespace Verif.KDE

open Verif.Window

theorem sizes (lo hi M : ℚ) (nb n : ℕ) (hnb : 2 ≤ nb) (hlo : |lo| ≤ M) (hhi : |hi| ≤ M) (hn0 : n ≠ 0)
    (hn : n ≤ 2 ^ 40) (hd0 : 1 / 2 ^ 900 ≤ (hi - lo) / ((nb : ℚ) - 1)) (hd1 : (hi - lo) / ((nb : ℚ) - 1) ≤ 2 ^ 900)
    (hM : M ≤ 2 ^ 40 * ((hi - lo) / ((nb : ℚ) - 1))) : Sizes lo hi ((hi - lo) / ((nb : ℚ) - 1)) M nb n where
  nb2 := hnb
  step := by
    have : (2 : ℚ) ≤ nb := by exact_mod_cast hnb
    rw [mul_div_cancel₀]
    linarith
  lo_le := hlo
  hi_le := hhi
  d_small := hd0
  d_large := hd1
  ratio := hM
  n1 := by omega
  n_le := by exact_mod_cast hn

theorem gridR_upto (fl : ℚ → ℚ) (lo delta : ℚ) (nb : ℕ) :
    pyUpto (gridR fl lo delta nb) (-1) = (List.range nb).map fun i : ℕ => fl (lo + fl ((i : ℚ) * delta)) := by
  unfold gridR
  rw [pyUpto_range]

theorem upto_full (r : List ℚ) (nb : ℕ) (h : r.length = nb + 1) :
    pyUpto r (-1) = (List.range nb).map fun i => r.getD i 0 := by
  have h1 := list_eq_map r (nb + 1) (fun i => r.getD i 0) h fun i _ => rfl
  conv_lhs => rw [h1]
  rw [pyUpto_range]

/-- **C211**: with rounded operations (doubles), for bounds which are at most `2 ^ 40` steps from zero, binning
succeeds: all bins exist, grid points and bins are near the exact ones (the mean over samples of triangular kernels,
divided by the step), and the sum of bins times the step is near 1; the bin which is removed is negligible. -/
theorem C211_bins (fl : ℚ → ℚ) (hf : IsRounding fl) (x : List ℚ) (nb : ℕ) (hnb : 2 ≤ nb)
    (bounds : Option (ℚ × ℚ)) (lo hi d M : ℚ) (hb : Bounds bounds x lo hi) (hd : d = (hi - lo) / ((nb : ℚ) - 1))
    (hlo : |lo| ≤ M) (hhi : |hi| ≤ M) (hM : M ≤ 2 ^ 40 * d) (hd0 : 1 / 2 ^ 900 ≤ d) (hd1 : d ≤ 2 ^ 900)
    (hn : x.length ≤ 2 ^ 40) :
    ∃ g b full, getBins1R fl x nb bounds = .ok (g, b) ∧ g.length = nb ∧ b.length = nb ∧
      (∀ i < nb, |g.getD i 0 - (lo + i * d)| ≤ 23 * M / 2 ^ 52) ∧
      (∀ i < nb, |b.getD i 0 - linearBin x d (lo + i * d)| ≤ (110 * (M / d) + 4 * x.length) / 2 ^ 52 / d) ∧
      |b.sum * d - 1| ≤ (282 * (M / d) + 12 * x.length) / 2 ^ 52 ∧
      fullBins1R fl x lo hi nb = .ok full ∧ full = b ++ [full.getD nb 0] ∧
      |full.getD nb 0| ≤ (110 * (M / d) + 4 * x.length) / 2 ^ 52 / d := by
  obtain ⟨h1, hne, hx⟩ := bounds1_eq bounds x lo hi hb
  have hx0 : x.length ≠ 0 := by
    intro h
    exact hne (List.length_eq_zero_iff.1 h)
  subst hd
  have S := sizes lo hi M nb x.length hnb hlo hhi hx0 hn hd0 hd1 hM
  generalize hd : (hi - lo) / ((nb : ℚ) - 1) = d at *
  have hdp := S.d_pos
  have hu : ∀ a : ℚ, a * UNIT = a / 2 ^ 52 := fun a => by unfold UNIT; ring
  obtain ⟨r, k1, k2, k3, k4⟩ := S.full_near hf x rfl hx
  have hlast : linearBin x d (lo + nb * d) = 0 := by
    have hhi' : lo + ((nb : ℚ) - 1) * d = hi := by rw [S.step]; ring
    exact (linearBin_sums x hne lo d nb hdp fun s hs => by rw [hhi']; exact hx s hs).2.2
  have hfull := k3 nb (by omega)
  rw [hlast, sub_zero, hu] at hfull
  refine ⟨(List.range nb).map fun i : ℕ => fl (lo + fl ((i : ℚ) * deltaR fl lo hi nb)),
    (List.range nb).map fun i => r.getD i 0, r, ?_, ?_, ?_, ?_, ?_, ?_, k1, ?_, hfull⟩
  · unfold getBins1R
    rw [if_neg (by omega)]
    simp only [h1, Int.toNat_natCast, bind, Except.bind, k1, pure, Except.pure]
    rw [gridR_upto, upto_full r nb k2]
  · simp
  · simp
  · intro i hi'
    have := S.grid_near hf i (by omega)
    rw [List.getD_eq_getElem?_getD, List.getElem?_map, List.getElem?_range hi']
    refine this.trans (le_of_eq ?_)
    unfold UNIT; ring
  · intro i hi'
    have := k3 i (by omega)
    rw [hu] at this
    rw [List.getD_eq_getElem?_getD, List.getElem?_map, List.getElem?_range hi']
    exact this
  · rw [sum_range]
    have e : total r (nb + 1) = ∑ i ∈ Finset.range nb, r.getD i 0 + r.getD nb 0 := Finset.sum_range_succ _ _
    rw [hu, e] at k4
    have k4' := abs_le.1 k4
    have f1 : |r.getD nb 0 * d| ≤ (110 * (M / d) + 4 * x.length) / 2 ^ 52 := by
      rw [abs_mul, abs_of_pos hdp]
      exact (le_div_iff₀ hdp).1 hfull
    have f1' := abs_le.1 f1
    rw [abs_le]
    constructor <;> linarith
  · have h1 := list_eq_map r (nb + 1) (fun i => r.getD i 0) k2 fun i _ => rfl
    conv_lhs => rw [h1]
    rw [List.range_succ, List.map_append, List.map_singleton]

/-- **C211**: bins are negative at most by the error. -/
theorem C211_almost_nonneg (fl : ℚ → ℚ) (hf : IsRounding fl) (x : List ℚ) (nb : ℕ) (hnb : 2 ≤ nb)
    (bounds : Option (ℚ × ℚ)) (lo hi d M : ℚ) (hb : Bounds bounds x lo hi) (hd : d = (hi - lo) / ((nb : ℚ) - 1))
    (hlo : |lo| ≤ M) (hhi : |hi| ≤ M) (hM : M ≤ 2 ^ 40 * d) (hd0 : 1 / 2 ^ 900 ≤ d) (hd1 : d ≤ 2 ^ 900)
    (hn : x.length ≤ 2 ^ 40) (g b : List ℚ) (h : getBins1R fl x nb bounds = .ok (g, b)) :
    ∀ v ∈ b, -((110 * (M / d) + 4 * x.length) / 2 ^ 52 / d) ≤ v := by
  obtain ⟨g', b', full, h1, -, h2, -, h3, -⟩ := C211_bins fl hf x nb hnb bounds lo hi d M hb hd hlo hhi hM hd0 hd1 hn
  rw [h] at h1
  obtain ⟨rfl, rfl⟩ : g = g' ∧ b = b' := by simpa using h1
  intro v hv
  obtain ⟨i, hi', rfl⟩ := List.mem_iff_getElem.1 hv
  have h4 := abs_le.1 (h3 i (by omega))
  have e : b.getD i 0 = b[i] := by simp [hi']
  rw [e] at h4
  have hdp : 0 < d := lt_of_lt_of_le (by positivity) hd0
  have : 0 ≤ linearBin x d (lo + i * d) := by
    refine div_nonneg (List.sum_nonneg ?_) (mul_nonneg (Nat.cast_nonneg _) hdp.le)
    intro w hw
    obtain ⟨s, -, rfl⟩ := List.mem_map.1 hw
    exact hat_nonneg _
  linarith

/-- **C211**: the grid begins at the lower bound, when it is a float. -/
theorem C211_first (fl : ℚ → ℚ) (hf : IsRounding fl) (x : List ℚ) (nb : ℤ) (bounds : Option (ℚ × ℚ)) (lo hi : ℚ)
    (hb : Bounds bounds x lo hi) (hlo : fl lo = lo) (g b : List ℚ) (h : getBins1R fl x nb bounds = .ok (g, b)) :
    g[0]? = some lo := by
  obtain ⟨h1, hne, hx⟩ := bounds1_eq bounds x lo hi hb
  unfold getBins1R at h
  split_ifs at h with h2
  simp only [h1, bind, Except.bind] at h
  cases e : fullBins1R fl x lo hi nb.toNat with
  | error e' => rw [e] at h; cases h
  | ok r =>
    rw [e] at h
    simp only [pure, Except.pure, Except.ok.injEq, Prod.mk.injEq] at h
    rw [← h.1, gridR_upto, List.getElem?_map, List.getElem?_range (by omega)]
    have f0 : fl 0 = 0 := by simpa using hf.int 0 (by norm_num)
    simp [f0, hlo]

/-- **C211**: without rounding this is the binning of C68. -/
theorem C211_exact (x : List ℚ) (nb : ℤ) (bounds : Option (ℚ × ℚ)) :
    getBins1R id x nb bounds = getBins1 x nb bounds := by
  rfl

/-- **C211**: bounds whose range rounds to zero steps: `IndexError`. -/
theorem C211_point (fl : ℚ → ℚ) (x : List ℚ) (nb : ℕ) (hnb : 2 ≤ nb) (bounds : Option (ℚ × ℚ)) (lo hi : ℚ)
    (hb : Bounds bounds x lo hi) (h : deltaR fl lo hi nb = 0) :
    getBins1R fl x nb bounds = .error .indexError := by
  obtain ⟨h1, hne, hx⟩ := bounds1_eq bounds x lo hi hb
  unfold getBins1R fullBins1R
  rw [if_neg (by omega)]
  simp only [h1, Int.toNat_natCast, bind, Except.bind, h, if_true]

/-! ## C212: sizes of smoothed estimates -/

theorem kernel_bounds (fl : ℚ → ℚ) (hf : IsRounding fl) {lo hi d M : ℚ} {nb n : ℕ} (S : Sizes lo hi d M nb n)
    (hr : nb * (M / d) ≤ 2 ^ 43) :
    ∃ m, kernelSizeR fl ((List.range nb).map fun i : ℕ => fl (lo + fl ((i : ℚ) * deltaR fl lo hi nb))) = .ok m ∧
      (m = nb - 1 ∨ m = nb) := by
  have hnb := S.nb2
  have hd := S.d_pos
  have hdM := S.d_le
  have hM : 0 < M := by linarith
  have ht := S.d_tiny
  have hu := S.unitM
  have hU := UNIT_pos
  have hstep := S.step
  have hrange := S.range_le
  have hn1 := S.nb1
  have gA := abs_le.1 (S.grid_near hf (nb - 1) (by omega))
  have gB := abs_le.1 (S.grid_near hf 0 (by omega))
  have gC := abs_le.1 (S.grid_near hf 1 (by omega))
  unfold kernelSizeR
  have i1 : pyGet ((List.range nb).map fun i : ℕ => fl (lo + fl ((i : ℚ) * deltaR fl lo hi nb))) (-1) =
      .ok (fl (lo + fl (((nb - 1 : ℕ) : ℚ) * deltaR fl lo hi nb))) := by
    unfold pyGet
    rw [if_pos (by omega), if_neg (by simp; omega)]
    have : ((-1 : ℤ) + (((List.range nb).map fun i : ℕ => fl (lo + fl ((i : ℚ) * deltaR fl lo hi nb))).length : ℤ)).toNat
      = nb - 1 := by simp; omega
    rw [this]
    simp [show nb - 1 < nb by omega]
  have i0 : pyGet ((List.range nb).map fun i : ℕ => fl (lo + fl ((i : ℚ) * deltaR fl lo hi nb))) 0 =
      .ok (fl (lo + fl (((0 : ℕ) : ℚ) * deltaR fl lo hi nb))) := by
    have := pyGet_nat ((List.range nb).map fun i : ℕ => fl (lo + fl ((i : ℚ) * deltaR fl lo hi nb))) 0
      (by simp; omega)
    simpa using this
  have i2 : pyGet ((List.range nb).map fun i : ℕ => fl (lo + fl ((i : ℚ) * deltaR fl lo hi nb))) 1 =
      .ok (fl (lo + fl (((1 : ℕ) : ℚ) * deltaR fl lo hi nb))) := by
    have := pyGet_nat ((List.range nb).map fun i : ℕ => fl (lo + fl ((i : ℚ) * deltaR fl lo hi nb))) 1
      (by simp; omega)
    simpa using this
  rw [i1, i0, i2]
  simp only [bind, Except.bind, pure, Except.pure]
  generalize fl (lo + fl (((nb - 1 : ℕ) : ℚ) * deltaR fl lo hi nb)) = A at *
  generalize fl (lo + fl (((0 : ℕ) : ℚ) * deltaR fl lo hi nb)) = B at *
  generalize fl (lo + fl (((1 : ℕ) : ℚ) * deltaR fl lo hi nb)) = C at *
  rw [Nat.cast_sub (by omega)] at gA
  push_cast at gA gB gC
  obtain ⟨k, hk⟩ : ∃ k, k = (nb : ℚ) - 1 := ⟨_, rfl⟩
  have hnbk : (nb : ℚ) = k + 1 := by linarith
  rw [← hk] at gA hstep hn1
  have hkd := S.d_le_range
  rw [← hstep] at hkd
  have hud : UNIT * d ≤ 2 * (UNIT * M) := by
    have := mul_le_mul_of_nonneg_left hdM hU.le
    linarith
  have hUM : 0 < UNIT * M := by positivity
  have r1 := abs_le.1 (rnd hf (x := A - B) (a := 3 * M) (by rw [abs_le]; constructor <;> linarith) (by linarith))
  generalize fl (A - B) = xr at *
  have r2 := abs_le.1 (rnd hf (x := C - B) (a := 2 * d) (by rw [abs_le]; constructor <;> linarith) (by linarith))
  generalize fl (C - B) = dx at *
  have r3 := abs_le.1 (rnd hf (x := -xr / 2) (a := 2 * M) (by rw [abs_le]; constructor <;> linarith) (by linarith))
  generalize fl (-xr / 2) = start at *
  have r4 := abs_le.1 (rnd hf (x := xr / 2) (a := 2 * M) (by rw [abs_le]; constructor <;> linarith) (by linarith))
  generalize fl (xr / 2) = stop at *
  have r5 := abs_le.1 (rnd hf (x := stop - start) (a := 4 * M) (by rw [abs_le]; constructor <;> linarith)
    (by linarith))
  generalize fl (stop - start) = N at *
  have hN1 : k * d - 57 * (UNIT * M) ≤ N := by linarith
  have hN2 : N ≤ k * d + 57 * (UNIT * M) := by linarith
  have hx1 : d - 50 * (UNIT * M) ≤ dx := by linarith
  have hx2 : dx ≤ d + 50 * (UNIT * M) := by linarith
  have hdx : d / 2 ≤ dx := by linarith
  have hdx0 : 0 < dx := by linarith
  -- the whole error is less than a half step
  have hkM : 107 * (k * (UNIT * M)) ≤ 107 * (d / 512) := by
    have h1 : k * M ≤ 2 ^ 43 * d := by
      have : (k + 1) * (M / d) * d ≤ 2 ^ 43 * d := by
        rw [hnbk] at hr
        gcongr
      have e : (k + 1) * (M / d) * d = k * M + M := by field_simp
      rw [e] at this
      linarith
    have h2 : UNIT * (k * M) ≤ UNIT * (2 ^ 43 * d) := by gcongr
    have h3 : UNIT * (2 ^ 43 * d) = d / 512 := by
      unfold UNIT; ring
    rw [h3] at h2
    linarith
  have hkx1 : k * (d - 50 * (UNIT * M)) ≤ k * dx := by gcongr
  have hkx2 : k * dx ≤ k * (d + 50 * (UNIT * M)) := by gcongr
  have hk1 : UNIT * M ≤ k * (UNIT * M) := by nlinarith
  have q1 : N / dx ≤ k + 107 / 256 := by
    rw [div_le_iff₀ hdx0]
    have : 107 / 256 * (d / 2) ≤ 107 / 256 * dx := by gcongr
    linarith
  have q2 : k - 107 / 256 ≤ N / dx := by
    rw [le_div_iff₀ hdx0]
    have : 107 / 256 * (d / 2) ≤ 107 / 256 * dx := by gcongr
    linarith
  have hkU : UNIT * (2 * k) ≤ 1 / 128 := by
    have h1 : k * d ≤ 2 * M := by linarith
    have h2 : k ≤ 2 * 2 ^ 40 := by
      have : k * d ≤ (2 * 2 ^ 40) * d := by have := S.ratio; linarith
      exact le_of_mul_le_mul_right this hd
    have : UNIT * (2 * k) ≤ UNIT * (2 * (2 * 2 ^ 40)) := by gcongr
    refine this.trans ?_
    norm_num [UNIT]
  have r6 := abs_le.1 (rnd hf (x := N / dx) (a := 2 * k) (by rw [abs_le]; constructor <;> linarith) (by
    have : (1 : ℚ) / 2 ^ 1000 ≤ 1 / 2 := by
      apply one_div_le_one_div_of_le (by norm_num)
      calc (2 : ℚ) = 2 ^ 1 := by norm_num
        _ ≤ _ := pow_le_pow_right₀ (by norm_num) (by norm_num)
    linarith))
  generalize fl (N / dx) = q at *
  refine ⟨_, rfl, ?_⟩
  have c1 : ⌈q⌉ ≤ (nb : ℤ) := by
    rw [Int.ceil_le]
    push_cast
    linarith
  have c2 : (nb : ℤ) - 2 < ⌈q⌉ := by
    rw [Int.lt_ceil]
    push_cast
    linarith
  omega

/-- **C212**: with rounded operations, the kernel has as many values as there are steps between bins, or one more:
an estimate on `nb` bins has `2 * nb - 2` or `2 * nb - 1` values. -/
theorem C212_sizes (fl : ℚ → ℚ) (hf : IsRounding fl) (x : List ℚ) (nb : ℕ) (hnb : 2 ≤ nb)
    (bounds : Option (ℚ × ℚ)) (lo hi d M : ℚ) (hb : Bounds bounds x lo hi) (hd : d = (hi - lo) / ((nb : ℚ) - 1))
    (hlo : |lo| ≤ M) (hhi : |hi| ≤ M) (hM : M ≤ 2 ^ 40 * d) (hr : nb * (M / d) ≤ 2 ^ 43) (hd0 : 1 / 2 ^ 900 ≤ d)
    (hd1 : d ≤ 2 ^ 900) (hn : x.length ≤ 2 ^ 40) :
    gaussianSizes1R fl x nb bounds = .ok (nb, 2 * nb - 2) ∨
      gaussianSizes1R fl x nb bounds = .ok (nb, 2 * nb - 1) := by
  obtain ⟨h1, hne, hx⟩ := bounds1_eq bounds x lo hi hb
  have hx0 : x.length ≠ 0 := by
    intro h
    exact hne (List.length_eq_zero_iff.1 h)
  subst hd
  have S := sizes lo hi M nb x.length hnb hlo hhi hx0 hn hd0 hd1 hM
  obtain ⟨r, k1, k2, -, -⟩ := S.full_near hf x rfl hx
  obtain ⟨m, km, hm⟩ := kernel_bounds fl hf S hr
  have e : gaussianSizes1R fl x nb bounds = .ok (nb, nb + m - 1) := by
    unfold gaussianSizes1R getBins1R
    rw [if_neg (by omega)]
    simp only [h1, Int.toNat_natCast, bind, Except.bind, k1, pure, Except.pure]
    rw [gridR_upto, upto_full r nb k2, km]
    simp
  rw [e]
  rcases hm with rfl | rfl
  · left
    rw [show nb + (nb - 1) - 1 = 2 * nb - 2 by omega]
  · right
    rw [show m + m - 1 = 2 * m - 1 by omega]

/-- **C212**: without rounding, the estimate has `2 * nb - 2` values, as in C106. -/
theorem C212_exact (x : List ℚ) (nb : ℕ) (hnb : 2 ≤ nb) (bounds : Option (ℚ × ℚ)) (lo hi : ℚ)
    (hb : Bounds bounds x lo hi) (hlt : lo < hi) : gaussianSizes1R id x nb bounds = .ok (nb, 2 * nb - 2) := by
  have hnb' : (1 : ℚ) ≤ (nb : ℚ) - 1 := by
    have : (2 : ℚ) ≤ nb := by exact_mod_cast hnb
    linarith
  unfold gaussianSizes1R
  rw [C211_exact, C68_bins x nb hnb bounds lo hi hb hlt]
  have hd : 0 < (hi - lo) / ((nb : ℚ) - 1) := div_pos (by linarith) (by linarith)
  have hk : ((nb : ℚ) - 1) * ((hi - lo) / ((nb : ℚ) - 1)) = hi - lo := by
    rw [mul_div_cancel₀]; linarith
  generalize (hi - lo) / ((nb : ℚ) - 1) = d at *
  have e : kernelSizeR id ((List.range nb).map fun i : ℕ => lo + (i : ℚ) * d) = .ok (nb - 1) := by
    have i1 : pyGet ((List.range nb).map fun i : ℕ => lo + (i : ℚ) * d) (-1) = .ok hi := by
      unfold pyGet
      rw [if_pos (by omega), if_neg (by simp; omega)]
      have : ((-1 : ℤ) + (((List.range nb).map fun i : ℕ => lo + (i : ℚ) * d).length : ℤ)).toNat = nb - 1 := by
        simp; omega
      rw [this, List.getElem?_map, List.getElem?_range (by omega), Option.map_some, Nat.cast_sub (by omega),
        Nat.cast_one, hk]
      simp
    have i0 := pyGet_nat ((List.range nb).map fun i : ℕ => lo + (i : ℚ) * d) 0 (by simp; omega)
    have i2 := pyGet_nat ((List.range nb).map fun i : ℕ => lo + (i : ℚ) * d) 1 (by simp; omega)
    simp only [Nat.cast_zero, Nat.cast_one, List.getElem_map, List.getElem_range, zero_mul, add_zero, one_mul] at i0 i2
    unfold kernelSizeR
    rw [i1, i0, i2]
    simp only [bind, Except.bind, pure, Except.pure, id]
    have e1 : ((hi - lo) / 2 - -(hi - lo) / 2) / (lo + d - lo) = ((nb - 1 : ℕ) : ℚ) := by
      rw [Nat.cast_sub (by omega), Nat.cast_one, div_eq_iff (by linarith), add_sub_cancel_left, hk]
      ring
    rw [e1, Int.ceil_natCast, Int.toNat_natCast]
  simp only [bind, Except.bind]
  rw [e]
  simp only [pure, Except.pure, List.length_map, List.length_range]
  rw [show nb + (nb - 1) - 1 = 2 * nb - 2 by omega]

end Verif.KDE
