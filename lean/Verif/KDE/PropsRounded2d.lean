import Verif.KDE.LemmasRounded2d
import Verif.KDE.PropsRounded

/-!
# Properties of linear binning in two dimensions with rounded operations (C222)
-/

namespace Verif.KDE

open Verif.Window

theorem pow900 {d : ℚ} (h0 : 1 / 2 ^ 400 ≤ d) (h1 : d ≤ 2 ^ 400) : 1 / 2 ^ 900 ≤ d ∧ d ≤ 2 ^ 900 :=
  ⟨(one_div_le_one_div_of_le (by positivity) (pow_le_pow_right₀ (by norm_num) (by norm_num))).trans h0,
    h1.trans (pow_le_pow_right₀ (by norm_num) (by norm_num))⟩

theorem upto_rows (r : List (List ℚ)) (nb : ℕ) (h : Shape (nb + 1) (nb + 1) r) :
    (pyUpto r (-1)).map (fun row => pyUpto row (-1)) =
      (List.range nb).map fun i => (List.range nb).map fun j => get2 r i j := by
  obtain ⟨h1, h2⟩ := h
  have e : pyUpto r (-1) = r.take nb := by
    unfold pyUpto pyBound
    rw [if_pos (by omega)]
    have : (-1 + (r.length : ℤ)).toNat = nb := by omega
    rw [this]
  rw [e]
  apply List.ext_getElem
  · simp [h1]
  · intro i h3 h4
    have hi : i < nb := by simpa using h4
    simp only [List.getElem_map, List.getElem_take, List.getElem_range]
    rw [upto_full _ nb (h2 _ (List.getElem_mem _))]
    apply List.map_congr_left
    intro j _
    unfold get2
    congr 1
    rw [List.getD_eq_getElem?_getD, List.getElem?_eq_getElem (by omega), Option.getD_some]

theorem get2_range (f : ℕ → ℕ → ℚ) (nb i j : ℕ) (hi : i < nb) (hj : j < nb) :
    get2 ((List.range nb).map fun i => (List.range nb).map fun j => f i j) i j = f i j := by
  unfold get2
  rw [List.getD_eq_getElem?_getD (l := (List.range nb).map fun i => (List.range nb).map fun j => f i j),
    List.getElem?_map, List.getElem?_range hi, Option.map_some, Option.getD_some, List.getD_eq_getElem?_getD,
    List.getElem?_map, List.getElem?_range hj, Option.map_some, Option.getD_some]

theorem abs_sum_range (f : ℕ → ℚ) (N : ℕ) (E : ℚ) (h : ∀ i < N, |f i| ≤ E) :
    |∑ i ∈ Finset.range N, f i| ≤ N * E := by
  calc |∑ i ∈ Finset.range N, f i| ≤ ∑ i ∈ Finset.range N, |f i| := Finset.abs_sum_le_sum_abs _ _
    _ ≤ ∑ _i ∈ Finset.range N, E := Finset.sum_le_sum fun i hi => h i (Finset.mem_range.1 hi)
    _ = N * E := by simp

theorem total2_split (r : List (List ℚ)) (nb : ℕ) (E : ℚ) (h1 : ∀ i < nb + 1, |get2 r i nb| ≤ E)
    (h2 : ∀ j < nb + 1, |get2 r nb j| ≤ E) :
    |total2 r (nb + 1) - total2 r nb| ≤ (2 * nb + 1) * E := by
  have e : total2 r (nb + 1) - total2 r nb =
      ∑ i ∈ Finset.range nb, get2 r i nb + ∑ j ∈ Finset.range (nb + 1), get2 r nb j := by
    unfold total2
    rw [Finset.sum_range_succ]
    have : ∀ i ∈ Finset.range nb, ∑ j ∈ Finset.range (nb + 1), get2 r i j =
        ∑ j ∈ Finset.range nb, get2 r i j + get2 r i nb := fun i _ => Finset.sum_range_succ _ _
    rw [Finset.sum_congr rfl this, Finset.sum_add_distrib]
    ring
  rw [e]
  have a1 := abs_sum_range (fun i => get2 r i nb) nb E fun i hi => h1 i (by omega)
  have a2 := abs_sum_range (fun j => get2 r nb j) (nb + 1) E h2
  have := abs_add_le (∑ i ∈ Finset.range nb, get2 r i nb) (∑ j ∈ Finset.range (nb + 1), get2 r nb j)
  push_cast at a2
  linarith

/-- **C222**: with rounded operations (doubles), for bounds which are at most `2 ^ 40` steps from zero, binning in two
dimensions succeeds: all bins exist, grid points and bins are near the exact ones (the mean over samples of products
of triangular kernels, divided by the area of a cell), the sum of bins times the area of a cell is near 1, and the
bins which are removed are negligible. -/
theorem C222_bins (fl : ℚ → ℚ) (hf : IsRounding fl) (samples : List (ℚ × ℚ)) (nb : ℕ) (hnb : 2 ≤ nb)
    (bounds : Option ((ℚ × ℚ) × (ℚ × ℚ))) (lx ly hx hy dx dy Mx My : ℚ)
    (hb : Bounds2 bounds samples lx ly hx hy)
    (hdx : dx = (hx - lx) / ((nb : ℚ) - 1)) (hdy : dy = (hy - ly) / ((nb : ℚ) - 1))
    (hlx : |lx| ≤ Mx) (hhx : |hx| ≤ Mx) (hMx : Mx ≤ 2 ^ 40 * dx) (hdx0 : 1 / 2 ^ 400 ≤ dx) (hdx1 : dx ≤ 2 ^ 400)
    (hly : |ly| ≤ My) (hhy : |hy| ≤ My) (hMy : My ≤ 2 ^ 40 * dy) (hdy0 : 1 / 2 ^ 400 ≤ dy) (hdy1 : dy ≤ 2 ^ 400)
    (hn : samples.length ≤ 2 ^ 40) :
    ∃ gx gy b full, getBins2R fl samples nb bounds = .ok (gx, gy, b) ∧
      gx.length = nb ∧ gy.length = nb ∧ Shape nb nb b ∧
      (∀ i < nb, |gx.getD i 0 - (lx + i * dx)| ≤ 23 * Mx / 2 ^ 52) ∧
      (∀ j < nb, |gy.getD j 0 - (ly + j * dy)| ≤ 23 * My / 2 ^ 52) ∧
      (∀ i < nb, ∀ j < nb, |get2 b i j - linearBin2 samples dx dy (lx + i * dx) (ly + j * dy)| ≤
        (109 * (Mx / dx + My / dy) + 4 * samples.length) / 2 ^ 52 / (dx * dy)) ∧
      |(b.map List.sum).sum * (dx * dy) - 1| ≤
        ((336 + 109 * (2 * nb + 1)) * (Mx / dx + My / dy) + (16 + 4 * (2 * nb + 1)) * samples.length) / 2 ^ 52 ∧
      fullBins2R fl samples (lx, ly) (hx, hy) nb = .ok full ∧ Shape (nb + 1) (nb + 1) full ∧
      (∀ i < nb, ∀ j < nb, get2 full i j = get2 b i j) ∧
      ∀ i < nb + 1, |get2 full i nb| ≤ (109 * (Mx / dx + My / dy) + 4 * samples.length) / 2 ^ 52 / (dx * dy) ∧
        |get2 full nb i| ≤ (109 * (Mx / dx + My / dy) + 4 * samples.length) / 2 ^ 52 / (dx * dy) := by
  obtain ⟨h1, hne, hin⟩ := bounds2_eq bounds samples lx ly hx hy hb
  have hx0 : samples.length ≠ 0 := by
    intro h
    exact hne (List.length_eq_zero_iff.1 h)
  subst hdx hdy
  have Sx := sizes lx hx Mx nb samples.length hnb hlx hhx hx0 hn (pow900 hdx0 hdx1).1 (pow900 hdx0 hdx1).2 hMx
  have Sy := sizes ly hy My nb samples.length hnb hly hhy hx0 hn (pow900 hdy0 hdy1).1 (pow900 hdy0 hdy1).2 hMy
  generalize (hx - lx) / ((nb : ℚ) - 1) = dx at *
  generalize (hy - ly) / ((nb : ℚ) - 1) = dy at *
  have S : Sizes2 lx ly hx hy dx dy Mx My nb samples.length := ⟨Sx, Sy, hdx0, hdx1, hdy0, hdy1⟩
  have hxp := Sx.d_pos
  have hyp := Sy.d_pos
  have hp := mul_pos hxp hyp
  have hu : ∀ a : ℚ, a * UNIT = a / 2 ^ 52 := fun a => by unfold UNIT; ring
  have ex : lx + ((nb : ℚ) - 1) * dx = hx := by rw [Sx.step]; ring
  have ey : ly + ((nb : ℚ) - 1) * dy = hy := by rw [Sy.step]; ring
  obtain ⟨r, k1, k2, k3, k4⟩ := S.full_near hf samples rfl hin
  have hcol : ∀ i < nb + 1, |get2 r i nb| ≤
      (109 * (Mx / dx + My / dy) + 4 * samples.length) / 2 ^ 52 / (dx * dy) := by
    intro i hi
    have := k3 i hi nb (by omega)
    rw [(linearBin2_row samples dx dy (lx + i * dx) ly nb hxp hyp
      fun s hs => by rw [ey]; exact (hin s hs).2).2, sub_zero, hu] at this
    exact this
  have hrow : ∀ j < nb + 1, |get2 r nb j| ≤
      (109 * (Mx / dx + My / dy) + 4 * samples.length) / 2 ^ 52 / (dx * dy) := by
    intro j hj
    have := k3 nb (by omega) j hj
    rw [linearBin2_swap, (linearBin2_row (samples.map Prod.swap) dy dx (ly + j * dy) lx nb hyp hxp
      fun s hs => by
        obtain ⟨t, ht, rfl⟩ := List.mem_map.1 hs
        rw [ex]
        exact (hin t ht).1).2, sub_zero, hu] at this
    exact this
  refine ⟨(List.range nb).map fun i : ℕ => fl (lx + fl ((i : ℚ) * deltaR fl lx hx nb)),
    (List.range nb).map fun i : ℕ => fl (ly + fl ((i : ℚ) * deltaR fl ly hy nb)),
    (List.range nb).map fun i => (List.range nb).map fun j => get2 r i j, r, ?_, by simp, by simp, ?_, ?_, ?_, ?_, ?_,
    k1, k2, fun i hi j hj => (get2_range (fun i j => get2 r i j) nb i j hi hj).symm,
    fun i hi => ⟨hcol i hi, hrow i hi⟩⟩
  · unfold getBins2R
    rw [if_neg (by omega)]
    simp only [h1, Int.toNat_natCast, bind, Except.bind, k1, pure, Except.pure]
    rw [gridR_upto, gridR_upto, upto_rows r nb k2]
  · refine ⟨by simp, fun row h => ?_⟩
    obtain ⟨i, -, rfl⟩ := List.mem_map.1 h
    simp
  · intro i hi
    have := Sx.grid_near hf i (by omega)
    rw [List.getD_eq_getElem?_getD, List.getElem?_map, List.getElem?_range hi]
    refine this.trans (le_of_eq ?_)
    unfold UNIT; ring
  · intro i hi
    have := Sy.grid_near hf i (by omega)
    rw [List.getD_eq_getElem?_getD, List.getElem?_map, List.getElem?_range hi]
    refine this.trans (le_of_eq ?_)
    unfold UNIT; ring
  · intro i hi j hj
    rw [get2_range (fun i j => get2 r i j) nb i j hi hj, ← hu]
    exact k3 i (by omega) j (by omega)
  · have e : (((List.range nb).map fun i => (List.range nb).map fun j => get2 r i j).map List.sum).sum = total2 r nb := by
      rw [List.map_map]
      simp only [Function.comp_def, sum_range]
      rfl
    rw [e]
    have a1 := total2_split r nb _ hcol hrow
    rw [hu] at k4
    generalize hE : 109 * (Mx / dx + My / dy) + 4 * (samples.length : ℚ) = E at *
    have a2 : |(total2 r (nb + 1) - total2 r nb) * (dx * dy)| ≤ (2 * nb + 1) * (E / 2 ^ 52) := by
      rw [abs_mul, abs_of_pos hp]
      calc _ ≤ ((2 * nb + 1) * (E / 2 ^ 52 / (dx * dy))) * (dx * dy) := by gcongr
        _ = _ := by field_simp
    have a2' := abs_le.1 a2
    have k4' := abs_le.1 k4
    have e2 : ((336 + 109 * (2 * (nb : ℚ) + 1)) * (Mx / dx + My / dy) +
        (16 + 4 * (2 * (nb : ℚ) + 1)) * samples.length) / 2 ^ 52 =
        (336 * (Mx / dx + My / dy) + 16 * samples.length) / 2 ^ 52 + (2 * nb + 1) * (E / 2 ^ 52) := by
      rw [← hE]; ring
    rw [e2, abs_le]
    constructor <;> linarith

/-- **C222**: bins are negative at most by the error. -/
theorem C222_almost_nonneg (fl : ℚ → ℚ) (hf : IsRounding fl) (samples : List (ℚ × ℚ)) (nb : ℕ) (hnb : 2 ≤ nb)
    (bounds : Option ((ℚ × ℚ) × (ℚ × ℚ))) (lx ly hx hy dx dy Mx My : ℚ)
    (hb : Bounds2 bounds samples lx ly hx hy)
    (hdx : dx = (hx - lx) / ((nb : ℚ) - 1)) (hdy : dy = (hy - ly) / ((nb : ℚ) - 1))
    (hlx : |lx| ≤ Mx) (hhx : |hx| ≤ Mx) (hMx : Mx ≤ 2 ^ 40 * dx) (hdx0 : 1 / 2 ^ 400 ≤ dx) (hdx1 : dx ≤ 2 ^ 400)
    (hly : |ly| ≤ My) (hhy : |hy| ≤ My) (hMy : My ≤ 2 ^ 40 * dy) (hdy0 : 1 / 2 ^ 400 ≤ dy) (hdy1 : dy ≤ 2 ^ 400)
    (hn : samples.length ≤ 2 ^ 40) (gx gy : List ℚ) (b : List (List ℚ))
    (h : getBins2R fl samples nb bounds = .ok (gx, gy, b)) :
    ∀ row ∈ b, ∀ v ∈ row, -((109 * (Mx / dx + My / dy) + 4 * samples.length) / 2 ^ 52 / (dx * dy)) ≤ v := by
  obtain ⟨gx', gy', b', full, h1, -, -, h2, -, -, h3, -⟩ := C222_bins fl hf samples nb hnb bounds lx ly hx hy dx dy Mx My
    hb hdx hdy hlx hhx hMx hdx0 hdx1 hly hhy hMy hdy0 hdy1 hn
  rw [h] at h1
  obtain ⟨-, -, rfl⟩ : gx = gx' ∧ gy = gy' ∧ b = b' := by simpa using h1
  intro row hrow v hv
  obtain ⟨i, hi, rfl⟩ := List.mem_iff_getElem.1 hrow
  obtain ⟨j, hj, rfl⟩ := List.mem_iff_getElem.1 hv
  have hl := h2.2 _ hrow
  have h4 := abs_le.1 (h3 i (by rw [← h2.1]; exact hi) j (by rw [← hl]; exact hj))
  have e : get2 b i j = b[i][j] := by
    unfold get2
    simp [hi, hj]
  rw [e] at h4
  have := linearBin2_nonneg samples dx dy (lx + i * dx) (ly + j * dy) (lt_of_lt_of_le (by positivity) hdx0)
    (lt_of_lt_of_le (by positivity) hdy0)
  linarith

/-- **C222**: grids begin at the lower bounds, when these are floats. -/
theorem C222_first (fl : ℚ → ℚ) (hf : IsRounding fl) (samples : List (ℚ × ℚ)) (nb : ℤ)
    (bounds : Option ((ℚ × ℚ) × (ℚ × ℚ))) (lx ly hx hy : ℚ) (hb : Bounds2 bounds samples lx ly hx hy)
    (hlx : fl lx = lx) (hly : fl ly = ly) (gx gy : List ℚ) (b : List (List ℚ))
    (h : getBins2R fl samples nb bounds = .ok (gx, gy, b)) : gx[0]? = some lx ∧ gy[0]? = some ly := by
  obtain ⟨h1, hne, hin⟩ := bounds2_eq bounds samples lx ly hx hy hb
  unfold getBins2R at h
  split_ifs at h with h2
  simp only [h1, bind, Except.bind] at h
  cases e : fullBins2R fl samples (lx, ly) (hx, hy) nb.toNat with
  | error e' => rw [e] at h; cases h
  | ok r =>
    rw [e] at h
    simp only [pure, Except.pure, Except.ok.injEq, Prod.mk.injEq] at h
    have f0 : fl 0 = 0 := by simpa using hf.int 0 (by norm_num)
    constructor
    · rw [← h.1, gridR_upto, List.getElem?_map, List.getElem?_range (by omega)]
      simp [f0, hlx]
    · rw [← h.2.1, gridR_upto, List.getElem?_map, List.getElem?_range (by omega)]
      simp [f0, hly]

theorem fullBins2R_id (samples : List (ℚ × ℚ)) (lo hi : ℚ × ℚ) (nb : ℕ) :
    fullBins2R id samples lo hi nb = fullBins2 samples lo hi nb := by
  have h0 : addAtR id = addAt := rfl
  have h1 : addAt2R id = addAt2 := by
    funext bins b c w
    unfold addAt2R addAt2
    rw [h0]
    cases pyIndex bins.length b with
    | none => rfl
    | some k =>
      simp only []
      cases bins[k]? <;> rfl
  have h2 : spread2R id = spread2 := by unfold spread2R spread2; rw [h1]; rfl
  unfold fullBins2R fullBins2
  rw [h2]
  simp only [deltaR, id]
  by_cases h : ((hi.1 - lo.1) / ((nb : ℚ) - 1) = 0 ∨ (hi.2 - lo.2) / ((nb : ℚ) - 1) = 0) ∧ samples ≠ []
  · exact (if_pos h).trans (if_pos h).symm
  · exact (if_neg h).trans (if_neg h).symm

/-- **C222**: without rounding this is the binning of C69. -/
theorem C222_exact (samples : List (ℚ × ℚ)) (nb : ℤ) (bounds : Option ((ℚ × ℚ) × (ℚ × ℚ))) :
    getBins2R id samples nb bounds = getBins2 samples nb bounds := by
  unfold getBins2R getBins2
  simp only [fullBins2R_id]
  rfl

/-- **C222**: bounds whose range rounds to zero steps along an axis: `IndexError`. -/
theorem C222_point (fl : ℚ → ℚ) (samples : List (ℚ × ℚ)) (nb : ℕ) (hnb : 2 ≤ nb)
    (bounds : Option ((ℚ × ℚ) × (ℚ × ℚ))) (lx ly hx hy : ℚ) (hb : Bounds2 bounds samples lx ly hx hy)
    (h : deltaR fl lx hx nb = 0 ∨ deltaR fl ly hy nb = 0) :
    getBins2R fl samples nb bounds = .error .indexError := by
  obtain ⟨h1, hne, hin⟩ := bounds2_eq bounds samples lx ly hx hy hb
  unfold getBins2R fullBins2R
  rw [if_neg (by omega)]
  simp only [h1, Int.toNat_natCast, bind, Except.bind]
  rw [if_pos ⟨h, hne⟩]

end Verif.KDE
