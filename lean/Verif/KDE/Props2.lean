import Verif.KDE.Props

/-!
# Properties of linear binning in two dimensions (C69)
-/

namespace Verif.KDE

variable {K : Type} [Field K] [LinearOrder K] [IsStrictOrderedRing K] [FloorRing K]

/-! ## Specification -/

/-- Bin of a grid point in two dimensions: the mean over samples of the product of triangular kernels,
divided by the area of a cell. -/
def linearBin2 (samples : List (K × K)) (dx dy gx gy : K) : K :=
  (samples.map fun s => hat ((s.1 - gx) / dx) * hat ((s.2 - gy) / dy)).sum /
    (samples.length * dx * dy)

/-! ## Lemmas -/

/-- An array with `n` lines and `m` columns. -/
def Shape (n m : ℕ) (bins : List (List K)) : Prop := bins.length = n ∧ ∀ row ∈ bins, row.length = m

/-- An entry. -/
def get2 (bins : List (List K)) (i j : ℕ) : K := (bins.getD i []).getD j 0

theorem addAt2_spec (n m : ℕ) (bins : List (List K)) (hs : Shape n m bins) (b c : ℕ) (hb : b < n)
    (hc : c < m) (w : K) :
    ∃ r, addAt2 bins (b : ℤ) (c : ℤ) w = .ok r ∧ Shape n m r ∧
      ∀ i < n, ∀ j < m, get2 r i j = get2 bins i j + if i = b ∧ j = c then w else 0 := by
  obtain ⟨hl, hr⟩ := hs
  have hbl : b < bins.length := by omega
  have hrow : (bins[b]).length = m := hr _ (List.getElem_mem hbl)
  obtain ⟨row', h1, h2, h3⟩ := addAt_spec bins[b] c w (by omega)
  refine ⟨bins.set b row', ?_, ⟨by simp [hl], fun row hm => ?_⟩, fun i hi j hj => ?_⟩
  · unfold addAt2 pyIndex
    rw [if_pos (by omega), if_pos (by omega)]
    simp only [Int.toNat_natCast, List.getElem?_eq_getElem hbl, h1]
    rfl
  · rcases List.mem_or_eq_of_mem_set hm with h | h
    · exact hr row h
    · rw [h, h2, hrow]
  · unfold get2
    rw [List.getD_eq_getElem?_getD (l := bins.set b row'), List.getElem?_set]
    by_cases hib : b = i
    · subst hib
      rw [if_pos rfl, if_pos hbl, Option.getD_some, h3 j (by omega),
        List.getD_eq_getElem?_getD (l := bins), List.getElem?_eq_getElem hbl, Option.getD_some]
      simp
    · have h' : ¬ (i = b ∧ j = c) := fun h => hib h.1.symm
      rw [if_neg hib, if_neg h', add_zero, List.getD_eq_getElem?_getD (l := bins)]

theorem spread2_spec (lx ly dx dy weight : K) (nb : ℕ) (bins : List (List K)) (s : K × K)
    (hdx : 0 < dx) (hdy : 0 < dy) (hs : Shape (nb + 1) (nb + 1) bins)
    (hx0 : lx ≤ s.1) (hx1 : s.1 ≤ lx + ((nb : K) - 1) * dx)
    (hy0 : ly ≤ s.2) (hy1 : s.2 ≤ ly + ((nb : K) - 1) * dy) :
    ∃ r, spread2 (grid lx dx nb) (grid ly dy nb) dx dy weight bins s
        ⌊(s.1 - lx) / dx⌋ ⌊(s.2 - ly) / dy⌋ = .ok r ∧ Shape (nb + 1) (nb + 1) r ∧
      ∀ i < nb + 1, ∀ j < nb + 1, get2 r i j = get2 bins i j +
        weight * (hat ((s.1 - (lx + i * dx)) / dx) * hat ((s.2 - (ly + j * dy)) / dy)) := by
  have hu0 : 0 ≤ (s.1 - lx) / dx := div_nonneg (by linarith) hdx.le
  have hu1 : (s.1 - lx) / dx ≤ (nb : K) - 1 := by
    rw [div_le_iff₀ hdx]; linarith
  have hv0 : 0 ≤ (s.2 - ly) / dy := div_nonneg (by linarith) hdy.le
  have hv1 : (s.2 - ly) / dy ≤ (nb : K) - 1 := by
    rw [div_le_iff₀ hdy]; linarith
  obtain ⟨b, hb, hbn⟩ := floor_range _ nb hu0 hu1
  obtain ⟨c, hc, hcn⟩ := floor_range _ nb hv0 hv1
  have hfx : Int.fract ((s.1 - lx) / dx) = (s.1 - lx) / dx - b := by
    rw [Int.fract, hb]; push_cast; rfl
  have hfy : Int.fract ((s.2 - ly) / dy) = (s.2 - ly) / dy - c := by
    rw [Int.fract, hc]; push_cast; rfl
  have eb : ((b : ℤ) + 1) = ((b + 1 : ℕ) : ℤ) := by push_cast; rfl
  have ec : ((c : ℤ) + 1) = ((c + 1 : ℕ) : ℤ) := by push_cast; rfl
  have wl : (lx + ((b + 1 : ℕ) : K) * dx - s.1) / dx = 1 - Int.fract ((s.1 - lx) / dx) := by
    rw [hfx]; push_cast; field_simp; ring
  have wr : (s.1 - (lx + (b : K) * dx)) / dx = Int.fract ((s.1 - lx) / dx) := by
    rw [hfx]; field_simp; ring
  have wb : (ly + ((c + 1 : ℕ) : K) * dy - s.2) / dy = 1 - Int.fract ((s.2 - ly) / dy) := by
    rw [hfy]; push_cast; field_simp; ring
  have wu : (s.2 - (ly + (c : K) * dy)) / dy = Int.fract ((s.2 - ly) / dy) := by
    rw [hfy]; field_simp; ring
  have hhx : ∀ i : ℕ, hat ((s.1 - (lx + i * dx)) / dx) =
      (if i = b then 1 - Int.fract ((s.1 - lx) / dx) else 0) +
      if i = b + 1 then Int.fract ((s.1 - lx) / dx) else 0 := by
    intro i
    have hh : (s.1 - (lx + i * dx)) / dx = (s.1 - lx) / dx - i := by
      field_simp
      ring
    rw [hh, hat_floor, hb]
    have c1 : ((i : ℤ) = (b : ℤ)) ↔ i = b := by omega
    have c2 : ((i : ℤ) = (b : ℤ) + 1) ↔ i = b + 1 := by omega
    simp only [c1, c2]
  have hhy : ∀ j : ℕ, hat ((s.2 - (ly + j * dy)) / dy) =
      (if j = c then 1 - Int.fract ((s.2 - ly) / dy) else 0) +
      if j = c + 1 then Int.fract ((s.2 - ly) / dy) else 0 := by
    intro j
    have hh : (s.2 - (ly + j * dy)) / dy = (s.2 - ly) / dy - j := by
      field_simp
      ring
    rw [hh, hat_floor, hc]
    have c1 : ((j : ℤ) = (c : ℤ)) ↔ j = c := by omega
    have c2 : ((j : ℤ) = (c : ℤ) + 1) ↔ j = c + 1 := by omega
    simp only [c1, c2]
  unfold spread2
  rw [hb, hc, eb, ec, pyGet_grid lx dx nb (b + 1) (by omega), pyGet_grid lx dx nb b (by omega),
    pyGet_grid ly dy nb (c + 1) (by omega), pyGet_grid ly dy nb c (by omega)]
  simp only [bind, Except.bind, wl, wr, wb, wu]
  generalize Int.fract ((s.1 - lx) / dx) = f at *
  generalize Int.fract ((s.2 - ly) / dy) = g at *
  obtain ⟨r1, e1, s1, g1⟩ := addAt2_spec _ _ bins hs b c (by omega) (by omega)
    (weight * (1 - f) * (1 - g))
  obtain ⟨r2, e2, s2, g2⟩ := addAt2_spec _ _ r1 s1 b (c + 1) (by omega) (by omega)
    (weight * (1 - f) * g)
  obtain ⟨r3, e3, s3, g3⟩ := addAt2_spec _ _ r2 s2 (b + 1) c (by omega) (by omega)
    (weight * f * (1 - g))
  obtain ⟨r4, e4, s4, g4⟩ := addAt2_spec _ _ r3 s3 (b + 1) (c + 1) (by omega) (by omega)
    (weight * f * g)
  refine ⟨r4, ?_, s4, fun i hi j hj => ?_⟩
  · rw [e1]
    simp only []
    rw [e2]
    simp only []
    rw [e3]
    simp only []
    rw [e4]
  · rw [g4 i hi j hj, g3 i hi j hj, g2 i hi j hj, g1 i hi j hj, hhx, hhy]
    by_cases h1 : i = b
    · have h1' : ¬ i = b + 1 := by omega
      by_cases h2 : j = c
      · have h2' : ¬ j = c + 1 := by omega
        simp only [h1, h2, h1', h2', true_and, false_and, and_true, and_false, if_true, if_false]
        simp
        ring
      · by_cases h3 : j = c + 1
        · simp [h1, h3]
          ring
        · simp [h1, h2, h3]
    · by_cases h1' : i = b + 1
      · by_cases h2 : j = c
        · simp [h1', h2]
          ring
        · by_cases h3 : j = c + 1
          · simp [h1', h3]
            ring
          · simp [h1', h2, h3]
      · simp [h1, h1']

theorem fold2_spec (lx ly dx dy weight : K) (nb : ℕ) (hdx : 0 < dx) (hdy : 0 < dy)
    (samples : List (K × K)) (bins : List (List K)) (hs : Shape (nb + 1) (nb + 1) bins)
    (hx : ∀ s ∈ samples, (lx ≤ s.1 ∧ s.1 ≤ lx + ((nb : K) - 1) * dx) ∧
      ly ≤ s.2 ∧ s.2 ≤ ly + ((nb : K) - 1) * dy) :
    ∃ r, samples.foldlM (fun bins s => spread2 (grid lx dx nb) (grid ly dy nb) dx dy weight bins s
        ⌊(s.1 - lx) / dx⌋ ⌊(s.2 - ly) / dy⌋) bins = .ok r ∧ Shape (nb + 1) (nb + 1) r ∧
      ∀ i < nb + 1, ∀ j < nb + 1, get2 r i j = get2 bins i j + weight * (samples.map fun s =>
        hat ((s.1 - (lx + i * dx)) / dx) * hat ((s.2 - (ly + j * dy)) / dy)).sum := by
  induction samples generalizing bins with
  | nil => exact ⟨bins, rfl, hs, fun i _ j _ => by simp⟩
  | cons s x ih =>
    obtain ⟨⟨a1, a2⟩, a3, a4⟩ := hx s List.mem_cons_self
    obtain ⟨r1, h1, hl1, he1⟩ := spread2_spec lx ly dx dy weight nb bins s hdx hdy hs a1 a2 a3 a4
    obtain ⟨r, h2, hl2, he2⟩ := ih r1 hl1 fun s hs => hx s (List.mem_cons_of_mem _ hs)
    refine ⟨r, ?_, hl2, fun i hi j hj => ?_⟩
    · rw [List.foldlM_cons, h1]
      exact h2
    · rw [he2 i hi j hj, he1 i hi j hj, List.map_cons, List.sum_cons]
      ring

theorem list2_eq_map (l : List (List K)) (n m : ℕ) (f : ℕ → ℕ → K) (h : Shape n m l)
    (hf : ∀ i < n, ∀ j < m, get2 l i j = f i j) :
    l = (List.range n).map fun i => (List.range m).map fun j => f i j := by
  obtain ⟨h1, h2⟩ := h
  apply List.ext_getElem
  · simp [h1]
  · intro i hi hi'
    simp only [List.getElem_map, List.getElem_range]
    apply list_eq_map _ _ _ (h2 _ (List.getElem_mem hi))
    intro j hj
    have := hf i (by omega) j hj
    unfold get2 at this
    rw [List.getD_eq_getElem?_getD (l := l), List.getElem?_eq_getElem hi, Option.getD_some] at this
    exact this

theorem fullBins2_eq (samples : List (K × K)) (lx ly hx hy : K) (nb : ℕ) (hnb : 2 ≤ nb)
    (hltx : lx < hx) (hlty : ly < hy)
    (hin : ∀ s ∈ samples, (lx ≤ s.1 ∧ s.1 ≤ hx) ∧ ly ≤ s.2 ∧ s.2 ≤ hy) :
    fullBins2 samples (lx, ly) (hx, hy) nb = .ok ((List.range (nb + 1)).map fun i : ℕ =>
      (List.range (nb + 1)).map fun j : ℕ =>
      linearBin2 samples ((hx - lx) / ((nb : K) - 1)) ((hy - ly) / ((nb : K) - 1))
        (lx + i * ((hx - lx) / ((nb : K) - 1))) (ly + j * ((hy - ly) / ((nb : K) - 1)))) := by
  have hn1 : (0 : K) < (nb : K) - 1 := by
    have : (2 : K) ≤ nb := by exact_mod_cast hnb
    linarith
  have hdx : 0 < (hx - lx) / ((nb : K) - 1) := div_pos (by linarith) hn1
  have hdy : 0 < (hy - ly) / ((nb : K) - 1) := div_pos (by linarith) hn1
  have ex : lx + ((nb : K) - 1) * ((hx - lx) / ((nb : K) - 1)) = hx := by
    rw [mul_div_cancel₀ _ hn1.ne']; ring
  have ey : ly + ((nb : K) - 1) * ((hy - ly) / ((nb : K) - 1)) = hy := by
    rw [mul_div_cancel₀ _ hn1.ne']; ring
  unfold fullBins2
  simp only []
  rw [if_neg (by rintro ⟨h | h, -⟩ <;> [exact hdx.ne' h; exact hdy.ne' h])]
  obtain ⟨r, h1, h2, h3⟩ := fold2_spec lx ly ((hx - lx) / ((nb : K) - 1)) ((hy - ly) / ((nb : K) - 1))
    (1 / ((samples.length : K) * ((hx - lx) / ((nb : K) - 1)) * ((hy - ly) / ((nb : K) - 1)))) nb hdx hdy
    samples (List.replicate (nb + 1) (List.replicate (nb + 1) 0))
    ⟨by simp, fun row hr => by rw [List.eq_of_mem_replicate hr]; simp⟩
    (fun s hs => by rw [ex, ey]; exact hin s hs)
  rw [h1]
  congr 1
  apply list2_eq_map r _ _ _ h2
  intro i hi' j hj'
  rw [h3 i hi' j hj']
  have hz : get2 (List.replicate (nb + 1) (List.replicate (nb + 1) (0 : K))) i j = 0 := by
    unfold get2
    rw [List.getD_eq_getElem?_getD (l := List.replicate (nb + 1) (List.replicate (nb + 1) (0 : K))),
      List.getElem?_replicate, if_pos hi', Option.getD_some, List.getD_eq_getElem?_getD,
      List.getElem?_replicate, if_pos hj', Option.getD_some]
  rw [hz]
  unfold linearBin2
  ring

/-- Bounds of the grids: the given ones, if all samples are between them (which the code does not check),
else the least and the greatest coordinates. -/
def Bounds2 (bounds : Option ((K × K) × (K × K))) (samples : List (K × K)) (lx ly hx hy : K) : Prop :=
  match bounds with
  | none => ((lx ∈ samples.map Prod.fst ∧ ∀ s ∈ samples, lx ≤ s.1) ∧
      hx ∈ samples.map Prod.fst ∧ ∀ s ∈ samples, s.1 ≤ hx) ∧
      (ly ∈ samples.map Prod.snd ∧ ∀ s ∈ samples, ly ≤ s.2) ∧
      hy ∈ samples.map Prod.snd ∧ ∀ s ∈ samples, s.2 ≤ hy
  | some b => b = ((lx, ly), (hx, hy)) ∧ samples ≠ [] ∧
      ∀ s ∈ samples, (lx ≤ s.1 ∧ s.1 ≤ hx) ∧ ly ≤ s.2 ∧ s.2 ≤ hy

theorem bounds2_eq (bounds : Option ((K × K) × (K × K))) (samples : List (K × K)) (lx ly hx hy : K)
    (h : Bounds2 bounds samples lx ly hx hy) :
    bounds2 samples bounds = .ok ((lx, ly), (hx, hy)) ∧ samples ≠ [] ∧
      ∀ s ∈ samples, (lx ≤ s.1 ∧ s.1 ≤ hx) ∧ ly ≤ s.2 ∧ s.2 ≤ hy := by
  cases bounds with
  | none =>
    obtain ⟨⟨⟨a1, a2⟩, a3, a4⟩, ⟨b1, b2⟩, b3, b4⟩ := h
    have hne : samples ≠ [] := by
      rintro rfl
      simp at a1
    refine ⟨?_, hne, fun s hs => ⟨⟨a2 s hs, a4 s hs⟩, b2 s hs, b4 s hs⟩⟩
    have key : ∀ (l : List K) (lo hi : K), l ≠ [] → lo ∈ l → (∀ s ∈ l, lo ≤ s) → hi ∈ l →
        (∀ s ∈ l, s ≤ hi) → npMin l = .ok lo ∧ npMax l = .ok hi := by
      intro l lo hi hl h1 h2 h3 h4
      obtain ⟨m, e1, hm1, hm2⟩ := npMin_spec l hl
      obtain ⟨m', e2, hm3, hm4⟩ := npMax_spec l hl
      rw [e1, e2, le_antisymm (hm2 lo h1) (h2 m hm1), le_antisymm (h4 m' hm3) (hm4 hi h3)]
      exact ⟨rfl, rfl⟩
    obtain ⟨k1, k2⟩ := key (samples.map Prod.fst) lx hx (by simpa using hne) a1
      (by simpa using fun a b h => a2 (a, b) h) a3 (by simpa using fun a b h => a4 (a, b) h)
    obtain ⟨k3, k4⟩ := key (samples.map Prod.snd) ly hy (by simpa using hne) b1
      (by simpa using fun a b h => b2 (b, a) h) b3 (by simpa using fun a b h => b4 (b, a) h)
    unfold bounds2
    simp only [k1, k2, k3, k4]
    rfl
  | some b =>
    obtain ⟨rfl, h⟩ := h
    exact ⟨rfl, h⟩

theorem steps_pos (lo hi : K) (nb : ℕ) (hnb : 2 ≤ nb) (hlt : lo < hi) :
    0 < (hi - lo) / ((nb : K) - 1) ∧ lo + ((nb : K) - 1) * ((hi - lo) / ((nb : K) - 1)) = hi := by
  have hn1 : (0 : K) < (nb : K) - 1 := by
    have : (2 : K) ≤ nb := by exact_mod_cast hnb
    linarith
  exact ⟨div_pos (by linarith) hn1, by rw [mul_div_cancel₀ _ hn1.ne']; ring⟩

theorem linearBin2_nonneg (samples : List (K × K)) (dx dy gx gy : K) (hdx : 0 < dx) (hdy : 0 < dy) :
    0 ≤ linearBin2 samples dx dy gx gy := by
  unfold linearBin2
  refine div_nonneg (List.sum_nonneg ?_) (by positivity)
  intro w hw
  obtain ⟨s, -, rfl⟩ := List.mem_map.1 hw
  exact mul_nonneg (hat_nonneg _) (hat_nonneg _)

theorem linearBin2_row (samples : List (K × K)) (dx dy gx ly : K) (nb : ℕ) (hdx : 0 < dx) (hdy : 0 < dy)
    (hy : ∀ s ∈ samples, ly ≤ s.2 ∧ s.2 ≤ ly + ((nb : K) - 1) * dy) :
    (∑ j ∈ Finset.range nb, linearBin2 samples dx dy gx (ly + j * dy)) * dy =
      linearBin (samples.map Prod.fst) dx gx ∧
    linearBin2 samples dx dy gx (ly + nb * dy) = 0 := by
  have key : ∀ l : List (K × K), (∀ s ∈ l, ly ≤ s.2 ∧ s.2 ≤ ly + ((nb : K) - 1) * dy) →
      ∑ j ∈ Finset.range nb, (l.map fun s => hat ((s.1 - gx) / dx) * hat ((s.2 - (ly + j * dy)) / dy)).sum
        = (l.map fun s => hat ((s.1 - gx) / dx)).sum ∧
      (l.map fun s => hat ((s.1 - gx) / dx) * hat ((s.2 - (ly + nb * dy)) / dy)).sum = 0 := by
    intro l hl
    induction l with
    | nil => simp
    | cons s l ih =>
      obtain ⟨i1, i2⟩ := ih fun s hs => hl s (List.mem_cons_of_mem _ hs)
      obtain ⟨e1, -, e3⟩ := hat_sums_grid s.2 ly dy nb hdy (hl s List.mem_cons_self).1
        (hl s List.mem_cons_self).2
      simp only [List.map_cons, List.sum_cons]
      rw [Finset.sum_add_distrib, i1, i2, ← Finset.mul_sum, e1, e3]
      exact ⟨by ring, by ring⟩
  obtain ⟨k1, k2⟩ := key samples hy
  unfold linearBin2 linearBin
  constructor
  · simp only [div_eq_mul_inv _ (_ * dx * dy)]
    rw [← Finset.sum_mul, k1, List.map_map, List.length_map]
    simp only [Function.comp_def]
    field_simp
  · rw [k2, zero_div]

theorem linearBin2_swap (samples : List (K × K)) (dx dy gx gy : K) :
    linearBin2 samples dx dy gx gy = linearBin2 (samples.map Prod.swap) dy dx gy gx := by
  unfold linearBin2
  rw [List.map_map, List.length_map, mul_right_comm]
  simp only [Function.comp_def, Prod.fst_swap, Prod.snd_swap, mul_comm]

/-! ## C69: linear binning in two dimensions -/

/-- **C69**: the bin of a grid point is the mean over samples of the product of the triangular kernels
around it, divided by the area of a cell. -/
theorem C69_bins (samples : List (K × K)) (nb : ℕ) (hnb : 2 ≤ nb) (bounds : Option ((K × K) × (K × K)))
    (lx ly hx hy : K) (hb : Bounds2 bounds samples lx ly hx hy) (hltx : lx < hx) (hlty : ly < hy) :
    getBins2 samples nb bounds = .ok
      ((List.range nb).map fun i : ℕ => lx + i * ((hx - lx) / ((nb : K) - 1)),
       (List.range nb).map fun j : ℕ => ly + j * ((hy - ly) / ((nb : K) - 1)),
       (List.range nb).map fun i : ℕ => (List.range nb).map fun j : ℕ =>
        linearBin2 samples ((hx - lx) / ((nb : K) - 1)) ((hy - ly) / ((nb : K) - 1))
          (lx + i * ((hx - lx) / ((nb : K) - 1))) (ly + j * ((hy - ly) / ((nb : K) - 1)))) := by
  obtain ⟨h1, hne, hin⟩ := bounds2_eq bounds samples lx ly hx hy hb
  unfold getBins2
  rw [if_neg (by omega)]
  simp only [h1, Int.toNat_natCast, bind, Except.bind]
  rw [fullBins2_eq samples lx ly hx hy nb hnb hltx hlty hin]
  simp only [pure, Except.pure, grid]
  have hrows : ∀ f : ℕ → List K, pyUpto ((List.range (nb + 1)).map f) (-1) = (List.range nb).map f := by
    intro f
    unfold pyUpto pyBound
    rw [if_pos (by omega)]
    have : (-1 + (((List.range (nb + 1)).map f).length : ℤ)).toNat = nb := by simp
    rw [this, ← List.map_take, List.take_range, min_eq_left (by omega)]
  rw [pyUpto_range, pyUpto_range, hrows, List.map_map]
  simp only [Function.comp_def, pyUpto_range]

/-- **C69**: bins are not negative, their sum times the area of a cell is 1, and the bins which are removed
are null. -/
theorem C69_mass (samples : List (K × K)) (nb : ℕ) (hnb : 2 ≤ nb) (bounds : Option ((K × K) × (K × K)))
    (lx ly hx hy : K) (hb : Bounds2 bounds samples lx ly hx hy) (hltx : lx < hx) (hlty : ly < hy) :
    ∃ gx gy b full, getBins2 samples nb bounds = .ok (gx, gy, b) ∧ gx.length = nb ∧ gy.length = nb ∧
      Shape nb nb b ∧ (∀ row ∈ b, ∀ v ∈ row, 0 ≤ v) ∧
      (b.map List.sum).sum * (((hx - lx) / ((nb : K) - 1)) * ((hy - ly) / ((nb : K) - 1))) = 1 ∧
      fullBins2 samples (lx, ly) (hx, hy) nb = .ok full ∧
      full = b.map (fun row => row ++ [0]) ++ [List.replicate (nb + 1) 0] := by
  obtain ⟨h1, hne, hin⟩ := bounds2_eq bounds samples lx ly hx hy hb
  obtain ⟨hdx, ex⟩ := steps_pos lx hx nb hnb hltx
  obtain ⟨hdy, ey⟩ := steps_pos ly hy nb hnb hlty
  have hrow := fun i : ℕ => linearBin2_row samples _ _ (lx + i * ((hx - lx) / ((nb : K) - 1))) ly nb hdx hdy
    (fun s hs => by rw [ey]; exact (hin s hs).2)
  have hcol := fun j : ℕ => linearBin2_row (samples.map Prod.swap) _ _
    (ly + j * ((hy - ly) / ((nb : K) - 1))) lx nb hdy hdx (fun s hs => by
      obtain ⟨t, ht, rfl⟩ := List.mem_map.1 hs
      rw [ex]
      exact (hin t ht).1)
  refine ⟨_, _, _, _, C69_bins samples nb hnb bounds lx ly hx hy hb hltx hlty, by simp, by simp, ?_, ?_, ?_,
    fullBins2_eq samples lx ly hx hy nb hnb hltx hlty hin, ?_⟩
  · refine ⟨by simp, fun row hr => ?_⟩
    obtain ⟨i, -, rfl⟩ := List.mem_map.1 hr
    simp
  · intro row hr v hv
    obtain ⟨i, -, rfl⟩ := List.mem_map.1 hr
    obtain ⟨j, -, rfl⟩ := List.mem_map.1 hv
    exact linearBin2_nonneg _ _ _ _ _ hdx hdy
  · rw [List.map_map]
    simp only [Function.comp_def, sum_range]
    obtain ⟨s1, -, -⟩ := linearBin_sums (samples.map Prod.fst) (by simpa using hne) lx
      ((hx - lx) / ((nb : K) - 1)) nb hdx (fun s hs => by
        obtain ⟨t, ht, rfl⟩ := List.mem_map.1 hs
        rw [ex]
        exact (hin t ht).1)
    rw [mul_comm ((hx - lx) / ((nb : K) - 1)), ← mul_assoc, Finset.sum_mul]
    simp only [(hrow _).1]
    exact s1
  · rw [List.range_succ, List.map_append, List.map_singleton]
    congr 1
    · rw [List.map_map]
      apply List.map_congr_left
      intro i _
      simp only [Function.comp]
      rw [List.map_append, List.map_singleton, (hrow i).2]
    · congr 1
      rw [List.eq_replicate_iff]
      refine ⟨by simp, fun v hv => ?_⟩
      rw [← List.range_succ] at hv
      obtain ⟨j, -, rfl⟩ := List.mem_map.1 hv
      rw [linearBin2_swap]
      exact (hcol j).2

/-- **C69**: summing the bins along the second axis gives the one dimensional bins of first
coordinates, and the other way round. -/
theorem C69_marginals (samples : List (K × K)) (nb : ℕ) (hnb : 2 ≤ nb)
    (bounds : Option ((K × K) × (K × K)))
    (lx ly hx hy : K) (hb : Bounds2 bounds samples lx ly hx hy) (hltx : lx < hx) (hlty : ly < hy)
    (gx gy : List K) (b : List (List K)) (h : getBins2 samples nb bounds = .ok (gx, gy, b)) :
    getBins1 (samples.map Prod.fst) nb (some (lx, hx)) =
      .ok (gx, b.map fun row => row.sum * ((hy - ly) / ((nb : K) - 1))) ∧
    getBins1 (samples.map Prod.snd) nb (some (ly, hy)) =
      .ok (gy, (List.range nb).map fun j =>
        (b.map fun row => row.getD j 0).sum * ((hx - lx) / ((nb : K) - 1))) := by
  obtain ⟨h1, hne, hin⟩ := bounds2_eq bounds samples lx ly hx hy hb
  obtain ⟨hdx, ex⟩ := steps_pos lx hx nb hnb hltx
  obtain ⟨hdy, ey⟩ := steps_pos ly hy nb hnb hlty
  have e := (C69_bins samples nb hnb bounds lx ly hx hy hb hltx hlty).symm.trans h
  injection e with e
  injection e with eg e
  injection e with eg' eb
  subst eg eg' eb
  have b1 : Bounds (some (lx, hx)) (samples.map Prod.fst) lx hx := by
    refine ⟨rfl, by simpa using hne, fun s hs => ?_⟩
    obtain ⟨t, ht, rfl⟩ := List.mem_map.1 hs
    exact (hin t ht).1
  have b2 : Bounds (some (ly, hy)) (samples.map Prod.snd) ly hy := by
    refine ⟨rfl, by simpa using hne, fun s hs => ?_⟩
    obtain ⟨t, ht, rfl⟩ := List.mem_map.1 hs
    exact (hin t ht).2
  constructor
  · rw [C68_bins _ nb hnb _ lx hx b1 hltx, List.map_map]
    congr 2
    apply List.map_congr_left
    intro i _
    simp only [Function.comp, sum_range]
    rw [(linearBin2_row samples _ _ _ ly nb hdx hdy fun s hs => by rw [ey]; exact (hin s hs).2).1]
  · rw [C68_bins _ nb hnb _ ly hy b2 hlty]
    congr 2
    apply List.map_congr_left
    intro j hj
    rw [List.mem_range] at hj
    rw [List.map_map]
    have hentry : ∀ i : ℕ, ((fun row : List K => row.getD j 0) ∘ fun i : ℕ => (List.range nb).map fun j : ℕ =>
        linearBin2 samples ((hx - lx) / ((nb : K) - 1)) ((hy - ly) / ((nb : K) - 1))
          (lx + i * ((hx - lx) / ((nb : K) - 1))) (ly + j * ((hy - ly) / ((nb : K) - 1)))) i =
        linearBin2 (samples.map Prod.swap) ((hy - ly) / ((nb : K) - 1)) ((hx - lx) / ((nb : K) - 1))
          (ly + j * ((hy - ly) / ((nb : K) - 1))) (lx + i * ((hx - lx) / ((nb : K) - 1))) := by
      intro i
      simp only [Function.comp]
      rw [List.getD_eq_getElem?_getD, List.getElem?_map, List.getElem?_range hj, ← linearBin2_swap]
      rfl
    rw [show ((fun row : List K => row.getD j 0) ∘ fun i : ℕ => (List.range nb).map fun j : ℕ =>
        linearBin2 samples ((hx - lx) / ((nb : K) - 1)) ((hy - ly) / ((nb : K) - 1))
          (lx + i * ((hx - lx) / ((nb : K) - 1))) (ly + j * ((hy - ly) / ((nb : K) - 1)))) = _ from
        funext hentry, sum_range]
    rw [(linearBin2_row (samples.map Prod.swap) _ _ _ lx nb hdy hdx fun s hs => by
      obtain ⟨t, ht, rfl⟩ := List.mem_map.1 hs
      rw [ex]
      exact (hin t ht).1).1, List.map_map]
    rfl

example : getBins2 ([(0, 0), (1, 2), (2, 1)] : List (ℚ × ℚ)) 3 none =
    .ok ([0, 1, 2], [0, 1, 2], [[1 / 3, 0, 0], [0, 0, 1 / 3], [0, 1 / 3, 0]]) := by
  decide +kernel

end Verif.KDE
