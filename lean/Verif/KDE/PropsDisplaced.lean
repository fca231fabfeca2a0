import Verif.KDE.PropsGauss2
import Verif.KDE.PropsRounded2d

/-!
# Displacement of estimates in two dimensions (C223)
-/

namespace Verif.KDE

open Verif.Window

/-! ## Specification -/

/-- A Gaussian of width `h`, cut outside an interval of length `R`. -/
noncomputable def windowGauss (R h t : ℝ) : ℝ :=
  if -(R / 2) ≤ t ∧ t < R / 2 then Real.exp (-(1 / 2) / h ^ 2 * t ^ 2) else 0

/-- The displacement, in steps: a half for an even number of bins, one for an odd number. -/
def displacement (nb : ℕ) : ℚ := if nb % 2 = 0 then 1 / 2 else 1

/-! ## Exact operations -/

theorem centre_index (nb : ℕ) (hnb : 2 ≤ nb) :
    (((nb - 1 - 1) / 2 : ℕ) : ℝ) = ((nb : ℝ) - 1) / 2 - (displacement nb : ℚ) := by
  unfold displacement
  rcases Nat.even_or_odd' nb with ⟨r, rfl | rfl⟩
  · have h : (2 * r - 1 - 1) / 2 = r - 1 := by omega
    rw [h, if_pos (by omega), Nat.cast_sub (by omega)]
    push_cast
    ring
  · have h : (2 * r + 1 - 1 - 1) / 2 = r - 1 := by omega
    rw [h, if_neg (by omega), Nat.cast_sub (by omega)]
    push_cast
    ring

theorem kernel_cut (R d h : ℝ) (nb : ℕ) (hnb : 2 ≤ nb) (hd : 0 < d) (hR : R = ((nb : ℝ) - 1) * d) (i p : ℕ) :
    (if p ≤ i + (nb - 1 - 1) / 2 ∧ i + (nb - 1 - 1) / 2 - p < nb - 1 then
      kernel R d h (i + (nb - 1 - 1) / 2 - p) else 0) =
    windowGauss R h (((i : ℝ) - p) * d - (displacement nb : ℚ) * d) := by
  have hc := centre_index nb hnb
  generalize (nb - 1 - 1) / 2 = c at *
  generalize ((displacement nb : ℚ) : ℝ) = s at *
  have ht : ((i : ℝ) - p) * d - s * d = -R / 2 + ((i : ℝ) + c - p) * d := by
    rw [hR, hc]; ring
  have hn1 : ((nb - 1 : ℕ) : ℝ) = (nb : ℝ) - 1 := by rw [Nat.cast_sub (by omega)]; simp
  have hiff : (p ≤ i + c ∧ i + c - p < nb - 1) ↔
      (-(R / 2) ≤ ((i : ℝ) - p) * d - s * d ∧ ((i : ℝ) - p) * d - s * d < R / 2) := by
    rw [ht]
    constructor
    · rintro ⟨h1, h2⟩
      have e : (((i + c - p : ℕ)) : ℝ) = (i : ℝ) + c - p := by rw [Nat.cast_sub h1]; push_cast; ring
      have h3 : (((i + c - p : ℕ)) : ℝ) < ((nb - 1 : ℕ) : ℝ) := by exact_mod_cast h2
      have h0 : (0 : ℝ) ≤ ((i + c - p : ℕ) : ℝ) := Nat.cast_nonneg _
      rw [e] at h3 h0
      rw [hn1] at h3
      have := mul_nonneg h0 hd.le
      have := mul_lt_mul_of_pos_right h3 hd
      constructor <;> linarith
    · rintro ⟨h1, h2⟩
      have h3 : 0 ≤ ((i : ℝ) + c - p) := by
        by_contra hneg
        have := mul_neg_of_neg_of_pos (not_le.1 hneg) hd
        linarith
      have h4 : ((i : ℝ) + c - p) < (nb : ℝ) - 1 := by
        have : ((i : ℝ) + c - p) * d < ((nb : ℝ) - 1) * d := by linarith
        exact lt_of_mul_lt_mul_right this hd.le
      have h5 : p ≤ i + c := by
        have : (p : ℝ) ≤ ((i + c : ℕ) : ℝ) := by push_cast; linarith
        exact_mod_cast this
      refine ⟨h5, ?_⟩
      have e : (((i + c - p : ℕ)) : ℝ) = (i : ℝ) + c - p := by rw [Nat.cast_sub h5]; push_cast; ring
      have : (((i + c - p : ℕ)) : ℝ) < ((nb - 1 : ℕ) : ℝ) := by rw [e, hn1]; exact h4
      exact_mod_cast this
  unfold windowGauss kernel
  by_cases h1 : p ≤ i + c ∧ i + c - p < nb - 1
  · rw [if_pos h1, if_pos (hiff.1 h1), ht, Nat.cast_sub h1.1]
    push_cast
    rfl
  · rw [if_neg h1, if_neg fun h' => h1 (hiff.2 h')]

/-- **C223**: the estimate at each grid point is the sum of all bins weighted by a Gaussian, cut, of the distance from
the grid point to the bin, less a displacement: a half step along each axis for an even number of bins, one step for
an odd number. -/
theorem C223_displaced (samples : List (ℝ × ℝ)) (hX hY : ℝ) (hhx : hX ≠ 0) (hhy : hY ≠ 0) (nb : ℕ)
    (hnb : 2 ≤ nb) (fft : Bool) (bounds : Option ((ℝ × ℝ) × (ℝ × ℝ))) (lx ly hx hy dx dy : ℝ)
    (hb : Bounds2 bounds samples lx ly hx hy) (hltx : lx < hx) (hlty : ly < hy)
    (hdx : dx = (hx - lx) / ((nb : ℝ) - 1)) (hdy : dy = (hy - ly) / ((nb : ℝ) - 1)) :
    ∃ gx gy kde N, gaussian2 samples hX hY nb fft bounds = .ok (gx, gy, kde) ∧ 0 < N ∧
      ∀ i < nb, ∀ j < nb, get2 kde i j = ∑ p ∈ Finset.range nb, ∑ q ∈ Finset.range nb,
        linearBin2 samples dx dy (lx + p * dx) (ly + q * dy) *
          (windowGauss (hx - lx) hX ((lx + i * dx) - (lx + p * dx) - (displacement nb : ℚ) * dx) *
            windowGauss (hy - ly) hY ((ly + j * dy) - (ly + q * dy) - (displacement nb : ℚ) * dy)) / N := by
  obtain ⟨px, ex⟩ := steps_pos lx hx nb hnb hltx
  obtain ⟨py, ey⟩ := steps_pos ly hy nb hnb hlty
  have h := gaussian2_eq samples hX hY hhx hhy nb hnb fft bounds lx ly hx hy hb hltx hlty
  rw [← hdx] at px ex h
  rw [← hdy] at py ey h
  refine ⟨_, _, _, _, h, mul_pos (kernelSum_pos (hx - lx) dx hX nb hnb) (kernelSum_pos (hy - ly) dy hY nb hnb),
    fun i hi j hj => ?_⟩
  have e : ∀ f : ℕ → ℕ → ℝ, get2 ((List.range nb).map fun i : ℕ => (List.range nb).map fun j : ℕ => f i j) i j =
      f i j := by
    intro f
    unfold get2
    rw [List.getD_eq_getElem?_getD (l := (List.range nb).map fun i => (List.range nb).map fun j => f i j),
      List.getElem?_map, List.getElem?_range hi, Option.map_some, Option.getD_some, List.getD_eq_getElem?_getD,
      List.getElem?_map, List.getElem?_range hj, Option.map_some, Option.getD_some]
  rw [e]
  unfold convolveSame
  refine Finset.sum_congr rfl fun p _ => Finset.sum_congr rfl fun q _ => ?_
  have a1 := kernel_cut (hx - lx) dx hX nb hnb px (by linarith) i p
  have a2 := kernel_cut (hy - ly) dy hY nb hnb py (by linarith) j q
  have t1 : (lx + i * dx) - (lx + p * dx) - ((displacement nb : ℚ) : ℝ) * dx =
      ((i : ℝ) - p) * dx - ((displacement nb : ℚ) : ℝ) * dx := by ring
  have t2 : (ly + j * dy) - (ly + q * dy) - ((displacement nb : ℚ) : ℝ) * dy =
      ((j : ℝ) - q) * dy - ((displacement nb : ℚ) : ℝ) * dy := by ring
  rw [t1, t2, ← a1, ← a2]
  unfold kernel2
  by_cases c1 : p ≤ i + (nb - 1 - 1) / 2 ∧ i + (nb - 1 - 1) / 2 - p < nb - 1
  · by_cases c2 : q ≤ j + (nb - 1 - 1) / 2 ∧ j + (nb - 1 - 1) / 2 - q < nb - 1
    · rw [if_pos ⟨c1.1, c1.2, c2⟩, if_pos c1, if_pos c2]
      ring
    · rw [if_neg fun h' => c2 h'.2.2, if_neg c2]
      ring
  · rw [if_neg fun h' => c1 ⟨h'.1, h'.2.1⟩, if_neg c1]
    ring

/-- **C223**: with an odd number of bins, the value which belongs to a grid point is found at the next one. -/
theorem C223_odd (samples : List (ℝ × ℝ)) (hX hY : ℝ) (hhx : hX ≠ 0) (hhy : hY ≠ 0) (nb : ℕ)
    (hnb : 2 ≤ nb) (hodd : nb % 2 = 1) (fft : Bool) (bounds : Option ((ℝ × ℝ) × (ℝ × ℝ))) (lx ly hx hy dx dy : ℝ)
    (hb : Bounds2 bounds samples lx ly hx hy) (hltx : lx < hx) (hlty : ly < hy)
    (hdx : dx = (hx - lx) / ((nb : ℝ) - 1)) (hdy : dy = (hy - ly) / ((nb : ℝ) - 1)) :
    ∃ gx gy kde N, gaussian2 samples hX hY nb fft bounds = .ok (gx, gy, kde) ∧ 0 < N ∧
      ∀ i j, i + 1 < nb → j + 1 < nb → get2 kde (i + 1) (j + 1) = ∑ p ∈ Finset.range nb, ∑ q ∈ Finset.range nb,
        linearBin2 samples dx dy (lx + p * dx) (ly + q * dy) *
          (windowGauss (hx - lx) hX ((lx + i * dx) - (lx + p * dx)) *
            windowGauss (hy - ly) hY ((ly + j * dy) - (ly + q * dy))) / N := by
  obtain ⟨gx, gy, kde, N, h1, h2, h3⟩ := C223_displaced samples hX hY hhx hhy nb hnb fft bounds lx ly hx hy dx dy hb
    hltx hlty hdx hdy
  refine ⟨gx, gy, kde, N, h1, h2, fun i j hi hj => ?_⟩
  rw [h3 (i + 1) hi (j + 1) hj]
  refine Finset.sum_congr rfl fun p _ => Finset.sum_congr rfl fun q _ => ?_
  have hs : ((displacement nb : ℚ) : ℝ) = 1 := by
    unfold displacement
    rw [if_neg (by omega)]
    simp
  have t1 : (lx + ((i + 1 : ℕ) : ℝ) * dx) - (lx + p * dx) - 1 * dx = (lx + i * dx) - (lx + p * dx) := by
    push_cast; ring
  have t2 : (ly + ((j + 1 : ℕ) : ℝ) * dy) - (ly + q * dy) - 1 * dy = (ly + j * dy) - (ly + q * dy) := by
    push_cast; ring
  rw [hs, t1, t2]

/-! ## Rounded operations -/

theorem kernelGridR_length (fl : ℚ → ℚ) (g k : List ℚ) (m : ℕ) (h : kernelGridR fl g = .ok k)
    (h' : kernelSizeR fl g = .ok m) : k.length = m := by
  unfold kernelGridR at h
  unfold kernelSizeR at h'
  cases e1 : pyGet g (-1) with
  | error e => rw [e1] at h; cases h
  | ok last =>
    cases e2 : pyGet g 0 with
    | error e => rw [e1, e2] at h; cases h
    | ok first =>
      cases e3 : pyGet g 1 with
      | error e => rw [e1, e2, e3] at h; cases h
      | ok second =>
        rw [e1, e2, e3] at h h'
        simp only [bind, Except.bind, pure, Except.pure, Except.ok.injEq] at h h'
        rw [← h, ← h']
        simp [arangeR]

/-- Values of the grid of the kernel. -/
theorem kernel_values (fl : ℚ → ℚ) (hf : IsRounding fl) {lo hi d M : ℚ} {nb n : ℕ} (S : Sizes lo hi d M nb n)
    (hr : nb * (M / d) ≤ 2 ^ 43) :
    ∃ k, kernelGridR fl ((List.range nb).map fun i : ℕ => fl (lo + fl ((i : ℚ) * deltaR fl lo hi nb))) = .ok k ∧
      (k.length = nb - 1 ∨ k.length = nb) ∧
      ∀ c < k.length, |k.getD c 0 - (-(((nb : ℚ) - 1) * d) / 2 + c * d)| ≤ d / 8 := by
  obtain ⟨m, hm, hm'⟩ := kernel_bounds fl hf S hr
  have hnb := S.nb2
  have hd := S.d_pos
  have hdM := S.d_le
  have hM : 0 < M := by linarith
  have ht := S.d_tiny
  have hu := S.unitM
  have hU := UNIT_pos
  have hstep := S.step
  have hrange := S.range_le
  have hn1 := S.nb1
  have gA := abs_le.1 (S.grid_near hf (nb - 1) (by omega))
  have gB := abs_le.1 (S.grid_near hf 0 (by omega))
  have gC := abs_le.1 (S.grid_near hf 1 (by omega))
  have hlen : ∀ k, kernelGridR fl ((List.range nb).map fun i : ℕ => fl (lo + fl ((i : ℚ) * deltaR fl lo hi nb))) =
      .ok k → k.length = m := fun k hk => kernelGridR_length fl _ k m hk hm
  unfold kernelGridR at hlen ⊢
  have i1 : pyGet ((List.range nb).map fun i : ℕ => fl (lo + fl ((i : ℚ) * deltaR fl lo hi nb))) (-1) =
      .ok (fl (lo + fl (((nb - 1 : ℕ) : ℚ) * deltaR fl lo hi nb))) := by
    unfold pyGet
    rw [if_pos (by omega), if_neg (by simp; omega)]
    have : ((-1 : ℤ) + (((List.range nb).map fun i : ℕ => fl (lo + fl ((i : ℚ) * deltaR fl lo hi nb))).length : ℤ)).toNat
      = nb - 1 := by simp; omega
    rw [this]
    simp [show nb - 1 < nb by omega]
  have i0 : pyGet ((List.range nb).map fun i : ℕ => fl (lo + fl ((i : ℚ) * deltaR fl lo hi nb))) 0 =
      .ok (fl (lo + fl (((0 : ℕ) : ℚ) * deltaR fl lo hi nb))) := by
    have := pyGet_nat ((List.range nb).map fun i : ℕ => fl (lo + fl ((i : ℚ) * deltaR fl lo hi nb))) 0
      (by simp; omega)
    simpa using this
  have i2 : pyGet ((List.range nb).map fun i : ℕ => fl (lo + fl ((i : ℚ) * deltaR fl lo hi nb))) 1 =
      .ok (fl (lo + fl (((1 : ℕ) : ℚ) * deltaR fl lo hi nb))) := by
    have := pyGet_nat ((List.range nb).map fun i : ℕ => fl (lo + fl ((i : ℚ) * deltaR fl lo hi nb))) 1
      (by simp; omega)
    simpa using this
  rw [i1, i0, i2] at hlen ⊢
  simp only [bind, Except.bind, pure, Except.pure] at hlen ⊢
  generalize fl (lo + fl (((nb - 1 : ℕ) : ℚ) * deltaR fl lo hi nb)) = A at *
  generalize fl (lo + fl (((0 : ℕ) : ℚ) * deltaR fl lo hi nb)) = B at *
  generalize fl (lo + fl (((1 : ℕ) : ℚ) * deltaR fl lo hi nb)) = C at *
  rw [Nat.cast_sub (by omega)] at gA
  push_cast at gA gB gC
  have hl := hlen _ rfl
  refine ⟨_, rfl, by rw [hl]; exact hm', fun c hc => ?_⟩
  rw [hl] at hc
  have hget : (arangeR fl (fl (-fl (A - B) / 2)) (fl (fl (A - B) / 2)) (fl (C - B))).getD c 0 =
      if c = 0 then fl (-fl (A - B) / 2) else if c = 1 then fl (fl (-fl (A - B) / 2) + fl (C - B))
      else fl (fl (-fl (A - B) / 2) +
        fl ((c : ℚ) * fl (fl (fl (-fl (A - B) / 2) + fl (C - B)) - fl (-fl (A - B) / 2)))) := by
    unfold arangeR at hl ⊢
    rw [List.length_map, List.length_range] at hl
    rw [hl, List.getD_eq_getElem?_getD, List.getElem?_map, List.getElem?_range hc, Option.map_some, Option.getD_some]
  rw [hget]
  clear hget hlen hl
  obtain ⟨k, hk⟩ : ∃ k, k = (nb : ℚ) - 1 := ⟨_, rfl⟩
  have hnbk : (nb : ℚ) = k + 1 := by linarith
  rw [← hk] at gA hstep hn1 ⊢
  have hkd := S.d_le_range
  rw [← hstep] at hkd
  have hud : UNIT * d ≤ 2 * (UNIT * M) := by
    have := mul_le_mul_of_nonneg_left hdM hU.le
    linarith
  have hUM : 0 < UNIT * M := by positivity
  have hck : (c : ℚ) ≤ k := by
    have : c ≤ nb - 1 := by omega
    have : (c : ℚ) ≤ ((nb - 1 : ℕ) : ℚ) := by exact_mod_cast this
    rw [Nat.cast_sub (by omega)] at this
    push_cast at this
    linarith
  have hc0 : (0 : ℚ) ≤ c := Nat.cast_nonneg _
  have hkM : k * (UNIT * M) ≤ d / 512 := by
    have h1 : k * M ≤ 2 ^ 43 * d := by
      have : (k + 1) * (M / d) * d ≤ 2 ^ 43 * d := by
        rw [hnbk] at hr
        gcongr
      have e : (k + 1) * (M / d) * d = k * M + M := by field_simp
      rw [e] at this
      linarith
    have h2 : UNIT * (k * M) ≤ UNIT * (2 ^ 43 * d) := by gcongr
    have h3 : UNIT * (2 ^ 43 * d) = d / 512 := by
      unfold UNIT; ring
    rw [h3] at h2
    linarith
  have r1 := abs_le.1 (rnd hf (x := A - B) (a := 3 * M) (by rw [abs_le]; constructor <;> linarith) (by linarith))
  generalize fl (A - B) = xr at *
  have r2 := abs_le.1 (rnd hf (x := C - B) (a := 2 * d) (by rw [abs_le]; constructor <;> linarith) (by linarith))
  generalize fl (C - B) = dx at *
  have r3 := abs_le.1 (rnd hf (x := -xr / 2) (a := 2 * M) (by rw [abs_le]; constructor <;> linarith) (by linarith))
  generalize fl (-xr / 2) = start at *
  have hs1 : -(k * d) / 2 - 27 * (UNIT * M) ≤ start := by linarith
  have hs2 : start ≤ -(k * d) / 2 + 27 * (UNIT * M) := by linarith
  have hx1 : d - 50 * (UNIT * M) ≤ dx := by linarith
  have hx2 : dx ≤ d + 50 * (UNIT * M) := by linarith
  have r4 := abs_le.1 (rnd hf (x := start + dx) (a := 4 * M) (by rw [abs_le]; constructor <;> linarith) (by linarith))
  generalize fl (start + dx) = second at *
  have r5 := abs_le.1 (rnd hf (x := second - start) (a := 2 * d) (by rw [abs_le]; constructor <;> linarith)
    (by linarith))
  generalize fl (second - start) = st at *
  have hst1 : d - 58 * (UNIT * M) ≤ st := by linarith
  have hst2 : st ≤ d + 58 * (UNIT * M) := by linarith
  have hcu : (c : ℚ) * (UNIT * M) ≤ k * (UNIT * M) := by gcongr
  have hcd : (c : ℚ) * d ≤ k * d := by gcongr
  have hcd0 : 0 ≤ (c : ℚ) * d := by positivity
  have hc1 : (c : ℚ) * (d - 58 * (UNIT * M)) ≤ c * st := by gcongr
  have hc2 : (c : ℚ) * st ≤ c * (d + 58 * (UNIT * M)) := by gcongr
  have r6 := abs_le.1 (rnd hf (x := (c : ℚ) * st) (a := 3 * M) (by rw [abs_le]; constructor <;> linarith)
    (by linarith))
  generalize fl ((c : ℚ) * st) = cs at *
  have r7 := abs_le.1 (rnd hf (x := start + cs) (a := 4 * M) (by rw [abs_le]; constructor <;> linarith) (by linarith))
  generalize fl (start + cs) = v at *
  split_ifs with k0 k1
  · subst k0
    rw [Nat.cast_zero, zero_mul, add_zero, abs_le]
    constructor <;> linarith
  · subst k1
    rw [Nat.cast_one, one_mul, abs_le]
    constructor <;> linarith
  · rw [abs_le]
    constructor <;> linarith

/-- **C223**: with rounded operations, the kernel may have one more value along each axis, and its displacement
depends on this: the coordinate of its centre (the value which weights the bin of the grid point itself) is near minus
a half step for an even number of bins, and for an odd number near minus one step, or near 0 if there is one more
value. -/
theorem C223_centre (fl : ℚ → ℚ) (hf : IsRounding fl) (samples : List (ℚ × ℚ)) (nb : ℕ) (hnb : 2 ≤ nb)
    (bounds : Option ((ℚ × ℚ) × (ℚ × ℚ))) (lx ly hx hy dx dy Mx My : ℚ)
    (hb : Bounds2 bounds samples lx ly hx hy)
    (hdx : dx = (hx - lx) / ((nb : ℚ) - 1)) (hdy : dy = (hy - ly) / ((nb : ℚ) - 1))
    (hlx : |lx| ≤ Mx) (hhx : |hx| ≤ Mx) (hMx : Mx ≤ 2 ^ 40 * dx) (hrx : nb * (Mx / dx) ≤ 2 ^ 43)
    (hdx0 : 1 / 2 ^ 400 ≤ dx) (hdx1 : dx ≤ 2 ^ 400)
    (hly : |ly| ≤ My) (hhy : |hy| ≤ My) (hMy : My ≤ 2 ^ 40 * dy) (hry : nb * (My / dy) ≤ 2 ^ 43)
    (hdy0 : 1 / 2 ^ 400 ≤ dy) (hdy1 : dy ≤ 2 ^ 400) (hn : samples.length ≤ 2 ^ 40) :
    ∃ kx ky, kernelGrids2R fl samples nb bounds = .ok (kx, ky) ∧
      (∀ k d, (k, d) ∈ [(kx, dx), (ky, dy)] → (k.length = nb - 1 ∨ k.length = nb) ∧
        |k.getD ((k.length - 1) / 2) 0 -
          -(if k.length = nb ∧ nb % 2 = 1 then 0 else displacement nb * d)| ≤ d / 8) := by
  obtain ⟨h1, hne, hin⟩ := bounds2_eq bounds samples lx ly hx hy hb
  have hx0 : samples.length ≠ 0 := by
    intro h
    exact hne (List.length_eq_zero_iff.1 h)
  subst hdx hdy
  have Sx := sizes lx hx Mx nb samples.length hnb hlx hhx hx0 hn (pow900 hdx0 hdx1).1 (pow900 hdx0 hdx1).2 hMx
  have Sy := sizes ly hy My nb samples.length hnb hly hhy hx0 hn (pow900 hdy0 hdy1).1 (pow900 hdy0 hdy1).2 hMy
  generalize (hx - lx) / ((nb : ℚ) - 1) = dx at *
  generalize (hy - ly) / ((nb : ℚ) - 1) = dy at *
  have S : Sizes2 lx ly hx hy dx dy Mx My nb samples.length := ⟨Sx, Sy, hdx0, hdx1, hdy0, hdy1⟩
  obtain ⟨r, k1, k2, -, -⟩ := S.full_near hf samples rfl hin
  obtain ⟨kx, ex, lx', vx⟩ := kernel_values fl hf Sx hrx
  obtain ⟨ky, ey, ly', vy⟩ := kernel_values fl hf Sy hry
  have key : ∀ (k : List ℚ) (d : ℚ), 0 < d → (k.length = nb - 1 ∨ k.length = nb) →
      (∀ c < k.length, |k.getD c 0 - (-(((nb : ℚ) - 1) * d) / 2 + c * d)| ≤ d / 8) →
      |k.getD ((k.length - 1) / 2) 0 -
          -(if k.length = nb ∧ nb % 2 = 1 then 0 else displacement nb * d)| ≤ d / 8 := by
    intro k d hd hl hv
    have h := hv ((k.length - 1) / 2) (by omega)
    have e : -(((nb : ℚ) - 1) * d) / 2 + (((k.length - 1) / 2 : ℕ) : ℚ) * d =
        -(if k.length = nb ∧ nb % 2 = 1 then 0 else displacement nb * d) := by
      unfold displacement
      rcases Nat.even_or_odd' nb with ⟨s, hs | hs⟩
      · have hc : (k.length - 1) / 2 = s - 1 := by omega
        rw [hc, if_neg (by omega), if_pos (by omega), Nat.cast_sub (by omega), hs]
        push_cast
        ring
      · rcases hl with hl | hl
        · have hc : (k.length - 1) / 2 = s - 1 := by omega
          rw [hc, if_neg (by omega), if_neg (by omega), Nat.cast_sub (by omega), hs]
          push_cast
          ring
        · have hc : (k.length - 1) / 2 = s := by omega
          rw [hc, if_pos (by omega), hs]
          push_cast
          ring
    rw [e] at h
    exact h
  refine ⟨kx, ky, ?_, fun k d hkd => ?_⟩
  · unfold kernelGrids2R getBins2R
    rw [if_neg (by omega)]
    simp only [h1, Int.toNat_natCast, bind, Except.bind, k1, pure, Except.pure]
    rw [gridR_upto, gridR_upto, ex]
    simp only []
    rw [ey]
  · simp only [List.mem_cons, Prod.mk.injEq, List.not_mem_nil, or_false] at hkd
    rcases hkd with ⟨rfl, rfl⟩ | ⟨rfl, rfl⟩
    · exact ⟨lx', key _ _ Sx.d_pos lx' vx⟩
    · exact ⟨ly', key _ _ Sy.d_pos ly' vy⟩

/-- **C223**: the displacement can differ between axes with doubles: of (0, 0.3) and (1, 0.4) in three bins along each
axis, the centre of the kernel is one step below 0 along the first axis, and at 0 along the second one. -/
theorem C223_axes : ∃ kx ky, kernelGrids2R dbl [(0, dbl (3 / 10)), (1, dbl (4 / 10))] 3 none = .ok (kx, ky) ∧
    kx = [-1 / 2, 0] ∧ ky.length = 3 := by
  have h : ((kernelGrids2R dbl [(0, dbl (3 / 10)), (1, dbl (4 / 10))] 3 none).toOption.map fun p =>
      decide (p.1 = [-1 / 2, 0] ∧ p.2.length = 3)) = some true := by decide +kernel
  cases e : kernelGrids2R dbl [(0, dbl (3 / 10)), (1, dbl (4 / 10))] 3 none with
  | error e' => rw [e] at h; cases h
  | ok p =>
    rw [e] at h
    exact ⟨p.1, p.2, rfl, by simpa [Except.toOption] using h⟩

/-- Hypotheses of C223 for three samples in four bins along each axis (see also the example for C222). -/
example : Bounds2 none ([(-1 / 8, 0), (-5 / 8, 3), (7 / 8, 2)] : List (ℝ × ℝ)) (-5 / 8) 0 (7 / 8) 3 ∧
    (-5 / 8 : ℝ) < 7 / 8 ∧ (0 : ℝ) < 3 ∧ ((4 : ℕ) : ℚ) * (7 / 8 / (1 / 2)) ≤ 2 ^ 43 ∧
    ((4 : ℕ) : ℚ) * (3 / 1) ≤ 2 ^ 43 := by
  refine ⟨⟨⟨⟨by simp, ?_⟩, by simp, ?_⟩, ⟨by simp, ?_⟩, by simp, ?_⟩, by norm_num, by norm_num, by norm_num,
    by norm_num⟩ <;> intro s hs <;> simp at hs <;> rcases hs with rfl | rfl | rfl <;> norm_num

end Verif.KDE
