import Verif.Window.PropsRoundedConcat

/-!
# Property C194: sliding windows and frames with rounded operations
-/

namespace Verif.Window.Fl

open Verif Verif.Window

variable {fl : ℚ → ℚ} {α : Type}

/-! ### Steps -/

/-- The number of steps, up to the tolerance. -/
theorem steps_near (h : IsRounding fl) {L R step : ℚ} (hd : |R - L| ≤ 10 ^ 6) (s1 : 1 / 10 ^ 6 ≤ step) (s2 : step ≤ 10 ^ 5) :
    ((toApproxInt fl (fl (fl (fl (R - L) * 1) / step)) (fl (TOL fl / step)) false : ℤ) : ℚ) * step ≤ R - L + 11 / 10 ^ 9 ∧
    ∀ k : ℤ, (k : ℚ) * step ≤ R - L + 9 / 10 ^ 9 →
      k ≤ toApproxInt fl (fl (fl (fl (R - L) * 1) / step)) (fl (TOL fl / step)) false := by
  have hs : 0 < step := by linarith [show (0 : ℚ) < 1 / 10 ^ 6 by positivity]
  rw [mul_one, h.idem]
  have e1 := abs_le.1 (err h hd)
  have hd2 := abs_le.1 hd
  have hX : |fl (R - L) / step| ≤ (10 ^ 6 + 1) / step := by
    rw [abs_div, abs_of_pos hs]
    gcongr
    rw [abs_le]
    constructor <;> linarith
  have e2 := abs_le.1 (err h hX)
  have ht := abs_le.1 (tol_near h)
  have hT : |TOL fl / step| ≤ (2 / 10 ^ 8) / step := by
    rw [abs_div, abs_of_pos hs]
    gcongr
    rw [abs_le]
    constructor <;> linarith
  have e3 := abs_le.1 (err h hT)
  set X := fl (fl (R - L) / step) with hXd
  set T := fl (TOL fl / step) with hTd
  -- back to times
  have m2a : X * step ≤ fl (R - L) + 2 / 10 ^ 10 := by
    have : X * step ≤ (fl (R - L) / step + ((10 ^ 6 + 1) / step * (112 / 10 ^ 18) + 1 / 10 ^ 30)) * step := by
      gcongr
      linarith
    refine this.trans ?_
    have : (fl (R - L) / step + ((10 ^ 6 + 1) / step * (112 / 10 ^ 18) + 1 / 10 ^ 30)) * step =
        fl (R - L) + (10 ^ 6 + 1) * (112 / 10 ^ 18) + step / 10 ^ 30 := by field_simp; ring
    rw [this]
    linarith
  have m2b : fl (R - L) - 2 / 10 ^ 10 ≤ X * step := by
    have : (fl (R - L) / step - ((10 ^ 6 + 1) / step * (112 / 10 ^ 18) + 1 / 10 ^ 30)) * step ≤ X * step := by
      gcongr
      linarith
    refine le_trans ?_ this
    have : (fl (R - L) / step - ((10 ^ 6 + 1) / step * (112 / 10 ^ 18) + 1 / 10 ^ 30)) * step =
        fl (R - L) - (10 ^ 6 + 1) * (112 / 10 ^ 18) - step / 10 ^ 30 := by field_simp; ring
    rw [this]
    linarith
  have m3a : T * step ≤ 1 / 10 ^ 8 + 1 / 10 ^ 15 := by
    have : T * step ≤ (TOL fl / step + ((2 / 10 ^ 8) / step * (112 / 10 ^ 18) + 1 / 10 ^ 30)) * step := by
      gcongr
      linarith
    refine this.trans ?_
    have : (TOL fl / step + ((2 / 10 ^ 8) / step * (112 / 10 ^ 18) + 1 / 10 ^ 30)) * step =
        TOL fl + (2 / 10 ^ 8) * (112 / 10 ^ 18) + step / 10 ^ 30 := by field_simp; ring
    rw [this]
    linarith
  have m3b : 1 / 10 ^ 8 - 1 / 10 ^ 15 ≤ T * step := by
    have : (TOL fl / step - ((2 / 10 ^ 8) / step * (112 / 10 ^ 18) + 1 / 10 ^ 30)) * step ≤ T * step := by
      gcongr
      linarith
    refine le_trans ?_ this
    have : (TOL fl / step - ((2 / 10 ^ 8) / step * (112 / 10 ^ 18) + 1 / 10 ^ 30)) * step =
        TOL fl - (2 / 10 ^ 8) * (112 / 10 ^ 18) - step / 10 ^ 30 := by field_simp; ring
    rw [this]
    linarith
  have hT0 : 0 < T := by
    by_contra hn
    push Not at hn
    nlinarith
  have hT1 : T ≤ 1 / 2 := by
    by_contra hn
    push Not at hn
    nlinarith
  obtain ⟨c1, c2⟩ := approx_before h X hT0 hT1
  refine ⟨?_, ?_⟩
  · have : (toApproxInt fl X T false : ℚ) * step ≤ (X + T + 1 / 10 ^ 15) * step := by gcongr
    refine this.trans ?_
    have : (X + T + 1 / 10 ^ 15) * step = X * step + T * step + step / 10 ^ 15 := by ring
    rw [this]
    linarith
  · intro k hk
    apply c2
    have : (X + T - 1 / 10 ^ 15) * step = X * step + T * step - step / 10 ^ 15 := by ring
    have hlt : (k : ℚ) * step < (X + T - 1 / 10 ^ 15) * step := by
      rw [this]
      linarith
    exact lt_of_mul_lt_mul_right hlt hs.le

/-- A step from the start. -/
theorem step_near (h : IsRounding fl) {L step : ℚ} (h0 : 0 ≤ L) (hs : 0 ≤ step) {k : ℕ} (hb : L + k * step ≤ 10 ^ 6) :
    |fl (L + fl (k * step)) - (L + k * step)| ≤ 3 / 10 ^ 10 := by
  have hk : (0 : ℚ) ≤ k * step := by positivity
  have e1 := abs_le.1 (err h (x := k * step) (B := 10 ^ 6) (by rw [abs_of_nonneg hk]; linarith))
  have f0 := fl_nonneg h hk
  have e2 := abs_le.1 (err h (x := L + fl (k * step)) (B := 10 ^ 6 + 1) (by
    rw [abs_of_nonneg (by linarith)]
    linarith))
  rw [abs_le]
  constructor <;> linarith

theorem step_ge (h : IsRounding fl) {L step : ℚ} (hL : fl L = L) (hs : 0 ≤ step) (k : ℕ) : L ≤ fl (L + fl (k * step)) := by
  have hk : (0 : ℚ) ≤ k * step := by positivity
  have := h.mono L (L + fl (k * step)) (by linarith [fl_nonneg h hk])
  rwa [hL] at this

theorem snap_le (h : IsRounding fl) {x ref : ℚ} (hr : fl ref = ref) : snapAbove fl x ref (TOL fl) ≤ ref := by
  unfold snapAbove
  split_ifs with hc
  · exact le_rfl
  · have := h.mono (ref - TOL fl) ref (by linarith [tol_nonneg h])
    rw [hr] at this
    linarith

/-- **C194, starts.** Values from `left` by a step: the steps are exact up to rounding, the last one may be snapped to
`right`, and none is beyond it. -/
theorem C194_starts (h : IsRounding fl) {L R step : ℚ} (hL : fl L = L) (hR : fl R = R) (h0 : 0 ≤ L) (hR1 : R ≤ 10 ^ 6 - 1)
    (hLR : L ≤ R) (s1 : 1 / 10 ^ 6 ≤ step) (s2 : step ≤ 10 ^ 5) (incl : Bool) :
    ∃ (n : ℕ) (last : ℚ), n * step ≤ R - L + 11 / 10 ^ 9 ∧ (∀ k : ℕ, k * step ≤ R - L + 9 / 10 ^ 9 → k ≤ n) ∧
      last = snapAbove fl (fl (L + fl (n * step))) R (TOL fl) ∧
      arange fl L R step incl (TOL fl) = (List.range n).map (fun i : ℕ => fl (L + fl (i * step))) ++
        (if incl = true ∨ last ≠ R then [last] else []) ∧
      L ≤ last ∧ last ≤ R ∧ fl last = last ∧ |last - (L + n * step)| ≤ 11 / 10 ^ 9 ∧
      ∀ k < n, fl (L + fl (k * step)) ≤ R ∧ |fl (L + fl (k * step)) - (L + k * step)| ≤ 3 / 10 ^ 10 := by
  have hs : 0 < step := by linarith [show (0 : ℚ) < 1 / 10 ^ 6 by positivity]
  have hd : |R - L| ≤ 10 ^ 6 := by rw [abs_of_nonneg (by linarith)]; linarith
  obtain ⟨n1, n2⟩ := steps_near h hd s1 s2
  set N := toApproxInt fl (fl (fl (fl (R - L) * 1) / step)) (fl (TOL fl / step)) false with hN
  have hN0 : 0 ≤ N := n2 0 (by push_cast; linarith)
  obtain ⟨n, hn⟩ := Int.eq_ofNat_of_zero_le hN0
  have hnq : (N : ℚ) = n := by rw [hn]; simp
  rw [hnq] at n1
  have hk0 : ∀ k : ℕ, k ≤ n → L + k * step ≤ R + 11 / 10 ^ 9 := by
    intro k hk
    have : (k : ℚ) * step ≤ n * step := by gcongr
    linarith
  have nn := abs_le.1 (step_near h h0 hs.le (k := n) (by linarith [hk0 n le_rfl]))
  have ht := abs_le.1 (tol_near h)
  have eR := abs_le.1 (err h (x := R - TOL fl) (B := 10 ^ 6) (by rw [abs_le]; constructor <;> linarith))
  refine ⟨n, _, n1, ?_, rfl, ?_, ?_, snap_le h hR, ?_, ?_, ?_⟩
  · intro k hk
    have := n2 k (by push_cast; exact hk)
    omega
  · unfold arange
    simp only []
    rw [← hN, if_neg (by omega)]
    have : N.toNat = n := by omega
    rw [this, hnq]
    by_cases hc : incl = true ∨ snapAbove fl (fl (L + fl (n * step))) R (TOL fl) ≠ R
    · rw [if_pos hc, if_pos (by simpa [bne_iff_ne] using hc)]
    · rw [if_neg hc, if_neg (by simpa [bne_iff_ne] using hc), List.append_nil]
  · unfold snapAbove
    split_ifs
    · exact hLR
    · exact step_ge h hL hs.le n
  · unfold snapAbove
    split_ifs
    · exact hR
    · exact h.idem _
  · unfold snapAbove
    split_ifs
    · rw [abs_le]
      constructor <;> linarith
    · rw [abs_le]
      constructor <;> linarith
  · intro k hk
    have hks : (k : ℚ) * step + step ≤ n * step := by
      have : ((k : ℚ) + 1) * step ≤ n * step := by
        gcongr
        exact_mod_cast hk
      linarith
    have kn := step_near h h0 hs.le (k := k) (by linarith)
    refine ⟨?_, kn⟩
    have := abs_le.1 kn
    linarith

theorem snap_near (h : IsRounding fl) {s width te : ℚ} (hs : 0 ≤ s) (hw : 0 ≤ width) (hte : te ≤ 10 ^ 6 - 1)
    (hle : s + width ≤ te + 1 / 10 ^ 9) : |snapAbove fl (fl (s + width)) te (TOL fl) - (s + width)| ≤ 12 / 10 ^ 9 := by
  have ht := abs_le.1 (tol_near h)
  have eR := abs_le.1 (err h (x := te - TOL fl) (B := 10 ^ 6) (by rw [abs_le]; constructor <;> linarith))
  have eW := abs_le.1 (err h (x := s + width) (B := 10 ^ 6) (by rw [abs_le]; constructor <;> linarith))
  unfold snapAbove
  split_ifs with hc
  · rw [abs_le]
    constructor <;> linarith
  · rw [abs_le]
    constructor <;> linarith

/-- **C194, sliding windows.** Full windows of a given width, at each shift: all those in the range and no other, up to the
tolerance.  No bound is outside of the range. -/
theorem C194_slider (h : IsRounding fl) {ts te width shift : ℚ} (hts : fl ts = ts) (hte : fl te = te) (h0 : 0 ≤ ts)
    (h1 : te ≤ 10 ^ 6 - 2) (hw : 0 ≤ width) (s1 : 1 / 10 ^ 6 ≤ shift) (s2 : shift ≤ 10 ^ 5) (hr : ts + width ≤ te) :
    ∃ n : ℕ, (slider fl ts te width shift false (TOL fl)).length = n + 1 ∧
      ts + n * shift + width ≤ te + 12 / 10 ^ 9 ∧ (∀ k : ℕ, ts + k * shift + width ≤ te + 8 / 10 ^ 9 → k ≤ n) ∧
      ∀ (k : ℕ) (s e : ℚ), (slider fl ts te width shift false (TOL fl))[k]? = some (s, e) →
        ts ≤ s ∧ s ≤ e ∧ e ≤ te ∧ fl s = s ∧ fl e = e ∧ |s - (ts + k * shift)| ≤ 11 / 10 ^ 9 ∧
        (k < n → |s - (ts + k * shift)| ≤ 3 / 10 ^ 10) ∧ |e - (s + width)| ≤ 12 / 10 ^ 9 := by
  have hR := h.idem (te - width)
  have hLR : ts ≤ fl (te - width) := by
    have := h.mono ts (te - width) (by linarith)
    rwa [hts] at this
  have hRle : fl (te - width) ≤ te := by
    have := h.mono (te - width) te (by linarith)
    rwa [hte] at this
  have eR := abs_le.1 (err h (x := te - width) (B := 10 ^ 6) (by rw [abs_le]; constructor <;> linarith))
  obtain ⟨n, last, n1, n2, n3, n4, n5, n6, n7, n8, n9⟩ := C194_starts h hts hR h0 (by linarith) hLR s1 s2 true
  have hsl : slider fl ts te width shift false (TOL fl) =
      ((List.range n).map (fun i : ℕ => fl (ts + fl (i * shift))) ++ [last]).map
        fun t => (t, snapAbove fl (fl (t + width)) te (TOL fl)) := by
    unfold slider
    simp only [Bool.false_eq_true, if_false, Bool.not_false]
    rw [n4, if_pos (Or.inl rfl)]
  refine ⟨n, by rw [hsl]; simp, by linarith, ?_, ?_⟩
  · intro k hk
    exact n2 k (by linarith)
  · intro k s e hk
    rw [hsl, List.getElem?_map] at hk
    obtain ⟨t, ht, hp⟩ := Option.map_eq_some_iff.1 hk
    obtain ⟨rfl, rfl⟩ := Prod.mk.inj hp
    have hshift : 0 ≤ shift := by linarith [show (0 : ℚ) < 1 / 10 ^ 6 by positivity]
    have main : ts ≤ t ∧ t ≤ fl (te - width) ∧ fl t = t ∧ |t - (ts + k * shift)| ≤ 11 / 10 ^ 9 ∧
        (k < n → |t - (ts + k * shift)| ≤ 3 / 10 ^ 10) := by
      by_cases hkn : k < n
      · rw [List.getElem?_append_left (by simpa using hkn), List.getElem?_map, List.getElem?_range hkn] at ht
        cases ht
        obtain ⟨m1, m2⟩ := n9 k hkn
        refine ⟨step_ge h hts hshift k, m1, h.idem _, m2.trans (by norm_num), fun _ => m2⟩
      · rw [List.getElem?_append_right (by simpa using hkn)] at ht
        have hk' : k = n := by
          by_contra hne
          have : 0 < k - n := by omega
          rw [List.getElem?_eq_none (by simp; omega)] at ht
          cases ht
        subst hk'
        simp at ht
        subst ht
        exact ⟨n5, n6, n7, n8, fun hlt => absurd hlt (lt_irrefl _)⟩
    obtain ⟨m1, m2, m3, m4, m5⟩ := main
    refine ⟨m1, ?_, snap_le h hte, m3, ?_, m4, m5, snap_near h (h0.trans m1) hw (by linarith) (by linarith)⟩
    · unfold snapAbove
      split_ifs
      · linarith
      · have := h.mono t (t + width) (by linarith)
        rwa [m3] at this
    · unfold snapAbove
      split_ifs
      · exact hte
      · exact h.idem _

/-- **C194, no window.** If no window of the width is in the range, there is none. -/
theorem C194_none (h : IsRounding fl) {ts te width shift : ℚ} (hb : |te - width| ≤ 10 ^ 5) (hc : |ts| ≤ 10 ^ 5)
    (s1 : 1 / 10 ^ 6 ≤ shift) (s2 : shift ≤ 10 ^ 5) (hr : te + 12 / 10 ^ 9 < ts + width) :
    slider fl ts te width shift false (TOL fl) = [] := by
  have hs : 0 < shift := by linarith [show (0 : ℚ) < 1 / 10 ^ 6 by positivity]
  have eR := abs_le.1 (err h hb)
  have hb' := abs_le.1 hb
  have hc' := abs_le.1 hc
  obtain ⟨n1, -⟩ := steps_near h (L := ts) (R := fl (te - width)) (step := shift) (by
    rw [abs_le]
    constructor <;> linarith) s1 s2
  unfold slider
  simp only [Bool.false_eq_true, if_false]
  unfold arange
  simp only []
  rw [if_pos]
  · rfl
  · by_contra hn
    push Not at hn
    have : (0 : ℚ) ≤ (toApproxInt fl (fl (fl (fl (fl (te - width) - ts) * 1) / shift)) (fl (TOL fl / shift)) false : ℤ) := by
      exact_mod_cast hn
    have := mul_nonneg this hs.le
    linarith

/-! ### Frames -/

/-- No frame starts near the end minus the tolerance: there, rounding decides if the end of the frame before is snapped, and
if the frame is kept. -/
def Clear (ts te rate : ℚ) : Prop := ∀ k : ℕ, 2 / 10 ^ 9 < |ts + k / rate - (te - 1 / 10 ^ 8)|

/-- Multiples of the rounded duration. -/
theorem multiple_near (h : IsRounding fl) {rate : ℚ} (r1 : 1 / 10 ^ 4 ≤ rate) (r2 : rate ≤ 9 * 10 ^ 5) {k : ℕ}
    (hk : (k : ℚ) / rate ≤ 10 ^ 6) : |k * fl (1 / rate) - k / rate| ≤ 2 / 10 ^ 10 := by
  have hr : 0 < rate := by linarith [show (0 : ℚ) < 1 / 10 ^ 4 by positivity]
  have e := err h (x := 1 / rate) (B := 1 / rate) (by rw [abs_of_pos (by positivity)])
  have hk2 : (k : ℚ) ≤ 10 ^ 12 := by
    rw [div_le_iff₀ hr] at hk
    nlinarith
  have : (k : ℚ) * fl (1 / rate) - k / rate = k * (fl (1 / rate) - 1 / rate) := by ring
  rw [this, abs_mul, Nat.abs_cast]
  have hk0 : (0 : ℚ) ≤ k := by positivity
  calc (k : ℚ) * |fl (1 / rate) - 1 / rate| ≤ k * (1 / rate * (112 / 10 ^ 18) + 1 / 10 ^ 30) := by gcongr
    _ = k / rate * (112 / 10 ^ 18) + k / 10 ^ 30 := by ring
    _ ≤ 2 / 10 ^ 10 := by linarith

theorem snap_of_far (h : IsRounding fl) {te x y : ℚ} (h0 : |te| ≤ 10 ^ 6) (hxy : |x - y| ≤ 8 / 10 ^ 10)
    (hf : 12 / 10 ^ 10 < |y - (te - 1 / 10 ^ 8)|) :
    snapAbove fl x te (TOL fl) = if te - 1 / 10 ^ 8 < y then te else x := by
  have ht := abs_le.1 (tol_near h)
  have h0' := abs_le.1 h0
  have e := abs_le.1 (err h (x := te - TOL fl) (B := 10 ^ 6 + 1) (by rw [abs_le]; constructor <;> linarith))
  have hx := abs_le.1 hxy
  unfold snapAbove
  by_cases hc : te - 1 / 10 ^ 8 < y
  · rw [abs_of_pos (by linarith)] at hf
    rw [if_pos hc, if_pos (by linarith)]
  · rw [abs_of_nonpos (by linarith)] at hf
    rw [if_neg hc, if_neg (by linarith)]

/-- **C194, frames.** Frames at a rate are consecutive windows from the start to the end, each near the multiples of the
duration.  Only the last one is shorter. -/
theorem C194_frames (h : IsRounding fl) {γ : Type} {ts te rate : ℚ} (hts : fl ts = ts) (hte : fl te = te) (h0 : 0 ≤ ts)
    (h1 : te ≤ 9 * 10 ^ 5) (r1 : 1 / 10 ^ 4 ≤ rate) (r2 : rate ≤ 9 * 10 ^ 5) (hlt : ts + 2 / 10 ^ 8 ≤ te)
    (hc : Clear ts te rate) :
    ∃ (m : ℕ) (ws : List (Win α (Option γ))), concatOfFrames fl ts te rate = .ok ⟨ws⟩ ∧ 1 ≤ m ∧ ws.length = m ∧
      (∀ k : ℕ, k < m ↔ ts + k / rate ≤ te - 1 / 10 ^ 8) ∧
      ∀ (k : ℕ) (w : Win α (Option γ)), ws[k]? = some w → ∃ s e, w = .basic ⟨s, e, none⟩ ∧
        (k = 0 → s = ts) ∧ |s - (ts + k / rate)| ≤ 5 / 10 ^ 10 ∧
        (k + 1 = m → e = te) ∧ (k + 1 ≠ m → |e - (ts + (k + 1 : ℕ) / rate)| ≤ 8 / 10 ^ 10) := by
  have hr : 0 < rate := by linarith [show (0 : ℚ) < 1 / 10 ^ 4 by positivity]
  set d := fl (1 / rate) with hd
  have hd4 : 1 / rate ≤ 10 ^ 4 := by
    rw [div_le_iff₀ hr]
    linarith
  have hd6 : 11 / 10 ^ 7 ≤ 1 / rate := by
    rw [le_div_iff₀ hr]
    linarith
  have ed := abs_le.1 (err h (x := 1 / rate) (B := 10 ^ 4) (by rw [abs_of_pos (by positivity)]; exact hd4))
  rw [← hd] at ed
  have d1 : 1 / 10 ^ 6 ≤ d := by linarith
  have d2 : d ≤ 10 ^ 5 := by linarith
  have d0 : 0 < d := by linarith [show (0 : ℚ) < 1 / 10 ^ 6 by positivity]
  have hte0 : |te| ≤ 10 ^ 6 := by rw [abs_le]; constructor <;> linarith
  obtain ⟨n, last, n1, n2, n3, n4, n5, n6, n7, n8, n9⟩ := C194_starts h hts hte h0 (by linarith) (by linarith) d1 d2 false
  -- multiples
  have hmul : ∀ k : ℕ, k ≤ n + 1 → (k : ℚ) / rate ≤ 10 ^ 6 ∧ ts + k * d ≤ 10 ^ 6 - 1 := by
    intro k hk
    have hkq : (k : ℚ) ≤ n + 1 := by exact_mod_cast hk
    have a : (k : ℚ) * d ≤ (n + 1) * d := by gcongr
    have b : ((n : ℚ) + 1) * d = n * d + d := by ring
    have hd' : (k : ℚ) / rate * (1 - 1 / 10 ^ 9) ≤ k * d := by
      have : (1 / rate) * (1 - 1 / 10 ^ 9) ≤ d := by
        have := abs_le.1 (err h (x := 1 / rate) (B := 1 / rate) (by rw [abs_of_pos (by positivity)]))
        rw [← hd] at this
        linarith
      have hk0 : (0 : ℚ) ≤ k := by positivity
      calc (k : ℚ) / rate * (1 - 1 / 10 ^ 9) = k * ((1 / rate) * (1 - 1 / 10 ^ 9)) := by ring
        _ ≤ k * d := by gcongr
    constructor <;> linarith
  have hmn : ∀ k : ℕ, k ≤ n + 1 → |k * d - k / rate| ≤ 2 / 10 ^ 10 := fun k hk => multiple_near h r1 r2 (hmul k hk).1
  have hsn : ∀ k : ℕ, k ≤ n + 1 → |fl (ts + fl (k * d)) - (ts + k / rate)| ≤ 5 / 10 ^ 10 := by
    intro k hk
    have a := abs_le.1 (step_near h h0 d0.le (k := k) (by linarith [(hmul k hk).2]))
    have b := abs_le.1 (hmn k hk)
    rw [abs_le]
    constructor <;> linarith
  have hcast : ∀ k : ℕ, ((k + 1 : ℕ) : ℚ) / rate = k / rate + 1 / rate := by
    intro k
    push_cast
    rw [add_div]
  have hen : ∀ k : ℕ, k ≤ n → |fl (fl (ts + fl (k * d)) + d) - (ts + (k + 1 : ℕ) / rate)| ≤ 8 / 10 ^ 10 := by
    intro k hk
    have a := abs_le.1 (step_near h h0 d0.le (k := k) (by linarith [(hmul k (by omega)).2]))
    have b := abs_le.1 (hmn (k + 1) (by omega))
    have c := (hmul (k + 1) (by omega)).2
    push_cast at c b
    have g := step_ge h hts d0.le k
    have e := abs_le.1 (err h (x := fl (ts + fl (k * d)) + d) (B := 10 ^ 6) (by
      rw [abs_of_nonneg (by linarith)]
      linarith))
    push_cast
    rw [abs_le]
    constructor <;> linarith
  have hfar : ∀ k : ℕ, 12 / 10 ^ 10 < |ts + k / rate - (te - 1 / 10 ^ 8)| := by
    intro k
    have := hc k
    linarith
  have hlast : last = if te - 1 / 10 ^ 8 < ts + n / rate then te else fl (ts + fl (n * d)) := by
    rw [n3]
    exact snap_of_far h hte0 ((hsn n (by omega)).trans (by norm_num)) (hfar n)
  have hend : ∀ k : ℕ, k ≤ n → snapAbove fl (fl (fl (ts + fl (k * d)) + d)) te (TOL fl) =
      if te - 1 / 10 ^ 8 < ts + (k + 1 : ℕ) / rate then te else fl (fl (ts + fl (k * d)) + d) := by
    intro k hk
    exact snap_of_far h hte0 (hen k hk) (hfar (k + 1))
  have hmono : ∀ i j : ℕ, i ≤ j → (i : ℚ) / rate ≤ j / rate := by
    intro i j hij
    gcongr
  -- before the last step
  have hbefore : ∀ k : ℕ, k < n → ts + k / rate ≤ te - 1 / 10 ^ 8 := by
    intro k hk
    have a := hmono (k + 1) n hk
    rw [hcast] at a
    have b := abs_le.1 (hmn n (by omega))
    linarith
  have hafter : te - 1 / 10 ^ 8 < ts + (n + 1 : ℕ) / rate := by
    by_contra hn
    push Not at hn
    have b := abs_le.1 (hmn (n + 1) le_rfl)
    have := n2 (n + 1) (by linarith)
    omega
  -- the frames
  obtain ⟨m, hm1, hmle, hms, hmstarts⟩ : ∃ m : ℕ, 1 ≤ m ∧ m ≤ n + 1 ∧
      (∀ k : ℕ, k < m ↔ ts + k / rate ≤ te - 1 / 10 ^ 8) ∧
      arange fl ts te d false (TOL fl) = (List.range m).map fun i : ℕ => fl (ts + fl (i * d)) := by
    by_cases hA : te - 1 / 10 ^ 8 < ts + n / rate
    · rw [if_pos hA] at hlast
      have hiff : ∀ k : ℕ, k < n ↔ ts + k / rate ≤ te - 1 / 10 ^ 8 := by
        intro k
        refine ⟨hbefore k, fun hk => ?_⟩
        by_contra hkn
        push Not at hkn
        linarith [hmono n k hkn]
      refine ⟨n, ?_, by omega, hiff, ?_⟩
      · have := (hiff 0).2 (by
          rw [Nat.cast_zero, zero_div]
          linarith)
        omega
      · rw [n4, hlast, if_neg (by simp), List.append_nil]
    · rw [if_neg hA] at hlast
      have hne : last ≠ te := by
        rw [hlast]
        have := abs_le.1 (hsn n (by omega))
        intro he
        linarith
      refine ⟨n + 1, by omega, le_rfl, ?_, ?_⟩
      · intro k
        constructor
        · intro hk
          linarith [hmono k n (by omega)]
        · intro hk
          by_contra hkn
          push Not at hkn
          linarith [hmono (n + 1) k hkn]
      · rw [n4, if_pos (Or.inr hne), List.range_succ, List.map_append, List.map_singleton, hlast]
  have hE : ∀ k : ℕ, k < m → snapAbove fl (fl (fl (ts + fl (k * d)) + d)) te (TOL fl) =
      if k + 1 = m then te else fl (fl (ts + fl (k * d)) + d) := by
    intro k hk
    rw [hend k (by omega)]
    by_cases hkm : k + 1 = m
    · rw [if_pos hkm, if_pos]
      by_contra hn
      push Not at hn
      have := (hms (k + 1)).2 hn
      omega
    · rw [if_neg hkm, if_neg]
      have := (hms (k + 1)).1 (by omega)
      linarith
  set ws : List (Win α (Option γ)) := (List.range m).map fun k : ℕ =>
    Win.basic ⟨fl (ts + fl (k * d)), if k + 1 = m then te else fl (fl (ts + fl (k * d)) + d), none⟩ with hws
  have hrun : concatOfFrames fl ts te rate = concatInit fl ws := by
    unfold concatOfFrames slider
    simp only [← hd, if_true, Bool.not_true]
    rw [hmstarts, List.map_map, List.map_map, hws]
    congr 1
    apply List.map_congr_left
    intro k hk
    simp only [Function.comp]
    rw [hE k (List.mem_range.1 hk)]
  refine ⟨m, ws, ?_, hm1, by simp [hws], hms, ?_⟩
  · rw [hrun]
    apply concatInit_ok
    · intro hnil
      have := congrArg List.length hnil
      rw [hws, List.length_map, List.length_range, List.length_nil] at this
      omega
    · exact tol_nonneg h
    · rw [List.isChain_iff_getElem]
      intro k hk
      rw [hws, List.length_map, List.length_range] at hk
      simp only [hws, List.getElem_map, List.getElem_range]
      rw [if_neg (by omega)]
      apply close h
      have a := abs_le.1 (hen k (by omega))
      have b := abs_le.1 (hsn (k + 1) (by omega))
      show |fl (fl (ts + fl (k * d)) + d) - fl (ts + fl ((k + 1 : ℕ) * d))| ≤ _
      rw [abs_le]
      constructor <;> linarith
  · intro k w hk
    rw [hws, List.getElem?_map] at hk
    obtain ⟨k', hk', rfl⟩ := Option.map_eq_some_iff.1 hk
    have hkm : k < m := by
      by_contra hn
      rw [List.getElem?_eq_none (by simpa using hn)] at hk'
      cases hk'
    rw [List.getElem?_range hkm] at hk'
    cases hk'
    refine ⟨_, _, rfl, ?_, hsn k (by omega), fun he => if_pos he, ?_⟩
    · rintro rfl
      rw [Nat.cast_zero, zero_mul, fl_zero h, add_zero, hts]
    · intro he
      rw [if_neg he]
      exact hen k (by omega)

/-! ### Crops by sliding windows -/

/-- **C193, crops.** A range of at least one sample between two floats of a concatenation can be cropped, unless both are in
the same file and the second is less than one nanosecond before its end: then it may raise `TimeOutOfBound`. -/
theorem C193_crop (h : IsRounding fl) {ws : List WavWin} (hb : Built fl ws) {a b : ℚ} (ha : fl a = a) (hfb : fl b = b)
    (h1 : ∀ v ∈ ws.head?, v.start ≤ a) {l : WavWin} (hl : ws.getLast? = some l) (h2 : b ≤ l.stop)
    (hlong : ∀ w ∈ ws, a + 1 / w.rate ≤ b) :
    (∃ vs : List WavWin, concatGetSub fl (⟨ws.map Win.wav⟩ : Concat α Unit) a b = .ok ⟨vs.map Win.wav⟩) ∨
    (∃ w ∈ ws, w.start ≤ a ∧ b ≤ w.stop ∧ w.stop < b + 1 / 10 ^ 9 ∧
      concatGetSub fl (⟨ws.map Win.wav⟩ : Concat α Unit) a b = .error .timeOutOfBound) := by
  have hab : a ≤ b := by
    have hmem := List.mem_of_getLast? hl
    obtain ⟨n, hn⟩ := hb.whole l hmem
    have : (0 : ℚ) < 1 / l.rate := by
      have := hn.rate1
      positivity
    linarith [hlong l hmem]
  have h1b : ∀ v ∈ ws.head?, v.start ≤ b := fun v hv => (h1 v hv).trans hab
  obtain ⟨pre, w, post, ar, -⟩ := C193_at (α := α) h hb ha h1 hl (hab.trans h2)
  obtain ⟨pre2, v, post2, br, -⟩ := C193_at (α := α) h hb hfb h1b hl h2
  have hwm : w ∈ ws := by rw [ar.split]; simp
  have hvm : v ∈ ws := by rw [br.split]; simp
  obtain ⟨n, hw⟩ := hb.whole w hwm
  obtain ⟨m, hv⟩ := hb.whole v hvm
  have hsplit : (pre2 = pre ∧ v = w ∧ post2 = post) ∨ ∃ mid, pre2 = pre ++ w :: mid ∧ post = mid ++ v :: post2 := by
    have e := ar.split.symm.trans br.split
    rcases List.append_eq_append_iff.1 e with ⟨mid, e1, e2⟩ | ⟨mid, e1, e2⟩
    · cases mid with
      | nil =>
        simp at e1 e2
        exact Or.inl ⟨e1, e2.1.symm, e2.2.symm⟩
      | cons u mid =>
        simp at e2
        exact Or.inr ⟨mid, by rw [e1, e2.1], e2.2⟩
    · cases mid with
      | nil =>
        simp at e1 e2
        exact Or.inl ⟨e1.symm, e2.1, e2.2⟩
      | cons u mid =>
        simp at e2
        have := ar.before u (by rw [e1]; simp)
        rw [← e2.1] at this
        linarith [br.stop]
  rcases hsplit with ⟨rfl, rfl, rfl⟩ | ⟨mid, rfl, rfl⟩
  · obtain ⟨i, s, e, i1, i2, i3, i4, i5, i6, i7⟩ := C193_crop_one (α := α) h hb hv ar br h1 h1b
    have i4' := abs_le.1 i4
    have i5' := abs_le.1 i5
    have hsb : s ≤ b := by
      have hr : (0 : ℚ) < v.rate := by linarith [hv.rate1]
      have hlv := hlong v hwm
      have hpos : (1 : ℚ) / 10 ^ 6 ≤ 1 / v.rate := by
        have := hv.rate2
        gcongr
      cases i with
      | zero =>
        rw [Nat.cast_zero, zero_div] at i4'
        linarith [ar.start]
      | succ i =>
        have : ¬ a ≤ v.start + i / v.rate + 9 / 10 ^ 9 := by
          intro hle
          have := i3 i hle
          omega
        push Not at this
        push_cast at i4'
        rw [add_div] at i4'
        linarith
    by_cases heb : b ≤ e
    · obtain ⟨w', j, e1, -⟩ := i7 hsb heb
      exact Or.inl ⟨[w'], e1⟩
    · push Not at heb
      exact Or.inr ⟨v, hvm, ar.start, br.stop, by linarith, i6 (Or.inr heb)⟩
  · obtain ⟨i, j, w', v', e1, -⟩ := C193_crop_many (α := α) h hb hw hv ar br h1 h1b
    exact Or.inl ⟨_, e1⟩

/-- **C194, windows over files.** Sliding windows over files, as the script of sliding windows computes them: each of them
can be cropped from the concatenation, unless it is in one file and its end is less than one nanosecond before the end of
the file. -/
theorem C194_files (h : IsRounding fl) (files : WavFiles α) {paths : List String} (hne : paths ≠ []) (hr : Readable files paths)
    (hd : lengths files paths + paths.length / 10 ^ 9 ≤ 10 ^ 6 - 3) {width shift : ℚ}
    (hw : ∀ p ∈ paths, 1 / (files p).1 + 3 / 10 ^ 8 ≤ width) (s1 : 1 / 10 ^ 6 ≤ shift) (s2 : shift ≤ 10 ^ 5)
    (hlong : width ≤ lengths files paths - paths.length / 10 ^ 9) :
    ∃ (ws : List WavWin) (te : ℚ), concatFromListOfWavs fl files paths none = .ok ⟨ws.map Win.wav⟩ ∧
      (⟨ws.map Win.wav⟩ : Concat α Unit).start = .ok 0 ∧ (⟨ws.map Win.wav⟩ : Concat α Unit).stop = .ok te ∧
      |te - lengths files paths| ≤ paths.length / 10 ^ 9 ∧
      slider fl 0 te width shift false (TOL fl) ≠ [] ∧
      ∀ p ∈ slider fl 0 te width shift false (TOL fl),
        (∃ vs : List WavWin, concatGetSub fl (⟨ws.map Win.wav⟩ : Concat α Unit) p.1 p.2 = .ok ⟨vs.map Win.wav⟩) ∨
        (∃ w ∈ ws, w.start ≤ p.1 ∧ p.2 ≤ w.stop ∧ w.stop < p.2 + 1 / 10 ^ 9 ∧
          concatGetSub fl (⟨ws.map Win.wav⟩ : Concat α Unit) p.1 p.2 = .error .timeOutOfBound) := by
  have hz : fl ((none : Option ℚ).getD 0) = (none : Option ℚ).getD 0 := fl_zero h
  obtain ⟨ws, b1, b2, b3, b4, b5⟩ := C193_build h files hne (start := none) hz le_rfl hr (by
    rw [Option.getD_none]
    linarith)
  simp only [Option.getD_none] at b4 b5
  have hwne : ws ≠ [] := by
    intro hnil
    rw [hnil, List.length_nil] at b3
    exact hne (List.length_eq_zero_iff.1 b3.symm)
  obtain ⟨f, hf⟩ : ∃ f, ws.head? = some f := by
    cases ws with
    | nil => exact absurd rfl hwne
    | cons f _ => exact ⟨f, rfl⟩
  obtain ⟨l, hl⟩ : ∃ l, ws.getLast? = some l := ⟨_, List.getLast?_eq_some_getLast hwne⟩
  have hlq : ws[paths.length - 1]? = some l := by
    rw [← hl, List.getLast?_eq_getElem?, b3]
  obtain ⟨p, p1, p2, p3, p4, p5⟩ := b5 _ l hlq
  have hlen : 0 < paths.length := List.length_pos_iff.2 hne
  have hsum : lengths files paths = lengths files (paths.take (paths.length - 1)) + ((files p).2.length : ℚ) / (files p).1 := by
    have : paths = paths.take (paths.length - 1) ++ [p] := by
      obtain ⟨hlt, he⟩ := List.getElem?_eq_some_iff.1 p1
      conv_lhs => rw [← List.take_append_drop (paths.length - 1) paths]
      rw [List.drop_eq_getElem_cons hlt, he]
      congr 2
      exact List.drop_eq_nil_of_le (by omega)
    conv_lhs => rw [this]
    simp [lengths]
  have p5' := abs_le.1 p5
  have hnear := abs_le.1 (p4.stop_near h)
  rw [p3] at hnear
  have hcast : ((paths.length - 1 : ℕ) : ℚ) = paths.length - 1 := by
    rw [Nat.cast_sub hlen, Nat.cast_one]
  rw [hcast] at p5'
  have hte : fl l.stop = l.stop := by
    have := p4.fresh
    unfold Fresh at this
    rw [this, h.idem]
  have hdist : |l.stop - lengths files paths| ≤ paths.length / 10 ^ 9 := by
    rw [hsum, abs_le]
    constructor <;> linarith
  have hd' := abs_le.1 hdist
  obtain ⟨q, hq⟩ := List.exists_mem_of_ne_nil _ hne
  have hw0 : 0 ≤ width := by
    have := hw q hq
    have hq1 := (hr q hq).1
    have : (0 : ℚ) ≤ 1 / (files q).1 := by positivity
    linarith [hw q hq]
  obtain ⟨n, n1, n2, n3, n4⟩ := C194_slider h (ts := 0) (te := l.stop) (width := width) (shift := shift) (fl_zero h) hte le_rfl
    (by linarith) hw0 s1 s2 (by linarith)
  refine ⟨ws, l.stop, b1, ?_, ?_, hdist, ?_, ?_⟩
  · unfold Concat.start
    simp only [List.head?_map, hf, Option.map_some]
    exact congrArg _ (b4 f (by rw [hf]; rfl))
  · unfold Concat.stop
    simp only [List.getLast?_map, hl, Option.map_some]
    rfl
  · intro hnil
    rw [hnil] at n1
    simp at n1
  · rintro ⟨s, e⟩ hmem
    obtain ⟨k, hk⟩ := List.mem_iff_getElem?.1 hmem
    obtain ⟨m1, m2, m3, m4, m5, m6, m7, m8⟩ := n4 k s e hk
    have m8' := abs_le.1 m8
    refine C193_crop h b2 m4 m5 ?_ hl m3 ?_
    · intro v hv
      rw [b4 v hv]
      exact m1
    · intro w hwm
      obtain ⟨j, hj⟩ := List.mem_iff_getElem?.1 hwm
      obtain ⟨p', q1, q2, q3, -⟩ := b5 j w hj
      have := hw p' (List.mem_of_getElem? q1)
      rw [q3]
      show s + _ ≤ e
      linarith

end Verif.Window.Fl
