import Verif.Window.Steps
import Verif.Window.PropsFrames
import Verif.Window.PropsTimes

/-!
# Property C210: steps of any size and sign
-/

namespace Verif.Window

open Verif

theorem arangePy_ne {step : ℚ} (h : step ≠ 0) (left right tol : ℚ) (incl : Bool) :
    arangePy left right step incl tol = .ok (arange left right step incl tol) := by
  unfold arangePy arange pyDiv
  rw [if_neg h, if_neg h]
  simp only [Bind.bind, Except.bind, Pure.pure, Except.pure]
  split_ifs <;> rfl

theorem sliderPy_ne {shift : ℚ} (h : shift ≠ 0) (a b width tol : ℚ) (p : Bool) :
    sliderPy a b width shift p tol = .ok (slider a b width shift p tol) := by
  unfold sliderPy slider
  simp only [arangePy_ne h]
  rfl

/-- **C210.** A null step, shift or rate raises `ZeroDivisionError`; otherwise these functions are those of the
exact model. -/
theorem C210_zero {α γ : Type} (a b width x tol : ℚ) (flag : Bool) (arr : List α) :
    (arangePy a b 0 flag tol = .error .zeroDivisionError ∧ sliderPy a b width 0 flag tol = .error .zeroDivisionError ∧
      (concatOfFramesPy a b 0 : Py (Concat α (Option γ))) = .error .zeroDivisionError ∧
      ArrayWin.initPy arr a 0 = .error .zeroDivisionError) ∧
    (x ≠ 0 → arangePy a b x flag tol = .ok (arange a b x flag tol) ∧
      sliderPy a b width x flag tol = .ok (slider a b width x flag tol) ∧
      (concatOfFramesPy a b x : Py (Concat α (Option γ))) = concatOfFrames a b x ∧
      ArrayWin.initPy arr a x = .ok (ArrayWin.init arr a x)) := by
  refine ⟨⟨rfl, rfl, rfl, rfl⟩, fun hx => ⟨arangePy_ne hx .., sliderPy_ne hx .., ?_, ?_⟩⟩
  · unfold concatOfFramesPy concatOfFrames pyDiv
    rw [if_neg hx]
    change (sliderPy a b (1 / x) (1 / x) true TOL >>= _) = _
    rw [sliderPy_ne (one_div_ne_zero hx)]
    rfl
  · unfold ArrayWin.initPy ArrayWin.init pyDiv samplesToDuration
    rw [if_neg hx]
    simp only [Bind.bind, Except.bind, Pure.pure, Except.pure]

theorem toApproxInt_neg (x tol : ℚ) (h : tol ≤ 0) : toApproxInt x tol false = ⌊x⌋ := by
  unfold toApproxInt
  simp only []
  rw [if_neg (by have := Int.le_ceil x; linarith), if_neg (by have := Int.floor_le x; linarith)]
  simp

/-- Points at multiples of a step. -/
def points (left step : ℚ) (n : ℕ) : List ℚ := (List.range n).map fun (i : ℕ) => left + (i : ℚ) * step

/-- **C210.** With a negative step there are no times when right is after left.  Otherwise there are the times at
multiples of the step, as many as whole steps fit, and then the right border in any case: the last interval may be up to
twice as long as the others. -/
theorem C210_negative (left right step tol : ℚ) (incl : Bool) (ht : 0 ≤ tol) (hs : step < 0) :
    (left < right → arange left right step incl tol = []) ∧
    (right ≤ left → ∃ n : ℕ, arange left right step incl tol = points left step n ++ (if incl then [right] else []) ∧
      right ≤ left + (n : ℚ) * step ∧ left + ((n : ℚ) + 1) * step < right) := by
  unfold arange
  simp only []
  rw [toApproxInt_neg _ _ (div_nonpos_of_nonneg_of_nonpos ht hs.le), mul_one]
  refine ⟨fun h => ?_, fun h => ?_⟩
  · rw [if_pos]
    rw [Int.floor_lt]
    exact_mod_cast div_neg_of_pos_of_neg (by linarith) hs
  · have hx : 0 ≤ (right - left) / step := div_nonneg_of_nonpos (by linarith) hs.le
    have hn : 0 ≤ ⌊(right - left) / step⌋ := Int.floor_nonneg.2 hx
    obtain ⟨n, hn'⟩ := Int.eq_ofNat_of_zero_le hn
    have h1 := Int.floor_le ((right - left) / step)
    have h2 := Int.lt_floor_add_one ((right - left) / step)
    rw [hn'] at h1 h2 ⊢
    rw [le_div_iff_of_neg hs] at h1
    rw [div_lt_iff_of_neg hs] at h2
    push_cast at h1 h2
    have hlast : snapAbove (left + ((n : ℤ) : ℚ) * step) right tol = right := by
      unfold snapAbove
      push_cast
      split_ifs with hc
      · rfl
      · linarith
    rw [if_neg (by omega), hlast]
    refine ⟨n, ?_, by linarith, by linarith⟩
    cases incl <;> simp [points]

/-- **C210.** With positive steps below twice the tolerance: times at multiples of the step, all before right and up to
less than the tolerance from it, and then the right border in any case.  There are none when right is before left by a
step or by the tolerance. -/
theorem C210_small (left right step tol : ℚ) (incl : Bool) (hs : 0 < step) (ht : step < 2 * tol) :
    (right ≤ left - step ∨ right ≤ left - tol → arange left right step incl tol = []) ∧
    (left - step < right → left - tol < right → ∃ n : ℕ,
      arange left right step incl tol = points left step n ++ (if incl then [right] else []) ∧
      (∀ i : ℕ, i < n → left + (i : ℚ) * step < right) ∧ right - tol < left + (n : ℚ) * step) := by
  unfold arange
  simp only []
  rw [mul_one]
  set x := (right - left) / step with hx
  have hxs : x * step = right - left := by rw [hx]; field_simp
  have htol : 0 < tol := by linarith
  have hT : tol / step * step = tol := by field_simp
  have hc := Int.le_ceil x
  have hc' := Int.ceil_lt_add_one x
  have hf := Int.floor_le x
  have hf' := Int.lt_floor_add_one x
  have hcf : ⌈x⌉ ≤ ⌊x⌋ + 1 := Int.ceil_le_floor_add_one x
  have hfc : ⌊x⌋ ≤ ⌈x⌉ := Int.floor_le_ceil x
  -- the number of steps is one of both, within the tolerance
  have key : ∃ n : ℤ, toApproxInt x (tol / step) false = n ∧ (n = ⌈x⌉ ∨ n = ⌊x⌋) ∧ |(n : ℚ) - x| < tol / step ∧ (n ≠ ⌈x⌉ → tol / step ≤ (⌈x⌉ : ℚ) - x) := by
    unfold toApproxInt
    simp only []
    have hhalf : 1 / 2 < tol / step := by rw [div_lt_div_iff₀ (by norm_num) hs]; linarith
    split_ifs with h1 h2
    · exact ⟨_, rfl, .inl rfl, by rw [abs_of_nonneg (by linarith)]; exact h1, fun h => absurd rfl h⟩
    · refine ⟨_, rfl, .inr rfl, ?_, fun _ => not_lt.1 h1⟩
      rw [abs_of_nonpos (by linarith)]; linarith
    all_goals
      exfalso
      have : ((⌈x⌉ : ℤ) : ℚ) ≤ (⌊x⌋ : ℚ) + 1 := by exact_mod_cast hcf
      linarith
  obtain ⟨n, hn, hnor, habs, hnc⟩ := key
  rw [hn]
  rw [abs_lt] at habs
  have ha1 : right - tol < left + (n : ℚ) * step := by
    have := mul_lt_mul_of_pos_right habs.1 hs
    rw [sub_mul, neg_mul, hT, hxs] at this
    linarith
  have ha2 : left + (n : ℚ) * step < right + tol := by
    have := mul_lt_mul_of_pos_right habs.2 hs
    rw [sub_mul, hT, hxs] at this
    linarith
  refine ⟨fun h => ?_, fun h h' => ?_⟩
  · rw [if_pos]
    rcases h with h | h
    · have : x ≤ -1 := by rw [hx, div_le_iff₀ hs]; linarith
      have hcc : ⌈x⌉ ≤ -1 := Int.ceil_le.2 (by exact_mod_cast this)
      rcases hnor with e | e <;> omega
    · have : (n : ℚ) * step < 0 := by linarith
      have : (n : ℚ) < 0 := by
        by_contra hh
        have := mul_nonneg (not_lt.1 hh) hs.le
        linarith
      exact_mod_cast this
  · have hx1 : -1 < x := by rw [hx, lt_div_iff₀ hs]; linarith
    have hcc : 0 ≤ ⌈x⌉ := by
      have : (-1 : ℚ) < ((⌈x⌉ : ℤ) : ℚ) := hx1.trans_le hc
      have : (-1 : ℤ) < ⌈x⌉ := by exact_mod_cast this
      omega
    have hn0 : 0 ≤ n := by
      rcases hnor with e | e
      · omega
      · by_contra hneg
        have hne : n ≠ ⌈x⌉ := by omega
        have h1 := hnc hne
        have hc0 : ⌈x⌉ = 0 := by omega
        rw [hc0] at h1
        have := mul_le_mul_of_nonneg_right h1 hs.le
        rw [hT, sub_mul, hxs] at this
        push_cast at this
        linarith
    obtain ⟨k, rfl⟩ := Int.eq_ofNat_of_zero_le hn0
    rw [if_neg (by omega)]
    have hlast : snapAbove (left + (((k : ℕ) : ℤ) : ℚ) * step) right tol = right := by
      unfold snapAbove
      rw [if_pos ha1]
    rw [hlast]
    refine ⟨k, by cases incl <;> simp [points], fun i hi => ?_, by exact_mod_cast ha1⟩
    have hik : ((i : ℤ) : ℚ) < x := by
      have : (i : ℤ) < ⌈x⌉ := by
        rcases hnor with e | e <;> omega
      exact Int.lt_ceil.1 this
    have := mul_lt_mul_of_pos_right hik hs
    rw [hxs] at this
    push_cast at this
    linarith

/-- **C210.** With a negative shift: without partial windows, all windows end at the end of the interval, even those
which start after it; there are none when a window fits. -/
theorem C210_slider_negative (tStart tEnd width shift tol : ℚ) (ht : 0 < tol) (hs : shift < 0) :
    (tStart + width < tEnd → slider tStart tEnd width shift false tol = []) ∧
    (tEnd ≤ tStart + width → slider tStart tEnd width shift false tol ≠ [] ∧
      ∀ p ∈ slider tStart tEnd width shift false tol, p.2 = tEnd ∧ tEnd - width ≤ p.1 ∧ p.1 ≤ tStart) := by
  obtain ⟨h1, h2⟩ := C210_negative tStart (tEnd - width) shift tol true ht.le hs
  unfold slider
  refine ⟨fun h => ?_, fun h => ?_⟩
  · simp only [Bool.not_false, Bool.false_eq_true, if_false]
    rw [h1 (by linarith)]
    rfl
  · obtain ⟨n, e, hn, -⟩ := h2 (by linarith)
    simp only [Bool.not_false, Bool.false_eq_true, if_false]
    rw [e]
    refine ⟨by simp, fun p hp => ?_⟩
    obtain ⟨t, ht', rfl⟩ := List.mem_map.1 hp
    have hle : tEnd - width ≤ t ∧ t ≤ tStart := by
      rcases List.mem_append.1 ht' with h' | h'
      · obtain ⟨i, hi, rfl⟩ := List.mem_map.1 h'
        have hi' : (i : ℚ) ≤ n := by exact_mod_cast (List.mem_range.1 hi).le
        have hi0 : (0 : ℚ) ≤ i := by positivity
        constructor
        · have := mul_le_mul_of_nonpos_right hi' hs.le
          linarith
        · have := mul_nonpos_of_nonneg_of_nonpos hi0 hs.le
          linarith
      · have : t = tEnd - width := by simpa using h'
        exact ⟨this.ge, by linarith⟩
    refine ⟨?_, hle⟩
    simp only [snapAbove]
    rw [if_pos (by linarith [hle.1])]

/-- **C210.** With a negative shift and partial windows: none when the interval is not empty, otherwise all windows are
from a time after the end of the interval to this end. -/
theorem C210_slider_partials_negative (tStart tEnd width shift tol : ℚ) (ht : 0 < tol) (hs : shift < 0) (hw : 0 ≤ width) :
    (tStart < tEnd → slider tStart tEnd width shift true tol = []) ∧
    (tEnd ≤ tStart → ∀ p ∈ slider tStart tEnd width shift true tol, p.2 = tEnd ∧ tEnd < p.1 ∧ p.1 ≤ tStart) := by
  obtain ⟨h1, h2⟩ := C210_negative tStart tEnd shift tol false ht.le hs
  unfold slider
  simp only [Bool.not_true, if_true]
  refine ⟨fun h => by rw [h1 h]; rfl, fun h => ?_⟩
  obtain ⟨n, e, hn, -⟩ := h2 h
  rw [e]
  intro p hp
  obtain ⟨t, ht', rfl⟩ := List.mem_map.1 hp
  simp only [Bool.false_eq_true, if_false, List.append_nil] at ht'
  obtain ⟨i, hi, rfl⟩ := List.mem_map.1 ht'
  have hi' : (i : ℚ) + 1 ≤ n := by exact_mod_cast List.mem_range.1 hi
  have hm := mul_le_mul_of_nonpos_right hi' hs.le
  have hi0 : (i : ℚ) * shift ≤ 0 := mul_nonpos_of_nonneg_of_nonpos (by positivity) hs.le
  have hlt : tEnd < tStart + (i : ℚ) * shift := by linarith
  refine ⟨?_, hlt, by linarith⟩
  simp only [snapAbove]
  rw [if_pos (by linarith)]

/-- **C210.** With positive shifts below twice the tolerance, windows are in the interval, none is shorter than the
width nor longer than the width and the tolerance, and the last one is at the end of the interval. -/
theorem C210_slider_small (tStart tEnd width shift tol : ℚ) (hs : 0 < shift) (ht : shift < 2 * tol) :
    (tEnd - width ≤ tStart - shift ∨ tEnd - width ≤ tStart - tol → slider tStart tEnd width shift false tol = []) ∧
    (tStart - shift < tEnd - width → tStart - tol < tEnd - width →
      (slider tStart tEnd width shift false tol).getLast? = some (tEnd - width, tEnd) ∧
      ∀ p ∈ slider tStart tEnd width shift false tol, p.1 ≤ tEnd - width ∧ p.2 ≤ tEnd ∧
        width ≤ p.2 - p.1 ∧ p.2 - p.1 < width + tol) := by
  have htol : 0 < tol := by linarith
  obtain ⟨h1, h2⟩ := C210_small tStart (tEnd - width) shift tol true hs ht
  unfold slider
  simp only [Bool.not_false, Bool.false_eq_true, if_false]
  refine ⟨fun h => by rw [h1 h]; rfl, fun h h' => ?_⟩
  obtain ⟨n, e, hn, -⟩ := h2 h h'
  rw [e]
  have hend : snapAbove tEnd tEnd tol = tEnd := by
    unfold snapAbove
    rw [if_pos (by linarith)]
  refine ⟨by simp [hend], fun p hp => ?_⟩
  obtain ⟨t, ht', rfl⟩ := List.mem_map.1 hp
  have hle : t ≤ tEnd - width := by
    rcases List.mem_append.1 ht' with h' | h'
    · obtain ⟨i, hi, rfl⟩ := List.mem_map.1 h'
      exact (hn i (List.mem_range.1 hi)).le
    · have : t = tEnd - width := by simpa using h'
      exact this.le
  simp only [snapAbove]
  split_ifs with hc
  · exact ⟨hle, le_rfl, by linarith, by linarith⟩
  · exact ⟨hle, by linarith, by linarith, by linarith⟩

/-- **C210.** With a negative rate, of which the period is above the tolerance, `concat_of_frames` raises `ValueError`
unless `t_end` is before `t_start` by one period at least and less than two: then there is one frame which goes
backwards. -/
theorem C210_frames_negative {α γ : Type} (tStart tEnd rate : ℚ) (hr : rate < 0) (hr' : -1 < TOL * rate) :
    ((tStart - tEnd) * -rate < 1 ∨ 2 ≤ (tStart - tEnd) * -rate →
      (concatOfFrames tStart tEnd rate : Py (Concat α (Option γ))) = .error .valueError) ∧
    (1 ≤ (tStart - tEnd) * -rate → (tStart - tEnd) * -rate < 2 →
      (concatOfFrames tStart tEnd rate : Py (Concat α (Option γ))) = .ok ⟨[.basic ⟨tStart, tEnd, none⟩]⟩) := by
  have hT : (0 : ℚ) < TOL := by unfold TOL; norm_num
  have hd : 1 / rate < 0 := one_div_neg.2 hr
  have hdr : 1 / rate * rate = 1 := one_div_mul_cancel hr.ne
  have hdT : 1 / rate < -TOL := by
    by_contra hc
    have := mul_le_mul_of_nonpos_right (not_lt.1 hc) hr.le
    rw [hdr] at this
    linarith
  obtain ⟨h1, h2⟩ := C210_negative tStart tEnd (1 / rate) TOL false hT.le hd
  unfold concatOfFrames slider
  simp only [Bool.not_true, if_true]
  rcases lt_or_ge tStart tEnd with hlt | hge
  · rw [h1 hlt]
    refine ⟨fun _ => rfl, fun h => ?_⟩
    have := mul_neg_of_neg_of_pos (sub_neg.2 hlt) (neg_pos.2 hr)
    linarith
  · obtain ⟨n, e, hn, hn'⟩ := h2 hge
    have hn1 : (n : ℚ) ≤ (tStart - tEnd) * -rate := by
      have := mul_le_mul_of_nonpos_right hn hr.le
      rw [add_mul, mul_assoc, hdr] at this
      linarith
    have hn2 : (tStart - tEnd) * -rate < (n : ℚ) + 1 := by
      have := mul_lt_mul_of_neg_right hn' hr
      rw [add_mul, mul_assoc, hdr] at this
      linarith
    rw [e]
    simp only [Bool.false_eq_true, if_false, List.append_nil]
    have hsnap : ∀ i : ℕ, i < n → snapAbove (tStart + (i : ℚ) * (1 / rate) + 1 / rate) tEnd TOL = tEnd := by
      intro i hi
      unfold snapAbove
      have hi' : (i : ℚ) + 1 ≤ n := by exact_mod_cast hi
      have := mul_le_mul_of_nonpos_right hi' hd.le
      rw [if_pos (by linarith)]
    match n, hn1, hn2, hn, hsnap with
    | 0, _, hn2, _, _ =>
      push_cast at hn2
      refine ⟨fun _ => rfl, fun h => by linarith⟩
    | 1, hn1, hn2, _, hsnap =>
      push_cast at hn1 hn2
      refine ⟨fun h => ?_, fun _ _ => ?_⟩
      · rcases h with h | h <;> linarith
      · have := hsnap 0 (by omega)
        simp only [points, List.range_one, List.map_cons, List.map_nil]
        rw [this]
        simp [Concat.init, Concat.ends, hT.le]
    | n + 2, hn1, _, hn, hsnap =>
      push_cast at hn1
      refine ⟨fun _ => ?_, fun _ h => by
        have : (0 : ℚ) ≤ n := by positivity
        linarith⟩
      have h0 := hsnap 0 (by omega)
      have hr2 : points tStart (1 / rate) (n + 2) = (tStart + ((0 : ℕ) : ℚ) * (1 / rate)) ::
          (tStart + ((1 : ℕ) : ℚ) * (1 / rate)) :: (List.range n).map fun (i : ℕ) => tStart + ((i + 2 : ℕ) : ℚ) * (1 / rate) := by
        unfold points
        rw [List.range_succ_eq_map, List.range_succ_eq_map]
        simp [List.map_map, Function.comp_def, add_assoc]
      rw [hr2]
      simp only [List.map_cons]
      rw [h0]
      unfold Concat.init
      rw [if_neg (by simp)]
      simp only []
      rw [if_pos]
      have hgap : TOL < |tEnd - (tStart + ((1 : ℕ) : ℚ) * (1 / rate))| := by
        rw [abs_sub_comm]
        refine lt_of_lt_of_le ?_ (le_abs_self _)
        push_cast at hn ⊢
        have : (n : ℚ) * (1 / rate) ≤ 0 := mul_nonpos_of_nonneg_of_nonpos (by positivity) hd.le
        linarith
      refine lt_of_lt_of_le hgap ?_
      have hmem : ∀ (l : List ℚ) (a x : ℚ), x ∈ l → x ≤ l.foldl max a := by
        intro l
        induction l with
        | nil => intro a x hx; cases hx
        | cons y l ih =>
          intro a x hx
          rcases List.mem_cons.1 hx with rfl | hx
          · have hmono : ∀ (l : List ℚ) (a : ℚ), a ≤ l.foldl max a := by
              intro l
              induction l with
              | nil => intro a; exact le_rfl
              | cons y l ih => intro a; exact (le_max_left a y).trans (ih _)
            exact (le_max_right a x).trans (hmono _ _)
          · exact ih _ _ hx
      refine hmem _ _ _ (List.mem_append_left _ ?_)
      simp only [Concat.ends, List.map_cons, List.drop_succ_cons, List.drop_zero, Win.stop, Win.start,
        List.dropLast_cons_cons, List.zip_cons_cons]
      simp

/-- **C210.** With a negative rate, windows of at least one sample have no times: all sub-windows raise
`TimeOutOfBound`. -/
theorem C210_negative_rate {α : Type} (arr : List α) (start rate a b : ℚ) (hne : arr ≠ []) (hr : rate < 0) :
    (ArrayWin.init arr start rate).getSub a b = .error .timeOutOfBound := by
  have hlen : (0 : ℚ) < ((arr.length : ℤ) : ℚ) := by exact_mod_cast List.length_pos_iff.2 hne
  have hstop : (ArrayWin.init arr start rate).stop < start := by
    unfold ArrayWin.init samplesToDuration
    simp only []
    have := div_neg_of_pos_of_neg hlen hr
    rw [mul_one]
    linarith
  unfold ArrayWin.getSub indexAfter checkTime
  change ((if a < start then _ else if a > (ArrayWin.init arr start rate).stop then _ else _ : Py Unit) >>= _) >>= _ = _
  split_ifs with h1 h2
  · rfl
  · rfl
  · linarith

end Verif.Window
