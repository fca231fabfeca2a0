import Verif.Window.Lemmas

/-!
# Properties C01-C04: rounding, regular times, sliding windows

The statements only use integers, rationals and lists; the modelled functions appear once, as the
object of the claim.
-/

namespace Verif.Window

open Verif

/-- **C01.** Rounding with tolerance. `r` is the result.
1. `r` is an integer at distance less than one from `x`;
2. a value within `tol` below an integer goes to that integer;
3. otherwise, a value within `tol` above an integer goes to that integer;
4. otherwise the requested direction is followed. -/
theorem C01_approx_int (x tol : ℚ) (h : 0 < tol) (above : Bool) :
    let r := toApproxInt x tol above
    ((r : ℚ) - 1 < x ∧ x < r + 1) ∧
    (∀ n : ℤ, x ≤ n → (n : ℚ) < x + 1 → (n : ℚ) - x < tol → r = n) ∧
    ((∀ n : ℤ, x ≤ n → ¬ ((n : ℚ) - x < tol)) →
      ∀ n : ℤ, (n : ℚ) ≤ x → x - 1 < n → x - n < tol → r = n) ∧
    ((∀ n : ℤ, ¬ (|x - n| < tol)) → if above then x < r else (r : ℚ) < x) := by
  have hf := Int.floor_le x
  have hf' := Int.lt_floor_add_one x
  have hc := Int.le_ceil x
  have hc' := Int.ceil_lt_add_one x
  have ceilEq : ∀ n : ℤ, x ≤ n → (n : ℚ) < x + 1 → n = ⌈x⌉ := fun n h1 h2 =>
    (Int.ceil_eq_iff.mpr ⟨by linarith, h1⟩).symm
  have floorEq : ∀ n : ℤ, (n : ℚ) ≤ x → x - 1 < n → n = ⌊x⌋ := fun n h1 h2 =>
    (Int.floor_eq_iff.mpr ⟨h1, by linarith⟩).symm
  intro r
  refine ⟨?_, ?_, ?_, ?_⟩
  · show ((toApproxInt x tol above : ℤ) : ℚ) - 1 < x ∧ x < (toApproxInt x tol above : ℤ) + 1
    unfold toApproxInt
    simp only []
    split_ifs <;> constructor <;> linarith
  · intro n h1 h2 h3
    have := ceilEq n h1 h2
    subst this
    show toApproxInt x tol above = _
    unfold toApproxInt
    simp only []
    rw [if_pos h3]
  · intro h0 n h1 h2 h3
    have := floorEq n h1 h2
    subst this
    show toApproxInt x tol above = _
    unfold toApproxInt
    simp only []
    rw [if_neg (h0 _ hc), if_pos h3]
  · intro h0
    have hcx := h0 ⌈x⌉
    have hfx := h0 ⌊x⌋
    rw [abs_sub_comm, abs_of_nonneg (by linarith)] at hcx
    rw [abs_of_nonneg (by linarith)] at hfx
    show if above then x < (toApproxInt x tol above : ℤ) else ((toApproxInt x tol above : ℤ) : ℚ) < x
    unfold toApproxInt
    simp only []
    rw [if_neg hcx, if_neg hfx]
    cases above
    · simp only [Bool.false_eq_true, if_false]
      linarith
    · simp only [if_true]
      linarith

/-- **C01** for tolerances up to one half, as an order characterisation: rounding up gives the
least integer above `x - tol`, rounding down the greatest integer below `x + tol`. -/
theorem C01_approx_int_order (x tol : ℚ) (h0 : 0 < tol) (h1 : tol ≤ 1 / 2) :
    IsLeast {n : ℤ | x - tol < n} (toApproxInt x tol true) ∧
    IsGreatest {n : ℤ | (n : ℚ) < x + tol} (toApproxInt x tol false) :=
  ⟨⟨(toApproxInt_above_iff h0 h1 _).1 le_rfl, fun n hn => (toApproxInt_above_iff h0 h1 n).2 hn⟩,
   ⟨(toApproxInt_below_iff h0 h1 _).1 le_rfl, fun n hn => (toApproxInt_below_iff h0 h1 n).2 hn⟩⟩

/-- **C01.** Integers are fixed points, and rounding commutes with integer translations. -/
theorem C01_approx_int_translate (x tol : ℚ) (h : 0 < tol) (above : Bool) (n : ℤ) :
    toApproxInt (n : ℚ) tol above = n ∧
    toApproxInt (x + n) tol above = toApproxInt x tol above + n :=
  ⟨toApproxInt_int h above n, toApproxInt_add_int x tol above n⟩

example : toApproxInt (29999 / 10000) (1 / 1000) false = 3 ∧
    toApproxInt (30001 / 10000) (1 / 1000) true = 3 ∧
    toApproxInt (35 / 10) (1 / 1000) true = 4 ∧ toApproxInt (35 / 10) (1 / 1000) false = 3 := by
  refine ⟨?_, ?_, ?_, ?_⟩ <;> decide +kernel

/-- **C02.** The enumerated times are all the points `left + i * step` which are at most
`right - tol`, in order, followed by `right` exactly when it is asked for and some point of the
progression is within `tol` of it. -/
theorem C02_arange (left right step tol : ℚ) (incl : Bool) (ht : 0 < tol) (hs : 2 * tol ≤ step) :
    ∃ (m : ℕ) (border : List ℚ),
      arange left right step incl tol =
        (List.range m).map (fun i : ℕ => left + (i : ℚ) * step) ++ border ∧
      (∀ i : ℕ, i < m ↔ left + (i : ℚ) * step ≤ right - tol) ∧
      ((incl = true ∧ ∃ k : ℕ, |left + (k : ℚ) * step - right| < tol) → border = [right]) ∧
      (¬ (incl = true ∧ ∃ k : ℕ, |left + (k : ℚ) * step - right| < tol) → border = []) := by
  classical
  obtain ⟨m, hm, he⟩ := arange_eq (left := left) (right := right) incl ht hs
  exact ⟨m, _, he, hm, fun h => if_pos h, fun h => if_neg h⟩

/-- **C02.** For any positive tolerance and step, no returned point exceeds the right border, and
the border itself is never returned when it is not asked for. -/
theorem C02_arange_le (left right step tol : ℚ) (incl : Bool) (ht : 0 < tol) (hs : 0 < step) :
    (∀ t ∈ arange left right step incl tol, t ≤ right) ∧
    (incl = false → right ∉ arange left right step incl tol) := by
  have hT0 : 0 < tol / step := by positivity
  have hx : ((right - left) * 1 / step) * step = right - left := by field_simp
  have hc := Int.le_ceil ((right - left) * 1 / step)
  have hc' := Int.ceil_lt_add_one ((right - left) * 1 / step)
  have hf := Int.floor_le ((right - left) * 1 / step)
  have hlt : ((toApproxInt ((right - left) * 1 / step) (tol / step) false : ℤ) : ℚ) <
      (right - left) * 1 / step + 1 := by
    have := (C01_approx_int ((right - left) * 1 / step) (tol / step) hT0 false).1.1
    linarith
  have hpt : ∀ i : ℕ, (i : ℤ) < toApproxInt ((right - left) * 1 / step) (tol / step) false →
      left + (i : ℚ) * step < right := by
    intro i hi
    have h1 : (i : ℚ) + 1 ≤
        ((toApproxInt ((right - left) * 1 / step) (tol / step) false : ℤ) : ℚ) := by
      exact_mod_cast hi
    have h2 : (i : ℚ) < (right - left) * 1 / step := by linarith
    have h3 := mul_lt_mul_of_pos_right h2 hs
    linarith
  have hlast : ∀ y, snapAbove y right tol ≤ right := by
    intro y
    unfold snapAbove
    split_ifs with h
    · exact le_rfl
    · linarith
  unfold arange
  simp only []
  split_ifs with hneg hinc
  · simp
  · constructor
    · intro t ht
      simp only [List.mem_append, List.mem_map, List.mem_range, List.mem_singleton] at ht
      rcases ht with ⟨i, hi, rfl⟩ | rfl
      · exact (hpt i (by omega)).le
      · exact hlast _
    · intro hi
      subst hi
      simp only [Bool.false_or, bne_iff_ne, ne_eq] at hinc
      simp only [List.mem_append, List.mem_map, List.mem_range, List.mem_singleton, not_or,
        not_exists, not_and]
      exact ⟨fun i hi => (hpt i (by omega)).ne, fun h => hinc h.symm⟩
  · constructor
    · intro t ht
      simp only [List.mem_map, List.mem_range] at ht
      obtain ⟨i, hi, rfl⟩ := ht
      exact (hpt i (by omega)).le
    · intro _
      simp only [List.mem_map, List.mem_range, not_exists, not_and]
      exact fun i hi => (hpt i (by omega)).ne

example : arange 0 1 (1 / 4) true TOL = [0, 1 / 4, 1 / 2, 3 / 4, 1] ∧
    arange 0 1 (1 / 4) false TOL = [0, 1 / 4, 1 / 2, 3 / 4] ∧
    arange 0 1 (3 / 10) true TOL = [0, 3 / 10, 6 / 10, 9 / 10] ∧ arange 1 0 1 true TOL = [] := by
  refine ⟨?_, ?_, ?_, ?_⟩ <;> decide +kernel

/-- **C03.** Full sliding windows: the `i`-th window starts at `tStart + i * shift` (up to the
tolerance, and exactly for all but possibly the last one), has exactly the requested width, ends
at most at `tEnd`; and the windows are as many as the indices for which a full window fits (up to
the tolerance). -/
theorem C03_slider_full (tStart tEnd width shift tol : ℚ) (ht : 0 < tol) (hs : 2 * tol ≤ shift) :
    ∃ n : ℕ, (∀ i : ℕ, i < n ↔ tStart + (i : ℚ) * shift + width < tEnd + tol) ∧
      (slider tStart tEnd width shift false tol).length = n ∧
      ∀ (i : ℕ) (a b : ℚ), (slider tStart tEnd width shift false tol)[i]? = some (a, b) →
        b - a = width ∧ b ≤ tEnd ∧ |a - (tStart + (i : ℚ) * shift)| < tol ∧
        (i + 1 < n → a = tStart + (i : ℚ) * shift) ∧
        (a = tStart + (i : ℚ) * shift ∨ b = tEnd) := by
  have hshift : 0 < shift := by linarith
  obtain ⟨m, border, he, hm, hb1, hb2⟩ := C02_arange tStart (tEnd - width) shift tol true ht hs
  have hmono : ∀ i j : ℕ, i ≤ j → tStart + (i : ℚ) * shift ≤ tStart + (j : ℚ) * shift := by
    intro i j hij
    have : (i : ℚ) ≤ j := by exact_mod_cast hij
    have := mul_le_mul_of_nonneg_right this hshift.le
    linarith
  have hstep : ∀ i j : ℕ, i < j → tStart + (i : ℚ) * shift + shift ≤ tStart + (j : ℚ) * shift := by
    intro i j hij
    have : (i : ℚ) + 1 ≤ j := by exact_mod_cast hij
    have := mul_le_mul_of_nonneg_right this hshift.le
    linarith
  have hsl : slider tStart tEnd width shift false tol =
      ((List.range m).map (fun i : ℕ => (tStart + (i : ℚ) * shift, tStart + (i : ℚ) * shift + width)))
        ++ border.map (fun t => (t, snapAbove (t + width) tEnd tol)) := by
    unfold slider
    simp only [Bool.false_eq_true, if_false, Bool.not_false]
    rw [he, List.map_append, List.map_map]
    congr 1
    apply List.map_congr_left
    intro i hi
    have := (hm i).1 (List.mem_range.1 hi)
    simp only [Function.comp_apply, snapAbove]
    rw [if_neg (by linarith)]
  by_cases hex : ∃ k : ℕ, |tStart + (k : ℚ) * shift - (tEnd - width)| < tol
  · have hb := hb1 ⟨rfl, hex⟩
    obtain ⟨k, hk⟩ := hex
    rw [abs_lt] at hk
    -- the index of the border is `m`
    have hkm : k = m := by
      have h1 : ¬ k < m := fun h => by have := (hm k).1 h; linarith
      by_contra hne
      have h2 : m < k := by omega
      have h3 := hstep m k h2
      have h4 : m < m := (hm m).2 (by linarith)
      omega
    subst hkm
    subst hb
    have hbe : snapAbove (tEnd - width + width) tEnd tol = tEnd := by
      unfold snapAbove; rw [if_pos (by linarith)]
    refine ⟨k + 1, ?_, ?_, ?_⟩
    · intro i
      constructor
      · intro h
        have := hmono i k (by omega)
        linarith
      · intro h
        by_contra hn
        have := hstep k i (by omega)
        linarith
    · rw [hsl]; simp
    · intro i a b hi
      rw [hsl] at hi
      rcases Nat.lt_or_ge i k with h | h
      · rw [List.getElem?_append_left (by simpa using h)] at hi
        simp only [List.getElem?_map, List.getElem?_range h, Option.map_some, Option.some.injEq,
          Prod.mk.injEq] at hi
        obtain ⟨rfl, rfl⟩ := hi
        have := (hm i).1 h
        refine ⟨by ring, by linarith, by simpa using ht, fun _ => rfl, Or.inl rfl⟩
      · rw [List.getElem?_append_right (by simpa using h)] at hi
        simp only [List.length_map, List.length_range, List.map_cons, List.map_nil, hbe] at hi
        have hik : i = k := by
          by_contra hne
          rw [List.getElem?_eq_none (by simp; omega)] at hi
          cases hi
        subst hik
        simp only [Nat.sub_self, List.getElem?_cons_zero, Option.some.injEq, Prod.mk.injEq] at hi
        obtain ⟨rfl, rfl⟩ := hi
        refine ⟨by ring, le_rfl, ?_, fun h => absurd h (by omega), Or.inr rfl⟩
        rw [abs_lt]; constructor <;> linarith
  · have hb := hb2 (fun h => hex h.2)
    subst hb
    refine ⟨m, ?_, ?_, ?_⟩
    · intro i
      rw [hm]
      constructor
      · intro h; linarith
      · intro h
        by_contra hn
        exact hex ⟨i, by rw [abs_lt]; constructor <;> linarith⟩
    · rw [hsl]; simp
    · intro i a b hi
      rw [hsl] at hi
      simp only [List.map_nil, List.append_nil] at hi
      have h : i < m := by
        by_contra hn
        rw [List.getElem?_eq_none (by simp; omega)] at hi
        cases hi
      simp only [List.getElem?_map, List.getElem?_range h, Option.map_some, Option.some.injEq,
        Prod.mk.injEq] at hi
      obtain ⟨rfl, rfl⟩ := hi
      have := (hm i).1 h
      refine ⟨by ring, by linarith, by simpa using ht, fun _ => rfl, Or.inl rfl⟩

example : slider 0 10 4 3 false TOL = [(0, 4), (3, 7), (6, 10)] ∧
    slider 0 (95 / 10) 4 3 false TOL = [(0, 4), (3, 7)] := by
  constructor <;> decide +kernel

/-- The times without the right border, for any positive step: they are below the border, which the next one reaches up to
the tolerance. -/
theorem arange_excluded (left right step tol : ℚ) (ht : 0 < tol) (hs : 0 < step) (hlen : left ≤ right) :
    ∃ m : ℕ, arange left right step false tol = (List.range m).map (fun i : ℕ => left + (i : ℚ) * step) ∧
      (∀ i < m, left + (i : ℚ) * step < right) ∧ right - tol < left + (m : ℚ) * step := by
  unfold arange toApproxInt
  simp only [mul_one, Bool.false_or, Bool.false_eq_true, if_false]
  set x := (right - left) / step with hx
  have hxs : x * step = right - left := by rw [hx]; field_simp
  have hx0 : 0 ≤ x := div_nonneg (by linarith) hs.le
  have hf0 : 0 ≤ ⌊x⌋ := Int.floor_nonneg.2 hx0
  have hc0 : 0 ≤ ⌈x⌉ := Int.ceil_nonneg hx0
  have below : ∀ (n : ℤ) (i : ℕ), n ≤ ⌈x⌉ → i < n.toNat → left + (i : ℚ) * step < right := by
    intro n i hn hi
    have h1 : (i : ℤ) < ⌈x⌉ := by omega
    have h2 : (i : ℚ) < x := by exact_mod_cast Int.lt_ceil.1 h1
    have := mul_lt_mul_of_pos_right h2 hs
    linarith
  have htol : tol / step * step = tol := by field_simp
  split_ifs with h1 h2 h3 h4 h5 h6 h7 h8 h9
  · omega
  · exfalso
    rw [bne_iff_ne] at h3
    apply h3
    unfold snapAbove
    rw [if_pos]
    have := mul_le_mul_of_nonneg_right (Int.le_ceil x) hs.le
    linarith
  · refine ⟨⌈x⌉.toNat, rfl, fun i hi => below _ i le_rfl hi, ?_⟩
    have := mul_le_mul_of_nonneg_right (Int.le_ceil x) hs.le
    have e : ((⌈x⌉.toNat : ℕ) : ℚ) = (⌈x⌉ : ℤ) := by exact_mod_cast Int.toNat_of_nonneg hc0
    rw [e]
    linarith
  · omega
  · exfalso
    rw [bne_iff_ne] at h6
    apply h6
    unfold snapAbove
    rw [if_pos]
    have := mul_lt_mul_of_pos_right h4 hs
    linarith
  · refine ⟨⌊x⌋.toNat, rfl, fun i hi => below _ i (Int.floor_le_ceil x) hi, ?_⟩
    have := mul_lt_mul_of_pos_right h4 hs
    have e : ((⌊x⌋.toNat : ℕ) : ℚ) = (⌊x⌋ : ℤ) := by exact_mod_cast Int.toNat_of_nonneg hf0
    rw [e]
    linarith
  · omega
  all_goals
    have e : ((⌊x⌋.toNat : ℕ) : ℚ) = (⌊x⌋ : ℤ) := by exact_mod_cast Int.toNat_of_nonneg hf0
    have h10 := mul_le_mul_of_nonneg_right (not_lt.1 h4) hs.le
    have hsnap : snapAbove (left + (⌊x⌋ : ℚ) * step) right tol = left + (⌊x⌋ : ℚ) * step := by
      unfold snapAbove
      rw [if_neg]
      linarith
  · refine ⟨⌊x⌋.toNat + 1, ?_, ?_, ?_⟩
    · rw [hsnap, List.range_succ, List.map_append, List.map_singleton, e]
    · intro i hi
      have hi' : (i : ℚ) ≤ (⌊x⌋ : ℤ) := by
        rw [← e]
        exact_mod_cast Nat.lt_succ_iff.1 hi
      have := mul_le_mul_of_nonneg_right hi' hs.le
      linarith
    · have := mul_lt_mul_of_pos_right (Int.lt_floor_add_one x) hs
      push_cast
      rw [e]
      linarith
  · exfalso
    rw [bne_iff_ne, not_not, hsnap] at h8
    linarith

/-- **C04.** Partial sliding windows with `shift ≤ width`: the windows start at
`tStart + i * shift`, are non-empty, do not stick out of `[tStart, tEnd]`, have the full width
unless they end at `tEnd`, and every time of the interval is in one of them. -/
theorem C04_slider_partials_allowed (tStart tEnd width shift tol : ℚ) (ht : 0 < tol) (hs : 0 < shift)
    (hw : shift ≤ width) (hlen : tStart + tol ≤ tEnd) :
    let ws := slider tStart tEnd width shift true tol
    (∀ (i : ℕ) (a b : ℚ), ws[i]? = some (a, b) →
      a = tStart + (i : ℚ) * shift ∧ a < b ∧ b ≤ tEnd ∧ (b = tEnd ∨ b = a + width)) ∧
    (∀ t, tStart ≤ t → t ≤ tEnd → ∃ p ∈ ws, p.1 ≤ t ∧ t ≤ p.2) := by
  obtain ⟨m, he, hm, hend⟩ := arange_excluded tStart tEnd shift tol ht hs (by linarith)
  intro ws
  have hws : ws = (List.range m).map
      (fun i : ℕ => (tStart + (i : ℚ) * shift, snapAbove (tStart + (i : ℚ) * shift + width) tEnd tol)) := by
    show slider tStart tEnd width shift true tol = _
    unfold slider
    simp only [if_true, Bool.not_true]
    rw [he]
    simp [Function.comp_def]
  constructor
  · intro i a b hi
    rw [hws] at hi
    have h : i < m := by
      by_contra hn
      rw [List.getElem?_eq_none (by simp; omega)] at hi
      cases hi
    simp only [List.getElem?_map, List.getElem?_range h, Option.map_some, Option.some.injEq,
      Prod.mk.injEq] at hi
    obtain ⟨rfl, rfl⟩ := hi
    have := hm i h
    refine ⟨rfl, ?_, ?_, ?_⟩ <;> unfold snapAbove <;> split_ifs with hsn
    · linarith
    · linarith
    · exact le_rfl
    · linarith
    · exact Or.inl rfl
    · exact Or.inr rfl
  · intro t h0 h1
    -- index of the window starting just before `t`
    have hq0 : 0 ≤ (t - tStart) / shift := div_nonneg (by linarith) hs.le
    obtain ⟨i, hi⟩ : ∃ i : ℕ, ((⌊(t - tStart) / shift⌋ : ℤ) : ℚ) = i := by
      refine ⟨⌊(t - tStart) / shift⌋.toNat, ?_⟩
      have h2 : 0 ≤ ⌊(t - tStart) / shift⌋ := Int.floor_nonneg.mpr hq0
      exact_mod_cast (Int.toNat_of_nonneg h2).symm
    have hfl := Int.floor_le ((t - tStart) / shift)
    have hfl' := Int.lt_floor_add_one ((t - tStart) / shift)
    rw [hi] at hfl hfl'
    have hx : (t - tStart) / shift * shift = t - tStart := by field_simp
    have ha : (i : ℚ) * shift ≤ t - tStart := by
      have := mul_le_mul_of_nonneg_right hfl hs.le; linarith
    have hbb : t - tStart < ((i : ℚ) + 1) * shift := by
      have := mul_lt_mul_of_pos_right hfl' hs; linarith
    have mem : ∀ j : ℕ, j < m →
        (tStart + (j : ℚ) * shift, snapAbove (tStart + (j : ℚ) * shift + width) tEnd tol) ∈ ws := by
      intro j hj
      rw [hws]
      exact List.mem_map.2 ⟨j, List.mem_range.2 hj, rfl⟩
    by_cases hin : i < m
    · refine ⟨_, mem i hin, by simp only []; linarith, ?_⟩
      simp only [snapAbove]
      split_ifs
      · exact h1
      · linarith
    · -- the last window reaches the end
      have hmpos : m ≠ 0 := by
        rintro rfl
        push_cast at hend
        linarith
      obtain ⟨j, rfl⟩ := Nat.exists_eq_succ_of_ne_zero hmpos
      have hji : (j : ℚ) ≤ i := by exact_mod_cast (by omega : j ≤ i)
      have := mul_le_mul_of_nonneg_right hji hs.le
      push_cast at hend
      refine ⟨_, mem j (by omega), by simp only []; linarith, ?_⟩
      simp only [snapAbove]
      rw [if_pos (by linarith)]
      exact h1

example : slider 0 10 4 4 true TOL = [(0, 4), (4, 8), (8, 10)] ∧
    slider 0 8 4 4 true TOL = [(0, 4), (4, 8)] ∧
    (0 : ℚ) < TOL ∧ (0 : ℚ) < 4 ∧ (4 : ℚ) ≤ 4 ∧ 0 + TOL ≤ (10 : ℚ) := by
  refine ⟨?_, ?_, ?_, ?_, ?_, ?_⟩ <;> decide +kernel

end Verif.Window
