import Verif.Window.Rounded
import Verif.Window.LemmasConcat
import Mathlib.Tactic.Positivity

/-!
# Property C192: sampled windows with rounded operations
-/

namespace Verif.Window.Fl

open Verif Verif.Window

variable {fl : ℚ → ℚ}

/-! ### Errors -/

theorem tiny : (1 : ℚ) / 2 ^ 1075 ≤ 1 / 10 ^ 30 := by
  apply one_div_le_one_div_of_le (by positivity)
  calc (10 : ℚ) ^ 30 ≤ 2 ^ 100 := by norm_num
    _ ≤ 2 ^ 1075 := pow_le_pow_right₀ (by norm_num) (by norm_num)

/-- The error of an operation. -/
theorem err (h : IsRounding fl) {x B : ℚ} (hx : |x| ≤ B) : |fl x - x| ≤ B * (112 / 10 ^ 18) + 1 / 10 ^ 30 := by
  refine (h.near x).trans ?_
  have h1 : |x| / 2 ^ 53 ≤ B / 2 ^ 53 := by gcongr
  have hB : 0 ≤ B := (abs_nonneg x).trans hx
  have h2 : B / 2 ^ 53 ≤ B * (112 / 10 ^ 18) := by
    rw [div_eq_mul_inv]
    gcongr
    norm_num
  linarith [tiny]

theorem fl_zero (h : IsRounding fl) : fl 0 = 0 := by
  have := h.int 0 (by norm_num)
  simpa using this

theorem fl_nonneg (h : IsRounding fl) {x : ℚ} (hx : 0 ≤ x) : 0 ≤ fl x := by
  rw [← fl_zero h]
  exact h.mono _ _ hx

theorem tol_near (h : IsRounding fl) : |TOL fl - 1 / 10 ^ 8| ≤ 1 / 10 ^ 20 := by
  unfold TOL
  rw [show (1 : ℚ) / 100000000 = 1 / 10 ^ 8 by norm_num]
  refine (err h (B := 1 / 10 ^ 8) (by rw [abs_of_pos (by positivity)])).trans ?_
  norm_num

/-- The tolerance on indices. -/
theorem tolRate_near (h : IsRounding fl) {rate : ℚ} (h1 : 1 ≤ rate) :
    |fl (TOL fl * rate) - rate / 10 ^ 8| ≤ rate / 10 ^ 18 := by
  have ht := abs_le.1 (tol_near h)
  have hb : |TOL fl * rate| ≤ 2 / 10 ^ 8 * rate := by
    rw [abs_mul, abs_of_pos (a := rate) (by linarith)]
    gcongr
    rw [abs_le]
    constructor <;> linarith
  have e := abs_le.1 (err h hb)
  have h3 : |TOL fl * rate - rate / 10 ^ 8| ≤ rate / 10 ^ 20 := by
    have : TOL fl * rate - rate / 10 ^ 8 = (TOL fl - 1 / 10 ^ 8) * rate := by ring
    rw [this, abs_mul, abs_of_pos (a := rate) (by linarith)]
    have := tol_near h
    nlinarith
  have h4 := abs_le.1 h3
  rw [abs_le]
  constructor <;> linarith

/-- The index before rounding to an integer. -/
theorem index_near (h : IsRounding fl) {rate d : ℚ} (h1 : 1 ≤ rate) (hd : |d| ≤ 10 ^ 6) :
    |fl (fl d * rate) - d * rate| ≤ rate * (3 / 10 ^ 10) := by
  have e1 := err h hd
  have hd' : |fl d| ≤ 10 ^ 6 + 1 := by
    have a := abs_le.1 e1
    have b := abs_le.1 hd
    rw [abs_le]
    constructor <;> linarith
  have hb : |fl d * rate| ≤ (10 ^ 6 + 1) * rate := by
    rw [abs_mul, abs_of_pos (a := rate) (by linarith)]
    gcongr
  have e2 := abs_le.1 (err h hb)
  have e3 : |fl d * rate - d * rate| ≤ rate * (12 / 10 ^ 11) := by
    rw [← sub_mul, abs_mul, abs_of_pos (a := rate) (by linarith)]
    nlinarith
  have e4 := abs_le.1 e3
  rw [abs_le]
  constructor <;> linarith

theorem frac_err (h : IsRounding fl) {x : ℚ} (h0 : 0 ≤ x) (h1 : x ≤ 1) : |fl x - x| ≤ 1 / 10 ^ 15 := by
  refine (err h (B := 1) (by rw [abs_of_nonneg h0]; exact h1)).trans ?_
  norm_num

theorem approx_before (h : IsRounding fl) (x : ℚ) {tol : ℚ} (h0 : 0 < tol) (h1 : tol ≤ 1 / 2) :
    (toApproxInt fl x tol false : ℚ) ≤ x + tol + 1 / 10 ^ 15 ∧
    ∀ k : ℤ, (k : ℚ) < x + tol - 1 / 10 ^ 15 → k ≤ toApproxInt fl x tol false := by
  have a1 := Int.floor_le x
  have a2 := Int.lt_floor_add_one x
  have b1 := Int.le_ceil x
  have b2 := Int.ceil_lt_add_one x
  have ec := abs_le.1 (frac_err h (x := (⌈x⌉ : ℚ) - x) (by linarith) (by linarith))
  unfold toApproxInt
  simp only [Bool.false_eq_true, if_false]
  split_ifs with hc hf
  · refine ⟨by linarith, fun k hk => ?_⟩
    have : (k : ℚ) < ⌈x⌉ + 1 := by linarith
    have : k < ⌈x⌉ + 1 := by exact_mod_cast this
    omega
  all_goals
    have hk' : ∀ k : ℤ, (k : ℚ) < x + tol - 1 / 10 ^ 15 → k ≤ ⌊x⌋ := by
      intro k hk
      have : (k : ℚ) < ⌈x⌉ := by linarith
      have h2 : k < ⌈x⌉ := by exact_mod_cast this
      have := Int.ceil_le_floor_add_one x
      omega
    exact ⟨by linarith, hk'⟩

theorem approx_after (h : IsRounding fl) (x : ℚ) {tol : ℚ} (h0 : 1 / 10 ^ 15 < tol) (h1 : tol ≤ 1 / 2 - 1 / 10 ^ 15) :
    x - tol - 1 / 10 ^ 15 ≤ (toApproxInt fl x tol true : ℚ) ∧
    ∀ k : ℤ, x - tol + 1 / 10 ^ 15 < (k : ℚ) → toApproxInt fl x tol true ≤ k := by
  have a1 := Int.floor_le x
  have a2 := Int.lt_floor_add_one x
  have b1 := Int.le_ceil x
  have b2 := Int.ceil_lt_add_one x
  have ec := abs_le.1 (frac_err h (x := (⌈x⌉ : ℚ) - x) (by linarith) (by linarith))
  have ef := abs_le.1 (frac_err h (x := x - (⌊x⌋ : ℚ)) (by linarith) (by linarith))
  unfold toApproxInt
  simp only [if_true]
  split_ifs with hc hf
  · refine ⟨by linarith, fun k hk => ?_⟩
    have : (⌈x⌉ : ℚ) - 1 < k := by linarith
    have : ⌈x⌉ - 1 < k := by exact_mod_cast this
    omega
  · refine ⟨by linarith, fun k hk => ?_⟩
    have : (⌊x⌋ : ℚ) - 1 < k := by linarith
    have : ⌊x⌋ - 1 < k := by exact_mod_cast this
    omega
  · refine ⟨by linarith, fun k hk => ?_⟩
    have : (⌊x⌋ : ℚ) < k := by linarith
    have h2 : ⌊x⌋ < k := by exact_mod_cast this
    have := Int.ceil_le_floor_add_one x
    omega

/-! ### Indices -/

theorem check_ok {s e t : ℚ} (h1 : s ≤ t) (h2 : t ≤ e) : checkTime s e t = .ok () := by
  unfold checkTime
  rw [if_neg (not_lt.2 h1), if_neg (not_lt.2 h2)]

theorem check_out {s e t : ℚ} (h : t < s ∨ e < t) : checkTime s e t = .error .timeOutOfBound := by
  unfold checkTime
  split_ifs with h1 h2
  · rfl
  · rfl
  · rcases h with h | h
    · exact absurd h h1
    · exact absurd h h2

/-- **C192, end of a range.** The index found for the end of a range is the last boundary of samples which is before it,
up to between 9 and 11 nanoseconds. -/
theorem C192_index_before (h : IsRounding fl) {s e rate t : ℚ} (h1 : 1 ≤ rate) (h2 : rate ≤ 10 ^ 6) (hs : s ≤ t)
    (he : t ≤ e) (hd : t - s ≤ 10 ^ 6) :
    ∃ r, indexBefore fl s e rate t = .ok r ∧ (r : ℚ) / rate ≤ t - s + 11 / 10 ^ 9 ∧
      ∀ k : ℤ, (k : ℚ) / rate ≤ t - s + 9 / 10 ^ 9 → k ≤ r := by
  have hr : (0 : ℚ) < rate := by linarith
  have ht := abs_le.1 (tolRate_near h h1)
  have hi := abs_le.1 (index_near h h1 (d := t - s) (by rw [abs_of_nonneg (by linarith)]; exact hd))
  obtain ⟨a, b⟩ := approx_before h (fl (fl (t - s) * rate)) (tol := fl (TOL fl * rate)) (by linarith) (by linarith)
  refine ⟨toApproxInt fl (fl (fl (t - s) * rate)) (fl (TOL fl * rate)) false, ?_, ?_, ?_⟩
  · unfold indexBefore
    rw [check_ok hs he]
    rfl
  · rw [div_le_iff₀ hr]
    linarith
  · intro k hk
    apply b
    rw [div_le_iff₀ hr] at hk
    linarith

/-- **C192, start of a range.** The index found for the start of a range is the first boundary of samples which is after
it, up to between 9 and 11 nanoseconds. -/
theorem C192_index_after (h : IsRounding fl) {s e rate t : ℚ} (h1 : 1 ≤ rate) (h2 : rate ≤ 10 ^ 6) (hs : s ≤ t)
    (he : t ≤ e) (hd : t - s ≤ 10 ^ 6) :
    ∃ r, indexAfter fl s e rate t = .ok r ∧ t - s ≤ (r : ℚ) / rate + 11 / 10 ^ 9 ∧
      ∀ k : ℤ, t - s ≤ (k : ℚ) / rate + 9 / 10 ^ 9 → r ≤ k := by
  have hr : (0 : ℚ) < rate := by linarith
  have ht := abs_le.1 (tolRate_near h h1)
  have hi := abs_le.1 (index_near h h1 (d := t - s) (by rw [abs_of_nonneg (by linarith)]; exact hd))
  obtain ⟨a, b⟩ := approx_after h (fl (fl (t - s) * rate)) (tol := fl (TOL fl * rate)) (by linarith) (by linarith)
  refine ⟨toApproxInt fl (fl (fl (t - s) * rate)) (fl (TOL fl * rate)) true, ?_, ?_, ?_⟩
  · unfold indexAfter
    rw [check_ok hs he]
    rfl
  · rw [← sub_le_iff_le_add, le_div_iff₀ hr]
    linarith
  · intro k hk
    apply b
    rw [← sub_le_iff_le_add, le_div_iff₀ hr] at hk
    linarith

theorem index_before_out (s e rate t : ℚ) (ho : t < s ∨ e < t) : indexBefore fl s e rate t = .error .timeOutOfBound := by
  unfold indexBefore
  rw [check_out ho]
  rfl

theorem index_after_out (s e rate t : ℚ) (ho : t < s ∨ e < t) : indexAfter fl s e rate t = .error .timeOutOfBound := by
  unfold indexAfter
  rw [check_out ho]
  rfl

/-! ### Boundaries -/

theorem duration_eq (h : IsRounding fl) {rate : ℚ} {k : ℤ} (hk : |k| ≤ 2 ^ 53) :
    samplesToDuration fl rate k = fl ((k : ℚ) / rate) := by
  unfold samplesToDuration
  rw [mul_one, h.int k hk]

theorem small_index {rate : ℚ} (h1 : 1 ≤ rate) (h2 : rate ≤ 10 ^ 6) {k : ℤ} (h0 : 0 ≤ k) (hk : (k : ℚ) / rate ≤ 10 ^ 6) :
    |k| ≤ 2 ^ 53 := by
  rw [div_le_iff₀ (by linarith)] at hk
  have : (k : ℚ) ≤ 2 ^ 53 := by
    have : (10 : ℚ) ^ 6 * rate ≤ 10 ^ 6 * 10 ^ 6 := by gcongr
    norm_num at this ⊢
    linarith
  rw [abs_of_nonneg h0]
  exact_mod_cast this

theorem duration_near (h : IsRounding fl) {rate : ℚ} (h1 : 1 ≤ rate) (h2 : rate ≤ 10 ^ 6) {k : ℤ} (h0 : 0 ≤ k)
    (hk : (k : ℚ) / rate ≤ 10 ^ 6) : |samplesToDuration fl rate k - k / rate| ≤ 12 / 10 ^ 11 := by
  rw [duration_eq h (small_index h1 h2 h0 hk)]
  have hp : (0 : ℚ) ≤ k / rate := div_nonneg (by exact_mod_cast h0) (by linarith)
  refine (err h (B := 10 ^ 6) (by rw [abs_of_nonneg hp]; exact hk)).trans ?_
  norm_num

/-- Boundaries of samples, as they are computed. -/
theorem bound_near (h : IsRounding fl) {s rate : ℚ} (h1 : 1 ≤ rate) (h2 : rate ≤ 10 ^ 6) {k : ℤ} (h0 : 0 ≤ k)
    (hk : |s| + (k : ℚ) / rate ≤ 10 ^ 6) : |fl (s + samplesToDuration fl rate k) - (s + k / rate)| ≤ 3 / 10 ^ 10 := by
  have hp : (0 : ℚ) ≤ k / rate := div_nonneg (by exact_mod_cast h0) (by linarith)
  have hs := abs_nonneg s
  have hd := abs_le.1 (duration_near h h1 h2 h0 (by linarith))
  have hb : |s + samplesToDuration fl rate k| ≤ 10 ^ 6 + 1 := by
    have := abs_le.1 (le_refl |s|)
    rw [abs_le]
    constructor <;> linarith
  have e := abs_le.1 (err h hb)
  rw [abs_le]
  constructor <;> linarith

theorem bound_mono (h : IsRounding fl) {s rate : ℚ} (h1 : 1 ≤ rate) {j k : ℤ} (hjk : j ≤ k) :
    fl (s + samplesToDuration fl rate j) ≤ fl (s + samplesToDuration fl rate k) := by
  apply h.mono
  have : samplesToDuration fl rate j ≤ samplesToDuration fl rate k := by
    unfold samplesToDuration
    apply h.mono
    have : fl ((j : ℚ) * 1) ≤ fl ((k : ℚ) * 1) := h.mono _ _ (by
      have : (j : ℚ) ≤ k := by exact_mod_cast hjk
      linarith)
    have : (0 : ℚ) < rate := by linarith
    gcongr
  linarith

theorem bound_zero (h : IsRounding fl) {s rate : ℚ} (hs : fl s = s) : fl (s + samplesToDuration fl rate 0) = s := by
  have : samplesToDuration fl rate 0 = 0 := by
    unfold samplesToDuration
    simp [fl_zero h]
  rw [this, add_zero, hs]

/-! ### Sub-windows -/

theorem slice_nat {α : Type} (l : List α) (i j : ℕ) : pySlice l (i : ℤ) (j : ℤ) = (l.take j).drop i := by
  rw [pySlice_nat, List.drop_take]

/-- **C192, sub-windows.** Cropping an array window with rounded operations selects the samples whose slots are in the
range up to between 9 and 11 nanoseconds; the new window starts at the boundary of the first one. -/
theorem C192_subwindow (h : IsRounding fl) {α : Type} (w : ArrayWin α) {a b : ℚ} (h1 : 1 ≤ w.rate)
    (h2 : w.rate ≤ 10 ^ 6) (hd : w.stop - w.start ≤ 10 ^ 6) :
    (a < w.start ∨ w.stop < a ∨ b < w.start ∨ w.stop < b → arrayGetSub fl w a b = .error .timeOutOfBound) ∧
    (w.start ≤ a → a ≤ w.stop → w.start ≤ b → b ≤ w.stop → ∃ i j : ℕ,
      arrayGetSub fl w a b =
        .ok (arrayInit fl ((w.array.take j).drop i) (fl (w.start + samplesToDuration fl w.rate i)) w.rate) ∧
      ∀ p : ℕ,
        (a ≤ w.start + p / w.rate + 9 / 10 ^ 9 → w.start + (p + 1) / w.rate ≤ b + 9 / 10 ^ 9 → i ≤ p ∧ p < j) ∧
        (i ≤ p → p < j → a ≤ w.start + p / w.rate + 11 / 10 ^ 9 ∧ w.start + (p + 1) / w.rate ≤ b + 11 / 10 ^ 9)) := by
  have hr : (0 : ℚ) < w.rate := by linarith
  constructor
  · intro ho
    unfold arrayGetSub
    by_cases ha : a < w.start ∨ w.stop < a
    · rw [index_after_out _ _ _ _ ha]
      rfl
    · push Not at ha
      obtain ⟨r, hi, -⟩ := C192_index_after h h1 h2 ha.1 ha.2 (by linarith)
      rw [hi, index_before_out _ _ _ _ (by
        rcases ho with ho | ho | ho | ho
        · exact absurd ho (not_lt.2 ha.1)
        · exact absurd ho (not_lt.2 ha.2)
        · exact Or.inl ho
        · exact Or.inr ho)]
      rfl
  · intro a1 a2 b1 b2
    obtain ⟨r, hi, i1, i2⟩ := C192_index_after h h1 h2 a1 a2 (by linarith)
    obtain ⟨q, hj, j1, j2⟩ := C192_index_before h h1 h2 b1 b2 (by linarith)
    have hr0 : 0 ≤ r := by
      by_contra hneg
      have : (r : ℚ) ≤ -1 := by
        have : r ≤ -1 := by omega
        exact_mod_cast this
      have h3 : (r : ℚ) / w.rate ≤ -1 / w.rate := by gcongr
      have h4 : (1 : ℚ) / 10 ^ 6 ≤ 1 / w.rate := by gcongr
      have h5 : (-1 : ℚ) / w.rate = -(1 / w.rate) := by ring
      linarith
    have hq0 : 0 ≤ q := j2 0 (by rw [Int.cast_zero, zero_div]; linarith)
    lift r to ℕ using hr0
    lift q to ℕ using hq0
    refine ⟨r, q, ?_, ?_⟩
    · unfold arrayGetSub
      rw [hi, hj]
      simp only [bind, Except.bind, pure, Except.pure]
      rw [slice_nat]
    · intro p
      refine ⟨fun p1 p2 => ⟨?_, ?_⟩, fun p1 p2 => ⟨?_, ?_⟩⟩
      · have := i2 (p : ℤ) (by push_cast; linarith)
        exact_mod_cast this
      · have := j2 ((p : ℤ) + 1) (by push_cast; linarith)
        omega
      · have h3 : ((r : ℤ) : ℚ) / w.rate ≤ (p : ℚ) / w.rate := by
          have : (r : ℚ) ≤ p := by exact_mod_cast p1
          push_cast
          gcongr
        linarith
      · have h3 : ((p : ℚ) + 1) / w.rate ≤ ((q : ℤ) : ℚ) / w.rate := by
          have : (p : ℚ) + 1 ≤ q := by exact_mod_cast p2
          push_cast
          gcongr
        linarith

/-- **C192, boundaries.** Cropping at boundaries of samples as they are computed selects exactly the samples between them,
and the new window starts exactly at the boundary. -/
theorem C192_boundaries (h : IsRounding fl) {α : Type} (arr : List α) {s rate : ℚ} (h1 : 1 ≤ rate) (h2 : rate ≤ 10 ^ 6)
    (hs : fl s = s) (hd : |s| + arr.length / rate ≤ 10 ^ 6 - 1) {i j : ℕ} (hij : i ≤ j) (hj : j ≤ arr.length) :
    arrayGetSub fl (arrayInit fl arr s rate) (fl (s + samplesToDuration fl rate i)) (fl (s + samplesToDuration fl rate j)) =
      .ok (arrayInit fl ((arr.take j).drop i) (fl (s + samplesToDuration fl rate i)) rate) := by
  have hr : (0 : ℚ) < rate := by linarith
  have hle : ∀ k : ℕ, k ≤ arr.length → (k : ℚ) / rate ≤ arr.length / rate := by
    intro k hk
    have : (k : ℚ) ≤ arr.length := by exact_mod_cast hk
    gcongr
  have hn : ∀ k : ℕ, k ≤ arr.length → |fl (s + samplesToDuration fl rate k) - (s + k / rate)| ≤ 3 / 10 ^ 10 := by
    intro k hk
    have := hle k hk
    have := bound_near h h1 h2 (s := s) (k := (k : ℤ)) (by omega) (by push_cast; linarith)
    simpa using this
  have hmin : ∀ k : ℕ, s ≤ fl (s + samplesToDuration fl rate k) := by
    intro k
    have := bound_mono h h1 (s := s) (j := 0) (k := (k : ℤ)) (by omega)
    rwa [bound_zero h hs] at this
  have hmax : ∀ k : ℕ, k ≤ arr.length → fl (s + samplesToDuration fl rate k) ≤ (arrayInit fl arr s rate).stop := by
    intro k hk
    exact bound_mono h h1 (s := s) (j := (k : ℤ)) (k := (arr.length : ℤ)) (by exact_mod_cast hk)
  have near : ∀ k : ℕ, k ≤ arr.length → fl (s + samplesToDuration fl rate k) - s ≤ 10 ^ 6 := by
    intro k hk
    have a := abs_le.1 (hn k hk)
    have b := hle k hk
    have c := abs_nonneg s
    linarith
  have e6 : (1 : ℚ) / 10 ^ 6 ≤ 1 / rate := by gcongr
  have hi' : i ≤ arr.length := hij.trans hj
  obtain ⟨r, e1, i1, i2⟩ := C192_index_after h h1 h2 (e := (arrayInit fl arr s rate).stop) (hmin i) (hmax i hi') (near i hi')
  obtain ⟨q, e2, j1, j2⟩ := C192_index_before h h1 h2 (e := (arrayInit fl arr s rate).stop) (hmin j) (hmax j hj) (near j hj)
  have ni := abs_le.1 (hn i hi')
  have nj := abs_le.1 (hn j hj)
  have er : r = i := by
    apply le_antisymm
    · exact i2 i (by push_cast; linarith)
    · by_contra hlt
      have : (r : ℚ) ≤ i - 1 := by
        have : r ≤ (i : ℤ) - 1 := by omega
        exact_mod_cast this
      have h3 : (r : ℚ) / rate ≤ (i - 1) / rate := by gcongr
      rw [sub_div] at h3
      linarith
  have eq : q = j := by
    apply le_antisymm
    · by_contra hlt
      have : (j : ℚ) + 1 ≤ q := by
        have : (j : ℤ) + 1 ≤ q := by omega
        exact_mod_cast this
      have h3 : ((j : ℚ) + 1) / rate ≤ q / rate := by gcongr
      rw [add_div] at h3
      linarith
    · exact j2 j (by push_cast; linarith)
  unfold arrayGetSub
  have e1' : indexAfter fl (arrayInit fl arr s rate).start (arrayInit fl arr s rate).stop (arrayInit fl arr s rate).rate
      (fl (s + samplesToDuration fl rate i)) = .ok r := e1
  have e2' : indexBefore fl (arrayInit fl arr s rate).start (arrayInit fl arr s rate).stop (arrayInit fl arr s rate).rate
      (fl (s + samplesToDuration fl rate j)) = .ok q := e2
  rw [e1', e2', er, eq]
  simp only [bind, Except.bind, pure, Except.pure]
  rw [slice_nat]
  rfl

/-- Boundaries of samples of an array window, as they are computed. -/
def crops (fl : ℚ → ℚ) {α : Type} (w : ArrayWin α) : List (ℕ × ℕ) → Py (ArrayWin α)
  | [] => .ok w
  | (i, j) :: l => do
    let w' ← arrayGetSub fl w (fl (w.start + samplesToDuration fl w.rate i)) (fl (w.start + samplesToDuration fl w.rate j))
    crops fl w' l

/-- Ranges of a list, one in the other. -/
def Ranges {α : Type} : List α → List (ℕ × ℕ) → List α → Prop
  | arr, [], res => res = arr
  | arr, (i, j) :: l, res => i ≤ j ∧ j ≤ arr.length ∧ Ranges ((arr.take j).drop i) l res

/-- **C192, crops of crops.** Any number of crops, each at boundaries of the window which it crops: errors on times do not
change which samples are selected. -/
theorem C192_crops (h : IsRounding fl) {α : Type} (l : List (ℕ × ℕ)) (arr res : List α) {s rate : ℚ} (h1 : 1 ≤ rate)
    (h2 : rate ≤ 10 ^ 6) (hs : fl s = s) (hd : |s| + arr.length / rate + l.length / 10 ^ 9 ≤ 10 ^ 6 - 1)
    (hl : Ranges arr l res) :
    ∃ s', crops fl (arrayInit fl arr s rate) l = .ok (arrayInit fl res s' rate) ∧ fl s' = s' ∧
      |s' - (s + ((l.map Prod.fst).sum : ℕ) / rate)| ≤ l.length / 10 ^ 9 := by
  induction l generalizing arr s with
  | nil =>
    cases hl
    exact ⟨s, rfl, hs, by simp⟩
  | cons p l ih =>
    obtain ⟨i, j⟩ := p
    obtain ⟨hij, hj, hl⟩ := hl
    have hr : (0 : ℚ) < rate := by linarith
    have hlen : ((i, j) :: l).length = l.length + 1 := rfl
    rw [hlen] at hd ⊢
    push_cast at hd ⊢
    have hl0 : (0 : ℚ) ≤ (l.length : ℚ) := by positivity
    have hle : (j : ℚ) / rate ≤ arr.length / rate := by
      have : (j : ℚ) ≤ arr.length := by exact_mod_cast hj
      gcongr
    have hie : (i : ℚ) / rate ≤ j / rate := by
      have : (i : ℚ) ≤ j := by exact_mod_cast hij
      gcongr
    have near := abs_le.1 (bound_near h h1 h2 (s := s) (k := (i : ℤ)) (by omega) (by push_cast; linarith))
    push_cast at near
    have hstep := C192_boundaries h arr h1 h2 hs (by linarith) hij hj
    set t := fl (s + samplesToDuration fl rate i) with ht
    have hlen2 : (((arr.take j).drop i).length : ℚ) = j - i := by
      rw [List.length_drop, List.length_take, min_eq_left hj, Nat.cast_sub hij]
    have habs : |t| ≤ |s| + i / rate + 3 / 10 ^ 10 := by
      have := abs_le.1 (le_refl |s|)
      have h0 : (0 : ℚ) ≤ i / rate := by positivity
      rw [abs_le]
      constructor <;> linarith
    obtain ⟨s', e1, e2, e3⟩ := ih ((arr.take j).drop i) (s := t) (by rw [ht, h.idem]) (by
      rw [hlen2, sub_div]
      linarith) hl
    refine ⟨s', ?_, e2, ?_⟩
    · unfold crops
      have : arrayGetSub fl (arrayInit fl arr s rate) (fl ((arrayInit fl arr s rate).start +
          samplesToDuration fl (arrayInit fl arr s rate).rate i)) (fl ((arrayInit fl arr s rate).start +
          samplesToDuration fl (arrayInit fl arr s rate).rate j)) = _ := hstep
      rw [this]
      exact e1
    · have e3' := abs_le.1 e3
      simp only [List.map_cons, List.sum_cons]
      push_cast
      rw [add_div, abs_le]
      constructor <;> linarith

/-! ### Wav windows -/

/-- The end of a wav window is the one which is computed for its number of samples. -/
def Fresh (fl : ℚ → ℚ) (w : WavWin) : Prop :=
  w.stop = fl (w.start + samplesToDuration fl w.rate (w.stopIndex - w.startAfter))

theorem fresh_copy {w : WavWin} (hw : Fresh fl w) : wavCopy fl w = w := by
  unfold wavCopy wavInitWith
  unfold Fresh at hw
  cases w
  simp only at hw ⊢
  rw [← hw]

/-- **C192, wav windows.** Cropping a wav window: the same samples, found in two steps; when the range ends before the
boundary at which the cropped window starts, `TimeOutOfBound` is raised. -/
theorem C192_wav (h : IsRounding fl) {w : WavWin} (hw : Fresh fl w) (h1 : 1 ≤ w.rate) (h2 : w.rate ≤ 10 ^ 6)
    {n : ℕ} (hn : w.stopIndex = w.startAfter + n) (hd : |w.start| + n / w.rate ≤ 10 ^ 6 - 1)
    {a b : ℚ} (a1 : w.start ≤ a) (a2 : a ≤ w.stop) (b2 : b ≤ w.stop) :
    ∃ i : ℕ, i ≤ n ∧ a ≤ w.start + i / w.rate + 11 / 10 ^ 9 ∧
      (∀ p : ℕ, a ≤ w.start + p / w.rate + 9 / 10 ^ 9 → i ≤ p) ∧
      |fl (w.start + samplesToDuration fl w.rate i) - (w.start + i / w.rate)| ≤ 3 / 10 ^ 10 ∧
      (b < fl (w.start + samplesToDuration fl w.rate i) → wavGetSub fl w a b = .error .timeOutOfBound) ∧
      (fl (w.start + samplesToDuration fl w.rate i) ≤ b → ∃ w' : WavWin, ∃ j : ℕ, wavGetSub fl w a b = .ok w' ∧
        Fresh fl w' ∧ fl w'.start = w'.start ∧ w'.path = w.path ∧ w'.rate = w.rate ∧
        w'.start = fl (w.start + samplesToDuration fl w.rate i) ∧
        w'.startAfter = w.startAfter + i ∧ w'.stopIndex = w.startAfter + j ∧ i ≤ j ∧ j ≤ n ∧
        (j : ℚ) / w.rate ≤ b - w.start + 12 / 10 ^ 9 ∧
        ∀ p : ℕ, i ≤ p → (p : ℚ) / w.rate ≤ b - w.start + 8 / 10 ^ 9 → p ≤ j) := by
  have hr : (0 : ℚ) < w.rate := by linarith
  have e6 : (1 : ℚ) / 10 ^ 6 ≤ 1 / w.rate := by gcongr
  have hs0 := abs_nonneg w.start
  have hstop : w.stop = fl (w.start + samplesToDuration fl w.rate (n : ℤ)) := by
    have := hw
    unfold Fresh at this
    rw [hn, add_sub_cancel_left] at this
    exact this
  have hnn : (0 : ℚ) ≤ n / w.rate := by positivity
  have nn := abs_le.1 (bound_near h h1 h2 (s := w.start) (k := (n : ℤ)) (by omega) (by push_cast; linarith))
  rw [← hstop] at nn
  push_cast at nn
  obtain ⟨r, hi, i1, i2⟩ := C192_index_after h h1 h2 a1 a2 (by linarith)
  have hr0 : 0 ≤ r := by
    by_contra hneg
    have : (r : ℚ) ≤ -1 := by
      have : r ≤ -1 := by omega
      exact_mod_cast this
    have h3 : (r : ℚ) / w.rate ≤ -1 / w.rate := by gcongr
    have h5 : (-1 : ℚ) / w.rate = -(1 / w.rate) := by ring
    linarith
  lift r to ℕ using hr0
  push_cast at i1
  have hrn : r ≤ n := by
    have := i2 n (by push_cast; linarith)
    exact_mod_cast this
  have hrq : (r : ℚ) / w.rate ≤ n / w.rate := by
    have : (r : ℚ) ≤ n := by exact_mod_cast hrn
    gcongr
  have near := bound_near h h1 h2 (s := w.start) (k := (r : ℤ)) (by omega) (by push_cast; linarith)
  push_cast at near
  have near' := abs_le.1 near
  have hdelay : delayStart fl w a = .ok { w with
      start := fl (w.start + samplesToDuration fl w.rate r), startAfter := w.startAfter + r } := by
    unfold delayStart
    rw [hi]
    rfl
  refine ⟨r, hrn, by linarith, ?_, near, ?_, ?_⟩
  · intro p hp
    have := i2 p (by push_cast; linarith)
    exact_mod_cast this
  · intro hb
    unfold wavGetSub crop
    rw [fresh_copy hw, hdelay]
    simp only [bind, Except.bind]
    unfold stopAt
    simp only []
    rw [index_before_out _ _ _ _ (Or.inl hb)]
    rfl
  · intro hb
    obtain ⟨q, hj, j1, j2⟩ := C192_index_before h h1 h2 hb b2 (by
      have : (0 : ℚ) ≤ r / w.rate := by positivity
      have := abs_le.1 (le_refl |w.start|)
      linarith)
    have hq0 : 0 ≤ q := j2 0 (by rw [Int.cast_zero, zero_div]; linarith)
    lift q to ℕ using hq0
    push_cast at j1
    have hqn : r + q ≤ n := by
      by_contra hlt
      have : (n : ℚ) + 1 ≤ r + q := by
        have : n + 1 ≤ r + q := by omega
        exact_mod_cast this
      have h3 : ((n : ℚ) + 1) / w.rate ≤ (r + q) / w.rate := by gcongr
      rw [add_div, add_div] at h3
      linarith
    refine ⟨⟨w.path, fl (w.start + samplesToDuration fl w.rate r),
      fl (fl (w.start + samplesToDuration fl w.rate r) + samplesToDuration fl w.rate q), w.rate, w.startAfter + r,
      w.startAfter + r + q⟩, r + q, ?_, ?_, h.idem _, rfl, rfl, rfl, rfl, by push_cast; ring, by omega, hqn, ?_, ?_⟩
    · unfold wavGetSub crop
      rw [fresh_copy hw, hdelay]
      simp only [bind, Except.bind]
      unfold stopAt
      simp only []
      rw [hj]
      rfl
    · unfold Fresh
      simp only []
      rw [add_sub_cancel_left]
    · push_cast
      rw [add_div]
      linarith
    · intro p hp1 hp2
      have := j2 ((p : ℤ) - r) (by
        push_cast
        rw [sub_div]
        linarith)
      omega

end Verif.Window.Fl
