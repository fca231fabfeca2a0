import Verif.Utils.Integers
import Verif.Utils.PropsRounded
import Mathlib.Algebra.BigOperators.Fin
import Mathlib.Algebra.BigOperators.Ring.Finset

/-!
# Property C230: filters, velocities and normalisation of integers
-/

namespace Verif.Utils

open Verif Verif.Window

set_option exponentiation.threshold 2000

/-! ## Machine integers -/

/-- The integers of a type. -/
def Fits (t : IntTy) (x : ℤ) : Prop :=
  if t.signed then -2 ^ (t.bits - 1) ≤ x ∧ x < 2 ^ (t.bits - 1) else 0 ≤ x ∧ x < 2 ^ t.bits

instance (t : IntTy) (x : ℤ) : Decidable (Fits t x) := by unfold Fits; infer_instance

theorem pow_bits {t : IntTy} (hb : 1 ≤ t.bits) : (2 : ℤ) ^ t.bits = 2 * 2 ^ (t.bits - 1) := by
  rw [← pow_succ']; congr 1; omega

theorem wrap_fits {t : IntTy} (hb : 1 ≤ t.bits) (x : ℤ) : Fits t (t.wrap x) := by
  have h0 : (0 : ℤ) < 2 ^ t.bits := by positivity
  have h2 := pow_bits hb
  unfold Fits IntTy.wrap
  split_ifs
  · have h3 := Int.emod_nonneg (x + 2 ^ (t.bits - 1)) h0.ne'
    have h4 := Int.emod_lt_of_pos (x + 2 ^ (t.bits - 1)) h0
    constructor <;> linarith
  · exact ⟨Int.emod_nonneg _ h0.ne', Int.emod_lt_of_pos _ h0⟩

theorem wrap_dvd (t : IntTy) (x : ℤ) : (2 : ℤ) ^ t.bits ∣ t.wrap x - x := by
  unfold IntTy.wrap
  split_ifs
  · have := Int.emod_add_mul_ediv (x + 2 ^ (t.bits - 1)) (2 ^ t.bits)
    exact ⟨-((x + 2 ^ (t.bits - 1)) / 2 ^ t.bits), by linarith⟩
  · have := Int.emod_add_mul_ediv x (2 ^ t.bits)
    exact ⟨-(x / 2 ^ t.bits), by linarith⟩

theorem fits_near {t : IntTy} (hb : 1 ≤ t.bits) {x y : ℤ} (hx : Fits t x) (hy : Fits t y) : |x - y| < 2 ^ t.bits := by
  have h2 := pow_bits hb
  unfold Fits at hx hy
  rw [abs_lt]
  split_ifs at hx hy <;> constructor <;> linarith

theorem fits_eq {t : IntTy} (hb : 1 ≤ t.bits) {x y : ℤ} (hx : Fits t x) (hy : Fits t y) (h : (2 : ℤ) ^ t.bits ∣ x - y) :
    x = y := by
  by_contra hne
  have h1 : 0 < |x - y| := abs_pos.2 (sub_ne_zero.2 hne)
  have h2 := Int.le_of_dvd h1 ((dvd_abs _ _).2 h)
  exact absurd (fits_near hb hx hy) (not_lt.2 h2)

theorem wrap_eq {t : IntTy} (hb : 1 ≤ t.bits) {x y : ℤ} (hy : Fits t y) (h : (2 : ℤ) ^ t.bits ∣ y - x) : t.wrap x = y := by
  refine fits_eq hb (wrap_fits hb x) hy ?_
  have := dvd_sub (wrap_dvd t x) h
  rwa [sub_sub_sub_cancel_right] at this

theorem wrap_of_fits {t : IntTy} (hb : 1 ≤ t.bits) {x : ℤ} (hx : Fits t x) : t.wrap x = x := wrap_eq hb hx (by simp)

theorem wrap_wrap_add {t : IntTy} (hb : 1 ≤ t.bits) (x y : ℤ) : t.wrap (t.wrap x + y) = t.wrap (x + y) := by
  refine wrap_eq hb (wrap_fits hb _) ?_
  have := dvd_sub (wrap_dvd t (x + y)) (wrap_dvd t x)
  have e : t.wrap (x + y) - (x + y) - (t.wrap x - x) = t.wrap (x + y) - (t.wrap x + y) := by ring
  rwa [e] at this

/-- An array of integers. -/
def ofInts {d : ℕ} (t : IntTy) (x : List (Fin d → ℤ)) : Arr d := ⟨.int t, x.map fun r j => (r j : ℚ)⟩

theorem getD_cast {d : ℕ} (x : List (Fin d → ℤ)) (i : ℕ) (j : Fin d) :
    (x.map fun (r : Fin d → ℤ) (j : Fin d) => (r j : ℚ)).getD i 0 j = ((x.getD i 0 j : ℤ) : ℚ) := by
  rw [List.getD_eq_getElem?_getD, List.getD_eq_getElem?_getD, List.getElem?_map]
  cases x[i]? <;> simp

/-! ## Continuity filter -/

theorem filter_rows {d : ℕ} (keep : ℚ → ℚ) (data : List (Fin d → ℚ)) (hne : data ≠ []) :
    ∃ s, (do
      let first ← pyGet data 0
      let last ← pyGet data (-1)
      let l1 := [first] ++ data ++ [last]
      let l2 := pyUpto l1 (-2)
      let l3 := pyFrom l1 2
      let l1 := pySlice l1 1 (-1)
      let s : List (Fin d → ℚ) := List.zipWith (fun x y => fun j => keep (x j + y j)) l1 l2
      pure (List.zipWith (fun x y => fun j => keep (x j + y j)) s l3) : Py (List (Fin d → ℚ))) = .ok s ∧
      s.length = data.length ∧ ∀ (i : ℕ) (hi : i < data.length), s[i]? = some (fun j =>
        keep (keep (data[i] j + data.getD (i - 1) 0 j) + data.getD (min (i + 1) (data.length - 1)) 0 j)) := by
  have hpos : 0 < data.length := List.length_pos_iff.mpr hne
  have hfirst : pyGet data 0 = .ok data[0] := pyGet_nat data 0 hpos
  have hlast : pyGet data (-1) = .ok (data[data.length - 1]) := by
    unfold pyGet
    rw [if_pos (by omega), if_neg (by omega)]
    have e : ((-1 : ℤ) + data.length).toNat = data.length - 1 := by omega
    rw [e, List.getElem?_eq_getElem (by omega)]
  rw [hfirst, hlast]
  simp only [bind, Except.bind, pure, Except.pure]
  set l1 : List (Fin d → ℚ) := [data[0]] ++ data ++ [data[data.length - 1]] with hl1
  have hlen1 : l1.length = data.length + 2 := by simp [hl1]
  have h2 : pyUpto l1 (-2) = l1.take data.length := by
    unfold pyUpto
    have := pyBound_neg (n := l1.length) (i := 2) (by omega) (by omega)
    push_cast at this
    rw [this, hlen1]
    rfl
  have h3 : pyFrom l1 2 = l1.drop 2 := pyFrom_nat l1 2
  have h1 : pySlice l1 1 (-1) = data := by
    unfold pySlice
    have e1 := pyBound_neg (n := l1.length) (i := 1) (by omega) (by omega)
    push_cast at e1
    have e2 : pyBound l1.length 1 = 1 := by
      rw [pyBound_nonneg (by omega)]; simp [hlen1]
    rw [e1, e2, hlen1, hl1]
    simp
  rw [h2, h3, h1]
  have hg : ∀ k : ℕ, k < data.length + 2 → l1[k]? =
      some (data.getD (min (k - 1) (data.length - 1)) 0) := by
    intro k hk
    rw [hl1, List.append_assoc, List.getElem?_append]
    simp only [List.length_singleton]
    by_cases hk0 : k < 1
    · have : k = 0 := by omega
      subst this
      rw [if_pos (by omega)]
      simp [List.getD_eq_getElem?_getD, hpos]
    · rw [if_neg hk0, List.getElem?_append]
      by_cases hk1 : k - 1 < data.length
      · rw [if_pos hk1, min_eq_left (by omega), List.getD_eq_getElem?_getD,
          List.getElem?_eq_getElem hk1]
        rfl
      · have : k - 1 = data.length := by omega
        have hd : data[data.length - 1]? = some data[data.length - 1] :=
          List.getElem?_eq_getElem (by omega)
        rw [if_neg hk1, this, min_eq_right (by omega), List.getD_eq_getElem?_getD, hd]
        simp only [Nat.sub_self, List.getElem?_cons_zero, Option.getD_some]
  refine ⟨_, rfl, ?_, ?_⟩
  · simp only [List.length_zipWith, List.length_take, List.length_drop, hlen1]
    omega
  · intro i hi
    rw [List.getElem?_zipWith, List.getElem?_zipWith, List.getElem?_take, if_pos hi,
      List.getElem?_drop, hg i (by omega), hg (2 + i) (by omega), List.getElem?_eq_getElem hi]
    have e1 : min (i - 1) (data.length - 1) = i - 1 := by omega
    have e2 : min (2 + i - 1) (data.length - 1) = min (i + 1) (data.length - 1) := by omega
    rw [e1, e2]

/-- The sum of three consecutive values of a column, where first and last values are repeated. -/
def sum3 {d : ℕ} (x : List (Fin d → ℤ)) (i : ℕ) (j : Fin d) : ℤ :=
  x.getD i 0 j + x.getD (i - 1) 0 j + x.getD (min (i + 1) (x.length - 1)) 0 j

theorem filter_split {d : ℕ} (py3 : Bool) (fl : ℚ → ℚ) (t : IntTy) (data : List (Fin d → ℚ)) :
    filterContA py3 fl ⟨.int t, data⟩ = ((do
      let first ← pyGet data 0
      let last ← pyGet data (-1)
      let l1 := [first] ++ data ++ [last]
      let l2 := pyUpto l1 (-2)
      let l3 := pyFrom l1 2
      let l1 := pySlice l1 1 (-1)
      let s : List (Fin d → ℚ) := List.zipWith (fun x y => fun j => (DType.int t).keep fl (x j + y j)) l1 l2
      pure (List.zipWith (fun x y => fun j => (DType.int t).keep fl (x j + y j)) s l3) : Py (List (Fin d → ℚ))).map
        fun s => if py3 then ⟨.float, s.map fun r j => fl (fl (r j) / 3)⟩ else ⟨.int t, s.map fun r j => (⌊r j / 3⌋ : ℚ)⟩) := by
  unfold filterContA
  dsimp only
  cases pyGet data 0 with
  | error e => rfl
  | ok a =>
    cases pyGet data (-1) with
    | error e => rfl
    | ok b => cases py3 <;> rfl

/-- **C230.** The continuity filter on integers: the sum of three values is reduced modulo `2 ^ bits` to an integer of the
type; its third is the integer quotient in python 2 and a double in python 3. -/
theorem C230_filter {d : ℕ} (py3 : Bool) (fl : ℚ → ℚ) {t : IntTy} (hb : 1 ≤ t.bits) (x : List (Fin d → ℤ)) (hne : x ≠ []) :
    ∃ y, filterContA py3 fl (ofInts t x) = .ok y ∧ y.ty = (if py3 then .float else .int t) ∧ y.rows.length = x.length ∧
      ∀ i < x.length, ∃ r, y.rows[i]? = some r ∧ ∀ j, ∃ w : ℤ, Fits t w ∧ (2 : ℤ) ^ t.bits ∣ w - sum3 x i j ∧
        r j = if py3 then fl (fl w / 3) else ((w / 3 : ℤ) : ℚ) := by
  obtain ⟨s, e, hl, hs⟩ := filter_rows ((DType.int t).keep fl) (x.map fun (r : Fin d → ℤ) (j : Fin d) => (r j : ℚ))
    (by simpa using hne)
  have e' := filter_split py3 fl t (x.map fun (r : Fin d → ℤ) (j : Fin d) => (r j : ℚ))
  rw [e] at e'
  rw [List.length_map] at hl
  have key : ∀ (i : ℕ), i < x.length → ∃ r, s[i]? = some r ∧ ∀ j, r j = ((t.wrap (sum3 x i j) : ℤ) : ℚ) := by
    intro i hi
    refine ⟨_, hs i (by simpa using hi), fun j => ?_⟩
    have e0 : x[i] = x.getD i 0 := by rw [List.getD_eq_getElem?_getD, List.getElem?_eq_getElem hi]; rfl
    simp only [List.getElem_map, List.length_map, DType.keep]
    rw [getD_cast, getD_cast, e0, ← Int.cast_add, Int.floor_intCast, ← Int.cast_add, Int.floor_intCast, wrap_wrap_add hb]
    rfl
  refine ⟨_, e', ?_, ?_, ?_⟩
  · cases py3 <;> rfl
  · cases py3 <;> simp [hl]
  · intro i hi
    obtain ⟨r, h1, h2⟩ := key i hi
    cases py3
    · refine ⟨_, by simp only [Bool.false_eq_true, if_false, List.getElem?_map, h1]; rfl, fun j => ?_⟩
      refine ⟨t.wrap (sum3 x i j), wrap_fits hb _, wrap_dvd _ _, ?_⟩
      show ((⌊r j / 3⌋ : ℤ) : ℚ) = _
      rw [h2]
      simp only [Bool.false_eq_true, if_false]
      congr 1
      rw [show ((t.wrap (sum3 x i j) : ℤ) : ℚ) / 3 = ((t.wrap (sum3 x i j) : ℤ) : ℚ) / ((3 : ℕ) : ℚ) by norm_num,
        Rat.floor_intCast_div_natCast]
      rfl
    · refine ⟨_, by simp only [if_true, List.getElem?_map, h1]; rfl, fun j => ?_⟩
      refine ⟨t.wrap (sum3 x i j), wrap_fits hb _, wrap_dvd _ _, ?_⟩
      show fl (fl (r j) / 3) = _
      rw [h2]
      rfl

/-- **C230.** In python 2, when sums fit, values are means rounded down; they stay between bounds of the column. -/
theorem C230_mean {d : ℕ} (fl : ℚ → ℚ) {t : IntTy} (hb : 1 ≤ t.bits) (x : List (Fin d → ℤ)) (hne : x ≠ [])
    (hf : ∀ i < x.length, ∀ j, Fits t (sum3 x i j)) :
    ∃ y, filterContA false fl (ofInts t x) = .ok (ofInts t y) ∧ y.length = x.length ∧
      ∀ i < x.length, ∀ j, (3 * y.getD i 0 j ≤ sum3 x i j ∧ sum3 x i j < 3 * y.getD i 0 j + 3) ∧
        ∀ m M : ℤ, (∀ r ∈ x, m ≤ r j ∧ r j ≤ M) → m ≤ y.getD i 0 j ∧ y.getD i 0 j ≤ M := by
  obtain ⟨y, e, ht, hl, hy⟩ := C230_filter false fl hb x hne
  set z : List (Fin d → ℤ) := (List.range x.length).map fun i j => sum3 x i j / 3 with hz
  have hyz : y = ofInts t z := by
    obtain ⟨ty, rows⟩ := y
    simp only [Bool.false_eq_true, if_false] at ht hl hy
    subst ht
    simp only [ofInts, Arr.mk.injEq, true_and]
    apply List.ext_getElem?
    intro i
    by_cases hi : i < x.length
    · obtain ⟨r, h1, h2⟩ := hy i hi
      rw [h1, hz, List.getElem?_map, List.getElem?_map, List.getElem?_range hi]
      simp only [Option.map_some, Option.some.injEq]
      funext j
      obtain ⟨w, w1, w2, w3⟩ := h2 j
      rw [w3, fits_eq hb w1 (hf i hi j) w2]
    · rw [List.getElem?_eq_none (by omega), List.getElem?_eq_none (by simp [hz]; omega)]
  refine ⟨z, by rw [e, hyz], by simp [hz], fun i hi j => ?_⟩
  have hv : z.getD i 0 j = sum3 x i j / 3 := by
    rw [hz, List.getD_eq_getElem?_getD, List.getElem?_map, List.getElem?_range hi]
    rfl
  rw [hv]
  refine ⟨⟨by omega, by omega⟩, fun m M h => ?_⟩
  have hin : ∀ k < x.length, m ≤ x.getD k 0 j ∧ x.getD k 0 j ≤ M := by
    intro k hk
    rw [List.getD_eq_getElem?_getD, List.getElem?_eq_getElem hk]
    exact h _ (List.getElem_mem hk)
  have h1 := hin i hi
  have h2 := hin (i - 1) (by omega)
  have h3 := hin (min (i + 1) (x.length - 1)) (by omega)
  unfold sum3
  constructor <;> omega

/-- **C230.** A constant column is kept exactly when three times its value fits, in both versions of python. -/
theorem C230_constant {t : IntTy} (hb : 2 ≤ t.bits) (hb' : t.bits ≤ 32) (py3 : Bool) (n : ℕ) {v : ℤ} (hv : Fits t v) :
    (∃ y, filterContA py3 dbl (ofInts t (List.replicate (n + 1) ![v])) = .ok y ∧
      y.rows = (ofInts t (List.replicate (n + 1) ![v])).rows) ↔ Fits t (3 * v) := by
  set x : List (Fin 1 → ℤ) := List.replicate (n + 1) ![v] with hx
  have hxl : x.length = n + 1 := by simp [hx]
  have hb1 : 1 ≤ t.bits := by omega
  obtain ⟨y, e, ht, hl, hy⟩ := C230_filter py3 dbl hb1 x (by simp [hx])
  have hget : ∀ k < n + 1, x.getD k 0 0 = v := by
    intro k hk
    rw [hx, List.getD_eq_getElem?_getD, List.getElem?_replicate, if_pos hk]
    rfl
  have hs : ∀ i < n + 1, sum3 x i 0 = 3 * v := by
    intro i hi
    unfold sum3
    rw [hget i hi, hget (i - 1) (by omega), hget _ (by omega)]
    ring
  have hbig : (4 : ℤ) ≤ 2 ^ t.bits := by
    calc (4 : ℤ) = 2 ^ 2 := by norm_num
      _ ≤ 2 ^ t.bits := pow_le_pow_right₀ (by norm_num) hb
  have hvb : |v| < 2 ^ 32 := by
    have h3 : Fits t 0 := by unfold Fits; split_ifs <;> constructor <;> first | positivity | simp
    have := fits_near hb1 hv h3
    rw [sub_zero] at this
    exact this.trans_le (pow_le_pow_right₀ (by norm_num) hb')
  obtain ⟨hv1, hv2⟩ := abs_lt.1 hvb
  have hint : ∀ k : ℤ, |k| ≤ 2 ^ 53 → dbl (k : ℚ) = k := fun k hk => isRounding_dbl.int k hk
  -- the value of the filter
  have hval : ∀ w : ℤ, Fits t w → (2 : ℤ) ^ t.bits ∣ w - 3 * v →
      ((if py3 = true then dbl (dbl w / 3) else ((w / 3 : ℤ) : ℚ)) = v ↔ w = 3 * v) := by
    intro w hw hd
    have hwb : |w| < 2 ^ 32 := by
      have h3 : Fits t 0 := by unfold Fits; split_ifs <;> constructor <;> first | positivity | simp
      have := fits_near hb1 hw h3
      rw [sub_zero] at this
      exact this.trans_le (pow_le_pow_right₀ (by norm_num) hb')
    have hgap : w ≠ 3 * v → w + 4 ≤ 3 * v ∨ 3 * v + 4 ≤ w := by
      intro hne
      have h1 : 0 < |w - 3 * v| := abs_pos.2 (sub_ne_zero.2 hne)
      have h2 := Int.le_of_dvd h1 ((dvd_abs _ _).2 hd)
      have h3 := hbig.trans h2
      rcases le_abs.1 h3 with h4 | h4
      · right; linarith
      · left; linarith
    constructor
    · intro h
      by_contra hne
      cases py3
      · simp only [Bool.false_eq_true, if_false, Int.cast_inj] at h
        rcases hgap hne with h1 | h1 <;> omega
      · simp only [if_true] at h
        rw [hint w (by linarith)] at h
        rcases hgap hne with h1 | h1
        · have h2 : dbl ((w : ℚ) / 3) ≤ ((v - 1 : ℤ) : ℚ) := by
            rw [← hint (v - 1) (by rw [abs_le]; constructor <;> linarith)]
            apply dbl_mono
            rw [div_le_iff₀ (by norm_num)]
            have : (w : ℚ) + 4 ≤ 3 * v := by exact_mod_cast h1
            push_cast
            linarith
          rw [h] at h2
          push_cast at h2
          linarith
        · have h2 : ((v + 1 : ℤ) : ℚ) ≤ dbl ((w : ℚ) / 3) := by
            rw [← hint (v + 1) (by rw [abs_le]; constructor <;> linarith)]
            apply dbl_mono
            rw [le_div_iff₀ (by norm_num)]
            have : (3 : ℚ) * v + 4 ≤ w := by exact_mod_cast h1
            push_cast
            linarith
          rw [h] at h2
          push_cast at h2
          linarith
    · rintro rfl
      cases py3
      · simp
      · simp only [if_true]
        rw [hint _ (by linarith)]
        push_cast
        rw [mul_div_cancel_left₀ _ (by norm_num), hint v (by linarith)]
  constructor
  · rintro ⟨y', e', hrows⟩
    have hyy : y' = y := by rw [e] at e'; injection e' with e'; exact e'.symm
    subst hyy
    obtain ⟨r, h1, h2⟩ := hy 0 (by omega)
    obtain ⟨w, w1, w2, w3⟩ := h2 0
    rw [hs 0 (by omega)] at w2
    have hr : r 0 = v := by
      rw [hrows, ofInts, List.getElem?_map, hx, List.getElem?_replicate, if_pos (by omega)] at h1
      simp only [Option.map_some, Option.some.injEq] at h1
      rw [← h1]
      rfl
    rw [hr] at w3
    rw [← (hval w w1 w2).1 w3.symm]
    exact w1
  · intro hf
    refine ⟨y, e, ?_⟩
    apply List.ext_getElem?
    intro i
    by_cases hi : i < n + 1
    · obtain ⟨r, h1, h2⟩ := hy i (by omega)
      rw [h1, ofInts, List.getElem?_map, hx, List.getElem?_replicate, if_pos hi]
      simp only [Option.map_some, Option.some.injEq]
      funext j
      obtain rfl : j = 0 := Subsingleton.elim _ _
      obtain ⟨w, w1, w2, w3⟩ := h2 0
      rw [hs i hi] at w2
      rw [w3, (hval w w1 w2).2 (fits_eq hb1 w1 hf w2)]
      rfl
    · rw [List.getElem?_eq_none (by omega), List.getElem?_eq_none (by simp [ofInts, hx]; omega)]

/-! ## Velocities -/

theorem velocitiesA_eq (fl : ℚ → ℚ) {d : ℕ} (a : Arr d) :
    velocitiesA fl a = (velocities a.rows).map fun r => ⟨a.ty, r.map fun row j => a.ty.keep fl (row j)⟩ := by
  unfold velocitiesA velocities
  cases pyGet a.rows 0 with
  | error e => rfl
  | ok x =>
    simp only [bind, Except.bind, subA, vstackA, DType.promote, Arr.convert, if_true, subRowsR_eq]
    cases subRows (pyFrom a.rows 1 ++ [x]) a.rows <;> rfl

/-- **C230.** Velocities of integers are integers of the same type, congruent to the differences of positions modulo
`2 ^ bits`: they are these differences exactly when the differences fit, and zero only between equal positions. Columns
of velocities sum to a multiple of `2 ^ bits`. -/
theorem C230_velocities {d : ℕ} (fl : ℚ → ℚ) {t : IntTy} (hb : 1 ≤ t.bits) (x : List (Fin d → ℤ)) :
    (x = [] → velocitiesA fl (ofInts t x) = .error .indexError) ∧
    (x ≠ [] → ∃ v, velocitiesA fl (ofInts t x) = .ok (ofInts t v) ∧ v.length = x.length ∧
      (∀ i < x.length, ∀ j, Fits t (v.getD i 0 j) ∧
        (2 : ℤ) ^ t.bits ∣ v.getD i 0 j - (x.getD ((i + 1) % x.length) 0 j - x.getD i 0 j) ∧
        (v.getD i 0 j = x.getD ((i + 1) % x.length) 0 j - x.getD i 0 j ↔
          Fits t (x.getD ((i + 1) % x.length) 0 j - x.getD i 0 j)) ∧
        ((∀ r ∈ x, Fits t (r j)) → (v.getD i 0 j = 0 ↔ x.getD ((i + 1) % x.length) 0 j = x.getD i 0 j))) ∧
      ∀ j, (2 : ℤ) ^ t.bits ∣ (v.map fun r => r j).sum) := by
  set X : List (Fin d → ℚ) := x.map fun (r : Fin d → ℤ) (j : Fin d) => (r j : ℚ) with hX
  have hXl : X.length = x.length := by simp [hX]
  have hgX : ∀ i j, X.getD i 0 j = ((x.getD i 0 j : ℤ) : ℚ) := getD_cast x
  constructor
  · rintro rfl; rfl
  · intro hne
    obtain ⟨r, e, hl, hr, hsum⟩ := (C26_velocities X).2 (by simpa [hX] using hne)
    set v : List (Fin d → ℤ) := (List.range x.length).map fun i j =>
      t.wrap (x.getD ((i + 1) % x.length) 0 j - x.getD i 0 j) with hv
    have hri : ∀ i < x.length, ∃ row, r[i]? = some row ∧
        ∀ j, row j = ((x.getD ((i + 1) % x.length) 0 j - x.getD i 0 j : ℤ) : ℚ) := by
      intro i hi
      refine ⟨_, hr i (by omega), fun j => ?_⟩
      have e0 : X[i]'(by omega) = X.getD i 0 := by
        rw [List.getD_eq_getElem?_getD, List.getElem?_eq_getElem (by omega)]; rfl
      rw [Pi.sub_apply, e0, hgX, hgX, hXl]
      push_cast
      rfl
    have hvi : ∀ i < x.length, ∀ j, v.getD i 0 j = t.wrap (x.getD ((i + 1) % x.length) 0 j - x.getD i 0 j) := by
      intro i hi j
      rw [hv, List.getD_eq_getElem?_getD, List.getElem?_map, List.getElem?_range hi]
      rfl
    refine ⟨v, ?_, by simp [hv], ?_, ?_⟩
    · rw [velocitiesA_eq]
      show (velocities X).map _ = _
      rw [e]
      simp only [Except.map, ofInts, Except.ok.injEq, Arr.mk.injEq, true_and]
      apply List.ext_getElem?
      intro i
      by_cases hi : i < x.length
      · obtain ⟨row, h1, h2⟩ := hri i hi
        rw [List.getElem?_map, h1, hv, List.getElem?_map, List.getElem?_map, List.getElem?_range hi]
        simp only [Option.map_some, Option.some.injEq]
        funext j
        rw [h2]
        simp only [DType.keep, Int.floor_intCast]
      · rw [List.getElem?_eq_none (by simp; omega), List.getElem?_eq_none (by simp [hv]; omega)]
    · intro i hi j
      rw [hvi i hi j]
      set D := x.getD ((i + 1) % x.length) 0 j - x.getD i 0 j with hD
      refine ⟨wrap_fits hb _, wrap_dvd _ _, ⟨fun h => by rw [← h]; exact wrap_fits hb _, fun h => wrap_of_fits hb h⟩, ?_⟩
      intro hf
      have hin : ∀ k < x.length, Fits t (x.getD k 0 j) := by
        intro k hk
        rw [List.getD_eq_getElem?_getD, List.getElem?_eq_getElem hk]
        exact hf _ (List.getElem_mem hk)
      constructor
      · intro h
        refine fits_eq hb (hin _ (Nat.mod_lt _ (by omega))) (hin i hi) ?_
        have := wrap_dvd t D
        rw [h, zero_sub, dvd_neg] at this
        exact this
      · intro h
        refine wrap_eq hb ?_ (by rw [hD, h]; simp)
        unfold Fits
        split_ifs <;> constructor <;> first | positivity | simp
    · intro j
      have h1 : (v.map fun r => r j).sum = ∑ i ∈ Finset.range x.length, v.getD i 0 j := by
        rw [hv, List.map_map, Finset.sum_range, ← List.sum_ofFn]
        congr 1
        apply List.ext_getElem?
        intro i
        by_cases hi : i < x.length
        · rw [List.getElem?_map, List.getElem?_range hi, List.getElem?_ofFn, dif_pos hi]
          simp only [Option.map_some, Function.comp]
          rw [← hv, hvi i hi]
        · rw [List.getElem?_eq_none (by simp; omega), List.getElem?_eq_none (by simp; omega)]
      have h2 : ∑ i ∈ Finset.range x.length, (x.getD ((i + 1) % x.length) 0 j - x.getD i 0 j) = 0 := by
        have h3 := hsum j
        have h4 : (r.map fun row => row j).sum =
            ((∑ i ∈ Finset.range x.length, (x.getD ((i + 1) % x.length) 0 j - x.getD i 0 j) : ℤ) : ℚ) := by
          push_cast
          rw [Finset.sum_range, ← List.sum_ofFn]
          congr 1
          apply List.ext_getElem?
          intro i
          by_cases hi : i < x.length
          · obtain ⟨row, h1, h2⟩ := hri i hi
            rw [List.getElem?_map, h1, List.getElem?_ofFn, dif_pos hi]
            simp only [Option.map_some, h2]
            push_cast
            rfl
          · rw [List.getElem?_eq_none (by simp; omega), List.getElem?_eq_none (by simp; omega)]
        rw [h4] at h3
        exact_mod_cast h3
      rw [h1]
      have h5 : ∑ i ∈ Finset.range x.length, v.getD i 0 j =
          ∑ i ∈ Finset.range x.length, (v.getD i 0 j - (x.getD ((i + 1) % x.length) 0 j - x.getD i 0 j)) := by
        rw [Finset.sum_sub_distrib, h2, sub_zero]
      rw [h5]
      apply Finset.dvd_sum
      intro i hi
      rw [hvi i (Finset.mem_range.1 hi)]
      exact wrap_dvd _ _

/-- **C230.** Velocities of unsigned integers: where positions decrease, `2 ^ bits` is added. -/
theorem C230_unsigned {t : IntTy} (hs : t.signed = false) {a b w : ℤ} (ha : Fits t a) (hbb : Fits t b) (hw : Fits t w)
    (hb : 1 ≤ t.bits) (h : (2 : ℤ) ^ t.bits ∣ w - (b - a)) : w = if a ≤ b then b - a else 2 ^ t.bits + (b - a) := by
  have e : ∀ y : ℤ, 0 ≤ y → y < 2 ^ t.bits → Fits t y := by
    intro y h1 h2
    unfold Fits
    rw [hs]
    exact ⟨h1, h2⟩
  unfold Fits at ha hbb
  rw [hs] at ha hbb
  simp only [Bool.false_eq_true, if_false] at ha hbb
  split_ifs with hab
  · exact fits_eq hb hw (e _ (by linarith) (by linarith)) h
  · refine fits_eq hb hw (e _ (by linarith) (by linarith)) ?_
    have := dvd_sub h (dvd_refl ((2 : ℤ) ^ t.bits))
    have e2 : w - (b - a) - 2 ^ t.bits = w - (2 ^ t.bits + (b - a)) := by ring
    rwa [e2] at this

theorem pyUpto_map {α β : Type} (f : α → β) (l : List α) (i : ℤ) : pyUpto (l.map f) i = (pyUpto l i).map f := by
  unfold pyUpto
  rw [List.length_map, List.map_take]

theorem circularA_eq (fl : ℚ → ℚ) {d : ℕ} (delay : ℤ) (a : Arr d) :
    delayedVelocitiesA fl delay a "circular" =
      (delayedVelocities delay a.rows "circular").map fun r => ⟨a.ty, r.map fun row j => a.ty.keep fl (row j)⟩ := by
  unfold delayedVelocitiesA delayedVelocities
  simp only [if_true, subA, vstackA, DType.promote, Arr.convert, subRowsR_eq]
  generalize subRows (V := Fin d → ℚ) a.rows _ = z
  cases z <;> rfl

theorem zerosA_eq (fl : ℚ → ℚ) {d : ℕ} (delay : ℤ) (t : IntTy) (rows : List (Fin d → ℚ)) :
    delayedVelocitiesA fl delay ⟨.int t, rows⟩ "zeros" =
      (delayedVelocities delay (rows.map fun r j => fl (r j)) "zeros").map
        fun r => ⟨.float, r.map fun row j => fl (row j)⟩ := by
  have hne : ("zeros" : String) ≠ "circular" := by decide
  unfold delayedVelocitiesA delayedVelocities
  simp only [if_neg hne, if_true, List.length_map]
  split_ifs with h1 h2
  · rfl
  · simp only [subA, vstackA, DType.promote, Arr.convert, subRowsR_eq, pyUpto_map]
    simp only [reduceCtorEq, if_false, if_true]
    generalize subRows (V := Fin d → ℚ) _ _ = z
    cases z <;> rfl
  · rfl
  · simp only [subA, vstackA, DType.promote, Arr.convert, subRowsR_eq, pyUpto_map]
    simp only [reduceCtorEq, if_false, if_true]
    generalize subRows (V := Fin d → ℚ) _ _ = z
    cases z <;> rfl

/-- **C230.** Delayed velocities of integers: with circular padding they are integers congruent to the differences modulo
`2 ^ bits`; with zeros they are doubles, exact for positions up to `2 ^ 52` in magnitude, negative ones of unsigned
integers included. -/
theorem C230_delayed {d : ℕ} {t : IntTy} (hb : 1 ≤ t.bits) (x : List (Fin d → ℤ)) :
    (∀ (fl : ℚ → ℚ) (delay : ℤ), ∃ v, delayedVelocitiesA fl delay (ofInts t x) "circular" = .ok (ofInts t v) ∧
      v.length = x.length ∧ ∀ i < x.length, ∀ j, Fits t (v.getD i 0 j) ∧
        (2 : ℤ) ^ t.bits ∣ v.getD i 0 j - (x.getD i 0 j - x.getD
          ((((i : ℤ) - max (-(x.length : ℤ)) (min delay x.length)) % (x.length : ℤ)).toNat) 0 j)) ∧
    (∀ delay : ℕ, 0 < delay → (∀ r ∈ x, ∀ j, |r j| ≤ 2 ^ 52) →
      ∃ y, delayedVelocitiesA dbl delay (ofInts t x) "zeros" = .ok y ∧ y.ty = .float ∧ y.rows.length = x.length ∧
        ∀ i < x.length, ∃ r, y.rows[i]? = some r ∧
          ∀ j, r j = ((x.getD i 0 j - if i < delay then 0 else x.getD (i - delay) 0 j : ℤ) : ℚ)) := by
  set X : List (Fin d → ℚ) := x.map fun (r : Fin d → ℤ) (j : Fin d) => (r j : ℚ) with hX
  have hXl : X.length = x.length := by simp [hX]
  have hgX : ∀ i j, X.getD i 0 j = ((x.getD i 0 j : ℤ) : ℚ) := getD_cast x
  have hXi : ∀ i (hi : i < x.length), X[i]'(by omega) = X.getD i 0 := by
    intro i hi
    rw [List.getD_eq_getElem?_getD, List.getElem?_eq_getElem (by omega)]; rfl
  constructor
  · intro fl delay
    obtain ⟨r, e, hl, hr⟩ := C25_delayed_circular delay X
    set v : List (Fin d → ℤ) := (List.range x.length).map fun i j =>
      t.wrap (x.getD i 0 j - x.getD
          ((((i : ℤ) - max (-(x.length : ℤ)) (min delay x.length)) % (x.length : ℤ)).toNat) 0 j) with hv
    refine ⟨v, ?_, by simp [hv], ?_⟩
    · rw [circularA_eq]
      show (delayedVelocities delay X "circular").map _ = _
      rw [e]
      simp only [Except.map, ofInts, Except.ok.injEq, Arr.mk.injEq, true_and]
      apply List.ext_getElem?
      intro i
      by_cases hi : i < x.length
      · rw [List.getElem?_map, hr i (by omega), hv, List.getElem?_map, List.getElem?_map, List.getElem?_range hi]
        simp only [Option.map_some, Option.some.injEq]
        funext j
        rw [Pi.sub_apply, hXi i hi, hgX, hgX, hXl, ← Int.cast_sub]
        simp only [DType.keep, Int.floor_intCast]
      · rw [List.getElem?_eq_none (by simp; omega), List.getElem?_eq_none (by simp [hv]; omega)]
    · intro i hi j
      have hvi : v.getD i 0 j = t.wrap (x.getD i 0 j - x.getD
          ((((i : ℤ) - max (-(x.length : ℤ)) (min delay x.length)) % (x.length : ℤ)).toNat) 0 j) := by
        rw [hv, List.getD_eq_getElem?_getD, List.getElem?_map, List.getElem?_range hi]
        rfl
      rw [hvi]
      exact ⟨wrap_fits hb _, wrap_dvd _ _⟩
  · intro delay h0 hsmall
    have hint : ∀ k : ℤ, |k| ≤ 2 ^ 53 → dbl (k : ℚ) = k := fun k hk => isRounding_dbl.int k hk
    have hXd : (X.map fun r j => dbl (r j)) = X := by
      rw [hX, List.map_map]
      apply List.map_congr_left
      intro r hr
      funext j
      exact hint (r j) ((hsmall r hr j).trans (by norm_num))
    have hget : ∀ k j, |x.getD k 0 j| ≤ 2 ^ 52 := by
      intro k j
      rw [List.getD_eq_getElem?_getD]
      cases h : x[k]? with
      | none => simp
      | some r => exact hsmall r (List.mem_of_getElem? h) j
    obtain ⟨r, e, hl, hr⟩ := C25_delayed_zeros delay h0 X
    refine ⟨⟨.float, r.map fun row j => dbl (row j)⟩, ?_, rfl, by simp; omega, ?_⟩
    · show delayedVelocitiesA dbl delay ⟨.int t, X⟩ "zeros" = _
      rw [zerosA_eq dbl, hXd, e]
      rfl
    · intro i hi
      refine ⟨_, by simp only [List.getElem?_map, hr i (by omega)]; rfl, fun j => ?_⟩
      have h1 := abs_le.1 (hget i j)
      have h2 := abs_le.1 (hget (i - delay) j)
      have e2 : (X[i]'(by omega) - if i < delay then 0 else X.getD (i - delay) 0) j =
          ((x.getD i 0 j - if i < delay then 0 else x.getD (i - delay) 0 j : ℤ) : ℚ) := by
        rw [Pi.sub_apply, hXi i hi, hgX]
        split_ifs
        · simp
        · rw [hgX]; push_cast; rfl
      show dbl ((X[i]'(by omega) - if i < delay then 0 else X.getD (i - delay) 0) j) = _
      rw [e2, hint]
      rw [abs_le]
      split_ifs <;> constructor <;> linarith

/-! ## Normalisation -/

/-- **C230.** Normalisation of integers of at most 32 bits. When the width fits, values between the bounds become the
doubles nearest to the exact ones, from 0 to 1. Values of unsigned integers which are below the lower bound become 1 or
more. When the width of signed integers does not fit, the upper bound becomes 1 but values near the lower one
become negative. -/
theorem C230_normalize {t : IntTy} (hb : 1 ≤ t.bits) (hb' : t.bits ≤ 32) {low up : ℤ} (hl : Fits t low) (hu : Fits t up)
    (h : low < up) :
    (Fits t (up - low) → ∀ x, low ≤ x → x ≤ up →
      manualyNormalizeI dbl t low up x = dbl (((x - low : ℤ) : ℚ) / ((up - low : ℤ) : ℚ)) ∧
      0 ≤ manualyNormalizeI dbl t low up x ∧ manualyNormalizeI dbl t low up x ≤ 1) ∧
    (t.signed = false → ∀ x, Fits t x → x < low → 1 ≤ manualyNormalizeI dbl t low up x) ∧
    (¬ Fits t (up - low) → t.signed = true ∧ manualyNormalizeI dbl t low up up = 1 ∧
      manualyNormalizeI dbl t low up low = 0 ∧
      ∀ x, low < x → x - low < 2 ^ (t.bits - 1) → manualyNormalizeI dbl t low up x < 0) := by
  have hint : ∀ k : ℤ, |k| ≤ 2 ^ 53 → dbl (k : ℚ) = k := fun k hk => isRounding_dbl.int k hk
  have f0 : Fits t 0 := by unfold Fits; split_ifs <;> constructor <;> first | positivity | simp
  have one : dbl 1 = 1 := by simpa using hint 1 (by norm_num)
  have hsmall : ∀ k, Fits t k → dbl (k : ℚ) = k := by
    intro k hk
    apply hint
    have := fits_near hb hk f0
    rw [sub_zero] at this
    have h2 : (2 : ℤ) ^ t.bits ≤ 2 ^ 32 := pow_le_pow_right₀ (by norm_num) hb'
    linarith
  have hW : t.wrap (up - low) ≠ 0 := by
    intro h1
    have h2 := wrap_dvd t (up - low)
    rw [h1, zero_sub, dvd_neg] at h2
    exact h.ne' (fits_eq hb hu hl h2)
  have val : ∀ x, manualyNormalizeI dbl t low up x = dbl ((t.wrap (x - low) : ℚ) / (t.wrap (up - low) : ℚ)) := by
    intro x
    unfold manualyNormalizeI
    simp only [if_neg hW, mul_zero, add_zero]
    rw [hsmall _ (wrap_fits hb (up - low)), hsmall _ (wrap_fits hb (x - low)), hsmall _ (wrap_fits hb (up - low))]
  have hWQ : ((t.wrap (up - low) : ℤ) : ℚ) ≠ 0 := by exact_mod_cast hW
  have p2 := pow_bits hb
  refine ⟨?_, ?_, ?_⟩
  · intro hf x h1 h2
    have hfx : Fits t (x - low) := by
      unfold Fits at hf ⊢
      split_ifs at hf ⊢ with hs
      · have : (0 : ℤ) < 2 ^ (t.bits - 1) := by positivity
        constructor <;> linarith
      · constructor <;> linarith
    have e : manualyNormalizeI dbl t low up x = dbl (((x - low : ℤ) : ℚ) / ((up - low : ℤ) : ℚ)) := by
      rw [val, wrap_of_fits hb hf, wrap_of_fits hb hfx]
    have d0 : (0 : ℚ) < ((up - low : ℤ) : ℚ) := by exact_mod_cast (by linarith : 0 < up - low)
    have n0 : (0 : ℚ) ≤ ((x - low : ℤ) : ℚ) := by exact_mod_cast (by linarith : 0 ≤ x - low)
    have n1 : ((x - low : ℤ) : ℚ) ≤ ((up - low : ℤ) : ℚ) := by exact_mod_cast (by linarith : x - low ≤ up - low)
    refine ⟨e, ?_, ?_⟩
    · rw [e, ← dbl_zero]
      exact dbl_mono (div_nonneg n0 d0.le)
    · rw [e, ← one]
      exact dbl_mono ((div_le_one d0).2 n1)
  · intro hs x hx hlt
    rw [val]
    unfold Fits at hl hu hx
    rw [hs] at hl hu hx
    simp only [Bool.false_eq_true, if_false] at hl hu hx
    have e1 : t.wrap (up - low) = up - low := by
      apply wrap_of_fits hb
      unfold Fits
      rw [hs]
      exact ⟨by linarith, by linarith⟩
    have e2 : t.wrap (x - low) = 2 ^ t.bits + (x - low) := by
      apply wrap_eq hb
      · unfold Fits
        rw [hs]
        exact ⟨by linarith, by linarith⟩
      · exact ⟨1, by ring⟩
    rw [e1, e2, ← one]
    apply dbl_mono
    have d0 : (0 : ℚ) < ((up - low : ℤ) : ℚ) := by exact_mod_cast (by linarith : 0 < up - low)
    rw [one_le_div d0]
    exact_mod_cast (by linarith : up - low ≤ 2 ^ t.bits + (x - low))
  · intro hnf
    have hs : t.signed = true := by
      by_contra hs
      rw [Bool.not_eq_true] at hs
      unfold Fits at hl hu hnf
      rw [hs] at hl hu hnf
      simp only [Bool.false_eq_true, if_false] at hl hu hnf
      exact hnf ⟨by linarith, by linarith⟩
    have hl' := hl
    have hu' := hu
    unfold Fits at hl' hu' hnf
    rw [hs] at hl' hu' hnf
    simp only [if_true] at hl' hu' hnf
    have hp : (0 : ℤ) < 2 ^ (t.bits - 1) := by positivity
    have hbig : (2 : ℤ) ^ (t.bits - 1) ≤ up - low := by
      by_contra h1
      exact hnf ⟨by linarith, by linarith⟩
    have e1 : t.wrap (up - low) = up - low - 2 ^ t.bits := by
      apply wrap_eq hb
      · unfold Fits
        rw [hs]
        exact ⟨by linarith, by linarith⟩
      · exact ⟨-1, by ring⟩
    refine ⟨hs, by rw [val, div_self hWQ, one], ?_, ?_⟩
    · rw [val, sub_self, wrap_of_fits hb f0, Int.cast_zero, zero_div, dbl_zero]
    · intro x h1 h2
      have hfx : Fits t (x - low) := by
        unfold Fits
        rw [hs]
        exact ⟨by linarith, h2⟩
      rw [val, wrap_of_fits hb hfx, e1]
      have d0 : ((up - low - 2 ^ t.bits : ℤ) : ℚ) < 0 := by exact_mod_cast (by linarith : up - low - 2 ^ t.bits < 0)
      have n0 : (1 : ℚ) ≤ ((x - low : ℤ) : ℚ) := by exact_mod_cast (by linarith : 1 ≤ x - low)
      have dl : -(2 : ℚ) ^ 32 ≤ ((up - low - 2 ^ t.bits : ℤ) : ℚ) := by
        have h4 : (2 : ℤ) ^ t.bits ≤ 2 ^ 32 := pow_le_pow_right₀ (by norm_num) hb'
        have : -(2 : ℤ) ^ 32 ≤ up - low - 2 ^ t.bits := by linarith
        exact_mod_cast this
      have hq : ((x - low : ℤ) : ℚ) / ((up - low - 2 ^ t.bits : ℤ) : ℚ) ≤ -(1 / 2 ^ 32) := by
        rw [div_le_iff_of_neg d0]
        have h5 : -(1 / 2 ^ 32 : ℚ) * ((up - low - 2 ^ t.bits : ℤ) : ℚ) ≤ -(1 / 2 ^ 32) * -(2 ^ 32) :=
          mul_le_mul_of_nonpos_left dl (by norm_num)
        have h6 : -(1 / 2 ^ 32 : ℚ) * -(2 ^ 32) = 1 := by norm_num
        linarith
      have h7 : dbl (-(1 / 2 ^ 32)) = -(1 / 2 ^ 32) := by
        apply dbl_of_double
        exact ⟨-1, -32, by norm_num, by norm_num, by norm_num⟩
      have := dbl_mono hq
      rw [h7] at this
      refine this.trans_lt (by norm_num)

/-- **C230.** When both bounds are equal, normalisation of integers of at most 32 bits only subtracts them. -/
theorem C230_equal {t : IntTy} (hb : 1 ≤ t.bits) (hb' : t.bits ≤ 32) (low x : ℤ) :
    ∃ w : ℤ, manualyNormalizeI dbl t low low x = w ∧ Fits t w ∧ (2 : ℤ) ^ t.bits ∣ w - (x - low) := by
  have hint : ∀ k : ℤ, |k| ≤ 2 ^ 53 → dbl (k : ℚ) = k := fun k hk => isRounding_dbl.int k hk
  have f0 : Fits t 0 := by unfold Fits; split_ifs <;> constructor <;> first | positivity | simp
  have one : dbl 1 = 1 := by simpa using hint 1 (by norm_num)
  have hsmall : dbl ((t.wrap (x - low) : ℤ) : ℚ) = (t.wrap (x - low) : ℤ) := by
    apply hint
    have := fits_near hb (wrap_fits hb (x - low)) f0
    rw [sub_zero] at this
    have h2 : (2 : ℤ) ^ t.bits ≤ 2 ^ 32 := pow_le_pow_right₀ (by norm_num) hb'
    linarith
  refine ⟨t.wrap (x - low), ?_, wrap_fits hb _, wrap_dvd _ _⟩
  unfold manualyNormalizeI
  simp only [sub_self, wrap_of_fits hb f0, Int.cast_zero, dbl_zero, if_true, mul_one, zero_add, one, div_one, hsmall]

/-- `uint8`: the constant column 100 becomes 14 in python 2; positions 5, 3 have velocities 254 and 2, and delayed ones
with zeros 5 and -2.  `int8`: from -100 to 100, the value 0 becomes -100 / 56. -/
example : (∃ y, filterContA false dbl (ofInts ⟨false, 8⟩ ([![100], ![100]] : List (Fin 1 → ℤ))) = .ok y ∧
      y.ty = .int ⟨false, 8⟩ ∧ y.rows = [![14], ![14]]) ∧
    (∃ y, velocitiesA dbl (ofInts ⟨false, 8⟩ ([![5], ![3]] : List (Fin 1 → ℤ))) = .ok y ∧ y.rows = [![254], ![2]]) ∧
    (∃ y, delayedVelocitiesA dbl 1 (ofInts ⟨false, 8⟩ ([![5], ![3]] : List (Fin 1 → ℤ))) "zeros" = .ok y ∧
      y.ty = .float ∧ y.rows = [![5], ![-2]]) ∧
    (∃ y, delayedVelocitiesA dbl 1 (ofInts ⟨false, 8⟩ ([![5], ![3]] : List (Fin 1 → ℤ))) "circular" = .ok y ∧
      y.ty = .int ⟨false, 8⟩ ∧ y.rows = [![2], ![254]]) ∧
    manualyNormalizeI dbl ⟨true, 8⟩ (-100) 100 0 = dbl (-100 / 56) ∧ ¬ Fits ⟨true, 8⟩ (100 - -100) ∧
    Fits ⟨false, 8⟩ 80 ∧ Fits ⟨false, 8⟩ (3 * 80) ∧ ¬ Fits ⟨false, 8⟩ (3 * 100) := by
  refine ⟨⟨_, rfl, rfl, by decide +kernel⟩, ⟨_, rfl, by decide +kernel⟩, ⟨_, rfl, rfl, by decide +kernel⟩,
    ⟨_, rfl, rfl, by decide +kernel⟩, by decide +kernel, by decide, by decide, by decide, by decide⟩

end Verif.Utils
