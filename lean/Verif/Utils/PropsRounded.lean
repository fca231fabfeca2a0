import Verif.Utils.PropsSplits

/-!
# Property C225: filters, velocities and normalisation with doubles
-/

namespace Verif.Utils

open Verif Verif.Window

set_option exponentiation.threshold 2000

/-! ## Continuity filter -/

theorem filterContR_rows (fl : ℚ → ℚ) {d : ℕ} (data : List (Fin d → ℚ)) (hne : data ≠ []) :
    ∃ r, filterContR fl data = .ok r ∧ r.length = data.length ∧
      ∀ (i : ℕ) (hi : i < data.length), r[i]? = some (fun j =>
        fl (fl (fl (data[i] j + data.getD (i - 1) 0 j) + data.getD (min (i + 1) (data.length - 1)) 0 j) / 3)) := by
  have hpos : 0 < data.length := List.length_pos_iff.mpr hne
  have hfirst : pyGet data 0 = .ok data[0] := pyGet_nat data 0 hpos
  have hlast : pyGet data (-1) = .ok (data[data.length - 1]) := by
    unfold pyGet
    rw [if_pos (by omega), if_neg (by omega)]
    have e : ((-1 : ℤ) + data.length).toNat = data.length - 1 := by omega
    rw [e, List.getElem?_eq_getElem (by omega)]
  unfold filterContR
  rw [hfirst, hlast]
  simp only [bind, Except.bind, pure, Except.pure]
  set l1 : List (Fin d → ℚ) := [data[0]] ++ data ++ [data[data.length - 1]] with hl1
  have hlen1 : l1.length = data.length + 2 := by simp [hl1]
  have h2 : pyUpto l1 (-2) = l1.take data.length := by
    unfold pyUpto
    have := pyBound_neg (n := l1.length) (i := 2) (by omega) (by omega)
    push_cast at this
    rw [this, hlen1]
    rfl
  have h3 : pyFrom l1 2 = l1.drop 2 := pyFrom_nat l1 2
  have h1 : pySlice l1 1 (-1) = data := by
    unfold pySlice
    have e1 := pyBound_neg (n := l1.length) (i := 1) (by omega) (by omega)
    push_cast at e1
    have e2 : pyBound l1.length 1 = 1 := by
      rw [pyBound_nonneg (by omega)]; simp [hlen1]
    rw [e1, e2, hlen1, hl1]
    simp
  rw [h2, h3, h1]
  have hg : ∀ k : ℕ, k < data.length + 2 → l1[k]? =
      some (data.getD (min (k - 1) (data.length - 1)) 0) := by
    intro k hk
    rw [hl1, List.append_assoc, List.getElem?_append]
    simp only [List.length_singleton]
    by_cases hk0 : k < 1
    · have : k = 0 := by omega
      subst this
      rw [if_pos (by omega)]
      simp [List.getD_eq_getElem?_getD, hpos]
    · rw [if_neg hk0, List.getElem?_append]
      by_cases hk1 : k - 1 < data.length
      · rw [if_pos hk1, min_eq_left (by omega), List.getD_eq_getElem?_getD,
          List.getElem?_eq_getElem hk1]
        rfl
      · have : k - 1 = data.length := by omega
        have hd : data[data.length - 1]? = some data[data.length - 1] :=
          List.getElem?_eq_getElem (by omega)
        rw [if_neg hk1, this, min_eq_right (by omega), List.getD_eq_getElem?_getD, hd]
        simp only [Nat.sub_self, List.getElem?_cons_zero, Option.getD_some]
  refine ⟨_, rfl, ?_, ?_⟩
  · simp only [List.length_zipWith, List.length_take, List.length_drop, hlen1]
    omega
  · intro i hi
    rw [List.getElem?_zipWith, List.getElem?_zipWith, List.getElem?_take, if_pos hi,
      List.getElem?_drop, hg i (by omega), hg (2 + i) (by omega), List.getElem?_eq_getElem hi]
    have e1 : min (i - 1) (data.length - 1) = i - 1 := by omega
    have e2 : min (2 + i - 1) (data.length - 1) = min (i + 1) (data.length - 1) := by omega
    rw [e1, e2]

theorem mean_near {fl : ℚ → ℚ} (h : IsRounding fl) {M a b c : ℚ} (ha : |a| ≤ M) (hb : |b| ≤ M) (hc : |c| ≤ M) :
    |fl (fl (fl (a + b) + c) / 3) - (b + a + c) / 3| ≤ 3 * M / 2 ^ 53 + 1 / 2 ^ 1074 := by
  have hM : 0 ≤ M := (abs_nonneg a).trans ha
  set u : ℚ := 1 / 2 ^ 53 with hu
  set t : ℚ := 1 / 2 ^ 1075 with ht
  have hu0 : 0 ≤ u := by positivity
  have ht0 : 0 ≤ t := by positivity
  have hu1 : u ≤ 1 / 100 := by rw [hu]; norm_num
  have near : ∀ x, |fl x - x| ≤ |x| * u + t := fun x => by
    have := h.near x
    rw [hu, ht, mul_one_div]; exact this
  have e5 : 3 * M / 2 ^ 53 = 3 * (M * u) := by rw [hu]; ring
  have e6 : (1 : ℚ) / 2 ^ 1074 = 2 * t := by rw [ht]; norm_num
  rw [e5, e6]
  clear e5 e6
  clear_value u t
  clear hu ht
  have s1 : |a + b| ≤ 2 * M := (abs_add_le a b).trans (by linarith)
  have n1 : |fl (a + b) - (a + b)| ≤ 2 * M * u + t :=
    (near _).trans (by linarith [mul_le_mul_of_nonneg_right s1 hu0])
  have s2 : |fl (a + b) + c| ≤ 3 * M + 2 * M * u + t := by
    have e : fl (a + b) + c = (fl (a + b) - (a + b)) + ((a + b) + c) := by ring
    rw [e]
    have := abs_add_le (fl (a + b) - (a + b)) ((a + b) + c)
    have := abs_add_le (a + b) c
    linarith
  have n2 : |fl (fl (a + b) + c) - (fl (a + b) + c)| ≤ (3 * M + 2 * M * u + t) * u + t :=
    (near _).trans (by linarith [mul_le_mul_of_nonneg_right s2 hu0])
  have hMu : 0 ≤ M * u := mul_nonneg hM hu0
  have htu : 0 ≤ t * u := mul_nonneg ht0 hu0
  have hMuu : M * u * u ≤ M * u * (1 / 100) := mul_le_mul_of_nonneg_left hu1 hMu
  have htu' : t * u ≤ t * (1 / 100) := mul_le_mul_of_nonneg_left hu1 ht0
  have d2 : |fl (fl (a + b) + c) - (a + b + c)| ≤ 51 / 10 * (M * u) + 21 / 10 * t := by
    have e : fl (fl (a + b) + c) - (a + b + c) =
        (fl (fl (a + b) + c) - (fl (a + b) + c)) + (fl (a + b) - (a + b)) := by ring
    rw [e]
    have := abs_add_le (fl (fl (a + b) + c) - (fl (a + b) + c)) (fl (a + b) - (a + b))
    have e3 : (3 * M + 2 * M * u + t) * u = 3 * (M * u) + 2 * (M * u * u) + t * u := by ring
    rw [e3] at n2
    linarith only [this, n1, n2, hMuu, htu', hMu, ht0]
  have hs : |a + b + c| ≤ 3 * M := by
    have := abs_add_le (a + b) c
    linarith
  have s3 : |fl (fl (a + b) + c) / 3| ≤ M + 17 / 10 * (M * u) + 7 / 10 * t := by
    rw [abs_div, abs_of_pos (by norm_num : (0 : ℚ) < 3), div_le_iff₀ (by norm_num)]
    have e : fl (fl (a + b) + c) = (fl (fl (a + b) + c) - (a + b + c)) + (a + b + c) := by ring
    rw [e]
    have := abs_add_le (fl (fl (a + b) + c) - (a + b + c)) (a + b + c)
    linarith
  have n3 := (near (fl (fl (a + b) + c) / 3)).trans
    (add_le_add_left (mul_le_mul_of_nonneg_right s3 hu0) t)
  have d3 : |fl (fl (a + b) + c) / 3 - (b + a + c) / 3| ≤ 17 / 10 * (M * u) + 7 / 10 * t := by
    have e : fl (fl (a + b) + c) / 3 - (b + a + c) / 3 = (fl (fl (a + b) + c) - (a + b + c)) / 3 := by ring
    rw [e, abs_div, abs_of_pos (by norm_num : (0 : ℚ) < 3), div_le_iff₀ (by norm_num)]
    linarith
  have e : fl (fl (fl (a + b) + c) / 3) - (b + a + c) / 3 =
      (fl (fl (fl (a + b) + c) / 3) - fl (fl (a + b) + c) / 3) + (fl (fl (a + b) + c) / 3 - (b + a + c) / 3) := by ring
  rw [e]
  have f := abs_add_le (fl (fl (fl (a + b) + c) / 3) - fl (fl (a + b) + c) / 3)
    (fl (fl (a + b) + c) / 3 - (b + a + c) / 3)
  have e4 : (M + 17 / 10 * (M * u) + 7 / 10 * t) * u = M * u + 17 / 10 * (M * u * u) + 7 / 10 * (t * u) := by ring
  rw [e4] at n3
  linarith

/-- **C225.** The continuity filter with any rounding to nearest: the array must not be empty; each value differs from the
mean of C26 by at most `3 / 2 ^ 53` times the largest magnitude of the column plus `2 ^ -1074`; on integers up to
`2 ^ 51` the filter stays between bounds which are floats, so that constant columns of integers do not change; and
values which are not negative stay so. -/
theorem C225_filter {fl : ℚ → ℚ} (h : IsRounding fl) {d : ℕ} (data : List (Fin d → ℚ)) :
    (data = [] → filterContR fl data = .error .indexError) ∧
    (data ≠ [] → ∃ r, filterContR fl data = .ok r ∧ r.length = data.length ∧
      (∀ (j : Fin d) (M : ℚ), (∀ row ∈ data, |row j| ≤ M) → ∀ (i : ℕ) (hi : i < data.length), ∃ row, r[i]? = some row ∧
        |row j - (data.getD (i - 1) 0 j + data[i] j + data.getD (min (i + 1) (data.length - 1)) 0 j) / 3| ≤
          3 * M / 2 ^ 53 + 1 / 2 ^ 1074) ∧
      (∀ (j : Fin d) (lo hi : ℚ), fl lo = lo → fl hi = hi →
        (∀ row ∈ data, lo ≤ row j ∧ row j ≤ hi ∧ ∃ z : ℤ, row j = z ∧ |z| ≤ 2 ^ 51) →
        ∀ row ∈ r, lo ≤ row j ∧ row j ≤ hi) ∧
      (∀ j : Fin d, (∀ row ∈ data, 0 ≤ row j) → ∀ row ∈ r, 0 ≤ row j)) := by
  constructor
  · rintro rfl; rfl
  intro hne
  obtain ⟨r, hr, hl, hrow⟩ := filterContR_rows fl data hne
  have hmem : ∀ (P : (Fin d → ℚ) → Prop), (∀ row ∈ data, P row) → ∀ k, k < data.length → P (data.getD k 0) := by
    intro P hP k hk
    rw [List.getD_eq_getElem?_getD, List.getElem?_eq_getElem hk]
    exact hP _ (List.getElem_mem hk)
  have hof : ∀ row ∈ r, ∃ (i : ℕ) (hi : i < data.length), row = fun j =>
        fl (fl (fl (data[i] j + data.getD (i - 1) 0 j) + data.getD (min (i + 1) (data.length - 1)) 0 j) / 3) := by
    intro row hm
    obtain ⟨i, hi', rfl⟩ := List.getElem_of_mem hm
    have hi : i < data.length := by rw [← hl]; exact hi'
    have := hrow i hi
    rw [List.getElem?_eq_getElem hi', Option.some.injEq] at this
    exact ⟨i, hi, this⟩
  refine ⟨r, hr, hl, ?_, ?_, ?_⟩
  · intro j M hM i hi
    refine ⟨_, hrow i hi, ?_⟩
    exact mean_near h (hM _ (List.getElem_mem hi)) (hmem (fun row => |row j| ≤ M) hM (i - 1) (by omega))
      (hmem (fun row => |row j| ≤ M) hM (min (i + 1) (data.length - 1)) (by omega))
  · intro j lo up hlo hup hb row hm
    obtain ⟨i, hi, rfl⟩ := hof row hm
    obtain ⟨a1, a2, za, ea, ha⟩ := hb _ (List.getElem_mem hi)
    obtain ⟨b1, b2, zb, eb, hb'⟩ := hmem (fun row => lo ≤ row j ∧ row j ≤ up ∧ ∃ z : ℤ, row j = z ∧ |z| ≤ 2 ^ 51) hb
      (i - 1) (by omega)
    obtain ⟨c1, c2, zc, ec, hc⟩ := hmem (fun row => lo ≤ row j ∧ row j ≤ up ∧ ∃ z : ℤ, row j = z ∧ |z| ≤ 2 ^ 51) hb
      (min (i + 1) (data.length - 1)) (by omega)
    dsimp only
    rw [ea] at a1 a2
    rw [eb] at b1 b2
    rw [ec] at c1 c2
    rw [ea, eb, ec]
    have x1 : fl ((za : ℚ) + zb) = za + zb := by
      have := h.int (za + zb) (by rw [abs_le] at ha hb' ⊢; constructor <;> omega)
      push_cast at this; exact this
    have x2 : fl ((za : ℚ) + zb + zc) = za + zb + zc := by
      have := h.int (za + zb + zc) (by rw [abs_le] at ha hb' hc ⊢; constructor <;> omega)
      push_cast at this; exact this
    rw [x1, x2]
    constructor
    · rw [← hlo]
      exact h.mono _ _ (by rw [le_div_iff₀ (by norm_num)]; linarith only [a1, b1, c1])
    · rw [← hup]
      exact h.mono _ _ (by rw [div_le_iff₀ (by norm_num)]; linarith only [a2, b2, c2])
  · intro j hb row hm
    obtain ⟨i, hi, rfl⟩ := hof row hm
    have a := hb _ (List.getElem_mem hi)
    have b := hmem (fun row => 0 ≤ row j) hb (i - 1) (by omega)
    have c := hmem (fun row => 0 ≤ row j) hb (min (i + 1) (data.length - 1)) (by omega)
    exact fl_nonneg h (div_nonneg (fl_nonneg h (add_nonneg (fl_nonneg h (add_nonneg a b)) c)) (by norm_num))

/-- **C225.** With doubles the filter changes constant columns: it sends the constant 0.1 to a larger value and the constant
0.7 to a smaller one, so that the bounds of C26 are not kept. -/
theorem C225_constants (n : ℕ) :
    (∃ r, filterContR dbl (List.replicate (n + 1) (![dbl (1 / 10)] : Fin 1 → ℚ)) = .ok r ∧ r.length = n + 1 ∧
      ∀ row ∈ r, dbl (1 / 10) < row 0) ∧
    (∃ r, filterContR dbl (List.replicate (n + 1) (![dbl (7 / 10)] : Fin 1 → ℚ)) = .ok r ∧ r.length = n + 1 ∧
      ∀ row ∈ r, row 0 < dbl (7 / 10)) := by
  have key : ∀ c : ℚ, ∃ r, filterContR dbl (List.replicate (n + 1) (![c] : Fin 1 → ℚ)) = .ok r ∧ r.length = n + 1 ∧
      ∀ row ∈ r, row 0 = dbl (dbl (dbl (c + c) + c) / 3) := by
    intro c
    obtain ⟨r, hr, hl, hrow⟩ := filterContR_rows dbl (List.replicate (n + 1) (![c] : Fin 1 → ℚ)) (by simp)
    rw [List.length_replicate] at hl
    refine ⟨r, hr, hl, fun row hm => ?_⟩
    obtain ⟨i, hi', rfl⟩ := List.getElem_of_mem hm
    have hi : i < n + 1 := by rw [← hl]; exact hi'
    have e := hrow i (by rw [List.length_replicate]; exact hi)
    rw [List.getElem?_eq_getElem hi', Option.some.injEq] at e
    rw [e]
    have hg : ∀ k, k < n + 1 → (List.replicate (n + 1) (![c] : Fin 1 → ℚ)).getD k 0 = ![c] := by
      intro k hk
      rw [List.getD_eq_getElem?_getD, List.getElem?_replicate, if_pos hk]
      rfl
    rw [hg (i - 1) (by omega), hg (min (i + 1) _) (by rw [List.length_replicate]; omega), List.getElem_replicate]
    rfl
  constructor
  · obtain ⟨r, h1, h2, h3⟩ := key (dbl (1 / 10))
    refine ⟨r, h1, h2, fun row hm => ?_⟩
    rw [h3 row hm]
    decide +kernel
  · obtain ⟨r, h1, h2, h3⟩ := key (dbl (7 / 10))
    refine ⟨r, h1, h2, fun row hm => ?_⟩
    rw [h3 row hm]
    decide +kernel

example : filterContR dbl ([![3], ![6], ![0]] : List (Fin 1 → ℚ)) = .ok [![4], ![3], ![2]] := by
  decide +kernel

/-! ## Velocities -/

theorem subRowsR_eq (fl : ℚ → ℚ) {d : ℕ} (a b : List (Fin d → ℚ)) :
    subRowsR fl a b = (subRows a b).map fun r => r.map fun row j => fl (row j) := by
  unfold subRowsR subRows
  by_cases h : a.length = b.length
  · simp only [if_pos h, Except.map]
    congr 1
    rw [List.map_zipWith]
    rfl
  · simp only [if_neg h]
    rcases a with _ | ⟨x, _ | ⟨x', a⟩⟩ <;> rcases b with _ | ⟨y, _ | ⟨y', b⟩⟩ <;> first | rfl | exact absurd rfl h | skip
    all_goals (simp only [Except.map, List.map_map]; rfl)

/-- **C225.** With rounded operations velocities and delayed velocities fail in the same cases as without, and otherwise are
the rounded values of C25 and C26. -/
theorem C225_velocities (fl : ℚ → ℚ) {d : ℕ} (positions : List (Fin d → ℚ)) (delay : ℤ) (padding : String) :
    velocitiesR fl positions = (velocities positions).map (fun r => r.map fun row j => fl (row j)) ∧
    delayedVelocitiesR fl delay positions padding =
      (delayedVelocities delay positions padding).map (fun r => r.map fun row j => fl (row j)) := by
  constructor
  · unfold velocitiesR velocities
    cases pyGet positions 0 with
    | error e => rfl
    | ok x => simp only [bind, Except.bind]; exact subRowsR_eq fl _ _
  · unfold delayedVelocitiesR delayedVelocities
    simp only []
    split_ifs <;> first | exact subRowsR_eq fl _ _ | rfl

/-- The difference of different doubles is at least the smallest double. -/
theorem sub_ge {x y : ℚ} (hx : Double x) (hy : Double y) (h : y < x) : 1 / 2 ^ 1074 ≤ x - y := by
  obtain ⟨m, e, -, he, rfl⟩ := hx
  obtain ⟨m', e', -, he', rfl⟩ := hy
  obtain ⟨p, hp⟩ := multiple_of_le (m := m) he
  obtain ⟨p', hp'⟩ := multiple_of_le (m := m') he'
  rw [hp, hp'] at h ⊢
  have hz : (0 : ℚ) < 2 ^ (-1074 : ℤ) := two_zpow_pos _
  have hlt : p' < p := by
    have := (mul_lt_mul_iff_left₀ hz).mp h
    exact_mod_cast this
  have h1 : (1 : ℚ) ≤ p - p' := by
    have : p' + 1 ≤ p := hlt
    have : ((p' + 1 : ℤ) : ℚ) ≤ p := by exact_mod_cast this
    push_cast at this
    linarith
  have e : (1 : ℚ) / 2 ^ 1074 = 2 ^ (-1074 : ℤ) := by
    rw [zpow_neg, one_div]; norm_cast
  rw [e, ← sub_mul]
  nlinarith

theorem dbl_tiny : dbl (1 / 2 ^ 1074) = 1 / 2 ^ 1074 := by
  apply dbl_of_double
  refine ⟨1, -1074, by norm_num, le_refl _, ?_⟩
  rw [zpow_neg, one_div]; norm_cast; simp

/-- **C225.** The difference of doubles has the sign of the exact difference: a velocity is zero only between equal
positions. -/
theorem C225_sign {x y : ℚ} (hx : Double x) (hy : Double y) :
    (0 < dbl (x - y) ↔ y < x) ∧ (dbl (x - y) = 0 ↔ x = y) ∧ (dbl (x - y) < 0 ↔ x < y) := by
  have pos : ∀ {x y : ℚ}, Double x → Double y → y < x → 0 < dbl (x - y) := by
    intro x y hx hy h
    have := dbl_mono (sub_ge hx hy h)
    rw [dbl_tiny] at this
    exact lt_of_lt_of_le (by positivity) this
  have neg : x < y → dbl (x - y) < 0 := by
    intro h
    have := pos hy hx h
    have e : x - y = -(y - x) := by ring
    rw [e, dbl_neg]
    linarith
  rcases lt_trichotomy x y with h | h | h
  · have n := neg h
    exact ⟨⟨fun p => absurd p (by linarith), fun p => absurd p (by linarith)⟩,
      ⟨fun p => absurd p n.ne, fun p => absurd p h.ne⟩, ⟨fun _ => h, fun _ => n⟩⟩
  · have e : dbl (x - y) = 0 := by rw [h, sub_self, dbl_zero]
    rw [e]
    exact ⟨⟨fun p => absurd p (lt_irrefl _), fun p => absurd p (by linarith)⟩,
      ⟨fun _ => h, fun _ => rfl⟩, ⟨fun p => absurd p (lt_irrefl _), fun p => absurd p (by linarith)⟩⟩
  · have p := pos hx hy h
    exact ⟨⟨fun _ => h, fun _ => p⟩, ⟨fun q => absurd q p.ne', fun q => absurd q h.ne'⟩,
      ⟨fun q => absurd q (by linarith), fun q => absurd q (by linarith)⟩⟩

/-- **C225.** With doubles velocities do not always sum to zero. -/
theorem C225_cycle : ∃ r, velocitiesR dbl ([![0], ![dbl (1 / 10)], ![1]] : List (Fin 1 → ℚ)) = .ok r ∧
    (r.map fun row => row 0).sum ≠ 0 := by
  have h : ((velocitiesR dbl ([![0], ![dbl (1 / 10)], ![1]] : List (Fin 1 → ℚ))).toOption.map fun r =>
      decide ((r.map fun row => row 0).sum ≠ 0)) = some true := by decide +kernel
  cases e : velocitiesR dbl ([![0], ![dbl (1 / 10)], ![1]] : List (Fin 1 → ℚ)) with
  | error x => rw [e] at h; simp [Except.toOption] at h
  | ok r =>
    rw [e] at h
    simp only [Except.toOption, Option.map_some, Option.some.injEq, decide_eq_true_eq] at h
    exact ⟨r, rfl, h⟩

/-! ## Normalisation -/

/-- **C225.** Normalisation with doubles: the divisor is never zero; on `low < up` the function is increasing, sends `low`
to 0, `up` to 1 and `[low, up]` into `[0, 1]`, exactly; when both bounds are equal it only subtracts `low`. -/
theorem C225_normalize {low up : ℚ} (hl : Double low) (hu : Double up) :
    (low < up → manualyNormalizeR dbl low up low = 0 ∧ manualyNormalizeR dbl low up up = 1 ∧
      (∀ x y, x ≤ y → manualyNormalizeR dbl low up x ≤ manualyNormalizeR dbl low up y) ∧
      (∀ x, low ≤ x → x ≤ up → 0 ≤ manualyNormalizeR dbl low up x ∧ manualyNormalizeR dbl low up x ≤ 1) ∧
      (∀ x, manualyNormalizeR dbl low up x = dbl (dbl (x - low) / dbl (up - low)) ∧ 0 < dbl (up - low))) ∧
    (low = up → ∀ x, manualyNormalizeR dbl low up x = dbl (x - low)) := by
  have one : dbl 1 = 1 := by
    have := isRounding_dbl.int 1 (by norm_num)
    simpa using this
  constructor
  · intro h
    have hw : 0 < dbl (up - low) := (C225_sign hu hl).1.mpr h
    have e : ∀ x, manualyNormalizeR dbl low up x = dbl (dbl (x - low) / dbl (up - low)) := by
      intro x
      unfold manualyNormalizeR
      simp only [if_neg hw.ne', mul_zero, add_zero]
      rw [isRounding_dbl.idem]
    have mono : ∀ x y, x ≤ y → manualyNormalizeR dbl low up x ≤ manualyNormalizeR dbl low up y := by
      intro x y hxy
      rw [e, e]
      apply dbl_mono
      have : dbl (x - low) ≤ dbl (y - low) := dbl_mono (by linarith)
      gcongr
    have z : manualyNormalizeR dbl low up low = 0 := by
      rw [e, sub_self, dbl_zero, zero_div, dbl_zero]
    have o : manualyNormalizeR dbl low up up = 1 := by
      rw [e, div_self hw.ne', one]
    refine ⟨z, o, mono, fun x h1 h2 => ⟨?_, ?_⟩, fun x => ⟨e x, hw⟩⟩
    · rw [← z]; exact mono _ _ h1
    · rw [← o]; exact mono _ _ h2
  · rintro rfl x
    unfold manualyNormalizeR
    simp only [sub_self, dbl_zero, if_true, mul_one, zero_add, one, div_one]
    exact isRounding_dbl.idem _

example : manualyNormalizeR dbl 1 5 2 = 1 / 4 ∧ manualyNormalizeR dbl 3 3 2 = -1 ∧
    manualyNormalizeR dbl 0 3 1 = dbl (1 / 3) ∧ dbl (1 / 3) ≠ 1 / 3 := by
  decide +kernel

example : velocitiesR dbl ([![1], ![4], ![0]] : List (Fin 1 → ℚ)) = .ok [![3], ![-4], ![1]] ∧
    delayedVelocitiesR dbl 1 ([![1], ![4], ![0]] : List (Fin 1 → ℚ)) "zeros" = .ok [![1], ![3], ![-4]] ∧
    delayedVelocitiesR dbl 0 ([![1], ![4], ![0]] : List (Fin 1 → ℚ)) "zeros" = .error .valueError := by
  decide +kernel

end Verif.Utils
