import Verif.NMF.Double
import Mathlib.Algebra.Order.Archimedean.Basic
import Mathlib.Tactic.Positivity
import Mathlib.Tactic.GCongr

/-!
# The factorization with doubles: bounds
-/

set_option exponentiation.threshold 2000

namespace Verif.NMF.D

open Verif.Window

/-- Doubles: operations are rounded to the nearest double, and logarithms of positive doubles are doubles of small absolute
value (logarithms of positive doubles are between -745 and 710). -/
structure IsDouble (A : Arith) : Prop where
  fin : A.fin = finite
  lg : ∀ y, Double y → 0 < y → y < 2 ^ 1024 → ∃ l, A.lg y = some l ∧ Double l ∧ |l| ≤ 1024

/-- Multiples of powers of two are doubles. -/
theorem double_mul {n : ℕ} {p : ℤ} (hn : n ≤ 2 ^ 53) (hp : -1074 ≤ p) : Double ((n : ℚ) * 2 ^ p) :=
  ⟨n, p, by
    rw [abs_of_nonneg (by positivity)]
    exact_mod_cast hn, hp, by push_cast; ring⟩

theorem double_pow (e : ℕ) : Double ((2 : ℚ) ^ e) := by
  have := double_mul (n := 1) (p := e) (by norm_num) (by omega)
  simpa using this

theorem double_one : Double 1 := by simpa using double_pow 0

theorem double_zero : Double 0 := ⟨0, 0, by norm_num, by norm_num, by norm_num⟩

theorem dbl_le {x B : ℚ} (hB : Double B) (h : x ≤ B) : dbl x ≤ B := by
  have := dbl_mono h
  rwa [dbl_of_double hB] at this

theorem le_dbl {x B : ℚ} (hB : Double B) (h : B ≤ x) : B ≤ dbl x := by
  have := dbl_mono h
  rwa [dbl_of_double hB] at this

theorem abs_dbl_le {x B : ℚ} (hB : Double B) (h : |x| ≤ B) : |dbl x| ≤ B := by
  rw [abs_le] at h ⊢
  refine ⟨?_, dbl_le hB h.2⟩
  have := dbl_le hB (show -x ≤ B by linarith [h.1])
  rw [dbl_neg] at this
  linarith

/-- The result of an operation is finite when its exact value is at most a double. -/
theorem finite_some {x B : ℚ} (hB : Double B) (h : |x| ≤ B) (hlt : B < 2 ^ 1024) : finite x = some (dbl x) := by
  unfold finite
  rw [if_pos (lt_of_le_of_lt (abs_dbl_le hB h) hlt)]

theorem finite_double {x : ℚ} (hx : Double x) (hlt : |x| < 2 ^ 1024) : finite x = some x := by
  unfold finite
  rw [dbl_of_double hx, if_pos hlt]

/-- A double of absolute value at most `B`. -/
def Bd (a : Num) (B : ℚ) : Prop := ∃ x, a = some x ∧ Double x ∧ |x| ≤ B

/-- A double between zero and `B`. -/
def Nn (a : Num) (B : ℚ) : Prop := ∃ x, a = some x ∧ Double x ∧ 0 ≤ x ∧ x ≤ B

theorem Nn.bd {a : Num} {B : ℚ} (h : Nn a B) : Bd a B := by
  obtain ⟨x, rfl, hx, h0, h1⟩ := h
  exact ⟨x, rfl, hx, by rwa [abs_of_nonneg h0]⟩

theorem Nn.mono {a : Num} {B C : ℚ} (h : Nn a B) (hc : B ≤ C) : Nn a C := by
  obtain ⟨x, rfl, hx, h0, h1⟩ := h
  exact ⟨x, rfl, hx, h0, h1.trans hc⟩

theorem Bd.mono {a : Num} {B C : ℚ} (h : Bd a B) (hc : B ≤ C) : Bd a C := by
  obtain ⟨x, rfl, hx, h1⟩ := h
  exact ⟨x, rfl, hx, h1.trans hc⟩

theorem finite_bd {x B : ℚ} (hB : Double B) (h : |x| ≤ B) (hlt : B < 2 ^ 1024) : Bd (finite x) B :=
  ⟨dbl x, finite_some hB h hlt, dbl_double x, abs_dbl_le hB h⟩

theorem finite_nn {x B : ℚ} (hB : Double B) (h0 : 0 ≤ x) (h : x ≤ B) (hlt : B < 2 ^ 1024) : Nn (finite x) B :=
  ⟨dbl x, finite_some hB (by rwa [abs_of_nonneg h0]) hlt, dbl_double x, dbl_nonneg h0, dbl_le hB h⟩

variable {A : Arith} {o : Order}

theorem add_bd (hA : A.fin = finite) {a b : Num} {B C D : ℚ} (ha : Bd a B) (hb : Bd b C) (hs : B + C ≤ D) (hD : Double D)
    (hlt : D < 2 ^ 1024) : Bd (add A a b) D := by
  obtain ⟨x, rfl, hx, h1⟩ := ha
  obtain ⟨y, rfl, hy, h2⟩ := hb
  show Bd (A.fin (x + y)) D
  rw [hA]
  exact finite_bd hD ((abs_add_le x y).trans (by linarith)) hlt

theorem sub_bd (hA : A.fin = finite) {a b : Num} {B C D : ℚ} (ha : Bd a B) (hb : Bd b C) (hs : B + C ≤ D) (hD : Double D)
    (hlt : D < 2 ^ 1024) : Bd (sub A a b) D := by
  obtain ⟨x, rfl, hx, h1⟩ := ha
  obtain ⟨y, rfl, hy, h2⟩ := hb
  show Bd (A.fin (x - y)) D
  rw [hA]
  refine finite_bd hD ?_ hlt
  have := abs_sub x y
  linarith

theorem times_bd (hA : A.fin = finite) {a b : Num} {B C D : ℚ} (ha : Bd a B) (hb : Bd b C) (hs : B * C ≤ D) (hD : Double D)
    (hlt : D < 2 ^ 1024) : Bd (times A a b) D := by
  obtain ⟨x, rfl, hx, h1⟩ := ha
  obtain ⟨y, rfl, hy, h2⟩ := hb
  show Bd (A.fin (x * y)) D
  rw [hA]
  refine finite_bd hD ?_ hlt
  rw [abs_mul]
  exact (mul_le_mul h1 h2 (abs_nonneg y) ((abs_nonneg x).trans h1)).trans hs

theorem add_nn (hA : A.fin = finite) {a b : Num} {B C D : ℚ} (ha : Nn a B) (hb : Nn b C) (hs : B + C ≤ D) (hD : Double D)
    (hlt : D < 2 ^ 1024) : Nn (add A a b) D := by
  obtain ⟨x, rfl, hx, h0, h1⟩ := ha
  obtain ⟨y, rfl, hy, h2, h3⟩ := hb
  show Nn (A.fin (x + y)) D
  rw [hA]
  exact finite_nn hD (by linarith) (by linarith) hlt

theorem times_nn (hA : A.fin = finite) {a b : Num} {B C D : ℚ} (ha : Nn a B) (hb : Nn b C) (hs : B * C ≤ D) (hD : Double D)
    (hlt : D < 2 ^ 1024) : Nn (times A a b) D := by
  obtain ⟨x, rfl, hx, h0, h1⟩ := ha
  obtain ⟨y, rfl, hy, h2, h3⟩ := hb
  show Nn (A.fin (x * y)) D
  rw [hA]
  exact finite_nn hD (mul_nonneg h0 h2) ((mul_le_mul h1 h3 h2 (h0.trans h1)).trans hs) hlt

/-! ### Sums -/

/-- Sums of products which are at most a power of two: no error accumulates in the bound. -/
theorem eval_bd (hA : A.fin = finite) {a b : ℕ → Num} {p : ℤ} (hp : -1074 ≤ p) : ∀ (t : Plan),
    (∀ k ∈ t.leaves, ∃ x y, a k = some x ∧ b k = some y ∧ |x * y| ≤ 2 ^ p) → t.leaves.length ≤ 2 ^ 53 →
    (t.leaves.length : ℚ) * 2 ^ p < 2 ^ 1024 → Bd (t.eval A a b) (t.leaves.length * 2 ^ p)
  | .zero, _, _, _ => ⟨0, rfl, double_zero, by simp [Plan.leaves]⟩
  | .term k, h, hl, hlt => by
    obtain ⟨x, y, hx, hy, hxy⟩ := h k (by simp [Plan.leaves])
    have h1 : times A (a k) (b k) = A.fin (x * y) := by rw [hx, hy]; rfl
    show Bd (times A (a k) (b k)) _
    rw [h1, hA]
    exact finite_bd (double_mul hl hp) (by simpa [Plan.leaves] using hxy) hlt
  | .plus s t, h, hl, hlt => by
    have hlen : (Plan.plus s t).leaves.length = s.leaves.length + t.leaves.length := by simp [Plan.leaves]
    have hq := two_zpow_pos p
    have hs := eval_bd hA hp s (fun k hk => h k (by simp [Plan.leaves, hk])) (by omega) (by
      rw [hlen] at hlt
      push_cast at hlt
      nlinarith [(Nat.cast_nonneg t.leaves.length : (0 : ℚ) ≤ _)])
    have ht := eval_bd hA hp t (fun k hk => h k (by simp [Plan.leaves, hk])) (by omega) (by
      rw [hlen] at hlt
      push_cast at hlt
      nlinarith [(Nat.cast_nonneg s.leaves.length : (0 : ℚ) ≤ _)])
    exact add_bd hA hs ht (by rw [hlen]; push_cast; linarith) (double_mul hl hp) hlt
  | .fma s k, h, hl, hlt => by
    have hlen : (Plan.fma s k).leaves.length = s.leaves.length + 1 := by simp [Plan.leaves]
    have hq := two_zpow_pos p
    obtain ⟨v, hv, -, h1⟩ := eval_bd hA hp s (fun k hk => h k (by simp [Plan.leaves, hk])) (by omega) (by
      rw [hlen] at hlt
      push_cast at hlt
      nlinarith)
    obtain ⟨x, y, hx, hy, hxy⟩ := h k (by simp [Plan.leaves])
    have h2 : Plan.eval A a b (.fma s k) = A.fin (v + x * y) := by
      unfold Plan.eval
      rw [hv, hx, hy]
      rfl
    rw [h2, hA]
    refine finite_bd (double_mul hl hp) ((abs_add_le _ _).trans ?_) hlt
    rw [hlen]
    push_cast
    linarith

/-- Sums of products which are not negative are not negative, and are at least each of the (rounded) products. -/
theorem eval_ge (hA : A.fin = finite) {a b : ℕ → Num} : ∀ (t : Plan) {v : ℚ}, t.eval A a b = some v →
    (∀ k ∈ t.leaves, ∃ x y, a k = some x ∧ b k = some y ∧ 0 ≤ x * y) →
    0 ≤ v ∧ Double v ∧ ∀ k ∈ t.leaves, ∀ x y, a k = some x → b k = some y → dbl (x * y) ≤ v := by
  have fin : ∀ {x v : ℚ}, A.fin x = some v → v = dbl x := by
    intro x v h
    rw [hA] at h
    unfold finite at h
    split_ifs at h
    exact (Option.some.inj h).symm
  intro t
  induction t with
  | zero =>
    intro v h _
    cases h
    exact ⟨le_rfl, double_zero, fun k hk => by simp [Plan.leaves] at hk⟩
  | term k =>
    intro v h hk
    obtain ⟨x, y, hx, hy, h0⟩ := hk k (by simp [Plan.leaves])
    change times A (a k) (b k) = some v at h
    rw [hx, hy] at h
    have := fin (show A.fin (x * y) = some v from h)
    subst this
    refine ⟨dbl_nonneg h0, dbl_double _, fun k' hk' x' y' hx' hy' => ?_⟩
    simp only [Plan.leaves, List.mem_singleton] at hk'
    subst hk'
    rw [hx] at hx'
    rw [hy] at hy'
    cases hx'
    cases hy'
    exact le_rfl
  | plus s t ihs iht =>
    intro v h hk
    change add A (s.eval A a b) (t.eval A a b) = some v at h
    rcases h1 : s.eval A a b with _ | u
    · rw [h1] at h
      cases h
    rcases h2 : t.eval A a b with _ | w
    · rw [h1, h2] at h
      cases h
    rw [h1, h2] at h
    have := fin (show A.fin (u + w) = some v from h)
    subst this
    obtain ⟨a0, a1, a2⟩ := ihs h1 fun k h => hk k (by simp [Plan.leaves, h])
    obtain ⟨b0, b1, b2⟩ := iht h2 fun k h => hk k (by simp [Plan.leaves, h])
    refine ⟨dbl_nonneg (by linarith), dbl_double _, fun k hk x y hx hy => ?_⟩
    rcases List.mem_append.1 hk with h | h
    · exact (a2 k h x y hx hy).trans (le_dbl a1 (by linarith))
    · exact (b2 k h x y hx hy).trans (le_dbl b1 (by linarith))
  | fma s k ih =>
    intro v h hk
    obtain ⟨x, y, hx, hy, h0⟩ := hk k (by simp [Plan.leaves])
    rcases h1 : s.eval A a b with _ | u
    · unfold Plan.eval at h
      rw [h1] at h
      cases h
    unfold Plan.eval at h
    rw [h1, hx, hy] at h
    have := fin (show A.fin (u + x * y) = some v from h)
    subst this
    obtain ⟨a0, a1, a2⟩ := ih h1 fun k h => hk k (by simp [Plan.leaves, h])
    refine ⟨dbl_nonneg (by linarith), dbl_double _, fun k' hk' x' y' hx' hy' => ?_⟩
    rcases List.mem_append.1 hk' with h | h
    · exact (a2 k' h x' y' hx' hy').trans (le_dbl a1 (by linarith))
    · simp only [List.mem_singleton] at h
      subst h
      rw [hx] at hx'
      rw [hy] at hy'
      cases hx'
      cases hy'
      exact dbl_mono (by linarith)

theorem leaves_length {t : Plan} {n : ℕ} {a b : ℕ → Num} (h : t.Covers n a b) : t.leaves.length ≤ n := by
  have h1 : t.leaves.toFinset ⊆ Finset.range n := fun k hk => by
    rw [List.mem_toFinset] at hk
    exact Finset.mem_range.2 (h.2.1 k hk)
  have h2 := Finset.card_le_card h1
  rwa [List.toFinset_card_of_nodup h.1, Finset.card_range] at h2

/-- A bound of a sum of `n` products, and of each of the products. -/
theorem sum_nn (hA : A.fin = finite) {t : Plan} {n : ℕ} {a b : ℕ → Num} (ht : t.Covers n a b) {p : ℤ} (hp : -1074 ≤ p)
    (hn : n ≤ 2 ^ 53) (hlt : (2 : ℚ) ^ 53 * 2 ^ p < 2 ^ 1024)
    (h : ∀ k < n, ∃ x y, a k = some x ∧ b k = some y ∧ 0 ≤ x * y ∧ x * y ≤ 2 ^ p) :
    ∃ v, t.eval A a b = some v ∧ Double v ∧ 0 ≤ v ∧ v ≤ n * 2 ^ p ∧
      ∀ k < n, ∀ x y, a k = some x → b k = some y → dbl (x * y) ≤ v := by
  have hl := leaves_length ht
  have hq := two_zpow_pos p
  have hlq : (t.leaves.length : ℚ) ≤ n := by exact_mod_cast hl
  have hnq : (n : ℚ) ≤ 2 ^ 53 := by exact_mod_cast hn
  obtain ⟨v, hv, hd, hb⟩ := eval_bd hA hp t (fun k hk => by
    obtain ⟨x, y, hx, hy, h0, h1⟩ := h k (ht.2.1 k hk)
    exact ⟨x, y, hx, hy, by rwa [abs_of_nonneg h0]⟩) (hl.trans hn) (by nlinarith)
  obtain ⟨h0, -, h2⟩ := eval_ge hA t hv fun k hk => by
    obtain ⟨x, y, hx, hy, h0, h1⟩ := h k (ht.2.1 k hk)
    exact ⟨x, y, hx, hy, h0⟩
  refine ⟨v, hv, hd, h0, ?_, fun k hk x y hx hy => ?_⟩
  · rw [abs_of_nonneg h0] at hb
    nlinarith
  · by_cases hm : k ∈ t.leaves
    · exact h2 k hm x y hx hy
    · have : x * y = 0 := by
        rcases ht.2.2 k hk hm with h | h
        · rw [hx] at h
          rw [Option.some.inj h, zero_mul]
        · rw [hy] at h
          rw [Option.some.inj h, mul_zero]
      rw [this, dbl_zero]
      exact h0

/-- A bound of a signed sum of `n` products. -/
theorem sum_bd (hA : A.fin = finite) {t : Plan} {n : ℕ} {a b : ℕ → Num} (ht : t.Covers n a b) {p : ℤ} (hp : -1074 ≤ p)
    (hn : n ≤ 2 ^ 53) (hlt : (2 : ℚ) ^ 53 * 2 ^ p < 2 ^ 1024)
    (h : ∀ k < n, ∃ x y, a k = some x ∧ b k = some y ∧ |x * y| ≤ 2 ^ p) : Bd (t.eval A a b) (2 ^ 53 * 2 ^ p) := by
  have hl := leaves_length ht
  have hq := two_zpow_pos p
  have hlq : (t.leaves.length : ℚ) ≤ n := by exact_mod_cast hl
  have hnq : (n : ℚ) ≤ 2 ^ 53 := by exact_mod_cast hn
  refine (eval_bd hA hp t (fun k hk => h k (ht.2.1 k hk)) (hl.trans hn) (by nlinarith)).mono ?_
  nlinarith

/-- Rounding at most doubles, except near zero. -/
theorem dbl_upper {x : ℚ} (h : 0 ≤ x) : dbl x ≤ 2 * x + 1 / 2 ^ 1075 := by
  have h1 := (abs_le.1 (dbl_near x)).2
  rw [abs_of_nonneg h] at h1
  have h2 : x / 2 ^ 53 ≤ x := div_le_self h (one_le_pow₀ (by norm_num))
  linarith

/-- Rounding at most halves, except near zero. -/
theorem dbl_lower {x : ℚ} (h : 0 ≤ x) : x ≤ 2 * dbl x + 1 / 2 ^ 1074 := by
  have h1 := (abs_le.1 (dbl_near x)).1
  rw [abs_of_nonneg h] at h1
  have h2 : x / 2 ^ 53 ≤ x / 2 := div_le_div_of_nonneg_left h (by norm_num) (by norm_num)
  have h3 : (2 : ℚ) * (1 / 2 ^ 1075) = 1 / 2 ^ 1074 := by
    rw [pow_succ' (2 : ℚ) 1074]
    field_simp
  linarith

/-! ### Matrices -/

/-- Entries are doubles between zero and `B`. -/
def Within (M : Mat) (B : ℚ) : Prop := ∀ i < M.r, ∀ j < M.c, Nn (M.e i j) B

theorem pow_lt {e : ℕ} (h : e < 1024) : (2 : ℚ) ^ e < 2 ^ 1024 := pow_lt_pow_right₀ (by norm_num) h

theorem pow_le {e f : ℕ} (h : e ≤ f) : (2 : ℚ) ^ e ≤ 2 ^ f := pow_le_pow_right₀ (by norm_num) h

/-- Products of matrices. -/
theorem dot_within (hA : A.fin = finite) (ho : o.Ok) {M N : Mat} {e f : ℕ} (hM : Within M (2 ^ e)) (hN : Within N (2 ^ f))
    (hs : M.c = N.r) (hc : M.c ≤ 2 ^ 53) (hef : 53 + e + f < 1024) {i j : ℕ} (hi : i < M.r) (hj : j < N.c) :
    ∃ v, (dot A o M N).e i j = some v ∧ Double v ∧ 0 ≤ v ∧ v ≤ 2 ^ (53 + e + f) ∧
      ∀ k < M.c, ∀ x y, M.e i k = some x → N.e k j = some y → dbl (x * y) ≤ v := by
  have he : ((2 : ℚ) ^ ((e + f : ℕ) : ℤ)) = 2 ^ (e + f) := zpow_natCast _ _
  obtain ⟨v, h1, h2, h3, h4, h5⟩ := sum_nn hA (ho.dot M N i j) (p := ((e + f : ℕ) : ℤ)) (by omega) hc
    (by rw [he, ← pow_add]; exact pow_lt (by omega)) fun k hk => by
      obtain ⟨x, hx, -, x0, x1⟩ := hM i hi k hk
      obtain ⟨y, hy, -, y0, y1⟩ := hN k (hs ▸ hk) j hj
      refine ⟨x, y, hx, hy, mul_nonneg x0 y0, ?_⟩
      rw [he, pow_add]
      exact mul_le_mul x1 y1 y0 (by positivity)
  refine ⟨v, h1, h2, h3, h4.trans ?_, h5⟩
  rw [he, add_assoc, pow_add 2 53]
  have : (M.c : ℚ) ≤ 2 ^ 53 := by exact_mod_cast hc
  gcongr

theorem T_within {M : Mat} {B : ℚ} (h : Within M B) : Within M.T B := fun i hi j hj => h j hj i hi

theorem dot_within' (hA : A.fin = finite) (ho : o.Ok) {M N : Mat} {e f : ℕ} (hM : Within M (2 ^ e)) (hN : Within N (2 ^ f))
    (hs : M.c = N.r) (hc : M.c ≤ 2 ^ 53) (hef : 53 + e + f < 1024) : Within (dot A o M N) (2 ^ (53 + e + f)) :=
  fun _ hi _ hj => by
    obtain ⟨v, h1, h2, h3, h4, -⟩ := dot_within hA ho hM hN hs hc hef hi hj
    exact ⟨v, h1, h2, h3, h4⟩

/-- The sum of a line. -/
theorem sumLine_nn (hA : A.fin = finite) (ho : o.Ok) {M : Mat} {e : ℕ} (hM : Within M (2 ^ e)) (hc : M.c ≤ 2 ^ 53)
    (he : 53 + e < 1024) {i : ℕ} (hi : i < M.r) : ∃ v, sumLine A o M i = some v ∧ Double v ∧ 0 ≤ v ∧ v ≤ 2 ^ (53 + e) ∧
      ∀ k < M.c, ∀ x, M.e i k = some x → x ≤ v := by
  have hz : ((2 : ℚ) ^ (e : ℤ)) = 2 ^ e := zpow_natCast _ _
  obtain ⟨v, h1, h2, h3, h4, h5⟩ := sum_nn hA (ho.line M i) (p := (e : ℤ)) (by omega) hc
    (by rw [hz, ← pow_add]; exact pow_lt (by omega)) fun k hk => by
      obtain ⟨x, hx, -, x0, x1⟩ := hM i hi k hk
      exact ⟨x, 1, hx, rfl, by rwa [mul_one], by rwa [mul_one, hz]⟩
  refine ⟨v, h1, h2, h3, h4.trans ?_, fun k hk x hx => ?_⟩
  · rw [hz, pow_add 2 53]
    have : (M.c : ℚ) ≤ 2 ^ 53 := by exact_mod_cast hc
    gcongr
  · have := h5 k hk x 1 hx rfl
    obtain ⟨x', hx', hd, -, -⟩ := hM i hi k hk
    rw [hx] at hx'
    cases hx'
    rwa [mul_one, dbl_of_double hd] at this

theorem sumCol_nn (hA : A.fin = finite) (ho : o.Ok) {M : Mat} {e : ℕ} (hM : Within M (2 ^ e)) (hr : M.r ≤ 2 ^ 53)
    (he : 53 + e < 1024) {j : ℕ} (hj : j < M.c) : Nn (sumCol A o M j) (2 ^ (53 + e)) := by
  have hz : ((2 : ℚ) ^ (e : ℤ)) = 2 ^ e := zpow_natCast _ _
  obtain ⟨v, h1, h2, h3, h4, -⟩ := sum_nn hA (ho.col M j) (p := (e : ℤ)) (by omega) hr
    (by rw [hz, ← pow_add]; exact pow_lt (by omega)) fun k hk => by
      obtain ⟨x, hx, -, x0, x1⟩ := hM k hk j hj
      exact ⟨x, 1, hx, rfl, by rwa [mul_one], by rwa [mul_one, hz]⟩
  refine ⟨v, h1, h2, h3, h4.trans ?_⟩
  rw [hz, pow_add 2 53]
  have : (M.r : ℚ) ≤ 2 ^ 53 := by exact_mod_cast hr
  gcongr

/-- The sum of all entries. -/
theorem sumAll_bd (hA : A.fin = finite) (ho : o.Ok) {M : Mat} {e : ℕ} (hM : ∀ i < M.r, ∀ j < M.c, Bd (M.e i j) (2 ^ e))
    (hc : M.r * M.c ≤ 2 ^ 53) (he : 53 + e < 1024) : Bd (sumAll A o M) (2 ^ (53 + e)) := by
  have hz : ((2 : ℚ) ^ (e : ℤ)) = 2 ^ e := zpow_natCast _ _
  have := sum_bd hA (ho.all M) (p := (e : ℤ)) (by omega) hc
    (by rw [hz, ← pow_add]; exact pow_lt (by omega)) fun t ht => by
      have hpos : 0 < M.c := Nat.pos_of_mul_pos_left (lt_of_le_of_lt (Nat.zero_le t) ht)
      obtain ⟨x, hx, -, x1⟩ := hM (t / M.c) ((Nat.div_lt_iff_lt_mul hpos).2 ht) (t % M.c) (Nat.mod_lt _ hpos)
      exact ⟨x, 1, hx, rfl, by rwa [mul_one, hz]⟩
  rwa [hz, ← pow_add] at this

/-! ### Updates -/

theorem EPS_spec (hA : A.fin = finite) : ∃ e, EPS A = some e ∧ Double e ∧ 1 / 2 ^ 27 ≤ e ∧ e ≤ 1 := by
  have h27 : Double (1 / 2 ^ 27) := by
    have := double_mul (n := 1) (p := -27) (by norm_num) (by norm_num)
    rw [zpow_neg] at this
    simpa [zpow_ofNat] using this
  refine ⟨dbl (1 / 10 ^ 8), ?_, dbl_double _, le_dbl h27 (by norm_num), dbl_le double_one (by norm_num)⟩
  unfold EPS
  rw [hA]
  refine finite_some double_one ?_ (one_lt_pow₀ (by norm_num) (by norm_num))
  rw [abs_of_nonneg (by norm_num)]
  norm_num

/-- Ratios between data and their reconstruction. -/
theorem ratio_spec (hA : A.fin = finite) {x wh : ℚ} (x0 : 0 ≤ x) (x1 : x ≤ 2 ^ 400) (hd : Double wh) (h0 : 0 ≤ wh)
    (h1 : wh ≤ 2 ^ 512) : ∃ num den q, ratio A (some x) (some wh) = some q ∧ q = dbl (num / den) ∧ 0 ≤ num ∧
      num ≤ 2 ^ 401 ∧ 1 / 2 ^ 27 ≤ den ∧ wh ≤ den ∧ den ≤ 2 ^ 513 ∧ Double q ∧ 0 < q ∧ q ≤ 2 ^ 428 := by
  obtain ⟨e, he, hde, e0, e1⟩ := EPS_spec hA
  have p27 : (0 : ℚ) < 1 / 2 ^ 27 := by positivity
  have e0' : 0 ≤ e := p27.le.trans e0
  have b401 : x + e ≤ 2 ^ 401 := by
    rw [pow_succ]
    have : (1 : ℚ) ≤ 2 ^ 400 := one_le_pow₀ (by norm_num)
    linarith
  have b513 : wh + e ≤ 2 ^ 513 := by
    rw [pow_succ]
    have : (1 : ℚ) ≤ 2 ^ 512 := one_le_pow₀ (by norm_num)
    linarith
  have hn : add A (some x) (EPS A) = some (dbl (x + e)) := by
    rw [he]
    show A.fin (x + e) = _
    rw [hA]
    exact finite_some (double_pow 401) (by rwa [abs_of_nonneg (by linarith)]) (pow_lt (by norm_num))
  have hn' : add A (some wh) (EPS A) = some (dbl (wh + e)) := by
    rw [he]
    show A.fin (wh + e) = _
    rw [hA]
    exact finite_some (double_pow 513) (by rwa [abs_of_nonneg (by linarith)]) (pow_lt (by norm_num))
  have nle : e ≤ dbl (x + e) := le_dbl hde (by linarith)
  have dle : e ≤ dbl (wh + e) := le_dbl hde (by linarith)
  have n1 : dbl (x + e) ≤ 2 ^ 401 := dbl_le (double_pow 401) b401
  have d1 : dbl (wh + e) ≤ 2 ^ 513 := dbl_le (double_pow 513) b513
  have dpos : 0 < dbl (wh + e) := by linarith
  have npos : 0 < dbl (x + e) := by linarith
  have hq1 : dbl (x + e) / dbl (wh + e) ≤ 2 ^ 428 := by
    rw [div_le_iff₀ dpos]
    calc dbl (x + e) ≤ 2 ^ 401 := n1
      _ = 2 ^ 428 * (1 / 2 ^ 27) := by norm_num
      _ ≤ _ := by gcongr; exact e0.trans dle
  have hlow : (1 : ℚ) * 2 ^ (-540 : ℤ) ≤ dbl (x + e) / dbl (wh + e) := by
    rw [le_div_iff₀ dpos]
    calc (1 : ℚ) * 2 ^ (-540 : ℤ) * dbl (wh + e) ≤ 1 * 2 ^ (-540 : ℤ) * 2 ^ 513 := by
          have := two_zpow_pos (-540)
          gcongr
      _ = 1 / 2 ^ 27 := by rw [zpow_neg, zpow_ofNat]; norm_num
      _ ≤ _ := e0.trans nle
  have hl540 : Double ((1 : ℚ) * 2 ^ (-540 : ℤ)) := by
    have := double_mul (n := 1) (p := -540) (by norm_num) (by norm_num)
    simpa using this
  refine ⟨dbl (x + e), dbl (wh + e), dbl (dbl (x + e) / dbl (wh + e)), ?_, rfl, npos.le, n1, e0.trans dle,
    le_dbl hd (by linarith), d1, dbl_double _, ?_, dbl_le (double_pow 428) hq1⟩
  · unfold ratio
    rw [hn, hn']
    show (if dbl (wh + e) = 0 then none else A.fin (dbl (x + e) / dbl (wh + e))) = _
    rw [if_neg dpos.ne', hA]
    refine finite_some (double_pow 428) ?_ (pow_lt (by norm_num))
    rwa [abs_of_nonneg (div_nonneg npos.le dpos.le)]
  · exact lt_of_lt_of_le (mul_pos one_pos (two_zpow_pos _)) (le_dbl hl540 hlow)

/-- The matrices can be multiplied. -/
def Shapes (X : Data) (W H : Mat) : Prop := W.r = X.mat.r ∧ W.c = H.r ∧ H.c = X.mat.c

/-- Data between zero and `2 ^ 400`, with at most `2 ^ 53` samples, features, numbers and components. -/
structure Fits (X : Data) (k : ℕ) : Prop where
  within : Within X.mat (2 ^ 400)
  r : X.mat.r ≤ 2 ^ 53
  c : X.mat.c ≤ 2 ^ 53
  size : X.mat.r * X.mat.c ≤ 2 ^ 53
  k : k ≤ 2 ^ 53

/-- What is kept by updates. -/
structure Inv (X : Data) (W H : Mat) : Prop where
  shapes : Shapes X W H
  W : Within W (2 ^ 459)
  H : Within H 1

theorem one_within {M : Mat} (h : Within M 1) : Within M (2 ^ 0) := by rwa [pow_zero]

theorem wh_spec (hA : A.fin = finite) (ho : o.Ok) {X : Data} {W H : Mat} (hX : Fits X H.r) (h : Inv X W H) {i j : ℕ}
    (hi : i < X.mat.r) (hj : j < X.mat.c) : ∃ wh, (dot A o W H).e i j = some wh ∧ Double wh ∧ 0 ≤ wh ∧ wh ≤ 2 ^ 512 ∧
      ∀ k < H.r, ∀ x y, W.e i k = some x → H.e k j = some y → dbl (x * y) ≤ wh := by
  obtain ⟨s1, s2, s3⟩ := h.shapes
  obtain ⟨v, h1, h2, h3, h4, h5⟩ := dot_within hA ho h.W (one_within h.H) s2 (s2 ▸ hX.k) (by norm_num) (s1 ▸ hi) (s3 ▸ hj)
  rw [s2] at h5
  exact ⟨v, h1, h2, h3, h4, h5⟩

/-- Entries of `Q`: at most `2 ^ 428`, and times a coefficient and a component at most about the data. -/
theorem Q_spec (hA : A.fin = finite) (ho : o.Ok) {X : Data} {W H : Mat} (hX : Fits X H.r) (h : Inv X W H) {i j : ℕ}
    (hi : i < X.mat.r) (hj : j < X.mat.c) : ∃ q, (Q A o X W H).e i j = some q ∧ Double q ∧ 0 ≤ q ∧ q ≤ 2 ^ 428 ∧
      ∀ k < H.r, ∀ x y, W.e i k = some x → H.e k j = some y → x * (q * y) ≤ 9 * 2 ^ 401 := by
  by_cases hs : X.sparse = true ∧ X.mat.e i j = some 0
  · refine ⟨0, ?_, double_zero, le_rfl, by positivity, fun k _ x y _ _ => ?_⟩
    · show (if _ then _ else _) = _
      rw [if_pos hs]
    · rw [zero_mul, mul_zero]
      positivity
  · obtain ⟨wh, w1, w2, w3, w4, w5⟩ := wh_spec hA ho hX h hi hj
    obtain ⟨x, hx, -, x0, x1⟩ := hX.within i hi j hj
    obtain ⟨num, den, q, q1, q2, n0, n1, d0, d1, d2, q3, q4, q5⟩ := ratio_spec hA x0 x1 w2 w3 w4
    refine ⟨q, ?_, q3, q4.le, q5, fun k hk w y hw hy => ?_⟩
    · show (if _ then _ else _) = _
      rw [if_neg hs, w1, hx, q1]
    · have hw0 : 0 ≤ w := by
        obtain ⟨w', hw', -, h0, -⟩ := h.W i (h.shapes.1 ▸ hi) k (h.shapes.2.1 ▸ hk)
        rw [hw] at hw'
        cases hw'
        exact h0
      have hy0 : 0 ≤ y := by
        obtain ⟨y', hy', -, h0, -⟩ := h.H k hk j (h.shapes.2.2 ▸ hj)
        rw [hy] at hy'
        cases hy'
        exact h0
      have dpos : 0 < den := lt_of_lt_of_le (by positivity) d0
      have e1 := w5 k hk w y hw hy
      have e2 := dbl_lower (mul_nonneg hw0 hy0)
      have e3 : (1 : ℚ) / 2 ^ 1074 ≤ 1 / 2 ^ 27 := by
        gcongr
        · norm_num
        · norm_num
      have e4 : w * y ≤ 3 * den := by linarith
      have e5 := dbl_upper (div_nonneg n0 dpos.le)
      rw [← q2] at e5
      have e6 : (3 : ℚ) * 2 ^ 513 * (1 / 2 ^ 1075) ≤ 1 := by norm_num
      have e7 : (1 : ℚ) ≤ 2 ^ 401 := one_le_pow₀ (by norm_num)
      have e8 : den * (num / den) = num := by field_simp
      calc w * (q * y) = w * y * q := by ring
        _ ≤ 3 * den * (2 * (num / den) + 1 / 2 ^ 1075) := by gcongr
        _ = 6 * (den * (num / den)) + 3 * den * (1 / 2 ^ 1075) := by ring
        _ = 6 * num + 3 * den * (1 / 2 ^ 1075) := by rw [e8]
        _ ≤ 6 * num + 3 * 2 ^ 513 * (1 / 2 ^ 1075) := by gcongr
        _ ≤ 9 * 2 ^ 401 := by linarith

theorem Q_within (hA : A.fin = finite) (ho : o.Ok) {X : Data} {W H : Mat} (hX : Fits X H.r) (h : Inv X W H) :
    Within (Q A o X W H) (2 ^ 428) := fun _ hi _ hj => by
  obtain ⟨q, h1, h2, h3, h4, -⟩ := Q_spec hA ho hX h hi hj
  exact ⟨q, h1, h2, h3, h4⟩

/-- New coefficients. -/
theorem updatedW_within (hA : A.fin = finite) (ho : o.Ok) {X : Data} {W H : Mat} (hX : Fits X H.r) (h : Inv X W H) :
    Within (updatedW A o W H (Q A o X W H)) (2 ^ 459) := by
  intro i hi k hk
  change i < W.r at hi
  change k < W.c at hk
  obtain ⟨s1, s2, s3⟩ := h.shapes
  obtain ⟨w, hw, hwd, w0, w1⟩ := h.W i hi k hk
  have hQ := Q_within hA ho hX h
  obtain ⟨D, hD, D1, D2, D3, -⟩ := dot_within hA ho hQ (one_within (T_within h.H)) (show X.mat.c = H.c from s3.symm)
    (show X.mat.c ≤ _ from hX.c) (by norm_num) (show i < X.mat.r from s1 ▸ hi) (show k < H.r from s2 ▸ hk)
  show Nn (times A (W.e i k) _) _
  rw [hw, hD]
  show Nn (A.fin (w * D)) _
  rw [hA]
  refine finite_nn (double_pow 459) (mul_nonneg w0 D2) ?_ (pow_lt (by norm_num))
  rcases w0.eq_or_lt with rfl | wpos
  · rw [zero_mul]
    positivity
  · -- the smallest power of two above the products
    obtain ⟨p, p1, p2⟩ := exists_mem_Ioc_zpow (show (0 : ℚ) < 9 * 2 ^ 401 / w by positivity) (one_lt_two)
    have hp : -1074 ≤ min (p + 1) 428 := by
      refine le_min ?_ (by norm_num)
      by_contra hcon
      have h1 : (2 : ℚ) ^ (p + 1) ≤ 2 ^ (-1074 : ℤ) := zpow_le_zpow_right₀ (by norm_num) (by omega)
      have h2 : (2 : ℚ) ^ (-1074 : ℤ) < 9 * 2 ^ 401 / 2 ^ 459 := by
        rw [zpow_neg, zpow_ofNat]
        norm_num
      have h3 : (9 : ℚ) * 2 ^ 401 / 2 ^ 459 ≤ 9 * 2 ^ 401 / w := by gcongr
      exact absurd (p2.trans h1) (not_le.2 (h2.trans_le h3))
    have h428 : ((2 : ℚ) ^ (428 : ℤ)) = 2 ^ 428 := zpow_ofNat _ _
    have hle : (2 : ℚ) ^ min (p + 1) 428 ≤ 2 ^ 428 := by
      rw [← h428]
      exact zpow_le_zpow_right₀ (by norm_num) (min_le_right _ _)
    obtain ⟨v, v1, -, v3, v4, -⟩ := sum_nn hA (ho.dot (Q A o X W H) H.T i k) (p := min (p + 1) 428) hp hX.c
      (lt_of_le_of_lt (mul_le_mul_of_nonneg_left hle (by positivity))
        (by rw [← pow_add]; exact pow_lt (by norm_num))) fun j hj => by
        obtain ⟨q, q1, q2, q3, q4, q5⟩ := Q_spec hA ho hX h (s1 ▸ hi) hj
        obtain ⟨y, y1, -, y3, y4⟩ := h.H k (s2 ▸ hk) j (s3 ▸ hj)
        refine ⟨q, y, q1, y1, mul_nonneg q3 y3, ?_⟩
        rcases min_choice (p + 1) (428 : ℤ) with hm | hm
        · rw [hm]
          refine le_trans ?_ p2
          rw [le_div_iff₀ wpos, mul_comm]
          exact q5 k (s2 ▸ hk) w y hw y1
        · rw [hm, h428]
          calc q * y ≤ 2 ^ 428 * 1 := by gcongr
            _ = _ := mul_one _
    have hvD : v = D := by
      have : (dot A o (Q A o X W H) H.T).e i k = some v := v1
      rw [hD] at this
      exact (Option.some.inj this).symm
    subst hvD
    have hcq : (X.mat.c : ℚ) ≤ 2 ^ 53 := by exact_mod_cast hX.c
    have hw2 : w * (2 : ℚ) ^ min (p + 1) 428 ≤ 18 * 2 ^ 401 := by
      have h1 : (2 : ℚ) ^ min (p + 1) 428 ≤ 2 ^ p * 2 := by
        rw [← zpow_add_one₀ (by norm_num)]
        exact zpow_le_zpow_right₀ (by norm_num) (min_le_left _ _)
      have h2 : w * 2 ^ p ≤ 9 * 2 ^ 401 := by
        rw [mul_comm, ← le_div_iff₀ wpos]
        exact p1.le
      nlinarith
    calc w * v ≤ w * ((X.mat.c : ℚ) * 2 ^ min (p + 1) 428) := by gcongr; exact v4
      _ = X.mat.c * (w * 2 ^ min (p + 1) 428) := by ring
      _ ≤ 2 ^ 53 * (18 * 2 ^ 401) := by
        have := two_zpow_pos (min (p + 1) 428)
        gcongr
      _ ≤ 2 ^ 459 := by norm_num

/-- Normalization of a line: numbers are divided by a number which is at least the sum. -/
theorem normalizeSum1_spec (hA : A.fin = finite) (ho : o.Ok) {H : Mat} {e : ℕ} (hH : Within H (2 ^ e))
    (hc : H.c ≤ 2 ^ 53) (he : 54 + e < 1024) {k : ℕ} (hk : k < H.r) : ∃ v den, sumLine A o H k = some v ∧ Double v ∧
      (∀ j < H.c, ∀ x, H.e k j = some x → x ≤ v) ∧ v ≤ den ∧ 0 < den ∧
      ∀ j < H.c, ∀ x, H.e k j = some x → (normalizeSum1 A o H).e k j = some (dbl (x / den)) := by
  obtain ⟨v, v1, v2, v3, v4, v5⟩ := sumLine_nn hA ho hH hc (by omega) hk
  have h100 : Double ((1 : ℚ) * 2 ^ (-100 : ℤ)) := by
    have := double_mul (n := 1) (p := -100) (by norm_num) (by norm_num)
    simpa using this
  have heps : A.fin (1 / 10 ^ 16) = some (dbl (1 / 10 ^ 16)) := by
    rw [hA]
    refine finite_some double_one ?_ (one_lt_pow₀ (by norm_num) (by norm_num))
    rw [abs_of_nonneg (by norm_num)]
    norm_num
  have epos : 0 < dbl (1 / 10 ^ 16) := lt_of_lt_of_le (mul_pos one_pos (two_zpow_pos (-100)))
    (le_dbl h100 (by rw [zpow_neg, zpow_ofNat]; norm_num))
  have e1 : dbl (1 / 10 ^ 16) ≤ 1 := dbl_le double_one (by norm_num)
  have hden : add A (A.fin (1 / 10 ^ 16)) (sumLine A o H k) = some (dbl (dbl (1 / 10 ^ 16) + v)) := by
    rw [heps, v1]
    show A.fin _ = _
    rw [hA]
    refine finite_some (double_pow (54 + e)) ?_ (pow_lt he)
    rw [abs_of_nonneg (by linarith)]
    have : (1 : ℚ) ≤ 2 ^ (53 + e) := one_le_pow₀ (by norm_num)
    have h2 : (2 : ℚ) ^ (54 + e) = 2 ^ (53 + e) * 2 := by rw [← pow_succ]; congr 1; omega
    linarith
  have dv : v ≤ dbl (dbl (1 / 10 ^ 16) + v) := le_dbl v2 (by linarith)
  have dpos : 0 < dbl (dbl (1 / 10 ^ 16) + v) := lt_of_lt_of_le epos (le_dbl (dbl_double _) (by linarith))
  refine ⟨v, dbl (dbl (1 / 10 ^ 16) + v), v1, v2, v5, dv, dpos, fun j hj x hx => ?_⟩
  obtain ⟨x', hx', -, x0, -⟩ := hH k hk j hj
  rw [hx] at hx'
  cases hx'
  show divide A _ _ = _
  rw [hden, hx]
  show (if _ then none else A.fin _) = _
  rw [if_neg dpos.ne', hA]
  refine finite_some double_one ?_ (one_lt_pow₀ (by norm_num) (by norm_num))
  rw [abs_of_nonneg (div_nonneg x0 dpos.le), div_le_one dpos]
  exact (v5 j hj x hx).trans dv

/-- Normalization of lines. -/
theorem normalizeSum1_within (hA : A.fin = finite) (ho : o.Ok) {H : Mat} {e : ℕ} (hH : Within H (2 ^ e))
    (hc : H.c ≤ 2 ^ 53) (he : 54 + e < 1024) : Within (normalizeSum1 A o H) 1 := by
  intro k hk j hj
  obtain ⟨v, den, -, -, h1, h2, h3, h4⟩ := normalizeSum1_spec hA ho hH hc he (show k < H.r from hk)
  obtain ⟨x, hx, -, x0, -⟩ := hH k hk j hj
  refine ⟨_, h4 j hj x hx, dbl_double _, dbl_nonneg (div_nonneg x0 h3.le), dbl_le double_one ?_⟩
  rw [div_le_one h3]
  exact (h1 j hj x hx).trans h2

/-- New components. -/
theorem updatedH_within (hA : A.fin = finite) (ho : o.Ok) {X : Data} {W W' H : Mat} (hX : Fits X H.r) (h : Inv X W H)
    (hW' : Within W' (2 ^ 459)) (hr : W'.r = W.r) (hc : W'.c = W.c) :
    Within (updatedH A o W' H (Q A o X W H)) 1 := by
  obtain ⟨s1, s2, s3⟩ := h.shapes
  have hdot := dot_within' hA ho (T_within hW') (Q_within hA ho hX h) (show W'.r = X.mat.r from hr.trans s1)
    (show W'.r ≤ _ by rw [hr, s1]; exact hX.r) (by norm_num)
  refine normalizeSum1_within hA ho (e := 53 + 459 + 428) (fun k hk j hj => ?_) (show H.c ≤ _ by rw [s3]; exact hX.c)
    (by norm_num)
  exact times_nn hA (h.H k hk j hj) (hdot k (show k < W'.c by rw [hc, s2]; exact hk) j (show j < X.mat.c from s3 ▸ hj))
    (by rw [one_mul]) (double_pow _) (pow_lt (by norm_num))

/-- Updates keep the invariant. -/
theorem update_inv (hA : A.fin = finite) (ho : o.Ok) {X : Data} {W H : Mat} (hX : Fits X H.r) (h : Inv X W H) (fit : Bool) :
    Inv X (update A o X W H fit).1 (update A o X W H fit).2 ∧ (update A o X W H fit).2.r = H.r := by
  have hW := updatedW_within hA ho hX h
  cases fit with
  | false => exact ⟨⟨h.shapes, hW, h.H⟩, rfl⟩
  | true => exact ⟨⟨h.shapes, hW, updatedH_within hA ho hX h hW rfl rfl⟩, rfl⟩

/-- Errors are finite. -/
theorem error_bd (hA : IsDouble A) (ho : o.Ok) {X : Data} {W H : Mat} (hX : Fits X H.r) (h : Inv X W H) :
    Bd (error A o X W H) (2 ^ 700) := by
  obtain ⟨s1, s2, s3⟩ := h.shapes
  have hlog : ∀ i < X.mat.r, ∀ j < X.mat.c,
      Bd (times A (X.mat.e i j) (log A (ratio A (X.mat.e i j) ((dot A o W H).e i j)))) (2 ^ 410) := by
    intro i hi j hj
    obtain ⟨wh, w1, w2, w3, w4, w5⟩ := wh_spec hA.fin ho hX h hi hj
    obtain ⟨x, hx, hxd, x0, x1⟩ := hX.within i hi j hj
    obtain ⟨num, den, q, q1, -, -, -, -, -, -, q3, q4, q5⟩ := ratio_spec hA.fin x0 x1 w2 w3 w4
    obtain ⟨l, l1, l2, l3⟩ := hA.lg q q3 q4 (lt_of_le_of_lt q5 (pow_lt (by norm_num)))
    have hl : log A (some q) = some l := by
      show (if 0 < q then A.lg q else none) = _
      rw [if_pos q4, l1]
    rw [w1, hx, q1, hl]
    refine times_bd hA.fin (B := 2 ^ 400) (C := 1024) ⟨x, rfl, hxd, by rwa [abs_of_nonneg x0]⟩ ⟨l, rfl, l2, l3⟩ (le_of_eq ?_) (double_pow _)
      (pow_lt (by norm_num))
    norm_num
  unfold error
  split_ifs
  · have a1 : Bd (sumAll A o (logTerms A o X W H)) (2 ^ (53 + 410)) := by
      refine sumAll_bd hA.fin ho (fun i hi j hj => ?_) hX.size (by norm_num)
      show Bd (if X.mat.e i j = some 0 then some 0 else _) _
      split_ifs
      · exact ⟨0, rfl, double_zero, by rw [abs_zero]; positivity⟩
      · exact hlog i hi j hj
    have a2 : Bd (sumAll A o X.mat) (2 ^ (53 + 400)) :=
      sumAll_bd hA.fin ho (fun i hi j hj => (hX.within i hi j hj).bd) hX.size (by norm_num)
    have a3 : Bd (sumAll A o (sumTerms A o W H)) (2 ^ (53 + (53 + 459 + (53 + 0)))) := by
      refine sumAll_bd hA.fin ho (fun i hi k hk => Nn.bd ?_) (show 1 * W.c ≤ _ by rw [one_mul, s2]; exact hX.k)
        (by norm_num)
      obtain ⟨v, v1, v2, v3, v4, -⟩ := sumLine_nn hA.fin ho (one_within h.H) (show H.c ≤ _ by rw [s3]; exact hX.c)
        (by norm_num) (show k < H.r from s2 ▸ hk)
      exact times_nn hA.fin (sumCol_nn hA.fin ho h.W (show W.r ≤ _ by rw [s1]; exact hX.r) (by norm_num) hk)
        ⟨v, v1, v2, v3, v4⟩ (by rw [← pow_add]) (double_pow _) (pow_lt (by norm_num))
    exact (add_bd hA.fin (sub_bd hA.fin a1 a2 (D := 2 ^ 464) (by norm_num) (double_pow _) (pow_lt (by norm_num))) a3
      (D := 2 ^ 619) (by norm_num) (double_pow _) (pow_lt (by norm_num))).mono (pow_le (by norm_num))
  · refine (sumAll_bd hA.fin ho (M := klTerms A o X W H) (e := 513) (fun i hi j hj => ?_) hX.size (by norm_num)).mono
      (pow_le (e := 53 + 513) (f := 700) (by norm_num))
    obtain ⟨wh, w1, w2, w3, w4, w5⟩ := wh_spec hA.fin ho hX h hi hj
    refine add_bd hA.fin (sub_bd hA.fin (hlog i hi j hj) (hX.within i hi j hj).bd (D := 2 ^ 411) (by norm_num)
      (double_pow _) (pow_lt (by norm_num))) (C := 2 ^ 512) ⟨wh, w1, w2, by rwa [abs_of_nonneg w3]⟩ (by norm_num) (double_pow _)
      (pow_lt (by norm_num))

end Verif.NMF.D
