import Verif.NMF.LemmasDouble
import Mathlib.Algebra.BigOperators.Intervals
import Mathlib.Algebra.Order.BigOperators.Ring.Finset
import Mathlib.Algebra.Order.Ring.Pow

/-!
# The factorization with doubles: properties
-/

set_option exponentiation.threshold 2000

namespace Verif.NMF.D

open Verif.Window

variable {A : Arith} {o : Order}

/-! ### Iterations -/

/-- The state after `n` updates. -/
def after (A : Arith) (o : Order) (X : Data) (fit : Bool) (W H : Mat) (n : ℕ) : Mat × Mat :=
  (fun p : Mat × Mat => update A o X p.1 p.2 fit)^[n] (W, H)

theorem after_succ (X : Data) (fit : Bool) (W H : Mat) (n : ℕ) : after A o X fit W H (n + 1) =
    update A o X (after A o X fit W H n).1 (after A o X fit W H n).2 fit := by
  unfold after
  rw [Function.iterate_succ_apply']

theorem after_succ' (X : Data) (fit : Bool) (W H : Mat) (n : ℕ) : after A o X fit W H (n + 1) =
    after A o X fit (update A o X W H fit).1 (update A o X W H fit).2 n := rfl

/-- The loop does some number of updates, one for each recorded error, which is the error before it. -/
theorem loop_spec (X : Data) (fit : Bool) (tol : Num) : ∀ (left n : ℕ) (prev : Option Num) (W H : Mat) (errs : List Num),
    ∃ m, m ≤ left ∧ (loop A o X fit tol left n prev W H errs).W = (after A o X fit W H m).1 ∧
      (loop A o X fit tol left n prev W H errs).H = (after A o X fit W H m).2 ∧
      (loop A o X fit tol left n prev W H errs).errors =
        errs ++ (List.range m).map (fun i => error A o X (after A o X fit W H i).1 (after A o X fit W H i).2) ∧
      (prev = none → 0 < left → 0 < m) ∧ (0 < m → stop A prev (error A o X W H) tol = false) ∧
      ∀ i, i + 1 < m → stop A (some (error A o X (after A o X fit W H i).1 (after A o X fit W H i).2))
        (error A o X (after A o X fit W H (i + 1)).1 (after A o X fit W H (i + 1)).2) tol = false := by
  intro left
  induction left with
  | zero => exact fun n prev W H errs => ⟨0, le_rfl, rfl, rfl, by simp [loop], fun _ h => h, fun h => absurd h (lt_irrefl _),
      fun i hi => by omega⟩
  | succ left ih =>
    intro n prev W H errs
    unfold loop
    simp only []
    split
    · rename_i hstop
      exact ⟨0, Nat.zero_le _, rfl, rfl, by simp, fun h => (by subst h; cases hstop), fun h => absurd h (lt_irrefl _), fun i hi => by omega⟩
    · rename_i hstop
      obtain ⟨m, h1, h2, h3, h4, -, h5, h6⟩ := ih (n + 1) (some (error A o X W H)) (update A o X W H fit).1
        (update A o X W H fit).2 (errs ++ [error A o X W H])
      refine ⟨m + 1, by omega, ?_, ?_, ?_, fun _ _ => by omega, fun _ => by simpa using hstop, ?_⟩
      · rw [h2, after_succ']
      · rw [h3, after_succ']
      · rw [h4, List.range_succ_eq_map, List.map_cons, List.map_map, List.append_assoc]
        rfl
      · intro i hi
        cases i with
        | zero => exact h5 (by omega)
        | succ i => exact h6 i (by omega)

theorem after_inv (hA : A.fin = finite) (ho : o.Ok) {X : Data} {W H : Mat} (hX : Fits X H.r) (h : Inv X W H) (fit : Bool)
    (n : ℕ) : Inv X (after A o X fit W H n).1 (after A o X fit W H n).2 ∧ (after A o X fit W H n).2.r = H.r := by
  induction n with
  | zero => exact ⟨h, rfl⟩
  | succ n ih =>
    rw [after_succ]
    have := update_inv hA ho (by rw [ih.2]; exact hX) ih.1 fit
    exact ⟨this.1, this.2.trans ih.2⟩

/-- The initial matrices. -/
theorem init_inv (hA : A.fin = finite) (ho : o.Ok) {X : Data} {k : ℕ} (hX : Fits X k) {d : Option Mat} {rnd : ℕ → ℕ → ℚ}
    (hr : ∀ i j, Double (rnd i j) ∧ 0 ≤ rnd i j ∧ rnd i j ≤ 1)
    (hd : ∀ D, d = some D → D.r = k ∧ D.c = X.mat.c ∧ Within D 1) :
    ∃ W H, init A o k d X rnd = .ok (W, H) ∧ Inv X W H ∧ H.r = k ∧ W = dot A o X.mat H.T ∧
      ∀ D, d = some D → H = D := by
  have key : ∀ H : Mat, H.r = k → H.c = X.mat.c → Within H 1 → Inv X (dot A o X.mat H.T) H := by
    intro H h1 h2 h3
    refine ⟨⟨rfl, rfl, h2⟩, fun i hi j hj => ?_, h3⟩
    exact (dot_within' hA ho hX.within (one_within (T_within h3)) h2.symm hX.c (by norm_num) i hi j hj).mono
      (pow_le (by norm_num))
  cases d with
  | some D =>
    obtain ⟨h1, h2, h3⟩ := hd D rfl
    refine ⟨_, D, ?_, key D h1 h2 h3, h1, rfl, fun D' h => Option.some.inj h⟩
    unfold init
    simp only []
    rw [if_pos ⟨h1, h2⟩]
  | none =>
    refine ⟨_, _, rfl, key _ rfl rfl ?_, rfl, rfl, fun D h => by cases h⟩
    refine normalizeSum1_within hA ho (e := 1) (fun i _ j _ => ?_) hX.c (by norm_num)
    obtain ⟨h1, h2, h3⟩ := hr i j
    refine add_nn hA (B := 1) (C := 1) ⟨|rnd i j|, rfl, by rwa [abs_of_nonneg h2], abs_nonneg _, by rwa [abs_of_nonneg h2]⟩
      ?_ (by norm_num) (double_pow 1) (pow_lt (by norm_num))
    rw [hA]
    exact finite_nn double_one (by norm_num) (by norm_num) (one_lt_pow₀ (by norm_num) (by norm_num))

theorem data_checked {X : Data} {k : ℕ} (hX : Fits X k) :
    (¬ ∃ i < X.mat.r, ∃ j < X.mat.c, (X.mat.e i j).isNone) ∧
      ¬ ∃ i < X.mat.r, ∃ j < X.mat.c, (X.mat.e i j).any (· < 0) := by
  constructor
  · rintro ⟨i, hi, j, hj, h⟩
    obtain ⟨x, hx, -⟩ := hX.within i hi j hj
    rw [hx] at h
    cases h
  · rintro ⟨i, hi, j, hj, h⟩
    obtain ⟨x, hx, -, h0, -⟩ := hX.within i hi j hj
    rw [hx] at h
    simp only [Option.any_some, decide_eq_true_eq] at h
    linarith

/-- The result of `fit_transform`. -/
theorem fit_run (hA : A.fin = finite) (ho : o.Ok) (s : Nmf) (X : Data) (rnd : ℕ → ℕ → ℚ)
    (hX : Fits X (setComponents s.nComponents X.mat.c)) (hm : 0 < s.maxIter)
    (hr : ∀ i j, Double (rnd i j) ∧ 0 ≤ rnd i j ∧ rnd i j ≤ 1)
    (hd : ∀ D, s.initDictionary = some D →
      D.r = setComponents s.nComponents X.mat.c ∧ D.c = X.mat.c ∧ Within D 1) :
    ∃ s' R H₀ n, fitTransform A o s X rnd true = (s', .ok R) ∧ 0 < n ∧ H₀.r = setComponents s.nComponents X.mat.c ∧
      Inv X (dot A o X.mat H₀.T) H₀ ∧ n ≤ s.maxIter ∧ R.W = (after A o X true (dot A o X.mat H₀.T) H₀ n).1 ∧
      s'.components = some (after A o X true (dot A o X.mat H₀.T) H₀ n).2 ∧
      R.errors = (List.range n).map (fun i => error A o X (after A o X true (dot A o X.mat H₀.T) H₀ i).1
        (after A o X true (dot A o X.mat H₀.T) H₀ i).2) ∧
      ∀ i, i + 1 < n → stop A (some (error A o X (after A o X true (dot A o X.mat H₀.T) H₀ i).1
          (after A o X true (dot A o X.mat H₀.T) H₀ i).2))
        (error A o X (after A o X true (dot A o X.mat H₀.T) H₀ (i + 1)).1
          (after A o X true (dot A o X.mat H₀.T) H₀ (i + 1)).2)
        (tolerance A s.tol X.mat.r X.mat.c) = false := by
  obtain ⟨W, H, h1, h2, h3, rfl, -⟩ := init_inv hA ho hX hr hd
  obtain ⟨n, a1, a2, a3, a4, a0, -, a6⟩ := loop_spec (A := A) (o := o) X true (tolerance A s.tol X.mat.r X.mat.c) s.maxIter 1
    none (dot A o X.mat H.T) H []
  refine ⟨⟨some (setComponents s.nComponents X.mat.c), s.initDictionary, s.tol, s.maxIter,
      some (loop A o X true (tolerance A s.tol X.mat.r X.mat.c) s.maxIter 1 none (dot A o X.mat H.T) H []).H⟩,
    ⟨_, _, decide ((loop A o X true (tolerance A s.tol X.mat.r X.mat.c) s.maxIter 1 none (dot A o X.mat H.T) H []).nIter
      = s.maxIter) && (tolerance A s.tol X.mat.r X.mat.c).any (0 < ·)⟩, H, n, ?_, a0 rfl hm, h3, h2, a1, a2, ?_, a4, a6⟩
  · unfold fitTransform
    rw [if_neg (data_checked hX).1, if_neg (data_checked hX).2]
    simp only [h1, if_true]
    rw [if_neg (by omega)]
  · simp only [a3]

/-- The result of `transform`. -/
theorem transform_run (hA : A.fin = finite) (ho : o.Ok) (s : Nmf) (X : Data) (rnd : ℕ → ℕ → ℚ) (H : Mat)
    (hX : Fits X H.r) (hm : 0 < s.maxIter) (hH : s.components = some H)
    (hk : H.r = setComponents s.nComponents X.mat.c) (hc : H.c = X.mat.c) (h1 : Within H 1) :
    ∃ s' R n, transform A o s X rnd = (s', .ok R) ∧ Inv X (dot A o X.mat H.T) H ∧ n ≤ s.maxIter ∧
      R.W = (after A o X false (dot A o X.mat H.T) H n).1 ∧ s'.components = some H ∧
      R.errors = (List.range n).map (fun i => error A o X (after A o X false (dot A o X.mat H.T) H i).1
        (after A o X false (dot A o X.mat H.T) H i).2) ∧
      ∀ i, i + 1 < n → stop A (some (error A o X (after A o X false (dot A o X.mat H.T) H i).1
          (after A o X false (dot A o X.mat H.T) H i).2))
        (error A o X (after A o X false (dot A o X.mat H.T) H (i + 1)).1
          (after A o X false (dot A o X.mat H.T) H (i + 1)).2)
        (tolerance A s.tol X.mat.r X.mat.c) = false := by
  have hinv : Inv X (dot A o X.mat H.T) H := by
    refine ⟨⟨rfl, rfl, hc⟩, fun i hi j hj => ?_, h1⟩
    exact (dot_within' hA ho hX.within (one_within (T_within h1)) hc.symm hX.c (by norm_num) i hi j hj).mono
      (pow_le (by norm_num))
  obtain ⟨n, a1, a2, a3, a4, a0, -, a6⟩ := loop_spec (A := A) (o := o) X false (tolerance A s.tol X.mat.r X.mat.c) s.maxIter 1
    none (dot A o X.mat H.T) H []
  refine ⟨⟨some (setComponents s.nComponents X.mat.c), some H, s.tol, s.maxIter, some H⟩,
    ⟨_, _, decide ((loop A o X false (tolerance A s.tol X.mat.r X.mat.c) s.maxIter 1 none (dot A o X.mat H.T) H []).nIter
      = s.maxIter) && (tolerance A s.tol X.mat.r X.mat.c).any (0 < ·)⟩, n, ?_, hinv, a1, a2, rfl, a4, a6⟩
  unfold transform
  rw [hH]
  simp only []
  unfold fitTransform
  rw [if_neg (data_checked hX).1, if_neg (data_checked hX).2]
  have hi : init A o (setComponents s.nComponents X.mat.c) (some H) X rnd = .ok (dot A o X.mat H.T, H) := by
    unfold init
    simp only []
    rw [if_pos ⟨hk, hc⟩]
  simp only [hi, Bool.false_eq_true, if_false]
  rw [if_neg (by omega)]

/-! ### C197: no infinity nor NaN -/

/-- C197: on data between zero and `2 ^ 400` (about `10 ^ 120`), `fit_transform` never computes an infinity or NaN: whatever
the order in which libraries add numbers, coefficients, components and errors are doubles, coefficients are not negative and
components are between zero and one. -/
theorem C197_fit (hA : IsDouble A) (ho : o.Ok) (s : Nmf) (X : Data) (rnd : ℕ → ℕ → ℚ)
    (hX : Fits X (setComponents s.nComponents X.mat.c)) (hm : 0 < s.maxIter)
    (hr : ∀ i j, Double (rnd i j) ∧ 0 ≤ rnd i j ∧ rnd i j ≤ 1)
    (hd : ∀ D, s.initDictionary = some D →
      D.r = setComponents s.nComponents X.mat.c ∧ D.c = X.mat.c ∧ Within D 1) :
    ∃ s' R H, fitTransform A o s X rnd true = (s', .ok R) ∧ s'.components = some H ∧
      R.W.r = X.mat.r ∧ R.W.c = setComponents s.nComponents X.mat.c ∧ Within R.W (2 ^ 459) ∧
      H.r = setComponents s.nComponents X.mat.c ∧ H.c = X.mat.c ∧ Within H 1 ∧
      ∀ e ∈ R.errors, ∃ v, e = some v ∧ Double v := by
  obtain ⟨s', R, H₀, n, h1, -, h2, h3, -, h5, h6, h7, -⟩ := fit_run hA.fin ho s X rnd hX hm hr hd
  have hX' : Fits X H₀.r := by rw [h2]; exact hX
  obtain ⟨⟨⟨b1, b2, b3⟩, b4, b5⟩, b6⟩ := after_inv hA.fin ho hX' h3 true n
  refine ⟨s', R, _, h1, h6, ?_, ?_, ?_, b6.trans h2, b3, b5, fun e he => ?_⟩
  · rw [h5, b1]
  · rw [h5, b2, b6, h2]
  · rw [h5]
    exact b4
  · rw [h7, List.mem_map] at he
    obtain ⟨i, -, rfl⟩ := he
    obtain ⟨c1, c2⟩ := after_inv hA.fin ho hX' h3 true i
    obtain ⟨v, v1, v2, -⟩ := error_bd hA ho (by rw [c2]; exact hX') c1
    exact ⟨v, v1, v2⟩

/-- C197: the number of components is the one which was given, or the number of features of the data when none was given, or
zero. -/
theorem C197_default (hA : IsDouble A) (ho : o.Ok) (s : Nmf) (X : Data) (rnd : ℕ → ℕ → ℚ) (n : ℕ)
    (hn : (s.nComponents = none ∨ s.nComponents = some 0) ∧ n = X.mat.c ∨ s.nComponents = some n ∧ n ≠ 0)
    (hX : Fits X n) (hm : 0 < s.maxIter) (hr : ∀ i j, Double (rnd i j) ∧ 0 ≤ rnd i j ∧ rnd i j ≤ 1)
    (hd : ∀ D, s.initDictionary = some D → D.r = n ∧ D.c = X.mat.c ∧ Within D 1) :
    ∃ s' R H, fitTransform A o s X rnd true = (s', .ok R) ∧ s'.components = some H ∧ R.W.c = n ∧ H.r = n := by
  have hk : setComponents s.nComponents X.mat.c = n := by
    rcases hn with ⟨h | h, rfl⟩ | ⟨h, h0⟩
    · rw [h]; rfl
    · rw [h]; rfl
    · rw [h]; exact if_neg h0
  obtain ⟨s', R, H, h1, h2, -, h3, -, h4, -⟩ := C197_fit hA ho s X rnd (hk ▸ hX) hm hr (by rw [hk]; exact hd)
  exact ⟨s', R, H, h1, h2, h3.trans hk, h4.trans hk⟩

/-- C197, for `transform` with components between zero and one. -/
theorem C197_transform (hA : IsDouble A) (ho : o.Ok) (s : Nmf) (X : Data) (rnd : ℕ → ℕ → ℚ) (H : Mat)
    (hX : Fits X H.r) (hm : 0 < s.maxIter) (hH : s.components = some H)
    (hk : H.r = setComponents s.nComponents X.mat.c) (hc : H.c = X.mat.c) (h1 : Within H 1) :
    ∃ s' R, transform A o s X rnd = (s', .ok R) ∧ s'.components = some H ∧ R.W.r = X.mat.r ∧ R.W.c = H.r ∧
      Within R.W (2 ^ 459) ∧ ∀ e ∈ R.errors, ∃ v, e = some v ∧ Double v := by
  obtain ⟨s', R, n, a1, a2, -, a4, a5, a6, -⟩ := transform_run hA.fin ho s X rnd H hX hm hH hk hc h1
  obtain ⟨⟨⟨b1, b2, b3⟩, b4, b5⟩, b6⟩ := after_inv hA.fin ho hX a2 false n
  refine ⟨s', R, a1, a5, ?_, ?_, ?_, fun e he => ?_⟩
  · rw [a4, b1]
  · rw [a4, b2, b6]
  · rw [a4]
    exact b4
  · rw [a6, List.mem_map] at he
    obtain ⟨i, -, rfl⟩ := he
    obtain ⟨c1, c2⟩ := after_inv hA.fin ho hX a2 false i
    obtain ⟨v, v1, v2, -⟩ := error_bd hA ho (by rw [c2]; exact hX) c1
    exact ⟨v, v1, v2⟩

/-! ### C198: zeros, errors and sums of components -/

theorem times_zero {a b : Num} (hA : A.fin = finite) (ha : a = some 0) (hb : ∃ y, b = some y) : times A a b = some 0 := by
  obtain ⟨y, rfl⟩ := hb
  subst ha
  show A.fin (0 * y) = _
  rw [hA, zero_mul]
  exact finite_double double_zero (by rw [abs_zero]; positivity)

/-- C198: coefficients and components which are zero stay zero. -/
theorem C198_zeros (hA : A.fin = finite) (ho : o.Ok) {X : Data} {W H : Mat} (hX : Fits X H.r) (hs : Shapes X W H)
    (hW : Within W (2 ^ 459)) (hH : Within H 1) (fit : Bool) (n : ℕ) :
    (∀ i < W.r, ∀ k < W.c, W.e i k = some 0 → (after A o X fit W H n).1.e i k = some 0) ∧
      ∀ k < H.r, ∀ j < H.c, H.e k j = some 0 → (after A o X fit W H n).2.e k j = some 0 := by
  have h : Inv X W H := ⟨hs, hW, hH⟩
  obtain ⟨s1, s2, s3⟩ := hs
  induction n with
  | zero => exact ⟨fun _ _ _ _ h => h, fun _ _ _ _ h => h⟩
  | succ n ih =>
    obtain ⟨c1, c2⟩ := after_inv hA ho hX h fit n
    have hX' : Fits X (after A o X fit W H n).2.r := by rw [c2]; exact hX
    obtain ⟨t1, t2, t3⟩ := c1.shapes
    have hQ := Q_within hA ho hX' c1
    rw [after_succ]
    constructor
    · intro i hi k hk h0
      refine times_zero hA (ih.1 i hi k hk h0) ?_
      obtain ⟨v, hv, -⟩ := dot_within' hA ho hQ (one_within (T_within c1.H)) t3.symm hX.c (by norm_num) i
        (show i < X.mat.r from s1 ▸ hi) k (show k < (after A o X fit W H n).2.r by rw [c2, ← s2]; exact hk)
      exact ⟨v, hv⟩
    · intro k hk j hj h0
      cases fit with
      | false => exact ih.2 k hk j hj h0
      | true =>
        have hW' := updatedW_within hA ho hX' c1
        have hdot := dot_within' hA ho (T_within hW') hQ t1 (show (after A o X true W H n).1.r ≤ _ by rw [t1]; exact hX.r) (by norm_num)
        have hkk : k < (after A o X true W H n).2.r := by rw [c2]; exact hk
        have hjj : j < X.mat.c := s3 ▸ hj
        have hmul : times A ((after A o X true W H n).2.e k j)
            ((dot A o (updatedW A o (after A o X true W H n).1 (after A o X true W H n).2
              (Q A o X (after A o X true W H n).1 (after A o X true W H n).2)).T
              (Q A o X (after A o X true W H n).1 (after A o X true W H n).2)).e k j) = some 0 := by
          refine times_zero hA (ih.2 k hk j hj h0) ?_
          obtain ⟨v, hv, -⟩ := hdot k (show k < (after A o X true W H n).1.c by rw [t2]; exact hkk) j hjj
          exact ⟨v, hv⟩
        have hden : Nn _ 1 := updatedH_within hA ho hX' c1 hW' rfl rfl k hkk j (show j < _ from t3 ▸ hjj)
        obtain ⟨q, hq, -⟩ := hden
        show (normalizeSum1 A o _).e k j = some 0
        unfold updatedH normalizeSum1 at hq
        unfold normalizeSum1
        simp only [] at hq ⊢
        change divide A (times A _ _) _ = some q at hq
        rw [hmul] at hq
        show divide A (times A _ _) _ = some 0
        rw [hmul]
        rcases hz : add A (A.fin (1 / 10 ^ 16)) (sumLine A o (mul A (after A o X true W H n).2
            (dot A o (updatedW A o (after A o X true W H n).1 (after A o X true W H n).2
              (Q A o X (after A o X true W H n).1 (after A o X true W H n).2)).T
              (Q A o X (after A o X true W H n).1 (after A o X true W H n).2))) k) with _ | z
        · rw [hz] at hq
          cases hq
        · rw [hz] at hq
          show (if z = 0 then none else A.fin (0 / z)) = some 0
          change (if z = 0 then none else A.fin (0 / z)) = some q at hq
          split_ifs at hq ⊢
          rw [hA, zero_div]
          exact finite_double double_zero (by rw [abs_zero]; positivity)

/-- Doubles are multiples of the smallest one. -/
theorem multiple_min {x : ℚ} (h : Double x) : ∃ m : ℤ, x = m * 2 ^ (-1074 : ℤ) := by
  obtain ⟨m, e, -, he, rfl⟩ := h
  exact multiple_of_le he

/-- Differences of different doubles are not rounded to zero. -/
theorem le_of_dbl_sub {x y : ℚ} (hx : Double x) (hy : Double y) (h : 0 ≤ dbl (x - y)) : y ≤ x := by
  by_contra hlt
  push Not at hlt
  obtain ⟨m, rfl⟩ := multiple_min hx
  obtain ⟨n, rfl⟩ := multiple_min hy
  have hq := two_zpow_pos (-1074)
  have hmn : m < n := by exact_mod_cast lt_of_mul_lt_mul_right hlt hq.le
  have h1 : (1 : ℚ) ≤ (n : ℚ) - m := by
    have : ((m + 1 : ℤ) : ℚ) ≤ n := by exact_mod_cast hmn
    push_cast at this
    linarith
  have hd : Double ((1 : ℚ) * 2 ^ (-1074 : ℤ)) := by
    have := double_mul (n := 1) (p := -1074) (by norm_num) (by norm_num)
    simpa using this
  have h2 := le_dbl hd (show (1 : ℚ) * 2 ^ (-1074 : ℤ) ≤ -((m : ℚ) * 2 ^ (-1074 : ℤ) - n * 2 ^ (-1074 : ℤ)) by nlinarith)
  rw [dbl_neg, one_mul] at h2
  linarith

theorem tolerance_nonneg (hA : A.fin = finite) {tol : ℚ} {r c : ℕ} (hd : Double tol) (h0 : 0 ≤ tol) (h1 : tol ≤ 2 ^ 900)
    (hr : r ≤ 2 ^ 53) (hc : c ≤ 2 ^ 53) : ∃ t, tolerance A tol r c = some t ∧ 0 ≤ t := by
  have nat : ∀ n : ℕ, n ≤ 2 ^ 53 → Nn (A.fin n) (2 ^ 53) := by
    intro n hn
    rw [hA]
    exact finite_nn (double_pow 53) (by positivity) (by exact_mod_cast hn) (pow_lt (by norm_num))
  obtain ⟨t, ht, -, h2, -⟩ := times_nn hA (times_nn hA (B := 2 ^ 900) ⟨tol, rfl, hd, h0, h1⟩ (nat r hr)
    (D := 2 ^ 953) (by norm_num) (double_pow _) (pow_lt (by norm_num))) (nat c hc) (D := 2 ^ 1006) (by norm_num)
    (double_pow _) (pow_lt (by norm_num))
  exact ⟨t, ht, h2⟩

/-- Errors which do not stop the loop do not increase. -/
theorem stop_false (hA : A.fin = finite) {a b : Num} {t : ℚ} (ha : Bd a (2 ^ 700)) (hb : Bd b (2 ^ 700)) (ht : 0 ≤ t)
    (h : stop A (some a) b (some t) = false) : ∃ x y, a = some x ∧ b = some y ∧ y ≤ x := by
  obtain ⟨x, rfl, hx, x1⟩ := ha
  obtain ⟨y, rfl, hy, y1⟩ := hb
  refine ⟨x, y, rfl, rfl, ?_⟩
  have hs : sub A (some x) (some y) = some (dbl (x - y)) := by
    show A.fin (x - y) = _
    rw [hA]
    refine finite_some (double_pow 701) ((abs_sub x y).trans ?_) (pow_lt (by norm_num))
    rw [pow_succ]
    linarith
  unfold stop at h
  simp only [hs, decide_eq_false_iff_not, not_lt] at h
  exact le_of_dbl_sub hx hy (ht.trans h)

/-- C198: errors recorded by `fit_transform` are at most `max_iter`, and do not increase when the tolerance is not
negative, as computed with doubles. -/
theorem C198_errors (hA : IsDouble A) (ho : o.Ok) (s s' : Nmf) (X : Data) (rnd : ℕ → ℕ → ℚ) (R : Result)
    (hX : Fits X (setComponents s.nComponents X.mat.c)) (hm : 0 < s.maxIter)
    (hr : ∀ i j, Double (rnd i j) ∧ 0 ≤ rnd i j ∧ rnd i j ≤ 1)
    (hd : ∀ D, s.initDictionary = some D →
      D.r = setComponents s.nComponents X.mat.c ∧ D.c = X.mat.c ∧ Within D 1)
    (ht : Double s.tol) (h0 : 0 ≤ s.tol) (h1 : s.tol ≤ 2 ^ 900) (h : fitTransform A o s X rnd true = (s', .ok R)) :
    R.errors.length ≤ s.maxIter ∧ ∀ i, i + 1 < R.errors.length →
      ∃ x y, R.errors[i]? = some (some x) ∧ R.errors[i + 1]? = some (some y) ∧ y ≤ x := by
  obtain ⟨s'', R', H₀, n, a1, -, a2, a3, a4, -, -, a7, a8⟩ := fit_run hA.fin ho s X rnd hX hm hr hd
  rw [h] at a1
  obtain ⟨t, ht, t0⟩ := tolerance_nonneg hA.fin ht h0 h1 hX.r hX.c
  cases a1
  have hX' : Fits X H₀.r := by rw [a2]; exact hX
  rw [a7, List.length_map, List.length_range]
  refine ⟨a4, fun i hi => ?_⟩
  have e : ∀ i, Bd (error A o X (after A o X true (dot A o X.mat H₀.T) H₀ i).1
      (after A o X true (dot A o X.mat H₀.T) H₀ i).2) (2 ^ 700) := fun i => by
    obtain ⟨c1, c2⟩ := after_inv hA.fin ho hX' a3 true i
    exact error_bd hA ho (by rw [c2]; exact hX') c1
  have h8 := a8 i hi
  rw [ht] at h8
  obtain ⟨x, y, hx, hy, hxy⟩ := stop_false hA.fin (e i) (e (i + 1)) t0 h8
  refine ⟨x, y, ?_, ?_, hxy⟩
  · rw [List.getElem?_map, List.getElem?_range (by omega)]
    exact congrArg some hx
  · rw [List.getElem?_map, List.getElem?_range hi]
    exact congrArg some hy

/-- Sums of products with zero are zero. -/
theorem eval_zero (hA : A.fin = finite) {a b : ℕ → Num} : ∀ (t : Plan), (∀ k ∈ t.leaves, a k = some 0 ∧ ∃ y, b k = some y) →
    t.eval A a b = some 0
  | .zero, _ => rfl
  | .term k, h => times_zero hA (h k (by simp [Plan.leaves])).1 (h k (by simp [Plan.leaves])).2
  | .plus p q, h => by
    unfold Plan.eval
    rw [eval_zero hA p fun k hk => h k (by simp [Plan.leaves, hk]),
      eval_zero hA q fun k hk => h k (by simp [Plan.leaves, hk])]
    show A.fin (0 + 0) = _
    rw [hA, add_zero]
    exact finite_double double_zero (by rw [abs_zero]; positivity)
  | .fma p k, h => by
    obtain ⟨h1, y, h2⟩ := h k (by simp [Plan.leaves])
    unfold Plan.eval
    rw [eval_zero hA p fun k hk => h k (by simp [Plan.leaves, hk]), h1, h2]
    show A.fin (0 + 0 * y) = _
    rw [hA, zero_mul, add_zero]
    exact finite_double double_zero (by rw [abs_zero]; positivity)

/-- C198: samples which are zero get zeros as coefficients, by `fit_transform` and by `transform`. -/
theorem C198_empty_samples (hA : A.fin = finite) (ho : o.Ok) (s s' : Nmf) (X : Data) (rnd : ℕ → ℕ → ℚ) (R : Result)
    (hX : Fits X (setComponents s.nComponents X.mat.c)) (hm : 0 < s.maxIter)
    (hr : ∀ i j, Double (rnd i j) ∧ 0 ≤ rnd i j ∧ rnd i j ≤ 1) (i : ℕ) (hi : i < X.mat.r)
    (hz : ∀ j < X.mat.c, X.mat.e i j = some 0)
    (h : (fitTransform A o s X rnd true = (s', .ok R) ∧ ∀ D, s.initDictionary = some D →
        D.r = setComponents s.nComponents X.mat.c ∧ D.c = X.mat.c ∧ Within D 1) ∨
      transform A o s X rnd = (s', .ok R) ∧ ∃ H, s.components = some H ∧
        H.r = setComponents s.nComponents X.mat.c ∧ H.c = X.mat.c ∧ Within H 1) :
    ∀ k < R.W.c, R.W.e i k = some 0 := by
  have init : ∀ H : Mat, H.c = X.mat.c → Within H 1 → ∀ k < H.r, (dot A o X.mat H.T).e i k = some 0 := by
    intro H hc hH k hk
    refine eval_zero hA _ fun j hj => ?_
    have hj' := (ho.dot X.mat H.T i k).2.1 j hj
    obtain ⟨y, hy, -⟩ := hH k hk j (hc ▸ hj')
    exact ⟨hz j hj', y, hy⟩
  rcases h with ⟨h, hd⟩ | ⟨h, H, hH, hk, hc, h1⟩
  · obtain ⟨s'', R', H₀, n, a1, -, a2, a3, -, a5, -⟩ := fit_run hA ho s X rnd hX hm hr hd
    rw [h] at a1
    cases a1
    have hX' : Fits X H₀.r := by rw [a2]; exact hX
    obtain ⟨⟨⟨b1, b2, b3⟩, b4, b5⟩, b6⟩ := after_inv hA ho hX' a3 true n
    intro k hk
    rw [a5] at hk ⊢
    rw [b2, b6] at hk
    exact (C198_zeros hA ho hX' a3.shapes a3.W a3.H true n).1 i hi k hk (init H₀ a3.shapes.2.2 a3.H k hk)
  · have hX' : Fits X H.r := by rw [hk]; exact hX
    obtain ⟨s'', R', n, a1, a2, -, a4, -⟩ := transform_run hA ho s X rnd H hX' hm hH hk hc h1
    rw [h] at a1
    cases a1
    obtain ⟨⟨⟨b1, b2, b3⟩, b4, b5⟩, b6⟩ := after_inv hA ho hX' a2 false n
    intro k hk
    rw [a4] at hk ⊢
    rw [b2, b6] at hk
    exact (C198_zeros hA ho hX' a2.shapes a2.W a2.H false n).1 i hi k hk (init H hc h1 k hk)

/-! ### Sums of components -/

/-- Additions of doubles have a relative error at most `2 ^ -53`, even for tiny numbers. -/
theorem dbl_add {a b : ℚ} (ha : Double a) (hb : Double b) : |dbl (a + b) - (a + b)| ≤ |a + b| / 2 ^ 53 := by
  obtain ⟨m, hm⟩ := multiple_min ha
  obtain ⟨n, hn⟩ := multiple_min hb
  rcases eq_or_ne (a + b) 0 with h0 | h0
  · rw [h0, dbl_zero, sub_self, abs_zero]
    positivity
  rcases le_or_gt (Int.log 2 |a + b| - 52) (-1074) with h | h
  · have he : expo (a + b) = -1074 := by
      unfold expo
      exact max_eq_right h
    have : dbl (a + b) = a + b := dbl_of_multiple (m := m + n) (by
      rw [he]
      conv_lhs => rw [hm, hn]
      push_cast
      ring)
    rw [this, sub_self, abs_zero]
    positivity
  · have he : expo (a + b) = Int.log 2 |a + b| - 52 := by
      unfold expo
      exact max_eq_left h.le
    refine (dbl_err _).trans ?_
    have hl := Int.zpow_log_le_self (b := 2) (by norm_num) (abs_pos.2 h0)
    rw [he, zpow_sub₀ (by norm_num)]
    have h52 : (2 : ℚ) ^ (52 : ℤ) = 2 ^ 52 := zpow_ofNat _ _
    rw [h52, div_div, ← pow_succ]
    gcongr
    exact_mod_cast hl

/-- Sums of doubles which are not negative lose at most a factor for each addition. -/
theorem sum_lower (hA : A.fin = finite) {a : ℕ → Num} {f : ℕ → ℚ} : ∀ (t : Plan) {v : ℚ}, t.eval A a ones = some v →
    (∀ k ∈ t.leaves, a k = some (f k) ∧ Double (f k) ∧ 0 ≤ f k) →
    (1 - 1 / 2 ^ 53) ^ (t.leaves.length - 1) * (t.leaves.map f).sum ≤ v ∧ 0 ≤ (t.leaves.map f).sum ∧ Double v := by
  have fin : ∀ {x v : ℚ}, A.fin x = some v → v = dbl x := by
    intro x v h
    rw [hA] at h
    unfold finite at h
    split_ifs at h
    exact (Option.some.inj h).symm
  have low : ∀ {a b : ℚ}, Double a → Double b → 0 ≤ a → 0 ≤ b → (1 - 1 / 2 ^ 53) * (a + b) ≤ dbl (a + b) := by
    intro a b ha hb h0 h1
    have := (abs_le.1 (dbl_add ha hb)).1
    rw [abs_of_nonneg (by linarith)] at this
    linarith
  have u0 : (0 : ℚ) ≤ 1 - 1 / 2 ^ 53 := by norm_num
  have u1 : (1 : ℚ) - 1 / 2 ^ 53 ≤ 1 := by norm_num
  -- two sums, of `m + 1` and `n + 1` terms
  have join : ∀ {m n : ℕ} {S T v w : ℚ}, 0 ≤ S → 0 ≤ T → (1 - 1 / 2 ^ 53) ^ m * S ≤ v → (1 - 1 / 2 ^ 53) ^ n * T ≤ w →
      Double v → Double w → (1 - 1 / 2 ^ 53) ^ (m + n + 1) * (S + T) ≤ dbl (v + w) := by
    intro m n S T v w hS hT hv hw dv dw
    have pm : (0 : ℚ) ≤ (1 - 1 / 2 ^ 53) ^ m := pow_nonneg u0 m
    have pn : (0 : ℚ) ≤ (1 - 1 / 2 ^ 53) ^ n := pow_nonneg u0 n
    refine le_trans ?_ (low dv dw ((mul_nonneg pm hS).trans hv) ((mul_nonneg pn hT).trans hw))
    have h1 : (1 - 1 / 2 ^ 53 : ℚ) ^ (m + n) * S ≤ v :=
      le_trans (mul_le_mul_of_nonneg_right (pow_le_pow_of_le_one u0 u1 (by omega)) hS) hv
    have h2 : (1 - 1 / 2 ^ 53 : ℚ) ^ (m + n) * T ≤ w :=
      le_trans (mul_le_mul_of_nonneg_right (pow_le_pow_of_le_one u0 u1 (by omega)) hT) hw
    calc (1 - 1 / 2 ^ 53 : ℚ) ^ (m + n + 1) * (S + T)
        = (1 - 1 / 2 ^ 53) * ((1 - 1 / 2 ^ 53) ^ (m + n) * S + (1 - 1 / 2 ^ 53) ^ (m + n) * T) := by ring
      _ ≤ _ := by gcongr
  intro t
  induction t with
  | zero =>
    intro v h _
    cases h
    simp [Plan.leaves, double_zero]
  | term k =>
    intro v h hk
    obtain ⟨h1, h2, h3⟩ := hk k (by simp [Plan.leaves])
    change times A (a k) (ones k) = some v at h
    rw [h1] at h
    have := fin (show A.fin (f k * 1) = some v from h)
    rw [mul_one, dbl_of_double h2] at this
    subst this
    simpa [Plan.leaves] using ⟨h3, h2⟩
  | plus p q ihp ihq =>
    intro v h hk
    change add A (p.eval A a ones) (q.eval A a ones) = some v at h
    rcases h1 : p.eval A a ones with _ | x
    · rw [h1] at h
      cases h
    rcases h2 : q.eval A a ones with _ | y
    · rw [h1, h2] at h
      cases h
    rw [h1, h2] at h
    have := fin (show A.fin (x + y) = some v from h)
    subst this
    obtain ⟨a1, a2, a3⟩ := ihp h1 fun k h => hk k (by simp [Plan.leaves, h])
    obtain ⟨b1, b2, b3⟩ := ihq h2 fun k h => hk k (by simp [Plan.leaves, h])
    simp only [Plan.leaves, List.map_append, List.sum_append, List.length_append]
    refine ⟨?_, add_nonneg a2 b2, dbl_double _⟩
    rcases hp : p.leaves with _ | ⟨l, ls⟩
    · rw [hp] at a1 a2
      simp only [List.map_nil, List.sum_nil, mul_zero, List.length_nil, zero_add] at a1 a2 ⊢
      exact b1.trans (le_dbl b3 (by linarith))
    · rcases hq : q.leaves with _ | ⟨r, rs⟩
      · rw [hq] at b1 b2
        rw [← hp]
        simp only [List.map_nil, List.sum_nil, mul_zero, List.length_nil, add_zero] at b1 b2 ⊢
        exact a1.trans (le_dbl a3 (by linarith))
      · rw [← hp, ← hq]
        have e : p.leaves.length + q.leaves.length - 1 = (p.leaves.length - 1) + (q.leaves.length - 1) + 1 := by
          rw [hp, hq]
          simp only [List.length_cons]
          omega
        rw [e]
        exact join a2 b2 a1 b1 a3 b3
  | fma p k ih =>
    intro v h hk
    obtain ⟨h1, h2, h3⟩ := hk k (by simp [Plan.leaves])
    rcases h4 : p.eval A a ones with _ | x
    · unfold Plan.eval at h
      rw [h4] at h
      cases h
    unfold Plan.eval at h
    rw [h4, h1] at h
    have := fin (show A.fin (x + f k * 1) = some v from h)
    rw [mul_one] at this
    subst this
    obtain ⟨a1, a2, a3⟩ := ih h4 fun k h => hk k (by simp [Plan.leaves, h])
    simp only [Plan.leaves, List.map_append, List.sum_append, List.length_append, List.map_cons, List.map_nil,
      List.sum_cons, List.sum_nil, add_zero, List.length_cons, List.length_nil, zero_add]
    refine ⟨?_, add_nonneg a2 h3, dbl_double _⟩
    rcases hp : p.leaves with _ | ⟨l, ls⟩
    · rw [hp] at a1
      simp only [List.map_nil, List.sum_nil, mul_zero, List.length_nil, zero_add, Nat.sub_self, pow_zero, one_mul] at a1 ⊢
      exact le_dbl h2 (by linarith)
    · rw [← hp]
      have e : p.leaves.length + 1 - 1 = (p.leaves.length - 1) + 0 + 1 := by
        rw [hp]
        simp only [List.length_cons]
        omega
      rw [e]
      exact join (n := 0) a2 h3 a1 (by rw [pow_zero, one_mul]) a3 h2

open Finset in
/-- C198: the (exact) sum of the numbers of a component computed by an update is at most one, up to one rounding for each
feature. -/
theorem C198_component_sums (hA : A.fin = finite) (ho : o.Ok) {H : Mat} {e : ℕ} (hH : Within H (2 ^ e))
    (hc : H.c ≤ 2 ^ 53) (he : 54 + e < 1024) (k : ℕ) (hk : k < H.r) :
    ∑ j ∈ range H.c, ((normalizeSum1 A o H).e k j).getD 0 ≤
      (1 + 1 / 2 ^ 53) / (1 - 1 / 2 ^ 53) ^ H.c + H.c / 2 ^ 1075 := by
  obtain ⟨v, den, v1, v2, -, h2, h3, h4⟩ := normalizeSum1_spec hA ho hH hc he hk
  choose! f hf using hH k hk
  have hcov := ho.line H k
  obtain ⟨b1, b2, -⟩ := sum_lower hA (o.line H k) (f := f) v1 fun j hj => by
    obtain ⟨c1, c2, c3, -⟩ := hf j (hcov.2.1 j hj)
    exact ⟨c1, c2, c3⟩
  have hsum : ((o.line H k).leaves.map f).sum = ∑ j ∈ range H.c, f j := by
    rw [← List.sum_toFinset f hcov.1]
    refine sum_subset (fun j hj => mem_range.2 (hcov.2.1 j (List.mem_toFinset.1 hj))) fun j hj hn => ?_
    rw [List.mem_toFinset] at hn
    rw [mem_range] at hj
    rcases hcov.2.2 j hj hn with h | h
    · rw [(hf j hj).1] at h
      exact Option.some.inj h
    · have := Option.some.inj h
      norm_num at this
  have u0 : (0 : ℚ) < 1 - 1 / 2 ^ 53 := by norm_num
  have u1 : (1 : ℚ) - 1 / 2 ^ 53 ≤ 1 := by norm_num
  have hS : ∑ j ∈ range H.c, f j ≤ den / (1 - 1 / 2 ^ 53) ^ H.c := by
    rw [le_div_iff₀ (pow_pos u0 _), ← hsum, mul_comm]
    have : (1 - 1 / 2 ^ 53 : ℚ) ^ H.c ≤ (1 - 1 / 2 ^ 53) ^ ((o.line H k).leaves.length - 1) :=
      pow_le_pow_of_le_one u0.le u1 (by have := leaves_length hcov; omega)
    exact (mul_le_mul_of_nonneg_right this b2).trans (b1.trans h2)
  have hterm : ∀ j ∈ range H.c, ((normalizeSum1 A o H).e k j).getD 0 ≤ (1 + 1 / 2 ^ 53) / den * f j + 1 / 2 ^ 1075 := by
    intro j hj
    rw [mem_range] at hj
    obtain ⟨c1, -, c3, -⟩ := hf j hj
    rw [h4 j hj _ c1, Option.getD_some]
    have := (abs_le.1 (dbl_near (f j / den))).2
    rw [abs_of_nonneg (div_nonneg c3 h3.le)] at this
    have e1 : (1 + 1 / 2 ^ 53) / den * f j = f j / den + f j / den / 2 ^ 53 := by ring
    linarith
  refine (sum_le_sum hterm).trans ?_
  rw [sum_add_distrib, ← mul_sum, sum_const, card_range, nsmul_eq_mul]
  have e2 : (1 + 1 / 2 ^ 53) / den * ∑ j ∈ range H.c, f j ≤ (1 + 1 / 2 ^ 53) / (1 - 1 / 2 ^ 53) ^ H.c := by
    calc (1 + 1 / 2 ^ 53) / den * ∑ j ∈ range H.c, f j ≤ (1 + 1 / 2 ^ 53) / den * (den / (1 - 1 / 2 ^ 53) ^ H.c) := by gcongr
      _ = _ := by field_simp
  rw [mul_one_div]
  linarith

open Finset in
/-- C198: after `fit_transform` on data with at most `2 ^ 20` features, the (exact) sum of the numbers of each component is
at most `1 + 2 ^ -32`. -/
theorem C198_fit_sums (hA : A.fin = finite) (ho : o.Ok) (s s' : Nmf) (X : Data) (rnd : ℕ → ℕ → ℚ) (R : Result) (H : Mat)
    (hX : Fits X (setComponents s.nComponents X.mat.c)) (hm : 0 < s.maxIter)
    (hr : ∀ i j, Double (rnd i j) ∧ 0 ≤ rnd i j ∧ rnd i j ≤ 1)
    (hd : ∀ D, s.initDictionary = some D →
      D.r = setComponents s.nComponents X.mat.c ∧ D.c = X.mat.c ∧ Within D 1)
    (hc : X.mat.c ≤ 2 ^ 20) (h : fitTransform A o s X rnd true = (s', .ok R)) (hH : s'.components = some H) :
    ∀ k < H.r, ∑ j ∈ range X.mat.c, (H.e k j).getD 0 ≤ 1 + 1 / 2 ^ 32 := by
  obtain ⟨s'', R', H₀, n, a1, a0, a2, a3, -, -, a6, -⟩ := fit_run hA ho s X rnd hX hm hr hd
  rw [h] at a1
  cases a1
  rw [hH] at a6
  cases a6
  have hX' : Fits X H₀.r := by rw [a2]; exact hX
  obtain ⟨n, rfl⟩ : ∃ m, n = m + 1 := ⟨n - 1, by omega⟩
  obtain ⟨c1, c2⟩ := after_inv hA ho hX' a3 true n
  intro k hk
  rw [after_succ] at hk ⊢
  have hX'' : Fits X (after A o X true (dot A o X.mat H₀.T) H₀ n).2.r := by rw [c2]; exact hX'
  obtain ⟨t1, t2, t3⟩ := c1.shapes
  have hW' := updatedW_within hA ho hX'' c1
  have hdot := dot_within' hA ho (T_within hW') (Q_within hA ho hX'' c1) t1
    (show (after A o X true (dot A o X.mat H₀.T) H₀ n).1.r ≤ _ by rw [t1]; exact hX.r) (by norm_num)
  have := C198_component_sums hA ho (H := mul A (after A o X true (dot A o X.mat H₀.T) H₀ n).2
    (dot A o (updatedW A o (after A o X true (dot A o X.mat H₀.T) H₀ n).1 (after A o X true (dot A o X.mat H₀.T) H₀ n).2
      (Q A o X (after A o X true (dot A o X.mat H₀.T) H₀ n).1 (after A o X true (dot A o X.mat H₀.T) H₀ n).2)).T
      (Q A o X (after A o X true (dot A o X.mat H₀.T) H₀ n).1 (after A o X true (dot A o X.mat H₀.T) H₀ n).2)))
    (e := 53 + 459 + 428) (fun k hk j hj => times_nn hA (c1.H k hk j hj)
      (hdot k (show k < (after A o X true (dot A o X.mat H₀.T) H₀ n).1.c by rw [t2]; exact hk) j
        (show j < X.mat.c from t3 ▸ hj)) (by rw [one_mul]) (double_pow _) (pow_lt (by norm_num)))
    (show (after A o X true (dot A o X.mat H₀.T) H₀ n).2.c ≤ _ by rw [t3]; exact hX.c) (by norm_num) k hk
  have hcc : (mul A (after A o X true (dot A o X.mat H₀.T) H₀ n).2
    (dot A o (updatedW A o (after A o X true (dot A o X.mat H₀.T) H₀ n).1 (after A o X true (dot A o X.mat H₀.T) H₀ n).2
      (Q A o X (after A o X true (dot A o X.mat H₀.T) H₀ n).1 (after A o X true (dot A o X.mat H₀.T) H₀ n).2)).T
      (Q A o X (after A o X true (dot A o X.mat H₀.T) H₀ n).1 (after A o X true (dot A o X.mat H₀.T) H₀ n).2))).c = X.mat.c := t3
  rw [hcc] at this
  refine le_trans this ?_
  have hcq : (X.mat.c : ℚ) ≤ 2 ^ 20 := by exact_mod_cast hc
  have bern := one_add_mul_le_pow (show (-2 : ℚ) ≤ -(1 / 2 ^ 53) by norm_num) X.mat.c
  have hlow : (1 : ℚ) - 1 / 2 ^ 33 ≤ (1 - 1 / 2 ^ 53) ^ X.mat.c := by
    rw [sub_eq_add_neg (1 : ℚ) (1 / 2 ^ 53)]
    refine le_trans ?_ bern
    have : (X.mat.c : ℚ) * (1 / 2 ^ 53) ≤ 2 ^ 20 * (1 / 2 ^ 53) := by gcongr
    have e : (2 : ℚ) ^ 20 * (1 / 2 ^ 53) = 1 / 2 ^ 33 := by norm_num
    linarith
  have h1 : (1 + 1 / 2 ^ 53 : ℚ) / (1 - 1 / 2 ^ 53) ^ X.mat.c ≤ (1 + 1 / 2 ^ 53) / (1 - 1 / 2 ^ 33) := by
    gcongr
  have h2 : (X.mat.c : ℚ) / 2 ^ 1075 ≤ 2 ^ 20 / 2 ^ 1075 := by gcongr
  have h3 : (1 + 1 / 2 ^ 53 : ℚ) / (1 - 1 / 2 ^ 33) + 2 ^ 20 / 2 ^ 1075 ≤ 1 + 1 / 2 ^ 32 := by norm_num
  exact (add_le_add h1 h2).trans h3

/-! ### Examples -/

/-- Sums in the order of indices. -/
def seq : ℕ → Plan
  | 0 => .zero
  | n + 1 => .fma (seq n) n

theorem seq_leaves (n : ℕ) : (seq n).leaves = List.range n := by
  induction n with
  | zero => rfl
  | succ n ih => rw [List.range_succ, ← ih]; rfl

theorem seq_covers (n : ℕ) (a b : ℕ → Num) : (seq n).Covers n a b := by
  unfold Plan.Covers
  rw [seq_leaves]
  exact ⟨List.nodup_range, fun k hk => List.mem_range.1 hk, fun k hk h => absurd (List.mem_range.2 hk) h⟩

/-- Libraries which add in the order of indices, with fused operations. -/
def seqOrder : Order where
  dot M _ _ _ := seq M.c
  line M _ := seq M.c
  col M _ := seq M.r
  all M := seq (M.r * M.c)

theorem seqOrder_ok : seqOrder.Ok :=
  ⟨fun _ _ _ _ => seq_covers _ _ _, fun _ _ => seq_covers _ _ _, fun _ _ => seq_covers _ _ _, fun _ => seq_covers _ _ _⟩

/-- Doubles, with a logarithm which is off by a lot. -/
def doubles : Arith := ⟨finite, fun y => some (if y < 1 then -1 else 1)⟩

theorem doubles_ok : IsDouble doubles := by
  refine ⟨rfl, fun y _ _ _ => ⟨_, rfl, ?_, ?_⟩⟩
  · split_ifs
    · exact ⟨-1, 0, by norm_num, by norm_num, by norm_num⟩
    · exact double_one
  · split_ifs <;> norm_num

/-- A matrix with one line. -/
def row (l : List ℚ) : Mat := ⟨1, l.length, fun _ j => l[j]?⟩

theorem row_within {l : List ℚ} {B : ℚ} (h : ∀ x ∈ l, Double x ∧ 0 ≤ x ∧ x ≤ B) : Within (row l) B := by
  intro i _ j hj
  change j < l.length at hj
  obtain ⟨h1, h2, h3⟩ := h _ (List.getElem_mem hj)
  exact ⟨l[j], List.getElem?_eq_getElem hj, h1, h2, h3⟩

theorem row_fits {b : Bool} {l : List ℚ} (hl : l.length ≤ 2 ^ 53) (h : ∀ x ∈ l, Double x ∧ 0 ≤ x ∧ x ≤ 2 ^ 400) :
    Fits ⟨b, row l⟩ 1 :=
  ⟨row_within h, by norm_num [row], hl, by simpa [row] using hl, by norm_num⟩

theorem double_nat (n : ℕ) (h : n ≤ 2 ^ 53) : Double n := by
  simpa using double_mul (p := 0) h (by norm_num)

/-- C197 on an example: two features, one component. -/
example : ∃ s' R H, fitTransform doubles seqOrder ⟨some 1, some (row [1, 0]), 0, 5, none⟩ ⟨false, row [3, 10 ^ 15]⟩
    (fun _ _ => 0) true = (s', .ok R) ∧ s'.components = some H ∧ R.W.r = 1 ∧ R.W.c = 1 ∧ Within R.W (2 ^ 459) ∧
      H.r = 1 ∧ H.c = 2 ∧ Within H 1 ∧ ∀ e ∈ R.errors, ∃ v, e = some v ∧ Double v := by
  refine C197_fit doubles_ok seqOrder_ok _ _ _ (row_fits (by norm_num) ?_) (by norm_num)
    (fun _ _ => ⟨double_zero, le_rfl, by norm_num⟩) ?_
  · intro x hx
    rcases List.mem_cons.1 hx with rfl | hx
    · exact ⟨by simpa using double_nat 3 (by norm_num), by norm_num, by norm_num⟩
    · rw [List.mem_singleton.1 hx]
      exact ⟨by exact_mod_cast double_nat (10 ^ 15) (by norm_num), by norm_num, by norm_num⟩
  · rintro D hD
    obtain rfl := Option.some.inj hD
    refine ⟨rfl, rfl, row_within fun x hx => ?_⟩
    rcases List.mem_cons.1 hx with rfl | hx
    · exact ⟨double_one, by norm_num, by norm_num⟩
    · rw [List.mem_singleton.1 hx]
      exact ⟨double_zero, by norm_num, by norm_num⟩

theorem small_row : ∀ x ∈ [1, (0 : ℚ)], Double x ∧ 0 ≤ x ∧ x ≤ 1 := by
  intro x hx
  rcases List.mem_cons.1 hx with rfl | hx
  · exact ⟨double_one, by norm_num, by norm_num⟩
  · rw [List.mem_singleton.1 hx]
    exact ⟨double_zero, by norm_num, by norm_num⟩

theorem small_fits {b : Bool} : Fits ⟨b, row [1, 0]⟩ 1 :=
  row_fits (by norm_num) fun x hx => ⟨(small_row x hx).1, (small_row x hx).2.1,
    (small_row x hx).2.2.trans (one_le_pow₀ (by norm_num))⟩

/-- C198 on examples: a zero of the components, and the errors and sums of a fit of sparse data. -/
example (n : ℕ) : (after doubles seqOrder ⟨true, row [1, 0]⟩ true (row [0]) (row [1, 0]) n).1.e 0 0 = some 0 ∧
    (after doubles seqOrder ⟨true, row [1, 0]⟩ true (row [0]) (row [1, 0]) n).2.e 0 1 = some 0 := by
  have h := C198_zeros (A := doubles) rfl seqOrder_ok (X := ⟨true, row [1, 0]⟩) (W := row [0]) (H := row [1, 0]) small_fits
    ⟨rfl, rfl, rfl⟩ (row_within fun x hx => by
      rw [List.mem_singleton.1 hx]
      exact ⟨double_zero, le_rfl, by positivity⟩) (row_within small_row) true n
  exact ⟨h.1 0 (by norm_num [row]) 0 (by norm_num [row]) rfl, h.2 0 (by norm_num [row]) 1 (by norm_num [row]) rfl⟩

example (s' : Nmf) (R : Result) (h : fitTransform doubles seqOrder ⟨some 1, none, 0, 7, none⟩ ⟨true, row [1, 0]⟩
    (fun _ _ => 0) true = (s', .ok R)) : R.errors.length ≤ 7 :=
  (C198_errors doubles_ok seqOrder_ok _ _ _ _ _ small_fits (by norm_num) (fun _ _ => ⟨double_zero, le_rfl, by norm_num⟩)
    (fun _ h => by cases h) double_zero le_rfl (by positivity) h).1

example (s' : Nmf) (R : Result) (H : Mat) (h : fitTransform doubles seqOrder ⟨some 1, none, 0, 7, none⟩ ⟨true, row [1, 0]⟩
    (fun _ _ => 0) true = (s', .ok R)) (hH : s'.components = some H) (hk : 0 < H.r) :
    ∑ j ∈ Finset.range 2, (H.e 0 j).getD 0 ≤ 1 + 1 / 2 ^ 32 :=
  C198_fit_sums (A := doubles) rfl seqOrder_ok _ _ _ _ _ _ small_fits (by norm_num)
    (fun _ _ => ⟨double_zero, le_rfl, by norm_num⟩) (fun _ h => by cases h) (by norm_num [row]) h hH 0 hk

/-- C197: without a bound of the data, coefficients may be infinite or NaN: here the second feature, which is `2 ^ 1000`, is
zero in the component. -/
theorem C197_overflow : ((after doubles seqOrder ⟨false, row [1, 2 ^ 1000]⟩ false (row [1]) (row [1, 0]) 1).1).e 0 0 = none := by
  decide +kernel

/-- C198: a positive number may become zero, and is then zero forever: the coefficient of `2 ^ -1074` on a component which is
one half. -/
theorem C198_underflow : (dot doubles seqOrder (row [1 / 2 ^ 1074]) (row [1 / 2]).T).e 0 0 = some 0 ∧
    (dot doubles seqOrder (row [1 / 2 ^ 1074]) (row [1]).T).e 0 0 = some (1 / 2 ^ 1074) := by
  decide +kernel

end Verif.NMF.D
