import Verif.Experiment.CoefsDouble
import Verif.Learner.PropsDouble

/-!
# Property C239: default coefficients of modalities with doubles
-/

namespace Verif.Learner.D

open Verif.NMF.D Verif.Window

variable {M : Type} [DecidableEq M] {A : Arith} {o : Order}

/-- The values of a matrix. -/
def entryOf (X : Data) (i j : ℕ) : ℚ := (X.mat.e i j).getD 0

theorem fin_nat (hA : A.fin = finite) {n : ℕ} (hn : n ≤ 2 ^ 53) : A.fin (n : ℚ) = some (n : ℚ) := by
  rw [hA]
  refine finite_double (double_nat n hn) ?_
  rw [abs_of_nonneg (by positivity)]
  have : (n : ℚ) ≤ 2 ^ 53 := by exact_mod_cast hn
  exact lt_of_le_of_lt this (pow_lt (by norm_num))

theorem double_inv (g : ℕ) (hg : g ≤ 1074) : Double (1 / (2 : ℚ) ^ g) := by
  have := double_mul (n := 1) (p := -(g : ℤ)) (by norm_num) (by omega)
  rw [zpow_neg, zpow_natCast] at this
  simpa using this

theorem row_sums (hA : A.fin = finite) (ho : o.Ok) {X : Data} {e : ℕ} (hX : Within X.mat (2 ^ e)) (hr : X.mat.r ≤ 2 ^ 53)
    (hc : X.mat.c ≤ 2 ^ 53) (he : e ≤ 900) : ∃ T, sumCol A o (rowSums A o X) 0 = some T ∧ Double T ∧ 0 ≤ T ∧
      T ≤ X.mat.r * 2 ^ (53 + e) ∧ ∀ i < X.mat.r, ∀ j < X.mat.c, entryOf X i j ≤ T := by
  have hz : ((2 : ℚ) ^ ((53 + e : ℕ) : ℤ)) = 2 ^ (53 + e) := zpow_natCast _ _
  have hline : ∀ i < X.mat.r, _ := fun i hi => sumLine_nn hA ho hX hc (by omega) hi
  obtain ⟨T, h1, h2, h3, h4, h5⟩ := sum_nn hA (ho.col (rowSums A o X) 0) (p := ((53 + e : ℕ) : ℤ)) (by omega) hr
    (by rw [hz, ← pow_add]; exact pow_lt (by omega)) fun i hi => by
      obtain ⟨v, v1, v2, v3, v4, -⟩ := hline i hi
      exact ⟨v, 1, v1, rfl, by rwa [mul_one], by rwa [mul_one, hz]⟩
  rw [hz] at h4
  refine ⟨T, h1, h2, h3, h4, fun i hi j hj => ?_⟩
  obtain ⟨v, v1, v2, v3, v4, v5⟩ := hline i hi
  obtain ⟨x, hx, -⟩ := hX i hi j hj
  have h6 := h5 i hi v 1 v1 rfl
  rw [mul_one, dbl_of_double v2] at h6
  unfold entryOf
  rw [hx]
  exact (v5 j hj x hx).trans h6

/-- **C239.** The default coefficient of data between zero and `2 ^ e`, one of which is at least `2 ^ -g`, is a positive double, between
`2 ^ -(53 + e)` and `2 ^ (53 + g)`. -/
theorem C239_range (hA : A.fin = finite) (ho : o.Ok) (X : Data) (e g : ℕ) (hX : Within X.mat (2 ^ e)) (hr : X.mat.r ≤ 2 ^ 53)
    (hc : X.mat.c ≤ 2 ^ 53) (he : e ≤ 900) (hg : g ≤ 900) (i j : ℕ) (hi : i < X.mat.r) (hj : j < X.mat.c) (x : ℚ)
    (hx : X.mat.e i j = some x) (hpos : 1 / 2 ^ g ≤ x) :
    ∃ c, defaultCoef A o X = some c ∧ Double c ∧ 1 / 2 ^ (53 + e) ≤ c ∧ c ≤ 2 ^ (53 + g) := by
  obtain ⟨T, h1, h2, h3, h4, h5⟩ := row_sums hA ho hX hr hc he
  have hT : 1 / 2 ^ g ≤ T := by
    have := h5 i hi j hj
    unfold entryOf at this
    rw [hx] at this
    exact hpos.trans this
  have hn0 : (0 : ℚ) < X.mat.r := by exact_mod_cast (lt_of_le_of_lt (Nat.zero_le i) hi)
  have hn : (X.mat.r : ℚ) ≤ 2 ^ 53 := by exact_mod_cast hr
  have hup : T / X.mat.r ≤ 2 ^ (53 + e) := by
    rw [div_le_iff₀ hn0]
    linarith
  have hlow : 1 / 2 ^ (53 + g) ≤ T / X.mat.r := by
    rw [pow_add, le_div_iff₀ hn0]
    have : 1 / ((2 : ℚ) ^ 53 * 2 ^ g) * X.mat.r ≤ 1 / (2 ^ 53 * 2 ^ g) * 2 ^ 53 := by gcongr
    refine this.trans (le_trans (le_of_eq ?_) hT)
    field_simp
  have ha : divide A (some T) (A.fin X.mat.r) = some (dbl (T / X.mat.r)) := by
    rw [fin_nat hA hr]
    show (if (X.mat.r : ℚ) = 0 then none else A.fin (T / X.mat.r)) = _
    rw [if_neg hn0.ne', hA]
    refine finite_some (double_pow (53 + e)) ?_ (pow_lt (by omega))
    rwa [abs_of_nonneg (by positivity)]
  have hd1 : 1 / 2 ^ (53 + g) ≤ dbl (T / X.mat.r) := le_dbl (double_inv _ (by omega)) hlow
  have hd2 : dbl (T / X.mat.r) ≤ 2 ^ (53 + e) := dbl_le (double_pow _) hup
  have hd0 : 0 < dbl (T / X.mat.r) := lt_of_lt_of_le (by positivity) hd1
  have hc1 : 1 / dbl (T / X.mat.r) ≤ 2 ^ (53 + g) := by
    rw [div_le_iff₀ hd0]
    rw [div_le_iff₀ (by positivity)] at hd1
    linarith
  have hc2 : 1 / 2 ^ (53 + e) ≤ 1 / dbl (T / X.mat.r) := one_div_le_one_div_of_le hd0 hd2
  refine ⟨dbl (1 / dbl (T / X.mat.r)), ?_, dbl_double _, le_dbl (double_inv _ (by omega)) hc2, dbl_le (double_pow _) hc1⟩
  unfold defaultCoef
  rw [h1, ha]
  show (if dbl (T / X.mat.r) = 0 then none else A.fin (1 / dbl (T / X.mat.r))) = _
  rw [if_neg hd0.ne', hA]
  refine finite_some (double_pow (53 + g)) ?_ (pow_lt (by omega))
  rwa [abs_of_nonneg (by positivity)]

/-- **C239.** Data which are all zero, or without samples, have a default coefficient which is not finite. -/
theorem C239_zero (hA : A.fin = finite) (ho : o.Ok) (X : Data) (hr : X.mat.r ≤ 2 ^ 53)
    (hX : ∀ i < X.mat.r, ∀ j < X.mat.c, X.mat.e i j = some 0) : defaultCoef A o X = none := by
  have hline : ∀ i < X.mat.r, sumLine A o X.mat i = some 0 := fun i hi =>
    eval_zero hA _ fun k hk => ⟨hX i hi k ((ho.line X.mat i).2.1 k hk), 1, rfl⟩
  have hT : sumCol A o (rowSums A o X) 0 = some 0 :=
    eval_zero hA _ fun k hk => ⟨hline k ((ho.col (rowSums A o X) 0).2.1 k hk), 1, rfl⟩
  unfold defaultCoef
  rw [hT, fin_nat hA hr]
  by_cases h0 : (X.mat.r : ℚ) = 0
  · have : divide A (some 0) (some (X.mat.r : ℚ)) = none := by
      show (if (X.mat.r : ℚ) = 0 then none else _) = _
      rw [if_pos h0]
    rw [this]
    rfl
  · have : divide A (some 0) (some (X.mat.r : ℚ)) = some 0 := by
      show (if (X.mat.r : ℚ) = 0 then none else A.fin (0 / X.mat.r)) = _
      rw [if_neg h0, zero_div, hA]
      exact finite_double double_zero (by rw [abs_zero]; positivity)
    rw [this]
    show (if (0 : ℚ) = 0 then none else A.fin (1 / 0)) = none
    exact if_pos rfl

/-- **C239.** With default coefficients, computed from raw data, training succeeds: nothing overflows. -/
theorem C239_train (hA : IsDouble A) (ho : o.Ok) (L : Learner M) (hnd : L.mod.Nodup) (hm : L.mod ≠ []) (raw : List Data)
    (hl : L.mod.length = raw.length) (n e g : ℕ) (heg : e + (53 + g) ≤ 400)
    (hraw : ∀ X ∈ raw, Within X.mat (2 ^ e) ∧ X.mat.r ≤ 2 ^ 53 ∧ X.mat.c ≤ 2 ^ 53 ∧
      ∃ i < X.mat.r, ∃ j < X.mat.c, ∃ x, X.mat.e i j = some x ∧ 1 / 2 ^ g ≤ x) (data : List Data)
    (hdim : data.map (fun X => X.mat.c) = L.dim) (h : FitsMods L n e L.mod data) (hn : n ≤ 2 ^ 53) (hd : L.dim.sum ≤ 2 ^ 53)
    (hnd' : n * L.dim.sum ≤ 2 ^ 53) (hk : L.k ≤ 2 ^ 53) (hk0 : L.k ≠ 0) (it : ℕ) (hit : 0 < it) (rnd : ℕ → ℕ → ℚ)
    (hr : ∀ i j, Double (rnd i j) ∧ 0 ≤ rnd i j ∧ rnd i j ≤ 1) :
    ∃ D, ({ L with coef := setCoefs A o none raw } : Learner M).train A o data it rnd =
      ({ L with coef := setCoefs A o none raw, dico := some D }, .ok ()) ∧ D.r = L.k ∧ D.c = L.dim.sum ∧ Within D 1 := by
  refine C238_train hA ho { L with coef := setCoefs A o none raw } hnd (by simpa [setCoefs] using hl) hm n e (53 + g) heg ?_ data
    hdim h hn hd hnd' hk hk0 it hit rnd hr
  intro c hc
  obtain ⟨X, hX, rfl⟩ := List.mem_map.1 (show c ∈ raw.map (defaultCoef A o) from hc)
  obtain ⟨x1, x2, x3, i, hi, j, hj, x, hx, hpos⟩ := hraw X hX
  obtain ⟨c, c1, c2, c3, c4⟩ := C239_range hA.fin ho X e g x1 x2 x3 (by omega) (by omega) i j hi hj x hx hpos
  exact ⟨c, c1, c2, le_trans (by positivity) c3, c4⟩

/-- **C239.** When the raw data of a modality are all zero and those of training are an array, training with default coefficients
raises `ValueError` and the learner does not change. -/
theorem C239_zero_train (hA : A.fin = finite) (ho : o.Ok) (L : Learner M) (hnd : L.mod.Nodup) (raw : List Data)
    (hl : L.mod.length = raw.length) (n : ℕ) (data : List Data) (hdim : data.map (fun X => X.mat.c) = L.dim)
    (hr : ∀ X ∈ data, X.mat.r = n) (hm : L.mod.length = data.length) (p : ℕ) (Z X : Data) (hZ : raw[p]? = some Z)
    (hX : data[p]? = some X) (hs : X.sparse = false) (hZr : Z.mat.r ≤ 2 ^ 53)
    (hzero : ∀ i < Z.mat.r, ∀ j < Z.mat.c, Z.mat.e i j = some 0) (hn : 0 < n) (hc : 0 < X.mat.c) (it : ℕ) (rnd : ℕ → ℕ → ℚ) :
    ({ L with coef := setCoefs A o none raw } : Learner M).train A o data it rnd =
      ({ L with coef := setCoefs A o none raw }, .error .valueError) :=
  C238_overflow { L with coef := setCoefs A o none raw } hnd (by simpa [setCoefs] using hl) n data hdim hr hm p X none hX
    (by show (raw.map (defaultCoef A o))[p]? = _; rw [List.getElem?_map, hZ, Option.map_some, C239_zero hA ho Z hZr hzero]) 0 0 hn hc
    rfl (by simp [hs]) it rnd

/-- **C239.** Coefficients which are given are kept; without, there is one for each modality, which is the inverse of the average of
the sums of samples, both divisions rounded. -/
theorem C239_set (raw : List Data) (cs : List Num) : setCoefs A o (some cs) raw = cs ∧
    (setCoefs A o none raw).length = raw.length ∧ ∀ (p : ℕ) (X : Data), raw[p]? = some X →
      ∃ S, S = (o.col ⟨X.mat.r, 1, fun i _ => (o.line X.mat i).eval A (X.mat.e i) ones⟩ 0).eval A
          (fun i => (o.line X.mat i).eval A (X.mat.e i) ones) ones ∧
        (setCoefs A o none raw)[p]? = some (divide A (some 1) (divide A S (A.fin X.mat.r))) := by
  refine ⟨rfl, by simp [setCoefs], fun p X hp => ⟨_, rfl, ?_⟩⟩
  show (raw.map (defaultCoef A o))[p]? = _
  rw [List.getElem?_map, hp]
  rfl

/-! ### Accuracy -/

/-- Sums of doubles which are not negative win at most a factor for each addition. -/
theorem sum_upper (hA : A.fin = finite) {a : ℕ → Num} {f : ℕ → ℚ} : ∀ (t : Plan) {v : ℚ}, t.eval A a ones = some v →
    (∀ k ∈ t.leaves, a k = some (f k) ∧ Double (f k) ∧ 0 ≤ f k) →
    0 ≤ v ∧ v ≤ (1 + 1 / 2 ^ 53) ^ (t.leaves.length - 1) * (t.leaves.map f).sum ∧ 0 ≤ (t.leaves.map f).sum ∧ Double v := by
  have fin : ∀ {x v : ℚ}, A.fin x = some v → v = dbl x := by
    intro x v h
    rw [hA] at h
    unfold finite at h
    split_ifs at h
    exact (Option.some.inj h).symm
  have up : ∀ {a b : ℚ}, Double a → Double b → 0 ≤ a → 0 ≤ b → dbl (a + b) ≤ (1 + 1 / 2 ^ 53) * (a + b) := by
    intro a b ha hb h0 h1
    have := (abs_le.1 (dbl_add ha hb)).2
    rw [abs_of_nonneg (by linarith)] at this
    linarith
  have u1 : (1 : ℚ) ≤ 1 + 1 / 2 ^ 53 := by norm_num
  have join : ∀ {m n : ℕ} {S T v w : ℚ}, 0 ≤ S → 0 ≤ T → 0 ≤ v → 0 ≤ w → v ≤ (1 + 1 / 2 ^ 53) ^ m * S →
      w ≤ (1 + 1 / 2 ^ 53) ^ n * T → Double v → Double w → dbl (v + w) ≤ (1 + 1 / 2 ^ 53) ^ (m + n + 1) * (S + T) := by
    intro m n S T v w hS hT v0 w0 hv hw dv dw
    refine (up dv dw v0 w0).trans ?_
    have h1 : v ≤ (1 + 1 / 2 ^ 53 : ℚ) ^ (m + n) * S :=
      hv.trans (mul_le_mul_of_nonneg_right (pow_le_pow_right₀ u1 (by omega)) hS)
    have h2 : w ≤ (1 + 1 / 2 ^ 53 : ℚ) ^ (m + n) * T :=
      hw.trans (mul_le_mul_of_nonneg_right (pow_le_pow_right₀ u1 (by omega)) hT)
    calc (1 + 1 / 2 ^ 53 : ℚ) * (v + w)
        ≤ (1 + 1 / 2 ^ 53) * ((1 + 1 / 2 ^ 53) ^ (m + n) * S + (1 + 1 / 2 ^ 53) ^ (m + n) * T) := by gcongr
      _ = _ := by ring
  intro t
  induction t with
  | zero =>
    intro v h _
    cases h
    simp [Plan.leaves, double_zero]
  | term k =>
    intro v h hk
    obtain ⟨h1, h2, h3⟩ := hk k (by simp [Plan.leaves])
    change times A (a k) (ones k) = some v at h
    rw [h1] at h
    have := fin (show A.fin (f k * 1) = some v from h)
    rw [mul_one, dbl_of_double h2] at this
    subst this
    simpa [Plan.leaves] using ⟨h3, h2⟩
  | plus p q ihp ihq =>
    intro v h hk
    change add A (p.eval A a ones) (q.eval A a ones) = some v at h
    rcases h1 : p.eval A a ones with _ | x
    · rw [h1] at h
      cases h
    rcases h2 : q.eval A a ones with _ | y
    · rw [h1, h2] at h
      cases h
    rw [h1, h2] at h
    have := fin (show A.fin (x + y) = some v from h)
    subst this
    obtain ⟨a0, a1, a2, a3⟩ := ihp h1 fun k h => hk k (by simp [Plan.leaves, h])
    obtain ⟨b0, b1, b2, b3⟩ := ihq h2 fun k h => hk k (by simp [Plan.leaves, h])
    simp only [Plan.leaves, List.map_append, List.sum_append, List.length_append]
    refine ⟨dbl_nonneg (by linarith), ?_, add_nonneg a2 b2, dbl_double _⟩
    rcases hp : p.leaves with _ | ⟨l, ls⟩
    · rw [hp] at a1 a2
      simp only [List.map_nil, List.sum_nil, mul_zero, List.length_nil, zero_add] at a1 a2 ⊢
      exact (dbl_le b3 (by linarith)).trans b1
    · rcases hq : q.leaves with _ | ⟨r, rs⟩
      · rw [hq] at b1 b2
        rw [← hp]
        simp only [List.map_nil, List.sum_nil, mul_zero, List.length_nil, add_zero] at b1 b2 ⊢
        exact (dbl_le a3 (by linarith)).trans a1
      · rw [← hp, ← hq]
        have e : p.leaves.length + q.leaves.length - 1 = (p.leaves.length - 1) + (q.leaves.length - 1) + 1 := by
          rw [hp, hq]
          simp only [List.length_cons]
          omega
        rw [e]
        exact join a2 b2 a0 b0 a1 b1 a3 b3
  | fma p k ih =>
    intro v h hk
    obtain ⟨h1, h2, h3⟩ := hk k (by simp [Plan.leaves])
    rcases h4 : p.eval A a ones with _ | x
    · unfold Plan.eval at h
      rw [h4] at h
      cases h
    unfold Plan.eval at h
    rw [h4, h1] at h
    have := fin (show A.fin (x + f k * 1) = some v from h)
    rw [mul_one] at this
    subst this
    obtain ⟨a0, a1, a2, a3⟩ := ih h4 fun k h => hk k (by simp [Plan.leaves, h])
    simp only [Plan.leaves, List.map_append, List.sum_append, List.length_append, List.map_cons, List.map_nil,
      List.sum_cons, List.sum_nil, add_zero, List.length_cons, List.length_nil, zero_add]
    refine ⟨dbl_nonneg (by linarith), ?_, add_nonneg a2 h3, dbl_double _⟩
    rcases hp : p.leaves with _ | ⟨l, ls⟩
    · rw [hp] at a1
      simp only [List.map_nil, List.sum_nil, mul_zero, List.length_nil, zero_add, Nat.sub_self, pow_zero, one_mul] at a1 ⊢
      exact dbl_le h2 (by linarith)
    · rw [← hp]
      have e : p.leaves.length + 1 - 1 = (p.leaves.length - 1) + 0 + 1 := by
        rw [hp]
        simp only [List.length_cons]
        omega
      rw [e]
      exact join (n := 0) a2 h3 a0 h3 a1 (by rw [pow_zero, one_mul]) a3 h2

open Finset in
/-- A sum of `n` doubles which are not negative, up to a factor for each addition. -/
theorem sum_between (hA : A.fin = finite) {t : Plan} {n : ℕ} {a : ℕ → Num} {f : ℕ → ℚ} (ht : t.Covers n a ones) {v : ℚ}
    (hv : t.eval A a ones = some v) (h : ∀ k < n, a k = some (f k) ∧ Double (f k) ∧ 0 ≤ f k) :
    (1 - 1 / 2 ^ 53) ^ n * ∑ k ∈ range n, f k ≤ v ∧ v ≤ (1 + 1 / 2 ^ 53) ^ n * ∑ k ∈ range n, f k := by
  have hsum : (t.leaves.map f).sum = ∑ k ∈ range n, f k := by
    rw [← List.sum_toFinset f ht.1]
    refine sum_subset (fun j hj => mem_range.2 (ht.2.1 j (List.mem_toFinset.1 hj))) fun j hj hn => ?_
    rw [List.mem_toFinset] at hn
    rw [mem_range] at hj
    rcases ht.2.2 j hj hn with h' | h'
    · rw [(h j hj).1] at h'
      exact Option.some.inj h'
    · have := Option.some.inj h'
      norm_num at this
  obtain ⟨l1, l2, -⟩ := sum_lower hA t hv fun k hk => h k (ht.2.1 k hk)
  obtain ⟨-, r1, -, -⟩ := sum_upper hA t hv fun k hk => h k (ht.2.1 k hk)
  have hl := leaves_length ht
  rw [hsum] at l1 l2 r1
  constructor
  · refine le_trans (mul_le_mul_of_nonneg_right ?_ l2) l1
    exact pow_le_pow_of_le_one (by norm_num) (by norm_num) (by omega)
  · refine r1.trans (mul_le_mul_of_nonneg_right ?_ l2)
    exact pow_le_pow_right₀ (by norm_num) (by omega)

theorem dbl_relative {x : ℚ} (h : 1 / 2 ^ 1000 ≤ x) : (1 - 1 / 2 ^ 52) * x ≤ dbl x ∧ dbl x ≤ (1 + 1 / 2 ^ 52) * x := by
  have hx : 0 ≤ x := le_trans (by positivity) h
  have h1 := abs_le.1 (dbl_near x)
  rw [abs_of_nonneg hx] at h1
  have h2 : (1 : ℚ) / 2 ^ 1075 ≤ x / 2 ^ 53 := by
    have e : (1 : ℚ) / 2 ^ 1075 = 1 / 2 ^ 1000 / 2 ^ 75 := by rw [div_div, ← pow_add]
    rw [e]
    have : (1 : ℚ) / 2 ^ 1000 / 2 ^ 75 ≤ x / 2 ^ 75 := by gcongr
    refine this.trans (div_le_div_of_nonneg_left hx (by positivity) ?_)
    exact pow_le_pow_right₀ (by norm_num) (by norm_num)
  have e3 : x / 2 ^ 53 + x / 2 ^ 53 = 1 / 2 ^ 52 * x := by ring
  constructor <;> linarith [h1.1, h1.2]

open Finset in
/-- **C239.** The product of the default coefficient by the exact average of the sums of samples is one, up to a rounding for each
addition and for both divisions. -/
theorem C239_accuracy (hA : A.fin = finite) (ho : o.Ok) (X : Data) (e g : ℕ) (hX : Within X.mat (2 ^ e)) (hr : X.mat.r ≤ 2 ^ 53)
    (hc : X.mat.c ≤ 2 ^ 53) (he : e ≤ 900) (hg : g ≤ 900) (i j : ℕ) (hi : i < X.mat.r) (hj : j < X.mat.c) (x : ℚ)
    (hx : X.mat.e i j = some x) (hpos : 1 / 2 ^ g ≤ x) (f : ℕ → ℕ → ℚ)
    (hf : ∀ i < X.mat.r, ∀ j < X.mat.c, X.mat.e i j = some (f i j)) (a : ℚ)
    (ha : a = (∑ i ∈ range X.mat.r, ∑ j ∈ range X.mat.c, f i j) / X.mat.r) :
    ∃ c, defaultCoef A o X = some c ∧
      (1 - 1 / 2 ^ 52) / ((1 + 1 / 2 ^ 52) * (1 + 1 / 2 ^ 53) ^ (X.mat.r + X.mat.c)) ≤ c * a ∧
      c * a ≤ (1 + 1 / 2 ^ 52) / ((1 - 1 / 2 ^ 52) * (1 - 1 / 2 ^ 53) ^ (X.mat.r + X.mat.c)) := by
  obtain ⟨T, h1, h2, h3, h4, h5⟩ := row_sums hA ho hX hr hc he
  obtain ⟨c, c1, -, -, -⟩ := C239_range hA ho X e g hX hr hc he hg i j hi hj x hx hpos
  have hT : 1 / 2 ^ g ≤ T := by
    have := h5 i hi j hj
    unfold entryOf at this
    rw [hx] at this
    exact hpos.trans this
  have hn0 : (0 : ℚ) < X.mat.r := by exact_mod_cast (lt_of_le_of_lt (Nat.zero_le i) hi)
  have hn : (X.mat.r : ℚ) ≤ 2 ^ 53 := by exact_mod_cast hr
  have hup : T / X.mat.r ≤ 2 ^ (53 + e) := by
    rw [div_le_iff₀ hn0]
    linarith
  have hlow : 1 / 2 ^ (53 + g) ≤ T / X.mat.r := by
    rw [pow_add, le_div_iff₀ hn0]
    have : 1 / ((2 : ℚ) ^ 53 * 2 ^ g) * X.mat.r ≤ 1 / (2 ^ 53 * 2 ^ g) * 2 ^ 53 := by gcongr
    refine this.trans (le_trans (le_of_eq ?_) hT)
    field_simp
  have small : ∀ k : ℕ, k ≤ 1000 → (1 : ℚ) / 2 ^ 1000 ≤ 1 / 2 ^ k := fun k hk =>
    one_div_le_one_div_of_le (by positivity) (pow_le_pow_right₀ (by norm_num) hk)
  -- the sum
  have hfx : ∀ i < X.mat.r, ∀ j < X.mat.c, Double (f i j) ∧ 0 ≤ f i j := by
    intro i hi j hj
    obtain ⟨y, y1, y2, y3, -⟩ := hX i hi j hj
    rw [hf i hi j hj] at y1
    cases y1
    exact ⟨y2, y3⟩
  choose! v hv using fun i (hi : i < X.mat.r) => sumLine_nn hA ho hX hc (by omega) hi
  have hlines : ∀ i < X.mat.r, (1 - 1 / 2 ^ 53) ^ X.mat.c * ∑ j ∈ range X.mat.c, f i j ≤ v i ∧
      v i ≤ (1 + 1 / 2 ^ 53) ^ X.mat.c * ∑ j ∈ range X.mat.c, f i j := fun i hi =>
    sum_between hA (ho.line X.mat i) (hv i hi).1 fun k hk => ⟨hf i hi k hk, hfx i hi k hk⟩
  obtain ⟨t1, t2⟩ := sum_between hA (ho.col (rowSums A o X) 0) h1 (f := v) fun k hk => by
    obtain ⟨w1, w2, w3, -⟩ := hv k hk
    exact ⟨w1, w2, w3⟩
  change (1 - 1 / 2 ^ 53) ^ X.mat.r * ∑ k ∈ range X.mat.r, v k ≤ T at t1
  change T ≤ (1 + 1 / 2 ^ 53) ^ X.mat.r * ∑ k ∈ range X.mat.r, v k at t2
  set S := ∑ i ∈ range X.mat.r, ∑ j ∈ range X.mat.c, f i j with hS
  have l1 : (1 - 1 / 2 ^ 53) ^ X.mat.c * S ≤ ∑ k ∈ range X.mat.r, v k := by
    rw [hS, mul_sum]
    exact sum_le_sum fun i hi => (hlines i (mem_range.1 hi)).1
  have l2 : ∑ k ∈ range X.mat.r, v k ≤ (1 + 1 / 2 ^ 53) ^ X.mat.c * S := by
    rw [hS, mul_sum]
    exact sum_le_sum fun i hi => (hlines i (mem_range.1 hi)).2
  set lo : ℚ := (1 - 1 / 2 ^ 53) ^ (X.mat.r + X.mat.c) with hlo
  set hi' : ℚ := (1 + 1 / 2 ^ 53) ^ (X.mat.r + X.mat.c) with hhi
  have lo0 : 0 < lo := pow_pos (by norm_num) _
  have hi0 : 0 < hi' := pow_pos (by norm_num) _
  have s1 : lo * S ≤ T := by
    rw [hlo, pow_add, mul_assoc]
    exact (mul_le_mul_of_nonneg_left l1 (pow_nonneg (by norm_num) _)).trans t1
  have s2 : T ≤ hi' * S := by
    rw [hhi, pow_add, mul_assoc]
    exact t2.trans (mul_le_mul_of_nonneg_left l2 (pow_nonneg (by norm_num) _))
  have a1 : lo * a ≤ T / X.mat.r := by
    rw [ha, ← mul_div_assoc]
    gcongr
  have a2 : T / X.mat.r ≤ hi' * a := by
    rw [ha, ← mul_div_assoc]
    gcongr
  -- the divisions
  set q := T / X.mat.r with hq
  obtain ⟨d1, d2⟩ := dbl_relative (x := q) ((small _ (by omega)).trans hlow)
  have q0 : 0 < q := lt_of_lt_of_le (by positivity) hlow
  have hd2 : dbl q ≤ 2 ^ (53 + e) := dbl_le (double_pow _) hup
  have hd1 : 1 / 2 ^ (53 + g) ≤ dbl q := le_dbl (double_inv _ (by omega)) hlow
  have hd0 : 0 < dbl q := lt_of_lt_of_le (by positivity) hd1
  obtain ⟨e1, e2⟩ := dbl_relative (x := 1 / dbl q)
    ((small (53 + e) (by omega)).trans (one_div_le_one_div_of_le hd0 hd2))
  have hval : c = dbl (1 / dbl q) := by
    have hdef : defaultCoef A o X = A.fin (1 / dbl q) := by
      unfold defaultCoef
      have hav : divide A (some T) (A.fin X.mat.r) = some (dbl q) := by
        rw [fin_nat hA hr]
        show (if (X.mat.r : ℚ) = 0 then none else A.fin (T / X.mat.r)) = _
        rw [if_neg hn0.ne', hA]
        refine finite_some (double_pow (53 + e)) ?_ (pow_lt (by omega))
        rwa [abs_of_nonneg (by positivity)]
      rw [h1, hav]
      show (if dbl q = 0 then none else A.fin (1 / dbl q)) = _
      rw [if_neg hd0.ne']
    rw [hdef, hA] at c1
    unfold finite at c1
    split_ifs at c1
    exact (Option.some.inj c1).symm
  have a0 : 0 < a := by
    by_contra hneg
    have : hi' * a ≤ 0 := mul_nonpos_of_nonneg_of_nonpos hi0.le (not_lt.1 hneg)
    linarith
  refine ⟨c, c1, ?_, ?_⟩
  · have k1 : dbl q ≤ (1 + 1 / 2 ^ 52) * (hi' * a) := d2.trans (by gcongr)
    have k2 : 1 / ((1 + 1 / 2 ^ 52) * (hi' * a)) ≤ 1 / dbl q := one_div_le_one_div_of_le hd0 k1
    calc (1 - 1 / 2 ^ 52) / ((1 + 1 / 2 ^ 52) * hi')
        = (1 - 1 / 2 ^ 52) * (1 / ((1 + 1 / 2 ^ 52) * (hi' * a))) * a := by field_simp
      _ ≤ (1 - 1 / 2 ^ 52) * (1 / dbl q) * a := by
          refine mul_le_mul_of_nonneg_right (mul_le_mul_of_nonneg_left k2 (by norm_num)) a0.le
      _ ≤ c * a := by
          rw [hval]
          exact mul_le_mul_of_nonneg_right e1 a0.le
  · have u52 : (0 : ℚ) < 1 - 1 / 2 ^ 52 := by norm_num
    have k1 : (1 - 1 / 2 ^ 52) * (lo * a) ≤ dbl q := le_trans (mul_le_mul_of_nonneg_left a1 u52.le) d1
    have k2 : 1 / dbl q ≤ 1 / ((1 - 1 / 2 ^ 52) * (lo * a)) :=
      one_div_le_one_div_of_le (mul_pos u52 (mul_pos lo0 a0)) k1
    have hu : (1 - 1 / 2 ^ 52 : ℚ) ≠ 0 := u52.ne'
    calc c * a ≤ (1 + 1 / 2 ^ 52) * (1 / dbl q) * a := by
          rw [hval]
          exact mul_le_mul_of_nonneg_right e2 a0.le
      _ ≤ (1 + 1 / 2 ^ 52) * (1 / ((1 - 1 / 2 ^ 52) * (lo * a))) * a :=
          mul_le_mul_of_nonneg_right (mul_le_mul_of_nonneg_left k2 (by norm_num)) a0.le
      _ = (1 + 1 / 2 ^ 52) / ((1 - 1 / 2 ^ 52) * lo) := by
          generalize (1 - 1 / 2 ^ 52 : ℚ) = u at hu
          field_simp

/-! ### Examples -/

example : ∃ c, defaultCoef doubles seqOrder ⟨false, row [1, 0]⟩ = some c ∧ Double c ∧ 1 / 2 ^ (53 + 0) ≤ c ∧ c ≤ 2 ^ (53 + 0) :=
  C239_range rfl seqOrder_ok ⟨false, row [1, 0]⟩ 0 0 (by simpa using row_within small_row) (by norm_num [row]) (by norm_num [row])
    (by norm_num) (by norm_num) 0 0 (by norm_num [row]) (by norm_num [row]) 1 rfl (by norm_num)

example : ∃ c, defaultCoef doubles seqOrder ⟨false, row [1, 0]⟩ = some c ∧
    (1 - 1 / 2 ^ 52) / ((1 + 1 / 2 ^ 52) * (1 + 1 / 2 ^ 53) ^ (1 + 2)) ≤ c * 1 ∧
      c * 1 ≤ (1 + 1 / 2 ^ 52) / ((1 - 1 / 2 ^ 52) * (1 - 1 / 2 ^ 53) ^ (1 + 2)) :=
  C239_accuracy (A := doubles) rfl seqOrder_ok ⟨false, row [1, 0]⟩ 0 0 (by simpa using row_within small_row) (by norm_num [row])
    (by norm_num [row]) (by norm_num) (by norm_num) 0 0 (by norm_num [row]) (by norm_num [row]) 1 rfl (by norm_num)
    (fun _ j => if j = 0 then 1 else 0) (fun i _ j hj => by
      change j < 2 at hj
      rcases j with _ | _ | j
      · rfl
      · rfl
      · omega) 1 (by norm_num [row, Finset.sum_range_succ])

theorem zero_row : ∀ i < (row [0]).r, ∀ j < (row [0]).c, (row [0]).e i j = some 0 := by
  intro i _ j hj
  change j < 1 at hj
  obtain rfl : j = 0 := by omega
  rfl

example : defaultCoef doubles seqOrder ⟨true, row [0]⟩ = none :=
  C239_zero rfl seqOrder_ok ⟨true, row [0]⟩ (by norm_num [row]) zero_row

example : ∃ D, ({ two none with coef := setCoefs doubles seqOrder none [⟨false, row [1]⟩, ⟨true, row [1, 0]⟩] } : Learner ℕ).train
    doubles seqOrder [⟨false, row [1]⟩, ⟨true, row [1, 0]⟩] 5 (fun _ _ => 0) =
      ({ two none with coef := setCoefs doubles seqOrder none [⟨false, row [1]⟩, ⟨true, row [1, 0]⟩], dico := some D }, .ok ()) ∧
    D.r = 1 ∧ D.c = 3 ∧ Within D 1 := by
  refine C239_train doubles_ok seqOrder_ok (two none) (by decide) (by decide) _ rfl 1 0 0 (by norm_num) ?_ _ rfl (two_fits _)
    (by norm_num) (by norm_num [two]) (by norm_num [two]) (by norm_num [two]) (by norm_num [two]) 5 (by norm_num) _
    fun _ _ => ⟨double_zero, le_rfl, by norm_num⟩
  intro X hX
  have h1 : Within (row [1]) (2 ^ 0) := row_within fun x hx => by
    rw [List.mem_singleton.1 hx]
    exact ⟨double_one, by norm_num, by norm_num⟩
  rcases List.mem_cons.1 hX with rfl | hX
  · exact ⟨h1, by norm_num [row], by norm_num [row], 0, by norm_num [row], 0, by norm_num [row], 1, rfl, by norm_num⟩
  · rw [List.mem_singleton.1 hX]
    exact ⟨by simpa using row_within small_row, by norm_num [row], by norm_num [row], 0, by norm_num [row], 0, by norm_num [row], 1,
      rfl, by norm_num⟩

/-- The first modality is zero. -/
example : ({ two none with coef := setCoefs doubles seqOrder none [⟨false, row [0]⟩, ⟨true, row [1, 0]⟩] } : Learner ℕ).train
    doubles seqOrder [⟨false, row [0]⟩, ⟨true, row [1, 0]⟩] 5 (fun _ _ => 0) =
      ({ two none with coef := setCoefs doubles seqOrder none [⟨false, row [0]⟩, ⟨true, row [1, 0]⟩] }, .error .valueError) :=
  C239_zero_train rfl seqOrder_ok (two none) (by decide) _ rfl 1 [⟨false, row [0]⟩, ⟨true, row [1, 0]⟩] rfl (by simp [row]) rfl 0
    ⟨false, row [0]⟩ ⟨false, row [0]⟩ rfl rfl rfl (by norm_num [row]) zero_row (by norm_num) (by norm_num [row]) 5 _

end Verif.Learner.D
