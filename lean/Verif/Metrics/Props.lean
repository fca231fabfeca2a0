import Verif.Metrics.Model
import Mathlib.Analysis.InnerProductSpace.PiL2
import Mathlib.Algebra.Order.Chebyshev
import Mathlib.Tactic.Linarith
import Mathlib.Tactic.FieldSimp
import Mathlib.Tactic.Positivity
import Mathlib.Tactic.Ring
import Mathlib.Tactic.NormNum
import Mathlib.Data.Fin.VecNotation

/-!
# Properties C34, C35, C39, C40, C41 of `multimodal/lib/metrics.py`
-/

namespace Verif.Metrics

variable {ι κ : Type} [Fintype ι] [Fintype κ]

/-! ### C34 -/

/-- **C34.** The divergence of an array from itself is 0. -/
theorem C34_self (x : ι → ℝ) (eps : ℝ) (heps : 0 < eps) (hx : ∀ i, 0 ≤ x i) :
    generalizedKL x x eps = 0 := by
  unfold generalizedKL
  apply Finset.sum_eq_zero
  intro i _
  rw [div_self (by have := hx i; positivity), Real.log_one]
  ring

/-- **C34.** The divergence of non-negative arrays is at least `-eps` per entry. -/
theorem C34_lower_bound (x y : ι → ℝ) (eps : ℝ) (heps : 0 < eps) (hx : ∀ i, 0 ≤ x i)
    (hy : ∀ i, 0 ≤ y i) : -(eps * Fintype.card ι) ≤ generalizedKL x y eps := by
  unfold generalizedKL
  have hc : -(eps * Fintype.card ι) = ∑ _i : ι, -eps := by
    rw [Finset.sum_const, nsmul_eq_mul, Finset.card_univ]; ring
  rw [hc]
  apply Finset.sum_le_sum
  intro i _
  have hxi := hx i
  have hyi := hy i
  rcases hxi.eq_or_lt with h0 | hpos
  · rw [← h0]; linarith
  · have hb : 0 < y i + eps := by linarith
    have h1 : Real.log (x i / (y i + eps)) ≤ Real.log ((x i + eps) / (y i + eps)) := by
      apply Real.log_le_log (by positivity)
      gcongr
      linarith
    have h2 : 1 - (x i / (y i + eps))⁻¹ ≤ Real.log (x i / (y i + eps)) :=
      Real.one_sub_inv_le_log_of_pos (by positivity)
    have h3 : x i * (1 - (x i / (y i + eps))⁻¹) = x i - (y i + eps) := by field_simp
    have h4 : x i * (1 - (x i / (y i + eps))⁻¹) ≤ x i * Real.log ((x i + eps) / (y i + eps)) :=
      mul_le_mul_of_nonneg_left (h2.trans h1) hxi
    linarith

/-- **C34.** For every `eps > 0` there are non-negative vectors of negative divergence. -/
theorem C34_negative (eps : ℝ) (heps : 0 < eps) :
    ∃ x y : Fin 1 → ℝ, (∀ i, 0 ≤ x i) ∧ (∀ i, 0 ≤ y i) ∧ generalizedKL x y eps < 0 := by
  refine ⟨fun _ => 2 * eps, fun _ => eps, fun _ => by positivity, fun _ => heps.le, ?_⟩
  unfold generalizedKL
  rw [Fin.sum_univ_one]
  have h1 : (2 * eps + eps) / (eps + eps) = 3 / 2 := by field_simp; norm_num
  rw [h1]
  have h2 : Real.log (3 / 2) < 3 / 2 - 1 := Real.log_lt_sub_one_of_pos (by norm_num) (by norm_num)
  nlinarith

/-- **C34.** Without regularisation, the divergence of positive arrays is non-negative, and is 0
only for equal arrays. -/
theorem C34_nonneg_eps_zero (x y : ι → ℝ) (hx : ∀ i, 0 < x i) (hy : ∀ i, 0 < y i) :
    0 ≤ generalizedKL x y 0 ∧ (generalizedKL x y 0 = 0 ↔ x = y) := by
  have hterm : ∀ i, 0 ≤ x i * Real.log ((x i + 0) / (y i + 0)) - x i + y i ∧
      (x i * Real.log ((x i + 0) / (y i + 0)) - x i + y i = 0 → x i = y i) := by
    intro i
    have hxi := hx i
    have hyi := hy i
    rw [add_zero, add_zero]
    have h3 : x i * (1 - (x i / y i)⁻¹) = x i - y i := by field_simp
    constructor
    · have h2 := Real.one_sub_inv_le_log_of_pos (x := x i / y i) (by positivity)
      have := mul_le_mul_of_nonneg_left h2 hxi.le
      linarith
    · intro h
      by_contra hne
      have h2 : Real.log (y i / x i) < y i / x i - 1 :=
        Real.log_lt_sub_one_of_pos (by positivity) (by
          intro hc; rw [div_eq_one_iff_eq hxi.ne'] at hc; exact hne hc.symm)
      have h4 : Real.log (x i / y i) = -Real.log (y i / x i) := by
        rw [← Real.log_inv, inv_div]
      rw [h4] at h
      have h5 := mul_lt_mul_of_pos_left h2 hxi
      have h6 : x i * (y i / x i - 1) = y i - x i := by field_simp
      linarith
  constructor
  · exact Finset.sum_nonneg fun i _ => (hterm i).1
  · constructor
    · intro h
      unfold generalizedKL at h
      rw [Finset.sum_eq_zero_iff_of_nonneg fun i _ => (hterm i).1] at h
      funext i
      exact (hterm i).2 (h i (Finset.mem_univ i))
    · rintro rfl
      unfold generalizedKL
      apply Finset.sum_eq_zero
      intro i _
      rw [div_self (by have := hx i; rw [add_zero]; exact this.ne'), Real.log_one]
      ring

example : 0 < generalizedKL ![1, 2] ![2, 1] 0 := by
  have h := C34_nonneg_eps_zero ![1, 2] ![2, 1] (by intro i; fin_cases i <;> norm_num)
    (by intro i; fin_cases i <;> norm_num)
  refine lt_of_le_of_ne h.1 fun hc => ?_
  have := congrFun (h.2.1 hc.symm) 0
  norm_num at this

/-! ### C35 -/

theorem norm2_le_norm1 (x : κ → ℝ) : Real.sqrt (∑ j, x j ^ 2) ≤ ∑ j, |x j| := by
  rw [Real.sqrt_le_left (Finset.sum_nonneg fun _ _ => abs_nonneg _)]
  have : ∑ j, x j ^ 2 = ∑ j, |x j| ^ 2 := Finset.sum_congr rfl fun j _ => (sq_abs _).symm
  rw [this]
  exact Finset.sum_sq_le_sq_sum_of_nonneg fun _ _ => abs_nonneg _

theorem norm1_le (x : κ → ℝ) :
    ∑ j, |x j| ≤ Real.sqrt (Fintype.card κ) * Real.sqrt (∑ j, x j ^ 2) := by
  rw [← Real.sqrt_mul (Nat.cast_nonneg _)]
  apply Real.le_sqrt_of_sq_le
  have h := sq_sum_le_card_mul_sum_sq (s := Finset.univ) (f := fun j => |x j|)
  simpa [Finset.card_univ] using h

/-- **C35.** The sparseness of a non-empty array with slices of two or more entries lies between 0
and 1. -/
theorem C35_hoyer_range (X : ι → κ → ℝ) (eps : ℝ) (heps : 0 < eps) [Nonempty ι]
    (hn : 2 ≤ Fintype.card κ) : 0 ≤ hoyer X eps ∧ hoyer X eps ≤ 1 := by
  have hs1 : 1 < Real.sqrt (Fintype.card κ) := by
    rw [Real.lt_sqrt (by norm_num)]
    have : (2 : ℝ) ≤ Fintype.card κ := by exact_mod_cast hn
    linarith
  have hpos : ∀ i, 0 < Real.sqrt (∑ j, X i j ^ 2) + eps := fun i => by
    have := Real.sqrt_nonneg (∑ j, X i j ^ 2); linarith
  have hlo : ∀ i, 1 ≤ ((∑ j, |X i j|) + eps) / (Real.sqrt (∑ j, X i j ^ 2) + eps) := by
    intro i
    rw [one_le_div (hpos i)]
    have := norm2_le_norm1 (X i); linarith
  have hhi : ∀ i, ((∑ j, |X i j|) + eps) / (Real.sqrt (∑ j, X i j ^ 2) + eps)
      ≤ Real.sqrt (Fintype.card κ) := by
    intro i
    rw [div_le_iff₀ (hpos i)]
    have := norm1_le (X i)
    nlinarith
  have hcard : (0 : ℝ) < Fintype.card ι := by exact_mod_cast Fintype.card_pos
  have hav1 : 1 ≤ (∑ i, ((∑ j, |X i j|) + eps) / (Real.sqrt (∑ j, X i j ^ 2) + eps)) / (Fintype.card ι : ℝ) := by
    rw [one_le_div hcard]
    calc (Fintype.card ι : ℝ) = ∑ _i : ι, 1 := by simp
      _ ≤ _ := Finset.sum_le_sum fun i _ => hlo i
  have hav2 : (∑ i, ((∑ j, |X i j|) + eps) / (Real.sqrt (∑ j, X i j ^ 2) + eps)) / (Fintype.card ι : ℝ)
      ≤ Real.sqrt (Fintype.card κ) := by
    rw [div_le_iff₀ hcard]
    calc _ ≤ ∑ _i : ι, Real.sqrt (Fintype.card κ) := Finset.sum_le_sum fun i _ => hhi i
      _ = _ := by simp [mul_comm]
  unfold hoyer
  simp only []
  constructor
  · apply div_nonneg <;> linarith
  · rw [div_le_one (by linarith)]; linarith

/-- **C35.** The sparseness is 1 exactly when no slice has two non-zero entries. -/
theorem C35_hoyer_one (X : ι → κ → ℝ) (eps : ℝ) (heps : 0 < eps) [Nonempty ι]
    (hn : 2 ≤ Fintype.card κ) :
    hoyer X eps = 1 ↔ ∀ i j j', X i j ≠ 0 → X i j' ≠ 0 → j = j' := by
  have hs1 : 1 < Real.sqrt (Fintype.card κ) := by
    rw [Real.lt_sqrt (by norm_num)]
    have : (2 : ℝ) ≤ Fintype.card κ := by exact_mod_cast hn
    linarith
  have hpos : ∀ i, 0 < Real.sqrt (∑ j, X i j ^ 2) + eps := fun i => by
    have := Real.sqrt_nonneg (∑ j, X i j ^ 2); linarith
  have hlo : ∀ i, 0 ≤ ((∑ j, |X i j|) + eps) / (Real.sqrt (∑ j, X i j ^ 2) + eps) - 1 := by
    intro i
    rw [sub_nonneg, one_le_div (hpos i)]
    have := norm2_le_norm1 (X i); linarith
  have hcard : (0 : ℝ) < Fintype.card ι := by exact_mod_cast Fintype.card_pos
  have hstep : hoyer X eps = 1 ↔
      ∑ i, (((∑ j, |X i j|) + eps) / (Real.sqrt (∑ j, X i j ^ 2) + eps) - 1) = 0 := by
    unfold hoyer
    simp only []
    rw [div_eq_one_iff_eq (by linarith), sub_right_inj, div_eq_one_iff_eq hcard.ne',
      Finset.sum_sub_distrib, sub_eq_zero]
    simp
  rw [hstep, Finset.sum_eq_zero_iff_of_nonneg fun i _ => hlo i]
  have hrow : ∀ i, ((∑ j, |X i j|) + eps) / (Real.sqrt (∑ j, X i j ^ 2) + eps) - 1 = 0 ↔
      ∀ j j', X i j ≠ 0 → X i j' ≠ 0 → j = j' := by
    intro i
    rw [sub_eq_zero, div_eq_one_iff_eq (hpos i).ne', add_left_inj, eq_comm,
      Real.sqrt_eq_iff_mul_self_eq (Finset.sum_nonneg fun _ _ => sq_nonneg _)
        (Finset.sum_nonneg fun _ _ => abs_nonneg _)]
    classical
    constructor
    · intro h j j' hj hj'
      by_contra hne
      have hlt : ∑ k, X i k ^ 2 < (∑ k, |X i k|) * ∑ k, |X i k| := by
        rw [Finset.sum_mul]
        apply Finset.sum_lt_sum
        · intro k _
          rw [← sq_abs, sq]
          apply mul_le_mul_of_nonneg_left _ (abs_nonneg _)
          exact Finset.single_le_sum (f := fun k => |X i k|) (fun _ _ => abs_nonneg _) (Finset.mem_univ k)
        · refine ⟨j, Finset.mem_univ j, ?_⟩
          rw [← sq_abs, sq]
          apply mul_lt_mul_of_pos_left _ (abs_pos.2 hj)
          exact Finset.single_lt_sum (f := fun k => |X i k|) (Ne.symm hne) (Finset.mem_univ j)
            (Finset.mem_univ j') (abs_pos.2 hj') fun _ _ _ => abs_nonneg _
      linarith
    · intro h
      by_cases hz : ∀ k, X i k = 0
      · simp [hz]
      · push Not at hz
        obtain ⟨k, hk⟩ := hz
        have hothers : ∀ k', k' ≠ k → X i k' = 0 := by
          intro k' hk'
          by_contra hc
          exact hk' (h k' k hc hk)
        have e1 : ∑ j, |X i j| = |X i k| :=
          Finset.sum_eq_single k (fun b _ hb => by rw [hothers b hb, abs_zero]) (by simp)
        have e2 : ∑ j, X i j ^ 2 = X i k ^ 2 :=
          Finset.sum_eq_single k (fun b _ hb => by rw [hothers b hb]; ring) (by simp)
        rw [e1, e2, ← sq, sq_abs]
  constructor
  · intro h i
    exact (hrow i).1 (h i (Finset.mem_univ i))
  · intro h i _
    exact (hrow i).2 (h i)

example : hoyer (![![0, 3], ![0, 0]] : Fin 2 → Fin 2 → ℝ) EPSILON = 1 := by
  rw [C35_hoyer_one _ _ (by unfold EPSILON; norm_num) (by simp)]
  intro i j j'
  fin_cases i <;> fin_cases j <;> fin_cases j' <;> simp

/-! ### C39 -/

theorem abs_inner_le (a b : ι → ℝ) :
    |∑ i, a i * b i| ≤ Real.sqrt ((∑ i, a i ^ 2) * ∑ i, b i ^ 2) := by
  apply Real.abs_le_sqrt
  exact Finset.sum_mul_sq_le_sq_mul_sq _ _ _

/-- **C39.** The similarity lies between -1 and 1. -/
theorem C39_range (a b : ι → ℝ) : -1 ≤ cosineSimilarity a b ∧ cosineSimilarity a b ≤ 1 := by
  rw [← abs_le]
  unfold cosineSimilarity
  simp only []
  by_cases h : ∑ i, a i * b i = 0
  · rw [h]; simp
  · have hle := abs_inner_le a b
    have hp : 0 < Real.sqrt ((∑ i, a i ^ 2) * ∑ i, b i ^ 2) := lt_of_lt_of_le (abs_pos.2 h) hle
    unfold ind
    rw [if_neg h, add_zero, abs_div, abs_of_pos hp, div_le_one hp]
    exact hle

/-- **C39.** The similarity is symmetric. -/
theorem C39_symmetric (a b : ι → ℝ) : cosineSimilarity a b = cosineSimilarity b a := by
  unfold cosineSimilarity
  simp only []
  have h : ∑ i, a i * b i = ∑ i, b i * a i := Finset.sum_congr rfl fun i _ => mul_comm _ _
  rw [h, mul_comm (∑ i, a i ^ 2)]

/-- **C39.** The similarity with a null vector is 0. -/
theorem C39_zero (a : ι → ℝ) : cosineSimilarity a (fun _ => 0) = 0 ∧ cosineSimilarity (fun _ => 0) a = 0 := by
  constructor <;> simp [cosineSimilarity]

/-- **C39.** The similarity does not change when an argument is multiplied by a positive number. -/
theorem C39_scale (a b : ι → ℝ) (c : ℝ) (hc : 0 < c) :
    cosineSimilarity (fun i => c * a i) b = cosineSimilarity a b ∧
    cosineSimilarity a (fun i => c * b i) = cosineSimilarity a b := by
  have key : ∀ a b : ι → ℝ, cosineSimilarity (fun i => c * a i) b = cosineSimilarity a b := by
    intro a b
    unfold cosineSimilarity
    simp only []
    have h1 : ∑ i, c * a i * b i = c * ∑ i, a i * b i := by
      rw [Finset.mul_sum]; exact Finset.sum_congr rfl fun i _ => by ring
    have h2 : ∑ i, (c * a i) ^ 2 = c ^ 2 * ∑ i, a i ^ 2 := by
      rw [Finset.mul_sum]; exact Finset.sum_congr rfl fun i _ => by ring
    rw [h1, h2, mul_assoc, Real.sqrt_mul (sq_nonneg c), Real.sqrt_sq hc.le]
    by_cases h : ∑ i, a i * b i = 0
    · rw [h]; simp
    · unfold ind
      rw [if_neg h, if_neg (mul_ne_zero hc.ne' h), add_zero, add_zero, mul_div_mul_left _ _ hc.ne']
  refine ⟨key a b, ?_⟩
  rw [C39_symmetric, key, C39_symmetric]

/-- **C39.** The similarity of a non-null vector with itself, and thus by `C39_scale` with its
positive multiples, is 1. -/
theorem C39_self (a : ι → ℝ) (ha : ∃ i, a i ≠ 0) (c : ℝ) (hc : 0 < c) :
    cosineSimilarity a (fun i => c * a i) = 1 := by
  rw [(C39_scale a a c hc).2]
  have hs : 0 < ∑ i, a i ^ 2 := by
    obtain ⟨i, hi⟩ := ha
    exact Finset.sum_pos' (fun _ _ => sq_nonneg _) ⟨i, Finset.mem_univ i, by positivity⟩
  have h1 : ∑ i, a i * a i = ∑ i, a i ^ 2 := Finset.sum_congr rfl fun i _ => by ring
  unfold cosineSimilarity ind
  simp only []
  rw [h1, if_neg hs.ne', add_zero, Real.sqrt_mul_self hs.le, div_self hs.ne']

/-- **C39.** `cosine_diff` is the opposite: between -1 and 1, minimal for a positive multiple. -/
theorem C39_diff (a b : ι → ℝ) :
    cosineDiff a b + cosineSimilarity a b = 0 ∧
    ((∃ i, a i ≠ 0) → ∀ c, 0 < c → cosineDiff a (fun i => c * a i) ≤ cosineDiff a b) := by
  unfold cosineDiff
  refine ⟨by ring, fun ha c hc => ?_⟩
  rw [C39_self a ha c hc]
  have := (C39_range a b).2
  linarith

/-- **C39.** The similarity times the norms is the inner product, for all vectors. -/
theorem C39_inner (a b : ι → ℝ) :
    cosineSimilarity a b * (Real.sqrt (∑ i, a i ^ 2) * Real.sqrt (∑ i, b i ^ 2)) = ∑ i, a i * b i := by
  rw [← Real.sqrt_mul (Finset.sum_nonneg fun _ _ => sq_nonneg _)]
  unfold cosineSimilarity ind
  simp only []
  by_cases h : ∑ i, a i * b i = 0
  · rw [h]; simp
  · have hp : 0 < Real.sqrt ((∑ i, a i ^ 2) * ∑ i, b i ^ 2) :=
      lt_of_lt_of_le (abs_pos.2 h) (abs_inner_le a b)
    rw [if_neg h, add_zero, div_mul_cancel₀ _ hp.ne']

example : cosineSimilarity ![1, -1] ![3, -3] = 1 := by
  have := C39_self (ι := Fin 2) ![1, -1] ⟨0, by simp⟩ 3 (by norm_num)
  have he : (![3, -3] : Fin 2 → ℝ) = fun i => 3 * (![1, -1] : Fin 2 → ℝ) i := by
    funext i
    fin_cases i <;> norm_num
  rw [he]
  exact this

/-! ### C40 -/

theorem frobenius_eq_dist (a b : ι → ℝ) :
    frobenius a b = dist (WithLp.toLp 2 a) (WithLp.toLp 2 b) := by
  rw [EuclideanSpace.dist_eq]
  unfold frobenius
  congr 1
  apply Finset.sum_congr rfl
  intro i _
  rw [Real.dist_eq, sq_abs]

/-- **C40.** `frobenius` is a distance: non-negative, symmetric, null exactly on equal arguments,
with the triangle inequality. -/
theorem C40_distance (a b c : ι → ℝ) :
    0 ≤ frobenius a b ∧ frobenius a b = frobenius b a ∧ (frobenius a b = 0 ↔ a = b) ∧
    frobenius a c ≤ frobenius a b + frobenius b c := by
  refine ⟨Real.sqrt_nonneg _, ?_, ?_, ?_⟩
  · rw [frobenius_eq_dist, frobenius_eq_dist, dist_comm]
  · rw [frobenius_eq_dist, dist_eq_zero]
    exact (WithLp.toLp_injective 2).eq_iff
  · simp only [frobenius_eq_dist]
    exact dist_triangle _ _ _

/-- **C40.** `frobenius` scales with its arguments and bounds the difference of each entry. -/
theorem C40_scale (a b : ι → ℝ) (c : ℝ) :
    frobenius (fun i => c * a i) (fun i => c * b i) = |c| * frobenius a b ∧
    ∀ i, |a i - b i| ≤ frobenius a b := by
  constructor
  · unfold frobenius
    have : ∑ i, (c * a i - c * b i) ^ 2 = c ^ 2 * ∑ i, (a i - b i) ^ 2 := by
      rw [Finset.mul_sum]; exact Finset.sum_congr rfl fun i _ => by ring
    rw [this, Real.sqrt_mul (sq_nonneg c), Real.sqrt_sq_eq_abs]
  · intro i
    apply Real.abs_le_sqrt
    exact Finset.single_le_sum (f := fun i => (a i - b i) ^ 2) (fun _ _ => sq_nonneg _) (Finset.mem_univ i)

example : frobenius ![0, 0] ![3, 4] = 5 := by
  unfold frobenius
  rw [Fin.sum_univ_two]
  have : ((![0, 0] : Fin 2 → ℝ) 0 - ![3, 4] 0) ^ 2 + ((![0, 0] : Fin 2 → ℝ) 1 - ![3, 4] 1) ^ 2 = 5 ^ 2 := by
    norm_num
  rw [this]
  exact Real.sqrt_sq (by norm_num)

/-! ### C41 -/

/-- **C41.** `kl_div` gives the same result for every `eps`; it is that of `EPSILON = 1e-8`. -/
theorem C41_eps_ignored (a b : ι → ℝ) (eps eps' : ℝ) (normalize : Bool) :
    klDiv a b eps normalize = klDiv a b eps' normalize ∧
    (klDiv a b eps false).1 = generalizedKL a b (1 / 10 ^ 8) := ⟨rfl, rfl⟩

/-- **C41.** `rev_kl_div` swaps the arguments of `kl_div`. -/
theorem C41_rev (a b : ι → ℝ) (eps : ℝ) (normalize : Bool) :
    (revKlDiv a b eps normalize).1 = (klDiv b a eps normalize).1 := rfl

theorem sum_normalizeSlice (a : ι → ℝ) (ha : ∑ i, a i ≠ 0) : ∑ i, normalizeSlice a i = 1 := by
  unfold normalizeSlice
  rw [← Finset.sum_div, div_self ha]

theorem normalizeSlice_idem (a : ι → ℝ) (ha : ∑ i, a i ≠ 0) :
    normalizeSlice (normalizeSlice a) = normalizeSlice a := by
  funext i
  conv_lhs => unfold normalizeSlice
  have := sum_normalizeSlice a ha
  unfold normalizeSlice at this ⊢
  rw [this, div_one]

/-- **C41.** `sym_kl_div` is the mean of both divergences of the original arguments and is
symmetric, including with `normalize`, although the first evaluation modifies the arguments. -/
theorem C41_sym (a b : ι → ℝ) (eps : ℝ) (normalize : Bool)
    (h : normalize = true → ∑ i, a i ≠ 0 ∧ ∑ i, b i ≠ 0) :
    (symKlDiv a b eps normalize).1 =
      ((klDiv a b eps normalize).1 + (klDiv b a eps normalize).1) / 2 ∧
    (symKlDiv a b eps normalize).1 = (symKlDiv b a eps normalize).1 := by
  have key : ∀ a b : ι → ℝ, (normalize = true → ∑ i, a i ≠ 0 ∧ ∑ i, b i ≠ 0) →
      (symKlDiv a b eps normalize).1 =
      ((klDiv a b eps normalize).1 + (klDiv b a eps normalize).1) / 2 := by
    intro a b h
    unfold symKlDiv revKlDiv klDiv
    cases normalize with
    | false => simp only [Bool.false_eq_true, if_false]; ring
    | true =>
      obtain ⟨ha, hb⟩ := h rfl
      simp only [if_true]
      rw [normalizeSlice_idem a ha, normalizeSlice_idem b hb]; ring
  refine ⟨key a b h, ?_⟩
  rw [key a b h, key b a (fun hn => (h hn).symm), add_comm]

/-- **C41.** With `normalize`, multiplying the arguments by positive numbers changes nothing. -/
theorem C41_normalize (a b : ι → ℝ) (eps c d : ℝ) (hc : 0 < c) (hd : 0 < d) :
    (klDiv (fun i => c * a i) (fun i => d * b i) eps true).1 = (klDiv a b eps true).1 := by
  have key : ∀ (a : ι → ℝ) (c : ℝ), 0 < c → normalizeSlice (fun i => c * a i) = normalizeSlice a := by
    intro a c hc
    funext i
    unfold normalizeSlice
    rw [← Finset.mul_sum, mul_div_mul_left _ _ hc.ne']
  unfold klDiv
  simp only [if_true]
  rw [key a c hc, key b d hd]

/-- **C41.** With `normalize`, the arrays of the caller are overwritten by arrays of sum 1, proportional to what they were;
without it they are left unchanged.  This holds for the three divergences. -/
theorem C41_side_effect (a b : ι → ℝ) (eps : ℝ) :
    (klDiv a b eps false).2 = (a, b) ∧ (revKlDiv a b eps false).2 = (a, b) ∧ (symKlDiv a b eps false).2 = (a, b) ∧
    (∑ i, a i ≠ 0 → ∑ i, b i ≠ 0 → ∀ r ∈ [(klDiv a b eps true).2, (revKlDiv a b eps true).2, (symKlDiv a b eps true).2],
      (∑ i, r.1 i = 1 ∧ ∀ i, r.1 i * ∑ j, a j = a i) ∧ (∑ i, r.2 i = 1 ∧ ∀ i, r.2 i * ∑ j, b j = b i)) := by
  refine ⟨rfl, rfl, rfl, fun ha hb r hr => ?_⟩
  have hn : r = (normalizeSlice a, normalizeSlice b) := by
    simp only [List.mem_cons, List.not_mem_nil, or_false] at hr
    rcases hr with rfl | rfl | rfl
    · rfl
    · rfl
    · show (normalizeSlice (normalizeSlice a), normalizeSlice (normalizeSlice b)) = _
      rw [normalizeSlice_idem a ha, normalizeSlice_idem b hb]
  rw [hn]
  exact ⟨⟨sum_normalizeSlice a ha, fun i => div_mul_cancel₀ _ ha⟩, sum_normalizeSlice b hb, fun i => div_mul_cancel₀ _ hb⟩

example : ∑ i, (![1, 3] : Fin 2 → ℝ) i ≠ 0 := by rw [Fin.sum_univ_two]; norm_num

end Verif.Metrics
