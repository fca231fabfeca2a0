import Verif.Metrics.HoyerDouble
import Verif.Geom.PropsDouble

/-!
# Property C229: Hoyer's sparseness with doubles
-/

namespace Verif.Metrics.D

open Verif Verif.Window Verif.Evaluation.D
open Verif.Geom.D (sq_square double_gap dbl_nat mul_self_nonneg')
open Verif.NMF.D (double_mul double_pow double_one double_zero dbl_le le_dbl abs_dbl_le)

set_option exponentiation.threshold 2000

variable {L : Lib}

/-- The value of `EPSILON`. -/
def e8 : ℚ := dbl (1 / 10 ^ 8)

theorem e8_bounds : 999 / 10 ^ 11 ≤ e8 ∧ e8 ≤ 1001 / 10 ^ 11 := by decide +kernel

theorem epsilon_eq : EPSILON = .fin e8 := by decide +kernel

theorem e8_form : ∃ m : ℤ, 2 ^ 52 < m ∧ e8 = m * 2 ^ (-79 : ℤ) :=
  ⟨halfEven (1 / 10 ^ 8 / 2 ^ expo (1 / 10 ^ 8)), by decide +kernel, by decide +kernel⟩

/-- Small numbers are lost when `EPSILON` is added. -/
theorem absorb {y : ℚ} (h0 : 0 ≤ y) (h : y ≤ 2 ^ (-100 : ℤ)) : dbl (y + e8) = e8 := by
  obtain ⟨m, hm, he⟩ := e8_form
  have hb := e8_bounds
  have hy : y ≤ 1 / 10 ^ 11 := by
    refine h.trans ?_
    rw [zpow_neg]
    norm_num
  have hexp : expo (y + e8) = -79 := by
    have h1 : Int.log 2 |y + e8| = -27 := by
      rw [abs_of_nonneg (by linarith)]
      apply le_antisymm
      · have : y + e8 < ((2 : ℕ) : ℚ) ^ (-26 : ℤ) := by
          rw [zpow_neg]; push_cast; norm_num; linarith
        have := (Int.lt_zpow_iff_log_lt (b := 2) (by norm_num) (by linarith)).1 this
        omega
      · have : ((2 : ℕ) : ℚ) ^ (-27 : ℤ) ≤ y + e8 := by
          rw [zpow_neg]; push_cast; norm_num; linarith
        exact (Int.zpow_le_iff_le_log (b := 2) (by norm_num) (by linarith)).1 this
    unfold expo
    rw [h1]; norm_num
  have herr := dbl_err (y + e8)
  rw [hexp, abs_le] at herr
  have hsmall : (2 : ℚ) ^ (-100 : ℤ) < 2 ^ (-79 : ℤ) / 2 := by
    rw [zpow_neg, zpow_neg]
    norm_num
  have hE := two_zpow_pos (-79)
  rcases double_gap (e := -79) hm (dbl_double (y + e8)) with h | h | h <;> rw [← he] at h
  · have h3 := herr.1
    generalize (2 : ℚ) ^ (-79 : ℤ) = E at *
    generalize (2 : ℚ) ^ (-100 : ℤ) = F at *
    linarith
  · exact h
  · have h3 := herr.2
    generalize (2 : ℚ) ^ (-79 : ℤ) = E at *
    generalize (2 : ℚ) ^ (-100 : ℤ) = F at *
    linarith

/-- A sum with only one term which is not zero. -/
theorem sum_single {a : ℕ → Flt} {j : ℕ} {v : ℚ} (hv : Dbl v) : ∀ (t : Tree), t.leaves.Nodup →
    (∀ k ∈ t.leaves, a k = .fin (if k = j then v else 0)) → t.sum a = .fin (if j ∈ t.leaves then v else 0)
  | .zero, _, _ => rfl
  | .leaf k, _, h => by
    show a k = _
    rw [h k (by simp [Tree.leaves])]
    simp [Tree.leaves, eq_comm]
  | .plus p q, hn, h => by
    have hn' : (p.leaves ++ q.leaves).Nodup := hn
    have hd := List.disjoint_of_nodup_append hn'
    show add (p.sum a) (q.sum a) = _
    rw [sum_single hv p (List.Nodup.of_append_left hn') fun k hk => h k (by simp [Tree.leaves, hk]),
      sum_single hv q (List.Nodup.of_append_right hn') fun k hk => h k (by simp [Tree.leaves, hk])]
    show Evaluation.D.round (_ + _) = _
    by_cases h1 : j ∈ p.leaves
    · have h2 : j ∉ q.leaves := fun h => hd h1 h
      rw [if_pos h1, if_neg h2, if_pos (by simp [Tree.leaves, h1]), add_zero, round_dbl hv]
    · by_cases h2 : j ∈ q.leaves
      · rw [if_neg h1, if_pos h2, if_pos (by simp [Tree.leaves, h2]), zero_add, round_dbl hv]
      · rw [if_neg h1, if_neg h2, if_neg (by simp [Tree.leaves, h1, h2]), zero_add, round_dbl dbl_zero']

/-- A line with at most one entry which is not zero. -/
def Sparse1 (n : ℕ) (a : Row) : Prop :=
  ∃ (j : ℕ) (v : ℚ), j < n ∧ Double v ∧ |v| ≤ 2 ^ 500 ∧ ∀ k < n, a k = .fin (if k = j then v else 0)

theorem div_self' {z : ℚ} (h : z ≠ 0) : div (.fin z) (.fin z) = .fin 1 := by
  show (if z = 0 then _ else _) = _
  rw [if_neg h, div_self h, round_dbl ⟨double_one, by norm_num⟩]

/-- The quotient of such a line is 1. -/
theorem quotient_one (hL : IsSqrt L.sq) {n : ℕ} {a : Row} (ha : Sparse1 n a) {t t2 : Tree} (ht : t.Adds n) (ht2 : t2.Adds n) :
    div (norm1 t EPSILON a) (norm2 L t2 EPSILON a) = .fin 1 := by
  obtain ⟨j, v, hj, hd, hb, hv⟩ := ha
  have hE := e8_bounds
  have hE0 : 0 < e8 := lt_of_lt_of_le (by norm_num) hE.1
  have habs : Double |v| := by
    rcases abs_choice v with h | h <;> rw [h]
    · exact hd
    · exact Double.neg hd
  have hvv : |v * v| ≤ 2 ^ 1000 := by
    rw [abs_mul]
    calc |v| * |v| ≤ 2 ^ 500 * 2 ^ 500 := mul_le_mul hb hb (abs_nonneg _) (by positivity)
      _ = _ := by norm_num
  have hD : Dbl (dbl (v * v)) := ⟨dbl_double _, lt_of_le_of_lt (abs_dbl_le (double_pow 1000) hvv) (by norm_num)⟩
  have hD0 : 0 ≤ dbl (v * v) := le_dbl double_zero (mul_self_nonneg _)
  have s1 : (t.sum fun k => absolute (a k)) = .fin |v| := by
    rw [sum_single (j := j) (v := |v|) ⟨habs, by rw [abs_abs]; exact lt_of_le_of_lt hb (by norm_num)⟩ t
      (ht.nodup_iff.mpr List.nodup_range) fun k hk => ?_, if_pos (ht.mem hj)]
    rw [hv k (ht.lt hk)]
    show Flt.fin |_| = _
    split_ifs <;> simp
  have s2 : (t2.sum fun k => square (a k)) = .fin (dbl (v * v)) := by
    rw [sum_single (j := j) (v := dbl (v * v)) hD t2
      (ht2.nodup_iff.mpr List.nodup_range) fun k hk => ?_, if_pos (ht2.mem hj)]
    rw [hv k (ht2.lt hk)]
    show Evaluation.D.round (_ * _) = _
    split_ifs
    · exact round_of_le (double_pow 1000) hvv (by norm_num)
    · rw [mul_zero, round_dbl dbl_zero']
  have key : dbl (|v| + e8) = dbl (L.sq (dbl (v * v)) + e8) := by
    rcases le_or_gt (2 ^ (-500 : ℤ)) |v| with h | h
    · rw [← abs_mul_abs_self v, sq_square hL habs h]
    · have hs : (2 : ℚ) ^ (-500 : ℤ) ≤ 2 ^ (-100 : ℤ) := zpow_le_zpow_right₀ (by norm_num) (by norm_num)
      rw [absorb (abs_nonneg v) (h.le.trans hs), absorb (sq_nonneg' hL hD0)]
      refine le_trans ?_ hs
      have d5 : Double ((2 : ℚ) ^ (-500 : ℤ)) := ⟨1, -500, by norm_num, by norm_num, by push_cast; ring⟩
      rw [← sq_square hL d5 le_rfl]
      refine sq_mono hL hD0 (dbl_mono ?_)
      rw [← abs_mul_abs_self v]
      exact mul_self_le_mul_self (abs_nonneg _) h.le
  have hbd : |(|v| + e8)| ≤ 2 ^ 501 := by
    rw [abs_of_nonneg (by positivity)]
    have : (1001 : ℚ) / 10 ^ 11 + 2 ^ 500 ≤ 2 ^ 501 := by norm_num
    linarith [hE.2]
  have r1 : norm1 t EPSILON a = .fin (dbl (|v| + e8)) := by
    unfold norm1
    rw [s1, epsilon_eq]
    exact round_of_le (double_pow 501) hbd (by norm_num)
  have r2 : norm2 L t2 EPSILON a = .fin (dbl (|v| + e8)) := by
    unfold norm2
    rw [s2, epsilon_eq, key]
    simp only [sqrt, not_lt.2 hD0, if_false]
    show Evaluation.D.round _ = _
    apply round_fin
    rw [← key]
    exact lt_of_le_of_lt (abs_dbl_le (double_pow 501) hbd) (by norm_num)
  rw [r1, r2]
  have : e8 ≤ dbl (|v| + e8) := le_dbl (dbl_double _) (by linarith [abs_nonneg v])
  exact div_self' (by linarith)

/-- Sums of ones are exact. -/
theorem sum_ones {a : ℕ → Flt} : ∀ (t : Tree), t.leaves.length ≤ 2 ^ 53 → (∀ k ∈ t.leaves, a k = .fin 1) →
    t.sum a = .fin t.leaves.length
  | .zero, _, _ => by simp [Tree.sum, Tree.leaves]
  | .leaf k, _, h => by
    show a k = _
    rw [h k (by simp [Tree.leaves])]
    simp [Tree.leaves]
  | .plus p q, hn, h => by
    have hl : (Tree.plus p q).leaves.length = p.leaves.length + q.leaves.length := by simp [Tree.leaves]
    rw [hl] at hn ⊢
    show add (p.sum a) (q.sum a) = _
    rw [sum_ones p (by omega) fun k hk => h k (by simp [Tree.leaves, hk]),
      sum_ones q (by omega) fun k hk => h k (by simp [Tree.leaves, hk])]
    show Evaluation.D.round (_ + _) = _
    rw [← Nat.cast_add, round_dbl (dbl_nat _ hn)]

/-- The mean of quotients which are all 1. -/
theorem hoyer_ones {n : ℕ} {lines : List Row} {t t2 : ℕ → Tree} {tm : Tree} (h0 : lines ≠ [])
    (hlen : lines.length ≤ 2 ^ 53) (htm : tm.Adds lines.length)
    (h : ∀ (i : ℕ) (x : Row), lines[i]? = some x → div (norm1 (t i) EPSILON x) (norm2 L (t2 i) EPSILON x) = .fin 1) :
    hoyerSparseness L n lines t t2 tm EPSILON =
      div (sub (sqrt L (.fin n)) (.fin 1)) (sub (sqrt L (.fin n)) (.fin 1)) := by
  unfold hoyerSparseness
  simp only [List.length_mapIdx]
  have hpos : (lines.length : ℚ) ≠ 0 := by
    have := List.length_pos_of_ne_nil h0
    positivity
  rw [sum_ones tm (by rw [htm.length_eq, List.length_range]; exact hlen), htm.length_eq, List.length_range, div_self' hpos]
  intro k hk
  have hk' : k < lines.length := List.mem_range.1 (htm.mem_iff.1 hk)
  rw [List.getD_eq_getElem?_getD, List.getElem?_mapIdx, List.getElem?_eq_getElem hk']
  exact h k _ (List.getElem?_eq_getElem hk')

theorem sq_one (hL : IsSqrt L.sq) : L.sq 1 = 1 := by
  have := sq_mul_self hL double_one zero_le_one
  rwa [mul_one] at this

/-- The square root of lengths. -/
theorem sqrt_length (hL : IsSqrt L.sq) {n : ℕ} (h2 : 2 ≤ n) (hn : n ≤ 2 ^ 53) :
    ∃ s, sqrt L (.fin n) = .fin s ∧ Double s ∧ 5 / 4 ≤ s ∧ s ≤ 2 ^ 27 := by
  have h0 : (0 : ℚ) ≤ n := by positivity
  refine ⟨L.sq n, by simp only [sqrt, not_lt.2 h0, if_false], (hL n h0).1, ?_, ?_⟩
  · have d : Double (5 / 4) := ⟨5, -2, by norm_num, by norm_num, by norm_num⟩
    rw [← sq_mul_self hL d (by norm_num)]
    refine sq_mono hL (by norm_num) ?_
    have : (2 : ℚ) ≤ n := by exact_mod_cast h2
    linarith
  · rw [← sq_mul_self hL (double_pow 27) (by positivity)]
    refine sq_mono hL h0 ?_
    have : (n : ℚ) ≤ 2 ^ 53 := by exact_mod_cast hn
    refine this.trans ?_
    norm_num

/-- `sqrt_n - 1`. -/
theorem sub_one {s : ℚ} (h1 : 5 / 4 ≤ s) (h2 : s ≤ 2 ^ 27) :
    ∃ d, sub (.fin s) (.fin 1) = .fin d ∧ 1 / 4 ≤ d ∧ d ≤ (s - 1) * (1 + 1 / 2 ^ 52) := by
  have hab : |s + -1| ≤ 2 ^ 27 := by rw [abs_of_nonneg (by linarith)]; linarith
  refine ⟨dbl (s + -1), round_of_le (double_pow 27) hab (by norm_num), ?_, ?_⟩
  · exact le_dbl ⟨1, -2, by norm_num, by norm_num, by norm_num⟩ (by linarith)
  · have := (abs_le.1 (dbl_near (s + -1))).2
    rw [abs_of_nonneg (by linarith)] at this
    have e : (1 : ℚ) / 2 ^ 1075 ≤ 1 / 4 * (1 / 2 ^ 53) := by norm_num
    have e2 : (1 : ℚ) / 4 * (1 / 2 ^ 53) ≤ (s - 1) * (1 / 2 ^ 53) := by
      apply mul_le_mul_of_nonneg_right _ (by norm_num); linarith
    have e3 : (s + -1) / 2 ^ 53 = (s - 1) * (1 / 2 ^ 53) := by ring
    have e4 : (s - 1) * (1 + 1 / 2 ^ 52) = (s - 1) + 2 * ((s - 1) * (1 / 2 ^ 53)) := by ring
    rw [e3] at this
    rw [e4]
    linarith

/-- **C229.** When all lines have at most one entry which is not zero, sparseness is exactly 1. -/
theorem C229_sparse (hL : IsSqrt L.sq) {n : ℕ} (h2 : 2 ≤ n) (hn : n ≤ 2 ^ 53) {lines : List Row} {t t2 : ℕ → Tree}
    {tm : Tree} (h0 : lines ≠ []) (hlen : lines.length ≤ 2 ^ 53) (ht : ∀ i, (t i).Adds n) (ht2 : ∀ i, (t2 i).Adds n)
    (htm : tm.Adds lines.length) (hs : ∀ x ∈ lines, Sparse1 n x) :
    hoyerSparseness L n lines t t2 tm EPSILON = .fin 1 := by
  rw [hoyer_ones h0 hlen htm fun i x hx => quotient_one hL (hs x (List.mem_of_getElem? hx)) (ht i) (ht2 i)]
  obtain ⟨s, e1, _, e2, e3⟩ := sqrt_length hL h2 hn
  obtain ⟨d, e4, e5, _⟩ := sub_one e2 e3
  rw [e1, e4]
  exact div_self' (by linarith)

/-- **C229.** Along an axis of length 1, sparseness is NaN. -/
theorem C229_one (hL : IsSqrt L.sq) {lines : List Row} {t t2 : ℕ → Tree} {tm : Tree} (h0 : lines ≠ [])
    (hlen : lines.length ≤ 2 ^ 53) (ht : ∀ i, (t i).Adds 1) (ht2 : ∀ i, (t2 i).Adds 1) (htm : tm.Adds lines.length)
    (hs : ∀ x ∈ lines, ∃ v, x 0 = .fin v ∧ Double v ∧ |v| ≤ 2 ^ 500) :
    hoyerSparseness L 1 lines t t2 tm EPSILON = .nan := by
  have hs' : ∀ x ∈ lines, Sparse1 1 x := by
    intro x hx
    obtain ⟨v, h1, h2, h3⟩ := hs x hx
    refine ⟨0, v, by norm_num, h2, h3, ?_⟩
    intro k hk
    have : k = 0 := by omega
    subst this
    rw [if_pos rfl, h1]
  rw [hoyer_ones h0 hlen htm fun i x hx => quotient_one hL (hs' x (List.mem_of_getElem? hx)) (ht i) (ht2 i)]
  have e1 : sqrt L (.fin ((1 : ℕ) : ℚ)) = .fin 1 := by
    rw [Nat.cast_one]
    simp only [sqrt]
    rw [if_neg (by norm_num), sq_one hL]
  have e2 : sub (.fin 1) (.fin 1) = .fin 0 := by decide +kernel
  rw [e1, e2]
  decide +kernel

/-- **C229.** The sparseness of a line whose squares overflow is greater than 1. -/
theorem C229_huge (hL : IsSqrt L.sq) {n : ℕ} (h2 : 2 ≤ n) (hn : n ≤ 2 ^ 53) {a : Row} {x : ℕ → ℚ} (ha : Doubles n a x)
    (hb : ∀ k < n, |x k| ≤ 2 ^ 900) (hh : ∃ j < n, 2 ^ 512 ≤ |x j|) {t t2 : ℕ → Tree} {tm : Tree}
    (ht : ∀ i, (t i).Adds n) (ht2 : ∀ i, (t2 i).Adds n) (htm : tm.Adds 1) :
    ∃ s, hoyerSparseness L n [a] t t2 tm EPSILON = .fin s ∧ 1 < s := by
  have hE := e8_bounds
  -- the norms
  obtain ⟨s, hs, ds, bs⟩ := sum_bd (w := fun k => |x k|) (p := 900) (by norm_num) (t 0)
    (by rw [(ht 0).length_eq, List.length_range]; exact hn) fun k hk => by
      have hk' := (ht 0).lt hk
      refine ⟨?_, by rw [abs_abs]; exact hb k hk'⟩
      rcases abs_choice (x k) with h | h <;> rw [h]
      · exact (ha k hk').2.1
      · exact Double.neg (ha k hk').2.1
  have hs' : ((t 0).sum fun k => absolute (a k)) = .fin s := by
    rw [← hs]
    refine sum_congr _ fun k hk => ?_
    rw [(ha k ((ht 0).lt hk)).1]; rfl
  have hsb : |s| ≤ 2 ^ 953 := by
    refine bs.trans ?_
    rw [(ht 0).length_eq, List.length_range]
    have : (n : ℚ) ≤ 2 ^ 53 := by exact_mod_cast hn
    calc (n : ℚ) * 2 ^ 900 ≤ 2 ^ 53 * 2 ^ 900 := by gcongr
      _ = _ := by norm_num
  have r1 : ∃ y, norm1 (t 0) EPSILON a = .fin y := by
    unfold norm1
    rw [hs', epsilon_eq]
    refine ⟨_, round_of_le (double_pow 954) ?_ (by norm_num)⟩
    refine (abs_add_le _ _).trans ?_
    rw [abs_of_nonneg (show (0 : ℚ) ≤ e8 from le_trans (by norm_num) hE.1)]
    have : (2 : ℚ) ^ 953 + 1001 / 10 ^ 11 ≤ 2 ^ 954 := by norm_num
    linarith [hE.2]
  obtain ⟨y, r1⟩ := r1
  have r2 : norm2 L (t2 0) EPSILON a = .inf false := by
    unfold norm2
    have := (Geom.D.C228_huge (L := L) (ht2 0) ha hh).1
    unfold Geom.D.vectorNorm at this
    have e : (fun k => square (a k)) = fun k => mul (a k) (a k) := rfl
    rw [e, this, epsilon_eq]
    rfl
  have hq : div (norm1 (t 0) EPSILON a) (norm2 L (t2 0) EPSILON a) = .fin 0 := by rw [r1, r2]; rfl
  have havg : (tm.sum fun i => ([a].mapIdx fun i x => div (norm1 (t i) EPSILON x) (norm2 L (t2 i) EPSILON x)).getD i
      (.fin 0)) = .fin 0 := by
    apply sum_zero
    intro k hk
    have hk' : k = 0 := by
      have := List.mem_range.1 (htm.mem_iff.1 hk)
      omega
    subst hk'
    exact hq
  unfold hoyerSparseness
  simp only [List.length_mapIdx]
  rw [havg]
  have e0 : div (.fin 0) (.fin (([a] : List Row).length : ℚ)) = .fin 0 := by
    have : ((([a] : List Row).length : ℕ) : ℚ) = 1 := by simp
    rw [this]
    decide +kernel
  rw [e0]
  obtain ⟨v, e1, dv, e2, e3⟩ := sqrt_length hL h2 hn
  obtain ⟨d, e4, e5, e6⟩ := sub_one e2 e3
  rw [e1, e4]
  have e7 : sub (.fin v) (.fin 0) = .fin v := by
    show Evaluation.D.round (v + -0) = _
    rw [neg_zero, add_zero, round_dbl ⟨dv, by
      rw [abs_of_nonneg (by linarith)]
      exact lt_of_le_of_lt e3 (by norm_num)⟩]
  rw [e7]
  have d0 : 0 < d := by linarith
  have hle : |v / d| ≤ 2 ^ 30 := by
    rw [abs_of_nonneg (by apply div_nonneg <;> linarith), div_le_iff₀ d0]
    have : (2 : ℚ) ^ 30 * (1 / 4) ≤ 2 ^ 30 * d := by gcongr
    have e : (2 : ℚ) ^ 27 ≤ 2 ^ 30 * (1 / 4) := by norm_num
    linarith
  refine ⟨dbl (v / d), ?_, ?_⟩
  · show (if d = 0 then _ else _) = _
    rw [if_neg d0.ne']
    exact round_of_le (double_pow 30) hle (by norm_num)
  · have dd : Double (1 + 1 / 2 ^ 30) := ⟨2 ^ 30 + 1, -30, by norm_num, by norm_num, by rw [zpow_neg]; norm_num⟩
    have : 1 + 1 / 2 ^ 30 ≤ v / d := by
      rw [le_div_iff₀ d0]
      have h3 : (1 + 1 / 2 ^ 30) * d ≤ (1 + 1 / 2 ^ 30) * ((v - 1) * (1 + 1 / 2 ^ 52)) := by gcongr
      have h4 : (1 + 1 / 2 ^ 30) * ((v - 1) * (1 + 1 / 2 ^ 52)) ≤ (v - 1) * (1 + 1 / 2 ^ 29) := by
        have : (1 + 1 / 2 ^ 30 : ℚ) * (1 + 1 / 2 ^ 52) ≤ 1 + 1 / 2 ^ 29 := by norm_num
        calc (1 + 1 / 2 ^ 30) * ((v - 1) * (1 + 1 / 2 ^ 52)) = (v - 1) * ((1 + 1 / 2 ^ 30) * (1 + 1 / 2 ^ 52)) := by ring
          _ ≤ _ := mul_le_mul_of_nonneg_left this (by linarith)
      have h5 : (v - 1) * (1 / 2 ^ 29) ≤ 1 := by
        have : (v - 1) * (1 / 2 ^ 29) ≤ 2 ^ 27 * (1 / 2 ^ 29) := by
          apply mul_le_mul_of_nonneg_right _ (by norm_num); linarith
        refine this.trans ?_
        norm_num
      linarith
    have := le_dbl dd this
    refine lt_of_lt_of_le ?_ this
    norm_num

end Verif.Metrics.D
