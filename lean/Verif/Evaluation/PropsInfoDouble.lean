import Verif.Evaluation.PropsEntropyDouble
import Verif.Metrics.PropsEntropy

/-!
# Mutual information and conditional entropy with doubles (C206, C207)
-/

namespace Verif.Evaluation.D

open Verif Verif.Window
open Verif.NMF.D (double_mul double_pow double_one double_zero dbl_le le_dbl abs_dbl_le)

variable {L : Lib}

/-! ### Specification -/

/-- The orders are those of a matrix with `n` rows and `m` columns. -/
def Orders.Fits (o : Orders) (n m : ℕ) : Prop :=
  o.all.Adds (n * m) ∧ (∀ j < m, (o.col j).Adds n) ∧ ∀ i < n, (o.row i).Adds m

/-- A matrix of doubles which are not negative. -/
def Table (n m : ℕ) (h : ℕ → ℕ → Flt) (x : ℕ → ℕ → ℚ) : Prop :=
  ∀ i < n, ∀ j < m, h i j = .fin (x i j) ∧ Dbl (x i j) ∧ 0 ≤ x i j

/-- The exact sum of all entries. -/
def total (n m : ℕ) (x : ℕ → ℕ → ℚ) : ℚ := ∑ i ∈ Finset.range n, ∑ j ∈ Finset.range m, x i j

/-- The exact sum of a row. -/
def rowTotal (m : ℕ) (x : ℕ → ℕ → ℚ) (i : ℕ) : ℚ := ∑ j ∈ Finset.range m, x i j

/-- The exact sum of a column. -/
def colTotal (n : ℕ) (x : ℕ → ℕ → ℚ) (j : ℕ) : ℚ := ∑ i ∈ Finset.range n, x i j

/-- Entries one after the other. -/
def flatten (m : ℕ) (x : ℕ → ℕ → ℚ) : ℕ → ℚ := fun k => x (k / m) (k % m)

/-! ### Lemmas -/

theorem sum_flat {M : Type} [AddCommMonoid M] (n m : ℕ) (f : ℕ → ℕ → M) :
    ∑ k ∈ Finset.range (n * m), f (k / m) (k % m) = ∑ i ∈ Finset.range n, ∑ j ∈ Finset.range m, f i j := by
  induction n with
  | zero => simp
  | succ n ih =>
    rw [Nat.succ_mul, Finset.sum_range_add, ih, Finset.sum_range_succ]
    congr 1
    apply Finset.sum_congr rfl
    intro j hj
    have hj := Finset.mem_range.1 hj
    have hm : 0 < m := by omega
    rw [Nat.mul_comm n m, Nat.mul_add_div hm, Nat.mul_add_mod, Nat.div_eq_of_lt hj, Nat.mod_eq_of_lt hj, Nat.add_zero]

theorem flat_lt {n m k : ℕ} (h : k < n * m) : k / m < n ∧ k % m < m := by
  have hm : 0 < m := by
    rcases Nat.eq_zero_or_pos m with rfl | hm
    · simp at h
    · exact hm
  exact ⟨Nat.div_lt_of_lt_mul (by rwa [Nat.mul_comm]), Nat.mod_lt _ hm⟩

theorem Table.flat {n m : ℕ} {h : ℕ → ℕ → Flt} {x : ℕ → ℕ → ℚ} (hx : Table n m h x) :
    Doubles (n * m) (flat m h) (flatten m x) := by
  intro k hk
  obtain ⟨h1, h2⟩ := flat_lt hk
  exact ⟨(hx _ h1 _ h2).1, (hx _ h1 _ h2).2.1⟩

theorem Table.rowTotal_nonneg {n m : ℕ} {h : ℕ → ℕ → Flt} {x : ℕ → ℕ → ℚ} (hx : Table n m h x) {i : ℕ} (hi : i < n) :
    0 ≤ rowTotal m x i := Finset.sum_nonneg fun j hj => (hx i hi j (Finset.mem_range.1 hj)).2.2

theorem Table.row_le {n m : ℕ} {h : ℕ → ℕ → Flt} {x : ℕ → ℕ → ℚ} (hx : Table n m h x) {i : ℕ} (hi : i < n) :
    rowTotal m x i ≤ total n m x :=
  Finset.single_le_sum (f := fun i => ∑ j ∈ Finset.range m, x i j)
    (fun i hi => hx.rowTotal_nonneg (Finset.mem_range.1 hi)) (Finset.mem_range.2 hi)

theorem Table.le_row {n m : ℕ} {h : ℕ → ℕ → Flt} {x : ℕ → ℕ → ℚ} (hx : Table n m h x) {i j : ℕ} (hi : i < n) (hj : j < m) :
    x i j ≤ rowTotal m x i :=
  Finset.single_le_sum (f := fun j => x i j) (fun j hj => (hx i hi j (Finset.mem_range.1 hj)).2.2) (Finset.mem_range.2 hj)

theorem Table.transpose {n m : ℕ} {h : ℕ → ℕ → Flt} {x : ℕ → ℕ → ℚ} (hx : Table n m h x) :
    Table m n (fun j i => h i j) (fun j i => x i j) := fun j hj i hi => hx i hi j hj

theorem total_transpose (n m : ℕ) (x : ℕ → ℕ → ℚ) : total m n (fun j i => x i j) = total n m x := Finset.sum_comm

theorem Table.le_total {n m : ℕ} {h : ℕ → ℕ → Flt} {x : ℕ → ℕ → ℚ} (hx : Table n m h x) {i j : ℕ} (hi : i < n) (hj : j < m) :
    x i j ≤ total n m x := (hx.le_row hi hj).trans (hx.row_le hi)

/-- The computed sum of numbers which are not negative. -/
theorem sum_pos_err {n : ℕ} (hn : n ≤ 2 ^ 48) {t : Tree} (ht : t.Adds n) {f : ℕ → Flt} {x : ℕ → ℚ} (hf : Doubles n f x)
    (h0 : ∀ k < n, 0 ≤ x k) (hle : ∀ k < n, x k ≤ 2 ^ 400) :
    ∃ s, t.sum f = .fin s ∧ Dbl s ∧ 0 ≤ s ∧ (∀ k < n, x k ≤ s) ∧
      |s - ∑ k ∈ Finset.range n, x k| ≤ n / 2 ^ 52 * ∑ k ∈ Finset.range n, x k := by
  have hsum : t.sum f = t.sum fun k => .fin (x k) := sum_congr t fun k hk => (hf k (ht.lt hk)).1
  obtain ⟨s, hs, ds, bs⟩ := sum_bd (w := x) (p := 400) (by norm_num) t (by rw [ht.length]; omega)
    fun k hk => ⟨(hf k (ht.lt hk)).2.1, by rw [abs_of_nonneg (h0 k (ht.lt hk))]; exact hle k (ht.lt hk)⟩
  obtain ⟨_, es⟩ := sum_err t s (fun k hk => (hf k (ht.lt hk)).2.1) hs
  have hnn : ∀ k ∈ t.leaves, NonNeg ((fun k => Flt.fin (x k)) k) := fun k hk =>
    .inl ⟨x k, h0 k (ht.lt hk), (hf k (ht.lt hk)).2, rfl⟩
  obtain ⟨_, g1, g2⟩ := sum_ge t hnn s hs
  refine ⟨s, by rw [hsum, hs], ⟨ds, ?_⟩, g1, fun k hk => ?_, ?_⟩
  · refine lt_of_le_of_lt bs ?_
    rw [ht.length]
    have h1 : (n : ℚ) ≤ 2 ^ 48 := by exact_mod_cast hn
    calc (n : ℚ) * 2 ^ 400 ≤ 2 ^ 48 * 2 ^ 400 := mul_le_mul_of_nonneg_right h1 (by positivity)
      _ = 2 ^ 448 := by rw [← pow_add]
      _ < 2 ^ 1024 := pow_lt_pow_right₀ (by norm_num) (by norm_num)
  · obtain ⟨y, h1, h2⟩ := g2 k (ht.mem hk)
    rw [Flt.fin.inj h1]
    exact h2
  · rw [ht.length, sum_leaves ht, sum_leaves ht] at es
    have hg2 := grow_le n (by omega)
    have habs : ∑ k ∈ Finset.range n, |x k| = ∑ k ∈ Finset.range n, x k :=
      Finset.sum_congr rfl fun k hk => abs_of_nonneg (h0 k (Finset.mem_range.1 hk))
    rw [habs] at es
    refine es.trans (mul_le_mul_of_nonneg_right ?_ (Finset.sum_nonneg fun k hk => h0 k (Finset.mem_range.1 hk)))
    linarith only [hg2]

/-- Numbers near 1 are close, others are not. -/
theorem closeToOne_near {s : ℚ} (h : |s - 1| ≤ 1 / 2 ^ 17) : closeToOne (.fin s) = true := by
  have hd : Double ((1 : ℚ) / 2 ^ 17) := ⟨1, -17, by norm_num, by norm_num, by norm_num⟩
  have e1 : sub (.fin s) (.fin 1) = .fin (dbl (s + -1)) :=
    round_of_le hd (by rw [← sub_eq_add_neg]; exact h)
      (lt_of_le_of_lt (show (1 : ℚ) / 2 ^ 17 ≤ 1 by norm_num) (one_lt_pow₀ (by norm_num) (by norm_num)))
  have e2 : |dbl (s + -1)| ≤ 1 / 2 ^ 17 := abs_dbl_le hd (by rw [← sub_eq_add_neg]; exact h)
  unfold closeToOne
  rw [e1]
  have e3 : ge (add (round (1 / 10 ^ 8)) (mul (round (1 / 10 ^ 5)) (.fin 1))) (.fin (1 / 2 ^ 17)) = true := by
    decide +kernel
  exact ge_trans e3 (by simp only [ge]; exact decide_eq_true e2)

theorem closeToOne_far {s : ℚ} (h : 1 / 2 ^ 16 ≤ |s - 1|) : closeToOne (.fin s) = false := by
  have hd : Double ((1 : ℚ) / 2 ^ 16) := ⟨1, -16, by norm_num, by norm_num, by norm_num⟩
  unfold closeToOne
  rcases round_cases (s + -1) with ⟨e1, _⟩ | e1
  · have e0 : sub (.fin s) (.fin 1) = .fin (dbl (s + -1)) := e1
    rw [e0]
    have e2 : 1 / 2 ^ 16 ≤ |dbl (s + -1)| := by
      rw [← sub_eq_add_neg] at *
      rcases le_abs'.1 h with h | h
      · have := dbl_le (Double.neg hd) h
        exact le_trans (by linarith) (neg_le_abs _)
      · exact (le_dbl hd h).trans (le_abs_self _)
    have e3 : ge (add (round (1 / 10 ^ 8)) (mul (round (1 / 10 ^ 5)) (.fin 1))) (.fin (1 / 2 ^ 16)) = false := by
      decide +kernel
    by_contra hc
    simp only [Bool.not_eq_false] at hc
    have : ge (.fin |dbl (s + -1)|) (.fin (1 / 2 ^ 16)) = true := by simp only [ge]; exact decide_eq_true e2
    rw [ge_trans hc this] at e3
    cases e3
  · have e0 : sub (.fin s) (.fin 1) = .inf (decide (s + -1 < 0)) := e1
    rw [e0]

theorem log_perturb' {r r' δ : ℝ} (hr : 0 < r) (hδ : δ ≤ 1 / 2) (h : |r' - r| ≤ r * δ) :
    0 < r' ∧ |Real.log r' - Real.log r| ≤ 2 * δ := by
  have hδ0 : 0 ≤ δ := by
    have := (abs_nonneg _).trans h
    by_contra hc
    nlinarith
  rw [abs_le] at h
  have hr' : 0 < r' := by nlinarith
  refine ⟨hr', ?_⟩
  rw [← Real.log_div hr'.ne' hr.ne']
  have hq : 0 < r' / r := div_pos hr' hr
  have u := Real.log_le_sub_one_of_pos hq
  have l := Real.one_sub_inv_le_log_of_pos hq
  have hq1 : r' / r ≤ 1 + δ := by
    rw [div_le_iff₀ hr]
    linarith
  have hinv : (r' / r)⁻¹ ≤ 1 + 2 * δ := by
    rw [inv_div, div_le_iff₀ hr']
    nlinarith
  rw [abs_le]
  constructor <;> linarith

/-- The term of a perturbed number. -/
theorem xlogx_perturb {R r δ : ℝ} (hR : 0 ≤ R) (hδ : δ ≤ 1 / 2) (h : |r - R| ≤ R * δ) :
    |r * Real.log r - R * Real.log R| ≤ δ * (|R * Real.log R| + 3 * R) := by
  rcases hR.eq_or_lt with rfl | hR
  · rw [zero_mul, sub_zero] at h
    rw [abs_nonpos_iff.1 h]
    simp
  obtain ⟨hr, hl⟩ := log_perturb' hR hδ h
  have e : r * Real.log r - R * Real.log R = (r - R) * Real.log R + r * (Real.log r - Real.log R) := by ring
  rw [e]
  refine (abs_add_le _ _).trans ?_
  rw [abs_mul, abs_mul, abs_mul, abs_of_pos hR, abs_of_pos hr]
  have h1 : |r - R| * |Real.log R| ≤ R * δ * |Real.log R| := mul_le_mul_of_nonneg_right h (abs_nonneg _)
  have h2 : r ≤ 3 / 2 * R := by
    have := (abs_le.1 h).2
    nlinarith
  have h3 : r * |Real.log r - Real.log R| ≤ 3 / 2 * R * (2 * δ) := mul_le_mul h2 hl (abs_nonneg _) (by positivity)
  nlinarith

theorem mass_nonneg (n : ℕ) (x : ℕ → ℚ) : 0 ≤ mass n x := Finset.sum_nonneg fun _ _ => abs_nonneg _

theorem abs_ent_le (n : ℕ) (x : ℕ → ℚ) : |ent n x| ≤ mass n x := by
  unfold ent
  rw [abs_neg]
  exact Finset.abs_sum_le_sum_abs _ _

/-- For numbers up to 1 the sum of absolute values is the entropy. -/
theorem mass_eq {n : ℕ} {x : ℕ → ℚ} (h : ∀ k < n, 0 ≤ x k ∧ x k ≤ 1) : mass n x = ent n x := by
  unfold mass ent
  rw [← Finset.sum_neg_distrib]
  refine Finset.sum_congr rfl fun k hk => abs_of_nonpos ?_
  obtain ⟨h0, h1⟩ := h k (Finset.mem_range.1 hk)
  have h0 : (0 : ℝ) ≤ x k := by exact_mod_cast h0
  have h1 : (x k : ℝ) ≤ 1 := by exact_mod_cast h1
  exact mul_nonpos_of_nonneg_of_nonpos h0 (Real.log_nonpos h0 h1)

theorem ent_le_log {n : ℕ} {x : ℕ → ℚ} (h0 : ∀ k < n, 0 ≤ x k) (h1 : ∑ k ∈ Finset.range n, x k = 1) :
    ent n x ≤ Real.log n := by
  have hp : Metrics.IsProb (fun i : Fin n => (x i : ℝ)) := by
    refine ⟨fun i => by exact_mod_cast h0 i i.2, ?_⟩
    rw [← Finset.sum_range (fun k => (x k : ℝ))]
    exact_mod_cast h1
  have := (Metrics.C36_range _ hp).2
  rw [Metrics.entropy_eq, ← Finset.sum_range (fun k => (x k : ℝ) * Real.log (x k)), Fintype.card_fin] at this
  exact this

/-! ### Theorems -/

/-- **C206.** The computed entropy of probabilities is at most the logarithm of their number, up to the error. -/
theorem C206_upper (hL : IsLog L.lg) {n : ℕ} (hn : n ≤ 2 ^ 48) {t : Tree} (ht : t.Adds n) {a : Row} {x : ℕ → ℚ}
    (ha : Doubles n a x) (h0 : ∀ k < n, 0 ≤ x k) (h1 : ∑ k ∈ Finset.range n, x k = 1) :
    ∃ d : ℚ, entropy L t a = .fin d ∧ (d : ℝ) ≤ (1 + (n + 16) / 2 ^ 52) * Real.log n + n / 2 ^ 1074 := by
  have hle : ∀ k < n, x k ≤ 1 := by
    intro k hk
    rw [← h1]
    exact Finset.single_le_sum (f := x) (fun j hj => h0 j (Finset.mem_range.1 hj)) (Finset.mem_range.2 hk)
  obtain ⟨d, e1, _, _, e2⟩ := C206_error hL hn ht ha fun k hk => ⟨h0 k hk, (hle k hk).trans (one_le_pow₀ (by norm_num))⟩
  refine ⟨d, e1, ?_⟩
  rw [mass_eq fun k hk => ⟨h0 k hk, hle k hk⟩] at e2
  have e3 := ent_le_log h0 h1
  have e4 : ((n : ℝ) + 16) / 2 ^ 52 * ent n x ≤ (n + 16) / 2 ^ 52 * Real.log n :=
    mul_le_mul_of_nonneg_left e3 (by positivity)
  rw [abs_le] at e2
  generalize (n : ℝ) / 2 ^ 1074 = η at *
  linarith only [e2.2, e3, e4]

/-- **C207.** The assertion about the sum of all entries: it holds when the exact sum is near 1, and fails when it is
not. -/
theorem C207_assertion {n m : ℕ} (hN : n * m ≤ 2 ^ 34) {o : Orders} (ho : o.Fits n m) (marginal : Tree)
    {h : ℕ → ℕ → Flt} {x : ℕ → ℕ → ℚ} (hx : Table n m h x) (hle : ∀ i < n, ∀ j < m, x i j ≤ 2 ^ 400) :
    (|total n m x - 1| ≤ 1 / 2 ^ 19 → closeToOne (o.all.sum (flat m h)) = true) ∧
    (1 / 2 ^ 15 ≤ |total n m x - 1| → mutualInformation L m o h = .error .assertionError ∧
      ∀ axis, conditionalEntropy L m o marginal h axis = .error .assertionError) := by
  have hf := hx.flat
  obtain ⟨s, e1, _, s0, _, e2⟩ := sum_pos_err (by omega) ho.1 hf
    (fun k hk => (hx _ (flat_lt hk).1 _ (flat_lt hk).2).2.2) fun k hk => hle _ (flat_lt hk).1 _ (flat_lt hk).2
  have et : ∑ k ∈ Finset.range (n * m), flatten m x k = total n m x := sum_flat n m x
  rw [et] at e2
  set T := total n m x
  have hT : 0 ≤ T := by
    rw [← et]
    exact Finset.sum_nonneg fun k hk => (hx _ (flat_lt (Finset.mem_range.1 hk)).1 _ (flat_lt (Finset.mem_range.1 hk)).2).2.2
  have hNq : ((n * m : ℕ) : ℚ) / 2 ^ 52 ≤ 1 / 2 ^ 18 := by
    have : ((n * m : ℕ) : ℚ) ≤ 2 ^ 34 := by exact_mod_cast hN
    rw [div_le_div_iff₀ (by norm_num) (by norm_num)]
    linarith
  have e3 : |s - T| ≤ 1 / 2 ^ 18 * T := e2.trans (mul_le_mul_of_nonneg_right hNq hT)
  rw [abs_le] at e3
  constructor
  · intro h1
    rw [e1]
    apply closeToOne_near
    rw [abs_le] at h1 ⊢
    norm_num at h1 e3 ⊢
    constructor <;> linarith
  · intro h1
    have : closeToOne (o.all.sum (flat m h)) = false := by
      rw [e1]
      apply closeToOne_far
      rw [le_abs'] at h1 ⊢
      norm_num at h1 e3 ⊢
      rcases h1 with h1 | h1
      · left; linarith
      · right; linarith
    unfold mutualInformation conditionalEntropy
    rw [this]
    exact ⟨rfl, fun _ => rfl⟩

/-- The bound of the error of a conditional entropy, given sums of rows or columns. -/
noncomputable def condBound (n m p : ℕ) (x : ℕ → ℕ → ℚ) (R : ℕ → ℚ) : ℝ :=
  (3 * (n * m : ℕ) + 20) / 2 ^ 52 * (mass (n * m) (flatten m x) + mass p R + 3 * total n m x) + (n * m : ℕ) / 2 ^ 1071

theorem conditional_core (hL : IsLog L.lg) {n m p q : ℕ} (hp : p ≤ n * m) (hq : q ≤ n * m) (hN : n * m ≤ 2 ^ 34) {o : Orders}
    (ho : o.Fits n m) {marginal : Tree} (hmt : marginal.Adds p) {h : ℕ → ℕ → Flt} {x : ℕ → ℕ → ℚ} (hx : Table n m h x)
    (hT2 : total n m x ≤ 2) {f : ℕ → Flt} {R : ℕ → ℚ} (hR0 : ∀ i < p, 0 ≤ R i)
    (hRT : ∑ i ∈ Finset.range p, R i = total n m x)
    (hr : ∀ i < p, ∃ r, f i = .fin r ∧ Dbl r ∧ 0 ≤ r ∧ |r - R i| ≤ q / 2 ^ 52 * R i) :
    ∃ d : ℚ, sub (entropy L o.all (flat m h)) (entropy L marginal f) = .fin d ∧
      |(d : ℝ) - (ent (n * m) (flatten m x) - ent p R)| ≤ condBound n m p x R := by
  have h400 : (2 : ℚ) ≤ 2 ^ 400 := le_self_pow₀ (by norm_num) (by norm_num)
  have hle : ∀ i < n, ∀ j < m, x i j ≤ 2 ^ 400 := fun i hi j hj => ((hx.le_total hi hj).trans hT2).trans h400
  -- the joint entropy
  obtain ⟨d1, e1, dd1, c1, b1⟩ := C206_error hL (by omega) ho.1 hx.flat fun k hk =>
    ⟨(hx _ (flat_lt hk).1 _ (flat_lt hk).2).2.2, hle _ (flat_lt hk).1 _ (flat_lt hk).2⟩
  -- the marginal
  have hr : ∀ i, ∃ r, i < p → f i = .fin r ∧ Dbl r ∧ 0 ≤ r ∧ |r - R i| ≤ q / 2 ^ 52 * R i := by
    intro i
    by_cases hi : i < p
    · exact (hr i hi).imp fun r h _ => h
    · exact ⟨0, fun h => absurd h hi⟩
  choose r hr using hr
  have hmq : (q : ℚ) / 2 ^ 52 ≤ 1 / 2 ^ 18 := by
    have : (q : ℚ) ≤ 2 ^ 34 := by exact_mod_cast hq.trans hN
    rw [div_le_div_iff₀ (by norm_num) (by norm_num)]
    linarith
  have hr400 : ∀ i < p, r i ≤ 2 ^ 400 := by
    intro i hi
    have h1 := (abs_le.1 (hr i hi).2.2.2).2
    have h2 : (q : ℚ) / 2 ^ 52 * R i ≤ 1 / 2 ^ 18 * R i := mul_le_mul_of_nonneg_right hmq (hR0 i hi)
    have h3 : R i ≤ total n m x := by
      rw [← hRT]
      exact Finset.single_le_sum (f := R) (fun j hj => hR0 j (Finset.mem_range.1 hj)) (Finset.mem_range.2 hi)
    have h4 : r i ≤ 4 := by
      norm_num at h2
      linarith only [h1, h2, h3, hT2, hR0 i hi]
    exact h4.trans (le_trans (by norm_num) (pow_le_pow_right₀ (by norm_num) (show 2 ≤ 400 by norm_num)))
  obtain ⟨d2, e2, dd2, c2, b2⟩ := C206_error hL (n := p) (by omega) hmt (a := f) (x := r)
    (fun i hi => ⟨(hr i hi).1, (hr i hi).2.1⟩) fun i hi => ⟨(hr i hi).2.2.1, hr400 i hi⟩
  -- the difference
  have e3 : sub (.fin d1) (.fin d2) = .fin (dbl (d1 + -d2)) := by
    refine round_of_le (double_pow 471) ?_ (pow_lt_pow_right₀ (by norm_num) (by norm_num))
    refine (abs_add_le _ _).trans ?_
    rw [abs_neg, pow_succ, mul_two]
    exact add_le_add c1 c2
  have b3 := (Rat.cast_le (K := ℝ)).2 (dbl_rel_add dd1 (Double.neg dd2))
  push_cast at b3
  refine ⟨dbl (d1 + -d2), by rw [e1, e2, e3], ?_⟩
  -- errors of the marginal
  set δ : ℝ := q / 2 ^ 52 with hδ
  have hδ0 : 0 ≤ δ := by positivity
  have hδ1 : δ ≤ 1 / 2 ^ 18 := by
    have := (Rat.cast_le (K := ℝ)).2 hmq
    push_cast at this
    exact this
  have hsumR : (∑ i ∈ Finset.range p, (R i : ℝ)) = total n m x := by
    rw [← hRT]
    push_cast
    rfl
  have hdiff : ∀ i ∈ Finset.range p, |(r i : ℝ) * Real.log (r i) - R i * Real.log (R i)| ≤
      δ * (|(R i : ℝ) * Real.log (R i)| + 3 * R i) := by
    intro i hi
    have hi := Finset.mem_range.1 hi
    have h1 := (Rat.cast_le (K := ℝ)).2 (hr i hi).2.2.2
    push_cast at h1
    refine xlogx_perturb (by exact_mod_cast hR0 i hi) (hδ1.trans (by norm_num)) ?_
    rw [mul_comm]
    exact h1
  have hsumdiff : ∑ i ∈ Finset.range p, |(r i : ℝ) * Real.log (r i) - R i * Real.log (R i)| ≤
      δ * (mass p R + 3 * total n m x) := by
    refine (Finset.sum_le_sum hdiff).trans (le_of_eq ?_)
    rw [← Finset.mul_sum, Finset.sum_add_distrib, ← Finset.mul_sum, hsumR]
    rfl
  have b4 : |ent p r - ent p R| ≤ δ * (mass p R + 3 * total n m x) := by
    unfold ent
    rw [neg_sub_neg, ← Finset.sum_sub_distrib]
    refine le_trans (Finset.abs_sum_le_sum_abs _ _) (le_trans (le_of_eq ?_) hsumdiff)
    exact Finset.sum_congr rfl fun i _ => abs_sub_comm _ _
  have b5 : mass p r ≤ mass p R + δ * (mass p R + 3 * total n m x) := by
    have : mass p r ≤ mass p R + ∑ i ∈ Finset.range p, |(r i : ℝ) * Real.log (r i) - R i * Real.log (R i)| := by
      unfold mass
      rw [← Finset.sum_add_distrib]
      refine Finset.sum_le_sum fun i _ => ?_
      have := abs_sub_abs_le_abs_sub ((r i : ℝ) * Real.log (r i)) (R i * Real.log (R i))
      linarith only [this]
    linarith only [this, hsumdiff]
  -- final bound
  have hMj := mass_nonneg (n * m) (flatten m x)
  have hMR := mass_nonneg p R
  have hT0 : (0 : ℝ) ≤ total n m x := by
    have : 0 ≤ total n m x := by
      rw [← hRT]
      exact Finset.sum_nonneg fun i hi => hR0 i (Finset.mem_range.1 hi)
    exact_mod_cast this
  have hj := abs_ent_le (n * m) (flatten m x)
  have hjr := abs_ent_le p R
  unfold condBound
  set Mj := mass (n * m) (flatten m x)
  set MR := mass p R
  set Hj := ent (n * m) (flatten m x)
  set HR := ent p R
  set Hr := ent p r
  set Mr := mass p r
  set T : ℝ := ((total n m x : ℚ) : ℝ)
  set Z : ℝ := ((dbl (d1 + -d2) : ℚ) : ℝ)
  set ν : ℝ := ((n * m : ℕ) : ℝ) / 2 ^ 52 with hν
  have hν0 : 0 ≤ ν := by positivity
  have hν1 : ν ≤ 1 / 2 ^ 18 := by
    have : ((n * m : ℕ) : ℝ) ≤ 2 ^ 34 := by exact_mod_cast hN
    rw [hν, div_le_div_iff₀ (by norm_num) (by norm_num)]
    linarith
  have hδν : δ ≤ ν := by
    rw [hδ, hν]
    gcongr
  have hnν : (p : ℝ) / 2 ^ 52 ≤ ν := by
    rw [hν]
    gcongr
  have hη : ((n * m : ℕ) : ℝ) / 2 ^ 1071 = 8 * (((n * m : ℕ) : ℝ) / 2 ^ 1074) := by
    rw [show (1074 : ℕ) = 1071 + 3 by norm_num, pow_add]
    field_simp
    norm_num
  have hη0 : (0 : ℝ) ≤ ((n * m : ℕ) : ℝ) / 2 ^ 1074 := div_nonneg (Nat.cast_nonneg _) (pow_nonneg (by norm_num) _)
  have hηn : (p : ℝ) / 2 ^ 1074 ≤ ((n * m : ℕ) : ℝ) / 2 ^ 1074 :=
    div_le_div_of_nonneg_right (by exact_mod_cast hp) (pow_nonneg (by norm_num) _)
  rw [hη]
  have hN1 : (((n * m : ℕ) : ℝ) + 16) / 2 ^ 52 = ν + 1 / 2 ^ 48 := by rw [hν]; ring
  have hN2 : (3 * ((n * m : ℕ) : ℝ) + 20) / 2 ^ 52 = 3 * ν + 20 / 2 ^ 52 := by rw [hν]; ring
  have hN3 : ((p : ℝ) + 16) / 2 ^ 52 ≤ ν + 1 / 2 ^ 48 := by
    have : ((p : ℝ) + 16) / 2 ^ 52 = p / 2 ^ 52 + 1 / 2 ^ 48 := by ring
    linarith only [this, hnν]
  rw [hN1] at b1
  rw [hN2]
  have hMr : 0 ≤ Mr := mass_nonneg p r
  have b2' : |(d2 : ℝ) - Hr| ≤ (ν + 1 / 2 ^ 48) * Mr + ((n * m : ℕ) : ℝ) / 2 ^ 1074 := by
    have : ((p : ℝ) + 16) / 2 ^ 52 * Mr ≤ (ν + 1 / 2 ^ 48) * Mr := mul_le_mul_of_nonneg_right hN3 hMr
    exact le_trans b2 (add_le_add this hηn)
  generalize ((n * m : ℕ) : ℝ) / 2 ^ 1074 = η at *
  have s1 : |Z - (Hj - HR)| ≤ |Z - (d1 + -d2)| + |(d1 : ℝ) - Hj| + |(d2 : ℝ) - Hr| + |Hr - HR| := by
    calc |Z - (Hj - HR)| = |(Z - (d1 + -d2)) + (((d1 : ℝ) - Hj) + (-((d2 : ℝ) - Hr) + -(Hr - HR)))| := by congr 1; ring
      _ ≤ |Z - (d1 + -d2)| + (|(d1 : ℝ) - Hj| + (|-((d2 : ℝ) - Hr)| + |-(Hr - HR)|)) :=
        (abs_add_le _ _).trans (add_le_add le_rfl ((abs_add_le _ _).trans (add_le_add le_rfl (abs_add_le _ _))))
      _ = _ := by rw [abs_neg, abs_neg]; ring
  have s2 : |(d1 : ℝ) + -d2| ≤ |(d1 : ℝ) - Hj| + |(d2 : ℝ) - Hr| + |Hr - HR| + Mj + MR := by
    calc |(d1 : ℝ) + -d2| = |((d1 : ℝ) - Hj) + (-((d2 : ℝ) - Hr) + (-(Hr - HR) + (Hj + -HR)))| := by congr 1; ring
      _ ≤ |(d1 : ℝ) - Hj| + (|-((d2 : ℝ) - Hr)| + (|-(Hr - HR)| + (|Hj| + |-HR|))) :=
        (abs_add_le _ _).trans (add_le_add le_rfl ((abs_add_le _ _).trans (add_le_add le_rfl
          ((abs_add_le _ _).trans (add_le_add le_rfl (abs_add_le _ _))))))
      _ ≤ _ := by rw [abs_neg, abs_neg, abs_neg]; linarith only [hj, hjr]
  -- products
  have p0 : 0 ≤ MR + 3 * T := by linarith only [hMR, hT0]
  have p1 : δ * (MR + 3 * T) ≤ ν * (MR + 3 * T) := mul_le_mul_of_nonneg_right hδν p0
  have p2 : δ * (MR + 3 * T) ≤ 1 / 2 ^ 18 * (MR + 3 * T) := mul_le_mul_of_nonneg_right hδ1 p0
  have p3 : (ν + 1 / 2 ^ 48) * Mr ≤ (ν + 1 / 2 ^ 48) * ((1 + 1 / 2 ^ 18) * (MR + 3 * T)) := by
    apply mul_le_mul_of_nonneg_left _ (add_nonneg hν0 (by norm_num))
    norm_num at p2 b5 ⊢
    linarith only [b5, p2, hT0]
  have p4 : (ν + 1 / 2 ^ 48) * ((1 + 1 / 2 ^ 18) * (MR + 3 * T)) =
      (1 + 1 / 2 ^ 18) * (ν * (MR + 3 * T)) + (1 + 1 / 2 ^ 18) / 2 ^ 48 * (MR + 3 * T) := by ring
  have p5 : (3 * ν + 20 / 2 ^ 52) * (Mj + MR + 3 * T) =
      3 * (ν * Mj) + 3 * (ν * (MR + 3 * T)) + 20 / 2 ^ 52 * Mj + 20 / 2 ^ 52 * (MR + 3 * T) := by ring
  have p6 : (ν + 1 / 2 ^ 48) * Mj = ν * Mj + 1 / 2 ^ 48 * Mj := by ring
  have p7 : ν * Mj ≤ 1 / 2 ^ 18 * Mj := mul_le_mul_of_nonneg_right hν1 hMj
  have p8 : ν * (MR + 3 * T) ≤ 1 / 2 ^ 18 * (MR + 3 * T) := mul_le_mul_of_nonneg_right hν1 p0
  have p9 : 0 ≤ ν * Mj := mul_nonneg hν0 hMj
  have p10 : 0 ≤ ν * (MR + 3 * T) := mul_nonneg hν0 p0
  rw [p5]
  rw [p6] at b1
  rw [p4] at p3
  have hMRT : MR ≤ MR + 3 * T := by linarith only [hT0]
  generalize ν * Mj = α at *
  generalize hγ : MR + 3 * T = γ at *
  generalize ν * γ = β at *
  generalize |Z - (Hj - HR)| = G at *
  generalize |Z - (d1 + -d2)| = G1 at *
  generalize |(d1 : ℝ) - Hj| = G2 at *
  generalize |(d2 : ℝ) - Hr| = G3 at *
  generalize |Hr - HR| = G4 at *
  generalize |(d1 : ℝ) + -d2| = G5 at *
  generalize (ν + 1 / 2 ^ 48) * Mr = G6 at *
  generalize δ * γ = G7 at *
  norm_num at b1 b2' b3 b4 p1 p2 p3 p7 p8 s1 s2 ⊢
  linarith only [b1, b2', b3, b4, p1, p2, p3, p7, p8, p9, p10, p0, s1, s2, hη0, hMj, hMR, hMRT]

/-- **C207.** The computed conditional entropy is finite, and its error, for sums of rows (axis 0) and of columns. -/
theorem C207_conditional (hL : IsLog L.lg) {n m : ℕ} (hn : 0 < n) (hm : 0 < m) (hN : n * m ≤ 2 ^ 34) {o : Orders}
    (ho : o.Fits n m) {h : ℕ → ℕ → Flt} {x : ℕ → ℕ → ℚ} (hx : Table n m h x) (hT : |total n m x - 1| ≤ 1 / 2 ^ 19) :
    (∀ marginal : Tree, marginal.Adds n → ∀ axis, (axis = 0 ∨ axis = -2) →
      ∃ d : ℚ, conditionalEntropy L m o marginal h axis = .ok (.fin d) ∧
        |(d : ℝ) - (ent (n * m) (flatten m x) - ent n (rowTotal m x))| ≤ condBound n m n x (rowTotal m x)) ∧
    (∀ marginal : Tree, marginal.Adds m → ∀ axis, (axis = 1 ∨ axis = -1) →
      ∃ d : ℚ, conditionalEntropy L m o marginal h axis = .ok (.fin d) ∧
        |(d : ℝ) - (ent (n * m) (flatten m x) - ent m (colTotal n x))| ≤ condBound n m m x (colTotal n x)) ∧
    ∀ marginal axis, (axis < -2 ∨ 1 < axis) → conditionalEntropy L m o marginal h axis = .error .valueError := by
  have hT2 : total n m x ≤ 2 := by
    rw [abs_le] at hT
    norm_num at hT
    linarith
  have h400 : (2 : ℚ) ≤ 2 ^ 400 := le_self_pow₀ (by norm_num) (by norm_num)
  have hle : ∀ i < n, ∀ j < m, x i j ≤ 2 ^ 400 := fun i hi j hj => ((hx.le_total hi hj).trans hT2).trans h400
  have hclose := (C207_assertion (L := L) hN ho .zero hx hle).1 hT
  have hnN : n ≤ n * m := Nat.le_mul_of_pos_right n hm
  have hmN : m ≤ n * m := Nat.le_mul_of_pos_left m hn
  refine ⟨fun marginal hmt axis ha => ?_, fun marginal hmt axis ha => ?_, fun marginal axis ha => ?_⟩
  · obtain ⟨d, e1, e2⟩ := conditional_core hL (p := n) (q := m) hnN hmN hN ho hmt hx hT2 (f := o.rowSum h)
      (R := rowTotal m x) (fun i hi => hx.rowTotal_nonneg hi) rfl (by
        intro i hi
        obtain ⟨r, h1, h2, h3, _, h4⟩ := sum_pos_err (n := m) (by omega) (ho.2.2 i hi) (f := fun j => h i j) (x := x i)
          (fun j hj => ⟨(hx i hi j hj).1, (hx i hi j hj).2.1⟩) (fun j hj => (hx i hi j hj).2.2) (hle i hi)
        exact ⟨r, h1, h2, h3, h4⟩)
    refine ⟨d, ?_, e2⟩
    unfold conditionalEntropy
    rw [if_pos hclose, if_pos ha, e1]
  · obtain ⟨d, e1, e2⟩ := conditional_core hL (p := m) (q := n) hmN hnN hN ho hmt hx hT2 (f := o.colSum h)
      (R := colTotal n x) (fun i hi => hx.transpose.rowTotal_nonneg hi) Finset.sum_comm (by
        intro j hj
        obtain ⟨r, h1, h2, h3, _, h4⟩ := sum_pos_err (n := n) (by omega) (ho.2.1 j hj) (f := fun i => h i j)
          (x := fun i => x i j) (fun i hi => ⟨(hx i hi j hj).1, (hx i hi j hj).2.1⟩) (fun i hi => (hx i hi j hj).2.2)
          fun i hi => hle i hi j hj
        exact ⟨r, h1, h2, h3, h4⟩)
    refine ⟨d, ?_, e2⟩
    unfold conditionalEntropy
    rw [if_pos hclose, if_neg (by omega), if_pos ha, e1]
  · unfold conditionalEntropy
    rw [if_pos hclose, if_neg (by omega), if_neg (by omega)]

/-- Exact joint probabilities. -/
theorem isJoint {n m : ℕ} {h : ℕ → ℕ → Flt} {x : ℕ → ℕ → ℚ} (hx : Table n m h x) (hT : total n m x = 1) :
    Metrics.IsJoint (fun (i : Fin n) (j : Fin m) => (x i j : ℝ)) := by
  refine ⟨fun i j => by exact_mod_cast (hx i i.2 j j.2).2.2, ?_⟩
  have h1 : ∑ i : Fin n, ∑ j : Fin m, (x i j : ℝ) = ∑ i ∈ Finset.range n, ∑ j ∈ Finset.range m, (x i j : ℝ) := by
    rw [Finset.sum_range]
    exact Finset.sum_congr rfl fun i _ => (Finset.sum_range (fun j => (x i j : ℝ))).symm
  rw [h1]
  unfold total at hT
  exact_mod_cast hT

theorem ent_flatten (n m : ℕ) (x : ℕ → ℕ → ℚ) :
    ent (n * m) (flatten m x) = Metrics.entropy (fun p : Fin n × Fin m => (x p.1 p.2 : ℝ)) := by
  rw [Metrics.entropy_eq, Fintype.sum_prod_type]
  unfold ent flatten
  rw [sum_flat n m fun i j => (x i j : ℝ) * Real.log (x i j), Finset.sum_range]
  congr 1
  exact Finset.sum_congr rfl fun i _ => Finset.sum_range (fun j => (x i j : ℝ) * Real.log (x i j))

theorem ent_rowTotal (n m : ℕ) (x : ℕ → ℕ → ℚ) :
    ent n (rowTotal m x) = Metrics.entropy (fun i : Fin n => ∑ j : Fin m, (x i j : ℝ)) := by
  rw [Metrics.entropy_eq]
  unfold ent rowTotal
  rw [Finset.sum_range]
  congr 1
  refine Finset.sum_congr rfl fun i _ => ?_
  rw [← Finset.sum_range (fun j => (x i j : ℝ))]
  push_cast
  rfl

theorem ent_colTotal (n m : ℕ) (x : ℕ → ℕ → ℚ) :
    ent m (colTotal n x) = Metrics.entropy (fun j : Fin m => ∑ i : Fin n, (x i j : ℝ)) :=
  ent_rowTotal m n fun j i => x i j

/-- The bound of `C207_conditional_range`. -/
noncomputable def sizeBound (N : ℕ) : ℝ := (3 * N + 20) / 2 ^ 52 * (2 * Real.log N + 3) + N / 2 ^ 1071

/-- For exact joint probabilities the error is bounded by the size of the matrix. -/
theorem condBound_le {n m p : ℕ} (hp0 : 0 < p) (hp : p ≤ n * m) {h : ℕ → ℕ → Flt} {x : ℕ → ℕ → ℚ}
    (hx : Table n m h x) (hT : total n m x = 1) {R : ℕ → ℚ} (hR : ∀ k < p, 0 ≤ R k)
    (hRT : ∑ k ∈ Finset.range p, R k = 1) : condBound n m p x R ≤ sizeBound (n * m) := by
  have hflat : ∀ k < n * m, 0 ≤ flatten m x k ∧ flatten m x k ≤ 1 := fun k hk =>
    ⟨(hx _ (flat_lt hk).1 _ (flat_lt hk).2).2.2, (hx.le_total (flat_lt hk).1 (flat_lt hk).2).trans hT.le⟩
  have hrow : ∀ i < p, 0 ≤ R i ∧ R i ≤ 1 := fun i hi => ⟨hR i hi, hRT ▸
    Finset.single_le_sum (f := R) (fun k hk => hR k (Finset.mem_range.1 hk)) (Finset.mem_range.2 hi)⟩
  have l1 : mass (n * m) (flatten m x) ≤ Real.log (n * m : ℕ) := by
    rw [mass_eq hflat]
    refine ent_le_log (fun k hk => (hflat k hk).1) ?_
    rw [show ∑ k ∈ Finset.range (n * m), flatten m x k = total n m x from sum_flat n m x]
    exact hT
  have l2 : mass p R ≤ Real.log (n * m : ℕ) := by
    rw [mass_eq hrow]
    refine (ent_le_log hR hRT).trans ?_
    apply Real.log_le_log (by exact_mod_cast hp0)
    exact_mod_cast hp
  unfold condBound sizeBound
  rw [hT]
  have : (0 : ℝ) ≤ (3 * (n * m : ℕ) + 20) / 2 ^ 52 := by positivity
  have h4 : (3 * ((n * m : ℕ) : ℝ) + 20) / 2 ^ 52 * (mass (n * m) (flatten m x) + mass p R + 3 * ((1 : ℚ) : ℝ))
      ≤ (3 * ((n * m : ℕ) : ℝ) + 20) / 2 ^ 52 * (2 * Real.log (n * m : ℕ) + 3) := by
    apply mul_le_mul_of_nonneg_left _ this
    push_cast
    push_cast at l1 l2
    linarith only [l1, l2]
  linarith only [h4]

theorem cond_exact {n m : ℕ} {h : ℕ → ℕ → Flt} {x : ℕ → ℕ → ℚ} (hx : Table n m h x) (hT : total n m x = 1) :
    0 ≤ ent (n * m) (flatten m x) - ent n (rowTotal m x) ∧
    ent (n * m) (flatten m x) - ent n (rowTotal m x) ≤ ent m (colTotal n x) := by
  have hj := isJoint hx hT
  obtain ⟨H, I, c1, _, c2, c3, _⟩ := Metrics.C38_range _ hj
  rw [(Metrics.C38_formula _ hj).1] at c1
  rw [ent_flatten, ent_rowTotal, ent_colTotal, Except.ok.inj c1]
  exact ⟨c2, c3⟩

theorem ent_flatten_transpose (n m : ℕ) (x : ℕ → ℕ → ℚ) :
    ent (m * n) (flatten n fun j i => x i j) = ent (n * m) (flatten m x) := by
  rw [ent_flatten, ent_flatten, Metrics.entropy_eq, Metrics.entropy_eq, Fintype.sum_prod_type, Fintype.sum_prod_type,
    Finset.sum_comm]

/-- **C207.** The computed conditional entropy of exact joint probabilities is not negative nor above the entropy of
the other variable, columns given rows and rows given columns, up to an error which is bounded by the size of the
matrix. -/
theorem C207_conditional_range (hL : IsLog L.lg) {n m : ℕ} (hn : 0 < n) (hm : 0 < m) (hN : n * m ≤ 2 ^ 34) {o : Orders}
    (ho : o.Fits n m) {h : ℕ → ℕ → Flt} {x : ℕ → ℕ → ℚ} (hx : Table n m h x) (hT : total n m x = 1) :
    (∀ marginal : Tree, marginal.Adds n → ∀ axis, (axis = 0 ∨ axis = -2) →
      ∃ d : ℚ, conditionalEntropy L m o marginal h axis = .ok (.fin d) ∧
        -sizeBound (n * m) ≤ (d : ℝ) ∧ (d : ℝ) ≤ ent m (colTotal n x) + sizeBound (n * m)) ∧
    ∀ marginal : Tree, marginal.Adds m → ∀ axis, (axis = 1 ∨ axis = -1) →
      ∃ d : ℚ, conditionalEntropy L m o marginal h axis = .ok (.fin d) ∧
        -sizeBound (n * m) ≤ (d : ℝ) ∧ (d : ℝ) ≤ ent n (rowTotal m x) + sizeBound (n * m) := by
  have hc := C207_conditional hL hn hm hN ho hx (by rw [hT]; norm_num)
  constructor
  · intro marginal hmt axis ha
    obtain ⟨d, e1, e2⟩ := hc.1 marginal hmt axis ha
    obtain ⟨c2, c3⟩ := cond_exact hx hT
    have l3 := condBound_le hn (Nat.le_mul_of_pos_right n hm) hx hT (R := rowTotal m x)
      (fun k hk => hx.rowTotal_nonneg hk) hT
    rw [abs_le] at e2
    refine ⟨d, e1, ?_, ?_⟩ <;> linarith only [e2.1, e2.2, l3, c2, c3]
  · intro marginal hmt axis ha
    obtain ⟨d, e1, e2⟩ := hc.2.1 marginal hmt axis ha
    have hT' : total m n (fun j i => x i j) = 1 := (total_transpose n m x).trans hT
    obtain ⟨c2, c3⟩ := cond_exact hx.transpose hT'
    rw [ent_flatten_transpose] at c2 c3
    have l3 := condBound_le hm (Nat.le_mul_of_pos_left m hn) hx hT (R := colTotal n x)
      (fun k hk => hx.transpose.rowTotal_nonneg hk) hT'
    rw [abs_le] at e2
    have e3 : ent m (colTotal n x) = ent m (rowTotal n fun j i => x i j) := rfl
    have e4 : ent n (rowTotal m x) = ent n (colTotal m fun j i => x i j) := rfl
    rw [e4]
    rw [e3] at e2
    refine ⟨d, e1, ?_, ?_⟩ <;> linarith only [e2.1, e2.2, l3, c2, c3]

end Verif.Evaluation.D
