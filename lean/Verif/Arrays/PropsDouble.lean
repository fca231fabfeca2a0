import Verif.Arrays.Double
import Verif.Evaluation.PropsCosine

/-!
# Normalization of features with doubles (C203)
-/

namespace Verif.Arrays.D

open Verif Verif.Window Verif.Evaluation.D
open Verif.NMF.D (double_mul double_pow double_one double_zero dbl_le le_dbl abs_dbl_le)

/-- The order adds each of the `n` entries of a column once, except that it may leave out zeros. -/
def Covers (t : Tree) (n : ℕ) (x : ℕ → ℚ) : Prop :=
  t.leaves.Nodup ∧ (∀ i ∈ t.leaves, i < n) ∧ ∀ i < n, x i ≠ 0 → i ∈ t.leaves

theorem Covers.of_adds {t : Tree} {n : ℕ} (h : t.Adds n) (x : ℕ → ℚ) : Covers t n x :=
  ⟨(List.Perm.nodup_iff h).2 List.nodup_range, fun _ => h.lt, fun _ hi _ => h.mem hi⟩

/-- A column of doubles which are not negative. -/
def Column (n : ℕ) (X : ℕ → Flt) (x : ℕ → ℚ) : Prop := ∀ i < n, X i = .fin (x i) ∧ Dbl (x i) ∧ 0 ≤ x i

theorem Column.nonneg {n : ℕ} {X : ℕ → Flt} {x : ℕ → ℚ} (h : Column n X x) {t : Tree} (ht : Covers t n x) :
    ∀ i ∈ t.leaves, NonNeg (X i) := fun i hi =>
  .inl ⟨x i, (h i (ht.2.1 i hi)).2.2, (h i (ht.2.1 i hi)).2.1, (h i (ht.2.1 i hi)).1⟩

/-- The computed sum of a column is zero for a column of zeros only. -/
theorem sum_zero_iff {n : ℕ} {X : ℕ → Flt} {x : ℕ → ℚ} (h : Column n X x) {t : Tree} (ht : Covers t n x) :
    t.sum X = .fin 0 ↔ ∀ i < n, x i = 0 := by
  constructor
  · intro hs i hi
    by_contra hne
    have h1 := sum_eq_zero t (h.nonneg ht) hs i (ht.2.2 i hi hne)
    rw [(h i hi).1] at h1
    injection h1 with h1
    exact hne h1
  · intro hz
    refine sum_zero t fun i hi => ?_
    rw [(h i (ht.2.1 i hi)).1, hz i (ht.2.1 i hi)]

/-- **C203.** The kept columns are those which are not zero, for any storage and order of additions. -/
theorem C203_kept {n p : ℕ} {order : ℕ → Tree} {X : ℕ → ℕ → Flt} {x : ℕ → ℕ → ℚ}
    (hX : ∀ j < p, Column n (fun i => X i j) fun i => x i j) (ho : ∀ j < p, Covers (order j) n fun i => x i j) :
    kept p (fun j => (order j).sum fun i => X i j) = (List.range p).filter fun j => decide (∃ i < n, x i j ≠ 0) := by
  unfold kept
  apply List.filter_congr
  intro j hj
  rw [List.mem_range] at hj
  rw [decide_eq_decide, ne_eq, sum_zero_iff (hX j hj) (ho j hj)]
  push Not
  rfl

/-- The exact sum over the stored entries. -/
theorem sum_covers {t : Tree} {n : ℕ} {x : ℕ → ℚ} (ht : Covers t n x) :
    (t.leaves.map x).sum = ∑ i ∈ Finset.range n, x i := by
  rw [← List.sum_toFinset x ht.1]
  apply Finset.sum_subset
  · intro i hi
    rw [List.mem_toFinset] at hi
    exact Finset.mem_range.2 (ht.2.1 i hi)
  · intro i hi hni
    by_contra hne
    exact hni (List.mem_toFinset.2 (ht.2.2 i (Finset.mem_range.1 hi) hne))

theorem Covers.length {t : Tree} {n : ℕ} {x : ℕ → ℚ} (ht : Covers t n x) : t.leaves.length ≤ n := by
  have h1 : t.leaves.toFinset ⊆ Finset.range n := fun i hi =>
    Finset.mem_range.2 (ht.2.1 i (List.mem_toFinset.1 hi))
  have h2 := Finset.card_le_card h1
  rwa [List.toFinset_card_of_nodup ht.1, Finset.card_range] at h2

/-- The computed sum of a column. -/
theorem column_sum {n : ℕ} (hn : n ≤ 2 ^ 48) {X : ℕ → Flt} {x : ℕ → ℚ} (h : Column n X x) (hb : ∀ i < n, x i ≤ 2 ^ 900)
    {t : Tree} (ht : Covers t n x) :
    ∃ s, t.sum X = .fin s ∧ Dbl s ∧ 0 ≤ s ∧ (∀ i < n, x i ≤ s) ∧
      |s - ∑ i ∈ Finset.range n, x i| ≤ n / 2 ^ 52 * ∑ i ∈ Finset.range n, x i := by
  have hsum : t.sum X = t.sum fun k => .fin (x k) := sum_congr t fun k hk => (h k (ht.2.1 k hk)).1
  have hl := ht.length
  obtain ⟨s, hs, ds, bs⟩ := sum_bd (w := x) (p := 900) (by norm_num) t (by omega) fun k hk =>
    ⟨(h k (ht.2.1 k hk)).2.1.1, by rw [abs_of_nonneg (h k (ht.2.1 k hk)).2.2]; exact hb k (ht.2.1 k hk)⟩
  obtain ⟨_, es⟩ := sum_err t s (fun k hk => (h k (ht.2.1 k hk)).2.1.1) hs
  obtain ⟨_, hs0, hge⟩ := sum_ge t (h.nonneg ht) s (by rw [hsum, hs])
  have hnq : (n : ℚ) ≤ 2 ^ 48 := by exact_mod_cast hn
  refine ⟨s, by rw [hsum, hs], ⟨ds, ?_⟩, hs0, ?_, ?_⟩
  · refine lt_of_le_of_lt bs ?_
    calc (t.leaves.length : ℚ) * 2 ^ 900 ≤ 2 ^ 48 * 2 ^ 900 := by
          apply mul_le_mul_of_nonneg_right _ (by positivity)
          have : (t.leaves.length : ℚ) ≤ n := by exact_mod_cast hl
          exact this.trans hnq
      _ = 2 ^ 948 := by rw [← pow_add]
      _ < 2 ^ 1024 := pow_lt_pow_right₀ (by norm_num) (by norm_num)
  · intro i hi
    by_cases h0 : x i = 0
    · rw [h0]
      exact hs0
    · obtain ⟨y, e, hy⟩ := hge i (ht.2.2 i hi h0)
      rw [(h i hi).1] at e
      injection e with e
      rw [e]
      exact hy
  · have habs : (t.leaves.map fun k => |x k|).sum = (t.leaves.map x).sum := by
      congr 1
      apply List.map_congr_left
      intro k hk
      exact abs_of_nonneg (h k (ht.2.1 k hk)).2.2
    rw [habs, sum_covers ht] at es
    refine es.trans (mul_le_mul_of_nonneg_right ?_ (Finset.sum_nonneg fun i hi => (h i (Finset.mem_range.1 hi)).2.2))
    have h1 : (1 + 1 / 2 ^ 53 : ℚ) ^ t.leaves.length ≤ (1 + 1 / 2 ^ 53) ^ n :=
      pow_le_pow_right₀ (by norm_num) hl
    have h2 := grow_le n (by omega)
    linarith

/-- The computed quotient of an entry and the sum. -/
theorem quotient {n : ℕ} (hn : n ≤ 2 ^ 48) {x s S : ℚ} (hx : 0 ≤ x) (hxs : x ≤ s) (hs : 0 < s)
    (he : |s - S| ≤ n / 2 ^ 52 * S) (hS : 0 < S) :
    div (.fin x) (.fin s) = .fin (dbl (x / s)) ∧ 0 ≤ dbl (x / s) ∧ dbl (x / s) ≤ 1 ∧
      |dbl (x / s) - x / S| ≤ (n + 1) / 2 ^ 51 * (x / S) + 1 / 2 ^ 1075 := by
  have h0 : 0 ≤ x / s := div_nonneg hx hs.le
  have h1 : x / s ≤ 1 := (div_le_one hs).2 hxs
  refine ⟨?_, dbl_nonneg h0, dbl_le double_one h1, ?_⟩
  · show (if s = 0 then _ else Evaluation.D.round (x / s)) = _
    rw [if_neg hs.ne']
    exact round_of_le double_one (by rw [abs_of_nonneg h0]; exact h1) (one_lt_pow₀ (by norm_num) (by norm_num))
  · have hr := dbl_near (x / s)
    rw [abs_of_nonneg h0] at hr
    have hnq : (n : ℚ) ≤ 2 ^ 48 := by exact_mod_cast hn
    set g : ℚ := n / 2 ^ 52 with hg
    have hg0 : 0 ≤ g := by positivity
    have hg1 : g ≤ 1 / 16 := by
      rw [hg, div_le_iff₀ (by norm_num)]
      linarith only [hnq]
    rw [abs_le] at he
    set q := x / S with hq
    have hq0 : 0 ≤ q := div_nonneg hx hS.le
    have hxq : x = q * S := by rw [hq]; field_simp
    have hu : x / s ≤ q * (1 + 2 * g - g / 2) := by
      rw [div_le_iff₀ hs]
      have h2 : (1 - g) * S ≤ s := by linarith only [he.1]
      calc x = q * S := hxq
        _ ≤ q * ((1 + 2 * g - g / 2) * ((1 - g) * S)) := by
          apply mul_le_mul_of_nonneg_left _ hq0
          rw [← mul_assoc]
          have : 1 ≤ (1 + 2 * g - g / 2) * (1 - g) := by nlinarith only [hg0, hg1]
          linarith only [mul_le_mul_of_nonneg_right this hS.le]
        _ ≤ q * ((1 + 2 * g - g / 2) * s) := by
          apply mul_le_mul_of_nonneg_left _ hq0
          exact mul_le_mul_of_nonneg_left h2 (by linarith only [hg0])
        _ = _ := by ring
    have hl : q * (1 - g) ≤ x / s := by
      rw [le_div_iff₀ hs]
      have h2 : s ≤ (1 + g) * S := by linarith only [he.2]
      calc q * (1 - g) * s ≤ q * (1 - g) * ((1 + g) * S) := by
            apply mul_le_mul_of_nonneg_left h2
            exact mul_nonneg hq0 (by linarith only [hg1])
        _ = q * S * (1 - g * g) := by ring
        _ ≤ q * S * 1 := by
          apply mul_le_mul_of_nonneg_left _ (mul_nonneg hq0 hS.le)
          linarith only [mul_self_nonneg g]
        _ = x := by rw [mul_one, ← hxq]
    have hgq : 0 ≤ g * q := mul_nonneg hg0 hq0
    have hgq1 : g * q ≤ 1 / 16 * q := mul_le_mul_of_nonneg_right hg1 hq0
    have e : ((n : ℚ) + 1) / 2 ^ 51 * q = 2 * (g * q) + q / 2 ^ 51 := by rw [hg]; ring
    rw [e]
    have hη : (0 : ℚ) ≤ 1 / 2 ^ 1075 := one_div_nonneg.2 (pow_nonneg (by norm_num) _)
    generalize (1 : ℚ) / 2 ^ 1075 = η at *
    rw [abs_le] at hr ⊢
    norm_num at hr ⊢
    constructor
    · nlinarith only [hr.1, hl, hu, hgq, hgq1, hq0, hη, h0]
    · nlinarith only [hr.2, hl, hu, hgq, hgq1, hq0, hη, h0]

/-- The result has the columns which are not zero, in order, and each of their entries is near the quotient of the entry
and of the sum of its column, from 0 to 1. -/
def Normalized (n p : ℕ) (x : ℕ → ℕ → ℚ) (R : List (List Flt)) : Prop :=
  ∃ z : ℕ → ℕ → ℚ, R = ((List.range p).filter fun j => decide (∃ i < n, x i j ≠ 0)).map
      (fun j => (List.range n).map fun i => .fin (z i j)) ∧
    ∀ j < p, (∃ i < n, x i j ≠ 0) →
      (∀ i < n, 0 ≤ z i j ∧ z i j ≤ 1 ∧ (x i j = 0 → z i j = 0) ∧
        |z i j - x i j / ∑ k ∈ Finset.range n, x k j| ≤
          (n + 1) / 2 ^ 51 * (x i j / ∑ k ∈ Finset.range n, x k j) + 1 / 2 ^ 1075) ∧
      |∑ i ∈ Finset.range n, z i j - 1| ≤ (n + 1) / 2 ^ 51 + n / 2 ^ 1075

theorem normalized_of {n p : ℕ} (hn : n ≤ 2 ^ 48) {order : ℕ → Tree} {X : ℕ → ℕ → Flt} {x : ℕ → ℕ → ℚ}
    (hX : ∀ j < p, Column n (fun i => X i j) fun i => x i j) (hb : ∀ j < p, ∀ i < n, x i j ≤ 2 ^ 900)
    (ho : ∀ j < p, Covers (order j) n fun i => x i j) {R : ℕ → ℕ → Flt}
    (hR : ∀ j < p, ∀ s, (order j).sum (fun i => X i j) = .fin s → Dbl s → s ≠ 0 → ∀ i < n,
      R i j = div (.fin (x i j)) (.fin s)) :
    Normalized n p x ((kept p fun j => (order j).sum fun i => X i j).map fun j => (List.range n).map fun i => R i j) := by
  have key : ∀ j, ∃ s, j < p → (order j).sum (fun i => X i j) = .fin s ∧ Dbl s ∧ 0 ≤ s ∧ (∀ i < n, x i j ≤ s) ∧
      |s - ∑ i ∈ Finset.range n, x i j| ≤ n / 2 ^ 52 * ∑ i ∈ Finset.range n, x i j := by
    intro j
    by_cases hj : j < p
    · obtain ⟨s, hs⟩ := column_sum hn (hX j hj) (hb j hj) (ho j hj)
      exact ⟨s, fun _ => hs⟩
    · exact ⟨0, fun h => absurd h hj⟩
  choose s hs using key
  have pos : ∀ j < p, (∃ i < n, x i j ≠ 0) → 0 < s j ∧ 0 < ∑ i ∈ Finset.range n, x i j := by
    rintro j hj ⟨i, hi, hne⟩
    have hxi : 0 < x i j := lt_of_le_of_ne (hX j hj i hi).2.2 (Ne.symm hne)
    refine ⟨lt_of_lt_of_le hxi ((hs j hj).2.2.2.1 i hi), lt_of_lt_of_le hxi ?_⟩
    exact Finset.single_le_sum (f := fun i => x i j) (fun k hk => (hX j hj k (Finset.mem_range.1 hk)).2.2)
      (Finset.mem_range.2 hi)
  refine ⟨fun i j => dbl (x i j / s j), ?_, ?_⟩
  · rw [C203_kept hX ho]
    apply List.map_congr_left
    intro j hj
    rw [List.mem_filter, List.mem_range, decide_eq_true_eq] at hj
    apply List.map_congr_left
    intro i hi
    rw [List.mem_range] at hi
    obtain ⟨p1, p2⟩ := pos j hj.1 hj.2
    rw [hR j hj.1 (s j) (hs j hj.1).1 (hs j hj.1).2.1 p1.ne' i hi]
    exact (quotient hn (hX j hj.1 i hi).2.2 ((hs j hj.1).2.2.2.1 i hi) p1 (hs j hj.1).2.2.2.2 p2).1
  · intro j hj hne
    obtain ⟨p1, p2⟩ := pos j hj hne
    have hq := fun i (hi : i < n) => quotient hn (hX j hj i hi).2.2 ((hs j hj).2.2.2.1 i hi) p1 (hs j hj).2.2.2.2 p2
    refine ⟨fun i hi => ⟨(hq i hi).2.1, (hq i hi).2.2.1, fun h0 => ?_, (hq i hi).2.2.2⟩, ?_⟩
    · show dbl (x i j / s j) = 0
      rw [h0, zero_div, dbl_zero]
    · set S := ∑ i ∈ Finset.range n, x i j
      have h1 : ∑ i ∈ Finset.range n, x i j / S = 1 := by
        rw [← Finset.sum_div, div_self p2.ne']
      calc |∑ i ∈ Finset.range n, dbl (x i j / s j) - 1|
          = |∑ i ∈ Finset.range n, (dbl (x i j / s j) - x i j / S)| := by
            rw [Finset.sum_sub_distrib, h1]
        _ ≤ ∑ i ∈ Finset.range n, |dbl (x i j / s j) - x i j / S| := Finset.abs_sum_le_sum_abs _ _
        _ ≤ ∑ i ∈ Finset.range n, (((n : ℚ) + 1) / 2 ^ 51 * (x i j / S) + 1 / 2 ^ 1075) :=
          Finset.sum_le_sum fun i hi => (hq i (Finset.mem_range.1 hi)).2.2.2
        _ = (n + 1) / 2 ^ 51 + n / 2 ^ 1075 := by
          rw [Finset.sum_add_distrib, ← Finset.mul_sum, h1, mul_one, Finset.sum_const, Finset.card_range, nsmul_eq_mul,
            mul_one_div]

/-- **C203.** The normalization of a dense array of doubles which are not negative, for any order of additions. -/
theorem C203_dense {n p : ℕ} (hn : n ≤ 2 ^ 48) {order : ℕ → Tree} (ho : ∀ j < p, (order j).Adds n) {X : ℕ → ℕ → Flt}
    {x : ℕ → ℕ → ℚ} (hX : ∀ j < p, Column n (fun i => X i j) fun i => x i j) (hb : ∀ j < p, ∀ i < n, x i j ≤ 2 ^ 900) :
    Normalized n p x (normalizeDense n p order X) := by
  refine normalized_of hn hX hb (fun j hj => .of_adds (ho j hj) _) fun j hj s hs hd h0 i hi => ?_
  have h1 : divisor (.fin s) = .fin s := by
    unfold divisor
    rw [if_neg (by simpa using h0)]
    show Evaluation.D.round (0 + s) = _
    rw [zero_add, round_dbl hd]
  show div (X i j) (divisor ((order j).sum fun i => X i j)) = _
  have e : X i j = .fin (x i j) := (hX j hj i hi).1
  rw [hs, h1, e]

/-- **C203.** The same for a sparse matrix, which may store zeros: its columns are those of the dense array. -/
theorem C203_sparse {n p : ℕ} (hn : n ≤ 2 ^ 48) {stored : ℕ → List ℕ} {order : ℕ → Tree} {X : ℕ → ℕ → Flt}
    {x : ℕ → ℕ → ℚ} (hst : ∀ j < p, (stored j).Nodup ∧ (∀ i ∈ stored j, i < n) ∧ ∀ i < n, x i j ≠ 0 → i ∈ stored j)
    (ho : ∀ j < p, (order j).leaves.Perm (stored j))
    (hX : ∀ j < p, Column n (fun i => X i j) fun i => x i j) (hb : ∀ j < p, ∀ i < n, x i j ≤ 2 ^ 900) :
    Normalized n p x (normalizeSparse n p stored order X) := by
  refine normalized_of hn hX hb (fun j hj => ?_) fun j hj s hs hd h0 i hi => ?_
  · obtain ⟨h1, h2, h3⟩ := hst j hj
    have hp := ho j hj
    exact ⟨hp.nodup_iff.2 h1, fun i hi => h2 i (hp.mem_iff.1 hi), fun i hi hne => hp.mem_iff.2 (h3 i hi hne)⟩
  · show (if i ∈ stored j ∧ X i j ≠ .fin 0 then div (X i j) ((order j).sum fun i => X i j) else .fin 0) = _
    rw [hs]
    have e : X i j = .fin (x i j) := (hX j hj i hi).1
    by_cases hz : x i j = 0
    · rw [if_neg (by rw [e, hz]; simp), hz]
      show _ = (if s = 0 then _ else Evaluation.D.round (0 / s))
      rw [if_neg h0, zero_div, round_dbl dbl_zero']
    · rw [if_pos ⟨(hst j hj).2.2 i hi hz, by rw [e]; simpa using hz⟩, e]

/-! ### Witnesses and examples -/

set_option exponentiation.threshold 2000 in
/-- **C203.** A sum which overflows: the column is kept, and all of its entries become zeros. -/
theorem C203_overflow : normalizeDense 2 1 (fun _ => pair) (fun _ _ => .fin (2 ^ 1023)) = [[.fin 0, .fin 0]] := by
  decide +kernel

/-- A column with numbers of both signs. -/
def signed : ℕ → ℕ → Flt := fun i _ => if i = 0 then .fin (2 ^ 53) else if i = 1 then .fin 1 else .fin (-2 ^ 53)

/-- **C203.** With numbers of both signs, whether a column is kept depends on the order of additions: the dense and the
sparse results may have different numbers of columns. -/
theorem C203_signed :
    normalizeDense 3 1 (fun _ => .plus (.plus (.leaf 0) (.leaf 1)) (.leaf 2)) signed = [] ∧
    normalizeSparse 3 1 (fun _ => [0, 1, 2]) (fun _ => .plus (.plus (.leaf 0) (.leaf 2)) (.leaf 1)) signed =
      [[.fin (2 ^ 53), .fin 1, .fin (-2 ^ 53)]] := by decide +kernel

/-- Three columns, of which one is zero. -/
def sample : ℕ → ℕ → ℚ := fun i j => if j = 1 then 0 else if j = 0 then i else 1

/-- The hypotheses are met. -/
example : Normalized 2 3 sample (normalizeDense 2 3 (fun _ => pair) fun i j => .fin (sample i j)) ∧
    normalizeDense 2 3 (fun _ => pair) (fun i j => .fin (sample i j)) = [[.fin 0, .fin 1], [.fin (1 / 2), .fin (1 / 2)]] ∧
    normalizeSparse 2 3 (fun j => if j = 0 then [1] else if j = 1 then [0] else [0, 1])
      (fun j => if j = 0 then .leaf 1 else if j = 1 then .leaf 0 else pair) (fun i j => .fin (sample i j)) =
      [[.fin 0, .fin 1], [.fin (1 / 2), .fin (1 / 2)]] := by
  refine ⟨C203_dense (by norm_num) (fun _ _ => pair_adds) ?_ ?_, by decide +kernel, by decide +kernel⟩
  · intro j hj i hi
    have hd : sample i j = 0 ∨ sample i j = 1 := by
      have : i = 0 ∨ i = 1 := by omega
      unfold sample
      rcases this with rfl | rfl <;> split_ifs <;> simp
    refine ⟨rfl, ?_, ?_⟩
    · show Dbl (sample i j)
      rcases hd with h | h <;> rw [h]
      · exact dbl_zero'
      · exact ⟨double_one, by rw [abs_one]; exact one_lt_pow₀ (by norm_num) (by norm_num)⟩
    · show 0 ≤ sample i j
      rcases hd with h | h <;> rw [h]
      exact zero_le_one
  · intro j hj i hi
    have hd : sample i j ≤ 1 := by
      have : i = 0 ∨ i = 1 := by omega
      unfold sample
      rcases this with rfl | rfl <;> split_ifs <;> simp
    exact hd.trans (one_le_pow₀ (by norm_num))

end Verif.Arrays.D
