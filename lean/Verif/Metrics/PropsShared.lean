import Verif.Metrics.Shared
import Verif.Metrics.Props
import Mathlib.Analysis.Complex.ExponentialBounds

/-!
# Property C221: divergence of normalised arrays which share memory, and of arrays of integers
-/

namespace Verif.Metrics

variable {κ ι : Type} [Fintype ι]

/-- Two arrays without a common position. -/
def Apart (a b : View κ ι) : Prop := ∀ k i k' i', a.pos k i ≠ b.pos k' i'

/-- Values are not negative and lines have a positive sum. -/
structure Weights (μ : Memory) (v : View κ ι) : Prop where
  nonneg : ∀ k i, 0 ≤ v.read μ k i
  pos : ∀ k, 0 < ∑ i, v.read μ k i

theorem View.injective (v : View κ ι) : Function.Injective fun x : κ × ι => v.pos x.1 x.2 := by
  rintro ⟨k, i⟩ ⟨k', i'⟩ h
  obtain ⟨rfl, rfl⟩ := v.inj _ _ _ _ h
  rfl

theorem read_normalize (v : View κ ι) (μ : Memory) (k : κ) : v.read (v.normalize μ) k = normalizeSlice (v.read μ k) := by
  funext i
  exact v.injective.extend_apply (fun x => v.read μ x.1 x.2 / ∑ j, v.read μ x.1 j) μ (k, i)

theorem normalize_other (v : View κ ι) (μ : Memory) {p : ℕ} (h : ∀ k i, v.pos k i ≠ p) : v.normalize μ p = μ p := by
  unfold View.normalize
  apply Function.extend_apply'
  rintro ⟨x, hx⟩
  exact h x.1 x.2 hx

theorem read_apart {a b : View κ ι} (h : Apart a b) (μ : Memory) (k : κ) : a.read (b.normalize μ) k = a.read μ k := by
  funext i
  exact normalize_other b μ fun k' i' e => h k i k' i' e.symm

omit [Fintype ι] in
theorem Apart.symm {a b : View κ ι} (h : Apart a b) : Apart b a := fun k i k' i' e => h k' i' k i e.symm

/-- **C221.** With arrays which share nothing, `kl_div` and `sym_kl_div` are those of distinct arrays (C41) on each line, and
nothing else is modified. -/
theorem C221_apart (a b : View κ ι) (h : Apart a b) (μ : Memory) (eps : ℝ) :
    (∀ k, (klShared a b μ).1 k = (klDiv (a.read μ k) (b.read μ k) eps true).1 ∧
      a.read (klShared a b μ).2 k = (klDiv (a.read μ k) (b.read μ k) eps true).2.1 ∧
      b.read (klShared a b μ).2 k = (klDiv (a.read μ k) (b.read μ k) eps true).2.2 ∧
      (symKlShared a b μ).1 k = (symKlDiv (a.read μ k) (b.read μ k) eps true).1) ∧
    ∀ p, (∀ k i, a.pos k i ≠ p ∧ b.pos k i ≠ p) → (klShared a b μ).2 p = μ p := by
  have ra : ∀ k, a.read (klShared a b μ).2 k = normalizeSlice (a.read μ k) := fun k => by
    show a.read (b.normalize (a.normalize μ)) k = _
    rw [read_apart h, read_normalize]
  have rb : ∀ k, b.read (klShared a b μ).2 k = normalizeSlice (b.read μ k) := fun k => by
    show b.read (b.normalize (a.normalize μ)) k = _
    rw [read_normalize, read_apart h.symm]
  have v : ∀ k, (klShared a b μ).1 k = generalizedKL (normalizeSlice (a.read μ k)) (normalizeSlice (b.read μ k)) EPSILON := by
    intro k
    rw [← ra, ← rb]
    rfl
  refine ⟨fun k => ⟨v k, ra k, rb k, ?_⟩, fun p hp => ?_⟩
  · have ra' : a.read (klShared b a (klShared a b μ).2).2 k = normalizeSlice (normalizeSlice (a.read μ k)) := by
      show a.read (a.normalize (b.normalize (klShared a b μ).2)) k = _
      rw [read_normalize, read_apart h, ra]
    have rb' : b.read (klShared b a (klShared a b μ).2).2 k = normalizeSlice (normalizeSlice (b.read μ k)) := by
      show b.read (a.normalize (b.normalize (klShared a b μ).2)) k = _
      rw [read_apart h.symm, read_normalize, rb]
    have v' : (klShared b a (klShared a b μ).2).1 k = generalizedKL (normalizeSlice (normalizeSlice (b.read μ k)))
        (normalizeSlice (normalizeSlice (a.read μ k))) EPSILON := by
      rw [← ra', ← rb']
      rfl
    show 1 / 2 * ((klShared a b μ).1 k + (klShared b a (klShared a b μ).2).1 k) = _
    rw [v, v']
    rfl
  · show b.normalize (a.normalize μ) p = _
    rw [normalize_other b _ fun k i => (hp k i).2, normalize_other a _ fun k i => (hp k i).1]

theorem generalizedKL_self {x : ι → ℝ} (h : ∀ i, 0 ≤ x i) : generalizedKL x x EPSILON = 0 := by
  unfold generalizedKL
  apply Finset.sum_eq_zero
  intro i _
  have : 0 < x i + EPSILON := add_pos_of_nonneg_of_pos (h i) (by unfold EPSILON; norm_num)
  rw [div_self this.ne', Real.log_one]
  ring

theorem normalizeSlice_nonneg {x : ι → ℝ} (h : ∀ i, 0 ≤ x i) (i : ι) : 0 ≤ normalizeSlice x i :=
  div_nonneg (h i) (Finset.sum_nonneg fun j _ => h j)

/-- **C221.** An array compared with itself is at distance zero, and is normalised as if it were given once. -/
theorem C221_same (a : View κ ι) (μ : Memory) (h : Weights μ a) (k : κ) :
    (klShared a a μ).1 k = 0 ∧ (symKlShared a a μ).1 k = 0 ∧ a.read (klShared a a μ).2 k = normalizeSlice (a.read μ k) := by
  have r : ∀ k, a.read (klShared a a μ).2 k = normalizeSlice (a.read μ k) := fun k => by
    show a.read (a.normalize (a.normalize μ)) k = _
    rw [read_normalize, read_normalize, normalizeSlice_idem _ (h.pos k).ne']
  have v : (klShared a a μ).1 k = 0 := by
    show generalizedKL (a.read (klShared a a μ).2 k) (a.read (klShared a a μ).2 k) EPSILON = 0
    rw [r]
    exact generalizedKL_self (normalizeSlice_nonneg (h.nonneg k))
  have v' : (klShared a a (klShared a a μ).2).1 k = 0 := by
    show generalizedKL (a.read (a.normalize (a.normalize (klShared a a μ).2)) k)
      (a.read (a.normalize (a.normalize (klShared a a μ).2)) k) EPSILON = 0
    rw [read_normalize, read_normalize, r]
    exact generalizedKL_self (normalizeSlice_nonneg (normalizeSlice_nonneg (normalizeSlice_nonneg (h.nonneg k))))
  refine ⟨v, ?_, r k⟩
  show 1 / 2 * ((klShared a a μ).1 k + (klShared a a (klShared a a μ).2).1 k) = 0
  rw [v, v']
  norm_num

theorem sum_pos_iff {x : ι → ℝ} (h : ∀ i, 0 ≤ x i) : 0 < ∑ i, x i ↔ ∃ i, 0 < x i := by
  constructor
  · intro hs
    by_contra hn
    push Not at hn
    exact absurd hs (not_lt.2 (Finset.sum_nonpos fun i _ => hn i))
  · rintro ⟨i, hi⟩
    exact Finset.sum_pos' (fun j _ => h j) ⟨i, Finset.mem_univ i, hi⟩

/-- Arrays keep weights when another one is normalised. -/
theorem Weights.normalize {a b : View κ ι} {μ : Memory} (ha : Weights μ a) (hb : Weights μ b) : Weights (a.normalize μ) b := by
  have key : ∀ p, (0 ≤ μ p → 0 ≤ a.normalize μ p) ∧ (0 < μ p → 0 < a.normalize μ p) := by
    intro p
    by_cases hp : ∃ k i, a.pos k i = p
    · obtain ⟨k, i, rfl⟩ := hp
      have := congrFun (read_normalize a μ k) i
      change a.normalize μ (a.pos k i) = _ at this
      rw [this]
      exact ⟨fun h => div_nonneg h (ha.pos k).le, fun h => div_pos h (ha.pos k)⟩
    · push Not at hp
      rw [normalize_other a μ hp]
      exact ⟨id, id⟩
  refine ⟨fun k i => (key _).1 (hb.nonneg k i), fun k => ?_⟩
  obtain ⟨i, hi⟩ := (sum_pos_iff (hb.nonneg k)).1 (hb.pos k)
  exact (sum_pos_iff fun i => (key _).1 (hb.nonneg k i)).2 ⟨i, (key _).2 hi⟩

/-- **C221.** Whatever they share, the array which is normalised last has sums of 1 after the call: the second argument of
`kl_div`, the first one of `rev_kl_div` and `sym_kl_div`.  Lines of the other one without a common position also do. -/
theorem C221_last (a b : View κ ι) (μ : Memory) (ha : Weights μ a) (hb : Weights μ b) (k : κ) :
    ∑ i, b.read (klShared a b μ).2 k i = 1 ∧ ∑ i, a.read (revKlShared a b μ).2 k i = 1 ∧
    ∑ i, a.read (symKlShared a b μ).2 k i = 1 ∧
    ((∀ i k' i', a.pos k i ≠ b.pos k' i') → ∑ i, a.read (klShared a b μ).2 k i = 1) := by
  have last : ∀ (a b : View κ ι) (μ : Memory), Weights μ a → Weights μ b → ∑ i, b.read (klShared a b μ).2 k i = 1 := by
    intro a b μ ha hb
    show ∑ i, b.read (b.normalize (a.normalize μ)) k i = 1
    rw [read_normalize]
    exact sum_normalizeSlice _ ((ha.normalize hb).pos k).ne'
  refine ⟨last a b μ ha hb, last b a μ hb ha, ?_, fun h => ?_⟩
  · refine last b a (klShared a b μ).2 ?_ ?_
    · exact (ha.normalize hb).normalize (ha.normalize hb)
    · exact (ha.normalize hb).normalize (ha.normalize ha)
  · have : a.read (klShared a b μ).2 k = normalizeSlice (a.read μ k) := by
      rw [← read_normalize]
      funext i
      exact normalize_other b _ fun k' i' e => h i k' i' e.symm
    rw [this]
    exact sum_normalizeSlice _ (ha.pos k).ne'

/-- Two values from a position on. -/
def pairAt (n : ℕ) : View Unit (Fin 2) where
  pos _ i := n + i
  inj := by
    rintro ⟨⟩ i ⟨⟩ j h
    exact ⟨rfl, Fin.ext (by simpa using h)⟩

theorem read_pair (μ : Memory) (n : ℕ) : (pairAt n).read μ () = ![μ n, μ (n + 1)] := by
  funext i
  fin_cases i <;> rfl

/-- **C221** (finding).  Arrays which share a part: the first one is no longer normalised when the divergence is computed,
which differs from that of copies of the arrays. -/
theorem C221_overlap : ∃ (a b : View Unit (Fin 2)) (μ : Memory), Weights μ a ∧ Weights μ b ∧
    ∑ i, a.read (klShared a b μ).2 () i = 7 / 10 ∧
    (klDiv (a.read μ ()) (b.read μ ()) EPSILON true).1 < (klShared a b μ).1 () ∧
    ∑ i, b.read (symKlShared a b μ).2 () i ≠ 1 := by
  set μ : Memory := fun p => if p = 2 then 2 else 1 with hμ
  have m0 : μ 0 = 1 := by simp [hμ]
  have m1 : μ 1 = 1 := by simp [hμ]
  have m2 : μ 2 = 2 := by simp [hμ]
  -- the memory after a step
  have stepA : ∀ ν : Memory, (pairAt 0).normalize ν 0 = ν 0 / (ν 0 + ν 1) ∧ (pairAt 0).normalize ν 1 = ν 1 / (ν 0 + ν 1) ∧
      (pairAt 0).normalize ν 2 = ν 2 := by
    intro ν
    have h := read_normalize (pairAt 0) ν ()
    rw [read_pair] at h
    have h0 := congrFun h 0
    have h1 := congrFun h 1
    simp only [normalizeSlice, read_pair, Fin.sum_univ_two, Matrix.cons_val_zero, Matrix.cons_val_one] at h0 h1
    refine ⟨h0, h1, normalize_other _ _ fun k i => ?_⟩
    show 0 + (i : ℕ) ≠ 2
    omega
  have stepB : ∀ ν : Memory, (pairAt 1).normalize ν 0 = ν 0 ∧ (pairAt 1).normalize ν 1 = ν 1 / (ν 1 + ν 2) ∧
      (pairAt 1).normalize ν 2 = ν 2 / (ν 1 + ν 2) := by
    intro ν
    have h := read_normalize (pairAt 1) ν ()
    rw [read_pair] at h
    have h0 := congrFun h 0
    have h1 := congrFun h 1
    simp only [normalizeSlice, read_pair, Fin.sum_univ_two, Matrix.cons_val_zero, Matrix.cons_val_one] at h0 h1
    refine ⟨normalize_other _ _ fun k i => ?_, h0, h1⟩
    show 1 + (i : ℕ) ≠ 0
    omega
  obtain ⟨a0, a1, a2⟩ := stepA μ
  rw [m0, m1] at a0
  rw [m0, m1] at a1
  rw [m2] at a2
  obtain ⟨b0, b1, b2⟩ := stepB ((pairAt 0).normalize μ)
  rw [a0] at b0
  rw [a1, a2] at b1
  rw [a1, a2] at b2
  set ν := (pairAt 1).normalize ((pairAt 0).normalize μ) with hν
  have n0 : ν 0 = 1 / 2 := by rw [b0]; norm_num
  have n1 : ν 1 = 1 / 5 := by rw [b1]; norm_num
  have n2 : ν 2 = 4 / 5 := by rw [b2]; norm_num
  have e2 : (klShared (pairAt 0) (pairAt 1) μ).2 = ν := rfl
  refine ⟨pairAt 0, pairAt 1, μ, ?_, ?_, ?_, ?_, ?_⟩
  · refine ⟨fun k i => ?_, fun k => ?_⟩
    · show (0 : ℝ) ≤ if _ then 2 else 1
      split_ifs <;> norm_num
    · cases k
      rw [read_pair, m0, m1, Fin.sum_univ_two]
      norm_num
  · refine ⟨fun k i => ?_, fun k => ?_⟩
    · show (0 : ℝ) ≤ if _ then 2 else 1
      split_ifs <;> norm_num
    · cases k
      rw [read_pair, m1, m2, Fin.sum_univ_two]
      norm_num
  · rw [e2, read_pair, n0, n1, Fin.sum_univ_two]
    norm_num
  · show _ < generalizedKL ((pairAt 0).read ν ()) ((pairAt 1).read ν ()) EPSILON
    rw [read_pair, read_pair, read_pair, read_pair, m0, m1, m2, n0, n1, n2]
    have hE : EPSILON = 1 / 10 ^ 8 := rfl
    unfold klDiv generalizedKL
    simp only [if_true, normalizeSlice, Fin.sum_univ_two, Matrix.cons_val_zero, Matrix.cons_val_one, hE]
    have l1 := Real.log_le_sub_one_of_pos (x := (((1 : ℝ) / (1 + 1) + 1 / 10 ^ 8) / (1 / (1 + 2) + 1 / 10 ^ 8))) (by norm_num)
    have l2 := Real.log_le_sub_one_of_pos (x := (((1 : ℝ) / (1 + 1) + 1 / 10 ^ 8) / (2 / (1 + 2) + 1 / 10 ^ 8))) (by norm_num)
    have l3 := Real.one_sub_inv_le_log_of_pos (x := (((1 : ℝ) / 2 + 1 / 10 ^ 8) / (1 / 5 + 1 / 10 ^ 8))) (by norm_num)
    have l4 : -(2 * Real.log 2) ≤ Real.log (((1 : ℝ) / 5 + 1 / 10 ^ 8) / (4 / 5 + 1 / 10 ^ 8)) := by
      have : -(2 * Real.log 2) = Real.log ((2 ^ 2)⁻¹ : ℝ) := by
        rw [Real.log_inv, Real.log_pow]
        norm_num
      rw [this]
      exact Real.log_le_log (by norm_num) (by norm_num)
    have l5 := Real.log_two_lt_d9
    norm_num at l1 l2 l3 l4 ⊢
    linarith
  · show ∑ i, (pairAt 1).read ((pairAt 0).normalize ((pairAt 1).normalize ν)) () i ≠ 1
    obtain ⟨c0, c1, c2⟩ := stepB ν
    rw [n0] at c0
    rw [n1, n2] at c1
    rw [n1, n2] at c2
    obtain ⟨d0, d1, d2⟩ := stepA ((pairAt 1).normalize ν)
    rw [c0, c1] at d1
    rw [c2] at d2
    rw [read_pair, Fin.sum_univ_two]
    simp only [Matrix.cons_val_zero, Matrix.cons_val_one, d1, d2]
    norm_num

/-! ### Integers -/

theorem fdiv_zero_of_lt {x s : ℤ} (h0 : 0 ≤ x) (h : x < s) : Int.fdiv x s = 0 := by
  rw [Int.fdiv_eq_ediv_of_nonneg _ (by omega)]
  exact Int.ediv_eq_zero_of_lt h0 h

/-- **C221** (finding).  Arrays of counts, which are integers: python 3 raises `TypeError` and modifies nothing.  With python
2, when each line has two or more counts which are not zero, all counts are lost and the divergence is zero, whatever they
were. -/
theorem C221_integers (a b : κ → ι → ℤ) :
    klInts true a b = (a, b, .error .typeError) ∧
    ((∀ k i, 0 ≤ a k i ∧ 0 ≤ b k i) →
      (∀ k, (∃ i j, i ≠ j ∧ 0 < a k i ∧ 0 < a k j) ∧ ∃ i j, i ≠ j ∧ 0 < b k i ∧ 0 < b k j) →
      klInts false a b = (fun _ _ => 0, fun _ _ => 0, .ok fun _ => 0)) := by
  refine ⟨rfl, fun h0 h2 => ?_⟩
  have key : ∀ x : ι → ℤ, (∀ i, 0 ≤ x i) → (∃ i j, i ≠ j ∧ 0 < x i ∧ 0 < x j) → ∀ i, Int.fdiv (x i) (∑ j, x j) = 0 := by
    rintro x hx ⟨i, j, hij, hi, hj⟩ m
    refine fdiv_zero_of_lt (hx m) ?_
    classical
    obtain ⟨n, hn, hn'⟩ : ∃ n, n ≠ m ∧ 0 < x n := by
      by_cases h : i = m
      · exact ⟨j, fun e => hij (h.trans e.symm), hj⟩
      · exact ⟨i, h, hi⟩
    have h1 := Finset.sum_le_sum_of_subset_of_nonneg (Finset.subset_univ {n, m}) fun k _ _ => hx k
    rw [Finset.sum_pair hn] at h1
    omega
  have ea : (fun k i => Int.fdiv (a k i) (∑ j, a k j)) = fun _ _ => 0 := by
    funext k i
    exact key (a k) (fun i => (h0 k i).1) (h2 k).1 i
  have eb : (fun k i => Int.fdiv (b k i) (∑ j, b k j)) = fun _ _ => 0 := by
    funext k i
    exact key (b k) (fun i => (h0 k i).2) (h2 k).2 i
  unfold klInts divideInts
  simp only [Bool.false_eq_true, if_false, ea, eb]
  congr 3
  funext k
  exact generalizedKL_self (x := fun _ => ((0 : ℤ) : ℝ)) fun i => by simp

/-! ### Examples -/

/-- `C221_apart`: values at 0, 1 and at 2, 3. -/
example : Apart (pairAt 0) (pairAt 2) := by
  intro k i k' i' h
  change 0 + (i : ℕ) = 2 + (i' : ℕ) at h
  omega

/-- `C221_same`, `C221_last`. -/
example : Weights (fun p => (p : ℝ)) (pairAt 0) ∧ Weights (fun p => (p : ℝ)) (pairAt 1) := by
  refine ⟨⟨fun k i => Nat.cast_nonneg _, fun k => ?_⟩, fun k i => Nat.cast_nonneg _, fun k => ?_⟩ <;>
  · cases k
    rw [read_pair, Fin.sum_univ_two]
    norm_num

/-- `C221_integers`: very different counts. -/
example : ((klInts false (fun _ : Unit => (![1, 1000] : Fin 2 → ℤ)) fun _ => ![1000, 1]).2.2 = .ok fun _ => 0) ∧
    klInts true (fun _ : Unit => (![1, 1000] : Fin 2 → ℤ)) (fun _ => ![1000, 1]) =
      (fun _ => ![1, 1000], fun _ => ![1000, 1], .error .typeError) := by
  refine ⟨?_, rfl⟩
  rw [(C221_integers _ _).2]
  · intro k i
    fin_cases i <;> simp
  · intro k
    exact ⟨⟨0, 1, by simp⟩, 0, 1, by simp⟩

end Verif.Metrics
