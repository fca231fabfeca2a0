import Verif.Metrics.Model
import Mathlib.Tactic.Linarith
import Mathlib.Tactic.FieldSimp
import Mathlib.Tactic.Positivity
import Mathlib.Tactic.Ring
import Mathlib.Tactic.NormNum
import Mathlib.Tactic.FinCases
import Mathlib.Data.Fin.VecNotation
import Mathlib.Data.Fintype.BigOperators

/-!
# Properties C36, C37, C38 of `multimodal/lib/metrics.py`
-/

namespace Verif.Metrics

variable {ι κ : Type} [Fintype ι] [Fintype κ]

theorem term_entropy (v : ℝ) : v * Real.log (v + 1 * ind (v = 0)) = v * Real.log v := by
  unfold ind
  by_cases h : v = 0
  · simp [h]
  · simp [h]

theorem entropy_eq (v : ι → ℝ) : entropy v = -∑ i, v i * Real.log (v i) := by
  unfold entropy
  simp only [term_entropy]

/-- A probability vector. -/
structure IsProb (p : ι → ℝ) : Prop where
  nonneg : ∀ i, 0 ≤ p i
  total : ∑ i, p i = 1

/-- A joint probability matrix. -/
structure IsJoint (h : ι → κ → ℝ) : Prop where
  nonneg : ∀ i j, 0 ≤ h i j
  total : ∑ i, ∑ j, h i j = 1

theorem IsProb.le_one {p : ι → ℝ} (hp : IsProb p) (i : ι) : p i ≤ 1 := by
  rw [← hp.total]
  exact Finset.single_le_sum (fun j _ => hp.nonneg j) (Finset.mem_univ i)

/-! ### C36 -/

/-- **C36.** The entropy of a probability vector is between 0 and the logarithm of its length. -/
theorem C36_range (p : ι → ℝ) (hp : IsProb p) : 0 ≤ entropy p ∧ entropy p ≤ Real.log (Fintype.card ι) := by
  rw [entropy_eq]
  constructor
  · rw [neg_nonneg]
    apply Finset.sum_nonpos
    intro i _
    exact mul_nonpos_of_nonneg_of_nonpos (hp.nonneg i) (Real.log_nonpos (hp.nonneg i) (hp.le_one i))
  · have hcard : (0 : ℝ) < Fintype.card ι := by
      have : Nonempty ι := by
        by_contra hc
        rw [not_nonempty_iff] at hc
        have := hp.total
        simp at this
      exact_mod_cast Fintype.card_pos
    have hlog : Real.log (Fintype.card ι) = ∑ i, p i * Real.log (Fintype.card ι) := by
      rw [← Finset.sum_mul, hp.total, one_mul]
    have h1 : ∑ i, (-(p i * Real.log (p i)) - p i * Real.log (Fintype.card ι)) ≤
        ∑ i, (1 / (Fintype.card ι : ℝ) - p i) := by
      apply Finset.sum_le_sum
      intro i _
      rcases (hp.nonneg i).eq_or_lt with h0 | hpos
      · rw [← h0]; simp
      · have hl : Real.log (1 / (Fintype.card ι * p i)) ≤ 1 / (Fintype.card ι * p i) - 1 :=
          Real.log_le_sub_one_of_pos (by positivity)
        rw [one_div, Real.log_inv, Real.log_mul hcard.ne' hpos.ne'] at hl
        have := mul_le_mul_of_nonneg_left hl hpos.le
        have h3 : p i * ((Fintype.card ι * p i : ℝ)⁻¹ - 1) = 1 / (Fintype.card ι : ℝ) - p i := by
          field_simp
        linarith
    rw [Finset.sum_sub_distrib, Finset.sum_sub_distrib, hp.total, ← hlog, Finset.sum_neg_distrib] at h1
    have h2 : ∑ _i : ι, 1 / (Fintype.card ι : ℝ) = 1 := by
      rw [Finset.sum_const, Finset.card_univ, nsmul_eq_mul]; field_simp
    linarith

/-- **C36.** The entropy is 0 exactly when one outcome has probability 1. -/
theorem C36_zero_iff (p : ι → ℝ) (hp : IsProb p) : entropy p = 0 ↔ ∃ i, p i = 1 := by
  have hterm : ∀ i ∈ Finset.univ, 0 ≤ -(p i * Real.log (p i)) := by
    intro i _
    rw [neg_nonneg]
    exact mul_nonpos_of_nonneg_of_nonpos (hp.nonneg i) (Real.log_nonpos (hp.nonneg i) (hp.le_one i))
  rw [entropy_eq, ← Finset.sum_neg_distrib, Finset.sum_eq_zero_iff_of_nonneg hterm]
  constructor
  · intro h
    by_contra hc
    push Not at hc
    have hz : ∀ i, p i = 0 := by
      intro i
      have h1 := h i (Finset.mem_univ i)
      rw [neg_eq_zero, mul_eq_zero] at h1
      rcases h1 with h1 | h1
      · exact h1
      · rcases Real.log_eq_zero.1 h1 with h2 | h2 | h2
        · exact h2
        · exact absurd h2 (hc i)
        · have := hp.nonneg i; linarith
    have := hp.total
    simp [hz] at this
  · rintro ⟨i, hi⟩ j _
    by_cases hj : j = i
    · rw [hj, hi]; simp
    · have : p j = 0 := by
        classical
        have h1 := Finset.add_le_sum (s := Finset.univ) (f := p) (fun k _ => hp.nonneg k)
          (Finset.mem_univ j) (Finset.mem_univ i) hj
        rw [hp.total] at h1
        have := hp.nonneg j
        linarith
      rw [this]; simp

/-- **C36.** The entropy does not depend on the order of the entries. -/
theorem C36_permutation (p : ι → ℝ) (σ : Equiv.Perm ι) : entropy (fun i => p (σ i)) = entropy p := by
  rw [entropy_eq, entropy_eq, Equiv.sum_comp σ fun i => p i * Real.log (p i)]

/-- **C36.** The entropy of the uniform distribution is the logarithm of the number of outcomes. -/
theorem C36_uniform [Nonempty ι] :
    entropy (fun _ : ι => 1 / (Fintype.card ι : ℝ)) = Real.log (Fintype.card ι) := by
  have hcard : (0 : ℝ) < Fintype.card ι := by exact_mod_cast Fintype.card_pos
  rw [entropy_eq, Finset.sum_const, Finset.card_univ, nsmul_eq_mul, one_div, Real.log_inv]
  field_simp

example : IsProb ![(1 : ℝ) / 4, 0, 3 / 4] :=
  ⟨by intro i; fin_cases i <;> norm_num, by rw [Fin.sum_univ_three]; norm_num [Matrix.cons_val_two]⟩

/-! ### C37 -/

theorem IsJoint.row_pos {h : ι → κ → ℝ} (hh : IsJoint h) {i : ι} {j : κ} (hp : 0 < h i j) :
    0 < ∑ j', h i j' :=
  lt_of_lt_of_le hp (Finset.single_le_sum (fun j' _ => hh.nonneg i j') (Finset.mem_univ j))

theorem IsJoint.col_pos {h : ι → κ → ℝ} (hh : IsJoint h) {i : ι} {j : κ} (hp : 0 < h i j) :
    0 < ∑ i', h i' j :=
  lt_of_lt_of_le hp (Finset.single_le_sum (f := fun i' => h i' j) (fun i' _ => hh.nonneg i' j)
    (Finset.mem_univ i))

theorem IsJoint.allclose {h : ι → κ → ℝ} (hh : IsJoint h) : allcloseOne (∑ i, ∑ j, h i j) = true := by
  unfold allcloseOne
  rw [hh.total]
  simp only [sub_self, abs_zero, abs_one, decide_eq_true_eq]
  norm_num

theorem IsJoint.row {h : ι → κ → ℝ} (hh : IsJoint h) : IsProb fun i => ∑ j, h i j :=
  ⟨fun i => Finset.sum_nonneg fun j _ => hh.nonneg i j, hh.total⟩

theorem IsJoint.transpose {h : ι → κ → ℝ} (hh : IsJoint h) : IsJoint fun j i => h i j :=
  ⟨fun j i => hh.nonneg i j, by rw [Finset.sum_comm]; exact hh.total⟩

theorem IsJoint.col {h : ι → κ → ℝ} (hh : IsJoint h) : IsProb fun j => ∑ i, h i j := hh.transpose.row

/-- The usual formula of the mutual information. -/
theorem mutualInformation_eq (h : ι → κ → ℝ) (hh : IsJoint h) :
    mutualInformation h = .ok (∑ i, ∑ j, h i j *
      (Real.log (h i j) - Real.log (∑ i', h i' j) - Real.log (∑ j', h i j'))) := by
  unfold mutualInformation
  rw [if_pos hh.allclose]
  simp only []
  congr 1
  apply Finset.sum_congr rfl
  intro i _
  apply Finset.sum_congr rfl
  intro j _
  rcases (hh.nonneg i j).eq_or_lt with h0 | hpos
  · rw [← h0]; simp
  · unfold ind
    rw [if_neg hpos.ne', zero_mul, add_zero, add_zero,
      Real.log_div hpos.ne' (mul_pos (hh.col_pos hpos) (hh.row_pos hpos)).ne',
      Real.log_mul (hh.col_pos hpos).ne' (hh.row_pos hpos).ne']
    ring

/-- **C37.** The mutual information is `H(X) + H(Y) - H(X, Y)`. -/
theorem C37_entropies (h : ι → κ → ℝ) (hh : IsJoint h) :
    mutualInformation h = .ok (entropy (fun i => ∑ j, h i j) + entropy (fun j => ∑ i, h i j) -
      entropy (fun p : ι × κ => h p.1 p.2)) := by
  rw [mutualInformation_eq h hh]
  congr 1
  rw [entropy_eq, entropy_eq, entropy_eq, Fintype.sum_prod_type]
  have e1 : ∑ i, (∑ j, h i j) * Real.log (∑ j, h i j) = ∑ i, ∑ j, h i j * Real.log (∑ j', h i j') :=
    Finset.sum_congr rfl fun i _ => Finset.sum_mul _ _ _
  have e2 : ∑ j, (∑ i, h i j) * Real.log (∑ i, h i j) = ∑ i, ∑ j, h i j * Real.log (∑ i', h i' j) := by
    rw [Finset.sum_comm]
    exact Finset.sum_congr rfl fun i _ => Finset.sum_mul _ _ _
  rw [e1, e2]
  simp only [mul_sub, Finset.sum_sub_distrib]
  ring

theorem joint_term (x q : ℝ) (hx : 0 ≤ x) (hq : 0 ≤ q) (hq' : 0 < x → 0 < q) :
    x - q ≤ x * (Real.log x - Real.log q) ∧ (x * (Real.log x - Real.log q) = x - q → x = q) := by
  rcases hx.eq_or_lt with h0 | hpos
  · rw [← h0]
    constructor
    · linarith
    · intro h; linarith
  · have hqp := hq' hpos
    have e : Real.log x - Real.log q = -Real.log (q / x) := by
      rw [Real.log_div hqp.ne' hpos.ne']; ring
    have e2 : x * (q / x - 1) = q - x := by field_simp
    rw [e]
    constructor
    · have := mul_le_mul_of_nonneg_left (Real.log_le_sub_one_of_pos (div_pos hqp hpos)) hpos.le
      linarith
    · intro h
      by_contra hne
      have hl : Real.log (q / x) < q / x - 1 :=
        Real.log_lt_sub_one_of_pos (div_pos hqp hpos) (by
          intro hc; rw [div_eq_one_iff_eq hpos.ne'] at hc; exact hne hc.symm)
      have := mul_lt_mul_of_pos_left hl hpos
      linarith

/-- **C37.** The mutual information of a joint distribution is non-negative, and 0 exactly when the
distribution is the product of its marginals. -/
theorem C37_nonneg (h : ι → κ → ℝ) (hh : IsJoint h) :
    ∃ I, mutualInformation h = .ok I ∧ 0 ≤ I ∧
      (I = 0 ↔ ∀ i j, h i j = (∑ j', h i j') * ∑ i', h i' j) := by
  refine ⟨_, mutualInformation_eq h hh, ?_⟩
  have hq : ∀ i j, 0 ≤ (∑ j', h i j') * ∑ i', h i' j := fun i j =>
    mul_nonneg (hh.row.nonneg i) (hh.col.nonneg j)
  have hterm : ∀ i j, h i j * (Real.log (h i j) - Real.log (∑ i', h i' j) - Real.log (∑ j', h i j'))
      = h i j * (Real.log (h i j) - Real.log ((∑ j', h i j') * ∑ i', h i' j)) := by
    intro i j
    rcases (hh.nonneg i j).eq_or_lt with h0 | hpos
    · rw [← h0]; simp
    · rw [Real.log_mul (hh.row_pos hpos).ne' (hh.col_pos hpos).ne']; ring
  have hsum : ∑ i, ∑ j, (h i j - (∑ j', h i j') * ∑ i', h i' j) = 0 := by
    simp only [Finset.sum_sub_distrib, ← Finset.mul_sum]
    rw [hh.total, ← Finset.sum_mul, hh.total, Finset.sum_comm, hh.total]; ring
  have hd : ∀ i j, 0 ≤ h i j * (Real.log (h i j) - Real.log (∑ i', h i' j) - Real.log (∑ j', h i j'))
      - (h i j - (∑ j', h i j') * ∑ i', h i' j) := by
    intro i j
    rw [hterm i j]
    have := (joint_term _ _ (hh.nonneg i j) (hq i j)
      (fun hp => mul_pos (hh.row_pos hp) (hh.col_pos hp))).1
    linarith
  have hI : ∑ i, ∑ j, h i j * (Real.log (h i j) - Real.log (∑ i', h i' j) - Real.log (∑ j', h i j'))
      = ∑ i, ∑ j, (h i j * (Real.log (h i j) - Real.log (∑ i', h i' j) - Real.log (∑ j', h i j'))
      - (h i j - (∑ j', h i j') * ∑ i', h i' j)) := by
    have : ∀ i, ∑ j, (h i j * (Real.log (h i j) - Real.log (∑ i', h i' j) - Real.log (∑ j', h i j'))
      - (h i j - (∑ j', h i j') * ∑ i', h i' j)) =
      ∑ j, h i j * (Real.log (h i j) - Real.log (∑ i', h i' j) - Real.log (∑ j', h i j')) -
      ∑ j, (h i j - (∑ j', h i j') * ∑ i', h i' j) := fun i => Finset.sum_sub_distrib ..
    simp only [this]
    rw [Finset.sum_sub_distrib, hsum, sub_zero]
  rw [hI]
  refine ⟨Finset.sum_nonneg fun i _ => Finset.sum_nonneg fun j _ => hd i j, ?_⟩
  rw [Finset.sum_eq_zero_iff_of_nonneg fun i _ => Finset.sum_nonneg fun j _ => hd i j]
  constructor
  · intro h0 i j
    have h1 := h0 i (Finset.mem_univ i)
    rw [Finset.sum_eq_zero_iff_of_nonneg fun j _ => hd i j] at h1
    have h2 := h1 j (Finset.mem_univ j)
    rw [hterm i j] at h2
    exact (joint_term _ _ (hh.nonneg i j) (hq i j)
      (fun hp => mul_pos (hh.row_pos hp) (hh.col_pos hp))).2 (by linarith)
  · intro h0 i _
    apply Finset.sum_eq_zero
    intro j _
    rw [hterm i j, ← h0 i j]; ring

/-- **C37.** Transposition does not change the mutual information. -/
theorem C37_symmetric (h : ι → κ → ℝ) (hh : IsJoint h) :
    mutualInformation (fun j i => h i j) = mutualInformation h := by
  rw [mutualInformation_eq h hh, mutualInformation_eq _ hh.transpose]
  congr 1
  rw [Finset.sum_comm]
  apply Finset.sum_congr rfl
  intro i _
  apply Finset.sum_congr rfl
  intro j _
  ring

/-- **C37.** A matrix whose sum is not close to 1 raises `AssertionError`. -/
theorem C37_assertion (h : ι → κ → ℝ) (hs : 1 / 10 ^ 4 < |∑ i, ∑ j, h i j - 1|) :
    mutualInformation h = .error .assertionError := by
  unfold mutualInformation
  rw [if_neg]
  unfold allcloseOne
  simp only [decide_eq_true_eq, not_le, abs_one]
  refine lt_trans ?_ hs
  norm_num

example : IsJoint (![![1 / 2, 0], ![1 / 4, 1 / 4]] : Fin 2 → Fin 2 → ℝ) := by
  constructor
  · intro i j
    fin_cases i <;> fin_cases j <;> norm_num
  · simp only [Fin.sum_univ_two]; norm_num

/-! ### C38 -/

/-- **C38.** With `axis=0` the conditional entropy is `H(X, Y) - H(X)`, `X` being the row variable,
and with `axis=1` it is `H(X, Y) - H(Y)`. -/
theorem C38_formula (h : ι → κ → ℝ) (hh : IsJoint h) :
    conditionalEntropy h 0 = .ok (entropy (fun p : ι × κ => h p.1 p.2) - entropy (fun i => ∑ j, h i j)) ∧
    conditionalEntropy h 1 = .ok (entropy (fun p : ι × κ => h p.1 p.2) - entropy (fun j => ∑ i, h i j)) ∧
    conditionalEntropy h (-1) = conditionalEntropy h 1 ∧
    conditionalEntropy h (-2) = conditionalEntropy h 0 := by
  unfold conditionalEntropy
  simp only [if_pos hh.allclose]
  exact ⟨rfl, rfl, rfl, rfl⟩

theorem entropy_marginal_le (h : ι → κ → ℝ) (hh : IsJoint h) :
    entropy (fun i => ∑ j, h i j) ≤ entropy (fun p : ι × κ => h p.1 p.2) := by
  rw [entropy_eq, entropy_eq, Fintype.sum_prod_type, neg_le_neg_iff]
  apply Finset.sum_le_sum
  intro i _
  rw [Finset.sum_mul]
  apply Finset.sum_le_sum
  intro j _
  rcases (hh.nonneg i j).eq_or_lt with h0 | hpos
  · rw [← h0]; simp
  · apply mul_le_mul_of_nonneg_left _ hpos.le
    apply Real.log_le_log hpos
    exact Finset.single_le_sum (fun j' _ => hh.nonneg i j') (Finset.mem_univ j)

/-- **C38.** The conditional entropy of the columns given the rows is between 0 and the entropy of
the columns, and the difference with the latter is the mutual information. -/
theorem C38_range (h : ι → κ → ℝ) (hh : IsJoint h) :
    ∃ H I, conditionalEntropy h 0 = .ok H ∧ mutualInformation h = .ok I ∧
      0 ≤ H ∧ H ≤ entropy (fun j => ∑ i, h i j) ∧ entropy (fun j => ∑ i, h i j) - H = I := by
  obtain ⟨I, hI, hI0, -⟩ := C37_nonneg h hh
  refine ⟨_, I, (C38_formula h hh).1, hI, ?_, ?_, ?_⟩
  · have := entropy_marginal_le h hh; linarith
  · rw [C37_entropies h hh] at hI
    have := Except.ok.inj hI
    linarith
  · rw [C37_entropies h hh] at hI
    have := Except.ok.inj hI
    linarith

/-- **C38.** The conditional entropy is 0 exactly when the row determines the column: each row has
at most one non-zero entry. -/
theorem C38_zero_iff (h : ι → κ → ℝ) (hh : IsJoint h) :
    conditionalEntropy h 0 = .ok 0 ↔ ∀ i j j', h i j ≠ 0 → h i j' ≠ 0 → j = j' := by
  rw [(C38_formula h hh).1]
  have e : entropy (fun p : ι × κ => h p.1 p.2) - entropy (fun i => ∑ j, h i j) =
      ∑ i, ∑ j, h i j * (Real.log (∑ j', h i j') - Real.log (h i j)) := by
    rw [entropy_eq, entropy_eq, Fintype.sum_prod_type]
    simp only [mul_sub, Finset.sum_sub_distrib, Finset.sum_mul]
    ring
  have hle : ∀ i j, h i j ≤ ∑ j', h i j' := fun i j =>
    Finset.single_le_sum (fun j' _ => hh.nonneg i j') (Finset.mem_univ j)
  have hnn : ∀ i j, 0 ≤ h i j * (Real.log (∑ j', h i j') - Real.log (h i j)) := by
    intro i j
    rcases (hh.nonneg i j).eq_or_lt with h0 | hpos
    · rw [← h0]; simp
    · exact mul_nonneg hpos.le (sub_nonneg.2 (Real.log_le_log hpos (hle i j)))
  rw [e, Except.ok.injEq,
    Finset.sum_eq_zero_iff_of_nonneg fun i _ => Finset.sum_nonneg fun j _ => hnn i j]
  classical
  constructor
  · intro h0 i j j' hj hj'
    have h1 := h0 i (Finset.mem_univ i)
    rw [Finset.sum_eq_zero_iff_of_nonneg fun j _ => hnn i j] at h1
    by_contra hne
    have hpos : 0 < h i j := lt_of_le_of_ne (hh.nonneg i j) (Ne.symm hj)
    have hpos' : 0 < h i j' := lt_of_le_of_ne (hh.nonneg i j') (Ne.symm hj')
    have h2 := h1 j (Finset.mem_univ j)
    have h3 := Finset.add_le_sum (s := Finset.univ) (f := h i) (fun k _ => hh.nonneg i k)
      (Finset.mem_univ j) (Finset.mem_univ j') hne
    have h4 : Real.log (h i j) < Real.log (∑ j', h i j') := Real.log_lt_log hpos (by linarith)
    have h5 := mul_pos hpos (sub_pos.2 h4)
    linarith
  · intro h0 i _
    apply Finset.sum_eq_zero
    intro j _
    by_cases hj : h i j = 0
    · rw [hj]; simp
    · have : ∑ j', h i j' = h i j := Finset.sum_eq_single j (fun b _ hb => by
        by_contra hc; exact hb (h0 i b j hc hj)) (by simp)
      rw [this]; simp

example : ∃ H, conditionalEntropy (![![1 / 2, 0], ![1 / 4, 1 / 4]] : Fin 2 → Fin 2 → ℝ) 0 = .ok H ∧ H ≠ 0 := by
  have hj : IsJoint (![![1 / 2, 0], ![1 / 4, 1 / 4]] : Fin 2 → Fin 2 → ℝ) := by
    constructor
    · intro i j
      fin_cases i <;> fin_cases j <;> norm_num
    · simp only [Fin.sum_univ_two]; norm_num
  refine ⟨_, (C38_formula _ hj).1, fun hc => ?_⟩
  have h1 := (C38_zero_iff _ hj).1 (by rw [(C38_formula _ hj).1, hc])
  have := h1 1 0 1 (by norm_num) (by norm_num)
  exact absurd this (by decide)

end Verif.Metrics
