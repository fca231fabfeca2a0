import Verif.NDArray.PropsEntropy

/-!
# Property C219: `conditional_entropy` of arrays with two dimensions is that of matrices
-/

namespace Verif.NDArray

open Finset

theorem sum_range_list (n : ℕ) (f : ℕ → ℝ) : ((List.range n).map f).sum = ∑ i : Fin n, f i := by
  rw [← Finset.sum_range, Finset.sum_eq_multiset_sum]
  rfl

/-- The sum over the indices of a matrix. -/
theorem sum_matrix (m n : ℕ) (f : List ℕ → ℝ) :
    ((indices [m, n]).map f).sum = ∑ i : Fin m, ∑ j : Fin n, f [(i : ℕ), (j : ℕ)] := by
  have h : indices [m, n] = (List.range m).flatMap fun i => (List.range n).map fun j => [i, j] := by
    have h1 : indices [n] = (List.range n).map fun j => [j] := by
      show (List.range n).flatMap (fun j => [[j]]) = _
      rw [List.map_eq_flatMap]
    show (List.range m).flatMap (fun i => (indices [n]).map (i :: ·)) = _
    rw [h1]
    simp only [List.map_map]
    rfl
  rw [h, List.flatMap_def, List.map_flatten, List.sum_flatten, List.map_map, List.map_map, sum_range_list]
  refine Finset.sum_congr rfl fun i _ => ?_
  simp only [Function.comp_apply, List.map_map]
  rw [sum_range_list]
  rfl

theorem marginal_matrix {h : ND ℝ} {m n : ℕ} (hs : h.shape = [m, n]) :
    (∀ i : Fin m, marginal h 0 i = ∑ j : Fin n, h.value [(i : ℕ), (j : ℕ)]) ∧
      ∀ j : Fin n, marginal h 1 j = ∑ i : Fin m, h.value [(i : ℕ), (j : ℕ)] := by
  constructor
  · intro i
    unfold marginal
    rw [Finset.sum_filter, ← sum_indices, hs, sum_matrix]
    simp only [List.getD_cons_zero, Fin.val_inj]
    rw [Finset.sum_eq_single i]
    · simp
    · intro b _ hb
      simp [hb]
    · simp
  · intro j
    unfold marginal
    rw [Finset.sum_filter, ← sum_indices, hs, sum_matrix]
    refine Finset.sum_congr rfl fun i _ => ?_
    simp only [List.getD_cons_succ, List.getD_cons_zero, Fin.val_inj]
    rw [Finset.sum_ite_eq' Finset.univ j]
    simp

/-- **C219** (matrices).  On an array with two dimensions, `conditional_entropy` as computed for any number of dimensions is
the conditional entropy of a matrix: the same values, and the same errors, for every axis. -/
theorem C219_matrices {h : ND ℝ} (hw : h.WF) {m n : ℕ} (hs : h.shape = [m, n]) (axis : ℤ) :
    conditionalEntropyND h axis =
      Metrics.conditionalEntropy (fun (i : Fin m) (j : Fin n) => h.value [(i : ℕ), (j : ℕ)]) axis := by
  have hsum : h.data.sum = ∑ i : Fin m, ∑ j : Fin n, h.value [(i : ℕ), (j : ℕ)] := by
    rw [data_eq hw, hs, sum_matrix]
  have hjoint : entropyOn (indices h.shape).toFinset h.value =
      Metrics.entropy fun p : Fin m × Fin n => h.value [(p.1 : ℕ), (p.2 : ℕ)] := by
    unfold entropyOn Metrics.entropy
    rw [← sum_indices, hs, sum_matrix, Fintype.sum_prod_type]
    simp only [log_ind]
  have hlen : h.shape.length = 2 := by rw [hs]; rfl
  unfold Metrics.conditionalEntropy
  rw [← hsum]
  by_cases h1 : |h.data.sum - 1| ≤ 1 / 10 ^ 8 + 1 / 10 ^ 5
  · have hc : Metrics.allcloseOne h.data.sum = true := by
      unfold Metrics.allcloseOne
      simpa using h1
    rw [if_pos hc]
    by_cases h0 : axis = 0 ∨ axis = -2
    · rw [if_pos h0, C219_conditional_entropy hw (k := 0) ⟨by omega, by omega⟩ (by omega) h1, hjoint]
      congr 2
      unfold entropyOn Metrics.entropy Metrics.marginal0
      rw [hs]
      simp only [List.getD_cons_zero, log_ind]
      rw [Finset.sum_range]
      simp only [(marginal_matrix hs).1]
    · rw [if_neg h0]
      by_cases h2 : axis = 1 ∨ axis = -1
      · rw [if_pos h2, C219_conditional_entropy hw (k := 1) ⟨by omega, by omega⟩ (by omega) h1, hjoint]
        congr 2
        unfold entropyOn Metrics.entropy Metrics.marginal1
        rw [hs]
        simp only [List.getD_cons_succ, List.getD_cons_zero, log_ind]
        rw [Finset.sum_range]
        simp only [(marginal_matrix hs).2]
      · rw [if_neg h2]
        refine (C219_errors h axis).2 h1 fun k hk => ?_
        obtain ⟨k1, k2⟩ := hk
        rw [hlen] at k1 k2
        omega
  · have hc : ¬ Metrics.allcloseOne h.data.sum = true := by
      unfold Metrics.allcloseOne
      simpa using h1
    rw [if_neg hc]
    exact (C219_errors h axis).1 (not_le.1 h1)

/-- A uniform distribution on four pairs, and the axis of columns from the end. -/
example : conditionalEntropyND ⟨[2, 2], [1 / 4, 1 / 4, 1 / 4, 1 / 4]⟩ (-1) = Metrics.conditionalEntropy
    (fun (i : Fin 2) (j : Fin 2) => ND.value ⟨[2, 2], [1 / 4, 1 / 4, 1 / 4, 1 / 4]⟩ [(i : ℕ), (j : ℕ)]) (-1) :=
  C219_matrices (h := ⟨[2, 2], [1 / 4, 1 / 4, 1 / 4, 1 / 4]⟩) rfl rfl _

end Verif.NDArray
