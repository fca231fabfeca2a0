import Verif.NDArray.Props

/-!
# Concrete cases of properties of `vector_norm` and `unit_vector`
-/

namespace Verif.NDArray

/-- `[[3, 0, 1], [4, 0, 1]]`. -/
def exA : ND ℝ := ⟨[2, 3], [3, 0, 1, 4, 0, 1]⟩

/-- Hypotheses of C188 for the columns of this array. -/
theorem exA_wf : exA.WF := rfl

example : IsAxis exA.shape.length 0 0 ∧ IsAxis exA.shape.length (-2) 0 ∧ Valid (exA.shape.eraseIdx 0) [2] :=
  ⟨⟨by decide, Or.inl rfl⟩, ⟨by decide, Or.inr rfl⟩, List.Forall₂.cons (by decide) List.Forall₂.nil⟩

example (k : ℕ) : ¬ IsAxis exA.shape.length 2 k := by
  rintro ⟨h, h' | h'⟩ <;> simp [exA] at h h' <;> omega

/-- The norm of the first column is 5. -/
example : ∃ r, vectorNorm exA (some 0) = .ok r ∧ r.shape = [3] ∧ r.get [0] = some 5 := by
  obtain ⟨r, hr, hs, -, h⟩ := C188_norm_axis exA rfl (by decide) 0 0 ⟨by decide, Or.inl rfl⟩
  refine ⟨r, hr, hs, ?_⟩
  rw [h [0] (List.Forall₂.cons (by decide) List.Forall₂.nil)]
  congr 1
  have : (∑ j ∈ Finset.range (exA.shape.getD 0 0), exA.value ([0].insertIdx 0 j) ^ 2) = 5 ^ 2 := by
    show (∑ j ∈ Finset.range 2, exA.value ([0].insertIdx 0 j) ^ 2) = 5 ^ 2
    rw [Finset.sum_range_succ, Finset.sum_range_one]
    norm_num [exA, ND.value, ND.get, position, List.insertIdx]
  unfold lineNorm
  rw [this, Real.sqrt_sq (by norm_num)]

/-- In the normalised array the second column is `nan`, and the first one has norm 1. -/
example : ∃ r, unitVector exA (some (-2)) = .ok r ∧ r.shape = [2, 3] ∧ r.get [1, 1] = some none ∧
    ∃ v : ℕ → ℝ, (∀ j < 2, r.get [j, 0] = some (some (v j))) ∧ ∑ j ∈ Finset.range 2, v j ^ 2 = 1 := by
  have hk : IsAxis exA.shape.length (-2) 0 := ⟨by decide, Or.inr rfl⟩
  obtain ⟨r, hr, hs, -, -⟩ := C188_unit_axis exA rfl (by decide) (-2) 0 hk
  have h1 := C188_unit_norm exA rfl (by decide) (-2) 0 hk r hr
  refine ⟨r, hr, hs, ?_, ?_⟩
  · refine (h1 [1] (List.Forall₂.cons (by decide) List.Forall₂.nil)).2 (fun j hj => ?_) 1 (by decide)
    have : j < 2 := hj
    obtain rfl | rfl : j = 0 ∨ j = 1 := by omega
    · rfl
    · rfl
  · refine (h1 [0] (List.Forall₂.cons (by decide) List.Forall₂.nil)).1 ⟨0, by decide, ?_⟩
    show (3 : ℝ) ≠ 0
    norm_num

/-- Vectors: an axis which does not exist is accepted. -/
example : vectorNorm ⟨[2], [3, 4]⟩ (some 7) = .ok ⟨[], [5]⟩ := by
  rw [C188_norm_vector ⟨[2], [3, 4]⟩ rfl 2 rfl]
  have : (∑ i ∈ Finset.range 2, (⟨[2], [3, 4]⟩ : ND ℝ).value [i] ^ 2) = 5 ^ 2 := by
    rw [Finset.sum_range_succ, Finset.sum_range_one]
    norm_num [ND.value, ND.get, position]
  rw [this, Real.sqrt_sq (by norm_num)]

/-- Vectors: the axis of a vector is refused with `out`. -/
example : (unitVectorOut (some ⟨[2], [3, 4]⟩) (some 0) ⟨[2], [0, 0]⟩).2 = .error .valueError :=
  congrArg Prod.snd ((C188_unit_out_vector ⟨[2], [3, 4]⟩ rfl 2 rfl ⟨[2], [0, 0]⟩ rfl).2 0)

/-- A number along its last axis. -/
example : vectorNorm ⟨[], [-2]⟩ (some (-1)) = .ok ⟨[1], [2]⟩ := by
  rw [(C188_norm_scalar (-2) (-1)).1 (Or.inr rfl)]
  norm_num

/-- Shapes of C188_unit_out_shape: three values for two. -/
example : ∃ i < [3].length, [3].getD i 0 ≠ [2].getD i 0 ∧ [3].getD i 0 ≠ 1 := ⟨0, by decide⟩

end Verif.NDArray
