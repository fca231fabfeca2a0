import Verif.NMF.PropsSparse

/-!
# Examples for the factorization of stored sparse matrices
-/

namespace Verif.NMF

/-- The matrix `[[0, 3, 0], [1, 0, 2]]` with a stored zero. -/
def stored : Csr := ⟨2, 3, [[(1, 3), (2, 0)], [(0, 1), (2, 2)]]⟩

theorem stored_valid : stored.Valid := by
  refine ⟨rfl, ?_⟩
  intro row hr p hp
  simp only [stored, List.mem_cons, List.not_mem_nil, or_false] at hr
  rcases hr with rfl | rfl <;> simp only [List.mem_cons, List.not_mem_nil, or_false] at hp <;>
    rcases hp with rfl | rfl <;> decide

theorem stored_canonical : stored.Canonical := by
  intro row hr
  simp only [stored, List.mem_cons, List.not_mem_nil, or_false] at hr
  rcases hr with rfl | rfl <;> simp

example (rnd : ℕ → ℕ → ℝ) :
    csrFitTransform ⟨some 2, none, 0, 5, none⟩ stored rnd true 1 false =
      fitTransform ⟨some 2, none, 0, 5, none⟩ ⟨true, stored.toMat⟩ rnd true 1 false :=
  C191_fit _ stored_valid stored_canonical _ _ _ _

/-- The stored zero is lost. -/
example (W H : Mat) : ∃ X', csrError stored W H 1 = .ok (X', error ⟨true, stored.toMat⟩ W H 1) ∧
    (2, 0) ∈ (stored.rows[0]?).getD [] ∧ (2, 0) ∉ (X'.rows[0]?).getD [] := by
  obtain ⟨X', h1, -, -, -, -, h2⟩ := C191_error stored_valid stored_canonical W H 1
  exact ⟨X', h1, by simp [stored], fun h => ((h2 0 (2, 0)).1 h).2 rfl⟩

/-- Triples in any order, two of them at the same place. -/
example : (cooToCsr 2 3 [(1, 2, 1), (0, 1, 3), (1, 0, 1), (1, 2, 1)]).toMat.e 1 2 = 2 := by
  have h := (C191_from_triples 2 3 [(1, 2, 1), (0, 1, 3), (1, 0, 1), (1, 2, 1)] (by
    intro e he
    simp only [List.mem_cons, List.not_mem_nil, or_false] at he
    rcases he with rfl | rfl | rfl | rfl <;> decide)).2.2.2.2 1 2
  rw [h]
  simp
  norm_num

/-- The product may be any positive one. -/
example : ∃ X' q, csrQ unsorted ⟨1, 1, fun _ _ => 1⟩ ⟨1, 2, fun _ _ => 1⟩ EPS = .ok (X', q) ∧
    q.toMat.e 0 0 ≠ (Q ⟨true, unsorted.toMat⟩ ⟨1, 1, fun _ _ => 1⟩ ⟨1, 2, fun _ _ => 1⟩ EPS).e 0 0 := by
  obtain ⟨-, -, -, X', q, h1, -, h2⟩ := C191_unsorted ⟨1, 1, fun _ _ => 1⟩ ⟨1, 2, fun _ _ => 1⟩ EPS (by
    simp [dot, EPS]
    norm_num)
  exact ⟨X', q, h1, h2⟩

end Verif.NMF
