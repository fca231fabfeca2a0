import Verif.Transf.PropsEulerAxes
import Mathlib.GroupTheory.Perm.Sign

/-!
# What the names of axes mean (C109)
-/

namespace Verif.Transf

open Verif Real Matrix

/-- The rotation about a coordinate axis. -/
noncomputable def axisRot3 (m : Fin 3) (θ : ℝ) : Mat3 :=
  if m = 0 then !![1, 0, 0; 0, cos θ, -sin θ; 0, sin θ, cos θ]
  else if m = 1 then !![cos θ, 0, sin θ; 0, 1, 0; -sin θ, 0, cos θ]
  else !![cos θ, -sin θ, 0; sin θ, cos θ, 0; 0, 0, 1]

/-- The homogeneous matrix of a rotation. -/
def homog3 (A : Mat3) : Mat4 :=
  !![A 0 0, A 0 1, A 0 2, 0; A 1 0, A 1 1, A 1 2, 0; A 2 0, A 2 1, A 2 2, 0; 0, 0, 0, 1]

theorem homog3_homog (A : Mat3) : Homog (homog3 A) := by
  constructor
  · intro a
    fin_cases a <;> simp [homog3]
  · intro a
    fin_cases a <;> simp [homog3]

theorem block_homog3 (A : Mat3) : block (homog3 A) = A := by
  ext a b
  fin_cases a <;> fin_cases b <;> rfl

theorem homog3_block {M : Mat4} (h : Homog M) : homog3 (block M) = M :=
  (homog3_homog _).ext h (block_homog3 _)

theorem homog3_mul (A B : Mat3) : homog3 A * homog3 B = homog3 (A * B) :=
  ((homog3_homog A).mul (homog3_homog B)).ext (homog3_homog _) (by
    rw [block_mul (homog3_homog A), block_homog3, block_homog3, block_homog3])

/-- The axis named by a letter. -/
def letter (c : Char) : Fin 3 := if c = 'x' then 0 else if c = 'y' then 1 else 2

theorem axisRot3_rot (m : Fin 3) (θ : ℝ) : Rot3 (axisRot3 m θ) := by
  have h := sin_sq_add_cos_sq θ
  have h3 : ∀ x : Fin 3, x = 0 ∨ x = 1 ∨ x = 2 := by decide
  constructor
  · ext a b
    rcases h3 m with rfl | rfl | rfl <;> rcases h3 a with rfl | rfl | rfl <;>
      rcases h3 b with rfl | rfl | rfl <;>
      simp [axisRot3, Matrix.mul_apply, Fin.sum_univ_three] <;> nlinarith
  · rcases h3 m with rfl | rfl | rfl <;> simp [axisRot3, Matrix.det_fin_three] <;> nlinarith

theorem Rot3.mul {A B : Mat3} (hA : Rot3 A) (hB : Rot3 B) : Rot3 (A * B) where
  orthogonal := by
    rw [transpose_mul, mul_assoc, ← mul_assoc B, hB.orthogonal, one_mul, hA.orthogonal]
  det := by rw [det_mul, hA.det, hB.det, one_mul]

theorem euler3_false (a b c : ℝ) :
    euler3 false a b c = axisRot3 2 c * axisRot3 1 b * axisRot3 0 a := by
  ext x y
  fin_cases x <;> fin_cases y <;>
    simp [euler3, axisRot3, Matrix.mul_apply, Fin.sum_univ_three] <;> ring

theorem euler3_true (a b c : ℝ) :
    euler3 true a b c = axisRot3 0 c * axisRot3 1 b * axisRot3 0 a := by
  ext x y
  fin_cases x <;> fin_cases y <;>
    simp [euler3, axisRot3, Matrix.mul_apply, Fin.sum_univ_three] <;> ring

theorem perm_cases (e : Equiv.Perm (Fin 3)) :
    (Equiv.Perm.sign e = 1 ∧ ((e 0 = 0 ∧ e 1 = 1 ∧ e 2 = 2) ∨ (e 0 = 1 ∧ e 1 = 2 ∧ e 2 = 0) ∨
      (e 0 = 2 ∧ e 1 = 0 ∧ e 2 = 1))) ∨
    (Equiv.Perm.sign e = -1 ∧ ((e 0 = 0 ∧ e 1 = 2 ∧ e 2 = 1) ∨ (e 0 = 1 ∧ e 1 = 0 ∧ e 2 = 2) ∨
      (e 0 = 2 ∧ e 1 = 1 ∧ e 2 = 0))) := by
  revert e
  decide

/-- Rotations about coordinate axes, in permuted axes. -/
theorem axisRot3_perm (e : Equiv.Perm (Fin 3)) (m : Fin 3) (θ : ℝ) :
    (axisRot3 (e m) θ).submatrix e e =
      axisRot3 m (if Equiv.Perm.sign e = -1 then -θ else θ) := by
  have h3 : ∀ x : Fin 3, x = 0 ∨ x = 1 ∨ x = 2 := by decide
  rcases perm_cases e with ⟨hs, h⟩ | ⟨hs, h⟩
  · rw [hs, if_neg (by decide)]
    rcases h with ⟨h0, h1, h2⟩ | ⟨h0, h1, h2⟩ | ⟨h0, h1, h2⟩ <;> ext a b <;>
      rcases h3 m with rfl | rfl | rfl <;> rcases h3 a with rfl | rfl | rfl <;>
      rcases h3 b with rfl | rfl | rfl <;> simp [axisRot3, h0, h1, h2]
  · rw [hs, if_pos rfl]
    rcases h with ⟨h0, h1, h2⟩ | ⟨h0, h1, h2⟩ | ⟨h0, h1, h2⟩ <;> ext a b <;>
      rcases h3 m with rfl | rfl | rfl <;> rcases h3 a with rfl | rfl | rfl <;>
      rcases h3 b with rfl | rfl | rfl <;> simp [axisRot3, h0, h1, h2]

/-- The permutation of axes of a tuple, its sign, and the name of the tuple. -/
theorem axesOf_name : ∀ p ∈ axes2tuple, ∃ e : Equiv.Perm (Fin 3), ∃ f a b c,
    p.1 = [f, a, b, c] ∧
    axesOf p.2 = ((e 0).castSucc, (e 1).castSucc, (e 2).castSucc) ∧
    (Equiv.Perm.sign e = -1 ↔ p.2.2.1 ≠ 0) ∧ (p.2.2.2.2 = 0 ↔ f = 's') ∧
    letter b = e 1 ∧
    (f = 's' → letter a = e 0 ∧ letter c = if p.2.2.2.1 ≠ 0 then e 0 else e 2) ∧
    (f ≠ 's' → letter c = e 0 ∧ letter a = if p.2.2.2.1 ≠ 0 then e 0 else e 2) := by
  have hp : ∀ p ∈ axes2tuple, ∃ e : Equiv.Perm (Fin 3), 
    p.1.length = 4 ∧
    axesOf p.2 = ((e 0).castSucc, (e 1).castSucc, (e 2).castSucc) ∧
    (Equiv.Perm.sign e = -1 ↔ p.2.2.1 ≠ 0) ∧ (p.2.2.2.2 = 0 ↔ p.1.getD 0 'a' = 's') ∧
    letter (p.1.getD 2 'a') = e 1 ∧
    (p.1.getD 0 'a' = 's' → letter (p.1.getD 1 'a') = e 0 ∧
      letter (p.1.getD 3 'a') = if p.2.2.2.1 ≠ 0 then e 0 else e 2) ∧
    (p.1.getD 0 'a' ≠ 's' → letter (p.1.getD 3 'a') = e 0 ∧
      letter (p.1.getD 1 'a') = if p.2.2.2.1 ≠ 0 then e 0 else e 2) := by
    decide +kernel
  rintro ⟨name, t⟩ h
  obtain ⟨e, h4, h⟩ := hp _ h
  obtain ⟨f, a, b, c, rfl⟩ : ∃ f a b c, name = [f, a, b, c] := by
    match name, h4 with
    | [f, a, b, c], _ => exact ⟨f, a, b, c, rfl⟩
  exact ⟨e, f, a, b, c, rfl, h⟩

theorem eulerMatrixOf_block {t : AxesTuple} {e : Equiv.Perm (Fin 3)}
    (he : axesOf t = ((e 0).castSucc, (e 1).castSucc, (e 2).castSucc))
    (hs : Equiv.Perm.sign e = -1 ↔ t.2.1 ≠ 0) (ai aj ak : ℝ) :
    block (eulerMatrixOf t ai aj ak) =
      axisRot3 (if t.2.2.1 ≠ 0 then e 0 else e 2) (if t.2.2.2 = 0 then ak else ai) * axisRot3 (e 1) aj *
        axisRot3 (e 0) (if t.2.2.2 = 0 then ai else ak) := by
  apply mat3_perm_ext e
  have hmul : ∀ A B : Mat3, (A * B).submatrix e e = A.submatrix e e * B.submatrix e e := fun A B =>
    (submatrix_mul_equiv A B e e e).symm
  rw [hmul, hmul, axisRot3_perm, axisRot3_perm]
  have hlast : ∀ θ, (axisRot3 (if t.2.2.1 ≠ 0 then e 0 else e 2) θ).submatrix e e =
      axisRot3 (if t.2.2.1 ≠ 0 then 0 else 2) (if Equiv.Perm.sign e = -1 then -θ else θ) := by
    intro θ
    by_cases h : t.2.2.1 ≠ 0
    · rw [if_pos h, if_pos h, axisRot3_perm]
    · rw [if_neg h, if_neg h, axisRot3_perm]
  rw [hlast]
  unfold eulerMatrixOf
  rw [he]
  by_cases h1 : t.2.1 = 0
  · have hs' : ¬ Equiv.Perm.sign e = -1 := fun hc => hs.1 hc h1
    by_cases h2 : t.2.2.2 = 0 <;> by_cases h3 : t.2.2.1 = 0 <;>
      simp [h1, h2, h3, hs', eulerEntries_block, euler3_false, euler3_true]
  · have hs' : Equiv.Perm.sign e = -1 := hs.2 h1
    by_cases h2 : t.2.2.2 = 0 <;> by_cases h3 : t.2.2.1 = 0 <;>
      simp [h1, h2, h3, hs', eulerEntries_block, euler3_false, euler3_true]

/-- **C109.** What `euler_matrix` means: for a name `s` followed by three axes it is the product of the
rotations about these axes by the three angles, each applied (on the left) after the previous ones, in
the static frame; for a name `r` followed by three axes the next rotations are multiplied on the right,
as those of a rotating frame. -/
theorem C109_meaning (f a b c : Char) (t : AxesTuple) (h : ([f, a, b, c], t) ∈ axes2tuple)
    (ai aj ak : ℝ) :
    eulerMatrix ai aj ak (.name [f, a, b, c]) = .ok
      (if f = 's' then
        homog3 (axisRot3 (letter c) ak) * homog3 (axisRot3 (letter b) aj) * homog3 (axisRot3 (letter a) ai)
      else
        homog3 (axisRot3 (letter a) ai) * homog3 (axisRot3 (letter b) aj) *
          homog3 (axisRot3 (letter c) ak)) := by
  have hr : ∀ p ∈ axes2tuple, resolve (.name p.1) = .ok p.2 := by decide +kernel
  have hrt := hr _ h
  obtain ⟨e, f', a', b', c', hn, he, hs, hf, hb, hst, hrot⟩ := axesOf_name _ h
  simp only [List.cons.injEq, and_true] at hn
  obtain ⟨rfl, rfl, rfl, rfl⟩ := hn
  simp only at he hs hf hst hrot hrt
  unfold eulerMatrix
  rw [hrt]
  show Except.ok (eulerMatrixOf t ai aj ak) = _
  congr 1
  refine (eulerMatrixOf_homog (resolve_isAxes hrt) ai aj ak).ext ?_ ?_
  · split
    · exact ((homog3_homog _).mul (homog3_homog _)).mul (homog3_homog _)
    · exact ((homog3_homog _).mul (homog3_homog _)).mul (homog3_homog _)
  · rw [eulerMatrixOf_block he hs]
    by_cases hfs : f = 's'
    · obtain ⟨h1, h2⟩ := hst hfs
      rw [if_pos hfs, homog3_mul, homog3_mul, block_homog3, h1, h2, hb, if_pos (hf.2 hfs),
        if_pos (hf.2 hfs)]
    · obtain ⟨h1, h2⟩ := hrot hfs
      have h0 : ¬ t.2.2.2 = 0 := fun hc => hfs (hf.1 hc)
      rw [if_neg hfs, homog3_mul, homog3_mul, block_homog3, h1, h2, hb, if_neg h0, if_neg h0]

/-- **C109.** `euler_matrix` always gives a rotation matrix. -/
theorem C109_rotation (axes : AxesArg) (M : Mat4) (ai aj ak : ℝ) (h : eulerMatrix ai aj ak axes = .ok M) :
    IsRotation M := by
  unfold eulerMatrix at h
  rcases hr : resolve axes with x | t
  · rw [hr] at h
    cases h
  · rw [hr] at h
    cases h
    have ht := resolve_isAxes hr
    obtain ⟨p, hp, hpt⟩ := List.mem_map.1 ht
    obtain ⟨e, _, _, _, _, _, he, hs, _⟩ := axesOf_name p hp
    rw [hpt] at he hs
    apply isRotation_of_block (eulerMatrixOf_homog ht _ _ _)
    rw [eulerMatrixOf_block he hs]
    exact ((axisRot3_rot _ _).mul (axisRot3_rot _ _)).mul (axisRot3_rot _ _)

end Verif.Transf
