import Verif.Transf.PropsQuatEuler

/-!
# Quaternions of rotation matrices (C111)
-/

namespace Verif.Transf

open Verif Real Matrix

theorem scaleQuat_row {p : Quat} {c : ℝ} (hc : c ≠ 0) {q : Quat} {x : ℝ} (hq : ∀ a, q a = 4 * c * p a)
    (hx : x = 4 * c * c) : scaleQuat q x = .ok p ∨ scaleQuat q x = .ok fun a => -p a := by
  have hpos : 0 < x := by
    rw [hx]
    nlinarith [mul_self_pos.2 hc]
  have hsq : √x = 2 * |c| := by
    rw [hx, show 4 * c * c = (2 * |c|) ^ 2 by rw [mul_pow, sq_abs]; ring]
    exact Real.sqrt_sq (by positivity)
  unfold scaleQuat
  rw [if_neg hpos.not_gt, if_neg hpos.ne', hsq]
  rcases lt_or_gt_of_ne hc with h | h
  · right
    congr 1
    funext a
    rw [hq, abs_of_neg h]
    field_simp
    ring
  · left
    congr 1
    funext a
    rw [hq, abs_of_pos h]
    field_simp
    ring

/-- Branches of `quaternion_from_matrix`: the greatest of the first three entries of the diagonal. -/
theorem quatFromMatrix_cases (M : Mat4) (P : Py Quat → Prop)
    (h3 : 0 < M 0 0 + M 1 1 + M 2 2 →
      P (scaleQuat ![M 2 1 - M 1 2, M 0 2 - M 2 0, M 1 0 - M 0 1, M 0 0 + M 1 1 + M 2 2 + M 3 3]
        ((M 0 0 + M 1 1 + M 2 2 + M 3 3) * M 3 3)))
    (h0 : M 0 0 + M 1 1 + M 2 2 ≤ 0 → M 1 1 ≤ M 0 0 → M 2 2 ≤ M 0 0 →
      P (scaleQuat ![M 0 0 - (M 1 1 + M 2 2) + M 3 3, M 0 1 + M 1 0, M 2 0 + M 0 2, M 2 1 - M 1 2]
        ((M 0 0 - (M 1 1 + M 2 2) + M 3 3) * M 3 3)))
    (h1 : M 0 0 + M 1 1 + M 2 2 ≤ 0 → M 0 0 ≤ M 1 1 → M 2 2 ≤ M 1 1 →
      P (scaleQuat ![M 0 1 + M 1 0, M 1 1 - (M 2 2 + M 0 0) + M 3 3, M 1 2 + M 2 1, M 0 2 - M 2 0]
        ((M 1 1 - (M 2 2 + M 0 0) + M 3 3) * M 3 3)))
    (h2 : M 0 0 + M 1 1 + M 2 2 ≤ 0 → M 0 0 ≤ M 2 2 → M 1 1 ≤ M 2 2 →
      P (scaleQuat ![M 2 0 + M 0 2, M 1 2 + M 2 1, M 2 2 - (M 0 0 + M 1 1) + M 3 3, M 1 0 - M 0 1]
        ((M 2 2 - (M 0 0 + M 1 1) + M 3 3) * M 3 3))) : P (quatFromMatrix M) := by
  unfold quatFromMatrix
  simp only []
  by_cases ht : M 0 0 + M 1 1 + M 2 2 + M 3 3 > M 3 3
  · rw [if_pos ht]
    exact h3 (by linarith)
  · rw [if_neg ht]
    have ht' : M 0 0 + M 1 1 + M 2 2 ≤ 0 := by linarith
    by_cases h10 : M 1 1 > M 0 0
    · rw [if_pos h10]
      simp only []
      by_cases h21 : M 2 2 > M 1 1
      · rw [if_pos h21]
        simp only []
        convert h2 ht' (by linarith) (by linarith) using 2
        funext a
        fin_cases a <;> simp [setAt]
      · rw [if_neg h21]
        simp only []
        convert h1 ht' (by linarith) (by linarith) using 2
        funext a
        fin_cases a <;> simp [setAt]
    · rw [if_neg h10]
      simp only []
      by_cases h20 : M 2 2 > M 0 0
      · rw [if_pos h20]
        simp only []
        convert h2 ht' (by linarith) (by linarith) using 2
        funext a
        fin_cases a <;> simp [setAt]
      · rw [if_neg h20]
        simp only []
        convert h0 ht' (by linarith) (by linarith) using 2
        funext a
        fin_cases a <;> simp [setAt]

/-- **C111.** `quaternion_from_matrix` of the rotation of a unit quaternion is this quaternion or its
opposite. -/
theorem C111_quaternion (p : Quat) (hp : dot4 p p = 1) :
    quatFromMatrix (quatMatrix p) = .ok p ∨ quatFromMatrix (quatMatrix p) = .ok fun a => -p a := by
  rw [quatMatrix_eq (by rw [hp]; exact EPS_lt_one.le), hp]
  have hp' : p 0 * p 0 + p 1 * p 1 + p 2 * p 2 + p 3 * p 3 = 1 := hp
  apply quatFromMatrix_cases _ fun x => x = .ok p ∨ x = .ok fun a => -p a
  · intro h
    simp at h
    have hc : p 3 ≠ 0 := by
      intro hc
      rw [hc] at hp'
      nlinarith
    apply scaleQuat_row hc
    · intro a
      fin_cases a <;> simp <;> linarith
    · simp
      linarith
  · intro h h1 h2
    simp at h h1 h2
    have hc : p 0 ≠ 0 := by
      intro hc
      rw [hc] at h h1 h2 hp'
      nlinarith [mul_self_nonneg (p 1), mul_self_nonneg (p 2), mul_self_nonneg (p 3)]
    apply scaleQuat_row hc
    · intro a
      fin_cases a <;> simp <;> linarith
    · simp
      linarith
  · intro h h1 h2
    simp at h h1 h2
    have hc : p 1 ≠ 0 := by
      intro hc
      rw [hc] at h h1 h2 hp'
      nlinarith [mul_self_nonneg (p 0), mul_self_nonneg (p 2), mul_self_nonneg (p 3)]
    apply scaleQuat_row hc
    · intro a
      fin_cases a <;> simp <;> linarith
    · simp
      linarith
  · intro h h1 h2
    simp at h h1 h2
    have hc : p 2 ≠ 0 := by
      intro hc
      rw [hc] at h h1 h2 hp'
      nlinarith [mul_self_nonneg (p 0), mul_self_nonneg (p 1), mul_self_nonneg (p 3)]
    apply scaleQuat_row hc
    · intro a
      fin_cases a <;> simp <;> linarith
    · simp
      linarith

/-- **C111.** `quaternion_from_matrix` of a rotation matrix raises no exception: it gives a unit
quaternion, whose `quaternion_matrix` is the matrix. -/
theorem C111_rotation (M : Mat4) (hM : IsRotation M) :
    ∃ q, quatFromMatrix M = .ok q ∧ dot4 q q = 1 ∧ quatMatrix q = M := by
  obtain ⟨p, hp, rfl⟩ := exists_quat hM
  rcases C111_quaternion p hp with h | h
  · exact ⟨p, h, hp, rfl⟩
  · refine ⟨_, h, ?_, C93_neg p⟩
    rw [← hp]
    unfold dot4
    ring

/-- **C111.** Up to sign there is only one unit quaternion of each rotation. -/
theorem C111_unique (p q : Quat) (hp : dot4 p p = 1) (hq : dot4 q q = 1) :
    quatMatrix p = quatMatrix q ↔ p = q ∨ p = fun a => -q a := by
  constructor
  · intro h
    rcases C111_quaternion p hp with h1 | h1 <;> rcases C111_quaternion q hq with h2 | h2 <;>
      rw [h, h2] at h1 <;> have h3 := Except.ok.inj h1
    · exact .inl h3.symm
    · exact .inr h3.symm
    · right
      rw [h3]
      simp
    · left
      funext a
      have := congrFun h3 a
      simp at this
      exact this.symm
  · rintro (rfl | rfl)
    · rfl
    · exact C93_neg q

end Verif.Transf
