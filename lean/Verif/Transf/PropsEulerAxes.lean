import Verif.Transf.PropsEuler

/-!
# Euler angles for all sequences of axes (C95)
-/

namespace Verif.Transf

open Verif Real Matrix

/-- How far a rotation is from gimbal lock, for given axes: the absolute value of the cosine of the
middle angle, or of its sine when the first axis is also the last one. -/
noncomputable def gimbal (t : AxesTuple) (M : Mat4) : ℝ :=
  let (i, j, k) := axesOf t
  if t.2.2.1 ≠ 0 then √(M i j * M i j + M i k * M i k) else √(M i i * M i i + M j i * M j i)

theorem gimbal_eq {t : AxesTuple} {e : Equiv.Perm (Fin 3)}
    (he : axesOf t = ((e 0).castSucc, (e 1).castSucc, (e 2).castSucc)) (M : Mat4) :
    gimbal t M = lock3 (t.2.2.1 ≠ 0) ((block M).submatrix e e) := by
  unfold gimbal lock3
  rw [he]
  by_cases h : t.2.2.1 = 0 <;> simp [h, block]

theorem eulerMatrixOf_from {t : AxesTuple} {e : Equiv.Perm (Fin 3)}
    (he : axesOf t = ((e 0).castSucc, (e 1).castSucc, (e 2).castSucc)) (M : Mat4) :
    ∃ a, a = angles3 (t.2.2.1 ≠ 0) ((block M).submatrix e e) ∧
    eulerMatrixOf t (eulerFromMatrixOf t M).1 (eulerFromMatrixOf t M).2.1 (eulerFromMatrixOf t M).2.2 =
      eulerEntries (e 0).castSucc (e 1).castSucc (e 2).castSucc (t.2.2.1 ≠ 0) a.1 a.2.1 a.2.2 := by
  refine ⟨_, rfl, ?_⟩
  rw [← eulerAngles_eq]
  unfold eulerMatrixOf eulerFromMatrixOf
  rw [he]
  by_cases h : t.2.1 = 0 <;> by_cases h' : t.2.2.2 = 0 <;> simp [h, h']

theorem eulerMatrixOf_homog {t : AxesTuple} (ht : IsAxes t) (ai aj ak : ℝ) :
    Homog (eulerMatrixOf t ai aj ak) := by
  obtain ⟨e, he⟩ := axesOf_perm ht
  unfold eulerMatrixOf
  rw [he]
  exact eulerEntries_homog e _ _ _ _

theorem resolve_lower {a : AxesArg} {t : AxesTuple} (h : resolve a = .ok t) : resolveLower a = .ok t := by
  cases a with
  | tuple t' => exact h
  | name s =>
    have hs : s ∈ axes2tuple.map Prod.fst := by
      simp only [resolve] at h
      split at h
      · rename_i p hp
        have h1 := List.mem_map_of_mem (f := Prod.fst) (List.mem_of_find?_eq_some hp)
        have h2 := List.find?_some hp
        simp only [beq_iff_eq] at h2
        rwa [h2] at h1
      · cases h
    have hl : ∀ s ∈ axes2tuple.map Prod.fst, s.map Char.toLower = s := by decide +kernel
    simp only [resolveLower, hl s hs]
    exact h

/-- **C95.** For each of the 24 sequences of axes and each rotation matrix, `euler_matrix` rebuilds the
matrix from the angles given by `euler_from_matrix`: exactly away from gimbal lock and in gimbal lock,
and with entries which differ by at most twice the threshold in all cases. -/
theorem C95_rebuild (axes : AxesArg) (t : AxesTuple) (h : resolve axes = .ok t) (M : Mat4)
    (hM : IsRotation M) :
    ∃ ax ay az R, eulerFromMatrix M axes = .ok (ax, ay, az) ∧ eulerMatrix ax ay az axes = .ok R ∧
      (EPS < gimbal t M ∨ gimbal t M = 0 → R = M) ∧
      ∀ a b, |R a b - M a b| ≤ 2 * EPS := by
  obtain ⟨e, he⟩ := axesOf_perm (resolve_isAxes h)
  obtain ⟨ang, hang, hE⟩ := eulerMatrixOf_from he M
  have hR := (hM.block).perm e
  have hhom := eulerEntries_homog e (t.2.2.1 ≠ 0) ang.1 ang.2.1 ang.2.2
  have hb := eulerEntries_block e (t.2.2.1 ≠ 0) ang.1 ang.2.1 ang.2.2
  refine ⟨_, _, _, eulerEntries (e 0).castSucc (e 1).castSucc (e 2).castSucc (t.2.2.1 ≠ 0) ang.1 ang.2.1
    ang.2.2, by unfold eulerFromMatrix; rw [resolve_lower h]; rfl,
    by unfold eulerMatrix; rw [h, ← hE]; rfl, ?_, ?_⟩
  · intro hl
    refine hhom.ext hM.homog (mat3_perm_ext e ?_)
    rw [hb, hang]
    rw [gimbal_eq he] at hl
    rcases hl with hl | hl
    · exact euler3_angles3 _ hR hl
    · ext a b
      have := euler3_near (t.2.2.1 ≠ 0) hR (by rw [hl]; exact EPS_pos.le) a b
      rw [hl, mul_zero] at this
      exact sub_eq_zero.1 (abs_nonpos_iff.1 this)
  · have hin : ∀ x y : Fin 3, |euler3 (t.2.2.1 ≠ 0) ang.1 ang.2.1 ang.2.2 x y -
        (block M).submatrix e e x y| ≤ 2 * EPS := by
      intro x y
      rw [hang]
      rcases lt_or_ge EPS (lock3 (t.2.2.1 ≠ 0) ((block M).submatrix e e)) with hl | hl
      · rw [euler3_angles3 _ hR hl, sub_self, abs_zero]
        linarith [EPS_pos]
      · refine (euler3_near _ hR hl x y).trans ?_
        linarith
    intro a b
    rcases Fin.eq_castSucc_or_eq_last a with ⟨a, rfl⟩ | rfl
    · rcases Fin.eq_castSucc_or_eq_last b with ⟨b, rfl⟩ | rfl
      · have := hin (e.symm a) (e.symm b)
        rw [← hb] at this
        simpa [block] using this
      · rw [show Fin.last 3 = 3 from rfl, hhom.col0, hM.homog.col0, sub_self, abs_zero]
        linarith [EPS_pos]
    · rw [show Fin.last 3 = 3 from rfl, hhom.row, hM.homog.row, sub_self, abs_zero]
      linarith [EPS_pos]

/-- Euler angles are got back from the entries. -/
theorem angles3_euler3 (rep : Bool) (ai aj ak : ℝ) (hi : -π < ai ∧ ai ≤ π) (hk : -π < ak ∧ ak ≤ π)
    (hj : if rep then 0 < aj ∧ aj < π ∧ EPS < sin aj else -(π / 2) < aj ∧ aj < π / 2 ∧ EPS < cos aj) :
    angles3 rep (euler3 rep ai aj ak) = (ai, aj, ak) := by
  cases rep
  · simp only [Bool.false_eq_true, if_false] at hj
    obtain ⟨h1, h2, h3⟩ := hj
    have hpos := EPS_pos.trans h3
    have hcy : √(cos aj * cos ak * (cos aj * cos ak) + cos aj * sin ak * (cos aj * sin ak)) = cos aj := by
      rw [show cos aj * cos ak * (cos aj * cos ak) + cos aj * sin ak * (cos aj * sin ak) =
        cos aj * cos aj * (sin ak ^ 2 + cos ak ^ 2) by ring, sin_sq_add_cos_sq, mul_one,
        sqrt_mul_self hpos.le]
    have hp := pi_pos
    simp only [angles3, euler3, Bool.false_eq_true, if_false]
    simp only [Matrix.of_apply, Matrix.cons_val', Matrix.cons_val_zero, Matrix.cons_val_one,
      Matrix.cons_val]
    rw [hcy, if_pos h3, neg_neg, atan2_eq hpos hi.1 hi.2, atan2_eq hpos hk.1 hk.2]
    have := atan2_eq one_pos (θ := aj) (by linarith) (by linarith)
    rw [one_mul, one_mul] at this
    rw [this]
  · simp only [if_true] at hj
    obtain ⟨h1, h2, h3⟩ := hj
    have hpos := EPS_pos.trans h3
    have hsy : √(sin aj * sin ai * (sin aj * sin ai) + sin aj * cos ai * (sin aj * cos ai)) = sin aj := by
      rw [show sin aj * sin ai * (sin aj * sin ai) + sin aj * cos ai * (sin aj * cos ai) =
        sin aj * sin aj * (sin ai ^ 2 + cos ai ^ 2) by ring, sin_sq_add_cos_sq, mul_one,
        sqrt_mul_self hpos.le]
    have hp := pi_pos
    simp only [angles3, euler3, if_true]
    simp only [Matrix.of_apply, Matrix.cons_val', Matrix.cons_val_zero, Matrix.cons_val_one,
      Matrix.cons_val]
    rw [hsy, if_pos h3, neg_mul, neg_neg, atan2_eq hpos hi.1 hi.2, atan2_eq hpos hk.1 hk.2]
    have := atan2_eq one_pos (θ := aj) (by linarith) (by linarith)
    rw [one_mul, one_mul] at this
    rw [this]

/-- The sign of the angles of a sequence of axes. -/
def axesSign (t : AxesTuple) : ℝ := if t.2.1 ≠ 0 then -1 else 1

/-- **C95.** For each of the 24 sequences of axes, `euler_from_matrix` gives back the angles from
which `euler_matrix` built the matrix, when the middle angle is between right angles (or between zero
and a half turn when the first axis is repeated) and not within the threshold of gimbal lock, and the
other angles are at most a half turn (for sequences in the opposite order, their opposites are). -/
theorem C95_angles (axes : AxesArg) (t : AxesTuple) (h : resolve axes = .ok t) (ai aj ak : ℝ)
    (hi : -π < axesSign t * ai ∧ axesSign t * ai ≤ π) (hk : -π < axesSign t * ak ∧ axesSign t * ak ≤ π)
    (hj : if t.2.2.1 ≠ 0 then 0 < axesSign t * aj ∧ axesSign t * aj < π ∧ EPS < sin (axesSign t * aj)
      else -(π / 2) < axesSign t * aj ∧ axesSign t * aj < π / 2 ∧ EPS < cos (axesSign t * aj)) :
    ∃ M, eulerMatrix ai aj ak axes = .ok M ∧ eulerFromMatrix M axes = .ok (ai, aj, ak) := by
  obtain ⟨e, he⟩ := axesOf_perm (resolve_isAxes h)
  refine ⟨eulerMatrixOf t ai aj ak, by unfold eulerMatrix; rw [h]; rfl, ?_⟩
  unfold eulerFromMatrix
  rw [resolve_lower h]
  show Except.ok (eulerFromMatrixOf t _) = _
  congr 1
  have key : ∀ x y z : ℝ, (-π < x ∧ x ≤ π) → (-π < z ∧ z ≤ π) →
      (if (t.2.2.1 ≠ 0 : Bool) then 0 < y ∧ y < π ∧ EPS < sin y
        else -(π / 2) < y ∧ y < π / 2 ∧ EPS < cos y) →
      eulerAngles (e 0).castSucc (e 1).castSucc (e 2).castSucc (t.2.2.1 ≠ 0)
        (eulerEntries (e 0).castSucc (e 1).castSucc (e 2).castSucc (t.2.2.1 ≠ 0) x y z) = (x, y, z) := by
    intro x y z hx hz hy
    rw [eulerAngles_eq, eulerEntries_block]
    exact angles3_euler3 _ x y z hx hz hy
  unfold axesSign at hi hj hk
  unfold eulerMatrixOf eulerFromMatrixOf
  rw [he]
  by_cases h1 : t.2.1 = 0 <;> by_cases h2 : t.2.2.2 = 0
  · simp only [h1, ne_eq, not_true_eq_false, if_false, one_mul] at hi hj hk
    have := key ai aj ak hi hk (by simpa using hj)
    simp [h1, h2] at this ⊢
    rw [this]
  · simp only [h1, ne_eq, not_true_eq_false, if_false, one_mul] at hi hj hk
    have := key ak aj ai hk hi (by simpa using hj)
    simp [h1, h2] at this ⊢
    rw [this]
    exact ⟨rfl, rfl, rfl⟩
  · simp only [h1, ne_eq, not_false_eq_true, if_true, neg_one_mul] at hi hj hk
    have := key (-ai) (-aj) (-ak) hi hk (by simpa using hj)
    simp [h1, h2] at this ⊢
    rw [this]
    simp
  · simp only [h1, ne_eq, not_false_eq_true, if_true, neg_one_mul] at hi hj hk
    have := key (-ak) (-aj) (-ai) hk hi (by simpa using hj)
    simp [h1, h2] at this ⊢
    rw [this]
    simp

end Verif.Transf
