import Verif.Transf.PropsNames

/-!
# Quaternions of Euler angles (C110)
-/

namespace Verif.Transf

open Verif Real Matrix

/-- The quaternion of the rotation about a coordinate axis. -/
noncomputable def axisQuat (m : Fin 3) (θ : ℝ) : Quat := fun a =>
  if a = m.castSucc then sin (θ / 2) else if a = 3 then cos (θ / 2) else 0

theorem fin3 (x : Fin 3) : x = 0 ∨ x = 1 ∨ x = 2 := by
  revert x
  decide

theorem axisQuat_norm (m : Fin 3) (θ : ℝ) : dot4 (axisQuat m θ) (axisQuat m θ) = 1 := by
  have h := sin_sq_add_cos_sq (θ / 2)
  rcases fin3 m with rfl | rfl | rfl <;> simp [dot4, axisQuat] <;> nlinarith

theorem axisQuat_matrix (m : Fin 3) (θ : ℝ) : quatMatrix (axisQuat m θ) = homog3 (axisRot3 m θ) := by
  have h1 := axisQuat_norm m θ
  rw [quatMatrix_eq (by rw [h1]; exact EPS_lt_one.le), h1]
  have hs : sin θ = 2 * (sin (θ / 2) * cos (θ / 2)) := by
    rw [← mul_assoc, ← sin_two_mul]
    congr 1
    ring
  have hc : cos θ = 1 - 2 * (sin (θ / 2) * sin (θ / 2)) := by
    have h := cos_two_mul' (θ / 2)
    have h2 := sin_sq_add_cos_sq (θ / 2)
    rw [show 2 * (θ / 2) = θ by ring] at h
    rw [h]
    nlinarith
  ext a b
  rcases fin3 m with rfl | rfl | rfl <;> fin_cases a <;> fin_cases b <;>
    simp [axisQuat, homog3, axisRot3, hs, hc, mul_comm]

theorem quatFromEulerOf_eq {t : AxesTuple} {e : Equiv.Perm (Fin 3)}
    (he : axesOf t = ((e 0).castSucc, (e 1).castSucc, (e 2).castSucc))
    (hs : Equiv.Perm.sign e = -1 ↔ t.2.1 ≠ 0) (ai aj ak : ℝ) :
    quatFromEulerOf t ai aj ak =
      quatMul (quatMul
        (axisQuat (if t.2.2.1 ≠ 0 then e 0 else e 2) (if t.2.2.2 = 0 then ak else ai))
        (axisQuat (e 1) aj))
        (axisQuat (e 0) (if t.2.2.2 = 0 then ai else ak)) := by
  have key : ∀ (x y : ℝ) (t' : AxesTuple), t'.1 = t.1 → t'.2.1 = t.2.1 → t'.2.2.1 = t.2.2.1 → t'.2.2.2 = 0 →
      quatFromEulerOf t' x aj y = quatMul (quatMul
        (axisQuat (if t.2.2.1 ≠ 0 then e 0 else e 2) y) (axisQuat (e 1) aj)) (axisQuat (e 0) x) := by
    intro x y t' h1 h2 h3 h4
    have he' : axesOf t' = axesOf t := by
      unfold axesOf
      rw [h1, h2]
    unfold quatFromEulerOf
    rw [he', he, h2, h3, h4]
    have hneg : -aj / 2 = -(aj / 2) := by ring
    rcases perm_cases e with ⟨hsg, h⟩ | ⟨hsg, h⟩
    · have hp : t.2.1 = 0 := by
        by_contra hc
        have := hs.2 hc
        rw [hsg] at this
        exact absurd this (by decide)
      rw [hp]
      by_cases hr : t.2.2.1 = 0 <;>
        rcases h with ⟨h0, h1, h2⟩ | ⟨h0, h1, h2⟩ | ⟨h0, h1, h2⟩ <;> rw [h0, h1, h2] <;> funext a <;>
        fin_cases a <;> simp [hr, setAt, quatMul, axisQuat] <;> ring
    · have hp : t.2.1 ≠ 0 := hs.1 hsg
      by_cases hr : t.2.2.1 = 0 <;>
        rcases h with ⟨h0, h1, h2⟩ | ⟨h0, h1, h2⟩ | ⟨h0, h1, h2⟩ <;> rw [h0, h1, h2] <;> funext a <;>
        fin_cases a <;> simp [hr, hp, setAt, quatMul, axisQuat, hneg] <;> ring
  by_cases h4 : t.2.2.2 = 0
  · rw [if_pos h4, if_pos h4]
    exact key ai ak t rfl rfl rfl h4
  · rw [if_neg h4, if_neg h4, ← key ak ai (t.1, t.2.1, t.2.2.1, 0) rfl rfl rfl rfl]
    unfold quatFromEulerOf axesOf
    simp [h4]

theorem quatFromEulerOf_spec {t : AxesTuple} (ht : IsAxes t) (ai aj ak : ℝ) :
    dot4 (quatFromEulerOf t ai aj ak) (quatFromEulerOf t ai aj ak) = 1 ∧
    quatMatrix (quatFromEulerOf t ai aj ak) = eulerMatrixOf t ai aj ak := by
  obtain ⟨p, hp, hpt⟩ := List.mem_map.1 ht
  obtain ⟨e, _, _, _, _, _, he, hs, _⟩ := axesOf_name p hp
  rw [hpt] at he hs
  have hn : ∀ a b, dot4 (quatMul a b) (quatMul a b) = dot4 a a * dot4 b b := fun a b =>
    (C92_algebra a b b).2.2.2.1
  have h1 := EPS_lt_one.le
  rw [quatFromEulerOf_eq he hs]
  refine ⟨by rw [hn, hn, axisQuat_norm, axisQuat_norm, axisQuat_norm]; norm_num, ?_⟩
  rw [C93_multiplicative _ _ (by rw [hn, axisQuat_norm, axisQuat_norm]; simpa using h1)
      (by rw [axisQuat_norm]; exact h1)
      (by rw [hn, axisQuat_norm, axisQuat_norm, axisQuat_norm]; simpa using h1),
    C93_multiplicative _ _ (by rw [axisQuat_norm]; exact h1) (by rw [axisQuat_norm]; exact h1)
      (by rw [axisQuat_norm, axisQuat_norm]; simpa using h1),
    axisQuat_matrix, axisQuat_matrix, axisQuat_matrix, homog3_mul, homog3_mul,
    ← eulerMatrixOf_block he hs, homog3_block (eulerMatrixOf_homog ht _ _ _)]

/-- **C110.** `quaternion_from_euler` gives a unit quaternion, whose `quaternion_matrix` is the
`euler_matrix` of the same angles and axes. -/
theorem C110_matrix (ai aj ak : ℝ) (axes : AxesArg) (M : Mat4) (h : eulerMatrix ai aj ak axes = .ok M) :
    ∃ q, quatFromEuler ai aj ak axes = .ok q ∧ dot4 q q = 1 ∧ quatMatrix q = M := by
  unfold eulerMatrix at h
  rcases hr : resolve axes with x | t
  · rw [hr] at h
    cases h
  · rw [hr] at h
    cases h
    obtain ⟨h1, h2⟩ := quatFromEulerOf_spec (resolve_isAxes hr) ai aj ak
    refine ⟨_, ?_, h1, h2⟩
    unfold quatFromEuler
    rw [resolve_lower hr]
    rfl

/-- **C110.** It gives a unit quaternion whenever it gives one, also for names in capital letters. -/
theorem C110_unit (ai aj ak : ℝ) (axes : AxesArg) (q : Quat) (h : quatFromEuler ai aj ak axes = .ok q) :
    dot4 q q = 1 := by
  unfold quatFromEuler at h
  rcases hr : resolveLower axes with x | t
  · rw [hr] at h
    cases h
  · rw [hr] at h
    cases h
    exact (quatFromEulerOf_spec (resolveLower_isAxes hr) ai aj ak).1

/-- **C110.** The angles of `euler_from_quaternion` give back the rotation of the quaternion up to
`2 EPS`, for each name of axes; and exactly away from the gimbal lock. -/
theorem C110_rebuild (q : Quat) (axes : AxesArg) (t : AxesTuple) (h : resolve axes = .ok t) :
    ∃ ai aj ak p, eulerFromQuat q axes = .ok (ai, aj, ak) ∧ quatFromEuler ai aj ak axes = .ok p ∧
      (EPS < gimbal t (quatMatrix q) ∨ gimbal t (quatMatrix q) = 0 → quatMatrix p = quatMatrix q) ∧
      ∀ a b, |quatMatrix p a b - quatMatrix q a b| ≤ 2 * EPS := by
  obtain ⟨ai, aj, ak, R, h1, h2, h3, h4⟩ := C95_rebuild axes t h _ (C93_rotation q).1
  obtain ⟨p, hp, _, hR⟩ := C110_matrix _ _ _ _ _ h2
  subst hR
  exact ⟨ai, aj, ak, p, h1, hp, h3, h4⟩

/-- Each rotation is that of a unit quaternion. -/
theorem exists_quat {M : Mat4} (hM : IsRotation M) : ∃ p, dot4 p p = 1 ∧ quatMatrix p = M := by
  have key : ∀ t, IsAxes t → EPS < gimbal t M → ∃ p, dot4 p p = 1 ∧ quatMatrix p = M := by
    intro t ht hg
    have hr : resolve (.tuple t) = .ok t := by
      simp only [resolve]
      exact if_pos ht
    obtain ⟨ai, aj, ak, R, _, h2, h3, _⟩ := C95_rebuild (.tuple t) t hr M hM
    obtain ⟨p, _, hp, hR⟩ := C110_matrix _ _ _ _ _ h2
    exact ⟨p, hp, hR.trans (h3 (.inl hg))⟩
  by_cases h1 : EPS < gimbal (0, 0, 0, 0) M
  · exact key _ (by decide) h1
  · refine key (0, 0, 1, 0) (by decide) ?_
    have hE := EPS_lt_one
    have hE0 := EPS_pos
    have hrow := (hM.block).row 0 0
    have e1 : gimbal (0, 0, 0, 0) M = √(M 0 0 * M 0 0 + M 1 0 * M 1 0) := rfl
    have e2 : gimbal (0, 0, 1, 0) M = √(M 0 1 * M 0 1 + M 0 2 * M 0 2) := rfl
    have hrow' : M 0 0 * M 0 0 + M 0 1 * M 0 1 + M 0 2 * M 0 2 = 1 := by
      simpa [block] using hrow
    rw [e1, not_lt, Real.sqrt_le_left hE0.le] at h1
    rw [e2]
    apply Real.lt_sqrt_of_sq_lt
    have hsmall : EPS ≤ 1 / 2 := by unfold EPS; norm_num
    nlinarith [mul_self_nonneg (M 1 0)]

end Verif.Transf
