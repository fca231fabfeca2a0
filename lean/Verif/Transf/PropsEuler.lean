import Verif.Transf.Euler

/-!
# Euler angles represent the rotation (C95)
-/

namespace Verif.Transf

open Verif Real Matrix

/-- The angles of `euler_from_matrix` in terms of the entries in the order of axes. -/
noncomputable def angles3 (repetition : Bool) (A : Mat3) : ℝ × ℝ × ℝ :=
  if repetition then
    let sy := √(A 0 1 * A 0 1 + A 0 2 * A 0 2)
    if sy > EPS then (atan2 (A 0 1) (A 0 2), atan2 sy (A 0 0), atan2 (A 1 0) (-A 2 0))
    else (atan2 (-A 1 2) (A 1 1), atan2 sy (A 0 0), 0)
  else
    let cy := √(A 0 0 * A 0 0 + A 1 0 * A 1 0)
    if cy > EPS then (atan2 (A 2 1) (A 2 2), atan2 (-A 2 0) cy, atan2 (A 1 0) (A 0 0))
    else (atan2 (-A 1 2) (A 1 1), atan2 (-A 2 0) cy, 0)

theorem eulerAngles_eq (e : Equiv.Perm (Fin 3)) (rep : Bool) (M : Mat4) :
    eulerAngles (e 0).castSucc (e 1).castSucc (e 2).castSucc rep M =
      angles3 rep ((block M).submatrix e e) := rfl

/-- How far a rotation is from gimbal lock. -/
noncomputable def lock3 (rep : Bool) (A : Mat3) : ℝ :=
  if rep then √(A 0 1 * A 0 1 + A 0 2 * A 0 2) else √(A 0 0 * A 0 0 + A 1 0 * A 1 0)

/-- Away from gimbal lock, angles are those of the rotation. -/
theorem euler3_angles3 (rep : Bool) {A : Mat3} (h : Rot3 A) (hl : EPS < lock3 rep A) :
    euler3 rep (angles3 rep A).1 (angles3 rep A).2.1 (angles3 rep A).2.2 = A := by
  have h3 : ∀ x : Fin 3, x = 0 ∨ x = 1 ∨ x = 2 := by decide
  obtain ⟨⟨c00, c01, c02⟩, ⟨c10, c11, c12⟩, c20, c21, c22⟩ := h.cof
  have r00 := h.row 0 0
  have r22 := h.row 2 2
  have k00 := h.col 0 0
  have k01 := h.col 0 1
  have k02 := h.col 0 2
  have r01 := h.row 0 1
  have r02 := h.row 0 2
  simp at r00 r22 k00 k01 k02 r01 r02
  cases rep
  · simp only [lock3, Bool.false_eq_true, if_false] at hl
    simp only [angles3, Bool.false_eq_true, if_false, if_pos hl]
    have hpos := EPS_pos.trans hl
    generalize hc : √(A 0 0 * A 0 0 + A 1 0 * A 1 0) = c at *
    have hcc : c * c = A 0 0 * A 0 0 + A 1 0 * A 1 0 := by
      rw [← hc]
      exact mul_self_sqrt (add_nonneg (mul_self_nonneg _) (mul_self_nonneg _))
    obtain ⟨s1, c1⟩ := atan2_of_norm hpos (x := A 2 2) (y := A 2 1) (by linarith)
    obtain ⟨s2, c2⟩ := atan2_of_norm one_pos (x := c) (y := -A 2 0) (by linarith)
    obtain ⟨s3, c3⟩ := atan2_of_norm hpos (x := A 0 0) (y := A 1 0) (by linarith)
    have hne := hpos.ne'
    ext a b
    rcases h3 a with rfl | rfl | rfl <;> rcases h3 b with rfl | rfl | rfl <;>
      simp only [euler3, Bool.false_eq_true, if_false, s1, c1, s2, c2, s3, c3] <;> simp <;> field_simp
    · rw [pow_two, hcc]
      linear_combination (-A 0 0) * k01 - A 1 0 * c22
    · rw [pow_two, hcc]
      linear_combination (-A 0 0) * k02 + A 1 0 * c21
    · rw [pow_two, hcc]
      linear_combination (-A 1 0) * k01 + A 0 0 * c22
    · rw [pow_two, hcc]
      linear_combination (-A 1 0) * k02 - A 0 0 * c21
  · simp only [lock3, if_true] at hl
    simp only [angles3, if_true, if_pos hl]
    have hpos := EPS_pos.trans hl
    generalize hc : √(A 0 1 * A 0 1 + A 0 2 * A 0 2) = c at *
    have hcc : c * c = A 0 1 * A 0 1 + A 0 2 * A 0 2 := by
      rw [← hc]
      exact mul_self_sqrt (add_nonneg (mul_self_nonneg _) (mul_self_nonneg _))
    obtain ⟨s1, c1⟩ := atan2_of_norm hpos (x := A 0 2) (y := A 0 1) (by linarith)
    obtain ⟨s2, c2⟩ := atan2_of_norm one_pos (x := A 0 0) (y := c) (by linarith)
    obtain ⟨s3, c3⟩ := atan2_of_norm hpos (x := -A 2 0) (y := A 1 0) (by linarith)
    have hne := hpos.ne'
    ext a b
    rcases h3 a with rfl | rfl | rfl <;> rcases h3 b with rfl | rfl | rfl <;>
      simp only [euler3, if_true, s1, c1, s2, c2, s3, c3] <;> simp <;> field_simp
    · rw [pow_two, hcc]
      linear_combination (-A 0 1) * r01 - A 0 2 * c20
    · rw [pow_two, hcc]
      linear_combination (-A 0 2) * r01 + A 0 1 * c20
    · rw [pow_two, hcc]
      linear_combination (-A 0 1) * r02 + A 0 2 * c10
    · rw [pow_two, hcc]
      linear_combination (-A 0 2) * r02 - A 0 1 * c10

theorem abs_le_of_sq {x c : ℝ} (hc : 0 ≤ c) (h : x * x ≤ c * c) : |x| ≤ c := by
  rw [← abs_of_nonneg hc, ← sq_le_sq]
  nlinarith

/-- The middle row of a rotation near gimbal lock is almost in a plane. -/
theorem near_row {x y z c : ℝ} (hc0 : 0 ≤ c) (hc1 : c < 1) (hx : x * x ≤ c * c)
    (h : x * x + y * y + z * z = 1) :
    ∃ r u v, r ≤ 1 ∧ 1 - r ≤ c ∧ y = u * r ∧ z = v * r ∧ |u| ≤ 1 ∧ |v| ≤ 1 ∧
      sin (atan2 (-z) y) = -v ∧ cos (atan2 (-z) y) = u := by
  have hcc : c * c ≤ c := by nlinarith
  have hr2 : 0 < y * y + z * z := by linarith
  obtain ⟨r, hr, hrr⟩ : ∃ r : ℝ, 0 < r ∧ y * y + z * z = r * r :=
    ⟨√(y * y + z * z), sqrt_pos.2 hr2, (mul_self_sqrt hr2.le).symm⟩
  obtain ⟨si, ci⟩ := atan2_of_norm hr (x := y) (y := -z) (by linarith)
  have hr1 : r ≤ 1 := by nlinarith [mul_self_nonneg x]
  have h1r : 1 - r ≤ c := by
    have : (1 - r) * r ≥ 0 := mul_nonneg (by linarith) hr.le
    nlinarith
  have hy : y = y / r * r := by field_simp
  have hz : z = z / r * r := by field_simp
  have huv : y / r * (y / r) + z / r * (z / r) = 1 := by
    have : r * r ≠ 0 := by positivity
    field_simp
    linarith
  refine ⟨r, y / r, z / r, hr1, h1r, hy, hz, abs_le_of_sq zero_le_one ?_, abs_le_of_sq zero_le_one ?_,
    by rw [si, neg_div], ci⟩
  · linarith [mul_self_nonneg (z / r)]
  · linarith [mul_self_nonneg (y / r)]

/-- Bounds near gimbal lock. -/
theorem near_bounds {r c : ℝ} (hc0 : 0 ≤ c) (hr1 : r ≤ 1) (h1r : 1 - r ≤ c) :
    (∀ x, |x| ≤ 1 → |x * (1 - r)| ≤ c) ∧ (∀ x y : ℝ, |x| ≤ 1 → |y| ≤ 1 → |x * y| ≤ 1) ∧
    (∀ x y : ℝ, |x| ≤ c → |y| ≤ 1 → |x * y| ≤ c) ∧
    (∀ x y : ℝ, |x| ≤ c → |y| ≤ c → |x + y| ≤ 2 * c) ∧ ∀ x : ℝ, |x| ≤ c → |x| ≤ 2 * c := by
  refine ⟨?_, ?_, ?_, ?_, ?_⟩
  · intro x hx
    rw [abs_mul, abs_of_nonneg (by linarith : 0 ≤ 1 - r)]
    nlinarith [abs_nonneg x]
  · intro x y hx hy
    rw [abs_mul]
    nlinarith [abs_nonneg x, abs_nonneg y]
  · intro x y hx hy
    rw [abs_mul]
    nlinarith [abs_nonneg x, abs_nonneg y]
  · intro x y hx hy
    have := abs_add_le x y
    linarith
  · intro x hx
    linarith

/-- Near gimbal lock, the rotation is rebuilt up to twice its distance to it. -/
theorem euler3_near (rep : Bool) {A : Mat3} (h : Rot3 A) (hl : lock3 rep A ≤ EPS) (a b : Fin 3) :
    |euler3 rep (angles3 rep A).1 (angles3 rep A).2.1 (angles3 rep A).2.2 a b - A a b| ≤
      2 * lock3 rep A := by
  have h3 : ∀ x : Fin 3, x = 0 ∨ x = 1 ∨ x = 2 := by decide
  obtain ⟨⟨c00, c01, c02⟩, ⟨c10, c11, c12⟩, c20, c21, c22⟩ := h.cof
  have r00 := h.row 0 0
  have r11 := h.row 1 1
  have r22 := h.row 2 2
  have k00 := h.col 0 0
  simp at r00 r11 r22 k00
  have hc0 : 0 ≤ lock3 rep A := by
    unfold lock3
    split <;> exact sqrt_nonneg _
  have hc1 : lock3 rep A < 1 := lt_of_le_of_lt hl EPS_lt_one
  -- the first column is small, up to one entry
  have hcA : A 1 0 * A 1 0 ≤ lock3 rep A * lock3 rep A := by
    unfold lock3
    split
    · rw [mul_self_sqrt (add_nonneg (mul_self_nonneg _) (mul_self_nonneg _))]
      linarith [mul_self_nonneg (A 2 0)]
    · rw [mul_self_sqrt (add_nonneg (mul_self_nonneg _) (mul_self_nonneg _))]
      linarith [mul_self_nonneg (A 0 0)]
  have h10 : |A 1 0| ≤ lock3 rep A := abs_le_of_sq hc0 hcA
  obtain ⟨r, u, v, hr1, h1r, hu', hv', hu1, hv1, si, ci⟩ := near_row hc0 hc1 hcA r11
  obtain ⟨one, two, two', tri, single⟩ := near_bounds hc0 hr1 h1r
  have le1 : ∀ x, |x| ≤ lock3 rep A → |x| ≤ 1 := fun x hx => hx.trans hc1.le
  have hcc : |lock3 rep A| ≤ lock3 rep A := (abs_of_nonneg hc0).le
  cases rep
  · have hcc2 : lock3 false A * lock3 false A = A 0 0 * A 0 0 + A 1 0 * A 1 0 := by
      simp only [lock3, Bool.false_eq_true, if_false]
      exact mul_self_sqrt (add_nonneg (mul_self_nonneg _) (mul_self_nonneg _))
    have he : angles3 false A = (atan2 (-A 1 2) (A 1 1), atan2 (-A 2 0) (lock3 false A), 0) := by
      simp only [lock3, Bool.false_eq_true, if_false] at hl
      simp only [angles3, lock3, Bool.false_eq_true, if_false, if_neg (not_lt.2 hl)]
    rw [he]
    generalize lock3 false A = c at *
    obtain ⟨sj, cj⟩ := atan2_of_norm one_pos (x := c) (y := -A 2 0) (by linarith)
    rw [div_one] at sj cj
    have h00 : |A 0 0| ≤ c := abs_le_of_sq hc0 (by linarith [mul_self_nonneg (A 1 0)])
    have h21 : |A 2 1| ≤ c := abs_le_of_sq hc0 (by linarith [mul_self_nonneg (A 2 2)])
    have h22 : |A 2 2| ≤ c := abs_le_of_sq hc0 (by linarith [mul_self_nonneg (A 2 1)])
    have h20 : |A 2 0| ≤ 1 := abs_le_of_sq zero_le_one (by linarith [mul_self_nonneg c])
    rcases h3 a with rfl | rfl | rfl <;> rcases h3 b with rfl | rfl | rfl <;>
      simp only [euler3, Bool.false_eq_true, if_false, si, ci, sj, cj, sin_zero, cos_zero] <;>
      simp [-neg_mul, -mul_neg]
    · rw [show c - A 0 0 = c + -A 0 0 by ring]
      exact tri _ _ hcc (by rwa [abs_neg])
    · rw [show -A 2 0 * -v - A 0 1 = A 2 0 * v * (1 - r) + A 1 0 * A 2 2 by
        rw [c01, hv']
        ring]
      exact tri _ _ (one _ (two _ _ h20 hv1)) (two' _ _ h10 (le1 _ h22))
    · rw [show -A 2 0 * u - A 0 2 = -(A 2 0 * u * (1 - r)) + -(A 1 0 * A 2 1) by
        rw [c02, hu']
        ring]
      exact tri _ _ (by rw [abs_neg]; exact one _ (two _ _ h20 hu1))
        (by rw [abs_neg]; exact two' _ _ h10 (le1 _ h21))
    · exact single _ h10
    · rw [hu', show u - u * r = u * (1 - r) by ring]
      exact single _ (one _ hu1)
    · rw [hv', show v - v * r = v * (1 - r) by ring]
      exact single _ (one _ hv1)
    · exact hc0
    · rw [show c * -v - A 2 1 = -(c * v) + -A 2 1 by ring]
      exact tri _ _ (by rw [abs_neg]; exact two' _ _ hcc hv1) (by rwa [abs_neg])
    · rw [show c * u - A 2 2 = c * u + -A 2 2 by ring]
      exact tri _ _ (two' _ _ hcc hu1) (by rwa [abs_neg])
  · have hcc2 : lock3 true A * lock3 true A = A 0 1 * A 0 1 + A 0 2 * A 0 2 := by
      simp only [lock3, if_true]
      exact mul_self_sqrt (add_nonneg (mul_self_nonneg _) (mul_self_nonneg _))
    have he : angles3 true A = (atan2 (-A 1 2) (A 1 1), atan2 (lock3 true A) (A 0 0), 0) := by
      simp only [lock3, if_true] at hl
      simp only [angles3, lock3, if_true, if_neg (not_lt.2 hl)]
    rw [he]
    generalize lock3 true A = c at *
    obtain ⟨sj, cj⟩ := atan2_of_norm one_pos (x := A 0 0) (y := c) (by linarith)
    rw [div_one] at sj cj
    have h01 : |A 0 1| ≤ c := abs_le_of_sq hc0 (by linarith [mul_self_nonneg (A 0 2)])
    have h02 : |A 0 2| ≤ c := abs_le_of_sq hc0 (by linarith [mul_self_nonneg (A 0 1)])
    have h20 : |A 2 0| ≤ c := abs_le_of_sq hc0 (by linarith [mul_self_nonneg (A 1 0)])
    have h00 : |A 0 0| ≤ 1 := abs_le_of_sq zero_le_one (by linarith [mul_self_nonneg c])
    rcases h3 a with rfl | rfl | rfl <;> rcases h3 b with rfl | rfl | rfl <;>
      simp only [euler3, if_true, si, ci, sj, cj, sin_zero, cos_zero] <;>
      simp [-neg_mul, -mul_neg]
    · exact hc0
    · rw [show c * -v - A 0 1 = -(c * v) + -A 0 1 by ring]
      exact tri _ _ (by rw [abs_neg]; exact two' _ _ hcc hv1) (by rwa [abs_neg])
    · rw [show c * u - A 0 2 = c * u + -A 0 2 by ring]
      exact tri _ _ (two' _ _ hcc hu1) (by rwa [abs_neg])
    · exact single _ h10
    · rw [hu', show u - u * r = u * (1 - r) by ring]
      exact single _ (one _ hu1)
    · rw [hv', show v - v * r = v * (1 - r) by ring]
      exact single _ (one _ hv1)
    · rw [show -c - A 2 0 = -c + -A 2 0 by ring]
      exact tri _ _ (by rwa [abs_neg]) (by rwa [abs_neg])
    · rw [show A 0 0 * -v - A 2 1 = -(A 0 0 * v * (1 - r)) + -(A 1 0 * A 0 2) by
        rw [c21, hv']
        ring]
      exact tri _ _ (by rw [abs_neg]; exact one _ (two _ _ h00 hv1))
        (by rw [abs_neg]; exact two' _ _ h10 (le1 _ h02))
    · rw [show A 0 0 * u - A 2 2 = A 0 0 * u * (1 - r) + A 1 0 * A 0 1 by
        rw [c22, hu']
        ring]
      exact tri _ _ (one _ (two _ _ h00 hu1)) (two' _ _ h10 (le1 _ h01))

end Verif.Transf
