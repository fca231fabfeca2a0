import Verif.Geom.Props
import Verif.Transf.PropsQuatEuler

/-!
# Properties of rotations about an axis and of scalings
-/

namespace Verif.Geom

open Verif Real Matrix
open Verif.Transf (Mat4 Quat EPS IsRotation)

/-- The part of `v` along the unit vector `d`. -/
def par (d v : P3) : P3 := dot3 v d • d

/-- Rodrigues' formula, about the axis of unit direction `d` through `p`. -/
noncomputable def turn (angle : ℝ) (d p v : P3) : P3 :=
  p + par d (v - p) + cos angle • (v - p - par d (v - p)) + sin angle • cross d (v - p)

theorem rotationMatrix_moves {angle : ℝ} {direction d : P3} (h1 : unit3 direction = some d)
    (point : Option P3) : ∃ M, rotationMatrix angle direction point = some M ∧
      Moves M (turn angle d (point.getD 0)) := by
  cases point with
  | none =>
    refine ⟨_, by unfold rotationMatrix; rw [h1]; rfl, (moves_affine _ _).congr fun v => ?_⟩
    funext i
    fin_cases i <;>
      simp [turn, par, cross, Matrix.mulVec, dotProduct, Fin.sum_univ_three, outer, dot3, Matrix.vecHead,
        Matrix.vecTail] <;> ring
  | some p =>
    refine ⟨_, by unfold rotationMatrix; rw [h1]; rfl, (moves_affine _ _).congr fun v => ?_⟩
    funext i
    fin_cases i <;>
      simp [turn, par, cross, Matrix.mulVec, dotProduct, Fin.sum_univ_three, outer, dot3, Matrix.vecHead,
        Matrix.vecTail] <;> ring

theorem dot3_comm (u v : P3) : dot3 u v = dot3 v u := by unfold dot3; ring
theorem dot3_add (u v w : P3) : dot3 (u + v) w = dot3 u w + dot3 v w := by
  simp only [dot3, Pi.add_apply]; ring
theorem dot3_sub (u v w : P3) : dot3 (u - v) w = dot3 u w - dot3 v w := by
  simp only [dot3, Pi.sub_apply]; ring
theorem dot3_smul (c : ℝ) (v w : P3) : dot3 (c • v) w = c * dot3 v w := by
  simp only [dot3, Pi.smul_apply, smul_eq_mul]; ring
theorem dot3_smul' (c : ℝ) (v w : P3) : dot3 v (c • w) = c * dot3 v w := by
  simp only [dot3, Pi.smul_apply, smul_eq_mul]; ring
theorem dot3_sub' (u v w : P3) : dot3 w (u - v) = dot3 w u - dot3 w v := by
  simp only [dot3, Pi.sub_apply]; ring
theorem dot3_add' (u v w : P3) : dot3 w (u + v) = dot3 w u + dot3 w v := by
  simp only [dot3, Pi.add_apply]; ring
theorem cross_dot_left (d w : P3) : dot3 (cross d w) d = 0 := by
  simp [dot3, cross]; ring
theorem cross_dot_right (d w : P3) : dot3 (cross d w) w = 0 := by
  simp [dot3, cross]; ring
theorem cross_add (d u w : P3) : cross d (u + w) = cross d u + cross d w := by
  funext i; fin_cases i <;> simp [cross] <;> ring
theorem cross_sub (d u w : P3) : cross d (u - w) = cross d u - cross d w := by
  funext i; fin_cases i <;> simp [cross] <;> ring
theorem cross_smul (c : ℝ) (d w : P3) : cross d (c • w) = c • cross d w := by
  funext i; fin_cases i <;> simp [cross] <;> ring
theorem cross_smul' (c : ℝ) (d w : P3) : cross (c • d) w = c • cross d w := by
  funext i; fin_cases i <;> simp [cross] <;> ring
theorem cross_self (d : P3) : cross d d = 0 := by
  funext i; fin_cases i <;> simp [cross] <;> ring
theorem cross_cross {d : P3} (h : dot3 d d = 1) (w : P3) : cross d (cross d w) = par d w - w := by
  unfold dot3 at h
  funext i
  fin_cases i <;> simp [cross, par, dot3]
  · linear_combination -(w 0) * h
  · linear_combination -(w 1) * h
  · linear_combination -(w 2) * h
theorem dot3_cross_cross (d u w : P3) :
    dot3 (cross d u) (cross d w) = dot3 d d * dot3 u w - dot3 u d * dot3 w d := by
  simp [dot3, cross]; ring

/-- The component along the axis, and what remains, of the result of a rotation. -/
theorem turn_sub {d : P3} (angle : ℝ) (p v : P3) :
    turn angle d p v - p = par d (v - p) + cos angle • (v - p - par d (v - p)) +
      sin angle • cross d (v - p) := by
  unfold turn
  funext i
  simp only [Pi.sub_apply, Pi.add_apply]
  ring

theorem turn_par {d : P3} (hd : dot3 d d = 1) (angle : ℝ) (p v : P3) :
    par d (turn angle d p v - p) = par d (v - p) := by
  rw [turn_sub]
  unfold par
  congr 1
  simp only [dot3_add, dot3_smul, dot3_sub, cross_dot_left, hd]
  ring

theorem turn_turn {d : P3} (hd : dot3 d d = 1) (a b : ℝ) (p v : P3) :
    turn a d p (turn b d p v) = turn (a + b) d p v := by
  have hc : cross d (par d (v - p)) = 0 := by unfold par; rw [cross_smul, cross_self, smul_zero]
  rw [show turn a d p (turn b d p v) = p + par d (turn b d p v - p) +
    cos a • (turn b d p v - p - par d (turn b d p v - p)) + sin a • cross d (turn b d p v - p) from rfl]
  rw [turn_par hd, turn_sub]
  unfold turn
  generalize v - p = x at hc ⊢
  rw [cross_add, cross_add, cross_smul, cross_smul, cross_sub, hc, cross_cross hd, cos_add, sin_add]
  funext i
  simp only [Pi.sub_apply, Pi.add_apply, Pi.smul_apply, smul_eq_mul, Pi.zero_apply]
  ring

theorem turn_dot {d : P3} (hd : dot3 d d = 1) (a : ℝ) (p u v : P3) :
    dot3 (turn a d p u - p) (turn a d p v - p) = dot3 (u - p) (v - p) := by
  rw [turn_sub, turn_sub]
  set x := u - p
  set y := v - p
  have e1 : ∀ z : P3, dot3 z d = dot3 d z := fun z => dot3_comm z d
  have e2 : dot3 d (cross d y) = 0 := by rw [dot3_comm]; exact cross_dot_left d y
  have e3 : dot3 d (cross d x) = 0 := by rw [dot3_comm]; exact cross_dot_left d x
  have e4 : dot3 (cross d x) y = -dot3 x (cross d y) := by simp [dot3, cross]; ring
  simp only [par, dot3_add, dot3_add', dot3_smul, dot3_smul', dot3_sub, dot3_sub', hd, e1 x, e1 y,
    e1 (cross d x), e2, e3, e4, dot3_cross_cross]
  have := sin_sq_add_cos_sq a
  linear_combination (dot3 x y - dot3 d x * dot3 d y) * this

theorem dist2_eq (u v : P3) : dist2 u v = dot3 (u - v) (u - v) := by
  simp only [dist2, dot3, Pi.sub_apply]; ring

theorem turn_dist {d : P3} (hd : dot3 d d = 1) (a : ℝ) (p u v : P3) :
    dist2 (turn a d p u) (turn a d p v) = dist2 u v := by
  have e : ∀ x y : P3, dist2 x y = dot3 (x - p) (x - p) - 2 * dot3 (x - p) (y - p) + dot3 (y - p) (y - p) := by
    intro x y; simp only [dist2, dot3, Pi.sub_apply]; ring
  rw [e, e, turn_dot hd, turn_dot hd, turn_dot hd]

/-- **C144.** `rotation_matrix` with a direction which is not null: the points of the axis do not move;
each point stays in the plane orthogonal to the axis, and all distances are kept; the arm of a point
(its position from the foot of the perpendicular to the axis) turns by the given angle, in the direct
sense about the axis. With a null direction the matrix has no numbers. -/
theorem C144_rotation (angle : ℝ) (direction : P3) (point : Option P3) :
    (direction = 0 → rotationMatrix angle direction point = none) ∧
    (direction ≠ 0 → ∃ M f, rotationMatrix angle direction point = some M ∧ Moves M f ∧
      (∀ t : ℝ, f (point.getD 0 + t • direction) = point.getD 0 + t • direction) ∧
      (∀ v, dot3 (f v - v) direction = 0) ∧ (∀ u v, dist2 (f u) (f v) = dist2 u v) ∧
      (∀ v (t : ℝ), dot3 (v - (point.getD 0 + t • direction)) direction = 0 →
        let c := point.getD 0 + t • direction
        dot3 (f v - c) (v - c) = cos angle * dot3 (v - c) (v - c) ∧
        (∃ s : ℝ, 0 < s ∧ s ^ 2 = dot3 direction direction ∧
          s • cross (v - c) (f v - c) = (sin angle * dot3 (v - c) (v - c)) • direction))) := by
  constructor
  · intro h
    unfold rotationMatrix
    rw [(unit3_spec direction).1 h]
    rfl
  · intro h
    obtain ⟨d, h1, hd, s, hs, rfl, hs2⟩ := (unit3_spec direction).2 h
    obtain ⟨M, hM, hmv⟩ := rotationMatrix_moves (angle := angle) h1 point
    refine ⟨M, _, hM, hmv, ?_, ?_, ?_, ?_⟩
    · intro t
      set p := point.getD 0
      unfold turn
      have e : p + t • s • d - p = (t * s) • d := by rw [add_sub_cancel_left, smul_smul]
      rw [e]
      have e2 : par d ((t * s) • d) = (t * s) • d := by unfold par; rw [dot3_smul, hd, mul_one]
      rw [e2, sub_self, smul_zero, cross_smul, cross_self, smul_zero, smul_zero, add_zero, add_zero, smul_smul]
    · intro v
      set p := point.getD 0
      have e : turn angle d p v - v = (turn angle d p v - p) - (v - p) := by
        funext i; simp only [Pi.sub_apply]; ring
      rw [e, dot3_smul', dot3_sub, turn_sub]
      simp only [par, dot3_add, dot3_smul, dot3_sub, cross_dot_left, hd]
      ring
    · exact fun u v => turn_dist hd _ _ _ _
    · intro v t ht
      set p := point.getD 0
      simp only []
      have hx : dot3 (v - (p + t • s • d)) d = 0 := by
        rw [dot3_smul'] at ht
        exact (mul_eq_zero.1 ht).resolve_left hs.ne'
      set x := v - (p + t • s • d) with hxd
      have hvp : v - p = x + (t * s) • d := by
        rw [hxd]; funext i; simp only [Pi.sub_apply, Pi.add_apply, Pi.smul_apply, smul_eq_mul]; ring
      have hf : turn angle d p v - (p + t • s • d) = cos angle • x + sin angle • cross d x := by
        have e : turn angle d p v - (p + t • s • d) = (turn angle d p v - p) - (t * s) • d := by
          funext i; simp only [Pi.sub_apply, Pi.add_apply, Pi.smul_apply, smul_eq_mul]; ring
        have e2 : par d (x + (t * s) • d) = (t * s) • d := by
          unfold par; rw [dot3_add, dot3_smul, hd, hx]; simp
        rw [e, turn_sub, hvp, e2, cross_add, cross_smul, cross_self]
        funext i; simp only [Pi.sub_apply, Pi.add_apply, Pi.smul_apply, smul_eq_mul, Pi.zero_apply]; ring
      rw [hf]
      refine ⟨?_, s, hs, hs2, ?_⟩
      · rw [dot3_add, dot3_smul, dot3_smul, cross_dot_right]; ring
      · have e3 : cross x (cross d x) = dot3 x x • d := by
          unfold dot3 at hx
          funext i
          fin_cases i <;> simp [cross, dot3]
          · linear_combination -(x 0) * hx
          · linear_combination -(x 1) * hx
          · linear_combination -(x 2) * hx
        rw [cross_add, cross_smul, cross_smul, cross_self, e3]
        funext i; simp only [Pi.add_apply, Pi.smul_apply, smul_eq_mul, Pi.zero_apply]; ring

/-- **C144.** Rotations about one axis: angles add, turning back undoes, complete turns do nothing,
and the opposite angle about the opposite direction is the same rotation. -/
theorem C144_compose (a b : ℝ) (direction : P3) (point : Option P3) (hd : direction ≠ 0) :
    ∃ A B AB, rotationMatrix a direction point = some A ∧ rotationMatrix b direction point = some B ∧
      rotationMatrix (a + b) direction point = some AB ∧ A * B = AB ∧
      rotationMatrix (a + 2 * π) direction point = some A ∧
      rotationMatrix (-a) (-direction) point = some A ∧
      (∃ I, rotationMatrix (-a) direction point = some I ∧ A * I = 1) := by
  obtain ⟨d, h1, h2, s, hs, hsd, hs2⟩ := (unit3_spec direction).2 hd
  obtain ⟨A, hA, mA⟩ := rotationMatrix_moves (angle := a) h1 point
  obtain ⟨B, hB, mB⟩ := rotationMatrix_moves (angle := b) h1 point
  obtain ⟨AB, hAB, mAB⟩ := rotationMatrix_moves (angle := a + b) h1 point
  obtain ⟨A', hA', mA'⟩ := rotationMatrix_moves (angle := a + 2 * π) h1 point
  obtain ⟨I, hI, mI⟩ := rotationMatrix_moves (angle := -a) h1 point
  have hneg : unit3 (-direction) = some (-d) := by
    have e : norm3 (-direction) = norm3 direction := by unfold norm3 dot3; simp
    unfold unit3 at h1 ⊢
    rw [e]
    split_ifs at h1 ⊢ with h0
    rw [Option.some.injEq] at h1 ⊢
    rw [← h1]
    funext i
    simp only [Pi.neg_apply]
    ring
  obtain ⟨A'', hA'', mA''⟩ := rotationMatrix_moves (angle := -a) hneg point
  refine ⟨A, B, AB, hA, hB, hAB, ?_, ?_, ?_, I, hI, ?_⟩
  · exact Moves.unique (mA.mul mB) (mAB.congr fun v => (turn_turn h2 a b _ v).symm)
  · rw [hA', Moves.unique mA' (mA.congr fun v => ?_)]
    unfold turn
    rw [cos_add_two_pi, sin_add_two_pi]
  · rw [hA'', Moves.unique mA'' (mA.congr fun v => ?_)]
    have e : ∀ w, par (-d) w = par d w := by
      intro w; funext i; simp only [par, dot3, Pi.smul_apply, Pi.neg_apply, smul_eq_mul]; ring
    unfold turn
    rw [cos_neg, sin_neg, e]
    funext i
    fin_cases i <;> simp [cross] <;> ring
  · refine Moves.unique (mA.mul mI) (moves_one.congr fun v => ?_)
    simp only [Function.comp_apply]
    rw [turn_turn h2, add_neg_cancel]
    unfold turn
    rw [cos_zero, sin_zero]
    funext i
    simp

/-- **C144.** Without a point `rotation_matrix` is the rotation matrix of the quaternion which
`quaternion_about_axis` gives, when the direction is not tiny. -/
theorem C144_quaternion (angle : ℝ) (direction : P3) (h : EPS < norm3 direction) :
    rotationMatrix angle direction none = some (Transf.quatMatrix (Transf.quatAboutAxis angle direction)) ∧
    IsRotation (Transf.quatMatrix (Transf.quatAboutAxis angle direction)) := by
  refine ⟨?_, (Transf.C93_rotation _).1⟩
  have hn : norm3 direction ≠ 0 := (lt_trans Transf.EPS_pos h).ne'
  have hlen : Transf.norm4 ![direction 0, direction 1, direction 2, 0] = norm3 direction := by
    unfold Transf.norm4 norm3 Transf.dot4 dot3; simp
  have h1 : unit3 direction = some fun i => direction i / norm3 direction := by
    unfold unit3; rw [if_neg hn]
  set d : P3 := fun i => direction i / norm3 direction with hd
  have hdd : dot3 d d = 1 := by
    obtain ⟨u, hu, hu1, -⟩ := (unit3_spec direction).2 (by rintro rfl; simp [norm3, dot3] at hn)
    rw [h1, Option.some.injEq] at hu
    rw [hu, hu1]
  have hq : Transf.quatAboutAxis angle direction =
      ![d 0 * sin (angle / 2), d 1 * sin (angle / 2), d 2 * sin (angle / 2), cos (angle / 2)] := by
    unfold Transf.quatAboutAxis
    simp only []
    rw [hlen, if_pos h]
    funext i
    fin_cases i <;> simp [Transf.setAt, hd] <;> ring
  have hsc := sin_sq_add_cos_sq (angle / 2)
  have hdd' : d 0 * d 0 + d 1 * d 1 + d 2 * d 2 = 1 := hdd
  have hq1 : Transf.dot4 (Transf.quatAboutAxis angle direction) (Transf.quatAboutAxis angle direction) = 1 := by
    rw [hq]
    simp [Transf.dot4]
    linear_combination (sin (angle / 2)) ^ 2 * hdd' + hsc
  rw [Transf.quatMatrix_eq (by rw [hq1]; exact Transf.EPS_lt_one.le), hq1, hq]
  unfold rotationMatrix
  rw [h1]
  have hcos : cos angle = 1 - 2 * sin (angle / 2) ^ 2 := by
    have := cos_two_mul (angle / 2)
    rw [show 2 * (angle / 2) = angle by ring] at this
    linarith
  have hsin : sin angle = 2 * sin (angle / 2) * cos (angle / 2) := by
    have := sin_two_mul (angle / 2)
    rwa [show 2 * (angle / 2) = angle by ring] at this
  simp only [Option.bind_eq_bind, Option.bind_some, Option.pure_def, Option.some.injEq, hcos, hsin]
  ext i j
  fin_cases i <;> fin_cases j <;> simp [affine, outer, Matrix.vecHead, Matrix.vecTail]
  · linear_combination (2 * sin (angle / 2) ^ 2) * hdd'
  · ring
  · ring
  · ring
  · linear_combination (2 * sin (angle / 2) ^ 2) * hdd'
  · ring
  · ring
  · ring
  · linear_combination (2 * sin (angle / 2) ^ 2) * hdd'

/-! ## C145 -/

/-- **C145.** `scale_matrix` without direction: every vector from the origin is multiplied by the
factor. With a direction: the part along the direction is multiplied, the other part kept. The
origin does not move; factors multiply; with a null direction there are no numbers. -/
theorem C145_scale (factor : ℝ) (origin direction : Option P3) :
    (direction = some 0 → scaleMatrix factor origin direction = none) ∧
    (direction ≠ some 0 → ∃ M f, scaleMatrix factor origin direction = some M ∧ Moves M f ∧
      (direction = none → ∀ v, f v - origin.getD 0 = factor • (v - origin.getD 0)) ∧
      (∀ d, direction = some d →
        (∀ v, Along d (f v - v) ∧
          dot3 (f v - origin.getD 0) d = factor * dot3 (v - origin.getD 0) d)) ∧
      f (origin.getD 0) = origin.getD 0 ∧
      ∀ g, ∃ N, scaleMatrix g origin direction = some N ∧ scaleMatrix (factor * g) origin direction = some (M * N)) := by
  constructor
  · rintro rfl
    unfold scaleMatrix
    simp only [(unit3_spec 0).1 rfl]
    rfl
  · intro h
    cases direction with
    | none =>
      have key : ∀ g : ℝ, ∃ M, scaleMatrix g origin none = some M ∧
          Moves M (fun v => origin.getD 0 + g • (v - origin.getD 0)) := by
        intro g
        cases origin with
        | none =>
          refine ⟨_, rfl, (moves_affine _ _).congr fun v => ?_⟩
          funext i
          fin_cases i <;> simp [Matrix.mulVec, dotProduct, Fin.sum_univ_three]
        | some o =>
          refine ⟨_, rfl, (moves_affine _ _).congr fun v => ?_⟩
          funext i
          fin_cases i <;> simp [Matrix.mulVec, dotProduct, Fin.sum_univ_three] <;> ring
      obtain ⟨M, hM, mM⟩ := key factor
      refine ⟨M, _, hM, mM, ?_, by simp, by simp, ?_⟩
      · intro _ v; simp
      · intro g
        obtain ⟨N, hN, mN⟩ := key g
        obtain ⟨Q, hQ, mQ⟩ := key (factor * g)
        refine ⟨N, hN, ?_⟩
        rw [hQ, Moves.unique mQ ((mM.mul mN).congr fun v => ?_)]
        funext i
        simp only [Function.comp_apply, Pi.sub_apply, Pi.add_apply, Pi.smul_apply, smul_eq_mul]
        ring
    | some dir =>
      have hdir : dir ≠ 0 := fun e => h (by rw [e])
      obtain ⟨d, h1, h2, s, hs, hsd, -⟩ := (unit3_spec dir).2 hdir
      have key : ∀ g : ℝ, ∃ M, scaleMatrix g origin (some dir) = some M ∧
          Moves M (fun v => v - (1 - g) • par d (v - origin.getD 0)) := by
        intro g
        cases origin with
        | none =>
          refine ⟨_, by unfold scaleMatrix; simp only [h1]; rfl, (moves_affine _ _).congr fun v => ?_⟩
          funext i
          fin_cases i <;> simp [Matrix.mulVec, dotProduct, Fin.sum_univ_three, outer, par, dot3] <;> ring
        | some o =>
          refine ⟨_, by unfold scaleMatrix; simp only [h1]; rfl, (moves_affine _ _).congr fun v => ?_⟩
          funext i
          fin_cases i <;> simp [Matrix.mulVec, dotProduct, Fin.sum_univ_three, outer, par, dot3] <;> ring
      obtain ⟨M, hM, mM⟩ := key factor
      refine ⟨M, _, hM, mM, by simp, ?_, ?_, ?_⟩
      · intro d' hd' v
        obtain rfl : dir = d' := by simpa using hd'
        constructor
        · refine ⟨-(1 - factor) * dot3 (v - origin.getD 0) d / s, ?_⟩
          rw [hsd]
          funext i
          simp only [par, Pi.sub_apply, Pi.smul_apply, smul_eq_mul]
          field_simp
          ring
        · rw [hsd]
          simp only [par, dot3_smul', dot3_sub, dot3_smul, h2]
          ring
      · simp [par, dot3]
      · intro g
        obtain ⟨N, hN, mN⟩ := key g
        obtain ⟨Q, hQ, mQ⟩ := key (factor * g)
        refine ⟨N, hN, ?_⟩
        rw [hQ, Moves.unique mQ ((mM.mul mN).congr fun v => ?_)]
        have : dot3 (v - (1 - g) • par d (v - origin.getD 0) - origin.getD 0) d = g * dot3 (v - origin.getD 0) d := by
          simp only [par, dot3_sub, dot3_smul, h2]; ring
        funext i
        simp only [Function.comp_apply]
        unfold par at this ⊢
        rw [this]
        simp only [Pi.sub_apply, Pi.smul_apply, smul_eq_mul]
        ring

end Verif.Geom
