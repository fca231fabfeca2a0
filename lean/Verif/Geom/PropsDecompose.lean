import Verif.Geom.Decompose
import Verif.Geom.PropsRotation
import Verif.Transf.PropsNames

/-!
# `decompose_matrix` and `compose_matrix` (C152)
-/

namespace Verif.Geom

open Verif Real Matrix
open Verif.Transf (Mat4 Mat3 EPS atan2 axisRot3 euler3 Rot3 block)

/-! ## Orthonormalisation -/

/-- Vectors of norm one, orthogonal to each other. -/
structure Ortho (u0 u1 u2 : P3) : Prop where
  h00 : dot3 u0 u0 = 1
  h11 : dot3 u1 u1 = 1
  h22 : dot3 u2 u2 = 1
  h01 : dot3 u0 u1 = 0
  h02 : dot3 u0 u2 = 0
  h12 : dot3 u1 u2 = 0

theorem exists_unit {v : P3} (hv : v ≠ 0) : ∃ (s : ℝ) (u : P3), 0 < s ∧ dot3 u u = 1 ∧ v = s • u := by
  obtain ⟨u, -, h1, s, h2, h3, -⟩ := (unit3_spec v).2 hv
  exact ⟨s, u, h2, h1, h3⟩

theorem norm3_smul {s : ℝ} (hs : 0 < s) {u : P3} (hu : dot3 u u = 1) : norm3 (s • u) = s := by
  unfold norm3
  rw [dot3_smul, dot3_smul', hu, mul_one]
  exact Real.sqrt_mul_self hs.le

theorem smul_div' {s : ℝ} (hs : 0 < s) (u : P3) (i : Fin 3) : (s • u) i / s = u i := by
  simp only [Pi.smul_apply, smul_eq_mul]
  field_simp

theorem orthonormalise_eq {s h u0 u1 u2 : P3} (o : Ortho u0 u1 u2) (p : ∀ i, 0 < s i) :
    orthonormalise (s 0 • u0) (s 1 • (h 0 • u0 + u1)) (s 2 • (h 1 • u0 + h 2 • u1 + u2)) = ⟨s, h, u0, u1, u2⟩ := by
  have o10 : dot3 u1 u0 = 0 := by rw [dot3_comm]; exact o.h01
  have d1 : dot3 u0 (s 1 • (h 0 • u0 + u1)) = s 1 * h 0 := by
    rw [dot3_smul', dot3_add', dot3_smul', o.h00, o.h01]; ring
  have e1 : ∀ i, (s 1 • (h 0 • u0 + u1)) i - u0 i * (s 1 * h 0) = (s 1 • u1) i := by
    intro i; simp only [Pi.smul_apply, Pi.add_apply, smul_eq_mul]; ring
  have d2 : dot3 u0 (s 2 • (h 1 • u0 + h 2 • u1 + u2)) = s 2 * h 1 := by
    rw [dot3_smul', dot3_add', dot3_add', dot3_smul', dot3_smul', o.h00, o.h01, o.h02]; ring
  have e2 : ∀ i, (s 2 • (h 1 • u0 + h 2 • u1 + u2)) i - u0 i * (s 2 * h 1) = (s 2 • (h 2 • u1 + u2)) i := by
    intro i; simp only [Pi.smul_apply, Pi.add_apply, smul_eq_mul]; ring
  have d3 : dot3 u1 (s 2 • (h 2 • u1 + u2)) = s 2 * h 2 := by
    rw [dot3_smul', dot3_add', dot3_smul', o.h11, o.h12]; ring
  have e3 : ∀ i, (s 2 • (h 2 • u1 + u2)) i - u1 i * (s 2 * h 2) = (s 2 • u2) i := by
    intro i; simp only [Pi.smul_apply, Pi.add_apply, smul_eq_mul]; ring
  have n1 := (p 1).ne'
  have n2 := (p 2).ne'
  unfold orthonormalise
  simp only [norm3_smul (p 0) o.h00, smul_div' (p 0), d1, e1, norm3_smul (p 1) o.h11, smul_div' (p 1), d2, e2, d3, e3,
    norm3_smul (p 2) o.h22, smul_div' (p 2), mul_div_cancel_left₀ _ n1, mul_div_cancel_left₀ _ n2]
  congr 1
  · funext i; fin_cases i <;> rfl
  · funext i; fin_cases i <;> rfl

theorem exists_ortho {r0 r1 r2 : P3} (hd : dot3 r0 (cross r1 r2) ≠ 0) : ∃ s h u0 u1 u2 : P3,
    Ortho u0 u1 u2 ∧ (∀ i, 0 < s i) ∧ r0 = s 0 • u0 ∧ r1 = s 1 • (h 0 • u0 + u1) ∧
      r2 = s 2 • (h 1 • u0 + h 2 • u1 + u2) := by
  have n0 : r0 ≠ 0 := by
    rintro rfl
    exact hd (by simp [dot3])
  obtain ⟨s0, u0, p0, h00, e0⟩ := exists_unit n0
  have n1 : r1 - dot3 u0 r1 • u0 ≠ 0 := by
    intro h
    rw [sub_eq_zero] at h
    apply hd
    generalize dot3 u0 r1 = c at h
    rw [e0, h]
    simp [dot3, cross]
    ring
  obtain ⟨s1, u1, p1, h11, e1⟩ := exists_unit n1
  have h01 : dot3 u0 u1 = 0 := by
    have := congrArg (dot3 u0) e1
    rw [dot3_sub', dot3_smul', h00, dot3_smul', mul_one, sub_self] at this
    exact (mul_eq_zero.1 this.symm).resolve_left p1.ne'
  have h10 : dot3 u1 u0 = 0 := by rw [dot3_comm]; exact h01
  have n2 : r2 - dot3 u0 r2 • u0 - dot3 u1 r2 • u1 ≠ 0 := by
    intro h
    rw [sub_sub, sub_eq_zero] at h
    rw [sub_eq_iff_eq_add] at e1
    apply hd
    generalize dot3 u0 r2 = c at h
    generalize dot3 u1 r2 = c' at h
    generalize dot3 u0 r1 = c'' at e1
    rw [e0, h, e1]
    simp [dot3, cross]
    ring
  obtain ⟨s2, u2, p2, h22, e2⟩ := exists_unit n2
  have h02 : dot3 u0 u2 = 0 := by
    have := congrArg (dot3 u0) e2
    rw [dot3_sub', dot3_sub', dot3_smul', h00, dot3_smul', dot3_smul', h01, mul_one, sub_self, mul_zero, sub_zero] at this
    exact (mul_eq_zero.1 this.symm).resolve_left p2.ne'
  have h12 : dot3 u1 u2 = 0 := by
    have := congrArg (dot3 u1) e2
    rw [dot3_sub', dot3_sub', dot3_smul', h10, dot3_smul', h11, dot3_smul', mul_one, mul_zero, sub_zero, sub_self] at this
    exact (mul_eq_zero.1 this.symm).resolve_left p2.ne'
  refine ⟨![s0, s1, s2], ![dot3 u0 r1 / s1, dot3 u0 r2 / s2, dot3 u1 r2 / s2], u0, u1, u2,
    ⟨h00, h11, h22, h01, h02, h12⟩, ?_, e0, ?_, ?_⟩
  · intro i
    fin_cases i
    · exact p0
    · exact p1
    · exact p2
  · rw [sub_eq_iff_eq_add] at e1
    generalize dot3 u0 r1 = c at *
    rw [e1]
    funext i
    simp
    field_simp
    ring
  · rw [sub_eq_iff_eq_add, sub_eq_iff_eq_add] at e2
    generalize dot3 u0 r2 = c at *
    generalize dot3 u1 r2 = c' at *
    rw [e2]
    funext i
    simp
    field_simp
    ring

/-- The matrix with the given columns. -/
def columns (c0 c1 c2 : P3) : Mat3 := Matrix.of fun i j => ![c0 i, c1 i, c2 i] j

theorem columns_det (c0 c1 c2 : P3) : (columns c0 c1 c2).det = dot3 c0 (cross c1 c2) := by
  rw [Matrix.det_fin_three]
  simp [columns, dot3, cross]
  ring

theorem ortho_sq {u0 u1 u2 : P3} (o : Ortho u0 u1 u2) : (columns u0 u1 u2).det ^ 2 = 1 := by
  have h : (columns u0 u1 u2)ᵀ * columns u0 u1 u2 = 1 := by
    obtain ⟨h00, h11, h22, h01, h02, h12⟩ := o
    have h10 : dot3 u1 u0 = 0 := by rw [dot3_comm]; exact h01
    have h20 : dot3 u2 u0 = 0 := by rw [dot3_comm]; exact h02
    have h21 : dot3 u2 u1 = 0 := by rw [dot3_comm]; exact h12
    unfold dot3 at *
    ext i j
    fin_cases i <;> fin_cases j <;>
      simp [columns, Matrix.mul_apply, Fin.sum_univ_three, *]
  have := congrArg Matrix.det h
  rw [Matrix.det_mul, Matrix.det_transpose, Matrix.det_one] at this
  rw [pow_two]
  exact this

theorem ortho_rot {u0 u1 u2 : P3} (o : Ortho u0 u1 u2) (hd : dot3 u0 (cross u1 u2) = 1) :
    Rot3 (columns u0 u1 u2) where
  orthogonal := by
    have h : (columns u0 u1 u2)ᵀ * columns u0 u1 u2 = 1 := by
      obtain ⟨h00, h11, h22, h01, h02, h12⟩ := o
      have h10 : dot3 u1 u0 = 0 := by rw [dot3_comm]; exact h01
      have h20 : dot3 u2 u0 = 0 := by rw [dot3_comm]; exact h02
      have h21 : dot3 u2 u1 = 0 := by rw [dot3_comm]; exact h12
      unfold dot3 at *
      ext i j
      fin_cases i <;> fin_cases j <;>
        simp [columns, Matrix.mul_apply, Fin.sum_univ_three, *]
    exact mul_eq_one_comm.1 h
  det := by rw [columns_det, hd]

/-! ## Angles -/

theorem null_others {x y z : ℝ} (h : x * x + y * y + z * z = 1) (hz : z ^ 2 = 1) : x = 0 ∧ y = 0 := by
  constructor <;> nlinarith [sq_nonneg x, sq_nonneg y]

theorem abs_le_others {x y z : ℝ} (h : x * x + y * y + z * z = 1) : -1 ≤ -z ∧ -z ≤ 1 := by
  constructor <;> nlinarith [sq_nonneg x, sq_nonneg y]

/-- The angles of `decompose_matrix` are those of the rotation. -/
theorem rowAngles_spec {s h u0 u1 u2 : P3} (hr : Rot3 (columns u0 u1 u2)) :
    ∃ a, rowAngles ⟨s, h, u0, u1, u2⟩ = .ok a ∧ euler3 false (a 0) (a 1) (a 2) = columns u0 u1 u2 ∧
      (-π < a 0 ∧ a 0 ≤ π) ∧ (-(π / 2) ≤ a 1 ∧ a 1 ≤ π / 2) ∧ (-π < a 2 ∧ a 2 ≤ π) := by
  have h3 : ∀ x : Fin 3, x = 0 ∨ x = 1 ∨ x = 2 := by decide
  have e0 : ∀ i, columns u0 u1 u2 i 0 = u0 i := fun i => rfl
  have e1 : ∀ i, columns u0 u1 u2 i 1 = u1 i := fun i => rfl
  have e2 : ∀ i, columns u0 u1 u2 i 2 = u2 i := fun i => rfl
  generalize columns u0 u1 u2 = A at *
  obtain ⟨⟨c00, c01, c02⟩, ⟨c10, c11, c12⟩, c20, c21, c22⟩ := hr.cof
  have r22 := hr.row 2 2
  have k00 := hr.col 0 0
  have k01 := hr.col 0 1
  have k02 := hr.col 0 2
  have k11 := hr.col 1 1
  have r11 := hr.row 1 1
  simp at r22 k00 k01 k02 k11 r11
  unfold rowAngles
  simp only [← e0, ← e1, ← e2]
  have hab : -1 ≤ -A 2 0 ∧ -A 2 0 ≤ 1 := abs_le_others k00
  rw [if_neg (by rintro (h | h) <;> linarith [hab.1, hab.2])]
  have hs : sin (arcsin (-A 2 0)) = -A 2 0 := sin_arcsin hab.1 hab.2
  have hc0 : 0 ≤ cos (arcsin (-A 2 0)) := cos_arcsin_nonneg _
  have hsc := sin_sq_add_cos_sq (arcsin (-A 2 0))
  rw [hs] at hsc
  have hrange : -(π / 2) ≤ arcsin (-A 2 0) ∧ arcsin (-A 2 0) ≤ π / 2 := ⟨neg_pi_div_two_le_arcsin _, arcsin_le_pi_div_two _⟩
  generalize arcsin (-A 2 0) = t at *
  by_cases hc : cos t = 0
  · rw [if_neg (not_not.2 hc)]
    refine ⟨_, rfl, ?_, Transf.atan2_range _ _, hrange, by simp [pi_pos], by simp [pi_pos.le]⟩
    rw [hc] at hsc
    have h20 : A 2 0 ^ 2 = 1 := by linarith
    obtain ⟨z0, z1⟩ := null_others (x := A 0 0) (y := A 1 0) (z := A 2 0) (by linarith) h20
    obtain ⟨z2, z3⟩ := null_others (x := A 2 1) (y := A 2 2) (z := A 2 0) (by linarith) h20
    obtain ⟨s1, c1⟩ := Transf.atan2_of_norm one_pos (x := A 1 1) (y := -A 1 2) (by rw [z1] at r11; linarith)
    rw [div_one] at s1 c1
    ext a b
    rcases h3 a with rfl | rfl | rfl <;> rcases h3 b with rfl | rfl | rfl <;>
      simp only [euler3, Bool.false_eq_true, if_false] <;> simp [s1, c1, hs, hc, z0, z1, z2, z3]
    · rw [c01, z1]; ring
    · rw [c02, z1]; ring
  · rw [if_pos hc]
    refine ⟨_, rfl, ?_, Transf.atan2_range _ _, hrange, Transf.atan2_range _ _⟩
    have hpos : 0 < cos t := lt_of_le_of_ne hc0 (Ne.symm hc)
    simp only [Matrix.cons_val_zero, Matrix.cons_val_one, Matrix.cons_val]
    generalize hct : cos t = c at *
    have hcc : c * c = A 0 0 * A 0 0 + A 1 0 * A 1 0 := by linear_combination hsc - k00
    obtain ⟨s1, c1⟩ := Transf.atan2_of_norm hpos (x := A 2 2) (y := A 2 1) (by linarith)
    obtain ⟨s3, c3⟩ := Transf.atan2_of_norm hpos (x := A 0 0) (y := A 1 0) (by linarith)
    have hne := hpos.ne'
    ext a b
    rcases h3 a with rfl | rfl | rfl <;> rcases h3 b with rfl | rfl | rfl <;>
      simp only [euler3, Bool.false_eq_true, if_false, s1, c1, hs, s3, c3, hct] <;> simp <;> field_simp
    · rw [pow_two, hcc]
      linear_combination (-A 0 0) * k01 - A 1 0 * c22
    · rw [pow_two, hcc]
      linear_combination (-A 0 0) * k02 + A 1 0 * c21
    · rw [pow_two, hcc]
      linear_combination (-A 1 0) * k01 + A 0 0 * c22
    · rw [pow_two, hcc]
      linear_combination (-A 1 0) * k02 - A 0 0 * c21

/-! ## Sign -/

theorem ortho_neg {u0 u1 u2 : P3} (o : Ortho u0 u1 u2) : Ortho (-u0) (-u1) (-u2) := by
  obtain ⟨h00, h11, h22, h01, h02, h12⟩ := o
  constructor <;> simp only [dot3, Pi.neg_apply, neg_mul_neg] <;> assumption

theorem det_neg (u0 u1 u2 : P3) : dot3 (-u0) (cross (-u1) (-u2)) = -dot3 u0 (cross u1 u2) := by
  simp [dot3, cross]
  ring

theorem direct_eq {s h u0 u1 u2 : P3} :
    (dot3 u0 (cross u1 u2) = 1 → direct ⟨s, h, u0, u1, u2⟩ = ⟨s, h, u0, u1, u2⟩) ∧
    (dot3 u0 (cross u1 u2) = -1 → direct ⟨s, h, u0, u1, u2⟩ = ⟨-s, h, -u0, -u1, -u2⟩) := by
  constructor
  · intro hd
    unfold direct
    rw [if_neg (by simp only [hd]; norm_num)]
  · intro hd
    unfold direct
    rw [if_pos (by simp only [hd]; norm_num)]
    congr 1 <;> funext i <;> simp

/-- Orthonormalisation and sign. -/
theorem rows_spec {r0 r1 r2 : P3} (hd : dot3 r0 (cross r1 r2) ≠ 0) : ∃ s h u0 u1 u2 : P3,
    direct (orthonormalise r0 r1 r2) = ⟨s, h, u0, u1, u2⟩ ∧ Rot3 (columns u0 u1 u2) ∧ r0 = s 0 • u0 ∧
      r1 = s 1 • (h 0 • u0 + u1) ∧ r2 = s 2 • (h 1 • u0 + h 2 • u1 + u2) ∧
      (0 < dot3 r0 (cross r1 r2) → ∀ i, 0 < s i) ∧ (dot3 r0 (cross r1 r2) < 0 → ∀ i, s i < 0) := by
  obtain ⟨s, h, u0, u1, u2, o, p, e0, e1, e2⟩ := exists_ortho hd
  have hdet : dot3 r0 (cross r1 r2) = s 0 * s 1 * s 2 * dot3 u0 (cross u1 u2) := by
    rw [e0, e1, e2]
    simp [dot3, cross]
    ring
  have hpos : 0 < s 0 * s 1 * s 2 := mul_pos (mul_pos (p 0) (p 1)) (p 2)
  have hsq := ortho_sq o
  rw [columns_det] at hsq
  have hz : (dot3 u0 (cross u1 u2) - 1) * (dot3 u0 (cross u1 u2) + 1) = 0 := by linear_combination hsq
  rcases mul_eq_zero.1 hz with h1 | h1
  · have h1 : dot3 u0 (cross u1 u2) = 1 := by linarith
    refine ⟨s, h, u0, u1, u2, ?_, ortho_rot o h1, e0, e1, e2, fun _ => p, ?_⟩
    · rw [e0, e1, e2, orthonormalise_eq o p, direct_eq.1 h1]
    · rw [hdet, h1]
      intro h
      linarith
  · have h1 : dot3 u0 (cross u1 u2) = -1 := by linarith
    refine ⟨-s, h, -u0, -u1, -u2, ?_, ortho_rot (ortho_neg o) (by rw [det_neg, h1, neg_neg]), ?_, ?_, ?_, ?_,
      fun _ i => neg_neg_of_pos (p i)⟩
    · rw [e0, e1, e2, orthonormalise_eq o p, direct_eq.2 h1]
    · rw [e0]; funext i; simp
    · rw [e1]; funext i; simp; ring
    · rw [e2]; funext i; simp; ring
    · rw [hdet, h1]
      intro h
      linarith

/-! ## The parts of `compose_matrix` -/

/-- Scaling along the axes. -/
def stretch (s v : P3) : P3 := ![s 0 * v 0, s 1 * v 1, s 2 * v 2]

/-- Shears of the x-y, x-z and y-z axes. -/
def slant (h v : P3) : P3 := ![v 0 + h 0 * v 1 + h 1 * v 2, v 1 + h 2 * v 2, v 2]

/-- Rotations about the static x, y and z axes in turn. -/
noncomputable def turns (a v : P3) : P3 :=
  turn (a 2) ![0, 0, 1] 0 (turn (a 1) ![0, 1, 0] 0 (turn (a 0) ![1, 0, 0] 0 v))

/-- All parts but the perspective. -/
noncomputable def together (scale shear angles translate : P3) (v : P3) : P3 :=
  turns angles (slant shear (stretch scale v)) + translate

/-- The matrix of all parts but the perspective. -/
noncomputable def togetherMatrix (s h a t : P3) : Mat4 :=
  affine (euler3 false (a 0) (a 1) (a 2) * (!![1, h 0, h 1; 0, 1, h 2; 0, 0, 1] * !![s 0, 0, 0; 0, s 1, 0; 0, 0, s 2])) t

theorem moves_together (s h a t : P3) : Moves (togetherMatrix s h a t) (together s h a t) := by
  refine (moves_affine _ _).congr fun v => ?_
  unfold together
  congr 1
  rw [Transf.euler3_false]
  funext i
  fin_cases i <;>
    simp [turns, turn, par, cross, dot3, slant, stretch, axisRot3, Matrix.mulVec, dotProduct, Matrix.mul_apply,
      Fin.sum_univ_three, Matrix.vecHead, Matrix.vecTail] <;> ring

theorem affine_mul (A B : Mat3) (t : P3) : affine A t * affine B 0 = affine (A * B) t := by
  apply ext_hom
  intro v
  rw [← Matrix.mulVec_mulVec, moves_affine, moves_affine, moves_affine]
  simp only [← Matrix.mulVec_mulVec, add_zero]

theorem euler_affine (a : P3) : Transf.eulerMatrix (a 0) (a 1) (a 2) Transf.sxyz =
    .ok (affine (euler3 false (a 0) (a 1) (a 2)) 0) := by
  have := Transf.C109_meaning 's' 'x' 'y' 'z' (0, 0, 0, 0) (by decide) (a 0) (a 1) (a 2)
  refine this.trans ?_
  rw [if_pos rfl, Transf.homog3_mul, Transf.homog3_mul]
  congr 1
  rw [Transf.euler3_false]
  rfl

theorem composeMatrix_eq (scale shear angles translate : Option P3) (perspective : Option (Fin 4 → ℝ)) :
    composeMatrix scale shear angles translate perspective = .ok
      (let M := perspectivePart perspective 1 *
        togetherMatrix (scale.getD 1) (shear.getD 0) (angles.getD 0) (translate.getD 0);
      if M 3 3 = 0 then none else some (Matrix.of fun i j => M i j / M 3 3)) := by
  have one_aff : affine 1 0 = 1 := by
    ext i j
    fin_cases i <;> fin_cases j <;> simp [affine]
  have ht : ∀ M, translatePart translate M = M * affine 1 (translate.getD 0) := by
    intro M
    cases translate with
    | none => show M = M * affine 1 0; rw [one_aff, mul_one]
    | some t => rfl
  have ha : ∀ M, anglesPart angles M =
      .ok (M * affine (euler3 false (angles.getD 0 0) (angles.getD 0 1) (angles.getD 0 2)) 0) := by
    intro M
    cases angles with
    | none =>
      show Except.ok M = .ok (M * affine (euler3 false 0 0 0) 0)
      have : euler3 false 0 0 0 = 1 := by
        ext i j
        fin_cases i <;> fin_cases j <;> simp [euler3]
      rw [this, one_aff, mul_one]
    | some a =>
      show (Transf.eulerMatrix (a 0) (a 1) (a 2) Transf.sxyz).map (fun R => M * R) = _
      rw [euler_affine]
      rfl
  have hh : ∀ M, shearPart shear M =
      M * affine !![1, shear.getD 0 0, shear.getD 0 1; 0, 1, shear.getD 0 2; 0, 0, 1] 0 := by
    intro M
    cases shear with
    | none =>
      have : (!![1, 0, 0; 0, 1, 0; 0, 0, 1] : Mat3) = 1 := by
        ext i j
        fin_cases i <;> fin_cases j <;> simp
      show M = M * affine !![1, 0, 0; 0, 1, 0; 0, 0, 1] 0
      rw [this, one_aff, mul_one]
    | some h =>
      rfl
  have hs : ∀ M, scalePart scale M =
      M * affine !![scale.getD 1 0, 0, 0; 0, scale.getD 1 1, 0; 0, 0, scale.getD 1 2] 0 := by
    intro M
    cases scale with
    | none =>
      have : (!![1, 0, 0; 0, 1, 0; 0, 0, 1] : Mat3) = 1 := by
        ext i j
        fin_cases i <;> fin_cases j <;> simp
      show M = M * affine !![1, 0, 0; 0, 1, 0; 0, 0, 1] 0
      rw [this, one_aff, mul_one]
    | some h =>
      rfl
  unfold composeMatrix
  rw [ha, ht]
  show Except.ok _ = Except.ok _
  congr 1
  simp only [hh, hs]
  have : ∀ P : Mat4, P * affine 1 (translate.getD 0) *
      affine (euler3 false (angles.getD 0 0) (angles.getD 0 1) (angles.getD 0 2)) 0 *
      affine !![1, shear.getD 0 0, shear.getD 0 1; 0, 1, shear.getD 0 2; 0, 0, 1] 0 *
      affine !![scale.getD 1 0, 0, 0; 0, scale.getD 1 1, 0; 0, 0, scale.getD 1 2] 0 =
      P * togetherMatrix (scale.getD 1) (shear.getD 0) (angles.getD 0) (translate.getD 0) := by
    intro P
    unfold togetherMatrix
    rw [mul_assoc, affine_mul, mul_assoc, affine_mul, mul_assoc, affine_mul, one_mul]
  rw [this]

/-- **C152.** `compose_matrix` without perspective: scaling along the axes, then the shears, then the rotations
about the static axes, then the translation; parts which are not given do nothing. With a perspective the
new weight is the product of the perspective with the transformed point, and all is divided by the weight of
the origin; when it is null there are no numbers. -/
theorem C152_compose (scale shear angles translate : Option P3) :
    (∃ M, composeMatrix scale shear angles translate none = .ok (some M) ∧
      Moves M (together (scale.getD 1) (shear.getD 0) (angles.getD 0) (translate.getD 0))) ∧
    ∀ p : Fin 4 → ℝ, let f := together (scale.getD 1) (shear.getD 0) (angles.getD 0) (translate.getD 0);
      let weight := fun v : P3 => p 0 * v 0 + p 1 * v 1 + p 2 * v 2 + p 3;
      (composeMatrix scale shear angles translate (some p) = .ok none ↔ weight (f 0) = 0) ∧
      (weight (f 0) ≠ 0 → ∃ M, composeMatrix scale shear angles translate (some p) = .ok (some M) ∧
        ∀ v, (M *ᵥ hom v) = (1 / weight (f 0)) • ![f v 0, f v 1, f v 2, weight (f v)]) := by
  rw [composeMatrix_eq]
  simp only []
  constructor
  · unfold perspectivePart
    simp only [one_mul]
    have h1 : togetherMatrix (scale.getD 1) (shear.getD 0) (angles.getD 0) (translate.getD 0) 3 3 = 1 := rfl
    rw [if_neg (by rw [h1]; exact one_ne_zero)]
    refine ⟨_, rfl, ?_⟩
    have : (Matrix.of fun i j => togetherMatrix (scale.getD 1) (shear.getD 0) (angles.getD 0) (translate.getD 0) i j /
        togetherMatrix (scale.getD 1) (shear.getD 0) (angles.getD 0) (translate.getD 0) 3 3) =
        togetherMatrix (scale.getD 1) (shear.getD 0) (angles.getD 0) (translate.getD 0) := by
      ext i j
      rw [Matrix.of_apply, h1, div_one]
    rw [this]
    exact moves_together _ _ _ _
  · intro p
    rw [composeMatrix_eq]
    simp only []
    have hm := moves_together (scale.getD 1) (shear.getD 0) (angles.getD 0) (translate.getD 0)
    generalize togetherMatrix (scale.getD 1) (shear.getD 0) (angles.getD 0) (translate.getD 0) = T at *
    generalize together (scale.getD 1) (shear.getD 0) (angles.getD 0) (translate.getD 0) = f at *
    have hv : ∀ v, (perspectivePart (some p) 1 * T) *ᵥ hom v =
        ![f v 0, f v 1, f v 2, p 0 * f v 0 + p 1 * f v 1 + p 2 * f v 2 + p 3] := by
      intro v
      rw [← Matrix.mulVec_mulVec, hm]
      generalize f v = w
      funext i
      fin_cases i <;> simp [perspectivePart, hom, Matrix.mulVec, dotProduct, Fin.sum_univ_four]
    have h0 : (perspectivePart (some p) 1 * T) 3 3 = p 0 * f 0 0 + p 1 * f 0 1 + p 2 * f 0 2 + p 3 := by
      have := congrFun (hv 0) 3
      simpa [hom, Matrix.mulVec, dotProduct, Fin.sum_univ_four] using this
    generalize perspectivePart (some p) 1 * T = M at *
    rw [h0]
    constructor
    · constructor
      · intro h
        by_contra hne
        rw [if_neg hne] at h
        cases h
      · intro h
        rw [if_pos h]
    · intro hne
      rw [if_neg hne]
      refine ⟨_, rfl, fun v => ?_⟩
      rw [← hv v]
      funext i
      simp only [Matrix.mulVec, dotProduct, Matrix.of_apply, Pi.smul_apply, smul_eq_mul, Finset.mul_sum]
      exact Finset.sum_congr rfl fun j _ => by ring

/-! ## The parts of `decompose_matrix` -/

theorem withoutPerspective_eq (N : Mat4) :
    (withoutPerspective Nᵀ)ᵀ = affine (block N) ![N 0 3, N 1 3, N 2 3] := by
  ext i j
  fin_cases i <;> fin_cases j <;> simp [withoutPerspective, affine, block]

theorem withoutPerspective_det (N : Mat4) : (withoutPerspective Nᵀ).det = (block N).det := by
  rw [← Matrix.det_transpose, withoutPerspective_eq, affine_det]

theorem block_columns (N : Mat4) :
    block N = columns ![N 0 0, N 1 0, N 2 0] ![N 0 1, N 1 1, N 2 1] ![N 0 2, N 1 2, N 2 2] := by
  ext i j
  fin_cases i <;> fin_cases j <;> rfl

theorem decomposeRows_spec (N : Mat4) (hd : (block N).det ≠ 0) : ∃ s h a : P3,
    decomposeRows Nᵀ = .ok ⟨s, h, a, ![N 0 3, N 1 3, N 2 3], perspectiveOf Nᵀ⟩ ∧
      togetherMatrix s h a ![N 0 3, N 1 3, N 2 3] = affine (block N) ![N 0 3, N 1 3, N 2 3] ∧
      (-π < a 0 ∧ a 0 ≤ π) ∧ (-(π / 2) ≤ a 1 ∧ a 1 ≤ π / 2) ∧ (-π < a 2 ∧ a 2 ≤ π) ∧
      (0 < (block N).det → ∀ i, 0 < s i) ∧ ((block N).det < 0 → ∀ i, s i < 0) := by
  have hd' := hd
  rw [block_columns, columns_det] at hd'
  obtain ⟨s, h, u0, u1, u2, hr, hrot, e0, e1, e2, hp, hn⟩ := rows_spec hd'
  obtain ⟨a, ha, he, a0, a1, a2⟩ := rowAngles_spec (s := s) (h := h) hrot
  refine ⟨s, h, a, ?_, ?_, a0, a1, a2, ?_, ?_⟩
  · unfold decomposeRows
    rw [if_neg (by rw [withoutPerspective_det]; exact hd)]
    simp only [Matrix.transpose_apply]
    rw [hr, ha]
    rfl
  · unfold togetherMatrix
    congr 1
    rw [he, block_columns, e0, e1, e2]
    ext i j
    fin_cases j <;> simp [columns, Matrix.mul_apply, Fin.sum_univ_three] <;> ring
  · rw [block_columns, columns_det]
    exact hp
  · rw [block_columns, columns_det]
    exact hn

/-- The matrix divided by its last entry. -/
noncomputable def divided (A : Mat4) : Mat4 := Matrix.of fun i j => A i j / A 3 3

theorem decomposeMatrix_eq {A : Mat4} (h : EPS ≤ |A 3 3|) : decomposeMatrix A = decomposeRows (divided A)ᵀ := by
  unfold decomposeMatrix
  exact if_neg (not_lt.2 h)

theorem divided_det (A : Mat4) : (block (divided A)).det = (A 3 3)⁻¹ ^ 3 * (block A).det := by
  have : block (divided A) = (A 3 3)⁻¹ • block A := by
    ext i j
    simp [block, divided]
    ring
  rw [this, Matrix.det_smul]
  rfl

theorem divided_det_ne {A : Mat4} (h : EPS ≤ |A 3 3|) : (block (divided A)).det ≠ 0 ↔ (block A).det ≠ 0 := by
  have h0 : A 3 3 ≠ 0 := by
    intro h0
    rw [h0, abs_zero] at h
    exact absurd Transf.EPS_pos (not_lt.2 h)
  rw [divided_det]
  constructor
  · intro h1 h2
    exact h1 (by rw [h2, mul_zero])
  · intro h1
    exact mul_ne_zero (pow_ne_zero _ (inv_ne_zero h0)) h1

/-- **C152.** `decompose_matrix` fails, with ValueError, exactly when the last entry is (nearly) null or the
linear part is singular. -/
theorem C152_errors (A : Mat4) :
    ((∃ parts, decomposeMatrix A = .ok parts) ↔ EPS ≤ |A 3 3| ∧ (block A).det ≠ 0) ∧
    ∀ e, decomposeMatrix A = .error e → e = .valueError := by
  by_cases h : EPS ≤ |A 3 3|
  · by_cases hd : (block A).det = 0
    · have : decomposeMatrix A = .error .valueError := by
        rw [decomposeMatrix_eq h]
        unfold decomposeRows
        rw [if_pos]
        rw [withoutPerspective_det]
        by_contra hc
        exact (divided_det_ne h).1 hc hd
      rw [this]
      refine ⟨⟨fun ⟨p, hp⟩ => (by cases hp), fun h' => absurd hd h'.2⟩, fun e he => ?_⟩
      cases he
      rfl
    · obtain ⟨s, h', a, hs, -⟩ := decomposeRows_spec (divided A) ((divided_det_ne h).2 hd)
      rw [decomposeMatrix_eq h, hs]
      exact ⟨⟨fun _ => ⟨h, hd⟩, fun _ => ⟨_, rfl⟩⟩, fun e he => by cases he⟩
  · have : decomposeMatrix A = .error .valueError := by
      unfold decomposeMatrix
      exact if_pos (not_le.1 h)
    rw [this]
    refine ⟨⟨fun ⟨p, hp⟩ => (by cases hp), fun h' => absurd h'.1 h⟩, fun e he => ?_⟩
    cases he
    rfl

/-- **C152.** `compose_matrix` of the parts which `decompose_matrix` gives is the matrix, divided by its last
entry - except that the perspective is forgotten when no entry of it is above the threshold. -/
theorem C152_rebuild (A : Mat4) (parts : Parts) (h : decomposeMatrix A = .ok parts) :
    ∃ M, composeMatrix (some parts.scale) (some parts.shear) (some parts.angles) (some parts.translate)
        (some parts.perspective) = .ok (some M) ∧
      (∀ i j, i ≠ 3 → M i j = A i j / A 3 3) ∧ M 3 3 = 1 ∧
      ((∃ j, j ≠ 3 ∧ EPS < |A 3 j / A 3 3|) → ∀ j, M 3 j = A 3 j / A 3 3) ∧
      ((∀ j, j ≠ 3 → |A 3 j / A 3 3| ≤ EPS) → ∀ j, j ≠ 3 → M 3 j = 0) := by
  obtain ⟨hE, hd⟩ := (C152_errors A).1.1 ⟨_, h⟩
  have h0 : A 3 3 ≠ 0 := by
    intro h0
    rw [h0, abs_zero] at hE
    exact absurd Transf.EPS_pos (not_lt.2 hE)
  have hd' := (divided_det_ne hE).2 hd
  obtain ⟨s, h', a, hs, ht, -⟩ := decomposeRows_spec (divided A) hd'
  rw [decomposeMatrix_eq hE, hs] at h
  obtain rfl := Except.ok.inj h
  rw [composeMatrix_eq]
  simp only [Option.getD_some]
  rw [ht]
  have hN : ∀ i j, divided A i j = A i j / A 3 3 := fun i j => rfl
  have hN3 : divided A 3 3 = 1 := by rw [hN, div_self h0]
  simp only [← hN]
  generalize divided A = N at *
  have hF : (affine (block N) ![N 0 3, N 1 3, N 2 3]).det ≠ 0 := by rw [affine_det]; exact hd'
  have hrow : ∀ (p : Fin 4 → ℝ) (F : Mat4) (j : Fin 4), (perspectivePart (some p) 1 * F) 3 j = (p ᵥ* F) j := by
    intro p F j
    simp [perspectivePart, Matrix.mul_apply, Matrix.vecMul, dotProduct, Fin.sum_univ_four]
  have htop : ∀ (p : Fin 4 → ℝ) (i j : Fin 4), i ≠ 3 →
      (perspectivePart (some p) 1 * affine (block N) ![N 0 3, N 1 3, N 2 3]) i j = N i j := by
    intro p i j hi
    fin_cases i
    · fin_cases j <;> simp [perspectivePart, Matrix.mul_apply, Fin.sum_univ_four, affine, block]
    · fin_cases j <;> simp [perspectivePart, Matrix.mul_apply, Fin.sum_univ_four, affine, block]
    · fin_cases j <;> simp [perspectivePart, Matrix.mul_apply, Fin.sum_univ_four, affine, block]
    · exact absurd rfl hi
  have hbig : (∃ j, j ≠ 3 ∧ EPS < |N 3 j|) → ∀ j,
      (perspectivePart (some (perspectiveOf Nᵀ)) 1 * affine (block N) ![N 0 3, N 1 3, N 2 3]) 3 j = N 3 j := by
    rintro ⟨k, hk, hbk⟩ j
    rw [hrow]
    unfold perspectiveOf
    rw [if_pos (by
      fin_cases k
      · exact .inl hbk
      · exact .inr (.inl hbk)
      · exact .inr (.inr hbk)
      · exact absurd rfl hk), withoutPerspective_eq, Matrix.vecMul_vecMul,
      Matrix.nonsing_inv_mul _ (isUnit_iff_ne_zero.2 hF), Matrix.vecMul_one]
    rfl
  have hsmall : (∀ j, j ≠ 3 → |N 3 j| ≤ EPS) → ∀ j,
      (perspectivePart (some (perspectiveOf Nᵀ)) 1 * affine (block N) ![N 0 3, N 1 3, N 2 3]) 3 j =
        if j = 3 then 1 else 0 := by
    intro hle j
    rw [hrow]
    unfold perspectiveOf
    rw [if_neg (by
      rintro (hc | hc | hc)
      · exact absurd (hle 0 (by decide)) (not_le.2 hc)
      · exact absurd (hle 1 (by decide)) (not_le.2 hc)
      · exact absurd (hle 2 (by decide)) (not_le.2 hc))]
    fin_cases j <;> simp [affine, Matrix.vecMul, dotProduct, Fin.sum_univ_four]
  have h33 : (perspectivePart (some (perspectiveOf Nᵀ)) 1 * affine (block N) ![N 0 3, N 1 3, N 2 3]) 3 3 = 1 := by
    by_cases hb : ∃ j, j ≠ 3 ∧ EPS < |N 3 j|
    · rw [hbig hb, hN3]
    · push Not at hb
      rw [hsmall hb, if_pos rfl]
  rw [if_neg (by rw [h33]; exact one_ne_zero)]
  refine ⟨_, rfl, ?_, ?_, ?_, ?_⟩
  · intro i j hi
    rw [Matrix.of_apply, h33, div_one, htop _ i j hi]
  · rw [Matrix.of_apply, h33, div_one]
  · intro hb j
    rw [Matrix.of_apply, h33, div_one, hbig hb j]
  · intro hle j hj
    rw [Matrix.of_apply, h33, div_one, hsmall hle j, if_neg hj]

/-- **C152.** What the parts are: the angles are in the usual ranges, and the scaling factors are all positive or
all negative, as the determinant of the linear part (of the matrix divided by its last entry). -/
theorem C152_ranges (A : Mat4) (parts : Parts) (h : decomposeMatrix A = .ok parts) :
    (-π < parts.angles 0 ∧ parts.angles 0 ≤ π) ∧ (-(π / 2) ≤ parts.angles 1 ∧ parts.angles 1 ≤ π / 2) ∧
    (-π < parts.angles 2 ∧ parts.angles 2 ≤ π) ∧
    (0 < A 3 3 * (block A).det → ∀ i, 0 < parts.scale i) ∧ (A 3 3 * (block A).det < 0 → ∀ i, parts.scale i < 0) ∧
    ∀ i : Fin 3, parts.translate i = A i.castSucc 3 / A 3 3 := by
  obtain ⟨hE, hd⟩ := (C152_errors A).1.1 ⟨_, h⟩
  have h0 : A 3 3 ≠ 0 := by
    intro h0
    rw [h0, abs_zero] at hE
    exact absurd Transf.EPS_pos (not_lt.2 hE)
  obtain ⟨s, h', a, hs, ht, a0, a1, a2, hp, hn⟩ := decomposeRows_spec (divided A) ((divided_det_ne hE).2 hd)
  rw [decomposeMatrix_eq hE, hs] at h
  obtain rfl := Except.ok.inj h
  have hdet : (block (divided A)).det = (A 3 3)⁻¹ ^ 4 * (A 3 3 * (block A).det) := by
    rw [divided_det]
    field_simp
  have h4 : 0 < (A 3 3)⁻¹ ^ 4 := by positivity
  refine ⟨a0, a1, a2, fun h => hp ?_, fun h => hn ?_, ?_⟩
  · rw [hdet]
    exact mul_pos h4 h
  · rw [hdet]
    exact mul_neg_of_pos_of_neg h4 h
  · intro i
    fin_cases i <;> rfl

/-- **C152.** `decompose_matrix` gives back the parts from which `compose_matrix` built a matrix, when the scaling
factors are all positive or all negative and the angles are in the usual ranges, away from gimbal lock. -/
theorem C152_back (s h a t : P3) (hs : (∀ i, 0 < s i) ∨ ∀ i, s i < 0) (a0 : -π < a 0 ∧ a 0 ≤ π)
    (a1 : -(π / 2) < a 1 ∧ a 1 < π / 2) (a2 : -π < a 2 ∧ a 2 ≤ π) :
    ∃ M, composeMatrix (some s) (some h) (some a) (some t) none = .ok (some M) ∧
      decomposeMatrix M = .ok ⟨s, h, a, t, ![0, 0, 0, 1]⟩ := by
  have hc : composeMatrix (some s) (some h) (some a) (some t) none = .ok (some (togetherMatrix s h a t)) := by
    rw [composeMatrix_eq]
    unfold perspectivePart
    simp only [one_mul, Option.getD_some]
    have h1 : togetherMatrix s h a t 3 3 = 1 := rfl
    rw [if_neg (by rw [h1]; exact one_ne_zero)]
    congr 2
    ext i j
    rw [Matrix.of_apply, h1, div_one]
  refine ⟨_, hc, ?_⟩
  set R := euler3 false (a 0) (a 1) (a 2) with hR
  have hrot : Rot3 R := by
    rw [hR, Transf.euler3_false]
    exact ((Transf.axisRot3_rot _ _).mul (Transf.axisRot3_rot _ _)).mul (Transf.axisRot3_rot _ _)
  have hcol : R = columns (fun i => R i 0) (fun i => R i 1) (fun i => R i 2) := by
    ext i j
    fin_cases j <;> rfl
  have o : Ortho (fun i => R i 0) (fun i => R i 1) (fun i => R i 2) := by
    constructor
    · simpa [dot3] using hrot.col 0 0
    · simpa [dot3] using hrot.col 1 1
    · simpa [dot3] using hrot.col 2 2
    · simpa [dot3] using hrot.col 0 1
    · simpa [dot3] using hrot.col 0 2
    · simpa [dot3] using hrot.col 1 2
  have hdet : dot3 (fun i => R i 0) (cross (fun i => R i 1) (fun i => R i 2)) = 1 := by
    rw [← columns_det, ← hcol]
    exact hrot.det
  have h33 : togetherMatrix s h a t 3 3 = 1 := rfl
  have hdiv : divided (togetherMatrix s h a t) = togetherMatrix s h a t := by
    ext i j
    show togetherMatrix s h a t i j / togetherMatrix s h a t 3 3 = _
    rw [h33, div_one]
  rw [decomposeMatrix_eq (by rw [h33, abs_one]; exact Transf.EPS_lt_one.le), hdiv]
  set u0 : P3 := fun i => R i 0
  set u1 : P3 := fun i => R i 1
  set u2 : P3 := fun i => R i 2
  have hblock : block (togetherMatrix s h a t) =
      columns (s 0 • u0) (s 1 • (h 0 • u0 + u1)) (s 2 • (h 1 • u0 + h 2 • u1 + u2)) := by
    have : block (togetherMatrix s h a t) =
        R * (!![1, h 0, h 1; 0, 1, h 2; 0, 0, 1] * !![s 0, 0, 0; 0, s 1, 0; 0, 0, s 2]) := by
      ext i j
      fin_cases i <;> fin_cases j <;> rfl
    rw [this, hcol]
    ext i j
    fin_cases j <;> simp [columns, Matrix.mul_apply, Fin.sum_univ_three] <;> ring
  have hprod : s 0 * s 1 * s 2 ≠ 0 := by
    rcases hs with hs | hs
    · exact mul_ne_zero (mul_ne_zero (hs 0).ne' (hs 1).ne') (hs 2).ne'
    · exact mul_ne_zero (mul_ne_zero (hs 0).ne (hs 1).ne) (hs 2).ne
  have hd : (block (togetherMatrix s h a t)).det ≠ 0 := by
    have : (block (togetherMatrix s h a t)).det = s 0 * s 1 * s 2 * dot3 u0 (cross u1 u2) := by
      rw [hblock, columns_det]
      simp [dot3, cross]
      ring
    rw [this, hdet, mul_one]
    exact hprod
  have hrows : direct (orthonormalise (s 0 • u0) (s 1 • (h 0 • u0 + u1)) (s 2 • (h 1 • u0 + h 2 • u1 + u2))) =
      ⟨s, h, u0, u1, u2⟩ := by
    rcases hs with hs | hs
    · rw [orthonormalise_eq o hs, direct_eq.1 hdet]
    · have := orthonormalise_eq (s := -s) (h := h) (ortho_neg o) (fun i => neg_pos.2 (hs i))
      have e0 : (-s) 0 • (-u0) = s 0 • u0 := by funext i; simp
      have e1 : (-s) 1 • (h 0 • (-u0) + -u1) = s 1 • (h 0 • u0 + u1) := by funext i; simp; ring
      have e2 : (-s) 2 • (h 1 • (-u0) + h 2 • (-u1) + -u2) = s 2 • (h 1 • u0 + h 2 • u1 + u2) := by
        funext i; simp; ring
      rw [e0, e1, e2] at this
      rw [this, direct_eq.2 (by rw [det_neg, hdet]), neg_neg, neg_neg, neg_neg, neg_neg]
  have hcos : 0 < cos (a 1) := cos_pos_of_mem_Ioo ⟨a1.1, a1.2⟩
  have hang : rowAngles ⟨s, h, u0, u1, u2⟩ = .ok a := by
    have v02 : -u0 2 = sin (a 1) := by simp [u0, hR, euler3]
    have v12 : u1 2 = cos (a 1) * sin (a 0) := by simp [u1, hR, euler3]
    have v22 : u2 2 = cos (a 1) * cos (a 0) := by simp [u2, hR, euler3]
    have v01 : u0 1 = cos (a 1) * sin (a 2) := by simp [u0, hR, euler3]
    have v00 : u0 0 = cos (a 1) * cos (a 2) := by simp [u0, hR, euler3]
    unfold rowAngles
    simp only [v02, v12, v22, v01, v00, arcsin_sin a1.1.le a1.2.le]
    rw [if_neg (by
      rintro (h | h)
      · linarith [neg_one_le_sin (a 1)]
      · linarith [sin_le_one (a 1)]), if_pos hcos.ne', Transf.atan2_eq hcos a0.1 a0.2, Transf.atan2_eq hcos a2.1 a2.2]
    congr 1
    funext i
    fin_cases i <;> rfl
  unfold decomposeRows
  rw [if_neg (by rw [withoutPerspective_det]; exact hd)]
  simp only []
  have hcols : ∀ c0 c1 c2 : P3, block (togetherMatrix s h a t) = columns c0 c1 c2 →
      orthonormalise ![(togetherMatrix s h a t)ᵀ 0 0, (togetherMatrix s h a t)ᵀ 0 1, (togetherMatrix s h a t)ᵀ 0 2]
        ![(togetherMatrix s h a t)ᵀ 1 0, (togetherMatrix s h a t)ᵀ 1 1, (togetherMatrix s h a t)ᵀ 1 2]
        ![(togetherMatrix s h a t)ᵀ 2 0, (togetherMatrix s h a t)ᵀ 2 1, (togetherMatrix s h a t)ᵀ 2 2] =
      orthonormalise c0 c1 c2 := by
    intro c0 c1 c2 hb
    have key : ∀ i j, togetherMatrix s h a t (Fin.castSucc i) (Fin.castSucc j) = columns c0 c1 c2 i j :=
      fun i j => congrFun (congrFun hb i) j
    congr 1
    · funext i
      fin_cases i
      · exact key 0 0
      · exact key 1 0
      · exact key 2 0
    · funext i
      fin_cases i
      · exact key 0 1
      · exact key 1 1
      · exact key 2 1
    · funext i
      fin_cases i
      · exact key 0 2
      · exact key 1 2
      · exact key 2 2
  rw [hcols _ _ _ hblock, hrows, hang]
  show Except.ok _ = Except.ok _
  congr 1
  have ht : ![(togetherMatrix s h a t)ᵀ 3 0, (togetherMatrix s h a t)ᵀ 3 1, (togetherMatrix s h a t)ᵀ 3 2] = t := by
    funext i
    fin_cases i <;> rfl
  have hp : perspectiveOf (togetherMatrix s h a t)ᵀ = ![0, 0, 0, 1] := by
    unfold perspectiveOf
    have z : ∀ j : Fin 3, (togetherMatrix s h a t)ᵀ j.castSucc 3 = 0 := by
      intro j
      fin_cases j <;> rfl
    have z0 : (togetherMatrix s h a t)ᵀ 0 3 = 0 := z 0
    have z1 : (togetherMatrix s h a t)ᵀ 1 3 = 0 := z 1
    have z2 : (togetherMatrix s h a t)ᵀ 2 3 = 0 := z 2
    rw [z0, z1, z2, abs_zero, if_neg]
    simp [Transf.EPS_pos.le]
  rw [ht, hp]

end Verif.Geom
