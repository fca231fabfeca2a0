import Verif.Transf.Model
import Mathlib.Algebra.Quaternion
import Mathlib.Tactic.LinearCombination
import Mathlib.Tactic.FieldSimp
import Mathlib.Tactic.FinCases
import Mathlib.LinearAlgebra.Matrix.Determinant.Basic

/-!
# Quaternions and rotation matrices (C92 and C93)
-/

namespace Verif.Transf

open Verif Real Matrix

/-- The quaternion `w + x i + y j + z k` of Mathlib. -/
def toH (q : Quat) : Quaternion ℝ := ⟨q 3, q 0, q 1, q 2⟩

@[simp] theorem toH_re (q : Quat) : (toH q).re = q 3 := rfl
@[simp] theorem toH_imI (q : Quat) : (toH q).imI = q 0 := rfl
@[simp] theorem toH_imJ (q : Quat) : (toH q).imJ = q 1 := rfl
@[simp] theorem toH_imK (q : Quat) : (toH q).imK = q 2 := rfl

theorem toH_inj {p q : Quat} : toH p = toH q ↔ p = q := by
  constructor
  · intro h
    have h0 := congrArg QuaternionAlgebra.re h
    have h1 := congrArg QuaternionAlgebra.imI h
    have h2 := congrArg QuaternionAlgebra.imJ h
    have h3 := congrArg QuaternionAlgebra.imK h
    funext i
    fin_cases i
    · exact h1
    · exact h2
    · exact h3
    · exact h0
  · rintro rfl
    rfl

theorem dot4_nonneg (q : Quat) : 0 ≤ dot4 q q := by
  unfold dot4
  nlinarith [mul_self_nonneg (q 0), mul_self_nonneg (q 1), mul_self_nonneg (q 2), mul_self_nonneg (q 3)]

theorem dot4_eq_zero {q : Quat} : dot4 q q = 0 ↔ q = 0 := by
  constructor
  · intro h
    unfold dot4 at h
    have h0 := mul_self_nonneg (q 0)
    have h1 := mul_self_nonneg (q 1)
    have h2 := mul_self_nonneg (q 2)
    have h3 := mul_self_nonneg (q 3)
    funext i
    fin_cases i
    · exact mul_self_eq_zero.1 (by simp only [Fin.mk_zero', Fin.isValue]; linarith)
    · exact mul_self_eq_zero.1 (by simp only [Fin.mk_one]; linarith)
    · exact mul_self_eq_zero.1 (by simp only [Fin.reduceFinMk]; linarith)
    · exact mul_self_eq_zero.1 (by simp only [Fin.reduceFinMk]; linarith)
  · rintro rfl
    simp [dot4]

/-- **C92.** `quaternion_multiply(q1, q0)` is the product of quaternions: under the identification with
Mathlib's quaternions it is their product. -/
theorem C92_multiply (q1 q0 : Quat) : toH (quatMul q1 q0) = toH q1 * toH q0 := by
  ext <;> simp [quatMul] <;> ring

/-- **C92.** `quaternion_conjugate` is the conjugate. -/
theorem C92_conjugate (q : Quat) : toH (quatConj q) = star (toH q) := by
  ext <;> simp [quatConj]

/-- **C92.** `numpy.dot(q, q)` is the squared norm. -/
theorem C92_norm (q : Quat) : dot4 q q = Quaternion.normSq (toH q) := by
  rw [Quaternion.normSq_def']
  simp only [dot4, toH]
  ring

/-- **C92.** `quaternion_inverse` of a non-null quaternion is its inverse; for the null quaternion it
does not give numbers. -/
theorem C92_inverse (q : Quat) :
    (q = 0 → quatInv q = none) ∧
    (q ≠ 0 → ∃ p, quatInv q = some p ∧ toH p = (toH q)⁻¹) := by
  constructor
  · intro h
    unfold quatInv
    rw [if_pos (dot4_eq_zero.2 h)]
  · intro h
    unfold quatInv
    rw [if_neg (fun hc => h (dot4_eq_zero.1 hc))]
    refine ⟨_, rfl, ?_⟩
    rw [Quaternion.instInv]
    show _ = (Quaternion.normSq (toH q))⁻¹ • star (toH q)
    rw [← C92_norm]
    ext <;> simp [quatConj] <;> ring

/-- The quaternion `1`. -/
def quatOne : Quat := ![0, 0, 0, 1]

/-- **C92.** The product is associative, with unit `(0, 0, 0, 1)`; the squared norm is multiplicative;
and inverses are two-sided. -/
theorem C92_algebra (p q r : Quat) :
    quatMul (quatMul p q) r = quatMul p (quatMul q r) ∧
    quatMul quatOne q = q ∧ quatMul q quatOne = q ∧
    dot4 (quatMul p q) (quatMul p q) = dot4 p p * dot4 q q ∧
    (∀ i, quatInv q = some i → quatMul q i = quatOne ∧ quatMul i q = quatOne) := by
  have h1 : toH quatOne = 1 := by ext <;> simp [quatOne] <;> rfl
  refine ⟨?_, ?_, ?_, ?_, ?_⟩
  · rw [← toH_inj, C92_multiply, C92_multiply, C92_multiply, C92_multiply, mul_assoc]
  · rw [← toH_inj, C92_multiply, h1, one_mul]
  · rw [← toH_inj, C92_multiply, h1, mul_one]
  · rw [C92_norm, C92_norm, C92_norm, C92_multiply, map_mul]
  · intro i hi
    by_cases hq : q = 0
    · rw [(C92_inverse q).1 hq] at hi
      cases hi
    · obtain ⟨p', hp, hp'⟩ := (C92_inverse q).2 hq
      rw [hp] at hi
      cases hi
      have hne : toH q ≠ 0 := by
        intro hc
        apply hq
        rw [← toH_inj, hc]
        ext <;> rfl
      constructor
      · rw [← toH_inj, C92_multiply, h1, hp', mul_inv_cancel₀ hne]
      · rw [← toH_inj, C92_multiply, h1, hp', inv_mul_cancel₀ hne]

/-- C92: a quaternion, its norm and its inverse. -/
example : dot4 ![1, 2, 3, 4] ![1, 2, 3, 4] = 30 ∧ quatMul ![1, -2, 3, 4] ![-5, 6, 7, 8] = ![-44, -14, 48, 28] ∧
    ∃ p, quatInv ![1, 2, 3, 4] = some p := by
  refine ⟨?_, ?_, ?_⟩
  · show (1 : ℝ) * 1 + 2 * 2 + 3 * 3 + 4 * 4 = 30
    norm_num
  · funext i
    fin_cases i
    · show (1 : ℝ) * 8 + -2 * 7 - 3 * 6 + 4 * -5 = -44
      norm_num
    · show -(1 : ℝ) * 7 + -2 * 8 + 3 * -5 + 4 * 6 = -14
      norm_num
    · show (1 : ℝ) * 6 - -2 * -5 + 3 * 8 + 4 * 7 = 48
      norm_num
    · show -(1 : ℝ) * -5 - -2 * 6 - 3 * 7 + 4 * 8 = 28
      norm_num
  · exact ((C92_inverse _).2 (fun h => by simpa using congrFun h 0)).imp fun _ h => h.1

/-! ## Rotation matrices -/

theorem EPS_pos : 0 < EPS := by unfold EPS; positivity

/-- A homogeneous rotation matrix: orthogonal, of determinant one, without translation. -/
structure IsRotation (M : Mat4) : Prop where
  orthogonal : M * Mᵀ = 1
  det : M.det = 1
  col : ∀ a, M a 3 = if a = 3 then 1 else 0
  row : ∀ b, M 3 b = if b = 3 then 1 else 0

/-- The nine entries of `quaternion_matrix`. -/
theorem quatMatrix_eq {q : Quat} (h : EPS ≤ dot4 q q) : quatMatrix q =
    !![1 - 2 * (q 1 * q 1 + q 2 * q 2) / dot4 q q, 2 * (q 0 * q 1 - q 2 * q 3) / dot4 q q,
        2 * (q 0 * q 2 + q 1 * q 3) / dot4 q q, 0;
      2 * (q 0 * q 1 + q 2 * q 3) / dot4 q q, 1 - 2 * (q 0 * q 0 + q 2 * q 2) / dot4 q q,
        2 * (q 1 * q 2 - q 0 * q 3) / dot4 q q, 0;
      2 * (q 0 * q 2 - q 1 * q 3) / dot4 q q, 2 * (q 1 * q 2 + q 0 * q 3) / dot4 q q,
        1 - 2 * (q 0 * q 0 + q 1 * q 1) / dot4 q q, 0;
      0, 0, 0, 1] := by
  have hpos : 0 < dot4 q q := lt_of_lt_of_le EPS_pos h
  have hs : √(2 / dot4 q q) * √(2 / dot4 q q) = 2 / dot4 q q := mul_self_sqrt (by positivity)
  have hm : ∀ a b : Fin 4, q a * √(2 / dot4 q q) * (q b * √(2 / dot4 q q)) =
      2 * (q a * q b) / dot4 q q := by
    intro a b
    rw [show q a * √(2 / dot4 q q) * (q b * √(2 / dot4 q q)) =
      q a * q b * (√(2 / dot4 q q) * √(2 / dot4 q q)) by ring, hs]
    ring
  unfold quatMatrix
  simp only []
  rw [if_neg (not_lt.2 h)]
  simp only [hm]
  ext a b
  fin_cases a <;> fin_cases b <;> simp <;> ring

/-- **C93.** `quaternion_matrix` of a quaternion (of squared norm at least the threshold) is a rotation
matrix; otherwise it is the identity, hence a rotation matrix too. -/
theorem C93_rotation (q : Quat) :
    IsRotation (quatMatrix q) ∧ (dot4 q q < EPS → quatMatrix q = 1) := by
  have h1 : dot4 q q < EPS → quatMatrix q = 1 := by
    intro h
    unfold quatMatrix
    simp only []
    rw [if_pos h]
  refine ⟨?_, h1⟩
  by_cases h : dot4 q q < EPS
  · rw [h1 h]
    constructor
    · simp
    · simp
    · intro a
      rw [Matrix.one_apply]
    · intro b
      rw [Matrix.one_apply]
      exact if_congr eq_comm rfl rfl
  · have hle := not_lt.1 h
    have hne : dot4 q q ≠ 0 := (lt_of_lt_of_le EPS_pos hle).ne'
    rw [quatMatrix_eq hle]
    constructor
    · ext a b
      fin_cases a <;> fin_cases b <;>
        simp [Matrix.mul_apply, Fin.sum_univ_four, Matrix.transpose_apply] <;> field_simp <;>
        unfold dot4 <;> ring
    · simp [Matrix.det_succ_row_zero, Fin.sum_univ_succ, Fin.succAbove]
      field_simp
      unfold dot4
      ring
    · intro a
      fin_cases a <;> simp
    · intro b
      fin_cases b <;> simp

/-- **C93.** The matrix of a quaternion is not changed by scaling it, as long as its squared norm is not
below the threshold. -/
theorem C93_scale (q : Quat) (s : ℝ) (h : EPS ≤ dot4 q q) (h' : EPS ≤ s ^ 2 * dot4 q q) :
    quatMatrix (fun i => s * q i) = quatMatrix q := by
  have hd : dot4 (fun i => s * q i) (fun i => s * q i) = s ^ 2 * dot4 q q := by
    unfold dot4
    ring
  have hne : dot4 q q ≠ 0 := (lt_of_lt_of_le EPS_pos h).ne'
  have hs : s ≠ 0 := by
    rintro rfl
    have := lt_of_lt_of_le EPS_pos h'
    simp at this
  rw [quatMatrix_eq h, quatMatrix_eq (by rw [hd]; exact h'), hd]
  ext a b
  fin_cases a <;> fin_cases b <;> simp <;> field_simp

/-- **C93.** Opposite quaternions have the same matrix. -/
theorem C93_neg (q : Quat) : quatMatrix (fun i => -q i) = quatMatrix q := by
  have hd : dot4 (fun i => -q i) (fun i => -q i) = dot4 q q := by
    unfold dot4
    ring
  by_cases h : dot4 q q < EPS
  · rw [(C93_rotation q).2 h, (C93_rotation _).2 (by rw [hd]; exact h)]
  · have h := not_lt.1 h
    rw [quatMatrix_eq h, quatMatrix_eq (by rw [hd]; exact h), hd]
    ext a b
    fin_cases a <;> fin_cases b <;> simp

/-- **C93.** Products of quaternions are turned into products of matrices. -/
theorem C93_multiplicative (p q : Quat) (hp : EPS ≤ dot4 p p) (hq : EPS ≤ dot4 q q)
    (hpq : EPS ≤ dot4 p p * dot4 q q) :
    quatMatrix (quatMul p q) = quatMatrix p * quatMatrix q := by
  have hd := (C92_algebra p q q).2.2.2.1
  have h1 : dot4 p p ≠ 0 := (lt_of_lt_of_le EPS_pos hp).ne'
  have h2 : dot4 q q ≠ 0 := (lt_of_lt_of_le EPS_pos hq).ne'
  rw [quatMatrix_eq hp, quatMatrix_eq hq, quatMatrix_eq (by rw [hd]; exact hpq), hd]
  ext a b
  fin_cases a <;> fin_cases b <;>
    simp [Matrix.mul_apply, Fin.sum_univ_four, quatMul] <;> field_simp <;> simp only [dot4] <;> ring

/-- **C93.** The matrix of a quaternion turns vectors as the quaternion does: the image of `v` is the
vector of the quaternion `q v q⁻¹`. -/
theorem C93_action (q : Quat) (h : EPS ≤ dot4 q q) (v : Fin 3 → ℝ) :
    ∃ u : Fin 3 → ℝ, toH q * toH ![v 0, v 1, v 2, 0] * (toH q)⁻¹ = toH ![u 0, u 1, u 2, 0] ∧
      quatMatrix q *ᵥ ![v 0, v 1, v 2, 1] = ![u 0, u 1, u 2, 1] := by
  have hne : dot4 q q ≠ 0 := (lt_of_lt_of_le EPS_pos h).ne'
  obtain ⟨i, hi, hinv⟩ := (C92_inverse q).2 (fun hc => hne (dot4_eq_zero.2 hc))
  have hi' : i = fun a => quatConj q a / dot4 q q := by
    unfold quatInv at hi
    rw [if_neg hne] at hi
    exact (Option.some.inj hi).symm
  rw [← hinv, ← C92_multiply, ← C92_multiply, quatMatrix_eq h]
  refine ⟨fun a => quatMul (quatMul q ![v 0, v 1, v 2, 0]) i a.castSucc, ?_, ?_⟩
  · rw [toH_inj, hi']
    funext a
    fin_cases a
    · rfl
    · rfl
    · rfl
    · simp [quatMul, quatConj]
      field_simp
      ring
  · rw [hi']
    funext a
    fin_cases a <;> simp [quatMul, quatConj, Matrix.mulVec, dotProduct, Fin.sum_univ_four] <;> field_simp <;>
      simp only [dot4] <;> ring

end Verif.Transf
