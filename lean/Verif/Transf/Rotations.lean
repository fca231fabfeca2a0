import Verif.Transf.Props
import Mathlib.LinearAlgebra.Matrix.Adjugate
import Mathlib.LinearAlgebra.Matrix.NonsingularInverse
import Mathlib.Tactic.IntervalCases

/-!
# Rotation matrices in permuted axes
-/

namespace Verif.Transf

open Verif Real Matrix

/-- Matrices of size three. -/
abbrev Mat3 := Matrix (Fin 3) (Fin 3) ℝ

/-- Rotations. -/
structure Rot3 (A : Mat3) : Prop where
  orthogonal : A * Aᵀ = 1
  det : A.det = 1

/-- The rotation of a homogeneous matrix. -/
def block (M : Mat4) : Mat3 := M.submatrix Fin.castSucc Fin.castSucc

theorem Rot3.orthogonal' {A : Mat3} (h : Rot3 A) : Aᵀ * A = 1 := mul_eq_one_comm.1 h.orthogonal

theorem Rot3.adjugate {A : Mat3} (h : Rot3 A) : A.adjugate = Aᵀ := by
  have h1 : A * A.adjugate = 1 := by rw [mul_adjugate, h.det, one_smul]
  calc A.adjugate = Aᵀ * A * A.adjugate := by rw [h.orthogonal', one_mul]
    _ = Aᵀ := by rw [mul_assoc, h1, mul_one]

theorem Rot3.perm {A : Mat3} (h : Rot3 A) (e : Equiv.Perm (Fin 3)) : Rot3 (A.submatrix e e) where
  orthogonal := by
    rw [transpose_submatrix, submatrix_mul_equiv, h.orthogonal, submatrix_one_equiv]
  det := by rw [det_submatrix_equiv_self, h.det]

theorem Rot3.row {A : Mat3} (h : Rot3 A) (a b : Fin 3) :
    A a 0 * A b 0 + A a 1 * A b 1 + A a 2 * A b 2 = if a = b then 1 else 0 := by
  have := congrFun (congrFun h.orthogonal a) b
  simpa [Matrix.mul_apply, Fin.sum_univ_three, Matrix.one_apply] using this

theorem Rot3.col {A : Mat3} (h : Rot3 A) (a b : Fin 3) :
    A 0 a * A 0 b + A 1 a * A 1 b + A 2 a * A 2 b = if a = b then 1 else 0 := by
  have := congrFun (congrFun h.orthogonal' a) b
  simpa [Matrix.mul_apply, Fin.sum_univ_three, Matrix.one_apply] using this

/-- Each entry of a rotation is its own cofactor. -/
theorem Rot3.cof {A : Mat3} (h : Rot3 A) :
    (A 0 0 = A 1 1 * A 2 2 - A 1 2 * A 2 1 ∧ A 0 1 = A 1 2 * A 2 0 - A 1 0 * A 2 2 ∧
      A 0 2 = A 1 0 * A 2 1 - A 1 1 * A 2 0) ∧
    (A 1 0 = A 0 2 * A 2 1 - A 0 1 * A 2 2 ∧ A 1 1 = A 0 0 * A 2 2 - A 0 2 * A 2 0 ∧
      A 1 2 = A 0 1 * A 2 0 - A 0 0 * A 2 1) ∧
    A 2 0 = A 0 1 * A 1 2 - A 0 2 * A 1 1 ∧ A 2 1 = A 0 2 * A 1 0 - A 0 0 * A 1 2 ∧
      A 2 2 = A 0 0 * A 1 1 - A 0 1 * A 1 0 := by
  have ha := h.adjugate
  rw [adjugate_fin_three] at ha
  have key : ∀ a b, A a b = _ := fun a b => (congrFun (congrFun ha b) a).symm
  refine ⟨⟨?_, ?_, ?_⟩, ⟨?_, ?_, ?_⟩, ?_, ?_, ?_⟩
  · have := key 0 0
    simp at this
    linarith
  · have := key 0 1
    simp at this
    linarith
  · have := key 0 2
    simp at this
    linarith
  · have := key 1 0
    simp at this
    linarith
  · have := key 1 1
    simp at this
    linarith
  · have := key 1 2
    simp at this
    linarith
  · have := key 2 0
    simp at this
    linarith
  · have := key 2 1
    simp at this
    linarith
  · have := key 2 2
    simp at this
    linarith

/-- Homogeneous matrices which only rotate. -/
structure Homog (M : Mat4) : Prop where
  col : ∀ a, M a 3 = if a = 3 then 1 else 0
  row : ∀ b, M 3 b = if b = 3 then 1 else 0

theorem Homog.ext {M N : Mat4} (hM : Homog M) (hN : Homog N) (h : block M = block N) : M = N := by
  ext a b
  rcases Fin.eq_castSucc_or_eq_last a with ⟨a, rfl⟩ | rfl
  · rcases Fin.eq_castSucc_or_eq_last b with ⟨b, rfl⟩ | rfl
    · exact congrFun (congrFun h a) b
    · exact (hM.col _).trans (hN.col _).symm
  · exact (hM.row _).trans (hN.row _).symm

theorem cs_ne (x : Fin 3) : x.castSucc ≠ (3 : Fin 4) := (Fin.castSucc_lt_last x).ne

theorem Homog.col0 {M : Mat4} (h : Homog M) (a : Fin 3) : M a.castSucc 3 = 0 := by
  rw [h.col, if_neg (cs_ne a)]

theorem Homog.row0 {M : Mat4} (h : Homog M) (b : Fin 3) : M 3 b.castSucc = 0 := by
  rw [h.row, if_neg (cs_ne b)]

theorem Homog.one {M : Mat4} (h : Homog M) : M 3 3 = 1 := by rw [h.row, if_pos rfl]

theorem homog_one : Homog 1 :=
  ⟨fun a => by rw [one_apply], fun b => by rw [one_apply]; exact if_congr eq_comm rfl rfl⟩

theorem sum4 (f : Fin 4 → ℝ) : ∑ x, f x = (∑ x : Fin 3, f x.castSucc) + f 3 := Fin.sum_univ_castSucc f

theorem block_mul {M N : Mat4} (hM : Homog M) : block (M * N) = block M * block N := by
  ext a b
  simp only [block, Matrix.submatrix_apply, Matrix.mul_apply, sum4, hM.col0, zero_mul, add_zero]

theorem Homog.mul {M N : Mat4} (hM : Homog M) (hN : Homog N) : Homog (M * N) := by
  constructor
  · intro a
    rcases Fin.eq_castSucc_or_eq_last a with ⟨a, rfl⟩ | rfl
    · simp only [Matrix.mul_apply, sum4, hN.col0, hM.col0, if_neg (cs_ne a), mul_zero, zero_mul, add_zero,
        Finset.sum_const_zero]
    · rw [show (Fin.last 3) = 3 from rfl]
      simp only [Matrix.mul_apply, sum4, hM.row0, zero_mul, Finset.sum_const_zero, zero_add, hM.one, hN.one,
        if_true, one_mul]
  · intro a
    rcases Fin.eq_castSucc_or_eq_last a with ⟨a, rfl⟩ | rfl
    · simp only [Matrix.mul_apply, sum4, hN.row0, hM.row0, if_neg (cs_ne a), mul_zero, zero_mul, add_zero,
        Finset.sum_const_zero]
    · rw [show (Fin.last 3) = 3 from rfl]
      simp only [Matrix.mul_apply, sum4, hM.row0, zero_mul, Finset.sum_const_zero, zero_add, hM.one, hN.one,
        if_true, one_mul]

theorem IsRotation.homog {M : Mat4} (h : IsRotation M) : Homog M := ⟨h.col, h.row⟩

theorem block_det {M : Mat4} (h : Homog M) : (block M).det = M.det := by
  rw [det_succ_row M 3, sum4]
  simp only [h.row0, mul_zero, zero_mul, Finset.sum_const_zero, zero_add, h.one, mul_one]
  rw [show ((-1 : ℝ) ^ (((3 : Fin 4) : ℕ) + ((3 : Fin 4) : ℕ))) = 1 by norm_num [show ((3 : Fin 4) : ℕ) = 3 from rfl],
    one_mul]
  congr 1
  ext a b
  fin_cases a <;> fin_cases b <;> rfl

theorem block_one : block 1 = 1 := submatrix_one _ (Fin.castSucc_injective 3)

theorem IsRotation.block {M : Mat4} (h : IsRotation M) : Rot3 (block M) where
  orthogonal := by
    rw [show (Transf.block M)ᵀ = Transf.block Mᵀ from rfl, ← block_mul h.homog, h.orthogonal, block_one]
  det := by rw [block_det h.homog, h.det]

theorem isRotation_of_block {M : Mat4} (h : Homog M) (hb : Rot3 (block M)) : IsRotation M where
  orthogonal := by
    have ht : Homog Mᵀ := ⟨h.row, h.col⟩
    refine (h.mul ht).ext homog_one ?_
    rw [block_mul h, show block Mᵀ = (block M)ᵀ from rfl, hb.orthogonal, block_one]
  det := by rw [← block_det h, hb.det]
  col := h.col
  row := h.row

end Verif.Transf
