import Verif.Geom.Model
import Verif.Transf.Rotations
import Mathlib.LinearAlgebra.Matrix.Determinant.Basic

/-!
# Properties of translations, reflections, rotations and scalings
-/

namespace Verif.Geom

open Verif Real Matrix
open Verif.Transf (Mat4 Quat EPS)

/-! ## Specification -/

/-- Homogeneous coordinates of a point. -/
def hom (v : P3) : Fin 4 → ℝ := ![v 0, v 1, v 2, 1]

/-- The matrix transforms each point as the given function. -/
def Moves (M : Mat4) (f : P3 → P3) : Prop := ∀ v, M *ᵥ hom v = hom (f v)

/-- The square of the distance between two points. -/
def dist2 (u v : P3) : ℝ := (u 0 - v 0) ^ 2 + (u 1 - v 1) ^ 2 + (u 2 - v 2) ^ 2

/-- The point is on the plane through `p` with the normal vector `n`. -/
def OnPlane (p n v : P3) : Prop := dot3 (v - p) n = 0

/-- Two vectors have the same direction, up to a factor. -/
def Along (d u : P3) : Prop := ∃ t : ℝ, u = t • d

theorem hom_inj {u v : P3} (h : hom u = hom v) : u = v := by
  funext i
  fin_cases i
  · exact congrFun h 0
  · exact congrFun h 1
  · exact congrFun h 2

theorem moves_affine (A : Matrix (Fin 3) (Fin 3) ℝ) (t : P3) :
    Moves (affine A t) fun v => A *ᵥ v + t := by
  intro v
  funext i
  fin_cases i <;> simp [affine, hom, Matrix.mulVec, dotProduct, Fin.sum_univ_four, Fin.sum_univ_three]

theorem Moves.mul {M N : Mat4} {f g : P3 → P3} (hM : Moves M f) (hN : Moves N g) :
    Moves (M * N) (f ∘ g) := by
  intro v
  rw [← Matrix.mulVec_mulVec, hN v, hM]
  rfl

theorem Moves.congr {M : Mat4} {f g : P3 → P3} (h : Moves M f) (hfg : ∀ v, f v = g v) : Moves M g :=
  fun v => by rw [h v, hfg v]

/-- A matrix of homogeneous coordinates is known by how it transforms points. -/
theorem ext_hom {M N : Mat4} (h : ∀ v, M *ᵥ hom v = N *ᵥ hom v) : M = N := by
  have h0 := h 0
  have h1 := h ![1, 0, 0]
  have h2 := h ![0, 1, 0]
  have h3 := h ![0, 0, 1]
  ext i j
  have e0 := congrFun h0 i
  have e1 := congrFun h1 i
  have e2 := congrFun h2 i
  have e3 := congrFun h3 i
  simp [hom, Matrix.mulVec, dotProduct, Fin.sum_univ_four] at e0 e1 e2 e3
  fin_cases j
  · show M i 0 = N i 0
    linarith
  · show M i 1 = N i 1
    linarith
  · show M i 2 = N i 2
    linarith
  · exact e0

theorem Moves.unique {M N : Mat4} {f : P3 → P3} (hM : Moves M f) (hN : Moves N f) : M = N :=
  ext_hom fun v => by rw [hM v, hN v]

theorem moves_one : Moves 1 id := fun v => by rw [Matrix.one_mulVec]; rfl

theorem affine_det (A : Matrix (Fin 3) (Fin 3) ℝ) (t : P3) : (affine A t).det = A.det := by
  rw [Matrix.det_succ_row (affine A t) 3, Fin.sum_univ_four, Matrix.det_fin_three A]
  simp [affine, Matrix.det_fin_three, Fin.succAbove, Matrix.submatrix]
  ring

theorem dot3_self_nonneg (v : P3) : 0 ≤ dot3 v v := by
  unfold dot3; nlinarith [sq_nonneg (v 0), sq_nonneg (v 1), sq_nonneg (v 2)]

theorem dot3_self_eq_zero {v : P3} : dot3 v v = 0 ↔ v = 0 := by
  constructor
  · intro h
    unfold dot3 at h
    have h0 : v 0 = 0 := by nlinarith [sq_nonneg (v 0), sq_nonneg (v 1), sq_nonneg (v 2)]
    have h1 : v 1 = 0 := by nlinarith [sq_nonneg (v 0), sq_nonneg (v 1), sq_nonneg (v 2)]
    have h2 : v 2 = 0 := by nlinarith [sq_nonneg (v 0), sq_nonneg (v 1), sq_nonneg (v 2)]
    funext i
    fin_cases i <;> assumption
  · rintro rfl; simp [dot3]

/-- Unit vectors: defined exactly for vectors which are not null. -/
theorem unit3_spec (v : P3) :
    (v = 0 → unit3 v = none) ∧
    (v ≠ 0 → ∃ u, unit3 v = some u ∧ dot3 u u = 1 ∧ ∃ s : ℝ, 0 < s ∧ v = s • u ∧ s ^ 2 = dot3 v v) := by
  constructor
  · rintro rfl
    unfold unit3
    rw [if_pos (by simp [norm3, dot3])]
  · intro h
    have hpos : 0 < dot3 v v := lt_of_le_of_ne (dot3_self_nonneg v) fun h0 => h (dot3_self_eq_zero.1 h0.symm)
    have hn : 0 < norm3 v := Real.sqrt_pos.2 hpos
    have hs : norm3 v ^ 2 = dot3 v v := Real.sq_sqrt hpos.le
    refine ⟨_, by unfold unit3; rw [if_neg hn.ne'], ?_, norm3 v, hn, ?_, hs⟩
    · have : dot3 (fun i => v i / norm3 v) (fun i => v i / norm3 v) = dot3 v v / norm3 v ^ 2 := by
        unfold dot3; field_simp
      rw [this, hs, div_self hpos.ne']
    · funext i
      simp only [Pi.smul_apply, smul_eq_mul]
      field_simp

/-! ## C142 -/

/-- **C142.** `translation_matrix(d)` moves each point by `d`; `translation_from_matrix` gives `d`
back; products of translations add the directions. -/
theorem C142_translation (d e : P3) :
    Moves (translationMatrix d) (fun v => v + d) ∧
    translationFromMatrix (translationMatrix d) = d ∧
    translationMatrix d * translationMatrix e = translationMatrix (d + e) ∧
    translationMatrix d * translationMatrix (-d) = 1 ∧ identityMatrix = translationMatrix 0 := by
  have hm : ∀ d, Moves (translationMatrix d) (fun v => v + d) := fun d =>
    (moves_affine 1 d).congr fun v => by rw [Matrix.one_mulVec]
  have hmul : ∀ d e, translationMatrix d * translationMatrix e = translationMatrix (d + e) := by
    intro d e
    refine Moves.unique ((hm d).mul (hm e)) ((hm (d + e)).congr fun v => ?_)
    simp only [Function.comp_apply]
    rw [add_assoc, add_comm e d]
  have h0 : (1 : Mat4) = translationMatrix 0 :=
    Moves.unique moves_one ((hm 0).congr fun v => by simp)
  refine ⟨hm d, ?_, hmul d e, ?_, h0⟩
  · funext i
    fin_cases i <;> simp [translationFromMatrix, translationMatrix, affine]
  · rw [hmul, add_neg_cancel, h0]

/-! ## C143 -/

/-- **C143.** `reflection_matrix` with a normal which is not null: the mirror image. Each point goes
to the other side of the plane, at the same distance, along the normal; the points of the plane, and
only these, do not move; reflecting twice does nothing; distances are kept and the determinant is
-1. With a null normal the matrix has no numbers. -/
theorem C143_reflection (point normal : P3) :
    (normal = 0 → reflectionMatrix point normal = none) ∧
    (normal ≠ 0 → ∃ M f, reflectionMatrix point normal = some M ∧ Moves M f ∧
      (∀ v, Along normal (f v - v) ∧ OnPlane point normal ((1 / 2 : ℝ) • (v + f v))) ∧
      (∀ v, f v = v ↔ OnPlane point normal v) ∧
      (∀ u v, dist2 (f u) (f v) = dist2 u v) ∧ (∀ v, f (f v) = v) ∧ M * M = 1 ∧ M.det = -1) := by
  constructor
  · intro h
    unfold reflectionMatrix
    rw [(unit3_spec normal).1 h]
    rfl
  · intro h
    obtain ⟨n, h1, h2, s, hs, rfl, -⟩ := (unit3_spec normal).2 h
    have h2' : n 0 * n 0 + n 1 * n 1 + n 2 * n 2 = 1 := h2
    have hf : Moves (affine (1 - (2 : ℝ) • outer n n) fun i => 2 * dot3 point n * n i)
        (fun v => v - (2 * dot3 (v - point) n) • n) := by
      refine (moves_affine _ _).congr fun v => ?_
      funext i
      fin_cases i <;>
        simp [Matrix.mulVec, dotProduct, Fin.sum_univ_three, outer, dot3, Matrix.one_apply] <;> ring
    have hff : ∀ v : P3, (fun v : P3 => v - (2 * dot3 (v - point) n) • n)
        ((fun v : P3 => v - (2 * dot3 (v - point) n) • n) v) = v := by
      intro v
      have : dot3 (v - (2 * dot3 (v - point) n) • n - point) n = -dot3 (v - point) n := by
        simp only [dot3, Pi.sub_apply, Pi.smul_apply, smul_eq_mul]
        linear_combination (-2 * ((v 0 - point 0) * n 0 + (v 1 - point 1) * n 1 + (v 2 - point 2) * n 2)) * h2'
      simp only [this]
      funext i
      simp only [Pi.sub_apply, Pi.smul_apply, smul_eq_mul]
      ring
    refine ⟨_, _, by unfold reflectionMatrix; rw [h1]; rfl, hf, ?_, ?_, ?_, hff, ?_, ?_⟩
    · intro v
      constructor
      · refine ⟨-(2 * dot3 (v - point) n) / s, ?_⟩
        funext i
        simp only [Pi.sub_apply, Pi.smul_apply, smul_eq_mul]
        field_simp
        ring
      · unfold OnPlane
        simp only [dot3, Pi.sub_apply, Pi.add_apply, Pi.smul_apply, smul_eq_mul]
        linear_combination (-s * ((v 0 - point 0) * n 0 + (v 1 - point 1) * n 1 + (v 2 - point 2) * n 2)) * h2'
    · intro v
      have hp : OnPlane point (s • n) v ↔ dot3 (v - point) n = 0 := by
        unfold OnPlane
        have : dot3 (v - point) (s • n) = s * dot3 (v - point) n := by
          simp only [dot3, Pi.sub_apply, Pi.smul_apply, smul_eq_mul]; ring
        rw [this, mul_eq_zero, or_iff_right hs.ne']
      rw [hp]
      constructor
      · intro hv
        have : (2 * dot3 (v - point) n) • n = 0 := sub_eq_self.1 hv
        rcases smul_eq_zero.1 this with h0 | h0
        · linarith
        · rw [h0] at h2; simp [dot3] at h2
      · intro hv
        simp only [hv, mul_zero, zero_smul, sub_zero]
    · intro u v
      have hd : dot3 (u - point) n - dot3 (v - point) n =
          (u 0 - v 0) * n 0 + (u 1 - v 1) * n 1 + (u 2 - v 2) * n 2 := by
        simp only [dot3, Pi.sub_apply]; ring
      set a := dot3 (u - point) n
      set b := dot3 (v - point) n
      simp only [dist2, Pi.sub_apply, Pi.smul_apply, smul_eq_mul]
      linear_combination (4 * (a - b) ^ 2) * h2' + 4 * (a - b) * hd
    · exact Moves.unique (hf.mul hf) (moves_one.congr fun v => (hff v).symm)
    · rw [affine_det, Matrix.det_fin_three]
      simp [outer, Matrix.one_apply]
      linear_combination (-2 : ℝ) * h2'

end Verif.Geom
