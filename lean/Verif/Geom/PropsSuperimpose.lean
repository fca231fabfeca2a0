import Verif.Geom.Superimpose
import Verif.Geom.PropsQuat
import Mathlib.Analysis.Matrix.PosDef
import Mathlib.LinearAlgebra.Matrix.Trace

/-!
# `superimposition_matrix` (C155, C156)
-/

namespace Verif.Geom

open Verif Real Matrix
open Verif.Transf (Mat4 Mat3 Quat EPS dot4 quatMatrix Rot3 block)

/-! ## The sum of squares -/

/-- The sum to be maximised by the rotation. -/
def gain (H R : Mat3) : ℝ := ∑ a, ∑ b, R a b * H a b

theorem gain_eq {n : ℕ} (x y : Fin n → P3) (R : Mat3) :
    gain (covariance x y) R = ∑ i, dot3 (R *ᵥ x i) (y i) := by
  unfold gain covariance
  simp only [Matrix.of_apply, Finset.mul_sum]
  rw [Finset.sum_congr rfl fun a _ => Finset.sum_comm, Finset.sum_comm]
  refine Finset.sum_congr rfl fun i _ => ?_
  simp [dot3, Matrix.mulVec, dotProduct, Fin.sum_univ_three]
  ring

theorem rot_dot {R : Mat3} (h : Rot3 R) (u v : P3) : dot3 (R *ᵥ u) (R *ᵥ v) = dot3 u v := by
  have c := h.col
  have c00 := c 0 0
  have c01 := c 0 1
  have c02 := c 0 2
  have c11 := c 1 1
  have c12 := c 1 2
  have c22 := c 2 2
  simp at c00 c01 c02 c11 c12 c22
  simp only [dot3, Matrix.mulVec, dotProduct, Fin.sum_univ_three]
  linear_combination u 0 * v 0 * c00 + (u 0 * v 1 + u 1 * v 0) * c01 + (u 0 * v 2 + u 2 * v 0) * c02 + u 1 * v 1 * c11 +
    (u 1 * v 2 + u 2 * v 1) * c12 + u 2 * v 2 * c22

theorem error_eq {n : ℕ} (x y : Fin n → P3) {R : Mat3} (h : Rot3 R) (c : ℝ) :
    ∑ i, dist2 (c • (R *ᵥ x i)) (y i) = c ^ 2 * squares x - 2 * c * gain (covariance x y) R + squares y := by
  rw [gain_eq, squares, squares, Finset.mul_sum, Finset.mul_sum, ← Finset.sum_sub_distrib, ← Finset.sum_add_distrib]
  refine Finset.sum_congr rfl fun i _ => ?_
  rw [← rot_dot h (x i) (x i), dist2_eq]
  simp only [dot3_sub, dot3_sub', dot3_smul, dot3_smul', dot3_comm (y i) (R *ᵥ x i)]
  ring

theorem sum_moveTo {n : ℕ} (hn : n ≠ 0) (v : Fin n → P3) : ∑ i, moveTo v (mean3 v) i = 0 := by
  funext k
  rw [Finset.sum_apply]
  simp only [moveTo, mean3, Finset.sum_sub_distrib, Finset.sum_const, Finset.card_univ, Fintype.card_fin, nsmul_eq_mul,
    Pi.zero_apply]
  have : (n : ℝ) ≠ 0 := Nat.cast_ne_zero.2 hn
  field_simp
  ring

/-- Moving everything by a constant is no better than not doing so for centred vectors. -/
theorem sum_shift {n : ℕ} (w : Fin n → P3) (hw : ∑ i, w i = 0) (d : P3) :
    ∑ i, dot3 (w i) (w i) ≤ ∑ i, dot3 (w i + d) (w i + d) := by
  have e : ∀ i, dot3 (w i + d) (w i + d) = dot3 (w i) (w i) + 2 * dot3 (w i) d + dot3 d d := by
    intro i
    rw [dot3_add, dot3_add', dot3_add', dot3_comm d (w i)]
    ring
  have z : ∑ i, dot3 (w i) d = dot3 (∑ i, w i) d := by
    simp only [dot3, Finset.sum_apply, Finset.sum_mul, Finset.sum_add_distrib]
  have z0 : dot3 (0 : P3) d = 0 := by simp [dot3]
  simp only [e, Finset.sum_add_distrib, ← Finset.mul_sum, z, hw, z0]
  simp only [Finset.sum_const, Finset.card_univ, Fintype.card_fin, nsmul_eq_mul]
  have := mul_nonneg (Nat.cast_nonneg (α := ℝ) n) (dot3_self_nonneg d)
  linarith

/-- A rotation with the greatest gain, about the centroids, gives the least sum of squares. -/
theorem best_of_gain {n : ℕ} (hn : n ≠ 0) (v0 v1 : Fin n → P3) {R : Mat3} (hR : Rot3 R) {c : ℝ} (hc : 0 ≤ c)
    (h : ∀ R', Rot3 R' → gain (covariance (moveTo v0 (mean3 v0)) (moveTo v1 (mean3 v1))) R' ≤
      gain (covariance (moveTo v0 (mean3 v0)) (moveTo v1 (mean3 v1))) R) {R' : Mat3} (hR' : Rot3 R') (t' : P3) :
    ∑ i, dist2 (c • (R *ᵥ (v0 i - mean3 v0)) + mean3 v1) (v1 i) ≤ ∑ i, dist2 (c • (R' *ᵥ v0 i) + t') (v1 i) := by
  set x := moveTo v0 (mean3 v0) with hx
  set y := moveTo v1 (mean3 v1) with hy
  have e1 : ∑ i, dist2 (c • (R *ᵥ (v0 i - mean3 v0)) + mean3 v1) (v1 i) = ∑ i, dist2 (c • (R *ᵥ x i)) (y i) := by
    refine Finset.sum_congr rfl fun i _ => ?_
    rw [dist2_eq, dist2_eq]
    congr 1 <;> · funext k; simp [hx, hy, moveTo]; ring_nf; rfl
  have e2 : ∑ i, dist2 (c • (R' *ᵥ v0 i) + t') (v1 i) =
      ∑ i, dot3 ((c • (R' *ᵥ x i) - y i) + (c • (R' *ᵥ mean3 v0) + t' - mean3 v1))
        ((c • (R' *ᵥ x i) - y i) + (c • (R' *ᵥ mean3 v0) + t' - mean3 v1)) := by
    refine Finset.sum_congr rfl fun i _ => ?_
    have hxi : x i = v0 i - mean3 v0 := rfl
    have hyi : y i = v1 i - mean3 v1 := rfl
    rw [dist2_eq, hxi, hyi, Matrix.mulVec_sub]
    congr 1 <;> · rw [smul_sub]; abel
  have hw : ∑ i, (c • (R' *ᵥ x i) - y i) = 0 := by
    rw [Finset.sum_sub_distrib, ← Finset.smul_sum, ← Matrix.mulVec_sum, sum_moveTo hn, sum_moveTo hn, Matrix.mulVec_zero,
      smul_zero, sub_zero]
  rw [e1, e2, error_eq x y hR]
  refine le_trans ?_ (sum_shift _ hw _)
  have e3 : ∑ i, dot3 (c • (R' *ᵥ x i) - y i) (c • (R' *ᵥ x i) - y i) = ∑ i, dist2 (c • (R' *ᵥ x i)) (y i) :=
    Finset.sum_congr rfl fun i _ => by rw [dist2_eq]
  rw [e3, error_eq x y hR']
  have := mul_le_mul_of_nonneg_left (h R' hR') hc
  linarith

/-! ## Singular value decomposition -/

theorem rot_trace {A : Mat3} (h : Rot3 A) : -1 ≤ A 0 0 + A 1 1 + A 2 2 := by
  have hM := Transf.isRotation_of_block (Transf.homog3_homog A) (by rw [Transf.block_homog3]; exact h)
  obtain ⟨q, hq, hqm⟩ := Transf.exists_quat hM
  rw [Transf.quatMatrix_eq (by rw [hq]; exact Transf.EPS_lt_one.le), hq] at hqm
  have e0 : _ = A 0 0 := congrFun (congrFun hqm 0) 0
  have e1 : _ = A 1 1 := congrFun (congrFun hqm 1) 1
  have e2 : _ = A 2 2 := congrFun (congrFun hqm 2) 2
  rw [← e0, ← e1, ← e2]
  simp
  unfold dot4 at hq
  nlinarith [sq_nonneg (q 3), sq_nonneg (q 0), sq_nonneg (q 1), sq_nonneg (q 2)]

theorem gain_trace (H R : Mat3) : gain H R = (Rᵀ * H).trace := by
  simp only [gain, Matrix.trace, Matrix.diag, Matrix.mul_apply, Matrix.transpose_apply]
  rw [Finset.sum_comm]

theorem gain_svd {H u vh : Mat3} {s : P3} (h : IsSvd H u s vh) (R : Mat3) :
    gain H R = (vh * Rᵀ * u) 0 0 * s 0 + (vh * Rᵀ * u) 1 1 * s 1 + (vh * Rᵀ * u) 2 2 * s 2 := by
  rw [gain_trace, h.product, show Rᵀ * (u * Matrix.diagonal s * vh) = (Rᵀ * u * Matrix.diagonal s) * vh by
    simp only [Matrix.mul_assoc], Matrix.trace_mul_comm, ← Matrix.mul_assoc, ← Matrix.mul_assoc]
  simp [Matrix.trace, Fin.sum_univ_three, Matrix.mul_diagonal]

/-- The signs which make the product of the bases direct. -/
def signs (e : ℝ) : P3 := ![1, 1, e]

theorem svd_cases {H u vh : Mat3} {s : P3} (h : IsSvd H u s vh) : ∃ e : ℝ, e ^ 2 = 1 ∧ u.det * vh.det = e ∧
    svdRotation u vh = affine (u * Matrix.diagonal (signs e) * vh) 0 := by
  have hu := congrArg Matrix.det h.left
  have hv := congrArg Matrix.det h.right
  rw [Matrix.det_mul, Matrix.det_transpose, Matrix.det_one] at hu hv
  refine ⟨u.det * vh.det, by linear_combination hv * u.det ^ 2 + hu, rfl, ?_⟩
  have hz : (u.det * vh.det - 1) * (u.det * vh.det + 1) = 0 := by linear_combination hv * u.det ^ 2 + hu
  unfold svdRotation
  simp only []
  congr 1
  rcases mul_eq_zero.1 hz with h1 | h1
  · have h1 : u.det * vh.det = 1 := by linarith
    rw [Matrix.det_mul, h1, if_neg (by norm_num)]
    have : Matrix.diagonal (signs 1) = (1 : Mat3) := by
      ext i j
      fin_cases i <;> fin_cases j <;> simp [signs]
    rw [this, mul_one]
  · have h1 : u.det * vh.det = -1 := by linarith
    rw [Matrix.det_mul, h1, if_pos (by norm_num)]
    ext i j
    simp [Matrix.mul_apply, Fin.sum_univ_three, signs, Matrix.diagonal]
    ring

theorem svd_best {H u vh : Mat3} {s : P3} (h : IsSvd H u s vh) : ∃ R, svdRotation u vh = affine R 0 ∧ Rot3 R ∧
    ∀ R', Rot3 R' → gain H R' ≤ gain H R := by
  obtain ⟨e, he, hdet, heq⟩ := svd_cases h
  have hu' : u * uᵀ = 1 := mul_eq_one_comm.1 h.left
  have hv' : vhᵀ * vh = 1 := mul_eq_one_comm.1 h.right
  have hE : Matrix.diagonal (signs e) * Matrix.diagonal (signs e) = (1 : Mat3) := by
    ext i j
    fin_cases i <;> fin_cases j <;> simp [signs, ← pow_two, he]
  refine ⟨_, heq, ⟨?_, ?_⟩, fun R' hR' => ?_⟩
  · rw [Matrix.transpose_mul, Matrix.transpose_mul, Matrix.diagonal_transpose]
    calc u * Matrix.diagonal (signs e) * vh * (vhᵀ * (Matrix.diagonal (signs e) * uᵀ))
        = u * (Matrix.diagonal (signs e) * (vh * vhᵀ) * Matrix.diagonal (signs e)) * uᵀ := by
          simp only [Matrix.mul_assoc]
      _ = 1 := by rw [h.right, mul_one, hE, mul_one, hu']
  · rw [Matrix.det_mul, Matrix.det_mul, Matrix.det_diagonal]
    simp only [Fin.prod_univ_three, signs]
    simp
    linear_combination e * hdet + he
  · rw [gain_svd h, gain_svd h]
    have hQ : vh * (u * Matrix.diagonal (signs e) * vh)ᵀ * u = Matrix.diagonal (signs e) := by
      rw [Matrix.transpose_mul, Matrix.transpose_mul, Matrix.diagonal_transpose]
      calc vh * (vhᵀ * (Matrix.diagonal (signs e) * uᵀ)) * u
          = (vh * vhᵀ) * Matrix.diagonal (signs e) * (uᵀ * u) := by simp only [Matrix.mul_assoc]
        _ = _ := by rw [h.right, h.left, one_mul, mul_one]
    rw [hQ]
    set Q := vh * R'ᵀ * u with hQd
    have hQQ : Q * Qᵀ = 1 := by
      rw [hQd, Matrix.transpose_mul, Matrix.transpose_mul, Matrix.transpose_transpose]
      calc vh * R'ᵀ * u * (uᵀ * (R' * vhᵀ)) = vh * (R'ᵀ * (u * uᵀ) * R') * vhᵀ := by simp only [Matrix.mul_assoc]
        _ = 1 := by rw [hu', mul_one, hR'.orthogonal', mul_one, h.right]
    have hQdet : Q.det = e := by
      rw [hQd, Matrix.det_mul, Matrix.det_mul, Matrix.det_transpose, hR'.det, ← hdet]
      ring
    have hle : ∀ k, Q k k ≤ 1 := by
      intro k
      have := congrFun (congrFun hQQ k) k
      simp only [Matrix.mul_apply, Matrix.transpose_apply, Fin.sum_univ_three, Matrix.one_apply_eq] at this
      fin_cases k <;> simp at this ⊢ <;>
        nlinarith [sq_nonneg (Q 0 0), sq_nonneg (Q 0 1), sq_nonneg (Q 0 2), sq_nonneg (Q 1 0), sq_nonneg (Q 1 1),
          sq_nonneg (Q 1 2), sq_nonneg (Q 2 0), sq_nonneg (Q 2 1), sq_nonneg (Q 2 2)]
    have s2 := h.nonneg
    have s1 := h.sorted.2.trans' s2
    have s0 := h.sorted.1.trans' s1
    simp only [Matrix.diagonal_apply_eq, signs, Matrix.cons_val_zero, Matrix.cons_val_one, Matrix.cons_val]
    have hz : (e - 1) * (e + 1) = 0 := by linear_combination he
    rcases mul_eq_zero.1 hz with h1 | h1
    · have h1 : e = 1 := by linarith
      rw [h1]
      have := mul_le_mul_of_nonneg_right (hle 0) s0
      have := mul_le_mul_of_nonneg_right (hle 1) s1
      have := mul_le_mul_of_nonneg_right (hle 2) s2
      linarith
    · have h1 : e = -1 := by linarith
      rw [h1]
      have htr := rot_trace (A := -Q) ⟨by rw [Matrix.transpose_neg, neg_mul_neg, hQQ], by
        rw [Matrix.det_neg, hQdet, h1]
        simp
        norm_num⟩
      simp only [Matrix.neg_apply] at htr
      have a1 := mul_nonneg s2 (by linarith : (0 : ℝ) ≤ 1 - (Q 0 0 + Q 1 1 + Q 2 2))
      have a2 := mul_nonneg (sub_nonneg.2 h.sorted.2) (by linarith [hle 0, hle 1] : (0 : ℝ) ≤ 2 - (Q 0 0 + Q 1 1))
      have a3 := mul_nonneg (sub_nonneg.2 h.sorted.1) (by linarith [hle 0] : (0 : ℝ) ≤ 1 - Q 0 0)
      linarith

/-! ## Quaternions -/

theorem argmax4_spec (l : Fin 4 → ℝ) (k : Fin 4) : l k ≤ l (argmax4 l) := by
  unfold argmax4
  simp only []
  fin_cases k <;> simp only [Fin.zero_eta, Fin.mk_one, Fin.reduceFinMk] <;> split_ifs <;> linarith

theorem hornMatrix_symm {n : ℕ} (x y : Fin n → P3) : (hornMatrix x y)ᵀ = hornMatrix x y := by
  ext i j
  fin_cases i <;> fin_cases j <;> simp [hornMatrix]

/-- The quadratic form of the symmetric matrix is the gain of the rotation of the quaternion. -/
theorem horn_form {n : ℕ} (x y : Fin n → P3) {q : Quat} (h : dot4 q q = 1) :
    gain (covariance x y) (block (quatMatrix ![q 1, q 2, q 3, q 0])) = q ⬝ᵥ (hornMatrix x y *ᵥ q) := by
  have hq : dot4 ![q 1, q 2, q 3, q 0] ![q 1, q 2, q 3, q 0] = 1 := by
    rw [← h]
    simp [dot4]
    ring
  rw [Transf.quatMatrix_eq (by rw [hq]; exact Transf.EPS_lt_one.le), hq]
  have hc : ∀ a b, covariance x y a b = products x y b a := by
    intro a b
    simp only [covariance, products, Matrix.of_apply, mul_comm]
  unfold gain hornMatrix
  simp only [hc, block, Matrix.submatrix_apply, Fin.sum_univ_three, Matrix.mulVec, dotProduct, Fin.sum_univ_four]
  generalize products x y = P
  simp [Fin.castSucc, Fin.castAdd, Fin.castLE]
  unfold dot4 at h
  linear_combination (-(P 0 0 + P 1 1 + P 2 2)) * h

theorem rayleigh {N V : Mat4} {l : Fin 4 → ℝ} (hN : Nᵀ = N) (h : IsEig N l V) (q : Quat) :
    q ⬝ᵥ (N *ᵥ q) ≤ l (argmax4 l) * dot4 q q := by
  set m := l (argmax4 l) with hm
  have hH : (m • (1 : Mat4) - N).IsHermitian := by
    unfold Matrix.IsHermitian
    rw [Matrix.conjTranspose_eq_transpose_of_trivial, Matrix.transpose_sub, Matrix.transpose_smul, Matrix.transpose_one, hN]
  have hps : (m • (1 : Mat4) - N).PosSemidef := by
    rw [hH.posSemidef_iff_eigenvalues_nonneg]
    intro j
    have e := hH.mulVec_eigenvectorBasis j
    have hne : (⇑(hH.eigenvectorBasis j) : Fin 4 → ℝ) ≠ 0 := by
      intro h0
      refine hH.eigenvectorBasis.toBasis.ne_zero j ?_
      rw [OrthonormalBasis.coe_toBasis]
      ext i
      exact congrFun h0 i
    rw [Matrix.sub_mulVec, Matrix.smul_mulVec, Matrix.one_mulVec] at e
    obtain ⟨k, hk⟩ := h.all _ (m - hH.eigenvalues j) hne (by rw [sub_smul, ← e]; abel)
    have := argmax4_spec l k
    rw [hk, ← hm] at this
    simpa using this
  have := hps.re_dotProduct_nonneg q
  rw [Matrix.sub_mulVec, Matrix.smul_mulVec, Matrix.one_mulVec, dotProduct_sub, dotProduct_smul] at this
  simp only [star_trivial, RCLike.re_to_real, smul_eq_mul] at this
  have e : q ⬝ᵥ q = dot4 q q := by simp [dotProduct, dot4, Fin.sum_univ_four]
  rw [e] at this
  linarith

theorem horn_best {n : ℕ} (x y : Fin n → P3) {l : Fin 4 → ℝ} {V : Mat4} (h : IsEig (hornMatrix x y) l V) :
    ∃ R, hornRotation l V = some (affine R 0) ∧ Rot3 R ∧
      ∀ R', Rot3 R' → gain (covariance x y) R' ≤ gain (covariance x y) R := by
  have hu := h.unit (argmax4 l)
  have hv := h.vector (argmax4 l)
  set q : Quat := fun a => V a (argmax4 l) with hq
  have hsome : unit4 q = some q := by
    unfold unit4
    rw [show Transf.norm4 q = 1 by rw [Transf.norm4, hu, Real.sqrt_one], if_neg one_ne_zero]
    simp
  have hrot := (Transf.C93_rotation ![q 1, q 2, q 3, q 0]).1
  refine ⟨block (quatMatrix ![q 1, q 2, q 3, q 0]), ?_, hrot.block, fun R' hR' => ?_⟩
  · unfold hornRotation
    rw [← hq, hsome]
    simp only [Option.bind_eq_bind, Option.bind_some, Option.pure_def]
    congr 1
    exact (Transf.homog3_block hrot.homog).symm
  · have hM := Transf.isRotation_of_block (Transf.homog3_homog R') (by rw [Transf.block_homog3]; exact hR')
    obtain ⟨p, hp, hpm⟩ := Transf.exists_quat hM
    have hp' : dot4 ![p 3, p 0, p 1, p 2] ![p 3, p 0, p 1, p 2] = 1 := by
      rw [← hp]
      simp [dot4]
      ring
    have e1 := horn_form x y hp'
    have e2 : (![![p 3, p 0, p 1, p 2] 1, ![p 3, p 0, p 1, p 2] 2, ![p 3, p 0, p 1, p 2] 3, ![p 3, p 0, p 1, p 2] 0] : Quat)
        = p := by
      funext i
      fin_cases i <;> rfl
    rw [e2, hpm, Transf.block_homog3] at e1
    rw [e1, horn_form x y hu, hv, dotProduct_smul, smul_eq_mul]
    refine (rayleigh (hornMatrix_symm x y) h _).trans (le_of_eq ?_)
    rw [hp', ← hu]
    simp [dotProduct, dot4, Fin.sum_univ_four]

/-! ## The properties -/

/-- What the function expects of the library, for the matrix it gives it. -/
def Library {n : ℕ} (svd : Mat3 → Mat3 × P3 × Mat3) (eig : Mat4 → (Fin 4 → ℝ) × Mat4) (v0 v1 : Fin n → P3)
    (usesvd : Bool) : Prop :=
  if usesvd then
    IsSvd (covariance (moveTo v0 (mean3 v0)) (moveTo v1 (mean3 v1)))
      (svd (covariance (moveTo v0 (mean3 v0)) (moveTo v1 (mean3 v1)))).1
      (svd (covariance (moveTo v0 (mean3 v0)) (moveTo v1 (mean3 v1)))).2.1
      (svd (covariance (moveTo v0 (mean3 v0)) (moveTo v1 (mean3 v1)))).2.2
  else
    IsEig (hornMatrix (moveTo v0 (mean3 v0)) (moveTo v1 (mean3 v1)))
      (eig (hornMatrix (moveTo v0 (mean3 v0)) (moveTo v1 (mean3 v1)))).1
      (eig (hornMatrix (moveTo v0 (mean3 v0)) (moveTo v1 (mean3 v1)))).2

/-- The centroid of points. -/
noncomputable def centroid {n : ℕ} (v : Fin n → P3) : P3 := (1 / (n : ℝ)) • ∑ i, v i

/-- The sum of the squares of the distances to the centroid. -/
noncomputable def spread {n : ℕ} (v : Fin n → P3) : ℝ := ∑ i, dist2 (v i) (centroid v)

theorem mean3_eq {n : ℕ} (v : Fin n → P3) : mean3 v = centroid v := by
  funext k
  simp [mean3, centroid, Finset.sum_apply]
  ring

theorem squares_eq {n : ℕ} (v : Fin n → P3) : squares (moveTo v (mean3 v)) = spread v := by
  rw [squares, spread, ← mean3_eq]
  exact Finset.sum_congr rfl fun i _ => by simp [dist2, dot3, moveTo]; ring

theorem spread_nonneg {n : ℕ} (v : Fin n → P3) : 0 ≤ spread v :=
  Finset.sum_nonneg fun i _ => by unfold dist2; positivity

theorem dist2_eq_zero {u v : P3} : dist2 u v = 0 ↔ u = v := by
  rw [dist2_eq, dot3_self_eq_zero, sub_eq_zero]

theorem spread_eq_zero {n : ℕ} (v : Fin n → P3) : spread v = 0 ↔ ∀ i j, v i = v j := by
  have h0 : spread v = 0 ↔ ∀ i, v i = centroid v := by
    unfold spread
    rw [Finset.sum_eq_zero_iff_of_nonneg fun i _ => by unfold dist2; positivity]
    simp [dist2_eq_zero]
  rw [h0]
  constructor
  · intro h i j
    rw [h i, h j]
  · intro h i
    have : ∑ j, v j = (n : ℝ) • v i := by
      rw [Finset.sum_congr rfl fun j _ => h j i]
      simp [← Nat.cast_smul_eq_nsmul ℝ]
    have hn : (n : ℝ) ≠ 0 := Nat.cast_ne_zero.2 (by have := i.2; omega)
    rw [centroid, this, smul_smul, one_div_mul_cancel hn, one_smul]

theorem superEnd_moves (R : Mat3) (c : ℝ) (t0 t1 : P3) :
    Moves (superEnd (affine R 0) c t0 t1) (fun v => c • (R *ᵥ (v - t0)) + t1) := by
  have e : superEnd (affine R 0) c t0 t1 = affine (c • R) t1 * affine 1 (fun k => -t0 k) := by
    unfold superEnd
    congr 1
    ext i j
    fin_cases i <;> fin_cases j <;> simp [affine, mul_comm]
  rw [e]
  refine ((moves_affine _ _).mul (moves_affine _ _)).congr fun v => ?_
  funext k
  fin_cases k <;>
  · simp [Matrix.mulVec, dotProduct, Fin.sum_univ_three]
    ring

theorem superimpose_spec {n : ℕ} {svd : Mat3 → Mat3 × P3 × Mat3} {eig : Mat4 → (Fin 4 → ℝ) × Mat4} {v0 v1 : Fin n → P3}
    {usesvd : Bool} (h : Library svd eig v0 v1 usesvd) (scaling : Bool) :
    ∃ R, Rot3 R ∧ (∀ R', Rot3 R' → gain (covariance (moveTo v0 (mean3 v0)) (moveTo v1 (mean3 v1))) R' ≤
      gain (covariance (moveTo v0 (mean3 v0)) (moveTo v1 (mean3 v1))) R) ∧
      superimpose svd eig v0 v1 scaling usesvd =
        (superScale (moveTo v0 (mean3 v0)) (moveTo v1 (mean3 v1)) scaling).map
          fun c => superEnd (affine R 0) c (mean3 v0) (mean3 v1) := by
  unfold Library at h
  unfold superimpose
  cases usesvd
  · obtain ⟨R, h1, h2, h3⟩ := horn_best _ _ (by simpa using h)
    refine ⟨R, h2, h3, ?_⟩
    simp only [Bool.false_eq_true, if_false, h1, Option.bind_eq_bind, Option.bind_some, Option.pure_def]
    cases superScale (moveTo v0 (mean3 v0)) (moveTo v1 (mean3 v1)) scaling <;> rfl
  · obtain ⟨R, h1, h2, h3⟩ := svd_best (by simpa using h)
    refine ⟨R, h2, h3, ?_⟩
    simp only [if_true, h1, Option.bind_eq_bind, Option.bind_some, Option.pure_def]
    cases superScale (moveTo v0 (mean3 v0)) (moveTo v1 (mean3 v1)) scaling <;> rfl

theorem superScale_spec {n : ℕ} (v0 v1 : Fin n → P3) (scaling : Bool) :
    (superScale (moveTo v0 (mean3 v0)) (moveTo v1 (mean3 v1)) scaling = none ↔ scaling = true ∧ spread v0 = 0) ∧
    ∀ c, superScale (moveTo v0 (mean3 v0)) (moveTo v1 (mean3 v1)) scaling = some c → 0 ≤ c ∧
      (scaling = false → c = 1) ∧ (scaling = true → c ^ 2 * spread v0 = spread v1) := by
  unfold superScale
  rw [squares_eq, squares_eq]
  cases scaling
  · simp only [Bool.false_eq_true, if_false, false_and, reduceCtorEq, Option.some.injEq, iff_false, not_false_eq_true, true_and]
    rintro c rfl
    exact ⟨zero_le_one, fun _ => rfl, fun h => h.elim⟩
  · simp only [if_true, true_and]
    by_cases h0 : spread v0 = 0
    · simp [h0]
    · simp only [h0, if_false, reduceCtorEq, Option.some.injEq, true_and, iff_false, not_false_eq_true]
      rintro c rfl
      refine ⟨Real.sqrt_nonneg _, fun h => by simp at h, fun _ => ?_⟩
      rw [Real.sq_sqrt (div_nonneg (spread_nonneg _) (spread_nonneg _)), div_mul_cancel₀ _ h0]

/-- C155: the matrix puts the centroid of the first points on the centroid of the second points. It is a rotation and
a uniform change of scale, by one without `scaling` and otherwise by the ratio of the root mean square deviations. No
other rotation and translation with this scale has a lower sum of squared distances. -/
theorem C155_least {n : ℕ} {svd : Mat3 → Mat3 × P3 × Mat3} {eig : Mat4 → (Fin 4 → ℝ) × Mat4} {v0 v1 : Fin n → P3}
    {usesvd : Bool} (h : Library svd eig v0 v1 usesvd) {scaling : Bool} {M : Mat4}
    (hM : superimpositionMatrix svd eig v0 v1 scaling usesvd = .ok (some M)) :
    ∃ (R : Mat3) (c : ℝ) (t : P3), Rot3 R ∧ 0 ≤ c ∧ (scaling = false → c = 1) ∧
      (scaling = true → c ^ 2 * spread v0 = spread v1) ∧ Moves M (fun v => c • (R *ᵥ v) + t) ∧
      c • (R *ᵥ centroid v0) + t = centroid v1 ∧
      ∀ R' t', Rot3 R' →
        ∑ i, dist2 (c • (R *ᵥ v0 i) + t) (v1 i) ≤ ∑ i, dist2 (c • (R' *ᵥ v0 i) + t') (v1 i) := by
  unfold superimpositionMatrix at hM
  split_ifs at hM with hn
  push Not at hn
  simp only [Except.ok.injEq, Fin.cast_refl, id_eq] at hM
  obtain ⟨R, hR, hbest, heq⟩ := superimpose_spec h scaling
  have hs := (superScale_spec v0 v1 scaling).2
  rw [heq] at hM
  obtain ⟨c, hc, rfl⟩ := Option.map_eq_some_iff.1 hM
  obtain ⟨c0, c1, c2⟩ := hs c hc
  have e : ∀ v, c • (R *ᵥ (v - mean3 v0)) + mean3 v1 = c • (R *ᵥ v) + (mean3 v1 - c • (R *ᵥ mean3 v0)) := by
    intro v
    rw [Matrix.mulVec_sub, smul_sub]
    abel
  refine ⟨R, c, mean3 v1 - c • (R *ᵥ mean3 v0), hR, c0, c1, c2, (superEnd_moves R c _ _).congr e, ?_, fun R' t' hR' => ?_⟩
  · rw [← mean3_eq, ← mean3_eq]
    abel
  · have := best_of_gain (by omega) v0 v1 hR c0 hbest hR' t'
    simpa only [e] using this

/-- C155: `ValueError` for sets of different sizes or of less than three points; otherwise the entries are numbers but
for the first points all in the same place when the scale is asked for. -/
theorem C155_defined {n0 n1 : ℕ} (svd : Mat3 → Mat3 × P3 × Mat3) (eig : Mat4 → (Fin 4 → ℝ) × Mat4) (v0 : Fin n0 → P3)
    (v1 : Fin n1 → P3) (scaling usesvd : Bool) :
    ((∃ e, superimpositionMatrix svd eig v0 v1 scaling usesvd = .error e) ↔ n0 ≠ n1 ∨ n0 < 3) ∧
    (∀ e, superimpositionMatrix svd eig v0 v1 scaling usesvd = .error e → e = .valueError) ∧
    ∀ w : Fin n0 → P3, Library svd eig v0 w usesvd → 3 ≤ n0 →
      (superimpositionMatrix svd eig v0 w scaling usesvd = .ok none ↔ scaling = true ∧ ∀ i j, v0 i = v0 j) := by
  refine ⟨?_, ?_, ?_⟩
  · unfold superimpositionMatrix
    split_ifs with hn
    · simp [hn]
    · simp [hn]
  · unfold superimpositionMatrix
    split_ifs with hn
    · simp
    · simp
  · intro w h hn
    unfold superimpositionMatrix
    rw [dif_neg (by omega)]
    simp only [Except.ok.injEq, Fin.cast_refl, id_eq]
    obtain ⟨R, hR, hbest, heq⟩ := superimpose_spec h scaling
    rw [heq, Option.map_eq_none_iff, (superScale_spec v0 w scaling).1, spread_eq_zero]

/-- C156: when the second points are the first ones rotated, moved, and, when the scale is asked for, scaled, the
matrix maps each first point exactly on the second one. -/
theorem C156_exact {n : ℕ} {svd : Mat3 → Mat3 × P3 × Mat3} {eig : Mat4 → (Fin 4 → ℝ) × Mat4} {v0 v1 : Fin n → P3}
    {usesvd : Bool} (h : Library svd eig v0 v1 usesvd) (scaling : Bool) (hn : 3 ≤ n) {R0 : Mat3} (hR0 : Rot3 R0) {c0 : ℝ}
    (hc0 : 0 ≤ c0) (t0 : P3) (hv : ∀ i, v1 i = c0 • (R0 *ᵥ v0 i) + t0) (hs : scaling = false → c0 = 1)
    (hne : scaling = true → ∃ i j, v0 i ≠ v0 j) :
    ∃ M, superimpositionMatrix svd eig v0 v1 scaling usesvd = .ok (some M) ∧ ∀ i, M *ᵥ hom (v0 i) = hom (v1 i) := by
  have hn0 : (n : ℝ) ≠ 0 := Nat.cast_ne_zero.2 (by omega)
  have hdef : ∃ M, superimpositionMatrix svd eig v0 v1 scaling usesvd = .ok (some M) := by
    have d := C155_defined svd eig v0 v1 scaling usesvd
    cases hr : superimpositionMatrix svd eig v0 v1 scaling usesvd with
    | error e => have := d.1.1 ⟨e, hr⟩; omega
    | ok o =>
      cases o with
      | some M => exact ⟨M, rfl⟩
      | none =>
        obtain ⟨h1, h2⟩ := ((d.2.2 v1 h hn).1 hr)
        obtain ⟨i, j, hij⟩ := hne h1
        exact absurd (h2 i j) hij
  obtain ⟨M, hM⟩ := hdef
  refine ⟨M, hM, ?_⟩
  obtain ⟨R, c, t, hR, hc, hc1, hc2, hmv, hcen, hmin⟩ := C155_least h hM
  have hcen0 : centroid v1 = c0 • (R0 *ᵥ centroid v0) + t0 := by
    have e : ∑ i, v1 i = c0 • (R0 *ᵥ ∑ i, v0 i) + (n : ℝ) • t0 := by
      simp only [hv, Finset.sum_add_distrib, ← Finset.smul_sum, ← Matrix.mulVec_sum]
      simp [← Nat.cast_smul_eq_nsmul ℝ]
    rw [centroid, e, smul_add, smul_smul (1 / (n : ℝ)) (n : ℝ), one_div_mul_cancel hn0, one_smul, centroid,
      Matrix.mulVec_smul, smul_comm]
  have hspread : spread v1 = c0 ^ 2 * spread v0 := by
    rw [spread, spread, Finset.mul_sum]
    refine Finset.sum_congr rfl fun i _ => ?_
    rw [hv i, hcen0, dist2_eq, dist2_eq, add_sub_add_right_eq_sub, ← smul_sub, ← Matrix.mulVec_sub, dot3_smul, dot3_smul',
      rot_dot hR0]
    ring
  have hcc : c = c0 := by
    cases scaling with
    | false => rw [hc1 rfl, hs rfl]
    | true =>
      have h1 := hc2 rfl
      rw [hspread] at h1
      have h2 : spread v0 ≠ 0 := by
        rw [Ne, spread_eq_zero]
        obtain ⟨i, j, hij⟩ := hne rfl
        exact fun h => hij (h i j)
      have h3 := mul_right_cancel₀ h2 h1
      exact (sq_eq_sq₀ hc hc0).1 h3
  have hz := hmin R0 t0 hR0
  have e0 : ∑ i, dist2 (c • (R0 *ᵥ v0 i) + t0) (v1 i) = 0 :=
    Finset.sum_eq_zero fun i _ => by rw [dist2_eq_zero, hv i, hcc]
  rw [e0] at hz
  have hz' := le_antisymm hz (Finset.sum_nonneg fun i _ => by unfold dist2; positivity)
  rw [Finset.sum_eq_zero_iff_of_nonneg fun i _ => by unfold dist2; positivity] at hz'
  intro i
  exact (hmv _).trans (congrArg hom (dist2_eq_zero.1 (hz' i (Finset.mem_univ i))))

end Verif.Geom
