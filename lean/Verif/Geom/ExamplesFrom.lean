import Verif.Geom.PropsFromMatrix3

/-!
# Cases meeting the hypotheses of the theorems on the functions `*_from_matrix`
-/

namespace Verif.Geom

open Verif Real Matrix
open Verif.Transf (Mat4 Mat3 Rot3 block)

/-- Real eigenvectors, of a matrix which has at most two eigenvalues, meet the contract. -/
theorem isEigC_two {n : ℕ} {A : Matrix (Fin n) (Fin n) ℝ} {l : Fin n → ℝ} {W : Matrix (Fin n) (Fin n) ℝ} {a b : ℝ}
    (hsq : A * A = (a + b) • A - (a * b) • 1) (hv : ∀ k, A *ᵥ (fun i => W i k) = l k • fun i => W i k)
    (hu : ∀ k, ∑ i, W i k * W i k = 1) (ha : ∃ k, l k = a) (hb : (∃ k, l k = b) ∨ ∀ x, A *ᵥ x = b • x → x = 0) :
    IsEigC A (fun k => (l k : ℂ)) (W.map Complex.ofReal) where
  vector k := by
    funext i
    have := congrFun (hv k) i
    simp only [Matrix.mulVec, dotProduct, Matrix.map_apply, Pi.smul_apply, smul_eq_mul] at this ⊢
    exact_mod_cast this
  unit k := by
    simpa [Complex.normSq_ofReal] using hu k
  real k _ i := by simp
  all x μ hx h := by
    have h2 : (A * A) *ᵥ x = (μ * μ) • x := by
      rw [← Matrix.mulVec_mulVec, h, Matrix.mulVec_smul, h, smul_smul]
    rw [hsq, Matrix.sub_mulVec, Matrix.smul_mulVec, Matrix.smul_mulVec, Matrix.one_mulVec, h, smul_smul] at h2
    obtain ⟨i, hi⟩ := Function.ne_iff.1 hx
    have hi2 := congrFun h2 i
    simp only [Pi.sub_apply, Pi.smul_apply, smul_eq_mul, Pi.zero_apply] at hi2 hi
    have h3 : ((μ - a) * (μ - b)) * x i = 0 := by linear_combination -hi2
    rcases mul_eq_zero.1 ((mul_eq_zero.1 h3).resolve_right hi) with h4 | h4
    · obtain ⟨k, hk⟩ := ha
      exact ⟨k, by rw [hk, sub_eq_zero.1 h4]⟩
    · rcases hb with ⟨k, hk⟩ | hb
      · exact ⟨k, by rw [hk, sub_eq_zero.1 h4]⟩
      · rw [sub_eq_zero.1 h4] at h
        exact absurd (hb x h) hx

/-- A library which gives these eigenvalues and eigenvectors. -/
noncomputable def gives {n : ℕ} (l : Fin n → ℝ) (W : Matrix (Fin n) (Fin n) ℝ) : Eig n :=
  fun _ => (fun k => (l k : ℂ), W.map Complex.ofReal)

theorem sqrt_half : (1 / √2) * (1 / √2) = (1 / 2 : ℝ) := by
  rw [div_mul_div_comm, Real.mul_self_sqrt (by norm_num), one_mul]

/-- The eigenvectors of the matrices of the examples: those of the axes, and that of a point at the height one. -/
noncomputable def above : Mat4 := !![1, 0, 0, 0; 0, 1, 0, 0; 0, 0, 1, 1 / √2; 0, 0, 0, 1 / √2]

theorem above_unit (k : Fin 4) : ∑ i, above i k * above i k = 1 := by
  have := sqrt_half
  fin_cases k <;> simp [above, Fin.sum_univ_four]
  simp at this
  linarith

theorem one_unit {n : ℕ} (k : Fin n) : ∑ i, (1 : Matrix (Fin n) (Fin n) ℝ) i k * (1 : Matrix (Fin n) (Fin n) ℝ) i k = 1 := by
  simp [Matrix.one_apply]

theorem unit3_z : unit3 ![0, 0, 1] = some ![0, 0, 1] := unit3_of_one (by simp [dot3])

theorem unit3_x : unit3 ![1, 0, 0] = some ![1, 0, 0] := unit3_of_one (by simp [dot3])

/-- The mirror at the height one. -/
def mirrorZ : Mat4 := !![1, 0, 0, 0; 0, 1, 0, 0; 0, 0, -1, 2; 0, 0, 0, 1]

theorem mirrorZ_eq : reflectionMatrix ![0, 0, 1] ![0, 0, 1] = some mirrorZ := by
  unfold reflectionMatrix
  rw [unit3_z]
  simp only [Option.bind_eq_bind, Option.bind_some, Option.pure_def]
  congr 1
  ext i j
  fin_cases i <;> fin_cases j <;> simp [affine, outer, dot3, mirrorZ, Matrix.vecHead, Matrix.vecTail] <;> norm_num

theorem mirrorZ_eig3 : IsEigC (block mirrorZ) (gives ![1, 1, -1] 1 (block mirrorZ)).1 (gives ![1, 1, -1] 1 (block mirrorZ)).2 := by
  refine isEigC_two (a := 1) (b := -1) ?_ (fun k => ?_) one_unit ⟨0, rfl⟩ (.inl ⟨2, rfl⟩)
  · ext i j
    fin_cases i <;> fin_cases j <;>
      simp [block, mirrorZ, Matrix.mul_apply, Fin.sum_univ_three, Fin.castSucc, Fin.castAdd, Fin.castLE]
  · funext i
    fin_cases i <;> fin_cases k <;>
      simp [block, mirrorZ, Matrix.mulVec, dotProduct, Fin.sum_univ_three, Fin.castSucc, Fin.castAdd, Fin.castLE]

theorem mirrorZ_eig4 : IsEigC mirrorZ (gives ![1, 1, -1, 1] above mirrorZ).1 (gives ![1, 1, -1, 1] above mirrorZ).2 := by
  refine isEigC_two (a := 1) (b := -1) ?_ (fun k => ?_) above_unit ⟨0, rfl⟩ (.inl ⟨2, rfl⟩)
  · ext i j
    fin_cases i <;> fin_cases j <;> simp [mirrorZ, Matrix.mul_apply, Fin.sum_univ_four]
  · funext i
    fin_cases i <;> fin_cases k <;> simp [mirrorZ, above, Matrix.mulVec, dotProduct, Fin.sum_univ_four]
    ring

theorem above_weight {l : Fin 4 → ℝ} {μ : ℂ} (h : (l 3 : ℂ) = μ) (M : Mat4) : ¬Weightless (gives l above M) μ := by
  rintro ⟨k, -, h1, h2⟩
  have hk : k = 3 := by
    by_contra hne
    exact h1 3 (by omega) h
  subst hk
  simp [gives, above] at h2

/-- C157: the mirror is found. -/
example : ∃ p n, reflectionFromMatrix (gives ![1, 1, -1] 1) (gives ![1, 1, -1, 1] above) mirrorZ = .ok (some (p, n)) ∧
    p 3 = 1 ∧ dot3 n n = 1 ∧ reflectionMatrix (first3 p) n = some mirrorZ := by
  obtain ⟨o, ho, h, hno⟩ := C157_reflection mirrorZ_eq mirrorZ_eig3 mirrorZ_eig4
  cases o with
  | none => exact absurd (hno rfl) (above_weight (by simp) _)
  | some r => exact ⟨r.1, r.2, ho, h _ _ rfl⟩

/-- Half a turn about the last axis. -/
def halfTurn : Mat3 := !![-1, 0, 0; 0, -1, 0; 0, 0, 1]

theorem halfTurn_rot : Rot3 halfTurn where
  orthogonal := by
    ext i j
    fin_cases i <;> fin_cases j <;> simp [halfTurn, Matrix.mul_apply, Fin.sum_univ_three]
  det := by simp [halfTurn, Matrix.det_fin_three]

theorem halfTurn_eig3 : IsEigC halfTurnᵀ (gives ![-1, -1, 1] 1 halfTurnᵀ).1 (gives ![-1, -1, 1] 1 halfTurnᵀ).2 := by
  refine isEigC_two (a := 1) (b := -1) ?_ (fun k => ?_) one_unit ⟨2, rfl⟩ (.inl ⟨0, rfl⟩)
  · ext i j
    fin_cases i <;> fin_cases j <;> simp [halfTurn, Matrix.mul_apply, Fin.sum_univ_three]
  · funext i
    fin_cases i <;> fin_cases k <;> simp [halfTurn, Matrix.mulVec, dotProduct, Fin.sum_univ_three]

theorem halfTurn_eig4 : IsEigC (affine halfTurn 0) (gives ![-1, -1, 1, 1] above (affine halfTurn 0)).1
    (gives ![-1, -1, 1, 1] above (affine halfTurn 0)).2 := by
  refine isEigC_two (a := 1) (b := -1) ?_ (fun k => ?_) above_unit ⟨2, rfl⟩ (.inl ⟨0, rfl⟩)
  · ext i j
    fin_cases i <;> fin_cases j <;> simp [halfTurn, affine, Matrix.mul_apply, Fin.sum_univ_four]
  · funext i
    fin_cases i <;> fin_cases k <;> simp [halfTurn, affine, above, Matrix.mulVec, dotProduct, Fin.sum_univ_four]

/-- C158: half a turn is found. -/
example : ∃ a d p, rotationFromMatrix (gives ![-1, -1, 1] 1) (gives ![-1, -1, 1, 1] above) (affine halfTurn 0) =
    .ok (some (a, d, p)) ∧ rotationMatrix a d (some (first3 p)) = some (affine halfTurn 0) := by
  obtain ⟨o, ho, h, hno⟩ := C158_rotation halfTurn_rot 0 (.inr (by simp [cosine, halfTurn]; norm_num)) halfTurn_eig3 halfTurn_eig4
  cases o with
  | none => exact absurd (hno rfl) (above_weight (by simp) _)
  | some r => exact ⟨r.1, r.2.1, r.2.2, ho, (h _ _ _ rfl).2.2.2.2⟩

/-- Doubling from the height one. -/
def doubleZ : Mat4 := !![2, 0, 0, 0; 0, 2, 0, 0; 0, 0, 2, -1; 0, 0, 0, 1]

theorem doubleZ_eq : scaleMatrix 2 (some ![0, 0, 1]) none = some doubleZ := by
  unfold scaleMatrix
  simp only [Option.some.injEq]
  ext i j
  fin_cases i <;> fin_cases j <;> simp [affine, doubleZ] <;> norm_num

theorem doubleZ_eig3 : IsEigC (block doubleZ) (gives ![2, 2, 2] 1 (block doubleZ)).1 (gives ![2, 2, 2] 1 (block doubleZ)).2 := by
  refine isEigC_two (a := 2) (b := 2) ?_ (fun k => ?_) one_unit ⟨2, rfl⟩ (.inl ⟨0, rfl⟩)
  · ext i j
    fin_cases i <;> fin_cases j <;>
      simp [block, doubleZ, Matrix.mul_apply, Fin.sum_univ_three, Fin.castSucc, Fin.castAdd, Fin.castLE] <;> norm_num
  · funext i
    fin_cases i <;> fin_cases k <;>
      simp [block, doubleZ, Matrix.mulVec, dotProduct, Fin.sum_univ_three, Fin.castSucc, Fin.castAdd, Fin.castLE]

theorem doubleZ_eig4 : IsEigC doubleZ (gives ![2, 2, 2, 1] above doubleZ).1 (gives ![2, 2, 2, 1] above doubleZ).2 := by
  refine isEigC_two (a := 2) (b := 1) ?_ (fun k => ?_) above_unit ⟨2, rfl⟩ (.inl ⟨3, rfl⟩)
  · ext i j
    fin_cases i <;> fin_cases j <;> simp [doubleZ, Matrix.mul_apply, Fin.sum_univ_four] <;> norm_num
  · funext i
    fin_cases i <;> fin_cases k <;> simp [doubleZ, above, Matrix.mulVec, dotProduct, Fin.sum_univ_four]
    ring

/-- C159: the factor two and the origin are found. -/
example : ∃ p, scaleFromMatrix (gives ![2, 2, 2] 1) (gives ![2, 2, 2, 1] above) doubleZ = .ok (some (2, p, none)) ∧
    first3 p = ![0, 0, 1] := by
  obtain ⟨o, ho, -, h, -⟩ := C159_uniform 2 (.inr (by norm_num)) (some ![0, 0, 1]) doubleZ_eq doubleZ_eig3 doubleZ_eig4
  obtain ⟨p, rfl, hp⟩ := h (by norm_num)
  exact ⟨p, ho, hp⟩

/-- C159: a mirror is the scaling by minus one along its normal. -/
example : ∃ p d, scaleFromMatrix (gives ![1, 1, -1] 1) (gives ![1, 1, -1, 1] above) mirrorZ = .ok (some (-1, p, some d)) ∧
    scaleMatrix (-1) (some (first3 p)) (some d) = some mirrorZ := by
  have hM : scaleMatrix (-1) (some ![0, 0, 1]) (some ![0, 0, 1]) = some mirrorZ := by
    unfold scaleMatrix
    simp only [unit3_z, Option.bind_eq_bind, Option.bind_some, Option.pure_def]
    congr 1
    ext i j
    fin_cases i <;> fin_cases j <;> simp [affine, outer, dot3, mirrorZ, Matrix.vecHead, Matrix.vecTail] <;> norm_num
  obtain ⟨o, ho, h, hno⟩ := C159_direction (-1) (.inr (by norm_num)) _ _ hM mirrorZ_eig3 mirrorZ_eig4
  cases o with
  | none => exact absurd (hno rfl) (above_weight (by simp) _)
  | some r =>
    obtain ⟨f, p, d⟩ := r
    obtain ⟨rfl, -, ⟨d, rfl⟩, h2⟩ := h _ _ _ rfl
    exact ⟨p, d, ho, h2⟩

/-- The projection on the plane at the height one. -/
def floorZ : Mat4 := !![1, 0, 0, 0; 0, 1, 0, 0; 0, 0, 0, 1; 0, 0, 0, 1]

theorem floorZ_eq : projectionMatrix ![0, 0, 1] ![0, 0, 1] none none false = some floorZ := by
  unfold projectionMatrix parallelMatrix
  simp only [unit3_z, Option.bind_eq_bind, Option.bind_some, Option.pure_def]
  congr 1
  ext i j
  fin_cases i <;> fin_cases j <;> simp [affine, outer, dot3, floorZ, Matrix.vecHead, Matrix.vecTail]

theorem floorZ_eig3 : IsEigC (block floorZ) (gives ![1, 1, 0] 1 (block floorZ)).1 (gives ![1, 1, 0] 1 (block floorZ)).2 := by
  refine isEigC_two (a := 1) (b := 0) ?_ (fun k => ?_) one_unit ⟨0, rfl⟩ (.inl ⟨2, rfl⟩)
  · ext i j
    fin_cases i <;> fin_cases j <;>
      simp [block, floorZ, Matrix.mul_apply, Fin.sum_univ_three, Fin.castSucc, Fin.castAdd, Fin.castLE]
  · funext i
    fin_cases i <;> fin_cases k <;>
      simp [block, floorZ, Matrix.mulVec, dotProduct, Fin.sum_univ_three, Fin.castSucc, Fin.castAdd, Fin.castLE]

theorem floorZ_eig4 : IsEigC floorZ (gives ![1, 1, 0, 1] above floorZ).1 (gives ![1, 1, 0, 1] above floorZ).2 := by
  refine isEigC_two (a := 1) (b := 0) ?_ (fun k => ?_) above_unit ⟨0, rfl⟩ (.inl ⟨2, rfl⟩)
  · ext i j
    fin_cases i <;> fin_cases j <;> simp [floorZ, Matrix.mul_apply, Fin.sum_univ_four]
  · funext i
    fin_cases i <;> fin_cases k <;> simp [floorZ, above, Matrix.mulVec, dotProduct, Fin.sum_univ_four]

/-- C160: the projection is found. -/
example : ∃ r, projectionFromMatrix (gives ![1, 1, 0] 1) (gives ![1, 1, 0, 1] above) floorZ false = .ok (some r) ∧
    projectionMatrix (first3 r.point) r.normal r.direction r.perspective r.pseudo = some floorZ := by
  have ht : (block floorZ)ᵀ = block floorZ := by
    ext i j
    fin_cases i <;> fin_cases j <;> simp [block, floorZ, Fin.castSucc, Fin.castAdd, Fin.castLE]
  obtain ⟨o, ho, h, hno⟩ := C160_parallel floorZ_eq floorZ_eig3 (by rw [ht]; exact floorZ_eig3) floorZ_eig4
  cases o with
  | none => exact absurd (hno rfl) (above_weight (by simp) _)
  | some r => exact ⟨r, ho, (h _ rfl).2⟩

/-- The eigenvectors of the perspective projections: the third is given. -/
noncomputable def seen (h : ℝ) : Mat4 :=
  !![1, 0, 0, 0; 0, 1, 0, 0; 0, 0, h / √(h * h + 1), 1 / √2; 0, 0, 1 / √(h * h + 1), 1 / √2]

theorem seen_unit (h : ℝ) (k : Fin 4) : ∑ i, seen h i k * seen h i k = 1 := by
  have h2 := sqrt_half
  have h1 : 0 < h * h + 1 := by nlinarith [mul_self_nonneg h]
  have hs := Real.mul_self_sqrt h1.le
  fin_cases k <;> simp [seen, Fin.sum_univ_four]
  · rw [div_mul_div_comm, hs, ← mul_inv, hs]
    field_simp
  · simp at h2
    linarith

/-- The plane at the height one, seen from the height three. -/
def seenZ : Mat4 := !![2, 0, 0, 0; 0, 2, 0, 0; 0, 0, -1, 3; 0, 0, -1, 3]

theorem seenZ_eq : projectionMatrix ![0, 0, 1] ![0, 0, 1] none (some ![0, 0, 3]) false = some seenZ := by
  unfold projectionMatrix perspectiveMatrix
  simp only [unit3_z, Option.bind_eq_bind, Option.bind_some, Option.pure_def]
  congr 1
  ext i j
  fin_cases i <;> fin_cases j <;> simp [outer, dot3, seenZ, Matrix.vecHead, Matrix.vecTail] <;> norm_num

theorem seenZ_eig4 : IsEigC seenZ (gives ![2, 2, 0, 2] (seen 3) seenZ).1 (gives ![2, 2, 0, 2] (seen 3) seenZ).2 := by
  refine isEigC_two (a := 2) (b := 0) ?_ (fun k => ?_) (seen_unit 3) ⟨0, rfl⟩ (.inl ⟨2, rfl⟩)
  · ext i j
    fin_cases i <;> fin_cases j <;> simp [seenZ, Matrix.mul_apply, Fin.sum_univ_four] <;> norm_num
  · funext i
    fin_cases i <;> fin_cases k <;> simp [seenZ, seen, Matrix.mulVec, dotProduct, Fin.sum_univ_four] <;> ring

theorem seen_weight {h : ℝ} {l : Fin 4 → ℝ} {μ : ℂ} (hl : (l 3 : ℂ) = μ) (M : Mat4) : ¬Weightless (gives l (seen h) M) μ := by
  rintro ⟨k, -, h1, h2⟩
  have hk : k = 3 := by
    by_contra hne
    exact h1 3 (by omega) hl
  subst hk
  simp [gives, seen] at h2

theorem seen_depth : dot3 (![0, 0, 3] - ![0, 0, 1] : P3) ![0, 0, 1] = 2 := by
  simp [dot3, Matrix.vecHead, Matrix.vecTail]
  norm_num

theorem seen_plane : dot3 ![0, 0, 1] ![0, 0, 1] = 1 := by simp [dot3]

/-- C160: the perspective point is found. -/
example : ∃ r, projectionFromMatrix (gives 0 1) (gives ![2, 2, 0, 2] (seen 3)) seenZ false = .ok (some r) ∧
    r.normal = ![0, 0, 1] ∧ r.perspective = some ![0, 0, 3] ∧ OnPlane ![0, 0, 1] ![0, 0, 1] (first3 r.point) := by
  obtain ⟨o, ho, h, hno⟩ := C160_perspective (eig3 := gives 0 1) unit3_z seenZ_eq seenZ_eig4 (by rw [seen_depth]; norm_num)
    (fun _ => by rw [seen_depth]; norm_num) (fun h => by cases h)
  cases o with
  | none =>
    rcases hno rfl with h | h
    · rw [seen_plane] at h
      norm_num at h
    · exact absurd h (seen_weight (by rw [seen_depth]; simp) _)
  | some r =>
    obtain ⟨-, h1, h2, -, h3, -⟩ := h r rfl
    exact ⟨r, ho, h2, h3, h1⟩

/-- The same with the depth kept. -/
def keptZ : Mat4 := !![2, 0, 0, 0; 0, 2, 0, 0; 0, 0, -2, 4; 0, 0, -1, 3]

theorem keptZ_eq : projectionMatrix ![0, 0, 1] ![0, 0, 1] none (some ![0, 0, 3]) true = some keptZ := by
  unfold projectionMatrix perspectiveMatrix
  simp only [unit3_z, Option.bind_eq_bind, Option.bind_some, Option.pure_def]
  congr 1
  ext i j
  fin_cases i <;> fin_cases j <;> simp [outer, dot3, keptZ, Matrix.vecHead, Matrix.vecTail] <;> norm_num

theorem keptZ_sq : keptZ * keptZ = ((2 : ℝ) + -1) • keptZ - ((2 : ℝ) * -1) • 1 := by
  ext i j
  fin_cases i <;> fin_cases j <;> simp [keptZ, Matrix.mul_apply, Fin.sum_univ_four] <;> norm_num

theorem keptZ_eig4 : IsEigC keptZ (gives ![2, 2, -1, 2] (seen 4) keptZ).1 (gives ![2, 2, -1, 2] (seen 4) keptZ).2 := by
  refine isEigC_two (a := 2) (b := -1) keptZ_sq (fun k => ?_) (seen_unit 4) ⟨0, rfl⟩ (.inl ⟨2, rfl⟩)
  funext i
  fin_cases i <;> fin_cases k <;> simp [keptZ, seen, Matrix.mulVec, dotProduct, Fin.sum_univ_four] <;> ring

/-- C160: a pseudo projection. -/
example : ∃ r, projectionFromMatrix (gives 0 1) (gives ![2, 2, -1, 2] (seen 4)) keptZ true = .ok (some r) ∧
    r.perspective = some ![0, 0, 3] ∧ r.pseudo = true ∧
    projectionMatrix (first3 r.point) r.normal r.direction r.perspective r.pseudo = some keptZ := by
  obtain ⟨o, ho, h, hno⟩ := C160_perspective (eig3 := gives 0 1) unit3_z keptZ_eq keptZ_eig4 (by rw [seen_depth]; norm_num)
    (fun h => by cases h) (fun _ => by simp [gives]; norm_num)
  cases o with
  | none =>
    rcases hno rfl with h | h
    · rw [seen_plane] at h
      norm_num at h
    · exact absurd h (seen_weight (by rw [seen_depth]; simp) _)
  | some r =>
    obtain ⟨-, -, -, -, h3, h4, h5⟩ := h r rfl
    exact ⟨r, ho, h3, h4, h5⟩

/-- The same eigenvectors in another order. -/
noncomputable def swapped : Mat4 := (seen 4).submatrix id ![0, 1, 3, 2]

theorem keptZ_eig4' : IsEigC keptZ (gives ![2, 2, 2, -1] swapped keptZ).1 (gives ![2, 2, 2, -1] swapped keptZ).2 := by
  refine isEigC_two (a := 2) (b := -1) keptZ_sq (fun k => ?_) (fun k => seen_unit 4 (![0, 1, 3, 2] k)) ⟨0, rfl⟩ (.inl ⟨3, rfl⟩)
  funext i
  fin_cases i <;> fin_cases k <;> simp [keptZ, seen, swapped, Matrix.mulVec, dotProduct, Fin.sum_univ_four] <;> ring

/-- C160: with this order the point which is found is at the height four, not on the plane. -/
example : ∃ r, projectionFromMatrix (gives 0 1) (gives ![2, 2, 2, -1] swapped) keptZ true = .ok (some r) ∧
    first3 r.point = ![0, 0, 3] + ![0, 0, 1] ∧ ¬OnPlane ![0, 0, 1] ![0, 0, 1] (first3 r.point) := by
  have hk : ((List.finRange 4).filter fun k =>
      |((gives ![2, 2, 2, -1] swapped keptZ).1 k).re| > 1 / 10 ^ 8).getLast? = some 3 := by
    refine getLast?_filter_three _ ?_
    simp [gives]
    norm_num
  obtain ⟨n, hn, heq⟩ := perspective_eq keptZ_eq
  rw [unit3_z] at hn
  obtain rfl := Option.some.inj hn
  have hr := perspectiveFromMatrix_of heq hk
  have h17 : 0 < √(4 * 4 + 1 : ℝ) := Real.sqrt_pos.2 (by norm_num)
  have hx : realColumn (gives ![2, 2, 2, -1] swapped keptZ).2 3 = ![0, 0, 4 / √(4 * 4 + 1), 1 / √(4 * 4 + 1)] := by
    funext a
    fin_cases a <;> simp [realColumn, gives, swapped, seen]
  have ho : overLast ![0, 0, 4 / √(4 * 4 + 1), 1 / √(4 * 4 + 1)] = some ![0, 0, 4, 1] := by
    unfold overLast
    rw [if_neg (by simp; exact h17.ne')]
    congr 1
    funext a
    fin_cases a <;> simp
    · field_simp
    · exact inv_mul_cancel₀ h17.ne'
  rw [hx, ho] at hr
  rw [Option.bind_some, if_neg (by simp [first3, dot3])] at hr
  refine ⟨_, hr, C160_misplaced (eig3 := gives 0 1) unit3_z keptZ_eq keptZ_eig4' (by rw [seen_depth]; norm_num) ?_ hr⟩
  simp [gives]

/-- The plane at the height one, seen from the height two. -/
def nearZ : Mat4 := !![1, 0, 0, 0; 0, 1, 0, 0; 0, 0, -1, 2; 0, 0, -1, 2]

/-- C160: seen from a depth of one, the projection is not recognised. -/
example : projectionFromMatrix (gives ![1, 1, -1] 1) (gives ![1, 1, 0, 1] (seen 2)) nearZ false = .error .valueError := by
  have hM : projectionMatrix ![0, 0, 1] ![0, 0, 1] none (some ![0, 0, 2]) false = some nearZ := by
    unfold projectionMatrix perspectiveMatrix
    simp only [unit3_z, Option.bind_eq_bind, Option.bind_some, Option.pure_def]
    congr 1
    ext i j
    fin_cases i <;> fin_cases j <;> simp [outer, dot3, nearZ, Matrix.vecHead, Matrix.vecTail] <;> norm_num
  have h3 : IsEigC (block nearZ) (gives ![1, 1, -1] 1 (block nearZ)).1 (gives ![1, 1, -1] 1 (block nearZ)).2 := by
    refine isEigC_two (a := 1) (b := -1) ?_ (fun k => ?_) one_unit ⟨0, rfl⟩ (.inl ⟨2, rfl⟩)
    · ext i j
      fin_cases i <;> fin_cases j <;>
        simp [block, nearZ, Matrix.mul_apply, Fin.sum_univ_three, Fin.castSucc, Fin.castAdd, Fin.castLE]
    · funext i
      fin_cases i <;> fin_cases k <;>
        simp [block, nearZ, Matrix.mulVec, dotProduct, Fin.sum_univ_three, Fin.castSucc, Fin.castAdd, Fin.castLE]
  have h4 : IsEigC nearZ (gives ![1, 1, 0, 1] (seen 2) nearZ).1 (gives ![1, 1, 0, 1] (seen 2) nearZ).2 := by
    refine isEigC_two (a := 1) (b := 0) ?_ (fun k => ?_) (seen_unit 2) ⟨0, rfl⟩ (.inl ⟨2, rfl⟩)
    · ext i j
      fin_cases i <;> fin_cases j <;> simp [nearZ, Matrix.mul_apply, Fin.sum_univ_four] <;> norm_num
    · funext i
      fin_cases i <;> fin_cases k <;> simp [nearZ, seen, Matrix.mulVec, dotProduct, Fin.sum_univ_four] <;> ring
  have hd : dot3 (![0, 0, 2] - ![0, 0, 1] : P3) ![0, 0, 1] = 1 := by
    simp [dot3, Matrix.vecHead, Matrix.vecTail]
    norm_num
  exact C160_depth_one unit3_z hM h3 h4 (by rw [hd]; norm_num) (by rw [seen_plane]; norm_num)

/-- The shear along the first axis. -/
def shearX : Mat4 := !![1, 0, 1, 0; 0, 1, 0, 0; 0, 0, 1, 0; 0, 0, 0, 1]

theorem shearX_eq : shearMatrix (π / 4) ![1, 0, 0] 0 ![0, 0, 1] = .ok (some shearX) := by
  unfold shearMatrix
  rw [unit3_x, unit3_z]
  have : dot3 ![0, 0, 1] ![1, 0, 0] = 0 := by simp [dot3]
  simp only [this, abs_zero]
  rw [if_neg (by norm_num), Real.tan_pi_div_four]
  congr 2
  ext i j
  fin_cases i <;> fin_cases j <;> simp [affine, outer, dot3, shearX, Matrix.vecHead, Matrix.vecTail]

/-- C161: the shear is found. -/
example : ∃ a d p n, shearFromMatrix (gives 1 !![1, 0, 1; 0, 1, 0; 0, 0, 0])
      (gives 1 !![1, 0, 1, 0; 0, 1, 0, 0; 0, 0, 0, 0; 0, 0, 0, 1]) shearX = .ok (some (a, d, p, n)) ∧ 0 < a ∧ a < π / 2 ∧
    shearMatrix a d (first3 p) n = .ok (some shearX) := by
  have h3 : IsEigC (block shearX) (gives 1 !![1, 0, 1; 0, 1, 0; 0, 0, 0] (block shearX)).1
      (gives 1 !![1, 0, 1; 0, 1, 0; 0, 0, 0] (block shearX)).2 := by
    refine isEigC_two (a := 1) (b := 1) ?_ (fun k => ?_) (fun k => ?_) ⟨0, rfl⟩ (.inl ⟨2, rfl⟩)
    · ext i j
      fin_cases i <;> fin_cases j <;>
        simp [block, shearX, Matrix.mul_apply, Fin.sum_univ_three, Fin.castSucc, Fin.castAdd, Fin.castLE] <;> norm_num
    · funext i
      fin_cases i <;> fin_cases k <;>
        simp [block, shearX, Matrix.mulVec, dotProduct, Fin.sum_univ_three, Fin.castSucc, Fin.castAdd, Fin.castLE]
    · fin_cases k <;> simp [Fin.sum_univ_three]
  have h4 : IsEigC shearX (gives 1 !![1, 0, 1, 0; 0, 1, 0, 0; 0, 0, 0, 0; 0, 0, 0, 1] shearX).1
      (gives 1 !![1, 0, 1, 0; 0, 1, 0, 0; 0, 0, 0, 0; 0, 0, 0, 1] shearX).2 := by
    refine isEigC_two (a := 1) (b := 1) ?_ (fun k => ?_) (fun k => ?_) ⟨0, rfl⟩ (.inl ⟨2, rfl⟩)
    · ext i j
      fin_cases i <;> fin_cases j <;> simp [shearX, Matrix.mul_apply, Fin.sum_univ_four] <;> norm_num
    · funext i
      fin_cases i <;> fin_cases k <;> simp [shearX, Matrix.mulVec, dotProduct, Fin.sum_univ_four]
    · fin_cases k <;> simp [Fin.sum_univ_four]
  obtain ⟨o, ho, h, hno⟩ := C161_shear shearX_eq (by simp [dot3]) h3 h4
  cases o with
  | none =>
    exfalso
    rcases hno rfl with h | ⟨k, -, h1, h2⟩ | h
    · rw [Real.tan_pi_div_four] at h
      exact one_ne_zero h
    · have hk : k = 3 := by
        by_contra hne
        exact h1 3 (by omega) (by simp [gives])
      subst hk
      simp [gives] at h2
    · have := congrFun (h 0 1) 2
      simp [gives, realColumn, cross] at this
  | some r =>
    obtain ⟨a, d, p, n⟩ := r
    obtain ⟨h1, h2, -, -, -, h3⟩ := h _ _ _ _ rfl
    exact ⟨a, d, p, n, ho, h1, h2, h3⟩

end Verif.Geom
