import Verif.Geom.PropsDecompose
import Verif.Geom.PropsSuperimpose

/-!
# Cases meeting the hypotheses of the theorems on decompositions and superimpositions
-/

namespace Verif.Geom

open Verif Real Matrix
open Verif.Transf (Mat4 Mat3 Quat EPS dot4 quatMatrix Rot3 block)

/-- C152: scaling, a shear, a quarter turn about the x axis and a translation, and back. -/
example : ∃ M, composeMatrix (some ![1, 2, 3]) (some ![0, 1, 0]) (some ![π / 2, 0, 0]) (some ![5, 6, 7]) none =
    .ok (some M) ∧ decomposeMatrix M = .ok ⟨![1, 2, 3], ![0, 1, 0], ![π / 2, 0, 0], ![5, 6, 7], ![0, 0, 0, 1]⟩ := by
  have := Real.pi_pos
  refine C152_back _ _ _ _ (.inl fun i => ?_) ⟨?_, ?_⟩ ⟨?_, ?_⟩ ⟨?_, ?_⟩
  · fin_cases i <;> simp
  all_goals simp
  all_goals linarith

/-- C152: a matrix with a negative determinant is decomposed, with negative factors, and rebuilt. -/
example : ∃ parts M, decomposeMatrix !![1, 2, 0, 4; 0, -1, 3, 5; 0, 0, 1, 6; 0, 0, 0, 2] = .ok parts ∧
    (∀ i, parts.scale i < 0) ∧ composeMatrix (some parts.scale) (some parts.shear) (some parts.angles)
      (some parts.translate) (some parts.perspective) = .ok (some M) ∧ M 0 1 = 1 ∧ M 1 2 = 3 / 2 := by
  set A : Mat4 := !![1, 2, 0, 4; 0, -1, 3, 5; 0, 0, 1, 6; 0, 0, 0, 2] with hA
  have hd : (block A).det = -1 := by
    rw [Matrix.det_fin_three]
    simp [block, hA, Fin.castSucc, Fin.castAdd, Fin.castLE]
  have h33 : A 3 3 = 2 := by simp [hA]
  obtain ⟨parts, hp⟩ := (C152_errors A).1.2 ⟨by rw [h33]; norm_num [EPS], by rw [hd]; norm_num⟩
  obtain ⟨M, hM, hij, -⟩ := C152_rebuild A parts hp
  refine ⟨parts, M, hp, (C152_ranges A parts hp).2.2.2.2.1 (by rw [hd, h33]; norm_num), hM, ?_, ?_⟩
  · rw [hij 0 1 (by decide), h33]
    simp [hA]
  · rw [hij 1 2 (by decide), h33]
    simp [hA]

/-- C152: a shear and a perspective. -/
example : ∃ M, composeMatrix none none none (some ![0, 0, 1]) (some ![0, 0, 1, 1]) = .ok (some M) ∧
    M *ᵥ hom ![2, 4, 6] = ![1, 2, 7 / 2, 4] := by
  obtain ⟨M, hM, h⟩ := ((C152_compose none none none (some ![0, 0, 1])).2 ![0, 0, 1, 1]).2 (by
    simp [together, stretch, slant, turns, turn, par, cross, dot3])
  refine ⟨M, hM, ?_⟩
  rw [h]
  funext i
  fin_cases i <;>
    simp [together, stretch, slant, turns, turn, par, cross, dot3] <;> norm_num

/-- Points on the three axes. -/
def onAxes : Fin 6 → P3 := ![![3, 0, 0], ![-3, 0, 0], ![0, 2, 0], ![0, -2, 0], ![0, 0, 1], ![0, 0, -1]]

/-- A quarter turn about the last axis. -/
def quarterTurn : Mat3 := !![0, -1, 0; 1, 0, 0; 0, 0, 1]

theorem quarterTurn_rot : Rot3 quarterTurn where
  orthogonal := by
    ext i j
    fin_cases i <;> fin_cases j <;> simp [quarterTurn, Matrix.mul_apply, Fin.sum_univ_three]
  det := by simp [quarterTurn, Matrix.det_fin_three]

/-- The turned points, moved. -/
def turned : Fin 6 → P3 := ![![1, 4, 1], ![1, -2, 1], ![-1, 1, 1], ![3, 1, 1], ![1, 1, 2], ![1, 1, 0]]

theorem turned_eq (i : Fin 6) : turned i = (1 : ℝ) • (quarterTurn *ᵥ onAxes i) + ![1, 1, 1] := by
  funext k
  fin_cases i <;> fin_cases k <;>
    simp [turned, onAxes, quarterTurn, Matrix.mulVec, dotProduct, Fin.sum_univ_three] <;> norm_num

theorem turned_library : Library (fun _ => (quarterTurn, ![18, 8, 2], 1)) (fun _ => (0, 1)) onAxes turned true := by
  unfold Library
  rw [if_pos rfl]
  constructor
  · ext i j
    fin_cases i <;> fin_cases j <;>
      simp [covariance, moveTo, mean3, onAxes, turned, quarterTurn, Fin.sum_univ_succ, Matrix.mul_apply,
        Matrix.diagonal, vecHead, vecTail] <;> norm_num
  · exact quarterTurn_rot.orthogonal'
  · simp
  · simp
    norm_num
  · simp

/-- C155, C156: the turned points are found. -/
example : ∃ M, superimpositionMatrix (fun _ => (quarterTurn, ![18, 8, 2], 1)) (fun _ => (0, 1)) onAxes turned false true =
    .ok (some M) ∧ M *ᵥ hom ![3, 0, 0] = hom ![1, 4, 1] := by
  obtain ⟨M, hM, h⟩ := C156_exact turned_library false (by norm_num) quarterTurn_rot zero_le_one _ turned_eq (fun _ => rfl)
    (fun h => by cases h)
  exact ⟨M, hM, h 0⟩

/-- The points scaled. -/
def doubled : Fin 6 → P3 := ![![6, 0, 0], ![-6, 0, 0], ![0, 4, 0], ![0, -4, 0], ![0, 0, 2], ![0, 0, -2]]

theorem doubled_eq (i : Fin 6) : doubled i = (2 : ℝ) • ((1 : Mat3) *ᵥ onAxes i) + 0 := by
  funext k
  fin_cases i <;> fin_cases k <;> simp [doubled, onAxes] <;> norm_num

theorem diagonal_eig (l : Fin 4 → ℝ) : IsEig (Matrix.diagonal l) l 1 where
  vector k := by
    funext a
    simp [Matrix.mulVec_diagonal, Matrix.one_apply]
    split_ifs with h
    · rw [h]
    · rfl
  unit k := by
    fin_cases k <;> simp [dot4, Matrix.one_apply]
  all x μ hx h := by
    obtain ⟨k, hk⟩ := Function.ne_iff.1 hx
    refine ⟨k, ?_⟩
    have := congrFun h k
    rw [Matrix.mulVec_diagonal] at this
    exact mul_right_cancel₀ hk this

theorem doubled_library : Library (fun _ => (1, 0, 1)) (fun _ => (![56, 16, -24, -48], 1)) onAxes doubled false := by
  unfold Library
  rw [if_neg (by simp)]
  have : hornMatrix (moveTo onAxes (mean3 onAxes)) (moveTo doubled (mean3 doubled)) =
      Matrix.diagonal ![56, 16, -24, -48] := by
    ext i j
    fin_cases i <;> fin_cases j <;>
      simp [hornMatrix, products, moveTo, mean3, onAxes, doubled, Fin.sum_univ_succ, vecHead, vecTail] <;> norm_num
  rw [this]
  exact diagonal_eig _

/-- C155, C156: the scaled points are found with quaternions. -/
example : ∃ M, superimpositionMatrix (fun _ => (1, 0, 1)) (fun _ => (![56, 16, -24, -48], 1)) onAxes doubled true false =
    .ok (some M) ∧ M *ᵥ hom ![0, 2, 0] = hom ![0, 4, 0] := by
  obtain ⟨M, hM, h⟩ := C156_exact doubled_library true (by norm_num) (R0 := 1) ⟨by simp, by simp⟩ (by norm_num) _ doubled_eq
    (fun h => by cases h) (fun _ => ⟨0, 1, fun h => by
      have := congrFun h 0
      simp [onAxes] at this
      norm_num at this⟩)
  exact ⟨M, hM, h 2⟩

/-- C155: without `scaling` no rotation and translation of the points is nearer to the scaled points. -/
example : ∃ M f, superimpositionMatrix (fun _ => (1, 0, 1)) (fun _ => (![56, 16, -24, -48], 1)) onAxes doubled false false =
    .ok (some M) ∧ Moves M f ∧ ∀ R' t', Rot3 R' →
      ∑ i, dist2 (f (onAxes i)) (doubled i) ≤ ∑ i, dist2 (R' *ᵥ onAxes i + t') (doubled i) := by
  have d := C155_defined (fun _ => (1, 0, 1)) (fun _ => (![56, 16, -24, -48], 1)) onAxes doubled false false
  cases hr : superimpositionMatrix (fun _ => (1, 0, 1)) (fun _ => (![56, 16, -24, -48], 1)) onAxes doubled false false with
  | error e => have := d.1.1 ⟨e, hr⟩; omega
  | ok o =>
    cases o with
    | none => exact absurd ((d.2.2 doubled doubled_library (by norm_num)).1 hr).1 (by simp)
    | some M =>
      obtain ⟨R, c, t, -, -, h1, -, hm, -, hl⟩ := C155_least doubled_library hr
      have h1 := h1 rfl
      subst h1
      exact ⟨M, _, rfl, hm, fun R' t' hR' => by simpa only [one_smul] using hl R' t' hR'⟩

/-- C155: two points are not enough. -/
example : superimpositionMatrix (fun _ => (1, 0, 1)) (fun _ => (0, 1)) ![![1, 2, 3], ![4, 5, 6]] ![![1, 2, 3], ![4, 5, 6]] true
    true = .error .valueError := by
  have d := C155_defined (fun _ => (1, 0, 1)) (fun _ => (0, 1)) ![![1, 2, 3], ![4, 5, 6]] ![![1, 2, 3], ![4, 5, 6]] true true
  obtain ⟨e, he⟩ := d.1.2 (.inr (by norm_num))
  rw [he, d.2.1 e he]

end Verif.Geom
