import Verif.Geom.PropsRotation

/-!
# Properties of projections, clip matrices and shears
-/

namespace Verif.Geom

open Verif Real Matrix
open Verif.Transf (Mat4 Quat EPS)

theorem onPlane_smul {s : ℝ} (hs : 0 < s) (p n v : P3) : OnPlane p (s • n) v ↔ OnPlane p n v := by
  unfold OnPlane
  rw [dot3_smul', mul_eq_zero, or_iff_right hs.ne']

/-- The projection along `d` on the plane through `p` of unit normal `n`. -/
noncomputable def project (p n d v : P3) : P3 := v - (dot3 (v - p) n / dot3 d n) • d

theorem project_onPlane {n d : P3} (h : dot3 d n ≠ 0) (p v : P3) : OnPlane p n (project p n d v) := by
  unfold OnPlane project
  have : v - (dot3 (v - p) n / dot3 d n) • d - p = (v - p) - (dot3 (v - p) n / dot3 d n) • d := by
    funext i; simp only [Pi.sub_apply]; ring
  rw [this, dot3_sub, dot3_smul]
  field_simp
  ring

theorem project_fixed {n d : P3} (p v : P3) (hv : OnPlane p n v) : project p n d v = v := by
  unfold OnPlane at hv
  unfold project
  rw [hv, zero_div, zero_smul, sub_zero]

/-- **C146.** `projection_matrix` without perspective point: each point goes to a point of the plane,
along the direction (along the normal when no direction is given); the points of the plane do not
move; projecting twice is projecting once. There are no numbers exactly when the normal is null or
the direction is in the plane. -/
theorem C146_parallel (point normal : P3) (direction : Option P3) (pseudo : Bool) :
    (projectionMatrix point normal direction none pseudo = none ↔
      normal = 0 ∨ ∃ d, direction = some d ∧ dot3 d normal = 0) ∧
    ∀ M, projectionMatrix point normal direction none pseudo = some M → ∃ f, Moves M f ∧
      (∀ v, OnPlane point normal (f v) ∧ Along (direction.getD normal) (v - f v)) ∧
      (∀ v, OnPlane point normal v → f v = v) ∧ M * M = M := by
  show (parallelMatrix point normal direction = none ↔ _) ∧
    ∀ M, parallelMatrix point normal direction = some M → _
  by_cases hn : normal = 0
  · have : parallelMatrix point normal direction = none := by
      unfold parallelMatrix; rw [(unit3_spec normal).1 hn]; rfl
    rw [this]
    simp [hn]
  obtain ⟨n, h1, h2, s, hs, rfl, -⟩ := (unit3_spec normal).2 hn
  -- the projection along a direction which is not in the plane
  have key : ∀ (M : Mat4) (d : P3), dot3 d n ≠ 0 → Moves M (project point n d) →
      ∃ f, Moves M f ∧ (∀ v, OnPlane point (s • n) (f v) ∧ Along d (v - f v)) ∧
      (∀ v, OnPlane point (s • n) v → f v = v) ∧ M * M = M := by
    intro M d hd hM
    refine ⟨_, hM, fun v => ⟨(onPlane_smul hs _ _ _).2 (project_onPlane hd _ _),
      dot3 (v - point) n / dot3 d n, ?_⟩, fun v hv => project_fixed _ _ ((onPlane_smul hs _ _ _).1 hv), ?_⟩
    · unfold project; rw [sub_sub_cancel]
    · exact Moves.unique (hM.mul hM) (hM.congr fun v => (project_fixed _ _ (project_onPlane hd _ _)).symm)
  cases direction with
  | none =>
    have e : parallelMatrix point (s • n) none =
        some (affine (1 - outer n n) fun i => dot3 point n * n i) := by
      unfold parallelMatrix; rw [h1]; rfl
    rw [e]
    refine ⟨by simp [hn], ?_⟩
    intro M hM
    obtain rfl := Option.some.inj hM
    have hm : Moves (affine (1 - outer n n) fun i => dot3 point n * n i) (project point n n) := by
      refine (moves_affine _ _).congr fun v => ?_
      unfold project
      rw [h2]
      funext i
      fin_cases i <;> simp [Matrix.mulVec, dotProduct, Fin.sum_univ_three, outer, dot3] <;> ring
    obtain ⟨f, hf, ha, hb⟩ := key _ n (by rw [h2]; exact one_ne_zero) hm
    refine ⟨f, hf, fun v => ⟨(ha v).1, ?_⟩, hb⟩
    obtain ⟨t, ht⟩ := (ha v).2
    exact ⟨t / s, by rw [ht]; simp only [Option.getD_none]; rw [smul_smul, div_mul_cancel₀ _ hs.ne']⟩
  | some d =>
    have hz : dot3 d (s • n) = 0 ↔ dot3 d n = 0 := by rw [dot3_smul', mul_eq_zero, or_iff_right hs.ne']
    by_cases hd : dot3 d n = 0
    · have e : parallelMatrix point (s • n) (some d) = none := by
        unfold parallelMatrix; rw [h1]; simp [hd]
      rw [e]
      simp [hz.2 hd]
    · have e : parallelMatrix point (s • n) (some d) =
          some (affine (1 - Matrix.of fun i j => outer d n i j / dot3 d n)
            fun i => d i * (dot3 point n / dot3 d n)) := by
        unfold parallelMatrix; rw [h1]; simp [hd]
      rw [e]
      refine ⟨by simp [hn, hz, hd], ?_⟩
      intro M hM
      obtain rfl := Option.some.inj hM
      refine key _ d hd ((moves_affine _ _).congr fun v => ?_)
      unfold project
      have hd' : d 0 * n 0 + d 1 * n 1 + d 2 * n 2 ≠ 0 := hd
      funext i
      fin_cases i <;> simp [Matrix.mulVec, dotProduct, Fin.sum_univ_three, outer, dot3] <;> field_simp <;> ring

/-- The point which homogeneous coordinates stand for (the weight being not null). -/
noncomputable def dehom (h : Fin 4 → ℝ) : P3 := ![h 0 / h 3, h 1 / h 3, h 2 / h 3]

theorem perspective_coords {normal n : P3} (h1 : unit3 normal = some n) (point perspective v : P3)
    (pseudo : Bool) : ∃ M, perspectiveMatrix point normal perspective pseudo = some M ∧
      (M *ᵥ hom v) 3 = dot3 (perspective - v) n ∧
      ∀ i : Fin 3, (M *ᵥ hom v) i.castSucc = dot3 (perspective - point) n * v i
        - dot3 (v - point) n * perspective i - (if pseudo then dot3 (v - point) n * n i else 0) := by
  refine ⟨_, by unfold perspectiveMatrix; rw [h1]; rfl, ?_, ?_⟩
  · simp [Matrix.mulVec, dotProduct, Fin.sum_univ_four, hom, dot3]; ring
  · intro i
    cases pseudo <;> fin_cases i <;>
      simp [Matrix.mulVec, dotProduct, Fin.sum_univ_four, hom, dot3, outer, Matrix.vecHead, Matrix.vecTail,
        sub_eq_add_neg] <;> ring

/-- **C146.** `projection_matrix` with a perspective point: each point with a positive or negative weight
(each point which is not in the plane parallel to the projection plane through the perspective
point) goes to a point of the plane, on the line through the perspective point and itself. -/
theorem C146_perspective (point normal perspective : P3) (direction : Option P3) (hn : normal ≠ 0) :
    ∃ M, projectionMatrix point normal direction (some perspective) false = some M ∧
      ∀ v, ((M *ᵥ hom v) 3 = 0 ↔ OnPlane perspective normal v) ∧
        (¬ OnPlane perspective normal v → OnPlane point normal (dehom (M *ᵥ hom v)) ∧
          Along (v - perspective) (dehom (M *ᵥ hom v) - perspective)) := by
  obtain ⟨n, h1, h2, s, hs, rfl, -⟩ := (unit3_spec normal).2 hn
  obtain ⟨M, hM, -⟩ := perspective_coords h1 point perspective 0 false
  refine ⟨M, hM, fun v => ?_⟩
  obtain ⟨M', hM', h3, hi⟩ := perspective_coords h1 point perspective v false
  rw [hM, Option.some.injEq] at hM'
  subst hM'
  have hw : (M *ᵥ hom v) 3 = 0 ↔ OnPlane perspective (s • n) v := by
    rw [onPlane_smul hs, h3]
    unfold OnPlane
    rw [show dot3 (perspective - v) n = -dot3 (v - perspective) n by
      simp only [dot3, Pi.sub_apply]; ring, neg_eq_zero]
  refine ⟨hw, fun hv => ?_⟩
  rw [← hw, h3] at hv
  have hc : ∀ i : Fin 3, dehom (M *ᵥ hom v) i = (dot3 (perspective - point) n * v i
        - dot3 (v - point) n * perspective i) / dot3 (perspective - v) n := by
    intro i
    have e := hi i
    simp only [Bool.false_eq_true, if_false, sub_zero] at e
    rw [← e, ← h3]
    fin_cases i <;> rfl
  have hd : dot3 (perspective - v) n = dot3 (perspective - point) n - dot3 (v - point) n := by
    simp only [dot3, Pi.sub_apply]; ring
  constructor
  · rw [onPlane_smul hs]
    unfold OnPlane
    have e0 := hc 0
    have e1 := hc 1
    have e2 := hc 2
    have expand : dot3 (dehom (M *ᵥ hom v) - point) n = (dot3 (perspective - point) n * dot3 v n
        - dot3 (v - point) n * dot3 perspective n) / dot3 (perspective - v) n - dot3 point n := by
      conv_lhs => unfold dot3
      simp only [Pi.sub_apply, e0, e1, e2]
      conv_rhs => rw [show dot3 v n = v 0 * n 0 + v 1 * n 1 + v 2 * n 2 from rfl,
        show dot3 perspective n = perspective 0 * n 0 + perspective 1 * n 1 + perspective 2 * n 2 from rfl,
        show dot3 point n = point 0 * n 0 + point 1 * n 1 + point 2 * n 2 from rfl]
      ring
    rw [expand, sub_eq_zero, div_eq_iff hv, dot3_sub, dot3_sub, dot3_sub]
    ring
  · refine ⟨dot3 (perspective - point) n / dot3 (perspective - v) n, ?_⟩
    funext i
    simp only [Pi.sub_apply, Pi.smul_apply, smul_eq_mul, hc i]
    field_simp
    rw [hd]
    ring

/-- **C146.** The pseudo projection followed by the orthogonal projection is the perspective projection,
and of two points in front of the perspective point the nearest to it is still told from the other:
the order of their depths, along the normal, is reversed by the pseudo projection. -/
theorem C146_pseudo (point normal perspective : P3) (direction : Option P3) (hn : normal ≠ 0) :
    ∃ M P O, projectionMatrix point normal direction (some perspective) true = some M ∧
      projectionMatrix point normal direction (some perspective) false = some P ∧
      projectionMatrix point normal none none false = some O ∧ P = O * M ∧
      (0 < dot3 (perspective - point) normal → ∀ u v, 0 < dot3 (perspective - u) normal →
        0 < dot3 (perspective - v) normal → (dot3 u normal < dot3 v normal ↔
          dot3 (dehom (M *ᵥ hom v)) normal < dot3 (dehom (M *ᵥ hom u)) normal)) := by
  obtain ⟨n, h1, h2, s, hs, rfl, -⟩ := (unit3_spec normal).2 hn
  have h2' : n 0 * n 0 + n 1 * n 1 + n 2 * n 2 = 1 := h2
  obtain ⟨M, hM, -⟩ := perspective_coords h1 point perspective 0 true
  obtain ⟨P, hP, -⟩ := perspective_coords h1 point perspective 0 false
  refine ⟨M, P, affine (1 - outer n n) fun i => dot3 point n * n i, hM, hP, ?_, ?_, ?_⟩
  · show parallelMatrix point (s • n) none = _
    unfold parallelMatrix; rw [h1]; rfl
  · refine ext_hom fun v => ?_
    obtain ⟨M', hM', m3, mi⟩ := perspective_coords h1 point perspective v true
    obtain ⟨P', hP', p3, pi⟩ := perspective_coords h1 point perspective v false
    rw [hM, Option.some.injEq] at hM'
    rw [hP, Option.some.injEq] at hP'
    subst hM' hP'
    rw [← Matrix.mulVec_mulVec]
    have m0 := mi 0
    have m1 := mi 1
    have m2 := mi 2
    have p0 := pi 0
    have p1 := pi 1
    have p2 := pi 2
    generalize M *ᵥ hom v = x at *
    generalize P *ᵥ hom v = y at *
    simp only [Fin.castSucc_zero, Fin.castSucc_one, show Fin.castSucc (2 : Fin 3) = 2 from rfl, if_true,
      Bool.false_eq_true, if_false, sub_zero] at m0 m1 m2 p0 p1 p2
    simp only [dot3, Pi.sub_apply] at m0 m1 m2 p0 p1 p2 m3 p3
    have hx : n 0 * x 0 + n 1 * x 1 + n 2 * x 2 = (n 0 * point 0 + n 1 * point 1 + n 2 * point 2) * x 3 -
        ((v 0 - point 0) * n 0 + (v 1 - point 1) * n 1 + (v 2 - point 2) * n 2) := by
      rw [m0, m1, m2, m3]
      linear_combination (-((v 0 - point 0) * n 0 + (v 1 - point 1) * n 1 + (v 2 - point 2) * n 2)) * h2'
    funext i
    fin_cases i <;> simp [affine, outer, Matrix.mulVec, dotProduct, Fin.sum_univ_four, dot3]
    · rw [p0]; linear_combination (n 0) * hx - m0
    · rw [p1]; linear_combination (n 1) * hx - m1
    · rw [p2]; linear_combination (n 2) * hx - m2
    · rw [p3, m3]
  · intro hp u v hu hv
    have key : ∀ v, 0 < dot3 (perspective - v) n → dot3 (dehom (M *ᵥ hom v)) n =
        dot3 point n - dot3 (v - point) n / (dot3 (perspective - point) n - dot3 (v - point) n) := by
      intro v hv
      obtain ⟨M', hM', h3, hi⟩ := perspective_coords h1 point perspective v true
      rw [hM, Option.some.injEq] at hM'
      subst hM'
      have hc : ∀ i : Fin 3, dehom (M *ᵥ hom v) i = (dot3 (perspective - point) n * v i
            - dot3 (v - point) n * perspective i - dot3 (v - point) n * n i) / dot3 (perspective - v) n := by
        intro i
        have e := hi i
        simp only [if_true] at e
        rw [← e, ← h3]
        fin_cases i <;> rfl
      have hd : dot3 (perspective - point) n - dot3 (v - point) n = dot3 (perspective - v) n := by
        simp only [dot3, Pi.sub_apply]; ring
      have expand : dot3 (dehom (M *ᵥ hom v)) n = (dot3 (perspective - point) n * dot3 v n
          - dot3 (v - point) n * dot3 perspective n - dot3 (v - point) n * dot3 n n) / dot3 (perspective - v) n := by
        conv_lhs => unfold dot3
        simp only [hc]
        conv_rhs => rw [show dot3 v n = v 0 * n 0 + v 1 * n 1 + v 2 * n 2 from rfl,
          show dot3 perspective n = perspective 0 * n 0 + perspective 1 * n 1 + perspective 2 * n 2 from rfl,
          show dot3 n n = n 0 * n 0 + n 1 * n 1 + n 2 * n 2 from rfl]
        ring
      rw [expand, hd, div_eq_iff hv.ne', sub_mul, div_mul_cancel₀ _ hv.ne', h2, dot3_sub, dot3_sub, dot3_sub]
      ring
    rw [dot3_smul', mul_pos_iff_of_pos_left hs] at hp hu hv
    rw [dot3_smul', dot3_smul', dot3_smul', dot3_smul', mul_lt_mul_iff_right₀ hs, mul_lt_mul_iff_right₀ hs, key u hu, key v hv,
      sub_lt_sub_iff_left]
    rw [dot3_sub] at hp hu hv
    simp only [dot3_sub]
    rw [div_lt_div_iff₀ (by linarith) (by linarith)]
    constructor
    · intro h; nlinarith
    · intro h; nlinarith

/-! ## C147 -/

/-- All coordinates between -1 and 1. -/
def InCube (v : P3) : Prop := ∀ i, -1 ≤ v i ∧ v i ≤ 1

/-- **C147.** `clip_matrix` raises ValueError exactly for bounds in the wrong order (and, for a
perspective, for a near bound not above the threshold). -/
theorem C147_errors (left right bottom top near far : ℝ) (perspective : Bool) :
    (∃ M, clipMatrix left right bottom top near far perspective = .ok M) ↔
      left < right ∧ bottom < top ∧ near < far ∧ (perspective = true → EPS < near) := by
  unfold clipMatrix
  split_ifs with h1 h2 h3
  · simp only [exists_false, false_iff]
    rintro ⟨a, b, c, -⟩
    rcases h1 with h | h | h <;> linarith
  · simp only [exists_false, false_iff]
    rintro ⟨-, -, -, d⟩
    linarith [d h2]
  · simp only [not_or, not_le, ge_iff_le] at h1 h3
    exact ⟨fun _ => ⟨h1.1, h1.2.1, h1.2.2, fun _ => h3⟩, fun _ => ⟨_, rfl⟩⟩
  · simp only [not_or, not_le, ge_iff_le] at h1
    exact ⟨fun _ => ⟨h1.1, h1.2.1, h1.2.2, fun h => absurd h h2⟩, fun _ => ⟨_, rfl⟩⟩

/-- **C147.** `clip_matrix` raises nothing else than ValueError. -/
theorem C147_value_error (left right bottom top near far : ℝ) (perspective : Bool) (e : PyErr)
    (h : clipMatrix left right bottom top near far perspective = .error e) : e = .valueError := by
  unfold clipMatrix at h
  split_ifs at h <;> simp_all

/-- **C147.** The orthographic clip matrix: the new coordinates of a point are all between -1 and 1
exactly when the point is in the box. -/
theorem C147_orthographic (left right bottom top near far : ℝ) (M : Mat4)
    (h : clipMatrix left right bottom top near far false = .ok M) :
    ∃ f, Moves M f ∧ ∀ v, InCube (f v) ↔
      (left ≤ v 0 ∧ v 0 ≤ right) ∧ (bottom ≤ v 1 ∧ v 1 ≤ top) ∧ (near ≤ v 2 ∧ v 2 ≤ far) := by
  obtain ⟨h1, h2, h3, -⟩ := (C147_errors left right bottom top near far false).1 ⟨M, h⟩
  unfold clipMatrix at h
  rw [if_neg (by simp only [not_or, not_le, ge_iff_le]; exact ⟨h1, h2, h3⟩)] at h
  simp only [Bool.false_eq_true, if_false, Except.ok.injEq] at h
  subst h
  have line : ∀ a b x : ℝ, a < b → (-1 ≤ (2 * x - (b + a)) / (b - a) ∧ (2 * x - (b + a)) / (b - a) ≤ 1 ↔
      a ≤ x ∧ x ≤ b) := by
    intro a b x hab
    rw [le_div_iff₀ (by linarith), div_le_iff₀ (by linarith)]
    constructor <;> rintro ⟨h, h'⟩ <;> constructor <;> linarith
  refine ⟨fun v => ![(2 * v 0 - (right + left)) / (right - left), (2 * v 1 - (top + bottom)) / (top - bottom),
    (2 * v 2 - (far + near)) / (far - near)], ?_, ?_⟩
  · intro v
    have n1 : right - left ≠ 0 := by linarith
    have n1' : left - right ≠ 0 := by linarith
    have n2 : top - bottom ≠ 0 := by linarith
    have n2' : bottom - top ≠ 0 := by linarith
    have n3 : far - near ≠ 0 := by linarith
    have n3' : near - far ≠ 0 := by linarith
    funext i
    fin_cases i <;> simp [Matrix.mulVec, dotProduct, Fin.sum_univ_four, hom]
    · field_simp; ring
    · field_simp; ring
    · field_simp; ring
  · intro v
    unfold InCube
    rw [Fin.forall_fin_succ, Fin.forall_fin_two]
    exact and_congr (line _ _ _ h1) (and_congr (line _ _ _ h2) (line _ _ _ h3))

/-- **C147.** The perspective clip matrix: the new coordinates of a point, divided by their weight, are
all between -1 and 1 exactly when the point is in the truncated pyramid, between the near and far
bounds and, seen from the origin on the near plane, in the rectangle. -/
theorem C147_perspective (left right bottom top near far : ℝ) (M : Mat4)
    (h : clipMatrix left right bottom top near far true = .ok M) (v : P3) (hv : v 2 ≠ 0) :
    InCube (dehom (M *ᵥ hom v)) ↔
      (left ≤ v 0 * (near / v 2) ∧ v 0 * (near / v 2) ≤ right) ∧
      (bottom ≤ v 1 * (near / v 2) ∧ v 1 * (near / v 2) ≤ top) ∧ (near ≤ v 2 ∧ v 2 ≤ far) := by
  obtain ⟨h1, h2, h3, h4⟩ := (C147_errors left right bottom top near far true).1 ⟨M, h⟩
  have hnear : 0 < near := lt_trans Transf.EPS_pos (h4 rfl)
  unfold clipMatrix at h
  rw [if_neg (by simp only [not_or, not_le, ge_iff_le]; exact ⟨h1, h2, h3⟩)] at h
  simp only [if_true, not_le.2 (h4 rfl), if_false, Except.ok.injEq] at h
  subst h
  have line : ∀ a b x : ℝ, a < b → (-1 ≤ (2 * x - (b + a)) / (b - a) ∧ (2 * x - (b + a)) / (b - a) ≤ 1 ↔
      a ≤ x ∧ x ≤ b) := by
    intro a b x hab
    rw [le_div_iff₀ (by linarith), div_le_iff₀ (by linarith)]
    constructor <;> rintro ⟨h, h'⟩ <;> constructor <;> linarith
  have n1 : right - left ≠ 0 := by linarith
  have n2 : top - bottom ≠ 0 := by linarith
  have n3 : far - near ≠ 0 := by linarith
  have hcoords : dehom (!![-(2 * near) / (right - left), 0, (right + left) / (right - left), 0;
        0, -(2 * near) / (top - bottom), (top + bottom) / (top - bottom), 0;
        0, 0, -(far + near) / (far - near), 2 * near * far / (far - near);
        0, 0, -1, 0] *ᵥ hom v) = ![(2 * (v 0 * (near / v 2)) - (right + left)) / (right - left),
      (2 * (v 1 * (near / v 2)) - (top + bottom)) / (top - bottom),
      (far + near - 2 * near * far / v 2) / (far - near)] := by
    funext i
    fin_cases i <;> simp [dehom, Matrix.mulVec, dotProduct, Fin.sum_univ_four, hom]
    · field_simp; ring
    · field_simp; ring
    · field_simp; ring
  rw [hcoords]
  unfold InCube
  rw [Fin.forall_fin_succ, Fin.forall_fin_two]
  refine and_congr (line _ _ _ h1) (and_congr (line _ _ _ h2) ?_)
  show -1 ≤ (far + near - 2 * near * far / v 2) / (far - near) ∧
    (far + near - 2 * near * far / v 2) / (far - near) ≤ 1 ↔ _
  rw [le_div_iff₀ (by linarith), div_le_iff₀ (by linarith)]
  rcases lt_or_gt_of_ne hv with hneg | hpos
  · have : 2 * near * far / v 2 < 0 := div_neg_of_pos_of_neg (by nlinarith) hneg
    constructor
    · rintro ⟨-, h⟩; linarith
    · rintro ⟨h, -⟩; linarith
  · constructor
    · rintro ⟨ha, hb⟩
      have ha' : 2 * near * far / v 2 ≤ 2 * far := by linarith
      have hb' : 2 * near ≤ 2 * near * far / v 2 := by linarith
      rw [div_le_iff₀ hpos] at ha'
      rw [le_div_iff₀ hpos] at hb'
      constructor <;> nlinarith
    · rintro ⟨ha, hb⟩
      have ha' : 2 * near * far / v 2 ≤ 2 * far := by rw [div_le_iff₀ hpos]; nlinarith
      have hb' : 2 * near ≤ 2 * near * far / v 2 := by rw [le_div_iff₀ hpos]; nlinarith
      constructor <;> linarith

/-! ## C148 -/

/-- **C148.** `shear_matrix` raises ValueError exactly when the normal and the direction are not null
and the cosine of their angle is above one millionth. -/
theorem C148_errors (angle : ℝ) (direction point normal : P3) :
    (∀ e, shearMatrix angle direction point normal = .error e ↔
      e = .valueError ∧ dot3 normal normal * dot3 direction direction / 10 ^ 12 < dot3 normal direction ^ 2) ∧
    (shearMatrix angle direction point normal = .ok none ↔ normal = 0 ∨ direction = 0) := by
  by_cases hn : normal = 0
  · have : shearMatrix angle direction point normal = .ok none := by
      unfold shearMatrix; rw [(unit3_spec normal).1 hn]
    rw [this]
    simp [hn, dot3]
  by_cases hd : direction = 0
  · have : shearMatrix angle direction point normal = .ok none := by
      unfold shearMatrix; rw [(unit3_spec direction).1 hd]; cases unit3 normal <;> rfl
    rw [this]
    simp [hd, dot3]
  obtain ⟨n, h1, h2, s, hs, rfl, hs2⟩ := (unit3_spec normal).2 hn
  obtain ⟨d, g1, g2, r, hr, rfl, hr2⟩ := (unit3_spec direction).2 hd
  have hk : |dot3 n d| > 1 / 1000000 ↔
      dot3 (s • n) (s • n) * dot3 (r • d) (r • d) / 10 ^ 12 < dot3 (s • n) (r • d) ^ 2 := by
    rw [← hs2, ← hr2, dot3_smul, dot3_smul']
    have e1 : s ^ 2 * r ^ 2 / 10 ^ 12 = (s * r) ^ 2 * (1 / 1000000) ^ 2 := by norm_num; ring
    have e2 : (s * (r * dot3 n d)) ^ 2 = (s * r) ^ 2 * (dot3 n d) ^ 2 := by ring
    rw [e1, e2, mul_lt_mul_iff_right₀ (by positivity), sq_lt_sq, abs_of_pos (by norm_num : (0 : ℝ) < 1 / 1000000)]
  unfold shearMatrix
  rw [h1, g1]
  simp only []
  split_ifs with h
  · simp [hn, hd, hk.1 h, eq_comm]
  · simp [hn, hd, not_lt.1 fun h' => h (hk.2 h')]

/-- **C148.** `shear_matrix`: each point moves along the direction, by the tangent of the angle times
its (signed) distance to the plane; so the points of the plane, and no others when the tangent is not
null, do not move, and the displacement from the foot of the perpendicular is seen under the angle.
When the direction is in the plane, the opposite angle undoes, and volumes are kept. -/
theorem C148_shear (angle : ℝ) (direction point normal : P3) (M : Mat4) (_hcos : cos angle ≠ 0)
    (h : shearMatrix angle direction point normal = .ok (some M)) :
    ∃ f, Moves M f ∧
      (∃ s r : ℝ, 0 < s ∧ s ^ 2 = dot3 normal normal ∧ 0 < r ∧ r ^ 2 = dot3 direction direction ∧
        ∀ v, (s * r) • (f v - v) = (tan angle * dot3 (v - point) normal) • direction) ∧
      (∀ v, OnPlane point normal v → f v = v) ∧ (tan angle ≠ 0 → ∀ v, f v = v → OnPlane point normal v) ∧
      (∀ v foot, OnPlane point normal foot → Along normal (v - foot) →
        dist2 (f v) v = tan angle ^ 2 * dist2 v foot) ∧
      (dot3 direction normal = 0 → M.det = 1 ∧
        ∃ N, shearMatrix (-angle) direction point normal = .ok (some N) ∧ M * N = 1) := by
  by_cases hn : normal = 0
  · rw [(C148_errors angle direction point normal).2.2 (.inl hn)] at h; simp at h
  by_cases hd : direction = 0
  · rw [(C148_errors angle direction point normal).2.2 (.inr hd)] at h; simp at h
  obtain ⟨n, h1, h2, s, hs, rfl, hs2⟩ := (unit3_spec normal).2 hn
  obtain ⟨d, g1, g2, r, hr, rfl, hr2⟩ := (unit3_spec direction).2 hd
  have key : ∀ a N, shearMatrix a (r • d) point (s • n) = .ok (some N) →
      N = affine (1 + tan a • outer d n) (fun i => -tan a * dot3 point n * d i) := by
    intro a N h
    unfold shearMatrix at h
    rw [h1, g1] at h
    simp only [] at h
    split_ifs at h
    simpa [eq_comm] using h
  have hmoves : ∀ a, Moves (affine (1 + tan a • outer d n) (fun i => -tan a * dot3 point n * d i))
      (fun v => v + (tan a * dot3 (v - point) n) • d) := by
    intro a
    refine (moves_affine _ _).congr fun v => ?_
    funext i
    fin_cases i <;> simp [Matrix.mulVec, dotProduct, Fin.sum_univ_three, outer, dot3, Matrix.one_apply] <;> ring
  have hd0 : ∀ c : ℝ, c • d = 0 → c = 0 := by
    intro c hc
    rcases smul_eq_zero.1 hc with h | h
    · exact h
    · rw [h] at g2; simp [dot3] at g2
  have hM := key angle M h
  refine ⟨_, hM ▸ hmoves angle, ⟨s, r, hs, hs2, hr, hr2, ?_⟩, ?_, ?_, ?_, ?_⟩
  · intro v
    rw [add_sub_cancel_left, dot3_smul', smul_smul, smul_smul]
    congr 1
    ring
  · intro v hv
    have : dot3 (v - point) n = 0 := (onPlane_smul hs _ _ _).1 hv
    simp only [this, mul_zero, zero_smul, add_zero]
  · intro ht v hv
    have := hd0 _ (add_eq_left.1 hv)
    exact (onPlane_smul hs _ _ _).2 ((mul_eq_zero.1 this).resolve_left ht)
  · intro v foot hf ⟨t, ht⟩
    have hf' : dot3 (foot - point) n = 0 := (onPlane_smul hs _ _ _).1 hf
    have hdist : dot3 (v - point) n = t * s := by
      have : v - point = (v - foot) + (foot - point) := by funext i; simp only [Pi.sub_apply, Pi.add_apply]; ring
      rw [this, dot3_add, hf', ht, dot3_smul, dot3_smul, h2]; ring
    rw [dist2_eq, dist2_eq, ht, add_sub_cancel_left, dot3_smul, dot3_smul', dot3_smul, dot3_smul', dot3_smul,
      dot3_smul', h2, g2, hdist]
    ring
  · intro hz
    have hz' : dot3 d n = 0 := by
      rw [dot3_smul, dot3_smul'] at hz
      exact (mul_eq_zero.1 ((mul_eq_zero.1 hz).resolve_left hr.ne')).resolve_left hs.ne'
    have hz'' : d 0 * n 0 + d 1 * n 1 + d 2 * n 2 = 0 := hz'
    constructor
    · rw [hM, affine_det, Matrix.det_fin_three]
      simp [outer]
      linear_combination (tan angle) * hz''
    · have hex : shearMatrix (-angle) (r • d) point (s • n) = .ok (some (affine (1 + tan (-angle) • outer d n)
          (fun i => -tan (-angle) * dot3 point n * d i))) := by
        unfold shearMatrix
        rw [h1, g1]
        simp only []
        rw [if_neg (by rw [dot3_comm, hz', abs_zero]; norm_num)]
      refine ⟨_, hex, ?_⟩
      rw [hM]
      refine Moves.unique ((hmoves angle).mul (hmoves (-angle))) (moves_one.congr fun v => ?_)
      simp only [Function.comp_apply, tan_neg]
      have : dot3 (v + (-tan angle * dot3 (v - point) n) • d - point) n = dot3 (v - point) n := by
        simp only [dot3_add, dot3_sub, dot3_smul, hz']; ring
      rw [this]
      funext i
      simp only [Pi.add_apply, Pi.smul_apply, smul_eq_mul, id]
      ring

end Verif.Geom
