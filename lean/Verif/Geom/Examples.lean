import Verif.Geom.PropsArcball
import Verif.Geom.PropsProjection

/-!
# Cases meeting the hypotheses of the theorems on homogeneous matrices
-/

namespace Verif.Geom

open Verif Real Matrix
open Verif.Transf (Mat4 Quat EPS dot4 quatMatrix IsRotation)

theorem unit_x : (![1, 0, 0] : P3) ≠ 0 := fun h => by simpa using congrFun h 0

theorem unit_z : (![0, 0, 2] : P3) ≠ 0 := fun h => by simpa using congrFun h 2

/-- C142: two translations. -/
example : translationMatrix ![1, 2, 3] * translationMatrix ![1, 0, -1] = translationMatrix ![2, 2, 2] := by
  rw [(C142_translation _ _).2.2.1]
  congr 1
  funext i
  fin_cases i <;> simp <;> norm_num

/-- C143: the mirror image of (3, 5, 7) across the plane `x = 1`. -/
example : ∃ M, reflectionMatrix ![1, 0, 0] ![1, 0, 0] = some M ∧ M *ᵥ hom ![3, 5, 7] = hom ![-1, 5, 7] := by
  obtain ⟨M, f, hM, hf, h, -⟩ := (C143_reflection ![1, 0, 0] ![1, 0, 0]).2 unit_x
  refine ⟨M, hM, ?_⟩
  rw [hf]
  obtain ⟨⟨t, ht⟩, hp⟩ := h ![3, 5, 7]
  have e0 := congrFun ht 0
  have e1 := congrFun ht 1
  have e2 := congrFun ht 2
  simp [OnPlane, dot3, vecHead] at hp e0 e1 e2
  congr 1
  funext i
  fin_cases i
  · show f ![3, 5, 7] 0 = -1
    linarith
  · show f ![3, 5, 7] 1 = 5
    linarith
  · show f ![3, 5, 7] 2 = 7
    linarith

/-- C144: the quarter turn about a vertical axis through (1, 0, 0) takes the origin to (1, -1, 0). -/
example : ∃ M, rotationMatrix (π / 2) ![0, 0, 2] (some ![1, 0, 0]) = some M ∧
    M *ᵥ hom 0 = hom ![1, -1, 0] := by
  obtain ⟨M, f, hM, hf, -, hperp, hd, h⟩ := (C144_rotation (π / 2) ![0, 0, 2] (some ![1, 0, 0])).2 unit_z
  refine ⟨M, hM, ?_⟩
  rw [hf]
  obtain ⟨-, s, s0, s2, hs⟩ := h 0 0 (by simp [dot3])
  have : s = 2 := by
    simp [dot3] at s2
    nlinarith
  subst this
  have e1 := congrFun hs 1
  have e2 := congrFun hs 2
  have e3 := hperp 0
  have e4 := (h 0 0 (by simp [dot3])).1
  simp [cross, dot3] at e1 e2 e3 e4
  congr 1
  funext i
  fin_cases i
  · show f 0 0 = 1
    linarith
  · show f 0 1 = -1
    linarith
  · show f 0 2 = 0
    linarith

/-- C144: a turn of one radian and one of two. -/
example : ∃ A B AB, rotationMatrix 1 ![1, 0, 0] none = some A ∧ rotationMatrix 2 ![1, 0, 0] none = some B ∧
    rotationMatrix (1 + 2) ![1, 0, 0] none = some AB ∧ A * B = AB := by
  obtain ⟨A, B, AB, h1, h2, h3, h4, -⟩ := C144_compose 1 2 ![1, 0, 0] none unit_x
  exact ⟨A, B, AB, h1, h2, h3, h4⟩

/-- C144: the direction (1, 0, 0) is not tiny. -/
example (angle : ℝ) : rotationMatrix angle ![1, 0, 0] none =
    some (quatMatrix (Transf.quatAboutAxis angle ![1, 0, 0])) :=
  (C144_quaternion angle ![1, 0, 0] (by simp [norm3, dot3, Transf.EPS_lt_one])).1

/-- C145: scaling by -2 along the first axis about (1, 1, 1). -/
example : ∃ M, scaleMatrix (-2) (some ![1, 1, 1]) (some ![1, 0, 0]) = some M ∧
    M *ᵥ hom ![2, 3, 4] = hom ![-1, 3, 4] := by
  obtain ⟨M, f, hM, hf, -, h, -⟩ := (C145_scale (-2) (some ![1, 1, 1]) (some ![1, 0, 0])).2
    (fun h => unit_x (Option.some.inj h))
  refine ⟨M, hM, ?_⟩
  rw [hf]
  obtain ⟨⟨t, ht⟩, hd⟩ := h _ rfl ![2, 3, 4]
  have e1 := congrFun ht 1
  have e2 := congrFun ht 2
  simp [dot3] at hd e1 e2
  congr 1
  funext i
  fin_cases i
  · show f ![2, 3, 4] 0 = -1
    linarith
  · show f ![2, 3, 4] 1 = 3
    linarith
  · show f ![2, 3, 4] 2 = 4
    linarith

/-- C146: a direction which is not in the plane gives numbers, one in the plane does not. -/
example : (∃ M, projectionMatrix 0 ![0, 0, 2] (some ![1, 1, 1]) none false = some M) ∧
    projectionMatrix 0 ![0, 0, 2] (some ![1, 1, 0]) none false = none := by
  constructor
  · cases h : projectionMatrix 0 ![0, 0, 2] (some ![1, 1, 1]) none false with
    | some M => exact ⟨M, rfl⟩
    | none =>
      rcases (C146_parallel _ _ _ _).1.1 h with h | ⟨d, hd, h⟩
      · exact absurd h unit_z
      · obtain rfl := Option.some.inj hd
        simp [dot3] at h
  · exact (C146_parallel _ _ _ _).1.2 (.inr ⟨_, rfl, by simp [dot3]⟩)

/-- C146: from the point (0, 0, 4) the point (1, 0, 2) is seen at (2, 0, 0). -/
example : ∃ M, projectionMatrix 0 ![0, 0, 2] none (some ![0, 0, 4]) false = some M ∧
    dehom (M *ᵥ hom ![1, 0, 2]) = ![2, 0, 0] := by
  obtain ⟨M, hM, h⟩ := C146_perspective 0 ![0, 0, 2] ![0, 0, 4] none unit_z
  refine ⟨M, hM, ?_⟩
  obtain ⟨hp, t, ht⟩ := (h ![1, 0, 2]).2 (by simp [OnPlane, dot3]; norm_num)
  have e0 := congrFun ht 0
  have e1 := congrFun ht 1
  have e2 := congrFun ht 2
  generalize dehom (M *ᵥ hom ![1, 0, 2]) = w at *
  simp [OnPlane, dot3] at hp e0 e1 e2
  funext i
  fin_cases i
  · show w 0 = 2
    linarith
  · show w 1 = 0
    linarith
  · show w 2 = 0
    linarith

/-- C146: both depths, (0, 0, 1) and (1, 0, 3), are in front of (0, 0, 4). -/
example : 0 < dot3 (![0, 0, 4] - 0) ![0, 0, 2] ∧ 0 < dot3 (![0, 0, 4] - ![0, 0, 1]) ![0, 0, 2] ∧
    0 < dot3 (![0, 0, 4] - ![1, 0, 3]) ![0, 0, 2] ∧ dot3 ![0, 0, 1] ![0, 0, 2] < dot3 ![1, 0, 3] ![0, 0, 2] := by
  refine ⟨?_, ?_, ?_, ?_⟩ <;> simp [dot3] <;> norm_num

/-- C147: a truncated pyramid; the point (0, 0, 2) is in it, the point (0, 0, 4) is not. -/
example : ∃ M, clipMatrix (-1) 1 (-1) 1 1 3 true = .ok M ∧ InCube (dehom (M *ᵥ hom ![0, 0, 2])) ∧
    ¬ InCube (dehom (M *ᵥ hom ![0, 0, 4])) := by
  obtain ⟨M, hM⟩ := (C147_errors (-1) 1 (-1) 1 1 3 true).2
    ⟨by norm_num, by norm_num, by norm_num, fun _ => Transf.EPS_lt_one⟩
  refine ⟨M, hM, ?_, ?_⟩
  · rw [C147_perspective _ _ _ _ _ _ M hM _ (by simp)]
    simp
    norm_num
  · rw [C147_perspective _ _ _ _ _ _ M hM _ (by simp)]
    simp
    norm_num

/-- C147: a box which is not symmetric. -/
example : ∃ M, clipMatrix 0 2 (-1) 3 5 6 false = .ok M :=
  (C147_errors 0 2 (-1) 3 5 6 false).2 ⟨by norm_num, by norm_num, by norm_num, by simp⟩

/-- C147: bounds in the wrong order. -/
example : ¬ ∃ M, clipMatrix 0 2 (-1) 3 6 5 false = .ok M := by
  rw [C147_errors]
  norm_num

/-- C148: a shear along the first axis, of the plane orthogonal to the third. -/
example : ∃ M, shearMatrix (π / 4) ![1, 0, 0] 0 ![0, 0, 2] = .ok (some M) ∧ M.det = 1 ∧ tan (π / 4) ≠ 0 := by
  cases h : shearMatrix (π / 4) ![1, 0, 0] 0 ![0, 0, 2] with
  | error e =>
    have := ((C148_errors (π / 4) ![1, 0, 0] 0 ![0, 0, 2]).1 e).1 h
    simp [dot3] at this
    norm_num at this
  | ok o =>
    cases o with
    | none =>
      rcases (C148_errors (π / 4) ![1, 0, 0] 0 ![0, 0, 2]).2.1 h with h | h
      · exact absurd h unit_z
      · exact absurd h unit_x
    | some M =>
      refine ⟨M, rfl, ?_, by rw [tan_pi_div_four]; exact one_ne_zero⟩
      obtain ⟨-, -, -, -, -, -, h⟩ := C148_shear (π / 4) ![1, 0, 0] 0 ![0, 0, 2] M (by
        rw [cos_pi_div_four]; positivity) h
      exact (h (by simp [dot3])).1

/-- C148: a direction out of the plane is refused. -/
example : shearMatrix 1 ![1, 0, 1] 0 ![0, 0, 2] = .error .valueError :=
  ((C148_errors 1 ![1, 0, 1] 0 ![0, 0, 2]).1 _).2 ⟨rfl, by simp [dot3]; norm_num⟩

/-- C149: numbers in the range. -/
example : ∃ q, randomQuaternion [1 / 4, 1 / 2, 3 / 4] = .ok (some q) ∧ dot4 q q = 1 := by
  obtain ⟨q, h1, h2, -⟩ := C149_random.2.1 (1 / 4) (1 / 2) (3 / 4) (by norm_num) (by norm_num)
  exact ⟨q, h1, h2⟩

theorem unit_first : dot4 ![0, 0, 0, 1] ![0, 0, 0, 1] = 1 := by simp [dot4]

theorem unit_second : dot4 ![1, 0, 0, 0] ![1, 0, 0, 0] = 1 := by simp [dot4]

/-- C150: the middle of a quarter of turn makes half of the angle with both ends. -/
example : ∃ q, slerp (some ![0, 0, 0, 1]) (some ![3, 0, 0, 0]) (1 / 2) 0 true = .ok (some q) ∧ dot4 q q = 1 ∧
    dot4 ![0, 0, 0, 1] q = dot4 q ![1, 0, 0, 0] := by
  have h := (C150_slerp ![0, 0, 0, 1] ![1, 0, 0, 0] unit_first unit_second 1 3 one_pos three_pos (1 / 2) 0 true
    (by norm_num) (by norm_num)).2 (by simp [dot4]; exact Transf.EPS_lt_one.le)
  obtain ⟨q, hq, arc, -, -, -, -, he, -⟩ := h
  have e3 : (3 : ℝ) • (![1, 0, 0, 0] : Quat) = ![3, 0, 0, 0] := by
    funext i
    fin_cases i <;> simp
  rw [one_smul, e3] at hq
  obtain ⟨h1, h2, h3⟩ := he Even.zero
  refine ⟨q, hq, h1, ?_⟩
  have : endOf ![0, 0, 0, 1] ![1, 0, 0, 0] true = ![1, 0, 0, 0] := by simp [endOf, dot4]
  rw [this] at h3
  rw [h2, h3]
  norm_num

/-- C150: with an odd number of half turns the result may have another norm than one. -/
example : ∃ q, slerp (some ![0, 0, 0, 1]) (some ![√3 / 2, 0, 0, 1 / 2]) (1 / 2) 1 true = .ok (some q) ∧ dot4 q q = 3 := by
  have hs : √3 * √3 = 3 := mul_self_sqrt (by norm_num)
  have h1 : dot4 ![√3 / 2, 0, 0, 1 / 2] ![√3 / 2, 0, 0, 1 / 2] = 1 := by
    simp [dot4]
    nlinarith
  have hd : dot4 ![0, 0, 0, 1] ![√3 / 2, 0, 0, 1 / 2] = 1 / 2 := by simp [dot4]
  have h := (C150_slerp ![0, 0, 0, 1] ![√3 / 2, 0, 0, 1 / 2] unit_first h1 1 1 one_pos one_pos (1 / 2) 1 true
    (by norm_num) (by norm_num)).2 (by
      rw [hd, abs_of_pos (by norm_num)]
      unfold EPS
      norm_num)
  obtain ⟨q, hq, arc, ha, h2, h3, -, -, ho⟩ := h
  rw [one_smul, one_smul] at hq
  refine ⟨q, hq, ?_⟩
  have he : endOf ![0, 0, 0, 1] ![√3 / 2, 0, 0, 1 / 2] true = ![√3 / 2, 0, 0, 1 / 2] := by
    unfold endOf
    rw [hd, if_neg (by norm_num)]
  have := ho odd_one
  rw [he, hd] at this
  rw [he, hd] at ha
  have hc : cos arc = -(1 / 2) := by
    rw [← ha]
    push_cast
    rw [one_mul, cos_sub_pi]
    ring
  have hsq : sin arc ^ 2 = 3 / 4 := by
    have := sin_sq_add_cos_sq arc
    rw [hc] at this
    linarith
  have hhalf : sin (1 / 2 * arc) ^ 2 = 3 / 4 := by
    have := cos_two_mul (1 / 2 * arc)
    rw [show 2 * (1 / 2 * arc) = arc by ring, hc] at this
    have := sin_sq_add_cos_sq (1 / 2 * arc)
    linarith
  rw [this, hsq, show (1 : ℝ) - 1 / 2 = 1 / 2 by norm_num, ← pow_two, hhalf]
  norm_num

/-- C153: matrices which are not the same as their double only when the last entry is null. -/
example : isSameTransform (translationMatrix ![1, 2, 3]) ((2 : ℝ) • translationMatrix ![1, 2, 3]) = true :=
  (C153_same _ 0).1 2 two_ne_zero (by simp [translationMatrix, affine])

/-- C154: right angles. -/
example : ∃ O, orthogonalizationMatrix ![10, 10, 10] ![90, 90, 90] = .ok (some O) := by
  have h90 : (90 : ℝ) * π / 180 = π / 2 := by ring
  have hc : (0 : ℝ) = cos (90 * π / 180) := by rw [h90, cos_pi_div_two]
  cases h : orthogonalizationMatrix ![10, 10, 10] ![90, 90, 90] with
  | error e =>
    have := ((C154_errors ![10, 10, 10] ![90, 90, 90] 0 0 0 hc hc hc).1 e).1 h
    norm_num at this
  | ok o =>
    cases o with
    | some O => exact ⟨O, rfl⟩
    | none =>
      have := (C154_errors ![10, 10, 10] ![90, 90, 90] 0 0 0 hc hc hc).2.1 h
      norm_num at this

/-- C154: no cell has the angles 0, 0 and 180 degrees. -/
example : orthogonalizationMatrix ![1, 1, 1] ![0, 0, 180] = .error .valueError := by
  refine ((C154_errors ![1, 1, 1] ![0, 0, 180] 1 1 (-1) (by simp) (by simp) ?_).1 _).2 ⟨rfl, by norm_num⟩
  show -1 = cos (180 * π / 180)
  rw [show (180 : ℝ) * π / 180 = π by ring, cos_pi]

/-- C151: a cursor in the disc and one outside. -/
example : (∃ v, mapToSphere (60, 50) (50, 50) 20 = .ok v ∧ v 0 = 1 / 2) ∧
    ∃ v, mapToSphere (50, 0) (50, 50) 20 = .ok v ∧ v 2 = 0 := by
  constructor
  · obtain ⟨v, hv, -, -, h, -⟩ := (C151_sphere (60, 50) (50, 50) 20).2 (by norm_num)
    refine ⟨v, hv, ?_⟩
    have := (h (by norm_num)).1
    norm_num at this
    linarith
  · obtain ⟨v, hv, -, -, -, h⟩ := (C151_sphere (50, 0) (50, 50) 20).2 (by norm_num)
    exact ⟨v, hv, (h (by norm_num)).1⟩

/-- C151: the point (0, 0, 1) and the three coordinate axes. -/
example : ∃ a, nearestAxis ![0, 0, 1] [some ![0, 0, 1], some ![1, 0, 0], some ![0, 1, 0]] = some a := by
  cases h : nearestAxis ![0, 0, 1] [some ![0, 0, 1], some ![1, 0, 0], some ![0, 1, 0]] with
  | some a => exact ⟨a, rfl⟩
  | none =>
    have := (C151_nearest ![0, 0, 1] (by simp [dot3]) (by simp) _ (by
      intro a ha
      simp only [List.mem_cons, Option.some.injEq, List.not_mem_nil, or_false] at ha
      rcases ha with rfl | rfl | rfl <;> simp [dot3])).1.1 h ![1, 0, 0] (by simp)
    rw [(C151_constrain _ _ (by simp [dot3])).1] at this
    have := congrFun this.1 0
    simp at this

/-- C151: a trackball which has been turned, constrained and let go. -/
example : ∃ b M, ballInit (.quaternion ![0, 0, 3, 4]) = .ok b ∧
    ballMatrix (ballAfter b [.place (320, 320) 320, .setaxes [![1, 1, 0], ![-1, 1, 0]], .down (500, 250),
      .setconstrain true, .drag (475, 275), .down (500, 250), .drag (0, 0), .next 0, .next 0]) = some M ∧
    IsRotation M := by
  have hp : Initial.Proper (.quaternion ![0, 0, 3, 4]) := fun h => by simpa using congrFun h 2
  obtain ⟨b, hb, -⟩ := C151_initial _ hp
  obtain ⟨M, hM, h⟩ := C151_always _ hp b hb [.place (320, 320) 320, .setaxes [![1, 1, 0], ![-1, 1, 0]], .down (500, 250),
      .setconstrain true, .drag (475, 275), .down (500, 250), .drag (0, 0), .next 0, .next 0] (by
    intro c hc
    simp only [List.mem_cons, List.not_mem_nil, or_false] at hc
    rcases hc with rfl | rfl | rfl | rfl | rfl | rfl | rfl | rfl | rfl <;> simp [Call.Proper])
  exact ⟨b, M, hb, hM, h⟩

/-- C151: `setaxes()` then a constrained press. -/
example : ∃ b, ballInit .default = .ok b ∧
    (ballCall (ballAfter b [.setaxes [], .setconstrain true]) (.down (0, 0))).2 = .error .indexError := by
  obtain ⟨b, hb, hs, -⟩ := C151_initial .default trivial
  refine ⟨b, hb, ?_⟩
  have s1 := C151_step b hs (.setaxes []) (by simp [Call.Proper])
  have s2 := C151_step _ s1 (.setconstrain true) trivial
  rw [show ballAfter b [.setaxes [], .setconstrain true] =
    (ballCall (ballCall b (.setaxes [])).1 (.setconstrain true)).1 from rfl, C151_errors _ s2]
  refine .inr ⟨rfl, ?_, rfl, rfl, _, rfl⟩
  obtain rfl := Except.ok.inj hb
  exact one_ne_zero

/-- C151: drag and next from a new trackball. -/
example : ∃ b, ballInit .default = .ok b ∧ b.radius ≠ 0 ∧ Sound b ∧
    ballMatrix (ballAfter b [.down (1, 0), .drag (0, 1), .drag (1, 0)]) = some 1 := by
  obtain ⟨b, hb, hs, h1, -⟩ := C151_initial .default trivial
  have hr : b.radius ≠ 0 := by
    obtain rfl := Except.ok.inj hb
    exact one_ne_zero
  refine ⟨b, hb, hr, hs, ?_⟩
  rw [← h1 rfl, ← (C151_path b [(0, 1)] (1, 0) hr).2]
  obtain rfl := Except.ok.inj hb
  rfl

end Verif.Geom
