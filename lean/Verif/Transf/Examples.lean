import Verif.Transf.PropsArrays
import Verif.Transf.PropsFromMatrix

/-!
# Cases meeting the hypotheses of the theorems on rotations
-/

namespace Verif.Transf

open Verif Real Matrix

/-- A quarter turn about the third axis, not normalised. -/
def quarter : Quat := ![0, 0, 1, 1]

theorem quarter_norm : dot4 quarter quarter = 2 := by
  simp [dot4, quarter]
  norm_num

theorem EPS_le_two : EPS ≤ 2 := by
  have := EPS_lt_one
  linarith

/-- The quarter turn, for C93. -/
theorem quarter_matrix : quatMatrix quarter = !![0, -1, 0, 0; 1, 0, 0, 0; 0, 0, 1, 0; 0, 0, 0, 1] := by
  rw [quatMatrix_eq (by rw [quarter_norm]; exact EPS_le_two), quarter_norm]
  ext a b
  fin_cases a <;> fin_cases b <;> simp [quarter]

/-- C93: the quarter turn twice. -/
example : quatMatrix (quatMul quarter quarter) =
    !![0, -1, 0, 0; 1, 0, 0, 0; 0, 0, 1, 0; 0, 0, 0, 1] * !![0, -1, 0, 0; 1, 0, 0, 0; 0, 0, 1, 0; 0, 0, 0, 1] := by
  rw [C93_multiplicative quarter quarter (by rw [quarter_norm]; exact EPS_le_two)
    (by rw [quarter_norm]; exact EPS_le_two) (by rw [quarter_norm]; linarith [EPS_le_two]), quarter_matrix]

/-- C93: any scaling of the quarter turn by at least one half. -/
example (s : ℝ) (hs : 1 / 2 ≤ s) : quatMatrix (fun i => s * quarter i) = quatMatrix quarter :=
  C93_scale quarter s (by rw [quarter_norm]; exact EPS_le_two) (by
    rw [quarter_norm]
    have : EPS ≤ 1 / 2 := by unfold EPS; norm_num
    nlinarith)

/-- C93: the threshold of scalings is needed. -/
example : quatMatrix (fun i => 1 / 2 ^ 30 * quarter i) ≠ quatMatrix quarter := by
  rw [(C93_rotation _).2 (by
    simp [dot4, quarter, EPS]
    norm_num), quarter_matrix]
  intro h
  have := congrFun (congrFun h 0) 0
  simp at this

/-- C95: the quarter turn is a rotation far from the gimbal lock. -/
example : ∃ ax ay az R, eulerFromMatrix (quatMatrix quarter) sxyz = .ok (ax, ay, az) ∧
    eulerMatrix ax ay az sxyz = .ok R ∧ R = quatMatrix quarter := by
  obtain ⟨ax, ay, az, R, h1, h2, h3, _⟩ :=
    C95_rebuild sxyz _ resolve_sxyz _ (C93_rotation quarter).1
  refine ⟨ax, ay, az, R, h1, h2, h3 (.inl ?_)⟩
  rw [show gimbal (0, 0, 0, 0) (quatMatrix quarter) =
    √(quatMatrix quarter 0 0 * quatMatrix quarter 0 0 + quatMatrix quarter 1 0 * quatMatrix quarter 1 0) from rfl,
    quarter_matrix]
  simp [EPS_lt_one]

/-- C95: angles which come back. -/
example : ∃ M, eulerMatrix 1 0 (-1) sxyz = .ok M ∧ eulerFromMatrix M sxyz = .ok (1, 0, -1) := by
  have hpi := two_le_pi
  apply C95_angles sxyz _ resolve_sxyz
  · simp [axesSign]
    constructor <;> linarith
  · simp [axesSign]
    constructor <;> linarith
  · simp [axesSign, EPS_lt_one, pi_pos]

/-- C109: names of a static and of a rotating frame. -/
example (a b c : ℝ) : eulerMatrix a b c (.name ['r', 'z', 'y', 'z']) =
    .ok (homog3 (axisRot3 2 a) * homog3 (axisRot3 1 b) * homog3 (axisRot3 2 c)) :=
  C109_meaning 'r' 'z' 'y' 'z' (2, 1, 1, 1) (by decide) a b c

/-- C109: names in capital letters are not those of `euler_matrix`, while they are those of the other
functions. -/
example (a b c : ℝ) : eulerMatrix a b c (.name ['S', 'X', 'Y', 'Z']) = .error .keyError ∧
    ∃ q, quatFromEuler a b c (.name ['S', 'X', 'Y', 'Z']) = .ok q := by
  have h1 : resolve (.name ['S', 'X', 'Y', 'Z']) = .error .keyError := by decide +kernel
  have h2 : resolveLower (.name ['S', 'X', 'Y', 'Z']) = .ok (0, 0, 0, 0) := by decide +kernel
  unfold eulerMatrix quatFromEuler
  rw [h1, h2]
  exact ⟨rfl, _, rfl⟩

/-- C110. -/
example (a b c : ℝ) : ∃ M q, eulerMatrix a b c (.tuple (1, 1, 0, 1)) = .ok M ∧
    quatFromEuler a b c (.tuple (1, 1, 0, 1)) = .ok q ∧ quatMatrix q = M := by
  have h1 : resolve (.tuple (1, 1, 0, 1)) = .ok (1, 1, 0, 1) := by decide +kernel
  obtain ⟨q, h2, _, h3⟩ := C110_matrix a b c (.tuple (1, 1, 0, 1)) (eulerMatrixOf (1, 1, 0, 1) a b c) (by
    unfold eulerMatrix
    rw [h1]
    rfl)
  exact ⟨_, q, by unfold eulerMatrix; rw [h1]; rfl, h2, h3⟩

/-- C111: the half turn about the third axis, whose trace is not positive. -/
example : quatFromMatrix (quatMatrix ![0, 0, 1, 0]) = .ok ![0, 0, 1, 0] ∨
    quatFromMatrix (quatMatrix ![0, 0, 1, 0]) = .ok fun a => -(![0, 0, 1, 0] : Quat) a :=
  C111_quaternion _ (by simp [dot4])

/-- C111: the quarter turn is a rotation. -/
example : ∃ q, quatFromMatrix (quatMatrix quarter) = .ok q ∧ dot4 q q = 1 ∧
    quatMatrix q = quatMatrix quarter :=
  C111_rotation _ (C93_rotation quarter).1

/-- A sample of two frames. -/
def twoFrames : Sample := [![1, 2, 3, 0, 0, 0, 1], ![4, 5, 6, 0, 1, 0, 0]]

/-- C94: both frames turned, and moved. -/
example (i j : ℕ) : getAngles [![7, 8, 9, 0, 0, 1, 0], ![0, 0, 0, -1, 0, 0, 0]] i j = getAngles twoFrames i j := by
  apply C94_common ![0, 0, 1, 0] (by
    intro h
    have := congrFun h 2
    simp at this)
  unfold twoFrames
  refine .cons ?_ (.cons ?_ .nil) <;> funext a <;> fin_cases a <;> simp [orient, quatMul]

/-- C94: one quaternion replaced with its opposite. -/
example (i j : ℕ) : getAngles [![1, 2, 3, 0, 0, 0, 1], ![4, 5, 6, 0, -1, 0, 0]] i j = getAngles twoFrames i j := by
  apply C94_opposite
  unfold twoFrames
  refine .cons (.inl rfl) (.cons (.inr ?_) .nil)
  funext a
  fin_cases a <;> simp [orient]

/-- C94: scaled by different factors. -/
example : getAngles [![1, 2, 3, 0, 0, 0, 2], ![4, 5, 6, 0, 3, 0, 0]] 0 1 = getAngles twoFrames 0 1 := by
  have hE := EPS_lt_one
  apply C94_scale twoFrames _ (fun k => k + 2)
  · intro k
    positivity
  · simp [twoFrames]
  · intro k l l' h1 h2
    rcases k with _ | _ | k
    · simp [twoFrames] at h1 h2
      subst h1 h2
      funext a
      fin_cases a <;> simp [orient]
    · simp [twoFrames] at h1 h2
      subst h1 h2
      funext a
      fin_cases a <;> simp [orient] <;> norm_num
    · simp [twoFrames] at h1
  · intro l m h1 h2
    simp [twoFrames] at h1 h2
    subst h1 h2
    simp [orient, dot4]
    constructor <;> norm_num <;> linarith

/-- C94: the threshold of scalings is needed. -/
example : getAngles [![1, 2, 3, 0, 0, 0, 1], ![4, 5, 6, 0, 1 / 2 ^ 30, 0, 0]] 0 1 = .ok (some (0, 0, 0)) ∧
    getAngles twoFrames 0 1 ≠ .ok (some (0, 0, 0)) := by
  constructor
  · refine (C94_degenerate _ 0 1 _ _ rfl rfl).2 ?_ ?_
    · intro h
      have := congrFun h 3
      simp [orient] at this
    · simp [orient, dot4, EPS]
      norm_num
  · intro h
    obtain ⟨ax, ay, az, h1, h2⟩ := C94_meaning twoFrames 0 1 _ _ rfl rfl (by simp [orient, dot4])
      (by simp [orient, dot4])
    rw [h] at h1
    have h3 := Option.some.inj (Except.ok.inj h1)
    simp only [Prod.mk.injEq] at h3
    obtain ⟨rfl, rfl, rfl⟩ := h3
    have h4 := h2.2 0 0
    have hl : quatMatrix (orient ![1, 2, 3, 0, 0, 0, 1]) = 1 := by
      rw [quatMatrix_eq (by simp [orient, dot4, EPS_lt_one.le])]
      ext a b
      fin_cases a <;> fin_cases b <;> simp [orient]
    rw [hl, transpose_one, one_mul, quatMatrix_eq (by simp [orient, dot4, EPS_lt_one.le])] at h4
    simp [orient, dot4, axisRot3, homog3, Matrix.mul_apply, Fin.sum_univ_four] at h4
    have hE : EPS ≤ 1 / 2 := by unfold EPS; norm_num
    linarith

/-- C112: a database of one record of one sample. -/
example : ∃ out, dbToAngleArrays angleMarkers [[angleMarkers.map fun _ => ![0, 0, 0, 0, 0, 0, 1]]] = .ok out := by
  obtain ⟨out, h, _⟩ := C112_arrays angleMarkers (fun _ h => h)
    [[angleMarkers.map fun _ => ![0, 0, 0, 0, 0, 0, 1]]] (by simp) (by simp)
  exact ⟨out, h⟩

/-- C112: the whole body is turned. -/
example : dbToAngleArrays angleMarkers [[angleMarkers.map fun _ => ![1, 0, 0, 1, 0, 0, 0]]] =
    dbToAngleArrays angleMarkers [[angleMarkers.map fun _ => ![0, 0, 0, 0, 0, 0, 1]]] := by
  apply C112_postures
  refine .cons (.cons ⟨![1, 0, 0, 0], ?_, ?_⟩ .nil) .nil
  · intro h
    have := congrFun h 0
    simp at this
  · rw [List.forall₂_map_left_iff, List.forall₂_map_right_iff, List.forall₂_same]
    intro _ _
    left
    funext a
    fin_cases a <;> simp [orient, quatMul]

end Verif.Transf
