import Verif.Transf.PropsNames

/-!
# Angles of postures (C94, C112)
-/

namespace Verif.Transf

open Verif Real Matrix

/-- The orientation of a frame. -/
def orient (l : Fin 7 → ℝ) : Quat := ![l 3, l 4, l 5, l 6]

theorem quatOf_eq (s : Sample) (i : ℕ) :
    quatOf s i = match s[i]? with
      | some l => .ok (orient l)
      | none => .error .indexError := by
  unfold quatOf
  rcases h : s[i]? with _ | l
  · have : pyGet s (i : ℤ) = .error .indexError := by
      unfold pyGet
      rw [if_neg (by omega)]
      simp [h]
    rw [this]
    rfl
  · obtain ⟨hi, hl⟩ := List.getElem?_eq_some_iff.1 h
    rw [pyGet_nat s i hi, hl]
    rfl

/-- The angles between two orientations, as `get_angles` computes them. -/
noncomputable def anglesBetween (qs qd : Quat) : Py (Option (ℝ × ℝ × ℝ)) :=
  match quatInv qs with
  | none => .ok none
  | some inv => do
    let a ← eulerFromQuat (quatMul inv qd) sxyz
    return some a

theorem getAngles_eq (s : Sample) (i j : ℕ) :
    getAngles s i j = match s[i]?, s[j]? with
      | some l, some m => anglesBetween (orient l) (orient m)
      | _, _ => .error .indexError := by
  unfold getAngles
  rw [quatOf_eq, quatOf_eq]
  rcases s[i]? with _ | l <;> rcases s[j]? with _ | m <;> rfl

theorem resolveLower_sxyz : resolveLower sxyz = .ok (0, 0, 0, 0) := by decide +kernel

theorem resolve_sxyz : resolve sxyz = .ok (0, 0, 0, 0) := by decide +kernel

theorem eulerFromQuat_sxyz (q : Quat) :
    eulerFromQuat q sxyz = .ok (eulerFromMatrixOf (0, 0, 0, 0) (quatMatrix q)) := by
  unfold eulerFromQuat eulerFromMatrix
  rw [resolveLower_sxyz]
  rfl

/-- What relates the results of two calls when the orientations are related, whatever the frames. -/
theorem getAngles_congr {R : Quat → Quat → Prop} {s s' : Sample}
    (h : List.Forall₂ (fun l l' => R (orient l) (orient l')) s s')
    (hR : ∀ qs qs' qd qd', R qs qs' → R qd qd' → anglesBetween qs' qd' = anglesBetween qs qd) (i j : ℕ) :
    getAngles s' i j = getAngles s i j := by
  have hget : ∀ k : ℕ, (s[k]? = none ∧ s'[k]? = none) ∨
      ∃ l l', s[k]? = some l ∧ s'[k]? = some l' ∧ R (orient l) (orient l') := by
    intro k
    by_cases hk : k < s.length
    · have hk' : k < s'.length := h.length_eq ▸ hk
      exact .inr ⟨s[k], s'[k], List.getElem?_eq_getElem hk, List.getElem?_eq_getElem hk',
        h.get hk hk'⟩
    · exact .inl ⟨List.getElem?_eq_none (by omega), List.getElem?_eq_none (by rw [← h.length_eq]; omega)⟩
  rw [getAngles_eq, getAngles_eq]
  rcases hget i with ⟨h1, h2⟩ | ⟨l, l', h1, h2, h3⟩ <;> rcases hget j with ⟨h4, h5⟩ | ⟨m, m', h4, h5, h6⟩ <;>
    rw [h1, h2, h4, h5]
  exact hR _ _ _ _ h3 h6

/-- **C94.** The angles do not change when all orientations of the sample are composed with a common
non-null quaternion; positions do not matter. -/
theorem C94_common (g : Quat) (hg : g ≠ 0) (s s' : Sample)
    (h : List.Forall₂ (fun l l' => orient l' = quatMul g (orient l)) s s') (i j : ℕ) :
    getAngles s' i j = getAngles s i j := by
  refine getAngles_congr (R := fun q q' => q' = quatMul g q) h ?_ i j
  rintro qs _ qd _ rfl rfl
  unfold anglesBetween
  by_cases hs : qs = 0
  · have hz : quatMul g qs = 0 := by
      rw [hs]
      funext a
      fin_cases a <;> simp [quatMul]
    rw [hz, hs]
    rw [(C92_inverse 0).1 rfl]
  · have hgs : quatMul g qs ≠ 0 := by
      intro hc
      have h1 := (C92_algebra g qs qs).2.2.2.1
      rw [hc] at h1
      have h2 : dot4 (0 : Quat) 0 = 0 := dot4_eq_zero.2 rfl
      rw [h2] at h1
      rcases mul_eq_zero.1 h1.symm with h3 | h3
      · exact hg (dot4_eq_zero.1 h3)
      · exact hs (dot4_eq_zero.1 h3)
    obtain ⟨p, hp, hp'⟩ := (C92_inverse _).2 hgs
    obtain ⟨r, hr, hr'⟩ := (C92_inverse _).2 hs
    have hg' : toH g ≠ 0 := fun hc => hg (toH_inj.1 (hc.trans (by ext <;> simp <;> rfl)))
    have : quatMul p (quatMul g qd) = quatMul r qd := by
      rw [← toH_inj, C92_multiply, C92_multiply, C92_multiply, hp', hr', C92_multiply, _root_.mul_inv_rev,
        mul_assoc, ← mul_assoc _ (toH g), inv_mul_cancel₀ hg', one_mul]
    rw [hp, hr]
    simp only [this]

/-- **C94.** They do not change when any of the quaternions are replaced with their opposites. -/
theorem C94_opposite (s s' : Sample)
    (h : List.Forall₂ (fun l l' => orient l' = orient l ∨ orient l' = fun a => -orient l a) s s')
    (i j : ℕ) : getAngles s' i j = getAngles s i j := by
  refine getAngles_congr (R := fun q q' => q' = q ∨ q' = fun a => -q a) h ?_ i j
  have hsrc : ∀ qs qd, anglesBetween (fun a => -qs a) qd = anglesBetween qs qd := by
    intro qs qd
    have hd : dot4 (fun a => -qs a) (fun a => -qs a) = dot4 qs qs := by
      unfold dot4
      ring
    unfold anglesBetween quatInv
    rw [hd]
    by_cases h0 : dot4 qs qs = 0
    · rw [if_pos h0, if_pos h0]
    · rw [if_neg h0, if_neg h0]
      have : quatMul (fun a => quatConj (fun a => -qs a) a / dot4 qs qs) qd =
          fun a => -quatMul (fun a => quatConj qs a / dot4 qs qs) qd a := by
        funext a
        fin_cases a <;> simp [quatMul, quatConj] <;> ring
      simp only [this, eulerFromQuat, C93_neg]
  have hdst : ∀ qs qd, anglesBetween qs (fun a => -qd a) = anglesBetween qs qd := by
    intro qs qd
    unfold anglesBetween
    rcases quatInv qs with _ | inv
    · rfl
    · have : quatMul inv (fun a => -qd a) = fun a => -quatMul inv qd a := by
        funext a
        fin_cases a <;> simp [quatMul] <;> ring
      simp only [this, eulerFromQuat, C93_neg]
  rintro qs _ qd _ (rfl | rfl) (rfl | rfl)
  · rfl
  · rw [hdst]
  · rw [hsrc]
  · rw [hsrc, hdst]

theorem dot4_quatInv {q p : Quat} (h : quatInv q = some p) : dot4 p p = 1 / dot4 q q := by
  unfold quatInv at h
  by_cases h0 : dot4 q q = 0
  · rw [if_pos h0] at h
    cases h
  · rw [if_neg h0] at h
    cases h
    have : ∀ d : ℝ, dot4 (fun i => quatConj q i / d) (fun i => quatConj q i / d) = dot4 q q / (d * d) := by
      intro d
      simp only [dot4, quatConj]
      simp
      ring
    rw [this]
    field_simp

/-- **C94.** They do not change when the quaternions are scaled by any non-null factors, provided that
the squared norm of the quaternion of the destination is at least `EPS` times that of the source,
before and after (else the second rotation is taken as the first one). -/
theorem C94_scale (s s' : Sample) (c : ℕ → ℝ) (hc : ∀ k, c k ≠ 0) (hlen : s'.length = s.length)
    (h : ∀ (k : ℕ) (l l' : Fin 7 → ℝ), s[k]? = some l → s'[k]? = some l' → orient l' = fun a => c k * orient l a) (i j : ℕ)
    (hij : ∀ l m, s[i]? = some l → s[j]? = some m →
      EPS * dot4 (orient l) (orient l) ≤ dot4 (orient m) (orient m) ∧
      EPS * (c i ^ 2 * dot4 (orient l) (orient l)) ≤ c j ^ 2 * dot4 (orient m) (orient m)) :
    getAngles s' i j = getAngles s i j := by
  rw [getAngles_eq, getAngles_eq]
  have hget : ∀ k : ℕ, (s[k]? = none ∧ s'[k]? = none) ∨ ∃ l l', s[k]? = some l ∧ s'[k]? = some l' := by
    intro k
    by_cases hk : k < s.length
    · exact .inr ⟨s[k], s'[k], List.getElem?_eq_getElem hk, List.getElem?_eq_getElem (hlen ▸ hk)⟩
    · exact .inl ⟨List.getElem?_eq_none (by omega), List.getElem?_eq_none (by omega)⟩
  rcases hget i with ⟨h1, h2⟩ | ⟨l, l', h1, h2⟩ <;> rcases hget j with ⟨h4, h5⟩ | ⟨m, m', h4, h5⟩ <;>
    rw [h1, h2, h4, h5]
  have hl := h i l l' h1 h2
  have hm := h j m m' h4 h5
  obtain ⟨e1, e2⟩ := hij l m h1 h4
  show anglesBetween (orient l') (orient m') = anglesBetween (orient l) (orient m)
  rw [hl, hm]
  generalize orient l = qs at *
  generalize orient m = qd at *
  have hd : dot4 (fun a => c i * qs a) (fun a => c i * qs a) = c i ^ 2 * dot4 qs qs := by
    unfold dot4
    ring
  unfold anglesBetween
  by_cases h0 : dot4 qs qs = 0
  · unfold quatInv
    rw [hd, h0, mul_zero, if_pos rfl, if_pos rfl]
  · have hci := hc i
    have hcj := hc j
    have hpos : 0 < dot4 qs qs :=
      lt_of_le_of_ne (add_nonneg (add_nonneg (add_nonneg (mul_self_nonneg _) (mul_self_nonneg _))
        (mul_self_nonneg _)) (mul_self_nonneg _)) (Ne.symm h0)
    obtain ⟨r, hr⟩ : ∃ r, quatInv qs = some r := by
      unfold quatInv
      rw [if_neg h0]
      exact ⟨_, rfl⟩
    have hdr := dot4_quatInv hr
    have hr' : quatInv (fun a => c i * qs a) = some fun a => (c i)⁻¹ * r a := by
      unfold quatInv at hr ⊢
      rw [if_neg h0] at hr
      rw [hd, if_neg (mul_ne_zero (pow_ne_zero _ hci) h0)]
      cases hr
      congr 1
      funext a
      have : quatConj (fun a => c i * qs a) a = c i * quatConj qs a := by
        fin_cases a <;> simp [quatConj]
      rw [this]
      field_simp
    have hmul : quatMul (fun a => (c i)⁻¹ * r a) (fun a => c j * qd a) =
        fun a => ((c i)⁻¹ * c j) * quatMul r qd a := by
      funext a
      fin_cases a <;> simp [quatMul] <;> ring
    have hnorm : dot4 (quatMul r qd) (quatMul r qd) = dot4 qd qd / dot4 qs qs := by
      rw [(C92_algebra r qd qd).2.2.2.1, hdr]
      ring
    rw [hr, hr']
    simp only [hmul, eulerFromQuat]
    rw [C93_scale _ _ (by rw [hnorm, le_div_iff₀ hpos]; exact e1) ?_]
    rw [hnorm, show ((c i)⁻¹ * c j) ^ 2 * (dot4 qd qd / dot4 qs qs) =
      c j ^ 2 * dot4 qd qd / (c i ^ 2 * dot4 qs qs) by field_simp, le_div_iff₀ (by positivity)]
    exact e2

/-- **C94.** Degenerate orientations: the angles from a null quaternion are not numbers; those to a
quaternion which is null, or too small, are null. -/
theorem C94_degenerate (s : Sample) (i j : ℕ) (l m : Fin 7 → ℝ) (hi : s[i]? = some l) (hj : s[j]? = some m) :
    (orient l = 0 → getAngles s i j = .ok none) ∧
    (orient l ≠ 0 → dot4 (orient m) (orient m) < EPS * dot4 (orient l) (orient l) →
      getAngles s i j = .ok (some (0, 0, 0))) := by
  rw [getAngles_eq, hi, hj]
  show (orient l = 0 → anglesBetween _ _ = _) ∧ (_ → _ → anglesBetween _ _ = _)
  constructor
  · intro h
    unfold anglesBetween
    rw [(C92_inverse _).1 h]
  · intro h h'
    have h0 : dot4 (orient l) (orient l) ≠ 0 := fun hc => h (dot4_eq_zero.1 hc)
    have hpos : 0 < dot4 (orient l) (orient l) :=
      lt_of_le_of_ne (add_nonneg (add_nonneg (add_nonneg (mul_self_nonneg _) (mul_self_nonneg _))
        (mul_self_nonneg _)) (mul_self_nonneg _)) (Ne.symm h0)
    obtain ⟨r, hr, _⟩ := (C92_inverse _).2 h
    have hdr := dot4_quatInv hr
    unfold anglesBetween
    rw [hr]
    simp only [eulerFromQuat_sxyz]
    rw [(C93_rotation _).2 ?_]
    · have hone : eulerFromMatrixOf (0, 0, 0, 0) 1 = (0, 0, 0) := by
        have h1 : atan2 0 1 = 0 := by
          unfold atan2
          exact Complex.arg_one
        simp [eulerFromMatrixOf, axesOf, nextAxis, eulerAngles, EPS_lt_one, h1]
      rw [hone]
      rfl
    · rw [(C92_algebra r _ 0).2.2.2.1, hdr, one_div, inv_mul_lt_iff₀ hpos, mul_comm]
      exact h'

/-- **C94.** What the angles are: for unit quaternions, `(ax, ay, az)` such that the rotation from the
source to the destination is, up to `2 EPS`, the rotation about the first axis by `ax`, then about the
second one by `ay`, then about the third one by `az`.  It is so exactly unless the second angle is within
`EPS` of a right angle. -/
theorem C94_meaning (s : Sample) (i j : ℕ) (l m : Fin 7 → ℝ) (hi : s[i]? = some l) (hj : s[j]? = some m)
    (hl : dot4 (orient l) (orient l) = 1) (hm : dot4 (orient m) (orient m) = 1) :
    ∃ ax ay az, getAngles s i j = .ok (some (ax, ay, az)) ∧
      let R := homog3 (axisRot3 2 az) * homog3 (axisRot3 1 ay) * homog3 (axisRot3 0 ax)
      let D := (quatMatrix (orient l))ᵀ * quatMatrix (orient m)
      (EPS < √(D 0 0 * D 0 0 + D 1 0 * D 1 0) → R = D) ∧ ∀ a b, |R a b - D a b| ≤ 2 * EPS := by
  have h1 := EPS_lt_one.le
  have hne : orient l ≠ 0 := by
    intro hc
    rw [dot4_eq_zero.2 hc] at hl
    norm_num at hl
  obtain ⟨r, hr, _⟩ := (C92_inverse _).2 hne
  have hdr := dot4_quatInv hr
  rw [hl, one_div_one] at hdr
  have hrc : r = quatConj (orient l) := by
    unfold quatInv at hr
    rw [hl, if_neg one_ne_zero] at hr
    rw [← Option.some.inj hr]
    funext a
    rw [div_one]
  have hT : quatMatrix r = (quatMatrix (orient l))ᵀ := by
    rw [quatMatrix_eq (by rw [hdr]; exact h1), quatMatrix_eq (by rw [hl]; exact h1), hdr, hl, hrc]
    ext a b
    fin_cases a <;> fin_cases b <;> simp [quatConj] <;> ring
  have hD : quatMatrix (quatMul r (orient m)) = (quatMatrix (orient l))ᵀ * quatMatrix (orient m) := by
    rw [C93_multiplicative _ _ (by rw [hdr]; exact h1) (by rw [hm]; exact h1)
      (by rw [hdr, hm, one_mul]; exact h1), hT]
  obtain ⟨ax, ay, az, R, e1, e2, e3, e4⟩ :=
    C95_rebuild sxyz _ resolve_sxyz _ (C93_rotation (quatMul r (orient m))).1
  have hmean := C109_meaning 's' 'x' 'y' 'z' (0, 0, 0, 0) (by decide) ax ay az
  have hR : R = homog3 (axisRot3 2 az) * homog3 (axisRot3 1 ay) * homog3 (axisRot3 0 ax) :=
    Except.ok.inj (e2.symm.trans hmean)
  refine ⟨ax, ay, az, ?_, ?_⟩
  · rw [getAngles_eq, hi, hj]
    show anglesBetween _ _ = _
    unfold anglesBetween
    rw [hr]
    simp only [eulerFromQuat]
    rw [e1]
    rfl
  · simp only []
    rw [← hD, ← hR]
    exact ⟨fun hg => e3 (.inl hg), e4⟩

/-- **C94.** When there are angles: exactly when both frames exist; else `IndexError`. -/
theorem C94_frames (s : Sample) (i j : ℕ) :
    (i < s.length ∧ j < s.length → ∃ a, getAngles s i j = .ok a) ∧
    (¬ (i < s.length ∧ j < s.length) → getAngles s i j = .error .indexError) := by
  rw [getAngles_eq]
  constructor
  · rintro ⟨hi, hj⟩
    rw [List.getElem?_eq_getElem hi, List.getElem?_eq_getElem hj]
    show ∃ a, anglesBetween _ _ = _
    unfold anglesBetween
    rcases quatInv (orient s[i]) with _ | inv
    · exact ⟨_, rfl⟩
    · simp only [eulerFromQuat_sxyz]
      exact ⟨_, rfl⟩
  · intro h
    by_cases hi : i < s.length
    · rw [List.getElem?_eq_none (l := s) (i := j) (by omega)]
      rcases s[i]? with _ | l <;> rfl
    · rw [List.getElem?_eq_none (l := s) (i := i) (by omega)]

end Verif.Transf
