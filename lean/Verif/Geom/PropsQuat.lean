import Verif.Geom.PropsProjection
import Mathlib.Analysis.SpecialFunctions.Trigonometric.Bounds

/-!
# Properties of random quaternions, spherical interpolation, products and cell axes
-/

namespace Verif.Geom

open Verif Real Matrix
open Verif.Transf (Mat4 Quat EPS IsRotation dot4)

/-! ## C149 -/

/-- A turn of the circle reaches each point of the circle. -/
theorem circle_point (x y : ℝ) : ∃ t : ℝ, 0 ≤ t ∧ t < 1 ∧ sin (π * 2 * t) * √(x ^ 2 + y ^ 2) = x ∧
    cos (π * 2 * t) * √(x ^ 2 + y ^ 2) = y := by
  by_cases h : y * y + x * x = 0
  · have hx : x = 0 := by nlinarith [mul_self_nonneg x, mul_self_nonneg y]
    have hy : y = 0 := by nlinarith [mul_self_nonneg x, mul_self_nonneg y]
    exact ⟨0, le_rfl, one_pos, by simp [hx, hy], by simp [hx, hy]⟩
  · obtain ⟨h1, h2⟩ := Transf.atan2_sin_cos h
    obtain ⟨r1, r2⟩ := Transf.atan2_range x y
    have hs : √(y * y + x * x) = √(x ^ 2 + y ^ 2) := by congr 1; ring
    have hp : 0 < √(x ^ 2 + y ^ 2) := by
      rw [← hs]
      exact Real.sqrt_pos.2 (lt_of_le_of_ne (by nlinarith [mul_self_nonneg x, mul_self_nonneg y]) (Ne.symm h))
    rw [hs] at h1 h2
    have hpi := Real.pi_pos
    by_cases h0 : 0 ≤ Transf.atan2 x y
    · refine ⟨Transf.atan2 x y / (2 * π), by positivity, ?_, ?_, ?_⟩
      · rw [div_lt_one (by positivity)]; linarith
      · rw [show π * 2 * (Transf.atan2 x y / (2 * π)) = Transf.atan2 x y by field_simp, h1]; field_simp
      · rw [show π * 2 * (Transf.atan2 x y / (2 * π)) = Transf.atan2 x y by field_simp, h2]; field_simp
    · push Not at h0
      refine ⟨Transf.atan2 x y / (2 * π) + 1, ?_, ?_, ?_, ?_⟩
      · have : -1 ≤ Transf.atan2 x y / (2 * π) := by rw [le_div_iff₀ (by positivity)]; linarith
        linarith
      · have : Transf.atan2 x y / (2 * π) < 0 := div_neg_of_neg_of_pos h0 (by positivity)
        linarith
      · rw [show π * 2 * (Transf.atan2 x y / (2 * π) + 1) = Transf.atan2 x y + 2 * π by field_simp,
          sin_add_two_pi, h1]; field_simp
      · rw [show π * 2 * (Transf.atan2 x y / (2 * π) + 1) = Transf.atan2 x y + 2 * π by field_simp,
          cos_add_two_pi, h2]; field_simp

/-- **C149.** `random_quaternion` of three numbers between 0 and 1 is a quaternion of norm one, and
every quaternion of norm one is reached; a list of another length is refused by an assertion.
`random_rotation_matrix` is then a rotation matrix, and every rotation is reached. -/
theorem C149_random :
    (∀ rand, rand.length ≠ 3 → randomQuaternion rand = .error .assertionError ∧
      randomRotationMatrix rand = .error .assertionError) ∧
    (∀ a b c : ℝ, 0 ≤ a → a ≤ 1 → ∃ q, randomQuaternion [a, b, c] = .ok (some q) ∧ dot4 q q = 1 ∧
      ∃ M, randomRotationMatrix [a, b, c] = .ok (some M) ∧ IsRotation M) ∧
    (∀ q, dot4 q q = 1 → ∃ a b c : ℝ, 0 ≤ a ∧ a ≤ 1 ∧ 0 ≤ b ∧ b < 1 ∧ 0 ≤ c ∧ c < 1 ∧
      randomQuaternion [a, b, c] = .ok (some q)) ∧
    (∀ M, IsRotation M → ∃ a b c : ℝ, 0 ≤ a ∧ a ≤ 1 ∧ 0 ≤ b ∧ b < 1 ∧ 0 ≤ c ∧ c < 1 ∧
      randomRotationMatrix [a, b, c] = .ok (some M)) := by
  have hreach : ∀ q, dot4 q q = 1 → ∃ a b c : ℝ, 0 ≤ a ∧ a ≤ 1 ∧ 0 ≤ b ∧ b < 1 ∧ 0 ≤ c ∧ c < 1 ∧
      randomQuaternion [a, b, c] = .ok (some q) := by
    intro q hq
    unfold dot4 at hq
    obtain ⟨b, b0, b1, hb, hb'⟩ := circle_point (q 0) (q 1)
    obtain ⟨c, c0, c1, hc, hc'⟩ := circle_point (q 2) (q 3)
    refine ⟨q 2 ^ 2 + q 3 ^ 2, b, c, by positivity, ?_, b0, b1, c0, c1, ?_⟩
    · nlinarith [mul_self_nonneg (q 0), mul_self_nonneg (q 1)]
    · unfold randomQuaternion
      simp only []
      rw [if_neg]
      · rw [show 1 - (q 2 ^ 2 + q 3 ^ 2) = q 0 ^ 2 + q 1 ^ 2 by nlinarith, hb, hb', hc, hc']
        congr 2
        funext i
        fin_cases i <;> rfl
      · push Not
        constructor
        · positivity
        · nlinarith [mul_self_nonneg (q 0), mul_self_nonneg (q 1)]
  refine ⟨?_, ?_, hreach, ?_⟩
  · intro rand h
    have : randomQuaternion rand = .error .assertionError := by
      unfold randomQuaternion
      match rand, h with
      | [], _ => rfl
      | [_], _ => rfl
      | [_, _], _ => rfl
      | [_, _, _], h => exact absurd rfl h
      | _ :: _ :: _ :: _ :: _, _ => rfl
    exact ⟨this, by unfold randomRotationMatrix; rw [this]⟩
  · intro a b c h0 h1
    have e : randomQuaternion [a, b, c] = .ok (some ![sin (π * 2 * b) * √(1 - a), cos (π * 2 * b) * √(1 - a),
        sin (π * 2 * c) * √a, cos (π * 2 * c) * √a]) := by
      unfold randomQuaternion
      simp only []
      rw [if_neg (by push Not; exact ⟨h0, h1⟩)]
    refine ⟨_, e, ?_, _, by unfold randomRotationMatrix; rw [e]; rfl, (Transf.C93_rotation _).1⟩
    have r1 : √(1 - a) * √(1 - a) = 1 - a := Real.mul_self_sqrt (by linarith)
    have r2 : √a * √a = a := Real.mul_self_sqrt h0
    have s1 := sin_sq_add_cos_sq (π * 2 * b)
    have s2 := sin_sq_add_cos_sq (π * 2 * c)
    simp [dot4]
    linear_combination (√(1 - a) * √(1 - a)) * s1 + (√a * √a) * s2 + r1 + r2
  · intro M hM
    obtain ⟨q, hq, rfl⟩ := Transf.exists_quat hM
    obtain ⟨a, b, c, h1, h2, h3, h4, h5, h6, h⟩ := hreach q hq
    exact ⟨a, b, c, h1, h2, h3, h4, h5, h6, by unfold randomRotationMatrix; rw [h]; rfl⟩

/-! ## C150 -/

theorem unit4_spec (q : Quat) :
    (q = 0 → unit4 q = none) ∧
    (q ≠ 0 → ∃ u, unit4 q = some u ∧ dot4 u u = 1 ∧ ∃ s : ℝ, 0 < s ∧ q = s • u) := by
  constructor
  · rintro rfl
    unfold unit4
    rw [if_pos (by simp [Transf.norm4, dot4])]
  · intro h
    have hpos : 0 < dot4 q q := lt_of_le_of_ne (Transf.dot4_nonneg q) fun h0 => h (Transf.dot4_eq_zero.1 h0.symm)
    have hn : 0 < Transf.norm4 q := Real.sqrt_pos.2 hpos
    have hs : Transf.norm4 q ^ 2 = dot4 q q := Real.sq_sqrt hpos.le
    refine ⟨_, by unfold unit4; rw [if_neg hn.ne'], ?_, Transf.norm4 q, hn, ?_⟩
    · have : dot4 (fun i => q i / Transf.norm4 q) (fun i => q i / Transf.norm4 q) = dot4 q q / Transf.norm4 q ^ 2 := by
        unfold dot4; field_simp
      rw [this, hs, div_self hpos.ne']
    · funext i
      simp only [Pi.smul_apply, smul_eq_mul]
      field_simp

/-- **C150.** `quaternion_slerp` at the fractions 0 and 1 gives the first and the second quaternion,
normalised. Between, it gives no numbers exactly when one of the quaternions is null. -/
theorem C150_ends (quat0 quat1 : Quat) (fraction : ℝ) (spin : ℤ) (shortest : Bool) :
    (fraction ≠ 0 → fraction ≠ 1 →
      (slerp (some quat0) (some quat1) fraction spin shortest = .ok none ↔ quat0 = 0 ∨ quat1 = 0)) ∧
    (quat0 ≠ 0 → ∃ q0, dot4 q0 q0 = 1 ∧ (∃ s : ℝ, 0 < s ∧ quat0 = s • q0) ∧
      slerp (some quat0) (some quat1) 0 spin shortest = .ok (some q0)) ∧
    (quat1 ≠ 0 → ∃ q1, dot4 q1 q1 = 1 ∧ (∃ s : ℝ, 0 < s ∧ quat1 = s • q1) ∧
      slerp (some quat0) (some quat1) 1 spin shortest = .ok (some q1)) := by
  refine ⟨?_, ?_, ?_⟩
  · intro f0 f1
    unfold slerp
    simp only [if_neg f0, if_neg f1, Option.bind_some]
    by_cases h0 : quat0 = 0
    · rw [(unit4_spec quat0).1 h0]; simp [h0]
    by_cases h1 : quat1 = 0
    · rw [(unit4_spec quat1).1 h1]; cases unit4 quat0 <;> simp [h1]
    obtain ⟨q0, e0, -⟩ := (unit4_spec quat0).2 h0
    obtain ⟨q1, e1, -⟩ := (unit4_spec quat1).2 h1
    rw [e0, e1]
    simp only [h0, h1, or_self, iff_false]
    have hmap : ∀ x : Py Quat, x.map some ≠ .ok none := by
      intro x
      cases x <;> simp [Except.map]
    split_ifs
    · simp
    · exact hmap _
    · exact hmap _
  · intro h
    obtain ⟨q0, e0, u0, s0⟩ := (unit4_spec quat0).2 h
    exact ⟨q0, u0, s0, by unfold slerp; simp [e0]⟩
  · intro h
    obtain ⟨q1, e1, u1, s1⟩ := (unit4_spec quat1).2 h
    exact ⟨q1, u1, s1, by unfold slerp; simp [e1]⟩

theorem dot4_cauchy {p q : Quat} (hp : dot4 p p = 1) (hq : dot4 q q = 1) : -1 ≤ dot4 p q ∧ dot4 p q ≤ 1 := by
  unfold dot4 at *
  constructor
  · nlinarith [sq_nonneg (p 0 + q 0), sq_nonneg (p 1 + q 1), sq_nonneg (p 2 + q 2), sq_nonneg (p 3 + q 3)]
  · nlinarith [sq_nonneg (p 0 - q 0), sq_nonneg (p 1 - q 1), sq_nonneg (p 2 - q 2), sq_nonneg (p 3 - q 3)]

theorem slerpArc_ok (q0 q1 : Quat) (d fraction : ℝ) (spin : ℤ) (hd : |d| ≤ 1 - EPS) :
    sin (arccos d + spin * π) ≠ 0 ∧ slerpArc q0 q1 d fraction spin = .ok fun i =>
      (q0 i * sin ((1 - fraction) * (arccos d + spin * π)) + q1 i * sin (fraction * (arccos d + spin * π))) /
        sin (arccos d + spin * π) := by
  have hE := Transf.EPS_pos
  have hE1 := Transf.EPS_lt_one
  obtain ⟨hd1, hd2⟩ := abs_le.1 hd
  have hsin0 : sin (arccos d) = √(1 - d ^ 2) := Real.sin_arccos d
  have hsq : 0 < 1 - d ^ 2 := by nlinarith
  have habs : |sin (arccos d + spin * π)| = √(1 - d ^ 2) := by
    rw [sin_add_int_mul_pi, hsin0, abs_mul, abs_of_nonneg (Real.sqrt_nonneg _)]
    rw [abs_zpow, abs_neg, abs_one, one_zpow, one_mul]
  have hne : sin (arccos d + spin * π) ≠ 0 := by
    intro h
    rw [h, abs_zero] at habs
    exact (Real.sqrt_pos.2 hsq).ne habs
  refine ⟨hne, ?_⟩
  unfold slerpArc
  simp only []
  rw [if_neg (by push Not; constructor <;> linarith)]
  have hang : ¬ |arccos d + spin * π| < EPS := by
    intro h
    have h1 : |sin (arccos d + spin * π)| ≤ |arccos d + spin * π| := abs_sin_le_abs
    rw [habs] at h1
    have h2 : √(1 - d ^ 2) < EPS := lt_of_le_of_lt h1 h
    have h3 : 1 - d ^ 2 < EPS ^ 2 := by
      rw [← Real.sq_sqrt hsq.le]
      exact pow_lt_pow_left₀ h2 (Real.sqrt_nonneg _) two_ne_zero
    have h4 : d ^ 2 ≤ (1 - EPS) ^ 2 := sq_le_sq' (by linarith) hd2
    nlinarith
  rw [if_neg hang, if_neg hne]
  congr 1
  funext i
  field_simp

/-- The second end of the arc: the opposite quaternion when it is nearer and the shortest path is wanted. -/
noncomputable def endOf (q0 q1 : Quat) (shortest : Bool) : Quat :=
  if shortest = true ∧ dot4 q0 q1 < 0 then fun i => -q1 i else q1

/-- **C150.** `quaternion_slerp` between: it never fails. When the two quaternions are (nearly) the same
or opposite the result is the first one. Otherwise the result is on the great circle through the two,
at the fraction of the arc: of norm one, and its angles with both ends are the fraction and the
complement of the whole arc - whatever the even number of half turns added. With `shortestpath` the arc is at most
a quarter of turn plus the half turns. -/
theorem C150_slerp (q0 q1 : Quat) (h0 : dot4 q0 q0 = 1) (h1 : dot4 q1 q1 = 1) (s0 s1 : ℝ) (p0 : 0 < s0)
    (p1 : 0 < s1) (fraction : ℝ) (spin : ℤ) (shortest : Bool) (f0 : fraction ≠ 0) (f1 : fraction ≠ 1) :
    (1 - |dot4 q0 q1| < EPS → slerp (some (s0 • q0)) (some (s1 • q1)) fraction spin shortest = .ok (some q0)) ∧
    (EPS ≤ 1 - |dot4 q0 q1| → ∃ q, slerp (some (s0 • q0)) (some (s1 • q1)) fraction spin shortest = .ok (some q) ∧
      ∃ arc : ℝ, cos (arc - spin * π) = dot4 q0 (endOf q0 q1 shortest) ∧
        0 ≤ arc - spin * π ∧ arc - spin * π ≤ (if shortest then π / 2 else π) ∧
        (∃ a b : ℝ, ∀ i, q i = a * q0 i + b * q1 i) ∧
        (Even spin → dot4 q q = 1 ∧ dot4 q0 q = cos (fraction * arc) ∧
          dot4 q (endOf q0 q1 shortest) = cos ((1 - fraction) * arc)) ∧
        (Odd spin → dot4 q q = 1 + 4 * dot4 q0 (endOf q0 q1 shortest) *
          (sin ((1 - fraction) * arc) * sin (fraction * arc)) / sin arc ^ 2)) := by
  have hunit : ∀ (s : ℝ) (q : Quat), 0 < s → dot4 q q = 1 → unit4 (s • q) = some q := by
    intro s q hs hq
    have e : Transf.norm4 (s • q) = s := by
      unfold Transf.norm4
      rw [show dot4 (s • q) (s • q) = s ^ 2 * dot4 q q by simp [dot4]; ring, hq, mul_one, Real.sqrt_sq hs.le]
    unfold unit4
    rw [e, if_neg hs.ne']
    congr 1
    funext i
    simp only [Pi.smul_apply, smul_eq_mul]
    field_simp
  obtain ⟨c1, c2⟩ := dot4_cauchy h0 h1
  have habs : |(|dot4 q0 q1| - 1)| = 1 - |dot4 q0 q1| := by
    rw [abs_of_nonpos, neg_sub]
    have : |dot4 q0 q1| ≤ 1 := abs_le.2 ⟨c1, c2⟩
    linarith
  constructor
  · intro h
    unfold slerp
    simp only [Option.bind_some, hunit _ _ p0 h0, hunit _ _ p1 h1]
    simp [f0, f1, habs, h]
  · intro h
    have hcore : ∀ (e : Quat), dot4 e e = 1 → |dot4 q0 e| ≤ 1 - EPS →
        (if shortest then 0 ≤ dot4 q0 e else True) →
        (∃ c : ℝ, ∀ i, e i = c * q1 i) → ∃ q, slerpArc q0 e (dot4 q0 e) fraction spin = .ok q ∧
        ∃ arc : ℝ, cos (arc - spin * π) = dot4 q0 e ∧
        0 ≤ arc - spin * π ∧ arc - spin * π ≤ (if shortest then π / 2 else π) ∧
        (∃ a b : ℝ, ∀ i, q i = a * q0 i + b * q1 i) ∧
        (Even spin → dot4 q q = 1 ∧ dot4 q0 q = cos (fraction * arc) ∧
          dot4 q e = cos ((1 - fraction) * arc)) ∧
        (Odd spin → dot4 q q = 1 + 4 * dot4 q0 e *
          (sin ((1 - fraction) * arc) * sin (fraction * arc)) / sin arc ^ 2) := by
      intro e he hd hsh ⟨c, hc⟩
      obtain ⟨hs, hok⟩ := slerpArc_ok q0 e (dot4 q0 e) fraction spin hd
      obtain ⟨d1, d2⟩ := dot4_cauchy h0 he
      have hcosarc : cos (arccos (dot4 q0 e)) = dot4 q0 e := cos_arccos d1 d2
      refine ⟨_, hok, arccos (dot4 q0 e) + spin * π, by rw [add_sub_cancel_right, hcosarc], ?_, ?_, ?_, ?_, ?_⟩
      · rw [add_sub_cancel_right]; exact arccos_nonneg _
      · rw [add_sub_cancel_right]
        cases shortest with
        | false => exact arccos_le_pi _
        | true => exact arccos_le_pi_div_two.2 (by simpa using hsh)
      · refine ⟨sin ((1 - fraction) * (arccos (dot4 q0 e) + spin * π)) / sin (arccos (dot4 q0 e) + spin * π),
          c * sin (fraction * (arccos (dot4 q0 e) + spin * π)) / sin (arccos (dot4 q0 e) + spin * π), fun i => ?_⟩
        rw [hc i]
        field_simp
      all_goals
        intro hp
        have hcosa := cos_add_int_mul_pi (arccos (dot4 q0 e)) spin
        rw [hcosarc] at hcosa
        generalize harc : arccos (dot4 q0 e) + spin * π = arc at *
        have hA : sin ((1 - fraction) * arc) = sin arc * cos (fraction * arc) - cos arc * sin (fraction * arc) := by
          rw [show (1 - fraction) * arc = arc - fraction * arc by ring, sin_sub]
        have hB : cos ((1 - fraction) * arc) = cos arc * cos (fraction * arc) + sin arc * sin (fraction * arc) := by
          rw [show (1 - fraction) * arc = arc - fraction * arc by ring, cos_sub]
        have t1 := sin_sq_add_cos_sq arc
        have t2 := sin_sq_add_cos_sq (fraction * arc)
        have hqq : ∀ x y z : ℝ, dot4 (fun i => (q0 i * x + e i * y) / z) (fun i => (q0 i * x + e i * y) / z) =
            (x ^ 2 + y ^ 2 + 2 * dot4 q0 e * x * y) / z ^ 2 := by
          intro x y z
          have : dot4 (fun i => (q0 i * x + e i * y) / z) (fun i => (q0 i * x + e i * y) / z) =
            (dot4 q0 q0 * x ^ 2 + dot4 e e * y ^ 2 + 2 * dot4 q0 e * x * y) / z ^ 2 := by
            unfold dot4; ring
          rw [this, h0, he, one_mul, one_mul]
      · have hD : dot4 q0 e = cos arc := by
          rw [hcosa, hp.neg_one_zpow, one_mul]
        refine ⟨?_, ?_, ?_⟩
        · rw [hqq, hD, div_eq_one_iff_eq (pow_ne_zero 2 hs), hA]
          linear_combination sin arc ^ 2 * t2 - sin (fraction * arc) ^ 2 * t1
        · have : dot4 q0 (fun i => (q0 i * sin ((1 - fraction) * arc) + e i * sin (fraction * arc)) / sin arc) =
              (dot4 q0 q0 * sin ((1 - fraction) * arc) + dot4 q0 e * sin (fraction * arc)) / sin arc := by
            unfold dot4; ring
          rw [this, h0, hD, div_eq_iff hs, hA]
          ring
        · have : dot4 (fun i => (q0 i * sin ((1 - fraction) * arc) + e i * sin (fraction * arc)) / sin arc) e =
              (dot4 q0 e * sin ((1 - fraction) * arc) + dot4 e e * sin (fraction * arc)) / sin arc := by
            unfold dot4; ring
          rw [this, he, hD, div_eq_iff hs, hA, hB]
          linear_combination -sin (fraction * arc) * t1
      · have hD : dot4 q0 e = -cos arc := by
          rw [hcosa, hp.neg_one_zpow]; ring
        rw [hqq, hD, div_eq_iff (pow_ne_zero 2 hs), add_mul, div_mul_cancel₀ _ (pow_ne_zero 2 hs), hA]
        linear_combination sin arc ^ 2 * t2 - sin (fraction * arc) ^ 2 * t1
    have hnear : ¬ |(|dot4 q0 q1| - 1)| < EPS := by rw [habs]; exact not_lt.2 h
    by_cases hneg : shortest = true ∧ dot4 q0 q1 < 0
    · have hend : endOf q0 q1 shortest = fun i => -q1 i := by unfold endOf; rw [if_pos hneg]
      have hdot : dot4 q0 (fun i => -q1 i) = -dot4 q0 q1 := by unfold dot4; ring
      obtain ⟨q, hq, hrest⟩ := hcore (fun i => -q1 i) (by unfold dot4 at h1 ⊢; linarith)
        (by rw [hdot, abs_neg]; linarith) (by rw [hneg.1, hdot]; simp; exact hneg.2.le) ⟨-1, fun i => by ring⟩
      rw [hend]
      refine ⟨q, ?_, hrest⟩
      unfold slerp
      simp only [Option.bind_some, hunit _ _ p0 h0, hunit _ _ p1 h1, if_neg f0, if_neg f1, if_neg hnear,
        if_pos hneg]
      rw [hdot] at hq
      simp only [mul_neg, mul_one]
      rw [hq]
      rfl
    · have hend : endOf q0 q1 shortest = q1 := by unfold endOf; rw [if_neg hneg]
      obtain ⟨q, hq, hrest⟩ := hcore q1 h1 (by linarith) (by
        split_ifs with hs
        exact not_lt.1 fun hl => hneg ⟨hs, hl⟩) ⟨1, fun i => by ring⟩
      rw [hend]
      refine ⟨q, ?_, hrest⟩
      unfold slerp
      simp only [Option.bind_some, hunit _ _ p0 h0, hunit _ _ p1 h1, if_neg f0, if_neg f1, if_neg hnear,
        if_neg hneg]
      rw [hq]
      rfl

/-! ## C153 -/

/-- **C153.** `concatenate_matrices`: the identity for no matrix, and transforming by the result is
transforming by each matrix in turn, from the last to the first. -/
theorem C153_concatenate (l l' : List Mat4) (A : Mat4) (x : Fin 4 → ℝ) :
    concatenateMatrices [] = 1 ∧ concatenateMatrices [A] = A ∧
    concatenateMatrices (l ++ l') = concatenateMatrices l * concatenateMatrices l' ∧
    concatenateMatrices l *ᵥ x = l.foldr (fun M y => M *ᵥ y) x := by
  have h : ∀ (l : List Mat4) (B : Mat4), l.foldl (fun M i => M * i) B = B * concatenateMatrices l := by
    intro l
    induction l with
    | nil => intro B; simp [concatenateMatrices]
    | cons a l ih =>
      intro B
      unfold concatenateMatrices
      rw [List.foldl_cons, List.foldl_cons, ih, ih, one_mul, mul_assoc]
  refine ⟨rfl, by simp [concatenateMatrices], ?_, ?_⟩
  · conv_lhs => unfold concatenateMatrices
    rw [List.foldl_append, h]
    rfl
  · induction l with
    | nil => simp [concatenateMatrices]
    | cons a l ih =>
      rw [List.foldr_cons, ← ih, Matrix.mulVec_mulVec]
      congr 1
      unfold concatenateMatrices
      rw [List.foldl_cons, h, one_mul]
      rfl

/-- **C153.** `is_same_transform`: a multiple of a matrix is the same transform when the last entry is
not null, and a matrix with a null last entry is never the same as another, nor as itself. When two
matrices are the same, the entries of both, divided by the last, differ by less than the tolerance. -/
theorem C153_same (A B : Mat4) :
    (∀ c : ℝ, c ≠ 0 → A 3 3 ≠ 0 → isSameTransform A (c • A) = true) ∧
    (A 3 3 = 0 → isSameTransform A B = false ∧ isSameTransform B A = false) ∧
    (isSameTransform A B = true ↔ A 3 3 ≠ 0 ∧ B 3 3 ≠ 0 ∧
      ∀ i j, |A i j / A 3 3 - B i j / B 3 3| ≤ 1 / 10 ^ 8 + |B i j / B 3 3| / 10 ^ 5) := by
  have hiff : isSameTransform A B = true ↔ A 3 3 ≠ 0 ∧ B 3 3 ≠ 0 ∧
      ∀ i j, |A i j / A 3 3 - B i j / B 3 3| ≤ 1 / 10 ^ 8 + |B i j / B 3 3| / 10 ^ 5 := by
    unfold isSameTransform allClose
    by_cases h : A 3 3 = 0 ∨ B 3 3 = 0
    · rw [if_pos h]
      simp only [Bool.false_eq_true, false_iff]
      tauto
    · rw [if_neg h, decide_eq_true_iff]
      push Not at h
      simp only [h.1, h.2, ne_eq, not_false_eq_true, true_and, Matrix.of_apply]
      refine forall_congr' fun i => forall_congr' fun j => ?_
      rw [one_div_mul_eq_div]
  refine ⟨?_, ?_, hiff⟩
  · intro c hc hA
    unfold isSameTransform allClose
    rw [if_neg (by push Not; exact ⟨hA, by simp [hc, hA]⟩), decide_eq_true_iff]
    intro i j
    simp only [Matrix.of_apply, Matrix.smul_apply, smul_eq_mul]
    rw [mul_div_mul_left _ _ hc, sub_self, abs_zero]
    positivity
  · intro h
    unfold isSameTransform
    simp [h]

/-- **C153.** The relation is not symmetric: its tolerance is relative to the second matrix. -/
theorem C153_asymmetric : ∃ A B : Mat4, isSameTransform A B = true ∧ isSameTransform B A = false := by
  have e : ∀ (x y : ℝ), isSameTransform (affine 1 ![x, 0, 0]) (affine 1 ![y, 0, 0]) = true ↔
      |x - y| ≤ 1 / 10 ^ 8 + |y| / 10 ^ 5 := by
    intro x y
    rw [(C153_same _ _).2.2]
    have h33 : ∀ z : ℝ, affine 1 ![z, 0, 0] 3 3 = 1 := fun z => by simp [affine]
    simp only [h33, div_one, ne_eq, one_ne_zero, not_false_eq_true, true_and]
    constructor
    · intro h
      simpa [affine] using h 0 3
    · intro h i j
      fin_cases i <;> fin_cases j <;> simp [affine] <;> first | positivity | simpa using h
  refine ⟨affine 1 ![1 - 1 / 10 ^ 5 - 1 / 10 ^ 8, 0, 0], affine 1 ![1, 0, 0], (e _ _).2 ?_, ?_⟩
  · norm_num [abs_le]
  · rw [Bool.eq_false_iff, ne_eq, e]
    norm_num [abs_le]

/-! ## C154 -/

/-- **C154.** `orthogonalization_matrix`: the columns are vectors of the given lengths making the given
angles (in degrees): the first angle is the one of the last two columns, and so on. The volume
(up to the sign) is the one of the cell. -/
theorem C154_cell (lengths angles : P3) (O : Mat4) (h : orthogonalizationMatrix lengths angles = .ok (some O)) :
    (∀ i : Fin 4, O i 3 = (if i = 3 then 1 else 0) ∧ O 3 i = (if i = 3 then 1 else 0)) ∧
    (let column : Fin 3 → P3 := fun k i => O i.castSucc k.castSucc;
      (∀ k, dot3 (column k) (column k) = lengths k ^ 2) ∧
      dot3 (column 1) (column 2) = lengths 1 * lengths 2 * cos (angles 0 * π / 180) ∧
      dot3 (column 0) (column 2) = lengths 0 * lengths 2 * cos (angles 1 * π / 180) ∧
      dot3 (column 0) (column 1) = lengths 0 * lengths 1 * cos (angles 2 * π / 180)) ∧
    O.det ^ 2 = (lengths 0 * lengths 1 * lengths 2) ^ 2 * (1 - cos (angles 0 * π / 180) ^ 2 - cos (angles 1 * π / 180) ^ 2
      - cos (angles 2 * π / 180) ^ 2 +
        2 * cos (angles 0 * π / 180) * cos (angles 1 * π / 180) * cos (angles 2 * π / 180)) := by
  unfold orthogonalizationMatrix at h
  simp only [] at h
  split_ifs at h with h1 h2 h3
  · simp at h
  simp only [Except.ok.injEq, Option.some.injEq] at h
  subst h
  rw [not_lt] at h3
  have ta := sin_sq_add_cos_sq (angles 0 * π / 180)
  have tb := sin_sq_add_cos_sq (angles 1 * π / 180)
  generalize sin (angles 0 * π / 180) = sa at *
  generalize sin (angles 1 * π / 180) = sb at *
  generalize cos (angles 0 * π / 180) = ca at *
  generalize cos (angles 1 * π / 180) = cb at *
  generalize cos (angles 2 * π / 180) = cg at *
  have hco : (ca * cb - cg) / (sa * sb) * (sa * sb) = ca * cb - cg := div_mul_cancel₀ _ h1
  have hr := Real.mul_self_sqrt h3
  generalize (ca * cb - cg) / (sa * sb) = co at *
  generalize √(1 - co * co) = r at *
  refine ⟨?_, ⟨?_, ?_, ?_, ?_⟩, ?_⟩
  · intro i
    fin_cases i <;> simp
  · intro k
    fin_cases k <;> simp [dot3]
    · linear_combination (lengths 0 ^ 2 * sb ^ 2) * hr + lengths 0 ^ 2 * tb
    · linear_combination lengths 1 ^ 2 * ta
    · ring
  · simp [dot3]; ring
  · simp [dot3]; ring
  · simp [dot3]
    linear_combination (-lengths 0 * lengths 1) * hco
  · have hdet : (!![lengths 0 * sb * r, 0, 0, 0; -lengths 0 * sb * co, lengths 1 * sa, 0, 0;
        lengths 0 * cb, lengths 1 * ca, lengths 2, 0; 0, 0, 0, 1] : Mat4).det =
        lengths 0 * lengths 1 * lengths 2 * (sa * sb * r) := by
      have := affine_det !![lengths 0 * sb * r, 0, 0; -lengths 0 * sb * co, lengths 1 * sa, 0;
        lengths 0 * cb, lengths 1 * ca, lengths 2] 0
      rw [Matrix.det_fin_three] at this
      simp [affine] at this
      simp only [neg_mul]
      rw [this]
      ring
    rw [hdet]
    linear_combination (lengths 0 * lengths 1 * lengths 2) ^ 2 * ((sa * sb) ^ 2 * hr
      - (co * (sa * sb) + (ca * cb - cg)) * hco + sb ^ 2 * ta + (1 - ca ^ 2) * tb)

/-- **C154.** The failures: ValueError exactly when no cell has such angles. Otherwise there are
numbers as soon as the first two angles have sines which are not null. -/
theorem C154_errors (lengths angles : P3) (ca cb cg : ℝ) (ha : ca = cos (angles 0 * π / 180))
    (hb : cb = cos (angles 1 * π / 180)) (hg : cg = cos (angles 2 * π / 180)) :
    (∀ e, orthogonalizationMatrix lengths angles = .error e ↔
      e = .valueError ∧ 1 - ca ^ 2 - cb ^ 2 - cg ^ 2 + 2 * ca * cb * cg < 0) ∧
    (orthogonalizationMatrix lengths angles = .ok none ↔
      (ca ^ 2 = 1 ∨ cb ^ 2 = 1) ∧ 0 ≤ 1 - ca ^ 2 - cb ^ 2 - cg ^ 2 + 2 * ca * cb * cg) := by
  unfold orthogonalizationMatrix
  simp only [← ha, ← hb, ← hg]
  have ta := sin_sq_add_cos_sq (angles 0 * π / 180)
  have tb := sin_sq_add_cos_sq (angles 1 * π / 180)
  rw [← ha] at ta
  rw [← hb] at tb
  generalize sin (angles 0 * π / 180) = sa at *
  generalize sin (angles 1 * π / 180) = sb at *
  have hG : 1 - ca ^ 2 - cb ^ 2 - cg ^ 2 + 2 * ca * cb * cg = (sa * sb) ^ 2 - (ca * cb - cg) ^ 2 := by
    linear_combination -sb ^ 2 * ta - (1 - ca ^ 2) * tb
  have hz : (ca ^ 2 = 1 ∨ cb ^ 2 = 1) ↔ sa * sb = 0 := by
    rw [mul_eq_zero]
    refine or_congr ?_ ?_
    · constructor
      · intro h; exact pow_eq_zero_iff two_ne_zero |>.1 (by linarith)
      · intro h; rw [h] at ta; linarith
    · constructor
      · intro h; exact pow_eq_zero_iff two_ne_zero |>.1 (by linarith)
      · intro h; rw [h] at tb; linarith
  rw [hG, hz]
  split_ifs with h1 h2 h3
  · simp [h1, h2]
  · have : 0 < (ca * cb - cg) ^ 2 := by positivity
    simp only [h1, reduceCtorEq, Except.error.injEq]
    refine ⟨fun e => ?_, ?_⟩
    · constructor
      · rintro rfl; exact ⟨rfl, by simpa using this⟩
      · rintro ⟨rfl, -⟩; rfl
    · simp [h2]
  · have : (sa * sb) ^ 2 - (ca * cb - cg) ^ 2 < 0 := by
      have hs : 0 < (sa * sb) ^ 2 := by positivity
      have e : (ca * cb - cg) ^ 2 = (sa * sb) ^ 2 * ((ca * cb - cg) / (sa * sb) * ((ca * cb - cg) / (sa * sb))) := by
        rw [div_mul_div_comm, ← sq, ← sq, mul_div_cancel₀ _ hs.ne']
      rw [e]
      nlinarith
    simp only [reduceCtorEq, false_iff, h1, false_and, not_false_eq_true, and_true, this, Except.error.injEq]
    exact fun e => eq_comm
  · have : 0 ≤ (sa * sb) ^ 2 - (ca * cb - cg) ^ 2 := by
      have hs : 0 < (sa * sb) ^ 2 := by positivity
      have e : (ca * cb - cg) ^ 2 = (sa * sb) ^ 2 * ((ca * cb - cg) / (sa * sb) * ((ca * cb - cg) / (sa * sb))) := by
        rw [div_mul_div_comm, ← sq, ← sq, mul_div_cancel₀ _ hs.ne']
      rw [e]
      nlinarith
    simp [h1, not_lt.2 this]

end Verif.Geom
