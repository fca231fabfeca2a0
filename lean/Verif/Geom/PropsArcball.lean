import Verif.Geom.Arcball
import Verif.Geom.PropsQuat
import Verif.Transf.PropsFromMatrix

/-!
# Properties of the virtual trackball
-/

namespace Verif.Geom

open Verif Real Matrix
open Verif.Transf (Mat4 Quat EPS IsRotation dot4 quatMul quatConj quatMatrix)

/-! ## The sphere -/

/-- **C151.** `arcball_map_to_sphere` fails only for a null radius. Otherwise it gives a point of the upper half
of the unit sphere: above the cursor when the cursor is in the disc, on the rim, in the direction of the
cursor, when it is outside. The vertical axis of windows is reversed. -/
theorem C151_sphere (point center : ℝ × ℝ) (radius : ℝ) :
    (radius = 0 → mapToSphere point center radius = .error .zeroDivisionError) ∧
    (radius ≠ 0 → ∃ v, mapToSphere point center radius = .ok v ∧ dot3 v v = 1 ∧ 0 ≤ v 2 ∧
      ((point.1 - center.1) ^ 2 + (point.2 - center.2) ^ 2 ≤ radius ^ 2 →
        radius * v 0 = point.1 - center.1 ∧ radius * v 1 = center.2 - point.2) ∧
      (radius ^ 2 < (point.1 - center.1) ^ 2 + (point.2 - center.2) ^ 2 → v 2 = 0 ∧
        ∃ s : ℝ, 0 < s ∧ s * (radius * v 0) = point.1 - center.1 ∧ s * (radius * v 1) = center.2 - point.2)) := by
  constructor
  · rintro rfl
    unfold mapToSphere
    rw [if_pos rfl]
  · intro h
    unfold mapToSphere
    rw [if_neg h]
    simp only []
    have hr2 : 0 < radius ^ 2 := by positivity
    have hn : (point.1 - center.1) / radius * ((point.1 - center.1) / radius) +
        (center.2 - point.2) / radius * ((center.2 - point.2) / radius) =
        ((point.1 - center.1) ^ 2 + (point.2 - center.2) ^ 2) / radius ^ 2 := by
      field_simp; ring
    have hx : radius * ((point.1 - center.1) / radius) = point.1 - center.1 := by field_simp
    have hy : radius * ((center.2 - point.2) / radius) = center.2 - point.2 := by field_simp
    have h1 : (point.1 - center.1) / radius * ((point.1 - center.1) / radius) +
        (center.2 - point.2) / radius * ((center.2 - point.2) / radius) > 1 ↔
        radius ^ 2 < (point.1 - center.1) ^ 2 + (point.2 - center.2) ^ 2 := by
      rw [hn, gt_iff_lt, lt_div_iff₀ hr2, one_mul]
    rw [← h1, ← not_lt, ← h1]
    generalize (point.1 - center.1) / radius = x at *
    generalize (center.2 - point.2) / radius = y at *
    split_ifs with hc
    · have hp : 0 < √(x * x + y * y) := Real.sqrt_pos.2 (by linarith)
      have hs : √(x * x + y * y) * √(x * x + y * y) = x * x + y * y := Real.mul_self_sqrt (by linarith)
      generalize √(x * x + y * y) = r at *
      refine ⟨_, rfl, ?_, ?_, ?_, ?_⟩
      · simp [dot3]
        field_simp
        nlinarith
      · simp
      · intro h; exact absurd hc h
      · intro _
        refine ⟨by simp, r, hp, ?_, ?_⟩
        · rw [← hx]; simp; field_simp
        · rw [← hy]; simp; field_simp
    · rw [gt_iff_lt, not_lt] at hc
      have hs : √(1 - (x * x + y * y)) * √(1 - (x * x + y * y)) = 1 - (x * x + y * y) :=
        Real.mul_self_sqrt (by linarith)
      refine ⟨_, rfl, ?_, ?_, ?_, ?_⟩
      · simp [dot3]; linarith
      · exact Real.sqrt_nonneg _
      · intro _; exact ⟨hx, hy⟩
      · intro h; exact absurd h (not_lt.2 hc)

theorem mapToSphere_ok {point center : ℝ × ℝ} {radius : ℝ} {v : P3} (h : mapToSphere point center radius = .ok v) :
    dot3 v v = 1 ∧ 0 ≤ v 2 := by
  by_cases hr : radius = 0
  · rw [(C151_sphere point center radius).1 hr] at h; simp at h
  · obtain ⟨w, hw, h1, h2, -⟩ := (C151_sphere point center radius).2 hr
    rw [hw] at h
    obtain rfl := Except.ok.inj h
    exact ⟨h1, h2⟩

/-- **C151.** `arcball_constrain_to_axis` with an axis of norm one gives a point of the upper half of
the sphere, orthogonal to the axis; when the point is not (nearly) on the axis, it is up to the sign the
normalised projection of the point. The only case without numbers is the axis (0, 0, -1) with a
point (nearly) on it. -/
theorem C151_constrain (point axis : P3) (ha : dot3 axis axis = 1) :
    (constrainToAxis point axis = none ↔
      axis = ![0, 0, -1] ∧ norm3 (point - dot3 axis point • axis) ≤ EPS) ∧
    ∀ c, constrainToAxis point axis = some c → dot3 c c = 1 ∧ dot3 c axis = 0 ∧ 0 ≤ c 2 ∧
      (EPS < norm3 (point - dot3 axis point • axis) →
        ∃ s : ℝ, s ≠ 0 ∧ point - dot3 axis point • axis = s • c) := by
  have hv : (fun i => point i - axis i * dot3 axis point) = point - dot3 axis point • axis := by
    funext i; simp only [Pi.sub_apply, Pi.smul_apply, smul_eq_mul]; ring
  unfold constrainToAxis
  rw [hv]
  have hperp : dot3 (point - dot3 axis point • axis) axis = 0 := by
    rw [dot3_sub, dot3_smul, ha, dot3_comm axis point]; ring
  generalize point - dot3 axis point • axis = v at *
  have ha' : axis 0 * axis 0 + axis 1 * axis 1 + axis 2 * axis 2 = 1 := ha
  clear hv
  unfold constrainFrom
  simp only []
  split_ifs with h1 h2 h3
  · have hn : 0 < norm3 v := lt_trans Transf.EPS_pos h1
    have hs : norm3 v * norm3 v = dot3 v v := Real.mul_self_sqrt (dot3_self_nonneg v)
    refine ⟨by simp [h1], ?_⟩
    rintro c hc
    obtain rfl := Option.some.inj hc
    refine ⟨?_, ?_, ?_, fun _ => ⟨-norm3 v, neg_ne_zero.2 hn.ne', ?_⟩⟩
    · have : dot3 (fun i => v i * -1 / norm3 v) (fun i => v i * -1 / norm3 v) = dot3 v v / (norm3 v * norm3 v) := by
        unfold dot3; field_simp
      rw [this, hs, div_self]
      rw [← hs]; positivity
    · have : dot3 (fun i => v i * -1 / norm3 v) axis = -dot3 v axis / norm3 v := by unfold dot3; field_simp; ring
      rw [this, hperp]; simp
    · exact div_nonneg (by linarith) hn.le
    · funext i; simp only [Pi.smul_apply, smul_eq_mul]; field_simp
  · have hn : 0 < norm3 v := lt_trans Transf.EPS_pos h1
    have hs : norm3 v * norm3 v = dot3 v v := Real.mul_self_sqrt (dot3_self_nonneg v)
    refine ⟨by simp [h1], ?_⟩
    rintro c hc
    obtain rfl := Option.some.inj hc
    refine ⟨?_, ?_, ?_, fun _ => ⟨norm3 v, hn.ne', ?_⟩⟩
    · have : dot3 (fun i => v i / norm3 v) (fun i => v i / norm3 v) = dot3 v v / (norm3 v * norm3 v) := by
        unfold dot3; field_simp
      rw [this, hs, div_self]
      rw [← hs]; positivity
    · have : dot3 (fun i => v i / norm3 v) axis = dot3 v axis / norm3 v := by unfold dot3; field_simp
      rw [this, hperp]; simp
    · exact div_nonneg (not_lt.1 h2) hn.le
    · funext i; simp only [Pi.smul_apply, smul_eq_mul]; field_simp
  · refine ⟨?_, ?_⟩
    · simp only [reduceCtorEq, false_iff]
      rintro ⟨h, -⟩
      rw [h] at h3
      have : (-1 : ℝ) = 1 := h3
      norm_num at this
    · rintro c hc
      obtain rfl := Option.some.inj hc
      refine ⟨by simp [dot3], ?_, by simp, fun h => absurd h h1⟩
      rw [h3] at ha'
      have : axis 0 = 0 := by nlinarith [mul_self_nonneg (axis 0), mul_self_nonneg (axis 1)]
      simp [dot3, this]
  · have hz : (![-axis 1, axis 0, 0] : P3) = 0 ↔ axis = ![0, 0, -1] := by
      constructor
      · intro h
        have e0 := congrFun h 0
        have e1 := congrFun h 1
        simp at e0 e1
        rw [e0, e1] at ha'
        have : (axis 2 - 1) * (axis 2 + 1) = 0 := by linarith
        have h2 : axis 2 = -1 := by
          rcases mul_eq_zero.1 this with h | h
          · exact absurd (by linarith) h3
          · linarith
        funext i
        fin_cases i
        · exact e1
        · exact e0
        · exact h2
      · intro h
        rw [h]
        funext i
        fin_cases i <;> simp
    by_cases hd : (![-axis 1, axis 0, 0] : P3) = 0
    · rw [(unit3_spec _).1 hd]
      simp [hz.1 hd, not_lt.1 h1]
    · obtain ⟨u, hu, hu1, s, hs, hsu, -⟩ := (unit3_spec _).2 hd
      rw [hu]
      refine ⟨⟨by simp, fun h => absurd (hz.2 h.1) hd⟩, ?_⟩
      rintro c hc
      obtain rfl := Option.some.inj hc
      have e0 := congrFun hsu 0
      have e1 := congrFun hsu 1
      have e2 := congrFun hsu 2
      simp at e0 e1 e2
      have e2' : u 2 = 0 := e2.resolve_left hs.ne'
      refine ⟨hu1, ?_, e2'.ge, fun h => absurd h h1⟩
      have : s * dot3 u axis = 0 := by
        unfold dot3
        rw [e2']
        linear_combination axis 0 * (-e0) - axis 1 * e1
      exact (mul_eq_zero.1 this).resolve_left hs.ne'

/-- The constrained point is never opposite to the point. -/
theorem constrain_gt {point axis c : P3} (ha : dot3 axis axis = 1) (hp : dot3 point point = 1) (hz : 0 ≤ point 2)
    (h : constrainToAxis point axis = some c) : -1 < dot3 c point := by
  obtain ⟨h1, h2, h3, -⟩ := (C151_constrain point axis ha).2 c h
  unfold dot3 at h1 hp
  by_contra hle
  push Not at hle
  have hle' : c 0 * point 0 + c 1 * point 1 + c 2 * point 2 ≤ -1 := hle
  have e : ∀ i, c i = -point i := by
    have s0 : (c 0 + point 0) ^ 2 = 0 := by
      nlinarith [sq_nonneg (c 0 + point 0), sq_nonneg (c 1 + point 1), sq_nonneg (c 2 + point 2)]
    have s1 : (c 1 + point 1) ^ 2 = 0 := by
      nlinarith [sq_nonneg (c 0 + point 0), sq_nonneg (c 1 + point 1), sq_nonneg (c 2 + point 2)]
    have s2 : (c 2 + point 2) ^ 2 = 0 := by
      nlinarith [sq_nonneg (c 0 + point 0), sq_nonneg (c 1 + point 1), sq_nonneg (c 2 + point 2)]
    have t0 := pow_eq_zero_iff two_ne_zero |>.1 s0
    have t1 := pow_eq_zero_iff two_ne_zero |>.1 s1
    have t2 := pow_eq_zero_iff two_ne_zero |>.1 s2
    intro i
    fin_cases i
    · show c 0 = -point 0; linarith
    · show c 1 = -point 1; linarith
    · show c 2 = -point 2; linarith
  have hd : dot3 axis point = 0 := by
    have : dot3 c axis = -dot3 axis point := by unfold dot3; rw [e 0, e 1, e 2]; ring
    linarith
  unfold constrainToAxis constrainFrom at h
  simp only [hd, mul_zero, sub_zero] at h
  have hn : norm3 (fun i => point i) = 1 := by
    unfold norm3
    rw [show dot3 (fun i => point i) (fun i => point i) = 1 from hp, Real.sqrt_one]
  rw [hn, if_pos Transf.EPS_lt_one, if_neg (not_lt.2 hz)] at h
  have h := Option.some.inj h
  have f0 := congrFun h 0
  have f1 := congrFun h 1
  have f2 := congrFun h 2
  simp only [div_one] at f0 f1 f2
  have := e 0
  have := e 1
  have := e 2
  have z0 : point 0 = 0 := by linarith
  have z1 : point 1 = 0 := by linarith
  have z2 : point 2 = 0 := by linarith
  rw [z0, z1, z2] at hp
  norm_num at hp

/-- What the loop over the axes gives. -/
theorem nearestLoop_spec (point : P3) (axes : List (Option P3)) (near : Option P3) (mx : ℝ) :
    (nearestLoop point axes near mx = near ∧
      ∀ a c, some a ∈ axes → constrainToAxis point a = some c → dot3 c point ≤ mx) ∨
    ∃ a c, nearestLoop point axes near mx = some a ∧ some a ∈ axes ∧ constrainToAxis point a = some c ∧
      mx < dot3 c point ∧
      ∀ a' c', some a' ∈ axes → constrainToAxis point a' = some c' → dot3 c' point ≤ dot3 c point := by
  induction axes generalizing near mx with
  | nil => left; exact ⟨rfl, by simp⟩
  | cons x l ih =>
    have skip : (∀ a c, x = some a → constrainToAxis point a = some c → dot3 c point ≤ mx) →
        nearestLoop point (x :: l) near mx = nearestLoop point l near mx →
        (nearestLoop point (x :: l) near mx = near ∧
          ∀ a c, some a ∈ x :: l → constrainToAxis point a = some c → dot3 c point ≤ mx) ∨
        ∃ a c, nearestLoop point (x :: l) near mx = some a ∧ some a ∈ x :: l ∧ constrainToAxis point a = some c ∧
          mx < dot3 c point ∧
          ∀ a' c', some a' ∈ x :: l → constrainToAxis point a' = some c' → dot3 c' point ≤ dot3 c point := by
      intro hx he
      rw [he]
      rcases ih near mx with ⟨h1, h2⟩ | ⟨a, c, h1, h2, h3, h4, h5⟩
      · left
        refine ⟨h1, fun a c hm hc => ?_⟩
        rcases List.mem_cons.1 hm with rfl | hm
        · exact hx a c rfl hc
        · exact h2 a c hm hc
      · right
        refine ⟨a, c, h1, List.mem_cons_of_mem _ h2, h3, h4, fun a' c' hm hc => ?_⟩
        rcases List.mem_cons.1 hm with rfl | hm
        · exact (hx a' c' rfl hc).trans h4.le
        · exact h5 a' c' hm hc
    cases x with
    | none => exact skip (by simp) rfl
    | some a =>
      cases hc : constrainToAxis point a with
      | none =>
        refine skip (fun a' c' e hc' => ?_) ?_
        · obtain rfl := Option.some.inj e
          rw [hc] at hc'; simp at hc'
        · conv_lhs => unfold nearestLoop
          simp only [Option.bind_some, hc]
      | some c =>
        have he : nearestLoop point (some a :: l) near mx = if dot3 c point > mx then
            nearestLoop point l (some a) (dot3 c point) else nearestLoop point l near mx := by
          conv_lhs => unfold nearestLoop
          simp only [Option.bind_some, hc]
        by_cases hgt : dot3 c point > mx
        · rw [if_pos hgt] at he
          rw [he]
          right
          rcases ih (some a) (dot3 c point) with ⟨h1, h2⟩ | ⟨a2, c2, h1, h2, h3, h4, h5⟩
          · refine ⟨a, c, h1, List.mem_cons_self, hc, hgt, fun a' c' hm hc' => ?_⟩
            rcases List.mem_cons.1 hm with e | hm
            · obtain rfl := Option.some.inj e
              rw [hc] at hc'
              rw [Option.some.inj hc']
            · exact h2 a' c' hm hc'
          · refine ⟨a2, c2, h1, List.mem_cons_of_mem _ h2, h3, hgt.trans h4, fun a' c' hm hc' => ?_⟩
            rcases List.mem_cons.1 hm with e | hm
            · obtain rfl := Option.some.inj e
              rw [hc] at hc'
              rw [← Option.some.inj hc']
              exact h4.le
            · exact h5 a' c' hm hc'
        · rw [if_neg hgt] at he
          refine skip (fun a' c' e hc' => ?_) he
          obtain rfl := Option.some.inj e
          rw [hc] at hc'
          rw [← Option.some.inj hc']
          exact not_lt.1 hgt

/-- **C151.** `arcball_nearest_axis`, for a point of the upper half of the sphere: the axis of which the
constrained point makes the smallest angle with the point (the greatest cosine); none only when no axis
has a constrained point. -/
theorem C151_nearest (point : P3) (hp : dot3 point point = 1) (hz : 0 ≤ point 2) (axes : List (Option P3))
    (ha : ∀ a, some a ∈ axes → dot3 a a = 1) :
    (nearestAxis point axes = none ↔ ∀ a, some a ∈ axes → constrainToAxis point a = none) ∧
    ∀ a, nearestAxis point axes = some a → some a ∈ axes ∧ ∃ c, constrainToAxis point a = some c ∧
      ∀ a' c', some a' ∈ axes → constrainToAxis point a' = some c' → dot3 c' point ≤ dot3 c point := by
  unfold nearestAxis
  rcases nearestLoop_spec point axes none (-1) with ⟨h1, h2⟩ | ⟨a, c, h1, h2, h3, h4, h5⟩
  · rw [h1]
    refine ⟨iff_of_true rfl fun a hm => ?_, by simp⟩
    cases hc : constrainToAxis point a with
    | none => rfl
    | some c => exact absurd (h2 a c hm hc) (not_le.2 (constrain_gt (ha a hm) hp hz hc))
  · rw [h1]
    refine ⟨iff_of_false (by simp) fun h => ?_, ?_⟩
    · rw [h a h2] at h3; simp at h3
    · intro a' e
      obtain rfl := Option.some.inj e
      exact ⟨h2, c, h3, h5⟩

/-! ## The trackball -/

/-- All quaternions have norm one, the point is on the sphere and orthogonal to the axis in use, and
no axis is the one without constrained points. -/
structure Sound (b : Ball) : Prop where
  now : ∃ q, b.qnow = some q ∧ dot4 q q = 1
  pre : ∃ q, b.qpre = some q ∧ dot4 q q = 1
  down : ∃ q, b.qdown = some q ∧ dot4 q q = 1
  vdown : ∃ v, b.vdown = some v ∧ dot3 v v = 1 ∧ ∀ a, b.axis = some a → dot3 v a = 0
  axis : ∀ a, b.axis = some a → dot3 a a = 1 ∧ a ≠ ![0, 0, -1]
  axes : ∀ l, b.axes = some l → ∀ x ∈ l, ∃ a, x = some a ∧ dot3 a a = 1 ∧ a ≠ ![0, 0, -1]

theorem quatMul_unit {p q : Quat} (hp : dot4 p p = 1) (hq : dot4 q q = 1) : dot4 (quatMul p q) (quatMul p q) = 1 := by
  have : dot4 (quatMul p q) (quatMul p q) = dot4 p p * dot4 q q := (Transf.C92_algebra p q q).2.2.2.1
  rw [this, hp, hq, one_mul]

theorem arc_unit {v w : P3} (hv : dot3 v v = 1) (hw : dot3 w w = 1) :
    dot4 ![cross v w 0, cross v w 1, cross v w 2, dot3 v w] ![cross v w 0, cross v w 1, cross v w 2, dot3 v w] = 1 := by
  have : dot4 ![cross v w 0, cross v w 1, cross v w 2, dot3 v w] ![cross v w 0, cross v w 1, cross v w 2, dot3 v w] =
      dot3 v v * dot3 w w := by
    simp [dot4, dot3, cross]; ring
  rw [this, hv, hw, one_mul]

theorem slerp_unit {p q : Quat} (hp : dot4 p p = 1) (hq : dot4 q q = 1) (f : ℝ) :
    ∃ r, slerp (some p) (some q) f 0 true = .ok (some r) ∧ dot4 r r = 1 := by
  have hu : ∀ q : Quat, dot4 q q = 1 → unit4 q = some q := by
    intro q hq
    have e : Transf.norm4 q = 1 := by unfold Transf.norm4; rw [hq, Real.sqrt_one]
    unfold unit4
    rw [e, if_neg one_ne_zero]
    simp
  by_cases f0 : f = 0
  · exact ⟨p, by unfold slerp; simp [f0, hu p hp], hp⟩
  by_cases f1 : f = 1
  · exact ⟨q, by unfold slerp; simp [f1, hu q hq], hq⟩
  obtain ⟨h1, h2⟩ := C150_slerp p q hp hq 1 1 one_pos one_pos f 0 true f0 f1
  rw [one_smul, one_smul] at h1 h2
  rcases lt_or_ge (1 - |dot4 p q|) EPS with h | h
  · exact ⟨p, h1 h, hp⟩
  · obtain ⟨r, hr, arc, -, -, -, -, he, -⟩ := h2 h
    exact ⟨r, hr, (he Even.zero).1⟩

/-- The axes given in a call are not null and not along (0, 0, -1). -/
def Call.Proper : Call → Prop
  | .setaxes axes => ∀ a ∈ axes, ¬ (a 0 = 0 ∧ a 1 = 0 ∧ a 2 ≤ 0)
  | _ => True

theorem unit3_proper {a : P3} (h : ¬ (a 0 = 0 ∧ a 1 = 0 ∧ a 2 ≤ 0)) :
    ∃ u, unit3 a = some u ∧ dot3 u u = 1 ∧ u ≠ ![0, 0, -1] := by
  have ha : a ≠ 0 := by rintro rfl; exact h (by simp)
  obtain ⟨u, hu, h1, s, hs, hsu, -⟩ := (unit3_spec a).2 ha
  refine ⟨u, hu, h1, ?_⟩
  rintro rfl
  apply h
  rw [hsu]
  simp [hs.le]

theorem constrain_some {b : Ball} (hb : Sound b) {a : P3} (ha : b.axis = some a) (v : P3) :
    ∃ c, constrainToAxis v a = some c ∧ dot3 c c = 1 ∧ dot3 c a = 0 := by
  obtain ⟨h1, h2⟩ := hb.axis a ha
  cases hc : constrainToAxis v a with
  | none => exact absurd ((C151_constrain v a h1).1.1 hc).1 h2
  | some c =>
    obtain ⟨g1, g2, -⟩ := (C151_constrain v a h1).2 c hc
    exact ⟨c, rfl, g1, g2⟩

/-- **C151.** The invariant is kept by all calls (whether they raise or not). -/
theorem C151_step (b : Ball) (hb : Sound b) (c : Call) (hc : c.Proper) : Sound (ballCall b c).1 := by
  cases c with
  | place center radius => exact ⟨hb.now, hb.pre, hb.down, hb.vdown, hb.axis, hb.axes⟩
  | setconstrain x => exact ⟨hb.now, hb.pre, hb.down, hb.vdown, hb.axis, hb.axes⟩
  | setaxes axes =>
    refine ⟨hb.now, hb.pre, hb.down, hb.vdown, hb.axis, ?_⟩
    intro l hl x hx
    obtain rfl : axes.map unit3 = l := Option.some.inj hl
    obtain ⟨a, ha, rfl⟩ := List.mem_map.1 hx
    exact unit3_proper (hc a ha)
  | down point =>
    show Sound (ballDown b point).1
    unfold ballDown
    cases hm : mapToSphere point b.center b.radius with
    | error e => exact hb
    | ok v =>
      obtain ⟨hv, hz⟩ := mapToSphere_ok hm
      simp only []
      have hplain : Sound { b with vdown := some v, qdown := b.qnow, qpre := b.qnow, axis := none } :=
        ⟨hb.now, hb.now, hb.now, ⟨v, rfl, hv, by simp⟩, by simp, hb.axes⟩
      cases hcon : b.constrain with
      | false => simpa [hcon] using hplain
      | true =>
        cases hax : b.axes with
        | none => simpa [hcon, hax] using hplain
        | some axes =>
          simp only []
          cases hn : nearestAxis v axes with
          | none => simpa [hcon, hax, ballPick] using hplain
          | some a =>
            obtain ⟨g1, g2⟩ := C151_nearest v hv hz axes (fun a ha => by
              obtain ⟨a', e, h1, -⟩ := hb.axes axes hax _ ha
              rw [Option.some.inj e]; exact h1)
            obtain ⟨hmem, c, hcs, -⟩ := g2 a hn
            obtain ⟨a', e, h1, h2⟩ := hb.axes axes hax _ hmem
            obtain rfl := Option.some.inj e
            obtain ⟨c1, c2, -⟩ := (C151_constrain v a h1).2 c hcs
            refine ⟨hb.now, hb.now, hb.now, ⟨c, hcs, c1, ?_⟩, ?_, ?_⟩
            · intro a' e
              obtain rfl := Option.some.inj e
              exact c2
            · intro a' e
              obtain rfl := Option.some.inj e
              exact ⟨h1, h2⟩
            · exact fun l hl => hb.axes l (hax ▸ hl)
  | drag point =>
    show Sound (ballDrag b point).1
    unfold ballDrag
    cases hm : mapToSphere point b.center b.radius with
    | error e => exact hb
    | ok v =>
      obtain ⟨hv, hz⟩ := mapToSphere_ok hm
      simp only []
      refine ⟨?_, hb.now, hb.down, hb.vdown, hb.axis, hb.axes⟩
      obtain ⟨w, hw, w1⟩ : ∃ w, constrainIf b.axis v = some w ∧ dot3 w w = 1 := by
        cases hax : b.axis with
        | none => exact ⟨v, rfl, hv⟩
        | some a =>
          obtain ⟨c, h1, h2, -⟩ := constrain_some hb hax v
          exact ⟨c, h1, h2⟩
      obtain ⟨u, hu, u1, -⟩ := hb.vdown
      obtain ⟨q, hq, q1⟩ := hb.down
      show ∃ q, arcQuat b.vdown _ b.qdown = some q ∧ _
      rw [hw, hu, hq]
      unfold arcQuat
      simp only []
      split_ifs
      · exact ⟨q, rfl, q1⟩
      · exact ⟨_, rfl, quatMul_unit (arc_unit u1 w1) q1⟩
  | next acc =>
    show Sound (ballNext b acc).1
    unfold ballNext
    obtain ⟨p, hp, p1⟩ := hb.pre
    obtain ⟨q, hq, q1⟩ := hb.now
    obtain ⟨r, hr, r1⟩ := slerp_unit p1 q1 (2 + acc)
    rw [hp, hq, hr]
    exact ⟨⟨r, rfl, r1⟩, ⟨q, rfl, q1⟩, hb.down, hb.vdown, hb.axis, hb.axes⟩

/-- The constructor is given nothing, a rotation matrix or a quaternion which is not null. -/
def Initial.Proper : Initial → Prop
  | .default => True
  | .matrix M => IsRotation M
  | .quaternion q => q ≠ 0
  | .other => False

/-- **C151.** A new trackball: it shows the initial rotation. Only arrays of another shape are refused,
with ValueError. -/
theorem C151_initial (i : Initial) (hi : i.Proper) : ∃ b, ballInit i = .ok b ∧ Sound b ∧
    (i = .default → ballMatrix b = some 1) ∧ (∀ M, i = .matrix M → ballMatrix b = some M) ∧
    (∀ q, i = .quaternion q → EPS ≤ dot4 q q → ballMatrix b = some (quatMatrix q)) := by
  have hv : ∀ q : Quat, dot4 q q = 1 → Sound
      { axis := none, axes := none, radius := 1, center := (0, 0), vdown := some ![0, 0, 1],
        constrain := false, qdown := some q, qpre := some q, qnow := some q } := by
    intro q hq
    exact ⟨⟨q, rfl, hq⟩, ⟨q, rfl, hq⟩, ⟨q, rfl, hq⟩, ⟨_, rfl, by simp [dot3], by simp⟩, by simp, by simp⟩
  cases i with
  | default =>
    have h1 : dot4 ![0, 0, 0, 1] ![0, 0, 0, 1] = 1 := by simp [dot4]
    refine ⟨_, rfl, hv ![0, 0, 0, 1] h1, fun _ => ?_, by simp, by simp⟩
    show some (quatMatrix ![0, 0, 0, 1]) = some 1
    rw [Transf.quatMatrix_eq (by rw [h1]; exact Transf.EPS_lt_one.le)]
    congr 1
    ext a b
    fin_cases a <;> fin_cases b <;> simp
  | matrix M =>
    obtain ⟨q, hq, q1, hM⟩ := Transf.C111_rotation M hi
    refine ⟨_, by show Except.map _ (Except.map some (Transf.quatFromMatrix M)) = _; rw [hq]; rfl, hv q q1, by simp, ?_, by simp⟩
    intro M' e
    obtain rfl : M = M' := by simpa using e
    show some (quatMatrix q) = some M
    rw [hM]
  | quaternion q =>
    obtain ⟨u, hu, u1, s, hs, hsu⟩ := (unit4_spec q).2 hi
    refine ⟨_, by show Except.map _ (Except.ok (unit4 q)) = _; rw [hu]; rfl, hv u u1, by simp, by simp, ?_⟩
    intro q' e hE
    obtain rfl : q = q' := by simpa using e
    show some (quatMatrix u) = some (quatMatrix q)
    have hd : dot4 q q = s ^ 2 * dot4 u u := by rw [hsu]; simp [dot4]; ring
    have := Transf.C93_scale u s (by rw [u1]; exact Transf.EPS_lt_one.le) (by rw [← hd]; exact hE)
    rw [← this, hsu]
    rfl
  | other => exact hi.elim

/-- **C151.** Whatever the sequence of calls, the trackball shows a rotation. -/
theorem C151_always (i : Initial) (hi : i.Proper) (b : Ball) (hb : ballInit i = .ok b) (calls : List Call)
    (hc : ∀ c ∈ calls, c.Proper) : ∃ M, ballMatrix (ballAfter b calls) = some M ∧ IsRotation M := by
  have h0 : Sound b := by
    obtain ⟨b', hb', hs, -⟩ := C151_initial i hi
    rw [hb] at hb'
    rw [Except.ok.inj hb']
    exact hs
  have h : Sound (ballAfter b calls) := by
    clear hb
    unfold ballAfter
    induction calls generalizing b with
    | nil => exact h0
    | cons c l ih =>
      exact ih _ (fun c' h => hc c' (List.mem_cons_of_mem _ h)) (C151_step b h0 c (hc c List.mem_cons_self))
  obtain ⟨q, hq, -⟩ := h.now
  exact ⟨quatMatrix q, by unfold ballMatrix; rw [hq]; rfl, (Transf.C93_rotation q).1⟩

/-- **C151.** The calls which fail: `down` and `drag` with a null radius (ZeroDivisionError), and `down` when
constrained to an empty list of axes (IndexError). There is no call by which the axes are forgotten:
`setaxes()` gives the empty list. -/
theorem C151_errors (b : Ball) (hb : Sound b) (c : Call) (e : PyErr) :
    (ballCall b c).2 = .error e ↔
      (e = .zeroDivisionError ∧ b.radius = 0 ∧ ((∃ p, c = .down p) ∨ ∃ p, c = .drag p)) ∨
      (e = .indexError ∧ b.radius ≠ 0 ∧ b.constrain = true ∧ b.axes = some [] ∧ ∃ p, c = .down p) := by
  cases c with
  | place center radius => simp [ballCall]
  | setconstrain x => simp [ballCall]
  | setaxes axes => simp [ballCall]
  | next acc =>
    obtain ⟨p, hp, p1⟩ := hb.pre
    obtain ⟨q, hq, q1⟩ := hb.now
    obtain ⟨r, hr, r1⟩ := slerp_unit p1 q1 (2 + acc)
    simp [ballCall, ballNext, hp, hq, hr]
  | drag point =>
    by_cases hr : b.radius = 0
    · have e' : (ballCall b (.drag point)).2 = .error .zeroDivisionError := by
        show (ballDrag b point).2 = _
        unfold ballDrag
        rw [(C151_sphere point b.center b.radius).1 hr]
      rw [e']
      constructor
      · intro h
        exact .inl ⟨(Except.error.inj h).symm, hr, .inr ⟨_, rfl⟩⟩
      · rintro (⟨rfl, -, -⟩ | ⟨-, h, -⟩)
        · rfl
        · exact absurd hr h
    · obtain ⟨v, hv, -⟩ := (C151_sphere point b.center b.radius).2 hr
      simp [ballCall, ballDrag, hv, hr]
  | down point =>
    by_cases hr : b.radius = 0
    · have e' : (ballCall b (.down point)).2 = .error .zeroDivisionError := by
        show (ballDown b point).2 = _
        unfold ballDown
        rw [(C151_sphere point b.center b.radius).1 hr]
      rw [e']
      constructor
      · intro h
        exact .inl ⟨(Except.error.inj h).symm, hr, .inl ⟨_, rfl⟩⟩
      · rintro (⟨rfl, -, -⟩ | ⟨-, h, -⟩)
        · rfl
        · exact absurd hr h
    · obtain ⟨v, hm, hv, hz, -⟩ := (C151_sphere point b.center b.radius).2 hr
      simp only [ballCall, ballDown, hm]
      cases hcon : b.constrain with
      | false => simp [hr]
      | true =>
        cases hax : b.axes with
        | none => simp [hr]
        | some axes =>
          cases axes with
          | nil => simp [nearestAxis, nearestLoop, hr, ballPick, eq_comm]
          | cons x l =>
            have hne : nearestAxis v (x :: l) ≠ none := by
              intro h
              obtain ⟨a, rfl, a1, a2⟩ := hb.axes _ hax x List.mem_cons_self
              have := (C151_nearest v hv hz (some a :: l) (fun a' ha' => by
                obtain ⟨a2, e, h1, -⟩ := hb.axes _ hax _ ha'
                rw [Option.some.inj e]; exact h1)).1.1 h a List.mem_cons_self
              exact a2 ((C151_constrain v a a1).1.1 this).1
            cases hn : nearestAxis v (x :: l) with
            | none => exact absurd hn hne
            | some a =>
              simp only [hn, ballPick]
              simp [hr]

/-! ## What the calls do -/

/-- The rotation of the arc between two points of the sphere. -/
theorem arc_moves {v w : P3} (hv : dot3 v v = 1) (hw : dot3 w w = 1) :
    Moves (quatMatrix ![cross v w 0, cross v w 1, cross v w 2, dot3 v w]) fun x =>
      x + (2 * dot3 v w) • cross (cross v w) x + (2 : ℝ) • cross (cross v w) (cross (cross v w) x) := by
  have h1 := arc_unit hv hw
  rw [Transf.quatMatrix_eq (by rw [h1]; exact Transf.EPS_lt_one.le), h1]
  generalize cross v w = t at *
  generalize dot3 v w = d at *
  intro x
  funext i
  fin_cases i <;> simp [Matrix.mulVec, dotProduct, Fin.sum_univ_four, hom, cross, Matrix.vecHead, Matrix.vecTail] <;> ring

/-- **C151.** `drag`: the trackball shows the rotation it had when the button went down, followed by
a rotation about the axis orthogonal to the two points of the sphere, by twice their angle: the first point
`v` goes to its mirror image across the second `w`. It only depends on the state when the button went down
and on the cursor, not on the drags between. When the trackball is constrained the rotation is about
the axis: the points of the axis do not move. -/
theorem C151_drag (b : Ball) (hb : Sound b) (point : ℝ × ℝ) (hr : b.radius ≠ 0) :
    ∃ v w Q, b.vdown = some v ∧ dot3 w w = 1 ∧ (b.axis = none → mapToSphere point b.center b.radius = .ok w) ∧
      (∀ a, b.axis = some a → dot3 w a = 0) ∧ b.qdown = some Q ∧
      (dot3 (cross v w) (cross v w) < EPS → ballMatrix (ballDrag b point).1 = some (quatMatrix Q)) ∧
      (EPS ≤ dot3 (cross v w) (cross v w) → ∃ R f, ballMatrix (ballDrag b point).1 = some (R * quatMatrix Q) ∧
        IsRotation R ∧ Moves R f ∧ f (cross v w) = cross v w ∧ f v = (2 * dot3 v w) • w - v ∧
        ∀ a, b.axis = some a → f a = a) := by
  obtain ⟨v, hv, v1, va⟩ := hb.vdown
  obtain ⟨Q, hQ, Q1⟩ := hb.down
  obtain ⟨u, hm, u1, -⟩ := (C151_sphere point b.center b.radius).2 hr
  obtain ⟨w, hw, w1, wn, wa⟩ : ∃ w, constrainIf b.axis u = some w ∧ dot3 w w = 1 ∧ (b.axis = none → u = w) ∧ (∀ a, b.axis = some a → dot3 w a = 0) := by
    cases hax : b.axis with
    | none => exact ⟨u, rfl, u1, fun _ => rfl, by simp⟩
    | some a =>
      obtain ⟨c, h1, h2, h3⟩ := constrain_some hb hax u
      exact ⟨c, h1, h2, by simp, by rintro a' e; obtain rfl := Option.some.inj e; exact h3⟩
  have hmat : ballMatrix (ballDrag b point).1 = if dot3 (cross v w) (cross v w) < EPS then some (quatMatrix Q)
      else some (quatMatrix (quatMul ![cross v w 0, cross v w 1, cross v w 2, dot3 v w] Q)) := by
    unfold ballDrag ballMatrix
    simp only [hm, hw, hv, hQ]
    unfold arcQuat
    simp only []
    split_ifs <;> rfl
  refine ⟨v, w, Q, hv, w1, fun h => by rw [← wn h]; exact hm, wa, hQ, fun h => ?_, fun h => ?_⟩
  · rw [hmat, if_pos h]
  · rw [hmat, if_neg (not_lt.2 h)]
    have a1 := arc_unit v1 w1
    have hE : EPS ≤ 1 := Transf.EPS_lt_one.le
    refine ⟨_, _, by rw [Transf.C93_multiplicative _ _ (by rw [a1]; exact hE) (by rw [Q1]; exact hE)
      (by rw [a1, Q1, one_mul]; exact hE)], (Transf.C93_rotation _).1, arc_moves v1 w1, ?_, ?_, ?_⟩
    · simp only [cross_self, smul_zero, add_zero]
      rw [show cross (cross v w) 0 = 0 by funext i; fin_cases i <;> simp [cross]]
      simp
    · have e1 : cross (cross v w) v = w - dot3 v w • v := by
        funext i
        unfold dot3 at v1 ⊢
        fin_cases i <;> simp [cross]
        · linear_combination w 0 * v1
        · linear_combination w 1 * v1
        · linear_combination w 2 * v1
      have e2 : cross (cross v w) w = dot3 v w • w - v := by
        funext i
        unfold dot3 at w1 ⊢
        fin_cases i <;> simp [cross]
        · linear_combination -v 0 * w1
        · linear_combination -v 1 * w1
        · linear_combination -v 2 * w1
      rw [e1, cross_sub, cross_smul, e1, e2]
      funext i
      simp only [Pi.sub_apply, Pi.add_apply, Pi.smul_apply, smul_eq_mul]
      ring
    · intro a ha
      have hva := va a ha
      have hwa := wa a ha
      have e : cross (cross v w) a = 0 := by
        unfold dot3 at hva hwa
        funext i
        fin_cases i <;> simp [cross]
        · linear_combination w 0 * hva - v 0 * hwa
        · linear_combination w 1 * hva - v 1 * hwa
        · linear_combination w 2 * hva - v 2 * hwa
      simp only [e]
      rw [show cross (cross v w) 0 = 0 by funext i; fin_cases i <;> simp [cross]]
      simp

/-- **C151.** Drags between the press and the last position of the cursor leave no trace, and going
back to the point of the press gives the first rotation back. -/
theorem C151_path (b : Ball) (points : List (ℝ × ℝ)) (point : ℝ × ℝ) (hr : b.radius ≠ 0) :
    ballMatrix (ballAfter b (points.map Call.drag ++ [.drag point])) = ballMatrix (ballDrag b point).1 ∧
    ballMatrix (ballAfter { b with constrain := false } ([.down point] ++ points.map Call.drag ++ [.drag point])) =
      ballMatrix b := by
  have keep : ∀ (points : List (ℝ × ℝ)) (b : Ball), (ballAfter b (points.map Call.drag)).vdown = b.vdown ∧
      (ballAfter b (points.map Call.drag)).qdown = b.qdown ∧ (ballAfter b (points.map Call.drag)).axis = b.axis ∧
      (ballAfter b (points.map Call.drag)).center = b.center ∧
      (ballAfter b (points.map Call.drag)).radius = b.radius := by
    intro points
    induction points with
    | nil => intro b; exact ⟨rfl, rfl, rfl, rfl, rfl⟩
    | cons p l ih =>
      intro b
      have h := ih (ballDrag b p).1
      have h1 : (ballDrag b p).1.vdown = b.vdown ∧ (ballDrag b p).1.qdown = b.qdown ∧ (ballDrag b p).1.axis = b.axis ∧
          (ballDrag b p).1.center = b.center ∧ (ballDrag b p).1.radius = b.radius := by
        unfold ballDrag
        cases mapToSphere p b.center b.radius <;> exact ⟨rfl, rfl, rfl, rfl, rfl⟩
      rw [h1.1, h1.2.1, h1.2.2.1, h1.2.2.2.1, h1.2.2.2.2] at h
      exact h
  have last : ∀ (points : List (ℝ × ℝ)) (b : Ball), b.radius ≠ 0 →
      ballMatrix (ballAfter b (points.map Call.drag ++ [.drag point])) = ballMatrix (ballDrag b point).1 := by
    intro points b hr
    obtain ⟨v, hm, -⟩ := (C151_sphere point b.center b.radius).2 hr
    obtain ⟨h1, h2, h3, h4, h5⟩ := keep points b
    have e : ballAfter b (points.map Call.drag ++ [.drag point]) =
        (ballDrag (ballAfter b (points.map Call.drag)) point).1 := by
      unfold ballAfter
      rw [List.foldl_append]
      rfl
    rw [e]
    unfold ballDrag ballMatrix
    rw [h1, h2, h3, h4, h5, hm]
  refine ⟨last points b hr, ?_⟩
  obtain ⟨v, hm, hv, -⟩ := (C151_sphere point b.center b.radius).2 hr
  have e : ballAfter { b with constrain := false } ([.down point] ++ points.map Call.drag ++ [.drag point]) =
      ballAfter { b with constrain := false, vdown := some v, qdown := b.qnow, qpre := b.qnow, axis := none }
        (points.map Call.drag ++ [.drag point]) := by
    unfold ballAfter
    rw [List.append_assoc, List.foldl_append]
    congr 1
    show (ballDown { b with constrain := false } point).1 = _
    unfold ballDown
    simp only [hm]
  rw [e, last points { b with constrain := false, vdown := some v, qdown := b.qnow, qpre := b.qnow, axis := none } hr]
  unfold ballDrag ballMatrix
  simp only [hm]
  unfold arcQuat constrainIf
  simp only [cross_self]
  rw [if_pos (by simp [dot3]; exact Transf.EPS_pos)]

theorem quatConj_matrix {q : Quat} (hq : dot4 q q = 1) : quatMatrix (quatConj q) = (quatMatrix q)ᵀ := by
  have hE : EPS ≤ 1 := Transf.EPS_lt_one.le
  have hc : dot4 (quatConj q) (quatConj q) = 1 := by rw [← hq]; simp [dot4, quatConj]
  rw [Transf.quatMatrix_eq (by rw [hc]; exact hE), Transf.quatMatrix_eq (by rw [hq]; exact hE), hc, hq]
  ext a b
  fin_cases a <;> fin_cases b <;> simp [quatConj] <;> ring

/-- **C151.** `next()` turns again as the last step did: when the last two rotations are not (nearly) the same,
the new rotation follows the present one as this one followed the one before. When they are nearly the same the two are
swapped. -/
theorem C151_next (b : Ball) (hb : Sound b) : ∃ P N, b.qpre = some P ∧ b.qnow = some N ∧
    (ballNext b 0).2 = .ok () ∧ (ballNext b 0).1.qpre = some N ∧
    (EPS ≤ 1 - |dot4 P N| → ballMatrix (ballNext b 0).1 =
      some (quatMatrix N * (quatMatrix P)ᵀ * quatMatrix N)) ∧
    (1 - |dot4 P N| < EPS → ballMatrix (ballNext b 0).1 = some (quatMatrix P)) := by
  obtain ⟨P, hP, P1⟩ := hb.pre
  obtain ⟨N, hN, N1⟩ := hb.now
  obtain ⟨r, hr, -⟩ := slerp_unit P1 N1 (2 + 0)
  refine ⟨P, N, hP, hN, ?_, ?_, ?_, ?_⟩
  · unfold ballNext; rw [hP, hN, hr]
  · unfold ballNext; rw [hP, hN, hr]
  · intro h
    have hE : EPS ≤ 1 := Transf.EPS_lt_one.le
    have hu : ∀ q : Quat, dot4 q q = 1 → unit4 q = some q := by
      intro q hq
      have e : Transf.norm4 q = 1 := by unfold Transf.norm4; rw [hq, Real.sqrt_one]
      unfold unit4
      rw [e, if_neg one_ne_zero]
      simp
    -- the end of the arc
    have core : ∀ e : Quat, dot4 e e = 1 → |dot4 P e| ≤ 1 - EPS → quatMatrix e = quatMatrix N →
        ∃ q, slerpArc P e (dot4 P e) 2 0 = .ok q ∧ quatMatrix q = quatMatrix N * (quatMatrix P)ᵀ * quatMatrix N := by
      intro e e1 hd hem
      obtain ⟨hs, hok⟩ := slerpArc_ok P e (dot4 P e) 2 0 hd
      obtain ⟨d1, d2⟩ := dot4_cauchy P1 e1
      refine ⟨_, hok, ?_⟩
      have hq : (fun i => (P i * sin ((1 - 2) * (arccos (dot4 P e) + (0 : ℤ) * π)) +
          e i * sin (2 * (arccos (dot4 P e) + (0 : ℤ) * π))) / sin (arccos (dot4 P e) + (0 : ℤ) * π)) =
          quatMul (quatMul e (quatConj P)) e := by
        have hcos : cos (arccos (dot4 P e) + (0 : ℤ) * π) = dot4 P e := by
          simp [cos_arccos d1 d2]
        generalize arccos (dot4 P e) + (0 : ℤ) * π = a at *
        rw [show (1 - 2) * a = -a by ring, sin_neg, sin_two_mul, hcos]
        have : ∀ i, (P i * -sin a + e i * (2 * sin a * dot4 P e)) / sin a = 2 * dot4 P e * e i - dot4 e e * P i := by
          intro i; rw [e1]; field_simp; ring
        simp only [this]
        funext i
        fin_cases i <;> simp [quatMul, quatConj, dot4] <;> ring
      rw [hq, Transf.C93_multiplicative, Transf.C93_multiplicative, quatConj_matrix P1, hem]
      all_goals
        first
        | (rw [e1]; exact hE)
        | skip
      · have hc : dot4 (quatConj P) (quatConj P) = 1 := by rw [← P1]; simp [dot4, quatConj]
        rw [hc]; exact hE
      · have hc : dot4 (quatConj P) (quatConj P) = 1 := by rw [← P1]; simp [dot4, quatConj]
        rw [e1, hc, one_mul]; exact hE
      · have hc : dot4 (quatConj P) (quatConj P) = 1 := by rw [← P1]; simp [dot4, quatConj]
        rw [quatMul_unit e1 hc]; exact hE
      · have hc : dot4 (quatConj P) (quatConj P) = 1 := by rw [← P1]; simp [dot4, quatConj]
        rw [quatMul_unit e1 hc, e1, one_mul]; exact hE
    have habs : |(|dot4 P N| - 1)| = 1 - |dot4 P N| := by
      rw [abs_of_nonpos, neg_sub]
      linarith [Transf.EPS_pos]
    have hnear : ¬ |(|dot4 P N| - 1)| < EPS := by rw [habs]; exact not_lt.2 h
    unfold ballNext slerp
    simp only [hP, hN, Option.bind_some, hu P P1, hu N N1, add_zero, if_neg hnear]
    rw [if_neg two_ne_zero, if_neg (by norm_num : (2 : ℝ) ≠ 1)]
    by_cases hneg : dot4 P N < 0
    · have hdot : dot4 P (fun i => N i * -1) = -dot4 P N := by unfold dot4; ring
      obtain ⟨q, hq, hqm⟩ := core (fun i => N i * -1) (Eq.trans (by unfold dot4; ring) N1)
        (by rw [hdot, abs_neg]; linarith) (by
          rw [← Transf.C93_neg N]; exact congrArg quatMatrix (funext fun i => by ring))
      rw [hdot] at hq
      simp only [hneg, and_self, if_true, hq]
      show some (quatMatrix q) = _
      rw [hqm]
    · obtain ⟨q, hq, hqm⟩ := core N N1 (by linarith) rfl
      simp only [hneg, and_false, if_false, hq]
      show some (quatMatrix q) = _
      rw [hqm]
  · intro h
    have h1 := (C150_slerp P N P1 N1 1 1 one_pos one_pos (2 + 0) 0 true (by norm_num) (by norm_num)).1 h
    rw [one_smul, one_smul] at h1
    unfold ballNext ballMatrix
    rw [hP, hN, h1]
    rfl

/-- **C151.** The axis (0, 0, -1) is not treated as (0, 0, 1): dragged to the center while constrained
to it, the trackball shows no rotation any more, but NaN. -/
theorem C151_nan : ∃ b, ballInit .default = .ok b ∧
    ballMatrix (ballAfter b [.setaxes [![0, 0, -1]], .setconstrain true, .down (1 / 2, 0), .drag (0, 0)]) = none := by
  refine ⟨_, rfl, ?_⟩
  have hu : unit3 ![0, 0, -1] = some ![0, 0, -1] := by
    have : norm3 ![0, 0, -1] = 1 := by simp [norm3, dot3]
    unfold unit3
    rw [this, if_neg one_ne_zero]
    simp
  have h1 : ∃ v, mapToSphere (1 / 2, 0) (0, 0) 1 = .ok v ∧ v 0 = 1 / 2 ∧ v 1 = 0 := by
    obtain ⟨v, hv, -, -, hin, -⟩ := (C151_sphere (1 / 2, 0) (0, 0) 1).2 one_ne_zero
    have := hin (by norm_num)
    exact ⟨v, hv, by simpa using this.1, by simpa using this.2⟩
  obtain ⟨v, hv, v0, v1⟩ := h1
  have h2 : mapToSphere (0, 0) (0, 0) 1 = .ok ![0, 0, 1] := by
    unfold mapToSphere
    simp
  have h3 : constrainToAxis ![0, 0, 1] ![0, 0, -1] = none := by
    rw [(C151_constrain _ _ (by simp [dot3])).1]
    refine ⟨rfl, ?_⟩
    have : (![0, 0, 1] - dot3 ![0, 0, -1] ![0, 0, 1] • ![0, 0, -1] : P3) = 0 := by
      funext i
      fin_cases i <;> simp [dot3]
    rw [this]
    simp [norm3, dot3, Transf.EPS_pos.le]
  have h4 : nearestAxis v [some ![0, 0, -1]] = some ![0, 0, -1] := by
    obtain ⟨w1, w2⟩ := mapToSphere_ok hv
    have hspec := C151_nearest v w1 w2 [some ![0, 0, -1]] (by
      intro a ha
      obtain rfl : a = ![0, 0, -1] := by simpa using ha
      simp [dot3])
    cases hn : nearestAxis v [some ![0, 0, -1]] with
    | none =>
      have := hspec.1.1 hn ![0, 0, -1] (by simp)
      rw [(C151_constrain _ _ (by simp [dot3])).1] at this
      have hle := this.2
      have hno : norm3 (v - dot3 ![0, 0, -1] v • ![0, 0, -1]) = 1 / 2 := by
        unfold norm3
        rw [show dot3 (v - dot3 ![0, 0, -1] v • ![0, 0, -1]) (v - dot3 ![0, 0, -1] v • ![0, 0, -1]) = (1 / 2) ^ 2 by
          simp [dot3, v0, v1]; norm_num]
        exact Real.sqrt_sq (by norm_num)
      rw [hno] at hle
      unfold EPS at hle
      norm_num at hle
    | some a =>
      have := (hspec.2 a hn).1
      simpa using this
  unfold ballAfter
  simp only [List.foldl_cons, List.foldl_nil, ballCall, ballSetAxes, ballSetConstrain, ballDown, hv, List.map_cons,
    List.map_nil, hu, h4, ballDrag, h2, h3, ballMatrix, ballPick, constrainIf]
  unfold arcQuat
  cases constrainToAxis v ![0, 0, -1] <;> rfl

end Verif.Geom
