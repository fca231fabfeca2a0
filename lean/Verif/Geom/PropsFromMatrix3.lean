import Verif.Geom.PropsFromMatrix2

/-!
# `projection_from_matrix` and `shear_from_matrix` (C160, C161)
-/

namespace Verif.Geom

open Verif Real Matrix
open Verif.Transf (Mat4 Mat3 Rot3 block)

/-! ## Parallel projections -/

/-- The projection on the plane of normal `n`, along `d`. -/
noncomputable def flatten (d n : P3) : Mat3 := 1 - (1 / dot3 d n) • outer d n

theorem flatten_sq {d n : P3} (h : dot3 d n ≠ 0) : flatten d n * flatten d n = ((0 : ℝ) + 1) • flatten d n - ((0 : ℝ) * 1) • 1 := by
  have e := outer_sq d n
  rw [dot3_comm n d] at e
  unfold flatten
  rw [Matrix.sub_mul, Matrix.mul_sub, Matrix.mul_sub, one_mul, mul_one, Matrix.mul_smul, Matrix.mul_smul, Matrix.smul_mul, e,
    one_mul, smul_smul (1 / dot3 d n) (dot3 d n), one_div_mul_cancel h]
  module

theorem flatten_transpose (d n : P3) : (flatten d n)ᵀ = flatten n d := by
  ext a b
  simp [flatten, outer, Matrix.one_apply, dot3_comm n d, eq_comm, mul_comm]

theorem flatten_mulVec (d n x : P3) : flatten d n *ᵥ x = x - (dot3 n x / dot3 d n) • d := by
  unfold flatten
  rw [Matrix.sub_mulVec, Matrix.smul_mulVec, Matrix.one_mulVec, outer_mulVec, smul_smul]
  congr 2
  ring

/-- The vector of eigenvalue zero which is found is along the direction. -/
theorem flatten_kernel {d n : P3} (hdn : dot3 d n ≠ 0) {eig3 : Eig 3}
    (h : IsEigC (flatten d n) (eig3 (flatten d n)).1 (eig3 (flatten d n)).2) :
    ∃ k, (near (eig3 (flatten d n)).1 0 (1 / 10 ^ 8)).head? = some k ∧
      dot3 (realColumn (eig3 (flatten d n)).2 k) (realColumn (eig3 (flatten d n)).2 k) = 1 ∧
      ∃ c : ℝ, realColumn (eig3 (flatten d n)).2 k = c • d := by
  obtain ⟨k, hk, hnear⟩ := near_head h (x := 0) (tol := 1 / 10 ^ 8) (by positivity) (y := d)
    (fun h0 => by rw [h0] at hdn; simp [dot3] at hdn) (by
      rw [flatten_mulVec, dot3_comm n d, div_self hdn]
      module)
  have hl : (eig3 (flatten d n)).1 k = (0 : ℝ) := by
    rcases eig_two (flatten_sq hdn) (h.ne_zero k) (h.vector k) with h | h
    · exact h
    · rw [h] at hnear
      norm_num at hnear
  obtain ⟨hr, hu, -⟩ := h.re hl
  rw [← dot3_realColumn] at hu
  refine ⟨k, hk, hu, dot3 n (realColumn (eig3 (flatten d n)).2 k) / dot3 d n, ?_⟩
  rw [flatten_mulVec, zero_smul, sub_eq_zero] at hr
  exact hr

theorem flatten_congr {d n d' n' : P3} (hdn : dot3 d n ≠ 0) {a b : ℝ} (hd : d' = a • d) (hn : n' = b • n) (ha : a ≠ 0)
    (hb : b ≠ 0) : dot3 d' n' ≠ 0 ∧ flatten d' n' = flatten d n := by
  have e : dot3 d' n' = a * (b * dot3 d n) := by rw [hd, hn, dot3_smul, dot3_smul']
  refine ⟨by rw [e]; exact mul_ne_zero ha (mul_ne_zero hb hdn), ?_⟩
  unfold flatten
  rw [e]
  congr 1
  ext i j
  simp [outer, hd, hn]
  field_simp

theorem parallel_eq {point normal : P3} {direction : Option P3} {M : Mat4} (h : parallelMatrix point normal direction = some M) :
    ∃ n d, unit3 normal = some n ∧ d = direction.getD n ∧ dot3 d n ≠ 0 ∧
      M = affine (flatten d n) ((dot3 point n / dot3 d n) • d) := by
  unfold parallelMatrix at h
  obtain ⟨n, hn, h⟩ := Option.bind_eq_some_iff.1 h
  cases direction with
  | none =>
    refine ⟨n, n, hn, rfl, by rw [unit3_one hn]; exact one_ne_zero, ?_⟩
    rw [← Option.some.inj h, flatten, unit3_one hn]
    congr 1
    · simp
    · funext i
      simp
  | some d =>
    simp only [] at h
    split_ifs at h with h0
    refine ⟨n, d, hn, rfl, h0, ?_⟩
    rw [← Option.some.inj h, flatten]
    congr 1
    · ext i j
      simp [outer]
      ring
    · funext i
      simp
      ring

theorem parallel_of {point d n : P3} (hn : dot3 n n = 1) (h : dot3 d n ≠ 0) :
    parallelMatrix point n (some d) = some (affine (flatten d n) ((dot3 point n / dot3 d n) • d)) := by
  unfold parallelMatrix
  rw [unit3_of_one hn]
  simp only [Option.bind_eq_bind, Option.bind_some, if_neg h, Option.pure_def]
  congr 2
  · rw [flatten]
    congr 1
    ext i j
    simp [outer]
    ring
  · funext i
    simp
    ring

/-- C160: `projection_from_matrix` of a parallel projection raises no exception, and `projection_matrix` of the numbers it gives
is the matrix. Without numbers the last eigenvector of eigenvalue one which the library gave has a null weight. -/
theorem C160_parallel {point normal : P3} {direction : Option P3} {M : Mat4}
    (hM : projectionMatrix point normal direction none false = some M) {eig3 : Eig 3} {eig4 : Eig 4}
    (h3 : IsEigC (block M) (eig3 (block M)).1 (eig3 (block M)).2)
    (h3' : IsEigC (block M)ᵀ (eig3 (block M)ᵀ).1 (eig3 (block M)ᵀ).2) (h4 : IsEigC M (eig4 M).1 (eig4 M).2) :
    ∃ o, projectionFromMatrix eig3 eig4 M false = .ok o ∧
      (∀ r, o = some r → r.point 3 = 1 ∧
        projectionMatrix (first3 r.point) r.normal r.direction r.perspective r.pseudo = some M) ∧
      (o = none → Weightless (eig4 M) 1) := by
  change IsEigC (linear M) (eig3 (linear M)).1 (eig3 (linear M)).2 at h3
  change IsEigC (linear M)ᵀ (eig3 (linear M)ᵀ).1 (eig3 (linear M)ᵀ).2 at h3'
  obtain ⟨n, d, hn, -, hdn, rfl⟩ := parallel_eq hM
  have hn1 := unit3_one hn
  rw [linear_affine] at h3 h3'
  rw [flatten_transpose] at h3'
  obtain ⟨k, hk, hone, hlast, hp, hnone⟩ := last_spec h4 (onlyOne_two (flatten_sq hdn) (.inr (by norm_num)))
  obtain ⟨i, hi, hiu, a, ha⟩ := flatten_kernel hdn h3
  obtain ⟨j, hj, hju, b, hb⟩ := flatten_kernel (by rwa [dot3_comm]) h3'
  have ha0 : a ≠ 0 := by
    rintro rfl
    rw [ha] at hiu
    simp [dot3] at hiu
  have hb0 : b ≠ 0 := by
    rintro rfl
    rw [hb] at hju
    simp [dot3] at hju
  set d' := realColumn (eig3 (flatten d n)).2 i with hd'
  set n' := realColumn (eig3 (flatten n d)).2 j with hn'
  obtain ⟨hdn', hflat⟩ := flatten_congr hdn ha hb ha0 hb0
  set M := affine (flatten d n) ((dot3 point n / dot3 d n) • d) with hMd
  refine ⟨(overLast (realColumn (eig4 M).2 k)).map fun p => ⟨p, n', some d', none, false⟩, ?_, ?_, ?_⟩
  · unfold projectionFromMatrix
    rw [hk]
    simp only []
    unfold parallelFromMatrix
    rw [hMd, linear_affine, hi, ← hMd]
    change Except.ok _ = _
    congr 1
    rw [← hd', unit3_of_one hiu]
    cases ho : overLast (realColumn (eig4 M).2 k) with
    | none => rfl
    | some p =>
      simp only [Option.bind_eq_bind, Option.bind_some, Option.map_some]
      unfold parallelNormal
      rw [hMd, linear_affine, flatten_transpose, hj]
      simp only [← hn', unit3_of_one hju, Option.map_some]
  · intro r hr
    obtain ⟨p, hpo, rfl⟩ := Option.map_eq_some_iff.1 hr
    obtain ⟨h1, hfix⟩ := hp p hpo
    refine ⟨h1, ?_⟩
    unfold projectionMatrix
    simp only []
    rw [parallel_of hju hdn', hflat, hMd]
    congr 2
    rw [← hflat, flatten_mulVec] at hfix
    funext q
    have hq := congrFun hfix q
    simp only [Pi.add_apply, Pi.sub_apply, Pi.smul_apply, smul_eq_mul] at hq ⊢
    rw [dot3_comm (first3 p) n']
    linarith
  · intro hno
    exact ⟨k, hone, hlast, hnone (Option.map_eq_none_iff.1 hno)⟩

/-! ## Perspective projections -/

/-- The product of the numbers of a vector and of those of a point. -/
def dotp (x y : Fin 4 → ℝ) : ℝ := x 0 * y 0 + x 1 * y 1 + x 2 * y 2 + x 3 * y 3

/-- A multiple of the identity less a matrix of rank one. -/
def rankOne (c : ℝ) (Q N : Fin 4 → ℝ) : Mat4 := c • 1 - Matrix.of fun i j => Q i * N j

theorem rankOne_mulVec (c : ℝ) (Q N x : Fin 4 → ℝ) : rankOne c Q N *ᵥ x = c • x - dotp N x • Q := by
  unfold rankOne
  rw [Matrix.sub_mulVec, Matrix.smul_mulVec, Matrix.one_mulVec]
  congr 1
  funext i
  simp [Matrix.mulVec, dotProduct, Fin.sum_univ_four, dotp]
  ring

theorem rankOne_sq (c : ℝ) (Q N : Fin 4 → ℝ) : rankOne c Q N * rankOne c Q N =
    (c + (c - dotp N Q)) • rankOne c Q N - (c * (c - dotp N Q)) • 1 := by
  have e : (Matrix.of fun i j => Q i * N j : Mat4) * (Matrix.of fun i j => Q i * N j) =
      dotp N Q • (Matrix.of fun i j => Q i * N j : Mat4) := by
    ext i j
    simp [Matrix.mul_apply, Fin.sum_univ_four, dotp]
    ring
  unfold rankOne
  rw [Matrix.sub_mul, Matrix.mul_sub, Matrix.mul_sub, Matrix.smul_mul, Matrix.smul_mul, Matrix.mul_smul, Matrix.mul_smul, e, one_mul,
    one_mul, mul_one]
  module

/-- The center of the projection, moved along the normal for pseudo projections. -/
def center (perspective n : P3) (pseudo : Bool) : Fin 4 → ℝ :=
  if pseudo then hom (perspective + n) else hom perspective

/-- The numbers of the plane. -/
def plane (point n : P3) : Fin 4 → ℝ := ![n 0, n 1, n 2, -dot3 point n]

theorem perspective_eq {point normal perspective : P3} {pseudo : Bool} {M : Mat4}
    (h : perspectiveMatrix point normal perspective pseudo = some M) : ∃ n, unit3 normal = some n ∧
      M = rankOne (dot3 (perspective - point) n) (center perspective n pseudo) (plane point n) := by
  unfold perspectiveMatrix at h
  obtain ⟨n, hn, h⟩ := Option.bind_eq_some_iff.1 h
  refine ⟨n, hn, ?_⟩
  rw [← Option.some.inj h]
  cases pseudo
  · ext i j
    fin_cases i <;> fin_cases j <;> simp [rankOne, center, plane, hom, outer, dot3, Matrix.vecHead, Matrix.vecTail] <;> ring
  · ext i j
    fin_cases i <;> fin_cases j <;> simp [rankOne, center, plane, hom, outer, dot3, Matrix.vecHead, Matrix.vecTail] <;> ring

theorem plane_center (point perspective : P3) {n : P3} (hn : dot3 n n = 1) (pseudo : Bool) :
    dotp (plane point n) (center perspective n pseudo) = dot3 (perspective - point) n + if pseudo then 1 else 0 := by
  unfold dot3 at hn
  cases pseudo
  · simp [dotp, plane, center, hom, dot3]
    ring
  · simp [dotp, plane, center, hom, dot3]
    linear_combination hn

/-- The numbers which the perspective branch gives, from a point which is found. -/
theorem perspectiveFromMatrix_of {c : ℝ} {point n perspective : P3} {pseudo : Bool} {eig4 : Eig 4} {M : Mat4}
    (hM : M = rankOne c (center perspective n pseudo) (plane point n)) {k : Fin 4}
    (hk : ((List.finRange 4).filter fun k => |((eig4 M).1 k).re| > 1 / 10 ^ 8).getLast? = some k) :
    perspectiveFromMatrix eig4 M pseudo = .ok ((overLast (realColumn (eig4 M).2 k)).bind fun p =>
      if dot3 (first3 p) n = 0 then none
      else some ⟨p, n, none, some fun i => dot3 point n / dot3 (first3 p) n * center perspective n pseudo i.castSucc -
        (if pseudo then n i else 0), pseudo⟩) := by
  have hnorm : (![-M 3 0, -M 3 1, -M 3 2] : P3) = n := by
    funext i
    rw [hM]
    cases pseudo <;> fin_cases i <;> simp [rankOne, center, plane, hom]
  have hcol : ∀ i : Fin 3, M i.castSucc 3 = dot3 point n * center perspective n pseudo i.castSucc := by
    intro i
    rw [hM]
    cases pseudo <;> fin_cases i <;> simp [rankOne, plane] <;> ring
  unfold perspectiveFromMatrix
  rw [hk]
  change Except.ok _ = _
  congr 1
  refine Option.bind_congr fun p _ => ?_
  simp only [hnorm]
  have c0 : M 0 3 = _ := hcol 0
  have c1 : M 1 3 = _ := hcol 1
  have c2 : M 2 3 = _ := hcol 2
  rw [c0, c1, c2]
  split_ifs with h1 h2
  · rfl
  · simp only [Option.pure_def]
    congr 3
    funext i
    fin_cases i <;> simp <;> ring
  · simp only [Option.pure_def]
    congr 3
    funext i
    fin_cases i <;> simp <;> ring

theorem getLast?_filter_three (q : Fin 4 → Bool) (h : q 3 = true) : ((List.finRange 4).filter q).getLast? = some 3 := by
  have e : List.finRange 4 = [0, 1, 2] ++ [3] := by decide
  rw [e, List.filter_append, show List.filter q [3] = [3] by simp [h], List.getLast?_append]
  rfl

/-- C160: `projection_from_matrix` of a perspective projection. The depth of the perspective point is to be at least `1e-8`; for
true projections it differs from one by at least `1e-8`; for pseudo projections the last eigenvalue which the
library gives is not minus one. Then there is no exception, the normal and the perspective point are found,
`projection_matrix` of the result is the matrix; there are no numbers only when the origin is on the plane or when an
eigenvector has a null weight. -/
theorem C160_perspective {point normal perspective n : P3} {pseudo : Bool} {M : Mat4} (hn : unit3 normal = some n)
    (hM : projectionMatrix point normal none (some perspective) pseudo = some M) {eig3 : Eig 3} {eig4 : Eig 4}
    (h4 : IsEigC M (eig4 M).1 (eig4 M).2) (hc : 1 / 10 ^ 8 < |dot3 (perspective - point) n|)
    (htrue : pseudo = false → 1 / 10 ^ 8 ≤ |dot3 (perspective - point) n - 1|)
    (hpseudo : pseudo = true → (eig4 M).1 3 ≠ -1) :
    ∃ o, projectionFromMatrix eig3 eig4 M pseudo = .ok o ∧
      (∀ r, o = some r → r.point 3 = 1 ∧ OnPlane point n (first3 r.point) ∧ r.normal = n ∧ r.direction = none ∧
        r.perspective = some perspective ∧ r.pseudo = pseudo ∧
        projectionMatrix (first3 r.point) r.normal r.direction r.perspective r.pseudo = some M) ∧
      (o = none → dot3 point n = 0 ∨ Weightless (eig4 M) (dot3 (perspective - point) n)) := by
  have hn1 := unit3_one hn
  obtain ⟨n', hn', heq⟩ := perspective_eq hM
  rw [hn] at hn'
  obtain rfl := Option.some.inj hn'
  set c := dot3 (perspective - point) n with hcd
  set Q := center perspective n pseudo with hQ
  set N := plane point n with hN
  have hNQ : dotp N Q = c + if pseudo then 1 else 0 := plane_center point perspective hn1 pseudo
  have hQ3 : Q 3 = 1 := by rw [hQ]; cases pseudo <;> rfl
  have hsq := rankOne_sq c Q N
  rw [← heq, hNQ] at hsq
  have heig : ∀ k, (eig4 M).1 k = c ∨ (eig4 M).1 k = ((c - (c + if pseudo then 1 else 0) : ℝ) : ℂ) := fun k =>
    eig_two hsq (h4.ne_zero k) (h4.vector k)
  -- the eigenvector which is used
  have hpick : ∃ k, ((List.finRange 4).filter fun k => |((eig4 M).1 k).re| > 1 / 10 ^ 8).getLast? = some k ∧
      (eig4 M).1 k = c := by
    cases hp : pseudo with
    | true =>
      have h3 : (eig4 M).1 3 = c := by
        refine (heig 3).resolve_right fun h => hpseudo hp (h.trans ?_)
        rw [hp]
        simp
      refine ⟨3, getLast?_filter_three _ ?_, h3⟩
      rw [h3, Complex.ofReal_re]
      exact decide_eq_true hc
    | false =>
      obtain ⟨j, hj⟩ := h4.all (hom (dot3 point n • n)) c (fun h => by simpa [hom] using congrFun h 3) (by
        rw [heq, rankOne_mulVec]
        have : dotp N (hom (dot3 point n • n)) = 0 := by
          unfold dot3 at hn1
          simp [hN, dotp, plane, hom]
          linear_combination dot3 point n * hn1
        rw [this, zero_smul, sub_zero])
      have hm : j ∈ (List.finRange 4).filter fun k => |((eig4 M).1 k).re| > 1 / 10 ^ 8 := by
        rw [List.mem_filter]
        refine ⟨List.mem_finRange _, ?_⟩
        rw [hj, Complex.ofReal_re]
        exact decide_eq_true hc
      cases e : ((List.finRange 4).filter fun k => |((eig4 M).1 k).re| > 1 / 10 ^ 8).getLast? with
      | none => rw [List.getLast?_eq_none_iff.1 e] at hm; exact absurd hm List.not_mem_nil
      | some k =>
        refine ⟨k, rfl, (heig k).resolve_right fun h => ?_⟩
        have := (List.mem_filter.1 (List.mem_of_getLast? e)).2
        rw [h, hp] at this
        norm_num at this
  obtain ⟨k, hk, hl⟩ := hpick
  have hbranch : projectionFromMatrix eig3 eig4 M pseudo = perspectiveFromMatrix eig4 M pseudo := by
    unfold projectionFromMatrix
    cases hp : pseudo with
    | true => rfl
    | false =>
      have : (near (eig4 M).1 1 (1 / 10 ^ 8)).getLast? = none := by
        rw [List.getLast?_eq_none_iff, List.eq_nil_iff_forall_not_mem]
        intro k hk
        rw [mem_near] at hk
        rcases heig k with h | h
        · rw [h, Complex.ofReal_re] at hk
          exact absurd hk (not_lt.2 (htrue hp))
        · rw [h, hp] at hk
          norm_num at hk
      rw [this]
  obtain ⟨hr, hu, hV⟩ := h4.re hl
  set x := realColumn (eig4 M).2 k with hx
  have hplane : dotp N x = 0 := by
    rw [heq, rankOne_mulVec] at hr
    have := congrFun hr 3
    simp only [Pi.sub_apply, Pi.smul_apply, smul_eq_mul, hQ3] at this
    linarith
  have hpt : ∀ p, overLast x = some p → p 3 = 1 ∧ dot3 (first3 p) n = dot3 point n := by
    intro p hp
    unfold overLast at hp
    split_ifs at hp with h3
    obtain rfl := Option.some.inj hp
    refine ⟨div_self h3, ?_⟩
    simp [dotp, hN, plane] at hplane
    simp only [dot3, first3, Matrix.cons_val_zero, Matrix.cons_val_one, Matrix.cons_val] at hplane ⊢
    field_simp
    linarith
  refine ⟨_, hbranch.trans (perspectiveFromMatrix_of heq hk), ?_, ?_⟩
  · intro r hr
    obtain ⟨p, hp, hr⟩ := Option.bind_eq_some_iff.1 hr
    obtain ⟨h1, h2⟩ := hpt p hp
    rw [h2] at hr
    by_cases h0 : dot3 point n = 0
    · rw [if_pos h0] at hr
      cases hr
    rw [if_neg h0] at hr
    obtain rfl := Option.some.inj hr
    have hper : (fun i : Fin 3 => dot3 point n / dot3 point n * Q i.castSucc - (if pseudo then n i else 0)) = perspective := by
      funext i
      rw [div_self h0, hQ]
      cases pseudo <;> fin_cases i <;> simp [center, hom]
    refine ⟨h1, ?_, rfl, rfl, ?_, rfl, ?_⟩
    · unfold OnPlane
      rw [dot3_sub, h2, sub_self]
    · exact congrArg some hper
    · have hper' := congrArg (fun w => projectionMatrix (first3 p) n none (some w) pseudo) hper
      refine hper'.trans ?_
      unfold projectionMatrix at hM ⊢
      simp only [] at hM ⊢
      rw [← hM]
      unfold perspectiveMatrix
      rw [hn, unit3_of_one hn1]
      have e : dot3 (fun i => perspective i - first3 p i) n = dot3 (fun i => perspective i - point i) n := by
        have e1 : dot3 (perspective - first3 p) n = dot3 (perspective - point) n := by rw [dot3_sub, dot3_sub, h2]
        exact e1
      simp only [Option.bind_eq_bind, Option.bind_some, e, h2]
  · intro hno
    rw [Option.bind_eq_none_iff] at hno
    by_cases h0 : dot3 point n = 0
    · exact .inl h0
    · right
      refine ⟨k, hl, fun j hj h1 => absurd hj (not_lt.2 (le_last hk (decide_eq_true ?_))), ?_⟩
      · rw [h1, Complex.ofReal_re]
        exact hc
      cases ho : overLast x with
      | some p =>
        have := hno p ho
        rw [(hpt p ho).2, if_neg h0] at this
        cases this
      | none =>
        unfold overLast at ho
        split_ifs at ho with h3
        rw [hV, h3, Complex.ofReal_zero]

/-- C160: a perspective point at the depth one (to `1e-8`), for a plane which is not near the origin: the projection is
mistaken for a parallel one, and `ValueError` is raised. -/
theorem C160_depth_one {point normal perspective n : P3} {M : Mat4} (hn : unit3 normal = some n)
    (hM : projectionMatrix point normal none (some perspective) false = some M) {eig3 : Eig 3} {eig4 : Eig 4}
    (h3 : IsEigC (block M) (eig3 (block M)).1 (eig3 (block M)).2) (h4 : IsEigC M (eig4 M).1 (eig4 M).2)
    (hc : |dot3 (perspective - point) n - 1| < 1 / 10 ^ 8) (ho : 1 / 10 ^ 8 ≤ |dot3 point n|) :
    projectionFromMatrix eig3 eig4 M false = .error .valueError := by
  change IsEigC (linear M) (eig3 (linear M)).1 (eig3 (linear M)).2 at h3
  have hn1 := unit3_one hn
  obtain ⟨n', hn', heq⟩ := perspective_eq hM
  rw [hn] at hn'
  obtain rfl := Option.some.inj hn'
  set c := dot3 (perspective - point) n with hcd
  have hlin : linear M = c • 1 - outer perspective n := by
    rw [heq]
    ext i j
    fin_cases i <;> fin_cases j <;> simp [linear, rankOne, center, hom, plane, outer]
  have hsq : linear M * linear M = (c + (c - dot3 n perspective)) • linear M - (c * (c - dot3 n perspective)) • 1 := by
    rw [hlin, Matrix.sub_mul, Matrix.mul_sub, Matrix.mul_sub, Matrix.smul_mul, Matrix.smul_mul, Matrix.mul_smul, Matrix.mul_smul, outer_sq,
      one_mul, one_mul, mul_one]
    module
  have hcp : c - dot3 n perspective = -dot3 point n := by
    rw [hcd, dot3_sub, dot3_comm n perspective]
    ring
  have hnear : (near (eig3 (linear M)).1 0 (1 / 10 ^ 8)).head? = none := by
    rw [List.head?_eq_none_iff, List.eq_nil_iff_forall_not_mem]
    intro k hk
    rw [mem_near, sub_zero] at hk
    rcases eig_two hsq (h3.ne_zero k) (h3.vector k) with h | h
    · rw [h, Complex.ofReal_re] at hk
      have h1 := abs_lt.1 hc
      have h2 := abs_lt.1 hk
      norm_num at h1 h2
      linarith
    · rw [h, Complex.ofReal_re, hcp, abs_neg] at hk
      exact absurd hk (not_lt.2 ho)
  obtain ⟨j, hj⟩ := h4.all (hom (dot3 point n • n)) c (fun h => by simpa [hom] using congrFun h 3) (by
    rw [heq, rankOne_mulVec]
    have : dotp (plane point n) (hom (dot3 point n • n)) = 0 := by
      unfold dot3 at hn1
      simp [dotp, plane, hom]
      linear_combination dot3 point n * hn1
    rw [this, zero_smul, sub_zero])
  have hm : j ∈ near (eig4 M).1 1 (1 / 10 ^ 8) := by
    rw [mem_near, hj, Complex.ofReal_re]
    exact hc
  unfold projectionFromMatrix
  cases e : (near (eig4 M).1 1 (1 / 10 ^ 8)).getLast? with
  | none => rw [List.getLast?_eq_none_iff.1 e] at hm; exact absurd hm List.not_mem_nil
  | some k =>
    simp only []
    unfold parallelFromMatrix
    rw [hnear]
    rfl

/-- C160: for a pseudo projection, when the last eigenvalue which the library gives is minus one, the point of the
result is not on the plane. -/
theorem C160_misplaced {point normal perspective n : P3} {M : Mat4} (hn : unit3 normal = some n)
    (hM : projectionMatrix point normal none (some perspective) true = some M) {eig3 : Eig 3} {eig4 : Eig 4}
    (h4 : IsEigC M (eig4 M).1 (eig4 M).2) (hc : dot3 (perspective - point) n ≠ -1) (hlast : (eig4 M).1 3 = -1) {r : Projection}
    (hr : projectionFromMatrix eig3 eig4 M true = .ok (some r)) :
    first3 r.point = perspective + n ∧ ¬OnPlane point n (first3 r.point) := by
  have hn1 := unit3_one hn
  obtain ⟨n', hn', heq⟩ := perspective_eq hM
  rw [hn] at hn'
  obtain rfl := Option.some.inj hn'
  have hk : ((List.finRange 4).filter fun k => |((eig4 M).1 k).re| > 1 / 10 ^ 8).getLast? = some 3 := by
    refine getLast?_filter_three _ ?_
    rw [hlast]
    norm_num
  have hb : projectionFromMatrix eig3 eig4 M true = perspectiveFromMatrix eig4 M true := rfl
  rw [hb, perspectiveFromMatrix_of heq hk] at hr
  obtain ⟨p, hp, hr⟩ := Option.bind_eq_some_iff.1 (Except.ok.inj hr)
  by_cases h0 : dot3 (first3 p) n = 0
  · rw [if_pos h0] at hr
    cases hr
  rw [if_neg h0] at hr
  obtain rfl := Option.some.inj hr
  obtain ⟨hx, hu, -⟩ := h4.re (k := 3) (x := -1) (by rw [hlast]; push_cast; rfl)
  have hpoint : first3 p = perspective + n := by
    unfold overLast at hp
    split_ifs at hp with h3
    obtain rfl := Option.some.inj hp
    set x := realColumn (eig4 M).2 3
    rw [heq, rankOne_mulVec] at hx
    set s := dotp (plane point n) x
    have e3 := congrFun hx 3
    simp [center, hom] at e3
    have h1 : dot3 (perspective - point) n + 1 ≠ 0 := fun h => hc (by linarith)
    have e : ∀ i : Fin 3, x i.castSucc / x 3 = perspective i + n i := by
      intro i
      have ei := congrFun hx i.castSucc
      have hci : center perspective n true i.castSucc = perspective i + n i := by
        fin_cases i <;> simp [center, hom]
      simp only [Pi.sub_apply, Pi.smul_apply, smul_eq_mul, hci] at ei
      rw [div_eq_iff h3]
      apply mul_left_cancel₀ h1
      linear_combination ei - (perspective i + n i) * e3
    funext i
    fin_cases i
    · exact e 0
    · exact e 1
    · exact e 2
  refine ⟨hpoint, ?_⟩
  unfold OnPlane
  rw [hpoint, dot3_sub, dot3_add, hn1]
  rw [dot3_sub] at hc
  intro h
  exact hc (by linarith)

/-! ## Shears -/

theorem longer_spec {best : P3 × ℝ} {u v : P3} (h : best.2 = norm3 best.1) :
    (longer best u v).2 = norm3 (longer best u v).1 ∧ (longer best u v = best ∨ (longer best u v).1 = cross u v) ∧
      best.2 ≤ (longer best u v).2 ∧ norm3 (cross u v) ≤ (longer best u v).2 := by
  unfold longer
  split_ifs with h1
  · exact ⟨rfl, .inr rfl, h1.le, le_rfl⟩
  · exact ⟨h, .inl rfl, le_rfl, not_lt.1 h1⟩

theorem longer_first (u v : P3) : longer (0, -1) u v = (cross u v, norm3 (cross u v)) := by
  unfold longer
  rw [if_pos]
  have : 0 ≤ norm3 (cross u v) := Real.sqrt_nonneg _
  simp only
  linarith

theorem longest_spec (a b c : P3) : ∃ best, longest [a, b, c] = .ok best ∧ best.2 = norm3 best.1 ∧
    (best.1 = cross a b ∨ best.1 = cross a c ∨ best.1 = cross b c) ∧ norm3 (cross a b) ≤ best.2 ∧ norm3 (cross a c) ≤ best.2 ∧
    norm3 (cross b c) ≤ best.2 := by
  refine ⟨_, rfl, ?_⟩
  rw [longer_first]
  obtain ⟨p1, p2, p3, p4⟩ := longer_spec (best := (cross a b, norm3 (cross a b))) (u := a) (v := c) rfl
  obtain ⟨q1, q2, q3, q4⟩ := longer_spec (best := longer (cross a b, norm3 (cross a b)) a c) (u := b) (v := c) p1
  refine ⟨q1, ?_, p3.trans q3, p4.trans q3, q4⟩
  rcases q2 with q2 | q2
  · rw [q2]
    rcases p2 with p2 | p2
    · rw [p2]
      exact .inl rfl
    · exact .inr (.inl p2)
  · exact .inr (.inr q2)

theorem cross_of_orthogonal {n u v : P3} (hn : dot3 n n = 1) (hu : dot3 n u = 0) (hv : dot3 n v = 0) :
    cross u v = dot3 (cross u v) n • n := by
  have h := cross_cross hn (cross u v)
  have h0 : cross n (cross u v) = 0 := by
    unfold dot3 at hu hv
    funext i
    fin_cases i <;> simp [cross]
    · linear_combination u 0 * hv - v 0 * hu
    · linear_combination u 1 * hv - v 1 * hu
    · linear_combination u 2 * hv - v 2 * hu
  rw [h0] at h
  have h1 : cross n 0 = 0 := by
    funext i
    fin_cases i <;> simp [cross]
  rw [h1] at h
  exact (sub_eq_zero.1 h.symm).symm

/-- C161: `shear_from_matrix` of a shear along a direction which is orthogonal to the normal raises no exception, and
`shear_matrix` of the numbers it gives, of which the angle is in ]0, π / 2[, is the matrix. There are no numbers only for
a null shear, when the library gave three parallel eigenvectors, or when the last eigenvector of eigenvalue one has a
null weight. -/
theorem C161_shear {angle : ℝ} {direction point normal : P3} {M : Mat4}
    (hM : shearMatrix angle direction point normal = .ok (some M)) (horth : dot3 normal direction = 0) {eig3 : Eig 3}
    {eig4 : Eig 4} (h3 : IsEigC (block M) (eig3 (block M)).1 (eig3 (block M)).2) (h4 : IsEigC M (eig4 M).1 (eig4 M).2) :
    ∃ o, shearFromMatrix eig3 eig4 M = .ok o ∧
      (∀ a d p n, o = some (a, d, p, n) → 0 < a ∧ a < π / 2 ∧ dot3 d d = 1 ∧ dot3 n n = 1 ∧ p 3 = 1 ∧
        shearMatrix a d (first3 p) n = .ok (some M)) ∧
      (o = none → tan angle = 0 ∨ Weightless (eig4 M) 1 ∨
        ∀ i j, cross (realColumn (eig3 (block M)).2 i) (realColumn (eig3 (block M)).2 j) = 0) := by
  change IsEigC (linear M) (eig3 (linear M)).1 (eig3 (linear M)).2 at h3
  change ∃ o, _ ∧ _ ∧ (_ → _ ∨ _ ∨ ∀ i j, cross (realColumn (eig3 (linear M)).2 i) (realColumn (eig3 (linear M)).2 j) = 0)
  unfold shearMatrix at hM
  cases hn : unit3 normal with
  | none => rw [hn] at hM; simp at hM
  | some n =>
  cases hd : unit3 direction with
  | none => rw [hn, hd] at hM; simp at hM
  | some d =>
  have hn1 := unit3_one hn
  have hd1 := unit3_one hd
  have hnd : dot3 n d = 0 := by
    obtain ⟨u, hu, -, s, hs, he, -⟩ := (unit3_spec normal).2 (fun h => by rw [(unit3_spec normal).1 h] at hn; cases hn)
    rw [hn] at hu
    obtain rfl := Option.some.inj hu
    obtain ⟨w, hw, -, s', hs', he', -⟩ := (unit3_spec direction).2 (fun h => by
      rw [(unit3_spec direction).1 h] at hd; cases hd)
    rw [hd] at hw
    obtain rfl := Option.some.inj hw
    rw [he, he', dot3_smul, dot3_smul'] at horth
    have h1 := (mul_eq_zero.1 horth).resolve_left hs.ne'
    exact (mul_eq_zero.1 h1).resolve_left hs'.ne'
  rw [hn, hd] at hM
  simp only [hnd, abs_zero] at hM
  rw [if_neg (by norm_num)] at hM
  have hM := (Option.some.inj (Except.ok.inj hM)).symm
  subst hM
  set a := tan angle with ha
  set A : Mat3 := 1 + a • outer d n with hA
  set t : P3 := fun i => -a * dot3 point n * d i with ht
  rw [linear_affine] at h3 ⊢
  have hAv : ∀ x, A *ᵥ x = x + (a * dot3 n x) • d := by
    intro x
    rw [hA, Matrix.add_mulVec, Matrix.smul_mulVec, Matrix.one_mulVec, outer_mulVec, smul_smul]
  have hsq : A * A = ((1 : ℝ) + 1) • A - ((1 : ℝ) * 1) • 1 := by
    have e := outer_sq d n
    rw [hnd, zero_smul] at e
    rw [hA, Matrix.add_mul, Matrix.mul_add, Matrix.mul_add, Matrix.smul_mul, Matrix.smul_mul, Matrix.mul_smul, Matrix.mul_smul, e, one_mul,
      one_mul, mul_one]
    module
  have heig : ∀ k, (eig3 A).1 k = (1 : ℝ) := fun k => by
    rcases eig_two hsq (h3.ne_zero k) (h3.vector k) with h | h <;> exact h
  have hone : OnlyOne A := by
    intro μ v hv h _
    rcases eig_two hsq hv h with h | h <;> rw [h, Complex.ofReal_one]
  obtain ⟨o, ho, hp, hnone⟩ := fixedPoint_spec h4 hone
  have hnear : near (eig3 A).1 1 (1 / 10 ^ 4) = [0, 1, 2] := by
    unfold near
    rw [List.filter_eq_self.2 (fun k _ => by rw [heig]; norm_num)]
    decide
  obtain ⟨best, hbest, hb2, hb1, hl1, hl2, hl3⟩ := longest_spec (realColumn (eig3 A).2 0) (realColumn (eig3 A).2 1)
    (realColumn (eig3 A).2 2)
  have hcol : a ≠ 0 → ∀ k, dot3 n (realColumn (eig3 A).2 k) = 0 := by
    intro ha0 k
    obtain ⟨hr, -, -⟩ := h3.re (heig k)
    rw [hAv, one_smul] at hr
    have h0 : (a * dot3 n (realColumn (eig3 A).2 k)) • d = 0 := by
      have := congrArg (fun w => w - realColumn (eig3 A).2 k) hr
      simpa using this
    have h1 := congrArg (fun w => dot3 w d) h0
    simp only [dot3_smul, hd1, mul_one] at h1
    have h2 : dot3 (0 : P3) d = 0 := by simp [dot3]
    rw [h2] at h1
    exact (mul_eq_zero.1 h1).resolve_left ha0
  have hbestn : a ≠ 0 → ∃ s : ℝ, best.1 = s • n := by
    intro ha0
    rcases hb1 with h | h | h <;>
    · rw [h]
      exact ⟨_, cross_of_orthogonal hn1 (hcol ha0 _) (hcol ha0 _)⟩
  have hnorm0 : ∀ v : P3, norm3 v ≤ 0 → v = 0 := by
    intro v hv
    unfold norm3 at hv
    have := Real.sqrt_eq_zero'.1 (le_antisymm hv (Real.sqrt_nonneg _))
    exact dot3_self_eq_zero.1 (le_antisymm this (dot3_self_nonneg v))
  -- the result, from the point and the longest product
  have hres : shearFromMatrix eig3 eig4 (affine A t) = .ok (o.bind fun p => if best.2 = 0 then none else
      (unit3 ((A - 1) *ᵥ fun i => best.1 i / best.2)).bind fun d' =>
        some (arctan (norm3 ((A - 1) *ᵥ fun i => best.1 i / best.2)), d', p, fun i => best.1 i / best.2)) := by
    unfold shearFromMatrix
    rw [linear_affine, hnear]
    simp only [List.map_cons, List.map_nil]
    rw [hbest, ho]
    rfl
  refine ⟨_, hres, ?_, ?_⟩
  · intro a' d' p n' hr
    obtain ⟨q, hq, hr⟩ := Option.bind_eq_some_iff.1 hr
    split_ifs at hr with hb0
    obtain ⟨w, hw, hr⟩ := Option.bind_eq_some_iff.1 hr
    simp only [Option.some.injEq, Prod.mk.injEq] at hr
    obtain ⟨rfl, rfl, rfl, rfl⟩ := hr
    obtain ⟨h1, hfix⟩ := hp q hq
    set m : P3 := fun i => best.1 i / best.2 with hm
    have hw1 := unit3_one hw
    have hdir : (A - 1) *ᵥ m = (a * dot3 n m) • d := by
      rw [Matrix.sub_mulVec, Matrix.one_mulVec, hAv, add_sub_cancel_left]
    have ha0 : a ≠ 0 := by
      intro h0
      rw [hdir, h0, zero_mul, zero_smul, (unit3_spec 0).1 rfl] at hw
      cases hw
    obtain ⟨s, hs⟩ := hbestn ha0
    have hm1 : dot3 m m = 1 := by
      have e : m = (1 / best.2) • best.1 := by
        funext i
        simp [hm]
        ring
      have hsq : best.2 * best.2 = dot3 best.1 best.1 := by
        rw [hb2]
        exact Real.mul_self_sqrt (dot3_self_nonneg _)
      rw [e, dot3_smul, dot3_smul', ← hsq]
      field_simp
    obtain ⟨σ, hσ⟩ : ∃ σ : ℝ, m = σ • n := by
      refine ⟨s / best.2, ?_⟩
      funext i
      have := congrFun hs i
      simp [hm] at this ⊢
      rw [this]
      ring
    have hσσ := unit_parallel hn1 hm1 hσ
    have hnm : dot3 n m = σ := by rw [hσ, dot3_smul', hn1, mul_one]
    rw [hnm] at hdir
    obtain ⟨u, hu, hu1, r, hr0, hru, hrr⟩ := (unit3_spec ((A - 1) *ᵥ m)).2 (fun h => by
      rw [h, (unit3_spec 0).1 rfl] at hw; cases hw)
    rw [hw] at hu
    obtain rfl := Option.some.inj hu
    have hnr : norm3 ((A - 1) *ᵥ m) = r := by
      unfold norm3
      rw [← hrr, Real.sqrt_sq hr0.le]
    have hrw : ∀ i, r * w i = a * σ * d i := by
      intro i
      have := congrFun (hru.symm.trans hdir) i
      simpa using this
    have htan : tan (arctan r) = r := Real.tan_arctan r
    rw [hnr]
    refine ⟨Real.arctan_pos.2 hr0, Real.arctan_lt_pi_div_two r, hw1, hm1, h1, ?_⟩
    have hmw : dot3 m w = 0 := by
      have : r * dot3 m w = 0 := by
        rw [← dot3_smul', ← hru, hdir, dot3_smul', hσ, dot3_smul, hnd]
        ring
      exact (mul_eq_zero.1 this).resolve_left hr0.ne'
    unfold shearMatrix
    rw [unit3_of_one hm1, unit3_of_one hw1]
    simp only [hmw, abs_zero, htan]
    rw [if_neg (by norm_num)]
    have hAeq : 1 + r • outer w m = A := by
      rw [hA]
      congr 1
      ext i j
      have hi := hrw i
      have hj := congrFun hσ j
      simp only [Pi.smul_apply, smul_eq_mul] at hj
      simp only [Matrix.smul_apply, outer, Matrix.of_apply, smul_eq_mul]
      rw [hj]
      linear_combination σ * n j * hi + a * d i * n j * hσσ
    rw [hAeq]
    congr 3
    funext i
    have hi := congrFun hfix i
    rw [hAv] at hi
    simp only [Pi.add_apply, Pi.smul_apply, smul_eq_mul] at hi
    have hpm : dot3 (first3 q) m = σ * dot3 n (first3 q) := by rw [hσ, dot3_smul', dot3_comm]
    rw [hpm]
    linear_combination -(σ * dot3 n (first3 q)) * hrw i - a * d i * dot3 n (first3 q) * hσσ - hi
  · intro hno
    rw [Option.bind_eq_none_iff] at hno
    cases hoc : o with
    | none => exact .inr (.inl (hnone hoc))
    | some q =>
      have h1 := hno q hoc
      by_cases ha0 : a = 0
      · exact .inl ha0
      · right
        right
        split_ifs at h1 with hb0
        · have c01 := hnorm0 _ (hl1.trans hb0.le)
          have c02 := hnorm0 _ (hl2.trans hb0.le)
          have c12 := hnorm0 _ (hl3.trans hb0.le)
          have hanti : ∀ u v : P3, cross u v = 0 → cross v u = 0 := by
            intro u v h
            have x0 := congrFun h 0
            have x1 := congrFun h 1
            have x2 := congrFun h 2
            simp [cross] at x0 x1 x2
            funext i
            fin_cases i <;> simp [cross] <;> linarith
          intro i j
          fin_cases i <;> fin_cases j
          · exact cross_self _
          · exact c01
          · exact c02
          · exact hanti _ _ c01
          · exact cross_self _
          · exact c12
          · exact hanti _ _ c02
          · exact hanti _ _ c12
          · exact cross_self _
        · exfalso
          rw [Option.bind_eq_none_iff] at h1
          cases hu : unit3 ((A - 1) *ᵥ fun i => best.1 i / best.2) with
          | some w => cases h1 w hu
          | none =>
            have hz : (A - 1) *ᵥ (fun i => best.1 i / best.2) = 0 := by
              by_contra hne
              obtain ⟨u, hu', -⟩ := (unit3_spec _).2 hne
              rw [hu] at hu'
              cases hu'
            rw [Matrix.sub_mulVec, Matrix.one_mulVec, hAv, add_sub_cancel_left] at hz
            have h2 := congrArg (fun w => dot3 w d) hz
            simp only [dot3_smul, hd1, mul_one] at h2
            have h3' : dot3 (0 : P3) d = 0 := by simp [dot3]
            rw [h3'] at h2
            have h4' := (mul_eq_zero.1 h2).resolve_left ha0
            obtain ⟨s, hs⟩ := hbestn ha0
            have e : (fun i => best.1 i / best.2) = (s / best.2) • n := by
              funext i
              have := congrFun hs i
              simp at this ⊢
              rw [this]
              ring
            rw [e, dot3_smul', hn1, mul_one] at h4'
            have hs0 : s = 0 := (div_eq_zero_iff.1 h4').resolve_right hb0
            apply hb0
            rw [hb2, hs, hs0, zero_smul]
            simp [norm3, dot3]

end Verif.Geom
