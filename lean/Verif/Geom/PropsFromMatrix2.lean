import Verif.Geom.PropsFromMatrix

/-!
# `scale_from_matrix`, `projection_from_matrix` and `shear_from_matrix` (C159, C160, C161)
-/

namespace Verif.Geom

open Verif Real Matrix
open Verif.Transf (Mat4 Mat3 Rot3 block)

/-- Eigenvalues of a matrix which a polynomial of degree two annihilates. -/
theorem eig_two {n : ℕ} {A : Matrix (Fin n) (Fin n) ℝ} {a b : ℝ} (hA : A * A = (a + b) • A - (a * b) • 1) {μ : ℂ}
    {v : Fin n → ℂ} (hv : v ≠ 0) (h : A.map Complex.ofReal *ᵥ v = μ • v) : μ = a ∨ μ = b := by
  have h2 := eig_sq h
  have e : ((a + b) • A - (a * b) • (1 : Matrix (Fin n) (Fin n) ℝ)).map Complex.ofReal =
      ((a + b : ℝ) : ℂ) • A.map Complex.ofReal - ((a * b : ℝ) : ℂ) • (1 : Matrix (Fin n) (Fin n) ℂ) := by
    ext i j
    by_cases hij : i = j <;> simp [Matrix.one_apply, hij]
  rw [hA, e, Matrix.sub_mulVec, Matrix.smul_mulVec, Matrix.smul_mulVec, Matrix.one_mulVec, h] at h2
  obtain ⟨i, hi⟩ := Function.ne_iff.1 hv
  have := congrFun h2 i
  simp only [Pi.sub_apply, Pi.smul_apply, smul_eq_mul] at this
  push_cast at this
  have hz : ((μ - a) * (μ - b)) * v i = 0 := by linear_combination -this
  rcases mul_eq_zero.1 hz with hz | hz
  · rcases mul_eq_zero.1 hz with hz | hz
    · exact .inl (sub_eq_zero.1 hz)
    · exact .inr (sub_eq_zero.1 hz)
  · exact absurd hz hi

theorem unit3_one {v u : P3} (h : unit3 v = some u) : dot3 u u = 1 := by
  by_cases h0 : v = 0
  · rw [(unit3_spec v).1 h0] at h
    cases h
  · obtain ⟨w, hw, h1, -⟩ := (unit3_spec v).2 h0
    rw [h] at hw
    obtain rfl := Option.some.inj hw
    exact h1

theorem unit3_ne {v : P3} (h : dot3 v v ≠ 0) : ∃ u, unit3 v = some u ∧ dot3 u u = 1 ∧ ∃ s : ℝ, 0 < s ∧ v = s • u ∧ s ^ 2 = dot3 v v :=
  (unit3_spec v).2 fun h0 => h (by rw [h0]; simp [dot3])

/-! ## Scalings -/

/-- The scaling along a unit vector. -/
def along (f : ℝ) (n : P3) : Mat3 := 1 - (1 - f) • outer n n

theorem outer_sq (u v : P3) : outer u v * outer u v = dot3 v u • outer u v := by
  ext a b
  simp [outer, Matrix.mul_apply, Fin.sum_univ_three, dot3]
  ring

theorem along_sq (f : ℝ) {n : P3} (h : dot3 n n = 1) : along f n * along f n = (f + 1) • along f n - (f * 1) • 1 := by
  have e := outer_sq n n
  rw [h, one_smul] at e
  unfold along
  rw [Matrix.sub_mul, Matrix.mul_sub, Matrix.mul_sub, one_mul, mul_one, Matrix.mul_smul, Matrix.mul_smul, Matrix.smul_mul, e, one_mul]
  module

theorem along_one (n : P3) : along 1 n = 1 := by simp [along]

theorem along_trace (f : ℝ) {n : P3} (h : dot3 n n = 1) : along f n 0 0 + along f n 1 1 + along f n 2 2 - 2 = f := by
  unfold dot3 at h
  simp [along, outer]
  linear_combination (f - 1) * h

theorem onlyOne_two {A : Mat3} {f : ℝ} (hA : A * A = (f + 1) • A - (f * 1) • 1) (hf : f = 1 ∨ 1 / 10 ^ 8 ≤ |f - 1|) :
    OnlyOne A := by
  intro μ v hv h hn
  rcases eig_two hA hv h with h | h
  · rw [h, Complex.ofReal_re] at hn
    rcases hf with hf | hf
    · rw [h, hf, Complex.ofReal_one]
    · exact absurd hn (not_lt.2 hf)
  · rw [h, Complex.ofReal_one]

/-- C159: `scale_from_matrix` of a uniform scaling, by one or by a factor which differs from one by at least `1e-8`: no
exception, and numbers of which `scale_matrix` gives the matrix back; unless the factor is one, they are the
factor, the origin and no direction. -/
theorem C159_uniform (f : ℝ) (hf : f = 1 ∨ 1 / 10 ^ 8 ≤ |f - 1|) (origin : Option P3) {M : Mat4}
    (hM : scaleMatrix f origin none = some M) {eig3 : Eig 3} {eig4 : Eig 4}
    (h3 : IsEigC (block M) (eig3 (block M)).1 (eig3 (block M)).2) (h4 : IsEigC M (eig4 M).1 (eig4 M).2) :
    ∃ o, scaleFromMatrix eig3 eig4 M = .ok o ∧
      (∀ f' p d, o = some (f', p, d) → p 3 = 1 ∧ scaleMatrix f' (some (first3 p)) d = some M) ∧
      (f ≠ 1 → ∃ p, o = some (f, p, none) ∧ first3 p = origin.getD 0) ∧
      (o = none → Weightless (eig4 M) 1) := by
  change IsEigC (linear M) (eig3 (linear M)).1 (eig3 (linear M)).2 at h3
  obtain ⟨t, rfl, ht⟩ : ∃ t, M = affine (f • 1) t ∧ t = (1 - f) • origin.getD 0 := by
    have hA : (!![f, 0, 0; 0, f, 0; 0, 0, f] : Mat3) = f • 1 := by
      ext a b
      fin_cases a <;> fin_cases b <;> simp
    unfold scaleMatrix at hM
    cases origin with
    | none =>
      refine ⟨0, ?_, by simp⟩
      rw [← hA]
      exact (Option.some.inj hM).symm
    | some o =>
      refine ⟨fun i => o i * (1 - f), ?_, ?_⟩
      · rw [← hA]
        exact (Option.some.inj hM).symm
      · funext i
        simp
        ring
  rw [linear_affine] at h3
  have hsq : (f • (1 : Mat3)) * (f • 1) = (f + f) • (f • (1 : Mat3)) - (f * f) • 1 := by
    rw [Matrix.smul_mul, one_mul]
    module
  have heig : ∀ k, (eig3 (f • 1)).1 k = f := fun k => by
    rcases eig_two hsq (h3.ne_zero k) (h3.vector k) with h | h <;> exact h
  have hone : OnlyOne (f • 1 : Mat3) := by
    intro μ v hv h hn
    have : μ = f := by rcases eig_two hsq hv h with h | h <;> exact h
    rcases hf with hf | hf
    · rw [this, hf, Complex.ofReal_one]
    · rw [this, Complex.ofReal_re] at hn
      exact absurd hn (not_lt.2 hf)
  obtain ⟨o, ho, hp, hnone⟩ := fixedPoint_spec h4 hone
  have hfac : affine (f • (1 : Mat3)) t 0 0 + affine (f • (1 : Mat3)) t 1 1 + affine (f • (1 : Mat3)) t 2 2 - 2 = 3 * f - 2 := by
    simp [affine]
    ring
  by_cases h1 : f = 1
  · subst h1
    have hk : ∃ k, (near (eig3 ((1 : ℝ) • (1 : Mat3))).1 (3 * 1 - 2) (1 / 10 ^ 8)).head? = some k := by
      have hm : (0 : Fin 3) ∈ near (eig3 ((1 : ℝ) • (1 : Mat3))).1 (3 * 1 - 2) (1 / 10 ^ 8) := by
        rw [mem_near, heig]
        norm_num
      cases e : (near (eig3 ((1 : ℝ) • (1 : Mat3))).1 (3 * 1 - 2) (1 / 10 ^ 8)).head? with
      | none => rw [List.head?_eq_none_iff.1 e] at hm; exact absurd hm List.not_mem_nil
      | some k => exact ⟨k, rfl⟩
    obtain ⟨k, hk⟩ := hk
    obtain ⟨-, hu, -⟩ := h3.re (heig k)
    rw [← dot3_realColumn] at hu
    have hparts : scaleParts eig3 (affine ((1 : ℝ) • 1) t) = some (1, some (realColumn (eig3 ((1 : ℝ) • 1)).2 k)) := by
      unfold scaleParts
      simp only [hfac, linear_affine, hk, unit3_of_one hu, Option.map_some]
      norm_num
    refine ⟨o.map fun p => (1, p, some (realColumn (eig3 ((1 : ℝ) • 1)).2 k)), ?_, ?_, fun h => absurd rfl h, ?_⟩
    · unfold scaleFromMatrix
      rw [ho, hparts]
      cases o <;> rfl
    · intro f' p d hpq
      obtain ⟨p', hp', heq⟩ := Option.map_eq_some_iff.1 hpq
      simp only [Prod.mk.injEq] at heq
      obtain ⟨rfl, rfl, rfl⟩ := heq
      refine ⟨(hp p' hp').1, ?_⟩
      unfold scaleMatrix
      simp only [unit3_of_one hu, Option.bind_eq_bind, Option.bind_some, Option.pure_def]
      congr 2
      · simp
      · rw [ht]
        funext i
        simp
    · intro hno
      exact hnone (Option.map_eq_none_iff.1 hno)
  · have hf' := hf.resolve_left h1
    have hne : (near (eig3 (f • (1 : Mat3))).1 (3 * f - 2) (1 / 10 ^ 8)).head? = none := by
      rw [List.head?_eq_none_iff, List.eq_nil_iff_forall_not_mem]
      intro k hk
      rw [mem_near, heig, Complex.ofReal_re, show f - (3 * f - 2) = -2 * (f - 1) by ring, abs_mul] at hk
      norm_num at hk hf'
      linarith
    have hparts : scaleParts eig3 (affine (f • 1) t) = some (f, none) := by
      unfold scaleParts
      simp only [hfac, linear_affine, hne]
      congr 2
      ring
    have hpoint : ∀ p, o = some p → first3 p = origin.getD 0 := by
      intro p hpo
      have e := (hp p hpo).2
      rw [Matrix.smul_mulVec, Matrix.one_mulVec, ht] at e
      have h0 : (1 - f) ≠ 0 := sub_ne_zero.2 (Ne.symm h1)
      funext i
      have ei := congrFun e i
      simp only [Pi.add_apply, Pi.smul_apply, smul_eq_mul] at ei
      apply mul_left_cancel₀ h0
      linarith
    have hsome : o ≠ none := by
      intro h0
      obtain ⟨k, hk1, -, hk2⟩ := hnone h0
      have hz := h4.ne_zero k
      have e := h4.vector k
      rw [hk1] at e
      generalize (eig4 (affine (f • (1 : Mat3)) t)).2 = V at e hk2 hz
      apply hz
      have e0 := congrFun e 0
      have e1 := congrFun e 1
      have e2 := congrFun e 2
      simp [affine, Matrix.mulVec, dotProduct, Fin.sum_univ_four, hk2] at e0 e1 e2
      have hfc : (f : ℂ) ≠ 1 := by exact_mod_cast h1
      have key : ∀ z : ℂ, (f : ℂ) * z = z → z = 0 := by
        intro z hz
        have : ((f : ℂ) - 1) * z = 0 := by linear_combination hz
        exact (mul_eq_zero.1 this).resolve_left (sub_ne_zero.2 hfc)
      funext a
      fin_cases a
      · exact key _ e0
      · exact key _ e1
      · exact key _ e2
      · exact hk2
    obtain ⟨p, hpo⟩ := Option.ne_none_iff_exists'.1 hsome
    refine ⟨some (f, p, none), ?_, ?_, fun _ => ⟨p, rfl, hpoint p hpo⟩, fun h => by cases h⟩
    · unfold scaleFromMatrix
      rw [ho, hparts, hpo]
      rfl
    · intro f' p' d hpq
      simp only [Option.some.injEq, Prod.mk.injEq] at hpq
      obtain ⟨rfl, rfl, rfl⟩ := hpq
      refine ⟨(hp _ hpo).1, ?_⟩
      unfold scaleMatrix
      simp only []
      congr 2
      · ext a b
        fin_cases a <;> fin_cases b <;> simp
      · rw [hpoint _ hpo, ht]
        funext i
        simp
        ring

/-- C159: `scale_from_matrix` of a scaling along a direction, by one or by a factor which differs from one by at least
`1e-8`: no exception, the factor is found, and `scale_matrix` of the numbers gives the matrix back. Without numbers the
last eigenvector of eigenvalue one which the library gave has a null weight. -/
theorem C159_direction (f : ℝ) (hf : f = 1 ∨ 1 / 10 ^ 8 ≤ |f - 1|) (origin : Option P3) (direction : P3) {M : Mat4}
    (hM : scaleMatrix f origin (some direction) = some M) {eig3 : Eig 3} {eig4 : Eig 4}
    (h3 : IsEigC (block M) (eig3 (block M)).1 (eig3 (block M)).2) (h4 : IsEigC M (eig4 M).1 (eig4 M).2) :
    ∃ o, scaleFromMatrix eig3 eig4 M = .ok o ∧
      (∀ f' p d, o = some (f', p, d) → f' = f ∧ p 3 = 1 ∧ (∃ d', d = some d') ∧
        scaleMatrix f' (some (first3 p)) d = some M) ∧
      (o = none → Weightless (eig4 M) 1) := by
  change IsEigC (linear M) (eig3 (linear M)).1 (eig3 (linear M)).2 at h3
  unfold scaleMatrix at hM
  obtain ⟨n, hn, hM⟩ := Option.bind_eq_some_iff.1 hM
  have hn1 := unit3_one hn
  obtain ⟨t, rfl, ht⟩ : ∃ t, M = affine (along f n) t ∧ t = ((1 - f) * dot3 (origin.getD 0) n) • n := by
    cases origin with
    | none => exact ⟨0, (Option.some.inj hM).symm, by simp [dot3]⟩
    | some o => exact ⟨fun i => (1 - f) * dot3 o n * n i, (Option.some.inj hM).symm, rfl⟩
  rw [linear_affine] at h3
  have hsq := along_sq f hn1
  obtain ⟨o, ho, hp, hnone⟩ := fixedPoint_spec h4 (onlyOne_two hsq hf)
  obtain ⟨k, hk, hnear⟩ := near_head h3 (x := f) (tol := 1 / 10 ^ 8) (by positivity) (y := n)
    (fun h0 => by rw [h0] at hn1; simp [dot3] at hn1) (by
      unfold along
      rw [Matrix.sub_mulVec, Matrix.smul_mulVec, Matrix.one_mulVec, outer_mulVec, hn1]
      module)
  have hl : (eig3 (along f n)).1 k = f := by
    rcases eig_two hsq (h3.ne_zero k) (h3.vector k) with h | h
    · exact h
    · rcases hf with hf | hf
      · rw [h, hf]
      · rw [h, Complex.ofReal_re, abs_sub_comm] at hnear
        exact absurd hnear (not_lt.2 hf)
  obtain ⟨hr, hu, -⟩ := h3.re hl
  rw [← dot3_realColumn] at hu
  set m := realColumn (eig3 (along f n)).2 k with hm
  have hparts : scaleParts eig3 (affine (along f n) t) = some (f, some m) := by
    have hfac : affine (along f n) t 0 0 + affine (along f n) t 1 1 + affine (along f n) t 2 2 - 2 = f := along_trace f hn1
    unfold scaleParts
    simp only [hfac, linear_affine, hk, ← hm, unit3_of_one hu, Option.map_some]
  refine ⟨o.map fun p => (f, p, some m), ?_, ?_, ?_⟩
  · unfold scaleFromMatrix
    rw [ho, hparts]
    cases o <;> rfl
  · intro f' p d hpq
    obtain ⟨p', hp', heq⟩ := Option.map_eq_some_iff.1 hpq
    simp only [Prod.mk.injEq] at heq
    obtain ⟨rfl, rfl, rfl⟩ := heq
    obtain ⟨h1, hfix⟩ := hp p' hp'
    refine ⟨rfl, h1, ⟨m, rfl⟩, ?_⟩
    unfold scaleMatrix
    simp only [unit3_of_one hu, Option.bind_eq_bind, Option.bind_some, Option.pure_def]
    have hA : (1 - f) • outer m m = (1 - f) • outer n n := by
      by_cases h1 : f = 1
      · simp [h1]
      · have hpar : m = dot3 n m • n := by
          unfold along at hr
          rw [Matrix.sub_mulVec, Matrix.smul_mulVec, Matrix.one_mulVec, outer_mulVec] at hr
          have h0 : (1 - f) ≠ 0 := sub_ne_zero.2 (Ne.symm h1)
          funext a
          have ha := congrFun hr a
          simp only [Pi.sub_apply, Pi.smul_apply, smul_eq_mul] at ha ⊢
          apply mul_left_cancel₀ h0
          linarith
        have hc := unit_parallel hn1 hu hpar
        congr 1
        ext a b
        have ha := congrFun hpar a
        have hb := congrFun hpar b
        simp only [Pi.smul_apply, smul_eq_mul] at ha hb
        simp only [outer, Matrix.of_apply]
        rw [ha, hb]
        linear_combination n a * n b * hc
    rw [hA]
    congr 2
    have e := hfix
    unfold along at e
    rw [← hA, Matrix.sub_mulVec, Matrix.smul_mulVec, Matrix.one_mulVec, outer_mulVec] at e
    funext i
    have ei := congrFun e i
    simp only [Pi.add_apply, Pi.sub_apply, Pi.smul_apply, smul_eq_mul] at ei
    rw [dot3_comm (first3 p') m]
    linarith
  · intro hno
    exact hnone (Option.map_eq_none_iff.1 hno)

end Verif.Geom
