import Verif.Geom.FromMatrix
import Verif.Geom.PropsSuperimpose
import Mathlib.LinearAlgebra.Matrix.ToLinearEquiv

/-!
# `reflection_from_matrix` and `rotation_from_matrix` (C157, C158)
-/

namespace Verif.Geom

open Verif Real Matrix
open Verif.Transf (Mat4 Mat3 Quat EPS dot4 quatMatrix Rot3 block atan2)

/-! ## Eigenvectors -/

theorem IsEigC.ne_zero {n : ℕ} {A : Matrix (Fin n) (Fin n) ℝ} {l : Fin n → ℂ} {V : Matrix (Fin n) (Fin n) ℂ}
    (h : IsEigC A l V) (k : Fin n) : (fun a => V a k) ≠ 0 := by
  intro h0
  have := h.unit k
  have hz : ∀ a, V a k = 0 := fun a => congrFun h0 a
  simp [hz] at this

theorem IsEigC.re {n : ℕ} {A : Matrix (Fin n) (Fin n) ℝ} {l : Fin n → ℂ} {V : Matrix (Fin n) (Fin n) ℂ}
    (h : IsEigC A l V) {k : Fin n} {x : ℝ} (hk : l k = (x : ℂ)) :
    A *ᵥ realColumn V k = x • realColumn V k ∧ ∑ a, realColumn V k a * realColumn V k a = 1 ∧
      ∀ a, V a k = (realColumn V k a : ℂ) := by
  have him : ∀ a, (V a k).im = 0 := h.real k (by rw [hk, Complex.ofReal_im])
  refine ⟨?_, ?_, fun a => ?_⟩
  · funext a
    have e := congrArg Complex.re (congrFun (h.vector k) a)
    rw [hk] at e
    simpa [Matrix.mulVec, dotProduct, realColumn] using e
  · rw [← h.unit k]
    refine Finset.sum_congr rfl fun a _ => ?_
    rw [Complex.normSq_apply, him a, mul_zero, add_zero]
    rfl
  · exact Complex.ext rfl (by rw [him a, Complex.ofReal_im])

theorem mem_near {n : ℕ} {l : Fin n → ℂ} {x tol : ℝ} {k : Fin n} : k ∈ near l x tol ↔ |(l k).re - x| < tol := by
  simp [near]

/-- The last eigenvector of an eigenvalue has a null weight: it is a direction, not a point. -/
def Weightless (e : (Fin 4 → ℂ) × Matrix (Fin 4) (Fin 4) ℂ) (μ : ℂ) : Prop :=
  ∃ k, e.1 k = μ ∧ (∀ j, k < j → e.1 j ≠ μ) ∧ e.2 3 k = 0

theorem le_last {n : ℕ} {q : Fin n → Bool} {k : Fin n} (h : ((List.finRange n).filter q).getLast? = some k) {j : Fin n}
    (hj : q j = true) : j ≤ k := by
  have hs : ((List.finRange n).filter q).Pairwise (· < ·) :=
    (List.sortedLT_finRange n).pairwise.sublist List.filter_sublist
  obtain ⟨pre, e⟩ := List.getLast?_eq_some_iff.1 h
  have hm : j ∈ (List.finRange n).filter q := List.mem_filter.2 ⟨List.mem_finRange _, hj⟩
  rw [e] at hs hm
  rcases List.mem_append.1 hm with hm | hm
  · exact ((List.pairwise_append.1 hs).2.2 j hm k (List.mem_singleton.2 rfl)).le
  · exact (List.mem_singleton.1 hm).le

theorem near_last {n : ℕ} {A : Matrix (Fin n) (Fin n) ℝ} {l : Fin n → ℂ} {V : Matrix (Fin n) (Fin n) ℂ}
    (h : IsEigC A l V) {x tol : ℝ} (ht : 0 < tol) {y : Fin n → ℝ} (hy : y ≠ 0) (hA : A *ᵥ y = x • y) :
    ∃ k, (near l x tol).getLast? = some k ∧ |(l k).re - x| < tol := by
  obtain ⟨j, hj⟩ := h.all y x hy hA
  have hm : j ∈ near l x tol := by
    rw [mem_near, hj, Complex.ofReal_re, sub_self, abs_zero]
    exact ht
  cases e : (near l x tol).getLast? with
  | none => rw [List.getLast?_eq_none_iff.1 e] at hm; exact absurd hm List.not_mem_nil
  | some k => exact ⟨k, rfl, mem_near.1 (List.mem_of_getLast? e)⟩

theorem near_head {n : ℕ} {A : Matrix (Fin n) (Fin n) ℝ} {l : Fin n → ℂ} {V : Matrix (Fin n) (Fin n) ℂ}
    (h : IsEigC A l V) {x tol : ℝ} (ht : 0 < tol) {y : Fin n → ℝ} (hy : y ≠ 0) (hA : A *ᵥ y = x • y) :
    ∃ k, (near l x tol).head? = some k ∧ |(l k).re - x| < tol := by
  obtain ⟨j, hj⟩ := h.all y x hy hA
  have hm : j ∈ near l x tol := by
    rw [mem_near, hj, Complex.ofReal_re, sub_self, abs_zero]
    exact ht
  cases e : (near l x tol).head? with
  | none => rw [List.head?_eq_none_iff.1 e] at hm; exact absurd hm List.not_mem_nil
  | some k => exact ⟨k, rfl, mem_near.1 (List.mem_of_head? e)⟩

theorem dot3_realColumn (V : Matrix (Fin 3) (Fin 3) ℂ) (k : Fin 3) :
    dot3 (realColumn V k) (realColumn V k) = ∑ a, realColumn V k a * realColumn V k a := by
  simp [dot3, Fin.sum_univ_three]

theorem unit3_of_one {v : P3} (h : dot3 v v = 1) : unit3 v = some v := by
  unfold unit3 norm3
  rw [h, Real.sqrt_one, if_neg one_ne_zero]
  simp

/-- Whatever the translation, one is an eigenvalue. -/
theorem affine_eig (A : Mat3) (t : P3) : ∃ y, y ≠ 0 ∧ affine A t *ᵥ y = (1 : ℝ) • y := by
  have hd : (affine A t - 1).det = 0 := by
    refine Matrix.det_eq_zero_of_row_eq_zero 3 fun j => ?_
    fin_cases j <;> simp [affine]
  obtain ⟨y, hy, h⟩ := Matrix.exists_mulVec_eq_zero_iff.2 hd
  refine ⟨y, hy, ?_⟩
  rw [Matrix.sub_mulVec, Matrix.one_mulVec, sub_eq_zero] at h
  rw [h, one_smul]

/-- Only the eigenvalue one is as near to one as the function tests. -/
def OnlyOne (A : Mat3) : Prop :=
  ∀ (μ : ℂ) (v : Fin 3 → ℂ), v ≠ 0 → A.map Complex.ofReal *ᵥ v = μ • v → |μ.re - 1| < 1 / 10 ^ 8 → μ = 1

theorem last_spec {A : Mat3} {t : P3} {l : Fin 4 → ℂ} {V : Matrix (Fin 4) (Fin 4) ℂ} (h : IsEigC (affine A t) l V)
    (hA : OnlyOne A) : ∃ k, (near l 1 (1 / 10 ^ 8)).getLast? = some k ∧ l k = 1 ∧ (∀ j, k < j → l j ≠ 1) ∧
      (∀ p, overLast (realColumn V k) = some p → p 3 = 1 ∧ A *ᵥ first3 p + t = first3 p) ∧
      (overLast (realColumn V k) = none → V 3 k = 0) := by
  obtain ⟨y, hy, hy1⟩ := affine_eig A t
  obtain ⟨k, hk, hn⟩ := near_last h (tol := 1 / 10 ^ 8) (by positivity) hy hy1
  have hone : l k = 1 := by
    have e := h.vector k
    have e3 := congrFun e 3
    have e0 := congrFun e 0
    have e1 := congrFun e 1
    have e2 := congrFun e 2
    simp [affine, Matrix.mulVec, dotProduct, Fin.sum_univ_four] at e0 e1 e2 e3
    have hz : (l k - 1) * V 3 k = 0 := by linear_combination -e3
    rcases mul_eq_zero.1 hz with e3 | e3
    · exact sub_eq_zero.1 e3
    · refine hA (l k) ![V 0 k, V 1 k, V 2 k] ?_ ?_ hn
      · intro h0
        apply h.ne_zero k
        funext a
        fin_cases a
        · simpa using congrFun h0 0
        · simpa using congrFun h0 1
        · simpa using congrFun h0 2
        · simpa using e3
      · rw [e3] at e0 e1 e2
        funext a
        fin_cases a <;> simp [Matrix.mulVec, dotProduct, Fin.sum_univ_three]
        · simpa using e0
        · simpa using e1
        · simpa using e2
  obtain ⟨hr, hu, hV⟩ := h.re (x := 1) (by rw [hone, Complex.ofReal_one])
  refine ⟨k, hk, hone, ?_, ?_, ?_⟩
  · intro j hj h1
    refine absurd hj (not_lt.2 (le_last hk (decide_eq_true ?_)))
    rw [h1, Complex.one_re, sub_self, abs_zero]
    positivity
  · intro p hp
    unfold overLast at hp
    split_ifs at hp with h3
    obtain rfl := Option.some.inj hp
    refine ⟨div_self h3, ?_⟩
    have e0 := congrFun hr 0
    have e1 := congrFun hr 1
    have e2 := congrFun hr 2
    simp [affine, Matrix.mulVec, dotProduct, Fin.sum_univ_four] at e0 e1 e2
    funext a
    fin_cases a <;> simp [first3, Matrix.mulVec, dotProduct, Fin.sum_univ_three] <;> field_simp <;> linarith
  · intro hp
    unfold overLast at hp
    split_ifs at hp with h3
    rw [hV, h3, Complex.ofReal_zero]

theorem fixedPoint_spec {A : Mat3} {t : P3} {eig4 : Eig 4}
    (h : IsEigC (affine A t) (eig4 (affine A t)).1 (eig4 (affine A t)).2) (hA : OnlyOne A) :
    ∃ o, fixedPoint eig4 (affine A t) = .ok o ∧ (∀ p, o = some p → p 3 = 1 ∧ A *ᵥ first3 p + t = first3 p) ∧
      (o = none → Weightless (eig4 (affine A t)) 1) := by
  obtain ⟨k, hk, hone, hlast, hp, hn⟩ := last_spec h hA
  refine ⟨overLast (realColumn (eig4 (affine A t)).2 k), ?_, hp, fun h0 => ⟨k, hone, hlast, hn h0⟩⟩
  unfold fixedPoint
  rw [hk]
  rfl

theorem linear_affine (A : Mat3) (t : P3) : linear (affine A t) = A := by
  ext a b
  fin_cases a <;> fin_cases b <;> rfl

theorem eig_sq {n : ℕ} {A : Matrix (Fin n) (Fin n) ℝ} {μ : ℂ} {v : Fin n → ℂ}
    (h : A.map Complex.ofReal *ᵥ v = μ • v) : (A * A).map Complex.ofReal *ᵥ v = (μ * μ) • v := by
  have : (A * A).map Complex.ofReal = A.map Complex.ofReal * A.map Complex.ofReal :=
    Matrix.map_mul (f := Complex.ofRealHom)
  rw [this, ← Matrix.mulVec_mulVec, h, Matrix.mulVec_smul, h, smul_smul]

theorem eig_one {n : ℕ} {μ : ℂ} {v : Fin n → ℂ} (hv : v ≠ 0)
    (h : (1 : Matrix (Fin n) (Fin n) ℝ).map Complex.ofReal *ᵥ v = μ • v) : μ = 1 := by
  have e : (1 : Matrix (Fin n) (Fin n) ℝ).map Complex.ofReal = 1 :=
    Matrix.map_one _ Complex.ofReal_zero Complex.ofReal_one
  rw [e, Matrix.one_mulVec] at h
  obtain ⟨a, ha⟩ := Function.ne_iff.1 hv
  have := congrFun h a
  have hz : (μ - 1) * v a = 0 := by
    simp only [Pi.smul_apply, smul_eq_mul] at this
    linear_combination -this
  rcases mul_eq_zero.1 hz with h | h
  · exact sub_eq_zero.1 h
  · exact absurd h ha

/-! ## Reflections -/

theorem outer_mulVec (u v x : P3) : outer u v *ᵥ x = dot3 v x • u := by
  funext a
  fin_cases a <;> simp [outer, Matrix.mulVec, dotProduct, Fin.sum_univ_three, dot3] <;> ring

theorem mirror_sq {n : P3} (h : dot3 n n = 1) :
    (1 - (2 : ℝ) • outer n n) * (1 - (2 : ℝ) • outer n n) = (1 : Mat3) := by
  unfold dot3 at h
  ext a b
  fin_cases a <;> fin_cases b <;> simp [outer, Matrix.mul_apply, Fin.sum_univ_three]
  · linear_combination 4 * n 0 * n 0 * h
  · linear_combination 4 * n 0 * n 1 * h
  · linear_combination 4 * n 0 * n 2 * h
  · linear_combination 4 * n 1 * n 0 * h
  · linear_combination 4 * n 1 * n 1 * h
  · linear_combination 4 * n 1 * n 2 * h
  · linear_combination 4 * n 2 * n 0 * h
  · linear_combination 4 * n 2 * n 1 * h
  · linear_combination 4 * n 2 * n 2 * h

/-- Two proportional vectors of norm one. -/
theorem unit_parallel {u v : P3} (hu : dot3 u u = 1) (hv : dot3 v v = 1) {c : ℝ} (h : v = c • u) : c * c = 1 := by
  rw [h, dot3_smul, dot3_smul', hu] at hv
  linarith

/-- C157: `reflection_from_matrix` of a reflection raises no exception. The result is a point, with the weight one, and a
unit vector, of which `reflection_matrix` gives the matrix back. Without numbers the last eigenvector of eigenvalue one which
the library gave has a null weight. -/
theorem C157_reflection {point normal : P3} {M : Mat4} (hM : reflectionMatrix point normal = some M) {eig3 : Eig 3}
    {eig4 : Eig 4} (h3 : IsEigC (block M) (eig3 (block M)).1 (eig3 (block M)).2) (h4 : IsEigC M (eig4 M).1 (eig4 M).2) :
    ∃ o, reflectionFromMatrix eig3 eig4 M = .ok o ∧
      (∀ p n, o = some (p, n) → p 3 = 1 ∧ dot3 n n = 1 ∧ reflectionMatrix (first3 p) n = some M) ∧
      (o = none → Weightless (eig4 M) 1) := by
  change IsEigC (linear M) (eig3 (linear M)).1 (eig3 (linear M)).2 at h3
  unfold reflectionMatrix at hM
  obtain ⟨n, hn, hM⟩ := Option.bind_eq_some_iff.1 hM
  have hn1 : dot3 n n = 1 := by
    by_cases h0 : normal = 0
    · rw [(unit3_spec normal).1 h0] at hn
      cases hn
    · obtain ⟨u, hu, h1, -⟩ := (unit3_spec normal).2 h0
      rw [hn] at hu
      obtain rfl := Option.some.inj hu
      exact h1
  have hM := (Option.some.inj hM).symm
  have hsq := mirror_sq hn1
  set A : Mat3 := 1 - (2 : ℝ) • outer n n with hA
  have heig : ∀ (μ : ℂ) (v : Fin 3 → ℂ), v ≠ 0 → A.map Complex.ofReal *ᵥ v = μ • v → μ = 1 ∨ μ = -1 := by
    intro μ v hv h
    have h2 := eig_sq h
    rw [hsq] at h2
    have := eig_one hv h2
    have hz : (μ - 1) * (μ + 1) = 0 := by linear_combination this
    rcases mul_eq_zero.1 hz with h | h
    · exact .inl (by linear_combination h)
    · exact .inr (by linear_combination h)
  have hone : OnlyOne A := by
    intro μ v hv h hnear
    rcases heig μ v hv h with h | h
    · exact h
    · rw [h] at hnear
      norm_num at hnear
  subst hM
  obtain ⟨o, ho, hp, hnone⟩ := fixedPoint_spec h4 hone
  rw [linear_affine] at h3
  obtain ⟨k, hk, hnear⟩ := near_head h3 (x := -1) (tol := 1 / 10 ^ 8) (by positivity) (y := n)
    (fun h0 => by rw [h0] at hn1; simp [dot3] at hn1) (by
      rw [hA, Matrix.sub_mulVec, Matrix.smul_mulVec, Matrix.one_mulVec, outer_mulVec, hn1]
      module)
  have hl : (eig3 A).1 k = ((-1 : ℝ) : ℂ) := by
    rcases heig _ _ (h3.ne_zero k) (h3.vector k) with h | h
    · rw [h] at hnear
      norm_num at hnear
    · rw [h]
      push_cast
      rfl
  obtain ⟨hr, hu, -⟩ := h3.re hl
  rw [← dot3_realColumn] at hu
  set m := realColumn (eig3 A).2 k with hm
  have hpar : m = dot3 n m • n := by
    rw [hA, Matrix.sub_mulVec, Matrix.smul_mulVec, Matrix.one_mulVec, outer_mulVec] at hr
    funext a
    have ha := congrFun hr a
    simp only [Pi.sub_apply, Pi.smul_apply, smul_eq_mul] at ha ⊢
    linarith
  have hc := unit_parallel hn1 hu hpar
  refine ⟨o.map fun p => (p, m), ?_, ?_, ?_⟩
  · unfold reflectionFromMatrix
    rw [linear_affine, hk, ho]
    rfl
  · intro p q hpq
    obtain ⟨p', hp', heq⟩ := Option.map_eq_some_iff.1 hpq
    obtain ⟨rfl, rfl⟩ := Prod.mk.inj heq
    obtain ⟨h1, hfix⟩ := hp p' hp'
    refine ⟨h1, hu, ?_⟩
    unfold reflectionMatrix
    rw [unit3_of_one hu]
    simp only [Option.bind_eq_bind, Option.bind_some, Option.pure_def]
    have hout : outer m m = outer n n := by
      ext a b
      have ha := congrFun hpar a
      have hb := congrFun hpar b
      simp only [Pi.smul_apply, smul_eq_mul] at ha hb
      simp only [outer, Matrix.of_apply]
      rw [ha, hb]
      linear_combination n a * n b * hc
    have ht : (fun i => 2 * dot3 (first3 p') m * m i) = fun i => 2 * dot3 point n * n i := by
      have e := hfix
      rw [hA, ← hout, Matrix.sub_mulVec, Matrix.smul_mulVec, Matrix.one_mulVec, outer_mulVec] at e
      funext i
      have ei := congrFun e i
      simp only [Pi.add_apply, Pi.sub_apply, Pi.smul_apply, smul_eq_mul] at ei
      rw [dot3_comm (first3 p') m]
      linarith
    rw [hout, ht]
  · intro hno
    exact hnone (Option.map_eq_none_iff.1 hno)

/-! ## Rotations -/

theorem det_eig {n : ℕ} {A : Matrix (Fin n) (Fin n) ℝ} {μ : ℂ} {v : Fin n → ℂ} (hv : v ≠ 0)
    (h : A.map Complex.ofReal *ᵥ v = μ • v) : (A.map Complex.ofReal - μ • (1 : Matrix (Fin n) (Fin n) ℂ)).det = 0 := by
  refine Matrix.exists_mulVec_eq_zero_iff.1 ⟨v, hv, ?_⟩
  rw [Matrix.sub_mulVec, Matrix.smul_mulVec, Matrix.one_mulVec, h, sub_self]

/-- The trace less one is twice the cosine of the angle. -/
noncomputable def cosine (A : Mat3) : ℝ := (A 0 0 + A 1 1 + A 2 2 - 1) / 2

theorem rot_eig {A : Mat3} (hA : Rot3 A) {μ : ℂ} {v : Fin 3 → ℂ} (hv : v ≠ 0) (h : A.map Complex.ofReal *ᵥ v = μ • v) :
    (μ - 1) * (μ * μ - 2 * (cosine A : ℂ) * μ + 1) = 0 := by
  have hd := det_eig hv h
  rw [Matrix.det_fin_three] at hd
  simp [Matrix.one_apply] at hd
  obtain ⟨⟨c00, -, -⟩, ⟨-, c11, -⟩, -, -, c22⟩ := hA.cof
  have hdet := hA.det
  rw [Matrix.det_fin_three] at hdet
  have c00' := congrArg Complex.ofReal c00
  have c11' := congrArg Complex.ofReal c11
  have c22' := congrArg Complex.ofReal c22
  have hdet' := congrArg Complex.ofReal hdet
  unfold cosine
  push_cast at *
  linear_combination -hd + hdet' + μ * c00' + μ * c11' + μ * c22'

theorem rot_cosine_le {A : Mat3} (hA : Rot3 A) : -1 ≤ cosine A ∧ cosine A ≤ 1 := by
  refine ⟨by have := rot_trace hA; unfold cosine; linarith, ?_⟩
  have h := hA.row
  have h0 := h 0 0
  have h1 := h 1 1
  have h2 := h 2 2
  simp at h0 h1 h2
  unfold cosine
  nlinarith [sq_nonneg (A 0 0 - 1), sq_nonneg (A 1 1 - 1), sq_nonneg (A 2 2 - 1), sq_nonneg (A 0 1), sq_nonneg (A 0 2),
    sq_nonneg (A 1 0), sq_nonneg (A 1 2), sq_nonneg (A 2 0), sq_nonneg (A 2 1)]

/-- The other eigenvalues have the cosine for real part. -/
theorem rot_eig_re {A : Mat3} (hA : Rot3 A) {μ : ℂ} {v : Fin 3 → ℂ} (hv : v ≠ 0) (h : A.map Complex.ofReal *ᵥ v = μ • v) :
    μ = 1 ∨ μ.re = cosine A := by
  rcases mul_eq_zero.1 (rot_eig hA hv h) with h | h
  · exact .inl (sub_eq_zero.1 h)
  · right
    obtain ⟨hlo, hhi⟩ := rot_cosine_le hA
    have hre := congrArg Complex.re h
    have him := congrArg Complex.im h
    simp at hre him
    generalize cosine A = c at *
    have h1 : μ.im * (μ.re - c) = 0 := by linarith
    rcases mul_eq_zero.1 h1 with h0 | h0
    · rw [h0] at hre
      have : (μ.re - c) ^ 2 ≤ 0 := by nlinarith
      have := pow_eq_zero_iff (n := 2) (by norm_num) |>.1 (le_antisymm this (sq_nonneg _))
      linarith
    · linarith

theorem cosine_one {A : Mat3} (hA : Rot3 A) (h : cosine A = 1) : A = 1 := by
  have hr := hA.row
  have h0 := hr 0 0
  have h1 := hr 1 1
  have h2 := hr 2 2
  simp at h0 h1 h2
  unfold cosine at h
  have hz : (A 0 0 - 1) ^ 2 + (A 1 1 - 1) ^ 2 + (A 2 2 - 1) ^ 2 + A 0 1 ^ 2 + A 0 2 ^ 2 + A 1 0 ^ 2 + A 1 2 ^ 2 +
      A 2 0 ^ 2 + A 2 1 ^ 2 = 0 := by nlinarith
  have key : ∀ x : ℝ, x ^ 2 ≤ 0 → x = 0 := fun x hx =>
    (pow_eq_zero_iff (n := 2) (by norm_num)).1 (le_antisymm hx (sq_nonneg x))
  have s0 := sq_nonneg (A 0 0 - 1)
  have s1 := sq_nonneg (A 1 1 - 1)
  have s2 := sq_nonneg (A 2 2 - 1)
  have s3 := sq_nonneg (A 0 1)
  have s4 := sq_nonneg (A 0 2)
  have s5 := sq_nonneg (A 1 0)
  have s6 := sq_nonneg (A 1 2)
  have s7 := sq_nonneg (A 2 0)
  have s8 := sq_nonneg (A 2 1)
  ext a b
  fin_cases a <;> fin_cases b <;> simp
  · linarith [key (A 0 0 - 1) (by linarith)]
  · exact key _ (by linarith)
  · exact key _ (by linarith)
  · exact key _ (by linarith)
  · linarith [key (A 1 1 - 1) (by linarith)]
  · exact key _ (by linarith)
  · exact key _ (by linarith)
  · exact key _ (by linarith)
  · linarith [key (A 2 2 - 1) (by linarith)]

/-- The rotation about the unit vector `d`. -/
def aboutAxis (d : P3) (c s : ℝ) : Mat3 :=
  !![c + (1 - c) * (d 0 * d 0), (1 - c) * (d 0 * d 1) - d 2 * s, (1 - c) * (d 0 * d 2) + d 1 * s;
    (1 - c) * (d 1 * d 0) + d 2 * s, c + (1 - c) * (d 1 * d 1), (1 - c) * (d 1 * d 2) - d 0 * s;
    (1 - c) * (d 2 * d 0) - d 1 * s, (1 - c) * (d 2 * d 1) + d 0 * s, c + (1 - c) * (d 2 * d 2)]

/-- A rotation which does not move `d` is a rotation about `d`. -/
theorem rot_axis {A : Mat3} (hA : Rot3 A) {d : P3} (hd : dot3 d d = 1) (h : A *ᵥ d = d) :
    ∃ s, cosine A * cosine A + s * s = 1 ∧ A = aboutAxis d (cosine A) s := by
  have hM := Transf.isRotation_of_block (Transf.homog3_homog A) (by rw [Transf.block_homog3]; exact hA)
  obtain ⟨q, hq, hqm⟩ := Transf.exists_quat hM
  rw [Transf.quatMatrix_eq (by rw [hq]; exact Transf.EPS_lt_one.le), hq] at hqm
  have e00 : _ = A 0 0 := congrFun (congrFun hqm 0) 0
  have e01 : _ = A 0 1 := congrFun (congrFun hqm 0) 1
  have e02 : _ = A 0 2 := congrFun (congrFun hqm 0) 2
  have e10 : _ = A 1 0 := congrFun (congrFun hqm 1) 0
  have e11 : _ = A 1 1 := congrFun (congrFun hqm 1) 1
  have e12 : _ = A 1 2 := congrFun (congrFun hqm 1) 2
  have e20 : _ = A 2 0 := congrFun (congrFun hqm 2) 0
  have e21 : _ = A 2 1 := congrFun (congrFun hqm 2) 1
  have e22 : _ = A 2 2 := congrFun (congrFun hqm 2) 2
  simp at e00 e01 e02 e10 e11 e12 e20 e21 e22
  set v : P3 := ![q 0, q 1, q 2] with hv
  have hvq : dot3 v v + q 3 * q 3 = 1 := by
    rw [← hq]
    simp [dot3, dot4, hv]
  -- A d = d + 2 w (v × d) + 2 v × (v × d)
  have hz : q 3 • cross v d + cross v (cross v d) = 0 := by
    have h0 := congrFun h 0
    have h1 := congrFun h 1
    have h2 := congrFun h 2
    simp only [Matrix.mulVec, dotProduct, Fin.sum_univ_three, ← e00, ← e01, ← e02, ← e10, ← e11, ← e12, ← e20, ← e21,
      ← e22] at h0 h1 h2
    funext a
    fin_cases a <;> simp [cross, hv]
    · linear_combination (1 / 2) * h0
    · linear_combination (1 / 2) * h1
    · linear_combination (1 / 2) * h2
  have hperp : dot3 (cross v (cross v d)) (cross v d) = 0 := cross_dot_right _ _
  have hvd : dot3 (cross v d) v = 0 := cross_dot_left _ _
  have hx : cross v d = 0 := by
    apply dot3_self_eq_zero.1
    have e1 : cross v (cross v d) = -(q 3) • cross v d := by
      rw [neg_smul]
      exact eq_neg_of_add_eq_zero_right hz
    have e2 : dot3 (cross v (cross v d)) (cross v (cross v d)) = dot3 v v * dot3 (cross v d) (cross v d) := by
      rw [dot3_cross_cross, hvd]
      ring
    have e3 : -(q 3) * dot3 (cross v d) (cross v d) = 0 := by
      rw [← dot3_smul, ← e1, hperp]
    have e4 : dot3 (cross v (cross v d)) (cross v (cross v d)) = 0 := by
      nth_rewrite 2 [e1]
      rw [dot3_smul', hperp, mul_zero]
    have e5 : dot3 v v * dot3 (cross v d) (cross v d) = 0 := by rw [← e2, e4]
    linear_combination -(q 3) * e3 - (dot3 (cross v d) (cross v d)) * hvq + e5
  -- hence v is along d
  obtain ⟨σ, hσ⟩ : ∃ σ : ℝ, ∀ a, v a = σ * d a := by
    refine ⟨dot3 v d, fun a => ?_⟩
    have x0 := congrFun hx 0
    have x1 := congrFun hx 1
    have x2 := congrFun hx 2
    simp [cross] at x0 x1 x2
    unfold dot3 at hd ⊢
    fin_cases a <;> simp
    · linear_combination -(v 0) * hd + (- d 2) * x1 + d 1 * x2
    · linear_combination -(v 1) * hd + d 2 * x0 - d 0 * x2
    · linear_combination -(v 2) * hd - d 1 * x0 + d 0 * x1
  have q0 : q 0 = σ * d 0 := hσ 0
  have q1 : q 1 = σ * d 1 := hσ 1
  have q2 : q 2 = σ * d 2 := hσ 2
  have hσw : σ * σ + q 3 * q 3 = 1 := by
    unfold dot4 at hq
    rw [q0, q1, q2] at hq
    unfold dot3 at hd
    linear_combination hq - σ * σ * hd
  rw [q0, q1] at e01 e10 e22
  rw [q0, q2] at e02 e20 e11
  rw [q1, q2] at e12 e21 e00
  rw [q2] at e01 e10
  rw [q1] at e02 e20
  rw [q0] at e12 e21
  unfold dot3 at hd
  have hc : cosine A = 1 - 2 * (σ * σ) := by
    unfold cosine
    rw [← e00, ← e11, ← e22]
    linear_combination -2 * σ * σ * hd
  refine ⟨2 * (q 3 * σ), ?_, ?_⟩
  · rw [hc]
    linear_combination 4 * σ * σ * hσw
  · rw [hc]
    ext a b
    fin_cases a <;> fin_cases b <;> simp [aboutAxis]
    · linear_combination -e00 - 2 * σ * σ * hd
    · linear_combination -e01
    · linear_combination -e02
    · linear_combination -e10
    · linear_combination -e11 - 2 * σ * σ * hd
    · linear_combination -e12
    · linear_combination -e20
    · linear_combination -e21
    · linear_combination -e22 - 2 * σ * σ * hd

theorem sineOf_spec {d : P3} (hd : dot3 d d = 1) (c s : ℝ) (t : P3) : sineOf (affine (aboutAxis d c s) t) d c = some s := by
  unfold sineOf
  simp only [affine, aboutAxis, Matrix.cons_val, Matrix.of_apply, Matrix.cons_val_zero, Matrix.cons_val_one]
  have hpos : ∀ x : ℝ, |x| > 1 / 10 ^ 8 → x ≠ 0 := by
    rintro x hx rfl
    norm_num at hx
  split_ifs with h1 h2 h3
  · have := hpos _ h1
    congr 1
    field_simp
    ring
  · have := hpos _ h2
    congr 1
    field_simp
    ring
  · exfalso
    unfold dot3 at hd
    have a1 := abs_le.1 (not_lt.1 h1)
    have a2 := abs_le.1 (not_lt.1 h2)
    rw [h3] at hd
    nlinarith
  · congr 1
    field_simp
    ring

/-- C158: `rotation_from_matrix` of a rotation followed by a translation, the cosine of the angle being one or at most
`1 - 1e-8`, raises no exception. If it gives numbers, which are an angle, a unit vector and a point of weight one, then
`rotation_matrix` of them is the matrix. Without numbers the last eigenvector of eigenvalue one which the library gave has
a null weight. -/
theorem C158_rotation {A : Mat3} (hA : Rot3 A) (t : P3) (hc : cosine A = 1 ∨ cosine A ≤ 1 - 1 / 10 ^ 8) {eig3 : Eig 3}
    {eig4 : Eig 4} (h3 : IsEigC Aᵀ (eig3 Aᵀ).1 (eig3 Aᵀ).2)
    (h4 : IsEigC (affine A t) (eig4 (affine A t)).1 (eig4 (affine A t)).2) :
    ∃ o, rotationFromMatrix eig3 eig4 (affine A t) = .ok o ∧
      (∀ angle d p, o = some (angle, d, p) → -π < angle ∧ angle ≤ π ∧ dot3 d d = 1 ∧ p 3 = 1 ∧
        rotationMatrix angle d (some (first3 p)) = some (affine A t)) ∧
      (o = none → Weightless (eig4 (affine A t)) 1) := by
  have only : ∀ B, Rot3 B → cosine B = cosine A → OnlyOne B := by
    intro B hB hBA μ v hv h hn
    rcases rot_eig_re hB hv h with h | hre
    · exact h
    · rcases hc with h1 | h1
      · rw [← hBA] at h1
        rw [cosine_one hB h1] at h
        exact eig_one hv h
      · rw [hre, hBA] at hn
        have := abs_lt.1 hn
        linarith
  have hT : Rot3 Aᵀ := ⟨by rw [Matrix.transpose_transpose]; exact hA.orthogonal', by rw [Matrix.det_transpose, hA.det]⟩
  obtain ⟨o, ho, hp, hnone⟩ := fixedPoint_spec h4 (only A hA rfl)
  have hdet : (Aᵀ - 1).det = 0 := by
    have h1 : ((Aᵀ - 1) * A) = -((A - 1) : Mat3) := by
      rw [Matrix.sub_mul, one_mul, hA.orthogonal']
      abel
    have h2 := congrArg Matrix.det h1
    rw [Matrix.det_mul, hA.det, mul_one, Matrix.det_neg] at h2
    have h4 : (A - 1).det = (Aᵀ - 1).det := by
      rw [← Matrix.det_transpose (A - 1), Matrix.transpose_sub, Matrix.transpose_one]
    rw [h4] at h2
    simp at h2
    linarith
  obtain ⟨y, hy, hy1⟩ := Matrix.exists_mulVec_eq_zero_iff.2 hdet
  obtain ⟨k, hk, hn⟩ := near_last h3 (x := 1) (tol := 1 / 10 ^ 8) (by positivity) hy (by
    rw [Matrix.sub_mulVec, Matrix.one_mulVec, sub_eq_zero] at hy1
    rw [hy1, one_smul])
  have hl := only Aᵀ hT rfl _ _ (h3.ne_zero k) (h3.vector k) hn
  obtain ⟨hr, hu, -⟩ := h3.re (x := 1) (by rw [hl, Complex.ofReal_one])
  rw [← dot3_realColumn] at hu
  set d := realColumn (eig3 Aᵀ).2 k with hdd
  have hAd : A *ᵥ d = d := by
    have := congrArg (fun w => A *ᵥ w) hr
    simp only [Matrix.mulVec_mulVec, one_smul, hA.orthogonal, Matrix.one_mulVec] at this
    exact this.symm
  obtain ⟨s, hcs, hAs⟩ := rot_axis hA hu hAd
  have hsine : sineOf (affine A t) d (cosine A) = some s := by
    have := sineOf_spec hu (cosine A) s t
    rwa [← hAs] at this
  obtain ⟨hsin, hcos⟩ := Transf.atan2_of_norm (x := cosine A) (y := s) one_pos (by linarith)
  rw [div_one] at hsin hcos
  refine ⟨o.map fun p => (atan2 s (cosine A), d, p), ?_, ?_, ?_⟩
  · unfold rotationFromMatrix
    rw [linear_affine, hk, ho]
    have hco : (affine A t 0 0 + affine A t 1 1 + affine A t 2 2 - 1) / 2 = cosine A := rfl
    simp only [hco]
    change Except.ok _ = _
    congr 1
    rw [← hdd, hsine]
    cases o <;> rfl
  · intro angle d' p hpq
    obtain ⟨p', hp', heq⟩ := Option.map_eq_some_iff.1 hpq
    simp only [Prod.mk.injEq] at heq
    obtain ⟨rfl, rfl, rfl⟩ := heq
    obtain ⟨h1, hfix⟩ := hp p' hp'
    refine ⟨(Transf.atan2_range _ _).1, (Transf.atan2_range _ _).2, hu, h1, ?_⟩
    unfold rotationMatrix
    rw [unit3_of_one hu, hsin, hcos]
    simp only [Option.bind_eq_bind, Option.bind_some, Option.pure_def]
    have hR : (!![cosine A, 0, 0; 0, cosine A, 0; 0, 0, cosine A] + (1 - cosine A) • outer d d +
        !![0, -(d 2 * s), d 1 * s; d 2 * s, 0, -(d 0 * s); -(d 1 * s), d 0 * s, 0] : Mat3) = A := by
      refine Eq.trans ?_ hAs.symm
      ext a b
      fin_cases a <;> fin_cases b <;> simp [aboutAxis, outer, Matrix.vecHead, Matrix.vecTail] <;> ring
    rw [hR]
    congr 2
    funext i
    have := congrFun hfix i
    simp only [Pi.add_apply] at this
    linarith
  · intro hno
    exact hnone (Option.map_eq_none_iff.1 hno)

end Verif.Geom
