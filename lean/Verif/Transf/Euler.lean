import Verif.Transf.Rotations

/-!
# Euler angles: entries of matrices
-/

namespace Verif.Transf

open Verif Real Matrix

theorem EPS_lt_one : EPS < 1 := by unfold EPS; norm_num

theorem atan2_sin_cos {x y : ℝ} (h : x * x + y * y ≠ 0) :
    sin (atan2 y x) = y / √(x * x + y * y) ∧ cos (atan2 y x) = x / √(x * x + y * y) := by
  have hn : ‖(⟨x, y⟩ : ℂ)‖ = √(x * x + y * y) := by
    rw [Complex.norm_def, Complex.normSq_mk]
  have h0 : (⟨x, y⟩ : ℂ) ≠ 0 := by
    intro hc
    apply h
    have h1 := congrArg Complex.re hc
    have h2 := congrArg Complex.im hc
    simp only [Complex.zero_re, Complex.zero_im] at h1 h2
    rw [h1, h2]
    ring
  unfold atan2
  rw [Complex.sin_arg, Complex.cos_arg h0, hn]
  exact ⟨rfl, rfl⟩

/-- Sine and cosine of `atan2` when the norm is known. -/
theorem atan2_of_norm {x y r : ℝ} (hr : 0 < r) (h : x * x + y * y = r * r) :
    sin (atan2 y x) = y / r ∧ cos (atan2 y x) = x / r := by
  have h1 := atan2_sin_cos (x := x) (y := y) (by rw [h]; positivity)
  rwa [h, sqrt_mul_self hr.le] at h1

theorem atan2_range (y x : ℝ) : -π < atan2 y x ∧ atan2 y x ≤ π := ⟨Complex.neg_pi_lt_arg _, Complex.arg_le_pi _⟩

theorem atan2_eq {r θ : ℝ} (hr : 0 < r) (h1 : -π < θ) (h2 : θ ≤ π) :
    atan2 (r * sin θ) (r * cos θ) = θ := by
  unfold atan2
  have := Complex.arg_mul_cos_add_sin_mul_I hr (θ := θ) ⟨h1, h2⟩
  refine (congrArg _ ?_).trans this
  apply Complex.ext
  · simp [Complex.cos_ofReal_re, Complex.sin_ofReal_re]
  · simp [Complex.cos_ofReal_re, Complex.sin_ofReal_re]

/-- Entries of an Euler matrix, in the order of its axes. -/
noncomputable def euler3 (repetition : Bool) (ai aj ak : ℝ) : Mat3 :=
  if repetition then
    !![cos aj, sin aj * sin ai, sin aj * cos ai;
      sin aj * sin ak, -cos aj * (sin ai * sin ak) + cos ai * cos ak,
        -cos aj * (cos ai * sin ak) - sin ai * cos ak;
      -sin aj * cos ak, cos aj * (sin ai * cos ak) + cos ai * sin ak,
        cos aj * (cos ai * cos ak) - sin ai * sin ak]
  else
    !![cos aj * cos ak, sin aj * (sin ai * cos ak) - cos ai * sin ak,
        sin aj * (cos ai * cos ak) + sin ai * sin ak;
      cos aj * sin ak, sin aj * (sin ai * sin ak) + cos ai * cos ak,
        sin aj * (cos ai * sin ak) - sin ai * cos ak;
      -sin aj, cos aj * sin ai, cos aj * cos ai]

theorem cs_perm (e : Equiv.Perm (Fin 3)) (a b : Fin 3) :
    ((e a).castSucc = (e b).castSucc) ↔ a = b := by
  rw [Fin.castSucc_inj, e.injective.eq_iff]

/-- The entries of `euler_matrix`. -/
theorem eulerEntries_block (e : Equiv.Perm (Fin 3)) (rep : Bool) (ai aj ak : ℝ) :
    (block (eulerEntries (e 0).castSucc (e 1).castSucc (e 2).castSucc rep ai aj ak)).submatrix e e =
      euler3 rep ai aj ak := by
  ext a b
  have h3 : ∀ x : Fin 3, x = 0 ∨ x = 1 ∨ x = 2 := by decide
  cases rep
  · rcases h3 a with rfl | rfl | rfl <;> rcases h3 b with rfl | rfl | rfl <;>
      simp [block, eulerEntries, setEntry, euler3]
  · rcases h3 a with rfl | rfl | rfl <;> rcases h3 b with rfl | rfl | rfl <;>
      simp [block, eulerEntries, setEntry, euler3]

theorem setEntry_homog {M : Mat4} (h : Homog M) (a b : Fin 3) (v : ℝ) :
    Homog (setEntry M a.castSucc b.castSucc v) := by
  constructor
  · intro x
    simp only [setEntry, Matrix.of_apply, (cs_ne b).symm, and_false, if_false]
    exact h.col x
  · intro x
    simp only [setEntry, Matrix.of_apply, (cs_ne a).symm, false_and, if_false]
    exact h.row x

theorem eulerEntries_homog (e : Equiv.Perm (Fin 3)) (rep : Bool) (ai aj ak : ℝ) :
    Homog (eulerEntries (e 0).castSucc (e 1).castSucc (e 2).castSucc rep ai aj ak) := by
  cases rep <;> (unfold eulerEntries; simp only [if_true, Bool.false_eq_true, if_false]) <;>
    repeat (first | exact homog_one | apply setEntry_homog)

theorem mat3_perm_ext (e : Equiv.Perm (Fin 3)) {A B : Mat3} (h : A.submatrix e e = B.submatrix e e) :
    A = B := by
  ext a b
  have := congrFun (congrFun h (e.symm a)) (e.symm b)
  simpa using this

/-- The tuples which encode axes. -/
def IsAxes (t : AxesTuple) : Prop := t ∈ axes2tuple.map Prod.snd

instance (t : AxesTuple) : Decidable (IsAxes t) := by unfold IsAxes; infer_instance

theorem resolve_isAxes {a : AxesArg} {t : AxesTuple} (h : resolve a = .ok t) : IsAxes t := by
  unfold IsAxes
  cases a with
  | name s =>
    simp only [resolve] at h
    split at h
    · rename_i p hp
      cases h
      exact List.mem_map_of_mem (List.mem_of_find?_eq_some hp)
    · cases h
  | tuple t' =>
    simp only [resolve] at h
    split at h
    · cases h
      assumption
    · cases h

theorem resolveLower_isAxes {a : AxesArg} {t : AxesTuple} (h : resolveLower a = .ok t) : IsAxes t := by
  cases a with
  | name s =>
    unfold IsAxes
    simp only [resolveLower] at h
    split at h
    · rename_i p hp
      cases h
      exact List.mem_map_of_mem (List.mem_of_find?_eq_some hp)
    · cases h
  | tuple t' => exact resolve_isAxes (a := .tuple t') h

/-- The axes of a tuple are a permutation of the three axes. -/
theorem axesOf_perm {t : AxesTuple} (h : IsAxes t) : ∃ e : Equiv.Perm (Fin 3),
    axesOf t = ((e 0).castSucc, (e 1).castSucc, (e 2).castSucc) := by
  revert h
  revert t
  unfold IsAxes
  decide +kernel

end Verif.Transf
