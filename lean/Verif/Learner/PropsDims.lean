import Verif.Learner.Props

/-!
# Property C104: reconstructions from data of a wrong dimension
-/

namespace Verif.Learner

open Verif.NMF

variable {M : Type} [DecidableEq M]

theorem pyGet_dim (l : List ℕ) (i d : ℕ) (h : l[i]? = some d) : pyGet l (i : ℤ) = .ok d := by
  unfold pyGet
  rw [if_neg (by omega), Int.toNat_natCast, h]

/-- A matrix has the number of columns which was declared for its modality. -/
def Fits (L : Learner M) (p : M × Data) : Prop := ∃ i, L.mod[i]? = some p.1 ∧ p.1 ∉ L.mod.take i ∧ L.dim[i]? = some p.2.mat.c

theorem fits_idx {L : Learner M} {p : M × Data} (h : Fits L p) : p.1 ∈ L.mod ∧ L.dim[L.mod.idxOf p.1]? = some p.2.mat.c := by
  obtain ⟨i, h1, h2, h3⟩ := h
  have hm : p.1 ∈ L.mod := List.mem_of_getElem? h1
  obtain ⟨hi, h1⟩ := List.getElem?_eq_some_iff.1 h1
  have hlt := List.idxOf_lt_length_iff.2 hm
  have hidx : L.mod.idxOf p.1 = i := by
    rcases lt_trichotomy (L.mod.idxOf p.1) i with h | h | h
    · exact absurd (List.mem_take_iff_getElem.2 ⟨L.mod.idxOf p.1, by omega, List.getElem_idxOf hlt⟩) h2
    · exact h
    · have := List.not_of_lt_findIdx (p := (· == p.1)) (xs := L.mod) (i := i) h
      simp [h1] at this
  rw [hidx]
  exact ⟨hm, h3⟩

theorem checkDim_fits {L : Learner M} {p : M × Data} (h : Fits L p) : L.checkDim p = .ok () := by
  obtain ⟨h1, h2⟩ := fits_idx h
  unfold Learner.checkDim Learner.getIndex
  rw [if_pos h1]
  simp only [bind, Except.bind]
  rw [pyGet_dim _ _ _ h2]
  simp [pure, Except.pure]

theorem mapM_checkDim {L : Learner M} {pre post : List (M × Data)} {p : M × Data} {e : PyErr}
    (hpre : ∀ q ∈ pre, Fits L q) (hp : L.checkDim p = .error e) : (pre ++ p :: post).mapM L.checkDim = .error e := by
  induction pre with
  | nil =>
    rw [List.nil_append, List.mapM_cons, hp]
    rfl
  | cons q pre ih =>
    rw [List.cons_append, List.mapM_cons, checkDim_fits (hpre q List.mem_cons_self),
      ih fun x hx => hpre x (List.mem_cons_of_mem _ hx)]
    rfl

/-- **C104.** Reconstructions raise `AssertionError` when a matrix does not have the number of columns of its modality, and
`ValueError` when the modality is not known, whichever comes first; this is so before training also. -/
theorem C104_wrong_data (L : Learner M) (hlen : L.mod.length = L.dim.length) (orig dest : List M) (data : List Data)
    (iterations : ℕ) (rnd : ℕ → ℕ → ℝ) (pre post : List (M × Data)) (m : M) (X : Data)
    (hsplit : orig.zip data = pre ++ (m, X) :: post) (hpre : ∀ q ∈ pre, Fits L q) :
    (m ∉ L.mod → L.reconstructInternalMulti orig data iterations rnd = .error .valueError ∧
      L.modalitiesToModalities orig dest data iterations rnd = .error .valueError) ∧
    (m ∈ L.mod → ¬Fits L (m, X) → L.reconstructInternalMulti orig data iterations rnd = .error .assertionError ∧
      L.modalitiesToModalities orig dest data iterations rnd = .error .assertionError) := by
  have key : ∀ e, L.checkDim (m, X) = .error e → L.reconstructInternalMulti orig data iterations rnd = .error e ∧
      L.modalitiesToModalities orig dest data iterations rnd = .error e := by
    intro e he
    have h1 : L.reconstructInternalMulti orig data iterations rnd = .error e := by
      unfold Learner.reconstructInternalMulti
      rw [hsplit, mapM_checkDim hpre he]
      rfl
    refine ⟨h1, ?_⟩
    unfold Learner.modalitiesToModalities
    rw [h1]
    rfl
  constructor
  · intro hm
    refine key _ ?_
    unfold Learner.checkDim Learner.getIndex
    rw [if_neg hm]
    rfl
  · intro hm hf
    refine key _ ?_
    have hlt := List.idxOf_lt_length_iff.2 hm
    unfold Learner.checkDim Learner.getIndex
    rw [if_pos hm]
    simp only [bind, Except.bind]
    rw [pyGet_dim _ _ _ (List.getElem?_eq_getElem (by omega))]
    simp only []
    rw [if_neg]
    intro hc
    refine hf ⟨L.mod.idxOf m, ?_, ?_, ?_⟩
    · rw [List.getElem?_eq_getElem hlt, List.getElem_idxOf]
    · intro hmem
      obtain ⟨j, hj, e⟩ := List.mem_take_iff_getElem.1 hmem
      have := List.not_of_lt_findIdx (p := (· == m)) (xs := L.mod) (i := j) (by show j < L.mod.idxOf m; omega)
      simp [e] at this
    · rw [List.getElem?_eq_getElem (by omega), ← hc]

/-- Two modalities of dimensions 2 and 1: a matrix which fits, then one which does not. -/
example : (⟨[true, false], [2, 1], [1, 1], 3, false, none⟩ : Learner Bool).reconstructInternalMulti [true, false]
    [⟨false, ⟨4, 2, fun _ _ => 1⟩⟩, ⟨false, ⟨4, 5, fun _ _ => 1⟩⟩] 7 (fun _ _ => 0) = .error .assertionError :=
  ((C104_wrong_data ⟨[true, false], [2, 1], [1, 1], 3, false, none⟩ rfl [true, false] [] _ 7 (fun _ _ => 0)
    [(true, ⟨false, ⟨4, 2, fun _ _ => 1⟩⟩)] [] false ⟨false, ⟨4, 5, fun _ _ => 1⟩⟩ rfl (by
      intro q hq
      simp only [List.mem_cons, List.not_mem_nil, or_false] at hq
      subst hq
      exact ⟨0, rfl, by simp, rfl⟩)).2 (by decide) (by
      rintro ⟨i, h1, -, h2⟩
      match i with
      | 0 => simp at h1
      | 1 => simp at h2
      | i + 2 => simp at h1)).1

end Verif.Learner
