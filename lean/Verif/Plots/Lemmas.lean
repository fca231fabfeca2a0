import Verif.Plots.Model
import Verif.Window.PropsFrames
import Mathlib.Tactic.Ring
import Mathlib.Tactic.Linarith

/-! # Lemmas on the plots of scores -/

namespace Verif.Plots

open Verif Verif.Window

variable {X R : Type}

/-- What is subtracted from times: the beginning of the current window in relative mode. -/
def offset (rc : Dict Str Rc) (s : ℚ) : ℚ :=
  if (dictGet? rc "use_relative_time".toList).any Rc.truth then s else 0

/-- Whether an option is set to something true. -/
def optionOn (rc : Dict Str Rc) (k : Str) : Bool := (dictGet? rc k).any Rc.truth

theorem timeInCurrent_eq (p : Score X R) (t : ℚ) :
    p.timeInCurrent t = .ok (decide (p.current.start ≤ t ∧ t ≤ p.current.stop)) := by
  unfold Score.timeInCurrent checkTime
  by_cases h1 : t < p.current.start
  · simp [h1, not_le.2 h1]
  · by_cases h2 : p.current.stop < t
    · simp [h1, h2, not_le.2 h2]
    · simp [h1, h2, not_lt.1 h1, not_lt.1 h2]

theorem filterWindows_eq {β : Type} (p : Score X R) (l : List (BasicWin β)) :
    p.filterWindows l = .ok (l.filter fun w =>
      decide (p.current.start ≤ meanTime w ∧ meanTime w ≤ p.current.stop)) := by
  induction l with
  | nil => rfl
  | cons w l ih =>
    unfold Score.filterWindows
    rw [timeInCurrent_eq, ih, List.filter_cons]
    by_cases h : p.current.start ≤ meanTime w ∧ meanTime w ≤ p.current.stop
    · simp [h]; rfl
    · simp only [h, decide_false]; rfl

theorem relativeTime_eq (p : Score X R) (h : "use_relative_time".toList ∈ dictKeys p.rc) (t : ℚ) :
    p.relativeTime t = .ok (t - offset p.rc p.current.start) := by
  rw [← dictGet?_isSome, Option.isSome_iff_exists] at h
  obtain ⟨v, hv⟩ := h
  unfold Score.relativeTime dictItem offset
  rw [hv]
  by_cases hb : v.truth = true
  · simp only [hb, if_true, Option.any_some, bind, Except.bind, pure, Except.pure]
  · rw [Bool.not_eq_true] at hb
    simp only [hb, Option.any_some, Bool.false_eq_true, if_false, sub_zero, bind, Except.bind, pure,
      Except.pure]

theorem relative_start (p : Score X R) (h : "use_relative_time".toList ∈ dictKeys p.rc) (a b : ℚ) :
    p.relative "start".toList a b = .ok (a - offset p.rc p.current.start) := by
  unfold Score.relative
  rw [if_pos rfl, relativeTime_eq p h]

theorem relative_end (p : Score X R) (h : "use_relative_time".toList ∈ dictKeys p.rc) (a b : ℚ) :
    p.relative "end".toList a b = .ok (b - offset p.rc p.current.start) := by
  unfold Score.relative
  rw [if_neg (by decide), if_pos rfl, relativeTime_eq p h]

theorem relative_mean (p : Score X R) (h : "use_relative_time".toList ∈ dictKeys p.rc) (a b : ℚ) :
    p.relative "mean".toList a b = .ok (1 / 2 * (b + a) - offset p.rc p.current.start) := by
  unfold Score.relative
  rw [if_neg (by decide), if_neg (by decide), if_pos rfl, relativeTime_eq p h]

theorem max_sub (a b c : ℚ) : max (a - c) (b - c) = max a b - c := by
  rcases le_total a b with h | h
  · rw [max_eq_right h, max_eq_right (by linarith)]
  · rw [max_eq_left h, max_eq_left (by linarith)]

theorem min_sub (a b c : ℚ) : min (a - c) (b - c) = min a b - c := by
  rcases le_total a b with h | h
  · rw [min_eq_left h, min_eq_left (by linarith)]
  · rw [min_eq_right h, min_eq_right (by linarith)]

theorem boundary_eq (p : Score X R) (h : "use_relative_time".toList ∈ dictKeys p.rc)
    (w : BasicWin Unit) :
    p.boundary w = .ok (max w.start p.current.start - offset p.rc p.current.start,
      min w.stop p.current.stop - offset p.rc p.current.start) := by
  unfold Score.boundary
  rw [relative_start p h, relative_start p h, relative_end p h, relative_end p h]
  simp only [bind, Except.bind, pure, Except.pure, max_sub, min_sub]

theorem pyMax_spec {l : List ℚ} (h : l ≠ []) : ∃ m, pyMax l = .ok m ∧ m ∈ l ∧ ∀ v ∈ l, v ≤ m := by
  obtain ⟨a, l, rfl⟩ := List.exists_cons_of_ne_nil h
  refine ⟨l.foldl max a, rfl, ?_, ?_⟩
  · clear h
    induction l generalizing a with
    | nil => simp
    | cons b l ih =>
      rw [List.foldl_cons]
      have := ih (max a b)
      rcases List.mem_cons.1 this with h | h
      · rw [h]
        rcases max_choice a b with h' | h' <;> rw [h'] <;> simp
      · exact List.mem_cons_of_mem _ (List.mem_cons_of_mem _ h)
  · intro v hv
    have := (foldl_max_le_iff l a (l.foldl max a)).1 le_rfl
    rcases List.mem_cons.1 hv with rfl | hv
    · exact this.1
    · exact this.2 v hv

/-! ### Options -/

theorem dictKeys_update (d o : Dict Str Rc) (k : Str) :
    k ∈ dictKeys (o.foldl (fun d p => dictSet d p.1 p.2) d) ↔ k ∈ dictKeys d ∨ k ∈ dictKeys o := by
  induction o generalizing d with
  | nil => simp [dictKeys]
  | cons p o ih =>
    rw [List.foldl_cons, ih, dictKeys_set]
    have hc : k ∈ dictKeys (p :: o) ↔ k = p.1 ∨ k ∈ dictKeys o := by simp [dictKeys]
    rw [hc]
    split
    · rename_i hm
      constructor
      · tauto
      · rintro (h | rfl | h)
        · exact Or.inl h
        · exact Or.inl hm
        · exact Or.inr h
    · simp only [List.mem_append, List.mem_singleton]
      tauto

/-- Options which are given replace the default ones. -/
theorem dictGet?_update (d o : Dict Str Rc) (k : Str) (ho : (dictKeys o).Nodup) :
    dictGet? (o.foldl (fun d p => dictSet d p.1 p.2) d) k = (dictGet? o k).or (dictGet? d k) := by
  induction o generalizing d with
  | nil => rfl
  | cons p o ih =>
    have hk : dictKeys (p :: o) = p.1 :: dictKeys o := rfl
    rw [hk, List.nodup_cons] at ho
    rw [List.foldl_cons, ih _ ho.2, dictGet?_set]
    by_cases h : p.1 = k
    · subst h
      have : dictGet? o p.1 = none := by
        by_contra hc
        exact ho.1 ((dictGet?_isSome o p.1).1 (Option.isSome_iff_ne_none.2 hc))
      rw [if_pos rfl, this]
      simp [dictGet?, List.find?]
    · rw [if_neg h]
      have : dictGet? (p :: o) k = dictGet? o k := by simp [dictGet?, List.find?, h]
      rw [this]

/-! ### Construction -/

theorem similarity_eq (sliding : List (BasicWin Unit)) (rows : List (List ℚ)) (k : ℕ)
    (h : sliding.length + k ≤ rows.length) :
    (sliding.zipIdx k).mapM (similarityWin (.array rows : Arg X)) =
      .ok ((sliding.zip (rows.drop k)).map fun x => ⟨x.1.start, x.1.stop, x.2⟩) := by
  induction sliding generalizing k with
  | nil => rfl
  | cons w ws ih =>
    rw [List.length_cons] at h
    have hk : k < rows.length := by omega
    rw [List.zipIdx_cons, List.mapM_cons, ih (k + 1) (by omega), List.drop_eq_getElem_cons hk]
    unfold similarityWin Arg.row
    simp only []
    rw [pyGet_nat rows k hk]
    rfl

theorem similarity_short (sliding : List (BasicWin Unit)) (rows : List (List ℚ)) (k : ℕ)
    (hk : k ≤ rows.length) (h : rows.length < sliding.length + k) :
    (sliding.zipIdx k).mapM (similarityWin (.array rows : Arg X)) = .error .indexError := by
  induction sliding generalizing k with
  | nil => simp at h; omega
  | cons w ws ih =>
    rw [List.length_cons] at h
    rw [List.zipIdx_cons, List.mapM_cons]
    unfold similarityWin Arg.row
    simp only []
    rcases Nat.lt_or_ge k rows.length with hlt | hge
    · rw [pyGet_nat rows k hlt]
      have := ih (k + 1) hlt (by omega)
      unfold similarityWin Arg.row at this
      simp only [] at this
      simp only [bind, Except.bind, pure, Except.pure] at this ⊢
      rw [this]
    · unfold pyGet
      rw [if_neg (by omega), Int.toNat_natCast, List.getElem?_eq_none hge]
      rfl

/-! ### Drawing -/

theorem drawn_eq (p : Score X R) (rows : List (List ℚ)) (hlen : p.sliding.length ≤ rows.length)
    (hsim : p.similarity = (p.sliding.zip rows).map fun x => ⟨x.1.start, x.1.stop, x.2⟩)
    (kept : List (BasicWin Unit × List ℚ))
    (hkept : kept = (p.sliding.zip rows).filter fun x =>
      decide (p.current.start ≤ meanTime x.1 ∧ meanTime x.1 ≤ p.current.stop)) :
    p.filterWindows p.sliding = .ok (kept.map Prod.fst) ∧
    p.filterWindows p.similarity = .ok (kept.map fun x => ⟨x.1.start, x.1.stop, x.2⟩) := by
  have hs : p.sliding = (p.sliding.zip rows).map Prod.fst := (List.map_fst_zip hlen).symm
  constructor
  · rw [filterWindows_eq]
    conv_lhs => rw [hs]
    rw [List.filter_map, hkept]
    rfl
  · rw [filterWindows_eq, hsim, List.filter_map, hkept]
    rfl

theorem forall₂_map_right' {A B : Type} {P : A → B → Prop} (l : List A) (f : A → B)
    (h : ∀ x ∈ l, P x (f x)) : List.Forall₂ P l (l.map f) := by
  induction l with
  | nil => exact .nil
  | cons a l ih =>
    exact .cons (h a List.mem_cons_self) (ih fun x hx => h x (List.mem_cons_of_mem _ hx))

theorem mapM_segment (l : List ((ℚ × ℚ) × List ℚ)) (h : ∀ x ∈ l, x.2 ≠ []) :
    ∃ segs, l.mapM segment = .ok segs ∧ List.Forall₂ (fun x (g : ℚ × ℚ × ℚ) => g.1 = x.1.1 ∧
      g.2.1 = x.1.2 ∧ g.2.2 ∈ x.2 ∧ ∀ v ∈ x.2, v ≤ g.2.2) l segs := by
  induction l with
  | nil => exact ⟨[], rfl, .nil⟩
  | cons x l ih =>
    obtain ⟨segs, h1, h2⟩ := ih fun y hy => h y (List.mem_cons_of_mem _ hy)
    obtain ⟨m, hm, hm1, hm2⟩ := pyMax_spec (h x List.mem_cons_self)
    refine ⟨(x.1.1, x.1.2, m) :: segs, ?_, .cons ⟨rfl, rfl, hm1, hm2⟩ h2⟩
    rw [List.mapM_cons, h1]
    unfold segment
    rw [hm]
    rfl

end Verif.Plots
