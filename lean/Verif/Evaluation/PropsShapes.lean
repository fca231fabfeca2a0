import Verif.Evaluation.Shapes
import Verif.Evaluation.Props

/-!
# Comparisons of labels for arrays of any shapes (C215)
-/

namespace Verif.Evaluation

open Verif

/-! ## Specification -/

/-- The value at a position of an axis which is repeated when its size is 1. -/
def repeated {α : Type} (l : List α) (i : ℕ) : Option α := if l.length = 1 then l[0]? else l[i]?

/-- Two sizes of an axis match, in `n` positions. -/
def Matching (a b n : ℕ) : Prop := (a = b ∧ n = a) ∨ (a = 1 ∧ n = b) ∨ (b = 1 ∧ n = a)

/-! ## Lemmas -/

theorem bdim_spec (a b n : ℕ) : bdim a b = some n ↔ Matching a b n := by
  unfold bdim Matching
  split_ifs with h1 h2 h3
  · subst h1
    simp only [Option.some.injEq, true_and]
    constructor
    · intro h; exact Or.inl h.symm
    · rintro (h | ⟨-, h⟩ | ⟨-, h⟩) <;> exact h.symm
  · subst h2
    simp only [Option.some.injEq, true_and]
    constructor
    · intro h; exact Or.inr (Or.inl h.symm)
    · rintro (⟨h, -⟩ | h | ⟨h, -⟩)
      · exact absurd h h1
      · exact h.symm
      · exact absurd h.symm h1
  · subst h3
    simp only [Option.some.injEq, true_and]
    constructor
    · intro h; exact Or.inr (Or.inr h.symm)
    · rintro (⟨h, -⟩ | ⟨h, -⟩ | h)
      · exact absurd h h1
      · exact absurd h h2
      · exact h.symm
  · simp only [reduceCtorEq, false_iff]
    rintro (⟨h, -⟩ | ⟨h, -⟩ | ⟨h, -⟩) <;> contradiction

theorem stretch_getElem? {α : Type} (n : ℕ) (l : List α) (i : ℕ) (hi : i < n) :
    (stretch n l)[i]? = repeated l i := by
  unfold stretch repeated
  split
  · simp [List.getElem?_replicate, hi]
  · rename_i h
    rw [if_neg]
    intro hl
    obtain ⟨a, rfl⟩ := List.length_eq_one_iff.1 hl
    exact h a rfl

theorem stretch_length {α : Type} (a b n : ℕ) (h : Matching a b n) (l : List α) (hl : l.length = a ∨ l.length = b) :
    (stretch n l).length = n := by
  unfold stretch
  split
  · simp
  · rename_i hne
    have h1 : l.length ≠ 1 := by
      intro hl
      obtain ⟨a, rfl⟩ := List.length_eq_one_iff.1 hl
      exact hne a rfl
    unfold Matching at h
    omega

theorem compareThreshold_iff (r : List ℚ) (l : List ℤ) (t : ℚ) (m : ℕ) (hr : r.length = m) (hl : l.length = m) :
    compareThreshold r l t = true ↔
      ∀ j < m, ∀ (a : ℚ) (b : ℤ), r[j]? = some a → l[j]? = some b → b = if t ≤ a then 1 else 0 := by
  unfold compareThreshold
  rw [List.all_eq_true]
  constructor
  · intro h j hj a b ha hb
    have := h (a, b) (by
      rw [List.mem_iff_getElem?]
      exact ⟨j, by rw [List.getElem?_zip_eq_some]; exact ⟨ha, hb⟩⟩)
    rw [decide_eq_true_eq] at this
    exact this.symm
  · rintro h ⟨a, b⟩ hab
    rw [List.mem_iff_getElem?] at hab
    obtain ⟨j, hj⟩ := hab
    rw [List.getElem?_zip_eq_some] at hj
    rw [decide_eq_true_eq]
    exact (h j (by have := (List.getElem?_eq_some_iff.mp hj.1).1; omega) a b hj.1 hj.2).symm

theorem pyUpto_nat (idx : List ℕ) (k : ℕ) : pyUpto idx (k : ℤ) = idx.take k := by
  unfold pyUpto
  rw [pyBound_nonneg (by omega), Int.toNat_natCast]
  rcases le_total idx.length k with h | h
  · rw [min_eq_right h, List.take_of_length_le h, List.take_of_length_le le_rfl]
  · rw [min_eq_left h]

theorem sum_binary (l : List ℤ) (h : ∀ x ∈ l, x = 0 ∨ x = 1) : l.sum = ((l.count 1 : ℕ) : ℤ) := by
  induction l with
  | nil => simp
  | cons x l ih =>
    rw [List.sum_cons, ih fun y hy => h y (List.mem_cons_of_mem _ hy)]
    rcases h x List.mem_cons_self with rfl | rfl
    · simp
    · simp [add_comm]

/-- What one row gives when sizes differ. -/
theorem rowGivenNb_iff (scores : List ℚ) (idx : List ℕ) (labels : List ℤ) (hidx : IsArgsort scores idx) :
    rowGivenNb idx labels = .ok true ↔ (∀ x ∈ labels, x = 0 ∨ x = 1) ∧
      ∀ j, j ∈ idx.take (labels.count 1) ↔ labels[j]? = some 1 := by
  have hnd : idx.Nodup := hidx.1.nodup_iff.mpr List.nodup_range
  have hcnt : ∀ n j, (idx.take n).count j = if j ∈ idx.take n then 1 else 0 := fun n j =>
    (List.Nodup.sublist (List.take_sublist _ _) hnd).count
  constructor
  · intro h
    unfold rowGivenNb at h
    split_ifs at h with hall
    injection h with h
    unfold compareGivenNb at h
    simp only [decide_eq_true_eq] at h
    have hv : ∀ j < labels.length, labels[j]? = some (((pyUpto idx labels.sum).count j : ℕ) : ℤ) := by
      intro j hj
      have := congrArg (fun l : List ℤ => l[j]?) h
      simp only [List.getElem?_map, List.getElem?_range hj, Option.map_some] at this
      exact this.symm
    have hbin : ∀ x ∈ labels, x = 0 ∨ x = 1 := by
      intro x hx
      obtain ⟨j, hj⟩ := List.mem_iff_getElem?.1 hx
      have := hv j (List.getElem?_eq_some_iff.mp hj).1
      rw [hj, Option.some.injEq] at this
      unfold pyUpto at this
      rw [hcnt] at this
      split_ifs at this <;> simp [this]
    refine ⟨hbin, fun j => ?_⟩
    rw [sum_binary labels hbin, pyUpto_nat] at hv hall
    rcases lt_or_ge j labels.length with hlt | hge
    · rw [hv j hlt, hcnt]
      split_ifs with hm <;> simp [hm]
    · rw [List.getElem?_eq_none_iff.mpr hge]
      simp only [reduceCtorEq, iff_false]
      intro hm
      have := List.all_eq_true.1 hall j hm
      simp at this
      omega
  · rintro ⟨hbin, h⟩
    unfold rowGivenNb
    rw [sum_binary labels hbin, pyUpto_nat]
    rw [if_pos]
    · congr 1
      unfold compareGivenNb
      simp only [decide_eq_true_eq]
      rw [sum_binary labels hbin, pyUpto_nat]
      apply List.ext_getElem
      · simp
      · intro j h1 h2
        rw [List.getElem_map, List.getElem_range, hcnt]
        have hj := h j
        rw [List.getElem?_eq_getElem h2, Option.some.injEq] at hj
        split_ifs with hm
        · rw [hj.1 hm]; rfl
        · rcases hbin _ (List.getElem_mem h2) with e | e
          · rw [e]; rfl
          · exact absurd (hj.2 e) hm
    · rw [List.all_eq_true]
      intro j hj
      simpa using (List.getElem?_eq_some_iff.mp ((h j).1 hj)).1

theorem rowGivenNb_cases (idx : List ℕ) (labels : List ℤ) :
    (∃ b, rowGivenNb idx labels = .ok b) ∨ rowGivenNb idx labels = .error .indexError := by
  unfold rowGivenNb
  split_ifs
  · exact Or.inl ⟨_, rfl⟩
  · exact Or.inr rfl

/-- Every element gives a value or the same error. -/
theorem mapM_same_error {A B : Type} (f : A → Py B) (e : PyErr) (l : List A)
    (h : ∀ a ∈ l, (∃ b, f a = .ok b) ∨ f a = .error e) :
    (∃ bs, l.mapM f = .ok bs ∧ List.Forall₂ (fun a b => f a = .ok b) l bs) ∨
      (l.mapM f = .error e ∧ ∃ a ∈ l, f a = .error e) := by
  induction l with
  | nil => exact Or.inl ⟨[], rfl, .nil⟩
  | cons a l ih =>
    rw [List.mapM_cons]
    rcases h a List.mem_cons_self with ⟨b, hb⟩ | ha
    · rcases ih fun x hx => h x (List.mem_cons_of_mem _ hx) with ⟨bs, e1, e2⟩ | ⟨e1, x, hx, e2⟩
      · refine Or.inl ⟨b :: bs, ?_, .cons hb e2⟩
        rw [hb, e1]; rfl
      · refine Or.inr ⟨?_, x, List.mem_cons_of_mem _ hx, e2⟩
        rw [hb, e1]; rfl
    · refine Or.inr ⟨?_, a, List.mem_cons_self, ha⟩
      rw [ha]; rfl

theorem pyGet_row {α : Type} (l : List α) (i : ℕ) :
    pyGet l (i : ℤ) = match l[i]? with | some x => .ok x | none => .error .indexError := by
  unfold pyGet
  rw [if_neg (by omega), Int.toNat_natCast]
  rfl

/-- Rows one by one. -/
theorem rowsGivenNb_spec (idx : List (List ℕ)) (labels : List (List ℤ)) (hne : labels ≠ []) :
    (∃ found, rowsGivenNb idx labels = .ok found ∧ found.length = labels.length ∧ labels.length ≤ idx.length ∧
      ∀ (i : ℕ) (l : List ℤ), labels[i]? = some l → ∃ r b, idx[i]? = some r ∧ found[i]? = some b ∧
        rowGivenNb r l = .ok b) ∨
    (rowsGivenNb idx labels = .error .indexError ∧ (idx.length < labels.length ∨
      ∃ (i : ℕ) (r : List ℕ) (l : List ℤ), idx[i]? = some r ∧ labels[i]? = some l ∧
        rowGivenNb r l = .error .indexError)) := by
  unfold rowsGivenNb
  rw [if_neg hne]
  have hf : ∀ p : List ℤ × ℕ, (do
      let r ← pyGet idx (p.2 : ℤ)
      rowGivenNb r p.1 : Py Bool) = match idx[p.2]? with
        | some r => rowGivenNb r p.1 | none => .error .indexError := by
    intro p
    rw [pyGet_row]
    cases idx[p.2]? <;> rfl
  rcases mapM_same_error (fun p : List ℤ × ℕ => (do
      let r ← pyGet idx (p.2 : ℤ)
      rowGivenNb r p.1 : Py Bool)) .indexError labels.zipIdx (by
        intro p _
        simp only [hf]
        cases idx[p.2]? with
        | none => exact Or.inr rfl
        | some r => exact rowGivenNb_cases r p.1) with ⟨bs, e1, e2⟩ | ⟨e1, p, hp, e2⟩
  · have hlen : bs.length = labels.length := by
      have := e2.length_eq
      rw [List.length_zipIdx] at this
      exact this.symm
    have hrow : ∀ (i : ℕ) (l : List ℤ), labels[i]? = some l → ∃ r b, idx[i]? = some r ∧ bs[i]? = some b ∧
        rowGivenNb r l = .ok b := by
      intro i l hl
      have hi : i < labels.length := (List.getElem?_eq_some_iff.mp hl).1
      have hz : labels.zipIdx[i]? = some (l, i) := by
        rw [List.getElem?_zipIdx, hl]
        simp
      have hb : bs[i]? = some bs[i] := List.getElem?_eq_getElem (by omega)
      have h2 := List.forall₂_iff_get.1 e2
      have := h2.2 i (by simpa using hi) (by omega)
      have hz' : labels.zipIdx.get ⟨i, by simpa using hi⟩ = (l, i) := by
        have := List.getElem?_eq_some_iff.mp hz
        exact this.2
      rw [hz', hf] at this
      cases hr : idx[i]? with
      | none => rw [hr] at this; cases this
      | some r => rw [hr] at this; exact ⟨r, _, rfl, hb, this⟩
    refine Or.inl ⟨bs, e1, hlen, ?_, hrow⟩
    by_contra hlt
    push Not at hlt
    have hpos : 0 < labels.length := by omega
    obtain ⟨r, b, hr, -⟩ := hrow (labels.length - 1) _ (List.getElem?_eq_getElem (by omega))
    have := (List.getElem?_eq_some_iff.mp hr).1
    omega
  · refine Or.inr ⟨e1, ?_⟩
    have hp' : labels[p.2]? = some p.1 := by
      obtain ⟨a, i⟩ := p
      have := List.mem_zipIdx_iff_getElem?.1 hp
      simpa using this
    simp only [hf] at e2
    cases hr : idx[p.2]? with
    | none =>
      left
      have h1 := List.getElem?_eq_none_iff.1 hr
      have h2 := (List.getElem?_eq_some_iff.mp hp').1
      omega
    | some r =>
      rw [hr] at e2
      exact Or.inr ⟨p.2, r, p.1, hr, hp', e2⟩

/-! ## C215: number of labels known -/

/-- **C215**: for two dimensions there is one result for each row of labels, and rows of activations beyond
are ignored. It raises `ValueError` without labels, else `IndexError` exactly when there are fewer rows of
activations than of labels or when one of the best activations of a row, as many as the sum of its labels, is
not in a column of labels. Otherwise a row is recognised exactly when its labels are zeros and ones and the ones
are the columns of the best activations. -/
theorem C215_given_nb (cols cols' : ℕ) (scores : List (List ℚ)) (idx : List (List ℕ)) (labels : List (List ℤ))
    (hidx : List.Forall₂ IsArgsort scores idx) :
    (labels = [] → compareGivenNbAny (.mat cols idx) (.mat cols' labels) = .error .valueError) ∧
    (labels ≠ [] →
      (compareGivenNbAny (.mat cols idx) (.mat cols' labels) = .error .indexError ↔
        scores.length < labels.length ∨ ∃ (i : ℕ) (r : List ℕ) (l : List ℤ), idx[i]? = some r ∧
          labels[i]? = some l ∧ ∃ j ∈ pyUpto r l.sum, l.length ≤ j) ∧
      (compareGivenNbAny (.mat cols idx) (.mat cols' labels) ≠ .error .indexError →
        ∃ found, compareGivenNbAny (.mat cols idx) (.mat cols' labels) = .ok found ∧
          found.length = labels.length ∧
          ∀ (i : ℕ) (r : List ℕ) (l : List ℤ), idx[i]? = some r → labels[i]? = some l →
            (found[i]? = some true ↔ (∀ x ∈ l, x = 0 ∨ x = 1) ∧
              ∀ j, j ∈ r.take (l.count 1) ↔ l[j]? = some 1))) := by
  have hlen := hidx.length_eq
  have herr : ∀ (r : List ℕ) (l : List ℤ), rowGivenNb r l = .error .indexError ↔
      ∃ j ∈ pyUpto r l.sum, l.length ≤ j := by
    intro r l
    unfold rowGivenNb
    split_ifs with h
    · simp only [reduceCtorEq, false_iff, not_exists, not_and, not_le]
      intro j hj
      simpa using List.all_eq_true.1 h j hj
    · simp only [true_iff]
      by_contra hc
      push Not at hc
      exact h (List.all_eq_true.2 fun j hj => by simpa using hc j hj)
  simp only [compareGivenNbAny]
  refine ⟨fun h => if_pos h, fun hne => ⟨?_, ?_⟩⟩
  · rcases rowsGivenNb_spec idx labels hne with ⟨found, e1, e2, e3, e4⟩ | ⟨e1, e2⟩
    · rw [e1]
      simp only [reduceCtorEq, false_iff, not_or, not_lt]
      refine ⟨by omega, ?_⟩
      rintro ⟨i, r, l, hr, hl, hj⟩
      obtain ⟨r', b, hr', -, hb⟩ := e4 i l hl
      rw [hr, Option.some.injEq] at hr'
      subst hr'
      rw [(herr r l).2 hj] at hb
      cases hb
    · rw [e1]
      simp only [true_iff]
      rcases e2 with h | ⟨i, r, l, hr, hl, h⟩
      · left; omega
      · exact Or.inr ⟨i, r, l, hr, hl, (herr r l).1 h⟩
  · intro hno
    rcases rowsGivenNb_spec idx labels hne with ⟨found, e1, e2, e3, e4⟩ | ⟨e1, e2⟩
    · refine ⟨found, e1, e2, fun i r l hr hl => ?_⟩
      obtain ⟨r', b, hr', hb, hv⟩ := e4 i l hl
      rw [hr, Option.some.injEq] at hr'
      subst hr'
      obtain ⟨s, hs⟩ : ∃ s, scores[i]? = some s := by
        have : i < scores.length := by rw [hlen]; exact (List.getElem?_eq_some_iff.mp hr).1
        exact ⟨_, List.getElem?_eq_getElem this⟩
      have hsort : IsArgsort s r := by
        have h2 := (List.forall₂_iff_get.1 hidx).2 i (List.getElem?_eq_some_iff.mp hs).1
          (List.getElem?_eq_some_iff.mp hr).1
        have a1 := (List.getElem?_eq_some_iff.mp hs).2
        have a2 := (List.getElem?_eq_some_iff.mp hr).2
        simp only [List.get_eq_getElem, a1, a2] at h2
        exact h2
      rw [← rowGivenNb_iff s r l hsort, hb, hv]
      simp
    · exact absurd e1 hno

/-- **C215**: as many columns of labels as of activations, or more, and as many rows of activations as of labels,
or more: no exception. A row whose labels are in the columns of activations and above all others is recognised;
one with more labels than columns of activations, or with a label in another column, is not. -/
theorem C215_wide_labels (cols cols' : ℕ) (scores : List (List ℚ)) (idx : List (List ℕ)) (labels : List (List ℤ))
    (hidx : List.Forall₂ IsArgsort scores idx) (hs : ∀ s ∈ scores, s.length = cols)
    (hl : ∀ l ∈ labels, l.length = cols') (hc : cols ≤ cols') (hn : labels.length ≤ scores.length)
    (hne : labels ≠ []) :
    ∃ found, compareGivenNbAny (.mat cols idx) (.mat cols' labels) = .ok found ∧ found.length = labels.length ∧
      ∀ (i : ℕ) (s : List ℚ) (l : List ℤ), scores[i]? = some s → labels[i]? = some l →
        (∀ j, cols ≤ j → l[j]? = some 1 → found[i]? = some false) ∧
        (cols < l.count 1 → found[i]? = some false) ∧
        ((∀ x ∈ l, x = 0 ∨ x = 1) → (∀ j, cols ≤ j → l[j]? ≠ some 1) →
          (∀ j k, k < cols → l[j]? = some 1 → l[k]? = some 0 → s.getD k 0 < s.getD j 0) →
          found[i]? = some true) := by
  have hlen := hidx.length_eq
  have hrow : ∀ (i : ℕ) (r : List ℕ), idx[i]? = some r → ∃ s, scores[i]? = some s ∧ s.length = cols ∧
      IsArgsort s r := by
    intro i r hr
    obtain ⟨s, hs'⟩ : ∃ s, scores[i]? = some s := by
      have : i < scores.length := by rw [hlen]; exact (List.getElem?_eq_some_iff.mp hr).1
      exact ⟨_, List.getElem?_eq_getElem this⟩
    refine ⟨s, hs', hs s (List.mem_iff_getElem?.2 ⟨i, hs'⟩), ?_⟩
    have h2 := (List.forall₂_iff_get.1 hidx).2 i (List.getElem?_eq_some_iff.mp hs').1
      (List.getElem?_eq_some_iff.mp hr).1
    have a1 := (List.getElem?_eq_some_iff.mp hs').2
    have a2 := (List.getElem?_eq_some_iff.mp hr).2
    simp only [List.get_eq_getElem, a1, a2] at h2
    exact h2
  have hno : compareGivenNbAny (.mat cols idx) (.mat cols' labels) ≠ .error .indexError := by
    rw [Ne, ((C215_given_nb cols cols' scores idx labels hidx).2 hne).1]
    rintro (h | ⟨i, r, l, hr, hl', j, hj, hlj⟩)
    · omega
    · obtain ⟨s, -, hsl, hsort⟩ := hrow i r hr
      have h1 := hsort.1.mem_iff.1 (List.mem_of_mem_take hj)
      rw [List.mem_range] at h1
      have := hl l (List.mem_iff_getElem?.2 ⟨i, hl'⟩)
      omega
  obtain ⟨found, e1, e2, e3⟩ := ((C215_given_nb cols cols' scores idx labels hidx).2 hne).2 hno
  refine ⟨found, e1, e2, fun i s l hs' hl' => ?_⟩
  have hi : i < scores.length := (List.getElem?_eq_some_iff.mp hs').1
  obtain ⟨r, hr⟩ : ∃ r, idx[i]? = some r := ⟨_, List.getElem?_eq_getElem (by omega)⟩
  obtain ⟨s', hs'', hsl, hsort⟩ := hrow i r hr
  have hi' : i < labels.length := (List.getElem?_eq_some_iff.mp hl').1
  obtain ⟨b, hb⟩ : ∃ b, found[i]? = some b := ⟨_, List.getElem?_eq_getElem (by omega)⟩
  have hiff := e3 i r l hr hl'
  have hfalse : ¬ (found[i]? = some true) → found[i]? = some false := by
    intro h
    rw [hb] at h ⊢
    cases b
    · rfl
    · exact absurd rfl h
  refine ⟨fun j hj h1 => hfalse ?_, fun hcount => hfalse ?_, fun hbin hin habove => ?_⟩
  · rw [hiff]
    rintro ⟨-, h⟩
    have hm := hsort.1.mem_iff.1 (List.mem_of_mem_take ((h j).2 h1))
    rw [List.mem_range] at hm
    omega
  · rw [hiff]
    rintro ⟨hbin, h⟩
    -- all ones are in the columns of activations
    have hsub : ((List.range l.length).filter fun j => decide (l[j]? = some 1)) ⊆ List.range cols := by
      intro j hj
      rw [List.mem_filter, decide_eq_true_eq] at hj
      have hm := hsort.1.mem_iff.1 (List.mem_of_mem_take ((h j).2 hj.2))
      rw [List.mem_range] at hm ⊢
      omega
    have hle := (List.subperm_of_subset (List.Nodup.filter _ List.nodup_range) hsub).length_le
    rw [List.length_range, ← List.countP_eq_length_filter] at hle
    have : l.count 1 = (List.range l.length).countP fun j => decide (l[j]? = some 1) := by
      have e' : l.map some = (List.range l.length).map fun i => l[i]? := by
        apply List.ext_getElem
        · simp
        · intro i h1 h2
          simp at h1
          simp [h1]
      have e : l.countP (fun x => x == 1) = (l.map some).countP (fun o => decide (o = some 1)) := by
        rw [List.countP_map]
        apply List.countP_congr
        intro x _
        simp
      rw [List.count, e, e', List.countP_map]
      rfl
    omega
  · rw [hs', Option.some.injEq] at hs''
    subst hs''
    have hll : l.length = cols' := hl l (List.mem_iff_getElem?.2 ⟨i, hl'⟩)
    have hcount : (l.take cols).count 1 = l.count 1 := by
      conv_rhs => rw [← List.take_append_drop cols l]
      rw [List.count_append]
      have : (l.drop cols).count 1 = 0 := by
        rw [List.count_eq_zero]
        intro hm
        obtain ⟨k, hk⟩ := List.mem_iff_getElem?.1 hm
        rw [List.getElem?_drop] at hk
        exact hin (cols + k) (by omega) hk
      omega
    have hget : ∀ (j : ℕ) (v : ℤ), (l.take cols)[j]? = some v ↔ j < cols ∧ l[j]? = some v := by
      intro j v
      rw [List.getElem?_take]
      split_ifs with h
      · simp [h]
      · simp [h]
    have h49 := C49_given_nb s (l.take cols) r (by rw [List.length_take]; omega)
      (fun x hx => hbin x (List.mem_of_mem_take hx)) hsort
    have h := h49.1.1 (h49.2.1 fun j k hj hk => by
      rw [hget] at hj hk
      exact habove j k hk.1 hj.2 hk.2)
    rw [hiff]
    refine ⟨hbin, fun j => ?_⟩
    rw [← hcount, h j, hget]
    constructor
    · exact fun h => h.2
    · intro h1
      refine ⟨?_, h1⟩
      by_contra hc'
      exact hin j (by omega) h1

/-- **C215**: rows of activations beyond those of labels are ignored. -/
theorem C215_ignored (cols cols' : ℕ) (idx more : List (List ℕ)) (labels : List (List ℤ))
    (h : idx.length = labels.length) :
    compareGivenNbAny (.mat cols (idx ++ more)) (.mat cols' labels) =
      compareGivenNbAny (.mat cols idx) (.mat cols' labels) := by
  simp only [compareGivenNbAny, rowsGivenNb]
  split_ifs with hne
  · rfl
  · have : ∀ l : List (List ℤ × ℕ), (∀ p ∈ l, p.2 < idx.length) → (l.mapM fun p => (do
        let r ← pyGet (idx ++ more) (p.2 : ℤ)
        rowGivenNb r p.1 : Py Bool)) = l.mapM fun p => (do
        let r ← pyGet idx (p.2 : ℤ)
        rowGivenNb r p.1 : Py Bool) := by
      intro l hl
      induction l with
      | nil => rfl
      | cons p l ih =>
        rw [List.mapM_cons, List.mapM_cons, ih fun q hq => hl q (List.mem_cons_of_mem _ hq)]
        rw [pyGet_row, pyGet_row, List.getElem?_append_left (hl p List.mem_cons_self)]
    apply this
    rintro ⟨a, i⟩ hp
    have := List.mem_zipIdx_iff_getElem?.1 hp
    have := (List.getElem?_eq_some_iff.mp this).1
    simpa [h] using this

/-- **C215**: one row of activations and two dimensions of labels, or the contrary, always fail. -/
theorem C215_dimensions (idx : List ℕ) (labels : List ℤ) (cols : ℕ) (idxs : List (List ℕ))
    (rows : List (List ℤ)) :
    compareGivenNbAny (.vec idx) (.mat cols rows) = .error .typeError ∧
    compareGivenNbAny (.mat cols idxs) (.vec labels) =
      .error (if labels = [] then .valueError else .indexError) ∧
    compareGivenNbAny (.vec idx) (.vec labels) = compareGivenNbAny (.mat cols [idx]) (.mat cols [labels]) := by
  refine ⟨rfl, ?_, rfl⟩
  simp only [compareGivenNbAny]
  split_ifs
  · rfl
  · rfl

/-- **C215**: the score is the part of the rows which are recognised, and raises as the comparison. -/
theorem C215_scores (idx : NArr ℕ) (labels : NArr ℤ) :
    (∀ e, compareGivenNbAny idx labels = .error e → scoreGivenNbAny idx labels = .error e) ∧
    ∀ found, compareGivenNbAny idx labels = .ok found → found ≠ [] →
      scoreGivenNbAny idx labels = .ok (some ((found.count true : ℚ) / found.length)) := by
  constructor
  · intro e h
    unfold scoreGivenNbAny
    rw [h]
    rfl
  · intro found h hne
    unfold scoreGivenNbAny
    rw [h]
    show (Except.ok (average found) : Py (Option ℚ)) = _
    congr 1
    unfold average
    rw [if_neg hne]
    congr 2
    clear h hne
    induction found with
    | nil => simp
    | cons b l ih =>
      rw [List.map_cons, List.sum_cons, ih, List.count_cons]
      cases b
      · simp
      · simp [add_comm]

/-! ## C215: thresholds -/

/-- **C215**: recognition by threshold raises exactly when rows or columns do not match; a single row or column,
of activations or of labels, is compared with all others. -/
theorem C215_threshold (mismatch : PyErr) (reco : NArr ℚ) (labels : NArr ℤ) (t : ℚ) (hr : reco.Wf) (hl : labels.Wf) :
    ((¬ ∃ n m, Matching reco.rows.length labels.rows.length n ∧ Matching reco.cols labels.cols m) →
      compareThresholdAny mismatch reco labels t = .error mismatch ∧
        scoreThresholdAny mismatch reco labels t = .error mismatch) ∧
    ∀ n m, Matching reco.rows.length labels.rows.length n → Matching reco.cols labels.cols m →
      ∃ found, compareThresholdAny mismatch reco labels t = .ok found ∧ found.length = n ∧
        scoreThresholdAny mismatch reco labels t = .ok (average found) ∧
        ∀ i < n, ∃ r l, repeated reco.rows i = some r ∧ repeated labels.rows i = some l ∧
          (found[i]? = some true ↔ ∀ j < m, ∃ a b, repeated r j = some a ∧ repeated l j = some b ∧
            b = if t ≤ a then 1 else 0) := by
  have wf : ∀ {α : Type} (a : NArr α), a.Wf → ∀ r ∈ a.rows, r.length = a.cols := by
    intro α a ha r hr
    cases a with
    | vec l =>
      rw [List.mem_singleton.1 hr]
      rfl
    | mat c rows => exact ha r hr
  refine ⟨fun h => ?_, fun n m hn hm => ?_⟩
  · have : compareThresholdAny mismatch reco labels t = .error mismatch := by
      unfold compareThresholdAny
      cases e1 : bdim reco.rows.length labels.rows.length with
      | none => rfl
      | some n =>
        cases e2 : bdim reco.cols labels.cols with
        | none => rfl
        | some m => exact absurd ⟨n, m, (bdim_spec _ _ _).1 e1, (bdim_spec _ _ _).1 e2⟩ h
    refine ⟨this, ?_⟩
    unfold scoreThresholdAny
    rw [this]
    rfl
  · have e1 := (bdim_spec _ _ _).2 hn
    have e2 := (bdim_spec _ _ _).2 hm
    have hc : compareThresholdAny mismatch reco labels t = .ok (List.zipWith
        (fun r l => compareThreshold (stretch m r) (stretch m l) t)
        (stretch n reco.rows) (stretch n labels.rows)) := by
      unfold compareThresholdAny
      rw [e1, e2]
    have l1 := stretch_length _ _ _ hn reco.rows (Or.inl rfl)
    have l2 := stretch_length _ _ _ hn labels.rows (Or.inr rfl)
    refine ⟨_, hc, by rw [List.length_zipWith, l1, l2, min_self], ?_, ?_⟩
    · unfold scoreThresholdAny
      rw [hc]
      rfl
    · intro i hi
      obtain ⟨r, hri⟩ : ∃ r, (stretch n reco.rows)[i]? = some r := ⟨_, List.getElem?_eq_getElem (by omega)⟩
      obtain ⟨l, hli⟩ : ∃ l, (stretch n labels.rows)[i]? = some l := ⟨_, List.getElem?_eq_getElem (by omega)⟩
      have hri' := hri
      have hli' := hli
      rw [stretch_getElem? n _ i hi] at hri' hli'
      refine ⟨r, l, hri', hli', ?_⟩
      have memR : ∀ {α : Type} (rows : List (List α)) (x : List α), repeated rows i = some x → x ∈ rows := by
        intro α rows x h
        unfold repeated at h
        split_ifs at h
        · exact List.mem_iff_getElem?.2 ⟨0, h⟩
        · exact List.mem_iff_getElem?.2 ⟨i, h⟩
      have c1 := wf reco hr r (memR _ _ hri')
      have c2 := wf labels hl l (memR _ _ hli')
      have s1 := stretch_length _ _ _ hm r (Or.inl c1)
      have s2 := stretch_length _ _ _ hm l (Or.inr c2)
      rw [List.getElem?_zipWith, hri, hli]
      simp only [Option.some.injEq]
      rw [compareThreshold_iff _ _ t m s1 s2]
      constructor
      · intro h j hj
        obtain ⟨a, ha⟩ : ∃ a, (stretch m r)[j]? = some a := ⟨_, List.getElem?_eq_getElem (by omega)⟩
        obtain ⟨b, hb⟩ : ∃ b, (stretch m l)[j]? = some b := ⟨_, List.getElem?_eq_getElem (by omega)⟩
        refine ⟨a, b, ?_, ?_, h j hj a b ha hb⟩
        · rw [← stretch_getElem? m r j hj, ha]
        · rw [← stretch_getElem? m l j hj, hb]
      · intro h j hj a b ha hb
        obtain ⟨a', b', ha', hb', e⟩ := h j hj
        rw [stretch_getElem? m r j hj, ha', Option.some.injEq] at ha
        rw [stretch_getElem? m l j hj, hb', Option.some.injEq] at hb
        rw [← ha, ← hb]
        exact e

/-! ## Examples -/

/-- Three rows of activations for one row of labels, given the number of labels: the others are ignored. By
threshold this row is compared with the three. -/
example : compareGivenNbAny (.mat 2 [[1, 0], [0, 1], [0, 1]]) (.mat 2 [[0, 1]]) = .ok [true] ∧
    compareThresholdAny .valueError (.mat 2 [[0, 1], [1, 0], [1, 1]]) (.mat 2 [[0, 1]]) (1 / 2) =
      .ok [true, false, false] := by
  constructor <;> decide +kernel

/-- Three columns of activations for two of labels: an exception, or not. -/
example : compareGivenNbAny (.mat 3 [[2, 0, 1]]) (.mat 2 [[1, 0]]) = .error .indexError ∧
    compareGivenNbAny (.mat 3 [[0, 2, 1]]) (.mat 2 [[1, 0]]) = .ok [true] ∧
    compareThresholdAny .valueError (.mat 3 [[0, 1, 2]]) (.mat 2 [[1, 0]]) (1 / 2) = .error .valueError := by
  refine ⟨?_, ?_, ?_⟩ <;> decide +kernel

/-- Two columns of activations for three of labels, with too many labels and a label beyond. -/
example : compareGivenNbAny (.mat 2 [[1, 0], [0, 1], [1, 0]]) (.mat 3 [[0, 1, 0], [1, 1, 1], [0, 0, 1]]) =
    .ok [true, false, false] := by
  decide +kernel

example : List.Forall₂ IsArgsort [[0, 1], [2, 1]] [[1, 0], [0, 1]] :=
  .cons ⟨by decide, by decide +kernel⟩ (.cons ⟨by decide, by decide +kernel⟩ .nil)

example : Matching 3 1 3 ∧ Matching 1 1 1 ∧ ¬ ∃ n, Matching 3 2 n := by
  refine ⟨Or.inr (Or.inr ⟨rfl, rfl⟩), Or.inl ⟨rfl, rfl⟩, ?_⟩
  rintro ⟨n, h⟩
  unfold Matching at h
  omega

end Verif.Evaluation
