import Verif.Objects.Props

/-!
# Property C99: names of files which give a label and a time
-/

namespace Verif.Objects

/-- Some digits. -/
def Digits (s : Str) : Prop := s ≠ [] ∧ ∀ c ∈ s, isDigit c = true

/-- The end of a name which gives a label and a time: `_o`, digits, `_`, digits, any character but a new line, digits, and
maybe a new line. -/
def Ending (s l t : Str) : Prop :=
  ∃ a c b nl, s = "_o".toList ++ l ++ "_".toList ++ t ++ nl ∧ t = a ++ c :: b ∧ Digits l ∧ Digits a ∧ Digits b ∧ c ≠ '\n' ∧
    (nl = [] ∨ nl = ['\n'])

theorem takeWhile_all {s : Str} (h : ∀ c ∈ s, isDigit c = true) : s.takeWhile isDigit = s ∧ s.dropWhile isDigit = [] := by
  induction s with
  | nil => exact ⟨rfl, rfl⟩
  | cons x s ih =>
    obtain ⟨h1, h2⟩ := ih fun c hc => h c (List.mem_cons_of_mem _ hc)
    rw [List.takeWhile_cons, List.dropWhile_cons, h x List.mem_cons_self]
    exact ⟨by simp [h1], by simpa using h2⟩

theorem mem_takeWhile_digit {s : Str} : ∀ c ∈ s.takeWhile isDigit, isDigit c = true := by
  induction s with
  | nil => simp
  | cons x s ih =>
    intro c hc
    rw [List.takeWhile_cons] at hc
    split_ifs at hc with hx
    · rcases List.mem_cons.1 hc with rfl | hc
      · exact hx
      · exact ih c hc
    · cases hc

theorem timeMatch_iff (t : Str) : timeMatch t = true ↔ ∃ a c b, t = a ++ c :: b ∧ Digits a ∧ Digits b ∧ c ≠ '\n' := by
  have hsplit : t.takeWhile isDigit ++ t.dropWhile isDigit = t := List.takeWhile_append_dropWhile
  have htw : ∀ c ∈ t.takeWhile isDigit, isDigit c = true := mem_takeWhile_digit
  have hn : isDigit '\n' = false := by decide
  constructor
  · intro h
    unfold timeMatch at h
    simp only [] at h
    rcases hd : t.dropWhile isDigit with _ | ⟨c, b⟩
    · rw [hd] at h hsplit
      rw [List.append_nil] at hsplit
      rw [hsplit] at h htw
      simp only [decide_eq_true_eq] at h
      match t, h with
      | x :: y :: z :: r, _ =>
        have hx := htw x (by simp)
        have hy := htw y (by simp)
        refine ⟨[x], y, z :: r, rfl, ⟨by simp, by simpa using hx⟩, ⟨by simp, fun c hc => htw c ?_⟩, ?_⟩
        · exact List.mem_cons_of_mem _ (List.mem_cons_of_mem _ hc)
        · rintro rfl
          rw [hn] at hy
          cases hy
    · rw [hd] at h hsplit
      simp only [decide_eq_true_eq, ne_eq] at h
      refine ⟨_, c, b, hsplit.symm, ⟨h.1, htw⟩, ⟨h.2.2.1, ?_⟩, h.2.1⟩
      exact fun x hx => List.all_eq_true.1 h.2.2.2 x hx
  · rintro ⟨a, c, b, rfl, ⟨ha, ha'⟩, ⟨hb, hb'⟩, hc⟩
    unfold timeMatch
    simp only []
    cases hdc : isDigit c with
    | true =>
      have hall : ∀ x ∈ a ++ c :: b, isDigit x = true := by
        intro x hx
        rcases List.mem_append.1 hx with h | h
        · exact ha' x h
        · rcases List.mem_cons.1 h with rfl | h
          · exact hdc
          · exact hb' x h
      rw [(takeWhile_all hall).1, (takeWhile_all hall).2]
      simp only [decide_eq_true_eq, List.length_append, List.length_cons]
      have := List.length_pos_of_ne_nil ha
      have := List.length_pos_of_ne_nil hb
      omega
    | false =>
      obtain ⟨h1, h2⟩ := takeWhile_append_stop a c b (List.all_eq_true.2 ha') hdc
      rw [h1, h2]
      simp only [decide_eq_true_eq]
      exact ⟨ha, hc, hb, List.all_eq_true.2 hb'⟩

theorem matchAt_iff (s l t : Str) : matchAt s = some (l, t) ↔ Ending s l t := by
  have hus : isDigit '_' = false := by decide
  have hn : isDigit '\n' = false := by decide
  constructor
  · intro h
    obtain ⟨r, rfl⟩ : ∃ r, s = '_' :: 'o' :: r := by
      unfold matchAt at h
      split at h
      · exact ⟨_, rfl⟩
      · cases h
    · unfold matchAt at h
      simp only [] at h
      have hsplit : r.takeWhile isDigit ++ r.dropWhile isDigit = r := List.takeWhile_append_dropWhile
      have htw : ∀ c ∈ r.takeWhile isDigit, isDigit c = true := mem_takeWhile_digit
      rcases hd : r.dropWhile isDigit with _ | ⟨u, t'⟩
      · rw [hd] at h; cases h
      · rw [hd] at h hsplit
        by_cases hu : u = '_'
        · subst hu
          simp only [] at h
          split_ifs at h with h1 h2 h2
          · obtain ⟨rfl, rfl⟩ := Prod.mk.inj (Option.some.inj h)
            obtain ⟨a, c, b, e, ha, hb, hc⟩ := (timeMatch_iff _).1 h2.2
            refine ⟨a, c, b, ['\n'], ?_, e, ⟨h2.1, htw⟩, ha, hb, hc, Or.inr rfl⟩
            have : t' = t'.dropLast ++ ['\n'] := by
              have := List.dropLast_append_getLast? '\n' h1
              exact this.symm
            conv_lhs => rw [← hsplit, this]
            simp
          · obtain ⟨rfl, rfl⟩ := Prod.mk.inj (Option.some.inj h)
            obtain ⟨a, c, b, e, ha, hb, hc⟩ := (timeMatch_iff _).1 h2.2
            refine ⟨a, c, b, [], ?_, e, ⟨h2.1, htw⟩, ha, hb, hc, Or.inl rfl⟩
            conv_lhs => rw [← hsplit]
            simp
        · exfalso
          revert h
          split
          · rename_i heq
            exact fun _ => hu (List.cons.inj heq).1
          · simp
  · rintro ⟨a, c, b, nl, rfl, rfl, ⟨hl, hl'⟩, ha, hb, hc, hnl⟩
    have hs : "_o".toList ++ l ++ "_".toList ++ (a ++ c :: b) ++ nl = '_' :: 'o' :: (l ++ '_' :: (a ++ c :: b ++ nl)) := by simp
    rw [hs]
    unfold matchAt
    simp only []
    obtain ⟨h1, h2⟩ := takeWhile_append_stop l '_' (a ++ c :: b ++ nl) (List.all_eq_true.2 hl') hus
    rw [h1, h2]
    simp only []
    have h3 : (if (a ++ c :: b ++ nl).getLast? = some '\n' then (a ++ c :: b ++ nl).dropLast else a ++ c :: b ++ nl) =
        a ++ c :: b := by
      rcases hnl with rfl | rfl
      · rw [if_neg, List.append_nil]
        intro hg
        have hm : (a ++ c :: b ++ []).getLast? = b.getLast? := by
          rw [List.append_nil, List.append_cons, List.getLast?_append_of_ne_nil _ hb.1]
        rw [hm] at hg
        have := hb.2 _ (List.mem_of_getLast? hg)
        rw [hn] at this
        cases this
      · rw [if_pos List.getLast?_concat]
        exact List.dropLast_concat
    rw [h3, if_pos ⟨hl, (timeMatch_iff _).2 ⟨a, c, b, rfl, ha, hb, hc⟩⟩]

theorem search_iff (s : Str) :
    (∀ l t, search s = some (l, t) → ∃ pre e, s = pre ++ e ∧ Ending e l t) ∧
    (search s = none → ∀ pre e l t, s = pre ++ e → ¬Ending e l t) := by
  have hne : ∀ l t, ¬Ending [] l t := by
    rintro l t ⟨a, c, b, nl, h, -⟩
    simp at h
  induction s with
  | nil =>
    refine ⟨fun l t h => (by cases h), fun _ pre e l t h => ?_⟩
    obtain ⟨rfl, rfl⟩ := List.append_eq_nil_iff.1 h.symm
    exact hne l t
  | cons x s ih =>
    unfold search
    rcases hm : matchAt (x :: s) with _ | ⟨l0, t0⟩
    · simp only []
      constructor
      · intro l t h
        obtain ⟨pre, e, rfl, he⟩ := ih.1 l t h
        exact ⟨x :: pre, e, rfl, he⟩
      · intro h pre e l t hs he
        cases pre with
        | nil =>
          rw [List.nil_append] at hs
          rw [← hs] at he
          rw [(matchAt_iff _ _ _).2 he] at hm
          cases hm
        | cons y pre =>
          exact ih.2 h pre e l t (List.cons.inj hs).2 he
    · simp only []
      constructor
      · intro l t h
        obtain ⟨rfl, rfl⟩ := Prod.mk.inj (Option.some.inj h)
        exact ⟨[], _, rfl, (matchAt_iff _ _ _).1 hm⟩
      · intro h
        cases h

/-- **C99.** A name with an end of the form expected gives the label and the time written there, and any other name raises
`ValueError`. -/
theorem C99_names (cv : Conv) (name : Str) :
    (∃ pre e l t, name = pre ++ e ∧ Ending e l t ∧
      parseFilename cv name = (do let l ← cv.toInt l; let t ← cv.toFloat t; return (l, t))) ∨
    ((∀ pre e l t, name = pre ++ e → ¬Ending e l t) ∧ parseFilename cv name = .error .valueError) := by
  unfold parseFilename
  rcases hs : search name with _ | ⟨l, t⟩
  · exact Or.inr ⟨(search_iff name).2 hs, rfl⟩
  · obtain ⟨pre, e, h1, h2⟩ := (search_iff name).1 l t hs
    exact Or.inl ⟨pre, e, l, t, h1, h2, rfl⟩

/-- A name with a time and one without decimals. -/
example : Ending "_o12_3.4".toList "12".toList "3.4".toList :=
  ⟨"3".toList, '.', "4".toList, [], by decide, by decide, by unfold Digits; decide, by unfold Digits; decide,
    by unfold Digits; decide, by decide, Or.inl rfl⟩

example : matchAt "_o12_34".toList = none := by decide

end Verif.Objects
