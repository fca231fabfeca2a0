import Verif.Corpus.Props

/-!
# Property C115: the file of information on speakers
-/

namespace Verif.Corpus

variable {ws : Char → Bool}

/-- A line: words, each followed by white space. -/
def spell : List (Str × Str) → Str
  | [] => []
  | p :: l => p.1 ++ p.2 ++ spell l

/-- Words are not empty and have no white space; what follows each of them is white space, and is
not empty except perhaps at the end. -/
def WellSpelled (ws : Char → Bool) : List (Str × Str) → Prop
  | [] => True
  | p :: l => p.1 ≠ [] ∧ (∀ c ∈ p.1, ws c = false) ∧ (∀ c ∈ p.2, ws c = true) ∧
      (l ≠ [] → p.2 ≠ []) ∧ WellSpelled ws l

theorem wordsFrom_word (acc w s : Str) (h : ∀ c ∈ w, ws c = false) :
    wordsFrom ws acc (w ++ s) = wordsFrom ws (acc ++ w) s := by
  induction w generalizing acc with
  | nil => simp
  | cons c w ih =>
    rw [List.cons_append, wordsFrom, h c List.mem_cons_self]
    simp only [Bool.false_eq_true, if_false]
    rw [ih _ fun x hx => h x (List.mem_cons_of_mem _ hx)]
    simp

theorem wordsFrom_space (g s : Str) (h : ∀ c ∈ g, ws c = true) :
    wordsFrom ws [] (g ++ s) = wordsFrom ws [] s := by
  induction g with
  | nil => rfl
  | cons c g ih =>
    rw [List.cons_append, wordsFrom, if_pos (h c List.mem_cons_self), if_pos rfl,
      ih fun x hx => h x (List.mem_cons_of_mem _ hx)]

/-- The words of a spelled line. -/
theorem words_spell (lead : Str) (l : List (Str × Str)) (hlead : ∀ c ∈ lead, ws c = true)
    (h : WellSpelled ws l) : words ws (lead ++ spell l) = l.map Prod.fst := by
  unfold words
  rw [wordsFrom_space lead _ hlead]
  induction l with
  | nil => rfl
  | cons p l ih =>
    obtain ⟨h1, h2, h3, h4, h5⟩ := h
    rw [spell, List.append_assoc, wordsFrom_word [] p.1 _ h2, List.nil_append]
    cases hg : p.2 with
    | nil =>
      have : l = [] := by
        by_contra hc
        exact h4 hc hg
      subst this
      simp [spell, wordsFrom, h1]
    | cons c g =>
      rw [hg] at h3
      rw [List.cons_append, wordsFrom, if_pos (h3 c List.mem_cons_self), if_neg h1,
        wordsFrom_space g _ fun x hx => h3 x (List.mem_cons_of_mem _ hx), ih h5]
      rfl

/-- Every line is spelled in some way. -/
theorem exists_spell (s : Str) : ∃ lead l, (∀ c ∈ lead, ws c = true) ∧ WellSpelled ws l ∧
    s = lead ++ spell l := by
  induction s with
  | nil => exact ⟨[], [], by simp, trivial, rfl⟩
  | cons c s ih =>
    obtain ⟨lead, l, h1, h2, rfl⟩ := ih
    by_cases hc : ws c = true
    · exact ⟨c :: lead, l, by simpa [hc] using h1, h2, rfl⟩
    · have hc' : ws c = false := by simpa using hc
      cases lead with
      | nil =>
        cases l with
        | nil => exact ⟨[], [([c], [])], by simp, by simp [WellSpelled, hc'], by simp [spell]⟩
        | cons p l =>
          obtain ⟨a1, a2, a3, a4, a5⟩ := h2
          exact ⟨[], (c :: p.1, p.2) :: l, by simp, ⟨by simp, by simpa [hc'] using a2, a3, a4, a5⟩,
            by simp [spell]⟩
      | cons g lead =>
        exact ⟨[], ([c], g :: lead) :: l, by simp, ⟨by simp, by simpa using hc', h1, by simp, h2⟩,
          by simp [spell]⟩

theorem wordsFrom_append_space (s g : Str) (hg : ∀ c ∈ g, ws c = true) :
    ∀ acc, wordsFrom ws acc (s ++ g) = wordsFrom ws acc s := by
  induction s with
  | nil =>
    intro acc
    cases g with
    | nil => rfl
    | cons c g =>
      have h0 : wordsFrom ws [] g = [] := by
        have := wordsFrom_space (ws := ws) g [] fun x hx => hg x (List.mem_cons_of_mem _ hx)
        rw [List.append_nil] at this
        rw [this]; rfl
      simp [wordsFrom, hg c List.mem_cons_self, h0]
  | cons c s ih =>
    intro acc
    rw [List.cons_append, wordsFrom, wordsFrom, ih, ih]

theorem mem_takeWhile_true {s : Str} {c : Char} (h : c ∈ s.takeWhile ws) : ws c = true := by
  induction s with
  | nil => simp at h
  | cons x s ih =>
    rw [List.takeWhile_cons] at h
    split at h
    · rename_i hx
      rcases List.mem_cons.1 h with rfl | h
      · exact hx
      · exact ih h
    · simp at h

theorem words_strip (s : Str) : words ws (strip ws s) = words ws s := by
  unfold words strip
  have h1 : ∀ s : Str, wordsFrom ws [] (s.dropWhile ws) = wordsFrom ws [] s := by
    intro s
    conv_rhs => rw [← List.takeWhile_append_dropWhile (p := ws) (l := s)]
    rw [wordsFrom_space _ _ fun c hc => mem_takeWhile_true hc]
  have h2 : ∀ s : Str, wordsFrom ws [] ((s.reverse.dropWhile ws).reverse) = wordsFrom ws [] s := by
    intro s
    have e : s = (s.reverse.dropWhile ws).reverse ++ (s.reverse.takeWhile ws).reverse := by
      rw [← List.reverse_append, List.takeWhile_append_dropWhile, List.reverse_reverse]
    conv_rhs => rw [e]
    rw [wordsFrom_append_space]
    intro c hc
    exact mem_takeWhile_true (List.mem_reverse.1 hc)
  rw [h2, h1]

theorem joinSpace_eq (l : List Str) : joinSpace l = " ".toList.intercalate l := by
  induction l with
  | nil => rfl
  | cons a l ih =>
    cases l with
    | nil => simp [joinSpace]
    | cons b l =>
      rw [joinSpace, ih]
      simp [List.intercalate]

/-- **C115.** Whatever the white space around and between words, a line of four words or more gives
the speaker, their age, genre and accent, the other words being joined by single spaces to make the
region; a line with less than four words raises `ValueError`.  Every line is of one of these forms
(`exists_spell`). -/
theorem C115_line (lead : Str) (l : List (Str × Str)) (hlead : ∀ c ∈ lead, ws c = true)
    (h : WellSpelled ws l) :
    (∀ id age genre accent rest, l = id :: age :: genre :: accent :: rest →
      parseSpeakerInfo ws (lead ++ spell l) =
        .ok (id.1, ⟨age.1, genre.1, accent.1, " ".toList.intercalate (rest.map Prod.fst)⟩)) ∧
    (l.length < 4 → parseSpeakerInfo ws (lead ++ spell l) = .error .valueError) := by
  unfold parseSpeakerInfo
  rw [words_strip, words_spell lead l hlead h]
  constructor
  · rintro id age genre accent rest rfl
    rw [← joinSpace_eq]
    rfl
  · intro hl
    rcases l with _ | ⟨a, _ | ⟨b, _ | ⟨c, _ | ⟨d, l⟩⟩⟩⟩
    · rfl
    · rfl
    · rfl
    · rfl
    · simp at hl; omega

theorem C115_every_line (s : Str) : ∃ lead l, (∀ c ∈ lead, ws c = true) ∧ WellSpelled ws l ∧
    s = lead ++ spell l := exists_spell s

theorem mapM_ok_iff {α β : Type} (f : α → Py β) (l : List α) (r : List β) :
    l.mapM f = .ok r ↔ List.Forall₂ (fun a b => f a = .ok b) l r := by
  induction l generalizing r with
  | nil =>
    rw [List.mapM_nil]
    constructor
    · intro h
      obtain rfl : [] = r := Except.ok.inj h
      exact .nil
    · intro h; cases h; rfl
  | cons a l ih =>
    rw [List.mapM_cons]
    constructor
    · intro h
      cases ha : f a with
      | error e => rw [ha] at h; exact absurd h (by simp [bind, Except.bind])
      | ok b =>
        cases hl : l.mapM f with
        | error e => rw [ha, hl] at h; exact absurd h (by simp [bind, Except.bind])
        | ok bs =>
          rw [ha, hl] at h
          obtain rfl : b :: bs = r := Except.ok.inj h
          exact .cons ha ((ih bs).1 hl)
    · intro h
      cases h with
      | cons h1 h2 => rw [h1, (ih _).2 h2]; rfl

theorem file_aux (fs : Files) (root s : Str) (hread : fs.read (pathJoin root "speaker-info.txt".toList) = some s) :
    ((∃ info, parseSpeakersInfo ws fs root = .ok info) ↔ ∀ l ∈ lines s, 4 ≤ (words ws l).length) ∧
    ((∃ l ∈ lines s, (words ws l).length < 4) → parseSpeakersInfo ws fs root = .error .valueError) ∧
    ∀ info, parseSpeakersInfo ws fs root = .ok info →
      ∀ k, (∀ v, dictGet? info k = some v ↔ ∃ before l after, lines s = before ++ l :: after ∧
          parseSpeakerInfo ws l = .ok (k, v) ∧ ∀ l' ∈ after, ∀ v', parseSpeakerInfo ws l' ≠ .ok (k, v')) := by
  have hread' : fs.read (pathJoin root SPKR_FILE) = some s := hread
  have hline : ∀ l, (∃ p, parseSpeakerInfo ws l = .ok p) ↔ 4 ≤ (words ws l).length := by
    intro l
    unfold parseSpeakerInfo
    rw [words_strip]
    rcases words ws l with _ | ⟨a, _ | ⟨b, _ | ⟨c, _ | ⟨d, l⟩⟩⟩⟩ <;> simp
  have hbad : ∀ l, (words ws l).length < 4 → parseSpeakerInfo ws l = .error .valueError := by
    intro l
    unfold parseSpeakerInfo
    rw [words_strip]
    rcases words ws l with _ | ⟨a, _ | ⟨b, _ | ⟨c, _ | ⟨d, l⟩⟩⟩⟩ <;> simp
  have hp : parseSpeakersInfo ws fs root =
      (do let l ← (lines s).mapM (parseSpeakerInfo ws); return dictOf l) := by
    unfold parseSpeakersInfo; rw [hread']
  have hbad' : ∀ ls : List Str, (∃ l ∈ ls, (words ws l).length < 4) →
      ls.mapM (parseSpeakerInfo ws) = .error .valueError := by
    intro ls
    induction ls with
    | nil => rintro ⟨l, hl, _⟩; simp at hl
    | cons a ls ih =>
      rintro ⟨l, hl, hlt⟩
      rw [List.mapM_cons]
      by_cases ha : (words ws a).length < 4
      · rw [hbad a ha]; rfl
      · obtain ⟨p, hpa⟩ := (hline a).2 (by omega)
        rw [hpa, ih]
        · rfl
        · rcases List.mem_cons.1 hl with rfl | hl
          · exact absurd hlt ha
          · exact ⟨l, hl, hlt⟩
  refine ⟨?_, ?_, ?_⟩
  · constructor
    · rintro ⟨info, hi⟩ l hl
      by_contra hc
      rw [hp, hbad' _ ⟨l, hl, by omega⟩] at hi
      exact absurd hi (by simp [bind, Except.bind])
    · intro h
      obtain ⟨r, hr⟩ := Sound.mapM_exists (parseSpeakerInfo ws) (lines s) fun l hl => (hline l).2 (h l hl)
      exact ⟨dictOf r, by rw [hp, hr]; rfl⟩
  · intro h
    rw [hp, hbad' _ h]; rfl
  · intro info hi k v
    rw [hp] at hi
    cases hm : (lines s).mapM (parseSpeakerInfo ws) with
    | error e => rw [hm] at hi; exact absurd hi (by simp [bind, Except.bind])
    | ok r =>
      rw [hm] at hi
      simp only [bind, Except.bind, pure, Except.pure, Except.ok.injEq] at hi
      subst hi
      rw [mapM_ok_iff] at hm
      have key : ∀ (ls : List Str) (r : List (Str × Info)) (d : Dict Str Info),
          List.Forall₂ (fun a b => parseSpeakerInfo ws a = .ok b) ls r →
          (dictGet? (r.foldl (fun d p => dictSet d p.1 p.2) d) k = some v ↔
            (∃ before l after, ls = before ++ l :: after ∧ parseSpeakerInfo ws l = .ok (k, v) ∧
              ∀ l' ∈ after, ∀ v', parseSpeakerInfo ws l' ≠ .ok (k, v')) ∨
            ((∀ l' ∈ ls, ∀ v', parseSpeakerInfo ws l' ≠ .ok (k, v')) ∧ dictGet? d k = some v)) := by
        intro ls r d hf
        induction hf generalizing d with
        | nil => simp
        | @cons a p ls r ha hf ih =>
          rw [List.foldl_cons, ih, dictGet?_set]
          constructor
          · rintro (⟨b, l, af, rfl, h1, h2⟩ | ⟨h1, h2⟩)
            · exact Or.inl ⟨a :: b, l, af, rfl, h1, h2⟩
            · by_cases hk : p.1 = k
              · rw [if_pos hk, Option.some.injEq] at h2
                exact Or.inl ⟨[], a, ls, rfl, by rw [ha, ← hk, ← h2], h1⟩
              · rw [if_neg hk] at h2
                refine Or.inr ⟨?_, h2⟩
                intro l' hl'
                rcases List.mem_cons.1 hl' with rfl | hl'
                · intro v' he
                  rw [ha, Except.ok.injEq] at he
                  exact hk (by rw [he])
                · exact h1 l' hl'
          · rintro (⟨b, l, af, e, h1, h2⟩ | ⟨h1, h2⟩)
            · cases b with
              | nil =>
                obtain ⟨rfl, rfl⟩ := List.cons.inj e
                refine Or.inr ⟨h2, ?_⟩
                rw [ha, Except.ok.injEq] at h1
                rw [if_pos (by rw [h1]), h1]
              | cons x b =>
                obtain ⟨rfl, rfl⟩ := List.cons.inj e
                exact Or.inl ⟨b, l, af, rfl, h1, h2⟩
            · refine Or.inr ⟨fun l' hl' => h1 l' (List.mem_cons_of_mem _ hl'), ?_⟩
              rw [if_neg]
              · exact h2
              · intro hk
                exact h1 a List.mem_cons_self p.2 (by rw [ha, ← hk])
      unfold dictOf
      rw [key (lines s) r [] hm, dictGet?_nil]
      simp

/-- The lines of a text: none is empty, and a line feed ends each of them, except perhaps the last one. -/
def IsLines (ls : List Str) (s : Str) : Prop :=
  s = ls.flatten ∧ (∀ l ∈ ls, l ≠ [] ∧ '\n' ∉ l.dropLast) ∧ ∀ l ∈ ls.dropLast, l.getLast? = some '\n'

theorem lines_append (l s : Str) (h : '\n' ∉ l) : lines (l ++ '\n' :: s) = (l ++ ['\n']) :: lines s := by
  induction l with
  | nil => simp [lines]
  | cons c l ih =>
    rw [List.mem_cons, not_or] at h
    rw [List.cons_append, lines, if_neg (Ne.symm h.1), ih h.2]
    rfl

theorem lines_last (l : Str) (h : '\n' ∉ l.dropLast) (hl : l ≠ []) : lines l = [l] := by
  induction l with
  | nil => exact absurd rfl hl
  | cons c l ih =>
    cases l with
    | nil => by_cases hc : c = '\n' <;> simp [lines, hc]
    | cons d l =>
      rw [List.dropLast_cons₂, List.mem_cons, not_or] at h
      rw [lines, if_neg (Ne.symm h.1), ih h.2 (by simp)]

theorem lines_eq (ls : List Str) (s : Str) (h : IsLines ls s) : lines s = ls := by
  obtain ⟨rfl, h2, h3⟩ := h
  induction ls with
  | nil => rfl
  | cons a ls ih =>
    obtain ⟨a1, a2⟩ := h2 a List.mem_cons_self
    cases ls with
    | nil =>
      rw [List.flatten_cons, List.flatten_nil, List.append_nil]
      exact lines_last a a2 a1
    | cons b ls =>
      have hl := h3 a (by rw [List.dropLast_cons₂]; exact List.mem_cons_self)
      have ha : a = a.dropLast ++ ['\n'] := (List.dropLast_append_getLast? _ hl).symm
      rw [List.flatten_cons]
      conv_lhs => rw [ha]
      rw [List.append_assoc, List.singleton_append, lines_append _ _ a2, ih, ← ha]
      · exact fun l hl => h2 l (List.mem_cons_of_mem _ hl)
      · intro l hl
        refine h3 l ?_
        rw [List.dropLast_cons₂]
        exact List.mem_cons_of_mem _ hl

/-- **C115.** Every text has lines. -/
theorem C115_lines (s : Str) : ∃ ls, IsLines ls s := by
  induction s with
  | nil => exact ⟨[], rfl, by simp, by simp⟩
  | cons c s ih =>
    obtain ⟨ls, rfl, h2, h3⟩ := ih
    by_cases hc : c = '\n'
    · refine ⟨[c] :: ls, rfl, ?_, ?_⟩
      · intro l hl
        rcases List.mem_cons.1 hl with rfl | hl
        · simp
        · exact h2 l hl
      · intro l hl
        cases ls with
        | nil => simp at hl
        | cons b ls =>
          rw [List.dropLast_cons₂] at hl
          rcases List.mem_cons.1 hl with rfl | hl
          · simp [hc]
          · exact h3 l hl
    · cases ls with
      | nil => exact ⟨[[c]], rfl, by simp, by simp⟩
      | cons b ls =>
        obtain ⟨b1, b2⟩ := h2 b List.mem_cons_self
        obtain ⟨x, b', rfl⟩ := List.exists_cons_of_ne_nil b1
        refine ⟨(c :: x :: b') :: ls, rfl, ?_, ?_⟩
        · intro l hl
          rcases List.mem_cons.1 hl with rfl | hl
          · refine ⟨by simp, ?_⟩
            rw [List.dropLast_cons₂, List.mem_cons, not_or]
            exact ⟨Ne.symm hc, b2⟩
          · exact h2 l (List.mem_cons_of_mem _ hl)
        · intro l hl
          cases ls with
          | nil => simp at hl
          | cons d ls =>
            rw [List.dropLast_cons₂] at hl
            rcases List.mem_cons.1 hl with rfl | hl
            · have := h3 (x :: b') (by rw [List.dropLast_cons₂]; exact List.mem_cons_self)
              rw [List.getLast?_cons_cons]
              exact this
            · exact h3 l (by rw [List.dropLast_cons₂]; exact List.mem_cons_of_mem _ hl)

/-- **C115.** Parsing the file succeeds exactly when every line has four words or more.  Then the
information on a speaker is that of the last line which begins with their name, and there is none if
no line does. -/
theorem C115_file (fs : Files) (root s : Str) (hread : fs.read (pathJoin root "speaker-info.txt".toList) = some s)
    (ls : List Str) (hls : IsLines ls s) :
    ((∀ l ∈ ls, ∃ lead w, (∀ c ∈ lead, ws c = true) ∧ WellSpelled ws w ∧ l = lead ++ spell w ∧ 4 ≤ w.length) →
      ∃ info, parseSpeakersInfo ws fs root = .ok info) ∧
    ((∃ l ∈ ls, ∃ lead w, (∀ c ∈ lead, ws c = true) ∧ WellSpelled ws w ∧ l = lead ++ spell w ∧ w.length < 4) →
      parseSpeakersInfo ws fs root = .error .valueError) ∧
    ∀ info, parseSpeakersInfo ws fs root = .ok info →
      ∀ k, (∀ v, dictGet? info k = some v ↔ ∃ before l after, ls = before ++ l :: after ∧
          parseSpeakerInfo ws l = .ok (k, v) ∧ ∀ l' ∈ after, ∀ v', parseSpeakerInfo ws l' ≠ .ok (k, v')) := by
  obtain ⟨h1, h2, h3⟩ := file_aux (ws := ws) fs root s hread
  rw [lines_eq ls s hls] at h1 h2 h3
  refine ⟨fun h => h1.2 fun l hl => ?_, ?_, h3⟩
  · obtain ⟨lead, w, g1, g2, rfl, g3⟩ := h l hl
    rw [words_spell lead w g1 g2, List.length_map]
    exact g3
  · rintro ⟨l, hl, lead, w, g1, g2, rfl, g3⟩
    exact h2 ⟨_, hl, by rw [words_spell lead w g1 g2, List.length_map]; exact g3⟩

example : IsLines ["ID AGE\n".toList, "\n".toList, "225  23".toList] "ID AGE\n\n225  23".toList := by
  unfold IsLines
  decide

end Verif.Corpus
