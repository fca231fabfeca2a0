import Verif.Experiment.PropsRuns
import Mathlib.Data.List.Infix

/-!
# Keys of results (C89 and C90): injectivity
-/

namespace Verif.Experiment

open Verif Verif.Logger

variable {σ α β L Λ : Type}

/-- Names which can be told apart inside of keys. -/
def Plain (m : Key) : Prop := '2' ∉ m ∧ '_' ∉ m ∧ m ≠ "bis".toList ∧ m ≠ "frob".toList ∧
  m ≠ "cosine".toList

instance (m : Key) : Decidable (Plain m) := by unfold Plain; infer_instance

theorem sep_inj {c : Char} {a a' b b' : Key} (h : c ∉ a) (h' : c ∉ a')
    (e : a ++ c :: b = a' ++ c :: b') : a = a' ∧ b = b' := by
  induction a generalizing a' with
  | nil =>
    cases a' with
    | nil => simpa using e
    | cons x a' =>
      simp only [List.nil_append, List.cons_append, List.cons.injEq] at e
      exact absurd (by rw [e.1]; exact List.mem_cons_self) h'
  | cons x a ih =>
    cases a' with
    | nil =>
      simp only [List.nil_append, List.cons_append, List.cons.injEq] at e
      exact absurd (by rw [← e.1]; exact List.mem_cons_self) h
    | cons y a' =>
      simp only [List.cons_append, List.cons.injEq] at e
      obtain ⟨h1, h2⟩ := ih (fun hc => h (List.mem_cons_of_mem _ hc))
        (fun hc => h' (List.mem_cons_of_mem _ hc)) e.2
      exact ⟨by rw [e.1, h1], h2⟩

theorem sep_nil {c : Char} {a a' b' : Key} (h : c ∉ a) (e : a = a' ++ c :: b') : False := by
  apply h
  rw [e]
  simp

/-- Empty, or beginning with an underscore. -/
def IsTail (t : Key) : Prop := t = [] ∨ ∃ r, t = '_' :: r

theorem tail_inj {a a' t t' : Key} (h : '_' ∉ a) (h' : '_' ∉ a') (ht : IsTail t) (ht' : IsTail t')
    (e : a ++ t = a' ++ t') : a = a' ∧ t = t' := by
  rcases ht with rfl | ⟨r, rfl⟩ <;> rcases ht' with rfl | ⟨r', rfl⟩
  · simpa using e
  · rw [List.append_nil] at e
    exact (sep_nil h e).elim
  · rw [List.append_nil] at e
    exact (sep_nil h' e.symm).elim
  · obtain ⟨h1, h2⟩ := sep_inj h h' e
    exact ⟨h1, by rw [h2]⟩

theorem suffix_cases {s : Key} (h : s ∈ SUFFIXES) :
    s = [] ∨ s = '_' :: "bis".toList ∨ s = '_' :: "frob".toList ∨ s = '_' :: "cosine".toList := by
  simp only [SUFFIXES, List.mem_cons, List.not_mem_nil, or_false] at h
  rcases h with rfl | rfl | rfl | rfl
  · exact Or.inl rfl
  · exact Or.inr (Or.inl rfl)
  · exact Or.inr (Or.inr (Or.inl rfl))
  · exact Or.inr (Or.inr (Or.inr rfl))

theorem suffix_tail {s : Key} (h : s ∈ SUFFIXES) : IsTail s := by
  rcases suffix_cases h with rfl | rfl | rfl | rfl
  · exact Or.inl rfl
  · exact Or.inr ⟨_, rfl⟩
  · exact Or.inr ⟨_, rfl⟩
  · exact Or.inr ⟨_, rfl⟩

/-- The part of the key about the compared modality. -/
def cmpPart : Option Key → Key
  | none => []
  | some m => '_' :: m

theorem cmp_suffix_inj {c c' : Option Key} {s s' : Key} (hs : s ∈ SUFFIXES) (hs' : s' ∈ SUFFIXES)
    (hc : ∀ m, c = some m → Plain m) (hc' : ∀ m, c' = some m → Plain m)
    (e : cmpPart c ++ s = cmpPart c' ++ s') : c = c' ∧ s = s' := by
  have one : ∀ {m s s' : Key}, Plain m → s ∈ SUFFIXES → s' ∈ SUFFIXES → ¬ s = '_' :: (m ++ s') := by
    intro m s s' hm hs hs' e
    obtain ⟨_, hu, h1, h2, h3⟩ := hm
    have hrest : ∀ t : Key, '_' ∉ t → t = m ++ s' → t = m := by
      intro t ht he
      rcases suffix_tail hs' with h0 | ⟨r, h0⟩
      · rw [he, h0, List.append_nil]
      · rw [h0] at he
        exact (sep_nil ht he).elim
    rcases suffix_cases hs with h0 | h0 | h0 | h0
    · rw [h0] at e
      cases e
    · rw [h0, List.cons.injEq] at e
      exact h1 (hrest _ (by decide) e.2).symm
    · rw [h0, List.cons.injEq] at e
      exact h2 (hrest _ (by decide) e.2).symm
    · rw [h0, List.cons.injEq] at e
      exact h3 (hrest _ (by decide) e.2).symm
  rcases c with _ | m <;> rcases c' with _ | m'
  · exact ⟨rfl, e⟩
  · exact (one (hc' m' rfl) hs hs' e).elim
  · exact (one (hc m rfl) hs' hs e.symm).elim
  · simp only [cmpPart, List.cons_append, List.cons.injEq, true_and] at e
    obtain ⟨h1, h2⟩ := tail_inj (hc m rfl).2.1 (hc' m' rfl).2.1 (suffix_tail hs) (suffix_tail hs') e
    exact ⟨by rw [h1], h2⟩

/-- **C89** (keys as strings). -/
theorem key2_inj {a a' b b' : Key} {c c' : Option Key} {s s' : Key} (ha : Plain a) (ha' : Plain a')
    (hb : Plain b) (hb' : Plain b') (hc : ∀ m, c = some m → Plain m)
    (hc' : ∀ m, c' = some m → Plain m) (hs : s ∈ SUFFIXES) (hs' : s' ∈ SUFFIXES)
    (e : a ++ '2' :: (b ++ cmpPart c ++ s) = a' ++ '2' :: (b' ++ cmpPart c' ++ s')) :
    a = a' ∧ b = b' ∧ c = c' ∧ s = s' := by
  obtain ⟨h1, h2⟩ := sep_inj ha.1 ha'.1 e
  have tail : ∀ (c : Option Key) {s : Key}, s ∈ SUFFIXES → IsTail (cmpPart c ++ s) := by
    intro c s hs
    rcases c with _ | m
    · exact suffix_tail hs
    · exact Or.inr ⟨_, rfl⟩
  rw [List.append_assoc, List.append_assoc] at h2
  obtain ⟨h3, h4⟩ := tail_inj hb.2.1 hb'.2.1 (tail c hs) (tail c' hs') h2
  obtain ⟨h5, h6⟩ := cmp_suffix_inj hs hs' hc hc' h4
  exact ⟨h1, h3, h5, h6⟩

/-! ### Joined names -/

theorem join_inj {l l' : List Key} (hne : l ≠ []) (hne' : l' ≠ []) (h : ∀ m ∈ l, '_' ∉ m)
    (h' : ∀ m ∈ l', '_' ∉ m) (e : joinUnderscore l = joinUnderscore l') : l = l' := by
  induction l generalizing l' with
  | nil => exact absurd rfl hne
  | cons a l ih =>
    cases l' with
    | nil => exact absurd rfl hne'
    | cons a' l' =>
      have ha := h a List.mem_cons_self
      have ha' := h' a' List.mem_cons_self
      rcases l with _ | ⟨b, l⟩ <;> rcases l' with _ | ⟨b', l'⟩
      · simpa [joinUnderscore] using e
      · simp only [joinUnderscore] at e
        exact (sep_nil ha e).elim
      · simp only [joinUnderscore] at e
        exact (sep_nil ha' e.symm).elim
      · simp only [joinUnderscore] at e
        obtain ⟨h1, h2⟩ := sep_inj ha ha' e
        have := ih (by simp) (by simp) (fun m hm => h m (List.mem_cons_of_mem _ hm))
          (fun m hm => h' m (List.mem_cons_of_mem _ hm)) h2
        rw [h1, this]

theorem join_append {l : List Key} (h : l ≠ []) (r : Key) :
    joinUnderscore (l ++ [r]) = joinUnderscore l ++ '_' :: r := by
  induction l with
  | nil => exact absurd rfl h
  | cons a l ih =>
    cases l with
    | nil => rfl
    | cons b l =>
      have := ih (by simp)
      simp only [List.cons_append, joinUnderscore] at this ⊢
      rw [this]
      simp

theorem join_no_two {l : List Key} (h : ∀ m ∈ l, '2' ∉ m) : '2' ∉ joinUnderscore l := by
  induction l with
  | nil => simp [joinUnderscore]
  | cons a l ih =>
    have ih := ih fun m hm => h m (List.mem_cons_of_mem _ hm)
    have ha := h a List.mem_cons_self
    cases l with
    | nil => simpa [joinUnderscore] using ha
    | cons b l =>
      simp only [joinUnderscore, List.mem_append, List.mem_cons, not_or]
      exact ⟨ha, by decide, ih⟩

/-- Names which are suffixes of keys. -/
def Reserved (m : Key) : Prop := m = "bis".toList ∨ m = "frob".toList ∨ m = "cosine".toList

/-- Names without `2` and `_`. -/
def NoSep (m : Key) : Prop := '2' ∉ m ∧ '_' ∉ m

/-- **C90** (keys as strings). -/
theorem key3_inj {a a' b b' : List Key} {s s' : Key} (ha0 : a ≠ []) (ha0' : a' ≠ []) (hb0 : b ≠ [])
    (hb0' : b' ≠ []) (ha : ∀ m ∈ a, NoSep m) (ha' : ∀ m ∈ a', NoSep m) (hb : ∀ m ∈ b, NoSep m)
    (hb' : ∀ m ∈ b', NoSep m) (hs : s ∈ SUFFIXES) (hs' : s' ∈ SUFFIXES)
    (e : joinUnderscore a ++ '2' :: (joinUnderscore b ++ s) =
      joinUnderscore a' ++ '2' :: (joinUnderscore b' ++ s')) :
    a = a' ∧ ((b = b' ∧ s = s') ∨ ∃ r, Reserved r ∧ (b = b' ++ [r] ∨ b' = b ++ [r])) := by
  obtain ⟨h1, h2⟩ := sep_inj (join_no_two fun m hm => (ha m hm).1)
    (join_no_two fun m hm => (ha' m hm).1) e
  refine ⟨join_inj ha0 ha0' (fun m hm => (ha m hm).2) (fun m hm => (ha' m hm).2) h1, ?_⟩
  -- the suffix is one more name
  have split : ∀ {b : List Key} {s : Key}, b ≠ [] → (∀ m ∈ b, NoSep m) → s ∈ SUFFIXES →
      ∃ r : List Key, joinUnderscore b ++ s = joinUnderscore (b ++ r) ∧
        (r = [] ∨ ∃ x, r = [x] ∧ Reserved x) ∧
        (∀ m ∈ b ++ r, '_' ∉ m) ∧ s = (r.map fun m => '_' :: m).flatten := by
    intro b s hb0 hb hs
    have one : ∀ x : Key, '_' ∉ x → Reserved x → s = '_' :: x →
        ∃ r : List Key, joinUnderscore b ++ s = joinUnderscore (b ++ r) ∧
        (r = [] ∨ ∃ x, r = [x] ∧ Reserved x) ∧
        (∀ m ∈ b ++ r, '_' ∉ m) ∧ s = (r.map fun m => '_' :: m).flatten := by
      rintro x hx hr rfl
      refine ⟨[x], (join_append hb0 _).symm, Or.inr ⟨x, rfl, hr⟩, ?_, by simp⟩
      intro m hm
      rw [List.mem_append, List.mem_singleton] at hm
      rcases hm with hm | rfl
      · exact (hb m hm).2
      · exact hx
    rcases suffix_cases hs with h0 | h0 | h0 | h0
    · subst h0
      exact ⟨[], by simp, Or.inl rfl, by simpa using fun m hm => (hb m hm).2, by simp⟩
    · exact one _ (by decide) (Or.inl rfl) h0
    · exact one _ (by decide) (Or.inr (Or.inl rfl)) h0
    · exact one _ (by decide) (Or.inr (Or.inr rfl)) h0
  obtain ⟨r, hr1, hr2, hr3, hr4⟩ := split hb0 hb hs
  obtain ⟨r', hr1', hr2', hr3', hr4'⟩ := split hb0' hb' hs'
  rw [hr1, hr1'] at h2
  have h3 := join_inj (by simp [hb0]) (by simp [hb0']) hr3 hr3' h2
  rcases hr2 with rfl | ⟨x, rfl, hx⟩ <;> rcases hr2' with rfl | ⟨x', rfl, hx'⟩
  · left
    rw [List.append_nil, List.append_nil] at h3
    exact ⟨h3, by rw [hr4, hr4']⟩
  · right
    rw [List.append_nil] at h3
    exact ⟨x', hx', Or.inl h3⟩
  · right
    rw [List.append_nil] at h3
    exact ⟨x, hx, Or.inr h3.symm⟩
  · left
    have := List.append_inj_left' h3 rfl
    have h4 := List.append_inj_right' h3 rfl
    exact ⟨this, by rw [hr4, hr4', h4]⟩

end Verif.Experiment
