import Verif.Imports.Model
import Mathlib.Data.List.Nodup

/-!
# Properties of `_import_module`
-/

namespace Verif.Imports

variable {V : Type}

/-- The values of public names of a module: names which do not begin with `ignore`, if it is not empty. -/
def publicAttrs (ignore : Key) (attrs : List (Key × V)) : List (Key × V) :=
  attrs.filter fun a => !(ignore ≠ [] && ignore.isPrefixOf a.1)

theorem foldl_public (warn : Bool) (pre ignore : Key) (attrs : List (Key × V)) (s : State V) :
    attrs.foldl (importAttr warn pre ignore) s =
      (publicAttrs ignore attrs).foldl (fun s a =>
        ({ keepFormer warn pre a.1 s with globals := dictSet (keepFormer warn pre a.1 s).globals a.1 a.2 } : State V)) s := by
  induction attrs generalizing s with
  | nil => rfl
  | cons a l ih =>
    rw [List.foldl_cons, ih]
    unfold publicAttrs
    by_cases h : ignore ≠ [] ∧ ignore.isPrefixOf a.1
    · have h1 : importAttr warn pre ignore s a = s := by unfold importAttr; rw [if_pos h]
      rw [h1, List.filter_cons_of_neg]
      simpa using h
    · have h1 : importAttr warn pre ignore s a =
          { keepFormer warn pre a.1 s with globals := dictSet (keepFormer warn pre a.1 s).globals a.1 a.2 } := by
        unfold importAttr
        rw [if_neg h]
      rw [List.filter_cons_of_pos, List.foldl_cons, h1]
      simp only [Bool.not_eq_true', Bool.and_eq_false_iff, decide_eq_false_iff_not]
      by_cases h2 : ignore = []
      · exact Or.inl fun h => h h2
      · exact Or.inr (Bool.eq_false_iff.2 fun h3 => h ⟨h2, h3⟩)

theorem isPrefixOf_append {a b c : Key} (h : a.isPrefixOf b = true) : a.isPrefixOf (b ++ c) = true := by
  rw [List.isPrefixOf_iff_prefix] at h ⊢
  exact h.trans (List.prefix_append _ _)

/-- A turn for a public name. -/
def step (warn : Bool) (pre : Key) (s : State V) (a : Key × V) : State V :=
  { keepFormer warn pre a.1 s with globals := dictSet (keepFormer warn pre a.1 s).globals a.1 a.2 }

theorem step_get (warn : Bool) (pre : Key) (s : State V) (a : Key × V) (q : Key) :
    dictGet? (step warn pre s a).globals q = if a.1 = q then some a.2
      else if pre ≠ [] ∧ (dictGet? s.globals a.1).isSome ∧ pre ++ a.1 = q then dictGet? s.globals a.1
      else dictGet? s.globals q := by
  unfold step
  rw [dictGet?_set]
  by_cases h1 : a.1 = q
  · rw [if_pos h1, if_pos h1]
  rw [if_neg h1, if_neg h1]
  unfold keepFormer
  by_cases h2 : pre = []
  · rw [if_pos h2, if_neg fun h => h.1 h2]
  rw [if_neg h2]
  rcases hv : dictGet? s.globals a.1 with _ | v
  · cases warn <;> simp [State.warn]
  · by_cases h3 : pre ++ a.1 = q
    · simp only [dictGet?_set, h3, if_true]
      rw [if_pos ⟨h2, rfl, trivial⟩]
    · simp only [dictGet?_set, h3, if_false]
      rw [if_neg fun h => h.2.2]

theorem step_warned (warn : Bool) (pre : Key) (s : State V) (a : Key × V) :
    (step warn pre s a).warned = s.warned ++ if pre ≠ [] ∧ warn ∧ dictGet? s.globals a.1 = none then
      [noImplementation a.1] else [] := by
  unfold step keepFormer
  by_cases h : pre = []
  · simp [h]
  · rcases hv : dictGet? s.globals a.1 with _ | v
    · cases warn <;> simp [State.warn, h]
    · simp [h]

/-- The global names after public names have been imported one after the other. -/
theorem fold_globals (warn : Bool) (pre : Key) (l : List (Key × V)) (s : State V)
    (hn : (l.map Prod.fst).Nodup) (hp : pre ≠ [] → ∀ a ∈ l, ∀ b ∈ l, pre ++ a.1 ≠ b.1) :
    (∀ q v, (q, v) ∈ l → dictGet? (l.foldl (step warn pre) s).globals q = some v) ∧
    (pre ≠ [] → ∀ a ∈ l, ∀ v, dictGet? s.globals a.1 = some v →
      dictGet? (l.foldl (step warn pre) s).globals (pre ++ a.1) = some v) ∧
    (∀ q, q ∉ l.map Prod.fst → (pre = [] ∨ ∀ a ∈ l, (dictGet? s.globals a.1).isSome → q ≠ pre ++ a.1) →
      dictGet? (l.foldl (step warn pre) s).globals q = dictGet? s.globals q) ∧
    (l.foldl (step warn pre) s).warned = s.warned ++ if pre ≠ [] ∧ warn then
      (l.filter fun a => dictGet? s.globals a.1 = none).map fun a => noImplementation a.1 else [] := by
  induction l generalizing s with
  | nil => simp
  | cons a l ih =>
    rw [List.map_cons, List.nodup_cons] at hn
    have hs : ∀ b ∈ l, dictGet? (step warn pre s a).globals b.1 = dictGet? s.globals b.1 := by
      intro b hb
      rw [step_get, if_neg, if_neg]
      · rintro ⟨h, -, h'⟩
        exact hp h a (by simp) b (by simp [hb]) h'
      · rintro h
        exact hn.1 (h ▸ List.mem_map_of_mem hb)
    obtain ⟨h1, h2, h3, h4⟩ := ih (step warn pre s a) hn.2 fun h x hx y hy => hp h x (by simp [hx]) y (by simp [hy])
    simp only [List.foldl_cons]
    refine ⟨?_, ?_, ?_, ?_⟩
    · intro q v hv
      rcases List.mem_cons.1 hv with rfl | hv
      · rw [h3 q hn.1, step_get, if_pos rfl]
        by_cases h : pre = []
        · exact Or.inl h
        · exact Or.inr fun b hb _ h' => hp h b (by simp [hb]) (q, v) (by simp) h'.symm
      · exact h1 q v hv
    · intro h b hb v hv
      rcases List.mem_cons.1 hb with rfl | hb
      · rw [h3, step_get, if_neg (Ne.symm (hp h b (by simp) b (by simp))), if_pos ⟨h, by simp [hv], rfl⟩, hv]
        · intro hm
          obtain ⟨c, hc, he⟩ := List.mem_map.1 hm
          exact hp h b (by simp) c (by simp [hc]) he.symm
        · right
          intro c hc _ he
          have : b.1 = c.1 := List.append_cancel_left he
          exact hn.1 (this ▸ List.mem_map_of_mem hc)
      · exact h2 h b hb v (by rw [hs b hb, hv])
    · intro q hq hc
      rw [List.map_cons, List.mem_cons, not_or] at hq
      rw [h3 q hq.2, step_get, if_neg (Ne.symm hq.1), if_neg]
      · rintro ⟨h, h', h''⟩
        exact (hc.resolve_left h) a (by simp) h' h''.symm
      · rcases hc with hc | hc
        · exact Or.inl hc
        · right
          intro b hb hv
          rw [hs b hb] at hv
          exact hc b (by simp [hb]) hv
    · rw [h4, step_warned]
      have hf : (l.filter fun b => dictGet? (step warn pre s a).globals b.1 = none) =
          l.filter fun b => dictGet? s.globals b.1 = none := by
        apply List.filter_congr
        intro b hb
        rw [hs b hb]
      rw [hf, List.append_assoc]
      congr 1
      by_cases h : pre ≠ [] ∧ warn = true
      · by_cases hv : dictGet? s.globals a.1 = none
        · simp [h.1, h.2, hv]
        · simp [h.1, h.2, hv]
      · have : ¬ (pre ≠ [] ∧ warn = true ∧ dictGet? s.globals a.1 = none) := fun h' => h ⟨h'.1, h'.2.1⟩
        rw [if_neg h, if_neg h, if_neg this]
        rfl

/-- A name is public when it does not begin with `ignore`; all names are public if `ignore` is empty. -/
def Public (ignore name : Key) : Prop := ignore = [] ∨ ¬ ignore <+: name

theorem mem_public {ignore : Key} {attrs : List (Key × V)} {a : Key × V} :
    a ∈ publicAttrs ignore attrs ↔ a ∈ attrs ∧ Public ignore a.1 := by
  unfold publicAttrs Public
  rw [List.mem_filter, ← List.isPrefixOf_iff_prefix]
  by_cases h : ignore = []
  · simp [h]
  · simp only [h, ne_eq, not_false_eq_true, decide_true, Bool.true_and, false_or, Bool.not_eq_true', Bool.not_eq_true]

theorem public_nodup {ignore : Key} {attrs : List (Key × V)} (hn : (attrs.map Prod.fst).Nodup) :
    ((publicAttrs ignore attrs).map Prod.fst).Nodup :=
  hn.sublist ((List.filter_sublist).map _)

/-- **C189**.  A module which can be imported, with a prefix which is not public (as by default): its public names get
its values; names which had a value keep it under the prefixed name; no other name changes; there is a warning for each
public name which had no value. -/
theorem C189_imported (imported : Key → Option (List (Key × V))) (name : Key) (warn : Bool) (pre ignore : Key)
    (s : State V) (attrs : List (Key × V)) (hi : imported name = some attrs) (hn : (attrs.map Prod.fst).Nodup)
    (hpre : pre ≠ []) (hig : ignore ≠ []) (hp : ignore <+: pre) :
    ∃ r, importModule imported name warn pre ignore s = (r, some true) ∧
      (∀ a ∈ attrs, Public ignore a.1 → dictGet? r.globals a.1 = some a.2) ∧
      (∀ a ∈ attrs, Public ignore a.1 → ∀ v, dictGet? s.globals a.1 = some v → dictGet? r.globals (pre ++ a.1) = some v) ∧
      (∀ q, (∀ a ∈ attrs, Public ignore a.1 → q ≠ a.1 ∧ ((dictGet? s.globals a.1).isSome → q ≠ pre ++ a.1)) →
        dictGet? r.globals q = dictGet? s.globals q) ∧
      ∃ w : List Key, r.warned = s.warned ++ (if warn then w.map fun n => "No Python implementation of ".toList ++ n else []) ∧
        w.Sublist (attrs.map Prod.fst) ∧
        ∀ n, n ∈ w ↔ n ∈ attrs.map Prod.fst ∧ Public ignore n ∧ dictGet? s.globals n = none := by
  have hp' : pre ≠ [] → ∀ a ∈ publicAttrs ignore attrs, ∀ b ∈ publicAttrs ignore attrs, pre ++ a.1 ≠ b.1 := by
    intro _ a _ b hb he
    rcases (mem_public.1 hb).2 with h | h
    · exact hig h
    · exact h (he ▸ hp.trans (List.prefix_append _ _))
  obtain ⟨h1, h2, h3, h4⟩ := fold_globals warn pre (publicAttrs ignore attrs) s (public_nodup hn) hp'
  refine ⟨(publicAttrs ignore attrs).foldl (step warn pre) s, ?_, ?_, ?_, ?_, ?_⟩
  · unfold importModule
    rw [hi]
    simp only
    rw [foldl_public]
    rfl
  · exact fun a ha hpub => h1 a.1 a.2 (mem_public.2 ⟨ha, hpub⟩)
  · exact fun a ha hpub v hv => h2 hpre a (mem_public.2 ⟨ha, hpub⟩) v hv
  · intro q hq
    refine h3 q ?_ (Or.inr ?_)
    · intro hm
      obtain ⟨a, ha, rfl⟩ := List.mem_map.1 hm
      exact (hq a (mem_public.1 ha).1 (mem_public.1 ha).2).1 rfl
    · intro a ha hv
      exact (hq a (mem_public.1 ha).1 (mem_public.1 ha).2).2 hv
  · refine ⟨((publicAttrs ignore attrs).filter fun a => dictGet? s.globals a.1 = none).map Prod.fst, ?_, ?_, ?_⟩
    · rw [h4, List.map_map]
      cases warn
      · rw [if_neg fun h => Bool.false_ne_true h.2]
        rfl
      · rw [if_pos ⟨hpre, rfl⟩]
        rfl
    · exact ((List.filter_sublist).trans List.filter_sublist).map _
    · intro n
      simp only [List.mem_map, List.mem_filter, decide_eq_true_eq]
      constructor
      · rintro ⟨a, ⟨ha, hv⟩, rfl⟩
        exact ⟨⟨a, (mem_public.1 ha).1, rfl⟩, (mem_public.1 ha).2, hv⟩
      · rintro ⟨⟨a, ha, rfl⟩, hpub, hv⟩
        exact ⟨a, ⟨mem_public.2 ⟨ha, hpub⟩, hv⟩, rfl⟩

/-- **C189** (without prefix).  Public names get the values of the module, and nothing else changes. -/
theorem C189_no_prefix (imported : Key → Option (List (Key × V))) (name : Key) (warn : Bool) (ignore : Key)
    (s : State V) (attrs : List (Key × V)) (hi : imported name = some attrs) (hn : (attrs.map Prod.fst).Nodup) :
    ∃ r, importModule imported name warn [] ignore s = (r, some true) ∧ r.warned = s.warned ∧
      (∀ a ∈ attrs, Public ignore a.1 → dictGet? r.globals a.1 = some a.2) ∧
      ∀ q, (∀ a ∈ attrs, Public ignore a.1 → q ≠ a.1) → dictGet? r.globals q = dictGet? s.globals q := by
  obtain ⟨h1, -, h3, h4⟩ := fold_globals warn [] (publicAttrs ignore attrs) s (public_nodup hn) (fun h => absurd rfl h)
  refine ⟨(publicAttrs ignore attrs).foldl (step warn []) s, ?_, ?_, ?_, ?_⟩
  · unfold importModule
    rw [hi]
    simp only
    rw [foldl_public]
    rfl
  · rw [h4]
    simp
  · exact fun a ha hpub => h1 a.1 a.2 (mem_public.2 ⟨ha, hpub⟩)
  · intro q hq
    refine h3 q ?_ (Or.inl rfl)
    intro hm
    obtain ⟨a, ha, rfl⟩ := List.mem_map.1 hm
    exact hq a (mem_public.1 ha).1 (mem_public.1 ha).2 rfl

/-- **C189** (modules which cannot be imported).  No name changes; there is one warning, unless warnings are not asked
for, and the result is `None`. -/
theorem C189_failed (imported : Key → Option (List (Key × V))) (name : Key) (warn : Bool) (pre ignore : Key)
    (s : State V) (hi : imported name = none) :
    ∃ r, importModule imported name warn pre ignore s = (r, none) ∧ r.globals = s.globals ∧
      r.warned = s.warned ++ if warn then ["Failed to import module ".toList ++ name] else [] := by
  unfold importModule
  rw [hi]
  refine ⟨_, rfl, ?_, ?_⟩ <;> cases warn <;> simp [State.warn]

end Verif.Imports
