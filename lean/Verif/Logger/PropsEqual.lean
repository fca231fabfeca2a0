import Verif.Logger.Equal
import Verif.Logger.Props

/-!
# Property C176: equality of loggers
-/

namespace Verif.Logger

variable {P A : Type}

/-- Only plain values. -/
def AllPlain (l : Logger P A) : Prop := ∀ d ∈ l.glob :: l.exps, ∀ kv ∈ d, ∃ p, kv.2 = .plain p

/-- The same content: same file, same values for the same keys, runs in the same order, same sets of keys. -/
structure SameLog (l l' : Logger P A) : Prop where
  filename : l.filename = l'.filename
  glob : SameDict l.glob l'.glob
  exps : List.Forall₂ SameDict l.exps l'.exps
  expKeys : ∀ k, k ∈ l.expKeys ↔ k ∈ l'.expKeys
  resultKeys : ∀ k, k ∈ l.resultKeys ↔ k ∈ l'.resultKeys

/-- How numpy compares an array to another one with the same values: a truth value exists for arrays with a single
value; it is false for an empty array, and `ValueError` is raised with several values. -/
structure Cmp.OK (c : Cmp P A) (size : A → ℕ) : Prop where
  one : ∀ a, size a = 1 → c.arrays a a = .ok true
  empty : ∀ a, size a = 0 → c.arrays a a = .ok false
  several : ∀ a, 2 ≤ size a → c.arrays a a = .error .valueError

theorem setEq_iff (a b : List Key) : setEq a b = true ↔ ∀ k, k ∈ a ↔ k ∈ b := by
  unfold setEq
  rw [decide_eq_true_iff]
  constructor
  · rintro ⟨h1, h2⟩ k
    exact ⟨h1 k, h2 k⟩
  · intro h
    exact ⟨fun k => (h k).1, fun k => (h k).2⟩

theorem get_of_mem {V : Type} {d : Dict Key V} (h : DictOK d) {k : Key} {v : V} (hm : (k, v) ∈ d) :
    dictGet? d k = some v := by
  induction d with
  | nil => cases hm
  | cons p d ih =>
    unfold DictOK dictKeys at h
    rw [List.map_cons, List.nodup_cons] at h
    unfold dictGet?
    rw [List.find?_cons]
    rcases List.mem_cons.1 hm with e | hm'
    · subst e
      simp
    · have hne : p.1 ≠ k := by
        rintro rfl
        exact h.1 (List.mem_map.2 ⟨_, hm', rfl⟩)
      simp only [hne, decide_false]
      exact ih h.2 hm'

theorem mem_of_get {V : Type} {d : Dict Key V} {k : Key} {v : V} (h : dictGet? d k = some v) : (k, v) ∈ d := by
  unfold dictGet? at h
  rw [Option.map_eq_some_iff] at h
  obtain ⟨p, hp, rfl⟩ := h
  have := List.find?_some hp
  simp only [decide_eq_true_eq] at this
  subst this
  exact List.mem_of_find?_eq_some hp

/-- Dictionaries with the same values have as many keys. -/
theorem sameDict_length {d e : Dict Key (Val P A)} (hd : DictOK d) (he : DictOK e) (h : SameDict d e) :
    d.length = e.length := by
  have : (dictKeys d).Perm (dictKeys e) := by
    rw [List.perm_ext_iff_of_nodup hd he]
    intro k
    rw [← dictGet?_isSome, ← dictGet?_isSome, h k]
  have := this.length_eq
  unfold dictKeys at this
  simpa using this

/-- With as many keys, values found in the other dictionary are all of its values. -/
theorem sameDict_of_sub {d e : Dict Key (Val P A)} (hd : DictOK d) (he : DictOK e) (hlen : d.length = e.length)
    (h : ∀ kv ∈ d, dictGet? e kv.1 = some kv.2) : SameDict d e := by
  intro k
  have hsub : dictKeys d ⊆ dictKeys e := by
    intro x hx
    obtain ⟨kv, hkv, rfl⟩ := List.mem_map.1 hx
    exact (dictGet?_isSome e kv.1).1 (by rw [h kv hkv]; rfl)
  have hperm : (dictKeys d).Perm (dictKeys e) :=
    (List.Nodup.subperm hd hsub).perm_of_length_le (by unfold dictKeys; simp [hlen])
  cases hk : dictGet? d k with
  | some v => exact (h _ (mem_of_get hk)).symm
  | none =>
    cases hk' : dictGet? e k with
    | none => rfl
    | some w =>
      have : k ∈ dictKeys e := (dictGet?_isSome e k).1 (by rw [hk']; rfl)
      have : k ∈ dictKeys d := hperm.mem_iff.2 this
      rw [← dictGet?_isSome, hk] at this
      cases this

section plain

variable [DecidableEq P] (c : Cmp P A)

theorem entries_plain (e : Dict Key (Val P A)) (he : ∀ kv ∈ e, ∃ p, kv.2 = .plain p) :
    ∀ d : List (Key × Val P A), (∀ kv ∈ d, ∃ p, kv.2 = .plain p) →
    ∃ b, entriesEq c.val e d = .ok b ∧ (b = true ↔ ∀ kv ∈ d, dictGet? e kv.1 = some kv.2) := by
  intro d
  induction d with
  | nil => intro _; exact ⟨true, rfl, by simp⟩
  | cons kv d ih =>
    intro h
    obtain ⟨k, v⟩ := kv
    obtain ⟨b, h1, h2⟩ := ih fun x hx => h x (List.mem_cons_of_mem _ hx)
    obtain ⟨p, hp⟩ := h (k, v) List.mem_cons_self
    simp only at hp
    subst hp
    unfold entriesEq
    cases hk : dictGet? e k with
    | none =>
      refine ⟨false, rfl, ?_⟩
      simp [hk]
    | some w =>
      obtain ⟨q, hq⟩ := he _ (mem_of_get hk)
      simp only at hq
      subst hq
      simp only [Cmp.val, bind, Except.bind]
      by_cases hpq : p = q
      · subst hpq
        refine ⟨b, by simpa using h1, ?_⟩
        simp only [List.forall_mem_cons, hk, true_and]
        exact h2
      · refine ⟨false, by simp [hpq], ?_⟩
        refine ⟨fun h => Bool.noConfusion h, fun h => ?_⟩
        have := h _ List.mem_cons_self
        rw [hk] at this
        injection this with this
        injection this with this
        exact absurd this.symm hpq

theorem dict_plain {d e : Dict Key (Val P A)} (hd : DictOK d) (he : DictOK e)
    (pd : ∀ kv ∈ d, ∃ p, kv.2 = .plain p) (pe : ∀ kv ∈ e, ∃ p, kv.2 = .plain p) :
    ∃ b, dictEq c.val d e = .ok b ∧ (b = true ↔ SameDict d e) := by
  unfold dictEq
  by_cases hl : d.length = e.length
  · rw [if_pos hl]
    obtain ⟨b, h1, h2⟩ := entries_plain c e pe d pd
    refine ⟨b, h1, h2.trans ⟨sameDict_of_sub hd he hl, fun h kv hkv => ?_⟩⟩
    rw [← h kv.1]
    exact get_of_mem hd hkv
  · rw [if_neg hl]
    exact ⟨false, rfl, by simpa using fun h => hl (sameDict_length hd he h)⟩

theorem items_plain : ∀ l l' : List (Dict Key (Val P A)), l.length = l'.length → (∀ d ∈ l, DictOK d) →
    (∀ d ∈ l', DictOK d) → (∀ d ∈ l, ∀ kv ∈ d, ∃ p, kv.2 = .plain p) →
    (∀ d ∈ l', ∀ kv ∈ d, ∃ p, kv.2 = .plain p) →
    ∃ b, itemsEq (dictEq c.val) l l' = .ok b ∧ (b = true ↔ List.Forall₂ SameDict l l') := by
  intro l
  induction l with
  | nil =>
    intro l' hl
    obtain rfl := List.length_eq_zero_iff.1 hl.symm
    intros
    exact ⟨true, rfl, by simp⟩
  | cons d l ih =>
    intro l' hl
    cases l' with
    | nil => cases hl
    | cons d' l' =>
      intro h1 h2 h3 h4
      obtain ⟨b, b1, b2⟩ := dict_plain c (h1 d List.mem_cons_self) (h2 d' List.mem_cons_self)
        (h3 d List.mem_cons_self) (h4 d' List.mem_cons_self)
      obtain ⟨b', c1, c2⟩ := ih l' (by simpa using hl) (fun x hx => h1 x (List.mem_cons_of_mem _ hx))
        (fun x hx => h2 x (List.mem_cons_of_mem _ hx)) (fun x hx => h3 x (List.mem_cons_of_mem _ hx))
        (fun x hx => h4 x (List.mem_cons_of_mem _ hx))
      unfold itemsEq
      simp only [b1, bind, Except.bind]
      cases b with
      | false =>
        refine ⟨false, rfl, ?_⟩
        rw [List.forall₂_cons]
        simp [← b2]
      | true =>
        refine ⟨b', c1, ?_⟩
        rw [List.forall₂_cons, ← b2, ← c2]
        simp

/-- **C176.** Without arrays, comparing two loggers never fails, and finds them equal exactly when they have the same
content. -/
theorem C176_plain (l l' : Logger P A) (h : WF l) (h' : WF l') (p : AllPlain l) (p' : AllPlain l') :
    ∃ b, l.eq c (some l') = .ok b ∧ (b = true ↔ SameLog l l') := by
  unfold Logger.eq
  simp only []
  by_cases hf : l.filename = l'.filename
  swap
  · exact ⟨false, by rw [if_neg hf], by simpa using fun h => hf h.filename⟩
  rw [if_pos hf]
  obtain ⟨g, g1, g2⟩ := dict_plain c h.1 h'.1 (p _ List.mem_cons_self) (p' _ List.mem_cons_self)
  simp only [g1, bind, Except.bind]
  cases g with
  | false => exact ⟨false, rfl, by simpa using fun h => by simpa using g2.2 h.glob⟩
  | true =>
    simp only [if_true]
    unfold listEq
    by_cases hl : l.exps.length = l'.exps.length
    · rw [if_pos hl]
      obtain ⟨e, e1, e2⟩ := items_plain c _ _ hl h.2 h'.2 (fun d hd => p d (List.mem_cons_of_mem _ hd))
        (fun d hd => p' d (List.mem_cons_of_mem _ hd))
      simp only [e1]
      cases e with
      | false => exact ⟨false, rfl, by simpa using fun h => by simpa using e2.2 h.exps⟩
      | true =>
        refine ⟨_, rfl, ?_⟩
        rw [Bool.and_eq_true, setEq_iff, setEq_iff]
        exact ⟨fun q => ⟨hf, g2.1 rfl, e2.1 rfl, q.1, q.2⟩, fun q => ⟨q.expKeys, q.resultKeys⟩⟩
    · rw [if_neg hl]
      exact ⟨false, rfl, by simpa using fun h => hl h.exps.length_eq⟩

end plain

theorem sameLog_symm {l l' : Logger P A} (h : SameLog l l') : SameLog l' l :=
  ⟨h.filename.symm, fun k => (h.glob k).symm, h.exps.flip.imp fun _ _ h k => (h k).symm, fun k => (h.expKeys k).symm,
    fun k => (h.resultKeys k).symm⟩

theorem sameLog_trans {l l' l'' : Logger P A} (h : SameLog l l') (h' : SameLog l' l'') : SameLog l l'' := by
  refine ⟨h.filename.trans h'.filename, fun k => (h.glob k).trans (h'.glob k), ?_,
    fun k => (h.expKeys k).trans (h'.expKeys k), fun k => (h.resultKeys k).trans (h'.resultKeys k)⟩
  have : ∀ a b c : List (Dict Key (Val P A)), List.Forall₂ SameDict a b → List.Forall₂ SameDict b c →
      List.Forall₂ SameDict a c := by
    intro a b c hab
    induction hab generalizing c with
    | nil => exact fun h => h
    | cons h1 _ ih =>
      intro hbc
      cases hbc with
      | cons h2 hbc => exact .cons (fun k => (h1 k).trans (h2 k)) (ih _ hbc)
  exact this _ _ _ h.exps h'.exps

/-- **C176.** Without arrays, equality of loggers is an equivalence. -/
theorem C176_equivalence [DecidableEq P] (c : Cmp P A) (l l' l'' : Logger P A) (h : WF l) (h' : WF l') (h'' : WF l'')
    (p : AllPlain l) (p' : AllPlain l') (p'' : AllPlain l'') :
    l.eq c (some l) = .ok true ∧ l.eq c (some l') = l'.eq c (some l) ∧
    (l.eq c (some l') = .ok true → l'.eq c (some l'') = .ok true → l.eq c (some l'') = .ok true) := by
  have key : ∀ a b : Logger P A, WF a → WF b → AllPlain a → AllPlain b →
      (a.eq c (some b) = .ok true ↔ SameLog a b) ∧ (a.eq c (some b) = .ok false ↔ ¬ SameLog a b) := by
    intro a b ha hb pa pb
    obtain ⟨x, e1, e2⟩ := C176_plain c a b ha hb pa pb
    rw [e1, ← e2]
    cases x <;> simp
  have hrefl : ∀ a : List (Dict Key (Val P A)), List.Forall₂ SameDict a a :=
    fun a => List.forall₂_same.2 fun _ _ _ => rfl
  refine ⟨(key l l h h p p).1.2 ⟨rfl, fun _ => rfl, hrefl _, fun _ => Iff.rfl, fun _ => Iff.rfl⟩, ?_, fun q q' => ?_⟩
  · by_cases hs : SameLog l l'
    · rw [(key l l' h h' p p').1.2 hs, (key l' l h' h p' p).1.2 (sameLog_symm hs)]
    · rw [(key l l' h h' p p').2.2 hs, (key l' l h' h p' p).2.2 fun q => hs (sameLog_symm q)]
  · exact (key l l'' h h'' p p'').1.2 (sameLog_trans ((key _ _ h h' p p').1.1 q) ((key _ _ h' h'' p' p'').1.1 q'))

/-- **C176.** An object which is not a logger is never equal to a logger. -/
theorem C176_other [DecidableEq P] (c : Cmp P A) (l : Logger P A) : l.eq c none = .ok false := rfl

/-! ### Loaded loggers -/

/-- What a comparison of equal values gives: `all` tells that all arrays have a single value, `some` that none is
empty. -/
structure Res (all some : Prop) (r : Py Bool) : Prop where
  one : all → r = .ok true
  other : ¬ all → r ≠ .ok true
  several : ¬ all → some → r = .error .valueError

theorem Res.and {p q p' q' : Prop} {r r' : Py Bool} (h : Res p q r) (h' : Res p' q' r') :
    Res (p ∧ p') (q ∧ q') (do
      let b ← r
      if b then r' else .ok false) := by
  constructor
  · rintro ⟨h1, h2⟩
    rw [h.one h1, h'.one h2]
    rfl
  · intro hn he
    by_cases h1 : p
    · rw [h.one h1] at he
      exact h'.other (fun h2 => hn ⟨h1, h2⟩) he
    · have := h.other h1
      rcases r with e | b
      · cases he
      · cases b
        · cases he
        · exact this rfl
  · rintro hn ⟨h3, h4⟩
    by_cases h1 : p
    · rw [h.one h1]
      exact h'.several (fun h2 => hn ⟨h1, h2⟩) h4
    · rw [h.several h1 h3]
      rfl

theorem Res.congr {p q p' q' : Prop} {r : Py Bool} (h : Res p q r) (hp : p ↔ p') (hq : q ↔ q') : Res p' q' r := by
  rwa [← propext hp, ← propext hq]

/-- All arrays of a dictionary are such. -/
def Arrays (d : Dict Key (Val P A)) (Q : A → Prop) : Prop := ∀ kv ∈ d, ∀ a, kv.2 = .arr a → Q a

section arrays

variable [DecidableEq P] (c : Cmp P A) (size : A → ℕ) (hc : c.OK size)
include hc

theorem val_same (v : Val P A) :
    Res (∀ a, v = .arr a → size a = 1) (∀ a, v = .arr a → size a ≠ 0) (c.val v v) := by
  cases v with
  | plain p => exact ⟨fun _ => by simp [Cmp.val], fun h => absurd (by simp) h, fun h => absurd (by simp) h⟩
  | arr a =>
    show Res _ _ (c.arrays a a)
    refine ⟨fun h => hc.one a (h a rfl), fun h => ?_, fun h h' => ?_⟩
    · have hne : size a ≠ 1 := fun e => h fun b hb => by injection hb with hb; rw [← hb]; exact e
      rcases Nat.lt_or_ge (size a) 2 with h2 | h2
      · rw [hc.empty a (by omega)]
        simp
      · rw [hc.several a h2]
        simp
    · have hne : size a ≠ 1 := fun e => h fun b hb => by injection hb with hb; rw [← hb]; exact e
      have := h' a rfl
      exact hc.several a (by omega)

theorem entries_same (e : Dict Key (Val P A)) : ∀ d : List (Key × Val P A),
    (∀ kv ∈ d, dictGet? e kv.1 = some kv.2) →
    Res (Arrays d fun a => size a = 1) (Arrays d fun a => size a ≠ 0) (entriesEq c.val e d) := by
  intro d
  induction d with
  | nil => exact fun _ => ⟨fun _ => rfl, fun h => absurd (by simp [Arrays]) h, fun h => absurd (by simp [Arrays]) h⟩
  | cons kv d ih =>
    intro h
    obtain ⟨k, v⟩ := kv
    unfold entriesEq
    rw [h _ List.mem_cons_self]
    simp only []
    refine ((val_same c size hc v).and (ih fun x hx => h x (List.mem_cons_of_mem _ hx))).congr ?_ ?_
    · unfold Arrays
      rw [List.forall_mem_cons]
    · unfold Arrays
      rw [List.forall_mem_cons]

theorem dict_same {d e : Dict Key (Val P A)} (hd : DictOK d) (he : DictOK e) (h : SameDict d e) :
    Res (Arrays d fun a => size a = 1) (Arrays d fun a => size a ≠ 0) (dictEq c.val d e) := by
  unfold dictEq
  rw [if_pos (sameDict_length hd he h)]
  refine entries_same c size hc e d fun kv hkv => ?_
  rw [← h kv.1]
  exact get_of_mem hd hkv

theorem items_same (l l' : List (Dict Key (Val P A))) (h : List.Forall₂ SameDict l l') :
    (∀ d ∈ l, DictOK d) → (∀ d ∈ l', DictOK d) →
    Res (∀ d ∈ l, Arrays d fun a => size a = 1) (∀ d ∈ l, Arrays d fun a => size a ≠ 0)
      (itemsEq (dictEq c.val) l l') := by
  induction h with
  | nil => exact fun _ _ => ⟨fun _ => rfl, fun h => absurd (by simp) h, fun h => absurd (by simp) h⟩
  | cons h _ ih =>
    intro h1 h2
    unfold itemsEq
    refine ((dict_same c size hc (h1 _ List.mem_cons_self) (h2 _ List.mem_cons_self) h).and
      (ih (fun x hx => h1 x (List.mem_cons_of_mem _ hx)) fun x hx => h2 x (List.mem_cons_of_mem _ hx))).congr ?_ ?_
    · rw [List.forall_mem_cons]
    · rw [List.forall_mem_cons]

/-- **C176.** A logger which is saved and loaded, with its file name, is found equal to the original exactly when
there was no result and all arrays have a single value; the comparison raises `ValueError` as soon as an array has
several values, when none is empty. -/
theorem C176_loaded (fs : FS P A) (l : Logger P A) (f : Key) (hwf : WF l) (hf : l.filename = some f)
    (hname : ¬ (".npz".toList <:+ f) ∨ AllPlain l) :
    ∃ fs' l', l.save fs = .ok fs' ∧ load fs' f true true = .ok l' ∧
      (l.eq c (some l') = .ok true ↔
        l.resultKeys = [] ∧ ∀ d ∈ l.glob :: l.exps, Arrays d fun a => size a = 1) ∧
      ((∀ d ∈ l.glob :: l.exps, Arrays d fun a => size a ≠ 0) →
        (∃ d ∈ l.glob :: l.exps, ∃ kv ∈ d, ∃ a, kv.2 = .arr a ∧ 2 ≤ size a) →
        l.eq c (some l') = .error .valueError) := by
  obtain ⟨fs', l', h1, h2, h3, h4, h5, h6, h7⟩ := C72_save_load fs l f true hwf hf hname
  refine ⟨fs', l', h1, h2, ?_⟩
  have hres := C73_result_keys_partial _ _ _ _ _ h2
  have rg := dict_same c size hc hwf.1 h7.1 fun k => (h3 k).symm
  have hex : List.Forall₂ SameDict l.exps l'.exps := by
    have := h4.flip
    exact this.imp fun a b h k => (h k).symm
  have re := items_same c size hc _ _ hex hwf.2 h7.2
  have hall : ∀ Q : A → Prop, (∀ d ∈ l.glob :: l.exps, Arrays d Q) ↔ Arrays l.glob Q ∧ ∀ d ∈ l.exps, Arrays d Q :=
    fun Q => List.forall_mem_cons
  unfold Logger.eq
  simp only []
  rw [if_pos (by rw [hf, h6]; rfl)]
  unfold listEq
  rw [if_pos hex.length_eq, hres, h5]
  have hset : (setEq l.expKeys l.expKeys && setEq l.resultKeys []) = true ↔ l.resultKeys = [] := by
    rw [Bool.and_eq_true, setEq_iff, setEq_iff]
    simp [List.eq_nil_iff_forall_not_mem]
  have rs : Res (l.resultKeys = []) False (.ok (setEq l.expKeys l.expKeys && setEq l.resultKeys [])) :=
    ⟨fun h => by rw [hset.2 h], fun h e => h (hset.1 (Except.ok.inj e)), fun _ h => h.elim⟩
  have r := rg.and (re.and rs)
  constructor
  · rw [hall]
    constructor
    · intro h
      by_contra hn
      exact r.other (fun q => hn ⟨q.2.2, q.1, q.2.1⟩) h
    · rintro ⟨q1, q2, q3⟩
      exact r.one ⟨q2, q3, q1⟩
  · intro hn hs
    rw [hall] at hn
    have hnot : ¬ ∀ d ∈ l.glob :: l.exps, Arrays d fun a => size a = 1 := by
      obtain ⟨d, hd, kv, hkv, a, ha, h2⟩ := hs
      intro h
      have := h d hd kv hkv a ha
      omega
    rw [hall] at hnot
    by_cases hg : Arrays l.glob fun a => size a = 1
    · rw [rg.one hg]
      show (do
        let e ← itemsEq (dictEq c.val) l.exps l'.exps
        _) = _
      rw [re.several (fun h => hnot ⟨hg, h⟩) hn.2]
      rfl
    · rw [rg.several hg hn.1]
      rfl

end arrays

/-! ### Examples -/

/-- Comparisons of lists of numbers, as numpy does. -/
def exCmp : Cmp ℕ (List ℕ) where
  arrays a b := if a.length ≠ b.length then .ok false else
    match a, b with
    | [x], [y] => .ok (x = y)
    | [], _ => .ok false
    | _, _ => .error .valueError
  plainArray _ _ := .error .valueError

theorem exCmp_ok : exCmp.OK List.length where
  one a h := by
    obtain ⟨x, rfl⟩ := List.length_eq_one_iff.1 h
    simp [exCmp]
  empty a h := by
    obtain rfl := List.length_eq_zero_iff.1 h
    rfl
  several a h := by
    match a, h with
    | _ :: _ :: _, _ => simp [exCmp]

/-- A log with these values. -/
def exEqual (v : List ℕ) (results : List Key) : Logger ℕ (List ℕ) :=
  ⟨[("k".toList, .plain 3)], [[("a".toList, .arr v)], []], ["a".toList], results, some "f".toList⟩

/-- C176: the three cases, without result and with an array of one value; with a result; with two values. -/
example : (∃ fs' l', (exEqual [4] []).save (fun _ => none) = .ok fs' ∧ load fs' "f".toList true true = .ok l' ∧
      (exEqual [4] []).eq exCmp (some l') = .ok true) ∧
    (∃ fs' l', (exEqual [4] ["a".toList]).save (fun _ => none) = .ok fs' ∧ load fs' "f".toList true true = .ok l' ∧
      (exEqual [4] ["a".toList]).eq exCmp (some l') ≠ .ok true) ∧
    ∃ fs' l', (exEqual [4, 4] []).save (fun _ => none) = .ok fs' ∧ load fs' "f".toList true true = .ok l' ∧
      (exEqual [4, 4] []).eq exCmp (some l') = .error .valueError := by
  have hw : ∀ v r, WF (exEqual v r) := by
    intro v r
    constructor
    · show (dictKeys [("k".toList, _)]).Nodup
      decide
    · intro e he
      rcases List.mem_pair.1 he with rfl | rfl <;> simp [DictOK, dictKeys]
  have key := fun v r => C176_loaded exCmp List.length exCmp_ok (fun _ => none) (exEqual v r) "f".toList (hw v r) rfl
    (Or.inl (by decide))
  refine ⟨?_, ?_, ?_⟩
  · obtain ⟨fs', l', h1, h2, h3, -⟩ := key [4] []
    exact ⟨fs', l', h1, h2, h3.2 ⟨rfl, by simp [exEqual, Arrays]⟩⟩
  · obtain ⟨fs', l', h1, h2, h3, -⟩ := key [4] ["a".toList]
    exact ⟨fs', l', h1, h2, fun h => absurd (h3.1 h).1 (by simp [exEqual])⟩
  · obtain ⟨fs', l', h1, h2, -, h4⟩ := key [4, 4] []
    exact ⟨fs', l', h1, h2, h4 (by simp [exEqual, Arrays]) (by simp [exEqual])⟩

end Verif.Logger
