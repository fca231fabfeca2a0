import Verif.Sound.Dom
import Verif.Sound.Props
import Verif.Objects.Props

/-!
# Property C174: records as XML
-/

namespace Verif.Sound

variable {S I : Type}

/-- The children of an element with a given name, as attributes and children. -/
def Elt.called (name : String) : Elt S → List (Dict String (Option S) × List (Elt S))
  | .text _ => []
  | .elem _ _ cs => cs.filterMap fun c =>
    match c with
    | .elem n a l => if n = name then some (a, l) else none
    | .text _ => none

/-- An element which describes a record. -/
structure Shows (d : DB S I) (r : Rec S) (e : Elt S) : Prop where
  root : ∃ cs, e = .elem "record" [("style", r.style)] cs ∧ cs.length = 2 + r.tags.length
  audio : ∃ a, r.audio = some a ∧ e.called "audio" = [([], [.text a])]
  trans : ∃ t, r.trans = some t ∧ e.called "trans" = [([], [.text t])]
  tags : ∃ names, List.Forall₂ (fun i n => pyGet d.tags i = .ok n) r.tags names ∧
    e.called "tag" = names.map fun n => ([("name", some n)], [])

theorem called_tags (name : String) (names : List S) :
    (names.map fun n => (Elt.elem "tag" [("name", some n)] [] : Elt S)).filterMap (fun c =>
      match c with
      | .elem n a l => if n = name then some (a, l) else none
      | .text _ => none) = if name = "tag" then names.map fun n => ([("name", some n)], []) else [] := by
  induction names with
  | nil => simp
  | cons n l ih =>
    rw [List.map_cons, List.filterMap_cons]
    by_cases h : name = "tag"
    · subst h
      simp only [if_true] at ih ⊢
      rw [ih]
      rfl
    · simp only [if_neg h] at ih ⊢
      rw [if_neg fun e => h e.symm]
      exact ih

/-- **C174**: `getDom` succeeds exactly when the record has a sound and a transcription and its tags are those
of the database; the element then has the style as attribute and one child for the sound, one for the
transcription and one by tag, in order, with their names. -/
theorem C174_dom (d : DB S I) (r : Rec S) :
    (∀ e, getDom d r = .ok e → Shows d r e) ∧
    ((∃ e, getDom d r = .ok e) ↔ r.audio ≠ none ∧ r.trans ≠ none ∧ ∀ t ∈ r.tags, ∃ n, pyGet d.tags t = .ok n) ∧
    ((r.audio = none ∨ r.trans = none) → getDom d r = .error .typeError) := by
  unfold getDom
  rcases ha : r.audio with _ | a
  · simp [createText, bind, Except.bind]
  rcases ht : r.trans with _ | t
  · simp [createText, bind, Except.bind]
  simp only [createText, bind, Except.bind]
  refine ⟨?_, ?_, by simp⟩
  · intro e h
    rcases hn : tagNames d r with err | names
    · rw [hn] at h
      cases h
    rw [hn] at h
    obtain rfl := (Except.ok.inj h).symm
    have hf := Objects.mapM_py_ok.1 hn
    refine ⟨⟨_, rfl, ?_⟩, ⟨a, ha, ?_⟩, ⟨t, ht, ?_⟩, ⟨names, hf, ?_⟩⟩
    · rw [List.length_append, List.length_map, ← hf.length_eq]
      rfl
    · simp only [Elt.called, List.filterMap_append, called_tags]
      rfl
    · simp only [Elt.called, List.filterMap_append, called_tags]
      rfl
    · simp only [Elt.called, List.filterMap_append, called_tags]
      rfl
  · constructor
    · rintro ⟨e, h⟩
      rcases hn : tagNames d r with err | names
      · rw [hn] at h
        cases h
      · have hf := Objects.mapM_py_ok.1 hn
        refine ⟨by simp, by simp, fun i hi => ?_⟩
        obtain ⟨k, hk, rfl⟩ := List.mem_iff_getElem.1 hi
        exact ⟨_, (List.forall₂_iff_get.1 hf).2 k hk (by rw [← hf.length_eq]; exact hk)⟩
    · rintro ⟨-, -, h⟩
      obtain ⟨names, hn⟩ := mapM_exists (fun t => pyGet d.tags t) r.tags h
      rw [show tagNames d r = .ok names from hn]
      exact ⟨_, rfl⟩

/-- **C174**: two records with known tags, of a database without a tag twice, which are shown by the same element have
the same sound, transcription, style and tags. -/
theorem C174_injective (d : DB S I) (hd : d.tags.Nodup) (r r' : Rec S) (e : Elt S)
    (hr : ∀ t ∈ r.tags, 0 ≤ t ∧ t < d.tags.length) (hr' : ∀ t ∈ r'.tags, 0 ≤ t ∧ t < d.tags.length)
    (h : getDom d r = .ok e) (h' : getDom d r' = .ok e) :
    r.audio = r'.audio ∧ r.trans = r'.trans ∧ r.style = r'.style ∧ r.tags = r'.tags := by
  have s := (C174_dom d r).1 e h
  have s' := (C174_dom d r').1 e h'
  obtain ⟨cs, c1, c2⟩ := s.root
  obtain ⟨cs', c1', c2'⟩ := s'.root
  obtain ⟨a, a1, a2⟩ := s.audio
  obtain ⟨a', a1', a2'⟩ := s'.audio
  obtain ⟨t, t1, t2⟩ := s.trans
  obtain ⟨t', t1', t2'⟩ := s'.trans
  obtain ⟨n, n1, n2⟩ := s.tags
  obtain ⟨n', n1', n2'⟩ := s'.tags
  rw [a2] at a2'
  rw [t2] at t2'
  rw [n2] at n2'
  rw [c1] at c1'
  have hn : n = n' := by
    refine List.map_injective_iff.2 ?_ n2'
    intro x y hxy
    simpa using hxy
  subst hn
  refine ⟨?_, ?_, ?_, ?_⟩
  · rw [a1, a1']
    simpa using a2'
  · rw [t1, t1']
    simpa using t2'
  · have := (Elt.elem.inj c1').2.1
    simpa using this
  · refine List.ext_getElem (n1.length_eq.trans n1'.length_eq.symm) ?_
    intro i hi hi'
    have p := (List.forall₂_iff_get.1 n1).2 i hi (by rw [← n1.length_eq]; exact hi)
    have p' := (List.forall₂_iff_get.1 n1').2 i hi' (by rw [← n1'.length_eq]; exact hi')
    simp only [List.get_eq_getElem] at p p'
    obtain ⟨b1, b2⟩ := hr _ (List.getElem_mem hi)
    obtain ⟨b1', b2'⟩ := hr' _ (List.getElem_mem hi')
    obtain ⟨k, hk⟩ := Int.eq_ofNat_of_zero_le b1
    obtain ⟨k', hk'⟩ := Int.eq_ofNat_of_zero_le b1'
    rw [hk] at p b2 ⊢
    rw [hk'] at p' b2' ⊢
    rw [pyGet_nat _ k (by omega)] at p
    rw [pyGet_nat _ k' (by omega)] at p'
    have := (Except.ok.inj p).trans (Except.ok.inj p').symm
    rw [(List.Nodup.getElem_inj_iff hd).1 this]

/-- A record with two tags. -/
example : ∃ e, getDom (S := ℕ) (I := ℕ) ⟨0, [], [10, 20], [(10, 0), (20, 1)], none, [5], [none]⟩
    ⟨0, 0, some 7, [1, 0], some 8, none⟩ = .ok e ∧ e.called "tag" = [([("name", some 20)], []), ([("name", some 10)], [])] ∧
    e.called "audio" = [([], [.text 7])] :=
  ⟨_, rfl, rfl, rfl⟩

end Verif.Sound
