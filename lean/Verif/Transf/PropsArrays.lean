import Verif.Transf.PropsAngles

/-!
# Arrays of angles of a database (C112)
-/

namespace Verif.Transf

open Verif Real Matrix

/-- `mapM` of functions which agree. -/
theorem mapM_forall₂ {α α' β : Type*} {f : α → Py β} {f' : α' → Py β} {l : List α} {l' : List α'}
    (h : List.Forall₂ (fun a b => f' b = f a) l l') : l'.mapM f' = l.mapM f := by
  induction h with
  | nil => rfl
  | cons h1 _ ih => rw [List.mapM_cons, List.mapM_cons, h1, ih]

/-- Two samples which differ by a rotation of the whole body, opposite quaternions and positions. -/
def SamePosture (s s' : Sample) : Prop :=
  ∃ g : Quat, g ≠ 0 ∧ List.Forall₂ (fun l l' => orient l' = quatMul g (orient l) ∨
    orient l' = fun a => -quatMul g (orient l) a) s s'

theorem getAngles_samePosture {s s' : Sample} (h : SamePosture s s') (i j : ℕ) :
    getAngles s' i j = getAngles s i j := by
  obtain ⟨g, hg, h⟩ := h
  have h1 : List.Forall₂ (fun l l' => orient l' = quatMul g (orient l)) s
      (s.map fun l => ![0, 0, 0, quatMul g (orient l) 0, quatMul g (orient l) 1, quatMul g (orient l) 2,
        quatMul g (orient l) 3]) := by
    rw [List.forall₂_map_right_iff, List.forall₂_same]
    intro l _
    funext a
    fin_cases a <;> rfl
  have h2 : List.Forall₂ (fun l l' => orient l' = orient l ∨ orient l' = fun a => -orient l a)
      (s.map fun l => ![0, 0, 0, quatMul g (orient l) 0, quatMul g (orient l) 1, quatMul g (orient l) 2,
        quatMul g (orient l) 3]) s' := by
    rw [List.forall₂_map_left_iff]
    refine h.imp ?_
    intro l l' hl
    have : orient ![0, 0, 0, quatMul g (orient l) 0, quatMul g (orient l) 1, quatMul g (orient l) 2,
        quatMul g (orient l) 3] = quatMul g (orient l) := by
      funext a
      fin_cases a <;> rfl
    rw [this]
    exact hl
  rw [C94_opposite _ _ h2, C94_common g hg _ _ h1]

/-- **C112.** The arrays of angles of a database depend only on postures: they are the same when at each
time the whole body is turned in any way (not the same one at each time), and whatever the positions. -/
theorem C112_postures (markers : List (List Char)) (records records' : List (List Sample))
    (h : List.Forall₂ (List.Forall₂ SamePosture) records records') :
    dbToAngleArrays markers records' = dbToAngleArrays markers records := by
  unfold dbToAngleArrays
  rcases anglesIndices markers with e | idx
  · rfl
  · show records'.mapM _ = records.mapM _
    apply mapM_forall₂
    refine h.imp ?_
    intro r r' hr
    unfold recordToAngleArray
    have : (r'.mapM fun s => getAngleArray s idx) = r.mapM fun s => getAngleArray s idx := by
      apply mapM_forall₂
      refine hr.imp ?_
      intro s s' hs
      unfold getAngleArray
      have : (idx.mapM fun p => getAngles s' p.1 p.2) = idx.mapM fun p => getAngles s p.1 p.2 := by
        apply mapM_forall₂
        rw [List.forall₂_same]
        intro p _
        exact getAngles_samePosture hs p.1 p.2
      rw [this]
    rw [this]

theorem mapM_error {α β : Type*} {f : α → Py β} {e : PyErr} {l : List α}
    (h : ∀ x ∈ l, ∀ e', f x = .error e' → e' = e) (hex : ∃ x ∈ l, ∃ e', f x = .error e') :
    l.mapM f = .error e := by
  induction l with
  | nil =>
    obtain ⟨x, hx, _⟩ := hex
    cases hx
  | cons a l ih =>
    rw [List.mapM_cons]
    rcases hfa : f a with e' | b
    · have := h a (by simp) e' hfa
      subst this
      rfl
    · have hex' : ∃ x ∈ l, ∃ e', f x = .error e' := by
        obtain ⟨x, hx, e', he⟩ := hex
        rcases List.mem_cons.1 hx with rfl | hx
        · rw [hfa] at he
          cases he
        · exact ⟨x, hx, e', he⟩
      rw [ih (fun x hx => h x (by simp [hx])) hex']
      rfl

theorem mapM_success {α β : Type*} {f : α → Py β} {l : List α} (h : ∀ x ∈ l, ∃ b, f x = .ok b) :
    ∃ r, l.mapM f = .ok r ∧ List.Forall₂ (fun x b => f x = .ok b) l r := by
  induction l with
  | nil => exact ⟨[], rfl, .nil⟩
  | cons a l ih =>
    obtain ⟨b, hb⟩ := h a (by simp)
    obtain ⟨r, hr, hf⟩ := ih fun x hx => h x (by simp [hx])
    refine ⟨b :: r, ?_, .cons hb hf⟩
    rw [List.mapM_cons, hb, hr]
    rfl

/-- The frames of the angles. -/
def angleMarkers : List (List Char) := angleFrames.map Prod.fst ++ angleFrames.map Prod.snd

/-- **C112.** `angles_indices`: the ranks of the frames, when all are known; `ValueError` otherwise. -/
theorem C112_indices (markers : List (List Char)) :
    ((∀ x ∈ angleMarkers, x ∈ markers) →
      anglesIndices markers = .ok (angleFrames.map fun p => (markers.idxOf p.1, markers.idxOf p.2))) ∧
    ((∃ x ∈ angleMarkers, x ∉ markers) → anglesIndices markers = .error .valueError) := by
  have hone : ∀ p : List Char × List Char, ((p.1 ∈ markers ∧ p.2 ∈ markers) →
      (do let s ← listIndex markers p.1; let d ← listIndex markers p.2; return (s, d) : Py (ℕ × ℕ)) =
        .ok (markers.idxOf p.1, markers.idxOf p.2)) ∧
      (¬ (p.1 ∈ markers ∧ p.2 ∈ markers) →
      (do let s ← listIndex markers p.1; let d ← listIndex markers p.2; return (s, d) : Py (ℕ × ℕ)) =
        .error .valueError) := by
    intro p
    unfold listIndex
    by_cases h1 : p.1 ∈ markers <;> by_cases h2 : p.2 ∈ markers <;> simp [h1, h2] <;> rfl
  constructor
  · intro h
    unfold anglesIndices
    obtain ⟨r, hr, hf⟩ := mapM_success (l := angleFrames) (f := fun p => (do
      let s ← listIndex markers p.1; let d ← listIndex markers p.2; return (s, d) : Py (ℕ × ℕ))) (by
        intro p hp
        exact ⟨_, (hone p).1 ⟨h _ (by simp only [angleMarkers, List.mem_append]; exact .inl (List.mem_map_of_mem hp)),
          h _ (by simp only [angleMarkers, List.mem_append]; exact .inr (List.mem_map_of_mem hp))⟩⟩)
    rw [hr]
    congr 1
    have : List.Forall₂ (fun p b => b = (markers.idxOf p.1, markers.idxOf p.2)) angleFrames r := by
      refine List.forall₂_iff_get.2 ⟨hf.length_eq, ?_⟩
      intro i h1 h2
      have hp : angleFrames.get ⟨i, h1⟩ ∈ angleFrames := List.get_mem _ _
      have hok := (hone (angleFrames.get ⟨i, h1⟩)).1
        ⟨h _ (by simp only [angleMarkers, List.mem_append]; exact .inl (List.mem_map_of_mem hp)),
          h _ (by simp only [angleMarkers, List.mem_append]; exact .inr (List.mem_map_of_mem hp))⟩
      have hg := hf.get h1 h2
      exact (Except.ok.inj (hok.symm.trans hg)).symm
    apply Eq.symm
    rw [← List.forall₂_eq_eq_eq, List.forall₂_map_left_iff]
    exact this.imp fun _ _ h => h.symm
  · rintro ⟨x, hx, hxm⟩
    unfold anglesIndices
    apply mapM_error
    · intro p _ e' he
      by_cases hp : p.1 ∈ markers ∧ p.2 ∈ markers
      · have := (hone p).1 hp
        rw [this] at he
        cases he
      · have := (hone p).2 hp
        rw [this] at he
        cases he
        rfl
    · rcases List.mem_append.1 hx with hx | hx
      · obtain ⟨p, hp, rfl⟩ := List.mem_map.1 hx
        exact ⟨p, hp, _, (hone p).2 fun h => hxm h.1⟩
      · obtain ⟨p, hp, rfl⟩ := List.mem_map.1 hx
        exact ⟨p, hp, _, (hone p).2 fun h => hxm h.2⟩

/-- **C112.** When the database knows all frames, its samples have all of them and no record is empty,
there is one array for each record, with one line for each sample, of the angles of the ten pairs of
frames in order. -/
theorem C112_arrays (markers : List (List Char)) (hm : ∀ x ∈ angleMarkers, x ∈ markers)
    (records : List (List Sample)) (hne : ∀ r ∈ records, r ≠ [])
    (hlen : ∀ r ∈ records, ∀ s ∈ r, s.length = markers.length) :
    ∃ out, dbToAngleArrays markers records = .ok out ∧
      List.Forall₂ (fun r arr => List.Forall₂ (fun s line => List.Forall₂
        (fun p a => getAngles s (markers.idxOf p.1) (markers.idxOf p.2) = .ok a) angleFrames line) r arr)
        records out := by
  have hin : ∀ p ∈ angleFrames, p.1 ∈ markers ∧ p.2 ∈ markers := fun p hp =>
    ⟨hm _ (by simp only [angleMarkers, List.mem_append]; exact .inl (List.mem_map_of_mem hp)),
      hm _ (by simp only [angleMarkers, List.mem_append]; exact .inr (List.mem_map_of_mem hp))⟩
  unfold dbToAngleArrays
  rw [(C112_indices markers).1 hm]
  show ∃ out, records.mapM _ = _ ∧ _
  set idx := angleFrames.map fun p => (markers.idxOf p.1, markers.idxOf p.2) with hidx
  have hline : ∀ s : Sample, s.length = markers.length → ∃ line, getAngleArray s idx = .ok line ∧
      List.Forall₂ (fun p a => getAngles s (markers.idxOf p.1) (markers.idxOf p.2) = .ok a)
        angleFrames line := by
    intro s hs
    obtain ⟨r, hr, hf⟩ := mapM_success (l := idx) (f := fun p => getAngles s p.1 p.2) (by
      intro p hp
      rw [hidx] at hp
      obtain ⟨q, hq, rfl⟩ := List.mem_map.1 hp
      exact (C94_frames s _ _).1 ⟨hs ▸ List.idxOf_lt_length_of_mem (hin q hq).1,
        hs ▸ List.idxOf_lt_length_of_mem (hin q hq).2⟩)
    refine ⟨r, ?_, ?_⟩
    · unfold getAngleArray
      rw [hr]
      have : r ≠ [] := by
        rintro rfl
        have := hf.length_eq
        rw [hidx] at this
        simp [angleFrames] at this
      show (if r = [] then _ else _) = _
      rw [if_neg this]
      rfl
    · rw [hidx, List.forall₂_map_left_iff] at hf
      exact hf
  have hrec : ∀ r : List Sample, r ≠ [] → (∀ s ∈ r, s.length = markers.length) →
      ∃ arr, recordToAngleArray r idx = .ok arr ∧ List.Forall₂ (fun s line => List.Forall₂
        (fun p a => getAngles s (markers.idxOf p.1) (markers.idxOf p.2) = .ok a) angleFrames line) r arr := by
    intro r hr hs
    obtain ⟨arr, ha, hf⟩ := mapM_success (l := r) (f := fun s => getAngleArray s idx) (by
      intro s hsr
      obtain ⟨line, h1, _⟩ := hline s (hs s hsr)
      exact ⟨line, h1⟩)
    refine ⟨arr, ?_, ?_⟩
    · unfold recordToAngleArray
      rw [ha]
      have : arr ≠ [] := by
        rintro rfl
        exact hr (List.forall₂_nil_right_iff.1 hf)
      show (if arr = [] then _ else _) = _
      rw [if_neg this]
      rfl
    · refine List.forall₂_iff_get.2 ⟨hf.length_eq, ?_⟩
      intro i h1 h2
      obtain ⟨line, h3, h4⟩ := hline _ (hs _ (List.get_mem r ⟨i, h1⟩))
      have := hf.get h1 h2
      rw [← Except.ok.inj (h3.symm.trans this)]
      exact h4
  obtain ⟨out, ho, hf⟩ := mapM_success (l := records) (f := fun r => recordToAngleArray r idx) (by
    intro r hr
    obtain ⟨arr, h1, _⟩ := hrec r (hne r hr) (hlen r hr)
    exact ⟨arr, h1⟩)
  refine ⟨out, ho, ?_⟩
  refine List.forall₂_iff_get.2 ⟨hf.length_eq, ?_⟩
  intro i h1 h2
  have hmem := List.get_mem records ⟨i, h1⟩
  obtain ⟨arr, h3, h4⟩ := hrec _ (hne _ hmem) (hlen _ hmem)
  have := hf.get h1 h2
  rw [← Except.ok.inj (h3.symm.trans this)]
  exact h4

/-- **C112.** A record without samples raises `ValueError`, when the frames are known and the samples of
the records before it have all frames. -/
theorem C112_empty (markers : List (List Char)) (hm : ∀ x ∈ angleMarkers, x ∈ markers)
    (pre post : List (List Sample)) (hpre : ∀ r ∈ pre, r ≠ [] ∧ ∀ s ∈ r, s.length = markers.length) :
    dbToAngleArrays markers (pre ++ [] :: post) = .error .valueError := by
  obtain ⟨out, ho, _⟩ := C112_arrays markers hm pre (fun r hr => (hpre r hr).1) (fun r hr => (hpre r hr).2)
  unfold dbToAngleArrays at ho ⊢
  rw [(C112_indices markers).1 hm] at ho ⊢
  change pre.mapM _ = _ at ho
  show (pre ++ [] :: post).mapM _ = _
  rw [List.mapM_append, ho]
  rfl

end Verif.Transf
