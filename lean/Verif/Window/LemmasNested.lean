import Verif.Window.Nested
import Verif.Window.PropsConcat

/-! # Helper lemmas on nested concatenations -/

namespace Verif.Window

open Verif

/-- A window consistent with its content, which does not end before its start. -/
def Win.Good {α β : Type} (files : WavFiles α) : Win α β → Prop
  | .basic w => w.start ≤ w.stop
  | .array w => 0 < w.rate ∧ w.Consistent
  | .wav w => w.Valid files

theorem Win.Good.cases {α β : Type} {files : WavFiles α} {w : Win α β} (h : w.Good files) :
    (∃ b, w = .basic b ∧ b.start ≤ b.stop) ∨ ∃ r, 0 < r ∧ w.Sampled files r := by
  cases w with
  | basic b => exact .inl ⟨b, rfl, h⟩
  | array a => exact .inr ⟨a.rate, h.1, rfl, h.2⟩
  | wav a => exact .inr ⟨a.rate, WavWin.Valid.rate_pos h, rfl, h⟩

theorem Win.Sampled.good {α β : Type} {files : WavFiles α} {r : ℚ} (hr : 0 < r) {w : Win α β}
    (h : w.Sampled files r) : w.Good files := by
  cases w with
  | basic b => exact absurd h id
  | array a => exact ⟨h.1 ▸ hr, h.2⟩
  | wav a => exact h.2

theorem Win.Good.le {α β : Type} {files : WavFiles α} {w : Win α β} (h : w.Good files) :
    w.start ≤ w.stop := by
  rcases h.cases with ⟨b, rfl, hb⟩ | ⟨r, hr, hs⟩
  · exact hb
  · exact hs.nonneg hr

theorem Win.Good.copy {α β : Type} {files : WavFiles α} {w : Win α β} (h : w.Good files) :
    w.copy = w := by
  rcases h.cases with ⟨b, rfl, hb⟩ | ⟨r, hr, hs⟩
  · rfl
  · exact hs.spec.1

theorem Win.Good.err {α β : Type} {files : WavFiles α} {w : Win α β} (h : w.Good files) {a b : ℚ}
    (hn : ¬ ((w.start ≤ a ∧ a ≤ w.stop) ∧ (w.start ≤ b ∧ b ≤ w.stop))) :
    w.getSub a b = .error .timeOutOfBound := by
  rcases h.cases with ⟨c, rfl, hb⟩ | ⟨r, hr, hs⟩
  · simp only [Win.getSub, (C05_basic_subwindow c a b).2 hn, bind, Except.bind]
  · exact hs.getSub_err hn

theorem Win.Good.full {α β : Type} {files : WavFiles α} {w : Win α β} (h : w.Good files) :
    w.getSub w.start w.stop = .ok w := by
  have hle := h.le
  cases w with
  | basic c =>
    have hc : c.start ≤ c.stop := h
    simp only [Win.getSub, Win.start, Win.stop, (C05_basic_subwindow c c.start c.stop).1
      ⟨⟨le_rfl, hc⟩, hc, le_rfl⟩, bind, Except.bind, pure, Except.pure, max_eq_right hc]
  | array c =>
    obtain ⟨hr, hc⟩ := h
    have hle' : c.start ≤ c.stop := hle
    have hst : c.stop = c.start + samplesToDuration c.rate (c.array.length : ℤ) := by
      have := ArrayWin.eq_init hc
      rw [this]; rfl
    simp only [Win.getSub, Win.start, Win.stop, c.getSub_ok c.start c.stop ⟨le_rfl, hle'⟩
      ⟨hle', le_rfl⟩, bind, Except.bind, pure, Except.pure]
    have hB : idxB c.start c.rate c.stop = (c.array.length : ℤ) := by
      rw [hst]; exact idxB_end hr _
    rw [idxA_self hr, hB]
    have e : pySlice c.array 0 (c.array.length : ℤ) = c.array := by
      rw [← Nat.cast_zero (R := ℤ), pySlice_nat]; simp
    rw [e]
    have e2 : c.start + samplesToDuration c.rate 0 = c.start := by simp [samplesToDuration]
    rw [e2, ← ArrayWin.eq_init hc]
  | wav c =>
    have hv : c.Valid files := h
    have hr := hv.rate_pos
    have hle' : c.start ≤ c.stop := hle
    have hst : c.stop = c.start + samplesToDuration c.rate (c.stopIndex - c.startAfter) := by
      have := hv.stop_eq
      unfold samplesToDuration
      rw [mul_one]; linarith
    have hB : idxB c.start c.rate c.stop = c.stopIndex - c.startAfter := by
      rw [hst]; exact idxB_end hr _
    have e2 : c.start + samplesToDuration c.rate 0 = c.start := by simp [samplesToDuration]
    have hg := ((WavWin.getSub_eq hv c.start c.stop).2 ⟨⟨le_rfl, hle'⟩, hle', le_rfl⟩).2 (by
      rw [idxA_self hr, e2]; exact hle')
    rw [idxA_self hr, hB, e2] at hg
    simp only [Win.getSub, Win.start, Win.stop, hg.2, bind, Except.bind, pure, Except.pure]
    congr 2
    cases c
    simp only [WavWin.mk.injEq, true_and, add_zero, sub_zero, add_sub_cancel, and_true] at hst ⊢
    exact hst.symm

/-- Removing the beginning of a window keeps its end. -/
theorem Win.Good.left {α β : Type} {files : WavFiles α} {w : Win α β} (h : w.Good files) {x : ℚ}
    (h1 : w.start ≤ x) (h2 : x ≤ w.stop) :
    ∃ w', w.getSub x w.stop = .ok w' ∧ w'.Good files ∧ w'.stop = w.stop := by
  rcases h.cases with ⟨c, rfl, hb⟩ | ⟨r, hr, hs⟩
  · have h1' : c.start ≤ x := h1
    have h2' : x ≤ c.stop := h2
    refine ⟨.basic ⟨x, c.stop, c.obj⟩, ?_, h2', rfl⟩
    simp only [Win.getSub, Win.stop, (C05_basic_subwindow c x c.stop).1
      ⟨⟨h1', h2'⟩, hb, le_rfl⟩, bind, Except.bind, pure, Except.pure, max_eq_right h2']
  · obtain ⟨p, w', e1, e2, e3, e4, e5⟩ := hs.crop_left hr h1 h2
    refine ⟨w', e3, e4.good hr, ?_⟩
    have h6 := e4.spec.2.2.2.2.2
    rw [← h6, e5, hs.stop_eq]
    show w.start + samplesToDuration r p + samplesToDuration r _ = _
    rw [List.length_drop]
    unfold samplesToDuration
    push_cast [Nat.cast_sub e2]
    ring

/-- Removing the end of a window keeps its start. -/
theorem Win.Good.right {α β : Type} {files : WavFiles α} {w : Win α β} (h : w.Good files) {y : ℚ}
    (h1 : w.start ≤ y) (h2 : y ≤ w.stop) :
    ∃ w', w.getSub w.start y = .ok w' ∧ w'.Good files ∧ w'.start = w.start := by
  rcases h.cases with ⟨c, rfl, hb⟩ | ⟨r, hr, hs⟩
  · have h1' : c.start ≤ y := h1
    have h2' : y ≤ c.stop := h2
    refine ⟨.basic ⟨c.start, y, c.obj⟩, ?_, h1', rfl⟩
    simp only [Win.getSub, Win.start, (C05_basic_subwindow c c.start y).1
      ⟨⟨le_rfl, hb⟩, h1', h2'⟩, bind, Except.bind, pure, Except.pure, max_eq_right h1']
  · obtain ⟨p, w', e1, e2, e3, e4, e5⟩ := hs.crop_right hr h1 h2
    refine ⟨w', e3, e4.good hr, ?_⟩
    have h6 := e4.spec.2.2.2.2.1
    rw [← h6, e5]
    rfl

/-! ## Lists of windows of basic classes -/

/-- Start of the first window. -/
def firstStart {α β : Type} (ws : List (Win α β)) : ℚ := (ws.head?.map Win.start).getD 0

/-- End of the last window. -/
def lastStop {α β : Type} (ws : List (Win α β)) : ℚ := (ws.getLast?.map Win.stop).getD 0

/-- Windows which follow each other exactly, and are not empty, except perhaps the first one. -/
structure Cover {α β : Type} (files : WavFiles α) (ws : List (Win α β)) : Prop where
  nonempty : ws ≠ []
  aligned : Aligned ws
  good : ∀ w ∈ ws, w.Good files
  pos : ∀ w ∈ ws.tail, w.start < w.stop

section
variable {α β : Type} {files : WavFiles α}

@[simp] theorem firstStart_cons (w : Win α β) (ws : List (Win α β)) :
    firstStart (w :: ws) = w.start := rfl

@[simp] theorem lastStop_append_one (w : Win α β) (ws : List (Win α β)) :
    lastStop (ws ++ [w]) = w.stop := by simp [lastStop]

theorem firstStart_append {us : List (Win α β)} (h : us ≠ []) (vs : List (Win α β)) :
    firstStart (us ++ vs) = firstStart us := by
  cases us with
  | nil => exact absurd rfl h
  | cons u us => rfl

theorem lastStop_append {vs : List (Win α β)} (h : vs ≠ []) (us : List (Win α β)) :
    lastStop (us ++ vs) = lastStop vs := by
  unfold lastStop
  rw [List.getLast?_append]
  cases hv : vs.getLast? with
  | none => rw [List.getLast?_eq_none_iff] at hv; exact absurd hv h
  | some v => rfl

theorem Cover.left {us vs : List (Win α β)} (h : Cover files (us ++ vs)) (hu : us ≠ []) :
    Cover files us := by
  refine ⟨hu, h.aligned.append.1, fun w hw => h.good w (List.mem_append_left _ hw), ?_⟩
  intro w hw
  refine h.pos w ?_
  rw [List.tail_append_of_ne_nil hu]
  exact List.mem_append_left _ hw

theorem Cover.right {us vs : List (Win α β)} (h : Cover files (us ++ vs)) (hv : vs ≠ []) :
    Cover files vs := by
  refine ⟨hv, h.aligned.append.2, fun w hw => h.good w (List.mem_append_right _ hw), ?_⟩
  intro w hw
  refine h.pos w ?_
  cases us with
  | nil => exact hw
  | cons u us =>
    rw [List.cons_append, List.tail_cons]
    exact List.mem_append_right _ (List.mem_of_mem_tail hw)

/-- The windows of the first part end before the windows of the second part begin. -/
theorem Cover.junction {us vs : List (Win α β)} (h : Cover files (us ++ vs)) (hu : us ≠ [])
    (hv : vs ≠ []) : firstStart vs = lastStop us := by
  have := h.aligned
  unfold Aligned at this
  rw [List.isChain_append] at this
  cases vs with
  | nil => exact absurd rfl hv
  | cons v vs =>
    obtain ⟨u, hu'⟩ : ∃ u, us.getLast? = some u := by
      cases hg : us.getLast? with
      | none => rw [List.getLast?_eq_none_iff] at hg; exact absurd hg hu
      | some u => exact ⟨u, rfl⟩
    have := this.2.2 u (by rw [hu']; rfl) v rfl
    simp [firstStart, lastStop, hu', this]

theorem Cover.bounds {ws : List (Win α β)} (h : Cover files ws) :
    ∀ w ∈ ws, firstStart ws ≤ w.start ∧ w.stop ≤ lastStop ws := by
  have hp := h.aligned.pairwise (fun w hw => (h.good w hw).le)
  intro w hw
  obtain ⟨pre, post, rfl⟩ := List.append_of_mem hw
  rw [List.pairwise_append] at hp
  have hw0 := (h.good w hw).le
  constructor
  · cases pre with
    | nil => exact le_rfl
    | cons p pre =>
      have := hp.2.2 p List.mem_cons_self w List.mem_cons_self
      have h0 := (h.good p (by simp)).le
      simp only [List.cons_append, firstStart_cons]
      linarith
  · rcases List.eq_nil_or_concat post with rfl | ⟨q, v, rfl⟩
    · rw [lastStop_append_one]
    · have := (List.pairwise_cons.mp hp.2.1).1 v (by simp)
      have h0 := (h.good v (by simp)).le
      rw [List.concat_eq_append, ← List.cons_append, ← List.append_assoc, lastStop_append_one]
      linarith

theorem Cover.le {ws : List (Win α β)} (h : Cover files ws) : firstStart ws ≤ lastStop ws := by
  cases ws with
  | nil => exact absurd rfl h.nonempty
  | cons w ws =>
    have h1 := h.bounds w List.mem_cons_self
    have h2 := (h.good w List.mem_cons_self).le
    linarith

/-- The windows before `x` are removed, and the beginning of the one in which `x` falls. -/
def LeafL (ws : List (Win α β)) (x : ℚ) (ws' : List (Win α β)) : Prop :=
  ∃ pre w post w', ws = pre ++ w :: post ∧ (∀ v ∈ pre, v.stop < x) ∧ w.start ≤ x ∧ x ≤ w.stop ∧
    w.getSub x w.stop = .ok w' ∧ ws' = w' :: post

/-- The windows after `y` are removed, and the end of the one in which `y` falls. -/
def LeafR (ws : List (Win α β)) (y : ℚ) (ws' : List (Win α β)) : Prop :=
  ∃ pre w post w', ws = pre ++ w :: post ∧ (∀ v ∈ pre, v.stop < y) ∧ w.start ≤ y ∧ y ≤ w.stop ∧
    w.getSub w.start y = .ok w' ∧ ws' = pre ++ [w']

/-- The first window which ends at or after a time is unique. -/
theorem first_unique {x : ℚ} {p q p' q' : List (Win α β)} {w w' : Win α β}
    (e : p ++ w :: q = p' ++ w' :: q') (h1 : ∀ v ∈ p, v.stop < x) (h2 : x ≤ w.stop)
    (h1' : ∀ v ∈ p', v.stop < x) (h2' : x ≤ w'.stop) : p = p' ∧ w = w' ∧ q = q' := by
  rcases List.append_eq_append_iff.mp e with ⟨as, e1, e2⟩ | ⟨as, e1, e2⟩
  · cases as with
    | nil =>
      rw [List.nil_append] at e2
      rw [List.append_nil] at e1
      obtain ⟨r1, r2⟩ := List.cons.inj e2
      exact ⟨e1.symm, r1, r2⟩
    | cons a as =>
      rw [List.cons_append] at e2
      obtain ⟨rfl, _⟩ := List.cons.inj e2
      have := h1' w (by rw [e1]; simp)
      linarith
  · cases as with
    | nil =>
      rw [List.nil_append] at e2
      rw [List.append_nil] at e1
      obtain ⟨r1, r2⟩ := List.cons.inj e2
      exact ⟨e1, r1.symm, r2.symm⟩
    | cons a as =>
      rw [List.cons_append] at e2
      obtain ⟨rfl, _⟩ := List.cons.inj e2
      have := h1 w' (by rw [e1]; simp)
      linarith

theorem LeafL.unique {ws us vs : List (Win α β)} {x : ℚ} (h : LeafL ws x us) (h' : LeafL ws x vs) :
    us = vs := by
  obtain ⟨p, w, q, w1, e, a1, a2, a3, a4, rfl⟩ := h
  obtain ⟨p', w', q', w1', e', b1, b2, b3, b4, rfl⟩ := h'
  obtain ⟨_, rfl, rfl⟩ := first_unique (e ▸ e' : p ++ w :: q = p' ++ w' :: q') a1 a3 b1 b3
  rw [a4, Except.ok.injEq] at b4
  rw [b4]

theorem LeafR.unique {ws us vs : List (Win α β)} {x : ℚ} (h : LeafR ws x us) (h' : LeafR ws x vs) :
    us = vs := by
  obtain ⟨p, w, q, w1, e, a1, a2, a3, a4, rfl⟩ := h
  obtain ⟨p', w', q', w1', e', b1, b2, b3, b4, rfl⟩ := h'
  obtain ⟨rfl, rfl, rfl⟩ := first_unique (e ▸ e' : p ++ w :: q = p' ++ w' :: q') a1 a3 b1 b3
  rw [a4, Except.ok.injEq] at b4
  rw [b4]

theorem LeafL.nonempty {ws us : List (Win α β)} {x : ℚ} (h : LeafL ws x us) : us ≠ [] := by
  obtain ⟨p, w, q, w1, e, a1, a2, a3, a4, rfl⟩ := h
  simp

theorem LeafR.nonempty {ws us : List (Win α β)} {x : ℚ} (h : LeafR ws x us) : us ≠ [] := by
  obtain ⟨p, w, q, w1, e, a1, a2, a3, a4, rfl⟩ := h
  simp

theorem LeafL.cover {ws us : List (Win α β)} {x : ℚ} (h : LeafL ws x us) (hc : Cover files ws) :
    Cover files us ∧ lastStop us = lastStop ws := by
  obtain ⟨p, w, q, w1, rfl, a1, a2, a3, a4, rfl⟩ := h
  have hr := hc.right (by simp)
  obtain ⟨w', g1, g2, g3⟩ := (hc.good w (by simp)).left a2 a3
  rw [a4, Except.ok.injEq] at g1
  subst g1
  refine ⟨⟨by simp, ?_, ?_, hr.pos⟩, ?_⟩
  · cases q with
    | nil => exact List.IsChain.singleton _
    | cons v q =>
      have := List.isChain_cons_cons.mp hr.aligned
      exact List.isChain_cons_cons.mpr ⟨by rw [g3]; exact this.1, this.2⟩
  · intro v hv
    rcases List.mem_cons.mp hv with rfl | hv
    · exact g2
    · exact hr.good v (List.mem_cons_of_mem _ hv)
  · rw [lastStop_append (by simp)]
    rcases List.eq_nil_or_concat q with rfl | ⟨q, v, rfl⟩
    · exact g3
    · rw [List.concat_eq_append, ← List.cons_append, lastStop_append_one, ← List.cons_append,
        lastStop_append_one]

theorem LeafR.first {ws us : List (Win α β)} {y : ℚ} (h : LeafR ws y us) (hc : Cover files ws) :
    firstStart us = firstStart ws := by
  obtain ⟨p, w, q, w1, rfl, a1, a2, a3, a4, rfl⟩ := h
  obtain ⟨w', g1, g2, g3⟩ := (hc.good w (by simp)).right a2 a3
  rw [a4, Except.ok.injEq] at g1
  subst g1
  cases p with
  | nil => exact g3
  | cons v p => rfl

/-- Windows before `x` may be added in front. -/
theorem LeafL.prepend {ws us : List (Win α β)} {x : ℚ} (h : LeafL ws x us)
    {p : List (Win α β)} (hp : ∀ v ∈ p, v.stop < x) (q : List (Win α β)) :
    LeafL (p ++ (ws ++ q)) x (us ++ q) := by
  obtain ⟨p', w, q', w1, rfl, a1, a2, a3, a4, rfl⟩ := h
  refine ⟨p ++ p', w, q' ++ q, w1, by simp, ?_, a2, a3, a4, by simp⟩
  intro v hv
  rcases List.mem_append.mp hv with hv | hv
  · exact hp v hv
  · exact a1 v hv

theorem LeafR.prepend {ws us : List (Win α β)} {y : ℚ} (h : LeafR ws y us)
    {p : List (Win α β)} (hp : ∀ v ∈ p, v.stop < y) (q : List (Win α β)) :
    LeafR (p ++ (ws ++ q)) y (p ++ us) := by
  obtain ⟨p', w, q', w1, rfl, a1, a2, a3, a4, rfl⟩ := h
  refine ⟨p ++ p', w, q' ++ q, w1, by simp, ?_, a2, a3, a4, by simp⟩
  intro v hv
  rcases List.mem_append.mp hv with hv | hv
  · exact hp v hv
  · exact a1 v hv

/-- Nothing is removed before the start. -/
theorem LeafL.all {ws us : List (Win α β)} (hc : Cover files ws)
    (h : LeafL ws (firstStart ws) us) : us = ws := by
  obtain ⟨p, w, q, w1, e, a1, a2, a3, a4, rfl⟩ := h
  cases p with
  | nil =>
    rw [List.nil_append] at e
    subst e
    rw [firstStart_cons, (hc.good w (by simp)).full, Except.ok.injEq] at a4
    rw [a4]
  | cons p ps =>
    exfalso
    have h1 := a1 p (by simp)
    have h2 := (hc.good p (by rw [e]; simp)).le
    rw [e] at h1
    simp only [List.cons_append, firstStart_cons] at h1
    linarith

/-- Nothing is removed after the end. -/
theorem LeafR.all {ws us : List (Win α β)} (hc : Cover files ws)
    (h : LeafR ws (lastStop ws) us) : us = ws := by
  obtain ⟨p, w, q, w1, e, a1, a2, a3, a4, rfl⟩ := h
  rcases List.eq_nil_or_concat q with rfl | ⟨q, v, rfl⟩
  · subst e
    rw [lastStop_append_one, (hc.good w (by simp)).full, Except.ok.injEq] at a4
    rw [a4]
  · exfalso
    have hw : w.stop ≤ v.start := by
      have hp := hc.aligned.pairwise (fun w hw => (hc.good w hw).le)
      rw [e, List.pairwise_append] at hp
      exact (List.pairwise_cons.mp hp.2.1).1 v (by simp)
    have hv : v.start < v.stop := by
      refine hc.pos v ?_
      rw [e]
      cases p <;> simp
    have hl : lastStop ws = v.stop := by
      rw [e, List.concat_eq_append, ← List.cons_append, ← List.append_assoc, lastStop_append_one]
    linarith

end

end Verif.Window
