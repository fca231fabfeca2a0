import Verif.Window.LemmasConcat
import Verif.Window.PropsTimes

/-!
# Properties C10-C16: concatenations of windows
-/

namespace Verif.Window

open Verif

/-! ## C10 -/

/-- **C10.** Building a concatenation raises `ValueError` exactly when the list is empty or some
window does not start within the tolerance of the end of its predecessor. Otherwise the result has
these windows, the start of the first one and the end of the last one. -/
theorem C10_concat_init {α β : Type} (ws : List (Win α β)) :
    ((ws = [] ∨ ¬ Consecutive ws) → Concat.init ws = .error .valueError) ∧
    (∀ w v us us', ws = w :: us → ws = us' ++ [v] → Consecutive ws →
      ∃ c, Concat.init ws = .ok c ∧ c.windows = ws ∧ c.start = .ok w.start ∧ c.stop = .ok v.stop) := by
  refine ⟨Concat.init_err, ?_⟩
  intro w v us us' h1 h2 hc
  refine ⟨⟨ws⟩, Concat.init_ok (by rw [h1]; exact List.cons_ne_nil _ _) hc, rfl, ?_, ?_⟩
  · rw [h1]; rfl
  · rw [h2]; exact Concat.stop_append v us'

example : let w1 : Win ℕ String := .basic ⟨0, 1, "a"⟩
    let w2 : Win ℕ String := .basic ⟨1, 3, "b"⟩
    let w3 : Win ℕ String := .basic ⟨2, 3, "b"⟩
    Consecutive [w1, w2] ∧ Concat.init [w1, w2] = .ok ⟨[w1, w2]⟩ ∧
    Concat.init [w1, w3] = .error .valueError ∧
    Concat.init ([] : List (Win ℕ String)) = .error .valueError := by
  intro w1 w2 w3
  refine ⟨?_, ?_, ?_, ?_⟩
  · unfold Consecutive
    simp [w1, w2, Win.stop, Win.start, TOL]
  all_goals decide +kernel

/-! ## C11 -/

/-- Specification: two windows have the same content (everything but the position in time). -/
def SameContent {α β : Type} : Win α β → Win α β → Prop
  | .basic w, .basic v => w.obj = v.obj
  | .array w, .array v => w.array = v.array ∧ w.rate = v.rate
  | .wav w, .wav v => w.path = v.path ∧ w.rate = v.rate ∧ w.startAfter = v.startAfter ∧
      w.stopIndex = v.stopIndex
  | _, _ => False

theorem move_spec {α β : Type} (w : Win α β) (d : ℚ) :
    SameContent w (w.move d) ∧ (w.move d).start = w.start + d ∧ (w.move d).stop = w.stop + d := by
  cases w <;>
    simp [SameContent, Win.move, Win.start, Win.stop, BasicWin.move, ArrayWin.move, WavWin.move]

theorem alignFrom_spec {α β : Type} (ws : List (Win α β)) (t : ℚ) :
    List.Forall₂ (fun w w' => SameContent w w' ∧ w'.stop - w'.start = w.stop - w.start) ws
      (Concat.alignFrom t ws) ∧
    Aligned (Concat.alignFrom t ws) ∧
    (∀ w ∈ (Concat.alignFrom t ws).head?, w.start = t) ∧
    (∀ w ∈ (Concat.alignFrom t ws).getLast?, w.stop = t + (ws.map Win.duration).sum) := by
  induction ws generalizing t with
  | nil => simp [Concat.alignFrom, Aligned]
  | cons w ws ih =>
    obtain ⟨h1, h2, h3⟩ := move_spec w (t - w.start)
    obtain ⟨i1, i2, i3, i4⟩ := ih (t + (w.move (t - w.start)).duration)
    have hstart : (w.move (t - w.start)).start = t := by rw [h2]; ring
    have hdur : (w.move (t - w.start)).duration = w.duration := by
      unfold Win.duration; rw [h2, h3]; ring
    refine ⟨?_, ?_, ?_, ?_⟩
    · refine List.Forall₂.cons ⟨h1, by rw [h2, h3]; ring⟩ i1
    · unfold Aligned at i2 ⊢
      simp only [Concat.alignFrom]
      rw [List.isChain_cons]
      refine ⟨?_, i2⟩
      intro v hv
      rw [i3 v hv]
      unfold Win.duration
      rw [hstart]; ring
    · intro v hv
      simp only [Concat.alignFrom, List.head?_cons, Option.mem_def, Option.some.injEq] at hv
      rw [← hv]; exact hstart
    · intro v hv
      simp only [Concat.alignFrom] at hv
      cases ws with
      | nil =>
        simp only [Concat.alignFrom, List.getLast?_singleton, Option.mem_def,
          Option.some.injEq] at hv
        rw [← hv, h3]
        simp only [Win.duration, List.map_cons, List.map_nil, List.sum_cons, List.sum_nil]
        ring
      | cons u us =>
        have hne : Concat.alignFrom (t + (w.move (t - w.start)).duration) (u :: us) ≠ [] := by
          simp [Concat.alignFrom]
        rw [List.getLast?_cons_of_ne_nil hne] at hv
        rw [i4 v hv, hdur, List.map_cons (a := w), List.sum_cons]
        ring

/-- **C11.** Aligning a non-empty list of windows keeps order, durations and contents, makes the
first window start at the given time (default: its own start) and every next one start exactly at
the end of its predecessor; hence the concatenation can be built, and its duration is the sum of
the durations. -/
theorem C11_align {α β : Type} (w0 : Win α β) (ws : List (Win α β)) (start : Option ℚ) :
    ∃ ws', Concat.align (w0 :: ws) start = .ok ws' ∧
      List.Forall₂ (fun w w' => SameContent w w' ∧ w'.stop - w'.start = w.stop - w.start)
        (w0 :: ws) ws' ∧
      Aligned ws' ∧
      ∃ c, Concat.init ws' = .ok c ∧ c.start = .ok (start.getD w0.start) ∧
        c.stop = .ok (start.getD w0.start + ((w0 :: ws).map fun w => w.stop - w.start).sum) := by
  obtain ⟨h1, h2, h3, h4⟩ := alignFrom_spec (w0 :: ws) (start.getD w0.start)
  refine ⟨Concat.alignFrom (start.getD w0.start) (w0 :: ws), ?_, h1, h2, ?_⟩
  · cases start <;> rfl
  · have hne : Concat.alignFrom (start.getD w0.start) (w0 :: ws) ≠ [] := by simp [Concat.alignFrom]
    refine ⟨_, Concat.init_ok hne h2.consecutive, ?_, ?_⟩
    · unfold Concat.start
      cases hh : (Concat.alignFrom (start.getD w0.start) (w0 :: ws)).head? with
      | none => rw [List.head?_eq_none_iff] at hh; exact absurd hh hne
      | some w =>
        simp only []
        rw [h3 w hh]
    · unfold Concat.stop
      cases hh : (Concat.alignFrom (start.getD w0.start) (w0 :: ws)).getLast? with
      | none => rw [List.getLast?_eq_none_iff] at hh; exact absurd hh hne
      | some w =>
        simp only []
        rw [h4 w hh]
        rfl

example : Concat.align [(.basic ⟨3, 4, "a"⟩ : Win ℕ String), .basic ⟨0, 2, "b"⟩,
      .array ⟨[1, 2], 0, 1, 2⟩] (some 10) =
    .ok [.basic ⟨10, 11, "a"⟩, .basic ⟨11, 13, "b"⟩, .array ⟨[1, 2], 13, 14, 2⟩] := by
  decide +kernel

/-! ## C12 -/

/-- **C12.** Lookup by time in aligned windows with non-negative durations: an error exactly when
the time is outside the whole range, else the first window which does not end before the time;
this window contains the time. -/
theorem C12_lookup {α β : Type} (c : Concat α β) (s e t : ℚ) (h : Aligned c.windows)
    (hd : ∀ w ∈ c.windows, w.start ≤ w.stop) (hs : c.start = .ok s) (he : c.stop = .ok e) :
    ((t < s ∨ e < t) → c.getSubAt t = .error .timeOutOfBound) ∧
    ((s ≤ t ∧ t ≤ e) → ∃ pre w post, c.windows = pre ++ w :: post ∧ c.getSubAt t = .ok w ∧
      (∀ v ∈ pre, v.stop < t) ∧ w.start ≤ t ∧ t ≤ w.stop) := by
  constructor
  · intro hout
    unfold Concat.getSubAt Concat.fileIndex
    rw [hs, he]
    simp only [bind, Except.bind, checkTime_err hout]
  · rintro ⟨h1, h2⟩
    obtain ⟨pre, w, post, e1, e2, e3, e4, e5⟩ := Concat.fileIndex_ok c s e t h hd hs he h1 h2
    refine ⟨pre, w, post, e1, ?_, e3, e4, e5⟩
    unfold Concat.getSubAt
    rw [e2]
    simp only [bind, Except.bind]
    rw [pyGet_nat _ _ (by rw [e1]; simp)]
    congr 1
    simp [e1]

/-- Two labelled windows; the common boundary belongs to the first one. -/
example : let c : Concat ℕ String := ⟨[.basic ⟨0, 1, "a"⟩, .basic ⟨1, 3, "b"⟩]⟩
    Aligned c.windows ∧ (∀ w ∈ c.windows, w.start ≤ w.stop) ∧ c.start = .ok 0 ∧ c.stop = .ok 3 ∧
    c.getSubAt 1 = .ok (.basic ⟨0, 1, "a"⟩) ∧ c.getSubAt 2 = .ok (.basic ⟨1, 3, "b"⟩) ∧
    c.getSubAt 4 = .error .timeOutOfBound := by
  intro c
  refine ⟨?_, ?_, rfl, rfl, ?_, ?_, ?_⟩
  · simp [c, Aligned, Win.stop, Win.start]
  · simp [c, Win.stop, Win.start]
  all_goals decide +kernel

/-! ## Cropping: common part -/

/-- The two shapes of a crop to `[a, b]`: inside one window, or across several ones. -/
theorem Concat.split_ok {α β : Type} (c : Concat α β) (s e a b : ℚ) (h : Aligned c.windows)
    (hd : ∀ w ∈ c.windows, w.start ≤ w.stop) (hs : c.start = .ok s) (he : c.stop = .ok e)
    (ha : s ≤ a) (hab : a ≤ b) (hb : b ≤ e) :
    (∃ pre w post, c.windows = pre ++ w :: post ∧
      c.fileIndex a = .ok pre.length ∧ c.fileIndex b = .ok pre.length ∧
      (∀ v ∈ pre, v.stop < a) ∧ w.start ≤ a ∧ b ≤ w.stop) ∨
    (∃ pre w mid v post, c.windows = pre ++ w :: (mid ++ v :: post) ∧
      c.fileIndex a = .ok pre.length ∧ c.fileIndex b = .ok (pre.length + 1 + mid.length) ∧
      (∀ v ∈ pre, v.stop < a) ∧ w.start ≤ a ∧ a ≤ w.stop ∧ w.stop < b ∧
      (∀ u ∈ mid, u.stop < b) ∧ v.start ≤ b ∧ b ≤ v.stop) := by
  obtain ⟨pA, wA, qA, a1, a2, a3, a4, a5⟩ :=
    Concat.fileIndex_ok c s e a h hd hs he ha (hab.trans hb)
  obtain ⟨pB, wB, qB, b1, b2, b3, b4, b5⟩ :=
    Concat.fileIndex_ok c s e b h hd hs he (ha.trans hab) hb
  have heq : pA ++ wA :: qA = pB ++ wB :: qB := a1 ▸ b1
  rcases List.append_eq_append_iff.mp heq with ⟨as, h1, h2⟩ | ⟨bs, h1, h2⟩
  · cases as with
    | nil =>
      left
      rw [List.nil_append] at h2
      rw [List.append_nil] at h1
      obtain ⟨rfl, rfl⟩ := List.cons.inj h2
      exact ⟨pA, wA, qA, a1, a2, by rw [b2, h1], a3, a4, b5⟩
    | cons x as =>
      right
      rw [List.cons_append] at h2
      obtain ⟨rfl, h3⟩ := List.cons.inj h2
      refine ⟨pA, wA, as, wB, qB, by rw [a1, h3], a2, ?_, a3, a4, a5, ?_, ?_, b4, b5⟩
      · rw [b2, h1]
        simp only [List.length_append, List.length_cons, Except.ok.injEq]
        omega
      · exact b3 wA (by rw [h1]; simp)
      · intro u hu
        exact b3 u (by rw [h1]; simp [hu])
  · cases bs with
    | nil =>
      left
      rw [List.nil_append] at h2
      rw [List.append_nil] at h1
      obtain ⟨rfl, rfl⟩ := List.cons.inj h2
      exact ⟨pA, wB, qB, a1, a2, by rw [b2, h1], a3, a4, b5⟩
    | cons x bs =>
      exfalso
      rw [List.cons_append] at h2
      obtain ⟨rfl, h3⟩ := List.cons.inj h2
      have := a3 wB (by rw [h1]; simp)
      linarith

theorem Concat.getSub_single {α β : Type} (c : Concat α β) (a b : ℚ) (pre post : List (Win α β))
    (w : Win α β) (h : c.windows = pre ++ w :: post) (ha : c.fileIndex a = .ok pre.length)
    (hb : c.fileIndex b = .ok pre.length) :
    c.getSub a b = (do
      let w1 ← w.copy.getSub a w.copy.stop
      let w2 ← w1.getSub w1.start b
      Concat.init [w2]) := by
  unfold Concat.getSub
  rw [ha, hb]
  have e : (1 + (pre.length : ℤ)) = ((1 + pre.length : ℕ) : ℤ) := by push_cast; rfl
  simp only [bind, Except.bind]
  rw [e, pySlice_nat, h, List.drop_left]
  have e2 : 1 + pre.length - pre.length = 1 := by omega
  rw [e2]
  simp only [List.take_succ_cons, List.take_zero, List.map_cons, List.map_nil,
    List.getLast?_singleton, List.dropLast_singleton, List.nil_append]

theorem Concat.getSub_multi {α β : Type} (c : Concat α β) (a b : ℚ)
    (pre mid post : List (Win α β)) (w v : Win α β)
    (h : c.windows = pre ++ w :: (mid ++ v :: post)) (ha : c.fileIndex a = .ok pre.length)
    (hb : c.fileIndex b = .ok (pre.length + 1 + mid.length)) :
    c.getSub a b = (do
      let w1 ← w.copy.getSub a w.copy.stop
      let v2 ← v.copy.getSub v.copy.start b
      Concat.init (w1 :: (mid.map Win.copy ++ [v2]))) := by
  unfold Concat.getSub
  rw [ha, hb]
  have e : (1 + ((pre.length + 1 + mid.length : ℕ) : ℤ)) =
      ((1 + (pre.length + 1 + mid.length) : ℕ) : ℤ) := by push_cast; rfl
  simp only [bind, Except.bind]
  rw [e, pySlice_nat, h, List.drop_left]
  have e2 : 1 + (pre.length + 1 + mid.length) - pre.length = (mid ++ [v]).length + 1 := by
    simp; omega
  have e3 : mid ++ v :: post = (mid ++ [v]) ++ post := by simp
  rw [e2, List.take_succ_cons, e3, List.take_left]
  simp only [List.map_cons, List.map_append, List.map_nil]
  have e4 : ∀ x : Win α β, x :: (mid.map Win.copy ++ [v.copy]) =
      (x :: mid.map Win.copy) ++ [v.copy] := fun x => rfl
  simp only [e4, List.getLast?_append, List.getLast?_singleton, Option.some_or,
    List.dropLast_concat]
  rfl

/-! ## C13 -/

/-- A window with samples at the given rate, consistent with its content. -/
def Win.Sampled {α β : Type} (files : WavFiles α) (rate : ℚ) : Win α β → Prop
  | .basic _ => False
  | .array w => w.rate = rate ∧ w.Consistent
  | .wav w => w.rate = rate ∧ w.Valid files

/-- The samples of a window. -/
def Win.loaded {α β : Type} (files : WavFiles α) : Win α β → ArrayWin α
  | .basic w => ⟨[], w.start, w.stop, 0⟩
  | .array w => w
  | .wav w => w.toArray files

theorem ArrayWin.copy_eq {α : Type} {w : ArrayWin α} (h : w.Consistent) : w.copy = w := by
  unfold ArrayWin.copy ArrayWin.init samplesToDuration
  unfold ArrayWin.Consistent at h
  cases w
  simp only [ArrayWin.mk.injEq, true_and, and_true] at h ⊢
  rw [h]; push_cast; ring

theorem ArrayWin.eq_init {α : Type} {w : ArrayWin α} (h : w.Consistent) :
    w = ArrayWin.init w.array w.start w.rate := (ArrayWin.copy_eq h).symm

theorem ArrayWin.init_consistent {α : Type} (l : List α) (s r : ℚ) :
    (ArrayWin.init l s r).Consistent := by
  unfold ArrayWin.Consistent ArrayWin.init samplesToDuration
  push_cast; simp only [mul_one]

theorem Win.Sampled.spec {α β : Type} {files : WavFiles α} {r : ℚ} {w : Win α β}
    (h : w.Sampled files r) :
    w.copy = w ∧ w.toArray files = .ok (w.loaded files) ∧ (w.loaded files).rate = r ∧
    (w.loaded files).Consistent ∧ (w.loaded files).start = w.start ∧
    (w.loaded files).stop = w.stop := by
  cases w with
  | basic w => exact absurd h id
  | array w =>
    obtain ⟨h1, h2⟩ := h
    refine ⟨?_, ?_, h1, h2, rfl, rfl⟩
    · show Win.array w.copy = _; rw [ArrayWin.copy_eq h2]
    · show Except.ok w.copy = _; rw [ArrayWin.copy_eq h2]; rfl
  | wav w =>
    obtain ⟨h1, h2⟩ := h
    obtain ⟨c1, c2, c3, c4, c5⟩ := WavWin.toArray_consistent h2
    refine ⟨?_, rfl, c2.trans h1, ?_, c1, c3⟩
    · show Win.wav w.copy = _; rw [WavWin.copy_eq h2]
    · exact ArrayWin.init_consistent _ _ _

theorem Win.Sampled.getSub_ok {α β : Type} {files : WavFiles α} {r : ℚ} {w : Win α β}
    (h : w.Sampled files r) {a b : ℚ} {sub : ArrayWin α}
    (hs : (w.loaded files).getSub a b = .ok sub) (hle : sub.start ≤ b) :
    ∃ w', w.getSub a b = .ok w' ∧ w'.Sampled files r ∧ w'.loaded files = sub := by
  cases w with
  | basic w => exact absurd h id
  | array w =>
    obtain ⟨h1, h2⟩ := h
    have hs' : w.getSub a b = .ok sub := hs
    refine ⟨.array sub, ?_, ?_, rfl⟩
    · simp only [Win.getSub, hs', bind, Except.bind, pure, Except.pure]
    · by_cases hin : (w.start ≤ a ∧ a ≤ w.stop) ∧ (w.start ≤ b ∧ b ≤ w.stop)
      · rw [w.getSub_ok a b hin.1 hin.2, Except.ok.injEq] at hs'
        rw [← hs']
        exact ⟨h1, ArrayWin.init_consistent _ _ _⟩
      · rw [w.getSub_err a b hin] at hs'; cases hs'
  | wav w =>
    obtain ⟨h1, h2⟩ := h
    obtain ⟨w', e1, e2⟩ := ((C08_wav_refines_array files w h2 a b).1 sub hs).1 hle
    obtain ⟨v1, v2⟩ := h2.getSub e1
    refine ⟨.wav w', ?_, ⟨?_, v1⟩, e2⟩
    · simp only [Win.getSub, e1, bind, Except.bind, pure, Except.pure]
    · rw [v1.rate_eq, v2, ← h2.rate_eq, h1]

theorem Win.Sampled.getSub_err {α β : Type} {files : WavFiles α} {r : ℚ} {w : Win α β}
    (h : w.Sampled files r) {a b : ℚ}
    (hn : ¬ ((w.start ≤ a ∧ a ≤ w.stop) ∧ (w.start ≤ b ∧ b ≤ w.stop))) :
    w.getSub a b = .error .timeOutOfBound := by
  cases w with
  | basic w => exact absurd h id
  | array w =>
    simp only [Win.getSub, w.getSub_err a b hn, bind, Except.bind]
  | wav w =>
    simp only [Win.getSub, (WavWin.getSub_eq h.2 a b).1 hn, bind, Except.bind]

theorem drop_length_add_append {α : Type*} (l l' : List α) (n : ℕ) :
    (l ++ l').drop (l.length + n) = l'.drop n := by
  rw [← List.drop_drop, List.drop_left]

theorem take_length_add_append {α : Type*} (l l' : List α) (n : ℕ) :
    (l ++ l').take (l.length + n) = l ++ l'.take n := by
  rw [List.take_append, List.take_of_length_le (Nat.le_add_right _ _), Nat.add_sub_cancel_left]

/-- All samples of a list of windows. -/
def samplesOf {α β : Type} (files : WavFiles α) (ws : List (Win α β)) : List α :=
  (ws.map fun w => (w.loaded files).array).flatten

theorem samplesOf_append {α β : Type} (files : WavFiles α) (us vs : List (Win α β)) :
    samplesOf files (us ++ vs) = samplesOf files us ++ samplesOf files vs := by
  simp [samplesOf]

theorem samplesOf_cons {α β : Type} (files : WavFiles α) (u : Win α β) (vs : List (Win α β)) :
    samplesOf files (u :: vs) = (u.loaded files).array ++ samplesOf files vs := by
  simp [samplesOf]

theorem toArray_sampled {α β : Type} (files : WavFiles α) (r : ℚ) (w : Win α β)
    (ws : List (Win α β)) (h : ∀ u ∈ w :: ws, u.Sampled files r) :
    Concat.toArray files ⟨w :: ws⟩ =
      .ok (ArrayWin.init (samplesOf files (w :: ws)) w.start r) := by
  unfold Concat.toArray
  have hm : ∀ us : List (Win α β), (∀ u ∈ us, u.Sampled files r) →
      us.mapM (Win.toArray files) = .ok (us.map (Win.loaded files)) := by
    intro us hus
    induction us with
    | nil => rfl
    | cons u us ih =>
      rw [List.mapM_cons, (hus u List.mem_cons_self).spec.2.1,
        ih (fun v hv => hus v (List.mem_cons_of_mem _ hv))]
      rfl
  rw [hm _ h]
  simp only [bind, Except.bind, List.map_cons]
  unfold ArrayWin.concatenate
  simp only []
  have hw := (h w List.mem_cons_self).spec
  rw [if_pos]
  · rw [hw.2.2.1, hw.2.2.2.2.1]
    simp [samplesOf, List.map_map, Function.comp_def]
  · rw [List.all_eq_true]
    intro x hx
    rw [beq_iff_eq, hw.2.2.1]
    rcases List.mem_cons.mp hx with rfl | hx
    · exact hw.2.2.1
    · obtain ⟨u, hu, rfl⟩ := List.mem_map.mp hx
      exact (h u (List.mem_cons_of_mem _ hu)).spec.2.2.1

theorem Win.Sampled.stop_eq {α β : Type} {files : WavFiles α} {r : ℚ} {w : Win α β}
    (h : w.Sampled files r) :
    w.stop = w.start + samplesToDuration r ((w.loaded files).array.length : ℤ) := by
  obtain ⟨_, _, h3, h4, h5, h6⟩ := h.spec
  unfold ArrayWin.Consistent at h4
  rw [h5, h6, h3] at h4
  rw [h4]
  unfold samplesToDuration
  push_cast; ring

/-- In aligned sampled windows, a window starts after all the samples which precede it. -/
theorem aligned_start {α β : Type} {files : WavFiles α} {r : ℚ} (pre : List (Win α β))
    (w : Win α β) (post : List (Win α β)) (h : Aligned (pre ++ w :: post))
    (hw : ∀ u ∈ pre ++ w :: post, u.Sampled files r) (s : ℚ)
    (hs : ∀ u ∈ (pre ++ w :: post).head?, u.start = s) :
    w.start = s + samplesToDuration r ((samplesOf files pre).length : ℤ) := by
  induction pre generalizing s with
  | nil =>
    rw [hs w rfl]
    simp [samplesOf, samplesToDuration]
  | cons p pre ih =>
    have hp := hw p (by simp)
    have hps : p.start = s := hs p rfl
    have hal := List.isChain_cons.mp h
    rw [ih hal.2 (fun u hu => hw u (by rw [List.cons_append]; exact List.mem_cons_of_mem _ hu))
      p.stop (fun u hu => hal.1 u hu), hp.stop_eq, hps, samplesOf_cons, List.length_append]
    unfold samplesToDuration
    push_cast; ring

theorem idxA_self {s r : ℚ} (hr : 0 < r) : idxA s r s = 0 := by
  unfold idxA
  have := toApproxInt_int (mul_pos TOL_pos hr) true 0
  simpa using this

theorem idxB_end {s r : ℚ} (hr : 0 < r) (n : ℤ) : idxB s r (s + samplesToDuration r n) = n := by
  unfold idxB
  have e : (s + samplesToDuration r n - s) * r = (n : ℚ) := by
    unfold samplesToDuration; field_simp; ring
  rw [e]
  exact toApproxInt_int (mul_pos TOL_pos hr) false n

theorem Win.Sampled.nonneg {α β : Type} {files : WavFiles α} {r : ℚ} (hr : 0 < r) {w : Win α β}
    (h : w.Sampled files r) : w.start ≤ w.stop := by
  rw [h.stop_eq]
  unfold samplesToDuration
  have : (0 : ℚ) ≤ ((((w.loaded files).array.length : ℕ) : ℤ) : ℚ) * 1 / r := by positivity
  linarith

/-- Removing the beginning of a sampled window. -/
theorem Win.Sampled.crop_left {α β : Type} {files : WavFiles α} {r : ℚ} (hr : 0 < r) {w : Win α β}
    (h : w.Sampled files r) {a : ℚ} (h1 : w.start ≤ a) (h2 : a ≤ w.stop) :
    ∃ (p : ℕ) (w' : Win α β), (p : ℤ) = idxA w.start r a ∧ p ≤ (w.loaded files).array.length ∧
      w.getSub a w.stop = .ok w' ∧ w'.Sampled files r ∧
      w'.loaded files = ArrayWin.init ((w.loaded files).array.drop p)
        (w.start + samplesToDuration r p) r := by
  obtain ⟨_, _, h3, h4, h5, h6⟩ := h.spec
  have hst := h.stop_eq
  have hb := idxA_bounds (n := (w.loaded files).array.length) hr h1 (by
    rw [hst] at h2; exact h2)
  have hok := (w.loaded files).getSub_ok a w.stop (by rw [h5, h6]; exact ⟨h1, h2⟩)
    (by rw [h5, h6]; exact ⟨h1.trans h2, le_rfl⟩)
  rw [h3, h5] at hok
  have hB : idxB w.start r w.stop = ((w.loaded files).array.length : ℤ) := by
    rw [hst]; exact idxB_end hr _
  rw [hB] at hok
  obtain ⟨p, hp⟩ : ∃ p : ℕ, idxA w.start r a = p := ⟨_, (Int.toNat_of_nonneg hb.1).symm⟩
  rw [hp, pySlice_nat, List.take_of_length_le (by simp)] at hok
  rw [hp] at hb
  obtain ⟨w', e1, e2, e3⟩ := h.getSub_ok hok (by
    show w.start + samplesToDuration r p ≤ w.stop
    rw [hst]
    unfold samplesToDuration
    have : ((p : ℤ) : ℚ) ≤ (((w.loaded files).array.length : ℤ) : ℚ) := by exact_mod_cast hb.2
    have := div_le_div_of_nonneg_right this hr.le
    simp only [mul_one]
    linarith)
  exact ⟨p, w', hp.symm, by exact_mod_cast hb.2, e1, e2, e3⟩

/-- Removing the end of a sampled window. -/
theorem Win.Sampled.crop_right {α β : Type} {files : WavFiles α} {r : ℚ} (hr : 0 < r) {w : Win α β}
    (h : w.Sampled files r) {b : ℚ} (h1 : w.start ≤ b) (h2 : b ≤ w.stop) :
    ∃ (q : ℕ) (w' : Win α β), (q : ℤ) = idxB w.start r b ∧ q ≤ (w.loaded files).array.length ∧
      w.getSub w.start b = .ok w' ∧ w'.Sampled files r ∧
      w'.loaded files = ArrayWin.init ((w.loaded files).array.take q) w.start r := by
  obtain ⟨_, _, h3, h4, h5, h6⟩ := h.spec
  have hst := h.stop_eq
  have hb := idxB_bounds (n := (w.loaded files).array.length) hr h1 (by
    rw [hst] at h2; exact h2)
  have hok := (w.loaded files).getSub_ok w.start b (by rw [h5, h6]; exact ⟨le_rfl, h1.trans h2⟩)
    (by rw [h5, h6]; exact ⟨h1, h2⟩)
  rw [h3, h5] at hok
  obtain ⟨q, hq⟩ : ∃ q : ℕ, idxB w.start r b = q := ⟨_, (Int.toNat_of_nonneg hb.1).symm⟩
  have hz : w.start + samplesToDuration r ((0 : ℕ) : ℤ) = w.start := by simp [samplesToDuration]
  rw [idxA_self hr, hq, ← Nat.cast_zero (R := ℤ), pySlice_nat, List.drop_zero, Nat.sub_zero,
    hz] at hok
  rw [hq] at hb
  obtain ⟨w', e1, e2, e3⟩ := h.getSub_ok hok h1
  exact ⟨q, w', hq.symm, by exact_mod_cast hb.2, e1, e2, e3⟩

theorem sampled_stop {α β : Type} (files : WavFiles α) (rate : ℚ) (w0 : Win α β) (ws : List (Win α β))
    (hc : Aligned (w0 :: ws)) (hw : ∀ w ∈ w0 :: ws, w.Sampled files rate) :
    Concat.stop (⟨w0 :: ws⟩ : Concat α β) =
      .ok (w0.start + samplesToDuration rate ((samplesOf files (w0 :: ws)).length : ℤ)) := by
  have hne : w0 :: ws ≠ [] := List.cons_ne_nil _ _
  obtain ⟨us, u, hu⟩ : ∃ us u, w0 :: ws = us ++ [u] :=
    ⟨_, _, (List.dropLast_append_getLast hne).symm⟩
  have hst := aligned_start (files := files) (r := rate) us u [] (hu ▸ hc) (hu ▸ hw) w0.start
    (by rw [← hu]; simp)
  rw [hu, Concat.stop_append, (hw u (by rw [hu]; simp)).stop_eq, hst, samplesOf_append]
  simp only [samplesOf_cons, List.length_append, samplesToDuration]
  simp only [samplesOf, List.map_nil, List.flatten_nil, List.length_nil]
  congr 1
  push_cast; ring

/-- **C13.** Cropping a concatenation of exactly aligned sampled windows with a common rate, then
loading it, is loading the whole concatenation and cropping the resulting array window, which has
the times of the cropped concatenation, unless the rounded start exceeds `b`, in which case the concatenation raises `TimeOutOfBound`. -/
theorem C13_crop_concat_sampled {α β : Type} (files : WavFiles α) (rate : ℚ) (hr : 0 < rate)
    (c : Concat α β) (hc : Aligned c.windows) (hw : ∀ w ∈ c.windows, w.Sampled files rate)
    (full : ArrayWin α) (hfull : c.toArray files = .ok full) (a b : ℚ) (ha : full.start ≤ a)
    (hab : a ≤ b) (hb : b ≤ full.stop) :
    ∃ sub, full.getSub a b = .ok sub ∧
      (sub.start ≤ b → ∃ c', c.getSub a b = .ok c' ∧ c'.toArray files = .ok sub ∧
        c'.start = .ok sub.start ∧ c'.stop = .ok sub.stop) ∧
      (b < sub.start → c.getSub a b = .error .timeOutOfBound) := by
  -- the windows are not empty
  obtain ⟨ws⟩ := c
  cases ws with
  | nil =>
    simp [Concat.toArray, ArrayWin.concatenate, bind, Except.bind, pure, Except.pure] at hfull
  | cons w0 ws =>
  rw [toArray_sampled files rate w0 ws hw, Except.ok.injEq] at hfull
  subst hfull
  have ha' : w0.start ≤ a := ha
  set D := samplesOf files (w0 :: ws) with hD
  have hb' : b ≤ w0.start + samplesToDuration rate (D.length : ℤ) := hb
  have hd : ∀ w ∈ w0 :: ws, w.start ≤ w.stop := fun w hw' => (hw w hw').nonneg hr
  -- end of the concatenation
  have hstop : Concat.stop ⟨w0 :: ws⟩ = .ok (w0.start + samplesToDuration rate (D.length : ℤ)) :=
    sampled_stop files rate w0 ws hc hw
  have hsplit := Concat.split_ok ⟨w0 :: ws⟩ w0.start _ a b hc hd rfl hstop ha' hab hb'
  have hsub := (ArrayWin.init D w0.start rate).getSub_ok a b ⟨ha, hab.trans hb⟩ ⟨ha.trans hab, hb⟩
  have hAb := idxA_bounds (n := D.length) hr ha' (hab.trans hb')
  have hBb := idxB_bounds (n := D.length) hr (ha'.trans hab) hb'
  refine ⟨_, hsub, ?_⟩
  simp only [ArrayWin.init]
  obtain ⟨P, hP⟩ : ∃ P : ℕ, idxA w0.start rate a = P := ⟨_, (Int.toNat_of_nonneg hAb.1).symm⟩
  obtain ⟨Q, hQ⟩ : ∃ Q : ℕ, idxB w0.start rate b = Q := ⟨_, (Int.toNat_of_nonneg hBb.1).symm⟩
  rw [hP, hQ, pySlice_nat]
  have hfin : ∀ (x : Win α β) (xs : List (Win α β)), Aligned (x :: xs) →
      (∀ u ∈ x :: xs, u.Sampled files rate) →
      samplesOf files (x :: xs) = (D.drop P).take (Q - P) →
      x.start = w0.start + samplesToDuration rate P →
      Concat.init (x :: xs) = .ok ⟨x :: xs⟩ ∧ Concat.toArray files ⟨x :: xs⟩ = .ok
        { array := (D.drop P).take (Q - P), start := w0.start + samplesToDuration rate P,
          stop := w0.start + samplesToDuration rate P +
            samplesToDuration rate (((D.drop P).take (Q - P)).length : ℤ), rate := rate } ∧
        Concat.start (⟨x :: xs⟩ : Concat α β) = .ok (w0.start + samplesToDuration rate P) ∧
        Concat.stop (⟨x :: xs⟩ : Concat α β) = .ok (w0.start + samplesToDuration rate P +
          samplesToDuration rate (((D.drop P).take (Q - P)).length : ℤ)) := by
    intro x xs h1 h2 h3 h4
    refine ⟨Concat.init_ok (List.cons_ne_nil _ _) h1.consecutive, ?_, ?_, ?_⟩
    · rw [toArray_sampled files rate x xs h2, h3, h4]
      rfl
    · rw [← h4]
      rfl
    · rw [sampled_stop files rate x xs h1 h2, h3, h4]
  rcases hsplit with ⟨pre, w, post, s1, s2, s3, s4, s5, s6⟩ |
    ⟨pre, w, mid, v, post, s1, s2, s3, s4, s5, s6, s7, s8, s9, s10⟩
  · -- inside one window
    have s1' : w0 :: ws = pre ++ w :: post := s1
    have hws := hw w (by rw [s1']; simp)
    obtain ⟨p, w1, p1, p2, p3, p4, p5⟩ := hws.crop_left hr s5 (hab.trans s6)
    have hst := aligned_start (files := files) (r := rate) pre w post (s1' ▸ hc) (s1' ▸ hw) w0.start
      (by rw [← s1']; simp)
    rw [hst, idxA_shift hr, hP] at p1
    have hPp : P = (samplesOf files pre).length + p := by omega
    have hw1 := p4.spec
    have hw1start : w1.start = w0.start + samplesToDuration rate P := by
      rw [← hw1.2.2.2.2.1, p5]
      show w.start + samplesToDuration rate p = _
      rw [hst, hPp]
      unfold samplesToDuration
      push_cast; ring
    have hw1stop : w1.stop = w.stop := by
      rw [p4.stop_eq, p5, hw1start, hws.stop_eq, hst, hPp]
      simp only [ArrayWin.init, List.length_drop, samplesToDuration]
      rw [Nat.cast_sub p2]
      push_cast; ring
    rw [Concat.getSub_single ⟨w0 :: ws⟩ a b pre post w s1 s2 s3, hws.spec.1, p3]
    simp only [bind, Except.bind]
    constructor
    · intro hle
      rw [← hw1start] at hle
      obtain ⟨q, w2, q1, q2, q3, q4, q5⟩ := p4.crop_right hr hle (by rw [hw1stop]; exact s6)
      rw [hw1start, idxB_shift hr, hQ] at q1
      have hQq : Q = P + q := by omega
      rw [q3]
      simp only []
      rw [p5] at q5
      simp only [ArrayWin.init] at q5
      have hdata : samplesOf files [w2] = (D.drop P).take (Q - P) := by
        rw [samplesOf_cons, q5]
        simp only [samplesOf, List.map_nil, List.flatten_nil, List.append_nil]
        rw [hD, s1', samplesOf_append, samplesOf_cons, hPp,
          drop_length_add_append]
        have e2 : Q - ((samplesOf files pre).length + p) = q := by omega
        rw [e2, List.drop_append, List.take_append]
        rw [p5] at q2
        simp only [ArrayWin.init, List.length_drop] at q2
        have e3 : q - ((w.loaded files).array.drop p).length = 0 := by
          rw [List.length_drop]; omega
        rw [e3, List.take_zero, List.append_nil]
      obtain ⟨f1, f2⟩ := hfin w2 [] (by simp [Aligned]) (by simpa using q4) hdata (by
        rw [← q4.spec.2.2.2.2.1, q5]
        exact hw1start)
      exact ⟨_, f1, f2⟩
    · intro hlt
      rw [← hw1start] at hlt
      rw [p4.getSub_err (by
        rintro ⟨_, h, _⟩
        linarith)]
  · -- across several windows
    have s1' : w0 :: ws = pre ++ w :: (mid ++ v :: post) := s1
    have hws := hw w (by rw [s1']; simp)
    have hvs := hw v (by rw [s1']; simp)
    obtain ⟨p, w1, p1, p2, p3, p4, p5⟩ := hws.crop_left hr s5 s6
    obtain ⟨q, v2, q1, q2, q3, q4, q5⟩ := hvs.crop_right hr s9 s10
    have hst := aligned_start (files := files) (r := rate) pre w _ (s1' ▸ hc) (s1' ▸ hw) w0.start
      (by rw [← s1']; simp)
    have s1v : w0 :: ws = (pre ++ w :: mid) ++ v :: post := by rw [s1']; simp
    have hstv := aligned_start (files := files) (r := rate) (pre ++ w :: mid) v post
      (s1v ▸ hc) (s1v ▸ hw) w0.start (by rw [← s1v]; simp)
    rw [hst, idxA_shift hr, hP] at p1
    rw [hstv, idxB_shift hr, hQ] at q1
    have hPp : P = (samplesOf files pre).length + p := by omega
    have hQq : Q = (samplesOf files (pre ++ w :: mid)).length + q := by omega
    have hw1start : w1.start = w0.start + samplesToDuration rate P := by
      rw [← p4.spec.2.2.2.2.1, p5]
      show w.start + samplesToDuration rate p = _
      rw [hst, hPp]
      unfold samplesToDuration
      push_cast; ring
    have hw1stop : w1.stop = w.stop := by
      rw [p4.stop_eq, p5, hw1start, hws.stop_eq, hst, hPp]
      simp only [ArrayWin.init, List.length_drop, samplesToDuration]
      rw [Nat.cast_sub p2]
      push_cast; ring
    have hv2start : v2.start = v.start := by
      rw [← q4.spec.2.2.2.2.1, q5]
      rfl
    have hmid : mid.map Win.copy = mid := by
      have : ∀ u ∈ mid, u.copy = u := fun u hu => (hw u (by rw [s1']; simp [hu])).spec.1
      exact (List.map_congr_left this).trans (List.map_id' mid)
    rw [Concat.getSub_multi ⟨w0 :: ws⟩ a b pre mid post w v s1 s2 s3, hws.spec.1, hvs.spec.1, p3, q3,
      hmid]
    simp only [bind, Except.bind]
    have hal : Aligned (w1 :: (mid ++ [v2])) := by
      have h0 : Aligned (w :: (mid ++ [v])) := by
        have h1 : Aligned (pre ++ (w :: (mid ++ [v])) ++ post) := by
          have : pre ++ (w :: (mid ++ [v])) ++ post = w0 :: ws := by rw [s1']; simp
          rw [this]; exact hc
        exact h1.append.1.append.2
      unfold Aligned at h0 ⊢
      cases mid with
      | nil =>
        rw [List.nil_append, List.isChain_cons_cons] at h0 ⊢
        refine ⟨?_, by simp⟩
        rw [hv2start, hw1stop]
        exact h0.1
      | cons m mid =>
        rw [List.cons_append, List.isChain_cons_cons] at h0 ⊢
        refine ⟨by rw [hw1stop]; exact h0.1, ?_⟩
        rw [← List.cons_append, List.isChain_append] at h0 ⊢
        obtain ⟨_, g1, g2, g3⟩ := h0
        refine ⟨g1, by simp, ?_⟩
        intro x hx y hy
        simp only [List.head?_cons, Option.mem_def, Option.some.injEq] at hy
        rw [← hy, hv2start]
        exact g3 x hx v rfl
    have hdata : samplesOf files (w1 :: (mid ++ [v2])) = (D.drop P).take (Q - P) := by
      rw [samplesOf_cons, samplesOf_append, samplesOf_cons, p5, q5]
      simp only [ArrayWin.init]
      rw [hD, s1', samplesOf_append, samplesOf_cons, samplesOf_append, samplesOf_cons, hPp,
        drop_length_add_append, List.drop_append]
      have e0 : p - (w.loaded files).array.length = 0 := by omega
      rw [e0, List.drop_zero]
      have e2 : Q - ((samplesOf files pre).length + p) =
          ((w.loaded files).array.drop p).length + ((samplesOf files mid).length + q) := by
        rw [hQq, samplesOf_append, samplesOf_cons, List.length_drop]
        simp only [List.length_append]
        omega
      rw [e2, take_length_add_append, take_length_add_append, List.take_append]
      have e5 : q - (v.loaded files).array.length = 0 := by omega
      rw [e5, List.take_zero]
      simp [samplesOf]
    constructor
    · intro _
      obtain ⟨f1, f2⟩ := hfin w1 (mid ++ [v2]) hal (by
        intro u hu
        rcases List.mem_cons.mp hu with rfl | hu
        · exact p4
        · rcases List.mem_append.mp hu with hu | hu
          · exact hw u (by rw [s1']; simp [hu])
          · rw [List.mem_singleton] at hu
            exact hu ▸ q4) hdata hw1start
      exact ⟨_, f1, f2⟩
    · intro hlt
      exfalso
      rw [← hw1start] at hlt
      have := p4.nonneg hr
      rw [hw1stop] at this
      linarith

/-- An array window followed by a window on a file, cropped across the boundary. -/
example : let files : WavFiles ℕ := fun _ => (2, [10, 11, 12, 13, 14, 15])
    let c : Concat ℕ Unit := ⟨[.array ⟨[1, 2, 3, 4], 0, 2, 2⟩, .wav ⟨"f", 2, 5, 2, 0, 6⟩]⟩
    Aligned c.windows ∧ (∀ w ∈ c.windows, w.Sampled files 2) ∧
    c.toArray files = .ok ⟨[1, 2, 3, 4, 10, 11, 12, 13, 14, 15], 0, 5, 2⟩ ∧
    c.getSub (14 / 10) 3 =
      .ok ⟨[.array ⟨[4], 3 / 2, 2, 2⟩, .wav ⟨"f", 2, 3, 2, 0, 2⟩]⟩ ∧
    (Concat.mk (α := ℕ) (β := Unit)
      [.array ⟨[4], 3 / 2, 2, 2⟩, .wav ⟨"f", 2, 3, 2, 0, 2⟩]).toArray files =
      .ok ⟨[4, 10, 11], 3 / 2, 3, 2⟩ ∧
    (ArrayWin.mk [1, 2, 3, 4, 10, 11, 12, 13, 14, 15] 0 5 (2 : ℚ)).getSub (14 / 10) 3 =
      .ok ⟨[4, 10, 11], 3 / 2, 3, 2⟩ ∧
    c.getSub (11 / 10) (12 / 10) = .error .timeOutOfBound := by
  intro files c
  refine ⟨?_, ?_, ?_, ?_, ?_, ?_, ?_⟩
  · simp [c, Aligned, Win.stop, Win.start]
  · intro w hw
    simp only [c, List.mem_cons, List.not_mem_nil, or_false] at hw
    rcases hw with rfl | rfl
    · exact ⟨rfl, by unfold ArrayWin.Consistent; decide +kernel⟩
    · exact ⟨rfl, by constructor <;> decide +kernel⟩
  all_goals decide +kernel

/-- Exact alignment matters in C13: `ConcatTimeWindow` accepts gaps up to the tolerance, but a time
inside such a gap is in the range of the concatenation and cannot be used to crop it. -/
example : let c : Concat ℕ String := ⟨[.basic ⟨0, 1, "a"⟩, .basic ⟨1 + TOL, 3, "b"⟩]⟩
    Concat.init c.windows = .ok c ∧
    c.getSub (1 + TOL / 2) 2 = .error .timeOutOfBound := by
  intro c
  constructor <;> decide +kernel

end Verif.Window
