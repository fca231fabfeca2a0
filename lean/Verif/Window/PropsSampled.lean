import Verif.Window.LemmasSampled
import Mathlib.Order.Bounds.Defs

/-!
# Properties C05-C09: basic and sampled windows
-/

namespace Verif.Window

open Verif

/-! ## C05 -/

/-- **C05.** Sub-window of a basic window: the call raises exactly on times outside the window,
and otherwise returns `[a, b]` (an empty window at `a` if `b ≤ a`) with the same object. -/
theorem C05_basic_subwindow {β : Type} (w : BasicWin β) (a b : ℚ) :
    ((w.start ≤ a ∧ a ≤ w.stop) ∧ (w.start ≤ b ∧ b ≤ w.stop) →
      w.getSub a b = .ok { start := a, stop := max a b, obj := w.obj }) ∧
    (¬ ((w.start ≤ a ∧ a ≤ w.stop) ∧ (w.start ≤ b ∧ b ≤ w.stop)) →
      w.getSub a b = .error .timeOutOfBound) := by
  constructor
  · rintro ⟨⟨h1, h2⟩, h3, h4⟩
    unfold BasicWin.getSub
    rw [checkTime_ok h1 h2, checkTime_ok h3 h4]
    simp only [BasicWin.copy, bind, Except.bind, pure, Except.pure]
    congr 2
    split_ifs with h
    · rw [max_eq_right h.le]
    · rw [max_eq_left (not_lt.mp h)]
  · intro hn
    unfold BasicWin.getSub
    by_cases ha : w.start ≤ a ∧ a ≤ w.stop
    · rw [checkTime_ok ha.1 ha.2]
      have hb : b < w.start ∨ w.stop < b := by
        by_contra hb
        push Not at hb
        exact hn ⟨ha, hb⟩
      rw [checkTime_err hb]
      rfl
    · rw [not_and_or, not_le, not_le] at ha
      rw [checkTime_err ha]
      rfl

example : (BasicWin.mk 0 10 "a").getSub 2 5 = .ok ⟨2, 5, "a"⟩ ∧
    (BasicWin.mk 0 10 "a").getSub 5 2 = .ok ⟨5, 5, "a"⟩ ∧
    (BasicWin.mk 0 10 "a").getSub 2 11 = .error .timeOutOfBound := by
  refine ⟨?_, ?_, ?_⟩ <;> decide +kernel

/-! ## C06 -/

/-- A sampled window is consistent when its end is its start plus the duration of its samples. -/
def ArrayWin.Consistent {α : Type} (w : ArrayWin α) : Prop :=
  w.stop = w.start + (w.array.length : ℚ) / w.rate

/-- Start time of the `i`-th sample slot. -/
def ArrayWin.slot {α : Type} (w : ArrayWin α) (i : ℕ) : ℚ := w.start + (i : ℚ) / w.rate

/-- Raw form of the sub-window, used by the other proofs. -/
theorem ArrayWin.getSub_ok {α : Type} (w : ArrayWin α) (a b : ℚ)
    (ha : w.start ≤ a ∧ a ≤ w.stop) (hb : w.start ≤ b ∧ b ≤ w.stop) :
    w.getSub a b = .ok (ArrayWin.init
      (pySlice w.array (idxA w.start w.rate a) (idxB w.start w.rate b))
      (w.start + samplesToDuration w.rate (idxA w.start w.rate a)) w.rate) := by
  unfold ArrayWin.getSub
  rw [indexAfter_ok ha.1 ha.2, indexBefore_ok hb.1 hb.2]
  rfl

theorem ArrayWin.getSub_err {α : Type} (w : ArrayWin α) (a b : ℚ)
    (h : ¬ ((w.start ≤ a ∧ a ≤ w.stop) ∧ (w.start ≤ b ∧ b ≤ w.stop))) :
    w.getSub a b = .error .timeOutOfBound := by
  unfold ArrayWin.getSub
  by_cases ha : w.start ≤ a ∧ a ≤ w.stop
  · rw [indexAfter_ok ha.1 ha.2]
    have hb : b < w.start ∨ w.stop < b := by
      by_contra hb
      push Not at hb
      exact h ⟨ha, hb⟩
    rw [indexBefore_err hb]
    rfl
  · rw [not_and_or, not_le, not_le] at ha
    rw [indexAfter_err ha]
    rfl

/-- **C06.** Sub-window of an array window: outside times raise; otherwise the result holds, in
order, exactly the samples whose slot lies in `[a, b]` up to the tolerance, it starts at the first
slot which starts after `a` (up to the tolerance), and it is consistent. -/
theorem C06_array_subwindow {α : Type} (w : ArrayWin α) (hr : 0 < w.rate)
    (hr' : 2 * TOL * w.rate ≤ 1) (hw : w.Consistent) (a b : ℚ) :
    (¬ ((w.start ≤ a ∧ a ≤ w.stop) ∧ (w.start ≤ b ∧ b ≤ w.stop)) →
      w.getSub a b = .error .timeOutOfBound) ∧
    ((w.start ≤ a ∧ a ≤ w.stop) ∧ (w.start ≤ b ∧ b ≤ w.stop) →
      ∃ w', w.getSub a b = .ok w' ∧ w'.rate = w.rate ∧ w'.Consistent ∧
        w'.array = ((List.range w.array.length).filter
          (fun i => decide (a - TOL < w.slot i ∧ w.slot (i + 1) < b + TOL))).filterMap
            (fun i => w.array[i]?) ∧
        ∃ i0 : ℕ, IsLeast {i : ℕ | a - TOL < w.slot i} i0 ∧ w'.start = w.slot i0) := by
  refine ⟨w.getSub_err a b, ?_⟩
  rintro ⟨ha, hb⟩
  have hstop : w.stop = w.start + ((w.array.length : ℤ) : ℚ) * 1 / w.rate := by
    rw [hw]; push_cast; ring
  have hA := idxA_bounds (n := w.array.length) hr ha.1 (hstop ▸ ha.2)
  have hB := idxB_bounds (n := w.array.length) hr hb.1 (hstop ▸ hb.2)
  refine ⟨_, w.getSub_ok a b ha hb, rfl, ?_, ?_, ?_⟩
  · unfold ArrayWin.Consistent ArrayWin.init samplesToDuration
    simp
  · obtain ⟨i, hi⟩ : ∃ i : ℕ, idxA w.start w.rate a = i := ⟨_, (Int.toNat_of_nonneg hA.1).symm⟩
    obtain ⟨j, hj⟩ : ∃ j : ℕ, idxB w.start w.rate b = j := ⟨_, (Int.toNat_of_nonneg hB.1).symm⟩
    have hfun : (fun k => decide (a - TOL < w.slot k ∧ w.slot (k + 1) < b + TOL)) =
        (fun k => decide (i ≤ k ∧ k < j)) := by
      funext k
      rw [decide_eq_decide]
      have h1 := idxA_le_iff (s := w.start) (t := a) hr hr' k
      have h2 := le_idxB_iff (s := w.start) (t := b) hr hr' (k + 1)
      rw [hi] at h1
      rw [hj] at h2
      unfold ArrayWin.slot
      push_cast at h1 h2 ⊢
      rw [← h1, ← h2]
      omega
    rw [hfun, filter_range_eq_slice, hi, hj]
    simp only [ArrayWin.init]
    rw [pySlice_nat]
  · obtain ⟨i, hi⟩ : ∃ i : ℕ, idxA w.start w.rate a = i := ⟨_, (Int.toNat_of_nonneg hA.1).symm⟩
    have key : ∀ k : ℕ, i ≤ k ↔ a - TOL < w.slot k := by
      intro k
      have h1 := idxA_le_iff (s := w.start) (t := a) hr hr' k
      rw [hi] at h1
      unfold ArrayWin.slot
      push_cast at h1
      rw [← h1]
      omega
    refine ⟨i, ⟨(key i).1 le_rfl, fun k hk => (key k).2 hk⟩, ?_⟩
    simp only [ArrayWin.init, hi, samplesToDuration, ArrayWin.slot]
    push_cast
    ring

/-- A window on four samples at 2 Hz starting at 1: `[1.4, 3]` contains the slots
`[1.5, 2], [2, 2.5], [2.5, 3]`. -/
example : (ArrayWin.init [10, 11, 12, 13] 1 2).getSub (14 / 10) 3 =
      .ok ⟨[11, 12, 13], 3 / 2, 3, 2⟩ ∧
    (ArrayWin.init [10, 11, 12, 13] 1 2).Consistent ∧ (2 : ℚ) * TOL * 2 ≤ 1 := by
  refine ⟨by decide +kernel, ?_, by decide +kernel⟩
  unfold ArrayWin.Consistent ArrayWin.init samplesToDuration
  norm_num

/-! ## C07 -/

/-- Operations which a user can apply to a window. -/
inductive WinOp
  | move (delta : ℚ)
  | copy
  | sub (a b : ℚ)

/-- One operation on an array window. -/
def ArrayWin.apply {α : Type} (w : ArrayWin α) : WinOp → Py (ArrayWin α)
  | .move d => .ok (w.move d)
  | .copy => .ok w.copy
  | .sub a b => w.getSub a b

/-- One operation on a wav window. -/
def WavWin.apply (w : WavWin) : WinOp → Py WavWin
  | .move d => .ok (w.move d)
  | .copy => .ok w.copy
  | .sub a b => w.getSub a b

theorem pySlice_infix {α : Type*} (l : List α) (i j : ℤ) : pySlice l i j <:+: l :=
  ((List.take_prefix _ _).isInfix).trans ((List.drop_suffix _ _).isInfix)

/-- **C07** for array windows: after any history of operations on a newly built window, the end is
the start plus the duration of the samples, the rate is unchanged and the samples are a contiguous
part of the original ones. -/
theorem C07_array_history {α : Type} (array : List α) (start rate : ℚ) (history : List WinOp)
    (w : ArrayWin α) (h : history.foldlM ArrayWin.apply (ArrayWin.init array start rate) = .ok w) :
    w.stop - w.start = (w.array.length : ℚ) / rate ∧ w.rate = rate ∧ w.array <:+: array := by
  have inv : ∀ (history : List WinOp) (w0 : ArrayWin α),
      (w0.stop - w0.start = (w0.array.length : ℚ) / rate ∧ w0.rate = rate ∧ w0.array <:+: array) →
      ∀ w, history.foldlM ArrayWin.apply w0 = .ok w →
      (w.stop - w.start = (w.array.length : ℚ) / rate ∧ w.rate = rate ∧ w.array <:+: array) := by
    intro history
    induction history with
    | nil =>
      intro w0 h0 w hw
      simp only [List.foldlM_nil, pure, Except.pure, Except.ok.injEq] at hw
      exact hw ▸ h0
    | cons op ops ih =>
      intro w0 h0 w hw
      rw [List.foldlM_cons] at hw
      cases hop : ArrayWin.apply w0 op with
      | error e => rw [hop] at hw; cases hw
      | ok w1 =>
        rw [hop] at hw
        refine ih w1 ?_ w hw
        obtain ⟨e1, e2, e3⟩ := h0
        cases op with
        | move d =>
          simp only [ArrayWin.apply, ArrayWin.move, Except.ok.injEq] at hop
          subst hop
          exact ⟨by simp only []; linarith, e2, e3⟩
        | copy =>
          simp only [ArrayWin.apply, ArrayWin.copy, ArrayWin.init, Except.ok.injEq] at hop
          subst hop
          refine ⟨?_, e2, e3⟩
          simp only [samplesToDuration, e2]
          push_cast
          ring
        | sub a b =>
          simp only [ArrayWin.apply] at hop
          by_cases hin : (w0.start ≤ a ∧ a ≤ w0.stop) ∧ (w0.start ≤ b ∧ b ≤ w0.stop)
          · rw [w0.getSub_ok a b hin.1 hin.2, Except.ok.injEq] at hop
            subst hop
            refine ⟨?_, e2, (pySlice_infix _ _ _).trans e3⟩
            simp only [ArrayWin.init, samplesToDuration, e2]
            push_cast
            ring
          · rw [w0.getSub_err a b hin] at hop
            cases hop
  refine inv history _ ⟨?_, rfl, List.infix_rfl⟩ w h
  simp only [ArrayWin.init, samplesToDuration]
  push_cast
  ring

/-- Consistency of a wav window with its file. -/
structure WavWin.Valid {α : Type} (files : WavFiles α) (w : WavWin) : Prop where
  rate_pos : 0 < w.rate
  rate_eq : w.rate = (files w.path).1
  start_nonneg : 0 ≤ w.startAfter
  start_le_stop : w.startAfter ≤ w.stopIndex
  stop_le : w.stopIndex ≤ ((files w.path).2.length : ℤ)
  stop_eq : w.stop - w.start = ((w.stopIndex - w.startAfter : ℤ) : ℚ) / w.rate

theorem WavWin.copy_eq {α : Type} {files : WavFiles α} {w : WavWin} (h : w.Valid files) :
    w.copy = w := by
  have := h.stop_eq
  unfold WavWin.copy WavWin.initWith samplesToDuration
  cases w
  simp only [WavWin.mk.injEq, true_and, and_true] at this ⊢
  simp only [mul_one]
  linarith

/-- Raw form of the sub-window of a valid wav window. -/
theorem WavWin.getSub_eq {α : Type} {files : WavFiles α} {w : WavWin} (h : w.Valid files)
    (a b : ℚ) :
    (¬ ((w.start ≤ a ∧ a ≤ w.stop) ∧ (w.start ≤ b ∧ b ≤ w.stop)) →
      w.getSub a b = .error .timeOutOfBound) ∧
    ((w.start ≤ a ∧ a ≤ w.stop) ∧ (w.start ≤ b ∧ b ≤ w.stop) →
      (b < w.start + samplesToDuration w.rate (idxA w.start w.rate a) →
        w.getSub a b = .error .timeOutOfBound) ∧
      (w.start + samplesToDuration w.rate (idxA w.start w.rate a) ≤ b →
        idxA w.start w.rate a ≤ idxB w.start w.rate b ∧
        w.getSub a b = .ok
          { path := w.path
            rate := w.rate
            start := w.start + samplesToDuration w.rate (idxA w.start w.rate a)
            stop := w.start + samplesToDuration w.rate (idxA w.start w.rate a) +
              samplesToDuration w.rate (idxB w.start w.rate b - idxA w.start w.rate a)
            startAfter := w.startAfter + idxA w.start w.rate a
            stopIndex := w.startAfter + idxA w.start w.rate a +
              (idxB w.start w.rate b - idxA w.start w.rate a) })) := by
  have hr := h.rate_pos
  have hstop : w.stop = w.start + ((w.stopIndex - w.startAfter : ℤ) : ℚ) * 1 / w.rate := by
    have := h.stop_eq
    rw [mul_one]
    linarith
  have nonneg : w.start ≤ a → a ≤ w.stop → 0 ≤ samplesToDuration w.rate (idxA w.start w.rate a) := by
    intro h1 h2
    have := (idxA_bounds hr h1 (hstop ▸ h2)).1
    unfold samplesToDuration
    have h3 : (0 : ℚ) ≤ (idxA w.start w.rate a : ℤ) := by exact_mod_cast this
    positivity
  unfold WavWin.getSub WavWin.crop
  rw [WavWin.copy_eq h]
  constructor
  · intro hn
    unfold WavWin.delayStart
    by_cases ha : w.start ≤ a ∧ a ≤ w.stop
    · rw [indexAfter_ok ha.1 ha.2]
      have hb : b < w.start ∨ w.stop < b := by
        by_contra hb
        push Not at hb
        exact hn ⟨ha, hb⟩
      simp only [bind, Except.bind, pure, Except.pure, WavWin.stopAt]
      have := nonneg ha.1 ha.2
      rw [indexBefore_err (by rcases hb with hb | hb; exacts [Or.inl (by linarith), Or.inr hb])]
    · rw [not_and_or, not_le, not_le] at ha
      rw [indexAfter_err ha]
      rfl
  · rintro ⟨ha, hb⟩
    unfold WavWin.delayStart
    rw [indexAfter_ok ha.1 ha.2]
    simp only [bind, Except.bind, pure, Except.pure, WavWin.stopAt]
    constructor
    · intro hlt
      rw [indexBefore_err (Or.inl hlt)]
    · intro hle
      rw [indexBefore_ok hle hb.2]
      have hsh := idxB_shift (s := w.start) (t := b) hr (idxA w.start w.rate a)
      rw [hsh]
      refine ⟨?_, rfl⟩
      have h0 : 0 ≤ idxB (w.start + samplesToDuration w.rate (idxA w.start w.rate a)) w.rate b := by
        refine (idxB_bounds (n := w.stopIndex - w.startAfter - idxA w.start w.rate a) hr hle ?_).1
        have : samplesToDuration w.rate (idxA w.start w.rate a) +
            ((w.stopIndex - w.startAfter - idxA w.start w.rate a : ℤ) : ℚ) * 1 / w.rate =
            ((w.stopIndex - w.startAfter : ℤ) : ℚ) * 1 / w.rate := by
          unfold samplesToDuration
          push_cast
          field_simp
          ring
        linarith [hb.2]
      omega

theorem WavWin.Valid.getSub {α : Type} {files : WavFiles α} {w w' : WavWin} (h : w.Valid files)
    {a b : ℚ} (hs : w.getSub a b = .ok w') : w'.Valid files ∧ w'.path = w.path := by
  have hr := h.rate_pos
  have hstop : w.stop = w.start + ((w.stopIndex - w.startAfter : ℤ) : ℚ) * 1 / w.rate := by
    have := h.stop_eq
    rw [mul_one]
    linarith
  obtain ⟨h1, h2⟩ := WavWin.getSub_eq h a b
  by_cases hin : (w.start ≤ a ∧ a ≤ w.stop) ∧ (w.start ≤ b ∧ b ≤ w.stop)
  · obtain ⟨h3, h4⟩ := h2 hin
    rcases lt_or_ge b (w.start + samplesToDuration w.rate (idxA w.start w.rate a)) with hlt | hle
    · rw [h3 hlt] at hs; cases hs
    · obtain ⟨h5, h6⟩ := h4 hle
      rw [h6, Except.ok.injEq] at hs
      subst hs
      have hA := idxA_bounds hr hin.1.1 (hstop ▸ hin.1.2)
      have hB := idxB_bounds hr hin.2.1 (hstop ▸ hin.2.2)
      have := h.start_nonneg
      have := h.stop_le
      refine ⟨⟨hr, h.rate_eq, ?_, ?_, ?_, ?_⟩, rfl⟩
      · simp only []; omega
      · simp only []; omega
      · simp only []; omega
      · simp only [samplesToDuration]; push_cast; ring
  · rw [h1 hin] at hs; cases hs

/-- **C07** for wav windows: after any history of operations on a window opened on a file, the
window selects a valid contiguous range of the samples of that same file and its end is its start
plus the duration of these samples. -/
theorem C07_wav_history {α : Type} (files : WavFiles α) (path : String) (start : ℚ)
    (hrate : 0 < (files path).1) (history : List WinOp) (w : WavWin)
    (h : history.foldlM WavWin.apply (WavWin.init files path start) = .ok w) :
    w.path = path ∧ w.rate = (files path).1 ∧
    0 ≤ w.startAfter ∧ w.startAfter ≤ w.stopIndex ∧ w.stopIndex ≤ ((files path).2.length : ℤ) ∧
    w.stop - w.start = (w.nSamples : ℚ) / w.rate := by
  have inv : ∀ (history : List WinOp) (w0 : WavWin), (w0.Valid files ∧ w0.path = path) →
      ∀ w, history.foldlM WavWin.apply w0 = .ok w → (w.Valid files ∧ w.path = path) := by
    intro history
    induction history with
    | nil =>
      intro w0 h0 w hw
      simp only [List.foldlM_nil, pure, Except.pure, Except.ok.injEq] at hw
      exact hw ▸ h0
    | cons op ops ih =>
      intro w0 h0 w hw
      rw [List.foldlM_cons] at hw
      cases hop : WavWin.apply w0 op with
      | error e => rw [hop] at hw; cases hw
      | ok w1 =>
        rw [hop] at hw
        refine ih w1 ?_ w hw
        obtain ⟨hv, hp⟩ := h0
        cases op with
        | move d =>
          simp only [WavWin.apply, WavWin.move, Except.ok.injEq] at hop
          subst hop
          refine ⟨⟨hv.rate_pos, hv.rate_eq, hv.start_nonneg, hv.start_le_stop, hv.stop_le, ?_⟩, hp⟩
          have := hv.stop_eq
          simp only []
          linarith
        | copy =>
          simp only [WavWin.apply, Except.ok.injEq] at hop
          rw [WavWin.copy_eq hv] at hop
          subst hop
          exact ⟨hv, hp⟩
        | sub a b =>
          simp only [WavWin.apply] at hop
          obtain ⟨h1, h2⟩ := hv.getSub hop
          exact ⟨h1, h2.trans hp⟩
  have h0 : (WavWin.init files path start).Valid files ∧ (WavWin.init files path start).path = path := by
    refine ⟨⟨?_, rfl, le_rfl, ?_, le_rfl, ?_⟩, rfl⟩
    · exact hrate
    · simp [WavWin.init, WavWin.initWith]
    · simp only [WavWin.init, WavWin.initWith, samplesToDuration]
      push_cast
      ring
  obtain ⟨hv, hp⟩ := inv history _ h0 w h
  exact ⟨hp, hp ▸ hv.rate_eq, hv.start_nonneg, hv.start_le_stop, hp ▸ hv.stop_le, hv.stop_eq⟩

/-- **C07.** Reference times of a window with `n` samples: one per sample, at the middle of its
slot, regularly spaced and strictly inside the window. -/
theorem C07_times (start rate : ℚ) (hr : 0 < rate) (n : ℕ) :
    (getTimes start rate n).length = n ∧
    ∀ (i : ℕ) (t : ℚ), (getTimes start rate n)[i]? = some t →
      2 * t = (start + i / rate) + (start + (i + 1) / rate) ∧
      start < t ∧ t < start + n / rate := by
  refine ⟨by simp [getTimes], ?_⟩
  intro i t hi
  have hin : i < n := by
    by_contra hn
    rw [List.getElem?_eq_none (by simp [getTimes]; omega)] at hi
    cases hi
  simp only [getTimes, List.getElem?_map, List.getElem?_range hin, Option.map_some,
    Option.some.injEq, samplesToDuration] at hi
  subst hi
  have h1 : (i : ℚ) + 1 ≤ n := by exact_mod_cast hin
  have h2 : ((i : ℚ) + 1) / rate ≤ n / rate := div_le_div_of_nonneg_right h1 hr.le
  have h3 : (0 : ℚ) < 1 / 2 / rate := by positivity
  have h4 : (0 : ℚ) ≤ (i : ℚ) / rate := by positivity
  have e : start + (1 / 2 + (i : ℚ)) * (((1 : ℤ) : ℚ) * 1 / rate) =
      start + (1 / 2 / rate + i / rate) := by push_cast; ring
  have e2 : ((i : ℚ) + 1) / rate = i / rate + (1 / 2 / rate + 1 / 2 / rate) := by ring
  rw [e]
  refine ⟨?_, by linarith, by linarith⟩
  rw [e2]; ring

/-- A history which moves, crops and copies a wav window. -/
example : let files : WavFiles ℕ := fun _ => (2, [10, 11, 12, 13, 14, 15])
    [WinOp.move 1, .sub (3 / 2) 3, .copy, .sub 2 3].foldlM WavWin.apply
      (WavWin.init files "f" 0) = .ok ⟨"f", 2, 3, 2, 2, 4⟩ := by decide +kernel

example : [WinOp.move 1, .sub (3 / 2) 3, .copy].foldlM ArrayWin.apply
    (ArrayWin.init [10, 11, 12, 13] 0 2) = .ok ⟨[11, 12, 13], 3 / 2, 3, 2⟩ := by decide +kernel

/-! ## C08 -/

/-- A valid wav window, once loaded. -/
theorem WavWin.toArray_consistent {α : Type} {files : WavFiles α} {w : WavWin}
    (h : w.Valid files) :
    (w.toArray files).start = w.start ∧ (w.toArray files).rate = w.rate ∧
    (w.toArray files).stop = w.stop ∧
    ((w.toArray files).array.length : ℤ) = w.stopIndex - w.startAfter ∧
    (w.toArray files).array = pySlice (files w.path).2 w.startAfter w.stopIndex := by
  have h1 := h.start_nonneg
  have h2 := h.start_le_stop
  have h3 := h.stop_le
  have hlen : ((pySlice (files w.path).2 w.startAfter w.stopIndex).length : ℤ) =
      w.stopIndex - w.startAfter := by
    obtain ⟨i, hi⟩ : ∃ i : ℕ, w.startAfter = i := ⟨_, (Int.toNat_of_nonneg h1).symm⟩
    obtain ⟨j, hj⟩ : ∃ j : ℕ, w.stopIndex = j := ⟨_, (Int.toNat_of_nonneg (h1.trans h2)).symm⟩
    rw [hi, hj] at h2 ⊢
    rw [hj] at h3
    rw [pySlice_nat]
    simp only [List.length_take, List.length_drop]
    omega
  refine ⟨rfl, h.rate_eq.symm, ?_, hlen, rfl⟩
  show w.start + samplesToDuration (files w.path).1
    ((pySlice (files w.path).2 w.startAfter w.stopIndex).length : ℤ) = w.stop
  rw [hlen, ← h.rate_eq]
  have := h.stop_eq
  unfold samplesToDuration
  rw [mul_one]
  linarith

theorem pySlice_slice {α : Type*} (l : List α) {i j p q : ℤ} (hi : 0 ≤ i) (hp : 0 ≤ p)
    (hpq : p ≤ q) (hqj : i + q ≤ j) :
    pySlice (pySlice l i j) p q = pySlice l (i + p) (i + q) := by
  obtain ⟨i, rfl⟩ : ∃ n : ℕ, i = n := ⟨_, (Int.toNat_of_nonneg hi).symm⟩
  obtain ⟨p, rfl⟩ : ∃ n : ℕ, p = n := ⟨_, (Int.toNat_of_nonneg hp).symm⟩
  obtain ⟨q, rfl⟩ : ∃ n : ℕ, q = n := ⟨_, (Int.toNat_of_nonneg (hp.trans hpq)).symm⟩
  obtain ⟨j, rfl⟩ : ∃ n : ℕ, j = n := ⟨j.toNat, by omega⟩
  rw [pySlice_nat, pySlice_nat, ← Nat.cast_add, ← Nat.cast_add, pySlice_nat, List.drop_take,
    List.drop_drop, List.take_take]
  congr 1
  omega

/-- **C08.** A wav window and its loaded array agree on cropping. Let `sub` be the result of
cropping the loaded array. If `sub` does not start after `b`, cropping the wav window succeeds and
loading the result gives `sub`; if it starts after `b` then `sub` has no sample and cropping the
wav window raises. When cropping the array raises, so does cropping the wav window. -/
theorem C08_wav_refines_array {α : Type} (files : WavFiles α) (w : WavWin) (h : w.Valid files)
    (a b : ℚ) :
    (∀ sub, (w.toArray files).getSub a b = .ok sub →
      (sub.start ≤ b → ∃ w', w.getSub a b = .ok w' ∧ w'.toArray files = sub) ∧
      (b < sub.start → sub.array = [] ∧ w.getSub a b = .error .timeOutOfBound)) ∧
    (∀ e, (w.toArray files).getSub a b = .error e →
      e = .timeOutOfBound ∧ w.getSub a b = .error .timeOutOfBound) := by
  have hr := h.rate_pos
  obtain ⟨c1, c2, c3, c4, c5⟩ := WavWin.toArray_consistent h
  obtain ⟨g1, g2⟩ := WavWin.getSub_eq h a b
  have hstop : w.stop = w.start + ((w.stopIndex - w.startAfter : ℤ) : ℚ) * 1 / w.rate := by
    have := h.stop_eq
    rw [mul_one]
    linarith
  by_cases hin : (w.start ≤ a ∧ a ≤ w.stop) ∧ (w.start ≤ b ∧ b ≤ w.stop)
  · have hok := (w.toArray files).getSub_ok a b (by rw [c1, c3]; exact hin.1)
      (by rw [c1, c3]; exact hin.2)
    rw [c1, c2] at hok
    have hA := idxA_bounds hr hin.1.1 (hstop ▸ hin.1.2)
    have hB := idxB_bounds hr hin.2.1 (hstop ▸ hin.2.2)
    obtain ⟨g3, g4⟩ := g2 hin
    constructor
    · intro sub hsub
      rw [hok, Except.ok.injEq] at hsub
      subst hsub
      constructor
      · intro hle
        obtain ⟨g5, g6⟩ := g4 hle
        refine ⟨_, g6, ?_⟩
        rw [c5, pySlice_slice _ h.start_nonneg hA.1 g5 (by omega)]
        unfold WavWin.toArray
        simp only []
        rw [← h.rate_eq]
        congr 2
        omega
      · intro hlt
        refine ⟨?_, g3 hlt⟩
        -- the index before `b` is at most the index after `a`
        have hlt' : b < w.start + samplesToDuration w.rate (idxA w.start w.rate a) := hlt
        have hx : (b - w.start) * w.rate ≤ ((idxA w.start w.rate a : ℤ) : ℚ) := by
          have h1 : b - w.start ≤ samplesToDuration w.rate (idxA w.start w.rate a) := by linarith
          have h2 := mul_le_mul_of_nonneg_right h1 hr.le
          have e : samplesToDuration w.rate (idxA w.start w.rate a) * w.rate =
              (idxA w.start w.rate a : ℤ) := by unfold samplesToDuration; field_simp
          linarith
        have hle : idxB w.start w.rate b ≤ idxA w.start w.rate a :=
          (toApproxInt_between (m := 0) (rel_bounds hr hin.2.1 (hstop ▸ hin.2.2)).1 hx _ _).2
        obtain ⟨i, hi⟩ : ∃ i : ℕ, idxA w.start w.rate a = i := ⟨_, (Int.toNat_of_nonneg hA.1).symm⟩
        obtain ⟨j, hj⟩ : ∃ j : ℕ, idxB w.start w.rate b = j := ⟨_, (Int.toNat_of_nonneg hB.1).symm⟩
        show pySlice _ _ _ = []
        rw [hi, hj, pySlice_nat]
        have : j - i = 0 := by omega
        rw [this]
        rfl
    · intro e he
      rw [hok] at he
      cases he
  · have herr := (w.toArray files).getSub_err a b (by rw [c1, c3]; exact hin)
    constructor
    · intro sub hsub
      rw [herr] at hsub
      cases hsub
    · intro e he
      rw [herr, Except.error.injEq] at he
      exact ⟨he.symm, g1 hin⟩

/-- The windows of C08 exist, and both behaviours occur: a range shorter than one sample between
two sample slots is empty for the array and an error for the file. -/
example : let files : WavFiles ℕ := fun _ => (2, [10, 11, 12, 13, 14, 15])
    (WavWin.init files "f" 0).Valid files ∧
    ((WavWin.init files "f" 0).getSub 1 2 = .ok ⟨"f", 1, 2, 2, 2, 4⟩) ∧
    (((WavWin.init files "f" 0).toArray files).getSub (11 / 10) (12 / 10) =
      .ok ⟨[], 3 / 2, 3 / 2, 2⟩) ∧
    ((WavWin.init files "f" 0).getSub (11 / 10) (12 / 10) = .error .timeOutOfBound) := by
  intro files
  refine ⟨⟨?_, rfl, ?_, ?_, ?_, ?_⟩, ?_, ?_, ?_⟩ <;> decide +kernel

/-! ## C09 -/

/-- **C09.** A sub-window of a sub-window is the sub-window of the original. -/
theorem C09_nested_subwindow {α : Type} (w w1 w2 : ArrayWin α) (hr : 0 < w.rate)
    (hw : w.Consistent) (a b c d : ℚ)
    (h1 : w.getSub a b = .ok w1) (h2 : w1.getSub c d = .ok w2) :
    w.getSub c d = .ok w2 := by
  have hstop : w.stop = w.start + ((w.array.length : ℤ) : ℚ) * 1 / w.rate := by
    rw [hw]; push_cast; ring
  by_cases hin : (w.start ≤ a ∧ a ≤ w.stop) ∧ (w.start ≤ b ∧ b ≤ w.stop)
  swap
  · rw [w.getSub_err a b hin] at h1; cases h1
  rw [w.getSub_ok a b hin.1 hin.2, Except.ok.injEq] at h1
  have hA := idxA_bounds hr hin.1.1 (hstop ▸ hin.1.2)
  have hB := idxB_bounds hr hin.2.1 (hstop ▸ hin.2.2)
  generalize idxA w.start w.rate a = i at h1 hA
  generalize idxB w.start w.rate b = j at h1 hB
  subst h1
  -- number of samples of the intermediate window
  have hlen : ((pySlice w.array i j).length : ℤ) = max 0 (j - i) := by
    obtain ⟨i, rfl⟩ : ∃ n : ℕ, i = n := ⟨_, (Int.toNat_of_nonneg hA.1).symm⟩
    obtain ⟨j, rfl⟩ : ∃ n : ℕ, j = n := ⟨_, (Int.toNat_of_nonneg hB.1).symm⟩
    rw [pySlice_nat]
    simp only [List.length_take, List.length_drop]
    omega
  by_cases hin' : ((ArrayWin.init (pySlice w.array i j)
      (w.start + samplesToDuration w.rate i) w.rate).start ≤ c ∧ c ≤ (ArrayWin.init
      (pySlice w.array i j) (w.start + samplesToDuration w.rate i) w.rate).stop) ∧
      ((ArrayWin.init (pySlice w.array i j) (w.start + samplesToDuration w.rate i) w.rate).start ≤ d
        ∧ d ≤ (ArrayWin.init (pySlice w.array i j)
          (w.start + samplesToDuration w.rate i) w.rate).stop)
  swap
  · rw [ArrayWin.getSub_err _ c d hin'] at h2; cases h2
  rw [ArrayWin.getSub_ok _ c d hin'.1 hin'.2, Except.ok.injEq] at h2
  simp only [ArrayWin.init, hlen] at hin'
  obtain ⟨⟨c1, c2⟩, d1, d2⟩ := hin'
  have hcb := idxA_bounds hr c1 c2
  have hdb := idxB_bounds hr d1 d2
  rw [idxA_shift hr] at hcb
  rw [idxB_shift hr] at hdb
  have hi0 : (0 : ℚ) ≤ samplesToDuration w.rate i := by
    unfold samplesToDuration
    have : (0 : ℚ) ≤ i := by exact_mod_cast hA.1
    positivity
  have hmax : w.start + samplesToDuration w.rate i + samplesToDuration w.rate (max 0 (j - i)) ≤
      w.stop := by
    rw [hstop]
    have h3 : i + max 0 (j - i) ≤ (w.array.length : ℤ) := by omega
    have h4 : ((i + max 0 (j - i) : ℤ) : ℚ) ≤ ((w.array.length : ℤ) : ℚ) := by exact_mod_cast h3
    have h5 := div_le_div_of_nonneg_right h4 hr.le
    unfold samplesToDuration
    rw [Int.cast_add, add_div] at h5
    simp only [mul_one]
    linarith
  have hc : w.start ≤ c ∧ c ≤ w.stop := ⟨by linarith, by linarith⟩
  have hd : w.start ≤ d ∧ d ≤ w.stop := ⟨by linarith, by linarith⟩
  rw [w.getSub_ok c d hc hd, ← h2]
  simp only [ArrayWin.init]
  rw [idxA_shift hr, idxB_shift hr]
  have hsl : pySlice (pySlice w.array i j) (idxA w.start w.rate c - i) (idxB w.start w.rate d - i) =
      pySlice w.array (idxA w.start w.rate c) (idxB w.start w.rate d) := by
    rcases le_total (idxA w.start w.rate c - i) (idxB w.start w.rate d - i) with hle | hle
    · rcases le_total j i with hji | hij
      · -- empty intermediate window
        have e0 : max 0 (j - i) = 0 := by omega
        rw [e0] at hcb hdb
        obtain ⟨p, hp⟩ : ∃ n : ℕ, idxA w.start w.rate c = n :=
          ⟨_, (Int.toNat_of_nonneg (by omega : 0 ≤ idxA w.start w.rate c)).symm⟩
        obtain ⟨q, hq⟩ : ∃ n : ℕ, idxB w.start w.rate d = n :=
          ⟨_, (Int.toNat_of_nonneg (by omega : 0 ≤ idxB w.start w.rate d)).symm⟩
        have e1 : idxA w.start w.rate c - i = ((0 : ℕ) : ℤ) := by omega
        have e2 : idxB w.start w.rate d - i = ((0 : ℕ) : ℤ) := by omega
        rw [e1, e2, pySlice_nat, hp, hq, pySlice_nat]
        have : q - p = 0 := by omega
        rw [this]
        simp
      · rw [pySlice_slice w.array hA.1 hcb.1 hle (by omega)]
        congr 1 <;> omega
    · obtain ⟨p, hp⟩ : ∃ n : ℕ, idxA w.start w.rate c - i = n := ⟨_, (Int.toNat_of_nonneg hcb.1).symm⟩
      obtain ⟨q, hq⟩ : ∃ n : ℕ, idxB w.start w.rate d - i = n := ⟨_, (Int.toNat_of_nonneg hdb.1).symm⟩
      obtain ⟨p', hp'⟩ : ∃ n : ℕ, idxA w.start w.rate c = n :=
        ⟨_, (Int.toNat_of_nonneg (by omega : 0 ≤ idxA w.start w.rate c)).symm⟩
      obtain ⟨q', hq'⟩ : ∃ n : ℕ, idxB w.start w.rate d = n :=
        ⟨_, (Int.toNat_of_nonneg (by omega : 0 ≤ idxB w.start w.rate d)).symm⟩
      rw [hp, hq, pySlice_nat, hp', hq', pySlice_nat]
      have e1 : q - p = 0 := by omega
      have e2 : q' - p' = 0 := by omega
      rw [e1, e2]
      simp
  rw [hsl]
  have hst : w.start + samplesToDuration w.rate i +
      samplesToDuration w.rate (idxA w.start w.rate c - i) =
      w.start + samplesToDuration w.rate (idxA w.start w.rate c) := by
    unfold samplesToDuration
    push_cast
    ring
  rw [hst]

example : let w := ArrayWin.init [10, 11, 12, 13, 14, 15] 0 2
    w.getSub (1 / 2) (5 / 2) = .ok ⟨[11, 12, 13, 14], 1 / 2, 5 / 2, 2⟩ ∧
    (ArrayWin.mk [11, 12, 13, 14] (1 / 2) (5 / 2) (2 : ℚ)).getSub 1 2 =
      .ok ⟨[12, 13], 1, 2, 2⟩ ∧
    w.getSub 1 2 = .ok ⟨[12, 13], 1, 2, 2⟩ := by
  intro w
  refine ⟨?_, ?_, ?_⟩ <;> decide +kernel

end Verif.Window
