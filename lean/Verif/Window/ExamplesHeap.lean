import Verif.Window.PropsHeap

/-! # Cases of property C208 -/

namespace Verif.Window.H

open Verif Heap

/-- No file. -/
def noFiles : WavFiles ℕ := fun _ => (1, [])

/-- An array window of four samples, from 0 to 2, then a window labelled "a" from 0 to 1, and the lists of both, of the
second one twice, and of the first one only. -/
def ex : Heap ℕ String :=
  let h : Heap ℕ String := empty
  let r := h.allocBuf [1, 2, 3, 4]
  let h := (r.1.alloc (.ofView r.2 0 2)).1
  let h := (h.alloc (.basic ⟨0, 1, "a"⟩)).1
  let h := (h.allocList [0, 1]).1
  let h := (h.allocList [1, 1]).1
  (h.allocList [0]).1

theorem ex_reach : Reach noFiles ex :=
  .list (.list (.list (.basic (.array .empty _ _ _) _ _ _) [0, 1] (by decide)) [1, 1] (by decide)) [0] (by decide)

/-- `ConcatTimeWindow.align` of the first list. -/
def exAligned : Heap ℕ String := (ex.align 0 none).1

theorem exAligned_reach : Reach noFiles exAligned := .align ex_reach 0 none

-- C208_align and C208_move: the values are those of the value model.
example : exAligned.values 0 = [.array ⟨[1, 2, 3, 4], 0, 2, 2⟩, .basic ⟨2, 3, "a"⟩] :=
  (C208_align ex 0 none).2.2.2.2.2 (by decide) _ (by decide +kernel)

example : (exAligned.concatMove 0 5).values 0 = [.array ⟨[1, 2, 3, 4], 5, 7, 2⟩, .basic ⟨7, 8, "a"⟩] :=
  ((C208_move exAligned 0 5).2.2.2 (by decide)).trans (by decide +kernel)

-- C208_move: a window which is twice in a list moves twice.
example : (ex.concatMove 1 5).win 1 = .basic ⟨10, 11, "a"⟩ :=
  ((C208_move ex 1 5).1 1).trans (by decide +kernel)

-- C208_repeated: aligning the same window twice.
example : (ex.align 1 (some 0)).1.concatNew 1 = .error .valueError :=
  (C208_repeated ex 1 (by decide) (by decide +kernel)).2 (some 0)

-- A window without duration may be repeated.
example : (((ex.alloc (.basic ⟨4, 4, "b"⟩)).1.allocList [2, 2]).1.align 3 none).1.concatNew 3 = .ok 3 := by decide +kernel

-- C208_copy, C208_get_subwindow and C208_independent: copies and sub-windows of the aligned windows.
theorem ex_copied : ∃ c, (exAligned.concatCopy 0).2 = .ok c ∧
    (exAligned.concatCopy 0).1.values c = [.array ⟨[1, 2, 3, 4], 0, 2, 2⟩, .basic ⟨2, 3, "a"⟩] ∧
    New exAligned (exAligned.concatCopy 0).1 ((exAligned.concatCopy 0).1.lists c) ∧
    Keeps exAligned (exAligned.concatCopy 0).1 := by
  obtain ⟨k, _, m⟩ := C208_copy (C208_reach noFiles exAligned_reach) (c := 0) (by decide)
  have e : Concat.copy ⟨exAligned.values 0⟩ = .ok ⟨[.array ⟨[1, 2, 3, 4], 0, 2, 2⟩, .basic ⟨2, 3, "a"⟩]⟩ := by
    decide +kernel
  rw [e] at m
  obtain ⟨c, h1, _, _, h2, h3⟩ := m
  exact ⟨c, h1, h2, h3, k⟩

example : ∃ c, (exAligned.concatCopy 0).2 = .ok c ∧
    (((exAligned.concatCopy 0).1.concatMove c 5).align c (some 1)).1.values 0 = exAligned.values 0 := by
  obtain ⟨c, h1, _, h3, k⟩ := ex_copied
  refine ⟨c, h1, ((C208_independent k (C208_reach noFiles exAligned_reach) h3).1 _ ?_).2 0 (by decide)⟩
  refine .align (.concat (.refl _) c (fun l hl => hl) 5) c (fun l hl => ?_) _
  have := (C208_move (exAligned.concatCopy 0).1 c 5).2.2.1
  rw [this] at hl
  exact hl

example : ∃ c, (exAligned.concatSub 0 1 (5 / 2)).2 = .ok c ∧
    (exAligned.concatSub 0 1 (5 / 2)).1.values c = [.array ⟨[3, 4], 1, 2, 2⟩, .basic ⟨2, 5 / 2, "a"⟩] := by
  obtain ⟨_, _, m⟩ := C208_get_subwindow (C208_reach noFiles exAligned_reach) (c := 0) (by decide) 1 (5 / 2)
  have e : Concat.getSub ⟨exAligned.values 0⟩ 1 (5 / 2) =
      .ok ⟨[.array ⟨[3, 4], 1, 2, 2⟩, .basic ⟨2, 5 / 2, "a"⟩]⟩ := by decide +kernel
  rw [e] at m
  obtain ⟨c, h1, _, _, h2, _⟩ := m
  exact ⟨c, h1, h2⟩

-- C208_get_subwindow_at and C208_moved: the window found at 5/2 is moved by 1.
example : exAligned.concatAt 0 (5 / 2) = .ok 1 ∧ Concat.copy ⟨(exAligned.moveAt 1 1).values 0⟩ = .error .valueError := by
  refine ⟨by decide +kernel, ?_⟩
  obtain ⟨-, -, h⟩ := (C208_get_subwindow_at exAligned 0 (5 / 2)).2 1 (by decide +kernel)
  obtain ⟨pre, post, e1, e2⟩ := h (by decide) 1
  have hv : exAligned.values 0 = [.array ⟨[1, 2, 3, 4], 0, 2, 2⟩, .basic ⟨2, 3, "a"⟩] := by decide +kernel
  refine C208_moved exAligned 0 1 1 pre post ?_ ?_ ?_ (by norm_num [TOL]) e2
  · by_contra hne
    push Not at hne
    rw [hv, hne.1, hne.2] at e1
    simp at e1
  · rw [← e1, hv]
    unfold Consecutive
    norm_num [Win.stop, Win.start, TOL]
  · rw [← e1, hv]
    decide +kernel

-- C208_append: the second window appended once more.
example : ex.concatNew 2 = .ok 2 ∧ Concat.stop ⟨(ex.append 2 1).values 2⟩ = .ok 1 := by
  have h : ex.concatNew 2 = .ok 2 := by decide +kernel
  exact ⟨h, (C208_append ex 2 1 h).2.1⟩

-- C208_copy_shares, C208_sub_shares and C208_to_array.
example : ∃ w w' : ArrayWin ℕ, ((ex.copyAt 0).1.write (ex.copyAt 0).2 1 9).win 0 = .array w ∧ w.array = [1, 9, 3, 4] ∧
    (ex.copyAt 0).1.win (ex.copyAt 0).2 = .array w' ∧ w'.array = [1, 2, 3, 4] := by
  obtain ⟨-, -, h1, w, w', e1, e2, e3, e4, h⟩ :=
    C208_copy_shares noFiles (C208_reach noFiles ex_reach) (l := 0) (by decide) (w := ⟨[1, 2, 3, 4], 0, 2, 2⟩)
      (by decide +kernel)
  have hw : w = ⟨[1, 2, 3, 4], 0, 2, 2⟩ := by
    have : (ex.copyAt 0).1.win 0 = .array ⟨[1, 2, 3, 4], 0, 2, 2⟩ := by decide +kernel
    rw [this] at e1
    cases e1; rfl
  have hw' : w' = ⟨[1, 2, 3, 4], 0, 2, 2⟩ := by
    have : (ex.copyAt 0).1.win (ex.copyAt 0).2 = .array ⟨[1, 2, 3, 4], 0, 2, 2⟩ := by decide +kernel
    rw [this] at e2
    cases e2; rfl
  subst hw hw'
  exact ⟨_, _, (h 1 (by decide) 9).1, by decide, e2, rfl⟩

example : ∃ l' w' k, (ex.subAt 0 1 2).2 = .ok l' ∧ (ex.subAt 0 1 2).1.win l' = .array w' ∧ w'.array = [3, 4] ∧
    Shares (ex.subAt 0 1 2).1 0 l' k := by
  obtain ⟨_, _, h⟩ := C208_sub_shares (C208_reach noFiles ex_reach) (l := 0) (by decide)
    (w := ⟨[1, 2, 3, 4], 0, 2, 2⟩) (by decide +kernel) 1 2
  have he : (ex.subAt 0 1 2).2 = .ok 2 := by decide +kernel
  obtain ⟨w', k, e1, e2, e3⟩ := h 2 he
  refine ⟨2, w', k, he, e2, ?_, e3⟩
  have : (ArrayWin.getSub ⟨[1, 2, 3, 4], 0, 2, 2⟩ 1 2 : Py (ArrayWin ℕ)) = .ok ⟨[3, 4], 1, 2, 2⟩ := by decide +kernel
  rw [this] at e1
  cases e1; rfl

example : ∃ l' w, (ex.concatToArray noFiles 2).2 = .ok l' ∧ (ex.concatToArray noFiles 2).1.win l' = .array w ∧
    ((ex.concatToArray noFiles 2).1.write l' 0 7).win 0 = ex.win 0 := by
  obtain ⟨_, _, h⟩ := C208_to_array noFiles (C208_reach noFiles ex_reach) (c := 2) (by decide)
  have he : (ex.concatToArray noFiles 2).2 = .ok 3 := by decide +kernel
  obtain ⟨w, _, e2, e3⟩ := h 3 he
  exact ⟨3, w, he, e2, e3 0 7 0 (by decide)⟩

end Verif.Window.H
