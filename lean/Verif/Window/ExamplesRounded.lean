import Verif.Window.PropsRoundedSlider

/-!
# Rounding in windows: cases where it changes the results, and examples for C192 to C194

`dbl` rounds to the nearest double.
-/

namespace Verif.Window.Fl

open Verif Verif.Window

/-! ### What rounding breaks -/

/-- Files of 8, 1 and 12 samples at 10 Hz. -/
def exFiles : WavFiles Unit := fun p =>
  if p = "a" then (10, List.replicate 8 ()) else if p = "b" then (10, [()]) else (10, List.replicate 12 ())

/-- **C193, end.** A file of 0.8 seconds can not be cropped from 0.1 to its own end, which is in its range: once the start
is delayed, the end is computed again, as 0.1 + 0.7 which is below 0.8. Without rounding the crop has 7 samples. -/
theorem C193_end :
    ∃ c : Concat Unit Unit, concatFromListOfWavs dbl exFiles ["a"] none = .ok c ∧ c.start = .ok 0 ∧
      c.stop = .ok (dbl (8 / 10)) ∧
      concatGetSub dbl c (dbl (1 / 10)) (dbl (8 / 10)) = .error .timeOutOfBound ∧
      (∃ d : Concat Unit Unit, concatFromListOfWavs id exFiles ["a"] none = .ok d ∧
        concatGetSub id d (1 / 10) (8 / 10) = .ok ⟨[.wav ⟨"a", 1 / 10, 8 / 10, 10, 1, 8⟩]⟩) :=
  ⟨⟨[.wav ⟨"a", 0, dbl (8 / 10), 10, 0, 8⟩]⟩, by decide +kernel, by decide +kernel, by decide +kernel, by decide +kernel,
    ⟨[.wav ⟨"a", 0, 8 / 10, 10, 0, 8⟩]⟩, by decide +kernel, by decide +kernel⟩

/-- **C194, last window.** The windows of half a second at each tenth of a second over two files of 0.1 and 1.2 seconds: the
last one, which `slider` gives in the range of the concatenation, can not be cropped. -/
theorem C194_last :
    ∃ c : Concat Unit Unit, concatFromListOfWavs dbl exFiles ["b", "c"] none = .ok c ∧ ∃ te, c.stop = .ok te ∧
      ∃ l p, slider dbl 0 te (dbl (1 / 2)) (dbl (1 / 10)) false (TOL dbl) = l ++ [p] ∧ p.2 = te ∧
        concatGetSub dbl c p.1 p.2 = .error .timeOutOfBound ∧
        ∀ q ∈ l, (concatGetSub dbl c q.1 q.2).toBool = true := by
  refine ⟨⟨[.wav ⟨"b", 0, dbl (1 / 10), 10, 0, 1⟩, .wav ⟨"c", dbl (1 / 10), dbl (13 / 10), 10, 0, 12⟩]⟩, by decide +kernel,
    dbl (13 / 10), by decide +kernel,
    (slider dbl 0 (dbl (13 / 10)) (dbl (1 / 2)) (dbl (1 / 10)) false (TOL dbl)).dropLast, (dbl (8 / 10), dbl (13 / 10)), ?_,
    rfl, by decide +kernel, by decide +kernel⟩
  decide +kernel

/-- **C194, edge.** Frames at 20 Hz from 0 to 0.75000001 seconds: the end of a frame is snapped to the end, and the next one,
which starts less than one rounding before it, is kept. They are not consecutive and `ValueError` is raised. -/
theorem C194_edge : concatOfFrames (α := Unit) (γ := Unit) dbl 0 (dbl (75000001 / 100000000)) 20 = .error .valueError ∧
    ¬ Clear 0 (dbl (75000001 / 100000000)) 20 := by
  refine ⟨by decide +kernel, ?_⟩
  intro h
  have := h 15
  revert this
  decide +kernel

/-- **C192, moves.** A wav window of 0.1 seconds moved by 0.2 seconds and back: its end is not any more the one of its copy,
and it can not be cropped to its own range. -/
theorem C192_moved :
    let w := wavMove dbl (wavMove dbl (wavInit dbl exFiles "b" 0) (dbl (2 / 10))) (dbl (-2 / 10))
    w.start = 0 ∧ w.stop ≠ (wavCopy dbl w).stop ∧ ¬ Fresh dbl w ∧ wavGetSub dbl w w.start w.stop = .error .timeOutOfBound := by
  refine ⟨by decide +kernel, by decide +kernel, ?_, by decide +kernel⟩
  unfold Fresh
  decide +kernel

/-! ### Examples -/

instance (w : WavWin) : Decidable (Fresh dbl w) := by unfold Fresh; infer_instance

example := C192_index_before isRounding_dbl (s := 0) (e := dbl (8 / 10)) (rate := 10) (t := dbl (1 / 10)) (by norm_num)
  (by norm_num) (by decide +kernel) (by decide +kernel) (by decide +kernel)

example := C192_index_after isRounding_dbl (s := 0) (e := dbl (8 / 10)) (rate := 10) (t := dbl (3 / 10)) (by norm_num)
  (by norm_num) (by decide +kernel) (by decide +kernel) (by decide +kernel)

/-- Three tenths are the boundary of three samples, though `dbl (3 / 10)` is below the sum of three `dbl (1 / 10)`. -/
example : indexAfter dbl 0 (dbl (8 / 10)) 10 (dbl (dbl (1 / 10) + dbl (2 / 10))) = .ok 3 ∧
    dbl (3 / 10) < dbl (dbl (1 / 10) + dbl (2 / 10)) := by decide +kernel

example := C192_subwindow isRounding_dbl (arrayInit dbl [1, 2, 3, 4, 5] (dbl (1 / 10)) 10) (a := dbl (2 / 10)) (b := dbl (5 / 10))
  (by decide +kernel) (by decide +kernel) (by decide +kernel)

example : arrayGetSub dbl (arrayInit dbl [1, 2, 3, 4, 5] (dbl (1 / 10)) 10) (dbl (2 / 10)) (dbl (5 / 10)) =
    .ok (arrayInit dbl [2, 3, 4] (dbl (2 / 10)) 10) := by decide +kernel

example := C192_boundaries isRounding_dbl [1, 2, 3, 4, 5] (s := dbl (1 / 10)) (rate := 3) (by norm_num) (by norm_num)
  (by decide +kernel) (by decide +kernel) (i := 1) (j := 4) (by norm_num) (by decide)

example := C192_crops isRounding_dbl [(1, 5), (0, 3), (2, 3)] [1, 2, 3, 4, 5] [4] (s := dbl (1 / 10)) (rate := 3) (by norm_num)
  (by norm_num) (by decide +kernel) (by decide +kernel) (by simp [Ranges])

example := C192_wav isRounding_dbl (w := ⟨"a", dbl (1 / 10), dbl (7 / 10), 10, 2, 8⟩) (by decide +kernel) (by norm_num)
  (by norm_num) (n := 6) rfl (by decide +kernel) (a := dbl (3 / 10)) (b := dbl (6 / 10)) (by decide +kernel)
  (by decide +kernel) (by decide +kernel)

theorem exReadable {paths : List String} : Readable exFiles paths := by
  intro p _
  unfold exFiles
  split_ifs <;> refine ⟨by norm_num, by norm_num, by decide⟩

example := C193_build isRounding_dbl exFiles (paths := ["a", "b", "c"]) (by decide) (start := some (dbl (1 / 10)))
  (by decide +kernel) (by decide +kernel) exReadable (by decide +kernel)

/-- The windows of three files. -/
def exWins : List WavWin :=
  [⟨"a", 0, dbl (8 / 10), 10, 0, 8⟩, ⟨"b", dbl (8 / 10), dbl (dbl (8 / 10) + dbl (1 / 10)), 10, 0, 1⟩,
    ⟨"c", dbl (dbl (8 / 10) + dbl (dbl (dbl (8 / 10) + dbl (1 / 10)) - dbl (8 / 10))),
      dbl (dbl (dbl (8 / 10) + dbl (dbl (dbl (8 / 10) + dbl (1 / 10)) - dbl (8 / 10))) + dbl (12 / 10)), 10, 0, 12⟩]

theorem exWins_build : concatFromListOfWavs dbl exFiles ["a", "b", "c"] none = .ok ⟨exWins.map Win.wav⟩ := by decide +kernel

theorem exWhole0 : Whole dbl exWins[0] 8 :=
  ⟨by decide +kernel, by decide +kernel, by decide +kernel, by decide +kernel, by decide +kernel, by decide +kernel,
    by decide +kernel, by decide +kernel, by decide +kernel⟩

theorem exWhole1 : Whole dbl exWins[1] 1 :=
  ⟨by decide +kernel, by decide +kernel, by decide +kernel, by decide +kernel, by decide +kernel, by decide +kernel,
    by decide +kernel, by decide +kernel, by decide +kernel⟩

theorem exWhole2 : Whole dbl exWins[2] 12 :=
  ⟨by decide +kernel, by decide +kernel, by decide +kernel, by decide +kernel, by decide +kernel, by decide +kernel,
    by decide +kernel, by decide +kernel, by decide +kernel⟩

theorem exBuilt : Built dbl exWins := by
  refine ⟨?_, ?_⟩
  · intro w hw
    rcases List.mem_cons.1 hw with rfl | hw
    · exact ⟨_, exWhole0⟩
    · rcases List.mem_cons.1 hw with rfl | hw
      · exact ⟨_, exWhole1⟩
      · rcases List.mem_cons.1 hw with rfl | hw
        · exact ⟨_, exWhole2⟩
        · cases hw
  · unfold exWins
    refine List.isChain_cons_cons.2 ⟨by decide +kernel, List.isChain_cons_cons.2 ⟨by decide +kernel, List.IsChain.singleton _⟩⟩

theorem exFirst {x : ℚ} (hx : 0 ≤ x) : ∀ v ∈ exWins.head?, v.start ≤ x := by
  intro v hv
  cases hv
  exact hx

example := C193_at (α := Unit) isRounding_dbl exBuilt (x := dbl (9 / 10)) (by decide +kernel) (exFirst (by decide +kernel))
  (l := exWins[2]) rfl (by decide +kernel)

/-- A crop in the third file. -/
example := C193_crop_one (α := Unit) isRounding_dbl exBuilt exWhole2 (a := 1) (b := dbl (15 / 10))
  (pre := [exWins[0], exWins[1]]) (post := []) ⟨rfl, by decide +kernel, by decide +kernel, by decide +kernel⟩
  ⟨rfl, by decide +kernel, by decide +kernel, by decide +kernel⟩ (exFirst (by decide +kernel)) (exFirst (by decide +kernel))

/-- A crop over the three files. -/
example := C193_crop_many (α := Unit) isRounding_dbl exBuilt exWhole0 exWhole2
  (a := dbl (3 / 10)) (b := dbl (15 / 10)) (pre := []) (mid := [exWins[1]]) (post := [])
  ⟨rfl, by decide +kernel, by decide +kernel, by decide +kernel⟩
  ⟨rfl, by decide +kernel, by decide +kernel, by decide +kernel⟩ (exFirst (by decide +kernel)) (exFirst (by decide +kernel))

example := C193_crop (α := Unit) isRounding_dbl exBuilt (a := dbl (3 / 10)) (b := dbl (15 / 10)) (by decide +kernel)
  (by decide +kernel) (exFirst (by decide +kernel)) (l := exWins[2]) rfl (by decide +kernel) (by decide +kernel)

example := C194_starts isRounding_dbl (L := dbl (1 / 10)) (R := dbl (8 / 10)) (step := dbl (1 / 10)) (by decide +kernel)
  (by decide +kernel) (by decide +kernel) (by decide +kernel) (by decide +kernel) (by decide +kernel) (by decide +kernel) true

/-- Three values, the last one snapped: 0.1 + 2 * 0.1 is above 0.3. -/
example : arange dbl (dbl (1 / 10)) (dbl (3 / 10)) (dbl (1 / 10)) true (TOL dbl) = [dbl (1 / 10), dbl (2 / 10), dbl (3 / 10)] ∧
    dbl (3 / 10) < dbl (dbl (1 / 10) + dbl (2 * dbl (1 / 10))) := by decide +kernel

example := C194_slider isRounding_dbl (ts := dbl (1 / 10)) (te := dbl (13 / 10)) (width := dbl (1 / 2))
  (shift := dbl (1 / 10)) (by decide +kernel) (by decide +kernel) (by decide +kernel) (by decide +kernel) (by decide +kernel)
  (by decide +kernel) (by decide +kernel) (by decide +kernel)

example := C194_none isRounding_dbl (ts := dbl (1 / 10)) (te := dbl (5 / 10)) (width := dbl (1 / 2))
  (shift := dbl (1 / 10)) (by decide +kernel) (by decide +kernel) (by decide +kernel) (by decide +kernel) (by decide +kernel)

/-- Frames from 0 to one second at 20 Hz do not start near the end minus the tolerance. -/
theorem exClear : Clear 0 1 20 := by
  intro k
  rcases le_or_gt k 19 with h | h
  · have : (k : ℚ) ≤ 19 := by exact_mod_cast h
    rw [abs_of_neg (by linarith)]
    linarith
  · have : (20 : ℚ) ≤ k := by exact_mod_cast h
    rw [abs_of_pos (by linarith)]
    linarith

example := C194_frames (α := Unit) (γ := Unit) isRounding_dbl (ts := 0) (te := 1) (rate := 20) (by decide +kernel)
  (by decide +kernel) le_rfl (by norm_num) (by norm_num) (by norm_num) (by norm_num) exClear

example := C194_files isRounding_dbl exFiles (paths := ["b", "c"]) (by decide) exReadable (by decide +kernel)
  (width := dbl (1 / 2)) (shift := dbl (1 / 10)) (by decide +kernel) (by decide +kernel) (by decide +kernel)
  (by decide +kernel)

end Verif.Window.Fl
