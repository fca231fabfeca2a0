import Verif.Plots.Props
import Verif.Plots.PropsView

/-!
# Examples for the properties of plots (C122-C130)
-/

namespace Verif.Plots

open Verif Verif.Window

/-- C122: the pairs and the combinations of three modalities. -/
example : allPairs [1, 2, 3] = [([1], [2]), ([1], [3]), ([2], [1]), ([2], [3]), ([3], [1]), ([3], [2])] ∧
    combinations [1, 2, 3] = [([1], [2]), ([1], [3]), ([2], [1]), ([2], [3]), ([3], [1]), ([3], [2]),
      ([2, 3], [1]), ([1, 3], [2]), ([1, 2], [3])] := by decide +kernel

/-- The three modalities. -/
def mods3 : List Str := ["image".toList, "motion".toList, "sound".toList]

/-- C122: the legends of three modalities. -/
example : ∃ a b c, legends mods3 = .ok [a, b, c] ∧ a ++ b ++ c = combinations mods3 ∧
    a.length = b.length ∧ b.length = c.length :=
  (C122_legends mods3 (by decide) (by
    intro m hm
    simp only [mods3, List.mem_cons, List.not_mem_nil, or_false] at hm
    exact hm)).1 rfl

/-- C122: with two modalities there is no legend. -/
example : legends ["image".toList, "sound".toList] = .error .valueError :=
  (C122_legends _ (by decide) (by
    intro m hm
    simp only [List.mem_cons, List.not_mem_nil, or_false] at hm
    rcases hm with rfl | rfl
    · exact Or.inl rfl
    · exact Or.inr (Or.inr rfl))).2 (by decide)

/-- C123: keys of the plots. -/
example : curveKey (["image".toList], ["sound".toList]) "_cosine".toList = "score_image2sound".toList ∧
    boxKey (["image".toList, "motion".toList], ["sound".toList]) =
      "score_image_motion2sound_cosine".toList := by decide +kernel

/-- C123: the combination shown for a modality reconstructed from the two others. -/
example : (["image".toList, "motion".toList], ["sound".toList]) ∈ combinations mods3 := by decide +kernel

/-- C124: the name used for images in `image_sound_eval_sliding.py` has no colour. -/
example : colorFor ["sound".toList] ["objects".toList] true = .error .keyError :=
  (C124_colors "sound".toList "objects".toList [] []).2.2.2 (by
    rintro ⟨-, h | h | h, -⟩ <;> revert h <;> decide)

example : colorFor ["sound".toList] ["image".toList] true = .ok "#eba7f7".toList := by rfl

/-- C125: two values of `k`, with three runs for each. -/
example : plotVar false [[1, 2, 3], [1, 1, 1]] (some [5, 10]) =
    .ok [(5, 2, 2 / 3), (10, 1, 0)] := by decide +kernel

example : ([1, 2, 3] : List ℚ) ≠ [] ∧ variance [1, 2, 3] = 2 / 3 ∧ mean [1, 2, 3] = 2 := by
  refine ⟨by simp, by decide +kernel, by decide +kernel⟩

/-- C125: a curve with a logger for each `k`. -/
example : ∃ ps, plotOneCurve (fun (g : ℚ) _ => .ok [g, g + 1]) [1 / 2, 1 / 4]
    (["image".toList], ["sound".toList]) [5, 10] "".toList = .ok ps ∧ ps.length = 2 := by
  obtain ⟨ps, h1, h2, _⟩ := C125_curve (fun (g : ℚ) _ => .ok [g, g + 1]) [1 / 2, 1 / 4]
    "image".toList "sound".toList (Or.inl rfl) (Or.inr (Or.inr rfl)) (by decide) [5, 10] "".toList 2
    (by simp) (fun g _ => ⟨_, rfl, rfl⟩)
  exact ⟨ps, h1, h2⟩

/-! ### A plot of 25 seconds -/

/-- Two sentences. -/
def recs : Concat Unit ℕ := ⟨[.basic ⟨0, 12, 1⟩, .basic ⟨12, 25, 2⟩]⟩

/-- Four sliding windows. -/
def slides : List (BasicWin Unit) := [⟨0, 10, ()⟩, ⟨5, 15, ()⟩, ⟨10, 20, ()⟩, ⟨15, 25, ()⟩]

/-- Similarities with two labels. -/
def sims : List (List ℚ) := [[1, 2], [3, 2], [1, 5], [0, 0]]

/-- C126: similarities and labels. -/
example : ∃ p : Score ℕ ℕ, Score.new recs slides (.array sims) (.list [1, 2]) (some []) none = .ok p ∧
    p.current.start = 0 ∧ p.current.stop = 20 := by
  obtain ⟨p, h, h1, h2, _⟩ := (C126_new recs slides sims (.list [1, 2]) [] none).2 (by decide)
  exact ⟨p, h, h1, h2⟩

/-- C126: relative times asked, and the default size of markers. -/
example : ∃ p : Score ℕ ℕ, Score.new recs slides (.array sims) (.list [1, 2]) (some [("use_relative_time".toList, .flag true)])
    none = .ok p ∧ dictGet? p.rc "markersize".toList = some (.num 5) := by
  obtain ⟨p, h, -⟩ := (C126_new recs slides sims (.list [1, 2]) [("use_relative_time".toList, .flag true)] none).2 (by decide)
  exact ⟨p, h, (C126_defaults _ _ _ _ _ (by decide) _ p h _ (by decide)).2.2.2.2.2.1 rfl⟩

/-- C126: the other order is refused. -/
example : Score.new recs slides (.list [1, 2]) (.array sims) (some []) none =
    (.error .typeError : Py (Score ℕ ℕ)) := by rfl

/-- C127, C128: the plot of the first 20 seconds. -/
example : ∃ p d, Interactive.new recs slides (.array sims) (.list [1, 2]) none (some []) =
    (.ok (p, d) : Py (Interactive ℕ ℕ × Drawing ℕ)) ∧ p.start = 0 ∧ p.width = 15 := by
  obtain ⟨p, d, h1, h2, h3, _⟩ := (C128_interactive recs slides sims (.list [1, 2]) [] none
    (by decide) (by decide) (by simp [recs, Aligned, Win.start, Win.stop]) (by simp [recs])
    (by simp [recs, Win.start, Win.stop]; norm_num) 0 25 rfl rfl).1 (by norm_num)
  exact ⟨p, d, h1, h2, h3⟩

/-- C128: the same with only the first sentence. -/
example : Interactive.new (⟨[.basic ⟨0, 12, 1⟩]⟩ : Concat Unit ℕ) slides (.array sims)
    (.list [1, 2] : Arg ℕ) none (some []) = .error .timeOutOfBound :=
  (C128_interactive _ slides sims (.list [1, 2]) [] none (by decide) (by decide)
    (by simp [Aligned]) (by simp) (by simp [Win.start, Win.stop]) 0 12 rfl rfl).2 (by norm_num)

set_option synthInstance.maxSize 1024 in
/-- What is drawn. -/
example : ((Score.new recs slides (.array sims) (.list [1, 2] : Arg ℕ) (some []) none).toOption.bind
    fun p => p.draw.toOption.map fun d => (d.segments, d.times, d.curves, d.texts, d.lines, d.xbound)) =
    some ([(0, 10, 2), (5, 15, 3), (10, 20, 5), (15, 20, 0)], [5, 10, 15, 20],
      [[1, 2], [3, 2], [1, 5], [0, 0]], [(6, 1, true), (16, 2, true)], [12, 20], (0, 20)) := by
  decide +kernel

/-- C129: two steps to the right go beyond 25 seconds. -/
example : ((Score.new recs slides (.array sims) (.list [1, 2] : Arg ℕ) (some []) none).toOption.map
    fun p => let i : Interactive ℕ ℕ := ⟨p, 0, 15⟩
      let r := i.onKey id "right".toList
      let q := r.1.onKey id "right".toList
      ((r.1.start, r.2.toOption.isSome), q.1.start, q.2.toOption.isSome)) =
    some ((15 / 2, true), 15, false) := by decide +kernel

/-- C129: any move of the sliders which stays within 25 seconds is shown, and no other. -/
example (v : ℚ) : ∃ p : Score ℕ ℕ, Score.new recs slides (.array sims) (.list [1, 2]) (some []) none = .ok p ∧
    ((0 ≤ v ∧ v + 15 ≤ 25) → ((⟨p, 0, 15⟩ : Interactive ℕ ℕ).react id id (.start v)).2 = .ok ()) ∧
    (¬ (0 ≤ v ∧ v + 15 ≤ 25) →
      ((⟨p, 0, 15⟩ : Interactive ℕ ℕ).react id id (.start v)).2 = .error .timeOutOfBound) := by
  obtain ⟨p, h, -⟩ := (C126_new (X := ℕ) recs slides sims (.list [1, 2]) [] none).2 (by decide)
  exact ⟨p, h, C129_events recs slides sims (.list [1, 2]) [] none p h (by decide)
    (by simp [recs, Aligned, Win.start, Win.stop]) (by simp [recs])
    (by simp [recs, Win.start, Win.stop]; norm_num) 0 25 rfl rfl id id ⟨p, 0, 15⟩ p.current rfl (.start v)
    (by intro k hk; cases hk) (by show (0 : ℚ) ≤ 15; norm_num)⟩

set_option synthInstance.maxSize 1024 in
/-- C130: the second sentence. -/
example : ((plotOneSentence (⟨12, 25, 2⟩ : BasicWin ℕ) slides (.array sims) (.list [1, 2] : Arg ℕ)
    (some [])).toOption.map fun r => (r.1, r.2.times, r.2.curves, r.2.texts, r.2.xbound)) =
    some (2, [3, 8], [[1, 5], [0, 0]], [], (0, 13)) := by decide +kernel

example : slides.length ≤ sims.length ∧ (∀ r ∈ sims, r ≠ []) ∧ (12 : ℚ) ≤ 25 := by
  refine ⟨by decide, by decide, by norm_num⟩

end Verif.Plots
