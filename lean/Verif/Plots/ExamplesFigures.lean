import Verif.Plots.PropsCurves
import Verif.Plots.Examples

/-!
# Examples for the properties of figures made from logs (C178, C179)
-/

namespace Verif.Plots

open Verif Verif.Window

/-- Logs given by a number `g`, in which all scores are `g` then `g + 1`. -/
def exValues (g : ℚ) (_ : Str) : Py (List ℚ) := .ok [g, g + 1]

theorem exReady (g : ℚ) (l : List Str) (h : l.Sublist mods3) : Ready exValues g l := by
  have hn : mods3.Nodup := by decide
  refine ⟨h.nodup hn, fun m hm => ?_, fun x _ y _ _ => ⟨_, rfl⟩⟩
  have := h.subset hm
  simp only [mods3, List.mem_cons, List.not_mem_nil, or_false] at this
  exact this

/-- C178: two pairs of modalities, then the three modalities. -/
example : ∃ left last legend, plotBoxes exValues (fun _ => .ok mods3)
    [(["image".toList, "motion".toList], 1 / 2), (["image".toList, "sound".toList], 1 / 4)] 3 =
      .ok ⟨left ++ [last], legend⟩ ∧ left.length = 2 := by
  obtain ⟨left, last, legend, h1, h2, _⟩ := C178_boxes exValues (fun _ => .ok mods3)
    [(["image".toList, "motion".toList], 1 / 2), (["image".toList, "sound".toList], 1 / 4)] 3 mods3 (by simp)
    (by
      intro x hx
      simp only [List.mem_cons, List.not_mem_nil, or_false] at hx
      rcases hx with rfl | rfl
      · exact exReady _ _ (by decide)
      · exact exReady _ _ (by decide)) rfl (exReady _ _ (List.Sublist.refl _))
  exact ⟨left, last, legend, h1, h2⟩

set_option synthInstance.maxSize 1024 in
/-- C178: the whole figure. -/
example : plotBoxes exValues (fun _ => .ok ["image".toList, "sound".toList])
    [(["image".toList, "motion".toList], 1 / 2)] 3 =
    .ok ⟨[⟨2, 1, true, false, "image, motion".toList,
        [⟨[1 / 2, 3 / 2], "#3989d4".toList⟩, ⟨[1 / 2, 3 / 2], "#ffad4c".toList⟩]⟩,
      ⟨2, 2, false, true, "image, sound".toList, [⟨[3, 4], "#a0c2fc".toList⟩, ⟨[3, 4], "#eba7f7".toList⟩]⟩],
      [(⟨[3, 4], "#a0c2fc".toList⟩, "image $\\rightarrow$ sound".toList),
       (⟨[3, 4], "#eba7f7".toList⟩, "sound $\\rightarrow$ image".toList)]⟩ := by decide +kernel

/-- C178: two sets of features. -/
example : ∃ fig, plotBoxesByFeats exValues (fun s _ => [s])
    [(["SURF".toList], 1 / 2), (["SURF".toList, "color".toList], 1 / 4)] = .ok fig ∧ fig.panels.length = 2 := by
  obtain ⟨fig, q, h1, _, h2, _⟩ := C178_feats exValues (fun s _ => [s])
    [(["SURF".toList], 1 / 2), (["SURF".toList, "color".toList], 1 / 4)] (by simp) fun x _ => exReady _ _ (by decide)
  exact ⟨fig, h1, h2⟩

/-- C178: the nine combinations of three modalities, and two modalities. -/
example : (∃ boxes l1 l2 l3, plotBoxesAllMods exValues (fun _ => .ok mods3) 1 =
      .ok (boxes, (", ".toList).intercalate mods3, [l1, l2, l3]) ∧ (l1 ++ l2 ++ l3).map Prod.fst = boxes) ∧
    plotBoxesAllMods exValues (fun _ => .ok ["image".toList, "sound".toList]) 1 = .error .valueError := by
  refine ⟨?_, ?_⟩
  · obtain ⟨b, l1, l2, l3, h1, _, _, _, h2, _⟩ := (C178_all_mods exValues (fun _ => .ok mods3) 1 mods3 rfl (by decide)
      (exReady 1 _ (List.Sublist.refl _)).named fun c _ => ⟨_, rfl⟩).1 rfl
    exact ⟨b, l1, l2, l3, h1, h2⟩
  · exact (C178_all_mods exValues (fun _ => .ok ["image".toList, "sound".toList]) 1 _ rfl (by decide)
      (exReady 1 ["image".toList, "sound".toList] (by decide)).named fun c _ => ⟨_, rfl⟩).2 (by decide)

/-- C178: the name used for images by `image_sound_eval_sliding.py`. -/
example : plotBoxes exValues (fun _ => .ok mods3)
    [(["image".toList, "sound".toList], 1), (["objects".toList, "sound".toList], 1 / 2)] 3 = .error .keyError :=
  C178_unknown exValues (fun _ => .ok mods3) [(["image".toList, "sound".toList], 1)]
    (by simpa using exReady 1 ["image".toList, "sound".toList] (by decide)) "objects".toList "sound".toList (by decide) (1 / 2) 3 []
    (by rintro ⟨h | h | h, -⟩ <;> revert h <;> decide) _ _ rfl rfl

/-- Logs for two values of `k`. -/
def exLogs : List ((Str × Str) × List ℚ) :=
  [(("image".toList, "motion".toList), [1, 2]), (("sound".toList, "image".toList), [3, 4])]

theorem exDrawable : Drawable exValues [5, 10] exLogs := by
  have named : ∀ m ∈ mods3, Named m := (exReady 1 _ (List.Sublist.refl _)).named
  intro d hd
  simp only [directions, exLogs, List.flatMap_cons, List.flatMap_nil, List.append_nil, List.cons_append,
    List.nil_append, List.mem_cons, List.not_mem_nil, or_false] at hd
  rcases hd with rfl | rfl | rfl | rfl
  all_goals exact ⟨named _ (by decide), named _ (by decide), by decide, le_refl 2, 2, fun g _ => ⟨_, rfl, rfl⟩⟩

/-- C179: four curves. -/
example : ∃ cs, plotKGraphs exValues exLogs [5, 10] [] = .ok cs ∧
    List.Forall₂ (CurveOf exValues [5, 10] "-".toList "fill".toList) (directions exLogs) cs := by
  obtain ⟨cs, h1, h2, _⟩ := C179_k_graphs exValues exLogs [5, 10] [] exDrawable
  exact ⟨cs, h1, h2⟩

/-- C179: four solid and four dashed curves. -/
example : ∃ cs2 cs3 legend, plot2kGraphs exValues [exLogs, exLogs] [5, 10] "_cosine".toList =
      .ok (cs2 ++ cs3, legend, [("-".toList, "Trained on two modalities.".toList),
        ("--".toList, "Trained on all three modalities.".toList)]) ∧ legend.map Prod.snd = cs2 := by
  obtain ⟨cs2, cs3, legend, h1, _, _, h2, _⟩ := C179_2k_graphs exValues exLogs exLogs [] [5, 10] "_cosine".toList
    exDrawable exDrawable (by decide +kernel)
  exact ⟨cs2, cs3, legend, h1 _, h2⟩

end Verif.Plots
