import Verif.Plots.Figures
import Verif.Plots.Props
import Mathlib.Data.List.Nodup

/-!
# Properties of the figures made from logs (C178, C179)
-/

namespace Verif.Plots

open Verif Verif.Window

variable {G : Type}

/-! ### Specification -/

/-- The name under which the experiments store the score from `a` to `b`. -/
def pairKey (a b : Str) : Str := "score_".toList ++ a ++ "2".toList ++ b ++ "_cosine".toList

/-- The name under which the experiments store the score from some modalities to others. -/
def combKey (c : List Str × List Str) : Str :=
  "score_".toList ++ List.intercalate ['_'] c.1 ++ "2".toList ++ List.intercalate ['_'] c.2 ++ "_cosine".toList

/-- The box for the score from `ab.1` to `ab.2`. -/
structure Shows (getValues : G → Str → Py (List ℚ)) (log : G) (ab : Str × Str) (b : Box) : Prop where
  values : getValues log (pairKey ab.1 ab.2) = .ok b.values
  color : (ab, b.color) ∈ PAIRS_COLORS

/-- `q` has each pair of different modalities once, in both directions. -/
structure Directed (mods : List Str) (q : List (Str × Str)) : Prop where
  nodup : q.Nodup
  mem : ∀ x y, (x, y) ∈ q ↔ x ∈ mods ∧ y ∈ mods ∧ x ≠ y

/-- Modalities with a colour whose scores are in the log. -/
structure Ready (getValues : G → Str → Py (List ℚ)) (log : G) (mods : List Str) : Prop where
  nodup : mods.Nodup
  named : ∀ m ∈ mods, Named m
  scores : ∀ x ∈ mods, ∀ y ∈ mods, x ≠ y → ∃ v, getValues log (pairKey x y) = .ok v

/-- The left and right limits of a panel, on a figure of width 1. -/
def Panel.extent (p : Panel) : ℚ × ℚ := (((p.index : ℚ) - 1) / p.cols, (p.index : ℚ) / p.cols)

/-- The legend names what each box shows. -/
def Legend (q : List (Str × Str)) (boxes : List Box) (legend : List (Box × Str)) : Prop :=
  legend.map Prod.fst = boxes ∧ legend.map Prod.snd = q.map fun x => x.1 ++ " $\\rightarrow$ ".toList ++ x.2

/-! ### One panel -/

theorem joinComma_eq (l : List Str) : joinComma l = (", ".toList).intercalate l := by
  induction l with
  | nil => rfl
  | cons a l ih =>
    cases l with
    | nil => simp [joinComma, List.intercalate]
    | cons b l =>
      show a ++ ',' :: ' ' :: joinComma (b :: l) = _
      rw [ih]
      simp [List.intercalate, List.intersperse]

/-- All directed pairs. -/
def directed {A : Type} [DecidableEq A] (l : List A) : List (A × A) :=
  l.flatMap fun i => (l.filter fun j => i != j).map fun j => (i, j)

theorem allPairs_directed (l : List Str) : allPairs l = (directed l).map fun p => ([p.1], [p.2]) := by
  unfold allPairs directed
  rw [List.map_flatMap]
  congr 1
  funext i
  rw [List.map_map]
  rfl

theorem directed_ok (l : List Str) (h : l.Nodup) : Directed l (directed l) := by
  refine ⟨?_, ?_⟩
  · have := ((C122_pairs l).2 h).1
    rw [allPairs_directed] at this
    exact List.Nodup.of_map _ this
  · intro x y
    have := (C122_pairs l).1 [x] [y]
    rw [allPairs_directed] at this
    simp only [List.mem_map, Prod.mk.injEq, List.cons.injEq, and_true, Prod.exists] at this
    constructor
    · intro hm
      obtain ⟨x', y', h1, h2, h3, rfl, rfl⟩ := this.1 ⟨x, y, hm, rfl, rfl⟩
      exact ⟨h1, h2, h3⟩
    · rintro ⟨h1, h2, h3⟩
      obtain ⟨x', y', hm, rfl, rfl⟩ := this.2 ⟨x, y, h1, h2, h3, rfl, rfl⟩
      exact hm

theorem boxKey_pair (a b : Str) : boxKey ([a], [b]) = pairKey a b := by
  unfold boxKey pairKey
  show "score_".toList ++ (a ++ (['2'] ++ (b ++ "_cosine".toList))) = "score_".toList ++ a ++ ['2'] ++ b ++ "_cosine".toList
  generalize "score_".toList = s
  generalize "_cosine".toList = t
  simp only [List.append_assoc]

theorem color_pair {a b : Str} (ha : Named a) (hb : Named b) (hab : a ≠ b) :
    ∃ c, colorFor [a] [b] true = .ok c ∧ ((a, b), c) ∈ PAIRS_COLORS := by
  obtain ⟨c, hc⟩ := ((C124_colors a b [] []).2.2.1).2 ⟨ha, hb, hab⟩
  refine ⟨c, hc, ?_⟩
  have e : colorFor [a] [b] true = dictItem PAIRS_COLORS (a, b) := by
    unfold colorFor
    simp [pyGet, bind, Except.bind]
  rw [e] at hc
  unfold dictItem at hc
  cases hk : dictGet? PAIRS_COLORS (a, b) with
  | none => rw [hk] at hc; cases hc
  | some v =>
    rw [hk] at hc
    cases hc
    unfold dictGet? at hk
    cases hf : PAIRS_COLORS.find? (fun p => p.1 = (a, b)) with
    | none => rw [hf] at hk; cases hk
    | some p =>
      rw [hf] at hk
      cases hk
      have h1 := List.mem_of_find?_eq_some hf
      have h2 : p.1 = (a, b) := by simpa using List.find?_some hf
      rw [← h2]
      exact h1

theorem panel_ok (getValues : G → Str → Py (List ℚ)) (log : G) (mods : List Str) (h : Ready getValues log mods) :
    ∃ boxes, plotBoxesOneExpPairs getValues log mods = .ok (boxes, (directed mods).map fun p => modToMod p.1 p.2) ∧
      List.Forall₂ (Shows getValues log) (directed mods) boxes := by
  have hd := directed_ok mods h.nodup
  have hex : ∀ p ∈ directed mods, ∃ b : Box, getValues log (boxKey ([p.1], [p.2])) = .ok b.values ∧
      colorFor [p.1] [p.2] true = .ok b.color ∧ (p, b.color) ∈ PAIRS_COLORS := by
    rintro ⟨x, y⟩ hp
    obtain ⟨h1, h2, h3⟩ := (hd.mem x y).1 hp
    obtain ⟨v, hv⟩ := h.scores x h1 y h2 h3
    obtain ⟨c, hc, hm⟩ := color_pair (h.named x h1) (h.named y h2) h3
    exact ⟨⟨v, c⟩, by rw [boxKey_pair]; exact hv, hc, hm⟩
  choose! f hf using hex
  refine ⟨(directed mods).map f, ?_, ?_⟩
  · unfold plotBoxesOneExpPairs plotBoxesOneExp
    rw [allPairs_directed]
    have e1 : (((directed mods).map fun p => ([p.1], [p.2])).mapM fun m => getValues log (boxKey m)) =
        .ok ((directed mods).map fun p => (f p).values) := by
      rw [List.mapM_map]
      exact mapM_ok _ _ _ fun p hp => (hf p hp).1
    have e2 : ((((directed mods).map fun p => (f p).values).zip
        ((directed mods).map fun p => ([p.1], [p.2]))).mapM (boxOf true)) = .ok ((directed mods).map f) := by
      rw [List.zip_map', List.mapM_map]
      refine mapM_ok _ _ _ fun p hp => ?_
      show (do
        let c ← colorFor [p.1] [p.2] true
        return (⟨(f p).values, c⟩ : Box)) = _
      rw [(hf p hp).2.1]
      rfl
    simp only [bind, Except.bind] at e1 e2 ⊢
    rw [e1]
    simp only []
    rw [e2]
    simp [pure, Except.pure, boxLabel, joinComma]
  · rw [List.forall₂_map_right_iff, List.forall₂_same]
    exact fun p hp => ⟨by rw [← boxKey_pair]; exact (hf p hp).1, (hf p hp).2.2⟩

theorem legend_ok {getValues : G → Str → Py (List ℚ)} {log : G} {q : List (Str × Str)} {boxes : List Box}
    (h : List.Forall₂ (Shows getValues log) q boxes) :
    Legend q boxes (boxes.zip (q.map fun p => modToMod p.1 p.2)) := by
  have hl : boxes.length = (q.map fun p => modToMod p.1 p.2).length := by simp [h.length_eq]
  exact ⟨List.map_fst_zip hl.le, List.map_snd_zip hl.ge⟩

theorem joinLines_eq (l : List Str) : joinLines l = ("\n".toList).intercalate l := by
  induction l with
  | nil => rfl
  | cons a l ih =>
    cases l with
    | nil => simp [joinLines, List.intercalate]
    | cons b l =>
      show a ++ '\n' :: joinLines (b :: l) = _
      rw [ih]
      simp [List.intercalate, List.intersperse]

theorem colors_unique {ab : Str × Str} {c c' : Str} (h : (ab, c) ∈ PAIRS_COLORS) (h' : (ab, c') ∈ PAIRS_COLORS) :
    c = c' := by
  have hn : (PAIRS_COLORS.map Prod.fst).Nodup := by decide +kernel
  exact congrArg Prod.snd (List.inj_on_of_nodup_map hn h h' rfl)

theorem color_one (l1 : List Str) {b : Str} (hb : Named b) :
    ∃ c, colorFor l1 [b] false = .ok c ∧ (b, c) ∈ COLORS := by
  obtain ⟨c, hc⟩ := ((C124_colors b b l1 []).1).2 hb
  refine ⟨c, hc, ?_⟩
  have e : colorFor l1 [b] false = dictItem COLORS b := by
    unfold colorFor
    simp [pyGet, bind, Except.bind]
  rw [e] at hc
  unfold dictItem at hc
  cases hk : dictGet? COLORS b with
  | none => rw [hk] at hc; cases hc
  | some v =>
    rw [hk] at hc
    cases hc
    unfold dictGet? at hk
    cases hf : COLORS.find? (fun p => p.1 = b) with
    | none => rw [hf] at hk; cases hk
    | some p =>
      rw [hf] at hk
      cases hk
      have h1 := List.mem_of_find?_eq_some hf
      have h2 : p.1 = b := by simpa using List.find?_some hf
      rw [← h2]
      exact h1

theorem take_three {A : Type} (l : List A) (k : ℕ) : l.take k ++ (l.drop k).take k ++ l.drop (2 * k) = l := by
  have : l.drop (2 * k) = (l.drop k).drop k := by rw [List.drop_drop]; congr 1; omega
  rw [this, List.append_assoc, List.take_append_drop, List.take_append_drop]

/-! ### Figures of boxes -/

/-- **C178.** `plot_boxes` shows, in one panel for each pair of modalities and in a last panel for the three
modalities, one box for each direction, with the values of the matching log and the colour of the direction.  The
panels do not overlap, the first one has the label, ordinates are shared, the legend names all directions of the last
panel. -/
theorem C178_boxes (getValues : G → Str → Py (List ℚ)) (modalities : G → Py (List Str))
    (loggers2 : List (List Str × G)) (logger3 : G) (mods : List Str) (hne : loggers2 ≠ [])
    (h2 : ∀ x ∈ loggers2, Ready getValues x.2 x.1) (hm : modalities logger3 = .ok mods)
    (h3 : Ready getValues logger3 mods) :
    ∃ left last legend, plotBoxes getValues modalities loggers2 logger3 = .ok ⟨left ++ [last], legend⟩ ∧
      left.length = loggers2.length ∧
      (∀ (i : ℕ) x, loggers2[i]? = some x → ∃ p q, left[i]? = some p ∧ p.title = (", ".toList).intercalate x.1 ∧
        (p.ylabel = true ↔ i = 0) ∧ (p.shared = true ↔ i ≠ 0) ∧
        Directed x.1 q ∧ List.Forall₂ (Shows getValues x.2) q p.boxes) ∧
      last.title = (", ".toList).intercalate mods ∧ last.ylabel = false ∧ last.shared = true ∧
      (∃ q, Directed mods q ∧ List.Forall₂ (Shows getValues logger3) q last.boxes ∧ Legend q last.boxes legend) ∧
      (left ++ [last]).Pairwise (fun p p' => p.extent.2 ≤ p'.extent.1) ∧
      (∀ p ∈ left ++ [last], 0 ≤ p.extent.1 ∧ p.extent.1 < p.extent.2 ∧ p.extent.2 ≤ 1) := by
  have hex : ∀ x ∈ loggers2.zipIdx, ∃ boxes, plotBoxesOneExpPairs getValues x.1.2 x.1.1 =
      .ok (boxes, (directed x.1.1).map fun p => modToMod p.1 p.2) ∧
      List.Forall₂ (Shows getValues x.1.2) (directed x.1.1) boxes := by
    intro x hx
    exact panel_ok getValues x.1.2 x.1.1 (h2 x.1 (List.fst_mem_of_mem_zipIdx hx))
  choose! f hf using hex
  have e1 : loggers2.zipIdx.mapM (pairPanel getValues loggers2.length) = .ok (loggers2.zipIdx.map fun x =>
      ⟨2 * loggers2.length, 1 + x.2, x.2 == 0, x.2 != 0, joinComma x.1.1, f x⟩) := by
    refine mapM_ok _ _ _ fun x hx => ?_
    unfold pairPanel
    rw [(hf x hx).1]
    rfl
  obtain ⟨boxes, e2, hb⟩ := panel_ok getValues logger3 mods h3
  have hn : 0 < loggers2.length := List.length_pos_iff.2 hne
  have hnq : (0 : ℚ) < loggers2.length := by exact_mod_cast hn
  refine ⟨loggers2.zipIdx.map fun x => ⟨2 * loggers2.length, 1 + x.2, x.2 == 0, x.2 != 0, joinComma x.1.1, f x⟩,
    ⟨2, 2, false, true, joinComma mods, boxes⟩, boxes.zip ((directed mods).map fun p => modToMod p.1 p.2), ?_, ?_, ?_, joinComma_eq mods, rfl, rfl,
    ⟨directed mods, directed_ok mods h3.nodup, hb, legend_ok hb⟩, ?_, ?_⟩
  · unfold plotBoxes
    rw [e1]
    simp only [bind, Except.bind]
    rw [if_neg (by simpa using hne), hm]
    simp only []
    rw [e2]
    rfl
  · simp
  · intro i x hx
    have hz : loggers2.zipIdx[i]? = some (x, i) := by simp [List.getElem?_zipIdx, hx]
    refine ⟨_, directed x.1, by rw [List.getElem?_map, hz]; rfl, joinComma_eq x.1, by simp, by simp,
      directed_ok _ (h2 x (List.mem_of_getElem? hx)).nodup, (hf (x, i) (List.mem_of_getElem? hz)).2⟩
  · rw [List.pairwise_append]
    refine ⟨?_, by simp, ?_⟩
    · rw [List.pairwise_map]
      have : loggers2.zipIdx.Pairwise (fun x y => x.2 < y.2) := by
        have := List.pairwise_lt_range' (s := 0) (n := loggers2.length) 1
        rw [← List.zipIdx_map_snd 0 loggers2, List.pairwise_map] at this
        exact this
      refine this.imp fun {x y} hxy => ?_
      show ((1 + x.2 : ℕ) : ℚ) / _ ≤ (((1 + y.2 : ℕ) : ℚ) - 1) / _
      have : ((x.2 : ℚ) + 1) ≤ y.2 := by exact_mod_cast hxy
      push_cast
      apply div_le_div_of_nonneg_right _ (by positivity)
      linarith
    · intro p hp p' hp'
      obtain ⟨x, hx, rfl⟩ := List.mem_map.1 hp
      rw [List.mem_singleton] at hp'
      subst hp'
      have hlt := List.snd_lt_add_of_mem_zipIdx hx
      have hlt' : ((x.2 : ℚ) + 1) ≤ loggers2.length := by
        have : x.2 + 1 ≤ loggers2.length := by omega
        exact_mod_cast this
      show ((1 + x.2 : ℕ) : ℚ) / ((2 * loggers2.length : ℕ) : ℚ) ≤ (((2 : ℕ) : ℚ) - 1) / ((2 : ℕ) : ℚ)
      push_cast
      rw [div_le_div_iff₀ (by positivity) (by norm_num)]
      linarith
  · intro p hp
    rcases List.mem_append.1 hp with hp | hp
    · obtain ⟨x, hx, rfl⟩ := List.mem_map.1 hp
      have hlt := List.snd_lt_add_of_mem_zipIdx hx
      have hlt' : ((x.2 : ℚ) + 1) ≤ loggers2.length := by
        have : x.2 + 1 ≤ loggers2.length := by omega
        exact_mod_cast this
      show 0 ≤ (((1 + x.2 : ℕ) : ℚ) - 1) / ((2 * loggers2.length : ℕ) : ℚ) ∧
        (((1 + x.2 : ℕ) : ℚ) - 1) / ((2 * loggers2.length : ℕ) : ℚ) <
          ((1 + x.2 : ℕ) : ℚ) / ((2 * loggers2.length : ℕ) : ℚ) ∧
        ((1 + x.2 : ℕ) : ℚ) / ((2 * loggers2.length : ℕ) : ℚ) ≤ 1
      push_cast
      refine ⟨by have : (0 : ℚ) ≤ x.2 := by positivity
                 apply div_nonneg _ (by positivity)
                 linarith, ?_, ?_⟩
      · apply div_lt_div_of_pos_right _ (by positivity)
        linarith
      · rw [div_le_one (by positivity)]
        linarith
    · rw [List.mem_singleton] at hp
      subst hp
      show 0 ≤ (((2 : ℕ) : ℚ) - 1) / ((2 : ℕ) : ℚ) ∧ (((2 : ℕ) : ℚ) - 1) / ((2 : ℕ) : ℚ) <
        ((2 : ℕ) : ℚ) / ((2 : ℕ) : ℚ) ∧ ((2 : ℕ) : ℚ) / ((2 : ℕ) : ℚ) ≤ 1
      norm_num

/-- **C178.** `plot_boxes_by_feats` has a panel for each set of features, all of the same width, with one box for each
direction between images and sounds.  The legend is right for all panels. -/
theorem C178_feats (getValues : G → Str → Py (List ℚ)) (wrap : Str → ℕ → List Str)
    (loggers : List (List Str × G)) (hne : loggers ≠ [])
    (h : ∀ x ∈ loggers, Ready getValues x.2 ["image".toList, "sound".toList]) :
    ∃ fig q, plotBoxesByFeats getValues wrap loggers = .ok fig ∧
      Directed ["image".toList, "sound".toList] q ∧ fig.panels.length = loggers.length ∧
      (∀ (i : ℕ) x, loggers[i]? = some x → ∃ p, fig.panels[i]? = some p ∧
        p.title = ("\n".toList).intercalate (wrap (((", ".toList).intercalate x.1).map
          fun c => if c = '_' then '-' else c) 15) ∧
        (p.ylabel = true ↔ i = 0) ∧ (p.shared = true ↔ i ≠ 0) ∧ List.Forall₂ (Shows getValues x.2) q p.boxes ∧
        p.extent = ((i : ℚ) / loggers.length, ((i : ℚ) + 1) / loggers.length)) ∧
      (∃ last, fig.panels.getLast? = some last ∧ Legend q last.boxes fig.legend) ∧
      ∀ p ∈ fig.panels, p.boxes.map Box.color = fig.legend.map fun x => x.1.color := by
  have hex : ∀ x ∈ loggers.zipIdx, ∃ boxes, plotBoxesOneExpPairs getValues x.1.2 FEATS_MODS =
      .ok (boxes, (directed FEATS_MODS).map fun p => modToMod p.1 p.2) ∧
      List.Forall₂ (Shows getValues x.1.2) (directed FEATS_MODS) boxes := by
    intro x hx
    exact panel_ok getValues x.1.2 FEATS_MODS (h x.1 (List.fst_mem_of_mem_zipIdx hx))
  choose! f hf using hex
  have e1 : loggers.zipIdx.mapM (featsPanel getValues wrap loggers.length) = .ok (loggers.zipIdx.map fun x =>
      (⟨loggers.length, 1 + x.2, x.2 == 0, x.2 != 0, joinLines (wrap (dashes (joinComma x.1.1)) 15), f x⟩,
        (directed FEATS_MODS).map fun p => modToMod p.1 p.2)) := by
    refine mapM_ok _ _ _ fun x hx => ?_
    unfold featsPanel
    rw [(hf x hx).1]
    rfl
  have hz : loggers.zipIdx ≠ [] := by simpa using hne
  have hlast : loggers.zipIdx.getLast? = some (loggers.zipIdx.getLast hz) := List.getLast?_eq_some_getLast hz
  have hlastm := List.getLast_mem hz
  generalize hl : loggers.zipIdx.getLast hz = lst at hlast hlastm
  have hcol : ∀ x ∈ loggers.zipIdx, (f x).map Box.color = (f lst).map Box.color := by
    have key : ∀ (log log' : G) (q : List (Str × Str)) (b b' : List Box), List.Forall₂ (Shows getValues log) q b →
        List.Forall₂ (Shows getValues log') q b' → b.map Box.color = b'.map Box.color := by
      intro log log' q b b' hb
      induction hb generalizing b' with
      | nil => intro hb'; cases hb'; rfl
      | cons h1 _ ih =>
        intro hb'
        cases hb' with
        | cons h2 hb' =>
          rw [List.map_cons, List.map_cons, ih _ hb', colors_unique h1.color h2.color]
    exact fun x hx => key _ _ _ _ _ (hf x hx).2 (hf lst hlastm).2
  refine ⟨⟨loggers.zipIdx.map fun x => ⟨loggers.length, 1 + x.2, x.2 == 0, x.2 != 0,
      joinLines (wrap (dashes (joinComma x.1.1)) 15), f x⟩,
      (f lst).zip ((directed FEATS_MODS).map fun p => modToMod p.1 p.2)⟩, directed FEATS_MODS, ?_, ?_, by simp,
      ?_, ?_, ?_⟩
  · unfold plotBoxesByFeats
    rw [e1]
    simp only [bind, Except.bind]
    rw [List.getLast?_map, hlast]
    simp only [Option.map_some, List.map_map]
    rfl
  · exact directed_ok _ (h _ (List.getLast_mem hne)).nodup
  · intro i x hx
    have hz : loggers.zipIdx[i]? = some (x, i) := by simp [List.getElem?_zipIdx, hx]
    refine ⟨_, by rw [List.getElem?_map, hz]; rfl, ?_, by simp, by simp, (hf (x, i) (List.mem_of_getElem? hz)).2, ?_⟩
    · show joinLines (wrap (dashes (joinComma x.1)) 15) = _
      rw [joinComma_eq, joinLines_eq]
      rfl
    · show ((((1 + i : ℕ) : ℚ) - 1) / _, ((1 + i : ℕ) : ℚ) / _) = _
      push_cast
      rw [add_comm (1 : ℚ)]
      simp
  · refine ⟨_, by rw [List.getLast?_map, hlast]; rfl, legend_ok (hf lst hlastm).2⟩
  · intro p hp
    obtain ⟨x, hx, rfl⟩ := List.mem_map.1 hp
    have := (legend_ok (hf lst hlastm).2).1
    show (f x).map Box.color = _
    rw [hcol x hx]
    conv_lhs => rw [← this]
    rw [List.map_map]
    rfl

theorem all_mods_ok (getValues : G → Str → Py (List ℚ)) (modalities : G → Py (List Str)) (logger3 : G)
    (mods : List Str) (hm : modalities logger3 = .ok mods) (hn : mods.Nodup) (hnamed : ∀ m ∈ mods, Named m)
    (hv : ∀ c ∈ combinations mods, ∃ v, getValues logger3 (boxKey c) = .ok v) :
    (mods.length % 3 = 0 → ∃ boxes l1 l2 l3,
      plotBoxesAllMods getValues modalities logger3 = .ok (boxes, (", ".toList).intercalate mods, [l1, l2, l3]) ∧
      List.Forall₂ (fun c (b : Box) => getValues logger3 (boxKey c) = .ok b.values ∧
        ∃ m, c.2 = [m] ∧ (m, b.color) ∈ COLORS) (combinations mods) boxes ∧
      l1.length = l2.length ∧ l2.length = l3.length ∧ (l1 ++ l2 ++ l3).map Prod.fst = boxes ∧
      (l1 ++ l2 ++ l3).map Prod.snd = (combinations mods).map fun c =>
        (", ".toList).intercalate c.1 ++ " $\\rightarrow$ ".toList ++ (", ".toList).intercalate c.2) ∧
    (mods.length % 3 ≠ 0 → plotBoxesAllMods getValues modalities logger3 = .error .valueError) := by
  have hex : ∀ c ∈ combinations mods, ∃ b : Box, getValues logger3 (boxKey c) = .ok b.values ∧
      colorFor c.1 c.2 false = .ok b.color ∧ ∃ m, c.2 = [m] ∧ (m, b.color) ∈ COLORS := by
    rintro ⟨a, b⟩ hc
    obtain ⟨v, hv⟩ := hv _ hc
    have hb : ∃ y ∈ mods, b = [y] := by
      rcases ((C122_combinations mods hn).1 a b).1 hc with ⟨x, y, _, hy, _, _, hb⟩ | ⟨x, hx, hb, _⟩
      · exact ⟨y, hy, hb⟩
      · exact ⟨x, hx, hb⟩
    obtain ⟨y, hy, rfl⟩ := hb
    obtain ⟨c, hc, hmem⟩ := color_one a (hnamed y hy)
    exact ⟨⟨v, c⟩, hv, hc, y, rfl, hmem⟩
  choose! f hf using hex
  have e0 : plotBoxesOneExp getValues logger3 (combinations mods) false =
      .ok ((combinations mods).map f, (combinations mods).map boxLabel) := by
    unfold plotBoxesOneExp
    have e1 : ((combinations mods).mapM fun m => getValues logger3 (boxKey m)) =
        .ok ((combinations mods).map fun p => (f p).values) := mapM_ok _ _ _ fun p hp => (hf p hp).1
    have e2 : ((((combinations mods).map fun p => (f p).values).zip (combinations mods)).mapM (boxOf false)) =
        .ok ((combinations mods).map f) := by
      have : ((combinations mods).map fun p => (f p).values).zip (combinations mods) =
          (combinations mods).map fun p => ((f p).values, p) := by
        conv_lhs => rw [← List.map_id (combinations mods), List.map_map]
        rw [List.zip_map']
        rfl
      rw [this, List.mapM_map]
      refine mapM_ok _ _ _ fun p hp => ?_
      show (do
        let c ← colorFor p.1 p.2 false
        return (⟨(f p).values, c⟩ : Box)) = _
      rw [(hf p hp).2.1]
      rfl
    simp only [bind, Except.bind] at e1 e2 ⊢
    rw [e1]
    simp only []
    rw [e2]
    rfl
  have hlen := (C122_combinations mods hn).2.1
  have hmod := three_dvd_sq mods.length
  have hfor : List.Forall₂ (fun c (b : Box) => getValues logger3 (boxKey c) = .ok b.values ∧
      ∃ m, c.2 = [m] ∧ (m, b.color) ∈ COLORS) (combinations mods) ((combinations mods).map f) := by
    rw [List.forall₂_map_right_iff, List.forall₂_same]
    exact fun p hp => ⟨(hf p hp).1, (hf p hp).2.2⟩
  have hlab : ∀ c, boxLabel c =
      (", ".toList).intercalate c.1 ++ " $\\rightarrow$ ".toList ++ (", ".toList).intercalate c.2 := by
    intro c
    unfold boxLabel modToMod
    rw [joinComma_eq, joinComma_eq]
  constructor
  · intro h3
    rw [← hmod, ← hlen] at h3
    obtain ⟨k, hk⟩ := Nat.dvd_of_mod_eq_zero h3
    have hk' : (combinations mods).length / 3 = k := by omega
    have sp : ∀ {A : Type} (g : List Str × List Str → A), split3 ((combinations mods).map g) = .ok [((combinations mods).take k).map g,
        (((combinations mods).drop k).take k).map g, ((combinations mods).drop (2 * k)).map g] := by
      intro A g
      unfold split3
      rw [List.length_map, if_pos h3, hk']
      simp only [List.map_take, List.map_drop]
    refine ⟨(combinations mods).map f, ((combinations mods).take k).map fun c => (f c, boxLabel c), (((combinations mods).drop k).take k).map fun c => (f c, boxLabel c),
      ((combinations mods).drop (2 * k)).map fun c => (f c, boxLabel c), ?_, hfor, ?_, ?_, ?_, ?_⟩
    · unfold plotBoxesAllMods
      rw [hm]
      simp only [bind, Except.bind]
      rw [e0]
      simp only []
      rw [sp, sp]
      simp only [List.zip_cons_cons, List.zip_nil_left, List.map_cons, List.map_nil, List.zip_map', joinComma_eq]
      rfl
    · simp; omega
    · simp; omega
    · rw [← List.map_append, ← List.map_append, take_three, List.map_map]
      rfl
    · rw [← List.map_append, ← List.map_append, take_three, List.map_map]
      exact List.map_congr_left fun c _ => hlab c
  · intro h3
    rw [ne_eq, ← hmod, ← hlen] at h3
    unfold plotBoxesAllMods
    rw [hm]
    simp only [bind, Except.bind]
    rw [e0]
    simp only []
    unfold split3
    rw [if_neg (by simpa using h3)]

theorem joinUnderscore_eq (l : List Str) : Experiment.joinUnderscore l = List.intercalate ['_'] l := by
  induction l with
  | nil => rfl
  | cons a l ih =>
    cases l with
    | nil => simp [Experiment.joinUnderscore, List.intercalate]
    | cons b l =>
      show a ++ '_' :: Experiment.joinUnderscore (b :: l) = _
      rw [ih]
      simp [List.intercalate, List.intersperse]

theorem boxKey_comb (c : List Str × List Str) : boxKey c = combKey c := by
  unfold boxKey combKey
  rw [joinUnderscore_eq, joinUnderscore_eq]
  show "score_".toList ++ (_ ++ (['2'] ++ (_ ++ "_cosine".toList))) = "score_".toList ++ _ ++ ['2'] ++ _ ++ "_cosine".toList
  generalize "score_".toList = s
  generalize "_cosine".toList = t
  simp only [List.append_assoc]

/-- **C178.** `plot_boxes_all_mods` shows one box for each combination of modalities, and three legends of the same
length which name them in order; `ValueError` is raised unless the number of modalities is a multiple of three. -/
theorem C178_all_mods (getValues : G → Str → Py (List ℚ)) (modalities : G → Py (List Str)) (logger3 : G)
    (mods : List Str) (hm : modalities logger3 = .ok mods) (hn : mods.Nodup) (hnamed : ∀ m ∈ mods, Named m)
    (hv : ∀ c ∈ combinations mods, ∃ v, getValues logger3 (combKey c) = .ok v) :
    (mods.length % 3 = 0 → ∃ boxes l1 l2 l3,
      plotBoxesAllMods getValues modalities logger3 = .ok (boxes, (", ".toList).intercalate mods, [l1, l2, l3]) ∧
      List.Forall₂ (fun c (b : Box) => getValues logger3 (combKey c) = .ok b.values ∧
        ∃ m, c.2 = [m] ∧ (m, b.color) ∈ COLORS) (combinations mods) boxes ∧
      l1.length = l2.length ∧ l2.length = l3.length ∧ (l1 ++ l2 ++ l3).map Prod.fst = boxes ∧
      (l1 ++ l2 ++ l3).map Prod.snd = (combinations mods).map fun c =>
        (", ".toList).intercalate c.1 ++ " $\\rightarrow$ ".toList ++ (", ".toList).intercalate c.2) ∧
    (mods.length % 3 ≠ 0 → plotBoxesAllMods getValues modalities logger3 = .error .valueError) := by
  have h := all_mods_ok getValues modalities logger3 mods hm hn hnamed
  simp only [boxKey_comb] at h
  exact h hv

/-- **C178.** Without any log of pairs or of features, `UnboundLocalError` is raised. -/
theorem C178_none (getValues : G → Str → Py (List ℚ)) (modalities : G → Py (List Str)) (logger3 : G)
    (wrap : Str → ℕ → List Str) :
    plotBoxes getValues modalities [] logger3 = .error .unboundLocalError ∧
    plotBoxesByFeats getValues wrap [] = .error .unboundLocalError := ⟨rfl, rfl⟩

theorem mapM_error_at {α β : Type} (f : α → Py β) (pre : List α) (x : α) (rest : List α) (e : PyErr)
    (h : ∀ y ∈ pre, ∃ b, f y = .ok b) (hx : f x = .error e) : (pre ++ x :: rest).mapM f = .error e := by
  induction pre with
  | nil => rw [List.nil_append, List.mapM_cons, hx]; rfl
  | cons y pre ih =>
    obtain ⟨b, hb⟩ := h y List.mem_cons_self
    rw [List.cons_append, List.mapM_cons, hb, ih fun z hz => h z (List.mem_cons_of_mem _ hz)]
    rfl

/-- **C178.** A pair with a modality which is not one of the three raises `KeyError`, after pairs which can be shown
and whatever the following ones are. -/
theorem C178_unknown (getValues : G → Str → Py (List ℚ)) (modalities : G → Py (List Str)) (pre : List (List Str × G))
    (hpre : ∀ x ∈ pre, Ready getValues x.2 x.1)
    (a b : Str) (hab : a ≠ b) (log logger3 : G) (rest : List (List Str × G)) (h : ¬ (Named a ∧ Named b))
    (v v' : List ℚ) (h1 : getValues log (pairKey a b) = .ok v) (h2 : getValues log (pairKey b a) = .ok v') :
    plotBoxes getValues modalities (pre ++ ([a, b], log) :: rest) logger3 = .error .keyError := by
  have hp : directed [a, b] = [(a, b), (b, a)] := by
    unfold directed
    simp [hab, Ne.symm hab]
  have e : plotBoxesOneExpPairs getValues log [a, b] = .error .keyError := by
    unfold plotBoxesOneExpPairs plotBoxesOneExp
    rw [allPairs_directed, hp]
    simp only [List.map_cons, List.map_nil, List.mapM_cons, List.mapM_nil, boxKey_pair, h1, h2, bind, Except.bind,
      pure, Except.pure, List.zip_cons_cons, List.zip_nil_left, boxOf,
      (C124_colors a b [] []).2.2.2 fun q => h ⟨q.1, q.2.1⟩]
  unfold plotBoxes
  rw [List.zipIdx_append, List.zipIdx_cons, mapM_error_at _ _ _ _ .keyError]
  · rfl
  · intro y hy
    obtain ⟨boxes, hb, _⟩ := panel_ok getValues y.1.2 y.1.1 (hpre y.1 (List.fst_mem_of_mem_zipIdx hy))
    unfold pairPanel
    rw [hb]
    exact ⟨_, rfl⟩
  · unfold pairPanel
    rw [e]
    rfl

end Verif.Plots
