import Verif.Samples.PropsSlidingPlot
import Verif.Logger.Lemmas
import Mathlib.Data.List.TakeWhile

/-!
# Property C187: annotations and files of the recognition along sentences
-/

namespace Verif.Plots

open Verif Verif.Window

/-- **C187.** All annotations of a plot are written at the same ordinate, which was the upper limit of the plot before the
first of them, in the middle of their boundaries; ordinates are then shown from zero to a bit above, however many annotations
there are. -/
theorem C187_annotations (b t : ℚ) (l : List (Str × ℚ × ℚ)) :
    (l.foldl (fun c a => c.annotate a.2 a.1) (⟨(b, t), none, [], []⟩ : Canvas)).spans = l.map Prod.snd ∧
    (l.foldl (fun c a => c.annotate a.2 a.1) (⟨(b, t), none, [], []⟩ : Canvas)).texts =
      l.map (fun a => (a.1, (a.2.1 + a.2.2) / 2, t)) ∧
    (l = [] → (l.foldl (fun c a => c.annotate a.2 a.1) (⟨(b, t), none, [], []⟩ : Canvas)).limits = (b, t)) ∧
    (l ≠ [] → 0 ≤ t → (l.foldl (fun c a => c.annotate a.2 a.1) (⟨(b, t), none, [], []⟩ : Canvas)).limits =
      (0, t + 3 / 100)) := by
  have key : ∀ (l : List (Str × ℚ × ℚ)) (c : Canvas), c.yAnnotation = some t →
      l.foldl (fun c a => c.annotate a.2 a.1) c = ⟨c.limits, some t, c.spans ++ l.map Prod.snd,
        c.texts ++ l.map (fun a => (a.1, (a.2.1 + a.2.2) / 2, t))⟩ := by
    intro l
    induction l with
    | nil => intro c h; rw [← h]; simp
    | cons a l ih =>
      intro c h
      have : c.annotate a.2 a.1 = ⟨c.limits, some t, c.spans ++ [a.2], c.texts ++ [(a.1, (a.2.1 + a.2.2) / 2, t)]⟩ := by
        unfold Canvas.annotate Canvas.place
        simp only [h]
        rw [one_div_mul_eq_div]
      rw [List.foldl_cons, this, ih _ rfl]
      simp
  rcases l with _ | ⟨a, l⟩
  · exact ⟨rfl, rfl, fun _ => rfl, fun h => absurd rfl h⟩
  · have : (⟨(b, t), none, [], []⟩ : Canvas).annotate a.2 a.1 = ⟨(min 0 (t + 3 / 100), max 0 (t + 3 / 100)), some t, [a.2],
        [(a.1, (a.2.1 + a.2.2) / 2, t)]⟩ := by
      unfold Canvas.annotate Canvas.place
      simp only [List.nil_append]
      rw [one_div_mul_eq_div]
    rw [List.foldl_cons, this, key _ _ rfl]
    refine ⟨by simp, by simp, by simp, ?_⟩
    intro _ ht
    have : 0 ≤ t + 3 / 100 := by linarith
    simp [this]

end Verif.Plots

namespace Verif.Samples

open Verif Verif.Window Verif.Plots
open Verif.Logger (Key Val)
open Verif.Experiment

variable {α L R Λ : Type}

/-! ### Test windows -/

/-- **C187.** The windows of test sentences are those of the sentences of test records, in the order of samples. -/
theorem C187_test_windows [DecidableEq R] (files : WavFiles α) (path : R → String) (rate : ℚ) (rs : List R)
    (v : SlidingView L R) (h : OneAfterAnother files path rate rs v.records) :
    ∃ ws, v.testWins = .ok ws ∧ ws.map BasicWin.obj = rs.filter (fun r => decide (r ∈ v.testRecords)) ∧
      ∀ w ∈ ws, .basic w ∈ v.records.windows := by
  obtain ⟨hl, hat⟩ := h
  obtain ⟨bs, hbs⟩ : ∃ bs : List (BasicWin R), v.records.windows = bs.map .basic ∧ bs.map BasicWin.obj = rs := by
    generalize v.records.windows = ws at hl hat
    have hat' : ∀ (i : ℕ) (hi : i < rs.length), ∃ b : BasicWin R, ws[i]? = some (.basic b) ∧ b.obj = rs[i] := by
      intro i hi
      have := hat (rs.take i) rs[i] (rs.drop (i + 1)) (by rw [List.getElem_cons_drop, List.take_append_drop])
      rw [List.length_take, Nat.min_eq_left hi.le] at this
      exact ⟨_, this, rfl⟩
    clear hat
    induction ws generalizing rs with
    | nil =>
      have : rs = [] := List.length_eq_zero_iff.1 hl.symm
      subst this
      exact ⟨[], rfl, rfl⟩
    | cons w ws ih =>
      rcases rs with _ | ⟨r, rs⟩
      · cases hl
      · obtain ⟨bs, h1, h2⟩ := ih rs (by simpa using hl) (by
          intro i hi
          have := hat' (i + 1) (by simpa using hi)
          simpa using this)
        obtain ⟨b, h3, h4⟩ := hat' 0 (by simp)
        simp only [List.getElem?_cons_zero, Option.some.injEq] at h3
        exact ⟨b :: bs, by rw [h3, h1]; rfl, by rw [List.map_cons, h2, h4]; rfl⟩
  obtain ⟨hb1, hb2⟩ := hbs
  refine ⟨bs.filter fun w => v.isTest w.obj, ?_, ?_, ?_⟩
  · unfold SlidingView.testWins
    rw [hb1]
    have : (bs.map Win.basic).mapM (basicWin (R := R)) = .ok bs := by
      rw [Corpus.mapM_ok_iff, List.forall₂_map_left_iff]
      apply List.forall₂_same.2
      intro b _
      rfl
    rw [this]
    rfl
  · rw [← hb2, List.filter_map]
    rfl
  · intro w hw
    rw [hb1]
    exact List.mem_map_of_mem (List.mem_of_mem_filter hw)

/-! ### Files -/

/-- The name of a file without what follows the first dot. -/
def Stem (name s : Str) : Prop := '.' ∉ s ∧ (name = s ∨ ∃ t, name = s ++ '.' :: t)

theorem stem_iff {name s : Str} : Stem name s ↔ name.takeWhile (· ≠ '.') = s := by
  have hno : '.' ∉ name.takeWhile (· ≠ '.') := by
    intro h
    have := List.mem_takeWhile_imp h
    simp at this
  constructor
  · rintro ⟨h1, rfl | ⟨t, rfl⟩⟩
    · rw [List.takeWhile_eq_self_iff]
      intro c hc
      simp only [ne_eq, decide_not, Bool.not_eq_eq_eq_not, Bool.not_true, decide_eq_false_iff_not]
      rintro rfl
      exact h1 hc
    · rw [List.takeWhile_append_of_pos]
      · simp
      · intro c hc
        simp only [ne_eq, decide_not, Bool.not_eq_eq_eq_not, Bool.not_true, decide_eq_false_iff_not]
        rintro rfl
        exact h1 hc
  · rintro rfl
    refine ⟨hno, ?_⟩
    have hsplit := List.takeWhile_append_dropWhile (p := fun c : Char => decide (c ≠ '.')) (l := name)
    rcases hd : name.dropWhile (fun c => decide (c ≠ '.')) with _ | ⟨c, t⟩
    · rw [hd, List.append_nil] at hsplit
      exact Or.inl hsplit.symm
    · right
      have hc : c = '.' := by
        have := List.head_dropWhile_not (p := fun c : Char => decide (c ≠ '.')) (l := name) (by rw [hd]; simp)
        simp only [hd, List.head_cons] at this
        simpa using this
      rw [hd, hc] at hsplit
      exact ⟨t, hsplit.symm⟩

theorem figureName_inj {a b x y : Str} (h : figureName a x = figureName b y) :
    a.takeWhile (· ≠ '.') = b.takeWhile (· ≠ '.') ∧ x = y := by
  have hs : ∀ n e, (figureName n e).takeWhile (· ≠ '.') = n.takeWhile (· ≠ '.') := by
    intro n e
    refine stem_iff.1 ⟨?_, Or.inr ⟨e, rfl⟩⟩
    exact (stem_iff.2 rfl).1
  have h1 := hs a x
  rw [h, hs b y] at h1
  refine ⟨h1.symm, ?_⟩
  unfold figureName at h
  rw [h1] at h
  simpa using h

theorem under_inj {a x y : Str} (h : under a x = under a y) : x = y := by
  unfold under at h
  simpa using h

/-- The extensions of figures. -/
def EXTS : List Str := ["svg".toList, "pdf".toList, "eps".toList]

theorem forEach_save (dir : Str) (n : Str → Str) (fig : R × Drawing R × Canvas) (exts : List Str) (d : PlotDisk R)
    (hd : dir ∈ d.dirs) : forEach (fun ext => saveFigure dir (n ext) fig) exts d =
      ({ d with figures := (exts.map fun e => (under dir (n e), fig)).foldl (fun F p => dictSet F p.1 p.2) d.figures }, .ok ()) := by
  induction exts generalizing d with
  | nil => rfl
  | cons e exts ih =>
    unfold forEach
    rw [bind_ok (a := ()) (s' := { d with figures := dictSet d.figures (under dir (n e)) fig })
      (by unfold saveFigure; rw [if_pos hd])]
    exact ih _ hd

/-- The figures which are saved, when the windows exist. -/
theorem forEach_annotated (limits : Drawing R → ℚ × ℚ) (audio : R → Str) (dir : Str) (v : SlidingView L R)
    (wins : List (BasicWin R)) (l : List (ℕ × List (Str × ℚ × ℚ))) (figs : List (R × Drawing R × Canvas))
    (h : List.Forall₂ (fun a fg => ∃ w, wins[a.1]? = some w ∧ fg.1 = w.obj ∧
      plotOneSentenceAnnotated limits w v.sliding (.array v.similarities) (.list v.exampleLabels)
        (some SENTENCE_PLOT_RC) a.2 = .ok fg) l figs) (d : PlotDisk R) (hd : dir ∈ d.dirs) :
    forEach (annotatedPlot limits audio dir v wins) l d =
      ({ d with
          figures := (figs.flatMap fun fg => EXTS.map fun e => (under dir (figureName (audio fg.1) e), fg)).foldl
            (fun F p => dictSet F p.1 p.2) d.figures }, .ok ()) := by
  induction h generalizing d with
  | nil => rfl
  | cons ha _ ih =>
    obtain ⟨w, h1, h2, h3⟩ := ha
    unfold forEach
    rw [bind_ok (a := ()) (by
      unfold annotatedPlot
      rw [lift_ok ((pyGet_some _ _ _).2 h1), lift_ok h3]
      exact forEach_save _ _ _ _ _ hd)]
    refine Eq.trans (ih _ ?_) ?_
    · exact hd
    rw [List.flatMap_cons, List.foldl_append, ← h2]
    rfl

theorem makeDest_ok (workdir : Str) (d : PlotDisk R) (hw : workdir ∈ d.dirs)
    (hd : under workdir "sliding_win_plots".toList ∈ d.dirs ↔
      under (under workdir "sliding_win_plots".toList) "annotated".toList ∈ d.dirs) :
    ∃ dirs, makeDest workdir d = ({ d with dirs := dirs }, .ok ()) ∧ (∀ x ∈ d.dirs, x ∈ dirs) ∧
      under workdir "sliding_win_plots".toList ∈ dirs ∧
      under (under workdir "sliding_win_plots".toList) "annotated".toList ∈ dirs := by
  unfold makeDest
  generalize hdest : under workdir "sliding_win_plots".toList = dest at *
  generalize hann : under dest "annotated".toList = ann at *
  by_cases h : dest ∈ d.dirs
  · rw [if_pos h]
    exact ⟨d.dirs, rfl, fun _ h => h, h, hd.1 h⟩
  · have h' : ann ∉ d.dirs := fun x => h (hd.2 x)
    have hne : ann ≠ dest := by
      rw [← hann]
      unfold under
      intro h0
      have := congrArg List.length h0
      simp at this
    rw [if_neg h, bind_ok (a := ()) (s' := { d with dirs := d.dirs ++ [dest] })
      (by unfold mkdirIn; rw [hdest, if_pos ⟨hw, h⟩])]
    refine ⟨d.dirs ++ [dest] ++ [ann], ?_, by simp +contextual, by simp, by simp⟩
    unfold mkdirIn
    rw [hann, if_pos (by simp [h', hne])]

/-- **C187.** What is written on the figures of `C187_files`: a word or two for each of the four sentences, with the times
between which it is said, and the text in the middle of these. -/
theorem C187_words (b t : ℚ) :
    ANNOTATIONS.map (fun a => (a.1, (a.2.foldl (fun c a => c.annotate a.2 a.1) (⟨(b, t), none, [], []⟩ : Canvas)).spans,
      (a.2.foldl (fun c a => c.annotate a.2 a.1) (⟨(b, t), none, [], []⟩ : Canvas)).texts)) =
    [(36, [(0.8, 1)], [("book".toList, 0.9, t)]),
     (89, [(0.72, 0.96)], [("Daddy".toList, 0.84, t)]),
     (16, [(0.74, 1.01), (1.53, 1.93)], [("Angus".toList, 0.875, t), ("shoe".toList, 1.73, t)]),
     (67, [(1, 1.28)], [("bottle".toList, 1.14, t)])] := by
  unfold ANNOTATIONS
  simp only [List.map_cons, List.map_nil, (C187_annotations b t _).1, (C187_annotations b t _).2.1]
  norm_num

/-- **C187.** The files of the script, when the directory of figures has a directory `annotated` or doesn't exist yet: a
text with the transcriptions of the records out of the test, a line each, and each annotated sentence in three formats, named
after its sound.  A figure has the plot of the sentence (C130) with its annotations (`C187_annotations`).  Other files are
not changed. -/
theorem C187_files [BEq L] [LawfulBEq L] [DecidableEq R] (limits : Drawing R → ℚ × ℚ) (files : WavFiles α)
    (path : R → String) (trans audio : R → Str) (records : List R) (raw : List L) (workdir dest ann : Str) (l : Log L)
    (hdest : dest = under workdir "sliding_win_plots".toList) (hann : ann = under dest "annotated".toList)
    (v : SlidingView L R) (P : Interactive L R) (dr : Drawing R) (ws : List (BasicWin R)) (found : List ℕ) (m : List (List ℕ))
    (hv : slidingView files path records raw l = .ok v) (hP : v.interactive = .ok (P, dr)) (hws : v.testWins = .ok ws)
    (hfound : logIndices l "found_sound2objects_cosine".toList = .ok found)
    (hm : confusion v.names.length v.testLabels found = .ok m)
    (hrows : ∀ r ∈ v.similarities, r ≠ []) (htimes : ∀ w ∈ ws, w.start ≤ w.stop) (hmany : 90 ≤ ws.length)
    (hstem : ∀ i ∈ [36, 89, 16, 67], ∀ j ∈ [36, 89, 16, 67], ∀ x y s, ws[i]? = some x → ws[j]? = some y →
      Stem (audio x.obj) s → Stem (audio y.obj) s → i = j)
    (d : PlotDisk R) (hw : workdir ∈ d.dirs) (hd : dest ∈ d.dirs ↔ ann ∈ d.dirs) :
    ∃ d', plotSlidingScript limits files path trans audio records raw workdir l d = (d', .ok (P, dr, m)) ∧
      (∀ x ∈ d.dirs, x ∈ d'.dirs) ∧ dest ∈ d'.dirs ∧ ann ∈ d'.dirs ∧
      (∀ f, dictGet? d'.texts f = if f = under dest "train_trans.txt".toList then
        some (List.intercalate ['\n'] ((records.filter fun r => decide (r ∉ v.testRecords)).map trans)) else dictGet? d.texts f) ∧
      (∀ a ∈ ANNOTATIONS, ∃ w dg s, ws[a.1]? = some w ∧ Stem (audio w.obj) s ∧
        plotOneSentence w v.sliding (.array v.similarities) (.list v.exampleLabels) (some SENTENCE_PLOT_RC) =
          .ok (w.obj, dg) ∧
        ∀ ext ∈ ["svg".toList, "pdf".toList, "eps".toList], dictGet? d'.figures (under ann (s ++ '.' :: ext)) =
          some (w.obj, dg, a.2.foldl (fun c a => c.annotate a.2 a.1) ⟨limits dg, none, [], []⟩)) ∧
      (∀ f, (∀ i ∈ [36, 89, 16, 67], ∀ w s, ws[i]? = some w → Stem (audio w.obj) s →
          ∀ ext ∈ ["svg".toList, "pdf".toList, "eps".toList], f ≠ under ann (s ++ '.' :: ext)) →
        dictGet? d'.figures f = dictGet? d.figures f) := by
  -- figures
  have hlen : v.sliding.length ≤ v.similarities.length := (new_fields (interactive_score hP)).1
  have hfig : ∀ a ∈ ANNOTATIONS, ∃ fg : R × Drawing R × Canvas, (∃ w, ws[a.1]? = some w ∧ fg.1 = w.obj ∧
      plotOneSentenceAnnotated limits w v.sliding (.array v.similarities) (.list v.exampleLabels)
        (some SENTENCE_PLOT_RC) a.2 = .ok fg) ∧ ∃ w dg, ws[a.1]? = some w ∧
        plotOneSentence w v.sliding (.array v.similarities) (.list v.exampleLabels) (some SENTENCE_PLOT_RC) =
          .ok (w.obj, dg) ∧ fg = (w.obj, dg, a.2.foldl (fun c a => c.annotate a.2 a.1) ⟨limits dg, none, [], []⟩) := by
    intro a ha
    have hi : a.1 < ws.length := by
      have : ∀ a ∈ ANNOTATIONS, a.1 < 90 := by decide
      exact (this a ha).trans_le hmany
    obtain ⟨dg, h1, -⟩ := C130_sentence ws[a.1] v.sliding v.similarities (.list v.exampleLabels) SENTENCE_PLOT_RC hlen hrows
      (htimes _ (List.getElem_mem hi)) (by decide)
    refine ⟨(ws[a.1].obj, dg, a.2.foldl (fun c a => c.annotate a.2 a.1) ⟨limits dg, none, [], []⟩),
      ⟨ws[a.1], List.getElem?_eq_getElem hi, rfl, ?_⟩, ws[a.1], dg, List.getElem?_eq_getElem hi, h1, rfl⟩
    unfold plotOneSentenceAnnotated
    rw [h1]
    rfl
  obtain ⟨figs, hfigs⟩ : ∃ figs, List.Forall₂ (fun a (fg : R × Drawing R × Canvas) => (∃ w, ws[a.1]? = some w ∧ fg.1 = w.obj ∧
      plotOneSentenceAnnotated limits w v.sliding (.array v.similarities) (.list v.exampleLabels)
        (some SENTENCE_PLOT_RC) a.2 = .ok fg) ∧ ∃ w dg, ws[a.1]? = some w ∧
        plotOneSentence w v.sliding (.array v.similarities) (.list v.exampleLabels) (some SENTENCE_PLOT_RC) =
          .ok (w.obj, dg) ∧ fg = (w.obj, dg, a.2.foldl (fun c a => c.annotate a.2 a.1) ⟨limits dg, none, [], []⟩))
      ANNOTATIONS figs := by
    revert hfig
    generalize ANNOTATIONS = as
    intro hfig
    induction as with
    | nil => exact ⟨[], .nil⟩
    | cons a as ih =>
      obtain ⟨fg, h⟩ := hfig a List.mem_cons_self
      obtain ⟨figs, h'⟩ := ih fun b hb => hfig b (List.mem_cons_of_mem _ hb)
      exact ⟨fg :: figs, .cons h h'⟩
  obtain ⟨dirs, e1, e2, e3, e4⟩ := makeDest_ok workdir d hw (by rw [← hdest, ← hann]; exact hd)
  rw [← hdest] at e3 e4
  rw [← hann] at e4
  set ps := figs.flatMap fun fg => EXTS.map fun e => (under ann (figureName (audio fg.1) e), fg) with hps
  have hin : ∀ a ∈ ANNOTATIONS, a.1 ∈ [36, 89, 16, 67] := by decide
  have hnodup : (dictKeys ps).Nodup := by
    have hk : dictKeys ps = figs.flatMap fun fg => EXTS.map fun e => under ann (figureName (audio fg.1) e) := by
      rw [hps]
      unfold dictKeys
      rw [List.map_flatMap]
      simp [List.map_map, Function.comp_def]
    rw [hk, List.nodup_flatMap]
    constructor
    · intro fg _
      refine List.Nodup.map ?_ (by decide)
      intro x y hxy
      exact (figureName_inj (under_inj hxy)).2
    · rw [List.pairwise_iff_getElem]
      intro i j hi hj hij f hf hf'
      obtain ⟨x, -, rfl⟩ := List.mem_map.1 hf
      obtain ⟨y, -, hy⟩ := List.mem_map.1 hf'
      have hst := (figureName_inj (under_inj hy)).1
      have hi' : i < ANNOTATIONS.length := by rw [hfigs.length_eq]; exact hi
      have hj' : j < ANNOTATIONS.length := by rw [hfigs.length_eq]; exact hj
      obtain ⟨w1, a1, a2, -⟩ := ((List.forall₂_iff_get.1 hfigs).2 i hi' hi).1
      obtain ⟨w2, b1, b2, -⟩ := ((List.forall₂_iff_get.1 hfigs).2 j hj' hj).1
      simp only [List.get_eq_getElem] at a1 a2 b1 b2
      have heq := hstem _ (hin _ (List.getElem_mem hi')) _ (hin _ (List.getElem_mem hj')) w1 w2 _ a1 b1
        (stem_iff.2 rfl) (stem_iff.2 (by rw [← a2, ← b2]; exact hst))
      have hn : (ANNOTATIONS.map Prod.fst).Nodup := by decide
      have := (List.Nodup.getElem_inj_iff hn (i := i) (j := j) (hi := by simpa using hi') (hj := by simpa using hj')).1
        (by simpa using heq)
      omega
  have hlook : ∀ f, dictGet? (ps.foldl (fun F p => dictSet F p.1 p.2) d.figures) f = (dictGet? ps f).or (dictGet? d.figures f) :=
    fun f => dictGet?_foldl_set ps f d.figures hnodup
  refine ⟨⟨dirs, dictSet d.texts (under dest "train_trans.txt".toList)
    (List.intercalate ['\n'] ((records.filter fun r => decide (r ∉ v.testRecords)).map trans)),
    ps.foldl (fun F p => dictSet F p.1 p.2) d.figures⟩, ?_, e2, e3, e4, ?_, ?_, ?_⟩
  · unfold plotSlidingScript
    rw [lift_ok hv, lift_ok hP, bind_ok e1, lift_ok hws, ← hdest]
    rw [bind_ok (a := ()) (s' := ⟨dirs, dictSet d.texts (under dest "train_trans.txt".toList)
      (List.intercalate ['\n'] ((records.filter fun r => decide (r ∉ v.testRecords)).map trans)), d.figures⟩)
      (by
        unfold writeLines
        rw [if_pos e3]
        simp [SlidingView.isTest])]
    rw [← hann, bind_ok (forEach_annotated limits audio ann v ws ANNOTATIONS figs (hfigs.imp fun _ _ h => h.1) _ e4),
      lift_ok hfound, lift_ok hm]
    rfl
  · intro f
    show dictGet? (dictSet d.texts _ _) f = _
    rw [dictGet?_set]
    simp only [eq_comm]
  · intro a ha
    obtain ⟨i, hi, rfl⟩ := List.mem_iff_getElem.1 ha
    have hi' : i < figs.length := by rw [← hfigs.length_eq]; exact hi
    obtain ⟨-, w, dg, a1, a2, a3⟩ := (List.forall₂_iff_get.1 hfigs).2 i hi hi'
    simp only [List.get_eq_getElem] at a1 a3
    refine ⟨w, dg, _, a1, stem_iff.2 rfl, a2, ?_⟩
    intro ext hext
    show dictGet? (ps.foldl (fun F p => dictSet F p.1 p.2) d.figures) _ = _
    rw [hlook, ← a3]
    have hmem : (under ann (figureName (audio w.obj) ext), figs[i]) ∈ ps := by
      rw [hps, List.mem_flatMap]
      refine ⟨figs[i], List.getElem_mem hi', List.mem_map.2 ⟨ext, hext, ?_⟩⟩
      rw [a3]
    have := dictGet?_mem hnodup hmem
    unfold figureName at this
    rw [this]
    rfl
  · intro f hf
    show dictGet? (ps.foldl (fun F p => dictSet F p.1 p.2) d.figures) _ = _
    rw [hlook, dictGet?_fresh]
    · rfl
    · intro hmem
      obtain ⟨⟨k, fg⟩, hk, rfl⟩ := List.mem_map.1 hmem
      rw [hps, List.mem_flatMap] at hk
      obtain ⟨fg', hfg, hk⟩ := hk
      obtain ⟨ext, hext, hk⟩ := List.mem_map.1 hk
      cases hk
      obtain ⟨i, hi, rfl⟩ := List.mem_iff_getElem.1 hfg
      have hi' : i < ANNOTATIONS.length := by rw [hfigs.length_eq]; exact hi
      obtain ⟨w, a1, a2, -⟩ := ((List.forall₂_iff_get.1 hfigs).2 i hi' hi).1
      simp only [List.get_eq_getElem] at a1 a2
      refine hf _ (hin _ (List.getElem_mem hi')) w _ a1 (stem_iff.2 rfl) ext hext ?_
      simp only [a2]
      rfl


/-- **C187.** With less than ninety test sentences the script fails, after the text has been written. -/
theorem C187_few [BEq L] [LawfulBEq L] [DecidableEq R] (limits : Drawing R → ℚ × ℚ) (files : WavFiles α)
    (path : R → String) (trans audio : R → Str) (records : List R) (raw : List L) (workdir dest ann : Str) (l : Log L)
    (hdest : dest = under workdir "sliding_win_plots".toList) (hann : ann = under dest "annotated".toList)
    (v : SlidingView L R) (P : Interactive L R) (dr : Drawing R) (ws : List (BasicWin R))
    (hv : slidingView files path records raw l = .ok v) (hP : v.interactive = .ok (P, dr)) (hws : v.testWins = .ok ws)
    (hrows : ∀ r ∈ v.similarities, r ≠ []) (htimes : ∀ w ∈ ws, w.start ≤ w.stop) (hfew : ws.length < 90)
    (d : PlotDisk R) (hw : workdir ∈ d.dirs) (hd : dest ∈ d.dirs ↔ ann ∈ d.dirs) :
    ∃ d', plotSlidingScript limits files path trans audio records raw workdir l d = (d', .error .indexError) ∧
      dictGet? d'.texts (under dest "train_trans.txt".toList) =
        some (List.intercalate ['\n'] ((records.filter fun r => decide (r ∉ v.testRecords)).map trans)) := by
  have hlen : v.sliding.length ≤ v.similarities.length := (new_fields (interactive_score hP)).1
  obtain ⟨dirs, e1, e2, e3, e4⟩ := makeDest_ok workdir d hw (by rw [← hdest, ← hann]; exact hd)
  rw [← hdest] at e3 e4
  rw [← hann] at e4
  -- the loop
  have hloop : ∀ D : PlotDisk R, ann ∈ D.dirs → ∃ F, forEach (annotatedPlot limits audio ann v ws) ANNOTATIONS D =
      ({ D with figures := F }, .error .indexError) := by
    intro D hD
    have hmiss : ∀ (a : ℕ × List (Str × ℚ × ℚ)) (D : PlotDisk R), ws.length ≤ a.1 →
        annotatedPlot limits audio ann v ws a D = (D, .error .indexError) := by
      intro a D h
      unfold annotatedPlot
      refine lift_error ?_ _ _
      exact (pyGet_none _ _).2 (List.getElem?_eq_none h)
    by_cases h36 : ws.length ≤ 36
    · refine ⟨D.figures, ?_⟩
      unfold ANNOTATIONS forEach
      exact bind_error (hmiss _ _ h36)
    · have hi : 36 < ws.length := by omega
      obtain ⟨dg, h1, -⟩ := C130_sentence ws[36] v.sliding v.similarities (.list v.exampleLabels) SENTENCE_PLOT_RC hlen hrows
        (htimes _ (List.getElem_mem hi)) (by decide)
      obtain ⟨F, hone⟩ : ∃ F, forEach (annotatedPlot limits audio ann v ws) [(36, [("book".toList, 8 / 10, 1)])] D =
          ({ D with figures := F }, .ok ()) := ⟨_, forEach_annotated limits audio ann v ws [(36, [("book".toList, 8 / 10, 1)])]
        [(ws[36].obj, dg, [("book".toList, 8 / 10, 1)].foldl (fun c a => c.annotate a.2 a.1) ⟨limits dg, none, [], []⟩)]
        (.cons ⟨ws[36], List.getElem?_eq_getElem hi, rfl, by
          unfold plotOneSentenceAnnotated
          rw [h1]
          rfl⟩ .nil) D hD⟩
      unfold forEach at hone
      obtain ⟨⟨⟩, D', g1, g2⟩ := bind_eq_ok.1 hone
      unfold forEach at g2
      cases g2
      refine ⟨F, ?_⟩
      unfold ANNOTATIONS forEach
      rw [bind_ok g1]
      unfold forEach
      refine bind_error (hmiss _ _ ?_)
      show ws.length ≤ 89
      omega
  obtain ⟨F, hF⟩ := hloop ⟨dirs, dictSet d.texts (under dest "train_trans.txt".toList)
      (List.intercalate ['\n'] ((records.filter fun r => decide (r ∉ v.testRecords)).map trans)), d.figures⟩ e4
  refine ⟨⟨dirs, dictSet d.texts (under dest "train_trans.txt".toList)
      (List.intercalate ['\n'] ((records.filter fun r => decide (r ∉ v.testRecords)).map trans)), F⟩, ?_, ?_⟩
  · unfold plotSlidingScript
    rw [lift_ok hv, lift_ok hP, bind_ok e1, lift_ok hws, ← hdest]
    rw [bind_ok (a := ()) (s' := ⟨dirs, dictSet d.texts (under dest "train_trans.txt".toList)
      (List.intercalate ['\n'] ((records.filter fun r => decide (r ∉ v.testRecords)).map trans)), d.figures⟩)
      (by
        unfold writeLines
        rw [if_pos e3]
        simp [SlidingView.isTest])]
    rw [← hann]
    exact bind_error hF
  · show dictGet? (dictSet d.texts _ _) _ = _
    rw [dictGet?_set, if_pos rfl]

/-- **C187.** The directory `annotated` is only created with the directory of figures: when the second exists without the
first, no figure can be written. -/
theorem C187_no_directory [BEq L] [LawfulBEq L] [DecidableEq R] (limits : Drawing R → ℚ × ℚ) (files : WavFiles α)
    (path : R → String) (trans audio : R → Str) (records : List R) (raw : List L) (workdir dest ann : Str) (l : Log L)
    (hdest : dest = under workdir "sliding_win_plots".toList) (hann : ann = under dest "annotated".toList)
    (v : SlidingView L R) (P : Interactive L R) (dr : Drawing R) (ws : List (BasicWin R))
    (hv : slidingView files path records raw l = .ok v) (hP : v.interactive = .ok (P, dr)) (hws : v.testWins = .ok ws)
    (hrows : ∀ r ∈ v.similarities, r ≠ []) (htimes : ∀ w ∈ ws, w.start ≤ w.stop) (hmany : 37 ≤ ws.length)
    (d : PlotDisk R) (hd : dest ∈ d.dirs) (ha : ann ∉ d.dirs) :
    ∃ d', plotSlidingScript limits files path trans audio records raw workdir l d = (d', .error .ioError) ∧
      d'.figures = d.figures ∧ d'.dirs = d.dirs := by
  have hlen : v.sliding.length ≤ v.similarities.length := (new_fields (interactive_score hP)).1
  refine ⟨⟨d.dirs, dictSet d.texts (under dest "train_trans.txt".toList)
      (List.intercalate ['\n'] ((records.filter fun r => decide (r ∉ v.testRecords)).map trans)), d.figures⟩, ?_, rfl, rfl⟩
  unfold plotSlidingScript
  rw [lift_ok hv, lift_ok hP, bind_ok (a := ()) (s' := d)
    (by unfold makeDest; rw [← hdest, if_pos hd]), lift_ok hws, ← hdest]
  rw [bind_ok (a := ()) (s' := ⟨d.dirs, dictSet d.texts (under dest "train_trans.txt".toList)
    (List.intercalate ['\n'] ((records.filter fun r => decide (r ∉ v.testRecords)).map trans)), d.figures⟩)
    (by
      unfold writeLines
      rw [if_pos hd]
      simp [SlidingView.isTest])]
  rw [← hann]
  apply bind_error
  unfold ANNOTATIONS forEach
  apply bind_error
  have hi : 36 < ws.length := by omega
  obtain ⟨dg, h1, -⟩ := C130_sentence ws[36] v.sliding v.similarities (.list v.exampleLabels) SENTENCE_PLOT_RC hlen hrows
    (htimes _ (List.getElem_mem hi)) (by decide)
  unfold annotatedPlot
  rw [lift_ok ((pyGet_some _ _ _).2 (List.getElem?_eq_getElem hi)), lift_ok (by
    unfold plotOneSentenceAnnotated
    rw [h1]
    rfl)]
  unfold forEach
  apply bind_error
  unfold saveFigure
  rw [if_neg ha]

end Verif.Samples
