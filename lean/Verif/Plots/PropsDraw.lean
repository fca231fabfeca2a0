import Verif.Plots.Lemmas

/-!
# Properties C126-C130: plots of scores along time
-/

namespace Verif.Plots

open Verif Verif.Window

variable {X R : Type}

/-! ### C126 -/

/-- **C126.** With an array of similarities and options, `ScorePlot` can be built exactly when there
is a row for each sliding window; it shows at first the times from 0 to 20, keeps a row with the
times of each window, and its options are the ones given, and otherwise the default ones. -/
theorem C126_new (records : Concat Unit R) (sliding : List (BasicWin Unit)) (rows : List (List ℚ))
    (labels : Arg X) (rc : Dict Str Rc) (isTest : Option (R → Bool)) :
    (rows.length < sliding.length →
      Score.new records sliding (.array rows) labels (some rc) isTest = .error .indexError) ∧
    (sliding.length ≤ rows.length → ∃ p, Score.new records sliding (.array rows) labels (some rc) isTest
        = .ok p ∧ p.current.start = 0 ∧ p.current.stop = 20 ∧ p.records = records ∧ p.sliding = sliding ∧
      p.labels = labels ∧ p.isTest = isTest ∧ p.similarity.length = sliding.length ∧
      (∀ (i : ℕ) (w : BasicWin Unit) (r : List ℚ), sliding[i]? = some w → rows[i]? = some r →
        p.similarity[i]? = some ⟨w.start, w.stop, r⟩) ∧
      ((dictKeys rc).Nodup → ∀ k, dictGet? p.rc k = (dictGet? rc k).or (dictGet? DEFAULT_RC k))) := by
  constructor
  · intro h
    unfold Score.new
    rw [similarity_short sliding rows 0 (Nat.zero_le _) (by omega)]
    rfl
  · intro h
    refine ⟨⟨⟨0, 20, ()⟩, records, sliding, (sliding.zip rows).map fun x => ⟨x.1.start, x.1.stop, x.2⟩,
      labels, rc.foldl (fun d p => dictSet d p.1 p.2) DEFAULT_RC, isTest⟩, ?_, rfl, rfl, rfl, rfl, rfl,
      rfl, ?_, ?_, ?_⟩
    · unfold Score.new
      rw [similarity_eq sliding rows 0 (by omega)]
      rfl
    · simp [List.length_zip, h]
    · intro i w r hw hr
      simp only []
      have hz : (sliding.zip rows)[i]? = some (w, r) := List.getElem?_zip_eq_some.2 ⟨hw, hr⟩
      rw [List.getElem?_map, hz]
      rfl
    · intro hn k
      exact dictGet?_update DEFAULT_RC rc k hn

/-- **C126.** The default options: boundaries in white of width 2, sentences printed, absolute times, markers of size 5 and
no colors. -/
theorem C126_defaults (records : Concat Unit R) (sliding : List (BasicWin Unit)) (rows : List (List ℚ))
    (labels : Arg X) (rc : Dict Str Rc) (hn : (dictKeys rc).Nodup) (isTest : Option (R → Bool)) (p : Score X R)
    (hp : Score.new records sliding (.array rows) labels (some rc) isTest = .ok p) (k : Str) (hk : k ∉ dictKeys rc) :
    (k = "draw_sentence_boundaries".toList → dictGet? p.rc k = some (.flag true)) ∧
    (k = "use_relative_time".toList → dictGet? p.rc k = some (.flag false)) ∧
    (k = "print_sentences".toList → dictGet? p.rc k = some (.flag true)) ∧
    (k = "window_boundaries_color".toList → dictGet? p.rc k = some (.text "white".toList)) ∧
    (k = "window_boundaries_line_width".toList → dictGet? p.rc k = some (.num 2)) ∧
    (k = "markersize".toList → dictGet? p.rc k = some (.num 5)) ∧
    (k = "colors".toList → dictGet? p.rc k = some .none) := by
  obtain ⟨h1, h2⟩ := C126_new records sliding rows labels rc isTest
  have hl : sliding.length ≤ rows.length := by
    by_contra h
    rw [h1 (by omega)] at hp
    cases hp
  obtain ⟨p', e, -, -, -, -, -, -, -, -, hrc⟩ := h2 hl
  rw [hp] at e
  obtain rfl := Except.ok.inj e
  have hnone : dictGet? rc k = none := by
    unfold dictGet?
    rw [List.find?_eq_none.2, Option.map_none]
    intro x hx h
    exact hk (List.mem_map.2 ⟨x, hx, of_decide_eq_true h⟩)
  rw [hrc hn k, hnone, Option.none_or]
  refine ⟨?_, ?_, ?_, ?_, ?_, ?_, ?_⟩ <;> rintro rfl <;> decide +kernel

/-- **C126.** A list of labels in the place of the similarities makes `ScorePlot` fail with
`TypeError` as soon as there is a window; so does `None` as options. -/
theorem C126_wrong (records : Concat Unit R) (sliding : List (BasicWin Unit)) (l : List X)
    (a labels : Arg X) (rc : Option (Dict Str Rc)) (isTest : Option (R → Bool)) :
    (sliding ≠ [] → Score.new records sliding (.list l) labels rc isTest = .error .typeError) ∧
    (∀ rows, a = .array rows → sliding.length ≤ rows.length →
      Score.new records sliding a labels none isTest = .error .typeError) := by
  constructor
  · intro h
    obtain ⟨w, ws, rfl⟩ := List.exists_cons_of_ne_nil h
    unfold Score.new
    rw [List.zipIdx_cons, List.mapM_cons]
    rfl
  · rintro rows rfl h
    unfold Score.new
    rw [similarity_eq sliding rows 0 (by omega)]
    rfl

/-- **C126.** `InteractivePlot` and `plot_one_sentence` exchange similarities and labels: given in the
order of their parameters (labels, then similarities), they fail with `TypeError` as soon as there is a
window. -/
theorem C126_order (records : Concat Unit R) (recordWin : BasicWin R) (sliding : List (BasicWin Unit))
    (hs : sliding ≠ []) (l : List X) (rows : List (List ℚ)) (isTest : Option (R → Bool))
    (rc : Dict Str Rc) :
    Interactive.new records sliding (.list l) (.array rows) isTest (some rc) = .error .typeError ∧
    plotOneSentence recordWin sliding (.list l) (.array rows) (some rc) = .error .typeError := by
  constructor
  · unfold Interactive.new
    rw [(C126_wrong records sliding l (.list l) (.array rows) (some rc) isTest).1 hs]
    rfl
  · unfold plotOneSentence update
    have hc : Concat.init ([.basic recordWin] : List (Win Unit R)) = .ok ⟨[.basic recordWin]⟩ :=
      Concat.init_ok (by simp) (by simp [Consecutive])
    simp only [bind, Except.bind, hc]
    rw [(C126_wrong ⟨[.basic recordWin]⟩ sliding l (.list l) (.array rows) _ none).1 hs]

/-! ### C127 -/

theorem sentence_eq (p : Score X R) (h : "use_relative_time".toList ∈ dictKeys p.rc)
    (h' : "print_sentences".toList ∈ dictKeys p.rc) (x : BasicWin R) :
    p.sentence (.basic x) = .ok (if optionOn p.rc "print_sentences".toList then
      [(1 / 2 * (x.stop + x.start) - offset p.rc p.current.start, x.obj, p.testRecord x.obj)] else []) := by
  rw [← dictGet?_isSome, Option.isSome_iff_exists] at h'
  obtain ⟨v, hv⟩ := h'
  unfold Score.sentence dictItem optionOn
  rw [hv]
  simp only [bind, Except.bind, Option.any_some]
  by_cases hb : v.truth = true
  swap
  · rw [if_neg hb, if_neg hb]
    rfl
  · rw [if_pos hb, if_pos hb]
    have : p.relative "mean".toList (Win.basic x : Win Unit R).start (Win.basic x : Win Unit R).stop =
      .ok (1 / 2 * (x.stop + x.start) - offset p.rc p.current.start) := relative_mean p h x.start x.stop
    rw [this]
    rfl

theorem sentenceEnd_eq (p : Score X R) (h : "use_relative_time".toList ∈ dictKeys p.rc)
    (h' : "draw_sentence_boundaries".toList ∈ dictKeys p.rc) (x : BasicWin R) :
    p.sentenceEnd (.basic x) = .ok (if optionOn p.rc "draw_sentence_boundaries".toList then
      [x.stop - offset p.rc p.current.start] else []) := by
  rw [← dictGet?_isSome, Option.isSome_iff_exists] at h'
  obtain ⟨v, hv⟩ := h'
  unfold Score.sentenceEnd dictItem optionOn
  rw [hv]
  simp only [bind, Except.bind, Option.any_some]
  by_cases hb : v.truth = true
  swap
  · rw [if_neg hb, if_neg hb]
    rfl
  · rw [if_pos hb, if_pos hb]
    have : p.relative "end".toList (Win.basic x : Win Unit R).start (Win.basic x : Win Unit R).stop =
      .ok (x.stop - offset p.rc p.current.start) := relative_end p h x.start x.stop
    rw [this]
    rfl

/-- A window of records seen between `s` and `e`. -/
structure Seen (s e : ℚ) (w : Win Unit R) (x : R) (a b : ℚ) : Prop where
  win : ∃ y : BasicWin R, w = .basic y ∧ y.obj = x ∧ a = max s y.start ∧ b = min e y.stop

theorem parts_basic {a b : ℚ} {kept ws : List (Win Unit R)} (h : List.Forall₂ (IsPart a b) kept ws) :
    ∃ ys : List (BasicWin R), ws = ys.map Win.basic ∧
      List.Forall₂ (fun w (y : BasicWin R) => Seen a b w y.obj y.start y.stop) kept ys := by
  induction h with
  | nil => exact ⟨[], rfl, .nil⟩
  | cons hp _ ih =>
    obtain ⟨ys, rfl, h2⟩ := ih
    obtain ⟨x, y, rfl, rfl, ho, h3, h4⟩ := hp
    exact ⟨y :: ys, rfl, .cons ⟨x, rfl, ho.symm, h3, h4⟩ h2⟩

theorem flatten_ite {A B : Type} (l : List A) (c : Bool) (f : A → B) :
    (l.map fun x => if c then [f x] else []).flatten = if c then l.map f else [] := by
  cases c
  · simp
  · induction l with
    | nil => rfl
    | cons a l ih => simpa using ih

theorem new_fields {records : Concat Unit R} {sliding : List (BasicWin Unit)} {rows : List (List ℚ)}
    {labels : Arg X} {rc : Dict Str Rc} {isTest : Option (R → Bool)} {p : Score X R}
    (hnew : Score.new records sliding (.array rows) labels (some rc) isTest = .ok p) :
    sliding.length ≤ rows.length ∧ p.records = records ∧ p.sliding = sliding ∧ p.isTest = isTest ∧
    p.similarity = ((sliding.zip rows).map fun x => ⟨x.1.start, x.1.stop, x.2⟩) ∧
    ∀ k ∈ dictKeys DEFAULT_RC, k ∈ dictKeys p.rc := by
  have hlen : sliding.length ≤ rows.length := by
    by_contra h
    rw [(C126_new records sliding rows labels rc isTest).1 (by omega)] at hnew
    cases hnew
  unfold Score.new at hnew
  rw [similarity_eq sliding rows 0 (by omega)] at hnew
  cases hnew
  exact ⟨hlen, rfl, rfl, rfl, rfl, fun k hk => (dictKeys_update _ _ _).2 (Or.inl hk)⟩

/-- **C127.** What `draw` shows of the times from `s` to `e`, when the records cover them.  The curves
have, in order, the similarities of exactly the sliding windows whose middle is shown, at their middle;
the segment of a window is what is seen of it, at the height of its best similarity; the sentences
written and the ends drawn are those of the records seen, in order.  Times are relative to `s` when
that is asked. -/
theorem C127_draw (records : Concat Unit R) (sliding : List (BasicWin Unit)) (rows : List (List ℚ))
    (labels : Arg X) (rc : Dict Str Rc) (isTest : Option (R → Bool)) (p : Score X R)
    (hnew : Score.new records sliding (.array rows) labels (some rc) isTest = .ok p)
    (hrows : ∀ r ∈ rows, r ≠ []) (hal : Aligned records.windows)
    (hbasic : ∀ w ∈ records.windows, ∃ x, w = .basic x) (hd : ∀ w ∈ records.windows, w.start ≤ w.stop)
    (rs re s e : ℚ) (hs : records.start = .ok rs) (he : records.stop = .ok re) (hse : s ≤ e)
    (h1 : rs ≤ s) (h2 : e ≤ re) (off : ℚ) (hoff : off = offset p.rc s)
    (shown : List (BasicWin Unit × List ℚ))
    (hshown : shown = (sliding.zip rows).filter fun x =>
      decide (s ≤ (x.1.start + x.1.stop) / 2 ∧ (x.1.start + x.1.stop) / 2 ≤ e)) :
    ∃ d pre kept post seen, ({ p with current := ⟨s, e, ()⟩ } : Score X R).draw = .ok d ∧
      d.times = shown.map (fun x => (x.1.start + x.1.stop) / 2 - off) ∧
      d.curves = shown.map Prod.snd ∧
      List.Forall₂ (fun (x : BasicWin Unit × List ℚ) (g : ℚ × ℚ × ℚ) => g.1 = max x.1.start s - off ∧
        g.2.1 = min x.1.stop e - off ∧ g.2.2 ∈ x.2 ∧ ∀ v ∈ x.2, v ≤ g.2.2) shown d.segments ∧
      records.windows = pre ++ kept ++ post ∧ (∀ w ∈ pre, w.stop < s) ∧ (∀ w ∈ post, e ≤ w.start) ∧
      List.Forall₂ (fun w (y : R × ℚ × ℚ) => Seen s e w y.1 y.2.1 y.2.2) kept seen ∧
      d.texts = (if optionOn p.rc "print_sentences".toList then
        seen.map fun y => ((y.2.1 + y.2.2) / 2 - off, y.1, isTest.all fun f => f y.1) else []) ∧
      d.lines = (if optionOn p.rc "draw_sentence_boundaries".toList then
        seen.map fun y => y.2.2 - off else []) ∧
      d.xbound = (s - off, e - off) := by
  obtain ⟨hlen, hrec, hsl, hit, hsim, hkeys⟩ := new_fields hnew
  obtain ⟨c', pre, kept, post, hsub, -, -, -, hcut, hparts, hpre, hpost⟩ :=
    C14_crop_concat_labelled records rs re s e hal hbasic hd hs he h1 hse h2
  obtain ⟨ys, hys, hseen⟩ := parts_basic hparts
  set q : Score X R := { p with current := ⟨s, e, ()⟩ } with hq
  have hrc : q.rc = p.rc := rfl
  have hk1 : "use_relative_time".toList ∈ dictKeys q.rc := hkeys _ (by decide)
  have hk2 : "print_sentences".toList ∈ dictKeys q.rc := hkeys _ (by decide)
  have hk3 : "draw_sentence_boundaries".toList ∈ dictKeys q.rc := hkeys _ (by decide)
  have hmean : ∀ x : BasicWin Unit, meanTime x = (x.start + x.stop) / 2 := by
    intro x; unfold meanTime; ring
  have hkept : shown = (q.sliding.zip rows).filter fun x =>
      decide (q.current.start ≤ meanTime x.1 ∧ meanTime x.1 ≤ q.current.stop) := by
    rw [hshown]
    simp only [hmean]
    rw [show q.sliding = sliding from hsl]
  obtain ⟨hf1, hf2⟩ := drawn_eq q rows (by rw [show q.sliding = sliding from hsl]; exact hlen)
    (by rw [show q.sliding = sliding from hsl]; exact hsim) shown hkept
  have hnon : ∀ x ∈ shown, x.2 ≠ [] := by
    intro x hx
    rw [hshown, List.mem_filter] at hx
    exact hrows _ (List.of_mem_zip hx.1).2
  have ht : (shown.map Prod.fst).mapM (fun w : BasicWin Unit => q.relative "mean".toList w.start w.stop) =
      .ok ((shown.map Prod.fst).map fun w => (w.start + w.stop) / 2 - off) := by
    apply mapM_ok
    intro w _
    rw [relative_mean q hk1, hoff]
    congr 1
    rw [hrc, show q.current.start = s from rfl]
    ring
  have hb : (shown.map Prod.fst).mapM q.boundary =
      .ok ((shown.map Prod.fst).map fun w => (max w.start s - off, min w.stop e - off)) := by
    apply mapM_ok
    intro w _
    rw [boundary_eq q hk1, hoff]
  have hz : ((shown.map Prod.fst).map fun w : BasicWin Unit => (max w.start s - off, min w.stop e - off)).zip
      ((shown.map fun x => (⟨x.1.start, x.1.stop, x.2⟩ : BasicWin (List ℚ))).map BasicWin.obj) =
      shown.map fun x => ((max x.1.start s - off, min x.1.stop e - off), x.2) := by
    rw [List.map_map, List.map_map, List.zip_map']
    rfl
  obtain ⟨segs, hseg1, hseg2⟩ := mapM_segment
    (shown.map fun x => ((max x.1.start s - off, min x.1.stop e - off), x.2)) (by
      intro x hx
      obtain ⟨y, hy, rfl⟩ := List.mem_map.1 hx
      exact hnon y hy)
  rw [List.forall₂_map_left_iff] at hseg2
  have hsubs : q.subwindows q.records = .ok (ys.map Win.basic) := by
    unfold Score.subwindows
    rw [show q.records = records from hrec]
    have : records.getSub q.current.start q.current.stop = .ok c' := hsub
    rw [this, ← hys]
    rfl
  have htext : (ys.map Win.basic).mapM q.sentence = .ok (ys.map fun y =>
      if optionOn q.rc "print_sentences".toList then
        [(1 / 2 * (y.stop + y.start) - offset q.rc q.current.start, y.obj, q.testRecord y.obj)] else []) := by
    rw [List.mapM_map]
    apply mapM_ok
    intro y _
    exact sentence_eq q hk1 hk2 y
  have hline : (ys.map Win.basic).mapM q.sentenceEnd = .ok (ys.map fun y =>
      if optionOn q.rc "draw_sentence_boundaries".toList then
        [y.stop - offset q.rc q.current.start] else []) := by
    rw [List.mapM_map]
    apply mapM_ok
    intro y _
    exact sentenceEnd_eq q hk1 hk3 y
  obtain ⟨texts, htexts⟩ : ∃ t, t = ys.map fun y =>
      if optionOn q.rc "print_sentences".toList then
        [(1 / 2 * (y.stop + y.start) - offset q.rc q.current.start, y.obj, q.testRecord y.obj)] else [] :=
    ⟨_, rfl⟩
  obtain ⟨lines, hlines⟩ : ∃ t, t = ys.map fun y =>
      if optionOn q.rc "draw_sentence_boundaries".toList then
        [y.stop - offset q.rc q.current.start] else [] := ⟨_, rfl⟩
  rw [← htexts] at htext
  rw [← hlines] at hline
  refine ⟨⟨segs, (shown.map Prod.fst).map fun w => (w.start + w.stop) / 2 - off, shown.map Prod.snd, texts.flatten, lines.flatten,
    (s - off, e - off)⟩, pre, kept, post, ys.map fun y => (y.obj, y.start, y.stop), ?_, ?_, rfl, hseg2,
    hcut, hpre, hpost, ?_, ?_, ?_, rfl⟩
  rotate_left
  · simp
  · rw [List.forall₂_map_right_iff]
    exact hseen
  · show texts.flatten = _
    rw [htexts]
    rw [flatten_ite, hrc, show q.current.start = s from rfl, ← hoff, List.map_map]
    congr 1
    apply List.map_congr_left
    intro y _
    have ht : q.testRecord y.obj = isTest.all fun f => f y.obj := by
      unfold Score.testRecord
      rw [show q.isTest = isTest from hit]
      cases isTest <;> rfl
    rw [ht]
    simp only [Function.comp]
    congr 1
    ring
  · show lines.flatten = _
    rw [hlines]
    rw [flatten_ite, hrc, show q.current.start = s from rfl, ← hoff, List.map_map]
    rfl
  · unfold Score.draw
    rw [hf1]
    simp only [bind, Except.bind]
    rw [ht]
    simp only []
    rw [hb]
    simp only []
    rw [hf2]
    simp only []
    rw [hz, hseg1]
    simp only []
    rw [if_neg (by simp), hsubs]
    simp only []
    rw [htext]
    simp only []
    rw [hline]
    simp only []
    rw [relative_start q hk1, relative_end q hk1]
    simp only [pure, Except.pure, List.map_map]
    rw [hrc, show q.current.start = s from rfl, show q.current.stop = e from rfl, ← hoff]
    rfl

end Verif.Plots
