import Verif.Objects.Props
import Mathlib.Tactic.FieldSimp

/-!
# Properties C82 and C83 of `multimodal/db/models/objects.py`
-/

namespace Verif.Objects

open Verif.Arrays

/-! ### C82: histograms by frame -/

theorem take_sum_add_le (ns : List ℕ) : ∀ (j n : ℕ), ns[j]? = some n →
    (ns.take j).sum + n ≤ ns.sum := by
  induction ns with
  | nil => intro j n h; simp at h
  | cons a ns ih =>
    intro j n h
    cases j with
    | zero =>
      rw [List.getElem?_cons_zero, Option.some.injEq] at h
      subst h
      simp
    | succ j =>
      rw [List.getElem?_cons_succ] at h
      have := ih j n h
      rw [List.take_succ_cons, List.sum_cons, List.sum_cons]
      omega

theorem range_drop_take (N i n : ℕ) (h : i + n ≤ N) :
    ((List.range N).drop i).take n = (List.range n).map fun v => i + v := by
  apply List.ext_getElem?
  intro v
  rw [List.getElem?_take, List.getElem?_drop, List.getElem?_map]
  by_cases hv : v < n
  · rw [if_pos hv, List.getElem?_range (by omega), List.getElem?_range hv]
    rfl
  · rw [if_neg hv, List.getElem?_eq_none (by simpa using hv)]
    rfl

/-- **C82.** When each frame has at least one view (and there is a frame), and the matrix has one row
per view, the matrix by frame has one row per frame, which is the average of the rows of its views:
the views of frame `j` are those which follow the views of the frames before. -/
theorem C82_average (ns : List ℕ) (orig : Mat) (hne : ns ≠ []) (hpos : ∀ n ∈ ns, 1 ≤ n)
    (hrows : orig.n1 = ns.sum) :
    ∃ m, histosByFrame ns orig = .ok m ∧ m.n1 = ns.length ∧ m.n2 = orig.n2 ∧
      ∀ (j n : ℕ), ns[j]? = some n → ∀ c,
        m.e j c = ((List.range n).map fun v => orig.e ((ns.take j).sum + v) c).sum / (n : ℚ) := by
  obtain ⟨x, rest, h1, h2⟩ := roll_cumsum ns hne
  unfold histosByFrame
  rw [h1]
  simp only []
  rw [h2]
  have hno : ((List.range ns.length).map fun j => (ns.take j).sum).any
      (fun i => decide (orig.n1 ≤ i)) = false := by
    rw [List.any_eq_false]
    intro i hi
    obtain ⟨j, hj, rfl⟩ := List.mem_map.1 hi
    rw [List.mem_range] at hj
    have e := List.getElem?_eq_getElem hj
    have := take_sum_add_le ns j _ e
    have := hpos _ (List.mem_of_getElem? e)
    simp only [decide_eq_true_eq]
    omega
  rw [hno]
  simp only [Bool.false_eq_true, if_false]
  refine ⟨_, rfl, by simp, rfl, ?_⟩
  intro j n hn c
  have hj : j < ns.length := (List.getElem?_eq_some_iff.1 hn).1
  have hidx : ((List.range ns.length).map fun j => (ns.take j).sum).getD j 0 = (ns.take j).sum := by
    rw [List.getD_eq_getElem?_getD, List.getElem?_map, List.getElem?_range hj]
    rfl
  have hnn : ns.getD j 0 = n := by rw [List.getD_eq_getElem?_getD, hn]; rfl
  simp only [hidx, hnn]
  have hle := take_sum_add_le ns j n hn
  by_cases h : 1 < n
  · rw [if_pos h, range_drop_take _ _ _ (by omega), List.map_map]
    simp only [List.length_map, List.length_range]
    rfl
  · have h1 : n = 1 := by
      have := hpos n (List.mem_of_getElem? hn)
      omega
    subst h1
    rw [if_neg h]
    simp

/-- **C82.** Without any frame, or when the last frame has no view, the computation raises
`IndexError`. -/
theorem C82_index_error (ns : List ℕ) (orig : Mat)
    (h : ns = [] ∨ (ns.getLast? = some 0 ∧ orig.n1 = ns.sum)) :
    histosByFrame ns orig = .error .indexError := by
  rcases h with rfl | ⟨hl, hr⟩
  · rfl
  · have hne : ns ≠ [] := by rintro rfl; cases hl
    obtain ⟨x, rest, h1, h2⟩ := roll_cumsum ns hne
    unfold histosByFrame
    rw [h1]
    simp only []
    rw [h2, if_pos]
    rw [List.any_eq_true]
    have hpos : 0 < ns.length := List.length_pos_iff.2 hne
    refine ⟨_, List.mem_map.2 ⟨ns.length - 1, List.mem_range.2 (by omega), rfl⟩, ?_⟩
    simp only [decide_eq_true_eq]
    have hsplit : ns = ns.dropLast ++ [0] := by
      rw [List.getLast?_eq_some_getLast hne] at hl
      have := List.dropLast_append_getLast hne
      rw [Option.some.inj hl] at this
      exact this.symm
    have e1 : ns.take (ns.length - 1) = ns.dropLast := (List.dropLast_eq_take).symm
    rw [e1, hr, hsplit]
    simp

/-- **C82.** A frame without view is not given a null row: its row is that of the first view of the
next frame which has one. -/
theorem C82_empty_frame (ns : List ℕ) (orig m : Mat) (h : histosByFrame ns orig = .ok m) (j : ℕ)
    (hj : ns[j]? = some 0) (c : ℕ) : m.e j c = orig.e (ns.take j).sum c := by
  have hne : ns ≠ [] := by rintro rfl; cases hj
  obtain ⟨x, rest, h1, h2⟩ := roll_cumsum ns hne
  unfold histosByFrame at h
  rw [h1] at h
  simp only [] at h
  rw [h2] at h
  split at h
  · cases h
  · obtain rfl := Except.ok.inj h
    have hjl : j < ns.length := (List.getElem?_eq_some_iff.1 hj).1
    have hidx : ((List.range ns.length).map fun j => (ns.take j).sum).getD j 0 = (ns.take j).sum := by
      rw [List.getD_eq_getElem?_getD, List.getElem?_map, List.getElem?_range hjl]
      rfl
    have hnn : ns.getD j 0 = 0 := by rw [List.getD_eq_getElem?_getD, hj]; rfl
    simp only [hidx, hnn]
    rw [if_neg (by omega)]

/-- Example with one, three and one view: the second row is the average of the rows 1 to 3. -/
example : ∃ m, histosByFrame [1, 3, 1] ⟨5, 2, fun i j => (i : ℚ) * i + j⟩ = .ok m ∧
    m.e 1 0 = 14 / 3 := by
  obtain ⟨m, h1, _, _, h2⟩ := C82_average [1, 3, 1] ⟨5, 2, fun i j => (i : ℚ) * i + j⟩ (by simp)
    (by decide) rfl
  exact ⟨m, h1, (h2 1 3 rfl 0).trans (by decide +kernel)⟩

/-! ### C83: building a database -/

/-- The matrices obtained by adding the features of all views, one matrix per feature. -/
def histosOf (feats : List (List (List ℚ))) : List LIL :=
  (List.range nbFeatures).map fun k => (feats.map fun v => v.getD k []).foldl LIL.addRow LIL.new

theorem addFeats_histosOf (feats : List (List (List ℚ))) (v : List (List ℚ))
    (hv : v.length = nbFeatures) : addRows (histosOf feats) v = histosOf (feats ++ [v]) := by
  match v, hv with
  | [a, b, c, d, e], _ =>
    unfold histosOf
    simp only [List.map_append, List.foldl_append, List.map_cons, List.map_nil, List.foldl_cons,
      List.foldl_nil]
    rfl

theorem foldl_addFeats (vs : List (List (List ℚ))) : ∀ (fr : List Frame)
    (feats : List (List (List ℚ))), (∀ v ∈ vs, v.length = nbFeatures) →
    vs.foldl DB.addFeats ⟨fr, histosOf feats⟩ = ⟨fr, histosOf (feats ++ vs)⟩ := by
  induction vs with
  | nil => intro fr feats _; simp
  | cons v vs ih =>
    intro fr feats h
    rw [List.foldl_cons]
    have : DB.addFeats ⟨fr, histosOf feats⟩ v = ⟨fr, histosOf (feats ++ [v])⟩ := by
      unfold DB.addFeats
      rw [addFeats_histosOf feats v (h v List.mem_cons_self)]
    rw [this, ih _ _ fun x hx => h x (List.mem_cons_of_mem _ hx), List.append_assoc]
    rfl

/-- Whether the features of a frame can be read. -/
def readable (cv : Conv) (read : Str → Py (List Str)) (f : Frame) : Bool :=
  (f.readFeatures cv read).isOk

theorem buildStep_cases (cv : Conv) (read : Str → Py (List Str)) (s s' : DB × ℕ) (f : Frame)
    (h : buildStep cv read s f = .ok s') :
    (∃ feats, f.readFeatures cv read = .ok feats ∧
      s' = ((feats.foldl DB.addFeats s.1).addFrame f, s.2)) ∨
    ((f.readFeatures cv read = .error .ioError ∨
      f.readFeatures cv read = .error .wrongNumberOfFeatures) ∧ s' = (s.1, s.2 + 1)) := by
  unfold buildStep at h
  cases hr : f.readFeatures cv read with
  | ok feats =>
    rw [hr] at h
    left
    exact ⟨feats, rfl, (Except.ok.inj h).symm⟩
  | error e =>
    rw [hr] at h
    right
    cases e <;> simp only [] at h <;> first
      | cases h; done
      | exact ⟨Or.inl rfl, (Except.ok.inj h).symm⟩
      | exact ⟨Or.inr rfl, (Except.ok.inj h).symm⟩

theorem build_inv (cv : Conv) (read : Str → Py (List Str)) (frames : List Frame) :
    ∀ (s s' : DB × ℕ) (groups : List (List (List (List ℚ)))),
    s.1.histos = histosOf groups.flatten →
    List.Forall₂ (fun f g => f.readFeatures cv read = .ok g) s.1.frames groups →
    frames.foldlM (buildStep cv read) s = .ok s' →
    s'.1.frames = s.1.frames ++ frames.filter (readable cv read) ∧
    s'.2 + (frames.filter (readable cv read)).length = s.2 + frames.length ∧
    (∀ f ∈ frames, readable cv read f = false → f.readFeatures cv read = .error .ioError ∨
      f.readFeatures cv read = .error .wrongNumberOfFeatures) ∧
    ∃ groups', s'.1.histos = histosOf groups'.flatten ∧
      List.Forall₂ (fun f g => f.readFeatures cv read = .ok g) s'.1.frames groups' := by
  induction frames with
  | nil =>
    intro s s' groups hh hf h
    rw [List.foldlM_nil] at h
    obtain rfl := Except.ok.inj h
    exact ⟨by simp, by simp, by simp, groups, hh, hf⟩
  | cons f fs ih =>
    intro s s' groups hh hf h
    rw [List.foldlM_cons] at h
    cases hb : buildStep cv read s f with
    | error e => rw [hb] at h; cases h
    | ok s1 =>
      rw [hb] at h
      simp only [bind, Except.bind] at h
      rcases buildStep_cases cv read s s1 f hb with ⟨feats, hr, rfl⟩ | ⟨hr, rfl⟩
      · have hro : readable cv read f = true := by unfold readable; rw [hr]; rfl
        obtain ⟨_, _, _, _, hlen, _⟩ := readFeatures_ok hr
        obtain ⟨⟨fr, hi⟩, sk⟩ := s
        simp only [] at hh hf
        subst hh
        have hfold := foldl_addFeats feats fr groups.flatten hlen
        rw [hfold] at h
        have hrel : List.Forall₂ (fun f g => f.readFeatures cv read = .ok g) (fr ++ [f])
            (groups ++ [feats]) := List.rel_append hf (.cons hr .nil)
        obtain ⟨i1, i2, i3, i4⟩ := ih _ s' (groups ++ [feats])
          (by rw [List.flatten_append]; simp [DB.addFrame]) hrel h
        simp only [DB.addFrame] at i1 i2
        rw [List.filter_cons_of_pos hro]
        refine ⟨by rw [i1]; simp, by simp only [List.length_cons]; omega, ?_, i4⟩
        intro g hg hng
        rcases List.mem_cons.1 hg with rfl | hg
        · rw [hro] at hng; cases hng
        · exact i3 g hg hng
      · have hro : readable cv read f = false := by
          unfold readable; rcases hr with hr | hr <;> rw [hr] <;> rfl
        obtain ⟨i1, i2, i3, i4⟩ := ih (s.1, s.2 + 1) s' groups hh hf h
        rw [List.filter_cons_of_neg (by rw [hro]; simp)]
        simp only [] at i1 i2
        refine ⟨i1, by simp only [List.length_cons]; omega, ?_, i4⟩
        intro g hg hng
        rcases List.mem_cons.1 hg with rfl | hg
        · exact hr
        · exact i3 g hg hng

theorem groups_views {cv : Conv} {read : Str → Py (List Str)} {frames : List Frame}
    {groups : List (List (List (List ℚ)))}
    (h : List.Forall₂ (fun f g => f.readFeatures cv read = .ok g) frames groups) :
    groups.map List.length = frames.map fun f => f.views.length := by
  induction h with
  | nil => rfl
  | cons hr _ ih =>
    obtain ⟨_, _, _, hl, _⟩ := readFeatures_ok hr
    rw [List.map_cons, List.map_cons, ih, hl]

theorem histosOf_getElem? (feats : List (List (List ℚ))) (k : ℕ) (hk : k < 5) :
    (histosOf feats)[k]? = some ((feats.map fun v => v.getD k []).foldl LIL.addRow LIL.new) := by
  unfold histosOf
  rw [List.getElem?_map, show nbFeatures = 5 from rfl, List.getElem?_range hk]
  rfl

theorem histosOf_rows (feats : List (List (List ℚ))) : ∀ h ∈ histosOf feats,
    h.shape.1 = feats.length := by
  intro h hh
  unfold histosOf at hh
  obtain ⟨k, _, rfl⟩ := List.mem_map.1 hh
  cases feats with
  | nil => rfl
  | cons v vs =>
    rw [(C44_growing ((v :: vs).map fun v => v.getD k []) (by simp)).1, List.length_map]

/-- **C83.** In a database filled from a list of frames, the frames are those whose features can be
read, in order, the others being counted as skipped because of a missing file or of a wrong number
of features; there are five matrices, each having as many rows as there are views in total. -/
theorem C83_counts (cv : Conv) (read : Str → Py (List Str)) (frames : List Frame) (db : DB)
    (skipped : ℕ) (h : frames.foldlM (buildStep cv read) (DB.new, 0) = .ok (db, skipped)) :
    db.frames = frames.filter (fun f => (f.readFeatures cv read).isOk) ∧
    skipped + db.frames.length = frames.length ∧
    (∀ f ∈ frames, f ∉ db.frames → f.readFeatures cv read = .error .ioError ∨
      f.readFeatures cv read = .error .wrongNumberOfFeatures) ∧
    db.histos.length = 5 ∧
    ∀ m ∈ db.histos, m.shape.1 = (db.frames.map fun f => f.views.length).sum := by
  obtain ⟨i1, i2, i3, groups, i4, i5⟩ := build_inv cv read frames (DB.new, 0) (db, skipped) []
    rfl .nil h
  simp only [DB.new, List.nil_append] at i1 i2
  refine ⟨i1, by rw [i1]; omega, ?_, by rw [i4]; simp [histosOf, nbFeatures], ?_⟩
  · intro f hf hn
    apply i3 f hf
    by_contra hc
    exact hn (by rw [i1]; exact List.mem_filter.2 ⟨hf, by simpa using hc⟩)
  · intro m hm
    simp only [] at i4 i5
    rw [i4] at hm
    rw [histosOf_rows _ m hm, List.length_flatten, groups_views i5]

theorem flatten_getElem?_prefix {α : Type} : ∀ (l : List (List α)) (j v : ℕ) (g : List α),
    l[j]? = some g → v < g.length → l.flatten[((l.map List.length).take j).sum + v]? = g[v]? := by
  intro l
  induction l with
  | nil => intro j v g h; cases h
  | cons a l ih =>
    intro j v g h hv
    rw [List.flatten_cons]
    cases j with
    | zero =>
      rw [List.getElem?_cons_zero, Option.some.injEq] at h
      subst h
      rw [List.take_zero, List.sum_nil, Nat.zero_add, List.getElem?_append_left hv]
    | succ j =>
      rw [List.getElem?_cons_succ] at h
      rw [List.map_cons, List.take_succ_cons, List.sum_cons,
        List.getElem?_append_right (by omega), Nat.add_assoc, Nat.add_sub_cancel_left, ih j v g h hv]

/-- **C83.** The matrix of feature `k` holds, at the row of view `v` of frame `j`, the values read
for them (completed by zeros). -/
theorem C83_rows (cv : Conv) (read : Str → Py (List Str)) (frames : List Frame) (db : DB)
    (skipped : ℕ) (h : frames.foldlM (buildStep cv read) (DB.new, 0) = .ok (db, skipped))
    (k : ℕ) (hk : k < 5) :
    ∃ m, db.histos[k]? = some m ∧ ∀ (j v : ℕ) (f : Frame) (feats : List (List (List ℚ)))
      (view : List (List ℚ)) (values : List ℚ), db.frames[j]? = some f →
      f.readFeatures cv read = .ok feats → feats[v]? = some view → view[k]? = some values →
      ∀ c, m.get (((db.frames.map fun f => f.views.length).take j).sum + v) c
        = (values[c]?).getD 0 := by
  obtain ⟨i1, i2, i3, groups, i4, i5⟩ := build_inv cv read frames (DB.new, 0) (db, skipped) []
    rfl .nil h
  simp only [] at i4 i5
  refine ⟨_, by rw [i4]; exact histosOf_getElem? _ k hk, ?_⟩
  intro j v f feats view values hf hr hv hval c
  have hg : groups[j]? = some feats := by
    obtain ⟨hj, hfj⟩ := List.getElem?_eq_some_iff.1 hf
    have h2 := List.forall₂_iff_get.1 i5
    have hj' : j < groups.length := by rw [← h2.1]; exact hj
    have := h2.2 j hj hj'
    simp only [List.get_eq_getElem] at this
    rw [hfj, hr] at this
    rw [List.getElem?_eq_getElem hj', ← Except.ok.inj this]
  have hvl : v < feats.length := (List.getElem?_eq_some_iff.1 hv).1
  have hflat := flatten_getElem?_prefix groups j v feats hg hvl
  rw [groups_views i5, hv] at hflat
  have hne : (groups.flatten.map fun v => v.getD k []) ≠ [] := by
    intro hc
    rw [List.map_eq_nil_iff.1 hc] at hflat
    cases hflat
  apply (C44_growing _ hne).2.2
  rw [List.getElem?_map, hflat]
  simp only [Option.map_some, Option.some.injEq]
  rw [List.getD_eq_getElem?_getD, hval]
  rfl

theorem buildFrom_ok {cv : Conv} {read : Str → Py (List Str)} {lines : List Str} {db : DB}
    {skipped : ℕ} {byFrame : List Mat} (h : buildFrom cv read lines = .ok (db, skipped, byFrame)) :
    ∃ frames, List.Forall₂ (fun l f => fromLine cv l = .ok f)
        (lines.filter fun l => !allSpace l) frames ∧
      frames.foldlM (buildStep cv read) (DB.new, 0) = .ok (db, skipped) ∧
      List.Forall₂ (fun hi m => histosByFrame (db.frames.map fun f => f.views.length)
        (LIL.toMat hi) = .ok m) db.histos byFrame := by
  unfold buildFrom at h
  cases h1 : (lines.filter fun l => !allSpace l).mapM (fromLine cv) with
  | error e => rw [h1] at h; cases h
  | ok frames =>
    rw [h1] at h
    simp only [bind, Except.bind] at h
    cases h2 : frames.foldlM (buildStep cv read) (DB.new, 0) with
    | error e => rw [h2] at h; cases h
    | ok s =>
      rw [h2] at h
      simp only [] at h
      cases h3 : s.1.histos.mapM fun hi =>
          histosByFrame (s.1.frames.map fun f => f.views.length) (LIL.toMat hi) with
      | error e => rw [h3] at h; cases h
      | ok m =>
        rw [h3] at h
        simp only [pure, Except.pure] at h
        obtain ⟨e1, e2⟩ := Prod.mk.inj (Except.ok.inj h)
        obtain ⟨e2, e3⟩ := Prod.mk.inj e2
        obtain ⟨d, sk⟩ := s
        simp only [] at e1 e2
        subst e1 e2 e3
        exact ⟨frames, mapM_py_ok.1 h1, h2, mapM_py_ok.1 h3⟩

/-- **C82 and C83 together.** In a database built from files in which each kept frame has a view, the
row `j` of the matrix by frame of feature `k` is the average of the values read for the views of
frame `j`. -/
theorem C82_built (cv : Conv) (read : Str → Py (List Str)) (lines : List Str) (db : DB)
    (skipped : ℕ) (byFrame : List Mat) (h : buildFrom cv read lines = .ok (db, skipped, byFrame))
    (hpos : ∀ f ∈ db.frames, f.views ≠ []) (k : ℕ) (hk : k < 5) :
    ∃ m, byFrame[k]? = some m ∧ m.n1 = db.frames.length ∧
      ∀ (j : ℕ) (f : Frame), db.frames[j]? = some f → ∃ feats, f.readFeatures cv read = .ok feats ∧
        ∀ c, m.e j c = (feats.map fun view => ((view.getD k [])[c]?).getD 0).sum
          / (f.views.length : ℚ) := by
  obtain ⟨frames, _, hb, hm⟩ := buildFrom_ok h
  have hc := C83_counts cv read frames db skipped hb
  obtain ⟨mk, hmk, hrow⟩ := C83_rows cv read frames db skipped hb k hk
  have h2 := List.forall₂_iff_get.1 hm
  have hkl : k < db.histos.length := by rw [hc.2.2.2.1]; exact hk
  have hkb : k < byFrame.length := by rw [← h2.1]; exact hkl
  have hbf := h2.2 k hkl hkb
  simp only [List.get_eq_getElem] at hbf
  have hmk' : db.histos[k] = mk := by
    rw [List.getElem?_eq_getElem hkl] at hmk
    exact Option.some.inj hmk
  rw [hmk'] at hbf
  have hrows : (LIL.toMat mk).n1 = (db.frames.map fun f => f.views.length).sum :=
    hc.2.2.2.2 mk (List.mem_of_getElem? hmk)
  have hne : (db.frames.map fun f => f.views.length) ≠ [] := by
    intro hnil
    rw [hnil] at hbf
    cases hbf
  obtain ⟨m, hm1, hm2, _, hm4⟩ := C82_average _ (LIL.toMat mk) hne (by
    intro n hn
    obtain ⟨f, hf, rfl⟩ := List.mem_map.1 hn
    exact List.length_pos_iff.2 (hpos f hf)) hrows
  rw [hm1] at hbf
  have hmeq := Except.ok.inj hbf
  refine ⟨m, by rw [List.getElem?_eq_getElem hkb, ← hmeq], by rw [hm2, List.length_map], ?_⟩
  intro j f hf
  have hfm : f ∈ db.frames := List.mem_of_getElem? hf
  rw [hc.1] at hfm
  have hok := (List.mem_filter.1 hfm).2
  cases hr : f.readFeatures cv read with
  | error e => rw [hr] at hok; cases hok
  | ok feats =>
    refine ⟨feats, rfl, ?_⟩
    intro c
    obtain ⟨_, _, _, hlen, h5, _⟩ := readFeatures_ok hr
    rw [hm4 j f.views.length (by rw [List.getElem?_map, hf]; rfl) c, ← hlen]
    congr 2
    apply List.ext_getElem?
    intro v
    rw [List.getElem?_map, List.getElem?_map]
    by_cases hv : v < feats.length
    · rw [List.getElem?_range hv, List.getElem?_eq_getElem hv]
      simp only [Option.map_some, Option.some.injEq]
      have hk5 : k < feats[v].length := by
        rw [h5 _ (List.getElem_mem hv)]; exact hk
      have := hrow j v f feats feats[v] feats[v][k] hf hr (List.getElem?_eq_getElem hv)
        (List.getElem?_eq_getElem hk5) c
      rw [List.getD_eq_getElem?_getD, List.getElem?_eq_getElem hk5]
      exact this
    · rw [List.getElem?_eq_none (by simpa using hv), List.getElem?_eq_none (by simpa using hv)]
      rfl

/-- Feature files of an example: two views for the first frame, none readable for the second. -/
def exRead : Str → Py (List Str) := fun n =>
  if n = "a_o1_1.5".toList then .ok (List.replicate 5 "1\n".toList ++ List.replicate 5 "3\n".toList)
  else .error .ioError

/-- Non-vacuity: one frame is kept, one skipped, and the average of 1 and 3 is 2. -/
example : (buildFrom exConv exRead ["a_o1_1.5 |1|2\n".toList, "\n".toList,
    "b_o1_1.5 |1\n".toList]).toOption.map (fun r => (r.1.frames.length, r.2.1,
      r.2.2.map fun m => (m.n1, m.n2, m.e 0 0))) =
    some (1, 1, [(1, 1, 2), (1, 1, 2), (1, 1, 2), (1, 1, 2), (1, 1, 2)]) := by decide +kernel

end Verif.Objects
