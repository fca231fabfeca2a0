import Verif.Style.Model
import Mathlib.Tactic.Linarith
import Mathlib.Tactic.FieldSimp
import Mathlib.Data.List.Nodup

/-!
# Properties C172 and C173: axes, calls and colours of `lib/plot.py`
-/

namespace Verif.Style

/-! ### Axes -/

theorem hideAll_ok (l : List Str) : ∀ (ax : Axes), (∀ s ∈ l, s ∈ ALL_SPINES) →
    ∃ ax', hideAll ax l = (ax', .ok ()) ∧ ax'.x = ax.x ∧ ax'.y = ax.y ∧ ax'.grids = ax.grids ∧
      ∀ s, ax'.spine s = ⟨if s ∈ l then false else (ax.spine s).visible, (ax.spine s).width⟩ := by
  induction l with
  | nil => exact fun ax _ => ⟨ax, rfl, rfl, rfl, rfl, fun s => by simp⟩
  | cons a l ih =>
    intro ax h
    obtain ⟨ax', h1, h2, h3, h4, h5⟩ := ih (ax.hide a) fun s hs => h s (List.mem_cons_of_mem _ hs)
    refine ⟨ax', ?_, h2, h3, h4, ?_⟩
    · unfold hideAll
      rw [if_pos (h a List.mem_cons_self)]
      exact h1
    · intro s
      rw [h5]
      by_cases hs : s = a
      · subst hs
        simp [Axes.hide]
      · simp [Axes.hide, Function.update_of_ne hs, hs]

theorem foldl_position (l : List Str) : ∀ axis : Axis,
    l.foldl (fun axis p => { axis with position := p }) axis = { axis with position := l.getLast?.getD axis.position } := by
  induction l with
  | nil => intro axis; rfl
  | cons a l ih =>
    intro axis
    rw [List.foldl_cons, ih]
    rcases l with _ | ⟨b, l⟩
    · rfl
    · rw [List.getLast?_cons_cons, List.getLast?_cons]
      rfl

/-- Where tick marks of an axis are put: nowhere unless the scale is logarithmic; then by a spine which is kept,
if there is one. -/
def Marks (spines pos : List Str) (before after : Axis) : Prop :=
  after = { before with position := after.position } ∧
    (before.log = false → after.position = "none".toList) ∧
    (before.log = true →
      ((∀ p ∈ pos, p ∈ spines) → after.position = before.position) ∧
      ((∃ p ∈ pos, p ∉ spines) → after.position ∈ pos ∧ after.position ∉ spines))

theorem tickMarks_marks (order : List Str → List Str) (horder : ∀ l, (order l).Perm l) (spines pos : List Str)
    (axis : Axis) : Marks spines pos axis (tickMarks order spines pos axis) := by
  unfold tickMarks
  by_cases h : axis.log = true
  · rw [if_pos h, foldl_position]
    refine ⟨rfl, fun h' => (by rw [h] at h'; cases h'), fun _ => ⟨?_, ?_⟩⟩
    · intro hall
      have : pos.filter (fun p => p ∉ spines) = [] := by
        rw [List.filter_eq_nil_iff]
        intro p hp
        simp [hall p hp]
      rw [this, (horder []).eq_nil]
      rfl
    · rintro ⟨p, hp, hs⟩
      have hne : order (pos.filter fun p => p ∉ spines) ≠ [] := by
        intro h0
        have := (horder (pos.filter fun p => p ∉ spines)).symm
        rw [h0] at this
        have := this.eq_nil
        rw [List.filter_eq_nil_iff] at this
        exact this p hp (by simpa using hs)
      have hmem := List.getLast_mem hne
      rw [(horder _).mem_iff, List.mem_filter] at hmem
      rw [List.getLast?_eq_some_getLast hne]
      exact ⟨hmem.1, by simpa using hmem.2⟩
  · have h' : axis.log = false := by simpa using h
    rw [if_neg h]
    exact ⟨rfl, fun _ => rfl, fun h => by rw [h'] at h; cases h⟩

/-- What `remove_chartjunk` does to axes apart from grids. -/
structure Cleaned (spines : List Str) (before after : Axes) : Prop where
  visible : ∀ s, (after.spine s).visible = true ↔ (before.spine s).visible = true ∧ s ∉ spines
  width : ∀ s, (after.spine s).width = if s ∈ ALL_SPINES ∧ s ∉ spines then 1 / 2 else (before.spine s).width
  x : Marks spines ["top".toList, "bottom".toList] before.x after.x
  y : Marks spines ["left".toList, "right".toList] before.y after.y

theorem thinOthers_spine (spines : List Str) (ax : Axes) (s : Str) :
    (thinOthers spines ax).spine s =
      ⟨(ax.spine s).visible, if s ∈ ALL_SPINES ∧ s ∉ spines then 1 / 2 else (ax.spine s).width⟩ := by
  have gen : ∀ (l : List Str) (ax : Axes), (l.foldl (fun ax s => if s ∈ spines then ax else ax.thin s) ax).spine s =
      ⟨(ax.spine s).visible, if s ∈ l ∧ s ∉ spines then 1 / 2 else (ax.spine s).width⟩ := by
    intro l
    induction l with
    | nil => intro ax; simp
    | cons a l ih =>
      intro ax
      rw [List.foldl_cons, ih]
      by_cases ha : a ∈ spines
      · rw [if_pos ha]
        by_cases hs : s = a
        · subst hs
          simp [ha]
        · simp [hs]
      · rw [if_neg ha]
        by_cases hs : s = a
        · subst hs
          simp [Axes.thin, ha]
        · simp [Axes.thin, Function.update_of_ne hs, hs]
  exact gen ALL_SPINES ax

theorem thinOthers_rest (spines : List Str) (ax : Axes) : (thinOthers spines ax).x = ax.x ∧
    (thinOthers spines ax).y = ax.y ∧ (thinOthers spines ax).grids = ax.grids := by
  have gen : ∀ (l : List Str) (ax : Axes),
      (l.foldl (fun ax s => if s ∈ spines then ax else ax.thin s) ax).x = ax.x ∧
      (l.foldl (fun ax s => if s ∈ spines then ax else ax.thin s) ax).y = ax.y ∧
      (l.foldl (fun ax s => if s ∈ spines then ax else ax.thin s) ax).grids = ax.grids := by
    intro l
    induction l with
    | nil => exact fun ax => ⟨rfl, rfl, rfl⟩
    | cons a l ih =>
      intro ax
      rw [List.foldl_cons]
      obtain ⟨h1, h2, h3⟩ := ih (if a ∈ spines then ax else ax.thin a)
      rw [h1, h2, h3]
      split <;> exact ⟨rfl, rfl, rfl⟩
  exact gen ALL_SPINES ax

/-- **C172**: with names of spines, `remove_chartjunk` hides exactly the spines given, makes the others thin, and
removes tick marks of axes which are not logarithmic; marks of a logarithmic axis stay by a spine which is kept.
Ticks, labels and limits do not change.  A grid is asked for the axes given, made of `x` and `y`, and nothing
else is accepted.  With any value of `ticklabels` it raises `TypeError` when all this is done. -/
theorem C172_clean (order : List Str → List Str) (horder : ∀ l, (order l).Perm l) (ax : Axes) (spines : List Str)
    (hs : ∀ s ∈ spines, s ∈ ALL_SPINES) (grid : Option Str) (ticklabels : Option (List Str)) :
    Cleaned spines ax (removeChartjunk order ax spines grid ticklabels).1 ∧
    ((∃ g c, grid = some g ∧ c ∈ g ∧ c ≠ 'x' ∧ c ≠ 'y') →
      (removeChartjunk order ax spines grid ticklabels).2 = .error .assertionError ∧
      (removeChartjunk order ax spines grid ticklabels).1.grids = ax.grids) ∧
    ((∀ g c, grid = some g → c ∈ g → c = 'x' ∨ c = 'y') →
      (removeChartjunk order ax spines grid ticklabels).1.grids = ax.grids ++ grid.toList ∧
      (removeChartjunk order ax spines grid ticklabels).2 =
        if ticklabels = none then .ok () else .error .typeError) := by
  obtain ⟨ax1, h1, h2, h3, h4, h5⟩ := hideAll_ok spines ax hs
  obtain ⟨t1, t2, t3⟩ := thinOthers_rest spines ax1
  unfold removeChartjunk
  rw [h1]
  simp only [andThen]
  have hclean : ∀ g, Cleaned spines ax ⟨(thinOthers spines ax1).spine,
      tickMarks order spines ["top".toList, "bottom".toList] (thinOthers spines ax1).x,
      tickMarks order spines ["left".toList, "right".toList] (thinOthers spines ax1).y, g⟩ := by
    intro g
    refine ⟨?_, ?_, ?_, ?_⟩
    · intro s
      simp only []
      rw [thinOthers_spine, h5]
      by_cases h : s ∈ spines <;> simp [h]
    · intro s
      simp only []
      rw [thinOthers_spine, h5]
    · simp only []
      rw [t1, h2]
      exact tickMarks_marks order horder _ _ _
    · simp only []
      rw [t2, h3]
      exact tickMarks_marks order horder _ _ _
  rcases grid with _ | g
  · simp only [setGrid]
    rcases ticklabels with _ | l
    · refine ⟨hclean _, fun h => (by obtain ⟨_, _, h, _⟩ := h; cases h), fun _ => ⟨?_, rfl⟩⟩
      simp [removeLabels, t3, h4]
    · refine ⟨hclean _, fun h => (by obtain ⟨_, _, h, _⟩ := h; cases h), fun _ => ⟨?_, rfl⟩⟩
      simp [removeLabels, t3, h4]
  · simp only [setGrid]
    by_cases hg : (g.all fun c => c = 'x' || c = 'y') = true
    · rw [if_pos hg]
      have hno : ¬ ∃ g' c, some g = some g' ∧ c ∈ g' ∧ c ≠ 'x' ∧ c ≠ 'y' := by
        rintro ⟨g', c, h, hc, hx, hy⟩
        obtain rfl := Option.some.inj h
        rw [List.all_eq_true] at hg
        have := hg c hc
        simp [hx, hy] at this
      rcases ticklabels with _ | l
      · refine ⟨hclean _, fun h => absurd h hno, fun _ => ⟨?_, rfl⟩⟩
        simp [removeLabels, t3, h4]
      · refine ⟨hclean _, fun h => absurd h hno, fun _ => ⟨?_, rfl⟩⟩
        simp [removeLabels, t3, h4]
    · rw [if_neg hg]
      refine ⟨hclean _, fun _ => ⟨rfl, ?_⟩, fun h => absurd ?_ hg⟩
      · simp [t3, h4]
      · rw [List.all_eq_true]
        intro c hc
        rcases h g c rfl hc with rfl | rfl <;> simp

/-- **C172**: a name which is not that of a spine raises `KeyError` once the spines before have been hidden;
nothing else changes. -/
theorem C172_unknown (order : List Str → List Str) (ax : Axes) (l l' : List Str) (s : Str)
    (h : ∀ s ∈ l, s ∈ ALL_SPINES) (hs : s ∉ ALL_SPINES) (grid : Option Str) (ticklabels : Option (List Str)) :
    ∃ ax', removeChartjunk order ax (l ++ s :: l') grid ticklabels = (ax', .error .keyError) ∧ ax'.x = ax.x ∧
      ax'.y = ax.y ∧ ax'.grids = ax.grids ∧
      ∀ t, ax'.spine t = ⟨if t ∈ l then false else (ax.spine t).visible, (ax.spine t).width⟩ := by
  obtain ⟨ax', h1, h2⟩ := hideAll_ok l ax h
  refine ⟨ax', ?_, h2⟩
  have : hideAll ax (l ++ s :: l') = (ax', .error .keyError) := by
    clear h2
    induction l generalizing ax with
    | nil =>
      obtain rfl := congrArg Prod.fst h1
      simp [hideAll, hs]
    | cons a l ih =>
      have ha := h a List.mem_cons_self
      unfold hideAll at h1
      rw [if_pos ha] at h1
      show hideAll ax (a :: (l ++ s :: l')) = _
      unfold hideAll
      rw [if_pos ha]
      exact ih _ (fun t ht => h t (List.mem_cons_of_mem _ ht)) h1
  unfold removeChartjunk
  rw [this]
  rfl

/-- **C172**: labels of ticks are never removed. -/
theorem C172_labels (order : List Str → List Str) (horder : ∀ l, (order l).Perm l) (ax : Axes) (spines : List Str)
    (hs : ∀ s ∈ spines, s ∈ ALL_SPINES) (grid : Option Str) (ticklabels : Option (List Str)) :
    (removeChartjunk order ax spines grid ticklabels).1.x.labels = ax.x.labels ∧
    (removeChartjunk order ax spines grid ticklabels).1.y.labels = ax.y.labels := by
  have h := (C172_clean order horder ax spines hs grid ticklabels).1
  constructor
  · rw [h.x.1]
  · rw [h.y.1]

/-- **C172**: with the same spines a second call changes nothing, when at most one spine of each direction is
kept by logarithmic axes. -/
theorem C172_twice (order : List Str → List Str) (horder : ∀ l, (order l).Perm l) (ax : Axes) (spines : List Str)
    (hs : ∀ s ∈ spines, s ∈ ALL_SPINES)
    (hx : "top".toList ∈ spines ∨ "bottom".toList ∈ spines ∨ ax.x.log = false)
    (hy : "left".toList ∈ spines ∨ "right".toList ∈ spines ∨ ax.y.log = false) :
    (removeChartjunk order (removeChartjunk order ax spines none none).1 spines none none).1 =
      (removeChartjunk order ax spines none none).1 := by
  obtain ⟨h1, -, g1⟩ := C172_clean order horder ax spines hs none none
  obtain ⟨h2, -, g2⟩ := C172_clean order horder (removeChartjunk order ax spines none none).1 spines hs none none
  have g1 := (g1 (fun g c h => by cases h)).1
  have g2 := (g2 (fun g c h => by cases h)).1
  generalize (removeChartjunk order ax spines none none).1 = b at *
  generalize (removeChartjunk order b spines none none).1 = c at *
  have hm : ∀ (p q : Str) (u v w : Axis), p ∈ spines ∨ q ∈ spines ∨ u.log = false → Marks spines [p, q] u v →
      Marks spines [p, q] v w → w = v := by
    rintro p q u v w h ⟨m1, m2, m3⟩ ⟨n1, n2, n3⟩
    have hlog : v.log = u.log := by rw [m1]
    have : w.position = v.position := by
      rcases hl : u.log with _ | _
      · rw [m2 hl, n2 (hlog.trans hl)]
      · obtain ⟨a1, a2⟩ := m3 hl
        obtain ⟨b1, b2⟩ := n3 (hlog.trans hl)
        by_cases hall : ∀ r ∈ [p, q], r ∈ spines
        · exact b1 hall
        · push Not at hall
          obtain ⟨c1, c2⟩ := a2 hall
          obtain ⟨d1, d2⟩ := b2 hall
          rw [hl] at h
          simp only [List.mem_cons, List.not_mem_nil, or_false] at c1 d1
          rcases h with h | h | h
          · rcases c1 with c | c <;> rcases d1 with d | d
            · rw [c, d]
            · exact absurd (c ▸ h) c2
            · exact absurd (d ▸ h) d2
            · rw [c, d]
          · rcases c1 with c | c <;> rcases d1 with d | d
            · rw [c, d]
            · exact absurd (d ▸ h) d2
            · exact absurd (c ▸ h) c2
            · rw [c, d]
          · cases h
    rw [n1, this]
  have ex := hm _ _ _ _ _ hx h1.x h2.x
  have ey := hm _ _ _ _ _ hy h1.y h2.y
  have es : c.spine = b.spine := by
    funext s
    have v1 := h1.visible s
    have v2 := h2.visible s
    have w1 := h1.width s
    have w2 := h2.width s
    have hv : (c.spine s).visible = (b.spine s).visible := by
      rw [Bool.eq_iff_iff, v2, v1]
      tauto
    have hw : (c.spine s).width = (b.spine s).width := by
      rw [w2]
      split
      · rename_i h
        rw [w1, if_pos h]
      · rfl
    rcases hc : c.spine s with ⟨a1, a2⟩
    rcases hb : b.spine s with ⟨b1, b2⟩
    rw [hc, hb] at hv hw
    simp only at hv hw
    rw [hv, hw]
  have eg : c.grids = b.grids := by simpa using g2
  rcases c with ⟨c1, c2, c3, c4⟩
  rcases b with ⟨b1, b2, b3, b4⟩
  simp only at ex ey es eg
  rw [ex, ey, es, eg]

/-! ### Calls -/

variable {T : Type} [DecidableEq T]

/-- The axes asked for: those given by `key`, the current ones when it is missing or `None`. -/
def Asked (gca : T) (v : Option (Arg T)) (t : T) : Prop :=
  v = some (.target t) ∨ (v = none ∨ v = some .none) ∧ t = gca

theorem orCurrent_ok (gca : T) (v : Option (Arg T)) (t : T) : orCurrent gca v = .ok t ↔ Asked gca v t := by
  unfold orCurrent Asked
  split
  · simp [eq_comm]
  · simp [eq_comm]
  · simp [eq_comm]
  · rename_i a h1 h2
    rcases a with _ | _ | _ | _ | _ | _ | _ <;> simp_all

theorem get_filter (d : Dict Str (Arg T)) (k j : Str) :
    dictGet? (d.filter fun p => p.1 ≠ k) j = if j = k then none else dictGet? d j := by
  induction d with
  | nil => simp [dictGet?]
  | cons p d ih =>
    by_cases hp : p.1 = k
    · rw [List.filter_cons_of_neg (by simpa using hp), ih]
      by_cases hj : j = k
      · simp [hj]
      · rw [if_neg hj, if_neg hj]
        unfold dictGet?
        rw [List.find?_cons_of_neg (by
          simp only [decide_eq_true_eq, beq_iff_eq]
          rw [hp]
          exact fun h => hj h.symm)]
    · rw [List.filter_cons_of_pos (by simpa using hp)]
      by_cases hj : p.1 = j
      · unfold dictGet?
        rw [List.find?_cons_of_pos (by simpa using hj), List.find?_cons_of_pos (by simpa using hj),
          if_neg (by rw [← hj]; exact hp)]
      · unfold dictGet? at ih ⊢
        rw [List.find?_cons_of_neg (by simpa using hj), List.find?_cons_of_neg (by simpa using hj)]
        exact ih

theorem get_setDefault (d : Dict Str (Arg T)) (k j : Str) (v : Arg T) :
    dictGet? (setDefault d k v) j = if j = k then some ((dictGet? d k).getD v) else dictGet? d j := by
  unfold setDefault
  split
  · rename_i h
    by_cases hj : j = k
    · subst hj
      rw [if_pos rfl]
      obtain ⟨w, hw⟩ := Option.isSome_iff_exists.1 h
      rw [hw]
      rfl
    · rw [if_neg hj]
  · rename_i h
    rw [dictGet?_set]
    by_cases hj : j = k
    · subst hj
      simp only [if_true]
      rw [Option.not_isSome_iff_eq_none.1 h]
      rfl
    · rw [if_neg fun h => hj h.symm, if_neg hj]

theorem get_cons_ne (d : Dict Str (Arg T)) (j : Str) (v : Arg T) (k : Str) (h : k ≠ j) :
    dictGet? ((j, v) :: d) k = dictGet? d k := by
  unfold dictGet?
  rw [List.find?_cons_of_neg (by simpa using fun e => h e.symm)]

theorem get_pop (d : Dict Str (Arg T)) {A K : Str} (h : K ≠ A) (v : Arg T) (k : Str) :
    dictGet? (setDefault (d.filter fun p => p.1 ≠ A) K v) k =
      if k = A then none else if k = K then some ((dictGet? d K).getD v) else dictGet? d k := by
  rw [get_setDefault, get_filter, get_filter]
  by_cases h1 : k = A
  · subst h1
    simp [h.symm]
  · simp [h1, h]

theorem get_pop_two (d : Dict Str (Arg T)) {A B K : Str} (h : K ≠ A) (h' : K ≠ B) (v : Arg T) (k : Str) :
    dictGet? (setDefault ((d.filter fun p => p.1 ≠ B).filter fun p => p.1 ≠ A) K v) k =
      if k = A ∨ k = B then none else if k = K then some ((dictGet? d K).getD v) else dictGet? d k := by
  rw [get_setDefault, get_filter, get_filter, get_filter, get_filter]
  by_cases h1 : k = A
  · subst h1
    simp [h.symm]
  · by_cases h2 : k = B
    · subst h2
      simp [h'.symm, h1]
    · simp [h1, h2, h, h']

/-- **C173**: `plot` draws on the axes given, or on the current ones, with all arguments but `ax` and a default
for the width of lines; it hides the top and right spines of the same axes, and no other axes change. -/
theorem C173_plot (order : List Str → List Str) (horder : ∀ l, (order l).Perm l) (gca : T) (w : T → Axes)
    (kwargs : Dict Str (Arg T)) (t : T) (ht : Asked gca (dictGet? kwargs "ax".toList) t) :
    ∃ w' kw, plot order gca w kwargs = (w', .ok (t, kw)) ∧
      Cleaned ["top".toList, "right".toList] (w t) (w' t) ∧ (w' t).grids = (w t).grids ∧ (∀ u, u ≠ t → w' u = w u) ∧
      ∀ k, dictGet? kw k = if k = "ax".toList then none
        else if k = "linewidth".toList then some ((dictGet? kwargs "linewidth".toList).getD (.num (3 / 4)))
        else dictGet? kwargs k := by
  obtain ⟨h1, -, h2⟩ := C172_clean order horder (w t) ["top".toList, "right".toList] (by decide) none none
  obtain ⟨h2, h3⟩ := h2 (fun g c h => by cases h)
  unfold plot pop
  simp only []
  rw [(orCurrent_ok gca _ t).2 ht]
  simp only []
  rw [h3]
  refine ⟨_, _, rfl, ?_, ?_, ?_, ?_⟩
  · rw [Function.update_self]
    exact h1
  · rw [Function.update_self, h2]
    simp
  · intro u hu
    rw [Function.update_of_ne hu]
  · intro k
    exact get_pop kwargs (A := "ax".toList) (K := "linewidth".toList) (by decide) _ k

/-- **C173**: `legend` is called on the axes given, on the figure given when the key `ax` is missing (not when
it is `None`), or on the current axes; the legend is put at the best place by default.  Arguments which the
function sets itself are refused by `TypeError`. -/
theorem C173_legend (gca : T) (kwargs : Dict Str (Arg T)) (t : T)
    (ht : Asked gca (if dictGet? kwargs "ax".toList = none then dictGet? kwargs "fig".toList
      else dictGet? kwargs "ax".toList) t) :
    ((dictGet? kwargs "frameon".toList ≠ none ∨ dictGet? kwargs "scatterpoints".toList ≠ none) →
      legend gca kwargs = .error .typeError) ∧
    (dictGet? kwargs "frameon".toList = none → dictGet? kwargs "scatterpoints".toList = none →
      ∃ kw, legend gca kwargs = .ok (t, kw) ∧
        ∀ k, dictGet? kw k = if k = "ax".toList ∨ k = "fig".toList then none
          else if k = "frameon".toList then some (.flag true)
          else if k = "scatterpoints".toList then some (.num 1)
          else if k = "loc".toList then some ((dictGet? kwargs "loc".toList).getD (.str "best".toList))
          else dictGet? kwargs k) := by
  have hk : ∀ k, dictGet? (setDefault ((kwargs.filter fun p => p.1 ≠ "fig".toList).filter fun p =>
      p.1 ≠ "ax".toList) "loc".toList (Arg.str (T := T) "best".toList)) k =
      if k = "ax".toList ∨ k = "fig".toList then none
      else if k = "loc".toList then some ((dictGet? kwargs "loc".toList).getD (.str "best".toList))
      else dictGet? kwargs k := by
    intro k
    exact get_pop_two kwargs (by decide) (by decide) _ k
  have hget : orCurrent gca (if (dictGet? (kwargs.filter fun p => p.1 ≠ "fig".toList) "ax".toList).isSome = true
      then dictGet? (kwargs.filter fun p => p.1 ≠ "fig".toList) "ax".toList else dictGet? kwargs "fig".toList) = .ok t := by
    have e : dictGet? (kwargs.filter fun p => p.1 ≠ "fig".toList) "ax".toList = dictGet? kwargs "ax".toList := by
      rw [get_filter]
      exact if_neg (by decide)
    rw [orCurrent_ok, e]
    convert ht using 1
    rcases dictGet? kwargs "ax".toList with _ | v <;> rfl
  have hf := hk "frameon".toList
  rw [if_neg (by decide), if_neg (by decide)] at hf
  have hsc := hk "scatterpoints".toList
  rw [if_neg (by decide), if_neg (by decide)] at hsc
  unfold legend pop
  simp only []
  rw [hget]
  simp only [bind, Except.bind]
  rw [hf, hsc]
  constructor
  · intro h
    rw [if_pos]
    rcases h with h | h
    · rw [Option.isSome_iff_ne_none.2 h]
      rfl
    · rw [Option.isSome_iff_ne_none.2 h, Bool.or_true]
  · intro h1 h2
    rw [h1, h2]
    refine ⟨_, rfl, fun k => ?_⟩
    by_cases e1 : k = "frameon".toList
    · subst e1
      rw [if_neg (by decide), if_pos rfl]
      rfl
    · by_cases e2 : k = "scatterpoints".toList
      · subst e2
        rw [if_neg (by decide), if_neg (by decide), if_pos rfl]
        rfl
      · rw [if_neg e1, if_neg e2, ← hk k]
        exact (get_cons_ne _ _ _ _ e1).trans (get_cons_ne _ _ _ _ e2)

/-- **C173**: `boxplot` draws on the axes given, or on the current ones, with all arguments but `ax` and
`xticklabels` and a default for the width of boxes; labels of the horizontal axis are replaced exactly when they are
given (an empty list removes them); only the left spine is kept. -/
theorem C173_boxplot (order : List Str → List Str) (horder : ∀ l, (order l).Perm l) (gca : T) (w : T → Axes)
    (kwargs : Dict Str (Arg T)) (t : T) (ht : Asked gca (dictGet? kwargs "ax".toList) t)
    (lab : Option (List Str)) (hlab : dictGet? kwargs "xticklabels".toList = lab.map Arg.labels ∨
      lab = none ∧ dictGet? kwargs "xticklabels".toList = some .none) :
    ∃ w' kw, boxplot order gca w kwargs = (w', .ok (t, kw)) ∧ (∀ u, u ≠ t → w' u = w u) ∧
      Cleaned ["top".toList, "right".toList, "bottom".toList]
        { w t with x := { (w t).x with labels := lab.getD (w t).x.labels } } (w' t) ∧
      ∀ k, dictGet? kw k = if k = "ax".toList ∨ k = "xticklabels".toList then none
        else if k = "widths".toList then some ((dictGet? kwargs "widths".toList).getD (.num (3 / 20)))
        else dictGet? kwargs k := by
  have hset : setLabels (dictGet? (kwargs.filter fun p => p.1 ≠ "ax".toList) "xticklabels".toList) (w t).x =
      .ok { (w t).x with labels := lab.getD (w t).x.labels } := by
    rw [get_filter, if_neg (by decide)]
    rcases hlab with h | ⟨rfl, h⟩
    · rw [h]
      rcases lab with _ | l <;> rfl
    · rw [h]
      rfl
  obtain ⟨h1, -, h2⟩ := C172_clean order horder { w t with x := { (w t).x with labels := lab.getD (w t).x.labels } }
    ["top".toList, "right".toList, "bottom".toList] (by decide) none none
  obtain ⟨h2, h3⟩ := h2 (fun g c h => by cases h)
  rw [if_pos rfl] at h3
  unfold boxplot pop
  simp only []
  rw [(orCurrent_ok gca _ t).2 ht]
  simp only []
  rw [hset]
  simp only []
  rw [h3, if_pos rfl]
  refine ⟨_, _, rfl, ?_, ?_, ?_⟩
  · intro u hu
    rw [Function.update_of_ne hu]
  · rw [Function.update_self]
    refine ⟨?_, ?_, h1.x, h1.y⟩
    · intro s
      rw [← h1.visible s]
      unfold Axes.thin
      simp only []
      by_cases hs : s = "left".toList
      · subst hs
        rw [Function.update_self]
      · rw [Function.update_of_ne hs]
    · intro s
      rw [← h1.width s]
      unfold Axes.thin
      simp only []
      by_cases hs : s = "left".toList
      · subst hs
        rw [Function.update_self, h1.width, if_pos (by decide)]
      · rw [Function.update_of_ne hs]
  · intro k
    rw [get_pop_two kwargs (by decide) (by decide) _ k]
    exact if_congr (or_comm) rfl rfl

/-- **C173**: default colour maps. -/
theorem C173_cmap (x : List (List ℚ)) :
    (cmapFromData x = .reds ↔ ∀ r ∈ x, ∀ v ∈ r, 0 ≤ v) ∧
    (cmapFromData x = .blues ↔ (∀ r ∈ x, ∀ v ∈ r, v ≤ 0) ∧ ∃ r ∈ x, ∃ v ∈ r, v < 0) ∧
    (cmapFromData x = .bluesR ↔ (∃ r ∈ x, ∃ v ∈ r, 0 < v) ∧ ∃ r ∈ x, ∃ v ∈ r, v < 0) := by
  have hp : (x.all fun r => r.all fun v => decide (0 ≤ v)) = true ↔ ∀ r ∈ x, ∀ v ∈ r, 0 ≤ v := by simp
  have hn : (x.all fun r => r.all fun v => decide (v ≤ 0)) = true ↔ ∀ r ∈ x, ∀ v ∈ r, v ≤ 0 := by simp
  have hp' : ¬ (∀ r ∈ x, ∀ v ∈ r, 0 ≤ v) ↔ ∃ r ∈ x, ∃ v ∈ r, v < 0 := by push Not; rfl
  have hn' : ¬ (∀ r ∈ x, ∀ v ∈ r, v ≤ 0) ↔ ∃ r ∈ x, ∃ v ∈ r, 0 < v := by push Not; rfl
  rw [← hp', ← hn']
  unfold cmapFromData
  rw [← hp, ← hn]
  by_cases h1 : (x.all fun r => r.all fun v => decide (0 ≤ v)) = true
  · rw [if_pos h1]
    simp [h1]
  · rw [if_neg h1]
    by_cases h2 : (x.all fun r => r.all fun v => decide (v ≤ 0)) = true
    · rw [if_pos h2]
      simp [h1, h2]
    · rw [if_neg h2]
      simp [h1, h2]

theorem arange_centers (n : ℕ) : arange (1 / 2) (n + 1 / 2) = (List.range n).map fun i : ℕ => (i : ℚ) + 1 / 2 := by
  unfold arange
  rw [show ((n : ℚ) + 1 / 2 - 1 / 2) = n by ring, Int.ceil_natCast, Int.toNat_natCast]
  apply List.map_congr_left
  intro i _
  ring

/-- The ticks of `n` cells: unchanged without labels, at the middle of each cell otherwise. -/
def Ticks (n : ℕ) (lab : Option (List Str)) (before after : Axis) : Prop :=
  match lab with
  | none => after.ticks = before.ticks ∧ after.labels = before.labels
  | some [] => after.ticks = before.ticks ∧ after.labels = before.labels
  | some l => after.labels = l ∧ after.ticks.length = n ∧ ∀ i < n, after.ticks[i]? = some (((i : ℚ) + (i + 1)) / 2)

omit [DecidableEq T] in
theorem setTicks_ticks (n : ℕ) (axis : Axis) (v : Option (Arg T)) (lab : Option (List Str))
    (hlab : v = lab.map Arg.labels ∨ lab = none ∧ v = some .none) :
    ∃ l, trueLabels v = .ok l ∧ Ticks n lab axis (setTicks n axis l) ∧ (setTicks n axis l).position = axis.position ∧
      (setTicks n axis l).log = axis.log := by
  rcases hlab with rfl | ⟨rfl, rfl⟩
  · rcases lab with _ | _ | ⟨a, l⟩
    · exact ⟨none, rfl, ⟨rfl, rfl⟩, rfl, rfl⟩
    · exact ⟨none, rfl, ⟨rfl, rfl⟩, rfl, rfl⟩
    · refine ⟨some (a :: l), rfl, ⟨rfl, ?_, ?_⟩, rfl, rfl⟩
      · show (arange (1 / 2) (n + 1 / 2)).length = n
        rw [arange_centers, List.length_map, List.length_range]
      · intro i hi
        show (arange (1 / 2) (n + 1 / 2))[i]? = _
        rw [arange_centers, List.getElem?_map, List.getElem?_range hi]
        simp only [Option.map_some, Option.some.injEq]
        ring
  · exact ⟨none, rfl, ⟨rfl, rfl⟩, rfl, rfl⟩

theorem nested_if {α : Type} (k a b c : Str) (r : Option α) :
    (if k = c then none else if k = b then none else if k = a then none else r) =
      if k = a ∨ k = b ∨ k = c then none else r := by
  by_cases h1 : k = a
  · simp [h1]
  · by_cases h2 : k = b
    · simp [h2]
    · simp [h1, h2]

theorem spines_perm (s : Str) (h : s ∈ ALL_SPINES) :
    s ∈ ["top".toList, "right".toList, "bottom".toList, "left".toList] := by
  unfold ALL_SPINES at h
  generalize "top".toList = a at *
  generalize "right".toList = b at *
  generalize "bottom".toList = c at *
  generalize "left".toList = d at *
  simp only [List.mem_cons, List.not_mem_nil, or_false] at h ⊢
  tauto

/-- **C173**: `pcolormesh` draws on the axes given, or on the current ones, with all arguments but `ax` and labels
and a default colour map from the data; the cell of column `j` and line `i` is between `j` and `j + 1`, `i` and
`i + 1`: labels which are given are put at the middle of cells, limits are those of the matrix, no spine is kept. -/
theorem C173_pcolormesh (order : List Str → List Str) (horder : ∀ l, (order l).Perm l) (gca : T) (w : T → Axes)
    (x : List (List ℚ)) (cols : ℕ) (kwargs : Dict Str (Arg T)) (t : T)
    (ht : Asked gca (dictGet? kwargs "ax".toList) t) (labX labY : Option (List Str))
    (hx : dictGet? kwargs "xticklabels".toList = labX.map Arg.labels ∨
      labX = none ∧ dictGet? kwargs "xticklabels".toList = some .none)
    (hy : dictGet? kwargs "yticklabels".toList = labY.map Arg.labels ∨
      labY = none ∧ dictGet? kwargs "yticklabels".toList = some .none) :
    ∃ w' kw, pcolormesh order gca w x cols kwargs = (w', .ok (t, kw)) ∧ (∀ u, u ≠ t → w' u = w u) ∧
      (∀ s ∈ ALL_SPINES, ((w' t).spine s).visible = false) ∧
      Ticks cols labX (w t).x (w' t).x ∧ Ticks x.length labY (w t).y (w' t).y ∧
      (w' t).x.lim = (0, (cols : ℚ)) ∧ (w' t).y.lim = (0, (x.length : ℚ)) ∧
      ((w t).x.log = false → (w' t).x.position = "none".toList) ∧
      ((w t).y.log = false → (w' t).y.position = "none".toList) ∧
      ∀ k, dictGet? kw k = if k = "ax".toList ∨ k = "xticklabels".toList ∨ k = "yticklabels".toList then none
        else if k = "cmap".toList then some ((dictGet? kwargs "cmap".toList).getD (.cmap (cmapFromData x)))
        else dictGet? kwargs k := by
  obtain ⟨h1, -, h2⟩ := C172_clean order horder (w t)
    ["top".toList, "right".toList, "bottom".toList, "left".toList] (by decide) none none
  obtain ⟨h2, h3⟩ := h2 (fun g c h => by cases h)
  rw [if_pos rfl] at h3
  have ex : dictGet? (setDefault (kwargs.filter fun p => p.1 ≠ "ax".toList) "cmap".toList
      (.cmap (cmapFromData x))) "xticklabels".toList = dictGet? kwargs "xticklabels".toList := by
    rw [get_setDefault, if_neg (by decide), get_filter, if_neg (by decide)]
  have ey : dictGet? ((setDefault (kwargs.filter fun p => p.1 ≠ "ax".toList) "cmap".toList
      (.cmap (cmapFromData x))).filter fun p => p.1 ≠ "xticklabels".toList) "yticklabels".toList =
        dictGet? kwargs "yticklabels".toList := by
    rw [get_filter, if_neg (by decide), get_setDefault, if_neg (by decide), get_filter, if_neg (by decide)]
  obtain ⟨lx, a1, a2, a3, a4⟩ := setTicks_ticks cols
    (removeChartjunk order (w t) ["top".toList, "right".toList, "bottom".toList, "left".toList] none none).1.x _ labX hx
  obtain ⟨ly, b1, b2, b3, b4⟩ := setTicks_ticks x.length
    (removeChartjunk order (w t) ["top".toList, "right".toList, "bottom".toList, "left".toList] none none).1.y _ labY hy
  have keep : ∀ (n : ℕ) (lab : Option (List Str)) (u v z : Axis), v = { u with position := v.position } →
      Ticks n lab v z → Ticks n lab u z := by
    intro n lab u v z h h'
    have e1 : v.ticks = u.ticks := by rw [h]
    have e2 : v.labels = u.labels := by rw [h]
    rcases lab with _ | _ | ⟨a, l⟩
    · exact ⟨h'.1.trans e1, h'.2.trans e2⟩
    · exact ⟨h'.1.trans e1, h'.2.trans e2⟩
    · exact h'
  have lim : ∀ (n : ℕ) (lab : Option (List Str)) (u z : Axis) (m : ℚ × ℚ), Ticks n lab u z →
      Ticks n lab u { z with lim := m } := by
    intro n lab u z m h
    rcases lab with _ | _ | ⟨a, l⟩ <;> exact h
  unfold pcolormesh pop
  simp only []
  rw [(orCurrent_ok gca _ t).2 ht]
  simp only []
  rw [h3, ex, a1]
  simp only []
  rw [ey, b1]
  simp only []
  refine ⟨_, _, rfl, ?_, ?_, ?_, ?_, ?_, ?_, ?_, ?_, ?_⟩
  · intro u hu
    rw [Function.update_of_ne hu]
  · intro s hs
    rw [Function.update_self]
    have hv := h1.visible s
    rw [← Bool.not_eq_true]
    exact fun h => (hv.1 h).2 (spines_perm s hs)
  · rw [Function.update_self]
    exact lim _ _ _ _ _ (keep _ _ _ _ _ h1.x.1 a2)
  · rw [Function.update_self]
    exact lim _ _ _ _ _ (keep _ _ _ _ _ h1.y.1 b2)
  · rw [Function.update_self]
  · rw [Function.update_self]
  · intro h
    rw [Function.update_self]
    exact a3.trans (h1.x.2.1 h)
  · intro h
    rw [Function.update_self]
    exact b3.trans (h1.y.2.1 h)
  · intro k
    rw [get_filter, get_filter, get_pop kwargs (A := "ax".toList) (K := "cmap".toList) (by decide) _ k]
    exact nested_if _ _ _ _ _

/-- **C173**: `get_n_colors` gives `n` colours, taken at equal distances from the start of the map, the end not
included; they are all different when the map has no colour twice. -/
theorem C173_colors {α : Type} (n : ℕ) (cmap : ℚ → α) :
    (getNColors n cmap).length = n ∧
    (∀ i < n, ∃ q : ℚ, q * n = i ∧ 0 ≤ q ∧ q < 1 ∧ (getNColors n cmap)[i]? = some (cmap q)) ∧
    ((∀ p q, 0 ≤ p → p < 1 → 0 ≤ q → q < 1 → cmap p = cmap q → p = q) → (getNColors n cmap).Nodup) := by
  unfold getNColors
  refine ⟨by rw [List.length_map, List.length_range], ?_, ?_⟩
  · intro i hi
    have hn : (0 : ℚ) < n := by exact_mod_cast (Nat.zero_le i).trans_lt hi
    refine ⟨(i : ℚ) / n, div_mul_cancel₀ _ hn.ne', by positivity, ?_, ?_⟩
    · rw [div_lt_one hn]
      exact_mod_cast hi
    · rw [List.getElem?_map, List.getElem?_range hi]
      rfl
  · intro hinj
    refine (List.nodup_map_iff_inj_on List.nodup_range).2 ?_
    intro i hi j hj h
    rw [List.mem_range] at hi hj
    have hn : (0 : ℚ) < n := by exact_mod_cast (Nat.zero_le i).trans_lt hi
    have := hinj _ _ (by positivity) (by rw [div_lt_one hn]; exact_mod_cast hi) (by positivity)
      (by rw [div_lt_one hn]; exact_mod_cast hj) h
    rw [div_left_inj' hn.ne'] at this
    exact_mod_cast this

/-! ### Concrete cases -/

/-- Axes with all spines, a linear and a logarithmic axis. -/
def exAxes : Axes :=
  ⟨fun _ => ⟨true, 1⟩, ⟨false, "both".toList, [0, 10], ["0".toList, "10".toList], (0, 10)⟩,
    ⟨true, "both".toList, [1, 10], [], (1, 10)⟩, []⟩

/-- Spines and marks of two axes; a grid; labels which are not removed. -/
example :
    let r := removeChartjunk (fun l => l) exAxes ["top".toList, "right".toList] (some "y".toList) none
    (r.2 = .ok () ∧ (r.1.spine "top".toList) = ⟨false, 1⟩ ∧ (r.1.spine "left".toList) = ⟨true, 1 / 2⟩ ∧
      r.1.x.position = "none".toList ∧ r.1.y.position = "left".toList ∧ r.1.grids = ["y".toList]) ∧
    (removeChartjunk (fun l => l) exAxes ["top".toList] none (some ["x".toList])).2 = .error .typeError ∧
    (removeChartjunk (fun l => l) exAxes ["top".toList] none (some ["x".toList])).1.x.labels = exAxes.x.labels ∧
    (removeChartjunk (fun l => l) exAxes ["top".toList] (some "both".toList) none).2 = .error .assertionError ∧
    (removeChartjunk (fun l => l) exAxes ["top".toList, "up".toList] none none).2 = .error .keyError := by
  decide +kernel

/-- With both spines of a logarithmic axis kept, the position of marks depends on the order of a set. -/
example : (removeChartjunk (fun l => l) exAxes [] none none).1.y.position = "right".toList ∧
    (removeChartjunk List.reverse exAxes [] none none).1.y.position = "left".toList := by
  decide +kernel

/-- Legends on axes, on a figure, and on the current axes although a figure is given. -/
example : (legend (T := ℕ) 0 [("ax".toList, .target 1), ("fig".toList, .target 2)]).map Prod.fst = .ok 1 ∧
    (legend (T := ℕ) 0 [("fig".toList, .target 2), ("loc".toList, .num 3)]).map Prod.fst = .ok 2 ∧
    (legend (T := ℕ) 0 [("ax".toList, .none), ("fig".toList, .target 2)]).map Prod.fst = .ok 0 ∧
    legend (T := ℕ) 0 [("frameon".toList, .flag false)] = .error .typeError := by
  decide +kernel

/-- A matrix with labels of columns. -/
example :
    let r := pcolormesh (T := ℕ) (fun l => l) 0 (fun _ => exAxes) [[1, -2, 0], [3, 4, 5]] 3
      [("xticklabels".toList, .labels ["a".toList, "b".toList, "c".toList]), ("alpha".toList, .num 1)]
    r.2 = .ok (0, [("alpha".toList, .num 1), ("cmap".toList, .cmap .bluesR)]) ∧
      (r.1 0).x.ticks = [1 / 2, 3 / 2, 5 / 2] ∧ (r.1 0).x.lim = (0, 3) ∧ (r.1 0).y.ticks = [1, 10] ∧
      (r.1 0).y.lim = (0, 2) ∧ (r.1 1).x.lim = (0, 10) := by
  decide +kernel

/-- Boxes on given axes, without labels. -/
example :
    let r := boxplot (T := ℕ) (fun l => l) 0 (fun _ => exAxes)
      [("ax".toList, .target 4), ("xticklabels".toList, .labels [])]
    r.2 = .ok (4, [("widths".toList, .num (3 / 20))]) ∧ (r.1 4).x.labels = [] ∧
      (r.1 0).x.labels = ["0".toList, "10".toList] ∧ (r.1 4).spine "bottom".toList = ⟨false, 1⟩ := by
  decide +kernel

example : getNColors 4 (fun q => q) = [0, 1 / 4, 1 / 2, 3 / 4] := by decide +kernel

end Verif.Style
