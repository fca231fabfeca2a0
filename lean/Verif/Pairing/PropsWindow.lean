import Verif.Pairing.Props

/-!
# Property C22: `associate_to_window`
-/

namespace Verif.Pairing

open Verif Verif.Window

/-- Specification: `x` is the label at time `t`: that of the first window not ending before `t`. -/
def LabelAt {α : Type} (c : Concat α ℤ) (t : ℚ) (x : ℤ) : Prop :=
  ∃ pre w post, c.windows = pre ++ .basic w :: post ∧ (∀ v ∈ pre, v.stop < t) ∧
    w.start ≤ t ∧ t ≤ w.stop ∧ w.obj = x

theorem popAt_nonneg {ι : Type} (b : List (List ι)) (v : ℕ) :
    (b.getD v [] = [] → popAt b v = none) ∧
    (∀ l o, b.getD v [] = l ++ [o] → popAt b v = some (o, b.set v l) ∧ v < b.length) := by
  unfold popAt
  rw [List.getD_eq_getElem?_getD]
  rcases lt_or_ge v b.length with h | h
  · have hi : pyIndex b.length (v : ℤ) = some v := pyIndex_eq_some_iff.mpr ⟨h, Or.inl rfl⟩
    rw [hi, List.getElem?_eq_getElem h]
    simp only [Option.getD_some]
    constructor
    · intro e
      simp [e, h]
    · intro l o e
      simp [e, h]
  · have hi : pyIndex b.length (v : ℤ) = none := pyIndex_eq_none_iff.mpr (Or.inr (by omega))
    rw [hi, List.getElem?_eq_none_iff.mpr h]
    simp

theorem getD_set {ι : Type} (b : List (List ι)) (v w : ℕ) (l : List ι) (h : v < b.length) :
    (b.set v l).getD w [] = if v = w then l else b.getD w [] := by
  rw [List.getD_eq_getElem?_getD, List.getElem?_set, List.getD_eq_getElem?_getD]
  by_cases hvw : v = w
  · subst hvw; simp [h]
  · simp [hvw]

/-- The loop over the frames, given the list of the labels found. -/
theorem assignFrames_spec {α ι : Type} (c : Concat α ℤ) (fs : List (Win α (Option ι)))
    (labs : List ℕ) (b : List (List ι))
    (h : List.Forall₂ (fun (f : Win α (Option ι)) (x : ℕ) =>
      ∃ w, c.getSubAt f.start = .ok w ∧ winObj w = .ok (x : ℤ)) fs labs) :
    ((∃ v, (b.getD v []).length < labs.count v) →
      assignFrames c b fs = .error .valueError) ∧
    ((∀ v, labs.count v ≤ (b.getD v []).length) →
      ∃ objs, objs.length = labs.length ∧
        assignFrames c b fs = .ok (List.zipWith setObj objs fs) ∧
        ∀ v : ℕ, ∃ rest, (((objs.zip labs).filter fun p => decide (p.2 = v)).map Prod.fst ++
          rest).Perm (b.getD v [])) := by
  induction h generalizing b with
  | nil =>
    constructor
    · rintro ⟨v, hv⟩; simp at hv
    · intro _
      exact ⟨[], rfl, rfl, fun v => ⟨b.getD v [], by simp⟩⟩
  | @cons f x fs labs hfx _ ih =>
    obtain ⟨w, hw1, hw2⟩ := hfx
    obtain ⟨p1, p2⟩ := popAt_nonneg b x
    have hstep : assignFrames c b (f :: fs) = match popAt b x with
        | none => .error .valueError
        | some (o, b') => (assignFrames c b' fs).bind fun rest => .ok (setObj o f :: rest) := by
      rw [assignFrames, hw1]
      simp only [bind, Except.bind]
      rw [hw2]
      rfl
    rw [hstep]
    rcases List.eq_nil_or_concat (b.getD x []) with he | ⟨l, o, he⟩
    · rw [p1 he]
      constructor
      · intro _; rfl
      · intro hc
        have := hc x
        rw [he] at this
        simp at this
    · rw [List.concat_eq_append] at he
      obtain ⟨e1, e2⟩ := p2 l o he
      rw [e1]
      simp only []
      obtain ⟨ih1, ih2⟩ := ih (b.set x l)
      constructor
      · rintro ⟨v, hv⟩
        rw [ih1]
        · rfl
        · refine ⟨v, ?_⟩
          rw [getD_set _ _ _ _ e2]
          by_cases hxv : x = v
          · subst hxv
            rw [if_pos rfl]
            rw [he, List.length_append, List.count_cons_self] at hv
            simpa using hv
          · rw [if_neg hxv]
            rwa [List.count_cons_of_ne hxv] at hv
      · intro hc
        obtain ⟨objs, o1, o2, o3⟩ := ih2 (by
          intro v
          have hv := hc v
          rw [getD_set _ _ _ _ e2]
          by_cases hxv : x = v
          · subst hxv
            rw [if_pos rfl]
            rw [he, List.length_append, List.count_cons_self] at hv
            simpa using hv
          · rw [if_neg hxv]
            rwa [List.count_cons_of_ne hxv] at hv)
        refine ⟨o :: objs, by simp [o1], by rw [o2]; rfl, ?_⟩
        intro v
        obtain ⟨rest, hr⟩ := o3 v
        refine ⟨rest, ?_⟩
        rw [getD_set _ _ _ _ e2] at hr
        rw [List.zip_cons_cons, List.filter_cons]
        by_cases hxv : x = v
        · subst hxv
          rw [if_pos rfl] at hr
          rw [if_pos (by simp), List.map_cons, he]
          exact (List.Perm.cons o hr).trans (List.perm_append_singleton o l).symm
        · rw [if_neg hxv] at hr
          rw [if_neg (by simpa using hxv)]
          exact hr

theorem winObj_of_label {α : Type} (c : Concat α ℤ) (s e t : ℚ) (h : Aligned c.windows)
    (hd : ∀ w ∈ c.windows, w.start ≤ w.stop)
    (hb : ∀ w ∈ c.windows, ∃ x, w = Win.basic x ∧ 0 ≤ x.obj)
    (hs : c.start = .ok s) (he : c.stop = .ok e) (h1 : s ≤ t) (h2 : t ≤ e) :
    ∃ x : ℕ, LabelAt c t x ∧ ∃ w, c.getSubAt t = .ok w ∧ winObj w = .ok (x : ℤ) := by
  obtain ⟨pre, w, post, e1, e2, e3, e4, e5⟩ := (C12_lookup c s e t h hd hs he).2 ⟨h1, h2⟩
  obtain ⟨x, rfl, hx⟩ := hb w (by rw [e1]; simp)
  have hxx : ((x.obj.toNat : ℕ) : ℤ) = x.obj := Int.toNat_of_nonneg hx
  exact ⟨x.obj.toNat, ⟨pre, x, post, e1, e3, e4, e5, hxx.symm⟩, _, e2, by rw [hxx]; rfl⟩

theorem Aligned_stop_le {α β : Type} (c : Concat α β) (e : ℚ) (h : Aligned c.windows)
    (hd : ∀ w ∈ c.windows, w.start ≤ w.stop) (he : c.stop = .ok e) :
    ∀ w ∈ c.windows, w.stop ≤ e := by
  intro w hw
  rcases List.eq_nil_or_concat c.windows with hn | ⟨l, v, hv⟩
  · rw [hn] at hw; simp at hw
  · rw [List.concat_eq_append] at hv
    have hev : v.stop = e := by
      have : c = ⟨l ++ [v]⟩ := by cases c; simp_all
      rw [this, Concat.stop_append] at he
      exact Except.ok.inj he
    have hp := h.ends_sorted hd
    unfold Concat.ends at hp
    rw [hv, List.map_append, List.map_cons, List.map_nil, List.pairwise_append] at hp
    rw [hv, List.mem_append] at hw
    rcases hw with hw | hw
    · rw [← hev]
      exact hp.2.2 _ (List.mem_map_of_mem hw) _ (by simp)
    · rw [List.mem_singleton] at hw
      rw [hw, hev]

theorem forall₂_exists {A B : Type} (P : A → B → Prop) (l : List A) (h : ∀ a ∈ l, ∃ b, P a b) :
    ∃ l', List.Forall₂ P l l' := by
  induction l with
  | nil => exact ⟨[], List.Forall₂.nil⟩
  | cons a l ih =>
    obtain ⟨b, hb⟩ := h a List.mem_cons_self
    obtain ⟨l', hl'⟩ := ih fun a ha => h a (List.mem_cons_of_mem _ ha)
    exact ⟨b :: l', List.Forall₂.cons hb hl'⟩

/-- **C22.** Frames associated to labelled windows: let `frames` cut the labelled time range
at the given rate (C15) and `labs` be the labels at the starts of the frames.  The call raises
`ValueError` exactly when some label is needed more often than there are frames with it, whatever
the shuffles.  Otherwise the result has the same windows as `frames`, each with an index, and the
pairs of these indices with the labels at these times are taken from the given frames without any
being used twice. -/
theorem C22_associate_to_window {α ι : Type} [DecidableEq ι] (shuf : ℕ → List ι → List ι)
    (hshuf : ∀ v l, (shuf v l).Perm l) (c : Concat α ℤ) (s e : ℚ) (h : Aligned c.windows)
    (hd : ∀ w ∈ c.windows, w.start ≤ w.stop)
    (hb : ∀ w ∈ c.windows, ∃ x, w = Win.basic x ∧ 0 ≤ x.obj)
    (hs : c.start = .ok s) (he : c.stop = .ok e)
    (frameIndex : List ι) (frameLabels : List ℤ) (hlen : frameIndex.length = frameLabels.length)
    (hfl : ∀ x ∈ frameLabels, 0 ≤ x ∧ x < frameLabels.dedup.length)
    (rate : ℚ) (hr : 0 < rate) (hr' : 2 * TOL * rate ≤ 1) (hdur : TOL ≤ e - s) :
    ∃ (frames : Concat α (Option ι)) (labs : List ℤ), concatOfFrames s e rate = .ok frames ∧
      labs.length = frames.windows.length ∧
      (∀ (i : ℕ) (f : Win α (Option ι)) (x : ℤ), frames.windows[i]? = some f → labs[i]? = some x →
        LabelAt c f.start x) ∧
      ((∃ x, frameLabels.count x < labs.count x) →
        associateToWindow shuf c frameIndex frameLabels rate = .error .valueError) ∧
      ((∀ x, labs.count x ≤ frameLabels.count x) →
        ∃ (r : Concat α (Option ι)) (objs : List ι),
          associateToWindow shuf c frameIndex frameLabels rate = .ok r ∧
          r.windows.length = frames.windows.length ∧ objs.length = labs.length ∧
          (∀ (i : ℕ) (f : Win α (Option ι)), frames.windows[i]? = some f → ∃ o,
            objs[i]? = some o ∧ r.windows[i]? = some (.basic ⟨f.start, f.stop, some o⟩)) ∧
          (objs.zip labs).Subperm (frameIndex.zip frameLabels)) := by
  obtain ⟨frames, f1, f2, f3, f4, f5⟩ := (C15_frames (α := α) (γ := ι) s e rate hr hr').2 hdur
  have hbasic : ∀ f ∈ frames.windows, (∃ x, f = Win.basic x ∧ x.obj = none) ∧ f.start ≤ f.stop ∧
      s ≤ f.start := by
    intro f hf
    obtain ⟨i, hi⟩ := List.mem_iff_getElem?.mp hf
    obtain ⟨g1, g2, g3, _, _⟩ := f5 i f hi
    refine ⟨g1, g3.le, ?_⟩
    rw [g2]
    have : (0 : ℚ) ≤ (i : ℚ) / rate := by positivity
    linarith
  have hstop := Aligned_stop_le frames e f4 (fun w hw => (hbasic w hw).2.1) f3
  obtain ⟨labs, hlabs⟩ := forall₂_exists (fun (f : Win α (Option ι)) (x : ℕ) =>
      LabelAt c f.start x ∧ ∃ w, c.getSubAt f.start = .ok w ∧ winObj w = .ok (x : ℤ))
    frames.windows (by
      intro f hf
      exact winObj_of_label c s e f.start h hd hb hs he (hbasic f hf).2.2
        ((hbasic f hf).2.1.trans (hstop f hf)))
  -- buckets
  set n := frameLabels.dedup.length with hn
  have horg := (C20_organize_by_values frameLabels none frameIndex n (Or.inr ⟨rfl, hn.symm⟩)).2 (by
    intro p hp
    have := hfl p.2 (List.of_mem_zip hp).2
    omega)
  set buckets : List (List ι) := ((List.range n).map fun (v : ℕ) =>
        ((frameIndex.zip frameLabels).filter fun (p : ι × ℤ) =>
          decide (p.2 = (v : ℤ) ∨ p.2 = (v : ℤ) - n)).map Prod.fst) with hbuckets
  have hget : ∀ v : ℕ, ((buckets.mapIdx shuf).getD v []).Perm
      (((frameIndex.zip frameLabels).filter fun (p : ι × ℤ) => decide (p.2 = (v : ℤ))).map
        Prod.fst) := by
    intro v
    rw [List.getD_eq_getElem?_getD, List.getElem?_mapIdx]
    rcases lt_or_ge v n with hv | hv
    · have hbv : buckets[v]? = some (((frameIndex.zip frameLabels).filter fun (p : ι × ℤ) =>
          decide (p.2 = (v : ℤ) ∨ p.2 = (v : ℤ) - n)).map Prod.fst) := by
        rw [hbuckets, List.getElem?_map, List.getElem?_range hv]; rfl
      rw [hbv]
      simp only [Option.map_some, Option.getD_some]
      refine (hshuf _ _).trans ?_
      rw [List.filter_congr]
      intro p hp
      have := hfl p.2 (List.of_mem_zip hp).2
      simp only [decide_eq_decide]
      omega
    · have hbv : buckets[v]? = none := by
        rw [List.getElem?_eq_none_iff, hbuckets]; simpa using hv
      rw [hbv]
      simp only [Option.map_none, Option.getD_none]
      rw [List.filter_eq_nil_iff.mpr]
      · simp
      · intro p hp
        have := hfl p.2 (List.of_mem_zip hp).2
        simp only [decide_eq_true_eq]
        omega
  have hcount : ∀ v : ℕ, ((buckets.mapIdx shuf).getD v []).length = frameLabels.count (v : ℤ) := by
    intro v
    rw [(hget v).length_eq, List.length_map, ← List.countP_eq_length_filter, List.count]
    have : frameLabels = (frameIndex.zip frameLabels).map Prod.snd := by
      rw [List.map_snd_zip (by omega)]
    conv_rhs => rw [this]
    rw [List.countP_map]
    apply List.countP_congr
    intro p _
    simp
  have hcast : ∀ v : ℕ, (labs.map fun (k : ℕ) => (k : ℤ)).count (v : ℤ) = labs.count v := by
    intro v
    exact List.count_map_of_injective labs (fun k : ℕ => (k : ℤ)) Nat.cast_injective v
  have hrun : associateToWindow shuf c frameIndex frameLabels rate =
      (assignFrames c (buckets.mapIdx shuf) frames.windows).bind fun ws => .ok ⟨ws⟩ := by
    unfold associateToWindow
    rw [horg, hs, he]
    simp only [bind, Except.bind]
    rw [f1]
  obtain ⟨a1, a2⟩ := assignFrames_spec c frames.windows labs (buckets.mapIdx shuf)
    (hlabs.imp fun _ _ hp => hp.2)
  have hll : labs.length = frames.windows.length := hlabs.length_eq.symm
  refine ⟨frames, labs.map fun (k : ℕ) => (k : ℤ), f1, by rw [List.length_map, hll], ?_, ?_, ?_⟩
  · intro i f x hi hx
    rw [List.getElem?_map, Option.map_eq_some_iff] at hx
    obtain ⟨k, hk, rfl⟩ := hx
    have := hlabs.get (i := i) (List.getElem?_eq_some_iff.mp hi).1 (List.getElem?_eq_some_iff.mp hk).1
    simp only [List.get_eq_getElem] at this
    rw [(List.getElem?_eq_some_iff.mp hi).2, (List.getElem?_eq_some_iff.mp hk).2] at this
    exact this.1
  · rintro ⟨x, hx⟩
    rw [hrun, a1]
    · rfl
    · have hxmem : x ∈ labs.map fun (k : ℕ) => (k : ℤ) := by
        rw [← List.count_pos_iff]; omega
      obtain ⟨v, _, rfl⟩ := List.mem_map.mp hxmem
      refine ⟨v, ?_⟩
      rw [hcount, ← hcast]
      exact hx
  · intro hc
    obtain ⟨objs, o1, o2, o3⟩ := a2 (by
      intro v
      rw [hcount, ← hcast]
      exact hc v)
    refine ⟨⟨List.zipWith setObj objs frames.windows⟩, objs, by rw [hrun, o2]; rfl, ?_, ?_, ?_, ?_⟩
    · rw [List.length_zipWith, o1, hll, min_self]
    · rw [o1, List.length_map]
    · intro i f hi
      have hlt := (List.getElem?_eq_some_iff.mp hi).1
      have hio : i < objs.length := by rw [o1, hll]; exact hlt
      obtain ⟨⟨x, rfl, hx⟩, _, _⟩ := hbasic f (List.mem_of_getElem? hi)
      refine ⟨objs[i], List.getElem?_eq_getElem hio, ?_⟩
      rw [List.getElem?_zipWith, List.getElem?_eq_getElem hio, hi]
      rfl
    · rw [List.subperm_ext_iff]
      rintro ⟨o, x⟩ hox
      obtain ⟨v, _, rfl⟩ := List.mem_map.mp (List.of_mem_zip hox).2
      obtain ⟨rest, hrest⟩ := o3 v
      have hp := hrest.trans (hget v)
      have hle : (((objs.zip labs).filter fun p => decide (p.2 = v)).map Prod.fst).count o ≤
          (((frameIndex.zip frameLabels).filter fun (p : ι × ℤ) => decide (p.2 = (v : ℤ))).map
            Prod.fst).count o := by
        rw [← hp.count_eq o, List.count_append]
        omega
      have key : ∀ {B : Type} [DecidableEq B] (l : List (ι × B)) (y : B),
          l.count (o, y) = ((l.filter fun p => decide (p.2 = y)).map Prod.fst).count o := by
        intro B _ l y
        rw [List.count, List.count, List.countP_map, List.countP_filter]
        apply List.countP_congr
        rintro ⟨a, b⟩ _
        simp
      have hz : (objs.zip (labs.map fun (k : ℕ) => (k : ℤ))).count (o, (v : ℤ)) =
          (objs.zip labs).count (o, v) := by
        rw [List.zip_map_right]
        have hinj : Function.Injective (Prod.map (id : ι → ι) fun (k : ℕ) => (k : ℤ)) :=
          Function.Injective.prodMap Function.injective_id Nat.cast_injective
        exact List.count_map_of_injective _ _ hinj (o, v)
      rw [hz, key, key]
      exact hle

/-- **C22.** Labels of frames beyond their number of distinct values raise `IndexError` first; otherwise time ranges which are
shorter than the tolerance raise `ValueError`. -/
theorem C22_failures {α ι : Type} (shuf : ℕ → List ι → List ι) (c : Concat α ℤ) (frameIndex : List ι) (frameLabels : List ℤ)
    (rate : ℚ) :
    ((∃ p ∈ frameIndex.zip frameLabels,
        p.2 < -(frameLabels.dedup.length : ℤ) ∨ (frameLabels.dedup.length : ℤ) ≤ p.2) →
      associateToWindow shuf c frameIndex frameLabels rate = .error .indexError) ∧
    ((∀ p ∈ frameIndex.zip frameLabels,
        -(frameLabels.dedup.length : ℤ) ≤ p.2 ∧ p.2 < frameLabels.dedup.length) →
      ∀ s e, c.start = .ok s → c.stop = .ok e → 0 < rate → 2 * TOL * rate ≤ 1 → e - s < TOL →
      associateToWindow shuf c frameIndex frameLabels rate = .error .valueError) := by
  obtain ⟨h1, h2⟩ := C20_organize_by_values (ι := ι) frameLabels none frameIndex _ (.inr ⟨rfl, rfl⟩)
  constructor
  · intro h
    unfold associateToWindow
    rw [h1 h]
    rfl
  · intro h s e hs he hr hr' hd
    unfold associateToWindow
    rw [h2 h, hs, he]
    simp only [bind, Except.bind]
    rw [(C15_frames s e rate hr hr').1 hd]

/-- A label which is not below the number of labels. -/
example : associateToWindow (fun _ l => l) (⟨[.basic ⟨0, 2, 0⟩]⟩ : Concat ℕ ℤ) [10, 11] [0, 2] 2 = .error .indexError :=
  (C22_failures (fun _ l => l) _ [10, 11] [0, 2] 2).1 ⟨(11, 2), by decide, by decide⟩

/-- Two labels over two seconds, two frames per second. -/
example : let c : Concat ℕ ℤ := ⟨[.basic ⟨0, 3 / 4, 0⟩, .basic ⟨3 / 4, 2, 1⟩]⟩
    Aligned c.windows ∧ (∀ w ∈ c.windows, w.start ≤ w.stop) ∧
    (∀ w ∈ c.windows, ∃ x, w = Win.basic x ∧ 0 ≤ x.obj) ∧ c.start = .ok 0 ∧ c.stop = .ok 2 ∧
    associateToWindow (fun _ l => l) c [10, 11, 12, 13, 14] [0, 1, 1, 0, 1] 2 =
      .ok ⟨[.basic ⟨0, 1 / 2, some 13⟩, .basic ⟨1 / 2, 1, some 10⟩, .basic ⟨1, 3 / 2, some 14⟩,
        .basic ⟨3 / 2, 2, some 12⟩]⟩ ∧
    associateToWindow (fun _ l => l) c [10, 11, 12] [0, 1, 1] 2 = .error .valueError := by
  intro c
  refine ⟨?_, ?_, ?_, rfl, rfl, ?_, ?_⟩
  · simp [c, Aligned, Win.start, Win.stop]
  · intro w hw
    simp only [c, List.mem_cons, List.not_mem_nil, or_false] at hw
    rcases hw with rfl | rfl <;> norm_num [Win.start, Win.stop]
  · intro w hw
    simp only [c, List.mem_cons, List.not_mem_nil, or_false] at hw
    rcases hw with rfl | rfl
    · exact ⟨_, rfl, le_rfl⟩
    · exact ⟨_, rfl, by norm_num⟩
  · decide +kernel
  · decide +kernel

end Verif.Pairing
