import Verif.Window.LemmasNested

/-! # One level of concatenation above lawful elements -/

namespace Verif.Window

open Verif

/-- Elements which behave as the list `lv a` of windows of basic classes. -/
structure Lawful {α β A : Type} (files : WavFiles α) (o : Ops α A) (lv : A → List (Win α β))
    (Sh : A → Prop) : Prop where
  ne : ∀ a, Sh a → lv a ≠ []
  start : ∀ a, Sh a → o.start a = .ok (firstStart (lv a))
  stop : ∀ a, Sh a → o.stop a = .ok (lastStop (lv a))
  move : ∀ a d, Sh a → Sh (o.move a d) ∧ lv (o.move a d) = (lv a).map (fun w => w.move d)
  copy : ∀ a, Sh a → Cover files (lv a) → ∃ a', o.copy a = .ok a' ∧ Sh a' ∧ lv a' = lv a
  left : ∀ a x, Sh a → Cover files (lv a) → firstStart (lv a) ≤ x → x ≤ lastStop (lv a) →
    ∃ r, o.getSub a x (lastStop (lv a)) = .ok r ∧ Sh r ∧ LeafL (lv a) x (lv r)
  right : ∀ a y, Sh a → Cover files (lv a) → firstStart (lv a) ≤ y → y ≤ lastStop (lv a) →
    ∃ r, o.getSub a (firstStart (lv a)) y = .ok r ∧ Sh r ∧ LeafR (lv a) y (lv r)
  err : ∀ a y, Sh a → Cover files (lv a) → ¬ (firstStart (lv a) ≤ y ∧ y ≤ lastStop (lv a)) →
    o.getSub a (firstStart (lv a)) y = .error .timeOutOfBound
  toArray : ∀ a r, Sh a → (o.toArray a = .ok r ↔ Concat.toArray files ⟨lv a⟩ = .ok r)

theorem concatenate_one {α : Type} (l : List α) (s r : ℚ) :
    ArrayWin.concatenate [ArrayWin.init l s r] = .ok (ArrayWin.init l s r) := by
  simp [ArrayWin.concatenate, ArrayWin.init]

theorem toArray_one {α β : Type} (files : WavFiles α) (w : Win α β) :
    Concat.toArray files ⟨[w]⟩ = w.toArray files := by
  cases w with
  | basic w => rfl
  | array w =>
    show ArrayWin.concatenate [w.copy] = .ok w.copy
    exact concatenate_one _ _ _
  | wav w =>
    show ArrayWin.concatenate [w.toArray files] = .ok (w.toArray files)
    exact concatenate_one _ _ _

theorem win_lawful {α β : Type} (files : WavFiles α) :
    Lawful files (winOps files) (fun w : Win α β => [w]) (fun _ => True) where
  ne := by simp
  start := fun _ _ => rfl
  stop := fun _ _ => rfl
  move := fun _ _ _ => ⟨trivial, rfl⟩
  copy := fun a _ h => ⟨a, by
    show Except.ok a.copy = _
    rw [(h.good a (by simp)).copy], trivial, rfl⟩
  left := by
    intro a x _ h h1 h2
    obtain ⟨w', g1, g2, g3⟩ := (h.good a (by simp)).left (x := x) h1 h2
    exact ⟨w', g1, trivial, [], a, [], w', rfl, by simp, h1, h2, g1, rfl⟩
  right := by
    intro a y _ h h1 h2
    obtain ⟨w', g1, g2, g3⟩ := (h.good a (by simp)).right (y := y) h1 h2
    exact ⟨w', g1, trivial, [], a, [], w', rfl, by simp, h1, h2, g1, rfl⟩
  err := by
    intro a y _ h hn
    exact (h.good a (by simp)).err (fun hc => hn hc.2)
  toArray := by
    intro a r _
    rw [toArray_one]; rfl

section
variable {α β A : Type} {files : WavFiles α} {o : Ops α A} {lv : A → List (Win α β)}
  {Sh : A → Prop}

theorem mapM_ok {B C : Type} {f : B → Py C} {g : B → C} {l : List B} (h : ∀ x ∈ l, f x = .ok (g x)) :
    l.mapM f = .ok (l.map g) := by
  induction l with
  | nil => rfl
  | cons x l ih =>
    rw [List.mapM_cons, h x List.mem_cons_self, ih (fun y hy => h y (List.mem_cons_of_mem _ hy))]
    rfl

/-- An element seen as a basic window. -/
def box (lv : A → List (Win α β)) (a : A) : Win α A :=
  .basic ⟨firstStart (lv a), lastStop (lv a), a⟩

theorem Lawful.init_eq (L : Lawful files o lv Sh) {cs : List A} (hs : ∀ c ∈ cs, Sh c) :
    nestInit o cs = (Concat.init (cs.map (box lv))).map (fun _ => cs) := by
  unfold nestInit Concat.init
  rw [List.length_map]
  by_cases hl : cs.length < 1
  · rw [if_pos hl, if_pos hl]; rfl
  · rw [if_neg hl, if_neg hl]
    rw [mapM_ok (fun c hc => L.start c (hs c (List.mem_of_mem_drop hc))),
      mapM_ok (fun c hc => L.stop c (hs c hc))]
    simp only [bind, Except.bind, Concat.ends, ← List.map_drop, List.map_map]
    have e1 : (Win.stop ∘ box lv : A → ℚ) = fun c => lastStop (lv c) := rfl
    have e2 : (Win.start ∘ box lv : A → ℚ) = fun c => firstStart (lv c) := rfl
    rw [e1, e2]
    split_ifs <;> rfl

theorem Lawful.start_eq (L : Lawful files o lv Sh) {cs : List A} (hs : ∀ c ∈ cs, Sh c) :
    nestStart o cs = Concat.start ⟨cs.map (box lv)⟩ := by
  unfold nestStart Concat.start
  cases cs with
  | nil => rfl
  | cons c cs => exact L.start c (hs c (by simp))

theorem Lawful.stop_eq (L : Lawful files o lv Sh) {cs : List A} (hs : ∀ c ∈ cs, Sh c) :
    nestStop o cs = Concat.stop ⟨cs.map (box lv)⟩ := by
  unfold nestStop Concat.stop
  rcases List.eq_nil_or_concat cs with rfl | ⟨cs, c, rfl⟩
  · rfl
  · rw [List.concat_eq_append]
    simp only [List.map_append, List.map_cons, List.map_nil, List.getLast?_append,
      List.getLast?_singleton, Option.some_or]
    exact L.stop c (hs c (by simp))

theorem Lawful.index_eq (L : Lawful files o lv Sh) {cs : List A} (hs : ∀ c ∈ cs, Sh c) (t : ℚ) :
    nestIndex o cs t = Concat.fileIndex ⟨cs.map (box lv)⟩ t := by
  unfold nestIndex Concat.fileIndex
  rw [L.start_eq hs, L.stop_eq hs, mapM_ok (fun c hc => L.stop c (hs c hc))]
  simp only [Concat.ends, List.map_map]
  rfl

theorem Lawful.flat_ne (L : Lawful files o lv Sh) {cs : List A} (h0 : cs ≠ [])
    (hs : ∀ c ∈ cs, Sh c) : cs.flatMap lv ≠ [] := by
  cases cs with
  | nil => exact absurd rfl h0
  | cons c cs =>
    rw [List.flatMap_cons]
    intro h
    exact L.ne c (hs c (by simp)) (List.append_eq_nil_iff.mp h).1

theorem Lawful.first_flat (L : Lawful files o lv Sh) (c : A) (cs : List A) (h : Sh c) :
    firstStart ((c :: cs).flatMap lv) = firstStart (lv c) := by
  rw [List.flatMap_cons, firstStart_append (L.ne c h)]

theorem Lawful.last_flat (L : Lawful files o lv Sh) (c : A) (cs : List A) (h : Sh c) :
    lastStop ((cs ++ [c]).flatMap lv) = lastStop (lv c) := by
  rw [List.flatMap_append, lastStop_append]
  · simp
  · simpa using L.ne c h

theorem Lawful.nest_start (L : Lawful files o lv Sh) {cs : List A} (h0 : cs ≠ [])
    (hs : ∀ c ∈ cs, Sh c) : nestStart o cs = .ok (firstStart (cs.flatMap lv)) := by
  cases cs with
  | nil => exact absurd rfl h0
  | cons c cs =>
    rw [L.first_flat c cs (hs c (by simp))]
    exact L.start c (hs c (by simp))

theorem Lawful.nest_stop (L : Lawful files o lv Sh) {cs : List A} (h0 : cs ≠ [])
    (hs : ∀ c ∈ cs, Sh c) : nestStop o cs = .ok (lastStop (cs.flatMap lv)) := by
  rcases List.eq_nil_or_concat cs with rfl | ⟨cs, c, rfl⟩
  · exact absurd rfl h0
  · rw [List.concat_eq_append] at *
    rw [L.last_flat c cs (hs c (by simp)), L.stop_eq hs]
    simp only [List.map_append, List.map_cons, List.map_nil, Concat.stop_append]
    rfl

theorem Lawful.cover_child (L : Lawful files o lv Sh) {cs : List A} (hs : ∀ c ∈ cs, Sh c)
    (hc : Cover files (cs.flatMap lv)) : ∀ c ∈ cs, Cover files (lv c) := by
  intro c hm
  obtain ⟨p, q, rfl⟩ := List.append_of_mem hm
  rw [List.flatMap_append, List.flatMap_cons] at hc
  have h1 := hc.right (by
    intro h
    exact L.ne c (hs c hm) (List.append_eq_nil_iff.mp h).1)
  exact h1.left (L.ne c (hs c hm))

/-- The chain of elements, from the chain of windows. -/
theorem Lawful.boxes (L : Lawful files o lv Sh) {cs : List A} (hs : ∀ c ∈ cs, Sh c)
    (hc : Aligned (cs.flatMap lv)) : Aligned (cs.map (box lv)) := by
  induction cs with
  | nil => exact List.IsChain.nil
  | cons c cs ih =>
    rw [List.flatMap_cons] at hc
    have ih' := ih (fun d hd => hs d (List.mem_cons_of_mem _ hd)) hc.append.2
    cases cs with
    | nil => exact List.IsChain.singleton _
    | cons d cs =>
      refine List.isChain_cons_cons.mpr ⟨?_, ih'⟩
      show firstStart (lv d) = lastStop (lv c)
      have hd := L.ne d (hs d (by simp))
      have hcn := L.ne c (hs c (by simp))
      rw [List.flatMap_cons] at hc
      unfold Aligned at hc
      rw [List.isChain_append] at hc
      obtain ⟨v, vs, hv⟩ : ∃ v vs, lv d = v :: vs := by
        cases he : lv d with
        | nil => exact absurd he hd
        | cons v vs => exact ⟨v, vs, rfl⟩
      obtain ⟨u, hu⟩ : ∃ u, (lv c).getLast? = some u := by
        cases hg : (lv c).getLast? with
        | none => rw [List.getLast?_eq_none_iff] at hg; exact absurd hg hcn
        | some u => exact ⟨u, rfl⟩
      have := hc.2.2 u (by rw [hu]; rfl) v (by rw [hv]; rfl)
      rw [hv, firstStart_cons, this]
      simp [lastStop, hu]

/-- The condition of the constructor, on exactly consecutive windows. -/
theorem Lawful.init_ok (L : Lawful files o lv Sh) {cs : List A} (h0 : cs ≠ [])
    (hs : ∀ c ∈ cs, Sh c) (hc : Aligned (cs.map (box lv))) : nestInit o cs = .ok cs := by
  rw [L.init_eq hs, Concat.init_ok (by simpa using h0) hc.consecutive]
  rfl

/-- A crop inside one element. -/
theorem getSub_single (a b : ℚ) (pre post : List A) (w : A)
    (ha : nestIndex o (pre ++ w :: post) a = .ok pre.length)
    (hb : nestIndex o (pre ++ w :: post) b = .ok pre.length) :
    nestGetSub o (pre ++ w :: post) a b = (do
      let w0 ← o.copy w
      let e ← o.stop w0
      let w1 ← o.getSub w0 a e
      let s ← o.start w1
      let w2 ← o.getSub w1 s b
      nestInit o [w2]) := by
  unfold nestGetSub
  rw [ha, hb]
  have e : (1 + (pre.length : ℤ)) = ((1 + pre.length : ℕ) : ℤ) := by push_cast; rfl
  simp only [bind, Except.bind]
  rw [e, pySlice_nat, List.drop_left]
  have e2 : 1 + pre.length - pre.length = 1 := by omega
  rw [e2]
  simp only [List.take_succ_cons, List.take_zero, List.mapM_cons, List.mapM_nil]
  cases o.copy w with
  | error x => rfl
  | ok w0 => rfl

/-- A crop across several elements. -/
theorem getSub_multi (a b : ℚ) (pre mid post : List A) (w v w0 v0 : A) (mid0 : List A)
    (ha : nestIndex o (pre ++ w :: (mid ++ v :: post)) a = .ok pre.length)
    (hb : nestIndex o (pre ++ w :: (mid ++ v :: post)) b = .ok (pre.length + 1 + mid.length))
    (hw : o.copy w = .ok w0) (hm : mid.mapM o.copy = .ok mid0) (hv : o.copy v = .ok v0) :
    nestGetSub o (pre ++ w :: (mid ++ v :: post)) a b = (do
      let e ← o.stop w0
      let w1 ← o.getSub w0 a e
      let s ← o.start v0
      let v2 ← o.getSub v0 s b
      nestInit o (w1 :: (mid0 ++ [v2]))) := by
  unfold nestGetSub
  rw [ha, hb]
  have e : (1 + ((pre.length + 1 + mid.length : ℕ) : ℤ)) =
      ((1 + (pre.length + 1 + mid.length) : ℕ) : ℤ) := by push_cast; rfl
  simp only [bind, Except.bind]
  rw [e, pySlice_nat, List.drop_left]
  have e2 : 1 + (pre.length + 1 + mid.length) - pre.length = (mid ++ [v]).length + 1 := by
    simp; omega
  have e3 : mid ++ v :: post = (mid ++ [v]) ++ post := by simp
  rw [e2, List.take_succ_cons, e3, List.take_left]
  have e5 : (w :: (mid ++ [v])).mapM o.copy = .ok (w0 :: (mid0 ++ [v0])) := by
    rw [List.mapM_cons, hw, List.mapM_append, hm]
    simp [hv, bind, Except.bind, pure, Except.pure]
  rw [e5]
  have e4 : ∀ x : A, x :: (mid0 ++ [v0]) = (x :: mid0) ++ [v0] := fun x => rfl
  simp only [e4, List.getLast?_append, List.getLast?_singleton, Option.some_or,
    List.dropLast_concat]
  rfl

theorem Lawful.copies (L : Lawful files o lv Sh) {cs : List A} (hs : ∀ c ∈ cs, Sh c)
    (hc : ∀ c ∈ cs, Cover files (lv c)) :
    ∃ cs', cs.mapM o.copy = .ok cs' ∧ (∀ c ∈ cs', Sh c) ∧ cs'.map lv = cs.map lv := by
  induction cs with
  | nil => exact ⟨[], rfl, by simp, rfl⟩
  | cons c cs ih =>
    obtain ⟨cs', e1, e2, e3⟩ := ih (fun d hd => hs d (List.mem_cons_of_mem _ hd))
      (fun d hd => hc d (List.mem_cons_of_mem _ hd))
    obtain ⟨c', f1, f2, f3⟩ := L.copy c (hs c (by simp)) (hc c (by simp))
    refine ⟨c' :: cs', ?_, ?_, by simp [f3, e3]⟩
    · rw [List.mapM_cons, f1, e1]; rfl
    · intro d hd
      rcases List.mem_cons.mp hd with rfl | hd
      · exact f2
      · exact e2 d hd

theorem flat_of_map {cs ds : List A} (h : cs.map lv = ds.map lv) :
    cs.flatMap lv = ds.flatMap lv := by
  rw [List.flatMap_def, List.flatMap_def, h]

theorem boxes_of_map {cs : List A} : (cs.map (box lv)).map (fun w => (w.start, w.stop)) =
    (cs.map lv).map (fun l => (firstStart l, lastStop l)) := by
  simp [box, Win.start, Win.stop, Function.comp_def]

/-- Being aligned depends on bounds only. -/
theorem aligned_bounds {β γ : Type} {us : List (Win α β)} {vs : List (Win α γ)}
    (h : us.map (fun w => (w.start, w.stop)) = vs.map (fun w => (w.start, w.stop)))
    (ha : Aligned us) : Aligned vs := by
  have key : ∀ {δ : Type} (ws : List (Win α δ)), Aligned ws ↔
      (ws.map (fun w => (w.start, w.stop))).IsChain (fun p q => q.1 = p.2) := by
    intro δ ws
    rw [List.isChain_map]
    exact Iff.rfl
  rw [key] at ha ⊢
  rw [← h]; exact ha

/-- Windows of elements which end before a time. -/
theorem Lawful.before (L : Lawful files o lv Sh) {cs : List A} (hs : ∀ c ∈ cs, Sh c)
    (hc : ∀ c ∈ cs, Cover files (lv c)) {x : ℚ} (h : ∀ c ∈ cs, lastStop (lv c) < x) :
    ∀ v ∈ cs.flatMap lv, v.stop < x := by
  intro v hv
  obtain ⟨c, hc1, hc2⟩ := List.mem_flatMap.mp hv
  have h1 := (hc c hc1).bounds v hc2
  have h2 := h c hc1
  linarith [h1.2]

/-- The crop of a concatenation, on the windows of basic classes. -/
theorem Lawful.getSub (L : Lawful files o lv Sh) {cs : List A} (h0 : cs ≠ []) (hs : ∀ c ∈ cs, Sh c)
    (hc : Cover files (cs.flatMap lv)) {a b : ℚ} (ha : firstStart (cs.flatMap lv) ≤ a)
    (hab : a ≤ b) (hb : b ≤ lastStop (cs.flatMap lv)) :
    ∃ ws, LeafL (cs.flatMap lv) a ws ∧
      (firstStart ws ≤ b → ∃ r, nestGetSub o cs a b = .ok r ∧ r ≠ [] ∧ (∀ c ∈ r, Sh c) ∧
        LeafR ws b (r.flatMap lv)) ∧
      (b < firstStart ws → nestGetSub o cs a b = .error .timeOutOfBound) := by
  have hcov := L.cover_child hs hc
  have hal := L.boxes hs hc.aligned
  have hst := (L.start_eq hs).symm.trans (L.nest_start h0 hs)
  have hsp := (L.stop_eq hs).symm.trans (L.nest_stop h0 hs)
  have hle : ∀ w ∈ cs.map (box lv), w.start ≤ w.stop := by
    intro w hw
    obtain ⟨c, hm, rfl⟩ := List.mem_map.mp hw
    exact (hcov c hm).le
  rcases Concat.split_ok ⟨cs.map (box lv)⟩ _ _ a b hal hle hst hsp ha hab hb with
    ⟨pre', w', post', h1, h2, h3, h4, h5, h6⟩ |
    ⟨pre', w', mid', v', post', h1, h2, h3, h4, h5, h6, h7, h8, h9, h10⟩
  · obtain ⟨pre, l2, rfl, rfl, g2⟩ := List.map_eq_append_iff.mp h1
    obtain ⟨w, post, rfl, rfl, rfl⟩ := List.map_eq_cons_iff.mp g2
    rw [← L.index_eq hs, List.length_map] at h2 h3
    have hw : w ∈ pre ++ w :: post := by simp
    have hpre : ∀ v ∈ pre.flatMap lv, v.stop < a :=
      L.before (fun c hm => hs c (by simp [hm])) (fun c hm => hcov c (by simp [hm]))
        (fun c hm => h4 (box lv c) (List.mem_map_of_mem hm))
    have h5' : firstStart (lv w) ≤ a := h5
    have h6' : b ≤ lastStop (lv w) := h6
    obtain ⟨w0, c1, c2, c3⟩ := L.copy w (hs w hw) (hcov w hw)
    have hcw0 : Cover files (lv w0) := c3 ▸ hcov w hw
    obtain ⟨w1, d1, d2, d3⟩ := L.left w0 a c2 hcw0 (by rw [c3]; exact h5')
      (by rw [c3]; exact hab.trans h6')
    obtain ⟨k1, k2⟩ := d3.cover hcw0
    rw [c3] at d3
    refine ⟨lv w1 ++ post.flatMap lv, ?_, ?_, ?_⟩
    · rw [List.flatMap_append, List.flatMap_cons]
      exact d3.prepend hpre _
    · intro hf
      rw [firstStart_append (L.ne w1 d2)] at hf
      obtain ⟨w2, r1, r2, r3⟩ := L.right w1 b d2 k1 hf (by rw [k2, c3]; exact h6')
      have hi : nestInit o [w2] = .ok [w2] :=
        L.init_ok (by simp) (by simpa using r2) (List.IsChain.singleton _)
      refine ⟨[w2], ?_, by simp, by simpa using r2, ?_⟩
      · rw [getSub_single a b pre post w h2 h3, c1]
        simp only [bind, Except.bind]
        rw [L.stop w0 c2]
        simp only []
        rw [d1]
        simp only []
        rw [L.start w1 d2]
        simp only []
        rw [r1]
        exact hi
      · have := r3.prepend (p := []) (by simp) (post.flatMap lv)
        simpa using this
    · intro hf
      rw [firstStart_append (L.ne w1 d2)] at hf
      rw [getSub_single a b pre post w h2 h3, c1]
      simp only [bind, Except.bind]
      rw [L.stop w0 c2]
      simp only []
      rw [d1]
      simp only []
      rw [L.start w1 d2]
      simp only []
      rw [L.err w1 b d2 k1 (fun h => absurd h.1 (not_le.mpr hf))]
  · obtain ⟨pre, l2, rfl, rfl, g2⟩ := List.map_eq_append_iff.mp h1
    obtain ⟨w, l3, rfl, rfl, g3⟩ := List.map_eq_cons_iff.mp g2
    obtain ⟨mid, l4, rfl, rfl, g4⟩ := List.map_eq_append_iff.mp g3
    obtain ⟨v, post, rfl, rfl, rfl⟩ := List.map_eq_cons_iff.mp g4
    rw [← L.index_eq hs, List.length_map] at h2 h3
    rw [List.length_map] at h3
    have hw : w ∈ pre ++ w :: (mid ++ v :: post) := by simp
    have hv : v ∈ pre ++ w :: (mid ++ v :: post) := by simp
    have hm' : ∀ c ∈ mid, c ∈ pre ++ w :: (mid ++ v :: post) := fun c hm => by simp [hm]
    have hpre : ∀ v ∈ pre.flatMap lv, v.stop < a :=
      L.before (fun c hm => hs c (by simp [hm])) (fun c hm => hcov c (by simp [hm]))
        (fun c hm => h4 (box lv c) (List.mem_map_of_mem hm))
    have hmid : ∀ v ∈ mid.flatMap lv, v.stop < b :=
      L.before (fun c hm => hs c (by simp [hm])) (fun c hm => hcov c (by simp [hm]))
        (fun c hm => h8 (box lv c) (List.mem_map_of_mem hm))
    have h5' : firstStart (lv w) ≤ a := h5
    have h6' : a ≤ lastStop (lv w) := h6
    have h7' : lastStop (lv w) < b := h7
    have h9' : firstStart (lv v) ≤ b := h9
    have h10' : b ≤ lastStop (lv v) := h10
    obtain ⟨w0, c1, c2, c3⟩ := L.copy w (hs w hw) (hcov w hw)
    have hcw0 : Cover files (lv w0) := c3 ▸ hcov w hw
    obtain ⟨v0, f1, f2, f3⟩ := L.copy v (hs v hv) (hcov v hv)
    have hcv0 : Cover files (lv v0) := f3 ▸ hcov v hv
    obtain ⟨mid0, m1, m2, m3⟩ := L.copies (fun c hm => hs c (hm' c hm))
      (fun c hm => hcov c (hm' c hm))
    obtain ⟨w1, d1, d2, d3⟩ := L.left w0 a c2 hcw0 (by rw [c3]; exact h5')
      (by rw [c3]; exact h6')
    obtain ⟨k1, k2⟩ := d3.cover hcw0
    rw [c3] at d3 k2
    obtain ⟨v2, r1, r2, r3⟩ := L.right v0 b f2 hcv0 (by rw [f3]; exact h9')
      (by rw [f3]; exact h10')
    have k3 := r3.first hcv0
    rw [f3] at r3 k3
    refine ⟨lv w1 ++ (mid.flatMap lv ++ (lv v ++ post.flatMap lv)), ?_, ?_, ?_⟩
    · have := d3.prepend hpre (mid.flatMap lv ++ (lv v ++ post.flatMap lv))
      simpa only [List.flatMap_append, List.flatMap_cons, List.append_assoc] using this
    · intro _
      have hi : nestInit o (w1 :: (mid0 ++ [v2])) = .ok (w1 :: (mid0 ++ [v2])) := by
        refine L.init_ok (by simp) ?_ ?_
        · intro c hm
          simp only [List.mem_cons, List.mem_append, List.not_mem_nil, or_false] at hm
          rcases hm with rfl | hm | rfl
          · exact d2
          · exact m2 c hm
          · exact r2
        · -- only the start of the first element and the end of the last one change
          have hal2 : Aligned ((w :: (mid ++ [v])).map (box lv)) := by
            have e : pre ++ w :: (mid ++ v :: post) = pre ++ ((w :: (mid ++ [v])) ++ post) := by
              simp
            rw [e, List.map_append, List.map_append] at hal
            exact hal.append.2.append.1
          have hbm : Aligned (((w :: mid0) ++ [v]).map (box lv)) := by
            refine aligned_bounds ?_ hal2
            rw [boxes_of_map, boxes_of_map]
            simp [m3]
          have step1 : Aligned ((w1 :: (mid0 ++ [v])).map (box lv)) := by
            rw [List.cons_append, List.map_cons] at hbm
            rw [List.map_cons]
            refine List.isChain_cons.mpr ⟨?_, (List.isChain_cons.mp hbm).2⟩
            intro y hy
            have := (List.isChain_cons.mp hbm).1 y hy
            rw [this]
            exact k2.symm
          have e : w1 :: (mid0 ++ [v]) = (w1 :: mid0) ++ [v] := rfl
          rw [e, List.map_append] at step1
          have e' : w1 :: (mid0 ++ [v2]) = (w1 :: mid0) ++ [v2] := rfl
          rw [e', List.map_append]
          unfold Aligned at step1 ⊢
          rw [List.isChain_append] at step1 ⊢
          refine ⟨step1.1, List.IsChain.singleton _, ?_⟩
          intro x hx y hy
          have hy' : y = box lv v2 := by simpa using hy.symm
          have := step1.2.2 x hx (box lv v) rfl
          rw [hy', ← this]
          exact k3
      refine ⟨w1 :: (mid0 ++ [v2]), ?_, by simp, ?_, ?_⟩
      · rw [getSub_multi a b pre mid post w v w0 v0 mid0 h2 h3 c1 m1 f1]
        simp only [bind, Except.bind]
        rw [L.stop w0 c2]
        simp only []
        rw [d1]
        simp only []
        rw [L.start v0 f2]
        simp only []
        rw [r1]
        exact hi
      · intro c hm
        simp only [List.mem_cons, List.mem_append, List.not_mem_nil, or_false] at hm
        rcases hm with rfl | hm | rfl
        · exact d2
        · exact m2 c hm
        · exact r2
      · have hbef : ∀ x ∈ lv w1 ++ mid.flatMap lv, x.stop < b := by
          intro x hx
          rcases List.mem_append.mp hx with hx | hx
          · have := (k1.bounds x hx).2
            linarith
          · exact hmid x hx
        have := r3.prepend hbef (post.flatMap lv)
        have e6 : mid0.flatMap lv = mid.flatMap lv := flat_of_map m3
        simpa only [List.flatMap_append, List.flatMap_cons, List.flatMap_nil, List.append_nil,
          List.append_assoc, e6] using this
    · intro hf
      exfalso
      rw [firstStart_append (L.ne w1 d2)] at hf
      have := k1.le
      linarith

/-- The index of a time out of bounds. -/
theorem Lawful.index_err (L : Lawful files o lv Sh) {cs : List A} (h0 : cs ≠ [])
    (hs : ∀ c ∈ cs, Sh c) {t : ℚ}
    (h : ¬ (firstStart (cs.flatMap lv) ≤ t ∧ t ≤ lastStop (cs.flatMap lv))) :
    nestIndex o cs t = .error .timeOutOfBound := by
  unfold nestIndex
  rw [L.nest_start h0 hs, L.nest_stop h0 hs]
  simp only [bind, Except.bind]
  rw [checkTime_err (by rw [not_and_or, not_le, not_le] at h; exact h)]

theorem Lawful.getSub_err (L : Lawful files o lv Sh) {cs : List A} (h0 : cs ≠ [])
    (hs : ∀ c ∈ cs, Sh c) {a b : ℚ}
    (h : ¬ ((firstStart (cs.flatMap lv) ≤ a ∧ a ≤ lastStop (cs.flatMap lv)) ∧
      (firstStart (cs.flatMap lv) ≤ b ∧ b ≤ lastStop (cs.flatMap lv)))) :
    nestGetSub o cs a b = .error .timeOutOfBound := by
  unfold nestGetSub
  by_cases ha : firstStart (cs.flatMap lv) ≤ a ∧ a ≤ lastStop (cs.flatMap lv)
  · have hb := L.index_err h0 hs (t := b) (fun hb => h ⟨ha, hb⟩)
    have hi : ∃ i, nestIndex o cs a = .ok i := by
      unfold nestIndex
      rw [L.nest_start h0 hs, L.nest_stop h0 hs, mapM_ok (fun c hc => L.stop c (hs c hc))]
      simp only [bind, Except.bind]
      rw [checkTime_ok ha.1 ha.2]
      exact ⟨_, rfl⟩
    obtain ⟨i, hi⟩ := hi
    rw [hi, hb]
    rfl
  · rw [L.index_err h0 hs ha]
    rfl

end

/-! ## Arrays -/

section
variable {α β A : Type} {files : WavFiles α} {o : Ops α A} {lv : A → List (Win α β)}
  {Sh : A → Prop}

theorem concatenate_ok {α : Type} {l : List (ArrayWin α)} {r : ArrayWin α} :
    ArrayWin.concatenate l = .ok r ↔ ∃ w ws, l = w :: ws ∧ (∀ v ∈ l, v.rate = w.rate) ∧
      r = ArrayWin.init (l.map (fun v => v.array)).flatten w.start w.rate := by
  cases l with
  | nil => simp [ArrayWin.concatenate]
  | cons w ws =>
    unfold ArrayWin.concatenate
    simp only []
    by_cases h : (w :: ws).all (fun v => v.rate == w.rate) = true
    · rw [if_pos h]
      rw [List.all_eq_true] at h
      constructor
      · intro e
        rw [Except.ok.injEq] at e
        exact ⟨w, ws, rfl, fun v hv => by simpa using h v hv, e.symm⟩
      · rintro ⟨w', ws', e1, _, rfl⟩
        obtain ⟨rfl, rfl⟩ := List.cons.inj e1
        rfl
    · rw [if_neg h]
      constructor
      · intro e; cases e
      · rintro ⟨w', ws', e1, e2, _⟩
        obtain ⟨rfl, rfl⟩ := List.cons.inj e1
        exact absurd (List.all_eq_true.mpr fun v hv => by simpa using e2 v hv) h

theorem mapM_ok_append {B C : Type} {f : B → Py C} {l m : List B} {r : List C} :
    (l ++ m).mapM f = .ok r ↔ ∃ s t, l.mapM f = .ok s ∧ m.mapM f = .ok t ∧ r = s ++ t := by
  rw [List.mapM_append]
  cases hl : l.mapM f with
  | error e => simp [bind, Except.bind]
  | ok s =>
    cases hm : m.mapM f with
    | error e => simp [bind, Except.bind]
    | ok t =>
      simp only [bind, Except.bind, pure, Except.pure, Except.ok.injEq]
      constructor
      · rintro rfl; exact ⟨s, t, rfl, rfl, rfl⟩
      · rintro ⟨s', t', rfl, rfl, rfl⟩; rfl

theorem mapM_ok_cons {B C : Type} {f : B → Py C} {x : B} {m : List B} {r : List C} :
    (x :: m).mapM f = .ok r ↔ ∃ s t, f x = .ok s ∧ m.mapM f = .ok t ∧ r = s :: t := by
  rw [List.mapM_cons]
  cases hl : f x with
  | error e => simp [bind, Except.bind]
  | ok s =>
    cases hm : m.mapM f with
    | error e => simp [bind, Except.bind]
    | ok t =>
      simp only [bind, Except.bind, pure, Except.pure, Except.ok.injEq]
      constructor
      · rintro rfl; exact ⟨s, t, rfl, rfl, rfl⟩
      · rintro ⟨s', t', rfl, rfl, rfl⟩; rfl

theorem mapM_ok_ne {B C : Type} {f : B → Py C} {l : List B} {r : List C} (h : l.mapM f = .ok r)
    (hl : l ≠ []) : r ≠ [] := by
  cases l with
  | nil => exact absurd rfl hl
  | cons x l =>
    obtain ⟨s, t, _, _, rfl⟩ := mapM_ok_cons.mp h
    simp

theorem toArray_ok {files : WavFiles α} {ws : List (Win α β)} {r : ArrayWin α} :
    Concat.toArray files ⟨ws⟩ = .ok r ↔ ∃ l, ws.mapM (Win.toArray files) = .ok l ∧
      ArrayWin.concatenate l = .ok r := by
  unfold Concat.toArray
  cases ws.mapM (Win.toArray files) with
  | error e => simp [bind, Except.bind]
  | ok l => simp [bind, Except.bind]

/-- The arrays of a list are the arrays of its first part, then those of the rest. -/
theorem toArray_append {files : WavFiles α} {us vs : List (Win α β)} (hu : us ≠ []) (hv : vs ≠ [])
    {r : ArrayWin α} :
    Concat.toArray files ⟨us ++ vs⟩ = .ok r ↔ ∃ p q, Concat.toArray files ⟨us⟩ = .ok p ∧
      Concat.toArray files ⟨vs⟩ = .ok q ∧ ArrayWin.concatenate [p, q] = .ok r := by
  constructor
  · intro h
    obtain ⟨l, h1, h2⟩ := toArray_ok.mp h
    obtain ⟨s, t, h3, h4, rfl⟩ := mapM_ok_append.mp h1
    have hs := mapM_ok_ne h3 hu
    have ht := mapM_ok_ne h4 hv
    obtain ⟨w, ws, e1, e2, rfl⟩ := concatenate_ok.mp h2
    cases s with
    | nil => exact absurd rfl hs
    | cons x s =>
      cases t with
      | nil => exact absurd rfl ht
      | cons y t =>
        rw [List.cons_append] at e1
        obtain ⟨rfl, rfl⟩ := List.cons.inj e1
        have hx : ∀ v ∈ x :: s, v.rate = x.rate := fun v hv => e2 v (List.mem_append_left _ hv)
        have hy : ∀ v ∈ y :: t, v.rate = x.rate := fun v hv => e2 v (List.mem_append_right _ hv)
        have hy0 := hy y (by simp)
        refine ⟨_, _, toArray_ok.mpr ⟨_, h3, concatenate_ok.mpr ⟨x, s, rfl, hx, rfl⟩⟩,
          toArray_ok.mpr ⟨_, h4, concatenate_ok.mpr ⟨y, t, rfl, fun v hv => by
            rw [hy v hv, hy0], rfl⟩⟩, ?_⟩
        refine concatenate_ok.mpr ⟨_, _, rfl, ?_, ?_⟩
        · intro v hv
          simp only [List.mem_cons, List.not_mem_nil, or_false] at hv
          rcases hv with rfl | rfl
          · rfl
          · exact hy0
        · simp [ArrayWin.init]
  · rintro ⟨p, q, h1, h2, h3⟩
    obtain ⟨s, a1, a2⟩ := toArray_ok.mp h1
    obtain ⟨t, b1, b2⟩ := toArray_ok.mp h2
    obtain ⟨x, xs, rfl, c2, rfl⟩ := concatenate_ok.mp a2
    obtain ⟨y, ys, rfl, d2, rfl⟩ := concatenate_ok.mp b2
    obtain ⟨z, zs, e1, e2, rfl⟩ := concatenate_ok.mp h3
    obtain ⟨rfl, rfl⟩ := List.cons.inj e1
    have hyx : y.rate = x.rate := by
      have := e2 _ (List.mem_cons_of_mem _ (List.mem_singleton.mpr rfl))
      exact this
    refine toArray_ok.mpr ⟨_, mapM_ok_append.mpr ⟨_, _, a1, b1, rfl⟩,
      concatenate_ok.mpr ⟨x, xs ++ y :: ys, rfl, ?_, ?_⟩⟩
    · intro v hv
      rcases List.mem_append.mp hv with hv | hv
      · exact c2 v hv
      · rw [d2 v hv, hyx]
    · simp [ArrayWin.init]

/-- The same for any list of arrays. -/
theorem concatenate_cons {α : Type} {x y : ArrayWin α} {l : List (ArrayWin α)} {r : ArrayWin α} :
    ArrayWin.concatenate (x :: y :: l) = .ok r ↔ ∃ q, ArrayWin.concatenate (y :: l) = .ok q ∧
      ArrayWin.concatenate [x, q] = .ok r := by
  constructor
  · intro h
    obtain ⟨w, ws, e1, e2, rfl⟩ := concatenate_ok.mp h
    obtain ⟨rfl, rfl⟩ := List.cons.inj e1
    have hy := e2 y (by simp)
    refine ⟨_, concatenate_ok.mpr ⟨y, l, rfl, fun v hv => by
      rw [e2 v (List.mem_cons_of_mem _ hv), hy], rfl⟩, concatenate_ok.mpr ⟨x, _, rfl, ?_, ?_⟩⟩
    · intro v hv
      simp only [List.mem_cons, List.not_mem_nil, or_false] at hv
      rcases hv with rfl | rfl
      · rfl
      · exact hy
    · simp [ArrayWin.init]
  · rintro ⟨q, h1, h2⟩
    obtain ⟨w, ws, e1, e2, rfl⟩ := concatenate_ok.mp h1
    obtain ⟨rfl, rfl⟩ := List.cons.inj e1
    obtain ⟨z, zs, f1, f2, rfl⟩ := concatenate_ok.mp h2
    obtain ⟨rfl, rfl⟩ := List.cons.inj f1
    have hyx : y.rate = x.rate := by
      have := f2 _ (List.mem_cons_of_mem _ (List.mem_singleton.mpr rfl))
      exact this
    refine concatenate_ok.mpr ⟨x, y :: l, rfl, ?_, by simp [ArrayWin.init]⟩
    intro v hv
    rcases List.mem_cons.mp hv with rfl | hv
    · rfl
    · rw [e2 v hv, hyx]

theorem toArray_is_init {ws : List (Win α β)} {p : ArrayWin α}
    (h : Concat.toArray files ⟨ws⟩ = .ok p) : ∃ l s r, p = ArrayWin.init l s r := by
  obtain ⟨s, a1, a2⟩ := toArray_ok.mp h
  obtain ⟨x, xs, rfl, c2, rfl⟩ := concatenate_ok.mp a2
  exact ⟨_, _, _, rfl⟩

theorem nestToArray_ok {cs : List A} {r : ArrayWin α} : nestToArray o cs = .ok r ↔
    ∃ l, cs.mapM o.toArray = .ok l ∧ ArrayWin.concatenate l = .ok r := by
  unfold nestToArray
  cases cs.mapM o.toArray with
  | error e => simp [bind, Except.bind]
  | ok l => simp [bind, Except.bind]

theorem Lawful.nest_toArray (L : Lawful files o lv Sh) {cs : List A} (h0 : cs ≠ [])
    (hs : ∀ c ∈ cs, Sh c) (r : ArrayWin α) :
    nestToArray o cs = .ok r ↔ Concat.toArray files ⟨cs.flatMap lv⟩ = .ok r := by
  induction cs generalizing r with
  | nil => exact absurd rfl h0
  | cons c cs ih =>
    have hc := hs c (by simp)
    cases cs with
    | nil =>
      rw [List.flatMap_cons, List.flatMap_nil, List.append_nil, nestToArray_ok]
      constructor
      · rintro ⟨l, h1, h2⟩
        obtain ⟨s, t, h3, h4, rfl⟩ := mapM_ok_cons.mp h1
        have : t = [] := by
          rw [List.mapM_nil] at h4
          exact (Except.ok.inj h4).symm
        subst this
        have h5 := (L.toArray c s hc).mp h3
        obtain ⟨x, y, z, rfl⟩ := toArray_is_init h5
        rw [concatenate_one] at h2
        rw [← h2]; exact h5
      · intro h
        refine ⟨[r], mapM_ok_cons.mpr ⟨r, [], (L.toArray c r hc).mpr h, rfl, rfl⟩, ?_⟩
        obtain ⟨x, y, z, rfl⟩ := toArray_is_init h
        exact concatenate_one _ _ _
    | cons d cs =>
      have hs' : ∀ e ∈ d :: cs, Sh e := fun e he => hs e (List.mem_cons_of_mem _ he)
      rw [List.flatMap_cons, toArray_append (L.ne c hc) (L.flat_ne (by simp) hs'), nestToArray_ok]
      constructor
      · rintro ⟨l, h1, h2⟩
        obtain ⟨s, t, h3, h4, rfl⟩ := mapM_ok_cons.mp h1
        obtain ⟨s', t', h5, h6, rfl⟩ := mapM_ok_cons.mp h4
        obtain ⟨q, h7, h8⟩ := concatenate_cons.mp h2
        exact ⟨s, q, (L.toArray c s hc).mp h3,
          (ih (by simp) hs' q).mp (nestToArray_ok.mpr ⟨_, h4, h7⟩), h8⟩
      · rintro ⟨p, q, h1, h2, h3⟩
        obtain ⟨l, h4, h5⟩ := nestToArray_ok.mp ((ih (by simp) hs' q).mpr h2)
        obtain ⟨s', t', h6, h7, rfl⟩ := mapM_ok_cons.mp h4
        exact ⟨p :: s' :: t', mapM_ok_cons.mpr ⟨p, _, (L.toArray c p hc).mpr h1, h4, rfl⟩,
          concatenate_cons.mpr ⟨q, h5, h3⟩⟩

/-- Concatenations of lawful elements are lawful. -/
theorem concat_lawful (L : Lawful files o lv Sh) :
    Lawful files (concatOps o) (fun cs => cs.flatMap lv) (fun cs => cs ≠ [] ∧ ∀ c ∈ cs, Sh c) where
  ne := fun cs h => L.flat_ne h.1 h.2
  start := fun cs h => L.nest_start h.1 h.2
  stop := fun cs h => L.nest_stop h.1 h.2
  move := by
    intro cs d h
    refine ⟨⟨by simpa [concatOps] using h.1, ?_⟩, ?_⟩
    · intro c hc
      obtain ⟨c', hm, rfl⟩ := List.mem_map.mp hc
      exact (L.move c' d (h.2 c' hm)).1
    · have hs := h.2
      clear h
      show (cs.map fun w => o.move w d).flatMap lv = _
      induction cs with
      | nil => rfl
      | cons c cs ih =>
        rw [List.map_cons, List.flatMap_cons, (L.move c d (hs c (by simp))).2,
          ih (fun e he => hs e (List.mem_cons_of_mem _ he)), List.flatMap_cons, List.map_append]
  copy := by
    intro cs h hc
    obtain ⟨cs', e1, e2, e3⟩ := L.copies h.2 (L.cover_child h.2 hc)
    have hne : cs' ≠ [] := mapM_ok_ne e1 h.1
    refine ⟨cs', ?_, ⟨hne, e2⟩, flat_of_map e3⟩
    show nestCopy o cs = _
    unfold nestCopy
    rw [e1]
    exact L.init_ok hne e2 (L.boxes e2 (by rw [flat_of_map e3]; exact hc.aligned))
  left := by
    intro cs x h hc h1 h2
    obtain ⟨ws, g1, g2, g3⟩ := L.getSub h.1 h.2 hc h1 h2 le_rfl
    obtain ⟨k1, k2⟩ := g1.cover hc
    obtain ⟨r, r1, r2, r3, r4⟩ := g2 (by rw [← k2]; exact k1.le)
    refine ⟨r, r1, ⟨r2, r3⟩, ?_⟩
    rw [← k2] at r4
    have e : r.flatMap lv = ws := r4.all k1
    rw [e]
    exact g1
  right := by
    intro cs y h hc h1 h2
    obtain ⟨ws, g1, g2, g3⟩ := L.getSub h.1 h.2 hc le_rfl h1 h2
    have e := g1.all hc
    subst e
    obtain ⟨r, r1, r2, r3, r4⟩ := g2 h1
    exact ⟨r, r1, ⟨r2, r3⟩, r4⟩
  err := by
    intro cs y h hc hn
    exact L.getSub_err h.1 h.2 (fun hh => hn hh.2)
  toArray := fun cs r h => L.nest_toArray h.1 h.2 r

theorem sum_lawful {B : Type} {p : Ops α B} {lv' : B → List (Win α β)} {Sh' : B → Prop}
    (L : Lawful files o lv Sh) (M : Lawful files p lv' Sh') :
    Lawful files (sumOps o p) (Sum.elim lv lv') (Sum.elim Sh Sh') where
  ne := by rintro (a | b) h; exacts [L.ne a h, M.ne b h]
  start := by rintro (a | b) h; exacts [L.start a h, M.start b h]
  stop := by rintro (a | b) h; exacts [L.stop a h, M.stop b h]
  move := by rintro (a | b) d h; exacts [L.move a d h, M.move b d h]
  copy := by
    rintro (a | b) h hc
    · obtain ⟨a', e1, e2, e3⟩ := L.copy a h hc
      exact ⟨.inl a', by simp [sumOps, e1, Except.map], e2, e3⟩
    · obtain ⟨a', e1, e2, e3⟩ := M.copy b h hc
      exact ⟨.inr a', by simp [sumOps, e1, Except.map], e2, e3⟩
  left := by
    rintro (a | b) x h hc h1 h2
    · obtain ⟨a', e1, e2, e3⟩ := L.left a x h hc h1 h2
      exact ⟨.inl a', by simp [sumOps, e1, Except.map], e2, e3⟩
    · obtain ⟨a', e1, e2, e3⟩ := M.left b x h hc h1 h2
      exact ⟨.inr a', by simp [sumOps, e1, Except.map], e2, e3⟩
  right := by
    rintro (a | b) x h hc h1 h2
    · obtain ⟨a', e1, e2, e3⟩ := L.right a x h hc h1 h2
      exact ⟨.inl a', by simp [sumOps, e1, Except.map], e2, e3⟩
    · obtain ⟨a', e1, e2, e3⟩ := M.right b x h hc h1 h2
      exact ⟨.inr a', by simp [sumOps, e1, Except.map], e2, e3⟩
  err := by
    rintro (a | b) y h hc hn
    · have := L.err a y h hc hn
      simp [sumOps, this, Except.map]
    · have := M.err b y h hc hn
      simp [sumOps, this, Except.map]
  toArray := by rintro (a | b) r h; exacts [L.toArray a r h, M.toArray b r h]

end

end Verif.Window
