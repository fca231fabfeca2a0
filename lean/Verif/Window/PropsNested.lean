import Verif.Window.LemmasNested2

/-! # Properties of concatenations of concatenations -/

namespace Verif.Window

open Verif

/-- Specification: the windows of basic classes of a tree, from left to right. -/
def leaves {α β : Type} : (n : ℕ) → Nest α β n → List (Win α β)
  | 0 => fun w => [w]
  | n + 1 => Sum.elim (fun w => [w]) (fun cs => cs.flatMap (leaves n))

/-- Specification: no concatenation of the tree is empty. -/
def Filled {α β : Type} : (n : ℕ) → Nest α β n → Prop
  | 0 => fun _ => True
  | n + 1 => Sum.elim (fun _ => True) (fun cs => cs ≠ [] ∧ ∀ c ∈ cs, Filled n c)

/-- All the calls to the constructor which build the tree are accepted. -/
def Built {α β : Type} (files : WavFiles α) : (n : ℕ) → Nest α β n → Prop
  | 0 => fun _ => True
  | n + 1 => Sum.elim (fun _ => True)
      (fun cs => (∀ c ∈ cs, Built files n c) ∧ nestInit (nestOps files n) cs = .ok cs)

theorem nest_lawful {α β : Type} (files : WavFiles α) (n : ℕ) :
    Lawful files (nestOps (β := β) files n) (leaves n) (Filled n) := by
  induction n with
  | zero => exact win_lawful files
  | succ n ih => exact sum_lawful (win_lawful files) (concat_lawful ih)

section
variable {α β : Type} {files : WavFiles α}

theorem Filled.ne {n : ℕ} {t : Nest α β n} (h : Filled n t) : leaves n t ≠ [] :=
  (nest_lawful (fun _ => (0, [])) n).ne t h

theorem consecutive_flat {n : ℕ} {cs : List (Nest α β n)} (hs : ∀ c ∈ cs, Filled n c) :
    Consecutive (cs.flatMap (leaves n)) ↔
      (∀ c ∈ cs, Consecutive (leaves n c)) ∧ Consecutive (cs.map (box (leaves n))) := by
  unfold Consecutive
  rw [List.flatMap_def, List.isChain_flatten (by
    intro h
    obtain ⟨c, hc, he⟩ := List.mem_map.mp h
    exact (hs c hc).ne he), List.isChain_map, List.isChain_map]
  refine and_congr (by simp) ?_
  have key : ∀ c ∈ cs, ∀ d ∈ cs,
      ((∀ x ∈ (leaves n c).getLast?, ∀ y ∈ (leaves n d).head?, |x.stop - y.start| ≤ TOL) ↔
        |(box (leaves n) c).stop - (box (leaves n) d).start| ≤ TOL) := by
    intro c hc d hd
    obtain ⟨u, hu⟩ : ∃ u, (leaves n c).getLast? = some u := by
      cases hg : (leaves n c).getLast? with
      | none => rw [List.getLast?_eq_none_iff] at hg; exact absurd hg (hs c hc).ne
      | some u => exact ⟨u, rfl⟩
    obtain ⟨v, hv⟩ : ∃ v, (leaves n d).head? = some v := by
      cases hg : (leaves n d).head? with
      | none => rw [List.head?_eq_none_iff] at hg; exact absurd hg (hs d hd).ne
      | some v => exact ⟨v, rfl⟩
    simp [hu, hv, box, Win.start, Win.stop, firstStart, lastStop]
  clear hs
  induction cs with
  | nil => simp
  | cons c cs ih =>
    cases cs with
    | nil => simp
    | cons d cs =>
      rw [List.isChain_cons_cons, List.isChain_cons_cons]
      exact and_congr (key c (by simp) d (by simp))
        (ih (fun x hx y hy => key x (List.mem_cons_of_mem _ hx) y (List.mem_cons_of_mem _ hy)))

theorem Built.filled {n : ℕ} {t : Nest α β n} (h : Built files n t) : Filled n t := by
  induction n with
  | zero => exact trivial
  | succ n ih =>
    rcases t with w | cs
    · exact trivial
    · refine ⟨?_, fun c hc => ih (h.1 c hc)⟩
      rintro rfl
      exact absurd h.2 (by simp [nestInit])

end

/-- **C213.** The constructor of a tree of concatenations is accepted at all levels exactly when
no concatenation is empty, and the windows of basic classes are consecutive. -/
theorem C213_built {α β : Type} (files : WavFiles α) (n : ℕ) (t : Nest α β n) :
    Built files n t ↔ Filled n t ∧ Consecutive (leaves n t) := by
  induction n with
  | zero => exact ⟨fun _ => ⟨trivial, List.IsChain.singleton _⟩, fun _ => trivial⟩
  | succ n ih =>
    rcases t with w | cs
    · exact ⟨fun _ => ⟨trivial, List.IsChain.singleton _⟩, fun _ => trivial⟩
    · have hinit : ∀ (_ : ∀ c ∈ cs, Filled n c), (nestInit (nestOps files n) cs = .ok cs ↔
          cs ≠ [] ∧ Consecutive (cs.map (box (leaves n)))) := by
        intro hs
        rw [(nest_lawful files n).init_eq hs]
        constructor
        · intro h
          by_contra hn
          rw [Concat.init_err (by
            rw [not_and_or, not_not] at hn
            simpa using hn)] at h
          cases h
        · rintro ⟨h1, h2⟩
          rw [Concat.init_ok (by simpa using h1) h2]
          rfl
      show ((∀ c ∈ cs, Built files n c) ∧ nestInit (nestOps files n) cs = .ok cs) ↔
        (cs ≠ [] ∧ ∀ c ∈ cs, Filled n c) ∧ Consecutive (cs.flatMap (leaves n))
      constructor
      · rintro ⟨h1, h2⟩
        have hs : ∀ c ∈ cs, Filled n c := fun c hc => (h1 c hc).filled
        obtain ⟨h3, h4⟩ := (hinit hs).mp h2
        exact ⟨⟨h3, hs⟩, (consecutive_flat hs).mpr ⟨fun c hc => ((ih c).mp (h1 c hc)).2, h4⟩⟩
      · rintro ⟨⟨h1, hs⟩, h2⟩
        obtain ⟨h3, h4⟩ := (consecutive_flat hs).mp h2
        exact ⟨fun c hc => (ih c).mpr ⟨hs c hc, h3 c hc⟩, (hinit hs).mpr ⟨h1, h4⟩⟩

section
variable {α β : Type} {files : WavFiles α} {n : ℕ} {cs : List (Nest α β n)}

theorem flat_start {ws : List (Win α β)} (h : ws ≠ []) :
    Concat.start ⟨ws⟩ = .ok (firstStart ws) := by
  cases ws with
  | nil => exact absurd rfl h
  | cons w ws => rfl

theorem flat_stop {ws : List (Win α β)} (h : ws ≠ []) :
    Concat.stop ⟨ws⟩ = .ok (lastStop ws) := by
  rcases List.eq_nil_or_concat ws with rfl | ⟨ws, w, rfl⟩
  · exact absurd rfl h
  · rw [List.concat_eq_append, Concat.stop_append, lastStop_append_one]

/-- The flat concatenation is the lowest level. -/
theorem flat_init (ws : List (Win α β)) :
    nestInit (winOps files) ws = (Concat.init ws).map (fun c => c.windows) := by
  unfold nestInit Concat.init Concat.ends
  by_cases hl : ws.length < 1
  · rw [if_pos hl, if_pos hl]; rfl
  · rw [if_neg hl, if_neg hl, mapM_ok (f := (winOps files).start) (g := Win.start) (fun _ _ => rfl),
      mapM_ok (f := (winOps files).stop) (g := Win.stop) (fun _ _ => rfl)]
    simp only [bind, Except.bind]
    split_ifs <;> rfl

theorem flat_index (ws : List (Win α β)) (t : ℚ) :
    nestIndex (winOps files) ws t = Concat.fileIndex ⟨ws⟩ t := by
  unfold nestIndex Concat.fileIndex
  have e1 : nestStart (winOps files) ws = Concat.start ⟨ws⟩ := by
    unfold nestStart Concat.start
    cases ws.head? <;> rfl
  have e2 : nestStop (winOps files) ws = Concat.stop ⟨ws⟩ := by
    unfold nestStop Concat.stop
    cases ws.getLast? <;> rfl
  rw [e1, e2, mapM_ok (f := (winOps files).stop) (g := Win.stop) (fun _ _ => rfl)]
  rfl

theorem flat_getSub (ws : List (Win α β)) (a b : ℚ) :
    nestGetSub (winOps files) ws a b = (Concat.getSub ⟨ws⟩ a b).map (fun c => c.windows) := by
  unfold nestGetSub Concat.getSub
  rw [flat_index, flat_index]
  cases Concat.fileIndex ⟨ws⟩ a with
  | error e => rfl
  | ok i =>
    cases Concat.fileIndex ⟨ws⟩ b with
    | error e => rfl
    | ok j =>
      simp only [bind, Except.bind]
      rw [mapM_ok (f := (winOps files).copy) (g := Win.copy) (fun _ _ => rfl)]
      simp only []
      cases (pySlice ws (i : ℤ) (1 + (j : ℤ))).map Win.copy with
      | nil => rfl
      | cons w0 rest =>
        simp only [winOps]
        cases w0.getSub a w0.stop with
        | error e => rfl
        | ok w0' =>
          simp only []
          cases (w0' :: rest).getLast? with
          | none => rfl
          | some wl =>
            simp only []
            cases wl.getSub wl.start b with
            | error e => rfl
            | ok wl' => exact flat_init _

end

/-- **C213.** A tree of concatenations begins and ends where the flat concatenation of its windows
does. -/
theorem C213_bounds {α β : Type} (files : WavFiles α) (n : ℕ) (cs : List (Nest α β n))
    (h0 : cs ≠ []) (hs : ∀ c ∈ cs, Filled n c) :
    nestStart (nestOps files n) cs = Concat.start ⟨cs.flatMap (leaves n)⟩ ∧
    nestStop (nestOps files n) cs = Concat.stop ⟨cs.flatMap (leaves n)⟩ := by
  have L := nest_lawful (β := β) files n
  rw [flat_start (L.flat_ne h0 hs), flat_stop (L.flat_ne h0 hs)]
  exact ⟨L.nest_start h0 hs, L.nest_stop h0 hs⟩

/-- **C213.** Moving a tree moves each of its windows by the same delay. -/
theorem C213_move {α β : Type} (files : WavFiles α) (n : ℕ) (cs : List (Nest α β n))
    (h0 : cs ≠ []) (hs : ∀ c ∈ cs, Filled n c) (d : ℚ) :
    ((concatOps (nestOps files n)).move cs d).flatMap (leaves n) =
      (cs.flatMap (leaves n)).map (fun w => w.move d) :=
  ((concat_lawful (nest_lawful files n)).move cs d ⟨h0, hs⟩).2

/-- **C213.** The copy of a tree of exactly consecutive windows has the same windows. -/
theorem C213_copy {α β : Type} (files : WavFiles α) (n : ℕ) (cs : List (Nest α β n))
    (h0 : cs ≠ []) (hs : ∀ c ∈ cs, Filled n c) (hc : Cover files (cs.flatMap (leaves n))) :
    ∃ r, nestCopy (nestOps files n) cs = .ok r ∧ r ≠ [] ∧ (∀ c ∈ r, Filled n c) ∧
      r.flatMap (leaves n) = cs.flatMap (leaves n) := by
  obtain ⟨r, e1, e2, e3⟩ := (concat_lawful (nest_lawful files n)).copy cs ⟨h0, hs⟩ hc
  exact ⟨r, e1, e2.1, e2.2, e3⟩

/-- **C213.** A sub-window of a tree has the windows of the sub-window of the flat concatenation,
or raises the same exception. -/
theorem C213_crop {α β : Type} (files : WavFiles α) (n : ℕ) (cs : List (Nest α β n))
    (h0 : cs ≠ []) (hs : ∀ c ∈ cs, Filled n c) (hc : Cover files (cs.flatMap (leaves n)))
    (a b : ℚ) (hab : a ≤ b) :
    (nestGetSub (nestOps files n) cs a b).map (fun r => r.flatMap (leaves n)) =
      (Concat.getSub ⟨cs.flatMap (leaves n)⟩ a b).map (fun c => c.windows) := by
  have L := nest_lawful (β := β) files n
  have W := win_lawful (β := β) files
  have e1 : ∀ ws : List (Win α β), ws.flatMap (fun w => [w]) = ws := by
    intro ws; simp
  rw [← flat_getSub (files := files)]
  by_cases hin : (firstStart (cs.flatMap (leaves n)) ≤ a ∧ a ≤ lastStop (cs.flatMap (leaves n))) ∧
      (firstStart (cs.flatMap (leaves n)) ≤ b ∧ b ≤ lastStop (cs.flatMap (leaves n)))
  · obtain ⟨ws, g1, g2, g3⟩ := L.getSub h0 hs hc hin.1.1 hab hin.2.2
    obtain ⟨ws', g1', g2', g3'⟩ := W.getSub (cs := cs.flatMap (leaves n)) hc.nonempty
      (fun _ _ => trivial) (by rw [e1]; exact hc) (by rw [e1]; exact hin.1.1) hab
      (by rw [e1]; exact hin.2.2)
    rw [e1] at g1'
    have := g1.unique g1'
    subst this
    rcases le_or_gt (firstStart ws) b with hb | hb
    · obtain ⟨r, r1, r2, r3, r4⟩ := g2 hb
      obtain ⟨r', s1, s2, s3, s4⟩ := g2' hb
      rw [e1] at s4
      rw [r1, s1]
      exact congrArg Except.ok (r4.unique s4)
    · rw [g3 hb, g3' hb]
      rfl
  · rw [L.getSub_err h0 hs hin, W.getSub_err (cs := cs.flatMap (leaves n)) hc.nonempty
      (fun _ _ => trivial) (by rw [e1]; exact hin)]
    rfl

/-- **C213.** The crop of a tree may be cropped again: it has no empty concatenation. -/
theorem C213_crop_filled {α β : Type} (files : WavFiles α) (n : ℕ) (cs r : List (Nest α β n))
    (h0 : cs ≠ []) (hs : ∀ c ∈ cs, Filled n c) (hc : Cover files (cs.flatMap (leaves n)))
    (a b : ℚ) (hab : a ≤ b) (hr : nestGetSub (nestOps files n) cs a b = .ok r) :
    r ≠ [] ∧ ∀ c ∈ r, Filled n c := by
  have L := nest_lawful (β := β) files n
  by_cases hin : (firstStart (cs.flatMap (leaves n)) ≤ a ∧ a ≤ lastStop (cs.flatMap (leaves n))) ∧
      (firstStart (cs.flatMap (leaves n)) ≤ b ∧ b ≤ lastStop (cs.flatMap (leaves n)))
  · obtain ⟨ws, g1, g2, g3⟩ := L.getSub h0 hs hc hin.1.1 hab hin.2.2
    rcases le_or_gt (firstStart ws) b with hb | hb
    · obtain ⟨r', r1, r2, r3, r4⟩ := g2 hb
      rw [hr, Except.ok.injEq] at r1
      subst r1
      exact ⟨r2, r3⟩
    · rw [g3 hb] at hr; cases hr
  · rw [L.getSub_err h0 hs hin] at hr; cases hr

/-- **C213.** The samples of a tree are those of the flat concatenation, and exist exactly when
these exist. -/
theorem C213_samples {α β : Type} (files : WavFiles α) (n : ℕ) (cs : List (Nest α β n))
    (h0 : cs ≠ []) (hs : ∀ c ∈ cs, Filled n c) (r : ArrayWin α) :
    nestToArray (nestOps files n) cs = .ok r ↔
      Concat.toArray files ⟨cs.flatMap (leaves n)⟩ = .ok r :=
  (nest_lawful files n).nest_toArray h0 hs r

/-- **C213.** The element found at a time contains the window which the flat concatenation
finds. -/
theorem C213_lookup {α β : Type} (files : WavFiles α) (n : ℕ) (cs : List (Nest α β n))
    (h0 : cs ≠ []) (hs : ∀ c ∈ cs, Filled n c) (hc : Cover files (cs.flatMap (leaves n))) (t : ℚ)
    (h1 : firstStart (cs.flatMap (leaves n)) ≤ t) (h2 : t ≤ lastStop (cs.flatMap (leaves n))) :
    ∃ c w, nestGetSubAt (nestOps files n) cs t = .ok c ∧ c ∈ cs ∧
      Concat.getSubAt ⟨cs.flatMap (leaves n)⟩ t = .ok w ∧ w ∈ leaves n c ∧
      w.start ≤ t ∧ t ≤ w.stop := by
  have L := nest_lawful (β := β) files n
  have hcov := L.cover_child hs hc
  have hle : ∀ w ∈ cs.map (box (leaves n)), w.start ≤ w.stop := by
    intro w hw
    obtain ⟨c, hm, rfl⟩ := List.mem_map.mp hw
    exact (hcov c hm).le
  obtain ⟨pre', w', post', a1, a2, a3, a4, a5⟩ := Concat.fileIndex_ok ⟨cs.map (box (leaves n))⟩ _ _
    t (L.boxes hs hc.aligned) hle ((L.start_eq hs).symm.trans (L.nest_start h0 hs))
    ((L.stop_eq hs).symm.trans (L.nest_stop h0 hs)) h1 h2
  obtain ⟨pre, l2, rfl, rfl, g2⟩ := List.map_eq_append_iff.mp a1
  obtain ⟨c, post, rfl, rfl, rfl⟩ := List.map_eq_cons_iff.mp g2
  rw [← L.index_eq hs, List.length_map] at a2
  obtain ⟨p, w, q, b1, b2, b3, b4, b5⟩ := Concat.fileIndex_ok
    ⟨(pre ++ c :: post).flatMap (leaves n)⟩ _ _ t hc.aligned (fun w hw => (hc.good w hw).le)
    (flat_start hc.nonempty) (flat_stop hc.nonempty) h1 h2
  have hcm : c ∈ pre ++ c :: post := by simp
  have hget : ∀ {B : Type} (u v : List B) (x : B), pyGet (u ++ x :: v) (u.length : ℤ) = .ok x := by
    intro B u v x
    rw [pyGet_nat _ _ (by simp)]
    simp
  refine ⟨c, w, ?_, hcm, ?_, ?_, b4, b5⟩
  · unfold nestGetSubAt
    rw [a2]
    exact hget _ _ _
  · unfold Concat.getSubAt
    rw [b2]
    simp only [bind, Except.bind]
    simp only [] at b1
    rw [b1]
    exact hget _ _ _
  · -- the window is the first one of the element which ends at or after the time
    have ha5 : t ≤ lastStop (leaves n c) := a5
    have ha4 : firstStart (leaves n c) ≤ t := a4
    have hfl := Concat.fileIndex_ok ⟨leaves n c⟩ _ _ t (hcov c hcm).aligned
      (fun w hw => ((hcov c hcm).good w hw).le) (flat_start (hcov c hcm).nonempty)
      (flat_stop (hcov c hcm).nonempty) ha4 ha5
    obtain ⟨p', w', q', d1, d2, d3, d4, d5⟩ := hfl
    simp only [] at d1 b1
    have hbef : ∀ v ∈ pre.flatMap (leaves n), v.stop < t :=
      L.before (fun c hm => hs c (by simp [hm])) (fun c hm => hcov c (by simp [hm]))
        (fun c hm => a3 (box (leaves n) c) (List.mem_map_of_mem hm))
    have e : (pre.flatMap (leaves n) ++ p') ++ w' :: (q' ++ post.flatMap (leaves n)) =
        p ++ w :: q := by
      rw [← b1, List.flatMap_append, List.flatMap_cons, d1]
      simp
    obtain ⟨_, rfl, _⟩ := first_unique e (by
      intro v hv
      rcases List.mem_append.mp hv with hv | hv
      · exact hbef v hv
      · exact d3 v hv) d5 b3 b5
    rw [d1]; simp

theorem alignFrom_append {α β : Type} (t : ℚ) (us vs : List (Win α β)) :
    Concat.alignFrom t (us ++ vs) = Concat.alignFrom t us ++
      Concat.alignFrom (t + (us.map Win.duration).sum) vs := by
  induction us generalizing t with
  | nil => simp [Concat.alignFrom]
  | cons u us ih =>
    simp only [List.cons_append, Concat.alignFrom, List.map_cons, List.sum_cons]
    rw [ih]
    have : (u.move (t - u.start)).duration = u.duration := by
      have := move_spec u (t - u.start)
      unfold Win.duration
      linarith [this.2.1, this.2.2]
    rw [this, add_assoc]

/-- Aligning windows which are already aligned moves them all by the same delay. -/
theorem alignFrom_aligned {α β : Type} (t : ℚ) (w : Win α β) (ws : List (Win α β))
    (h : Aligned (w :: ws)) :
    Concat.alignFrom t (w :: ws) = (w :: ws).map (fun v => v.move (t - w.start)) := by
  induction ws generalizing t w with
  | nil => rfl
  | cons v ws ih =>
    rw [Concat.alignFrom, List.map_cons]
    obtain ⟨h1, h2⟩ := List.isChain_cons_cons.mp h
    have := move_spec w (t - w.start)
    rw [ih _ _ h2]
    have e : t + (w.move (t - w.start)).duration - v.start = t - w.start := by
      unfold Win.duration
      rw [h1]
      linarith [this.2.1, this.2.2]
    simp only [e]

theorem duration_sum {α β : Type} (ws : List (Win α β)) (h : Aligned ws) (h0 : ws ≠ []) :
    (ws.map Win.duration).sum = lastStop ws - firstStart ws := by
  induction ws with
  | nil => exact absurd rfl h0
  | cons w ws ih =>
    cases ws with
    | nil => simp [Win.duration, lastStop]
    | cons v ws =>
      obtain ⟨h1, h2⟩ := List.isChain_cons_cons.mp h
      rw [List.map_cons, List.sum_cons, ih h2 (by simp)]
      have e : lastStop (w :: v :: ws) = lastStop (v :: ws) :=
        lastStop_append (by simp) [w]
      rw [e, firstStart_cons, firstStart_cons, h1]
      unfold Win.duration
      ring

/-- **C213.** Aligning elements aligns their windows, if the windows of each element already
are. -/
theorem C213_align {α β : Type} (files : WavFiles α) (n : ℕ) (cs : List (Nest α β n))
    (hs : ∀ c ∈ cs, Filled n c) (hc : ∀ c ∈ cs, Aligned (leaves n c)) (t : ℚ) :
    ∃ r, nestAlignFrom (nestOps files n) t cs = .ok r ∧ (∀ c ∈ r, Filled n c) ∧
      r.flatMap (leaves n) = Concat.alignFrom t (cs.flatMap (leaves n)) := by
  have L := nest_lawful (β := β) files n
  induction cs generalizing t with
  | nil => exact ⟨[], rfl, by simp, rfl⟩
  | cons c cs ih =>
    have hsc := hs c (by simp)
    obtain ⟨m1, m2⟩ := L.move c (t - firstStart (leaves n c)) hsc
    obtain ⟨r, r1, r2, r3⟩ := ih (fun d hd => hs d (List.mem_cons_of_mem _ hd))
      (fun d hd => hc d (List.mem_cons_of_mem _ hd))
      (t + (lastStop (leaves n c) - firstStart (leaves n c)))
    have hmv : ∀ (ws : List (Win α β)) (d : ℚ), ws ≠ [] →
        firstStart (ws.map fun w => w.move d) = firstStart ws + d ∧
        lastStop (ws.map fun w => w.move d) = lastStop ws + d := by
      intro ws d hne
      constructor
      · cases ws with
        | nil => exact absurd rfl hne
        | cons w ws => exact (move_spec w d).2.1
      · rcases List.eq_nil_or_concat ws with rfl | ⟨ws, w, rfl⟩
        · exact absurd rfl hne
        · rw [List.concat_eq_append, List.map_append, List.map_singleton, lastStop_append_one,
            lastStop_append_one]
          exact (move_spec w d).2.2
    obtain ⟨f1, f2⟩ := hmv (leaves n c) (t - firstStart (leaves n c)) hsc.ne
    refine ⟨(nestOps files n).move c (t - firstStart (leaves n c)) :: r, ?_, ?_, ?_⟩
    · unfold nestAlignFrom
      rw [L.start c hsc]
      simp only [bind, Except.bind]
      rw [L.stop _ m1, L.start _ m1, m2, f1, f2]
      simp only []
      rw [show t + (lastStop (leaves n c) + (t - firstStart (leaves n c)) -
        (firstStart (leaves n c) + (t - firstStart (leaves n c)))) =
        t + (lastStop (leaves n c) - firstStart (leaves n c)) by ring, r1]
      rfl
    · intro d hd
      rcases List.mem_cons.mp hd with rfl | hd
      · exact m1
      · exact r2 d hd
    · rw [List.flatMap_cons, List.flatMap_cons, alignFrom_append, m2, r3,
        duration_sum _ (hc c (by simp)) hsc.ne]
      congr 1
      have hne := hsc.ne
      have ha := hc c (by simp)
      cases hl : leaves n c with
      | nil => exact absurd hl hne
      | cons w ws =>
        rw [hl] at ha
        rw [alignFrom_aligned t w ws ha, firstStart_cons]

end Verif.Window
