import Verif.Window.PropsConcat

/-!
# Properties C14-C16: labelled windows, frames and saving
-/

namespace Verif.Window

open Verif

/-! ## C14 -/

/-- Specification: `w'` is the part of `w` between `a` and `b`. -/
def IsPart {α β : Type} (a b : ℚ) (w w' : Win α β) : Prop :=
  ∃ x y : BasicWin β, w = .basic x ∧ w' = .basic y ∧ y.obj = x.obj ∧
    y.start = max a x.start ∧ y.stop = min b x.stop

theorem basic_getSub {α β : Type} (x : BasicWin β) {a b : ℚ} (h1 : x.start ≤ a) (h2 : a ≤ b)
    (h3 : b ≤ x.stop) :
    (Win.basic x : Win α β).getSub a b = .ok (.basic ⟨a, b, x.obj⟩) := by
  have := (C05_basic_subwindow x a b).1 ⟨⟨h1, h2.trans h3⟩, h1.trans h2, h3⟩
  rw [max_eq_right h2] at this
  simp only [Win.getSub, this, bind, Except.bind, pure, Except.pure]

/-- **C14.** Cropping aligned labelled windows to `[a, b]` succeeds, spans exactly `[a, b]`, gives
windows which are exactly aligned, and these are, in order, the parts between `a` and `b` of a
contiguous group of the original windows, with the same objects. The windows left out end before
`a` or start at or after `b`. -/
theorem C14_crop_concat_labelled {α β : Type} (c : Concat α β) (s e a b : ℚ)
    (hc : Aligned c.windows) (hbasic : ∀ w ∈ c.windows, ∃ x, w = .basic x)
    (hd : ∀ w ∈ c.windows, w.start ≤ w.stop) (hs : c.start = .ok s) (he : c.stop = .ok e)
    (ha : s ≤ a) (hab : a ≤ b) (hb : b ≤ e) :
    ∃ c' pre kept post, c.getSub a b = .ok c' ∧ c'.start = .ok a ∧ c'.stop = .ok b ∧
      Aligned c'.windows ∧ c.windows = pre ++ kept ++ post ∧
      List.Forall₂ (IsPart a b) kept c'.windows ∧
      (∀ w ∈ pre, w.stop < a) ∧ (∀ w ∈ post, b ≤ w.start) := by
  have hpw := hc.pairwise hd
  have hcopy : ∀ x : BasicWin β, (Win.basic x : Win α β).copy = .basic x := fun x => rfl
  rcases Concat.split_ok c s e a b hc hd hs he ha hab hb with
    ⟨pre, w, post, s1, s2, s3, s4, s5, s6⟩ |
    ⟨pre, w, mid, v, post, s1, s2, s3, s4, s5, s6, s7, s8, s9, s10⟩
  · obtain ⟨x, rfl⟩ := hbasic w (by rw [s1]; simp)
    have s5' : x.start ≤ a := s5
    have s6' : b ≤ x.stop := s6
    refine ⟨⟨[.basic ⟨a, b, x.obj⟩]⟩, pre, [.basic x], post, ?_, rfl, rfl, by simp [Aligned],
      by rw [s1]; simp, ?_, s4, ?_⟩
    · rw [Concat.getSub_single c a b pre post _ s1 s2 s3, hcopy]
      have h1 := basic_getSub (α := α) x s5' (hab.trans s6') le_rfl
      have h2 := basic_getSub (α := α) (β := β) ⟨a, x.stop, x.obj⟩ (le_refl a) hab s6'
      simp only [bind, Except.bind]
      rw [show (Win.basic x : Win α β).stop = x.stop from rfl, h1]
      simp only []
      rw [show (Win.basic ⟨a, x.stop, x.obj⟩ : Win α β).start = a from rfl, h2]
      exact Concat.init_ok (by simp) (by simp [Consecutive])
    · refine List.Forall₂.cons ⟨x, _, rfl, rfl, rfl, ?_, ?_⟩ List.Forall₂.nil
      · exact (max_eq_left s5').symm
      · exact (min_eq_left s6').symm
    · intro u hu
      rw [s1, List.pairwise_append] at hpw
      have := (List.pairwise_cons.mp hpw.2.1).1 u hu
      exact s6.trans this
  · obtain ⟨x, rfl⟩ := hbasic w (by rw [s1]; simp)
    obtain ⟨y, rfl⟩ := hbasic v (by rw [s1]; simp)
    have s5' : x.start ≤ a := s5
    have s6' : a ≤ x.stop := s6
    have s7' : x.stop < b := s7
    have s9' : y.start ≤ b := s9
    have s10' : b ≤ y.stop := s10
    rw [s1, List.pairwise_append] at hpw
    obtain ⟨hp1, hp2, hp3⟩ := hpw
    rw [List.pairwise_cons] at hp2
    obtain ⟨hp4, hp5⟩ := hp2
    rw [List.pairwise_append] at hp5
    obtain ⟨hp6, hp7, hp8⟩ := hp5
    have hxy : x.stop ≤ y.start := hp4 (.basic y) (by simp)
    have hmidcopy : mid.map Win.copy = mid := by
      have : ∀ u ∈ mid, u.copy = u := by
        intro u hu
        obtain ⟨z, rfl⟩ := hbasic u (by rw [s1]; simp [hu])
        rfl
      exact (List.map_congr_left this).trans (List.map_id' mid)
    have hal : Aligned ((Win.basic ⟨a, x.stop, x.obj⟩ : Win α β) :: (mid ++
        [.basic ⟨y.start, b, y.obj⟩])) := by
      have h0 : Aligned (Win.basic x :: (mid ++ [Win.basic y])) := by
        have h1 : Aligned (pre ++ (Win.basic x :: (mid ++ [Win.basic y])) ++ post) := by
          have : pre ++ (Win.basic x :: (mid ++ [Win.basic y])) ++ post = c.windows := by
            rw [s1]; simp
          rw [this]; exact hc
        exact h1.append.1.append.2
      unfold Aligned at h0 ⊢
      cases mid with
      | nil =>
        rw [List.nil_append, List.isChain_cons_cons] at h0 ⊢
        exact ⟨h0.1, by simp⟩
      | cons m mid =>
        rw [List.cons_append, List.isChain_cons_cons] at h0 ⊢
        refine ⟨h0.1, ?_⟩
        rw [← List.cons_append, List.isChain_append] at h0 ⊢
        obtain ⟨_, g1, g2, g3⟩ := h0
        refine ⟨g1, by simp, ?_⟩
        intro p hp q hq
        simp only [List.head?_cons, Option.mem_def, Option.some.injEq] at hq
        rw [← hq]
        exact g3 p hp (Win.basic y) rfl
    refine ⟨⟨.basic ⟨a, x.stop, x.obj⟩ :: (mid ++ [.basic ⟨y.start, b, y.obj⟩])⟩, pre,
      .basic x :: (mid ++ [.basic y]), post, ?_, rfl, ?_, hal, by rw [s1]; simp, ?_, s4, ?_⟩
    · rw [Concat.getSub_multi c a b pre mid post _ _ s1 s2 s3, hcopy, hcopy, hmidcopy]
      have h1 := basic_getSub (α := α) x s5' s6' le_rfl
      have h2 := basic_getSub (α := α) y le_rfl s9' s10'
      simp only [bind, Except.bind]
      rw [show (Win.basic x : Win α β).stop = x.stop from rfl, h1]
      simp only []
      rw [show (Win.basic y : Win α β).start = y.start from rfl, h2]
      exact Concat.init_ok (by simp) hal.consecutive
    · exact Concat.stop_append (α := α) (Win.basic ⟨y.start, b, y.obj⟩)
        (Win.basic ⟨a, x.stop, x.obj⟩ :: mid)
    · refine List.Forall₂.cons ⟨x, _, rfl, rfl, rfl, ?_, ?_⟩ ?_
      · exact (max_eq_left s5').symm
      · exact (min_eq_right s7'.le).symm
      · refine List.rel_append ?_ (List.Forall₂.cons ⟨y, _, rfl, rfl, rfl, ?_, ?_⟩ List.Forall₂.nil)
        · rw [List.forall₂_same]
          intro u hu
          obtain ⟨z, rfl⟩ := hbasic u (by rw [s1]; simp [hu])
          refine ⟨z, z, rfl, rfl, rfl, ?_, ?_⟩
          · refine (max_eq_right ?_).symm
            have : x.stop ≤ z.start := hp4 (.basic z) (by simp [hu])
            linarith
          · have : z.stop < b := s8 (.basic z) hu
            exact (min_eq_right this.le).symm
        · exact (max_eq_right (s6'.trans hxy)).symm
        · exact (min_eq_left s10').symm
    · intro u hu
      have := (List.pairwise_cons.mp hp7).1 u hu
      exact s10.trans this

example : let c : Concat ℕ String := ⟨[.basic ⟨0, 1, "a"⟩, .basic ⟨1, 3, "b"⟩, .basic ⟨3, 4, "c"⟩,
      .basic ⟨4, 9, "d"⟩]⟩
    Aligned c.windows ∧ (∀ w ∈ c.windows, ∃ x, w = .basic x) ∧
    (∀ w ∈ c.windows, w.start ≤ w.stop) ∧ c.start = .ok 0 ∧ c.stop = .ok 9 ∧
    c.getSub 2 6 = .ok ⟨[.basic ⟨2, 3, "b"⟩, .basic ⟨3, 4, "c"⟩, .basic ⟨4, 6, "d"⟩]⟩ := by
  intro c
  refine ⟨?_, ?_, ?_, rfl, rfl, by decide +kernel⟩
  · simp [c, Aligned, Win.stop, Win.start]
  · simp [c]
  · simp [c, Win.stop, Win.start]
    norm_num

/-! ## C15 -/

/-- **C15.** Frames at a given rate: when the interval is at least as long as the tolerance, the
result is made of exactly aligned frames without object which start at `tStart + i / rate` and
cover `[tStart, tEnd]`; all have duration `1 / rate` but the last one, which is not empty and lasts
less than `1 / rate` plus the tolerance. Shorter intervals raise `ValueError`. -/
theorem C15_frames {α γ : Type} (tStart tEnd rate : ℚ) (hr : 0 < rate) (hr' : 2 * TOL * rate ≤ 1) :
    (tEnd - tStart < TOL →
      (concatOfFrames tStart tEnd rate : Py (Concat α (Option γ))) = .error .valueError) ∧
    (TOL ≤ tEnd - tStart →
      ∃ c : Concat α (Option γ), concatOfFrames tStart tEnd rate = .ok c ∧
        c.start = .ok tStart ∧ c.stop = .ok tEnd ∧ Aligned c.windows ∧
        ∀ (i : ℕ) (w : Win α (Option γ)), c.windows[i]? = some w →
          (∃ x, w = .basic x ∧ x.obj = none) ∧
          w.start = tStart + (i : ℚ) / rate ∧ w.start < w.stop ∧
          (i + 1 < c.windows.length → w.stop - w.start = 1 / rate) ∧
          w.stop - w.start < 1 / rate + TOL) := by
  have hstep : 2 * TOL ≤ 1 / rate := by rwa [le_div_iff₀ hr]
  have hT := TOL_pos
  have hpos : 0 < 1 / rate := by positivity
  obtain ⟨m, border, he, hm, -, hb2⟩ := C02_arange tStart tEnd (1 / rate) TOL false hT hstep
  have hb := hb2 (by simp)
  subst hb
  rw [List.append_nil] at he
  have hws : slider tStart tEnd (1 / rate) (1 / rate) true TOL = (List.range m).map
      (fun i : ℕ => (tStart + (i : ℚ) * (1 / rate),
        snapAbove (tStart + (i : ℚ) * (1 / rate) + 1 / rate) tEnd TOL)) := by
    unfold slider
    simp only [if_true, Bool.not_true]
    rw [he, List.map_map]
    rfl
  have hsucc : ∀ i : ℕ, tStart + (i : ℚ) * (1 / rate) + 1 / rate =
      tStart + ((i + 1 : ℕ) : ℚ) * (1 / rate) := by
    intro i; push_cast; ring
  -- the end of a frame
  have hend : ∀ i : ℕ, i < m →
      snapAbove (tStart + (i : ℚ) * (1 / rate) + 1 / rate) tEnd TOL =
        if i + 1 < m then tStart + ((i + 1 : ℕ) : ℚ) * (1 / rate) else tEnd := by
    intro i _
    rw [hsucc]
    unfold snapAbove
    have := hm (i + 1)
    by_cases h1 : i + 1 < m
    · rw [if_pos h1, if_neg]
      rw [not_lt]; exact this.1 h1
    · rw [if_neg h1, if_pos]
      by_contra h2
      rw [not_lt] at h2
      exact h1 (this.2 h2)
  unfold concatOfFrames
  simp only []
  rw [hws]
  constructor
  · intro hlt
    have hm0 : m = 0 := by
      by_contra h
      have := (hm 0).1 (Nat.pos_of_ne_zero h)
      push_cast at this
      linarith
    subst hm0
    exact Concat.init_err (Or.inl rfl)
  · intro hle
    have hm0 : 0 < m := by
      refine (hm 0).2 ?_
      push_cast
      linarith
    set ws : List (Win α (Option γ)) := (((List.range m).map
      (fun i : ℕ => (tStart + (i : ℚ) * (1 / rate),
        snapAbove (tStart + (i : ℚ) * (1 / rate) + 1 / rate) tEnd TOL))).map
          fun p => Win.basic ⟨p.1, p.2, none⟩) with hwsdef
    have hlen : ws.length = m := by simp [hwsdef]
    have hget : ∀ i (h : i < ws.length), ws[i] = Win.basic ⟨tStart + (i : ℚ) * (1 / rate),
        if i + 1 < m then tStart + ((i + 1 : ℕ) : ℚ) * (1 / rate) else tEnd, none⟩ := by
      intro i h
      rw [hlen] at h
      rw [← hend i h]
      simp [hwsdef]
    have hal : Aligned ws := by
      unfold Aligned
      rw [List.isChain_iff_getElem]
      intro i hi
      rw [hget, hget]
      simp only [Win.start, Win.stop]
      rw [if_pos (by omega)]
    refine ⟨⟨ws⟩, Concat.init_ok ?_ hal.consecutive, ?_, ?_, hal, ?_⟩
    · rw [← List.length_pos_iff, hlen]; exact hm0
    · unfold Concat.start
      simp only []
      rw [List.head?_eq_getElem?, List.getElem?_eq_getElem (by omega), hget]
      simp [Win.start]
    · unfold Concat.stop
      simp only []
      rw [List.getLast?_eq_getElem?, List.getElem?_eq_getElem (by omega), hget]
      simp only [Win.stop]
      rw [if_neg (by omega)]
    · intro i w hw
      obtain ⟨hi, rfl⟩ := List.getElem?_eq_some_iff.mp hw
      have hi' : i < ws.length := hi
      have him : i < m := by omega
      have hile := (hm i).1 him
      simp only [] at hi ⊢
      rw [hget i hi']
      refine ⟨⟨_, rfl, rfl⟩, by simp only [Win.start]; ring, ?_, ?_, ?_⟩
      · simp only [Win.start, Win.stop]
        split_ifs
        · rw [← hsucc]; linarith
        · linarith
      · intro h1
        simp only [Win.start, Win.stop]
        rw [if_pos (by omega), ← hsucc]
        ring
      · simp only [Win.start, Win.stop]
        split_ifs with h1
        · rw [← hsucc]; linarith
        · have := hm (i + 1)
          have h2 : ¬ (tStart + ((i + 1 : ℕ) : ℚ) * (1 / rate) ≤ tEnd - TOL) := fun h => h1 (this.2 h)
          rw [not_le, ← hsucc] at h2
          linarith

example : (concatOfFrames 0 1 4 : Py (Concat ℕ (Option ℕ))) =
      .ok ⟨[.basic ⟨0, 1 / 4, none⟩, .basic ⟨1 / 4, 1 / 2, none⟩, .basic ⟨1 / 2, 3 / 4, none⟩,
        .basic ⟨3 / 4, 1, none⟩]⟩ ∧
    (concatOfFrames 0 1 (3 / 2) : Py (Concat ℕ (Option ℕ))) =
      .ok ⟨[.basic ⟨0, 2 / 3, none⟩, .basic ⟨2 / 3, 1, none⟩]⟩ ∧ 2 * TOL * 4 ≤ 1 := by
  refine ⟨?_, ?_, ?_⟩ <;> decide +kernel

/-! ## C16 -/

/-- **C16.** Concatenating array windows raises `ValueError` when the list is empty or when two
rates differ; otherwise it puts the samples one after the other, starting when the first window
starts. -/
theorem C16_concatenate {α : Type} (wins : List (ArrayWin α)) :
    ((wins = [] ∨ ∃ u ∈ wins, ∃ v ∈ wins, u.rate ≠ v.rate) →
      ArrayWin.concatenate wins = .error .valueError) ∧
    (∀ w ws, wins = w :: ws → (∀ u ∈ wins, ∀ v ∈ wins, u.rate = v.rate) →
      ∃ c, ArrayWin.concatenate wins = .ok c ∧ c.array = wins.flatMap (fun u => u.array) ∧
        c.start = w.start ∧ c.rate = w.rate ∧
        c.stop = c.start + (c.array.length : ℚ) / c.rate) := by
  constructor
  · rintro (rfl | ⟨u, hu, v, hv, huv⟩)
    · rfl
    · cases wins with
      | nil => cases hu
      | cons w ws =>
        unfold ArrayWin.concatenate
        simp only []
        rw [if_neg]
        rw [List.all_eq_true]
        intro hall
        have h1 := hall u hu
        have h2 := hall v hv
        rw [beq_iff_eq] at h1 h2
        exact huv (h1.trans h2.symm)
  · rintro w ws rfl hall
    unfold ArrayWin.concatenate
    simp only []
    rw [if_pos]
    · refine ⟨_, rfl, ?_, rfl, rfl, ArrayWin.init_consistent _ _ _⟩
      simp [ArrayWin.init, List.flatMap]
    · rw [List.all_eq_true]
      intro u hu
      rw [beq_iff_eq]
      exact hall u hu w List.mem_cons_self

theorem pySlice_full {α : Type*} (l : List α) : pySlice l 0 (l.length : ℤ) = l := by
  rw [← Nat.cast_zero (R := ℤ), pySlice_nat]
  simp

theorem mapM_align_wavs {α : Type} (files : WavFiles α) (paths : List String) (t : ℚ) :
    ∃ arrays : List (ArrayWin α),
      (Concat.alignFrom t (paths.map fun f => (Win.wav (WavWin.init files f 0) : Win α Unit))).mapM
        (Win.toArray files) = .ok arrays ∧
      arrays.map (fun w => w.array) = paths.map (fun p => (files p).2) ∧
      arrays.map (fun w => w.rate) = paths.map (fun p => (files p).1) := by
  induction paths generalizing t with
  | nil => exact ⟨[], rfl, rfl, rfl⟩
  | cons p paths ih =>
    rw [List.map_cons, Concat.alignFrom]
    obtain ⟨arrays, h1, h2, h3⟩ := ih
      (t + ((Win.wav (WavWin.init files p 0) : Win α Unit).move
        (t - (Win.wav (WavWin.init files p 0) : Win α Unit).start)).duration)
    rw [List.mapM_cons, h1]
    refine ⟨_, rfl, ?_, ?_⟩
    · simp only [List.map_cons, h2]
      congr 1
      show pySlice (files p).2 0 ((files p).2.length : ℤ) = _
      exact pySlice_full _
    · simp only [List.map_cons, h3]
      rfl

/-- **C16.** Saving the concatenation of a non-empty list of wav files which have the same rate
writes the samples of all the files, in order, at this rate; with different rates it raises
`ValueError`. -/
theorem C16_save_wavs {α : Type} (files : WavFiles α) (p : String) (ps : List String)
    (start : Option ℚ) :
    ∃ c, concatFromListOfWavs files (p :: ps) start = .ok c ∧
      ((∀ q ∈ ps, (files q).1 = (files p).1) →
        saveWav files c = .ok ((files p).1, (p :: ps).flatMap (fun q => (files q).2))) ∧
      ((∃ q ∈ ps, (files q).1 ≠ (files p).1) → saveWav files c = .error .valueError) := by
  set ws : List (Win α Unit) := (p :: ps).map fun f => Win.wav (WavWin.init files f 0) with hws
  set t : ℚ := start.getD (0 : ℚ) with ht
  have halign : Concat.align ws start = .ok (Concat.alignFrom t ws) := by
    cases start <;> rfl
  obtain ⟨arrays, h1, h2, h3⟩ := mapM_align_wavs files (p :: ps) t
  have hne : Concat.alignFrom t ws ≠ [] := by simp [hws, Concat.alignFrom]
  refine ⟨⟨Concat.alignFrom t ws⟩, ?_, ?_, ?_⟩
  · unfold concatFromListOfWavs
    rw [halign]
    exact Concat.init_ok hne (alignFrom_spec ws t).2.1.consecutive
  · intro hall
    have hrate : ∀ u ∈ arrays, u.rate = (files p).1 := by
      intro u hu
      have : u.rate ∈ arrays.map (fun w => w.rate) := List.mem_map_of_mem hu
      rw [h3] at this
      obtain ⟨q, hq, hq'⟩ := List.mem_map.mp this
      rw [← hq']
      rcases List.mem_cons.mp hq with rfl | hq
      · rfl
      · exact hall q hq
    cases arrays with
    | nil => simp at h3
    | cons a0 as =>
      obtain ⟨c, c1, c2, c3, c4, -⟩ := (C16_concatenate (a0 :: as)).2 a0 as rfl
        (fun u hu v hv => (hrate u hu).trans (hrate v hv).symm)
      unfold saveWav Concat.toArray
      simp only []
      rw [h1]
      simp only [hws, List.map_cons, Concat.alignFrom, List.head?_cons, Win.move, bind,
        Except.bind, pure, Except.pure, c1, c2]
      rw [List.flatMap, h2]
      rfl
  · rintro ⟨q, hq, hne'⟩
    have hq' : (files q).1 ∈ arrays.map (fun w => w.rate) := by
      rw [h3]; exact List.mem_map.mpr ⟨q, List.mem_cons_of_mem _ hq, rfl⟩
    have hp' : (files p).1 ∈ arrays.map (fun w => w.rate) := by
      rw [h3]; exact List.mem_map.mpr ⟨p, List.mem_cons_self, rfl⟩
    obtain ⟨u, hu, hu'⟩ := List.mem_map.mp hq'
    obtain ⟨v, hv, hv'⟩ := List.mem_map.mp hp'
    have hcat := (C16_concatenate arrays).1 (Or.inr ⟨u, hu, v, hv, by rw [hu', hv']; exact hne'⟩)
    unfold saveWav Concat.toArray
    simp only []
    rw [h1]
    simp only [hws, List.map_cons, Concat.alignFrom, List.head?_cons, Win.move, bind,
      Except.bind, hcat]

example : let files : WavFiles ℕ := fun p => if p = "a" then (2, [1, 2, 3]) else (2, [7, 8])
    (concatFromListOfWavs files ["a", "b"] (some 5)) =
      .ok ⟨[.wav ⟨"a", 5, 13 / 2, 2, 0, 3⟩, .wav ⟨"b", 13 / 2, 15 / 2, 2, 0, 2⟩]⟩ ∧
    saveWav (β := Unit) files ⟨[.wav ⟨"a", 5, 13 / 2, 2, 0, 3⟩,
      .wav ⟨"b", 13 / 2, 15 / 2, 2, 0, 2⟩]⟩ = .ok (2, [1, 2, 3, 7, 8]) := by
  intro files
  constructor <;> decide +kernel

end Verif.Window
