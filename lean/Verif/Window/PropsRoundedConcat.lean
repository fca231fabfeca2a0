import Verif.Window.PropsRounded

/-!
# Property C193: concatenated files with rounded operations
-/

namespace Verif.Window.Fl

open Verif Verif.Window

variable {fl : ℚ → ℚ} {α : Type}

/-! ### Specification -/

/-- The window of a whole file which starts at a float, with samples, in the first million seconds. -/
structure Whole (fl : ℚ → ℚ) (w : WavWin) (n : ℕ) : Prop where
  fresh : Fresh fl w
  start : fl w.start = w.start
  nonneg : 0 ≤ w.start
  first : w.startAfter = 0
  last : w.stopIndex = n
  pos : 1 ≤ n
  rate1 : 1 ≤ w.rate
  rate2 : w.rate ≤ 10 ^ 6
  bound : w.start + n / w.rate ≤ 10 ^ 6 - 2

/-- Windows of files, one after another up to rounding. -/
structure Built (fl : ℚ → ℚ) (ws : List WavWin) : Prop where
  whole : ∀ w ∈ ws, ∃ n, Whole fl w n
  chain : ws.IsChain fun w v => v.start = fl (w.start + fl (w.stop - w.start))

/-! ### Times -/

theorem Whole.stop_near (h : IsRounding fl) {w : WavWin} {n : ℕ} (hw : Whole fl w n) :
    |w.stop - (w.start + n / w.rate)| ≤ 3 / 10 ^ 10 := by
  have hf := hw.fresh
  unfold Fresh at hf
  rw [hw.first, hw.last, sub_zero] at hf
  rw [hf]
  have := bound_near h hw.rate1 hw.rate2 (s := w.start) (k := (n : ℤ)) (by omega) (by
    rw [abs_of_nonneg hw.nonneg]
    have := hw.bound
    push_cast
    linarith)
  simpa using this

theorem Whole.length {w : WavWin} {n : ℕ} (hw : Whole fl w n) : (1 : ℚ) / 10 ^ 6 ≤ n / w.rate := by
  have h1 := hw.rate1
  have h2 := hw.rate2
  have : (1 : ℚ) ≤ n := by exact_mod_cast hw.pos
  calc (1 : ℚ) / 10 ^ 6 ≤ 1 / w.rate := by gcongr
    _ ≤ n / w.rate := by gcongr

theorem Whole.le_stop (h : IsRounding fl) {w : WavWin} {n : ℕ} (hw : Whole fl w n) : w.start + 1 / 10 ^ 7 ≤ w.stop := by
  have := abs_le.1 (hw.stop_near h)
  have := hw.length
  linarith

/-- The next window starts near the end, and no float is between. -/
theorem next_near (h : IsRounding fl) {w : WavWin} {n : ℕ} (hw : Whole fl w n) :
    |fl (w.start + fl (w.stop - w.start)) - w.stop| ≤ 3 / 10 ^ 10 ∧
    ∀ x, fl x = x → w.stop < x → fl (w.start + fl (w.stop - w.start)) ≤ x := by
  have hl := hw.le_stop h
  have hs := abs_le.1 (hw.stop_near h)
  have hb := hw.bound
  have h0 := hw.nonneg
  have e1 := abs_le.1 (err h (x := w.stop - w.start) (B := 10 ^ 6) (by rw [abs_of_nonneg (by linarith)]; linarith))
  have e2 := abs_le.1 (err h (x := w.start + fl (w.stop - w.start)) (B := 10 ^ 6) (by
    rw [abs_of_nonneg (by linarith)]
    linarith))
  constructor
  · rw [abs_le]
    constructor <;> linarith
  · intro x hx hlt
    have hf : fl w.stop = w.stop := by
      have := hw.fresh
      unfold Fresh at this
      rw [this, h.idem]
    have g := abs_le.1 (h.gap (w.stop - w.start) w.stop x (by linarith) (by linarith) hf hx hlt)
    rw [← hx]
    apply h.mono
    linarith

/-! ### Consecutive windows -/

/-- What is checked when windows are concatenated. -/
theorem concatInit_ok {β : Type} {ws : List (Win α β)} (h0 : ws ≠ []) (ht : 0 ≤ TOL fl)
    (h : ws.IsChain fun w v => |fl (w.stop - v.start)| ≤ TOL fl) : concatInit fl ws = .ok ⟨ws⟩ := by
  unfold concatInit
  have hl : ¬ ws.length < 1 := by
    have := List.length_pos_iff.mpr h0
    omega
  rw [if_neg hl]
  simp only []
  rw [if_neg]
  rw [not_lt, foldl_max_le_iff]
  refine ⟨ht, ?_⟩
  intro x hx
  rcases List.mem_append.1 hx with hx | hx
  · clear h0 hl
    induction ws with
    | nil => simp [Concat.ends] at hx
    | cons w ws ih =>
      cases ws with
      | nil => simp [Concat.ends] at hx
      | cons v ws =>
        rw [List.isChain_cons_cons] at h
        have e : (List.zip (Concat.ends (w :: v :: ws)).dropLast (((w :: v :: ws).drop 1).map Win.start)).map
            (fun p => |fl (p.1 - p.2)|) = |fl (w.stop - v.start)| ::
            (List.zip (Concat.ends (v :: ws)).dropLast (((v :: ws).drop 1).map Win.start)).map
              (fun p => |fl (p.1 - p.2)|) := by
          simp [Concat.ends]
        rw [e] at hx
        rcases List.mem_cons.1 hx with rfl | hx
        · exact h.1
        · exact ih h.2 (by exact List.mem_append_left _ hx) hx
  · rw [List.mem_singleton] at hx
    rw [hx]
    exact ht

theorem close (h : IsRounding fl) {x y : ℚ} (hxy : |x - y| ≤ 5 / 10 ^ 9) : |fl (x - y)| ≤ TOL fl := by
  have e := abs_le.1 (err h hxy)
  have t := abs_le.1 (tol_near h)
  have := abs_le.1 hxy
  rw [abs_le]
  constructor <;> linarith

theorem tol_nonneg (h : IsRounding fl) : 0 ≤ TOL fl := by
  have t := abs_le.1 (tol_near h)
  linarith

theorem Built.tail {w : WavWin} {ws : List WavWin} (hb : Built fl (w :: ws)) : Built fl ws :=
  ⟨fun v hv => hb.whole v (List.mem_cons_of_mem _ hv), hb.chain.tail⟩

theorem Built.lt (h : IsRounding fl) {w v : WavWin} {ws : List WavWin} (hb : Built fl (w :: v :: ws)) :
    w.stop < v.stop ∧ |v.start - w.stop| ≤ 3 / 10 ^ 10 ∧ ∀ x, fl x = x → w.stop < x → v.start ≤ x := by
  obtain ⟨n, hw⟩ := hb.whole w List.mem_cons_self
  obtain ⟨m, hv⟩ := hb.whole v (List.mem_cons_of_mem _ List.mem_cons_self)
  have hc := (List.isChain_cons_cons.1 hb.chain).1
  obtain ⟨n1, n2⟩ := next_near h hw
  rw [← hc] at n1 n2
  refine ⟨?_, n1, n2⟩
  have := abs_le.1 n1
  have := hv.le_stop h
  linarith

theorem Built.sorted (h : IsRounding fl) {ws : List WavWin} (hb : Built fl ws) :
    ws.Pairwise fun w v => w.stop < v.stop := by
  have hch : ws.IsChain fun w v => w.stop < v.stop := by
    induction ws with
    | nil => exact List.IsChain.nil
    | cons w ws ih =>
      cases ws with
      | nil => exact List.IsChain.singleton _
      | cons v ws => exact List.isChain_cons_cons.2 ⟨(hb.lt h).1, ih hb.tail⟩
  have : IsTrans WavWin (fun w v => w.stop < v.stop) := ⟨fun _ _ _ => lt_trans⟩
  exact List.isChain_iff_pairwise.1 hch

theorem Built.consecutive (h : IsRounding fl) {ws : List WavWin} (hb : Built fl ws) :
    (ws.map (Win.wav (α := α) (β := Unit))).IsChain fun w v => |fl (w.stop - v.start)| ≤ TOL fl := by
  induction ws with
  | nil => exact List.IsChain.nil
  | cons w ws ih =>
    cases ws with
    | nil => exact List.IsChain.singleton _
    | cons v ws =>
      refine List.isChain_cons_cons.2 ⟨?_, ih hb.tail⟩
      have := abs_le.1 (hb.lt h).2.1
      apply close h
      show |w.stop - v.start| ≤ _
      rw [abs_le]
      constructor <;> linarith

/-! ### Concatenation of files -/

/-- The windows of files from a time. -/
def windowsFrom (fl : ℚ → ℚ) (files : WavFiles α) : ℚ → List String → List WavWin
  | _, [] => []
  | t, p :: ps =>
    let stop := fl (t + samplesToDuration fl (files p).1 (files p).2.length)
    ⟨p, t, stop, (files p).1, 0, (files p).2.length⟩ :: windowsFrom fl files (fl (t + fl (stop - t))) ps

theorem align_files (h : IsRounding fl) (files : WavFiles α) (paths : List String) {t : ℚ} (ht : fl t = t) :
    alignFrom fl t (paths.map fun f => (Win.wav (wavInit fl files f 0) : Win α Unit)) =
      (windowsFrom fl files t paths).map Win.wav := by
  induction paths generalizing t with
  | nil => rfl
  | cons p ps ih =>
    have hd : fl (samplesToDuration fl (files p).1 (files p).2.length) =
        samplesToDuration fl (files p).1 (files p).2.length := h.idem _
    have hm : move fl (Win.wav (wavInit fl files p 0) : Win α Unit) (fl (t - (wavInit fl files p 0).start)) =
        .wav ⟨p, t, fl (t + samplesToDuration fl (files p).1 (files p).2.length), (files p).1, 0, (files p).2.length⟩ := by
      unfold move wavMove wavInit wavInitWith
      simp only [zero_add, sub_zero, hd, ht]
      rw [add_comm]
    rw [List.map_cons]
    unfold alignFrom
    have hm' : move fl (Win.wav (wavInit fl files p 0) : Win α Unit)
        (fl (t - (Win.wav (wavInit fl files p 0) : Win α Unit).start)) = _ := hm
    simp only [hm']
    unfold windowsFrom
    rw [List.map_cons]
    congr 1
    exact ih (h.idem _)

/-- The files: samples, and rates between 1 and 10 ^ 6. -/
def Readable (files : WavFiles α) (paths : List String) : Prop :=
  ∀ p ∈ paths, 1 ≤ (files p).1 ∧ (files p).1 ≤ 10 ^ 6 ∧ (files p).2 ≠ []

/-- The sum of the lengths of files, in seconds. -/
def lengths (files : WavFiles α) (paths : List String) : ℚ := (paths.map fun p => ((files p).2.length : ℚ) / (files p).1).sum

theorem windows_built (h : IsRounding fl) (files : WavFiles α) (paths : List String) {t : ℚ} (ht : fl t = t) (h0 : 0 ≤ t)
    (hr : Readable files paths) (hd : t + lengths files paths + paths.length / 10 ^ 9 ≤ 10 ^ 6 - 2) :
    Built fl (windowsFrom fl files t paths) ∧ (∀ w ∈ (windowsFrom fl files t paths).head?, w.start = t) ∧
    ∀ (q : ℕ) (w : WavWin), (windowsFrom fl files t paths)[q]? = some w → ∃ p, paths[q]? = some p ∧ w.path = p ∧
      w.rate = (files p).1 ∧ Whole fl w (files p).2.length ∧
      |w.start - (t + lengths files (paths.take q))| ≤ q / 10 ^ 9 := by
  induction paths generalizing t with
  | nil => exact ⟨⟨by simp [windowsFrom], List.IsChain.nil⟩, by simp [windowsFrom], by simp [windowsFrom]⟩
  | cons p ps ih =>
    obtain ⟨r1, r2, r3⟩ := hr p List.mem_cons_self
    have hlen : ((p :: ps).length : ℚ) = ps.length + 1 := by push_cast [List.length_cons]; ring
    rw [hlen] at hd
    have hL : lengths files (p :: ps) = ((files p).2.length : ℚ) / (files p).1 + lengths files ps := by
      simp [lengths]
    rw [hL] at hd
    have hps : 0 ≤ lengths files ps := by
      apply List.sum_nonneg
      intro x hx
      obtain ⟨y, hy, rfl⟩ := List.mem_map.1 hx
      have := (hr y (List.mem_cons_of_mem _ hy)).1
      positivity
    have hl0 : (0 : ℚ) ≤ ps.length := by positivity
    set w : WavWin := ⟨p, t, fl (t + samplesToDuration fl (files p).1 (files p).2.length), (files p).1, 0,
      (files p).2.length⟩ with hwd
    have hw : Whole fl w (files p).2.length := by
      refine ⟨?_, ht, h0, rfl, rfl, ?_, r1, r2, ?_⟩
      · unfold Fresh
        rw [hwd]
        simp only [sub_zero]
      · exact List.length_pos_iff.2 r3
      · rw [hwd]
        simp only []
        linarith
    have hstop := abs_le.1 (hw.stop_near h)
    obtain ⟨n1, n2⟩ := next_near h hw
    have n1' := abs_le.1 n1
    have hle := hw.le_stop h
    have hws : w.start = t := rfl
    have hwr : w.rate = (files p).1 := rfl
    set t' := fl (w.start + fl (w.stop - w.start)) with ht'
    rw [hws, hwr] at hstop
    rw [hws] at hle
    obtain ⟨i1, i2, i3⟩ := ih (t := t') (by rw [ht', h.idem]) (by linarith)
      (fun q hq => hr q (List.mem_cons_of_mem _ hq)) (by linarith)
    have hcons : windowsFrom fl files t (p :: ps) = w :: windowsFrom fl files t' ps := rfl
    rw [hcons]
    refine ⟨⟨?_, ?_⟩, by simp [hws], ?_⟩
    · intro v hv
      rcases List.mem_cons.1 hv with rfl | hv
      · exact ⟨_, hw⟩
      · exact i1.whole v hv
    · cases hcase : windowsFrom fl files t' ps with
      | nil => exact List.IsChain.singleton _
      | cons v vs =>
        rw [hcase] at i1 i2
        exact List.isChain_cons_cons.2 ⟨i2 v (by simp), i1.chain⟩
    · intro q v hv
      cases q with
      | zero =>
        rw [List.getElem?_cons_zero] at hv
        cases hv
        exact ⟨p, rfl, rfl, rfl, hw, by simp [lengths, hws]⟩
      | succ q =>
        rw [List.getElem?_cons_succ] at hv
        obtain ⟨p', e1, e2, e3, e4, e5⟩ := i3 q v hv
        refine ⟨p', e1, e2, e3, e4, ?_⟩
        have hT : lengths files ((p :: ps).take (q + 1)) =
            ((files p).2.length : ℚ) / (files p).1 + lengths files (ps.take q) := by simp [lengths]
        rw [hT]
        have := abs_le.1 e5
        push_cast
        rw [abs_le]
        constructor <;> linarith

/-- **C193, concatenation.** With rounded operations, files are concatenated without error: each window is the one of its
file, and starts at the sum of the lengths of the files before it, up to one nanosecond for each of them. -/
theorem C193_build (h : IsRounding fl) (files : WavFiles α) {paths : List String} (hne : paths ≠ []) {start : Option ℚ}
    (ht : fl (start.getD 0) = start.getD 0) (h0 : 0 ≤ start.getD 0) (hr : Readable files paths)
    (hd : start.getD 0 + lengths files paths + paths.length / 10 ^ 9 ≤ 10 ^ 6 - 2) :
    ∃ ws, concatFromListOfWavs fl files paths start = .ok ⟨ws.map Win.wav⟩ ∧ Built fl ws ∧ ws.length = paths.length ∧
      (∀ w ∈ ws.head?, w.start = start.getD 0) ∧
      ∀ (q : ℕ) (w : WavWin), ws[q]? = some w → ∃ p, paths[q]? = some p ∧ w.path = p ∧ w.rate = (files p).1 ∧
        Whole fl w (files p).2.length ∧
        |w.start - (start.getD 0 + lengths files (paths.take q))| ≤ q / 10 ^ 9 := by
  obtain ⟨b1, b2, b3⟩ := windows_built h files paths ht h0 hr hd
  have hlen : (windowsFrom fl files (start.getD 0) paths).length = paths.length := by
    have : ∀ t, (windowsFrom fl files t paths).length = paths.length := by
      clear hne hr hd b1 b2 b3
      induction paths with
      | nil => intro t; rfl
      | cons p ps ih => intro t; unfold windowsFrom; rw [List.length_cons, ih, List.length_cons]
    exact this _
  refine ⟨_, ?_, b1, hlen, b2, b3⟩
  have hal : align fl (paths.map fun f => (Win.wav (wavInit fl files f 0) : Win α Unit)) start =
      .ok ((windowsFrom fl files (start.getD 0) paths).map Win.wav) := by
    cases start with
    | some t =>
      unfold align
      exact congrArg _ (align_files h files paths ht)
    | none =>
      obtain ⟨p, ps, rfl⟩ := List.exists_cons_of_ne_nil hne
      unfold align
      exact congrArg _ (align_files h files (p :: ps) (t := 0) ht)
  unfold concatFromListOfWavs
  rw [hal]
  exact concatInit_ok (by
    intro hnil
    have := congrArg List.length hnil
    rw [List.length_map, hlen] at this
    exact hne (List.length_eq_zero_iff.1 this)) (tol_nonneg h) (b1.consecutive h)

/-! ### Windows by time -/

/-- The windows of a list around a time. -/
structure Around (ws : List WavWin) (x : ℚ) (pre : List WavWin) (w : WavWin) (post : List WavWin) : Prop where
  split : ws = pre ++ w :: post
  before : ∀ v ∈ pre, v.stop < x
  start : w.start ≤ x
  stop : x ≤ w.stop

theorem fileIndex_around (h : IsRounding fl) {ws pre post : List WavWin} {w : WavWin} (hb : Built fl ws) {x : ℚ}
    (ha : Around ws x pre w post) (hx : ∀ v ∈ ws.head?, v.start ≤ x) :
    (⟨ws.map Win.wav⟩ : Concat α Unit).fileIndex x = .ok pre.length := by
  have hs := hb.sorted h
  have hlast : ∃ l, ws.getLast? = some l ∧ x ≤ l.stop := by
    rw [ha.split, List.getLast?_append, List.getLast?_cons]
    refine ⟨_, rfl, ?_⟩
    rw [ha.split, List.pairwise_append, List.pairwise_cons] at hs
    cases hp : post.getLast? with
    | none => exact ha.stop
    | some l => exact ha.stop.trans (hs.2.1.1 l (List.mem_of_getLast? hp)).le
  obtain ⟨l, hl, hxl⟩ := hlast
  have hhead : ∃ f, ws.head? = some f := by
    cases ws with
    | nil => simp at hl
    | cons f _ => exact ⟨f, rfl⟩
  obtain ⟨f, hf⟩ := hhead
  have e1 : (⟨ws.map Win.wav⟩ : Concat α Unit).start = .ok f.start := by
    unfold Concat.start
    simp only [List.head?_map, hf, Option.map_some]
    rfl
  have e2 : (⟨ws.map Win.wav⟩ : Concat α Unit).stop = .ok l.stop := by
    unfold Concat.stop
    simp only [List.getLast?_map, hl, Option.map_some]
    rfl
  unfold Concat.fileIndex
  rw [e1, e2]
  simp only [bind, Except.bind]
  rw [check_ok (hx f (by rw [hf]; exact rfl)) hxl]
  simp only [pure, Except.pure]
  congr 1
  have hE : Concat.ends (ws.map (Win.wav (α := α) (β := Unit))) = ws.map WavWin.stop := by
    unfold Concat.ends
    rw [List.map_map]
    rfl
  rw [hE]
  obtain ⟨b1, b2, b3⟩ := bisectLeft_spec (ws.map WavWin.stop) x (by
    rw [List.pairwise_map]
    exact hs.imp fun h => h.le)
  have hlt : pre.length < (ws.map WavWin.stop).length := by rw [List.length_map, ha.split]; simp
  have hat : (ws.map WavWin.stop)[pre.length] = w.stop := by simp [ha.split]
  apply le_antisymm
  · by_contra hgt
    have := b2 pre.length hlt (by omega)
    rw [hat] at this
    exact absurd ha.stop (not_le.2 this)
  · by_contra hgt
    push Not at hgt
    have := b3 (bisectLeft (ws.map WavWin.stop) x) (by omega) le_rfl
    have hm : (ws.map WavWin.stop)[bisectLeft (ws.map WavWin.stop) x]'(by omega) = (pre[bisectLeft (ws.map WavWin.stop) x]'hgt).stop := by
      simp only [List.getElem_map]
      congr 1
      simp only [ha.split]
      rw [List.getElem_append_left]
    rw [hm] at this
    exact absurd this (not_le.2 (ha.before _ (List.getElem_mem _)))

/-- **C193, windows by time.** Every float in the range of the concatenation is in the window which is found for it:
rounding leaves no float between two windows. -/
theorem C193_at (h : IsRounding fl) {ws : List WavWin} (hb : Built fl ws) {x : ℚ} (hx : fl x = x)
    (h1 : ∀ v ∈ ws.head?, v.start ≤ x) {l : WavWin} (hl : ws.getLast? = some l) (h2 : x ≤ l.stop) :
    ∃ pre w post, Around ws x pre w post ∧ (⟨ws.map Win.wav⟩ : Concat α Unit).getSubAt x = .ok (.wav w) := by
  have find : ∃ pre w post, Around ws x pre w post := by
    induction ws with
    | nil => simp at hl
    | cons w ws ih =>
      by_cases hw : x ≤ w.stop
      · exact ⟨[], w, ws, rfl, by simp, h1 w (by simp), hw⟩
      · push Not at hw
        cases ws with
        | nil =>
          simp at hl
          subst hl
          exact absurd h2 (not_le.2 hw)
        | cons v ws =>
          obtain ⟨pre, w', post, ha⟩ := ih hb.tail (by
            intro u hu
            simp at hu
            subst hu
            exact (hb.lt h).2.2 x hx hw) (by rw [List.getLast?_cons_cons] at hl; exact hl)
          refine ⟨w :: pre, w', post, by rw [ha.split]; rfl, ?_, ha.start, ha.stop⟩
          intro u hu
          rcases List.mem_cons.1 hu with rfl | hu
          · exact hw
          · exact ha.before u hu
  obtain ⟨pre, w, post, ha⟩ := find
  refine ⟨pre, w, post, ha, ?_⟩
  unfold Concat.getSubAt
  rw [fileIndex_around h hb ha h1]
  simp only [bind, Except.bind]
  have : (ws.map (Win.wav (α := α) (β := Unit)))[pre.length]? = some (.wav w) := by
    simp [ha.split]
  obtain ⟨hlt, e⟩ := List.getElem?_eq_some_iff.1 this
  rw [pyGet_nat _ _ hlt, e]

/-! ### Crops -/

theorem copies (ws : List WavWin) (hw : ∀ w ∈ ws, Fresh fl w) :
    (ws.map (Win.wav (α := α) (β := Unit))).map (copy fl) = ws.map Win.wav := by
  rw [List.map_map]
  apply List.map_congr_left
  intro w h
  show Win.wav (wavCopy fl w) = _
  rw [fresh_copy (hw w h)]

theorem slice_around (pre mid post : List WavWin) (w : WavWin) :
    pySlice ((pre ++ w :: (mid ++ post)).map (Win.wav (α := α) (β := Unit))) (pre.length : ℕ) (1 + ((pre.length + mid.length : ℕ) : ℤ)) =
      (w :: mid).map Win.wav := by
  have : (1 + ((pre.length + mid.length : ℕ) : ℤ)) = ((pre.length + (mid.length + 1) : ℕ) : ℤ) := by push_cast; ring
  rw [this, pySlice_nat, List.map_append, List.drop_left' (by simp), Nat.add_sub_cancel_left, List.map_cons, List.map_append,
    List.take_succ_cons, List.take_left' (by simp), List.map_cons]

theorem wavGetSub_out (h : IsRounding fl) {w : WavWin} (hw : Fresh fl w) (h1 : 1 ≤ w.rate) (h2 : w.rate ≤ 10 ^ 6)
    (hd : w.stop - w.start ≤ 10 ^ 6) {a b : ℚ} (a1 : w.start ≤ a) (a2 : a ≤ w.stop) (hb : w.stop < b) :
    wavGetSub fl w a b = .error .timeOutOfBound := by
  obtain ⟨r, hi, -⟩ := C192_index_after h h1 h2 a1 a2 (by linarith)
  unfold wavGetSub crop
  rw [fresh_copy hw]
  unfold delayStart
  rw [hi]
  simp only [bind, Except.bind, pure, Except.pure]
  unfold stopAt
  simp only []
  rw [index_before_out _ _ _ _ (Or.inr hb)]
  rfl

/-- The first crop: from a time to the end of the window. -/
theorem first_crop (h : IsRounding fl) {w : WavWin} {n : ℕ} (hw : Whole fl w n) {a : ℚ} (a1 : w.start ≤ a)
    (a2 : a ≤ w.stop) :
    ∃ (i : ℕ) (w' : WavWin), wavGetSub fl w a w.stop = .ok w' ∧ i ≤ n ∧ a ≤ w.start + i / w.rate + 11 / 10 ^ 9 ∧
      (∀ p : ℕ, a ≤ w.start + p / w.rate + 9 / 10 ^ 9 → i ≤ p) ∧ Fresh fl w' ∧ fl w'.start = w'.start ∧
      w'.path = w.path ∧ w'.rate = w.rate ∧ w'.startAfter = i ∧ w'.stopIndex = n ∧
      |w'.start - (w.start + i / w.rate)| ≤ 3 / 10 ^ 10 ∧ |w'.stop - w.stop| ≤ 1 / 10 ^ 9 ∧ 0 ≤ w'.start ∧
      w'.start ≤ w'.stop := by
  have hb := hw.bound
  have h0 := hw.nonneg
  have habs : |w.start| = w.start := abs_of_nonneg h0
  have hr : (0 : ℚ) < w.rate := by linarith [hw.rate1]
  obtain ⟨i, i1, i2, i3, i4, -, i6⟩ := C192_wav h hw.fresh hw.rate1 hw.rate2 (n := n)
    (by rw [hw.first, hw.last, zero_add]) (by rw [habs]; linarith) a1 a2 (le_refl w.stop)
  have hstop : w.stop = fl (w.start + samplesToDuration fl w.rate (n : ℤ)) := by
    have := hw.fresh
    unfold Fresh at this
    rwa [hw.first, hw.last, sub_zero] at this
  have hle : fl (w.start + samplesToDuration fl w.rate i) ≤ w.stop := by
    rw [hstop]
    exact bound_mono h hw.rate1 (by exact_mod_cast i1)
  have hge : w.start ≤ fl (w.start + samplesToDuration fl w.rate i) := by
    have := bound_mono h hw.rate1 (s := w.start) (j := 0) (k := (i : ℤ)) (by omega)
    rwa [bound_zero h hw.start] at this
  obtain ⟨w', j, e1, e2, e3, e4, e5, e6, e7, e8, e9, e10, e11, e12⟩ := i6 hle
  have sn := abs_le.1 (hw.stop_near h)
  have hj : j = n := by
    apply le_antisymm e10
    exact e12 n i1 (by linarith)
  subst hj
  rw [hw.first, zero_add] at e7 e8
  have i4' := abs_le.1 i4
  rw [← e6] at i4 i4' hge
  have hsub : w'.stopIndex - w'.startAfter = ((j - i : ℕ) : ℤ) := by rw [e7, e8]; omega
  have hq : ((j - i : ℕ) : ℚ) / w.rate = j / w.rate - i / w.rate := by rw [Nat.cast_sub i1, sub_div]
  have hs'0 : 0 ≤ w'.start := h0.trans hge
  have bn := abs_le.1 (bound_near h (s := w'.start) (rate := w'.rate) (k := ((j - i : ℕ) : ℤ)) (by rw [e5]; exact hw.rate1)
    (by rw [e5]; exact hw.rate2) (by omega) (by
      rw [abs_of_nonneg hs'0, e5]
      push_cast
      rw [hq]
      linarith))
  have hf := e2
  unfold Fresh at hf
  rw [hsub] at hf
  have hmono := bound_mono h (rate := w'.rate) (by rw [e5]; exact hw.rate1) (s := w'.start) (j := 0)
    (k := ((j - i : ℕ) : ℤ)) (by omega)
  rw [bound_zero h e3, ← hf] at hmono
  rw [← hf, e5] at bn
  push_cast at bn
  rw [hq] at bn
  refine ⟨i, w', e1, i1, i2, i3, e2, e3, e4, e5, e7, e8, i4, ?_, hs'0, hmono⟩
  rw [abs_le]
  constructor <;> linarith

/-- **C193, crops in a window.** Cropping the concatenation to a range in one of its windows.  The first crop may move the
end of the window by rounding, less than one nanosecond: then ranges up to the end raise `TimeOutOfBound`. -/
theorem C193_crop_one (h : IsRounding fl) {ws pre post : List WavWin} {w : WavWin} {n : ℕ} (hb : Built fl ws)
    (hw : Whole fl w n) {a b : ℚ} (ha : Around ws a pre w post) (hc : Around ws b pre w post)
    (hx : ∀ v ∈ ws.head?, v.start ≤ a) (hy : ∀ v ∈ ws.head?, v.start ≤ b) :
    ∃ (i : ℕ) (s e : ℚ), i ≤ n ∧ a ≤ w.start + i / w.rate + 11 / 10 ^ 9 ∧
      (∀ p : ℕ, a ≤ w.start + p / w.rate + 9 / 10 ^ 9 → i ≤ p) ∧
      |s - (w.start + i / w.rate)| ≤ 3 / 10 ^ 10 ∧ |e - w.stop| ≤ 1 / 10 ^ 9 ∧
      (b < s ∨ e < b → concatGetSub fl (⟨ws.map Win.wav⟩ : Concat α Unit) a b = .error .timeOutOfBound) ∧
      (s ≤ b → b ≤ e → ∃ w' : WavWin, ∃ j : ℕ,
        concatGetSub fl (⟨ws.map Win.wav⟩ : Concat α Unit) a b = .ok ⟨[.wav w']⟩ ∧
        w'.path = w.path ∧ w'.rate = w.rate ∧ w'.start = s ∧ w'.startAfter = i ∧ w'.stopIndex = j ∧ i ≤ j ∧ j ≤ n ∧
        (j : ℚ) / w.rate ≤ b - w.start + 13 / 10 ^ 9 ∧
        ∀ p : ℕ, i ≤ p → (p : ℚ) / w.rate ≤ b - w.start + 7 / 10 ^ 9 → p ≤ j) := by
  obtain ⟨i, v, f1, f2, f3, f4, f5, f6, f7, f8, f9, f10, f11, f12, f13, f14⟩ := first_crop h hw ha.start ha.stop
  have hbound := hw.bound
  have f11' := abs_le.1 f11
  have f12' := abs_le.1 f12
  have hr : (0 : ℚ) < w.rate := by linarith [hw.rate1]
  have hq : ((n - i : ℕ) : ℚ) / w.rate = n / w.rate - i / w.rate := by rw [Nat.cast_sub f2, sub_div]
  have sn := abs_le.1 (hw.stop_near h)
  have hrun : concatGetSub fl (⟨ws.map Win.wav⟩ : Concat α Unit) a b = (do
      let v' ← wavGetSub fl v v.start b
      concatInit fl [Win.wav v']) := by
    unfold concatGetSub
    rw [fileIndex_around h hb ha hx, fileIndex_around h hb hc hy]
    simp only [bind, Except.bind]
    have hsl := slice_around (α := α) pre [] post w
    rw [List.nil_append, ← ha.split] at hsl
    simp only [List.length_nil, Nat.add_zero] at hsl
    rw [hsl, copies [w] (by intro x hx; rw [List.mem_singleton] at hx; rw [hx]; exact hw.fresh)]
    simp only [List.map_cons, List.map_nil]
    have e1 : getSub fl (Win.wav w : Win α Unit) a (Win.wav w : Win α Unit).stop = .ok (.wav v) := by
      unfold getSub
      simp only [bind, Except.bind]
      have : wavGetSub fl w a (Win.wav w : Win α Unit).stop = .ok v := f1
      rw [this]
      rfl
    rw [e1]
    simp only [List.getLast?_singleton, List.dropLast_singleton, List.nil_append]
    have e2 : getSub fl (Win.wav v : Win α Unit) (Win.wav v : Win α Unit).start b =
        (wavGetSub fl v v.start b).map Win.wav := by
      unfold getSub
      simp only [bind, Except.bind, pure, Except.pure]
      have : (Win.wav v : Win α Unit).start = v.start := rfl
      rw [this]
      cases wavGetSub fl v v.start b <;> rfl
    rw [e2]
    cases wavGetSub fl v v.start b <;> rfl
  refine ⟨i, v.start, v.stop, f2, f3, f4, f11, f12, ?_, ?_⟩
  · intro ho
    rw [hrun]
    by_cases hout : v.stop < b
    · rw [wavGetSub_out h f5 (by rw [f8]; exact hw.rate1) (by rw [f8]; exact hw.rate2) (by linarith [hw.nonneg]) le_rfl f14
        hout]
      rfl
    · have hlt : b < v.start := by
        rcases ho with ho | ho
        · exact ho
        · exact absurd ho hout
      obtain ⟨i', i1, i2, i3, i4, i5, -⟩ := C192_wav h f5 (by rw [f8]; exact hw.rate1) (by rw [f8]; exact hw.rate2)
        (n := n - i) (by rw [f9, f10]; omega) (by
          rw [abs_of_nonneg f13, f8, hq]
          linarith) le_rfl f14 (not_lt.1 hout)
      have hi0 : i' = 0 := by
        have := i3 0 (by
          rw [Nat.cast_zero, zero_div]
          linarith)
        omega
      subst hi0
      rw [i5 (by
        have := bound_zero h (rate := v.rate) f6
        push_cast
        rw [this]
        exact hlt)]
      rfl
  · intro hs he
    obtain ⟨i', i1, i2, i3, i4, -, i6⟩ := C192_wav h f5 (by rw [f8]; exact hw.rate1) (by rw [f8]; exact hw.rate2)
      (n := n - i) (by rw [f9, f10]; omega) (by
        rw [abs_of_nonneg f13, f8, hq]
        linarith) le_rfl f14 he
    have hi0 : i' = 0 := by
      have := i3 0 (by
        rw [Nat.cast_zero, zero_div]
        linarith)
      omega
    subst hi0
    have hz := bound_zero h (rate := v.rate) f6
    push_cast at i6
    rw [hz] at i6
    obtain ⟨w', j, e1, e2, e3, e4, e5, e6, e7, e8, e9, e10, e11, e12⟩ := i6 hs
    rw [f8] at e11 e12
    refine ⟨w', i + j, ?_, by rw [e4, f7], by rw [e5, f8], e6, by rw [e7, f9]; simp, by rw [e8, f9]; push_cast; ring,
      by omega, by omega, ?_, ?_⟩
    · rw [hrun, e1]
      exact concatInit_ok (by simp) (tol_nonneg h) (List.IsChain.singleton _)
    · push_cast
      rw [add_div]
      linarith
    · intro p p1 p2
      have := e12 (p - i) (by omega) (by
        rw [Nat.cast_sub p1, sub_div]
        linarith)
      omega

theorem chain_ends {A : Type} {S R : A → A → Prop} {w w' v v' : A} {mid : List A} (hc : List.IsChain S (w :: (mid ++ [v])))
    (hS : ∀ x y, S x y → R x y) (h1 : ∀ y, S w y → R w' y) (h2 : ∀ x, R x v → R x v') :
    List.IsChain R (w' :: (mid ++ [v'])) := by
  induction mid generalizing w w' with
  | nil =>
    have := List.isChain_cons_cons.1 hc
    exact List.isChain_cons_cons.2 ⟨h2 _ (h1 _ this.1), List.IsChain.singleton _⟩
  | cons m mid ih =>
    have := List.isChain_cons_cons.1 hc
    exact List.isChain_cons_cons.2 ⟨h1 _ this.1, ih this.2 (hS _)⟩

theorem Built.near (h : IsRounding fl) {ws : List WavWin} (hb : Built fl ws) :
    ws.IsChain fun w v => |v.start - w.stop| ≤ 3 / 10 ^ 10 := by
  induction ws with
  | nil => exact List.IsChain.nil
  | cons w ws ih =>
    cases ws with
    | nil => exact List.IsChain.singleton _
    | cons v ws => exact List.isChain_cons_cons.2 ⟨(hb.lt h).2.1, ih hb.tail⟩

/-- **C193, crops over windows.** Cropping the concatenation to a range which ends in a later window: the first window is
kept from the start of the range, the last one up to its end, and the windows between are kept. -/
theorem C193_crop_many (h : IsRounding fl) {ws pre mid post : List WavWin} {w v : WavWin} {n m : ℕ} (hb : Built fl ws)
    (hw : Whole fl w n) (hv : Whole fl v m) {a b : ℚ} (ha : Around ws a pre w (mid ++ v :: post))
    (hc : Around ws b (pre ++ w :: mid) v post) (hx : ∀ u ∈ ws.head?, u.start ≤ a) (hy : ∀ u ∈ ws.head?, u.start ≤ b) :
    ∃ (i j : ℕ) (w' v' : WavWin),
      concatGetSub fl (⟨ws.map Win.wav⟩ : Concat α Unit) a b = .ok ⟨(w' :: (mid ++ [v'])).map Win.wav⟩ ∧
      w'.path = w.path ∧ w'.rate = w.rate ∧ w'.startAfter = i ∧ w'.stopIndex = n ∧
      |w'.start - (w.start + i / w.rate)| ≤ 3 / 10 ^ 10 ∧ |w'.stop - w.stop| ≤ 1 / 10 ^ 9 ∧
      i ≤ n ∧ a ≤ w.start + i / w.rate + 11 / 10 ^ 9 ∧ (∀ p : ℕ, a ≤ w.start + p / w.rate + 9 / 10 ^ 9 → i ≤ p) ∧
      v'.path = v.path ∧ v'.rate = v.rate ∧ v'.start = v.start ∧ v'.startAfter = 0 ∧ v'.stopIndex = j ∧ j ≤ m ∧
      (j : ℚ) / v.rate ≤ b - v.start + 12 / 10 ^ 9 ∧
      ∀ p : ℕ, (p : ℚ) / v.rate ≤ b - v.start + 8 / 10 ^ 9 → p ≤ j := by
  obtain ⟨i, w', f1, f2, f3, f4, f5, f6, f7, f8, f9, f10, f11, f12, f13, f14⟩ := first_crop h hw ha.start ha.stop
  have hbound := hv.bound
  obtain ⟨i', i1, i2, i3, i4, -, i6⟩ := C192_wav h hv.fresh hv.rate1 hv.rate2 (n := m)
    (by rw [hv.first, hv.last, zero_add]) (by rw [abs_of_nonneg hv.nonneg]; linarith) le_rfl
    (hc.start.trans hc.stop) hc.stop
  have hi0 : i' = 0 := by
    have := i3 0 (by
      rw [Nat.cast_zero, zero_div]
      linarith)
    omega
  subst hi0
  have hz := bound_zero h (rate := v.rate) hv.start
  push_cast at i6
  rw [hz] at i6
  obtain ⟨v', j, e1, e2, e3, e4, e5, e6, e7, e8, e9, e10, e11, e12⟩ := i6 hc.start
  rw [hv.first] at e7 e8
  refine ⟨i, j, w', v', ?_, f7, f8, f9, f10, f11, f12, f2, f3, f4, e4, e5, e6, by rw [e7]; simp, by rw [e8]; simp, e10, e11,
    fun p hp => e12 p (Nat.zero_le _) hp⟩
  unfold concatGetSub
  rw [fileIndex_around h hb ha hx, fileIndex_around h hb hc hy]
  simp only [bind, Except.bind]
  have hsl := slice_around (α := α) pre (mid ++ [v]) post w
  rw [List.append_assoc, List.singleton_append, ← ha.split] at hsl
  have hlen : (pre ++ w :: mid).length = pre.length + (mid ++ [v]).length := by simp
  rw [hlen, hsl, copies (w :: (mid ++ [v])) (by
    intro u hu
    have : u ∈ ws := by
      rw [ha.split]
      rcases List.mem_cons.1 hu with rfl | hu
      · simp
      · rcases List.mem_append.1 hu with hu | hu
        · simp [hu]
        · rw [List.mem_singleton] at hu
          simp [hu]
    obtain ⟨k, hk⟩ := hb.whole u this
    exact hk.fresh)]
  rw [List.map_cons]
  simp only []
  have g1 : getSub fl (Win.wav w : Win α Unit) a (Win.wav w : Win α Unit).stop = .ok (.wav w') := by
    unfold getSub
    simp only [bind, Except.bind]
    have : wavGetSub fl w a (Win.wav w : Win α Unit).stop = .ok w' := f1
    rw [this]
    rfl
  have g2 : getSub fl (Win.wav v : Win α Unit) (Win.wav v : Win α Unit).start b = .ok (.wav v') := by
    unfold getSub
    simp only [bind, Except.bind]
    have : wavGetSub fl v (Win.wav v : Win α Unit).start b = .ok v' := e1
    rw [this]
    rfl
  rw [g1]
  have hl : ((Win.wav w' : Win α Unit) :: (mid ++ [v]).map Win.wav).getLast? = some (.wav v) := by
    rw [List.map_append, ← List.cons_append, List.map_singleton, List.getLast?_concat]
  simp only [hl, g2]
  have hd : ((Win.wav w' : Win α Unit) :: (mid ++ [v]).map Win.wav).dropLast ++ [.wav v'] =
      (w' :: (mid ++ [v'])).map Win.wav := by
    rw [List.map_append, ← List.cons_append, List.map_singleton, List.dropLast_concat]
    simp
  rw [hd]
  apply concatInit_ok (by simp) (tol_nonneg h)
  rw [List.isChain_map]
  have hn := hb.near h
  rw [ha.split, show pre ++ w :: (mid ++ v :: post) = pre ++ ((w :: (mid ++ [v])) ++ post) by simp] at hn
  have hn' := (List.isChain_append.1 (List.isChain_append.1 hn).2.1).1
  have f12' := abs_le.1 f12
  refine chain_ends hn' ?_ ?_ ?_
  · intro x y hxy
    have := abs_le.1 hxy
    apply close h
    show |x.stop - y.start| ≤ _
    rw [abs_le]
    constructor <;> linarith
  · intro y hxy
    have := abs_le.1 hxy
    apply close h
    show |w'.stop - y.start| ≤ _
    rw [abs_le]
    constructor <;> linarith
  · intro x hxy
    have : (Win.wav v' : Win α Unit).start = (Win.wav v : Win α Unit).start := e6
    rw [this]
    exact hxy

end Verif.Window.Fl
