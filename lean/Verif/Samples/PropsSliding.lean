import Verif.Samples.Sliding
import Verif.Samples.PropsLauncher

/-!
# Properties of the sliding windows
-/

namespace Verif.Samples

open Verif Verif.Window

/-- The window of a file which starts at a given time. -/
def wavAt {α : Type} (files : WavFiles α) (t : ℚ) (p : String) : WavWin :=
  ⟨p, t, t + ((files p).2.length : ℚ) / (files p).1, (files p).1, 0, ((files p).2.length : ℤ)⟩

/-- Windows of files, each one starting when the one before ends. -/
def placed {α : Type} (files : WavFiles α) : ℚ → List String → List (Win α Unit)
  | _, [] => []
  | t, p :: ps => .wav (wavAt files t p) ::
      placed files (t + ((files p).2.length : ℚ) / (files p).1) ps

theorem alignFrom_wavs {α : Type} (files : WavFiles α) (paths : List String) (t : ℚ) :
    Concat.alignFrom t (paths.map fun f => (Win.wav (WavWin.init files f 0) : Win α Unit)) =
      placed files t paths := by
  induction paths generalizing t with
  | nil => rfl
  | cons p ps ih =>
    have e : ((Win.wav (WavWin.init files p 0) : Win α Unit).move
        (t - (Win.wav (WavWin.init files p 0) : Win α Unit).start)) = .wav (wavAt files t p) := by
      simp only [Win.move, WavWin.move, WavWin.init, WavWin.initWith, Win.start, wavAt,
        samplesToDuration, Win.wav.injEq, WavWin.mk.injEq, true_and, and_true]
      refine ⟨by ring, ?_⟩
      push_cast
      ring
    rw [List.map_cons, Concat.alignFrom, e, ih]
    have e2 : t + (Win.wav (wavAt files t p) : Win α Unit).duration =
        t + ((files p).2.length : ℚ) / (files p).1 := by
      simp only [Win.duration, Win.start, Win.stop, wavAt]
      ring
    rw [e2]
    rfl

theorem wavAt_sampled {α : Type} (files : WavFiles α) (t rate : ℚ) (hr : 0 < rate) (p : String)
    (h : (files p).1 = rate) :
    (Win.wav (wavAt files t p) : Win α Unit).Sampled files rate ∧
      ((Win.wav (wavAt files t p) : Win α Unit).loaded files).array = (files p).2 := by
  refine ⟨⟨h, ⟨?_, rfl, le_rfl, ?_, le_rfl, ?_⟩⟩, ?_⟩
  · show 0 < (files p).1
    rw [h]; exact hr
  · simp [wavAt]
  · simp only [wavAt]
    push_cast
    ring
  · show pySlice (files p).2 0 ((files p).2.length : ℤ) = _
    exact pySlice_full _

theorem placed_sampled {α : Type} (files : WavFiles α) (rate : ℚ) (hr : 0 < rate)
    (paths : List String) (t : ℚ) (h : ∀ p ∈ paths, (files p).1 = rate) :
    (∀ w ∈ placed files t paths, w.Sampled files rate) ∧
      samplesOf files (placed files t paths) = paths.flatMap fun p => (files p).2 := by
  induction paths generalizing t with
  | nil => simp [placed, samplesOf]
  | cons p ps ih =>
    obtain ⟨i1, i2⟩ := ih (t + ((files p).2.length : ℚ) / (files p).1)
      fun q hq => h q (List.mem_cons_of_mem _ hq)
    obtain ⟨w1, w2⟩ := wavAt_sampled files t rate hr p (h p (by simp))
    constructor
    · intro w hw
      rw [placed] at hw
      rcases List.mem_cons.1 hw with rfl | hw
      · exact w1
      · exact i1 w hw
    · rw [placed, samplesOf_cons, w2, i2, List.flatMap_cons]

theorem placed_at {α : Type} (files : WavFiles α) (rate : ℚ) (pre : List String) (p : String)
    (post : List String) (t : ℚ) (h : ∀ q ∈ pre, (files q).1 = rate) :
    (placed files t (pre ++ p :: post))[pre.length]? =
      some (.wav (wavAt files (t + ((pre.flatMap fun q => (files q).2).length : ℚ) / rate) p)) := by
  induction pre generalizing t with
  | nil => simp [placed]
  | cons q pre ih =>
    rw [List.cons_append, placed, List.length_cons, List.getElem?_cons_succ,
      ih _ fun x hx => h x (List.mem_cons_of_mem _ hx), h q (by simp)]
    rw [List.flatMap_cons, List.length_append]
    congr 3
    push_cast
    ring

theorem placed_length {α : Type} (files : WavFiles α) (paths : List String) (t : ℚ) :
    (placed files t paths).length = paths.length := by
  induction paths generalizing t with
  | nil => rfl
  | cons p ps ih => simp [placed, ih]

theorem placed_aligned {α : Type} (files : WavFiles α) (paths : List String) (t : ℚ) :
    Aligned (placed files t paths) := by
  rw [← alignFrom_wavs]
  exact (alignFrom_spec _ t).2.1

theorem concat_wavs {α : Type} (files : WavFiles α) (p : String) (ps : List String) :
    concatFromListOfWavs files (p :: ps) none = .ok ⟨placed files 0 (p :: ps)⟩ := by
  unfold concatFromListOfWavs
  have e : Concat.align ((p :: ps).map fun f => (Win.wav (WavWin.init files f 0) : Win α Unit))
      none = .ok (placed files 0 (p :: ps)) := by
    rw [← alignFrom_wavs]
    rfl
  rw [e]
  simp only [bind, Except.bind]
  refine Concat.init_ok ?_ (placed_aligned files _ 0).consecutive
  simp [placed]

theorem placed_start {α : Type} (files : WavFiles α) (p : String) (ps : List String) :
    (⟨placed files 0 (p :: ps)⟩ : Concat α Unit).start = .ok 0 := rfl

theorem placed_stop {α : Type} (files : WavFiles α) (rate : ℚ) (p : String) (ps : List String)
    (h : ∀ q ∈ p :: ps, (files q).1 = rate) :
    (⟨placed files 0 (p :: ps)⟩ : Concat α Unit).stop =
      .ok ((((p :: ps).flatMap fun q => (files q).2).length : ℚ) / rate) := by
  obtain ⟨pre, q, hq⟩ : ∃ pre q, p :: ps = pre ++ [q] :=
    ⟨(p :: ps).dropLast, (p :: ps).getLast (by simp), (List.dropLast_append_getLast _).symm⟩
  unfold Concat.stop
  simp only []
  have hl : (placed files 0 (p :: ps)).getLast? =
      some (.wav (wavAt files (((pre.flatMap fun q => (files q).2).length : ℚ) / rate) q)) := by
    rw [List.getLast?_eq_getElem?, placed_length, hq]
    have := placed_at files rate pre q [] 0 fun x hx => h x (by rw [hq]; simp [hx])
    simp only [zero_add] at this
    simpa using this
  rw [hl]
  simp only [Win.stop, wavAt, hq]
  rw [h q (by rw [hq]; simp)]
  simp only [List.flatMap_append, List.flatMap_cons, List.flatMap_nil, List.append_nil,
    List.length_append, Nat.cast_add, add_div]

/-- Specification: a window holds the samples whose slots are, up to the tolerance, between two
times; the sample at position `k` has the slot from `k / rate` to `(k + 1) / rate`. -/
def Holds {α : Type} (samples : List α) (rate a b : ℚ) (w : ArrayWin α) : Prop :=
  ∃ i j : ℕ, (∀ k : ℕ, i ≤ k ↔ a - TOL < (k : ℚ) / rate) ∧
    (∀ k : ℕ, k < j ↔ ((k + 1 : ℕ) : ℚ) / rate < b + TOL) ∧
    i ≤ j ∧ j ≤ samples.length ∧
    w.array = (samples.drop i).take (j - i) ∧ w.start = (i : ℚ) / rate ∧
    w.stop = (j : ℚ) / rate ∧ w.rate = rate

theorem crop_placed {α : Type} (files : WavFiles α) (rate : ℚ) (hr : 0 < rate)
    (hr' : 2 * TOL * rate ≤ 1) (p : String)
    (ps : List String) (h : ∀ q ∈ p :: ps, (files q).1 = rate) (a b : ℚ) (ha : 0 ≤ a)
    (hab : a + 1 / rate ≤ b)
    (hb : b ≤ (((p :: ps).flatMap fun q => (files q).2).length : ℚ) / rate) :
    ∃ c' : Concat α Unit, (⟨placed files 0 (p :: ps)⟩ : Concat α Unit).getSub a b = .ok c' ∧
      ∃ w, (c'.toArray files = .ok w ∧ c'.start = .ok w.start ∧ c'.stop = .ok w.stop) ∧
        Holds ((p :: ps).flatMap fun q => (files q).2) rate a b w := by
  obtain ⟨s1, s2⟩ := placed_sampled files rate hr (p :: ps) 0 h
  set D := (p :: ps).flatMap fun q => (files q).2 with hD
  have hpos : 0 < 1 / rate := by positivity
  have hfull : (⟨placed files 0 (p :: ps)⟩ : Concat α Unit).toArray files =
      .ok (ArrayWin.init D 0 rate) := by
    have := toArray_sampled files rate (.wav (wavAt files 0 p)) _ s1
    rw [← placed] at this
    rw [this, s2]
    rfl
  have hstop : (ArrayWin.init D 0 rate).stop = (D.length : ℚ) / rate := by
    simp [ArrayWin.init, samplesToDuration]
  obtain ⟨sub, e1, e2, -⟩ := C13_crop_concat_sampled files rate hr _ (placed_aligned files _ 0) s1 _
    hfull a b ha (by linarith) (by rw [hstop]; exact hb)
  rw [ArrayWin.getSub_ok _ a b ⟨ha, by rw [hstop]; linarith⟩
    ⟨by show (0 : ℚ) ≤ b; linarith, by rw [hstop]; exact hb⟩, Except.ok.injEq] at e1
  have hA := idxA_bounds (s := 0) (n := (D.length : ℤ)) hr ha (by push_cast; simp; linarith)
  have hB := idxB_bounds (s := 0) (n := (D.length : ℤ)) hr (show (0 : ℚ) ≤ b by linarith)
    (by push_cast; simp; linarith)
  obtain ⟨i, hi⟩ : ∃ i : ℕ, idxA 0 rate a = i := ⟨_, (Int.toNat_of_nonneg hA.1).symm⟩
  obtain ⟨j, hj⟩ : ∃ j : ℕ, idxB 0 rate b = j := ⟨_, (Int.toNat_of_nonneg hB.1).symm⟩
  have e1' : ArrayWin.init (pySlice D (i : ℤ) (j : ℤ)) (0 + samplesToDuration rate (i : ℤ)) rate =
      sub := by rw [← e1, ← hi, ← hj]; rfl
  have hstart : sub.start = (i : ℚ) / rate := by
    rw [← e1']; simp [ArrayWin.init, samplesToDuration]
  have hi1 : (i : ℚ) / rate < a + 1 / rate := by
    have := (C01_approx_int ((a - 0) * rate) (TOL * rate) (mul_pos TOL_pos hr) true).1.1
    have e : toApproxInt ((a - 0) * rate) (TOL * rate) true = i := hi
    rw [e] at this
    push_cast at this
    rw [div_lt_iff₀ hr, add_mul, one_div, inv_mul_cancel₀ hr.ne']
    linarith
  have hAi : ∀ k : ℕ, i ≤ k ↔ a - TOL < (k : ℚ) / rate := by
    intro k
    have := idxA_le_iff (s := 0) (t := a) hr hr' (k : ℤ)
    rw [hi] at this
    simpa using this
  have hBj : ∀ k : ℕ, k ≤ j ↔ (k : ℚ) / rate < b + TOL := by
    intro k
    have := le_idxB_iff (s := 0) (t := b) hr hr' (k : ℤ)
    rw [hj] at this
    simpa using this
  have hij : i ≤ j := by
    rw [hBj]
    have := TOL_pos
    linarith
  have hjD : j ≤ D.length := by rw [hj] at hB; exact_mod_cast hB.2
  obtain ⟨c', c1, c2⟩ := e2 (by rw [hstart]; linarith)
  refine ⟨c', c1, sub, c2, i, j, hAi, fun k => ?_, hij, hjD, ?_, hstart, ?_, ?_⟩
  · rw [← hBj]; rfl
  · rw [← e1']; exact pySlice_nat _ _ _
  · rw [← e1']
    simp only [ArrayWin.init, samplesToDuration, pySlice_nat, List.length_take, List.length_drop]
    rw [Nat.min_eq_left (by omega), Int.natCast_sub hij]
    push_cast
    ring
  · rw [← e1']; rfl

/-- **C141.** The sliding windows of a list of files which have the same rate: there are as many
windows as multiples of the shift at which a whole window fits (up to the tolerance); the window at
position `i` begins at `i * shift` (for the last one, up to the tolerance) and, once loaded, holds
the samples of the whole sound which are in it. When the sound is shorter than the width by less
than the tolerance, the only window begins before the sound: `TimeOutOfBound` is raised. -/
theorem C141_sliding {α : Type} (files : WavFiles α) (rate : ℚ) (hr : 0 < rate)
    (hr' : 2 * TOL * rate ≤ 1) (paths : List String) (hne : paths ≠ [])
    (h : ∀ p ∈ paths, (files p).1 = rate) (width shift : ℚ) (hw : 1 / rate ≤ width)
    (hs : 2 * TOL ≤ shift) :
    let samples := paths.flatMap fun p => (files p).2
    let T := (samples.length : ℚ) / rate
    ∃ c : Concat α Unit, concatFromListOfWavs files paths none = .ok c ∧
      ((width ≤ T ∨ T ≤ width - TOL) → ∃ wins, slidingWins c width shift = .ok wins ∧
        (∀ i : ℕ, i < wins.length ↔ (i : ℚ) * shift + width < T + TOL) ∧
        ∀ (i : ℕ) (win : Concat α Unit), wins[i]? = some win → ∃ w a, win.toArray files = .ok w ∧
          win.start = .ok w.start ∧ win.stop = .ok w.stop ∧ Holds samples rate a (a + width) w ∧ 0 ≤ a ∧ a + width ≤ T ∧
          |a - (i : ℚ) * shift| < TOL ∧ (i + 1 < wins.length → a = (i : ℚ) * shift) ∧
          (a = (i : ℚ) * shift ∨ a = T - width)) ∧
      ((width - TOL < T ∧ T < width) → slidingWins c width shift = .error .timeOutOfBound) := by
  intro samples T
  cases paths with
  | nil => exact absurd rfl hne
  | cons p ps =>
  refine ⟨_, concat_wavs files p ps, ?_, ?_⟩
  all_goals
    obtain ⟨n, h1, h2, h3⟩ := C03_slider_full 0 T width shift TOL TOL_pos hs
    have hst : (⟨placed files 0 (p :: ps)⟩ : Concat α Unit).stop = .ok T :=
      placed_stop files rate p ps h
    have hunf : slidingWins (⟨placed files 0 (p :: ps)⟩ : Concat α Unit) width shift =
        (slider 0 T width shift false TOL).mapM fun q =>
          (⟨placed files 0 (p :: ps)⟩ : Concat α Unit).getSub q.1 q.2 := by
      unfold slidingWins
      rw [placed_start, hst]
      rfl
    rw [hunf]
    have htol := TOL_pos
    have hinv : 0 < 1 / rate := by positivity
  · intro hT
    have ha0 : ∀ (i : ℕ) (a b : ℚ), (slider 0 T width shift false TOL)[i]? = some (a, b) →
        0 ≤ a := by
      intro i a b hab
      obtain ⟨w1, w2, w3, w4, w5⟩ := h3 i a b hab
      have hi : i < n := by
        rw [← h2]; exact (List.getElem?_eq_some_iff.1 hab).1
      have hi' := (h1 i).1 hi
      have hnn : (0 : ℚ) ≤ (i : ℚ) * shift := mul_nonneg (Nat.cast_nonneg _) (by linarith)
      rcases w5 with w5 | w5
      · rw [w5]; linarith
      · rcases hT with hT | hT
        · linarith
        · linarith
    obtain ⟨wins, e1, e2⟩ := mapM_with (f := fun q : ℚ × ℚ =>
        (⟨placed files 0 (p :: ps)⟩ : Concat α Unit).getSub q.1 q.2)
      (Q := fun q win => ∃ w, (Concat.toArray files win = .ok w ∧ win.start = .ok w.start ∧ win.stop = .ok w.stop) ∧
        Holds samples rate q.1 q.2 w)
      (slider 0 T width shift false TOL) (by
        rintro ⟨a, b⟩ hab
        obtain ⟨i, hi, hi'⟩ := List.mem_iff_getElem.1 hab
        have hab' : (slider 0 T width shift false TOL)[i]? = some (a, b) := by
          rw [List.getElem?_eq_getElem hi, hi']
        obtain ⟨w1, w2, w3, w4, w5⟩ := h3 i a b hab'
        exact crop_placed files rate hr hr' p ps h a b (ha0 i a b hab') (by linarith) w2)
    have hlen : wins.length = n := by rw [← e2.length_eq, h2]
    refine ⟨wins, e1, ?_, ?_⟩
    · intro i
      rw [hlen, h1 i, zero_add]
    · intro i win hwin
      have hi : i < wins.length := (List.getElem?_eq_some_iff.1 hwin).1
      obtain ⟨⟨a, b⟩, hab⟩ : ∃ q, (slider 0 T width shift false TOL)[i]? = some q :=
        ⟨_, List.getElem?_eq_getElem (by rw [h2, ← hlen]; exact hi)⟩
      obtain ⟨w, w1, w2⟩ := (List.forall₂_iff_get.1 e2).2 i (by rw [h2, ← hlen]; exact hi) hi
      have g1 : (slider 0 T width shift false TOL).get ⟨i, by rw [h2, ← hlen]; exact hi⟩ = (a, b) :=
        (List.getElem?_eq_some_iff.1 hab).2
      have g2 : wins.get ⟨i, hi⟩ = win := (List.getElem?_eq_some_iff.1 hwin).2
      rw [g1] at w2
      rw [g2] at w1
      obtain ⟨v1, v2, v3, v4, v5⟩ := h3 i a b hab
      have hb : b = a + width := by linarith
      simp only [zero_add] at v3 v4 v5
      refine ⟨w, a, w1.1, w1.2.1, w1.2.2, ?_, ha0 i a b hab, by linarith, v3, ?_, ?_⟩
      · rw [← hb]; exact w2
      · rw [hlen]; exact v4
      · rcases v5 with v5 | v5
        · exact Or.inl v5
        · right; linarith
  · rintro ⟨t1, t2⟩
    have h0 : 0 < n := by rw [h1]; push_cast; linarith
    cases hsl : slider 0 T width shift false TOL with
    | nil => rw [hsl] at h2; simp at h2; omega
    | cons q qs =>
      obtain ⟨a, b⟩ := q
      obtain ⟨v1, v2, -⟩ := h3 0 a b (by rw [hsl]; rfl)
      have hneg : a < 0 := by linarith
      rw [List.mapM_cons]
      have : (⟨placed files 0 (p :: ps)⟩ : Concat α Unit).getSub a b = .error .timeOutOfBound := by
        unfold Concat.getSub Concat.fileIndex
        rw [placed_start, hst]
        simp only [bind, Except.bind]
        rw [checkTime_err (Or.inl hneg)]
      simp only [this, bind, Except.bind]

/-- Specification: the samples before a position of a list of records. -/
def samplesBefore {α R : Type} (files : WavFiles α) (path : R → String) (rs : List R) : ℕ :=
  (rs.map fun r => (files (path r)).2.length).sum

/-- **C141.** The windows of the records: the window at a position of the pairings has the record
of that pairing, starts after the samples of the sounds of the pairings before, and has the
duration of the sound of that record; the paths are those of these records. -/
theorem C141_records {α R : Type} (files : WavFiles α) (rate : ℚ)
    (path : R → String) (records : List R) (m : ℕ) (assoc : List (List ℕ)) (hne : assoc ≠ [])
    (rs : List R)
    (hrs : List.Forall₂ (fun a r => ∃ s, a[m]? = some s ∧ records[s]? = some r) assoc rs)
    (h : ∀ r ∈ rs, (files (path r)).1 = rate) :
    wavPaths path records m assoc = .ok (rs.map path) ∧
    ∃ (c : Concat α Unit) (rc : Concat α R), concatFromListOfWavs files (rs.map path) none = .ok c ∧
      recordWins records m assoc c = .ok rc ∧ rc.windows.length = assoc.length ∧
      ∀ pre r post, rs = pre ++ r :: post → rc.windows[pre.length]? = some (.basic
        ⟨(samplesBefore files path pre : ℚ) / rate,
          ((samplesBefore files path pre : ℚ) + (files (path r)).2.length) / rate, r⟩) := by
  have hpy : ∀ a r, (∃ s, a[m]? = some s ∧ records[s]? = some r) →
      ∃ s : ℕ, pyGet a (m : ℤ) = .ok s ∧ pyGet records (s : ℤ) = .ok r := by
    rintro a r ⟨s, s1, s2⟩
    refine ⟨s, ?_, ?_⟩
    · obtain ⟨q, rfl⟩ := List.getElem?_eq_some_iff.1 s1
      exact pyGet_nat a m q
    · obtain ⟨q, rfl⟩ := List.getElem?_eq_some_iff.1 s2
      exact pyGet_nat records s q
  constructor
  · unfold wavPaths
    rw [Corpus.mapM_ok_iff]
    rw [List.forall₂_map_right_iff]
    refine hrs.imp ?_
    intro a r har
    obtain ⟨s, s1, s2⟩ := hpy a r har
    simp only [s1, s2, bind, Except.bind, pure, Except.pure]
  obtain ⟨r0, rs', hrs0⟩ : ∃ r0 rs', rs = r0 :: rs' := by
    cases rs with
    | nil => cases hrs; exact absurd rfl hne
    | cons r0 rs' => exact ⟨r0, rs', rfl⟩
  have hlen : assoc.length = rs.length := hrs.length_eq
  set P := placed files 0 (rs.map path) with hP
  have hPl : P.length = rs.length := by rw [hP, placed_length, List.length_map]
  have hc : concatFromListOfWavs files (rs.map path) none = .ok ⟨P⟩ := by
    rw [hP, hrs0]; exact concat_wavs files _ _
  have hPal : Aligned P := placed_aligned files _ 0
  have hmap : (assoc.zip P).mapM (recordWin (α := α) records m) =
      .ok ((rs.zip P).map fun p => (Win.basic ⟨p.2.start, p.2.stop, p.1⟩ : Win α R)) := by
    rw [Corpus.mapM_ok_iff, List.forall₂_map_right_iff]
    have : ∀ (l : List (List ℕ)) (l' : List R) (q : List (Win α Unit)),
        List.Forall₂ (fun a r => ∃ s, a[m]? = some s ∧ records[s]? = some r) l l' →
        List.Forall₂ (fun (a : List ℕ × Win α Unit) (c : R × Win α Unit) =>
          recordWin records m a = .ok (Win.basic ⟨c.2.start, c.2.stop, c.1⟩ : Win α R))
          (l.zip q) (l'.zip q) := by
      intro l l' q hl
      induction hl generalizing q with
      | nil => simp
      | cons hd _ ih =>
        cases q with
        | nil => simp
        | cons x q =>
          refine .cons ?_ (ih q)
          obtain ⟨s, s1, s2⟩ := hpy _ _ hd
          unfold recordWin
          simp only [s1, s2, bind, Except.bind, pure, Except.pure]
    exact this _ _ _ hrs
  set W := (rs.zip P).map fun p => (Win.basic ⟨p.2.start, p.2.stop, p.1⟩ : Win α R) with hW
  have hWl : W.length = rs.length := by simp [hW, hPl]
  have hWal : Aligned W := by
    unfold Aligned at hPal ⊢
    rw [List.isChain_iff_getElem] at hPal ⊢
    intro i hi
    have := hPal i (by omega)
    simpa [hW, Win.start, Win.stop] using this
  refine ⟨⟨P⟩, ⟨W⟩, hc, ?_, by rw [hlen]; exact hWl, ?_⟩
  · unfold recordWins
    rw [hmap]
    simp only [bind, Except.bind]
    refine Concat.init_ok ?_ hWal.consecutive
    intro h0
    rw [h0, hrs0] at hWl
    simp at hWl
  · intro pre r post hsplit
    have hsb : ((pre.map path).flatMap fun q => (files q).2).length =
        samplesBefore files path pre := by
      simp [samplesBefore, List.length_flatMap, List.map_map, Function.comp_def]
    have hpl := placed_at files rate (pre.map path) (path r) (post.map path) 0 (by
      intro q hq
      obtain ⟨x, hx, rfl⟩ := List.mem_map.1 hq
      exact h x (by rw [hsplit]; simp [hx]))
    rw [List.length_map, hsb, zero_add, ← List.map_cons, ← List.map_append, ← hsplit] at hpl
    have hz : (rs.zip P)[pre.length]? = some (r, .wav (wavAt files
        ((samplesBefore files path pre : ℚ) / rate) (path r))) := by
      rw [List.getElem?_zip_eq_some]
      exact ⟨by rw [hsplit]; simp, hpl⟩
    show W[pre.length]? = _
    rw [hW, List.getElem?_map, hz]
    simp only [Option.map_some, Win.start, Win.stop, wavAt]
    rw [h r (by rw [hsplit]; simp), add_div]

end Verif.Samples
