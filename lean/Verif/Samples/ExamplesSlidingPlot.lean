import Verif.Samples.PropsSlidingFiles
import Verif.Samples.ExamplesSlidingEval

/-!
# Examples for the plots of the recognition along sentences (C186, C187)
-/

namespace Verif.Samples

open Verif Verif.Window Verif.Plots
open Verif.Logger (Key)
open Verif.Experiment

/-- Sounds of four samples at two samples per second. -/
def exSounds : WavFiles ℕ := fun s => (2, List.replicate 4 (s.length - 1))

/-- Paths of sounds. -/
def exPath (i : ℕ) : String := String.ofList (List.replicate (i + 1) 'a')

theorem exSounds_length (rs : List ℕ) :
    (rs.flatMap fun r => (exSounds (exPath r)).2).length = 4 * rs.length := by
  induction rs with
  | nil => rfl
  | cons r rs ih =>
    rw [List.flatMap_cons, List.length_append, ih, List.length_cons]
    simp [exSounds]
    omega

/-- C186: twelve sounds of two seconds; the plot script shows the similarities of their windows with two examples. -/
example : ∃ (w2 : World ℕ) (l : Log ℕ) (v : SlidingView ℕ ℕ) (P : Interactive ℕ ℕ) (dr : Drawing ℕ)
    (wins : List (ArrayWin ℕ)), slidingScript exTools exLearner exMetrics4 Evaluation.exMeasure exSounds exPath (List.range 12)
        exRand exSlid (.ok exSlidLabels) (.ok exSlidData) "0".toList "1".toList exSlidWorld = (w2, .ok ()) ∧
      Logger.load w2.fs "f".toList true true = .ok l ∧
      slidingView exSounds exPath (List.range 12) [5, 6, 5, 6, 5, 6, 5, 6, 5, 6, 5, 6] l = .ok v ∧
      v.interactive = .ok (P, dr) ∧ 1 < wins.length ∧ P.score.similarity.length = wins.length := by
  obtain ⟨w0, p, hp, hpair, hex⟩ := exSlid_prepared
  obtain ⟨w1, hrun⟩ := exSlid_runs
  obtain ⟨d, learner, dt, wins, feats, x, xs, xo, -, -, -, h3, -, -, -, -, h8⟩ := C186_shown exTools exLearner
    exLearner_no_stop (exEnv_ok "".toList).rows exMetrics4 Evaluation.exMeasure exSounds exPath (List.range 12)
    exRand exRand_ok exSlid rfl rfl (by decide) (by decide) exSlidLabels exSlidData rfl "0".toList "1".toList "f".toList
    (by decide) (fun _ => none) w0 w1 p hp hrun (fun _ _ _ _ _ _ _ _ _ _ _ _ => rfl) 2 (by norm_num) (by norm_num [Window.TOL])
    [0, 2, 4, 6, 8, 10, 1, 3, 5, 7, 9, 11]
    (by
      have he : exSlid.modalities.idxOf "sound".toList = 1 := by decide
      rw [hpair, he]
      show List.Forall₂ _ exPairs _
      unfold exPairs
      repeat' constructor)
    (fun _ _ => rfl) (by rw [exSounds_length]; norm_num) 1 (fun a => ⟨_, rfl, rfl⟩)
    [5, 6, 5, 6, 5, 6, 5, 6, 5, 6, 5, 6] (by decide)
  obtain ⟨w2, u1, u2⟩ := h8 x xo rfl rfl
  obtain ⟨l, v, P, dr, n1, n2, n3, -, -, -, n4, -⟩ := u2 true
  refine ⟨w2, l, v, P, dr, wins, u1, n1, n2, n3, ?_, n4⟩
  rw [h3.count, exSounds_length]
  norm_num [TOL]

/-- The experiment in debug mode. -/
def exDebug : Exp := { exSlid with debug := true }

theorem exDebug_prepared : ∃ w0 p, prepare exRand exDebug (.ok exSlidLabels) (.ok exSlidData) exSlidWorld = (w0, .ok p) ∧
    p.samplePairing = exPairs := by
  have h : (okPart (prepare exRand exDebug (.ok exSlidLabels) (.ok exSlidData) exSlidWorld)).map (fun p =>
      p.samplePairing) = some exPairs := by
    decide +kernel
  rcases hp : prepare exRand exDebug (.ok exSlidLabels) (.ok exSlidData) exSlidWorld with ⟨w0, x | p⟩
  · rw [hp] at h
    cases h
  · rw [hp] at h
    simp only [okPart, Option.map_some, Option.some.injEq] at h
    exact ⟨w0, p, rfl, h⟩

theorem exDebug_runs : ∃ w1, run exLearner exRand exDebug (.ok exSlidLabels) (.ok exSlidData)
    (evaluateTwo exLearner exDebug exMetrics4) "0".toList "1".toList exSlidWorld = (w1, .ok ()) := by
  have h : okPart (run exLearner exRand exDebug (.ok exSlidLabels) (.ok exSlidData)
    (evaluateTwo exLearner exDebug exMetrics4) "0".toList "1".toList exSlidWorld) = some () := by
    decide +kernel
  rcases hp : run exLearner exRand exDebug (.ok exSlidLabels) (.ok exSlidData)
    (evaluateTwo exLearner exDebug exMetrics4) "0".toList "1".toList exSlidWorld with ⟨w1, x | p⟩
  · rw [hp] at h
    cases h
  · exact ⟨w1, rfl⟩

/-- C186: in debug mode only twenty of the twenty four seconds have distances. -/
example : ∃ (w2 : World ℕ) (l : Log ℕ) (v : SlidingView ℕ ℕ),
      slidingScript exTools exLearner exMetrics4 Evaluation.exMeasure exSounds exPath (List.range 12)
        exRand exDebug (.ok exSlidLabels) (.ok exSlidData) "0".toList "1".toList exSlidWorld = (w2, .ok ()) ∧
      Logger.load w2.fs "f".toList true true = .ok l ∧
      slidingView exSounds exPath (List.range 12) [5, 6, 5, 6, 5, 6, 5, 6, 5, 6, 5, 6] l = .ok v ∧
      v.interactive = .error .indexError := by
  obtain ⟨w0, p, hp, hpair⟩ := exDebug_prepared
  obtain ⟨w1, hrun⟩ := exDebug_runs
  obtain ⟨d, learner, dt, wins, feats, x, xs, xo, -, -, -, h3, -, -, -, -, h8⟩ := C186_debug exTools exLearner
    exLearner_no_stop (exEnv_ok "".toList).rows exMetrics4 Evaluation.exMeasure exSounds exPath (List.range 12)
    exRand exRand_ok exDebug rfl rfl (by decide) (by decide) exSlidLabels exSlidData rfl "0".toList "1".toList "f".toList
    (by decide) (fun _ => none) w0 w1 p hp hrun (fun _ _ _ _ _ _ _ _ _ _ _ _ => rfl) 2 (by norm_num) (by norm_num [Window.TOL])
    [0, 2, 4, 6, 8, 10, 1, 3, 5, 7, 9, 11]
    (by
      have he : exDebug.modalities.idxOf "sound".toList = 1 := by decide
      rw [hpair, he]
      show List.Forall₂ _ exPairs _
      unfold exPairs
      repeat' constructor)
    (fun _ _ => rfl) (by rw [exSounds_length]; norm_num) (by rw [exSounds_length, exSounds_length]; norm_num) 1
    (fun a => ⟨_, rfl, rfl⟩) [5, 6, 5, 6, 5, 6, 5, 6, 5, 6, 5, 6] (by decide)
  obtain ⟨w2, u1, u2⟩ := h8 x xo rfl rfl
  obtain ⟨l, v, n1, n2, n3⟩ := u2 true
  exact ⟨w2, l, v, u1, n1, n2, n3⟩

/-- C187: both annotations of a sentence are written at one half. -/
example : ([("Angus".toList, 74 / 100, 101 / 100), ("shoe".toList, 153 / 100, 193 / 100)].foldl
    (fun c a => c.annotate a.2 a.1) (⟨(-1 / 10, 1 / 2), none, [], []⟩ : Canvas)) =
    ⟨(0, 53 / 100), some (1 / 2), [(74 / 100, 101 / 100), (153 / 100, 193 / 100)],
      [("Angus".toList, 175 / 200, 1 / 2), ("shoe".toList, 173 / 100, 1 / 2)]⟩ := by
  decide +kernel

/-! ### Ninety test sentences -/

/-- A log of an evaluation with some distances. -/
def exBigLog (n : ℕ) (D : Mx) : Log ℕ :=
  { (Logger.Logger.new none : Log ℕ) with
    glob := [("modalities".toList, .plain (.mods ["sound".toList])),
      ("sample_pairing".toList, .plain (.pairing ((List.range n).map fun i => [i]))),
      ("label_pairing".toList, .plain (.names [[5]]))]
    exps := [[("test".toList, .plain (.idx (List.range n))), ("sliding_distances".toList, .arr D),
      ("label_ex".toList, .plain (.idx [0])),
      ("found_sound2objects_cosine".toList, .plain (.idx (List.replicate n 0)))]] }

theorem exBig (n : ℕ) (hn : 20 ≤ n) : ∃ D v P dr ws m, slidingView exSounds exPath (List.range n) (List.replicate n 5) (exBigLog n D) =
      .ok v ∧ v.interactive = .ok (P, dr) ∧ v.testWins = .ok ws ∧ v.testRecords = List.range n ∧
      logIndices (exBigLog n D) "found_sound2objects_cosine".toList = .ok (List.replicate n 0) ∧
      confusion v.names.length v.testLabels (List.replicate n 0) = .ok m ∧
      (∀ r ∈ v.similarities, r ≠ []) ∧ (∀ w ∈ ws, w.start ≤ w.stop) ∧ ws.map BasicWin.obj = List.range n := by
  have hrs : List.Forall₂ (fun a r => ∃ s, a[["sound".toList].idxOf "sound".toList]? = some s ∧ (List.range n)[s]? = some r)
      ((List.range n).map fun i => [i]) (List.range n) := by
    rw [List.forall₂_map_left_iff]
    apply List.forall₂_same.2
    intro i hi
    exact ⟨i, rfl, List.getElem?_range (List.mem_range.1 hi)⟩
  have hne : ((List.range n).map fun i => [i]) ≠ [] := by
    intro h
    have := congrArg List.length h
    simp at this
    omega
  obtain ⟨wins, feats, s1, s2, -, -⟩ := slidingFeatures_ok exTools exSounds 2 (by norm_num) (by norm_num [TOL]) exPath
    (List.range n) _ _ hne _ hrs (fun _ _ => rfl) (by
      rw [exSounds_length, List.length_range]
      have : (20 : ℚ) ≤ n := by exact_mod_cast hn
      push_cast
      linarith) 1 (fun a => ⟨_, rfl, rfl⟩)
  have hidx : slidingTestIdx ((List.range n).map fun i => [i]) (["sound".toList].idxOf "sound".toList) (List.range n) =
      .ok (List.range n) := by
    unfold slidingTestIdx
    rw [Corpus.mapM_ok_iff]
    apply List.forall₂_same.2
    intro i hi
    rw [pyBind_eq_ok]
    refine ⟨[i], (pyGet_some _ _ _).2 ?_, rfl⟩
    rw [List.getElem?_map, List.getElem?_range (List.mem_range.1 hi)]
    rfl
  have hlabs : slidingTestLabels [5] (List.replicate n 5) (List.range n) = .ok (List.replicate n 0) := by
    unfold slidingTestLabels
    have : List.replicate n 0 = (List.range n).map fun _ => 0 := by simp
    rw [this]
    apply mapM_ok
    intro i hi
    rw [pyBind_eq_ok]
    refine ⟨5, (pyGet_some _ _ _).2 ?_, rfl⟩
    rw [List.getElem?_replicate, if_pos (List.mem_range.1 hi)]
  obtain ⟨v, z1, z2, z3, z4, z5, z6, z7, z8⟩ := slidingView_ok exSounds 2 exPath (List.range n) (List.replicate n 5)
    (exBigLog n ⟨1, wins.map fun _ => [0]⟩) ["sound".toList] (by simp) _ hne [[5]] [5] (List.range n) (List.range n)
    (List.replicate n 0) [0] ⟨1, wins.map fun _ => [0]⟩ rfl rfl rfl rfl rfl rfl rfl hidx hlabs [5] rfl _ hrs (fun _ _ => rfl)
    wins s1
  obtain ⟨y1, y2, y3, y4, y5⟩ := oneAfterAnother_facts (by norm_num) z5 (by
    intro h
    have := congrArg List.length h
    simp at this
    omega)
  have hrows : ∀ r ∈ v.similarities, r ≠ [] := by
    intro r hr
    rw [z7, List.map_map] at hr
    obtain ⟨w, -, rfl⟩ := List.mem_map.1 hr
    simp
  obtain ⟨P, dr, p1, -⟩ := (C128_interactive v.records v.sliding v.similarities (.list v.exampleLabels)
    [("colors".toList, .colors TEN_COLORS)] (some v.isTest) (by rw [z6, z7]; simp) hrows y1 y2 y3 0 _ y4 y5).1
    ⟨le_rfl, by
      rw [exSounds_length, List.length_range]
      have : (20 : ℚ) ≤ n := by exact_mod_cast hn
      push_cast
      linarith⟩
  obtain ⟨ws, t1, t2, t3⟩ := C187_test_windows exSounds exPath 2 _ v z5
  have htr : v.testRecords = List.range n := by
    have : v.testRecords.map some = (List.range n).map some := by
      rw [z2]
      apply List.map_congr_left
      intro i hi
      exact List.getElem?_range (List.mem_range.1 hi)
    exact List.map_injective_iff.2 (Option.some_injective _) this
  have hconf : ∃ m, confusion v.names.length v.testLabels (List.replicate n 0) = .ok m := by
    rw [z3, z4]
    unfold confusion
    rw [show pyAssert ((List.replicate n 0).length == (List.replicate n 0).length) = .ok () by simp [pyAssert]]
    show ∃ m, countPairs 1 _ [[0]] = .ok m
    rw [List.zip_replicate']
    have : ∀ k c, ∃ m, countPairs 1 (List.replicate k (0, 0)) [[c]] = .ok m := by
      intro k
      induction k with
      | zero => intro c; exact ⟨_, rfl⟩
      | succ k ih =>
        intro c
        obtain ⟨m, hm⟩ := ih (c + 1)
        exact ⟨m, hm⟩
    exact this n 0
  obtain ⟨m, hm⟩ := hconf
  refine ⟨_, v, P, dr, ws, m, z1, p1, t1, htr, rfl, hm, hrows, ?_, ?_⟩
  · intro w hw
    exact y3 _ (t3 w hw)
  · rw [t2, htr, List.filter_eq_self]
    intro i hi
    exact decide_eq_true hi


/-- Names of sounds. -/
def exAudio (i : ℕ) : Str := List.replicate (i + 1) 'a' ++ ".wav".toList

theorem exAudio_stem (i : ℕ) : Stem (exAudio i) (List.replicate (i + 1) 'a') := by
  refine ⟨?_, Or.inr ⟨"wav".toList, rfl⟩⟩
  intro h
  have := List.eq_of_mem_replicate h
  exact absurd this (by decide)

theorem stem_unique {name s t : Str} (h : Stem name s) (h' : Stem name t) : s = t := by
  rw [stem_iff] at h h'
  exact h.symm.trans h'

/-- A directory. -/
def exDisk (dirs : List Str) : PlotDisk ℕ := ⟨"w".toList :: dirs, [], []⟩

/-- C187: ninety test sentences; the third figure of the seventeenth has two annotations. -/
example : ∃ (l : Log ℕ) (d' : PlotDisk ℕ) (w : BasicWin ℕ) (dg : Drawing ℕ) (c : Canvas) (r : _),
    plotSlidingScript (fun _ => (0, 1 / 2)) exSounds exPath exAudio exAudio (List.range 90) (List.replicate 90 5) "w".toList l
      (exDisk []) = (d', .ok r) ∧
    dictGet? d'.figures ("w/sliding_win_plots/annotated/".toList ++ List.replicate 17 'a' ++ ".eps".toList) = some (16, dg, c) ∧
    c.texts = [("Angus".toList, 175 / 200, 1 / 2), ("shoe".toList, 173 / 100, 1 / 2)] ∧
    dictGet? d'.texts "w/sliding_win_plots/train_trans.txt".toList = some [] := by
  obtain ⟨D, v, P, dr, ws, m, h1, h2, h3, h4, h5, h6, h7, h8, h9⟩ := exBig 90 (by norm_num)
  have hget : ∀ (i : ℕ) (x : BasicWin ℕ), ws[i]? = some x → x.obj = i := by
    intro i x hx
    have : (ws.map BasicWin.obj)[i]? = some x.obj := by
      rw [List.getElem?_map, hx]
      rfl
    rw [h9] at this
    have := (List.getElem?_eq_some_iff.1 this).2
    simpa using this.symm
  obtain ⟨d', r1, -, -, -, r2, r3, -⟩ := C187_files (fun _ => (0, 1 / 2)) exSounds exPath exAudio exAudio (List.range 90)
    (List.replicate 90 5) "w".toList _ _ (exBigLog 90 D) rfl rfl v P dr ws (List.replicate 90 0) m h1 h2 h3 h5 h6 h7 h8
    (by rw [← List.length_map (f := BasicWin.obj), h9]; simp)
    (by
      intro i _ j _ x y s hx hy sx sy
      rw [hget i x hx] at sx
      rw [hget j y hy] at sy
      have e1 := stem_unique sx (exAudio_stem i)
      have e2 := stem_unique sy (exAudio_stem j)
      rw [e1] at e2
      have := congrArg List.length e2
      simpa using this)
    (exDisk []) (by decide) (by decide)
  obtain ⟨w, dg, s, q1, q2, q3, q4⟩ := r3 (16, [("Angus".toList, 74 / 100, 101 / 100), ("shoe".toList, 153 / 100, 193 / 100)])
    (by decide +kernel)
  have hw := hget _ _ q1
  rw [hw] at q2 q4
  have hs := stem_unique q2 (exAudio_stem 16)
  have q5 := q4 "eps".toList (by decide)
  refine ⟨_, d', w, dg, [("Angus".toList, 74 / 100, 101 / 100), ("shoe".toList, 153 / 100, 193 / 100)].foldl
    (fun c a => c.annotate a.2 a.1) ⟨(0, 1 / 2), none, [], []⟩, _, r1, ?_, ?_, ?_⟩
  · rw [← q5, hs]
    rfl
  · exact (C187_annotations 0 (1 / 2) _).2.1.trans (by norm_num)
  · rw [r2, h4]
    have : (List.range 90).filter (fun r => decide (r ∉ List.range 90)) = [] := by
      rw [List.filter_eq_nil_iff]
      intro a ha
      simpa using ha
    rw [this]
    rfl

/-- C187: eighty nine test sentences are not enough. -/
example : ∃ (l : Log ℕ) (d' : PlotDisk ℕ),
    plotSlidingScript (fun _ => (0, 1 / 2)) exSounds exPath exAudio exAudio (List.range 89) (List.replicate 89 5) "w".toList l
      (exDisk []) = (d', .error .indexError) := by
  obtain ⟨D, v, P, dr, ws, m, h1, h2, h3, h4, h5, h6, h7, h8, h9⟩ := exBig 89 (by norm_num)
  obtain ⟨d', r1, -⟩ := C187_few (fun _ => (0, 1 / 2)) exSounds exPath exAudio exAudio (List.range 89)
    (List.replicate 89 5) "w".toList _ _ (exBigLog 89 D) rfl rfl v P dr ws h1 h2 h3 h7 h8
    (by rw [← List.length_map (f := BasicWin.obj), h9]; simp) (exDisk []) (by decide) (by decide)
  exact ⟨_, d', r1⟩

/-- C187: a directory of figures without `annotated`. -/
example : ∃ (l : Log ℕ) (d' : PlotDisk ℕ),
    plotSlidingScript (fun _ => (0, 1 / 2)) exSounds exPath exAudio exAudio (List.range 90) (List.replicate 90 5) "w".toList l
      (exDisk ["w/sliding_win_plots".toList]) = (d', .error .ioError) ∧ d'.figures = [] := by
  obtain ⟨D, v, P, dr, ws, m, h1, h2, h3, h4, h5, h6, h7, h8, h9⟩ := exBig 90 (by norm_num)
  obtain ⟨d', r1, r2, -⟩ := C187_no_directory (fun _ => (0, 1 / 2)) exSounds exPath exAudio exAudio (List.range 90)
    (List.replicate 90 5) "w".toList _ _ (exBigLog 90 D) rfl rfl v P dr ws h1 h2 h3 h7 h8
    (by rw [← List.length_map (f := BasicWin.obj), h9]; simp) (exDisk ["w/sliding_win_plots".toList]) (by decide) (by decide)
  exact ⟨_, d', r1, r2⟩

end Verif.Samples
