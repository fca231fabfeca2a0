import Verif.Experiment.PropsSerial

/-!
# Examples for the properties of experiments (C87 to C91 and C108)

A learner which copies: what it learns is the number of features of each modality, the internal
representation of data is their first modality, and reconstructions are the representation itself.
-/

namespace Verif.Experiment

open Verif Verif.Logger

/-- Orders and shuffles of the examples. -/
def exRand : Rand ℕ := ⟨fun _ l => l.dedup, fun _ _ l => l, fun l => l.dedup, fun n => (List.range n).reverse⟩

theorem exRand_ok : exRand.OK where
  names m l := ⟨List.nodup_dedup l, fun x => List.mem_dedup⟩
  shuf m v l := .refl _
  set l := ⟨List.nodup_dedup l, fun x => List.mem_dedup⟩
  shuffled n := List.reverse_perm _

/-- The learner of the examples. -/
def exLearner : Ext Unit where
  train _ _ _ _ _ _ _ := .ok ()
  dico _ := ⟨1, [[1]]⟩
  internal _ _ xs _ := match xs with | [] => .error .valueError | x :: _ => .ok x
  reconstruct _ _ i := .ok i

/-- Two modalities. -/
def exTwo : Exp := Exp.new [("motion".toList, .choreo2), ("sound".toList, .acorns (.num 0))] 2 10 10
  none true .leaveOneOut false

/-- Three modalities. -/
def exThree : Exp := Exp.new [("motion".toList, .choreo2), ("sound".toList, .acorns (.num 0)),
  ("image".toList, .objects [] [])] 2 10 10 none true .leaveOneOut false

/-- Labels: two labels, three samples and four samples. -/
def exLabels : List (List ℕ) := [[5, 6, 5], [8, 8, 9, 9]]

/-- Data of the samples. -/
def exData : List Mx := [⟨2, [[1, 0], [0, 1], [2, 0]]⟩, ⟨1, [[1], [2], [3], [5]]⟩]

/-- Labels and data for three modalities. -/
def exLabels3 : List (List ℕ) := [[5, 6, 5, 6], [8, 8, 9, 9], [1, 2, 1, 2]]
/-- Labels and data for three modalities. -/
def exData3 : List Mx := [⟨1, [[1], [0], [2], [4]]⟩, ⟨1, [[1], [2], [3], [5]]⟩, ⟨1, [[1], [2], [7], [5]]⟩]

/-- An empty log. -/
def exWorld : World ℕ := ⟨Logger.new none, fun _ => none⟩

/-- Two of the metrics. -/
def exMetrics : List (List ℚ → List ℚ → ℚ) := [Evaluation.exMeasure, fun a b => a.sum - b.sum]

/-- What `prepare` gives. -/
def okPart {α : Type} (x : World ℕ × Py α) : Option α := match x.2 with | .ok p => some p | .error _ => none

/-- C87: `prepare` succeeds; one example of each label, the others are aligned. -/
example : (okPart (prepare exRand exTwo (.ok exLabels) (.ok exData) exWorld)).map (fun p =>
    (p.labelsAll, p.examples, p.others, p.labels)) = some ([0, 1, 1], [0, 1], [2], [1]) := by
  decide +kernel

/-- C87, C108: data of others, of examples, and coefficients. -/
example : (okPart (prepare exRand exTwo (.ok exLabels) (.ok exData) exWorld)).map (fun p =>
    (p.data, p.dataEx, p.coefs)) = some ([⟨2, [[2, 0]]⟩, ⟨1, [[5]]⟩],
      [⟨2, [[0, 1], [1, 0]]⟩, ⟨1, [[1], [3]]⟩], [some (3 / 4), some (4 / 11)]) := by
  decide +kernel

theorem exTwo_prepared : ∃ w1 p, prepare exRand exTwo (.ok exLabels) (.ok exData) exWorld = (w1, .ok p) ∧
    p.generator = .ok [([], [0])] ∧ p.labelsEx = [0, 1] ∧
    p.data = [⟨2, [[2, 0]]⟩, ⟨1, [[5]]⟩] ∧ p.dataEx = [⟨2, [[0, 1], [1, 0]]⟩, ⟨1, [[1], [3]]⟩] := by
  have h : (okPart (prepare exRand exTwo (.ok exLabels) (.ok exData) exWorld)).map (fun p =>
      (p.generator.toOption, p.labelsEx, p.data, p.dataEx)) = some (some [([], [0])], [0, 1],
      [⟨2, [[2, 0]]⟩, ⟨1, [[5]]⟩], [⟨2, [[0, 1], [1, 0]]⟩, ⟨1, [[1], [3]]⟩]) := by
    set_option synthInstance.maxSize 1024 in
    decide +kernel
  rcases hp : prepare exRand exTwo (.ok exLabels) (.ok exData) exWorld with ⟨w1, x | p⟩
  · rw [hp] at h
    cases h
  · rw [hp] at h
    simp only [okPart, Option.map_some, Option.some.injEq, Prod.mk.injEq] at h
    refine ⟨w1, p, rfl, ?_, h.2.1, h.2.2.1, h.2.2.2⟩
    rcases hg : p.generator with x | g
    · rw [hg] at h
      cases h.1
    · rw [hg] at h
      rw [Option.some.inj h.1]

theorem exLearner_no_stop : exLearner.NoStop where
  train _ _ _ _ _ _ _ := by simp [exLearner]
  internal _ _ xs _ := by cases xs <;> simp [exLearner]
  reconstruct _ _ _ := by simp [exLearner]

theorem exTwo_transforms (data : List Mx) (h : data.length = 2) :
    Transforms exLearner exTwo () data where
  length := h
  internal _ _ x _ _ := ⟨x, rfl, rfl, fun _ _ => ⟨x, rfl, rfl⟩⟩

/-- C88, C89: this experiment completes, with one run. -/
example : ∃ w' ds, run exLearner exRand exTwo (.ok exLabels) (.ok exData)
    (evaluateTwo exLearner exTwo exMetrics) "0".toList "1".toList exWorld = (w', .ok ()) ∧
    w'.log.exps = exWorld.log.exps ++ ds ∧ ds.length = 1 := by
  obtain ⟨w1, p, hp, hg, hle, hd, hde⟩ := exTwo_prepared
  obtain ⟨w', ds, h1, h2, h3, _⟩ := C89_run exLearner exRand exRand_ok exTwo (.ok exLabels) (.ok exData)
    exMetrics "0".toList "1".toList exWorld w1 p _ hp hg (fun q hq => by cases hq) (by decide)
    (by decide) (by rw [hle]; simp) (fun s hs n train test h1 h2 => ⟨(), rfl,
      exTwo_transforms test (by rw [← h2.length_eq, hd]; rfl),
      exTwo_transforms _ (by rw [hde]; rfl)⟩)
  exact ⟨w', ds, h1, h2, h3⟩

/-- C88: the hypotheses of `C88_run` hold for both evaluations. -/
example : ∃ w1 p, prepare exRand exTwo (.ok exLabels) (.ok exData) exWorld = (w1, .ok p) ∧
    p.generator = .ok [([], [0])] ∧
    (∀ learner data labels, OnlyStores (evaluateTwo exLearner exTwo exMetrics p learner data labels)) ∧
    (∀ n ms fs cs k data it, exLearner.train n ms fs cs k data it ≠ .error .stopIteration) ∧
    ∀ learner data labels w, (evaluateTwo exLearner exTwo exMetrics p learner data labels w).2 ≠
      .error .stopIteration := by
  obtain ⟨w1, p, hp, hg, _⟩ := exTwo_prepared
  exact ⟨w1, p, hp, hg, fun _ _ _ => onlyStores_two _ _ _ _ _ _ _, exLearner_no_stop.train,
    fun _ _ _ => two_no_stop _ exLearner_no_stop _ _ _ _ _ _⟩

/-- What one run of the example stores. -/
def exOneRun : Option (List (ℕ × Option (Val (LogVal ℕ) Mx))) :=
  match prepare exRand exTwo (.ok exLabels) (.ok exData) exWorld with
  | (_, .error _) => none
  | (w, .ok p) => match performOneRun exLearner exTwo p (evaluateTwo exLearner exTwo exMetrics p) ([], [0]) w with
    | (_, .error _) => none
    | (w', .ok _) => some (w'.log.exps.map fun d => (d.length,
      dictGet? d "score_motion2sound_motion_bis".toList))

/-- C89: all of the scores are stored. -/
example : exOneRun = some [(3 + 2 * (2 * 2 * 3) * 2, some (.plain (.score (some 1))))] := by
  decide +kernel

/-- C89: with a modality named `frob` the experiment fails. -/
example : (evaluateTwo (L := ℕ) exLearner (Exp.new [("motion".toList, .choreo2), ("frob".toList, .choreo2)]
    2 10 10 none true .leaveOneOut false) (exMetrics ++ exMetrics) ⟨[], [], [], [], [], [],
      [⟨1, [[1], [3]]⟩, ⟨1, [[1], [3]]⟩], [], [0, 1], [], .ok []⟩ () [⟨1, [[1]]⟩, ⟨1, [[1]]⟩] [0]
    ⟨(Logger.new none).newRun, fun _ => none⟩).2 ≠ .ok () :=
  (C89_reserved exLearner _ _ (by decide) _ _ _ _ "frob".toList (by decide) (Or.inr (Or.inl rfl)) _ []
    [] rfl (by decide)).1

theorem exThree_prepared : ∃ w1 p, prepare exRand exThree (.ok exLabels3) (.ok exData3) exWorld =
      (w1, .ok p) ∧ p.generator = .ok [([1], [0]), ([0], [1])] ∧ p.labelsEx = [0, 1] ∧
    p.data = [⟨1, [[2], [4]]⟩, ⟨1, [[2], [5]]⟩, ⟨1, [[7], [5]]⟩] ∧
    p.dataEx = [⟨1, [[1], [0]]⟩, ⟨1, [[1], [3]]⟩, ⟨1, [[1], [2]]⟩] := by
  have h : (okPart (prepare exRand exThree (.ok exLabels3) (.ok exData3) exWorld)).map (fun p =>
      (p.generator.toOption, p.labelsEx, p.data, p.dataEx)) = some (some [([1], [0]), ([0], [1])], [0, 1],
      [⟨1, [[2], [4]]⟩, ⟨1, [[2], [5]]⟩, ⟨1, [[7], [5]]⟩],
      [⟨1, [[1], [0]]⟩, ⟨1, [[1], [3]]⟩, ⟨1, [[1], [2]]⟩]) := by
    set_option synthInstance.maxSize 1024 in
    decide +kernel
  rcases hp : prepare exRand exThree (.ok exLabels3) (.ok exData3) exWorld with ⟨w1, x | p⟩
  · rw [hp] at h
    cases h
  · rw [hp] at h
    simp only [okPart, Option.map_some, Option.some.injEq, Prod.mk.injEq] at h
    refine ⟨w1, p, rfl, ?_, h.2.1, h.2.2.1, h.2.2.2⟩
    rcases hg : p.generator with x | g
    · rw [hg] at h
      cases h.1
    · rw [hg] at h
      rw [Option.some.inj h.1]

theorem exThree_transforms (data : List Mx) (n : ℕ) (h : data.length = 3)
    (hr : ∀ x ∈ data, x.rows.length = n) : Transforms3 exLearner exThree () data n := by
  obtain ⟨a, b, c, rfl⟩ := List.length_eq_three.1 h
  intro m hm
  have hm3 : m = 0 ∨ m = 1 ∨ m = 2 := by
    have : exThree.modalities.length = 3 := rfl
    omega
  rcases hm3 with rfl | rfl | rfl
  · exact ⟨⟨a, ⟨_, _, (rfl : Picks exThree.modalities [0] ["motion".toList]),
      (rfl : Picks [a, b, c] [0] [a]), rfl⟩,
      hr a (by simp)⟩, ⟨b, ⟨_, _, (rfl : Picks exThree.modalities [1, 2] ["sound".toList, "image".toList]),
      (rfl : Picks [a, b, c] [1, 2] [b, c]), rfl⟩, hr b (by simp)⟩⟩
  · exact ⟨⟨b, ⟨_, _, (rfl : Picks exThree.modalities [1] ["sound".toList]),
      (rfl : Picks [a, b, c] [1] [b]), rfl⟩, hr b (by simp)⟩,
      ⟨a, ⟨_, _, (rfl : Picks exThree.modalities [0, 2] ["motion".toList, "image".toList]),
      (rfl : Picks [a, b, c] [0, 2] [a, c]), rfl⟩, hr a (by simp)⟩⟩
  · exact ⟨⟨c, ⟨_, _, (rfl : Picks exThree.modalities [2] ["image".toList]),
      (rfl : Picks [a, b, c] [2] [c]), rfl⟩, hr c (by simp)⟩,
      ⟨a, ⟨_, _, (rfl : Picks exThree.modalities [0, 1] ["motion".toList, "sound".toList]),
      (rfl : Picks [a, b, c] [0, 1] [a, b]), rfl⟩, hr a (by simp)⟩⟩

/-- C90: this experiment completes, with two runs. -/
example : ∃ w' ds, run exLearner exRand exThree (.ok exLabels3) (.ok exData3)
    (evaluateThree exLearner exThree exMetrics) "0".toList "1".toList exWorld = (w', .ok ()) ∧
    w'.log.exps = exWorld.log.exps ++ ds ∧ ds.length = 2 := by
  obtain ⟨w1, p, hp, hg, hle, hd, hde⟩ := exThree_prepared
  obtain ⟨w', ds, h1, h2, h3, _⟩ := C90_run exLearner exRand exRand_ok exThree (.ok exLabels3)
    (.ok exData3) exMetrics "0".toList "1".toList exWorld w1 p _ hp hg (fun q hq => by cases hq)
    (by decide) (by decide) (by unfold NoSep; decide)
    (by
      rintro ⟨_, j, r, hj, hr, hres⟩
      have hj3 : j < 3 := (List.getElem?_eq_some_iff.1 hr).1
      have : j = 1 ∨ j = 2 := by omega
      rcases this with rfl | rfl
      · cases hr
        revert hres
        unfold Reserved
        decide
      · cases hr
        revert hres
        unfold Reserved
        decide)
    (by rw [hle]; simp) (fun s hs n train test h1 h2 => ⟨(), rfl,
      exThree_transforms test _ (by rw [← h2.length_eq, hd]; rfl) (fun x hx => by
        obtain ⟨i, hi⟩ := List.getElem?_of_mem hx
        obtain ⟨y, _, hy⟩ := forall₂_get h2.flip hi
        exact hy.2.length),
      exThree_transforms _ _ (by rw [hde]; rfl) (by rw [hde, hle]; decide)⟩)
  exact ⟨w', ds, h1, h2, h3⟩

/-- C90: `ThreeModalitiesExperiment` fails with two modalities, whatever has been learnt. -/
example (p : Prepared ℕ) (data : List Mx) (labels : List ℕ) : (evaluateThree exLearner exTwo
    (exMetrics ++ exMetrics) p () data labels ⟨(Logger.new none).newRun, fun _ => none⟩).2 ≠ .ok () :=
  (C90_fails exLearner _ _ (by decide) _ _ _ _ (Or.inl rfl) _ [] [] rfl (by decide)).1

/-- C90: and with three modalities the last of which is named `cosine`. -/
example (p : Prepared ℕ) (data : List Mx) (labels : List ℕ) : (evaluateThree exLearner
    (Exp.new [("motion".toList, .choreo2), ("sound".toList, .choreo2), ("cosine".toList, .choreo2)] 2 10 10
      none true .leaveOneOut false)
    (exMetrics ++ exMetrics) p () data labels ⟨(Logger.new none).newRun, fun _ => none⟩).2 ≠ .ok () :=
  (C90_fails exLearner _ _ (by decide) _ _ _ _
    (Or.inr ⟨rfl, 2, "cosine".toList, by decide, rfl, Or.inr (Or.inr rfl)⟩) _ [] [] rfl (by decide)).1

/-- C88: when the learner raises `StopIteration`, the experiment ends silently after the first of the
two runs. -/
example : ((run { exLearner with train := fun _ _ _ _ _ _ _ => .error .stopIteration } exRand exThree
    (.ok exLabels3) (.ok exData3) (evaluateThree exLearner exThree exMetrics) "0".toList "1".toList
    exWorld).2.toOption, (run { exLearner with train := fun _ _ _ _ _ _ _ => .error .stopIteration } exRand
    exThree (.ok exLabels3) (.ok exData3) (evaluateThree exLearner exThree exMetrics) "0".toList "1".toList
    exWorld).1.log.exps.length) = (some (), 1) := by
  decide +kernel

/-- One modality, twelve samples of two labels, one random split. -/
def exSingle : Exp := Exp.new [("motion".toList, .choreo2)] 2 10 10 none true .single false
/-- Their labels. -/
def exLabelsS : List (List ℕ) := [[5, 6, 5, 6, 5, 6, 5, 6, 5, 6, 5, 6]]
/-- Their data. -/
def exDataS : List Mx := [⟨1, [[1], [2], [3], [4], [5], [6], [7], [8], [9], [10], [11], [12]]⟩]

/-- C88: a single run, which tests one sample out of ten, and whose log can be loaded. -/
example : ∃ w1 p w', prepare exRand exSingle (.ok exLabelsS) (.ok exDataS)
      ⟨Logger.new (some "log".toList), fun _ => none⟩ = (w1, .ok p) ∧ p.labels.length = 10 ∧
    run exLearner exRand exSingle (.ok exLabelsS) (.ok exDataS)
      (evaluateTwo exLearner exSingle exMetrics) "0".toList "1".toList
      ⟨Logger.new (some "log".toList), fun _ => none⟩ = (w', .ok ()) ∧
    (∃ l, load w'.fs "log".toList true true = .ok l ∧ List.Forall₂ SameDict l.exps w'.log.exps) ∧
    w'.log.exps.length = 1 := by
  have h : (okPart (prepare exRand exSingle (.ok exLabelsS) (.ok exDataS)
      ⟨Logger.new (some "log".toList), fun _ => none⟩)).map (fun p =>
      (p.generator.toOption, p.labelsEx, p.data.length, p.dataEx.length, p.labels.length)) =
      some (some [([8, 7, 6, 5, 4, 3, 2, 1, 0], [9])], [0, 1], 1, 1, 10) := by
    set_option synthInstance.maxSize 1024 in
    decide +kernel
  rcases hp : prepare exRand exSingle (.ok exLabelsS) (.ok exDataS)
      ⟨Logger.new (some "log".toList), fun _ => none⟩ with ⟨w1, x | p⟩
  · rw [hp] at h
    cases h
  · rw [hp] at h
    simp only [okPart, Option.map_some, Option.some.injEq, Prod.mk.injEq] at h
    obtain ⟨h1, h2, h3, h4, h5⟩ := h
    rcases hg : p.generator with x | g
    · rw [hg] at h1
      cases h1
    · rw [hg] at h1
      cases (Option.some.inj h1 : g = _)
      have ht : ∀ data : List Mx, data.length = 1 → Transforms exLearner exSingle () data :=
        fun data hd => ⟨hd, fun _ _ x _ _ => ⟨x, rfl, rfl, fun _ _ => ⟨x, rfl, rfl⟩⟩⟩
      obtain ⟨w', ds, r1, r2, r3, _⟩ := C89_run exLearner exRand exRand_ok exSingle (.ok exLabelsS)
        (.ok exDataS) exMetrics "0".toList "1".toList _ w1 p _ hp hg (fun q hq => by cases hq)
        (by decide) (by decide) (by rw [h2]; simp) (fun s hs n train test h1 h2 => ⟨(), rfl,
          ht test (by rw [← h2.length_eq, h3]), ht _ h4⟩)
      obtain ⟨l, hl1, _, hl2⟩ := C88_saved exLearner exRand exSingle (.ok exLabelsS) (.ok exDataS)
        (evaluateTwo exLearner exSingle exMetrics) "0".toList "1".toList _ w1 w' p _ "log".toList rfl
        (by decide) (.new _) hp hg (fun _ _ _ => onlyStores_two _ _ _ _ _ _ _) exLearner_no_stop.train
        (fun _ _ _ => two_no_stop _ exLearner_no_stop _ _ _ _ _ _) r1 true
      exact ⟨w1, p, w', rfl, h5, r1, ⟨l, hl1, hl2⟩, by rw [r2, List.length_append, r3]; rfl⟩

end Verif.Experiment
