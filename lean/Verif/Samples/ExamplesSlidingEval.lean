import Verif.Samples.PropsSlidingEval
import Verif.Samples.ExamplesJobs

/-!
# Examples for the recognition along sentences (C183)
-/

namespace Verif.Samples

open Verif.Logger (Key)
open Verif.Experiment

/-- The experiment of the script. -/
def exSlid : Exp := Exp.new [("objects".toList, .objects ["SURF".toList, "color".toList] []),
  ("sound".toList, .acorns (.num 1))] 50 50 50 none false .single false

/-- Twelve samples of two labels in each modality. -/
def exSlidLabels : List (List ℕ) := List.replicate 2 [5, 6, 5, 6, 5, 6, 5, 6, 5, 6, 5, 6]
/-- Their data. -/
def exSlidData : List Mx := List.replicate 2 ⟨1, [[1], [2], [3], [4], [5], [6], [7], [8], [9], [10], [11], [12]]⟩

/-- Features of a sound: its length. -/
def exTools : SlidingTools ℕ Unit := ⟨fun a _ => .ok [(a.length : ℚ)], fun _ _ _ _ _ => ()⟩

/-- The world where the script starts. -/
def exSlidWorld : World ℕ := ⟨Logger.Logger.new (some "f".toList), fun _ => none⟩

/-- The pairings. -/
def exPairs : List (List ℕ) := [[0, 0], [2, 2], [4, 4], [6, 6], [8, 8], [10, 10], [1, 1], [3, 3], [5, 5], [7, 7], [9, 9], [11, 11]]

theorem exSlid_prepared : ∃ w0 p, prepare exRand exSlid (.ok exSlidLabels) (.ok exSlidData) exSlidWorld = (w0, .ok p) ∧
    p.samplePairing = exPairs ∧ p.labelsEx = [0, 1] := by
  have h : (okPart (prepare exRand exSlid (.ok exSlidLabels) (.ok exSlidData) exSlidWorld)).map (fun p =>
      (p.samplePairing, p.labelsEx)) = some (exPairs, [0, 1]) := by
    decide +kernel
  rcases hp : prepare exRand exSlid (.ok exSlidLabels) (.ok exSlidData) exSlidWorld with ⟨w0, x | p⟩
  · rw [hp] at h
    cases h
  · rw [hp] at h
    simp only [okPart, Option.map_some, Option.some.injEq, Prod.mk.injEq] at h
    exact ⟨w0, p, rfl, h.1, h.2⟩

theorem exSlid_runs : ∃ w1, run exLearner exRand exSlid (.ok exSlidLabels) (.ok exSlidData)
    (evaluateTwo exLearner exSlid exMetrics4) "0".toList "1".toList exSlidWorld = (w1, .ok ()) := by
  have h : okPart (run exLearner exRand exSlid (.ok exSlidLabels) (.ok exSlidData)
    (evaluateTwo exLearner exSlid exMetrics4) "0".toList "1".toList exSlidWorld) = some () := by
    decide +kernel
  rcases hp : run exLearner exRand exSlid (.ok exSlidLabels) (.ok exSlidData)
    (evaluateTwo exLearner exSlid exMetrics4) "0".toList "1".toList exSlidWorld with ⟨w1, x | p⟩
  · rw [hp] at h
    cases h
  · exact ⟨w1, rfl⟩

/-- C183: data which cannot be loaded. -/
example : ∃ w' x, run exLearner exRand exSlid (.ok exSlidLabels) (.error .ioError)
      (evaluateTwo exLearner exSlid exMetrics4) "0".toList "1".toList exSlidWorld = (w', .error x) ∧
    slidingScript exTools exLearner exMetrics4 Evaluation.exMeasure (fun _ => (2, [])) (fun _ => "") (List.range 12)
      exRand exSlid (.ok exSlidLabels) (.error .ioError) "0".toList "1".toList exSlidWorld = (w', .error x) := by
  have h : okPart (run exLearner exRand exSlid (.ok exSlidLabels) (.error .ioError)
    (evaluateTwo exLearner exSlid exMetrics4) "0".toList "1".toList exSlidWorld) = none := by
    decide +kernel
  rcases hp : run exLearner exRand exSlid (.ok exSlidLabels) (.error .ioError)
    (evaluateTwo exLearner exSlid exMetrics4) "0".toList "1".toList exSlidWorld with ⟨w1, x | p⟩
  · exact ⟨w1, x, rfl, C183_failed _ _ _ _ _ _ _ _ _ _ _ _ _ _ _ _ hp⟩
  · rw [hp] at h
    cases h

/-- C183: twelve sounds of three samples, at two samples per second; the script stores distances to the two examples. -/
example : ∃ d learner dataTrain wins feats x xs xo, ∃ w1 : World ℕ, ∃ p : Prepared ℕ, w1.log.exps = [d] ∧ TrainedOn d p.data dataTrain ∧
      exLearner.train 1 exSlid.modalities (p.data.map Mx.cols) p.coefs 50 dataTrain 50 = .ok learner ∧
      SlidAlong (exPairs.flatMap fun a => List.replicate 3 (a.getD 1 0)) 2 wins ∧
      List.Forall₂ (fun w v => exTools.hac w.array 2 = .ok v) wins feats ∧
      p.data[1]? = some xs ∧ Shown false xs.cols feats x ∧ p.dataEx[0]? = some xo ∧
      ∃ w2, slidingScript exTools exLearner exMetrics4 Evaluation.exMeasure
            (fun s => (2, List.replicate 3 (s.length - 1))) (fun i => String.ofList (List.replicate (i + 1) 'a')) (List.range 12)
            exRand exSlid (.ok exSlidLabels) (.ok exSlidData) "0".toList "1".toList exSlidWorld = (w2, .ok ()) ∧
          w2.log.exps = [d ++ [("sliding_distances".toList,
              .arr ⟨xo.rows.length, x.rows.map fun r => xo.rows.map (Evaluation.exMeasure r)⟩),
            ("label_ex".toList, .plain (.idx [0, 1]))]] := by
  obtain ⟨w0, p, hp, hpair, hex⟩ := exSlid_prepared
  obtain ⟨w1, hrun⟩ := exSlid_runs
  obtain ⟨d, learner, dt, wins, feats, x, xs, xo, h1, ht, h2, h3, h4, h5, h6, h7, h8⟩ := C183_sliding exTools exLearner
    exLearner_no_stop (exEnv_ok "".toList).rows exMetrics4 Evaluation.exMeasure
    (fun s => (2, List.replicate 3 (s.length - 1))) (fun i => String.ofList (List.replicate (i + 1) 'a')) (List.range 12)
    exRand exRand_ok exSlid rfl (by decide) (by decide) exSlidLabels exSlidData rfl "0".toList "1".toList "f".toList
    (fun _ => none) w0 w1 p hp hrun (fun _ _ _ _ _ _ _ _ _ _ _ _ => rfl) 2 (by norm_num) (by norm_num [Window.TOL])
    [0, 2, 4, 6, 8, 10, 1, 3, 5, 7, 9, 11]
    (by
      have he : exSlid.modalities.idxOf "sound".toList = 1 := by decide
      rw [hpair, he]
      show List.Forall₂ _ exPairs _
      unfold exPairs
      repeat' constructor)
    (fun _ _ => rfl) (by norm_num [List.flatMap]) 1 (fun a => ⟨_, rfl, rfl⟩)
  obtain ⟨w2, u1, u2, -, -⟩ := h8 x xo rfl rfl
  refine ⟨d, learner, dt, wins, feats, x, xs, xo, w1, p, h1, ht, h2, ?_, h4, h5, h6, h7, w2, u1, ?_⟩
  · have : (([0, 2, 4, 6, 8, 10, 1, 3, 5, 7, 9, 11] : List ℕ).flatMap fun i =>
        List.replicate 3 ((String.ofList (List.replicate (i + 1) 'a')).length - 1)) =
        exPairs.flatMap fun a => List.replicate 3 (a.getD 1 0) := by
      simp [exPairs]
    rw [← this]
    exact h3
  · rw [← hex]
    exact u2

end Verif.Samples
