import Verif.Samples.PropsLauncher

/-!
# Property C138: parameters of the experiments of the launcher
-/

namespace Verif.Samples

open Verif.Logger (Key)
open Verif.Experiment

/-- **C138.** All experiments of the launcher make 50 iterations for training and for tests, once, with shuffled labels, without
coefficients and not in debug mode. -/
theorem C138_parameters (P : Plan) (n : Key) (e : Exp) (h : (n, e) ∈ allExps P) :
    e.iterTrain = 50 ∧ e.iterTest = 50 ∧ e.coefs = none ∧ e.shuffleLabels = true ∧ e.runMode = .single ∧ e.debug = false ∧
      (e.k ∈ P.ks ∨ e.k = 50) := by
  have hn : ∀ pre ls, (n, e) ∈ named P pre ls → e.iterTrain = 50 ∧ e.iterTest = 50 ∧ e.coefs = none ∧ e.shuffleLabels = true ∧
      e.runMode = .single ∧ e.debug = false ∧ (e.k ∈ P.ks ∨ e.k = 50) := by
    intro pre ls hm
    obtain ⟨k, hk, i, -, -, rfl⟩ := mem_named.1 hm
    exact ⟨rfl, rfl, rfl, rfl, rfl, rfl, Or.inl hk⟩
  unfold allExps exps2 exps3 at h
  simp only [List.mem_append] at h
  rcases h with ((((h | h) | h) | h) | h)
  · exact hn _ _ h
  · exact hn _ _ h
  · exact hn _ _ h
  · exact hn _ _ h
  · obtain ⟨f, -, i, -, -, rfl⟩ := mem_expsImage.1 h
    exact ⟨rfl, rfl, rfl, rfl, rfl, rfl, Or.inr rfl⟩

/-- **C138.** The data of an experiment: the descriptors of its name for images, `SURF` and `color` otherwise, the motions of
choreo2 and the first speaker of ACORNS. -/
theorem C138_loaders (P : Plan) (n : Key) (e : Exp) (h : (n, e) ∈ allExps P) :
    (∃ f ∈ P.sets, e.modalities = ["image".toList, "sound".toList] ∧ e.loaders = [.objects f P.labels, .acorns (.num 1)] ∧
      ∃ i < P.nRun, n = featsName f i) ∨
    ∃ k ∈ P.ks, e.k = k ∧ ∃ i < P.nRun,
      (n = runName "motion_sound".toList k i ∧ e.modalities = ["motion".toList, "sound".toList] ∧
        e.loaders = [.choreo2, .acorns (.num 1)]) ∨
      (n = runName "image_sound".toList k i ∧ e.modalities = ["image".toList, "sound".toList] ∧
        e.loaders = [.objects ["SURF".toList, "color".toList] P.labels, .acorns (.num 1)]) ∨
      (n = runName "image_motion".toList k i ∧ e.modalities = ["image".toList, "motion".toList] ∧
        e.loaders = [.objects ["SURF".toList, "color".toList] P.labels, .choreo2]) ∨
      (n = runName "image_motion_sound".toList k i ∧ e.modalities = ["image".toList, "motion".toList, "sound".toList] ∧
        e.loaders = [.objects ["SURF".toList, "color".toList] P.labels, .choreo2, .acorns (.num 1)]) := by
  unfold allExps exps2 exps3 at h
  simp only [List.mem_append] at h
  rcases h with ((((h | h) | h) | h) | h)
  · obtain ⟨k, hk, i, hi, rfl, rfl⟩ := mem_named.1 h
    exact Or.inr ⟨k, hk, rfl, i, hi, Or.inl ⟨rfl, rfl, rfl⟩⟩
  · obtain ⟨k, hk, i, hi, rfl, rfl⟩ := mem_named.1 h
    exact Or.inr ⟨k, hk, rfl, i, hi, Or.inr (Or.inl ⟨rfl, rfl, rfl⟩)⟩
  · obtain ⟨k, hk, i, hi, rfl, rfl⟩ := mem_named.1 h
    exact Or.inr ⟨k, hk, rfl, i, hi, Or.inr (Or.inr (Or.inl ⟨rfl, rfl, rfl⟩))⟩
  · obtain ⟨k, hk, i, hi, rfl, rfl⟩ := mem_named.1 h
    exact Or.inr ⟨k, hk, rfl, i, hi, Or.inr (Or.inr (Or.inr ⟨rfl, rfl, rfl⟩))⟩
  · obtain ⟨f, hf, i, hi, rfl, rfl⟩ := mem_expsImage.1 h
    exact Or.inl ⟨f, hf, rfl, rfl, i, hi, rfl⟩

/-- A plan with one value of `k`, two runs and one set of descriptors. -/
example : ∃ n e, (n, e) ∈ allExps ⟨[10], 2, [["SURF".toList]], []⟩ ∧ e.k = 10 ∧ e.iterTest = 50 := by
  refine ⟨runName "motion_sound".toList 10 1, launched [("motion".toList, .choreo2), ("sound".toList, .acorns (.num 1))] 10, ?_,
    rfl, rfl⟩
  unfold allExps exps2
  simp only [List.mem_append]
  exact Or.inl (Or.inl (Or.inl (Or.inl (mem_named.2 ⟨10, by simp, 1, by decide, rfl, rfl⟩))))

end Verif.Samples
