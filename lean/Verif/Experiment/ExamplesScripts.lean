import Verif.Experiment.PropsScripts
import Verif.Experiment.Examples

/-!
# Examples for property C175

Twenty motions and two hundred sounds, with ten labels.
-/

namespace Verif.Experiment

open Verif Verif.Logger

/-- Orders and shuffles of the examples. -/
def exRandK : Rand Key := ⟨fun _ l => l.dedup, fun _ _ l => l, fun l => l.dedup, fun n => (List.range n).reverse⟩

theorem exRandK_ok : exRandK.OK where
  names m l := ⟨List.nodup_dedup l, fun x => List.mem_dedup⟩
  shuf m v l := .refl _
  set l := ⟨List.nodup_dedup l, fun x => List.mem_dedup⟩
  shuffled n := List.reverse_perm _

/-- Ten names of one letter. -/
def exNames : List Key := "abcdefghij".toList.map fun c => [c]

/-- The name of a record. -/
def exName (r : List ℤ) : Key := exNames.getD (r.getD 0 0).toNat []

/-- Records: each of ten labels in turn. -/
def exRecs (n : ℕ) : List (List ℤ) := (List.range n).map fun i => [((i % 10 : ℕ) : ℤ)]

/-- Features: the number of the label. -/
def exRows (n : ℕ) : List (List ℚ) := (List.range n).map fun i => [((i % 10 : ℕ) : ℚ)]

/-- The object of a frame: two frames of each of the ten objects, then a frame of another object. -/
def exFrame (i : ℕ) : ℤ := if i = 20 then 10 else ((i % 10 : ℕ) : ℤ)

/-- Objects: those of `exFrame`, the last of which is not kept. -/
def exObjects : Loaders.ObjDB (List ℚ) Key where
  frames := (List.range 21).map exFrame
  objectNames := some (Datasets.DEFAULT_LABELS ++ ["other".toList])
  histosByFrame := [("SURF".toList, exRows 21), ("color".toList, exRows 21)]

/-- What the loaders read: `n` motions, with `m` rows of features, and two hundred sounds. -/
def exSources (n m : ℕ) : Sources where
  motion := .ok ⟨1, exRows m⟩
  motionDb := .ok (exRecs n, exNames)
  sound := .ok ⟨1, exRows 200⟩
  soundDb := .ok ⟨[[], exRecs 200], exNames⟩
  objects := .ok exObjects
  objectsCols _ := 1

theorem exRecs_name (n : ℕ) (r : List ℤ) (h : r ∈ exRecs n) :
    ∃ t, r[0]? = some t ∧ pyGet exNames t = .ok (exName r) := by
  obtain ⟨i, -, rfl⟩ := List.mem_map.1 h
  have h10 : i % 10 < 10 := Nat.mod_lt _ (by norm_num)
  have all : ∀ k < 10, pyGet exNames ((k : ℕ) : ℤ) = .ok (exName [(k : ℤ)]) := by decide +kernel
  exact ⟨_, rfl, all _ h10⟩

theorem exRecs_names (n : ℕ) (l : List (List ℤ)) (h : ∀ r ∈ l, r ∈ exRecs n) :
    List.Forall₂ (fun r m => ∃ t, r[0]? = some t ∧ pyGet exNames t = .ok m) l (l.map exName) := by
  rw [List.forall₂_map_right_iff, List.forall₂_same]
  exact fun r hr => exRecs_name n r (h r hr)

theorem exMotions : Motions (exSources 20 20) ((exRecs 20).map exName) ⟨1, exRows 20⟩ :=
  ⟨exRecs 20, exNames, rfl, rfl, by simp [exRows, exRecs], exRecs_names 20 _ fun _ h => h⟩

theorem exSounds (n m : ℕ) : Sounds (exSources n m) (((exRecs 200).eraseIdx 176).map exName)
    ⟨1, (exRows 200).eraseIdx 176⟩ :=
  ⟨_, exRecs 200, ⟨1, exRows 200⟩, rfl, rfl, rfl, by simp [exRows, exRecs], by simp [exRecs],
    exRecs_names 200 _ fun _ h => List.mem_of_mem_eraseIdx h, rfl⟩

/-- The name of a frame. -/
def exFrameName (i : ℕ) : Key := (Datasets.DEFAULT_LABELS ++ ["other".toList]).getD (exFrame i).toNat []

theorem exFrames (i : ℕ) (n : Key) :
    Loaders.FrameName exObjects i n ↔ i < 21 ∧ n = exFrameName i := by
  have all : ∀ k < 21, pyGet (Datasets.DEFAULT_LABELS ++ ["other".toList]) (exFrame k) = .ok (exFrameName k) := by
    decide +kernel
  constructor
  · rintro ⟨f, names, h1, h2, h3⟩
    obtain rfl := Option.some.inj h2
    have hi : i < 21 := by
      by_contra hi
      rw [show exObjects.frames = (List.range 21).map exFrame from rfl, List.getElem?_eq_none (by simp; omega)] at h1
      cases h1
    rw [show exObjects.frames = (List.range 21).map exFrame from rfl, List.getElem?_map, List.getElem?_range hi] at h1
    obtain rfl := Option.some.inj h1
    rw [all i hi] at h3
    exact ⟨hi, (Except.ok.inj h3).symm⟩
  · rintro ⟨hi, rfl⟩
    refine ⟨exFrame i, _, ?_, rfl, all i hi⟩
    rw [show exObjects.frames = (List.range 21).map exFrame from rfl, List.getElem?_map, List.getElem?_range hi]
    rfl

theorem exImages (n m : ℕ) : Images (exSources n m) ((List.range 20).map exFrameName)
    ⟨2, (List.range 20).map fun i => [((i % 10 : ℕ) : ℚ), ((i % 10 : ℕ) : ℚ)]⟩ := by
  have kept : ∀ k < 20, exFrameName k ∈ Datasets.DEFAULT_LABELS := by decide +kernel
  refine ⟨exObjects, List.range 20, rfl, ?_, ?_, ⟨List.pairwise_lt_range, fun i => ?_⟩, ?_, ?_, rfl⟩
  · have : ∀ f ∈ exObjects.frames, (exObjects.name f).toOption.isSome := by decide +kernel
    intro f hf
    have := this f hf
    rcases h : exObjects.name f with e | x
    · rw [h] at this
      cases this
    · exact ⟨x, rfl⟩
  · intro f hf
    rcases List.mem_pair.1 hf with rfl | rfl
    · exact ⟨exRows 21, by decide +kernel, by simp [exRows, exObjects]⟩
    · exact ⟨exRows 21, by decide +kernel, by simp [exRows, exObjects]⟩
  · rw [List.mem_range]
    constructor
    · intro h
      exact ⟨_, kept i h, (exFrames i _).2 ⟨by omega, rfl⟩⟩
    · rintro ⟨x, hx, hn⟩
      obtain ⟨h1, rfl⟩ := (exFrames i x).1 hn
      rcases Nat.lt_succ_iff_lt_or_eq.1 h1 with h | rfl
      · exact h
      · exact absurd hx (by decide +kernel)
  · rw [List.forall₂_map_right_iff, List.forall₂_same]
    intro i hi
    rw [List.mem_range] at hi
    exact ⟨(exFrames i _).2 ⟨by omega, rfl⟩, kept i hi⟩
  · rw [List.forall₂_map_right_iff, List.forall₂_same]
    intro i hi
    rw [List.mem_range] at hi
    have hr : (exRows 21)[i]? = some [((i % 10 : ℕ) : ℚ)] := by
      unfold exRows
      rw [List.getElem?_map, List.getElem?_range (by omega)]
      rfl
    exact ⟨[_, _], rfl, .cons ⟨exRows 21, by decide +kernel, hr⟩ (.cons ⟨exRows 21, by decide +kernel, hr⟩ .nil)⟩

theorem exLearner_learns (e : Exp) : Learns exLearner e := by
  intro n feats coefs train h1 h2 h3
  refine ⟨(), rfl, fun data hd => ⟨?_, fun _ _ x _ _ => ⟨x, rfl, rfl, fun _ _ => ⟨x, rfl, rfl⟩⟩⟩⟩
  rw [← h2, ← List.length_map (f := Mx.cols), hd, ← h1, List.length_map]

/-- C175: with these data the script completes, in ten runs. -/
example : ∃ w lines, script (fun _ => "x".toList) exLearner exRandK (exMetrics ++ exMetrics) "0".toList "1".toList
      (exSources 20 20) id icdlLoaders ["icdl2013.py".toList] (fun _ => none) = (w, lines, .ok ()) ∧
    w.log.exps.length = 10 := by
  obtain ⟨w, lines, h1, h2, -⟩ := C175_icdl (fun _ => "x".toList) exLearner exRandK exRandK_ok exLearner_no_stop
    (exMetrics ++ exMetrics) rfl "0".toList "1".toList (exSources 20 20) id (fun _ => .refl _)
    ["icdl2013.py".toList] (fun _ => none) _ _ _ _ exMotions (exSounds 20 20) (by unfold Ten; decide +kernel)
    (by unfold Ten; decide +kernel) (exLearner_learns _)
  exact ⟨w, lines, h1, h2⟩

/-- C175: so does the other script. -/
example : ∃ w lines, script (fun _ => "x".toList) exLearner exRandK (exMetrics ++ exMetrics) "0".toList "1".toList
      (exSources 0 0) id imageLoaders ["image_sound.py".toList, "--debug".toList] (fun _ => none) =
      (w, lines, .ok ()) ∧ w.log.exps.length = 10 := by
  obtain ⟨w, lines, h1, h2, -⟩ := C175_image (fun _ => "x".toList) exLearner exRandK exRandK_ok exLearner_no_stop
    (exMetrics ++ exMetrics) rfl "0".toList "1".toList (exSources 0 0) id (fun _ => .refl _)
    ["image_sound.py".toList, "--debug".toList] (fun _ => none) _ _ _ _ (exImages 0 0) (exSounds 0 0)
    (by unfold Ten; decide +kernel) (by unfold Ten; decide +kernel) (exLearner_learns _)
  exact ⟨w, lines, h1, h2⟩

/-- C175: with nine labels of motions, or without the features of the last motion, it is refused. -/
example : ∀ s ∈ [exSources 9 9, exSources 20 19], Refused (fun _ => none) .assertionError
    (script (fun _ => "x".toList) exLearner exRandK (exMetrics ++ exMetrics) "0".toList "1".toList
      s id icdlLoaders ["icdl2013.py".toList] (fun _ => none)) := by
  have key : ∀ n m, (((exRecs n).map exName).dedup.length ≠
      (((exRecs 200).eraseIdx 176).map exName).dedup.length ∨ (exRows m).length ≠ (exRecs n).length) →
      Refused (fun _ => none) .assertionError
        (script (fun _ => "x".toList) exLearner exRandK (exMetrics ++ exMetrics) "0".toList "1".toList
          (exSources n m) id icdlLoaders ["icdl2013.py".toList] (fun _ => none)) :=
    fun n m h => C175_refused _ _ _ exRandK_ok _ _ _ _ _ (fun _ => .refl _) _ _ _ _ _ _ (exRecs n) exNames rfl
      (exRecs_names n _ fun _ h => h) rfl (exSounds n m) h
  intro s hs
  rcases List.mem_pair.1 hs with rfl | rfl
  · exact key 9 9 (.inl (by decide +kernel))
  · exact key 20 19 (.inr (by simp [exRows, exRecs]))

end Verif.Experiment
