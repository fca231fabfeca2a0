import Verif.Datasets.Props
import Verif.Features.PropsVQ

/-!
# Property C170: features of the second choreography
-/

namespace Verif.Datasets

open Verif.Corpus (Str Info pathJoin dirname extension configGet splitChar)

variable {R B M A : Type}

/-- **C170**: `build_features` raises `ValueError` when the file exists and `force` is false, and the error of
reading the database or of computing the features otherwise; no file changes. -/
theorem C170_errors (loadNpz : FS (Content R B M) → Str → Py (Motion.DB A)) (hist : Motion.DB A → Py (List R))
    {cfg : Dict Str Str} {db feat : Str} (h : Cfg cfg db feat) (fs : FS (Content R B M)) (dbFile featFile : Option Str)
    (force : Bool) :
    (fs.exist (featFile.getD (feat ++ "/choreo2_angle_hist.npz".toList)) = true → force = false →
      choreo2Build loadNpz hist cfg fs dbFile featFile force = (fs, .error .valueError)) ∧
    ((fs.exist (featFile.getD (feat ++ "/choreo2_angle_hist.npz".toList)) = false ∨ force = true) →
      (∀ e, loadNpz fs (dbFile.getD (db ++ "/choreo2/choreo2.json".toList)) = .error e →
        choreo2Build loadNpz hist cfg fs dbFile featFile force = (fs, .error e)) ∧
      ∀ d e, loadNpz fs (dbFile.getD (db ++ "/choreo2/choreo2.json".toList)) = .ok d → hist d = .error e →
        choreo2Build loadNpz hist cfg fs dbFile featFile force = (fs, .error e)) := by
  have e1 : featPath cfg featFile = .ok (featFile.getD (feat ++ "/choreo2_angle_hist.npz".toList)) := by
    rcases featFile with _ | p
    · exact choreo2FeatFile_eq h
    · rfl
  have e2 : choreo2Load loadNpz cfg fs dbFile = loadNpz fs (dbFile.getD (db ++ "/choreo2/choreo2.json".toList)) := by
    unfold choreo2Load
    rcases dbFile with _ | p
    · simp only [choreo2DbFile_eq h]
      rfl
    · rfl
  unfold choreo2Build
  rw [e1]
  simp only [withVal]
  rw [e2]
  constructor
  · rintro h1 rfl
    rw [h1]
    rfl
  · intro hg
    have hg' : ¬ ((fs.exist (featFile.getD (feat ++ "/choreo2_angle_hist.npz".toList)) && !force) = true) := by
      rcases hg with hg | hg <;> rw [hg] <;> simp
    rw [if_neg hg']
    constructor
    · intro e he
      rw [he]
    · intro d e hd he
      rw [hd]
      simp only []
      rw [he]

/-- **C170**: otherwise the features are written in the file, to the name of which `.npz` is added if it is
missing, and nothing else changes; `load_features` reads them, and they are aligned with the labels of the
database when there is one line by record. -/
theorem C170_success (loadNpz : FS (Content R B M) → Str → Py (Motion.DB A)) (hist : Motion.DB A → Py (List R))
    {cfg : Dict Str Str} {db feat : Str} (h : Cfg cfg db feat) (fs : FS (Content R B M)) (dbFile featFile : Option Str)
    (force : Bool) (d : Motion.DB A) (x : List R) (p : Str)
    (hp : p = featFile.getD (feat ++ "/choreo2_angle_hist.npz".toList)) (hfree : fs.exist p = false ∨ force = true)
    (hd : loadNpz fs (dbFile.getD (db ++ "/choreo2/choreo2.json".toList)) = .ok d) (hx : hist d = .ok x)
    (hdir : fs.isDir (dirname (if ".npz".toList <:+ p then p else p ++ ".npz".toList)) = true) :
    ∃ fs', choreo2Build loadNpz hist cfg fs dbFile featFile force = (fs', .ok ()) ∧ fs'.isDir = fs.isDir ∧
      (∀ q, q ≠ (if ".npz".toList <:+ p then p else p ++ ".npz".toList) → fs'.file q = fs.file q) ∧
      choreo2Features cfg fs' (some (if ".npz".toList <:+ p then p else p ++ ".npz".toList)) = .ok x ∧
      (".npz".toList <:+ p → choreo2Features cfg fs' featFile = .ok x ∧
        (loadNpz fs' (dbFile.getD (db ++ "/choreo2/choreo2.json".toList)) = .ok d →
          choreo2FeaturesAndLabels loadNpz cfg fs' dbFile featFile =
            if x.length = d.records.length then .ok (x, d.records.map Prod.snd, d.desc)
            else .error .assertionError)) ∧
      (¬ ".npz".toList <:+ p → fs.file p = none → choreo2Features cfg fs' featFile = .error .ioError) := by
  have e1 : featPath cfg featFile = .ok p := by
    rw [hp]
    rcases featFile with _ | p
    · exact choreo2FeatFile_eq h
    · rfl
  have e2 : ∀ fs, choreo2Load loadNpz cfg fs dbFile =
      loadNpz fs (dbFile.getD (db ++ "/choreo2/choreo2.json".toList)) := by
    intro fs
    unfold choreo2Load
    rcases dbFile with _ | p
    · simp only [choreo2DbFile_eq h]
      rfl
    · rfl
  have e3 : npzName p = if ".npz".toList <:+ p then p else p ++ ".npz".toList := by
    unfold npzName
    by_cases hs : ".npz".toList <:+ p
    · rw [if_pos hs, if_pos (List.isSuffixOf_iff_suffix.2 hs)]
    · rw [if_neg hs, if_neg fun h => hs (List.isSuffixOf_iff_suffix.1 h)]
  rw [← e3] at hdir ⊢
  have hg' : ¬ ((fs.exist p && !force) = true) := by
    rcases hfree with hg | hg <;> rw [hg] <;> simp
  have hb : choreo2Build loadNpz hist cfg fs dbFile featFile force = (fs.write (npzName p) (.features x), .ok ()) := by
    unfold choreo2Build
    rw [e1]
    simp only [withVal]
    rw [if_neg hg', e2, hd]
    simp only []
    rw [hx]
    simp only [FS.save]
    rw [hdir, if_pos rfl]
  have hload : ∀ f q, featPath cfg f = .ok q → q = npzName p →
      choreo2Features cfg (fs.write (npzName p) (.features x)) f = .ok x := by
    rintro f q hq rfl
    unfold choreo2Features
    rw [hq]
    simp only [bind, Except.bind]
    unfold loadRows
    rw [write_same]
  refine ⟨_, hb, rfl, fun q hq => write_other _ _ _ _ hq, hload _ _ rfl rfl, ?_, ?_⟩
  · intro hs
    have hn : p = npzName p := by rw [e3, if_pos hs]
    have hl := hload featFile p e1 hn
    refine ⟨hl, fun hd' => ?_⟩
    unfold choreo2FeaturesAndLabels
    rw [e2, hd', hl]
    simp only [bind, Except.bind, List.length_map]
    rfl
  · intro hs hn
    unfold choreo2Features
    rw [e1]
    simp only [bind, Except.bind]
    unfold loadRows
    rw [write_other _ _ _ _ (show p ≠ npzName p by
      rw [e3, if_neg hs]
      intro e
      have := congrArg List.length e
      rw [List.length_append] at this
      have h4 : ".npz".toList.length = 4 := rfl
      omega), hn]

/-- **C170**: in Python 3, where `db_to_VQ_hist_matrix` always fails, `build_features` never ends normally and
never writes. -/
theorem C170_python3 {n : ℕ} (loadNpz : FS (Content (List ℝ) B M) → Str → Py (Motion.DB A)) (cfg : Dict Str Str)
    (fs : FS (Content (List ℝ) B M)) (dbFile featFile : Option Str) (force : Bool)
    (whiten : List (ℚ × ℚ) → List (ℚ × ℚ)) (kmeans : List (ℚ × ℚ) → ℕ → Py (List (ℚ × ℚ)))
    (histos : List (ℚ × ℚ) → List (ℚ × ℚ) → Option ℝ → Py (List (List ℝ)))
    (angles : Motion.DB A → List (List (Fin n → ℚ))) (nbBins : ℕ) (soft : Option ℝ) :
    ∃ e, choreo2Build loadNpz (fun m => Features.dbToVQHistMatrix true whiten kmeans histos (angles m) 10 "zeros"
      nbBins none none soft) cfg fs dbFile featFile force = (fs, .error e) := by
  unfold choreo2Build
  rcases featPath cfg featFile with e | p
  · exact ⟨e, rfl⟩
  simp only [withVal]
  by_cases hg : (fs.exist p && !force) = true
  · rw [if_pos hg]
    exact ⟨_, rfl⟩
  rw [if_neg hg]
  rcases choreo2Load loadNpz cfg fs dbFile with e | m
  · exact ⟨e, rfl⟩
  obtain ⟨e, he⟩ := Features.C105_python3 whiten kmeans histos (angles m) 10 "zeros" nbBins none none soft
  simp only []
  rw [he]
  exact ⟨e, rfl⟩

/-! ### Examples -/

example : (
    let r := choreo2Build (fun _ _ => .ok (⟨[], [], [(1, [.int 0]), (2, [.int 1])], .none⟩ : Motion.DB ℕ))
      (fun d => .ok d.data) (localConfig "/home/me".toList) exFS none none false
    (r.2, (choreo2FeaturesAndLabels (fun _ _ => .ok (⟨[], [], [(1, [.int 0]), (2, [.int 1])], .none⟩ : Motion.DB ℕ))
      (localConfig "/home/me".toList) r.1 none none).map fun x => x.1)) = (.ok (), .ok [1, 2]) := by
  decide +kernel

end Verif.Datasets
