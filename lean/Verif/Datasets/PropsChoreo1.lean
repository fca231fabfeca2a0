import Verif.Datasets.Props
import Verif.Corpus.PropsMore

/-!
# Property C119: the files of the first choreography
-/

namespace Verif.Datasets

open Verif.Corpus (Str Meta pathJoin dirname choreo1Load)

theorem dropWhile_slashes (k : ℕ) (l : Str) :
    (List.replicate k '/' ++ l).dropWhile (fun c => decide (c = '/')) = l.dropWhile fun c => decide (c = '/') := by
  induction k with
  | zero => rfl
  | succ k ih =>
    rw [List.replicate_succ, List.cons_append, List.dropWhile_cons_of_pos (by simp), ih]

/-- The directory of a file of a directory written with any number of slashes. -/
theorem dirname_slashes {d n : Str} (hd : Plain d) (hn : '/' ∉ n) (k : ℕ) :
    dirname (d ++ List.replicate k '/' ++ '/' :: n) = d := by
  have hl : d.reverse.dropWhile (fun c => decide (c = '/')) = d.reverse := by
    obtain ⟨h1, h2⟩ := hd
    rw [← List.head?_reverse] at h2
    rcases hr : d.reverse with _ | ⟨c, l⟩
    · rfl
    · rw [hr] at h2
      have : c ≠ '/' := fun e => h2 (by rw [e]; rfl)
      simp [this]
  unfold dirname
  simp only []
  rw [dropWhile_name hn, List.reverse_reverse, List.dropWhile_cons_of_pos (by simp), List.reverse_append,
    List.reverse_replicate, dropWhile_slashes, hl, List.reverse_reverse, if_neg hd.1]

/-- The directory of a file of the root. -/
theorem dirname_root {n : Str} (hn : '/' ∉ n) (k : ℕ) :
    dirname (List.replicate k '/' ++ '/' :: n) = List.replicate (k + 1) '/' := by
  have hl : (List.replicate k '/').dropWhile (fun c => decide (c = '/')) = [] := by
    have := dropWhile_slashes k []
    rwa [List.append_nil] at this
  unfold dirname
  simp only []
  rw [dropWhile_name hn, List.reverse_reverse, List.dropWhile_cons_of_pos (by simp), List.reverse_replicate, hl,
    List.reverse_nil, if_pos rfl, List.reverse_cons, List.reverse_replicate]
  exact List.replicate_succ'.symm

theorem dirname_name {n : Str} (hn : '/' ∉ n) : dirname n = [] := by
  have h : n.reverse.dropWhile (fun c => decide (c ≠ '/')) = [] := by
    have : ∀ l : Str, '/' ∉ l → l.dropWhile (fun c => decide (c ≠ '/')) = [] := by
      intro l hl
      induction l with
      | nil => rfl
      | cons c l ih =>
        rw [List.mem_cons, not_or] at hl
        rw [List.dropWhile_cons_of_pos (by simpa using Ne.symm hl.1), ih hl.2]
    exact this _ (fun hc => hn (List.mem_reverse.1 hc))
  unfold dirname
  simp only []
  rw [h]
  rfl

theorem pathJoin_slash {d n : Str} (h : d.getLast? = some '/') (hn : n.head? ≠ some '/') : pathJoin d n = d ++ n := by
  unfold pathJoin
  rw [if_neg hn, if_pos (Or.inr h)]

/-- **C119.** The description which is read is the file of the data set in the directory of data, and the data file
which it names is read in the same directory (when this name is relative).  This directory may be written with any
number of slashes at its end, be the root or the current one. -/
theorem C119_files {A : Type} (config : Dict Str Str) (readMeta : Str → Py Meta)
    (readData : Str → Py (Dict Str A)) (dataset p : Str) (r : List A × List (List ℤ) × List Str)
    (h : choreo1Load false config readMeta readData dataset (some p) = .ok r) :
    ∃ m f, m.dataFile = some f ∧ (f.head? ≠ some '/' →
      (∀ d, Plain d → p = d → readMeta (d ++ "/".toList ++ dataset ++ ".json".toList) = .ok m ∧
        ∃ x, readData (d ++ "/".toList ++ f) = .ok x) ∧
      (∀ d k, Plain d → p = d ++ List.replicate (k + 1) '/' → readMeta (p ++ dataset ++ ".json".toList) = .ok m ∧
        ∃ x, readData (d ++ "/".toList ++ f) = .ok x) ∧
      (∀ k, p = List.replicate k '/' → readMeta (p ++ dataset ++ ".json".toList) = .ok m ∧
        ∃ x, readData (p ++ f) = .ok x)) := by
  obtain ⟨data, labels, markers⟩ := r
  obtain ⟨hds, m, f, loaded, records, h1, h2, _, _, h3, _⟩ := Corpus.C119_python2 config readMeta readData dataset p
    data labels markers h
  have hname : (dataset ++ ".json".toList).head? ≠ some '/' ∧ '/' ∉ dataset ++ ".json".toList := by
    simp only [List.mem_cons, List.not_mem_nil, or_false] at hds
    rcases hds with rfl | rfl | rfl <;> decide
  generalize hn : dataset ++ ".json".toList = n at *
  refine ⟨m, f, h2, fun hf => ⟨?_, ?_, ?_⟩⟩
  · rintro d hd rfl
    rw [pathJoin_plain hd hname.1] at h1 h3
    rw [dirname_join hd hname.2, pathJoin_plain hd hf] at h3
    refine ⟨?_, loaded, ?_⟩
    · rw [List.append_assoc, hn, List.append_assoc]
      exact h1
    · rw [List.append_assoc]
      exact h3
  · rintro d k hd rfl
    have hlast : (d ++ List.replicate (k + 1) '/').getLast? = some '/' := by
      rw [List.getLast?_append, List.replicate_succ']
      simp
    rw [pathJoin_slash hlast hname.1] at h1 h3
    refine ⟨by rw [List.append_assoc, hn]; exact h1, loaded, ?_⟩
    rw [List.replicate_succ', ← List.append_assoc, List.append_assoc, List.singleton_append, dirname_slashes hd hname.2,
      pathJoin_plain hd hf] at h3
    rw [List.append_assoc]
    exact h3
  · rintro k rfl
    cases k with
    | zero =>
      rw [show List.replicate 0 '/' = ([] : Str) from rfl] at h1 h3 ⊢
      rw [show pathJoin [] n = n by
        unfold pathJoin; rw [if_neg hname.1, if_pos (Or.inl rfl)]; rfl] at h1 h3
      rw [dirname_name hname.2, show pathJoin [] f = f by
        unfold pathJoin; rw [if_neg hf, if_pos (Or.inl rfl)]; rfl] at h3
      exact ⟨by rw [List.append_assoc, hn]; exact h1, loaded, h3⟩
    | succ k =>
      have hlast : (List.replicate (k + 1) '/').getLast? = some '/' := by
        rw [List.replicate_succ']
        simp
      rw [pathJoin_slash hlast hname.1] at h1 h3
      refine ⟨by rw [List.append_assoc, hn]; exact h1, loaded, ?_⟩
      rw [List.replicate_succ', List.append_assoc, List.singleton_append, dirname_root hname.2,
        pathJoin_slash hlast hf] at h3
      exact h3

/-- **C119.** Without path the data are in the directory `choreo` of the databases; an error when the configuration
has none. -/
theorem C119_default {A : Type} (py3 : Bool) (config : Dict Str Str) (readMeta : Str → Py Meta)
    (readData : Str → Py (Dict Str A)) (dataset : Str) :
    (∀ db, dictGet? config "db-dir".toList = some db → Plain db →
      choreo1Load py3 config readMeta readData dataset none =
        choreo1Load py3 config readMeta readData dataset (some (db ++ "/choreo".toList))) ∧
    (dictGet? config "db-dir".toList = none →
      choreo1Load py3 config readMeta readData dataset none = .error .lookupError) := by
  constructor
  · intro db hdb hp
    unfold choreo1Load
    have e : Corpus.choreoPath config none = Corpus.choreoPath config (some (db ++ "/choreo".toList)) := by
      unfold Corpus.choreoPath Corpus.configGet
      rw [hdb]
      show Except.ok (pathJoin db "choreo".toList) = _
      rw [pathJoin_plain hp (by decide)]
      rfl
    rw [e]
  · intro hdb
    unfold choreo1Load
    have e : Corpus.choreoPath config none = .error .lookupError := by
      unfold Corpus.choreoPath Corpus.configGet
      rw [hdb]
      rfl
    rw [e]
    rfl

/-- C119: a description and its data in the root directory, found through `/`. -/
example : choreo1Load (A := ℕ) false [] (fun p => if p = "/primitive.json".toList then
      .ok ⟨some "x.npz".toList, some [("r".toList, [1])], some "n".toList, some ["m".toList]⟩ else .error .ioError)
    (fun p => if p = "/x.npz".toList then .ok [("r".toList, 7)] else .error .ioError) "primitive".toList
    (some "/".toList) = .ok ([7], [[1]], ["m".toList]) := by decide +kernel

end Verif.Datasets
