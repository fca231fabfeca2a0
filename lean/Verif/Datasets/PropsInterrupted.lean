import Verif.Datasets.PropsObjects

/-!
# Property C231: a database of objects saved over another one, interrupted between its two files
-/

namespace Verif.Datasets

open Verif.Corpus (Str pathJoin dirname)

variable {R B M : Type}

/-- `ObjectDB.save` interrupted before `savemat` (`/repo/multimodal/db/models/objects.py:99-108`). -/
def ObjectDB.saveMeta (db : ObjectDB M) (path name : Str) (fs : FS (Content R B M)) : FS (Content R B M) × Py Unit :=
  fs.save (pathJoin path (name ++ ".json".toList)) (.objects ⟨db.objectNames, some (name ++ ".mat".toList),
    some (db.frames.map Objects.Frame.toDict)⟩)

theorem load_described (empty : M) (fs : FS (Content R B M)) (p f : Str) (n n' : Option (List (Option Str)))
    (fr fr' : List (Objects.Str × ℤ × ℚ × List (Option (List ℤ)))) (h : fs.file p = some (.objects ⟨n, some f, some fr⟩))
    (hne : pathJoin (dirname p) f ≠ p) :
    loadObjects empty (fs.write p (.objects ⟨n', some f, some fr'⟩)) p = (loadObjects empty fs p).map fun db =>
      { db with frames := fr'.map Objects.Frame.fromDict, objectNames := n' } := by
  unfold loadObjects
  rw [h, write_same]
  simp only [bind, Except.bind, Corpus.metaGet]
  unfold loadMatrices
  rw [write_other _ _ _ _ hne]
  cases fs.file (pathJoin (dirname p) f) with
  | none => rfl
  | some c =>
    cases c <;> try rfl
    rename_i d
    simp only []
    cases FEATURES.mapM (getKey d) with
    | error e => rfl
    | ok hs =>
      simp only []
      cases (FEATURES.mapM fun f => getKey d ("by_frame_".toList ++ f)) with
      | error e => rfl
      | ok bs => rfl

/-- **C231.** A database of objects saved over an older one and interrupted before the matrices are written raises nothing
when it is loaded: it has the new frames and names, with the *old* matrices. -/
theorem C231_objects (order : Dict Str (Option M) → List (Str × Option M))
    (horder : ∀ d, (order d).Perm d) (old new : ObjectDB M) {path name : Str} (hp : Plain path) (hn : '/' ∉ name)
    (fs : FS (Content R B M)) (hd : fs.isDir path = true) (h1 : old.histos.length = 5) (h2 : old.byFrame.length = 5)
    (h3 : ∀ m ∈ old.byFrame, m ≠ none)
    (hf : ∀ f ∈ old.frames, ∃ fn l t vs, f = Objects.Frame.init fn l t vs)
    (hf' : ∀ f ∈ new.frames, ∃ fn l t vs, f = Objects.Frame.init fn l t vs) (empty : M) :
    ∃ fs' fs'', old.save order path name fs = (fs', .ok ()) ∧ new.saveMeta path name fs' = (fs'', .ok ()) ∧
      loadObjects empty fs'' (path ++ '/' :: (name ++ ".json".toList)) =
        .ok ⟨new.frames, old.histos, old.byFrame, new.objectNames⟩ := by
  obtain ⟨fs', k1, k2, k3, k4⟩ := C168_round_trip order horder old hp hn fs hd h1 h2 h3 hf empty
  obtain ⟨fs1, l1, _, _, l4, _⟩ := save_spec order old hp hn fs hd empty
  have e : fs1 = fs' := by rw [k1] at l1; exact (Prod.mk.inj l1).1.symm
  subst e
  have hj : '/' ∉ name ++ ".json".toList := by
    rw [List.mem_append, not_or]
    exact ⟨hn, by decide⟩
  have hm : '/' ∉ name ++ ".mat".toList := by
    rw [List.mem_append, not_or]
    exact ⟨hn, by decide⟩
  have hh : ∀ n : Str, '/' ∉ n → n.head? ≠ some '/' := by
    intro n hn e
    rcases n with _ | ⟨a, n⟩
    · cases e
    · exact hn (by rw [Option.some.inj e]; exact List.mem_cons_self)
  have e1 := pathJoin_plain hp (hh _ hj)
  have e2 := pathJoin_plain hp (hh _ hm)
  have d1 := dirname_join hp hj
  refine ⟨fs1, fs1.write (path ++ '/' :: (name ++ ".json".toList)) (.objects ⟨new.objectNames,
    some (name ++ ".mat".toList), some (new.frames.map Objects.Frame.toDict)⟩), k1, ?_, ?_⟩
  · unfold ObjectDB.saveMeta FS.save
    rw [e1, d1, k2, hd, if_pos rfl]
  · rw [load_described empty fs1 _ _ _ _ _ _ l4 (by rw [d1, e2]; exact (json_mat_ne path name).symm), k4]
    have hframes : (new.frames.map Objects.Frame.toDict).map Objects.Frame.fromDict = new.frames := by
      rw [List.map_map]
      conv_rhs => rw [← List.map_id new.frames]
      refine List.map_congr_left fun f hf1 => ?_
      obtain ⟨fn, l, t, vs, rfl⟩ := hf' f hf1
      exact Objects.C81_dict_round_trip fn l t vs
    rw [hframes]
    rfl

/-- Databases without frames, with matrices 0 and 1 and different names: names of the second one, matrices of the first. -/
example : ∃ fs' fs'', (⟨[], [0, 0, 0, 0, 0], List.replicate 5 (some 0), none⟩ : ObjectDB ℕ).save id "d".toList "n".toList
      ⟨fun p => p == "d".toList, fun _ => none⟩ = ((fs' : FS (Content ℕ ℕ ℕ)), .ok ()) ∧
    (⟨[], [1, 1, 1, 1, 1], List.replicate 5 (some 1), some []⟩ : ObjectDB ℕ).saveMeta "d".toList "n".toList fs' =
      (fs'', .ok ()) ∧
    loadObjects 0 fs'' ("d".toList ++ '/' :: ("n".toList ++ ".json".toList)) =
      .ok ⟨[], [0, 0, 0, 0, 0], List.replicate 5 (some 0), some []⟩ :=
  C231_objects id (fun _ => .refl _) _ _ ⟨by decide, by decide⟩ (by decide) _ (by decide) rfl rfl (by decide) (by simp)
    (by simp) 0

end Verif.Datasets
