import Verif.Datasets.Props
import Verif.Objects.PropsBuild

/-!
# Property C168: saved databases of objects
-/

namespace Verif.Datasets

open Verif.Corpus (Str Info pathJoin dirname extension configGet splitChar)

variable {C R B M : Type}

/-! ### Dictionaries of matrices -/

theorem dictGet?_mem {V : Type} (l : Dict Str V) (hn : (l.map Prod.fst).Nodup) (k : Str) (v : V) (h : (k, v) ∈ l) :
    dictGet? l k = some v := by
  induction l with
  | nil => cases h
  | cons p l ih =>
    rw [List.map_cons, List.nodup_cons] at hn
    unfold dictGet?
    by_cases hp : p.1 = k
    · rw [List.find?_cons_of_pos (by simpa using hp)]
      rcases List.mem_cons.1 h with rfl | h
      · rfl
      · exact absurd (hp ▸ List.mem_map_of_mem (f := Prod.fst) h) hn.1
    · rw [List.find?_cons_of_neg (by simpa using hp)]
      rcases List.mem_cons.1 h with rfl | h
      · exact absurd rfl hp
      · exact ih hn.2 h

theorem dictGet?_some_mem {V : Type} (l : Dict Str V) (k : Str) (v : V) (h : dictGet? l k = some v) : (k, v) ∈ l := by
  unfold dictGet? at h
  obtain ⟨p, h1, rfl⟩ := Option.map_eq_some_iff.1 h
  have h2 := List.find?_some h1
  have h3 := List.mem_of_find?_eq_some h1
  have : p.1 = k := by simpa using h2
  rw [← this]
  exact h3

theorem savemat_mem (l : List (Str × Option M)) (k : Str) (m : M) (h : (k, m) ∈ (savemat l).1) : (k, some m) ∈ l := by
  induction l with
  | nil => cases h
  | cons p l ih =>
    obtain ⟨k', _ | m'⟩ := p
    · cases h
    · rcases List.mem_cons.1 h with e | h
      · obtain ⟨rfl, rfl⟩ := Prod.mk.inj e
        exact List.mem_cons_self
      · exact List.mem_cons_of_mem _ (ih h)

theorem savemat_ok (l : List (Str × Option M)) (h : ∀ p ∈ l, p.2 ≠ none) :
    (savemat l).2 = .ok () ∧ (savemat l).1.map (fun p => (p.1, some p.2)) = l := by
  induction l with
  | nil => exact ⟨rfl, rfl⟩
  | cons p l ih =>
    obtain ⟨k, _ | m⟩ := p
    · exact absurd rfl (h _ List.mem_cons_self)
    · obtain ⟨h1, h2⟩ := ih fun p hp => h p (List.mem_cons_of_mem _ hp)
      refine ⟨h1, ?_⟩
      rw [savemat, List.map_cons, h2]

theorem savemat_error (l : List (Str × Option M)) (h : ∃ p ∈ l, p.2 = none) : (savemat l).2 = .error .typeError := by
  induction l with
  | nil => obtain ⟨p, hp, _⟩ := h; cases hp
  | cons p l ih =>
    obtain ⟨k, _ | m⟩ := p
    · rfl
    · obtain ⟨q, hq, hq'⟩ := h
      rcases List.mem_cons.1 hq with rfl | hq
      · cases hq'
      · exact ih ⟨q, hq, hq'⟩

/-- The names of variables in the order of the code. -/
theorem matrices_eq (db : ObjectDB M) (h1 : db.histos.length = 5) (h2 : db.byFrame.length = 5) :
    db.matrices = FEATURES.zip (db.histos.map some) ++ (FEATURES.map ("by_frame_".toList ++ ·)).zip db.byFrame := by
  obtain ⟨fr, hs, bs, nm⟩ := db
  simp only [] at h1 h2
  obtain ⟨a, b, c, d, e, rfl⟩ : ∃ a b c d e, hs = [a, b, c, d, e] := by
    match hs, h1 with
    | [a, b, c, d, e], _ => exact ⟨a, b, c, d, e, rfl⟩
  obtain ⟨a', b', c', d', e', rfl⟩ : ∃ a b c d e, bs = [a, b, c, d, e] := by
    match bs, h2 with
    | [a, b, c, d, e], _ => exact ⟨a, b, c, d, e, rfl⟩
  rfl

theorem keys_nodup : (FEATURES ++ FEATURES.map ("by_frame_".toList ++ ·)).Nodup := by decide +kernel

theorem matrices_nodup (db : ObjectDB M) (h1 : db.histos.length = 5) (h2 : db.byFrame.length = 5) :
    (db.matrices.map Prod.fst).Nodup := by
  rw [matrices_eq db h1 h2, List.map_append, List.map_fst_zip (by simp [h1]; decide), List.map_fst_zip (by simp [h2]; decide)]
  exact keys_nodup

theorem mem_matrices (db : ObjectDB M) (h1 : db.histos.length = 5) (h2 : db.byFrame.length = 5) :
    (∀ p ∈ FEATURES.zip db.histos, (p.1, some p.2) ∈ db.matrices) ∧
    ∀ p ∈ FEATURES.zip db.byFrame, ("by_frame_".toList ++ p.1, p.2) ∈ db.matrices := by
  rw [matrices_eq db h1 h2]
  constructor
  · intro p hp
    refine List.mem_append_left _ ?_
    rw [List.zip_map_right]
    exact List.mem_map.2 ⟨p, hp, rfl⟩
  · intro p hp
    refine List.mem_append_right _ ?_
    rw [List.zip_map_left]
    exact List.mem_map.2 ⟨p, hp, rfl⟩

theorem mapM_getKey {V : Type} (data : Dict Str V) (f : Str → Str) (ks : List Str) (vs : List V)
    (h : ks.length = vs.length) (hm : ∀ p ∈ ks.zip vs, dictGet? data (f p.1) = some p.2) :
    ks.mapM (fun k => getKey data (f k)) = .ok vs := by
  induction ks generalizing vs with
  | nil =>
    cases vs with
    | nil => rfl
    | cons v vs => cases h
  | cons k ks ih =>
    cases vs with
    | nil => cases h
    | cons v vs =>
      rw [List.mapM_cons, ih vs (by simpa using h) fun p hp => hm p (by rw [List.zip_cons_cons]; exact List.mem_cons_of_mem _ hp)]
      have := hm (k, v) (by rw [List.zip_cons_cons]; exact List.mem_cons_self)
      simp only [] at this
      unfold getKey
      rw [this]
      rfl

theorem mapM_getKey_error {V : Type} (data : Dict Str V) (f : Str → Str) (ks : List Str)
    (h : ∃ k ∈ ks, dictGet? data (f k) = none) : ks.mapM (fun k => getKey data (f k)) = .error .keyError := by
  induction ks with
  | nil => obtain ⟨k, hk, _⟩ := h; cases hk
  | cons k ks ih =>
    rw [List.mapM_cons]
    rcases hk : dictGet? data (f k) with _ | v
    · unfold getKey
      rw [hk]
      rfl
    · obtain ⟨k', h1, h2⟩ := h
      rcases List.mem_cons.1 h1 with rfl | h1
      · rw [hk] at h2; cases h2
      · rw [ih ⟨k', h1, h2⟩]
        unfold getKey
        rw [hk]
        rfl

/-! ### Saving and loading -/

theorem json_mat_ne (path name : Str) : path ++ '/' :: (name ++ ".json".toList) ≠ path ++ '/' :: (name ++ ".mat".toList) := by
  intro e
  have := (List.cons.inj (List.append_cancel_left e)).2
  exact absurd (List.append_cancel_left this) (by decide)

/-- What is written and read when the directory exists. -/
theorem save_spec (order : Dict Str (Option M) → List (Str × Option M)) (db : ObjectDB M) {path name : Str}
    (hp : Plain path) (hn : '/' ∉ name) (fs : FS (Content R B M)) (hd : fs.isDir path = true) (empty : M) :
    ∃ fs', db.save order path name fs = (fs', (savemat (order db.matrices)).2) ∧ fs'.isDir = fs.isDir ∧
      (∀ p, p ≠ path ++ '/' :: (name ++ ".json".toList) → p ≠ path ++ '/' :: (name ++ ".mat".toList) →
        fs'.file p = fs.file p) ∧
      fs'.file (path ++ '/' :: (name ++ ".json".toList)) = some (.objects ⟨db.objectNames,
        some (name ++ ".mat".toList), some (db.frames.map Objects.Frame.toDict)⟩) ∧
      loadObjects empty fs' (path ++ '/' :: (name ++ ".json".toList)) =
        (do
          let histos ← FEATURES.mapM (getKey (savemat (order db.matrices)).1)
          let byFrame ← FEATURES.mapM fun f => getKey (savemat (order db.matrices)).1 ("by_frame_".toList ++ f)
          return ⟨(db.frames.map Objects.Frame.toDict).map Objects.Frame.fromDict, histos, byFrame.map some,
            db.objectNames⟩) := by
  have hj : '/' ∉ name ++ ".json".toList := by
    rw [List.mem_append, not_or]
    exact ⟨hn, by decide⟩
  have hm : '/' ∉ name ++ ".mat".toList := by
    rw [List.mem_append, not_or]
    exact ⟨hn, by decide⟩
  have hh : ∀ n : Str, '/' ∉ n → n.head? ≠ some '/' := by
    intro n hn e
    rcases n with _ | ⟨a, n⟩
    · cases e
    · exact hn (by rw [Option.some.inj e]; exact List.mem_cons_self)
  have e1 := pathJoin_plain hp (hh _ hj)
  have e2 := pathJoin_plain hp (hh _ hm)
  have d1 := dirname_join hp hj
  have d2 := dirname_join hp hm
  unfold ObjectDB.save
  simp only []
  rw [e1, e2]
  unfold FS.save
  rw [d1, d2, hd, if_pos rfl]
  simp only [andThen]
  rw [show (fs.write _ _).isDir path = true from hd, if_pos rfl]
  simp only []
  refine ⟨_, rfl, rfl, ?_, ?_, ?_⟩
  · intro p p1 p2
    rw [write_other _ _ _ _ p2, write_other _ _ _ _ p1]
  · rw [write_other _ _ _ _ (json_mat_ne path name), write_same]
  · unfold loadObjects
    rw [write_other _ _ _ _ (json_mat_ne path name), write_same]
    simp only [bind, Except.bind, Corpus.metaGet]
    rw [d1, e2]
    unfold loadMatrices
    rw [write_same]

/-- **C168**: a database with all its matrices, saved in a directory which exists, is loaded as it was;
no other file changes. -/
theorem C168_round_trip (order : Dict Str (Option M) → List (Str × Option M))
    (horder : ∀ d, (order d).Perm d) (db : ObjectDB M) {path name : Str} (hp : Plain path) (hn : '/' ∉ name)
    (fs : FS (Content R B M)) (hd : fs.isDir path = true) (h1 : db.histos.length = 5) (h2 : db.byFrame.length = 5)
    (h3 : ∀ m ∈ db.byFrame, m ≠ none)
    (hf : ∀ f ∈ db.frames, ∃ fn l t vs, f = Objects.Frame.init fn l t vs) (empty : M) :
    ∃ fs', db.save order path name fs = (fs', .ok ()) ∧ fs'.isDir = fs.isDir ∧
      (∀ p, p ≠ path ++ '/' :: (name ++ ".json".toList) → p ≠ path ++ '/' :: (name ++ ".mat".toList) →
        fs'.file p = fs.file p) ∧
      loadObjects empty fs' (path ++ '/' :: (name ++ ".json".toList)) = .ok db := by
  obtain ⟨fs', k1, k2, k3, _, k5⟩ := save_spec order db hp hn fs hd empty
  have hsome : ∀ p ∈ order db.matrices, p.2 ≠ none := by
    intro p hp
    rw [(horder _).mem_iff, matrices_eq db h1 h2, List.mem_append] at hp
    rcases hp with hp | hp
    · rw [List.zip_map_right] at hp
      obtain ⟨q, _, rfl⟩ := List.mem_map.1 hp
      simp
    · exact h3 _ (List.of_mem_zip hp).2
  obtain ⟨s1, s2⟩ := savemat_ok _ hsome
  have hnd : ((savemat (order db.matrices)).1.map Prod.fst).Nodup := by
    have e : (order db.matrices).map Prod.fst = (savemat (order db.matrices)).1.map Prod.fst := by
      conv_lhs => rw [← s2]
      rw [List.map_map]
      rfl
    rw [← e]
    exact ((horder _).map _).nodup_iff.2 (matrices_nodup db h1 h2)
  have hget : ∀ k m, (k, some m) ∈ db.matrices → dictGet? (savemat (order db.matrices)).1 k = some m := by
    intro k m hkm
    refine dictGet?_mem _ hnd k m ?_
    rw [← (horder _).mem_iff, ← s2] at hkm
    obtain ⟨q, hq, e⟩ := List.mem_map.1 hkm
    obtain ⟨rfl, e2⟩ := Prod.mk.inj e
    rw [← Option.some.inj e2]
    exact hq
  obtain ⟨m1, m2⟩ := mem_matrices db h1 h2
  have hl : FEATURES.length = 5 := rfl
  have hbs : ∃ bs : List M, db.byFrame = bs.map some := by
    refine ⟨db.byFrame.filterMap id, ?_⟩
    have : ∀ l : List (Option M), (∀ m ∈ l, m ≠ none) → l = (l.filterMap id).map some := by
      intro l
      induction l with
      | nil => intro _; rfl
      | cons a l ih =>
        intro h
        rcases a with _ | a
        · exact absurd rfl (h _ List.mem_cons_self)
        · rw [List.filterMap_cons_some (by rfl), List.map_cons, ← ih fun m hm => h m (List.mem_cons_of_mem _ hm)]
    exact this _ h3
  obtain ⟨bs, hbs⟩ := hbs
  have hframes : (db.frames.map Objects.Frame.toDict).map Objects.Frame.fromDict = db.frames := by
    rw [List.map_map]
    conv_rhs => rw [← List.map_id db.frames]
    refine List.map_congr_left fun f hf' => ?_
    obtain ⟨fn, l, t, vs, rfl⟩ := hf f hf'
    exact Objects.C81_dict_round_trip fn l t vs
  refine ⟨fs', by rw [k1, s1], k2, k3, ?_⟩
  rw [k5]
  have a1 := mapM_getKey (savemat (order db.matrices)).1 id FEATURES db.histos (by rw [hl, h1]) fun p hp =>
    hget _ _ (m1 p hp)
  have a2 := mapM_getKey (savemat (order db.matrices)).1 ("by_frame_".toList ++ ·) FEATURES bs
    (by rw [hl, ← h2, hbs, List.length_map]) fun p hp => hget _ _ (by
      have := m2 (p.1, some p.2) (by rw [hbs, List.zip_map_right]; exact List.mem_map.2 ⟨p, hp, rfl⟩)
      exact this)
  simp only [id] at a1
  have a1' : FEATURES.mapM (getKey (savemat (order db.matrices)).1) = .ok db.histos := a1
  rw [a1', a2, hframes]
  show Except.ok _ = _
  rw [← hbs]

/-- **C168**: when a matrix by frame was not computed, `save` raises `TypeError` but has written both files,
from which no database can be loaded. -/
theorem C168_missing (order : Dict Str (Option M) → List (Str × Option M))
    (horder : ∀ d, (order d).Perm d) (db : ObjectDB M) {path name : Str} (hp : Plain path) (hn : '/' ∉ name)
    (fs : FS (Content R B M)) (hd : fs.isDir path = true) (h1 : db.histos.length = 5) (h2 : db.byFrame.length = 5)
    (h3 : none ∈ db.byFrame) (empty : M) :
    ∃ fs', db.save order path name fs = (fs', .error .typeError) ∧
      fs'.file (path ++ '/' :: (name ++ ".json".toList)) ≠ none ∧
      loadObjects empty fs' (path ++ '/' :: (name ++ ".json".toList)) = .error .keyError := by
  obtain ⟨fs', k1, k2, k3, k4, k5⟩ := save_spec order db hp hn fs hd empty
  obtain ⟨m1, m2⟩ := mem_matrices db h1 h2
  obtain ⟨i, hi, hg⟩ := List.mem_iff_getElem.1 h3
  have hz : (FEATURES[i]'(by rw [show FEATURES.length = 5 from rfl]; omega), none) ∈ FEATURES.zip db.byFrame := by
    rw [List.mem_iff_getElem]
    refine ⟨i, by rw [List.length_zip, show FEATURES.length = 5 from rfl]; omega, ?_⟩
    rw [List.getElem_zip, hg]
  have hnone := m2 _ hz
  have hmem := (horder _).mem_iff.2 hnone
  have hmiss : dictGet? (savemat (order db.matrices)).1
      ("by_frame_".toList ++ FEATURES[i]'(by rw [show FEATURES.length = 5 from rfl]; omega)) = none := by
    rcases hq : dictGet? (savemat (order db.matrices)).1
      ("by_frame_".toList ++ FEATURES[i]'(by rw [show FEATURES.length = 5 from rfl]; omega)) with _ | m
    · rfl
    · exfalso
      have := (horder _).mem_iff.1 (savemat_mem _ _ _ (dictGet?_some_mem _ _ _ hq))
      have nd := matrices_nodup db h1 h2
      have e1 := dictGet?_mem _ nd _ _ this
      have e2 := dictGet?_mem _ nd _ _ hnone
      rw [e1] at e2
      cases e2
  refine ⟨fs', by rw [k1, savemat_error _ ⟨_, hmem, rfl⟩], by rw [k4]; simp, ?_⟩
  rw [k5]
  have hb := mapM_getKey_error (savemat (order db.matrices)).1 ("by_frame_".toList ++ ·) FEATURES
    ⟨_, List.getElem_mem (by rw [show FEATURES.length = 5 from rfl]; omega), hmiss⟩
  rw [hb]
  by_cases ha : ∃ k ∈ FEATURES, dictGet? (savemat (order db.matrices)).1 (id k) = none
  · have := mapM_getKey_error (savemat (order db.matrices)).1 id FEATURES ha
    simp only [id] at this
    have this' : FEATURES.mapM (getKey (savemat (order db.matrices)).1) = .error .keyError := this
    rw [this']
    rfl
  · obtain ⟨r, hr⟩ := mapM_exists (getKey (savemat (order db.matrices)).1) FEATURES (by
      intro k hk
      rcases hq : dictGet? (savemat (order db.matrices)).1 k with _ | v
      · exact absurd ⟨k, hk, hq⟩ ha
      · refine ⟨v, ?_⟩
        unfold getKey
        rw [hq])
    rw [hr]
    rfl

/-! ### The script -/

theorem fromLine_init {cv : Objects.Conv} {line : Str} {f : Objects.Frame} (h : Objects.fromLine cv line = .ok f) :
    ∃ fn l t vs, f = Objects.Frame.init fn l t vs := by
  unfold Objects.fromLine at h
  simp only [bind, Except.bind] at h
  split at h
  · cases h
  · split at h
    · cases h
    · exact ⟨_, _, _, _, (Except.ok.inj h).symm⟩

theorem frames_init {cv : Objects.Conv} {ls : List Str} {fr : List Objects.Frame}
    (h : List.Forall₂ (fun l f => Objects.fromLine cv l = .ok f) ls fr) :
    ∀ f ∈ fr, ∃ fn l t vs, f = Objects.Frame.init fn l t vs := by
  induction h with
  | nil => intro f hf; cases hf
  | cons h1 _ ih =>
    intro f hf
    rcases List.mem_cons.1 hf with rfl | hf
    · exact fromLine_init h1
    · exact ih f hf

theorem build_ok {cv : Objects.Conv} {grow : Arrays.LIL → M} {dense : Arrays.Mat → M}
    {names : Option (List (Option Str))} {fs : FS (Content R B M)} {path : Str} {o : ObjectDB M}
    (h : buildObjects cv grow dense names fs path = .ok o) :
    o.histos.length = 5 ∧ o.byFrame.length = 5 ∧ (∀ m ∈ o.byFrame, m ≠ none) ∧
    ∀ f ∈ o.frames, ∃ fn l t vs, f = Objects.Frame.init fn l t vs := by
  unfold buildObjects at h
  simp only [bind, Except.bind] at h
  split at h
  · cases h
  · split at h
    · cases h
    · rename_i r hr
      obtain rfl := Except.ok.inj h
      obtain ⟨db, sk, bf⟩ := r
      obtain ⟨frames, g1, g2, g3⟩ := Objects.buildFrom_ok hr
      obtain ⟨c1, _, _, c4, _⟩ := Objects.C83_counts _ _ _ _ _ g2
      refine ⟨by simpa using c4, by simpa [c4] using g3.length_eq.symm, ?_, ?_⟩
      · intro m hm
        obtain ⟨x, _, rfl⟩ := List.mem_map.1 hm
        simp
      · intro f hf
        simp only [] at hf
        rw [c1] at hf
        have hf := List.mem_of_mem_filter hf
        exact frames_init g1 f hf

/-- **C168**: the script `parse_objects` does nothing exactly when there is a file named as the database
without an extension.  Whether the database exists or not, the script replaces it otherwise by the one
built from the source, which `objects.load` then reads; if it cannot be built nothing changes. -/
theorem C168_parse (cv : Objects.Conv) (grow : Arrays.LIL → M) (dense : Arrays.Mat → M)
    (order : Dict Str (Option M) → List (Str × Option M)) (horder : ∀ d, (order d).Perm d) (abspath : Str → Str)
    {cfg : Dict Str Str} {db feat : Str} (h : Cfg cfg db feat) (fs : FS (Content R B M))
    (hd : fs.isDir (db ++ "/objects".toList) = true)
    (habs : abspath (db ++ "/objects".toList) = db ++ "/objects".toList) (empty : M) :
    (fs.exist (db ++ "/objects/single_object_label".toList) = true →
      parseObjects cv grow dense order abspath cfg fs = (fs, .ok ())) ∧
    (fs.exist (db ++ "/objects/single_object_label".toList) = false →
      (∀ o, buildObjects cv grow dense (some OBJ_NAMES) fs (db ++ "/objects/stat_one_obj_no_hand".toList) = .ok o →
        ∃ fs', parseObjects cv grow dense order abspath cfg fs = (fs', .ok ()) ∧ fs'.isDir = fs.isDir ∧
          objectsLoad empty cfg none fs' = .ok o ∧
          ∀ p, p ≠ db ++ "/objects/single_object_label.json".toList →
            p ≠ db ++ "/objects/single_object_label.mat".toList → fs'.file p = fs.file p) ∧
      ∀ e, buildObjects cv grow dense (some OBJ_NAMES) fs (db ++ "/objects/stat_one_obj_no_hand".toList) = .error e →
        parseObjects cv grow dense order abspath cfg fs = (fs, .error e)) := by
  obtain ⟨p1, p2, p3, p4, p5, _⟩ := objects_paths db
  have hp : Plain (db ++ "/objects".toList) := plain_append (n := "objects".toList) (by decide) (by decide)
  have e1 : ∀ n : Str, db ++ ("/objects/".toList ++ n) = (db ++ "/objects".toList) ++ '/' :: n := by
    intro n
    rw [List.append_assoc]
    rfl
  have hsrc : pathJoin (db ++ "/objects".toList) "stat_one_obj_no_hand".toList =
      db ++ "/objects/stat_one_obj_no_hand".toList :=
    (pathJoin_plain hp (by decide)).trans (e1 "stat_one_obj_no_hand".toList).symm
  have hred : parseObjects cv grow dense order abspath cfg fs =
      if fs.exist (db ++ "/objects/single_object_label".toList) then (fs, .ok ())
      else withVal fs (buildObjects cv grow dense (some OBJ_NAMES) fs (db ++ "/objects/stat_one_obj_no_hand".toList))
        fun o => o.save order (db ++ "/objects".toList) "single_object_label".toList fs := by
    unfold parseObjects
    rw [(objectsDbFile_eq h).2]
    simp only [withVal]
    rw [p1, p2, hsrc, habs]
  rw [hred]
  constructor
  · intro he
    rw [if_pos he]
  · intro he
    rw [if_neg (by rw [he]; simp)]
    constructor
    · intro o ho
      rw [ho]
      simp only [withVal]
      obtain ⟨b1, b2, b3, b4⟩ := build_ok ho
      obtain ⟨fs', k1, k2, k3, k4⟩ := C168_round_trip order horder o hp (name := "single_object_label".toList)
        (by decide) fs hd b1 b2 b3 b4 empty
      refine ⟨fs', k1, k2, ?_, ?_⟩
      · unfold objectsLoad
        simp only []
        rw [(objectsDbFile_eq h).1]
        show loadObjects empty fs' _ = _
        rw [← k4]
        exact congrArg (loadObjects empty fs') (e1 "single_object_label.json".toList)
      · intro p q1 q2
        refine k3 p ?_ ?_
        · intro e
          exact q1 (e.trans (e1 "single_object_label.json".toList).symm)
        · intro e
          exact q2 (e.trans (e1 "single_object_label.mat".toList).symm)
    · intro e he
      rw [he]
      rfl

/-- **C168**: with the names of the script, the loader of objects keeps by default the frames of labels 1
to 10. -/
theorem C168_names (i : ℕ) :
    (∃ n, OBJ_NAMES[i]? = some (some n) ∧ n ∈ DEFAULT_LABELS) ↔ 1 ≤ i ∧ i ≤ 10 := by
  by_cases hi : i < 33
  · have key : ∀ j < 33, ((OBJ_NAMES[j]?.any fun o => o.any fun n => decide (n ∈ DEFAULT_LABELS)) = true ↔
        1 ≤ j ∧ j ≤ 10) := by decide +kernel
    rw [← key i hi]
    constructor
    · rintro ⟨n, h1, h2⟩
      rw [h1]
      simpa using h2
    · intro h
      rcases h1 : OBJ_NAMES[i]? with _ | _ | n
      · rw [h1] at h; cases h
      · rw [h1] at h; cases h
      · rw [h1] at h
        exact ⟨n, rfl, by simpa using h⟩
  · rw [List.getElem?_eq_none (by simpa [OBJ_NAMES] using hi)]
    constructor
    · rintro ⟨n, h, _⟩; cases h
    · omega

/-! ### Examples -/

/-- A database of one frame. -/
def exObjects : ObjectDB ℕ :=
  ⟨[⟨"a_o1_1.5".toList, 1, 3 / 2, [some [1]]⟩], [1, 2, 3, 4, 5], [some 6, some 7, some 8, some 9, some 10],
    some OBJ_NAMES⟩

example : (do
    let fs := (exObjects.save (R := ℕ) (B := ℕ) id "/home/me/work/data/db/objects".toList "x".toList exFS).1
    loadObjects 0 fs "/home/me/work/data/db/objects/x.json".toList) = .ok exObjects := by
  decide +kernel

/-- The same before the computation of the last matrix by frame. -/
example : (
    let r := ({ exObjects with byFrame := [some 6, some 7, some 8, some 9, none] }).save (R := ℕ) (B := ℕ) id
      "/home/me/work/data/db/objects".toList "x".toList exFS
    (r.2, (loadObjects 0 r.1 "/home/me/work/data/db/objects/x.json".toList).map fun d => d.histos)) =
    (.error .typeError, .error .keyError) := by
  decide +kernel

end Verif.Datasets
