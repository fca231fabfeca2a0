import Verif.Datasets.Model
import Verif.Loaders.PropsMore
import Verif.Corpus.PropsInfo
import Mathlib.Tactic.IntervalCases

/-!
# Property C167: default files and downloads

`C167_choreo2`, `C167_acorns` and `C167_objects` tell which files are written, and that the functions
which load data sets read them; `C167_script` is about the script `download_dbs`.
-/

namespace Verif.Datasets

open Verif.Corpus (Str Info pathJoin dirname extension configGet splitChar checkYear nSpeakers)
open Verif.Loaders (popAll popRecords blacklistY1 takeRows featureFileName acornsFile allSpeakers)

variable {C R B M : Type}

/-! ### Paths -/

/-- A directory written without a trailing slash. -/
def Plain (d : Str) : Prop := d ≠ [] ∧ d.getLast? ≠ some '/'

theorem pathJoin_plain {d : Str} (h : Plain d) {n : Str} (hn : n.head? ≠ some '/') :
    pathJoin d n = d ++ '/' :: n := by
  unfold pathJoin
  rw [if_neg hn, if_neg]
  rintro (e | e)
  · exact h.1 e
  · exact h.2 e

theorem plain_append {d : Str} {n : Str} (hn : n ≠ []) (hl : n.getLast? ≠ some '/') : Plain (d ++ '/' :: n) := by
  refine ⟨by simp, ?_⟩
  rw [List.getLast?_append]
  rw [List.getLast?_cons]
  rcases h : n.getLast? with _ | c
  · exact absurd (List.getLast?_eq_none_iff.1 h) hn
  · rw [h] at hl
    simpa using hl

theorem takeWhile_name {n rest : Str} (hn : '/' ∉ n) :
    ((rest ++ '/' :: n).reverse.takeWhile fun c => decide (c ≠ '/')) = n.reverse := by
  rw [List.reverse_append, List.reverse_cons, List.append_assoc, List.takeWhile_append_of_pos]
  · simp
  · intro c hc
    have : c ∈ n := List.mem_reverse.1 hc
    simp only [decide_eq_true_eq]
    rintro rfl
    exact hn this

theorem dropWhile_name {n rest : Str} (hn : '/' ∉ n) :
    ((rest ++ '/' :: n).reverse.dropWhile fun c => decide (c ≠ '/')) = '/' :: rest.reverse := by
  rw [List.reverse_append, List.reverse_cons, List.append_assoc, List.dropWhile_append_of_pos]
  · simp
  · intro c hc
    have : c ∈ n := List.mem_reverse.1 hc
    simp only [decide_eq_true_eq]
    rintro rfl
    exact hn this

theorem basename_join (d : Str) {n : Str} (hn : '/' ∉ n) : basename (d ++ '/' :: n) = n := by
  unfold basename
  rw [takeWhile_name hn, List.reverse_reverse]

theorem dirname_join {d n : Str} (hd : Plain d) (hn : '/' ∉ n) : dirname (d ++ '/' :: n) = d := by
  have hl : d.reverse.dropWhile (fun c => decide (c = '/')) = d.reverse := by
    obtain ⟨h1, h2⟩ := hd
    rw [← List.head?_reverse] at h2
    rcases hr : d.reverse with _ | ⟨c, l⟩
    · rfl
    · rw [hr] at h2
      have : c ≠ '/' := fun e => h2 (by rw [e]; rfl)
      simp [this]
  unfold dirname
  simp only []
  rw [dropWhile_name hn, List.reverse_reverse, List.dropWhile_cons_of_pos (by simp), hl, List.reverse_reverse,
    if_neg hd.1]

theorem join_ne_name {d d' n n' : Str} (hn : '/' ∉ n) (hn' : '/' ∉ n') (h : n ≠ n') :
    d ++ '/' :: n ≠ d' ++ '/' :: n' := by
  intro e
  have := congrArg basename e
  rw [basename_join d hn, basename_join d' hn'] at this
  exact h this

theorem mapM_exists {α β : Type} (f : α → Py β) (l : List α) (h : ∀ a ∈ l, ∃ b, f a = .ok b) :
    ∃ r, l.mapM f = .ok r := by
  induction l with
  | nil => exact ⟨[], rfl⟩
  | cons a l ih =>
    obtain ⟨b, hb⟩ := h a List.mem_cons_self
    obtain ⟨r, hr⟩ := ih fun a ha => h a (List.mem_cons_of_mem _ ha)
    refine ⟨b :: r, ?_⟩
    rw [List.mapM_cons, hb, hr]
    rfl

/-! ### Downloads -/

theorem write_same (fs : FS C) (p : Str) (c : C) : (fs.write p c).file p = some c := if_pos rfl

theorem write_other (fs : FS C) (p q : Str) (c : C) (h : q ≠ p) : (fs.write p c).file q = fs.file q := if_neg h

theorem exist_write (fs : FS C) (p q : Str) (c : C) (h : p ≠ q) (he : fs.exist q = false) :
    (fs.write p c).exist q = false := by
  unfold FS.exist at he ⊢
  rw [Bool.or_eq_false_iff] at he ⊢
  refine ⟨he.1, ?_⟩
  rw [write_other fs p q c (Ne.symm h)]
  exact he.2

theorem retrieve_ok (get : Str → Py C) (ow : Bool) (fs : FS C) (url d n : Str) (c : C) (hd : fs.isDir d = true)
    (hg : get url = .ok c) (hw : ow = true ∨ fs.exist (pathJoin d n) = false) :
    retrieve get ow fs url d n = (fs.write (pathJoin d n) c, .ok ()) := by
  unfold retrieve checkPath
  simp only []
  rw [hd, if_neg (by simp), if_neg]
  · simp only []
    rw [hg]
  · rcases hw with h | h <;> simp [h]

theorem retrieve_other (get : Str → Py C) (ow : Bool) (fs : FS C) (url d n : Str) :
    (retrieve get ow fs url d n).1.isDir = fs.isDir ∧
    ∀ p, p ≠ pathJoin d n → (retrieve get ow fs url d n).1.file p = fs.file p := by
  unfold retrieve
  rcases h : checkPath fs d n ow with e | p
  · exact ⟨rfl, fun _ _ => rfl⟩
  · have hp : p = pathJoin d n := by
      unfold checkPath at h
      simp only [] at h
      split at h
      · cases h
      · split at h
        · cases h
        · exact (Except.ok.inj h).symm
    rcases get url with e | c
    · exact ⟨rfl, fun _ _ => rfl⟩
    · refine ⟨rfl, fun q hq => ?_⟩
      simp only []
      exact write_other fs p q c (hp ▸ hq)

theorem retrieveAll_other (get : Str → Py C) (ow : Bool) (src : Str) (l : List (Str × Str)) : ∀ fs : FS C,
    (retrieveAll get ow src fs l).1.isDir = fs.isDir ∧
    ∀ p, (∀ x ∈ l, p ≠ pathJoin x.1 x.2) → (retrieveAll get ow src fs l).1.file p = fs.file p := by
  induction l with
  | nil => exact fun fs => ⟨rfl, fun _ _ => rfl⟩
  | cons x l ih =>
    intro fs
    obtain ⟨d, n⟩ := x
    rw [retrieveAll]
    have h1 := retrieve_other get ow fs (src ++ n) d n
    rcases hr : retrieve get ow fs (src ++ n) d n with ⟨fs', e | u⟩
    · rw [hr] at h1
      exact ⟨h1.1, fun p hp => h1.2 p (hp _ List.mem_cons_self)⟩
    · rw [hr] at h1
      simp only [andThen]
      obtain ⟨g1, g2⟩ := ih fs'
      refine ⟨g1.trans h1.1, fun p hp => ?_⟩
      rw [g2 p fun x hx => hp x (List.mem_cons_of_mem _ hx)]
      exact h1.2 p (hp _ List.mem_cons_self)

theorem retrieveAll_ok (get : Str → Py C) (ow : Bool) (src : Str) (l : List (Str × Str)) : ∀ fs : FS C,
    (l.map fun x => pathJoin x.1 x.2).Nodup →
    (∀ x ∈ l, fs.isDir x.1 = true ∧ (∃ c, get (src ++ x.2) = .ok c) ∧
      (ow = true ∨ fs.exist (pathJoin x.1 x.2) = false)) →
    (retrieveAll get ow src fs l).2 = .ok () ∧
    ∀ x ∈ l, ∀ c, get (src ++ x.2) = .ok c → (retrieveAll get ow src fs l).1.file (pathJoin x.1 x.2) = some c := by
  induction l with
  | nil => exact fun fs _ _ => ⟨rfl, by simp⟩
  | cons x l ih =>
    intro fs hnd h
    obtain ⟨d, n⟩ := x
    obtain ⟨h1, ⟨c, hc⟩, h3⟩ := h _ List.mem_cons_self
    rw [List.map_cons, List.nodup_cons] at hnd
    rw [retrieveAll, retrieve_ok get ow fs _ d n c h1 hc h3]
    simp only [andThen]
    have hne : ∀ x ∈ l, pathJoin d n ≠ pathJoin x.1 x.2 := by
      intro x hx e
      exact hnd.1 (e ▸ List.mem_map_of_mem hx)
    obtain ⟨g1, g2⟩ := ih (fs.write (pathJoin d n) c) hnd.2 fun x hx => by
      obtain ⟨k1, k2, k3⟩ := h x (List.mem_cons_of_mem _ hx)
      exact ⟨k1, k2, k3.imp id (exist_write fs _ _ c (hne x hx))⟩
    refine ⟨g1, fun x hx c' hc' => ?_⟩
    rcases List.mem_cons.1 hx with rfl | hx
    · rw [(retrieveAll_other get ow src l _).2 _ fun x hx => hne x hx]
      have : c = c' := Except.ok.inj (hc.symm.trans hc')
      subst this
      exact write_same fs _ c
    · exact g2 x hx c' hc'

/-! ### Configuration -/

/-- **C167**: the directories of `local.py`. -/
theorem C167_local (home : Str) :
    configGet (localConfig home) "db-dir".toList = .ok (home ++ "/work/data/db".toList) ∧
    configGet (localConfig home) "feat-dir".toList = .ok (home ++ "/work/data/features".toList) := by
  have h : ∀ n : Str, n.head? ≠ some '/' → pathJoin (home ++ "/work/data/".toList) n = home ++ ("/work/data/".toList ++ n) := by
    intro n hn
    unfold pathJoin
    rw [if_neg hn, if_pos, List.append_assoc]
    right
    rw [List.getLast?_append]
    rfl
  unfold configGet localConfig
  simp only []
  rw [h _ (by decide), h _ (by decide)]
  exact ⟨rfl, rfl⟩

/-- The values of the configuration, plain directories. -/
structure Cfg (cfg : Dict Str Str) (db feat : Str) : Prop where
  getDb : configGet cfg "db-dir".toList = .ok db
  getFeat : configGet cfg "feat-dir".toList = .ok feat
  dbPlain : Plain db
  featPlain : Plain feat

/-- The configuration of `local.py` is one. -/
theorem cfg_local (home : Str) :
    Cfg (localConfig home) (home ++ "/work/data/db".toList) (home ++ "/work/data/features".toList) := by
  refine ⟨(C167_local home).1, (C167_local home).2, ?_, ?_⟩
  · exact plain_append (d := home) (n := "work/data/db".toList) (by decide) (by decide)
  · exact plain_append (d := home) (n := "work/data/features".toList) (by decide) (by decide)

theorem choreo2DbFile_eq {cfg : Dict Str Str} {db feat : Str} (h : Cfg cfg db feat) :
    choreo2DbFile cfg = .ok (db ++ "/choreo2/choreo2.json".toList) := by
  unfold choreo2DbFile
  rw [h.getDb]
  show Except.ok _ = _
  rw [pathJoin_plain h.dbPlain (n := "choreo2".toList) (by decide),
    pathJoin_plain (plain_append (n := "choreo2".toList) (by decide) (by decide)) (n := choreo2Meta) (by decide),
    List.append_assoc]
  rfl

theorem choreo2FeatFile_eq {cfg : Dict Str Str} {db feat : Str} (h : Cfg cfg db feat) :
    choreo2FeatFile cfg = .ok (feat ++ "/choreo2_angle_hist.npz".toList) := by
  unfold choreo2FeatFile
  rw [h.getFeat]
  show Except.ok _ = _
  rw [pathJoin_plain h.featPlain (n := choreo2Feat) (by decide)]
  rfl

theorem getDest_eq {cfg : Dict Str Str} {db feat : Str} (h : Cfg cfg db feat) :
    getDest cfg none true = .ok (db ++ "/choreo2".toList, "choreo2.json".toList) ∧
    getDest cfg none false = .ok (db ++ "/choreo2".toList, "choreo2".toList) := by
  have e : db ++ "/choreo2/choreo2.json".toList = (db ++ "/choreo2".toList) ++ '/' :: "choreo2.json".toList := by
    rw [List.append_assoc]
    rfl
  have hp : Plain (db ++ "/choreo2".toList) := plain_append (n := "choreo2".toList) (by decide) (by decide)
  have h1 : basename (db ++ "/choreo2/choreo2.json".toList) = "choreo2.json".toList := by
    rw [e, basename_join _ (by decide)]
  have h2 : dirname (db ++ "/choreo2/choreo2.json".toList) = db ++ "/choreo2".toList := by
    rw [e, dirname_join hp (by decide)]
  unfold getDest
  simp only []
  rw [choreo2DbFile_eq h]
  constructor
  · show Except.ok (_, _) = _
    simp only []
    rw [h1, h2]
    rfl
  · show Except.ok (_, _) = _
    simp only []
    rw [h1, h2]
    rfl

/-! ### Theorems -/

/-- **C167**: with directories which exist, an answer from the server for each file and no file in the way
(or `overwrite`), `choreo2.download_with_features` writes the description, the data and the features, and
nothing else; `choreo2.load` and `choreo2.load_features` read the files written. -/
theorem C167_choreo2 {cfg : Dict Str Str} {db feat : Str} (h : Cfg cfg db feat) (get : Str → Py (Content R B M))
    (ow : Bool) (fs : FS (Content R B M)) (c1 c2 c3 : Content R B M)
    (hdb : fs.isDir (db ++ "/choreo2".toList) = true) (hfeat : fs.isDir feat = true)
    (g1 : get "http://olivier.mangin.com/data/choreo2/choreo2.json".toList = .ok c1)
    (g2 : get "http://olivier.mangin.com/data/choreo2/choreo2.npz".toList = .ok c2)
    (g3 : get "http://olivier.mangin.com/data/choreo2/choreo2_angle_hist.npz".toList = .ok c3)
    (hw : ow = true ∨ fs.exist (db ++ "/choreo2/choreo2.json".toList) = false ∧
      fs.exist (db ++ "/choreo2/choreo2.npz".toList) = false ∧
      fs.exist (feat ++ "/choreo2_angle_hist.npz".toList) = false) :
    ∃ fs', choreo2DownloadAll get cfg none none ow fs = (fs', .ok ()) ∧ fs'.isDir = fs.isDir ∧
      fs'.file (db ++ "/choreo2/choreo2.json".toList) = some c1 ∧
      fs'.file (db ++ "/choreo2/choreo2.npz".toList) = some c2 ∧
      fs'.file (feat ++ "/choreo2_angle_hist.npz".toList) = some c3 ∧
      (∀ p, p ≠ db ++ "/choreo2/choreo2.json".toList → p ≠ db ++ "/choreo2/choreo2.npz".toList →
        p ≠ feat ++ "/choreo2_angle_hist.npz".toList → fs'.file p = fs.file p) ∧
      (∀ rows, c3 = .features rows → choreo2Features cfg fs' none = .ok rows) ∧
      ∀ {D : Type} (loadNpz : FS (Content R B M) → Str → Py D),
        choreo2Load loadNpz cfg fs' none = loadNpz fs' (db ++ "/choreo2/choreo2.json".toList) := by
  have hp : Plain (db ++ "/choreo2".toList) := plain_append (n := "choreo2".toList) (by decide) (by decide)
  have e1 : pathJoin (db ++ "/choreo2".toList) "choreo2.json".toList = db ++ "/choreo2/choreo2.json".toList := by
    rw [pathJoin_plain hp (by decide), List.append_assoc]
    rfl
  have e2 : pathJoin (db ++ "/choreo2".toList) "choreo2.npz".toList = db ++ "/choreo2/choreo2.npz".toList := by
    rw [pathJoin_plain hp (by decide), List.append_assoc]
    rfl
  have e3 : pathJoin feat choreo2Feat = feat ++ "/choreo2_angle_hist.npz".toList := by
    rw [pathJoin_plain h.featPlain (n := choreo2Feat) (by decide)]
    rfl
  have n12 : db ++ "/choreo2/choreo2.json".toList ≠ db ++ "/choreo2/choreo2.npz".toList := by
    intro e
    exact absurd (List.append_cancel_left e) (by decide)
  have n3 : ∀ n : Str, '/' ∉ n → n ≠ "choreo2_angle_hist.npz".toList →
      (db ++ "/choreo2".toList) ++ '/' :: n ≠ feat ++ "/choreo2_angle_hist.npz".toList := by
    intro n hn hne
    exact join_ne_name (n' := "choreo2_angle_hist.npz".toList) hn (by decide) hne
  have n13 : db ++ "/choreo2/choreo2.json".toList ≠ feat ++ "/choreo2_angle_hist.npz".toList := by
    have := n3 "choreo2.json".toList (by decide) (by decide)
    rwa [List.append_assoc] at this
  have n23 : db ++ "/choreo2/choreo2.npz".toList ≠ feat ++ "/choreo2_angle_hist.npz".toList := by
    have := n3 "choreo2.npz".toList (by decide) (by decide)
    rwa [List.append_assoc] at this
  have hA := retrieveAll_ok get ow choreo2Src [(db ++ "/choreo2".toList, "choreo2.json".toList),
    (db ++ "/choreo2".toList, "choreo2.npz".toList)] fs (by simp only [List.map_cons, List.map_nil]; rw [e1, e2]; simpa using n12) (by
      intro x hx
      rcases List.mem_cons.1 hx with rfl | hx
      · exact ⟨hdb, ⟨c1, g1⟩, hw.imp id fun hw => by rw [e1]; exact hw.1⟩
      · obtain rfl := List.mem_singleton.1 hx
        exact ⟨hdb, ⟨c2, g2⟩, hw.imp id fun hw => by rw [e2]; exact hw.2.1⟩)
  have hAo := retrieveAll_other get ow choreo2Src [(db ++ "/choreo2".toList, "choreo2.json".toList),
    (db ++ "/choreo2".toList, "choreo2.npz".toList)] fs
  have hD : choreo2Download get cfg none ow fs = retrieveAll get ow choreo2Src fs
      [(db ++ "/choreo2".toList, "choreo2.json".toList), (db ++ "/choreo2".toList, "choreo2.npz".toList)] := by
    unfold choreo2Download
    rw [(getDest_eq h).2]
    rfl
  unfold choreo2DownloadAll
  rw [hD]
  rcases hr : retrieveAll get ow choreo2Src fs [(db ++ "/choreo2".toList, "choreo2.json".toList),
    (db ++ "/choreo2".toList, "choreo2.npz".toList)] with ⟨fs1, r⟩
  rw [hr] at hA hAo
  obtain ⟨hA1, hA2⟩ := hA
  obtain ⟨hA3, hA4⟩ := hAo
  simp only [] at hA1 hA2 hA3 hA4
  subst hA1
  simp only [andThen]
  rw [h.getFeat]
  simp only [withVal]
  have hB := retrieveAll_ok get ow choreo2Src [(feat, choreo2Feat)] fs1 (by simp) (by
      intro x hx
      obtain rfl := List.mem_singleton.1 hx
      refine ⟨by rw [hA3]; exact hfeat, ⟨c3, g3⟩, hw.imp id fun hw => ?_⟩
      rw [e3]
      have := hw.2.2
      unfold FS.exist at this ⊢
      rw [hA3, hA4 _ (by
        intro x hx
        rcases List.mem_cons.1 hx with rfl | hx
        · rw [e1]; exact n13.symm
        · obtain rfl := List.mem_singleton.1 hx
          rw [e2]; exact n23.symm)]
      exact this)
  have hBo := retrieveAll_other get ow choreo2Src [(feat, choreo2Feat)] fs1
  rcases hr2 : retrieveAll get ow choreo2Src fs1 [(feat, choreo2Feat)] with ⟨fs2, r⟩
  rw [hr2] at hB hBo
  obtain ⟨hB1, hB2⟩ := hB
  obtain ⟨hB3, hB4⟩ := hBo
  simp only [] at hB1 hB2 hB3 hB4
  subst hB1
  have k3 : fs2.file (feat ++ "/choreo2_angle_hist.npz".toList) = some c3 := by
    have := hB2 _ List.mem_cons_self c3 g3
    simp only [] at this
    rwa [e3] at this
  have hB5 : ∀ p, p ≠ feat ++ "/choreo2_angle_hist.npz".toList → fs2.file p = fs1.file p := by
    intro p hp
    refine hB4 p fun x hx => ?_
    obtain rfl := List.mem_singleton.1 hx
    rw [e3]
    exact hp
  refine ⟨fs2, rfl, hB3.trans hA3, ?_, ?_, k3, ?_, ?_, ?_⟩
  · rw [hB5 _ n13]
    have := hA2 _ List.mem_cons_self c1 g1
    simp only [] at this
    rwa [e1] at this
  · rw [hB5 _ n23]
    have := hA2 _ (List.mem_cons_of_mem _ List.mem_cons_self) c2 g2
    simp only [] at this
    rwa [e2] at this
  · intro p p1 p2 p3
    rw [hB5 p p3]
    refine hA4 p fun x hx => ?_
    rcases List.mem_cons.1 hx with rfl | hx
    · rw [e1]; exact p1
    · obtain rfl := List.mem_singleton.1 hx
      rw [e2]; exact p2
  · rintro rows rfl
    unfold choreo2Features featPath
    rw [choreo2FeatFile_eq h]
    show loadRows _ _ = _
    unfold loadRows
    rw [k3]
  · intro D loadNpz
    unfold choreo2Load
    simp only []
    rw [choreo2DbFile_eq h]
    rfl

/-- **C167**: names of the files of features. -/
theorem C167_names (y s : ℕ) (hy : y = 1 ∨ y = 2) (hs : s < 10) :
    featureFileName y s = ("acorns_HAC_Y" ++ toString y ++ "_S" ++ (if s < 9 then "0" else "") ++ toString (s + 1) ++
      "_python.mat").toList ∧ acornsFile y = ("Acorns_Y" ++ toString y ++ ".json").toList := by
  rcases hy with rfl | rfl <;> interval_cases s <;> decide +kernel

theorem names_plain (y s : ℕ) (hy : y = 1 ∨ y = 2) (hs : s < 10) :
    '/' ∉ featureFileName y s ∧ '/' ∉ acornsFile y := by
  rcases hy with rfl | rfl <;> interval_cases s <;> decide +kernel

theorem names_ne (y s y' : ℕ) : featureFileName y s ≠ acornsFile y' := by
  intro h
  have := congrArg List.head? h
  revert this
  show ¬ (some 'a' = some 'A')
  decide

/-- **C167**: with directories which exist, an answer from the server for each file and no file in the way
(or `overwrite`), `acorns.download_meta_and_features` writes the description of the year and the features of
each of its speakers, and nothing else; `acorns.load` and `acorns.load_features` read the files written. -/
theorem C167_acorns {cfg : Dict Str Str} {db feat : Str} (h : Cfg cfg db feat) (get : Str → Py (Content R B M))
    (ow : Bool) (fs : FS (Content R B M)) (y n : ℕ) (hy : y = 1 ∧ n = 4 ∨ y = 2 ∧ n = 10)
    (c : Content R B M) (cs : ℕ → Content R B M)
    (hdb : fs.isDir (db ++ "/ACORNS".toList) = true) (hfeat : fs.isDir feat = true)
    (g1 : get ("http://olivier.mangin.com/data/acorns-caregiver/".toList ++ acornsFile y) = .ok c)
    (g2 : ∀ s < n, get ("http://olivier.mangin.com/data/acorns-caregiver/".toList ++ featureFileName y s) = .ok (cs s))
    (hw : ow = true ∨ fs.exist (db ++ "/ACORNS/".toList ++ acornsFile y) = false ∧
      ∀ s < n, fs.exist (feat ++ '/' :: featureFileName y s) = false) :
    ∃ fs', acornsDownload get cfg y none none ow fs = (fs', .ok ()) ∧ fs'.isDir = fs.isDir ∧
      fs'.file (db ++ "/ACORNS/".toList ++ acornsFile y) = some c ∧
      (∀ s < n, fs'.file (feat ++ '/' :: featureFileName y s) = some (cs s)) ∧
      (∀ p, p ≠ db ++ "/ACORNS/".toList ++ acornsFile y → (∀ s < n, p ≠ feat ++ '/' :: featureFileName y s) →
        fs'.file p = fs.file p) ∧
      (∀ doc, c = .sound doc → acornsLoad cfg fs' y none false = (Sound.DB.new 0).loadFrom doc true) ∧
      ∀ (s : ℕ) rows, s < n → cs s = .features rows → acornsFeatures cfg fs' y s false = .ok rows := by
  have hy' : y = 1 ∨ y = 2 := hy.imp And.left And.left
  have hn : n ≤ 10 := by omega
  have hp : Plain (db ++ "/ACORNS".toList) := plain_append (n := "ACORNS".toList) (by decide) (by decide)
  have e1 : pathJoin (db ++ "/ACORNS".toList) (acornsFile y) = db ++ "/ACORNS/".toList ++ acornsFile y := by
    rw [pathJoin_plain hp (n := acornsFile y) (by show some 'A' ≠ some '/'; decide), List.append_assoc,
      List.append_assoc]
    rfl
  have e2 : ∀ s, pathJoin feat (featureFileName y s) = feat ++ '/' :: featureFileName y s := by
    intro s
    exact pathJoin_plain h.featPlain (n := featureFileName y s) (by show some 'a' ≠ some '/'; decide)
  have n12 : ∀ s < n, feat ++ '/' :: featureFileName y s ≠ db ++ "/ACORNS/".toList ++ acornsFile y := by
    intro s hs
    have hpl := names_plain y s hy' (by omega)
    have := join_ne_name (d := feat) (d' := db ++ "/ACORNS".toList) hpl.1 hpl.2 (names_ne y s y)
    rw [List.append_assoc] at this
    rwa [List.append_assoc]
  have hdir : acornsDir cfg = .ok (db ++ "/ACORNS".toList) := by
    unfold acornsDir
    rw [h.getDb]
    show Except.ok _ = _
    rw [pathJoin_plain h.dbPlain (n := "ACORNS".toList) (by decide)]
    rfl
  have hsp : pyGet allSpeakers ((y : ℤ) - 1) = .ok (List.range n) := by
    rcases hy with ⟨rfl, rfl⟩ | ⟨rfl, rfl⟩ <;> rfl
  have hA := retrieveAll_ok get ow acornsSrc [(db ++ "/ACORNS".toList, acornsFile y)] fs (by simp) (by
      intro x hx
      obtain rfl := List.mem_singleton.1 hx
      exact ⟨hdb, ⟨c, g1⟩, hw.imp id fun hw => by rw [e1]; exact hw.1⟩)
  have hAo := retrieveAll_other get ow acornsSrc [(db ++ "/ACORNS".toList, acornsFile y)] fs
  unfold acornsDownload
  simp only []
  rw [hdir]
  simp only [withVal]
  rcases hr : retrieveAll get ow acornsSrc fs [(db ++ "/ACORNS".toList, acornsFile y)] with ⟨fs1, r⟩
  rw [hr] at hA hAo
  obtain ⟨hA1, hA2⟩ := hA
  obtain ⟨hA3, hA4⟩ := hAo
  simp only [] at hA1 hA2 hA3 hA4
  subst hA1
  simp only [andThen]
  rw [h.getFeat]
  simp only []
  rw [hsp]
  simp only []
  have hA5 : ∀ p, p ≠ db ++ "/ACORNS/".toList ++ acornsFile y → fs1.file p = fs.file p := by
    intro p hp
    refine hA4 p fun x hx => ?_
    obtain rfl := List.mem_singleton.1 hx
    rw [e1]
    exact hp
  have hB := retrieveAll_ok get ow acornsSrc ((List.range n).map fun s => (feat, featureFileName y s)) fs1 (by
      rw [List.map_map]
      refine List.Nodup.map_on ?_ List.nodup_range
      intro a _ b _ hab
      simp only [Function.comp] at hab
      rw [e2, e2] at hab
      have := List.append_cancel_left hab
      exact (Loaders.C101_names _ _ _ _ (List.cons.inj this).2).2) (by
      intro x hx
      obtain ⟨s, hs, rfl⟩ := List.mem_map.1 hx
      rw [List.mem_range] at hs
      refine ⟨by rw [hA3]; exact hfeat, ⟨cs s, g2 s hs⟩, hw.imp id fun hw => ?_⟩
      simp only []
      rw [e2]
      have := hw.2 s hs
      unfold FS.exist at this ⊢
      rw [hA3, hA5 _ (n12 s hs)]
      exact this)
  have hBo := retrieveAll_other get ow acornsSrc ((List.range n).map fun s => (feat, featureFileName y s)) fs1
  rcases hr2 : retrieveAll get ow acornsSrc fs1 ((List.range n).map fun s => (feat, featureFileName y s)) with ⟨fs2, r⟩
  rw [hr2] at hB hBo
  obtain ⟨hB1, hB2⟩ := hB
  obtain ⟨hB3, hB4⟩ := hBo
  simp only [] at hB1 hB2 hB3 hB4
  subst hB1
  have k2 : ∀ s < n, fs2.file (feat ++ '/' :: featureFileName y s) = some (cs s) := by
    intro s hs
    have := hB2 (feat, featureFileName y s) (List.mem_map.2 ⟨s, List.mem_range.2 hs, rfl⟩) (cs s) (g2 s hs)
    simp only [] at this
    rwa [e2] at this
  have hB5 : ∀ p, (∀ s < n, p ≠ feat ++ '/' :: featureFileName y s) → fs2.file p = fs1.file p := by
    intro p hp
    refine hB4 p fun x hx => ?_
    obtain ⟨s, hs, rfl⟩ := List.mem_map.1 hx
    simp only []
    rw [e2]
    exact hp s (List.mem_range.1 hs)
  have k1 : fs2.file (db ++ "/ACORNS/".toList ++ acornsFile y) = some c := by
    rw [hB5 _ fun s hs => (n12 s hs).symm]
    have := hA2 _ List.mem_cons_self c g1
    simp only [] at this
    rwa [e1] at this
  have hcy : checkYear (y : ℤ) = .ok () := by
    rcases hy' with rfl | rfl <;> rfl
  refine ⟨fs2, rfl, hB3.trans hA3, k1, k2, ?_, ?_, ?_⟩
  · intro p p1 p2
    rw [hB5 p p2, hA5 p p1]
  · rintro doc rfl
    unfold acornsLoad acornsDbPath
    rw [hcy, hdir]
    simp only [bind, Except.bind, Except.map, Int.toNat_natCast]
    rw [e1]
    unfold loadSound
    rw [k1]
    simp only [Bool.false_eq_true, if_false]
    rcases (Sound.DB.new 0).loadFrom doc true with e | d <;> rfl
  · intro s rows hs hcs
    unfold acornsFeatures
    have hchk : checkSpeaker (y : ℤ) (s : ℤ) = .ok () := by
      unfold checkSpeaker
      rw [if_neg]
      have : nSpeakers (y : ℤ) = n := by
        rcases hy with ⟨rfl, rfl⟩ | ⟨rfl, rfl⟩ <;> rfl
      rw [this]
      omega
    rw [hcy, hchk, h.getFeat]
    simp only [bind, Except.bind, Int.toNat_natCast]
    rw [e2]
    unfold loadRows
    rw [k2 s hs, hcs]
    rfl

theorem objectsDbFile_eq {cfg : Dict Str Str} {db feat : Str} (h : Cfg cfg db feat) :
    objectsDbFile cfg true = .ok (db ++ "/objects/single_object_label.json".toList) ∧
    objectsDbFile cfg false = .ok (db ++ "/objects/single_object_label".toList) := by
  unfold objectsDbFile
  rw [h.getDb]
  constructor
  · show Except.ok _ = _
    rw [pathJoin_plain h.dbPlain (n := "objects".toList) (by decide),
      pathJoin_plain (plain_append (n := "objects".toList) (by decide) (by decide))
        (n := "single_object_label".toList ++ _) (by decide), List.append_assoc]
    rfl
  · show Except.ok _ = _
    rw [pathJoin_plain h.dbPlain (n := "objects".toList) (by decide),
      pathJoin_plain (plain_append (n := "objects".toList) (by decide) (by decide))
        (n := "single_object_label".toList ++ _) (by decide), List.append_assoc]
    rfl

theorem objects_paths (db : Str) :
    basename (db ++ "/objects/single_object_label".toList) = "single_object_label".toList ∧
    dirname (db ++ "/objects/single_object_label".toList) = db ++ "/objects".toList ∧
    pathJoin (db ++ "/objects".toList) "single_object_label.json".toList =
      db ++ "/objects/single_object_label.json".toList ∧
    pathJoin (db ++ "/objects".toList) "single_object_label.mat".toList =
      db ++ "/objects/single_object_label.mat".toList ∧
    dirname (db ++ "/objects/single_object_label.json".toList) = db ++ "/objects".toList ∧
    dirname (db ++ "/objects/single_object_label.mat".toList) = db ++ "/objects".toList := by
  have hp : Plain (db ++ "/objects".toList) := plain_append (n := "objects".toList) (by decide) (by decide)
  have e : ∀ n : Str, db ++ ("/objects/".toList ++ n) = (db ++ "/objects".toList) ++ '/' :: n := by
    intro n
    rw [List.append_assoc]
    rfl
  refine ⟨?_, ?_, ?_, ?_, ?_, ?_⟩
  · exact (congrArg basename (e "single_object_label".toList)).trans (basename_join _ (by decide))
  · exact (congrArg dirname (e "single_object_label".toList)).trans (dirname_join hp (by decide))
  · exact (pathJoin_plain hp (by decide)).trans (e "single_object_label.json".toList).symm
  · exact (pathJoin_plain hp (by decide)).trans (e "single_object_label.mat".toList).symm
  · exact (congrArg dirname (e "single_object_label.json".toList)).trans (dirname_join hp (by decide))
  · exact (congrArg dirname (e "single_object_label.mat".toList)).trans (dirname_join hp (by decide))

/-- **C167**: with the directory, an answer from the server for each file and no file in the way (or
`overwrite`), `objects.download_meta_and_features(None)` writes the description and the data of objects, and
nothing else; `objects.load` reads the description written and, if this is the name in it, the data. -/
theorem C167_objects {cfg : Dict Str Str} {db feat : Str} (h : Cfg cfg db feat) (get : Str → Py (Content R B M))
    (ow : Bool) (fs : FS (Content R B M)) (c1 c2 : Content R B M)
    (hdb : fs.isDir (db ++ "/objects".toList) = true)
    (g1 : get "http://olivier.mangin.com/data/objects/single_object_label.json".toList = .ok c1)
    (g2 : get "http://olivier.mangin.com/data/objects/single_object_label.mat".toList = .ok c2)
    (hw : ow = true ∨ fs.exist (db ++ "/objects/single_object_label.json".toList) = false ∧
      fs.exist (db ++ "/objects/single_object_label.mat".toList) = false) :
    ∃ fs', objectsDownload get cfg none ow fs = (fs', .ok ()) ∧ fs'.isDir = fs.isDir ∧
      fs'.file (db ++ "/objects/single_object_label.json".toList) = some c1 ∧
      fs'.file (db ++ "/objects/single_object_label.mat".toList) = some c2 ∧
      (∀ p, p ≠ db ++ "/objects/single_object_label.json".toList →
        p ≠ db ++ "/objects/single_object_label.mat".toList → fs'.file p = fs.file p) ∧
      ∀ (empty : M) m frames data, c1 = .objects m → m.frames = some frames →
        m.dataFile = some "single_object_label.mat".toList → c2 = .matrices data →
        (∀ k ∈ FEATURES, dictGet? data k ≠ none ∧ dictGet? data ("by_frame_".toList ++ k) ≠ none) →
        ∃ o, objectsLoad empty cfg none fs' = .ok o ∧
          o.objectNames = m.objectNames ∧ o.frames = frames.map Objects.Frame.fromDict ∧
          List.Forall₂ (fun k x => dictGet? data k = some x) FEATURES o.histos ∧
          List.Forall₂ (fun k x => x = dictGet? data ("by_frame_".toList ++ k) ∧ x ≠ none) FEATURES o.byFrame := by
  obtain ⟨p1, p2, p3, p4, p5, _⟩ := objects_paths db
  have n12 : db ++ "/objects/single_object_label.json".toList ≠ db ++ "/objects/single_object_label.mat".toList := by
    intro e
    exact absurd (List.append_cancel_left e) (by decide)
  have hD : objectsDownload get cfg none ow fs = retrieveAll get ow objectsSrc fs
      [(db ++ "/objects".toList, "single_object_label.json".toList),
       (db ++ "/objects".toList, "single_object_label.mat".toList)] := by
    unfold objectsDownload
    rw [(objectsDbFile_eq h).2]
    simp only [withVal]
    rw [p1, p2]
    rfl
  have hA := retrieveAll_ok get ow objectsSrc [(db ++ "/objects".toList, "single_object_label.json".toList),
       (db ++ "/objects".toList, "single_object_label.mat".toList)] fs
      (by simp only [List.map_cons, List.map_nil]; rw [p3, p4]; simp) (by
      intro x hx
      rcases List.mem_cons.1 hx with rfl | hx
      · exact ⟨hdb, ⟨c1, g1⟩, hw.imp id fun hw => by rw [p3]; exact hw.1⟩
      · obtain rfl := List.mem_singleton.1 hx
        exact ⟨hdb, ⟨c2, g2⟩, hw.imp id fun hw => by rw [p4]; exact hw.2⟩)
  have hAo := retrieveAll_other get ow objectsSrc [(db ++ "/objects".toList, "single_object_label.json".toList),
       (db ++ "/objects".toList, "single_object_label.mat".toList)] fs
  rw [hD]
  rcases hr : retrieveAll get ow objectsSrc fs [(db ++ "/objects".toList, "single_object_label.json".toList),
       (db ++ "/objects".toList, "single_object_label.mat".toList)] with ⟨fs1, r⟩
  rw [hr] at hA hAo
  obtain ⟨hA1, hA2⟩ := hA
  obtain ⟨hA3, hA4⟩ := hAo
  simp only [] at hA1 hA2 hA3 hA4
  subst hA1
  have k1 : fs1.file (db ++ "/objects/single_object_label.json".toList) = some c1 := by
    have := hA2 _ List.mem_cons_self c1 g1
    simp only [] at this
    rwa [p3] at this
  have k2 : fs1.file (db ++ "/objects/single_object_label.mat".toList) = some c2 := by
    have := hA2 _ (List.mem_cons_of_mem _ List.mem_cons_self) c2 g2
    simp only [] at this
    rwa [p4] at this
  refine ⟨fs1, rfl, hA3, k1, k2, ?_, ?_⟩
  · intro p q1 q2
    refine hA4 p fun x hx => ?_
    rcases List.mem_cons.1 hx with rfl | hx
    · rw [p3]; exact q1
    · obtain rfl := List.mem_singleton.1 hx
      rw [p4]; exact q2
  · rintro empty m frames data rfl hf hdf rfl hkeys
    have hk : ∀ k, dictGet? data k ≠ none → ∃ v, getKey data k = .ok v ∧ dictGet? data k = some v := by
      intro k hk
      obtain ⟨v, hv⟩ := Option.ne_none_iff_exists'.1 hk
      refine ⟨v, ?_, hv⟩
      unfold getKey
      rw [hv]
    have hk' : ∀ k v, getKey data k = .ok v → dictGet? data k = some v := by
      intro k v hv
      unfold getKey at hv
      rcases hg : dictGet? data k with _ | w
      · rw [hg] at hv; cases hv
      · rw [hg] at hv
        rw [Except.ok.inj hv]
    obtain ⟨hs, hhs⟩ := mapM_exists (getKey data) FEATURES fun k hk1 =>
      (hk k (hkeys k hk1).1).imp fun v hv => hv.1
    obtain ⟨bs, hbs⟩ := mapM_exists (fun f => getKey data ("by_frame_".toList ++ f)) FEATURES fun k hk1 =>
      (hk _ (hkeys k hk1).2).imp fun v hv => hv.1
    refine ⟨⟨frames.map Objects.Frame.fromDict, hs, bs.map some, m.objectNames⟩, ?_, rfl, rfl, ?_, ?_⟩
    · unfold objectsLoad
      simp only []
      rw [(objectsDbFile_eq h).1]
      simp only [bind, Except.bind]
      unfold loadObjects
      rw [k1]
      simp only [bind, Except.bind, hf, hdf, Corpus.metaGet]
      rw [p5, p4]
      unfold loadMatrices
      rw [k2]
      simp only []
      rw [hhs]
      simp only []
      rw [hbs]
      rfl
    · exact ((Corpus.mapM_ok_iff _ _ _).1 hhs).imp fun k v hv => hk' k v hv
    · rw [List.forall₂_map_right_iff]
      exact ((Corpus.mapM_ok_iff _ _ _).1 hbs).imp fun k v hv => ⟨(hk' _ v hv).symm, by simp⟩

theorem andThen_error (r : FS C × Py Unit) (f : FS C → FS C × Py Unit) (hf : ∀ fs, (f fs).2 ≠ .ok ()) :
    (andThen r f).2 ≠ .ok () := by
  obtain ⟨fs, e | u⟩ := r
  · simp [andThen]
  · exact hf fs

theorem andThen_other {r : FS C × Py Unit} {f : FS C → FS C × Py Unit} {fs : FS C} {p : Str}
    (h1 : r.1.file p = fs.file p) (h2 : ∀ fs', fs'.file p = fs.file p → (f fs').1.file p = fs.file p) :
    (andThen r f).1.file p = fs.file p := by
  obtain ⟨fs', e | u⟩ := r
  · exact h1
  · exact h2 fs' h1

theorem withVal_other {α : Type} {x : Py α} {f : α → FS C × Py Unit} {fs fs0 : FS C} {p : Str}
    (h0 : fs.file p = fs0.file p) (h : ∀ a, x = .ok a → (f a).1.file p = fs0.file p) :
    (withVal fs x f).1.file p = fs0.file p := by
  rcases x with e | a
  · exact h0
  · exact h a rfl

/-- **C167**: the script `download_dbs` never succeeds and never changes the files of objects.  When the
downloads of the other data sets are possible, it writes all their files and raises `TypeError`. -/
theorem C167_script {cfg : Dict Str Str} {db feat : Str} (h : Cfg cfg db feat) (get : Str → Py (Content R B M))
    (fs : FS (Content R B M)) :
    (downloadDbs get cfg fs).2 ≠ .ok () ∧
    (∀ n : Str, '/' ∉ n → "single_object_label".toList.isPrefixOf n = true →
      (downloadDbs get cfg fs).1.file (db ++ "/objects/".toList ++ n) = fs.file (db ++ "/objects/".toList ++ n)) ∧
    ∀ (c1 c2 c3 c : Content R B M) (cs : ℕ → Content R B M),
      fs.isDir (db ++ "/choreo2".toList) = true → fs.isDir (db ++ "/ACORNS".toList) = true → fs.isDir feat = true →
      get "http://olivier.mangin.com/data/choreo2/choreo2.json".toList = .ok c1 →
      get "http://olivier.mangin.com/data/choreo2/choreo2.npz".toList = .ok c2 →
      get "http://olivier.mangin.com/data/choreo2/choreo2_angle_hist.npz".toList = .ok c3 →
      get "http://olivier.mangin.com/data/acorns-caregiver/Acorns_Y1.json".toList = .ok c →
      (∀ s < 4, get ("http://olivier.mangin.com/data/acorns-caregiver/".toList ++ featureFileName 1 s) = .ok (cs s)) →
      ∃ fs', downloadDbs get cfg fs = (fs', .error .typeError) ∧
        fs'.file (db ++ "/choreo2/choreo2.json".toList) = some c1 ∧
        fs'.file (db ++ "/choreo2/choreo2.npz".toList) = some c2 ∧
        fs'.file (feat ++ "/choreo2_angle_hist.npz".toList) = some c3 ∧
        fs'.file (db ++ "/ACORNS/Acorns_Y1.json".toList) = some c ∧
        ∀ s < 4, fs'.file (feat ++ '/' :: featureFileName 1 s) = some (cs s) := by
  refine ⟨?_, ?_, ?_⟩
  · unfold downloadDbs
    refine andThen_error _ _ fun fs => andThen_error _ _ fun fs => ?_
    simp
  · intro n hn hpre
    have hhead : n.head? = some 's' := by
      rcases n with _ | ⟨a, n⟩
      · cases hpre
      · have : ('s' == a) = true := (Bool.and_eq_true_iff.1 hpre).1
        rw [← beq_iff_eq.1 this]
        rfl
    have hobj : db ++ "/objects/".toList ++ n = (db ++ "/objects".toList) ++ '/' :: n := by
      rw [List.append_assoc, List.append_assoc]
      rfl
    have hne : ∀ (d m : Str), '/' ∉ m → m.head? ≠ some 's' → Plain d →
        db ++ "/objects/".toList ++ n ≠ pathJoin d m := by
      intro d m hm hm' hd e
      rw [pathJoin_plain hd (by
        rcases m with _ | ⟨a, m⟩
        · simp
        · intro e
          have : a = '/' := Option.some.inj e
          exact hm (this ▸ List.mem_cons_self)), hobj] at e
      refine join_ne_name hn hm ?_ e
      rintro rfl
      exact hm' hhead
    have p1 : Plain (db ++ "/choreo2".toList) := plain_append (n := "choreo2".toList) (by decide) (by decide)
    have p2 : Plain (db ++ "/ACORNS".toList) := plain_append (n := "ACORNS".toList) (by decide) (by decide)
    unfold downloadDbs
    refine andThen_other ?_ fun fs1 h1 => andThen_other ?_ fun fs2 h2 => h2
    · unfold choreo2DownloadAll
      refine andThen_other ?_ fun fs1 h1 => ?_
      · unfold choreo2Download
        refine withVal_other rfl fun a ha => ?_
        rw [(getDest_eq h).2] at ha
        obtain rfl := Except.ok.inj ha
        refine (retrieveAll_other get true choreo2Src _ fs).2 _ fun x hx => ?_
        rcases List.mem_cons.1 hx with rfl | hx
        · exact hne _ "choreo2.json".toList (by decide) (by decide) p1
        · obtain rfl := List.mem_singleton.1 hx
          exact hne _ "choreo2.npz".toList (by decide) (by decide) p1
      · refine withVal_other h1 fun a ha => ?_
        simp only [] at ha
        rw [h.getFeat] at ha
        obtain rfl := Except.ok.inj ha
        rw [← h1]
        refine (retrieveAll_other get true choreo2Src _ fs1).2 _ fun x hx => ?_
        obtain rfl := List.mem_singleton.1 hx
        exact hne _ choreo2Feat (by decide) (by decide) h.featPlain
    · unfold acornsDownload
      refine withVal_other h1 fun a ha => ?_
      have hdir : acornsDir cfg = .ok (db ++ "/ACORNS".toList) := by
        unfold acornsDir
        rw [h.getDb]
        show Except.ok _ = _
        rw [pathJoin_plain h.dbPlain (n := "ACORNS".toList) (by decide)]
        rfl
      simp only [] at ha
      rw [hdir] at ha
      obtain rfl := Except.ok.inj ha
      refine andThen_other ?_ fun fs2 h2 => ?_
      · rw [← h1]
        refine (retrieveAll_other get true acornsSrc _ fs1).2 _ fun x hx => ?_
        obtain rfl := List.mem_singleton.1 hx
        exact hne _ (acornsFile 1) (names_plain 1 0 (.inl rfl) (by decide)).2 (by decide) p2
      · refine withVal_other h2 fun a ha => withVal_other h2 fun sp hsp => ?_
        simp only [] at ha
        rw [h.getFeat] at ha
        obtain rfl := Except.ok.inj ha
        have : sp = List.range 4 := (Except.ok.inj hsp).symm
        subst this
        rw [← h2]
        refine (retrieveAll_other get true acornsSrc _ fs2).2 _ fun x hx => ?_
        obtain ⟨s, hs, rfl⟩ := List.mem_map.1 hx
        rw [List.mem_range] at hs
        exact hne _ _ (names_plain 1 s (.inl rfl) (by omega)).1 (by show some 'a' ≠ some 's'; decide) h.featPlain
  · intro c1 c2 c3 c cs d1 d2 d3 g1 g2 g3 g4 g5
    obtain ⟨fs1, k1, k2, k3, k4, k5, k6, _, _⟩ := C167_choreo2 h get true fs c1 c2 c3 d1 d3 g1 g2 g3 (.inl rfl)
    obtain ⟨fs2, l1, l2, l3, l4, l5, _, _⟩ := C167_acorns h get true fs1 1 4 (.inl ⟨rfl, rfl⟩) c cs
      (by rw [k2]; exact d2) (by rw [k2]; exact d3) g4 g5 (.inl rfl)
    have hA : db ++ "/ACORNS/".toList ++ acornsFile 1 = db ++ "/ACORNS/Acorns_Y1.json".toList := by
      rw [List.append_assoc]
      rfl
    have q : ∀ n : Str, '/' ∉ n → n.head? = some 'c' →
        ∀ d : Str, fs2.file (d ++ '/' :: n) = fs1.file (d ++ '/' :: n) := by
      intro n hn hh d
      refine l5 _ ?_ ?_
      · have : db ++ "/ACORNS/".toList ++ acornsFile 1 = (db ++ "/ACORNS".toList) ++ '/' :: acornsFile 1 := by
          rw [List.append_assoc, List.append_assoc]
          rfl
        rw [this]
        refine join_ne_name hn (names_plain 1 0 (.inl rfl) (by decide)).2 ?_
        rintro rfl
        revert hh
        decide
      · intro s hs
        refine join_ne_name hn (names_plain 1 s (.inl rfl) (by omega)).1 ?_
        rintro rfl
        revert hh
        show ¬ (some 'a' = some 'c')
        decide
    refine ⟨fs2, ?_, ?_, ?_, ?_, ?_, l4⟩
    · unfold downloadDbs
      rw [k1]
      simp only [andThen]
      rw [l1]
    · have := q "choreo2.json".toList (by decide) (by decide) (db ++ "/choreo2".toList)
      rw [List.append_assoc] at this
      exact this.trans k3
    · have := q "choreo2.npz".toList (by decide) (by decide) (db ++ "/choreo2".toList)
      rw [List.append_assoc] at this
      exact this.trans k4
    · exact (q "choreo2_angle_hist.npz".toList (by decide) (by decide) feat).trans k5
    · rw [← hA]
      exact l3

/-! ### Examples -/

/-- Directories of an example, without files. -/
def exFS : FS (Content ℕ ℕ ℕ) :=
  ⟨fun p => p ∈ ["/home/me/work/data/db/choreo2".toList, "/home/me/work/data/db/ACORNS".toList,
    "/home/me/work/data/db/objects".toList, "/home/me/work/data/features".toList], fun _ => none⟩

example : Cfg (localConfig "/home/me".toList) "/home/me/work/data/db".toList "/home/me/work/data/features".toList :=
  cfg_local _

example : (downloadDbs (fun _ => .ok (.codebooks 1)) (localConfig "/home/me".toList) exFS).2 = .error .typeError ∧
    (objectsDownload (fun _ => .ok (.codebooks 1)) (localConfig "/home/me".toList) none false exFS).2 = .ok () ∧
    (acornsDownload (fun _ => .ok (.codebooks 1)) (localConfig "/home/me".toList) 2 none none false exFS).2 = .ok () := by
  decide +kernel

end Verif.Datasets
