import Verif.Datasets.PropsCodebooks

/-!
# Property C204: downloads in chosen directories, and downloads which fail
-/

namespace Verif.Datasets

open Verif.Corpus (Str Info Files Node pathJoin dirname configGet checkYear fromDbRoot fromAcornsRoot)
open Verif.Loaders Verif.Logger

variable {C R B M : Type}

/-! ### Specification -/

/-- The path of a file of a directory. -/
def pathOf (x : Str × Str) : Str := pathJoin x.1 x.2

/-- The file `x` (directory and name) can be downloaded, and the server sends `c`. -/
structure CanGet (get : Str → Py C) (ow : Bool) (src : Str) (fs : FS C) (x : Str × Str) (c : C) : Prop where
  dir : fs.isDir x.1 = true
  free : ow = true ∨ fs.exist (pathOf x) = false
  sent : get (src ++ x.2) = .ok c

/-- Why it cannot, and the error raised. -/
inductive Fails (get : Str → Py C) (ow : Bool) (src : Str) (fs : FS C) (x : Str × Str) : PyErr → Prop
  | dir : fs.isDir x.1 = false → Fails get ow src fs x .ioError
  | exist : fs.isDir x.1 = true → ow = false → fs.exist (pathOf x) = true → Fails get ow src fs x .ioError
  | server (e : PyErr) : fs.isDir x.1 = true → (ow = true ∨ fs.exist (pathOf x) = false) →
      get (src ++ x.2) = .error e → Fails get ow src fs x e

/-- The files of `l` have been downloaded in order up to the first one which fails. -/
structure Downloaded (get : Str → Py C) (ow : Bool) (src : Str) (fs : FS C) (l : List (Str × Str)) (fs' : FS C)
    (r : Py Unit) : Prop where
  dirs : fs'.isDir = fs.isDir
  files : ∃ k ≤ l.length, (∀ x ∈ l.take k, ∃ c, CanGet get ow src fs x c ∧ fs'.file (pathOf x) = some c) ∧
    (∀ p, p ∉ (l.take k).map pathOf → fs'.file p = fs.file p) ∧
    (∀ x, l[k]? = some x → ∃ e, Fails get ow src fs x e ∧ r = .error e) ∧ (k = l.length → r = .ok ())

/-! ### Lemmas -/

theorem exist_write_ne (fs : FS C) (p q : Str) (c : C) (h : q ≠ p) : (fs.write p c).exist q = fs.exist q := by
  unfold FS.exist
  rw [write_other fs p q c h]
  rfl

/-- A file which is not the one written can be downloaded, or not, as before. -/
theorem canGet_write {get : Str → Py C} {ow : Bool} {src : Str} {fs : FS C} {p : Str} {c : C} {x : Str × Str}
    (h : pathOf x ≠ p) (d : C) : CanGet get ow src (fs.write p c) x d ↔ CanGet get ow src fs x d := by
  constructor
  · rintro ⟨h1, h2, h3⟩
    exact ⟨h1, by rwa [exist_write_ne fs p _ c h] at h2, h3⟩
  · rintro ⟨h1, h2, h3⟩
    exact ⟨h1, by rwa [exist_write_ne fs p _ c h], h3⟩

theorem fails_write {get : Str → Py C} {ow : Bool} {src : Str} {fs : FS C} {p : Str} {c : C} {x : Str × Str}
    (h : pathOf x ≠ p) {e : PyErr} (hf : Fails get ow src (fs.write p c) x e) : Fails get ow src fs x e := by
  cases hf with
  | dir h1 => exact .dir h1
  | exist h1 h2 h3 => exact .exist h1 h2 (by rwa [exist_write_ne fs p _ c h] at h3)
  | server _ h1 h2 h3 => exact .server _ h1 (by rwa [exist_write_ne fs p _ c h] at h2) h3

/-- One download: it is done or fails. -/
theorem retrieve_cases (get : Str → Py C) (ow : Bool) (src : Str) (fs : FS C) (d n : Str) :
    (∃ c, CanGet get ow src fs (d, n) c ∧ retrieve get ow fs (src ++ n) d n = (fs.write (pathJoin d n) c, .ok ())) ∨
    ∃ e, Fails get ow src fs (d, n) e ∧ retrieve get ow fs (src ++ n) d n = (fs, .error e) := by
  unfold retrieve checkPath
  simp only []
  cases hd : fs.isDir d with
  | false => exact .inr ⟨_, .dir hd, by simp⟩
  | true =>
    by_cases hf : ow = true ∨ fs.exist (pathJoin d n) = false
    · have : (fs.exist (pathJoin d n) && !ow) = false := by
        rcases hf with h | h <;> simp [h]
      cases hg : get (src ++ n) with
      | error e => exact .inr ⟨e, .server e hd hf hg, by simp [this]⟩
      | ok c => exact .inl ⟨c, ⟨hd, hf, hg⟩, by simp [this]⟩
    · rw [not_or] at hf
      have h1 : ow = false := by simpa using hf.1
      have h2 : fs.exist (pathJoin d n) = true := by simpa using hf.2
      exact .inr ⟨_, .exist hd h1 h2, by simp [h1, h2]⟩

/-- Downloads of files with different paths. -/
theorem retrieveAll_downloaded (get : Str → Py C) (ow : Bool) (src : Str) (l : List (Str × Str)) : ∀ fs : FS C,
    (l.map pathOf).Nodup → Downloaded get ow src fs l (retrieveAll get ow src fs l).1 (retrieveAll get ow src fs l).2 := by
  induction l with
  | nil => exact fun fs _ => ⟨rfl, 0, le_refl _, by simp, fun _ _ => rfl, by simp, fun _ => rfl⟩
  | cons x l ih =>
    intro fs hnd
    obtain ⟨d, n⟩ := x
    rw [List.map_cons, List.nodup_cons] at hnd
    rw [retrieveAll]
    rcases retrieve_cases get ow src fs d n with ⟨c, hc, e⟩ | ⟨err, hf, e⟩
    · rw [e]
      simp only [andThen]
      have hne : ∀ x ∈ l, pathOf x ≠ pathJoin d n := fun x hx h => hnd.1 (List.mem_map.2 ⟨x, hx, h⟩)
      obtain ⟨h1, k, hk, h2, h3, h4, h5⟩ := ih (fs.write (pathJoin d n) c) hnd.2
      refine ⟨h1, k + 1, by simpa using hk, ?_, ?_, ?_, ?_⟩
      · intro x hx
        rw [List.take_succ_cons] at hx
        rcases List.mem_cons.1 hx with rfl | hx
        · refine ⟨c, hc, ?_⟩
          rw [h3 _ fun hm => ?_]
          · exact write_same fs _ c
          · obtain ⟨y, hy, ey⟩ := List.mem_map.1 hm
            exact hne y (List.mem_of_mem_take hy) ey
        · obtain ⟨c', g1, g2⟩ := h2 x hx
          exact ⟨c', (canGet_write (hne x (List.mem_of_mem_take hx)) c').1 g1, g2⟩
      · intro p hp
        rw [List.take_succ_cons, List.map_cons, List.mem_cons, not_or] at hp
        rw [h3 p hp.2]
        exact write_other fs _ _ c hp.1
      · intro x hx
        rw [List.getElem?_cons_succ] at hx
        obtain ⟨err, g1, g2⟩ := h4 x hx
        exact ⟨err, fails_write (hne x (List.mem_of_getElem? hx)) g1, g2⟩
      · intro hk'
        exact h5 (by simpa using hk')
    · rw [e]
      simp only [andThen]
      refine ⟨rfl, 0, Nat.zero_le _, by simp, fun _ _ => rfl, ?_, by simp⟩
      intro x hx
      rw [List.getElem?_cons_zero] at hx
      obtain rfl := Option.some.inj hx
      exact ⟨err, hf, rfl⟩

theorem retrieveAll_append (get : Str → Py C) (ow : Bool) (src : Str) (l l' : List (Str × Str)) : ∀ fs : FS C,
    retrieveAll get ow src fs (l ++ l') = andThen (retrieveAll get ow src fs l) fun fs => retrieveAll get ow src fs l' := by
  induction l with
  | nil => exact fun fs => rfl
  | cons x l ih =>
    intro fs
    obtain ⟨d, n⟩ := x
    rw [List.cons_append, retrieveAll, retrieveAll]
    rcases retrieve get ow fs (src ++ n) d n with ⟨fs', e | u⟩
    · rfl
    · simp only [andThen]
      exact ih fs'

/-- The name of a file from its path. -/
theorem basename_pathJoin (d : Str) {n : Str} (hn : '/' ∉ n) : basename (pathJoin d n) = n := by
  have h0 : n.head? ≠ some '/' := by
    intro h
    exact hn (List.mem_of_mem_head? h)
  unfold pathJoin
  rw [if_neg h0]
  split_ifs with h
  · rcases h with rfl | h
    · unfold basename
      have := List.takeWhile_append_of_pos (p := fun c => decide (c ≠ '/')) (l₁ := n.reverse) (l₂ := []) fun c hc => by
        simp only [decide_eq_true_eq]
        rintro rfl
        exact hn (List.mem_reverse.1 hc)
      rw [List.append_nil, List.takeWhile_nil, List.append_nil] at this
      rw [List.nil_append, this, List.reverse_reverse]
    · obtain ⟨d', rfl⟩ : ∃ d', d = d' ++ ['/'] := by
        obtain ⟨hne, e⟩ := List.getLast?_eq_some_iff.1 h |>.imp fun _ h => h
        exact ⟨_, e⟩
      rw [List.append_assoc]
      exact basename_join d' hn
  · exact basename_join d hn

theorem pathOf_ne {d d' n n' : Str} (hn : '/' ∉ n) (hn' : '/' ∉ n') (h : n ≠ n') : pathJoin d n ≠ pathJoin d' n' := by
  intro e
  have := congrArg basename e
  rw [basename_pathJoin d hn, basename_pathJoin d' hn'] at this
  exact h this

/-! ### Theorems -/

/-- The directory of a data set: an argument, or the directory `sub` of `db-dir`. -/
def Chosen (cfg : Dict Str Str) (sub : Str) (dest : Option Str) (d : Str) : Prop :=
  dest = some d ∨ dest = none ∧ ∃ db, configGet cfg "db-dir".toList = .ok db ∧ Plain db ∧ d = db ++ '/' :: sub

/-- The directory of features: an argument, or `feat-dir`. -/
def FeatDir (cfg : Dict Str Str) (dest : Option Str) (d : Str) : Prop :=
  dest = some d ∨ dest = none ∧ configGet cfg "feat-dir".toList = .ok d

theorem getDest_chosen {cfg : Dict Str Str} {dest : Option Str} {d : Str} (h : Chosen cfg "choreo2".toList dest d) :
    getDest cfg dest true = .ok (d, "choreo2.json".toList) ∧ getDest cfg dest false = .ok (d, "choreo2".toList) := by
  rcases h with rfl | ⟨rfl, db, hdb, hp, rfl⟩
  · exact ⟨rfl, rfl⟩
  · have e : pathJoin (pathJoin db "choreo2".toList) choreo2Meta = (db ++ '/' :: "choreo2".toList) ++ '/' :: choreo2Meta := by
      rw [pathJoin_plain hp (n := "choreo2".toList) (by decide),
        pathJoin_plain (plain_append (n := "choreo2".toList) (by decide) (by decide)) (n := choreo2Meta) (by decide)]
    have hf : choreo2DbFile cfg = .ok ((db ++ '/' :: "choreo2".toList) ++ '/' :: choreo2Meta) := by
      unfold choreo2DbFile
      rw [hdb, ← e]
      rfl
    have hb : basename ((db ++ '/' :: "choreo2".toList) ++ '/' :: choreo2Meta) = choreo2Meta := basename_join _ (by decide)
    have hd : dirname ((db ++ '/' :: "choreo2".toList) ++ '/' :: choreo2Meta) = db ++ '/' :: "choreo2".toList :=
      dirname_join (plain_append (n := "choreo2".toList) (by decide) (by decide)) (by decide)
    unfold getDest
    simp only []
    rw [hf]
    constructor
    · show Except.ok (dirname _, basename _) = _
      rw [hb, hd]
      rfl
    · show Except.ok (dirname _, stem (basename _)) = _
      rw [hb, hd]
      rfl

/-- **C204.** `choreo2.download_meta`. -/
theorem C204_meta (get : Str → Py C) {cfg : Dict Str Str} {dest : Option Str} {d : Str}
    (h : Chosen cfg "choreo2".toList dest d) (ow : Bool) (fs : FS C) :
    Downloaded get ow "http://olivier.mangin.com/data/choreo2/".toList fs [(d, "choreo2.json".toList)]
      (choreo2DownloadMeta get cfg dest ow fs).1 (choreo2DownloadMeta get cfg dest ow fs).2 := by
  have e : choreo2DownloadMeta get cfg dest ow fs =
      retrieveAll get ow choreo2Src fs [(d, "choreo2.json".toList)] := by
    unfold choreo2DownloadMeta
    rw [(getDest_chosen h).1]
    simp only [withVal, retrieveAll]
    rcases retrieve get ow fs (choreo2Src ++ "choreo2.json".toList) d "choreo2.json".toList with ⟨fs', e | u⟩ <;> rfl
  rw [e]
  exact retrieveAll_downloaded get ow choreo2Src _ fs (by simp)

theorem choreo2_nodup (d f : Str) : (([(d, "choreo2.json".toList), (d, "choreo2.npz".toList),
    (f, "choreo2_angle_hist.npz".toList)] : List (Str × Str)).map pathOf).Nodup := by
  have h12 := pathOf_ne (d := d) (d' := d) (n := "choreo2.json".toList) (n' := "choreo2.npz".toList) (by decide) (by decide)
    (by decide)
  have h13 := pathOf_ne (d := d) (d' := f) (n := "choreo2.json".toList) (n' := "choreo2_angle_hist.npz".toList) (by decide)
    (by decide) (by decide)
  have h23 := pathOf_ne (d := d) (d' := f) (n := "choreo2.npz".toList) (n' := "choreo2_angle_hist.npz".toList) (by decide)
    (by decide) (by decide)
  simp only [List.map_cons, List.map_nil, pathOf, List.nodup_cons, List.mem_cons, List.not_mem_nil, or_false, not_or,
    not_false_eq_true, List.nodup_nil, and_true]
  exact ⟨⟨h12, h13⟩, h23⟩

theorem choreo2Download_eq (get : Str → Py C) {cfg : Dict Str Str} {dest : Option Str} {d : Str}
    (h : Chosen cfg "choreo2".toList dest d) (ow : Bool) (fs : FS C) : choreo2Download get cfg dest ow fs =
      retrieveAll get ow choreo2Src fs [(d, "choreo2.json".toList), (d, "choreo2.npz".toList)] := by
  unfold choreo2Download
  rw [(getDest_chosen h).2]
  rfl

/-- **C204.** `choreo2.download_with_features`: description, data, then features; the features can then be loaded. -/
theorem C204_choreo2 (get : Str → Py (Content R B M)) {cfg : Dict Str Str} {dest fdest : Option Str} {d f : Str}
    (h : Chosen cfg "choreo2".toList dest d) (hf : FeatDir cfg fdest f) (ow : Bool) (fs : FS (Content R B M)) :
    Downloaded get ow "http://olivier.mangin.com/data/choreo2/".toList fs
      [(d, "choreo2.json".toList), (d, "choreo2.npz".toList), (f, "choreo2_angle_hist.npz".toList)]
      (choreo2DownloadAll get cfg dest fdest ow fs).1 (choreo2DownloadAll get cfg dest fdest ow fs).2 ∧
    ∀ cfg' rows, (choreo2DownloadAll get cfg dest fdest ow fs).2 = .ok () →
      get "http://olivier.mangin.com/data/choreo2/choreo2_angle_hist.npz".toList = .ok (.features rows) →
      choreo2Features cfg' (choreo2DownloadAll get cfg dest fdest ow fs).1
        (some (pathJoin f "choreo2_angle_hist.npz".toList)) = .ok rows := by
  have e : choreo2DownloadAll get cfg dest fdest ow fs = retrieveAll get ow choreo2Src fs
      [(d, "choreo2.json".toList), (d, "choreo2.npz".toList), (f, "choreo2_angle_hist.npz".toList)] := by
    unfold choreo2DownloadAll
    rw [choreo2Download_eq get h]
    rw [show [(d, "choreo2.json".toList), (d, "choreo2.npz".toList), (f, "choreo2_angle_hist.npz".toList)] =
      [(d, "choreo2.json".toList), (d, "choreo2.npz".toList)] ++ [(f, choreo2Feat)] from rfl, retrieveAll_append]
    congr 1
    funext fs'
    rcases hf with rfl | ⟨rfl, hf⟩
    · rfl
    · simp only [hf]
      rfl
  have hD := retrieveAll_downloaded get ow choreo2Src _ fs (choreo2_nodup d f)
  rw [← e] at hD
  refine ⟨hD, fun cfg' rows hr hs => ?_⟩
  obtain ⟨-, k, hk, h2, -, h4, -⟩ := hD
  have hk3 : k = 3 := by
    by_contra hne
    have : k < 3 := lt_of_le_of_ne hk hne
    obtain ⟨err, _, h⟩ := h4 _ (List.getElem?_eq_getElem this)
    rw [hr] at h
    cases h
  subst hk3
  obtain ⟨c, g1, g2⟩ := h2 (f, "choreo2_angle_hist.npz".toList) (by simp)
  have : c = .features rows := Except.ok.inj (g1.sent.symm.trans hs)
  subst this
  unfold choreo2Features featPath loadRows
  simp only [bind, Except.bind]
  rw [show pathJoin f "choreo2_angle_hist.npz".toList = pathOf (f, "choreo2_angle_hist.npz".toList) from rfl, g2]

/-- **C204.** Without `feat-dir` and directory for features, the description and the data are downloaded, then an error
tells that there is no such value. -/
theorem C204_choreo2_config (get : Str → Py C) {cfg : Dict Str Str} {dest : Option Str} {d : Str}
    (h : Chosen cfg "choreo2".toList dest d) (hf : dictGet? cfg "feat-dir".toList = none) (ow : Bool) (fs : FS C) :
    ∃ r, Downloaded get ow "http://olivier.mangin.com/data/choreo2/".toList fs
        [(d, "choreo2.json".toList), (d, "choreo2.npz".toList)] (choreo2DownloadAll get cfg dest none ow fs).1 r ∧
      (choreo2DownloadAll get cfg dest none ow fs).2 = r.bind fun _ => .error .lookupError := by
  have hD := retrieveAll_downloaded get ow choreo2Src [(d, "choreo2.json".toList), (d, "choreo2.npz".toList)] fs
    ((choreo2_nodup d d).sublist (by simp))
  have hc : configGet cfg "feat-dir".toList = .error .lookupError := by
    unfold configGet
    rw [hf]
  have e : choreo2DownloadAll get cfg dest none ow fs =
      andThen (retrieveAll get ow choreo2Src fs [(d, "choreo2.json".toList), (d, "choreo2.npz".toList)])
        fun fs => (fs, .error .lookupError) := by
    unfold choreo2DownloadAll
    rw [choreo2Download_eq get h]
    simp only [hc]
    rfl
  rw [e]
  revert hD
  rcases retrieveAll get ow choreo2Src fs [(d, "choreo2.json".toList), (d, "choreo2.npz".toList)] with ⟨fs', err | u⟩
  · exact fun hD => ⟨.error err, hD, rfl⟩
  · exact fun hD => ⟨.ok u, hD, rfl⟩

/-- The files of a year of ACORNS. -/
def acornsFiles (d f : Str) (y n : ℕ) : List (Str × Str) :=
  (d, acornsFile y) :: (List.range n).map fun s => (f, featureFileName y s)

theorem acorns_nodup (d f : Str) (y n : ℕ) : ((acornsFiles d f y n).map pathOf).Nodup := by
  unfold acornsFiles
  rw [List.map_cons, List.map_map, List.nodup_cons]
  constructor
  · intro h
    obtain ⟨s, _, e⟩ := List.mem_map.1 h
    exact pathOf_ne (feature_name_plain y s) (acorns_name_plain y) (names_ne y s y) e
  · refine List.Nodup.map ?_ List.nodup_range
    intro s s' e
    by_contra hne
    exact pathOf_ne (feature_name_plain y s) (feature_name_plain y s') (fun e => hne (C101_names _ _ _ _ e).2) e

theorem acornsDownload_some (get : Str → Py C) {cfg : Dict Str Str} {dest : Option Str} {d : Str}
    (h : Chosen cfg "ACORNS".toList dest d) {fdest : Option Str} {ow : Bool} {fs : FS C} {y : ℕ} :
    acornsDownload get cfg y dest fdest ow fs = acornsDownload get cfg y (some d) fdest ow fs := by
  rcases h with rfl | ⟨rfl, db, hdb, hp, rfl⟩
  · rfl
  · have : acornsDir cfg = .ok (db ++ '/' :: "ACORNS".toList) := by
      unfold acornsDir
      rw [hdb]
      show Except.ok (pathJoin _ _) = _
      rw [pathJoin_plain hp (n := "ACORNS".toList) (by decide)]
    unfold acornsDownload
    simp only [this]

/-- **C204.** `acorns.download_meta_and_features`: the description of the year, then the features of its speakers; year
0 is not refused, and has the speakers of year 2. -/
theorem C204_acorns (get : Str → Py C) {cfg : Dict Str Str} {dest fdest : Option Str} {d f : Str}
    (h : Chosen cfg "ACORNS".toList dest d) (hf : FeatDir cfg fdest f) (ow : Bool) (fs : FS C) (y n : ℕ)
    (hy : y = 1 ∧ n = 4 ∨ (y = 2 ∨ y = 0) ∧ n = 10) :
    Downloaded get ow "http://olivier.mangin.com/data/acorns-caregiver/".toList fs
      ((d, acornsFile y) :: (List.range n).map fun s => (f, featureFileName y s))
      (acornsDownload get cfg y dest fdest ow fs).1 (acornsDownload get cfg y dest fdest ow fs).2 := by
  have hsp : pyGet allSpeakers ((y : ℤ) - 1) = .ok (List.range n) := by
    rcases hy with ⟨rfl, rfl⟩ | ⟨rfl | rfl, rfl⟩ <;> rfl
  have e : acornsDownload get cfg y dest fdest ow fs = retrieveAll get ow acornsSrc fs (acornsFiles d f y n) := by
    unfold acornsFiles
    rw [show ((d, acornsFile y) :: (List.range n).map fun s => (f, featureFileName y s)) =
      [(d, acornsFile y)] ++ (List.range n).map fun s => (f, featureFileName y s) from rfl, retrieveAll_append]
    rw [acornsDownload_some get h]
    unfold acornsDownload
    simp only [withVal]
    congr 1
    funext fs'
    rcases hf with rfl | ⟨rfl, hf⟩
    · simp only [hsp]
    · simp only [hf, hsp]
  rw [e]
  exact retrieveAll_downloaded get ow acornsSrc _ fs (acorns_nodup d f y n)

/-- **C204.** For another year the description is downloaded, then `IndexError` is raised. -/
theorem C204_year (get : Str → Py C) {cfg : Dict Str Str} {dest fdest : Option Str} {d f : Str}
    (h : Chosen cfg "ACORNS".toList dest d) (hf : FeatDir cfg fdest f) (ow : Bool) (fs : FS C) (y : ℕ) (hy : 3 ≤ y) :
    ∃ r, Downloaded get ow "http://olivier.mangin.com/data/acorns-caregiver/".toList fs [(d, acornsFile y)]
        (acornsDownload get cfg y dest fdest ow fs).1 r ∧
      (acornsDownload get cfg y dest fdest ow fs).2 = r.bind fun _ => .error .indexError := by
  have hsp : pyGet allSpeakers ((y : ℤ) - 1) = .error .indexError := by
    unfold pyGet
    have hl : allSpeakers.length = 2 := rfl
    simp only [hl]
    rw [if_neg (by omega), List.getElem?_eq_none (by rw [hl]; omega)]
  have hD := retrieveAll_downloaded get ow acornsSrc [(d, acornsFile y)] fs (by simp)
  have e : acornsDownload get cfg y dest fdest ow fs =
      andThen (retrieveAll get ow acornsSrc fs [(d, acornsFile y)]) fun fs => (fs, .error .indexError) := by
    rw [acornsDownload_some get h]
    unfold acornsDownload
    simp only [withVal]
    congr 1
    funext fs'
    rcases hf with rfl | ⟨rfl, hf⟩
    · simp only [hsp]
    · simp only [hf, hsp]
  rw [e]
  revert hD
  rcases retrieveAll get ow acornsSrc fs [(d, acornsFile y)] with ⟨fs', err | u⟩
  · exact fun hD => ⟨.error err, hD, rfl⟩
  · exact fun hD => ⟨.ok u, hD, rfl⟩

/-- **C204.** `objects.download_meta_and_features`: description, then data; `objects.load` reads them from the chosen
directory. -/
theorem C204_objects (get : Str → Py (Content R B M)) {cfg : Dict Str Str} {dest : Option Str} {d db : Str}
    (hdb : configGet cfg "db-dir".toList = .ok db)
    (h : dest = some d ∨ dest = none ∧ Plain db ∧ d = db ++ "/objects".toList) (ow : Bool) (fs : FS (Content R B M)) :
    Downloaded get ow "http://olivier.mangin.com/data/objects/".toList fs
      [(d, "single_object_label.json".toList), (d, "single_object_label.mat".toList)]
      (objectsDownload get cfg dest ow fs).1 (objectsDownload get cfg dest ow fs).2 ∧
    ∀ empty cfg' m data, (objectsDownload get cfg dest ow fs).2 = .ok () → Plain d →
      get "http://olivier.mangin.com/data/objects/single_object_label.json".toList = .ok (.objects m) →
      get "http://olivier.mangin.com/data/objects/single_object_label.mat".toList = .ok (.matrices data) →
      m.dataFile = some "single_object_label.mat".toList → m.frames ≠ none →
      (∀ k ∈ FEATURES, dictGet? data k ≠ none ∧ dictGet? data ("by_frame_".toList ++ k) ≠ none) →
      ∃ o, objectsLoad empty cfg' (some (d ++ "/single_object_label.json".toList)) (objectsDownload get cfg dest ow fs).1 =
          .ok o ∧ o.objectNames = m.objectNames ∧ some o.frames = m.frames.map (List.map Objects.Frame.fromDict) ∧
        List.Forall₂ (fun k x => dictGet? data k = some x) FEATURES o.histos ∧
        List.Forall₂ (fun k x => x = dictGet? data ("by_frame_".toList ++ k) ∧ x ≠ none) FEATURES o.byFrame := by
  have hb : ∀ db, basename (pathJoin (pathJoin db "objects".toList) "single_object_label".toList) =
      "single_object_label".toList := fun db => basename_pathJoin _ (by decide)
  have hnd : (([(d, "single_object_label.json".toList), (d, "single_object_label.mat".toList)] :
      List (Str × Str)).map pathOf).Nodup := by
    have := pathOf_ne (d := d) (d' := d) (n := "single_object_label.json".toList) (n' := "single_object_label.mat".toList)
      (by decide) (by decide) (by decide)
    simpa [pathOf] using this
  have e : objectsDownload get cfg dest ow fs = retrieveAll get ow objectsSrc fs
      [(d, "single_object_label.json".toList), (d, "single_object_label.mat".toList)] := by
    have hf : objectsDbFile cfg false = .ok (pathJoin (pathJoin db "objects".toList) "single_object_label".toList) := by
      unfold objectsDbFile
      rw [hdb]
      rfl
    unfold objectsDownload
    rw [hf]
    simp only [withVal]
    rw [hb]
    have : dest.getD (dirname (pathJoin (pathJoin db "objects".toList) "single_object_label".toList)) = d := by
      rcases h with rfl | ⟨rfl, hp, rfl⟩
      · rfl
      · rw [pathJoin_plain hp (n := "objects".toList) (by decide),
          pathJoin_plain (plain_append (n := "objects".toList) (by decide) (by decide)) (n := "single_object_label".toList)
            (by decide)]
        exact dirname_join (plain_append (n := "objects".toList) (by decide) (by decide)) (by decide)
    rw [this]
    rfl
  have hD := retrieveAll_downloaded get ow objectsSrc _ fs hnd
  rw [← e] at hD
  refine ⟨hD, fun empty cfg' m data hr hp hm hdata hfile hframes hkeys => ?_⟩
  obtain ⟨-, k, hk, h2, -, h4, -⟩ := hD
  have hk2 : k = 2 := by
    by_contra hne
    have : k < 2 := lt_of_le_of_ne hk hne
    obtain ⟨err, _, h⟩ := h4 _ (List.getElem?_eq_getElem this)
    rw [hr] at h
    cases h
  subst hk2
  obtain ⟨c1, g1, k1⟩ := h2 (d, "single_object_label.json".toList) (by simp)
  obtain ⟨c2, g2, k2⟩ := h2 (d, "single_object_label.mat".toList) (by simp)
  obtain rfl : c1 = .objects m := Except.ok.inj (g1.sent.symm.trans hm)
  obtain rfl : c2 = .matrices data := Except.ok.inj (g2.sent.symm.trans hdata)
  have p1 : pathOf (d, "single_object_label.json".toList) = d ++ "/single_object_label.json".toList :=
    pathJoin_plain hp (n := "single_object_label.json".toList) (by decide)
  rw [p1] at k1
  have p2 : dirname (d ++ "/single_object_label.json".toList) = d :=
    dirname_join hp (n := "single_object_label.json".toList) (by decide)
  obtain ⟨frames, hfr⟩ := Option.ne_none_iff_exists'.1 hframes
  have hk : ∀ k, dictGet? data k ≠ none → ∃ v, getKey data k = .ok v ∧ dictGet? data k = some v := by
    intro k hk
    obtain ⟨v, hv⟩ := Option.ne_none_iff_exists'.1 hk
    exact ⟨v, by unfold getKey; rw [hv], hv⟩
  obtain ⟨hs, hhs⟩ := mapM_exists (getKey data) FEATURES fun k hkm => by
    obtain ⟨v, hv, _⟩ := hk k (hkeys k hkm).1
    exact ⟨v, hv⟩
  obtain ⟨bs, hbs⟩ := mapM_exists (fun f => getKey data ("by_frame_".toList ++ f)) FEATURES fun k hkm => by
    obtain ⟨v, hv, _⟩ := hk _ (hkeys k hkm).2
    exact ⟨v, hv⟩
  have hget : ∀ k v, getKey data k = .ok v → dictGet? data k = some v := by
    intro k v h
    unfold getKey at h
    rcases hg : dictGet? data k with _ | w
    · rw [hg] at h; cases h
    · rw [hg] at h; rw [Except.ok.inj h]
  refine ⟨⟨frames.map Objects.Frame.fromDict, hs, bs.map some, m.objectNames⟩, ?_, rfl, by rw [hfr]; rfl, ?_, ?_⟩
  · unfold objectsLoad loadObjects loadMatrices
    simp only [bind, Except.bind]
    rw [k1]
    simp only [hfr, Corpus.metaGet, hfile]
    rw [p2, show pathJoin d "single_object_label.mat".toList = pathOf (d, "single_object_label.mat".toList) from rfl, k2]
    simp only [hhs, hbs]
    rfl
  · exact (Objects.mapM_py_ok.1 hhs).imp fun k v h => hget k v h
  · rw [List.forall₂_map_right_iff]
    exact (Objects.mapM_py_ok.1 hbs).imp fun k v h => ⟨(hget _ v h).symm, by simp⟩

/-- **C204.** Without `db-dir`, `objects.download_meta_and_features` writes nothing, even in a chosen directory, whereas
the other functions do not read the configuration when all directories are given. -/
theorem C204_objects_config (get : Str → Py C) {cfg : Dict Str Str} (h : dictGet? cfg "db-dir".toList = none)
    (dest : Option Str) (ow : Bool) (fs : FS C) :
    objectsDownload get cfg dest ow fs = (fs, .error .lookupError) := by
  have hc : configGet cfg "db-dir".toList = .error .lookupError := by
    unfold configGet
    rw [h]
  unfold objectsDownload objectsDbFile
  rw [hc]
  rfl

/-! ### Descriptions of corpora -/

/-- What `write_json` writes, as far as it does not fail. -/
theorem writeJson_ok {d : Corpus.DB} {out n : Str} {fs fs' : FS (Content R B M)} (hp : Plain out) (hn : '/' ∉ n)
    (hn0 : n.head? ≠ some '/') : writeJson d (pathJoin out n) fs = (fs', .ok ()) ↔
      ∃ doc, d.writeJson = .ok doc ∧ fs.isDir out = true ∧ fs' = fs.write (out ++ '/' :: n) (.sound doc) := by
  unfold writeJson
  rcases hw : d.writeJson with e | doc
  · simp [withVal]
  · simp only [withVal]
    rw [pathJoin_plain hp hn0]
    unfold FS.save
    rw [dirname_join hp hn]
    by_cases hd : fs.isDir out = true
    · rw [if_pos hd]
      constructor
      · intro h
        exact ⟨doc, rfl, hd, (Prod.mk.inj h).1.symm⟩
      · rintro ⟨doc', e, _, rfl⟩
        rw [Except.ok.inj e]
    · rw [if_neg hd]
      simp [hd]

/-- **C204.** Given a directory, `parse_vctk` writes there the description which it would have written in the directory of
the corpus, and nothing else; `vctk.load` reads it when it is told where it is. -/
theorem C204_vctk (ws : Char → Bool) (files : Files) {cfg : Dict Str Str} {db feat : Str} (h : Cfg cfg db feat)
    (fs : FS (Content R B M)) {out : Str} (hp : Plain out) (hout : fs.isDir out = true) {fs1 : FS (Content R B M)}
    (hok : parseVctk ws files cfg none fs = (fs1, .ok ())) :
    ∃ fs2, parseVctk ws files cfg (some out) fs = (fs2, .ok ()) ∧ fs2.isDir = fs.isDir ∧
      (∀ p, p ≠ out ++ "/VCTK.json".toList → fs2.file p = fs.file p) ∧
      fs2.file (out ++ "/VCTK.json".toList) = fs1.file (db ++ "/VCTK-Corpus/VCTK.json".toList) ∧
      ∀ cfg', vctkLoad cfg' fs2 (some (out ++ "/VCTK.json".toList)) = vctkLoad cfg fs1 none := by
  unfold parseVctk at hok ⊢
  simp only [vctk_dir h, withVal] at hok ⊢
  rcases himp : imported (fromDbRoot ws files (Sound.DB.new 0) (db ++ "/VCTK-Corpus".toList) "sound".toList) with e | d
  · rw [himp] at hok
    simp at hok
  · rw [himp] at hok
    obtain ⟨doc, hdoc, _, rfl⟩ := (writeJson_ok (vctk_plain db) (n := vctkFile) (by decide) (by decide)).1 hok
    have e1 : (db ++ "/VCTK-Corpus".toList) ++ '/' :: vctkFile = db ++ "/VCTK-Corpus/VCTK.json".toList := by
      rw [List.append_assoc]
      rfl
    rw [e1]
    refine ⟨fs.write (out ++ "/VCTK.json".toList) (.sound doc),
      (writeJson_ok hp (n := vctkFile) (by decide) (by decide)).2 ⟨doc, hdoc, hout, rfl⟩, rfl,
      fun p hne => write_other fs _ _ _ hne, by rw [write_same, write_same], fun cfg' => ?_⟩
    unfold vctkLoad vctkDbPath
    rw [vctk_dir h]
    simp only [Except.map, bind, Except.bind]
    rw [vctk_join]
    unfold loadSound
    rw [write_same, write_same]

theorem parseYear_ok {ws : Char → Bool} {files : Files} {parse : Str → Py (List Node)} {cfg : Dict Str Str} {out : Str}
    (hp : Plain out) {y : ℕ} {fs fs' : FS (Content R B M)} :
    parseYear ws files parse cfg out y fs = (fs', .ok ()) ↔
      ∃ dir d doc, acornsDir cfg = .ok dir ∧
        imported (fromAcornsRoot ws files parse (Sound.DB.new 0) (yearDir dir y) (y : ℤ)) = .ok d ∧
        d.writeJson = .ok doc ∧ fs.isDir out = true ∧ fs' = fs.write (out ++ '/' :: acornsFile y) (.sound doc) := by
  have hn0 : (acornsFile y).head? ≠ some '/' := by
    show some 'A' ≠ some '/'
    decide
  unfold parseYear
  rcases acornsDir cfg with e | dir
  · simp [withVal]
  · simp only [withVal]
    rcases himp : imported (fromAcornsRoot ws files parse (Sound.DB.new 0) (yearDir dir y) (y : ℤ)) with e | d
    · constructor
      · simp
      · rintro ⟨dir', d, doc, e1, e2, _⟩
        rw [← Except.ok.inj e1, himp] at e2
        cases e2
    · constructor
      · intro h
        obtain ⟨doc, h1, h2, h3⟩ := (writeJson_ok hp (acorns_name_plain y) hn0).1 h
        exact ⟨dir, d, doc, rfl, himp, h1, h2, h3⟩
      · rintro ⟨dir', d', doc, e1, e2, h⟩
        rw [← Except.ok.inj e1, himp] at e2
        rw [← Except.ok.inj e2] at h
        exact (writeJson_ok hp (acorns_name_plain y) hn0).2 ⟨doc, h⟩

theorem andThen_ok {r : FS C × Py Unit} {f : FS C → FS C × Py Unit} {fs' : FS C} :
    andThen r f = (fs', .ok ()) ↔ ∃ fs1, r = (fs1, .ok ()) ∧ f fs1 = (fs', .ok ()) := by
  rcases r with ⟨fs1, e | u⟩
  · simp [andThen]
  · constructor
    · exact fun h => ⟨fs1, rfl, h⟩
    · rintro ⟨fs2, e, h⟩
      obtain rfl := (Prod.mk.inj e).1
      exact h

/-- **C204.** Given a directory, `parse_acorns` writes there both descriptions which it would have written in the directory
of the corpora, and nothing else; `acorns.load` reads them when it is told where they are. -/
theorem C204_parse_acorns (ws : Char → Bool) (files : Files) (parse : Str → Py (List Node)) {cfg : Dict Str Str}
    {db feat : Str} (h : Cfg cfg db feat) (fs : FS (Content R B M)) {out : Str} (hp : Plain out)
    (hout : fs.isDir out = true) {fs1 : FS (Content R B M)} (hok : parseAcorns ws files parse cfg none fs = (fs1, .ok ())) :
    ∃ fs2, parseAcorns ws files parse cfg (some out) fs = (fs2, .ok ()) ∧ fs2.isDir = fs.isDir ∧
      (∀ p, p ≠ out ++ "/Acorns_Y1.json".toList → p ≠ out ++ "/Acorns_Y2.json".toList → fs2.file p = fs.file p) ∧
      ∀ y : ℕ, y = 1 ∨ y = 2 →
        fs2.file (out ++ '/' :: acornsFile y) = fs1.file (db ++ "/ACORNS/".toList ++ acornsFile y) ∧
        ∀ cfg' bl, acornsLoad cfg' fs2 y (some (out ++ '/' :: acornsFile y)) bl = acornsLoad cfg fs1 y none bl := by
  have hdir : acornsDir cfg = .ok (db ++ "/ACORNS".toList) := by
    unfold acornsDir
    rw [h.getDb]
    show Except.ok _ = _
    rw [pathJoin_plain h.dbPlain (n := "ACORNS".toList) (by decide)]
    rfl
  have hpd : Plain (db ++ "/ACORNS".toList) := plain_append (n := "ACORNS".toList) (by decide) (by decide)
  unfold parseAcorns at hok ⊢
  simp only [hdir, withVal] at hok ⊢
  obtain ⟨fsa, ha, hb⟩ := andThen_ok.1 hok
  obtain ⟨dir1, d1, doc1, a1, a2, a3, _, rfl⟩ := (parseYear_ok hpd).1 ha
  obtain ⟨dir2, d2, doc2, b1, b2, b3, _, rfl⟩ := (parseYear_ok hpd).1 hb
  have hne : ∀ d : Str, d ++ '/' :: acornsFile 1 ≠ d ++ '/' :: acornsFile 2 := by
    intro d e
    exact absurd (List.append_cancel_left e) (by decide)
  refine ⟨(fs.write (out ++ '/' :: acornsFile 1) (.sound doc1)).write (out ++ '/' :: acornsFile 2) (.sound doc2),
    andThen_ok.2 ⟨_, (parseYear_ok hp).2 ⟨dir1, d1, doc1, a1, a2, a3, hout, rfl⟩,
      (parseYear_ok hp).2 ⟨dir2, d2, doc2, b1, b2, b3, hout, rfl⟩⟩, rfl, ?_, ?_⟩
  · intro p h1 h2
    rw [show "/Acorns_Y1.json".toList = '/' :: acornsFile 1 by decide +kernel] at h1
    rw [show "/Acorns_Y2.json".toList = '/' :: acornsFile 2 by decide +kernel] at h2
    rw [write_other _ _ _ _ h2, write_other _ _ _ _ h1]
  · intro y hy
    have hfile : ((fs.write (out ++ '/' :: acornsFile 1) (.sound doc1)).write (out ++ '/' :: acornsFile 2)
          (.sound doc2)).file (out ++ '/' :: acornsFile y) =
        ((fs.write ((db ++ "/ACORNS".toList) ++ '/' :: acornsFile 1) (.sound doc1)).write
          ((db ++ "/ACORNS".toList) ++ '/' :: acornsFile 2) (.sound doc2)).file (db ++ "/ACORNS/".toList ++ acornsFile y) := by
      have e : db ++ "/ACORNS/".toList ++ acornsFile y = (db ++ "/ACORNS".toList) ++ '/' :: acornsFile y := by
        rw [List.append_assoc, List.append_assoc]
        rfl
      rw [e]
      rcases hy with rfl | rfl
      · rw [write_other _ _ _ _ (hne _), write_same, write_other _ _ _ _ (hne _), write_same]
      · rw [write_same, write_same]
    refine ⟨hfile, fun cfg' bl => ?_⟩
    unfold acornsLoad acornsDbPath
    have hpath := acorns_path h y
    simp only [Int.toNat_natCast]
    rw [hpath]
    unfold loadSound
    simp only [bind, Except.bind]
    rw [hfile]

/-! ### Examples -/

/-- A server which does not have the features. -/
def exServer (url : Str) : Py ℕ :=
  if url = "http://olivier.mangin.com/data/choreo2/choreo2_angle_hist.npz".toList then .error .ioError else .ok url.length

/-- One directory. -/
def exDirs : FS ℕ := ⟨fun p => p = "/data".toList, fun _ => none⟩

/-- Description and data are written, the features are not. -/
example : (choreo2DownloadAll exServer [] (some "/data".toList) (some "/data".toList) false exDirs).2 = .error .ioError ∧
    (choreo2DownloadAll exServer [] (some "/data".toList) (some "/data".toList) false exDirs).1.file
      "/data/choreo2.npz".toList = some 50 ∧
    (choreo2DownloadAll exServer [] (some "/data".toList) (some "/data".toList) false exDirs).1.file
      "/data/choreo2_angle_hist.npz".toList = none := by
  decide +kernel

example : Chosen [] "choreo2".toList (some "/data".toList) "/data".toList ∧
    FeatDir [] (some "/data".toList) "/data".toList ∧
    Chosen (localConfig "/home/me".toList) "choreo2".toList none "/home/me/work/data/db/choreo2".toList :=
  ⟨.inl rfl, .inl rfl, .inr ⟨rfl, _, (cfg_local "/home/me".toList).getDb, (cfg_local "/home/me".toList).dbPlain, rfl⟩⟩

/-- Without configuration, and for year 3. -/
example : (choreo2DownloadAll (fun _ => .ok 0) [] (some "/data".toList) none false exDirs).2 = .error .lookupError ∧
    (objectsDownload (fun _ => .ok 0) [] (some "/data".toList) false exDirs).2 = .error .lookupError ∧
    (objectsDownload (fun _ => .ok 0) [("db-dir".toList, [])] (some "/data".toList) false exDirs).2 = .ok () ∧
    (acornsDownload (fun _ => .ok 0) [] 3 (some "/data".toList) (some "/data".toList) false exDirs).2 =
      .error .indexError ∧
    (acornsDownload (fun _ => .ok 0) [] 3 (some "/data".toList) (some "/data".toList) false exDirs).1.file
      "/data/Acorns_Y3.json".toList = some 0 ∧
    (acornsDownload (fun _ => .ok 0) [] 0 (some "/data".toList) (some "/data".toList) false exDirs).1.file
      "/data/acorns_HAC_Y0_S10_python.mat".toList = some 0 := by
  decide +kernel

end Verif.Datasets
