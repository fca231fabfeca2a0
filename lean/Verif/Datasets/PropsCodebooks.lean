import Verif.Datasets.Codebooks
import Verif.Datasets.PropsAcorns
import Verif.Corpus.PropsMore
import Verif.Features.Props

/-!
# Property C171: from corpora to codebooks and features
-/

namespace Verif.Datasets

open Verif.Corpus (Str Info Files Node pathJoin dirname configGet fromAcornsRoot fromDbRoot dirOf getSpeakers XmlFiles
  Describes GoodListing parseSpeakersInfo checkYear)
open Verif.Loaders Verif.Logger

variable {R B M : Type}

/-! ### Codebooks -/

theorem vstackAll_ok {V : Type} (l : List (List V)) (x : List V) :
    vstackAll l = .ok x ↔ l ≠ [] ∧ x = l.flatten := by
  unfold vstackAll
  rcases l with _ | ⟨a, l⟩
  · simp
  · simp [eq_comm]

theorem pyGet_ok_iff {α : Type} (l : List α) (i : ℕ) (a : α) : pyGet l (i : ℤ) = .ok a ↔ l[i]? = some a := by
  constructor
  · intro h
    by_cases hi : i < l.length
    · rw [pyGet_nat l i hi] at h
      rw [List.getElem?_eq_getElem hi, Except.ok.inj h]
    · exfalso
      unfold pyGet at h
      rw [if_neg (by omega), Int.toNat_natCast, List.getElem?_eq_none (by omega)] at h
      cases h
  · exact pyGet_get?

/-- **C171**: codebooks are made exactly when all sounds can be read, there is one at least and three sizes are
given; codebook `j` is made, with the size of the same position, from the lines of the streams number `j` of
all sounds, in order, where streams are those which `hac` quantises with this codebook. -/
theorem C171_codebooks {A S V K C : Type} (read : Str → Py A) (mfcc : A → S) (delta : S → ℕ → S) (rows : S → List V)
    (book : List V → K → Py C) (wavs : List Str) (ks : List K) (cs : List C) :
    codebooksFromWavs read mfcc delta rows book wavs ks = .ok cs ↔
      ∃ sounds, List.Forall₂ (fun w a => read w = .ok a) wavs sounds ∧ wavs ≠ [] ∧ 3 ≤ ks.length ∧ cs.length = 3 ∧
        ∀ j < 3, ∃ k c, ks[j]? = some k ∧ cs[j]? = some c ∧
          book (sounds.flatMap fun a => rows (if j = 0 then mfcc a else delta (mfcc a) j)) k = .ok c := by
  have hmap : ∀ m, (wavs.mapM fun w => (read w).map mfcc) = .ok m ↔
      ∃ sounds, List.Forall₂ (fun w a => read w = .ok a) wavs sounds ∧ m = sounds.map mfcc := by
    intro m
    rw [Objects.mapM_py_ok]
    constructor
    · intro h
      induction h with
      | nil => exact ⟨[], .nil, rfl⟩
      | @cons w x ws m h1 _ ih =>
        obtain ⟨s, s1, rfl⟩ := ih
        rcases hr : read w with e | a
        · rw [hr] at h1; cases h1
        · rw [hr] at h1
          exact ⟨a :: s, .cons hr s1, by rw [List.map_cons, ← Except.ok.inj h1]⟩
    · rintro ⟨s, hs, rfl⟩
      induction hs with
      | nil => exact .nil
      | cons h1 _ ih =>
        refine .cons ?_ ih
        rw [h1]
        rfl
  have hne : ∀ (sounds : List A), List.Forall₂ (fun w a => read w = .ok a) wavs sounds →
      ∀ f : S → List V, ((sounds.map mfcc).map f ≠ [] ↔ wavs ≠ []) := by
    intro sounds h f
    have hl := h.length_eq
    rw [Ne, Ne, ← List.length_eq_zero_iff, ← List.length_eq_zero_iff, List.length_map, List.length_map, ← hl]
  have hflat : ∀ (sounds : List A) (f : S → List V), ((sounds.map mfcc).map f).flatten = sounds.flatMap fun a => f (mfcc a) := by
    intro sounds f
    rw [List.map_map]
    rfl
  unfold codebooksFromWavs
  constructor
  · intro h
    simp only [bind, Except.bind] at h
    split at h
    · cases h
    rename_i m hm
    split at h
    · cases h
    rename_i x0 hx0
    split at h
    · cases h
    rename_i k0 hk0
    split at h
    · cases h
    rename_i c0 hc0
    split at h
    · cases h
    rename_i x1 hx1
    split at h
    · cases h
    rename_i k1 hk1
    split at h
    · cases h
    rename_i c1 hc1
    split at h
    · cases h
    rename_i x2 hx2
    split at h
    · cases h
    rename_i k2 hk2
    split at h
    · cases h
    rename_i c2 hc2
    obtain rfl : [c0, c1, c2] = cs := Except.ok.inj h
    obtain ⟨sounds, hs, rfl⟩ := (hmap m).1 hm
    obtain ⟨n0, rfl⟩ := (vstackAll_ok _ _).1 hx0
    obtain ⟨_, rfl⟩ := (vstackAll_ok _ _).1 hx1
    obtain ⟨_, rfl⟩ := (vstackAll_ok _ _).1 hx2
    have g0 := (pyGet_ok_iff ks 0 k0).1 hk0
    have g1 := (pyGet_ok_iff ks 1 k1).1 hk1
    have g2 := (pyGet_ok_iff ks 2 k2).1 hk2
    rw [hflat] at hc0
    rw [hflat sounds fun m => rows (delta m 1)] at hc1
    rw [hflat sounds fun m => rows (delta m 2)] at hc2
    refine ⟨sounds, hs, (hne sounds hs _).1 n0, ?_, rfl, ?_⟩
    · have := (List.getElem?_eq_some_iff.1 g2).1
      omega
    · intro j hj
      have : j = 0 ∨ j = 1 ∨ j = 2 := by omega
      rcases this with rfl | rfl | rfl
      · exact ⟨k0, c0, g0, rfl, hc0⟩
      · exact ⟨k1, c1, g1, rfl, hc1⟩
      · exact ⟨k2, c2, g2, rfl, hc2⟩
  · rintro ⟨sounds, hs, hw, hk, hc, h⟩
    obtain ⟨k0, c0, a0, b0, d0⟩ := h 0 (by omega)
    obtain ⟨k1, c1, a1, b1, d1⟩ := h 1 (by omega)
    obtain ⟨k2, c2, a2, b2, d2⟩ := h 2 (by omega)
    rw [(hmap _).2 ⟨sounds, hs, rfl⟩]
    simp only [bind, Except.bind]
    rw [(vstackAll_ok _ _).2 ⟨(hne sounds hs rows).2 hw, rfl⟩, hflat]
    simp only []
    rw [show pyGet ks 0 = .ok k0 from (pyGet_ok_iff ks 0 k0).2 a0]
    simp only []
    rw [show book (sounds.flatMap fun a => rows (mfcc a)) k0 = .ok c0 from d0]
    simp only []
    rw [(vstackAll_ok _ _).2 ⟨(hne sounds hs fun m => rows (delta m 1)).2 hw, rfl⟩, hflat]
    simp only []
    rw [show pyGet ks 1 = .ok k1 from (pyGet_ok_iff ks 1 k1).2 a1]
    simp only []
    rw [show book (sounds.flatMap fun a => rows (delta (mfcc a) 1)) k1 = .ok c1 from d1]
    simp only []
    rw [(vstackAll_ok _ _).2 ⟨(hne sounds hs fun m => rows (delta m 2)).2 hw, rfl⟩, hflat]
    simp only []
    rw [show pyGet ks 2 = .ok k2 from (pyGet_ok_iff ks 2 k2).2 a2]
    simp only []
    rw [show book (sounds.flatMap fun a => rows (delta (mfcc a) 2)) k2 = .ok c2 from d2]
    simp only [pure, Except.pure]
    congr 1
    match cs, hc with
    | [x, y, z], _ =>
      obtain rfl : x = c0 := by simpa using b0
      obtain rfl : y = c1 := by simpa using b1
      obtain rfl : z = c2 := by simpa using b2
      rfl

/-- **C171**: with codebooks of the sizes of the script, features of a sound which can be read have 110000
values. -/
theorem C171_length {A S C : Type} (read : Str → Py A) (mfcc : A → S) (delta : S → ℕ → S) (vq : S → C → List ℕ)
    (size : C → ℕ) (hvq : ∀ s c, ∀ x ∈ vq s c, x < size c) (c0 c1 c2 : C) (hs : [c0, c1, c2].map size = KS) (p : Str) :
    (∀ a, read p = .ok a → ∃ v, wav2hac read mfcc delta vq size [c0, c1, c2] p = .ok v ∧ v.length = 110000) ∧
    ∀ e, read p = .error e → wav2hac read mfcc delta vq size [c0, c1, c2] p = .error e := by
  have h0 : size c0 = 150 ∧ size c1 = 150 ∧ size c2 = 100 := by simpa [KS] using hs
  constructor
  · intro a ha
    obtain ⟨w, hw, hl, _⟩ := Features.C63_length mfcc delta vq size a [c0, c1, c2] [5, 2] hvq (by simp) (by simp)
      (by simp)
    refine ⟨w, ?_, ?_⟩
    · unfold wav2hac
      rw [ha]
      exact hw
    · rw [hl]
      simp [h0]
  · intro e he
    unfold wav2hac
    rw [he]
    rfl

/-! ### Files of VCTK -/

theorem vctk_dir {cfg : Dict Str Str} {db feat : Str} (h : Cfg cfg db feat) :
    vctkDir cfg = .ok (db ++ "/VCTK-Corpus".toList) := by
  unfold vctkDir
  rw [h.getDb]
  show Except.ok _ = _
  rw [pathJoin_plain h.dbPlain (n := "VCTK-Corpus".toList) (by decide)]
  rfl

theorem vctk_plain (db : Str) : Plain (db ++ "/VCTK-Corpus".toList) :=
  plain_append (n := "VCTK-Corpus".toList) (by decide) (by decide)

theorem vctk_join (db : Str) : pathJoin (db ++ "/VCTK-Corpus".toList) vctkFile = db ++ "/VCTK-Corpus/VCTK.json".toList := by
  rw [pathJoin_plain (vctk_plain db) (n := vctkFile) (by decide), List.append_assoc]
  rfl

theorem vctk_dirname (db : Str) : dirname (db ++ "/VCTK-Corpus/VCTK.json".toList) = db ++ "/VCTK-Corpus".toList := by
  rw [← vctk_join, pathJoin_plain (vctk_plain db) (n := vctkFile) (by decide)]
  exact dirname_join (vctk_plain db) (by decide)

/-- The sound file of a record of VCTK. -/
def IsVctkAudio (d : Corpus.DB) (r : Sound.Rec Str) (p : Str) : Prop :=
  ∃ root sp a, d.root = some root ∧ pyGet d.spkrs r.spkr = .ok sp ∧ r.audio = some a ∧
    p = pathJoin (pathJoin (pathJoin root "wav48".toList) ('p' :: sp)) a

theorem vctkAudioPath_ok (d : Corpus.DB) (r : Sound.Rec Str) (p : Str) :
    vctkAudioPath d r = .ok p ↔ IsVctkAudio d r p := by
  unfold vctkAudioPath IsVctkAudio Corpus.dirOf Corpus.speakerDir
  simp only [bind, Except.bind]
  rcases hs : pyGet d.spkrs r.spkr with e | sp
  · simp
  rcases hr : d.root with _ | root
  · simp [pure, Except.pure]
  rcases ha : r.audio with _ | a
  · simp [pure, Except.pure]
  simp only [pure, Except.pure, Except.ok.injEq, Option.some.injEq]
  constructor
  · rintro rfl
    exact ⟨_, _, _, rfl, rfl, rfl, rfl⟩
  · rintro ⟨_, _, _, rfl, rfl, rfl, rfl⟩
    rfl

theorem vctkCodebookFiles_ok {cfg : Dict Str Str} {fs : FS (Content R B M)} {d : Corpus.DB}
    (hd : vctkLoad cfg fs none = .ok d) (l : List Str) :
    vctkCodebookFiles cfg fs = .ok l ↔ List.Forall₂ (IsVctkAudio d) d.records.flatten l := by
  unfold vctkCodebookFiles
  rw [hd]
  show List.mapM _ _ = _ ↔ _
  rw [Objects.mapM_py_ok]
  simp only [vctkAudioPath_ok]
  rfl

/-- **C171**: when the corpus VCTK can be read and each utterance has a sound, `parse_vctk` writes its
description, and only this file; `vctk.load` then gives the corpus imported up to the order of utterances, and
codebooks are made from the sounds of all utterances. -/
theorem C171_vctk (ws : Char → Bool) (files : Files) {cfg : Dict Str Str} {db feat : Str} (h : Cfg cfg db feat)
    (fs : FS (Content R B M)) (hdir : fs.isDir (db ++ "/VCTK-Corpus".toList) = true)
    (root : Str) (hroot : root = files.abspath (db ++ "/VCTK-Corpus".toList)) (info : Dict Str Info)
    (wavs txts : List Str) (hinfo : parseSpeakersInfo ws files root = .ok info)
    (hwav : files.listdir (pathJoin root "wav48".toList) = some wavs) (hw : GoodListing wavs)
    (htxt : files.listdir (pathJoin root "txt".toList) = some txts) (ht : GoodListing txts) :
    ∃ fs' d, fromDbRoot ws files (Sound.DB.new 0) (db ++ "/VCTK-Corpus".toList) "sound".toList = (d, .ok ()) ∧
      parseVctk ws files cfg none fs = (fs', .ok ()) ∧ fs'.isDir = fs.isDir ∧
      (∀ p, p ≠ db ++ "/VCTK-Corpus/VCTK.json".toList → fs'.file p = fs.file p) ∧
      ((∀ l ∈ d.records, ∀ r ∈ l, r.audio ≠ none) →
        ∃ d', vctkLoad cfg fs' none = .ok d' ∧ d'.root = d.root ∧ d'.spkrs = d.spkrs ∧ d'.spkrsInfo = d.spkrsInfo ∧
          ∃ l, vctkCodebookFiles cfg fs' = .ok l ∧ l.length = d.records.flatten.length ∧
            ∀ p, p ∈ l ↔ ∃ r ∈ d.records.flatten, IsVctkAudio d r p) ∧
      ((∃ l ∈ d.records, 2 ≤ l.length ∧ ∃ r ∈ l, r.audio = none) →
        vctkCodebookFiles cfg fs' = .error .typeError) := by
  subst hroot
  obtain ⟨d, doc, h1, h2, h3, h4, h5⟩ := Corpus.C121_vctk ws files 0 0 (db ++ "/VCTK-Corpus".toList) "sound".toList info
    wavs txts hinfo hwav hw htxt ht (.inl rfl)
  have hrun : parseVctk ws files cfg none fs =
      (fs.write (db ++ "/VCTK-Corpus/VCTK.json".toList) (.sound doc), .ok ()) := by
    unfold parseVctk
    simp only [vctk_dir h, withVal]
    rw [h1]
    simp only [imported, Except.map]
    unfold writeJson
    rw [h3]
    simp only [withVal]
    rw [vctk_join]
    unfold FS.save
    rw [vctk_dirname, hdir, if_pos rfl]
  have hload : vctkLoad cfg (fs.write (db ++ "/VCTK-Corpus/VCTK.json".toList) (.sound doc)) none =
      (Sound.DB.new 0).loadFrom doc true := by
    unfold vctkLoad vctkDbPath
    rw [vctk_dir h]
    show loadSound _ (pathJoin _ vctkFile) = _
    rw [vctk_join]
    unfold loadSound
    rw [write_same]
  refine ⟨_, d, h1, hrun, rfl, fun p hp => write_other _ _ _ _ hp, ?_, ?_⟩
  · intro ha
    obtain ⟨d', g1, g2, g3, g4, g5, g6, g7⟩ := h4 ha
    have hld := hload.trans g1
    -- records up to order
    have hperm : d'.records.flatten.Perm (d.records.flatten.map (Sound.Rec.into 0)) := by
      rw [List.map_flatten]
      have hf : List.Forall₂ List.Perm d'.records (d.records.map (List.map (Sound.Rec.into 0))) := by
        rw [List.forall₂_iff_get]
        refine ⟨by rw [List.length_map, g6], fun i hi hi' => ?_⟩
        rw [List.length_map] at hi'
        simp only [List.get_eq_getElem, List.getElem_map]
        exact g7 i _ _ (List.getElem?_eq_getElem hi') (List.getElem?_eq_getElem hi)
      clear g6 g7
      generalize d'.records = a at hf
      generalize d.records.map (List.map (Sound.Rec.into 0)) = b at hf
      induction hf with
      | nil => exact List.Perm.refl _
      | cons h1 _ ih =>
        rw [List.flatten_cons, List.flatten_cons]
        exact h1.append ih
    have hinto : ∀ (r : Sound.Rec Str) p, IsVctkAudio d' (r.into 0) p ↔ IsVctkAudio d r p := by
      intro r p
      unfold IsVctkAudio
      rw [g2, g4]
      rfl
    have hall : ∀ r ∈ d.records.flatten, ∃ p, IsVctkAudio d r p := by
      intro r hr
      obtain ⟨l, hl, hr⟩ := List.mem_flatten.1 hr
      obtain ⟨i, hi, rfl⟩ := List.mem_iff_getElem.1 hl
      obtain ⟨hs, _⟩ := h2.known i _ (List.getElem?_eq_getElem hi) r hr
      have hi' : i < d.spkrs.length := by rw [← h2.nbRecords]; exact hi
      rcases haud : r.audio with _ | a
      · exact absurd haud (ha _ hl r hr)
      · obtain ⟨_, new, f1, f2, _⟩ := Corpus.C113_import ws files (Sound.DB.new 0) (db ++ "/VCTK-Corpus".toList)
          "sound".toList info wavs txts hinfo hwav hw htxt ht (.inl rfl) rfl rfl (fun s _ => by simp [Sound.DB.new])
        rw [h1] at f1
        obtain rfl := (Prod.mk.inj f1).1
        exact ⟨_, _, _, a, f2, by rw [hs]; exact pyGet_nat _ i hi', haud, rfl⟩
    obtain ⟨l, hl⟩ := mapM_exists (vctkAudioPath d') d'.records.flatten (by
      intro r hr
      obtain ⟨r0, hr0, rfl⟩ := List.mem_map.1 (hperm.mem_iff.1 hr)
      obtain ⟨p, hp⟩ := hall r0 hr0
      exact ⟨p, (vctkAudioPath_ok d' _ p).2 ((hinto r0 p).2 hp)⟩)
    have hl' : vctkCodebookFiles cfg (fs.write (db ++ "/VCTK-Corpus/VCTK.json".toList) (.sound doc)) = .ok l := by
      unfold vctkCodebookFiles
      rw [hld]
      exact hl
    have hF := (vctkCodebookFiles_ok hld l).1 hl'
    refine ⟨d', hld, g2, g4, g5, l, hl', ?_, ?_⟩
    · rw [← hF.length_eq, hperm.length_eq, List.length_map]
    · intro p
      constructor
      · intro hp
        obtain ⟨i, hi, rfl⟩ := List.mem_iff_getElem.1 hp
        have hi' : i < d'.records.flatten.length := by rw [hF.length_eq]; exact hi
        have hq := (List.forall₂_iff_get.1 hF).2 i hi' hi
        obtain ⟨r0, hr0, e⟩ := List.mem_map.1 (hperm.mem_iff.1 (List.getElem_mem hi'))
        refine ⟨r0, hr0, (hinto r0 _).1 ?_⟩
        rw [e]
        exact hq
      · rintro ⟨r, hr, hp⟩
        have hm : r.into 0 ∈ d'.records.flatten := hperm.mem_iff.2 (List.mem_map_of_mem hr)
        obtain ⟨i, hi, e⟩ := List.mem_iff_getElem.1 hm
        have hi' : i < l.length := by rw [← hF.length_eq]; exact hi
        have hq := (List.forall₂_iff_get.1 hF).2 i hi hi'
        simp only [List.get_eq_getElem] at hq
        rw [e] at hq
        have h1 := (vctkAudioPath_ok _ _ _).2 hq
        have h2 := (vctkAudioPath_ok _ _ _).2 ((hinto r p).2 hp)
        rw [h1] at h2
        rw [← Except.ok.inj h2]
        exact List.getElem_mem hi'
  · intro ha
    unfold vctkCodebookFiles
    rw [hload, h5 ha]
    rfl

/-! ### Script of codebooks -/

/-- **C171**: when the script `build_codebook` ends, `vctk_codebook.mat` holds the codebooks made from the sounds
of VCTK with sizes 150, 150 and 100, and no other file has changed; `build_acorns_features` reads them. -/
theorem C171_script (build : List Str → List ℕ → Py B) {cfg : Dict Str Str} {db feat : Str} (h : Cfg cfg db feat)
    (fs fs' : FS (Content R B M)) (hok : buildCodebookScript build cfg fs = (fs', .ok ())) :
    ∃ l b, vctkCodebookFiles cfg fs = .ok l ∧ build l [150, 150, 100] = .ok b ∧ fs'.isDir = fs.isDir ∧
      fs'.file (feat ++ "/vctk_codebook.mat".toList) = some (.codebooks b) ∧
      ∀ p, p ≠ feat ++ "/vctk_codebook.mat".toList → fs'.file p = fs.file p := by
  have hcode : pathJoin feat "vctk_codebook.mat".toList = feat ++ "/vctk_codebook.mat".toList :=
    pathJoin_plain h.featPlain (n := "vctk_codebook.mat".toList) (by decide)
  unfold buildCodebookScript at hok
  rw [h.getFeat] at hok
  simp only [withVal] at hok
  rcases hl : vctkCodebookFiles cfg fs with e | l
  · rw [hl] at hok
    cases congrArg Prod.snd hok
  rw [hl] at hok
  simp only [] at hok
  rcases hb : build l KS with e | b
  · rw [hb] at hok
    cases congrArg Prod.snd hok
  rw [hb] at hok
  simp only [FS.save] at hok
  rw [hcode] at hok
  by_cases hd : fs.isDir (dirname (feat ++ "/vctk_codebook.mat".toList)) = true
  · rw [if_pos hd] at hok
    obtain rfl := congrArg Prod.fst hok
    exact ⟨l, b, rfl, hb, rfl, write_same _ _ _, fun p hp => write_other _ _ _ _ hp⟩
  · rw [if_neg hd] at hok
    cases congrArg Prod.snd hok

/-! ### Files of ACORNS -/

theorem acorns_dir {cfg : Dict Str Str} {db feat : Str} (h : Cfg cfg db feat) :
    acornsDir cfg = .ok (db ++ "/ACORNS".toList) := by
  unfold acornsDir
  rw [h.getDb]
  show Except.ok _ = _
  rw [pathJoin_plain h.dbPlain (n := "ACORNS".toList) (by decide)]
  rfl

theorem acorns_plain (db : Str) : Plain (db ++ "/ACORNS".toList) :=
  plain_append (n := "ACORNS".toList) (by decide) (by decide)

theorem acorns_join (db : Str) (y : ℕ) :
    pathJoin (db ++ "/ACORNS".toList) (acornsFile y) = (db ++ "/ACORNS".toList) ++ '/' :: acornsFile y :=
  pathJoin_plain (acorns_plain db) (by
    show some 'A' ≠ some '/'
    decide)

/-- **C171**: when both years of the corpus ACORNS can be read, `parse_acorns` writes their descriptions, and only
these files; `acorns.load` then gives the corpus imported for each year up to the order of utterances. -/
theorem C171_acorns (ws : Char → Bool) (files : Files) (parse : Str → Py (List Node)) {cfg : Dict Str Str}
    {db feat : Str} (h : Cfg cfg db feat) (fs : FS (Content R B M))
    (hdir : fs.isDir (db ++ "/ACORNS".toList) = true)
    (hroot : ∀ p, (files.abspath p).head? = some '/')
    (hfiles : ∀ y : ℕ, y = 1 ∨ y = 2 → ∀ s ∈ getSpeakers y, ∃ fl,
      XmlFiles files (pathJoin (pathJoin (files.abspath
        (db ++ ("/ACORNS/ACORNS-English-Corpora-ev01/ACORNS-Y".toList ++ (decStr y ++ "-ENG".toList)))) "XML".toList) s) fl ∧
      ∀ f ∈ fl, ∃ u, Describes ws parse (if y = 1 then "vistag".toList else "vistags".toList) f u) :
    ∃ fs', parseAcorns ws files parse cfg none fs = (fs', .ok ()) ∧ fs'.isDir = fs.isDir ∧
      (∀ p, p ≠ db ++ "/ACORNS/Acorns_Y1.json".toList → p ≠ db ++ "/ACORNS/Acorns_Y2.json".toList →
        fs'.file p = fs.file p) ∧
      ∀ y : ℕ, y = 1 ∨ y = 2 → ∃ d d', fromAcornsRoot ws files parse (Sound.DB.new 0)
          (db ++ ("/ACORNS/ACORNS-English-Corpora-ev01/ACORNS-Y".toList ++ (decStr y ++ "-ENG".toList))) y = (d, .ok ()) ∧
        acornsLoad cfg fs' (y : ℤ) none false = .ok d' ∧ d'.tags = d.tags ∧ d'.spkrs = getSpeakers y ∧
        d'.records.length = d.records.length ∧
        ∀ (s : ℕ) (l l' : List (Sound.Rec Str)), d.records[s]? = some l → d'.records[s]? = some l' →
          l'.Perm (l.map (Sound.Rec.into 0)) := by
  have hyd : ∀ y, yearDir (db ++ "/ACORNS".toList) y =
      db ++ ("/ACORNS/ACORNS-English-Corpora-ev01/ACORNS-Y".toList ++ (decStr y ++ "-ENG".toList)) := by
    intro y
    unfold yearDir
    rw [pathJoin_plain (acorns_plain db) (by
      show some 'A' ≠ some '/'
      decide), List.append_assoc]
    rfl
  -- one year
  have hyear : ∀ (y : ℕ), y = 1 ∨ y = 2 → ∃ d doc d', fromAcornsRoot ws files parse (Sound.DB.new 0)
          (db ++ ("/ACORNS/ACORNS-English-Corpora-ev01/ACORNS-Y".toList ++ (decStr y ++ "-ENG".toList))) y = (d, .ok ()) ∧
        (Sound.DB.new 0 : Corpus.DB).loadFrom doc true = .ok d' ∧ d'.tags = d.tags ∧ d'.spkrs = getSpeakers y ∧
        d'.records.length = d.records.length ∧
        (∀ (s : ℕ) (l l' : List (Sound.Rec Str)), d.records[s]? = some l → d'.records[s]? = some l' →
          l'.Perm (l.map (Sound.Rec.into 0))) ∧
        ∀ fs1 : FS (Content R B M), fs1.isDir (db ++ "/ACORNS".toList) = true →
          parseYear ws files parse cfg (db ++ "/ACORNS".toList) y fs1 =
            (fs1.write ((db ++ "/ACORNS".toList) ++ '/' :: acornsFile y) (.sound doc), .ok ()) := by
    intro y hy
    have hf := hfiles y hy
    obtain ⟨d, doc, d', g1, g2, g3, g4, g5, g6, g7, g8⟩ := Corpus.C121_acorns ws files parse 0 0 _ (y : ℤ)
      (by omega) (hroot _) (by
        intro s hs
        obtain ⟨fl, f1, f2⟩ := hf s hs
        refine ⟨fl, f1, fun f hfl => ?_⟩
        obtain ⟨u, hu⟩ := f2 f hfl
        refine ⟨u, ?_⟩
        rcases hy with rfl | rfl
        · exact hu
        · exact hu)
    refine ⟨d, doc, d', g1, g3, g5, g6, g7, g8, ?_⟩
    intro fs1 hd1
    unfold parseYear
    rw [acorns_dir h]
    simp only [withVal]
    rw [hyd, g1]
    simp only [imported, Except.map]
    unfold writeJson
    rw [g2]
    simp only [withVal]
    rw [acorns_join]
    unfold FS.save
    rw [dirname_join (acorns_plain db) (acorns_name_plain y), hd1, if_pos rfl]
  obtain ⟨d1, doc1, d1', a1, a2, a3, a4, a5, a6, a7⟩ := hyear 1 (.inl rfl)
  obtain ⟨d2, doc2, d2', b1, b2, b3, b4, b5, b6, b7⟩ := hyear 2 (.inr rfl)
  have hp : ∀ y, db ++ "/ACORNS/".toList ++ acornsFile y = (db ++ "/ACORNS".toList) ++ '/' :: acornsFile y := by
    intro y
    rw [List.append_assoc, List.append_assoc]
    rfl
  have hne : (db ++ "/ACORNS".toList) ++ '/' :: acornsFile 1 ≠ (db ++ "/ACORNS".toList) ++ '/' :: acornsFile 2 :=
    join_ne_name (acorns_name_plain 1) (acorns_name_plain 2) (by decide)
  have hload : ∀ (y : ℕ) (f : FS (Content R B M)) doc, y = 1 ∨ y = 2 →
      f.file ((db ++ "/ACORNS".toList) ++ '/' :: acornsFile y) = some (.sound doc) →
      acornsLoad cfg f (y : ℤ) none false = (Sound.DB.new 0).loadFrom doc true := by
    intro y f doc hy hf
    unfold acornsLoad acornsDbPath
    rw [show checkYear (y : ℤ) = .ok () by unfold checkYear; rw [if_pos (by omega)], Int.toNat_natCast, acorns_path h, hp]
    simp only [bind, Except.bind]
    unfold loadSound
    rw [hf]
    simp only []
    rcases (Sound.DB.new 0 : Corpus.DB).loadFrom doc true with e | d <;> rfl
  refine ⟨(fs.write ((db ++ "/ACORNS".toList) ++ '/' :: acornsFile 1) (.sound doc1)).write
      ((db ++ "/ACORNS".toList) ++ '/' :: acornsFile 2) (.sound doc2), ?_, rfl, ?_, ?_⟩
  · unfold parseAcorns
    simp only [acorns_dir h, withVal]
    rw [a7 fs hdir]
    simp only [andThen]
    exact b7 _ (by exact hdir)
  · intro p p1 p2
    have e1 : (db ++ "/ACORNS".toList) ++ '/' :: acornsFile 1 = db ++ "/ACORNS/Acorns_Y1.json".toList := by
      rw [List.append_assoc]
      rfl
    have e2 : (db ++ "/ACORNS".toList) ++ '/' :: acornsFile 2 = db ++ "/ACORNS/Acorns_Y2.json".toList := by
      rw [List.append_assoc]
      rfl
    rw [write_other _ _ _ _ (by rw [e2]; exact p2), write_other _ _ _ _ (by rw [e1]; exact p1)]
  · intro y hy
    rcases hy with rfl | rfl
    · exact ⟨d1, d1', a1, (hload 1 _ doc1 (.inl rfl) (by rw [write_other _ _ _ _ hne, write_same])).trans a2, a3, a4, a5, a6⟩
    · exact ⟨d2, d2', b1, (hload 2 _ doc2 (.inr rfl) (write_same _ _ _)).trans b2, b3, b4, b5, b6⟩

/-- **C171**: when the corpus of year 2 cannot be read, `parse_acorns` fails with the same error but the
description of year 1 stays written. -/
theorem C171_year2 (ws : Char → Bool) (files : Files) (parse : Str → Py (List Node)) {cfg : Dict Str Str}
    {db feat : Str} (h : Cfg cfg db feat) (fs : FS (Content R B M)) (d1 d2 : Corpus.DB) (doc : Sound.Doc Str Info)
    (e : PyErr) (hdir : fs.isDir (db ++ "/ACORNS".toList) = true)
    (h1 : fromAcornsRoot ws files parse (Sound.DB.new 0)
      (db ++ "/ACORNS/ACORNS-English-Corpora-ev01/ACORNS-Y1-ENG".toList) 1 = (d1, .ok ()))
    (hdoc : d1.writeJson = .ok doc)
    (h2 : fromAcornsRoot ws files parse (Sound.DB.new 0)
      (db ++ "/ACORNS/ACORNS-English-Corpora-ev01/ACORNS-Y2-ENG".toList) 2 = (d2, .error e)) :
    ∃ fs', parseAcorns ws files parse cfg none fs = (fs', .error e) ∧
      fs'.file (db ++ "/ACORNS/Acorns_Y1.json".toList) = some (.sound doc) ∧
      ∀ p, p ≠ db ++ "/ACORNS/Acorns_Y1.json".toList → fs'.file p = fs.file p := by
  have e1 : (db ++ "/ACORNS".toList) ++ '/' :: acornsFile 1 = db ++ "/ACORNS/Acorns_Y1.json".toList := by
    rw [List.append_assoc]
    rfl
  have y1 : yearDir (db ++ "/ACORNS".toList) 1 = db ++ "/ACORNS/ACORNS-English-Corpora-ev01/ACORNS-Y1-ENG".toList := by
    unfold yearDir
    rw [pathJoin_plain (acorns_plain db) (by
      show some 'A' ≠ some '/'
      decide), List.append_assoc]
    rfl
  have y2 : yearDir (db ++ "/ACORNS".toList) 2 = db ++ "/ACORNS/ACORNS-English-Corpora-ev01/ACORNS-Y2-ENG".toList := by
    unfold yearDir
    rw [pathJoin_plain (acorns_plain db) (by
      show some 'A' ≠ some '/'
      decide), List.append_assoc]
    rfl
  refine ⟨fs.write (db ++ "/ACORNS/Acorns_Y1.json".toList) (.sound doc), ?_, write_same _ _ _,
    fun p hp => write_other _ _ _ _ hp⟩
  unfold parseAcorns parseYear
  simp only [acorns_dir h, withVal]
  rw [y1, y2, show ((1 : ℕ) : ℤ) = 1 from rfl, show ((2 : ℕ) : ℤ) = 2 from rfl, h1, h2]
  simp only [imported, Except.map]
  unfold writeJson
  rw [hdoc]
  simp only [withVal]
  rw [acorns_join, e1]
  unfold FS.save
  rw [← e1, dirname_join (acorns_plain db) (acorns_name_plain 1), hdir, if_pos rfl]
  rfl

/-! ### Concrete cases -/

/-- Codebooks from two sounds; missing sounds and sizes. -/
example :
    codebooksFromWavs (fun w => if w = "a".toList then .ok [1, 2] else .ok [3]) (fun a => a)
      (fun m k => m.map (· + 10 * k)) (fun m => m) (fun x k => .ok (x, k)) ["a".toList, "b".toList] [5, 6, 7] =
        .ok [([1, 2, 3], 5), ([11, 12, 13], 6), ([21, 22, 23], 7)] ∧
    codebooksFromWavs (fun _ => .ok [3]) (fun a => a) (fun m k => m.map (· + 10 * k)) (fun m => m)
      (fun x k => .ok (x, k)) [] [5, 6, 7] = .error .valueError ∧
    codebooksFromWavs (fun _ => .ok [3]) (fun a => a) (fun m k => m.map (· + 10 * k)) (fun m => m)
      (fun x k => .ok (x, k)) ["a".toList] [5, 6] = .error .indexError := by
  decide +kernel

/-- Features of a sound with codebooks given by their sizes. -/
example : ∃ v, wav2hac (fun _ => .ok [0, 1, 1, 0, 1, 0, 0]) (fun a => a) (fun m _ => m)
    (fun s (c : Fin 200) => s.map (· % (c.1 + 1))) (fun c => c.1 + 1) [149, 149, 99] "a".toList = .ok v ∧
      v.length = 110000 :=
  (C171_length (fun _ => .ok [0, 1, 1, 0, 1, 0, 0]) (fun a => a) (fun m _ => m)
    (fun s (c : Fin 200) => s.map (· % (c.1 + 1))) (fun c => c.1 + 1) (by
      intro s c x hx
      obtain ⟨y, -, rfl⟩ := List.mem_map.1 hx
      exact Nat.mod_lt _ (by omega)) 149 149 99 (by decide) "a".toList).1 _ rfl

/-- Directories of an example. -/
def exCfg : Dict Str Str := [("db-dir".toList, "/d".toList), ("feat-dir".toList, "/f".toList)]

theorem exCfg_ok : Cfg exCfg "/d".toList "/f".toList :=
  ⟨by decide, by decide, ⟨by decide, by decide⟩, ⟨by decide, by decide⟩⟩

/-- A small corpus VCTK. -/
def exVctk : Files where
  abspath p := p
  listdir p := dictGet? [("/d/VCTK-Corpus/wav48".toList, ["p1".toList]), ("/d/VCTK-Corpus/txt".toList, ["p1".toList]),
    ("/d/VCTK-Corpus/wav48/p1".toList, ["p1_a.wav".toList, "p1_b.wav".toList])] p
  isfile p := p ∈ ["/d/VCTK-Corpus/wav48/p1/p1_a.wav".toList, "/d/VCTK-Corpus/wav48/p1/p1_b.wav".toList]
  isdir p := p ∈ ["/d/VCTK-Corpus/wav48/p1".toList, "/d/VCTK-Corpus/txt/p1".toList]
  exist p := p ∈ ["/d/VCTK-Corpus/wav48/p1/p1_a.wav".toList, "/d/VCTK-Corpus/wav48/p1/p1_b.wav".toList]
  read p := dictGet? [("/d/VCTK-Corpus/speaker-info.txt".toList, "1  23 F English South  East\n".toList)] p

/-- White space. -/
def exSpace (c : Char) : Bool := c = ' ' || c = '\n'

/-- Hypotheses of `C171_vctk`, and utterances which all have a sound. -/
example : parseSpeakersInfo exSpace exVctk (exVctk.abspath ("/d".toList ++ "/VCTK-Corpus".toList)) =
      .ok [("1".toList, ⟨"23".toList, "F".toList, "English".toList, "South East".toList⟩)] ∧
    exVctk.listdir (pathJoin "/d/VCTK-Corpus".toList "wav48".toList) = some ["p1".toList] ∧
    exVctk.listdir (pathJoin "/d/VCTK-Corpus".toList "txt".toList) = some ["p1".toList] ∧
    GoodListing ["p1".toList] ∧
    Corpus.recordsList exVctk "/d/VCTK-Corpus/wav48/p1".toList "wav".toList = ["a".toList, "b".toList] ∧
    Corpus.recordsList exVctk "/d/VCTK-Corpus/txt/p1".toList "txt".toList = [] ∧
    (["a".toList, "b".toList].map fun u => (Corpus.recordFor exVctk "/d/VCTK-Corpus".toList 0 0 "1".toList u).audio) =
      [some "p1_a.wav".toList, some "p1_b.wav".toList] := by
  refine ⟨by decide +kernel, by decide +kernel, by decide +kernel, ⟨by decide, by decide⟩, by decide +kernel, by decide +kernel,
    by decide +kernel⟩

/-- An utterance for both years. -/
def exYears : List Node :=
  [.elem "doc".toList [] [.elem "utterance".toList [] [
    .elem "style".toList [("value".toList, "IDS".toList)] [],
    .elem "audio-file".toList [("value".toList, "rec1".toList)] [],
    .elem "vistag".toList [] [.text "apple red".toList],
    .elem "vistags".toList [] [.text "apple red".toList],
    .elem "trans".toList [] [.text "a".toList, .elem "b".toList [] [], .text "an apple".toList]]]]

/-- A corpus where each directory has an XML file. -/
def exXml : Files :=
  ⟨fun p => '/' :: p, fun _ => some ["u1.xml".toList], fun _ => true, fun _ => true, fun _ => true, fun _ => none⟩

/-- Hypotheses of `C171_acorns`: each speaker has an utterance. -/
example : (∀ p, (exXml.abspath p).head? = some '/') ∧ XmlFiles exXml "/d/S1".toList ["/d/S1/u1.xml".toList] ∧
    ∀ (y : ℕ) dir, y = 1 ∨ y = 2 → ∃ fl, XmlFiles exXml dir fl ∧
      ∀ f ∈ fl, ∃ u, Describes exSpace (fun _ => .ok exYears) (if y = 1 then "vistag".toList else "vistags".toList)
        f u := by
  refine ⟨fun _ => rfl, ⟨_, rfl, by decide +kernel⟩, fun y dir hy => ⟨_, ⟨_, rfl, rfl⟩, fun f _ =>
    ⟨⟨"IDS".toList, "rec1.wav".toList, ["apple".toList, "red".toList], "an apple".toList⟩, exYears, "utterance".toList, [],
      [.elem "style".toList [("value".toList, "IDS".toList)] [],
        .elem "audio-file".toList [("value".toList, "rec1".toList)] [],
        .elem "vistag".toList [] [.text "apple red".toList],
        .elem "vistags".toList [] [.text "apple red".toList],
        .elem "trans".toList [] [.text "a".toList, .elem "b".toList [] [], .text "an apple".toList]],
      "style".toList, [("value".toList, "IDS".toList)], [], "audio-file".toList, [("value".toList, "rec1".toList)], [],
      if y = 1 then "vistag".toList else "vistags".toList, [], "apple red".toList, [], "trans".toList, [],
      [.text "a".toList, .elem "b".toList [] [], .text "an apple".toList], "an apple".toList, rfl, ?_, ?_, ?_, ?_, ?_, ?_, by decide, by decide, by decide,
      by decide⟩⟩⟩
  · simp [exYears, Corpus.byTag]
  · simp [Corpus.byTag]
  · simp [Corpus.byTag]
  · rcases hy with rfl | rfl <;> simp [Corpus.byTag]
  · simp [Corpus.byTag]
  · rfl

end Verif.Datasets
