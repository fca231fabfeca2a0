import Verif.Datasets.Props
import Verif.Logger.Lemmas

/-!
# Property C169: features of the ACORNS database
-/

namespace Verif.Datasets

open Verif.Corpus (Str Info pathJoin dirname extension configGet splitChar checkYear nSpeakers)
open Verif.Loaders Verif.Logger

variable {R B M : Type}

/-! ### Specification -/

/-- The sound file of a record: in the directory of its speaker, in the directory `WAV` of the database. -/
def IsAudio (d : Corpus.DB) (r : Sound.Rec Str) (p : Str) : Prop :=
  ∃ root sp a, d.root = some root ∧ pyGet d.spkrs r.spkr = .ok sp ∧ r.audio = some a ∧
    p = pathJoin (pathJoin (pathJoin root "WAV".toList) sp) a

/-- A record whose features can be computed, and printed. -/
def Good (wav2hac : B → Str → Py R) (b : B) (d : Corpus.DB) (r : Sound.Rec Str) : Prop :=
  (∀ t ∈ r.tags, ∃ n, pyGet d.tags t = .ok n) ∧ ∃ p x, IsAudio d r p ∧ wav2hac b p = .ok x

/-! ### Records -/

theorem recordFeatures_ok {wav2hac : B → Str → Py R} {b : B} {d : Corpus.DB} {r : Sound.Rec Str} {x : R}
    (h : recordFeatures wav2hac b d r = .ok x) :
    (∀ t ∈ r.tags, ∃ n, pyGet d.tags t = .ok n) ∧ ∃ p, IsAudio d r p ∧ wav2hac b p = .ok x := by
  unfold recordFeatures printRecord audioPath at h
  simp only [bind, Except.bind] at h
  rcases ht : Sound.tagNames d r with e | t
  · rw [ht] at h; cases h
  rw [ht] at h
  simp only [] at h
  rcases hs : pyGet d.spkrs r.spkr with e | sp
  · rw [hs] at h; cases h
  rw [hs] at h
  simp only [pure, Except.pure] at h
  rcases hr : d.root with _ | root
  · rw [hr] at h; cases h
  rw [hr] at h
  simp only [] at h
  rcases ha : r.audio with _ | a
  · rw [ha] at h; cases h
  rw [ha] at h
  simp only [] at h
  refine ⟨?_, _, ⟨root, sp, a, hr, hs, ha, rfl⟩, h⟩
  intro t' ht'
  have := Objects.mapM_py_ok.1 ht
  obtain ⟨i, hi, e⟩ := List.mem_iff_getElem.1 ht'
  have hl := this.length_eq
  subst e
  exact ⟨_, (List.forall₂_iff_get.1 this).2 i hi (hl ▸ hi)⟩

theorem recordFeatures_good (wav2hac : B → Str → Py R) (b : B) (d : Corpus.DB) (r : Sound.Rec Str) :
    (∃ x, recordFeatures wav2hac b d r = .ok x) ↔ Good wav2hac b d r := by
  constructor
  · rintro ⟨x, h⟩
    obtain ⟨h1, p, h2, h3⟩ := recordFeatures_ok h
    exact ⟨h1, p, x, h2, h3⟩
  · rintro ⟨h1, p, x, ⟨root, sp, a, e1, e2, e3, rfl⟩, h3⟩
    obtain ⟨t, ht⟩ := mapM_exists (fun t => pyGet d.tags t) r.tags h1
    refine ⟨x, ?_⟩
    unfold recordFeatures printRecord audioPath
    have ht' : Sound.tagNames d r = .ok t := ht
    simp only [bind, Except.bind, ht', e2, pure, Except.pure, e1, e3]
    exact h3

/-! ### Names -/

theorem slash_notMem_decStr (n : ℕ) : '/' ∉ decStr n := by
  intro h
  have := decStr_digits n _ h
  revert this
  decide

theorem slash_notMem_pad2 (n : ℕ) : '/' ∉ pad2 n := by
  unfold pad2
  split
  · rw [List.mem_cons, not_or]
    exact ⟨by decide, slash_notMem_decStr n⟩
  · exact slash_notMem_decStr n

theorem feature_name_plain (y s : ℕ) : '/' ∉ featureFileName y s := by
  unfold featureFileName
  simp only [List.mem_append, not_or]
  exact ⟨by decide, slash_notMem_decStr y, by decide, slash_notMem_pad2 _, by decide⟩

theorem acorns_name_plain (y : ℕ) : '/' ∉ acornsFile y := by
  unfold acornsFile
  simp only [List.mem_append, not_or]
  exact ⟨by decide, slash_notMem_decStr y, by decide⟩

theorem feature_path {feat : Str} (hf : Plain feat) (y s : ℕ) :
    pathJoin feat (featureFileName y s) = feat ++ '/' :: featureFileName y s := by
  refine pathJoin_plain hf ?_
  show some 'a' ≠ some '/'
  decide

theorem acorns_path {cfg : Dict Str Str} {db feat : Str} (h : Cfg cfg db feat) (y : ℕ) :
    (acornsDir cfg).map (fun d => pathJoin d (acornsFile y)) = .ok (db ++ "/ACORNS/".toList ++ acornsFile y) := by
  unfold acornsDir
  rw [h.getDb]
  show Except.ok (pathJoin (pathJoin db "ACORNS".toList) (acornsFile y)) = _
  rw [pathJoin_plain h.dbPlain (n := "ACORNS".toList) (by decide),
    pathJoin_plain (plain_append (n := "ACORNS".toList) (by decide) (by decide)) (n := acornsFile y) (by
      show some 'A' ≠ some '/'
      decide)]
  rw [List.append_assoc, List.append_assoc]
  rfl

theorem acorns_ne_feature (db feat : Str) (y y' s : ℕ) :
    db ++ "/ACORNS/".toList ++ acornsFile y ≠ feat ++ '/' :: featureFileName y' s := by
  have e : db ++ "/ACORNS/".toList ++ acornsFile y = (db ++ "/ACORNS".toList) ++ '/' :: acornsFile y := by
    rw [List.append_assoc, List.append_assoc]
    rfl
  rw [e]
  exact join_ne_name (acorns_name_plain y) (feature_name_plain y' s) fun h => names_ne y' s y h.symm

theorem feature_path_inj {feat : Str} {y s y' s' : ℕ}
    (h : feat ++ '/' :: featureFileName y s = feat ++ '/' :: featureFileName y' s') : y = y' ∧ s = s' :=
  C101_names _ _ _ _ (List.cons.inj (List.append_cancel_left h)).2

/-! ### The loops -/

theorem save_cases {feat : Str} (hf : Plain feat) (fs : FS (Content R B M)) (y s : ℕ) (rows : List R) :
    fs.save (pathJoin feat (featureFileName y s)) (.features rows) =
      if fs.isDir feat then (fs.write (feat ++ '/' :: featureFileName y s) (.features rows), .ok ())
      else (fs, .error .ioError) := by
  unfold FS.save
  rw [feature_path hf, dirname_join hf (feature_name_plain y s)]

theorem buildSpeakers_spec (wav2hac : B → Str → Py R) (b : B) {feat : Str} (hf : Plain feat) (y : ℕ) (d : Corpus.DB)
    (l : List (List (Sound.Rec Str))) : ∀ (s : ℕ) (fs : FS (Content R B M)),
    (buildSpeakers wav2hac b feat y d s l fs).1.isDir = fs.isDir ∧
    (∀ p, (∀ i, p ≠ feat ++ '/' :: featureFileName y (s + i)) →
      (buildSpeakers wav2hac b feat y d s l fs).1.file p = fs.file p) ∧
    ((buildSpeakers wav2hac b feat y d s l fs).2 = .ok () → ∀ i recs, l[i]? = some recs →
      ∃ rows, (buildSpeakers wav2hac b feat y d s l fs).1.file (feat ++ '/' :: featureFileName y (s + i)) =
        some (.features rows) ∧ List.Forall₂ (fun r x => recordFeatures wav2hac b d r = .ok x) recs rows) := by
  induction l with
  | nil =>
    intro s fs
    exact ⟨rfl, fun _ _ => rfl, fun _ i recs h => by simp at h⟩
  | cons recs l ih =>
    intro s fs
    unfold buildSpeakers
    rcases hm : recs.mapM (recordFeatures wav2hac b d) with e | rows
    · exact ⟨rfl, fun _ _ => rfl, fun h => by cases h⟩
    · simp only [withVal]
      by_cases hr : rows.isEmpty = true
      · rw [if_pos hr]
        exact ⟨rfl, fun _ _ => rfl, fun h => by cases h⟩
      · rw [if_neg hr, save_cases hf]
        by_cases hd : fs.isDir feat = true
        · rw [if_pos hd]
          simp only [andThen]
          obtain ⟨a1, a2, a3⟩ := ih (s + 1) (fs.write (feat ++ '/' :: featureFileName y s) (.features rows))
          refine ⟨a1, ?_, ?_⟩
          · intro p hp
            rw [a2 p fun i => by
              have := hp (1 + i)
              rwa [← Nat.add_assoc] at this, write_other _ _ _ _ (show p ≠ feat ++ '/' :: featureFileName y s from hp 0)]
          · intro hok i recs' hi
            rcases i with _ | i
            · obtain rfl : recs = recs' := by simpa using hi
              refine ⟨rows, ?_, Objects.mapM_py_ok.1 hm⟩
              rw [a2 _ fun i e => by
                have := (feature_path_inj e).2
                omega]
              exact write_same _ _ _
            · obtain ⟨rows', r1, r2⟩ := a3 hok i recs' (by simpa using hi)
              refine ⟨rows', ?_, r2⟩
              rw [show s + (i + 1) = s + 1 + i by omega]
              exact r1
        · rw [if_neg hd]
          exact ⟨rfl, fun _ _ => rfl, fun h => by cases h⟩

theorem buildSpeakers_ok_iff (wav2hac : B → Str → Py R) (b : B) {feat : Str} (hf : Plain feat) (y : ℕ) (d : Corpus.DB)
    (l : List (List (Sound.Rec Str))) : ∀ (s : ℕ) (fs : FS (Content R B M)), fs.isDir feat = true →
    ((buildSpeakers wav2hac b feat y d s l fs).2 = .ok () ↔
      ∀ recs ∈ l, recs ≠ [] ∧ ∀ r ∈ recs, Good wav2hac b d r) := by
  induction l with
  | nil =>
    intro s fs _
    exact ⟨fun _ recs h => absurd h List.not_mem_nil, fun _ => rfl⟩
  | cons recs l ih =>
    intro s fs hd
    have hgood : (∃ rows, recs.mapM (recordFeatures wav2hac b d) = .ok rows) ↔ ∀ r ∈ recs, Good wav2hac b d r := by
      constructor
      · rintro ⟨rows, h⟩ r hr
        have := Objects.mapM_py_ok.1 h
        obtain ⟨i, hi, e⟩ := List.mem_iff_getElem.1 hr
        subst e
        exact (recordFeatures_good wav2hac b d _).1
          ⟨_, (List.forall₂_iff_get.1 this).2 i hi (this.length_eq ▸ hi)⟩
      · intro h
        exact mapM_exists _ _ fun r hr => (recordFeatures_good wav2hac b d r).2 (h r hr)
    rw [List.forall_mem_cons]
    unfold buildSpeakers
    rcases hm : recs.mapM (recordFeatures wav2hac b d) with e | rows
    · simp only [withVal]
      constructor
      · intro h; cases h
      · intro h
        obtain ⟨rows, hr⟩ := hgood.2 h.1.2
        rw [hm] at hr; cases hr
    · simp only [withVal]
      have hlen := (Objects.mapM_py_ok.1 hm).length_eq
      by_cases hr : rows.isEmpty = true
      · rw [if_pos hr]
        constructor
        · intro h; cases h
        · intro h
          rw [List.isEmpty_iff] at hr
          rw [hr, List.length_nil, List.length_eq_zero_iff] at hlen
          exact absurd hlen h.1.1
      · rw [if_neg hr, save_cases hf, if_pos hd]
        simp only [andThen]
        rw [ih (s + 1) _ (by exact hd)]
        constructor
        · intro h
          refine ⟨⟨?_, hgood.1 ⟨rows, hm⟩⟩, h⟩
          rintro rfl
          rw [List.length_nil] at hlen
          exact hr (List.isEmpty_iff.2 (List.length_eq_zero_iff.1 hlen.symm))
        · exact fun h => h.2

/-- **C169**: a speaker without records stops the script with `ValueError` after the files of the speakers
before have been written. -/
theorem C169_empty (wav2hac : B → Str → Py R) (b : B) {feat : Str} (hf : Plain feat) (y : ℕ) (d : Corpus.DB)
    (l l' : List (List (Sound.Rec Str))) (s : ℕ) (fs : FS (Content R B M)) (hd : fs.isDir feat = true)
    (h : ∀ recs ∈ l, recs ≠ [] ∧ ∀ r ∈ recs, Good wav2hac b d r) :
    ∃ fs', buildSpeakers wav2hac b feat y d s (l ++ [] :: l') fs = (fs', .error .valueError) ∧
      buildSpeakers wav2hac b feat y d s l fs = (fs', .ok ()) := by
  induction l generalizing s fs with
  | nil => exact ⟨fs, rfl, rfl⟩
  | cons recs l ih =>
    rw [List.forall_mem_cons] at h
    obtain ⟨rows, hm⟩ := mapM_exists (recordFeatures wav2hac b d) recs fun r hr =>
      (recordFeatures_good wav2hac b d r).2 (h.1.2 r hr)
    have hne : ¬ rows.isEmpty = true := by
      intro hr
      rw [List.isEmpty_iff] at hr
      have hlen := (Objects.mapM_py_ok.1 hm).length_eq
      rw [hr, List.length_nil, List.length_eq_zero_iff] at hlen
      exact h.1.1 hlen
    rw [List.cons_append]
    unfold buildSpeakers
    rw [hm]
    simp only [withVal]
    rw [if_neg hne, if_neg hne, save_cases hf, if_pos hd]
    simp only [andThen]
    exact ih (s + 1) (fs.write _ _) (by exact hd) h.2

/-! ### Loading -/

theorem acornsLoad_congr {cfg : Dict Str Str} {db feat : Str} (h : Cfg cfg db feat) (fs fs' : FS (Content R B M))
    (y : ℕ) (bl : Bool)
    (hf : fs'.file (db ++ "/ACORNS/".toList ++ acornsFile y) = fs.file (db ++ "/ACORNS/".toList ++ acornsFile y)) :
    acornsLoad cfg fs' (y : ℤ) none bl = acornsLoad cfg fs (y : ℤ) none bl := by
  unfold acornsLoad acornsDbPath
  rw [Int.toNat_natCast, acorns_path h]
  simp only [bind, Except.bind]
  unfold loadSound
  rw [hf]

/-- A database loaded with the blacklist is the one loaded without, less the records of the list. -/
theorem acornsLoad_true {cfg : Dict Str Str} {fs : FS (Content R B M)} {y : ℤ} {f : Option Str} {bl : Bool}
    {d : Corpus.DB} (h : acornsLoad cfg fs y f bl = .ok d) :
    ∃ d0, acornsLoad cfg fs y f false = .ok d0 ∧ d0.spkrs = d.spkrs ∧ d0.tags = d.tags ∧ d0.root = d.root ∧
      (bl = false → d = d0) ∧ (bl = true → popRecords d0.records (blacklist y) = .ok d.records) := by
  unfold acornsLoad at h ⊢
  simp only [bind, Except.bind] at h ⊢
  rcases hy : checkYear y with e | u
  · rw [hy] at h; cases h
  rw [hy] at h
  simp only [] at h ⊢
  rcases hp : acornsDbPath cfg y f with e | p
  · rw [hp] at h; cases h
  · rw [hp] at h
    simp only [] at h ⊢
    split at h
    · cases h
    · rename_i d0 hd0
      cases bl with
      | false =>
        obtain rfl := Except.ok.inj h
        exact ⟨_, rfl, rfl, rfl, rfl, fun _ => rfl, fun h => by cases h⟩
      | true =>
        rw [if_pos rfl] at h
        split at h
        · cases h
        · rename_i r hr
          obtain rfl := Except.ok.inj h
          exact ⟨_, rfl, rfl, rfl, rfl, fun h => (by cases h), fun _ => hr⟩

/-- **C169**: `load` with the blacklist gives the same database without record 176 of the second speaker of
year 1; it raises `IndexError` when this record does not exist. -/
theorem C169_blacklist {cfg : Dict Str Str} {fs : FS (Content R B M)} {y : ℤ} {f : Option Str} {d0 : Corpus.DB}
    (h : acornsLoad cfg fs y f false = .ok d0) :
    acornsLoad cfg fs y f true =
      if y = 1 then
        match d0.records with
        | a :: b :: l => if 176 < b.length then .ok { d0 with records := a :: b.eraseIdx 176 :: l } else .error .indexError
        | _ => .ok d0
      else .ok d0 := by
  unfold acornsLoad at h ⊢
  simp only [bind, Except.bind] at h ⊢
  rcases hy : checkYear y with e | u
  · rw [hy] at h; cases h
  rw [hy] at h
  simp only [] at h ⊢
  rcases hp : acornsDbPath cfg y f with e | p
  · rw [hp] at h; cases h
  · rw [hp] at h
    simp only [] at h ⊢
    split at h
    · cases h
    · rename_i d hd
      obtain rfl : d = d0 := Except.ok.inj h
      simp only [if_true]
      have hall : ∀ (l : List (List (Sound.Rec Str))) (n : ℕ),
          popRecords l (List.replicate n []) = .ok l := by
        intro l
        induction l with
        | nil => intro n; cases n <;> rfl
        | cons a l ih =>
          intro n
          cases n with
          | zero => rfl
          | succ n =>
            rw [List.replicate_succ]
            unfold popRecords
            rw [show popAll a [] = .ok a from rfl]
            simp only [bind, Except.bind]
            rw [ih n]
            rfl
      unfold blacklist
      by_cases h1 : y = 1
      · rw [if_pos h1, if_pos h1]
        obtain ⟨sp, tg, rt, rc⟩ : ∃ a b c e, d = d ∧ a = d.spkrs ∧ b = d.tags ∧ c = d.root ∧ e = d.records :=
          ⟨_, _, _, _, rfl, rfl, rfl, rfl, rfl⟩
        rcases hrec : d.records with _ | ⟨a, _ | ⟨b, l⟩⟩
        · simp only [popRecords, pure, Except.pure]
          rw [← hrec]
        · simp only [popRecords, blacklistY1, popAll, bind, Except.bind, pure, Except.pure]
          rw [← hrec]
        · have e1 : popRecords (a :: b :: l) blacklistY1 =
              if 176 < b.length then .ok (a :: b.eraseIdx 176 :: l) else .error .indexError := by
            have := hall l 2
            simp only [List.replicate] at this
            by_cases hb : 176 < b.length
            · rw [if_pos hb]
              simp only [popRecords, blacklistY1, popAll, bind, Except.bind, pure, Except.pure, if_pos hb, this]
            · rw [if_neg hb]
              simp only [popRecords, blacklistY1, popAll, bind, Except.bind, pure, Except.pure, if_neg hb]
          rw [e1]
          by_cases hb : 176 < b.length
          · simp only [if_pos hb, pure, Except.pure]
          · simp only [if_neg hb]
      · rw [if_neg h1, if_neg h1]
        unfold blacklistY2
        rw [hall]
        rfl

/-! ### Features -/

theorem pyGet_get? {α : Type} {l : List α} {i : ℕ} {a : α} (h : l[i]? = some a) : pyGet l (i : ℤ) = .ok a := by
  obtain ⟨hi, e⟩ := List.getElem?_eq_some_iff.1 h
  rw [pyGet_nat l i hi, e]

theorem takeRows_ok {P : Sound.Rec Str → R → Prop} {r0 : List (Sound.Rec Str)} {rows : List R}
    (h : List.Forall₂ P r0 rows) {idx : List ℕ} {recs : List (Sound.Rec Str)}
    (hi : List.Forall₂ (fun i a => r0[i]? = some a) idx recs) :
    ∃ X, takeRows rows idx = .ok X ∧ List.Forall₂ P recs X := by
  induction hi with
  | nil => exact ⟨[], rfl, .nil⟩
  | @cons i a idx recs h1 _ ih =>
    obtain ⟨X, h2, h3⟩ := ih
    obtain ⟨hlt, e⟩ := List.getElem?_eq_some_iff.1 h1
    have hlt' : i < rows.length := h.length_eq ▸ hlt
    have hP : P a rows[i] := by
      have := (List.forall₂_iff_get.1 h).2 i hlt hlt'
      rw [← e]
      exact this
    refine ⟨rows[i] :: X, ?_, .cons hP h3⟩
    unfold takeRows at h2 ⊢
    rw [List.mapM_cons, h2]
    rw [pyGet_get? (List.getElem?_eq_getElem hlt')]
    rfl

/-- **C169**: when the script `build_acorns_features` ends, the features read for a speaker of a year have
one line by record of the database read with the same blacklist, in the same order, made from the sound of
this record; only the files of features have changed. -/
theorem C169_features (wav2hac : B → Str → Py R) {cfg : Dict Str Str} {db feat : Str} (h : Cfg cfg db feat)
    (fs fs' : FS (Content R B M)) (hok : buildAcornsFeatures wav2hac cfg fs = (fs', .ok ())) :
    fs'.isDir = fs.isDir ∧
    (∀ p, (∀ y s, p ≠ feat ++ '/' :: featureFileName y s) → fs'.file p = fs.file p) ∧
    ∃ b, fs.file (feat ++ "/vctk_codebook.mat".toList) = some (.codebooks b) ∧
    ∀ (y s : ℕ) (bl : Bool) (d : Corpus.DB) (recs : List (Sound.Rec Str)), s < (if y = 1 then 4 else 10) →
      acornsLoad cfg fs' (y : ℤ) none bl = .ok d → d.records[s]? = some recs →
      ∃ X, acornsFeatures cfg fs' (y : ℤ) (s : ℤ) bl = .ok X ∧
        List.Forall₂ (fun r x => ∃ p, IsAudio d r p ∧ wav2hac b p = .ok x) recs X ∧
        acornsFeaturesAndLabels cfg fs' (y : ℤ) (s : ℤ) bl none = .ok (X, recs.map Sound.Rec.tags, d.tags) := by
  have hcode : pathJoin feat "vctk_codebook.mat".toList = feat ++ "/vctk_codebook.mat".toList :=
    pathJoin_plain h.featPlain (n := "vctk_codebook.mat".toList) (by decide)
  unfold buildAcornsFeatures at hok
  rw [h.getFeat] at hok
  simp only [withVal] at hok
  rw [hcode] at hok
  rcases hb : loadCodebooks fs (feat ++ "/vctk_codebook.mat".toList) with e | b
  · rw [hb] at hok
    have := congrArg Prod.snd hok
    cases this
  rw [hb] at hok
  simp only [buildYears] at hok
  rcases hd1 : acornsLoad cfg fs ((1 : ℕ) : ℤ) none false with e | d1
  · rw [hd1] at hok
    simp only [withVal] at hok
    cases congrArg Prod.snd hok
  rw [hd1] at hok
  simp only [withVal] at hok
  obtain ⟨a1, a2, a3⟩ := buildSpeakers_spec wav2hac b h.featPlain 1 d1 d1.records 0 fs
  rcases hr1 : buildSpeakers wav2hac b feat 1 d1 0 d1.records fs with ⟨fs1, e | u⟩
  · rw [hr1] at hok
    simp only [andThen] at hok
    cases congrArg Prod.snd hok
  rw [hr1] at hok a1 a2 a3
  simp only [andThen] at hok a1 a2 a3
  rcases hd2 : acornsLoad cfg fs1 ((2 : ℕ) : ℤ) none false with e | d2
  · rw [hd2] at hok
    simp only [] at hok
    cases congrArg Prod.snd hok
  rw [hd2] at hok
  simp only [] at hok
  obtain ⟨b1, b2, b3⟩ := buildSpeakers_spec wav2hac b h.featPlain 2 d2 d2.records 0 fs1
  rcases hr2 : buildSpeakers wav2hac b feat 2 d2 0 d2.records fs1 with ⟨fs2, e | u⟩
  · rw [hr2] at hok
    simp only [] at hok
    cases congrArg Prod.snd hok
  rw [hr2] at hok b1 b2 b3
  simp only [] at hok b1 b2 b3
  obtain rfl : fs2 = fs' := congrArg Prod.fst hok
  have hother : ∀ p, (∀ y s, p ≠ feat ++ '/' :: featureFileName y s) → fs2.file p = fs.file p := fun p hp =>
    (b2 p fun i => hp 2 _).trans (a2 p fun i => hp 1 _)
  refine ⟨b1.trans a1, hother, b, ?_, ?_⟩
  · unfold loadCodebooks at hb
    split at hb
    · rename_i c hc
      rw [hc, Except.ok.inj hb]
    all_goals cases hb
  · intro y s bl d recs hs hl hrec
    have hy : y = 1 ∨ y = 2 := by
      unfold acornsLoad checkYear at hl
      by_cases hy : (y : ℤ) = 1 ∨ (y : ℤ) = 2
      · omega
      · rw [if_neg hy] at hl
        cases hl
    obtain ⟨d0, g1, g2, g3, g4, g5, g6⟩ := acornsLoad_true hl
    rw [acornsLoad_congr h fs fs2 y false (hother _ (acorns_ne_feature db feat y))] at g1
    -- the features of the speaker in the file
    have hfile : ∀ i r0, d0.records[i]? = some r0 → ∃ rows,
        fs2.file (feat ++ '/' :: featureFileName y i) = some (.features rows) ∧
        List.Forall₂ (fun r x => recordFeatures wav2hac b d0 r = .ok x) r0 rows := by
      intro i r0 hi
      rcases hy with rfl | rfl
      · rw [hd1] at g1
        obtain rfl := Except.ok.inj g1
        obtain ⟨rows, e1, e2⟩ := a3 trivial i r0 hi
        refine ⟨rows, ?_, e2⟩
        rw [Nat.zero_add] at e1
        rw [b2 _ fun j e => by
          have := (feature_path_inj e).1
          omega]
        exact e1
      · rw [← acornsLoad_congr h fs fs1 2 false (a2 _ fun i => acorns_ne_feature db feat 2 1 _), hd2] at g1
        obtain rfl := Except.ok.inj g1
        obtain ⟨rows, e1, e2⟩ := b3 trivial i r0 hi
        rw [Nat.zero_add] at e1
        exact ⟨rows, e1, e2⟩
    have hbl : ∃ bb, (blacklist (y : ℤ))[s]? = some bb := by
      have : s < (blacklist (y : ℤ)).length := by
        rcases hy with rfl | rfl
        · simpa [blacklist, blacklistY1] using hs
        · simpa [blacklist, blacklistY2] using hs
      exact ⟨_, List.getElem?_eq_getElem this⟩
    obtain ⟨bb, hbb⟩ := hbl
    have hspk : checkSpeaker (y : ℤ) (s : ℤ) = .ok () := by
      unfold checkSpeaker nSpeakers
      rw [if_neg]
      rcases hy with rfl | rfl
      · simp at hs ⊢; omega
      · simp at hs ⊢; omega
    have hyear : checkYear (y : ℤ) = .ok () := by
      unfold checkYear
      rw [if_pos (by omega)]
    have hfeat : ∃ X, acornsFeatures cfg fs2 (y : ℤ) (s : ℤ) bl = .ok X ∧
        List.Forall₂ (fun r x => recordFeatures wav2hac b d0 r = .ok x) recs X := by
      have hpath : ∀ rows, fs2.file (feat ++ '/' :: featureFileName y s) = some (.features rows) →
          loadRows fs2 (pathJoin feat (featureFileName y s)) = .ok rows := by
        intro rows hrows
        unfold loadRows
        rw [feature_path h.featPlain, hrows]
      unfold acornsFeatures
      rw [hyear, hspk, h.getFeat, Int.toNat_natCast, Int.toNat_natCast]
      simp only [bind, Except.bind]
      cases bl with
      | false =>
        obtain rfl := g5 rfl
        obtain ⟨rows, e1, e2⟩ := hfile s recs hrec
        rw [hpath rows e1]
        exact ⟨rows, rfl, e2⟩
      | true =>
        obtain ⟨r0, q1, q2⟩ := popRecords_get s _ _ _ bb recs (g6 rfl) hbb hrec
        obtain ⟨rows, e1, e2⟩ := hfile s r0 q1
        obtain ⟨idx, q3, q4⟩ := (popAll_idx r0 recs bb).1 q2
        rw [hpath rows e1]
        simp only [if_true]
        rw [pyGet_get? hbb]
        simp only []
        rw [← e2.length_eq, q3]
        exact takeRows_ok e2 q4
    obtain ⟨X, x1, x2⟩ := hfeat
    refine ⟨X, x1, ?_, ?_⟩
    · refine x2.imp fun r x hx => ?_
      obtain ⟨_, p, ⟨root, sp, a, p1, p2, p3, p4⟩, hp⟩ := recordFeatures_ok hx
      exact ⟨p, ⟨root, sp, a, g4 ▸ p1, g2 ▸ p2, p3, p4⟩, hp⟩
    · unfold acornsFeaturesAndLabels
      rw [hl]
      simp only [bind, Except.bind]
      rw [pyGet_get? hrec, x1]
      simp only []
      rw [if_pos (by rw [List.length_map]; exact x2.length_eq.symm)]
      rfl

/-- **C169**: the script ends exactly when the codebooks and both databases can be read, every speaker has a
record and the features of every record can be computed. -/
theorem C169_success (wav2hac : B → Str → Py R) {cfg : Dict Str Str} {db feat : Str} (h : Cfg cfg db feat)
    (fs : FS (Content R B M)) (hd : fs.isDir feat = true) :
    (buildAcornsFeatures wav2hac cfg fs).2 = .ok () ↔
      ∃ b, fs.file (feat ++ "/vctk_codebook.mat".toList) = some (.codebooks b) ∧
      ∃ d1 d2, acornsLoad cfg fs 1 none false = .ok d1 ∧ acornsLoad cfg fs 2 none false = .ok d2 ∧
        (∀ recs ∈ d1.records, recs ≠ [] ∧ ∀ r ∈ recs, Good wav2hac b d1 r) ∧
        ∀ recs ∈ d2.records, recs ≠ [] ∧ ∀ r ∈ recs, Good wav2hac b d2 r := by
  have hcode : pathJoin feat "vctk_codebook.mat".toList = feat ++ "/vctk_codebook.mat".toList :=
    pathJoin_plain h.featPlain (n := "vctk_codebook.mat".toList) (by decide)
  have hl : ∀ b, loadCodebooks fs (feat ++ "/vctk_codebook.mat".toList) = .ok b ↔
      fs.file (feat ++ "/vctk_codebook.mat".toList) = some (.codebooks b) := by
    intro b
    unfold loadCodebooks
    split
    · rename_i c hc
      rw [hc]
      simp
    all_goals simp_all
  unfold buildAcornsFeatures
  rw [h.getFeat]
  simp only [withVal]
  rw [hcode]
  rcases hb : loadCodebooks fs (feat ++ "/vctk_codebook.mat".toList) with e | b
  · simp only []
    constructor
    · intro h; cases h
    · rintro ⟨b, h1, _⟩
      rw [(hl b).2 h1] at hb
      cases hb
  simp only [buildYears]
  have hb' := (hl b).1 hb
  rcases hd1 : acornsLoad cfg fs ((1 : ℕ) : ℤ) none false with e | d1
  · simp only [withVal]
    constructor
    · intro h; cases h
    · rintro ⟨_, _, d1, d2, h1, _⟩
      cases h1
  simp only [withVal]
  obtain ⟨a1, a2, a3⟩ := buildSpeakers_spec wav2hac b h.featPlain 1 d1 d1.records 0 fs
  have a4 := buildSpeakers_ok_iff wav2hac b h.featPlain 1 d1 d1.records 0 fs hd
  have hd1' : acornsLoad cfg fs 1 none false = .ok d1 := hd1
  rcases hr1 : buildSpeakers wav2hac b feat 1 d1 0 d1.records fs with ⟨fs1, e | u⟩
  · simp only [andThen]
    rw [hr1] at a4
    constructor
    · intro h; cases h
    · rintro ⟨b', h0, d1', d2, h1, _, h2, _⟩
      obtain rfl := Except.ok.inj h1
      rw [hb'] at h0
      obtain rfl : b = b' := by simpa using h0
      have := a4.2 h2
      cases this
  rw [hr1] at a1 a2 a4
  simp only [andThen] at a1 a2 a4 ⊢
  have hcongr := acornsLoad_congr h fs fs1 2 false (a2 _ fun i => acorns_ne_feature db feat 2 1 _)
  rw [hcongr]
  rcases hd2 : acornsLoad cfg fs ((2 : ℕ) : ℤ) none false with e | d2
  · simp only []
    constructor
    · intro h; cases h
    · rintro ⟨_, _, d1, d2, _, h1, _⟩
      cases h1
  simp only []
  have hd2' : acornsLoad cfg fs 2 none false = .ok d2 := hd2
  have b4 := buildSpeakers_ok_iff wav2hac b h.featPlain 2 d2 d2.records 0 fs1 (by rw [a1]; exact hd)
  rcases hr2 : buildSpeakers wav2hac b feat 2 d2 0 d2.records fs1 with ⟨fs2, e | u⟩
  · rw [hr2] at b4
    simp only []
    constructor
    · intro h; cases h
    · rintro ⟨b', h0, d1', d2', _, h1, _, h2⟩
      obtain rfl := Except.ok.inj h1
      rw [hb'] at h0
      obtain rfl : b = b' := by simpa using h0
      have := b4.2 h2
      cases this
  · rw [hr2] at b4
    exact ⟨fun _ => ⟨b, hb', d1, d2, rfl, rfl, a4.1 trivial, b4.1 rfl⟩, fun _ => rfl⟩

/-- **C169**: a negative speaker, or a speaker after the one past the last, is refused by `TypeError` (the code
raises a tuple); the one past the last is accepted. -/
theorem C169_speaker {cfg : Dict Str Str} {db feat : Str} (h : Cfg cfg db feat) (fs : FS (Content R B M)) (y : ℕ)
    (hy : y = 1 ∨ y = 2) (s : ℤ) (bl : Bool) :
    ((s < 0 ∨ (if y = 1 then 4 else 10) < s) → acornsFeatures cfg fs (y : ℤ) s bl = .error .typeError) ∧
    (s = (if y = 1 then 4 else 10) → ∀ X, fs.file (feat ++ '/' :: featureFileName y s.toNat) = some (.features X) →
      acornsFeatures cfg fs (y : ℤ) s bl = if bl then .error .indexError else .ok X) := by
  have hyear : checkYear (y : ℤ) = .ok () := by
    unfold checkYear
    rw [if_pos (by omega)]
  unfold acornsFeatures
  rw [hyear]
  constructor
  · intro hs
    have : checkSpeaker (y : ℤ) s = .error .typeError := by
      unfold checkSpeaker nSpeakers
      rw [if_pos]
      rcases hy with rfl | rfl <;> simpa using hs
    rw [this]
    rfl
  · intro hs X hX
    have : checkSpeaker (y : ℤ) s = .ok () := by
      unfold checkSpeaker nSpeakers
      rw [if_neg]
      rcases hy with rfl | rfl <;> simp at hs ⊢ <;> omega
    rw [this, h.getFeat, Int.toNat_natCast]
    simp only [bind, Except.bind]
    have hl : loadRows fs (pathJoin feat (featureFileName y s.toNat)) = .ok X := by
      unfold loadRows
      rw [feature_path h.featPlain, hX]
    rw [hl]
    cases bl with
    | false => rfl
    | true =>
      simp only [if_true]
      have : pyGet (blacklist (y : ℤ)) s = .error .indexError := by
        rcases hy with rfl | rfl
        · simp at hs
          subst hs
          decide
        · simp at hs
          subst hs
          decide
      rw [this]

/-! ### Codebooks -/

theorem audioPath_ok (d : Corpus.DB) (r : Sound.Rec Str) (p : Str) :
    audioPath acornsWav d r = .ok p ↔ IsAudio d r p := by
  unfold audioPath IsAudio
  simp only [bind, Except.bind]
  rcases hs : pyGet d.spkrs r.spkr with e | sp
  · simp
  rcases hr : d.root with _ | root
  · simp
  rcases ha : r.audio with _ | a
  · simp
  simp only [pure, Except.pure, Except.ok.injEq, Option.some.injEq]
  constructor
  · rintro rfl
    exact ⟨_, _, _, rfl, rfl, rfl, rfl⟩
  · rintro ⟨_, _, _, rfl, rfl, rfl, rfl⟩
    rfl

/-- **C169**: the codebooks of ACORNS are made from the sounds of all records of year 1, then of year 2, in the
order of the databases. -/
theorem C169_codebook (cfg : Dict Str Str) (fs : FS (Content R B M)) (l : List Str) :
    acornsCodebookFiles cfg fs = .ok l ↔ ∃ d1 d2 l1 l2, acornsLoad cfg fs 1 none false = .ok d1 ∧
      acornsLoad cfg fs 2 none false = .ok d2 ∧ List.Forall₂ (IsAudio d1) d1.records.flatten l1 ∧
      List.Forall₂ (IsAudio d2) d2.records.flatten l2 ∧ l = l1 ++ l2 := by
  have hm : ∀ d l l', List.mapM (audioPath acornsWav d) l = .ok l' ↔ List.Forall₂ (IsAudio d) l l' := by
    intro d l l'
    rw [Objects.mapM_py_ok]
    simp only [audioPath_ok]
  unfold acornsCodebookFiles
  simp only [bind, Except.bind]
  constructor
  · intro h
    split at h
    · cases h
    rename_i d1 h1
    split at h
    · cases h
    rename_i d2 h2
    split at h
    · cases h
    rename_i l1 h3
    split at h
    · cases h
    rename_i l2 h4
    exact ⟨d1, d2, l1, l2, h1, h2, (hm _ _ _).1 h3, (hm _ _ _).1 h4, (Except.ok.inj h).symm⟩
  · rintro ⟨d1, d2, l1, l2, h1, h2, h3, h4, rfl⟩
    rw [h1]
    simp only []
    rw [h2]
    simp only []
    rw [(hm _ _ _).2 h3]
    simp only []
    rw [(hm _ _ _).2 h4]
    rfl

/-! ### Examples -/

/-- A description with one speaker and two records. -/
def exDoc : Sound.Doc Str Info :=
  ⟨some "/acorns".toList, ["dog".toList, "cat".toList], [⟨"S1".toList, none,
    [⟨some "a.wav".toList, ["cat".toList], none, none⟩, ⟨some "b.wav".toList, ["dog".toList], none, none⟩]⟩]⟩

/-- Files with the description of both years and codebooks. -/
def exAcorns : FS (Content ℕ ℕ ℕ) :=
  ((exFS.write "/home/me/work/data/db/ACORNS/Acorns_Y1.json".toList (.sound exDoc)).write
    "/home/me/work/data/db/ACORNS/Acorns_Y2.json".toList (.sound exDoc)).write
    "/home/me/work/data/features/vctk_codebook.mat".toList (.codebooks 7)

/-- Features which depend on the codebooks and on the path. -/
def exHac (b : ℕ) (p : Str) : Py ℕ := if p.length < 15 then .error .ioError else .ok (b + (p.getD 15 'x').toNat)

/-- The database read from the description. -/
def exDB : Corpus.DB :=
  ⟨0, [[⟨0, 0, some "a.wav".toList, [1], none, none⟩, ⟨0, 0, some "b.wav".toList, [0], none, none⟩]],
    ["dog".toList, "cat".toList], [("dog".toList, 0), ("cat".toList, 1)], some "/acorns".toList, ["S1".toList], [none]⟩

theorem exDB_load : (Sound.DB.new 0).loadFrom exDoc true = .ok exDB := by
  have h1 : (Sound.DB.new 0).loadFrom exDoc false = .ok exDB := by decide +kernel
  have h2 : exDB.sort = .ok exDB := by
    unfold Sound.DB.sort
    have : Sound.sortRecords [⟨0, 0, some "a.wav".toList, [1], none, none⟩, ⟨0, 0, some "b.wav".toList, [0], none, none⟩] =
        .ok [⟨0, 0, some "a.wav".toList, [1], none, none⟩, ⟨0, 0, some "b.wav".toList, [0], none, none⟩] := by
      unfold Sound.sortRecords
      rw [if_neg (by decide +kernel), List.mergeSort_of_pairwise (by decide +kernel)]
    unfold exDB
    simp only [List.mapM_cons, List.mapM_nil, this]
    rfl
  unfold Sound.DB.loadFrom at h1 ⊢
  simp only [bind, Except.bind] at h1 ⊢
  split at h1
  · cases h1
  · split at h1
    · cases h1
    · rename_i d hd
      have : d = exDB := Except.ok.inj h1
      subst this
      simpa using h2

/-- The script ends on these files. -/
example : (buildAcornsFeatures exHac (localConfig "/home/me".toList) exAcorns).2 = .ok () := by
  have hl : ∀ y : ℤ, y = 1 ∨ y = 2 → acornsLoad (localConfig "/home/me".toList) exAcorns y none false = .ok exDB := by
    have key : ∀ y : ℤ, y = 1 ∨ y = 2 → ∃ p, checkYear y = .ok () ∧ acornsDbPath (localConfig "/home/me".toList) y none = .ok p ∧
        exAcorns.file p = some (.sound exDoc) := by
      rintro y (rfl | rfl)
      · exact ⟨"/home/me/work/data/db/ACORNS/Acorns_Y1.json".toList, rfl, by decide +kernel, rfl⟩
      · exact ⟨"/home/me/work/data/db/ACORNS/Acorns_Y2.json".toList, rfl, by decide +kernel, rfl⟩
    intro y hy
    obtain ⟨p, h1, h2, h3⟩ := key y hy
    unfold acornsLoad
    rw [h1, h2]
    simp only [bind, Except.bind]
    unfold loadSound
    rw [h3]
    simp only []
    rw [exDB_load]
    rfl
  have hg : ∀ recs ∈ exDB.records, recs ≠ [] ∧ ∀ r ∈ recs, Good exHac 7 exDB r := by
    intro recs hr
    obtain rfl := List.mem_singleton.1 hr
    refine ⟨by simp, fun r hr => ?_⟩
    rcases List.mem_cons.1 hr with rfl | hr
    · exact ⟨fun t ht => by obtain rfl := List.mem_singleton.1 ht; exact ⟨_, rfl⟩, "/acorns/WAV/S1/a.wav".toList, 104, ⟨_, _, _, rfl, rfl, rfl, by decide +kernel⟩, by decide +kernel⟩
    · obtain rfl := List.mem_singleton.1 hr
      exact ⟨fun t ht => by obtain rfl := List.mem_singleton.1 ht; exact ⟨_, rfl⟩, "/acorns/WAV/S1/b.wav".toList, 105, ⟨_, _, _, rfl, rfl, rfl, by decide +kernel⟩, by decide +kernel⟩
  exact (C169_success exHac (cfg_local _) exAcorns (by decide +kernel)).2
    ⟨7, rfl, exDB, exDB, hl 1 (.inl rfl), hl 2 (.inr rfl), hg, hg⟩

example : IsAudio ⟨0, [], [], [], some "/acorns".toList, ["S1".toList], []⟩ ⟨0, 0, some "a.wav".toList, [], none, none⟩
    "/acorns/WAV/S1/a.wav".toList :=
  ⟨_, _, _, rfl, rfl, rfl, by decide +kernel⟩

end Verif.Datasets
