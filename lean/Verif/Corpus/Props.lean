import Verif.Corpus.Lemmas

/-!
# Properties C113, C114, C115 and C116: corpora in the format of VCTK
-/

namespace Verif.Corpus

/-! ### C113, C114 -/

/-- `'p' + s` is a directory of `path`. -/
def IsSpeakerDir (fs : Files) (path s : Str) : Prop :=
  ∃ l, fs.listdir path = some l ∧ 'p' :: s ∈ l ∧ fs.isdir (pathJoin path ('p' :: s)) = true

/-- Speakers which a mode selects, among those of sound directories, text directories, and the
file of information. -/
def Selected (fs : Files) (root : Str) (info : Dict Str Info) (mode s : Str) : Prop :=
  (mode = "sound".toList ∧ IsSpeakerDir fs (pathJoin root "wav48".toList) s) ∨
  (mode = "text".toList ∧ IsSpeakerDir fs (pathJoin root "txt".toList) s) ∨
  (mode = "info".toList ∧ (dictGet? info s).isSome)

/-- A path of a file of `dir` with the extension `ext`, in any case. -/
def HasFile (fs : Files) (dir ext path : Str) : Prop :=
  ∃ l f, fs.listdir dir = some l ∧ f ∈ l ∧ path = pathJoin dir f ∧ fs.isfile path = true ∧
    (lower (extension path)).drop 1 = ext

/-- Listings of directories: distinct names which are not empty. -/
def GoodListing (l : List Str) : Prop := l.Nodup ∧ ∀ d ∈ l, d ≠ []

theorem namesOf_ok (ds : List Str) (h : ∀ d ∈ ds, d ≠ []) :
    ∃ r, namesOf ds = .ok r ∧ (ds.Nodup → r.Nodup) ∧ ∀ s, s ∈ r ↔ 'p' :: s ∈ ds := by
  induction ds with
  | nil => exact ⟨[], rfl, fun _ => List.nodup_nil, by simp⟩
  | cons d ds ih =>
    obtain ⟨r, h1, h2, h3⟩ := ih fun x hx => h x (List.mem_cons_of_mem _ hx)
    cases d with
    | nil => exact absurd rfl (h [] List.mem_cons_self)
    | cons c s =>
      unfold namesOf
      have e : pyGet (c :: s) 0 = .ok c := rfl
      rw [e, h1]
      simp only [bind, Except.bind, pure, Except.pure, List.drop_succ_cons, List.drop_zero]
      by_cases hc : c = 'p'
      · subst hc
        refine ⟨s :: r, by simp, ?_, ?_⟩
        · intro hn
          rw [List.nodup_cons] at hn ⊢
          exact ⟨fun hs => hn.1 ((h3 s).1 hs), h2 hn.2⟩
        · intro t
          rw [List.mem_cons, List.mem_cons, h3]
          simp
      · refine ⟨r, by simp [hc], fun hn => h2 (List.nodup_cons.1 hn).2, ?_⟩
        intro t
        rw [List.mem_cons, h3]
        constructor
        · exact Or.inr
        · rintro (e | e)
          · exact absurd (List.cons.inj e).1.symm hc
          · exact e

theorem speakerNames_ok (fs : Files) (path : Str) (l : List Str) (hl : fs.listdir path = some l)
    (hg : GoodListing l) :
    ∃ r, speakerNames fs path = .ok r ∧ r.Nodup ∧ ∀ s, s ∈ r ↔ IsSpeakerDir fs path s := by
  obtain ⟨r, h1, h2, h3⟩ := namesOf_ok (l.filter fun p => fs.isdir (pathJoin path p))
    (fun d hd => hg.2 d (List.mem_filter.1 hd).1)
  refine ⟨r, by unfold speakerNames; rw [hl]; exact h1, h2 (hg.1.filter _), ?_⟩
  intro s
  rw [h3, List.mem_filter]
  unfold IsSpeakerDir
  rw [hl]
  simp

theorem dictKeys_dictOf_nodup {V : Type} (l : List (Str × V)) : (dictKeys (dictOf l)).Nodup := by
  unfold dictOf
  have key : ∀ (l : List (Str × V)) (d : Dict Str V), (dictKeys d).Nodup →
      (dictKeys (l.foldl (fun d p => dictSet d p.1 p.2) d)).Nodup := by
    intro l
    induction l with
    | nil => intro d h; exact h
    | cons p l ih =>
      intro d h
      rw [List.foldl_cons]
      apply ih
      rw [dictKeys_set]
      split
      · exact h
      · rename_i hp
        rw [List.nodup_append]
        exact ⟨h, by simp, by
          intro a ha b hb
          rw [List.mem_singleton] at hb
          subst hb
          exact fun e => hp (e ▸ ha)⟩
  exact key l [] List.nodup_nil

theorem parseSpeakersInfo_nodup {ws : Char → Bool} {fs : Files} {root : Str} {info : Dict Str Info}
    (h : parseSpeakersInfo ws fs root = .ok info) : (dictKeys info).Nodup := by
  unfold parseSpeakersInfo at h
  split at h
  · exact absurd h (by simp)
  · rename_i s hs
    cases hm : (lines s).mapM (parseSpeakerInfo ws) with
    | error e => rw [hm] at h; exact absurd h (by simp [bind, Except.bind])
    | ok l =>
      rw [hm] at h
      simp only [bind, Except.bind, pure, Except.pure, Except.ok.injEq] at h
      rw [← h]
      exact dictKeys_dictOf_nodup l

theorem chooseSpeakers_ok (ws : Char → Bool) (fs : Files) (root mode : Str) (info : Dict Str Info)
    (wavs txts : List Str)
    (hinfo : parseSpeakersInfo ws fs root = .ok info)
    (hwav : fs.listdir (pathJoin root "wav48".toList) = some wavs) (hw : GoodListing wavs)
    (htxt : fs.listdir (pathJoin root "txt".toList) = some txts) (ht : GoodListing txts)
    (hmode : mode = "sound".toList ∨ mode = "text".toList ∨ mode = "info".toList) :
    ∃ l, chooseSpeakers ws fs root mode = .ok (info, l) ∧ l.Nodup ∧
      ∀ s, s ∈ l ↔ Selected fs root info mode s := by
  obtain ⟨w, w1, w2, w3⟩ := speakerNames_ok fs _ wavs hwav hw
  obtain ⟨t, t1, t2, t3⟩ := speakerNames_ok fs _ txts htxt ht
  unfold chooseSpeakers
  have w1' : speakerNames fs (pathJoin root WAV_DIR) = .ok w := w1
  have t1' : speakerNames fs (pathJoin root TXT_DIR) = .ok t := t1
  rw [hinfo, w1', t1']
  simp only [bind, Except.bind, pure, Except.pure]
  unfold Selected
  rcases hmode with rfl | rfl | rfl
  · exact ⟨w, by simp, w2, fun s => by rw [w3]; simp⟩
  · exact ⟨t, by simp, t2, fun s => by rw [t3]; simp⟩
  · exact ⟨dictKeys info, by simp, parseSpeakersInfo_nodup hinfo, fun s => by
      rw [dictGet?_isSome]; simp⟩

theorem mem_recordsList (fs : Files) (dir ext u : Str) :
    u ∈ recordsList fs dir ext ↔ ∃ path, HasFile fs dir ext path ∧ NameIn path u := by
  unfold recordsList filesIn HasFile
  cases h : fs.listdir dir with
  | none => simp
  | some l =>
    simp only [Option.map_some, List.mem_map, List.mem_filter, Bool.and_eq_true, beq_iff_eq]
    constructor
    · rintro ⟨p, ⟨⟨f, hf, rfl⟩, h1, h2⟩, h3⟩
      exact ⟨_, ⟨l, f, rfl, hf, rfl, h1, h2⟩, (nameIn_iff _ _).2 h3⟩
    · rintro ⟨p, ⟨l', f, hl, hf, rfl, h1, h2⟩, h3⟩
      rw [Option.some.injEq] at hl
      subst hl
      exact ⟨_, ⟨⟨f, hf, rfl⟩, h1, h2⟩, (nameIn_iff _ _).1 h3⟩

/-- **C113, C114.** Let the file of information be readable and the directories of sounds and
transcriptions be listed, in one of the modes `sound`, `text` and `info`, no selected speaker being
in the database already.  Then the import succeeds.  The new speakers are the selected ones, in
increasing order, after those which were there; each gets its information, or `None` if the file has
no line for it (C113).  Its records follow the increasing order of utterance names: there is one for
each name which a sound file or a text file bears, with the name of the sound file if it exists,
`None` otherwise, and with the transcription if the text file can be read, `None` otherwise (C114).
Tags and what was in the database do not change. -/
theorem C113_import (ws : Char → Bool) (fs : Files) (d : DB) (root mode : Str) (info : Dict Str Info)
    (wavs txts : List Str)
    (hinfo : parseSpeakersInfo ws fs (fs.abspath root) = .ok info)
    (hwav : fs.listdir (pathJoin (fs.abspath root) "wav48".toList) = some wavs) (hw : GoodListing wavs)
    (htxt : fs.listdir (pathJoin (fs.abspath root) "txt".toList) = some txts) (ht : GoodListing txts)
    (hmode : mode = "sound".toList ∨ mode = "text".toList ∨ mode = "info".toList)
    (hlen : d.records.length = d.spkrs.length) (hlen' : d.spkrsInfo.length = d.spkrs.length)
    (hnew : ∀ s, Selected fs (fs.abspath root) info mode s → s ∉ d.spkrs) :
    ∃ (d' : DB) (new : List Str), fromDbRoot ws fs d root mode = (d', .ok ()) ∧
      d'.root = some (fs.abspath root) ∧ d'.id = d.id ∧ d'.tags = d.tags ∧ d'.tagId = d.tagId ∧
      d'.spkrs = d.spkrs ++ new ∧ d.spkrsInfo <+: d'.spkrsInfo ∧ d.records <+: d'.records ∧
      d'.spkrsInfo.length = d'.spkrs.length ∧ d'.records.length = d'.spkrs.length ∧
      new.Pairwise (· < ·) ∧ (∀ s, s ∈ new ↔ Selected fs (fs.abspath root) info mode s) ∧
      ∀ (k : ℕ) (s : Str), new[k]? = some s →
        d'.spkrsInfo[d.spkrs.length + k]? = some (dictGet? info s) ∧
        ∃ us : List Str, us.Pairwise (· < ·) ∧
          (∀ u, u ∈ us ↔
            (∃ p, HasFile fs (pathJoin (pathJoin (fs.abspath root) "wav48".toList) ('p' :: s))
              "wav".toList p ∧ NameIn p u) ∨
            (∃ p, HasFile fs (pathJoin (pathJoin (fs.abspath root) "txt".toList) ('p' :: s))
              "txt".toList p ∧ NameIn p u)) ∧
          d'.records[d.spkrs.length + k]? =
            some (us.map (recordFor fs (fs.abspath root) d.id (d.spkrs.length + k) s)) := by
  obtain ⟨l, h1, h2, h3⟩ := chooseSpeakers_ok ws fs (fs.abspath root) mode info wavs txts hinfo hwav hw
    htxt ht hmode
  have hsel : ∀ s, s ∈ sorted l ↔ Selected fs (fs.abspath root) info mode s := fun s => by
    rw [mem_sorted, h3]
  have hadd := addSpeakers_ok fs info (root := fs.abspath root) (sorted l)
    ({ d with root := some (fs.abspath root) } : DB) rfl hlen ((sorted_perm l).nodup_iff.2 h2)
    (fun s hs => hnew s ((hsel s).1 hs))
  have hrl : ∀ (ss : List Str) (i : ℕ),
      (recordsFrom fs (fs.abspath root) d.id i ss).length = ss.length := by
    intro ss
    induction ss with
    | nil => intro i; rfl
    | cons s ss ih => intro i; simp [recordsFrom, ih]
  have hrun := (show fromDbRoot ws fs d root mode = addSpeakers fs info
      ({ d with root := some (fs.abspath root) } : DB) (sorted l) by
    unfold fromDbRoot; simp only []; rw [h1]).trans hadd
  refine ⟨_, sorted l, hrun, rfl, rfl, rfl, rfl, rfl, List.prefix_append _ _, List.prefix_append _ _,
    ?_, ?_, sorted_lt h2, hsel, ?_⟩
  · simp [hlen']
  · simp [hlen, hrl]
  · intro k s hk
    simp only []
    refine ⟨?_, namesFor fs (fs.abspath root) s, sorted_lt (List.nodup_dedup _), ?_, ?_⟩
    · rw [List.getElem?_append_right (by omega), hlen', Nat.add_sub_cancel_left, List.getElem?_map, hk]
      rfl
    · intro u
      unfold namesFor
      rw [mem_sorted, List.mem_dedup, List.mem_append, mem_recordsList, mem_recordsList]
      rfl
    · rw [List.getElem?_append_right (by omega), hlen, Nat.add_sub_cancel_left, recordsFrom_getElem?, hk]
      rfl

/-- Every file of `dir` with the extension `ext`, in any case, is named `p<s>_<u>.<ext>`, where the
name `u` of the utterance has neither underscore nor dot. -/
def Conventional (fs : Files) (dir s ext : Str) : Prop :=
  ∀ l f, fs.listdir dir = some l → f ∈ l → fs.isfile (pathJoin dir f) = true →
    (lower (extension (pathJoin dir f))).drop 1 = ext →
    ∃ u, '_' ∉ u ∧ '.' ∉ u ∧ f = 'p' :: s ++ '_' :: u ++ '.' :: ext

theorem lastComponent (dir f : Str) (hf : '/' ∉ f) :
    (splitChar '/' (pathJoin dir f)).getLastD [] = f := by
  unfold pathJoin
  have hh : ¬ f.head? = some '/' := fun e => hf (List.mem_of_mem_head? e)
  rw [if_neg hh]
  split
  · rename_i hd
    rcases hd with rfl | hd
    · rw [List.nil_append, splitChar_of_notMem hf]; rfl
    · obtain ⟨a, rfl⟩ : ∃ a, dir = a ++ ['/'] := by
        rw [List.getLast?_eq_some_iff] at hd; exact hd
      rw [List.append_assoc, List.singleton_append, splitChar_append', splitChar_of_notMem hf]
      simp
  · rw [splitChar_append', splitChar_of_notMem hf]
    simp

/-- The extension of a conventional name. -/
theorem extension_conventional (dir s u ext : Str) (hs : '/' ∉ s) (hu : '/' ∉ u) (he : '/' ∉ ext)
    (hd : '.' ∉ ext) :
    extension (pathJoin dir ('p' :: s ++ '_' :: u ++ '.' :: ext)) = '.' :: ext := by
  have hf : '/' ∉ 'p' :: s ++ '_' :: u ++ '.' :: ext := by simp [hs, hu, he]
  unfold extension
  rw [lastComponent dir _ hf]
  have e : (('p' :: s ++ '_' :: u ++ '.' :: ext).dropWhile fun c => decide (c = '.')) =
      'p' :: s ++ '_' :: u ++ '.' :: ext := by
    simp
  rw [e]
  simp only []
  rw [if_pos (by simp), splitChar_append', splitChar_of_notMem hd]
  simp

theorem nameIn_conventional (dir s u ext : Str) (hu : '_' ∉ u) (hd : '.' ∉ u) (he : '_' ∉ ext) :
    ∀ v, NameIn (pathJoin dir ('p' :: s ++ '_' :: u ++ '.' :: ext)) v ↔ v = u := by
  intro v
  have key : NameIn (pathJoin dir ('p' :: s ++ '_' :: u ++ '.' :: ext)) u := by
    refine ⟨u ++ '.' :: ext, by simp [hu, he], Or.inr ?_, hd, Or.inr ⟨ext, rfl⟩⟩
    unfold pathJoin
    split
    · exact ⟨'p' :: s, by simp⟩
    · split
      · exact ⟨dir ++ 'p' :: s, by simp⟩
      · exact ⟨dir ++ '/' :: 'p' :: s, by simp⟩
  constructor
  · intro h
    rw [nameIn_iff] at h key
    exact h.symm.trans key
  · rintro rfl; exact key

/-- **C114.** In a directory where files are named as they should, the utterances found are exactly
those for which the directory has the file `p<s>_<u>.<ext>`. -/
theorem C114_conventional (fs : Files) (dir s ext u : Str) (hc : Conventional fs dir s ext)
    (hext : ext = "wav".toList ∨ ext = "txt".toList)
    (hslash : ∀ l f, fs.listdir dir = some l → f ∈ l → '/' ∉ f) :
    (∃ p, HasFile fs dir ext p ∧ NameIn p u) ↔
      '_' ∉ u ∧ '.' ∉ u ∧ ∃ l, fs.listdir dir = some l ∧ 'p' :: s ++ '_' :: u ++ '.' :: ext ∈ l ∧
        fs.isfile (pathJoin dir ('p' :: s ++ '_' :: u ++ '.' :: ext)) = true := by
  have h1 : '_' ∉ ext := by rcases hext with rfl | rfl <;> decide
  have h2 : '.' ∉ ext := by rcases hext with rfl | rfl <;> decide
  have h3 : '/' ∉ ext := by rcases hext with rfl | rfl <;> decide
  have h4 : (lower ('.' :: ext)).drop 1 = ext := by rcases hext with rfl | rfl <;> decide
  constructor
  · rintro ⟨p, ⟨l, f, hl, hf, rfl, hi, he⟩, hn⟩
    obtain ⟨v, hv1, hv2, rfl⟩ := hc l f hl hf hi he
    obtain rfl := (nameIn_conventional dir s v ext hv1 hv2 h1 u).1 hn
    exact ⟨hv1, hv2, l, hl, hf, hi⟩
  · rintro ⟨hu1, hu2, l, hl, hf, hi⟩
    have hsl := hslash l _ hl hf
    simp only [List.cons_append, List.append_assoc, List.mem_cons, List.mem_append, not_or] at hsl
    refine ⟨_, ⟨l, _, hl, hf, rfl, hi, ?_⟩, (nameIn_conventional dir s u ext hu1 hu2 h1 u).2 rfl⟩
    rw [extension_conventional dir s u ext hsl.2.1 hsl.2.2.2.1 h3 h2]
    exact h4

/-- **C114.** If files are named as they should, regular files exist and can be read, then every
record has a sound or a transcription. -/
theorem C114_something (fs : Files) (root s u : Str) (db i : ℕ)
    (hw : Conventional fs (pathJoin (pathJoin root "wav48".toList) ('p' :: s)) s "wav".toList)
    (ht : Conventional fs (pathJoin (pathJoin root "txt".toList) ('p' :: s)) s "txt".toList)
    (hslash : ∀ dir l f, fs.listdir dir = some l → f ∈ l → '/' ∉ f)
    (hfile : ∀ p, fs.isfile p = true → fs.exist p = true ∧ fs.read p ≠ none)
    (hu : (∃ p, HasFile fs (pathJoin (pathJoin root "wav48".toList) ('p' :: s)) "wav".toList p ∧
        NameIn p u) ∨
      (∃ p, HasFile fs (pathJoin (pathJoin root "txt".toList) ('p' :: s)) "txt".toList p ∧ NameIn p u)) :
    (recordFor fs root db i s u).audio ≠ none ∨ (recordFor fs root db i s u).trans ≠ none := by
  rcases hu with hu | hu
  · left
    obtain ⟨_, _, l, _, _, hi⟩ := (C114_conventional fs _ s _ u hw (Or.inl rfl)
      (fun l f => hslash _ l f)).1 hu
    unfold recordFor
    simp only []
    rw [if_pos (by simpa using (hfile _ hi).1)]
    simp
  · right
    obtain ⟨_, _, l, _, _, hi⟩ := (C114_conventional fs _ s _ u ht (Or.inr rfl)
      (fun l f => hslash _ l f)).1 hu
    unfold recordFor
    simpa using (hfile _ hi).2

/-! ### C116 -/

/-- **C116.** In any mode other than `sound`, `text` and `info` the import fails before any speaker
is added: with `ValueError`, except in the mode `everything`, which fails with `TypeError`, if the
files can be read. -/
theorem C116_modes (ws : Char → Bool) (fs : Files) (d : DB) (root mode : Str)
    (h1 : mode ≠ "sound".toList) (h2 : mode ≠ "text".toList) (h3 : mode ≠ "info".toList) :
    ∃ e, fromDbRoot ws fs d root mode = ({ d with root := some (fs.abspath root) }, .error e) ∧
      ∀ (info : Dict Str Info) (wavs txts : List Str),
        parseSpeakersInfo ws fs (fs.abspath root) = .ok info →
        fs.listdir (pathJoin (fs.abspath root) "wav48".toList) = some wavs → GoodListing wavs →
        fs.listdir (pathJoin (fs.abspath root) "txt".toList) = some txts → GoodListing txts →
        e = if mode = "everything".toList then .typeError else .valueError := by
  have hch : ∃ e, chooseSpeakers ws fs (fs.abspath root) mode = .error e := by
    unfold chooseSpeakers
    cases parseSpeakersInfo ws fs (fs.abspath root) with
    | error e => exact ⟨e, rfl⟩
    | ok info =>
      cases speakerNames fs (pathJoin (fs.abspath root) WAV_DIR) with
      | error e => exact ⟨e, rfl⟩
      | ok w =>
        cases speakerNames fs (pathJoin (fs.abspath root) TXT_DIR) with
        | error e => exact ⟨e, rfl⟩
        | ok t =>
          simp only [bind, Except.bind]
          rw [if_neg h1, if_neg h2, if_neg h3]
          split
          · exact ⟨_, rfl⟩
          · exact ⟨_, rfl⟩
  obtain ⟨e, he⟩ := hch
  refine ⟨e, ?_, ?_⟩
  · unfold fromDbRoot
    simp only []
    rw [he]
  · intro info wavs txts hinfo hwav hw htxt ht
    obtain ⟨w, w1, -⟩ := speakerNames_ok fs _ wavs hwav hw
    obtain ⟨t, t1, -⟩ := speakerNames_ok fs _ txts htxt ht
    unfold chooseSpeakers at he
    have w1' : speakerNames fs (pathJoin (fs.abspath root) WAV_DIR) = .ok w := w1
    have t1' : speakerNames fs (pathJoin (fs.abspath root) TXT_DIR) = .ok t := t1
    rw [hinfo, w1', t1'] at he
    simp only [bind, Except.bind] at he
    rw [if_neg h1, if_neg h2, if_neg h3] at he
    split at he
    · rename_i hm; rw [if_pos hm]; exact (Except.error.inj he).symm
    · rename_i hm; rw [if_neg hm]; exact (Except.error.inj he).symm

theorem addSpeakers_step (fs : Files) (info : Dict Str Info) {root : Str} (s : Str) (ss : List Str) (d : DB)
    (hr : d.root = some root) (hl : d.records.length = d.spkrs.length) (hs : s ∉ d.spkrs) :
    addSpeakers fs info d (s :: ss) = addSpeakers fs info { d with
      records := d.records ++ [(namesFor fs root s).map (recordFor fs root d.id d.spkrs.length s)]
      spkrs := d.spkrs ++ [s]
      spkrsInfo := d.spkrsInfo ++ [dictGet? info s] } ss := by
  have h := addSpeakers_ok fs info (root := root) [s] d hr hl (by simp) (by simpa using hs)
  conv_lhs => unfold addSpeakers
  conv at h => lhs; unfold addSpeakers
  revert h
  cases d.addSpeaker s (dictGet? info s) with
  | error e => intro h; exact absurd (Prod.mk.inj h).2 (by simp)
  | ok p =>
    obtain ⟨d1, spkr⟩ := p
    simp only []
    cases utterances fs d1 (spkr : ℤ) with
    | error e => intro h; exact absurd (Prod.mk.inj h).2 (by simp)
    | ok us =>
      simp only []
      rcases addRecords fs (spkr : ℤ) d1 us with ⟨d2, e | u⟩
      · intro h; exact absurd (Prod.mk.inj h).2 (by simp)
      · intro h
        simp only [addSpeakers, Prod.mk.injEq, and_true] at h ⊢
        rw [h]
        rfl

/-- **C116.** If a selected speaker is already in the database, the import fails with `ValueError`;
what was in the database is still there, and no speaker is added twice. -/
theorem C116_existing (ws : Char → Bool) (fs : Files) (d : DB) (root mode : Str) (info : Dict Str Info)
    (wavs txts : List Str)
    (hinfo : parseSpeakersInfo ws fs (fs.abspath root) = .ok info)
    (hwav : fs.listdir (pathJoin (fs.abspath root) "wav48".toList) = some wavs) (hw : GoodListing wavs)
    (htxt : fs.listdir (pathJoin (fs.abspath root) "txt".toList) = some txts) (ht : GoodListing txts)
    (hmode : mode = "sound".toList ∨ mode = "text".toList ∨ mode = "info".toList)
    (hlen : d.records.length = d.spkrs.length) (hd : d.spkrs.Nodup)
    (hold : ∃ s, Selected fs (fs.abspath root) info mode s ∧ s ∈ d.spkrs) :
    ∃ d' : DB, fromDbRoot ws fs d root mode = (d', .error .valueError) ∧ d.spkrs <+: d'.spkrs ∧
      d.records <+: d'.records ∧ d.spkrsInfo <+: d'.spkrsInfo ∧ d'.tags = d.tags ∧ d'.spkrs.Nodup := by
  obtain ⟨l, h1, h2, h3⟩ := chooseSpeakers_ok ws fs (fs.abspath root) mode info wavs txts hinfo hwav hw
    htxt ht hmode
  have key : ∀ (ss : List Str) (d : DB), d.root = some (fs.abspath root) →
      d.records.length = d.spkrs.length → d.spkrs.Nodup → (∃ s ∈ ss, s ∈ d.spkrs) →
      ∃ d' : DB, addSpeakers fs info d ss = (d', .error .valueError) ∧ d.spkrs <+: d'.spkrs ∧
      d.records <+: d'.records ∧ d.spkrsInfo <+: d'.spkrsInfo ∧ d'.tags = d.tags ∧ d'.spkrs.Nodup := by
    intro ss
    induction ss with
    | nil => rintro d _ _ _ ⟨s, hs, _⟩; simp at hs
    | cons t ss ih =>
      rintro d hr hl hn ⟨s, hs, hm⟩
      by_cases htd : t ∈ d.spkrs
      · refine ⟨d, ?_, List.prefix_refl _, List.prefix_refl _, List.prefix_refl _, rfl, hn⟩
        unfold addSpeakers Sound.DB.addSpeaker
        rw [if_pos htd]
      · rw [addSpeakers_step fs info t ss d hr hl htd]
        have hne : s ≠ t := fun e => htd (e ▸ hm)
        obtain ⟨d', a1, a2, a3, a4, a5, a6⟩ := ih { d with
          records := d.records ++ [(namesFor fs (fs.abspath root) t).map
            (recordFor fs (fs.abspath root) d.id d.spkrs.length t)]
          spkrs := d.spkrs ++ [t]
          spkrsInfo := d.spkrsInfo ++ [dictGet? info t] } hr (by simp [hl])
          (by
            rw [List.nodup_append]
            exact ⟨hn, by simp, by
              intro a ha b hb
              rw [List.mem_singleton] at hb
              subst hb
              exact fun e => htd (e ▸ ha)⟩)
          ⟨s, (List.mem_cons.1 hs).resolve_left hne, by simp [hm]⟩
        exact ⟨d', a1, (List.prefix_append _ _).trans a2, (List.prefix_append _ _).trans a3,
          (List.prefix_append _ _).trans a4, a5, a6⟩
  obtain ⟨s, hs1, hs2⟩ := hold
  obtain ⟨d', a1, a2, a3, a4, a5, a6⟩ := key (sorted l) ({ d with root := some (fs.abspath root) } : DB) rfl
    hlen hd ⟨s, mem_sorted.2 ((h3 s).2 hs1), hs2⟩
  refine ⟨d', ?_, a2, a3, a4, a5, a6⟩
  unfold fromDbRoot
  simp only []
  rw [h1]
  exact a1

end Verif.Corpus
