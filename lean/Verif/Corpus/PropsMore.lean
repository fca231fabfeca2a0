import Verif.Corpus.PropsAcorns

/-!
# Properties C119, C120 and C121: choreographies, configuration, description files
-/

namespace Verif.Corpus

/-! ### C119 -/

/-- **C119.** An unknown data set is refused with `ValueError`, whatever the files, when a path or
the directory of databases is given. -/
theorem C119_unknown {A : Type} (py3 : Bool) (config : Dict Str Str) (readMeta : Str → Py Meta)
    (readData : Str → Py (Dict Str A)) (dataset : Str) (dataPath : Option Str)
    (hd : dataset ≠ "primitive".toList ∧ dataset ≠ "mixed_partial".toList ∧ dataset ≠ "mixed_full".toList)
    (hp : dataPath ≠ none ∨ ∃ v, dictGet? config "db-dir".toList = some v) :
    choreo1Load py3 config readMeta readData dataset dataPath = .error .valueError := by
  unfold choreo1Load
  have hn : dataset ∉ DATASETS := by
    simpa [DATASETS] using hd
  have hpath : ∃ p, choreoPath config dataPath = .ok p := by
    cases dataPath with
    | some p => exact ⟨p, rfl⟩
    | none =>
      rcases hp with hp | ⟨v, hv⟩
      · exact absurd rfl hp
      · exact ⟨_, by unfold choreoPath configGet; rw [hv]; rfl⟩
  obtain ⟨p, hp⟩ := hpath
  rw [hp]
  simp only [bind, Except.bind]
  rw [if_pos hn]

/-- **C119.** In Python 3 the function never returns: when everything else works, it fails with
`TypeError` at the last print. -/
theorem C119_python3 {A : Type} (config : Dict Str Str) (readMeta : Str → Py Meta)
    (readData : Str → Py (Dict Str A)) (dataset : Str) (dataPath : Option Str) :
    ∃ e, choreo1Load true config readMeta readData dataset dataPath = .error e ∧
      ∀ r, choreo1Load false config readMeta readData dataset dataPath = .ok r → e = .typeError := by
  unfold choreo1Load
  cases choreoPath config dataPath with
  | error e => exact ⟨e, rfl, fun r hr => absurd hr (by simp [bind, Except.bind])⟩
  | ok p =>
    simp only [bind, Except.bind]
    split
    · exact ⟨_, rfl, fun r hr => absurd hr (by simp)⟩
    · cases readMeta (pathJoin p (dataset ++ ".json".toList)) with
      | error e => exact ⟨e, rfl, fun r hr => absurd hr (by simp)⟩
      | ok m =>
        simp only []
        cases metaGet m.dataFile with
        | error e => exact ⟨e, rfl, fun r hr => absurd hr (by simp)⟩
        | ok f =>
          simp only []
          cases readData (pathJoin (dirname (pathJoin p (dataset ++ ".json".toList))) f) with
          | error e => exact ⟨e, rfl, fun r hr => absurd hr (by simp)⟩
          | ok loaded =>
            simp only []
            cases metaGet m.records with
            | error e => exact ⟨e, rfl, fun r hr => absurd hr (by simp)⟩
            | ok recs =>
              simp only []
              cases recs.mapM (fun r => metaGet (dictGet? loaded r.1)) with
              | error e => exact ⟨e, rfl, fun r hr => absurd hr (by simp)⟩
              | ok data =>
                simp only []
                cases metaGet m.name with
                | error e => exact ⟨e, rfl, fun r hr => absurd hr (by simp)⟩
                | ok nm =>
                  simp only []
                  cases metaGet m.markers with
                  | error e => exact ⟨e, rfl, fun r hr => absurd hr (by simp)⟩
                  | ok mk => exact ⟨.typeError, rfl, fun _ _ => rfl⟩

theorem metaGet_ok {α : Type} {o : Option α} {x : α} (h : metaGet o = .ok x) : o = some x := by
  cases o with
  | none => exact absurd h (by simp [metaGet])
  | some y => rw [Except.ok.inj h]

/-- **C119.** In Python 2, what is returned has one array and one list of labels for each record of
the description, in order: the array stored under its identifier, and its labels. -/
theorem C119_python2 {A : Type} (config : Dict Str Str) (readMeta : Str → Py Meta)
    (readData : Str → Py (Dict Str A)) (dataset dataPath : Str) (data : List A) (labels : List (List ℤ))
    (markers : List Str)
    (h : choreo1Load false config readMeta readData dataset (some dataPath) = .ok (data, labels, markers)) :
    dataset ∈ ["primitive".toList, "mixed_partial".toList, "mixed_full".toList] ∧
    ∃ m f loaded records, readMeta (pathJoin dataPath (dataset ++ ".json".toList)) = .ok m ∧
      m.dataFile = some f ∧ m.records = some records ∧ m.markers = some markers ∧
      readData (pathJoin (dirname (pathJoin dataPath (dataset ++ ".json".toList))) f) = .ok loaded ∧
      data.length = records.length ∧ labels.length = records.length ∧
      ∀ (k : ℕ) (r : Str × List ℤ), records[k]? = some r → labels[k]? = some r.2 ∧
        ∃ x, data[k]? = some x ∧ dictGet? loaded r.1 = some x := by
  unfold choreo1Load at h
  obtain ⟨p, hp, h⟩ := bind_ok h
  obtain rfl : dataPath = p := Except.ok.inj hp
  split at h
  · exact absurd h (by simp)
  · rename_i hmem
    obtain ⟨m, h1, h⟩ := bind_ok h
    obtain ⟨f, h2, h⟩ := bind_ok h
    obtain ⟨loaded, h3, h⟩ := bind_ok h
    obtain ⟨records, h4, h⟩ := bind_ok h
    obtain ⟨ds, h5, h⟩ := bind_ok h
    obtain ⟨nm, h6, h⟩ := bind_ok h
    obtain ⟨mk, h7, h⟩ := bind_ok h
    simp only [Bool.false_eq_true, if_false, pure, Except.pure, Except.ok.injEq, Prod.mk.injEq] at h
    obtain ⟨rfl, rfl, rfl⟩ := h
    have hf := (mapM_ok_iff _ _ _).1 h5
    refine ⟨?_, m, f, loaded, records, h1, metaGet_ok h2, metaGet_ok h4, metaGet_ok h7, h3,
      hf.length_eq.symm, by simp, ?_⟩
    · unfold DATASETS at hmem
      by_contra hc
      exact hmem hc
    · intro k r hk
      refine ⟨by rw [List.getElem?_map, hk]; rfl, ?_⟩
      have hk' : k < ds.length := by
        rw [← hf.length_eq]; exact (List.getElem?_eq_some_iff.1 hk).1
      have := List.forall₂_iff_get.1 hf
      refine ⟨ds[k], List.getElem?_eq_getElem hk', ?_⟩
      have h8 := this.2 k (List.getElem?_eq_some_iff.1 hk).1 hk'
      rw [List.get_eq_getElem, List.get_eq_getElem, (List.getElem?_eq_some_iff.1 hk).2] at h8
      exact metaGet_ok h8

/-! ### C120 -/

/-- **C120.** Looking up a configuration value gives it if the key is present, and otherwise raises
`NoConfigValueError`, which is not a `KeyError`; its message tells the key: different keys give
different messages. -/
theorem C120_config {V : Type} (c : Dict Str V) (k : Str) :
    (∀ v, configGet c k = .ok v ↔ dictGet? c k = some v) ∧
    (configGet c k = .error .lookupError ↔ ∀ p ∈ c, p.1 ≠ k) ∧
    configGet c k ≠ .error .keyError ∧
    (∀ k', configMessage k = configMessage k' → k = k') := by
  refine ⟨?_, ?_, ?_, ?_⟩
  · intro v
    unfold configGet
    cases h : dictGet? c k <;> simp
  · unfold configGet
    have hs := dictGet?_isSome c k
    cases h : dictGet? c k with
    | none =>
      rw [h] at hs
      simp only [true_iff]
      intro p hp e
      have : k ∈ dictKeys c := by rw [← e]; exact List.mem_map.2 ⟨p, hp, rfl⟩
      exact absurd (hs.2 this) (by simp)
    | some v =>
      rw [h] at hs
      simp only [reduceCtorEq, false_iff, not_forall]
      obtain ⟨p, hp, e⟩ := List.mem_map.1 (hs.1 rfl)
      exact ⟨p, hp, fun hne => hne e⟩
  · unfold configGet
    cases h : dictGet? c k <;> simp
  · intro k' h
    unfold configMessage at h
    exact List.append_cancel_left (List.append_cancel_right h)

/-! ### C121 -/

/-- **C121.** What the import of Acorns gives can be written as a description file, and loading this
file gives a database with the same root, speakers and tags, in which each speaker has the same
records, sorted by audio name. -/
theorem C121_acorns (ws : Char → Bool) (fs : Files) (parse : Str → Py (List Node)) (id id' : ℕ) (root : Str)
    (year : ℤ) (hyear : year = 1 ∨ year = 2) (hroot : (fs.abspath root).head? = some '/')
    (hfiles : ∀ s ∈ getSpeakers year, ∃ files,
      XmlFiles fs (pathJoin (pathJoin (fs.abspath root) "XML".toList) s) files ∧
      ∀ f ∈ files, ∃ u, Describes ws parse (if year = 1 then "vistag".toList else "vistags".toList) f u) :
    ∃ (d : DB) (doc : Sound.Doc Str Info) (d' : DB),
      fromAcornsRoot ws fs parse (Sound.DB.new id) root year = (d, .ok ()) ∧
      d.writeJson = .ok doc ∧ (Sound.DB.new id' : DB).loadFrom doc true = .ok d' ∧
      d'.root = some (fs.abspath root) ∧ d'.tags = d.tags ∧ d'.spkrs = getSpeakers year ∧
      d'.records.length = d.records.length ∧
      ∀ (s : ℕ) (l l' : List (Sound.Rec Str)), d.records[s]? = some l → d'.records[s]? = some l' →
        l'.Perm (l.map (Sound.Rec.into id')) := by
  obtain ⟨d, h1, h2, h3, h4, h5, h6, h7⟩ := C117_import ws fs parse id root year hyear hroot hfiles
  have haudio : ∀ l ∈ d.records, ∀ r ∈ l, r.audio ≠ none := by
    intro l hl r hr
    obtain ⟨k, hk⟩ := List.mem_iff_getElem?.1 hl
    have hkl : k < d.spkrs.length := by
      rw [← h2.nbRecords]; exact (List.getElem?_eq_some_iff.1 hk).1
    obtain ⟨recs, perm, files, c1, -, c3, c4, -⟩ := h7 k _ (List.getElem?_eq_getElem hkl)
    rw [hk, Option.some.injEq] at c1
    subst c1
    obtain ⟨f, -, u, -, hh⟩ := forall₂_mem c4 (c3.mem_iff.1 hr)
    rw [hh.2.1]
    simp
  obtain ⟨doc, d', a1, a2, a3, a4, a5, a6, a7, a8⟩ := Sound.C77_sorted d h2 id' haudio
  exact ⟨d, doc, d', h1, a1, a2, by rw [a3, h4], a4, by rw [a5, h5], a7,
    fun s l l' hl hl' => (a8 s l l' hl hl').1⟩

theorem loadFrom_sorted {d d1 : DB} {doc : Sound.Doc Str Info} (hl : d.loadFrom doc false = .ok d1) :
    d.loadFrom doc true = d1.sort := by
  unfold Sound.DB.loadFrom at hl ⊢
  simp only [bind, Except.bind, pure, Except.pure] at hl ⊢
  generalize (doc.tags.foldlM (m := Py) _ _) = e1 at hl ⊢
  cases e1 with
  | error e => exact absurd hl (by simp)
  | ok d2 =>
    simp only [] at hl ⊢
    generalize (doc.speakers.foldlM (m := Py) _ _) = e2 at hl ⊢
    cases e2 with
    | error e => exact absurd hl (by simp)
    | ok d3 =>
      simp only [Bool.false_eq_true, if_false, if_true, Except.ok.injEq] at hl ⊢
      rw [hl]

theorem sort_error (d : DB) (l : List (Sound.Rec Str)) (hl : l ∈ d.records) (h2 : 2 ≤ l.length)
    (hn : ∃ r ∈ l, r.audio = none) : d.sort = .error .typeError := by
  unfold Sound.DB.sort
  have key : ∀ ls : List (List (Sound.Rec Str)), l ∈ ls → ls.mapM Sound.sortRecords = .error .typeError := by
    intro ls
    induction ls with
    | nil => intro h; simp at h
    | cons a ls ih =>
      intro h
      rw [List.mapM_cons]
      by_cases ha : 2 ≤ a.length ∧ a.any (fun r => r.audio.isNone)
      · have : Sound.sortRecords a = .error .typeError := by unfold Sound.sortRecords; rw [if_pos ha]
        rw [this]; rfl
      · have : Sound.sortRecords a = .ok (a.mergeSort Sound.audioLe) := by
          unfold Sound.sortRecords; rw [if_neg ha]
        rw [this]
        rcases List.mem_cons.1 h with rfl | h
        · exfalso
          apply ha
          obtain ⟨r, hr, hr2⟩ := hn
          exact ⟨h2, List.any_eq_true.2 ⟨r, hr, by rw [hr2]; rfl⟩⟩
        · rw [ih h]; rfl
  rw [key _ hl]
  rfl

/-- **C121.** What the import of VCTK into a new database gives can be written as a description file.
Loading this file gives the same database up to the order of records if every utterance has a sound;
but it fails with `TypeError` if a speaker with several utterances has one without a sound, whose
audio name `None` cannot be compared. -/
theorem C121_vctk (ws : Char → Bool) (fs : Files) (id id' : ℕ) (root mode : Str) (info : Dict Str Info)
    (wavs txts : List Str)
    (hinfo : parseSpeakersInfo ws fs (fs.abspath root) = .ok info)
    (hwav : fs.listdir (pathJoin (fs.abspath root) "wav48".toList) = some wavs) (hw : GoodListing wavs)
    (htxt : fs.listdir (pathJoin (fs.abspath root) "txt".toList) = some txts) (ht : GoodListing txts)
    (hmode : mode = "sound".toList ∨ mode = "text".toList ∨ mode = "info".toList) :
    ∃ (d : DB) (doc : Sound.Doc Str Info), fromDbRoot ws fs (Sound.DB.new id) root mode = (d, .ok ()) ∧
      Sound.Consistent d ∧ d.writeJson = .ok doc ∧
      ((∀ l ∈ d.records, ∀ r ∈ l, r.audio ≠ none) →
        ∃ d' : DB, (Sound.DB.new id' : DB).loadFrom doc true = .ok d' ∧ d'.root = d.root ∧ d'.tags = d.tags ∧
          d'.spkrs = d.spkrs ∧ d'.spkrsInfo = d.spkrsInfo ∧ d'.records.length = d.records.length ∧
          ∀ (s : ℕ) (l l' : List (Sound.Rec Str)), d.records[s]? = some l → d'.records[s]? = some l' →
            l'.Perm (l.map (Sound.Rec.into id'))) ∧
      ((∃ l ∈ d.records, 2 ≤ l.length ∧ ∃ r ∈ l, r.audio = none) →
        (Sound.DB.new id' : DB).loadFrom doc true = .error .typeError) := by
  obtain ⟨d, new, h1, h2, h3, h4, h5, h6, h7, h8, h9, h10, h11, h12, h13⟩ := C113_import ws fs
    (Sound.DB.new id) root mode info wavs txts hinfo hwav hw htxt ht hmode rfl rfl
    (fun s _ => by simp [Sound.DB.new])
  have hsp : d.spkrs = new := by rw [h6]; rfl
  have hc : Sound.Consistent d := by
    refine ⟨⟨by rw [h4]; exact List.nodup_nil, ?_⟩, ?_, h10, h9, ?_⟩
    · rw [h4, h5]; exact (Sound.new_tagsOk (S := Str) (I := Info) id).2
    · rw [hsp]; exact h11.imp fun h => ne_of_lt h
    · intro k l hk r hr
      have hkl : k < new.length := by
        rw [← hsp, ← h10]; exact (List.getElem?_eq_some_iff.1 hk).1
      obtain ⟨-, us, -, -, c3⟩ := h13 k _ (List.getElem?_eq_getElem hkl)
      have e0 : (Sound.DB.new id : DB).spkrs.length + k = k := by simp [Sound.DB.new]
      rw [e0, hk, Option.some.injEq] at c3
      subst c3
      obtain ⟨u, _, rfl⟩ := List.mem_map.1 hr
      exact ⟨rfl, by simp [recordFor]⟩
  obtain ⟨doc, d1, a1, a2, a3, a4, a5, a6, a7, a8⟩ := Sound.C77_round_trip d hc id'
  refine ⟨d, doc, h1, hc, a1, ?_, ?_⟩
  · intro haudio
    obtain ⟨doc', d', b1, b2, b3, b4, b5, b6, b7, b8⟩ := Sound.C77_sorted d hc id' haudio
    rw [a1, Except.ok.injEq] at b1
    subst b1
    exact ⟨d', b2, b3, b4, b5, b6, b7, fun s l l' hl hl' => (b8 s l l' hl hl').1⟩
  · rintro ⟨l, hl, hlen, r, hr, hn⟩
    rw [loadFrom_sorted a2]
    apply sort_error d1 (l.map (Sound.Rec.into id'))
    · rw [a7]; exact List.mem_map.2 ⟨l, hl, rfl⟩
    · simpa using hlen
    · exact ⟨_, List.mem_map.2 ⟨r, hr, rfl⟩, hn⟩

end Verif.Corpus
