import Verif.Corpus.PropsInfo
import Mathlib.Tactic.IntervalCases

/-!
# Properties C117 and C118: the Acorns corpus
-/

namespace Verif.Corpus

variable {ws : Char → Bool}

/-- What an utterance of the corpus consists of. -/
structure Utterance where
  style : Str
  audio : Str
  tags : List Str
  trans : Str

/-- The XML file `path` describes an utterance: its first `utterance` element has elements `style`
and `audio-file`, whose `value` attributes are kept (an empty string if there is none), an element
`tagNode` which begins with a text, whose words are the tags, and an element `trans`, whose third
child is the text of the transcription. -/
def Describes (ws : Char → Bool) (parse : Str → Py (List Node)) (tagNode path : Str) (u : Utterance) : Prop :=
  ∃ doc n a cs n1 style c1 n2 audio c2 n3 a3 tags rest n4 a4 c4 trans,
    parse path = .ok doc ∧ (byTag "utterance".toList doc)[0]? = some (.elem n a cs) ∧
    (byTag "style".toList cs)[0]? = some (.elem n1 style c1) ∧
    (byTag "audio-file".toList cs)[0]? = some (.elem n2 audio c2) ∧
    (byTag tagNode cs)[0]? = some (.elem n3 a3 (.text tags :: rest)) ∧
    (byTag "trans".toList cs)[0]? = some (.elem n4 a4 c4) ∧ c4[2]? = some (.text trans) ∧
    u.style = (dictGet? style "value".toList).getD [] ∧
    u.audio = (dictGet? audio "value".toList).getD [] ++ ".wav".toList ∧
    u.tags = words ws tags ∧ u.trans = strip ws trans

/-- The record holds the utterance, tags being given by their names in the database. -/
def Holds (d : DB) (r : Sound.Rec Str) (u : Utterance) : Prop :=
  r.db = d.id ∧ r.audio = some u.audio ∧ r.trans = some u.trans ∧ r.style = some u.style ∧
    (∀ t ∈ r.tags, 0 ≤ t ∧ t < d.tags.length) ∧ Sound.tagNames d r = .ok u.tags

theorem pyGet_zero {α : Type} {l : List α} {x : α} {i : ℕ} (h : l[i]? = some x) :
    pyGet l (i : ℤ) = .ok x := by
  obtain ⟨hi, e⟩ := List.getElem?_eq_some_iff.1 h
  rw [pyGet_nat l i hi, e]

theorem mapM_pyGet_prefix {α : Type} {l l' : List α} (hp : l <+: l') (ts : List ℤ) (ns : List α)
    (hk : ∀ t ∈ ts, 0 ≤ t ∧ t < l.length)
    (h : ts.mapM (fun t => pyGet l t) = .ok ns) : ts.mapM (fun t => pyGet l' t) = .ok ns := by
  rw [mapM_ok_iff] at h ⊢
  induction h with
  | nil => exact .nil
  | @cons t n ts ns h1 h2 ih =>
    refine .cons ?_ (ih fun t ht => hk t (List.mem_cons_of_mem _ ht))
    obtain ⟨h0, hlt⟩ := hk t List.mem_cons_self
    obtain ⟨i, rfl⟩ : ∃ i : ℕ, t = i := ⟨t.toNat, by omega⟩
    have hi : i < l.length := by omega
    rw [pyGet_nat l i hi, Except.ok.injEq] at h1
    apply pyGet_zero
    obtain ⟨e, rfl⟩ := hp
    rw [List.getElem?_append_left hi, List.getElem?_eq_getElem hi, h1]

theorem Holds.mono {d d' : DB} {r : Sound.Rec Str} {u : Utterance} (h : Holds d r u) (hid : d'.id = d.id)
    (hp : d.tags <+: d'.tags) : Holds d' r u := by
  obtain ⟨h1, h2, h3, h4, h5, h6⟩ := h
  have hl := hp.length_le
  exact ⟨by rw [hid]; exact h1, h2, h3, h4, fun t ht => ⟨(h5 t ht).1, by have := (h5 t ht).2; omega⟩,
    mapM_pyGet_prefix hp _ _ h5 h6⟩

theorem getTagAdd_ok {d : DB} (h : Sound.TagsOk d) (t : Str) :
    ∃ (d' : DB) (i : ℕ), d.getTagAdd t = .ok (d', i) ∧ Sound.TagsOk d' ∧ d'.tags[i]? = some t ∧
      d.tags <+: d'.tags ∧ d'.records = d.records ∧ d'.spkrs = d.spkrs ∧ d'.spkrsInfo = d.spkrsInfo ∧
      d'.id = d.id ∧ d'.root = d.root := by
  rcases Sound.getTagAdd_cases h t with ⟨hn, h1, d', h2⟩ | ⟨i, hi, h1⟩
  · obtain ⟨a, _, c, e, f⟩ := Sound.addTag_ok h h2
    exact ⟨d', d.tags.length, by rw [h1, h2], a, by rw [c]; simp, by rw [c]; exact List.prefix_append _ _,
      f⟩
  · exact ⟨d, i, h1, h, hi, List.prefix_refl _, rfl, rfl, rfl, rfl, rfl⟩

theorem tagsOfNames_ok (ns : List Str) : ∀ {d : DB}, Sound.TagsOk d →
    ∃ (d' : DB) (ts : List ℤ), Sound.tagsOfNames d ns = .ok (d', ts) ∧ Sound.TagsOk d' ∧
      d.tags <+: d'.tags ∧ d'.records = d.records ∧ d'.spkrs = d.spkrs ∧ d'.spkrsInfo = d.spkrsInfo ∧
      d'.id = d.id ∧ d'.root = d.root ∧ (∀ t ∈ ts, 0 ≤ t ∧ t < d'.tags.length) ∧
      ts.mapM (fun t => pyGet d'.tags t) = .ok ns := by
  induction ns with
  | nil => intro d h; exact ⟨d, [], rfl, h, List.prefix_refl _, rfl, rfl, rfl, rfl, rfl, by simp, rfl⟩
  | cons n ns ih =>
    intro d h
    obtain ⟨d1, i, a1, a2, a3, a4, a5, a6, a7, a8, a9⟩ := getTagAdd_ok h n
    obtain ⟨d2, ts, b1, b2, b3, b4, b5, b6, b7, b8, b9, b10⟩ := ih a2
    have hi : d2.tags[i]? = some n := by
      obtain ⟨e, he⟩ := b3
      rw [← he, List.getElem?_append_left (List.getElem?_eq_some_iff.1 a3).1, a3]
    refine ⟨d2, (i : ℤ) :: ts, ?_, b2, a4.trans b3, by rw [b4, a5], by rw [b5, a6], by rw [b6, a7],
      by rw [b7, a8], by rw [b8, a9], ?_, ?_⟩
    · unfold Sound.tagsOfNames; rw [a1]; simp only [bind, Except.bind]; rw [b1]; rfl
    · intro t ht
      rcases List.mem_cons.1 ht with rfl | ht
      · have := (List.getElem?_eq_some_iff.1 hi).1
        omega
      · exact b9 t ht
    · rw [List.mapM_cons, pyGet_zero hi, b10]; rfl

theorem pathJoin_absolute {a : Str} (b : Str) (h : a.head? = some '/') :
    (pathJoin a b).head? = some '/' := by
  unfold pathJoin
  split
  · assumption
  · have ha : a ≠ [] := by rintro rfl; simp at h
    split
    · rw [List.head?_append_of_ne_nil _ ha, h]
    · rw [List.head?_append_of_ne_nil _ ha, h]

theorem pathJoin_of_absolute (a : Str) {b : Str} (h : b.head? = some '/') : pathJoin a b = b := by
  unfold pathJoin; rw [if_pos h]

theorem parseRecord_ok {parse : Str → Py (List Node)} {tagNode f root speaker : Str} {u : Utterance}
    {d : DB} {spkr : ℤ} (hd : Sound.TagsOk d) (hf : f.head? = some '/')
    (hu : Describes ws parse tagNode f u) :
    ∃ (d' : DB) (r : Sound.Rec Str), parseRecord ws parse d root spkr speaker f tagNode = (d', .ok r) ∧
      Sound.TagsOk d' ∧ d.tags <+: d'.tags ∧ d'.records = d.records ∧ d'.spkrs = d.spkrs ∧
      d'.spkrsInfo = d.spkrsInfo ∧ d'.id = d.id ∧ d'.root = d.root ∧ r.spkr = spkr ∧ Holds d' r u := by
  obtain ⟨doc, n, a, cs, n1, style, c1, n2, audio, c2, n3, a3, tags, rest, n4, a4, c4, trans, h1, h2, h3,
    h4, h5, h6, h7, h8, h9, h10, h11⟩ := hu
  have hhead : parseHead parse root speaker f tagNode =
      .ok (.elem n a cs, u.style, u.audio, tags) := by
    unfold parseHead
    rw [pathJoin_of_absolute _ hf, h1]
    simp only [bind, Except.bind]
    have e2 := pyGet_zero h2
    have e3 := pyGet_zero h3
    have e4 := pyGet_zero h4
    have e5 := pyGet_zero h5
    simp only [Nat.cast_zero] at e2 e3 e4 e5
    rw [e2]
    simp only [Node.childNodes]
    rw [e3, e4, e5]
    simp only [Node.getAttribute, Node.childNodes]
    have e6 : pyGet (Node.text tags :: rest) 0 = .ok (Node.text tags) := rfl
    rw [e6]
    simp only [Node.data, pure, Except.pure, Except.ok.injEq, Prod.mk.injEq, true_and, h8, h9, and_true]
    rfl
  have htrans : parseTrans ws (.elem n a cs) = .ok u.trans := by
    unfold parseTrans
    have e6 := pyGet_zero h6
    have e7 := pyGet_zero h7
    simp only [Nat.cast_zero, Nat.cast_ofNat] at e6 e7
    simp only [Node.childNodes, bind, Except.bind]
    rw [e6]
    simp only []
    rw [e7]
    simp [Node.data, pure, Except.pure, h11]
  obtain ⟨d', ts, b1, b2, b3, b4, b5, b6, b7, b8, b9, b10⟩ := tagsOfNames_ok (words ws tags) hd
  refine ⟨d', ⟨d'.id, spkr, some u.audio, ts, some u.trans, some u.style⟩, ?_, b2, b3, b4, b5, b6, b7, b8,
    rfl, rfl, rfl, rfl, rfl, b9, ?_⟩
  · unfold parseRecord
    rw [hhead]
    simp only []
    rw [b1]
    simp only []
    rw [htrans]
    rfl
  · unfold Sound.tagNames
    rw [h10]
    exact b10

theorem addRecord_known {d : DB} {r : Sound.Rec Str} {i : ℕ} (h1 : r.db = d.id) (h2 : r.spkr = i)
    (h3 : i < d.records.length) (h4 : ∀ t ∈ r.tags, 0 ≤ t ∧ t < d.tags.length) :
    d.addRecord r = .ok { d with records := d.records.modify i (fun l => l ++ [r]) } := by
  unfold Sound.DB.addRecord
  rw [if_neg (by simpa using h1), if_neg, h2]
  · have : pyIndex d.records.length (i : ℤ) = some i := by
      unfold pyIndex
      rw [if_pos (by omega), if_pos (by omega)]; simp
    simp [this]
  · intro hc
    rw [List.any_eq_true] at hc
    obtain ⟨t, ht1, ht2⟩ := hc
    have := (h4 t ht1).2
    simp at ht2; omega

theorem addFiles_ok {parse : Str → Py (List Node)} {tagNode root speaker : Str} {i : ℕ}
    (files : List Str) : ∀ (d : DB), Sound.TagsOk d → i < d.records.length →
      (∀ f ∈ files, f.head? = some '/' ∧ ∃ u, Describes ws parse tagNode f u) →
      ∃ (d' : DB) (rs : List (Sound.Rec Str)),
        addFiles ws parse root (i : ℤ) speaker tagNode d files = (d', .ok ()) ∧
        Sound.TagsOk d' ∧ d.tags <+: d'.tags ∧ d'.records = d.records.modify i (fun l => l ++ rs) ∧
        d'.spkrs = d.spkrs ∧ d'.spkrsInfo = d.spkrsInfo ∧ d'.id = d.id ∧ d'.root = d.root ∧
        List.Forall₂ (fun (r : Sound.Rec Str) f => r.spkr = (i : ℤ) ∧ ∃ u, Describes ws parse tagNode f u ∧ Holds d' r u) rs files := by
  induction files with
  | nil =>
    intro d hd _ _
    refine ⟨d, [], rfl, hd, List.prefix_refl _, ?_, rfl, rfl, rfl, rfl, .nil⟩
    apply List.ext_getElem?; intro k; rw [List.getElem?_modify]; split <;> simp
  | cons f files ih =>
    intro d hd hi hall
    obtain ⟨hf, u, hu⟩ := hall f List.mem_cons_self
    obtain ⟨d1, r, a1, a2, a3, a4, a5, a6, a7, a8, a9, a10⟩ :=
      parseRecord_ok (root := root) (speaker := speaker) (spkr := (i : ℤ)) hd hf hu
    have hadd := addRecord_known (d := d1) (r := r) (i := i) a10.1 a9 (by rw [a4]; exact hi) a10.2.2.2.2.1
    obtain ⟨d2, rs, b1, b2, b3, b4, b5, b6, b7, b8, b9⟩ :=
      ih ({ d1 with records := d1.records.modify i (fun l => l ++ [r]) } : DB) a2
        (by simpa [a4] using hi) (fun g hg => hall g (List.mem_cons_of_mem _ hg))
    refine ⟨d2, r :: rs, ?_, b2, a3.trans b3, ?_, by rw [b5, ← a5], by rw [b6, ← a6], by rw [b7, ← a7],
      by rw [b8, ← a8], .cons ⟨a9, u, hu, a10.mono (by rw [b7]) b3⟩ b9⟩
    · unfold addFiles
      rw [a1]
      simp only []
      rw [hadd]
      exact b1
    · rw [b4]
      simp only [a4, List.modify_modify_eq, Function.comp_def, List.append_assoc, List.singleton_append]

/-- The XML files of a directory. -/
def XmlFiles (fs : Files) (dir : Str) (files : List Str) : Prop :=
  ∃ l, fs.listdir dir = some l ∧
    files = (l.map (pathJoin dir)).filter fun p => fs.isfile p && lower (extension p) == ".xml".toList

theorem forall₂_holds_mono {parse : Str → Py (List Node)} {tagNode : Str} {i : ℕ} {d d' : DB}
    {rs : List (Sound.Rec Str)} {files : List Str} (hid : d'.id = d.id) (hp : d.tags <+: d'.tags)
    (h : List.Forall₂ (fun (r : Sound.Rec Str) f => r.spkr = (i : ℤ) ∧ ∃ u, Describes ws parse tagNode f u ∧ Holds d r u) rs files) :
    List.Forall₂ (fun (r : Sound.Rec Str) f => r.spkr = (i : ℤ) ∧ ∃ u, Describes ws parse tagNode f u ∧ Holds d' r u) rs files :=
  h.imp fun _ _ ⟨h1, u, h2, h3⟩ => ⟨h1, u, h2, h3.mono hid hp⟩

theorem addAcornsSpeakers_ok {fs : Files} {parse : Str → Py (List Node)} {tagNode root : Str}
    (hroot : root.head? = some '/') (ss : List Str) : ∀ (d : DB), Sound.TagsOk d →
      d.records.length = d.spkrs.length → ss.Nodup → (∀ s ∈ ss, s ∉ d.spkrs) →
      (∀ s ∈ ss, ∃ files, XmlFiles fs (pathJoin (pathJoin root "XML".toList) s) files ∧
        ∀ f ∈ files, ∃ u, Describes ws parse tagNode f u) →
      ∃ (d' : DB) (new : List (List (Sound.Rec Str))),
        addAcornsSpeakers ws fs parse root tagNode d ss = (d', .ok ()) ∧
        Sound.TagsOk d' ∧ d.tags <+: d'.tags ∧ d'.records = d.records ++ new ∧ new.length = ss.length ∧
        d'.spkrs = d.spkrs ++ ss ∧ d'.spkrsInfo = d.spkrsInfo ++ ss.map (fun _ => none) ∧
        d'.id = d.id ∧ d'.root = d.root ∧
        ∀ (k : ℕ) (s : Str), ss[k]? = some s → ∃ rs files, new[k]? = some rs ∧
          XmlFiles fs (pathJoin (pathJoin root "XML".toList) s) files ∧
          List.Forall₂ (fun (r : Sound.Rec Str) f => r.spkr = ((d.spkrs.length + k : ℕ) : ℤ) ∧
            ∃ u, Describes ws parse tagNode f u ∧ Holds d' r u) rs files := by
  induction ss with
  | nil =>
    intro d hd _ _ _ _
    exact ⟨d, [], rfl, hd, List.prefix_refl _, by simp, rfl, by simp, by simp, rfl, rfl, by simp⟩
  | cons s ss ih =>
    intro d hd hl hn hnew hdesc
    rw [List.nodup_cons] at hn
    obtain ⟨files, ⟨l, hl1, hl2⟩, hall⟩ := hdesc s List.mem_cons_self
    have hxml : xmlFilesIn fs (pathJoin (pathJoin root XML_DIR) s) = .ok files := by
      unfold xmlFilesIn
      have : fs.listdir (pathJoin (pathJoin root XML_DIR) s) = some l := hl1
      rw [this, hl2]
      rfl
    have habs : ∀ f ∈ files, f.head? = some '/' := by
      intro f hf
      rw [hl2, List.mem_filter, List.mem_map] at hf
      obtain ⟨⟨g, _, rfl⟩, _⟩ := hf
      exact pathJoin_absolute _ (pathJoin_absolute _ (pathJoin_absolute _ hroot))
    obtain ⟨d1, rs, a1, a2, a3, a4, a5, a6, a7, a8, a9⟩ := addFiles_ok (ws := ws) (parse := parse)
      (tagNode := tagNode) (root := root) (speaker := s) (i := d.spkrs.length) files ({ d with
        records := d.records ++ [[]]
        spkrs := d.spkrs ++ [s]
        spkrsInfo := d.spkrsInfo ++ [none] } : DB) hd (by simp [hl])
      (fun f hf => ⟨habs f hf, hall f hf⟩)
    have hrec : d1.records = d.records ++ [rs] := by
      rw [a4]
      simp only []
      rw [← hl, modify_last, List.nil_append]
    obtain ⟨d2, new, b1, b2, b3, b4, b5, b6, b7, b8, b9, b10⟩ := ih d1 a2 (by rw [hrec, a5]; simp [hl]) hn.2
      (by
        intro t ht
        rw [a5]
        simp only [List.mem_append, List.mem_singleton, not_or]
        exact ⟨hnew t (List.mem_cons_of_mem _ ht), fun e => hn.1 (e ▸ ht)⟩)
      (fun t ht => hdesc t (List.mem_cons_of_mem _ ht))
    refine ⟨d2, rs :: new, ?_, b2, a3.trans b3, by rw [b4, hrec]; simp, by simp [b5],
      by rw [b6, a5]; simp, by rw [b7, a6]; simp, by rw [b8, a7], by rw [b9, a8], ?_⟩
    · unfold addAcornsSpeakers Sound.DB.addSpeaker
      rw [if_neg (hnew s List.mem_cons_self)]
      simp only [List.length_append, List.length_cons, List.length_nil, Nat.add_sub_cancel, zero_add]
      rw [hxml]
      simp only []
      rw [a1]
      exact b1
    · intro k t hk
      cases k with
      | zero =>
        rw [List.getElem?_cons_zero, Option.some.injEq] at hk
        subst hk
        exact ⟨rs, files, rfl, ⟨l, hl1, hl2⟩, forall₂_holds_mono b8 b3 a9⟩
      | succ k =>
        rw [List.getElem?_cons_succ] at hk
        obtain ⟨rs', files', c1, c2, c3⟩ := b10 k t hk
        refine ⟨rs', files', by rw [List.getElem?_cons_succ]; exact c1, c2, ?_⟩
        have e : d1.spkrs.length + k = d.spkrs.length + (k + 1) := by rw [a5]; simp; omega
        rw [e] at c3
        exact c3

theorem forall₂_mem {α β : Type} {R : α → β → Prop} {l : List α} {m : List β} (h : List.Forall₂ R l m)
    {a : α} (ha : a ∈ l) : ∃ b ∈ m, R a b := by
  induction h with
  | nil => simp at ha
  | @cons x y l m h1 _ ih =>
    rcases List.mem_cons.1 ha with rfl | ha
    · exact ⟨y, List.mem_cons_self, h1⟩
    · obtain ⟨b, hb, hr⟩ := ih ha
      exact ⟨b, List.mem_cons_of_mem _ hb, hr⟩

theorem getSpeakers_nodup (year : ℤ) : (getSpeakers year).Nodup := by
  unfold getSpeakers nSpeakers
  split <;> decide

theorem sort_ok (d : DB) (h : ∀ l ∈ d.records, ∀ r ∈ l, r.audio ≠ none) :
    d.sort = .ok { d with records := d.records.map fun l => l.mergeSort Sound.audioLe } := by
  unfold Sound.DB.sort
  rw [mapM_ok Sound.sortRecords (fun l => l.mergeSort Sound.audioLe) d.records (by
    intro l hl
    unfold Sound.sortRecords
    rw [if_neg]
    rintro ⟨_, hc⟩
    rw [List.any_eq_true] at hc
    obtain ⟨r, hr, hn⟩ := hc
    exact h l hl r hr (by simpa using hn))]
  rfl

/-- **C117.** Let the root be given, every speaker of the year have a directory under `XML`, and
every XML file in it describe an utterance.  Then the import into a new database succeeds.  The
speakers are those of the year, in order and without information.  The records of a speaker are, up
to their order, one for each XML file, and hold the style, audio name, tags and transcription this
file gives; they are sorted by audio name.  The database is consistent. -/
theorem C117_import (ws : Char → Bool) (fs : Files) (parse : Str → Py (List Node)) (id : ℕ) (root : Str)
    (year : ℤ) (hyear : year = 1 ∨ year = 2) (hroot : (fs.abspath root).head? = some '/')
    (hfiles : ∀ s ∈ getSpeakers year, ∃ files,
      XmlFiles fs (pathJoin (pathJoin (fs.abspath root) "XML".toList) s) files ∧
      ∀ f ∈ files, ∃ u, Describes ws parse (if year = 1 then "vistag".toList else "vistags".toList) f u) :
    ∃ d' : DB, fromAcornsRoot ws fs parse (Sound.DB.new id) root year = (d', .ok ()) ∧
      Sound.Consistent d' ∧ d'.id = id ∧ d'.root = some (fs.abspath root) ∧
      d'.spkrs = getSpeakers year ∧ (∀ i ∈ d'.spkrsInfo, i = none) ∧
      ∀ (k : ℕ) (s : Str), d'.spkrs[k]? = some s → ∃ recs perm files, d'.records[k]? = some recs ∧
        XmlFiles fs (pathJoin (pathJoin (fs.abspath root) "XML".toList) s) files ∧ recs.Perm perm ∧
        List.Forall₂ (fun (r : Sound.Rec Str) f => ∃ u,
          Describes ws parse (if year = 1 then "vistag".toList else "vistags".toList) f u ∧ Holds d' r u)
          perm files ∧
        recs.Pairwise fun a b => ∀ x y, a.audio = some x → b.audio = some y → x ≤ y := by
  have htag : tagNodeName year = if year = 1 then "vistag".toList else "vistags".toList := by
    unfold tagNodeName; split <;> rfl
  obtain ⟨d, new, a1, a2, a3, a4, a5, a6, a7, a8, a9, a10⟩ := addAcornsSpeakers_ok (ws := ws) (fs := fs)
    (parse := parse) (tagNode := tagNodeName year) hroot (getSpeakers year)
    ({ (Sound.DB.new id : DB) with root := some (fs.abspath root) } : DB) (Sound.new_tagsOk (I := Info) id) rfl
    (getSpeakers_nodup year) (fun _ _ => by simp [Sound.DB.new]) (by rw [htag]; exact hfiles)
  rw [htag] at a10
  have e0 : ∀ k : ℕ, ([] : List Str).length + k = k := fun k => by simp
  have hrecs : d.records = new := by rw [a4]; rfl
  have hsp : d.spkrs = getSpeakers year := by rw [a6]; rfl
  have haudio : ∀ l ∈ d.records, ∀ r ∈ l, r.audio ≠ none := by
    intro l hl r hr
    obtain ⟨k, hk⟩ := List.mem_iff_getElem?.1 hl
    have hkl : k < (getSpeakers year).length := by
      rw [← a5, ← hrecs]; exact (List.getElem?_eq_some_iff.1 hk).1
    obtain ⟨rs, files, c1, -, c3⟩ := a10 k _ (List.getElem?_eq_getElem hkl)
    rw [hrecs, c1, Option.some.injEq] at hk
    subst hk
    obtain ⟨f, -, -, u, -, hh⟩ := forall₂_mem c3 hr
    rw [hh.2.1]
    simp
  refine ⟨{ d with records := d.records.map fun l => l.mergeSort Sound.audioLe }, ?_, ?_, a8, a9, hsp, ?_, ?_⟩
  · unfold fromAcornsRoot checkYear
    rw [if_pos hyear]
    simp only []
    rw [a1]
    simp only []
    rw [sort_ok d haudio]
  · refine ⟨a2, ?_, ?_, ?_, ?_⟩
    · simp only [hsp]; exact getSpeakers_nodup year
    · simp only [hsp, List.length_map, hrecs, a5]
    · simp only [a6, a7, List.length_append, List.length_map]; rfl
    · intro k l hk r hr
      simp only [List.getElem?_map, Option.map_eq_some_iff] at hk
      obtain ⟨l0, hl0, rfl⟩ := hk
      have hkl : k < (getSpeakers year).length := by
        rw [← a5, ← hrecs]; exact (List.getElem?_eq_some_iff.1 hl0).1
      obtain ⟨rs, files, c1, -, c3⟩ := a10 k _ (List.getElem?_eq_getElem hkl)
      rw [hrecs, c1, Option.some.injEq] at hl0
      subst hl0
      obtain ⟨f, -, hs, u, -, hh⟩ := forall₂_mem c3 ((List.mergeSort_perm _ _).mem_iff.1 hr)
      refine ⟨?_, hh.2.2.2.2.1⟩
      rw [hs]
      simp [Sound.DB.new]
  · intro i hi
    simp only [a7, List.mem_append, List.mem_map] at hi
    rcases hi with hi | ⟨_, _, rfl⟩
    · simp [Sound.DB.new] at hi
    · rfl
  · intro k s hk
    simp only [hsp] at hk
    obtain ⟨rs, files, c1, c2, c3⟩ := a10 k s hk
    refine ⟨rs.mergeSort Sound.audioLe, rs, files, ?_, c2, List.mergeSort_perm _ _, ?_, ?_⟩
    · simp only [List.getElem?_map, hrecs, c1, Option.map_some]
    · exact c3.imp fun r f ⟨_, u, h1, h2⟩ => ⟨u, h1, h2⟩
    · have := List.pairwise_mergeSort (le := Sound.audioLe (S := Str)) Sound.audioLe_trans
        Sound.audioLe_total rs
      refine this.imp ?_
      intro a b hab x y ha hb
      unfold Sound.audioLe at hab
      rw [ha, hb] at hab
      simpa using hab

theorem pyGet_inv {α : Type} {l : List α} {x : α} {i : ℕ} (h : pyGet l (i : ℤ) = .ok x) :
    l[i]? = some x := by
  unfold pyGet at h
  rw [if_neg (by omega)] at h
  simp only [Int.toNat_natCast] at h
  split at h
  · rename_i y hy
    rw [hy, Except.ok.inj h]
  · exact absurd h (by simp)

theorem byTag_elem (t : Str) (ns : List Node) : ∀ x ∈ byTag t ns, ∃ n a cs, x = .elem n a cs := by
  induction ns using byTag.induct with
  | case1 => intro x hx; simp [byTag] at hx
  | case2 s ns ih => intro x hx; rw [byTag] at hx; exact ih x hx
  | case3 n a cs ns ih1 ih2 =>
    intro x hx
    rw [byTag, List.mem_append, List.mem_append] at hx
    rcases hx with (hx | hx) | hx
    · split at hx
      · rw [List.mem_singleton] at hx; exact ⟨n, a, cs, hx⟩
      · simp at hx
    · exact ih1 x hx
    · exact ih2 x hx

theorem bind_ok {α β : Type} {x : Py α} {f : α → Py β} {b : β} (h : (x >>= f) = .ok b) :
    ∃ a, x = .ok a ∧ f a = .ok b := by
  cases x with
  | error e => exact absurd h (by simp [bind, Except.bind])
  | ok a => exact ⟨a, rfl, h⟩

theorem describes_of_parse {parse : Str → Py (List Node)} {tagNode f root speaker : Str} {d d' : DB} {spkr : ℤ}
    {r : Sound.Rec Str} (hf : f.head? = some '/')
    (h : parseRecord ws parse d root spkr speaker f tagNode = (d', .ok r)) :
    ∃ u, Describes ws parse tagNode f u := by
  unfold parseRecord at h
  split at h
  · exact absurd (Prod.mk.inj h).2 (by simp)
  · rename_i utt style audio tagNames hh
    split at h
    · exact absurd (Prod.mk.inj h).2 (by simp)
    · rename_i d1 ts hts
      obtain ⟨trans, ht, -⟩ := bind_ok (Prod.mk.inj h).2
      unfold parseHead at hh
      rw [pathJoin_of_absolute _ hf] at hh
      obtain ⟨doc, h1, hh⟩ := bind_ok hh
      obtain ⟨utt', h2, hh⟩ := bind_ok hh
      obtain ⟨st, h3, hh⟩ := bind_ok hh
      obtain ⟨sv, h3', hh⟩ := bind_ok hh
      obtain ⟨au, h4, hh⟩ := bind_ok hh
      obtain ⟨av, h4', hh⟩ := bind_ok hh
      obtain ⟨tg, h5, hh⟩ := bind_ok hh
      obtain ⟨t0, h5', hh⟩ := bind_ok hh
      obtain ⟨tn, h5'', hh⟩ := bind_ok hh
      simp only [pure, Except.pure, Except.ok.injEq, Prod.mk.injEq] at hh
      obtain ⟨rfl, rfl, rfl, rfl⟩ := hh
      unfold parseTrans at ht
      obtain ⟨tr, h6, ht⟩ := bind_ok ht
      obtain ⟨t2, h7, ht⟩ := bind_ok ht
      obtain ⟨tx, h8, ht⟩ := bind_ok ht
      have g : ∀ {l : List Node} {x : Node}, pyGet l 0 = .ok x → l[0]? = some x :=
        fun {l x} hx => pyGet_inv (i := 0) (by simpa using hx)
      have e2 := g h2
      have e3 := g h3
      have e4 := g h4
      have e5 := g h5
      have e5' := g h5'
      have e6 := g h6
      have e7 : tr.childNodes[2]? = some t2 := pyGet_inv (i := 2) (by simpa using h7)
      obtain ⟨n, a, cs, rfl⟩ := byTag_elem _ _ _ (List.mem_of_getElem? e2)
      obtain ⟨n1, a1, c1, rfl⟩ := byTag_elem _ _ _ (List.mem_of_getElem? e3)
      obtain ⟨n2, a2, c2, rfl⟩ := byTag_elem _ _ _ (List.mem_of_getElem? e4)
      obtain ⟨n3, a3, c3, rfl⟩ := byTag_elem _ _ _ (List.mem_of_getElem? e5)
      obtain ⟨n4, a4, c4, rfl⟩ := byTag_elem _ _ _ (List.mem_of_getElem? e6)
      cases t0 with
      | elem _ _ _ => exact absurd h5'' (by simp [Node.data])
      | text tags =>
        cases t2 with
        | elem _ _ _ => exact absurd h8 (by simp [Node.data])
        | text tx' =>
          simp only [Node.childNodes] at e3 e4 e5 e5' e6 e7
          cases c3 with
          | nil => simp at e5'
          | cons x rest =>
            rw [List.getElem?_cons_zero, Option.some.injEq] at e5'
            subst e5'
            exact ⟨⟨_, _, _, _⟩, doc, n, a, cs, n1, a1, c1, n2, a2, c2, n3, a3, tags, rest, n4, a4, c4, tx', h1, e2,
              e3, e4, e5, e6, e7, rfl, rfl, rfl, rfl⟩

theorem addFiles_inv {parse : Str → Py (List Node)} {tagNode root speaker : Str} {spkr : ℤ}
    (files : List Str) : ∀ (d d' : DB), (∀ f ∈ files, f.head? = some '/') →
      addFiles ws parse root spkr speaker tagNode d files = (d', .ok ()) →
      ∀ f ∈ files, ∃ u, Describes ws parse tagNode f u := by
  induction files with
  | nil => intro d d' _ _ f hf; simp at hf
  | cons g files ih =>
    intro d d' habs h f hf
    unfold addFiles at h
    split at h
    · exact absurd (Prod.mk.inj h).2 (by simp)
    · rename_i d1 r hr
      split at h
      · exact absurd (Prod.mk.inj h).2 (by simp)
      · rename_i d2 _
        rcases List.mem_cons.1 hf with rfl | hf
        · exact describes_of_parse (habs f List.mem_cons_self) hr
        · exact ih d2 d' (fun x hx => habs x (List.mem_cons_of_mem _ hx)) h f hf

theorem addAcornsSpeakers_inv {fs : Files} {parse : Str → Py (List Node)} {tagNode root : Str}
    (hroot : root.head? = some '/') (ss : List Str) : ∀ (d d' : DB),
      addAcornsSpeakers ws fs parse root tagNode d ss = (d', .ok ()) →
      ∀ s ∈ ss, ∃ files, XmlFiles fs (pathJoin (pathJoin root "XML".toList) s) files ∧
        ∀ f ∈ files, ∃ u, Describes ws parse tagNode f u := by
  induction ss with
  | nil => intro d d' _ s hs; simp at hs
  | cons t ss ih =>
    intro d d' h s hs
    unfold addAcornsSpeakers at h
    split at h
    · exact absurd (Prod.mk.inj h).2 (by simp)
    · rename_i d1 spkr _
      split at h
      · exact absurd (Prod.mk.inj h).2 (by simp)
      · rename_i files hfl
        split at h
        · exact absurd (Prod.mk.inj h).2 (by simp)
        · rename_i d2 hadd
          rcases List.mem_cons.1 hs with rfl | hs
          · have hx : XmlFiles fs (pathJoin (pathJoin root "XML".toList) s) files := by
              unfold xmlFilesIn at hfl
              split at hfl
              · exact absurd hfl (by simp)
              · rename_i l hl
                exact ⟨l, hl, (Except.ok.inj hfl).symm⟩
            refine ⟨files, hx, addFiles_inv files d1 d2 ?_ hadd⟩
            intro f hf
            obtain ⟨l, _, rfl⟩ := hx
            rw [List.mem_filter, List.mem_map] at hf
            obtain ⟨⟨g, _, rfl⟩, _⟩ := hf
            exact pathJoin_absolute _ (pathJoin_absolute _ (pathJoin_absolute _ hroot))
          · exact ih d2 d' h s hs

/-- **C117.** Conversely the import fails if a speaker has no directory, or if an XML file does not
describe an utterance. -/
theorem C117_only_if (ws : Char → Bool) (fs : Files) (parse : Str → Py (List Node)) (d d' : DB) (root : Str)
    (year : ℤ) (hroot : (fs.abspath root).head? = some '/')
    (h : fromAcornsRoot ws fs parse d root year = (d', .ok ())) :
    (year = 1 ∨ year = 2) ∧ ∀ s ∈ getSpeakers year, ∃ files,
      XmlFiles fs (pathJoin (pathJoin (fs.abspath root) "XML".toList) s) files ∧
      ∀ f ∈ files, ∃ u, Describes ws parse (if year = 1 then "vistag".toList else "vistags".toList) f u := by
  have htag : tagNodeName year = if year = 1 then "vistag".toList else "vistags".toList := by
    unfold tagNodeName; split <;> rfl
  unfold fromAcornsRoot at h
  split at h
  · exact absurd (Prod.mk.inj h).2 (by simp)
  · rename_i hy
    have hyear : year = 1 ∨ year = 2 := by
      unfold checkYear at hy
      split at hy
      · assumption
      · exact absurd hy (by simp)
    refine ⟨hyear, ?_⟩
    simp only [] at h
    split at h
    · exact absurd (Prod.mk.inj h).2 (by simp)
    · rename_i d1 hadd
      have := addAcornsSpeakers_inv hroot _ _ _ hadd
      rw [htag] at this
      exact this

/-- **C118.** Years other than 1 and 2 are refused before the database changes. -/
theorem C118_wrong_year (ws : Char → Bool) (fs : Files) (parse : Str → Py (List Node)) (d : DB) (root : Str)
    (year : ℤ) (h1 : year ≠ 1) (h2 : year ≠ 2) :
    fromAcornsRoot ws fs parse d root year = (d, .error .typeError) := by
  unfold fromAcornsRoot checkYear
  rw [if_neg (by omega)]

/-- **C118.** The first year has four speakers and the second one ten, with distinct names of the
form `Speaker-dd`, where `dd` is their number written with two digits. -/
theorem C118_speakers :
    getSpeakers 1 = ["Speaker-01".toList, "Speaker-02".toList, "Speaker-03".toList, "Speaker-04".toList] ∧
    (getSpeakers 2).length = 10 ∧ (getSpeakers 2).Nodup ∧ getSpeakers 1 <+: getSpeakers 2 ∧
    ∀ (k : ℕ) (s : Str), (getSpeakers 2)[k]? = some s → ∃ a b : Char, s = "Speaker-".toList ++ [a, b] ∧
      a.isDigit ∧ b.isDigit ∧ (a.toNat - 48) * 10 + (b.toNat - 48) = k + 1 := by
  refine ⟨by decide, by decide, by decide, by decide, ?_⟩
  intro k s hk
  have hk10 : k < 10 := by
    have := (List.getElem?_eq_some_iff.1 hk).1
    have h10 : (getSpeakers 2).length = 10 := by decide
    omega
  have hs : s = "Speaker-".toList ++ Loaders.pad2 (k + 1) := by
    unfold getSpeakers nSpeakers at hk
    rw [List.getElem?_map, List.getElem?_range (by simpa using hk10)] at hk
    simpa using hk.symm
  subst hs
  clear hk
  interval_cases k
  all_goals first
    | exact ⟨'0', '1', by decide, by decide, by decide, by decide⟩
    | exact ⟨'0', '2', by decide, by decide, by decide, by decide⟩
    | exact ⟨'0', '3', by decide, by decide, by decide, by decide⟩
    | exact ⟨'0', '4', by decide, by decide, by decide, by decide⟩
    | exact ⟨'0', '5', by decide, by decide, by decide, by decide⟩
    | exact ⟨'0', '6', by decide, by decide, by decide, by decide⟩
    | exact ⟨'0', '7', by decide, by decide, by decide, by decide⟩
    | exact ⟨'0', '8', by decide, by decide, by decide, by decide⟩
    | exact ⟨'0', '9', by decide, by decide, by decide, by decide⟩
    | exact ⟨'1', '0', by decide, by decide, by decide, by decide⟩

end Verif.Corpus
