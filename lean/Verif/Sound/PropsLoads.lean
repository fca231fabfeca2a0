import Verif.Sound.Loads
import Verif.Sound.Props

/-!
# Property C232: loading files in a database of sounds which is not empty
-/

namespace Verif.Sound

variable {S I : Type} [LinearOrder S]

/-- The result of a function which returns its state. -/
def outcome {α : Type} (p : α × Py Unit) : Py α :=
  match p.2 with
  | .ok () => .ok p.1
  | .error e => .error e

theorem tags_outcome (ts : List S) : ∀ d : DB S I,
    ts.foldlM (fun d t => do let p ← d.addTag t; return p.1) d = outcome (loadTagsS d ts) := by
  induction ts with
  | nil => intro d; rfl
  | cons t ts ih =>
    intro d
    rw [List.foldlM_cons]
    unfold loadTagsS
    cases h : d.addTag t with
    | error e => rfl
    | ok p => exact ih p.1

theorem records_outcome (spk : ℕ) (rs : List (RecDoc S)) : ∀ d : DB S I,
    rs.foldlM (loadRecord spk) d = outcome (loadRecordsS spk d rs) := by
  induction rs with
  | nil => intro d; rfl
  | cons r rs ih =>
    intro d
    rw [List.foldlM_cons]
    unfold loadRecordsS
    cases h : loadRecord spk d r with
    | error e => rfl
    | ok p => exact ih p

theorem speakers_outcome (ss : List (SpeakerDoc S I)) : ∀ d : DB S I,
    ss.foldlM loadSpeaker d = outcome (loadSpeakersS d ss) := by
  induction ss with
  | nil => intro d; rfl
  | cons s ss ih =>
    intro d
    rw [List.foldlM_cons]
    unfold loadSpeakersS loadSpeaker
    cases h : d.addSpeaker s.name s.info with
    | error e => rfl
    | ok p =>
      simp only [bind, Except.bind]
      rw [records_outcome]
      obtain ⟨d', o⟩ := loadRecordsS p.2 p.1 s.records
      cases o with
      | error e => rfl
      | ok u => exact ih d'

theorem sort_outcome (left : List (Rec S) → List (Rec S)) (ls : List (List (Rec S))) :
    ls.mapM sortRecords = outcome (sortS left ls) := by
  induction ls with
  | nil => rfl
  | cons l ls ih =>
    rw [List.mapM_cons]
    unfold sortS
    cases h : sortRecords l with
    | error e => rfl
    | ok l' =>
      simp only [bind, Except.bind]
      rw [ih]
      obtain ⟨q, o⟩ := sortS left ls
      cases o with
      | error e => rfl
      | ok u => rfl

/-- **C232.** The result of `load_from` is that of C77. -/
theorem C232_outcome (left : List (Rec S) → List (Rec S)) (d : DB S I) (doc : Doc S I) (sort : Bool) :
    d.loadFrom doc sort = outcome (d.loadFromS left doc sort) := by
  unfold DB.loadFrom DB.loadFromS
  simp only []
  rw [tags_outcome]
  obtain ⟨d1, o⟩ := loadTagsS { d with root := doc.root } doc.tags
  cases o with
  | error e => rfl
  | ok u =>
    show (do let d ← doc.speakers.foldlM loadSpeaker d1; if sort then d.sort else return d) = _
    rw [speakers_outcome]
    dsimp only
    obtain ⟨d2, o⟩ := loadSpeakersS d1 doc.speakers
    cases o with
    | error e => rfl
    | ok u =>
      cases sort with
      | false => rfl
      | true =>
        show (do let rs ← d2.records.mapM sortRecords; return { d2 with records := rs }) = _
        rw [sort_outcome left]
        dsimp only
        rw [if_pos rfl]
        obtain ⟨q, o⟩ := sortS left d2.records
        cases o with
        | error e => rfl
        | ok u => rfl

/-! ### Documents in general -/

/-- A record read from its description. -/
def Reads (d : DB S I) (spk : ℕ) (rd : RecDoc S) (r : Rec S) : Prop :=
  r.db = d.id ∧ r.spkr = spk ∧ r.audio = rd.audio ∧ r.trans = rd.trans ∧ r.style = rd.style ∧
  (∀ t ∈ r.tags, 0 ≤ t) ∧ tagNames d r = .ok rd.tags

theorem pyGet_prefix {a b : List S} (h : a <+: b) {t : ℤ} (ht : 0 ≤ t) {x : S} (hx : pyGet a t = .ok x) :
    pyGet b t = .ok x := by
  obtain ⟨n, rfl⟩ := Int.eq_ofNat_of_zero_le ht
  have hn : n < a.length := by
    by_contra hc
    unfold pyGet at hx
    rw [if_neg (by omega), Int.toNat_natCast, List.getElem?_eq_none (by omega)] at hx
    cases hx
  rw [pyGet_nat a n hn] at hx
  have hb : n < b.length := lt_of_lt_of_le hn h.length_le
  rw [pyGet_nat b n hb]
  obtain ⟨c, rfl⟩ := h
  rw [← hx, List.getElem_append_left hn]

theorem names_prefix {a b : List S} (h : a <+: b) : ∀ (ts : List ℤ) (ns : List S), (∀ t ∈ ts, 0 ≤ t) →
    ts.mapM (fun t => pyGet a t) = (.ok ns : Py (List S)) → ts.mapM (fun t => pyGet b t) = (.ok ns : Py (List S)) := by
  intro ts
  induction ts with
  | nil => intro ns _ h; exact h
  | cons t ts ih =>
    intro ns h0 hm
    rw [List.mapM_cons] at hm ⊢
    cases hx : pyGet a t with
    | error e => rw [hx] at hm; cases hm
    | ok x =>
      rw [hx] at hm
      rw [pyGet_prefix h (h0 t List.mem_cons_self) hx]
      cases hr : ts.mapM (fun t => pyGet a t) with
      | error e => rw [hr] at hm; cases hm
      | ok ns' =>
        rw [hr] at hm
        have := ih ns' (fun t ht => h0 t (List.mem_cons_of_mem _ ht)) hr
        show (do let ys ← ts.mapM (fun t => pyGet b t); pure (x :: ys)) = _
        rw [this]
        exact hm

theorem Reads.mono {d d' : DB S I} {spk : ℕ} {rd : RecDoc S} {r : Rec S} (h : Reads d spk rd r) (hi : d'.id = d.id)
    (ht : d.tags <+: d'.tags) : Reads d' spk rd r := by
  obtain ⟨h1, h2, h3, h4, h5, h6, h7⟩ := h
  exact ⟨by rw [h1, hi], h2, h3, h4, h5, h6, names_prefix ht r.tags rd.tags h6 h7⟩

theorem tagsOfNames_any (ns : List S) : ∀ d : DB S I, TagsOk d →
    ∃ d' ts, tagsOfNames d ns = .ok (d', ts) ∧ TagsOk d' ∧ d.tags <+: d'.tags ∧ d'.records = d.records ∧
      d'.spkrs = d.spkrs ∧ d'.spkrsInfo = d.spkrsInfo ∧ d'.id = d.id ∧ d'.root = d.root ∧ (∀ t ∈ ts, 0 ≤ t) ∧
      ts.mapM (fun t => pyGet d'.tags t) = (.ok ns : Py (List S)) ∧ ∀ t ∈ d'.tags, t ∈ d.tags ∨ t ∈ ns := by
  induction ns with
  | nil =>
    intro d h
    exact ⟨d, [], rfl, h, List.prefix_refl _, rfl, rfl, rfl, rfl, rfl, by simp, rfl, fun t ht => .inl ht⟩
  | cons n ns ih =>
    intro d h
    obtain ⟨d1, i, e1, o1, g1, p1, s1, r1⟩ : ∃ (d1 : DB S I) (i : ℕ), d.getTagAdd n = .ok (d1, i) ∧ TagsOk d1 ∧
        d1.tags[i]? = some n ∧ d.tags <+: d1.tags ∧ (∀ t ∈ d1.tags, t ∈ d.tags ∨ t = n) ∧ d1.records = d.records ∧
        d1.spkrs = d.spkrs ∧ d1.spkrsInfo = d.spkrsInfo ∧ d1.id = d.id ∧ d1.root = d.root := by
      rcases getTagAdd_cases h n with ⟨_, h1, d1, h2⟩ | ⟨i, hi, h1⟩
      · obtain ⟨a1, a2, a3, a4, a5, a6, a7, a8, a9⟩ := addTag_ok h h2
        refine ⟨d1, d.tags.length, by rw [h1, h2], a1, by rw [a3]; simp, by rw [a3]; exact List.prefix_append _ _, ?_,
          a5, a6, a7, a8, a9⟩
        intro t ht
        rw [a3, List.mem_append, List.mem_singleton] at ht
        exact ht
      · exact ⟨d, i, h1, h, hi, List.prefix_refl _, fun t ht => .inl ht, rfl, rfl, rfl, rfl, rfl⟩
    obtain ⟨d2, ts, e2, o2, p2, q1, q2, q3, q4, q5, n2, m2, t2⟩ := ih d1 o1
    refine ⟨d2, (i : ℤ) :: ts, ?_, o2, p1.trans p2, by rw [q1, r1.1], by rw [q2, r1.2.1], by rw [q3, r1.2.2.1],
      by rw [q4, r1.2.2.2.1], by rw [q5, r1.2.2.2.2], ?_, ?_, ?_⟩
    · unfold tagsOfNames
      rw [e1]
      simp only [bind, Except.bind]
      rw [e2]
      rfl
    · intro t ht
      rcases List.mem_cons.1 ht with rfl | ht
      · exact Int.natCast_nonneg i
      · exact n2 t ht
    · rw [List.mapM_cons]
      have hi := List.getElem?_eq_some_iff.1 g1
      rw [pyGet_prefix p2 (Int.natCast_nonneg i) (by rw [pyGet_nat d1.tags i hi.1, hi.2]), m2]
      rfl
    · intro t ht
      rcases t2 t ht with ht | ht
      · rcases s1 t ht with ht | rfl
        · exact .inl ht
        · exact .inr List.mem_cons_self
      · exact .inr (List.mem_cons_of_mem _ ht)

theorem loadRecords_any (spk : ℕ) (rds : List (RecDoc S)) : ∀ (d : DB S I) (pre : List (List (Rec S)))
    (last : List (Rec S)), TagsOk d → d.records = pre ++ [last] →
    ∃ d' new, rds.foldlM (loadRecord spk) d = (.ok d' : Py (DB S I)) ∧ TagsOk d' ∧ d.tags <+: d'.tags ∧
      d'.records = pre ++ [last ++ new] ∧ d'.spkrs = d.spkrs ∧ d'.spkrsInfo = d.spkrsInfo ∧ d'.id = d.id ∧
      d'.root = d.root ∧ List.Forall₂ (Reads d' spk) rds new ∧
      ∀ t ∈ d'.tags, t ∈ d.tags ∨ ∃ rd ∈ rds, t ∈ rd.tags := by
  induction rds with
  | nil =>
    intro d pre last h hr
    exact ⟨d, [], rfl, h, List.prefix_refl _, by rw [hr, List.append_nil], rfl, rfl, rfl, rfl, .nil, fun t ht => .inl ht⟩
  | cons rd rds ih =>
    intro d pre last h hr
    obtain ⟨d1, ts, e1, o1, p1, q1, q2, q3, q4, q5, n1, m1, t1⟩ := tagsOfNames_any rd.tags d h
    have hstep : loadRecord spk d rd = .ok { d1 with
        records := pre ++ [last ++ [⟨d.id, spk, rd.audio, ts, rd.trans, rd.style⟩]] } := by
      unfold loadRecord fromDict
      rw [e1]
      simp only [bind, Except.bind, pure, Except.pure, q1, hr]
      have hne : ∃ a l, pre ++ [last] = a :: l := by
        cases pre with
        | nil => exact ⟨_, _, rfl⟩
        | cons a l => exact ⟨_, _, rfl⟩
      obtain ⟨a, l, hal⟩ := hne
      have hmod : (pre ++ [last]).modify ((pre ++ [last]).length - 1)
          (fun l => l ++ [(⟨d.id, spk, rd.audio, ts, rd.trans, rd.style⟩ : Rec S)]) =
          pre ++ [last ++ [⟨d.id, spk, rd.audio, ts, rd.trans, rd.style⟩]] := by
        have : (pre ++ [last]).length - 1 = pre.length := by simp
        rw [this, modify_append_last]
      rw [hal] at hmod ⊢
      simp only []
      rw [hmod]
    obtain ⟨d2, new, e2, o2, p2, r1, r2, r3, r4, r5, f2, t2⟩ := ih { d1 with
      records := pre ++ [last ++ [⟨d.id, spk, rd.audio, ts, rd.trans, rd.style⟩]] } pre _ o1 rfl
    refine ⟨d2, ⟨d.id, spk, rd.audio, ts, rd.trans, rd.style⟩ :: new, ?_, o2, p1.trans p2, ?_, by rw [r2]; exact q2,
      by rw [r3]; exact q3, by rw [r4]; exact q4, by rw [r5]; exact q5, ?_, ?_⟩
    · rw [List.foldlM_cons, hstep]
      exact e2
    · rw [r1]; simp
    · refine .cons ?_ f2
      exact ⟨by rw [r4]; exact q4.symm, rfl, rfl, rfl, rfl, n1, names_prefix p2 _ _ n1 m1⟩
    · intro t ht
      rcases t2 t ht with ht | ⟨x, hx, ht⟩
      · rcases t1 t ht with ht | ht
        · exact .inl ht
        · exact .inr ⟨rd, List.mem_cons_self, ht⟩
      · exact .inr ⟨x, List.mem_cons_of_mem _ hx, ht⟩

theorem loadSpeakers_any (ss : List (SpeakerDoc S I)) : ∀ d : DB S I, TagsOk d →
    (d.spkrs ++ ss.map SpeakerDoc.name).Nodup →
    ∃ d' new, ss.foldlM loadSpeaker d = (.ok d' : Py (DB S I)) ∧ TagsOk d' ∧ d.tags <+: d'.tags ∧
      d'.records = d.records ++ new ∧ d'.spkrs = d.spkrs ++ ss.map SpeakerDoc.name ∧
      d'.spkrsInfo = d.spkrsInfo ++ ss.map SpeakerDoc.info ∧ d'.id = d.id ∧ d'.root = d.root ∧
      List.Forall₂ (fun s l => List.Forall₂ (Reads d' s.2) s.1.records l) (ss.zipIdx d.spkrs.length) new ∧
      ∀ t ∈ d'.tags, t ∈ d.tags ∨ ∃ s ∈ ss, ∃ rd ∈ s.records, t ∈ rd.tags := by
  induction ss with
  | nil =>
    intro d h _
    exact ⟨d, [], rfl, h, List.prefix_refl _, by simp, by simp, by simp, rfl, rfl, .nil, fun t ht => .inl ht⟩
  | cons s ss ih =>
    intro d h hnd
    have hnew : s.name ∉ d.spkrs := by
      rw [List.nodup_append] at hnd
      intro hc
      exact hnd.2.2 s.name hc s.name (by simp) rfl
    have hadd : d.addSpeaker s.name s.info = .ok (⟨d.id, d.records ++ [[]], d.tags, d.tagId, d.root,
        d.spkrs ++ [s.name], d.spkrsInfo ++ [s.info]⟩, d.spkrs.length) := by
      unfold DB.addSpeaker
      rw [if_neg hnew]
      simp
    obtain ⟨d1, n1, e1, o1, p1, r1, r2, r3, r4, r5, f1, t1⟩ := loadRecords_any d.spkrs.length s.records
      (⟨d.id, d.records ++ [[]], d.tags, d.tagId, d.root, d.spkrs ++ [s.name], d.spkrsInfo ++ [s.info]⟩ : DB S I)
      d.records [] h rfl
    obtain ⟨d2, n2, e2, o2, p2, q1, q2, q3, q4, q5, f2, t2⟩ := ih d1 o1 (by rw [r2]; simpa using hnd)
    simp only [List.nil_append] at r1 r2 r3 r4 r5 p1 t1
    refine ⟨d2, n1 :: n2, ?_, o2, p1.trans p2, by rw [q1, r1]; simp, by rw [q2, r2]; simp, by rw [q3, r3]; simp,
      by rw [q4, r4], by rw [q5, r5], ?_, ?_⟩
    · rw [List.foldlM_cons]
      unfold loadSpeaker
      rw [hadd]
      simp only [bind, Except.bind]
      rw [e1]
      exact e2
    · rw [List.zipIdx_cons]
      refine .cons ?_ ?_
      · exact f1.imp fun _ _ h => h.mono q4 p2
      · rw [r2] at f2
        simpa using f2
    · intro t ht
      rcases t2 t ht with ht | ⟨x, hx, ht⟩
      · rcases t1 t ht with ht | ht
        · exact .inl ht
        · exact .inr ⟨s, List.mem_cons_self, ht⟩
      · exact .inr ⟨x, List.mem_cons_of_mem _ hx, ht⟩

theorem outcome_ok {α : Type} {p : α × Py Unit} {a : α} : outcome p = .ok a ↔ p = (a, .ok ()) := by
  obtain ⟨x, o⟩ := p
  unfold outcome
  cases o with
  | error e => simp
  | ok u => simp

theorem loadTagsS_append (a : List S) : ∀ (d d' : DB S I) (b : List S), loadTagsS d a = (d', .ok ()) →
    loadTagsS d (a ++ b) = loadTagsS d' b := by
  induction a with
  | nil => intro d d' b h; rw [show d = d' from (Prod.mk.inj h).1]; rfl
  | cons t a ih =>
    intro d d' b h
    simp only [List.cons_append, loadTagsS] at h ⊢
    cases ht : d.addTag t with
    | error e => rw [ht] at h; cases (Prod.mk.inj h).2
    | ok p =>
      rw [ht] at h
      exact ih p.1 d' b h

theorem loadSpeakersS_append (a : List (SpeakerDoc S I)) : ∀ (d d' : DB S I) (b : List (SpeakerDoc S I)),
    loadSpeakersS d a = (d', .ok ()) → loadSpeakersS d (a ++ b) = loadSpeakersS d' b := by
  induction a with
  | nil => intro d d' b h; rw [show d = d' from (Prod.mk.inj h).1]; rfl
  | cons s a ih =>
    intro d d' b h
    simp only [List.cons_append, loadSpeakersS] at h ⊢
    cases hs : d.addSpeaker s.name s.info with
    | error e => rw [hs] at h; cases (Prod.mk.inj h).2
    | ok p =>
      rw [hs] at h
      dsimp only at h ⊢
      generalize loadRecordsS p.2 p.1 s.records = q at h ⊢
      obtain ⟨d1, o⟩ := q
      cases o with
      | error e => cases (Prod.mk.inj h).2
      | ok u => exact ih d1 d' b h

/-- The tags of a document, when none of them exists. -/
theorem tags_loaded (d : DB S I) (h : TagsOk d) (ts : List S) (ht : (d.tags ++ ts).Nodup) :
    ∃ d', loadTagsS d ts = (d', .ok ()) ∧ TagsOk d' ∧ d'.tags = d.tags ++ ts ∧ d'.records = d.records ∧
      d'.spkrs = d.spkrs ∧ d'.spkrsInfo = d.spkrsInfo ∧ d'.id = d.id ∧ d'.root = d.root := by
  obtain ⟨d', h1, h2⟩ := loadTags ts d h ht
  rw [tags_outcome] at h1
  exact ⟨d', outcome_ok.1 h1, h2⟩

theorem speakers_loaded (d : DB S I) (h : TagsOk d) (ss : List (SpeakerDoc S I))
    (hs : (d.spkrs ++ ss.map SpeakerDoc.name).Nodup) :
    ∃ d' new, loadSpeakersS d ss = (d', .ok ()) ∧ TagsOk d' ∧ d.tags <+: d'.tags ∧
      d'.records = d.records ++ new ∧ d'.spkrs = d.spkrs ++ ss.map SpeakerDoc.name ∧
      d'.spkrsInfo = d.spkrsInfo ++ ss.map SpeakerDoc.info ∧ d'.id = d.id ∧ d'.root = d.root ∧
      List.Forall₂ (fun s l => List.Forall₂ (Reads d' s.2) s.1.records l) (ss.zipIdx d.spkrs.length) new ∧
      ∀ t ∈ d'.tags, t ∈ d.tags ∨ ∃ s ∈ ss, ∃ rd ∈ s.records, t ∈ rd.tags := by
  obtain ⟨d', new, h1, h2⟩ := loadSpeakers_any ss d h hs
  rw [speakers_outcome] at h1
  exact ⟨d', new, outcome_ok.1 h1, h2⟩

/-- **C232.** A file whose tags and speakers are new is added to the database: its tags and speakers come after those which
exist, records which exist and the names of their tags do not change, and records of the file have the names of tags they
have in the file, also those which the file does not declare.  The root becomes that of the file, for all records. -/
theorem C232_load (left : List (Rec S) → List (Rec S)) (d : DB S I) (doc : Doc S I) (h : TagsOk d)
    (hl : d.records.length = d.spkrs.length) (ht : (d.tags ++ doc.tags).Nodup)
    (hs : (d.spkrs ++ doc.speakers.map SpeakerDoc.name).Nodup) :
    ∃ d', d.loadFromS left doc false = (d', .ok ()) ∧ TagsOk d' ∧ d'.id = d.id ∧ d'.root = doc.root ∧
      (d.tags ++ doc.tags) <+: d'.tags ∧
      (∀ t ∈ d'.tags, t ∈ d.tags ∨ t ∈ doc.tags ∨ ∃ s ∈ doc.speakers, ∃ rd ∈ s.records, t ∈ rd.tags) ∧
      d'.spkrs = d.spkrs ++ doc.speakers.map SpeakerDoc.name ∧
      d'.spkrsInfo = d.spkrsInfo ++ doc.speakers.map SpeakerDoc.info ∧ d'.records.length = d'.spkrs.length ∧
      (∀ k < d.records.length, d'.records[k]? = d.records[k]?) ∧
      (∀ (r : Rec S) (ns : List S), (∀ t ∈ r.tags, 0 ≤ t) → tagNames d r = .ok ns → tagNames d' r = .ok ns) ∧
      ∀ (k : ℕ) (s : SpeakerDoc S I), doc.speakers[k]? = some s → ∃ l, d'.records[d.spkrs.length + k]? = some l ∧
        l.length = s.records.length ∧ ∀ (i : ℕ) (rd : RecDoc S), s.records[i]? = some rd → ∃ r, l[i]? = some r ∧
          r.db = d.id ∧ r.spkr = ((d.spkrs.length + k : ℕ) : ℤ) ∧ r.audio = rd.audio ∧ r.trans = rd.trans ∧
          r.style = rd.style ∧ tagNames d' r = .ok rd.tags := by
  obtain ⟨d1, a1, a2, a3, a4, a5, a6, a7, a8⟩ := tags_loaded { d with root := doc.root } h doc.tags ht
  simp only [] at a3 a4 a5 a6 a7 a8
  obtain ⟨d2, new, b1, b2, b3, b4, b5, b6, b7, b8, b9, b10⟩ := speakers_loaded d1 a2 doc.speakers (by rw [a5]; exact hs)
  have hpre : d.tags <+: d2.tags := (by rw [a3] at b3; exact (List.prefix_append _ _).trans b3)
  have hlen : new.length = doc.speakers.length := by
    have := b9.length_eq
    rw [List.length_zipIdx] at this
    exact this.symm
  refine ⟨d2, ?_, b2, by rw [b7, a7], by rw [b8, a8], by rw [← a3]; exact b3, ?_, by rw [b5, a5], by rw [b6, a6], ?_, ?_,
    ?_, ?_⟩
  · unfold DB.loadFromS
    rw [a1]
    dsimp only
    rw [b1]
    rfl
  · intro t ht
    rcases b10 t ht with ht | ht
    · rw [a3, List.mem_append] at ht
      rcases ht with ht | ht
      · exact .inl ht
      · exact .inr (.inl ht)
    · exact .inr (.inr ht)
  · rw [b4, b5, a4, a5, List.length_append, List.length_append, hl, hlen, List.length_map]
  · intro k hk
    rw [b4, a4, List.getElem?_append_left hk]
  · intro r ns h0 hn
    exact names_prefix hpre _ _ h0 hn
  · intro k s hk
    rw [a5] at b9
    have hk' := List.getElem?_eq_some_iff.1 hk
    have hkn : k < new.length := by rw [hlen]; exact hk'.1
    have hf := List.forall₂_iff_get.1 b9
    have := hf.2 k (by rw [List.length_zipIdx]; exact hk'.1) hkn
    simp only [List.get_eq_getElem, List.getElem_zipIdx, hk'.2] at this
    refine ⟨new[k], ?_, this.length_eq.symm, ?_⟩
    · rw [b4, a4, ← hl, List.getElem?_append_right (by omega)]
      simp [hkn]
    · intro i rd hi
      have hi' := List.getElem?_eq_some_iff.1 hi
      have hin : i < new[k].length := by rw [← this.length_eq]; exact hi'.1
      have hr := (List.forall₂_iff_get.1 this).2 i hi'.1 hin
      simp only [List.get_eq_getElem, hi'.2] at hr
      obtain ⟨c1, c2, c3, c4, c5, c6, c7⟩ := hr
      refine ⟨new[k][i], List.getElem?_eq_getElem hin, by rw [c1, b7, a7], c2, c3, c4, c5, c7⟩

/-- **C232.** A tag which exists, in the database or before in the file, makes `load_from` raise `ValueError`; the root is
already that of the file and the tags before this one are added; there is no other change. -/
theorem C232_tag_exists (left : List (Rec S) → List (Rec S)) (d : DB S I) (doc : Doc S I) (sort : Bool) (h : TagsOk d)
    (a b : List S) (t : S) (hd : doc.tags = a ++ t :: b) (ha : (d.tags ++ a).Nodup) (ht : t ∈ d.tags ++ a) :
    ∃ d', d.loadFromS left doc sort = (d', .error .valueError) ∧ TagsOk d' ∧ d'.tags = d.tags ++ a ∧
      d'.records = d.records ∧ d'.spkrs = d.spkrs ∧ d'.spkrsInfo = d.spkrsInfo ∧ d'.root = doc.root := by
  obtain ⟨d1, a1, a2, a3, a4, a5, a6, a7, a8⟩ := tags_loaded { d with root := doc.root } h a ha
  refine ⟨d1, ?_, a2, a3, a4, a5, a6, a8⟩
  unfold DB.loadFromS
  rw [hd, loadTagsS_append a _ d1 _ a1]
  have e := (C76_add_tag d1 a2 t).1 (by rw [a3]; exact ht)
  unfold loadTagsS
  rw [e]

/-- **C232.** A speaker who exists, in the database or before in the file, makes `load_from` raise `ValueError`; tags and
the speakers before this one remain, with their records, as if the file had ended there, and nothing is sorted. -/
theorem C232_speaker_exists (left : List (Rec S) → List (Rec S)) (d : DB S I) (doc : Doc S I) (sort : Bool) (h : TagsOk d)
    (ht : (d.tags ++ doc.tags).Nodup) (a b : List (SpeakerDoc S I)) (s : SpeakerDoc S I) (hd : doc.speakers = a ++ s :: b)
    (ha : (d.spkrs ++ a.map SpeakerDoc.name).Nodup) (hs : s.name ∈ d.spkrs ++ a.map SpeakerDoc.name) :
    ∃ d', d.loadFromS left { doc with speakers := a } false = (d', .ok ()) ∧
      d.loadFromS left doc sort = (d', .error .valueError) := by
  obtain ⟨d1, a1, a2, a3, a4, a5, a6, a7, a8⟩ := tags_loaded { d with root := doc.root } h doc.tags ht
  simp only [] at a3 a4 a5 a6 a7 a8
  obtain ⟨d2, new, b1, b2, b3, b4, b5, b6, b7, b8, b9, b10⟩ := speakers_loaded d1 a2 a (by rw [a5]; exact ha)
  refine ⟨d2, ?_, ?_⟩
  · unfold DB.loadFromS
    rw [a1]
    dsimp only
    rw [b1]
    rfl
  · unfold DB.loadFromS
    rw [a1]
    dsimp only
    rw [hd, loadSpeakersS_append a _ d2 _ b1]
    have e : d2.addSpeaker s.name s.info = .error .valueError := by
      unfold DB.addSpeaker
      rw [if_pos (by rw [b5, a5]; exact hs)]
    unfold loadSpeakersS
    rw [e]

theorem first_repeated {α : Type} [DecidableEq α] (base ts : List α) (hb : base.Nodup) :
    (base ++ ts).Nodup ∨ ∃ a t b, ts = a ++ t :: b ∧ (base ++ a).Nodup ∧ t ∈ base ++ a := by
  induction ts using List.reverseRecOn with
  | nil => exact .inl (by simpa using hb)
  | append_singleton ts x ih =>
    rcases ih with ih | ⟨a, t, b, h1, h2, h3⟩
    · by_cases hx : x ∈ base ++ ts
      · exact .inr ⟨ts, x, [], rfl, ih, hx⟩
      · refine .inl ?_
        rw [← List.append_assoc, List.nodup_append]
        refine ⟨ih, List.nodup_singleton x, ?_⟩
        intro p hp q hq
        rw [List.mem_singleton] at hq
        subst hq
        rintro rfl
        exact hx hp
    · exact .inr ⟨a, t, b ++ [x], by rw [h1]; simp, h2, h3⟩

/-- **C232.** Without sorting, a file is loaded exactly when its tags and its speakers are distinct and new; it raises
`ValueError` otherwise. -/
theorem C232_iff (left : List (Rec S) → List (Rec S)) (d : DB S I) (doc : Doc S I) (h : TagsOk d) (hn : d.spkrs.Nodup) :
    ((d.loadFromS left doc false).2 = .ok () ↔
      (d.tags ++ doc.tags).Nodup ∧ (d.spkrs ++ doc.speakers.map SpeakerDoc.name).Nodup) ∧
    ((d.loadFromS left doc false).2 = .ok () ∨ (d.loadFromS left doc false).2 = .error .valueError) := by
  rcases first_repeated d.tags doc.tags h.1 with ht | ⟨a, t, b, h1, h2, h3⟩
  · rcases first_repeated d.spkrs (doc.speakers.map SpeakerDoc.name) hn with hs | ⟨a, t, b, h1, h2, h3⟩
    · obtain ⟨d1, a1, a2, a3, a4, a5, a6, a7, a8⟩ := tags_loaded { d with root := doc.root } h doc.tags ht
      obtain ⟨d2, new, b1, _⟩ := speakers_loaded d1 a2 doc.speakers (by rw [a5]; exact hs)
      have : (d.loadFromS left doc false).2 = .ok () := by
        unfold DB.loadFromS
        rw [a1]
        dsimp only
        rw [b1]
        rfl
      exact ⟨iff_of_true this ⟨ht, hs⟩, .inl this⟩
    · obtain ⟨a', r', e1, e2, e3⟩ := List.map_eq_append_iff.1 h1
      obtain ⟨s, b', f1, f2, f3⟩ := List.map_eq_cons_iff.1 e3
      subst f1 e2
      obtain ⟨d', _, g⟩ := C232_speaker_exists left d doc false h ht a' b' s e1 h2 (by rw [f2]; exact h3)
      rw [g]
      refine ⟨iff_of_false (by simp) ?_, .inr rfl⟩
      rintro ⟨_, hc⟩
      rw [h1, ← List.append_assoc, List.nodup_append] at hc
      exact hc.2.2 t h3 t List.mem_cons_self rfl
  · obtain ⟨d', g, _⟩ := C232_tag_exists left d doc false h a b t h1 h2 h3
    rw [g]
    refine ⟨iff_of_false (by simp) ?_, .inr rfl⟩
    rintro ⟨hc, _⟩
    rw [h1, ← List.append_assoc, List.nodup_append] at hc
    exact hc.2.2 t h3 t List.mem_cons_self rfl

/-- **C232.** A file which declares a tag or has a speaker cannot be loaded twice: the second load raises `ValueError` and
changes nothing. -/
theorem C232_twice (left : List (Rec S) → List (Rec S)) (d d' : DB S I) (doc : Doc S I) (sort sort' : Bool) (h : TagsOk d)
    (hn : d.spkrs.Nodup) (hl : d.loadFromS left doc sort = (d', .ok ())) (hne : doc.tags ≠ [] ∨ doc.speakers ≠ []) :
    d'.loadFromS left doc sort' = (d', .error .valueError) := by
  have hok : (d.loadFromS left doc false).2 = .ok () := by
    unfold DB.loadFromS at hl ⊢
    generalize loadTagsS { d with root := doc.root } doc.tags = q at hl ⊢
    obtain ⟨d1, o⟩ := q
    cases o with
    | error e => cases (Prod.mk.inj hl).2
    | ok u =>
      dsimp only at hl ⊢
      generalize loadSpeakersS d1 doc.speakers = q at hl ⊢
      obtain ⟨d2, o⟩ := q
      cases o with
      | error e => cases (Prod.mk.inj hl).2
      | ok u => rfl
  obtain ⟨ht, hs⟩ := (C232_iff left d doc h hn).1.1 hok
  obtain ⟨d1, a1, a2, a3, a4, a5, a6, a7, a8⟩ := tags_loaded { d with root := doc.root } h doc.tags ht
  simp only [] at a3 a4 a5 a6 a7 a8
  obtain ⟨d2, new, b1, b2, b3, b4, b5, b6, b7, b8, b9, b10⟩ := speakers_loaded d1 a2 doc.speakers (by rw [a5]; exact hs)
  have e : TagsOk d' ∧ d'.tags = d2.tags ∧ d'.spkrs = d2.spkrs ∧ d'.root = d2.root := by
    unfold DB.loadFromS at hl
    rw [a1] at hl
    dsimp only at hl
    rw [b1] at hl
    cases sort with
    | false =>
      obtain rfl := (Prod.mk.inj hl).1
      exact ⟨b2, rfl, rfl, rfl⟩
    | true =>
      obtain rfl := (Prod.mk.inj hl).1
      exact ⟨b2, rfl, rfl, rfl⟩
  obtain ⟨c1, c2, c3, c4⟩ := e
  have hroot : { d' with root := doc.root } = d' := by
    rw [← a8, ← b8, ← c4]
  unfold DB.loadFromS
  rw [hroot]
  cases hts : doc.tags with
  | cons t ts =>
    have e := (C76_add_tag d' c1 t).1 (by
      rw [c2]
      refine b3.subset ?_
      rw [a3, hts]
      simp)
    unfold loadTagsS
    rw [e]
  | nil =>
    cases hss : doc.speakers with
    | nil => rcases hne with hne | hne <;> contradiction
    | cons s ss =>
      have e : d'.addSpeaker s.name s.info = .error .valueError := by
        unfold DB.addSpeaker
        rw [if_pos (by rw [c3, b5, hss]; simp)]
      unfold loadTagsS
      dsimp only
      unfold loadSpeakersS
      rw [e]

/-- **C232.** With sorting, when a speaker has two records and one of them no audio name, `load_from` raises `TypeError`
once everything is loaded: lists before the first such speaker are sorted, lists after it are not. -/
theorem C232_sort (left : List (Rec S) → List (Rec S)) (d d' : DB S I) (doc : Doc S I)
    (hl : d.loadFromS left doc false = (d', .ok ())) (a b : List (List (Rec S))) (l : List (Rec S))
    (hd : d'.records = a ++ l :: b) (ha : ∀ x ∈ a, x.length < 2 ∨ ∀ r ∈ x, r.audio ≠ none) (h2 : 2 ≤ l.length)
    (hn : ∃ r ∈ l, r.audio = none) :
    d.loadFromS left doc true =
      ({ d' with records := a.map (fun x => x.mergeSort audioLe) ++ left l :: b }, .error .typeError) := by
  have hs : sortS left d'.records = (a.map (fun x => x.mergeSort audioLe) ++ left l :: b, .error .typeError) := by
    rw [hd]
    clear hd hl
    induction a with
    | nil =>
      rw [List.nil_append]
      unfold sortS
      rw [C77_missing_audio l h2 hn]
      rfl
    | cons x a ih =>
      have hx : sortRecords x = .ok (x.mergeSort audioLe) := by
        unfold sortRecords
        rw [if_neg]
        rintro ⟨c1, c2⟩
        rcases ha x List.mem_cons_self with c | c
        · omega
        · rw [List.any_eq_true] at c2
          obtain ⟨r, hr, c3⟩ := c2
          exact c r hr (by simpa using c3)
      rw [List.cons_append]
      unfold sortS
      rw [hx]
      dsimp only
      rw [ih fun y hy => ha y (List.mem_cons_of_mem _ hy)]
      rfl
  unfold DB.loadFromS at hl ⊢
  generalize loadTagsS { d with root := doc.root } doc.tags = q at hl ⊢
  obtain ⟨d1, o⟩ := q
  cases o with
  | error e => cases (Prod.mk.inj hl).2
  | ok u =>
    dsimp only at hl ⊢
    generalize loadSpeakersS d1 doc.speakers = q at hl ⊢
    obtain ⟨d2, o⟩ := q
    cases o with
    | error e => cases (Prod.mk.inj hl).2
    | ok u =>
      dsimp only at hl ⊢
      obtain rfl : d2 = d' := (Prod.mk.inj hl).1
      rw [if_pos rfl, hs]

/-- Two files, of a speaker 1 with tag 7 and of a speaker 2 with tag 8 and a tag 9 which is not declared, one after the
other; the second one again; then one with a new tag before tag 7. -/
example :
    let d1 := ((DB.new 0 : DB ℕ ℕ).loadFromS id ⟨some 1, [7], [⟨1, none, [⟨some 3, [7], none, none⟩]⟩]⟩ true).1
    let doc2 : Doc ℕ ℕ := ⟨some 2, [8], [⟨2, none, [⟨some 4, [9, 8, 7], none, none⟩]⟩]⟩
    let d2 := (d1.loadFromS id doc2 true).1
    d2.tags = [7, 8, 9] ∧ d2.spkrs = [1, 2] ∧ d2.root = some 2 ∧
    d2.records = [[⟨0, 0, some 3, [0], none, none⟩], [⟨0, 1, some 4, [2, 1, 0], none, none⟩]] ∧
    (d2.loadFromS id doc2 true).2 = .error .valueError ∧
    ((d2.loadFromS id ⟨some 3, [6, 7], []⟩ true).1).tags = [7, 8, 9, 6] := by
  decide +kernel

end Verif.Sound
