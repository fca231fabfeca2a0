import Verif.Sound.Model
import Mathlib.Data.List.Nodup
import Mathlib.Data.List.Induction
import Mathlib.Data.Nat.Lattice

/-!
# Properties C76, C77, C78, C79, C80 of `multimodal/db/models/sound.py`
-/

namespace Verif.Sound

variable {S I : Type} [LinearOrder S]

/-! ### C76 -/

/-- Tags are distinct and the ids are their positions. -/
def TagsOk (d : DB S I) : Prop :=
  d.tags.Nodup ∧ ∀ (t : S) (i : ℕ), dictGet? d.tagId t = some i ↔ d.tags[i]? = some t

theorem TagsOk.hasTag {d : DB S I} (h : TagsOk d) (t : S) : d.hasTag t = true ↔ t ∈ d.tags := by
  unfold DB.hasTag
  rw [Option.isSome_iff_exists, List.mem_iff_getElem?]
  constructor
  · rintro ⟨i, hi⟩; exact ⟨i, (h.2 t i).1 hi⟩
  · rintro ⟨i, hi⟩; exact ⟨i, (h.2 t i).2 hi⟩

theorem new_tagsOk (id : ℕ) : TagsOk (DB.new id : DB S I) := by
  constructor
  · exact List.nodup_nil
  · intro t i; simp [DB.new, dictGet?_nil]

theorem addTag_ok {d d' : DB S I} {t : S} {i : ℕ} (h : TagsOk d) (ha : d.addTag t = .ok (d', i)) :
    TagsOk d' ∧ t ∉ d.tags ∧ d'.tags = d.tags ++ [t] ∧ i = d.tags.length ∧
      d'.records = d.records ∧ d'.spkrs = d.spkrs ∧ d'.spkrsInfo = d.spkrsInfo ∧ d'.id = d.id ∧
      d'.root = d.root := by
  unfold DB.addTag at ha
  split at ha
  · exact absurd ha (by simp)
  · rename_i hn
    have hn' : t ∉ d.tags := fun hc => hn ((h.hasTag t).2 hc)
    simp only [Except.ok.injEq, Prod.mk.injEq] at ha
    obtain ⟨rfl, rfl⟩ := ha
    refine ⟨⟨?_, ?_⟩, hn', rfl, by simp, rfl, rfl, rfl, rfl, rfl⟩
    · simp only []
      rw [List.nodup_append]
      exact ⟨h.1, List.nodup_singleton t, by
        intro a ha b hb; rw [List.mem_singleton] at hb; subst hb; rintro rfl; exact hn' ha⟩
    · intro u j
      simp only [List.length_append, List.length_singleton, Nat.add_sub_cancel]
      rw [dictGet?_set, List.getElem?_append]
      by_cases hu : t = u
      · subst hu
        rw [if_pos rfl]
        constructor
        · intro e
          obtain rfl := Option.some.inj e
          rw [if_neg (lt_irrefl _)]; simp
        · intro e
          split at e
          · exact absurd (List.mem_of_getElem? e) hn'
          · rename_i hlt
            have : j - d.tags.length = 0 := by
              by_contra hc
              rw [List.getElem?_eq_none (by simp; omega)] at e
              exact absurd e (by simp)
            congr 1; omega
      · rw [if_neg hu, h.2 u j]
        split
        · rfl
        · rename_i hlt
          rw [List.getElem?_eq_none (by omega)]
          constructor
          · intro e; exact absurd e (by simp)
          · intro e
            have := List.mem_of_getElem? e
            rw [List.mem_singleton] at this
            exact absurd this.symm hu

/-- The two operations on tags. -/
inductive TagOp (S : Type)
  | add (t : S)
  | getAdd (t : S)

/-- Effect of an operation; a failing operation leaves the database unchanged. -/
def TagOp.run (d : DB S I) : TagOp S → DB S I
  | .add t => match d.addTag t with
    | .ok p => p.1
    | .error _ => d
  | .getAdd t => match d.getTagAdd t with
    | .ok p => p.1
    | .error _ => d

theorem getTagAdd_cases {d : DB S I} (h : TagsOk d) (t : S) :
    (t ∉ d.tags ∧ d.getTagAdd t = d.addTag t ∧ ∃ d', d.addTag t = .ok (d', d.tags.length)) ∨
    (∃ i : ℕ, d.tags[i]? = some t ∧ d.getTagAdd t = .ok (d, i)) := by
  unfold DB.getTagAdd
  by_cases ht : t ∈ d.tags
  · right
    have hh := (h.hasTag t).2 ht
    obtain ⟨i, hi⟩ := List.mem_iff_getElem?.1 ht
    refine ⟨i, hi, ?_⟩
    rw [hh, (h.2 t i).2 hi]
    rfl
  · left
    have hh : d.hasTag t = false := by
      rw [← Bool.not_eq_true]; exact fun hc => ht ((h.hasTag t).1 hc)
    refine ⟨ht, by rw [hh]; rfl, ?_⟩
    unfold DB.addTag
    rw [hh]
    refine ⟨{ d with tags := d.tags ++ [t], tagId := dictSet d.tagId t d.tags.length }, ?_⟩
    rw [if_neg (by simp)]
    simp

/-- **C76.** After any sequence of operations on a new database, tags are distinct and the id of a
tag is its position. -/
theorem C76_tags_consistent (id : ℕ) (ops : List (TagOp S)) :
    (ops.foldl TagOp.run (DB.new id : DB S I)).tags.Nodup ∧
    ∀ (t : S) (i : ℕ), dictGet? (ops.foldl TagOp.run (DB.new id : DB S I)).tagId t = some i ↔
      (ops.foldl TagOp.run (DB.new id : DB S I)).tags[i]? = some t := by
  have key : ∀ (ops : List (TagOp S)) (d : DB S I), TagsOk d → TagsOk (ops.foldl TagOp.run d) := by
    intro ops
    induction ops with
    | nil => intro d h; exact h
    | cons op ops ih =>
      intro d h
      rw [List.foldl_cons]
      apply ih
      cases op with
      | add t =>
        simp only [TagOp.run]
        split
        · rename_i p hp
          exact (addTag_ok (d' := p.1) (i := p.2) h (by rw [hp])).1
        · exact h
      | getAdd t =>
        simp only [TagOp.run]
        rcases getTagAdd_cases h t with ⟨_, h1, d', h2⟩ | ⟨i, _, h1⟩
        · rw [h1, h2]; exact (addTag_ok h h2).1
        · rw [h1]; exact h
  exact key ops _ (new_tagsOk id)

/-- **C76.** Adding a tag fails with `ValueError` exactly when it exists, and else gives it the next
id. -/
theorem C76_add_tag (d : DB S I) (h : TagsOk d) (t : S) :
    (t ∈ d.tags → d.addTag t = .error .valueError) ∧
    (t ∉ d.tags → ∃ d', d.addTag t = .ok (d', d.tags.length) ∧ d'.tags = d.tags ++ [t]) := by
  constructor
  · intro ht
    unfold DB.addTag
    rw [if_pos ((h.hasTag t).2 ht)]
  · intro ht
    rcases getTagAdd_cases h t with ⟨_, _, d', h2⟩ | ⟨i, hi, _⟩
    · exact ⟨d', h2, (addTag_ok h h2).2.2.1⟩
    · exact absurd (List.mem_of_getElem? hi) ht

/-- **C76.** `get_tag_add` never fails, returns the position of the tag in the new list, and the old
list of tags is a prefix of the new one: no id changes. -/
theorem C76_get_tag_add (d : DB S I) (h : TagsOk d) (t : S) :
    ∃ (d' : DB S I) (i : ℕ), d.getTagAdd t = .ok (d', i) ∧ TagsOk d' ∧ d'.tags[i]? = some t ∧
      d.tags <+: d'.tags ∧ (t ∈ d.tags → d' = d) ∧
      ∀ (u : S) (j : ℕ), dictGet? d.tagId u = some j → dictGet? d'.tagId u = some j := by
  rcases getTagAdd_cases h t with ⟨hn, h1, d', h2⟩ | ⟨i, hi, h1⟩
  · obtain ⟨a, _, c, e, _⟩ := addTag_ok h h2
    refine ⟨d', d.tags.length, by rw [h1, h2], a, by rw [c]; simp, by rw [c]; exact List.prefix_append _ _,
      fun hc => absurd hc hn, ?_⟩
    intro u j hu
    rw [a.2, c]
    rw [h.2] at hu
    rw [List.getElem?_append_left (List.getElem?_eq_some_iff.1 hu).1]
    exact hu
  · exact ⟨d, i, h1, h, hi, List.prefix_refl _, fun _ => rfl, fun _ _ hu => hu⟩

example : ([TagOp.add 5, .getAdd 7, .add 5, .getAdd 5].foldl TagOp.run (DB.new 0 : DB ℕ ℕ)).tags = [5, 7] := by
  decide +kernel

/-! ### C77 -/

/-- A consistent database: consistent tags, distinct speakers, one list of records and one
information per speaker, records filed under their speaker and using known tags only. -/
structure Consistent (d : DB S I) : Prop where
  tags : TagsOk d
  spkrs : d.spkrs.Nodup
  nbRecords : d.records.length = d.spkrs.length
  nbInfo : d.spkrsInfo.length = d.spkrs.length
  known : ∀ (s : ℕ) (l : List (Rec S)), d.records[s]? = some l → ∀ r ∈ l, r.spkr = s ∧
    ∀ t ∈ r.tags, 0 ≤ t ∧ t < d.tags.length

theorem tagNames_ok {d : DB S I} {r : Rec S} (h : ∀ t ∈ r.tags, 0 ≤ t ∧ t < d.tags.length) :
    ∃ ns, tagNames d r = .ok ns ∧ ns.length = r.tags.length ∧
      ∀ (k : ℕ) (t : ℤ), r.tags[k]? = some t → ns[k]? = d.tags[t.toNat]? ∧ (ns[k]?).isSome := by
  unfold tagNames
  have key : ∀ ts : List ℤ, (∀ t ∈ ts, 0 ≤ t ∧ t < d.tags.length) →
      ∃ ns, ts.mapM (fun t => pyGet d.tags t) = .ok ns ∧ ns.length = ts.length ∧
      ∀ (k : ℕ) (t : ℤ), ts[k]? = some t → ns[k]? = d.tags[t.toNat]? ∧ (ns[k]?).isSome := by
    intro ts
    induction ts with
    | nil => intro _; exact ⟨[], rfl, rfl, by intro k t hk; simp at hk⟩
    | cons t ts ih =>
      intro h
      obtain ⟨ns, h1, h2, h3⟩ := ih fun u hu => h u (List.mem_cons_of_mem _ hu)
      obtain ⟨h0, hlt⟩ := h t List.mem_cons_self
      have hg : pyGet d.tags t = .ok (d.tags[t.toNat]'(by omega)) := by
        have := pyGet_nat d.tags t.toNat (by omega)
        rwa [Int.toNat_of_nonneg h0] at this
      refine ⟨d.tags[t.toNat]'(by omega) :: ns, ?_, by simp [h2], ?_⟩
      · rw [List.mapM_cons, hg, h1]; rfl
      · intro k u hk
        cases k with
        | zero =>
          rw [List.getElem?_cons_zero, Option.some.injEq] at hk
          subst hk
          rw [List.getElem?_cons_zero, List.getElem?_eq_getElem (by omega)]
          exact ⟨rfl, rfl⟩
        | succ k =>
          rw [List.getElem?_cons_succ] at hk ⊢
          exact h3 k u hk
  exact key r.tags h

/-- Reading back tag names gives the same ids and does not change the database. -/
theorem tagsOfNames_known {d : DB S I} (h : TagsOk d) :
    ∀ (ns : List S) (ts : List ℤ), ns.length = ts.length → (∀ t ∈ ts, 0 ≤ t) →
      (∀ (k : ℕ) (t : ℤ), ts[k]? = some t → ns[k]? = d.tags[t.toNat]? ∧ (ns[k]?).isSome) →
      tagsOfNames d ns = .ok (d, ts) := by
  intro ns
  induction ns with
  | nil =>
    intro ts hl _ _
    have : ts = [] := List.length_eq_zero_iff.1 hl.symm
    subst this; rfl
  | cons n ns ih =>
    intro ts hl hpos hk
    cases ts with
    | nil => simp at hl
    | cons t ts =>
      have h0 := (hk 0 t (by simp)).1
      rw [List.getElem?_cons_zero] at h0
      have hih := ih ts (by simpa using hl) (fun u hu => hpos u (List.mem_cons_of_mem _ hu)) (by
        intro k u hku
        have := hk (k + 1) u (by simpa using hku)
        simpa using this)
      unfold tagsOfNames
      have hg : d.getTagAdd n = .ok (d, t.toNat) := by
        rcases getTagAdd_cases h n with ⟨hn, _⟩ | ⟨i, hi, hg⟩
        · exact absurd (List.mem_of_getElem? h0.symm) hn
        · have : i = t.toNat := by
            have e1 := (h.2 n i).2 hi
            have e2 := (h.2 n t.toNat).2 h0.symm
            rw [e1] at e2
            exact Option.some.inj e2
          rw [hg, this]
      rw [hg]
      simp only [bind, Except.bind, pure, Except.pure]
      rw [hih]
      simp only []
      rw [Int.toNat_of_nonneg (hpos t List.mem_cons_self)]

/-- A record moved to another database. -/
def Rec.into (id : ℕ) (r : Rec S) : Rec S := { r with db := id }

theorem loadTags (ts : List S) : ∀ (d : DB S I), TagsOk d → (d.tags ++ ts).Nodup →
    ∃ d', ts.foldlM (fun d t => do let p ← d.addTag t; return p.1) d = (.ok d' : Py (DB S I)) ∧
      TagsOk d' ∧ d'.tags = d.tags ++ ts ∧ d'.records = d.records ∧ d'.spkrs = d.spkrs ∧
      d'.spkrsInfo = d.spkrsInfo ∧ d'.id = d.id ∧ d'.root = d.root := by
  induction ts with
  | nil => intro d h _; exact ⟨d, rfl, h, by simp, rfl, rfl, rfl, rfl, rfl⟩
  | cons t ts ih =>
    intro d h hnd
    have hnt : t ∉ d.tags := by
      rw [List.nodup_append] at hnd
      intro hc
      exact hnd.2.2 t hc t List.mem_cons_self rfl
    obtain ⟨d1, h1, h2⟩ := (C76_add_tag d h t).2 hnt
    obtain ⟨a1, a2, a3, a4, a5, a6, a7, a8, a9⟩ := addTag_ok h h1
    obtain ⟨d', b1, b2, b3, b4, b5, b6, b7, b8⟩ := ih d1 a1 (by rw [a3]; simpa using hnd)
    refine ⟨d', ?_, b2, by rw [b3, a3]; simp, by rw [b4, a5], by rw [b5, a6], by rw [b6, a7], by rw [b7, a8],
      by rw [b8, a9]⟩
    rw [List.foldlM_cons, h1]
    exact b1

theorem modify_append_last {α : Type} (pre : List α) (a : α) (f : α → α) :
    (pre ++ [a]).modify pre.length f = pre ++ [f a] := by
  induction pre with
  | nil => rfl
  | cons b pre ih => simp [List.modify_succ_cons, ih]

theorem loadRecords {d0 : DB S I} (spk : ℕ) (rs : List (Rec S)) :
    ∀ (ds : List (RecDoc S)) (d : DB S I) (pre : List (List (Rec S))) (last : List (Rec S)),
      TagsOk d → d.tags = d0.tags → d.records = pre ++ [last] →
      (∀ r ∈ rs, r.spkr = spk ∧ ∀ t ∈ r.tags, 0 ≤ t ∧ t < d0.tags.length) →
      rs.mapM (toDict d0) = .ok ds →
      ds.foldlM (loadRecord spk) d =
        .ok { d with records := pre ++ [last ++ rs.map (Rec.into d.id)] } := by
  induction rs with
  | nil =>
    intro ds d pre last _ _ hr _ hm
    obtain rfl : [] = ds := Except.ok.inj hm
    simp only [List.foldlM_nil, List.map_nil, List.append_nil, ← hr]
    rfl
  | cons r rs ih =>
    intro ds d pre last htag ht hr hk hm
    obtain ⟨hspk, htags⟩ := hk r List.mem_cons_self
    obtain ⟨ns, hn1, hn2, hn3⟩ := tagNames_ok (d := d0) (r := r) htags
    have hrd : toDict d0 r = .ok ⟨r.audio, ns, r.trans, r.style⟩ := by
      unfold toDict; rw [hn1]; rfl
    rw [List.mapM_cons, hrd] at hm
    cases hrest : rs.mapM (toDict d0) with
    | error e => rw [hrest] at hm; exact absurd hm (by simp [bind, Except.bind])
    | ok ds' =>
      rw [hrest] at hm
      obtain rfl : _ :: ds' = ds := Except.ok.inj hm
      have hstep : loadRecord spk d ⟨r.audio, ns, r.trans, r.style⟩ =
          .ok { d with records := pre ++ [last ++ [r.into d.id]] } := by
        unfold loadRecord fromDict
        simp only []
        rw [tagsOfNames_known htag ns r.tags hn2 (fun t h => (htags t h).1) (by rw [ht]; exact hn3)]
        simp only [bind, Except.bind, pure, Except.pure, hr]
        have hne : ∃ a l, pre ++ [last] = a :: l := by
          cases pre with
          | nil => exact ⟨_, _, rfl⟩
          | cons a l => exact ⟨_, _, rfl⟩
        obtain ⟨a, l, hal⟩ := hne
        have hmod : (pre ++ [last]).modify ((pre ++ [last]).length - 1)
            (fun l => l ++ [(⟨d.id, spk, r.audio, r.tags, r.trans, r.style⟩ : Rec S)]) =
            pre ++ [last ++ [r.into d.id]] := by
          have : (pre ++ [last]).length - 1 = pre.length := by simp
          rw [this, modify_append_last]
          unfold Rec.into
          rw [← hspk]
        rw [hal] at hmod ⊢
        simp only []
        rw [hmod]
      rw [List.foldlM_cons, hstep]
      simp only [bind, Except.bind]
      rw [ih ds' { d with records := pre ++ [last ++ [r.into d.id]] } pre (last ++ [r.into d.id]) htag ht rfl
        (fun r hr => hk r (List.mem_cons_of_mem _ hr)) hrest]
      simp

theorem loadSpeakers {d0 : DB S I} (sp : List (S × Option I × List (Rec S))) :
    ∀ (docs : List (SpeakerDoc S I)) (d : DB S I),
      TagsOk d → d.tags = d0.tags → (d.spkrs ++ sp.map Prod.fst).Nodup →
      d.records.length = d.spkrs.length →
      (∀ (k : ℕ) (x : S × Option I × List (Rec S)), sp[k]? = some x → ∀ r ∈ x.2.2,
        r.spkr = ((d.spkrs.length + k : ℕ) : ℤ) ∧ ∀ t ∈ r.tags, 0 ≤ t ∧ t < d0.tags.length) →
      sp.mapM (fun s => do
        let rs ← s.2.2.mapM (toDict d0)
        return (⟨s.1, s.2.1, rs⟩ : SpeakerDoc S I)) = .ok docs →
      docs.foldlM loadSpeaker d = .ok { d with
        records := d.records ++ sp.map (fun x => x.2.2.map (Rec.into d.id)),
        spkrs := d.spkrs ++ sp.map Prod.fst,
        spkrsInfo := d.spkrsInfo ++ sp.map (fun x => x.2.1) } := by
  induction sp with
  | nil =>
    intro docs d _ _ _ _ _ hm
    obtain rfl : [] = docs := Except.ok.inj hm
    simp only [List.foldlM_nil, List.map_nil, List.append_nil]
    rfl
  | cons x sp ih =>
    intro docs d htag ht hnd hlen hk hm
    obtain ⟨name, info, rs⟩ := x
    rw [List.mapM_cons] at hm
    cases hrs : rs.mapM (toDict d0) with
    | error e => simp [hrs, bind, Except.bind] at hm
    | ok ds =>
      simp only [hrs, bind, Except.bind, pure, Except.pure] at hm
      split at hm
      · exact absurd hm (by simp)
      · rename_i docs' hdocs'
        obtain rfl := Except.ok.inj hm
        have hnew : name ∉ d.spkrs := by
          rw [List.nodup_append] at hnd
          intro hc
          exact hnd.2.2 name hc name (by simp) rfl
        have hadd : d.addSpeaker name info = .ok (⟨d.id, d.records ++ [[]], d.tags, d.tagId, d.root,
            d.spkrs ++ [name], d.spkrsInfo ++ [info]⟩, d.spkrs.length) := by
          unfold DB.addSpeaker
          rw [if_neg hnew]
          simp
        have hstep : loadSpeaker d ⟨name, info, ds⟩ = .ok { d with
            records := d.records ++ [rs.map (Rec.into d.id)],
            spkrs := d.spkrs ++ [name], spkrsInfo := d.spkrsInfo ++ [info] } := by
          unfold loadSpeaker
          simp only []
          rw [hadd]
          simp only [bind, Except.bind]
          rw [loadRecords (d0 := d0) d.spkrs.length rs ds ⟨d.id, d.records ++ [[]], d.tags, d.tagId, d.root,
            d.spkrs ++ [name], d.spkrsInfo ++ [info]⟩ d.records [] htag ht rfl (by
              intro r hr
              have := hk 0 (name, info, rs) (by simp) r hr
              simpa using this) hrs]
          simp
        rw [List.foldlM_cons, hstep]
        simp only [bind, Except.bind]
        rw [ih docs' ⟨d.id, d.records ++ [rs.map (Rec.into d.id)], d.tags, d.tagId, d.root,
          d.spkrs ++ [name], d.spkrsInfo ++ [info]⟩ htag ht (by simpa using hnd) (by simp [hlen]) (by
            intro k y hy r hr
            have := hk (k + 1) y (by simpa using hy) r hr
            simp only [List.length_append, List.length_singleton]
            rw [show d.spkrs.length + 1 + k = d.spkrs.length + (k + 1) by omega]
            exact this) hdocs']
        simp

theorem mapM_exists {α β : Type} (f : α → Py β) (l : List α) (h : ∀ x ∈ l, ∃ y, f x = .ok y) :
    ∃ ys, l.mapM f = .ok ys := by
  induction l with
  | nil => exact ⟨[], rfl⟩
  | cons a l ih =>
    obtain ⟨y, hy⟩ := h a List.mem_cons_self
    obtain ⟨ys, hys⟩ := ih fun x hx => h x (List.mem_cons_of_mem _ hx)
    exact ⟨y :: ys, by rw [List.mapM_cons, hy, hys]; rfl⟩

theorem map_zip3 (d : DB S I) (h : Consistent d) :
    (d.spkrs.zip (d.spkrsInfo.zip d.records)).map Prod.fst = d.spkrs ∧
    (d.spkrs.zip (d.spkrsInfo.zip d.records)).map (fun x => x.2.1) = d.spkrsInfo ∧
    (d.spkrs.zip (d.spkrsInfo.zip d.records)).map (fun x => x.2.2) = d.records := by
  have h1 := h.nbRecords
  have h2 := h.nbInfo
  have hz : (d.spkrsInfo.zip d.records).length = d.spkrs.length := by
    rw [List.length_zip]; omega
  refine ⟨List.map_fst_zip (by omega), ?_, ?_⟩
  · have : (d.spkrs.zip (d.spkrsInfo.zip d.records)).map (fun x => x.2.1) =
        ((d.spkrs.zip (d.spkrsInfo.zip d.records)).map Prod.snd).map Prod.fst := by
      rw [List.map_map]; rfl
    rw [this, List.map_snd_zip (by omega), List.map_fst_zip (by omega)]
  · have : (d.spkrs.zip (d.spkrsInfo.zip d.records)).map (fun x => x.2.2) =
        ((d.spkrs.zip (d.spkrsInfo.zip d.records)).map Prod.snd).map Prod.snd := by
      rw [List.map_map]; rfl
    rw [this, List.map_snd_zip (by omega), List.map_snd_zip (by omega)]

/-- **C77.** Writing a consistent database succeeds, and loading the document in a new database
without sorting gives the same tags, speakers, information and records, in the same order. -/
theorem C77_round_trip (d : DB S I) (h : Consistent d) (id : ℕ) :
    ∃ doc d', d.writeJson = .ok doc ∧ (DB.new id : DB S I).loadFrom doc false = .ok d' ∧
      d'.root = d.root ∧ d'.tags = d.tags ∧ d'.spkrs = d.spkrs ∧ d'.spkrsInfo = d.spkrsInfo ∧
      d'.records = d.records.map (fun l => l.map (Rec.into id)) ∧ Consistent d' := by
  obtain ⟨e1, e2, e3⟩ := map_zip3 d h
  have hz : ∀ (k : ℕ) (x : S × Option I × List (Rec S)),
      (d.spkrs.zip (d.spkrsInfo.zip d.records))[k]? = some x → d.records[k]? = some x.2.2 := by
    intro k x hx
    rw [← e3, List.getElem?_map, hx]; rfl
  have hsp : ∃ sp, (d.spkrs.zip (d.spkrsInfo.zip d.records)).mapM (fun s => do
      let rs ← s.2.2.mapM (toDict d)
      return (⟨s.1, s.2.1, rs⟩ : SpeakerDoc S I)) = .ok sp := by
    apply mapM_exists
    intro x hx
    obtain ⟨k, hk⟩ := List.mem_iff_getElem?.1 hx
    obtain ⟨rs, hrs⟩ := mapM_exists (toDict d) x.2.2 (by
      intro r hr
      obtain ⟨ns, hn, _⟩ := tagNames_ok (d := d) (r := r) (h.known k _ (hz k x hk) r hr).2
      exact ⟨_, by unfold toDict; rw [hn]; rfl⟩)
    exact ⟨_, by rw [hrs]; rfl⟩
  obtain ⟨sp, hsp⟩ := hsp
  have hw : d.writeJson = .ok ⟨d.root, d.tags, sp⟩ := by
    unfold DB.writeJson; rw [hsp]; rfl
  obtain ⟨d1, a1, a2, a3, a4, a5, a6, a7, a8⟩ := loadTags d.tags
    ({ (DB.new id : DB S I) with root := d.root }) (new_tagsOk (I := I) id) (by simpa [DB.new] using h.tags.1)
  have a3' : d1.tags = d.tags := by rw [a3]; rfl
  have a4' : d1.records = [] := a4
  have a5' : d1.spkrs = [] := a5
  have a6' : d1.spkrsInfo = [] := a6
  have a7' : d1.id = id := a7
  have a8' : d1.root = d.root := a8
  have hl := loadSpeakers (d0 := d) (d.spkrs.zip (d.spkrsInfo.zip d.records)) sp d1 a2 a3'
    (by rw [a5', e1]; simpa using h.spkrs) (by rw [a4', a5']; rfl)
    (by
      intro k x hx r hr
      rw [a5']
      simpa using h.known k _ (hz k x hx) r hr) hsp
  have hmap : (d.spkrs.zip (d.spkrsInfo.zip d.records)).map (fun x => x.2.2.map (Rec.into d1.id)) =
      d.records.map (fun l => l.map (Rec.into id)) := by
    rw [a7']
    conv_rhs => rw [← e3]
    rw [List.map_map]; rfl
  rw [a4', a5', a6', hmap, e1, e2] at hl
  simp only [List.nil_append] at hl
  refine ⟨_, ⟨d1.id, d.records.map (fun l => l.map (Rec.into id)), d1.tags, d1.tagId, d1.root,
    d.spkrs, d.spkrsInfo⟩, hw, ?_, a8', a3', rfl, rfl, rfl, ?_⟩
  · unfold DB.loadFrom
    simp only [bind, Except.bind, pure, Except.pure] at a1 ⊢
    rw [a1]
    simp only []
    rw [hl]
    rfl
  · refine ⟨a2, h.spkrs, by simp [h.nbRecords], h.nbInfo, ?_⟩
    intro s l hs r hr
    rw [List.getElem?_map, Option.map_eq_some_iff] at hs
    obtain ⟨l', hl', rfl⟩ := hs
    obtain ⟨r', hr', rfl⟩ := List.mem_map.1 hr
    have := h.known s l' hl' r' hr'
    refine ⟨this.1, ?_⟩
    simp only []
    rw [a3']
    exact this.2

theorem audioLe_trans (a b c : Rec S) : audioLe a b → audioLe b c → audioLe a c := by
  unfold audioLe
  cases a.audio <;> cases b.audio <;> cases c.audio <;> simp
  exact fun h1 h2 => le_trans h1 h2

theorem audioLe_total (a b : Rec S) : (audioLe a b || audioLe b a) = true := by
  unfold audioLe
  cases a.audio <;> cases b.audio <;> simp
  exact le_total _ _

/-- **C77.** Loading with sorting gives the same database, in which the records of each speaker are
reordered by audio name, if every record has an audio name. -/
theorem C77_sorted (d : DB S I) (h : Consistent d) (id : ℕ)
    (haudio : ∀ l ∈ d.records, ∀ r ∈ l, r.audio ≠ none) :
    ∃ doc d', d.writeJson = .ok doc ∧ (DB.new id : DB S I).loadFrom doc true = .ok d' ∧
      d'.root = d.root ∧ d'.tags = d.tags ∧ d'.spkrs = d.spkrs ∧ d'.spkrsInfo = d.spkrsInfo ∧
      d'.records.length = d.records.length ∧
      ∀ (s : ℕ) (l l' : List (Rec S)), d.records[s]? = some l → d'.records[s]? = some l' →
        l'.Perm (l.map (Rec.into id)) ∧
        (∀ (i j : ℕ) (a b : Rec S) (x y : S), i < j → l'[i]? = some a → l'[j]? = some b →
          a.audio = some x → b.audio = some y → x ≤ y) ∧
        ∀ (a b : Rec S), [a, b].Sublist (l.map (Rec.into id)) → a.audio = b.audio → [a, b].Sublist l' := by
  obtain ⟨doc, d1, hw, hl, h1, h2, h3, h4, h5, -⟩ := C77_round_trip d h id
  have hsort : d1.sort = .ok { d1 with records := d1.records.map fun l => l.mergeSort audioLe } := by
    unfold DB.sort
    rw [mapM_ok sortRecords (fun l => l.mergeSort audioLe) d1.records (by
      intro l hl
      unfold sortRecords
      rw [if_neg]
      rintro ⟨_, hc⟩
      rw [List.any_eq_true] at hc
      obtain ⟨r, hr, hn⟩ := hc
      rw [h5] at hl
      obtain ⟨l0, hl0, rfl⟩ := List.mem_map.1 hl
      obtain ⟨r0, hr0, rfl⟩ := List.mem_map.1 hr
      exact haudio l0 hl0 r0 hr0 (by simpa [Rec.into] using hn))]
    rfl
  refine ⟨doc, { d1 with records := d1.records.map fun l => l.mergeSort audioLe }, hw, ?_, h1, h2, h3, h4,
    ?_, ?_⟩
  · rw [← hsort]
    unfold DB.loadFrom at hl ⊢
    simp only [bind, Except.bind, pure, Except.pure] at hl ⊢
    generalize (doc.tags.foldlM (m := Py) _ _) = e1 at hl ⊢
    cases e1 with
    | error e => exact absurd hl (by simp)
    | ok d2 =>
      simp only [] at hl ⊢
      generalize (doc.speakers.foldlM (m := Py) _ _) = e2 at hl ⊢
      cases e2 with
      | error e => exact absurd hl (by simp)
      | ok d3 =>
        simp only [Bool.false_eq_true, if_false, Except.ok.injEq] at hl
        rw [hl]
        rfl
  · simp [h5]
  · intro s l l' hs hs'
    rw [List.getElem?_map, h5, List.getElem?_map, hs] at hs'
    simp only [Option.map_some, Option.some.injEq] at hs'
    subst hs'
    refine ⟨List.mergeSort_perm _ _, ?_, ?_⟩
    · intro i j a b x y hij ha hb hx hy
      have hp := List.pairwise_mergeSort (le := audioLe) audioLe_trans audioLe_total (l.map (Rec.into id))
      have hi := (List.getElem?_eq_some_iff.1 ha)
      have hj := (List.getElem?_eq_some_iff.1 hb)
      obtain ⟨hi1, hi2⟩ := hi
      obtain ⟨hj1, hj2⟩ := hj
      have := List.pairwise_iff_getElem.1 hp i j hi1 hj1 hij
      rw [hi2, hj2] at this
      unfold audioLe at this
      rw [hx, hy] at this
      simpa using this
    · intro a b hab he
      apply List.sublist_mergeSort audioLe_trans audioLe_total _ hab
      rw [List.pairwise_pair]
      unfold audioLe
      rw [he]
      cases b.audio <;> simp

/-- **C77.** A speaker with two records, one without audio name, makes sorting fail. -/
theorem C77_missing_audio (l : List (Rec S)) (h2 : 2 ≤ l.length) (hn : ∃ r ∈ l, r.audio = none) :
    sortRecords l = .error .typeError := by
  unfold sortRecords
  rw [if_pos]
  refine ⟨h2, ?_⟩
  rw [List.any_eq_true]
  obtain ⟨r, hr, hr2⟩ := hn
  exact ⟨r, hr, by rw [hr2]; rfl⟩

/-- A database with two speakers and three records. -/
def exampleDB : DB ℕ ℕ :=
  ⟨0, [[⟨0, 0, some 9, [1, 0], none, none⟩, ⟨0, 0, some 4, [], some 3, none⟩], [⟨0, 1, some 2, [1], none, some 5⟩]],
    [10, 20], [(10, 0), (20, 1)], some 7, [100, 200], [none, some 1]⟩

theorem exampleDB_consistent : Consistent exampleDB := by
  refine ⟨⟨by decide, ?_⟩, by decide, rfl, rfl, ?_⟩
  · intro t i
    unfold exampleDB dictGet?
    simp only [List.find?_cons, List.find?_nil]
    rcases i with _ | _ | i
    · by_cases h1 : 10 = t
      · simp [h1]
      · by_cases h2 : 20 = t <;> simp [h1, h2]
    · by_cases h1 : 10 = t
      · subst h1; simp
      · by_cases h2 : 20 = t <;> simp [h1, h2]
    · by_cases h1 : 10 = t
      · simp [h1]
      · by_cases h2 : 20 = t <;> simp [h1, h2]
  · intro s l hs r hr
    unfold exampleDB at hs ⊢
    rcases s with _ | _ | s
    · simp at hs; subst hs
      simp at hr
      rcases hr with rfl | rfl <;> simp
    · simp at hs; subst hs
      simp at hr
      subst hr; simp
    · simp at hs

example : ∀ l ∈ exampleDB.records, ∀ r ∈ l, r.audio ≠ none := by decide

/-! ### C78 -/

/-- **C78, what the code does.** A record is accepted exactly when it belongs to the database, its
speaker id is an index of the list of speakers, and its tags do not exceed the number of tags:
that number itself, which is the id of no tag, is accepted, and so are negative values. -/
theorem C78_acceptance (d : DB S I) (r : Rec S) :
    (∃ d', d.addRecord r = .ok d') ↔
      r.db = d.id ∧ (∀ t ∈ r.tags, t ≤ d.tags.length) ∧
      -(d.records.length : ℤ) ≤ r.spkr ∧ r.spkr < d.records.length := by
  unfold DB.addRecord
  by_cases hdb : r.db = d.id
  · rw [if_neg (by simpa using hdb)]
    by_cases hany : r.tags.any (fun t => decide ((d.tags.length : ℤ) < t)) = true
    · rw [if_pos hany]
      constructor
      · rintro ⟨d', hd⟩; exact absurd hd (by simp)
      · rintro ⟨_, ht, _⟩
        rw [List.any_eq_true] at hany
        obtain ⟨t, ht1, ht2⟩ := hany
        have := ht t ht1
        simp at ht2; omega
    · rw [if_neg hany]
      have ht : ∀ t ∈ r.tags, t ≤ d.tags.length := by
        intro t ht
        by_contra hc
        exact hany (List.any_eq_true.2 ⟨t, ht, by simpa using hc⟩)
      have hidx : (∃ i, pyIndex d.records.length r.spkr = some i) ↔
          -(d.records.length : ℤ) ≤ r.spkr ∧ r.spkr < d.records.length := by
        unfold pyIndex
        split
        · split
          · constructor
            · intro _; omega
            · intro _; exact ⟨_, rfl⟩
          · constructor
            · rintro ⟨i, hi⟩; exact absurd hi (by simp)
            · intro _; omega
        · split
          · constructor
            · intro _; omega
            · intro _; exact ⟨_, rfl⟩
          · constructor
            · rintro ⟨i, hi⟩; exact absurd hi (by simp)
            · intro _; omega
      rw [← hidx]
      split
      · rename_i hnone
        constructor
        · rintro ⟨d', hd⟩; exact absurd hd (by simp)
        · rintro ⟨_, _, i, hi⟩; rw [hnone] at hi; exact absurd hi (by simp)
      · rename_i i hi
        constructor
        · intro _; exact ⟨hdb, ht, i, hi⟩
        · intro _; exact ⟨_, rfl⟩
  · rw [if_pos (by simpa using hdb)]
    constructor
    · rintro ⟨d', hd⟩; exact absurd hd (by simp)
    · rintro ⟨h, _⟩; exact absurd h hdb

/-- **C78 (part which holds).** A record of the database with a known speaker and known tags is
accepted, appended to the records of its speaker and to no other list; a record of another
database, or with a tag above the number of tags, raises `ValueError`.  What is missing: records
with the first unknown id are accepted (`C78_unknown_tag_accepted`), as well as negative ids. -/
theorem C78_known_partial (d : DB S I) (r : Rec S) :
    ((r.db = d.id ∧ (0 ≤ r.spkr ∧ r.spkr < d.records.length) ∧ (∀ t ∈ r.tags, 0 ≤ t ∧ t < d.tags.length)) →
      ∃ d', d.addRecord r = .ok d' ∧ d'.tags = d.tags ∧ d'.spkrs = d.spkrs ∧
        d'.records.length = d.records.length ∧
        ∀ s : ℕ, d'.records[s]? =
          if (s : ℤ) = r.spkr then (d.records[s]?).map (· ++ [r]) else d.records[s]?) ∧
    ((r.db ≠ d.id ∨ ∃ t ∈ r.tags, (d.tags.length : ℤ) < t) → d.addRecord r = .error .valueError) := by
  constructor
  · rintro ⟨hdb, ⟨h0, h1⟩, ht⟩
    unfold DB.addRecord
    rw [if_neg (by simpa using hdb), if_neg]
    · have : pyIndex d.records.length r.spkr = some r.spkr.toNat := by
        unfold pyIndex; rw [if_pos h0, if_pos h1]
      rw [this]
      refine ⟨_, rfl, rfl, rfl, by simp, ?_⟩
      intro s
      simp only []
      rw [List.getElem?_modify]
      by_cases hs : (s : ℤ) = r.spkr
      · have e : r.spkr.toNat = s := by omega
        rw [if_pos hs]; simp [e]
      · have e : ¬ r.spkr.toNat = s := by omega
        rw [if_neg hs]; simp [e]
    · intro hc
      rw [List.any_eq_true] at hc
      obtain ⟨t, ht1, ht2⟩ := hc
      have := (ht t ht1).2
      simp at ht2; omega
  · intro h
    unfold DB.addRecord
    by_cases hdb : r.db = d.id
    · rw [if_neg (by simpa using hdb), if_pos]
      rcases h with h | ⟨t, ht, hlt⟩
      · exact absurd hdb h
      · exact List.any_eq_true.2 ⟨t, ht, by simpa using hlt⟩
    · rw [if_pos (by simpa using hdb)]

/-- **C78, negation.** In every database with a speaker, a record whose tag is the number of tags is
accepted although no tag has this id, and then the database cannot be written any more. -/
theorem C78_unknown_tag_accepted (d : DB S I) (hs : 0 < d.records.length)
    (hn : d.records.length = d.spkrs.length) (hi : d.spkrsInfo.length = d.spkrs.length)
    (h : d.records.all fun l => l.isEmpty) :
    ∃ d', d.addRecord ⟨d.id, 0, none, [d.tags.length], none, none⟩ = .ok d' ∧
      d.tags[d.tags.length]? = none ∧ d'.writeJson = .error .indexError := by
  unfold DB.addRecord
  rw [if_neg (by simp), if_neg (by simp)]
  have : pyIndex d.records.length 0 = some 0 := by
    unfold pyIndex; rw [if_pos (le_refl 0), if_pos (by exact_mod_cast hs)]; rfl
  simp only [this]
  refine ⟨_, rfl, by simp, ?_⟩
  unfold DB.writeJson
  simp only []
  cases hr : d.records with
  | nil => rw [hr] at hs; simp at hs
  | cons l ls =>
    rw [hr] at h hn
    cases hsp : d.spkrs with
    | nil => rw [hsp] at hn; simp at hn
    | cons n ns =>
      rw [hsp] at hi
      cases hin : d.spkrsInfo with
      | nil => rw [hin] at hi; simp at hi
      | cons i is =>
        have hl : l = [] := by
          rw [List.all_cons, Bool.and_eq_true] at h
          simpa using h.1
        subst hl
        simp only [List.modify_zero_cons, List.zip_cons_cons, List.nil_append]
        rw [List.mapM_cons]
        have ht : toDict { d with records := ([⟨d.id, 0, none, [(d.tags.length : ℤ)], none, none⟩] :: ls) }
            (⟨d.id, 0, none, [(d.tags.length : ℤ)], none, none⟩ : Rec S) = .error .indexError := by
          unfold toDict tagNames
          simp only [List.mapM_cons]
          unfold pyGet
          rw [if_neg (by omega)]
          simp [bind, Except.bind]
        simp only [List.mapM_cons]
        have hsp' : { d with records := ([⟨d.id, 0, none, [(d.tags.length : ℤ)], none, none⟩] :: ls) } =
          ({ id := d.id, records := ([⟨d.id, 0, none, [(d.tags.length : ℤ)], none, none⟩] :: ls), tags := d.tags, tagId := d.tagId, root := d.root, spkrs := d.spkrs, spkrsInfo := d.spkrsInfo } : DB S I) := rfl
        rw [hsp', hsp, hin] at ht
        rw [ht]
        rfl

/-- The operations which fill a database; `addRecord` is used with known tags and a known speaker. -/
inductive Reach (id : ℕ) : DB S I → Prop
  | new : Reach id (DB.new id)
  | addTag {d d' : DB S I} {t : S} {i : ℕ} : Reach id d → d.addTag t = .ok (d', i) → Reach id d'
  | getTagAdd {d d' : DB S I} {t : S} {i : ℕ} : Reach id d → d.getTagAdd t = .ok (d', i) → Reach id d'
  | addSpeaker {d d' : DB S I} {n : S} {x : Option I} {i : ℕ} :
      Reach id d → d.addSpeaker n x = .ok (d', i) → Reach id d'
  | addRecord {d d' : DB S I} {r : Rec S} : Reach id d → d.addRecord r = .ok d' → 0 ≤ r.spkr →
      (∀ t ∈ r.tags, 0 ≤ t ∧ t < d.tags.length) → Reach id d'

/-- **C77.** Every database filled by these operations is consistent. -/
theorem C77_reachable {id : ℕ} {d : DB S I} (h : Reach id d) : Consistent d := by
  induction h with
  | new =>
    exact ⟨new_tagsOk id, List.nodup_nil, rfl, rfl, by intro s l hs; simp [DB.new] at hs⟩
  | @addTag d d' t i _ ha ih =>
    obtain ⟨h1, -, h3, -, h5, h6, h7, -, -⟩ := addTag_ok ih.tags ha
    refine ⟨h1, by rw [h6]; exact ih.spkrs, by rw [h5, h6]; exact ih.nbRecords, by rw [h6, h7]; exact ih.nbInfo, ?_⟩
    intro s l hs r hr
    rw [h5] at hs
    obtain ⟨a, b⟩ := ih.known s l hs r hr
    refine ⟨a, fun t ht => ⟨(b t ht).1, ?_⟩⟩
    have := (b t ht).2
    rw [h3, List.length_append, List.length_singleton]
    omega
  | @getTagAdd d d' t i _ ha ih =>
    rcases getTagAdd_cases ih.tags t with ⟨_, e, _⟩ | ⟨j, _, e⟩
    · rw [e] at ha
      obtain ⟨h1, -, h3, -, h5, h6, h7, -, -⟩ := addTag_ok ih.tags ha
      refine ⟨h1, by rw [h6]; exact ih.spkrs, by rw [h5, h6]; exact ih.nbRecords, by rw [h6, h7]; exact ih.nbInfo, ?_⟩
      intro s l hs r hr
      rw [h5] at hs
      obtain ⟨a, b⟩ := ih.known s l hs r hr
      refine ⟨a, fun t ht => ⟨(b t ht).1, ?_⟩⟩
      have := (b t ht).2
      rw [h3, List.length_append, List.length_singleton]
      omega
    · rw [e] at ha
      have : d = d' := (Prod.mk.inj (Except.ok.inj ha)).1
      rw [← this]; exact ih
  | @addSpeaker d d' n x i _ ha ih =>
    unfold DB.addSpeaker at ha
    split at ha
    · exact absurd ha (by simp)
    · rename_i hn
      obtain ⟨rfl, -⟩ := Prod.mk.inj (Except.ok.inj ha)
      refine ⟨ih.tags, ?_, by simp [ih.nbRecords], by simp [ih.nbInfo], ?_⟩
      · simp only []
        rw [List.nodup_append]
        exact ⟨ih.spkrs, List.nodup_singleton n, by
          intro a hmem b hb; rw [List.mem_singleton] at hb; subst hb; rintro rfl; exact hn hmem⟩
      · intro s l hs r hr
        simp only [] at hs
        rw [List.getElem?_append] at hs
        split at hs
        · exact ih.known s l hs r hr
        · have := List.mem_of_getElem? hs
          rw [List.mem_singleton] at this
          subst this; simp at hr
  | @addRecord d d' r _ ha hspk htags ih =>
    have hacc := (C78_acceptance d r).1 ⟨d', ha⟩
    obtain ⟨d2, e1, e2, e3, e4, e5⟩ := (C78_known_partial d r).1 ⟨hacc.1, ⟨hspk, hacc.2.2.2⟩, htags⟩
    rw [ha] at e1
    obtain rfl := Except.ok.inj e1
    have hfields : d'.tagId = d.tagId ∧ d'.spkrsInfo = d.spkrsInfo := by
      unfold DB.addRecord at ha
      split at ha
      · exact absurd ha (by simp)
      · split at ha
        · exact absurd ha (by simp)
        · split at ha
          · exact absurd ha (by simp)
          · obtain rfl := Except.ok.inj ha
            exact ⟨rfl, rfl⟩
    refine ⟨⟨by rw [e2]; exact ih.tags.1, by rw [e2, hfields.1]; exact ih.tags.2⟩, by rw [e3]; exact ih.spkrs,
      by rw [e4, e3]; exact ih.nbRecords, by rw [hfields.2, e3]; exact ih.nbInfo, ?_⟩
    intro s l hs r' hr'
    rw [e5 s] at hs
    rw [e2]
    split at hs
    · rename_i hsr
      rw [Option.map_eq_some_iff] at hs
      obtain ⟨l0, hl0, rfl⟩ := hs
      rw [List.mem_append, List.mem_singleton] at hr'
      rcases hr' with hr' | rfl
      · exact ih.known s l0 hl0 r' hr'
      · exact ⟨hsr.symm, htags⟩
    · exact ih.known s l hs r' hr'

/-! ### C79 -/

/-- `c` holds the values `f i j` for `i, j < n`. -/
def Rep (n : ℕ) (c : List (List ℕ)) (f : ℕ → ℕ → ℕ) : Prop :=
  c.length = n ∧ ∀ i < n, ∃ row, c[i]? = some row ∧ row.length = n ∧ ∀ j < n, row[j]? = some (f i j)

theorem incCount_rep {n : ℕ} {c : List (List ℕ)} {f : ℕ → ℕ → ℕ} (h : Rep n c f) {t u : ℤ}
    (ht : 0 ≤ t ∧ t < n) (hu : 0 ≤ u ∧ u < n) :
    ∃ c', incCount c t u = .ok c' ∧
      Rep n c' (fun i j => f i j + if (i : ℤ) = t ∧ (j : ℤ) = u then 1 else 0) := by
  obtain ⟨hlen, hrows⟩ := h
  obtain ⟨row, hr1, hr2, hr3⟩ := hrows t.toNat (by omega)
  have e1 : pyIndex c.length t = some t.toNat := by
    unfold pyIndex; rw [if_pos ht.1, if_pos (by omega)]
  have e2 : pyIndex (c.getD t.toNat []).length u = some u.toNat := by
    rw [List.getD_eq_getElem?_getD, hr1]
    unfold pyIndex
    rw [if_pos hu.1, if_pos (by simp only [Option.getD_some]; omega)]
  refine ⟨c.modify t.toNat fun row => row.modify u.toNat (· + 1), ?_, by simp [hlen], ?_⟩
  · unfold incCount
    rw [e1]
    simp only []
    rw [e2]
  · intro i hi
    obtain ⟨r, h1, h2, h3⟩ := hrows i hi
    by_cases hit : (i : ℤ) = t
    · have hit' : t.toNat = i := by omega
      refine ⟨r.modify u.toNat (· + 1), ?_, by simp [h2], ?_⟩
      · rw [List.getElem?_modify, h1]; simp [hit']
      · intro j hj
        rw [List.getElem?_modify, h3 j hj]
        by_cases hju : (j : ℤ) = u
        · have : u.toNat = j := by omega
          simp [this, hit, hju]
        · have : ¬ u.toNat = j := by omega
          simp [this, hju]
    · have hit' : ¬ t.toNat = i := by omega
      refine ⟨r, ?_, h2, ?_⟩
      · rw [List.getElem?_modify, h1]; simp [hit']
      · intro j hj
        rw [h3 j hj]; simp [hit]

theorem Rep.congr {n : ℕ} {c : List (List ℕ)} {f g : ℕ → ℕ → ℕ} (h : Rep n c f)
    (hfg : ∀ i j, f i j = g i j) : Rep n c g := by
  have : f = g := funext fun i => funext fun j => hfg i j
  rwa [← this]

theorem count_inner {n : ℕ} {t : ℤ} (ht : 0 ≤ t ∧ t < n) (us : List ℤ) :
    ∀ (c : List (List ℕ)) (f : ℕ → ℕ → ℕ), Rep n c f → (∀ u ∈ us, 0 ≤ u ∧ u < n) →
      ∃ c', us.foldlM (fun c u => if t ≠ u then incCount c t u else .ok c) c = (.ok c' : Py (List (List ℕ))) ∧
        Rep n c' (fun i j => f i j + if (i : ℤ) = t ∧ i ≠ j then us.count (j : ℤ) else 0) := by
  induction us with
  | nil => intro c f h _; exact ⟨c, rfl, h.congr (by intro i j; simp)⟩
  | cons u us ih =>
    intro c f h hus
    rw [List.foldlM_cons]
    by_cases htu : t = u
    · obtain ⟨c', h1, h2⟩ := ih c f h fun v hv => hus v (List.mem_cons_of_mem _ hv)
      refine ⟨c', ?_, h2.congr ?_⟩
      · simp only [htu, ne_eq, not_true_eq_false, if_false] at h1 ⊢
        exact h1
      · intro i j
        congr 1
        by_cases hij : (i : ℤ) = t ∧ i ≠ j
        · rw [if_pos hij, if_pos hij, List.count_cons_of_ne]
          intro hc
          exact hij.2 (by omega)
        · rw [if_neg hij, if_neg hij]
    · obtain ⟨c1, e1, e2⟩ := incCount_rep h ht (hus u List.mem_cons_self)
      obtain ⟨c', h1, h2⟩ := ih c1 _ e2 fun v hv => hus v (List.mem_cons_of_mem _ hv)
      refine ⟨c', ?_, h2.congr ?_⟩
      · simp only [ne_eq, htu, not_false_eq_true, if_true, e1] at h1 ⊢
        exact h1
      · intro i j
        by_cases hi : (i : ℤ) = t
        · by_cases hju : (j : ℤ) = u
          · have hij : i ≠ j := by intro e; subst e; exact htu (hi.symm.trans hju)
            simp [hi, hju, hij]; omega
          · by_cases hij : i = j
            · simp [hij, hju]
            · have hju' : ¬ u = (j : ℤ) := fun e => hju e.symm
              simp [hi, hij, hju, List.count_cons_of_ne hju']
        · simp [hi]

theorem count_record {n : ℕ} (us ts : List ℤ) :
    ∀ (c : List (List ℕ)) (f : ℕ → ℕ → ℕ), Rep n c f → (∀ u ∈ us, 0 ≤ u ∧ u < n) → (∀ t ∈ ts, 0 ≤ t ∧ t < n) →
      ∃ c', ts.foldlM (fun c t => us.foldlM (fun c u => if t ≠ u then incCount c t u else .ok c) c) c
          = (.ok c' : Py (List (List ℕ))) ∧
        Rep n c' (fun i j => f i j + if i = j then 0 else ts.count (i : ℤ) * us.count (j : ℤ)) := by
  induction ts with
  | nil => intro c f h _ _; exact ⟨c, rfl, h.congr (by intro i j; simp)⟩
  | cons t ts ih =>
    intro c f h hus hts
    obtain ⟨c1, e1, e2⟩ := count_inner (hts t List.mem_cons_self) us c f h hus
    obtain ⟨c', h1, h2⟩ := ih c1 _ e2 hus fun v hv => hts v (List.mem_cons_of_mem _ hv)
    refine ⟨c', ?_, h2.congr ?_⟩
    · rw [List.foldlM_cons, e1]; exact h1
    · intro i j
      by_cases hij : i = j
      · simp [hij]
      · by_cases hi : (i : ℤ) = t
        · simp [hij, hi, Nat.add_mul]; omega
        · have hi' : ¬ t = (i : ℤ) := fun e => hi e.symm
          simp [hij, hi, List.count_cons_of_ne hi']

theorem count_records {n : ℕ} (rs : List (Rec S)) :
    ∀ (c : List (List ℕ)) (f : ℕ → ℕ → ℕ), Rep n c f → (∀ r ∈ rs, ∀ t ∈ r.tags, 0 ≤ t ∧ t < n) →
      ∃ c', rs.foldlM countRecord c = .ok c' ∧
        Rep n c' (fun i j => f i j + if i = j then 0 else
          (rs.map fun r => r.tags.count (i : ℤ) * r.tags.count (j : ℤ)).sum) := by
  induction rs with
  | nil => intro c f h _; exact ⟨c, rfl, h.congr (by intro i j; simp)⟩
  | cons r rs ih =>
    intro c f h hk
    have hr := hk r List.mem_cons_self
    obtain ⟨c1, e1, e2⟩ := count_record r.tags r.tags c f h hr hr
    obtain ⟨c', h1, h2⟩ := ih c1 _ e2 fun v hv => hk v (List.mem_cons_of_mem _ hv)
    refine ⟨c', ?_, h2.congr ?_⟩
    · rw [List.foldlM_cons]
      have : countRecord c r = .ok c1 := e1
      rw [this]; exact h1
    · intro i j
      by_cases hij : i = j
      · simp [hij]
      · simp [hij]; omega

/-- **C79.** For a database whose records use known tags, `count_by_keywords` gives a square matrix
with null diagonal, whose other entries `(i, j)` are the sums over records of the product of the
numbers of occurrences of both tags. -/
theorem C79_counts (d : DB S I) (h : ∀ l ∈ d.records, ∀ r ∈ l, ∀ t ∈ r.tags, 0 ≤ t ∧ t < d.tags.length) :
    ∃ c, d.countByKeywords = .ok c ∧ c.length = d.tags.length ∧
      ∀ i < d.tags.length, ∃ row, c[i]? = some row ∧ row.length = d.tags.length ∧
        ∀ j < d.tags.length, row[j]? = some (if i = j then 0 else
          (d.allRecords.map fun r => r.tags.count (i : ℤ) * r.tags.count (j : ℤ)).sum) := by
  have key : ∀ (ls : List (List (Rec S))) (c : List (List ℕ)) (f : ℕ → ℕ → ℕ), Rep d.tags.length c f →
      (∀ l ∈ ls, ∀ r ∈ l, ∀ t ∈ r.tags, 0 ≤ t ∧ t < d.tags.length) →
      ∃ c', ls.foldlM (fun c s => s.foldlM countRecord c) c = .ok c' ∧
        Rep d.tags.length c' (fun i j => f i j + if i = j then 0 else
          (ls.flatten.map fun r => r.tags.count (i : ℤ) * r.tags.count (j : ℤ)).sum) := by
    intro ls
    induction ls with
    | nil => intro c f h _; exact ⟨c, rfl, h.congr (by intro i j; simp)⟩
    | cons l ls ih =>
      intro c f h hk
      obtain ⟨c1, e1, e2⟩ := count_records l c f h (hk l List.mem_cons_self)
      obtain ⟨c', h1, h2⟩ := ih c1 _ e2 fun v hv => hk v (List.mem_cons_of_mem _ hv)
      refine ⟨c', ?_, h2.congr ?_⟩
      · rw [List.foldlM_cons, e1]; exact h1
      · intro i j
        by_cases hij : i = j
        · simp [hij]
        · simp [hij]; omega
  obtain ⟨c, h1, h2, h3⟩ := key d.records (List.replicate d.tags.length (List.replicate d.tags.length 0))
    (fun _ _ => 0) ⟨by simp, fun i hi => ⟨List.replicate d.tags.length 0, by simp [hi], by simp,
      fun j hj => by simp [hj]⟩⟩ h
  refine ⟨c, h1, h2, ?_⟩
  intro i hi
  obtain ⟨row, r1, r2, r3⟩ := h3 i hi
  refine ⟨row, r1, r2, ?_⟩
  intro j hj
  rw [r3 j hj]
  simp only [Nat.zero_add]
  rfl

/-- **C79.** The matrix is symmetric; for records without repeated tags its entries outside the
diagonal are the numbers of records with both tags. -/
theorem C79_cooccurrences (d : DB S I)
    (h : ∀ l ∈ d.records, ∀ r ∈ l, ∀ t ∈ r.tags, 0 ≤ t ∧ t < d.tags.length) :
    ∃ (c : List (List ℕ)), d.countByKeywords = .ok c ∧
      (∀ i j : ℕ, (c.getD i []).getD j 0 = (c.getD j []).getD i 0) ∧
      ∀ i j : ℕ, i < d.tags.length → j < d.tags.length → i ≠ j →
        (∀ r ∈ d.allRecords, r.tags.Nodup) →
        (c.getD i []).getD j 0 =
          d.allRecords.countP fun r => decide ((i : ℤ) ∈ r.tags ∧ (j : ℤ) ∈ r.tags) := by
  obtain ⟨c, h1, h2, h3⟩ := C79_counts d h
  have hval : ∀ i j : ℕ, i < d.tags.length → j < d.tags.length →
      (c.getD i []).getD j 0 = if i = j then 0 else
          (d.allRecords.map fun r => r.tags.count (i : ℤ) * r.tags.count (j : ℤ)).sum := by
    intro i j hi hj
    obtain ⟨row, r1, r2, r3⟩ := h3 i hi
    simp only [List.getD_eq_getElem?_getD]
    rw [r1, Option.getD_some, r3 j hj]
    rfl
  have hout : ∀ i j : ℕ, ¬ (i < d.tags.length ∧ j < d.tags.length) → (c.getD i []).getD j 0 = 0 := by
    intro i j hij
    simp only [List.getD_eq_getElem?_getD]
    by_cases hi : i < d.tags.length
    · obtain ⟨row, r1, r2, r3⟩ := h3 i hi
      rw [r1, Option.getD_some, List.getElem?_eq_none (by rw [r2]; omega)]; rfl
    · have : c[i]? = none := List.getElem?_eq_none (by omega)
      rw [this]; simp
  refine ⟨c, h1, ?_, ?_⟩
  · intro i j
    by_cases hij : i < d.tags.length ∧ j < d.tags.length
    · rw [hval i j hij.1 hij.2, hval j i hij.2 hij.1]
      by_cases e : i = j
      · rw [if_pos e, if_pos e.symm]
      · rw [if_neg e, if_neg (Ne.symm e)]
        simp only [Nat.mul_comm]
    · rw [hout i j hij, hout j i (by tauto)]
  · intro i j hi hj hne hnd
    rw [hval i j hi hj, if_neg hne]
    generalize d.allRecords = rs at hnd
    induction rs with
    | nil => rfl
    | cons r rs ih =>
      rw [List.map_cons, List.sum_cons, List.countP_cons, ih fun r hr => hnd r (List.mem_cons_of_mem _ hr)]
      have hc : ∀ k : ℤ, r.tags.count k = if k ∈ r.tags then 1 else 0 := by
        intro k
        split
        · exact List.count_eq_one_of_mem (hnd r List.mem_cons_self) ‹_›
        · exact List.count_eq_zero_of_not_mem ‹_›
      rw [hc, hc]
      by_cases a : (i : ℤ) ∈ r.tags <;> by_cases b : (j : ℤ) ∈ r.tags <;> simp [a, b] <;> omega

example : exampleDB.countByKeywords = .ok [[0, 1], [1, 0]] := by decide +kernel

/-- **C97.** `statistics` raises `TypeError` when there is at least one speaker; it succeeds exactly
on databases with neither speaker nor tag. -/
theorem C97_statistics_fails (d : DB S I) :
    (d.records ≠ [] → d.statistics = .error .typeError) ∧
    (d.statistics = .ok () ↔ d.records = [] ∧ d.tags = []) := by
  unfold DB.statistics joinNonStrings DB.allRecords
  cases hr : d.records with
  | nil =>
    refine ⟨fun h => absurd rfl h, ?_⟩
    cases ht : d.tags with
    | nil => simp [bind, Except.bind, pure, Except.pure]
    | cons t ts => simp [bind, Except.bind, pure, Except.pure]
  | cons l ls => simp [bind, Except.bind]

/-! ### C80 -/

/-- **C80.** `<` compares audio names: it is irreflexive, transitive, and exactly one of `a < b`,
`b < a`, same name holds; `>=` is its negation. -/
theorem C80_strict_order (a b c : Rec S) (x y z : S) (ha : a.audio = some x) (hb : b.audio = some y)
    (hc : c.audio = some z) :
    a.lt a = .ok false ∧
    (a.lt b = .ok true → b.lt c = .ok true → a.lt c = .ok true) ∧
    ((a.lt b = .ok true ∧ b.lt a = .ok false ∧ x ≠ y) ∨ (a.lt b = .ok false ∧ b.lt a = .ok true ∧ x ≠ y) ∨
      (a.lt b = .ok false ∧ b.lt a = .ok false ∧ x = y)) ∧
    (a.ge b = .ok true ↔ a.lt b = .ok false) := by
  unfold Rec.ge Rec.lt
  rw [ha, hb, hc]
  simp only [Except.ok.injEq, decide_eq_true_eq, decide_eq_false_iff_not, lt_self_iff_false, not_false_eq_true,
    true_and]
  refine ⟨fun h1 h2 => lt_trans h1 h2, ?_, ?_⟩
  · rcases lt_trichotomy x y with h | h | h
    · left; exact ⟨h, lt_asymm h, h.ne⟩
    · right; right; subst h; simp
    · right; left; exact ⟨lt_asymm h, h, h.ne'⟩
  · simp [bind, Except.bind, pure, Except.pure]

/-- **C80 (part which holds).** `a > b` is equivalent to `b < a` when the names differ or when both
are the same object.  What is missing: `C80_gt_wrong`. -/
theorem C80_gt_partial (a b : Rec S) (same : Bool) (x y : S) (ha : a.audio = some x)
    (hb : b.audio = some y) (h : x ≠ y ∨ same = true) (hs : same = true → a = b) :
    a.gt same b = b.lt a := by
  unfold Rec.gt Rec.le Rec.lt
  rw [ha, hb]
  cases same with
  | true =>
    have hab := hs rfl
    rw [hab, hb] at ha
    obtain rfl := Option.some.inj ha
    simp [bind, Except.bind, pure, Except.pure]
  | false =>
    have hne : x ≠ y := by simpa using h
    simp only [Bool.false_eq_true, if_false, bind, Except.bind, pure, Except.pure, Except.ok.injEq]
    rcases lt_or_gt_of_ne hne with h | h
    · simp [h, lt_asymm h]
    · simp [h, lt_asymm h]

/-- **C80, negation.** Two distinct records with the same audio name are each greater than the
other, although none is smaller. -/
theorem C80_gt_wrong (a b : Rec S) (x : S) (ha : a.audio = some x) (hb : b.audio = some x) :
    a.gt false b = .ok true ∧ b.gt false a = .ok true ∧ a.lt b = .ok false ∧ b.lt a = .ok false := by
  unfold Rec.gt Rec.le Rec.lt
  rw [ha, hb]
  simp [bind, Except.bind, pure, Except.pure]

example : ∃ a b : Rec ℕ, a.audio = some 1 ∧ b.audio = some 1 ∧ a ≠ b :=
  ⟨⟨0, 0, some 1, [], none, none⟩, ⟨0, 1, some 1, [], none, none⟩, rfl, rfl, by decide⟩

end Verif.Sound
