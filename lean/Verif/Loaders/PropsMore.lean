import Verif.Loaders.Props
import Verif.Logger.Lemmas
import Mathlib.Data.List.Range

/-!
# Properties C86 (acorns, choreo2), C96 and C101: loaders and downloads
-/

namespace Verif.Loaders

open Verif.Objects (mapM_py_ok)
open Verif.Logger (Key decStr decStr_inj parseNat parseNat_decStr splitFirst splitFirst_append
  splitFirst_num underscore_notMem_decStr decStr_ne_nil decStr_digits)

variable {R S : Type}

/-! ### Removal of blacklisted records -/

theorem eraseIdx_map {α β : Type} (f : α → β) (l : List α) : ∀ r : ℕ,
    (l.map f).eraseIdx r = (l.eraseIdx r).map f := by
  induction l with
  | nil => intro r; rfl
  | cons a l ih =>
    intro r
    cases r with
    | zero => rfl
    | succ r => simp [ih r]

theorem popAll_map {α β : Type} (f : α → β) (bl : List ℕ) : ∀ l : List α,
    popAll (l.map f) bl = (popAll l bl).map (List.map f) := by
  induction bl with
  | nil => intro l; rfl
  | cons r rs ih =>
    intro l
    unfold popAll
    rw [List.length_map]
    split
    · rw [eraseIdx_map, ih]
    · rfl

theorem popAll_length {α : Type} (bl : List ℕ) : ∀ (l l' : List α), popAll l bl = .ok l' →
    l'.length + bl.length = l.length := by
  induction bl with
  | nil =>
    intro l l' h
    obtain rfl := Except.ok.inj h
    simp
  | cons r rs ih =>
    intro l l' h
    unfold popAll at h
    split at h
    · rename_i hr
      have := ih _ _ h
      rw [List.length_eraseIdx_of_lt hr] at this
      rw [List.length_cons]
      omega
    · cases h

theorem popAll_idx {α : Type} (l l' : List α) (bl : List ℕ) :
    popAll l bl = .ok l' ↔ ∃ idx, popAll (List.range l.length) bl = .ok idx ∧
      List.Forall₂ (fun i a => l[i]? = some a) idx l' := by
  have hr : l.map some = (List.range l.length).map (fun i => l[i]?) := by
    apply List.ext_getElem?
    intro i
    by_cases hi : i < l.length
    · simp [hi]
    · rw [List.getElem?_eq_none (by simpa using hi), List.getElem?_eq_none (by simpa using hi)]
  have key : (popAll l bl).map (List.map some)
      = (popAll (List.range l.length) bl).map (List.map fun i => l[i]?) := by
    rw [← popAll_map, ← popAll_map, hr]
  have hmap : ∀ (idx : List ℕ) (l' : List α), List.Forall₂ (fun i a => l[i]? = some a) idx l' ↔
      idx.map (fun i => l[i]?) = l'.map some := by
    intro idx l'
    rw [← List.forall₂_eq_eq_eq, List.forall₂_map_left_iff, List.forall₂_map_right_iff]
  constructor
  · intro h
    rw [h] at key
    cases hi : popAll (List.range l.length) bl with
    | error e => rw [hi] at key; cases key
    | ok idx =>
      rw [hi] at key
      exact ⟨idx, rfl, (hmap idx l').2 (Except.ok.inj key).symm⟩
  · rintro ⟨idx, h1, h2⟩
    rw [h1] at key
    cases hl : popAll l bl with
    | error e => rw [hl] at key; cases key
    | ok l'' =>
      rw [hl] at key
      have : l''.map some = idx.map (fun i => l[i]?) := Except.ok.inj key
      rw [(hmap idx l').1 h2] at this
      rw [List.map_injective_iff.2 (Option.some_injective α) this]

/-- The record left aside for speaker `s` of the first year. -/
def Bad (s i : ℕ) : Prop := s = 1 ∧ i = 176

theorem blacklist_idx (s n : ℕ) (hs : s < 4) (bl idx : List ℕ) (hb : blacklistY1[s]? = some bl)
    (h : popAll (List.range n) bl = .ok idx) :
    idx.Pairwise (· < ·) ∧ ∀ i, i ∈ idx ↔ i < n ∧ ¬ Bad s i := by
  by_cases h1 : s = 1
  · subst h1
    obtain rfl : [176] = bl := Option.some.inj hb
    unfold popAll popAll at h
    split at h
    · obtain rfl := Except.ok.inj h
      refine ⟨List.Pairwise.sublist (List.eraseIdx_sublist _ _) List.pairwise_lt_range, ?_⟩
      intro i
      rw [List.mem_eraseIdx_iff_getElem]
      unfold Bad
      simp only [List.length_range, List.getElem_range]
      constructor
      · rintro ⟨j, h1, h2, rfl⟩; exact ⟨h1, fun e => h2 e.2⟩
      · rintro ⟨h1, h2⟩; exact ⟨i, h1, fun e => h2 ⟨trivial, e⟩, rfl⟩
    · cases h
  · have : bl = [] := by
      have : s = 0 ∨ s = 2 ∨ s = 3 := by omega
      rcases this with rfl | rfl | rfl <;> exact (Option.some.inj hb).symm
    subst this
    obtain rfl := Except.ok.inj h
    refine ⟨List.pairwise_lt_range, ?_⟩
    intro i
    rw [List.mem_range]
    exact ⟨fun h => ⟨h, fun hb => h1 hb.1⟩, fun h => h.1⟩

theorem popRecords_get {α : Type} (s : ℕ) : ∀ (recs : List (List α)) (bl : List (List ℕ))
    (recs' : List (List α)) (b : List ℕ) (r' : List α), popRecords recs bl = .ok recs' →
    bl[s]? = some b → recs'[s]? = some r' →
    ∃ r, recs[s]? = some r ∧ popAll r b = .ok r' := by
  induction s with
  | zero =>
    intro recs bl recs' b r' h hb hr
    cases recs with
    | nil =>
      unfold popRecords at h
      obtain rfl := Except.ok.inj h
      cases hr
    | cons r recs =>
      cases bl with
      | nil => cases hb
      | cons b' bl =>
        unfold popRecords at h
        cases h1 : popAll r b' with
        | error e => rw [h1] at h; cases h
        | ok r1 =>
          cases h2 : popRecords recs bl with
          | error e => rw [h1, h2] at h; cases h
          | ok rs =>
            rw [h1, h2] at h
            obtain rfl := Except.ok.inj h
            obtain rfl := Option.some.inj hb
            obtain rfl := Option.some.inj hr
            exact ⟨r, rfl, h1⟩
  | succ s ih =>
    intro recs bl recs' b r' h hb hr
    cases recs with
    | nil =>
      unfold popRecords at h
      obtain rfl := Except.ok.inj h
      cases hr
    | cons r recs =>
      cases bl with
      | nil => cases hb
      | cons b' bl =>
        unfold popRecords at h
        cases h1 : popAll r b' with
        | error e => rw [h1] at h; cases h
        | ok r1 =>
          cases h2 : popRecords recs bl with
          | error e => rw [h1, h2] at h; cases h
          | ok rs =>
            rw [h1, h2] at h
            obtain rfl := Except.ok.inj h
            exact ih recs bl rs b r' h2 (by simpa using hb) (by simpa using hr)

/-! ### Acorns -/

/-- The number of samples of a successful call. -/
def okLength : Out R S → Option ℕ
  | .data (.ok x) => some x.length
  | .labels (.ok l) => some l.length
  | _ => none

theorem checkN_cases (ns : Option ℕ) (n : ℕ) :
    (checkN ns n).1 = some (ns.getD n) ∧ ((checkN ns n).2 = .ok () ↔ ns.getD n = n) ∧
    (ns.getD n ≠ n → (checkN ns n).2 = .error .assertionError) := by
  unfold checkN
  cases ns with
  | none => simp
  | some m => by_cases h : m = n <;> simp [h]

/-- Data of a call for speaker `s`: rows of the file but the bad one. -/
def AcData (s : ℕ) (bl : List ℕ) (calls : List (Py (List R) ⊕ Py (AcDB S))) (x : List R) : Prop :=
  ∃ raw, .inl (.ok raw) ∈ calls ∧ blacklistY1[s]? = some bl ∧ popAll raw bl = .ok x

/-- Labels of a call for speaker `s`. -/
def AcLabels (s : ℕ) (bl : List ℕ) (dbs : AcDB S → Prop) (l : List S) : Prop :=
  ∃ (d : AcDB S) (recs recs' : List (List ℤ)), dbs d ∧ d.records[s]? = some recs ∧
    popAll recs bl = .ok recs' ∧ List.Forall₂ (fun r n => d.firstTag r = .ok n) recs' l

/-- The database of the loader, if any, is one of `dbs` without the bad records. -/
def AcInv (dbs : AcDB S → Prop) (s : AcLoader S) : Prop :=
  ∀ d', s.db = some d' → ∃ d, dbs d ∧ d'.tags = d.tags ∧ popRecords d.records blacklistY1 = .ok d'.records

theorem ac_getDb {dbs : AcDB S → Prop} {s : AcLoader S} (h : AcInv dbs s) (src : Py (AcDB S))
    (hs : ∀ d, src = .ok d → dbs d) :
    AcInv dbs (s.getDb src).1 ∧ (s.getDb src).1.speaker = s.speaker ∧
    (s.getDb src).1.nSamples = s.nSamples ∧
    ∀ d', (s.getDb src).2 = .ok d' → ∃ d, dbs d ∧ d'.tags = d.tags ∧
      popRecords d.records blacklistY1 = .ok d'.records := by
  unfold AcLoader.getDb
  cases hdb : s.db with
  | some d =>
    simp only []
    refine ⟨h, trivial, trivial, ?_⟩
    intro d' hd'
    obtain rfl := Except.ok.inj hd'
    exact h _ hdb
  | none =>
    simp only []
    cases src with
    | error e => exact ⟨h, rfl, rfl, fun d' hd' => by cases hd'⟩
    | ok d =>
      cases hp : popRecords d.records blacklistY1 with
      | error e =>
        simp only [bind, Except.bind, hp, Except.map]
        exact ⟨h, trivial, trivial, fun d' hd' => by cases hd'⟩
      | ok rs =>
        simp only [bind, Except.bind, hp, Except.map]
        have : ∀ d', AcDB.mk rs d.tags = d' → ∃ d, dbs d ∧ d'.tags = d.tags ∧
            popRecords d.records blacklistY1 = .ok d'.records := by
          rintro d' rfl
          exact ⟨d, hs d rfl, rfl, hp⟩
        exact ⟨fun d' hd' => this d' (Option.some.inj hd'), trivial, trivial,
          fun d' hd' => this d' (Except.ok.inj hd')⟩

theorem loadFeatures_ok (s : ℕ) (raw x : List R) (h : loadFeatures (s : ℤ) (.ok raw) = .ok x) :
    ∃ bl, blacklistY1[s]? = some bl ∧ popAll raw bl = .ok x := by
  unfold loadFeatures at h
  split at h
  · cases h
  · cases hb : pyGet blacklistY1 (s : ℤ) with
    | error e => rw [hb] at h; cases h
    | ok bl =>
      rw [hb] at h
      simp only [bind, Except.bind] at h
      cases hi : popAll (List.range raw.length) bl with
      | error e => rw [hi] at h; cases h
      | ok idx =>
        rw [hi] at h
        refine ⟨bl, (pyGet_ok _ _ _).1 hb, (popAll_idx raw x bl).2 ⟨idx, hi, ?_⟩⟩
        have h : takeRows raw idx = .ok x := h
        unfold takeRows at h
        rw [mapM_py_ok] at h
        exact h.imp fun i a hia => (pyGet_ok _ _ _).1 hia

theorem ac_run (sp : ℕ) (bl : List ℕ) (hb : blacklistY1[sp]? = some bl)
    (all : List (Py (List R) ⊕ Py (AcDB S))) :
    ∀ (calls : List (Py (List R) ⊕ Py (AcDB S))) (s : AcLoader S), (∀ c ∈ calls, c ∈ all) →
    s.speaker = sp → AcInv (fun d => .inr (.ok d) ∈ all) s →
    (∃ m, (∀ m', s.nSamples = some m' → m = m') ∧ ∀ o ∈ s.run calls, ∀ n, okLength o = some n → n = m) ∧
    (∀ x, .data (.ok x) ∈ s.run calls → AcData sp bl all x) ∧
    (∀ l, .labels (.ok l) ∈ s.run calls → AcLabels sp bl (fun d => .inr (.ok d) ∈ all) l) := by
  intro calls
  induction calls with
  | nil =>
    intro s _ _ _
    refine ⟨⟨s.nSamples.getD 0, ?_, fun o ho => (List.not_mem_nil ho).elim⟩,
      fun x hx => (List.not_mem_nil hx).elim, fun x hx => (List.not_mem_nil hx).elim⟩
    intro m' hm'
    rw [hm']; rfl
  | cons c cs ih =>
    intro s hall hsp hinv
    have hcs : ∀ c ∈ cs, c ∈ all := fun c hc => hall c (List.mem_cons_of_mem _ hc)
    cases c with
    | inl src =>
      unfold AcLoader.run
      cases hx : loadFeatures s.speaker src with
      | error e =>
        have hd : s.getData src = (s, .error e) := by
          unfold AcLoader.getData
          rw [hx]
        rw [hd]
        obtain ⟨⟨m, h1, h2⟩, h3, h4⟩ := ih s hcs hsp hinv
        refine ⟨⟨m, h1, ?_⟩, ?_, ?_⟩
        · intro o ho n hn
          rcases List.mem_cons.1 ho with rfl | ho
          · cases hn
          · exact h2 o ho n hn
        · intro x hx
          rcases List.mem_cons.1 hx with hx | hx
          · cases hx
          · exact h3 x hx
        · intro x hx
          rcases List.mem_cons.1 hx with hx | hx
          · cases hx
          · exact h4 x hx
      | ok x =>
        obtain ⟨c1, c2, c3⟩ := checkN_cases s.nSamples x.length
        have hd : s.getData src = (⟨s.speaker, some (s.nSamples.getD x.length), s.db⟩,
            (checkN s.nSamples x.length).2.map fun _ => x) := by
          unfold AcLoader.getData
          rw [hx]
          simp only []
          rw [c1]
        rw [hd]
        obtain ⟨⟨m, h1, h2⟩, h3, h4⟩ := ih ⟨s.speaker, some (s.nSamples.getD x.length), s.db⟩
          hcs hsp hinv
        have hm := h1 _ rfl
        refine ⟨⟨m, ?_, ?_⟩, ?_, ?_⟩
        · intro m' hm'
          rw [hm, hm']; rfl
        · intro o ho n hn
          rcases List.mem_cons.1 ho with rfl | ho
          · by_cases hc : s.nSamples.getD x.length = x.length
            · rw [c2.2 hc] at hn
              obtain rfl := Option.some.inj hn
              rw [hm, hc]
            · rw [c3 hc] at hn; cases hn
          · exact h2 o ho n hn
        · intro y hy
          rcases List.mem_cons.1 hy with hy | hy
          · have hxy : x = y := by
              by_cases hc : s.nSamples.getD x.length = x.length
              · rw [c2.2 hc] at hy
                injection hy with hy
                exact (Except.ok.inj hy).symm
              · rw [c3 hc] at hy
                injection hy with hy
                cases hy
            subst hxy
            cases src with
            | error e =>
              unfold loadFeatures at hx
              split at hx <;> cases hx
            | ok raw =>
              rw [hsp] at hx
              obtain ⟨bl', hb', hp⟩ := loadFeatures_ok sp raw x hx
              rw [hb] at hb'
              obtain rfl := Option.some.inj hb'
              exact ⟨raw, hall _ List.mem_cons_self, hb, hp⟩
          · exact h3 y hy
        · intro l hl
          rcases List.mem_cons.1 hl with hl | hl
          · cases hl
          · exact h4 l hl
    | inr src =>
      unfold AcLoader.run
      have hsrc : ∀ d, src = .ok d → (.inr (.ok d) : Py (List R) ⊕ Py (AcDB S)) ∈ all := by
        rintro d rfl
        exact hall _ List.mem_cons_self
      obtain ⟨g1, g2, g3, g4⟩ := ac_getDb hinv src hsrc
      unfold AcLoader.getLabels
      rcases hg : s.getDb src with ⟨s', r⟩
      rw [hg] at g1 g2 g3 g4
      simp only [] at g1 g2 g3 g4 ⊢
      have skip : ∀ e : PyErr, (∃ m, (∀ m', s.nSamples = some m' → m = m') ∧
          ∀ o ∈ Out.labels (.error e) :: s'.run cs, ∀ n, okLength o = some n → n = m) ∧
          (∀ x, .data (.ok x) ∈ Out.labels (.error e) :: s'.run cs → AcData sp bl all x) ∧
          (∀ l, .labels (.ok l) ∈ Out.labels (.error e) :: s'.run cs →
            AcLabels sp bl (fun d => .inr (.ok d) ∈ all) l) := by
        intro e
        obtain ⟨⟨m, h1, h2⟩, h3, h4⟩ := ih s' hcs (g2.trans hsp) g1
        rw [g3] at h1
        refine ⟨⟨m, h1, ?_⟩, ?_, ?_⟩
        · intro o ho n hn
          rcases List.mem_cons.1 ho with rfl | ho
          · cases hn
          · exact h2 o ho n hn
        · intro x hx
          rcases List.mem_cons.1 hx with hx | hx
          · cases hx
          · exact h3 x hx
        · intro x hx
          rcases List.mem_cons.1 hx with hx | hx
          · injection hx with hx; cases hx
          · exact h4 x hx
      cases r with
      | error e => exact skip e
      | ok d' =>
        simp only []
        cases hrec : pyGet d'.records s'.speaker with
        | error e => exact skip e
        | ok recs' =>
          simp only []
          obtain ⟨c1, c2, c3⟩ := checkN_cases s'.nSamples recs'.length
          rw [c1]
          obtain ⟨⟨m, h1, h2⟩, h3, h4⟩ := ih ⟨s'.speaker, some (s'.nSamples.getD recs'.length), s'.db⟩
            hcs (g2.trans hsp) g1
          have hm := h1 _ rfl
          have hout : ∀ l, ((checkN s'.nSamples recs'.length).2 >>= fun _ =>
              recs'.mapM d'.firstTag) = .ok l → s'.nSamples.getD recs'.length = recs'.length ∧
              List.Forall₂ (fun r n => d'.firstTag r = .ok n) recs' l := by
            intro l hl
            by_cases hc : s'.nSamples.getD recs'.length = recs'.length
            · rw [c2.2 hc] at hl
              exact ⟨hc, mapM_py_ok.1 hl⟩
            · rw [c3 hc] at hl; cases hl
          refine ⟨⟨m, ?_, ?_⟩, ?_, ?_⟩
          · intro m' hm'
            rw [← g3] at hm'
            rw [hm, hm']; rfl
          · intro o ho n hn
            rcases List.mem_cons.1 ho with rfl | ho
            · cases hl : ((checkN s'.nSamples recs'.length).2 >>= fun _ =>
                recs'.mapM d'.firstTag) with
              | error e => rw [hl] at hn; cases hn
              | ok l =>
                rw [hl] at hn
                obtain rfl := Option.some.inj hn
                obtain ⟨h5, h6⟩ := hout l hl
                rw [hm, h5, h6.length_eq]
            · exact h2 o ho n hn
          · intro x hx
            rcases List.mem_cons.1 hx with hx | hx
            · cases hx
            · exact h3 x hx
          · intro l hl
            rcases List.mem_cons.1 hl with hl | hl
            · injection hl with hl
              obtain ⟨_, h6⟩ := hout l hl.symm
              obtain ⟨d, hd1, hd2, hd3⟩ := g4 d' rfl
              rw [g2, hsp, pyGet_ok] at hrec
              obtain ⟨recs, hr1, hr2⟩ := popRecords_get sp _ _ _ _ _ hd3 hb hrec
              refine ⟨d, recs, recs', hd1, hr1, hr2, h6.imp ?_⟩
              intro r n hrn
              unfold AcDB.firstTag at hrn ⊢
              rw [← hd2]
              exact hrn
            · exact h4 l hl

/-- A successful call on the records `idx` of speaker `s`. -/
def AcAligned (s : ℕ) (calls : List (Py (List R) ⊕ Py (AcDB S))) (n : ℕ) (idx : List ℕ) :
    Out R S → Prop
  | .data (.ok x) => ∃ raw, .inl (.ok raw) ∈ calls ∧ raw.length = n ∧
      List.Forall₂ (fun i r => raw[i]? = some r) idx x
  | .labels (.ok l) => ∃ d recs, .inr (.ok d) ∈ calls ∧ d.records[s]? = some recs ∧
      recs.length = n ∧ List.Forall₂ (fun i name => ∃ tags t, recs[i]? = some tags ∧
        tags[0]? = some t ∧ pyGet d.tags t = .ok name) idx l
  | _ => True

theorem forall₂_comp {α β γ : Type} {p : α → β → Prop} {q : β → γ → Prop} {r : α → γ → Prop}
    (h : ∀ a b c, p a b → q b c → r a c) {l₁ : List α} {l₂ : List β} {l₃ : List γ}
    (h1 : List.Forall₂ p l₁ l₂) (h2 : List.Forall₂ q l₂ l₃) : List.Forall₂ r l₁ l₃ := by
  induction h1 generalizing l₃ with
  | nil => cases h2; exact List.Forall₂.nil
  | cons a _ ih =>
    cases h2 with
    | cons b hb => exact List.Forall₂.cons (h _ _ _ a b) (ih hb)

/-- **C86.** In any sequence of calls on the loader of one of the four speakers of the first year,
whatever the files hold at each call, there are a number of records and an increasing list of
positions, all those of the records but the bad one, such that every successful call returns the
rows, or the names of the first tags, of the records at these positions. -/
theorem C86_acorns (s : ℕ) (hs : s < 4) (calls : List (Py (List R) ⊕ Py (AcDB S))) :
    ∃ n idx, (idx.Pairwise (· < ·) ∧ ∀ i, i ∈ idx ↔ i < n ∧ ¬ Bad s i) ∧
      ∀ o ∈ (⟨s, none, none⟩ : AcLoader S).run calls, AcAligned s calls n idx o := by
  obtain ⟨bl, hb⟩ : ∃ bl, blacklistY1[s]? = some bl := by
    have : s = 0 ∨ s = 1 ∨ s = 2 ∨ s = 3 := by omega
    rcases this with rfl | rfl | rfl | rfl <;> exact ⟨_, rfl⟩
  obtain ⟨⟨m, _, h2⟩, h3, h4⟩ := ac_run s bl hb calls calls ⟨s, none, none⟩ (fun c hc => hc) rfl
    (fun d' hd' => by cases hd')
  by_cases hex : ∃ idx, popAll (List.range (m + bl.length)) bl = .ok idx
  · obtain ⟨idx, hidx⟩ := hex
    refine ⟨m + bl.length, idx, blacklist_idx s _ hs bl idx hb hidx, ?_⟩
    intro o ho
    cases o with
    | data x =>
      cases x with
      | error e => trivial
      | ok x =>
        obtain ⟨raw, h5, _, h6⟩ := h3 x ho
        have hlen := popAll_length _ _ _ h6
        have hm : x.length = m := h2 _ ho _ rfl
        rw [hm] at hlen
        obtain ⟨idx', h7, h8⟩ := (popAll_idx raw x bl).1 h6
        rw [← hlen, hidx] at h7
        obtain rfl := Except.ok.inj h7
        exact ⟨raw, h5, hlen.symm, h8⟩
    | labels l =>
      cases l with
      | error e => trivial
      | ok l =>
        obtain ⟨d, recs, recs', h5, h6, h7, h8⟩ := h4 l ho
        have hlen := popAll_length _ _ _ h7
        have hm : l.length = m := h2 _ ho _ rfl
        rw [h8.length_eq, hm] at hlen
        obtain ⟨idx', h9, h10⟩ := (popAll_idx recs recs' bl).1 h7
        rw [← hlen, hidx] at h9
        obtain rfl := Except.ok.inj h9
        refine ⟨d, recs, h5, h6, hlen.symm, forall₂_comp ?_ h10 h8⟩
        intro i r name hi hr
        unfold AcDB.firstTag at hr
        cases ht : pyGet r 0 with
        | error e => rw [ht] at hr; cases hr
        | ok t =>
          rw [ht] at hr
          exact ⟨r, t, hi, (pyGet_ok r 0 t).1 (by simpa using ht), hr⟩
  · -- no call succeeds
    refine ⟨0, [], ⟨List.Pairwise.nil, fun i => by simp⟩, ?_⟩
    intro o ho
    cases o with
    | data x =>
      cases x with
      | error e => trivial
      | ok x =>
        exfalso
        obtain ⟨raw, _, _, h6⟩ := h3 x ho
        have hlen := popAll_length _ _ _ h6
        have hm : x.length = m := h2 _ ho _ rfl
        rw [hm] at hlen
        obtain ⟨idx, h7, _⟩ := (popAll_idx raw x bl).1 h6
        exact hex ⟨idx, by rw [hlen]; exact h7⟩
    | labels l =>
      cases l with
      | error e => trivial
      | ok l =>
        exfalso
        obtain ⟨d, recs, recs', _, _, h7, h8⟩ := h4 l ho
        have hlen := popAll_length _ _ _ h7
        have hm : l.length = m := h2 _ ho _ rfl
        rw [h8.length_eq, hm] at hlen
        obtain ⟨idx, h9, _⟩ := (popAll_idx recs recs' bl).1 h7
        exact hex ⟨idx, by rw [hlen]; exact h9⟩

/-- **C86.** For any other speaker `get_data` always fails; for speaker 4, which the check accepts,
with `IndexError`. -/
theorem C86_acorns_speaker (s : AcLoader S) (h : s.speaker < 0 ∨ 4 ≤ s.speaker) (src : Py (List R)) :
    (∃ e, (s.getData src).2 = .error e) ∧
    ((s.speaker < 0 ∨ 4 < s.speaker) → (s.getData src).2 = .error .typeError) ∧
    ∀ raw, s.speaker = 4 → src = .ok raw → (s.getData src).2 = .error .indexError := by
  have h1 : (s.speaker < 0 ∨ 4 < s.speaker) → (s.getData src).2 = .error .typeError := by
    intro hh
    unfold AcLoader.getData loadFeatures
    rw [if_pos hh]
  have h2 : ∀ raw, s.speaker = 4 → src = .ok raw → (s.getData src).2 = .error .indexError := by
    rintro raw hs rfl
    unfold AcLoader.getData loadFeatures
    rw [if_neg (by omega), hs]
    rfl
  refine ⟨?_, h1, h2⟩
  by_cases hs : s.speaker = 4
  · cases src with
    | ok raw => exact ⟨_, h2 raw hs rfl⟩
    | error e =>
      unfold AcLoader.getData loadFeatures
      rw [if_neg (by omega)]
      exact ⟨e, rfl⟩
  · exact ⟨_, h1 (by omega)⟩

/-- **C86.** Once data or labels of one size were returned, data of another size raise
`AssertionError`. -/
theorem C86_acorns_sizes (s : AcLoader S) (src : Py (List R)) (x : List R) (m : ℕ)
    (hm : s.nSamples = some m) (hx : loadFeatures s.speaker src = .ok x) :
    (s.getData src).2 = if x.length = m then .ok x else .error .assertionError := by
  unfold AcLoader.getData
  rw [hx]
  simp only [hm, checkN]
  by_cases h : m = x.length
  · rw [if_pos h, if_pos h.symm]; rfl
  · rw [if_neg h, if_neg (fun e => h e.symm)]; rfl

/-- Example: 178 records, of which the 177th is left aside for speaker 1. -/
example : ((⟨1, none, none⟩ : AcLoader ℕ).getData (.ok (List.range 178))).2 =
    .ok (List.range 176 ++ [177]) := by
  have h : loadFeatures 1 (.ok (List.range 178)) = .ok (List.range 176 ++ [177]) := by decide +kernel
  unfold AcLoader.getData
  simp only [h, checkN]
  rfl

/-! ### Choreo2 -/

/-- A successful call: some file with `m` rows or records was read; labels are the names of the first
labels of the records. -/
def C2Aligned (calls : List (Py (List R) ⊕ Py (List (List ℤ) × List S))) (m : ℕ) : Out R S → Prop
  | .data (.ok x) => x.length = m ∧ .inl (.ok x) ∈ calls
  | .labels (.ok l) => l.length = m ∧ ∃ recs names, .inr (.ok (recs, names)) ∈ calls ∧
      List.Forall₂ (fun r name => ∃ t, r[0]? = some t ∧ pyGet names t = .ok name) recs l
  | _ => True

theorem c2_run (all : List (Py (List R) ⊕ Py (List (List ℤ) × List S))) :
    ∀ (calls : List (Py (List R) ⊕ Py (List (List ℤ) × List S))) (ns : Option ℕ),
    (∀ c ∈ calls, c ∈ all) → ∃ m, (∀ m', ns = some m' → m = m') ∧
      ∀ o ∈ c2Run ns calls, C2Aligned all m o := by
  intro calls
  induction calls with
  | nil =>
    intro ns _
    refine ⟨ns.getD 0, ?_, fun o ho => (List.not_mem_nil ho).elim⟩
    rintro m' rfl
    rfl
  | cons c cs ih =>
    intro ns hall
    have hcs : ∀ c ∈ cs, c ∈ all := fun c hc => hall c (List.mem_cons_of_mem _ hc)
    have hc := hall c List.mem_cons_self
    cases c with
    | inl src =>
      unfold c2Run
      cases src with
      | error e =>
        obtain ⟨m, h1, h2⟩ := ih ns hcs
        refine ⟨m, h1, ?_⟩
        intro o ho
        rcases List.mem_cons.1 ho with rfl | ho
        · trivial
        · exact h2 o ho
      | ok x =>
        unfold c2Data
        simp only []
        obtain ⟨c1, c2, c3⟩ := checkN_cases ns x.length
        obtain ⟨m, h1, h2⟩ := ih (checkN ns x.length).1 hcs
        have hm := h1 _ c1
        refine ⟨m, ?_, ?_⟩
        · rintro m' rfl; exact hm
        · intro o ho
          rcases List.mem_cons.1 ho with rfl | ho
          · by_cases hh : ns.getD x.length = x.length
            · rw [c2.2 hh]
              exact ⟨by rw [hm, hh], hc⟩
            · rw [c3 hh]; trivial
          · exact h2 o ho
    | inr src =>
      unfold c2Run
      cases src with
      | error e =>
        obtain ⟨m, h1, h2⟩ := ih ns hcs
        refine ⟨m, h1, ?_⟩
        intro o ho
        rcases List.mem_cons.1 ho with rfl | ho
        · trivial
        · exact h2 o ho
      | ok p =>
        obtain ⟨recs, names⟩ := p
        unfold c2Labels
        simp only []
        obtain ⟨c1, c2, c3⟩ := checkN_cases ns recs.length
        obtain ⟨m, h1, h2⟩ := ih (checkN ns recs.length).1 hcs
        have hm := h1 _ c1
        refine ⟨m, ?_, ?_⟩
        · rintro m' rfl; exact hm
        · intro o ho
          rcases List.mem_cons.1 ho with rfl | ho
          · by_cases hh : ns.getD recs.length = recs.length
            · rw [c2.2 hh]
              cases hl : ((Except.ok () : Py Unit) >>= fun _ => recs.mapM fun r => do
                  let l ← pyGet r 0
                  pyGet names l) with
              | error e => trivial
              | ok l =>
                have hl := mapM_py_ok.1 hl
                refine ⟨by rw [← hl.length_eq, hm, hh], recs, names, hc, hl.imp ?_⟩
                intro r name hr
                cases ht : pyGet r 0 with
                | error e => rw [ht] at hr; cases hr
                | ok t =>
                  rw [ht] at hr
                  exact ⟨t, (pyGet_ok r 0 t).1 (by simpa using ht), hr⟩
            · rw [c3 hh]; trivial
          · exact h2 o ho

/-- **C86.** In any sequence of calls on a `Choreo2Loader`, whatever the files hold at each call, all
successful calls return the same number of samples, and labels in the order of records. -/
theorem C86_choreo2 (calls : List (Py (List R) ⊕ Py (List (List ℤ) × List S))) :
    ∃ m, ∀ o ∈ c2Run none calls, C2Aligned calls m o := by
  obtain ⟨m, _, h⟩ := c2_run calls calls none fun c hc => hc
  exact ⟨m, h⟩

example : (c2Labels none (.ok ([[1], [0, 1]], [5, 6]))).2 = .ok [6, 5] ∧
    (c2Labels (some 3) (.ok ([[1], [0, 1]], [5, 6]))).2 = .error .assertionError := ⟨rfl, rfl⟩

/-! ### C96 -/

variable {P C : Type} [DecidableEq P]

omit [DecidableEq P] in
/-- **C96.** The check returns the path exactly when the directory exists and there is no such file,
or overwriting is allowed; otherwise it raises `IOError`. -/
theorem C96_check (fs : FS P C) (path : P) (name : Key) (overwrite : Bool) :
    checkDestinationPath fs path name overwrite =
      if fs.isDir path = true ∧ (fs.file path name = none ∨ overwrite = true) then .ok (path, name)
      else .error .ioError := by
  unfold checkDestinationPath
  cases h1 : fs.isDir path <;> cases h2 : fs.file path name <;> cases overwrite <;> simp

theorem write_get (fs : FS P C) (f : P × Key) (c : C) (p : P) (n : Key) :
    (fs.write f c).file p n = if (p, n) = f then some c else fs.file p n := by
  unfold FS.write
  simp only [Prod.ext_iff]

/-- **C96.** Without `overwrite`, no sequence of downloads changes a file which exists, whether it
succeeds or not. -/
theorem C96_no_overwrite (get : Key → Py C) (fl : List (P × Key)) : ∀ (fs : FS P C) (p : P) (n : Key)
    (c : C), fs.file p n = some c → (downloadAll get false fs fl).1.file p n = some c := by
  induction fl with
  | nil => intro fs p n c h; exact h
  | cons f fl ih =>
    intro fs p n c h
    obtain ⟨path, name⟩ := f
    unfold downloadAll
    rw [C96_check]
    split
    · rename_i e he; exact h
    · rename_i f hf
      split at hf
      · rename_i hcond
        obtain rfl := Except.ok.inj hf
        split
        · exact h
        · apply ih
          rw [write_get, if_neg]
          · exact h
          · intro e
            injection e with e1 e2
            subst e1 e2
            rcases hcond.2 with h' | h'
            · rw [h'] at h; cases h
            · cases h'
      · cases hf

/-- **C96.** Downloads succeed exactly when all directories exist, the server sends all the files,
and, without `overwrite`, there are no such files and no file is asked for twice.  Afterwards the
files are those sent. -/
theorem C96_downloads (get : Key → Py C) (overwrite : Bool) (fl : List (P × Key)) : ∀ fs : FS P C,
    ((downloadAll get overwrite fs fl).2 = .ok () ↔
      (∀ f ∈ fl, fs.isDir f.1 = true ∧ ∃ c, get f.2 = .ok c) ∧
      (overwrite = true ∨ (∀ f ∈ fl, fs.file f.1 f.2 = none) ∧ fl.Nodup)) ∧
    ((downloadAll get overwrite fs fl).2 = .ok () → ∀ f ∈ fl, ∀ c, get f.2 = .ok c →
      (downloadAll get overwrite fs fl).1.file f.1 f.2 = some c) ∧
    (∀ f, f ∉ fl → (downloadAll get overwrite fs fl).1.file f.1 f.2 = fs.file f.1 f.2) := by
  induction fl with
  | nil => intro fs; simp [downloadAll]
  | cons f fl ih =>
    intro fs
    obtain ⟨path, name⟩ := f
    unfold downloadAll
    rw [C96_check]
    by_cases hcond : fs.isDir path = true ∧ (fs.file path name = none ∨ overwrite = true)
    · rw [if_pos hcond]
      simp only []
      cases hget : get name with
      | error e =>
        simp only []
        refine ⟨⟨fun h => (by cases h), fun h => ?_⟩, fun h => (by cases h), fun f _ => trivial⟩
        obtain ⟨_, c, hc⟩ := h.1 _ List.mem_cons_self
        rw [hget] at hc; cases hc
      | ok c =>
        simp only []
        obtain ⟨h1, h2, h3⟩ := ih (fs.write (path, name) c)
        refine ⟨?_, ?_, ?_⟩
        · rw [h1]
          have hdir : ∀ p, (fs.write (path, name) c).isDir p = fs.isDir p := fun _ => rfl
          simp only [hdir, write_get, List.forall_mem_cons, List.nodup_cons]
          constructor
          · rintro ⟨ha, hb⟩
            refine ⟨⟨⟨hcond.1, c, hget⟩, ha⟩, ?_⟩
            rcases hb with hb | ⟨hb, hc⟩
            · exact Or.inl hb
            · rcases hcond.2 with h4 | h4
              · right
                refine ⟨⟨h4, ?_⟩, ?_, hc⟩
                · intro f hf
                  have := hb f hf
                  split at this
                  · cases this
                  · exact this
                · intro hmem
                  have := hb _ hmem
                  rw [if_pos rfl] at this
                  cases this
              · exact Or.inl h4
          · rintro ⟨⟨_, ha⟩, hb⟩
            refine ⟨ha, ?_⟩
            rcases hb with hb | ⟨⟨_, hb⟩, hc, hd⟩
            · exact Or.inl hb
            · right
              refine ⟨?_, hd⟩
              intro f hf
              rw [if_neg]
              · exact hb f hf
              · intro e
                apply hc
                rw [← e]
                exact hf
        · intro hok f hf c' hc'
          by_cases hmem : f ∈ fl
          · exact h2 hok f hmem c' hc'
          · rcases List.mem_cons.1 hf with rfl | hf
            · rw [h3 _ hmem, write_get, if_pos rfl]
              rw [hget] at hc'
              exact congrArg _ (Except.ok.inj hc')
            · exact absurd hf hmem
        · intro f hf
          rw [h3 f (fun hh => hf (List.mem_cons_of_mem _ hh)), write_get, if_neg]
          intro e
          apply hf
          rw [← e]
          exact List.mem_cons_self
    · rw [if_neg hcond]
      simp only []
      refine ⟨⟨fun h => (by cases h), fun h => ?_⟩, fun h => (by cases h), fun f _ => trivial⟩
      exfalso
      apply hcond
      refine ⟨(h.1 _ List.mem_cons_self).1, ?_⟩
      rcases h.2 with h' | h'
      · exact Or.inr h'
      · exact Or.inl (h'.1 _ List.mem_cons_self)

/-- **C96.** The first file which exists already stops the downloads with `IOError`; those before it
were made. -/
theorem C96_partial_download (get : Key → Py C) (fl₁ fl₂ : List (P × Key)) (f : P × Key) (fs : FS P C)
    (h1 : (downloadAll get false fs fl₁).2 = .ok ())
    (h2 : ((downloadAll get false fs fl₁).1.file f.1 f.2).isSome) :
    downloadAll get false fs (fl₁ ++ f :: fl₂) = ((downloadAll get false fs fl₁).1, .error .ioError) := by
  induction fl₁ generalizing fs with
  | nil =>
    obtain ⟨path, name⟩ := f
    show downloadAll get false fs ((path, name) :: fl₂) = (fs, .error .ioError)
    have h2 : (fs.file path name).isSome := h2
    unfold downloadAll
    rw [C96_check, if_neg]
    rintro ⟨_, h | h⟩
    · rw [h] at h2; cases h2
    · cases h
  | cons g fl₁ ih =>
    obtain ⟨path, name⟩ := g
    rw [List.cons_append]
    unfold downloadAll at h1 h2 ⊢
    cases hc : checkDestinationPath fs path name false with
    | error e => rw [hc] at h1; cases h1
    | ok p =>
      rw [hc] at h1 h2
      simp only [] at h1 h2 ⊢
      cases hg : get name with
      | error e => rw [hg] at h1; cases h1
      | ok c =>
        rw [hg] at h1 h2
        exact ih _ h1 h2

/-- Example: an existing directory with one file. -/
def exFS : FS ℕ ℕ := ⟨fun p => p = 0, fun p n => if p = 0 ∧ n = ['a'] then some 5 else none⟩

example : (downloadAll (fun _ => .ok 7) false exFS [(0, ['b']), (0, ['a'])]).2 = .error .ioError ∧
    (downloadAll (fun _ => .ok 7) false exFS [(0, ['b']), (0, ['c'])]).2 = .ok () ∧
    (downloadAll (fun _ => .ok 7) true exFS [(0, ['b']), (0, ['a'])]).2 = .ok () := by
  decide +kernel

/-! ### C101 -/

theorem parseNat_pad2 (n : ℕ) : parseNat (pad2 n) = .ok n := by
  unfold pad2
  split
  · have h := parseNat_decStr n
    unfold parseNat at h ⊢
    rw [if_pos ⟨decStr_ne_nil n, by
      rw [List.all_eq_true]; intro c hc; simpa using decStr_digits n c hc⟩] at h
    rw [if_pos ⟨List.cons_ne_nil _ _, by
      rw [List.all_cons, Bool.and_eq_true]
      refine ⟨by decide, ?_⟩
      rw [List.all_eq_true]; intro c hc; simpa using decStr_digits n c hc⟩]
    rw [← h]
    rfl
  · exact parseNat_decStr n

theorem underscore_notMem_pad2 (n : ℕ) : '_' ∉ pad2 n := by
  unfold pad2
  split
  · rw [List.mem_cons, not_or]
    exact ⟨by decide, underscore_notMem_decStr n⟩
  · exact underscore_notMem_decStr n

/-- **C101.** The feature files of two speakers, or of two years, have different names. -/
theorem C101_names (y s y' s' : ℕ) (h : featureFileName y s = featureFileName y' s') :
    y = y' ∧ s = s' := by
  unfold featureFileName at h
  have h := List.append_cancel_left h
  have e : ∀ y s : ℕ, decStr y ++ ("_S".toList ++ (pad2 (1 + s) ++ "_python.mat".toList))
      = decStr y ++ '_' :: ('S' :: (pad2 (1 + s) ++ '_' :: "python.mat".toList)) := fun _ _ => rfl
  rw [e, e] at h
  have h1 := congrArg splitFirst h
  rw [splitFirst_num, splitFirst_num] at h1
  injection Option.some.inj h1 with h2 h3
  refine ⟨decStr_inj h2, ?_⟩
  injection h3 with _ h3
  have h4 := congrArg splitFirst h3
  rw [splitFirst_append _ _ (underscore_notMem_pad2 _),
    splitFirst_append _ _ (underscore_notMem_pad2 _)] at h4
  injection Option.some.inj h4 with h5 _
  have h6 := parseNat_pad2 (1 + s)
  rw [h5, parseNat_pad2] at h6
  have := Except.ok.inj h6
  omega

theorem acornsFile_ne (y y' s : ℕ) : acornsFile y ≠ featureFileName y' s := by
  intro h
  have := congrArg List.head? h
  revert this
  show some 'A' = some 'a' → False
  decide

/-- **C101.** For a known year, into existing directories where none of the files exists, and with a
server which has them, the downloads succeed, even without `overwrite` and in a single directory:
the description and the features of all speakers are as sent. -/
theorem C101_download (get : Key → Py C) (overwrite : Bool) (fs : FS P C) (year : ℕ)
    (hy : year = 1 ∨ year = 2) (metaDest featDest : P) (h1 : fs.isDir metaDest = true)
    (h2 : fs.isDir featDest = true) (h3 : ∀ n, ∃ c, get n = .ok c)
    (h4 : fs.file metaDest (acornsFile year) = none)
    (h5 : ∀ s, fs.file featDest (featureFileName year s) = none) :
    (downloadAcorns get overwrite fs year metaDest featDest).2 = .ok () ∧
    (∀ c, get (acornsFile year) = .ok c →
      (downloadAcorns get overwrite fs year metaDest featDest).1.file metaDest (acornsFile year) = some c) ∧
    ∀ s, s < (if year = 1 then 4 else 10) → ∀ c, get (featureFileName year s) = .ok c →
      (downloadAcorns get overwrite fs year metaDest featDest).1.file featDest (featureFileName year s)
        = some c := by
  obtain ⟨a1, a2, a3⟩ := C96_downloads get overwrite [(metaDest, acornsFile year)] fs
  have hok := a1.2 ⟨by
    intro f hf
    obtain rfl := List.mem_singleton.1 hf
    exact ⟨h1, h3 _⟩, Or.inr ⟨by
    intro f hf
    obtain rfl := List.mem_singleton.1 hf
    exact h4, List.nodup_singleton _⟩⟩
  have hdir : ∀ (fl : List (P × Key)) (fs : FS P C),
      (downloadAll get overwrite fs fl).1.isDir = fs.isDir := by
    intro fl
    induction fl with
    | nil => intro fs; rfl
    | cons f fl ih =>
      intro fs
      obtain ⟨p, n⟩ := f
      unfold downloadAll
      split
      · rfl
      · split
        · rfl
        · rw [ih]; rfl
  have hsp : pyGet allSpeakers ((year : ℤ) - 1) = .ok (List.range (if year = 1 then 4 else 10)) := by
    rcases hy with rfl | rfl <;> rfl
  unfold downloadAcorns
  have hdir1 := hdir [(metaDest, acornsFile year)] fs
  rcases hd : downloadAll get overwrite fs [(metaDest, acornsFile year)] with ⟨fs1, r⟩
  rw [hd] at hok a2 a3 hdir1
  simp only [] at hok a2 a3 hdir1
  rw [hok]
  simp only [hsp]
  generalize hfl : (List.range (if year = 1 then 4 else 10)).map
    (fun s => (featDest, featureFileName year s)) = fl
  obtain ⟨b1, b2, b3⟩ := C96_downloads get overwrite fl fs1
  have hne : ∀ s, ((featDest, featureFileName year s) : P × Key) ∉ [(metaDest, acornsFile year)] := by
    intro s hs
    have := List.mem_singleton.1 hs
    injection this with _ h
    exact acornsFile_ne _ _ _ h.symm
  have hok2 := b1.2 ⟨by
    intro f hf
    rw [← hfl, List.mem_map] at hf
    obtain ⟨s, _, rfl⟩ := hf
    exact ⟨by rw [hdir1]; exact h2, h3 _⟩, Or.inr ⟨by
    intro f hf
    rw [← hfl, List.mem_map] at hf
    obtain ⟨s, _, rfl⟩ := hf
    exact (a3 _ (hne s)).trans (h5 s), by
    rw [← hfl]
    apply List.Nodup.map _ List.nodup_range
    intro s s' h
    injection h with _ h
    exact (C101_names _ _ _ _ h).2⟩⟩
  refine ⟨hok2, ?_, ?_⟩
  · intro c hc
    refine (b3 (metaDest, acornsFile year) ?_).trans (a2 hok _ List.mem_cons_self c hc)
    intro hmem
    rw [← hfl, List.mem_map] at hmem
    obtain ⟨s, _, h⟩ := hmem
    injection h with _ h
    exact acornsFile_ne _ _ _ h.symm
  · intro s hs c hc
    refine b2 hok2 (featDest, featureFileName year s) ?_ c hc
    rw [← hfl, List.mem_map]
    exact ⟨s, List.mem_range.2 hs, rfl⟩

theorem downloadAll_cons (get : Key → Py C) (overwrite : Bool) (fs : FS P C) (f : P × Key)
    (fl : List (P × Key)) : downloadAll get overwrite fs (f :: fl) =
      match downloadAll get overwrite fs [f] with
      | (fs, .error e) => (fs, .error e)
      | (fs, .ok _) => downloadAll get overwrite fs fl := by
  obtain ⟨p, n⟩ := f
  simp only [downloadAll]
  cases checkDestinationPath fs p n overwrite with
  | error e => rfl
  | ok q => cases get n <;> rfl

/-- **C101.** The year is not checked first: with a year above 2 the download of the description is
made before `IndexError` is raised; year 0 counts from the end of the list of speakers, as year 2. -/
theorem C101_wrong_year (get : Key → Py C) (overwrite : Bool) (fs : FS P C) (metaDest featDest : P) :
    (∀ year, 2 < year → (downloadAll get overwrite fs [(metaDest, acornsFile year)]).2 = .ok () →
      downloadAcorns get overwrite fs year metaDest featDest =
        ((downloadAll get overwrite fs [(metaDest, acornsFile year)]).1, .error .indexError)) ∧
    ((downloadAll get overwrite fs [(metaDest, acornsFile 0)]).2 = .ok () →
      downloadAcorns get overwrite fs 0 metaDest featDest =
        downloadAll get overwrite fs ((metaDest, acornsFile 0) ::
          (List.range 10).map fun s => (featDest, featureFileName 0 s))) := by
  constructor
  · intro year hy h
    unfold downloadAcorns
    rcases hd : downloadAll get overwrite fs [(metaDest, acornsFile year)] with ⟨fs1, r⟩
    rw [hd] at h
    simp only [] at h
    rw [h]
    have : pyGet allSpeakers ((year : ℤ) - 1) = .error .indexError := by
      unfold pyGet
      rw [if_neg (by omega), List.getElem?_eq_none]
      show 2 ≤ _
      omega
    simp only [this]
  · intro h
    unfold downloadAcorns
    rw [downloadAll_cons get overwrite fs (metaDest, acornsFile 0) ((List.range 10).map _)]
    rcases hd : downloadAll get overwrite fs [(metaDest, acornsFile 0)] with ⟨fs1, r⟩
    rw [hd] at h
    simp only [] at h
    rw [h]
    rfl

example : (downloadAcorns (fun _ => .ok 7) false exFS 1 0 0).2 = .ok () ∧
    (downloadAcorns (fun _ => .ok 7) false exFS 3 0 0).2 = .error .indexError := by
  decide +kernel

end Verif.Loaders
