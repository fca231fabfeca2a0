import Verif.Corpus.Model
import Verif.Sound.Props

/-!
# Lemmas on strings, paths and the loops of corpora
-/

namespace Verif.Corpus

theorem splitChar_ne_nil (c : Char) (s : Str) : splitChar c s ≠ [] := by
  cases s with
  | nil => simp [splitChar]
  | cons x s =>
    unfold splitChar
    split
    · simp
    · split <;> simp

theorem splitChar_of_notMem {c : Char} {s : Str} (h : c ∉ s) : splitChar c s = [s] := by
  induction s with
  | nil => rfl
  | cons x s ih =>
    rw [List.mem_cons, not_or] at h
    unfold splitChar
    rw [if_neg (fun e => h.1 e.symm), ih h.2]

theorem splitChar_append {c : Char} {a : Str} (b : Str) (h : c ∉ a) :
    splitChar c (a ++ c :: b) = a :: splitChar c b := by
  induction a with
  | nil => simp [splitChar]
  | cons x a ih =>
    rw [List.mem_cons, not_or] at h
    rw [List.cons_append]
    conv_lhs => unfold splitChar
    rw [if_neg (fun e => h.1 e.symm), ih h.2]

theorem splitChar_append' (c : Char) (a b : Str) :
    splitChar c (a ++ c :: b) = splitChar c a ++ splitChar c b := by
  induction a with
  | nil => simp [splitChar]
  | cons x a ih =>
    have h1 : ∀ t : Str, splitChar c (x :: t) = if x = c then [] :: splitChar c t
        else match splitChar c t with
          | [] => [[x]]
          | w :: ws => (x :: w) :: ws := fun t => by rw [splitChar]; rfl
    rw [List.cons_append, h1, h1, ih]
    by_cases hx : x = c
    · rw [if_pos hx, if_pos hx]; rfl
    · rw [if_neg hx, if_neg hx]
      cases hs : splitChar c a with
      | nil => exact absurd hs (splitChar_ne_nil c a)
      | cons w l => rfl

/-- Text after the last separator. -/
theorem getLastD_splitChar (c : Char) (s : Str) :
    ∃ t, (splitChar c s).getLastD [] = t ∧ c ∉ t ∧ (s = t ∨ ∃ a, s = a ++ c :: t) := by
  by_cases h : c ∈ s
  · obtain ⟨a, b, hs, hn⟩ := List.eq_append_cons_of_mem (List.mem_reverse.2 h)
    have e : s = b.reverse ++ c :: a.reverse := by
      rw [← List.reverse_reverse s, hs]; simp
    have hn' : c ∉ a.reverse := by simpa using hn
    refine ⟨a.reverse, ?_, hn', Or.inr ⟨b.reverse, e⟩⟩
    rw [e, splitChar_append', splitChar_of_notMem hn']
    simp
  · exact ⟨s, by rw [splitChar_of_notMem h]; rfl, h, Or.inl rfl⟩

/-- Text before the first separator. -/
theorem headD_splitChar (c : Char) (s : Str) :
    ∃ u, (splitChar c s).headD [] = u ∧ c ∉ u ∧ (s = u ∨ ∃ b, s = u ++ c :: b) := by
  by_cases h : c ∈ s
  · obtain ⟨a, b, rfl, hn⟩ := List.eq_append_cons_of_mem h
    exact ⟨a, by rw [splitChar_append b hn]; rfl, hn, Or.inr ⟨b, rfl⟩⟩
  · exact ⟨s, by rw [splitChar_of_notMem h]; rfl, h, Or.inl rfl⟩

/-- The name of an utterance in a path: what lies between the last underscore, or the beginning if
there is none, and the first dot which follows. -/
def NameIn (path u : Str) : Prop :=
  ∃ t, '_' ∉ t ∧ (path = t ∨ ∃ a, path = a ++ '_' :: t) ∧ '.' ∉ u ∧ (t = u ∨ ∃ b, t = u ++ '.' :: b)

theorem split_unique {c : Char} {a b a' b' : Str} (h : c ∉ a) (h' : c ∉ a')
    (e : a ++ c :: b = a' ++ c :: b') : a = a' := by
  have := congrArg (splitChar c) e
  rw [splitChar_append _ h, splitChar_append _ h'] at this
  exact (List.cons.inj this).1

theorem nameIn_iff (path u : Str) :
    NameIn path u ↔ (splitChar '.' ((splitChar '_' path).getLastD [])).headD [] = u := by
  constructor
  · rintro ⟨t, h1, h2, h3, h4⟩
    have e : (splitChar '_' path).getLastD [] = t := by
      rcases h2 with rfl | ⟨a, rfl⟩
      · rw [splitChar_of_notMem h1]; rfl
      · rw [splitChar_append', splitChar_of_notMem h1]; simp
    rw [e]
    rcases h4 with rfl | ⟨b, rfl⟩
    · rw [splitChar_of_notMem h3]; rfl
    · rw [splitChar_append b h3]; rfl
  · rintro rfl
    obtain ⟨t, h1, h2, h3⟩ := getLastD_splitChar '_' path
    obtain ⟨u, h4, h5, h6⟩ := headD_splitChar '.' t
    refine ⟨t, h2, h3, ?_, ?_⟩
    · rw [h1, h4]; exact h5
    · rw [h1, h4]; exact h6

/-! ### Sorting -/

theorem mem_sorted {l : List Str} {x : Str} : x ∈ sorted l ↔ x ∈ l := by
  unfold sorted; exact (List.mergeSort_perm l _).mem_iff

theorem sorted_perm (l : List Str) : (sorted l).Perm l := List.mergeSort_perm l _

theorem sorted_le (l : List Str) : (sorted l).Pairwise (· ≤ ·) := by
  have := List.pairwise_mergeSort (le := fun a b : Str => decide (a ≤ b))
    (fun a b c h1 h2 => by
      simp only [decide_eq_true_eq] at h1 h2 ⊢; exact le_trans h1 h2)
    (fun a b => by
      simp only [Bool.or_eq_true, decide_eq_true_eq]; exact le_total a b) l
  unfold sorted
  exact this.imp (by intro a b h; simpa using h)

theorem sorted_lt {l : List Str} (h : l.Nodup) : (sorted l).Pairwise (· < ·) := by
  have h2 : (sorted l).Nodup := (sorted_perm l).nodup_iff.2 h
  exact (sorted_le l).imp₂ (fun a b h1 h2 => lt_of_le_of_ne h1 h2) h2

/-! ### Loops -/

/-- The record of the utterance `u` of the speaker `s` of rank `i`, in the corpus at `root`. -/
def recordFor (fs : Files) (root : Str) (db : ℕ) (i : ℕ) (s u : Str) : Sound.Rec Str where
  db := db
  spkr := i
  audio := if fs.exist (pathJoin (pathJoin (pathJoin root "wav48".toList) ('p' :: s))
      ('p' :: s ++ '_' :: u ++ ".wav".toList)) = true
    then some ('p' :: s ++ '_' :: u ++ ".wav".toList) else none
  tags := []
  trans := fs.read (pathJoin (pathJoin (pathJoin root "txt".toList) ('p' :: s))
      ('p' :: s ++ '_' :: u ++ ".txt".toList))
  style := some "ADS".toList

/-- Names of the utterances of a speaker. -/
def namesFor (fs : Files) (root s : Str) : List Str :=
  sorted (recordsList fs (pathJoin (pathJoin root WAV_DIR) ('p' :: s)) "wav".toList ++
    recordsList fs (pathJoin (pathJoin root TXT_DIR) ('p' :: s)) "txt".toList).dedup

theorem buildRecord_ok (fs : Files) {d : DB} {root s : Str} {i : ℕ} (hr : d.root = some root)
    (hs : d.spkrs[i]? = some s) (u : Str) :
    buildRecord fs d u (i : ℤ) = .ok (recordFor fs root d.id i s u) := by
  obtain ⟨hi, hs'⟩ := List.getElem?_eq_some_iff.1 hs
  have e : speakerDir d (i : ℤ) = .ok ('p' :: s) := by
    unfold speakerDir; rw [pyGet_nat _ _ hi, hs']; rfl
  unfold buildRecord dirOf
  rw [e, hr]
  rfl

theorem addRecord_ok {d : DB} {r : Sound.Rec Str} {i : ℕ} (h1 : r.db = d.id) (h2 : r.spkr = i)
    (h3 : i < d.records.length) (h4 : r.tags = []) :
    d.addRecord r = .ok { d with records := d.records.modify i (fun l => l ++ [r]) } := by
  unfold Sound.DB.addRecord
  rw [if_neg (by simpa using h1), h4, h2]
  have : pyIndex d.records.length (i : ℤ) = some i := by
    unfold pyIndex
    rw [if_pos (by omega), if_pos (by omega)]; simp
  simp [this]

theorem addRecords_ok (fs : Files) {root s : Str} {i : ℕ} (us : List Str) :
    ∀ (d : DB), d.root = some root → d.spkrs[i]? = some s → i < d.records.length →
      addRecords fs (i : ℤ) d us =
        ({ d with records := d.records.modify i (fun l => l ++ us.map (recordFor fs root d.id i s)) },
          .ok ()) := by
  induction us with
  | nil =>
    intro d _ _ _
    unfold addRecords
    have : d.records.modify i (fun l => l ++ List.map (recordFor fs root d.id i s) []) = d.records := by
      apply List.ext_getElem? ; intro k; rw [List.getElem?_modify]; split <;> simp
    rw [this]
  | cons u us ih =>
    intro d hr hs hi
    unfold addRecords
    rw [buildRecord_ok fs hr hs u]
    simp only [bind, Except.bind]
    rw [addRecord_ok (i := i) rfl rfl hi rfl]
    simp only []
    rw [ih { d with records := d.records.modify i (fun l => l ++ [recordFor fs root d.id i s u]) }
      hr hs (by simpa using hi)]
    simp [List.modify_modify_eq, Function.comp_def]

/-- Records of the speakers `ss`, the first one having rank `i`. -/
def recordsFrom (fs : Files) (root : Str) (db : ℕ) : ℕ → List Str → List (List (Sound.Rec Str))
  | _, [] => []
  | i, s :: ss => (namesFor fs root s).map (recordFor fs root db i s) :: recordsFrom fs root db (i + 1) ss

theorem recordsFrom_getElem? (fs : Files) (root : Str) (db : ℕ) (ss : List Str) (k : ℕ) :
    ∀ i, (recordsFrom fs root db i ss)[k]? =
      (ss[k]?).map fun s => (namesFor fs root s).map (recordFor fs root db (i + k) s) := by
  induction ss generalizing k with
  | nil => intro i; simp [recordsFrom]
  | cons s ss ih =>
    intro i
    unfold recordsFrom
    cases k with
    | zero => simp
    | succ k =>
      rw [List.getElem?_cons_succ, ih, List.getElem?_cons_succ]
      have : i + 1 + k = i + (k + 1) := by omega
      rw [this]

theorem modify_last {α : Type} (l : List α) (a : α) (f : α → α) :
    (l ++ [a]).modify l.length f = l ++ [f a] := Sound.modify_append_last l a f

theorem addSpeakers_ok (fs : Files) (info : Dict Str Info) {root : Str} (ss : List Str) :
    ∀ (d : DB), d.root = some root → d.records.length = d.spkrs.length → ss.Nodup →
      (∀ s ∈ ss, s ∉ d.spkrs) →
      addSpeakers fs info d ss =
        ({ d with records := d.records ++ recordsFrom fs root d.id d.spkrs.length ss
                  spkrs := d.spkrs ++ ss
                  spkrsInfo := d.spkrsInfo ++ ss.map (dictGet? info) }, .ok ()) := by
  induction ss with
  | nil =>
    intro d _ _ _ _
    unfold addSpeakers recordsFrom
    simp
  | cons s ss ih =>
    intro d hr hl hn hd
    rw [List.nodup_cons] at hn
    unfold addSpeakers Sound.DB.addSpeaker
    rw [if_neg (hd s List.mem_cons_self)]
    simp only [List.length_append, List.length_cons, List.length_nil, Nat.add_sub_cancel, zero_add]
    have hs : (d.spkrs ++ [s])[d.spkrs.length]? = some s := by simp
    have hu : utterances fs ({ d with
        records := d.records ++ [[]]
        spkrs := d.spkrs ++ [s]
        spkrsInfo := d.spkrsInfo ++ [dictGet? info s] } : DB) ((d.spkrs.length : ℕ) : ℤ) =
        .ok (namesFor fs root s) := by
      unfold utterances dirOf speakerDir
      simp only []
      rw [pyGet_nat _ _ (by simp), hr]
      simp [namesFor, bind, Except.bind, pure, Except.pure]
    rw [hu]
    simp only []
    rw [addRecords_ok fs (root := root) (s := s) (i := d.spkrs.length) (namesFor fs root s) ({ d with
        records := d.records ++ [[]]
        spkrs := d.spkrs ++ [s]
        spkrsInfo := d.spkrsInfo ++ [dictGet? info s] } : DB) hr hs (by simp [hl])]
    simp only []
    have hm : (d.records ++ [[]]).modify d.spkrs.length
        (fun l => l ++ (namesFor fs root s).map (recordFor fs root d.id d.spkrs.length s)) =
        d.records ++ [(namesFor fs root s).map (recordFor fs root d.id d.spkrs.length s)] := by
      rw [← hl, modify_last]; rfl
    rw [hm, ih ({ d with
        records := d.records ++ [(namesFor fs root s).map (recordFor fs root d.id d.spkrs.length s)]
        spkrs := d.spkrs ++ [s]
        spkrsInfo := d.spkrsInfo ++ [dictGet? info s] } : DB) hr (by simp [hl]) hn.2]
    · simp [recordsFrom]
    · intro t ht
      simp only [List.mem_append, List.mem_singleton, not_or]
      exact ⟨hd t (List.mem_cons_of_mem _ ht), fun e => hn.1 (e ▸ ht)⟩

end Verif.Corpus
