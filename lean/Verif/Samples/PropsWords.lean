import Verif.Samples.Model
import Verif.Metrics.PropsEntropy
import Verif.Corpus.PropsInfo
import Mathlib.Algebra.BigOperators.Group.List.Basic

/-!
# Properties of the statistics of words and labels
-/

namespace Verif.Samples

open Verif.Corpus (Str)

/-! ### Specification -/

/-- The label and the words of each record, in lower case. -/
def records (ws : Char → Bool) (trans labels : List Str) : List (Str × List Str) :=
  (labels.map Corpus.lower).zip (trans.map (transWords ws))

/-- The proportion of the elements of `l` which satisfy `P`. -/
def proportion {α : Type} (l : List α) (P : α → Prop) [DecidablePred P] : ℚ :=
  ((l.countP fun x => decide (P x) : ℕ) : ℚ) / (l.length : ℚ)

/-! ### Lemmas -/

theorem listIndex_mem {α : Type} [BEq α] [LawfulBEq α] {l : List α} {x : α} (h : x ∈ l) :
    listIndex l x = .ok (l.idxOf x) := if_pos h

theorem modify_map {β : Type} (L : List Str) (f : Str → β) (x : Str) (g : β → β)
    (hx : x ∈ L) (hn : L.Nodup) :
    (L.map f).modify (L.idxOf x) g = L.map fun l => if l = x then g (f l) else f l := by
  apply List.ext_getElem?
  intro j
  rw [List.getElem?_modify, List.getElem?_map, List.getElem?_map]
  rcases hj : L[j]? with _ | l
  · rfl
  · have hiff : L.idxOf x = j ↔ l = x := by
      obtain ⟨hlt, hlj⟩ := List.getElem?_eq_some_iff.1 hj
      constructor
      · intro h
        subst h
        rw [List.getElem?_idxOf hx] at hj
        exact (Option.some.inj hj).symm
      · intro h
        subst h
        subst hlj
        exact hn.idxOf_getElem j hlt
    by_cases h : l = x
    · simp only [if_pos (hiff.2 h)]; simp [h]
    · simp only [if_neg (fun hc => h (hiff.1 hc))]; simp [h]

theorem groupCounts_eq (L : List Str) (hn : L.Nodup) :
    ∀ (pairs : List (Str × List ℕ)) (f : Str → List (List ℕ)), (∀ q ∈ pairs, q.1 ∈ L) →
      groupCounts L pairs (L.map f) =
        .ok (L.map fun l => f l ++ (pairs.filter fun q => decide (q.1 = l)).map Prod.snd) := by
  intro pairs
  induction pairs with
  | nil => intro f _; simp [groupCounts]
  | cons q rest ih =>
    intro f hq
    obtain ⟨l, h⟩ := q
    have hl : l ∈ L := hq (l, h) (List.mem_cons_self ..)
    unfold groupCounts
    simp only [bind, Except.bind, listIndex_mem hl]
    rw [modify_map L f l _ hl hn, ih _ fun q hq' => hq q (List.mem_cons_of_mem _ hq')]
    congr 1
    apply List.map_congr_left
    intro x _
    by_cases hx : x = l
    · subst hx; simp
    · simp [hx, Ne.symm hx]

theorem bincount_eq (W : List Str) (hW : W.Nodup) (t : List Str) (ht : t.Nodup)
    (hsub : ∀ x ∈ t, x ∈ W) :
    bincount (t.map fun w => W.idxOf w) W.length = W.map fun w => if w ∈ t then 1 else 0 := by
  have hmax : ∀ l : List ℕ, (∀ i ∈ l, i < W.length) →
      l.foldr (fun i m => max (i + 1) m) 0 ≤ W.length := by
    intro l
    induction l with
    | nil => intro _; exact Nat.zero_le _
    | cons a l ih =>
      intro h
      rw [List.foldr_cons]
      have h1 := h a (List.mem_cons_self ..)
      have h2 := ih fun i hi => h i (List.mem_cons_of_mem _ hi)
      omega
  unfold bincount
  rw [max_eq_left]
  · apply List.ext_getElem
    · simp
    · intro i h1 h2
      rw [List.length_map] at h2
      simp only [List.getElem_map, List.getElem_range]
      have hinj : (t.map fun w => W.idxOf w).Nodup := by
        rw [List.nodup_map_iff_inj_on ht]
        intro x hx y _ hxy
        exact (List.idxOf_inj (hsub x hx)).1 hxy
      by_cases hm : W[i] ∈ t
      · rw [if_pos hm]
        apply List.count_eq_one_of_mem hinj
        rw [List.mem_map]
        exact ⟨W[i], hm, hW.idxOf_getElem i h2⟩
      · rw [if_neg hm, List.count_eq_zero]
        intro hc
        obtain ⟨x, hx, hxi⟩ := List.mem_map.1 hc
        apply hm
        have : W[i]? = some x := by rw [← hxi]; exact List.getElem?_idxOf (hsub x hx)
        rw [List.getElem?_eq_getElem h2] at this
        rw [Option.some.inj this]
        exact hx
  · apply hmax
    intro i hi
    obtain ⟨x, hx, rfl⟩ := List.mem_map.1 hi
    exact List.idxOf_lt_length_of_mem (hsub x hx)

theorem sumRows_eq (W : List Str) (ts : List (List Str)) (hne : ts ≠ []) :
    sumRows (ts.map fun t => W.map fun w => if w ∈ t then 1 else 0) =
      .ok (W.map fun w => ((ts.countP fun t => decide (w ∈ t) : ℕ) : ℚ)) := by
  obtain ⟨t0, ts', rfl⟩ := List.exists_cons_of_ne_nil hne
  have key : ∀ (i : ℕ) (w : Str), W[i]? = some w → ∀ ts : List (List Str),
      ((ts.map fun t => W.map fun w => if w ∈ t then 1 else 0).map fun x =>
        ((x.getD i 0 : ℕ) : ℚ)).sum = ((ts.countP fun t => decide (w ∈ t) : ℕ) : ℚ) := by
    intro i w hi ts
    induction ts with
    | nil => simp
    | cons t ts ih =>
      rw [List.map_cons, List.map_cons, List.sum_cons, ih, List.countP_cons]
      rw [List.getD_eq_getElem?_getD, List.getElem?_map, hi]
      by_cases hw : w ∈ t
      · simp [hw]; ring
      · simp [hw]
  unfold sumRows
  simp only [List.map_cons]
  rw [if_pos]
  · congr 1
    apply List.ext_getElem
    · simp
    · intro i h1 h2
      rw [List.length_map] at h2
      simp only [List.getElem_map, List.getElem_range]
      exact key i W[i] (List.getElem?_eq_getElem h2) (t0 :: ts')
  · simp

theorem stackTransposed_eq (W L : List Str) (c : Str → Str → ℚ) (hL : L ≠ []) :
    stackTransposed (L.map fun l => W.map fun w => c l w) =
      .ok (W.map fun w => L.map fun l => c l w) := by
  obtain ⟨l0, L', rfl⟩ := List.exists_cons_of_ne_nil hL
  unfold stackTransposed
  simp only [List.map_cons]
  rw [if_pos]
  · congr 1
    apply List.ext_getElem
    · simp
    · intro i h1 h2
      rw [List.length_map] at h2
      simp [h2]
  · simp

theorem allWords_spec (S : SetOrder) (hS : S.OK) (L : List Str) (hL : L.Nodup)
    (ts : List (List Str)) :
    (allWords S L ts).Nodup ∧ (∀ x, x ∈ allWords S L ts ↔ x ∈ L ∨ ∃ t ∈ ts, x ∈ t) ∧
      L <+: allWords S L ts ∧ ((allWords S L ts).drop L.length).Pairwise (· ≤ ·) := by
  unfold allWords Corpus.sorted
  refine ⟨?_, ?_, ⟨_, rfl⟩, ?_⟩
  · rw [List.nodup_append]
    refine ⟨hL, ?_, ?_⟩
    · rw [(List.mergeSort_perm _ _).nodup_iff]
      exact (hS ts.flatten).1.filter _
    · intro a ha b hb hab
      rw [(List.mergeSort_perm _ _).mem_iff, List.mem_filter] at hb
      subst hab
      simp [ha] at hb
  · intro x
    rw [List.mem_append, (List.mergeSort_perm _ _).mem_iff, List.mem_filter, (hS ts.flatten).2,
      List.mem_flatten, decide_eq_true_eq]
    by_cases hx : x ∈ L
    · simp [hx]
    · simp [hx]
  · rw [List.drop_left]
    have := List.pairwise_mergeSort (le := fun a b : Str => decide (a ≤ b))
      (fun a b c h1 h2 => by
        rw [decide_eq_true_eq] at *; exact le_trans h1 h2)
      (fun a b => by
        simp only [Bool.or_eq_true, decide_eq_true_eq]; exact le_total a b)
      ((S.enum ts.flatten).filter fun w => decide (w ∉ L))
    exact this.imp fun h => by simpa using h

theorem wordHisto_eq (ws : Char → Bool) (S : SetOrder) (hS : S.OK) (trans labels : List Str)
    (hlen : trans.length = labels.length) (hne : trans ≠ []) :
    wordHisto ws S trans labels =
      .ok ((allWords S (S.enum (labels.map Corpus.lower)) (trans.map (transWords ws))).map (fun w =>
            (S.enum (labels.map Corpus.lower)).map fun l =>
              proportion (records ws trans labels) fun r => r.1 = l ∧ w ∈ r.2),
          (S.enum (labels.map Corpus.lower)).map (fun l =>
            proportion (records ws trans labels) fun r => r.1 = l),
          S.enum (labels.map Corpus.lower),
          allWords S (S.enum (labels.map Corpus.lower)) (trans.map (transWords ws))) := by
  have hrl : (records ws trans labels).length = trans.length := by
    unfold records; rw [List.length_zip, List.length_map, List.length_map]; omega
  obtain ⟨hLn, hLm⟩ := hS (labels.map Corpus.lower)
  unfold wordHisto
  simp only [bind, Except.bind, Experiment.pyAssert, hlen, beq_self_eq_true, if_true]
  generalize hL : S.enum (labels.map Corpus.lower) = L at *
  generalize hW : allWords S L (trans.map (transWords ws)) = W at *
  obtain ⟨hWn, hWm, _, _⟩ := allWords_spec S hS L hLn (trans.map (transWords ws))
  rw [hW] at hWn hWm
  have hLne : L ≠ [] := by
    intro h
    rw [h] at hLm
    obtain ⟨x, l, rfl⟩ := List.exists_cons_of_ne_nil hne
    rcases labels with _ | ⟨y, labels⟩
    · simp at hlen
    · have := (hLm (Corpus.lower y)).2 (by simp)
      simp at this
  have hidx : (trans.map (transWords ws)).mapM (fun t => (S.enum t).mapM (listIndex W)) =
      .ok ((trans.map (transWords ws)).map fun t => (S.enum t).map fun w => W.idxOf w) := by
    apply mapM_ok
    intro t ht
    apply mapM_ok
    intro w hw
    exact listIndex_mem ((hWm w).2 (Or.inr ⟨t, ht, ((hS t).2 w).1 hw⟩))
  rw [hidx]
  simp only []
  have hcounts : ((trans.map (transWords ws)).map fun t => (S.enum t).map fun w => W.idxOf w).map
      (fun t => bincount t W.length) =
      (trans.map (transWords ws)).map fun t => W.map fun w => if w ∈ t then 1 else 0 := by
    rw [List.map_map]
    apply List.map_congr_left
    intro t ht
    rw [Function.comp, bincount_eq W hWn _ (hS t).1 fun x hx =>
      (hWm x).2 (Or.inr ⟨t, ht, ((hS t).2 x).1 hx⟩)]
    apply List.map_congr_left
    intro w _
    simp only [(hS t).2 w]
  rw [hcounts, groupCounts_eq L hLn _ (fun _ => [])]
  · simp only [List.nil_append]
    have hzip : (labels.map Corpus.lower).zip ((trans.map (transWords ws)).map fun t =>
        W.map fun w => if w ∈ t then 1 else 0) = (records ws trans labels).map fun r =>
          (r.1, W.map fun w => if w ∈ r.2 then 1 else 0) := by
      unfold records
      rw [List.zip_map_right]
      rfl
    rw [hzip]
    have hbucket : (L.map fun l => (((records ws trans labels).map fun r =>
          (r.1, W.map fun w => if w ∈ r.2 then 1 else 0)).filter fun q => decide (q.1 = l)).map
            Prod.snd) =
        L.map fun l => (((records ws trans labels).filter fun r => decide (r.1 = l)).map
          Prod.snd).map fun t => W.map fun w => if w ∈ t then 1 else 0 := by
      apply List.map_congr_left
      intro l _
      rw [List.filter_map, List.map_map, List.map_map]
      rfl
    rw [hbucket]
    have hsums : (L.map fun l => (((records ws trans labels).filter fun r => decide (r.1 = l)).map
          Prod.snd).map fun t => W.map fun w => if w ∈ t then 1 else 0).mapM sumRows =
        .ok (L.map fun l => W.map fun w =>
          (((records ws trans labels).countP fun r => decide (r.1 = l ∧ w ∈ r.2) : ℕ) : ℚ)) := by
      rw [List.mapM_map]
      apply mapM_ok
      intro l hl
      rw [Function.comp, sumRows_eq]
      · congr 1
        apply List.map_congr_left
        intro w _
        rw [List.countP_map, List.countP_filter]
        congr 2
        funext r
        simp only [Function.comp, Bool.decide_and, Bool.and_comm]
      · obtain ⟨y, hy, rfl⟩ := List.mem_map.1 ((hLm l).1 hl)
        obtain ⟨i, hi⟩ := List.mem_iff_getElem?.1 hy
        obtain ⟨hilt, _⟩ := List.getElem?_eq_some_iff.1 hi
        have hit : i < trans.length := by omega
        intro hc
        rw [List.map_eq_nil_iff, List.filter_eq_nil_iff] at hc
        apply hc (Corpus.lower y, transWords ws trans[i])
        · rw [List.mem_iff_getElem?]
          refine ⟨i, ?_⟩
          unfold records
          rw [List.getElem?_zip_eq_some]
          constructor
          · simp [hi]
          · simp [hit]
        · simp
    rw [hsums]
    simp only []
    rw [stackTransposed_eq W L _ hLne]
    simp only [pure, Except.pure, Except.ok.injEq, Prod.mk.injEq, and_true, List.map_map]
    constructor
    · apply List.map_congr_left
      intro w _
      simp only [Function.comp, List.map_map]
      apply List.map_congr_left
      intro l _
      simp only [Function.comp, proportion]
      rw [hrl, hlen]
    · apply List.map_congr_left
      intro l _
      simp only [Function.comp, proportion]
      rw [hrl, hlen, List.countP_eq_length_filter]
      simp
  · intro q hq
    exact (hLm q.1).2 (List.of_mem_zip hq).1

/-! ### C131 -/

/-- **C131.** `word_histo_by_label` on as many records as labels (at least one): the labels, in
lower case and once each; the words, once each, the labels first and the others sorted; the value at
a word and a label is the proportion of the records which have this label and contain this word;
the proportions of the labels. -/
theorem C131_word_histo (ws : Char → Bool) (S : SetOrder) (hS : S.OK) (trans labels : List Str)
    (hlen : trans.length = labels.length) (hne : trans ≠ []) :
    ∃ h p L W, wordHisto ws S trans labels = .ok (h, p, L, W) ∧
      L.Nodup ∧ (∀ x, x ∈ L ↔ x ∈ labels.map Corpus.lower) ∧
      W.Nodup ∧ (∀ x, x ∈ W ↔ x ∈ labels.map Corpus.lower ∨ ∃ t ∈ trans, x ∈ transWords ws t) ∧
      L <+: W ∧ (W.drop L.length).Pairwise (· ≤ ·) ∧
      h.length = W.length ∧ p.length = L.length ∧
      (∀ row ∈ h, row.length = L.length) ∧
      (∀ (j : ℕ) (l : Str), L[j]? = some l →
        p[j]? = some (proportion (records ws trans labels) fun r => r.1 = l)) ∧
      ∀ (i j : ℕ) (w l : Str), W[i]? = some w → L[j]? = some l → ∃ row, h[i]? = some row ∧
        row[j]? = some (proportion (records ws trans labels) fun r => r.1 = l ∧ w ∈ r.2) := by
  obtain ⟨hLn, hLm⟩ := hS (labels.map Corpus.lower)
  obtain ⟨hWn, hWm, hpre, hsort⟩ := allWords_spec S hS _ hLn (trans.map (transWords ws))
  refine ⟨_, _, _, _, wordHisto_eq ws S hS trans labels hlen hne, hLn, hLm, hWn, ?_, hpre, hsort,
    List.length_map _, List.length_map _, ?_, ?_, ?_⟩
  · intro x
    rw [hWm, hLm]
    simp
  · intro row hr
    obtain ⟨w, _, rfl⟩ := List.mem_map.1 hr
    exact List.length_map _
  · intro j l hj
    rw [List.getElem?_map, hj]
    rfl
  · intro i j w l hi hj
    refine ⟨(S.enum (labels.map Corpus.lower)).map fun l =>
      proportion (records ws trans labels) fun r => r.1 = l ∧ w ∈ r.2, ?_, ?_⟩
    · rw [List.getElem?_map, hi, Option.map_some]
    · rw [List.getElem?_map, hj]
      rfl

/-- **C131.** When it fails: `AssertionError` for different numbers of records and labels,
`ValueError` without records. -/
theorem C131_errors (ws : Char → Bool) (S : SetOrder) (hS : S.OK) (trans labels : List Str) :
    (trans.length ≠ labels.length → wordHisto ws S trans labels = .error .assertionError) ∧
    wordHisto ws S [] [] = .error .valueError := by
  constructor
  · intro h
    unfold wordHisto Experiment.pyAssert
    rw [if_neg (by simpa using h)]
    rfl
  · have h0 : S.enum [] = [] := List.eq_nil_iff_forall_not_mem.2 fun x hx => by
      have := ((hS []).2 x).1 hx
      simp at this
    unfold wordHisto Experiment.pyAssert
    simp [h0, allWords, groupCounts, stackTransposed, bind, Except.bind, pure, Except.pure]

theorem strip_core (P : Char → Bool) (pre s post : Str) (h1 : ∀ c ∈ pre, P c = true)
    (h2 : ∀ c ∈ post, P c = true) (hf : ∀ c, s.head? = some c → P c = false)
    (hl : ∀ c, s.getLast? = some c → P c = false) :
    Corpus.strip P (pre ++ s ++ post) = s := by
  have drop : ∀ (a b : Str), (∀ c ∈ a, P c = true) → (∀ c, b.head? = some c → P c = false) →
      (a ++ b).dropWhile P = b := by
    intro a
    induction a with
    | nil =>
      intro b _ hb
      rcases b with _ | ⟨c, b⟩
      · rfl
      · simp [hb c rfl]
    | cons c a ih =>
      intro b ha hb
      rw [List.cons_append, List.dropWhile_cons_of_pos (ha c (List.mem_cons_self ..))]
      exact ih b (fun d hd => ha d (List.mem_cons_of_mem _ hd)) hb
  unfold Corpus.strip
  rcases s with _ | ⟨c, s⟩
  · rw [List.append_nil]
    have : (pre ++ post).dropWhile P = [] := by
      have h := drop (pre ++ post) [] (fun x hx => by
        rcases List.mem_append.1 hx with h | h
        · exact h1 x h
        · exact h2 x h) (by simp)
      rwa [List.append_nil] at h
    rw [this]
    rfl
  · rw [List.append_assoc, drop pre _ h1 (by intro d hd; exact hf d (by simpa using hd)),
      List.reverse_append, drop]
    · exact List.reverse_reverse _
    · intro d hd; exact h2 d (List.mem_reverse.1 hd)
    · intro d hd
      rw [List.head?_reverse] at hd
      exact hl d hd

theorem wordsFrom_lower (ws : Char → Bool) (hws : ∀ c, ws c.toLower = ws c) (s acc : Str) :
    Corpus.wordsFrom ws (Corpus.lower acc) (Corpus.lower s) =
      (Corpus.wordsFrom ws acc s).map Corpus.lower := by
  have hnil : ∀ acc : Str, Corpus.lower acc = [] ↔ acc = [] := fun acc => by
    unfold Corpus.lower; exact List.map_eq_nil_iff
  induction s generalizing acc with
  | nil =>
    by_cases h : acc = []
    · subst h; rfl
    · simp only [Corpus.lower, List.map_nil, Corpus.wordsFrom] at *
      rw [if_neg h, if_neg (fun hc => h ((hnil acc).1 hc))]
      rfl
  | cons c s ih =>
    show Corpus.wordsFrom ws (Corpus.lower acc) (c.toLower :: Corpus.lower s) = _
    rw [Corpus.wordsFrom, Corpus.wordsFrom, hws c]
    by_cases hc : ws c = true
    · rw [if_pos hc, if_pos hc]
      by_cases h : acc = []
      · rw [if_pos ((hnil acc).2 h), if_pos h]
        exact ih []
      · rw [if_neg (fun hc => h ((hnil acc).1 hc)), if_neg h, List.map_cons]
        congr 1
        exact ih []
    · rw [if_neg hc, if_neg hc, ← ih]
      congr 1
      simp [Corpus.lower]

/-- **C131.** The words of a transcription: a sentence written as words separated by white space,
with any marks `.`, `?` and `!` before and after it, has these words, in lower case. -/
theorem C131_words (ws : Char → Bool) (hws : ∀ c, ws c.toLower = ws c) (pre post : Str)
    (hp : ∀ c ∈ pre ++ post, c = '.' ∨ c = '?' ∨ c = '!') (l : List (Str × Str))
    (hl : Corpus.WellSpelled ws l)
    (hm : ∀ c, (Corpus.spell l).head? = some c ∨ (Corpus.spell l).getLast? = some c →
      c ≠ '.' ∧ c ≠ '?' ∧ c ≠ '!') :
    transWords ws (pre ++ Corpus.spell l ++ post) = l.map fun p => Corpus.lower p.1 := by
  have hmark : ∀ c, (c == '.' || c == '?' || c == '!') = true ↔ c = '.' ∨ c = '?' ∨ c = '!' := by
    intro c
    simp [or_assoc]
  have hnot : ∀ c, c ≠ '.' ∧ c ≠ '?' ∧ c ≠ '!' → (c == '.' || c == '?' || c == '!') = false := by
    intro c ⟨h1, h2, h3⟩
    simp [h1, h2, h3]
  unfold transWords
  rw [strip_core]
  · have h := wordsFrom_lower ws hws (Corpus.spell l) []
    have h2 := Corpus.words_spell (ws := ws) [] l (by simp) hl
    unfold Corpus.words at h2 ⊢
    rw [show ([] : Str) = Corpus.lower [] from rfl, h]
    rw [List.nil_append] at h2
    rw [h2, List.map_map]
    rfl
  · intro c hc
    exact (hmark c).2 (hp c (List.mem_append_left _ hc))
  · intro c hc
    exact (hmark c).2 (hp c (List.mem_append_right _ hc))
  · intro c hc
    exact hnot c (hm c (Or.inl hc))
  · intro c hc
    exact hnot c (hm c (Or.inr hc))

/-! ### C132 -/

/-- The joint law of the presence of a word (rows: present, absent) and of the label of the record
(columns: the label `l`, another one). -/
noncomputable def jointLaw (recs : List (Str × List Str)) (w l : Str) : Fin 2 → Fin 2 → ℝ :=
  fun a b => ((proportion recs fun r => (w ∈ r.2 ↔ a = 0) ∧ (r.1 = l ↔ b = 0) : ℚ) : ℝ)

theorem proportion_congr {α : Type} (l : List α) (P Q : α → Prop) [DecidablePred P]
    [DecidablePred Q] (h : ∀ x ∈ l, (P x ↔ Q x)) : proportion l P = proportion l Q := by
  unfold proportion
  congr 2
  apply List.countP_congr
  intro x hx
  simp [h x hx]

theorem proportion_split {α : Type} (l : List α) (P Q : α → Prop) [DecidablePred P]
    [DecidablePred Q] :
    proportion l P = proportion l (fun x => P x ∧ Q x) + proportion l fun x => P x ∧ ¬Q x := by
  unfold proportion
  rw [← add_div]
  congr 1
  norm_cast
  induction l with
  | nil => simp
  | cons a l ih =>
    simp only [List.countP_cons, ih]
    by_cases hp : P a <;> by_cases hq : Q a <;> simp [hp, hq] <;> omega

theorem proportion_nonneg {α : Type} (l : List α) (P : α → Prop) [DecidablePred P] :
    0 ≤ proportion l P := div_nonneg (Nat.cast_nonneg _) (Nat.cast_nonneg _)

theorem proportion_true {α : Type} (l : List α) (P : α → Prop) [DecidablePred P] (hl : l ≠ [])
    (h : ∀ x ∈ l, P x) : proportion l P = 1 := by
  unfold proportion
  rw [List.countP_eq_length.2 (fun x hx => by simp [h x hx]), div_self]
  have := List.length_pos_iff.2 hl
  positivity

theorem sum_proportion {β : Type} (recs : List (Str × β)) (Q : Str × β → Prop) [DecidablePred Q]
    (L : List Str) (hL : L.Nodup) :
    (L.map fun l => proportion recs fun r => r.1 = l ∧ Q r).sum =
      proportion recs fun r => r.1 ∈ L ∧ Q r := by
  induction L with
  | nil => simp [proportion]
  | cons x L ih =>
    rw [List.map_cons, List.sum_cons, ih (List.nodup_cons.1 hL).2,
      proportion_split recs (fun r => r.1 ∈ x :: L ∧ Q r) fun r => r.1 = x]
    congr 1
    · apply proportion_congr
      intro r _
      constructor
      · rintro ⟨h1, h2⟩
        exact ⟨⟨by simp [h1], h2⟩, h1⟩
      · rintro ⟨⟨_, h2⟩, h1⟩
        exact ⟨h1, h2⟩
    · apply proportion_congr
      intro r _
      constructor
      · rintro ⟨h1, h2⟩
        refine ⟨⟨List.mem_cons_of_mem _ h1, h2⟩, ?_⟩
        rintro rfl
        exact (List.nodup_cons.1 hL).1 h1
      · rintro ⟨⟨h1, h2⟩, h3⟩
        exact ⟨(List.mem_cons.1 h1).resolve_left h3, h2⟩

theorem take_drop_sum (row : List ℚ) (j : ℕ) (x : ℚ) (hj : row[j]? = some x) :
    (row.take j).sum + (row.drop (j + 1)).sum = row.sum - x := by
  obtain ⟨hlt, hx⟩ := List.getElem?_eq_some_iff.1 hj
  have h := List.sum_take_add_sum_drop row j
  rw [List.drop_eq_getElem_cons hlt, List.sum_cons, hx] at h
  linarith

theorem zipWith_sub_sum (a b : List ℚ) (h : a.length = b.length) :
    (List.zipWith (fun p x => p - x) a b).sum = a.sum - b.sum := by
  induction a generalizing b with
  | nil =>
    rcases b with _ | ⟨y, b⟩
    · simp
    · simp at h
  | cons x a ih =>
    rcases b with _ | ⟨y, b⟩
    · simp at h
    · rw [List.zipWith_cons_cons, List.sum_cons, List.sum_cons, List.sum_cons,
        ih b (by simpa using h)]
      ring

/-- The four entries of the histogram. -/
theorem hist_eq (recs : List (Str × List Str)) (hne : recs ≠ []) (L : List Str) (hL : L.Nodup)
    (hall : ∀ r ∈ recs, r.1 ∈ L) (w l : Str) (j : ℕ) (hj : L[j]? = some l) :
    histWordLabel (L.map fun l => proportion recs fun r => r.1 = l ∧ w ∈ r.2)
        (L.map fun l => proportion recs fun r => r.1 = l) j =
      [[proportion recs fun r => w ∈ r.2 ∧ r.1 = l, proportion recs fun r => w ∈ r.2 ∧ ¬r.1 = l],
       [proportion recs fun r => ¬w ∈ r.2 ∧ r.1 = l,
        proportion recs fun r => ¬w ∈ r.2 ∧ ¬r.1 = l]] := by
  have hrow : (L.map fun l => proportion recs fun r => r.1 = l ∧ w ∈ r.2)[j]? =
      some (proportion recs fun r => r.1 = l ∧ w ∈ r.2) := by rw [List.getElem?_map, hj]; rfl
  have hp : (L.map fun l => proportion recs fun r => r.1 = l)[j]? =
      some (proportion recs fun r => r.1 = l) := by rw [List.getElem?_map, hj]; rfl
  have hs1 : (L.map fun l => proportion recs fun r => r.1 = l ∧ w ∈ r.2).sum =
      proportion recs fun r => w ∈ r.2 := by
    rw [sum_proportion recs (fun r => w ∈ r.2) L hL]
    apply proportion_congr
    intro r hr
    simp [hall r hr]
  have hs2 : (L.map fun l => proportion recs fun r => r.1 = l).sum = 1 := by
    have h := sum_proportion recs (fun _ => True) L hL
    simp only [and_true] at h
    rw [h]
    exact proportion_true recs _ hne hall
  have e1 : (proportion recs fun r => r.1 = l ∧ w ∈ r.2) =
      proportion recs fun r => w ∈ r.2 ∧ r.1 = l :=
    proportion_congr _ _ _ fun r _ => and_comm
  have e2 := proportion_split recs (fun r => w ∈ r.2) fun r => r.1 = l
  have e3 := proportion_split recs (fun r => r.1 = l) fun r => w ∈ r.2
  have e4 : (proportion recs fun r => r.1 = l ∧ ¬w ∈ r.2) =
      proportion recs fun r => ¬w ∈ r.2 ∧ r.1 = l :=
    proportion_congr _ _ _ fun r _ => and_comm
  have e5 : (1 : ℚ) = (proportion recs fun r => w ∈ r.2) + proportion recs fun r => ¬w ∈ r.2 := by
    have h := proportion_split recs (fun _ => True) fun r => w ∈ r.2
    simp only [true_and] at h
    rw [← h]
    exact (proportion_true recs _ hne fun _ _ => trivial).symm
  have e6 := proportion_split recs (fun r => ¬w ∈ r.2) fun r => r.1 = l
  unfold histWordLabel
  rw [take_drop_sum _ j _ hrow, zipWith_sub_sum _ _ (by simp), hs1, hs2,
    List.getD_eq_getElem?_getD, List.getD_eq_getElem?_getD, hrow, hp, Option.getD_some,
    Option.getD_some]
  have f1 : ∀ a b c d a' b' c' d' : ℚ, a = a' → b = b' → c = c' → d = d' →
      [[a, b], [c, d]] = [[a', b'], [c', d']] := by
    rintro _ _ _ _ _ _ _ _ rfl rfl rfl rfl; rfl
  apply f1
  · exact e1
  · rw [e1]; linarith
  · rw [← e4]; linarith
  · rw [e1] at *
    linarith

theorem matOf_hist (recs : List (Str × List Str)) (w l : Str) :
    matOf [[proportion recs fun r => w ∈ r.2 ∧ r.1 = l, proportion recs fun r => w ∈ r.2 ∧ ¬r.1 = l],
       [proportion recs fun r => ¬w ∈ r.2 ∧ r.1 = l,
        proportion recs fun r => ¬w ∈ r.2 ∧ ¬r.1 = l]] 2 2 = jointLaw recs w l := by
  funext a b
  unfold matOf jointLaw
  fin_cases a <;> fin_cases b <;> simp

theorem jointLaw_isJoint (recs : List (Str × List Str)) (hne : recs ≠ []) (w l : Str) :
    Metrics.IsJoint (jointLaw recs w l) := by
  constructor
  · intro a b
    unfold jointLaw
    exact_mod_cast proportion_nonneg _ _
  · simp only [Fin.sum_univ_two, ← matOf_hist, matOf]
    simp only [Fin.val_zero, Fin.val_one, List.getD_cons_zero, List.getD_cons_succ]
    have e1 := proportion_split recs (fun r => w ∈ r.2) fun r => r.1 = l
    have e2 := proportion_split recs (fun r => ¬w ∈ r.2) fun r => r.1 = l
    have e3 := proportion_split recs (fun _ => True) fun r => w ∈ r.2
    simp only [true_and] at e3
    rw [proportion_true recs (fun _ => True) hne fun _ _ => trivial] at e3
    norm_cast
    linarith

theorem info_le_log {ι κ : Type} [Fintype ι] [Fintype κ] (h : ι → κ → ℝ) (hh : Metrics.IsJoint h)
    (I : ℝ) (hI : Metrics.mutualInformation h = .ok I) : I ≤ Real.log (Fintype.card ι) := by
  rw [Metrics.C37_entropies h hh] at hI
  have e := Except.ok.inj hI
  have h1 := Metrics.entropy_marginal_le (fun j i => h i j) hh.transpose
  have h2 := (Metrics.C36_range _ hh.row).2
  have h3 : Metrics.entropy (fun p : κ × ι => h p.2 p.1) =
      Metrics.entropy fun p : ι × κ => h p.1 p.2 := by
    rw [Metrics.entropy_eq, Metrics.entropy_eq]
    congr 1
    exact (Equiv.sum_comp (Equiv.prodComm κ ι) fun p : ι × κ => h p.1 p.2 * Real.log (h p.1 p.2))
  rw [h3] at h1
  linarith

/-- For a joint law on two by two outcomes, independence is one equation. -/
theorem indep_two (h : Fin 2 → Fin 2 → ℝ) (hh : Metrics.IsJoint h) :
    (∀ i j, h i j = (∑ j', h i j') * ∑ i', h i' j) ↔
      h 0 0 = (h 0 0 + h 0 1) * (h 0 0 + h 1 0) := by
  have ht := hh.total
  simp only [Fin.sum_univ_two] at ht ⊢
  constructor
  · intro H
    exact H 0 0
  · intro H i j
    have h11 : h 1 1 = 1 - h 0 0 - h 0 1 - h 1 0 := by linarith
    fin_cases i <;> fin_cases j <;> simp only [Fin.zero_eta, Fin.mk_one, h11] <;> nlinarith [H]

/-- **C132.** The histogram of a word and a label is their joint law over the records. -/
theorem C132_joint (ws : Char → Bool) (S : SetOrder) (hS : S.OK) (trans labels : List Str)
    (hlen : trans.length = labels.length) (hne : trans ≠ []) (h : List (List ℚ)) (p : List ℚ)
    (L W : List Str) (hok : wordHisto ws S trans labels = .ok (h, p, L, W)) (i j : ℕ)
    (row : List ℚ) (w l : Str) (hi : h[i]? = some row) (hw : W[i]? = some w) (hl : L[j]? = some l) :
    matOf (histWordLabel row p j) 2 2 = jointLaw (records ws trans labels) w l ∧
    Metrics.IsJoint (jointLaw (records ws trans labels) w l) := by
  rw [wordHisto_eq ws S hS trans labels hlen hne] at hok
  obtain ⟨hLn, hLm⟩ := hS (labels.map Corpus.lower)
  simp only [Except.ok.injEq, Prod.mk.injEq] at hok
  obtain ⟨rfl, rfl, rfl, rfl⟩ := hok
  have hrne : records ws trans labels ≠ [] := by
    intro hc
    have hrl : (records ws trans labels).length = trans.length := by
      unfold records; rw [List.length_zip, List.length_map, List.length_map]; omega
    rw [hc] at hrl
    exact hne (List.length_eq_zero_iff.1 hrl.symm)
  rw [List.getElem?_map, hw, Option.map_some, Option.some.injEq] at hi
  subst hi
  rw [hist_eq _ hrne _ hLn _ w l j hl, matOf_hist]
  · exact ⟨rfl, jointLaw_isJoint _ hrne w l⟩
  · intro r hr
    exact (hLm r.1).2 (List.of_mem_zip hr).1

/-- **C132.** The information matrix is computed, with an entry for each word and label: the mutual
information of their joint law, which is between 0 and the logarithm of 2, and which is 0 exactly
when the word is as frequent among the records with the label as among all of them. -/
theorem C132_information (ws : Char → Bool) (S : SetOrder) (hS : S.OK) (trans labels : List Str)
    (hlen : trans.length = labels.length) (hne : trans ≠ []) (h : List (List ℚ)) (p : List ℚ)
    (L W : List Str) (hok : wordHisto ws S trans labels = .ok (h, p, L, W)) :
    ∃ info, wordLabelInfo h p = .ok info ∧ info.length = W.length ∧
      (∀ row ∈ info, row.length = L.length) ∧
      ∀ (i j : ℕ) (w l : Str), W[i]? = some w → L[j]? = some l → ∃ row I, info[i]? = some row ∧
        row[j]? = some I ∧
        Metrics.mutualInformation (jointLaw (records ws trans labels) w l) = .ok I ∧
        0 ≤ I ∧ I ≤ Real.log 2 ∧
        (I = 0 ↔ (proportion (records ws trans labels) fun r => w ∈ r.2 ∧ r.1 = l) =
          (proportion (records ws trans labels) fun r => w ∈ r.2) *
            proportion (records ws trans labels) fun r => r.1 = l) := by
  have hj := C132_joint ws S hS trans labels hlen hne h p L W hok
  obtain ⟨h', p', L', W', e, _, _, _, _, _, _, hhl, hpl, hrl, hpv, hhv⟩ :=
    C131_word_histo ws S hS trans labels hlen hne
  rw [hok] at e
  simp only [Except.ok.injEq, Prod.mk.injEq] at e
  obtain ⟨rfl, rfl, rfl, rfl⟩ := e
  have hval : ∀ (i j : ℕ) (row : List ℚ) (w l : Str), h[i]? = some row → W[i]? = some w →
      L[j]? = some l → ∃ I, Metrics.mutualInformation (matOf (histWordLabel row p j) 2 2) = .ok I ∧
        Metrics.mutualInformation (jointLaw (records ws trans labels) w l) = .ok I ∧
        0 ≤ I ∧ I ≤ Real.log 2 ∧
        (I = 0 ↔ (proportion (records ws trans labels) fun r => w ∈ r.2 ∧ r.1 = l) =
          (proportion (records ws trans labels) fun r => w ∈ r.2) *
            proportion (records ws trans labels) fun r => r.1 = l) := by
    intro i j row w l hi hw hl
    obtain ⟨e1, e2⟩ := hj i j row w l hi hw hl
    obtain ⟨I, hI, h0, hz⟩ := Metrics.C37_nonneg _ e2
    refine ⟨I, by rw [e1]; exact hI, hI, h0, ?_, ?_⟩
    · have := info_le_log _ e2 I hI
      simpa using this
    · rw [hz, indep_two _ e2, ← matOf_hist]
      simp only [matOf, Fin.val_zero, Fin.val_one, List.getD_cons_zero, List.getD_cons_succ]
      rw [proportion_split (records ws trans labels) (fun r => w ∈ r.2) fun r => r.1 = l,
        proportion_split (records ws trans labels) (fun r => r.1 = l) fun r => w ∈ r.2,
        proportion_congr (records ws trans labels) (fun r => r.1 = l ∧ w ∈ r.2)
          (fun r => w ∈ r.2 ∧ r.1 = l) fun r _ => and_comm,
        proportion_congr (records ws trans labels) (fun r => r.1 = l ∧ ¬w ∈ r.2)
          (fun r => ¬w ∈ r.2 ∧ r.1 = l) fun r _ => and_comm]
      norm_cast
  have hrows : ∀ (i : ℕ) (row : List ℚ), h[i]? = some row → ∃ out,
      ((List.range p.length).mapM fun j =>
        Metrics.mutualInformation (matOf (histWordLabel row p j) 2 2)) = .ok out ∧
      out.length = L.length ∧ ∀ (j : ℕ) (w l : Str), W[i]? = some w → L[j]? = some l → ∃ I,
        out[j]? = some I ∧ Metrics.mutualInformation (matOf (histWordLabel row p j) 2 2) = .ok I := by
    intro i row hi
    obtain ⟨hilt, _⟩ := List.getElem?_eq_some_iff.1 hi
    have hW : W[i]? = some W[i] := List.getElem?_eq_getElem (by omega)
    have hex : ∀ j, ∃ I, j < p.length →
        Metrics.mutualInformation (matOf (histWordLabel row p j) 2 2) = .ok I := by
      intro j
      by_cases hjp : j < p.length
      · obtain ⟨I, hI, _⟩ := hval i j row _ L[j] hi hW (List.getElem?_eq_getElem (by omega))
        exact ⟨I, fun _ => hI⟩
      · exact ⟨0, fun hc => absurd hc hjp⟩
    choose g hg using hex
    refine ⟨(List.range p.length).map g, mapM_ok _ g _ fun j hj => hg j (List.mem_range.1 hj), ?_, ?_⟩
    · simp [hpl]
    · intro j w l _ hl
      obtain ⟨hjlt, _⟩ := List.getElem?_eq_some_iff.1 hl
      have hjp : j < p.length := by omega
      exact ⟨g j, by simp [hjp], hg j hjp⟩
  have hex : ∀ row, ∃ out, row ∈ h → ((List.range p.length).mapM fun j =>
        Metrics.mutualInformation (matOf (histWordLabel row p j) 2 2)) = .ok out := by
    intro row
    by_cases hr : row ∈ h
    · obtain ⟨i, hi⟩ := List.mem_iff_getElem?.1 hr
      obtain ⟨out, ho, _⟩ := hrows i row hi
      exact ⟨out, fun _ => ho⟩
    · exact ⟨[], fun hc => absurd hc hr⟩
  choose g hg using hex
  refine ⟨h.map g, mapM_ok _ g h fun row hr => hg row hr, by simp [hhl], ?_, ?_⟩
  · intro out ho
    obtain ⟨row, hr, rfl⟩ := List.mem_map.1 ho
    obtain ⟨i, hi⟩ := List.mem_iff_getElem?.1 hr
    obtain ⟨out, ho, hl, _⟩ := hrows i row hi
    rw [hg row hr] at ho
    cases ho
    exact hl
  · intro i j w l hw hl
    obtain ⟨hilt, _⟩ := List.getElem?_eq_some_iff.1 hw
    have hi : h[i]? = some h[i] := List.getElem?_eq_getElem (by omega)
    obtain ⟨out, ho, _, hv⟩ := hrows i _ hi
    obtain ⟨I, hI1, hI2⟩ := hv j w l hw hl
    obtain ⟨I', hI3, hrest⟩ := hval i j _ w l hi hw hl
    rw [hI2] at hI3
    cases hI3
    refine ⟨out, I, ?_, hI1, hrest⟩
    rw [List.getElem?_map, hi, Option.map_some]
    have := hg h[i] (List.getElem_mem _)
    rw [ho] at this
    rw [← Except.ok.inj this]

end Verif.Samples
