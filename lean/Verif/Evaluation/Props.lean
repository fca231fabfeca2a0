import Verif.Evaluation.Model
import Mathlib.Tactic.Linarith
import Mathlib.Tactic.FieldSimp
import Mathlib.Tactic.Positivity
import Mathlib.Tactic.Push
import Mathlib.Data.List.Nodup
import Mathlib.Data.List.Count
import Mathlib.Data.List.Pairwise
import Mathlib.Algebra.BigOperators.Group.List.Basic

/-!
# Properties C45-C50: `multimodal/evaluation.py`
-/

namespace Verif.Evaluation

open Verif

/-- Specification: `m` is the position of the first minimum of the row. -/
def IsFirstMin (row : List ℚ) (m : ℕ) : Prop :=
  ∃ x, row[m]? = some x ∧ (∀ y ∈ row, x ≤ y) ∧ ∀ k y, k < m → row[k]? = some y → x < y

theorem argMinFrom_spec (pre : List ℚ) (best : ℚ) (bi : ℕ) (l : List ℚ)
    (h : IsFirstMin pre bi) (hb : pre[bi]? = some best) :
    IsFirstMin (pre ++ l) (argMinFrom best bi pre.length l) := by
  induction l generalizing pre best bi with
  | nil => rw [List.append_nil]; exact h
  | cons x xs ih =>
    obtain ⟨b, hb1, hb2, hb3⟩ := h
    rw [hb, Option.some.injEq] at hb1
    subst hb1
    have hlt : bi < pre.length := (List.getElem?_eq_some_iff.mp hb).1
    unfold argMinFrom
    have hlen : pre.length + 1 = (pre ++ [x]).length := by simp
    have hx : (pre ++ [x])[pre.length]? = some x := by simp
    split_ifs with hlt'
    · have := ih (pre ++ [x]) x pre.length (by
        refine ⟨x, hx, ?_, ?_⟩
        · intro y hy
          rw [List.mem_append, List.mem_singleton] at hy
          rcases hy with hy | rfl
          · exact hlt'.le.trans (hb2 y hy)
          · exact le_rfl
        · intro k y hk hy
          rw [List.getElem?_append_left hk] at hy
          exact lt_of_lt_of_le hlt' (hb2 y (List.mem_of_getElem? hy))) hx
      rw [hlen]
      simpa using this
    · push Not at hlt'
      have hbb : (pre ++ [x])[bi]? = some best := by rw [List.getElem?_append_left hlt]; exact hb
      have := ih (pre ++ [x]) best bi (by
        refine ⟨best, hbb, ?_, ?_⟩
        · intro y hy
          rw [List.mem_append, List.mem_singleton] at hy
          rcases hy with hy | rfl
          · exact hb2 y hy
          · exact hlt'
        · intro k y hk hy
          rw [List.getElem?_append_left (hk.trans hlt)] at hy
          exact hb3 k y hk hy) hbb
      rw [hlen]
      simpa using this

theorem argMin_spec (row : List ℚ) (h : row ≠ []) : ∃ m, argMin row = .ok m ∧ IsFirstMin row m := by
  cases row with
  | nil => exact absurd rfl h
  | cons x xs =>
    refine ⟨_, rfl, ?_⟩
    have := argMinFrom_spec [x] x 0 xs ⟨x, rfl, by simp, by
      intro k y hk; omega⟩ rfl
    simpa using this

theorem IsFirstMin.unique {row : List ℚ} {m n : ℕ} (h1 : IsFirstMin row m) (h2 : IsFirstMin row n) :
    m = n := by
  obtain ⟨x, a1, a2, a3⟩ := h1
  obtain ⟨y, b1, b2, b3⟩ := h2
  rcases lt_trichotomy m n with h | h | h
  · exact absurd (b3 m x h a1) (not_lt.mpr (a2 y (List.mem_of_getElem? b1)))
  · exact h
  · exact absurd (a3 n y h b1) (not_lt.mpr (b2 x (List.mem_of_getElem? a1)))

/-! ## C45, C46: nearest neighbours -/

theorem mapM_forall₂ {A B : Type} (f : A → Py B) (P : A → B → Prop) (l : List A)
    (h : ∀ a ∈ l, ∃ b, f a = .ok b ∧ P a b) :
    ∃ l', l.mapM f = .ok l' ∧ List.Forall₂ P l l' := by
  induction l with
  | nil => exact ⟨[], rfl, List.Forall₂.nil⟩
  | cons a l ih =>
    obtain ⟨b, hb, hP⟩ := h a List.mem_cons_self
    obtain ⟨l', hl', hF⟩ := ih fun a ha => h a (List.mem_cons_of_mem _ ha)
    refine ⟨b :: l', ?_, List.Forall₂.cons hP hF⟩
    rw [List.mapM_cons, hb, hl']
    rfl

theorem forall₂_getElem? {A B : Type} {P : A → B → Prop} {l : List A} {l' : List B}
    (h : List.Forall₂ P l l') {i : ℕ} {a : A} {b : B} (ha : l[i]? = some a) (hb : l'[i]? = some b) :
    P a b := by
  have h1 := List.getElem?_eq_some_iff.mp ha
  have h2 := List.getElem?_eq_some_iff.mp hb
  have := h.get (i := i) h1.1 h2.1
  simp only [List.get_eq_getElem] at this
  rwa [h1.2, h2.2] at this

/-- **C45.** Nearest neighbour classification: with at least one example and a label for each,
each tested row gets the label of the first example at minimal distance; hence, if all the examples
at minimal distance have some label, that label is found.  Without examples, `ValueError`. -/
theorem C45_classify_NN {L : Type} (reco ex : List (List ℚ)) (exLabels : List L)
    (measure : List ℚ → List ℚ → ℚ) :
    (ex = [] → classifyNN reco ex exLabels measure = .error .valueError) ∧
    (ex ≠ [] → ex.length ≤ exLabels.length →
      ∃ found, classifyNN reco ex exLabels measure = .ok found ∧ found.length = reco.length ∧
        ∀ (i : ℕ) (r : List ℚ) (l : L), reco[i]? = some r → found[i]? = some l →
          (∃ (m : ℕ) (e : List ℚ), ex[m]? = some e ∧ exLabels[m]? = some l ∧
            (∀ e' ∈ ex, measure r e ≤ measure r e') ∧
            ∀ (k : ℕ) (e' : List ℚ), k < m → ex[k]? = some e' → measure r e < measure r e') ∧
          ∀ l', (∀ (m : ℕ) (e : List ℚ), ex[m]? = some e → (∀ e' ∈ ex, measure r e ≤ measure r e') →
            exLabels[m]? = some l') → l = l') := by
  constructor
  · rintro rfl
    rfl
  · intro hne hlen
    unfold classifyNN distsToFoundLabels argMinRows allDistances
    rw [if_neg (by rw [List.length_eq_zero_iff]; exact hne)]
    obtain ⟨ms, h1, h2⟩ := mapM_forall₂ argMin IsFirstMin
      (reco.map fun r => ex.map fun e => measure r e) (by
        intro row hrow
        obtain ⟨r, _, rfl⟩ := List.mem_map.mp hrow
        exact argMin_spec _ (by simpa using hne))
    rw [h1]
    simp only [bind, Except.bind]
    have hmlt : ∀ m ∈ ms, m < exLabels.length := by
      intro m hm
      obtain ⟨i, hi⟩ := List.mem_iff_getElem?.mp hm
      have hlt : i < (reco.map fun r => ex.map fun e => measure r e).length := by
        rw [h2.length_eq]; exact (List.getElem?_eq_some_iff.mp hi).1
      obtain ⟨x, hx, _⟩ := forall₂_getElem? h2 (List.getElem?_eq_getElem hlt) hi
      have := (List.getElem?_eq_some_iff.mp hx).1
      rw [List.getElem_map, List.length_map] at this
      omega
    obtain ⟨found, g1, g2⟩ := mapM_forall₂ (fun m : ℕ => pyGet exLabels (m : ℤ))
      (fun m l => exLabels[m]? = some l) ms (by
        intro m hm
        refine ⟨exLabels[m]'(hmlt m hm), pyGet_nat _ _ (hmlt m hm), ?_⟩
        exact List.getElem?_eq_getElem _)
    refine ⟨found, g1, ?_, ?_⟩
    · rw [← g2.length_eq, ← h2.length_eq, List.length_map]
    · intro i r l hr hl
      have hi : i < ms.length := by
        rw [g2.length_eq]; exact (List.getElem?_eq_some_iff.mp hl).1
      have hmi := List.getElem?_eq_getElem hi
      have hmin := forall₂_getElem? h2 (a := ex.map fun e => measure r e)
        (by rw [List.getElem?_map, hr]; rfl) hmi
      have hlab := forall₂_getElem? g2 hmi hl
      obtain ⟨x, hx1, hx2, hx3⟩ := hmin
      rw [List.getElem?_map, Option.map_eq_some_iff] at hx1
      obtain ⟨e, he, rfl⟩ := hx1
      have hle : ∀ e' ∈ ex, measure r e ≤ measure r e' := fun e' he' =>
        hx2 _ (List.mem_map.mpr ⟨e', he', rfl⟩)
      refine ⟨⟨ms[i], e, he, hlab, hle, ?_⟩, ?_⟩
      · intro k e' hk he'
        exact hx3 k _ hk (by rw [List.getElem?_map, he']; rfl)
      · intro l' hall
        have := hall ms[i] e he hle
        rw [hlab, Option.some.injEq] at this
        exact this

/-- A measure for the examples: squared distance of the first coordinates. -/
def exMeasure (a b : List ℚ) : ℚ := (a.headD 0 - b.headD 0) ^ 2

example : classifyNN [[1], [7]] [[0], [2], [6]] ["a", "b", "c"] exMeasure = .ok ["a", "c"] ∧
    classifyNN [[1], [7]] [] ["a", "b", "c"] exMeasure = .error .valueError := by
  constructor <;> decide +kernel

theorem sum_indicator (l : List Bool) :
    (l.map fun b => if b then (1 : ℚ) else 0).sum = (l.count true : ℚ) := by
  induction l with
  | nil => simp
  | cons b l ih => cases b <;> simp [ih, add_comm]

/-- **C46.** The score of found labels is the proportion of positions where both labels agree. -/
theorem C46_score {L : Type} [DecidableEq L] (true_ found : List L)
    (hlen : found.length = true_.length) (hne : true_ ≠ []) :
    ∃ s, foundLabelsToScore true_ found = some s ∧
      s * true_.length = ((List.range true_.length).countP fun i =>
        decide (found[i]? = true_[i]?) : ℕ) ∧
      0 ≤ s ∧ s ≤ 1 ∧ (s = 1 ↔ found = true_) ∧
      (s = 0 ↔ ∀ i, i < true_.length → found[i]? ≠ true_[i]?) := by
  set z := (found.zip true_).map fun p => decide (p.1 = p.2) with hz
  have hzlen : z.length = true_.length := by simp [hz, hlen]
  have hpos : 0 < true_.length := List.length_pos_iff.mpr hne
  have hzne : z ≠ [] := by
    intro e; rw [e] at hzlen; simp at hzlen; omega
  have hcnt : z.count true = (List.range true_.length).countP fun i =>
      decide (found[i]? = true_[i]?) := by
    have hr : z = (List.range true_.length).map fun i => decide (found[i]? = true_[i]?) := by
      apply List.ext_getElem
      · simp [hzlen]
      · intro i h1 h2
        simp only [hz, List.getElem_map, List.getElem_zip, List.getElem_range]
        rw [hzlen] at h1
        rw [List.getElem?_eq_getElem (by omega), List.getElem?_eq_getElem h1]
        simp
    rw [hr, List.count, List.countP_map]
    apply List.countP_congr
    intro i _
    simp
  have hP : (0 : ℚ) < true_.length := by exact_mod_cast hpos
  set c := (List.range true_.length).countP fun i => decide (found[i]? = true_[i]?) with hc
  have hs : foundLabelsToScore true_ found = some ((c : ℚ) / true_.length) := by
    unfold foundLabelsToScore average
    rw [← hz, if_neg hzne, sum_indicator, hcnt, hzlen]
  have hcle : c ≤ true_.length := by
    rw [hc]; exact (List.countP_le_length).trans (by simp)
  refine ⟨_, hs, by field_simp, by positivity, ?_, ?_, ?_⟩
  · rw [div_le_one hP]; exact_mod_cast hcle
  · rw [div_eq_one_iff_eq hP.ne']
    constructor
    · intro h
      have h : c = true_.length := by exact_mod_cast h
      have hall : ∀ i ∈ List.range true_.length, decide (found[i]? = true_[i]?) = true := by
        rw [← List.countP_eq_length, ← hc, h, List.length_range]
      apply List.ext_getElem?
      intro i
      rcases lt_or_ge i true_.length with hi | hi
      · simpa using hall i (List.mem_range.mpr hi)
      · rw [List.getElem?_eq_none_iff.mpr hi, List.getElem?_eq_none_iff.mpr (by omega)]
    · rintro rfl
      have : c = found.length := by
        rw [hc]
        conv_rhs => rw [← List.length_range (n := found.length)]
        rw [List.countP_eq_length]
        intro i _; simp
      exact_mod_cast this
  · rw [div_eq_zero_iff]
    constructor
    · rintro (h | h)
      · have h : c = 0 := by exact_mod_cast h
        rw [hc, List.countP_eq_zero] at h
        intro i hi
        simpa using h i (List.mem_range.mpr hi)
      · exact absurd h hP.ne'
    · intro h
      left
      have : c = 0 := by
        rw [hc, List.countP_eq_zero]
        intro i hi
        simpa using h i (List.mem_range.mp hi)
      exact_mod_cast this

/-- **C46.** `evaluate_NN_label` is the score of the labels found by `classify_NN` (and fails when
it fails). -/
theorem C46_evaluate_NN {L : Type} [DecidableEq L] (reco test : List (List ℚ))
    (trueLabels testLabels : List L) (measure : List ℚ → List ℚ → ℚ) :
    evaluateNNLabel reco test trueLabels testLabels measure =
      (classifyNN reco test testLabels measure).map fun found =>
        foundLabelsToScore trueLabels found := by
  unfold evaluateNNLabel scoresFromDists classifyNN distsToFoundLabels foundLabelsToScore
  simp only [bind, Except.bind, Except.map]
  cases argMinRows test.length (allDistances reco test measure) with
  | error e => rfl
  | ok ms =>
    cases ms.mapM fun m : ℕ => pyGet testLabels (m : ℤ) <;> rfl

example : foundLabelsToScore ["a", "b", "c", "a"] ["a", "c", "c", "b"] = some (1 / 2) ∧
    evaluateNNLabel [[1], [7]] [[0], [2], [6]] ["a", "b"] ["a", "b", "c"] exMeasure =
      .ok (some (1 / 2)) := by
  constructor <;> decide +kernel

/-! ## C47: choice of examples -/

/-- Positions from `start` on of `l` in `labels`, in increasing order. -/
def positionsFrom {L : Type} [DecidableEq L] (labels : List L) (l : L) (start : ℕ) : List ℕ :=
  (List.range labels.length).filter fun i => decide (start ≤ i ∧ labels[i]? = some l)

theorem positionsFrom_eq {L : Type} [DecidableEq L] (labels : List L) (l : L) (start : ℕ) :
    (indexFrom labels l start = none → positionsFrom labels l start = []) ∧
    (∀ i, indexFrom labels l start = some i → start ≤ i ∧
      positionsFrom labels l start = i :: positionsFrom labels l (i + 1)) := by
  unfold indexFrom
  constructor
  · intro h
    rw [Option.map_eq_none_iff, List.findIdx?_eq_none_iff] at h
    unfold positionsFrom
    rw [List.filter_eq_nil_iff]
    intro i _
    simp only [decide_eq_true_eq, not_and]
    intro hs hi
    have : l ∈ labels.drop start := by
      rw [List.mem_iff_getElem?]
      refine ⟨i - start, ?_⟩
      rw [List.getElem?_drop]
      rw [show start + (i - start) = i by omega]
      exact hi
    simpa using h l this
  · intro i h
    rw [Option.map_eq_some_iff] at h
    obtain ⟨j, hj, rfl⟩ := h
    rw [List.findIdx?_eq_some_iff_getElem] at hj
    obtain ⟨h1, h2, h3⟩ := hj
    refine ⟨by omega, ?_⟩
    have hjl : j + start < labels.length := by rw [List.length_drop] at h1; omega
    have hat : labels[j + start]? = some l := by
      rw [List.getElem_drop, decide_eq_true_eq] at h2
      rw [List.getElem?_eq_getElem hjl]
      simp only [Nat.add_comm] at h2 ⊢
      rw [h2]
    have hbefore : ∀ k, start ≤ k → k < j + start → labels[k]? ≠ some l := by
      intro k hk1 hk2 hk
      have := h3 (k - start) (by omega)
      rw [List.getElem_drop, decide_eq_true_eq] at this
      have hk' := (List.getElem?_eq_some_iff.mp hk).2
      apply this
      simp only [show start + (k - start) = k by omega]
      exact hk'
    unfold positionsFrom
    have hsplit : List.range labels.length =
        List.range (j + start) ++ (j + start) ::
          (List.range (labels.length - (j + start + 1))).map (fun k => j + start + 1 + k) := by
      have e : labels.length = (j + start + 1) + (labels.length - (j + start + 1)) := by omega
      conv_lhs => rw [e, List.range_add, List.range_succ]
      simp
    rw [hsplit, List.filter_append, List.filter_append, List.filter_cons, List.filter_cons,
      if_pos (by simpa using hat), if_neg (by simp)]
    have e1 : (List.range (j + start)).filter (fun i => decide (start ≤ i ∧ labels[i]? = some l)) =
        [] := by
      rw [List.filter_eq_nil_iff]
      intro k hk
      simp only [decide_eq_true_eq, not_and]
      exact fun hs => hbefore k hs (List.mem_range.mp hk)
    have e2 : (List.range (j + start)).filter
        (fun i => decide (j + start + 1 ≤ i ∧ labels[i]? = some l)) = [] := by
      rw [List.filter_eq_nil_iff]
      intro k hk
      simp only [decide_eq_true_eq, not_and]
      have := List.mem_range.mp hk
      omega
    rw [e1, e2, List.nil_append, List.nil_append]
    congr 1
    apply List.filter_congr
    intro k hk
    obtain ⟨k', _, rfl⟩ := List.mem_map.mp hk
    simp only [decide_eq_decide]
    constructor
    · rintro ⟨_, h⟩; exact ⟨by omega, h⟩
    · rintro ⟨_, h⟩; exact ⟨by omega, h⟩

theorem choseLoop_spec {L : Type} [DecidableEq L] (labels : List L) (l : L) (k start : ℕ) :
    choseLoop labels l k start = if (positionsFrom labels l start).length < k then
      .error .valueError else .ok ((positionsFrom labels l start).take k) := by
  induction k generalizing start with
  | zero => simp [choseLoop]
  | succ k ih =>
    unfold choseLoop
    obtain ⟨h1, h2⟩ := positionsFrom_eq labels l start
    cases hi : indexFrom labels l start with
    | none => simp [h1 hi]
    | some i =>
      obtain ⟨_, h3⟩ := h2 i hi
      simp only []
      rw [ih, h3]
      by_cases hk : (positionsFrom labels l (i + 1)).length < k
      · rw [if_pos hk, if_pos (by simp; omega)]
        rfl
      · rw [if_neg hk, if_neg (by simp; omega)]
        rfl

/-- **C47.** Choice of examples: for each label of the set in order, the positions of its first
`number` occurrences, all distinct when the set has no repetition; `ValueError` exactly when some
label of the set has fewer occurrences. -/
theorem C47_chose_examples {L : Type} [DecidableEq L] (labels labelSet : List L) (number : ℕ) :
    ((∃ l ∈ labelSet, labels.count l < number) →
      choseExamples labels labelSet number = .error .valueError) ∧
    ((∀ l ∈ labelSet, number ≤ labels.count l) →
      ∃ out, choseExamples labels labelSet number = .ok out ∧
        out = labelSet.flatMap (fun l => ((List.range labels.length).filter fun i =>
          decide (labels[i]? = some l)).take number) ∧
        out.length = labelSet.length * number ∧ (labelSet.Nodup → out.Nodup)) := by
  have hpos : ∀ l, positionsFrom labels l 0 = (List.range labels.length).filter fun i =>
      decide (labels[i]? = some l) := by
    intro l
    unfold positionsFrom
    apply List.filter_congr
    intro i _
    simp
  have hcount : ∀ l, (positionsFrom labels l 0).length = labels.count l := by
    intro l
    rw [hpos, ← List.countP_eq_length_filter, List.count]
    have : labels.map some = (List.range labels.length).map fun i => labels[i]? := by
      apply List.ext_getElem
      · simp
      · intro i h1 h2
        simp at h1
        simp [h1]
    have e : labels.countP (fun x => x == l) = (labels.map some).countP
        (fun o => decide (o = some l)) := by
      rw [List.countP_map]
      apply List.countP_congr
      intro x _
      simp
    rw [e, this, List.countP_map]
    rfl
  unfold choseExamples
  constructor
  · rintro ⟨l, hl, hlt⟩
    have : labelSet.mapM (fun l => choseLoop labels l number 0) = .error .valueError := by
      induction labelSet with
      | nil => simp at hl
      | cons a ls ih =>
        rw [List.mapM_cons, choseLoop_spec, hcount]
        by_cases ha : labels.count a < number
        · rw [if_pos ha]; rfl
        · rw [if_neg ha]
          have hl' : l ∈ ls := by
            rcases List.mem_cons.mp hl with rfl | h
            · exact absurd hlt ha
            · exact h
          rw [ih hl']
          rfl
    rw [this]
    rfl
  · intro h
    rw [mapM_ok _ (fun l => (positionsFrom labels l 0).take number) labelSet (by
      intro l hl
      rw [choseLoop_spec, hcount, if_neg (by have := h l hl; omega)])]
    refine ⟨_, rfl, ?_, ?_, ?_⟩
    · rw [List.flatMap_def]
      congr 1
      apply List.map_congr_left
      intro l _
      rw [hpos]
    · rw [List.length_flatten, List.map_map]
      have : labelSet.map (List.length ∘ fun l => (positionsFrom labels l 0).take number) =
          labelSet.map fun _ => number := by
        apply List.map_congr_left
        intro l hl
        simp only [Function.comp_apply, List.length_take, hcount]
        exact min_eq_left (h l hl)
      rw [this]
      simp
    · intro hnd
      rw [List.nodup_flatten]
      constructor
      · intro p hp
        obtain ⟨l, _, rfl⟩ := List.mem_map.mp hp
        refine List.Nodup.sublist (List.take_sublist _ _) ?_
        unfold positionsFrom
        exact List.Nodup.filter _ List.nodup_range
      · rw [List.pairwise_map]
        refine List.Pairwise.imp ?_ hnd
        intro a b hab i hia hib
        have h1 := List.mem_of_mem_take hia
        have h2 := List.mem_of_mem_take hib
        unfold positionsFrom at h1 h2
        rw [List.mem_filter, decide_eq_true_eq] at h1 h2
        rw [h1.2.2, Option.some.injEq] at h2
        exact hab h2.2.2

example : choseExamples [1, 0, 1, 2, 0, 1] [0, 1] 2 = .ok [1, 4, 0, 2] ∧
    choseExamples [1, 0, 1, 2, 0, 1] [0, 2] 2 = .error .valueError := by
  constructor <;> decide +kernel

/-! ## C48: confusion matrix -/

theorem foldl_write (idx : List (ℕ × ℕ)) (v : ℚ) (c : ℕ → ℕ → ℚ) (i j : ℕ) :
    ((idx.map fun p => (p, v)).foldl
      (fun c q => fun i j => if i = q.1.1 ∧ j = q.1.2 then q.2 else c i j) c) i j =
      if (i, j) ∈ idx then v else c i j := by
  induction idx generalizing c with
  | nil => simp
  | cons p idx ih =>
    rw [List.map_cons, List.foldl_cons, ih]
    by_cases h : (i, j) ∈ idx
    · simp [h]
    · rw [if_neg h]
      obtain ⟨a, b⟩ := p
      simp [h]

theorem confusion_eq (true_ found : List ℤ) (n : ℕ) (hlen : true_.length = found.length)
    (h : ∀ p ∈ true_.zip found, (0 ≤ p.1 ∧ p.1 < n) ∧ 0 ≤ p.2 ∧ p.2 < n) :
    ∃ conf, foundLabelsToConfusion true_ found n = .ok conf ∧
      ∀ i j : ℕ, conf i j = if ((i : ℤ), (j : ℤ)) ∈ true_.zip found then 1 else 0 := by
  have hbr : broadcast true_ found = some (true_.zip found) := by
    match true_, found, hlen with
    | [], [], _ => rfl
    | [x], [y], _ => rfl
    | x :: x' :: xs, y :: y' :: ys, hlen =>
      unfold broadcast
      simp only []
      rw [if_pos hlen]
  unfold foundLabelsToConfusion incrementAt
  rw [hbr]
  simp only []
  rw [mapM_ok _ (fun p : ℤ × ℤ => (p.1.toNat, p.2.toNat))]
  · refine ⟨_, rfl, ?_⟩
    intro i j
    set idx := (true_.zip found).map fun p : ℤ × ℤ => (p.1.toNat, p.2.toNat) with hidx
    have hz : idx.zip (idx.map fun _ => (0 : ℚ) + 1) = idx.map fun p => (p, (0 : ℚ) + 1) := by
      rw [List.zip_map_right, ← List.zip_map_right]
      clear hidx
      induction idx with
      | nil => rfl
      | cons p idx ih => simp only [List.map_cons, List.zip_cons_cons, ih]
    rw [hz, foldl_write]
    have hmem : (i, j) ∈ idx ↔ ((i : ℤ), (j : ℤ)) ∈ true_.zip found := by
      rw [hidx, List.mem_map]
      constructor
      · rintro ⟨⟨a, b⟩, hab, e⟩
        have := h _ hab
        simp only [Prod.mk.injEq] at e this
        have ha : a = i := by omega
        have hb : b = j := by omega
        rw [← ha, ← hb]; exact hab
      · intro hab
        exact ⟨_, hab, by simp⟩
    by_cases hm : (i, j) ∈ idx
    · rw [if_pos hm, if_pos (hmem.mp hm)]; norm_num
    · rw [if_neg hm, if_neg (fun e => hm (hmem.mpr e))]
  · rintro ⟨a, b⟩ hp
    have := h _ hp
    simp only at this
    have h1 : pyIndex n a = some a.toNat := by
      unfold pyIndex; rw [if_pos (by omega), if_pos (by omega)]
    have h2 : pyIndex n b = some b.toNat := by
      unfold pyIndex; rw [if_pos (by omega), if_pos (by omega)]
    simp only [h1, h2]

/-- **C48, partial.** The confusion matrix counts the positions where the true label is `i` and the
found label is `j` *provided no pair of labels occurs twice*.  What is missing: the claim for
repeated pairs, which is false (`C48_confusion_not_counting`). -/
theorem C48_confusion_partial (true_ found : List ℤ) (n : ℕ) (hlen : true_.length = found.length)
    (h : ∀ p ∈ true_.zip found, (0 ≤ p.1 ∧ p.1 < n) ∧ 0 ≤ p.2 ∧ p.2 < n)
    (hnd : (true_.zip found).Nodup) :
    ∃ conf, foundLabelsToConfusion true_ found n = .ok conf ∧
      ∀ i j : ℕ, conf i j = ((true_.zip found).count ((i : ℤ), (j : ℤ)) : ℚ) := by
  obtain ⟨conf, h1, h2⟩ := confusion_eq true_ found n hlen h
  refine ⟨conf, h1, ?_⟩
  intro i j
  rw [h2, hnd.count]
  split_ifs <;> simp

/-- **C48, what is computed.** An entry tells whether the pair of labels occurs, not how often. -/
theorem C48_confusion_indicator (true_ found : List ℤ) (n : ℕ)
    (hlen : true_.length = found.length)
    (h : ∀ p ∈ true_.zip found, (0 ≤ p.1 ∧ p.1 < n) ∧ 0 ≤ p.2 ∧ p.2 < n) :
    ∃ conf, foundLabelsToConfusion true_ found n = .ok conf ∧
      ∀ i j : ℕ, (((i : ℤ), (j : ℤ)) ∈ true_.zip found → conf i j = 1) ∧
        (((i : ℤ), (j : ℤ)) ∉ true_.zip found → conf i j = 0) := by
  obtain ⟨conf, h1, h2⟩ := confusion_eq true_ found n hlen h
  refine ⟨conf, h1, fun i j => ⟨fun hm => ?_, fun hm => ?_⟩⟩
  · rw [h2, if_pos hm]
  · rw [h2, if_neg hm]

/-- **C48, negation.** As soon as a pair of labels occurs twice the documented count is wrong; and
there are such inputs. -/
theorem C48_confusion_not_counting :
    (∀ (true_ found : List ℤ) (n i j : ℕ), true_.length = found.length →
      (∀ p ∈ true_.zip found, (0 ≤ p.1 ∧ p.1 < n) ∧ 0 ≤ p.2 ∧ p.2 < n) →
      2 ≤ (true_.zip found).count ((i : ℤ), (j : ℤ)) →
      ∃ conf, foundLabelsToConfusion true_ found n = .ok conf ∧
        conf i j ≠ ((true_.zip found).count ((i : ℤ), (j : ℤ)) : ℚ)) ∧
    ∃ (true_ found : List ℤ) (n : ℕ) (conf : ℕ → ℕ → ℚ),
      foundLabelsToConfusion true_ found n = .ok conf ∧
      (true_.zip found).count (0, 1) = 2 ∧ conf 0 1 = 1 := by
  constructor
  · intro true_ found n i j hlen h h2
    obtain ⟨conf, h1, hc⟩ := confusion_eq true_ found n hlen h
    refine ⟨conf, h1, ?_⟩
    rw [hc, if_pos (List.count_pos_iff.mp (by omega))]
    intro e
    have : (true_.zip found).count ((i : ℤ), (j : ℤ)) = 1 := by exact_mod_cast e.symm
    omega
  · obtain ⟨conf, h1, hc⟩ := confusion_eq [0, 0] [1, 1] 2 rfl (by
      intro p hp
      simp at hp
      subst hp
      norm_num)
    refine ⟨[0, 0], [1, 1], 2, conf, h1, by decide, ?_⟩
    have := hc 0 1
    rw [this, if_pos (by decide)]

example : (∀ p ∈ ([0, 1, 1] : List ℤ).zip [1, 1, 0], (0 ≤ p.1 ∧ p.1 < (2 : ℕ)) ∧
      0 ≤ p.2 ∧ p.2 < (2 : ℕ)) ∧ (([0, 1, 1] : List ℤ).zip [1, 1, 0]).Nodup ∧
    (foundLabelsToConfusion [0, 1, 1] [1, 1, 0] 2).toOption.map (fun c => (c 0 0, c 0 1)) =
      some (0, 1) := by
  refine ⟨by decide, by decide, by decide +kernel⟩

/-! ## C49: recognition given the number of labels -/

/-- Contract of `argsort` on the opposite of the scores: a permutation of the positions such that
scores do not increase.  Ties are in any order. -/
def IsArgsort (scores : List ℚ) (idx : List ℕ) : Prop :=
  idx.Perm (List.range scores.length) ∧
    idx.Pairwise fun i j => scores.getD j 0 ≤ scores.getD i 0

/-- **C49.** Recognition given the number of labels, for a binary vector of true labels and every
valid sorting order: the row is recognised iff the selected (first in the sorting order) labels, as
many as there are true ones, are the true labels.  It is if every true label scores strictly above
every false one; it is not if some false one scores strictly above a true one. -/
theorem C49_given_nb (scores : List ℚ) (trueVect : List ℤ) (idx : List ℕ)
    (hlen : scores.length = trueVect.length) (hbin : ∀ x ∈ trueVect, x = 0 ∨ x = 1)
    (hidx : IsArgsort scores idx) :
    (compareGivenNb idx trueVect = true ↔
      ∀ j, j ∈ idx.take (trueVect.count 1) ↔ trueVect[j]? = some 1) ∧
    ((∀ i j, trueVect[i]? = some 1 → trueVect[j]? = some 0 → scores.getD j 0 < scores.getD i 0) →
      compareGivenNb idx trueVect = true) ∧
    ((∃ i j, trueVect[i]? = some 1 ∧ trueVect[j]? = some 0 ∧ scores.getD i 0 < scores.getD j 0) →
      compareGivenNb idx trueVect = false) := by
  have hsum : trueVect.sum = ((trueVect.count 1 : ℕ) : ℤ) := by
    clear hlen
    induction trueVect with
    | nil => simp
    | cons x l ih =>
      rw [List.sum_cons, ih fun y hy => hbin y (List.mem_cons_of_mem _ hy)]
      rcases hbin x List.mem_cons_self with rfl | rfl
      · simp
      · simp [add_comm]
  set k := trueVect.count 1 with hk
  have hnd : idx.Nodup := hidx.1.nodup_iff.mpr List.nodup_range
  have hil : idx.length = trueVect.length := by rw [hidx.1.length_eq, List.length_range, hlen]
  have hup : pyUpto idx (k : ℤ) = idx.take k := by
    unfold pyUpto
    rw [pyBound_nonneg (by omega), Int.toNat_natCast]
    rcases le_total idx.length k with h | h
    · rw [min_eq_right h, List.take_of_length_le h, List.take_of_length_le le_rfl]
    · rw [min_eq_left h]
  have hmain : compareGivenNb idx trueVect = true ↔
      ∀ j, j ∈ idx.take k ↔ trueVect[j]? = some 1 := by
    unfold compareGivenNb
    simp only [decide_eq_true_eq]
    rw [hsum, hup]
    have hcnt : ∀ j, (idx.take k).count j = if j ∈ idx.take k then 1 else 0 := fun j =>
      (List.Nodup.sublist (List.take_sublist _ _) hnd).count
    constructor
    · intro h j
      have hj := congrArg (fun l : List ℤ => l[j]?) h
      simp only [List.getElem?_map] at hj
      rcases lt_or_ge j trueVect.length with hlt | hge
      · rw [List.getElem?_range hlt, Option.map_some, hcnt] at hj
        rw [← hj]
        split_ifs with hm <;> simp [hm]
      · rw [List.getElem?_eq_none_iff.mpr hge]
        simp only [reduceCtorEq, iff_false]
        intro hm
        have := hidx.1.mem_iff.mp (List.mem_of_mem_take hm)
        rw [List.mem_range] at this
        omega
    · intro h
      apply List.ext_getElem
      · simp
      · intro j h1 h2
        rw [List.getElem_map, List.getElem_range, hcnt]
        have hj := h j
        rw [List.getElem?_eq_getElem h2, Option.some.injEq] at hj
        split_ifs with hm
        · rw [hj.1 hm]; rfl
        · rcases hbin _ (List.getElem_mem h2) with e | e
          · rw [e]; rfl
          · exact absurd (hj.2 e) hm
  have hkle : k ≤ trueVect.length := List.count_le_length
  have htake_len : (idx.take k).length = k := by rw [List.length_take, hil, min_eq_left hkle]
  -- positions of the true labels
  set T := (List.range trueVect.length).filter fun j => decide (trueVect[j]? = some 1) with hT
  have hTmem : ∀ j, j ∈ T ↔ trueVect[j]? = some 1 := by
    intro j
    rw [hT, List.mem_filter, List.mem_range, decide_eq_true_eq]
    constructor
    · exact fun h => h.2
    · intro h; exact ⟨(List.getElem?_eq_some_iff.mp h).1, h⟩
  have hTnd : T.Nodup := List.Nodup.filter _ List.nodup_range
  have hTlen : T.length = k := by
    rw [hT, ← List.countP_eq_length_filter, hk, List.count]
    have : trueVect.map some = (List.range trueVect.length).map fun i => trueVect[i]? := by
      apply List.ext_getElem
      · simp
      · intro i h1 h2
        simp at h1
        simp [h1]
    have e : trueVect.countP (fun x => x == 1) = (trueVect.map some).countP
        (fun o => decide (o = some 1)) := by
      rw [List.countP_map]
      apply List.countP_congr
      intro x _
      simp
    rw [e, this, List.countP_map]
    rfl
  have hsep : ∀ a ∈ idx.take k, ∀ b, b < trueVect.length → b ∉ idx.take k →
      scores.getD b 0 ≤ scores.getD a 0 := by
    intro a ha b hb hnb
    have hbm : b ∈ idx := hidx.1.mem_iff.mpr (List.mem_range.mpr (by omega))
    rw [← List.take_append_drop k idx, List.mem_append] at hbm
    have hbd : b ∈ idx.drop k := hbm.resolve_left hnb
    have hp := hidx.2
    rw [← List.take_append_drop k idx, List.pairwise_append] at hp
    exact hp.2.2 a ha b hbd
  refine ⟨hmain, ?_, ?_⟩
  · intro hgood
    rw [hmain]
    -- all true labels are selected
    have hsub : T ⊆ idx.take k := by
      intro i hi
      by_contra hni
      -- some selected label is false
      have : ∃ j ∈ idx.take k, j ∉ T := by
        by_contra hall
        push Not at hall
        have h1 : (i :: idx.take k).Nodup := List.nodup_cons.mpr
          ⟨hni, List.Nodup.sublist (List.take_sublist _ _) hnd⟩
        have h2 : (i :: idx.take k) ⊆ T := by
          intro x hx
          rcases List.mem_cons.mp hx with rfl | hx
          · exact hi
          · exact hall x hx
        have := (List.subperm_of_subset h1 h2).length_le
        rw [List.length_cons, htake_len, hTlen] at this
        omega
      obtain ⟨j, hj1, hj2⟩ := this
      have hjlt : j < trueVect.length := by
        have := hidx.1.mem_iff.mp (List.mem_of_mem_take hj1)
        rw [List.mem_range] at this; omega
      have hj0 : trueVect[j]? = some 0 := by
        rw [List.getElem?_eq_getElem hjlt]
        rcases hbin _ (List.getElem_mem hjlt) with e | e
        · rw [e]
        · exact absurd ((hTmem j).2 (by rw [List.getElem?_eq_getElem hjlt, e])) hj2
      have hi1 := (hTmem i).1 hi
      have := hsep j hj1 i (List.getElem?_eq_some_iff.mp hi1).1 hni
      exact absurd (hgood i j hi1 hj0) (not_lt.mpr this)
    have hperm : T.Perm (idx.take k) := by
      refine (List.subperm_of_subset hTnd hsub).perm_of_length_le ?_
      rw [htake_len, hTlen]
    intro j
    rw [← hperm.mem_iff, hTmem]
  · rintro ⟨i, j, hi, hj, hlt⟩
    rw [← Bool.not_eq_true, hmain]
    intro h
    have h1 := (h i).2 hi
    have h2 : j ∉ idx.take k := by
      rw [h j, hj]; simp
    exact absurd hlt (not_lt.mpr (hsep i h1 j (List.getElem?_eq_some_iff.mp hj).1 h2))

/-- Two true labels among four, recognised and not. -/
example : IsArgsort [1 / 2, 3, 1 / 4, 2] [1, 3, 0, 2] ∧
    compareGivenNb [1, 3, 0, 2] [0, 1, 0, 1] = true ∧
    compareGivenNb [1, 3, 0, 2] [1, 1, 0, 0] = false := by
  refine ⟨⟨by decide, by decide +kernel⟩, by decide +kernel, by decide +kernel⟩

/-! ## C50: thresholds and best activations -/

/-- **C50.** Recognition by threshold: exactly the true labels score at least the threshold. -/
theorem C50_threshold (scores : List ℚ) (trueVect : List ℤ) (threshold : ℚ)
    (hlen : scores.length = trueVect.length) (hbin : ∀ x ∈ trueVect, x = 0 ∨ x = 1) :
    compareThreshold scores trueVect threshold = true ↔
      ∀ (j : ℕ) (s : ℚ), scores[j]? = some s → (threshold ≤ s ↔ trueVect[j]? = some 1) := by
  unfold compareThreshold
  rw [List.all_eq_true]
  constructor
  · intro h j s hs
    have hj : j < trueVect.length := by
      rw [← hlen]; exact (List.getElem?_eq_some_iff.mp hs).1
    have := h (s, trueVect[j]) (by
      rw [List.mem_iff_getElem?]
      exact ⟨j, by rw [List.getElem?_zip_eq_some]; exact ⟨hs, List.getElem?_eq_getElem hj⟩⟩)
    rw [decide_eq_true_eq] at this
    simp only at this
    rw [List.getElem?_eq_getElem hj, Option.some.injEq, ← this]
    by_cases hts : threshold ≤ s
    · simp [hts]
    · simp [hts]
  · rintro h ⟨s, x⟩ hp
    obtain ⟨j, hj⟩ := List.mem_iff_getElem?.mp hp
    rw [List.getElem?_zip_eq_some] at hj
    have := h j s hj.1
    rw [hj.2, Option.some.injEq] at this
    rw [decide_eq_true_eq]
    by_cases hts : threshold ≤ s
    · simp only [ge_iff_le, hts, if_true]
      exact (this.1 hts).symm
    · simp only [ge_iff_le, hts, if_false]
      rcases hbin x (List.of_mem_zip hp).2 with e | e
      · exact e.symm
      · exact absurd (this.2 e) hts

/-- Specification: `m` is the position of the first maximum of the row. -/
def IsFirstMax (row : List ℚ) (m : ℕ) : Prop :=
  ∃ x, row[m]? = some x ∧ (∀ y ∈ row, y ≤ x) ∧ ∀ k y, k < m → row[k]? = some y → y < x

theorem argMax_spec (row : List ℚ) (h : row ≠ []) : ∃ m, argMax row = .ok m ∧ IsFirstMax row m := by
  obtain ⟨m, h1, x, h2, h3, h4⟩ := argMin_spec (row.map (- ·)) (by simpa using h)
  refine ⟨m, h1, ?_⟩
  rw [List.getElem?_map, Option.map_eq_some_iff] at h2
  obtain ⟨y, hy, rfl⟩ := h2
  refine ⟨y, hy, ?_, ?_⟩
  · intro z hz
    have := h3 (-z) (List.mem_map.mpr ⟨z, hz, rfl⟩)
    linarith
  · intro k z hk hz
    have := h4 k (-z) hk (by rw [List.getElem?_map, hz]; rfl)
    linarith

/-- **C50.** Evaluation of best activations: assertion error when the numbers of rows and labels
differ; otherwise the proportion of rows whose first maximal activation is at the true label. -/
theorem C50_evaluate_label_reco (nCols : ℕ) (recoActi : List (List ℚ)) (labels : List ℤ)
    (hn : 0 < nCols) (hrows : ∀ r ∈ recoActi, r.length = nCols) :
    (recoActi.length ≠ labels.length →
      evaluateLabelReco nCols recoActi labels = .error .assertionError) ∧
    (recoActi.length = labels.length → labels ≠ [] →
      ∃ (best : List ℕ) (s : ℚ), best.length = labels.length ∧
        (∀ (i : ℕ) (r : List ℚ) (m : ℕ), recoActi[i]? = some r → best[i]? = some m →
          IsFirstMax r m) ∧
        evaluateLabelReco nCols recoActi labels = .ok (some s) ∧
        s * labels.length = ((List.range labels.length).countP fun i =>
          decide ((best[i]?).map (fun (k : ℕ) => (k : ℤ)) = labels[i]?) : ℕ)) := by
  obtain ⟨best, h1, h2⟩ := mapM_forall₂ argMax IsFirstMax recoActi (by
    intro r hr
    apply argMax_spec
    intro e
    have := hrows r hr
    rw [e] at this
    simp at this
    omega)
  unfold evaluateLabelReco
  rw [if_neg (by omega), h1]
  simp only [bind, Except.bind]
  constructor
  · intro hne
    rw [if_neg (by rw [← h2.length_eq]; exact hne)]
  · intro heq hne
    have hbl : best.length = labels.length := by rw [← h2.length_eq]; exact heq
    rw [if_pos hbl]
    have hz : ((best.zip labels).map fun p => decide ((p.1 : ℤ) = p.2)) =
        (((best.map fun (k : ℕ) => (k : ℤ)).zip labels).map fun p => decide (p.1 = p.2)) := by
      rw [List.zip_map_left, List.map_map]
      rfl
    obtain ⟨s, s1, s2, _⟩ := C46_score labels (best.map fun (k : ℕ) => (k : ℤ))
      (by rw [List.length_map, hbl]) hne
    refine ⟨best, s, hbl, fun i r m hr hm => forall₂_getElem? h2 hr hm, ?_, ?_⟩
    · rw [hz]
      unfold foundLabelsToScore at s1
      rw [s1]
    · rw [s2]
      congr 1
      apply List.countP_congr
      intro i _
      rw [List.getElem?_map]

example : compareThreshold [1, 3, 2] [0, 1, 1] 2 = true ∧
    compareThreshold [1, 3, 2] [0, 1, 0] 2 = false ∧
    evaluateLabelReco 2 [[1, 3], [2, 2], [0, 1]] [1, 1, 1] = .ok (some (2 / 3)) ∧
    evaluateLabelReco 2 [[1, 3], [2, 2]] [1, 1, 1] = .error .assertionError := by
  refine ⟨?_, ?_, ?_, ?_⟩ <;> decide +kernel

end Verif.Evaluation
