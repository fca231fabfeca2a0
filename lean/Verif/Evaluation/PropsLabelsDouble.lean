import Verif.Evaluation.LabelsDouble
import Verif.Evaluation.Props
import Verif.Evaluation.PropsScores
import Verif.Evaluation.PropsKlDouble
import Verif.Evaluation.PropsCosine

/-!
# Recognition of labels with doubles (C205)

Examples with distances are in `ExamplesDouble.lean`.
-/

namespace Verif.Evaluation.D

open Verif Verif.Window

variable {L : Lib}

/-! ### Specification -/

/-- Position `m` has the first NaN, or else the first of the greatest values. -/
def FirstBest (row : List Flt) (m : ℕ) : Prop :=
  ∃ x, row[m]? = some x ∧
    ((x = .nan ∧ ∀ k y, k < m → row[k]? = some y → y ≠ .nan) ∨
      (x ≠ .nan ∧ (∀ y ∈ row, ge x y = true) ∧ ∀ k y, k < m → row[k]? = some y → ge y x = false))

/-- What `argsort` gives for the opposite of scores: a permutation of positions along which scores do not increase, with
NaN at the end; ties are in any order. -/
def IsArgsort (scores : List Flt) (idx : List ℕ) : Prop :=
  idx.Perm (List.range scores.length) ∧
    idx.Pairwise fun i j => scores.getD j .nan = .nan ∨ ge (scores.getD i .nan) (scores.getD j .nan) = true

/-- A score is above another one: it is larger, or the other one is NaN. -/
def Above (a b : Flt) : Prop := a ≠ .nan ∧ ge b a = false

/-! ### Lemmas -/

theorem ge_neg (a b : Flt) : ge (neg a) (neg b) = ge b a := by
  rcases a with x | s | _ <;> rcases b with y | t | _ <;> simp [ge, neg]
  cases s <;> cases t <;> rfl

theorem neg_nan {a : Flt} : neg a = .nan ↔ a = .nan := by
  rcases a with x | s | _ <;> simp [neg]

theorem argmax_spec (row : List Flt) (h : row ≠ []) : ∃ m, argmax row = .ok m ∧ FirstBest row m := by
  obtain ⟨m, x, h1, h2, h3⟩ := argmin_spec (row.map neg) (by simpa using h)
  rw [List.getElem?_map, Option.map_eq_some_iff] at h2
  obtain ⟨y, hy, rfl⟩ := h2
  refine ⟨m, h1, y, hy, ?_⟩
  have ht : ∀ (k : ℕ) z, k < m → row[k]? = some z → neg z ∈ (row.map neg).take m := by
    intro k z hk hz
    exact mem_take_of hk (by rw [List.getElem?_map, hz]; rfl)
  rcases h3 with ⟨h3, h4⟩ | ⟨h3, h4, h5⟩
  · exact .inl ⟨neg_nan.1 h3, fun k z hk hz e => h4 _ (ht k z hk hz) (neg_nan.2 e)⟩
  · refine .inr ⟨fun e => h3 (neg_nan.2 e), fun z hz => ?_, fun k z hk hz => ?_⟩
    · have := h4 _ (List.mem_map_of_mem hz)
      rwa [ge_neg] at this
    · have := h5 _ (ht k z hk hz)
      rwa [ge_neg] at this

/-- The first best position is unique. -/
theorem FirstBest.unique {row : List Flt} {m m' : ℕ} (h : FirstBest row m) (h' : FirstBest row m') : m = m' := by
  have key : ∀ {m m' : ℕ}, FirstBest row m → FirstBest row m' → ¬ m < m' := by
    rintro m m' ⟨x, hx, h⟩ ⟨y, hy, h'⟩ hlt
    rcases h' with ⟨rfl, h'⟩ | ⟨hn, h', h''⟩
    · rcases h with ⟨h, _⟩ | ⟨_, h, _⟩
      · exact h' m x hlt hx h
      · have := h _ (List.mem_of_getElem? hy)
        cases x <;> simp [ge] at this
    · have h1 := h'' m x hlt hx
      rcases h with ⟨rfl, _⟩ | ⟨_, h, _⟩
      · have := h' _ (List.mem_of_getElem? hx)
        cases y <;> simp [ge] at this
      · rw [h y (List.mem_of_getElem? hy)] at h1
        cases h1
  rcases lt_trichotomy m m' with hlt | e | hlt
  · exact absurd hlt (key h h')
  · exact e
  · exact absurd hlt (key h' h)

/-- An order preserving map to numbers, with NaN below all. -/
def rank : Flt → ℚ
  | .fin x => x / (1 + |x|)
  | .inf s => if s then -1 else 1
  | .nan => -2

theorem frac_lt (x : ℚ) : -1 < x / (1 + |x|) ∧ x / (1 + |x|) < 1 := by
  have h : 0 < 1 + |x| := by positivity
  rw [lt_div_iff₀ h, div_lt_iff₀ h]
  constructor <;> [have := neg_abs_le x; have := le_abs_self x] <;> linarith

theorem frac_le {x y : ℚ} : x / (1 + |x|) ≤ y / (1 + |y|) ↔ x ≤ y := by
  have hx : 0 < 1 + |x| := by positivity
  have hy : 0 < 1 + |y| := by positivity
  rw [div_le_div_iff₀ hx hy]
  rcases le_total 0 x with h0 | h0 <;> rcases le_total 0 y with h1 | h1
  · rw [abs_of_nonneg h0, abs_of_nonneg h1]
    constructor <;> intro h <;> linarith
  · rw [abs_of_nonneg h0, abs_of_nonpos h1]
    constructor
    · intro h
      nlinarith [mul_nonneg h0 (neg_nonneg.2 h1)]
    · intro h
      have : x = 0 := by linarith
      have : y = 0 := by linarith
      simp [*]
  · rw [abs_of_nonpos h0, abs_of_nonneg h1]
    constructor
    · intro _
      exact h0.trans h1
    · intro _
      nlinarith [mul_nonneg (neg_nonneg.2 h0) h1]
  · rw [abs_of_nonpos h0, abs_of_nonpos h1]
    constructor <;> intro h <;> linarith

theorem rank_le {a b : Flt} : rank b ≤ rank a ↔ b = .nan ∨ ge a b = true := by
  rcases a with x | s | _ <;> rcases b with y | t | _
  · simp only [rank, ge, frac_le]
    simp
  · obtain ⟨h1, h2⟩ := frac_lt x
    cases t <;> simp [rank, ge] <;> linarith
  · obtain ⟨h1, _⟩ := frac_lt x
    simp [rank]
    linarith
  · obtain ⟨h1, h2⟩ := frac_lt y
    cases s <;> simp [rank, ge] <;> linarith
  · cases s <;> cases t <;> simp [rank, ge] <;> norm_num
  · cases s <;> simp [rank] <;> norm_num
  · obtain ⟨h1, _⟩ := frac_lt y
    simp [rank, ge]
    linarith
  · cases t <;> simp [rank, ge] <;> norm_num
  · simp [rank]

theorem rank_lt {a b : Flt} : rank b < rank a ↔ Above a b := by
  rw [← not_le, rank_le, not_or, Bool.not_eq_true]
  exact Iff.rfl

theorem getD_rank {scores : List Flt} {i : ℕ} (h : i < scores.length) :
    (scores.map rank).getD i 0 = rank (scores.getD i .nan) := by
  simp [List.getD_eq_getElem?_getD, List.getElem?_eq_getElem h]

theorem isArgsort_rank {scores : List Flt} {idx : List ℕ} (h : IsArgsort scores idx) :
    Evaluation.IsArgsort (scores.map rank) idx := by
  refine ⟨by simpa using h.1, ?_⟩
  have hlt : ∀ i ∈ idx, i < scores.length := fun i hi => List.mem_range.1 (h.1.mem_iff.1 hi)
  refine h.2.imp_of_mem fun {i j} hi hj hij => ?_
  rw [getD_rank (hlt i hi), getD_rank (hlt j hj), rank_le]
  exact hij

/-- The average of booleans is the double nearest to the fraction of those which are true. -/
theorem average_eq (l : List Bool) (hl : l ≠ []) (hmax : l.length ≤ 2 ^ 53) :
    average l = .fin (dbl ((l.countP id : ℕ) / l.length)) := by
  have hs := C202_score (List.replicate l.length true) l (by simpa using hmax)
  have hz : ∀ l : List Bool, (l.zip (List.replicate l.length true)).map (fun p => decide (p.1 = p.2)) = l := by
    intro l
    induction l with
    | nil => rfl
    | cons b l ih => rw [List.length_cons, List.replicate_succ, List.zip_cons_cons, List.map_cons, ih]; cases b <;> rfl
  have ha : ∀ l : List Bool, agreements (List.replicate l.length true) l = l.countP id := by
    intro l
    induction l with
    | nil => rfl
    | cons b l ih =>
      rw [List.length_cons, List.replicate_succ, agreements, ih, List.countP_cons, Nat.add_comm]
      cases b <;> rfl
  unfold foundLabelsToScore at hs
  rw [hz, ha] at hs
  rw [hs]
  have : min (List.replicate l.length true).length l.length = l.length := by simp
  rw [this, if_neg (by simpa using hl)]

/-! ### Theorems -/

/-- **C205.** `evaluate_label_reco`: for each row the best activation is the first NaN, or else the first of the greatest
ones; the score is the double nearest to the fraction of rows whose best activation is that of their label, and NaN
without rows. -/
theorem C205_label_reco (nCols : ℕ) (recoActi : List (List Flt)) (labels : List ℤ) (hn : 0 < nCols)
    (hrows : ∀ r ∈ recoActi, r.length = nCols) (hlen : labels.length ≤ 2 ^ 53) :
    (recoActi.length ≠ labels.length → evaluateLabelReco nCols recoActi labels = .error .assertionError) ∧
    (recoActi.length = labels.length → ∃ best : List ℕ, List.Forall₂ FirstBest recoActi best ∧
      evaluateLabelReco nCols recoActi labels = .ok (if labels = [] then .nan else
        .fin (dbl (agreements labels (best.map fun (k : ℕ) => (k : ℤ)) / labels.length)))) := by
  have hall : ∀ r ∈ recoActi, ∃ m, argmax r = .ok m ∧ FirstBest r m := by
    intro r hr
    apply argmax_spec
    rintro rfl
    have := hrows _ hr
    simp at this
    omega
  obtain ⟨best, h1, h2⟩ : ∃ best, recoActi.mapM argmax = .ok best ∧ List.Forall₂ FirstBest recoActi best := by
    clear hrows
    induction recoActi with
    | nil => exact ⟨[], rfl, .nil⟩
    | cons r l ih =>
      obtain ⟨m, hm1, hm2⟩ := hall r (by simp)
      obtain ⟨best, h1, h2⟩ := ih fun r hr => hall r (by simp [hr])
      exact ⟨m :: best, by rw [List.mapM_cons, hm1, h1]; rfl, .cons hm2 h2⟩
  have hlen' := h2.length_eq
  unfold evaluateLabelReco
  rw [if_neg hn.ne', h1]
  simp only [bind, Except.bind]
  constructor
  · intro hne
    rw [if_neg (by omega)]
  · intro he
    refine ⟨best, h2, ?_⟩
    rw [if_pos (by omega)]
    have hz : (best.zip labels).map (fun p => decide ((p.1 : ℤ) = p.2)) =
        ((best.map fun (k : ℕ) => (k : ℤ)).zip labels).map fun p => decide (p.1 = p.2) := by
      rw [List.zip_map_left, List.map_map]
      rfl
    rw [hz]
    have hs := C202_score labels (best.map fun (k : ℕ) => (k : ℤ)) (by simp; omega)
    unfold foundLabelsToScore at hs
    rw [hs]
    have hmin : min labels.length (best.map fun (k : ℕ) => (k : ℤ)).length = labels.length := by simp; omega
    rw [hmin]
    simp only [List.length_eq_zero_iff]
    rfl

/-- **C205.** `compare_labels_threshold`: a row is recognised exactly when the true labels are those whose activation is
not NaN and is at least the threshold; NaN is never recognised, and with the threshold NaN no label is. -/
theorem C205_threshold (scores : List Flt) (trueVect : List ℤ) (threshold : Flt) (hlen : scores.length = trueVect.length)
    (hbin : ∀ x ∈ trueVect, x = 0 ∨ x = 1) :
    compareThreshold scores trueVect threshold = true ↔
      ∀ (j : ℕ) s, scores[j]? = some s → (trueVect[j]? = some 1 ↔ s ≠ .nan ∧ threshold ≠ .nan ∧ ge s threshold = true) := by
  have hge : ∀ s, (s ≠ .nan ∧ threshold ≠ .nan ∧ ge s threshold = true) ↔ ge s threshold = true := by
    intro s
    refine ⟨fun h => h.2.2, fun h => ⟨?_, ?_, h⟩⟩
    · rintro rfl
      simp [ge] at h
    · rintro rfl
      cases s <;> simp [ge] at h
  simp only [hge]
  unfold compareThreshold
  rw [List.all_eq_true]
  constructor
  · intro h j s hs
    have hj : j < trueVect.length := by
      rw [← hlen]; exact (List.getElem?_eq_some_iff.mp hs).1
    have := h (s, trueVect[j]) (by
      rw [List.mem_iff_getElem?]
      exact ⟨j, by rw [List.getElem?_zip_eq_some]; exact ⟨hs, List.getElem?_eq_getElem hj⟩⟩)
    rw [decide_eq_true_eq] at this
    simp only at this
    rw [List.getElem?_eq_getElem hj, Option.some.injEq, ← this]
    split_ifs with hg <;> simp [hg]
  · rintro h ⟨s, v⟩ hp
    obtain ⟨j, hj⟩ := List.mem_iff_getElem?.1 hp
    rw [List.getElem?_zip_eq_some] at hj
    have h1 := h j s hj.1
    rw [hj.2, Option.some.injEq] at h1
    rw [decide_eq_true_eq]
    rcases hbin v (List.mem_of_getElem? hj.2) with hv | hv
    · rw [if_neg]
      · exact hv.symm
      · intro hg
        have := h1.2 hg
        simp only at hv this
        omega
    · rw [if_pos (h1.1 hv)]
      exact hv.symm

/-- **C205.** `score_labels_threshold`: the double nearest to the fraction of rows which are recognised. -/
theorem C205_threshold_score (scores : List (List Flt)) (trueVects : List (List ℤ)) (threshold : Flt)
    (hlen : scores.length = trueVects.length) (h0 : trueVects ≠ []) (hmax : trueVects.length ≤ 2 ^ 53) :
    scoreThreshold scores trueVects threshold = .fin (dbl (((scores.zip trueVects).countP fun p =>
      compareThreshold p.1 p.2 threshold : ℕ) / trueVects.length)) := by
  unfold scoreThreshold
  have hl : ((scores.zip trueVects).map fun p => compareThreshold p.1 p.2 threshold).length = trueVects.length := by
    simp
    omega
  rw [average_eq _ (by
    intro e
    rw [e] at hl
    exact h0 (List.length_eq_zero_iff.1 hl.symm)) (by omega), hl, List.countP_map]
  rfl

/-- **C205.** `compare_labels_given_nb`, for whichever order of ties: a row is recognised when each true label is above
each false one, and is not when a false label is above a true one; a label whose activation is NaN is below all others. -/
theorem C205_given_nb (scores : List Flt) (trueVect : List ℤ) (idx : List ℕ) (hlen : scores.length = trueVect.length)
    (hbin : ∀ x ∈ trueVect, x = 0 ∨ x = 1) (hidx : IsArgsort scores idx) :
    (compareGivenNb idx trueVect = true ↔ ∀ j, j ∈ idx.take (trueVect.count 1) ↔ trueVect[j]? = some 1) ∧
    ((∀ (i j : ℕ) s t, trueVect[i]? = some 1 → trueVect[j]? = some 0 → scores[i]? = some s → scores[j]? = some t →
      Above s t) → compareGivenNb idx trueVect = true) ∧
    ((∃ (i j : ℕ) (s t : Flt), trueVect[i]? = some 1 ∧ trueVect[j]? = some 0 ∧ scores[i]? = some s ∧ scores[j]? = some t ∧
      Above t s) → compareGivenNb idx trueVect = false) := by
  obtain ⟨h1, h2, h3⟩ := C49_given_nb (scores.map rank) trueVect idx (by simpa using hlen) hbin (isArgsort_rank hidx)
  have hlt : ∀ (i : ℕ) v, trueVect[i]? = some v → i < scores.length := by
    intro i v h
    rw [hlen]
    exact (List.getElem?_eq_some_iff.1 h).1
  have hD : ∀ {i : ℕ} (h : i < scores.length), scores.getD i .nan = scores[i] := fun h => by
    simp [List.getD_eq_getElem?_getD, List.getElem?_eq_getElem h]
  refine ⟨h1, fun h => h2 fun i j hi hj => ?_, ?_⟩
  · have hi' := hlt i _ hi
    have hj' := hlt j _ hj
    rw [getD_rank hi', getD_rank hj', rank_lt, hD hi', hD hj']
    exact h i j _ _ hi hj (List.getElem?_eq_getElem hi') (List.getElem?_eq_getElem hj')
  · rintro ⟨i, j, s, t, hi, hj, hs, ht, h⟩
    refine h3 ⟨i, j, hi, hj, ?_⟩
    have hi' := hlt i _ hi
    have hj' := hlt j _ hj
    rw [getD_rank hi', getD_rank hj', rank_lt, hD hi', hD hj']
    rw [List.getElem?_eq_getElem hi', Option.some.injEq] at hs
    rw [List.getElem?_eq_getElem hj', Option.some.injEq] at ht
    rw [hs, ht]
    exact h

/-- **C205.** `score_labels_given_nb`: the double nearest to the fraction of rows which are recognised, and `ValueError`
without rows. -/
theorem C205_given_nb_score (idx : List (List ℕ)) (trueVects : List (List ℤ)) (hlen : idx.length = trueVects.length)
    (hmax : trueVects.length ≤ 2 ^ 53) :
    scoreGivenNb idx trueVects = if trueVects = [] then .error .valueError else
      .ok (.fin (dbl (((idx.zip trueVects).countP fun p => compareGivenNb p.1 p.2 : ℕ) / trueVects.length))) := by
  unfold scoreGivenNb
  by_cases h0 : trueVects = []
  · rw [if_pos h0, if_pos h0]
  · rw [if_neg h0, if_neg h0]
    have hl : ((idx.zip trueVects).map fun p => compareGivenNb p.1 p.2).length = trueVects.length := by
      simp
      omega
    rw [average_eq _ (by
      intro e
      rw [e] at hl
      exact h0 (List.length_eq_zero_iff.1 hl.symm)) (by omega), hl, List.countP_map]
    rfl

/-- **C205.** `evaluate_NN_label` is the score of the labels found by `classify_NN`. -/
theorem C205_evaluate_NN {α : Type} [DecidableEq α] (reco test : List Row) (trueLabels testLabels : List α)
    (measure : ℕ → ℕ → Row → Row → Flt) :
    evaluateNNLabel reco test trueLabels testLabels measure =
      (classifyNN reco test testLabels measure).map fun found => foundLabelsToScore trueLabels found := by
  unfold evaluateNNLabel scoresFromDists classifyNN distsToFoundLabels foundLabelsToScore
  simp only [bind, Except.bind, Except.map]
  cases argminRows test.length (allDistances reco test measure) with
  | error e => rfl
  | ok ms => cases ms.mapM fun m : ℕ => pyGet testLabels (m : ℤ) <;> rfl

theorem agreements_self {α : Type} [DecidableEq α] : ∀ l : List α, agreements l l = l.length
  | [] => rfl
  | a :: l => by rw [agreements, agreements_self l, if_pos rfl, List.length_cons, Nat.add_comm]

/-- The score of labels which are all found. -/
theorem score_perfect {α : Type} [DecidableEq α] {l : List α} (h0 : l ≠ []) (h : l.length ≤ 2 ^ 53) :
    foundLabelsToScore l l = .fin 1 := by
  rw [C202_score l l (by simpa using h), min_self, if_neg (by simpa using h0), agreements_self]
  have : (l.length : ℚ) ≠ 0 := by
    have := List.length_pos_iff.2 h0
    positivity
  rw [div_self this]
  exact congrArg Flt.fin (dbl_of_double Verif.NMF.D.double_one)

/-- Each sample has its label. -/
theorem found_eq {α : Type} {reco : List Row} {test : List Row} {trueLabels testLabels found : List α}
    {measure : ℕ → ℕ → Row → Row → Flt} (hex : test ≠ []) (hl : testLabels.length = test.length)
    (hlen : reco.length = trueLabels.length) (hf : classifyNN reco test testLabels measure = .ok found)
    (h : ∀ (i : ℕ) r, reco[i]? = some r → found[i]? = trueLabels[i]?) : found = trueLabels := by
  obtain ⟨found', h1, h2, _⟩ := C199_found reco test testLabels measure hex hl
  rw [hf] at h1
  obtain rfl := Except.ok.inj h1
  apply List.ext_getElem?
  intro i
  by_cases hi : i < reco.length
  · exact h i _ (List.getElem?_eq_getElem hi)
  · rw [List.getElem?_eq_none (by omega), List.getElem?_eq_none (by omega)]

/-- **C205.** Whatever the measure, the score is the double nearest to the fraction of samples whose label is that of
the nearest example: the first at NaN, or else the first at the least distance. -/
theorem C205_nearest {α : Type} [DecidableEq α] (reco test : List Row) (trueLabels testLabels : List α)
    (measure : ℕ → ℕ → Row → Row → Flt) (hex : test ≠ []) (hl : testLabels.length = test.length)
    (hlen : reco.length = trueLabels.length) (h0 : reco ≠ []) (hmax : reco.length ≤ 2 ^ 53) :
    ∃ found : List α, found.length = reco.length ∧
      (∀ (i : ℕ) r, reco[i]? = some r → ∃ m, Nearest test (fun j e => measure i j r e) m ∧ found[i]? = testLabels[m]? ∧
        m < testLabels.length) ∧
      evaluateNNLabel reco test trueLabels testLabels measure =
        .ok (.fin (dbl (agreements trueLabels found / reco.length))) := by
  obtain ⟨found, h1, h2, h3⟩ := C199_found reco test testLabels measure hex hl
  refine ⟨found, h2, h3, ?_⟩
  rw [C205_evaluate_NN, h1]
  show Except.ok (foundLabelsToScore trueLabels found) = _
  have hm : min trueLabels.length found.length = reco.length := by omega
  rw [C202_score _ _ (by omega), hm, if_neg (by simpa using h0)]

theorem perfect {α : Type} [DecidableEq α] {reco test : List Row} {trueLabels testLabels : List α}
    {measure : ℕ → ℕ → Row → Row → Flt} (hl : testLabels.length = test.length) (hlen : reco.length = trueLabels.length)
    (h0 : reco ≠ []) (hmax : reco.length ≤ 2 ^ 53) (hex : test ≠ [])
    (h : ∀ found, classifyNN reco test testLabels measure = .ok found → ∀ (i : ℕ) r, reco[i]? = some r →
      found[i]? = trueLabels[i]?) :
    evaluateNNLabel reco test trueLabels testLabels measure = .ok (.fin 1) := by
  obtain ⟨found, h1, _, _⟩ := C199_found reco test testLabels measure hex hl
  rw [C205_evaluate_NN, h1, found_eq hex hl hlen h1 (h found h1)]
  show Except.ok (foundLabelsToScore trueLabels trueLabels) = _
  rw [score_perfect]
  · intro e
    rw [e] at hlen
    exact h0 (List.length_eq_zero_iff.1 hlen)
  · omega

/-- **C205.** With `frobenius`, the score is exactly 1 when each sample has an example of its label which is nearer, by
a little more than the error, than all examples with other labels. -/
theorem C205_frobenius {α : Type} [DecidableEq α] (hL : IsSqrt L.sq) {n : ℕ} (hn : n ≤ 2 ^ 50) {order : ℕ → ℕ → Tree}
    (ho : ∀ i j, (order i j).Adds n) {reco test : List Row} {trueLabels testLabels : List α} (hex : test ≠ [])
    (hl : testLabels.length = test.length) (hlen : reco.length = trueLabels.length) (h0 : reco ≠ [])
    (hmax : reco.length ≤ 2 ^ 53)
    (h : ∀ (i : ℕ) r, reco[i]? = some r → ∃ (c : ℕ) (e : Row) (x y : ℕ → ℚ), test[c]? = some e ∧
      testLabels[c]? = trueLabels[i]? ∧ Doubles n r x ∧ Doubles n e y ∧
      (∀ e' ∈ test, ∃ y', Doubles n e' y' ∧ Moderate n x y') ∧
      ∀ (j : ℕ) e' y', test[j]? = some e' → Doubles n e' y' → testLabels[j]? ≠ testLabels[c]? →
        (1 + (n + 4) / 2 ^ 52) * dist n x y < (1 - (n + 4) / 2 ^ 52) * dist n x y') :
    evaluateNNLabel reco test trueLabels testLabels (fun i j => frobenius L (order i j)) = .ok (.fin 1) := by
  refine perfect hl hlen h0 hmax hex fun found h1 i r hr => ?_
  obtain ⟨c, e, x, y, hc, hlab, hrx, hey, hmod, hfar⟩ := h i r hr
  rw [C199_nearest hL hn (order := order) ho hl h1 hr hrx hc hey hmod hfar, hlab]

/-- **C205.** The same with `cosine_diff`. -/
theorem C205_cosine {α : Type} [DecidableEq α] (hL : IsSqrt L.sq) {n : ℕ} (hn : n ≤ 2 ^ 48) {order : ℕ → ℕ → Tree}
    (ho : ∀ i j, (order i j).Adds n) {reco test : List Row} {trueLabels testLabels : List α} (hex : test ≠ [])
    (hl : testLabels.length = test.length) (hlen : reco.length = trueLabels.length) (h0 : reco ≠ [])
    (hmax : reco.length ≤ 2 ^ 53) (hmid : ∀ e' ∈ test, ∃ y', Doubles n e' y' ∧ Mid n y')
    (h : ∀ (i : ℕ) r, reco[i]? = some r → ∃ (c : ℕ) (e : Row) (x y : ℕ → ℚ), test[c]? = some e ∧
      testLabels[c]? = trueLabels[i]? ∧ Doubles n r x ∧ Mid n x ∧ Doubles n e y ∧
      ∀ (j : ℕ) e' y', test[j]? = some e' → Doubles n e' y' → testLabels[j]? ≠ testLabels[c]? →
        cosine n x y' + 2 * ((3 * n + 8) / 2 ^ 52) < cosine n x y) :
    evaluateNNLabel reco test trueLabels testLabels (fun i j => cosineDiff L (order i j)) = .ok (.fin 1) := by
  refine perfect hl hlen h0 hmax hex fun found h1 i r hr => ?_
  obtain ⟨c, e, x, y, hc, hlab, hrx, hx, hey, hfar⟩ := h i r hr
  rw [C200_nearest hL hn (order := order) ho hl h1 hr hrx hx hc hey hmid hfar, hlab]

/-- **C205.** The same with `kl_div`. -/
theorem C205_kl {α : Type} [DecidableEq α] (hL : IsLog L.lg) {n : ℕ} (hn : n ≤ 2 ^ 48) {order : ℕ → ℕ → Tree}
    (ho : ∀ i j, (order i j).Adds n) {reco test : List Row} {trueLabels testLabels : List α} (hex : test ≠ [])
    (hl : testLabels.length = test.length) (hlen : reco.length = trueLabels.length) (h0 : reco ≠ [])
    (hmax : reco.length ≤ 2 ^ 53) (hmid : ∀ e' ∈ test, ∃ y', Doubles n e' y' ∧ Histo n y')
    (h : ∀ (i : ℕ) r, reco[i]? = some r → ∃ (c : ℕ) (e : Row) (x y : ℕ → ℚ), test[c]? = some e ∧
      testLabels[c]? = trueLabels[i]? ∧ Doubles n r x ∧ Histo n x ∧ Doubles n e y ∧
      ∀ (j : ℕ) e' y', test[j]? = some e' → Doubles n e' y' → testLabels[j]? ≠ testLabels[c]? →
        kl n x y + klBound n x y < kl n x y' - klBound n x y') :
    evaluateNNLabel reco test trueLabels testLabels (fun i j => klDiv L (order i j)) = .ok (.fin 1) := by
  refine perfect hl hlen h0 hmax hex fun found h1 i r hr => ?_
  obtain ⟨c, e, x, y, hc, hlab, hrx, hx, hey, hfar⟩ := h i r hr
  rw [C201_nearest hL hn (order := order) ho hl h1 hr hrx hx hc hey hmid hfar, hlab]

/-- **C205.** `scores_from_dists` without labels of columns: the array must be square, and then labels of rows are those
of columns too. -/
theorem C205_square {α : Type} [DecidableEq α] (nCols : ℕ) (dists : List (List Flt)) (labels : List α) :
    scoresFromDists nCols dists labels none =
      if dists.length = nCols then scoresFromDists nCols dists labels (some labels) else .error .assertionError := by
  unfold scoresFromDists
  split_ifs <;> rfl

/-! ### Examples -/

/-- C205: a NaN is the best activation. -/
example : evaluateLabelReco 3 [[.fin 1, .fin 5, .fin 5], [.inf false, .nan, .fin 2]] [1, 0] = .ok (.fin (1 / 2)) := by
  obtain ⟨best, h1, h2⟩ := (C205_label_reco 3 [[.fin 1, .fin 5, .fin 5], [.inf false, .nan, .fin 2]] [1, 0] (by norm_num)
    (by decide) (by norm_num)).2 rfl
  have f1 : FirstBest [.fin 1, .fin 5, .fin 5] 1 := by
    refine ⟨_, rfl, .inr ⟨by simp, by decide, fun k y hk hy => ?_⟩⟩
    obtain rfl : k = 0 := by omega
    obtain rfl := Option.some.inj hy
    decide
  have f2 : FirstBest [.inf false, .nan, .fin 2] 1 := by
    refine ⟨_, rfl, .inl ⟨rfl, fun k y hk hy => ?_⟩⟩
    obtain rfl : k = 0 := by omega
    obtain rfl := Option.some.inj hy
    simp
  obtain ⟨a, _, ha, g1, rfl⟩ := List.forall₂_cons_left_iff.1 h1
  obtain ⟨b, _, hb, g2, rfl⟩ := List.forall₂_cons_left_iff.1 g1
  obtain rfl := List.forall₂_nil_left_iff.1 g2
  obtain rfl := ha.unique f1
  obtain rfl := hb.unique f2
  rw [h2, if_neg (by simp)]
  refine congrArg (fun q => Except.ok (Flt.fin q)) (dbl_of_double (x := 1 / 2) ⟨1, -1, by norm_num, by norm_num, by norm_num⟩)

/-- C205: shapes which differ. -/
example : evaluateLabelReco 1 [[.fin 1]] [0, 0] = .error .assertionError :=
  (C205_label_reco 1 [[.fin 1]] [0, 0] (by norm_num) (by decide) (by norm_num)).1 (by decide)

/-- C205: a label at the threshold is recognised, one at NaN is not. -/
example : compareThreshold [.fin (1 / 2), .nan, .inf false] [1, 0, 1] (.fin (1 / 2)) = true :=
  (C205_threshold _ _ _ rfl (by decide)).2 (by
    intro j s hs
    match j with
    | 0 | 1 | 2 => obtain rfl := Option.some.inj hs; simp [ge]
    | j + 3 => simp at hs)

/-- C205: one row out of two is recognised. -/
example : scoreThreshold [[.fin 1], [.nan]] [[1], [1]] (.fin 0) = .fin (1 / 2) := by
  rw [C205_threshold_score _ _ _ rfl (by simp) (by norm_num)]
  have : (([[.fin 1], [.nan]] : List (List Flt)).zip [[(1 : ℤ)], [1]]).countP (fun p => compareThreshold p.1 p.2 (.fin 0)) = 1 := by
    decide +kernel
  rw [this]
  exact congrArg Flt.fin (dbl_of_double (x := 1 / 2) ⟨1, -1, by norm_num, by norm_num, by norm_num⟩)

/-- C205: a label at NaN is below all others. -/
example (idx : List ℕ) (h : IsArgsort [.nan, .inf true, .fin 1] idx) : compareGivenNb idx [0, 1, 1] = true := by
  refine (C205_given_nb _ _ idx rfl (by decide) h).2.1 fun i j s t hi hj hs ht => ?_
  match j with
  | 0 =>
    obtain rfl := Option.some.inj ht
    match i with
    | 0 => simp at hi
    | 1 => obtain rfl := Option.some.inj hs; simp [Above, ge]
    | 2 => obtain rfl := Option.some.inj hs; simp [Above, ge]
    | i + 3 => simp at hi
  | 1 => simp at hj
  | 2 => simp at hj
  | j + 3 => simp at hj

/-- C205: such an order of activations. -/
example : IsArgsort [.nan, .inf true, .fin 1] [2, 1, 0] := ⟨by decide, by decide⟩

/-- C205: one row out of two is recognised. -/
example : scoreGivenNb [[1, 0], [1, 0]] [[0, 1], [1, 0]] = .ok (.fin (1 / 2)) := by
  rw [C205_given_nb_score _ _ rfl (by norm_num), if_neg (by simp)]
  have : ([[1, 0], [1, 0]].zip [[(0 : ℤ), 1], [1, 0]]).countP (fun p => compareGivenNb p.1 p.2) = 1 := by
    decide +kernel
  rw [this]
  exact congrArg (fun q => Except.ok (Flt.fin q))
    (dbl_of_double (x := 1 / 2) ⟨1, -1, by norm_num, by norm_num, by norm_num⟩)

/-- C205: only square arrays without labels of columns. -/
example : scoresFromDists 1 [] ["a"] none = .error .assertionError := by
  rw [C205_square]
  rfl

end Verif.Evaluation.D
