import Verif.Plots.Model
import Verif.Experiment.PropsComplete
import Mathlib.Algebra.Order.Field.Rat
import Mathlib.Tactic.Linarith
import Mathlib.Tactic.Ring
import Mathlib.Tactic.FieldSimp
import Mathlib.Tactic.Positivity

/-!
# Properties C122-C125: pairs of modalities, keys, colours, curves
-/

namespace Verif.Plots

open Verif Verif.Experiment Verif.Logger

/-! ### C122 -/

section Pairs

variable {A : Type} [DecidableEq A]

theorem mem_allPairs (l : List A) (a b : List A) :
    (a, b) ∈ allPairs l ↔ ∃ x y, x ∈ l ∧ y ∈ l ∧ x ≠ y ∧ a = [x] ∧ b = [y] := by
  simp only [allPairs, List.mem_flatMap, List.mem_map, List.mem_filter, bne_iff_ne, Prod.mk.injEq]
  constructor
  · rintro ⟨x, hx, y, ⟨hy, hne⟩, rfl, rfl⟩
    exact ⟨x, y, hx, hy, hne, rfl, rfl⟩
  · rintro ⟨x, y, hx, hy, hne, rfl, rfl⟩
    exact ⟨x, hx, y, ⟨hy, hne⟩, rfl, rfl⟩

theorem length_filter_ne (l : List A) (h : l.Nodup) (x : A) (hx : x ∈ l) :
    (l.filter fun j => x != j).length = l.length - 1 := by
  induction l with
  | nil => simp at hx
  | cons y l ih =>
    rw [List.nodup_cons] at h
    by_cases hxy : x = y
    · subst hxy
      rw [List.filter_cons_of_neg (by simp), List.filter_eq_self.2 (by
        intro a ha
        simp only [bne_iff_ne, ne_eq]
        rintro rfl
        exact h.1 ha)]
      simp
    · have hxl : x ∈ l := by simpa [hxy] using hx
      rw [List.filter_cons_of_pos (by simpa using hxy), List.length_cons, ih h.2 hxl, List.length_cons]
      have : l.length ≠ 0 := by
        intro h0
        rw [List.length_eq_zero_iff] at h0
        rw [h0] at hxl
        simp at hxl
      omega

theorem length_allPairs (l : List A) (h : l.Nodup) :
    (allPairs l).length = l.length * (l.length - 1) := by
  unfold allPairs
  rw [List.length_flatMap]
  have : (l.map fun i => ((l.filter fun j => i != j).map fun j => ([i], [j])).length) =
      l.map fun _ => l.length - 1 := by
    apply List.map_congr_left
    intro i hi
    rw [List.length_map, length_filter_ne l h i hi]
  rw [this]
  simp

/-- **C122.** `all_pairs` gives every pair of two different elements, once each. -/
theorem C122_pairs (l : List A) :
    (∀ a b, (a, b) ∈ allPairs l ↔ ∃ x y, x ∈ l ∧ y ∈ l ∧ x ≠ y ∧ a = [x] ∧ b = [y]) ∧
    (l.Nodup → (allPairs l).Nodup ∧ (allPairs l).length = l.length * (l.length - 1)) := by
  refine ⟨mem_allPairs l, fun h => ⟨?_, length_allPairs l h⟩⟩
  unfold allPairs
  rw [List.nodup_flatMap]
  refine ⟨fun x _ => ?_, ?_⟩
  · refine (h.filter _).map ?_
    intro a b hab
    simpa using hab
  · refine h.imp ?_
    intro x y hxy
    simp only [Function.onFun, List.disjoint_left, List.mem_map]
    rintro _ ⟨b, _, rfl⟩ ⟨c, _, hc⟩
    simp only [Prod.mk.injEq, List.cons.injEq, and_true] at hc
    exact hxy hc.1.symm

/-- **C122.** `combinations` gives every pair of two different elements and every element from all of
the others, in their order; with at least three elements each of these is given once. -/
theorem C122_combinations (l : List A) (h : l.Nodup) :
    (∀ a b, (a, b) ∈ combinations l ↔
      (∃ x y, x ∈ l ∧ y ∈ l ∧ x ≠ y ∧ a = [x] ∧ b = [y]) ∨
      ∃ x, x ∈ l ∧ b = [x] ∧ a.Sublist l ∧ ∀ y, y ∈ a ↔ y ∈ l ∧ y ≠ x) ∧
    (combinations l).length = l.length * l.length ∧
    (3 ≤ l.length → (combinations l).Nodup) := by
  have hmem : ∀ a b, (a, b) ∈ combinations l ↔ (a, b) ∈ allPairs l ∨
      ∃ x, x ∈ l ∧ b = [x] ∧ a = l.filter fun j => j != x := by
    intro a b
    unfold combinations
    simp only [List.mem_append, List.mem_map, Prod.mk.injEq]
    refine or_congr Iff.rfl ⟨?_, ?_⟩
    · rintro ⟨x, hx, rfl, rfl⟩; exact ⟨x, hx, rfl, rfl⟩
    · rintro ⟨x, hx, rfl, rfl⟩; exact ⟨x, hx, rfl, rfl⟩
  refine ⟨fun a b => ?_, ?_, fun h3 => ?_⟩
  · rw [hmem, mem_allPairs]
    refine or_congr Iff.rfl ⟨?_, ?_⟩
    · rintro ⟨x, hx, rfl, rfl⟩
      refine ⟨x, hx, rfl, List.filter_sublist, fun y => ?_⟩
      simp [List.mem_filter]
    · rintro ⟨x, hx, rfl, hs, hy⟩
      refine ⟨x, hx, rfl, ?_⟩
      have h1 : a = a.filter fun j => j != x := by
        symm
        rw [List.filter_eq_self]
        intro y hya
        simpa using ((hy y).1 hya).2
      have h2 : a.Sublist (l.filter fun j => j != x) := by
        rw [h1]
        exact hs.filter _
      refine h2.eq_of_length ?_
      refine le_antisymm h2.length_le ?_
      refine List.Subperm.length_le (List.subperm_of_subset (h.filter _) ?_)
      intro y hyf
      rw [List.mem_filter] at hyf
      exact (hy y).2 ⟨hyf.1, by simpa using hyf.2⟩
  · unfold combinations
    rw [List.length_append, length_allPairs l h, List.length_map]
    cases l with
    | nil => rfl
    | cons x l => simp; ring
  · have hp := ((C122_pairs l).2 h).1
    unfold combinations
    rw [List.nodup_append]
    refine ⟨hp, ?_, ?_⟩
    · refine h.map ?_
      intro x y hxy
      simpa using (Prod.mk.inj hxy).2
    · rintro ⟨a, b⟩ hab c hc rfl
      rw [mem_allPairs] at hab
      obtain ⟨x, y, _, _, _, rfl, rfl⟩ := hab
      obtain ⟨z, hz, hzz⟩ := List.mem_map.1 hc
      have h1 := congrArg List.length (Prod.mk.inj hzz).1
      have h2 : (l.filter fun j => j != z) = l.filter fun j => z != j := by
        apply List.filter_congr
        intro j _
        by_cases hj : j = z <;> simp [hj, bne_comm]
      rw [h2, length_filter_ne l h z hz] at h1
      simp at h1
      omega

end Pairs

theorem three_dvd_sq (n : ℕ) : (n * n) % 3 = 0 ↔ n % 3 = 0 := by
  rw [Nat.mul_mod]
  have : n % 3 < 3 := Nat.mod_lt _ (by norm_num)
  interval_cases n % 3 <;> simp

/-- The names which have a colour. -/
def Named (m : Str) : Prop := m = "image".toList ∨ m = "motion".toList ∨ m = "sound".toList

theorem colors_get (m : Str) : Named m ↔ (dictGet? COLORS m).isSome := by
  rw [dictGet?_isSome]
  have : dictKeys COLORS = ["motion".toList, "image".toList, "sound".toList] := by decide
  rw [this]
  simp only [List.mem_cons, List.not_mem_nil, or_false, Named]
  tauto

/-- **C122.** The legends of `plot_boxes_all_mods` are three groups of as many names, with all of the
names in order; this needs a number of modalities which is a multiple of three, otherwise there is a
`ValueError`. -/
theorem C122_legends (l : List Str) (h : l.Nodup) (hn : ∀ m ∈ l, Named m) :
    (l.length % 3 = 0 → ∃ a b c, legends l = .ok [a, b, c] ∧ a ++ b ++ c = combinations l ∧
      a.length = b.length ∧ b.length = c.length) ∧
    (l.length % 3 ≠ 0 → legends l = .error .valueError) := by
  have hl := (C122_combinations l h).2.1
  have hcol : ∃ r, ((combinations l).mapM fun c => colorFor c.1 c.2 false) = .ok r := by
    have : ∀ c ∈ combinations l, ∃ v, colorFor c.1 c.2 false = .ok v := by
      rintro ⟨a, b⟩ hc
      have hb : ∃ y ∈ l, b = [y] := by
        rcases ((C122_combinations l h).1 a b).1 hc with ⟨x, y, _, hy, _, _, hb⟩ | ⟨x, hx, hb, _⟩
        · exact ⟨y, hy, hb⟩
        · exact ⟨x, hx, hb⟩
      obtain ⟨y, hy, rfl⟩ := hb
      obtain ⟨v, hv⟩ := Option.isSome_iff_exists.1 ((colors_get y).1 (hn y hy))
      refine ⟨v, ?_⟩
      unfold colorFor dictItem
      simp [pyGet, bind, Except.bind, hv]
    choose! f hf using this
    exact ⟨_, mapM_ok _ f _ hf⟩
  obtain ⟨r, hr⟩ := hcol
  constructor
  · intro h3
    have h0 : (combinations l).length % 3 = 0 := by rw [hl, three_dvd_sq]; exact h3
    unfold legends split3
    rw [hr]
    simp only [bind, Except.bind]
    rw [if_pos h0]
    set c := combinations l
    obtain ⟨k, hk⟩ : ∃ k, c.length = 3 * k := ⟨c.length / 3, by omega⟩
    have hk' : c.length / 3 = k := by omega
    rw [hk']
    refine ⟨_, _, _, rfl, ?_, ?_, ?_⟩
    · have e2 : c.drop (2 * k) = (c.drop k).drop k := by rw [List.drop_drop, two_mul]
      rw [e2, List.append_assoc, List.take_append_drop, List.take_append_drop]
    · simp only [List.length_take, List.length_drop]; omega
    · simp only [List.length_take, List.length_drop]; omega
  · intro h3
    have h0 : ¬ (combinations l).length % 3 = 0 := by rw [hl, three_dvd_sq]; exact h3
    unfold legends split3
    rw [hr]
    simp only [bind, Except.bind]
    rw [if_neg h0]

/-! ### C123 -/

/-- **C123.** The values read by the plots of experiments with two modalities have been stored: the
curves show the scores for the first metric (whatever metric is asked), the boxes those of the fourth
one. -/
theorem C123_two {L Λ : Type} (X : Ext Λ) (e : Exp) (metrics : List (List ℚ → List ℚ → ℚ))
    (p : Prepared L) (learner : Λ) (test : List Mx) (labels : List ℕ)
    (d : Dict Key (Val (LogVal L) Mx)) (h : ScoresTwo X e metrics p learner test labels d)
    (f1 f4 : List ℚ → List ℚ → ℚ) (h1 : metrics[0]? = some f1) (h4 : metrics[3]? = some f4)
    (metric : Str) (a b : ℕ) (m1 m2 : Str) (ha : e.modalities[a]? = some m1)
    (hb : e.modalities[b]? = some m2) :
    ∃ t x found found', Transformed X e learner test a (-1) t ∧
      Transformed X e learner p.dataEx b (-1) x ∧
      Evaluation.classifyNN t.rows x.rows p.labelsEx f1 = .ok found ∧
      Evaluation.classifyNN t.rows x.rows p.labelsEx f4 = .ok found' ∧
      dictGet? d (curveKey ([m1], [m2]) metric) =
        some (.plain (.score (Evaluation.foundLabelsToScore labels found))) ∧
      dictGet? d (boxKey ([m1], [m2])) =
        some (.plain (.score (Evaluation.foundLabelsToScore labels found'))) := by
  have la := (List.getElem?_eq_some_iff.1 ha).1
  have lb := (List.getElem?_eq_some_iff.1 hb).1
  obtain ⟨k1, t, x, found, e1, e2, e3, e4, -, e6⟩ := h a b 0 (-1) f1 "".toList la lb (Or.inl rfl) h1 rfl
  obtain ⟨k4, t', x', found', g1, g2, g3, g4, -, g6⟩ :=
    h a b 3 (-1) f4 "_cosine".toList la lb (Or.inl rfl) h4 rfl
  have key : ∀ s : Str, expKey e a b (-1) s = .ok (m1 ++ '2' :: (m2 ++ s)) := by
    intro s
    unfold expKey expCmp
    rw [pyGet_at ha, pyGet_at hb]
    simp [bind, Except.bind, pure, Except.pure]
  rw [key] at e1 g1
  cases e1
  cases g1
  cases e2.unique g2
  cases e3.unique g3
  refine ⟨t, x, found, found', e2, e3, e4, g4, ?_, ?_⟩
  · rw [← e6]
    congr 1
    simp [curveKey, joinUnderscore]
  · rw [← g6]
    congr 1

theorem range_names (l : List Key) : l = (List.range l.length).map fun i => (l[i]?).getD [] := by
  apply List.ext_getElem?
  intro i
  rw [List.getElem?_map]
  by_cases hi : i < l.length
  · simp [hi]
  · simp [hi]

theorem getD_inj {l : List Key} (h : l.Nodup) {i j : ℕ} (hi : i < l.length) (hj : j < l.length)
    (e : (l[i]?).getD [] = (l[j]?).getD []) : i = j := by
  rw [List.getElem?_eq_getElem hi, List.getElem?_eq_getElem hj] at e
  exact (List.Nodup.getElem_inj_iff h).1 e

/-- The combinations of the plots are among those of the experiment. -/
theorem combinations_tested (l : List Key) (h : l.Nodup) (A B : List Key)
    (hc : (A, B) ∈ combinations l) :
    ∃ a b, (a, b) ∈ testedCombinations l.length ∧ A = namesAt l a ∧ B = namesAt l b := by
  unfold combinations at hc
  simp only [List.mem_append, List.mem_map, Prod.mk.injEq, mem_allPairs] at hc
  rcases hc with ⟨x, y, hx, hy, hxy, rfl, rfl⟩ | ⟨x, hx, rfl, rfl⟩
  · obtain ⟨i, hi⟩ := List.getElem?_of_mem hx
    obtain ⟨j, hj⟩ := List.getElem?_of_mem hy
    refine ⟨[i], [j], ((C90_combinations l.length).1 _ _).2 (Or.inl ⟨i, j,
      (List.getElem?_eq_some_iff.1 hi).1, (List.getElem?_eq_some_iff.1 hj).1, ?_, rfl, rfl⟩), ?_, ?_⟩
    · rintro rfl
      rw [hi] at hj
      exact hxy (Option.some.inj hj)
    · simp [namesAt, hi]
    · simp [namesAt, hj]
  · obtain ⟨i, hi⟩ := List.getElem?_of_mem hx
    have li := (List.getElem?_eq_some_iff.1 hi).1
    refine ⟨(List.range l.length).filter fun m => m != i, [i],
      ((C90_combinations l.length).1 _ _).2 (Or.inr ⟨i, _, li, ?_, ?_, Or.inl ⟨rfl, rfl⟩⟩), ?_, ?_⟩
    · exact List.Pairwise.filter _ List.pairwise_lt_range
    · intro z
      simp [List.mem_filter]
    · unfold namesAt
      conv_lhs => rw [range_names l]
      rw [List.filter_map]
      congr 1
      apply List.filter_congr
      intro m hm
      rw [List.mem_range] at hm
      have hxi : x = (l[i]?).getD [] := by rw [hi]; rfl
      by_cases hmi : m = i
      · subst hmi
        simp [hxi]
      · have : (l[m]?).getD [] ≠ x := by
          rw [hxi]
          intro e
          exact hmi (getD_inj h hm li e)
        rw [Bool.eq_iff_iff, Function.comp_apply, @bne_iff_ne _ instBEqOfDecidableEq, bne_iff_ne]
        exact ⟨fun _ => hmi, fun _ => this⟩
    · simp [namesAt, hi]

/-- **C123.** The values read by the plots of experiments with three modalities have been stored:
every combination shown by the boxes has its score for the fourth metric, and every pair shown by the
curves its score for the first metric. -/
theorem C123_three {L Λ : Type} (X : Ext Λ) (e : Exp) (metrics : List (List ℚ → List ℚ → ℚ))
    (p : Prepared L) (learner : Λ) (test : List Mx) (labels : List ℕ)
    (d : Dict Key (Val (LogVal L) Mx)) (h : ScoresThree X e metrics p learner test labels d)
    (hn : e.modalities.Nodup) (f1 f4 : List ℚ → List ℚ → ℚ) (h1 : metrics[0]? = some f1)
    (h4 : metrics[3]? = some f4) (metric : Str) (A B : List Str)
    (hAB : (A, B) ∈ combinations e.modalities) :
    ∃ a b t x found found', Picks e.modalities a A ∧ Picks e.modalities b B ∧
      Internal X e learner test a t ∧ Internal X e learner p.dataEx b x ∧
      Evaluation.classifyNN t.rows x.rows p.labelsEx f1 = .ok found ∧
      Evaluation.classifyNN t.rows x.rows p.labelsEx f4 = .ok found' ∧
      dictGet? d (curveKey (A, B) metric) =
        some (.plain (.score (Evaluation.foundLabelsToScore labels found))) ∧
      dictGet? d (boxKey (A, B)) =
        some (.plain (.score (Evaluation.foundLabelsToScore labels found'))) := by
  obtain ⟨a, b, hab, rfl, rfl⟩ := combinations_tested e.modalities hn A B hAB
  obtain ⟨k1, t, x, found, e1, e2, e3, e4, e5⟩ := h a b 0 f1 "".toList hab h1 rfl
  obtain ⟨k4, t', x', found', g1, g2, g3, g4, g5⟩ := h a b 3 f4 "_cosine".toList hab h4 rfl
  rw [scoreKey3_ok e (a, b) _ hab] at e1 g1
  cases e1
  cases g1
  cases e2.unique g2
  cases e3.unique g3
  have pk : ∀ l : List ℕ, (∀ i ∈ l, i < e.modalities.length) →
      Picks e.modalities l (namesAt e.modalities l) := by
    intro l hl
    unfold namesAt Picks
    rw [List.map_map]
    apply List.map_congr_left
    intro i hi
    simp [List.getElem?_eq_getElem (hl i hi)]
  refine ⟨a, b, t, x, found, found', pk a (tested_lt hab), pk b (tested_lt (tested_swap hab)), e2, e3,
    e4, g4, ?_, ?_⟩
  · rw [← e5]
    congr 1
    simp [curveKey, keyThree]
  · rw [← g5]
    congr 1

/-! ### C124 -/

/-- **C124.** Modalities called image, motion or sound have a colour, and any other name is a
`KeyError`; with `'pairs'`, pairs of two different ones have a colour; different modalities, and
different pairs, have different colours. -/
theorem C124_colors (a b : Str) (l1 l2 : List Str) :
    ((∃ c, colorFor l1 (b :: l2) false = .ok c) ↔ Named b) ∧
    (¬ Named b → colorFor l1 (b :: l2) false = .error .keyError) ∧
    ((∃ c, colorFor (a :: l1) (b :: l2) true = .ok c) ↔ Named a ∧ Named b ∧ a ≠ b) ∧
    (¬ (Named a ∧ Named b ∧ a ≠ b) → colorFor (a :: l1) (b :: l2) true = .error .keyError) := by
  have h0 : ∀ (l : List Str) (x : Str), pyGet (x :: l) 0 = .ok x := by
    intro l x; simp [pyGet]
  have e1 : colorFor l1 (b :: l2) false = dictItem COLORS b := by
    unfold colorFor
    simp [h0, bind, Except.bind]
  have e2 : colorFor (a :: l1) (b :: l2) true = dictItem PAIRS_COLORS (a, b) := by
    unfold colorFor
    simp [h0, bind, Except.bind]
  have hpair : (dictGet? PAIRS_COLORS (a, b)).isSome ↔ Named a ∧ Named b ∧ a ≠ b := by
    rw [dictGet?_isSome]
    have : dictKeys PAIRS_COLORS = [("image".toList, "motion".toList), ("motion".toList, "image".toList),
      ("motion".toList, "sound".toList), ("sound".toList, "motion".toList),
      ("image".toList, "sound".toList), ("sound".toList, "image".toList)] := by decide
    rw [this]
    simp only [List.mem_cons, List.not_mem_nil, or_false, Prod.mk.injEq, Named]
    generalize hi : "image".toList = i
    generalize hm : "motion".toList = m
    generalize hs : "sound".toList = s
    have d1 : i ≠ m := by rw [← hi, ← hm]; decide
    have d2 : i ≠ s := by rw [← hi, ← hs]; decide
    have d3 : m ≠ s := by rw [← hm, ← hs]; decide
    clear hi hm hs
    constructor
    · rintro (⟨rfl, rfl⟩ | ⟨rfl, rfl⟩ | ⟨rfl, rfl⟩ | ⟨rfl, rfl⟩ | ⟨rfl, rfl⟩ | ⟨rfl, rfl⟩)
      · exact ⟨Or.inl rfl, Or.inr (Or.inl rfl), d1⟩
      · exact ⟨Or.inr (Or.inl rfl), Or.inl rfl, d1.symm⟩
      · exact ⟨Or.inr (Or.inl rfl), Or.inr (Or.inr rfl), d3⟩
      · exact ⟨Or.inr (Or.inr rfl), Or.inr (Or.inl rfl), d3.symm⟩
      · exact ⟨Or.inl rfl, Or.inr (Or.inr rfl), d2⟩
      · exact ⟨Or.inr (Or.inr rfl), Or.inl rfl, d2.symm⟩
    · rintro ⟨h1 | h1 | h1, h2 | h2 | h2, h⟩
      · exact absurd (h1.trans h2.symm) h
      · exact Or.inl ⟨h1, h2⟩
      · exact Or.inr (Or.inr (Or.inr (Or.inr (Or.inl ⟨h1, h2⟩))))
      · exact Or.inr (Or.inl ⟨h1, h2⟩)
      · exact absurd (h1.trans h2.symm) h
      · exact Or.inr (Or.inr (Or.inl ⟨h1, h2⟩))
      · exact Or.inr (Or.inr (Or.inr (Or.inr (Or.inr ⟨h1, h2⟩))))
      · exact Or.inr (Or.inr (Or.inr (Or.inl ⟨h1, h2⟩)))
      · exact absurd (h1.trans h2.symm) h
  have item : ∀ {K : Type} [DecidableEq K] (d : Dict K Str) (k : K),
      ((∃ c, dictItem d k = .ok c) ↔ (dictGet? d k).isSome) ∧
      (¬ (dictGet? d k).isSome → dictItem d k = .error .keyError) := by
    intro K _ d k
    unfold dictItem
    cases dictGet? d k <;> simp
  rw [e1, e2, ← hpair, colors_get b]
  exact ⟨(item _ _).1, (item _ _).2, (item _ _).1, (item _ _).2⟩

/-- **C124.** No two modalities and no two pairs share a colour. -/
theorem C124_distinct (a b a' b' c : Str) :
    (colorFor [a] [b] false = .ok c → colorFor [a'] [b'] false = .ok c → b = b') ∧
    (colorFor [a] [b] true = .ok c → colorFor [a'] [b'] true = .ok c → a = a' ∧ b = b') := by
  have item : ∀ {K : Type} [DecidableEq K] (d : Dict K Str), (d.map Prod.snd).Nodup →
      ∀ k k', dictItem d k = .ok c → dictItem d k' = .ok c → k = k' := by
    intro K _ d hd k k' h h'
    have get : ∀ k, dictItem d k = .ok c → (k, c) ∈ d := by
      intro k h
      unfold dictItem at h
      cases hk : dictGet? d k with
      | none => rw [hk] at h; cases h
      | some v =>
        rw [hk] at h
        cases h
        unfold dictGet? at hk
        rw [Option.map_eq_some_iff] at hk
        obtain ⟨x, hx, rfl⟩ := hk
        have h1 : x.1 = k := by simpa using List.find?_some hx
        rw [← h1]
        exact List.mem_of_find?_eq_some hx
    have h1 := get k h
    have h2 := get k' h'
    clear get h h'
    induction d with
    | nil => simp at h1
    | cons x d ih =>
      rw [List.map_cons, List.nodup_cons] at hd
      rcases List.mem_cons.1 h1 with h1 | h1 <;> rcases List.mem_cons.1 h2 with h2 | h2
      · exact congrArg Prod.fst (h1.trans h2.symm)
      · exact absurd (h1 ▸ List.mem_map.2 ⟨_, h2, rfl⟩) hd.1
      · exact absurd (h2 ▸ List.mem_map.2 ⟨_, h1, rfl⟩) hd.1
      · exact ih hd.2 h1 h2
  have h0 : ∀ x : Str, pyGet [x] 0 = .ok x := by
    intro x; simp [pyGet]
  constructor
  · intro h h'
    unfold colorFor at h h'
    simp only [h0, bind, Except.bind, Bool.false_eq_true, if_false] at h h'
    exact item COLORS (by decide) _ _ h h'
  · intro h h'
    unfold colorFor at h h'
    simp only [h0, bind, Except.bind, if_true] at h h'
    exact Prod.mk.inj (item PAIRS_COLORS (by decide) _ _ h h')

/-! ### C125 -/

theorem mean_bounds (row : List ℚ) (h : row ≠ []) (lo hi : ℚ) (hb : ∀ v ∈ row, lo ≤ v ∧ v ≤ hi) :
    lo ≤ mean row ∧ mean row ≤ hi := by
  have hlen : (0 : ℚ) < row.length := by
    have := List.length_pos_iff.2 h
    exact_mod_cast this
  have hs : (row.length : ℚ) * lo ≤ row.sum ∧ row.sum ≤ row.length * hi := by
    clear h hlen
    induction row with
    | nil => simp
    | cons v row ih =>
      have h1 := hb v (by simp)
      have h2 := ih fun w hw => hb w (List.mem_cons_of_mem _ hw)
      simp only [List.length_cons, List.sum_cons, Nat.cast_add, Nat.cast_one]
      constructor <;> nlinarith [h1.1, h1.2, h2.1, h2.2]
  unfold mean
  constructor
  · rw [le_div_iff₀ hlen]; linarith [hs.1]
  · rw [div_le_iff₀ hlen]; linarith [hs.2]

theorem sum_map_sq (row : List ℚ) (m : ℚ) :
    (row.map fun v => (v - m) * (v - m)).sum =
      (row.map fun v => v * v).sum - 2 * m * row.sum + row.length * (m * m) := by
  induction row with
  | nil => simp
  | cons v row ih =>
    simp only [List.map_cons, List.sum_cons, ih, List.length_cons, Nat.cast_add, Nat.cast_one]
    ring

theorem sum_map_between (row : List ℚ) (lo hi : ℚ) :
    (row.map fun v => (hi - v) * (v - lo)).sum =
      (hi + lo) * row.sum - (row.map fun v => v * v).sum - row.length * (hi * lo) := by
  induction row with
  | nil => simp
  | cons v row ih =>
    simp only [List.map_cons, List.sum_cons, ih, List.length_cons, Nat.cast_add, Nat.cast_one]
    ring

theorem sum_nonneg' (l : List ℚ) (h : ∀ v ∈ l, 0 ≤ v) : 0 ≤ l.sum := List.sum_nonneg h

theorem sum_zero' (l : List ℚ) (h : ∀ v ∈ l, 0 ≤ v) (h0 : l.sum = 0) : ∀ v ∈ l, v = 0 := by
  induction l with
  | nil => simp
  | cons a l ih =>
    have h1 := h a (by simp)
    have h2 := List.sum_nonneg fun v hv => h v (List.mem_cons_of_mem a hv)
    rw [List.sum_cons] at h0
    intro v hv
    rcases List.mem_cons.1 hv with rfl | hv
    · linarith
    · exact ih (fun v hv => h v (List.mem_cons_of_mem a hv)) (by linarith) v hv

/-- **C125.** The mean of the values is between the least and the greatest; the area around it has a
square half-width which is nonnegative, at most `(hi - mean) * (mean - lo)` for values between `lo` and
`hi`, and zero exactly when all of the values are the same. -/
theorem C125_mean_variance (row : List ℚ) (h : row ≠ []) :
    (∀ lo hi, (∀ v ∈ row, lo ≤ v ∧ v ≤ hi) → lo ≤ mean row ∧ mean row ≤ hi ∧
      variance row ≤ (hi - mean row) * (mean row - lo)) ∧
    0 ≤ variance row ∧ (variance row = 0 ↔ ∀ v ∈ row, ∀ w ∈ row, v = w) := by
  have hlen : (0 : ℚ) < row.length := by
    have := List.length_pos_iff.2 h
    exact_mod_cast this
  have hvar : variance row = (row.map fun v => (v - mean row) * (v - mean row)).sum / row.length := by
    unfold variance
    conv_lhs => unfold mean
    rw [List.length_map]
    rfl
  have hsum : row.sum = mean row * row.length := by
    unfold mean
    field_simp
  have hpos : ∀ x ∈ row.map fun v => (v - mean row) * (v - mean row), 0 ≤ x := by
    intro x hx
    obtain ⟨v, _, rfl⟩ := List.mem_map.1 hx
    exact mul_self_nonneg _
  refine ⟨fun lo hi hb => ?_, ?_, ?_, ?_⟩
  · obtain ⟨h1, h2⟩ := mean_bounds row h lo hi hb
    refine ⟨h1, h2, ?_⟩
    have h3 : 0 ≤ (row.map fun v => (hi - v) * (v - lo)).sum := by
      apply List.sum_nonneg
      intro x hx
      obtain ⟨v, hv, rfl⟩ := List.mem_map.1 hx
      exact mul_nonneg (by linarith [(hb v hv).2]) (by linarith [(hb v hv).1])
    rw [sum_map_between, hsum] at h3
    rw [hvar, div_le_iff₀ hlen, sum_map_sq, hsum]
    nlinarith
  · rw [hvar]
    exact div_nonneg (List.sum_nonneg hpos) hlen.le
  · intro h0
    rw [hvar, div_eq_zero_iff] at h0
    have hz := sum_zero' _ hpos (h0.resolve_right hlen.ne')
    have hm : ∀ v ∈ row, v = mean row := by
      intro v hv
      have := hz _ (List.mem_map.2 ⟨v, hv, rfl⟩)
      have := mul_self_eq_zero.1 this
      linarith
    intro v hv w hw
    rw [hm v hv, hm w hw]
  · intro hall
    obtain ⟨v, hv⟩ := List.exists_mem_of_ne_nil row h
    have hm : mean row = v := by
      obtain ⟨h1, h2⟩ := mean_bounds row h v v fun w hw => by
        rw [hall w hw v hv]
        exact ⟨le_rfl, le_rfl⟩
      exact le_antisymm h2 h1
    rw [hvar, hm]
    have : (row.map fun w => (w - v) * (w - v)) = row.map fun _ => (0 : ℚ) := by
      apply List.map_congr_left
      intro w hw
      rw [hall w hw v hv, sub_self, mul_zero]
    rw [this]
    simp

/-- **C125.** `plot_var` draws a point for each row: its mean, at the abscissa given, or at its index for
arrays without abscissas.  Lists need abscissas, and there must be one for each row. -/
theorem C125_plot_var (isArray : Bool) (y : List (List ℚ)) :
    (∀ xs : List ℚ, xs.length = y.length → ∃ ps, plotVar isArray y (some xs) = .ok ps ∧
      ps.length = y.length ∧ ∀ (i : ℕ) (x : ℚ) (row : List ℚ), xs[i]? = some x → y[i]? = some row →
        ps[i]? = some (x, mean row, variance row)) ∧
    (∀ xs : List ℚ, xs.length ≠ y.length → plotVar isArray y (some xs) = .error .valueError) ∧
    (∃ ps, plotVar true y none = .ok ps ∧ ps.length = y.length ∧
      ∀ (i : ℕ) (row : List ℚ), y[i]? = some row → ps[i]? = some ((i : ℚ), mean row, variance row)) ∧
    plotVar false y none = .error .attributeError := by
  have main : ∀ xs : List ℚ, xs.length = y.length →
      (xs.zip ((y.map mean).zip (y.map variance))).length = y.length ∧
      ∀ (i : ℕ) (x : ℚ) (row : List ℚ), xs[i]? = some x → y[i]? = some row →
        (xs.zip ((y.map mean).zip (y.map variance)))[i]? = some (x, mean row, variance row) := by
    intro xs hx
    refine ⟨by simp [hx], fun i x row h1 h2 => ?_⟩
    have h3 : ((y.map mean).zip (y.map variance))[i]? = some (mean row, variance row) :=
      List.getElem?_zip_eq_some.2 ⟨by simp [h2], by simp [h2]⟩
    exact List.getElem?_zip_eq_some.2 ⟨h1, h3⟩
  refine ⟨fun xs hx => ⟨_, ?_, main xs hx⟩, fun xs hx => ?_, 
    ⟨((List.range y.length).map fun (i : ℕ) => (i : ℚ)).zip ((y.map mean).zip (y.map variance)), ?_,
      (main _ ?_).1, fun i row hi => ?_⟩, rfl⟩
  · unfold plotVar abscissas
    simp [bind, Except.bind, hx]
  · unfold plotVar abscissas
    simp [bind, Except.bind, hx]
  · unfold plotVar abscissas
    simp [bind, Except.bind]
  · simp
  · refine (main _ (by simp)).2 i _ row ?_ hi
    have := (List.getElem?_eq_some_iff.1 hi).1
    simp [this]

/-- **C125.** `plot_one_curve` draws, for each `k`, the mean of the values in the logger at the same
position, for a pair of modalities which has a colour. -/
theorem C125_curve {G : Type} (getValues : G → Str → Py (List ℚ)) (loggers : List G)
    (a b : Str) (ha : Named a) (hb : Named b) (hab : a ≠ b) (ks : List ℚ) (metric : Str) (n : ℕ)
    (hlen : ks.length ≤ loggers.length)
    (hval : ∀ g ∈ loggers, ∃ r, getValues g (curveKey ([a], [b]) metric) = .ok r ∧ r.length = n) :
    ∃ ps, plotOneCurve getValues loggers ([a], [b]) ks metric = .ok ps ∧ ps.length = ks.length ∧
      ∀ (i : ℕ) (k : ℚ), ks[i]? = some k → ∃ g r, loggers[i]? = some g ∧
        getValues g (curveKey ([a], [b]) metric) = .ok r ∧
        ps[i]? = some (k, mean r, variance r) := by
  obtain ⟨c, hc⟩ := ((C124_colors a b [] []).2.2.1).2 ⟨ha, hb, hab⟩
  have hrow : ∀ k ∈ ks.zipIdx, ∃ r g, loggers[k.2]? = some g ∧
      getValues g (curveKey ([a], [b]) metric) = .ok r ∧ r.length = n := by
    intro k hk
    have h1 : ks[k.2]? = some k.1 := List.mem_zipIdx_iff_getElem?.1 hk
    have h2 : k.2 < loggers.length := lt_of_lt_of_le (List.getElem?_eq_some_iff.1 h1).1 hlen
    obtain ⟨r, hr, hn⟩ := hval loggers[k.2] (List.getElem_mem h2)
    exact ⟨r, _, List.getElem?_eq_getElem h2, hr, hn⟩
  choose! f hf using hrow
  have hres : (ks.zipIdx.mapM fun (k : ℚ × ℕ) => do
      let l ← pyGet loggers (k.2 : ℤ)
      getValues l (curveKey ([a], [b]) metric)) = .ok (ks.zipIdx.map f) := by
    apply mapM_ok
    intro k hk
    obtain ⟨g, h1, h2, h3⟩ := hf k hk
    rw [pyGet_at h1]
    exact h2
  obtain ⟨ps, hps, hl, hp⟩ := (C125_plot_var false (ks.zipIdx.map f)).1 ks (by simp)
  refine ⟨ps, ?_, by simpa using hl, ?_⟩
  · unfold plotOneCurve
    simp only [bind, Except.bind] at hres ⊢
    rw [hres]
    simp only []
    rw [hc]
    simp only []
    rw [if_neg, hps]
    simp only [List.any_eq_true, bne_iff_ne, not_exists, not_and, not_not]
    intro r hr
    obtain ⟨k, hk, rfl⟩ := List.mem_map.1 hr
    obtain ⟨_, _, _, h3⟩ := hf k hk
    rw [h3]
    cases hz : ks.zipIdx with
    | nil => rw [hz] at hk; simp at hk
    | cons k0 rest =>
      obtain ⟨_, _, _, h3'⟩ := hf k0 (by rw [hz]; simp)
      simp [h3']
  · intro i k hk
    have hz : ks.zipIdx[i]? = some (k, i) := by simp [List.getElem?_zipIdx, hk]
    obtain ⟨g, h1, h2, h3⟩ := hf (k, i) (List.mem_of_getElem? hz)
    exact ⟨g, _, h1, h2, hp i k _ hk (by rw [List.getElem?_map, hz]; rfl)⟩

end Verif.Plots
