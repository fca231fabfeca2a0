import Verif.Evaluation.LemmasDouble
import Mathlib.Algebra.BigOperators.Group.Finset.Basic
import Mathlib.Algebra.Order.BigOperators.Group.Finset

/-!
# Nearest neighbours with doubles (C199)
-/

namespace Verif.Evaluation.D

open Verif Verif.Window
open Verif.NMF.D (double_mul double_pow double_one double_zero dbl_le le_dbl abs_dbl_le)

/-- The `n` entries of a row are doubles. -/
def Doubles (n : ℕ) (a : Row) (x : ℕ → ℚ) : Prop := ∀ k < n, a k = .fin (x k) ∧ Dbl (x k)

/-- Example `m` is the first at NaN, or else the first at the least distance of `r`. -/
def Nearest (ex : List Row) (d : ℕ → Row → Flt) (m : ℕ) : Prop :=
  ∃ e, ex[m]? = some e ∧
    ((d m e = .nan ∧ ∀ j < m, ∀ e', ex[j]? = some e' → d j e' ≠ .nan) ∨
      (d m e ≠ .nan ∧ (∀ (j : ℕ) e', ex[j]? = some e' → ge (d j e') (d m e) = true) ∧
        ∀ j < m, ∀ e', ex[j]? = some e' → ge (d m e) (d j e') = false))

theorem getElem?_of_mem {α : Type} {l : List α} {x : α} (h : x ∈ l) : ∃ j : ℕ, l[j]? = some x :=
  List.mem_iff_getElem?.1 h

theorem mem_take_of {α : Type} {l : List α} {x : α} {j m : ℕ} (hj : j < m) (h : l[j]? = some x) : x ∈ l.take m := by
  rw [List.mem_iff_getElem?]
  exact ⟨j, by rw [List.getElem?_take_of_lt hj, h]⟩

theorem argmin_nearest (ex : List Row) (d : ℕ → Row → Flt) (h : ex ≠ []) :
    ∃ m, argmin (ex.mapIdx d) = .ok m ∧ m < ex.length ∧ Nearest ex d m := by
  obtain ⟨m, x, h1, h2, h3⟩ := argmin_spec (ex.mapIdx d) (by simpa using h)
  rw [List.getElem?_mapIdx, Option.map_eq_some_iff] at h2
  obtain ⟨e, he, rfl⟩ := h2
  have key : ∀ (j : ℕ) e', ex[j]? = some e' → (ex.mapIdx d)[j]? = some (d j e') := by
    intro j e' h
    rw [List.getElem?_mapIdx, h]
    rfl
  refine ⟨m, h1, (List.getElem?_eq_some_iff.1 he).1, e, he, ?_⟩
  rcases h3 with ⟨h3, h4⟩ | ⟨h3, h4, h5⟩
  · exact .inl ⟨h3, fun j hj e' h' => h4 _ (mem_take_of hj (key j e' h'))⟩
  · exact .inr ⟨h3, fun j e' h' => h4 _ (List.mem_iff_getElem?.2 ⟨j, key j e' h'⟩),
      fun j hj e' h' => h5 _ (mem_take_of hj (key j e' h'))⟩

theorem map_mapIdx' {α β γ : Type} (l : List α) (f : ℕ → α → β) (g : β → γ) :
    (l.mapIdx f).map g = l.mapIdx fun i x => g (f i x) := by
  symm
  rw [List.mapIdx_eq_iff]
  intro i
  rw [List.getElem?_map, List.getElem?_mapIdx, Option.map_map]
  rfl

theorem mapM_ok {α β : Type} {f : α → Py β} {g : α → β} : ∀ (l : List α), (∀ x ∈ l, f x = .ok (g x)) →
    l.mapM f = .ok (l.map g)
  | [], _ => rfl
  | x :: l, h => by
    rw [List.mapM_cons, h x (by simp), mapM_ok l fun y hy => h y (by simp [hy])]
    rfl

/-- **C199.** Each sample gets the label of the first example whose distance is NaN if there is one, or else of the first
of the examples at the least distance. -/
theorem C199_found {α : Type} (reco ex : List Row) (labels : List α) (measure : ℕ → ℕ → Row → Row → Flt) (hex : ex ≠ [])
    (hl : labels.length = ex.length) :
    ∃ found, classifyNN reco ex labels measure = .ok found ∧ found.length = reco.length ∧
      ∀ (i : ℕ) r, reco[i]? = some r → ∃ m, Nearest ex (fun j e => measure i j r e) m ∧ found[i]? = labels[m]? ∧
        m < labels.length := by
  have hall : ∀ i r, ∃ m, argmin (ex.mapIdx fun j e => measure i j r e) = .ok m ∧ m < ex.length ∧
      Nearest ex (fun j e => measure i j r e) m := fun i r => argmin_nearest ex _ hex
  choose m hm1 hm2 hm3 using hall
  have hrows : (allDistances reco ex measure).mapM argmin = .ok (reco.mapIdx m) := by
    have : allDistances reco ex measure = (reco.mapIdx fun i r => (i, r)).map
        fun p => ex.mapIdx fun j e => measure p.1 j p.2 e := by
      rw [map_mapIdx']
      rfl
    rw [this]
    have h2 : ∀ l : List (ℕ × Row), (l.map fun p => ex.mapIdx fun j e => measure p.1 j p.2 e).mapM argmin
        = .ok (l.map fun p => m p.1 p.2) := by
      intro l
      induction l with
      | nil => rfl
      | cons x l ih =>
        rw [List.map_cons, List.mapM_cons, hm1, ih]
        rfl
    rw [h2, map_mapIdx']
  have hget : ∀ i r, ∃ a, labels[m i r]? = some a := by
    intro i r
    exact ⟨labels[m i r]'(by rw [hl]; exact hm2 i r), List.getElem?_eq_getElem _⟩
  choose a ha using hget
  refine ⟨reco.mapIdx a, ?_, by simp, ?_⟩
  · unfold classifyNN distsToFoundLabels argminRows
    rw [if_neg (by simpa using hex), hrows]
    show (reco.mapIdx m).mapM _ = _
    have : reco.mapIdx m = (reco.mapIdx fun i r => (i, r)).map fun p => m p.1 p.2 := by
      rw [map_mapIdx']
    rw [this]
    have h2 : ∀ l : List (ℕ × Row), (l.map fun p => m p.1 p.2).mapM (fun (k : ℕ) => pyGet labels (k : ℤ))
        = .ok (l.map fun p => a p.1 p.2) := by
      intro l
      induction l with
      | nil => rfl
      | cons x l ih =>
        rw [List.map_cons, List.mapM_cons, ih]
        have : pyGet labels ((m x.1 x.2 : ℕ) : ℤ) = .ok (a x.1 x.2) := by
          unfold pyGet
          rw [if_neg (by omega), Int.toNat_natCast, ha]
        rw [this]
        rfl
    rw [h2, map_mapIdx']
  · intro i r hr
    refine ⟨m i r, hm3 i r, ?_, by rw [hl]; exact hm2 i r⟩
    rw [List.getElem?_mapIdx, hr, ha]
    rfl

/-! ### Frobenius distances -/

variable {L : Lib}

theorem square_sub_nonneg {x y : ℚ} : NonNeg (square (sub (.fin x) (.fin y))) := by
  show NonNeg (square (round (x + -y)))
  rcases round_cases (x + -y) with ⟨h, _⟩ | h <;> rw [h]
  · exact round_nonneg (mul_self_nonneg _)
  · right
    cases (decide (x + -y < 0)) <;> rfl

theorem Tree.Adds.lt {t : Tree} {n : ℕ} (h : t.Adds n) {k : ℕ} (hk : k ∈ t.leaves) : k < n :=
  List.mem_range.1 (h.mem_iff.1 hk)

theorem Tree.Adds.mem {t : Tree} {n : ℕ} (h : t.Adds n) {k : ℕ} (hk : k < n) : k ∈ t.leaves :=
  h.mem_iff.2 (List.mem_range.2 hk)

theorem terms_nonneg {n : ℕ} {t : Tree} (ht : t.Adds n) {a b : Row} {x y : ℕ → ℚ} (ha : Doubles n a x) (hb : Doubles n b y) :
    ∀ k ∈ t.leaves, NonNeg (square (sub (a k) (b k))) := by
  intro k hk
  rw [(ha k (ht.lt hk)).1, (hb k (ht.lt hk)).1]
  exact square_sub_nonneg

/-- Squares of differences which are zero. -/
theorem lt_of_square_zero {x y : ℚ} (h : square (sub (.fin x) (.fin y)) = .fin 0) : |x - y| < 2 ^ (-537 : ℤ) := by
  by_contra hc
  push Not at hc
  have hd : Double (2 ^ (-537 : ℤ)) := ⟨1, -537, by norm_num, by norm_num, by push_cast; ring⟩
  have hd2 : Double (2 ^ (-1074 : ℤ)) := ⟨1, -1074, by norm_num, by norm_num, by push_cast; ring⟩
  have h' : square (round (x + -y)) = .fin 0 := h
  rw [← sub_eq_add_neg] at h'
  rcases round_cases (x - y) with ⟨h1, _⟩ | h1 <;> rw [h1] at h'
  · have h2 : (2 : ℚ) ^ (-537 : ℤ) ≤ |dbl (x - y)| := by
      rcases le_total 0 (x - y) with hs | hs
      · rw [abs_of_nonneg hs] at hc
        exact (le_dbl hd hc).trans (le_abs_self _)
      · rw [abs_of_nonpos hs] at hc
        have := le_dbl hd hc
        rw [dbl_neg] at this
        exact this.trans (neg_le_abs _)
    have h3 : (2 : ℚ) ^ (-1074 : ℤ) ≤ dbl (x - y) * dbl (x - y) := by
      rw [← abs_mul_abs_self]
      have : (2 : ℚ) ^ (-1074 : ℤ) = 2 ^ (-537 : ℤ) * 2 ^ (-537 : ℤ) := by
        rw [← zpow_add₀ (by norm_num)]
        norm_num
      rw [this]
      exact mul_le_mul h2 h2 (two_zpow_pos _).le (abs_nonneg _)
    have h4 := le_dbl hd2 h3
    have h5 : round (dbl (x - y) * dbl (x - y)) = .fin 0 := h'
    rcases round_cases (dbl (x - y) * dbl (x - y)) with ⟨h6, _⟩ | h6 <;> rw [h6] at h5
    · injection h5 with h5
      rw [h5] at h4
      exact absurd h4 (not_le.2 (two_zpow_pos _))
    · cases h5
  · cases decide (x - y < 0) <;> cases h'

theorem dbl_pow_neg {e : ℤ} (h1 : -1074 ≤ e) (h2 : e ≤ 0) : Dbl (2 ^ e) := by
  refine ⟨⟨1, e, by norm_num, h1, by push_cast; ring⟩, ?_⟩
  rw [abs_of_pos (two_zpow_pos e)]
  have : (2 : ℚ) ^ e ≤ 1 := zpow_le_one_of_nonpos₀ (by norm_num) h2
  exact lt_of_le_of_lt this (one_lt_pow₀ (by norm_num) (by norm_num))

theorem dbl_tiny {z : ℚ} (h : |z| ≤ 2 ^ (-1076 : ℤ)) : dbl z = 0 := by
  have hn := dbl_double z
  obtain ⟨m, hm⟩ := Double.multiple hn
  have h1 : |dbl z| < 2 ^ (-1074 : ℤ) := by
    have h2 := dbl_near z
    have h3 : |dbl z| ≤ |dbl z - z| + |z| := by
      calc |dbl z| = |(dbl z - z) + z| := by congr 1; ring
        _ ≤ _ := abs_add_le _ _
    have h4 : (1 : ℚ) / 2 ^ 1075 = 2 * 2 ^ (-1076 : ℤ) := by
      rw [show (-1076 : ℤ) = -((1076 : ℕ) : ℤ) by norm_num, zpow_neg, zpow_natCast, pow_succ (2 : ℚ) 1075]
      field_simp
    have h5 : (2 : ℚ) ^ (-1074 : ℤ) = 4 * 2 ^ (-1076 : ℤ) := by
      rw [show (-1074 : ℤ) = 2 + -1076 by norm_num, zpow_add₀ (by norm_num)]
      norm_num
    have hp := two_zpow_pos (-1076)
    rw [h4] at h2
    rw [h5]
    have h6 : |z| / 2 ^ 53 ≤ 2 ^ (-1076 : ℤ) / 2 ^ 53 := by gcongr
    have h7 : (2 : ℚ) ^ (-1076 : ℤ) / 2 ^ 53 < 2 ^ (-1076 : ℤ) / 2 := by
      apply div_lt_div_of_pos_left hp (by norm_num) (by norm_num)
    linarith
  rw [hm, abs_mul, abs_of_pos (two_zpow_pos _)] at h1
  have h2 : |(m : ℚ)| < 1 := by
    by_contra hc
    push Not at hc
    exact absurd h1 (not_lt.2 (le_mul_of_one_le_left (two_zpow_pos _).le hc))
  have h3 : |m| < 1 := by exact_mod_cast h2
  have : m = 0 := by
    rw [Int.abs_lt_one_iff] at h3
    exact h3
  rw [hm, this]
  simp

theorem square_zero_of_le {x y : ℚ} (h : |x - y| ≤ 2 ^ (-538 : ℤ)) : square (sub (.fin x) (.fin y)) = .fin 0 := by
  have hd := dbl_pow_neg (e := -538) (by norm_num) (by norm_num)
  show square (round (x + -y)) = _
  rw [← sub_eq_add_neg, round_of_le hd.1 h (by rw [← abs_of_pos (two_zpow_pos (-538))]; exact hd.2)]
  show round (dbl (x - y) * dbl (x - y)) = _
  have h1 := abs_dbl_le hd.1 h
  have h2 : |dbl (x - y) * dbl (x - y)| ≤ 2 ^ (-1076 : ℤ) := by
    rw [abs_mul]
    have : (2 : ℚ) ^ (-1076 : ℤ) = 2 ^ (-538 : ℤ) * 2 ^ (-538 : ℤ) := by
      rw [← zpow_add₀ (by norm_num)]
      norm_num
    rw [this]
    exact mul_le_mul h1 h1 (abs_nonneg _) (two_zpow_pos _).le
  unfold round
  rw [dbl_tiny h2, abs_zero, if_pos (by positivity)]

theorem sub_neg' (x y : ℚ) : sub (.fin y) (.fin x) = neg (sub (.fin x) (.fin y)) := by
  show round (y + -x) = neg (round (x + -y))
  have h : y + -x = -(x + -y) := by ring
  unfold round
  rw [h, dbl_neg, abs_neg]
  split_ifs with hc
  · rfl
  · show Flt.inf _ = Flt.inf _
    congr 1
    have hne : x + -y ≠ 0 := by
      intro h0
      rw [h0, dbl_zero, abs_zero] at hc
      exact hc (by positivity)
    rcases lt_or_gt_of_ne hne with h1 | h1
    · have h2 : ¬ -(x + -y) < 0 := by linarith
      rw [decide_eq_true h1, decide_eq_false h2]
      rfl
    · have h2 : -(x + -y) < 0 := by linarith
      rw [decide_eq_true h2, decide_eq_false (not_lt.2 h1.le)]
      rfl

theorem square_neg (a : Flt) : square (neg a) = square a := by
  cases a with
  | fin x =>
    show round (-x * -x) = round (x * x)
    rw [neg_mul_neg]
  | inf s => cases s <;> rfl
  | nan => rfl

/-- **C199.** The distance of two rows of doubles is never NaN nor negative, whatever the order of additions; it does not
depend on the order of the two rows; it is zero for equal rows, and for rows whose entries differ by `2 ^ -538` at most,
but not for those of which two entries differ by `2 ^ -537`. -/
theorem C199_frobenius (hL : IsSqrt L.sq) {n : ℕ} {t : Tree} (ht : t.Adds n) {a b : Row} {x y : ℕ → ℚ}
    (ha : Doubles n a x) (hb : Doubles n b y) :
    NonNeg (frobenius L t a b) ∧ frobenius L t a b = frobenius L t b a ∧
      ((∀ k < n, |x k - y k| ≤ 2 ^ (-538 : ℤ)) → frobenius L t a b = .fin 0) ∧
      (frobenius L t a b = .fin 0 → ∀ k < n, |x k - y k| < 2 ^ (-537 : ℤ)) := by
  have hnn := terms_nonneg ht ha hb
  have hs := sum_nonneg t hnn
  refine ⟨sqrt_nonneg' hL hs, ?_, ?_, ?_⟩
  · unfold frobenius
    congr 1
    refine sum_congr t fun k hk => ?_
    rw [(ha k (ht.lt hk)).1, (hb k (ht.lt hk)).1, sub_neg' (y k) (x k), square_neg]
  · intro h
    refine (sqrt_eq_zero hL hs).2 (sum_zero t fun k hk => ?_)
    rw [(ha k (ht.lt hk)).1, (hb k (ht.lt hk)).1]
    exact square_zero_of_le (h k (ht.lt hk))
  · intro h k hk
    have h1 := sum_eq_zero t hnn ((sqrt_eq_zero hL hs).1 h) k (ht.mem hk)
    rw [(ha k hk).1, (hb k hk).1] at h1
    exact lt_of_square_zero h1


/-- **C199.** A sample of which an example is a copy gets the label of an example which differs from it by less than
`2 ^ -537` on each entry; in particular its own label if examples with other labels differ more than this on some entry. -/
theorem C199_copy {α : Type} (hL : IsSqrt L.sq) {n : ℕ} {order : ℕ → ℕ → Tree} (ho : ∀ i j, (order i j).Adds n)
    {reco ex : List Row} {labels found : List α} (hl : labels.length = ex.length)
    (hex : ∀ e ∈ ex, ∃ y, Doubles n e y)
    (hf : classifyNN reco ex labels (fun i j => frobenius L (order i j)) = .ok found)
    {i c : ℕ} {r e : Row} {x : ℕ → ℚ} (hr : reco[i]? = some r) (hrx : Doubles n r x) (hc : ex[c]? = some e)
    (heq : ∀ k < n, e k = r k) :
    ∃ (m : ℕ) (e' : Row) (y : ℕ → ℚ), m ≤ c ∧ ex[m]? = some e' ∧ found[i]? = labels[m]? ∧ m < labels.length ∧
      Doubles n e' y ∧ ∀ k < n, |x k - y k| < 2 ^ (-537 : ℤ) := by
  have hne : ex ≠ [] := by
    rintro rfl
    simp at hc
  obtain ⟨found', h1, _, h3⟩ := C199_found reco ex labels (fun i j => frobenius L (order i j)) hne hl
  rw [hf] at h1
  injection h1 with h1
  subst h1
  obtain ⟨m, ⟨e', he', hm⟩, hfm, hml⟩ := h3 i r hr
  have dn : ∀ (j : ℕ) e', ex[j]? = some e' → NonNeg (frobenius L (order i j) r e') := by
    intro j e' he'
    obtain ⟨y, hy⟩ := hex e' (List.mem_iff_getElem?.2 ⟨j, he'⟩)
    exact (C199_frobenius hL (ho i j) hrx hy).1
  have hxc : Doubles n e x := fun k hk => by rw [heq k hk]; exact hrx k hk
  have h0 : frobenius L (order i c) r e = .fin 0 :=
    (C199_frobenius hL (ho i c) hrx hxc).2.2.1 fun k _ => by rw [sub_self, abs_zero]; positivity
  obtain ⟨y, hy⟩ := hex e' (List.mem_iff_getElem?.2 ⟨m, he'⟩)
  rcases hm with ⟨hm, _⟩ | ⟨_, hm2, hm3⟩
  · exfalso
    have := dn m e' he'
    simp only at hm
    rw [hm] at this
    rcases this with ⟨_, _, _, h⟩ | h <;> cases h
  · have hz : frobenius L (order i m) r e' = .fin 0 := by
      have h4 : ge (frobenius L (order i c) r e) (frobenius L (order i m) r e') = true := hm2 c e hc
      rw [h0] at h4
      rcases dn m e' he' with ⟨z, hz, _, h⟩ | h
      · rw [h] at h4 ⊢
        have : z ≤ 0 := by simpa [ge] using h4
        rw [le_antisymm this hz]
      · rw [h] at h4
        simp [ge] at h4
    refine ⟨m, e', y, ?_, he', hfm, hml, hy, (C199_frobenius hL (ho i m) hrx hy).2.2.2 hz⟩
    by_contra hlt
    push Not at hlt
    have h5 : ge (frobenius L (order i m) r e') (frobenius L (order i c) r e) = false := hm3 c hlt e hc
    rw [hz, h0] at h5
    simp [ge] at h5

/-! ### The error of distances -/

/-- The exact distance. -/
noncomputable def dist (n : ℕ) (x y : ℕ → ℚ) : ℝ := √((∑ k ∈ Finset.range n, (x k - y k) ^ 2 : ℚ) : ℝ)

/-- Differences of entries are not so large that their squares overflow, nor so small that they are not accurate. -/
def Moderate (n : ℕ) (x y : ℕ → ℚ) : Prop := ∀ k < n, |x k - y k| ≤ 2 ^ 480 ∧ (x k = y k ∨ 2 ^ (-500 : ℤ) ≤ |x k - y k|)

theorem sum_leaves {t : Tree} {n : ℕ} (ht : t.Adds n) (f : ℕ → ℚ) :
    (t.leaves.map f).sum = ∑ k ∈ Finset.range n, f k := by
  rw [(ht.map f).sum_eq, Finset.sum, Finset.range_val, Multiset.range, Multiset.map_coe, Multiset.sum_coe]

theorem Tree.Adds.length {t : Tree} {n : ℕ} (ht : t.Adds n) : t.leaves.length = n := by
  rw [List.Perm.length_eq ht, List.length_range]

/-- The computed square of a difference. -/
theorem square_sub_err {x y : ℚ} (hx : Double x) (hy : Double y) (h1 : |x - y| ≤ 2 ^ 480)
    (h2 : x = y ∨ 2 ^ (-500 : ℤ) ≤ |x - y|) :
    ∃ z, square (sub (.fin x) (.fin y)) = .fin z ∧ Double z ∧ 0 ≤ z ∧ |z| ≤ 2 ^ 960 ∧
      (1 - 1 / 2 ^ 53) ^ 3 * (x - y) ^ 2 ≤ z ∧ z ≤ (1 + 1 / 2 ^ 53) ^ 3 * (x - y) ^ 2 := by
  have e1 : sub (.fin x) (.fin y) = .fin (dbl (x - y)) := by
    show round (x + -y) = _
    rw [← sub_eq_add_neg]
    exact round_of_le (double_pow 480) h1 (pow_lt_pow_right₀ (by norm_num) (by norm_num))
  have r1 : |dbl (x - y) - (x - y)| ≤ |x - y| / 2 ^ 53 := by
    rw [sub_eq_add_neg x y]
    exact dbl_rel_add hx (Double.neg hy)
  have b1 := abs_dbl_le (double_pow 480) h1
  set d := dbl (x - y)
  have b2 : |d * d| ≤ 2 ^ 960 := by
    rw [abs_mul, show (960 : ℕ) = 480 + 480 by norm_num, pow_add]
    exact mul_le_mul b1 b1 (abs_nonneg _) (by positivity)
  have e2 : square (.fin d) = .fin (dbl (d * d)) :=
    round_of_le (double_pow 960) b2 (pow_lt_pow_right₀ (by norm_num) (by norm_num))
  refine ⟨dbl (d * d), by rw [e1, e2], dbl_double _, dbl_nonneg (mul_self_nonneg d), abs_dbl_le (double_pow 960) b2, ?_⟩
  rcases h2 with rfl | h2
  · have : d = 0 := by simp only [d]; rw [sub_self, dbl_zero]
    rw [this, sub_self, mul_zero, dbl_zero]
    simp
  · set D := |x - y|
    have hD0 : 0 < D := lt_of_lt_of_le (two_zpow_pos _) h2
    have hdl : (1 - 1 / 2 ^ 53) * D ≤ |d| := by
      have := abs_sub_abs_le_abs_sub (x - y) d
      rw [abs_sub_comm (x - y) d] at this
      have h3 : D - |d| ≤ D / 2 ^ 53 := this.trans r1
      linarith
    have hdu : |d| ≤ (1 + 1 / 2 ^ 53) * D := by
      have := abs_sub_abs_le_abs_sub d (x - y)
      have h3 : |d| - D ≤ D / 2 ^ 53 := this.trans r1
      linarith
    have hsq : d * d = |d| * |d| := (abs_mul_abs_self d).symm
    have hD2 : (x - y) ^ 2 = D * D := by rw [sq]; exact (abs_mul_abs_self _).symm
    have hlow : 2 ^ (-1022 : ℤ) ≤ |d * d| := by
      have h4 : (2 : ℚ) ^ (-501 : ℤ) ≤ |d| := by
        have h5 : (2 : ℚ) ^ (-501 : ℤ) = 2 ^ (-500 : ℤ) / 2 := by
          rw [show (-501 : ℤ) = -500 - 1 by norm_num, zpow_sub_one₀ (by norm_num)]
          rfl
        rw [h5]
        have : D / 2 ≤ (1 - 1 / 2 ^ 53) * D := by
          rw [div_eq_inv_mul]
          apply mul_le_mul_of_nonneg_right _ hD0.le
          norm_num
        linarith
      have h6 : (2 : ℚ) ^ (-1002 : ℤ) ≤ |d * d| := by
        rw [abs_mul, show (-1002 : ℤ) = -501 + -501 by norm_num, zpow_add₀ (by norm_num)]
        exact mul_le_mul h4 h4 (two_zpow_pos _).le (abs_nonneg _)
      exact (zpow_le_zpow_right₀ (by norm_num) (by norm_num)).trans h6
    have r2 := dbl_rel_ge hlow
    rw [abs_of_nonneg (mul_self_nonneg d)] at r2
    rw [abs_le] at r2
    have l2 : (1 - 1 / 2 ^ 53) ^ 2 * (D * D) ≤ d * d := by
      rw [hsq]
      have : ((1 - 1 / 2 ^ 53) * D) * ((1 - 1 / 2 ^ 53) * D) ≤ |d| * |d| :=
        mul_le_mul hdl hdl (mul_nonneg (by norm_num) hD0.le) (abs_nonneg _)
      calc (1 - 1 / 2 ^ 53 : ℚ) ^ 2 * (D * D) = ((1 - 1 / 2 ^ 53) * D) * ((1 - 1 / 2 ^ 53) * D) := by ring
        _ ≤ _ := this
    have u2 : d * d ≤ (1 + 1 / 2 ^ 53) ^ 2 * (D * D) := by
      rw [hsq]
      have : |d| * |d| ≤ ((1 + 1 / 2 ^ 53) * D) * ((1 + 1 / 2 ^ 53) * D) :=
        mul_le_mul hdu hdu (abs_nonneg _) (mul_nonneg (by norm_num) hD0.le)
      calc |d| * |d| ≤ _ := this
        _ = _ := by ring
    rw [hD2]
    constructor
    · calc (1 - 1 / 2 ^ 53 : ℚ) ^ 3 * (D * D) = (1 - 1 / 2 ^ 53) * ((1 - 1 / 2 ^ 53) ^ 2 * (D * D)) := by ring
        _ ≤ (1 - 1 / 2 ^ 53) * (d * d) := mul_le_mul_of_nonneg_left l2 (by norm_num)
        _ ≤ dbl (d * d) := by linarith [r2.1]
    · calc dbl (d * d) ≤ (1 + 1 / 2 ^ 53) * (d * d) := by linarith [r2.2]
        _ ≤ (1 + 1 / 2 ^ 53) * ((1 + 1 / 2 ^ 53) ^ 2 * (D * D)) := mul_le_mul_of_nonneg_left u2 (by norm_num)
        _ = _ := by ring

/-- The growth of relative errors. -/
theorem grow_le : ∀ m : ℕ, m ≤ 2 ^ 52 → (1 + 1 / 2 ^ 53 : ℚ) ^ m ≤ 1 + m / 2 ^ 52
  | 0, _ => by norm_num
  | m + 1, h => by
    have ih := grow_le m (by omega)
    have hm : (m : ℚ) ≤ 2 ^ 52 := by
      have : m ≤ 2 ^ 52 := by omega
      exact_mod_cast this
    rw [pow_succ]
    calc (1 + 1 / 2 ^ 53 : ℚ) ^ m * (1 + 1 / 2 ^ 53) ≤ (1 + (m : ℚ) / 2 ^ 52) * (1 + 1 / 2 ^ 53) := by gcongr
      _ = 1 + (m : ℚ) / 2 ^ 52 + 1 / 2 ^ 53 + ((m : ℚ) / 2 ^ 52) * (1 / 2 ^ 53) := by ring
      _ ≤ 1 + (m : ℚ) / 2 ^ 52 + 1 / 2 ^ 53 + 1 * (1 / 2 ^ 53) := by
        gcongr
        rw [div_le_one (by norm_num)]
        exact hm
      _ = 1 + ((m + 1 : ℕ) : ℚ) / 2 ^ 52 := by push_cast; ring

/-- **C199.** The error of a distance, whatever the order of additions. -/
theorem C199_error (hL : IsSqrt L.sq) {n : ℕ} (hn : n ≤ 2 ^ 50) {t : Tree} (ht : t.Adds n) {a b : Row} {x y : ℕ → ℚ}
    (ha : Doubles n a x) (hb : Doubles n b y) (hm : Moderate n x y) :
    ∃ d, frobenius L t a b = .fin d ∧ |(d : ℝ) - dist n x y| ≤ (n + 4) / 2 ^ 52 * dist n x y := by
  have hz : ∀ k, ∃ z, k < n → square (sub (a k) (b k)) = .fin z ∧ Double z ∧ 0 ≤ z ∧ |z| ≤ 2 ^ 960 ∧
      (1 - 1 / 2 ^ 53) ^ 3 * (x k - y k) ^ 2 ≤ z ∧ z ≤ (1 + 1 / 2 ^ 53) ^ 3 * (x k - y k) ^ 2 := by
    intro k
    by_cases hk : k < n
    · obtain ⟨z, hz⟩ := square_sub_err (ha k hk).2.1 (hb k hk).2.1 (hm k hk).1 (hm k hk).2
      refine ⟨z, fun _ => ?_⟩
      rw [(ha k hk).1, (hb k hk).1]
      exact hz
    · exact ⟨0, fun h => absurd h hk⟩
  choose z hz using hz
  have hsum : t.sum (fun k => square (sub (a k) (b k))) = t.sum fun k => .fin (z k) :=
    sum_congr t fun k hk => (hz k (ht.lt hk)).1
  obtain ⟨s, hs, ds, _⟩ := sum_bd (w := z) (p := 960) (by norm_num) t (by rw [ht.length]; omega)
    fun k hk => ⟨(hz k (ht.lt hk)).2.1, (hz k (ht.lt hk)).2.2.2.1⟩
  obtain ⟨_, es⟩ := sum_err t s (fun k hk => (hz k (ht.lt hk)).2.1) hs
  have habs : (t.leaves.map fun k => |z k|).sum = (t.leaves.map z).sum := by
    congr 1
    apply List.map_congr_left
    intro k hk
    exact abs_of_nonneg (hz k (ht.lt hk)).2.2.1
  rw [habs, ht.length, sum_leaves ht] at es
  set Z := ∑ k ∈ Finset.range n, z k
  set S := ∑ k ∈ Finset.range n, (x k - y k) ^ 2
  have hS0 : 0 ≤ S := Finset.sum_nonneg fun k _ => sq_nonneg _
  have hZl : (1 - 1 / 2 ^ 53) ^ 3 * S ≤ Z := by
    rw [Finset.mul_sum]
    exact Finset.sum_le_sum fun k hk => (hz k (Finset.mem_range.1 hk)).2.2.2.2.1
  have hZu : Z ≤ (1 + 1 / 2 ^ 53) ^ 3 * S := by
    rw [Finset.mul_sum]
    exact Finset.sum_le_sum fun k hk => (hz k (Finset.mem_range.1 hk)).2.2.2.2.2
  have hZ0 : 0 ≤ Z := (mul_nonneg (by norm_num) hS0).trans hZl
  set g : ℚ := (1 + 1 / 2 ^ 53) ^ n
  have hg1 : 1 ≤ g := grow_one n
  have hg2 : g ≤ 1 + n / 2 ^ 52 := grow_le n (by omega)
  have hnq : (n : ℚ) ≤ 2 ^ 50 := by exact_mod_cast hn
  have hg3 : g ≤ 2 := by
    have : (n : ℚ) / 2 ^ 52 ≤ 1 := by
      rw [div_le_one (by norm_num)]
      linarith
    linarith
  rw [abs_le] at es
  have hsl : (2 - g) * Z ≤ s := by linarith [es.1]
  have hsu : s ≤ g * Z := by linarith [es.2]
  have hs0 : 0 ≤ s := (mul_nonneg (by linarith) hZ0).trans hsl
  have hfr : frobenius L t a b = .fin (L.sq s) := by
    unfold frobenius
    rw [hsum, hs]
    simp [sqrt, not_lt.2 hs0]
  refine ⟨L.sq s, hfr, ?_⟩
  have hq := sq_rel hL ds hs0
  -- the bounds of the sum as real numbers
  set D := dist n x y with hD
  have hDS : D = √(S : ℝ) := rfl
  have hD0 : 0 ≤ D := Real.sqrt_nonneg _
  set q : ℚ := (n + 4) / 2 ^ 52 with hqd
  have hq0 : 0 ≤ q := by positivity
  have h14 : (14 : ℚ) / 10 ≤ 2 := by norm_num
  -- upper bound
  have hup : s ≤ (1 + q - 1 / 2 ^ 52) ^ 2 * S := by
    have : g * (1 + 1 / 2 ^ 53) ^ 3 ≤ (1 + q - 1 / 2 ^ 52) ^ 2 := by
      have h3 : (1 + 1 / 2 ^ 53 : ℚ) ^ 3 ≤ 1 + 2 / 2 ^ 52 := by norm_num
      have h4 : q - 1 / 2 ^ 52 = n / 2 ^ 52 + 3 / 2 ^ 52 := by rw [hqd]; ring
      have h5 : (0 : ℚ) ≤ n / 2 ^ 52 := by positivity
      calc g * (1 + 1 / 2 ^ 53) ^ 3 ≤ (1 + (n : ℚ) / 2 ^ 52) * (1 + 2 / 2 ^ 52) := by gcongr
        _ ≤ (1 + q - 1 / 2 ^ 52) ^ 2 := by
          rw [add_sub_assoc, h4]
          nlinarith
    calc s ≤ g * Z := hsu
      _ ≤ g * ((1 + 1 / 2 ^ 53) ^ 3 * S) := by gcongr
      _ = (g * (1 + 1 / 2 ^ 53) ^ 3) * S := by ring
      _ ≤ _ := by gcongr
  have hlo : (1 - q + 1 / 2 ^ 52) ^ 2 * S ≤ s := by
    have h4 : q - 1 / 2 ^ 52 = n / 2 ^ 52 + 3 / 2 ^ 52 := by rw [hqd]; ring
    have h5 : (0 : ℚ) ≤ n / 2 ^ 52 := by positivity
    have h6 : (n : ℚ) / 2 ^ 52 ≤ 1 / 4 := by
      rw [div_le_iff₀ (by norm_num)]
      linarith
    have : (1 - q + 1 / 2 ^ 52) ^ 2 ≤ (2 - g) * (1 - 1 / 2 ^ 53) ^ 3 := by
      have h3 : (1 - 2 / 2 ^ 52 : ℚ) ≤ (1 - 1 / 2 ^ 53) ^ 3 := by norm_num
      calc (1 - q + 1 / 2 ^ 52) ^ 2 = (1 - ((n : ℚ) / 2 ^ 52 + 3 / 2 ^ 52)) ^ 2 := by rw [← h4]; ring
        _ ≤ (1 - (n : ℚ) / 2 ^ 52) * (1 - 2 / 2 ^ 52) := by nlinarith
        _ ≤ (2 - g) * (1 - 1 / 2 ^ 53) ^ 3 := by
          apply mul_le_mul _ h3 (by norm_num) (by linarith)
          linarith
    calc (1 - q + 1 / 2 ^ 52) ^ 2 * S ≤ ((2 - g) * (1 - 1 / 2 ^ 53) ^ 3) * S := by gcongr
      _ = (2 - g) * ((1 - 1 / 2 ^ 53) ^ 3 * S) := by ring
      _ ≤ (2 - g) * Z := mul_le_mul_of_nonneg_left hZl (by linarith)
      _ ≤ s := hsl
  have hq2 : q ≤ 1 / 2 := by
    rw [hqd, div_le_iff₀ (by norm_num)]
    linarith
  have hupR : √(s : ℝ) ≤ (1 + q - 1 / 2 ^ 52) * D := by
    rw [hDS]
    have h7 : (0 : ℝ) ≤ 1 + q - 1 / 2 ^ 52 := by
      have h8 : (0 : ℚ) ≤ 1 + q - 1 / 2 ^ 52 := by linarith
      have h9 := (Rat.cast_le (K := ℝ)).2 h8
      push_cast at h9
      exact h9
    rw [← Real.sqrt_sq h7, ← Real.sqrt_mul (sq_nonneg _)]
    apply Real.sqrt_le_sqrt
    have h8 := (Rat.cast_le (K := ℝ)).2 hup
    push_cast at h8
    exact h8
  have hloR : (1 - q + 1 / 2 ^ 52) * D ≤ √(s : ℝ) := by
    rw [hDS]
    have h7 : (0 : ℝ) ≤ 1 - q + 1 / 2 ^ 52 := by
      have h8 : (0 : ℚ) ≤ 1 - q + 1 / 2 ^ 52 := by linarith
      have h9 := (Rat.cast_le (K := ℝ)).2 h8
      push_cast at h9
      exact h9
    rw [← Real.sqrt_sq h7, ← Real.sqrt_mul (sq_nonneg _)]
    apply Real.sqrt_le_sqrt
    have h8 := (Rat.cast_le (K := ℝ)).2 hlo
    push_cast at h8
    exact h8
  have hqR : ((n : ℝ) + 4) / 2 ^ 52 = (q : ℝ) := by rw [hqd]; push_cast; ring
  rw [hqR]
  have hq2R : (q : ℝ) ≤ 1 / 2 := by
    have : ((q : ℚ) : ℝ) ≤ ((1 / 2 : ℚ) : ℝ) := by exact_mod_cast hq2
    push_cast at this
    exact this
  have hs2 : √(s : ℝ) ≤ 2 * D := by nlinarith
  rw [abs_le] at hq ⊢
  have hq53 : √(s : ℝ) / 2 ^ 53 ≤ D / 2 ^ 52 := by
    rw [div_le_div_iff₀ (by norm_num) (by norm_num)]
    nlinarith
  constructor <;> nlinarith [hq.1, hq.2]

/-- **C199.** A sample gets the label of its exact nearest example when examples with other labels are farther by more
than the errors of distances, whatever the order of additions. -/
theorem C199_nearest {α : Type} (hL : IsSqrt L.sq) {n : ℕ} (hn : n ≤ 2 ^ 50) {order : ℕ → ℕ → Tree}
    (ho : ∀ i j, (order i j).Adds n) {reco ex : List Row} {labels found : List α} (hl : labels.length = ex.length)
    (hf : classifyNN reco ex labels (fun i j => frobenius L (order i j)) = .ok found)
    {i c : ℕ} {r e : Row} {x y : ℕ → ℚ} (hr : reco[i]? = some r) (hrx : Doubles n r x) (hc : ex[c]? = some e)
    (hey : Doubles n e y) (hmod : ∀ e' ∈ ex, ∃ y', Doubles n e' y' ∧ Moderate n x y')
    (hfar : ∀ (j : ℕ) e' y', ex[j]? = some e' → Doubles n e' y' → labels[j]? ≠ labels[c]? →
      (1 + (n + 4) / 2 ^ 52) * dist n x y < (1 - (n + 4) / 2 ^ 52) * dist n x y') :
    found[i]? = labels[c]? := by
  have hne : ex ≠ [] := by
    rintro rfl
    simp at hc
  obtain ⟨found', h1, _, h3⟩ := C199_found reco ex labels (fun i j => frobenius L (order i j)) hne hl
  rw [hf] at h1
  injection h1 with h1
  subst h1
  obtain ⟨m, ⟨e', he', hm⟩, hfm, hml⟩ := h3 i r hr
  rw [hfm]
  by_contra hdiff
  obtain ⟨y', hy', hmy'⟩ := hmod e' (List.mem_iff_getElem?.2 ⟨m, he'⟩)
  obtain ⟨y2, hy2, hmy2⟩ := hmod e (List.mem_iff_getElem?.2 ⟨c, hc⟩)
  have hmy : Moderate n x y := by
    intro k hk
    have : y k = y2 k := by
      have h4 := (hey k hk).1
      rw [(hy2 k hk).1] at h4
      injection h4 with h4
      exact h4.symm
    rw [this]
    exact hmy2 k hk
  obtain ⟨d1, hd1, hb1⟩ := C199_error hL hn (ho i m) hrx hy' hmy'
  obtain ⟨d2, hd2, hb2⟩ := C199_error hL hn (ho i c) hrx hey hmy
  have hlt := hfar m e' y' he' hy' hdiff
  rcases hm with ⟨hm, _⟩ | ⟨_, hm2, _⟩
  · simp only [hd1] at hm
    cases hm
  · have h4 : ge (frobenius L (order i c) r e) (frobenius L (order i m) r e') = true := hm2 c e hc
    rw [hd1, hd2] at h4
    have h5 : d1 ≤ d2 := by simpa [ge] using h4
    have h6 : (d1 : ℝ) ≤ d2 := by exact_mod_cast h5
    rw [abs_le] at hb1 hb2
    linarith [hb1.1, hb2.2]

/-! ### Witnesses and examples -/

/-- A row with one entry. -/
def one (x : ℚ) : Row := fun _ => .fin x

set_option exponentiation.threshold 2000 in
/-- **C199.** Distances of large numbers are all infinite: the first example is found although the second one is nearer. -/
theorem C199_overflow : classifyNN [one (2 ^ 600)] [one 0, one (2 ^ 599)] ["far", "near"]
    (fun _ _ => frobenius L (.leaf 0)) = .ok ["far"] := by
  have h1 : frobenius L (.leaf 0) (one (2 ^ 600)) (one 0) = .inf false := by
    show sqrt L (square (sub (.fin (2 ^ 600)) (.fin 0))) = _
    have : square (sub (.fin (2 ^ 600)) (.fin 0)) = .inf false := by decide +kernel
    rw [this]
    rfl
  have h2 : frobenius L (.leaf 0) (one (2 ^ 600)) (one (2 ^ 599)) = .inf false := by
    show sqrt L (square (sub (.fin (2 ^ 600)) (.fin (2 ^ 599)))) = _
    have : square (sub (.fin (2 ^ 600)) (.fin (2 ^ 599))) = .inf false := by decide +kernel
    rw [this]
    rfl
  show distsToFoundLabels 2 [[frobenius L (.leaf 0) (one (2 ^ 600)) (one 0),
    frobenius L (.leaf 0) (one (2 ^ 600)) (one (2 ^ 599))]] _ = _
  rw [h1, h2]
  rfl

set_option exponentiation.threshold 2000 in
/-- **C199.** Squares of tiny differences are zero: a sample which is a copy of the second example gets the label of the
first one. -/
theorem C199_underflow (hL : IsSqrt L.sq) : classifyNN [one 0] [one (1 / 2 ^ 538), one 0] ["other", "same"]
    (fun _ _ => frobenius L (.leaf 0)) = .ok ["other"] := by
  have h1 : frobenius L (.leaf 0) (one 0) (one (1 / 2 ^ 538)) = .fin 0 := by
    show sqrt L (square (sub (.fin 0) (.fin (1 / 2 ^ 538)))) = _
    have : square (sub (.fin 0) (.fin (1 / 2 ^ 538))) = .fin 0 := by decide +kernel
    rw [this]
    simp [sqrt, sq_zero hL]
  have h2 : frobenius L (.leaf 0) (one 0) (one 0) = .fin 0 := by
    show sqrt L (square (sub (.fin 0) (.fin 0))) = _
    have : square (sub (.fin 0) (.fin 0)) = .fin 0 := by decide +kernel
    rw [this]
    simp [sqrt, sq_zero hL]
  show distsToFoundLabels 2 [[frobenius L (.leaf 0) (one 0) (one (1 / 2 ^ 538)),
    frobenius L (.leaf 0) (one 0) (one 0)]] _ = _
  rw [h1, h2]
  rfl

end Verif.Evaluation.D
