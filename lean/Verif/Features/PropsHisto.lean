import Verif.Features.Props
import Verif.Utils.Props
import Mathlib.Analysis.SpecialFunctions.Log.Basic
import Mathlib.Algebra.BigOperators.Field

/-!
# Properties of vector quantisation and of histograms of angles (C65, C66, C67, C105)
-/

namespace Verif.Features

open Verif.NMF Finset

/-! ## Specification -/

/-- Square of the distance between line `i` of `x` and line `k` of `c`. -/
noncomputable def sqDist (x c : Mat) (i k : ℕ) : ℝ := ∑ j ∈ range x.c, (x.e i j - c.e k j) ^ 2

/-! ## C65: vector quantisation -/

theorem argmin_spec (f : ℕ → ℝ) (n : ℕ) (hn : 0 < n) :
    argmin f n < n ∧ (∀ k < n, f (argmin f n) ≤ f k) ∧ ∀ k < argmin f n, f (argmin f n) < f k := by
  induction n with
  | zero => omega
  | succ n ih =>
    rcases Nat.eq_zero_or_pos n with rfl | h
    · have e : argmin f 1 = 0 := by
        simp only [argmin]
        exact ite_self _
      rw [e]
      refine ⟨by omega, fun k hk => ?_, fun k hk => by omega⟩
      rw [Nat.lt_one_iff.1 hk]
    · obtain ⟨h1, h2, h3⟩ := ih h
      simp only [argmin]
      by_cases hlt : f n < f (argmin f n)
      · rw [if_pos hlt]
        refine ⟨by omega, fun k hk => ?_, fun k hk => lt_of_lt_of_le hlt (h2 k hk)⟩
        rcases Nat.lt_succ_iff_lt_or_eq.1 hk with h' | rfl
        · exact le_of_lt (lt_of_lt_of_le hlt (h2 k h'))
        · exact le_rfl
      · rw [if_neg hlt]
        refine ⟨by omega, fun k hk => ?_, h3⟩
        rcases Nat.lt_succ_iff_lt_or_eq.1 hk with h' | rfl
        · exact h2 k h'
        · exact not_lt.1 hlt

/-- **C65**, `associate`: the code of a vector is the first of its nearest centroids. -/
theorem C65_associate (x c : Mat) (hc : x.c = c.c) (hk : 0 < c.r) :
    ∃ a, associate x c = .ok a ∧ ∀ i < x.r, a i < c.r ∧
      (∀ k < c.r, sqDist x c i (a i) ≤ sqDist x c i k) ∧
      ∀ k < a i, sqDist x c i (a i) < sqDist x c i k := by
  refine ⟨fun i => argmin (sqDist x c i) c.r, ?_, fun i _ => argmin_spec (sqDist x c i) c.r hk⟩
  unfold associate squareDistances
  rw [if_pos hc]
  show (if c.r = 0 then _ else _) = _
  rw [if_neg (by omega)]
  rfl

/-- **C65**: vectors and centroids with different numbers of columns are refused. -/
theorem C65_dimensions (x c : Mat) (hc : x.c ≠ c.c) (alpha : ℝ) :
    associate x c = .error .assertionError ∧ softAssociate x c alpha = .error .assertionError := by
  constructor
  · unfold associate squareDistances; rw [if_neg hc]; rfl
  · unfold softAssociate squareDistances; rw [if_neg hc]; rfl

/-- **C65**, hard quantisation, when codes are those of nearest centroids: each line is null but for a
one at a nearest centroid. -/
theorem C65_hard (vq : Mat → Mat → Py (ℕ → ℕ)) (x c : Mat) (a : ℕ → ℕ) (hvq : vq x c = .ok a)
    (hlt : ∀ i < x.r, a i < c.r)
    (hmin : ∀ i < x.r, ∀ k < c.r, sqDist x c i (a i) ≤ sqDist x c i k) :
    ∃ h, getHistos vq x c none = .ok h ∧ h.r = x.r ∧ h.c = c.r ∧
      ∀ i < x.r, ∃ m < c.r, (∀ k < c.r, sqDist x c i m ≤ sqDist x c i k) ∧
        h.e i m = 1 ∧ ∀ k < c.r, k ≠ m → h.e i k = 0 := by
  refine ⟨⟨x.r, c.r, fun i k => if a i = k then 1 else 0⟩, ?_, rfl, rfl, fun i hi =>
    ⟨a i, hlt i hi, hmin i hi, if_pos rfl, fun k _ hk => if_neg fun e => hk e.symm⟩⟩
  unfold getHistos
  simp only [hvq]
  show (if _ then _ else _) = _
  rw [if_pos fun i hi => hlt i (List.mem_range.1 hi)]
  rfl

/-- **C65**: with the codes of `associate`. -/
theorem C65_hard_associate (x c : Mat) (hc : x.c = c.c) (hk : 0 < c.r) :
    ∃ h, getHistos associate x c none = .ok h ∧ h.r = x.r ∧ h.c = c.r ∧
      ∀ i < x.r, ∃ m < c.r, (∀ k < c.r, sqDist x c i m ≤ sqDist x c i k) ∧
        h.e i m = 1 ∧ ∀ k < c.r, k ≠ m → h.e i k = 0 := by
  obtain ⟨a, ha, h⟩ := C65_associate x c hc hk
  exact C65_hard associate x c a ha (fun i hi => (h i hi).1) fun i hi => (h i hi).2.1

/-- **C65**: a code which is not the one of a centroid raises `IndexError`. -/
theorem C65_bad_code (vq : Mat → Mat → Py (ℕ → ℕ)) (x c : Mat) (a : ℕ → ℕ) (hvq : vq x c = .ok a)
    (i : ℕ) (hi : i < x.r) (ha : c.r ≤ a i) : getHistos vq x c none = .error .indexError := by
  unfold getHistos
  simp only [hvq]
  show (if _ then _ else _) = _
  rw [if_neg]
  intro h
  have := h i (List.mem_range.2 hi)
  omega

/-- **C65**, soft quantisation: lines are positive and sum to one; the ratio of two weights is the
exponential of `alpha` times the difference of the square distances over the smallest one (plus
`1e-9`). -/
theorem C65_soft (vq : Mat → Mat → Py (ℕ → ℕ)) (x c : Mat) (hc : x.c = c.c) (hk : 0 < c.r) (alpha : ℝ) :
    ∃ h, getHistos vq x c (some alpha) = .ok h ∧ h.r = x.r ∧ h.c = c.r ∧
      ∀ i < x.r, (∀ k < c.r, 0 < h.e i k) ∧ ∑ k ∈ range c.r, h.e i k = 1 ∧
        ∃ m < c.r, (∀ k < c.r, sqDist x c i m ≤ sqDist x c i k) ∧
          ∀ k l, h.e i k = h.e i l *
            Real.exp (alpha * (sqDist x c i l - sqDist x c i k) / (1 / 10 ^ 9 + sqDist x c i m)) := by
  set w : ℕ → ℕ → ℝ := fun i k => Real.exp (-alpha * sqDist x c i k /
    (1 / 10 ^ 9 + sqDist x c i (argmin (sqDist x c i) c.r))) with hw
  have hpos : ∀ i, 0 < ∑ l ∈ range c.r, w i l := fun i =>
    Finset.sum_pos (fun l _ => Real.exp_pos _) ⟨0, Finset.mem_range.2 hk⟩
  refine ⟨⟨x.r, c.r, fun i k => w i k / ∑ l ∈ range c.r, w i l⟩, ?_, rfl, rfl, fun i hi =>
    ⟨fun k hk => div_pos (Real.exp_pos _) (hpos i), ?_, argmin (sqDist x c i) c.r, 
      (argmin_spec _ _ hk).1, (argmin_spec _ _ hk).2.1, fun k l => ?_⟩⟩
  · unfold getHistos softAssociate squareDistances
    simp only []
    rw [if_pos hc]
    show (if c.r = 0 then _ else _) = _
    rw [if_neg (by omega)]
    rfl
  · show ∑ k ∈ range c.r, w i k / ∑ l ∈ range c.r, w i l = 1
    rw [← Finset.sum_div, div_self (hpos i).ne']
  · show w i k / _ = w i l / _ * _
    have e : w i k = w i l * Real.exp (alpha * (sqDist x c i l - sqDist x c i k) /
        (1 / 10 ^ 9 + sqDist x c i (argmin (sqDist x c i) c.r))) := by
      rw [hw]
      simp only []
      rw [← Real.exp_add]
      congr 1
      ring
    rw [e]
    ring

/-- **C65**: with a positive `alpha` closer centroids have larger weights. -/
theorem C65_soft_order (vq : Mat → Mat → Py (ℕ → ℕ)) (x c : Mat) (hc : x.c = c.c) (hk : 0 < c.r)
    (alpha : ℝ) (ha : 0 < alpha) (h : Mat) (hh : getHistos vq x c (some alpha) = .ok h) :
    ∀ i < x.r, ∀ k < c.r, ∀ l < c.r, h.e i k < h.e i l ↔ sqDist x c i l < sqDist x c i k := by
  obtain ⟨h', e, -, -, hs⟩ := C65_soft vq x c hc hk alpha
  obtain rfl := Except.ok.inj (hh.symm.trans e)
  intro i hi k hk' l hl
  obtain ⟨hp, -, m, -, -, hr⟩ := hs i hi
  have hm : 0 ≤ sqDist x c i m := Finset.sum_nonneg fun j _ => sq_nonneg _
  have hden : 0 < 1 / 10 ^ 9 + sqDist x c i m := by positivity
  rw [hr k l, mul_lt_iff_lt_one_right (hp l hl), Real.exp_lt_one_iff, div_lt_iff₀ hden, zero_mul,
    mul_neg_iff]
  constructor
  · rintro (⟨-, h⟩ | ⟨h, -⟩)
    · linarith
    · linarith
  · intro h
    exact Or.inl ⟨ha, by linarith⟩

/-- Two vectors and two centroids. -/
example : ∃ h, getHistos associate ⟨2, 1, fun i _ => i⟩ ⟨2, 1, fun k _ => 3 * k⟩ (some (1 / 2)) = .ok h ∧
    h.e 1 1 < h.e 1 0 := by
  obtain ⟨h, e, -⟩ := C65_soft associate ⟨2, 1, fun i _ => i⟩ ⟨2, 1, fun k _ => 3 * k⟩ rfl
    (by norm_num) (1 / 2)
  refine ⟨h, e, (C65_soft_order associate ⟨2, 1, fun i _ => i⟩ ⟨2, 1, fun k _ => 3 * k⟩ rfl
    (by norm_num) (1 / 2) (by norm_num) h e 1 (by norm_num) 1 (by norm_num) 0 (by norm_num)).2 ?_⟩
  simp [sqDist]
  norm_num

/-! ## C66: stacking and unstacking examples -/

theorem zipWith_dropLast {α β : Type} (f : α → α → β) (s : α) (l : List α) (h : l ≠ []) :
    List.zipWith f (s :: l.dropLast) l = List.zipWith f (s :: l) l := by
  induction l generalizing s with
  | nil => exact absurd rfl h
  | cons b l ih =>
    cases l with
    | nil => rfl
    | cons c l => 
      have := ih b (by simp)
      simpa using this

theorem unCompact_from {V : Type} (x : List (List V)) (pre : List V) :
    List.zipWith (fun i j : ℕ => pySlice (pre ++ x.flatten) (i : ℤ) (j : ℤ))
      (pre.length :: ((x.map List.length).scanl (· + ·) pre.length).tail)
      ((x.map List.length).scanl (· + ·) pre.length).tail = x := by
  induction x generalizing pre with
  | nil => rfl
  | cons a x ih =>
    have h := ih (pre ++ a)
    rw [List.length_append, List.append_assoc] at h
    simp only [List.map_cons, List.scanl_cons, List.tail_cons, List.flatten_cons]
    have hs : (x.map List.length).scanl (· + ·) (pre.length + a.length) =
        (pre.length + a.length) :: ((x.map List.length).scanl (· + ·) (pre.length + a.length)).tail := by
      cases x <;> simp
    rw [hs, List.zipWith_cons_cons, h, pySlice_nat]
    simp

/-- **C66**: unstacking gives the list of arrays back. -/
theorem C66_round_trip {V : Type} (x : List (List V)) (hx : x ≠ []) :
    ∃ v idx, compactExamples x = .ok (v, idx) ∧ unCompactExamples v idx = x := by
  refine ⟨_, _, if_neg hx, ?_⟩
  unfold unCompactExamples
  have hne : ((x.map List.length).scanl (· + ·) 0).tail ≠ [] := by
    obtain ⟨a, t, rfl⟩ := List.exists_cons_of_ne_nil hx
    intro e
    have := congrArg List.length e
    simp at this
  have hup : pyUpto ((x.map List.length).scanl (· + ·) 0).tail (-1) =
      ((x.map List.length).scanl (· + ·) 0).tail.dropLast := by
    unfold pyUpto pyBound
    rw [if_pos (by omega), List.dropLast_eq_take]
    congr 1
    have := List.length_pos_iff.2 hne
    omega
  rw [hup, List.singleton_append, zipWith_dropLast _ _ _ hne]
  exact unCompact_from x []

example : compactExamples [[1, 2], [], [3]] = .ok ([1, 2, 3], [2, 2, 3]) ∧
    unCompactExamples [1, 2, 3] [2, 2, 3] = [[1, 2], [], [3]] := by decide

/-- **C66**: the stacked array holds the lines in order, and each index is the number of lines of the
arrays up to it. -/
theorem C66_compact {V : Type} (x : List (List V)) (hx : x ≠ []) :
    ∃ v idx, compactExamples x = .ok (v, idx) ∧ v = x.flatten ∧ idx.length = x.length ∧
      ∀ i < x.length, idx[i]? = some ((x.take (i + 1)).map List.length).sum := by
  refine ⟨_, _, if_neg hx, rfl, by simp, fun i hi => ?_⟩
  have key : ∀ (l : List ℕ) (s i : ℕ), i < l.length →
      (l.scanl (· + ·) s).tail[i]? = some (s + (l.take (i + 1)).sum) := by
    intro l
    induction l with
    | nil => intro s i h; simp at h
    | cons a l ih =>
      intro s i h
      simp only [List.scanl_cons, List.tail_cons, List.take_succ_cons, List.sum_cons]
      cases i with
      | zero => cases l <;> simp
      | succ i =>
        have h' := ih (s + a) i (by simpa using h)
        have hs : l.scanl (· + ·) (s + a) = (s + a) :: (l.scanl (· + ·) (s + a)).tail := by
          cases l <;> simp
        rw [hs, List.getElem?_cons_succ, h', Nat.add_assoc]
  rw [key _ 0 i (by simpa using hi), Nat.zero_add, List.map_take]

/-! ## C67: velocity options of histogram features -/

/-- **C67**: the arguments `vel_delay` and `vel_padding` have no effect. -/
theorem C67_options {d : ℕ} {R : Type} (angles : List (List (Fin d → ℚ))) (vd vd' : ℤ) (vp vp' : String)
    (nbBins : ℕ) (bounds velBounds : Option (ℚ × ℚ)) :
    (∀ (kde : List (ℚ × ℚ) → ℚ → ℚ → ℕ → (ℚ × ℚ) × (ℚ × ℚ) → Bool → Py (List R)) relH fft,
      dbToBinnedHistMatrix kde angles vd vp nbBins bounds velBounds relH fft =
      dbToBinnedHistMatrix kde angles vd' vp' nbBins bounds velBounds relH fft) ∧
    ∀ py3 whiten kmeans histos soft,
      dbToVQHistMatrix py3 whiten kmeans histos angles vd vp nbBins bounds velBounds soft =
      dbToVQHistMatrix py3 whiten kmeans histos angles vd' vp' nbBins bounds velBounds soft :=
  ⟨fun _ _ _ => rfl, fun _ _ _ _ _ => rfl⟩

/-- Velocity with a delay of 1 and zero padding. -/
def vel {d : ℕ} (a : List (Fin d → ℚ)) (t : ℕ) (j : Fin d) : ℚ :=
  a.getD t 0 j - if t = 0 then 0 else a.getD (t - 1) 0 j

/-- A value cut to bounds, if given. -/
def cut (bounds : Option (ℚ × ℚ)) (x : ℚ) : ℚ :=
  match bounds with
  | none => x
  | some b => max (min x b.2) b.1

/-- Bounds which are used: the given ones, else the least and the greatest of the values. -/
def Bounds (bounds : Option (ℚ × ℚ)) (values : Set ℚ) (b : ℚ × ℚ) : Prop :=
  match bounds with
  | none => IsLeast values b.1 ∧ IsGreatest values b.2
  | some b' => b = b'

theorem vels_eq {d : ℕ} (a : List (Fin d → ℚ)) :
    Utils.delayedVelocities 1 a "zeros" = .ok ((List.range a.length).map fun t => vel a t) := by
  obtain ⟨r, hr, hl, he⟩ := Utils.C25_delayed_zeros 1 (by norm_num) a
  have : ((1 : ℕ) : ℤ) = 1 := rfl
  rw [this] at hr
  rw [hr]
  congr 1
  apply List.ext_getElem?
  intro i
  by_cases hi : i < a.length
  · rw [he i hi, List.getElem?_map, List.getElem?_range hi]
    simp only [Option.map_some, Option.some.injEq]
    funext j
    unfold vel
    have e : a.getD i 0 = a[i] := by
      rw [List.getD_eq_getElem?_getD, List.getElem?_eq_getElem hi, Option.getD_some]
    rw [e]
    by_cases h0 : i = 0
    · rw [if_pos h0, if_pos (by omega)]; rfl
    · rw [if_neg h0, if_neg (by omega)]; rfl
  · rw [List.getElem?_eq_none (by omega), List.getElem?_eq_none (by simp; omega)]

theorem foldl_min_spec (l : List ℚ) (m : ℚ) :
    l.foldl min m ∈ m :: l ∧ ∀ x ∈ m :: l, l.foldl min m ≤ x := by
  induction l generalizing m with
  | nil => simp
  | cons a l ih =>
    obtain ⟨h1, h2⟩ := ih (min m a)
    rw [List.foldl_cons]
    constructor
    · rcases List.mem_cons.1 h1 with h | h
      · rw [h]
        rcases min_choice m a with e | e <;> rw [e] <;> simp
      · exact List.mem_cons_of_mem _ (List.mem_cons_of_mem _ h)
    · intro x hx
      have hm := h2 (min m a) List.mem_cons_self
      rcases List.mem_cons.1 hx with rfl | hx
      · exact le_trans hm (min_le_left _ _)
      · rcases List.mem_cons.1 hx with rfl | hx
        · exact le_trans hm (min_le_right _ _)
        · exact h2 x (List.mem_cons_of_mem _ hx)

theorem foldl_max_spec (l : List ℚ) (m : ℚ) :
    l.foldl max m ∈ m :: l ∧ ∀ x ∈ m :: l, x ≤ l.foldl max m := by
  induction l generalizing m with
  | nil => simp
  | cons a l ih =>
    obtain ⟨h1, h2⟩ := ih (max m a)
    rw [List.foldl_cons]
    constructor
    · rcases List.mem_cons.1 h1 with h | h
      · rw [h]
        rcases max_choice m a with e | e <;> rw [e] <;> simp
      · exact List.mem_cons_of_mem _ (List.mem_cons_of_mem _ h)
    · intro x hx
      have hm := h2 (max m a) List.mem_cons_self
      rcases List.mem_cons.1 hx with rfl | hx
      · exact le_trans (le_max_left _ _) hm
      · rcases List.mem_cons.1 hx with rfl | hx
        · exact le_trans (le_max_right _ _) hm
        · exact h2 x (List.mem_cons_of_mem _ hx)

theorem mem_values {d : ℕ} (l : List (List (Fin d → ℚ))) (x : ℚ) :
    x ∈ values l ↔ ∃ a ∈ l, ∃ r ∈ a, ∃ j, r j = x := by
  unfold values
  simp only [List.mem_flatMap, List.mem_flatten, List.mem_ofFn]
  constructor
  · rintro ⟨r, ⟨a, ha, hr⟩, j, hj⟩
    exact ⟨a, ha, r, hr, j, hj⟩
  · rintro ⟨a, ha, r, hr, j, hj⟩
    exact ⟨r, ⟨a, ha, hr⟩, j, hj⟩

theorem boundsAndData_eq {d : ℕ} (bounds : Option (ℚ × ℚ)) (l : List (List (Fin d → ℚ))) (b : ℚ × ℚ)
    (h : Bounds bounds {x | ∃ a ∈ l, ∃ r ∈ a, ∃ j, r j = x} b) :
    boundsAndData bounds l = .ok (b, l.map fun a => a.map fun r => fun j => cut bounds (r j)) := by
  cases bounds with
  | some b' =>
    obtain rfl : b = b' := h
    rfl
  | none =>
    obtain ⟨⟨h1, h2⟩, h3, h4⟩ := h
    unfold boundsAndData getBounds
    have hm1 := (mem_values l b.1).2 h1
    have hm2 := (mem_values l b.2).2 h3
    have hl : ∀ x ∈ values l, b.1 ≤ x := fun x hx => h2 ((mem_values l x).1 hx)
    have hu : ∀ x ∈ values l, x ≤ b.2 := fun x hx => h4 ((mem_values l x).1 hx)
    cases hv : values l with
    | nil => rw [hv] at hm1; simp at hm1
    | cons x xs =>
      rw [hv] at hm1 hm2 hl hu
      have e1 : xs.foldl min x = b.1 := le_antisymm ((foldl_min_spec xs x).2 _ hm1)
        (hl _ (foldl_min_spec xs x).1)
      have e2 : xs.foldl max x = b.2 := le_antisymm (hu _ (foldl_max_spec xs x).1)
        ((foldl_max_spec xs x).2 _ hm2)
      simp only [e1, e2]
      show Except.ok (b, l) = _
      simp [cut]

theorem binned_eq {d : ℕ} {R : Type} (hd : 0 < d)
    (kde : List (ℚ × ℚ) → ℚ → ℚ → ℕ → (ℚ × ℚ) × (ℚ × ℚ) → Bool → Py (List R))
    (K : List (Fin d → ℚ) → Fin d → List R)
    (angles : List (List (Fin d → ℚ))) (ha : angles ≠ []) (vd : ℤ) (vp : String) (nbBins : ℕ)
    (bounds velBounds : Option (ℚ × ℚ)) (relH : ℚ) (fft : Bool) (b vb : ℚ × ℚ)
    (hb : Bounds bounds {x | ∃ a ∈ angles, ∃ r ∈ a, ∃ j, r j = x} b)
    (hvb : Bounds velBounds {x | ∃ a ∈ angles, ∃ t < a.length, ∃ j, vel a t j = x} vb)
    (hK : ∀ a ∈ angles, ∀ j, kde ((List.range a.length).map fun t =>
        (cut bounds (a.getD t 0 j), cut velBounds (vel a t j)))
      (relH * (b.2 - b.1)) (relH * (vb.2 - vb.1)) (Nat.sqrt nbBins) ((b.1, vb.1), (b.2, vb.2)) fft =
        .ok (K a j)) :
    dbToBinnedHistMatrix kde angles vd vp nbBins bounds velBounds relH fft =
      .ok (angles.map fun a => (List.finRange d).flatMap fun j => K a j) := by
  have hv := mapM_ok (fun a : List (Fin d → ℚ) => Utils.delayedVelocities 1 a "zeros")
    (fun a => (List.range a.length).map fun t => vel a t) angles fun a _ => vels_eq a
  have hav : dbToAnglesAndVels angles 1 "zeros" =
      .ok (angles, angles.map fun a => (List.range a.length).map fun t => vel a t) := by
    unfold dbToAnglesAndVels
    rw [hv]
    rfl
  have hvb' : Bounds velBounds {x | ∃ a ∈ angles.map fun a : List (Fin d → ℚ) =>
      (List.range a.length).map fun t => vel a t, ∃ r ∈ a, ∃ j, r j = x} vb := by
    have e : {x | ∃ a ∈ angles.map fun a : List (Fin d → ℚ) =>
        (List.range a.length).map fun t => vel a t, ∃ r ∈ a, ∃ j, r j = x} =
        {x | ∃ a ∈ angles, ∃ t < a.length, ∃ j, vel a t j = x} := by
      ext x
      simp
    rw [e]
    exact hvb
  unfold dbToBinnedHistMatrix
  rw [hav]
  simp only [bind, Except.bind]
  rw [boundsAndData_eq bounds angles b hb]
  simp only []
  rw [boundsAndData_eq velBounds _ vb hvb']
  simp only [List.map_map]
  rw [List.zip_map', List.mapM_map]
  simp only [Function.comp_def]
  rw [mapM_ok (g := fun a => (List.finRange d).map (K a)) (h := fun a ha => mapM_ok _ _ _ fun j _ => by
    rw [← hK a ha j]
    congr 1
    apply List.ext_getElem
    · simp
    · intro t h1 h2
      simp only [List.length_map, List.length_range] at h2
      simp [List.getElem_zipWith, List.getElem?_eq_getElem h2])]
  simp only []
  rw [mapM_ok (g := List.flatten) (h := by
    intro x hx
    unfold hstack1
    rw [if_neg]
    obtain ⟨p, -, rfl⟩ := List.mem_map.1 hx
    intro e
    have := congrArg List.length e
    simp at this
    omega)]
  simp only [List.map_map, Function.comp_def]
  rw [if_neg (by simpa using ha)]
  simp only [pure, Except.pure, List.flatMap_def]

/-- **C67**: what is given to the density estimator, for each record and each degree of freedom: the
angles and the velocities with delay 1 and zero padding, cut to the bounds if given; bandwidths relative
to the bounds; the square root of the number of bins in each direction.  The line of a record is the
estimates for its degrees of freedom one after the other. -/
theorem C67_binned {d : ℕ} {R : Type} (hd : 0 < d)
    (K : List (ℚ × ℚ) → ℚ → ℚ → ℕ → (ℚ × ℚ) × (ℚ × ℚ) → Bool → List R)
    (angles : List (List (Fin d → ℚ))) (ha : angles ≠ []) (vd : ℤ) (vp : String) (nbBins : ℕ)
    (bounds velBounds : Option (ℚ × ℚ)) (relH : ℚ) (fft : Bool) (b vb : ℚ × ℚ)
    (hb : Bounds bounds {x | ∃ a ∈ angles, ∃ r ∈ a, ∃ j, r j = x} b)
    (hvb : Bounds velBounds {x | ∃ a ∈ angles, ∃ t < a.length, ∃ j, vel a t j = x} vb) :
    dbToBinnedHistMatrix (fun s h hv n bs f => .ok (K s h hv n bs f)) angles vd vp nbBins bounds velBounds
      relH fft = .ok (angles.map fun a => (List.finRange d).flatMap fun j =>
        K ((List.range a.length).map fun t => (cut bounds (a.getD t 0 j), cut velBounds (vel a t j)))
          (relH * (b.2 - b.1)) (relH * (vb.2 - vb.1)) (Nat.sqrt nbBins) ((b.1, vb.1), (b.2, vb.2)) fft) :=
  binned_eq hd _ (fun a j => K _ _ _ _ _ _) angles ha vd vp nbBins bounds velBounds relH fft b vb hb hvb
    fun _ _ _ => rfl

example : dbToBinnedHistMatrix (d := 1) (fun s _ _ _ _ _ => .ok (s.map Prod.snd))
    [[fun _ => 1, fun _ => 3, fun _ => 2]] 5 "circular" 16 none none (3 / 10) true = .ok [[1, 2, -1]] := by
  decide +kernel

end Verif.Features
