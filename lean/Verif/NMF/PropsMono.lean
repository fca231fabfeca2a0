import Verif.NMF.Props
import Mathlib.Analysis.SpecialFunctions.Log.Basic

/-!
# Properties C56 and C103 of `multimodal/lib/nmf.py`: the updates of coefficients and the divergence
-/

namespace Verif.NMF

open Finset

/-! ### One row of coefficients -/

section Row

variable (K J : Finset ℕ) (a : ℕ → ℝ) (h : ℕ → ℕ → ℝ) (w : ℕ → ℝ) (eps : ℝ)

/-- The product of a row of coefficients with the components, plus `eps`. -/
noncomputable def rowY (j : ℕ) : ℝ := ∑ k ∈ K, w k * h k j + eps

/-- The ratios by which the update multiplies the coefficients. -/
noncomputable def rowR (k : ℕ) : ℝ := ∑ j ∈ J, a j / rowY K h w eps j * h k j

theorem mul_log_ge {r : ℝ} (hr : 0 ≤ r) : 0 ≤ r * Real.log r - r + 1 := by
  rcases hr.eq_or_lt with h0 | hp
  · rw [← h0]; simp
  · have := Real.log_le_sub_one_of_pos (inv_pos.2 hp)
    rw [Real.log_inv] at this
    have h2 := mul_le_mul_of_nonneg_left this hr
    have h3 : r * (r⁻¹ - 1) = 1 - r := by field_simp
    rw [h3] at h2
    linarith

theorem mul_log_pos {r : ℝ} (hr : 0 ≤ r) (h1 : r ≠ 1) : 0 < r * Real.log r - r + 1 := by
  rcases hr.eq_or_lt with h0 | hp
  · rw [← h0]; simp
  · have hne : r⁻¹ ≠ 1 := fun hc => h1 (inv_eq_one.1 hc)
    have := Real.log_lt_sub_one_of_pos (inv_pos.2 hp) hne
    rw [Real.log_inv] at this
    have h2 := mul_lt_mul_of_pos_left this hp
    have h3 : r * (r⁻¹ - 1) = 1 - r := by field_simp
    rw [h3] at h2
    linarith

variable (ha : ∀ j ∈ J, 0 ≤ a j) (hh : ∀ k ∈ K, ∀ j ∈ J, 0 ≤ h k j) (hw : ∀ k ∈ K, 0 ≤ w k)
  (he : 0 < eps)

include hh hw he in
theorem rowY_pos {j : ℕ} (hj : j ∈ J) : 0 < rowY K h w eps j := by
  have : 0 ≤ ∑ k ∈ K, w k * h k j :=
    Finset.sum_nonneg fun k hk => mul_nonneg (hw k hk) (hh k hk j hj)
  unfold rowY
  linarith

include ha hh hw he in
theorem rowR_nonneg {k : ℕ} (hk : k ∈ K) : 0 ≤ rowR K J a h w eps k :=
  Finset.sum_nonneg fun j hj => mul_nonneg
    (div_nonneg (ha j hj) (rowY_pos K J h w eps hh hw he hj).le) (hh k hk j hj)

include ha hh hw he in
/-- The update of a row of coefficients decreases its objective by at least the divergence between
the new coefficients and the old ones. -/
theorem row_descent :
    (-∑ j ∈ J, a j * Real.log (rowY K h (fun k => w k * rowR K J a h w eps k) eps j))
      + ∑ k ∈ K, w k * rowR K J a h w eps k
      + ∑ k ∈ K, w k * (rowR K J a h w eps k * Real.log (rowR K J a h w eps k)
          - rowR K J a h w eps k + 1)
    ≤ (-∑ j ∈ J, a j * Real.log (rowY K h w eps j)) + ∑ k ∈ K, w k := by
  set r := rowR K J a h w eps with hr
  set w' := fun k => w k * r k with hw'
  have hr0 : ∀ k ∈ K, 0 ≤ r k := fun k hk => rowR_nonneg K J a h w eps ha hh hw he hk
  have hw0 : ∀ k ∈ K, 0 ≤ w' k := fun k hk => mul_nonneg (hw k hk) (hr0 k hk)
  have hj : ∀ j ∈ J, a j * Real.log (rowY K h w eps j) - a j * Real.log (rowY K h w' eps j)
      ≤ -∑ k ∈ K, a j / rowY K h w eps j * h k j * w k * Real.log (r k) := by
    intro j hj
    have hy := rowY_pos K J h w eps hh hw he hj
    have hy' := rowY_pos K J h w' eps hh hw0 he hj
    set y := rowY K h w eps j with hydef
    set y' := rowY K h w' eps j with hydef'
    have hk : ∀ k ∈ K, a j / y * h k j * w k * (Real.log (r k) + Real.log (y / y'))
        ≤ a j / y * h k j * w k * (r k * (y / y') - 1) := by
      intro k hk
      have hnn : 0 ≤ a j / y * h k j * w k :=
        mul_nonneg (mul_nonneg (div_nonneg (ha j hj) hy.le) (hh k hk j hj)) (hw k hk)
      rcases hnn.eq_or_lt with h0 | hp
      · rw [← h0]; simp
      · have hrk : 0 < r k := by
          have h1 : 0 < a j / y * h k j := by
            by_contra hc
            have : a j / y * h k j * w k ≤ 0 := mul_nonpos_of_nonpos_of_nonneg (not_lt.1 hc) (hw k hk)
            linarith
          refine lt_of_lt_of_le h1 ?_
          exact Finset.single_le_sum (f := fun j => a j / rowY K h w eps j * h k j)
            (fun i hi => mul_nonneg (div_nonneg (ha i hi) (rowY_pos K J h w eps hh hw he hi).le)
              (hh k hk i hi)) hj
        apply mul_le_mul_of_nonneg_left _ hnn
        rw [← Real.log_mul hrk.ne' (div_pos hy hy').ne']
        exact Real.log_le_sub_one_of_pos (mul_pos hrk (div_pos hy hy'))
    have h0 : a j / y * eps * Real.log (y / y') ≤ a j / y * eps * (y / y' - 1) := by
      apply mul_le_mul_of_nonneg_left (Real.log_le_sub_one_of_pos (div_pos hy hy'))
      exact mul_nonneg (div_nonneg (ha j hj) hy.le) he.le
    have hsum := add_le_add (Finset.sum_le_sum hk) h0
    have e1 : ∑ k ∈ K, a j / y * h k j * w k * (Real.log (r k) + Real.log (y / y'))
        + a j / y * eps * Real.log (y / y')
        = ∑ k ∈ K, a j / y * h k j * w k * Real.log (r k) + a j * Real.log (y / y') := by
      have : ∑ k ∈ K, a j / y * h k j * w k * (Real.log (r k) + Real.log (y / y'))
          = ∑ k ∈ K, a j / y * h k j * w k * Real.log (r k)
            + a j / y * (∑ k ∈ K, w k * h k j) * Real.log (y / y') := by
        rw [Finset.mul_sum, Finset.sum_mul, ← Finset.sum_add_distrib]
        apply Finset.sum_congr rfl
        intro k _
        ring
      rw [this]
      have e : ∑ k ∈ K, w k * h k j = y - eps := by rw [hydef]; unfold rowY; ring
      rw [e]
      have : a j / y * (y - eps) * Real.log (y / y') + a j / y * eps * Real.log (y / y')
          = a j * Real.log (y / y') := by
        field_simp
        ring
      linarith
    have e2 : ∑ k ∈ K, a j / y * h k j * w k * (r k * (y / y') - 1) + a j / y * eps * (y / y' - 1)
        = 0 := by
      have : ∑ k ∈ K, a j / y * h k j * w k * (r k * (y / y') - 1)
          = a j / y * (y / y') * (∑ k ∈ K, w' k * h k j) - a j / y * (∑ k ∈ K, w k * h k j) := by
        rw [Finset.mul_sum, Finset.mul_sum, ← Finset.sum_sub_distrib]
        apply Finset.sum_congr rfl
        intro k _
        rw [hw']
        ring
      rw [this]
      have e : ∑ k ∈ K, w k * h k j = y - eps := by rw [hydef]; unfold rowY; ring
      have e' : ∑ k ∈ K, w' k * h k j = y' - eps := by rw [hydef']; unfold rowY; ring
      rw [e, e']
      field_simp
      ring
    rw [e1, e2, Real.log_div hy.ne' hy'.ne'] at hsum
    linarith
  have hJ := Finset.sum_le_sum hj
  rw [Finset.sum_sub_distrib, Finset.sum_neg_distrib, Finset.sum_comm] at hJ
  have hK : ∑ k ∈ K, ∑ j ∈ J, a j / rowY K h w eps j * h k j * w k * Real.log (r k)
      = ∑ k ∈ K, w k * r k * Real.log (r k) := by
    apply Finset.sum_congr rfl
    intro k _
    rw [← Finset.sum_mul, ← Finset.sum_mul]
    show rowR K J a h w eps k * w k * _ = _
    rw [← hr]
    ring
  rw [hK] at hJ
  have hfin : ∑ k ∈ K, w k * (r k * Real.log (r k) - r k + 1)
      = ∑ k ∈ K, w k * r k * Real.log (r k) - ∑ k ∈ K, w k * r k + ∑ k ∈ K, w k := by
    rw [← Finset.sum_sub_distrib, ← Finset.sum_add_distrib]
    apply Finset.sum_congr rfl
    intro k _
    ring
  rw [hfin]
  have : ∑ k ∈ K, w' k = ∑ k ∈ K, w k * r k := rfl
  linarith

include ha hh hw he in
/-- A row of coefficients for which all ratios are at most 1, and are 1 for non null coefficients, is
a minimum of the objective. -/
theorem row_optimal (hr1 : ∀ k ∈ K, rowR K J a h w eps k ≤ 1)
    (hr : ∀ k ∈ K, w k ≠ 0 → rowR K J a h w eps k = 1) (v : ℕ → ℝ) (hv : ∀ k ∈ K, 0 ≤ v k) :
    (-∑ j ∈ J, a j * Real.log (rowY K h w eps j)) + ∑ k ∈ K, w k
    ≤ (-∑ j ∈ J, a j * Real.log (rowY K h v eps j)) + ∑ k ∈ K, v k := by
  have hj : ∀ j ∈ J, a j * Real.log (rowY K h v eps j) - a j * Real.log (rowY K h w eps j)
      ≤ ∑ k ∈ K, a j / rowY K h w eps j * h k j * (v k - w k) := by
    intro j hj
    have hy := rowY_pos K J h w eps hh hw he hj
    have hy' := rowY_pos K J h v eps hh hv he hj
    have h1 := mul_le_mul_of_nonneg_left (Real.log_le_sub_one_of_pos (div_pos hy' hy)) (ha j hj)
    rw [Real.log_div hy'.ne' hy.ne'] at h1
    have h2 : ∑ k ∈ K, a j / rowY K h w eps j * h k j * (v k - w k)
        = a j * (rowY K h v eps j / rowY K h w eps j - 1) := by
      have : ∑ k ∈ K, a j / rowY K h w eps j * h k j * (v k - w k)
          = a j / rowY K h w eps j * (∑ k ∈ K, v k * h k j)
            - a j / rowY K h w eps j * (∑ k ∈ K, w k * h k j) := by
        rw [Finset.mul_sum, Finset.mul_sum, ← Finset.sum_sub_distrib]
        apply Finset.sum_congr rfl
        intro k _
        ring
      rw [this]
      have e : ∑ k ∈ K, w k * h k j = rowY K h w eps j - eps := by unfold rowY; ring
      have e' : ∑ k ∈ K, v k * h k j = rowY K h v eps j - eps := by unfold rowY; ring
      rw [e, e']
      field_simp
      ring
    rw [h2]
    linarith
  have hJ := Finset.sum_le_sum hj
  rw [Finset.sum_sub_distrib, Finset.sum_comm] at hJ
  have hK : ∑ k ∈ K, ∑ j ∈ J, a j / rowY K h w eps j * h k j * (v k - w k)
      ≤ ∑ k ∈ K, (v k - w k) := by
    apply Finset.sum_le_sum
    intro k hk
    rw [← Finset.sum_mul]
    show rowR K J a h w eps k * _ ≤ _
    by_cases h0 : w k = 0
    · rw [h0, sub_zero]
      have := mul_le_mul_of_nonneg_right (hr1 k hk) (hv k hk)
      linarith
    · rw [hr k hk h0, one_mul]
  rw [Finset.sum_sub_distrib] at hK
  linarith

end Row

/-! ### Matrices -/

open Classical in
/-- The data as seen by the updates: `x + eps`, and 0 for what a sparse matrix does not store. -/
noncomputable def seen (X : Data) (i j : ℕ) : ℝ :=
  if X.sparse = true ∧ X.mat.e i j = 0 then 0 else X.mat.e i j + EPS

/-- The generalised Kullback-Leibler divergence between the data as seen by the updates and `WH + eps`:
for dense data `D(X + eps || WH + eps)`. -/
noncomputable def divergence (X : Data) (W H : Mat) : ℝ :=
  ∑ i ∈ range X.mat.r, ∑ j ∈ range X.mat.c,
    (seen X i j * Real.log (seen X i j / ((dot W H).e i j + EPS)) - seen X i j + ((dot W H).e i j + EPS))

/-- The objective which updates decrease for any dictionary: the total of coefficients in place of
the total of the product. -/
noncomputable def objective (X : Data) (W H : Mat) : ℝ :=
  (-∑ i ∈ range X.mat.r, ∑ j ∈ range X.mat.c, seen X i j * Real.log ((dot W H).e i j + EPS))
    + ∑ i ∈ range X.mat.r, ∑ k ∈ range H.r, W.e i k

theorem seen_nonneg {X : Data} (hX : NonNeg X.mat) {i j : ℕ} (hi : i < X.mat.r) (hj : j < X.mat.c) :
    0 ≤ seen X i j := by
  unfold seen
  split
  · exact le_refl _
  · have := hX i hi j hj
    have := EPS_pos
    linarith

theorem rowY_eq (X : Data) (W H : Mat) (h2 : W.c = H.r) (i j : ℕ) :
    rowY (range H.r) H.e (fun k => W.e i k) EPS j = (dot W H).e i j + EPS := by
  unfold rowY dot
  rw [h2]

theorem rowR_eq (X : Data) (W H : Mat) (h2 : W.c = H.r) (fit : Bool) (i k : ℕ) :
    (update X W H fit).1.e i k =
      W.e i k * rowR (range H.r) (range X.mat.c) (seen X i) H.e (fun k => W.e i k) EPS k := by
  show W.e i k * ∑ j ∈ range X.mat.c, (Q X W H EPS).e i j * H.e k j = _
  unfold rowR
  congr 1
  apply Finset.sum_congr rfl
  intro j _
  rw [rowY_eq X W H h2]
  congr 1
  unfold Q seen
  simp only []
  cases X.sparse
  · simp
  · by_cases hx : X.mat.e i j = 0
    · simp [hx]
    · simp [hx]

/-- The part of the objective due to one sample. -/
theorem objective_rows (X : Data) (W H : Mat) (h2 : W.c = H.r) :
    objective X W H = ∑ i ∈ range X.mat.r,
      ((-∑ j ∈ range X.mat.c, seen X i j *
          Real.log (rowY (range H.r) H.e (fun k => W.e i k) EPS j)) + ∑ k ∈ range H.r, W.e i k) := by
  unfold objective
  rw [Finset.sum_add_distrib, Finset.sum_neg_distrib]
  simp only [rowY_eq X W H h2]

/-- How much an update changes the coefficients: a sum of terms `w * (r * log r - r + 1)` with `r`
the ratio of the new coefficient to the old one. -/
noncomputable def progress (W W' : Mat) : ℝ := ∑ i ∈ range W.r, ∑ k ∈ range W.c,
  (if W.e i k = 0 then 0 else
    W.e i k * (W'.e i k / W.e i k * Real.log (W'.e i k / W.e i k) - W'.e i k / W.e i k + 1))

theorem objective_le (X : Data) (W H : Mat) (hX : NonNeg X.mat) (hW : NonNeg W) (hH : NonNeg H)
    (hs : Shapes X W H) (fit : Bool) :
    objective X (update X W H fit).1 H + progress W (update X W H fit).1 ≤ objective X W H := by
  obtain ⟨h1, h2, h3⟩ := hs
  rw [objective_rows X W H h2, objective_rows X (update X W H fit).1 H
    ((update_dims X W H fit).2.1.trans h2)]
  unfold progress
  rw [h1, h2, ← Finset.sum_add_distrib]
  apply Finset.sum_le_sum
  intro i hi
  have hi := Finset.mem_range.1 hi
  have hd := row_descent (range H.r) (range X.mat.c) (seen X i) H.e (fun k => W.e i k) EPS
    (fun j hj => seen_nonneg hX hi (Finset.mem_range.1 hj))
    (fun k hk j hj => hH k (Finset.mem_range.1 hk) j (by rw [h3]; exact Finset.mem_range.1 hj))
    (fun k hk => hW i (by rw [h1]; exact hi) k (by rw [h2]; exact Finset.mem_range.1 hk)) EPS_pos
  simp only [← rowR_eq X W H h2 fit i] at hd
  have hp : ∑ k ∈ range H.r, (if W.e i k = 0 then 0 else W.e i k *
      ((update X W H fit).1.e i k / W.e i k * Real.log ((update X W H fit).1.e i k / W.e i k)
        - (update X W H fit).1.e i k / W.e i k + 1))
      = ∑ k ∈ range H.r, W.e i k *
        (rowR (range H.r) (range X.mat.c) (seen X i) H.e (fun k => W.e i k) EPS k *
          Real.log (rowR (range H.r) (range X.mat.c) (seen X i) H.e (fun k => W.e i k) EPS k) -
          rowR (range H.r) (range X.mat.c) (seen X i) H.e (fun k => W.e i k) EPS k + 1) := by
    apply Finset.sum_congr rfl
    intro k _
    by_cases h0 : W.e i k = 0
    · rw [if_pos h0, h0, zero_mul]
    · rw [if_neg h0, rowR_eq X W H h2 fit i k, mul_div_cancel_left₀ _ h0]
  rw [hp]
  exact hd

theorem progress_nonneg (W W' : Mat) (hW : NonNeg W) (hW' : NonNeg W') (h1 : W'.r = W.r)
    (h2 : W'.c = W.c) : 0 ≤ progress W W' := by
  apply Finset.sum_nonneg
  intro i hi
  apply Finset.sum_nonneg
  intro k hk
  have hi := Finset.mem_range.1 hi
  have hk := Finset.mem_range.1 hk
  split
  · exact le_refl _
  · exact mul_nonneg (hW i hi k hk) (mul_log_ge (div_nonneg (hW' i (h1 ▸ hi) k (h2 ▸ hk))
      (hW i hi k hk)))

theorem progress_pos (W W' : Mat) (hW : NonNeg W) (hW' : NonNeg W') (h1 : W'.r = W.r)
    (h2 : W'.c = W.c) (hz : ∀ i k, W.e i k = 0 → W'.e i k = 0) (hne : ¬ W.Same W') :
    0 < progress W W' := by
  have : ∃ i < W.r, ∃ k < W.c, W.e i k ≠ W'.e i k := by
    by_contra hc
    push Not at hc
    exact hne ⟨h1.symm, h2.symm, hc⟩
  obtain ⟨i, hi, k, hk, hik⟩ := this
  have hnn : ∀ i' ∈ range W.r, ∀ k' ∈ range W.c, 0 ≤ (if W.e i' k' = 0 then 0 else
    W.e i' k' * (W'.e i' k' / W.e i' k' * Real.log (W'.e i' k' / W.e i' k') - W'.e i' k' / W.e i' k' + 1))
    := by
    intro i hi k hk
    have hi := Finset.mem_range.1 hi
    have hk := Finset.mem_range.1 hk
    split
    · exact le_refl _
    · exact mul_nonneg (hW i hi k hk) (mul_log_ge (div_nonneg (hW' i (h1 ▸ hi) k (h2 ▸ hk))
        (hW i hi k hk)))
  apply Finset.sum_pos' (fun i' hi' => Finset.sum_nonneg (hnn i' hi'))
  refine ⟨i, Finset.mem_range.2 hi, Finset.sum_pos' (hnn i (Finset.mem_range.2 hi))
    ⟨k, Finset.mem_range.2 hk, ?_⟩⟩
  have h0 : W.e i k ≠ 0 := fun h => hik (by rw [h, hz i k h])
  rw [if_neg h0]
  have hpos : 0 < W.e i k := lt_of_le_of_ne (hW i hi k hk) (Ne.symm h0)
  apply mul_pos hpos
  apply mul_log_pos (div_nonneg (hW' i (h1 ▸ hi) k (h2 ▸ hk)) hpos.le)
  intro h
  rw [div_eq_one_iff_eq h0] at h
  exact hik h.symm

/-- For a dictionary whose components sum to `1 - d k`, divergence and objective differ by a
constant and by the total of `d k * w k`. -/
theorem divergence_eq (X : Data) (W H : Mat) (hX : NonNeg X.mat) (hW : NonNeg W) (hH : NonNeg H)
    (hs : Shapes X W H) :
    divergence X W H = objective X W H
      - ∑ i ∈ range X.mat.r, ∑ k ∈ range H.r, (1 - ∑ j ∈ range X.mat.c, H.e k j) * W.e i k
      + ∑ i ∈ range X.mat.r, ∑ j ∈ range X.mat.c,
        (seen X i j * Real.log (seen X i j) - seen X i j + EPS) := by
  obtain ⟨h1, h2, h3⟩ := hs
  have hWH := dot_nonneg hW hH h2
  have e1 : ∑ i ∈ range X.mat.r, ∑ k ∈ range H.r, W.e i k
      - ∑ i ∈ range X.mat.r, ∑ k ∈ range H.r, (1 - ∑ j ∈ range X.mat.c, H.e k j) * W.e i k
      = ∑ i ∈ range X.mat.r, ∑ j ∈ range X.mat.c, (dot W H).e i j := by
    rw [← Finset.sum_sub_distrib]
    apply Finset.sum_congr rfl
    intro i _
    rw [← Finset.sum_sub_distrib]
    have : ∑ j ∈ range X.mat.c, (dot W H).e i j
        = ∑ k ∈ range H.r, ∑ j ∈ range X.mat.c, W.e i k * H.e k j := by
      rw [Finset.sum_comm]
      apply Finset.sum_congr rfl
      intro j _
      rw [← h2]
      rfl
    rw [this]
    apply Finset.sum_congr rfl
    intro k _
    rw [← Finset.mul_sum]
    ring
  have e2 : divergence X W H = (-∑ i ∈ range X.mat.r, ∑ j ∈ range X.mat.c,
        seen X i j * Real.log ((dot W H).e i j + EPS))
      + ∑ i ∈ range X.mat.r, ∑ j ∈ range X.mat.c, (dot W H).e i j
      + ∑ i ∈ range X.mat.r, ∑ j ∈ range X.mat.c,
        (seen X i j * Real.log (seen X i j) - seen X i j + EPS) := by
    unfold divergence
    rw [← Finset.sum_neg_distrib, ← Finset.sum_add_distrib, ← Finset.sum_add_distrib]
    apply Finset.sum_congr rfl
    intro i hi
    have hi := Finset.mem_range.1 hi
    rw [← Finset.sum_neg_distrib, ← Finset.sum_add_distrib, ← Finset.sum_add_distrib]
    apply Finset.sum_congr rfl
    intro j hj
    have hj := Finset.mem_range.1 hj
    have hy : 0 < (dot W H).e i j + EPS := by
      have : 0 ≤ (dot W H).e i j := hWH i (h1.symm ▸ hi : i < W.r) j (h3.symm ▸ hj : j < H.c)
      have := EPS_pos
      linarith
    rcases (seen_nonneg hX hi hj).eq_or_lt with h0 | hp
    · rw [← h0]; ring
    · rw [Real.log_div hp.ne' hy.ne']
      ring
  rw [e2, ← e1]
  unfold objective
  ring

/-! ### C56 -/

/-- The components are normalised. -/
def Normalised (H : Mat) : Prop := ∀ k < H.r, ∑ j ∈ range H.c, H.e k j = 1

/-- For normalised components divergence and objective differ by a constant. -/
theorem divergence_normalised (X : Data) (W H : Mat) (hX : NonNeg X.mat) (hW : NonNeg W)
    (hH : NonNeg H) (hs : Shapes X W H) (hn : Normalised H) :
    divergence X W H = objective X W H + ∑ i ∈ range X.mat.r, ∑ j ∈ range X.mat.c,
        (seen X i j * Real.log (seen X i j) - seen X i j + EPS) := by
  rw [divergence_eq X W H hX hW hH hs]
  have : ∑ i ∈ range X.mat.r, ∑ k ∈ range H.r, (1 - ∑ j ∈ range X.mat.c, H.e k j) * W.e i k = 0 := by
    apply Finset.sum_eq_zero
    intro i _
    apply Finset.sum_eq_zero
    intro k hk
    have := hn k (Finset.mem_range.1 hk)
    rw [hs.2.2] at this
    rw [this, sub_self, zero_mul]
  rw [this, sub_zero]

/-- **C56.** With a normalised dictionary, an update of the coefficients does not increase the
divergence; for dense data this is `D(X + eps || WH + eps)`. -/
theorem C56_update (X : Data) (W H : Mat) (fit : Bool) (hX : NonNeg X.mat) (hW : NonNeg W)
    (hH : NonNeg H) (hs : Shapes X W H) (hn : Normalised H) :
    divergence X (update X W H fit).1 H ≤ divergence X W H := by
  have hW' := (update_nonneg hX hW hH hs fit).1
  have hd := update_dims X W H fit
  have hs' : Shapes X (update X W H fit).1 H := ⟨hd.1.trans hs.1, hd.2.1.trans hs.2.1, hs.2.2⟩
  rw [divergence_normalised X W H hX hW hH hs hn, divergence_normalised X _ H hX hW' hH hs' hn]
  have h1 := objective_le X W H hX hW hH hs fit
  have h2 := progress_nonneg W _ hW hW' hd.1 hd.2.1
  linarith

/-- **C56.** The divergence used is the one expected on dense data. -/
theorem C56_dense (X W H : Mat) : divergence ⟨false, X⟩ W H =
    ∑ i ∈ range X.r, ∑ j ∈ range X.c, ((X.e i j + EPS) *
      Real.log ((X.e i j + EPS) / ((dot W H).e i j + EPS)) - (X.e i j + EPS) + ((dot W H).e i j + EPS)) := by
  unfold divergence seen
  simp

/-- **C56.** Along all the iterations of `transform` with a normalised dictionary the divergence never
increases. -/
theorem C56_iterations (X : Data) (W H : Mat) (hX : NonNeg X.mat) (hW : NonNeg W) (hH : NonNeg H)
    (hs : Shapes X W H) (hn : Normalised H) (m n : ℕ) (hmn : m ≤ n) :
    divergence X (after X false W H n).1 H ≤ divergence X (after X false W H m).1 H := by
  induction n, hmn using Nat.le_induction with
  | base => exact le_refl _
  | succ n _ ih =>
    refine le_trans ?_ ih
    rw [after_succ]
    have hinv := after_inv hX hW hH hs false n
    rw [C55_after] at *
    exact C56_update X _ H false hX hinv.1 hH hinv.2.2 hn

/-- **C56.** Hence the result of `transform` is at least as good as the initial coefficients, the
product of the data with the transposed dictionary. -/
theorem C56_transform (s s' : Nmf) (X : Data) (rnd : ℕ → ℕ → ℝ) (wt : ℝ) (sc : Bool) (R : Result)
    (D : Mat) (hc : s.components = some D) (hD : NonNeg D) (hn : Normalised D)
    (h : transform s X rnd wt sc = (s', .ok R)) :
    divergence X R.W D ≤ divergence X (dot X.mat D.T) D := by
  unfold transform at h
  rw [hc] at h
  simp only [] at h
  obtain ⟨W₀, H₀, comps, hX, hi, hco, hm, hR, _, hs'⟩ := fitTransform_ok _ s' X rnd false wt sc R h
  simp only [Bool.false_eq_true, if_false] at hco
  obtain rfl := Option.some.inj hco
  obtain ⟨h1, h2, h3, h4, h8⟩ := init_inv hX (fun D' hD' => by
    obtain rfl := Option.some.inj hD'; exact hD) hi
  have hH : H₀ = D := by
    unfold init at hi
    simp only [] at hi
    split at hi
    · exact (Prod.mk.inj (Except.ok.inj hi)).2.symm
    · cases hi
  subst hH
  obtain ⟨m, _, h5, _⟩ := loop_spec X false (s.tol * X.mat.r * X.mat.c) wt s.maxIter 1 none W₀ H₀ []
  have hW : R.W = (after X false W₀ H₀ m).1 := by rw [hR, ← h5]
  rw [hW, ← h8]
  exact C56_iterations X W₀ H₀ hX h1 h2 h3 hn 0 m (Nat.zero_le _)

/-- **C56.** The divergence is constant only at fixed points: unless the update leaves the
coefficients as they are it strictly decreases. -/
theorem C56_strict (X : Data) (W H : Mat) (fit : Bool) (hX : NonNeg X.mat) (hW : NonNeg W)
    (hH : NonNeg H) (hs : Shapes X W H) (hn : Normalised H)
    (hne : ¬ W.Same (update X W H fit).1) :
    divergence X (update X W H fit).1 H < divergence X W H := by
  have hW' := (update_nonneg hX hW hH hs fit).1
  have hd := update_dims X W H fit
  have hs' : Shapes X (update X W H fit).1 H := ⟨hd.1.trans hs.1, hd.2.1.trans hs.2.1, hs.2.2⟩
  rw [divergence_normalised X W H hX hW hH hs hn, divergence_normalised X _ H hX hW' hH hs' hn]
  have h1 := objective_le X W H hX hW hH hs fit
  have h2 := progress_pos W _ hW hW' hd.1 hd.2.1 (by
    intro i k h
    show W.e i k * _ = 0
    rw [h, zero_mul]) hne
  linarith

/-- **C56.** The components computed by `fit` are normalised only up to `1e-16`: with components
summing to at most 1 the divergence increases by at most the total of the missing mass times the
coefficients. -/
theorem C56_nearly_normalised (X : Data) (W H : Mat) (fit : Bool) (hX : NonNeg X.mat) (hW : NonNeg W)
    (hH : NonNeg H) (hs : Shapes X W H) (hle : ∀ k < H.r, ∑ j ∈ range H.c, H.e k j ≤ 1) :
    divergence X (update X W H fit).1 H ≤ divergence X W H
      + ∑ i ∈ range X.mat.r, ∑ k ∈ range H.r, (1 - ∑ j ∈ range X.mat.c, H.e k j) * W.e i k := by
  have hW' := (update_nonneg hX hW hH hs fit).1
  have hd := update_dims X W H fit
  have hs' : Shapes X (update X W H fit).1 H := ⟨hd.1.trans hs.1, hd.2.1.trans hs.2.1, hs.2.2⟩
  rw [divergence_eq X W H hX hW hH hs, divergence_eq X _ H hX hW' hH hs']
  have h1 := objective_le X W H hX hW hH hs fit
  have h2 := progress_nonneg W _ hW hW' hd.1 hd.2.1
  have h3 : 0 ≤ ∑ i ∈ range X.mat.r, ∑ k ∈ range H.r,
      (1 - ∑ j ∈ range X.mat.c, H.e k j) * (update X W H fit).1.e i k := by
    apply Finset.sum_nonneg
    intro i hi
    apply Finset.sum_nonneg
    intro k hk
    apply mul_nonneg
    · have := hle k (Finset.mem_range.1 hk)
      rw [hs.2.2] at this
      linarith
    · exact hW' i (by rw [hs'.1]; exact Finset.mem_range.1 hi) k
        (by rw [hs'.2.1]; exact Finset.mem_range.1 hk)
  linarith

/-- **C56.** Normalisation is needed: there are data, coefficients and a component with sum 1/2 for
which an update increases the divergence.  (`MultimodalLearner` transforms data with parts of
components, whose sum is less than 1.) -/
theorem C56_unnormalised : ∃ (X : Data) (W H : Mat), NonNeg X.mat ∧ NonNeg W ∧ NonNeg H ∧
    Shapes X W H ∧ X.sparse = false ∧
    divergence X W H < divergence X (update X W H false).1 H := by
  refine ⟨⟨false, one 1⟩, one 2, one (1 / 2), one_nonneg (by norm_num), one_nonneg (by norm_num),
    one_nonneg (by norm_num), ⟨rfl, rfl, rfl⟩, rfl, ?_⟩
  have hE := EPS_pos
  have hW : (update ⟨false, one 1⟩ (one 2) (one (1 / 2)) false).1.e 0 0 = 1 := by
    have : (1 : ℝ) + EPS ≠ 0 := by linarith
    simp [update, updatedW, mul, dot, Q, Mat.T, one, this]
  have e1 : divergence ⟨false, one 1⟩ (one 2) (one (1 / 2)) = 0 := by
    have : (1 : ℝ) + EPS ≠ 0 := by linarith
    simp [C56_dense, dot, one, this]
  have e2 : divergence ⟨false, one 1⟩ (update ⟨false, one 1⟩ (one 2) (one (1 / 2)) false).1 (one (1 / 2))
      = (1 + EPS) * Real.log ((1 + EPS) / (1 / 2 + EPS)) - (1 + EPS) + (1 / 2 + EPS) := by
    have hd : (dot (update ⟨false, one 1⟩ (one 2) (one (1 / 2)) false).1 (one (1 / 2))).e 0 0 = 1 / 2 := by
      show ∑ k ∈ range 1, (update ⟨false, one 1⟩ (one 2) (one (1 / 2)) false).1.e 0 k * (1 / 2) = 1 / 2
      rw [Finset.sum_range_one, hW, one_mul]
    rw [C56_dense]
    show ∑ i ∈ range 1, ∑ j ∈ range 1, _ = _
    rw [Finset.sum_range_one, Finset.sum_range_one, hd]
    rfl
  rw [e1, e2]
  have hx : (0 : ℝ) < (1 + EPS) / (1 / 2 + EPS) := by positivity
  have hne : ((1 + EPS) / (1 / 2 + EPS))⁻¹ ≠ 1 := by
    rw [inv_div]
    intro hc
    rw [div_eq_one_iff_eq (by positivity)] at hc
    linarith
  have hl := Real.log_lt_sub_one_of_pos (inv_pos.2 hx) hne
  rw [Real.log_inv, inv_div] at hl
  have := mul_lt_mul_of_pos_left hl (by positivity : 0 < 1 + EPS)
  have e3 : (1 + EPS) * ((1 / 2 + EPS) / (1 + EPS) - 1) = (1 / 2 + EPS) - (1 + EPS) := by
    field_simp
  rw [e3] at this
  linarith

/-! ### C103 -/

/-- **C103.** For any dictionary, normalised or not, updates decrease the objective in which the
total of coefficients takes the place of the total of the product; strictly, except at fixed
points. -/
theorem C103_objective (X : Data) (W H : Mat) (fit : Bool) (hX : NonNeg X.mat) (hW : NonNeg W)
    (hH : NonNeg H) (hs : Shapes X W H) :
    objective X (update X W H fit).1 H ≤ objective X W H ∧
    (¬ W.Same (update X W H fit).1 → objective X (update X W H fit).1 H < objective X W H) := by
  have hW' := (update_nonneg hX hW hH hs fit).1
  have hd := update_dims X W H fit
  have h1 := objective_le X W H hX hW hH hs fit
  refine ⟨?_, fun hne => ?_⟩
  · have h2 := progress_nonneg W _ hW hW' hd.1 hd.2.1
    linarith
  · have h2 := progress_pos W _ hW hW' hd.1 hd.2.1 (by
      intro i k h
      show W.e i k * _ = 0
      rw [h, zero_mul]) hne
    linarith

/-- **C103.** Positive coefficients which the update leaves as they are minimise the objective among
all non negative coefficients. -/
theorem C103_fixed_point_optimal (X : Data) (W H V : Mat) (fit : Bool) (hX : NonNeg X.mat)
    (hW : ∀ i < W.r, ∀ k < W.c, 0 < W.e i k) (hH : NonNeg H) (hs : Shapes X W H)
    (hfix : W.Same (update X W H fit).1) (hV : NonNeg V) (hVs : Shapes X V H) :
    objective X W H ≤ objective X V H := by
  obtain ⟨h1, h2, h3⟩ := hs
  obtain ⟨g1, g2, g3⟩ := hVs
  rw [objective_rows X W H h2, objective_rows X V H g2]
  apply Finset.sum_le_sum
  intro i hi
  have hi := Finset.mem_range.1 hi
  have hr : ∀ k ∈ range H.r,
      rowR (range H.r) (range X.mat.c) (seen X i) H.e (fun k => W.e i k) EPS k = 1 := by
    intro k hk
    have hk : k < W.c := by rw [h2]; exact Finset.mem_range.1 hk
    have hp := hW i (by rw [h1]; exact hi) k hk
    have := hfix.2.2 i (by rw [h1]; exact hi) k hk
    rw [rowR_eq X W H h2 fit i k] at this
    have h' : W.e i k * 1 = W.e i k * rowR (range H.r) (range X.mat.c) (seen X i) H.e
      (fun k => W.e i k) EPS k := by rw [mul_one]; exact this
    exact (mul_left_cancel₀ hp.ne' h').symm
  exact row_optimal (range H.r) (range X.mat.c) (seen X i) H.e (fun k => W.e i k) EPS
    (fun j hj => seen_nonneg hX hi (Finset.mem_range.1 hj))
    (fun k hk j hj => hH k (Finset.mem_range.1 hk) j (by rw [h3]; exact Finset.mem_range.1 hj))
    (fun k hk => (hW i (by rw [h1]; exact hi) k (by rw [h2]; exact Finset.mem_range.1 hk)).le) EPS_pos
    (fun k hk => (hr k hk).le) (fun k hk _ => hr k hk) (fun k => V.e i k)
    (fun k hk => hV i (by rw [g1]; exact hi) k (by rw [g2]; exact Finset.mem_range.1 hk))

/-- Example: hypotheses are met by a normalised dictionary with two features. -/
example : let X : Data := ⟨false, ⟨1, 2, fun _ _ => 3⟩⟩
    let W : Mat := ⟨1, 1, fun _ _ => 2⟩
    let H : Mat := ⟨1, 2, fun _ _ => 1 / 2⟩
    NonNeg X.mat ∧ NonNeg W ∧ NonNeg H ∧ Shapes X W H ∧ Normalised H := by
  refine ⟨fun _ _ _ _ => by norm_num, fun _ _ _ _ => by norm_num, fun _ _ _ _ => by norm_num,
    ⟨rfl, rfl, rfl⟩, fun k _ => ?_⟩
  simp [Finset.sum_range_succ]

/-- Example: data equal to the product are a fixed point. -/
example : let X : Data := ⟨false, one 1⟩
    (∀ i < (one 1).r, ∀ k < (one 1).c, 0 < (one 1).e i k) ∧
    (one 1).Same (update X (one 1) (one 1) false).1 := by
  refine ⟨fun _ _ _ _ => by norm_num [one], rfl, rfl, fun i _ k _ => ?_⟩
  have := EPS_pos
  have : (1 : ℝ) + EPS ≠ 0 := by linarith
  simp [update, updatedW, mul, dot, Q, Mat.T, one, this]

end Verif.NMF
