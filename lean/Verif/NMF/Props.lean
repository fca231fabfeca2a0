import Verif.NMF.Model
import Mathlib.Tactic.Positivity
import Mathlib.Tactic.FieldSimp
import Mathlib.Tactic.Linarith
import Mathlib.Tactic.NormNum
import Mathlib.Algebra.Order.BigOperators.Group.Finset
import Mathlib.Algebra.BigOperators.Field

/-!
# Properties C54, C55, C57–C61 and C102 of `multimodal/lib/nmf.py`
-/

namespace Verif.NMF

open Finset

/-- All entries are non negative. -/
def NonNeg (A : Mat) : Prop := ∀ i < A.r, ∀ j < A.c, 0 ≤ A.e i j

/-- Dimensions of coefficients and components agree with those of the data. -/
def Shapes (X : Data) (W H : Mat) : Prop := W.r = X.mat.r ∧ W.c = H.r ∧ H.c = X.mat.c

theorem EPS_pos : 0 < EPS := by unfold EPS; positivity

/-! ### Iterations -/

/-- The state after `n` updates. -/
noncomputable def after (X : Data) (fit : Bool) (W H : Mat) (n : ℕ) : Mat × Mat :=
  (fun p : Mat × Mat => update X p.1 p.2 fit)^[n] (W, H)

theorem after_zero (X : Data) (fit : Bool) (W H : Mat) : after X fit W H 0 = (W, H) := rfl

theorem after_succ (X : Data) (fit : Bool) (W H : Mat) (n : ℕ) :
    after X fit W H (n + 1) = update X (after X fit W H n).1 (after X fit W H n).2 fit := by
  unfold after
  rw [Function.iterate_succ_apply']

theorem after_succ' (X : Data) (fit : Bool) (W H : Mat) (n : ℕ) :
    after X fit W H (n + 1) =
      after X fit (update X W H fit).1 (update X W H fit).2 n := rfl

/-- The loop does some number of updates, one for each recorded error, which is the error before
it. -/
theorem loop_spec (X : Data) (fit : Bool) (tol wt : ℝ) : ∀ (left n : ℕ) (prev : Option ℝ)
    (W H : Mat) (errs : List ℝ), ∃ m, m ≤ left ∧
    (loop X fit tol wt left n prev W H errs).W = (after X fit W H m).1 ∧
    (loop X fit tol wt left n prev W H errs).H = (after X fit W H m).2 ∧
    (loop X fit tol wt left n prev W H errs).errors =
      errs ++ (List.range m).map (fun i => error X (after X fit W H i).1 (after X fit W H i).2 wt) ∧
    (loop X fit tol wt left n prev W H errs).nIter = (if m = left then n + m - 1 else n + m) ∧
    (∀ p, prev = some p → 0 < m → tol ≤ p - error X W H wt) ∧
    ∀ i, i + 1 < m → tol ≤ error X (after X fit W H i).1 (after X fit W H i).2 wt -
      error X (after X fit W H (i + 1)).1 (after X fit W H (i + 1)).2 wt := by
  intro left
  induction left with
  | zero =>
    intro n prev W H errs
    refine ⟨0, le_refl _, rfl, rfl, by simp [loop], by simp [loop], fun p _ h => absurd h (lt_irrefl _),
      fun i hi => by omega⟩
  | succ left ih =>
    intro n prev W H errs
    unfold loop
    simp only []
    split
    · refine ⟨0, Nat.zero_le _, rfl, rfl, by simp, by simp, fun p _ h => absurd h (lt_irrefl _),
        fun i hi => by omega⟩
    · rename_i hstop
      obtain ⟨m, h1, h2, h3, h4, h5, h6, h7⟩ := ih (n + 1) (some (error X W H wt))
        (update X W H fit).1 (update X W H fit).2 (errs ++ [error X W H wt])
      refine ⟨m + 1, by omega, ?_, ?_, ?_, ?_, ?_, ?_⟩
      · rw [h2, after_succ']
      · rw [h3, after_succ']
      · rw [h4, List.range_succ_eq_map, List.map_cons, List.map_map, List.append_assoc]
        rfl
      · rw [h5]
        by_cases hm : m = left
        · rw [if_pos hm, if_pos (by omega)]; omega
        · rw [if_neg hm, if_neg (by omega)]; omega
      · rintro p rfl _
        by_contra hc
        exact hstop ⟨p, rfl, not_le.1 hc⟩
      · intro i hi
        cases i with
        | zero =>
          have := h6 _ rfl (by omega)
          rw [after_succ', after_zero, after_zero]
          exact this
        | succ i =>
          have := h7 i (by omega)
          rw [after_succ', after_succ' X fit W H (i + 1)]
          exact this

/-- A successful call of `fit_transform`: the data are non negative, and the result is obtained from
the initial matrices by some number of updates, at most `max_iter`, one for each error. -/
theorem fitTransform_ok (s s' : Nmf) (X : Data) (rnd : ℕ → ℕ → ℝ) (fit : Bool) (wt : ℝ) (sc : Bool)
    (R : Result) (h : fitTransform s X rnd fit wt sc = (s', .ok R)) :
    ∃ W₀ H₀ comps, NonNeg X.mat ∧
      init (setComponents s.nComponents X.mat.c) s.initDictionary X rnd = .ok (W₀, H₀) ∧
      (if fit then comps = H₀ else s.components = some comps) ∧ 0 < s.maxIter ∧
      R = ⟨(loop X fit (s.tol * X.mat.r * X.mat.c) wt s.maxIter 1 none W₀ comps []).W,
        (loop X fit (s.tol * X.mat.r * X.mat.c) wt s.maxIter 1 none W₀ comps []).errors,
        R.warned⟩ ∧
      (R.warned = true ↔
        (loop X fit (s.tol * X.mat.r * X.mat.c) wt s.maxIter 1 none W₀ comps []).nIter = s.maxIter ∧
          0 < s.tol * X.mat.r * X.mat.c) ∧
      s' = ⟨some (setComponents s.nComponents X.mat.c), s.initDictionary, s.tol, s.maxIter,
        if fit then some (loop X fit (s.tol * X.mat.r * X.mat.c) wt s.maxIter 1 none W₀ comps []).H
        else s.components⟩ := by
  unfold fitTransform at h
  cases hc : checkNonNegative X with
  | error e => rw [hc] at h; simp at h
  | ok u =>
    rw [hc] at h
    simp only [] at h
    have hnn : NonNeg X.mat := by
      unfold checkNonNegative at hc
      split at hc
      · cases hc
      · rename_i hneg
        intro i hi j hj
        by_contra hlt
        exact hneg ⟨i, hi, j, hj, not_le.1 hlt⟩
    cases hi : init (setComponents s.nComponents X.mat.c) s.initDictionary X rnd with
    | error e => rw [hi] at h; simp at h
    | ok p =>
      obtain ⟨W₀, H₀⟩ := p
      rw [hi] at h
      simp only [] at h
      cases fit with
      | true =>
        simp only [if_true] at h
        split at h
        · simp at h
        · rename_i hm
          injection h with h1 h2
          obtain rfl := Except.ok.inj h2
          refine ⟨W₀, H₀, H₀, hnn, rfl, by simp, by omega, rfl, by simp, h1.symm⟩
      | false =>
        simp only [Bool.false_eq_true, if_false] at h
        cases hco : s.components with
        | none => rw [hco] at h; simp at h
        | some comps =>
          rw [hco] at h
          simp only [] at h
          split at h
          · simp at h
          · rename_i hm
            injection h with h1 h2
            obtain rfl := Except.ok.inj h2
            refine ⟨W₀, H₀, comps, hnn, rfl, by simp, by omega, rfl, by simp, ?_⟩
            rw [← h1]
            rfl

/-! ### C54 -/

theorem dot_nonneg {A B : Mat} (hA : NonNeg A) (hB : NonNeg B) (h : A.c = B.r) :
    NonNeg (dot A B) := by
  intro i hi j hj
  show 0 ≤ ∑ k ∈ range A.c, A.e i k * B.e k j
  apply Finset.sum_nonneg
  intro k hk
  have hk : k < A.c := Finset.mem_range.1 hk
  exact mul_nonneg (hA i hi k hk) (hB k (h ▸ hk) j hj)

theorem T_nonneg {A : Mat} (hA : NonNeg A) : NonNeg A.T := fun i hi j hj => hA j hj i hi

theorem mul_nonNeg {A B : Mat} (hA : NonNeg A) (hB : NonNeg B) (h1 : A.r = B.r) (h2 : A.c = B.c) :
    NonNeg (mul A B) := fun i hi j hj => mul_nonneg (hA i hi j hj)
      (hB i (h1 ▸ hi) j (h2 ▸ hj))

theorem Q_nonneg {X : Data} {W H : Mat} (hX : NonNeg X.mat) (hW : NonNeg W) (hH : NonNeg H)
    (hs : Shapes X W H) (eps : ℝ) (he : 0 < eps) : NonNeg (Q X W H eps) := by
  intro i hi j hj
  have hx : 0 ≤ X.mat.e i j := hX i hi j hj
  have hd : 0 ≤ (dot W H).e i j := dot_nonneg hW hH hs.2.1 i (hs.1.symm ▸ hi : i < W.r) j
    (hs.2.2.symm ▸ hj : j < H.c)
  have : 0 ≤ (X.mat.e i j + eps) / ((dot W H).e i j + eps) := by positivity
  unfold Q
  simp only []
  split
  · split
    · exact this
    · exact le_refl _
  · exact this

theorem normalizeSum1_nonneg {H : Mat} (hH : NonNeg H) : NonNeg (normalizeSum1 H) := by
  intro i hi j hj
  unfold normalizeSum1
  apply div_nonneg (hH i hi j hj)
  have : 0 ≤ ∑ l ∈ range H.c, H.e i l :=
    Finset.sum_nonneg fun l hl => hH i hi l (Finset.mem_range.1 hl)
  positivity

theorem update_shapes {X : Data} {W H : Mat} (hs : Shapes X W H) (fit : Bool) :
    Shapes X (update X W H fit).1 (update X W H fit).2 := by
  obtain ⟨h1, h2, h3⟩ := hs
  unfold update
  cases fit
  · exact ⟨h1, h2, h3⟩
  · exact ⟨h1, h2, h3⟩

theorem update_dims (X : Data) (W H : Mat) (fit : Bool) :
    (update X W H fit).1.r = W.r ∧ (update X W H fit).1.c = W.c ∧
    (update X W H fit).2.r = H.r ∧ (update X W H fit).2.c = H.c := by
  unfold update
  cases fit <;> exact ⟨rfl, rfl, rfl, rfl⟩

theorem update_nonneg {X : Data} {W H : Mat} (hX : NonNeg X.mat) (hW : NonNeg W) (hH : NonNeg H)
    (hs : Shapes X W H) (fit : Bool) :
    NonNeg (update X W H fit).1 ∧ NonNeg (update X W H fit).2 := by
  obtain ⟨h1, h2, h3⟩ := hs
  have hq := Q_nonneg hX hW hH ⟨h1, h2, h3⟩ EPS EPS_pos
  have hW' : NonNeg (updatedW W H (Q X W H EPS)) :=
    mul_nonNeg hW (dot_nonneg hq (T_nonneg hH) h3.symm) h1 h2
  refine ⟨hW', ?_⟩
  unfold update
  cases fit
  · exact hH
  · exact normalizeSum1_nonneg (mul_nonNeg hH (dot_nonneg (T_nonneg hW') hq h1) h2.symm h3)

theorem after_inv {X : Data} {W H : Mat} (hX : NonNeg X.mat) (hW : NonNeg W) (hH : NonNeg H)
    (hs : Shapes X W H) (fit : Bool) (n : ℕ) :
    NonNeg (after X fit W H n).1 ∧ NonNeg (after X fit W H n).2 ∧
    Shapes X (after X fit W H n).1 (after X fit W H n).2 := by
  induction n with
  | zero => exact ⟨hW, hH, hs⟩
  | succ n ih =>
    rw [after_succ]
    obtain ⟨h1, h2, h3⟩ := ih
    exact ⟨(update_nonneg hX h1 h2 h3 fit).1, (update_nonneg hX h1 h2 h3 fit).2, update_shapes h3 fit⟩

theorem after_r (X : Data) (fit : Bool) (W H : Mat) (n : ℕ) : (after X fit W H n).2.r = H.r := by
  induction n with
  | zero => rfl
  | succ n ih => rw [after_succ, (update_dims _ _ _ _).2.2.1, ih]

theorem init_inv {k : ℕ} {d : Option Mat} {X : Data} {rnd : ℕ → ℕ → ℝ} {W H : Mat}
    (hX : NonNeg X.mat) (hd : ∀ D, d = some D → NonNeg D) (h : init k d X rnd = .ok (W, H)) :
    NonNeg W ∧ NonNeg H ∧ Shapes X W H ∧ H.r = k ∧ W = dot X.mat H.T := by
  unfold init at h
  cases d with
  | none =>
    obtain ⟨rfl, rfl⟩ := Prod.mk.inj (Except.ok.inj h)
    have hH : NonNeg (normalizeSum1 ⟨k, X.mat.c, fun i j => |rnd i j| + 1 / 100⟩) :=
      normalizeSum1_nonneg fun i _ j _ => by
        show 0 ≤ |rnd i j| + 1 / 100
        positivity
    exact ⟨dot_nonneg hX (T_nonneg hH) rfl, hH, ⟨rfl, rfl, rfl⟩, rfl, rfl⟩
  | some D =>
    simp only [] at h
    split at h
    · rename_i hdim
      obtain ⟨rfl, rfl⟩ := Prod.mk.inj (Except.ok.inj h)
      exact ⟨dot_nonneg hX (T_nonneg (hd _ rfl)) hdim.2.symm, hd _ rfl, ⟨rfl, rfl, hdim.2⟩, hdim.1, rfl⟩
    · cases h

/-- **C54.** After a successful `fit_transform`, whatever the number of iterations, coefficients and
components are non negative and have the expected dimensions. -/
theorem C54_fit (s s' : Nmf) (X : Data) (rnd : ℕ → ℕ → ℝ) (wt : ℝ) (sc : Bool) (R : Result)
    (hd : ∀ D, s.initDictionary = some D → NonNeg D)
    (h : fitTransform s X rnd true wt sc = (s', .ok R)) :
    ∃ H k, s'.components = some H ∧ s'.nComponents = some k ∧ NonNeg R.W ∧ NonNeg H ∧
      R.W.r = X.mat.r ∧ R.W.c = k ∧ H.r = k ∧ H.c = X.mat.c := by
  obtain ⟨W₀, H₀, comps, hX, hi, hc, hm, hR, _, hs'⟩ := fitTransform_ok s s' X rnd true wt sc R h
  simp only [if_true] at hc
  subst hc
  obtain ⟨h1, h2, h3, h4, _⟩ := init_inv hX hd hi
  obtain ⟨m, _, h5, h6, _⟩ := loop_spec X true (s.tol * X.mat.r * X.mat.c) wt s.maxIter 1 none W₀ comps []
  obtain ⟨g1, g2, g3⟩ := after_inv hX h1 h2 h3 true m
  have hr : (after X true W₀ comps m).2.r = comps.r := after_r X true W₀ comps m
  have hW : R.W = (after X true W₀ comps m).1 := by rw [hR, ← h5]
  refine ⟨(after X true W₀ comps m).2, setComponents s.nComponents X.mat.c, ?_, ?_, ?_, g2, ?_, ?_, ?_,
    g3.2.2⟩
  · rw [hs', ← h6]; rfl
  · rw [hs']
  · rw [hW]; exact g1
  · rw [hW]; exact g3.1
  · rw [hW, g3.2.1, hr, h4]
  · rw [hr, h4]

/-- **C54.** The same for `transform`, with a non negative dictionary. -/
theorem C54_transform (s s' : Nmf) (X : Data) (rnd : ℕ → ℕ → ℝ) (wt : ℝ) (sc : Bool) (R : Result)
    (hd : ∀ D, s.components = some D → NonNeg D)
    (h : transform s X rnd wt sc = (s', .ok R)) :
    NonNeg R.W ∧ R.W.r = X.mat.r ∧ ∃ D, s.components = some D ∧ R.W.c = D.r := by
  unfold transform at h
  cases hc : s.components with
  | none => rw [hc] at h; simp at h
  | some D =>
    rw [hc] at h
    simp only [] at h
    obtain ⟨W₀, H₀, comps, hX, hi, hco, hm, hR, _, hs'⟩ := fitTransform_ok _ s' X rnd false wt sc R h
    simp only [Bool.false_eq_true, if_false] at hco
    obtain rfl := Option.some.inj hco
    obtain ⟨h1, h2, h3, h4, _⟩ := init_inv hX (fun D' hD' => by
      obtain rfl := Option.some.inj hD'; exact hd _ hc) hi
    have hH : H₀ = D := by
      unfold init at hi
      simp only [] at hi
      split at hi
      · exact (Prod.mk.inj (Except.ok.inj hi)).2.symm
      · cases hi
    subst hH
    obtain ⟨m, _, h5, h6, _⟩ := loop_spec X false (s.tol * X.mat.r * X.mat.c) wt s.maxIter 1 none W₀ H₀ []
    obtain ⟨g1, g2, g3⟩ := after_inv hX h1 h2 h3 false m
    have hr : (after X false W₀ H₀ m).2.r = H₀.r := after_r X false W₀ H₀ m
    have hW : R.W = (after X false W₀ H₀ m).1 := by rw [hR, ← h5]
    refine ⟨by rw [hW]; exact g1, by rw [hW]; exact g3.1, H₀, rfl, ?_⟩
    rw [hW, g3.2.1, hr]

/-- **C54.** Null coefficients and null entries of components remain null through any number of
updates. -/
theorem C54_zeros (X : Data) (fit : Bool) (W H : Mat) (n : ℕ) :
    (∀ i k, W.e i k = 0 → (after X fit W H n).1.e i k = 0) ∧
    (∀ k j, H.e k j = 0 → (after X fit W H n).2.e k j = 0) := by
  induction n with
  | zero => exact ⟨fun _ _ h => h, fun _ _ h => h⟩
  | succ n ih =>
    rw [after_succ]
    generalize after X fit W H n = p at ih
    constructor
    · intro i k h
      show p.1.e i k * _ = 0
      rw [ih.1 i k h, zero_mul]
    · intro k j h
      unfold update
      cases fit with
      | false => exact ih.2 k j h
      | true =>
        show p.2.e k j * _ / _ = 0
        rw [ih.2 k j h, zero_mul, zero_div]

/-- **C54.** In terms of `fit_transform`: null entries of the initial dictionary are null in the
result. -/
theorem C54_fit_zeros (s s' : Nmf) (X : Data) (rnd : ℕ → ℕ → ℝ) (wt : ℝ) (sc : Bool) (R : Result)
    (D : Mat) (hD : s.initDictionary = some D) (h : fitTransform s X rnd true wt sc = (s', .ok R))
    (k j : ℕ) (hz : D.e k j = 0) : ∃ H, s'.components = some H ∧ H.e k j = 0 := by
  obtain ⟨W₀, H₀, comps, hX, hi, hc, hm, hR, _, hs'⟩ := fitTransform_ok s s' X rnd true wt sc R h
  simp only [if_true] at hc
  subst hc
  obtain ⟨m, _, _, h6, _⟩ := loop_spec X true (s.tol * X.mat.r * X.mat.c) wt s.maxIter 1 none W₀ comps []
  have : comps = D := by
    rw [hD] at hi
    unfold init at hi
    simp only [] at hi
    split at hi
    · exact (Prod.mk.inj (Except.ok.inj hi)).2.symm
    · cases hi
  subst this
  refine ⟨_, by rw [hs']; rfl, ?_⟩
  rw [h6]
  exact (C54_zeros X true W₀ comps m).2 k j hz

/-- **C54.** After an update of the dictionary each component sums to less than 1, by at most
`1e-16` over its sum before normalisation. -/
theorem C54_row_sums (X : Data) (W H : Mat) (hX : NonNeg X.mat) (hW : NonNeg W) (hH : NonNeg H)
    (hs : Shapes X W H) (k : ℕ) (hk : k < H.r) :
    ∃ S, S = ∑ j ∈ range X.mat.c, H.e k j * ∑ i ∈ range X.mat.r,
        (update X W H true).1.e i k * (Q X W H EPS).e i j ∧ 0 ≤ S ∧
      ∑ j ∈ range X.mat.c, (update X W H true).2.e k j < 1 ∧
      (0 < S → 1 - ∑ j ∈ range X.mat.c, (update X W H true).2.e k j ≤ 1 / 10 ^ 16 / S) := by
  obtain ⟨h1, h2, h3⟩ := hs
  have hq := Q_nonneg hX hW hH ⟨h1, h2, h3⟩ EPS EPS_pos
  have hW' := (update_nonneg hX hW hH ⟨h1, h2, h3⟩ true).1
  set S := ∑ j ∈ range X.mat.c, H.e k j * ∑ i ∈ range X.mat.r,
        (update X W H true).1.e i k * (Q X W H EPS).e i j with hS
  have hS0 : 0 ≤ S := by
    apply Finset.sum_nonneg
    intro j hj
    apply mul_nonneg (hH k hk j (by rw [h3]; exact Finset.mem_range.1 hj))
    apply Finset.sum_nonneg
    intro i hi
    have hi := Finset.mem_range.1 hi
    exact mul_nonneg (hW' i (by rw [← h1] at hi; exact hi) k (by rw [← h2] at hk; exact hk))
      (hq i hi j (Finset.mem_range.1 hj))
  have hsum : ∑ j ∈ range X.mat.c, (update X W H true).2.e k j = S / (1 / 10 ^ 16 + S) := by
    rw [hS, Finset.sum_div]
    apply Finset.sum_congr rfl
    intro j _
    show H.e k j * (∑ i ∈ range W.r, _) / (1 / 10 ^ 16 + ∑ l ∈ range H.c, H.e k l * ∑ i ∈ range W.r, _) = _
    rw [h3, h1]
    rfl
  refine ⟨S, rfl, hS0, ?_, ?_⟩
  · rw [hsum, div_lt_one (by positivity)]
    have : (0 : ℝ) < 1 / 10 ^ 16 := by positivity
    linarith
  · intro hpos
    rw [hsum]
    have h0 : (0 : ℝ) < 1 / 10 ^ 16 := by positivity
    have : 1 - S / (1 / 10 ^ 16 + S) = 1 / 10 ^ 16 / (1 / 10 ^ 16 + S) := by
      field_simp
      ring
    rw [this]
    apply div_le_div_of_nonneg_left h0.le hpos
    linarith

/-- **C54.** Data with a negative entry are rejected and the model is left as it is. -/
theorem C54_negative (s : Nmf) (X : Data) (rnd : ℕ → ℕ → ℝ) (fit : Bool) (wt : ℝ) (sc : Bool)
    (i j : ℕ) (hi : i < X.mat.r) (hj : j < X.mat.c) (h : X.mat.e i j < 0) :
    fitTransform s X rnd fit wt sc = (s, .error .valueError) := by
  unfold fitTransform
  have : checkNonNegative X = .error .valueError := by
    unfold checkNonNegative
    rw [if_pos ⟨i, hi, j, hj, h⟩]
  rw [this]

/-- **C54.** `fit_transform` does succeed: on non negative data, for any positive number of
iterations and an initial dictionary, if any, of the right dimensions. -/
theorem C54_success (s : Nmf) (X : Data) (rnd : ℕ → ℕ → ℝ) (wt : ℝ) (sc : Bool)
    (hX : NonNeg X.mat) (hm : 0 < s.maxIter)
    (hd : ∀ D, s.initDictionary = some D →
      D.r = setComponents s.nComponents X.mat.c ∧ D.c = X.mat.c) :
    ∃ s' R, fitTransform s X rnd true wt sc = (s', .ok R) := by
  unfold fitTransform
  have hc : checkNonNegative X = .ok () := by
    unfold checkNonNegative
    rw [if_neg]
    rintro ⟨i, hi, j, hj, h⟩
    exact absurd (hX i hi j hj) (not_le.2 h)
  rw [hc]
  simp only []
  have hi : ∃ p, init (setComponents s.nComponents X.mat.c) s.initDictionary X rnd = .ok p := by
    unfold init
    cases hD : s.initDictionary with
    | none => exact ⟨_, rfl⟩
    | some D =>
      simp only []
      rw [if_pos (hd D hD)]
      exact ⟨_, rfl⟩
  obtain ⟨⟨W, H⟩, hi⟩ := hi
  rw [hi]
  simp only [if_true]
  rw [if_neg (by omega)]
  exact ⟨_, _, rfl⟩

/-- Example: data, coefficients and components with one entry. -/
noncomputable def one (x : ℝ) : Mat := ⟨1, 1, fun _ _ => x⟩

theorem one_nonneg {x : ℝ} (h : 0 ≤ x) : NonNeg (one x) := fun _ _ _ _ => h

example : ∃ s' R, fitTransform ⟨some 1, some (one 1), 0, 5, none⟩ ⟨false, one 2⟩ (fun _ _ => 0) true 1
    true = (s', .ok R) :=
  C54_success _ _ _ _ _ (one_nonneg (by norm_num)) (by norm_num) (by
    rintro D hD
    obtain rfl := Option.some.inj hD
    exact ⟨rfl, rfl⟩)

example : Shapes ⟨true, one 2⟩ (one 1) (one 1) ∧ NonNeg (one 1) :=
  ⟨⟨rfl, rfl, rfl⟩, one_nonneg (by norm_num)⟩

/-! ### C55 -/

/-- **C55.** `transform` leaves the components as they are, whether it succeeds or not. -/
theorem C55_components (s : Nmf) (X : Data) (rnd : ℕ → ℕ → ℝ) (wt : ℝ) (sc : Bool) :
    (transform s X rnd wt sc).1.components = s.components := by
  unfold transform
  cases hc : s.components with
  | none => simpa using hc
  | some H =>
    simp only []
    unfold fitTransform
    cases checkNonNegative X with
    | error e => rfl
    | ok u =>
      simp only []
      cases init (setComponents s.nComponents X.mat.c) (some H) X rnd with
      | error e => rfl
      | ok p =>
        simp only [Bool.false_eq_true, if_false]
        split <;> rfl

/-- **C55.** The loop of `transform` does not change the dictionary it uses either. -/
theorem C55_after (X : Data) (W H : Mat) (n : ℕ) : (after X false W H n).2 = H := by
  induction n with
  | zero => rfl
  | succ n ih => rw [after_succ]; exact ih

/-- **C55.** But it keeps the dictionary as initial one: a later `fit` starts from it and does not
depend on the random numbers any more. -/
theorem C55_fit_after_transform (s : Nmf) (X Y : Data) (rnd rnd₁ rnd₂ : ℕ → ℕ → ℝ) (wt : ℝ) (sc : Bool)
    (h : s.components ≠ none) :
    fit (transform s X rnd wt sc).1 Y rnd₁ wt sc = fit (transform s X rnd wt sc).1 Y rnd₂ wt sc := by
  have hi : ∃ H, (transform s X rnd wt sc).1.initDictionary = some H := by
    unfold transform
    cases hc : s.components with
    | none => exact absurd hc h
    | some H =>
      refine ⟨H, ?_⟩
      simp only []
      unfold fitTransform
      cases checkNonNegative X with
      | error e => rfl
      | ok u =>
        simp only []
        cases init (setComponents s.nComponents X.mat.c) (some H) X rnd with
        | error e => rfl
        | ok p =>
          simp only [Bool.false_eq_true, if_false]
          split <;> rfl
  obtain ⟨H, hi⟩ := hi
  unfold fit fitTransform init
  rw [hi]

example : (transform ⟨some 1, none, 0, 5, some (one 1)⟩ ⟨false, one 2⟩ (fun _ _ => 0) 1 true).1.components
    = some (one 1) := C55_components _ _ _ _ _

/-! ### C57 -/

/-- **C57.** At most `max_iter` errors are recorded, and each is smaller than the one before by at
least `tol * n_samples * n_features`. -/
theorem C57_errors (s s' : Nmf) (X : Data) (rnd : ℕ → ℕ → ℝ) (fit : Bool) (wt : ℝ) (sc : Bool)
    (R : Result) (h : fitTransform s X rnd fit wt sc = (s', .ok R)) :
    R.errors.length ≤ s.maxIter ∧ 1 ≤ R.errors.length ∧
    ∀ (i : ℕ) (a b : ℝ), R.errors[i]? = some a → R.errors[i + 1]? = some b →
      s.tol * X.mat.r * X.mat.c ≤ a - b := by
  obtain ⟨W₀, H₀, comps, hX, hi, hc, hm, hR, _, hs'⟩ := fitTransform_ok s s' X rnd fit wt sc R h
  obtain ⟨m, h1, _, _, h4, _, _, h7⟩ :=
    loop_spec X fit (s.tol * X.mat.r * X.mat.c) wt s.maxIter 1 none W₀ comps []
  have he : R.errors = (List.range m).map (fun i => error X (after X fit W₀ comps i).1
      (after X fit W₀ comps i).2 wt) := by rw [hR, h4]; rfl
  have hlen : R.errors.length = m := by rw [he]; simp
  refine ⟨by omega, ?_, ?_⟩
  · -- the first iteration is never a break
    rw [hR]
    simp only []
    obtain ⟨q, hq⟩ : ∃ q, s.maxIter = q + 1 := ⟨s.maxIter - 1, by omega⟩
    rw [hq]
    unfold loop
    simp only []
    rw [if_neg (by rintro ⟨p, hp, _⟩; cases hp)]
    obtain ⟨m', _, _, _, h4', _⟩ := loop_spec X fit (s.tol * X.mat.r * X.mat.c) wt q (1 + 1)
      (some (error X W₀ comps wt)) (update X W₀ comps fit).1 (update X W₀ comps fit).2
      ([] ++ [error X W₀ comps wt])
    rw [h4']
    simp
  · intro i a b ha hb
    rw [he, List.getElem?_map] at ha hb
    have hi1 : i + 1 < m := by
      by_contra hcon
      rw [List.getElem?_eq_none (by simpa using hcon)] at hb
      cases hb
    rw [List.getElem?_range (by omega)] at ha
    rw [List.getElem?_range hi1] at hb
    obtain rfl := Option.some.inj ha
    obtain rfl := Option.some.inj hb
    exact h7 i hi1

/-- **C57.** In particular errors never increase when the tolerance is not negative. -/
theorem C57_decreasing (s s' : Nmf) (X : Data) (rnd : ℕ → ℕ → ℝ) (fit : Bool) (wt : ℝ) (sc : Bool)
    (R : Result) (h : fitTransform s X rnd fit wt sc = (s', .ok R)) (ht : 0 ≤ s.tol)
    (i j : ℕ) (hij : i ≤ j) (a b : ℝ) (ha : R.errors[i]? = some a) (hb : R.errors[j]? = some b) :
    b ≤ a := by
  have hstep := (C57_errors s s' X rnd fit wt sc R h).2.2
  have h0 : 0 ≤ s.tol * X.mat.r * X.mat.c := by positivity
  induction j, hij using Nat.le_induction generalizing b with
  | base => rw [ha] at hb; exact (Option.some.inj hb).ge
  | succ j _ ih =>
    have hlt : j < R.errors.length := by
      obtain ⟨hlt, _⟩ := List.getElem?_eq_some_iff.1 hb
      omega
    have hc := List.getElem?_eq_getElem hlt
    have h1 := ih _ hc
    have h2 := hstep j _ _ hc hb
    linarith

/-- **C57.** The recorded errors are the errors of the successive coefficients and components, from
the initial ones on; the coefficients returned are those after one more update. -/
theorem C57_values (s s' : Nmf) (X : Data) (rnd : ℕ → ℕ → ℝ) (wt : ℝ) (sc : Bool)
    (R : Result) (h : fitTransform s X rnd true wt sc = (s', .ok R)) :
    ∃ W₀ H₀, init (setComponents s.nComponents X.mat.c) s.initDictionary X rnd = .ok (W₀, H₀) ∧
      (∀ (i : ℕ), i < R.errors.length → R.errors[i]? = some (error X (after X true W₀ H₀ i).1
        (after X true W₀ H₀ i).2 wt)) ∧
      R.W = (after X true W₀ H₀ R.errors.length).1 ∧
      s'.components = some (after X true W₀ H₀ R.errors.length).2 := by
  obtain ⟨W₀, H₀, comps, hX, hi, hc, hm, hR, _, hs'⟩ := fitTransform_ok s s' X rnd true wt sc R h
  simp only [if_true] at hc
  subst hc
  obtain ⟨m, h1, h2, h3, h4, _, _, h7⟩ :=
    loop_spec X true (s.tol * X.mat.r * X.mat.c) wt s.maxIter 1 none W₀ comps []
  have he : R.errors = (List.range m).map (fun i => error X (after X true W₀ comps i).1
      (after X true W₀ comps i).2 wt) := by rw [hR, h4]; rfl
  have hlen : R.errors.length = m := by rw [he]; simp
  refine ⟨W₀, comps, hi, ?_, ?_, ?_⟩
  · intro i hi
    rw [he, List.getElem?_map, List.getElem?_range (by omega)]
    rfl
  · rw [hlen, hR, ← h2]
  · rw [hlen, hs', ← h3]; rfl

/-! ### C58 -/

/-- **C58.** The error is the same for sparse and for dense data. -/
theorem C58_sparse_error (X W H : Mat) (wt : ℝ) (h1 : W.r = X.r) (h3 : H.c = X.c) :
    error ⟨true, X⟩ W H wt = error ⟨false, X⟩ W H wt := by
  unfold error
  simp only [if_true, Bool.false_eq_true, if_false]
  have hWH : ∑ k ∈ range W.c, (∑ i ∈ range W.r, W.e i k) * ∑ j ∈ range H.c, H.e k j
      = ∑ i ∈ range X.r, ∑ j ∈ range X.c, (dot W H).e i j := by
    rw [h1, h3]
    have : ∀ k ∈ range W.c, (∑ i ∈ range X.r, W.e i k) * ∑ j ∈ range X.c, H.e k j
        = ∑ i ∈ range X.r, ∑ j ∈ range X.c, W.e i k * H.e k j := by
      intro k _
      rw [Finset.sum_mul]
      apply Finset.sum_congr rfl
      intro i _
      rw [Finset.mul_sum]
    rw [Finset.sum_congr rfl this, Finset.sum_comm]
    apply Finset.sum_congr rfl
    intro i _
    rw [Finset.sum_comm]
    rfl
  rw [hWH, ← Finset.sum_sub_distrib, ← Finset.sum_add_distrib]
  apply Finset.sum_congr rfl
  intro i _
  rw [← Finset.sum_sub_distrib, ← Finset.sum_add_distrib]
  apply Finset.sum_congr rfl
  intro j _
  by_cases hx : X.e i j = 0
  · simp [hx]
  · simp [hx]

/-- **C58.** The error on dense data is the generalised Kullback-Leibler divergence of the metrics
module, on the matrices seen as arrays. -/
theorem C58_generalized_KL (X W H : Mat) (wt : ℝ) :
    error ⟨false, X⟩ W H wt = Metrics.generalizedKL
      (fun p : Fin X.r × Fin X.c => X.e p.1 p.2) (fun p => (dot W H).e p.1 p.2) Metrics.EPSILON := by
  unfold error Metrics.generalizedKL
  simp only [Bool.false_eq_true, if_false]
  rw [Fintype.sum_prod_type, Finset.sum_range]
  apply Finset.sum_congr rfl
  intro i _
  rw [Finset.sum_range]
  rfl

example : error ⟨true, one 2⟩ (one 1) (one 1) 1 = error ⟨false, one 2⟩ (one 1) (one 1) 1 :=
  C58_sparse_error _ _ _ _ rfl rfl

/-! ### C59 -/

/-- **C59.** Rescaling with as many factors as components, at least two, none of them opposite to
`eps`, keeps the product. -/
theorem C59_scale (eps : ℝ) (W H : Mat) (n : ℕ) (f : ℕ → ℝ) (h1 : W.c = n) (h2 : H.r = n)
    (hn : n ≠ 1) (hf : ∀ k < n, f k + eps ≠ 0) :
    ∃ sW sH, scale eps W H n f = .ok (sW, sH) ∧ (dot sW sH).Same (dot W H) := by
  refine ⟨⟨W.r, W.c, fun i j => W.e i j * (f j + eps)⟩,
    ⟨H.r, H.c, fun i j => H.e i j * (1 / (f i + eps))⟩, ?_, rfl, rfl, ?_⟩
  · unfold scale scale1
    simp [hn, h1, h2, bind, Except.bind, pure, Except.pure]
  · intro i _ j _
    show ∑ k ∈ range W.c, _ = ∑ k ∈ range W.c, _
    apply Finset.sum_congr rfl
    intro k hk
    have := hf k (by rw [← h1]; exact Finset.mem_range.1 hk)
    show W.e i k * (f k + eps) * (H.e k j * (1 / (f k + eps))) = _
    field_simp

/-- **C59.** With a single component rescaling always fails. -/
theorem C59_single (eps : ℝ) (W H : Mat) (f : ℕ → ℝ) :
    scale eps W H 1 f = .error .indexError := by
  unfold scale scale1
  simp [bind, Except.bind]

example : ∃ sW sH, scale 0 ⟨1, 2, fun _ _ => 1⟩ ⟨2, 1, fun _ _ => 1⟩ 2 (fun _ => 2) = .ok (sW, sH) ∧
    (dot sW sH).Same (dot ⟨1, 2, fun _ _ => 1⟩ ⟨2, 1, fun _ _ => 1⟩) :=
  C59_scale _ _ _ _ _ rfl rfl (by norm_num) (by intro k _; norm_num)

/-! ### C60 -/

/-- **C60.** After an update on dense data each row of the coefficients sums to the sum over
features of `(x + eps) * wh / (wh + eps)`, for any regularisation. -/
theorem C60_row_sums (X W H : Mat) (eps : ℝ) (h2 : W.c = H.r) (i : ℕ) :
    ∑ k ∈ range H.r, (updatedW W H (Q ⟨false, X⟩ W H eps)).e i k =
      ∑ j ∈ range X.c, (X.e i j + eps) * (dot W H).e i j / ((dot W H).e i j + eps) := by
  have : ∀ k ∈ range H.r, (updatedW W H (Q ⟨false, X⟩ W H eps)).e i k = ∑ j ∈ range X.c,
      W.e i k * ((X.e i j + eps) / ((dot W H).e i j + eps) * H.e k j) := by
    intro k _
    show W.e i k * ∑ j ∈ range X.c, (Q ⟨false, X⟩ W H eps).e i j * H.e k j = _
    rw [Finset.mul_sum]
    apply Finset.sum_congr rfl
    intro j _
    simp [Q]
  rw [Finset.sum_congr rfl this, Finset.sum_comm]
  apply Finset.sum_congr rfl
  intro j _
  have hd : (dot W H).e i j = ∑ k ∈ range H.r, W.e i k * H.e k j := by
    rw [← h2]; rfl
  rw [mul_div_right_comm, mul_comm, hd, Finset.sum_mul]
  apply Finset.sum_congr rfl
  intro k _
  ring

/-- **C60.** Without regularisation and with positive products rows sum to those of the data. -/
theorem C60_no_eps (X W H : Mat) (h2 : W.c = H.r) (i : ℕ) (hpos : ∀ j < X.c, 0 < (dot W H).e i j) :
    ∑ k ∈ range H.r, (updatedW W H (Q ⟨false, X⟩ W H 0)).e i k = ∑ j ∈ range X.c, X.e i j := by
  rw [C60_row_sums X W H 0 h2 i]
  apply Finset.sum_congr rfl
  intro j hj
  have := hpos j (Finset.mem_range.1 hj)
  rw [add_zero, add_zero]
  field_simp

/-- **C60.** With the regularisation of the code and positive products, the sum differs from that of
the row of data by at most `eps` times the sum of `(1 + x / wh)`. -/
theorem C60_mass (X W H : Mat) (fit : Bool) (h2 : W.c = H.r) (i : ℕ) (hX : ∀ j < X.c, 0 ≤ X.e i j) (hpos : ∀ j < X.c, 0 < (dot W H).e i j) :
    |∑ k ∈ range H.r, (update ⟨false, X⟩ W H fit).1.e i k - ∑ j ∈ range X.c, X.e i j| ≤
      EPS * ∑ j ∈ range X.c, (1 + X.e i j / (dot W H).e i j) := by
  have hu : ∑ k ∈ range H.r, (update ⟨false, X⟩ W H fit).1.e i k = _ :=
    C60_row_sums X W H EPS h2 i
  rw [hu, ← Finset.sum_sub_distrib, Finset.mul_sum]
  refine le_trans (Finset.abs_sum_le_sum_abs _ _) (Finset.sum_le_sum ?_)
  intro j hj
  have hj := Finset.mem_range.1 hj
  have hx := hX j hj
  have hy := hpos j hj
  have he := EPS_pos
  generalize X.e i j = x at hx
  generalize (dot W H).e i j = y at hy
  have e1 : (x + EPS) * y / (y + EPS) - x = EPS * (y - x) / (y + EPS) := by
    field_simp
    ring
  rw [e1, abs_div, abs_mul, abs_of_pos he, abs_of_pos (by linarith : 0 < y + EPS), mul_div_assoc]
  apply mul_le_mul_of_nonneg_left _ he.le
  rw [div_le_iff₀ (by linarith)]
  have e2 : |y - x| ≤ y + x := by
    rw [abs_le]; constructor <;> linarith
  refine le_trans e2 ?_
  have e3 : (1 + x / y) * (y + EPS) = y + x + EPS * (1 + x / y) := by
    field_simp
  rw [e3]
  have : 0 ≤ EPS * (1 + x / y) := by positivity
  linarith

example : (∀ j < (one 2).c, 0 ≤ (one 2).e 0 j) ∧ ∀ j < (one 2).c, 0 < (dot (one 1) (one 1)).e 0 j := by
  refine ⟨fun _ _ => by norm_num [one], fun _ _ => ?_⟩
  simp [dot, one]

/-! ### C61 -/

/-- **C61.** `weights` and `scale_W` are without effect. -/
theorem C61_options (s : Nmf) (X : Data) (rnd : ℕ → ℕ → ℝ) (fit : Bool) (wt wt' : ℝ) (sc sc' : Bool) :
    fitTransform s X rnd fit wt sc = fitTransform s X rnd fit wt' sc' := by
  have herr : ∀ W H, error X W H wt = error X W H wt' := fun W H => rfl
  have hloop : ∀ (tol : ℝ) (left n : ℕ) (prev : Option ℝ) (W H : Mat) (errs : List ℝ),
      loop X fit tol wt left n prev W H errs = loop X fit tol wt' left n prev W H errs := by
    intro tol left
    induction left with
    | zero => intros; rfl
    | succ left ih =>
      intro n prev W H errs
      unfold loop
      simp only []
      rw [herr, ih]
  unfold fitTransform
  simp only [hloop _ _ _ _ _ _ _]

/-- **C61.** Without iterations it always fails; on non negative data after the components were
set. -/
theorem C61_no_iteration (s : Nmf) (X : Data) (rnd : ℕ → ℕ → ℝ) (fit : Bool) (wt : ℝ) (sc : Bool)
    (h : s.maxIter = 0) : ∃ s' e, fitTransform s X rnd fit wt sc = (s', .error e) := by
  rcases hr : fitTransform s X rnd fit wt sc with ⟨s', r⟩
  cases r with
  | error e => exact ⟨s', e, rfl⟩
  | ok R =>
    obtain ⟨_, _, _, _, _, _, hm, _⟩ := fitTransform_ok s s' X rnd fit wt sc R hr
    omega

/-- **C61.** The exception is `UnboundLocalError` when nothing else is wrong. -/
theorem C61_unbound (s : Nmf) (X : Data) (rnd : ℕ → ℕ → ℝ) (wt : ℝ) (sc : Bool)
    (h : s.maxIter = 0) (hX : NonNeg X.mat) (hd : s.initDictionary = none) :
    (fitTransform s X rnd true wt sc).2 = .error .unboundLocalError ∧
    (fitTransform s X rnd true wt sc).1.components ≠ none := by
  unfold fitTransform
  have hc : checkNonNegative X = .ok () := by
    unfold checkNonNegative
    rw [if_neg]
    rintro ⟨i, hi, j, hj, hlt⟩
    exact absurd (hX i hi j hj) (not_le.2 hlt)
  rw [hc, hd]
  simp only [init, if_true]
  rw [if_pos h]
  exact ⟨rfl, by simp⟩

example : (fitTransform ⟨some 1, none, 0, 0, none⟩ ⟨false, one 2⟩ (fun _ _ => 0) true 1 true).2
    = .error .unboundLocalError := (C61_unbound _ _ _ _ _ rfl (one_nonneg (by norm_num)) rfl).1

/-! ### C102 -/

/-- **C102.** A warning is written exactly when the tolerance is positive and all iterations were
started: also when the last one finds that the error has converged. -/
theorem C102_warning (s s' : Nmf) (X : Data) (rnd : ℕ → ℕ → ℝ) (fit : Bool) (wt : ℝ) (sc : Bool)
    (R : Result) (h : fitTransform s X rnd fit wt sc = (s', .ok R)) :
    R.warned = true ↔ 0 < s.tol * X.mat.r * X.mat.c ∧ s.maxIter ≤ R.errors.length + 1 := by
  obtain ⟨W₀, H₀, comps, hX, hi, hc, hm, hR, hw, hs'⟩ := fitTransform_ok s s' X rnd fit wt sc R h
  obtain ⟨m, h1, _, _, h4, h5, _⟩ :=
    loop_spec X fit (s.tol * X.mat.r * X.mat.c) wt s.maxIter 1 none W₀ comps []
  have hlen : R.errors.length = m := by rw [hR, h4]; simp
  rw [hw, h5, hlen]
  constructor
  · rintro ⟨ha, hb⟩
    refine ⟨hb, ?_⟩
    split at ha <;> omega
  · rintro ⟨ha, hb⟩
    refine ⟨?_, ha⟩
    split <;> omega

/-- **C102.** Transforming data whose number of features is not that of the dictionary fails with
`AssertionError`, and so does a model whose number of components is not that of the dictionary. -/
theorem C102_wrong_features (s : Nmf) (X : Data) (rnd : ℕ → ℕ → ℝ) (wt : ℝ) (sc : Bool) (H : Mat)
    (hc : s.components = some H) (hX : NonNeg X.mat)
    (h : H.c ≠ X.mat.c ∨ H.r ≠ setComponents s.nComponents X.mat.c) :
    (transform s X rnd wt sc).2 = .error .assertionError := by
  unfold transform
  rw [hc]
  simp only []
  unfold fitTransform
  have hcn : checkNonNegative X = .ok () := by
    unfold checkNonNegative
    rw [if_neg]
    rintro ⟨i, hi, j, hj, hlt⟩
    exact absurd (hX i hi j hj) (not_le.2 hlt)
  rw [hcn]
  simp only [init]
  rw [if_neg]
  rintro ⟨h1, h2⟩
  rcases h with h | h
  · exact h h2
  · exact h h1

example : (transform ⟨some 1, none, 0, 5, some (one 1)⟩ ⟨false, ⟨1, 2, fun _ _ => 1⟩⟩ (fun _ _ => 0) 1
    true).2 = .error .assertionError :=
  C102_wrong_features _ _ _ _ _ (one 1) rfl (fun _ _ _ _ => by norm_num) (Or.inl (by decide))

end Verif.NMF
