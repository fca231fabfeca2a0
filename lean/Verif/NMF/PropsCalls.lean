import Verif.NMF.Props

/-!
# Property C233: one factorization object used several times
-/

namespace Verif.NMF

open Finset

/-- A call of a method of the object. -/
inductive Call
  | fit (X : Data) (rnd : ℕ → ℕ → ℝ) (weights : ℝ) (scaleW : Bool)
  | transform (X : Data) (rnd : ℕ → ℕ → ℝ) (weights : ℝ) (scaleW : Bool)

/-- The object after a call, which may have raised. -/
noncomputable def Call.run (s : Nmf) : Call → Nmf
  | .fit X rnd wt sc => (NMF.fit s X rnd wt sc).1
  | .transform X rnd wt sc => (NMF.transform s X rnd wt sc).1

theorem after_c (X : Data) (fit : Bool) (W H : Mat) (n : ℕ) : (after X fit W H n).2.c = H.c := by
  induction n with
  | zero => rfl
  | succ n ih =>
    rw [after_succ]
    cases fit with
    | false => exact ih
    | true => exact ih

theorem check_ok {X : Data} (hX : NonNeg X.mat) : checkNonNegative X = .ok () := by
  unfold checkNonNegative
  rw [if_neg]
  rintro ⟨i, hi, j, hj, hlt⟩
  exact absurd (hX i hi j hj) (not_le.2 hlt)

theorem check_error {X : Data} (hX : ¬ NonNeg X.mat) : checkNonNegative X = .error .valueError := by
  unfold checkNonNegative
  rw [if_pos]
  unfold NonNeg at hX
  push Not at hX
  exact hX

/-- **C233.** A fit does not start from the current components: its outcome, and the object after it when it succeeds, do
not depend on them. -/
theorem C233_restart (s : Nmf) (c : Option Mat) (X : Data) (rnd : ℕ → ℕ → ℝ) (wt : ℝ) (sc : Bool) :
    (fit { s with components := c } X rnd wt sc).2 = (fit s X rnd wt sc).2 ∧
    ((fit s X rnd wt sc).2 = .ok () → (fit { s with components := c } X rnd wt sc).1 = (fit s X rnd wt sc).1) := by
  unfold fit fitTransform
  cases checkNonNegative X with
  | error e => exact ⟨rfl, fun h => by cases h⟩
  | ok u =>
    simp only []
    cases init (setComponents s.nComponents X.mat.c) s.initDictionary X rnd with
    | error e => exact ⟨rfl, fun h => by cases h⟩
    | ok p => exact ⟨rfl, fun _ => rfl⟩

/-- **C233.** Of several fits which succeed, only the last one counts, when the number of components is given. -/
theorem C233_last (s : Nmf) (k : ℕ) (hk : s.nComponents = some k) (h0 : k ≠ 0) (X Y : Data) (r r' : ℕ → ℕ → ℝ) (wt : ℝ)
    (sc : Bool) (h : (fit s X r wt sc).2 = .ok ()) :
    (fit (fit s X r wt sc).1 Y r' wt sc).2 = (fit s Y r' wt sc).2 ∧
    ((fit s Y r' wt sc).2 = .ok () → (fit (fit s X r wt sc).1 Y r' wt sc).1 = (fit s Y r' wt sc).1) := by
  have e : ∃ c, (fit s X r wt sc).1 = { s with components := c } := by
    unfold fit at h ⊢
    rcases hf : fitTransform s X r true wt sc with ⟨s', o⟩
    rw [hf] at h
    cases o with
    | error e => cases h
    | ok R =>
      obtain ⟨_, _, comps, _, _, _, _, _, _, hs⟩ := fitTransform_ok s s' X r true wt sc R hf
      refine ⟨s'.components, ?_⟩
      show s' = _
      rw [hs, hk]
      simp only [setComponents, if_neg h0]
  obtain ⟨c, e⟩ := e
  rw [e]
  exact C233_restart s c Y r' wt sc

/-- **C233.** With negative data, a fit changes nothing, but a transform still records the components as initial dictionary
of later fits. -/
theorem C233_negative (s : Nmf) (X : Data) (hX : ¬ NonNeg X.mat) (rnd : ℕ → ℕ → ℝ) (wt : ℝ) (sc : Bool) :
    fit s X rnd wt sc = (s, .error .valueError) ∧
    ∀ H, s.components = some H → transform s X rnd wt sc = ({ s with initDictionary := some H }, .error .valueError) := by
  constructor
  · unfold fit fitTransform
    rw [check_error hX]
    rfl
  · intro H hH
    unfold transform fitTransform
    rw [hH]
    simp only []
    rw [check_error hX]

/-- The object has components, an initial dictionary and a number of components of these shapes. -/
structure Fixed (k n : ℕ) (s : Nmf) : Prop where
  nComponents : s.nComponents = some k
  dictionary : ∃ D, s.initDictionary = some D ∧ D.r = k ∧ D.c = n
  components : ∃ H, s.components = some H ∧ H.r = k ∧ H.c = n

theorem fitTransform_fixed {k n : ℕ} (hk : k ≠ 0) {s : Nmf} (h : Fixed k n s) (X : Data) (rnd : ℕ → ℕ → ℝ) (fit : Bool)
    (wt : ℝ) (sc : Bool) : Fixed k n (fitTransform s X rnd fit wt sc).1 := by
  obtain ⟨h1, ⟨D, d1, d2, d3⟩, ⟨H, e1, e2, e3⟩⟩ := h
  unfold fitTransform
  by_cases hX : NonNeg X.mat
  · rw [check_ok hX]
    have es : setComponents s.nComponents X.mat.c = k := by rw [h1]; simp [setComponents, hk]
    simp only [es, d1, init]
    by_cases hc : D.r = k ∧ D.c = X.mat.c
    · rw [if_pos hc]
      cases fit with
      | false =>
        simp only [Bool.false_eq_true, if_false, e1]
        by_cases hm : s.maxIter = 0
        · rw [if_pos hm]
          exact ⟨rfl, ⟨D, rfl, d2, d3⟩, ⟨H, rfl, e2, e3⟩⟩
        · rw [if_neg hm]
          exact ⟨rfl, ⟨D, rfl, d2, d3⟩, ⟨H, rfl, e2, e3⟩⟩
      | true =>
        simp only [if_true]
        by_cases hm : s.maxIter = 0
        · rw [if_pos hm]
          exact ⟨rfl, ⟨D, rfl, d2, d3⟩, ⟨D, rfl, d2, d3⟩⟩
        · rw [if_neg hm]
          obtain ⟨m, _, _, hH, _⟩ := loop_spec X true (s.tol * X.mat.r * X.mat.c) wt s.maxIter 1 none (dot X.mat D.T) D []
          refine ⟨rfl, ⟨D, rfl, d2, d3⟩, ⟨_, rfl, ?_, ?_⟩⟩
          · rw [hH, after_r, d2]
          · rw [hH, after_c, d3]
    · rw [if_neg hc]
      exact ⟨rfl, ⟨D, rfl, d2, d3⟩, ⟨H, e1, e2, e3⟩⟩
  · rw [check_error hX]
    exact ⟨h1, ⟨D, d1, d2, d3⟩, ⟨H, e1, e2, e3⟩⟩

theorem call_fixed {k n : ℕ} (hk : k ≠ 0) {s : Nmf} (h : Fixed k n s) (c : Call) : Fixed k n (c.run s) := by
  cases c with
  | fit X rnd wt sc => exact fitTransform_fixed hk h X rnd true wt sc
  | transform X rnd wt sc =>
    obtain ⟨H, e1, e2, e3⟩ := h.components
    show Fixed k n (transform s X rnd wt sc).1
    unfold transform
    rw [e1]
    exact fitTransform_fixed hk (s := { s with initDictionary := some H, components := some H })
      ⟨h.nComponents, ⟨H, rfl, e2, e3⟩, ⟨H, rfl, e2, e3⟩⟩ X rnd false wt sc

theorem fixed_rejects {k n : ℕ} (hk : k ≠ 0) {s : Nmf} (h : Fixed k n s) (Z : Data) (r : ℕ → ℕ → ℝ) (wt : ℝ) (sc : Bool)
    (hZ : NonNeg Z.mat) (hne : Z.mat.c ≠ n) :
    (fit s Z r wt sc).2 = .error .assertionError ∧ (fit s Z r wt sc).1.components = s.components ∧
    (transform s Z r wt sc).2 = .error .assertionError ∧ (transform s Z r wt sc).1.components = s.components := by
  obtain ⟨g1, ⟨D, d1, d2, d3⟩, ⟨H', c1, c2, c3⟩⟩ := h
  have es : setComponents s.nComponents Z.mat.c = k := by rw [g1]; simp [setComponents, hk]
  have hfit : fit s Z r wt sc = ({ s with nComponents := some k }, .error .assertionError) := by
    unfold fit fitTransform
    rw [check_ok hZ]
    simp only [es, d1, init]
    rw [if_neg (by rw [d3]; exact fun h => hne h.2.symm)]
    rfl
  have htr : transform s Z r wt sc =
      ({ s with nComponents := some k, initDictionary := some H' }, .error .assertionError) := by
    unfold transform fitTransform
    rw [c1]
    simp only []
    rw [check_ok hZ]
    simp only [es, init]
    rw [if_neg (by rw [c3]; exact fun h => hne h.2.symm)]
  rw [hfit, htr]
  exact ⟨rfl, rfl, rfl, rfl⟩

/-- **C233.** Once an object has been fitted on data with `n` features and has transformed any data, successfully or not,
it only accepts data with `n` features, for ever: after any further calls its components have the same shape, and a fit or a
transform of other data which are not negative raises `AssertionError` and leaves the components. -/
theorem C233_features (s : Nmf) (hd : s.initDictionary = none) (X : Data) (rnd : ℕ → ℕ → ℝ) (wt : ℝ) (sc : Bool)
    (hf : (fit s X rnd wt sc).2 = .ok ()) (hk : setComponents s.nComponents X.mat.c ≠ 0) (Y : Data) (rnd' : ℕ → ℕ → ℝ)
    (calls : List Call) :
    let s' := calls.foldl Call.run (transform (fit s X rnd wt sc).1 Y rnd' wt sc).1
    (∃ H, s'.components = some H ∧ H.r = setComponents s.nComponents X.mat.c ∧ H.c = X.mat.c) ∧
    ∀ (Z : Data) (r : ℕ → ℕ → ℝ), NonNeg Z.mat → Z.mat.c ≠ X.mat.c →
      (fit s' Z r wt sc).2 = .error .assertionError ∧ (fit s' Z r wt sc).1.components = s'.components ∧
      (transform s' Z r wt sc).2 = .error .assertionError ∧
      (transform s' Z r wt sc).1.components = s'.components := by
  set k := setComponents s.nComponents X.mat.c with hkdef
  have h1 : ∃ H, (fit s X rnd wt sc).1.components = some H ∧ H.r = k ∧ H.c = X.mat.c ∧
      (fit s X rnd wt sc).1.nComponents = some k := by
    unfold fit at hf ⊢
    rcases hft : fitTransform s X rnd true wt sc with ⟨s1, o⟩
    rw [hft] at hf
    cases o with
    | error e => cases hf
    | ok R =>
      obtain ⟨W0, H0, comps, _, hi, hc, _, _, _, hs⟩ := fitTransform_ok s s1 X rnd true wt sc R hft
      rw [if_pos rfl] at hc
      subst hc
      rw [hd] at hi
      simp only [init, Except.ok.injEq, Prod.mk.injEq] at hi
      obtain ⟨m, _, _, hH, _⟩ := loop_spec X true (s.tol * X.mat.r * X.mat.c) wt s.maxIter 1 none W0 comps []
      rw [hs]
      refine ⟨_, rfl, ?_, ?_, rfl⟩
      · rw [hH, after_r, ← hi.2]; rfl
      · rw [hH, after_c, ← hi.2]; rfl
  obtain ⟨H, e1, e2, e3, e4⟩ := h1
  have h2 : Fixed k X.mat.c (transform (fit s X rnd wt sc).1 Y rnd' wt sc).1 := by
    unfold transform
    rw [e1]
    exact fitTransform_fixed hk (s := { (fit s X rnd wt sc).1 with initDictionary := some H, components := some H })
      ⟨e4, ⟨H, rfl, e2, e3⟩, ⟨H, rfl, e2, e3⟩⟩ Y rnd' false wt sc
  have h3 : ∀ (calls : List Call) (s0 : Nmf), Fixed k X.mat.c s0 → Fixed k X.mat.c (calls.foldl Call.run s0) := by
    intro calls
    induction calls with
    | nil => intro s0 h; exact h
    | cons c calls ih => intro s0 h; exact ih _ (call_fixed hk h c)
  have h4 := h3 calls _ h2
  intro s'
  refine ⟨h4.components, ?_⟩
  intro Z r hZ hne
  exact fixed_rejects hk h4 Z r wt sc hZ hne

/-- **C233.** Without `transform`, data with another number of features are accepted: the new components have as many
columns as the data.  The number of components, when it was not given, remains the number of features of the first data. -/
theorem C233_refit (s : Nmf) (hd : s.initDictionary = none) (hm : 0 < s.maxIter) (X Y : Data) (hX : NonNeg X.mat)
    (hY : NonNeg Y.mat) (r r' : ℕ → ℕ → ℝ) (wt : ℝ) (sc : Bool) (hk : setComponents s.nComponents X.mat.c ≠ 0) :
    (fit (fit s X r wt sc).1 Y r' wt sc).2 = .ok () ∧
    ∃ H, (fit (fit s X r wt sc).1 Y r' wt sc).1.components = some H ∧ H.r = setComponents s.nComponents X.mat.c ∧
      H.c = Y.mat.c := by
  have key : ∀ (s : Nmf) (X : Data) (r : ℕ → ℕ → ℝ), s.initDictionary = none → 0 < s.maxIter → NonNeg X.mat →
      (fit s X r wt sc).2 = .ok () ∧ (fit s X r wt sc).1.initDictionary = none ∧
      (fit s X r wt sc).1.maxIter = s.maxIter ∧
      (fit s X r wt sc).1.nComponents = some (setComponents s.nComponents X.mat.c) ∧
      ∃ H, (fit s X r wt sc).1.components = some H ∧ H.r = setComponents s.nComponents X.mat.c ∧ H.c = X.mat.c := by
    intro s X r hd hm hX
    unfold fit fitTransform
    rw [check_ok hX]
    simp only [hd, init, if_true]
    rw [if_neg (by omega)]
    refine ⟨rfl, rfl, rfl, rfl, _, rfl, ?_⟩
    obtain ⟨m, _, _, hH, _⟩ := loop_spec X true (s.tol * X.mat.r * X.mat.c) wt s.maxIter 1 none
      (dot X.mat (normalizeSum1 ⟨setComponents s.nComponents X.mat.c, X.mat.c, fun i j => |r i j| + 1 / 100⟩).T)
      (normalizeSum1 ⟨setComponents s.nComponents X.mat.c, X.mat.c, fun i j => |r i j| + 1 / 100⟩) []
    exact ⟨by rw [hH, after_r]; rfl, by rw [hH, after_c]; rfl⟩
  obtain ⟨a1, a2, a3, a4, a5⟩ := key s X r hd hm hX
  obtain ⟨b1, b2, b3, b4, H, c1, c2, c3⟩ := key (fit s X r wt sc).1 Y r' a2 (by rw [a3]; exact hm) hY
  refine ⟨b1, H, c1, ?_, c3⟩
  rw [c2, a4]
  exact if_neg hk

/-- **C233.** The number of components of a new object after a fit: the one which was given, or the number of features of the
data when none was given, or zero. -/
theorem C233_default (s : Nmf) (hd : s.initDictionary = none) (hm : 0 < s.maxIter) (X : Data) (hX : NonNeg X.mat)
    (r : ℕ → ℕ → ℝ) (wt : ℝ) (sc : Bool) (n : ℕ)
    (hn : (s.nComponents = none ∨ s.nComponents = some 0) ∧ n = X.mat.c ∨ s.nComponents = some n ∧ n ≠ 0) :
    (fit s X r wt sc).2 = .ok () ∧ (fit s X r wt sc).1.nComponents = some n ∧
      ∃ H, (fit s X r wt sc).1.components = some H ∧ H.r = n ∧ H.c = X.mat.c := by
  have hk : setComponents s.nComponents X.mat.c = n := by
    rcases hn with ⟨h | h, rfl⟩ | ⟨h, h0⟩
    · rw [h]; rfl
    · rw [h]; rfl
    · rw [h]; exact if_neg h0
  unfold fit fitTransform
  rw [check_ok hX]
  simp only [hd, init, if_true, hk]
  rw [if_neg (by omega)]
  refine ⟨rfl, rfl, _, rfl, ?_⟩
  obtain ⟨m, _, _, hH, _⟩ := loop_spec X true (s.tol * X.mat.r * X.mat.c) wt s.maxIter 1 none
    (dot X.mat (normalizeSum1 ⟨n, X.mat.c, fun i j => |r i j| + 1 / 100⟩).T)
    (normalizeSum1 ⟨n, X.mat.c, fun i j => |r i j| + 1 / 100⟩) []
  exact ⟨by rw [hH, after_r]; rfl, by rw [hH, after_c]; rfl⟩

/-- Two features and no number of components: two components. -/
example (r : ℕ → ℕ → ℝ) :
    (fit ⟨none, none, 0, 1, none⟩ ⟨false, ⟨1, 2, fun _ _ => 1⟩⟩ r 1 false).1.nComponents = some 2 :=
  (C233_default _ rfl one_pos _ (fun _ _ _ _ => zero_le_one) r 1 false 2 (Or.inl ⟨Or.inl rfl, rfl⟩)).2.1

/-- An object with two components, fitted on one sample with two features: it can be fitted again on three features, but
not once it has transformed data. -/
example (r : ℕ → ℕ → ℝ) : ∃ s : Nmf,
    (fit (fit s ⟨false, ⟨1, 2, fun _ _ => 1⟩⟩ r 1 false).1 ⟨false, ⟨1, 3, fun _ _ => 1⟩⟩ r 1 false).2 = .ok () ∧
    (fit (transform (fit s ⟨false, ⟨1, 2, fun _ _ => 1⟩⟩ r 1 false).1 ⟨false, ⟨1, 2, fun _ _ => 1⟩⟩ r 1 false).1
      ⟨false, ⟨1, 3, fun _ _ => 1⟩⟩ r 1 false).2 = .error .assertionError := by
  have hn : ∀ m n : ℕ, NonNeg (⟨m, n, fun _ _ => 1⟩ : Mat) := fun m n i _ j _ => zero_le_one
  refine ⟨⟨some 2, none, 0, 1, none⟩, (C233_refit _ rfl one_pos _ _ (hn 1 2) (hn 1 3) r r 1 false (by decide)).1, ?_⟩
  have hf : (fit ⟨some 2, none, 0, 1, none⟩ ⟨false, ⟨1, 2, fun _ _ => 1⟩⟩ r 1 false).2 = .ok () := by
    unfold fit fitTransform
    rw [check_ok (hn 1 2)]
    rfl
  have := (C233_features ⟨some 2, none, 0, 1, none⟩ rfl ⟨false, ⟨1, 2, fun _ _ => 1⟩⟩ r 1 false hf (by decide)
    ⟨false, ⟨1, 2, fun _ _ => 1⟩⟩ r []).2 ⟨false, ⟨1, 3, fun _ _ => 1⟩⟩ r (hn 1 3) (by decide)
  exact this.1

end Verif.NMF
