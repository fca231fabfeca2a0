import Verif.KDE.PropsKL
import Mathlib.Data.List.Perm.Basic

/-!
# Entropy of density estimates (C162)
-/

namespace Verif.KDE

/-! ## Specification -/

/-- Integral by trapezoids of `n` values at points with step `d`: the first and the last one count for
half. -/
noncomputable def integral (n : ℕ) (d : ℝ) (f : ℕ → ℝ) : ℝ :=
  ∑ t ∈ Finset.range n, (if t = 0 ∨ t = n - 1 then d / 2 else d) * f t

/-! ## Lemmas -/

/-- Trapezoids are a weighted sum. -/
theorem trapz_integral (y : List ℝ) (d : ℝ) (h : 2 ≤ y.length) :
    trapz y d = integral y.length d fun t => y.getD t 0 := by
  rw [trapz_eq y d (by omega)]
  unfold integral
  have hw : ∀ t ∈ Finset.range y.length, (if t = 0 ∨ t = y.length - 1 then d / 2 else d) * y.getD t 0 =
      d * y.getD t 0 - ((if t = 0 then d / 2 * y.getD t 0 else 0) +
        if t = y.length - 1 then d / 2 * y.getD t 0 else 0) := by
    intro t _
    by_cases h0 : t = 0
    · rw [if_pos (Or.inl h0), if_pos h0, if_neg (by omega)]
      ring
    · by_cases h1 : t = y.length - 1
      · rw [if_pos (Or.inr h1), if_neg h0, if_pos h1]
        ring
      · rw [if_neg (by tauto), if_neg h0, if_neg h1]
        ring
  rw [Finset.sum_congr rfl hw, Finset.sum_sub_distrib, Finset.sum_add_distrib, Finset.sum_ite_eq',
    Finset.sum_ite_eq', if_pos (Finset.mem_range.2 (by omega)), if_pos (Finset.mem_range.2 (by omega)),
    ← Finset.mul_sum]
  ring

theorem integral_le (n : ℕ) (d : ℝ) (hd : 0 ≤ d) (f g : ℕ → ℝ) (h : ∀ t < n, f t ≤ g t) :
    integral n d f ≤ integral n d g := by
  unfold integral
  refine Finset.sum_le_sum fun t ht => mul_le_mul_of_nonneg_left (h t (Finset.mem_range.1 ht)) ?_
  split_ifs <;> linarith

theorem integral_lin (n : ℕ) (d a b : ℝ) (f g : ℕ → ℝ) :
    integral n d (fun t => a * f t + b * g t) = a * integral n d f + b * integral n d g := by
  unfold integral
  rw [Finset.mul_sum, Finset.mul_sum, ← Finset.sum_add_distrib]
  exact Finset.sum_congr rfl fun t _ => by ring

theorem integral_const (n : ℕ) (hn : 2 ≤ n) (d : ℝ) : integral n d (fun _ => 1) = ((n : ℝ) - 1) * d := by
  have h := trapz_integral (List.replicate n 1) d (by simpa using hn)
  rw [List.length_replicate] at h
  have e : integral n d (fun _ => 1) = integral n d fun t => (List.replicate n (1 : ℝ)).getD t 0 := by
    unfold integral
    refine Finset.sum_congr rfl fun t ht => ?_
    rw [Finset.mem_range] at ht
    simp [List.getD_eq_getElem?_getD, ht]
  rw [e, ← h]
  unfold trapz
  have : ∀ i ∈ Finset.range ((List.replicate n (1 : ℝ)).length - 1),
      d * ((List.replicate n (1 : ℝ)).getD i 0 + (List.replicate n (1 : ℝ)).getD (i + 1) 0) / 2 = d := by
    intro i hi
    rw [Finset.mem_range, List.length_replicate] at hi
    rw [List.getD_eq_getElem?_getD, List.getD_eq_getElem?_getD, List.getElem?_replicate,
      List.getElem?_replicate, if_pos (by omega), if_pos (by omega)]
    simp only [Option.getD_some]
    ring
  rw [Finset.sum_congr rfl this, Finset.sum_const, Finset.card_range, List.length_replicate, nsmul_eq_mul,
    Nat.cast_sub (by omega), Nat.cast_one]

theorem list_sum_range (l : List ℝ) : l.sum = ∑ t ∈ Finset.range l.length, l.getD t 0 := by
  rw [← sum_range]
  congr 1
  exact list_eq_map l l.length _ rfl fun i _ => rfl

theorem getD_nonneg (l : List ℝ) (h : ∀ v ∈ l, 0 ≤ v) (t : ℕ) : 0 ≤ l.getD t 0 := by
  rw [List.getD_eq_getElem?_getD]
  by_cases ht : t < l.length
  · rw [List.getElem?_eq_getElem ht]
    exact h _ (List.getElem_mem ht)
  · rw [List.getElem?_eq_none (by omega)]
    exact le_rfl

/-! ## C162: entropy -/

/-- **C162**: what `kde_entropy_gaussian_1d` returns is the integral by trapezoids of `- p log (p + 1e-14)`
for the values `p` of the estimate. -/
theorem C162_value (x : List ℝ) (h : ℝ) (hh : h ≠ 0) (nb : ℕ) (hnb : 2 ≤ nb) (fft : Bool) (lo hi : ℝ)
    (hb : Bounds none x lo hi) (hlt : lo < hi) :
    ∃ g p, gaussian1 x h nb fft none = .ok (g, p) ∧ p.length = 2 * nb - 2 ∧
      entropy1 x h nb fft = .ok (integral (2 * nb - 2) ((hi - lo) / ((nb : ℝ) - 1)) fun t =>
        -(p.getD t 0 * Real.log (p.getD t 0 + 1 / 10 ^ 14))) := by
  obtain ⟨g, p, e, -, lp, -, -⟩ := C106_mass x h hh nb hnb fft none lo hi hb hlt
  refine ⟨g, p, e, lp, ?_⟩
  have hg : g = (List.range nb).map fun i : ℕ => lo + i * ((hi - lo) / ((nb : ℝ) - 1)) := by
    have := (gaussian1_eq x h hh nb hnb fft _ lo hi hb hlt).symm.trans e
    injection this with this
    injection this with this
    exact this.symm
  unfold entropy1
  rw [e]
  simp only [bind, Except.bind]
  rw [hg, show (1 : ℤ) = ((1 : ℕ) : ℤ) from rfl, pyGet_map_range _ 1 _ (by omega),
    show (0 : ℤ) = ((0 : ℕ) : ℤ) from rfl, pyGet_map_range _ 0 _ (by omega)]
  simp only [pure, Except.pure]
  rw [trapz_integral _ _ (by simp; omega), List.length_map, lp]
  congr 1
  have : lo + ((1 : ℕ) : ℝ) * ((hi - lo) / ((nb : ℝ) - 1)) -
      (lo + ((0 : ℕ) : ℝ) * ((hi - lo) / ((nb : ℝ) - 1))) = (hi - lo) / ((nb : ℝ) - 1) := by
    push_cast; ring
  rw [this]
  unfold integral
  refine Finset.sum_congr rfl fun t ht => ?_
  rw [Finset.mem_range, ← lp] at ht
  congr 1
  show (List.map (fun p => -p * Real.log (p + EPSILON)) p).getD t 0 = _
  simp only []
  rw [List.getD_eq_getElem?_getD, List.getElem?_map, List.getD_eq_getElem?_getD,
    List.getElem?_eq_getElem ht]
  simp [EPSILON]

/-- **C162**: trapezoids find a mass `M` of the estimate between one half and 1; the entropy is at most the
one of this mass spread evenly over the points, and at least the one of a single bin. -/
theorem C162_bounds (x : List ℝ) (h : ℝ) (hh : h ≠ 0) (nb : ℕ) (hnb : 2 ≤ nb) (fft : Bool) (lo hi : ℝ)
    (hb : Bounds none x lo hi) (hlt : lo < hi) (d : ℝ) (hd : d = (hi - lo) / ((nb : ℝ) - 1)) :
    ∃ g p v M, gaussian1 x h nb fft none = .ok (g, p) ∧ entropy1 x h nb fft = .ok v ∧
      M = integral (2 * nb - 2) d (fun t => p.getD t 0) ∧ 1 / 2 ≤ M ∧ M ≤ 1 ∧
      v ≤ M * Real.log ((2 * nb - 3) * d / M) ∧ -(M * Real.log (1 / d + 1 / 10 ^ 14)) ≤ v := by
  obtain ⟨g, p, e, lp, hv⟩ := C162_value x h hh nb hnb fft lo hi hb hlt
  obtain ⟨g', p', e', -, -, np, mp⟩ := C106_mass x h hh nb hnb fft none lo hi hb hlt
  rw [e] at e'
  injection e' with e'
  injection e' with _ e'
  subst e'
  obtain ⟨hdp, -⟩ := steps_pos lo hi nb hnb hlt
  rw [← hd] at hv mp hdp
  set n := 2 * nb - 2 with hn
  set M := integral n d fun t => p.getD t 0 with hM
  have hp := getD_nonneg p np
  have hsum : ∑ t ∈ Finset.range n, d * p.getD t 0 = 1 := by
    rw [← Finset.mul_sum, ← lp, ← list_sum_range, mul_comm]
    exact mp
  have hM2 : 1 / 2 ≤ M := by
    have : ∑ t ∈ Finset.range n, d * p.getD t 0 / 2 ≤ M := by
      refine Finset.sum_le_sum fun t _ => ?_
      have := mul_nonneg hdp.le (hp t)
      split_ifs <;> linarith
    rw [← Finset.sum_div, hsum] at this
    exact this
  have hM1 : M ≤ 1 := by
    rw [← hsum]
    refine Finset.sum_le_sum fun t _ => ?_
    have := mul_nonneg hdp.le (hp t)
    split_ifs <;> linarith
  have hMpos : 0 < M := by linarith
  have hn2 : 2 ≤ n := by omega
  have hW : ((n : ℝ) - 1) * d = (2 * nb - 3) * d := by
    rw [hn, Nat.cast_sub (by omega)]
    push_cast
    ring
  have hW0 : 0 < (2 * (nb : ℝ) - 3) * d := by
    rw [← hW]
    have : (2 : ℝ) ≤ (n : ℝ) := by exact_mod_cast hn2
    exact mul_pos (by linarith) hdp
  refine ⟨g, p, _, M, e, hv, rfl, hM2, hM1, ?_, ?_⟩
  · set c := M / ((2 * (nb : ℝ) - 3) * d) with hc
    have hc0 : 0 < c := div_pos hMpos hW0
    have hterm : ∀ t < n, -(p.getD t 0 * Real.log (p.getD t 0 + 1 / 10 ^ 14)) ≤
        (-Real.log c - 1) * p.getD t 0 + c * 1 := by
      intro t _
      rcases (hp t).eq_or_lt with h0 | h0
      · rw [← h0]
        simp
        exact hc0.le
      · have h1 : Real.log (p.getD t 0) ≤ Real.log (p.getD t 0 + 1 / 10 ^ 14) :=
          Real.log_le_log h0 (by norm_num)
        have h2 : Real.log (c / p.getD t 0) ≤ c / p.getD t 0 - 1 :=
          Real.log_le_sub_one_of_pos (div_pos hc0 h0)
        rw [Real.log_div hc0.ne' h0.ne'] at h2
        have h3 := mul_le_mul_of_nonneg_left h2 h0.le
        have h4 : p.getD t 0 * (c / p.getD t 0 - 1) = c - p.getD t 0 := by
          field_simp
        have h5 := mul_le_mul_of_nonneg_left h1 h0.le
        nlinarith
    refine le_trans (integral_le n d hdp.le _ _ hterm) ?_
    rw [integral_lin n d _ _ (fun t => p.getD t 0) (fun _ => 1), integral_const n hn2, hW, ← hM]
    have h1 : c * ((2 * (nb : ℝ) - 3) * d) = M := by
      rw [hc, div_mul_cancel₀ _ hW0.ne']
    have h2 : Real.log ((2 * (nb : ℝ) - 3) * d / M) = -Real.log c := by
      rw [hc, ← Real.log_inv, inv_div]
    rw [h1, h2]
    linarith
  · have hmax : ∀ t < n, p.getD t 0 ≤ 1 / d := by
      intro t ht
      rw [le_div_iff₀ hdp, mul_comm, ← hsum]
      exact Finset.single_le_sum (f := fun t => d * p.getD t 0)
        (fun i _ => mul_nonneg hdp.le (hp i)) (Finset.mem_range.2 ht)
    have hterm : ∀ t < n, -Real.log (1 / d + 1 / 10 ^ 14) * p.getD t 0 + 0 * 1 ≤
        -(p.getD t 0 * Real.log (p.getD t 0 + 1 / 10 ^ 14)) := by
      intro t ht
      have h0 : 0 < p.getD t 0 + 1 / 10 ^ 14 := by
        have := hp t
        positivity
      have h1 : Real.log (p.getD t 0 + 1 / 10 ^ 14) ≤ Real.log (1 / d + 1 / 10 ^ 14) :=
        Real.log_le_log h0 (by linarith [hmax t ht])
      have := mul_le_mul_of_nonneg_left h1 (hp t)
      linarith
    refine le_trans (le_of_eq ?_) (integral_le n d hdp.le _ _ hterm)
    rw [integral_lin n d _ _ (fun t => p.getD t 0) (fun _ => 1), ← hM]
    ring

/-- The same samples, up to their order and a common number of repetitions. -/
def SameDistribution {α : Type} [DecidableEq α] (x y : List α) : Prop :=
  ∃ a b : ℕ, 0 < a ∧ 0 < b ∧ ∀ v, a * x.count v = b * y.count v

theorem count_repeat {α : Type} [DecidableEq α] (x : List α) (a : ℕ) (v : α) :
    (List.replicate a x).flatten.count v = a * x.count v := by
  induction a with
  | zero => simp
  | succ a ih =>
    rw [List.replicate_succ, List.flatten_cons, List.count_append, ih]
    ring

theorem sum_repeat {α : Type} (f : α → ℝ) (x : List α) (a : ℕ) :
    ((List.replicate a x).flatten.map f).sum = a * (x.map f).sum := by
  induction a with
  | zero => simp
  | succ a ih =>
    rw [List.replicate_succ, List.flatten_cons, List.map_append, List.sum_append, ih]
    push_cast
    ring

/-- Means are the same. -/
theorem SameDistribution.mean {α : Type} [DecidableEq α] {x y : List α} (h : SameDistribution x y)
    (f : α → ℝ) : (x.map f).sum / x.length = (y.map f).sum / y.length := by
  obtain ⟨a, b, ha, hb, h⟩ := h
  have hperm : (List.replicate a x).flatten.Perm (List.replicate b y).flatten := by
    rw [List.perm_iff_count]
    intro v
    rw [count_repeat, count_repeat, h v]
  have h1 : (a : ℝ) * (x.map f).sum = b * (y.map f).sum := by
    rw [← sum_repeat, ← sum_repeat]
    exact (hperm.map f).sum_eq
  have h2 : (a : ℝ) * x.length = b * y.length := by
    have := hperm.length_eq
    simp at this
    exact_mod_cast this
  have ha' : (a : ℝ) ≠ 0 := by exact_mod_cast ha.ne'
  have hb' : (b : ℝ) ≠ 0 := by exact_mod_cast hb.ne'
  rw [← mul_div_mul_left _ _ ha', h1, h2, mul_div_mul_left _ _ hb']

theorem SameDistribution.mem {α : Type} [DecidableEq α] {x y : List α} (h : SameDistribution x y) (v : α) :
    v ∈ x ↔ v ∈ y := by
  obtain ⟨a, b, ha, hb, h⟩ := h
  rw [← List.count_pos_iff, ← List.count_pos_iff, ← Nat.mul_lt_mul_left ha, ← Nat.mul_lt_mul_left hb, h v]
  simp [hb]

theorem SameDistribution.bounds {x y : List ℝ} (hs : SameDistribution x y)
    (b : Option (ℝ × ℝ)) (lo hi : ℝ) (h : Bounds b x lo hi) : Bounds b y lo hi := by
  cases b with
  | none =>
    obtain ⟨⟨h1, h2⟩, h3, h4⟩ := h
    exact ⟨⟨(hs.mem _).1 h1, fun s hy => h2 s ((hs.mem _).2 hy)⟩, (hs.mem _).1 h3,
      fun s hy => h4 s ((hs.mem _).2 hy)⟩
  | some b =>
    obtain ⟨h1, h2, h3⟩ := h
    refine ⟨h1, ?_, fun s hy => h3 s ((hs.mem _).2 hy)⟩
    obtain ⟨v, hv⟩ := List.exists_mem_of_ne_nil _ h2
    exact List.ne_nil_of_mem ((hs.mem _).1 hv)

theorem linearBin_same {x y : List ℝ} (h : SameDistribution x y) (d g : ℝ) :
    linearBin x d g = linearBin y d g := by
  unfold linearBin
  rw [← div_div, ← div_div, h.mean]

/-- **C162**: estimates and entropies depend only on how often values occur, relatively to each other: not
on the order of samples, nor on repeating all of them; and moving samples leaves the entropy as it is. -/
theorem C162_invariance (x : List ℝ) (h : ℝ) (hh : h ≠ 0) (nb : ℕ) (hnb : 2 ≤ nb) (fft fft' : Bool)
    (lo hi : ℝ) (hlt : lo < hi) :
    (∀ bounds y, Bounds bounds x lo hi → SameDistribution x y →
      gaussian1 y h nb fft' bounds = gaussian1 x h nb fft bounds) ∧
    (∀ y, Bounds none x lo hi → SameDistribution x y →
      entropy1 y h nb fft' = entropy1 x h nb fft) ∧
    ∀ c, Bounds none x lo hi → entropy1 (x.map (· + c)) h nb fft' = entropy1 x h nb fft := by
  have h1 : ∀ bounds y, Bounds bounds x lo hi → SameDistribution x y →
      gaussian1 y h nb fft' bounds = gaussian1 x h nb fft bounds := by
    intro bounds y hb hs
    rw [gaussian1_eq x h hh nb hnb fft bounds lo hi hb hlt,
      gaussian1_eq y h hh nb hnb fft' bounds lo hi (hs.bounds bounds lo hi hb) hlt]
    simp only [linearBin_same hs]
  refine ⟨h1, ?_, ?_⟩
  · intro y hb hs
    unfold entropy1
    rw [h1 none y hb hs]
  · intro c hb
    obtain ⟨g, p, e, e'⟩ := C106_shift x h c hh nb hnb fft none lo hi hb hlt
    have ef : gaussian1 (x.map (· + c)) h nb fft' none = .ok (g.map (· + c), p) := e'
    have hg : g = (List.range nb).map fun i : ℕ => lo + i * ((hi - lo) / ((nb : ℝ) - 1)) := by
      have := (gaussian1_eq x h hh nb hnb fft _ lo hi hb hlt).symm.trans e
      injection this with this
      injection this with this
      exact this.symm
    unfold entropy1
    rw [ef, e]
    simp only [bind, Except.bind]
    rw [hg, List.map_map, show (1 : ℤ) = ((1 : ℕ) : ℤ) from rfl, pyGet_map_range _ 1 _ (by omega),
      pyGet_map_range _ 1 _ (by omega), show (0 : ℤ) = ((0 : ℕ) : ℤ) from rfl,
      pyGet_map_range _ 0 _ (by omega), pyGet_map_range _ 0 _ (by omega)]
    simp only [pure, Except.pure, Function.comp_def]
    congr 2
    ring

/-- **C162**: errors are those of the estimate. -/
theorem C162_errors (x : List ℝ) (h : ℝ) (nb : ℤ) (fft : Bool) (e : PyErr)
    (he : gaussian1 x h nb fft none = .error e) : entropy1 x h nb fft = .error e := by
  unfold entropy1
  rw [he]
  rfl

/-- **C162**: `kde_entropy_gaussian_2d` raises `TypeError` for all arguments. -/
theorem C162_two (samples : List (ℝ × ℝ)) (h : ℝ) (nb : ℤ) (fft : Bool) :
    entropy2 samples h nb fft = .error .typeError := by
  have : bindArgs KDE_2D_PARAMS 2 ["nb_bins", "fft"] = .error .typeError := by decide +kernel
  unfold entropy2
  rw [this]
  rfl

example : Bounds none ([0, 2, 1] : List ℝ) 0 2 := by norm_num [Bounds]

example : SameDistribution [1, 2, 1] [2, 1, 1, 1, 2, 1] := by
  refine ⟨2, 1, by norm_num, by norm_num, fun v => ?_⟩
  simp only [List.count_cons, List.count_nil]
  ring

example : ¬ SameDistribution [1, 2, 1] [1, 2] := by
  rintro ⟨a, b, ha, hb, h⟩
  have h1 := h 1
  have h2 := h 2
  simp at h1 h2
  omega

end Verif.KDE
