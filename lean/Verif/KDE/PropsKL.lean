import Verif.KDE.PropsGauss
import Mathlib.Analysis.SpecialFunctions.Log.Basic

/-!
# Properties of the divergence of density estimates (C106)
-/

namespace Verif.KDE

/-- A term of the Kullback-Leibler divergence of `p` from `q`, both moved away from 0. -/
noncomputable def klTerm (p q : ℝ) : ℝ := p * Real.log ((p + 1 / 10 ^ 14) / (q + 1 / 10 ^ 14))

theorem klTerm_ge (p q : ℝ) (hp : 0 ≤ p) (hq : 0 ≤ q) : p - q - 1 / 10 ^ 14 ≤ klTerm p q := by
  unfold klTerm
  have e0 : (0 : ℝ) < 1 / 10 ^ 14 := by positivity
  generalize (1 / 10 ^ 14 : ℝ) = e at *
  have hpe : 0 < p + e := by linarith
  have hqe : 0 < q + e := by linarith
  have h1 : Real.log ((q + e) / (p + e)) ≤ (q + e) / (p + e) - 1 :=
    Real.log_le_sub_one_of_pos (div_pos hqe hpe)
  have h2 : Real.log ((p + e) / (q + e)) = - Real.log ((q + e) / (p + e)) := by
    rw [← Real.log_inv, inv_div]
  rw [h2]
  have h3 : p * Real.log ((q + e) / (p + e)) ≤ p * ((q + e) / (p + e) - 1) :=
    mul_le_mul_of_nonneg_left h1 hp
  have h4 : p * ((q + e) / (p + e) - 1) ≤ q - p + e := by
    have : (q + e) / (p + e) - 1 = (q - p) / (p + e) := by field_simp; ring
    rw [this, ← mul_div_assoc, div_le_iff₀ hpe]
    nlinarith [mul_nonneg hq e0.le, mul_nonneg hp e0.le, mul_nonneg e0.le e0.le]
  linarith

theorem zipWith_getD (f : ℝ → ℝ → ℝ) (p q : List ℝ) (h : p.length = q.length) (i : ℕ)
    (hi : i < p.length) : (List.zipWith f p q).getD i 0 = f (p.getD i 0) (q.getD i 0) := by
  simp [List.getD_eq_getElem?_getD, hi, h ▸ hi]

theorem trapz_eq (y : List ℝ) (dx : ℝ) (h : 1 ≤ y.length) :
    trapz y dx = dx * (∑ i ∈ Finset.range y.length, y.getD i 0 -
      (y.getD 0 0 + y.getD (y.length - 1) 0) / 2) := by
  unfold trapz
  obtain ⟨n, hn⟩ : ∃ n, y.length = n + 1 := ⟨y.length - 1, by omega⟩
  rw [hn, Nat.add_sub_cancel]
  have key : ∀ (f : ℕ → ℝ) (n : ℕ), ∑ i ∈ Finset.range n, dx * (f i + f (i + 1)) / 2 =
      dx * (∑ i ∈ Finset.range (n + 1), f i - (f 0 + f n) / 2) := by
    intro f n
    induction n with
    | zero => simp
    | succ n ih =>
      rw [Finset.sum_range_succ, ih, Finset.sum_range_succ _ (n + 1)]
      ring
  exact key (fun i => y.getD i 0) n

/-- **C106**: what is returned as a divergence is minus the integral of the terms of the
Kullback-Leibler divergence, whose sum cannot be below minus the number of points times 1e-14. -/
theorem C106_divergence (x y : List ℝ) (h : ℝ) (hh : h ≠ 0) (nb : ℕ) (hnb : 2 ≤ nb) (fft : Bool)
    (lo hi : ℝ) (hx : x ≠ []) (hy : y ≠ []) (hb : Bounds none (x ++ y) lo hi) (hlt : lo < hi) :
    ∃ g p q v, gaussian1 x h nb fft (some (lo, hi)) = .ok (g, p) ∧
      gaussian1 y h nb fft (some (lo, hi)) = .ok (g, q) ∧
      klDivergence1 x y h nb fft = .ok v ∧
      v = -((hi - lo) / ((nb : ℝ) - 1) *
        (∑ t ∈ Finset.range (2 * nb - 2), klTerm (p.getD t 0) (q.getD t 0) -
          (klTerm (p.getD 0 0) (q.getD 0 0) +
            klTerm (p.getD (2 * nb - 3) 0) (q.getD (2 * nb - 3) 0)) / 2)) ∧
      -((2 * nb - 2 : ℕ) * (1 / 10 ^ 14)) ≤
        ∑ t ∈ Finset.range (2 * nb - 2), klTerm (p.getD t 0) (q.getD t 0) := by
  obtain ⟨⟨b1, b2⟩, b3, b4⟩ := hb
  obtain ⟨hd, e⟩ := steps_pos lo hi nb hnb hlt
  have bx : Bounds (some (lo, hi)) x lo hi := ⟨rfl, hx, fun s hs =>
    ⟨b2 s (List.mem_append_left _ hs), b4 s (List.mem_append_left _ hs)⟩⟩
  have by' : Bounds (some (lo, hi)) y lo hi := ⟨rfl, hy, fun s hs =>
    ⟨b2 s (List.mem_append_right _ hs), b4 s (List.mem_append_right _ hs)⟩⟩
  obtain ⟨gx, p, ep, lgx, lp, np, mp⟩ := C106_mass x h hh nb hnb fft _ lo hi bx hlt
  obtain ⟨gy, q, eq, lgy, lq, nq, mq⟩ := C106_mass y h hh nb hnb fft _ lo hi by' hlt
  have hg : gx = (List.range nb).map fun i : ℕ => lo + i * ((hi - lo) / ((nb : ℝ) - 1)) := by
    have := (gaussian1_eq x h hh nb hnb fft _ lo hi bx hlt).symm.trans ep
    injection this with this
    injection this with this
    exact this.symm
  have hg' : gy = (List.range nb).map fun i : ℕ => lo + i * ((hi - lo) / ((nb : ℝ) - 1)) := by
    have := (gaussian1_eq y h hh nb hnb fft _ lo hi by' hlt).symm.trans eq
    injection this with this
    injection this with this
    exact this.symm
  obtain ⟨mx, ex1, ex2, ex3⟩ := npMin_spec x hx
  obtain ⟨my, ey1, ey2, ey3⟩ := npMin_spec y hy
  obtain ⟨mx', ex4, ex5, ex6⟩ := npMax_spec x hx
  obtain ⟨my', ey4, ey5, ey6⟩ := npMax_spec y hy
  have hlo : min mx my = lo := by
    apply le_antisymm
    · rcases List.mem_append.1 b1 with h | h
      · exact le_trans (min_le_left _ _) (ex3 _ h)
      · exact le_trans (min_le_right _ _) (ey3 _ h)
    · exact le_min (b2 _ (List.mem_append_left _ ex2)) (b2 _ (List.mem_append_right _ ey2))
  have hhi : max mx' my' = hi := by
    apply le_antisymm
    · exact max_le (b4 _ (List.mem_append_left _ ex5)) (b4 _ (List.mem_append_right _ ey5))
    · rcases List.mem_append.1 b3 with h | h
      · exact le_trans (ex6 _ h) (le_max_left _ _)
      · exact le_trans (ey6 _ h) (le_max_right _ _)
  have hv : klDivergence1 x y h nb fft = .ok (trapz (List.zipWith (fun p q =>
      -p * Real.log ((p + EPSILON) / (q + EPSILON))) p q) ((hi - lo) / ((nb : ℝ) - 1))) := by
    unfold klDivergence1
    rw [ex1, ey1, ex4, ey4]
    simp only [bind, Except.bind, hlo, hhi]
    rw [ep]
    simp only []
    rw [eq]
    simp only []
    rw [hg, show (1 : ℤ) = ((1 : ℕ) : ℤ) from rfl, pyGet_map_range _ 1 _ (by omega),
      show (0 : ℤ) = ((0 : ℕ) : ℤ) from rfl, pyGet_map_range _ 0 _ (by omega)]
    simp only [pure, Except.pure]
    congr 2
    push_cast
    ring
  refine ⟨gx, p, q, _, ep, by rw [hg, ← hg']; exact eq, hv, ?_, ?_⟩
  · have hl : (List.zipWith (fun p q => -p * Real.log ((p + EPSILON) / (q + EPSILON))) p q).length =
      2 * nb - 2 := by simp [lp, lq]
    have ht : ∀ t < 2 * nb - 2, (List.zipWith (fun p q =>
        -p * Real.log ((p + EPSILON) / (q + EPSILON))) p q).getD t 0 =
        -klTerm (p.getD t 0) (q.getD t 0) := by
      intro t ht
      rw [zipWith_getD _ _ _ (lp.trans lq.symm) t (by omega)]
      unfold klTerm EPSILON
      ring
    rw [trapz_eq _ _ (by omega), hl, ht 0 (by omega), ht (2 * nb - 2 - 1) (by omega),
      Finset.sum_congr rfl fun t h => ht t (Finset.mem_range.1 h), Finset.sum_neg_distrib,
      show 2 * nb - 2 - 1 = 2 * nb - 3 from by omega]
    ring
  · have hs : ∀ l : List ℝ, l.sum = ∑ t ∈ Finset.range l.length, l.getD t 0 := by
      intro l
      rw [← sum_range]
      congr 1
      exact list_eq_map l l.length _ rfl fun i _ => rfl
    have hpq : p.sum = q.sum := by
      have := mp.trans mq.symm
      exact mul_right_cancel₀ hd.ne' this
    rw [hs p, hs q, lp, lq] at hpq
    have hnn : ∀ l : List ℝ, (∀ v ∈ l, 0 ≤ v) → ∀ t, 0 ≤ l.getD t 0 := by
      intro l hl t
      rw [List.getD_eq_getElem?_getD]
      by_cases ht : t < l.length
      · rw [List.getElem?_eq_getElem ht]
        exact hl _ (List.getElem_mem ht)
      · rw [List.getElem?_eq_none (by omega)]
        exact le_rfl
    have := Finset.sum_le_sum fun t (_ : t ∈ Finset.range (2 * nb - 2)) =>
      klTerm_ge (p.getD t 0) (q.getD t 0) (hnn p np t) (hnn q nq t)
    rw [Finset.sum_sub_distrib, Finset.sum_sub_distrib, hpq, sub_self, zero_sub, Finset.sum_const,
      Finset.card_range, nsmul_eq_mul] at this
    exact this

/-- **C106**: the divergence of samples from themselves is 0. -/
theorem C106_divergence_self (x : List ℝ) (h : ℝ) (hh : h ≠ 0) (nb : ℕ) (hnb : 2 ≤ nb) (fft : Bool)
    (lo hi : ℝ) (hb : Bounds none x lo hi) (hlt : lo < hi) : klDivergence1 x x h nb fft = .ok 0 := by
  have hx : x ≠ [] := List.ne_nil_of_mem hb.1.1
  have hb' : Bounds none (x ++ x) lo hi := by
    obtain ⟨⟨b1, b2⟩, b3, b4⟩ := hb
    exact ⟨⟨List.mem_append_left _ b1, by simpa using b2⟩, List.mem_append_left _ b3, by simpa using b4⟩
  obtain ⟨g, p, q, v, h1, h2, h3, h4, -⟩ := C106_divergence x x h hh nb hnb fft lo hi hx hx hb' hlt
  have hpq : q = p := by
    have := h2.symm.trans h1
    injection this with this
    injection this
  subst hpq
  have ht : ∀ p : ℝ, klTerm p p = 0 := by
    intro p
    unfold klTerm
    by_cases h0 : p + 1 / 10 ^ 14 = 0
    · rw [h0, zero_div, Real.log_zero, mul_zero]
    · rw [div_self h0, Real.log_one, mul_zero]
  simp only [ht] at h4
  rw [h3, h4]
  simp

/-- **C106**: so the divergence of different samples may be negative. -/
theorem C106_negative : ∃ v, klDivergence1 [0, 1] [0, 0, 0, 1] 1 2 false = .ok v ∧ v < 0 := by
  have hb : Bounds none ([0, 1] ++ [0, 0, 0, 1] : List ℝ) 0 1 := by norm_num [Bounds]
  obtain ⟨g, p, q, v, h1, h2, h3, h4, -⟩ := C106_divergence [0, 1] [0, 0, 0, 1] 1 one_ne_zero 2 le_rfl
    false 0 1 (by simp) (by simp) hb one_pos
  refine ⟨v, h3, ?_⟩
  have bx : Bounds (some (0, 1)) ([0, 1] : List ℝ) 0 1 := by
    refine ⟨rfl, by simp, by norm_num⟩
  have by' : Bounds (some (0, 1)) ([0, 0, 0, 1] : List ℝ) 0 1 := by
    refine ⟨rfl, by simp, by norm_num⟩
  have ep := (gaussian1_eq [0, 1] 1 one_ne_zero 2 le_rfl false _ 0 1 bx one_pos).symm.trans h1
  have eq := (gaussian1_eq [0, 0, 0, 1] 1 one_ne_zero 2 le_rfl false _ 0 1 by' one_pos).symm.trans h2
  injection ep with ep
  injection ep with _ ep
  injection eq with eq
  injection eq with _ eq
  have hk : kernel (1 - 0) ((1 - 0) / (((2 : ℕ) : ℝ) - 1)) 1 0 /
      kernelSum (1 - 0) ((1 - 0) / (((2 : ℕ) : ℝ) - 1)) 1 2 = 1 := by
    unfold kernelSum
    simp [kernel, Real.exp_ne_zero]
  have hc : ∀ a b : ℝ, convolve [a, b] [1] = [a, b] := by
    intro a b
    simp [convolve, List.range_succ, Finset.sum_range_succ]
  have hker : ((List.range (2 - 1)).map fun k => kernel (1 - 0) ((1 - 0) / (((2 : ℕ) : ℝ) - 1)) 1 k /
      kernelSum (1 - 0) ((1 - 0) / (((2 : ℕ) : ℝ) - 1)) 1 2) = [1] := by
    rw [show (2 - 1 : ℕ) = 1 from rfl, List.range_one, List.map_singleton, hk]
  have hp : p = [1 / 2, 1 / 2] := by
    rw [← ep, hker]
    norm_num [List.range_succ, linearBin, hat, hc]
  have hq : q = [3 / 4, 1 / 4] := by
    rw [← eq, hker]
    norm_num [List.range_succ, linearBin, hat, hc]
  rw [h4, hp, hq]
  have l1 : klTerm (1 / 2) (3 / 4) + klTerm (1 / 2) (1 / 4) > 0 := by
    unfold klTerm
    rw [← mul_add, ← Real.log_mul (by positivity) (by positivity)]
    refine mul_pos (by norm_num) (Real.log_pos ?_)
    norm_num
  norm_num [Finset.sum_range_succ]
  norm_num at l1
  linarith

end Verif.KDE
