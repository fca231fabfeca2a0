import Verif.KDE.Underflow
import Verif.KDE.PropsGauss2

/-!
# Properties of density estimation when exponentials underflow (C214)
-/

namespace Verif.KDE

/-! ## Specification -/

/-- `ex` is not negative, and null exactly below `-T` (for doubles `T` is about 745.13). -/
structure Underflows (ex : ℝ → ℝ) (T : ℝ) : Prop where
  pos : 0 ≤ T
  nonneg : ∀ t, 0 ≤ ex t
  zero : ∀ t, ex t = 0 ↔ t < -T

/-- Half a step of the grid is too many widths: its exponential is null. -/
def TooShort (T delta h : ℝ) : Prop := T < delta ^ 2 / (8 * h ^ 2)

/-! ## Lemmas -/

theorem sumN_some (n : ℕ) (f : ℕ → Option ℝ) (g : ℕ → ℝ) (h : ∀ i < n, f i = some (g i)) :
    sumN n f = some (∑ i ∈ Finset.range n, g i) := by
  unfold sumN
  induction n with
  | zero => simp
  | succ n ih =>
    rw [List.range_succ, List.foldl_append, ih fun i hi => h i (by omega), Finset.sum_range_succ]
    simp [h n (by omega)]

theorem sumN_none (n : ℕ) (f : ℕ → Option ℝ) (i : ℕ) (hi : i < n) (h : f i = none) : sumN n f = none := by
  unfold sumN
  induction n with
  | zero => omega
  | succ n ih =>
    rw [List.range_succ, List.foldl_append]
    by_cases hn : i = n
    · subst hn
      simp only [List.foldl_cons, List.foldl_nil, h]
      cases List.foldl _ _ _ <;> rfl
    · rw [ih (by omega)]
      rfl

/-- The square of a point of the grid of the kernel. -/
theorem offset_sq (R d : ℝ) (nb k : ℕ) (hR : R = ((nb : ℝ) - 1) * d) :
    (-R / 2 + k * d) ^ 2 = d ^ 2 / 4 * (((2 * (k : ℤ) - ((nb : ℤ) - 1)) ^ 2 : ℤ) : ℝ) := by
  subst hR
  push_cast
  ring

/-- The smallest square of the points of the grid of the kernel. -/
theorem offset_least (R d : ℝ) (nb : ℕ) (hnb : 2 ≤ nb) (hR : R = ((nb : ℝ) - 1) * d) :
    (∀ k : ℕ, (if Even nb then d ^ 2 / 4 else 0) ≤ (-R / 2 + k * d) ^ 2) ∧
      (nb - 1) / 2 < nb - 1 ∧ (-R / 2 + ((nb - 1) / 2 : ℕ) * d) ^ 2 = if Even nb then d ^ 2 / 4 else 0 := by
  refine ⟨fun k => ?_, by omega, ?_⟩
  · split_ifs with he
    · rw [offset_sq R d nb k hR]
      have : (1 : ℤ) ≤ (2 * (k : ℤ) - ((nb : ℤ) - 1)) ^ 2 := by
        obtain ⟨m, rfl⟩ := he
        have : 2 * (k : ℤ) - (((m + m : ℕ) : ℤ) - 1) ≠ 0 := by omega
        have := sq_pos_of_ne_zero this
        omega
      have h1 : (1 : ℝ) ≤ (((2 * (k : ℤ) - ((nb : ℤ) - 1)) ^ 2 : ℤ) : ℝ) := by exact_mod_cast this
      nlinarith [sq_nonneg d]
    · positivity
  · rw [offset_sq R d nb _ hR]
    split_ifs with he
    · obtain ⟨m, rfl⟩ := he
      have : (2 * (((m + m - 1) / 2 : ℕ) : ℤ) - (((m + m : ℕ) : ℤ) - 1)) = -1 := by omega
      rw [this]
      norm_num
    · rw [Nat.not_even_iff_odd] at he
      obtain ⟨m, rfl⟩ := he
      have : (2 * (((2 * m + 1 - 1) / 2 : ℕ) : ℤ) - (((2 * m + 1 : ℕ) : ℤ) - 1)) = 0 := by omega
      rw [this]
      norm_num

/-- The kernel, before it is normalised. -/
noncomputable def kernelU (ex : ℝ → ℝ) (R d h : ℝ) (k : ℕ) : ℝ := ex (-(1 / 2) / h ^ 2 * (-R / 2 + k * d) ^ 2)

/-- The sum of the kernel. -/
noncomputable def kernelSumU (ex : ℝ → ℝ) (R d h : ℝ) (nb : ℕ) : ℝ :=
  ∑ k ∈ Finset.range (nb - 1), kernelU ex R d h k

theorem kernelSumU_zero {ex : ℝ → ℝ} {T : ℝ} (hex : Underflows ex T) (R d h : ℝ) (hh : h ≠ 0) (nb : ℕ)
    (hnb : 2 ≤ nb) (hR : R = ((nb : ℝ) - 1) * d) :
    kernelSumU ex R d h nb = 0 ↔ Even nb ∧ TooShort T d h := by
  obtain ⟨h1, h2, h3⟩ := offset_least R d nb hnb hR
  have hp : 0 < h ^ 2 := by positivity
  have key : ∀ q : ℝ, -(1 / 2) / h ^ 2 * q < -T ↔ 2 * h ^ 2 * T < q := by
    intro q
    rw [show -(1 / 2) / h ^ 2 * q = -(q / (2 * h ^ 2)) by field_simp, neg_lt_neg_iff, lt_div_iff₀ (by positivity),
      mul_comm]
  have key2 : TooShort T d h ↔ 2 * h ^ 2 * T < d ^ 2 / 4 := by
    unfold TooShort
    rw [lt_div_iff₀ (by positivity)]
    constructor <;> intro h <;> linarith
  have hT := hex.pos
  unfold kernelSumU
  have hnn : ∀ k ∈ Finset.range (nb - 1), 0 ≤ kernelU ex R d h k := fun k _ => hex.nonneg _
  rw [Finset.sum_eq_zero_iff_of_nonneg hnn]
  constructor
  · intro hz
    have := (hex.zero _).1 (hz _ (Finset.mem_range.2 h2))
    rw [key, h3] at this
    split_ifs at this with he
    · exact ⟨he, key2.2 this⟩
    · have : 0 ≤ 2 * h ^ 2 * T := by positivity
      linarith
  · rintro ⟨he, ht⟩ k -
    apply (hex.zero _).2
    rw [key]
    have := h1 k
    rw [if_pos he] at this
    exact lt_of_lt_of_le (key2.1 ht) this

/-- What `gaussian_kde_1d` returns. -/
theorem gaussian1U_eq (ex : ℝ → ℝ) (x : List ℝ) (h : ℝ) (hh : h ≠ 0) (nb : ℕ) (hnb : 2 ≤ nb) (fft : Bool)
    (bounds : Option (ℝ × ℝ)) (lo hi : ℝ) (hb : Bounds bounds x lo hi) (hlt : lo < hi) (d : ℝ)
    (hd : d = (hi - lo) / ((nb : ℝ) - 1)) :
    gaussian1U ex x h nb fft bounds = .ok
      (if kernelSumU ex (hi - lo) d h nb = 0 then
        (true, (List.range nb).map fun i : ℕ => lo + i * d, List.replicate (2 * nb - 2) none)
       else
        (false, (List.range nb).map fun i : ℕ => lo + i * d,
          (convolve ((List.range nb).map fun i : ℕ => linearBin x d (lo + i * d))
            ((List.range (nb - 1)).map fun k => kernelU ex (hi - lo) d h k /
              kernelSumU ex (hi - lo) d h nb)).map some)) := by
  obtain ⟨hd0, e⟩ := steps_pos lo hi nb hnb hlt
  rw [← hd] at hd0 e
  unfold gaussian1U
  rw [C68_bins x nb hnb bounds lo hi hb hlt, ← hd]
  simp only [bind, Except.bind]
  rw [pyGet_map_last _ _ (by omega), show (0 : ℤ) = ((0 : ℕ) : ℤ) from rfl,
    pyGet_map_range _ 0 _ (by omega), show (1 : ℤ) = ((1 : ℕ) : ℤ) from rfl,
    pyGet_map_range _ 1 _ (by omega)]
  simp only []
  rw [if_neg hh]
  have e1 : lo + ((nb - 1 : ℕ) : ℝ) * d - (lo + ((0 : ℕ) : ℝ) * d) = hi - lo := by
    rw [Nat.cast_sub (by omega), Nat.cast_one, e]
    simp
  have e2 : lo + ((1 : ℕ) : ℝ) * d - (lo + ((0 : ℕ) : ℝ) * d) = d := by push_cast; ring
  rw [e1, e2, arange_eq (hi - lo) d nb hd0 hnb (by linarith)]
  simp only [List.map_map, Function.comp_def, sum_range]
  change Except.ok (decide (kernelSumU ex (hi - lo) d h nb = 0), _,
    if fft = true then fftconvolveN _ ((List.range (nb - 1)).map fun k : ℕ =>
        quotient (kernelU ex (hi - lo) d h k) (kernelSumU ex (hi - lo) d h nb))
      else convolveN _ ((List.range (nb - 1)).map fun k : ℕ =>
        quotient (kernelU ex (hi - lo) d h k) (kernelSumU ex (hi - lo) d h nb))) = _
  congr 1
  by_cases hs : kernelSumU ex (hi - lo) d h nb = 0
  · rw [if_pos hs]
    have q : ((List.range (nb - 1)).map fun k : ℕ =>
        quotient (kernelU ex (hi - lo) d h k) (kernelSumU ex (hi - lo) d h nb)) =
        List.replicate (nb - 1) none := by
      rw [List.eq_replicate_iff]
      refine ⟨by simp, fun b hb => ?_⟩
      obtain ⟨k, -, rfl⟩ := List.mem_map.1 hb
      exact if_pos hs
    rw [q]
    have hl : nb + (nb - 1) - 1 = 2 * nb - 2 := by omega
    have : ∀ a : List ℝ, a.length = nb → (if fft = true then fftconvolveN a (List.replicate (nb - 1) none)
        else convolveN a (List.replicate (nb - 1) none)) = List.replicate (2 * nb - 2) none := by
      intro a ha
      split_ifs
      · unfold fftconvolveN
        rw [if_pos (by simp; omega), ha, List.length_replicate, hl]
      · unfold convolveN
        rw [ha, List.length_replicate, hl, List.eq_replicate_iff]
        refine ⟨by simp, fun b hb => ?_⟩
        obtain ⟨n, hn, rfl⟩ := List.mem_map.1 hb
        rw [List.mem_range] at hn
        apply sumN_none _ _ (n - (nb - 2)) (by omega)
        rw [if_pos (by omega)]
        rw [List.getD_eq_getElem?_getD (l := List.replicate _ _), List.getElem?_replicate]
        split_ifs <;> rfl
    rw [this _ (by simp), decide_eq_true hs]
  · rw [if_neg hs]
    have q : ((List.range (nb - 1)).map fun k : ℕ =>
        quotient (kernelU ex (hi - lo) d h k) (kernelSumU ex (hi - lo) d h nb)) =
        ((List.range (nb - 1)).map fun k => kernelU ex (hi - lo) d h k /
          kernelSumU ex (hi - lo) d h nb).map some := by
      rw [List.map_map]
      exact List.map_congr_left fun k _ => if_neg hs
    rw [q]
    have : ∀ a b : List ℝ, (if fft = true then fftconvolveN a (b.map some)
        else convolveN a (b.map some)) = (convolve a b).map some := by
      intro a b
      have hc : convolveN a (b.map some) = (convolve a b).map some := by
        unfold convolveN convolve
        rw [List.map_map, List.length_map]
        apply List.map_congr_left
        intro n _
        simp only [Function.comp_def]
        apply sumN_some
        intro i hi
        by_cases h1 : i ≤ n
        · by_cases h2 : n - i < b.length
          · rw [if_pos ⟨h1, h2⟩, if_pos h1]
            simp [mulN, List.getD_eq_getElem?_getD, List.getElem?_map, List.getElem?_eq_getElem h2]
          · rw [if_neg (by tauto), if_pos h1, List.getD_eq_getElem?_getD (l := b),
              List.getElem?_eq_none (by omega)]
            simp
        · rw [if_neg (by tauto), if_neg h1]
      split_ifs
      · unfold fftconvolveN
        rw [if_neg (by simp), hc]
      · exact hc
    rw [this, decide_eq_false hs]

/-! ## C214: one dimension -/

/-- **C214**: the warning is printed exactly when the number of bins is even and half a step is too many
widths, and all values are then `nan`; in other cases they are not negative and have mass 1. -/
theorem C214_estimate {ex : ℝ → ℝ} {T : ℝ} (hex : Underflows ex T) (x : List ℝ) (h : ℝ) (hh : h ≠ 0) (nb : ℕ)
    (hnb : 2 ≤ nb) (fft : Bool) (bounds : Option (ℝ × ℝ)) (lo hi : ℝ) (hb : Bounds bounds x lo hi)
    (hlt : lo < hi) : ∃ warning g kde, gaussian1U ex x h nb fft bounds = .ok (warning, g, kde) ∧
      g.length = nb ∧ kde.length = 2 * nb - 2 ∧
      (warning = true ↔ Even nb ∧ TooShort T ((hi - lo) / ((nb : ℝ) - 1)) h) ∧
      (warning = true → ∀ v ∈ kde, v = none) ∧
      (warning = false → ∃ values : List ℝ, kde = values.map some ∧ (∀ v ∈ values, 0 ≤ v) ∧
        values.sum * ((hi - lo) / ((nb : ℝ) - 1)) = 1) := by
  obtain ⟨hd, e⟩ := steps_pos lo hi nb hnb hlt
  obtain ⟨h1, hne, hx⟩ := bounds1_eq bounds x lo hi hb
  generalize hdd : (hi - lo) / ((nb : ℝ) - 1) = d at *
  have hz := kernelSumU_zero hex (hi - lo) d h hh nb hnb (by linarith)
  have eq := gaussian1U_eq ex x h hh nb hnb fft bounds lo hi hb hlt d hdd.symm
  by_cases hs : kernelSumU ex (hi - lo) d h nb = 0
  · rw [if_pos hs] at eq
    refine ⟨_, _, _, eq, by simp, by simp, by simp [hz.1 hs], fun _ v hv => (List.mem_replicate.1 hv).2, ?_⟩
    intro h; cases h
  · rw [if_neg hs] at eq
    have hpos : 0 < kernelSumU ex (hi - lo) d h nb :=
      lt_of_le_of_ne (Finset.sum_nonneg fun k _ => hex.nonneg _) (Ne.symm hs)
    refine ⟨_, _, _, eq, by simp, ?_, ?_, fun h => (by cases h), fun _ => ⟨_, rfl, ?_, ?_⟩⟩
    · rw [convolve_map]
      simp
      omega
    · constructor
      · intro h; cases h
      · intro h; exact absurd (hz.2 h) hs
    · rw [convolve_map]
      intro v hv
      obtain ⟨t, -, rfl⟩ := List.mem_map.1 hv
      apply Finset.sum_nonneg
      intro i _
      split_ifs
      · exact mul_nonneg (linearBin_nonneg _ _ _ hd) (div_nonneg (hex.nonneg _) hpos.le)
      · rw [mul_zero]
      · exact le_rfl
    · rw [convolve_map, sum_range, convolve_sum nb (nb - 1) (by omega) (fun i : ℕ => linearBin x d (lo + i * d))
        (fun k => kernelU ex (hi - lo) d h k / kernelSumU ex (hi - lo) d h nb), ← Finset.sum_div]
      have : (∑ i ∈ Finset.range (nb - 1), kernelU ex (hi - lo) d h i) /
          kernelSumU ex (hi - lo) d h nb = 1 := div_self hpos.ne'
      rw [this, mul_one]
      exact (linearBin_sums x hne lo _ nb hd fun s hs => by rw [e]; exact hx s hs).1

/-- **C214**: as long as no exponential of the kernel underflows, values are the ones with exact
exponentials. -/
theorem C214_exact {ex : ℝ → ℝ} {T : ℝ} (hex : ∀ t, -T ≤ t → t ≤ 0 → ex t = Real.exp t) (x : List ℝ) (h : ℝ)
    (hh : h ≠ 0) (nb : ℕ) (hnb : 2 ≤ nb) (fft : Bool) (bounds : Option (ℝ × ℝ)) (lo hi : ℝ)
    (hb : Bounds bounds x lo hi) (hlt : lo < hi) (hT : (hi - lo) ^ 2 / (8 * h ^ 2) ≤ T) :
    ∃ g values, gaussian1U ex x h nb fft bounds = .ok (false, g, values.map some) ∧
      gaussian1 x h nb fft bounds = .ok (g, values) := by
  obtain ⟨hd, e⟩ := steps_pos lo hi nb hnb hlt
  have eq := gaussian1U_eq ex x h hh nb hnb fft bounds lo hi hb hlt _ rfl
  have eq' := gaussian1_eq x h hh nb hnb fft bounds lo hi hb hlt
  generalize hdd : (hi - lo) / ((nb : ℝ) - 1) = d at *
  have hk : ∀ k < nb - 1, kernelU ex (hi - lo) d h k = kernel (hi - lo) d h k := by
    intro k hk
    unfold kernelU kernel
    have hp : 0 < h ^ 2 := by positivity
    have q0 : 0 ≤ (-(hi - lo) / 2 + k * d) ^ 2 := sq_nonneg _
    have q1 : (-(hi - lo) / 2 + k * d) ^ 2 ≤ (hi - lo) ^ 2 / 4 := by
      have hk' : (k : ℝ) ≤ (nb : ℝ) - 1 := by
        have : (k : ℝ) + 1 ≤ nb := by exact_mod_cast (by omega : k + 1 ≤ nb)
        linarith
      have h0 : 0 ≤ (k : ℝ) * d := by positivity
      have h1 : (k : ℝ) * d ≤ hi - lo := by nlinarith
      nlinarith
    have hr : -(1 / 2) / h ^ 2 * (-(hi - lo) / 2 + k * d) ^ 2 =
        -((-(hi - lo) / 2 + k * d) ^ 2 / (2 * h ^ 2)) := by field_simp
    rw [hr]
    apply hex
    · rw [neg_le_neg_iff]
      refine le_trans ?_ hT
      rw [div_le_div_iff₀ (by positivity) (by positivity)]
      nlinarith
    · rw [neg_nonpos]
      positivity
  have hsum : kernelSumU ex (hi - lo) d h nb = kernelSum (hi - lo) d h nb :=
    Finset.sum_congr rfl fun k hk' => hk k (Finset.mem_range.1 hk')
  rw [if_neg (by rw [hsum]; exact (kernelSum_pos _ _ _ _ hnb).ne')] at eq
  refine ⟨_, _, eq, ?_⟩
  rw [eq']
  congr 3
  apply List.map_congr_left
  intro k hk'
  rw [hk k (List.mem_range.1 hk'), hsum]

/-- **C214**: when a whole step is too many widths and the number of bins is odd, the bins are not smoothed:
the estimate holds them after `(nb - 1) / 2` zeros. -/
theorem C214_unsmoothed {ex : ℝ → ℝ} {T : ℝ} (hex : Underflows ex T) (x : List ℝ) (h : ℝ) (hh : h ≠ 0) (nb : ℕ)
    (hnb : 2 ≤ nb) (hodd : Odd nb) (fft : Bool) (bounds : Option (ℝ × ℝ)) (lo hi : ℝ)
    (hb : Bounds bounds x lo hi) (hlt : lo < hi)
    (hT : T < ((hi - lo) / ((nb : ℝ) - 1)) ^ 2 / (2 * h ^ 2)) :
    ∃ g bins kde, getBins1 x nb bounds = .ok (g, bins) ∧ bins.length = nb ∧
      gaussian1U ex x h nb fft bounds = .ok (false, g, kde) ∧ kde.length = 2 * nb - 2 ∧
      ∀ t < 2 * nb - 2, kde.getD t none = some (if t < (nb - 1) / 2 then 0 else bins.getD (t - (nb - 1) / 2) 0) := by
  obtain ⟨hd, e⟩ := steps_pos lo hi nb hnb hlt
  have eq := gaussian1U_eq ex x h hh nb hnb fft bounds lo hi hb hlt _ rfl
  have eb := C68_bins x nb hnb bounds lo hi hb hlt
  generalize hdd : (hi - lo) / ((nb : ℝ) - 1) = d at *
  have hR : hi - lo = ((nb : ℝ) - 1) * d := by linarith
  have hs : kernelSumU ex (hi - lo) d h nb ≠ 0 := by
    rw [Ne, kernelSumU_zero hex (hi - lo) d h hh nb hnb hR]
    rintro ⟨h, -⟩
    exact Nat.not_even_iff_odd.2 hodd h
  rw [if_neg hs] at eq
  obtain ⟨m, rfl⟩ := hodd
  have hm : 1 ≤ m := by omega
  simp only [Nat.add_sub_cancel] at *
  have hp : 0 < h ^ 2 := by positivity
  have hk : ∀ k, k ≠ m → kernelU ex (hi - lo) d h k = 0 := by
    intro k hk
    apply (hex.zero _).2
    rw [offset_sq (hi - lo) d _ k hR]
    have h1 : (4 : ℤ) ≤ (2 * (k : ℤ) - (((2 * m + 1 : ℕ) : ℤ) - 1)) ^ 2 := by
      have h0 : (2 * (k : ℤ) - (((2 * m + 1 : ℕ) : ℤ) - 1)) ^ 2 = 4 * ((k : ℤ) - m) ^ 2 := by push_cast; ring
      rw [h0]
      have : (k : ℤ) - m ≠ 0 := by omega
      have := sq_pos_of_ne_zero this
      omega
    have h2 : (4 : ℝ) ≤ (((2 * (k : ℤ) - (((2 * m + 1 : ℕ) : ℤ) - 1)) ^ 2 : ℤ) : ℝ) := by exact_mod_cast h1
    generalize (((2 * (k : ℤ) - (((2 * m + 1 : ℕ) : ℤ) - 1)) ^ 2 : ℤ) : ℝ) = q at h2
    rw [show -(1 / 2) / h ^ 2 * (d ^ 2 / 4 * q) = -(d ^ 2 / (2 * h ^ 2) * (q / 4)) by field_simp, neg_lt_neg_iff]
    refine lt_of_lt_of_le hT ?_
    have : 0 ≤ d ^ 2 / (2 * h ^ 2) := by positivity
    nlinarith
  have hsum : kernelSumU ex (hi - lo) d h (2 * m + 1) = kernelU ex (hi - lo) d h m := by
    unfold kernelSumU
    rw [Finset.sum_eq_single m (fun k _ hk' => hk k hk')]
    intro h
    exact absurd (Finset.mem_range.2 (by omega)) h
  refine ⟨_, _, _, eb, by simp, eq, ?_, ?_⟩
  · rw [convolve_map]
    simp
    omega
  · intro t ht
    rw [convolve_map, List.getD_eq_getElem?_getD, List.getElem?_map, List.getElem?_map,
      List.getElem?_range (by omega)]
    simp only [Option.map_some, Option.getD_some]
    congr 1
    have hm2 : 2 * m / 2 = m := by omega
    rw [hm2]
    split_ifs with h1
    · apply Finset.sum_eq_zero
      intro i _
      split_ifs with h2 h3
      · rw [hk _ (by omega), zero_div, mul_zero]
      · rw [mul_zero]
      · rfl
    · have hother : ∀ i, i ≠ t - m → (if i ≤ t then linearBin x d (lo + i * d) *
          (if t - i < 2 * m then kernelU ex (hi - lo) d h (t - i) / kernelSumU ex (hi - lo) d h (2 * m + 1)
            else 0) else 0) = 0 := by
        intro i hi'
        split_ifs with h2 h3
        · rw [hk _ (by omega), zero_div, mul_zero]
        · rw [mul_zero]
        · rfl
      rw [getD_map_range]
      split_ifs with h4
      · rw [Finset.sum_eq_single (t - m) (fun i _ hi' => hother i hi')
          (fun h => absurd (Finset.mem_range.2 h4) h), if_pos (by omega), if_pos (by omega),
          show t - (t - m) = m by omega, hsum, div_self (by rw [← hsum]; exact hs), mul_one]
      · apply Finset.sum_eq_zero
        intro i hi'
        rw [Finset.mem_range] at hi'
        exact hother i (by omega)

theorem pyGet_grid01 (nb : ℕ) (hnb : 2 ≤ nb) (f : ℕ → ℝ) :
    pyGet ((List.range nb).map f) 0 = .ok (f 0) ∧ pyGet ((List.range nb).map f) 1 = .ok (f 1) :=
  ⟨pyGet_map_range nb 0 f (by omega), pyGet_map_range nb 1 f (by omega)⟩

theorem trapzN_some (y : List ℝ) (dx : ℝ) : trapzN (y.map some) dx = some (trapz y dx) := by
  unfold trapzN trapz
  rw [List.length_map]
  apply sumN_some
  intro i hi
  simp [List.getD_eq_getElem?_getD, List.getElem?_map, List.getElem?_eq_getElem (show i < y.length by omega),
    List.getElem?_eq_getElem (show i + 1 < y.length by omega)]

theorem trapzN_none (n : ℕ) (hn : 2 ≤ n) (dx : ℝ) : trapzN (List.replicate n none) dx = none := by
  unfold trapzN
  apply sumN_none _ _ 0 (by simp; omega)
  rw [List.getD_eq_getElem?_getD, List.getElem?_replicate, if_pos (by omega)]
  rfl

/-- **C214**: `kde_entropy_gaussian_1d` returns a number, except with the warning: it is then `nan`. -/
theorem C214_entropy {ex : ℝ → ℝ} {T : ℝ} (hex : Underflows ex T) (x : List ℝ) (h : ℝ) (hh : h ≠ 0) (nb : ℕ)
    (hnb : 2 ≤ nb) (fft : Bool) (lo hi : ℝ) (hb : Bounds none x lo hi) (hlt : lo < hi) :
    ∃ v, entropy1U ex x h nb fft = .ok v ∧
      (v = none ↔ Even nb ∧ TooShort T ((hi - lo) / ((nb : ℝ) - 1)) h) := by
  obtain ⟨hd, e⟩ := steps_pos lo hi nb hnb hlt
  generalize hdd : (hi - lo) / ((nb : ℝ) - 1) = d at *
  have hz := kernelSumU_zero hex (hi - lo) d h hh nb hnb (by linarith)
  have eq := gaussian1U_eq ex x h hh nb hnb fft none lo hi hb hlt d hdd.symm
  unfold entropy1U
  rw [eq, ← hz]
  simp only [bind, Except.bind]
  obtain ⟨p0, p1⟩ := pyGet_grid01 nb hnb fun i : ℕ => lo + i * d
  split_ifs with hs
  · rw [p0, p1]
    refine ⟨_, rfl, ?_⟩
    simp only [List.map_replicate, Option.map_none]
    simp [trapzN_none _ (show 2 ≤ 2 * nb - 2 by omega), hs]
  · rw [p0, p1]
    refine ⟨_, rfl, ?_⟩
    rw [List.map_map]
    have : ∀ l : List ℝ, l.map ((fun p : Option ℝ => p.map fun p => -p * Real.log (p + EPSILON)) ∘ some) =
        (l.map fun p => -p * Real.log (p + EPSILON)).map some := by
      intro l
      rw [List.map_map]
      rfl
    rw [this, trapzN_some]
    simp [hs]

/-- **C214**: `kde_KL_divergence_1d` of samples which are not all equal returns a number, except when both
estimates are `nan`. -/
theorem C214_divergence {ex : ℝ → ℝ} {T : ℝ} (hex : Underflows ex T) (x y : List ℝ) (h : ℝ) (hh : h ≠ 0)
    (nb : ℕ) (hnb : 2 ≤ nb) (fft : Bool) (lo hi : ℝ) (hx : x ≠ []) (hy : y ≠ [])
    (hb : Bounds none (x ++ y) lo hi) (hlt : lo < hi) :
    ∃ v, klDivergence1U ex x y h nb fft = .ok v ∧
      (v = none ↔ Even nb ∧ TooShort T ((hi - lo) / ((nb : ℝ) - 1)) h) := by
  obtain ⟨hd, e⟩ := steps_pos lo hi nb hnb hlt
  generalize hdd : (hi - lo) / ((nb : ℝ) - 1) = d at *
  obtain ⟨a, ea, ma, la⟩ := npMin_spec x hx
  obtain ⟨b, eb, mb, lb⟩ := npMin_spec y hy
  obtain ⟨a', ea', ma', la'⟩ := npMax_spec x hx
  obtain ⟨b', eb', mb', lb'⟩ := npMax_spec y hy
  obtain ⟨⟨hlo, hin1⟩, hhi, hin2⟩ := hb
  have hin : ∀ s ∈ x ++ y, lo ≤ s ∧ s ≤ hi := fun s hs => ⟨hin1 s hs, hin2 s hs⟩
  have e1 : min a b = lo := by
    apply le_antisymm
    · rcases List.mem_append.1 hlo with h | h
      · exact (min_le_left _ _).trans (la _ h)
      · exact (min_le_right _ _).trans (lb _ h)
    · exact le_min (hin a (by simp [ma])).1 (hin b (by simp [mb])).1
  have e2 : max a' b' = hi := by
    apply le_antisymm
    · exact max_le (hin a' (by simp [ma'])).2 (hin b' (by simp [mb'])).2
    · rcases List.mem_append.1 hhi with h | h
      · exact (la' _ h).trans (le_max_left _ _)
      · exact (lb' _ h).trans (le_max_right _ _)
  have hz := kernelSumU_zero hex (hi - lo) d h hh nb hnb (by linarith)
  have eqx := gaussian1U_eq ex x h hh nb hnb fft (some (lo, hi)) lo hi
    ⟨rfl, hx, fun s hs => hin s (by simp [hs])⟩ hlt d hdd.symm
  have eqy := gaussian1U_eq ex y h hh nb hnb fft (some (lo, hi)) lo hi
    ⟨rfl, hy, fun s hs => hin s (by simp [hs])⟩ hlt d hdd.symm
  unfold klDivergence1U
  rw [ea, eb, ea', eb']
  simp only [bind, Except.bind]
  rw [e1, e2, eqx, eqy, ← hz]
  simp only []
  obtain ⟨p0, p1⟩ := pyGet_grid01 nb hnb fun i : ℕ => lo + i * d
  split_ifs with hs
  · rw [p0, p1]
    refine ⟨_, rfl, ?_⟩
    rw [List.zipWith_replicate]
    simp [trapzN_none _ (show 2 ≤ 2 * nb - 2 by omega), hs]
  · rw [p0, p1]
    refine ⟨_, rfl, ?_⟩
    have : ∀ l l' : List ℝ, List.zipWith (fun p q : Option ℝ => (Option.bind p fun p => Option.bind q fun q =>
        (pure (-p * Real.log ((p + EPSILON) / (q + EPSILON))) : Option ℝ))) (l.map some) (l'.map some) =
        (List.zipWith (fun p q => -p * Real.log ((p + EPSILON) / (q + EPSILON))) l l').map some := by
      intro l l'
      rw [List.zipWith_map, List.map_zipWith]
      rfl
    rw [this, trapzN_some]
    simp [hs]

/-! ## C214: two dimensions -/

/-- The kernel in two dimensions, before it is normalised. -/
noncomputable def kernelU2 (ex : ℝ → ℝ) (Rx Ry dx dy hX hY : ℝ) (k l : ℕ) : ℝ :=
  ex (-(1 / 2) / hX ^ 2 * (-Rx / 2 + k * dx) ^ 2 + -(1 / 2) / hY ^ 2 * (-Ry / 2 + l * dy) ^ 2)

/-- Its sum. -/
noncomputable def kernelSumU2 (ex : ℝ → ℝ) (Rx Ry dx dy hX hY : ℝ) (nb : ℕ) : ℝ :=
  ∑ k ∈ Finset.range (nb - 1), ∑ l ∈ Finset.range (nb - 1), kernelU2 ex Rx Ry dx dy hX hY k l

theorem kernelSumU2_zero {ex : ℝ → ℝ} {T : ℝ} (hex : Underflows ex T) (Rx Ry dx dy hX hY : ℝ) (hhx : hX ≠ 0)
    (hhy : hY ≠ 0) (nb : ℕ) (hnb : 2 ≤ nb) (hRx : Rx = ((nb : ℝ) - 1) * dx) (hRy : Ry = ((nb : ℝ) - 1) * dy) :
    kernelSumU2 ex Rx Ry dx dy hX hY nb = 0 ↔
      Even nb ∧ T < dx ^ 2 / (8 * hX ^ 2) + dy ^ 2 / (8 * hY ^ 2) := by
  obtain ⟨x1, x2, x3⟩ := offset_least Rx dx nb hnb hRx
  obtain ⟨y1, y2, y3⟩ := offset_least Ry dy nb hnb hRy
  have hpx : 0 < hX ^ 2 := by positivity
  have hpy : 0 < hY ^ 2 := by positivity
  have key : ∀ q r : ℝ, -(1 / 2) / hX ^ 2 * q + -(1 / 2) / hY ^ 2 * r < -T ↔
      T < q / (2 * hX ^ 2) + r / (2 * hY ^ 2) := by
    intro q r
    rw [show -(1 / 2) / hX ^ 2 * q + -(1 / 2) / hY ^ 2 * r = -(q / (2 * hX ^ 2) + r / (2 * hY ^ 2)) by
      field_simp; ring, neg_lt_neg_iff]
  have e8 : ∀ u w : ℝ, 0 < w → u / 4 / (2 * w) = u / (8 * w) := by
    intro u w hw
    field_simp
    ring
  have hT := hex.pos
  unfold kernelSumU2
  have hnn : ∀ k ∈ Finset.range (nb - 1), ∀ l ∈ Finset.range (nb - 1), 0 ≤ kernelU2 ex Rx Ry dx dy hX hY k l :=
    fun k _ l _ => hex.nonneg _
  rw [Finset.sum_eq_zero_iff_of_nonneg fun k hk => Finset.sum_nonneg (hnn k hk)]
  constructor
  · intro hz
    have := (Finset.sum_eq_zero_iff_of_nonneg (hnn _ (Finset.mem_range.2 x2))).1
      (hz _ (Finset.mem_range.2 x2)) _ (Finset.mem_range.2 y2)
    have := (hex.zero _).1 this
    rw [key, x3, y3] at this
    split_ifs at this with he
    · rw [e8 _ _ hpx, e8 _ _ hpy] at this
      exact ⟨he, this⟩
    · simp only [zero_div, add_zero] at this
      linarith
  · rintro ⟨he, ht⟩ k hk
    rw [Finset.sum_eq_zero_iff_of_nonneg (hnn k hk)]
    intro l _
    apply (hex.zero _).2
    rw [key]
    have hx := x1 k
    have hy := y1 l
    rw [if_pos he] at hx hy
    refine lt_of_lt_of_le ht ?_
    rw [← e8 _ _ hpx, ← e8 _ _ hpy]
    gcongr

theorem convolveSameN_some (a : ℕ → ℕ → ℝ) (n : ℕ) (k : ℕ → ℕ → Option ℝ) (k' : ℕ → ℕ → ℝ) (m m' i j : ℕ)
    (h : ∀ p < m, ∀ q < m', k p q = some (k' p q)) :
    convolveSameN a n k m m' i j = some (convolveSame a n k' m m' i j) := by
  unfold convolveSameN convolveSame
  refine sumN_some _ _ _ fun p _ => sumN_some _ _ _ fun q _ => ?_
  split_ifs with hc
  · rw [h _ hc.2.1 _ hc.2.2.2]
    rfl
  · rfl

/-- What `gaussian_kde_2d` returns. -/
theorem gaussian2U_eq (ex : ℝ → ℝ) (samples : List (ℝ × ℝ)) (hX hY : ℝ) (hhx : hX ≠ 0) (hhy : hY ≠ 0) (nb : ℕ)
    (hnb : 2 ≤ nb) (fft : Bool) (bounds : Option ((ℝ × ℝ) × (ℝ × ℝ))) (lx ly hx hy : ℝ)
    (hb : Bounds2 bounds samples lx ly hx hy) (hltx : lx < hx) (hlty : ly < hy) (dx dy : ℝ)
    (hdx : dx = (hx - lx) / ((nb : ℝ) - 1)) (hdy : dy = (hy - ly) / ((nb : ℝ) - 1)) :
    gaussian2U ex samples hX hY nb fft bounds = .ok
      (if kernelSumU2 ex (hx - lx) (hy - ly) dx dy hX hY nb = 0 then
        (true, (List.range nb).map fun i : ℕ => lx + i * dx, (List.range nb).map fun j : ℕ => ly + j * dy,
          List.replicate nb (List.replicate nb none))
      else
        (false, (List.range nb).map fun i : ℕ => lx + i * dx, (List.range nb).map fun j : ℕ => ly + j * dy,
          (List.range nb).map fun i : ℕ => (List.range nb).map fun j : ℕ =>
            some (convolveSame (fun p q => linearBin2 samples dx dy (lx + p * dx) (ly + q * dy)) nb
              (fun k l => kernelU2 ex (hx - lx) (hy - ly) dx dy hX hY k l /
                kernelSumU2 ex (hx - lx) (hy - ly) dx dy hX hY nb) (nb - 1) (nb - 1) i j))) := by
  obtain ⟨hdx0, e1⟩ := steps_pos lx hx nb hnb hltx
  obtain ⟨hdy0, e2⟩ := steps_pos ly hy nb hnb hlty
  rw [← hdx] at hdx0 e1
  rw [← hdy] at hdy0 e2
  unfold gaussian2U
  rw [C69_bins samples nb hnb bounds lx ly hx hy hb hltx hlty, ← hdx, ← hdy]
  simp only [bind, Except.bind]
  have p0 : ∀ f : ℕ → ℝ, pyGet ((List.range nb).map f) 0 = .ok (f 0) :=
    fun f => pyGet_map_range nb 0 f (by omega)
  have p1 : ∀ f : ℕ → ℝ, pyGet ((List.range nb).map f) 1 = .ok (f 1) :=
    fun f => pyGet_map_range nb 1 f (by omega)
  rw [pyGet_map_last _ _ (by omega), pyGet_map_last _ _ (by omega), p0, p0, p1, p1]
  simp only []
  rw [if_neg (by rintro (h | h) <;> [exact hhx h; exact hhy h])]
  have e3 : ∀ lo hi d : ℝ, lo + ((nb : ℝ) - 1) * d = hi →
      lo + ((nb - 1 : ℕ) : ℝ) * d - (lo + ((0 : ℕ) : ℝ) * d) = hi - lo := by
    intro lo hi d e
    rw [Nat.cast_sub (by omega), Nat.cast_one, e]
    simp
  have e4 : ∀ lo d : ℝ, lo + ((1 : ℕ) : ℝ) * d - (lo + ((0 : ℕ) : ℝ) * d) = d := by
    intro lo d
    push_cast; ring
  rw [e3 lx hx dx e1, e3 ly hy dy e2, e4, e4, arange_eq (hx - lx) dx nb hdx0 hnb (by linarith),
    arange_eq (hy - ly) dy nb hdy0 hnb (by linarith)]
  simp only [List.length_map, List.length_range, pure, Except.pure]
  have hker : ∀ k < nb - 1, ∀ l < nb - 1,
      ex (-(1 / 2) / hX ^ 2 * ((List.range (nb - 1)).map fun k : ℕ =>
          -(hx - lx) / 2 + (k : ℝ) * dx).getD k 0 ^ 2 +
        -(1 / 2) / hY ^ 2 * ((List.range (nb - 1)).map fun k : ℕ =>
          -(hy - ly) / 2 + (k : ℝ) * dy).getD l 0 ^ 2) =
      kernelU2 ex (hx - lx) (hy - ly) dx dy hX hY k l := by
    intro k hk l hl
    rw [getD_map_range, getD_map_range, if_pos hk, if_pos hl]
    rfl
  have hsum : (∑ k ∈ Finset.range (nb - 1), ∑ l ∈ Finset.range (nb - 1),
      ex (-(1 / 2) / hX ^ 2 * ((List.range (nb - 1)).map fun k : ℕ =>
          -(hx - lx) / 2 + (k : ℝ) * dx).getD k 0 ^ 2 +
        -(1 / 2) / hY ^ 2 * ((List.range (nb - 1)).map fun k : ℕ =>
          -(hy - ly) / 2 + (k : ℝ) * dy).getD l 0 ^ 2)) =
      kernelSumU2 ex (hx - lx) (hy - ly) dx dy hX hY nb :=
    Finset.sum_congr rfl fun k hk => Finset.sum_congr rfl fun l hl =>
      hker k (Finset.mem_range.1 hk) l (Finset.mem_range.1 hl)
  rw [hsum]
  congr 1
  by_cases hs : kernelSumU2 ex (hx - lx) (hy - ly) dx dy hX hY nb = 0
  · rw [if_pos hs, decide_eq_true hs]
    congr 3
    rw [List.eq_replicate_iff]
    refine ⟨by simp, fun row hr => ?_⟩
    obtain ⟨i, hi, rfl⟩ := List.mem_map.1 hr
    rw [List.mem_range] at hi
    rw [List.eq_replicate_iff]
    refine ⟨by simp, fun v hv => ?_⟩
    obtain ⟨j, hj, rfl⟩ := List.mem_map.1 hv
    rw [List.mem_range] at hj
    split_ifs
    · exact if_pos ⟨0, by omega, 0, by omega, if_pos hs⟩
    · unfold convolveSameN
      refine sumN_none _ _ i hi (sumN_none _ _ j hj ?_)
      rw [if_pos (by omega)]
      simp [mulN, quotient, hs]
  · rw [if_neg hs, decide_eq_false hs]
    congr 3
    apply List.map_congr_left
    intro i _
    apply List.map_congr_left
    intro j _
    have hq : ∀ k < nb - 1, ∀ l < nb - 1, quotient (ex (-(1 / 2) / hX ^ 2 * ((List.range (nb - 1)).map fun k : ℕ =>
          -(hx - lx) / 2 + (k : ℝ) * dx).getD k 0 ^ 2 +
        -(1 / 2) / hY ^ 2 * ((List.range (nb - 1)).map fun k : ℕ =>
          -(hy - ly) / 2 + (k : ℝ) * dy).getD l 0 ^ 2)) (kernelSumU2 ex (hx - lx) (hy - ly) dx dy hX hY nb) =
        some (kernelU2 ex (hx - lx) (hy - ly) dx dy hX hY k l /
          kernelSumU2 ex (hx - lx) (hy - ly) dx dy hX hY nb) := by
      intro k hk l hl
      rw [hker k hk l hl]
      exact if_neg hs
    have hc := fun a => convolveSameN_some a nb _ _ (nb - 1) (nb - 1) i j hq
    have hleft : ∀ k : ℕ → ℕ → ℝ, convolveSame (fun p q => (((List.range nb).map fun i : ℕ => (List.range nb).map
        fun j : ℕ => linearBin2 samples dx dy (lx + i * dx) (ly + j * dy)).getD p []).getD q 0) nb k
        (nb - 1) (nb - 1) i j = convolveSame (fun p q => linearBin2 samples dx dy (lx + p * dx) (ly + q * dy)) nb k
        (nb - 1) (nb - 1) i j := by
      intro k
      apply convolveSame_congr_left
      intro p hp q hq
      rw [List.getD_eq_getElem?_getD (l := List.map _ _), List.getElem?_map, List.getElem?_range hp,
        Option.map_some, Option.getD_some, getD_map_range, if_pos hq]
    split_ifs
    · unfold fftconvolveSameN
      rw [if_neg, hc, hleft]
      rintro ⟨p, hp, q, hq', h⟩
      have h' := (hq p hp q hq').symm.trans h
      cases h'
    · rw [hc, hleft]

/-- **C214**: in two dimensions the warning is printed exactly when the number of bins is even and the
exponential for the middle of a cell of the grid is null, and all values are then `nan`; in other cases they
are not negative and have mass at most 1. -/
theorem C214_estimate2 {ex : ℝ → ℝ} {T : ℝ} (hex : Underflows ex T) (samples : List (ℝ × ℝ)) (hX hY : ℝ)
    (hhx : hX ≠ 0) (hhy : hY ≠ 0) (nb : ℕ) (hnb : 2 ≤ nb) (fft : Bool) (bounds : Option ((ℝ × ℝ) × (ℝ × ℝ)))
    (lx ly hx hy : ℝ) (hb : Bounds2 bounds samples lx ly hx hy) (hltx : lx < hx) (hlty : ly < hy) :
    ∃ warning gx gy kde, gaussian2U ex samples hX hY nb fft bounds = .ok (warning, gx, gy, kde) ∧
      gx.length = nb ∧ gy.length = nb ∧ kde.length = nb ∧ (∀ row ∈ kde, row.length = nb) ∧
      (warning = true ↔ Even nb ∧ T < ((hx - lx) / ((nb : ℝ) - 1)) ^ 2 / (8 * hX ^ 2) +
        ((hy - ly) / ((nb : ℝ) - 1)) ^ 2 / (8 * hY ^ 2)) ∧
      (warning = true → ∀ row ∈ kde, ∀ v ∈ row, v = none) ∧
      (warning = false → ∃ values : List (List ℝ), kde = values.map (List.map some) ∧
        (∀ row ∈ values, ∀ v ∈ row, 0 ≤ v) ∧
        (values.map List.sum).sum * (((hx - lx) / ((nb : ℝ) - 1)) * ((hy - ly) / ((nb : ℝ) - 1))) ≤ 1) := by
  obtain ⟨hdx, e1⟩ := steps_pos lx hx nb hnb hltx
  obtain ⟨hdy, e2⟩ := steps_pos ly hy nb hnb hlty
  have hmass : (∑ p ∈ Finset.range nb, ∑ q ∈ Finset.range nb,
      linearBin2 samples ((hx - lx) / ((nb : ℝ) - 1))
        ((hy - ly) / ((nb : ℝ) - 1)) (lx + p * ((hx - lx) / ((nb : ℝ) - 1)))
        (ly + q * ((hy - ly) / ((nb : ℝ) - 1)))) *
      (((hx - lx) / ((nb : ℝ) - 1)) * ((hy - ly) / ((nb : ℝ) - 1))) = 1 := by
    obtain ⟨gx, gy, b, full, e, -, -, -, -, hm, -⟩ := C69_mass samples nb hnb bounds lx ly hx hy hb hltx hlty
    have := (C69_bins samples nb hnb bounds lx ly hx hy hb hltx hlty).symm.trans e
    injection this with this
    injection this with _ this
    injection this with _ this
    rw [← this, List.map_map] at hm
    simp only [Function.comp_def, sum_range] at hm
    exact hm
  have eq := gaussian2U_eq ex samples hX hY hhx hhy nb hnb fft bounds lx ly hx hy hb hltx hlty _ _ rfl rfl
  generalize (hx - lx) / ((nb : ℝ) - 1) = dx at *
  generalize (hy - ly) / ((nb : ℝ) - 1) = dy at *
  have hz := kernelSumU2_zero hex (hx - lx) (hy - ly) dx dy hX hY hhx hhy nb hnb (by linarith) (by linarith)
  by_cases hs : kernelSumU2 ex (hx - lx) (hy - ly) dx dy hX hY nb = 0
  · rw [if_pos hs] at eq
    refine ⟨_, _, _, _, eq, by simp, by simp, by simp, ?_, by simp [hz.1 hs], ?_, fun h => (by cases h)⟩
    · intro row hr
      rw [(List.mem_replicate.1 hr).2, List.length_replicate]
    · intro _ row hr v hv
      rw [(List.mem_replicate.1 hr).2] at hv
      exact (List.mem_replicate.1 hv).2
  · rw [if_neg hs] at eq
    have hpos : 0 < kernelSumU2 ex (hx - lx) (hy - ly) dx dy hX hY nb :=
      lt_of_le_of_ne (Finset.sum_nonneg fun k _ => Finset.sum_nonneg fun l _ => hex.nonneg _) (Ne.symm hs)
    have hnn := fun p q : ℕ => linearBin2_nonneg samples dx dy (lx + p * dx) (ly + q * dy) hdx hdy
    have hkn : ∀ k l : ℕ, 0 ≤ kernelU2 ex (hx - lx) (hy - ly) dx dy hX hY k l /
        kernelSumU2 ex (hx - lx) (hy - ly) dx dy hX hY nb := fun k l => div_nonneg (hex.nonneg _) hpos.le
    refine ⟨_, _, _, _, eq, by simp, by simp, by simp, ?_, ?_, fun h => (by cases h), fun _ => ?_⟩
    · intro row hr
      obtain ⟨i, -, rfl⟩ := List.mem_map.1 hr
      simp
    · constructor
      · intro h; cases h
      · intro h; exact absurd (hz.2 h) hs
    · refine ⟨(List.range nb).map fun i : ℕ => (List.range nb).map fun j : ℕ =>
            convolveSame (fun p q => linearBin2 samples dx dy (lx + p * dx) (ly + q * dy)) nb
              (fun k l => kernelU2 ex (hx - lx) (hy - ly) dx dy hX hY k l /
                kernelSumU2 ex (hx - lx) (hy - ly) dx dy hX hY nb) (nb - 1) (nb - 1) i j, ?_, ?_, ?_⟩
      · rw [List.map_map]
        apply List.map_congr_left
        intro i _
        simp only [Function.comp_def, List.map_map]
      · intro row hr v hv
        obtain ⟨i, -, rfl⟩ := List.mem_map.1 hr
        obtain ⟨j, -, rfl⟩ := List.mem_map.1 hv
        exact convolveSame_nonneg _ _ hnn hkn _ _ _ _ _
      · rw [List.map_map]
        simp only [Function.comp_def, sum_range]
        have hle := convolveSame_sum_le _ _ hnn hkn nb (nb - 1) (nb - 1)
        have hk1 : ∑ k ∈ Finset.range (nb - 1), ∑ l ∈ Finset.range (nb - 1),
            kernelU2 ex (hx - lx) (hy - ly) dx dy hX hY k l /
              kernelSumU2 ex (hx - lx) (hy - ly) dx dy hX hY nb = 1 := by
          simp only [← Finset.sum_div]
          exact div_self hpos.ne'
        rw [hk1, mul_one] at hle
        refine le_trans (mul_le_mul_of_nonneg_right hle (mul_pos hdx hdy).le) hmass.le

/-- **C214**: for the histograms of angles and velocities, whose widths are a part `r` of the ranges, the
warning depends on this part and on the number of bins only. -/
theorem C214_relative {ex : ℝ → ℝ} {T : ℝ} (hex : Underflows ex T) (samples : List (ℝ × ℝ)) (r : ℝ) (hr : r ≠ 0)
    (nb : ℕ) (hnb : 2 ≤ nb) (fft : Bool) (lx ly hx hy : ℝ)
    (hb : Bounds2 (some ((lx, ly), (hx, hy))) samples lx ly hx hy) (hltx : lx < hx) (hlty : ly < hy) :
    ∃ warning gx gy kde, gaussian2U ex samples (r * (hx - lx)) (r * (hy - ly)) nb fft
        (some ((lx, ly), (hx, hy))) = .ok (warning, gx, gy, kde) ∧
      (warning = true ↔ Even nb ∧ T < 1 / (2 * r * ((nb : ℝ) - 1)) ^ 2) ∧
      (warning = true → ∀ row ∈ kde, ∀ v ∈ row, v = none) ∧
      (warning = false → ∀ row ∈ kde, ∀ v ∈ row, ∃ u : ℝ, v = some u) := by
  have h1 : hx - lx ≠ 0 := by linarith
  have h2 : hy - ly ≠ 0 := by linarith
  obtain ⟨w, gx, gy, kde, e, -, -, -, -, hw, hn, hv⟩ := C214_estimate2 hex samples (r * (hx - lx)) (r * (hy - ly))
    (mul_ne_zero hr h1) (mul_ne_zero hr h2) nb hnb fft _ lx ly hx hy hb hltx hlty
  have hn1 : ((nb : ℝ) - 1) ≠ 0 := by
    have : (2 : ℝ) ≤ nb := by exact_mod_cast hnb
    linarith
  refine ⟨w, gx, gy, kde, e, ?_, hn, ?_⟩
  · rw [hw]
    have : ((hx - lx) / ((nb : ℝ) - 1)) ^ 2 / (8 * (r * (hx - lx)) ^ 2) +
        ((hy - ly) / ((nb : ℝ) - 1)) ^ 2 / (8 * (r * (hy - ly)) ^ 2) = 1 / (2 * r * ((nb : ℝ) - 1)) ^ 2 := by
      field_simp
      norm_num
    rw [this]
  · intro hf row hr' v hv'
    obtain ⟨values, rfl, -⟩ := hv hf
    obtain ⟨row', -, rfl⟩ := List.mem_map.1 hr'
    obtain ⟨u, -, rfl⟩ := List.mem_map.1 hv'
    exact ⟨u, rfl⟩

end Verif.KDE
