import Verif.Utils.Rounded
import Verif.Utils.Props
import Mathlib.Tactic.NormNum

/-!
# Property C224: random splits with doubles
-/

namespace Verif.Utils

open Verif Verif.Window

set_option exponentiation.threshold 2000

/-- The parts of `shuffled` cut by a size and a number of test sets which fit. -/
theorem split_core (n nb k : ℕ) (shuffled : List ℕ) (hp : shuffled.Perm (List.range n)) (hnbpos : 0 < nb)
    (hle : nb * k ≤ n) :
    ∃ starts, pyRange 0 ((nb : ℤ) * (k : ℤ)) nb = .ok starts ∧ starts.length = k ∧
      (∀ s ∈ starts.map (fun i => (pyUpto shuffled i ++ pyFrom shuffled (i + nb), pySlice shuffled i (i + nb))),
        s.2.length = nb ∧ (s.1 ++ s.2).Perm (List.range n) ∧ List.Disjoint s.1 s.2) ∧
      (starts.map (fun i => (pyUpto shuffled i ++ pyFrom shuffled (i + nb), pySlice shuffled i (i + nb)))).Pairwise
        (fun s t => List.Disjoint s.2 t.2) := by
  have hlen : shuffled.length = n := by rw [hp.length_eq, List.length_range]
  have hnd : shuffled.Nodup := hp.nodup_iff.mpr List.nodup_range
  have hrange : pyRange 0 ((nb : ℤ) * (k : ℤ)) nb =
      .ok ((List.range k).map fun (i : ℕ) => ((i * nb : ℕ) : ℤ)) := by
    unfold pyRange
    rw [if_neg (by omega), if_pos (by omega)]
    have hc : ((nb : ℤ) * (k : ℤ) - 0 + nb - 1) / nb = k := by
      have : (nb : ℤ) * (k : ℤ) - 0 + nb - 1 = (nb - 1) + k * nb := by ring
      rw [this, Int.add_mul_ediv_right _ _ (by omega), Int.ediv_eq_zero_of_lt (by omega) (by omega)]
      ring
    simp only [hc, Int.toNat_natCast]
    congr 1
    apply List.map_congr_left
    intro i _
    push_cast; ring
  refine ⟨_, hrange, by simp, ?_, ?_⟩
  · intro s hs
    simp only [List.map_map, List.mem_map, List.mem_range, Function.comp_apply] at hs
    obtain ⟨i, hi, rfl⟩ := hs
    have hle' : i * nb + nb ≤ n := by
      have : (i + 1) * nb ≤ k * nb := Nat.mul_le_mul_right _ hi
      rw [Nat.mul_comm k nb] at this
      have e : (i + 1) * nb = i * nb + nb := by ring
      omega
    have ec : ((i * nb : ℕ) : ℤ) + (nb : ℤ) = ((i * nb + nb : ℕ) : ℤ) := by push_cast; ring
    rw [ec, pyUpto_nat, pyFrom_nat, pySlice_nat]
    have e3 : i * nb + nb - i * nb = nb := by omega
    rw [e3]
    have hperm : (shuffled.take (i * nb) ++ shuffled.drop (i * nb + nb) ++
        (shuffled.drop (i * nb)).take nb).Perm shuffled := by
      have hsplit : shuffled = shuffled.take (i * nb) ++ ((shuffled.drop (i * nb)).take nb ++
          shuffled.drop (i * nb + nb)) := by
        rw [← List.drop_drop, List.take_append_drop, List.take_append_drop]
      conv_rhs => rw [hsplit]
      rw [List.append_assoc]
      exact List.Perm.append_left _ List.perm_append_comm
    refine ⟨?_, hperm.trans hp, ?_⟩
    · simp only [List.length_take, List.length_drop, hlen]
      omega
    · have := hperm.nodup_iff.mpr hnd
      exact List.disjoint_of_nodup_append this
  · rw [List.map_map, List.pairwise_map]
    refine List.Pairwise.imp ?_ (List.pairwise_lt_range (n := k))
    intro i j hij
    simp only [Function.comp_apply]
    have ec : ∀ i : ℕ, ((i * nb : ℕ) : ℤ) + (nb : ℤ) = ((i * nb + nb : ℕ) : ℤ) := by
      intro i; push_cast; ring
    rw [ec, ec, pySlice_nat, pySlice_nat]
    have hij' : i * nb + nb ≤ j * nb := by
      have : (i + 1) * nb ≤ j * nb := Nat.mul_le_mul_right _ hij
      have e : (i + 1) * nb = i * nb + nb := by ring
      omega
    have hd := List.disjoint_take_drop hnd hij'
    intro x hx hy
    refine hd ?_ (List.mem_of_mem_take hy)
    rw [← List.drop_take] at hx
    exact List.mem_of_mem_drop hx


theorem rel_bound {fl : ℚ → ℚ} (h : IsRounding fl) {x : ℚ} (h0 : 0 ≤ x) {m : ℕ} (hm : 1 ≤ m) (hx : (m : ℚ) ≤ fl x) :
    (m : ℚ) ≤ x * (1 + 1 / 2 ^ 52) := by
  have hn := (abs_le.mp (h.near x)).2
  rw [abs_of_nonneg h0] at hn
  have hm' : (1 : ℚ) ≤ m := by exact_mod_cast hm
  have ht : (1 : ℚ) / 2 ^ 1075 ≤ 1 / 2 ^ 54 := by norm_num
  have hh : 1 / 2 ≤ x := by
    by_contra hc
    push Not at hc
    have : (1 : ℚ) / 2 ^ 54 ≤ 1 / 8 := by norm_num
    have : x / 2 ^ 53 ≤ 1 / 8 := by
      have : x / 2 ^ 53 ≤ (1 / 2) / 2 ^ 53 := by gcongr
      have : (1 / 2 : ℚ) / 2 ^ 53 ≤ 1 / 8 := by norm_num
      linarith
    linarith
  have hq : (1 : ℚ) / 2 ^ 54 ≤ x / 2 ^ 53 := by
    have : (1 / 2 : ℚ) / 2 ^ 53 ≤ x / 2 ^ 53 := by gcongr
    have e : (1 / 2 : ℚ) / 2 ^ 53 = 1 / 2 ^ 54 := by norm_num
    linarith
  have e : x * (1 + 1 / 2 ^ 52) = x + x / 2 ^ 53 + x / 2 ^ 53 := by ring
  linarith

theorem fits {fl : ℚ → ℚ} (h : IsRounding fl) {n nb k : ℕ} (hn : n ≤ 2 ^ 50) {ratio : ℚ} (h0 : 0 < ratio)
    (hnb : (nb : ℚ) ≤ fl (ratio * n)) (hk : (k : ℚ) ≤ fl (1 / ratio)) : nb * k ≤ n := by
  rcases Nat.eq_zero_or_pos nb with h1 | h1
  · simp [h1]
  rcases Nat.eq_zero_or_pos k with h2 | h2
  · simp [h2]
  have f1 := rel_bound h (by positivity) h1 hnb
  have f2 := rel_bound h (by positivity) h2 hk
  have f3 := mul_le_mul f1 f2 (by positivity) (by positivity)
  have f4 : ratio * n * (1 + 1 / 2 ^ 52) * (1 / ratio * (1 + 1 / 2 ^ 52)) = n + n * (1 / 2 ^ 51 + 1 / 2 ^ 104) := by
    field_simp; ring
  rw [f4] at f3
  have hn' : (n : ℚ) ≤ 2 ^ 50 := by exact_mod_cast hn
  have f5 : (n : ℚ) * (1 / 2 ^ 51 + 1 / 2 ^ 104) ≤ 2 ^ 50 * (1 / 2 ^ 51 + 1 / 2 ^ 104) := by gcongr
  have f6 : (2 : ℚ) ^ 50 * (1 / 2 ^ 51 + 1 / 2 ^ 104) < 1 := by norm_num
  have : ((nb * k : ℕ) : ℚ) < ((n + 1 : ℕ) : ℚ) := by push_cast; linarith
  have := Nat.cast_lt.mp this
  omega

theorem fl_nonneg {fl : ℚ → ℚ} (h : IsRounding fl) {x : ℚ} (h0 : 0 ≤ x) : 0 ≤ fl x := by
  have := h.mono 0 x h0
  have e := h.int 0 (by norm_num)
  simp only [Int.cast_zero] at e
  rwa [e] at this

theorem intFloat_ok {x : ℚ} (h0 : 0 ≤ x) (h : x < 2 ^ 1024) : intFloat x = .ok ⌊x⌋ := by
  unfold intFloat pyInt
  rw [abs_of_nonneg h0, if_neg (not_le.mpr h), if_neg (not_lt.mpr h0)]

/-- **C224.** Random splits with any rounding to nearest of the product and of the quotient, for at most `2 ^ 50` samples and
a positive ratio whose inverse does not overflow: whatever the shuffle, `ValueError` is raised when test sets would be
empty; otherwise the number of pairs is the integer part of the rounded inverse, each test set has the integer part of the
rounded product elements, train and test together contain each index exactly once, and test sets are disjoint: rounding up
never asks for more samples than there are. -/
theorem C224_splits {fl : ℚ → ℚ} (h : IsRounding fl) (n : ℕ) (hn : n ≤ 2 ^ 50) (ratio : ℚ) (h0 : 0 < ratio)
    (ho : fl (1 / ratio) < 2 ^ 1024) (ho' : fl (ratio * n) < 2 ^ 1024)
    (shuffled : List ℕ) (hp : shuffled.Perm (List.range n)) :
    (⌊fl (ratio * n)⌋ = 0 → randomSplitR fl n ratio shuffled = .error (.py .valueError)) ∧
    (⌊fl (ratio * n)⌋ ≠ 0 → ∃ r, randomSplitR fl n ratio shuffled = .ok r ∧
      (r.length : ℤ) = ⌊fl (1 / ratio)⌋ ∧
      (∀ s ∈ r, (s.2.length : ℤ) = ⌊fl (ratio * n)⌋ ∧ (s.1 ++ s.2).Perm (List.range n) ∧ List.Disjoint s.1 s.2) ∧
      r.Pairwise (fun s t => List.Disjoint s.2 t.2) ∧ ⌊fl (ratio * n)⌋ * ⌊fl (1 / ratio)⌋ ≤ n) := by
  have p1 : 0 ≤ fl (ratio * n) := fl_nonneg h (by positivity)
  have p2 : 0 ≤ fl (1 / ratio) := fl_nonneg h (by positivity)
  unfold randomSplitR
  simp only [intFloat_ok p1 ho', intFloat_ok p2 ho, bind, Except.bind]
  rw [if_neg h0.ne']
  constructor
  · intro hz
    rw [hz]
    rfl
  · intro hnz
    obtain ⟨nb, hnb⟩ : ∃ m : ℕ, ⌊fl (ratio * (n : ℚ))⌋ = m := ⟨_, (Int.toNat_of_nonneg (Int.floor_nonneg.mpr p1)).symm⟩
    obtain ⟨k, hk⟩ : ∃ m : ℕ, ⌊fl (1 / ratio)⌋ = m := ⟨_, (Int.toNat_of_nonneg (Int.floor_nonneg.mpr p2)).symm⟩
    have g1 : (nb : ℚ) ≤ fl (ratio * n) := by
      have := Int.floor_le (fl (ratio * (n : ℚ))); rw [hnb] at this; exact_mod_cast this
    have g2 : (k : ℚ) ≤ fl (1 / ratio) := by
      have := Int.floor_le (fl (1 / ratio)); rw [hk] at this; exact_mod_cast this
    have hle := fits h hn h0 g1 g2
    rw [hnb] at hnz
    obtain ⟨starts, e, hl, ha, hb⟩ := split_core n nb k shuffled hp (by omega) hle
    rw [hnb, hk, e]
    refine ⟨_, rfl, by rw [List.length_map, hl], ?_, hb, by exact_mod_cast hle⟩
    intro s hs
    obtain ⟨a1, a2, a3⟩ := ha s hs
    exact ⟨by rw [a1], a2, a3⟩

/-- **C224.** The integer part of a rounded positive number up to `2 ^ 52` is the integer part of the number, or the next
integer when this is what the number is rounded to, which needs a distance of at most one half unit in the last place.  This
gives sizes and numbers of test sets (`x` is `ratio * n` or `1 / ratio`). -/
theorem C224_sizes {fl : ℚ → ℚ} (h : IsRounding fl) (x : ℚ) (h0 : 0 ≤ x) (hx : x ≤ 2 ^ 52) :
    ⌊fl x⌋ = ⌊x⌋ ∨ (⌊fl x⌋ = ⌊x⌋ + 1 ∧ fl x = ⌊x⌋ + 1 ∧ (⌊x⌋ : ℚ) + 1 - x ≤ x / 2 ^ 53 + 1 / 2 ^ 1075) := by
  have hf0 : 0 ≤ ⌊x⌋ := Int.floor_nonneg.mpr h0
  have hf1 : ⌊x⌋ ≤ 2 ^ 52 := by
    have : (⌊x⌋ : ℚ) ≤ ((2 ^ 52 : ℤ) : ℚ) := by push_cast; exact (Int.floor_le x).trans hx
    exact_mod_cast this
  have e1 : fl (⌊x⌋ : ℚ) = ⌊x⌋ := h.int _ (by rw [abs_of_nonneg hf0]; omega)
  have e2 : fl ((⌊x⌋ : ℚ) + 1) = ⌊x⌋ + 1 := by
    have := h.int (⌊x⌋ + 1) (by rw [abs_of_nonneg (by omega)]; omega)
    push_cast at this
    exact this
  have l1 : (⌊x⌋ : ℚ) ≤ fl x := by rw [← e1]; exact h.mono _ _ (Int.floor_le x)
  have l2 : fl x ≤ (⌊x⌋ : ℚ) + 1 := by rw [← e2]; exact h.mono _ _ (Int.lt_floor_add_one x).le
  rcases l2.lt_or_eq with hl | he
  · left
    rw [Int.floor_eq_iff]
    exact ⟨l1, hl⟩
  · right
    refine ⟨?_, he, ?_⟩
    · rw [he, Int.floor_eq_iff]
      push_cast
      exact ⟨le_refl _, by linarith⟩
    · have := (abs_le.mp (h.near x)).2
      rw [he, abs_of_nonneg h0] at this
      exact this

/-- **C224.** Tiny ratios raise `OverflowError` since their inverse is infinite. -/
theorem C224_overflow {fl : ℚ → ℚ} (h : IsRounding fl) (n : ℕ) (hn : n ≤ 2 ^ 50) (ratio : ℚ) (h0 : 0 < ratio)
    (hr : ratio ≤ 1 / 2 ^ 1025) (shuffled : List ℕ) : randomSplitR fl n ratio shuffled = .error .overflow := by
  have p1 : 0 ≤ fl (ratio * n) := fl_nonneg h (by positivity)
  have hn' : (n : ℚ) ≤ 2 ^ 50 := by exact_mod_cast hn
  have b1 : ratio * n ≤ 1 := by
    have : ratio * n ≤ 1 / 2 ^ 1025 * 2 ^ 50 := mul_le_mul hr hn' (by positivity) (by positivity)
    have : (1 : ℚ) / 2 ^ 1025 * 2 ^ 50 ≤ 1 := by norm_num
    linarith
  have b2 : fl (ratio * n) ≤ 1 := by
    have := h.mono _ _ b1
    have e := h.int 1 (by norm_num)
    simp only [Int.cast_one] at e
    rwa [e] at this
  have b3 : fl (ratio * n) < 2 ^ 1024 := lt_of_le_of_lt b2 (by norm_num)
  have c1 : (2 : ℚ) ^ 1025 ≤ 1 / ratio := by
    rw [le_div_iff₀ h0]
    have : (2 : ℚ) ^ 1025 * ratio ≤ 2 ^ 1025 * (1 / 2 ^ 1025) := by gcongr
    have e : (2 : ℚ) ^ 1025 * (1 / 2 ^ 1025) = 1 := by norm_num
    linarith
  have c2 : (2 : ℚ) ^ 1024 ≤ fl (1 / ratio) := by
    have hn := (abs_le.mp (h.near (1 / ratio))).1
    rw [abs_of_nonneg (by positivity)] at hn
    have t : (1 : ℚ) / 2 ^ 1075 ≤ 1 := by norm_num
    have u : (1 / ratio) / 2 ^ 53 ≤ (1 / ratio) / 4 := by
      have : 0 < 1 / ratio := by positivity
      gcongr; norm_num
    have w : (2 : ℚ) ^ 1024 + 1 ≤ 2 ^ 1025 * (3 / 4) := by norm_num
    linarith
  unfold randomSplitR
  simp only [intFloat_ok p1 b3, bind, Except.bind]
  rw [if_neg h0.ne']
  unfold intFloat
  rw [if_pos (by rw [abs_of_nonneg (by linarith [c2, (by positivity : (0 : ℚ) < 2 ^ 1024)])]; exact c2)]

/-- **C224.** With doubles, the ratio which is the float `1 / 49` raises `ValueError` on 49 samples and leaves test sets of one
sample on 98, and the float `1 / 93` gives 92 pairs on 93 samples: one sample is never tested. -/
theorem C224_lost (l : List ℕ) :
    (l.Perm (List.range 49) → randomSplitR dbl 49 (dbl (1 / 49)) l = .error (.py .valueError)) ∧
    (l.Perm (List.range 98) → ∃ r, randomSplitR dbl 98 (dbl (1 / 49)) l = .ok r ∧ r.length = 49 ∧
      ∀ s ∈ r, s.2.length = 1) ∧
    (l.Perm (List.range 93) → ∃ r, randomSplitR dbl 93 (dbl (1 / 93)) l = .ok r ∧ r.length = 92 ∧
      (∀ s ∈ r, s.2.length = 1)) := by
  have hI := isRounding_dbl
  have k1 : 0 < dbl (1 / 49) ∧ dbl (1 / dbl (1 / 49)) < 2 ^ 1024 ∧ dbl (dbl (1 / 49) * (49 : ℕ)) < 2 ^ 1024 ∧
      ⌊dbl (dbl (1 / 49) * (49 : ℕ))⌋ = 0 := by decide +kernel
  have k2 : dbl (dbl (1 / 49) * (98 : ℕ)) < 2 ^ 1024 ∧
      ⌊dbl (dbl (1 / 49) * (98 : ℕ))⌋ = 1 ∧ ⌊dbl (1 / dbl (1 / 49))⌋ = 49 := by decide +kernel
  have k3 : 0 < dbl (1 / 93) ∧ dbl (1 / dbl (1 / 93)) < 2 ^ 1024 ∧ dbl (dbl (1 / 93) * (93 : ℕ)) < 2 ^ 1024 ∧
      ⌊dbl (dbl (1 / 93) * (93 : ℕ))⌋ = 1 ∧ ⌊dbl (1 / dbl (1 / 93))⌋ = 92 := by decide +kernel
  refine ⟨fun hp => ?_, fun hp => ?_, fun hp => ?_⟩
  · exact (C224_splits hI 49 (by norm_num) _ k1.1 k1.2.1 k1.2.2.1 l hp).1 k1.2.2.2
  · obtain ⟨r, e, hl, hs, -, -⟩ := (C224_splits hI 98 (by norm_num) _ k1.1 k1.2.1 k2.1 l hp).2 (by rw [k2.2.1]; norm_num)
    rw [k2.2.2] at hl
    refine ⟨r, e, by exact_mod_cast hl, fun s h => ?_⟩
    have := (hs s h).1
    rw [k2.2.1] at this
    exact_mod_cast this
  · obtain ⟨r, e, hl, hs, -, -⟩ := (C224_splits hI 93 (by norm_num) _ k3.1 k3.2.1 k3.2.2.1 l hp).2
      (by rw [k3.2.2.2.1]; norm_num)
    rw [k3.2.2.2.2] at hl
    refine ⟨r, e, by exact_mod_cast hl, fun s h => ?_⟩
    have := (hs s h).1
    rw [k3.2.2.2.1] at this
    exact_mod_cast this

/-- Without rounding the model is the one of `C23`. -/
theorem C224_exact (n : ℕ) (ratio : ℚ) (h0 : ratio ≠ 0) (h1 : |ratio * n| < 2 ^ 1024) (h2 : |1 / ratio| < 2 ^ 1024)
    (l : List ℕ) (r : List (List ℕ × List ℕ)) :
    randomSplitR id n ratio l = .ok r ↔ randomSplit n ratio l = .ok r := by
  unfold randomSplitR randomSplit intFloat
  simp only [id, if_neg (not_le.mpr h1), if_neg (not_le.mpr h2), if_neg h0, bind, Except.bind]
  cases pyRange 0 (pyInt (ratio * n) * pyInt (1 / ratio)) (pyInt (ratio * n)) with
  | error e => simp
  | ok s => simp [pure, Except.pure]

example : randomSplitR dbl 10 (dbl (3 / 10)) [6, 0, 5, 1, 4, 2, 3, 7, 9, 8] =
    .ok [([1, 4, 2, 3, 7, 9, 8], [6, 0, 5]), ([6, 0, 5, 3, 7, 9, 8], [1, 4, 2]), ([6, 0, 5, 1, 4, 2, 8], [3, 7, 9])] ∧
    randomSplit 10 (dbl (3 / 10)) [6, 0, 5, 1, 4, 2, 3, 7, 9, 8] =
    .ok [([5, 1, 4, 2, 3, 7, 9, 8], [6, 0]), ([6, 0, 4, 2, 3, 7, 9, 8], [5, 1]), ([6, 0, 5, 1, 3, 7, 9, 8], [4, 2])] ∧
    randomSplitR dbl 10 0 [] = .error (.py .zeroDivisionError) := by
  refine ⟨?_, ?_, ?_⟩ <;> decide +kernel

end Verif.Utils
