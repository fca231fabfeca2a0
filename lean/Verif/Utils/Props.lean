import Verif.Utils.Model
import Mathlib.Tactic.Ring
import Mathlib.Tactic.Linarith
import Mathlib.Tactic.FieldSimp
import Mathlib.Tactic.Positivity
import Mathlib.Data.Fin.VecNotation
import Mathlib.Data.List.Lex
import Mathlib.Data.List.Rotate
import Mathlib.Algebra.BigOperators.Group.List.Basic

/-!
# Properties C23-C28: `multimodal/lib/utils.py`
-/

namespace Verif.Utils

open Verif

theorem pyFrom_nat {α : Type*} (l : List α) (i : ℕ) : pyFrom l (i : ℤ) = l.drop i := by
  unfold pyFrom
  rw [pyBound_nonneg (by omega), Int.toNat_natCast]
  rcases le_total l.length i with h | h
  · rw [min_eq_right h, List.drop_eq_nil_of_le h, List.drop_eq_nil_of_le le_rfl]
  · rw [min_eq_left h]

theorem pyUpto_nat {α : Type*} (l : List α) (i : ℕ) : pyUpto l (i : ℤ) = l.take i := by
  unfold pyUpto
  rw [pyBound_nonneg (by omega), Int.toNat_natCast]
  rcases le_total l.length i with h | h
  · rw [min_eq_right h, List.take_of_length_le h, List.take_of_length_le le_rfl]
  · rw [min_eq_left h]

theorem pyBound_neg {n i : ℕ} (h0 : 0 < i) (h : i ≤ n) : pyBound n (-(i : ℤ)) = n - i := by
  unfold pyBound
  rw [if_pos (by omega)]
  omega

/-! ## C23, C24: train and test sets -/

/-- **C23.** Random splits: for a positive ratio and whatever the shuffle, the call raises
`ValueError` when test sets would be empty; otherwise there are `⌊1/ratio⌋` pairs, in each of them
the test set has `⌊ratio * n⌋` elements and train and test together contain each index of
`range(n)` exactly once (hence are disjoint); test sets of different pairs are disjoint. -/
theorem C23_random_split (n : ℕ) (ratio : ℚ) (h0 : 0 < ratio)
    (shuffled : List ℕ) (hp : shuffled.Perm (List.range n)) :
    (⌊ratio * n⌋ = 0 → randomSplit n ratio shuffled = .error .valueError) ∧
    (⌊ratio * n⌋ ≠ 0 → ∃ r, randomSplit n ratio shuffled = .ok r ∧
      (r.length : ℤ) = ⌊1 / ratio⌋ ∧
      (∀ s ∈ r, (s.2.length : ℤ) = ⌊ratio * n⌋ ∧ (s.1 ++ s.2).Perm (List.range n) ∧
        List.Disjoint s.1 s.2) ∧
      r.Pairwise (fun s t => List.Disjoint s.2 t.2)) := by
  have hn0 : (0 : ℚ) ≤ ratio * n := by positivity
  have hi0 : (0 : ℚ) ≤ 1 / ratio := by positivity
  have e1 : pyInt (ratio * n) = ⌊ratio * n⌋ := by unfold pyInt; rw [if_neg (not_lt.mpr hn0)]
  have e2 : pyInt (1 / ratio) = ⌊1 / ratio⌋ := by unfold pyInt; rw [if_neg (not_lt.mpr hi0)]
  unfold randomSplit
  simp only [e1, e2]
  rw [if_neg h0.ne']
  constructor
  · intro hz
    rw [hz]
    rfl
  · intro hnz
    have hf0 : 0 ≤ ⌊ratio * n⌋ := Int.floor_nonneg.mpr hn0
    have hk0 : 0 ≤ ⌊1 / ratio⌋ := Int.floor_nonneg.mpr hi0
    obtain ⟨nb, hnb⟩ : ∃ m : ℕ, ⌊ratio * (n : ℚ)⌋ = m := ⟨_, (Int.toNat_of_nonneg hf0).symm⟩
    obtain ⟨k, hk⟩ : ∃ m : ℕ, ⌊1 / ratio⌋ = m := ⟨_, (Int.toNat_of_nonneg hk0).symm⟩
    rw [hnb, hk]
    have hnbpos : 0 < nb := by
      rcases Nat.eq_zero_or_pos nb with h | h
      · rw [hnb, h] at hnz; simp at hnz
      · exact h
    have hle : nb * k ≤ n := by
      have f1 : (nb : ℚ) ≤ ratio * n := by
        have := Int.floor_le (ratio * (n : ℚ)); rw [hnb] at this; exact_mod_cast this
      have f2 : (k : ℚ) ≤ 1 / ratio := by
        have := Int.floor_le (1 / ratio); rw [hk] at this; exact_mod_cast this
      have f3 : (nb : ℚ) * k ≤ (ratio * n) * (1 / ratio) :=
        mul_le_mul f1 f2 (by positivity) (by positivity)
      have f4 : (ratio * n) * (1 / ratio) = n := by field_simp
      rw [f4] at f3
      exact_mod_cast f3
    have hlen : shuffled.length = n := by rw [hp.length_eq, List.length_range]
    have hnd : shuffled.Nodup := hp.nodup_iff.mpr List.nodup_range
    have hrange : pyRange 0 ((nb : ℤ) * (k : ℤ)) nb =
        .ok ((List.range k).map fun (i : ℕ) => ((i * nb : ℕ) : ℤ)) := by
      unfold pyRange
      rw [if_neg (by omega), if_pos (by omega)]
      have hc : ((nb : ℤ) * (k : ℤ) - 0 + nb - 1) / nb = k := by
        have : (nb : ℤ) * (k : ℤ) - 0 + nb - 1 = (nb - 1) + k * nb := by ring
        rw [this, Int.add_mul_ediv_right _ _ (by omega), Int.ediv_eq_zero_of_lt (by omega) (by omega)]
        ring
      simp only [hc, Int.toNat_natCast]
      congr 1
      apply List.map_congr_left
      intro i _
      push_cast; ring
    rw [hrange]
    simp only [bind, Except.bind, pure, Except.pure]
    refine ⟨_, rfl, by simp, ?_, ?_⟩
    · intro s hs
      simp only [List.map_map, List.mem_map, List.mem_range, Function.comp_apply] at hs
      obtain ⟨i, hi, rfl⟩ := hs
      have hle' : i * nb + nb ≤ n := by
        have : (i + 1) * nb ≤ k * nb := Nat.mul_le_mul_right _ hi
        rw [Nat.mul_comm k nb] at this
        have e : (i + 1) * nb = i * nb + nb := by ring
        omega
      have ec : ((i * nb : ℕ) : ℤ) + (nb : ℤ) = ((i * nb + nb : ℕ) : ℤ) := by push_cast; ring
      rw [ec, pyUpto_nat, pyFrom_nat, pySlice_nat]
      have e3 : i * nb + nb - i * nb = nb := by omega
      rw [e3]
      have hperm : (shuffled.take (i * nb) ++ shuffled.drop (i * nb + nb) ++
          (shuffled.drop (i * nb)).take nb).Perm shuffled := by
        have hsplit : shuffled = shuffled.take (i * nb) ++ ((shuffled.drop (i * nb)).take nb ++
            shuffled.drop (i * nb + nb)) := by
          rw [← List.drop_drop, List.take_append_drop, List.take_append_drop]
        conv_rhs => rw [hsplit]
        rw [List.append_assoc]
        exact List.Perm.append_left _ List.perm_append_comm
      refine ⟨?_, hperm.trans hp, ?_⟩
      · simp only [List.length_take, List.length_drop, hlen]
        omega
      · have := hperm.nodup_iff.mpr hnd
        exact List.disjoint_of_nodup_append this
    · rw [List.map_map, List.pairwise_map]
      refine List.Pairwise.imp ?_ (List.pairwise_lt_range (n := k))
      intro i j hij
      simp only [Function.comp_apply]
      have ec : ∀ i : ℕ, ((i * nb : ℕ) : ℤ) + (nb : ℤ) = ((i * nb + nb : ℕ) : ℤ) := by
        intro i; push_cast; ring
      rw [ec, ec, pySlice_nat, pySlice_nat]
      have hij' : i * nb + nb ≤ j * nb := by
        have : (i + 1) * nb ≤ j * nb := Nat.mul_le_mul_right _ hij
        have e : (i + 1) * nb = i * nb + nb := by ring
        omega
      have hd := List.disjoint_take_drop hnd hij'
      intro x hx hy
      refine hd ?_ (List.mem_of_mem_take hy)
      rw [← List.drop_take] at hx
      exact List.mem_of_mem_drop hx

example : randomSplit 7 (3 / 10) [6, 0, 5, 1, 4, 2, 3] =
    .ok [([5, 1, 4, 2, 3], [6, 0]), ([6, 0, 4, 2, 3], [5, 1]), ([6, 0, 5, 1, 3], [4, 2])] ∧
    randomSplit 3 (3 / 10) [1, 0, 2] = .error .valueError := by
  constructor <;> decide +kernel

/-- **C24.** Leave-one-out: `n` pairs; the `i`-th tests on `i` only and trains on all the other
indices in increasing order. -/
theorem C24_leave_one_out (n : ℕ) :
    (leaveOneOut n).length = n ∧
    ∀ (i : ℕ) (s : List ℕ × List ℕ), (leaveOneOut n)[i]? = some s →
      s.2 = [i] ∧ s.1.Pairwise (· < ·) ∧ ∀ j, j ∈ s.1 ↔ j < n ∧ j ≠ i := by
  refine ⟨by simp [leaveOneOut], ?_⟩
  intro i s hs
  unfold leaveOneOut at hs
  rw [List.getElem?_map, Option.map_eq_some_iff] at hs
  obtain ⟨j, hj, rfl⟩ := hs
  rw [List.getElem?_eq_some_iff] at hj
  obtain ⟨h1, h2⟩ := hj
  rw [List.getElem_range] at h2
  subst h2
  refine ⟨rfl, ?_, ?_⟩
  · exact List.Pairwise.filter _ List.pairwise_lt_range
  · intro j
    simp

example : leaveOneOut 3 = [([1, 2], [0]), ([0, 2], [1]), ([0, 1], [2])] := by decide +kernel

/-! ## C25: delayed velocities -/

theorem getElem?_zipWith_sub {d : ℕ} (a b : List (Fin d → ℚ)) (h : a.length = b.length) (i : ℕ)
    (hi : i < a.length) :
    (List.zipWith (· - ·) a b)[i]? = some (a[i] - b.getD i 0) := by
  rw [List.getElem?_zipWith, List.getElem?_eq_getElem hi,
    List.getElem?_eq_getElem (by omega), List.getD_eq_getElem?_getD,
    List.getElem?_eq_getElem (by omega)]
  rfl

/-- **C25**, circular padding: with `delay` clamped to `[-n, n]`, the result has the shape of the
input and its `i`-th row is `positions[i] - positions[(i - delay) mod n]`. -/
theorem C25_delayed_circular {d : ℕ} (delay : ℤ) (positions : List (Fin d → ℚ)) :
    ∃ r, delayedVelocities delay positions "circular" = .ok r ∧ r.length = positions.length ∧
      ∀ (i : ℕ) (hi : i < positions.length),
        r[i]? = some (positions[i] - positions.getD
          ((((i : ℤ) - max (-(positions.length : ℤ)) (min delay positions.length)) %
            (positions.length : ℤ)).toNat) 0) := by
  unfold delayedVelocities
  simp only [if_true, bind, Except.bind]
  set n := positions.length with hn
  -- the slided array is a rotation
  have hrot : ∃ m : ℕ, m ≤ n ∧
      pyFrom positions (-(if delay > (n : ℤ) then (n : ℤ) else delay)) ++
        pyUpto positions (-(if delay > (n : ℤ) then (n : ℤ) else delay)) = positions.rotate m ∧
      ∀ i : ℕ, i < n → (((i : ℤ) - max (-(n : ℤ)) (min delay n)) % (n : ℤ)) =
        (((i + m) % n : ℕ) : ℤ) := by
    set D : ℤ := if delay > (n : ℤ) then (n : ℤ) else delay with hD
    have hDmin : D = min delay n := by
      rw [hD]; split_ifs with h
      · rw [min_eq_right (le_of_lt h)]
      · rw [min_eq_left (not_lt.mp h)]
    rw [← hDmin]
    have hDle : D ≤ n := by rw [hDmin]; exact min_le_right _ _
    rcases lt_trichotomy D 0 with hlt | heq | hgt
    · -- forward shift
      obtain ⟨k, hk⟩ : ∃ k : ℕ, -D = k := ⟨(-D).toNat, by omega⟩
      refine ⟨min k n, min_le_right _ _, ?_, ?_⟩
      · rw [hk, pyFrom_nat, pyUpto_nat, List.rotate_eq_drop_append_take (by omega)]
        rcases le_total n k with h | h
        · rw [min_eq_right h, List.drop_eq_nil_of_le h, List.take_of_length_le h,
            List.drop_eq_nil_of_le hn.ge, List.take_of_length_le hn.ge]
        · rw [min_eq_left h]
      · intro i _
        have e : (i : ℤ) - max (-(n : ℤ)) D = ((i + min k n : ℕ) : ℤ) := by push_cast; omega
        rw [e]; push_cast; rfl
    · refine ⟨0, by omega, ?_, ?_⟩
      · rw [heq]
        have e : (-(0 : ℤ)) = ((0 : ℕ) : ℤ) := by simp
        rw [e, pyFrom_nat, pyUpto_nat]
        simp
      · intro i _
        rw [heq]
        have e : (i : ℤ) - max (-(n : ℤ)) 0 = ((i + 0 : ℕ) : ℤ) := by push_cast; omega
        rw [e]; push_cast; rfl
    · obtain ⟨k, hk⟩ : ∃ k : ℕ, D = k := ⟨D.toNat, by omega⟩
      have hkn : k ≤ n := by omega
      refine ⟨n - k, by omega, ?_, ?_⟩
      · rw [hk]
        unfold pyFrom pyUpto
        rw [pyBound_neg (by omega) (by omega), List.rotate_eq_drop_append_take (by omega)]
      · intro i _
        have e : (i : ℤ) - max (-(n : ℤ)) D + (n : ℤ) * 1 = ((i + (n - k) : ℕ) : ℤ) := by
          push_cast; omega
        rw [← Int.add_mul_emod_self_left _ _ 1, e]
        push_cast; rfl
  obtain ⟨m, hm, h1, h2⟩ := hrot
  rw [h1]
  unfold subRows
  rw [if_pos (by rw [List.length_rotate])]
  refine ⟨_, rfl, by simp [hn], ?_⟩
  intro i hi
  rw [getElem?_zipWith_sub _ _ (by rw [List.length_rotate]) i hi, h2 i hi, Int.toNat_natCast]
  congr 2
  rw [List.getD_eq_getElem?_getD, List.getD_eq_getElem?_getD,
    List.getElem?_eq_getElem (by rw [List.length_rotate]; exact hi),
    List.getElem?_eq_getElem (Nat.mod_lt _ (by omega)), List.getElem_rotate]

/-- **C25**, zero padding with a positive delay: rows before the start are null. -/
theorem C25_delayed_zeros {d : ℕ} (delay : ℕ) (hd : 0 < delay) (positions : List (Fin d → ℚ)) :
    ∃ r, delayedVelocities delay positions "zeros" = .ok r ∧ r.length = positions.length ∧
      ∀ (i : ℕ) (hi : i < positions.length),
        r[i]? = some (positions[i] -
          if i < delay then 0 else positions.getD (i - delay) 0) := by
  unfold delayedVelocities
  simp only [bind, Except.bind]
  rw [if_neg (by decide), if_pos trivial]
  set n := positions.length with hn
  obtain ⟨k, hk, hkn⟩ : ∃ k : ℕ, (if (delay : ℤ) > (n : ℤ) then (n : ℤ) else (delay : ℤ)) = k ∧
      k = min delay n := by
    refine ⟨min delay n, ?_, rfl⟩
    split_ifs <;> push_cast <;> omega
  rw [hk, if_neg (by omega), Int.toNat_natCast]
  have hup : pyUpto positions (-(k : ℤ)) = positions.take (n - k) := by
    rcases Nat.eq_zero_or_pos k with h0 | h0
    · have : n = 0 := by omega
      have hnil : positions = [] := List.length_eq_zero_iff.mp (hn.symm.trans this)
      rw [hnil]; simp [pyUpto]
    · unfold pyUpto
      rw [pyBound_neg h0 (by omega)]
  rw [hup]
  have hlen : (List.replicate k (0 : Fin d → ℚ) ++ positions.take (n - k)).length = n := by
    rw [List.length_append, List.length_replicate, List.length_take, ← hn]; omega
  unfold subRows
  rw [if_pos (by rw [hlen])]
  refine ⟨_, rfl, by rw [List.length_zipWith, hlen]; simp [hn], ?_⟩
  intro i hi
  rw [getElem?_zipWith_sub _ _ (by rw [hlen]) i hi]
  congr 2
  rw [List.getD_eq_getElem?_getD, List.getElem?_append, List.length_replicate]
  by_cases h : i < delay
  · rw [if_pos h, if_pos (by omega), List.getElem?_replicate, if_pos (by omega)]
    rfl
  · rw [if_neg h, if_neg (by omega), List.getElem?_take, if_pos (by omega),
      List.getD_eq_getElem?_getD]
    congr 3
    omega

/-- **C25**, remaining cases: other paddings and negative delays with zero padding raise
`ValueError`; a null delay with zero padding raises `ValueError` for two or more rows and loses the
row for one row. -/
theorem C25_delayed_failures {d : ℕ} (delay : ℤ) (positions : List (Fin d → ℚ)) (padding : String) :
    (padding ≠ "circular" → padding ≠ "zeros" →
      delayedVelocities delay positions padding = .error .valueError) ∧
    (delay < 0 → delayedVelocities delay positions "zeros" = .error .valueError) ∧
    (2 ≤ positions.length → delayedVelocities 0 positions "zeros" = .error .valueError) ∧
    (positions.length ≤ 1 → delayedVelocities 0 positions "zeros" = .ok []) := by
  have hz : pyUpto positions (-(0 : ℤ)) = [] := by
    have e : (-(0 : ℤ)) = ((0 : ℕ) : ℤ) := by simp
    rw [e, pyUpto_nat, List.take_zero]
  refine ⟨?_, ?_, ?_, ?_⟩
  · intro h1 h2
    unfold delayedVelocities
    rw [if_neg h1, if_neg h2]
  · intro h
    unfold delayedVelocities
    simp only []
    rw [if_neg (by decide), if_pos trivial, if_neg (by omega : ¬ delay > (positions.length : ℤ)),
      if_pos h]
  · intro h
    unfold delayedVelocities
    simp only []
    rw [if_neg (by decide), if_pos trivial, if_neg (by omega : ¬ (0 : ℤ) > (positions.length : ℤ)),
      if_neg (by omega), hz]
    simp only [Int.toNat_zero, List.replicate_zero, List.nil_append]
    unfold subRows
    rw [if_neg (by simp; rintro rfl; simp at h)]
    match positions, h with
    | x :: y :: l, _ => rfl
  · intro h
    unfold delayedVelocities
    simp only []
    rw [if_neg (by decide), if_pos trivial, if_neg (by omega : ¬ (0 : ℤ) > (positions.length : ℤ)),
      if_neg (by omega), hz]
    match positions, h with
    | [], _ => rfl
    | [x], _ => rfl

example : (delayedVelocities 2 [![1], ![2], ![4], ![8]] "circular" : Py (List (Fin 1 → ℚ))) =
      .ok [![-3], ![-6], ![3], ![6]] ∧
    (delayedVelocities 2 [![1], ![2], ![4], ![8]] "zeros" : Py (List (Fin 1 → ℚ))) =
      .ok [![1], ![2], ![3], ![6]] := by
  constructor <;> decide +kernel

/-! ## C26: velocities and continuity filter -/

/-- **C26.** Velocities: the array must not be empty; the `i`-th row is the difference to the next
row (cyclically), so that each column sums to zero. -/
theorem C26_velocities {d : ℕ} (positions : List (Fin d → ℚ)) :
    (positions = [] → velocities positions = .error .indexError) ∧
    (positions ≠ [] → ∃ r, velocities positions = .ok r ∧ r.length = positions.length ∧
      (∀ (i : ℕ) (hi : i < positions.length),
        r[i]? = some (positions.getD ((i + 1) % positions.length) 0 - positions[i])) ∧
      ∀ j, (r.map fun row => row j).sum = 0) := by
  constructor
  · rintro rfl; rfl
  · intro hne
    cases hpos : positions with
    | nil => exact absurd hpos hne
    | cons x xs =>
      unfold velocities
      have hget : pyGet (x :: xs) 0 = .ok x := pyGet_nat (x :: xs) 0 (by simp)
      have hfrom : pyFrom (x :: xs) 1 = xs := pyFrom_nat (x :: xs) 1
      rw [hget, hfrom]
      simp only [bind, Except.bind]
      unfold subRows
      rw [if_pos (by simp)]
      refine ⟨_, rfl, by simp, ?_, ?_⟩
      · intro i hi
        have hlen : (xs ++ [x]).length = (x :: xs).length := by simp
        rw [getElem?_zipWith_sub _ _ hlen i (by rw [hlen]; exact hi)]
        congr 1
        have e1 : (x :: xs).getD i 0 = (x :: xs)[i] := by
          rw [List.getD_eq_getElem?_getD, List.getElem?_eq_getElem hi]; rfl
        rw [e1]
        congr 1
        simp only [List.length_cons] at hi ⊢
        rw [List.getElem_append, List.getD_eq_getElem?_getD]
        by_cases h : i < xs.length
        · rw [dif_pos h, Nat.mod_eq_of_lt (by omega), List.getElem?_cons_succ,
            List.getElem?_eq_getElem h]
          rfl
        · have : i = xs.length := by omega
          subst this
          rw [dif_neg h, Nat.mod_self]
          simp
      · intro j
        have key : ∀ (a b : List (Fin d → ℚ)), a.length = b.length →
            ((List.zipWith (· - ·) a b).map fun row => row j).sum =
              (a.map fun row => row j).sum - (b.map fun row => row j).sum := by
          intro a
          induction a with
          | nil =>
            intro b hb
            cases b with
            | nil => simp
            | cons => simp at hb
          | cons u us ih =>
            intro b hb
            cases b with
            | nil => simp at hb
            | cons v vs =>
              simp only [List.zipWith_cons_cons, List.map_cons, List.sum_cons, Pi.sub_apply]
              rw [ih vs (by simpa using hb)]
              ring
        rw [key _ _ (by simp)]
        simp only [List.map_append, List.sum_append, List.map_cons, List.map_nil, List.sum_cons,
          List.sum_nil]
        ring

example : (velocities [![1], ![2], ![4]] : Py (List (Fin 1 → ℚ))) = .ok [![1], ![2], ![-3]] := by
  decide +kernel

/-- **C26.** Continuity filter: each row is the mean of itself and its two neighbours, the first
and last rows being repeated; hence the values of each column stay between any bounds on that
column (in particular constant columns are unchanged). -/
theorem C26_filter_cont {d : ℕ} (data : List (Fin d → ℚ)) :
    (data = [] → filterCont data = .error .indexError) ∧
    (data ≠ [] → ∃ r, filterCont data = .ok r ∧ r.length = data.length ∧
      (∀ (i : ℕ) (j : Fin d) (hi : i < data.length), ∃ row, r[i]? = some row ∧
        row j = (data.getD (i - 1) 0 j + data[i] j +
          data.getD (min (i + 1) (data.length - 1)) 0 j) / 3) ∧
      ∀ (j : Fin d) (lo hi : ℚ), (∀ row ∈ data, lo ≤ row j ∧ row j ≤ hi) →
        ∀ row ∈ r, lo ≤ row j ∧ row j ≤ hi) := by
  constructor
  · rintro rfl; rfl
  · intro hne
    have hpos : 0 < data.length := List.length_pos_iff.mpr hne
    have hfirst : pyGet data 0 = .ok data[0] := pyGet_nat data 0 hpos
    have hlast : pyGet data (-1) = .ok (data[data.length - 1]) := by
      unfold pyGet
      rw [if_pos (by omega), if_neg (by omega)]
      have e : ((-1 : ℤ) + data.length).toNat = data.length - 1 := by omega
      rw [e, List.getElem?_eq_getElem (by omega)]
    unfold filterCont
    rw [hfirst, hlast]
    simp only [bind, Except.bind, pure, Except.pure]
    set l1 : List (Fin d → ℚ) := [data[0]] ++ data ++ [data[data.length - 1]] with hl1
    have hlen1 : l1.length = data.length + 2 := by simp [hl1]
    have h2 : pyUpto l1 (-2) = l1.take data.length := by
      unfold pyUpto
      have := pyBound_neg (n := l1.length) (i := 2) (by omega) (by omega)
      push_cast at this
      rw [this, hlen1]
      rfl
    have h3 : pyFrom l1 2 = l1.drop 2 := pyFrom_nat l1 2
    have h1 : pySlice l1 1 (-1) = data := by
      unfold pySlice
      have e1 := pyBound_neg (n := l1.length) (i := 1) (by omega) (by omega)
      push_cast at e1
      have e2 : pyBound l1.length 1 = 1 := by
        rw [pyBound_nonneg (by omega)]; simp [hlen1]
      rw [e1, e2, hlen1, hl1]
      simp
    rw [h2, h3, h1]
    have hg : ∀ k : ℕ, k < data.length + 2 → l1[k]? =
        some (data.getD (min (k - 1) (data.length - 1)) 0) := by
      intro k hk
      rw [hl1, List.append_assoc, List.getElem?_append]
      simp only [List.length_singleton]
      by_cases hk0 : k < 1
      · have : k = 0 := by omega
        subst this
        rw [if_pos (by omega)]
        simp [List.getD_eq_getElem?_getD, hpos]
      · rw [if_neg hk0, List.getElem?_append]
        by_cases hk1 : k - 1 < data.length
        · rw [if_pos hk1, min_eq_left (by omega), List.getD_eq_getElem?_getD,
            List.getElem?_eq_getElem hk1]
          rfl
        · have : k - 1 = data.length := by omega
          have hd : data[data.length - 1]? = some data[data.length - 1] :=
            List.getElem?_eq_getElem (by omega)
          rw [if_neg hk1, this, min_eq_right (by omega), List.getD_eq_getElem?_getD, hd]
          simp only [Nat.sub_self, List.getElem?_cons_zero, Option.getD_some]
    have hrow : ∀ (i : ℕ) (hi : i < data.length),
        (List.zipWith (fun x y => fun j => (x j + y j) / 3) data
          (List.zipWith (· + ·) (l1.take data.length) (l1.drop 2)))[i]? =
        some (fun j => (data[i] j + (data.getD (i - 1) 0 j +
          data.getD (min (i + 1) (data.length - 1)) 0 j)) / 3) := by
      intro i hi
      rw [List.getElem?_zipWith, List.getElem?_zipWith, List.getElem?_take, if_pos hi,
        List.getElem?_drop, hg i (by omega), hg (2 + i) (by omega), List.getElem?_eq_getElem hi]
      have e1 : min (i - 1) (data.length - 1) = i - 1 := by omega
      have e2 : min (2 + i - 1) (data.length - 1) = min (i + 1) (data.length - 1) := by omega
      rw [e1, e2]
      rfl
    have hlenr : (List.zipWith (fun x y => fun j => (x j + y j) / 3) data
          (List.zipWith (· + ·) (l1.take data.length) (l1.drop 2))).length = data.length := by
      simp only [List.length_zipWith, List.length_take, List.length_drop, hlen1]
      omega
    refine ⟨_, rfl, hlenr, ?_, ?_⟩
    · intro i j hi
      exact ⟨_, hrow i hi, by ring⟩
    · intro j lo up hb row hmem
      obtain ⟨i, hi', rfl⟩ := List.getElem_of_mem hmem
      have hi : i < data.length := by rw [hlenr] at hi'; exact hi'
      have hr := hrow i hi
      rw [List.getElem?_eq_getElem hi', Option.some.injEq] at hr
      rw [hr]
      have hmemD : ∀ k, k < data.length → lo ≤ data.getD k 0 j ∧ data.getD k 0 j ≤ up := by
        intro k hk
        rw [List.getD_eq_getElem?_getD, List.getElem?_eq_getElem hk]
        exact hb _ (List.getElem_mem hk)
      have b1 := hb data[i] (List.getElem_mem hi)
      have b2 := hmemD (i - 1) (by omega)
      have b3 := hmemD (min (i + 1) (data.length - 1)) (by omega)
      constructor
      · rw [le_div_iff₀ (by norm_num)]; linarith [b1.1, b2.1, b3.1]
      · rw [div_le_iff₀ (by norm_num)]; linarith [b1.2, b2.2, b3.2]

example : (filterCont [![3], ![6], ![0]] : Py (List (Fin 1 → ℚ))) = .ok [![4], ![3], ![2]] := by
  decide +kernel

/-! ## C27: value filtering and normalisation -/

/-- **C27.** Bounding values: the result is in the bounds, values already inside are unchanged,
and the function is monotone and idempotent. -/
theorem C27_filter_bound (inf sup : ℚ) (h : inf ≤ sup) :
    (∀ x, inf ≤ filterBound x inf sup ∧ filterBound x inf sup ≤ sup) ∧
    (∀ x, inf ≤ x → x ≤ sup → filterBound x inf sup = x) ∧
    (∀ x, x ≤ inf → filterBound x inf sup = inf) ∧ (∀ x, sup ≤ x → filterBound x inf sup = sup) ∧
    (∀ x y, x ≤ y → filterBound x inf sup ≤ filterBound y inf sup) ∧
    (∀ x, filterBound (filterBound x inf sup) inf sup = filterBound x inf sup) := by
  unfold filterBound
  have hb : ∀ x, inf ≤ max (min x sup) inf ∧ max (min x sup) inf ≤ sup := fun x =>
    ⟨le_max_right _ _, max_le (min_le_right _ _) h⟩
  have hid : ∀ x, inf ≤ x → x ≤ sup → max (min x sup) inf = x := by
    intro x h1 h2
    rw [min_eq_left h2, max_eq_left h1]
  refine ⟨hb, hid, ?_, ?_, ?_, ?_⟩
  · intro x hx
    rw [min_eq_left (hx.trans h), max_eq_right hx]
  · intro x hx
    rw [min_eq_right hx, max_eq_left h]
  · intro x y hxy
    exact max_le_max (min_le_min hxy le_rfl) le_rfl
  · intro x
    exact hid _ (hb x).1 (hb x).2

/-- **C27.** Normalisation: the divisor is never zero; on `low < up` it is the increasing affine
map sending `low` to 0 and `up` to 1, so it sends `[low, up]` into `[0, 1]`; when both bounds are
equal it only subtracts `low`. -/
theorem C27_normalize (low up : ℚ) :
    (low < up → manualyNormalize low up low = 0 ∧ manualyNormalize low up up = 1 ∧
      (∀ x, manualyNormalize low up x * (up - low) = x - low) ∧
      (∀ x, low ≤ x → x ≤ up → 0 ≤ manualyNormalize low up x ∧ manualyNormalize low up x ≤ 1) ∧
      (∀ x y, x < y → manualyNormalize low up x < manualyNormalize low up y)) ∧
    (low = up → ∀ x, manualyNormalize low up x = x - low) := by
  constructor
  · intro h
    have hne : up - low ≠ 0 := (sub_pos.mpr h).ne'
    have hpos : 0 < up - low := sub_pos.mpr h
    have e : ∀ x, manualyNormalize low up x = (x - low) / (up - low) := by
      intro x
      unfold manualyNormalize
      simp only [if_neg hne, mul_zero, add_zero]
    refine ⟨by rw [e]; simp, by rw [e]; exact div_self hne, ?_, ?_, ?_⟩
    · intro x; rw [e]; field_simp
    · intro x h1 h2
      rw [e, le_div_iff₀ hpos, div_le_iff₀ hpos]
      constructor <;> linarith
    · intro x y hxy
      rw [e, e]
      exact div_lt_div_of_pos_right (by linarith) hpos
  · rintro rfl x
    unfold manualyNormalize
    simp

example : filterBound 12 0 10 = 10 ∧ filterBound (-3) 0 10 = 0 ∧ manualyNormalize 2 6 3 = 1 / 4 ∧
    manualyNormalize 2 2 3 = 1 := by
  refine ⟨?_, ?_, ?_, ?_⟩ <;> decide +kernel

/-! ## C28: nested lists -/

/-- Specification: the element at a path of `n` indices. -/
def Nest.get? {α : Type} : (n : ℕ) → Nest α n → List ℕ → Option α
  | 0, x, [] => some x
  | 0, _, _ :: _ => none
  | _ + 1, _, [] => none
  | n + 1, l, i :: p => (show List (Nest α n) from l)[i]?.bind fun y => Nest.get? n y p

/-- Specification: the length of the list at a path of less than `n` indices. -/
def Nest.len? {α : Type} : (n : ℕ) → Nest α n → List ℕ → Option ℕ
  | 0, _, _ => none
  | _ + 1, l, [] => some (show List _ from l).length
  | n + 1, l, i :: p => (show List (Nest α n) from l)[i]?.bind fun y => Nest.len? n y p

/-- **C28.** `meta_map(n, f)` applies `f` to exactly the elements at depth `n` and keeps the
shape. -/
theorem C28_meta_map {α β : Type} (f : α → β) (n : ℕ) (x : Nest α n) (p : List ℕ) :
    Nest.get? n (metaMap f n x) p = (Nest.get? n x p).map f ∧
    Nest.len? n (metaMap f n x) p = Nest.len? n x p := by
  induction n generalizing p with
  | zero =>
    constructor
    · cases p <;> rfl
    · rfl
  | succ n ih =>
    have key : ∀ l : List (Nest α n),
        Nest.get? (n + 1) (List.map (metaMap f n) l : List (Nest β n)) p =
          (Nest.get? (n + 1) (α := α) l p).map f ∧
        Nest.len? (n + 1) (α := β) (List.map (metaMap f n) l : List (Nest β n)) p =
          Nest.len? (n + 1) (α := α) l p := by
      intro l
      cases p with
      | nil =>
        refine ⟨rfl, ?_⟩
        show some (List.map (metaMap f n) l).length = some (List.length l)
        rw [List.length_map]
      | cons i p =>
        constructor
        · show ((List.map (metaMap f n) l)[i]?.bind fun y => Nest.get? n y p) =
            (l[i]?.bind fun y => Nest.get? n y p).map f
          rw [List.getElem?_map]
          cases l[i]? with
          | none => rfl
          | some y => exact (ih y p).1
        · show ((List.map (metaMap f n) l)[i]?.bind fun y => Nest.len? n y p) =
            (l[i]?.bind fun y => Nest.len? n y p)
          rw [List.getElem?_map]
          cases l[i]? with
          | none => rfl
          | some y => exact (ih y p).2
    exact key x

/-- **C28.** `flatten` enumerates the elements at the given depth, each once, in the order of
their positions: there is an increasing (in lexicographic order) list of all the valid paths such
that the enumeration reads the elements along it. -/
theorem C28_flatten {α : Type} (n : ℕ) (x : Nest α n) :
    ∃ paths : List (List ℕ), paths.Pairwise (List.Lex (· < ·)) ∧
      (∀ p, p ∈ paths ↔ (Nest.get? n x p).isSome) ∧
      (flatten n x).map some = paths.map (Nest.get? n x) := by
  induction n with
  | zero =>
    refine ⟨[[]], List.pairwise_singleton _ _, ?_, rfl⟩
    intro p
    cases p with
    | nil => exact ⟨fun _ => rfl, fun _ => List.mem_singleton.mpr rfl⟩
    | cons i p => simp [Nest.get?]
  | succ n ih =>
    choose P h1 h2 h3 using ih
    set l : List (Nest α n) := x with hl
    -- paths of the elements from position k on
    have key : ∀ (k : ℕ) (l' : List (Nest α n)), (∀ i, l'[i]? = l[k + i]?) →
        ∃ paths : List (List ℕ), paths.Pairwise (List.Lex (· < ·)) ∧
          (∀ p, p ∈ paths ↔ (∃ i q, p = i :: q ∧ k ≤ i) ∧ (Nest.get? (n + 1) x p).isSome) ∧
          (List.flatMap (flatten n) l').map some = paths.map (Nest.get? (n + 1) x) := by
      intro k l'
      induction l' generalizing k with
      | nil =>
        intro hk
        refine ⟨[], List.Pairwise.nil, ?_, rfl⟩
        intro p
        simp only [List.not_mem_nil, false_iff, not_and]
        rintro ⟨i, q, rfl, hki⟩ hs
        have hi := hk (i - k)
        rw [List.getElem?_nil] at hi
        have e : k + (i - k) = i := by omega
        rw [e] at hi
        have : Nest.get? (n + 1) x (i :: q) = (l[i]?.bind fun y => Nest.get? n y q) := rfl
        rw [this, ← hi] at hs
        simp at hs
      | cons y ys ihl =>
        intro hk
        have hy : l[k]? = some y := by
          have := hk 0
          simpa using this.symm
        obtain ⟨Q, q1, q2, q3⟩ := ihl (k + 1) (by
          intro i
          have := hk (i + 1)
          rw [List.getElem?_cons_succ] at this
          rw [this]
          congr 1
          omega)
        refine ⟨(P y).map (fun p => k :: p) ++ Q, ?_, ?_, ?_⟩
        · rw [List.pairwise_append]
          refine ⟨?_, q1, ?_⟩
          · rw [List.pairwise_map]
            exact List.Pairwise.imp (fun h => List.Lex.cons h) (h1 y)
          · intro p hp q hq
            obtain ⟨p', _, rfl⟩ := List.mem_map.mp hp
            obtain ⟨⟨i, q', rfl, hki⟩, _⟩ := (q2 q).1 hq
            exact List.Lex.rel (by omega)
        · intro p
          rw [List.mem_append, List.mem_map, q2]
          have hget : ∀ q, Nest.get? (n + 1) x (k :: q) = Nest.get? n y q := by
            intro q
            show (l[k]?.bind fun y => Nest.get? n y q) = _
            rw [hy]; rfl
          constructor
          · rintro (⟨q, hq, rfl⟩ | ⟨⟨i, q, rfl, hki⟩, hs⟩)
            · exact ⟨⟨k, q, rfl, le_rfl⟩, by rw [hget]; exact (h2 y q).1 hq⟩
            · exact ⟨⟨i, q, rfl, by omega⟩, hs⟩
          · rintro ⟨⟨i, q, rfl, hki⟩, hs⟩
            rcases Nat.eq_or_lt_of_le hki with rfl | hlt
            · left
              refine ⟨q, (h2 y q).2 ?_, rfl⟩
              rw [hget] at hs; exact hs
            · right
              exact ⟨⟨i, q, rfl, hlt⟩, hs⟩
        · rw [List.flatMap_cons, List.map_append, List.map_append, q3, h3, List.map_map]
          congr 1
          apply List.map_congr_left
          intro q _
          show Nest.get? n y q = (l[k]?.bind fun y => Nest.get? n y q)
          rw [hy]; rfl
    obtain ⟨Q, q1, q2, q3⟩ := key 0 l (fun i => by rw [Nat.zero_add])
    refine ⟨Q, q1, ?_, q3⟩
    intro p
    rw [q2]
    constructor
    · exact fun h => h.2
    · intro h
      refine ⟨?_, h⟩
      cases p with
      | nil => simp [Nest.get?] at h
      | cons i q => exact ⟨i, q, rfl, Nat.zero_le _⟩

/-- **C28.** `distribute(x, values, level)` replaces the element `e` found at each path of depth
`level` by the list of the `e + [v]`, so the elements one level deeper are enumerated combination
by combination. -/
theorem C28_distribute {α : Type} (values : List α) (n : ℕ) (x : Nest (List α) n) :
    (∀ (p : List ℕ) (k : ℕ), p.length = n →
      Nest.get? (n + 1) (distribute values n x) (p ++ [k]) =
        (Nest.get? n x p).bind fun e => values[k]?.map fun v => e ++ [v]) ∧
    flatten (n + 1) (distribute values n x) =
      (flatten n x).flatMap fun e => values.map fun v => e ++ [v] := by
  constructor
  · intro p k hp
    induction n generalizing p with
    | zero =>
      have : p = [] := List.length_eq_zero_iff.mp hp
      subst this
      have key : ∀ e : List α, ((values.map fun v => e ++ [v])[k]?.bind fun y => some y) =
          (some e).bind fun e => values[k]?.map fun v => e ++ [v] := by
        intro e
        rw [List.getElem?_map]
        cases values[k]? <;> rfl
      exact key x
    | succ n ih =>
      cases p with
      | nil => simp at hp
      | cons i p =>
        have key : ∀ l : List (Nest (List α) n), ((List.map (distribute values n) l)[i]?.bind
            fun y => Nest.get? (n + 1) y (p ++ [k])) =
          (l[i]?.bind fun y => Nest.get? n y p).bind
            fun e => values[k]?.map fun v => e ++ [v] := by
          intro l
          rw [List.getElem?_map]
          cases l[i]? with
          | none => rfl
          | some y => exact ih y p (by simpa using hp)
        exact key x
  · induction n with
    | zero =>
      have key : ∀ e : List α, List.flatMap (fun y => [y]) (values.map fun v => e ++ [v]) =
          List.flatMap (fun e => values.map fun v => e ++ [v]) [e] := by
        intro e
        rw [List.flatMap_singleton', List.flatMap_singleton]
      exact key x
    | succ n ih =>
      have key : ∀ l : List (Nest (List α) n),
          List.flatMap (flatten (n + 1)) (List.map (distribute values n) l) =
          (List.flatMap (flatten n) l).flatMap fun e => values.map fun v => e ++ [v] := by
        intro l
        rw [List.flatMap_map, List.flatMap_assoc]
        congr 1
        funext y
        exact ih y
      exact key x

/-- The example of the documentation of `distribute`. -/
example : (distribute [7, 8] 2 ([[[1, 2], [1, 3]], [[2, 2]]] : List (List (List ℕ))) :
      List (List (List (List ℕ)))) =
    [[[[1, 2, 7], [1, 2, 8]], [[1, 3, 7], [1, 3, 8]]], [[[2, 2, 7], [2, 2, 8]]]] ∧
    (flatten 2 ([[1, 2], [], [3]] : List (List ℕ)) : List ℕ) = [1, 2, 3] := by
  constructor <;> rfl

end Verif.Utils
