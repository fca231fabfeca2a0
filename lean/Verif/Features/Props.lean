import Verif.Features.Model
import Verif.Objects.Props

/-!
# Properties of histograms of acoustic co-occurrences and of iterative k-means (C62, C63, C64)
-/

namespace Verif.Features

open Verif.NMF

/-! ## Specification -/

/-- Number of times `t` with code `a` at `t` and code `b` at `t + lag`. -/
def cooc (q : List ℕ) (lag a b : ℕ) : ℕ :=
  (List.range q.length).countP fun t => decide (q[t]? = some a ∧ q[t + lag]? = some b)

/-! ## Lemmas -/

theorem foldl_max_le (l : List ℕ) (m : ℕ) (h : ∀ x ∈ l, x < m) :
    l.foldl (fun s x => max s (x + 1)) m = m := by
  induction l with
  | nil => rfl
  | cons a l ih =>
    rw [List.foldl_cons, max_eq_left (h a List.mem_cons_self)]
    exact ih fun x hx => h x (List.mem_cons_of_mem _ hx)

theorem le_foldl_max (l : List ℕ) (m : ℕ) : m ≤ l.foldl (fun s x => max s (x + 1)) m ∧
    ∀ x ∈ l, x < l.foldl (fun s x => max s (x + 1)) m := by
  induction l generalizing m with
  | nil => simp
  | cons a l ih =>
    rw [List.foldl_cons]
    obtain ⟨h1, h2⟩ := ih (max m (a + 1))
    refine ⟨le_trans (le_max_left _ _) h1, fun x hx => ?_⟩
    rcases List.mem_cons.1 hx with rfl | hx
    · exact lt_of_lt_of_le (Nat.lt_succ_self x) (le_trans (le_max_right _ _) h1)
    · exact h2 x hx

theorem sum_indicator (m a : ℕ) (h : a < m) :
    ((List.range m).map fun v => if a = v then 1 else 0).sum = 1 := by
  induction m with
  | zero => omega
  | succ m ih =>
    rw [List.range_succ, List.map_append, List.sum_append]
    by_cases ha : a = m
    · have hz : ((List.range m).map fun v => if a = v then 1 else 0).sum = 0 := by
        apply List.sum_eq_zero
        intro x hx
        obtain ⟨v, hv, rfl⟩ := List.mem_map.1 hx
        rw [List.mem_range] at hv
        rw [if_neg (by omega)]
      rw [hz]
      simp [ha]
    · rw [ih (by omega)]
      simp [ha]

theorem sum_counts (l : List ℕ) (m : ℕ) (h : ∀ x ∈ l, x < m) :
    ((List.range m).map fun v => l.count v).sum = l.length := by
  induction l with
  | nil => simp
  | cons a l ih =>
    have e : (fun v => (a :: l).count v) = fun v => l.count v + if a = v then 1 else 0 := by
      funext v
      rw [List.count_cons]
      simp
    rw [e, List.sum_map_add, ih fun x hx => h x (List.mem_cons_of_mem _ hx),
      sum_indicator m a (h a List.mem_cons_self), List.length_cons]

theorem pyFrom_lag (q : List ℕ) (lag : ℕ) : pyFrom q (lag : ℤ) = q.drop lag := by
  unfold pyFrom
  rw [pyBound_nonneg (by omega), Int.toNat_natCast]
  rcases le_total q.length lag with h | h
  · rw [min_eq_right h, List.drop_eq_nil_of_le h, List.drop_length]
  · rw [min_eq_left h]

theorem pyUpto_lag (q : List ℕ) (lag : ℕ) (h : 1 ≤ lag) :
    pyUpto q (-(lag : ℤ)) = q.take (q.length - lag) := by
  unfold pyUpto pyBound
  rw [if_pos (by omega)]
  congr 1
  omega

/-- The codes of pairs, one for each time. -/
theorem pairs_eq (q : List ℕ) (n lag : ℕ) :
    List.zipWith (· + ·) ((q.drop lag).map (· * n)) (q.take (q.length - lag)) =
      (List.range (q.length - lag)).map fun t => q.getD (t + lag) 0 * n + q.getD t 0 := by
  apply List.ext_getElem
  · simp
  · intro t h1 h2
    simp only [List.length_map, List.length_range] at h2
    simp only [List.getElem_zipWith, List.getElem_map, List.getElem_drop, List.getElem_take,
      List.getElem_range]
    rw [List.getD_eq_getElem?_getD, List.getD_eq_getElem?_getD,
      List.getElem?_eq_getElem (by omega), List.getElem?_eq_getElem (by omega)]
    simp [Nat.add_comm]

theorem pair_code (n a b x y : ℕ) (ha : a < n) (hy : y < n) :
    x * n + y = b * n + a ↔ y = a ∧ x = b := by
  constructor
  · intro h
    have h1 : (x * n + y) % n = y := by rw [Nat.mul_add_mod_of_lt hy]
    have h2 : (b * n + a) % n = a := by rw [Nat.mul_add_mod_of_lt ha]
    have e : y = a := by rw [← h1, h, h2]
    refine ⟨e, ?_⟩
    subst e
    have : x * n = b * n := by omega
    exact Nat.eq_of_mul_eq_mul_right (by omega) this
  · rintro ⟨rfl, rfl⟩; rfl

theorem bincount_eq (l : List ℕ) (m : ℕ) (h : ∀ x ∈ l, x < m) :
    bincount l m = (List.range m).map fun v => l.count v := by
  unfold bincount
  rw [foldl_max_le l m h]

theorem getD_lt (q : List ℕ) (n t : ℕ) (hq : ∀ x ∈ q, x < n) (ht : t < q.length) :
    q.getD t 0 < n := by
  rw [List.getD_eq_getElem?_getD, List.getElem?_eq_getElem ht, Option.getD_some]
  exact hq _ (List.getElem_mem ht)

theorem count_pairs (q : List ℕ) (n lag a b : ℕ) (hq : ∀ x ∈ q, x < n) (ha : a < n) :
    ((List.range (q.length - lag)).map fun t => q.getD (t + lag) 0 * n + q.getD t 0).count
      (b * n + a) = cooc q lag a b := by
  have hsplit : List.range q.length =
      List.range (q.length - lag) ++ (List.range (min lag q.length)).map (q.length - lag + ·) := by
    rw [← List.range_add]
    congr 1
    omega
  unfold cooc
  rw [hsplit, List.countP_append, List.count_eq_countP, List.countP_map]
  have hz : ((List.range (min lag q.length)).map (q.length - lag + ·)).countP
      (fun t => decide (q[t]? = some a ∧ q[t + lag]? = some b)) = 0 := by
    rw [List.countP_eq_zero]
    intro t ht
    obtain ⟨u, -, rfl⟩ := List.mem_map.1 ht
    rw [List.getElem?_eq_none (i := q.length - lag + u + lag) (by omega)]
    simp
  rw [hz, Nat.add_zero]
  apply List.countP_congr
  intro t ht
  rw [List.mem_range] at ht
  have h1 : q[t]? = some (q.getD t 0) := by
    rw [List.getD_eq_getElem?_getD, List.getElem?_eq_getElem (by omega), Option.getD_some]
  have h2 : q[t + lag]? = some (q.getD (t + lag) 0) := by
    rw [List.getD_eq_getElem?_getD, List.getElem?_eq_getElem (by omega), Option.getD_some]
  rw [h1, h2]
  simp only [Function.comp, beq_iff_eq, decide_eq_true_eq, Option.some.injEq]
  exact pair_code n a b _ _ ha (getD_lt q n t hq (by omega))

/-! ## C62: co-occurrence counts -/

/-- The entries of the result, in order: entry `i` is about the codes `i % n` and `i / n`. -/
theorem coocurrences_eq (q : List ℕ) (n lag : ℕ) (hlag : 1 ≤ lag) (hq : ∀ x ∈ q, x < n) :
    coocurrences q n lag = .ok ((List.range (n ^ 2)).map fun i => cooc q lag (i % n) (i / n)) ∧
      ((List.range (n ^ 2)).map fun i => cooc q lag (i % n) (i / n)).sum = q.length - lag := by
  have hlen : ((q.drop lag).map (· * n)).length = (q.take (q.length - lag)).length := by simp
  have hlt : ∀ x ∈ (List.range (q.length - lag)).map
      fun t => q.getD (t + lag) 0 * n + q.getD t 0, x < n ^ 2 := by
    intro x hx
    obtain ⟨t, ht, rfl⟩ := List.mem_map.1 hx
    rw [List.mem_range] at ht
    have h1 := getD_lt q n t hq (by omega)
    have h2 := getD_lt q n (t + lag) hq (by omega)
    nlinarith
  have hb : ((List.range (n ^ 2)).map fun i => cooc q lag (i % n) (i / n)) =
      bincount ((List.range (q.length - lag)).map
        fun t => q.getD (t + lag) 0 * n + q.getD t 0) (n ^ 2) := by
    rw [bincount_eq _ _ hlt]
    apply List.map_congr_left
    intro i hi
    rw [List.mem_range] at hi
    have hn : 0 < n := by
      rcases Nat.eq_zero_or_pos n with h | h
      · subst h; simp at hi
      · exact h
    rw [← count_pairs q n lag _ _ hq (Nat.mod_lt i hn), Nat.div_add_mod']
  constructor
  · unfold coocurrences broadcastAdd
    rw [pyFrom_lag, pyUpto_lag q lag hlag, if_pos hlen, pairs_eq, hb]
    rfl
  · rw [hb, bincount_eq _ _ hlt, sum_counts _ _ hlt]
    simp

/-- **C62**: `coocurrences(q, n, lag)` has length `n^2`, its entry `b * n + a` is the number of times
`t` with `q[t] = a` and `q[t + lag] = b`, and entries sum to `max(len(q) - lag, 0)`. -/
theorem C62_counts (q : List ℕ) (n lag : ℕ) (hlag : 1 ≤ lag) (hq : ∀ x ∈ q, x < n) :
    ∃ v, coocurrences q n lag = .ok v ∧ v.length = n ^ 2 ∧ v.sum = q.length - lag ∧
      ∀ a < n, ∀ b < n, v[b * n + a]? = some (cooc q lag a b) := by
  obtain ⟨h1, h2⟩ := coocurrences_eq q n lag hlag hq
  refine ⟨_, h1, by simp, h2, fun a ha b hb => ?_⟩
  have hlt : b * n + a < n ^ 2 := by nlinarith
  rw [List.getElem?_map, List.getElem?_range hlt, Option.map_some, Nat.mul_add_mod_of_lt ha,
    Nat.add_comm, Nat.add_mul_div_right _ _ (by omega), Nat.div_eq_of_lt ha, Nat.zero_add]

example : coocurrences [0, 1, 1, 2, 1] 3 1 = .ok [0, 0, 0, 1, 1, 1, 0, 1, 0] ∧
    cooc [0, 1, 1, 2, 1] 1 2 1 = 1 := by decide

/-- **C62**, lag 0: `ValueError` for two or more elements; zeros for one or none. -/
theorem C62_lag_zero (q : List ℕ) (n : ℕ) :
    (2 ≤ q.length → coocurrences q n 0 = .error .valueError) ∧
    (q.length ≤ 1 → coocurrences q n 0 = .ok (List.replicate (n ^ 2) 0)) := by
  have h0 : bincount [] (n ^ 2) = List.replicate (n ^ 2) 0 := by
    unfold bincount
    simp [List.map_const']
  rcases q with _ | ⟨a, _ | ⟨b, q⟩⟩
  · refine ⟨by simp, fun _ => ?_⟩
    show Except.ok (bincount [] (n ^ 2)) = _
    rw [h0]
  · refine ⟨by simp, fun _ => ?_⟩
    show Except.ok (bincount [] (n ^ 2)) = _
    rw [h0]
  · refine ⟨fun _ => rfl, by simp⟩

example : coocurrences [0, 1, 0] 2 0 = .error .valueError := (C62_lag_zero [0, 1, 0] 2).1 (by decide)

/-- **C62**, negative lags: lag `-m` is lag `len(q) - m`. -/
theorem C62_negative_lag (q : List ℕ) (n m : ℕ) (hm : 1 ≤ m) (hlen : m < q.length) :
    coocurrences q n (-(m : ℤ)) = coocurrences q n ((q.length - m : ℕ) : ℤ) := by
  have h1 : pyFrom q (-(m : ℤ)) = q.drop (q.length - m) := by
    unfold pyFrom pyBound
    rw [if_pos (by omega)]
    congr 1
    omega
  have h2 : pyUpto q (-(-(m : ℤ))) = q.take m := by
    rw [neg_neg]
    unfold pyUpto
    rw [pyBound_nonneg (by omega), Int.toNat_natCast, min_eq_left hlen.le]
  unfold coocurrences
  rw [h1, h2, pyFrom_lag, pyUpto_lag q _ (by omega)]
  congr 4
  omega

example : coocurrences [0, 1, 1, 2, 1] 3 (-1) = coocurrences [0, 1, 1, 2, 1] 3 4 :=
  C62_negative_lag [0, 1, 1, 2, 1] 3 1 (by decide) (by decide)

/-- **C62**, lags `-m` with `m` at least the length of the sequence: each element is paired with itself, so
that the entry `a * n + a` is the number of occurrences of `a` and other entries are null. -/
theorem C62_far_negative_lag (q : List ℕ) (n m : ℕ) (hm : q.length ≤ m) (hm1 : 1 ≤ m)
    (hq : ∀ x ∈ q, x < n) :
    ∃ v, coocurrences q n (-(m : ℤ)) = .ok v ∧ v.length = n ^ 2 ∧ v.sum = q.length ∧
      ∀ a < n, ∀ b < n, v[b * n + a]? = some (if a = b then q.count a else 0) := by
  have h1 : pyFrom q (-(m : ℤ)) = q := by
    unfold pyFrom pyBound
    rw [if_pos (by omega), show (-(m : ℤ) + q.length).toNat = 0 by omega, List.drop_zero]
  have h2 : pyUpto q (-(-(m : ℤ))) = q := by
    rw [neg_neg]
    unfold pyUpto
    rw [pyBound_nonneg (by omega), Int.toNat_natCast, min_eq_right hm, List.take_length]
  have h3 : List.zipWith (· + ·) (q.map (· * n)) q = q.map fun x => x * n + x := by
    clear hm hq h1 h2
    induction q with
    | nil => rfl
    | cons x q ih => simp [ih]
  have hlt : ∀ x ∈ q.map (fun x => x * n + x), x < n ^ 2 := by
    intro x hx
    obtain ⟨y, hy, rfl⟩ := List.mem_map.1 hx
    have := hq y hy
    nlinarith
  refine ⟨bincount (q.map fun x => x * n + x) (n ^ 2), ?_, ?_, ?_, fun a ha b hb => ?_⟩
  · unfold coocurrences broadcastAdd
    rw [h1, h2, if_pos (by simp), h3]
    rfl
  · rw [bincount_eq _ _ hlt]; simp
  · rw [bincount_eq _ _ hlt, sum_counts _ _ hlt]; simp
  · rw [bincount_eq _ _ hlt, List.getElem?_map, List.getElem?_range (by nlinarith), Option.map_some,
      List.count_eq_countP, List.countP_map]
    congr 1
    split_ifs with hab
    · subst hab
      rw [List.count_eq_countP]
      apply List.countP_congr
      intro x hx
      simp only [Function.comp, beq_iff_eq]
      rw [pair_code n a a x x ha (hq x hx)]
      exact and_self_iff
    · rw [List.countP_eq_zero]
      intro x hx
      simp only [Function.comp, beq_iff_eq]
      rw [pair_code n a b x x ha (hq x hx)]
      rintro ⟨h, h'⟩
      exact hab (h ▸ h')

example : coocurrences [0, 1, 1] 2 (-3) = .ok [1, 0, 0, 2] := by decide

/-! ## C63: layout of the HAC vector -/

/-- **C63**: the blocks are the co-occurrence counts, codebook by codebook and for each lag by lag;
each stream of vectors is quantised with its codebook. -/
theorem C63_blocks {A S C : Type} (mfcc : A → S) (delta : S → ℕ → S) (vq : S → C → List ℕ)
    (size : C → ℕ) (data : A) (codebooks : List C) (lags : List ℕ)
    (hvq : ∀ s c, ∀ x ∈ vq s c, x < size c) (hc : codebooks ≠ []) (hl : lags ≠ [])
    (hlag : ∀ l ∈ lags, 1 ≤ l) :
    hac mfcc delta vq size data codebooks (lags.map fun l : ℕ => (l : ℤ)) =
      .ok (([mfcc data, delta (mfcc data) 1, delta (mfcc data) 2].zip codebooks).flatMap fun p =>
        lags.flatMap fun l => (List.range (size p.2 ^ 2)).map fun i =>
          cooc (vq p.1 p.2) l (i % size p.2) (i / size p.2)) := by
  have hcc : ∀ s c, computeCoocurrences vq size s c (lags.map fun l : ℕ => (l : ℤ)) =
      .ok (lags.flatMap fun l => (List.range (size c ^ 2)).map fun i =>
          cooc (vq s c) l (i % size c) (i / size c)) := by
    intro s c
    unfold computeCoocurrences
    have := mapM_ok (fun l : ℕ => coocurrences (vq s c) (size c) (l : ℤ))
      (fun l => (List.range (size c ^ 2)).map fun i => cooc (vq s c) l (i % size c) (i / size c))
      lags fun l hm => (coocurrences_eq _ _ l (hlag l hm) (hvq s c)).1
    simp only [List.mapM_map, Function.comp_def] at this ⊢
    rw [this]
    show (if _ then _ else _) = _
    rw [if_neg (by simpa using hl)]
    rw [List.flatMap_def]
  unfold hac
  have := mapM_ok (fun p : S × C => computeCoocurrences vq size p.1 p.2
      (lags.map fun l : ℕ => (l : ℤ))) _
    ([mfcc data, delta (mfcc data) 1, delta (mfcc data) 2].zip codebooks) fun p _ => hcc p.1 p.2
  simp only []
  rw [this]
  show (if _ then _ else _) = _
  rw [if_neg, List.flatMap_def]
  obtain ⟨c, cs, rfl⟩ := List.exists_cons_of_ne_nil hc
  simp

/-- **C63**: the length depends only on the codebooks (of which at most three are used) and on the
number of lags, and the sum of the entries only on the lengths of the streams. -/
theorem C63_length {A S C : Type} (mfcc : A → S) (delta : S → ℕ → S) (vq : S → C → List ℕ)
    (size : C → ℕ) (data : A) (codebooks : List C) (lags : List ℕ)
    (hvq : ∀ s c, ∀ x ∈ vq s c, x < size c) (hc : codebooks ≠ []) (hl : lags ≠ [])
    (hlag : ∀ l ∈ lags, 1 ≤ l) :
    ∃ v, hac mfcc delta vq size data codebooks (lags.map fun l : ℕ => (l : ℤ)) = .ok v ∧
      v.length = lags.length * ((codebooks.take 3).map fun c => size c ^ 2).sum ∧
      v.sum = (([mfcc data, delta (mfcc data) 1, delta (mfcc data) 2].zip codebooks).map fun p =>
        (lags.map fun l => (vq p.1 p.2).length - l).sum).sum := by
  refine ⟨_, C63_blocks mfcc delta vq size data codebooks lags hvq hc hl hlag, ?_, ?_⟩
  · have hblock : ∀ s c, (lags.flatMap fun l => (List.range (size c ^ 2)).map fun i =>
          cooc (vq s c) l (i % size c) (i / size c)).length = lags.length * size c ^ 2 := by
      intro s c
      rw [List.length_flatMap]
      simp
    rw [List.length_flatMap]
    simp only [hblock]
    rcases codebooks with _ | ⟨c1, _ | ⟨c2, _ | ⟨c3, cs⟩⟩⟩ <;> simp [Nat.mul_add]
  · rw [List.flatMap_def, List.sum_flatten, List.map_map]
    congr 1
    apply List.map_congr_left
    intro p _
    rw [Function.comp, List.flatMap_def, List.sum_flatten, List.map_map]
    congr 1
    apply List.map_congr_left
    intro l hm
    exact (coocurrences_eq _ _ l (hlag l hm) (hvq p.1 p.2)).2

example : ∃ v, hac (fun x : List ℕ => x) (fun s k => s.drop k) (fun s c => s.map (· % (c + 1))) (· + 1)
    [3, 1, 2, 3, 5] [1, 2] ([1, 2].map fun l : ℕ => (l : ℤ)) = .ok v ∧ v.length = 2 * (4 + (9 + 0)) := by
  obtain ⟨v, h1, h2, -⟩ := C63_length (fun x : List ℕ => x) (fun s k => s.drop k)
    (fun s c => s.map (· % (c + 1))) (· + 1) [3, 1, 2, 3, 5] [1, 2] [1, 2]
    (by
      intro s c x hx
      obtain ⟨y, -, rfl⟩ := List.mem_map.1 hx
      exact Nat.mod_lt _ (Nat.succ_pos c)) (by decide) (by decide) (by decide)
  exact ⟨v, h1, h2⟩

/-- **C63**: without lags or without codebooks there is no vector. -/
theorem C63_nothing {A S C : Type} (mfcc : A → S) (delta : S → ℕ → S) (vq : S → C → List ℕ)
    (size : C → ℕ) (data : A) (codebooks : List C) (lags : List ℤ)
    (h : codebooks = [] ∨ lags = []) :
    hac mfcc delta vq size data codebooks lags = .error .valueError := by
  rcases h with rfl | rfl
  · rfl
  · cases codebooks <;> rfl

end Verif.Features
