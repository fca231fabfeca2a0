import Verif.NMF.PropsDouble
import Verif.NMF.Props

/-!
# The factorization with doubles: without rounding

When operations are not rounded, the model of `Verif.NMF.Double` is the one of `Verif.NMF.Model`, whatever the order of
additions.
-/

namespace Verif.NMF.D

open Finset

/-- Operations without rounding. -/
def exact (lg : ℚ → Num) : Arith := ⟨some, lg⟩

/-- The matrix of real numbers. -/
noncomputable def Mat.real (M : Mat) : NMF.Mat := ⟨M.r, M.c, fun i j => ((M.e i j).getD 0 : ℚ)⟩

/-- The data, as real numbers. -/
noncomputable def Data.real (X : Data) : NMF.Data := ⟨X.sparse, X.mat.real⟩

/-- Entries are numbers which are not negative. -/
def Pos (M : Mat) : Prop := ∀ i < M.r, ∀ j < M.c, ∃ x : ℚ, M.e i j = some x ∧ 0 ≤ x

/-- The entry is this number. -/
def Is (a : Num) (r : ℝ) : Prop := ∃ x : ℚ, a = some x ∧ (x : ℝ) = r

variable {lg : ℚ → Num} {o : Order}

theorem eval_exact {a b : ℕ → Num} {f g : ℕ → ℚ} : ∀ (t : Plan), (∀ k ∈ t.leaves, a k = some (f k) ∧ b k = some (g k)) →
    t.eval (exact lg) a b = some (t.leaves.map fun k => f k * g k).sum
  | .zero, _ => rfl
  | .term k, h => by
    obtain ⟨h1, h2⟩ := h k (by simp [Plan.leaves])
    unfold Plan.eval
    rw [h1, h2]
    simp [Plan.leaves, times, exact]
  | .plus p q, h => by
    unfold Plan.eval
    rw [eval_exact p fun k hk => h k (by simp [Plan.leaves, hk]), eval_exact q fun k hk => h k (by simp [Plan.leaves, hk])]
    simp [Plan.leaves, add, exact]
  | .fma p k, h => by
    obtain ⟨h1, h2⟩ := h k (by simp [Plan.leaves])
    unfold Plan.eval
    rw [eval_exact p fun k hk => h k (by simp [Plan.leaves, hk]), h1, h2]
    simp [Plan.leaves, exact]

theorem sum_exact {t : Plan} {n : ℕ} {a b : ℕ → Num} {f g : ℕ → ℚ} (ht : t.Covers n a b)
    (h : ∀ k < n, a k = some (f k) ∧ b k = some (g k)) : t.eval (exact lg) a b = some (∑ k ∈ range n, f k * g k) := by
  rw [eval_exact t fun k hk => h k (ht.2.1 k hk), ← List.sum_toFinset _ ht.1]
  congr 1
  refine sum_subset (fun k hk => mem_range.2 (ht.2.1 k (List.mem_toFinset.1 hk))) fun k hk hn => ?_
  rw [List.mem_toFinset] at hn
  rw [mem_range] at hk
  obtain ⟨h1, h2⟩ := h k hk
  rcases ht.2.2 k hk hn with h3 | h3
  · rw [h1] at h3
    rw [Option.some.inj h3, zero_mul]
  · rw [h2] at h3
    rw [Option.some.inj h3, mul_zero]

theorem pos_some {M : Mat} (h : Pos M) {i j : ℕ} (hi : i < M.r) (hj : j < M.c) : M.e i j = some ((M.e i j).getD 0) := by
  obtain ⟨x, hx, -⟩ := h i hi j hj
  rw [hx]
  rfl

theorem pos_nonneg {M : Mat} (h : Pos M) {i j : ℕ} (hi : i < M.r) (hj : j < M.c) : 0 ≤ (M.e i j).getD 0 := by
  obtain ⟨x, hx, h0⟩ := h i hi j hj
  rw [hx]
  exact h0

theorem dot_exact (ho : o.Ok) {M N : Mat} (hM : Pos M) (hN : Pos N) (hs : M.c = N.r) {i j : ℕ} (hi : i < M.r)
    (hj : j < N.c) : (dot (exact lg) o M N).e i j = some (∑ k ∈ range M.c, (M.e i k).getD 0 * (N.e k j).getD 0) :=
  sum_exact (ho.dot M N i j) fun _ hk => ⟨pos_some hM hi hk, pos_some hN (hs ▸ hk) hj⟩

theorem dot_pos (ho : o.Ok) {M N : Mat} (hM : Pos M) (hN : Pos N) (hs : M.c = N.r) : Pos (dot (exact lg) o M N) :=
  fun _ hi _ hj => ⟨_, dot_exact ho hM hN hs hi hj, sum_nonneg fun _ hk =>
    mul_nonneg (pos_nonneg hM hi (mem_range.1 hk)) (pos_nonneg hN (hs ▸ mem_range.1 hk) hj)⟩

theorem dot_is (ho : o.Ok) {M N : Mat} (hM : Pos M) (hN : Pos N) (hs : M.c = N.r) {i j : ℕ} (hi : i < M.r)
    (hj : j < N.c) : Is ((dot (exact lg) o M N).e i j) ((NMF.dot M.real N.real).e i j) := by
  refine ⟨_, dot_exact ho hM hN hs hi hj, ?_⟩
  push_cast
  rfl

theorem T_pos {M : Mat} (h : Pos M) : Pos M.T := fun i hi j hj => h j hj i hi

theorem ratio_exact {x wh : ℚ} (h : 0 ≤ wh) :
    ratio (exact lg) (some x) (some wh) = some ((x + 1 / 10 ^ 8) / (wh + 1 / 10 ^ 8)) := by
  show (if wh + 1 / 10 ^ 8 = 0 then none else some _) = _
  rw [if_neg (by positivity)]

theorem Q_exact (ho : o.Ok) {X : Data} {W H : Mat} (hX : Pos X.mat) (hW : Pos W) (hH : Pos H) (hs : Shapes X W H)
    {i j : ℕ} (hi : i < X.mat.r) (hj : j < X.mat.c) : ∃ q : ℚ, (Q (exact lg) o X W H).e i j = some q ∧ 0 ≤ q ∧
      (q : ℝ) = (NMF.Q X.real W.real H.real NMF.EPS).e i j := by
  obtain ⟨s1, s2, s3⟩ := hs
  obtain ⟨x, hx, x0⟩ := hX i hi j hj
  obtain ⟨wh, hw, w0⟩ := dot_pos (lg := lg) ho hW hH s2 i (s1 ▸ hi) j (s3 ▸ hj)
  obtain ⟨wh', hw', hr⟩ := dot_is (lg := lg) ho hW hH s2 (s1 ▸ hi : i < W.r) (s3 ▸ hj : j < H.c)
  rw [hw] at hw'
  cases hw'
  have hxr : X.mat.real.e i j = (x : ℝ) := by
    show (((X.mat.e i j).getD 0 : ℚ) : ℝ) = _
    rw [hx]
    rfl
  have e1 : (Q (exact lg) o X W H).e i j = if X.sparse = true ∧ x = 0 then some 0
      else some ((x + 1 / 10 ^ 8) / (wh + 1 / 10 ^ 8)) := by
    show (if X.sparse = true ∧ X.mat.e i j = some 0 then _ else _) = _
    rw [hx, hw, ratio_exact w0]
    simp only [Option.some_inj]
  have e2 : (NMF.Q X.real W.real H.real NMF.EPS).e i j = if X.sparse = true then
      (if (x : ℝ) ≠ 0 then ((x : ℝ) + NMF.EPS) / (wh + NMF.EPS) else 0) else ((x : ℝ) + NMF.EPS) / (wh + NMF.EPS) := by
    unfold NMF.Q
    simp only [Data.real, hxr, hr]
  rw [e1, e2]
  have hcast : (((x + 1 / 10 ^ 8) / (wh + 1 / 10 ^ 8) : ℚ) : ℝ) = ((x : ℝ) + NMF.EPS) / (wh + NMF.EPS) := by
    unfold NMF.EPS
    push_cast
    rfl
  have hq0 : 0 ≤ (x + 1 / 10 ^ 8) / (wh + 1 / 10 ^ 8) := by positivity
  by_cases hsp : X.sparse = true
  · by_cases hz : x = 0
    · rw [if_pos ⟨hsp, hz⟩, if_pos hsp]
      exact ⟨0, rfl, le_rfl, by simp [hz]⟩
    · rw [if_neg (fun h => hz h.2), if_pos hsp, if_pos (by exact_mod_cast hz)]
      exact ⟨_, rfl, hq0, hcast⟩
  · rw [if_neg (fun h => hsp h.1), if_neg hsp]
    exact ⟨_, rfl, hq0, hcast⟩

/-- Entries which agree. -/
def Agree (M : Mat) (N : NMF.Mat) : Prop := M.r = N.r ∧ M.c = N.c ∧ ∀ i < M.r, ∀ j < M.c, Is (M.e i j) (N.e i j)

theorem agree_real {M : Mat} (h : Pos M) : Agree M M.real := ⟨rfl, rfl, fun _ hi _ hj => ⟨_, pos_some h hi hj, rfl⟩⟩

theorem agree_real_e {M : Mat} {N : NMF.Mat} (h : Agree M N) {i j : ℕ} (hi : i < M.r) (hj : j < M.c) :
    M.real.e i j = N.e i j := by
  obtain ⟨x, hx, hr⟩ := h.2.2 i hi j hj
  show (((M.e i j).getD 0 : ℚ) : ℝ) = _
  rw [hx]
  exact hr

theorem dot_agree (ho : o.Ok) {M N : Mat} {M' N' : NMF.Mat} (hM : Pos M) (hN : Pos N) (hs : M.c = N.r) (h1 : Agree M M')
    (h2 : Agree N N') : Agree (dot (exact lg) o M N) (NMF.dot M' N') := by
  refine ⟨h1.1, h2.2.1, fun i hi j hj => ?_⟩
  obtain ⟨x, hx, hr⟩ := dot_is (lg := lg) ho hM hN hs hi hj
  refine ⟨x, hx, hr.trans ?_⟩
  show ∑ k ∈ range M.c, M.real.e i k * N.real.e k j = ∑ k ∈ range M'.c, M'.e i k * N'.e k j
  rw [← h1.2.1]
  refine sum_congr rfl fun k hk => ?_
  rw [agree_real_e h1 hi (mem_range.1 hk), agree_real_e h2 (hs ▸ mem_range.1 hk) hj]

theorem T_agree {M : Mat} {M' : NMF.Mat} (h : Agree M M') : Agree M.T M'.T :=
  ⟨h.2.1, h.1, fun i hi j hj => h.2.2 j hj i hi⟩

theorem mul_agree {M N : Mat} {M' N' : NMF.Mat} (h1 : Agree M M') (h2 : Agree N N') (hr : M.r = N.r) (hc : M.c = N.c) :
    Agree (mul (exact lg) M N) (NMF.mul M' N') := by
  refine ⟨h1.1, h1.2.1, fun i hi j hj => ?_⟩
  obtain ⟨x, hx, hx'⟩ := h1.2.2 i hi j hj
  obtain ⟨y, hy, hy'⟩ := h2.2.2 i (hr ▸ hi) j (hc ▸ hj)
  refine ⟨x * y, ?_, ?_⟩
  · show times _ (M.e i j) (N.e i j) = _
    rw [hx, hy]
    rfl
  · show _ = M'.e i j * N'.e i j
    rw [← hx', ← hy']
    push_cast
    rfl

theorem mul_pos' {M N : Mat} (h1 : Pos M) (h2 : Pos N) (hr : M.r = N.r) (hc : M.c = N.c) : Pos (mul (exact lg) M N) := by
  intro i hi j hj
  obtain ⟨x, hx, x0⟩ := h1 i hi j hj
  obtain ⟨y, hy, y0⟩ := h2 i (hr ▸ hi) j (hc ▸ hj)
  refine ⟨x * y, ?_, mul_nonneg x0 y0⟩
  show times _ (M.e i j) (N.e i j) = _
  rw [hx, hy]
  rfl

theorem normalizeSum1_agree (ho : o.Ok) {M : Mat} {M' : NMF.Mat} (hM : Pos M) (h : Agree M M') :
    Agree (normalizeSum1 (exact lg) o M) (NMF.normalizeSum1 M') ∧ Pos (normalizeSum1 (exact lg) o M) := by
  have key : ∀ k < M.r, ∀ j < M.c, (normalizeSum1 (exact lg) o M).e k j =
      some ((M.e k j).getD 0 / (1 / 10 ^ 16 + ∑ l ∈ range M.c, (M.e k l).getD 0)) := by
    intro k hk j hj
    have hsum : sumLine (exact lg) o M k = some (∑ l ∈ range M.c, (M.e k l).getD 0 * 1) :=
      sum_exact (ho.line M k) (g := fun _ => 1) fun l hl => ⟨pos_some hM hk hl, rfl⟩
    simp only [mul_one] at hsum
    have h0 : 0 ≤ ∑ l ∈ range M.c, (M.e k l).getD 0 := sum_nonneg fun l hl => pos_nonneg hM hk (mem_range.1 hl)
    show divide _ (M.e k j) (add _ (some _) (sumLine (exact lg) o M k)) = _
    rw [hsum, pos_some hM hk hj]
    show (if 1 / 10 ^ 16 + _ = (0 : ℚ) then none else some _) = _
    rw [if_neg (by positivity), Option.getD_some]
  constructor
  · refine ⟨h.1, h.2.1, fun k hk j hj => ⟨_, key k hk j hj, ?_⟩⟩
    push_cast
    show M.real.e k j / (1 / 10 ^ 16 + ∑ l ∈ range M.c, M.real.e k l) = M'.e k j / (1 / 10 ^ 16 + ∑ l ∈ range M'.c, M'.e k l)
    rw [agree_real_e h hk hj, ← h.2.1, sum_congr rfl fun l hl => agree_real_e h hk (mem_range.1 hl)]
  · intro k hk j hj
    refine ⟨_, key k hk j hj, div_nonneg (pos_nonneg hM hk hj) ?_⟩
    have := sum_nonneg fun l (hl : l ∈ range M.c) => pos_nonneg hM hk (mem_range.1 hl)
    positivity

/-- Without rounding, updates are those of the model with real numbers. -/
theorem update_exact (ho : o.Ok) {X : Data} {W H : Mat} (hX : Pos X.mat) (hW : Pos W) (hH : Pos H) (hs : Shapes X W H)
    (fit : Bool) : Agree (update (exact lg) o X W H fit).1 (NMF.update X.real W.real H.real fit).1 ∧
      Agree (update (exact lg) o X W H fit).2 (NMF.update X.real W.real H.real fit).2 := by
  obtain ⟨s1, s2, s3⟩ := hs
  have hQ : Agree (Q (exact lg) o X W H) (NMF.Q X.real W.real H.real NMF.EPS) := ⟨rfl, rfl, fun i hi j hj => by
    obtain ⟨q, h1, -, h3⟩ := Q_exact (lg := lg) ho hX hW hH ⟨s1, s2, s3⟩ hi hj
    exact ⟨q, h1, h3⟩⟩
  have hQp : Pos (Q (exact lg) o X W H) := fun i hi j hj => by
    obtain ⟨q, h1, h2, -⟩ := Q_exact (lg := lg) ho hX hW hH ⟨s1, s2, s3⟩ hi hj
    exact ⟨q, h1, h2⟩
  have h1 := dot_agree (lg := lg) ho hQp (T_pos hH) s3.symm hQ (T_agree (agree_real hH))
  have h1p := dot_pos (lg := lg) ho hQp (T_pos hH) s3.symm
  have hW' := mul_agree (lg := lg) (agree_real hW) h1 s1 s2
  have hWp := mul_pos' (lg := lg) hW h1p s1 s2
  refine ⟨hW', ?_⟩
  cases fit with
  | false => exact agree_real hH
  | true =>
    have h2 := dot_agree (lg := lg) ho (T_pos hWp) hQp s1 (T_agree hW') hQ
    have h2p := dot_pos (lg := lg) ho (T_pos hWp) hQp s1
    exact (normalizeSum1_agree ho (mul_pos' (lg := lg) hH h2p s2.symm s3) (mul_agree (lg := lg) (agree_real hH) h2
      s2.symm s3)).1

end Verif.NMF.D
