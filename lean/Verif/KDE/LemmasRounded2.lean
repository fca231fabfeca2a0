import Verif.KDE.LemmasRounded

/-!
# Lemmas about linear binning with rounded operations: accumulation
-/

namespace Verif.KDE

open Verif.Window

theorem addAtR_spec (fl : ℚ → ℚ) (bins : List ℚ) (b : ℕ) (w : ℚ) (h : b < bins.length) :
    ∃ r, addAtR fl bins (b : ℤ) w = .ok r ∧ r.length = bins.length ∧
      ∀ i < bins.length, r.getD i 0 = if i = b then fl (bins.getD i 0 + w) else bins.getD i 0 := by
  refine ⟨bins.modify b fun v => fl (v + w), ?_, List.length_modify _ _ _, fun i hi => ?_⟩
  · unfold addAtR pyIndex
    rw [if_pos (by omega), if_pos (by omega)]
    simp
  · rw [List.getD_eq_getElem?_getD, List.getD_eq_getElem?_getD, List.getElem?_modify,
      List.getElem?_eq_getElem hi]
    by_cases hb : b = i
    · simp [hb]
    · have : ¬ i = b := fun e => hb e.symm
      simp [hb, this]

theorem pyGet_gridR (fl : ℚ → ℚ) (lo delta : ℚ) (nb i : ℕ) (h : i ≤ nb) :
    pyGet (gridR fl lo delta nb) (i : ℤ) = .ok (fl (lo + fl ((i : ℚ) * delta))) := by
  rw [pyGet_nat _ _ (by simp [gridR]; omega)]
  simp [gridR]

/-- The triangular kernel near a cell. -/
theorem hat_cell (t e : ℚ) (i b : ℕ) (he : 0 ≤ e) (he1 : e ≤ 1) (h0 : -e ≤ t) (h1 : t ≤ 1 + e) :
    |(if i = b then 1 - t else if i = b + 1 then t else 0) - hat (t + b - i)| ≤ 2 * e := by
  unfold hat
  split_ifs with c1 c2
  · rw [c1]
    have : t + (b : ℚ) - b = t := by ring
    rw [this, abs_le]
    rcases max_cases 0 (1 - |t|) with ⟨e1, e2⟩ | ⟨e1, e2⟩ <;> rw [e1] <;>
      rcases abs_cases t with ⟨a1, a2⟩ | ⟨a1, a2⟩ <;> constructor <;> linarith
  · rw [c2]
    have : t + (b : ℚ) - (b + 1 : ℕ) = t - 1 := by push_cast; ring
    rw [this, abs_le]
    rcases max_cases 0 (1 - |t - 1|) with ⟨e1, e2⟩ | ⟨e1, e2⟩ <;> rw [e1] <;>
      rcases abs_cases (t - 1) with ⟨a1, a2⟩ | ⟨a1, a2⟩ <;> constructor <;> linarith
  · have hfar : 1 - e ≤ |t + b - i| := by
      rcases Nat.lt_or_ge i b with h | h
      · have : (i : ℚ) + 1 ≤ b := by exact_mod_cast h
        exact le_trans (by linarith) (le_abs_self _)
      · have h2 : b + 2 ≤ i := by omega
        have : (b : ℚ) + 2 ≤ i := by exact_mod_cast h2
        exact le_trans (by linarith) (neg_le_abs _)
    rw [zero_sub, abs_neg, abs_of_nonneg (le_max_left _ _)]
    apply max_le (by linarith)
    linarith

theorem hat_le (u : ℚ) : hat u ≤ 1 := max_le (by norm_num) (by have := abs_nonneg u; linarith)

/-- The sum of the first bins. -/
def total (bins : List ℚ) (nb : ℕ) : ℚ := ∑ i ∈ Finset.range nb, bins.getD i 0

namespace Sizes

variable {lo hi d M : ℚ} {nb n : ℕ} {fl : ℚ → ℚ}

/-- A sample added to bins. -/
theorem spread_near (S : Sizes lo hi d M nb n) (hf : IsRounding fl) (w x : ℚ)
    (hw : |w - 1 / (n * d)| ≤ 8 * UNIT * (1 / (n * d))) (h0 : lo ≤ x) (h1 : x ≤ hi)
    (bins : List ℚ) (hl : bins.length = nb + 1)
    (hbins : ∀ i < nb + 1, |bins.getD i 0| ≤ 2 / d) :
    ∃ r, spread1R fl (gridR fl lo (deltaR fl lo hi nb) nb) (deltaR fl lo hi nb) w bins x
        ⌊fl (fl (x - lo) / deltaR fl lo hi nb)⌋ = .ok r ∧ r.length = nb + 1 ∧
      (∀ i < nb + 1, |r.getD i 0 - bins.getD i 0 - 1 / (n * d) * hat ((x - (lo + i * d)) / d)| ≤
        110 * UNIT * (M / d) * (1 / (n * d)) + 4 * UNIT * (1 / d)) ∧
      |total r (nb + 1) - total bins (nb + 1) - 1 / (n * d)| ≤
        172 * UNIT * (M / d) * (1 / (n * d)) + 8 * UNIT * (1 / d) := by
  have hd := S.d_pos
  have hdM := S.d_le
  have hM : 0 < M := by linarith
  have hU := UNIT_pos
  have hn : (1 : ℚ) ≤ n := by exact_mod_cast S.n1
  have hu := S.unitM
  obtain ⟨b, hb, hbn, hlo', hhi'⟩ := S.bin_near hf x h0 h1
  have g1 := S.grid_near hf (b + 1) (by omega)
  have g0 := S.grid_near hf b (by omega)
  unfold spread1R
  rw [hb]
  have e1 : ((b : ℤ) + 1) = ((b + 1 : ℕ) : ℤ) := by push_cast; rfl
  rw [e1, pyGet_gridR fl lo _ nb (b + 1) (by omega), pyGet_gridR fl lo _ nb b (by omega)]
  simp only [bind, Except.bind]
  generalize fl (lo + fl (((b + 1 : ℕ) : ℚ) * deltaR fl lo hi nb)) = G1 at *
  generalize fl (lo + fl ((b : ℚ) * deltaR fl lo hi nb)) = G0 at *
  obtain ⟨t, ht⟩ : ∃ t, t = (x - lo) / d - b := ⟨_, rfl⟩
  have hdt : d * t = x - lo - b * d := by rw [ht]; field_simp
  have s1 := S.share_near hf w (G1 - x) (1 - t) hw
    (by
      have : G1 - x - d * (1 - t) = G1 - (lo + ((b + 1 : ℕ) : ℚ) * d) := by
        rw [mul_sub, hdt]; push_cast; ring
      rw [this]; exact g1)
    (by rw [mul_sub, hdt]; linarith) (by rw [mul_sub, hdt]; linarith)
  have s2 := S.share_near hf w (x - G0) t hw
    (by
      have : x - G0 - d * t = -(G0 - (lo + b * d)) := by rw [hdt]; ring
      rw [this, abs_neg]; exact g0)
    (by rw [hdt]; linarith) (by rw [hdt]; linarith)
  generalize fl (fl (w * fl (G1 - x)) / deltaR fl lo hi nb) = wl at *
  generalize fl (fl (w * fl (x - G0)) / deltaR fl lo hi nb) = wr at *
  obtain ⟨r1, hr1, hl1, he1⟩ := addAtR_spec fl bins b wl (by omega)
  rw [hr1]
  simp only []
  obtain ⟨r2, hr2, hl2, he2⟩ := addAtR_spec fl r1 (b + 1) wr (by omega)
  -- the sizes of things
  have hw0 : 0 < 1 / ((n : ℚ) * d) := by positivity
  have hw1 : 1 / ((n : ℚ) * d) ≤ 1 / d := one_div_le_one_div_of_le hd (by nlinarith)
  have hr : UNIT * (M / d) ≤ 1 / 4096 := by
    rw [← mul_div_assoc, div_le_iff₀ hd]; linarith
  have hr0 : 0 < UNIT * (M / d) := by positivity
  have hd1 : 1 / 2 ^ 1000 ≤ 1 / d := by
    apply one_div_le_one_div_of_le hd
    exact S.d_large.trans (pow_le_pow_right₀ (by norm_num) (by norm_num))
  have ht0 : -(12 * (UNIT * (M / d))) ≤ t := by
    have : (-(12 * (UNIT * (M / d)))) * d ≤ t * d := by
      have e : -(12 * (UNIT * (M / d))) * d = -(12 * UNIT * M) := by field_simp
      rw [e, mul_comm t, hdt]; linarith
    exact le_of_mul_le_mul_right this hd
  have ht1 : t ≤ 1 + 12 * (UNIT * (M / d)) := by
    have : t * d ≤ (1 + 12 * (UNIT * (M / d))) * d := by
      have e : (1 + 12 * (UNIT * (M / d))) * d = d + 12 * UNIT * M := by field_simp
      rw [e, mul_comm t, hdt]; linarith
    exact le_of_mul_le_mul_right this hd
  have e2 : (2 : ℚ) / d = 2 * (1 / d) := by ring
  rw [e2] at hbins
  generalize hv : 1 / ((n : ℚ) * d) = v at *
  generalize hD : 1 / d = D at *
  generalize hρ : UNIT * (M / d) = ρ at *
  have e86 : 86 * UNIT * (M / d) = 86 * ρ := by rw [← hρ]; ring
  have e110 : 110 * UNIT * (M / d) = 110 * ρ := by rw [← hρ]; ring
  have e172 : 172 * UNIT * (M / d) = 172 * ρ := by rw [← hρ]; ring
  rw [e86] at s1 s2
  rw [e110, e172]
  have hρv : ρ * v ≤ 1 / 4096 * v := by gcongr
  have hρv0 : 0 ≤ ρ * v := by positivity
  have s1' := abs_le.1 s1
  have s2' := abs_le.1 s2
  have vt0 : v * -(12 * ρ) ≤ v * t := by gcongr
  have vt1 : v * t ≤ v * (1 + 12 * ρ) := by gcongr
  have hwl : |wl| ≤ 2 * D := by rw [abs_le]; constructor <;> linarith
  have hwr : |wr| ≤ 2 * D := by rw [abs_le]; constructor <;> linarith
  -- rounded additions
  have ha : ∀ i < nb + 1, ∀ y, |y| ≤ 2 * D →
      |fl (bins.getD i 0 + y) - (bins.getD i 0 + y)| ≤ 4 * UNIT * D := by
    intro i hi' y hy
    have := rnd hf (x := bins.getD i 0 + y) (a := 4 * D)
      ((abs_add_le _ _).trans (by linarith [hbins i hi'])) (by linarith)
    linarith
  have hval : ∀ i < nb + 1, r2.getD i 0 =
      if i = b then fl (bins.getD i 0 + wl) else if i = b + 1 then fl (bins.getD i 0 + wr) else bins.getD i 0 := by
    intro i hi'
    rw [he2 i (by omega), he1 i (by omega)]
    by_cases c1 : i = b
    · rw [if_pos c1, if_pos c1, if_neg (by omega)]
    · rw [if_neg c1, if_neg c1]
  have hUD : 0 ≤ UNIT * D := by
    have : 0 < D := by linarith
    positivity
  refine ⟨r2, hr2, by omega, fun i hi' => ?_, ?_⟩
  · have hh : (x - (lo + i * d)) / d = t + b - i := by
      rw [ht]; field_simp; ring
    have hc := hat_cell t (12 * ρ) i b (by linarith) (by linarith) ht0 ht1
    rw [hh]
    have hc' : |v * (if i = b then 1 - t else if i = b + 1 then t else 0) - v * hat (t + b - i)| ≤ 24 * ρ * v := by
      rw [← mul_sub, abs_mul, abs_of_pos hw0]
      calc _ ≤ v * (2 * (12 * ρ)) := by gcongr
        _ = _ := by ring
    rw [hval i hi']
    split_ifs at hc' ⊢ with c1 c2
    · have := abs_le.1 (ha i hi' wl hwl)
      have := abs_le.1 hc'
      rw [abs_le]; constructor <;> linarith
    · have := abs_le.1 (ha i hi' wr hwr)
      have := abs_le.1 hc'
      rw [abs_le]; constructor <;> linarith
    · have := abs_le.1 hc'
      rw [abs_le]; constructor <;> linarith
  · have hsum : total r2 (nb + 1) - total bins (nb + 1) =
        (fl (bins.getD b 0 + wl) - bins.getD b 0) + (fl (bins.getD (b + 1) 0 + wr) - bins.getD (b + 1) 0) := by
      unfold total
      rw [← Finset.sum_sub_distrib]
      have : ∀ i ∈ Finset.range (nb + 1), r2.getD i 0 - bins.getD i 0 =
          (if i = b then fl (bins.getD b 0 + wl) - bins.getD b 0 else 0) +
          (if i = b + 1 then fl (bins.getD (b + 1) 0 + wr) - bins.getD (b + 1) 0 else 0) := by
        intro i hi'
        rw [hval i (Finset.mem_range.1 hi')]
        by_cases c1 : i = b
        · subst c1; simp
        · by_cases c2 : i = b + 1
          · subst c2; simp
          · simp [c1, c2]
      rw [Finset.sum_congr rfl this, Finset.sum_add_distrib, Finset.sum_ite_eq', Finset.sum_ite_eq',
        if_pos (by simp; omega), if_pos (by simp; omega)]
    rw [hsum]
    have := abs_le.1 (ha b (by omega) wl hwl)
    have := abs_le.1 (ha (b + 1) (by omega) wr hwr)
    rw [abs_le]; constructor <;> linarith

/-- All samples. -/
theorem fold_near (S : Sizes lo hi d M nb n) (hf : IsRounding fl) (w : ℚ)
    (hw : |w - 1 / (n * d)| ≤ 8 * UNIT * (1 / (n * d))) (x : List ℚ) (hx : ∀ s ∈ x, lo ≤ s ∧ s ≤ hi) (y : List ℚ)
    (hn : y.length + x.length ≤ n) (bins : List ℚ) (hl : bins.length = nb + 1)
    (hb : ∀ i < nb + 1, |bins.getD i 0 - 1 / (n * d) * (y.map fun s => hat ((s - (lo + i * d)) / d)).sum| ≤
      y.length * (110 * UNIT * (M / d) * (1 / (n * d)) + 4 * UNIT * (1 / d)))
    (ht : |total bins (nb + 1) - y.length * (1 / (n * d))| ≤
      y.length * (172 * UNIT * (M / d) * (1 / (n * d)) + 8 * UNIT * (1 / d))) :
    ∃ r, x.foldlM (fun bins s => spread1R fl (gridR fl lo (deltaR fl lo hi nb) nb) (deltaR fl lo hi nb) w bins s
        ⌊fl (fl (s - lo) / deltaR fl lo hi nb)⌋) bins = .ok r ∧ r.length = nb + 1 ∧
      (∀ i < nb + 1, |r.getD i 0 - 1 / (n * d) * ((y ++ x).map fun s => hat ((s - (lo + i * d)) / d)).sum| ≤
        (y ++ x).length * (110 * UNIT * (M / d) * (1 / (n * d)) + 4 * UNIT * (1 / d))) ∧
      |total r (nb + 1) - (y ++ x).length * (1 / (n * d))| ≤
        (y ++ x).length * (172 * UNIT * (M / d) * (1 / (n * d)) + 8 * UNIT * (1 / d)) := by
  induction x generalizing y bins with
  | nil => exact ⟨bins, rfl, hl, by simpa using hb, by simpa using ht⟩
  | cons s x ih =>
    have hd := S.d_pos
    have hdM := S.d_le
    have hM : 0 < M := by linarith
    have hU := UNIT_pos
    have hu := S.unitM
    have hn1 : (1 : ℚ) ≤ n := by exact_mod_cast S.n1
    have hn0 : (0 : ℚ) < n := by linarith
    rw [List.length_cons] at hn
    have hyn : (y.length : ℚ) ≤ n := by
      have : y.length ≤ n := by omega
      exact_mod_cast this
    have hbins : ∀ i < nb + 1, |bins.getD i 0| ≤ 2 / d := by
      intro i hi'
      have h1 := hb i hi'
      have h2 : 0 ≤ (y.map fun s => hat ((s - (lo + i * d)) / d)).sum := by
        apply List.sum_nonneg
        intro v hv
        obtain ⟨s, -, rfl⟩ := List.mem_map.1 hv
        exact hat_nonneg _
      have h3 : (y.map fun s => hat ((s - (lo + i * d)) / d)).sum ≤ y.length := by
        have := List.sum_le_card_nsmul (y.map fun s => hat ((s - (lo + i * d)) / d)) 1 (by
          intro v hv
          obtain ⟨s, -, rfl⟩ := List.mem_map.1 hv
          exact hat_le _)
        simpa using this
      have h4 : 1 / (n * d) * (y.map fun s => hat ((s - (lo + i * d)) / d)).sum ≤ 1 / d := by
        calc 1 / (n * d) * (y.map fun s => hat ((s - (lo + i * d)) / d)).sum ≤ 1 / (n * d) * n := by
              gcongr; exact h3.trans hyn
          _ = 1 / d := by field_simp
      have h4' : 0 ≤ 1 / (n * d) * (y.map fun s => hat ((s - (lo + i * d)) / d)).sum := by positivity
      have h5 : (y.length : ℚ) * (110 * UNIT * (M / d) * (1 / (n * d)) + 4 * UNIT * (1 / d)) ≤ 1 / d := by
        have hr : UNIT * (M / d) ≤ 1 / 4096 := by
          rw [← mul_div_assoc, div_le_iff₀ hd]; linarith
        have hUn : UNIT * n ≤ 1 / 4096 := by
          have := mul_le_mul_of_nonneg_left S.n_le hU.le
          rw [UNIT_small] at this
          exact this
        have hD : 0 < 1 / d := by positivity
        calc _ ≤ (n : ℚ) * (110 * UNIT * (M / d) * (1 / (n * d)) + 4 * UNIT * (1 / d)) := by gcongr
          _ = (110 * (UNIT * (M / d)) + 4 * (UNIT * n)) * (1 / d) := by field_simp
          _ ≤ 1 * (1 / d) := by gcongr; linarith
          _ = _ := one_mul _
      have h1' := abs_le.1 h1
      have e2 : (2 : ℚ) / d = 2 * (1 / d) := by ring
      rw [e2, abs_le]
      constructor <;> linarith
    obtain ⟨r1, k1, k2, k3, k4⟩ := S.spread_near hf w s hw (hx s List.mem_cons_self).1
      (hx s List.mem_cons_self).2 bins hl hbins
    obtain ⟨r, k5, k6, k7, k8⟩ := ih (fun s hs => hx s (List.mem_cons_of_mem _ hs)) (y ++ [s])
      (by simp; omega) r1 k2
      (by
        intro i hi'
        have a1 := abs_le.1 (k3 i hi')
        have a2 := abs_le.1 (hb i hi')
        simp only [List.map_append, List.map_cons, List.map_nil, List.sum_append, List.sum_cons, List.sum_nil,
          List.length_append, List.length_cons, List.length_nil]
        push_cast
        rw [abs_le]
        constructor <;> linarith)
      (by
        have a1 := abs_le.1 k4
        have a2 := abs_le.1 ht
        simp only [List.length_append, List.length_cons, List.length_nil]
        push_cast
        rw [abs_le]
        constructor <;> linarith)
    refine ⟨r, ?_, k6, ?_, ?_⟩
    · rw [List.foldlM_cons, k1]
      exact k5
    · simpa using k7
    · simpa using k8

/-- All bins. -/
theorem full_near (S : Sizes lo hi d M nb n) (hf : IsRounding fl) (x : List ℚ) (hxn : x.length = n)
    (hx : ∀ s ∈ x, lo ≤ s ∧ s ≤ hi) :
    ∃ r, fullBins1R fl x lo hi nb = .ok r ∧ r.length = nb + 1 ∧
      (∀ i < nb + 1, |r.getD i 0 - linearBin x d (lo + i * d)| ≤ (110 * (M / d) + 4 * n) * UNIT / d) ∧
      |total r (nb + 1) * d - 1| ≤ (172 * (M / d) + 8 * n) * UNIT := by
  have hd := S.d_pos
  have hn1 : (1 : ℚ) ≤ n := by exact_mod_cast S.n1
  have hn0 : (0 : ℚ) < n := by linarith
  have hz : ∀ i < nb + 1, (List.replicate (nb + 1) (0 : ℚ)).getD i 0 = 0 := by
    intro i hi'
    rw [List.getD_eq_getElem?_getD, List.getElem?_replicate, if_pos hi', Option.getD_some]
  have hzt : total (List.replicate (nb + 1) (0 : ℚ)) (nb + 1) = 0 :=
    Finset.sum_eq_zero fun i hi' => hz i (Finset.mem_range.1 hi')
  obtain ⟨r, k1, k2, k3, k4⟩ := S.fold_near hf (fl (1 / fl ((n : ℚ) * deltaR fl lo hi nb))) (S.weight_near hf) x hx []
    (by simp; omega) (List.replicate (nb + 1) 0) (by simp) (by intro i hi'; rw [hz i hi']; simp) (by rw [hzt]; simp)
  refine ⟨r, ?_, k2, fun i hi' => ?_, ?_⟩
  · unfold fullBins1R
    simp only []
    have := (S.delta_bounds hf).1
    rw [if_neg (by intro h; rw [h] at this; linarith), hxn]
    exact k1
  · have := k3 i hi'
    simp only [List.nil_append] at this
    unfold linearBin
    rw [hxn] at this ⊢
    have e1 : (x.map fun s => hat ((s - (lo + i * d)) / d)).sum / (n * d) =
      1 / (n * d) * (x.map fun s => hat ((s - (lo + i * d)) / d)).sum := by ring
    rw [e1]
    refine this.trans (le_of_eq ?_)
    field_simp
  · simp only [List.nil_append] at k4
    rw [hxn] at k4
    have e1 : total r (nb + 1) * d - 1 = (total r (nb + 1) - n * (1 / (n * d))) * d := by
      field_simp
    rw [e1, abs_mul, abs_of_pos hd]
    calc _ ≤ (n * (172 * UNIT * (M / d) * (1 / (n * d)) + 8 * UNIT * (1 / d))) * d := by gcongr
      _ = _ := by field_simp

end Sizes

end Verif.KDE
