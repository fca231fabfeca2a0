import Verif.KDE.PropsEntropy
import Verif.KDE.PropsGauss2

/-!
# Divergence of density estimates in two dimensions (C163)
-/

namespace Verif.KDE

theorem integral_congr (n : ℕ) (d : ℝ) (f g : ℕ → ℝ) (h : ∀ t < n, f t = g t) :
    integral n d f = integral n d g := by
  unfold integral
  exact Finset.sum_congr rfl fun t ht => by rw [h t (Finset.mem_range.1 ht)]

theorem integral_mul (n : ℕ) (d : ℝ) (f : ℕ → ℝ) : integral n d f = d * integral n 1 f := by
  unfold integral
  rw [Finset.mul_sum]
  refine Finset.sum_congr rfl fun t _ => ?_
  split_ifs <;> ring

theorem npExtrema_spec (x : List (ℝ × ℝ)) (h : x ≠ []) : ∃ a b c d : ℝ,
    npExtrema x = .ok ((a, b), (c, d)) ∧ Bounds2 none x a b c d := by
  have hf : x.map Prod.fst ≠ [] := by simpa using h
  have hs : x.map Prod.snd ≠ [] := by simpa using h
  obtain ⟨a, ea, ma, la⟩ := npMin_spec _ hf
  obtain ⟨b, eb, mb, lb⟩ := npMin_spec _ hs
  obtain ⟨c, ec, mc, lc⟩ := npMax_spec _ hf
  obtain ⟨d, ed, md, ld⟩ := npMax_spec _ hs
  refine ⟨a, b, c, d, ?_, ⟨⟨ma, fun s hs => la _ (List.mem_map_of_mem hs)⟩, mc,
    fun s hs => lc _ (List.mem_map_of_mem hs)⟩, ⟨mb, fun s hs => lb _ (List.mem_map_of_mem hs)⟩, md,
    fun s hs => ld _ (List.mem_map_of_mem hs)⟩
  unfold npExtrema
  rw [ea, eb, ec, ed]
  rfl

theorem trapz2 (f : ℕ → ℕ → ℝ) (n : ℕ) (hn : 2 ≤ n) (a b : ℝ) :
    trapz ((List.range n).map fun i => trapz ((List.range n).map fun j => f i j) a) b =
      integral n b fun i => integral n a fun j => f i j := by
  rw [trapz_integral _ _ (by simpa using hn), List.length_map, List.length_range]
  apply integral_congr
  intro i hi
  rw [getD_map_range, if_pos hi, trapz_integral _ _ (by simpa using hn), List.length_map, List.length_range]
  apply integral_congr
  intro j hj
  rw [getD_map_range, if_pos hj]

theorem shape_eq_map (l : List (List ℝ)) (n : ℕ) (h : Shape n n l) :
    l = (List.range n).map fun i => (List.range n).map fun j => get2 l i j :=
  list2_eq_map l n n _ h fun _ _ _ _ => rfl

theorem zip_map_range (n : ℕ) (g : ℝ → ℝ → ℝ) (f f' : ℕ → ℝ) :
    List.zipWith g ((List.range n).map f) ((List.range n).map f') =
      (List.range n).map fun j => g (f j) (f' j) := by
  rw [List.zipWith_map, List.zipWith_self]

/-! ## C163: two dimensions -/

/-- **C163**: what `kde_KL_divergence_2d` returns is minus the integral by trapezoids, on the grid of both
estimates, of the terms of the Kullback-Leibler divergence. That steps are exchanged between the two
integrations has no effect. -/
theorem C163_value (x y : List (ℝ × ℝ)) (hX hY : ℝ) (hhx : hX ≠ 0) (hhy : hY ≠ 0) (nb : ℕ)
    (hnb : 2 ≤ nb) (fft : Bool) (lx ly hx hy : ℝ) (hnx : x ≠ []) (hny : y ≠ [])
    (hb : Bounds2 none (x ++ y) lx ly hx hy) (hltx : lx < hx) (hlty : ly < hy) :
    ∃ gx gy p q, gaussian2 x hX hY nb fft (some ((lx, ly), (hx, hy))) = .ok (gx, gy, p) ∧
      gaussian2 y hX hY nb fft (some ((lx, ly), (hx, hy))) = .ok (gx, gy, q) ∧
      klDivergence2 x y hX hY nb fft = .ok
        (-(integral nb ((hx - lx) / ((nb : ℝ) - 1)) fun i => integral nb ((hy - ly) / ((nb : ℝ) - 1)) fun j =>
          klTerm ((p.getD i []).getD j 0) ((q.getD i []).getD j 0))) := by
  obtain ⟨⟨⟨b1, b2⟩, b3, b4⟩, ⟨b5, b6⟩, b7, b8⟩ := hb
  obtain ⟨hdx, ex⟩ := steps_pos lx hx nb hnb hltx
  obtain ⟨hdy, ey⟩ := steps_pos ly hy nb hnb hlty
  have hin : ∀ s ∈ x ++ y, (lx ≤ s.1 ∧ s.1 ≤ hx) ∧ ly ≤ s.2 ∧ s.2 ≤ hy :=
    fun s hs => ⟨⟨b2 s hs, b4 s hs⟩, b6 s hs, b8 s hs⟩
  have bx : Bounds2 (some ((lx, ly), (hx, hy))) x lx ly hx hy :=
    ⟨rfl, hnx, fun s hs => hin s (List.mem_append_left _ hs)⟩
  have by' : Bounds2 (some ((lx, ly), (hx, hy))) y lx ly hx hy :=
    ⟨rfl, hny, fun s hs => hin s (List.mem_append_right _ hs)⟩
  obtain ⟨gx, gy, p, ep, -, -, sp, -, -, -⟩ := C107_mass x hX hY hhx hhy nb hnb fft _ lx ly hx hy bx hltx hlty
  obtain ⟨gx', gy', q, eq, -, -, sq, -, -, -⟩ :=
    C107_mass y hX hY hhx hhy nb hnb fft _ lx ly hx hy by' hltx hlty
  have hg := (gaussian2_eq x hX hY hhx hhy nb hnb fft _ lx ly hx hy bx hltx hlty).symm.trans ep
  have hg' := (gaussian2_eq y hX hY hhx hhy nb hnb fft _ lx ly hx hy by' hltx hlty).symm.trans eq
  injection hg with hg
  injection hg with hg1 hg
  injection hg with hg2 _
  injection hg' with hg'
  injection hg' with hg1' hg'
  injection hg' with hg2' _
  obtain rfl : gx' = gx := hg1'.symm.trans hg1
  obtain rfl : gy' = gy := hg2'.symm.trans hg2
  refine ⟨gx', gy', p, q, ep, eq, ?_⟩
  obtain ⟨a, b, c, d, exx, ⟨⟨m1, l1⟩, m3, l3⟩, ⟨m2, l2⟩, m4, l4⟩ := npExtrema_spec x hnx
  obtain ⟨a', b', c', d', eyy, ⟨⟨m1', l1'⟩, m3', l3'⟩, ⟨m2', l2'⟩, m4', l4'⟩ := npExtrema_spec y hny
  have hlow : ∀ (f : ℝ × ℝ → ℝ) (u u' l : ℝ), u ∈ x.map f → u' ∈ y.map f → (∀ s ∈ x, u ≤ f s) →
      (∀ s ∈ y, u' ≤ f s) → l ∈ (x ++ y).map f → (∀ s ∈ x ++ y, l ≤ f s) → min u u' = l := by
    intro f u u' l h1 h2 h3 h4 h5 h6
    obtain ⟨s, hs, rfl⟩ := List.mem_map.1 h1
    obtain ⟨s', hs', rfl⟩ := List.mem_map.1 h2
    obtain ⟨r, hr, rfl⟩ := List.mem_map.1 h5
    apply le_antisymm
    · rcases List.mem_append.1 hr with h | h
      · exact le_trans (min_le_left _ _) (h3 _ h)
      · exact le_trans (min_le_right _ _) (h4 _ h)
    · exact le_min (h6 _ (List.mem_append_left _ hs)) (h6 _ (List.mem_append_right _ hs'))
  have hup : ∀ (f : ℝ × ℝ → ℝ) (u u' l : ℝ), u ∈ x.map f → u' ∈ y.map f → (∀ s ∈ x, f s ≤ u) →
      (∀ s ∈ y, f s ≤ u') → l ∈ (x ++ y).map f → (∀ s ∈ x ++ y, f s ≤ l) → max u u' = l := by
    intro f u u' l h1 h2 h3 h4 h5 h6
    obtain ⟨s, hs, rfl⟩ := List.mem_map.1 h1
    obtain ⟨s', hs', rfl⟩ := List.mem_map.1 h2
    obtain ⟨r, hr, rfl⟩ := List.mem_map.1 h5
    apply le_antisymm
    · exact max_le (h6 _ (List.mem_append_left _ hs)) (h6 _ (List.mem_append_right _ hs'))
    · rcases List.mem_append.1 hr with h | h
      · exact le_trans (h3 _ h) (le_max_left _ _)
      · exact le_trans (h4 _ h) (le_max_right _ _)
  unfold klDivergence2
  rw [exx, eyy]
  simp only [bind, Except.bind]
  rw [hlow Prod.fst a a' lx m1 m1' l1 l1' b1 b2, hlow Prod.snd b b' ly m2 m2' l2 l2' b5 b6,
    hup Prod.fst c c' hx m3 m3' l3 l3' b3 b4, hup Prod.snd d d' hy m4 m4' l4 l4' b7 b8, ep]
  simp only []
  rw [eq]
  simp only []
  rw [← hg1, ← hg2]
  have p0 : ∀ f : ℕ → ℝ, pyGet ((List.range nb).map f) 0 = .ok (f 0) :=
    fun f => pyGet_map_range nb 0 f (by omega)
  have p1 : ∀ f : ℕ → ℝ, pyGet ((List.range nb).map f) 1 = .ok (f 1) :=
    fun f => pyGet_map_range nb 1 f (by omega)
  rw [p0, p0, p1, p1]
  simp only [pure, Except.pure]
  congr 1
  have e2 : ∀ lo hi : ℝ, lo + ((1 : ℕ) : ℝ) * ((hi - lo) / ((nb : ℝ) - 1)) -
      (lo + ((0 : ℕ) : ℝ) * ((hi - lo) / ((nb : ℝ) - 1))) = (hi - lo) / ((nb : ℝ) - 1) := by
    intro lo hi
    push_cast; ring
  rw [e2, e2]
  have hpl : plogp2 p q = (List.range nb).map fun i => (List.range nb).map fun j =>
      -klTerm (get2 p i j) (get2 q i j) := by
    unfold plogp2
    conv_lhs => rw [shape_eq_map p nb sp, shape_eq_map q nb sq]
    rw [List.zipWith_map, List.zipWith_self]
    apply List.map_congr_left
    intro i _
    rw [zip_map_range]
    apply List.map_congr_left
    intro j _
    unfold klTerm EPSILON
    ring
  rw [hpl, List.map_map]
  simp only [Function.comp_def]
  rw [trapz2 _ nb hnb, integral_mul nb _ fun i => integral nb _ fun j => _,
    integral_mul nb ((hx - lx) / ((nb : ℝ) - 1)) fun i => integral nb ((hy - ly) / ((nb : ℝ) - 1)) fun j => _]
  simp only [integral_mul nb ((hx - lx) / ((nb : ℝ) - 1)), integral_mul nb ((hy - ly) / ((nb : ℝ) - 1))]
  unfold integral get2
  simp only [Finset.mul_sum, ← Finset.sum_neg_distrib]
  refine Finset.sum_congr rfl fun i _ => Finset.sum_congr rfl fun j _ => ?_
  ring

/-- **C163**: the divergence of samples from themselves is 0. -/
theorem C163_self (x : List (ℝ × ℝ)) (hX hY : ℝ) (hhx : hX ≠ 0) (hhy : hY ≠ 0) (nb : ℕ)
    (hnb : 2 ≤ nb) (fft : Bool) (lx ly hx hy : ℝ)
    (hb : Bounds2 none x lx ly hx hy) (hltx : lx < hx) (hlty : ly < hy) :
    klDivergence2 x x hX hY nb fft = .ok 0 := by
  have hb' : Bounds2 none (x ++ x) lx ly hx hy := by
    obtain ⟨⟨⟨b1, b2⟩, b3, b4⟩, ⟨b5, b6⟩, b7, b8⟩ := hb
    refine ⟨⟨⟨?_, ?_⟩, ?_, ?_⟩, ⟨?_, ?_⟩, ?_, ?_⟩
    · rw [List.map_append]; exact List.mem_append_left _ b1
    · simpa using b2
    · rw [List.map_append]; exact List.mem_append_left _ b3
    · simpa using b4
    · rw [List.map_append]; exact List.mem_append_left _ b5
    · simpa using b6
    · rw [List.map_append]; exact List.mem_append_left _ b7
    · simpa using b8
  have hne : x ≠ [] := by
    rintro rfl
    simp [Bounds2] at hb
  obtain ⟨gx, gy, p, q, h1, h2, h3⟩ :=
    C163_value x x hX hY hhx hhy nb hnb fft lx ly hx hy hne hne hb' hltx hlty
  obtain rfl : p = q := by
    have := h1.symm.trans h2
    injection this with this
    injection this with _ this
    injection this
  rw [h3]
  have ht : ∀ p : ℝ, klTerm p p = 0 := by
    intro p
    unfold klTerm
    by_cases h0 : p + 1 / 10 ^ 14 = 0
    · rw [h0, zero_div, Real.log_zero, mul_zero]
    · rw [div_self h0, Real.log_one, mul_zero]
  simp [ht, integral]

/-- **C163**: without samples, `ValueError`; errors of the estimates are kept. -/
theorem C163_errors (x y : List (ℝ × ℝ)) (hX hY : ℝ) (nb : ℤ) (fft : Bool) :
    (x = [] ∨ y = [] → klDivergence2 x y hX hY nb fft = .error .valueError) ∧
    (x ≠ [] → y ≠ [] → nb < 2 → klDivergence2 x y hX hY nb fft = .error .valueError) ∧
    ∀ lx ly hx hy, x ≠ [] → y ≠ [] → 2 ≤ nb → Bounds2 none (x ++ y) lx ly hx hy → lx < hx → ly < hy →
      hX = 0 ∨ hY = 0 → klDivergence2 x y hX hY nb fft = .error .zeroDivisionError := by
  refine ⟨?_, ?_, ?_⟩
  · rintro h
    have hnil : npExtrema [] = .error .valueError := rfl
    by_cases hx : x = []
    · unfold klDivergence2
      rw [hx, hnil]
      rfl
    · obtain ⟨a, b, c, d, e, -⟩ := npExtrema_spec x hx
      unfold klDivergence2
      rw [e, h.resolve_left hx, hnil]
      rfl
  · intro hx hy hn
    obtain ⟨a, b, c, d, e, -⟩ := npExtrema_spec x hx
    obtain ⟨a', b', c', d', e', -⟩ := npExtrema_spec y hy
    unfold klDivergence2
    rw [e, e']
    simp only [bind, Except.bind]
    unfold gaussian2 getBins2
    rw [if_pos hn]
    rfl
  · intro lx ly hx hy hnx hny h2 hb hltx hlty h0
    obtain ⟨⟨⟨b1, b2⟩, b3, b4⟩, ⟨b5, b6⟩, b7, b8⟩ := hb
    obtain ⟨a, b, c, d, exx, ⟨⟨m1, l1⟩, m3, l3⟩, ⟨m2, l2⟩, m4, l4⟩ := npExtrema_spec x hnx
    obtain ⟨a', b', c', d', eyy, ⟨⟨m1', l1'⟩, m3', l3'⟩, ⟨m2', l2'⟩, m4', l4'⟩ := npExtrema_spec y hny
    have hbx : Bounds2 (some ((min a a', min b b'), (max c c', max d d'))) x (min a a') (min b b')
        (max c c') (max d d') :=
      ⟨rfl, hnx, fun s hs => ⟨⟨le_trans (min_le_left _ _) (l1 s hs), le_trans (l3 s hs) (le_max_left _ _)⟩,
        le_trans (min_le_left _ _) (l2 s hs), le_trans (l4 s hs) (le_max_left _ _)⟩⟩
    have hlow : ∀ (f : ℝ × ℝ → ℝ) (u u' v v' l h : ℝ), (∀ s ∈ x, u ≤ f s) → (∀ s ∈ y, u' ≤ f s) →
        (∀ s ∈ x, f s ≤ v) → (∀ s ∈ y, f s ≤ v') → l ∈ (x ++ y).map f → h ∈ (x ++ y).map f → l < h →
        min u u' < max v v' := by
      intro f u u' v v' l h h1 h2 h3 h4 h5 h6 hlt
      obtain ⟨r, hr, rfl⟩ := List.mem_map.1 h5
      obtain ⟨r', hr', rfl⟩ := List.mem_map.1 h6
      have : min u u' ≤ f r := by
        rcases List.mem_append.1 hr with h | h
        · exact le_trans (min_le_left _ _) (h1 _ h)
        · exact le_trans (min_le_right _ _) (h2 _ h)
      have : f r' ≤ max v v' := by
        rcases List.mem_append.1 hr' with h | h
        · exact le_trans (h3 _ h) (le_max_left _ _)
        · exact le_trans (h4 _ h) (le_max_right _ _)
      linarith
    unfold klDivergence2
    rw [exx, eyy]
    simp only [bind, Except.bind]
    rw [(C107_errors x hX hY nb fft _).2 _ _ _ _ h2 hbx
      (hlow Prod.fst a a' c c' lx hx l1 l1' l3 l3' b1 b3 hltx)
      (hlow Prod.snd b b' d d' ly hy l2 l2' l4 l4' b5 b7 hlty) h0]

/-- **C163**: the divergence of different samples may be negative. -/
theorem C163_negative : ∃ v, klDivergence2 [(0, 0), (1, 1)] [(0, 0), (0, 0), (0, 0), (1, 1)] 1 1 2 false =
    .ok v ∧ v < 0 := by
  have hb : Bounds2 none ([(0, 0), (1, 1)] ++ [(0, 0), (0, 0), (0, 0), (1, 1)] : List (ℝ × ℝ)) 0 0 1 1 := by
    norm_num [Bounds2]
  obtain ⟨gx, gy, p, q, h1, h2, h3⟩ := C163_value [(0, 0), (1, 1)] [(0, 0), (0, 0), (0, 0), (1, 1)] 1 1
    one_ne_zero one_ne_zero 2 le_rfl false 0 0 1 1 (by simp) (by simp) hb one_pos one_pos
  refine ⟨_, h3, ?_⟩
  have bx : Bounds2 (some ((0, 0), (1, 1))) ([(0, 0), (1, 1)] : List (ℝ × ℝ)) 0 0 1 1 := by
    refine ⟨rfl, by simp, by norm_num⟩
  have by' : Bounds2 (some ((0, 0), (1, 1))) ([(0, 0), (0, 0), (0, 0), (1, 1)] : List (ℝ × ℝ)) 0 0 1 1 := by
    refine ⟨rfl, by simp, by norm_num⟩
  have ep := (gaussian2_eq [(0, 0), (1, 1)] 1 1 one_ne_zero one_ne_zero 2 le_rfl false _ 0 0 1 1 bx one_pos
    one_pos).symm.trans h1
  have eq := (gaussian2_eq [(0, 0), (0, 0), (0, 0), (1, 1)] 1 1 one_ne_zero one_ne_zero 2 le_rfl false _
    0 0 1 1 by' one_pos one_pos).symm.trans h2
  injection ep with ep
  injection ep with _ ep
  injection ep with _ ep
  injection eq with eq
  injection eq with _ eq
  injection eq with _ eq
  have hk : kernel2 (1 - 0) (1 - 0) ((1 - 0) / (((2 : ℕ) : ℝ) - 1)) ((1 - 0) / (((2 : ℕ) : ℝ) - 1)) 1 1 2
      0 0 = 1 := by
    unfold kernel2 kernelSum
    simp [kernel, Real.exp_ne_zero]
  have hp : p = [[1 / 2, 0], [0, 1 / 2]] := by
    rw [← ep]
    norm_num [List.range_succ, convolveSame, Finset.sum_range_succ, linearBin2, hat] at hk ⊢
    simp [hk]
  have hq : q = [[3 / 4, 0], [0, 1 / 4]] := by
    rw [← eq]
    norm_num [List.range_succ, convolveSame, Finset.sum_range_succ, linearBin2, hat] at hk ⊢
    simp [hk]
  rw [hp, hq]
  have l1 : klTerm (1 / 2) (3 / 4) + klTerm (1 / 2) (1 / 4) > 0 := by
    unfold klTerm
    rw [← mul_add, ← Real.log_mul (by positivity) (by positivity)]
    refine mul_pos (by norm_num) (Real.log_pos ?_)
    norm_num
  have l0 : klTerm 0 0 = 0 := by simp [klTerm]
  norm_num [Finset.sum_range_succ, integral, l0]
  norm_num at l1
  linarith

example : Bounds2 none ([(0, 0), (1, 2)] ++ [(2, 1)] : List (ℝ × ℝ)) 0 0 2 2 := by norm_num [Bounds2]

end Verif.KDE
