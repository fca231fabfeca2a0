import Verif.Features.Props

/-!
# Properties of iterative k-means (C64)
-/

namespace Verif.Features

/-- What `iterative_kmeans` needs of the routines on the data: one code for each vector, which is the
position of a centroid; singular values of a non empty array; k-means keeps the number of centroids. -/
structure Contract {d : ℕ} (R : Routines d) (data : List (Fin d → ℝ)) : Prop where
  vq_length : ∀ c, c ≠ [] → (R.vq data c).length = data.length
  vq_lt : ∀ c, c ≠ [] → ∀ x ∈ R.vq data c, x < c.length
  svd_ok : ∀ l, l ≠ [] → ∃ v s, R.svd l = .ok (v, s)
  kmeans_length : ∀ c, c ≠ [] → (R.kmeans2 data c).length = c.length

/-! ## Lemmas -/

theorem foldl_max_mem (l : List ℕ) (m : ℕ) : l.foldl max m = m ∨ l.foldl max m ∈ l := by
  induction l generalizing m with
  | nil => exact Or.inl rfl
  | cons a l ih =>
    rw [List.foldl_cons]
    rcases ih (max m a) with h | h
    · rw [h]
      rcases le_total m a with h' | h'
      · rw [max_eq_right h']; exact Or.inr List.mem_cons_self
      · exact Or.inl (max_eq_left h')
    · exact Or.inr (List.mem_cons_of_mem _ h)

theorem le_foldl (l : List ℕ) (m : ℕ) : m ≤ l.foldl max m ∧ ∀ x ∈ l, x ≤ l.foldl max m := by
  induction l generalizing m with
  | nil => simp
  | cons a l ih =>
    rw [List.foldl_cons]
    obtain ⟨h1, h2⟩ := ih (max m a)
    refine ⟨le_trans (le_max_left _ _) h1, fun x hx => ?_⟩
    rcases List.mem_cons.1 hx with rfl | hx
    · exact le_trans (le_max_right _ _) h1
    · exact h2 x hx

theorem argmaxNat_spec (l : List ℕ) (h : l ≠ []) :
    ∃ hlt : argmaxNat l < l.length, ∀ x ∈ l, x ≤ l[argmaxNat l] := by
  have hmem : l.foldl max 0 ∈ l := by
    rcases foldl_max_mem l 0 with h' | h'
    · obtain ⟨a, t, rfl⟩ := List.exists_cons_of_ne_nil h
      have := (le_foldl (a :: t) 0).2 a List.mem_cons_self
      rw [h'] at this ⊢
      rw [Nat.le_zero.1 this]
      exact List.mem_cons_self
    · exact h'
  refine ⟨List.idxOf_lt_length_iff.2 hmem, fun x hx => ?_⟩
  have : l[argmaxNat l]'(List.idxOf_lt_length_iff.2 hmem) = l.foldl max 0 := by
    unfold argmaxNat
    exact List.getElem_idxOf _
  rw [this]
  exact (le_foldl l 0).2 x hx

/-! ## C64: iterative k-means -/

/-- **C64**, a turn of the loop: the centroid with the most vectors is replaced with two points on each
side of it, at a distance `alpha` times the square root of the singular value along the singular vector,
and k-means starts from there. -/
theorem C64_turn {d : ℕ} (R : Routines d) (data : List (Fin d → ℝ)) (alpha : ℝ)
    (c : List (Fin d → ℝ)) (hR : Contract R data) (hd : data ≠ []) (hc : c ≠ []) :
    ∃ (m : ℕ) (hm : m < c.length), (∀ j, (R.vq data c).count j ≤ (R.vq data c).count m) ∧
      ∃ (v : Fin d → ℝ) (s : ℝ) (p1 p2 : Fin d → ℝ),
        R.svd (((data.zip (R.vq data c)).filter fun p => p.2 = m).map Prod.fst) = .ok (v, s) ∧
        splitStep R data alpha c = .ok (R.kmeans2 data (c.eraseIdx m ++ [p1, p2])) ∧
        ∀ j, p1 j + p2 j = 2 * c[m] j ∧ p1 j - c[m] j = alpha * (v j * Real.sqrt s) := by
  have hpos : 0 < c.length := List.length_pos_iff.2 hc
  have hb := bincount_eq (R.vq data c) c.length (hR.vq_lt c hc)
  have hne : bincount (R.vq data c) c.length ≠ [] := by
    rw [hb]
    intro e
    have := congrArg List.length e
    simp only [List.length_map, List.length_range, List.length_nil] at this
    omega
  obtain ⟨hlt, hmax⟩ := argmaxNat_spec _ hne
  have hm : argmaxNat (bincount (R.vq data c) c.length) < c.length := by
    have : (bincount (R.vq data c) c.length).length = c.length := by rw [hb]; simp
    omega
  set m := argmaxNat (bincount (R.vq data c) c.length) with hmd
  have hcount : ∀ j, (R.vq data c).count j ≤ (R.vq data c).count m := by
    intro j
    by_cases hj : j < c.length
    · have := hmax ((R.vq data c).count j) (by
        rw [hb]
        exact List.mem_map.2 ⟨j, List.mem_range.2 hj, rfl⟩)
      have e : (bincount (R.vq data c) c.length)[m] = (R.vq data c).count m := by
        simp only [hb, List.getElem_map, List.getElem_range]
      rw [← e]
      exact this
    · rw [List.count_eq_zero_of_not_mem fun h => hj (hR.vq_lt c hc j h)]
      exact Nat.zero_le _
  have hassoc : ((data.zip (R.vq data c)).filter fun p => p.2 = m).map Prod.fst ≠ [] := by
    obtain ⟨x, xs, hx⟩ := List.exists_cons_of_ne_nil hd
    have hq : R.vq data c ≠ [] := by
      intro e
      have := hR.vq_length c hc
      rw [e, hx] at this
      simp at this
    obtain ⟨y, ys, hy⟩ := List.exists_cons_of_ne_nil hq
    have h1 : 1 ≤ (R.vq data c).count y := by
      rw [hy]; simp
    have hmm : m ∈ R.vq data c := List.count_pos_iff.1 (by have := hcount y; omega)
    obtain ⟨i, hi, he⟩ := List.mem_iff_getElem.1 hmm
    have hi' : i < data.length := by rw [← hR.vq_length c hc]; exact hi
    rw [Ne, List.map_eq_nil_iff, List.filter_eq_nil_iff]
    intro hall
    have hz : (data[i], m) ∈ data.zip (R.vq data c) := by
      rw [List.mem_iff_getElem]
      exact ⟨i, by simp; omega, by simp [he]⟩
    exact hall _ hz (by simp)
  obtain ⟨v, s, hsvd⟩ := hR.svd_ok _ hassoc
  refine ⟨m, hm, hcount, v, s, fun j => c[m] j + alpha * (v j * Real.sqrt s),
    fun j => c[m] j - alpha * (v j * Real.sqrt s), hsvd, ?_, fun j => ⟨by ring, by ring⟩⟩
  unfold splitStep
  simp only [← hmd]
  rw [hsvd]
  simp only [bind, Except.bind]
  rw [pyGet_nat _ _ hm]
  simp only [pure, Except.pure]
  have h1 : pyUpto c (m : ℤ) = c.take m := by
    unfold pyUpto
    rw [pyBound_nonneg (by omega), Int.toNat_natCast, min_eq_left hm.le]
  have h2 : pyFrom c ((m : ℤ) + 1) = c.drop (m + 1) := by
    unfold pyFrom
    rw [pyBound_nonneg (by omega)]
    congr 1
    omega
  rw [h1, h2, List.eraseIdx_eq_take_drop_succ]
  simp

theorem step_length {d : ℕ} (R : Routines d) (data : List (Fin d → ℝ)) (alpha : ℝ)
    (c : List (Fin d → ℝ)) (hR : Contract R data) (hd : data ≠ []) (hc : c ≠ []) :
    ∃ c', splitStep R data alpha c = .ok c' ∧ c'.length = c.length + 1 := by
  obtain ⟨m, hm, -, v, s, p1, p2, -, h, -⟩ := C64_turn R data alpha c hR hd hc
  refine ⟨_, h, ?_⟩
  rw [hR.kmeans_length _ (by simp), List.length_append, List.length_eraseIdx_of_lt hm]
  have := List.length_pos_iff.2 hc
  simp
  omega

theorem loop_count {d : ℕ} (R : Routines d) (data : List (Fin d → ℝ)) (alpha : ℝ) (k : ℤ)
    (hR : Contract R data) (hd : data ≠ []) (fuel : ℕ) (c : List (Fin d → ℝ)) (hc : c ≠ [])
    (h1 : 1 ≤ fuel) (hf : k < fuel + c.length) :
    ∃ c', splitLoop R data alpha k fuel c = some (.ok c') ∧
      (c'.length : ℤ) = max k c.length := by
  induction fuel generalizing c with
  | zero => omega
  | succ fuel ih =>
    by_cases hk : (c.length : ℤ) < k
    · obtain ⟨c', hs, hl⟩ := step_length R data alpha c hR hd hc
      have hc' : c' ≠ [] := by
        intro e
        rw [e] at hl
        simp at hl
      obtain ⟨r, hr, hrl⟩ := ih c' hc' (by omega) (by omega)
      refine ⟨r, ?_, by omega⟩
      simp only [splitLoop]
      rw [if_pos hk, hs]
      exact hr
    · refine ⟨c, ?_, by omega⟩
      simp only [splitLoop]
      rw [if_neg hk]

/-- **C64**: `iterative_kmeans` ends, after at most `k` evaluations of its condition, and returns
`max(k, 1)` centroids. -/
theorem C64_count {d : ℕ} (R : Routines d) (data : List (Fin d → ℝ)) (k : ℤ) (alpha : ℝ)
    (hR : Contract R data) (hd : data ≠ []) (fuel : ℕ) (h1 : 1 ≤ fuel) (hk : k ≤ fuel) :
    ∃ c, iterativeKmeans R data k alpha fuel = some (.ok c) ∧ (c.length : ℤ) = max k 1 := by
  obtain ⟨c, hc, hl⟩ := loop_count R data alpha k hR hd fuel [mean data] (by simp) h1 (by simp; omega)
  exact ⟨c, hc, by simpa using hl⟩

/-- **C64**, `k` at most 1: the only centroid is the mean of the data, and no routine is called. -/
theorem C64_one {d : ℕ} (R : Routines d) (data : List (Fin d → ℝ)) (k : ℤ) (alpha : ℝ) (hk : k ≤ 1)
    (fuel : ℕ) (h1 : 1 ≤ fuel) :
    iterativeKmeans R data k alpha fuel =
      some (.ok [fun j => (data.map fun x => x j).sum / data.length]) := by
  obtain ⟨fuel, rfl⟩ : ∃ n, fuel = n + 1 := ⟨fuel - 1, by omega⟩
  unfold iterativeKmeans
  simp only [splitLoop]
  rw [if_neg (by simp; omega)]
  rfl

/-- **C64**: modes of `build_codebook`. -/
theorem C64_modes {d : ℕ} (R : Routines d) (raw : List (Fin d → ℝ) → ℤ → Py (List (Fin d → ℝ)))
    (data : List (Fin d → ℝ)) (k : ℤ) (fuel : ℕ) :
    buildCodebook R raw data k "raw" fuel = some (raw data k) ∧
    buildCodebook R raw data k "iterative" fuel = iterativeKmeans R data k (1 / 100) fuel ∧
    ∀ mode, mode ≠ "raw" → mode ≠ "iterative" →
      buildCodebook R raw data k mode fuel = some (.error .valueError) := by
  refine ⟨?_, ?_, fun mode h1 h2 => ?_⟩
  · unfold buildCodebook; rw [if_pos rfl]
  · unfold buildCodebook; rw [if_neg (by decide), if_pos rfl]
  · unfold buildCodebook; rw [if_neg h1, if_neg h2]

/-- Routines which put every vector in the first cluster and leave centroids as they are. -/
noncomputable def sampleRoutines : Routines 1 where
  vq := fun data _ => data.map fun _ => 0
  svd := fun l => if l = [] then .error .valueError else .ok (fun _ => 1, 4)
  kmeans2 := fun _ c => c

example (data : List (Fin 1 → ℝ)) : Contract sampleRoutines data where
  vq_length := fun c _ => by simp [sampleRoutines]
  vq_lt := fun c hc x hx => by
    obtain ⟨-, -, rfl⟩ := List.mem_map.1 hx
    exact List.length_pos_iff.2 hc
  svd_ok := fun l hl => ⟨fun _ => 1, 4, if_neg hl⟩
  kmeans_length := fun c _ => rfl

end Verif.Features
