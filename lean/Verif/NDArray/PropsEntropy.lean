import Verif.NDArray.Entropy
import Verif.NDArray.Props
import Verif.Metrics.Props
import Mathlib.Data.List.GetD

/-!
# Properties of `conditional_entropy` and `hoyer_sparseness` on arrays
-/

namespace Verif.NDArray

open Finset

/-! ### Indices -/

theorem valid_iff {s idx : List ℕ} :
    Valid s idx ↔ idx.length = s.length ∧ ∀ i, i < s.length → idx.getD i 0 < s.getD i 0 := by
  induction s generalizing idx with
  | nil => cases idx <;> simp [Valid]
  | cons n s ih =>
    cases idx with
    | nil => simp [Valid]
    | cons i idx =>
      have : Valid (n :: s) (i :: idx) ↔ i < n ∧ Valid s idx := by simp [Valid]
      rw [this, ih]
      constructor
      · rintro ⟨h1, h2, h3⟩
        refine ⟨by simp [h2], fun j hj => ?_⟩
        cases j with
        | zero => simpa using h1
        | succ j => simpa using h3 j (by simpa using hj)
      · rintro ⟨h1, h2⟩
        refine ⟨by simpa using h2 0 (by simp), by simpa using h1, fun j hj => ?_⟩
        simpa using h2 (j + 1) (by simpa using hj)

theorem nodup_indices (s : List ℕ) : (indices s).Nodup := by
  induction s with
  | nil => simp [indices]
  | cons n s ih =>
    rw [indices, List.nodup_flatMap]
    refine ⟨fun i _ => ih.map fun a b h => by simpa using h, ?_⟩
    have := List.nodup_range (n := n)
    refine List.Pairwise.imp (fun {a b} hab => ?_) this
    intro l h1 h2
    simp only [List.mem_map] at h1 h2
    obtain ⟨x, _, rfl⟩ := h1
    obtain ⟨y, _, h⟩ := h2
    exact hab (by simpa using (List.cons.inj h).1.symm)

theorem sum_indices (s : List ℕ) (f : List ℕ → ℝ) : ((indices s).map f).sum = ∑ idx ∈ (indices s).toFinset, f idx := by
  rw [List.sum_toFinset _ (nodup_indices s)]

theorem indices_append (t : List ℕ) (d : ℕ) :
    indices (t ++ [d]) = (indices t).flatMap fun l => (List.range d).map fun j => l ++ [j] := by
  induction t with
  | nil =>
    simp only [List.nil_append, indices, List.map_cons, List.map_nil, List.flatMap_cons, List.flatMap_nil, List.append_nil]
    rw [List.flatMap_def]
    induction d with
    | zero => rfl
    | succ d ih => simp [List.range_succ, ih]
  | cons n t ih =>
    simp only [List.cons_append, indices, ih, List.flatMap_assoc, List.map_flatMap, List.flatMap_map, List.map_map]
    rfl

theorem swapL_length (k l : ℕ) (x : List ℕ) : (swapL k l x).length = x.length := by simp [swapL]

theorem swapL_getD {k l : ℕ} {x : List ℕ} {i : ℕ} (hi : i < x.length) :
    (swapL k l x).getD i 0 = x.getD (if i = k then l else if i = l then k else i) 0 := by
  have : i < (swapL k l x).length := by rwa [swapL_length]
  rw [List.getD_eq_getElem _ _ this]
  simp [swapL]

theorem ext_getD {x y : List ℕ} (h : x.length = y.length) (he : ∀ i, i < x.length → x.getD i 0 = y.getD i 0) : x = y := by
  apply List.ext_getElem h
  intro i h1 h2
  have := he i h1
  rwa [List.getD_eq_getElem _ _ h1, List.getD_eq_getElem _ _ h2] at this

theorem swapL_swapL {k l : ℕ} {x : List ℕ} (hk : k < x.length) (hl : l < x.length) : swapL k l (swapL k l x) = x := by
  apply ext_getD (by simp [swapL_length])
  intro i hi
  rw [swapL_length, swapL_length] at hi
  rw [swapL_getD (by rwa [swapL_length]), swapL_getD (by split_ifs <;> omega)]
  congr 1
  split_ifs <;> omega

theorem valid_swapL {k l : ℕ} {s idx : List ℕ} (hk : k < s.length) (hl : l < s.length) (h : Valid s idx) :
    Valid (swapL k l s) (swapL k l idx) := by
  rw [valid_iff] at *
  refine ⟨by simp [swapL_length, h.1], fun i hi => ?_⟩
  rw [swapL_length] at hi
  rw [swapL_getD (by rw [h.1]; exact hi), swapL_getD hi]
  exact h.2 _ (by split_ifs <;> omega)

/-! ### Marginals -/

/-- The sum of the values at all indices with `j` on axis `k`. -/
noncomputable def marginal (h : ND ℝ) (k j : ℕ) : ℝ :=
  ∑ idx ∈ (indices h.shape).toFinset with idx.getD k 0 = j, h.value idx

/-- The entropy of a distribution on a finite set. -/
noncomputable def entropyOn {ι : Type} (t : Finset ι) (p : ι → ℝ) : ℝ := -∑ i ∈ t, p i * Real.log (p i)

theorem log_ind (v : ℝ) : v * Real.log (v + 1 * Metrics.ind (v = 0)) = v * Real.log v := by
  unfold Metrics.ind
  split_ifs with h <;> simp [h]

theorem entropyND_eq {a : ND ℝ} (h : a.WF) : entropyND a = entropyOn (indices a.shape).toFinset a.value := by
  unfold entropyND entropyOn
  rw [data_eq h, List.map_map, ← sum_indices]
  simp only [Function.comp_def, log_ind]

theorem sum_flat {β : Type} (L : List β) (g : β → ℕ → ℝ) {d j : ℕ} (hj : j < d) :
    ((List.range L.length).map fun i =>
      ((L.flatMap fun l => (List.range d).map fun j => g l j)[i * d + j]?).getD 0).sum = (L.map fun l => g l j).sum := by
  induction L with
  | nil => simp
  | cons l L ih =>
    rw [List.length_cons, List.range_succ_eq_map, List.map_cons, List.sum_cons, List.map_map, List.map_cons, List.sum_cons]
    congr 1
    · rw [List.flatMap_cons, List.getElem?_append_left (by simpa using hj)]
      simp [hj]
    · rw [← ih]
      congr 1
      apply List.map_congr_left
      intro i _
      simp only [Function.comp_apply, List.flatMap_cons]
      rw [List.getElem?_append_right (by simp [Nat.succ_mul]; omega)]
      congr 2
      simp [Nat.succ_mul]
      omega

/-- The sum along the first axis of the array which `conditional_entropy` has built. -/
theorem column_sums {h : ND ℝ} {axis : ℤ} {k : ℕ} (hk : IsAxis h.shape.length axis k)
    (h2 : 2 ≤ h.shape.length) :
    ∃ s s', swapaxes h axis (-1) = .ok s ∧ flattenFirst s = .ok s' ∧
      npSum s' (some 0) = .ok ⟨[h.shape.getD k 0], (List.range (h.shape.getD k 0)).map (marginal h k)⟩ := by
  have hk' := hk.1
  have hl : IsAxis h.shape.length (-1) (h.shape.length - 1) := ⟨by omega, Or.inr (by omega)⟩
  set l := h.shape.length - 1 with hldef
  obtain ⟨t, d, htd⟩ : ∃ t d, swapL k l h.shape = t ++ [d] := by
    have : swapL k l h.shape ≠ [] := by
      intro h0
      have := swapL_length k l h.shape
      rw [h0] at this
      simp at this
      omega
    exact ⟨_, _, (List.dropLast_append_getLast this).symm⟩
  have htl : t.length = l := by
    have := swapL_length k l h.shape
    rw [htd] at this
    simp at this
    omega
  have hd : d = h.shape.getD k 0 := by
    have := swapL_getD (k := k) (l := l) (x := h.shape) (i := l) (by omega)
    rw [htd] at this
    rw [List.getD_append_right _ _ _ _ (by omega)] at this
    simp only [htl, Nat.sub_self, List.getD_cons_zero] at this
    rw [this]
    congr 1
    split_ifs <;> omega
  have htne : t ≠ [] := by
    intro h0
    rw [h0] at htl
    simp at htl
    omega
  refine ⟨ofIndices (t ++ [d]) fun idx => (h.get (swapL k l idx)).getD 0,
    ⟨[t.prod, d], (indices (t ++ [d])).map fun idx => (h.get (swapL k l idx)).getD 0⟩, ?_, ?_, ?_⟩
  · rw [← htd]
    simp only [swapaxes, checkAxis_ok hk, checkAxis_ok hl]
    rfl
  · simp [flattenFirst, ofIndices, htne]
  · have hax : checkAxis 2 0 = .ok 0 := by decide
    have e : npSum ⟨[t.prod, d], (indices (t ++ [d])).map fun idx => (h.get (swapL k l idx)).getD 0⟩ (some 0) =
        .ok (ofIndices [d] fun idx => ((List.range t.prod).map fun j =>
          ((⟨[t.prod, d], (indices (t ++ [d])).map fun idx => (h.get (swapL k l idx)).getD 0⟩ : ND ℝ).get
            (idx.insertIdx 0 j)).getD 0).sum) := by
      simp only [npSum, reduceCtorEq, false_and, if_false, List.length_cons, List.length_nil, Nat.zero_add, Nat.reduceAdd, hax]
      rfl
    rw [e, ← hd]
    congr 1
    unfold ofIndices
    congr 1
    have e1 : indices [d] = (List.range d).map fun j => [j] := by
      have := indices_append [] d
      simpa [indices] using this
    rw [e1, List.map_map]
    apply List.map_congr_left
    intro j hj
    have hj := List.mem_range.1 hj
    simp only [Function.comp_apply, List.insertIdx_zero, ND.get, position, List.prod_cons, List.prod_nil, mul_one, add_zero]
    have hN : t.prod = (indices t).length := (length_indices t).symm
    rw [indices_append, List.map_flatMap]
    simp only [List.map_map, Function.comp_def]
    rw [hN, sum_flat (indices t) (fun x j => (h.data[position h.shape (swapL k l (x ++ [j]))]?).getD 0) hj]
    rw [sum_indices]
    unfold marginal
    refine Finset.sum_nbij' (fun x => swapL k l (x ++ [j])) (fun x => (swapL k l x).dropLast) ?_ ?_ ?_ ?_ ?_
    · intro x hx
      rw [List.mem_toFinset, mem_indices] at hx
      have hxl : x.length = l := by rw [hx.length, htl]
      have hv : Valid (t ++ [d]) (x ++ [j]) := by
        rw [← mem_indices, indices_append, List.mem_flatMap]
        exact ⟨x, mem_indices.2 hx, List.mem_map.2 ⟨j, List.mem_range.2 hj, rfl⟩⟩
      have hv2 : Valid (swapL k l (t ++ [d])) (swapL k l (x ++ [j])) :=
        valid_swapL (by simp [htl]; omega) (by simp [htl]) hv
      rw [← htd, swapL_swapL hk' hl.1] at hv2
      rw [Finset.mem_filter, List.mem_toFinset, mem_indices]
      refine ⟨hv2, ?_⟩
      rw [swapL_getD (by simp [hxl]; omega), if_pos rfl, List.getD_append_right _ _ _ _ (by omega)]
      simp [hxl]
    · intro x hx
      rw [Finset.mem_filter, List.mem_toFinset, mem_indices] at hx
      rw [List.mem_toFinset, mem_indices]
      have hv := valid_swapL hk' hl.1 hx.1
      rw [htd] at hv
      rw [valid_iff] at hv ⊢
      have hl1 := hv.1
      rw [List.length_append, List.length_singleton] at hl1
      refine ⟨by rw [List.length_dropLast]; omega, fun i hi => ?_⟩
      have := hv.2 i (by rw [List.length_append, List.length_singleton]; omega)
      rw [List.getD_append _ _ _ _ hi] at this
      rw [List.getD_eq_getElem _ _ (by rw [List.length_dropLast]; omega), List.getElem_dropLast]
      rwa [List.getD_eq_getElem _ _ (by omega)] at this
    · intro x hx
      rw [List.mem_toFinset, mem_indices] at hx
      have hxl : x.length = l := by rw [hx.length, htl]
      rw [swapL_swapL (by simp [hxl]; omega) (by simp [hxl])]
      simp
    · intro x hx
      rw [Finset.mem_filter, List.mem_toFinset, mem_indices] at hx
      have hxl : x.length = h.shape.length := hx.1.length
      have hne : swapL k l x ≠ [] := by
        intro h0
        have := swapL_length k l x
        rw [h0] at this
        simp at this
        omega
      have hj2 : (swapL k l x).getLast hne = j := by
        have e1 : (swapL k l x).getLast hne = (swapL k l x).getD l 0 := by
          rw [List.getLast_eq_getElem, ← List.getD_eq_getElem _ 0 (by rw [swapL_length]; omega)]
          congr 1
          rw [swapL_length]
          omega
        rw [e1, swapL_getD (by omega), ← hx.2]
        congr 1
        split_ifs <;> omega
      have : (swapL k l x).dropLast ++ [j] = swapL k l x := by
        rw [← hj2]
        exact List.dropLast_append_getLast hne
      rw [this]
      exact swapL_swapL (by omega) (by omega)
    · intro x _
      rfl

/-- **C219** (conditional entropy).  For an array with at least two dimensions, `conditional_entropy` is the entropy of its
values minus that of the sums over all axes but the given one, whatever the number of dimensions. -/
theorem C219_conditional_entropy {h : ND ℝ} (hw : h.WF) {axis : ℤ} {k : ℕ} (hk : IsAxis h.shape.length axis k)
    (h2 : 2 ≤ h.shape.length) (h1 : |h.data.sum - 1| ≤ 1 / 10 ^ 8 + 1 / 10 ^ 5) :
    conditionalEntropyND h axis = .ok (entropyOn (indices h.shape).toFinset h.value -
      entropyOn (range (h.shape.getD k 0)) (marginal h k)) := by
  obtain ⟨s, s', e1, e2, e3⟩ := column_sums hk h2
  have ha : Metrics.allcloseOne h.data.sum = true := by
    unfold Metrics.allcloseOne
    simpa using h1
  simp only [conditionalEntropyND, ha, if_true, e1, e2, e3, bind, Except.bind]
  show Except.ok _ = Except.ok _
  rw [entropyND_eq hw]
  congr 2
  unfold entropyND entropyOn
  rw [List.map_map, sum_range_map]
  simp only [Function.comp_def, log_ind]

/-- **C219** (vectors).  `conditional_entropy` of a vector raises `TypeError`. -/
theorem C219_vector {h : ND ℝ} {axis : ℤ} {n : ℕ} (hs : h.shape = [n]) (ha : axis = 0 ∨ axis = -1)
    (h1 : |h.data.sum - 1| ≤ 1 / 10 ^ 8 + 1 / 10 ^ 5) : conditionalEntropyND h axis = .error .typeError := by
  have hc : Metrics.allcloseOne h.data.sum = true := by
    unfold Metrics.allcloseOne
    simpa using h1
  rcases ha with rfl | rfl <;>
  simp [conditionalEntropyND, hc, swapaxes, hs, checkAxis, flattenFirst, ofIndices, swapL, bind, Except.bind, pure,
    Except.pure, List.range_succ]

/-- **C219** (errors).  Values which are not probabilities raise `AssertionError`, else axes which the array does not have
raise `ValueError`. -/
theorem C219_errors (h : ND ℝ) (axis : ℤ) :
    (1 / 10 ^ 8 + 1 / 10 ^ 5 < |h.data.sum - 1| → conditionalEntropyND h axis = .error .assertionError) ∧
      (|h.data.sum - 1| ≤ 1 / 10 ^ 8 + 1 / 10 ^ 5 → (∀ k, ¬ IsAxis h.shape.length axis k) →
        conditionalEntropyND h axis = .error .valueError) := by
  constructor
  · intro h1
    have ha : Metrics.allcloseOne h.data.sum = false := by
      unfold Metrics.allcloseOne
      simpa using h1
    simp [conditionalEntropyND, ha]
  · intro h1 hk
    have hc : Metrics.allcloseOne h.data.sum = true := by
      unfold Metrics.allcloseOne
      simpa using h1
    simp only [conditionalEntropyND, hc, if_true, swapaxes, checkAxis_error hk, bind, Except.bind]

/-- **C219** (sign).  The conditional entropy of probabilities is not negative. -/
theorem C219_nonneg {h : ND ℝ} (hw : h.WF) {axis : ℤ} {k : ℕ} (hk : IsAxis h.shape.length axis k)
    (h2 : 2 ≤ h.shape.length) (h0 : ∀ x ∈ h.data, 0 ≤ x) (h1 : h.data.sum = 1) :
    ∃ v, conditionalEntropyND h axis = .ok v ∧ 0 ≤ v := by
  refine ⟨_, C219_conditional_entropy hw hk h2 (by rw [h1]; norm_num), ?_⟩
  have hp : ∀ idx ∈ (indices h.shape).toFinset, 0 ≤ h.value idx := by
    intro idx hi
    rw [List.mem_toFinset, mem_indices] at hi
    have := get_value hw hi
    exact h0 _ (List.mem_of_getElem? this)
  have hm : ∀ idx ∈ (indices h.shape).toFinset, idx.getD k 0 ∈ range (h.shape.getD k 0) := by
    intro idx hi
    rw [List.mem_toFinset, mem_indices, valid_iff] at hi
    exact mem_range.2 (hi.2 k hk.1)
  have e : ∑ j ∈ range (h.shape.getD k 0), marginal h k j * Real.log (marginal h k j) =
      ∑ idx ∈ (indices h.shape).toFinset, h.value idx * Real.log (marginal h k (idx.getD k 0)) := by
    rw [← Finset.sum_fiberwise_of_maps_to hm]
    apply Finset.sum_congr rfl
    intro j _
    conv_lhs => rw [marginal, Finset.sum_mul]
    apply Finset.sum_congr rfl
    intro idx hi
    rw [(Finset.mem_filter.1 hi).2]
    rfl
  unfold entropyOn
  rw [e]
  have : ∑ idx ∈ (indices h.shape).toFinset, h.value idx * Real.log (h.value idx) ≤
      ∑ idx ∈ (indices h.shape).toFinset, h.value idx * Real.log (marginal h k (idx.getD k 0)) := by
    apply Finset.sum_le_sum
    intro idx hi
    rcases (hp idx hi).eq_or_lt with h3 | h3
    · rw [← h3]
      simp
    · apply mul_le_mul_of_nonneg_left _ h3.le
      apply Real.log_le_log h3
      unfold marginal
      exact Finset.single_le_sum (f := h.value) (fun i hi' => hp i (Finset.mem_filter.1 hi').1)
        (Finset.mem_filter.2 ⟨hi, rfl⟩)
  linarith

/-! ### Sparseness -/

theorem tupleGet_ok {t : List ℕ} {axis : ℤ} {k : ℕ} (h : IsAxis t.length axis k) : tupleGet t axis = .ok (t.getD k 0) := by
  obtain ⟨hk, rfl | rfl⟩ := h
  · simp [tupleGet, hk]
  · unfold tupleGet
    rw [if_neg (by omega), if_pos (by omega)]
    congr 2
    omega

theorem tupleGet_error {t : List ℕ} {axis : ℤ} (h : ∀ k, ¬ IsAxis t.length axis k) : tupleGet t axis = .error .indexError := by
  unfold tupleGet
  rw [if_neg, if_neg]
  · exact fun ⟨h1, h2⟩ => h (axis + t.length).toNat ⟨by omega, Or.inr (by omega)⟩
  · exact fun ⟨h1, h2⟩ => h axis.toNat ⟨by omega, Or.inl (by omega)⟩

theorem ofIndices_congr {s : List ℕ} {f g : List ℕ → ℝ} (h : ∀ idx, Valid s idx → f idx = g idx) :
    ofIndices s f = ofIndices s g := by
  unfold ofIndices
  congr 1
  exact List.map_congr_left fun idx hi => h idx (mem_indices.1 hi)

theorem npSum_map {a : ND ℝ} (h : a.WF) (f : ℝ → ℝ) {axis : ℤ} {k : ℕ} (hk : IsAxis a.shape.length axis k) :
    npSum (a.map f) (some axis) = .ok (ofIndices (a.shape.eraseIdx k) fun idx =>
      ∑ j ∈ range (a.shape.getD k 0), f (a.value (idx.insertIdx k j))) := by
  have hne : a.shape ≠ [] := by
    intro h0
    have := hk.1
    simp [h0] at this
  have e : npSum (a.map f) (some axis) = .ok (ofIndices (a.shape.eraseIdx k) fun idx =>
      ((List.range (a.shape.getD k 0)).map fun j => ((a.map f).get (idx.insertIdx k j)).getD 0).sum) := by
    unfold npSum
    simp only [ND.map, hne, false_and, if_false, checkAxis_ok hk]
    rfl
  rw [e]
  congr 1
  apply ofIndices_congr
  intro idx hv
  rw [sum_range_map]
  apply sum_congr rfl
  intro j hj
  rw [get_map, get_value h (valid_insert hk.1 hv (mem_range.1 hj))]
  rfl

/-- The indices of lines along an axis. -/
def others (X : ND ℝ) (k : ℕ) : Finset (List ℕ) := (indices (X.shape.eraseIdx k)).toFinset

/-- The ratio of norms of a line. -/
noncomputable def ratio (X : ND ℝ) (k : ℕ) (eps : ℝ) (idx : List ℕ) : ℝ :=
  ((∑ j ∈ range (X.shape.getD k 0), |X.value (idx.insertIdx k j)|) + eps) /
    (Real.sqrt (∑ j ∈ range (X.shape.getD k 0), X.value (idx.insertIdx k j) ^ 2) + eps)

/-- **C219** (sparseness).  `hoyer_sparseness` along an axis of an array of any number of dimensions compares the average of
the ratios of norms of the lines along that axis with the square root of its length `n`; it is not a number when there is
no line, or when `n` is 1. -/
theorem C219_hoyer {X : ND ℝ} (hw : X.WF) {axis : ℤ} {k : ℕ} (hk : IsAxis X.shape.length axis k) (eps : ℝ) :
    hoyerND X axis eps = .ok (if (X.shape.eraseIdx k).prod = 0 ∨ X.shape.getD k 0 = 1 then none else
      some ((Real.sqrt (X.shape.getD k 0) - (∑ idx ∈ others X k, ratio X k eps idx) / (X.shape.eraseIdx k).prod) /
        (Real.sqrt (X.shape.getD k 0) - 1))) := by
  have hz : List.zipWith (· / ·)
      (((ofIndices (X.shape.eraseIdx k) fun idx => ∑ j ∈ range (X.shape.getD k 0), |X.value (idx.insertIdx k j)|).map
        fun x => x + eps).data)
      (((ofIndices (X.shape.eraseIdx k) fun idx => ∑ j ∈ range (X.shape.getD k 0),
        X.value (idx.insertIdx k j) * X.value (idx.insertIdx k j)).map fun x => Real.sqrt x + eps).data) =
      (indices (X.shape.eraseIdx k)).map (ratio X k eps) := by
    simp only [ofIndices, ND.map, List.map_map, List.zipWith_map, List.zipWith_self, Function.comp_def]
    apply List.map_congr_left
    intro idx _
    simp only [ratio, sq]
  have hs : Real.sqrt (X.shape.getD k 0) - 1 = 0 ↔ X.shape.getD k 0 = 1 := by
    rw [sub_eq_zero, Real.sqrt_eq_one]
    exact_mod_cast Iff.rfl
  simp only [hoyerND, tupleGet_ok hk, npSum_map hw _ hk, bind, Except.bind, hz]
  show Except.ok _ = Except.ok _
  congr 1
  unfold averageND
  simp only [List.length_map, length_indices]
  by_cases h1 : (X.shape.eraseIdx k).prod = 0
  · simp [h1]
  · rw [if_neg h1]
    by_cases h2 : X.shape.getD k 0 = 1
    · rw [if_pos (Or.inr h2)]
      simp only [Option.bind_some, divide, if_pos (hs.2 h2)]
    · rw [if_neg (by tauto)]
      simp only [Option.bind_some, divide, if_neg (mt hs.1 h2), sum_indices, others]

/-- **C219** (range).  For axes of length at least 2 and at least a line, it is between 0 and 1. -/
theorem C219_hoyer_range {X : ND ℝ} (hw : X.WF) {axis : ℤ} {k : ℕ} (hk : IsAxis X.shape.length axis k) {eps : ℝ}
    (he : 0 < eps) (hn : 2 ≤ X.shape.getD k 0) (hl : (X.shape.eraseIdx k).prod ≠ 0) :
    ∃ v, hoyerND X axis eps = .ok (some v) ∧ 0 ≤ v ∧ v ≤ 1 := by
  refine ⟨_, by rw [C219_hoyer hw hk, if_neg]; push Not; exact ⟨hl, by omega⟩, ?_⟩
  have hc : (others X k).card = (X.shape.eraseIdx k).prod := by
    rw [others, List.toFinset_card_of_nodup (nodup_indices _), length_indices]
  have hne : Nonempty {idx // idx ∈ others X k} := by
    have : (others X k).Nonempty := Finset.card_pos.1 (by omega)
    exact ⟨⟨this.choose, this.choose_spec⟩⟩
  have := Metrics.C35_hoyer_range (fun (i : {idx // idx ∈ others X k}) (j : Fin (X.shape.getD k 0)) =>
    X.value (i.1.insertIdx k j)) eps he (by simpa using hn)
  have e : Metrics.hoyer (fun (i : {idx // idx ∈ others X k}) (j : Fin (X.shape.getD k 0)) =>
      X.value (i.1.insertIdx k j)) eps =
      (Real.sqrt (X.shape.getD k 0) - (∑ idx ∈ others X k, ratio X k eps idx) / (X.shape.eraseIdx k).prod) /
        (Real.sqrt (X.shape.getD k 0) - 1) := by
    unfold Metrics.hoyer
    simp only [Fintype.card_fin, Fintype.card_coe, hc]
    rw [← Finset.sum_coe_sort (others X k)]
    simp only [ratio, Finset.sum_range]
  rw [e] at this
  exact this

/-- **C219** (axes of sparseness).  Axes which the array does not have raise `IndexError`. -/
theorem C219_hoyer_axis (X : ND ℝ) (axis : ℤ) (eps : ℝ) (h : ∀ k, ¬ IsAxis X.shape.length axis k) :
    hoyerND X axis eps = .error .indexError := by
  simp only [hoyerND, tupleGet_error h, bind, Except.bind]

/-! ### Examples -/

/-- Probabilities of three variables. -/
noncomputable def cube : ND ℝ := ⟨[2, 1, 2], [1 / 2, 0, 1 / 4, 1 / 4]⟩

/-- `C219_conditional_entropy` for the second variable from the end of three, and `C219_nonneg`. -/
example : ∃ v, conditionalEntropyND cube (-2) = .ok v ∧ 0 ≤ v :=
  C219_nonneg (h := cube) (k := 1) (by simp [ND.WF, cube]) ⟨by decide, Or.inr rfl⟩ (by decide)
    (by intro x hx; simp [cube] at hx; rcases hx with rfl | rfl | rfl <;> norm_num) (by norm_num [cube])

/-- `C219_vector`. -/
example : conditionalEntropyND ⟨[2], [1 / 2, 1 / 2]⟩ 0 = .error .typeError := C219_vector rfl (Or.inl rfl) (by norm_num)

/-- `C219_errors`. -/
example : conditionalEntropyND ⟨[2], [1 / 2, 1]⟩ 0 = .error .assertionError ∧
    conditionalEntropyND cube 3 = .error .valueError :=
  ⟨(C219_errors _ _).1 (by norm_num [abs_of_pos]),
    (C219_errors _ _).2 (by norm_num [cube]) fun k h => by
      have h1 : k < 3 := h.1
      have h2 : (3 : ℤ) = k ∨ (3 : ℤ) = k - 3 := h.2
      omega⟩

/-- `C219_hoyer` and `C219_hoyer_range`: four lines of two values. -/
example : ∃ v, hoyerND ⟨[2, 2, 2], [1, 0, 1, 1, 0, 0, 2, 3]⟩ (-1) Metrics.EPSILON = .ok (some v) ∧ 0 ≤ v ∧ v ≤ 1 :=
  C219_hoyer_range (k := 2) (by simp [ND.WF]) ⟨by decide, Or.inr rfl⟩ (by unfold Metrics.EPSILON; norm_num) (by decide) (by decide)

end Verif.NDArray
