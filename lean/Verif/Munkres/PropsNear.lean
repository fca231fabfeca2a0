import Verif.Munkres.LemmasNear
import Verif.Window.Float
import Mathlib.Algebra.Group.Subgroup.ZPowers.Basic
import Mathlib.Algebra.Group.Subgroup.Lattice
import Mathlib.Tactic.IntervalCases

/-!
# Property C196 of `multimodal/lib/munkres.py`: optimality with rounded operations

The result is optimal when operations are exact on the numbers of the matrix (`C196_exact`, …) and nearly optimal in
general (`C196_doubles`, …); with doubles it is not always optimal (`C196_not_optimal`).
-/

namespace Verif.Munkres.Fl

open Verif.Window (dbl IsRounding)

/-- Specification: the largest loss stated, for an error `δ` of each operation on a matrix with `n` rows. -/
def maxLoss (n : ℕ) (δ : ℚ) : ℚ := n * (6 * (n + 1) ^ n + 2 * n ^ 2 + 2) * δ

theorem cost_le_of_near {e e' : ℕ → ℕ → ℚ} {c : ℚ} {n : ℕ} {s : List ℕ} (hs : s.Perm (List.range n))
    (h : ∀ u v, u < n → v < n → e u v ≤ e' u v + c) : cost e s ≤ cost e' s + n * c := by
  rw [cost_eq_zipIdx, cost_eq_zipIdx]
  have key : ∀ l : List (ℕ × ℕ), (∀ x ∈ l, e x.2 x.1 ≤ e' x.2 x.1 + c) →
      (l.map fun x => e x.2 x.1).sum ≤ (l.map fun x => e' x.2 x.1).sum + l.length * c := by
    intro l
    induction l with
    | nil => intro _; simp
    | cons a l ih =>
      intro h
      have h1 := h a List.mem_cons_self
      have h2 := ih fun x hx => h x (List.mem_cons_of_mem _ hx)
      simp only [List.map_cons, List.sum_cons, List.length_cons]
      push_cast
      linarith
  have := key s.zipIdx (by
    intro x hx
    obtain ⟨a, b, _⟩ := mem_zipIdx_perm hs hx
    exact h x.2 x.1 a b)
  rwa [List.length_zipIdx, hs.length_eq, List.length_range] at this

section
variable {fl : ℚ → ℚ} {R : AddSubgroup ℚ} {δ B V : ℚ}

theorem square_near (he : Err fl R δ B) (fuel : ℕ) (w : Mat) (hsq : w.n1 = w.n2) (hpos : 0 < w.n1)
    (hf : 2 * w.n1 + 1 ≤ fuel) (hw : ∀ i j, i < w.n1 → j < w.n2 → w.e i j ∈ R ∧ |w.e i j| ≤ V)
    (hB : 3 * labelMax w.n1 (2 * V + δ) δ w.n1 + (2 * V + δ) + 2 * δ ≤ B) :
    ∃ s : List ℕ, minWeightPermSquare fl fuel w = some (.ok (s.map some)) ∧ s.Perm (List.range w.n1) ∧
      ∀ p : List ℕ, p.Perm (List.range w.n1) → cost w.e s ≤ cost w.e p + maxLoss w.n1 δ := by
  have hδ := he.nonneg
  have hV : 0 ≤ V := le_trans (abs_nonneg _) (hw 0 0 hpos (hsq ▸ hpos)).2
  obtain ⟨m, hm, hmm, hmx⟩ := npMax_spec (entries_ne_nil hpos (hsq ▸ hpos))
  have hmem : ∀ x ∈ w.entries, ∃ i j, i < w.n1 ∧ j < w.n2 ∧ x = w.e i j := by
    intro x hx
    unfold Mat.entries at hx
    rw [List.mem_flatMap] at hx
    obtain ⟨i, hi, hx⟩ := hx
    rw [List.mem_map] at hx
    obtain ⟨j, hj, rfl⟩ := hx
    exact ⟨i, j, List.mem_range.1 hi, List.mem_range.1 hj, rfl⟩
  obtain ⟨i0, j0, hi0, hj0, hme⟩ := hmem m hmm
  have hmR : m ∈ R := hme ▸ (hw i0 j0 hi0 hj0).1
  have hmV : |m| ≤ V := hme ▸ (hw i0 j0 hi0 hj0).2
  have hBV : 2 * V ≤ B := by
    have : 0 ≤ labelMax w.n1 (2 * V + δ) δ w.n1 := by unfold labelMax; positivity
    linarith
  have hr : ∀ u v, u < w.n1 → v < w.n1 → m - w.e u v ∈ R ∧ |m - w.e u v| ≤ 2 * V := by
    intro u v hu hv
    obtain ⟨a, b⟩ := hw u v hu (hsq ▸ hv)
    exact ⟨R.sub_mem hmR a, (abs_sub _ _).trans (by linarith)⟩
  obtain ⟨s, h1, h2, h3⟩ := maxWeightMatching_near (W := 2 * V + δ) he fuel w.n1 (fun u v => fl (m - w.e u v)) hf hpos
    (by
      intro u v hu hv
      obtain ⟨a, b⟩ := hr u v hu hv
      refine ⟨he.mem _ a (b.trans hBV), ?_⟩
      have := he.near _ a (b.trans hBV)
      rw [abs_le] at *
      constructor <;> linarith) hB
  refine ⟨s, ?_, h2, ?_⟩
  · unfold minWeightPermSquare
    rw [hm]
    exact h1
  · intro p hp
    have h4 := h3 p hp
    have h5 := cost_le_of_near (e := fun u v => m - w.e u v) (e' := fun u v => fl (m - w.e u v)) (c := δ) hp (by
      intro u v hu hv
      obtain ⟨a, b⟩ := hr u v hu hv
      have := (abs_le.1 (he.near _ a (b.trans hBV))).1
      linarith)
    have h6 := cost_le_of_near (e := fun u v => fl (m - w.e u v)) (e' := fun u v => m - w.e u v) (c := δ) h2 (by
      intro u v hu hv
      obtain ⟨a, b⟩ := hr u v hu hv
      have := (abs_le.1 (he.near _ a (b.trans hBV))).2
      linarith)
    rw [cost_const_sub] at h5 h6
    rw [hp.length_eq] at h5
    rw [h2.length_eq] at h6
    have : maxLoss w.n1 δ = loss w.n1 δ + 2 * w.n1 * δ := by unfold maxLoss loss; ring
    rw [this]
    linarith

/-- Square matrices. -/
theorem near_square (he : Err fl R δ B) (fuel : ℕ) (w : Mat) (hsq : w.n1 = w.n2) (hpos : 0 < w.n1)
    (hf : 2 * w.n1 + 1 ≤ fuel) (hw : ∀ i j, i < w.n1 → j < w.n2 → w.e i j ∈ R ∧ |w.e i j| ≤ V)
    (hB : 3 * labelMax w.n1 (2 * V + δ) δ w.n1 + (2 * V + δ) + 2 * δ ≤ B) :
    ∃ s : List ℕ, minWeightPerm fl fuel w = some (.ok (s.map some)) ∧ s.Perm (List.range w.n1) ∧
      ∀ p : List ℕ, p.Perm (List.range w.n1) → cost w.e s ≤ cost w.e p + maxLoss w.n1 δ := by
  obtain ⟨s, h1, h2, h3⟩ := square_near he fuel w hsq hpos hf hw hB
  refine ⟨s, ?_, h2, h3⟩
  unfold minWeightPerm minWeightPermWide
  rw [if_neg (by omega), if_neg (by omega), h1]
  simp only [Option.map_some, Except.map, Option.some.injEq, Except.ok.injEq]
  apply List.take_of_length_le
  rw [List.length_map, h2.length_eq, List.length_range]

/-- Fewer rows than columns. -/
theorem near_fewer (he : Err fl R δ B) (h1R : (1 : ℚ) ∈ R) (fuel : ℕ) (w : Mat) (hlt : w.n1 < w.n2) (hpos : 0 < w.n1)
    (hf : 2 * w.n2 + 1 ≤ fuel) (hw : ∀ i j, i < w.n1 → j < w.n2 → w.e i j ∈ R ∧ |w.e i j| ≤ V)
    (hB : 3 * labelMax w.n2 (2 * (V + 1 + δ) + δ) δ w.n2 + (2 * (V + 1 + δ) + δ) + 2 * δ ≤ B) :
    ∃ s : List ℕ, minWeightPerm fl fuel w = some (.ok (s.map some)) ∧ s.length = w.n1 ∧ s.Nodup ∧
      (∀ j ∈ s, j < w.n2) ∧
      ∀ p : List ℕ, p.length = w.n1 → p.Nodup → (∀ j ∈ p, j < w.n2) →
        cost w.e s ≤ cost w.e p + maxLoss w.n2 δ := by
  have hδ := he.nonneg
  have hV : 0 ≤ V := le_trans (abs_nonneg _) (hw 0 0 hpos (by omega)).2
  obtain ⟨m, hm, hmm, _⟩ := npMax_spec (entries_ne_nil hpos (by omega : 0 < w.n2))
  have hmR : m ∈ R ∧ |m| ≤ V := by
    unfold Mat.entries at hmm
    rw [List.mem_flatMap] at hmm
    obtain ⟨i, hi, hx⟩ := hmm
    rw [List.mem_map] at hx
    obtain ⟨j, hj, rfl⟩ := hx
    exact hw i j (List.mem_range.1 hi) (List.mem_range.1 hj)
  have hm1 : m + 1 ∈ R := R.add_mem hmR.1 h1R
  have hm1b : |m + 1| ≤ V + 1 := (abs_add_le _ _).trans (by rw [abs_one]; linarith [hmR.2])
  have hBV : V + 1 ≤ B := by
    have : 0 ≤ labelMax w.n2 (2 * (V + 1 + δ) + δ) δ w.n2 := by unfold labelMax; positivity
    linarith
  have hc1 := he.mem _ hm1 (hm1b.trans hBV)
  have hc2 : |fl (m + 1)| ≤ V + 1 + δ := by
    have := he.near _ hm1 (hm1b.trans hBV)
    rw [abs_le] at *
    constructor <;> linarith
  obtain ⟨s2, h1, h2, h3⟩ := square_near (V := V + 1 + δ) he fuel
    ⟨w.n2, w.n2, fun i j => if i < w.n1 then w.e i j else fl (m + 1)⟩ rfl (by show 0 < w.n2; omega) hf
    (by
      intro i j hi hj
      show (if i < w.n1 then w.e i j else fl (m + 1)) ∈ R ∧ |if i < w.n1 then w.e i j else fl (m + 1)| ≤ V + 1 + δ
      split
      · rename_i hi'
        exact ⟨(hw i j hi' hj).1, (hw i j hi' hj).2.trans (by linarith)⟩
      · exact ⟨hc1, hc2⟩) hB
  have hlen2 : s2.length = w.n2 := by rw [h2.length_eq, List.length_range]
  have hlen : (s2.take w.n1).length = w.n1 := by rw [List.length_take]; omega
  refine ⟨s2.take w.n1, ?_, hlen, ?_, ?_, ?_⟩
  · unfold minWeightPerm minWeightPermWide
    rw [if_neg (by omega), if_pos hlt, hm]
    simp only []
    rw [h1]
    simp only [Option.map_some, Except.map, List.map_take]
  · exact ((h2.nodup_iff).2 List.nodup_range).sublist (List.take_sublist _ _)
  · intro j hj
    exact List.mem_range.1 (h2.mem_iff.1 (List.mem_of_mem_take hj))
  · intro p hp hnd hlt'
    have := h3 _ (complete_perm hnd hlt')
    rw [cost_pad _ _ hp] at this
    conv_lhs at this => rw [← List.take_append_drop w.n1 s2]
    simp only [] at this
    rw [cost_pad _ _ hlen] at this
    have hl1 : (s2.drop w.n1).length = ((List.range w.n2).filter (fun j => j ∉ p)).length := by
      have := (complete_perm hnd hlt').length_eq
      rw [List.length_append, List.length_range] at this
      rw [List.length_drop]; omega
    rw [hl1] at this
    linarith

/-- Choices of a row for each column, seen from the rows. -/
theorem transpose_choice {fuel : ℕ} {w : Mat} {c : ℚ} (hlt : w.n2 < w.n1)
    (h : ∃ s : List ℕ, minWeightPerm fl fuel w.T = some (.ok (s.map some)) ∧ s.length = w.n2 ∧ s.Nodup ∧
      (∀ j ∈ s, j < w.n1) ∧
      ∀ p : List ℕ, p.length = w.n2 → p.Nodup → (∀ j ∈ p, j < w.n1) → cost w.T.e s ≤ cost w.T.e p + c) :
    ∃ r : List (Option ℕ), minWeightPerm fl fuel w = some (.ok r) ∧ r.length = w.n1 ∧
      (∀ j, some j ∈ r → j < w.n2) ∧
      (∀ j, j < w.n2 → ∃! i : ℕ, r[i]? = some (some j)) ∧
      ∀ r' : List (Option ℕ), r'.length = w.n1 → (∀ j, some j ∈ r' → j < w.n2) →
        (∀ j, j < w.n2 → ∃! i : ℕ, r'[i]? = some (some j)) →
        partialCost w.e r ≤ partialCost w.e r' + c := by
  obtain ⟨s, h1, h2, h3, h4, h5⟩ := h
  obtain ⟨r, k1, k2, k3⟩ := C33_reverse_injective s w.n1 h4 h3
  have h1' : minWeightPermWide fl fuel w.T = some (.ok (s.map some)) := by
    unfold minWeightPerm at h1
    rwa [if_neg (by show ¬ w.n1 < w.n2; omega)] at h1
  refine ⟨r, ?_, k2, ?_, ?_, ?_⟩
  · unfold minWeightPerm
    rw [if_pos hlt, h1']
    simp only [Option.map_some, Except.bind, asIndices_map_some]
    rw [k1]
  · intro j hj
    obtain ⟨i, hi, hij⟩ := List.getElem_of_mem hj
    have := (k3 j i).1 (by rw [List.getElem?_eq_getElem hi, hij])
    have := (List.getElem?_eq_some_iff.1 this).1
    rw [h2] at this; exact this
  · intro j hj
    have hj' : j < s.length := by rw [h2]; exact hj
    refine ⟨s[j], (k3 j s[j]).2 (List.getElem?_eq_getElem hj'), ?_⟩
    intro i hi
    have := (k3 j i).1 hi
    rw [List.getElem?_eq_getElem hj'] at this
    exact (Option.some.inj this).symm
  · intro r' hl hm hc
    obtain ⟨s', hs'⟩ : ∃ s' : List ℕ, s' = (List.range w.n2).map fun j => r'.idxOf (some j) := ⟨_, rfl⟩
    have hidx : ∀ j, j < w.n2 → r'[r'.idxOf (some j)]? = some (some j) := by
      intro j hj
      obtain ⟨i, hi, _⟩ := hc j hj
      have := List.idxOf_lt_length_iff.2 (List.mem_of_getElem? hi)
      rw [List.getElem?_eq_getElem this, List.getElem_idxOf]
    have hinv : ∀ i j : ℕ, r'[i]? = some (some j) ↔ s'[j]? = some i := by
      intro i j
      rw [hs', List.getElem?_map]
      constructor
      · intro hi
        have hj := hm j (List.mem_of_getElem? hi)
        rw [List.getElem?_range hj]
        simp only [Option.map_some, Option.some.injEq]
        exact (hc j hj).unique (hidx j hj) hi
      · intro hi
        by_cases hj : j < w.n2
        · rw [List.getElem?_range hj] at hi
          simp only [Option.map_some, Option.some.injEq] at hi
          rw [← hi]
          exact hidx j hj
        · rw [List.getElem?_eq_none (by simpa using hj)] at hi
          cases hi
    rw [partialCost_eq (fun i j => k3 j i), partialCost_eq hinv]
    apply h5
    · rw [hs']; simp
    · rw [hs']
      apply List.Nodup.map_on _ List.nodup_range
      intro a ha b hb hab
      have e1 := hidx a (List.mem_range.1 ha)
      have e2 := hidx b (List.mem_range.1 hb)
      rw [hab, e2] at e1
      simpa using e1.symm
    · intro i hi
      rw [hs'] at hi
      obtain ⟨j, hj, rfl⟩ := List.mem_map.1 hi
      rw [← hl]
      exact (List.getElem?_eq_some_iff.1 (hidx j (List.mem_range.1 hj))).1

end

/-! ### Matrices on which operations are exact -/

/-- Operations are exact on small multiples of `q`. -/
theorem err_exact {fl : ℚ → ℚ} {q : ℚ} (hq : 0 < q) {K : ℕ} (h : ∀ k : ℤ, |k| ≤ K → fl (k * q) = k * q) :
    Err fl (AddSubgroup.zmultiples q) 0 (K * q) := by
  have key : ∀ x ∈ AddSubgroup.zmultiples q, |x| ≤ K * q → fl x = x := by
    intro x hx hb
    obtain ⟨k, rfl⟩ := AddSubgroup.mem_zmultiples_iff.1 hx
    rw [zsmul_eq_mul] at hb ⊢
    apply h
    rw [abs_mul, abs_of_pos hq] at hb
    have := le_of_mul_le_mul_right hb hq
    exact_mod_cast this
  refine ⟨le_rfl, fun x hx hb => by rw [key x hx hb]; exact hx, fun x hx hb => ?_⟩
  rw [key x hx hb, sub_self, abs_zero]

theorem maxLoss_zero (n : ℕ) : maxLoss n 0 = 0 := by unfold maxLoss; ring

theorem multiple_mem {q : ℚ} (hq : 0 < q) {x : ℚ} {K : ℕ} (h : ∃ k : ℤ, |k| ≤ K ∧ x = k * q) :
    x ∈ AddSubgroup.zmultiples q ∧ |x| ≤ K * q := by
  obtain ⟨k, hk, rfl⟩ := h
  refine ⟨AddSubgroup.mem_zmultiples_iff.2 ⟨k, by rw [zsmul_eq_mul]⟩, ?_⟩
  rw [abs_mul, abs_of_pos hq]
  have : |(k : ℚ)| ≤ K := by exact_mod_cast hk
  exact mul_le_mul_of_nonneg_right this hq.le

theorem label_exact {n K N : ℕ} {q : ℚ} (hq : 0 < q) (hK : (12 * n + 8) * K ≤ N) :
    3 * labelMax n (2 * (K * q) + 0) 0 n + (2 * (K * q) + 0) + 2 * 0 ≤ N * q := by
  have : ((12 * n + 8 : ℕ) : ℚ) * K * q ≤ N * q :=
    mul_le_mul_of_nonneg_right (by exact_mod_cast hK) hq.le
  push_cast at this
  unfold labelMax
  linarith

/-- **C196.** When `fl` changes no multiple of `q` up to `N q`, `min_weight_perm` finds a permutation of minimal total
weight in each square matrix of multiples of `q` up to `K q` with `(12 n + 8) K ≤ N`. -/
theorem C196_exact (fl : ℚ → ℚ) (q : ℚ) (hq : 0 < q) (N : ℕ) (hfl : ∀ k : ℤ, |k| ≤ N → fl (k * q) = k * q)
    (fuel : ℕ) (w : Mat) (hsq : w.n1 = w.n2) (hpos : 0 < w.n1) (hf : 2 * w.n1 + 1 ≤ fuel) (K : ℕ)
    (hw : ∀ i j, i < w.n1 → j < w.n2 → ∃ k : ℤ, |k| ≤ K ∧ w.e i j = k * q) (hK : (12 * w.n1 + 8) * K ≤ N) :
    ∃ s : List ℕ, minWeightPerm fl fuel w = some (.ok (s.map some)) ∧ s.Perm (List.range w.n1) ∧
      ∀ p : List ℕ, p.Perm (List.range w.n1) → cost w.e s ≤ cost w.e p := by
  have := near_square (err_exact hq hfl) fuel w hsq hpos hf (fun i j hi hj => multiple_mem hq (hw i j hi hj))
    (label_exact hq hK)
  simpa only [maxLoss_zero, add_zero] using this

/-- **C196.** The same with fewer rows than columns, the number `1` being one of the multiples. -/
theorem C196_exact_fewer_rows (fl : ℚ → ℚ) (d : ℕ) (hd : 0 < d) (N : ℕ)
    (hfl : ∀ k : ℤ, |k| ≤ N → fl (k * (1 / d : ℚ)) = k * (1 / d : ℚ))
    (fuel : ℕ) (w : Mat) (hlt : w.n1 < w.n2) (hpos : 0 < w.n1) (hf : 2 * w.n2 + 1 ≤ fuel) (K : ℕ)
    (hw : ∀ i j, i < w.n1 → j < w.n2 → ∃ k : ℤ, |k| ≤ K ∧ w.e i j = k * (1 / d : ℚ))
    (hK : (12 * w.n2 + 8) * (K + d) ≤ N) :
    ∃ s : List ℕ, minWeightPerm fl fuel w = some (.ok (s.map some)) ∧ s.length = w.n1 ∧ s.Nodup ∧
      (∀ j ∈ s, j < w.n2) ∧
      ∀ p : List ℕ, p.length = w.n1 → p.Nodup → (∀ j ∈ p, j < w.n2) → cost w.e s ≤ cost w.e p := by
  have hd' : (0 : ℚ) < d := by exact_mod_cast hd
  have hq : (0 : ℚ) < 1 / d := by positivity
  have h1 : (1 : ℚ) = d * (1 / d) := by field_simp
  have := near_fewer (err_exact hq hfl)
    (AddSubgroup.mem_zmultiples_iff.2 ⟨(d : ℤ), by rw [zsmul_eq_mul]; push_cast; exact h1.symm⟩) fuel w hlt hpos hf
    (fun i j hi hj => multiple_mem hq (hw i j hi hj)) (by
      have h2 := label_exact (K := K + d) hq hK
      have h3 : ((K + d : ℕ) : ℚ) * (1 / d) = K * (1 / d) + 1 + 0 := by push_cast; rw [add_mul, ← h1]; ring
      rw [h3] at h2
      exact h2)
  simpa only [maxLoss_zero, add_zero] using this

/-- **C196.** The same with more rows than columns. -/
theorem C196_exact_more_rows (fl : ℚ → ℚ) (d : ℕ) (hd : 0 < d) (N : ℕ)
    (hfl : ∀ k : ℤ, |k| ≤ N → fl (k * (1 / d : ℚ)) = k * (1 / d : ℚ))
    (fuel : ℕ) (w : Mat) (hlt : w.n2 < w.n1) (hpos : 0 < w.n2) (hf : 2 * w.n1 + 1 ≤ fuel) (K : ℕ)
    (hw : ∀ i j, i < w.n1 → j < w.n2 → ∃ k : ℤ, |k| ≤ K ∧ w.e i j = k * (1 / d : ℚ))
    (hK : (12 * w.n1 + 8) * (K + d) ≤ N) :
    ∃ r : List (Option ℕ), minWeightPerm fl fuel w = some (.ok r) ∧ r.length = w.n1 ∧
      (∀ j, some j ∈ r → j < w.n2) ∧
      (∀ j, j < w.n2 → ∃! i : ℕ, r[i]? = some (some j)) ∧
      ∀ r' : List (Option ℕ), r'.length = w.n1 → (∀ j, some j ∈ r' → j < w.n2) →
        (∀ j, j < w.n2 → ∃! i : ℕ, r'[i]? = some (some j)) → partialCost w.e r ≤ partialCost w.e r' := by
  have := transpose_choice (fl := fl) (fuel := fuel) (c := 0) hlt (by
    have := C196_exact_fewer_rows fl d hd N hfl fuel w.T hlt hpos hf K (fun i j hi hj => hw j i hj hi) hK
    simp only [add_zero]
    exact this)
  simpa only [add_zero] using this

/-- Doubles change no multiple of a power of two up to `2 ^ 53` times this power. -/
theorem dbl_multiple (e : ℤ) (he : -1074 ≤ e) (k : ℤ) (hk : |k| ≤ ((2 ^ 53 : ℕ) : ℤ)) :
    dbl (k * (2 : ℚ) ^ e) = k * (2 : ℚ) ^ e :=
  Window.dbl_of_double ⟨k, e, by simpa using hk, he, rfl⟩

/-- **C196.** With doubles: on matrices of integers below `2 ^ 53 / (12 n + 8)`, as on matrices of such integers multiplied
by a power of two, the permutation found has minimal total weight. -/
theorem C196_exact_doubles (e : ℤ) (he : -1074 ≤ e) (fuel : ℕ) (w : Mat) (hsq : w.n1 = w.n2) (hpos : 0 < w.n1)
    (hf : 2 * w.n1 + 1 ≤ fuel) (K : ℕ)
    (hw : ∀ i j, i < w.n1 → j < w.n2 → ∃ k : ℤ, |k| ≤ K ∧ w.e i j = k * (2 : ℚ) ^ e)
    (hK : (12 * w.n1 + 8) * K ≤ 2 ^ 53) :
    ∃ s : List ℕ, minWeightPerm dbl fuel w = some (.ok (s.map some)) ∧ s.Perm (List.range w.n1) ∧
      ∀ p : List ℕ, p.Perm (List.range w.n1) → cost w.e s ≤ cost w.e p :=
  C196_exact dbl (2 ^ e) (Window.two_zpow_pos e) (2 ^ 53) (dbl_multiple e he) fuel w hsq hpos hf K hw hK

/-! ### Any matrix -/

set_option exponentiation.threshold 2000 in
theorem err_rounding {fl : ℚ → ℚ} (h : IsRounding fl) {δ B : ℚ} (hδ : B / 2 ^ 53 + 1 / 2 ^ 1075 ≤ δ) (h0 : 0 ≤ δ) :
    Err fl ⊤ δ B := by
  refine ⟨h0, fun _ _ _ => AddSubgroup.mem_top _, fun x _ hb => (h.near x).trans ?_⟩
  have : |x| / 2 ^ 53 ≤ B / 2 ^ 53 := by gcongr
  linarith

theorem pow_small {n : ℕ} (hn : n ≤ 10) : ((n : ℚ) + 1) ^ n ≤ 26 * 10 ^ 9 := by
  interval_cases n <;> norm_num

/-- The bounds are met by doubles up to ten rows. -/
theorem label_small {n : ℕ} (hn : n ≤ 10) (hpos : 0 < n) {V : ℚ} (hV : 0 ≤ V) :
    3 * labelMax n (2 * V + (n + 1) * V / 2 ^ 48) ((n + 1) * V / 2 ^ 48) n + (2 * V + (n + 1) * V / 2 ^ 48)
      + 2 * ((n + 1) * V / 2 ^ 48) ≤ 16 * (n + 1) * V := by
  have hp := pow_small hn
  have hn' : (n : ℚ) ≤ 10 := by exact_mod_cast hn
  have hn1 : (1 : ℚ) ≤ n := by exact_mod_cast hpos
  obtain ⟨d, hd⟩ : ∃ d : ℚ, d = (n + 1) * V / 2 ^ 48 := ⟨_, rfl⟩
  rw [← hd]
  have hd0 : 0 ≤ d := by rw [hd]; positivity
  have hd1 : d ≤ 11 * V / 2 ^ 48 := by
    rw [hd]
    have : ((n : ℚ) + 1) * V ≤ 11 * V := mul_le_mul_of_nonneg_right (by linarith) hV
    gcongr
  have hPd : ((n : ℚ) + 1) ^ n * d ≤ 26 * 10 ^ 9 * d := mul_le_mul_of_nonneg_right hp hd0
  have hVn : V ≤ n * V := by nlinarith
  have hsmall : 10 ^ 13 * d ≤ V := by
    have : (10 : ℚ) ^ 13 * (11 * V / 2 ^ 48) ≤ V := by
      rw [show (10 : ℚ) ^ 13 * (11 * V / 2 ^ 48) = (10 ^ 13 * 11 / 2 ^ 48) * V by ring]
      have : (10 : ℚ) ^ 13 * 11 / 2 ^ 48 ≤ 1 := by norm_num
      nlinarith
    linarith [mul_le_mul_of_nonneg_left hd1 (by norm_num : (0 : ℚ) ≤ 10 ^ 13)]
  have hnn : (n : ℚ) * n * d ≤ 100 * d := mul_le_mul_of_nonneg_right (by nlinarith) hd0
  have hnPd : (n : ℚ) * (((n : ℚ) + 1) ^ n * d) ≤ 10 * (26 * 10 ^ 9 * d) := by
    apply mul_le_mul hn' hPd (by positivity) (by norm_num)
  have hnd : (n : ℚ) * d ≤ 10 * d := mul_le_mul_of_nonneg_right hn' hd0
  unfold labelMax
  nlinarith

/-- Specification: the error of operations on a square matrix of size `n` with entries up to `V`. -/
def opErr (n : ℕ) (V : ℚ) : ℚ := (n + 1) * V / 2 ^ 48

set_option exponentiation.threshold 2000 in
theorem err_small {fl : ℚ → ℚ} (h : IsRounding fl) {n : ℕ} {V : ℚ} (hV : 1 / 2 ^ 1000 ≤ V) :
    Err fl ⊤ (opErr n V) (16 * (n + 1) * V) := by
  have h0 : (0 : ℚ) < 1 / 2 ^ 1000 := by positivity
  have hV0 : 0 ≤ V := h0.le.trans hV
  have hn : (0 : ℚ) ≤ n := Nat.cast_nonneg n
  unfold opErr
  refine err_rounding h ?_ (by positivity)
  have h1 : (1 : ℚ) / 2 ^ 1075 ≤ 1 / 2 ^ 1000 * (1 / 2 ^ 53) := by
    rw [one_div_mul_one_div, ← pow_add]
    apply one_div_le_one_div_of_le (by positivity)
    exact pow_le_pow_right₀ (by norm_num) (by norm_num)
  have h2 : (1 : ℚ) / 2 ^ 1000 * (1 / 2 ^ 53) ≤ V * (1 / 2 ^ 53) := mul_le_mul_of_nonneg_right hV (by positivity)
  have h3 : V * (1 / 2 ^ 53) ≤ (n + 1) * V * (1 / 2 ^ 53) := by
    apply mul_le_mul_of_nonneg_right _ (by positivity)
    nlinarith
  have h4 : ((n : ℚ) + 1) * V / 2 ^ 48 = 32 * ((n + 1) * V * (1 / 2 ^ 53)) := by ring
  have h5 : 16 * ((n : ℚ) + 1) * V / 2 ^ 53 = 16 * ((n + 1) * V * (1 / 2 ^ 53)) := by ring
  have h6 : 0 ≤ ((n : ℚ) + 1) * V * (1 / 2 ^ 53) := by positivity
  rw [h4, h5]
  linarith

set_option exponentiation.threshold 2000 in
/-- **C196.** With doubles (any rounding of the contract) `min_weight_perm` is nearly optimal: on a square matrix of at
most ten rows and entries up to `V`, no permutation is lighter than its result by more than
`n (6 (n + 1)^n + 2 n² + 2)` times `(n + 1) V / 2^48`. -/
theorem C196_doubles (fl : ℚ → ℚ) (h : IsRounding fl) (fuel : ℕ) (w : Mat) (hsq : w.n1 = w.n2) (hpos : 0 < w.n1)
    (hn : w.n1 ≤ 10) (hf : 2 * w.n1 + 1 ≤ fuel) (V : ℚ) (hV : 1 / 2 ^ 1000 ≤ V)
    (hw : ∀ i j, i < w.n1 → j < w.n2 → |w.e i j| ≤ V) :
    ∃ s : List ℕ, minWeightPerm fl fuel w = some (.ok (s.map some)) ∧ s.Perm (List.range w.n1) ∧
      ∀ p : List ℕ, p.Perm (List.range w.n1) → cost w.e s ≤ cost w.e p + maxLoss w.n1 (opErr w.n1 V) := by
  have hV0 : 0 ≤ V := le_trans (abs_nonneg _) (hw 0 0 hpos (hsq ▸ hpos))
  exact near_square (err_small h hV) fuel w hsq hpos hf
    (fun i j hi hj => ⟨AddSubgroup.mem_top _, hw i j hi hj⟩) (label_small hn hpos hV0)

theorem near_small {fl : ℚ → ℚ} (h : IsRounding fl) (fuel : ℕ) (w : Mat) (hlt : w.n1 < w.n2)
    (hpos : 0 < w.n1) (hn : w.n2 ≤ 10) (hf : 2 * w.n2 + 1 ≤ fuel) (V : ℚ) (hV : V ≤ 2 ^ 44)
    (hw : ∀ i j, i < w.n1 → j < w.n2 → |w.e i j| ≤ V) :
    ∃ s : List ℕ, minWeightPerm fl fuel w = some (.ok (s.map some)) ∧ s.length = w.n1 ∧ s.Nodup ∧
      (∀ j ∈ s, j < w.n2) ∧
      ∀ p : List ℕ, p.length = w.n1 → p.Nodup → (∀ j ∈ p, j < w.n2) →
        cost w.e s ≤ cost w.e p + maxLoss w.n2 (opErr w.n2 (V + 2)) := by
  have hV0 : 0 ≤ V := le_trans (abs_nonneg _) (hw 0 0 hpos (by omega))
  have hn' : (w.n2 : ℚ) ≤ 10 := by exact_mod_cast hn
  have hn0 : (0 : ℚ) ≤ w.n2 := Nat.cast_nonneg _
  have hδ1 : opErr w.n2 (V + 2) ≤ 1 := by
    unfold opErr
    rw [div_le_one (by positivity)]
    have : ((w.n2 : ℚ) + 1) * (V + 2) ≤ 11 * (2 ^ 44 + 2) := by
      apply mul_le_mul (by linarith) (by linarith) (by linarith) (by norm_num)
    refine this.trans (by norm_num)
  have he : Err fl ⊤ (opErr w.n2 (V + 2)) (16 * (w.n2 + 1) * (V + 2)) := err_small h (by
    have h1 : (1 : ℚ) / 2 ^ 1000 ≤ 1 := by
      rw [div_le_one (by positivity)]
      exact one_le_pow₀ (by norm_num)
    linarith)
  refine near_fewer he (AddSubgroup.mem_top _) fuel w hlt hpos hf
    (fun i j hi hj => ⟨AddSubgroup.mem_top _, hw i j hi hj⟩) ?_
  have h1 := label_small hn (by omega : 0 < w.n2) (V := V + 2) (by linarith)
  refine le_trans ?_ h1
  have hd : opErr w.n2 (V + 2) = (w.n2 + 1) * (V + 2) / 2 ^ 48 := rfl
  rw [← hd]
  have hW : 2 * (V + 1 + opErr w.n2 (V + 2)) + opErr w.n2 (V + 2) ≤ 2 * (V + 2) + opErr w.n2 (V + 2) := by linarith
  have hl : labelMax w.n2 (2 * (V + 1 + opErr w.n2 (V + 2)) + opErr w.n2 (V + 2)) (opErr w.n2 (V + 2)) w.n2 ≤
      labelMax w.n2 (2 * (V + 2) + opErr w.n2 (V + 2)) (opErr w.n2 (V + 2)) w.n2 := by
    unfold labelMax
    gcongr
  linarith

/-- **C196.** The same with fewer rows than columns: the result is nearly the lightest choice of distinct columns. -/
theorem C196_doubles_fewer_rows (fl : ℚ → ℚ) (h : IsRounding fl) (fuel : ℕ) (w : Mat) (hlt : w.n1 < w.n2)
    (hpos : 0 < w.n1) (hn : w.n2 ≤ 10) (hf : 2 * w.n2 + 1 ≤ fuel) (V : ℚ) (hV : V ≤ 2 ^ 44)
    (hw : ∀ i j, i < w.n1 → j < w.n2 → |w.e i j| ≤ V) :
    ∃ s : List ℕ, minWeightPerm fl fuel w = some (.ok (s.map some)) ∧ s.length = w.n1 ∧ s.Nodup ∧
      (∀ j ∈ s, j < w.n2) ∧
      ∀ p : List ℕ, p.length = w.n1 → p.Nodup → (∀ j ∈ p, j < w.n2) →
        cost w.e s ≤ cost w.e p + maxLoss w.n2 (opErr w.n2 (V + 2)) :=
  near_small h fuel w hlt hpos hn hf V hV hw

/-- **C196.** The same with more rows than columns. -/
theorem C196_doubles_more_rows (fl : ℚ → ℚ) (h : IsRounding fl) (fuel : ℕ) (w : Mat) (hlt : w.n2 < w.n1)
    (hpos : 0 < w.n2) (hn : w.n1 ≤ 10) (hf : 2 * w.n1 + 1 ≤ fuel) (V : ℚ) (hV : V ≤ 2 ^ 44)
    (hw : ∀ i j, i < w.n1 → j < w.n2 → |w.e i j| ≤ V) :
    ∃ r : List (Option ℕ), minWeightPerm fl fuel w = some (.ok r) ∧ r.length = w.n1 ∧
      (∀ j, some j ∈ r → j < w.n2) ∧
      (∀ j, j < w.n2 → ∃! i : ℕ, r[i]? = some (some j)) ∧
      ∀ r' : List (Option ℕ), r'.length = w.n1 → (∀ j, some j ∈ r' → j < w.n2) →
        (∀ j, j < w.n2 → ∃! i : ℕ, r'[i]? = some (some j)) →
        partialCost w.e r ≤ partialCost w.e r' + maxLoss w.n1 (opErr w.n1 (V + 2)) :=
  transpose_choice hlt (near_small h fuel w.T hlt hpos hn hf V hV (fun i j hi hj => hw j i hj hi))

/-! ### Concrete cases -/

/-- A matrix of doubles near `0.8`, `0.7`, `0.3`, `0.2`. -/
def exD : Mat := ⟨2, 2, fun i j => dbl ((([[8 / 10, 7 / 10], [3 / 10, 2 / 10]] : List (List ℚ)).getD i []).getD j 0)⟩

/-- **C196.** With doubles the result is not always a lightest permutation: on the matrix
`[[0.8, 0.7], [0.3, 0.2]]` the identity is found, and the exchange is lighter by `2^-53`. -/
theorem C196_not_optimal : minWeightPerm dbl 5 exD = some (.ok [some 0, some 1]) ∧
    cost exD.e [1, 0] + 1 / 2 ^ 53 = cost exD.e [0, 1] := by
  decide +kernel

/-- Two integers which rounding confuses. -/
def exM : Mat := ⟨3, 3, fun i j => (([[1, 0, 2 ^ 60], [0, 1, 2 ^ 60], [2 ^ 60, 2 ^ 60, 2 ^ 60]] : List (List ℚ)).getD i []).getD j 0⟩

/-- **C196.** Nor are matrices of integers always treated exactly: with entries `2^60` beside `0` and `1`, the result is
`2` above the lightest permutation. -/
theorem C196_large_integers : minWeightPerm dbl 7 exM = some (.ok [some 0, some 1, some 2]) ∧
    cost exM.e [1, 0, 2] + 2 = cost exM.e [0, 1, 2] := by
  decide +kernel

example : minWeightPerm dbl 7 ex3 = some (.ok [some 1, some 0, some 2]) := by decide +kernel

example : ∀ i j, i < ex3.n1 → j < ex3.n2 → ∃ k : ℤ, |k| ≤ (5 : ℕ) ∧ ex3.e i j = k * (2 : ℚ) ^ (0 : ℤ) := by
  intro i j hi hj
  have hi : i < 3 := hi
  have hj : j < 3 := hj
  refine ⟨(([[4, 1, 3], [2, 0, 5], [3, 2, 2]] : List (List ℤ)).getD i []).getD j 0, ?_, ?_⟩ <;>
    interval_cases i <;> interval_cases j <;> simp [ex3]

example : exD.n1 = exD.n2 ∧ 0 < exD.n1 ∧ exD.n1 ≤ 10 ∧ 2 * exD.n1 + 1 ≤ 5 := by decide

example : ∀ i j, i < exD.n1 → j < exD.n2 → |exD.e i j| ≤ 1 := by
  have : ∀ i : Fin 2, ∀ j : Fin 2, |exD.e i j| ≤ 1 := by decide +kernel
  exact fun i j hi hj => this ⟨i, hi⟩ ⟨j, hj⟩

/-- The bound on two rows with entries up to `1`. -/
example : maxLoss 2 (opErr 2 1) = 384 / 2 ^ 48 := by unfold maxLoss opErr; norm_num

example : minWeightPerm dbl 7 ⟨2, 3, ex3.e⟩ = some (.ok [some 2, some 1]) := by decide +kernel

example : minWeightPerm dbl 7 ⟨3, 2, ex3.e⟩ = some (.ok [none, some 1, some 0]) := by decide +kernel

/-- A rounding as wrong as can be: the result is still a permutation. -/
example : minWeightPerm (fun _ => 7) 7 ex3 = some (.ok [some 0, some 1, some 2]) := by decide +kernel

end Verif.Munkres.Fl
