import Verif.Munkres.Lemmas
import Mathlib.Data.List.Permutation
import Mathlib.Algebra.Order.BigOperators.Group.List
import Mathlib.Algebra.BigOperators.Fin
import Mathlib.Algebra.Order.Ring.Rat
import Mathlib.Data.List.GetD
import Mathlib.Tactic.Ring

/-!
# Properties C29, C30, C31, C33 of `multimodal/lib/munkres.py`
-/

namespace Verif.Munkres

/-- Specification: total weight of the choice of the column `s[i]` for each row `i`. -/
def cost (e : ℕ → ℕ → ℚ) (s : List ℕ) : ℚ := (s.mapIdx fun i j => e i j).sum

/-- Specification: total weight of a choice that leaves some rows aside. -/
def partialCost (e : ℕ → ℕ → ℚ) (r : List (Option ℕ)) : ℚ :=
  (r.mapIdx fun i o => match o with
    | none => 0
    | some j => e i j).sum

theorem cost_eq_zipIdx (e : ℕ → ℕ → ℚ) (s : List ℕ) :
    cost e s = (s.zipIdx.map fun x => e x.2 x.1).sum := by
  unfold cost; rw [List.mapIdx_eq_zipIdx_map]

theorem sum_labels (l0 l1 : ℕ → ℚ) (s : List ℕ) {n : ℕ} (hs : s.Perm (List.range n)) :
    (s.zipIdx.map fun x => l0 x.2 + l1 x.1).sum =
      ((List.range n).map l0).sum + ((List.range n).map l1).sum := by
  have hlen : s.length = n := by rw [hs.length_eq, List.length_range]
  rw [List.sum_map_add]
  congr 1
  · have : (s.zipIdx.map fun x => l0 x.2) = (s.zipIdx.map Prod.snd).map l0 := by
      rw [List.map_map]; rfl
    rw [this, List.zipIdx_map_snd, List.range_eq_range', hlen]
  · have : (s.zipIdx.map fun x => l1 x.1) = (s.zipIdx.map Prod.fst).map l1 := by
      rw [List.map_map]; rfl
    rw [this, List.zipIdx_map_fst]
    exact (hs.map l1).sum_eq

theorem mem_zipIdx_perm {s : List ℕ} {n : ℕ} (hs : s.Perm (List.range n)) {x : ℕ × ℕ}
    (hx : x ∈ s.zipIdx) : x.2 < n ∧ x.1 < n ∧ s[x.2]? = some x.1 := by
  have h := List.mem_zipIdx_iff_getElem?.1 hx
  have hlt := (List.getElem?_eq_some_iff.1 h).1
  rw [hs.length_eq, List.length_range] at hlt
  exact ⟨hlt, List.mem_range.1 (hs.mem_iff.1 (List.mem_of_getElem? h)), h⟩

/-- The complete matching of tight edges has maximal weight. -/
theorem optimal_of_good {g : Graph} (hg : Good g) (hall : ∀ x, x < g.n → g.m0 x ≠ none) :
    ∃ s : List ℕ, (List.range g.n).map g.m0 = s.map some ∧ s.Perm (List.range g.n) ∧
      ∀ p : List ℕ, p.Perm (List.range g.n) → cost g.w p ≤ cost g.w s := by
  obtain ⟨s, hs⟩ : ∃ s : List ℕ, s = (List.range g.n).map fun u => (g.m0 u).getD 0 := ⟨_, rfl⟩
  have hsome : ∀ u, u < g.n → g.m0 u = some ((g.m0 u).getD 0) := by
    intro u hu
    obtain ⟨v, hv⟩ := Option.ne_none_iff_exists'.1 (hall u hu)
    rw [hv]; rfl
  have hperm : s.Perm (List.range g.n) := by
    apply (List.subperm_of_subset _ _).perm_of_length_le
    · rw [hs]; simp
    · rw [hs]
      apply List.Nodup.map_on _ List.nodup_range
      intro a ha b hb hab
      have h1 := hsome a (List.mem_range.1 ha)
      have h2 := hsome b (List.mem_range.1 hb)
      rw [hab] at h1
      have e1 := (hg.sym _ _).1 h1
      have e2 := (hg.sym _ _).1 h2
      rw [e1] at e2
      exact Option.some.inj e2
    · intro v hv
      rw [hs] at hv
      obtain ⟨u, hu, rfl⟩ := List.mem_map.1 hv
      exact List.mem_range.2 (hg.lt _ _ (hsome u (List.mem_range.1 hu))).2
  refine ⟨s, ?_, hperm, ?_⟩
  · rw [hs, List.map_map]
    apply List.map_congr_left
    intro u hu
    exact hsome u (List.mem_range.1 hu)
  · intro p hp
    have h1 : cost g.w p ≤ ((List.range g.n).map g.l0).sum + ((List.range g.n).map g.l1).sum := by
      rw [← sum_labels g.l0 g.l1 p hp, cost_eq_zipIdx]
      apply List.sum_le_sum
      intro x hx
      obtain ⟨a, b, _⟩ := mem_zipIdx_perm hp hx
      have := hg.feas x.2 x.1 a b
      unfold slack at this
      linarith
    have h2 : cost g.w s = ((List.range g.n).map g.l0).sum + ((List.range g.n).map g.l1).sum := by
      rw [← sum_labels g.l0 g.l1 s hperm, cost_eq_zipIdx]
      congr 1
      apply List.map_congr_left
      intro x hx
      obtain ⟨a, b, c⟩ := mem_zipIdx_perm hperm hx
      have hx1 : g.m0 x.2 = some x.1 := by
        rw [hs, List.getElem?_map, List.getElem?_range a] at c
        rw [hsome x.2 a]
        exact c
      have := hg.tight _ _ hx1
      unfold slack at this
      linarith
    rw [h2]; exact h1

theorem maxWeightMatching_spec (fuel n : ℕ) (w : ℕ → ℕ → ℚ) (hf : 2 * n + 1 ≤ fuel) :
    ∃ s : List ℕ, maxWeightMatching fuel n w = some (.ok (s.map some)) ∧ s.Perm (List.range n) ∧
      ∀ p : List ℕ, p.Perm (List.range n) → cost w p ≤ cost w s := by
  obtain ⟨g', h1, h2, h3, h4, h5⟩ := matchLoop_spec (pf := fuel) (af := fuel) n fuel 0
    (initGraph n w) initGraph_good (by simp [initGraph]) hf (by simpa [initGraph] using hf)
    (by simp [initGraph]; omega) (by intro x hx; omega)
  have hn : g'.n = n := h3
  have hw : g'.w = w := h4
  obtain ⟨s, a, b, c⟩ := optimal_of_good h2 (fun x hx => h5 x (by rw [hn] at hx; exact hx))
  rw [hn] at a b c
  rw [hw] at c
  refine ⟨s, ?_, b, c⟩
  unfold maxWeightMatching
  rw [h1]
  simp only []
  rw [a]

theorem cost_const_sub (m : ℚ) (e : ℕ → ℕ → ℚ) (s : List ℕ) :
    cost (fun u v => m - e u v) s = s.length * m - cost e s := by
  rw [cost_eq_zipIdx, cost_eq_zipIdx]
  have key : ∀ l : List (ℕ × ℕ), (l.map fun x => m - e x.2 x.1).sum =
      l.length * m - (l.map fun x => e x.2 x.1).sum := by
    intro l
    induction l with
    | nil => simp
    | cons a l ih =>
      simp only [List.map_cons, List.sum_cons, ih, List.length_cons]
      push_cast; ring
  rw [key]
  simp

theorem entries_ne_nil {w : Mat} (h1 : 0 < w.n1) (h2 : 0 < w.n2) : w.entries ≠ [] := by
  apply List.ne_nil_of_mem (a := w.e 0 0)
  unfold Mat.entries
  rw [List.mem_flatMap]
  exact ⟨0, List.mem_range.2 h1, List.mem_map.2 ⟨0, List.mem_range.2 h2, rfl⟩⟩

theorem entries_nil {w : Mat} (h : w.n1 = 0 ∨ w.n2 = 0) : w.entries = [] := by
  unfold Mat.entries
  rcases h with h | h <;> rw [h] <;> simp

theorem minWeightPermSquare_spec (fuel : ℕ) (w : Mat) (hsq : w.n1 = w.n2) (hpos : 0 < w.n1)
    (hf : 2 * w.n1 + 1 ≤ fuel) :
    ∃ s : List ℕ, minWeightPermSquare fuel w = some (.ok (s.map some)) ∧
      s.Perm (List.range w.n1) ∧
      ∀ p : List ℕ, p.Perm (List.range w.n1) → cost w.e s ≤ cost w.e p := by
  obtain ⟨m, hm, _, _⟩ := npMax_spec (entries_ne_nil hpos (hsq ▸ hpos))
  obtain ⟨s, h1, h2, h3⟩ := maxWeightMatching_spec fuel w.n1 (fun u v => m - w.e u v) hf
  refine ⟨s, ?_, h2, ?_⟩
  · unfold minWeightPermSquare
    rw [hm]
    exact h1
  · intro p hp
    have := h3 p hp
    rw [cost_const_sub, cost_const_sub, hp.length_eq, h2.length_eq] at this
    linarith

/-- **C29.** On a non-empty square matrix `min_weight_perm` returns a permutation of minimal total
weight. -/
theorem C29_min_weight_perm_square (fuel : ℕ) (w : Mat) (hsq : w.n1 = w.n2) (hpos : 0 < w.n1)
    (hf : 2 * w.n1 + 1 ≤ fuel) :
    ∃ s : List ℕ, minWeightPerm fuel w = some (.ok (s.map some)) ∧ s.Perm (List.range w.n1) ∧
      ∀ p : List ℕ, p.Perm (List.range w.n1) → cost w.e s ≤ cost w.e p := by
  obtain ⟨s, h1, h2, h3⟩ := minWeightPermSquare_spec fuel w hsq hpos hf
  refine ⟨s, ?_, h2, h3⟩
  unfold minWeightPerm minWeightPermWide
  rw [if_neg (by omega), if_neg (by omega), h1]
  simp only [Option.map_some, Except.map, Option.some.injEq, Except.ok.injEq]
  apply List.take_of_length_le
  rw [List.length_map, h2.length_eq, List.length_range]

/-- **C29.** An empty matrix makes `min_weight_perm` raise `ValueError`. -/
theorem C29_empty_matrix (fuel : ℕ) (w : Mat) (h : w.n1 = 0 ∨ w.n2 = 0) :
    minWeightPerm fuel w = some (.error .valueError) := by
  have hT : w.T.entries = [] := entries_nil (by unfold Mat.T; tauto)
  unfold minWeightPerm minWeightPermWide
  split
  · rename_i hlt
    rw [if_pos (by unfold Mat.T; exact hlt), hT]
    rfl
  · split
    · rw [entries_nil h]; rfl
    · unfold minWeightPermSquare
      rw [entries_nil h]; rfl

/-- A concrete matrix used in the examples. -/
def ex3 : Mat := ⟨3, 3, fun i j => ([[4, 1, 3], [2, 0, 5], [3, 2, 2]].getD i []).getD j 0⟩

example : minWeightPerm 7 ex3 = some (.ok [some 1, some 0, some 2]) := by decide +kernel

example : cost ex3.e [1, 0, 2] = 5 := by decide +kernel

example : ex3.n1 = ex3.n2 ∧ 0 < ex3.n1 ∧ 2 * ex3.n1 + 1 ≤ 7 := by decide

theorem cost_pad {e : ℕ → ℕ → ℚ} {c : ℚ} {n1 : ℕ} (a b : List ℕ) (h : a.length = n1) :
    cost (fun i j => if i < n1 then e i j else c) (a ++ b) = cost e a + b.length * c := by
  unfold cost
  rw [List.mapIdx_append, List.sum_append]
  congr 1
  · congr 1
    rw [List.mapIdx_eq_zipIdx_map, List.mapIdx_eq_zipIdx_map]
    apply List.map_congr_left
    intro x hx
    have hx' := (List.getElem?_eq_some_iff.1 (List.mem_zipIdx_iff_getElem?.1 hx)).1
    obtain ⟨y, i⟩ := x
    exact if_pos (show i < n1 by simp only [] at hx'; omega)
  · have : (b.mapIdx fun i j => if i + a.length < n1 then e (i + a.length) j else c)
        = List.replicate b.length c := by
      apply List.ext_getElem
      · simp
      · intro i h1 h2
        simp only [List.getElem_mapIdx, List.getElem_replicate]
        rw [if_neg (by omega)]
    rw [this, List.sum_replicate, nsmul_eq_mul]

/-- An injective choice can be completed into a permutation. -/
theorem complete_perm {p : List ℕ} {n : ℕ} (hnd : p.Nodup) (hlt : ∀ j ∈ p, j < n) :
    (p ++ (List.range n).filter (fun j => j ∉ p)).Perm (List.range n) := by
  rw [List.perm_ext_iff_of_nodup _ List.nodup_range]
  · intro x
    simp only [List.mem_append, List.mem_filter, List.mem_range, decide_eq_true_eq]
    constructor
    · rintro (h | h)
      · exact hlt x h
      · exact h.1
    · intro h
      by_cases hx : x ∈ p
      · exact Or.inl hx
      · exact Or.inr ⟨h, hx⟩
  · apply List.Nodup.append hnd (List.nodup_range.filter _)
    intro x hx hx'
    simp only [List.mem_filter, decide_eq_true_eq] at hx'
    exact hx'.2 hx

/-- **C30.** With fewer rows than columns, `min_weight_perm` returns distinct columns, one per row,
of minimal total weight. -/
theorem C30_fewer_rows (fuel : ℕ) (w : Mat) (hlt : w.n1 < w.n2) (hpos : 0 < w.n1)
    (hf : 2 * w.n2 + 1 ≤ fuel) :
    ∃ s : List ℕ, minWeightPerm fuel w = some (.ok (s.map some)) ∧ s.length = w.n1 ∧ s.Nodup ∧
      (∀ j ∈ s, j < w.n2) ∧
      ∀ p : List ℕ, p.length = w.n1 → p.Nodup → (∀ j ∈ p, j < w.n2) → cost w.e s ≤ cost w.e p := by
  obtain ⟨m, hm, _, _⟩ := npMax_spec (entries_ne_nil hpos (by omega : 0 < w.n2))
  obtain ⟨s2, h1, h2, h3⟩ := minWeightPermSquare_spec fuel
    ⟨w.n2, w.n2, fun i j => if i < w.n1 then w.e i j else m + 1⟩ rfl (by show 0 < w.n2; omega) hf
  have hlen2 : s2.length = w.n2 := by rw [h2.length_eq, List.length_range]
  have hlen : (s2.take w.n1).length = w.n1 := by rw [List.length_take]; omega
  refine ⟨s2.take w.n1, ?_, hlen, ?_, ?_, ?_⟩
  · unfold minWeightPerm minWeightPermWide
    rw [if_neg (by omega), if_pos hlt, hm]
    simp only []
    rw [h1]
    simp only [Option.map_some, Except.map, List.map_take]
  · exact ((h2.nodup_iff).2 List.nodup_range).sublist (List.take_sublist _ _)
  · intro j hj
    exact List.mem_range.1 (h2.mem_iff.1 (List.mem_of_mem_take hj))
  · intro p hp hnd hlt'
    have := h3 _ (complete_perm hnd hlt')
    rw [cost_pad _ _ hp] at this
    conv_lhs at this => rw [← List.take_append_drop w.n1 s2]
    simp only [] at this
    rw [cost_pad _ _ hlen] at this
    have hl1 : (s2.drop w.n1).length = ((List.range w.n2).filter (fun j => j ∉ p)).length := by
      have := (complete_perm hnd hlt').length_eq
      rw [List.length_append, List.length_range] at this
      rw [List.length_drop]; omega
    rw [hl1] at this
    linarith

example : minWeightPerm 7 ⟨2, 3, ex3.e⟩ = some (.ok [some 2, some 1]) := by decide +kernel

/-! ### `reverse_function` -/

theorem pyIndex_nat (n j : ℕ) : pyIndex n (j : ℤ) = if j < n then some j else none := by
  unfold pyIndex
  rw [if_pos (by omega)]
  by_cases h : j < n
  · rw [if_pos (by omega), if_pos h]; simp
  · rw [if_neg (by omega), if_neg h]

theorem reverseFrom_spec (s : List ℕ) : ∀ (i : ℕ) (rev : List (Option ℕ)),
    (∀ j ∈ s, j < rev.length) →
    ∃ r, reverseFrom (s.map fun (j : ℕ) => (j : ℤ)) i rev = .ok r ∧ r.length = rev.length ∧
      ∀ k : ℕ, k < rev.length →
        (∀ a : ℕ, s[a]? = some k → (∀ b : ℕ, a < b → s[b]? ≠ some k) → r[k]? = some (some (i + a))) ∧
        (k ∉ s → r[k]? = rev[k]?) := by
  induction s with
  | nil =>
    intro i rev _
    exact ⟨rev, rfl, rfl, fun k _ => ⟨fun a h => by simp at h, fun _ => rfl⟩⟩
  | cons j s ih =>
    intro i rev h
    have hj := h j List.mem_cons_self
    obtain ⟨r, h1, h2, h3⟩ := ih (i + 1) (rev.set j (some i)) (by
      intro x hx; rw [List.length_set]; exact h x (List.mem_cons_of_mem _ hx))
    rw [List.length_set] at h2 h3
    refine ⟨r, ?_, h2, ?_⟩
    · rw [List.map_cons]
      unfold reverseFrom
      rw [pyIndex_nat, if_pos hj]
      exact h1
    · intro k hk
      obtain ⟨e1, e2⟩ := h3 k hk
      constructor
      · intro a ha hlast
        cases a with
        | zero =>
          have hjk : j = k := by simpa using ha
          subst hjk
          rw [e2]
          · rw [List.getElem?_set_self hj]; rfl
          · intro hin
            obtain ⟨b, hb, hbk⟩ := List.getElem_of_mem hin
            refine hlast (b + 1) (by omega) ?_
            rw [List.getElem?_cons_succ, List.getElem?_eq_getElem hb, hbk]
        | succ a =>
          rw [List.getElem?_cons_succ] at ha
          rw [e1 a ha]
          · congr 2; omega
          · intro b hb hc
            exact hlast (b + 1) (by omega) (by rw [List.getElem?_cons_succ]; exact hc)
      · intro hk'
        rw [List.mem_cons, not_or] at hk'
        rw [e2 hk'.2, List.getElem?_set_ne (fun e => hk'.1 e.symm)]

/-- **C33.** `reverse_function(s, size)` with values below `size`: position `k` receives the last
`i` with `s[i] = k`, and `None` when there is none. -/
theorem C33_reverse_function (s : List ℕ) (size : ℕ) (h : ∀ j ∈ s, j < size) :
    ∃ r, reverseFunction (s.map fun (j : ℕ) => (j : ℤ)) (some (size : ℤ)) = .ok r ∧
      r.length = size ∧
      ∀ k : ℕ, k < size →
        (∀ i : ℕ, r[k]? = some (some i) ↔ s[i]? = some k ∧ ∀ b : ℕ, i < b → s[b]? ≠ some k) ∧
        (r[k]? = some none ↔ k ∉ s) := by
  obtain ⟨r, h1, h2, h3⟩ := reverseFrom_spec s 0 (List.replicate size none) (by simpa using h)
  simp only [List.length_replicate] at h2 h3
  have hnone : ∀ k, k < size → k ∉ s → r[k]? = some none := by
    intro k hk hks
    rw [(h3 k hk).2 hks, List.getElem?_replicate, if_pos hk]
  have hlast : ∀ k, k ∈ s → ∃ i : ℕ, s[i]? = some k ∧ ∀ b : ℕ, i < b → s[b]? ≠ some k := by
    intro k hk
    by_contra hcon
    push Not at hcon
    have : ∀ m : ℕ, ∃ i : ℕ, m ≤ i ∧ s[i]? = some k := by
      intro m
      induction m with
      | zero =>
        obtain ⟨i, hi, hik⟩ := List.getElem_of_mem hk
        exact ⟨i, by omega, by rw [List.getElem?_eq_getElem hi, hik]⟩
      | succ m ih =>
        obtain ⟨i, hi, hik⟩ := ih
        obtain ⟨b, hb, hbk⟩ := hcon i hik
        exact ⟨b, by omega, hbk⟩
    obtain ⟨i, hi, hik⟩ := this s.length
    rw [List.getElem?_eq_none hi] at hik
    cases hik
  refine ⟨r, h1, h2, ?_⟩
  intro k hk
  constructor
  · intro i
    constructor
    · intro hr
      by_cases hks : k ∈ s
      · obtain ⟨a, ha, hla⟩ := hlast k hks
        have := (h3 k hk).1 a ha hla
        rw [hr, Nat.zero_add] at this
        obtain rfl : i = a := by simpa using this
        exact ⟨ha, hla⟩
      · rw [hnone k hk hks] at hr; simp at hr
    · rintro ⟨ha, hla⟩
      have := (h3 k hk).1 i ha hla
      rw [Nat.zero_add] at this
      exact this
  · constructor
    · intro hr hks
      obtain ⟨a, ha, hla⟩ := hlast k hks
      rw [(h3 k hk).1 a ha hla] at hr
      simp at hr
    · exact hnone k hk

/-- **C33.** For an injective `s` below `size`, `reverse_function(s, size)` is its inverse:
`r[k] = i` exactly when `s[i] = k`. -/
theorem C33_reverse_injective (s : List ℕ) (size : ℕ) (h : ∀ j ∈ s, j < size) (hnd : s.Nodup) :
    ∃ r, reverseFunction (s.map fun (j : ℕ) => (j : ℤ)) (some (size : ℤ)) = .ok r ∧
      r.length = size ∧ ∀ i k : ℕ, r[k]? = some (some i) ↔ s[i]? = some k := by
  obtain ⟨r, h1, h2, h3⟩ := C33_reverse_function s size h
  refine ⟨r, h1, h2, ?_⟩
  intro i k
  by_cases hk : k < size
  · rw [(h3 k hk).1 i]
    constructor
    · exact fun hh => hh.1
    · intro hi
      refine ⟨hi, ?_⟩
      intro b hb hc
      obtain ⟨hi1, hi2⟩ := List.getElem?_eq_some_iff.1 hi
      obtain ⟨hb1, hb2⟩ := List.getElem?_eq_some_iff.1 hc
      have := (List.Nodup.getElem_inj_iff hnd (hi := hi1) (hj := hb1)).1 (by rw [hi2, hb2])
      omega
  · constructor
    · intro hr
      have := (List.getElem?_eq_some_iff.1 hr).1
      omega
    · intro hi
      exact absurd (h k (List.mem_of_getElem? hi)) hk

theorem reverseFrom_indexError (s : List ℤ) : ∀ (i : ℕ) (rev : List (Option ℕ)),
    (∃ j ∈ s, pyIndex rev.length j = none) → reverseFrom s i rev = .error .indexError := by
  induction s with
  | nil => rintro i rev ⟨j, hj, _⟩; cases hj
  | cons a s ih =>
    rintro i rev ⟨j, hj, hjn⟩
    unfold reverseFrom
    cases ha : pyIndex rev.length a with
    | none => rfl
    | some k =>
      simp only []
      apply ih
      rcases List.mem_cons.1 hj with rfl | hj
      · rw [ha] at hjn; cases hjn
      · exact ⟨j, hj, by rw [List.length_set]; exact hjn⟩

/-- **C33.** A value that is not below `size` makes `reverse_function` raise `IndexError`. -/
theorem C33_value_too_large (s : List ℤ) (size : ℕ) (h : ∃ j ∈ s, (size : ℤ) ≤ j) :
    reverseFunction s (some (size : ℤ)) = .error .indexError := by
  obtain ⟨j, hj, hle⟩ := h
  unfold reverseFunction
  simp only []
  refine reverseFrom_indexError s 0 _ ⟨j, hj, ?_⟩
  unfold pyIndex
  rw [if_pos (by omega), if_neg (by simp; omega)]

theorem foldl_max_mem (l : List ℤ) : ∀ x : ℤ, l.foldl max x ∈ x :: l := by
  induction l with
  | nil => intro x; simp
  | cons a l ih =>
    intro x
    rw [List.foldl_cons]
    have := ih (max x a)
    rcases List.mem_cons.1 this with h | h
    · rw [h]
      rcases max_choice x a with h' | h' <;> rw [h'] <;> simp
    · exact List.mem_cons_of_mem _ (List.mem_cons_of_mem _ h)

/-- **C33.** Without `size`, `reverse_function` fails on every list: the documented default
`max(s)` is one too small. -/
theorem C33_default_size_fails (s : List ℤ) :
    reverseFunction s none = .error (if s = [] then .valueError else .indexError) := by
  cases s with
  | nil => rfl
  | cons x xs =>
    rw [if_neg (by simp)]
    unfold reverseFunction pyMax
    show reverseFrom _ 0 (List.replicate (xs.foldl max x).toNat none) = _
    refine reverseFrom_indexError _ 0 _ ⟨xs.foldl max x, foldl_max_mem xs x, ?_⟩
    unfold pyIndex
    rw [List.length_replicate]
    by_cases h : 0 ≤ xs.foldl max x
    · rw [if_pos h, if_neg (by omega)]
    · rw [if_neg h, if_neg (by omega)]

example : reverseFunction [2, 0] (some 4) = .ok [some 1, none, some 0, none] := by decide

example : reverseFunction [1, 0] none = .error .indexError := by decide

/-! ### More rows than columns -/

theorem sum_mapIdx_eq {α : Type*} (f : ℕ → α → ℚ) (l : List α) (d : α) :
    (l.mapIdx f).sum = ∑ i ∈ Finset.range l.length, f i (l.getD i d) := by
  rw [Finset.sum_range, ← List.sum_ofFn]
  congr 1
  apply List.ext_getElem
  · simp
  · intro i h1 h2
    simp only [List.getElem_mapIdx, List.getElem_ofFn]
    rw [List.getD_eq_getElem]

/-- A choice given row by row and its inverse, given column by column, have the same weight. -/
theorem partialCost_eq {e : ℕ → ℕ → ℚ} {r : List (Option ℕ)} {s : List ℕ}
    (h : ∀ i j : ℕ, r[i]? = some (some j) ↔ s[j]? = some i) :
    partialCost e r = cost (fun j i => e i j) s := by
  unfold partialCost cost
  rw [sum_mapIdx_eq _ _ none, sum_mapIdx_eq _ _ 0]
  have h1 : ∀ i ∈ Finset.range r.length, (match r.getD i none with
      | none => (0 : ℚ)
      | some j => e i j) = ∑ j ∈ Finset.range s.length, if r[i]? = some (some j) then e i j else 0 := by
    intro i hi
    have hi := Finset.mem_range.1 hi
    rw [List.getD_eq_getElem _ _ hi, List.getElem?_eq_getElem hi]
    cases hr : r[i] with
    | none => simp
    | some j =>
      have hj : j < s.length := by
        have := (h i j).1 (by rw [List.getElem?_eq_getElem hi, hr])
        exact (List.getElem?_eq_some_iff.1 this).1
      simp only [Option.some.injEq]
      rw [Finset.sum_ite_eq, if_pos (Finset.mem_range.2 hj)]
  have h2 : ∀ j ∈ Finset.range s.length, e (s.getD j 0) j =
      ∑ i ∈ Finset.range r.length, if r[i]? = some (some j) then e i j else 0 := by
    intro j hj
    have hj := Finset.mem_range.1 hj
    rw [List.getD_eq_getElem _ _ hj]
    have hi := (h s[j] j).2 (List.getElem?_eq_getElem hj)
    have hi' := (List.getElem?_eq_some_iff.1 hi).1
    have : ∀ i, (if r[i]? = some (some j) then e i j else 0) = if s[j] = i then e i j else 0 := by
      intro i
      congr 1
      rw [h i j, List.getElem?_eq_getElem hj, Option.some.injEq]
    simp only [this]
    rw [Finset.sum_ite_eq, if_pos (Finset.mem_range.2 hi')]
  rw [Finset.sum_congr rfl h1, Finset.sum_congr rfl h2, Finset.sum_comm]

theorem asIndices_map_some (s : List ℕ) :
    asIndices (s.map some) = .ok (s.map fun (j : ℕ) => (j : ℤ)) := by
  unfold asIndices
  induction s with
  | nil => rfl
  | cons a s ih =>
    simp only [List.map_cons, List.mapM_cons]
    rw [ih]
    rfl

/-- **C30.** With more rows than columns, `min_weight_perm` gives each column to exactly one row,
`None` to the other rows, with minimal total weight among all such choices. -/
theorem C30_more_rows (fuel : ℕ) (w : Mat) (hlt : w.n2 < w.n1) (hpos : 0 < w.n2)
    (hf : 2 * w.n1 + 1 ≤ fuel) :
    ∃ r : List (Option ℕ), minWeightPerm fuel w = some (.ok r) ∧ r.length = w.n1 ∧
      (∀ j, some j ∈ r → j < w.n2) ∧
      (∀ j, j < w.n2 → ∃! i : ℕ, r[i]? = some (some j)) ∧
      ∀ r' : List (Option ℕ), r'.length = w.n1 → (∀ j, some j ∈ r' → j < w.n2) →
        (∀ j, j < w.n2 → ∃! i : ℕ, r'[i]? = some (some j)) →
        partialCost w.e r ≤ partialCost w.e r' := by
  obtain ⟨s, h1, h2, h3, h4, h5⟩ := C30_fewer_rows fuel w.T hlt hpos hf
  obtain ⟨r, k1, k2, k3⟩ := C33_reverse_injective s w.n1 h4 h3
  have h1' : minWeightPermWide fuel w.T = some (.ok (s.map some)) := by
    unfold minWeightPerm at h1
    rwa [if_neg (by show ¬ w.n1 < w.n2; omega)] at h1
  refine ⟨r, ?_, k2, ?_, ?_, ?_⟩
  · unfold minWeightPerm
    rw [if_pos hlt, h1']
    simp only [Option.map_some, Except.bind, asIndices_map_some]
    rw [k1]
  · intro j hj
    obtain ⟨i, hi, hij⟩ := List.getElem_of_mem hj
    have := (k3 j i).1 (by rw [List.getElem?_eq_getElem hi, hij])
    have := (List.getElem?_eq_some_iff.1 this).1
    rw [h2] at this; exact this
  · intro j hj
    have hj' : j < s.length := by rw [h2]; exact hj
    refine ⟨s[j], (k3 j s[j]).2 (List.getElem?_eq_getElem hj'), ?_⟩
    intro i hi
    have := (k3 j i).1 hi
    rw [List.getElem?_eq_getElem hj'] at this
    exact (Option.some.inj this).symm
  · intro r' hl hm hc
    -- the inverse of the competing choice
    obtain ⟨s', hs'⟩ : ∃ s' : List ℕ, s' = (List.range w.n2).map fun j => r'.idxOf (some j) := ⟨_, rfl⟩
    have hidx : ∀ j, j < w.n2 → r'[r'.idxOf (some j)]? = some (some j) := by
      intro j hj
      obtain ⟨i, hi, _⟩ := hc j hj
      have := List.idxOf_lt_length_iff.2 (List.mem_of_getElem? hi)
      rw [List.getElem?_eq_getElem this, List.getElem_idxOf]
    have hinv : ∀ i j : ℕ, r'[i]? = some (some j) ↔ s'[j]? = some i := by
      intro i j
      rw [hs', List.getElem?_map]
      constructor
      · intro hi
        have hj := hm j (List.mem_of_getElem? hi)
        rw [List.getElem?_range hj]
        simp only [Option.map_some, Option.some.injEq]
        exact (hc j hj).unique (hidx j hj) hi
      · intro hi
        by_cases hj : j < w.n2
        · rw [List.getElem?_range hj] at hi
          simp only [Option.map_some, Option.some.injEq] at hi
          rw [← hi]
          exact hidx j hj
        · rw [List.getElem?_eq_none (by simpa using hj)] at hi
          cases hi
    rw [partialCost_eq (fun i j => k3 j i), partialCost_eq hinv]
    apply h5
    · rw [hs']; simp [Mat.T]
    · rw [hs']
      apply List.Nodup.map_on _ List.nodup_range
      intro a ha b hb hab
      have e1 := hidx a (List.mem_range.1 ha)
      have e2 := hidx b (List.mem_range.1 hb)
      rw [hab, e2] at e1
      simpa using e1.symm
    · intro i hi
      rw [hs'] at hi
      obtain ⟨j, hj, rfl⟩ := List.mem_map.1 hi
      show _ < w.n1
      rw [← hl]
      exact (List.getElem?_eq_some_iff.1 (hidx j (List.mem_range.1 hj))).1

example : minWeightPerm 7 ⟨3, 2, ex3.e⟩ = some (.ok [none, some 1, some 0]) := by decide +kernel

/-! ### Termination -/

/-- **C31.** From any state reached by the algorithm (feasible labels, consistent tight matching)
and any free row, the search of an augmenting path ends within `2 n + 1` iterations (at most `n`
explored columns and as many label updates) without error, on a free column, from which the
augmentation ends within `n` iterations, matching one more row and unmatching none. -/
theorem C31_augmentation (g : Graph) (hg : Good g) (u : ℕ) (hu : u < g.n) (hfree : g.m0 u = none)
    (pf af : ℕ) (hpf : 2 * g.n + 1 ≤ pf) (haf : g.n ≤ af) :
    ∃ g1 t v g2, findPath pf g (newTree g u) = some (.ok (g1, t, v)) ∧ g1.m1 v = none ∧ v < g.n ∧
      augment t.father af g1 (some v) = some (.ok g2) ∧ Good g2 ∧ g2.n = g.n ∧ g2.w = g.w ∧
      g2.m0 u ≠ none ∧ ∀ x, g.m0 x ≠ none → g2.m0 x ≠ none := by
  obtain ⟨g1, t1, v, t0, rest, dn', h1, h2, h3, h4, h5, h6, h7, h8, h9⟩ :=
    findPath_spec pf g (newTree g u) [] hg hfree hu (newTree_inv hg) (by
      simp only [List.length_nil, Nat.sub_zero]; split <;> omega)
  have hA := h3.ainv h2 (h9 ▸ hfree) (h7 ▸ hu) h4 h6
  have hlen := (List.subperm_of_subset h3.nodup
    (fun x hx => List.mem_range.2 (h3.lt x hx))).length_le
  rw [h4] at hlen
  simp only [List.length_append, List.length_range, List.length_cons] at hlen
  obtain ⟨g2, k1, k2, k3, k4, k5, k6⟩ := augment_spec h3.nodup af g1 dn'.length v hA (by omega)
  refine ⟨g1, t1, v, g2, h1, h6, ?_, h5 ▸ k1, k2, k3.trans h7, k4.trans h8, k5, ?_⟩
  · have := h3.lt v (by rw [h4]; simp)
    rw [h7] at this; exact this
  · intro x hx
    exact k6 x (h9 ▸ hx)

/-- **C31.** `np.min` is never taken over an empty selection: when the stack is empty the label
update succeeds and refills it. -/
theorem C31_label_update (g : Graph) (t : Tree) (root : ℕ) (dn : List ℕ) (hg : Good g)
    (hroot : g.m0 root = none) (hlt : root < g.n) (h : TInv g t root dn) (hst : t.stack = []) :
    ∃ g' t', relabel g t = .ok (g', t') ∧ Good g' ∧ t'.stack ≠ [] ∧ g'.m0 = g.m0 ∧ g'.m1 = g.m1 := by
  obtain ⟨g', t', h1, h2, _, h4, _, _, h7, h8⟩ := relabel_inv hg hroot hlt h hst
  exact ⟨g', t', h1, h2, h4, h7, h8⟩

theorem findPath_mono : ∀ (f k : ℕ) (g : Graph) (t : Tree) (r : Py (Graph × Tree × ℕ)),
    findPath f g t = some r → findPath (f + k) g t = some r := by
  intro f
  induction f with
  | zero => intro k g t r h; cases h
  | succ f ih =>
    intro k g t r h
    rw [Nat.add_right_comm]
    unfold findPath at h ⊢
    cases hs : t.stack with
    | nil =>
      rw [hs] at h
      simp only [] at h ⊢
      cases hr : relabel g t with
      | error e => rw [hr] at h; exact h
      | ok p =>
        rw [hr] at h
        simp only [] at h ⊢
        exact ih k _ _ r h
    | cons v rest =>
      rw [hs] at h
      simp only [] at h ⊢
      cases hm : g.m1 v with
      | none => rw [hm] at h; exact h
      | some u =>
        rw [hm] at h
        simp only [] at h ⊢
        exact ih k _ _ r h

theorem augment_mono (father : ℕ → Option ℕ) : ∀ (f k : ℕ) (g : Graph) (v : Option ℕ) (r : Py Graph),
    augment father f g v = some r → augment father (f + k) g v = some r := by
  intro f
  induction f with
  | zero =>
    intro k g v r h
    cases v with
    | none => unfold augment at h ⊢; exact h
    | some v => unfold augment at h; cases h
  | succ f ih =>
    intro k g v r h
    rw [Nat.add_right_comm]
    cases v with
    | none => unfold augment at h ⊢; exact h
    | some v =>
      unfold augment at h ⊢
      cases hf : father v with
      | none => rw [hf] at h; exact h
      | some u =>
        rw [hf] at h
        simp only [] at h ⊢
        exact ih k _ _ r h

theorem matchLoop_mono (pf af : ℕ) : ∀ (f k k' k'' u : ℕ) (g : Graph) (r : Py Graph),
    matchLoop pf af f u g = some r → matchLoop (pf + k) (af + k') (f + k'') u g = some r := by
  intro f
  induction f with
  | zero => intro k k' k'' u g r h; unfold matchLoop at h; cases h
  | succ f ih =>
    intro k k' k'' u g r h
    rw [Nat.add_right_comm]
    unfold matchLoop at h ⊢
    by_cases hu : u < g.n
    · rw [if_pos hu] at h ⊢
      cases hm : g.m0 u with
      | some v =>
        rw [hm] at h
        simp only [] at h ⊢
        exact ih k k' k'' _ _ r h
      | none =>
        rw [hm] at h
        simp only [] at h ⊢
        cases hp : findPath pf g (newTree g u) with
        | none => rw [hp] at h; cases h
        | some q =>
          rw [hp] at h
          rw [findPath_mono pf k g _ q hp]
          cases q with
          | error e => exact h
          | ok q =>
            obtain ⟨g1, t, v⟩ := q
            simp only [] at h ⊢
            cases ha : augment t.father af g1 (some v) with
            | none => rw [ha] at h; cases h
            | some q =>
              rw [ha] at h
              rw [augment_mono t.father af k' g1 _ q ha]
              cases q with
              | error e => exact h
              | ok g2 => exact ih k k' k'' _ _ r h
    · rw [if_neg hu] at h ⊢; exact h

/-- **C31.** `max_weight_matching` terminates without error on every matrix of weights: some result
is obtained whatever the fuel from `2 n + 1` on, always the same. -/
theorem C31_max_weight_matching_terminates (n : ℕ) (w : ℕ → ℕ → ℚ) :
    ∃ m : List (Option ℕ), m.length = n ∧ (∀ x ∈ m, x ≠ none) ∧
      ∀ fuel, 2 * n + 1 ≤ fuel → maxWeightMatching fuel n w = some (.ok m) := by
  obtain ⟨s, h1, h2, _⟩ := maxWeightMatching_spec (2 * n + 1) n w le_rfl
  refine ⟨s.map some, by rw [List.length_map, h2.length_eq, List.length_range], ?_, ?_⟩
  · intro x hx
    obtain ⟨y, _, rfl⟩ := List.mem_map.1 hx
    simp
  · intro fuel hf
    obtain ⟨k, rfl⟩ : ∃ k, fuel = 2 * n + 1 + k := ⟨fuel - (2 * n + 1), by omega⟩
    unfold maxWeightMatching at h1 ⊢
    cases hm : matchLoop (2 * n + 1) (2 * n + 1) (2 * n + 1) 0 (initGraph n w) with
    | none => rw [hm] at h1; cases h1
    | some q =>
      rw [matchLoop_mono _ _ _ k k k _ _ q hm]
      rw [hm] at h1
      exact h1

example : maxWeightMatching 7 3 (fun u v => 5 - ex3.e u v) = some (.ok [some 1, some 0, some 2]) := by
  decide +kernel

example : Good (initGraph 3 ex3.e) ∧ (initGraph 3 ex3.e).m0 1 = none ∧ 1 < (initGraph 3 ex3.e).n :=
  ⟨initGraph_good, rfl, by decide⟩

end Verif.Munkres
