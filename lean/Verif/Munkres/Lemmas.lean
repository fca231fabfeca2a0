import Verif.Munkres.Model
import Mathlib.Data.List.Perm.Subperm
import Mathlib.Data.List.NodupEquivFin
import Mathlib.Data.List.Range
import Mathlib.Tactic.Linarith

/-!
# Invariants of the Hungarian method (`multimodal/lib/munkres.py`)
-/

namespace Verif.Munkres

theorem upd_same {α : Type*} (f : ℕ → α) (i : ℕ) (a : α) : upd f i a i = a := by simp [upd]

theorem upd_ne {α : Type*} (f : ℕ → α) {i j : ℕ} (a : α) (h : j ≠ i) : upd f i a j = f j := by
  simp [upd, h]

theorem foldl_min_spec (l : List ℚ) : ∀ x : ℚ,
    (l.foldl min x = x ∨ l.foldl min x ∈ l) ∧ l.foldl min x ≤ x ∧ ∀ y ∈ l, l.foldl min x ≤ y := by
  induction l with
  | nil => intro x; simp
  | cons a l ih =>
    intro x
    obtain ⟨h1, h2, h3⟩ := ih (min x a)
    rw [List.foldl_cons]
    refine ⟨?_, le_trans h2 (min_le_left _ _), ?_⟩
    · rcases h1 with h1 | h1
      · rcases min_choice x a with h | h
        · left; rw [h1, h]
        · right; rw [h1, h]; exact List.mem_cons_self
      · right; exact List.mem_cons_of_mem _ h1
    · intro y hy
      rcases List.mem_cons.1 hy with rfl | hy
      · exact le_trans h2 (min_le_right _ _)
      · exact h3 y hy

theorem foldl_max_spec (l : List ℚ) : ∀ x : ℚ,
    (l.foldl max x = x ∨ l.foldl max x ∈ l) ∧ x ≤ l.foldl max x ∧ ∀ y ∈ l, y ≤ l.foldl max x := by
  induction l with
  | nil => intro x; simp
  | cons a l ih =>
    intro x
    obtain ⟨h1, h2, h3⟩ := ih (max x a)
    rw [List.foldl_cons]
    refine ⟨?_, le_trans (le_max_left _ _) h2, ?_⟩
    · rcases h1 with h1 | h1
      · rcases max_choice x a with h | h
        · left; rw [h1, h]
        · right; rw [h1, h]; exact List.mem_cons_self
      · right; exact List.mem_cons_of_mem _ h1
    · intro y hy
      rcases List.mem_cons.1 hy with rfl | hy
      · exact le_trans (le_max_right _ _) h2
      · exact h3 y hy

theorem npMin_spec {l : List ℚ} (h : l ≠ []) : ∃ a, npMin l = .ok a ∧ a ∈ l ∧ ∀ x ∈ l, a ≤ x := by
  cases l with
  | nil => exact absurd rfl h
  | cons x xs =>
    obtain ⟨h1, h2, h3⟩ := foldl_min_spec xs x
    refine ⟨xs.foldl min x, rfl, ?_, ?_⟩
    · rcases h1 with h1 | h1
      · rw [h1]; exact List.mem_cons_self
      · exact List.mem_cons_of_mem _ h1
    · intro y hy
      rcases List.mem_cons.1 hy with rfl | hy
      · exact h2
      · exact h3 y hy

theorem npMax_spec {l : List ℚ} (h : l ≠ []) : ∃ a, npMax l = .ok a ∧ a ∈ l ∧ ∀ x ∈ l, x ≤ a := by
  cases l with
  | nil => exact absurd rfl h
  | cons x xs =>
    obtain ⟨h1, h2, h3⟩ := foldl_max_spec xs x
    refine ⟨xs.foldl max x, rfl, ?_, ?_⟩
    · rcases h1 with h1 | h1
      · rw [h1]; exact List.mem_cons_self
      · exact List.mem_cons_of_mem _ h1
    · intro y hy
      rcases List.mem_cons.1 hy with rfl | hy
      · exact h2
      · exact h3 y hy

/-- Invariant of the graph: feasible labels, consistent matching inside the graph, made of tight
edges. -/
structure Good (g : Graph) : Prop where
  feas : ∀ u v, u < g.n → v < g.n → 0 ≤ slack g u v
  sym : ∀ u v, g.m0 u = some v ↔ g.m1 v = some u
  lt : ∀ u v, g.m0 u = some v → u < g.n ∧ v < g.n
  tight : ∀ u v, g.m0 u = some v → slack g u v = 0

/-- Invariant of the tree: `dn` lists the columns already popped. -/
structure TInv (g : Graph) (t : Tree) (root : ℕ) (dn : List ℕ) : Prop where
  nodup : (dn ++ t.stack).Nodup
  memF : ∀ v, t.father v ≠ none ↔ v ∈ dn ++ t.stack
  lt : ∀ v ∈ dn ++ t.stack, v < g.n
  T : ∀ v, t.T v = true ↔ v ∈ dn
  S : ∀ u, t.S u = true ↔ u = root ∨ ∃ v ∈ dn, g.m1 v = some u
  matched : ∀ v ∈ dn, g.m1 v ≠ none
  father : ∀ (i v u : ℕ), (dn ++ t.stack)[i]? = some v → t.father v = some u →
    t.S u = true ∧ slack g u v = 0 ∧
      (u = root ∨ ∃ j v' : ℕ, j < i ∧ (dn ++ t.stack)[j]? = some v' ∧ g.m0 u = some v')

theorem adopt_S (t : Tree) (u v : ℕ) : (adopt t u v).S = t.S := by
  unfold adopt; split <;> rfl

theorem adopt_T (t : Tree) (u v : ℕ) : (adopt t u v).T = t.T := by
  unfold adopt; split <;> rfl

theorem adopt_father_self (t : Tree) (u v : ℕ) : (adopt t u v).father v ≠ none := by
  unfold adopt; split
  · simp [upd]
  · assumption

theorem adopt_father_mono (t : Tree) (u v x : ℕ) (h : t.father x ≠ none) :
    (adopt t u v).father x ≠ none := by
  unfold adopt; split
  · simp only [upd]; split
    · simp
    · exact h
  · exact h

theorem adopt_inv {g : Graph} {t : Tree} {root : ℕ} {dn : List ℕ} (hg : Good g)
    (h : TInv g t root dn) {u v : ℕ} (hS : t.S u = true) (hv : v < g.n)
    (hs : t.father v = none → slack g u v = 0) : TInv g (adopt t u v) root dn := by
  unfold adopt
  split
  case isFalse => exact h
  case isTrue hf =>
  have hnot : v ∉ dn ++ t.stack := fun hm => (h.memF v).2 hm hf
  have hassoc : dn ++ (t.stack ++ [v]) = (dn ++ t.stack) ++ [v] := (List.append_assoc _ _ _).symm
  refine ⟨?_, ?_, ?_, h.T, h.S, h.matched, ?_⟩
  · show (dn ++ (t.stack ++ [v])).Nodup
    rw [hassoc]
    exact List.Nodup.append h.nodup (by simp) (by simpa [List.disjoint_singleton] using hnot)
  · intro x
    show upd t.father v (some u) x ≠ none ↔ x ∈ dn ++ (t.stack ++ [v])
    rw [hassoc, List.mem_append, List.mem_singleton]
    by_cases hx : x = v
    · subst hx; simp [upd]
    · rw [upd_ne _ _ hx]
      rw [h.memF x]; simp [hx]
  · intro x hx
    have hx : x ∈ dn ++ (t.stack ++ [v]) := hx
    rw [hassoc, List.mem_append, List.mem_singleton] at hx
    rcases hx with hx | rfl
    · exact h.lt x hx
    · exact hv
  · intro i x y hi hxy
    have hi : (dn ++ (t.stack ++ [v]))[i]? = some x := hi
    have hxy : upd t.father v (some u) x = some y := hxy
    show t.S y = true ∧ slack g y x = 0 ∧
      (y = root ∨ ∃ j v' : ℕ, j < i ∧ (dn ++ (t.stack ++ [v]))[j]? = some v' ∧ g.m0 y = some v')
    rw [hassoc] at hi ⊢
    by_cases hx : x = v
    · subst hx
      rw [upd_same] at hxy
      obtain rfl : u = y := Option.some.inj hxy
      refine ⟨hS, hs hf, ?_⟩
      rcases (h.S u).1 hS with hr | ⟨v', hv', hm⟩
      · exact Or.inl hr
      · right
        obtain ⟨j, hj, hjv⟩ := List.getElem_of_mem hv'
        refine ⟨j, v', ?_, ?_, (hg.sym u v').2 hm⟩
        · by_contra hle
          have hlt : i < (dn ++ t.stack).length := by rw [List.length_append]; omega
          rw [List.getElem?_append_left hlt] at hi
          exact hnot (List.mem_of_getElem? hi)
        · rw [List.append_assoc, List.getElem?_append_left hj, List.getElem?_eq_getElem hj, hjv]
    · rw [upd_ne _ _ hx] at hxy
      have hlt : i < (dn ++ t.stack).length := by
        by_contra hle
        rw [List.getElem?_append_right (by omega)] at hi
        have := List.mem_of_getElem? hi
        simp at this
        exact hx this
      rw [List.getElem?_append_left hlt] at hi
      obtain ⟨a, b, c⟩ := h.father i x y hi hxy
      refine ⟨a, b, ?_⟩
      rcases c with c | ⟨j, v', hj, hjv, hm⟩
      · exact Or.inl c
      · exact Or.inr ⟨j, v', hj, by rw [List.getElem?_append_left (by omega)]; exact hjv, hm⟩

theorem foldl_adopt_inv {g : Graph} {root : ℕ} {dn : List ℕ} {u : ℕ} (hg : Good g)
    (vs : List ℕ) : ∀ t : Tree, TInv g t root dn → t.S u = true →
      (∀ v ∈ vs, v < g.n ∧ slack g u v = 0) →
      TInv g (vs.foldl (fun t v => adopt t u v) t) root dn := by
  induction vs with
  | nil => intro t h _ _; exact h
  | cons v vs ih =>
    intro t h hS hvs
    rw [List.foldl_cons]
    refine ih _ (adopt_inv hg h hS (hvs v List.mem_cons_self).1
      (fun _ => (hvs v List.mem_cons_self).2)) ?_ (fun x hx => hvs x (List.mem_cons_of_mem _ hx))
    rw [adopt_S]; exact hS

theorem neighbours_spec (g : Graph) (u v : ℕ) :
    v ∈ neighbours g u ↔ v < g.n ∧ slack g u v = 0 := by
  unfold neighbours; simp

/-- The tree made of its root only. -/
theorem root_inv {g : Graph} {root : ℕ} :
    TInv g ⟨upd (fun _ => false) root true, fun _ => false, fun _ => none, []⟩ root [] := by
  refine ⟨?_, ?_, ?_, ?_, ?_, ?_, ?_⟩
  · simp
  · intro v; simp
  · intro v hv; simp at hv
  · intro v; simp
  · intro u; simp [upd]
  · intro v hv; simp at hv
  · intro i v u hi; simp at hi

theorem newTree_inv {g : Graph} {root : ℕ} (hg : Good g) : TInv g (newTree g root) root [] := by
  unfold newTree explore
  rw [if_neg (by simp)]
  exact foldl_adopt_inv hg _ _ root_inv (by simp [upd])
    (fun v hv => (neighbours_spec g root v).1 hv)

/-- The next column of the stack enters the tree with its row, which is a new one. -/
theorem pop_inv {g : Graph} {t : Tree} {root : ℕ} {dn rest : List ℕ} {v u : ℕ} (hg : Good g)
    (hroot : g.m0 root = none) (h : TInv g t root dn) (hst : t.stack = v :: rest)
    (hm : g.m1 v = some u) :
    t.S u = false ∧ TInv g ⟨upd t.S u true, upd t.T v true, t.father, rest⟩ root (dn ++ [v]) := by
  have hnd := h.nodup
  rw [hst] at hnd
  have hvdn : v ∉ dn := by
    intro hin
    exact (List.disjoint_of_nodup_append hnd) hin List.mem_cons_self
  have hSu : t.S u = false := by
    by_contra hS
    have hS : t.S u = true := by simpa using hS
    rcases (h.S u).1 hS with rfl | ⟨v', hv', hm'⟩
    · rw [(hg.sym u v).2 hm] at hroot; cases hroot
    · have h1 := (hg.sym u v).2 hm
      have h2 := (hg.sym u v').2 hm'
      rw [h1] at h2
      obtain rfl := Option.some.inj h2
      exact hvdn hv'
  have heq : (dn ++ [v]) ++ rest = dn ++ t.stack := by rw [hst]; simp
  refine ⟨hSu, ?_, ?_, ?_, ?_, ?_, ?_, ?_⟩
  · show ((dn ++ [v]) ++ rest).Nodup
    rw [heq]; exact h.nodup
  · intro x
    show t.father x ≠ none ↔ x ∈ (dn ++ [v]) ++ rest
    rw [heq]; exact h.memF x
  · show ∀ x ∈ (dn ++ [v]) ++ rest, x < g.n
    rw [heq]; exact h.lt
  · intro x
    show upd t.T v true x = true ↔ _
    by_cases hx : x = v
    · subst hx; simp [upd]
    · rw [upd_ne _ _ hx, h.T]; simp [hx]
  · intro x
    show upd t.S u true x = true ↔ _
    by_cases hx : x = u
    · subst hx
      rw [upd_same]
      simp only [true_iff]
      exact Or.inr ⟨v, by simp, hm⟩
    · rw [upd_ne _ _ hx, h.S]
      constructor
      · rintro (h1 | ⟨y, hy, hm1⟩)
        · exact Or.inl h1
        · exact Or.inr ⟨y, by simp [hy], hm1⟩
      · rintro (h1 | ⟨y, hy, hm1⟩)
        · exact Or.inl h1
        · rcases List.mem_append.1 hy with hy | hy
          · exact Or.inr ⟨y, hy, hm1⟩
          · rw [List.mem_singleton] at hy
            subst hy
            rw [hm] at hm1
            exact absurd (Option.some.inj hm1).symm hx
  · intro x hx
    rcases List.mem_append.1 hx with hx | hx
    · exact h.matched x hx
    · rw [List.mem_singleton] at hx; subst hx; rw [hm]; simp
  · intro i x y hi hxy
    have hi : ((dn ++ [v]) ++ rest)[i]? = some x := hi
    show upd t.S u true y = true ∧ slack g y x = 0 ∧
      (y = root ∨ ∃ j v', j < i ∧ ((dn ++ [v]) ++ rest)[j]? = some v' ∧ g.m0 y = some v')
    rw [heq] at hi ⊢
    obtain ⟨a, b, c⟩ := h.father i x y hi hxy
    refine ⟨?_, b, c⟩
    unfold upd; split
    · rfl
    · exact a

theorem explore_inv {g : Graph} {t : Tree} {root : ℕ} {dn rest : List ℕ} {v u : ℕ} (hg : Good g)
    (hroot : g.m0 root = none) (h : TInv g t root dn) (hst : t.stack = v :: rest)
    (hm : g.m1 v = some u) :
    TInv g (explore g { t with stack := rest, T := upd t.T v true } u) root (dn ++ [v]) := by
  obtain ⟨hSu, hinv⟩ := pop_inv hg hroot h hst hm
  unfold explore
  rw [if_neg (by simp [hSu])]
  exact foldl_adopt_inv hg _ _ hinv (by simp [upd]) (fun v hv => (neighbours_spec g u v).1 hv)

/-- Some column is still outside the tree when every popped column is matched. -/
theorem length_lt_of_matched {g : Graph} {root : ℕ} {dn : List ℕ} (hg : Good g)
    (hroot : g.m0 root = none) (hlt : root < g.n) (hnd : dn.Nodup)
    (hm : ∀ v ∈ dn, g.m1 v ≠ none) : dn.length < g.n := by
  have hlen : (dn.filterMap g.m1).length = dn.length := by
    rw [List.length_filterMap_eq_countP, List.countP_eq_length]
    intro v hv
    simpa [Option.isSome_iff_ne_none] using hm v hv
  have hnd' : (dn.filterMap g.m1).Nodup := by
    apply List.Nodup.filterMap _ hnd
    intro a b c ha hb
    have h1 := (hg.sym c a).2 ha
    have h2 := (hg.sym c b).2 hb
    rw [h1] at h2
    exact Option.some.inj h2
  have hroot' : root ∉ dn.filterMap g.m1 := by
    intro hin
    obtain ⟨v, _, hv⟩ := List.mem_filterMap.1 hin
    rw [(hg.sym root v).2 hv] at hroot
    cases hroot
  have hsub : (root :: dn.filterMap g.m1) ⊆ List.range g.n := by
    intro x hx
    rw [List.mem_range]
    rcases List.mem_cons.1 hx with rfl | hx
    · exact hlt
    · obtain ⟨v, _, hv⟩ := List.mem_filterMap.1 hx
      exact (hg.lt x v ((hg.sym x v).2 hv)).1
  have := (List.subperm_of_subset (List.nodup_cons.2 ⟨hroot', hnd'⟩) hsub).length_le
  simp only [List.length_cons, List.length_range, hlen] at this
  omega

theorem foldl_pairs_S (ps : List (ℕ × ℕ)) : ∀ t : Tree,
    (ps.foldl (fun t p => if t.S p.1 then adopt t p.1 p.2 else t) t).S = t.S := by
  induction ps with
  | nil => intro t; rfl
  | cons p ps ih =>
    intro t
    rw [List.foldl_cons, ih]
    split
    · rw [adopt_S]
    · rfl

theorem foldl_pairs_father_mono (ps : List (ℕ × ℕ)) (x : ℕ) : ∀ t : Tree, t.father x ≠ none →
    (ps.foldl (fun t p => if t.S p.1 then adopt t p.1 p.2 else t) t).father x ≠ none := by
  induction ps with
  | nil => intro t h; exact h
  | cons p ps ih =>
    intro t h
    rw [List.foldl_cons]
    apply ih
    split
    · exact adopt_father_mono _ _ _ _ h
    · exact h

theorem foldl_pairs_father (ps : List (ℕ × ℕ)) (u v : ℕ) : ∀ t : Tree, t.S u = true →
    (u, v) ∈ ps →
    (ps.foldl (fun t p => if t.S p.1 then adopt t p.1 p.2 else t) t).father v ≠ none := by
  induction ps with
  | nil => intro t _ h; cases h
  | cons p ps ih =>
    intro t hS h
    rw [List.foldl_cons]
    rcases List.mem_cons.1 h with rfl | h
    · apply foldl_pairs_father_mono
      simp only [hS, if_true]
      exact adopt_father_self _ _ _
    · apply ih _ _ h
      split
      · rw [adopt_S]; exact hS
      · exact hS

theorem foldl_pairs_inv {g : Graph} {root : ℕ} {dn : List ℕ} (hg : Good g)
    (ps : List (ℕ × ℕ)) : ∀ t : Tree, TInv g t root dn →
      (∀ p ∈ ps, p.2 < g.n ∧ (t.S p.1 = true → p.2 ∉ dn → slack g p.1 p.2 = 0)) →
      TInv g (ps.foldl (fun t p => if t.S p.1 then adopt t p.1 p.2 else t) t) root dn := by
  induction ps with
  | nil => intro t h _; exact h
  | cons p ps ih =>
    intro t h hps
    rw [List.foldl_cons]
    have h0 := hps p List.mem_cons_self
    by_cases hS : t.S p.1 = true
    · rw [if_pos hS]
      refine ih _ (adopt_inv hg h hS h0.1 ?_) ?_
      · intro hf
        refine h0.2 hS ?_
        intro hin
        exact (h.memF p.2).2 (List.mem_append_left _ hin) hf
      · intro q hq
        rw [adopt_S]
        exact hps q (List.mem_cons_of_mem _ hq)
    · rw [if_neg hS]
      exact ih _ h (fun q hq => hps q (List.mem_cons_of_mem _ hq))

theorem relabel_inv {g : Graph} {t : Tree} {root : ℕ} {dn : List ℕ} (hg : Good g)
    (hroot : g.m0 root = none) (hlt : root < g.n) (h : TInv g t root dn) (hst : t.stack = []) :
    ∃ g' t', relabel g t = .ok (g', t') ∧ Good g' ∧ TInv g' t' root dn ∧ t'.stack ≠ [] ∧
      g'.n = g.n ∧ g'.w = g.w ∧ g'.m0 = g.m0 ∧ g'.m1 = g.m1 := by
  have hdn : dn ++ t.stack = dn := by rw [hst, List.append_nil]
  have hnd : dn.Nodup := hdn ▸ h.nodup
  have hlen := length_lt_of_matched hg hroot hlt hnd h.matched
  obtain ⟨v0, hv0, hv0n⟩ : ∃ v, v < g.n ∧ v ∉ dn := by
    by_contra hcon
    push Not at hcon
    have hsub : List.range g.n ⊆ dn := fun x hx => hcon x (List.mem_range.1 hx)
    have := (List.subperm_of_subset List.nodup_range hsub).length_le
    simp at this
    omega
  have hne : (((List.range g.n).filter fun u => t.S u).flatMap fun u =>
      ((List.range g.n).filter fun v => !t.T v).map fun v => slack g u v) ≠ [] := by
    apply List.ne_nil_of_mem (a := slack g root v0)
    rw [List.mem_flatMap]
    refine ⟨root, ?_, ?_⟩
    · simp only [List.mem_filter, List.mem_range]
      exact ⟨hlt, (h.S root).2 (Or.inl rfl)⟩
    · rw [List.mem_map]
      refine ⟨v0, ?_, rfl⟩
      simp only [List.mem_filter, List.mem_range, Bool.not_eq_true']
      refine ⟨hv0, ?_⟩
      by_contra hc
      exact hv0n ((h.T v0).1 (by simpa using hc))
  obtain ⟨alpha, hal, hmem, hmin⟩ := npMin_spec hne
  have hmem' : ∃ u v, u < g.n ∧ t.S u = true ∧ v < g.n ∧ v ∉ dn ∧ slack g u v = alpha := by
    rw [List.mem_flatMap] at hmem
    obtain ⟨u, hu, hmem⟩ := hmem
    rw [List.mem_map] at hmem
    obtain ⟨v, hv, hs⟩ := hmem
    simp only [List.mem_filter, List.mem_range, Bool.not_eq_true'] at hu hv
    refine ⟨u, v, hu.1, hu.2, hv.1, ?_, hs⟩
    intro hin
    have := (h.T v).2 hin
    rw [hv.2] at this; cases this
  have hmin' : ∀ u v, u < g.n → v < g.n → t.S u = true → t.T v = false → alpha ≤ slack g u v := by
    intro u v hu hv hS hT
    apply hmin
    rw [List.mem_flatMap]
    refine ⟨u, by simp only [List.mem_filter, List.mem_range]; exact ⟨hu, hS⟩, ?_⟩
    rw [List.mem_map]
    exact ⟨v, by simp only [List.mem_filter, List.mem_range, hT]; exact ⟨hv, rfl⟩, rfl⟩
  obtain ⟨u1, v1, hu1, hS1, hv1, hd1, hs1⟩ := hmem'
  have hal0 : 0 ≤ alpha := hs1 ▸ hg.feas u1 v1 hu1 hv1
  obtain ⟨g', hg'def⟩ : ∃ g' : Graph, g' = { g with
    l0 := fun i => if t.S i then g.l0 i - alpha else g.l0 i
    l1 := fun i => if t.T i then g.l1 i + alpha else g.l1 i } := ⟨_, rfl⟩
  have hslack : ∀ u v, slack g' u v = slack g u v - (if t.S u then alpha else 0)
      + (if t.T v then alpha else 0) := by
    intro u v
    rw [hg'def]
    unfold slack
    simp only []
    split <;> split <;> ring
  have hn : g'.n = g.n := by rw [hg'def]
  have hm0 : g'.m0 = g.m0 := by rw [hg'def]
  have hm1 : g'.m1 = g.m1 := by rw [hg'def]
  have hST : ∀ u v, g.m0 u = some v → (t.S u = true ↔ t.T v = true) := by
    intro u v hm
    rw [h.S, h.T]
    constructor
    · rintro (rfl | ⟨v', hv', hm'⟩)
      · rw [hroot] at hm; cases hm
      · rw [(hg.sym u v').2 hm'] at hm
        exact (Option.some.inj hm) ▸ hv'
    · intro hv
      exact Or.inr ⟨v, hv, (hg.sym u v).1 hm⟩
  have hgood : Good g' := by
    refine ⟨?_, ?_, ?_, ?_⟩
    · intro u v hu hv
      rw [hn] at hu hv
      have h0 := hg.feas u v hu hv
      rw [hslack]
      by_cases hS : t.S u = true
      · by_cases hT : t.T v = true
        · rw [if_pos hS, if_pos hT]; linarith
        · rw [if_pos hS, if_neg hT]
          have := hmin' u v hu hv hS (by simpa using hT)
          linarith
      · by_cases hT : t.T v = true
        · rw [if_neg hS, if_pos hT]; linarith
        · rw [if_neg hS, if_neg hT]; linarith
    · rw [hm0, hm1]; exact hg.sym
    · rw [hm0, hn]; exact hg.lt
    · intro u v hm
      rw [hm0] at hm
      have h0 := hg.tight u v hm
      have h1 := hST u v hm
      rw [hslack, h0]
      by_cases hS : t.S u = true
      · rw [if_pos hS, if_pos (h1.1 hS)]; ring
      · rw [if_neg hS, if_neg (fun hT => hS (h1.2 hT))]; ring
  have hinv : TInv g' t root dn := by
    refine ⟨h.nodup, h.memF, ?_, h.T, ?_, ?_, ?_⟩
    · rw [hn]; exact h.lt
    · rw [hm1]; exact h.S
    · rw [hm1]; exact h.matched
    · intro i v u hi hf
      obtain ⟨a, b, c⟩ := h.father i v u hi hf
      refine ⟨a, ?_, ?_⟩
      · have hvdn : v ∈ dn := by
          rw [hdn] at hi
          exact List.mem_of_getElem? hi
        rw [hslack, if_pos a, if_pos ((h.T v).2 hvdn), b]; ring
      · rw [hm0]; exact c
  have hps : ∀ p ∈ ((List.range g.n).flatMap fun u =>
      ((List.range g.n).filter fun v => slack g u v = alpha).map fun v => (u, v)),
      p.2 < g'.n ∧ (t.S p.1 = true → p.2 ∉ dn → slack g' p.1 p.2 = 0) := by
    intro p hp
    rw [List.mem_flatMap] at hp
    obtain ⟨u, hu, hp⟩ := hp
    rw [List.mem_map] at hp
    obtain ⟨v, hv, rfl⟩ := hp
    simp only [List.mem_filter, List.mem_range, decide_eq_true_eq] at hv
    refine ⟨hn ▸ hv.1, ?_⟩
    intro hS hnd
    rw [hslack, if_pos hS, if_neg (fun hT => hnd ((h.T v).1 hT)), hv.2]; ring
  refine ⟨g', ((List.range g.n).flatMap fun u =>
    ((List.range g.n).filter fun v => slack g u v = alpha).map fun v => (u, v)).foldl
      (fun t p => if t.S p.1 then adopt t p.1 p.2 else t) t, ?_, hgood, ?_, ?_, hn,
      by rw [hg'def], hm0, hm1⟩
  · rw [hg'def]
    unfold relabel
    simp only []
    rw [hal]
    rfl
  · exact foldl_pairs_inv hgood _ t hinv hps
  · intro hnil
    have hin : (u1, v1) ∈ ((List.range g.n).flatMap fun u =>
        ((List.range g.n).filter fun v => slack g u v = alpha).map fun v => (u, v)) := by
      rw [List.mem_flatMap]
      refine ⟨u1, List.mem_range.2 hu1, ?_⟩
      rw [List.mem_map]
      exact ⟨v1, by simp only [List.mem_filter, List.mem_range, decide_eq_true_eq]; exact ⟨hv1, hs1⟩,
        rfl⟩
    have hf := foldl_pairs_father _ u1 v1 t hS1 hin
    have hinv' := foldl_pairs_inv hgood _ t hinv hps
    have := (hinv'.memF v1).1 hf
    rw [hnil, List.append_nil] at this
    exact hd1 this

/-- The search for an augmenting path ends on a free column whose tree path is sound. -/
theorem findPath_spec {root : ℕ} : ∀ (fuel : ℕ) (g : Graph) (t : Tree) (dn : List ℕ), Good g →
    g.m0 root = none → root < g.n → TInv g t root dn →
    2 * (g.n - dn.length) + (if t.stack = [] then 1 else 0) ≤ fuel →
    ∃ g' t' v t0 rest dn', findPath fuel g t = some (.ok (g', t', v)) ∧ Good g' ∧
      TInv g' t0 root dn' ∧ t0.stack = v :: rest ∧ t'.father = t0.father ∧ g'.m1 v = none ∧
      g'.n = g.n ∧ g'.w = g.w ∧ g'.m0 = g.m0 := by
  intro fuel
  induction fuel with
  | zero =>
    intro g t dn hg hroot hlt h hfuel
    exfalso
    by_cases hst : t.stack = []
    · rw [if_pos hst] at hfuel; omega
    · rw [if_neg hst] at hfuel
      have h1 := (List.subperm_of_subset h.nodup
        (fun x hx => List.mem_range.2 (h.lt x hx))).length_le
      have h2 := List.length_pos_iff.2 hst
      simp only [List.length_append, List.length_range] at h1
      omega
  | succ fuel ih =>
    intro g t dn hg hroot hlt h hfuel
    unfold findPath
    cases hst : t.stack with
    | nil =>
      simp only []
      obtain ⟨g', t', hr, hg', hinv, hne, hn, hw, hm0, hm1⟩ := relabel_inv hg hroot hlt h hst
      rw [hr]
      simp only []
      rw [if_pos hst] at hfuel
      obtain ⟨g2, t2, v, t0, rest, dn', h1, h2, h3, h4, h5, h6, h7, h8, h9⟩ :=
        ih g' t' dn hg' (hm0 ▸ hroot) (hn ▸ hlt) hinv (by rw [if_neg hne, hn]; omega)
      exact ⟨g2, t2, v, t0, rest, dn', h1, h2, h3, h4, h5, h6, h7.trans hn, h8.trans hw,
        h9.trans hm0⟩
    | cons v rest =>
      simp only []
      cases hm : g.m1 v with
      | none =>
        exact ⟨g, _, v, t, rest, dn, rfl, hg, h, hst, rfl, hm, rfl, rfl, rfl⟩
      | some u =>
        simp only []
        have hinv := explore_inv hg hroot h hst hm
        have h1 := (List.subperm_of_subset h.nodup
          (fun x hx => List.mem_range.2 (h.lt x hx))).length_le
        rw [hst] at h1
        simp only [List.length_append, List.length_range, List.length_cons] at h1
        apply ih g _ (dn ++ [v]) hg hroot hlt hinv
        simp only [List.length_append, List.length_cons, List.length_nil]
        rw [if_neg (by rw [hst]; simp)] at hfuel
        split <;> omega

/-- Invariant of the augmentation loop, `v` being the current column, found at position `i` of
the order in which the columns received their father. -/
structure AInv (father : ℕ → Option ℕ) (root : ℕ) (order : List ℕ) (g : Graph) (i v : ℕ) : Prop where
  at_ : order[i]? = some v
  path : ∀ j x : ℕ, j ≤ i → order[j]? = some x → ∃ u, father x = some u ∧ u < g.n ∧ x < g.n ∧
    slack g u x = 0 ∧ (u = root ∨ ∃ j' x' : ℕ, j' < j ∧ order[j']? = some x' ∧ g.m0 u = some x')
  root_free : g.m0 root = none
  feas : ∀ u v, u < g.n → v < g.n → 0 ≤ slack g u v
  sym : ∀ u x, x ≠ v → (g.m0 u = some x ↔ g.m1 x = some u)
  free : ∀ u, g.m0 u ≠ some v
  lt : ∀ u v, g.m0 u = some v → u < g.n ∧ v < g.n
  tight : ∀ u v, g.m0 u = some v → slack g u v = 0

theorem augment_spec {father : ℕ → Option ℕ} {root : ℕ} {order : List ℕ} (hnd : order.Nodup) :
    ∀ (fuel : ℕ) (g : Graph) (i v : ℕ), AInv father root order g i v → i + 1 ≤ fuel →
    ∃ g', augment father fuel g (some v) = some (.ok g') ∧ Good g' ∧ g'.n = g.n ∧ g'.w = g.w ∧
      g'.m0 root ≠ none ∧ ∀ u, g.m0 u ≠ none → g'.m0 u ≠ none := by
  intro fuel
  induction fuel with
  | zero => intro g i v _ h; omega
  | succ fuel ih =>
    intro g i v h hfuel
    obtain ⟨u, hfu, hun, hvn, hslack, hlink⟩ := h.path i v le_rfl h.at_
    unfold augment
    rw [hfu]
    simp only []
    obtain ⟨g1, hg1⟩ : ∃ g1 : Graph, g1 = { g with m1 := upd g.m1 v (some u), m0 := upd g.m0 u (some v) } :=
      ⟨_, rfl⟩
    rw [← hg1]
    have hm0 : g1.m0 = upd g.m0 u (some v) := by rw [hg1]
    have hm1 : g1.m1 = upd g.m1 v (some u) := by rw [hg1]
    have hn : g1.n = g.n := by rw [hg1]
    have hw : g1.w = g.w := by rw [hg1]
    have hsl : ∀ a b, slack g1 a b = slack g a b := by intro a b; rw [hg1]; rfl
    have hlt1 : ∀ a b, g1.m0 a = some b → a < g1.n ∧ b < g1.n := by
      intro a b hab
      rw [hm0] at hab; rw [hn]
      by_cases ha : a = u
      · subst ha; rw [upd_same] at hab
        obtain rfl := Option.some.inj hab
        exact ⟨hun, hvn⟩
      · rw [upd_ne _ _ ha] at hab; exact h.lt a b hab
    have htight1 : ∀ a b, g1.m0 a = some b → slack g1 a b = 0 := by
      intro a b hab
      rw [hm0] at hab; rw [hsl]
      by_cases ha : a = u
      · subst ha; rw [upd_same] at hab
        obtain rfl := Option.some.inj hab
        exact hslack
      · rw [upd_ne _ _ ha] at hab; exact h.tight a b hab
    have hfeas1 : ∀ a b, a < g1.n → b < g1.n → 0 ≤ slack g1 a b := by
      intro a b; rw [hn, hsl]; exact h.feas a b
    -- the consistency of the two sides, but for the column that loses its row
    have hsym1 : ∀ a x, g.m0 u ≠ some x → (g1.m0 a = some x ↔ g1.m1 x = some a) := by
      intro a x hx
      rw [hm0, hm1]
      by_cases hxv : x = v
      · subst hxv
        rw [upd_same]
        by_cases ha : a = u
        · subst ha; simp [upd_same]
        · rw [upd_ne _ _ ha]
          constructor
          · intro hc; exact absurd hc (h.free a)
          · intro hc; exact absurd (Option.some.inj hc).symm ha
      · rw [upd_ne _ _ hxv, ← h.sym a x hxv]
        by_cases ha : a = u
        · subst ha
          rw [upd_same]
          constructor
          · intro hc; exact absurd (Option.some.inj hc).symm hxv
          · intro hc; exact absurd hc hx
        · rw [upd_ne _ _ ha]
    have hmono1 : ∀ a, g.m0 a ≠ none → g1.m0 a ≠ none := by
      intro a ha
      rw [hm0]; unfold upd; split
      · simp
      · exact ha
    cases hnext : g.m0 u with
    | none =>
      rw [hnext] at hsym1
      have hur : u = root := by
        rcases hlink with hr | ⟨j', x', _, _, hc⟩
        · exact hr
        · rw [hnext] at hc; cases hc
      refine ⟨g1, by unfold augment; cases fuel <;> rfl, ⟨hfeas1, fun a x => hsym1 a x (by simp), hlt1,
        htight1⟩, hn, hw, ?_, hmono1⟩
      rw [hm0, ← hur, upd_same]; simp
    | some v1 =>
      have hur : u ≠ root := by
        rintro rfl; rw [h.root_free] at hnext; cases hnext
      have hv1 : v1 ≠ v := by
        rintro rfl; exact h.free u hnext
      obtain ⟨j', hj', hat⟩ : ∃ j', j' < i ∧ order[j']? = some v1 := by
        rcases hlink with hr | ⟨j', x', hj', hx', hc⟩
        · exact absurd hr hur
        · rw [hnext] at hc
          exact ⟨j', hj', (Option.some.inj hc) ▸ hx'⟩
      have hA : AInv father root order g1 j' v1 := by
        refine ⟨hat, ?_, ?_, hfeas1, ?_, ?_, hlt1, htight1⟩
        · intro j x hj hx
          obtain ⟨a, ha1, ha2, ha3, ha4, ha5⟩ := h.path j x (by omega) hx
          refine ⟨a, ha1, hn ▸ ha2, hn ▸ ha3, by rw [hsl]; exact ha4, ?_⟩
          rcases ha5 with ha5 | ⟨k, y, hk, hy, hay⟩
          · exact Or.inl ha5
          · refine Or.inr ⟨k, y, hk, hy, ?_⟩
            rw [hm0]
            by_cases hau : a = u
            · exfalso
              subst hau
              rw [hnext] at hay
              obtain rfl := Option.some.inj hay
              have hk1 := (List.getElem?_eq_some_iff.1 hy).1
              have hj1 := (List.getElem?_eq_some_iff.1 hat).1
              have := (List.Nodup.getElem_inj_iff hnd (hi := hk1) (hj := hj1)).1 (by
                rw [(List.getElem?_eq_some_iff.1 hy).2, (List.getElem?_eq_some_iff.1 hat).2])
              omega
            · rw [upd_ne _ _ hau]; exact hay
        · rw [hm0, upd_ne _ _ (Ne.symm hur)]; exact h.root_free
        · intro a x hx
          exact hsym1 a x (by rw [hnext]; intro hc; exact hx (Option.some.inj hc).symm)
        · intro a hc
          rw [hm0] at hc
          by_cases ha : a = u
          · subst ha; rw [upd_same] at hc
            exact hv1 (Option.some.inj hc).symm
          · rw [upd_ne _ _ ha] at hc
            have h1 := (h.sym a v1 hv1).1 hc
            have h2 := (h.sym u v1 hv1).1 hnext
            rw [h1] at h2
            exact ha (Option.some.inj h2)
      obtain ⟨g', h1, h2, h3, h4, h5, h6⟩ := ih g1 j' v1 hA (by omega)
      exact ⟨g', h1, h2, h3.trans hn, h4.trans hw, h5, fun a ha => h6 a (hmono1 a ha)⟩

theorem TInv.ainv {g : Graph} {t : Tree} {root v : ℕ} {dn rest : List ℕ} (hg : Good g)
    (hroot : g.m0 root = none) (hlt : root < g.n) (h : TInv g t root dn) (hst : t.stack = v :: rest)
    (hm : g.m1 v = none) : AInv t.father root (dn ++ t.stack) g dn.length v := by
  refine ⟨?_, ?_, hroot, hg.feas, fun u x _ => hg.sym u x, ?_, hg.lt, hg.tight⟩
  · rw [hst, List.getElem?_append_right le_rfl]; simp
  · intro j x hj hx
    have hmem := List.mem_of_getElem? hx
    obtain ⟨u, hu⟩ := Option.ne_none_iff_exists'.1 ((h.memF x).2 hmem)
    obtain ⟨a, b, c⟩ := h.father j x u hx hu
    refine ⟨u, hu, ?_, h.lt x hmem, b, c⟩
    rcases c with rfl | ⟨_, x', _, _, hx'⟩
    · exact hlt
    · exact (hg.lt u x' hx').1
  · intro u hc
    rw [(hg.sym u v).1 hc] at hm; cases hm

/-- The main loop completes the matching. -/
theorem matchLoop_spec {pf af : ℕ} : ∀ (k fuel u : ℕ) (g : Graph), Good g → g.n - u = k →
    2 * k + 1 ≤ fuel → 2 * g.n + 1 ≤ pf → g.n ≤ af → (∀ x, x < u → x < g.n → g.m0 x ≠ none) →
    ∃ g', matchLoop pf af fuel u g = some (.ok g') ∧ Good g' ∧ g'.n = g.n ∧ g'.w = g.w ∧
      ∀ x, x < g.n → g'.m0 x ≠ none := by
  intro k
  induction k with
  | zero =>
    intro fuel u g hg hk hfuel hpf haf hdone
    obtain ⟨fuel, rfl⟩ : ∃ f, fuel = f + 1 := ⟨fuel - 1, by omega⟩
    unfold matchLoop
    rw [if_neg (by omega)]
    exact ⟨g, rfl, hg, rfl, rfl, fun x hx => hdone x (by omega) hx⟩
  | succ k ih =>
    intro fuel u g hg hk hfuel hpf haf hdone
    -- one step on a matched row
    have step : ∀ (f : ℕ) (g1 : Graph), Good g1 → g1.n = g.n → 2 * k + 2 ≤ f →
        (∀ x, x < u → x < g1.n → g1.m0 x ≠ none) → g1.m0 u ≠ none →
        ∃ g', matchLoop pf af f u g1 = some (.ok g') ∧ Good g' ∧ g'.n = g1.n ∧ g'.w = g1.w ∧
          ∀ x, x < g1.n → g'.m0 x ≠ none := by
      intro f g1 hg1 hn hf hd hu
      obtain ⟨f, rfl⟩ : ∃ f', f = f' + 1 := ⟨f - 1, by omega⟩
      unfold matchLoop
      rw [if_pos (by omega)]
      obtain ⟨v, hv⟩ := Option.ne_none_iff_exists'.1 hu
      rw [hv]
      simp only []
      apply ih f (u + 1) g1 hg1 (by omega) (by omega) (by omega) (by omega)
      intro x hx hxn
      rcases Nat.lt_succ_iff_lt_or_eq.1 hx with hx | rfl
      · exact hd x hx hxn
      · exact hu
    by_cases hu : g.m0 u = none
    · obtain ⟨fuel, rfl⟩ : ∃ f, fuel = f + 1 := ⟨fuel - 1, by omega⟩
      have hun : u < g.n := by omega
      unfold matchLoop
      rw [if_pos hun, hu]
      simp only []
      obtain ⟨g1, t1, v, t0, rest, dn', h1, h2, h3, h4, h5, h6, h7, h8, h9⟩ :=
        findPath_spec pf g (newTree g u) [] hg hu hun (newTree_inv hg) (by
          simp only [List.length_nil, Nat.sub_zero]; split <;> omega)
      rw [h1]
      simp only []
      have hA := h3.ainv h2 (h9 ▸ hu) (h7 ▸ hun) h4 h6
      have hlen := (List.subperm_of_subset h3.nodup
        (fun x hx => List.mem_range.2 (h3.lt x hx))).length_le
      rw [h4] at hlen
      simp only [List.length_append, List.length_range, List.length_cons] at hlen
      obtain ⟨g2, k1, k2, k3, k4, k5, k6⟩ := augment_spec h3.nodup af g1 dn'.length v hA (by omega)
      rw [h5, k1]
      simp only []
      obtain ⟨g', e1, e2, e3, e4, e5⟩ := step fuel g2 k2 (k3.trans h7) (by omega) (by
        intro x hx hxn
        apply k6
        rw [h9]
        exact hdone x hx (by rw [k3, h7] at hxn; exact hxn)) k5
      exact ⟨g', e1, e2, e3.trans (k3.trans h7), e4.trans (k4.trans h8), fun x hx => e5 x (by
        rw [k3, h7]; exact hx)⟩
    · exact step fuel g hg rfl (by omega) hdone hu

theorem initGraph_good {n : ℕ} {w : ℕ → ℕ → ℚ} : Good (initGraph n w) := by
  refine ⟨?_, ?_, ?_, ?_⟩
  · intro u v hu hv
    unfold slack initGraph
    simp only []
    have := (foldl_max_spec ((List.range n).map (w u)) (w u 0)).2.2 (w u v)
      (List.mem_map.2 ⟨v, List.mem_range.2 hv, rfl⟩)
    linarith
  · intro u v; simp [initGraph]
  · intro u v h; simp [initGraph] at h
  · intro u v h; simp [initGraph] at h

end Verif.Munkres
