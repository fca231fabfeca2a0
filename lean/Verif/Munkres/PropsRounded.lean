import Verif.Munkres.Rounded
import Verif.Munkres.Props

/-!
# Property C195 of `multimodal/lib/munkres.py`: rounded operations

Whatever the rounding of sums and differences, the search ends and returns a complete choice (`C195_permutation`,
`C195_fewer_rows`, `C195_more_rows`).
-/

namespace Verif.Munkres.Fl

/-- The graph without its numbers: all its edges are tight. -/
def flat (g : Graph) : Graph := { g with w := fun _ _ => 0, l0 := fun _ => 0, l1 := fun _ => 0 }

theorem slack_flat (g : Graph) (u v : ℕ) : Munkres.slack (flat g) u v = 0 := by
  simp [Munkres.slack, flat]

/-- A consistent matching. -/
structure Sound (g : Graph) : Prop where
  sym : ∀ u v, g.m0 u = some v ↔ g.m1 v = some u
  lt : ∀ u v, g.m0 u = some v → u < g.n ∧ v < g.n

theorem Sound.good {g : Graph} (h : Sound g) : Good (flat g) :=
  ⟨fun u v _ _ => (slack_flat g u v).ge, h.sym, h.lt, fun u v _ => slack_flat g u v⟩

theorem Sound.of_good {g : Graph} (h : Good (flat g)) : Sound g := ⟨h.sym, h.lt⟩

/-- `augment_matching` does not look at labels. -/
theorem augment_flat (father : ℕ → Option ℕ) : ∀ (fuel : ℕ) (g : Graph) (v : Option ℕ),
    augment father fuel (flat g) v = (augment father fuel g v).map fun r => r.map flat := by
  intro fuel
  induction fuel with
  | zero =>
    intro g v
    cases v <;> simp [augment, Except.map]
  | succ f ih =>
    intro g v
    cases v with
    | none => simp [augment, Except.map]
    | some v =>
      unfold augment
      cases father v with
      | none => rfl
      | some u => exact ih { g with m1 := upd g.m1 v (some u), m0 := upd g.m0 u (some v) } (g.m0 u)

variable {fl : ℚ → ℚ}

theorem neighbours_lt {g : Graph} {u v : ℕ} (h : v ∈ neighbours fl g u) : v < g.n := by
  unfold neighbours at h
  simp only [List.mem_filter, List.mem_range] at h
  exact h.1

theorem newTree_inv {g : Graph} {root : ℕ} (hg : Sound g) :
    TInv (flat g) (newTree fl g root) root [] := by
  unfold newTree explore
  rw [if_neg (by simp)]
  exact foldl_adopt_inv hg.good _ _ root_inv (by simp [upd])
    (fun v hv => ⟨neighbours_lt (g := g) hv, slack_flat _ _ _⟩)

theorem explore_inv {g : Graph} {t : Tree} {root : ℕ} {dn rest : List ℕ} {v u : ℕ} (hg : Sound g)
    (hroot : g.m0 root = none) (h : TInv (flat g) t root dn) (hst : t.stack = v :: rest)
    (hm : g.m1 v = some u) :
    TInv (flat g) (explore fl g { t with stack := rest, T := upd t.T v true } u) root (dn ++ [v]) := by
  obtain ⟨hSu, hinv⟩ := pop_inv hg.good hroot h hst hm
  unfold explore
  rw [if_neg (by simp [hSu])]
  exact foldl_adopt_inv hg.good _ _ hinv (by simp [upd])
    (fun v hv => ⟨neighbours_lt (g := g) hv, slack_flat _ _ _⟩)

/-- The label update succeeds, changes labels only and brings a new column. -/
theorem relabel_inv {g : Graph} {t : Tree} {root : ℕ} {dn : List ℕ} (hg : Sound g)
    (hroot : g.m0 root = none) (hlt : root < g.n) (h : TInv (flat g) t root dn) (hst : t.stack = []) :
    ∃ g' t', relabel fl g t = .ok (g', t') ∧ flat g' = flat g ∧ TInv (flat g) t' root dn ∧
      t'.stack ≠ [] := by
  have hdn : dn ++ t.stack = dn := by rw [hst, List.append_nil]
  have hnd : dn.Nodup := hdn ▸ h.nodup
  have hlen := length_lt_of_matched hg.good hroot hlt hnd h.matched
  obtain ⟨v0, hv0, hv0n⟩ : ∃ v, v < g.n ∧ v ∉ dn := by
    by_contra hcon
    push Not at hcon
    have hsub : List.range g.n ⊆ dn := fun x hx => hcon x (List.mem_range.1 hx)
    have := (List.subperm_of_subset List.nodup_range hsub).length_le
    simp only [List.length_range] at this
    have hlen : dn.length < g.n := hlen
    omega
  have hne : (((List.range g.n).filter fun u => t.S u).flatMap fun u =>
      ((List.range g.n).filter fun v => !t.T v).map fun v => slack fl g u v) ≠ [] := by
    apply List.ne_nil_of_mem (a := slack fl g root v0)
    rw [List.mem_flatMap]
    refine ⟨root, ?_, ?_⟩
    · simp only [List.mem_filter, List.mem_range]
      exact ⟨hlt, (h.S root).2 (Or.inl rfl)⟩
    · rw [List.mem_map]
      refine ⟨v0, ?_, rfl⟩
      simp only [List.mem_filter, List.mem_range, Bool.not_eq_true']
      refine ⟨hv0, ?_⟩
      by_contra hc
      exact hv0n ((h.T v0).1 (by simpa using hc))
  obtain ⟨alpha, hal, hmem, -⟩ := npMin_spec hne
  rw [List.mem_flatMap] at hmem
  obtain ⟨u1, hu1, hmem⟩ := hmem
  rw [List.mem_map] at hmem
  obtain ⟨v1, hv1, hs1⟩ := hmem
  simp only [List.mem_filter, List.mem_range, Bool.not_eq_true'] at hu1 hv1
  have hd1 : v1 ∉ dn := by
    intro hin
    have := (h.T v1).2 hin
    rw [hv1.2] at this; cases this
  have hps : ∀ p ∈ ((List.range g.n).flatMap fun u =>
      ((List.range g.n).filter fun v => slack fl g u v = alpha).map fun v => (u, v)),
      p.2 < (flat g).n ∧ (t.S p.1 = true → p.2 ∉ dn → Munkres.slack (flat g) p.1 p.2 = 0) := by
    intro p hp
    rw [List.mem_flatMap] at hp
    obtain ⟨u, hu, hp⟩ := hp
    rw [List.mem_map] at hp
    obtain ⟨v, hv, rfl⟩ := hp
    simp only [List.mem_filter, List.mem_range, decide_eq_true_eq] at hv
    exact ⟨hv.1, fun _ _ => slack_flat _ _ _⟩
  have hinv' := foldl_pairs_inv hg.good _ t h hps
  refine ⟨{ g with
      l0 := fun i => if t.S i then fl (g.l0 i - alpha) else g.l0 i
      l1 := fun i => if t.T i then fl (g.l1 i + alpha) else g.l1 i }, _, ?_, ?_, hinv', ?_⟩
  · unfold relabel
    simp only []
    rw [hal]
    rfl
  · rfl
  · intro hnil
    have hin : (u1, v1) ∈ ((List.range g.n).flatMap fun u =>
        ((List.range g.n).filter fun v => slack fl g u v = alpha).map fun v => (u, v)) := by
      rw [List.mem_flatMap]
      refine ⟨u1, List.mem_range.2 hu1.1, ?_⟩
      rw [List.mem_map]
      exact ⟨v1, by simp only [List.mem_filter, List.mem_range, decide_eq_true_eq]; exact ⟨hv1.1, hs1⟩,
        rfl⟩
    have hf := foldl_pairs_father _ u1 v1 t hu1.2 hin
    have := (hinv'.memF v1).1 hf
    rw [hnil, List.append_nil] at this
    exact hd1 this

theorem findPath_spec {root : ℕ} : ∀ (fuel : ℕ) (g : Graph) (t : Tree) (dn : List ℕ), Sound g →
    g.m0 root = none → root < g.n → TInv (flat g) t root dn →
    2 * (g.n - dn.length) + (if t.stack = [] then 1 else 0) ≤ fuel →
    ∃ g' t' v t0 rest dn', findPath fl fuel g t = some (.ok (g', t', v)) ∧ flat g' = flat g ∧
      TInv (flat g) t0 root dn' ∧ t0.stack = v :: rest ∧ t'.father = t0.father ∧ g.m1 v = none := by
  intro fuel
  induction fuel with
  | zero =>
    intro g t dn hg hroot hlt h hfuel
    exfalso
    by_cases hst : t.stack = []
    · rw [if_pos hst] at hfuel; omega
    · rw [if_neg hst] at hfuel
      have h1 := (List.subperm_of_subset h.nodup
        (fun x hx => List.mem_range.2 (h.lt x hx))).length_le
      have h2 := List.length_pos_iff.2 hst
      simp only [List.length_append, List.length_range] at h1
      have h1 : dn.length + t.stack.length ≤ g.n := h1
      omega
  | succ fuel ih =>
    intro g t dn hg hroot hlt h hfuel
    unfold findPath
    cases hst : t.stack with
    | nil =>
      simp only []
      obtain ⟨g', t', hr, hfl, hinv, hne⟩ := relabel_inv (fl := fl) hg hroot hlt h hst
      rw [hr]
      simp only []
      rw [if_pos hst] at hfuel
      have hn : g'.n = g.n := (by rw [hfl] : (flat g').n = (flat g).n)
      have hm0 : g'.m0 = g.m0 := (by rw [hfl] : (flat g').m0 = (flat g).m0)
      have hm1 : g'.m1 = g.m1 := (by rw [hfl] : (flat g').m1 = (flat g).m1)
      have hg' : Sound g' := ⟨by rw [hm0, hm1]; exact hg.sym, by rw [hm0, hn]; exact hg.lt⟩
      obtain ⟨g2, t2, v, t0, rest, dn', h1, h2, h3, h4, h5, h6⟩ :=
        ih g' t' dn hg' (hm0 ▸ hroot) (hn ▸ hlt) (hfl ▸ hinv) (by rw [if_neg hne, hn]; omega)
      exact ⟨g2, t2, v, t0, rest, dn', h1, h2.trans hfl, hfl ▸ h3, h4, h5, hm1 ▸ h6⟩
    | cons v rest =>
      simp only []
      cases hm : g.m1 v with
      | none => exact ⟨g, _, v, t, rest, dn, rfl, rfl, h, hst, rfl, hm⟩
      | some u =>
        simp only []
        have hinv := explore_inv (fl := fl) hg hroot h hst hm
        have h1 := (List.subperm_of_subset h.nodup
          (fun x hx => List.mem_range.2 (h.lt x hx))).length_le
        rw [hst] at h1
        simp only [List.length_append, List.length_range, List.length_cons] at h1
        have h1 : dn.length + (rest.length + 1) ≤ g.n := h1
        apply ih g _ (dn ++ [v]) hg hroot hlt hinv
        simp only [List.length_append, List.length_cons, List.length_nil]
        rw [if_neg (by rw [hst]; simp)] at hfuel
        split <;> omega

/-- From a free row, an augmenting path is found and used. -/
theorem augmentation {g : Graph} (hg : Sound g) {u : ℕ} (hu : u < g.n) (hfree : g.m0 u = none)
    {pf af : ℕ} (hpf : 2 * g.n + 1 ≤ pf) (haf : g.n ≤ af) :
    ∃ g1 t v g2, findPath fl pf g (newTree fl g u) = some (.ok (g1, t, v)) ∧
      augment t.father af g1 (some v) = some (.ok g2) ∧ Sound g2 ∧ g2.n = g.n ∧
      g2.m0 u ≠ none ∧ ∀ x, g.m0 x ≠ none → g2.m0 x ≠ none := by
  obtain ⟨g1, t1, v, t0, rest, dn', h1, h2, h3, h4, h5, h6⟩ :=
    findPath_spec (fl := fl) pf g (newTree fl g u) [] hg hfree hu (newTree_inv hg) (by
      simp only [List.length_nil, Nat.sub_zero]; split <;> omega)
  have hA := h3.ainv hg.good hfree hu h4 h6
  have hlen := (List.subperm_of_subset h3.nodup
    (fun x hx => List.mem_range.2 (h3.lt x hx))).length_le
  rw [h4] at hlen
  simp only [List.length_append, List.length_range, List.length_cons] at hlen
  have hlen : dn'.length + (rest.length + 1) ≤ g.n := hlen
  obtain ⟨g2, k1, k2, k3, k4, k5, k6⟩ := augment_spec h3.nodup af (flat g) dn'.length v hA (by omega)
  rw [← h5, ← h2, augment_flat] at k1
  cases ha : augment t1.father af g1 (some v) with
  | none => rw [ha] at k1; cases k1
  | some r =>
    rw [ha] at k1
    cases r with
    | error e => simp [Except.map] at k1
    | ok g3 =>
      simp only [Option.map_some, Except.map, Option.some.injEq, Except.ok.injEq] at k1
      subst k1
      exact ⟨g1, t1, v, g3, h1, ha, Sound.of_good k2, k3, k5, k6⟩

theorem matchLoop_spec {pf af : ℕ} : ∀ (k fuel u : ℕ) (g : Graph), Sound g → g.n - u = k →
    2 * k + 1 ≤ fuel → 2 * g.n + 1 ≤ pf → g.n ≤ af → (∀ x, x < u → x < g.n → g.m0 x ≠ none) →
    ∃ g', matchLoop fl pf af fuel u g = some (.ok g') ∧ Sound g' ∧ g'.n = g.n ∧
      ∀ x, x < g.n → g'.m0 x ≠ none := by
  intro k
  induction k with
  | zero =>
    intro fuel u g hg hk hfuel hpf haf hdone
    obtain ⟨fuel, rfl⟩ : ∃ f, fuel = f + 1 := ⟨fuel - 1, by omega⟩
    unfold matchLoop
    rw [if_neg (by omega)]
    exact ⟨g, rfl, hg, rfl, fun x hx => hdone x (by omega) hx⟩
  | succ k ih =>
    intro fuel u g hg hk hfuel hpf haf hdone
    have step : ∀ (f : ℕ) (g1 : Graph), Sound g1 → g1.n = g.n → 2 * k + 2 ≤ f →
        (∀ x, x < u → x < g1.n → g1.m0 x ≠ none) → g1.m0 u ≠ none →
        ∃ g', matchLoop fl pf af f u g1 = some (.ok g') ∧ Sound g' ∧ g'.n = g1.n ∧
          ∀ x, x < g1.n → g'.m0 x ≠ none := by
      intro f g1 hg1 hn hf hd hu
      obtain ⟨f, rfl⟩ : ∃ f', f = f' + 1 := ⟨f - 1, by omega⟩
      unfold matchLoop
      rw [if_pos (by omega)]
      obtain ⟨v, hv⟩ := Option.ne_none_iff_exists'.1 hu
      rw [hv]
      simp only []
      apply ih f (u + 1) g1 hg1 (by omega) (by omega) (by omega) (by omega)
      intro x hx hxn
      rcases Nat.lt_succ_iff_lt_or_eq.1 hx with hx | rfl
      · exact hd x hx hxn
      · exact hu
    by_cases hu : g.m0 u = none
    · obtain ⟨fuel, rfl⟩ : ∃ f, fuel = f + 1 := ⟨fuel - 1, by omega⟩
      have hun : u < g.n := by omega
      unfold matchLoop
      rw [if_pos hun, hu]
      simp only []
      obtain ⟨g1, t1, v, g2, h1, k1, k2, k3, k5, k6⟩ := augmentation (fl := fl) hg hun hu hpf haf
      rw [h1]
      simp only []
      rw [k1]
      simp only []
      obtain ⟨g', e1, e2, e3, e5⟩ := step fuel g2 k2 k3 (by omega) (by
        intro x hx hxn
        exact k6 x (hdone x hx (by rw [k3] at hxn; exact hxn))) k5
      exact ⟨g', e1, e2, e3.trans k3, fun x hx => e5 x (by rw [k3]; exact hx)⟩
    · exact step fuel g hg rfl (by omega) hdone hu

theorem initGraph_sound {n : ℕ} {w : ℕ → ℕ → ℚ} : Sound (initGraph n w) :=
  ⟨initGraph_good.sym, initGraph_good.lt⟩

theorem maxWeightMatching_perm (fuel n : ℕ) (w : ℕ → ℕ → ℚ) (hf : 2 * n + 1 ≤ fuel) :
    ∃ s : List ℕ, maxWeightMatching fl fuel n w = some (.ok (s.map some)) ∧ s.Perm (List.range n) := by
  obtain ⟨g', h1, h2, h3, h5⟩ := matchLoop_spec (fl := fl) (pf := fuel) (af := fuel) n fuel 0
    (initGraph n w) initGraph_sound (by simp [initGraph]) hf (by simpa [initGraph] using hf)
    (by simp [initGraph]; omega) (by intro x hx; omega)
  have hn : g'.n = n := h3
  obtain ⟨s, a, b, -⟩ := optimal_of_good h2.good (fun x hx => h5 x (by
    have hx : x < g'.n := hx
    rw [hn] at hx; exact hx))
  have a : (List.range g'.n).map g'.m0 = s.map some := a
  have b : s.Perm (List.range g'.n) := b
  rw [hn] at a b
  refine ⟨s, ?_, b⟩
  unfold maxWeightMatching
  rw [h1]
  simp only []
  rw [a]

theorem minWeightPermSquare_perm (fuel : ℕ) (w : Mat) (hsq : w.n1 = w.n2) (hpos : 0 < w.n1)
    (hf : 2 * w.n1 + 1 ≤ fuel) :
    ∃ s : List ℕ, minWeightPermSquare fl fuel w = some (.ok (s.map some)) ∧
      s.Perm (List.range w.n1) := by
  obtain ⟨m, hm, _, _⟩ := npMax_spec (entries_ne_nil hpos (hsq ▸ hpos))
  obtain ⟨s, h1, h2⟩ := maxWeightMatching_perm (fl := fl) fuel w.n1 (fun u v => fl (m - w.e u v)) hf
  refine ⟨s, ?_, h2⟩
  unfold minWeightPermSquare
  rw [hm]
  exact h1

/-- **C195.** Whatever the rounding of sums and differences (`fl` is any function), `min_weight_perm` ends on a non-empty
square matrix, within `2 n + 1` iterations of each loop, and returns a permutation. -/
theorem C195_permutation (fl : ℚ → ℚ) (fuel : ℕ) (w : Mat) (hsq : w.n1 = w.n2) (hpos : 0 < w.n1)
    (hf : 2 * w.n1 + 1 ≤ fuel) :
    ∃ s : List ℕ, minWeightPerm fl fuel w = some (.ok (s.map some)) ∧ s.Perm (List.range w.n1) := by
  obtain ⟨s, h1, h2⟩ := minWeightPermSquare_perm (fl := fl) fuel w hsq hpos hf
  refine ⟨s, ?_, h2⟩
  unfold minWeightPerm minWeightPermWide
  rw [if_neg (by omega), if_neg (by omega), h1]
  simp only [Option.map_some, Except.map, Option.some.injEq, Except.ok.injEq]
  apply List.take_of_length_le
  rw [List.length_map, h2.length_eq, List.length_range]

/-- **C195.** With fewer rows than columns each row receives a column of its own, whatever the rounding. -/
theorem C195_fewer_rows (fl : ℚ → ℚ) (fuel : ℕ) (w : Mat) (hlt : w.n1 < w.n2) (hpos : 0 < w.n1)
    (hf : 2 * w.n2 + 1 ≤ fuel) :
    ∃ s : List ℕ, minWeightPerm fl fuel w = some (.ok (s.map some)) ∧ s.length = w.n1 ∧ s.Nodup ∧
      ∀ j ∈ s, j < w.n2 := by
  obtain ⟨m, hm, _, _⟩ := npMax_spec (entries_ne_nil hpos (by omega : 0 < w.n2))
  obtain ⟨s2, h1, h2⟩ := minWeightPermSquare_perm (fl := fl) fuel
    ⟨w.n2, w.n2, fun i j => if i < w.n1 then w.e i j else fl (m + 1)⟩ rfl (by show 0 < w.n2; omega) hf
  have hlen2 : s2.length = w.n2 := by rw [h2.length_eq, List.length_range]
  refine ⟨s2.take w.n1, ?_, by rw [List.length_take]; omega, ?_, ?_⟩
  · unfold minWeightPerm minWeightPermWide
    rw [if_neg (by omega), if_pos hlt, hm]
    simp only []
    rw [h1]
    simp only [Option.map_some, Except.map, List.map_take]
  · exact ((h2.nodup_iff).2 List.nodup_range).sublist (List.take_sublist _ _)
  · intro j hj
    exact List.mem_range.1 (h2.mem_iff.1 (List.mem_of_mem_take hj))

/-- **C195.** With more rows than columns each column is given to exactly one row, and `None` to the other rows, whatever
the rounding. -/
theorem C195_more_rows (fl : ℚ → ℚ) (fuel : ℕ) (w : Mat) (hlt : w.n2 < w.n1) (hpos : 0 < w.n2)
    (hf : 2 * w.n1 + 1 ≤ fuel) :
    ∃ r : List (Option ℕ), minWeightPerm fl fuel w = some (.ok r) ∧ r.length = w.n1 ∧
      (∀ j, some j ∈ r → j < w.n2) ∧ ∀ j, j < w.n2 → ∃! i : ℕ, r[i]? = some (some j) := by
  obtain ⟨s, h1, h2, h3, h4⟩ := C195_fewer_rows fl fuel w.T hlt hpos hf
  obtain ⟨r, k1, k2, k3⟩ := C33_reverse_injective s w.n1 h4 h3
  have h1' : minWeightPermWide fl fuel w.T = some (.ok (s.map some)) := by
    unfold minWeightPerm at h1
    rwa [if_neg (by show ¬ w.n1 < w.n2; omega)] at h1
  refine ⟨r, ?_, k2, ?_, ?_⟩
  · unfold minWeightPerm
    rw [if_pos hlt, h1']
    simp only [Option.map_some, Except.bind, asIndices_map_some]
    rw [k1]
  · intro j hj
    obtain ⟨i, hi, hij⟩ := List.getElem_of_mem hj
    have := (k3 j i).1 (by rw [List.getElem?_eq_getElem hi, hij])
    have := (List.getElem?_eq_some_iff.1 this).1
    rw [h2] at this; exact this
  · intro j hj
    have hj' : j < s.length := by rw [h2]; exact hj
    refine ⟨s[j], (k3 j s[j]).2 (List.getElem?_eq_getElem hj'), ?_⟩
    intro i hi
    have := (k3 j i).1 hi
    rw [List.getElem?_eq_getElem hj'] at this
    exact (Option.some.inj this).symm

end Verif.Munkres.Fl
