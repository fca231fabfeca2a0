import Verif.Munkres.PropsRounded
import Mathlib.Algebra.Group.Subgroup.Defs
import Mathlib.Algebra.Order.Ring.Abs
import Mathlib.Tactic.Positivity

/-!
# Errors of the Hungarian method with rounded operations (`multimodal/lib/munkres.py`)

Slacks of `Model.lean` are computed exactly on the labels obtained with rounding: they bound how far the result is from
the optimum.
-/

namespace Verif.Munkres.Fl

/-- Operations with results of `R` below `B` have an error at most `δ` and give elements of `R`. -/
structure Err (fl : ℚ → ℚ) (R : AddSubgroup ℚ) (δ B : ℚ) : Prop where
  nonneg : 0 ≤ δ
  mem : ∀ x ∈ R, |x| ≤ B → fl x ∈ R
  near : ∀ x ∈ R, |x| ≤ B → |fl x - x| ≤ δ

/-- Between two searches: feasible labels up to `E`, edges of the matching tight up to `D`, labels below `L`. -/
structure Near (R : AddSubgroup ℚ) (W E D L : ℚ) (g : Graph) : Prop where
  feas : ∀ u v, u < g.n → v < g.n → -E ≤ Munkres.slack g u v
  tight : ∀ u v, g.m0 u = some v → |Munkres.slack g u v| ≤ D
  free1 : ∀ v, g.m1 v = none → g.l1 v = 0
  free0 : ∀ u, u < g.n → g.m0 u = none → |g.l0 u| ≤ W
  mem0 : ∀ u, u < g.n → g.l0 u ∈ R
  mem1 : ∀ v, v < g.n → g.l1 v ∈ R
  memw : ∀ u v, u < g.n → v < g.n → g.w u v ∈ R
  b0 : ∀ u, u < g.n → |g.l0 u| ≤ L
  b1 : ∀ v, v < g.n → |g.l1 v| ≤ L
  bw : ∀ u v, u < g.n → v < g.n → |g.w u v| ≤ W

/-- During a search, after `k` updates of labels. -/
structure Phase (R : AddSubgroup ℚ) (W δ E D L A : ℚ) (g : Graph) (t : Tree) (root k : ℕ) : Prop where
  low : ∀ u v, u < g.n → v < g.n → t.T v = false → -E ≤ Munkres.slack g u v
  feas : ∀ u v, u < g.n → v < g.n → -E - k * (E + 3 * δ) ≤ Munkres.slack g u v
  tight : ∀ u v, g.m0 u = some v → |Munkres.slack g u v| ≤ D + 2 * k * δ
  father : ∀ u v, t.father v = some u → |Munkres.slack g u v| ≤ D + 2 * k * δ
  free1 : ∀ v, g.m1 v = none → g.l1 v = 0
  free0 : ∀ u, u < g.n → g.m0 u = none → u ≠ root → |g.l0 u| ≤ W
  root0 : -W - 3 * δ ≤ g.l0 root
  root1 : g.l0 root ≤ W + k * (E + 3 * δ)
  mem0 : ∀ u, u < g.n → g.l0 u ∈ R
  mem1 : ∀ v, v < g.n → g.l1 v ∈ R
  memw : ∀ u v, u < g.n → v < g.n → g.w u v ∈ R
  b0 : ∀ u, u < g.n → t.S u = false → |g.l0 u| ≤ L
  b1 : ∀ v, v < g.n → t.T v = false → |g.l1 v| ≤ L
  rel0 : ∀ u, u < g.n → ∃ b c, |b| ≤ L ∧ |c| ≤ A ∧ |g.l0 u - g.l0 root - (b - c)| ≤ 2 * k * δ
  rel1 : ∀ v, v < g.n → ∃ b c, |b| ≤ L ∧ |c| ≤ A ∧ |g.l1 v + g.l0 root - (b + c)| ≤ 2 * k * δ
  bw : ∀ u v, u < g.n → v < g.n → |g.w u v| ≤ W

theorem npMin_ok {l : List ℚ} {a : ℚ} (h : npMin l = .ok a) : a ∈ l ∧ ∀ x ∈ l, a ≤ x := by
  have hne : l ≠ [] := by rintro rfl; simp [npMin] at h
  obtain ⟨b, h1, h2, h3⟩ := npMin_spec hne
  rw [h] at h1
  obtain rfl : a = b := by simpa using h1
  exact ⟨h2, h3⟩

theorem foldl_adopt_father (u : ℕ) (vs : List ℕ) : ∀ (t : Tree) (x y : ℕ),
    (vs.foldl (fun t v => adopt t u v) t).father x = some y →
    t.father x = some y ∨ (y = u ∧ x ∈ vs) := by
  induction vs with
  | nil => intro t x y h; exact Or.inl h
  | cons v vs ih =>
    intro t x y h
    rw [List.foldl_cons] at h
    rcases ih _ x y h with h | ⟨h1, h2⟩
    · unfold adopt at h
      split at h
      · by_cases hx : x = v
        · subst hx
          rw [show ({ t with father := upd t.father x (some u), stack := t.stack ++ [x] } : Tree).father x
            = some u from upd_same _ _ _] at h
          exact Or.inr ⟨(Option.some.inj h).symm, List.mem_cons_self⟩
        · rw [show ({ t with father := upd t.father v (some u), stack := t.stack ++ [v] } : Tree).father x
            = t.father x from upd_ne _ _ hx] at h
          exact Or.inl h
      · exact Or.inl h
    · exact Or.inr ⟨h1, List.mem_cons_of_mem _ h2⟩

theorem foldl_adopt_S (u : ℕ) (vs : List ℕ) : ∀ t : Tree,
    (vs.foldl (fun t v => adopt t u v) t).S = t.S ∧ (vs.foldl (fun t v => adopt t u v) t).T = t.T := by
  induction vs with
  | nil => intro t; exact ⟨rfl, rfl⟩
  | cons v vs ih =>
    intro t
    rw [List.foldl_cons, (ih _).1, (ih _).2, adopt_S, adopt_T]
    exact ⟨rfl, rfl⟩

theorem foldl_pairs_T (ps : List (ℕ × ℕ)) : ∀ t : Tree,
    (ps.foldl (fun t p => if t.S p.1 then adopt t p.1 p.2 else t) t).T = t.T := by
  induction ps with
  | nil => intro t; rfl
  | cons p ps ih =>
    intro t
    rw [List.foldl_cons, ih]
    split
    · rw [adopt_T]
    · rfl

theorem foldl_pairs_new (ps : List (ℕ × ℕ)) : ∀ (t : Tree) (x y : ℕ),
    (ps.foldl (fun t p => if t.S p.1 then adopt t p.1 p.2 else t) t).father x = some y →
    t.father x = some y ∨ ((y, x) ∈ ps ∧ t.S y = true ∧ t.father x = none) := by
  induction ps with
  | nil => intro t x y h; exact Or.inl h
  | cons p ps ih =>
    intro t x y h
    rw [List.foldl_cons] at h
    by_cases hS : t.S p.1 = true
    · rw [if_pos hS] at h
      rcases ih _ x y h with h | ⟨h1, h2, h3⟩
      · unfold adopt at h
        split at h
        · rename_i hf
          by_cases hx : x = p.2
          · subst hx
            rw [show ({ t with father := upd t.father p.2 (some p.1), stack := t.stack ++ [p.2] } : Tree).father p.2
              = some p.1 from upd_same _ _ _] at h
            obtain rfl := Option.some.inj h
            exact Or.inr ⟨List.mem_cons_self, hS, hf⟩
          · rw [show ({ t with father := upd t.father p.2 (some p.1), stack := t.stack ++ [p.2] } : Tree).father x
              = t.father x from upd_ne _ _ hx] at h
            exact Or.inl h
        · exact Or.inl h
      · rw [adopt_S] at h2
        refine Or.inr ⟨List.mem_cons_of_mem _ h1, h2, ?_⟩
        by_contra hc
        exact adopt_father_mono _ _ _ _ hc h3
    · rw [if_neg hS] at h
      rcases ih _ x y h with h | ⟨h1, h2, h3⟩
      · exact Or.inl h
      · exact Or.inr ⟨List.mem_cons_of_mem _ h1, h2, h3⟩

section
variable {fl : ℚ → ℚ} {R : AddSubgroup ℚ} {W δ B E D L A N : ℚ} {g : Graph} {t : Tree} {root k : ℕ}

/-- Labels stay below a bound. -/
theorem Phase.label0 (h : Phase R W δ E D L A g t root k) (hA : |g.l0 root| ≤ A) {u : ℕ} (hu : u < g.n) :
    |g.l0 u| ≤ L + 2 * A + 2 * k * δ := by
  obtain ⟨b, c, hb, hc, hd⟩ := h.rel0 u hu
  rw [abs_le] at *
  constructor <;> linarith

theorem Phase.label1 (h : Phase R W δ E D L A g t root k) (hA : |g.l0 root| ≤ A) {v : ℕ} (hv : v < g.n) :
    |g.l1 v| ≤ L + 2 * A + 2 * k * δ := by
  obtain ⟨b, c, hb, hc, hd⟩ := h.rel1 v hv
  rw [abs_le] at *
  constructor <;> linarith

/-- Computed slacks are near the exact ones, which stay in `R` and below a bound. -/
theorem slack_near (he : Err fl R δ B) {u v : ℕ} {Lb : ℚ} (h0 : |g.l0 u| ≤ Lb) (h1 : |g.l1 v| ≤ Lb)
    (hw : |g.w u v| ≤ W) (m0 : g.l0 u ∈ R) (m1 : g.l1 v ∈ R) (mw : g.w u v ∈ R)
    (hB : 3 * Lb + W + 2 * δ ≤ B) :
    |slack fl g u v - Munkres.slack g u v| ≤ 2 * δ ∧ slack fl g u v ∈ R ∧
      |slack fl g u v| ≤ 2 * Lb + W + 2 * δ := by
  have hδ := he.nonneg
  have hLb : 0 ≤ Lb := le_trans (abs_nonneg _) h0
  have hs : |g.l0 u + g.l1 v| ≤ 2 * Lb := (abs_add_le _ _).trans (by linarith)
  have hW : 0 ≤ W := le_trans (abs_nonneg _) hw
  have hm : g.l0 u + g.l1 v ∈ R := R.add_mem m0 m1
  have e1 := he.near _ hm (by linarith)
  have m2 := he.mem _ hm (by linarith)
  have hm3 : fl (g.l0 u + g.l1 v) - g.w u v ∈ R := R.sub_mem m2 mw
  have hb3 : |fl (g.l0 u + g.l1 v) - g.w u v| ≤ 2 * Lb + W + δ := by
    rw [abs_le] at *
    constructor <;> linarith
  have e2 := he.near _ hm3 (by linarith)
  have m4 := he.mem _ hm3 (by linarith)
  refine ⟨?_, m4, ?_⟩
  · unfold slack Munkres.slack
    rw [abs_le] at *
    constructor <;> linarith
  · unfold slack
    rw [abs_le] at *
    constructor <;> linarith

/-- Exploring a row keeps the bounds: the columns that enter the stack have a computed slack equal to zero. -/
theorem explore_near (he : Err fl R δ B) (hD : 3 * δ ≤ D) {u : ℕ} (hu : u < g.n)
    (h : Phase R W δ E D L A g t root k) (hA : |g.l0 root| ≤ A)
    (hB : 3 * (L + 2 * A + 2 * k * δ) + W + 2 * δ ≤ B) :
    Phase R W δ E D L A g (explore fl g t u) root k := by
  have hδ := he.nonneg
  unfold explore
  split
  · exact h
  have hS := foldl_adopt_S u (neighbours fl g u) { t with S := upd t.S u true }
  refine { h with low := ?_, father := ?_, b0 := ?_, b1 := ?_ }
  · rw [hS.2]; exact h.low
  · intro y x hxy
    rcases foldl_adopt_father _ _ _ _ _ hxy with hxy | ⟨rfl, hx⟩
    · exact h.father y x hxy
    · unfold neighbours at hx
      simp only [List.mem_filter, List.mem_range, decide_eq_true_eq] at hx
      have := (slack_near he (h.label0 hA hu) (h.label1 hA hx.1) (h.bw _ _ hu hx.1) (h.mem0 _ hu)
        (h.mem1 _ hx.1) (h.memw _ _ hu hx.1) hB).1
      rw [hx.2] at this
      have hk : 0 ≤ 2 * (k : ℚ) * δ := by positivity
      rw [abs_le] at *
      constructor <;> linarith
  · intro x hx hSx
    rw [hS.1] at hSx
    refine h.b0 x hx ?_
    have hSx : upd t.S u true x = false := hSx
    by_cases hxu : x = u
    · subst hxu; rw [upd_same] at hSx; cases hSx
    · rwa [upd_ne _ _ hxu] at hSx
  · rw [hS.2]; exact h.b1

theorem Phase.rootA (hδ : 0 ≤ δ) (hE : 3 * δ ≤ E) (hW : 0 ≤ W) (h : Phase R W δ E D L A g t root k) (hk : k ≤ g.n)
    (hA : W + 3 * δ + g.n * (E + 3 * δ) ≤ A) : |g.l0 root| ≤ A := by
  have h0 := h.root0
  have h1 := h.root1
  have hkn : (k : ℚ) * (E + 3 * δ) ≤ g.n * (E + 3 * δ) :=
    mul_le_mul_of_nonneg_right (by exact_mod_cast hk) (by linarith)
  have hk0 : 0 ≤ (k : ℚ) * (E + 3 * δ) := mul_nonneg (by positivity) (by linarith)
  rw [abs_le]
  constructor <;> linarith

/-- One label update. -/
theorem relabel_near {dn : List ℕ} (he : Err fl R δ B) (hE : 3 * δ ≤ E) (hD : 3 * δ ≤ D) (hg : Sound g)
    (hroot : g.m0 root = none) (hlt : root < g.n) (h : TInv (flat g) t root dn) (hst : t.stack = [])
    (hp : Phase R W δ E D L A g t root k) (hk : k + 1 ≤ g.n)
    (hA : W + 3 * δ + g.n * (E + 3 * δ) ≤ A)
    (hB : 3 * (L + 2 * A + 2 * g.n * δ) + W + 2 * δ ≤ B) {g' : Graph} {t' : Tree}
    (heq : relabel fl g t = .ok (g', t')) : Phase R W δ E D L A g' t' root (k + 1) := by
  have hδ := he.nonneg
  have hdn : dn ++ t.stack = dn := by rw [hst, List.append_nil]
  have hW : 0 ≤ W := le_trans (abs_nonneg _) (hp.bw root root hlt hlt)
  have hAr := hp.rootA hδ hE hW (by omega) hA
  have hA0 : 0 ≤ A := le_trans (abs_nonneg _) hAr
  have hkd : 0 ≤ (k : ℚ) * δ := by positivity
  have hkn : 2 * (k : ℚ) * δ + 2 * δ ≤ 2 * g.n * δ := by
    have : ((k + 1 : ℕ) : ℚ) * δ ≤ g.n * δ := mul_le_mul_of_nonneg_right (by exact_mod_cast hk) hδ
    push_cast at this
    linarith
  -- the labels, the slacks
  have L0 : ∀ u, u < g.n → |g.l0 u| ≤ L + 2 * A + 2 * k * δ := fun u hu => hp.label0 hAr hu
  have L1 : ∀ v, v < g.n → |g.l1 v| ≤ L + 2 * A + 2 * k * δ := fun v hv => hp.label1 hAr hv
  have hLb : 3 * (L + 2 * A + 2 * k * δ) + W + 2 * δ ≤ B := by linarith
  have hsl : ∀ u v, u < g.n → v < g.n → |slack fl g u v - Munkres.slack g u v| ≤ 2 * δ ∧ slack fl g u v ∈ R ∧
      |slack fl g u v| ≤ 2 * (L + 2 * A + 2 * k * δ) + W + 2 * δ := fun u v hu hv =>
    slack_near he (L0 u hu) (L1 v hv) (hp.bw u v hu hv) (hp.mem0 u hu) (hp.mem1 v hv) (hp.memw u v hu hv) hLb
  -- the update
  unfold relabel at heq
  simp only [bind, Except.bind] at heq
  rcases hmin : npMin (((List.range g.n).filter fun u => t.S u).flatMap fun u =>
    ((List.range g.n).filter fun v => !t.T v).map fun v => slack fl g u v) with e | alpha
  · rw [hmin] at heq; cases heq
  rw [hmin] at heq
  simp only [pure, Except.pure, Except.ok.injEq, Prod.mk.injEq] at heq
  obtain ⟨rfl, rfl⟩ := heq
  obtain ⟨hmem, hle⟩ := npMin_ok hmin
  rw [List.mem_flatMap] at hmem
  obtain ⟨u1, hu1, hmem⟩ := hmem
  rw [List.mem_map] at hmem
  obtain ⟨v1, hv1, hs1⟩ := hmem
  simp only [List.mem_filter, List.mem_range, Bool.not_eq_true'] at hu1 hv1
  have hle' : ∀ u v, u < g.n → v < g.n → t.S u = true → t.T v = false → alpha ≤ slack fl g u v := by
    intro u v hu hv hS hT
    apply hle
    rw [List.mem_flatMap]
    refine ⟨u, by simp only [List.mem_filter, List.mem_range]; exact ⟨hu, hS⟩, ?_⟩
    rw [List.mem_map]
    exact ⟨v, by simp only [List.mem_filter, List.mem_range, hT]; exact ⟨hv, rfl⟩, rfl⟩
  obtain ⟨a1, a2, a3⟩ := hsl u1 v1 hu1.1 hv1.1
  rw [hs1] at a1 a2 a3
  have hal0 : -E - 2 * δ ≤ alpha := by
    have := hp.low u1 v1 hu1.1 hv1.1 hv1.2
    have := (abs_le.1 a1).1
    linarith
  -- some column is free
  obtain ⟨v0, hv0, hf0⟩ : ∃ v, v < g.n ∧ g.m1 v = none := by
    by_contra hc
    push Not at hc
    have := length_lt_of_matched hg.good hroot hlt (dn := List.range g.n) List.nodup_range
      (fun v hv => hc v (List.mem_range.1 hv))
    simp [flat] at this
  have hT0 : t.T v0 = false := by
    by_contra hc
    have := h.matched v0 ((h.T v0).1 (by simpa using hc))
    exact this hf0
  have hSr : t.S root = true := (h.S root).2 (Or.inl rfl)
  have hal1 : alpha ≤ g.l0 root + W + 2 * δ := by
    have h1 := hle' root v0 hlt hv0 hSr hT0
    have h2 := (abs_le.1 (hsl root v0 hlt hv0).1).2
    have h3 := (abs_le.1 (hp.bw root v0 hlt hv0)).1
    unfold Munkres.slack at h2
    rw [hp.free1 v0 hf0] at h2
    linarith
  -- new labels
  have n0 : ∀ u, u < g.n → fl (g.l0 u - alpha) ∈ R ∧ |fl (g.l0 u - alpha) - (g.l0 u - alpha)| ≤ δ := by
    intro u hu
    have hm : g.l0 u - alpha ∈ R := R.sub_mem (hp.mem0 u hu) a2
    have hb : |g.l0 u - alpha| ≤ B := (abs_sub _ _).trans (by have := L0 u hu; linarith)
    exact ⟨he.mem _ hm hb, he.near _ hm hb⟩
  have n1 : ∀ v, v < g.n → fl (g.l1 v + alpha) ∈ R ∧ |fl (g.l1 v + alpha) - (g.l1 v + alpha)| ≤ δ := by
    intro v hv
    have hm : g.l1 v + alpha ∈ R := R.add_mem (hp.mem1 v hv) a2
    have hb : |g.l1 v + alpha| ≤ B := (abs_add_le _ _).trans (by have := L1 v hv; linarith)
    exact ⟨he.mem _ hm hb, he.near _ hm hb⟩
  set g' : Graph := { g with
    l0 := fun i => if t.S i then fl (g.l0 i - alpha) else g.l0 i
    l1 := fun i => if t.T i then fl (g.l1 i + alpha) else g.l1 i } with hg'
  have r0 : ∀ u, t.S u = true → g'.l0 u = fl (g.l0 u - alpha) := fun u hu => if_pos hu
  have r0' : ∀ u, t.S u = false → g'.l0 u = g.l0 u := fun u hu => if_neg (by simp [hu])
  have r1 : ∀ v, t.T v = true → g'.l1 v = fl (g.l1 v + alpha) := fun v hv => if_pos hv
  have r1' : ∀ v, t.T v = false → g'.l1 v = g.l1 v := fun v hv => if_neg (by simp [hv])
  have hs' : ∀ u v, Munkres.slack g' u v = g'.l0 u + g'.l1 v - g.w u v := fun u v => rfl
  have hs0 : ∀ u v, Munkres.slack g u v = g.l0 u + g.l1 v - g.w u v := fun u v => rfl
  have sST : ∀ u v, u < g.n → v < g.n → t.S u = true → t.T v = true →
      |Munkres.slack g' u v - Munkres.slack g u v| ≤ 2 * δ := by
    intro u v hu hv hS hT
    rw [hs', hs0, r0 u hS, r1 v hT]
    have h1 := (n0 u hu).2
    have h2 := (n1 v hv).2
    rw [abs_le] at *
    constructor <;> linarith
  have sS : ∀ u v, u < g.n → v < g.n → t.S u = true → t.T v = false →
      |Munkres.slack g' u v - (Munkres.slack g u v - alpha)| ≤ δ := by
    intro u v hu hv hS hT
    rw [hs', hs0, r0 u hS, r1' v hT]
    have h1 := (n0 u hu).2
    rw [abs_le] at *
    constructor <;> linarith
  have sT : ∀ u v, u < g.n → v < g.n → t.S u = false → t.T v = true →
      |Munkres.slack g' u v - (Munkres.slack g u v + alpha)| ≤ δ := by
    intro u v hu hv hS hT
    rw [hs', hs0, r0' u hS, r1 v hT]
    have h2 := (n1 v hv).2
    rw [abs_le] at *
    constructor <;> linarith
  have sN : ∀ u v, t.S u = false → t.T v = false → Munkres.slack g' u v = Munkres.slack g u v := by
    intro u v hS hT
    rw [hs', hs0, r0' u hS, r1' v hT]
  have hlow : ∀ u v, u < g.n → v < g.n → t.T v = false → -E ≤ Munkres.slack g' u v := by
    intro u v hu hv hT
    by_cases hS : t.S u = true
    · have h1 := (abs_le.1 (sS u v hu hv hS hT)).1
      have h2 := hle' u v hu hv hS hT
      have h3 := (abs_le.1 (hsl u v hu hv).1).2
      linarith
    · rw [sN u v (by simpa using hS) hT]
      exact hp.low u v hu hv hT
  have hEk : 0 ≤ ((k + 1 : ℕ) : ℚ) * (E + 3 * δ) := mul_nonneg (by positivity) (by linarith)
  have hST : ∀ u v, g.m0 u = some v → (t.S u = true ↔ t.T v = true) := by
    intro u v hm
    rw [h.S, h.T]
    constructor
    · rintro (rfl | ⟨v', hv', hm'⟩)
      · rw [hroot] at hm; cases hm
      · rw [(hg.sym u v').2 hm'] at hm
        exact (Option.some.inj hm) ▸ hv'
    · intro hv
      exact Or.inr ⟨v, hv, (hg.sym u v).1 hm⟩
  have hps := foldl_pairs_S ((List.range g.n).flatMap fun u =>
    ((List.range g.n).filter fun v => slack fl g u v = alpha).map fun v => (u, v)) t
  have hpt := foldl_pairs_T ((List.range g.n).flatMap fun u =>
    ((List.range g.n).filter fun v => slack fl g u v = alpha).map fun v => (u, v)) t
  have hrr := r0 root hSr
  have hrn := (n0 root hlt).2
  constructor
  · rw [hpt]; exact hlow
  · intro u v hu hv
    by_cases hT : t.T v = true
    · have h0 := hp.feas u v hu hv
      push_cast
      by_cases hS : t.S u = true
      · have := (abs_le.1 (sST u v hu hv hS hT)).1
        linarith
      · have := (abs_le.1 (sT u v hu hv (by simpa using hS) hT)).1
        linarith
    · have := hlow u v hu hv (by simpa using hT)
      linarith
  · intro u v hm
    have hm : g.m0 u = some v := hm
    obtain ⟨hu, hv⟩ := hg.lt u v hm
    have h0 := hp.tight u v hm
    push_cast
    by_cases hS : t.S u = true
    · have := sST u v hu hv hS ((hST u v hm).1 hS)
      rw [abs_le] at *
      constructor <;> linarith
    · rw [sN u v (by simpa using hS) (by simpa using fun hT => hS ((hST u v hm).2 hT))]
      refine h0.trans ?_
      linarith
  · intro u v hf
    push_cast
    rcases foldl_pairs_new _ _ _ _ hf with hf | ⟨hin, hS, hfn⟩
    · have hv := (h.memF v).1 (by rw [hf]; simp)
      obtain ⟨i, hi, hiv⟩ := List.getElem_of_mem hv
      obtain ⟨hS, -, hc⟩ := h.father i v u (by rw [List.getElem?_eq_getElem hi, hiv]) hf
      have hu : u < g.n := by
        rcases hc with rfl | ⟨_, x', _, _, hx'⟩
        · exact hlt
        · exact (hg.lt u x' hx').1
      have hT := (h.T v).2 (hdn ▸ hv)
      have := sST u v hu (h.lt v hv) hS hT
      have h0 := hp.father u v hf
      rw [abs_le] at *
      constructor <;> linarith
    · rw [List.mem_flatMap] at hin
      obtain ⟨u', hu, hin⟩ := hin
      rw [List.mem_map] at hin
      obtain ⟨v', hv, heq⟩ := hin
      obtain ⟨rfl, rfl⟩ := Prod.mk.inj heq
      simp only [List.mem_filter, List.mem_range, decide_eq_true_eq] at hu hv
      have hT : t.T v' = false := by
        by_contra hc
        have := (h.T v').1 (by simpa using hc)
        exact (h.memF v').2 (List.mem_append_left _ this) hfn
      have h1 := sS u' v' hu hv.1 hS hT
      have h2 := (hsl u' v' hu hv.1).1
      rw [hv.2] at h2
      rw [abs_le] at *
      constructor <;> linarith
  · intro v hm
    have hm : g.m1 v = none := hm
    rw [r1' v, hp.free1 v hm]
    by_contra hc
    exact h.matched v ((h.T v).1 (by simpa using hc)) hm
  · intro u hu hm hne
    rw [r0' u]
    · exact hp.free0 u hu hm hne
    · by_contra hc
      rcases (h.S u).1 (by simpa using hc) with h1 | ⟨v', hv', hm'⟩
      · exact hne h1
      · have hm : g.m0 u = none := hm
        rw [(hg.sym u v').2 hm'] at hm; cases hm
  · rw [hrr]
    have := (abs_le.1 hrn).1
    linarith
  · rw [hrr]
    have h1 := (abs_le.1 hrn).2
    have h2 := hp.root1
    push_cast
    linarith
  · intro u hu
    by_cases hS : t.S u = true
    · rw [r0 u hS]; exact (n0 u hu).1
    · rw [r0' u (by simpa using hS)]; exact hp.mem0 u hu
  · intro v hv
    by_cases hT : t.T v = true
    · rw [r1 v hT]; exact (n1 v hv).1
    · rw [r1' v (by simpa using hT)]; exact hp.mem1 v hv
  · exact hp.memw
  · intro u hu hS
    rw [hps] at hS
    rw [r0' u hS]; exact hp.b0 u hu hS
  · intro v hv hT
    rw [hpt] at hT
    rw [r1' v hT]; exact hp.b1 v hv hT
  · intro u hu
    push_cast
    by_cases hS : t.S u = true
    · obtain ⟨b, c, hb, hc, hd⟩ := hp.rel0 u hu
      refine ⟨b, c, hb, hc, ?_⟩
      rw [r0 u hS, hrr]
      have h1 := (n0 u hu).2
      rw [abs_le] at *
      constructor <;> linarith
    · have hS : t.S u = false := by simpa using hS
      refine ⟨g.l0 u, g'.l0 root, hp.b0 u hu hS, ?_, ?_⟩
      · rw [hrr]
        have h2 := hp.root1
        have hkk : ((k + 1 : ℕ) : ℚ) * (E + 3 * δ) ≤ g.n * (E + 3 * δ) :=
          mul_le_mul_of_nonneg_right (by exact_mod_cast hk) (by linarith)
        push_cast at hkk hEk
        rw [abs_le] at *
        constructor <;> linarith
      · rw [r0' u hS, sub_self, abs_zero]
        linarith
  · intro v hv
    push_cast
    by_cases hT : t.T v = true
    · obtain ⟨b, c, hb, hc, hd⟩ := hp.rel1 v hv
      refine ⟨b, c, hb, hc, ?_⟩
      rw [r1 v hT, hrr]
      have h1 := (n1 v hv).2
      rw [abs_le] at *
      constructor <;> linarith
    · have hT : t.T v = false := by simpa using hT
      refine ⟨g.l1 v, g'.l0 root, hp.b1 v hv hT, ?_, ?_⟩
      · rw [hrr]
        have h2 := hp.root1
        have hkk : ((k + 1 : ℕ) : ℚ) * (E + 3 * δ) ≤ g.n * (E + 3 * δ) :=
          mul_le_mul_of_nonneg_right (by exact_mod_cast hk) (by linarith)
        push_cast at hkk hEk
        rw [abs_le] at *
        constructor <;> linarith
      · rw [r1' v hT, sub_self, abs_zero]
        linarith
  · exact hp.bw

theorem findPath_near (he : Err fl R δ B) (hE : 3 * δ ≤ E) (hD : 3 * δ ≤ D) {n : ℕ}
    (hA : W + 3 * δ + n * (E + 3 * δ) ≤ A) (hB : 3 * (L + 2 * A + 2 * n * δ) + W + 2 * δ ≤ B) :
    ∀ (fuel : ℕ) (g : Graph) (t : Tree) (dn : List ℕ) (k : ℕ), g.n = n → Sound g →
    g.m0 root = none → root < g.n → TInv (flat g) t root dn → Phase R W δ E D L A g t root k →
    k ≤ dn.length + (if t.stack = [] then 0 else 1) →
    ∀ g' t' v, findPath fl fuel g t = some (.ok (g', t', v)) →
    g'.n = n ∧ ∃ k', k' ≤ n ∧ Phase R W δ E D L A g' t' root k' := by
  have hδ := he.nonneg
  intro fuel
  induction fuel with
  | zero => intro g t dn k _ _ _ _ _ _ _ g' t' v h; cases h
  | succ fuel ih =>
    intro g t dn k hn hg hroot hlt h hp hk g' t' v heq
    have hW : 0 ≤ W := le_trans (abs_nonneg _) (hp.bw root root hlt hlt)
    have hlen := (List.subperm_of_subset h.nodup
      (fun x hx => List.mem_range.2 (h.lt x hx))).length_le
    simp only [List.length_append, List.length_range] at hlen
    have hlen : dn.length + t.stack.length ≤ g.n := hlen
    unfold findPath at heq
    cases hst : t.stack with
    | nil =>
      rw [hst] at heq
      simp only [] at heq
      have hnd : dn.Nodup := by have := h.nodup; rwa [hst, List.append_nil] at this
      have hlt2 : dn.length < (flat g).n := length_lt_of_matched hg.good hroot hlt hnd h.matched
      have hlt2 : dn.length < g.n := hlt2
      obtain ⟨g1, t1, hr, hfl, hinv, hne⟩ := relabel_inv (fl := fl) hg hroot hlt h hst
      rw [hr] at heq
      simp only [] at heq
      rw [if_pos hst] at hk
      have hp1 := relabel_near he hE hD hg hroot hlt h hst hp (by omega) (hn ▸ hA) (hn ▸ hB) hr
      have hn1 : g1.n = g.n := (by rw [hfl] : (flat g1).n = (flat g).n)
      have hm0 : g1.m0 = g.m0 := (by rw [hfl] : (flat g1).m0 = (flat g).m0)
      have hm1 : g1.m1 = g.m1 := (by rw [hfl] : (flat g1).m1 = (flat g).m1)
      have hg1 : Sound g1 := ⟨by rw [hm0, hm1]; exact hg.sym, by rw [hm0, hn1]; exact hg.lt⟩
      exact ih g1 t1 dn (k + 1) (hn1.trans hn) hg1 (hm0 ▸ hroot) (hn1 ▸ hlt) (hfl ▸ hinv) hp1
        (by rw [if_neg hne]; omega) g' t' v heq
    | cons x rest =>
      rw [hst] at heq hlen
      simp only [] at heq
      rw [if_neg (by rw [hst]; simp)] at hk
      simp only [List.length_cons] at hlen
      -- the column enters the tree
      have hp' : Phase R W δ E D L A g { t with stack := rest, T := upd t.T x true } root k := by
        have hup : ∀ y, upd t.T x true y = false → t.T y = false := by
          intro y hy
          by_cases hyx : y = x
          · subst hyx; rw [upd_same] at hy; cases hy
          · rwa [upd_ne _ _ hyx] at hy
        exact { hp with low := fun u v hu hv hT => hp.low u v hu hv (hup v hT),
                        b1 := fun v hv hT => hp.b1 v hv (hup v hT) }
      cases hm : g.m1 x with
      | none =>
        rw [hm] at heq
        simp only [Option.some.injEq, Except.ok.injEq, Prod.mk.injEq] at heq
        obtain ⟨rfl, rfl, rfl⟩ := heq
        exact ⟨hn, k, by omega, hp'⟩
      | some u =>
        rw [hm] at heq
        simp only [] at heq
        have hinv := explore_inv (fl := fl) hg hroot h hst hm
        have hu : u < g.n := (hg.lt u x ((hg.sym u x).2 hm)).1
        have hkd : (k : ℚ) * δ ≤ n * δ := mul_le_mul_of_nonneg_right (by exact_mod_cast (by omega)) hδ
        have hp1 := explore_near he hD hu hp' (hp.rootA hδ hE hW (by omega) (hn ▸ hA)) (by linarith)
        refine ih g _ (dn ++ [x]) k hn hg hroot hlt hinv hp1 ?_ g' t' v heq
        rw [List.length_append, List.length_singleton]
        omega

theorem augment_edges (father : ℕ → Option ℕ) : ∀ (fuel : ℕ) (g : Graph) (v : Option ℕ) (g' : Graph),
    augment father fuel g v = some (.ok g') →
    g'.n = g.n ∧ g'.w = g.w ∧ g'.l0 = g.l0 ∧ g'.l1 = g.l1 ∧
      (∀ a b, g'.m0 a = some b → g.m0 a = some b ∨ father b = some a) ∧
      (∀ b, g'.m1 b = none → g.m1 b = none) ∧ ∀ a, g'.m0 a = none → g.m0 a = none := by
  intro fuel
  induction fuel with
  | zero =>
    intro g v g' h
    cases v with
    | none =>
      unfold augment at h
      simp only [Option.some.injEq, Except.ok.injEq] at h
      subst h
      exact ⟨rfl, rfl, rfl, rfl, fun _ _ h => Or.inl h, fun _ h => h, fun _ h => h⟩
    | some v => unfold augment at h; cases h
  | succ f ih =>
    intro g v g' h
    cases v with
    | none =>
      unfold augment at h
      simp only [Option.some.injEq, Except.ok.injEq] at h
      subst h
      exact ⟨rfl, rfl, rfl, rfl, fun _ _ h => Or.inl h, fun _ h => h, fun _ h => h⟩
    | some v =>
      unfold augment at h
      cases hf : father v with
      | none => rw [hf] at h; simp at h
      | some u =>
        rw [hf] at h
        simp only [] at h
        obtain ⟨h1, h2, h3, h4, h5, h6, h7⟩ := ih _ _ _ h
        refine ⟨h1, h2, h3, h4, ?_, ?_, ?_⟩
        · intro a b hab
          rcases h5 a b hab with hab | hab
          · have hab : upd g.m0 u (some v) a = some b := hab
            by_cases ha : a = u
            · subst ha
              rw [upd_same] at hab
              exact Or.inr ((Option.some.inj hab) ▸ hf)
            · rw [upd_ne _ _ ha] at hab; exact Or.inl hab
          · exact Or.inr hab
        · intro b hb
          have hb : upd g.m1 v (some u) b = none := h6 b hb
          by_cases hbv : b = v
          · subst hbv; rw [upd_same] at hb; cases hb
          · rwa [upd_ne _ _ hbv] at hb
        · intro a ha
          have ha : upd g.m0 u (some v) a = none := h7 a ha
          by_cases hau : a = u
          · subst hau; rw [upd_same] at ha; cases ha
          · rwa [upd_ne _ _ hau] at ha

/-- One search and its augmentation. -/
theorem augmentation_near (he : Err fl R δ B) (hE : 3 * δ ≤ E) (hD : 3 * δ ≤ D)
    (hA : W + 3 * δ + g.n * (E + 3 * δ) ≤ A) (hB : 3 * (L + 2 * A + 2 * g.n * δ) + W + 2 * δ ≤ B)
    (hg : Sound g) (hp : Near R W E D L g) {u : ℕ} (hu : u < g.n) (hfree : g.m0 u = none)
    {pf af : ℕ} {g1 g2 : Graph} {t1 : Tree} {v : ℕ}
    (h1 : findPath fl pf g (newTree fl g u) = some (.ok (g1, t1, v)))
    (h2 : augment t1.father af g1 (some v) = some (.ok g2)) (h3 : g2.m0 u ≠ none) :
    Near R W (E + g.n * (E + 3 * δ)) (D + 2 * g.n * δ) (L + 2 * A + 2 * g.n * δ) g2 := by
  have hδ := he.nonneg
  have hW : 0 ≤ W := le_trans (abs_nonneg _) (hp.bw u u hu hu)
  have hEn : 0 ≤ (g.n : ℚ) * (E + 3 * δ) := mul_nonneg (by positivity) (by linarith)
  have hl0 := hp.free0 u hu hfree
  have hAu : |g.l0 u| ≤ A := hl0.trans (by linarith)
  have hA0 : 0 ≤ A := le_trans (abs_nonneg _) hAu
  have hnd : 0 ≤ 2 * (g.n : ℚ) * δ := by positivity
  -- the start of the search
  have hs : Phase R W δ E D L A g ⟨fun _ => false, fun _ => false, fun _ => none, []⟩ u 0 := by
    have hu0 := abs_le.1 hl0
    refine ⟨fun a b ha hb _ => hp.feas a b ha hb, ?_, ?_, ?_, hp.free1, fun a ha hm _ => hp.free0 a ha hm, ?_, ?_,
      hp.mem0, hp.mem1, hp.memw, fun a ha _ => hp.b0 a ha, fun b hb _ => hp.b1 b hb, ?_, ?_, hp.bw⟩
    · intro a b ha hb
      simpa using hp.feas a b ha hb
    · intro a b hm
      simpa using hp.tight a b hm
    · intro a b hf; cases hf
    · linarith
    · simpa using hu0.2
    · intro a ha
      exact ⟨g.l0 a, g.l0 u, hp.b0 a ha, hAu, by simp⟩
    · intro b hb
      exact ⟨g.l1 b, g.l0 u, hp.b1 b hb, hAu, by simp⟩
  have hs1 : Phase R W δ E D L A g (newTree fl g u) u 0 := by
    unfold newTree
    exact explore_near he hD hu hs hAu (by push_cast; linarith)
  obtain ⟨hg1, k, hk, hf⟩ := findPath_near (root := u) he hE hD (n := g.n) hA hB pf g (newTree fl g u) [] 0 rfl hg hfree hu
    (newTree_inv hg) hs1 (Nat.zero_le _) g1 t1 v h1
  -- labels do not change any more
  obtain ⟨e1, e2, e3, e4, e5, e6, e7⟩ := augment_edges _ _ _ _ _ h2
  have hkE : (k : ℚ) * (E + 3 * δ) ≤ g.n * (E + 3 * δ) :=
    mul_le_mul_of_nonneg_right (by exact_mod_cast hk) (by linarith)
  have hkd : 2 * (k : ℚ) * δ ≤ 2 * g.n * δ := by
    have : (k : ℚ) * δ ≤ g.n * δ := mul_le_mul_of_nonneg_right (by exact_mod_cast hk) hδ
    linarith
  have hAr := hf.rootA hδ hE hW (by rw [hg1]; exact hk) (by rw [hg1]; exact hA)
  have hsl : ∀ a b, Munkres.slack g2 a b = Munkres.slack g1 a b := by
    intro a b
    unfold Munkres.slack
    rw [e2, e3, e4]
  refine ⟨?_, ?_, ?_, ?_, ?_, ?_, ?_, ?_, ?_, ?_⟩
  · intro a b ha hb
    rw [e1] at ha hb
    rw [hsl]
    have := hf.feas a b ha hb
    linarith
  · intro a b hm
    rw [hsl]
    rcases e5 a b hm with hm | hm
    · exact (hf.tight a b hm).trans (by linarith)
    · exact (hf.father a b hm).trans (by linarith)
  · intro b hb
    rw [e4]; exact hf.free1 b (e6 b hb)
  · intro a ha hm
    rw [e3]
    refine hf.free0 a (e1 ▸ ha) (e7 a hm) ?_
    rintro rfl
    exact h3 hm
  · intro a ha
    rw [e3]; exact hf.mem0 a (e1 ▸ ha)
  · intro b hb
    rw [e4]; exact hf.mem1 b (e1 ▸ hb)
  · intro a b ha hb
    rw [e2]; exact hf.memw a b (e1 ▸ ha) (e1 ▸ hb)
  · intro a ha
    rw [e3]; exact (hf.label0 hAr (e1 ▸ ha)).trans (by linarith)
  · intro b hb
    rw [e4]; exact (hf.label1 hAr (e1 ▸ hb)).trans (by linarith)
  · intro a b ha hb
    rw [e2]; exact hf.bw a b (e1 ▸ ha) (e1 ▸ hb)

theorem Near.weaken {E' D' L' : ℚ} (h : Near R W E D L g) (hE : E ≤ E') (hD : D ≤ D') (hL : L ≤ L') :
    Near R W E' D' L' g :=
  { h with
    feas := fun u v hu hv => (neg_le_neg hE).trans (h.feas u v hu hv)
    tight := fun u v hm => (h.tight u v hm).trans hD
    b0 := fun u hu => (h.b0 u hu).trans hL
    b1 := fun v hv => (h.b1 v hv).trans hL }

/-- The bound on the feasibility of labels after the rows below `j`. -/
def feasErr (n : ℕ) (δ : ℚ) (j : ℕ) : ℚ := 6 * (n + 1) ^ j * δ - 3 * δ
/-- The bound on the tightness of edges after the rows below `j`. -/
def tightErr (n : ℕ) (δ : ℚ) (j : ℕ) : ℚ := 3 * δ + 2 * n * j * δ
/-- The bound on labels after the rows below `j`. -/
def labelMax (n : ℕ) (W δ : ℚ) (j : ℕ) : ℚ :=
  W + j * (2 * (W + 3 * δ + 6 * (n + 1) ^ n * δ) + 2 * n * δ)

theorem one_le_pow' (n j : ℕ) : (1 : ℚ) ≤ (n + 1) ^ j := one_le_pow₀ (by linarith [Nat.cast_nonneg (α := ℚ) n])

theorem matchLoop_near {n : ℕ} (he : Err fl R δ B) (hW : 0 ≤ W)
    (hB : 3 * labelMax n W δ n + W + 2 * δ ≤ B) {pf af : ℕ} (hpf : 2 * n + 1 ≤ pf) (haf : n ≤ af) :
    ∀ (fuel u : ℕ) (g g' : Graph), g.n = n → Sound g → u ≤ n →
    (Near R W (feasErr n δ u) (tightErr n δ u) (labelMax n W δ u) g ∨ (u < n ∧ g.m0 u ≠ none ∧
      Near R W (feasErr n δ (u + 1)) (tightErr n δ (u + 1)) (labelMax n W δ (u + 1)) g)) →
    matchLoop fl pf af fuel u g = some (.ok g') →
    Near R W (feasErr n δ n) (tightErr n δ n) (labelMax n W δ n) g' := by
  have hδ := he.nonneg
  have step : ∀ j, j < n → feasErr n δ j ≤ feasErr n δ (j + 1) ∧ tightErr n δ j ≤ tightErr n δ (j + 1) ∧
      labelMax n W δ j ≤ labelMax n W δ (j + 1) := by
    intro j hj
    have hp := one_le_pow' n j
    have hpn := one_le_pow' n n
    have h1 : 0 ≤ (n : ℚ) * (n + 1) ^ j * δ := by positivity
    have h2 : 0 ≤ (n : ℚ) * δ := by positivity
    have h3 : 0 ≤ 6 * ((n : ℚ) + 1) ^ n * δ := by positivity
    refine ⟨?_, ?_, ?_⟩
    · unfold feasErr
      rw [pow_succ]
      nlinarith
    · unfold tightErr
      push_cast
      nlinarith
    · unfold labelMax
      push_cast
      nlinarith
  have hmono : ∀ j, j ≤ n → labelMax n W δ j ≤ labelMax n W δ n := by
    intro j hj
    unfold labelMax
    have h3 : 0 ≤ 6 * ((n : ℚ) + 1) ^ n * δ := by positivity
    have h2 : 0 ≤ (n : ℚ) * δ := by positivity
    have : (j : ℚ) ≤ n := by exact_mod_cast hj
    have := mul_le_mul_of_nonneg_right this
      (by linarith : 0 ≤ 2 * (W + 3 * δ + 6 * ((n : ℚ) + 1) ^ n * δ) + 2 * n * δ)
    linarith
  -- a row already matched
  intro fuel
  induction fuel with
  | zero => intro u g g' _ _ _ _ h; unfold matchLoop at h; cases h
  | succ fuel ih =>
    intro u g g' hn hg hun hp heq
    unfold matchLoop at heq
    by_cases hu : u < g.n
    · rw [if_pos hu] at heq
      cases hm : g.m0 u with
      | some v =>
        rw [hm] at heq
        simp only [] at heq
        obtain ⟨s1, s2, s3⟩ := step u (by omega)
        refine ih (u + 1) g g' hn hg (by omega) (Or.inl ?_) heq
        rcases hp with hp | ⟨_, _, hp⟩
        · exact hp.weaken s1 s2 s3
        · exact hp
      | none =>
        have hp : Near R W (feasErr n δ u) (tightErr n δ u) (labelMax n W δ u) g := by
          rcases hp with hp | ⟨_, hc, _⟩
          · exact hp
          · exact absurd hm hc
        rw [hm] at heq
        simp only [] at heq
        obtain ⟨g1, t1, v, g2, h1, k1, k2, k3, k5, k6⟩ :=
          augmentation (fl := fl) (pf := pf) (af := af) hg hu hm (by omega) (by omega)
        rw [h1] at heq
        simp only [] at heq
        rw [k1] at heq
        simp only [] at heq
        have hp1 := one_le_pow' n u
        have hp2 := one_le_pow' n n
        have hpu : ((n : ℚ) + 1) ^ (u + 1) ≤ (n + 1) ^ n :=
          pow_le_pow_right₀ (by linarith [Nat.cast_nonneg (α := ℚ) n]) (by omega)
        have hpu' := mul_le_mul_of_nonneg_right hpu hδ
        have hpd := mul_le_mul_of_nonneg_right hp1 hδ
        have hun0 : 0 ≤ (n : ℚ) * u * δ := by positivity
        have hnear := augmentation_near (A := W + 3 * δ + 6 * (n + 1) ^ n * δ) he
          (by unfold feasErr; linarith) (by unfold tightErr; linarith)
          (by rw [hn]; unfold feasErr; rw [pow_succ] at hpu'; nlinarith)
          (by
            have hl := hmono (u + 1) (by omega)
            have : labelMax n W δ (u + 1) = labelMax n W δ u + (2 * (W + 3 * δ + 6 * (n + 1) ^ n * δ) + 2 * n * δ) := by
              unfold labelMax; push_cast; ring
            rw [hn]
            linarith)
          hg hp hu hm h1 k1 k5
        refine ih u g2 g' (k3.trans hn) k2 hun (Or.inr ⟨by omega, k5, hnear.weaken ?_ ?_ ?_⟩) heq
        · rw [hn]
          unfold feasErr
          rw [pow_succ]
          linarith
        · rw [hn]
          unfold tightErr
          push_cast
          linarith
        · rw [hn]
          unfold labelMax
          push_cast
          linarith
    · rw [if_neg hu] at heq
      simp only [Option.some.injEq, Except.ok.injEq] at heq
      subst heq
      obtain rfl : u = n := by omega
      rcases hp with hp | ⟨hc, _, _⟩
      · exact hp
      · omega

theorem relabel_w {g' : Graph} {t' : Tree} (h : relabel fl g t = .ok (g', t')) : g'.w = g.w := by
  unfold relabel at h
  simp only [bind, Except.bind] at h
  rcases hmin : npMin (((List.range g.n).filter fun u => t.S u).flatMap fun u =>
    ((List.range g.n).filter fun v => !t.T v).map fun v => slack fl g u v) with e | alpha
  · rw [hmin] at h; cases h
  rw [hmin] at h
  simp only [pure, Except.pure, Except.ok.injEq, Prod.mk.injEq] at h
  rw [← h.1]

theorem findPath_w : ∀ (fuel : ℕ) (g : Graph) (t : Tree) (g' : Graph) (t' : Tree) (v : ℕ),
    findPath fl fuel g t = some (.ok (g', t', v)) → g'.w = g.w := by
  intro fuel
  induction fuel with
  | zero => intro g t g' t' v h; cases h
  | succ fuel ih =>
    intro g t g' t' v h
    unfold findPath at h
    cases hst : t.stack with
    | nil =>
      rw [hst] at h
      simp only [] at h
      rcases hr : relabel fl g t with e | ⟨g1, t1⟩
      · rw [hr] at h; cases h
      · rw [hr] at h
        exact (ih _ _ _ _ _ h).trans (relabel_w hr)
    | cons x rest =>
      rw [hst] at h
      simp only [] at h
      cases hm : g.m1 x with
      | none =>
        rw [hm] at h
        simp only [Option.some.injEq, Except.ok.injEq, Prod.mk.injEq] at h
        rw [h.1]
      | some u =>
        rw [hm] at h
        exact ih _ _ _ _ _ h

theorem matchLoop_w {pf af : ℕ} : ∀ (fuel u : ℕ) (g g' : Graph),
    matchLoop fl pf af fuel u g = some (.ok g') → g'.w = g.w := by
  intro fuel
  induction fuel with
  | zero => intro u g g' h; unfold matchLoop at h; cases h
  | succ fuel ih =>
    intro u g g' h
    unfold matchLoop at h
    split at h
    · split at h
      · split at h
        · cases h
        · cases h
        · rename_i g1 t1 v h1
          split at h
          · cases h
          · cases h
          · rename_i g2 h2
            rw [ih _ _ _ h, (augment_edges _ _ _ _ _ h2).2.1, findPath_w _ _ _ _ _ _ h1]
      · exact ih _ _ _ h
    · simp only [Option.some.injEq, Except.ok.injEq] at h
      rw [h]

/-- Nearly tight edges and nearly feasible labels: the matching is nearly optimal. -/
theorem cost_near (hg : Sound g) (hp : Near R W E D L g) {s : List ℕ}
    (hs : (List.range g.n).map g.m0 = s.map some) (hperm : s.Perm (List.range g.n))
    {p : List ℕ} (hpp : p.Perm (List.range g.n)) : cost g.w p ≤ cost g.w s + g.n * (E + D) := by
  have key : ∀ (l : List (ℕ × ℕ)) (f f' : ℕ × ℕ → ℚ) (c : ℚ), (∀ x ∈ l, f x ≤ f' x + c) →
      (l.map f).sum ≤ (l.map f').sum + l.length * c := by
    intro l f f' c
    induction l with
    | nil => intro _; simp
    | cons a l ih =>
      intro h
      have h1 := h a List.mem_cons_self
      have h2 := ih fun x hx => h x (List.mem_cons_of_mem _ hx)
      simp only [List.map_cons, List.sum_cons, List.length_cons]
      push_cast
      linarith
  have h1 : cost g.w p ≤ (((List.range g.n).map g.l0).sum + ((List.range g.n).map g.l1).sum) + g.n * E := by
    rw [← sum_labels g.l0 g.l1 p hpp, cost_eq_zipIdx]
    have := key p.zipIdx (fun x => g.w x.2 x.1) (fun x => g.l0 x.2 + g.l1 x.1) E (by
      intro x hx
      obtain ⟨a, b, _⟩ := mem_zipIdx_perm hpp hx
      have := hp.feas x.2 x.1 a b
      unfold Munkres.slack at this
      linarith)
    rwa [List.length_zipIdx, hpp.length_eq, List.length_range] at this
  have h2 : ((List.range g.n).map g.l0).sum + ((List.range g.n).map g.l1).sum ≤ cost g.w s + g.n * D := by
    rw [← sum_labels g.l0 g.l1 s hperm, cost_eq_zipIdx]
    have := key s.zipIdx (fun x => g.l0 x.2 + g.l1 x.1) (fun x => g.w x.2 x.1) D (by
      intro x hx
      obtain ⟨a, b, c⟩ := mem_zipIdx_perm hperm hx
      have hx1 : g.m0 x.2 = some x.1 := by
        have := congrArg (fun l => l[x.2]?) hs
        simp only [List.getElem?_map, List.getElem?_range a, c, Option.map_some, Option.some.injEq] at this
        exact this
      have := (abs_le.1 (hp.tight _ _ hx1)).2
      unfold Munkres.slack at this
      linarith)
    rwa [List.length_zipIdx, hperm.length_eq, List.length_range] at this
  linarith

/-- How far from the optimum the result can be, for an error `δ` of each operation. -/
def loss (n : ℕ) (δ : ℚ) : ℚ := n * (6 * (n + 1) ^ n + 2 * n ^ 2) * δ

theorem maxWeightMatching_near (he : Err fl R δ B) (fuel n : ℕ) (w : ℕ → ℕ → ℚ) (hf : 2 * n + 1 ≤ fuel)
    (hpos : 0 < n)
    (hw : ∀ u v, u < n → v < n → w u v ∈ R ∧ |w u v| ≤ W) (hB : 3 * labelMax n W δ n + W + 2 * δ ≤ B) :
    ∃ s : List ℕ, maxWeightMatching fl fuel n w = some (.ok (s.map some)) ∧ s.Perm (List.range n) ∧
      ∀ p : List ℕ, p.Perm (List.range n) → cost w p ≤ cost w s + loss n δ := by
  have hδ := he.nonneg
  have hW : 0 ≤ W := le_trans (abs_nonneg _) (hw 0 0 hpos hpos).2
  obtain ⟨g', h1, h2, h3, h5⟩ := matchLoop_spec (fl := fl) (pf := fuel) (af := fuel) n fuel 0
    (initGraph n w) initGraph_sound (by simp [initGraph]) hf (by simpa [initGraph] using hf)
    (by simp [initGraph]; omega) (by intro x hx; omega)
  have hn : g'.n = n := h3
  have hl : ∀ u, u < n → ∃ v, v < n ∧ (initGraph n w).l0 u = w u v := by
    intro u hu
    rcases (foldl_max_spec ((List.range n).map (w u)) (w u 0)).1 with h | h
    · exact ⟨0, hpos, h⟩
    · obtain ⟨v, hv, he⟩ := List.mem_map.1 h
      exact ⟨v, List.mem_range.1 hv, he.symm⟩
  have hini : Near R W (feasErr n δ 0) (tightErr n δ 0) (labelMax n W δ 0) (initGraph n w) := by
    have hG := initGraph_good (n := n) (w := w)
    refine ⟨?_, ?_, ?_, ?_, ?_, ?_, ?_, ?_, ?_, ?_⟩
    · intro u v hu hv
      have := hG.feas u v hu hv
      unfold feasErr
      simp only [pow_zero]
      linarith
    · intro u v hm; simp [initGraph] at hm
    · intro v _; rfl
    · intro u hu _
      obtain ⟨v, hv, he⟩ := hl u hu
      rw [he]; exact (hw u v hu hv).2
    · intro u hu
      obtain ⟨v, hv, he⟩ := hl u hu
      rw [he]; exact (hw u v hu hv).1
    · intro v _; exact R.zero_mem
    · intro u v hu hv; exact (hw u v hu hv).1
    · intro u hu
      obtain ⟨v, hv, he⟩ := hl u hu
      rw [he]; unfold labelMax; simpa using (hw u v hu hv).2
    · intro v _
      show |(0 : ℚ)| ≤ _
      unfold labelMax; simpa using hW
    · intro u v hu hv; exact (hw u v hu hv).2
  have hp := matchLoop_near (n := n) he hW hB (pf := fuel) (af := fuel) hf (by omega) fuel 0 (initGraph n w) g' rfl
    initGraph_sound (Nat.zero_le _) (Or.inl hini) h1
  have hw' : g'.w = w := matchLoop_w _ _ _ _ h1
  obtain ⟨s, a, b, -⟩ := optimal_of_good h2.good (fun x hx => h5 x (by
    have hx : x < g'.n := hx
    rw [hn] at hx; exact hx))
  have a : (List.range g'.n).map g'.m0 = s.map some := a
  have b : s.Perm (List.range g'.n) := b
  refine ⟨s, ?_, hn ▸ b, ?_⟩
  · unfold maxWeightMatching
    rw [h1]
    simp only []
    rw [← a, hn]
  · intro p hpp
    have := cost_near h2 hp a b (p := p) (hn.symm ▸ hpp)
    rw [hw', hn] at this
    refine this.trans (le_of_eq ?_)
    unfold loss feasErr tightErr
    ring

end

end Verif.Munkres.Fl
