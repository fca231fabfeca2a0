import Verif.Features.Double
import Verif.Evaluation.LemmasDouble

/-!
# Property C227: soft vector quantisation with doubles
-/

namespace Verif.Features.D

open Verif Verif.Window Verif.Evaluation.D
open Verif.NMF.D (double_mul double_pow double_one double_zero dbl_le le_dbl abs_dbl_le)

set_option exponentiation.threshold 2000

/-- What is used of `np.exp`: values are doubles from 0 to 1 at numbers which are not positive; 1 at zero, 0 below -746
(the exponential is there less than half of the smallest double), and normal numbers above -702. -/
structure IsExp (ex : ℚ → ℚ) : Prop where
  dbl : ∀ x, Double (ex x)
  nonneg : ∀ x, 0 ≤ ex x
  le_one : ∀ x, x ≤ 0 → ex x ≤ 1
  zero : ex 0 = 1
  under : ∀ x, x ≤ -746 → ex x = 0
  normal : ∀ x, -702 ≤ x → x ≤ 0 → 1 / 2 ^ 1014 ≤ ex x

theorem eps_bounds : 999 / 10 ^ 12 ≤ EPSILON ∧ EPSILON ≤ 1001 / 10 ^ 12 := by decide +kernel

theorem round_nonpos {x : ℚ} (h : x ≤ 0) :
    (Evaluation.D.round x = .fin (dbl x) ∧ Dbl (dbl x) ∧ dbl x ≤ 0) ∨ Evaluation.D.round x = .inf true := by
  rcases round_cases x with ⟨h1, h2⟩ | h1
  · exact .inl ⟨h1, h2, dbl_le double_zero h⟩
  · right
    rcases h.lt_or_eq with hl | he
    · rw [h1]; simp [hl]
    · rw [he, round_dbl dbl_zero'] at h1
      cases h1

/-- The argument of the exponential. -/
def arg (α q : ℚ) (d : Flt) : Flt := div (mul (neg (.fin α)) d) (.fin q)

/-- The argument of the exponential is a number which is not positive or negative infinity. -/
theorem arg_cases {α q : ℚ} (hα : 0 < α) (hq : 0 < q) {d : Flt} (hd : NonNeg d) :
    arg α q d = .inf true ∨ ∃ x, d = .fin x ∧ 0 ≤ x ∧ Dbl x ∧ arg α q d = .fin (dbl (dbl (-α * x) / q)) ∧
      dbl (dbl (-α * x) / q) ≤ 0 := by
  unfold arg
  rcases hd with ⟨x, hx, hdx, rfl⟩ | rfl
  · have hn : -α * x ≤ 0 := by nlinarith
    have e : mul (neg (.fin α)) (.fin x) = Evaluation.D.round (-α * x) := rfl
    rw [e]
    rcases round_nonpos hn with ⟨h1, _, h3⟩ | h1
    · rw [h1]
      have e2 : div (.fin (dbl (-α * x))) (.fin q) = Evaluation.D.round (dbl (-α * x) / q) := by
        show (if q = 0 then _ else _) = _
        rw [if_neg hq.ne']
      rw [e2]
      have hn2 : dbl (-α * x) / q ≤ 0 := div_nonpos_of_nonpos_of_nonneg h3 hq.le
      rcases round_nonpos hn2 with ⟨g1, _, g3⟩ | g1
      · exact .inr ⟨x, rfl, hx, hdx, g1, g3⟩
      · exact .inl g1
    · left
      rw [h1]
      show Flt.inf (true != decide (q < 0)) = _
      simp [not_lt.mpr hq.le]
  · left
    have e : mul (neg (.fin α)) (.inf false) = .inf true := by
      show (if -α = 0 then _ else _) = _
      rw [if_neg (by linarith)]
      simp [hα]
    rw [e]
    show Flt.inf (true != decide (q < 0)) = _
    simp [not_lt.mpr hq.le]

theorem exp_fin {ex : ℚ → ℚ} (hE : IsExp ex) {z : ℚ} (hz : z ≤ 0) : exp ex (.fin z) = .fin (ex z) := by
  show (if _ then _ else _) = _
  rw [if_pos]
  rw [abs_of_nonneg (hE.nonneg z)]
  exact lt_of_le_of_lt (hE.le_one z hz) (by norm_num)

/-- Weights before normalisation are numbers from 0 to 1. -/
theorem weight_cases {ex : ℚ → ℚ} (hE : IsExp ex) {α q : ℚ} (hα : 0 < α) (hq : 0 < q) {d : Flt} (hd : NonNeg d) :
    ∃ w, exp ex (arg α q d) = .fin w ∧ Double w ∧ 0 ≤ w ∧ w ≤ 1 := by
  rcases arg_cases hα hq hd with h | ⟨x, _, _, _, h, hz⟩
  · rw [h]
    exact ⟨0, rfl, double_zero, le_rfl, by norm_num⟩
  · rw [h, exp_fin hE hz]
    exact ⟨_, rfl, hE.dbl _, hE.nonneg _, hE.le_one _ hz⟩

/-- Larger distances do not have larger weights. -/
theorem weight_mono {ex : ℚ → ℚ} (hE : IsExp ex) (hm : ∀ x y, x ≤ y → ex x ≤ ex y) {α q : ℚ} (hα : 0 < α) (hq : 0 < q)
    {d e : Flt} (hd : NonNeg d) (he : NonNeg e) (h : ge e d = true) {v w : ℚ} (hv : exp ex (arg α q d) = .fin v)
    (hw : exp ex (arg α q e) = .fin w) : w ≤ v := by
  rcases arg_cases hα hq he with h1 | ⟨y, rfl, hy, dy, h1, hz1⟩
  · rw [h1] at hw
    have : (0 : ℚ) = w := by injection hw
    rw [← this]
    obtain ⟨v', e1, _, e2, _⟩ := weight_cases hE hα hq hd
    rw [hv] at e1
    injection e1 with e1
    rw [e1]; exact e2
  · rw [h1, exp_fin hE hz1] at hw
    injection hw with hw
    rcases hd with ⟨x, hx, dx, rfl⟩ | rfl
    · have hxy : x ≤ y := by
        have : decide (x ≤ y) = true := h
        simpa using this
      -- the smaller distance does not overflow either
      have hfin : arg α q (.fin x) = .fin (dbl (dbl (-α * x) / q)) := by
        have b1 : -α * y ≤ -α * x := by nlinarith
        have n1 : -α * x ≤ 0 := by nlinarith
        have c1 := dbl_mono b1
        have k1 : dbl (-α * x) ≤ 0 := dbl_le double_zero n1
        have c2 : dbl (-α * y) / q ≤ dbl (-α * x) / q := by gcongr
        have k2 : dbl (-α * x) / q ≤ 0 := div_nonpos_of_nonpos_of_nonneg k1 hq.le
        have c3 := dbl_mono c2
        have k3 : dbl (dbl (-α * x) / q) ≤ 0 := dbl_le double_zero k2
        unfold arg at h1 ⊢
        have e1 : mul (neg (.fin α)) (.fin y) = Evaluation.D.round (-α * y) := rfl
        have e2 : mul (neg (.fin α)) (.fin x) = Evaluation.D.round (-α * x) := rfl
        have hdiv : ∀ u : ℚ, div (.fin u) (.fin q) = Evaluation.D.round (u / q) := fun u => by
          show (if q = 0 then _ else _) = _
          rw [if_neg hq.ne']
        rw [e1] at h1
        have r1 : |dbl (-α * y)| < 2 ^ 1024 := by
          by_contra hc
          rw [Evaluation.D.round, if_neg hc] at h1
          cases h1
        rw [round_fin r1, hdiv] at h1
        have r2 : |dbl (dbl (-α * y) / q)| < 2 ^ 1024 := by
          by_contra hc
          rw [Evaluation.D.round, if_neg hc] at h1
          cases h1
        have s1 : |dbl (-α * x)| < 2 ^ 1024 := by
          rw [abs_lt] at r1 ⊢
          exact ⟨lt_of_lt_of_le r1.1 c1, lt_of_le_of_lt k1 (by positivity)⟩
        have s2 : |dbl (dbl (-α * x) / q)| < 2 ^ 1024 := by
          rw [abs_lt] at r2 ⊢
          exact ⟨lt_of_lt_of_le r2.1 c3, lt_of_le_of_lt k3 (by positivity)⟩
        rw [e2, round_fin s1, hdiv, round_fin s2]
      have b1 : -α * y ≤ -α * x := by nlinarith
      have c1 := dbl_mono b1
      have c2 : dbl (-α * y) / q ≤ dbl (-α * x) / q := by gcongr
      have c3 := dbl_mono c2
      have n1 : -α * x ≤ 0 := by nlinarith
      have k1 : dbl (-α * x) ≤ 0 := dbl_le double_zero n1
      have k3 : dbl (dbl (-α * x) / q) ≤ 0 := dbl_le double_zero (div_nonpos_of_nonpos_of_nonneg k1 hq.le)
      rw [hfin, exp_fin hE k3] at hv
      injection hv with hv
      rw [← hv, ← hw]
      exact hm _ _ c3
    · exact absurd h (by simp [ge])

/-! ### The least distance -/

theorem NonNeg.ne_nan {a : Flt} (h : NonNeg a) : a ≠ .nan := by
  rcases h with ⟨x, _, _, rfl⟩ | rfl <;> simp

/-- The least of distances one of which is finite. -/
theorem npMin_fin {l : List Flt} (hl : ∀ d ∈ l, NonNeg d) {x : ℚ} (hx : Flt.fin x ∈ l) :
    ∃ m, npMin l = .fin m ∧ Flt.fin m ∈ l ∧ 0 ≤ m ∧ Dbl m ∧ m ≤ x ∧ ∀ y, Flt.fin y ∈ l → m ≤ y := by
  obtain ⟨i, a, h1, h2, h3⟩ := argmin_spec l (List.ne_nil_of_mem hx)
  have hmem : a ∈ l := List.mem_of_getElem? h2
  have e : npMin l = a := by
    unfold npMin
    rw [h1]
    simp only []
    rw [List.getD_eq_getElem?_getD, h2]; rfl
  rcases h3 with ⟨h3, _⟩ | ⟨_, h3, _⟩
  · exact absurd h3 (NonNeg.ne_nan (hl a hmem))
  · rcases hl a hmem with ⟨m, hm, dm, rfl⟩ | rfl
    · have hle : ∀ y, Flt.fin y ∈ l → m ≤ y := by
        intro y hy
        have : decide (m ≤ y) = true := h3 _ hy
        simpa using this
      exact ⟨m, e, hmem, hm, dm, hle x hx, hle⟩
    · have := h3 _ hx
      simp [ge] at this

/-- The divisor of distances. -/
theorem divisor {m : ℚ} (hm : 0 ≤ m) (dm : Double m) (hb : m ≤ 2 ^ 1000) :
    ∃ q, add (.fin EPSILON) (.fin m) = .fin q ∧ 0 < q ∧ m ≤ q ∧ EPSILON ≤ q ∧ Double q ∧ (m = 0 → q = EPSILON) ∧
      q ≤ (EPSILON + m) * (1 + 1 / 2 ^ 50) := by
  have hE := eps_bounds
  have hE0 : 0 < EPSILON := lt_of_lt_of_le (by norm_num) hE.1
  have dE : Double EPSILON := dbl_double _
  have hle : |EPSILON + m| ≤ 2 ^ 1001 := by
    rw [abs_of_nonneg (by linarith)]
    have : (1001 : ℚ) / 10 ^ 12 + 2 ^ 1000 ≤ 2 ^ 1001 := by norm_num
    linarith [hE.2]
  have e : add (.fin EPSILON) (.fin m) = .fin (dbl (EPSILON + m)) :=
    round_of_le (double_pow 1001) hle (by norm_num)
  have h1 : EPSILON ≤ dbl (EPSILON + m) := le_dbl dE (by linarith)
  refine ⟨_, e, lt_of_lt_of_le hE0 h1, le_dbl dm (by linarith), h1, dbl_double _, ?_, ?_⟩
  · rintro rfl
    rw [add_zero, dbl_of_double dE]
  · have := (abs_le.mp (dbl_rel_add dE dm)).2
    rw [abs_of_nonneg (by linarith)] at this
    have h0 : 0 ≤ (EPSILON + m) := by linarith
    have h2 : (EPSILON + m) / 2 ^ 53 ≤ (EPSILON + m) * (1 / 2 ^ 50) := by
      rw [div_eq_mul_one_div]
      exact mul_le_mul_of_nonneg_left (by norm_num) h0
    linarith

theorem softRow_get (ex : ℚ → ℚ) (t : Tree) (α : ℚ) (l : List Flt) {q : ℚ} (hq : add (.fin EPSILON) (npMin l) = .fin q) :
    (softRow ex t (.fin α) l).length = l.length ∧ ∀ (k : ℕ) (d : Flt), l[k]? = some d →
      (softRow ex t (.fin α) l)[k]? = some (div (exp ex (arg α q d))
        (t.sum fun k => (l.map fun d => exp ex (arg α q d)).getD k (.fin 0))) := by
  unfold softRow
  simp only [hq]
  refine ⟨by simp, ?_⟩
  intro k d hk
  simp only [List.getElem?_map, hk, Option.map_some]
  rfl

theorem double_nat {n : ℕ} (h : n ≤ 2 ^ 53) : Double (n : ℚ) := by
  have := double_mul (n := n) (p := 0) h (by norm_num)
  simpa using this

/-- The sum of weights. -/
theorem sum_weights {ex : ℚ → ℚ} (hE : IsExp ex) {α q : ℚ} (hα : 0 < α) (hq : 0 < q) {l : List Flt}
    (hl : ∀ d ∈ l, NonNeg d) (hlen : l.length ≤ 2 ^ 53) {t : Tree} (ht : t.Adds l.length) :
    ∃ s, (t.sum fun k => (l.map fun d => exp ex (arg α q d)).getD k (.fin 0)) = .fin s ∧ Double s ∧ 0 ≤ s ∧ s ≤ 2 ^ 53 ∧
      ∀ d ∈ l, ∃ w, exp ex (arg α q d) = .fin w ∧ 0 ≤ w ∧ w ≤ 1 ∧ w ≤ s ∧ Double w := by
  choose! f hf using fun (d : Flt) (hd : NonNeg d) => weight_cases hE hα hq hd
  have hleaf : ∀ k ∈ t.leaves, k < l.length := fun k hk => List.mem_range.mp (ht.mem_iff.mp hk)
  have hw : ∀ k (hk : k < l.length), (l.map fun d => exp ex (arg α q d)).getD k (.fin 0) = .fin (f l[k]) := by
    intro k hk
    rw [List.getD_eq_getElem?_getD, List.getElem?_map, List.getElem?_eq_getElem hk]
    exact (hf l[k] (hl _ (List.getElem_mem hk))).1
  have hc : (t.sum fun k => (l.map fun d => exp ex (arg α q d)).getD k (.fin 0)) =
      t.sum fun k => .fin (if h : k < l.length then f l[k] else 0) := by
    apply sum_congr
    intro k hk
    rw [hw k (hleaf k hk), dif_pos (hleaf k hk)]
  have hlen' : t.leaves.length = l.length := by rw [ht.length_eq, List.length_range]
  have hbd : ∀ k ∈ t.leaves, Double (if h : k < l.length then f l[k] else 0) ∧
      |if h : k < l.length then f l[k] else 0| ≤ 2 ^ 0 := by
    intro k hk
    have h := hleaf k hk
    rw [dif_pos h]
    obtain ⟨_, a, b, c⟩ := hf l[k] (hl _ (List.getElem_mem h))
    exact ⟨a, by rw [abs_of_nonneg b, pow_zero]; exact c⟩
  obtain ⟨s, hs, ds, bs⟩ := sum_bd (p := 0) (by norm_num) t (by rw [hlen']; exact hlen) hbd
  have hnn : ∀ k ∈ t.leaves, NonNeg (.fin (if h : k < l.length then f l[k] else 0)) := by
    intro k hk
    have h := hleaf k hk
    rw [dif_pos h]
    obtain ⟨_, a, b, c⟩ := hf l[k] (hl _ (List.getElem_mem h))
    exact .inl ⟨_, b, ⟨a, by rw [abs_of_nonneg b]; exact lt_of_le_of_lt c (by norm_num)⟩, rfl⟩
  obtain ⟨_, s0, hge⟩ := sum_ge t hnn s hs
  refine ⟨s, hc.trans hs, ds, s0, ?_, ?_⟩
  · rw [abs_of_nonneg s0, hlen', pow_zero, mul_one] at bs
    have : (l.length : ℚ) ≤ 2 ^ 53 := by exact_mod_cast hlen
    linarith
  · intro d hd
    obtain ⟨e1, e2, e3, e4⟩ := hf d (hl d hd)
    obtain ⟨k, hk, rfl⟩ := List.getElem_of_mem hd
    have hkl : k ∈ t.leaves := ht.mem_iff.mpr (List.mem_range.mpr hk)
    obtain ⟨y, ey, hy⟩ := hge k hkl
    rw [dif_pos hk] at ey
    injection ey with ey
    exact ⟨_, e1, e3, e4, by rw [ey]; exact hy, e2⟩

theorem div_fin {w s : ℚ} (hs : 0 < s) (h0 : 0 ≤ w) (h1 : w ≤ s) : div (.fin w) (.fin s) = .fin (dbl (w / s)) := by
  show (if s = 0 then _ else _) = _
  rw [if_neg hs.ne']
  refine round_of_le double_one ?_ (by norm_num)
  rw [abs_of_nonneg (div_nonneg h0 hs.le)]
  exact (div_le_one hs).mpr h1

/-- The weight of a nearest centroid is a normal number. -/
theorem nearest_weight {ex : ℚ → ℚ} (hE : IsExp ex) {α q m : ℚ} (hα : 0 < α) (hα' : α ≤ 700) (hm : 0 ≤ m)
    (hb : m ≤ 2 ^ 1000) (hq1 : m ≤ q) (hq2 : EPSILON ≤ q) :
    ∃ w, exp ex (arg α q (.fin m)) = .fin w ∧ 1 / 2 ^ 1014 ≤ w := by
  have hE0 := eps_bounds.1
  have hq : 0 < q := lt_of_lt_of_le (by norm_num) (hE0.trans hq2)
  have hn : -α * m ≤ 0 := by nlinarith
  have hab : |-α * m| ≤ 2 ^ 1010 := by
    rw [abs_of_nonpos hn]
    have : α * m ≤ 700 * 2 ^ 1000 := mul_le_mul hα' hb hm (by norm_num)
    have : (700 : ℚ) * 2 ^ 1000 ≤ 2 ^ 1010 := by norm_num
    linarith
  have r1 : mul (neg (.fin α)) (.fin m) = .fin (dbl (-α * m)) := round_of_le (double_pow 1010) hab (by norm_num)
  have k1 : dbl (-α * m) ≤ 0 := dbl_le double_zero hn
  have near := (abs_le.mp (dbl_near (-α * m))).1
  rw [abs_of_nonpos hn] at near
  have low : -701 * q ≤ dbl (-α * m) := by
    have t1 : (1 : ℚ) / 2 ^ 1075 ≤ 1 / 2 * q := by
      have : (1 : ℚ) / 2 ^ 1075 ≤ 1 / 2 * (999 / 10 ^ 12) := by norm_num
      linarith
    have t2 : α * m ≤ 700 * q := mul_le_mul hα' hq1 hm (by norm_num)
    have t3 : -(-α * m) / 2 ^ 53 ≤ 1 / 2 * q := by
      rw [div_le_iff₀ (by positivity)]
      have : 700 * q ≤ 1 / 2 * q * 2 ^ 53 := by
        have : (700 : ℚ) ≤ 1 / 2 * 2 ^ 53 := by norm_num
        nlinarith
      linarith
    linarith
  have h2 : -701 ≤ dbl (-α * m) / q := by rw [le_div_iff₀ hq]; exact low
  have h3 : dbl (-α * m) / q ≤ 0 := div_nonpos_of_nonpos_of_nonneg k1 hq.le
  have d701 : Double 701 := by
    have := double_nat (n := 701) (by norm_num)
    simpa using this
  have r2 : div (.fin (dbl (-α * m))) (.fin q) = .fin (dbl (dbl (-α * m) / q)) := by
    show (if q = 0 then _ else _) = _
    rw [if_neg hq.ne']
    exact round_of_le d701 (by rw [abs_of_nonpos h3]; linarith) (by norm_num)
  have h4 : dbl (dbl (-α * m) / q) ≤ 0 := dbl_le double_zero h3
  have h5 : -702 ≤ dbl (dbl (-α * m) / q) := by
    have := le_dbl (Double.neg d701) h2
    linarith
  refine ⟨ex (dbl (dbl (-α * m) / q)), ?_, hE.normal _ h5 h4⟩
  unfold arg
  rw [r1, r2, exp_fin hE h4]

/-- **C227.** For a positive parameter up to 700 and distances of which one at least is a number up to `2 ^ 1000`, soft weights
are numbers from 0 to 1, whatever the order of additions and even if other distances are infinite; those of the nearest
centroids are positive. -/
theorem C227_weights {ex : ℚ → ℚ} (hE : IsExp ex) {α : ℚ} (hα : 0 < α) (hα' : α ≤ 700) (dists : List Flt)
    (hl : ∀ d ∈ dists, NonNeg d) (hfin : ∃ x, Flt.fin x ∈ dists ∧ x ≤ 2 ^ 1000) (hlen : dists.length ≤ 2 ^ 53) (t : Tree)
    (ht : t.Adds dists.length) :
    (softRow ex t (.fin α) dists).length = dists.length ∧
    (∀ k : ℕ, k < dists.length → ∃ v : ℚ, (softRow ex t (.fin α) dists)[k]? = some (.fin v) ∧ 0 ≤ v ∧ v ≤ 1) ∧
    (∀ (k : ℕ) (x : ℚ), dists[k]? = some (.fin x) → (∀ y, Flt.fin y ∈ dists → x ≤ y) →
      ∃ v : ℚ, (softRow ex t (.fin α) dists)[k]? = some (.fin v) ∧ 0 < v) := by
  obtain ⟨x, hx, hxb⟩ := hfin
  obtain ⟨m, em, mm, m0, dm, mx, hle⟩ := npMin_fin hl hx
  obtain ⟨q, eq, q0, q1, q2, dq, -, -⟩ := divisor m0 dm.1 (mx.trans hxb)
  rw [← em] at eq
  obtain ⟨l1, l2⟩ := softRow_get ex t α dists eq
  obtain ⟨s, es, ds, s0, sb, hw⟩ := sum_weights hE hα q0 hl hlen ht
  rw [es] at l2
  obtain ⟨w, ew, hwb⟩ := nearest_weight hE hα hα' m0 (mx.trans hxb) q1 q2
  have hs : 0 < s ∧ 1 / 2 ^ 1014 ≤ s := by
    obtain ⟨w', e1, _, _, e2, _⟩ := hw _ mm
    rw [ew] at e1
    injection e1 with e1
    have : (0 : ℚ) < 1 / 2 ^ 1014 := by positivity
    constructor <;> linarith
  refine ⟨l1, ?_, ?_⟩
  · intro k hk
    obtain ⟨w', e1, e2, e3, e4, _⟩ := hw _ (List.getElem_mem hk)
    have := l2 k _ (List.getElem?_eq_getElem hk)
    rw [e1, div_fin hs.1 e2 e4] at this
    exact ⟨_, this, le_dbl double_zero (div_nonneg e2 s0), dbl_le double_one ((div_le_one hs.1).mpr e4)⟩
  · intro k y hk hmin
    have hym : y = m := le_antisymm (hmin m mm) (hle y (List.mem_of_getElem? hk))
    subst hym
    obtain ⟨w', e1, e2, e3, e4, _⟩ := hw _ mm
    have := l2 k _ hk
    rw [e1, div_fin hs.1 e2 e4] at this
    refine ⟨_, this, ?_⟩
    rw [ew] at e1
    injection e1 with e1
    have dT : Double ((2 : ℚ) ^ (-1067 : ℤ)) := by
      have := double_mul (n := 1) (p := -1067) (by norm_num) (by norm_num)
      simpa using this
    have : (2 : ℚ) ^ (-1067 : ℤ) ≤ w' / s := by
      rw [le_div_iff₀ hs.1]
      have a1 : (2 : ℚ) ^ (-1067 : ℤ) * s ≤ 2 ^ (-1067 : ℤ) * 2 ^ 53 := by gcongr
      have a2 : (2 : ℚ) ^ (-1067 : ℤ) * 2 ^ 53 = 1 / 2 ^ 1014 := by
        rw [zpow_neg]
        have : ((2 : ℚ) ^ (1067 : ℤ)) = 2 ^ 1067 := by norm_cast
        rw [this]
        norm_num
      exact a1.trans (a2.le.trans (hwb.trans e1.le))
    exact lt_of_lt_of_le (by positivity) (le_dbl dT this)

/-- **C227.** If the exponential of the library is increasing, then a centroid which is not farther than another one does not
have a smaller weight. -/
theorem C227_order {ex : ℚ → ℚ} (hE : IsExp ex) (hmono : ∀ x y, x ≤ y → ex x ≤ ex y) {α : ℚ} (hα : 0 < α) (hα' : α ≤ 700)
    (dists : List Flt) (hl : ∀ d ∈ dists, NonNeg d) (hfin : ∃ x, Flt.fin x ∈ dists ∧ x ≤ 2 ^ 1000)
    (hlen : dists.length ≤ 2 ^ 53) (t : Tree) (ht : t.Adds dists.length) (k k' : ℕ) (d d' : Flt)
    (hk : dists[k]? = some d) (hk' : dists[k']? = some d') (h : ge d' d = true) :
    ∃ v v', (softRow ex t (.fin α) dists)[k]? = some (.fin v) ∧ (softRow ex t (.fin α) dists)[k']? = some (.fin v') ∧
      v' ≤ v := by
  obtain ⟨x, hx, hxb⟩ := hfin
  obtain ⟨m, em, mm, m0, dm, mx, hle⟩ := npMin_fin hl hx
  obtain ⟨q, eq, q0, q1, q2, dq, -, -⟩ := divisor m0 dm.1 (mx.trans hxb)
  rw [← em] at eq
  obtain ⟨l1, l2⟩ := softRow_get ex t α dists eq
  obtain ⟨s, es, ds, s0, sb, hw⟩ := sum_weights hE hα q0 hl hlen ht
  rw [es] at l2
  obtain ⟨w, ew, hwb⟩ := nearest_weight hE hα hα' m0 (mx.trans hxb) q1 q2
  have hs : 0 < s := by
    obtain ⟨w', e1, _, _, e2, _⟩ := hw _ mm
    rw [ew] at e1
    injection e1 with e1
    have : (0 : ℚ) < 1 / 2 ^ 1014 := by positivity
    linarith
  have hd := List.mem_of_getElem? hk
  have hd' := List.mem_of_getElem? hk'
  obtain ⟨a, a1, a2, a3, a4, _⟩ := hw _ hd
  obtain ⟨b, b1, b2, b3, b4, _⟩ := hw _ hd'
  have r1 := l2 k _ hk
  have r2 := l2 k' _ hk'
  rw [a1, div_fin hs a2 a4] at r1
  rw [b1, div_fin hs b2 b4] at r2
  refine ⟨_, _, r1, r2, dbl_mono ?_⟩
  have := weight_mono hE hmono hα q0 (hl _ hd) (hl _ hd') h a1 b1
  gcongr

theorem sum_one {a : ℕ → Flt} : ∀ (t : Tree) (k : ℕ), t.leaves.Nodup → k ∈ t.leaves → a k = .fin 1 →
    (∀ j ∈ t.leaves, j ≠ k → a j = .fin 0) → t.sum a = .fin 1
  | .zero, k, _, hk, _, _ => by simp [Tree.leaves] at hk
  | .leaf j, k, _, hk, h1, _ => by
    have : k = j := by simpa [Tree.leaves] using hk
    subst this; exact h1
  | .plus p r, k, hn, hk, h1, h0 => by
    have one : ∀ x y : ℚ, x + y = 1 → add (.fin x) (.fin y) = .fin 1 := by
      intro x y h
      show Evaluation.D.round (x + y) = _
      rw [h]
      exact round_dbl ⟨double_one, by rw [abs_one]; norm_num⟩
    have hn' : (p.leaves ++ r.leaves).Nodup := hn
    have hk' : k ∈ p.leaves ++ r.leaves := hk
    have hd := List.disjoint_of_nodup_append hn'
    rcases List.mem_append.mp hk' with h | h
    · have e1 := sum_one p k (List.Nodup.of_append_left hn') h h1 fun j hj hne => h0 j (by simp [Tree.leaves, hj]) hne
      have e2 := sum_zero (a := a) r fun j hj => h0 j (by simp [Tree.leaves, hj]) (fun e => hd h (e ▸ hj))
      show add (p.sum a) (r.sum a) = _
      rw [e1, e2]; exact one 1 0 (by norm_num)
    · have e1 := sum_one r k (List.Nodup.of_append_right hn') h h1 fun j hj hne => h0 j (by simp [Tree.leaves, hj]) hne
      have e2 := sum_zero (a := a) p fun j hj => h0 j (by simp [Tree.leaves, hj]) (fun e => hd (e ▸ hj) h)
      show add (p.sum a) (r.sum a) = _
      rw [e1, e2]; exact one 0 1 (by norm_num)

/-- Far centroids have null weights. -/
theorem far_weight {ex : ℚ → ℚ} (hE : IsExp ex) {α q : ℚ} (hα : 0 < α) (hq : 0 < q) {d : Flt} (hd : NonNeg d)
    (hfar : ∀ x, d = .fin x → 747 * q ≤ α * x) (hq' : 1 / 10 ^ 10 ≤ q) : exp ex (arg α q d) = .fin 0 := by
  rcases arg_cases hα hq hd with h | ⟨x, rfl, hx, dx, h, hz⟩
  · rw [h]; rfl
  · rw [h, exp_fin hE hz, hE.under]
    have hf := hfar x rfl
    have near := (abs_le.mp (dbl_near (-α * x))).2
    have hn : -α * x ≤ 0 := by nlinarith
    rw [abs_of_nonpos hn] at near
    have t1 : (1 : ℚ) / 2 ^ 1075 ≤ 1 / 4 * q := by
      have : (1 : ℚ) / 2 ^ 1075 ≤ 1 / 4 * (1 / 10 ^ 10) := by norm_num
      linarith
    have t2 : dbl (-α * x) ≤ -746 * q := by
      have e : -(-α * x) / 2 ^ 53 = α * x * (1 / 2 ^ 53) := by ring
      have : α * x * (1 / 2 ^ 53) ≤ α * x * (1 / 10000) :=
        mul_le_mul_of_nonneg_left (by norm_num) (by linarith)
      rw [e] at near
      linarith
    have d746 : Double (-746) := by
      have := Double.neg (double_nat (n := 746) (by norm_num))
      simpa using this
    exact dbl_le d746 (by rw [div_le_iff₀ hq]; exact t2)

/-- **C227.** When a vector is one of the centroids (its distance to it is 0) and all others are at square distance at least
`8e-7 / alpha` (possibly infinite), the soft weights are those of hard quantisation: 1 for this centroid and 0 for others. -/
theorem C227_centroid {ex : ℚ → ℚ} (hE : IsExp ex) {α : ℚ} (hα : 0 < α) (dists : List Flt)
    (hl : ∀ d ∈ dists, NonNeg d) (t : Tree) (ht : t.Adds dists.length) (k : ℕ) (hk : dists[k]? = some (.fin 0))
    (hfar : ∀ (j : ℕ) (x : ℚ), j ≠ k → dists[j]? = some (.fin x) → 8 / 10 ^ 7 ≤ α * x) :
    (softRow ex t (.fin α) dists)[k]? = some (.fin 1) ∧
    ∀ j : ℕ, j < dists.length → j ≠ k → (softRow ex t (.fin α) dists)[j]? = some (.fin 0) := by
  obtain ⟨m, em, mm, m0, dm, mx, hle⟩ := npMin_fin hl (List.mem_of_getElem? hk)
  have hm : m = 0 := le_antisymm mx m0
  subst hm
  obtain ⟨q, eq, q0, q1, q2, dq, hq, -⟩ := divisor m0 dm.1 (by positivity)
  have hqE : q = EPSILON := hq rfl
  subst hqE
  rw [← em] at eq
  obtain ⟨l1, l2⟩ := softRow_get ex t α dists eq
  have hkl : k < dists.length := (List.getElem?_eq_some_iff.mp hk).1
  have wk : exp ex (arg α EPSILON (.fin 0)) = .fin 1 := by
    have e1 : mul (neg (.fin α)) (.fin 0) = .fin 0 := by
      show Evaluation.D.round (-α * 0) = _
      rw [mul_zero, round_dbl dbl_zero']
    have e2 : div (.fin 0) (.fin EPSILON) = .fin 0 := by
      show (if EPSILON = 0 then _ else _) = _
      rw [if_neg q0.ne', zero_div, round_dbl dbl_zero']
    unfold arg
    rw [e1, e2, exp_fin hE le_rfl, hE.zero]
  have wj : ∀ j (hj : j < dists.length), j ≠ k → exp ex (arg α EPSILON dists[j]) = .fin 0 := by
    intro j hj hne
    refine far_weight hE hα q0 (hl _ (List.getElem_mem hj)) ?_ (le_trans (by norm_num) eps_bounds.1)
    intro x hx
    have := hfar j x hne (by rw [List.getElem?_eq_getElem hj, hx])
    have h2 := eps_bounds.2
    have : (747 : ℚ) * (1001 / 10 ^ 12) ≤ 8 / 10 ^ 7 := by norm_num
    linarith
  have hs : (t.sum fun k => (dists.map fun d => exp ex (arg α EPSILON d)).getD k (.fin 0)) = .fin 1 := by
    have hg : ∀ j (hj : j < dists.length), (dists.map fun d => exp ex (arg α EPSILON d)).getD j (.fin 0) =
        exp ex (arg α EPSILON dists[j]) := by
      intro j hj
      rw [List.getD_eq_getElem?_getD, List.getElem?_map, List.getElem?_eq_getElem hj]; rfl
    refine sum_one t k (ht.nodup_iff.mpr List.nodup_range) (ht.mem_iff.mpr (List.mem_range.mpr hkl)) ?_ ?_
    · rw [hg k hkl]
      rw [List.getElem?_eq_getElem hkl, Option.some.injEq] at hk
      rw [hk]; exact wk
    · intro j hj hne
      have hj' : j < dists.length := List.mem_range.mp (ht.mem_iff.mp hj)
      rw [hg j hj']
      exact wj j hj' hne
  rw [hs] at l2
  constructor
  · rw [l2 k _ hk, wk, div_fin one_pos (by norm_num) le_rfl, div_self one_ne_zero, dbl_of_double double_one]
  · intro j hj hne
    rw [l2 j _ (List.getElem?_eq_getElem hj), wj j hj hne, div_fin one_pos le_rfl (by norm_num), zero_div, dbl_zero]

/-- **C227.** For a parameter of at least 760 all weights of a vector whose square distance to the nearest centroid is at
least `1e-6` (and at most `2 ^ 1000`) are NaN. -/
theorem C227_nan {ex : ℚ → ℚ} (hE : IsExp ex) {α : ℚ} (hα : 760 ≤ α) (dists : List Flt) (hl : ∀ d ∈ dists, NonNeg d)
    (hfin : ∃ x, Flt.fin x ∈ dists ∧ x ≤ 2 ^ 1000) (hnear : ∀ x, Flt.fin x ∈ dists → 1 / 10 ^ 6 ≤ x) (t : Tree)
    (ht : t.Adds dists.length) : softRow ex t (.fin α) dists = List.replicate dists.length .nan := by
  obtain ⟨x, hx, hxb⟩ := hfin
  obtain ⟨m, em, mm, m0, dm, mx, hle⟩ := npMin_fin hl hx
  obtain ⟨q, eq, q0, q1, q2, dq, -, qb⟩ := divisor m0 dm.1 (mx.trans hxb)
  rw [← em] at eq
  have hα0 : 0 < α := by linarith
  have hm := hnear m mm
  have hqm : 747 * q ≤ 760 * m := by
    have h2 := eps_bounds.2
    have h3 : EPSILON + m ≤ m * (1002 / 1000) := by
      have : (1001 : ℚ) / 10 ^ 12 ≤ 1 / 10 ^ 6 * (2 / 1000) := by norm_num
      nlinarith
    have h4 : (EPSILON + m) * (1 + 1 / 2 ^ 50) ≤ m * (1002 / 1000) * (1001 / 1000) :=
      mul_le_mul h3 (by norm_num) (by positivity) (by positivity)
    nlinarith
  have hw : ∀ d ∈ dists, exp ex (arg α q d) = .fin 0 := by
    intro d hd
    refine far_weight hE hα0 q0 (hl d hd) ?_ (le_trans (le_trans (by norm_num) eps_bounds.1) q2)
    rintro y rfl
    have hy := hle y hd
    have : 760 * m ≤ α * y := mul_le_mul hα hy m0 hα0.le
    linarith
  obtain ⟨l1, l2⟩ := softRow_get ex t α dists eq
  have hs : (t.sum fun k => (dists.map fun d => exp ex (arg α q d)).getD k (.fin 0)) = .fin 0 := by
    apply sum_zero
    intro j hj
    have hj' : j < dists.length := List.mem_range.mp (ht.mem_iff.mp hj)
    rw [List.getD_eq_getElem?_getD, List.getElem?_map, List.getElem?_eq_getElem hj']
    exact hw _ (List.getElem_mem hj')
  rw [hs] at l2
  apply List.ext_getElem?
  intro k
  by_cases hk : k < dists.length
  · rw [l2 k _ (List.getElem?_eq_getElem hk), hw _ (List.getElem_mem hk), List.getElem?_replicate, if_pos hk]
    show some (if (0 : ℚ) = 0 then if (0 : ℚ) = 0 then Flt.nan else Flt.inf (decide ((0 : ℚ) < 0)) else Evaluation.D.round (0 / 0)) = _
    simp
  · rw [List.getElem?_eq_none (by rw [l1]; omega), List.getElem?_eq_none (by rw [List.length_replicate]; omega)]

/-- **C227.** When all square distances of a vector overflow, or one of them is NaN, its weights are NaN. -/
theorem C227_overflow (ex : ℚ → ℚ) {α : ℚ} (hα : 0 < α) (dists : List Flt) (t : Tree)
    (h : (∀ d ∈ dists, d = .inf false) ∨ Flt.nan ∈ dists) :
    softRow ex t (.fin α) dists = List.replicate dists.length .nan := by
  have key : ∀ d ∈ dists, exp ex (div (mul (neg (.fin α)) d) (add (.fin EPSILON) (npMin dists))) = .nan := by
    intro d hd
    obtain ⟨i, a, h1, h2, h3⟩ := argmin_spec dists (List.ne_nil_of_mem hd)
    have hmem : a ∈ dists := List.mem_of_getElem? h2
    have e : npMin dists = a := by
      unfold npMin
      rw [h1]
      simp only []
      rw [List.getD_eq_getElem?_getD, h2]; rfl
    rw [e]
    rcases h with h | h
    · rw [h a hmem, h d hd]
      have e1 : mul (neg (.fin α)) (.inf false) = .inf true := by
        show (if -α = 0 then _ else _) = _
        rw [if_neg (by linarith)]
        simp [hα]
      rw [e1]; rfl
    · rcases h3 with ⟨h3, _⟩ | ⟨_, h3, _⟩
      · rw [h3]
        cases mul (neg (.fin α)) d <;> rfl
      · have := h3 _ h
        cases a <;> simp [ge] at this
  unfold softRow
  simp only [List.map_map]
  rw [List.eq_replicate_iff]
  refine ⟨by simp, ?_⟩
  intro b hb
  obtain ⟨d, hd, rfl⟩ := List.mem_map.mp hb
  simp only [Function.comp, key d hd]
  rfl

/-! ### From vectors -/

/-- A vector of doubles. -/
def Finite (v : Row) : Prop := ∀ j, ∃ x, v j = .fin x ∧ Dbl x

theorem dist_nonneg {v c : Row} (hv : Finite v) (hc : Finite c) (t : Tree) : NonNeg (squareDistance t v c) := by
  apply sum_nonneg
  intro j _
  obtain ⟨x, ex, _⟩ := hv j
  obtain ⟨y, ey, _⟩ := hc j
  unfold square
  rw [ex, ey]
  have e : sub (.fin x) (.fin y) = Evaluation.D.round (x + -y) := rfl
  rw [e]
  rcases round_cases (x + -y) with ⟨h, _⟩ | h <;> rw [h]
  · exact round_nonneg (mul_self_nonneg _)
  · right
    show Flt.inf (_ != _) = _
    simp

theorem dist_self {v : Row} (hv : Finite v) (t : Tree) : squareDistance t v v = .fin 0 := by
  apply sum_zero
  intro j _
  obtain ⟨x, ex, _⟩ := hv j
  unfold square
  rw [ex]
  have e : sub (.fin x) (.fin x) = .fin 0 := by
    show Evaluation.D.round (x + -x) = _
    rw [add_neg_cancel, round_dbl dbl_zero']
  rw [e]
  show Evaluation.D.round (0 * 0) = _
  rw [mul_zero, round_dbl dbl_zero']

/-- **C227.** The whole function on vectors of doubles: different numbers of columns raise `AssertionError` and no centroids
`ValueError`; otherwise there is a row for each vector, of the weights of its distances, which are not negative; and the row
of a vector which is a centroid has weight 1 for it and 0 for all others if these are at square distance (as computed) at
least `8e-7 / alpha`. -/
theorem C227_associate {ex : ℚ → ℚ} (hE : IsExp ex) (t : ℕ → ℕ → Tree) (tk : ℕ → Tree) (dv dc : ℕ)
    (vectors centroids : List Row) (hv : ∀ v ∈ vectors, Finite v) (hc : ∀ c ∈ centroids, Finite c)
    (htk : ∀ i, (tk i).Adds centroids.length) {α : ℚ} (hα : 0 < α) :
    (dv ≠ dc → softAssociate ex t tk dv dc vectors centroids (.fin α) = .error .assertionError) ∧
    (dv = dc → centroids = [] → softAssociate ex t tk dv dc vectors centroids (.fin α) = .error .valueError) ∧
    (dv = dc → centroids ≠ [] → ∃ r, softAssociate ex t tk dv dc vectors centroids (.fin α) = .ok r ∧
      r.length = vectors.length ∧
      ∀ i v, vectors[i]? = some v → ∃ dists, r[i]? = some (softRow ex (tk i) (.fin α) dists) ∧
        dists.length = centroids.length ∧ (∀ d ∈ dists, NonNeg d) ∧
        (∀ k c, centroids[k]? = some c → dists[k]? = some (squareDistance (t i k) v c)) ∧
        ∀ k, centroids[k]? = some v →
          (∀ j c x, j ≠ k → centroids[j]? = some c → squareDistance (t i j) v c = .fin x → 8 / 10 ^ 7 ≤ α * x) →
          ∃ row, r[i]? = some row ∧ row.length = centroids.length ∧
            ∀ j, j < centroids.length → row[j]? = some (.fin (if j = k then 1 else 0))) := by
  unfold softAssociate
  refine ⟨fun h => if_pos h, fun h h' => by rw [if_neg (by simpa using h), if_pos h'], fun h h' => ?_⟩
  rw [if_neg (by simpa using h), if_neg h']
  refine ⟨_, rfl, by simp, ?_⟩
  intro i v hi
  have hvf := hv v (List.mem_of_getElem? hi)
  set dists := centroids.mapIdx fun k c => squareDistance (t i k) v c with hd
  have hlen : dists.length = centroids.length := by simp [hd]
  have hget : ∀ k c, centroids[k]? = some c → dists[k]? = some (squareDistance (t i k) v c) := by
    intro k c hk
    rw [hd, List.getElem?_mapIdx, hk]; rfl
  have hnn : ∀ d ∈ dists, NonNeg d := by
    intro d hm
    obtain ⟨k, hk, rfl⟩ := List.getElem_of_mem hm
    have hk' : k < centroids.length := by rw [← hlen]; exact hk
    have := hget k _ (List.getElem?_eq_getElem hk')
    rw [List.getElem?_eq_getElem hk, Option.some.injEq] at this
    rw [this]
    exact dist_nonneg hvf (hc _ (List.getElem_mem hk')) _
  have hr : (vectors.mapIdx fun i v => softRow ex (tk i) (.fin α)
      (centroids.mapIdx fun k c => squareDistance (t i k) v c))[i]? = some (softRow ex (tk i) (.fin α) dists) := by
    rw [List.getElem?_mapIdx, hi]; rfl
  refine ⟨dists, hr, hlen, hnn, hget, ?_⟩
  intro k hk hfar
  refine ⟨_, hr, ?_, ?_⟩
  · unfold softRow; simp [hlen]
  · have h0 : dists[k]? = some (.fin 0) := by rw [hget k v hk, dist_self hvf]
    obtain ⟨c1, c2⟩ := C227_centroid hE hα dists hnn (tk i) (by rw [hlen]; exact htk i) k h0 (by
      intro j x hne hj
      have hj' : j < centroids.length := by rw [← hlen]; exact (List.getElem?_eq_some_iff.mp hj).1
      have := hget j _ (List.getElem?_eq_getElem hj')
      rw [hj, Option.some.injEq] at this
      exact hfar j _ x hne (List.getElem?_eq_getElem hj') this.symm)
    intro j hj
    by_cases e : j = k
    · subst e; rw [if_pos rfl]; exact c1
    · rw [if_neg e]; exact c2 j (by rw [hlen]; exact hj) e

/-- **C227.** Square distances between different vectors may be 0. -/
theorem C227_collapse : squareDistance (.leaf 0) (fun _ => .fin (1 / 2 ^ 540)) (fun _ => .fin 0) = .fin 0 := by
  decide +kernel

/-- The contract of the exponential can be met. -/
theorem isExp_example : IsExp fun x => if x ≤ -746 then 0 else 1 where
  dbl x := by split_ifs; exacts [double_zero, double_one]
  nonneg x := by split_ifs <;> norm_num
  le_one x _ := by split_ifs <;> norm_num
  zero := by norm_num
  under x h := if_pos h
  normal x h _ := by rw [if_neg (by linarith)]; norm_num

example : softRow (fun x => if x ≤ -746 then 0 else 1) (.plus (.leaf 0) (.leaf 1)) (.fin (1 / 2)) [.fin 0, .fin 1] =
    [.fin 1, .fin 0] ∧
    softRow (fun x => if x ≤ -746 then 0 else 1) (.plus (.leaf 0) (.leaf 1)) (.fin 1000) [.fin 1, .fin 2] =
      [.nan, .nan] ∧
    softRow (fun x => if x ≤ -746 then 0 else 1) (.plus (.leaf 0) (.leaf 1)) (.fin (1 / 2)) [.fin 1, .inf false] =
      [.fin 1, .fin 0] := by
  decide +kernel

end Verif.Features.D
