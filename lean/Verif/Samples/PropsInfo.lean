import Verif.Samples.PropsWords
import Verif.Pairing.Props
import Verif.Munkres.Props
import Verif.Transf.PropsArrays
import Mathlib.Algebra.BigOperators.Field

/-!
# Properties of the information between internal coefficients and labels
-/

namespace Verif.Samples

/-! ### Specification -/

/-- The value `a` is in the bin `b` among `bins` bins of the same width from `lo` to `hi`; only the
last one contains its right end. -/
def InBin (lo hi : ℚ) (bins b : ℕ) (a : ℚ) : Prop :=
  lo + b * ((hi - lo) / bins) ≤ a ∧
    (a < lo + (b + 1) * ((hi - lo) / bins) ∨ (b + 1 = bins ∧ a = hi))

instance (lo hi : ℚ) (bins b : ℕ) : DecidablePred (InBin lo hi bins b) := fun _ => by
  unfold InBin; infer_instance

/-- The joint law, over the samples, of the label (rows: the label `l`, another one) and of the bin
of the value. -/
noncomputable def coefLaw (samples : List (ℚ × ℕ)) (lo hi : ℚ) (l : ℕ) : Fin 2 → Fin 10 → ℝ :=
  fun a b => ((proportion samples fun r => (r.2 = l ↔ a = 0) ∧ InBin lo hi 10 b.1 r.1 : ℚ) : ℝ)

/-! ### Lemmas -/

theorem valueRange_spec (vals : List ℚ) (hne : vals ≠ []) :
    ∃ lo hi, valueRange vals = .ok (lo, hi) ∧ lo ∈ vals ∧ hi ∈ vals ∧
      ∀ a ∈ vals, lo ≤ a ∧ a ≤ hi := by
  obtain ⟨x, l, rfl⟩ := List.exists_cons_of_ne_nil hne
  refine ⟨_, _, rfl, ?_, ?_, ?_⟩
  · induction l generalizing x with
    | nil => simp
    | cons y l ih =>
      rw [List.foldl_cons]
      have := ih (min x y) (by simp)
      rcases List.mem_cons.1 this with h | h
      · rw [h]
        rcases min_choice x y with h' | h' <;> rw [h'] <;> simp
      · exact List.mem_cons_of_mem _ (List.mem_cons_of_mem _ h)
  · induction l generalizing x with
    | nil => simp
    | cons y l ih =>
      rw [List.foldl_cons]
      have := ih (max x y) (by simp)
      rcases List.mem_cons.1 this with h | h
      · rw [h]
        rcases max_choice x y with h' | h' <;> rw [h'] <;> simp
      · exact List.mem_cons_of_mem _ (List.mem_cons_of_mem _ h)
  · have hmin : ∀ (l : List ℚ) (x : ℚ), l.foldl min x ≤ x ∧ ∀ a ∈ l, l.foldl min x ≤ a := by
      intro l
      induction l with
      | nil => intro x; simp
      | cons y l ih =>
        intro x
        rw [List.foldl_cons]
        obtain ⟨h1, h2⟩ := ih (min x y)
        refine ⟨h1.trans (min_le_left _ _), ?_⟩
        intro a ha
        rcases List.mem_cons.1 ha with rfl | ha
        · exact h1.trans (min_le_right _ _)
        · exact h2 a ha
    have hmax : ∀ (l : List ℚ) (x : ℚ), x ≤ l.foldl max x ∧ ∀ a ∈ l, a ≤ l.foldl max x := by
      intro l
      induction l with
      | nil => intro x; simp
      | cons y l ih =>
        intro x
        rw [List.foldl_cons]
        obtain ⟨h1, h2⟩ := ih (max x y)
        refine ⟨(le_max_left _ _).trans h1, ?_⟩
        intro a ha
        rcases List.mem_cons.1 ha with rfl | ha
        · exact (le_max_right _ _).trans h1
        · exact h2 a ha
    intro a ha
    rcases List.mem_cons.1 ha with rfl | ha
    · exact ⟨(hmin l a).1, (hmax l a).1⟩
    · exact ⟨(hmin l x).2 a ha, (hmax l x).2 a ha⟩

theorem binOf_lt (lo hi : ℚ) (bins : ℕ) (hb : 0 < bins) (a : ℚ) : binOf lo hi bins a < bins := by
  unfold binOf; omega

theorem binOf_spec (lo hi : ℚ) (h : lo < hi) (bins : ℕ) (hb : 0 < bins) (a : ℚ) (h1 : lo ≤ a)
    (h2 : a ≤ hi) (b : ℕ) (hbb : b < bins) : binOf lo hi bins a = b ↔ InBin lo hi bins b a := by
  have hd : 0 < hi - lo := by linarith
  have hB : (0 : ℚ) < bins := by exact_mod_cast hb
  set t := (a - lo) / (hi - lo) * bins with ht
  have ha : a = lo + t * ((hi - lo) / bins) := by
    rw [ht]; field_simp; ring
  have ht0 : 0 ≤ t := mul_nonneg (div_nonneg (by linarith) hd.le) hB.le
  have htB : t ≤ bins := by
    have : (a - lo) / (hi - lo) ≤ 1 := by rw [div_le_one hd]; linarith
    nlinarith
  have hw : 0 < (hi - lo) / bins := div_pos hd hB
  have hfl : (⌊t⌋.toNat : ℤ) = ⌊t⌋ := Int.toNat_of_nonneg (Int.floor_nonneg.2 ht0)
  have hle : ((⌊t⌋.toNat : ℕ) : ℚ) ≤ t := by
    have := Int.floor_le t
    rw [← hfl] at this
    exact_mod_cast this
  have hlt : t < ((⌊t⌋.toNat : ℕ) : ℚ) + 1 := by
    have := Int.lt_floor_add_one t
    rw [← hfl] at this
    exact_mod_cast this
  have e1 : lo + b * ((hi - lo) / bins) ≤ a ↔ (b : ℚ) ≤ t := by
    rw [ha, add_le_add_iff_left]; exact mul_le_mul_iff_left₀ hw
  have e2 : a < lo + (b + 1) * ((hi - lo) / bins) ↔ t < b + 1 := by
    rw [ha, add_lt_add_iff_left]; exact mul_lt_mul_iff_left₀ hw
  have e3 : a = hi ↔ t = bins := by
    have hhi : hi = lo + bins * ((hi - lo) / bins) := by field_simp; ring
    constructor
    · intro h
      have : lo + t * ((hi - lo) / bins) = lo + bins * ((hi - lo) / bins) := by
        rw [← ha, ← hhi]; exact h
      exact mul_right_cancel₀ hw.ne' (add_left_cancel this)
    · intro h; rw [ha, h]; exact hhi.symm
  unfold InBin binOf
  rw [← ht, e1, e2, e3]
  constructor
  · intro hmin
    by_cases hc : ⌊t⌋.toNat ≤ bins - 1
    · rw [min_eq_left hc] at hmin
      rw [hmin] at hle hlt
      exact ⟨hle, Or.inl hlt⟩
    · rw [min_eq_right (by omega)] at hmin
      have : bins ≤ ⌊t⌋.toNat := by omega
      have : (bins : ℚ) ≤ ((⌊t⌋.toNat : ℕ) : ℚ) := by exact_mod_cast this
      have htb : t = bins := le_antisymm htB (this.trans hle)
      refine ⟨?_, Or.inr ⟨by omega, htb⟩⟩
      rw [htb]; exact_mod_cast hbb.le
  · rintro ⟨hb1, hb2 | ⟨hb2, hb3⟩⟩
    · have hfb : ⌊t⌋ = (b : ℤ) := Int.floor_eq_iff.2 ⟨by exact_mod_cast hb1, by exact_mod_cast hb2⟩
      rw [hfb]; simp; omega
    · have hfb : ⌊t⌋ = (bins : ℤ) := by rw [hb3]; exact Int.floor_natCast _
      rw [hfb]; simp; omega

theorem sum_countP {α : Type} (f : α → ℕ) (l : List α) (Q : ℕ → α → Prop)
    [∀ k, DecidablePred (Q k)] (n : ℕ) :
    ((List.range n).map fun k => l.countP fun r => decide (f r = k ∧ Q k r)).sum =
      l.countP fun r => decide (f r < n ∧ Q (f r) r) := by
  induction n with
  | zero => simp
  | succ n ih =>
    rw [List.range_succ, List.map_append, List.sum_append, ih]
    simp only [List.map_cons, List.map_nil, List.sum_cons, List.sum_nil, Nat.add_zero]
    clear ih
    induction l with
    | nil => simp
    | cons a l ih =>
      simp only [List.countP_cons]
      rw [← ih]
      by_cases hq : Q (f a) a
      · rcases lt_trichotomy (f a) n with h | h | h
        · simp [h, hq, h.ne, show f a < n + 1 by omega]; omega
        · subst h; simp [hq]; omega
        · simp [show ¬ f a < n by omega, show ¬ f a = n by omega, show ¬ f a < n + 1 by omega]
      · by_cases h : f a = n
        · subst h; simp [hq]
        · simp [hq, h]

theorem zip_positions (vals : List ℚ) (labels : List ℤ) (h : vals.length = labels.length) :
    vals.zip labels =
      ((List.range labels.length).zip labels).map fun p => (vals.getD p.1 0, p.2) := by
  apply List.ext_getElem
  · simp [h]
  · intro i h1 h2
    simp only [List.length_zip] at h1
    simp [List.getElem_zip]
    rw [List.getElem?_eq_getElem (by omega)]
    rfl

/-- The histograms by label. -/
theorem internalHistograms_eq (vals : List ℚ) (labels : List ℕ) (n : ℕ)
    (hlen : vals.length = labels.length) (hne : vals ≠ []) (hlab : ∀ l ∈ labels, l < n)
    (lo hi : ℚ) (hr : valueRange vals = .ok (lo, hi)) (hall : ∀ a ∈ vals, lo ≤ a ∧ a ≤ hi)
    (first last : ℚ) (hf : first = if lo = hi then lo - 1 / 2 else lo)
    (hl : last = if lo = hi then hi + 1 / 2 else hi)
    (byLabel : List (List ℕ))
    (hby : Pairing.organizeEnum (labels.map fun (l : ℕ) => (l : ℤ)) (some n) = .ok byLabel) :
    internalHistograms vals byLabel = .ok ((List.range n).map fun l => (List.range 10).map fun b =>
      (vals.zip labels).countP fun r => decide (r.2 = l ∧ binOf first last 10 r.1 = b)) := by
  have hlohi : lo ≤ hi := by
    obtain ⟨x, l, rfl⟩ := List.exists_cons_of_ne_nil hne
    exact (hall x (List.mem_cons_self ..)).1.trans (hall x (List.mem_cons_self ..)).2
  have hin : ∀ a ∈ vals, first ≤ a ∧ a ≤ last := by
    intro a ha
    obtain ⟨h1, h2⟩ := hall a ha
    rw [hf, hl]
    split <;> constructor <;> linarith
  rw [Pairing.organizeEnum_eq] at hby
  have horg := (Pairing.C20_organize_by_values (labels.map fun (l : ℕ) => (l : ℤ)) (some n)
    (List.range (labels.map fun (l : ℕ) => (l : ℤ)).length) n (Or.inl rfl)).2 (by
      intro p hp
      obtain ⟨l, hl, hp2⟩ := List.mem_map.1 (List.of_mem_zip hp).2
      have := hlab l hl
      omega)
  rw [hby] at horg
  have hby' := Except.ok.inj horg
  subst hby'
  unfold internalHistograms
  simp only [bind, Except.bind, hr]
  rw [List.mapM_map]
  apply mapM_ok
  intro l hl'
  have hln : l < n := List.mem_range.1 hl'
  simp only [Function.comp]
  rw [mapM_ok _ (fun (i : ℕ) => vals.getD i 0)]
  · simp only []
    unfold npHistogram
    rw [if_neg (not_lt.2 hlohi)]
    simp only [← hf, ← hl]
    congr 1
    apply List.map_congr_left
    intro b _
    have hz := zip_positions vals (labels.map fun (l : ℕ) => (l : ℤ)) (by simpa using hlen)
    have hvals : ((((List.range (labels.map fun (l : ℕ) => (l : ℤ)).length).zip
          (labels.map fun (l : ℕ) => (l : ℤ))).filter fun (p : ℕ × ℤ) =>
            decide (p.2 = (l : ℤ) ∨ p.2 = (l : ℤ) - n)).map Prod.fst).map (fun i => vals.getD i 0) =
        ((vals.zip labels).filter fun r => decide (r.2 = l)).map Prod.fst := by
      have h1 : (vals.zip labels).filter (fun r => decide (r.2 = l)) =
          (vals.zip labels).filter
            ((fun r : ℚ × ℤ => decide (r.2 = (l : ℤ) ∨ r.2 = (l : ℤ) - n)) ∘
              fun r => (r.1, ((r.2 : ℕ) : ℤ))) := by
        apply List.filter_congr
        intro r hrm
        have := hlab r.2 (List.of_mem_zip hrm).2
        simp only [Function.comp, decide_eq_decide]
        omega
      rw [h1]
      have h2 : vals.zip (labels.map fun (l : ℕ) => (l : ℤ)) =
          (vals.zip labels).map fun r => (r.1, ((r.2 : ℕ) : ℤ)) := by
        rw [List.zip_map_right]; rfl
      have h3 : (((vals.zip labels).filter
            ((fun r : ℚ × ℤ => decide (r.2 = (l : ℤ) ∨ r.2 = (l : ℤ) - n)) ∘
              fun r => (r.1, ((r.2 : ℕ) : ℤ)))).map fun r => (r.1, ((r.2 : ℕ) : ℤ))) =
          (vals.zip (labels.map fun (l : ℕ) => (l : ℤ))).filter
            (fun r : ℚ × ℤ => decide (r.2 = (l : ℤ) ∨ r.2 = (l : ℤ) - n)) := by
        rw [h2, List.filter_map]
      have h4 : (((vals.zip labels).filter
            ((fun r : ℚ × ℤ => decide (r.2 = (l : ℤ) ∨ r.2 = (l : ℤ) - n)) ∘
              fun r => (r.1, ((r.2 : ℕ) : ℤ)))).map Prod.fst) =
          ((vals.zip (labels.map fun (l : ℕ) => (l : ℤ))).filter
            (fun r : ℚ × ℤ => decide (r.2 = (l : ℤ) ∨ r.2 = (l : ℤ) - n))).map Prod.fst := by
        rw [← h3, List.map_map]; rfl
      rw [h4, hz, List.filter_map, List.map_map, List.map_map]
      rfl
    rw [hvals, List.filter_eq_self.2, List.countP_map, List.countP_filter]
    · congr 1
      funext r
      simp only [Function.comp, Bool.decide_and, Bool.and_comm]
    · intro a ha
      obtain ⟨r, hr', rfl⟩ := List.mem_map.1 ha
      have := hin r.1 (List.of_mem_zip (List.mem_filter.1 hr').1).1
      simpa using this
  · intro i hi'
    obtain ⟨p, hp, rfl⟩ := List.mem_map.1 hi'
    have := (List.of_mem_zip (List.mem_filter.1 hp).1).1
    rw [List.mem_range, List.length_map, ← hlen] at this
    rw [pyGet_nat _ _ this, List.getD_eq_getElem?_getD, List.getElem?_eq_getElem this]
    rfl

theorem sumAllBut_eq (n i : ℕ) (c : ℕ → ℕ → ℕ) :
    sumAllBut ((List.range n).map fun l => (List.range 10).map fun b => c l b) i =
      (List.range 10).map fun b => ((List.range n).map fun k => if k = i then 0 else c k b).sum := by
  unfold sumAllBut
  apply List.map_congr_left
  intro b hb
  congr 1
  apply List.ext_getElem
  · simp
  · intro k h1 h2
    have hb' : b < 10 := List.mem_range.1 hb
    simp [List.getElem_mapIdx, List.getD_eq_getElem?_getD, hb']

theorem matOf_pair (r0 r1 : List ℕ) (n : ℕ) (a : Fin 2) (b : Fin n) :
    matOf (normalizedPair r0 r1) 2 n a b =
      ((if a = 0 then r0.getD b.1 0 else r1.getD b.1 0 : ℕ) : ℝ) / ((r0.sum + r1.sum : ℕ) : ℝ) := by
  have key : ∀ r : List ℕ, ∀ t : ℕ, ((((r.map fun x : ℕ => (x : ℚ) / (t : ℚ)).getD b.1 0 : ℚ)) : ℝ) =
      ((r.getD b.1 0 : ℕ) : ℝ) / (t : ℝ) := by
    intro r t
    rw [List.getD_eq_getElem?_getD, List.getD_eq_getElem?_getD, List.getElem?_map]
    rcases r[b.1]? with _ | x
    · simp
    · simp
  unfold matOf normalizedPair
  fin_cases a
  · simp only [Fin.zero_eta, List.getD_cons_zero, if_true]
    exact key r0 _
  · simp only [Fin.mk_one, List.getD_cons_succ, List.getD_cons_zero, one_ne_zero, if_false]
    exact key r1 _

/-- The matrix given to `mutual_information` is the joint law. -/
theorem matOf_eq_law (vals : List ℚ) (labels : List ℕ) (n : ℕ)
    (hlab : ∀ l ∈ labels, l < n) (first last : ℚ) (hfl : first < last)
    (hin : ∀ a ∈ vals, first ≤ a ∧ a ≤ last) (l : ℕ) (hl : l < n) :
    matOf (normalizedPair
        (((List.range n).map fun l => (List.range 10).map fun b =>
          (vals.zip labels).countP fun r => decide (r.2 = l ∧ binOf first last 10 r.1 = b)).getD l [])
        (sumAllBut ((List.range n).map fun l => (List.range 10).map fun b =>
          (vals.zip labels).countP fun r => decide (r.2 = l ∧ binOf first last 10 r.1 = b)) l)) 2 10 =
      coefLaw (vals.zip labels) first last l := by
  rw [sumAllBut_eq n l fun l b =>
    (vals.zip labels).countP fun r => decide (r.2 = l ∧ binOf first last 10 r.1 = b)]
  have hother : ∀ b, ((List.range n).map fun k => if k = l then 0 else
      (vals.zip labels).countP fun r => decide (r.2 = k ∧ binOf first last 10 r.1 = b)).sum =
      (vals.zip labels).countP fun r => decide (r.2 ≠ l ∧ binOf first last 10 r.1 = b) := by
    intro b
    have h := sum_countP (fun r : ℚ × ℕ => r.2) (vals.zip labels)
      (fun k r => k ≠ l ∧ binOf first last 10 r.1 = b) n
    have h2 : (fun k => (vals.zip labels).countP fun r =>
        decide (r.2 = k ∧ k ≠ l ∧ binOf first last 10 r.1 = b)) = fun k => if k = l then 0 else
        (vals.zip labels).countP fun r => decide (r.2 = k ∧ binOf first last 10 r.1 = b) := by
      funext k
      by_cases hk : k = l
      · simp [hk]
      · simp [hk]
    rw [h2] at h
    rw [h]
    apply List.countP_congr
    intro r hr
    have := hlab r.2 (List.of_mem_zip hr).2
    simp [this]
  simp only [hother]
  have hrow : ((List.range n).map fun l => (List.range 10).map fun b =>
      (vals.zip labels).countP fun r => decide (r.2 = l ∧ binOf first last 10 r.1 = b)).getD l [] =
      (List.range 10).map fun b =>
        (vals.zip labels).countP fun r => decide (r.2 = l ∧ binOf first last 10 r.1 = b) := by
    simp [List.getD_eq_getElem?_getD, hl]
  rw [hrow]
  have hs0 : ((List.range 10).map fun b => (vals.zip labels).countP fun r =>
      decide (r.2 = l ∧ binOf first last 10 r.1 = b)).sum =
      (vals.zip labels).countP fun r => decide (r.2 = l) := by
    have h := sum_countP (fun r : ℚ × ℕ => binOf first last 10 r.1) (vals.zip labels)
      (fun _ r => r.2 = l) 10
    simp only [and_comm (b := _ = l)] at h
    rw [h]
    apply List.countP_congr
    intro r _
    simp [binOf_lt]
  have hs1 : ((List.range 10).map fun b => (vals.zip labels).countP fun r =>
      decide (r.2 ≠ l ∧ binOf first last 10 r.1 = b)).sum =
      (vals.zip labels).countP fun r => decide (r.2 ≠ l) := by
    have h := sum_countP (fun r : ℚ × ℕ => binOf first last 10 r.1) (vals.zip labels)
      (fun _ r => r.2 ≠ l) 10
    simp only [and_comm (b := _ ≠ l)] at h
    rw [h]
    apply List.countP_congr
    intro r _
    simp [binOf_lt]
  have htot : ((vals.zip labels).countP fun r => decide (r.2 = l)) +
      ((vals.zip labels).countP fun r => decide (r.2 ≠ l)) = (vals.zip labels).length := by
    rw [List.length_eq_countP_add_countP (p := fun r : ℚ × ℕ => decide (r.2 = l))]
    congr 1
    apply List.countP_congr
    intro r _
    simp
  funext a b
  rw [matOf_pair, hs0, hs1, htot]
  unfold coefLaw proportion
  push_cast
  congr 2
  have hbin : ∀ r ∈ vals.zip labels, (binOf first last 10 r.1 = b.1 ↔ InBin first last 10 b.1 r.1) :=
    fun r hr => binOf_spec first last hfl 10 (by norm_num) r.1 (hin r.1 (List.of_mem_zip hr).1).1
      (hin r.1 (List.of_mem_zip hr).1).2 b.1 b.2
  fin_cases a
  · simp only [Fin.zero_eta, if_true, List.getD_eq_getElem?_getD, List.getElem?_map]
    rw [List.getElem?_eq_getElem (by simp)]
    simp only [List.getElem_range, Option.map_some, Option.getD_some]
    congr 1
    apply List.countP_congr
    intro r hr
    simp [hbin r hr]
  · simp only [Fin.mk_one, one_ne_zero, if_false, List.getD_eq_getElem?_getD, List.getElem?_map]
    rw [List.getElem?_eq_getElem (by simp)]
    simp only [List.getElem_range, Option.map_some, Option.getD_some]
    congr 1
    apply List.countP_congr
    intro r hr
    simp [hbin r hr]

theorem coefLaw_row (samples : List (ℚ × ℕ)) (first last : ℚ) (hfl : first < last)
    (hin : ∀ r ∈ samples, first ≤ r.1 ∧ r.1 ≤ last) (l : ℕ) (a : Fin 2) :
    ∑ b : Fin 10, coefLaw samples first last l a b =
      ((proportion samples fun r => (r.2 = l ↔ a = 0) : ℚ) : ℝ) := by
  have h := sum_countP (fun r : ℚ × ℕ => binOf first last 10 r.1) samples
    (fun _ r => (r.2 = l ↔ a = 0)) 10
  unfold coefLaw proportion
  push_cast
  rw [← Finset.sum_div]
  congr 1
  have e : (samples.countP fun r => decide (r.2 = l ↔ a = 0)) =
      samples.countP fun r => decide (binOf first last 10 r.1 < 10 ∧ (r.2 = l ↔ a = 0)) := by
    apply List.countP_congr
    intro r _
    simp [binOf_lt]
  rw [e, ← h]
  have e2 : ((List.range 10).map fun k => samples.countP fun r =>
      decide (binOf first last 10 r.1 = k ∧ (r.2 = l ↔ a = 0))).sum =
      ∑ k ∈ Finset.range 10, samples.countP fun r =>
        decide (binOf first last 10 r.1 = k ∧ (r.2 = l ↔ a = 0)) := rfl
  rw [e2, Finset.sum_range]
  push_cast
  apply Finset.sum_congr rfl
  intro b _
  congr 1
  apply List.countP_congr
  intro r hr
  have := binOf_spec first last hfl 10 (by norm_num) r.1 (hin r hr).1 (hin r hr).2 b.1 b.2
  simp [← this, and_comm]

theorem coefLaw_isJoint (samples : List (ℚ × ℕ)) (hne : samples ≠ []) (first last : ℚ)
    (hfl : first < last) (hin : ∀ r ∈ samples, first ≤ r.1 ∧ r.1 ≤ last) (l : ℕ) :
    Metrics.IsJoint (coefLaw samples first last l) := by
  constructor
  · intro a b
    unfold coefLaw
    exact_mod_cast proportion_nonneg _ _
  · rw [Fin.sum_univ_two, coefLaw_row samples first last hfl hin, coefLaw_row samples first last hfl hin]
    have h1 := proportion_split samples (fun _ => True) fun r => r.2 = l
    rw [proportion_true samples _ hne fun _ _ => trivial] at h1
    simp only [true_and] at h1
    simp only [iff_true, one_ne_zero, iff_false]
    rw [← Rat.cast_add, ← h1]
    norm_num

/-! ### C133 -/

/-- The ends of the bins: the least and the greatest value, or a half around the only value. -/
def binEnds (lo hi : ℚ) : ℚ × ℚ := if lo = hi then (lo - 1 / 2, hi + 1 / 2) else (lo, hi)

/-- **C133.** The information between a coefficient and the labels: for each label, the mutual
information of the joint law, over the samples, of the presence of the label and of the bin of the
value among 10 bins of the same width between the least and the greatest value.  It is between 0 and
the logarithm of 2, and 0 exactly when the label and the bin are independent. -/
theorem C133_information (vals : List ℚ) (labels : List ℕ) (n : ℕ)
    (hlen : vals.length = labels.length) (hne : vals ≠ []) (hlab : ∀ l ∈ labels, l < n) :
    ∃ byLabel lo hi out,
      Pairing.organizeEnum (labels.map fun (l : ℕ) => (l : ℤ)) (some n) = .ok byLabel ∧
      lo ∈ vals ∧ hi ∈ vals ∧ (∀ a ∈ vals, lo ≤ a ∧ a ≤ hi) ∧
      informationByLabel vals byLabel = .ok out ∧ out.length = n ∧
      ∀ l, l < n → ∃ I, out[l]? = some I ∧
        Metrics.IsJoint (coefLaw (vals.zip labels) (binEnds lo hi).1 (binEnds lo hi).2 l) ∧
        Metrics.mutualInformation (coefLaw (vals.zip labels) (binEnds lo hi).1 (binEnds lo hi).2 l) =
          .ok I ∧ 0 ≤ I ∧ I ≤ Real.log 2 ∧
        (I = 0 ↔ ∀ b : Fin 10,
          (proportion (vals.zip labels) fun r => r.2 = l ∧
            InBin (binEnds lo hi).1 (binEnds lo hi).2 10 b.1 r.1) =
          (proportion (vals.zip labels) fun r => r.2 = l) *
            proportion (vals.zip labels) fun r =>
              InBin (binEnds lo hi).1 (binEnds lo hi).2 10 b.1 r.1) := by
  obtain ⟨lo, hi, hr, hlo, hhi, hall⟩ := valueRange_spec vals hne
  obtain ⟨byLabel, hby, _⟩ := (Pairing.C20_organize_positions (labels.map fun (l : ℕ) => (l : ℤ))
    (some n) n (Or.inl rfl)).2 (by
      intro x hx
      obtain ⟨l, hl, rfl⟩ := List.mem_map.1 hx
      have := hlab l hl
      omega)
  have hlohi : lo ≤ hi := (hall lo hlo).2
  have hf : (binEnds lo hi).1 = if lo = hi then lo - 1 / 2 else lo := by
    unfold binEnds; split <;> rfl
  have hl : (binEnds lo hi).2 = if lo = hi then hi + 1 / 2 else hi := by
    unfold binEnds; split <;> rfl
  have hfl : (binEnds lo hi).1 < (binEnds lo hi).2 := by
    rw [hf, hl]
    split
    · linarith
    · rename_i h
      exact lt_of_le_of_ne hlohi h
  have hin : ∀ a ∈ vals, (binEnds lo hi).1 ≤ a ∧ a ≤ (binEnds lo hi).2 := by
    intro a ha
    obtain ⟨h1, h2⟩ := hall a ha
    rw [hf, hl]
    split <;> constructor <;> linarith
  have hhist := internalHistograms_eq vals labels n hlen hne hlab lo hi hr hall _ _ hf hl byLabel hby
  have hzne : vals.zip labels ≠ [] := by
    intro hc
    have : (vals.zip labels).length = vals.length := by rw [List.length_zip]; omega
    rw [hc] at this
    exact hne (List.length_eq_zero_iff.1 this.symm)
  have hJ : ∀ l, Metrics.IsJoint (coefLaw (vals.zip labels) (binEnds lo hi).1 (binEnds lo hi).2 l) :=
    fun l => coefLaw_isJoint _ hzne _ _ hfl (fun r hr => hin r.1 (List.of_mem_zip hr).1) l
  choose g hg using fun l => Metrics.C37_nonneg _ (hJ l)
  refine ⟨byLabel, lo, hi, (List.range n).map g, hby, hlo, hhi, hall, ?_, by simp, ?_⟩
  · unfold informationByLabel
    simp only [bind, Except.bind, hhist]
    rw [List.length_map, List.length_range]
    apply mapM_ok
    intro l hl'
    rw [matOf_eq_law vals labels n hlab _ _ hfl hin l (List.mem_range.1 hl')]
    exact (hg l).1
  · intro l hln
    refine ⟨g l, by simp [hln], hJ l, (hg l).1, (hg l).2.1, ?_, ?_⟩
    · have := info_le_log _ (hJ l) _ (hg l).1
      simpa using this
    · rw [(hg l).2.2]
      have hrow : ∀ a : Fin 2, ∑ b : Fin 10, coefLaw (vals.zip labels) (binEnds lo hi).1
          (binEnds lo hi).2 l a b = ((proportion (vals.zip labels) fun r => (r.2 = l ↔ a = 0) : ℚ) : ℝ) :=
        fun a => coefLaw_row _ _ _ hfl (fun r hr => hin r.1 (List.of_mem_zip hr).1) l a
      have hcol : ∀ b : Fin 10, coefLaw (vals.zip labels) (binEnds lo hi).1 (binEnds lo hi).2 l 0 b +
          coefLaw (vals.zip labels) (binEnds lo hi).1 (binEnds lo hi).2 l 1 b =
          ((proportion (vals.zip labels) fun r =>
            InBin (binEnds lo hi).1 (binEnds lo hi).2 10 b.1 r.1 : ℚ) : ℝ) := by
        intro b
        unfold coefLaw
        rw [proportion_split (vals.zip labels) (fun r =>
          InBin (binEnds lo hi).1 (binEnds lo hi).2 10 b.1 r.1) fun r => r.2 = l]
        push_cast
        congr 2
        · apply proportion_congr; intro r _; simp [and_comm]
        · apply proportion_congr; intro r _; simp [and_comm]
      have h0 : ∀ b : Fin 10, coefLaw (vals.zip labels) (binEnds lo hi).1 (binEnds lo hi).2 l 0 b =
          ((proportion (vals.zip labels) fun r => r.2 = l ∧
            InBin (binEnds lo hi).1 (binEnds lo hi).2 10 b.1 r.1 : ℚ) : ℝ) := by
        intro b
        unfold coefLaw
        congr 1
        apply proportion_congr; intro r _; simp
      have hsum1 : ((proportion (vals.zip labels) fun r => (r.2 = l ↔ (1 : Fin 2) = 0) : ℚ) : ℝ) =
          1 - ((proportion (vals.zip labels) fun r => r.2 = l : ℚ) : ℝ) := by
        have h1 := proportion_split (vals.zip labels) (fun _ => True) fun r => r.2 = l
        rw [proportion_true _ _ hzne fun _ _ => trivial] at h1
        simp only [true_and] at h1
        simp only [one_ne_zero, iff_false]
        have h1' : (1 : ℝ) = ((proportion (vals.zip labels) fun r => r.2 = l : ℚ) : ℝ) +
            ((proportion (vals.zip labels) fun r => ¬r.2 = l : ℚ) : ℝ) := by exact_mod_cast h1
        linarith
      constructor
      · intro H b
        have h := H 0 b
        rw [hrow, Fin.sum_univ_two, hcol, h0] at h
        simp only [iff_true] at h
        exact_mod_cast h
      · intro H a b
        have hb : ((proportion (vals.zip labels) fun r => r.2 = l ∧
            InBin (binEnds lo hi).1 (binEnds lo hi).2 10 b.1 r.1 : ℚ) : ℝ) =
            ((proportion (vals.zip labels) fun r => r.2 = l : ℚ) : ℝ) *
            ((proportion (vals.zip labels) fun r =>
              InBin (binEnds lo hi).1 (binEnds lo hi).2 10 b.1 r.1 : ℚ) : ℝ) := by
          exact_mod_cast H b
        rw [hrow, Fin.sum_univ_two, hcol]
        fin_cases a
        · simp only [Fin.zero_eta, iff_true]
          rw [h0]
          exact hb
        · simp only [Fin.mk_one]
          rw [hsum1]
          have := hcol b
          rw [h0] at this
          linarith

/-- **C133.** A coefficient with the same value in all samples has no information on any label. -/
theorem C133_constant (v : ℚ) (labels : List ℕ) (n : ℕ) (hne : labels ≠ [])
    (hlab : ∀ l ∈ labels, l < n) :
    ∃ byLabel, Pairing.organizeEnum (labels.map fun (l : ℕ) => (l : ℤ)) (some n) = .ok byLabel ∧
      informationByLabel (List.replicate labels.length v) byLabel = .ok (List.replicate n 0) := by
  obtain ⟨byLabel, lo, hi, out, hby, hlo, hhi, _, hout, hlen, hI⟩ :=
    C133_information (List.replicate labels.length v) labels n (by simp) (by simpa using hne) hlab
  refine ⟨byLabel, hby, ?_⟩
  rw [hout]
  congr 1
  apply List.ext_getElem?
  intro l
  by_cases hl : l < n
  · obtain ⟨I, h1, _, _, _, _, hz⟩ := hI l hl
    rw [h1, List.getElem?_replicate, if_pos hl, Option.some.injEq, hz]
    intro b
    have hv : ∀ r ∈ (List.replicate labels.length v).zip labels, r.1 = v :=
      fun r hr => List.eq_of_mem_replicate (List.of_mem_zip hr).1
    have hzne : (List.replicate labels.length v).zip labels ≠ [] := by
      obtain ⟨x, l', rfl⟩ := List.exists_cons_of_ne_nil hne
      simp [List.replicate_succ]
    by_cases hb : InBin (binEnds lo hi).1 (binEnds lo hi).2 10 b.1 v
    · rw [proportion_true _ (fun r : ℚ × ℕ => InBin (binEnds lo hi).1 (binEnds lo hi).2 10 b.1 r.1) hzne
        (fun r hr => by rw [hv r hr]; exact hb), mul_one]
      apply proportion_congr
      intro r hr
      rw [hv r hr]
      simp [hb]
    · have h0 : (proportion ((List.replicate labels.length v).zip labels) fun r =>
          InBin (binEnds lo hi).1 (binEnds lo hi).2 10 b.1 r.1) = 0 := by
        unfold proportion
        rw [List.countP_eq_zero.2 (fun r hr => by simpa [hv r hr] using hb)]
        simp
      have h1 : (proportion ((List.replicate labels.length v).zip labels) fun r => r.2 = l ∧
          InBin (binEnds lo hi).1 (binEnds lo hi).2 10 b.1 r.1) = 0 := by
        unfold proportion
        rw [List.countP_eq_zero.2 (fun r hr => by simp [hv r hr, hb])]
        simp
      rw [h0, h1, mul_zero]
  · rw [List.getElem?_eq_none (by omega), List.getElem?_eq_none (by simpa using hl)]

/-- **C133.** Without samples the range of the values cannot be computed. -/
theorem C133_empty (byLabel : List (List ℕ)) :
    informationByLabel [] byLabel = .error .valueError := rfl

/-! ### C134 -/

/-- **C134.** The order of the columns in the plots, when there are at least as many coefficients as
labels: every coefficient appears once; the first ones are, for each label, a coefficient, such that
no other choice of different coefficients has more information in total; the matrix shown is the
matrix in this order. -/
theorem C134_order (fuel : ℕ) (m : Munkres.Mat) (hpos : 0 < m.n1) (hle : m.n1 ≤ m.n2)
    (hf : 2 * m.n2 + 1 ≤ fuel) :
    ∃ p q M, orderColumns fuel m.n2 m = some (.ok (p ++ q, M)) ∧
      (p ++ q).Perm (List.range m.n2) ∧ p.length = m.n1 ∧ q.Pairwise (· < ·) ∧
      M = (List.range m.n1).map (fun i => (p ++ q).map fun j => m.e i j) ∧
      ∀ s : List ℕ, s.length = m.n1 → s.Nodup → (∀ j ∈ s, j < m.n2) →
        Munkres.cost m.e s ≤ Munkres.cost m.e p := by
  have hcost : ∀ s, Munkres.cost (fun i j => -m.e i j) s = -Munkres.cost m.e s := by
    intro s
    have h := List.sum_neg (s.mapIdx fun i j => m.e i j)
    have e : (s.mapIdx fun i j => m.e i j).map (fun x => -x) = s.mapIdx fun i j => -m.e i j := by
      apply List.ext_getElem?
      intro i
      simp [List.getElem?_mapIdx, Function.comp_def]
    rw [e] at h
    exact h.symm
  obtain ⟨s, h1, h2, h3, h4, h5⟩ : ∃ s : List ℕ,
      Munkres.minWeightPerm fuel ⟨m.n1, m.n2, fun i j => -m.e i j⟩ = some (.ok (s.map some)) ∧
      s.length = m.n1 ∧ s.Nodup ∧ (∀ j ∈ s, j < m.n2) ∧
      ∀ p : List ℕ, p.length = m.n1 → p.Nodup → (∀ j ∈ p, j < m.n2) →
        Munkres.cost (fun i j => -m.e i j) s ≤ Munkres.cost (fun i j => -m.e i j) p := by
    rcases hle.lt_or_eq with hlt | heq
    · exact Munkres.C30_fewer_rows fuel ⟨m.n1, m.n2, fun i j => -m.e i j⟩ hlt hpos hf
    · obtain ⟨s, k1, k2, k3⟩ := Munkres.C29_min_weight_perm_square fuel
        ⟨m.n1, m.n2, fun i j => -m.e i j⟩ heq hpos (by show 2 * m.n1 + 1 ≤ fuel; omega)
      refine ⟨s, k1, by rw [k2.length_eq, List.length_range], k2.nodup_iff.2 List.nodup_range, ?_, ?_⟩
      · intro j hj
        rw [← heq]
        exact List.mem_range.1 (k2.mem_iff.1 hj)
      · intro p hp hnd hlt
        apply k3
        show p.Perm (List.range m.n1)
        apply List.Subperm.perm_of_length_le
        · apply hnd.subperm
          intro j hj
          rw [List.mem_range, heq]
          exact hlt j hj
        · simp [hp]
  have hmap : (s.map some).mapM (column m.n2) = .ok s := by
    rw [List.mapM_map]
    have := mapM_ok (column m.n2 ∘ some) id s (fun j hj => by
        simp [Function.comp, column, h4 j hj])
    rwa [List.map_id] at this
  set q := (List.range m.n2).filter fun i => decide (some i ∉ s.map some) with hq
  have hqm : q.mapM (fun j => column m.n2 (some j)) = .ok q := by
    have := mapM_ok (fun j => column m.n2 (some j)) id q
      (fun j hj => by
        rw [hq, List.mem_filter, List.mem_range] at hj
        simp [column, hj.1])
    rwa [List.map_id] at this
  refine ⟨s, q, _, ?_, ?_, h2, ?_, rfl, ?_⟩
  · unfold orderColumns
    rw [h1]
    simp only [bind, Except.bind, hmap, ← hq, hqm]
    rfl
  · rw [List.perm_ext_iff_of_nodup]
    · intro j
      rw [List.mem_append, hq, List.mem_filter, List.mem_range]
      simp only [List.mem_map, Option.some.injEq, exists_eq_right, decide_eq_true_eq]
      constructor
      · rintro (h | h)
        · exact h4 j h
        · exact h.1
      · intro h
        by_cases hj : j ∈ s
        · exact Or.inl hj
        · exact Or.inr ⟨h, hj⟩
    · rw [List.nodup_append]
      refine ⟨h3, List.nodup_range.filter _, ?_⟩
      intro a ha b hb hab
      subst hab
      rw [hq, List.mem_filter] at hb
      simp [ha] at hb
    · exact List.nodup_range
  · exact List.pairwise_lt_range.filter _
  · intro t ht hnd hlt
    have := h5 t ht hnd hlt
    rw [hcost, hcost] at this
    linarith

/-- **C134.** With more labels than coefficients there is no such order: `IndexError`. -/
theorem C134_too_many_labels (fuel k : ℕ) (m : Munkres.Mat) (hpos : 0 < m.n2) (hlt : m.n2 < m.n1)
    (hf : 2 * m.n1 + 1 ≤ fuel) : orderColumns fuel k m = some (.error .indexError) := by
  obtain ⟨r, h1, h2, h3, h4, _⟩ := Munkres.C30_more_rows fuel ⟨m.n1, m.n2, fun i j => -m.e i j⟩ hlt
    hpos hf
  have hnone : none ∈ r := by
    by_contra hc
    have hsome : ∀ x ∈ r, ∃ j, x = some j := by
      intro x hx
      rcases x with _ | j
      · exact absurd hx hc
      · exact ⟨j, rfl⟩
    have hnd : r.Nodup := by
      rw [List.nodup_iff_getElem?_ne_getElem?]
      intro i j hij hj heq
      obtain ⟨x, hx⟩ := hsome r[j] (List.getElem_mem hj)
      have hxj : r[j]? = some (some x) := by rw [List.getElem?_eq_getElem hj, hx]
      have hxlt : x < m.n2 := h3 x (by rw [← hx]; exact List.getElem_mem hj)
      obtain ⟨k, _, hk⟩ := h4 x hxlt
      have e1 := hk i (heq.trans hxj)
      have e2 := hk j hxj
      omega
    have hsub : r ⊆ (List.range m.n2).map some := by
      intro x hx
      obtain ⟨j, rfl⟩ := hsome x hx
      exact List.mem_map.2 ⟨j, List.mem_range.2 (h3 j hx), rfl⟩
    have := (hnd.subperm hsub).length_le
    rw [h2, List.length_map, List.length_range] at this
    exact absurd hlt (not_lt.2 this)
  unfold orderColumns
  rw [h1]
  simp only [bind, Except.bind]
  rw [Transf.mapM_error (e := .indexError) (f := column m.n2)]
  · intro x _ e' he
    unfold column at he
    split at he
    · cases he; rfl
    · split at he
      · cases he
      · cases he; rfl
  · exact ⟨none, hnone, _, rfl⟩

end Verif.Samples
