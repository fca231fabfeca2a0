import Verif.Pairing.Model
import Verif.Window.PropsFrames
import Verif.Window.PropsConcat
import Mathlib.Data.List.Dedup
import Mathlib.Data.List.Perm.Subperm
import Mathlib.Data.List.Nodup
import Mathlib.Data.List.Count

/-!
# Properties C17-C22: `multimodal/pairing.py`
-/

namespace Verif.Pairing

open Verif Verif.Window

/-- Contract of the listing of a set: each element once. -/
def IsSetOrder {L : Type} (names labels : List L) : Prop :=
  names.Nodup ∧ ∀ x, x ∈ names ↔ x ∈ labels

/-! ## C21 -/

theorem namedLabels_eq {L : Type} [DecidableEq L] (names labels : List L)
    (h : IsSetOrder names labels) :
    namedLabelsToRange names labels = .ok (names, labels.map fun x => names.idxOf x) := by
  unfold namedLabelsToRange
  simp only []
  rw [mapM_ok _ (fun x => names.idxOf x)]
  · rfl
  · intro x hx
    have hmem : x ∈ names := (h.2 x).2 hx
    have hkeys : (names.zipIdx.map Prod.fst).Nodup := by
      rw [List.zipIdx_map_fst]; exact h.1
    have hget : dictGet? (dictOf names.zipIdx) x = some (names.idxOf x) := by
      rw [dictGet?_dictOf _ hkeys, List.mem_zipIdx_iff_getElem?]
      exact List.getElem?_idxOf hmem
    rw [hget]

/-- **C21.** Label names become integers: whatever the listing order of the set, the returned names
are the distinct labels, each sample gets the position of its label in that list, so two samples
get the same integer exactly when they have the same label, and each position is used. -/
theorem C21_named_labels {L : Type} [DecidableEq L] (names labels : List L)
    (h : IsSetOrder names labels) :
    ∃ idx, namedLabelsToRange names labels = .ok (names, idx) ∧ idx.length = labels.length ∧
      (∀ (i : ℕ) (x : L), labels[i]? = some x → ∃ k, idx[i]? = some k ∧ names[k]? = some x) ∧
      (∀ (i j : ℕ) (x y : L), labels[i]? = some x → labels[j]? = some y →
        (idx[i]? = idx[j]? ↔ x = y)) ∧
      ∀ k, k ∈ idx ↔ k < names.length := by
  refine ⟨_, namedLabels_eq names labels h, by simp, ?_, ?_, ?_⟩
  · intro i x hi
    have hmem : x ∈ names := (h.2 x).2 (List.mem_of_getElem? hi)
    exact ⟨names.idxOf x, by rw [List.getElem?_map, hi]; rfl, List.getElem?_idxOf hmem⟩
  · intro i j x y hi hj
    have hx : x ∈ names := (h.2 x).2 (List.mem_of_getElem? hi)
    rw [List.getElem?_map, List.getElem?_map, hi, hj]
    simp only [Option.map_some, Option.some.injEq]
    exact List.idxOf_inj hx
  · intro k
    rw [List.mem_map]
    constructor
    · rintro ⟨x, hx, rfl⟩
      exact List.idxOf_lt_length_of_mem ((h.2 x).2 hx)
    · intro hk
      refine ⟨names[k], (h.2 _).1 (List.getElem_mem hk), ?_⟩
      exact h.1.idxOf_getElem k hk

example : IsSetOrder ["b", "a"] ["a", "b", "a"] ∧
    namedLabelsToRange ["b", "a"] ["a", "b", "a"] = .ok (["b", "a"], [1, 0, 1]) := by
  refine ⟨⟨by decide, ?_⟩, by decide +kernel⟩
  intro x; simp; tauto

/-! ## C20 -/

theorem pyIndex_eq_some_iff {n : ℕ} {x : ℤ} {v : ℕ} :
    pyIndex n x = some v ↔ v < n ∧ (x = v ∨ x = v - n) := by
  unfold pyIndex
  split_ifs with h1 h2 h2
  · simp only [Option.some.injEq]; omega
  · simp; omega
  · simp only [Option.some.injEq]; omega
  · simp; omega

theorem pyIndex_eq_none_iff {n : ℕ} {x : ℤ} : pyIndex n x = none ↔ x < -n ∨ (n : ℤ) ≤ x := by
  unfold pyIndex
  split_ifs with h1 h2 h2 <;> simp <;> omega

theorem organizeLoop_ok {ι : Type} (buckets : List (List ι)) (enum : List (ι × ℤ))
    (h : ∀ p ∈ enum, -(buckets.length : ℤ) ≤ p.2 ∧ p.2 < buckets.length) :
    organizeLoop buckets enum = .ok (buckets.mapIdx fun (v : ℕ) b =>
      b ++ (enum.filter fun (p : ι × ℤ) => decide (p.2 = (v : ℤ) ∨ p.2 = (v : ℤ) - buckets.length)).map
        Prod.fst) := by
  induction enum generalizing buckets with
  | nil =>
    unfold organizeLoop
    congr 1
    apply List.ext_getElem?
    intro i
    rw [List.getElem?_mapIdx]
    cases buckets[i]? <;> simp
  | cons p enum ih =>
    obtain ⟨i, x⟩ := p
    unfold organizeLoop
    have hx := h (i, x) List.mem_cons_self
    cases hv : pyIndex buckets.length x with
    | none => rw [pyIndex_eq_none_iff] at hv; simp only at hx; omega
    | some v =>
      rw [pyIndex_eq_some_iff] at hv
      simp only []
      rw [ih _ (by
        intro p hp
        rw [List.length_modify]
        exact h p (List.mem_cons_of_mem _ hp))]
      congr 1
      apply List.ext_getElem?
      intro w
      rw [List.getElem?_mapIdx, List.getElem?_mapIdx, List.getElem?_modify, List.length_modify]
      cases hw : buckets[w]? with
      | none => simp
      | some b =>
        have hwlt : w < buckets.length := by
          rw [List.getElem?_eq_some_iff] at hw; exact hw.1
        simp only [Option.map_some]
        congr 1
        rw [List.filter_cons]
        by_cases hwv : v = w
        · subst hwv
          rw [if_pos (by simpa using hv.2)]
          simp
        · rw [if_neg (by simp; omega)]
          simp [hwv]

theorem organizeLoop_err {ι : Type} (buckets : List (List ι)) (enum : List (ι × ℤ))
    (h : ∃ p ∈ enum, p.2 < -(buckets.length : ℤ) ∨ (buckets.length : ℤ) ≤ p.2) :
    organizeLoop buckets enum = .error .indexError := by
  induction enum generalizing buckets with
  | nil => obtain ⟨p, hp, _⟩ := h; simp at hp
  | cons p enum ih =>
    obtain ⟨i, x⟩ := p
    unfold organizeLoop
    cases hv : pyIndex buckets.length x with
    | none => rfl
    | some v =>
      rw [pyIndex_eq_some_iff] at hv
      simp only []
      apply ih
      rw [List.length_modify]
      obtain ⟨q, hq, hq2⟩ := h
      rcases List.mem_cons.mp hq with rfl | hq
      · simp only at hq2; omega
      · exact ⟨q, hq, hq2⟩

/-- **C20.** Grouping by values: with `n` buckets (by default as many as distinct values), if some
used value is outside `[-n, n)` the call raises `IndexError`; otherwise bucket `v` lists, in order,
the indices associated with value `v` (or `v - n`: negative values count from the end). -/
theorem C20_organize_by_values {ι : Type} (l : List ℤ) (nb : Option ℕ) (indices : List ι) (n : ℕ)
    (hn : nb = some n ∨ (nb = none ∧ l.dedup.length = n)) :
    ((∃ p ∈ indices.zip l, p.2 < -(n : ℤ) ∨ (n : ℤ) ≤ p.2) →
      organizeIndices l nb indices = .error .indexError) ∧
    ((∀ p ∈ indices.zip l, -(n : ℤ) ≤ p.2 ∧ p.2 < n) →
      organizeIndices l nb indices = .ok ((List.range n).map fun (v : ℕ) =>
        ((indices.zip l).filter fun (p : ι × ℤ) => decide (p.2 = (v : ℤ) ∨ p.2 = (v : ℤ) - n)).map Prod.fst)) := by
  have hnb : nb.getD l.dedup.length = n := by
    rcases hn with rfl | ⟨rfl, h⟩
    · rfl
    · exact h
  unfold organizeIndices
  simp only [hnb]
  constructor
  · intro h
    apply organizeLoop_err
    simpa using h
  · intro h
    rw [organizeLoop_ok _ _ (by simpa using h)]
    congr 1
    apply List.ext_getElem?
    intro w
    simp only [List.getElem?_mapIdx, List.getElem?_map, Option.map_map, List.length_map,
      List.length_range]
    cases hw : (List.range n)[w]? with
    | none => rfl
    | some b =>
      rw [List.getElem?_eq_some_iff] at hw
      obtain ⟨_, rfl⟩ := hw
      simp

theorem organizeEnum_eq (l : List ℤ) (nb : Option ℕ) :
    organizeEnum l nb = organizeIndices l nb (List.range l.length) := by
  unfold organizeEnum organizeIndices
  simp only []
  congr 1
  apply List.ext_getElem?
  intro i
  rw [List.getElem?_map, List.getElem?_zipIdx]
  cases h : l[i]? with
  | none =>
    rw [List.getElem?_eq_none_iff] at h
    symm
    rw [Option.map_none, Option.map_none, List.getElem?_eq_none_iff]
    simp; omega
  | some x =>
    rw [List.getElem?_eq_some_iff] at h
    obtain ⟨h1, rfl⟩ := h
    symm
    simp only [Option.map_some]
    rw [List.getElem?_zip_eq_some]
    simp [h1]

/-- **C20**, without explicit indices: bucket `v` lists the positions of value `v`. -/
theorem C20_organize_positions (l : List ℤ) (nb : Option ℕ) (n : ℕ)
    (hn : nb = some n ∨ (nb = none ∧ l.dedup.length = n)) :
    ((∃ x ∈ l, x < -(n : ℤ) ∨ (n : ℤ) ≤ x) → organizeEnum l nb = .error .indexError) ∧
    ((∀ x ∈ l, -(n : ℤ) ≤ x ∧ x < n) →
      ∃ buckets, organizeEnum l nb = .ok buckets ∧ buckets.length = n ∧
        ∀ (v : ℕ) (b : List ℕ), buckets[v]? = some b → b.Pairwise (· < ·) ∧
          ∀ i, i ∈ b ↔ l[i]? = some (v : ℤ) ∨ l[i]? = some ((v : ℤ) - n)) := by
  rw [organizeEnum_eq]
  obtain ⟨h1, h2⟩ := C20_organize_by_values l nb (List.range l.length) n hn
  have hmem : ∀ p : ℕ × ℤ, p ∈ (List.range l.length).zip l ↔ l[p.1]? = some p.2 := by
    intro p
    rw [List.mem_iff_getElem?]
    constructor
    · rintro ⟨i, hi⟩
      rw [List.getElem?_zip_eq_some] at hi
      obtain ⟨e1, e2⟩ := hi
      rw [List.getElem?_eq_some_iff] at e1
      obtain ⟨_, e1⟩ := e1
      rw [List.getElem_range] at e1
      rw [← e1]; exact e2
    · intro h
      refine ⟨p.1, ?_⟩
      rw [List.getElem?_zip_eq_some]
      refine ⟨?_, h⟩
      rw [List.getElem?_eq_some_iff] at h
      rw [List.getElem?_range h.1]
  constructor
  · rintro ⟨x, hx, hx2⟩
    apply h1
    obtain ⟨i, hi⟩ := List.mem_iff_getElem?.mp hx
    exact ⟨(i, x), (hmem _).2 hi, hx2⟩
  · intro h
    have h2 := h2 (fun p hp => h p.2 (List.mem_of_getElem? ((hmem p).1 hp)))
    refine ⟨_, h2, by simp, ?_⟩
    intro v b hb
    rw [List.getElem?_map, Option.map_eq_some_iff] at hb
    obtain ⟨v', hv', rfl⟩ := hb
    rw [List.getElem?_eq_some_iff] at hv'
    obtain ⟨hlt, hv'⟩ := hv'
    rw [List.getElem_range] at hv'
    subst hv'
    constructor
    · have hsub : (((List.range l.length).zip l).map Prod.fst).Pairwise (· < ·) := by
        rw [List.map_fst_zip (by simp)]
        exact List.pairwise_lt_range
      exact List.Pairwise.sublist (List.Sublist.map _ List.filter_sublist) hsub
    · intro i
      rw [List.mem_map]
      constructor
      · rintro ⟨p, hp, rfl⟩
        rw [List.mem_filter, hmem, decide_eq_true_iff] at hp
        rcases hp.2 with e | e <;> rw [e] at hp
        · exact Or.inl hp.1
        · exact Or.inr hp.1
      · rintro (e | e)
        · exact ⟨(i, _), by rw [List.mem_filter, hmem]; exact ⟨e, by simp⟩, rfl⟩
        · exact ⟨(i, _), by rw [List.mem_filter, hmem]; exact ⟨e, by simp⟩, rfl⟩

example : organizeEnum [1, 0, 2, 1, -1] (some 3) = .ok [[1], [0, 3], [2, 4]] ∧
    organizeEnum [0, 2, 0] none = .error .indexError ∧
    organizeIndices [1, 0, 1] none ["a", "b", "c"] = .ok [["b"], ["a", "c"]] := by
  refine ⟨?_, ?_, ?_⟩ <;> decide +kernel

/-! ## C17-C19 -/

/-- Zip of the labels of the groups with the elements of the groups. -/
theorem zip_labels_aux {ι : Type} (groups : List (List ι)) (k : ℕ) :
    ((groups.zipIdx k).map fun p => List.replicate p.1.length p.2).flatten.zip groups.flatten =
      ((groups.zipIdx k).map fun p => p.1.map fun t => (p.2, t)).flatten := by
  induction groups generalizing k with
  | nil => rfl
  | cons g gs ih =>
    rw [List.zipIdx_cons, List.map_cons, List.map_cons, List.flatten_cons, List.flatten_cons,
      List.flatten_cons, List.zip_append (by simp), ih]
    congr 1
    clear ih
    induction g with
    | nil => rfl
    | cons x g ih => simp [List.replicate_succ, ih]

/-- What `associateSamples` computes. -/
theorem associateSamples_cases {L : Type} [DecidableEq L] (namesOf : ℕ → List L → List L)
    (shuf : ℕ → ℕ → List ℕ → List ℕ) (labels : List (List L))
    (hn : ∀ (m : ℕ) (l : List L), labels[m]? = some l → IsSetOrder (namesOf m l) l)
    (hs : ∀ m v l, (shuf m v l).Perm l) :
    (labels = [] → associateSamples namesOf shuf labels = .error .valueError) ∧
    (labels ≠ [] → (¬ ∀ l ∈ labels, ∀ l' ∈ labels, l.dedup.length = l'.dedup.length) →
      associateSamples namesOf shuf labels = .error .assertionError) ∧
    (labels ≠ [] → (∀ l ∈ labels, ∀ l' ∈ labels, l.dedup.length = l'.dedup.length) →
      ∃ (n : ℕ) (names : List (List L)) (shuffled : List (List (List ℕ))),
        associateSamples namesOf shuf labels = .ok (names,
          ((associate shuffled).mapIdx fun i l => List.replicate l.length i).flatten,
          (associate shuffled).flatten) ∧
        (∀ l ∈ labels, l.dedup.length = n) ∧
        names.length = labels.length ∧ shuffled.length = labels.length ∧
        (∀ (m : ℕ) (l : List L), labels[m]? = some l → ∃ (nm : List L) (bs : List (List ℕ)), names[m]? = some nm ∧ shuffled[m]? = some bs ∧
          IsSetOrder nm l ∧ nm.length = n ∧ bs.length = n ∧
          ∀ (v : ℕ) (b : List ℕ), bs[v]? = some b → b.Nodup ∧ ∃ x, nm[v]? = some x ∧ b.length = l.count x ∧
            ∀ i : ℕ, i ∈ b ↔ l[i]? = some x)) := by
  have hlab : associateLabels namesOf labels = .ok (labels.zipIdx.map fun p =>
      (namesOf p.2 p.1, p.1.map fun x => (namesOf p.2 p.1).idxOf x)) := by
    unfold associateLabels
    apply mapM_ok
    intro p hp
    rw [List.mem_zipIdx_iff_getElem?] at hp
    exact namedLabels_eq _ _ (hn _ _ hp)
  have hlen : ∀ m l, labels[m]? = some l → (namesOf m l).length = l.dedup.length := by
    intro m l hm
    have h := hn m l hm
    apply List.Perm.length_eq
    rw [List.perm_ext_iff_of_nodup h.1 (List.nodup_dedup l)]
    intro x; rw [h.2, List.mem_dedup]
  have hnames : (labels.zipIdx.map fun p =>
      (namesOf p.2 p.1, p.1.map fun x => (namesOf p.2 p.1).idxOf x)).map Prod.fst =
      labels.zipIdx.map fun p => namesOf p.2 p.1 := by rw [List.map_map]; rfl
  have hidx : (labels.zipIdx.map fun p =>
      (namesOf p.2 p.1, p.1.map fun x => (namesOf p.2 p.1).idxOf x)).map Prod.snd =
      labels.zipIdx.map fun p => p.1.map fun x => (namesOf p.2 p.1).idxOf x := by
    rw [List.map_map]; rfl
  refine ⟨?_, ?_, ?_⟩
  · rintro rfl; rfl
  · intro hne hdiff
    unfold associateSamples
    rw [hlab]
    simp only [bind, Except.bind]
    cases labels with
    | nil => exact absurd rfl hne
    | cons l0 ls =>
      rw [hnames]
      have hA : ((l0 :: ls).zipIdx.map fun p =>
        (namesOf p.2 p.1, p.1.map fun x => (namesOf p.2 p.1).idxOf x)).head? =
        some (namesOf 0 l0, l0.map fun x => (namesOf 0 l0).idxOf x) := by
        rw [List.zipIdx_cons, List.map_cons]; rfl
      rw [hA]
      simp only []
      rw [if_neg]
      intro hall
      apply hdiff
      rw [List.all_eq_true] at hall
      have hall' : ∀ l ∈ l0 :: ls, l.dedup.length = (namesOf 0 l0).length := by
        intro l hl
        obtain ⟨m, hm⟩ := List.mem_iff_getElem?.mp hl
        have := hall (namesOf m l) (by
          exact List.mem_map.mpr ⟨(l, m), List.mem_zipIdx_iff_getElem?.mpr hm, rfl⟩)
        rw [← hlen m l hm]
        simpa using this
      intro l hl l' hl'
      rw [hall' l hl, hall' l' hl']
  · intro hne heq
    obtain ⟨l0, ls, rfl⟩ := List.exists_cons_of_ne_nil hne
    set labels := l0 :: ls with hlabels
    have hn0 : ∀ m l, labels[m]? = some l → (namesOf m l).length = l0.dedup.length := by
      intro m l hm
      rw [hlen m l hm]
      exact heq l (List.mem_of_getElem? hm) l0 List.mem_cons_self
    have hl0 : labels[0]? = some l0 := rfl
    set buckets : List L → List L → List (List ℕ) := fun nm l =>
      (List.range l0.dedup.length).map fun (v : ℕ) =>
        (((List.range l.length).zip (l.map fun x => ((nm.idxOf x : ℕ) : ℤ))).filter fun p =>
          decide (p.2 = (v : ℤ) ∨ p.2 = (v : ℤ) - l0.dedup.length)).map Prod.fst with hbuckets
    have hby : (labels.zipIdx.map fun p => p.1.map fun x => (namesOf p.2 p.1).idxOf x).mapM
        (fun l => organizeEnum (l.map fun (k : ℕ) => (k : ℤ)) (some l0.dedup.length)) =
        .ok (labels.zipIdx.map fun p => buckets (namesOf p.2 p.1) p.1) := by
      have := mapM_ok (fun p : List L × ℕ => organizeEnum ((p.1.map fun x =>
          (namesOf p.2 p.1).idxOf x).map fun (k : ℕ) => (k : ℤ)) (some l0.dedup.length))
        (fun p => buckets (namesOf p.2 p.1) p.1) labels.zipIdx (by
          intro p hp
          rw [List.mem_zipIdx_iff_getElem?] at hp
          rw [organizeEnum_eq, (C20_organize_by_values _ _ _ l0.dedup.length (Or.inl rfl)).2]
          · rw [List.map_map, List.length_map]; rfl
          · intro q hq
            have hq2 := (List.of_mem_zip hq).2
            rw [List.map_map, List.mem_map] at hq2
            obtain ⟨x, hx, hq2⟩ := hq2
            have : (namesOf p.2 p.1).idxOf x < (namesOf p.2 p.1).length :=
              List.idxOf_lt_length_of_mem (((hn _ _ hp).2 x).2 hx)
            rw [hn0 _ _ hp] at this
            simp only [Function.comp_apply] at hq2
            omega)
      rw [← this, List.mapM_map]
      rfl
    refine ⟨l0.dedup.length, labels.zipIdx.map fun p => namesOf p.2 p.1,
      (labels.zipIdx.map fun p => buckets (namesOf p.2 p.1) p.1).mapIdx
        fun m lMod => lMod.mapIdx fun v l => shuf m v l, ?_, ?_, by simp, by simp, ?_⟩
    · unfold associateSamples
      rw [hlab]
      simp only [bind, Except.bind]
      have hA : (labels.zipIdx.map fun p =>
        (namesOf p.2 p.1, p.1.map fun x => (namesOf p.2 p.1).idxOf x)).head? =
        some (namesOf 0 l0, l0.map fun x => (namesOf 0 l0).idxOf x) := by
        rw [hlabels, List.zipIdx_cons, List.map_cons]; rfl
      rw [hA]
      simp only []
      rw [hnames, hidx, hn0 0 l0 hl0, hby, if_pos]
      rw [List.all_eq_true]
      intro nm hnm
      obtain ⟨p, hp, rfl⟩ := List.mem_map.mp hnm
      rw [List.mem_zipIdx_iff_getElem?] at hp
      simpa using hn0 _ _ hp
    · intro l hl
      exact heq l hl l0 List.mem_cons_self
    · intro m l hm
      refine ⟨namesOf m l, (buckets (namesOf m l) l).mapIdx fun v b => shuf m v b, ?_, ?_,
        hn m l hm, hn0 m l hm, by simp [hbuckets], ?_⟩
      · rw [List.getElem?_map, List.getElem?_zipIdx, hm]; simp
      · rw [List.getElem?_mapIdx, List.getElem?_map, List.getElem?_zipIdx, hm]; simp
      · intro v b hb
        rw [List.getElem?_mapIdx, Option.map_eq_some_iff] at hb
        obtain ⟨b0, hb0, rfl⟩ := hb
        simp only [hbuckets] at hb0
        rw [List.getElem?_map, Option.map_eq_some_iff] at hb0
        obtain ⟨v', hv', hb0⟩ := hb0
        rw [List.getElem?_eq_some_iff] at hv'
        obtain ⟨hlt, hv'⟩ := hv'
        rw [List.getElem_range] at hv'
        subst hv'
        rw [List.length_range] at hlt
        have hso := hn m l hm
        have hvn : v < (namesOf m l).length := by rw [hn0 m l hm]; exact hlt
        set x := (namesOf m l)[v] with hx
        have hidx : ∀ y ∈ l, ((namesOf m l).idxOf y : ℤ) = v ↔ y = x := by
          intro y hy
          have hy' := (hso.2 y).2 hy
          constructor
          · intro e
            have e : (namesOf m l).idxOf y = v := by exact_mod_cast e
            rw [hx]
            simp only [← e]
            rw [List.getElem_idxOf]
          · rintro rfl
            rw [hx, hso.1.idxOf_getElem v hvn]
        have hsmall : ∀ y ∈ l, ((namesOf m l).idxOf y : ℤ) ≠ (v : ℤ) - l0.dedup.length := by
          intro y hy; omega
        -- membership in the bucket
        have hmem : ∀ i, i ∈ b0 ↔ l[i]? = some x := by
          intro i
          rw [← hb0, List.mem_map]
          constructor
          · rintro ⟨p, hp, rfl⟩
            rw [List.mem_filter] at hp
            obtain ⟨k, hk⟩ := List.mem_iff_getElem?.mp hp.1
            rw [List.getElem?_zip_eq_some, List.getElem?_map, Option.map_eq_some_iff] at hk
            obtain ⟨e1, y, e2, e3⟩ := hk
            rw [List.getElem?_eq_some_iff] at e1
            obtain ⟨_, e1⟩ := e1
            rw [List.getElem_range] at e1
            have hy := List.mem_of_getElem? e2
            have h2 := hp.2
            rw [decide_eq_true_iff, ← e3] at h2
            rcases h2 with h2 | h2
            · rw [hidx y hy] at h2
              rw [← e1, e2, h2]
            · exact absurd h2 (hsmall y hy)
          · intro hi
            refine ⟨(i, (v : ℤ)), ?_, rfl⟩
            rw [List.mem_filter]
            refine ⟨?_, by simp⟩
            rw [List.mem_iff_getElem?]
            refine ⟨i, ?_⟩
            rw [List.getElem?_zip_eq_some, List.getElem?_map, hi]
            have hi' := hi
            rw [List.getElem?_eq_some_iff] at hi'
            refine ⟨List.getElem?_range hi'.1, ?_⟩
            simp only [Option.map_some, Option.some.injEq]
            exact (hidx x (List.mem_of_getElem? hi)).2 rfl
        have hlenb : b0.length = l.count x := by
          rw [← hb0, List.length_map, ← List.countP_eq_length_filter]
          have e1 : ((List.range l.length).zip
              (l.map fun x => (((namesOf m l).idxOf x : ℕ) : ℤ))).countP
              (fun p => decide (p.2 = (v : ℤ) ∨ p.2 = (v : ℤ) - l0.dedup.length)) =
              (((List.range l.length).zip
              (l.map fun x => (((namesOf m l).idxOf x : ℕ) : ℤ))).map Prod.snd).countP
              (fun q : ℤ => decide (q = (v : ℤ) ∨ q = (v : ℤ) - l0.dedup.length)) := by
            rw [List.countP_map]; rfl
          rw [e1, List.map_snd_zip (by simp), List.countP_map, List.count]
          apply List.countP_congr
          intro y hy
          simp only [Function.comp_apply, decide_eq_true_eq, beq_iff_eq]
          constructor
          · rintro (h | h)
            · exact (hidx y hy).1 h
            · exact absurd h (hsmall y hy)
          · intro h; exact Or.inl ((hidx y hy).2 h)
        have hnd : b0.Nodup := by
          rw [← hb0]
          have hsub : (((List.range l.length).zip
              (l.map fun x => (((namesOf m l).idxOf x : ℕ) : ℤ))).map Prod.fst).Nodup := by
            rw [List.map_fst_zip (by simp)]
            exact List.nodup_range
          exact List.Nodup.sublist (List.Sublist.map _ List.filter_sublist) hsub
        refine ⟨(hs m v b0).nodup_iff.mpr hnd, x, by rw [hx, List.getElem?_eq_getElem hvn], ?_, ?_⟩
        · rw [(hs m v b0).length_eq, hlenb]
        · intro i
          rw [(hs m v b0).mem_iff, hmem]

/-- The groups of tuples built by `associate`. -/
theorem associate_spec {n : ℕ} {shuffled : List (List (List ℕ))} (hne : shuffled ≠ [])
    (h : ∀ bs ∈ shuffled, bs.length = n) :
    (associate shuffled).length = n ∧
    ∀ (v : ℕ) (g : List (List ℕ)), (associate shuffled)[v]? = some g → ∃ bt : List (List ℕ), bt.length = shuffled.length ∧
      g = pyZipStar bt ∧
      (∀ (m : ℕ) (bs : List (List ℕ)), shuffled[m]? = some bs → ∃ b : List ℕ, bt[m]? = some b ∧ bs[v]? = some b) := by
  have hmin : minLength shuffled = n := by
    obtain ⟨bs, hbs, e⟩ := exists_minLength hne
    rw [← e, h bs hbs]
  unfold associate
  refine ⟨by rw [List.length_map, length_pyZipStar, hmin], ?_⟩
  intro v g hg
  rw [List.getElem?_map, Option.map_eq_some_iff] at hg
  obtain ⟨bt, hbt, rfl⟩ := hg
  obtain ⟨_, h2, h3⟩ := pyZipStar_getElem? hbt
  exact ⟨bt, h2, rfl, h3⟩

/-- **C19.** Association of samples fails with `AssertionError` exactly when modalities do not have
the same number of distinct labels (with `ValueError` when there is no modality); it succeeds
otherwise, whatever the order of sets and the shuffles. -/
theorem C19_associate_samples_total {L : Type} [DecidableEq L] (namesOf : ℕ → List L → List L)
    (shuf : ℕ → ℕ → List ℕ → List ℕ) (labels : List (List L))
    (hn : ∀ (m : ℕ) (l : List L), labels[m]? = some l → IsSetOrder (namesOf m l) l)
    (hs : ∀ m v l, (shuf m v l).Perm l) :
    (labels = [] → associateSamples namesOf shuf labels = .error .valueError) ∧
    (labels ≠ [] → (¬ ∀ l ∈ labels, ∀ l' ∈ labels, l.dedup.length = l'.dedup.length) →
      associateSamples namesOf shuf labels = .error .assertionError) ∧
    (labels ≠ [] → (∀ l ∈ labels, ∀ l' ∈ labels, l.dedup.length = l'.dedup.length) →
      ∃ names newLabels tuples,
        associateSamples namesOf shuf labels = .ok (names, newLabels, tuples) ∧
        newLabels.length = tuples.length ∧ names.length = labels.length ∧
        ∀ (m : ℕ) (l nm : List L), labels[m]? = some l → names[m]? = some nm → IsSetOrder nm l) := by
  obtain ⟨h1, h2, h3⟩ := associateSamples_cases namesOf shuf labels hn hs
  refine ⟨h1, h2, ?_⟩
  intro hne heq
  obtain ⟨n, names, shuffled, e, -, e2, -, e4⟩ := h3 hne heq
  refine ⟨_, _, _, e, ?_, e2, ?_⟩
  · rw [List.length_flatten, List.length_flatten]
    congr 1
    apply List.ext_getElem?
    intro i
    rw [List.getElem?_map, List.getElem?_map, List.getElem?_mapIdx, Option.map_map]
    congr 1
    funext l
    simp
  · intro m l nm hm hnm
    obtain ⟨nm', _, h5, _, h6, _⟩ := e4 m l hm
    rw [hnm, Option.some.injEq] at h5
    rw [h5]; exact h6

/-- The returned data, group by group. -/
theorem associateSamples_ok {L : Type} [DecidableEq L] (namesOf : ℕ → List L → List L)
    (shuf : ℕ → ℕ → List ℕ → List ℕ) (labels : List (List L))
    (hn : ∀ (m : ℕ) (l : List L), labels[m]? = some l → IsSetOrder (namesOf m l) l)
    (hs : ∀ m v l, (shuf m v l).Perm l) {names : List (List L)} {newLabels : List ℕ}
    {tuples : List (List ℕ)}
    (hok : associateSamples namesOf shuf labels = .ok (names, newLabels, tuples)) :
    ∃ (n : ℕ) (shuffled : List (List (List ℕ))), labels ≠ [] ∧
      newLabels = ((associate shuffled).mapIdx fun i l => List.replicate l.length i).flatten ∧
      tuples = (associate shuffled).flatten ∧
      names.length = labels.length ∧ shuffled.length = labels.length ∧
      (∀ (m : ℕ) (l : List L), labels[m]? = some l → ∃ (nm : List L) (bs : List (List ℕ)), names[m]? = some nm ∧ shuffled[m]? = some bs ∧
          IsSetOrder nm l ∧ nm.length = n ∧ bs.length = n ∧
          ∀ (v : ℕ) (b : List ℕ), bs[v]? = some b → b.Nodup ∧ ∃ x, nm[v]? = some x ∧ b.length = l.count x ∧
            ∀ i : ℕ, i ∈ b ↔ l[i]? = some x) ∧
      (associate shuffled).length = n ∧
      ∀ (v : ℕ) (g : List (List ℕ)), (associate shuffled)[v]? = some g → ∃ bt : List (List ℕ),
        bt.length = labels.length ∧ g = pyZipStar bt ∧
        (∀ (m : ℕ) (bs : List (List ℕ)), shuffled[m]? = some bs → ∃ b : List ℕ, bt[m]? = some b ∧ bs[v]? = some b) := by
  obtain ⟨h1, h2, h3⟩ := associateSamples_cases namesOf shuf labels hn hs
  by_cases hne : labels = []
  · rw [h1 hne] at hok; simp at hok
  · by_cases heq : ∀ l ∈ labels, ∀ l' ∈ labels, l.dedup.length = l'.dedup.length
    · obtain ⟨n, names', shuffled, e, e1, e2, e3, e4⟩ := h3 hne heq
      rw [hok] at e
      simp only [Except.ok.injEq, Prod.mk.injEq] at e
      obtain ⟨rfl, rfl, rfl⟩ := e
      have hsne : shuffled ≠ [] := by
        intro h; rw [h] at e3
        exact hne (List.length_eq_zero_iff.mp e3.symm)
      have hl : ∀ bs ∈ shuffled, bs.length = n := by
        intro bs hbs
        obtain ⟨m, hm⟩ := List.mem_iff_getElem?.mp hbs
        have hlt : m < labels.length := by
          rw [← e3]; exact (List.getElem?_eq_some_iff.mp hm).1
        obtain ⟨_, bs', _, h6, _, _, h8, _⟩ := e4 m labels[m] (List.getElem?_eq_getElem hlt)
        rw [hm, Option.some.injEq] at h6
        rw [h6]; exact h8
      obtain ⟨a1, a2⟩ := associate_spec hsne hl
      refine ⟨n, shuffled, hne, rfl, rfl, e2, e3, e4, a1, ?_⟩
      rw [← e3]; exact a2
    · rw [h2 hne heq] at hok; simp at hok

theorem zip_newLabels (groups : List (List (List ℕ))) (v : ℕ) (t : List ℕ) :
    (v, t) ∈ (groups.mapIdx fun i l => List.replicate l.length i).flatten.zip groups.flatten ↔
      ∃ g, groups[v]? = some g ∧ t ∈ g := by
  have e : (groups.mapIdx fun i l => List.replicate l.length i) =
      (groups.zipIdx 0).map fun p => List.replicate p.1.length p.2 := by
    rw [List.mapIdx_eq_zipIdx_map]
  rw [e, zip_labels_aux groups 0, List.mem_flatten]
  constructor
  · rintro ⟨q, hq, hv⟩
    obtain ⟨p, hp, rfl⟩ := List.mem_map.mp hq
    rw [List.mem_zipIdx_iff_getElem?] at hp
    obtain ⟨t', ht', e⟩ := List.mem_map.mp hv
    simp only [Prod.mk.injEq] at e
    obtain ⟨rfl, rfl⟩ := e
    exact ⟨_, hp, ht'⟩
  · rintro ⟨g, hg, ht⟩
    exact ⟨g.map fun t => (v, t), List.mem_map.mpr ⟨(g, v), List.mem_zipIdx_iff_getElem?.mpr hg, rfl⟩,
      List.mem_map.mpr ⟨t, ht, rfl⟩⟩

/-- **C17.** Associated samples have matching labels: each returned tuple has one sample per
modality, and if the label returned for the tuple is `v`, the label of its sample of modality `m`
is the `v`-th name returned for that modality. -/
theorem C17_labels_match {L : Type} [DecidableEq L] (namesOf : ℕ → List L → List L)
    (shuf : ℕ → ℕ → List ℕ → List ℕ) (labels : List (List L))
    (hn : ∀ (m : ℕ) (l : List L), labels[m]? = some l → IsSetOrder (namesOf m l) l)
    (hs : ∀ m v l, (shuf m v l).Perm l) (names : List (List L)) (newLabels : List ℕ)
    (tuples : List (List ℕ))
    (hok : associateSamples namesOf shuf labels = .ok (names, newLabels, tuples))
    (v : ℕ) (t : List ℕ) (ht : (v, t) ∈ newLabels.zip tuples) :
    t.length = labels.length ∧
    ∀ (m : ℕ) (l nm : List L), labels[m]? = some l → names[m]? = some nm →
      ∃ (i : ℕ) (x : L), t[m]? = some i ∧ l[i]? = some x ∧ nm[v]? = some x := by
  obtain ⟨n, shuffled, hne, rfl, rfl, e2, e3, e4, a1, a2⟩ :=
    associateSamples_ok namesOf shuf labels hn hs hok
  rw [zip_newLabels] at ht
  obtain ⟨g, hg, htg⟩ := ht
  obtain ⟨bt, b1, rfl, b2⟩ := a2 v g hg
  obtain ⟨j, hj⟩ := List.mem_iff_getElem?.mp htg
  obtain ⟨_, c2, c3⟩ := pyZipStar_getElem? hj
  refine ⟨c2.trans b1, ?_⟩
  intro m l nm hm hnm
  obtain ⟨nm', bs, f1, f2, _, _, _, f3⟩ := e4 m l hm
  rw [hnm, Option.some.injEq] at f1
  subst f1
  obtain ⟨b, g1, g2⟩ := b2 m bs f2
  obtain ⟨_, x, x1, _, x2⟩ := f3 v b g2
  obtain ⟨i, i1, i2⟩ := c3 m b g1
  exact ⟨i, x, i1, (x2 i).1 (List.mem_of_getElem? i2), x1⟩

/-- **C18.** No sample is used twice, and as many tuples as possible are built: label `v` labels
as many tuples as there are samples for it in the modality having fewest; no other label occurs. -/
theorem C18_no_reuse_maximal {L : Type} [DecidableEq L] (namesOf : ℕ → List L → List L)
    (shuf : ℕ → ℕ → List ℕ → List ℕ) (labels : List (List L))
    (hn : ∀ (m : ℕ) (l : List L), labels[m]? = some l → IsSetOrder (namesOf m l) l)
    (hs : ∀ m v l, (shuf m v l).Perm l) (names : List (List L)) (newLabels : List ℕ)
    (tuples : List (List ℕ))
    (hok : associateSamples namesOf shuf labels = .ok (names, newLabels, tuples)) :
    (∀ m, m < labels.length → (tuples.map fun t => t[m]?).Nodup) ∧
    (∀ v ∈ newLabels, ∀ nm ∈ names, v < nm.length) ∧
    ∀ v, (∀ nm ∈ names, v < nm.length) →
      (∀ (m : ℕ) (l nm : List L) (x : L), labels[m]? = some l → names[m]? = some nm → nm[v]? = some x →
        newLabels.count v ≤ l.count x) ∧
      ∃ (m : ℕ) (l nm : List L) (x : L), labels[m]? = some l ∧ names[m]? = some nm ∧ nm[v]? = some x ∧
        newLabels.count v = l.count x := by
  obtain ⟨n, shuffled, hne, rfl, rfl, e2, e3, e4, a1, a2⟩ :=
    associateSamples_ok namesOf shuf labels hn hs hok
  have hnm_len : ∀ nm ∈ names, nm.length = n := by
    intro nm hnm
    obtain ⟨m, hm⟩ := List.mem_iff_getElem?.mp hnm
    have hlt : m < labels.length := by
      rw [← e2]; exact (List.getElem?_eq_some_iff.mp hm).1
    obtain ⟨nm', _, h5, _, _, h6, _⟩ := e4 m labels[m] (List.getElem?_eq_getElem hlt)
    rw [hm, Option.some.injEq] at h5
    rw [h5]; exact h6
  refine ⟨?_, ?_, ?_⟩
  · intro m hm
    obtain ⟨nm, bs, f1, f2, f4, _, f5, f3⟩ := e4 m labels[m] (List.getElem?_eq_getElem hm)
    rw [List.map_flatten, List.nodup_flatten]
    -- an element of group v at position m is in the v-th bucket
    have hgrp : ∀ (v : ℕ) (g : List (List ℕ)), (associate shuffled)[v]? = some g →
        ∃ b : List ℕ, bs[v]? = some b ∧
        g.map (fun t => t[m]?) <+: b.map some := by
      intro v g hg
      obtain ⟨bt, b1, rfl, b2⟩ := a2 v g hg
      obtain ⟨b, g1, g2⟩ := b2 m bs f2
      refine ⟨b, g2, ?_⟩
      rw [List.prefix_iff_getElem?]
      intro i hi
      rw [List.length_map] at hi
      rw [List.getElem_map]
      obtain ⟨_, _, c3⟩ := pyZipStar_getElem? (List.getElem?_eq_getElem hi)
      obtain ⟨x, x1, x2⟩ := c3 m b g1
      rw [List.getElem?_map, x2, x1]
      rfl
    constructor
    · intro l hl
      obtain ⟨g, hg, rfl⟩ := List.mem_map.mp hl
      obtain ⟨v, hv⟩ := List.mem_iff_getElem?.mp hg
      obtain ⟨b, hb, hpre⟩ := hgrp v g hv
      exact List.Nodup.sublist hpre.sublist
        (List.Nodup.map (Option.some_injective _) (f3 v b hb).1)
    · rw [List.pairwise_iff_getElem]
      intro v w hv hw hvw
      rw [List.length_map] at hv hw
      rw [List.getElem_map, List.getElem_map]
      obtain ⟨b, hb, hpre⟩ := hgrp v _ (List.getElem?_eq_getElem hv)
      obtain ⟨b', hb', hpre'⟩ := hgrp w _ (List.getElem?_eq_getElem hw)
      intro o ho ho'
      obtain ⟨i, hi, rfl⟩ := List.mem_map.mp (hpre.subset ho)
      have hi' := hpre'.subset ho'
      rw [List.mem_map] at hi'
      obtain ⟨i', hi', e⟩ := hi'
      simp only [Option.some.injEq] at e
      subst e
      obtain ⟨_, x, x1, _, x2⟩ := f3 v b hb
      obtain ⟨_, y, y1, _, y2⟩ := f3 w b' hb'
      have hx := (x2 _).1 hi
      have hy := (y2 _).1 hi'
      rw [hx, Option.some.injEq] at hy
      subst hy
      rw [List.getElem?_eq_some_iff] at x1 y1
      obtain ⟨p1, x1⟩ := x1
      obtain ⟨p2, y1⟩ := y1
      have := (List.Nodup.getElem_inj_iff f4.1).1 (x1.trans y1.symm)
      omega
  · intro v hv nm hnm
    rw [hnm_len nm hnm, ← a1]
    obtain ⟨q, hq, hvq⟩ := List.mem_flatten.mp hv
    obtain ⟨i, hi⟩ := List.mem_iff_getElem?.mp hq
    rw [List.getElem?_mapIdx, Option.map_eq_some_iff] at hi
    obtain ⟨g, hg, rfl⟩ := hi
    rw [(List.mem_replicate.mp hvq).2]
    exact (List.getElem?_eq_some_iff.mp hg).1
  · intro v hv
    have hvn : v < n := by
      have hpos : 0 < names.length := by rw [e2]; exact List.length_pos_iff.mpr hne
      have := hv names[0] (List.getElem_mem hpos)
      rwa [hnm_len _ (List.getElem_mem hpos)] at this
    obtain ⟨g, hg⟩ : ∃ g, (associate shuffled)[v]? = some g :=
      ⟨_, List.getElem?_eq_getElem (by rw [a1]; exact hvn)⟩
    have hcount : (((associate shuffled).mapIdx fun i l =>
        List.replicate l.length i).flatten).count v = g.length := by
      have key : ∀ (gs : List (List (List ℕ))) (k : ℕ),
          (((gs.zipIdx k).map fun p => List.replicate p.1.length p.2).flatten).count v =
            if k ≤ v then ((gs[v - k]?).map List.length).getD 0 else 0 := by
        intro gs
        induction gs with
        | nil => intro k; simp
        | cons g gs ih =>
          intro k
          rw [List.zipIdx_cons, List.map_cons, List.flatten_cons, List.count_append, ih,
            List.count_replicate]
          by_cases h1 : k = v
          · subst h1; simp
          · by_cases h2 : k ≤ v
            · have e1 : v - k = (v - (k + 1)) + 1 := by omega
              rw [if_pos h2, if_pos (show k + 1 ≤ v by omega), e1, List.getElem?_cons_succ]
              simp [h1]
            · rw [if_neg h2, if_neg (show ¬ k + 1 ≤ v by omega)]
              simp [h1]
      rw [List.mapIdx_eq_zipIdx_map, key, if_pos (Nat.zero_le _), Nat.sub_zero, hg]
      rfl
    rw [hcount]
    obtain ⟨bt, b1, rfl, b2⟩ := a2 v g hg
    rw [length_pyZipStar]
    constructor
    · intro m l nm x hm hnm hx
      obtain ⟨nm', bs, f1, f2, _, _, _, f3⟩ := e4 m l hm
      rw [hnm, Option.some.injEq] at f1
      subst f1
      obtain ⟨b, g1, g2⟩ := b2 m bs f2
      obtain ⟨_, y, y1, y2, _⟩ := f3 v b g2
      rw [hx, Option.some.injEq] at y1
      subst y1
      rw [← y2]
      exact minLength_le (List.mem_of_getElem? g1)
    · have hbne : bt ≠ [] := by
        intro h; rw [h] at b1
        exact hne (List.length_eq_zero_iff.mp b1.symm)
      obtain ⟨b, hb, hbl⟩ := exists_minLength hbne
      obtain ⟨m, hm⟩ := List.mem_iff_getElem?.mp hb
      have hlt : m < labels.length := by
        rw [← b1]; exact (List.getElem?_eq_some_iff.mp hm).1
      obtain ⟨nm, bs, f1, f2, _, _, _, f3⟩ := e4 m labels[m] (List.getElem?_eq_getElem hlt)
      obtain ⟨b', g1, g2⟩ := b2 m bs f2
      rw [hm, Option.some.injEq] at g1
      subst g1
      obtain ⟨_, y, y1, y2, _⟩ := f3 v b g2
      exact ⟨m, labels[m], nm, y, List.getElem?_eq_getElem hlt, f1, y1, by rw [← y2, hbl]⟩

/-- Two modalities with two labels each; sets listed in order of appearance or reversed, buckets
reversed by the shuffles. -/
example : let labels := [["a", "b", "a", "b", "b"], ["y", "x", "x", "y", "x"]]
    let namesOf : ℕ → List String → List String := fun m l => if m = 0 then l.dedup else l.dedup.reverse
    (∀ (m : ℕ) (l : List String), labels[m]? = some l → IsSetOrder (namesOf m l) l) ∧
    (∀ (m v : ℕ) (l : List ℕ), ((fun _ _ l => l.reverse : ℕ → ℕ → List ℕ → List ℕ) m v l).Perm l) ∧
    associateSamples namesOf (fun _ _ l => l.reverse) labels =
      .ok ([["a", "b"], ["x", "y"]], [0, 0, 1, 1], [[2, 4], [0, 2], [4, 3], [3, 0]]) ∧
    associateSamples namesOf (fun _ _ l => l.reverse) [["a"], ["x", "y"]] =
      .error .assertionError := by
  intro labels namesOf
  refine ⟨?_, fun m v l => List.reverse_perm l, by decide +kernel, by decide +kernel⟩
  intro m l _
  simp only [namesOf]
  split_ifs
  · exact ⟨List.nodup_dedup l, fun x => List.mem_dedup⟩
  · exact ⟨List.nodup_reverse.mpr (List.nodup_dedup l), fun x => by
      rw [List.mem_reverse, List.mem_dedup]⟩

end Verif.Pairing
