import Verif.Learner.Model
import Verif.NMF.Props
import Verif.Objects.Props
import Verif.Loaders.Props

/-!
# Properties C51–C53 and C104 of `multimodal/learner.py`
-/

namespace Verif.Learner

open Verif.NMF Finset
open Verif.Objects (mapM_py_ok)

variable {M : Type} [DecidableEq M]

theorem pyGet_ok {α : Type} {l : List α} {i : ℕ} {a : α} : pyGet l (i : ℤ) = .ok a ↔ l[i]? = some a :=
  Loaders.pyGet_ok l i a

theorem zip_some {α β : Type*} {l : List α} {l' : List β} {i : ℕ} {a : α} {b : β} (h : l[i]? = some a)
    (h' : l'[i]? = some b) : (l.zip l')[i]? = some (a, b) :=
  List.getElem?_zip_eq_some.2 ⟨h, h'⟩

/-! ### Horizontal stacking -/

/-- `H` is made of the blocks `As`, side by side. -/
def Blocks (As : List Mat) (H : Mat) : Prop :=
  (∀ A ∈ As, A.r = H.r) ∧ H.c = (As.map Mat.c).sum ∧
  ∀ (a : ℕ) (A : Mat), As[a]? = some A → ∀ i j, j < A.c →
    H.e i (((As.take a).map Mat.c).sum + j) = A.e i j

theorem hstack_cons (A B : Mat) (rest : List Mat) : hstack (A :: B :: rest) = (do
    let C ← hstack (B :: rest)
    if A.r = C.r then return hcat A C else .error .valueError) := rfl

theorem hstack_blocks : ∀ (As : List Mat) (H : Mat), hstack As = .ok H → As ≠ [] ∧ Blocks As H
  | [], H, h => by cases h
  | [A], H, h => by
    obtain rfl := Except.ok.inj h
    refine ⟨by simp, by simp, by simp, ?_⟩
    intro a B hB i j hj
    cases a with
    | zero => obtain rfl := Option.some.inj hB; simp
    | succ a => simp at hB
  | A :: B :: rest, H, h => by
    rw [hstack_cons] at h
    cases hC : hstack (B :: rest) with
    | error e => rw [hC] at h; cases h
    | ok C =>
      rw [hC] at h
      simp only [bind, Except.bind] at h
      split at h
      · rename_i hr
        obtain rfl := Except.ok.inj h
        obtain ⟨_, h1, h2, h3⟩ := hstack_blocks (B :: rest) C hC
        refine ⟨by simp, ?_, ?_, ?_⟩
        · intro A' hA'
          rcases List.mem_cons.1 hA' with rfl | hA'
          · rfl
          · exact (h1 A' hA').trans hr.symm
        · show A.c + C.c = _
          rw [h2]; simp
        · intro a A' hA' i j hj
          cases a with
          | zero =>
            obtain rfl := Option.some.inj hA'
            show (if _ then _ else _) = _
            rw [if_pos (by simpa using hj)]
            simp
          | succ a =>
            rw [List.getElem?_cons_succ] at hA'
            have := h3 a A' hA' i j hj
            show (if _ then _ else _) = _
            rw [List.take_succ_cons, List.map_cons, List.sum_cons, if_neg (by omega), ← this]
            congr 1
            omega
      · cases h

theorem hstack_success : ∀ (As : List Mat) (n : ℕ), As ≠ [] → (∀ A ∈ As, A.r = n) →
    ∃ H, hstack As = .ok H ∧ H.r = n
  | [], _, h, _ => absurd rfl h
  | [A], n, _, h => ⟨A, rfl, h A (by simp)⟩
  | A :: B :: rest, n, _, h => by
    obtain ⟨C, hC, hr⟩ := hstack_success (B :: rest) n (by simp) (fun D hD => h D (List.mem_cons_of_mem _ hD))
    have hA := h A (by simp)
    refine ⟨hcat A C, ?_, hA⟩
    rw [hstack_cons, hC]
    simp only [bind, Except.bind]
    rw [if_pos (hA.trans hr.symm)]
    rfl

/-- A position smaller than a total is in one of the parts. -/
theorem exists_part : ∀ (ns : List ℕ) (c : ℕ), c < ns.sum → ∃ (a n j : ℕ), ns[a]? = some n ∧ j < n ∧
    c = (ns.take a).sum + j
  | [], c, h => by simp at h
  | n :: ns, c, h => by
    by_cases hc : c < n
    · exact ⟨0, n, c, rfl, hc, by simp⟩
    · obtain ⟨a, m, j, h1, h2, h3⟩ := exists_part ns (c - n) (by
        rw [List.sum_cons] at h; omega)
      exact ⟨a + 1, m, j, h1, h2, by rw [List.take_succ_cons, List.sum_cons]; omega⟩

theorem blocks_unique {As : List Mat} {H H' : Mat} (hne : As ≠ []) (h : Blocks As H)
    (h' : Blocks As H') : H.Same H' := by
  obtain ⟨h1, h2, h3⟩ := h
  obtain ⟨g1, g2, g3⟩ := h'
  refine ⟨?_, h2.trans g2.symm, ?_⟩
  · obtain ⟨A, hA⟩ := List.exists_mem_of_ne_nil As hne
    rw [← h1 A hA, g1 A hA]
  · intro i _ c hc
    rw [h2] at hc
    obtain ⟨a, n, j, k1, k2, rfl⟩ := exists_part _ c hc
    rw [List.getElem?_map] at k1
    cases hA : As[a]? with
    | none => rw [hA] at k1; cases k1
    | some A =>
      rw [hA] at k1
      obtain rfl := Option.some.inj k1
      rw [← List.map_take, h3 a A hA i j k2, g3 a A hA i j k2]

/-! ### C51 -/

theorem idxOf_getElem? {l : List M} (hnd : l.Nodup) {i : ℕ} {m : M} (h : l[i]? = some m) :
    l.idxOf m = i := by
  obtain ⟨hi, rfl⟩ := List.getElem?_eq_some_iff.1 h
  exact List.Nodup.idxOf_getElem hnd i hi

theorem getIndex_ok {L : Learner M} (hnd : L.mod.Nodup) {i : ℕ} {m : M} (h : L.mod[i]? = some m) :
    L.getIndex m = .ok i := by
  unfold Learner.getIndex
  rw [if_pos (List.mem_of_getElem? h), idxOf_getElem? hnd h]

theorem getAxisRange_ok {L : Learner M} (hnd : L.mod.Nodup) {i : ℕ} {m : M} {d : ℕ}
    (h : L.mod[i]? = some m) (hd : L.dim[i]? = some d) :
    L.getAxisRange m = .ok ((L.dim.take i).sum, (L.dim.take i).sum + d) := by
  unfold Learner.getAxisRange
  rw [getIndex_ok hnd h]
  simp only [bind, Except.bind]
  rw [pyGet_ok.2 hd]
  rfl

theorem take_succ_sum {l : List ℕ} {i d : ℕ} (h : l[i]? = some d) :
    (l.take (i + 1)).sum = (l.take i).sum + d := by
  rw [List.take_add_one, h, List.sum_append]
  simp

/-- **C51.** The ranges of the modalities, in order, have the declared dimensions, the first starts
with the first column, each of the others starts where the one before stops, and the last stops with
the last column. -/
theorem C51_ranges (L : Learner M) (hnd : L.mod.Nodup) (hlen : L.mod.length = L.dim.length) :
    ∃ rs : List (ℕ × ℕ), L.mod.mapM L.getAxisRange = .ok rs ∧ rs.length = L.dim.length ∧
      (∀ (i : ℕ) (r : ℕ × ℕ) (d : ℕ), rs[i]? = some r → L.dim[i]? = some d → r.2 = r.1 + d) ∧
      (∀ r : ℕ × ℕ, rs[0]? = some r → r.1 = 0) ∧
      (∀ (i : ℕ) (r r' : ℕ × ℕ), rs[i]? = some r → rs[i + 1]? = some r' → r'.1 = r.2) ∧
      (∀ r : ℕ × ℕ, rs.getLast? = some r → r.2 = L.dim.sum) := by
  have hm : L.mod.mapM L.getAxisRange = .ok ((List.range L.dim.length).map fun i =>
      ((L.dim.take i).sum, (L.dim.take (i + 1)).sum)) := by
    rw [mapM_py_ok, List.forall₂_iff_get]
    refine ⟨by simp [hlen], fun i hi _ => ?_⟩
    have hd : L.dim[i]? = some (L.dim[i]'(hlen ▸ hi)) := List.getElem?_eq_getElem _
    rw [List.get_eq_getElem, List.get_eq_getElem,
      getAxisRange_ok hnd (List.getElem?_eq_getElem hi) hd]
    simp [take_succ_sum hd]
  have hg : ∀ (i : ℕ) (r : ℕ × ℕ), ((List.range L.dim.length).map fun i =>
      ((L.dim.take i).sum, (L.dim.take (i + 1)).sum))[i]? = some r →
      i < L.dim.length ∧ r = ((L.dim.take i).sum, (L.dim.take (i + 1)).sum) := by
    intro i r hr
    obtain ⟨hi, rfl⟩ := List.getElem?_eq_some_iff.1 hr
    exact ⟨by simpa using hi, by simp⟩
  refine ⟨_, hm, by simp, ?_, ?_, ?_, ?_⟩
  · intro i r d hr hd
    obtain ⟨_, rfl⟩ := hg i r hr
    exact take_succ_sum hd
  · intro r hr
    obtain ⟨_, rfl⟩ := hg 0 r hr
    simp
  · intro i r r' hr hr'
    obtain ⟨_, rfl⟩ := hg i r hr
    obtain ⟨_, rfl⟩ := hg (i + 1) r' hr'
    rfl
  · intro r hr
    rw [List.getLast?_eq_getElem?] at hr
    obtain ⟨hi, rfl⟩ := hg _ r hr
    simp only [List.length_map, List.length_range] at hi ⊢
    rw [show L.dim.length - 1 + 1 = L.dim.length by omega, List.take_length]

/-- **C51.** Each column is in the range of exactly one modality. -/
theorem C51_cover (L : Learner M) (hnd : L.mod.Nodup) (hlen : L.mod.length = L.dim.length) (c : ℕ)
    (hc : c < L.dim.sum) :
    ∃! m, m ∈ L.mod ∧ ∃ r, L.getAxisRange m = .ok r ∧ r.1 ≤ c ∧ c < r.2 := by
  obtain ⟨a, n, j, h1, h2, rfl⟩ := exists_part _ c hc
  obtain ⟨ha, _⟩ := List.getElem?_eq_some_iff.1 h1
  have hm : L.mod[a]? = some (L.mod[a]'(hlen ▸ ha)) := List.getElem?_eq_getElem _
  refine ⟨L.mod[a]'(hlen ▸ ha), ⟨List.mem_of_getElem? hm, _, getAxisRange_ok hnd hm h1, by simp, by simpa using h2⟩, ?_⟩
  rintro m ⟨hmem, r, hr, hr1, hr2⟩
  obtain ⟨b, hb⟩ := List.mem_iff_getElem?.1 hmem
  obtain ⟨hbl, _⟩ := List.getElem?_eq_some_iff.1 hb
  have hd : L.dim[b]? = some (L.dim[b]'(hlen ▸ hbl)) := List.getElem?_eq_getElem _
  rw [getAxisRange_ok hnd hb hd] at hr
  obtain rfl := Except.ok.inj hr
  simp only [] at hr1 hr2
  rw [← take_succ_sum hd] at hr2
  have hmono : ∀ x y, x ≤ y → (L.dim.take x).sum ≤ (L.dim.take y).sum := by
    intro x y hxy
    have : L.dim.take x = (L.dim.take y).take x := by rw [List.take_take, min_eq_left hxy]
    rw [this]
    conv_rhs => rw [← List.take_append_drop x (L.dim.take y)]
    rw [List.sum_append]
    omega
  have hab : a = b := by
    by_contra hne
    rcases Nat.lt_or_gt_of_ne hne with hlt | hlt
    · have := hmono (a + 1) b hlt
      rw [take_succ_sum h1] at this
      omega
    · have := hmono (b + 1) a hlt
      omega
  subst hab
  rw [hm] at hb
  exact (Option.some.inj hb).symm

theorem getDico_ok {L : Learner M} (hnd : L.mod.Nodup) {i : ℕ} {m : M} {d : ℕ} {D : Mat}
    (h : L.mod[i]? = some m) (hd : L.dim[i]? = some d) (hD : L.dico = some D) :
    L.getDico m = .ok (cols D (L.dim.take i).sum ((L.dim.take i).sum + d)) := by
  unfold Learner.getDico
  rw [getAxisRange_ok hnd h hd, hD]
  rfl

theorem take_sum_le (l : List ℕ) (i : ℕ) : (l.take i).sum ≤ l.sum := by
  conv_rhs => rw [← List.take_append_drop i l]
  rw [List.sum_append]
  omega

/-- The dictionaries of all modalities, as columns of the whole one. -/
theorem dicos_ok {L : Learner M} (hnd : L.mod.Nodup) (hlen : L.mod.length = L.dim.length) {D : Mat}
    (hD : L.dico = some D) (hDc : D.c = L.dim.sum) :
    ∃ ds, L.mod.mapM L.getDico = .ok ds ∧ Blocks ds D ∧ ds.map Mat.c = L.dim := by
  have hle : ∀ (i d : ℕ), L.dim[i]? = some d → (L.dim.take i).sum + d ≤ D.c := by
    intro i d hd
    rw [hDc, ← take_succ_sum hd]
    exact take_sum_le _ _
  set ds := (List.range L.dim.length).map fun i =>
    cols D (L.dim.take i).sum (L.dim.take (i + 1)).sum with hds
  have hlen' : ds.length = L.dim.length := by simp [hds]
  have hmap : ds.map Mat.c = L.dim := by
    apply List.ext_getElem (by simp [hlen'])
    intro i h1 h2
    have hd : L.dim[i]? = some L.dim[i] := List.getElem?_eq_getElem _
    have := hle i _ hd
    simp only [hds, List.getElem_map, List.getElem_range, cols, take_succ_sum hd]
    omega
  refine ⟨ds, ?_, ⟨?_, ?_, ?_⟩, hmap⟩
  · rw [mapM_py_ok, List.forall₂_iff_get]
    refine ⟨by simp [hlen, hlen'], fun i hi _ => ?_⟩
    have hd : L.dim[i]? = some (L.dim[i]'(hlen ▸ hi)) := List.getElem?_eq_getElem _
    rw [List.get_eq_getElem, List.get_eq_getElem, getDico_ok hnd (List.getElem?_eq_getElem hi) hd hD]
    simp only [hds, List.getElem_map, List.getElem_range, take_succ_sum hd]
  · intro A hA
    obtain ⟨i, _, rfl⟩ := List.mem_map.1 hA
    rfl
  · rw [hmap, hDc]
  · intro a A hA i j hj
    obtain ⟨ha, rfl⟩ := List.getElem?_eq_some_iff.1 hA
    have hd : L.dim[a]? = some (L.dim[a]'(hlen' ▸ ha)) := List.getElem?_eq_getElem _
    have := hle a _ hd
    rw [List.map_take, hmap]
    simp only [hds, List.getElem_map, List.getElem_range, cols]
    congr 1
    omega

/-- **C51.** Stacking the dictionaries of all modalities, in order, gives back the whole
dictionary. -/
theorem C51_stacked (L : Learner M) (D : Mat) (hnd : L.mod.Nodup)
    (hlen : L.mod.length = L.dim.length) (hne : L.mod ≠ []) (hD : L.dico = some D)
    (hDc : D.c = L.dim.sum) : ∃ D', L.getStackedDicos L.mod = .ok D' ∧ D'.Same D := by
  obtain ⟨ds, h1, h2, h3⟩ := dicos_ok hnd hlen hD hDc
  have hds : ds ≠ [] := by
    rintro rfl
    have := (mapM_py_ok.1 h1).length_eq
    exact hne (List.length_eq_zero_iff.1 this)
  obtain ⟨D', hD', _⟩ := hstack_success ds D.r hds h2.1
  refine ⟨D', ?_, blocks_unique hds (hstack_blocks _ _ hD').2 h2⟩
  unfold Learner.getStackedDicos
  rw [h1]
  exact hD'

/-- **C51.** Names have to be distinct: the range of a repeated name is that of its first
occurrence. -/
theorem C51_repeated (m : M) (d d' : ℕ) (L : Learner M) (hm : L.mod = [m, m]) (hd : L.dim = [d, d'])
    (h : 0 < d') : ∃ c < L.dim.sum, ∀ m', ∀ r, L.getAxisRange m' = .ok r → ¬ (r.1 ≤ c ∧ c < r.2) := by
  refine ⟨d, by rw [hd]; simpa using h, ?_⟩
  intro m' r hr
  unfold Learner.getAxisRange Learner.getIndex at hr
  rw [hm, hd] at hr
  by_cases hmm : m' = m
  · subst hmm
    simp [bind, Except.bind, pyGet, pure, Except.pure] at hr
    subst hr
    simp
  · simp [hmm, bind, Except.bind] at hr

/-- Example: two modalities, of dimensions 2 and 1. -/
def exLearner (D : Option Mat) : Learner Bool := ⟨[false, true], [2, 1], [1, 3], 1, false, D⟩

example : (exLearner none).getAxisRange true = .ok (2, 3) := by decide +kernel
example : (exLearner none).mod.Nodup ∧ (exLearner none).mod.length = (exLearner none).dim.length := by
  decide +kernel

/-! ### C52 -/

/-- **C52.** Reconstructing several modalities is reconstructing each and stacking the results. -/
theorem C52_modalities (L : Learner M) (ms : List M) (z R : Mat)
    (h : L.reconstructModalities ms z = .ok R) :
    ∃ Rs R', ms.mapM (fun m => L.reconstructModality m z) = .ok Rs ∧ hstack Rs = .ok R' ∧
      R.Same R' := by
  unfold Learner.reconstructModalities Learner.getStackedDicos at h
  cases hds : ms.mapM L.getDico with
  | error e => rw [hds] at h; cases h
  | ok ds =>
    rw [hds] at h
    simp only [bind, Except.bind] at h
    cases hD : hstack ds with
    | error e => rw [hD] at h; cases h
    | ok D =>
      rw [hD] at h
      simp only [] at h
      unfold dotPy at h
      split at h
      · rename_i hc
        obtain rfl := Except.ok.inj h
        obtain ⟨hne, h1, h2, h3⟩ := hstack_blocks ds D hD
        have hm : ms.mapM (fun m => L.reconstructModality m z) = .ok (ds.map (dot z)) := by
          rw [mapM_py_ok, List.forall₂_map_right_iff]
          have hf := mapM_py_ok.1 hds
          rw [List.forall₂_iff_get] at hf ⊢
          refine ⟨hf.1, fun i hi hi' => ?_⟩
          unfold Learner.reconstructModality
          rw [hf.2 i hi hi']
          simp only [bind, Except.bind]
          unfold dotPy
          exact if_pos (hc.trans (h1 _ (List.getElem_mem hi')).symm)
        have hne' : ds.map (dot z) ≠ [] := by simpa using hne
        obtain ⟨R', hR', _⟩ := hstack_success (ds.map (dot z)) z.r hne' (by
          intro A hA
          obtain ⟨B, _, rfl⟩ := List.mem_map.1 hA
          rfl)
        have hcs : ∀ l : List Mat, (l.map (dot z)).map Mat.c = l.map Mat.c := by
          intro l
          rw [List.map_map]
          rfl
        refine ⟨_, R', hm, hR', blocks_unique hne' ⟨?_, ?_, ?_⟩ (hstack_blocks _ _ hR').2⟩
        · intro A hA
          obtain ⟨B, _, rfl⟩ := List.mem_map.1 hA
          rfl
        · rw [hcs]; exact h2
        · intro a A hA i j hj
          rw [List.getElem?_map] at hA
          cases hB : ds[a]? with
          | none => rw [hB] at hA; cases hA
          | some B =>
            rw [hB] at hA
            obtain rfl := Option.some.inj hA
            rw [← List.map_take, hcs]
            show ∑ k ∈ range z.c, _ = ∑ k ∈ range z.c, _
            apply Finset.sum_congr rfl
            intro k _
            rw [h3 a B hB k j hj]
      · cases h

/-- **C52.** `modality_to_modality` is `reconstruct_modality` of `reconstruct_internal`: same result
or same exception. -/
theorem C52_modality_to_modality (L : Learner M) (o d : M) (X : Data) (n : ℕ) (rnd : ℕ → ℕ → ℝ) :
    L.modalityToModality o d X n rnd =
      (L.reconstructInternal o X n rnd >>= fun z => L.reconstructModality d z) := by
  unfold Learner.modalityToModality Learner.modalitiesToModalities Learner.reconstructInternal
  congr 1
  funext z
  unfold Learner.reconstructModalities Learner.reconstructModality Learner.getStackedDicos
  rw [List.mapM_cons, List.mapM_nil]
  cases L.getDico d <;> rfl

theorem stack_ok {L : Learner M} {data : List Data} {V : Data} (h : L.stackData L.mod data = .ok V) :
    ∃ cs, L.mod.mapM L.getCoef = .ok cs ∧
      hstack ((data.zip cs).map fun p => (smul p.2 p.1).mat) = .ok V.mat ∧
      V.sparse = (data.zip cs).any fun p => p.1.sparse := by
  unfold Learner.stackData at h
  cases hcs : L.mod.mapM L.getCoef with
  | error e => rw [hcs] at h; cases h
  | ok cs =>
    rw [hcs] at h
    simp only [bind, Except.bind] at h
    unfold safeHstack at h
    rw [List.map_map] at h
    cases hst : hstack ((data.zip cs).map (Data.mat ∘ fun p => smul p.2 p.1)) with
    | error e => rw [hst] at h; cases h
    | ok V' =>
      rw [hst] at h
      obtain rfl := Except.ok.inj h
      exact ⟨cs, rfl, hst, by simp [List.any_map, smul, Function.comp_def]⟩

theorem getCoef_ok {L : Learner M} (hnd : L.mod.Nodup) {i : ℕ} {m : M} {c : ℝ}
    (h : L.mod[i]? = some m) : L.getCoef m = .ok c ↔ L.coef[i]? = some c := by
  unfold Learner.getCoef
  rw [getIndex_ok hnd h]
  simp only [bind, Except.bind]
  exact pyGet_ok

/-- The scaled data of all modalities, one block for each. -/
theorem stack_blocks {L : Learner M} (hnd : L.mod.Nodup) {data : List Data} {V : Data}
    (hdl : data.length = L.mod.length) (h : L.stackData L.mod data = .ok V) :
    ∃ bs : List Mat, hstack bs = .ok V.mat ∧ bs.length = data.length ∧
      ∀ (i : ℕ) (d : Data), data[i]? = some d → ∃ c, L.coef[i]? = some c ∧
        bs[i]? = some ⟨d.mat.r, d.mat.c, fun a b => c * d.mat.e a b⟩ := by
  obtain ⟨cs, hcs, hst, _⟩ := stack_ok h
  have hf := mapM_py_ok.1 hcs
  rw [List.forall₂_iff_get] at hf
  refine ⟨_, hst, by simp; omega, ?_⟩
  intro i d hd
  obtain ⟨hi, _⟩ := List.getElem?_eq_some_iff.1 hd
  have hi' : i < L.mod.length := by omega
  have hi'' : i < cs.length := by omega
  have hc : cs[i]? = some cs[i] := List.getElem?_eq_getElem _
  refine ⟨cs[i], ?_, ?_⟩
  · have := hf.2 i hi' hi''
    rw [List.get_eq_getElem, List.get_eq_getElem] at this
    exact (getCoef_ok hnd (List.getElem?_eq_getElem hi')).1 this
  · rw [List.getElem?_map, zip_some hd hc]
    rfl

/-- **C52.** If internal coefficients reproduce the stacked training data, the reconstruction of each
modality is its data multiplied by its coefficient. -/
theorem C52_exact (L : Learner M) (data : List Data) (V : Data) (D z : Mat)
    (hnd : L.mod.Nodup) (hdl : data.length = L.mod.length)
    (hD : L.dico = some D) (hDc : D.c = L.dim.sum) (hz : z.c = D.r)
    (hdim : data.map (fun d => d.mat.c) = L.dim)
    (hV : L.stackData L.mod data = .ok V) (hex : (dot z D).Same V.mat)
    (i : ℕ) (m : M) (d : Data) (hm : L.mod[i]? = some m) (hd : data[i]? = some d) :
    ∃ c R, L.coef[i]? = some c ∧ L.reconstructModality m z = .ok R ∧
      R.Same ⟨d.mat.r, d.mat.c, fun a b => c * d.mat.e a b⟩ := by
  obtain ⟨bs, hbs, hbl, hb⟩ := stack_blocks hnd hdl hV
  obtain ⟨c, hc, hbi⟩ := hb i d hd
  obtain ⟨_, g1, g2, g3⟩ := hstack_blocks bs V.mat hbs
  have hbc : bs.map Mat.c = L.dim := by
    rw [← hdim]
    apply List.ext_getElem (by simp [hbl])
    intro j h1 h2
    have hj : j < data.length := by simpa using h2
    obtain ⟨c', _, hb'⟩ := hb j data[j] (List.getElem?_eq_getElem _)
    obtain ⟨_, hb''⟩ := List.getElem?_eq_some_iff.1 hb'
    rw [List.getElem_map, List.getElem_map, hb'']
  have hdi : L.dim[i]? = some d.mat.c := by
    rw [← hdim, List.getElem?_map, hd]; rfl
  have hle : (L.dim.take i).sum + d.mat.c ≤ D.c := by
    rw [hDc, ← take_succ_sum hdi]
    exact take_sum_le _ _
  have hcols : (cols D (L.dim.take i).sum ((L.dim.take i).sum + d.mat.c)).c = d.mat.c := by
    show min _ _ - min _ _ = _
    omega
  refine ⟨c, dot z (cols D (L.dim.take i).sum ((L.dim.take i).sum + d.mat.c)), hc, ?_, ?_, hcols, ?_⟩
  · unfold Learner.reconstructModality
    rw [getDico_ok hnd hm hdi hD]
    simp only [bind, Except.bind]
    exact if_pos hz
  · have := g1 _ (List.mem_of_getElem? hbi)
    show z.r = d.mat.r
    exact hex.1.trans this.symm
  · intro a ha b hb'
    have hb' : b < d.mat.c := hcols ▸ hb'
    have h1 : _ = c * d.mat.e a b := g3 i _ hbi a b hb'
    rw [List.map_take, hbc] at h1
    have h2 := hex.2.2 a ha ((L.dim.take i).sum + b) (by show _ < D.c; omega)
    rw [h1] at h2
    show _ = c * d.mat.e a b
    rw [← h2]
    show ∑ k ∈ range z.c, _ = ∑ k ∈ range z.c, _
    apply Finset.sum_congr rfl
    intro k _
    show z.e a k * D.e k (b + min (L.dim.take i).sum D.c) = z.e a k * D.e k ((L.dim.take i).sum + b)
    rw [min_eq_left (by omega), Nat.add_comm]

/-! ### C53 -/

/-- **C53.** Training with a matrix which does not have the declared dimension, or as many lines as
the first one, raises `AssertionError` and leaves the learner as it is. -/
theorem C53_assertion (L : Learner M) (first : Data) (rest : List Data) (n : ℕ) (rnd : ℕ → ℕ → ℝ)
    (i d : ℕ) (X : Data) (hX : (first :: rest)[i]? = some X) (hd : L.dim[i]? = some d)
    (h : X.mat.r ≠ first.mat.r ∨ X.mat.c ≠ d) :
    L.train (first :: rest) n rnd = (L, .error .assertionError) := by
  unfold Learner.train
  simp only []
  rw [if_neg]
  intro hall
  rw [List.all_eq_true] at hall
  have hmem : (X, d) ∈ (first :: rest).zip L.dim :=
    List.mem_of_getElem? (zip_some hX hd)
  have := hall _ hmem
  simp only [Bool.and_eq_true, beq_iff_eq] at this
  rcases h with h | h
  · exact h this.1
  · exact h this.2

/-- **C53.** When training succeeds the dictionary is the one which `KLdivNMF`, with as many
components as asked (and without tolerance), learns from the scaled data stacked side by side; when
there is a matrix for each modality it has as many columns as the sum of dimensions. -/
theorem C53_trained (L L' : Learner M) (data : List Data) (n : ℕ) (rnd : ℕ → ℕ → ℝ)
    (hnd : L.mod.Nodup) (hlen : L.mod.length = L.dim.length) (hdl : data.length = L.mod.length)
    (h : L.train data n rnd = (L', .ok ())) :
    ∃ V s D, (NMF.fit ⟨some L.k, none, 0, n, none⟩ V rnd 1 true) = (s, .ok ()) ∧
      L'.dico = s.components ∧ L'.dico = some D ∧ D.c = L.dim.sum ∧ V.mat.c = L.dim.sum ∧
      NonNeg D ∧ (L.k ≠ 0 → D.r = L.k) ∧
      (∃ bs : List Mat, Blocks bs V.mat ∧ bs.length = data.length ∧
        ∀ (i : ℕ) (d : Data), data[i]? = some d → ∃ c, L.coef[i]? = some c ∧
          bs[i]? = some ⟨d.mat.r, d.mat.c, fun a b => c * d.mat.e a b⟩) ∧
      L'.mod = L.mod ∧ L'.dim = L.dim ∧ L'.coef = L.coef := by
  unfold Learner.train at h
  cases data with
  | nil => simp at h
  | cons first rest =>
    simp only [] at h
    split at h
    · rename_i hall
      cases hV : L.stackData L.mod (first :: rest) with
      | error e => rw [hV] at h; simp at h
      | ok V =>
        rw [hV] at h
        simp only [] at h
        split at h
        · simp at h
        · rcases hr : NMF.fit ⟨some L.k, none, 0, n, none⟩ V rnd 1 true with ⟨s, r⟩
          rw [hr] at h
          cases r with
          | error e => simp at h
          | ok u =>
            simp only [Prod.mk.injEq, and_true] at h
            subst h
            obtain ⟨bs, hbs, hbl, hb⟩ := stack_blocks hnd hdl hV
            obtain ⟨_, hB⟩ := hstack_blocks bs V.mat hbs
            have hbc : bs.map Mat.c = L.dim := by
              apply List.ext_getElem (by simp; omega)
              intro j h1 h2
              have hj : j < (first :: rest).length := by
                rw [List.length_map] at h1; omega
              obtain ⟨c', _, hb'⟩ := hb j (first :: rest)[j] (List.getElem?_eq_getElem _)
              obtain ⟨_, hb''⟩ := List.getElem?_eq_some_iff.1 hb'
              rw [List.getElem_map, hb'']
              rw [List.all_eq_true] at hall
              have hmem : ((first :: rest)[j], L.dim[j]) ∈ (first :: rest).zip L.dim :=
                List.mem_of_getElem? (zip_some (List.getElem?_eq_getElem _)
                  (List.getElem?_eq_getElem _))
              have := hall _ hmem
              simp only [Bool.and_eq_true, beq_iff_eq] at this
              exact this.2
            have hVc : V.mat.c = L.dim.sum := by rw [hB.2.1, hbc]
            have hfit : ∃ R, fitTransform ⟨some L.k, none, 0, n, none⟩ V rnd true 1 true = (s, .ok R) := by
              unfold NMF.fit at hr
              rcases hf : fitTransform ⟨some L.k, none, 0, n, none⟩ V rnd true 1 true with ⟨s', r'⟩
              rw [hf] at hr
              cases r' with
              | error e => simp [Except.map] at hr
              | ok R =>
                obtain ⟨rfl, _⟩ := Prod.mk.inj hr
                exact ⟨R, rfl⟩
            obtain ⟨R, hR⟩ := hfit
            obtain ⟨D, k, h1, h2, _, h4, _, _, h7, h8⟩ := C54_fit _ s V rnd 1 true R (fun D hD => by
              cases hD) hR
            obtain ⟨_, _, _, _, _, _, _, _, _, hs'⟩ := fitTransform_ok _ s V rnd true 1 true R hR
            refine ⟨V, s, D, hr, rfl, h1, h8.trans hVc, hVc, h4, ?_, ⟨bs, hB, hbl, hb⟩, rfl, rfl, rfl⟩
            intro hk
            rw [h7]
            rw [hs'] at h2
            have := (Option.some.inj h2).symm
            rw [this]
            simp [setComponents, hk]
    · simp at h

/-- **C53.** Without data, `IndexError`; with a value for `sparseness`, training always fails and
leaves the learner as it is. -/
theorem C53_errors (L : Learner M) (n : ℕ) (rnd : ℕ → ℕ → ℝ) :
    L.train [] n rnd = (L, .error .indexError) ∧
    (L.sparseness = true → ∀ data, ∃ e, L.train data n rnd = (L, .error e)) := by
  refine ⟨rfl, fun hs data => ?_⟩
  unfold Learner.train
  cases data with
  | nil => exact ⟨_, rfl⟩
  | cons first rest =>
    simp only []
    split
    · cases L.stackData L.mod (first :: rest) with
      | error e => exact ⟨_, rfl⟩
      | ok V => exact ⟨_, rfl⟩
    · exact ⟨_, rfl⟩

/-! ### C104 -/

theorem stack_success {L : Learner M} (hnd : L.mod.Nodup)
    (hcl : L.mod.length ≤ L.coef.length) (ms : List M) (hms : ∀ m ∈ ms, m ∈ L.mod) :
    ∃ cs, ms.mapM L.getCoef = .ok cs ∧ ∀ c ∈ cs, c ∈ L.coef := by
  refine ⟨ms.map fun m => L.coef.getD (L.mod.idxOf m) 0, ?_, ?_⟩
  · apply mapM_ok
    intro m hm
    have hi := List.idxOf_lt_length_iff.2 (hms m hm)
    have : L.mod[L.mod.idxOf m]? = some m := by
      rw [List.getElem?_eq_getElem hi, List.getElem_idxOf]
    rw [getCoef_ok hnd this, List.getElem?_eq_getElem (by omega)]
    simp [List.getD, List.getElem?_eq_getElem (show L.mod.idxOf m < L.coef.length by omega)]
  · intro c hc
    obtain ⟨m, hm, rfl⟩ := List.mem_map.1 hc
    have hi := List.idxOf_lt_length_iff.2 (hms m hm)
    simp [List.getD, List.getElem?_eq_getElem (show L.mod.idxOf m < L.coef.length by omega)]

/-- **C104.** Training on non negative data, one matrix per modality with the declared dimensions,
succeeds with non negative coefficients and a positive number of iterations. -/
theorem C104_train (L : Learner M) (first : Data) (rest : List Data) (n : ℕ) (rnd : ℕ → ℕ → ℝ)
    (hnd : L.mod.Nodup) (hlen : L.mod.length = L.dim.length) (hcl : L.mod.length = L.coef.length)
    (hdl : (first :: rest).length = L.mod.length) (hs : L.sparseness = false)
    (hdim : ∀ (i : ℕ) (X : Data), (first :: rest)[i]? = some X →
      X.mat.r = first.mat.r ∧ L.dim[i]? = some X.mat.c)
    (hX : ∀ X ∈ first :: rest, NonNeg X.mat) (hc : ∀ c ∈ L.coef, 0 ≤ c) (hn : 0 < n) :
    ∃ L', L.train (first :: rest) n rnd = (L', .ok ()) := by
  obtain ⟨cs, hcs, hmem⟩ := stack_success hnd hcl.le L.mod (fun _ h => h)
  have hcsl : cs.length = L.mod.length := (mapM_py_ok.1 hcs).length_eq.symm
  have hne : ((first :: rest).zip cs).map (fun p => (smul p.2 p.1).mat) ≠ [] := by
    intro h0
    have := congrArg List.length h0
    simp only [List.length_map, List.length_zip, List.length_nil] at this
    simp only [List.length_cons] at this hdl
    omega
  obtain ⟨V, hV, _⟩ := hstack_success (((first :: rest).zip cs).map fun p => (smul p.2 p.1).mat)
    first.mat.r hne (by
      intro A hA
      obtain ⟨⟨X, c⟩, hp, rfl⟩ := List.mem_map.1 hA
      obtain ⟨i, hi⟩ := List.mem_iff_getElem?.1 hp
      obtain ⟨h1, _⟩ := List.getElem?_zip_eq_some.1 hi
      exact (hdim i X h1).1)
  have hst : L.stackData L.mod (first :: rest) =
      .ok ⟨(((first :: rest).zip cs).map fun p => smul p.2 p.1).any Data.sparse, V⟩ := by
    unfold Learner.stackData
    rw [hcs]
    simp only [bind, Except.bind]
    unfold safeHstack
    rw [List.map_map]
    have : hstack (((first :: rest).zip cs).map (Data.mat ∘ fun p => smul p.2 p.1)) = .ok V := hV
    rw [this]
    rfl
  have hVnn : NonNeg V := by
    intro i hi j hj
    obtain ⟨_, g1, g2, g3⟩ := hstack_blocks _ _ hV
    rw [g2] at hj
    obtain ⟨a, w, b, k1, k2, rfl⟩ := exists_part _ j hj
    rw [List.getElem?_map] at k1
    cases hA : (((first :: rest).zip cs).map fun p => (smul p.2 p.1).mat)[a]? with
    | none => rw [hA] at k1; cases k1
    | some A =>
      rw [hA] at k1
      obtain rfl := Option.some.inj k1
      rw [← List.map_take, g3 a A hA i b k2]
      have hr := g1 A (List.mem_of_getElem? hA)
      obtain ⟨⟨X, c⟩, hp, rfl⟩ := List.mem_map.1 (List.mem_of_getElem? hA)
      exact mul_nonneg (hc c (hmem c (List.of_mem_zip hp).2))
        (hX X (List.of_mem_zip hp).1 i (hr ▸ hi) b k2)
  obtain ⟨s', R, hR⟩ := C54_success ⟨some L.k, none, 0, n, none⟩
    ⟨(((first :: rest).zip cs).map fun p => smul p.2 p.1).any Data.sparse, V⟩ rnd 1 true hVnn hn
    (fun D hD => by cases hD)
  unfold Learner.train
  simp only []
  rw [if_pos, hst]
  · simp only [hs, Bool.false_eq_true, if_false]
    unfold NMF.fit
    rw [hR]
    exact ⟨_, rfl⟩
  · rw [List.all_eq_true]
    rintro ⟨X, d⟩ hp
    obtain ⟨i, hi⟩ := List.mem_iff_getElem?.1 hp
    obtain ⟨h1, h2⟩ := List.getElem?_zip_eq_some.1 hi
    obtain ⟨g1, g2⟩ := hdim i X h1
    simp only [Bool.and_eq_true, beq_iff_eq]
    refine ⟨g1, ?_⟩
    rw [h2] at g2
    exact (Option.some.inj g2).symm

/-- **C104.** After that, non negative data of a modality are turned into a non negative matrix with
as many lines and the dimension of the other modality. -/
theorem C104_modality_to_modality (L : Learner M) (D : Mat) (X : Data) (n : ℕ) (rnd : ℕ → ℕ → ℝ)
    (i j : ℕ) (o m : M) (di dj : ℕ) (c : ℝ)
    (hnd : L.mod.Nodup) (hD : L.dico = some D) (hDc : D.c = L.dim.sum) (hDr : D.r ≠ 0)
    (hDn : NonNeg D) (ho : L.mod[i]? = some o) (hm : L.mod[j]? = some m)
    (hdi : L.dim[i]? = some di) (hdj : L.dim[j]? = some dj) (hci : L.coef[i]? = some c) (hc : 0 ≤ c)
    (hX : NonNeg X.mat) (hXc : X.mat.c = di) (hn : 0 < n) :
    ∃ R, L.modalityToModality o m X n rnd = .ok R ∧ NonNeg R ∧ R.r = X.mat.r ∧ R.c = dj := by
  have hle : ∀ (i d : ℕ), L.dim[i]? = some d → (L.dim.take i).sum + d ≤ D.c := by
    intro i d hd
    rw [hDc, ← take_succ_sum hd]
    exact take_sum_le _ _
  have hcn : ∀ s t, NonNeg (cols D s t) := by
    intro s t a ha b hb
    apply hDn a ha
    show b + min s D.c < D.c
    have : b < min t D.c - min s D.c := hb
    omega
  have hcc : ∀ (i d : ℕ), L.dim[i]? = some d →
      (cols D (L.dim.take i).sum ((L.dim.take i).sum + d)).c = d := by
    intro i d hd
    have := hle i d hd
    show min _ _ - min _ _ = _
    omega
  set Di := cols D (L.dim.take i).sum ((L.dim.take i).sum + di) with hDi
  set Dj := cols D (L.dim.take j).sum ((L.dim.take j).sum + dj) with hDj
  -- internal representation
  have hsm : NonNeg (smul c X).mat := fun a ha b hb => mul_nonneg hc (hX a ha b hb)
  have hz : ∃ z, L.reconstructInternal o X n rnd = .ok z ∧ NonNeg z ∧ z.r = X.mat.r ∧ z.c = D.r := by
    have htr : ∃ s' R, NMF.transform ⟨some Di.r, none, 0, n, some Di⟩ (smul c X) rnd 1 true
        = (s', .ok R) := by
      unfold NMF.transform
      simp only []
      unfold fitTransform
      have hcn : checkNonNegative (smul c X) = .ok () := by
        unfold checkNonNegative
        rw [if_neg]
        rintro ⟨a, ha, b, hb, hlt⟩
        exact absurd (hsm a ha b hb) (not_le.2 hlt)
      rw [hcn]
      have hk : setComponents (some Di.r) (smul c X).mat.c = Di.r := by
        exact if_neg hDr
      have hDXc : Di.c = (smul c X).mat.c := by
        rw [hDi, hcc i di hdi]; exact hXc.symm
      simp only [hk, init, hDXc, and_self, if_true, Bool.false_eq_true, if_false]
      rw [if_neg (by omega)]
      exact ⟨_, _, rfl⟩
    obtain ⟨s', R, hR⟩ := htr
    obtain ⟨h1, h2, D', hD', h3⟩ := C54_transform _ s' (smul c X) rnd 1 true R (by
      intro D' hD'
      obtain rfl := Option.some.inj hD'
      exact hcn _ _) hR
    obtain rfl := Option.some.inj hD'
    refine ⟨R.W, ?_, h1, h2, h3⟩
    unfold Learner.reconstructInternal Learner.reconstructInternalMulti
    have e1 : ([o].zip [X]).mapM L.checkDim = .ok [()] := by
      rw [mapM_py_ok]
      refine List.Forall₂.cons ?_ List.Forall₂.nil
      unfold Learner.checkDim
      simp only []
      rw [getIndex_ok hnd ho]
      simp only [bind, Except.bind]
      rw [pyGet_ok.2 hdi]
      simp only []
      rw [if_pos hXc]
      rfl
    have e2 : L.getStackedDicos [o] = .ok Di := by
      unfold Learner.getStackedDicos
      rw [mapM_py_ok.2 (List.Forall₂.cons (getDico_ok hnd ho hdi hD) List.Forall₂.nil)]
      rfl
    have e3 : L.stackData [o] [X] = .ok (smul c X) := by
      unfold Learner.stackData
      rw [mapM_py_ok.2 (List.Forall₂.cons ((getCoef_ok hnd ho).2 hci) List.Forall₂.nil)]
      simp only [bind, Except.bind, List.zip_cons_cons, List.zip_nil_right, List.map_cons, List.map_nil,
        safeHstack, hstack, List.any_cons, List.any_nil, Bool.or_false]
      rfl
    rw [e1, e2, e3]
    simp only [bind, Except.bind]
    unfold fitCoefficients
    simp only []
    rw [hR]
    rfl
  obtain ⟨z, hz1, hz2, hz3, hz4⟩ := hz
  refine ⟨dot z Dj, ?_, dot_nonneg hz2 (hcn _ _) hz4, hz3, hcc j dj hdj⟩
  rw [C52_modality_to_modality, hz1]
  show L.reconstructModality m z = _
  unfold Learner.reconstructModality
  rw [getDico_ok hnd hm hdj hD]
  show dotPy z Dj = _
  exact if_pos hz4

/-- Example: hypotheses of both theorems are met by the learner with two modalities. -/
example : ∃ L', (exLearner none).train [⟨false, ⟨1, 2, fun _ _ => 1⟩⟩, ⟨true, ⟨1, 1, fun _ _ => 1⟩⟩] 3
    (fun _ _ => 0) = (L', .ok ()) :=
  C104_train _ _ _ _ _ (by decide) rfl rfl rfl rfl (by
    intro i X hX
    match i with
    | 0 => obtain rfl := Option.some.inj hX; exact ⟨rfl, rfl⟩
    | 1 => obtain rfl := Option.some.inj hX; exact ⟨rfl, rfl⟩
    | i + 2 => simp at hX) (by
    intro X hX
    simp only [List.mem_cons, List.not_mem_nil, or_false] at hX
    rcases hX with rfl | rfl <;> exact fun _ _ _ _ => by norm_num) (by
    intro c hc
    simp only [exLearner, List.mem_cons, List.not_mem_nil, or_false] at hc
    rcases hc with rfl | rfl <;> norm_num) (by norm_num)

example : ∃ R, (exLearner (some ⟨1, 3, fun _ _ => 1⟩)).modalityToModality false true
    ⟨false, ⟨4, 2, fun _ _ => 1⟩⟩ 3 (fun _ _ => 0) = .ok R ∧ NonNeg R ∧ R.r = 4 ∧ R.c = 1 :=
  C104_modality_to_modality _ ⟨1, 3, fun _ _ => 1⟩ _ _ _ 0 1 _ _ 2 1 1 (by decide) rfl rfl (by decide)
    (fun _ _ _ _ => by norm_num) rfl rfl rfl rfl rfl (by norm_num) (fun _ _ _ _ => by norm_num) rfl
    (by norm_num)

/-- Example for `C52_exact`: a dictionary and coefficients which reproduce the stacked data. -/
example : ∃ c R, (exLearner (some ⟨1, 3, fun _ j => if j < 2 then 1 else 3⟩)).coef[1]? = some c ∧
    (exLearner (some ⟨1, 3, fun _ j => if j < 2 then 1 else 3⟩)).reconstructModality true
      ⟨1, 1, fun _ _ => 1⟩ = .ok R ∧ R.Same ⟨1, 1, fun _ _ => c * 1⟩ := by
  refine C52_exact (exLearner (some ⟨1, 3, fun _ j => if j < 2 then 1 else 3⟩))
    [⟨false, ⟨1, 2, fun _ _ => 1⟩⟩, ⟨false, ⟨1, 1, fun _ _ => 1⟩⟩]
    ⟨false, ⟨1, 3, fun _ j => if j < 2 then 1 * 1 else 3 * 1⟩⟩
    ⟨1, 3, fun _ j => if j < 2 then 1 else 3⟩ ⟨1, 1, fun _ _ => 1⟩ (by decide) rfl rfl rfl rfl rfl
    ?_ ⟨rfl, rfl, ?_⟩ 1 true ⟨false, ⟨1, 1, fun _ _ => 1⟩⟩ rfl rfl
  · rfl
  · intro i _ j _
    simp [dot]

end Verif.Learner
