import Verif.Learner.Double
import Verif.NMF.PropsDouble
import Verif.Objects.Props

/-!
# Property C238: the learner with doubles
-/

namespace Verif.Learner.D

open Verif.NMF.D Verif.Window
open Verif.Objects (mapM_py_ok)

variable {M : Type} [DecidableEq M] {A : Arith} {o : Order}

/-! ### Stacked matrices -/

/-- The entry of a line of matrices side by side. -/
theorem hstack_spec (n : ℕ) (P : ℕ → Num → Prop) : ∀ blocks : List Mat, blocks ≠ [] → (∀ B ∈ blocks, B.r = n) →
    ∃ V, hstack blocks = .ok V ∧ V.r = n ∧ V.c = (blocks.map Mat.c).sum ∧
      ∀ i, (∀ B ∈ blocks, ∀ j < B.c, P i (B.e i j)) → ∀ j < V.c, P i (V.e i j)
  | [], h, _ => absurd rfl h
  | [B], _, h => ⟨B, rfl, h B (by simp), by simp, fun i hB => hB B (by simp)⟩
  | B :: C :: rest, _, h => by
    obtain ⟨V, h1, h2, h3, h4⟩ := hstack_spec n P (C :: rest) (by simp) fun D hD => h D (List.mem_cons_of_mem _ hD)
    have hB := h B List.mem_cons_self
    refine ⟨hcat B V, ?_, hB, ?_, fun i hp j hj => ?_⟩
    · show (do
        let Q ← hstack (C :: rest)
        if B.r = Q.r then return hcat B Q else .error .valueError : Py Mat) = _
      rw [h1]
      show (if B.r = V.r then _ else _) = _
      rw [if_pos (hB.trans h2.symm)]
      rfl
    · show B.c + V.c = _
      rw [h3]
      rfl
    · show P i (if j < B.c then _ else _)
      change j < B.c + V.c at hj
      by_cases hjB : j < B.c
      · rw [if_pos hjB]
        exact hp B List.mem_cons_self j hjB
      · rw [if_neg hjB]
        exact h4 i (fun D hD => hp D (List.mem_cons_of_mem _ hD)) (j - B.c) (by omega)

/-! ### Modalities -/

/-- The dimension of a modality. -/
def HasDim (L : Learner M) (m : M) (d : ℕ) : Prop := ∃ i : ℕ, L.mod[i]? = some m ∧ L.dim[i]? = some d

theorem pyGet_dble {α : Type} {l : List α} {i : ℕ} {a : α} (h : l[i]? = some a) : pyGet l (i : ℤ) = .ok a := by
  unfold pyGet
  rw [if_neg (by omega)]
  simp [h]

theorem index_dble {L : Learner M} (hnd : L.mod.Nodup) {m : M} {i : ℕ} (h : L.mod[i]? = some m) : L.getIndex m = .ok i := by
  have hm : m ∈ L.mod := List.mem_of_getElem? h
  obtain ⟨hi, rfl⟩ := List.getElem?_eq_some_iff.1 h
  unfold Learner.getIndex
  rw [if_pos hm, hnd.idxOf_getElem]

theorem sum_take_le (l : List ℕ) (i d : ℕ) (h : l[i]? = some d) : (l.take i).sum + d ≤ l.sum := by
  obtain ⟨hi, rfl⟩ := List.getElem?_eq_some_iff.1 h
  have h1 : (l.take (i + 1)).sum = (l.take i).sum + l[i] := by
    rw [List.take_succ_eq_append_getElem hi, List.sum_append, List.sum_singleton]
  have h2 : (l.take (i + 1)).sum + (l.drop (i + 1)).sum = l.sum := by
    rw [← List.sum_append, List.take_append_drop]
  omega

/-- The part of the dictionary of a modality. -/
theorem getDico_dble {L : Learner M} (hnd : L.mod.Nodup) {D : Mat} (hD : L.dico = some D) (hc : D.c = L.dim.sum) {m : M} {d : ℕ}
    (h : HasDim L m d) {B : ℚ} (hB : Within D B) : ∃ E, L.getDico m = .ok E ∧ E.r = D.r ∧ E.c = d ∧ Within E B := by
  obtain ⟨i, h1, h2⟩ := h
  have hle := sum_take_le L.dim i d h2
  refine ⟨cols D (L.dim.take i).sum ((L.dim.take i).sum + d), ?_, rfl, ?_, fun a ha b hb => ?_⟩
  · unfold Learner.getDico Learner.getAxisRange
    rw [index_dble hnd h1]
    simp only [bind, Except.bind]
    rw [pyGet_dble h2]
    simp only [hD]
    rfl
  · show min _ _ - min _ _ = _
    omega
  · refine hB a ha (b + min (L.dim.take i).sum D.c) ?_
    change b < min _ _ - min _ _ at hb
    omega

theorem stackedDicos_dble {L : Learner M} (hnd : L.mod.Nodup) {D : Mat} (hD : L.dico = some D) (hc : D.c = L.dim.sum)
    {ms : List M} {ds : List ℕ} (h : List.Forall₂ (HasDim L) ms ds) (hne : ms ≠ []) {B : ℚ} (hB : Within D B) :
    ∃ E, L.getStackedDicos ms = .ok E ∧ E.r = D.r ∧ E.c = ds.sum ∧ Within E B := by
  have key : ∃ Es, ms.mapM L.getDico = .ok Es ∧ Es.map Mat.c = ds ∧ ∀ E ∈ Es, E.r = D.r ∧ Within E B := by
    clear hne
    induction h with
    | nil => exact ⟨[], rfl, rfl, fun E hE => (by cases hE)⟩
    | @cons m d ms ds h1 _ ih =>
      obtain ⟨E, e1, e2, e3, e4⟩ := getDico_dble hnd hD hc h1 hB
      obtain ⟨Es, f1, f2, f3⟩ := ih
      refine ⟨E :: Es, ?_, by rw [List.map_cons, e3, f2], fun F hF => ?_⟩
      · rw [List.mapM_cons, e1, f1]
        rfl
      · rcases List.mem_cons.1 hF with rfl | hF
        · exact ⟨e2, e4⟩
        · exact f3 F hF
  obtain ⟨Es, f1, f2, f3⟩ := key
  have hne' : Es ≠ [] := by
    rintro rfl
    have := (mapM_py_ok.1 f1).length_eq
    exact hne (List.length_eq_zero_iff.1 this)
  obtain ⟨V, v1, v2, v3, v4⟩ := hstack_spec D.r (fun i a => i < D.r → Nn a B) Es hne' fun E hE => (f3 E hE).1
  refine ⟨V, ?_, v2, by rw [v3, f2], fun i hi j hj => ?_⟩
  · unfold Learner.getStackedDicos
    rw [f1]
    exact v1
  · rw [v2] at hi
    exact v4 i (fun E hE j hj hi => (f3 E hE).2 i ((f3 E hE).1 ▸ hi) j hj) j hj hi

/-! ### Data -/

/-- Data of modalities: as many samples, the dimensions of the modalities, and numbers from zero to `2 ^ e`. -/
def FitsMods (L : Learner M) (n e : ℕ) (ms : List M) (data : List Data) : Prop :=
  List.Forall₂ (fun m X => HasDim L m X.mat.c ∧ X.mat.r = n ∧ Within X.mat (2 ^ e)) ms data

theorem stack_dble (hA : A.fin = finite) {L : Learner M} (hnd : L.mod.Nodup) (hl : L.mod.length ≤ L.coef.length) {n e f : ℕ}
    (hef : e + f ≤ 400) (hcoef : ∀ c ∈ L.coef, Nn c (2 ^ f)) {ms : List M} {data : List Data} (h : FitsMods L n e ms data)
    (hne : ms ≠ []) : ∃ V, L.stackData A ms data = .ok V ∧ V.mat.r = n ∧ V.mat.c = (data.map fun X => X.mat.c).sum ∧
      Within V.mat (2 ^ 400) ∧ ∀ i < n, (∀ X ∈ data, ∀ j < X.mat.c, X.mat.e i j = some 0) → ∀ j < V.mat.c, V.mat.e i j = some 0 := by
  have key : ∃ cs, ms.mapM L.getCoef = .ok cs ∧ cs.length = data.length ∧ ∀ c ∈ cs, Nn c (2 ^ f) := by
    clear hne
    induction h with
    | nil => exact ⟨[], rfl, rfl, fun c hc => (by cases hc)⟩
    | @cons m X ms data h1 _ ih =>
      obtain ⟨⟨i, i1, -⟩, -⟩ := h1
      obtain ⟨cs, f1, f2, f3⟩ := ih
      have hi : i < L.coef.length := lt_of_lt_of_le (List.getElem?_eq_some_iff.1 i1).1 hl
      have hc : L.getCoef m = .ok L.coef[i] := by
        unfold Learner.getCoef
        rw [index_dble hnd i1]
        exact pyGet_dble (List.getElem?_eq_getElem hi)
      refine ⟨L.coef[i] :: cs, ?_, by simp [f2], fun c hc => ?_⟩
      · rw [List.mapM_cons, hc, f1]
        rfl
      · rcases List.mem_cons.1 hc with rfl | hc
        · exact hcoef _ (List.getElem_mem hi)
        · exact f3 c hc
  obtain ⟨cs, f1, f2, f3⟩ := key
  have hdata : ∀ X ∈ data, X.mat.r = n ∧ Within X.mat (2 ^ e) := by
    intro X hX
    obtain ⟨i, hi⟩ := List.mem_iff_getElem?.1 hX
    obtain ⟨hlt, rfl⟩ := List.getElem?_eq_some_iff.1 hi
    have h2 := List.forall₂_iff_get.1 h
    have := h2.2 i (by rw [h2.1]; exact hlt) hlt
    exact this.2
  have hne' : data ≠ [] := by
    rintro rfl
    exact hne (List.length_eq_zero_iff.1 (List.Forall₂.length_eq h))
  set blocks := ((data.zip cs).map fun p => smul A p.2 p.1).map Data.mat with hb
  have hbl : blocks ≠ [] := by
    intro h0
    have := congrArg List.length h0
    simp only [hb, List.length_map, List.length_zip, f2, min_self, List.length_nil] at this
    exact hne' (List.length_eq_zero_iff.1 this)
  have hmem : ∀ B ∈ blocks, ∃ X ∈ data, ∃ c ∈ cs, B = (smul A c X).mat := by
    intro B hB
    simp only [hb, List.mem_map] at hB
    obtain ⟨Y, ⟨⟨X, c⟩, hp, rfl⟩, rfl⟩ := hB
    exact ⟨X, (List.of_mem_zip hp).1, c, (List.of_mem_zip hp).2, rfl⟩
  have hr : ∀ B ∈ blocks, B.r = n := by
    intro B hB
    obtain ⟨X, hX, c, -, rfl⟩ := hmem B hB
    exact (hdata X hX).1
  have hsum : (blocks.map Mat.c).sum = (data.map fun X => X.mat.c).sum := by
    have : blocks.map Mat.c = (data.zip cs).map fun p => p.1.mat.c := by
      simp only [hb, List.map_map]
      rfl
    rw [this]
    have h2 : (data.zip cs).map (fun p => p.1.mat.c) = ((data.zip cs).map Prod.fst).map fun X => X.mat.c := by
      rw [List.map_map]
      rfl
    rw [h2, List.map_fst_zip f2.ge]
  have hnn : ∀ c ∈ cs, ∀ X ∈ data, ∀ i < n, ∀ j < X.mat.c, Nn ((smul A c X).mat.e i j) (2 ^ 400) := by
    intro c hc X hX i hi j hj
    show Nn (if X.sparse = true ∧ X.mat.e i j = some 0 then some 0 else times A c (X.mat.e i j)) _
    split_ifs
    · exact ⟨0, rfl, double_zero, le_rfl, by positivity⟩
    obtain ⟨x1, x2⟩ := hdata X hX
    refine times_nn hA (f3 c hc) (x2 i (x1 ▸ hi) j hj) ?_ (double_pow 400) (pow_lt (by norm_num))
    rw [← pow_add]
    exact pow_le (by omega)
  obtain ⟨V, v1, v2, v3, v4⟩ := hstack_spec n (fun i a => i < n → Nn a (2 ^ 400)) blocks hbl hr
  obtain ⟨V', w1, -, -, w4⟩ := hstack_spec n (fun _ a => a = some 0) blocks hbl hr
  rw [v1] at w1
  cases w1
  refine ⟨⟨((data.zip cs).map fun p => smul A p.2 p.1).any Data.sparse, V⟩, ?_, v2, v3.trans hsum, fun i hi j hj => ?_,
    fun i hi hz j hj => ?_⟩
  · unfold Learner.stackData
    rw [f1]
    show safeHstack _ = _
    unfold safeHstack
    rw [v1]
    rfl
  · change i < V.r at hi
    rw [v2] at hi
    refine v4 i (fun B hB j hj hi => ?_) j hj hi
    obtain ⟨X, hX, c, hc, rfl⟩ := hmem B hB
    exact hnn c hc X hX i hi j hj
  · refine w4 i (fun B hB j hj => ?_) j hj
    obtain ⟨X, hX, c, hc, rfl⟩ := hmem B hB
    obtain ⟨x, rfl, -⟩ := f3 c hc
    show (if X.sparse = true ∧ X.mat.e i j = some 0 then some 0 else times A (some x) (X.mat.e i j)) = _
    split_ifs
    · rfl
    rw [hz X hX j hj]
    show A.fin (x * 0) = _
    rw [hA, mul_zero]
    exact finite_double double_zero (by rw [abs_zero]; positivity)

/-- **C238.** Training on data from zero to `2 ^ e` with coefficients from zero to `2 ^ f`, `e + f ≤ 400`, succeeds: nothing overflows,
and the dictionary contains doubles between zero and one. -/
theorem C238_train (hA : IsDouble A) (ho : o.Ok) (L : Learner M) (hnd : L.mod.Nodup) (hl : L.mod.length = L.coef.length)
    (hm : L.mod ≠ []) (n e f : ℕ) (hef : e + f ≤ 400) (hcoef : ∀ c ∈ L.coef, Nn c (2 ^ f)) (data : List Data)
    (hdim : data.map (fun X => X.mat.c) = L.dim) (h : FitsMods L n e L.mod data) (hn : n ≤ 2 ^ 53) (hd : L.dim.sum ≤ 2 ^ 53)
    (hnd' : n * L.dim.sum ≤ 2 ^ 53) (hk : L.k ≤ 2 ^ 53) (hk0 : L.k ≠ 0) (it : ℕ) (hit : 0 < it) (rnd : ℕ → ℕ → ℚ)
    (hr : ∀ i j, Double (rnd i j) ∧ 0 ≤ rnd i j ∧ rnd i j ≤ 1) :
    ∃ D, L.train A o data it rnd = ({ L with dico := some D }, .ok ()) ∧ D.r = L.k ∧ D.c = L.dim.sum ∧ Within D 1 := by
  obtain ⟨V, v1, v2, v3, v4, -⟩ := stack_dble hA.fin hnd hl.le hef hcoef h hm
  rw [hdim] at v3
  obtain ⟨s', R, H, r1, r2, -, -, -, r3, r4, r5, -⟩ := C197_fit hA ho ⟨some L.k, none, 0, it, none⟩ V rnd
    (by
      show Fits V (if L.k = 0 then V.mat.c else L.k)
      rw [if_neg hk0]
      exact ⟨v4, v2 ▸ hn, v3 ▸ hd, by rw [v2, v3]; exact hnd', hk⟩) hit hr (fun D hD => by cases hD)
  have hs : setComponents (some L.k) V.mat.c = L.k := if_neg hk0
  have hall : ∀ X ∈ data, X.mat.r = n := by
    intro X hX
    obtain ⟨i, hi⟩ := List.mem_iff_getElem?.1 hX
    obtain ⟨hlt, rfl⟩ := List.getElem?_eq_some_iff.1 hi
    have h2 := List.forall₂_iff_get.1 h
    exact (h2.2 i (by rw [h2.1]; exact hlt) hlt).2.1
  refine ⟨H, ?_, r3.trans hs, r4.trans v3, r5⟩
  rcases data with _ | ⟨first, rest⟩
  · exact absurd (List.length_eq_zero_iff.1 (List.Forall₂.length_eq h)) hm
  · unfold Learner.train
    have hcheck : ((first :: rest).zip L.dim).all (fun p => p.1.mat.r == first.mat.r && p.1.mat.c == p.2) = true := by
      rw [List.all_eq_true]
      rintro ⟨X, d⟩ hp
      obtain ⟨i, hi⟩ := List.mem_iff_getElem?.1 hp
      obtain ⟨i1, i2⟩ := List.getElem?_zip_eq_some.1 hi
      rw [← hdim, List.getElem?_map, i1] at i2
      have hX := hall X (List.mem_of_getElem? i1)
      have hF := hall first List.mem_cons_self
      simp only [Option.map_some, Option.some.injEq] at i2
      simp [hX, hF, i2]
    simp only [hcheck, if_true, v1]
    unfold fit
    simp only [r1, Except.map, r2]

/-- **C238.** With a dictionary as made by training, reconstruction of modalities from others succeeds: there is no infinity nor NaN,
numbers are not negative, dimensions are those of the modalities, and samples which are zero in all given modalities are
reconstructed by zeros. -/
theorem C238_reconstruct (hA : IsDouble A) (ho : o.Ok) (L : Learner M) (hnd : L.mod.Nodup) (hl : L.mod.length = L.coef.length)
    (n e f : ℕ) (hef : e + f ≤ 400) (hcoef : ∀ c ∈ L.coef, Nn c (2 ^ f)) (D : Mat) (hD : L.dico = some D)
    (hDc : D.c = L.dim.sum) (hD1 : Within D 1) (hk : D.r ≤ 2 ^ 53) (hk0 : D.r ≠ 0) (orig dest : List M) (horig : orig ≠ [])
    (hdest : dest ≠ []) (ds : List ℕ) (hds : List.Forall₂ (HasDim L) dest ds) (data : List Data) (h : FitsMods L n e orig data)
    (hn : n ≤ 2 ^ 53) (hc : (data.map fun X => X.mat.c).sum ≤ 2 ^ 53) (hs : n * (data.map fun X => X.mat.c).sum ≤ 2 ^ 53)
    (it : ℕ) (hit : 0 < it) (rnd : ℕ → ℕ → ℚ) :
    ∃ R, L.modalitiesToModalities A o orig dest data it rnd = .ok R ∧ R.r = n ∧ R.c = ds.sum ∧ Within R (2 ^ 512) ∧
      ∀ i < n, (∀ X ∈ data, ∀ j < X.mat.c, X.mat.e i j = some 0) → ∀ j < R.c, R.e i j = some 0 := by
  obtain ⟨V, v1, v2, v3, v4, v5⟩ := stack_dble hA.fin hnd hl.le hef hcoef h horig
  have hdim : List.Forall₂ (HasDim L) orig (data.map fun X => X.mat.c) := by
    rw [List.forall₂_map_right_iff]
    exact List.Forall₂.imp (fun _ _ hx => hx.1) h
  obtain ⟨E, e1, e2, e3, e4⟩ := stackedDicos_dble hnd hD hDc hdim horig hD1
  obtain ⟨F, f1, f2, f3, f4⟩ := stackedDicos_dble hnd hD hDc hds hdest hD1
  have hcheck : (orig.zip data).mapM L.checkDim = .ok (List.replicate (orig.zip data).length ()) := by
    clear v1 v2 v3 v5 e1 e3 hdim horig hc hs
    induction h with
    | nil => rfl
    | @cons m X ms data h1 _ ih =>
      obtain ⟨⟨i, i1, i2⟩, -⟩ := h1
      have : L.checkDim (m, X) = .ok () := by
        unfold Learner.checkDim
        rw [index_dble hnd i1]
        simp only [bind, Except.bind]
        rw [pyGet_dble i2]
        simp only [if_true]
        rfl
      rw [List.zip_cons_cons, List.mapM_cons, this, ih]
      rfl
  have hE0 : E.r ≠ 0 := e2 ▸ hk0
  have hset : setComponents (some E.r) V.mat.c = E.r := if_neg hE0
  have hFits : Fits V E.r := ⟨v4, v2 ▸ hn, v3 ▸ hc, by rw [v2, v3]; exact hs, e2 ▸ hk⟩
  obtain ⟨s', R, r1, -, r2, r3, r4, -⟩ := C197_transform hA ho ⟨some E.r, none, 0, it, some E⟩ V rnd E hFits hit rfl hset.symm
    (e3.trans v3.symm) e4
  have hW : L.reconstructInternalMulti A o orig data it rnd = .ok R.W := by
    unfold Learner.reconstructInternalMulti
    rw [hcheck]
    simp only [bind, Except.bind, e1, v1]
    unfold fitCoefficients
    rw [r1]
    rfl
  have hsh : R.W.c = F.r := by rw [r3, e2, f2]
  refine ⟨dot A o R.W F, ?_, r2.trans v2, f3, ?_, fun i hi hz j hj => ?_⟩
  · unfold Learner.modalitiesToModalities
    rw [hW]
    simp only [bind, Except.bind]
    unfold Learner.reconstructModalities
    rw [f1]
    simp only [bind, Except.bind]
    unfold dotPy
    rw [if_pos hsh]
  · have := dot_within' hA.fin ho r4 (one_within f4) hsh (by rw [r3, e2]; exact hk) (by norm_num)
    exact this
  · have hz' := C198_empty_samples hA.fin ho ⟨some E.r, none, 0, it, some E⟩ s' V (fun _ _ => 0) R
      (by show Fits V (setComponents (some E.r) V.mat.c); rw [hset]; exact hFits) hit
      (fun _ _ => ⟨double_zero, le_rfl, by norm_num⟩) i (v2 ▸ hi) (v5 i hi hz) (Or.inr ⟨?_, E, rfl, hset.symm, e3.trans v3.symm, e4⟩)
    · refine eval_zero hA.fin _ fun k hk' => ?_
      have hk2 := (ho.dot R.W F i j).2.1 k hk'
      obtain ⟨y, hy, -⟩ := f4 k (hsh ▸ hk2) j hj
      exact ⟨hz' k hk2, y, hy⟩
    · rw [← r1]
      rfl

/-- **C238.** A learner which was trained reconstructs: whatever the data of training and those of later requests, within the bounds, a
request after training gives finite non-negative doubles, as many as samples and dimensions asked for. -/
theorem C238_trained (hA : IsDouble A) (ho : o.Ok) (L : Learner M) (hnd : L.mod.Nodup) (hl : L.mod.length = L.coef.length)
    (hm : L.mod ≠ []) (n e f : ℕ) (hef : e + f ≤ 400) (hcoef : ∀ c ∈ L.coef, Nn c (2 ^ f)) (data : List Data)
    (hdim : data.map (fun X => X.mat.c) = L.dim) (h : FitsMods L n e L.mod data) (hn : n ≤ 2 ^ 53) (hd : L.dim.sum ≤ 2 ^ 53)
    (hnd' : n * L.dim.sum ≤ 2 ^ 53) (hk : L.k ≤ 2 ^ 53) (hk0 : L.k ≠ 0) (it : ℕ) (hit : 0 < it) (rnd : ℕ → ℕ → ℚ)
    (hr : ∀ i j, Double (rnd i j) ∧ 0 ≤ rnd i j ∧ rnd i j ≤ 1) :
    (L.train A o data it rnd).2 = .ok () ∧
    ∀ (orig dest : List M) (ds : List ℕ) (test : List Data) (n' it' : ℕ) (rnd' : ℕ → ℕ → ℚ), orig ≠ [] → dest ≠ [] →
      List.Forall₂ (HasDim L) dest ds → FitsMods L n' e orig test → n' ≤ 2 ^ 53 → (test.map fun X => X.mat.c).sum ≤ 2 ^ 53 →
      n' * (test.map fun X => X.mat.c).sum ≤ 2 ^ 53 → 0 < it' →
      ∃ R, (L.train A o data it rnd).1.modalitiesToModalities A o orig dest test it' rnd' = .ok R ∧ R.r = n' ∧ R.c = ds.sum ∧
        Within R (2 ^ 512) ∧
        ∀ i < n', (∀ X ∈ test, ∀ j < X.mat.c, X.mat.e i j = some 0) → ∀ j < R.c, R.e i j = some 0 := by
  obtain ⟨D, t1, t2, t3, t4⟩ := C238_train hA ho L hnd hl hm n e f hef hcoef data hdim h hn hd hnd' hk hk0 it hit rnd hr
  rw [t1]
  refine ⟨rfl, fun orig dest ds test n' it' rnd' h1 h2 h3 h4 h5 h6 h7 h8 => ?_⟩
  exact C238_reconstruct hA ho { L with dico := some D } hnd hl n' e f hef hcoef D rfl t3 t4 (t2 ▸ hk) (t2 ▸ hk0) orig dest h1 h2 ds
    h3 test h4 h5 h6 h7 it' h8 rnd'

/-! ### Positions -/

theorem hstack_entry : ∀ (blocks : List Mat) (V : Mat), hstack blocks = .ok V → ∀ (p : ℕ) (B : Mat), blocks[p]? = some B →
    ∀ (i j : ℕ), j < B.c → V.e i (((blocks.take p).map Mat.c).sum + j) = B.e i j
  | [], V, h, _, _, _ => by cases h
  | [C], V, h, p, B, hp => by
    cases h
    rcases p with _ | p
    · cases hp
      intro i j _
      simp
    · cases hp
  | C :: C' :: rest, V, h, p, B, hp => by
    intro i j hj
    have h' : (hstack (C' :: rest) >>= fun Q => if C.r = Q.r then pure (hcat C Q) else .error .valueError) = Except.ok V := h
    cases hQ : hstack (C' :: rest) with
    | error e => rw [hQ] at h'; cases h'
    | ok Q =>
      rw [hQ] at h'
      change (if C.r = Q.r then _ else _) = _ at h'
      split_ifs at h'
      cases h'
      rcases p with _ | p
      · cases hp
        show (if _ then _ else _) = _
        rw [if_pos (by simpa using hj)]
        simp
      · have hp' : (C' :: rest)[p]? = some B := hp
        show (if _ then _ else _) = _
        have hsum : (((C :: C' :: rest).take (p + 1)).map Mat.c).sum = C.c + (((C' :: rest).take p).map Mat.c).sum := by
          simp
        rw [hsum, if_neg (by omega), ← hstack_entry (C' :: rest) Q hQ p B hp' i j hj]
        congr 1
        omega

/-- **C238.** Stacked data contain, from the sum of the dimensions of previous modalities on, the data of a modality, each number
multiplied by the coefficient of that modality and rounded, except zeros of sparse data, which remain. -/
theorem C238_stacked (L : Learner M) (hnd : L.mod.Nodup) (ms : List M) (data : List Data) (V : Data)
    (h : L.stackData A ms data = .ok V) (p q : ℕ) (m : M) (X : Data) (c : Num) (hm : ms[p]? = some m) (hX : data[p]? = some X)
    (hq : L.mod[q]? = some m) (hc : L.coef[q]? = some c) (i j : ℕ) (hj : j < X.mat.c) :
    V.mat.e i (((data.take p).map fun Y => Y.mat.c).sum + j) =
        (if X.sparse = true ∧ X.mat.e i j = some 0 then some 0 else times A c (X.mat.e i j)) ∧
      (V.sparse = true ↔ ∃ r Y, data[r]? = some Y ∧ r < ms.length ∧ Y.sparse = true) := by
  unfold Learner.stackData at h
  cases hcs : ms.mapM L.getCoef with
  | error e => rw [hcs] at h; cases h
  | ok cs =>
    rw [hcs] at h
    change safeHstack _ = _ at h
    unfold safeHstack at h
    cases hV : hstack (((data.zip cs).map fun p => smul A p.2 p.1).map Data.mat) with
    | error e => rw [hV] at h; cases h
    | ok W =>
      rw [hV] at h
      cases h
      have hf := mapM_py_ok.1 hcs
      have hlen : ms.length = cs.length := hf.length_eq
      have hpl : p < cs.length := hlen ▸ (List.getElem?_eq_some_iff.1 hm).1
      have hcp : cs[p]? = some c := by
        have h2 := (List.forall₂_iff_get.1 hf).2 p (hlen ▸ hpl) hpl
        obtain ⟨_, hmm⟩ := List.getElem?_eq_some_iff.1 hm
        simp only [List.get_eq_getElem] at h2
        rw [hmm] at h2
        unfold Learner.getCoef at h2
        rw [index_dble hnd hq] at h2
        change pyGet L.coef (q : ℤ) = _ at h2
        rw [pyGet_dble hc] at h2
        rw [List.getElem?_eq_getElem hpl]
        exact congrArg some (Except.ok.inj h2).symm
      have hz : (data.zip cs)[p]? = some (X, c) := List.getElem?_zip_eq_some.2 ⟨hX, hcp⟩
      refine ⟨?_, ?_⟩
      · have := hstack_entry _ W hV p (smul A c X).mat (by rw [List.getElem?_map, List.getElem?_map, hz]; rfl) i j hj
        rw [← List.map_take, ← List.map_take, List.map_map, List.map_map] at this
        have hs : ((data.zip cs).take p).map ((Mat.c ∘ Data.mat) ∘ fun p => smul A p.2 p.1) =
            (data.take p).map fun Y => Y.mat.c := by
          have hz' : (data.zip cs).take p = (data.take p).zip (cs.take p) := List.take_zipWith
          rw [hz']
          have h3 : ((data.take p).zip (cs.take p)).map ((Mat.c ∘ Data.mat) ∘ fun p => smul A p.2 p.1) =
              (((data.take p).zip (cs.take p)).map Prod.fst).map fun Y => Y.mat.c := by
            rw [List.map_map]
            rfl
          rw [h3, List.map_fst_zip (by simp only [List.length_take]; omega)]
        rw [hs] at this
        exact this
      · show List.any _ _ = true ↔ _
        rw [List.any_eq_true]
        constructor
        · rintro ⟨Y, hY, hs⟩
          obtain ⟨⟨Z, d⟩, hZ, rfl⟩ := List.mem_map.1 hY
          obtain ⟨r, hr⟩ := List.mem_iff_getElem?.1 hZ
          obtain ⟨r1, r2⟩ := List.getElem?_zip_eq_some.1 hr
          exact ⟨r, Z, r1, hlen ▸ (List.getElem?_eq_some_iff.1 r2).1, hs⟩
        · rintro ⟨r, Y, r1, r2, hs⟩
          have hr : (data.zip cs)[r]? = some (Y, cs[r]'(hlen ▸ r2)) :=
            List.getElem?_zip_eq_some.2 ⟨r1, List.getElem?_eq_getElem _⟩
          exact ⟨_, List.mem_map.2 ⟨_, List.mem_of_getElem? hr, rfl⟩, hs⟩

/-- **C238.** Stacked dictionaries contain, from the sum of the dimensions of previous modalities on, the columns of a modality in
the dictionary. -/
theorem C238_dictionaries (L : Learner M) (hnd : L.mod.Nodup) (D : Mat) (hD : L.dico = some D) (hc : D.c = L.dim.sum)
    (ms : List M) (ds : List ℕ) (hds : List.Forall₂ (HasDim L) ms ds) (E : Mat) (h : L.getStackedDicos ms = .ok E) (p q : ℕ)
    (m : M) (d : ℕ) (hm : ms[p]? = some m) (hq : L.mod[q]? = some m) (hd : L.dim[q]? = some d) (i j : ℕ) (hj : j < d) :
    E.e i ((ds.take p).sum + j) = D.e i ((L.dim.take q).sum + j) := by
  have one : ∀ m' q' d', L.mod[q']? = some m' → L.dim[q']? = some d' →
      L.getDico m' = .ok (cols D (L.dim.take q').sum ((L.dim.take q').sum + d')) := by
    intro m' q' d' h1 h2
    unfold Learner.getDico Learner.getAxisRange
    rw [index_dble hnd h1]
    simp only [bind, Except.bind]
    rw [pyGet_dble h2]
    simp only [hD]
    rfl
  have width : ∀ q' d', L.dim[q']? = some d' → (cols D (L.dim.take q').sum ((L.dim.take q').sum + d')).c = d' := by
    intro q' d' h2
    have := sum_take_le L.dim q' d' h2
    show min _ _ - min _ _ = _
    omega
  unfold Learner.getStackedDicos at h
  cases hEs : ms.mapM L.getDico with
  | error e => rw [hEs] at h; cases h
  | ok Es =>
    rw [hEs] at h
    change hstack Es = _ at h
    have hf := mapM_py_ok.1 hEs
    have hlen := hf.length_eq
    have hcs : Es.map Mat.c = ds := by
      clear h hEs hm hlen
      induction hds generalizing Es with
      | nil => cases hf; rfl
      | cons h1 _ ih =>
        cases hf with
        | cons g1 g2 =>
          obtain ⟨q', a1, a2⟩ := h1
          rw [one _ q' _ a1 a2] at g1
          cases g1
          rw [List.map_cons, width q' _ a2, ih _ g2]
    have hpl : p < Es.length := hlen ▸ (List.getElem?_eq_some_iff.1 hm).1
    have hEp : Es[p]? = some (cols D (L.dim.take q).sum ((L.dim.take q).sum + d)) := by
      have h2 := (List.forall₂_iff_get.1 hf).2 p (hlen ▸ hpl) hpl
      obtain ⟨_, hmm⟩ := List.getElem?_eq_some_iff.1 hm
      simp only [List.get_eq_getElem] at h2
      rw [hmm, one m q d hq hd] at h2
      rw [List.getElem?_eq_getElem hpl]
      exact congrArg some (Except.ok.inj h2).symm
    have := hstack_entry Es E h p _ hEp i j (by rw [width q d hd]; exact hj)
    rw [List.map_take, hcs] at this
    rw [this]
    have hle := sum_take_le L.dim q d hd
    show D.e i (j + min _ _) = _
    rw [min_eq_left (by omega), add_comm]

/-- **C238.** What training and reconstruction compute: the dictionary is the one of a new factorization of the stacked data, with as
many components as the learner and a zero tolerance; the reconstruction is the product of the coefficients of the stacked data, for
the stacked dictionaries of the given modalities, by the stacked dictionaries of the others. -/
theorem C238_formulas (L : Learner M) :
    (∀ (L' : Learner M) (data : List Data) (it : ℕ) (rnd : ℕ → ℕ → ℚ), L.train A o data it rnd = (L', .ok ()) →
      ∃ V s' T, L.stackData A L.mod data = .ok V ∧
        fitTransform A o ⟨some L.k, none, 0, it, none⟩ V rnd true = (s', .ok T) ∧ L' = { L with dico := s'.components }) ∧
    ∀ (orig dest : List M) (data : List Data) (it : ℕ) (rnd : ℕ → ℕ → ℚ) (R : Mat),
      L.modalitiesToModalities A o orig dest data it rnd = .ok R →
      ∃ V E F s' T, L.stackData A orig data = .ok V ∧ L.getStackedDicos orig = .ok E ∧ L.getStackedDicos dest = .ok F ∧
        transform A o ⟨some E.r, none, 0, it, some E⟩ V rnd = (s', .ok T) ∧ T.W.c = F.r ∧ R = dot A o T.W F := by
  constructor
  · intro L' data it rnd h
    unfold Learner.train at h
    rcases data with _ | ⟨first, rest⟩
    · cases h
    · simp only at h
      split_ifs at h
      · cases hV : L.stackData A L.mod (first :: rest) with
        | error e => rw [hV] at h; cases h
        | ok V =>
          rw [hV] at h
          unfold fit at h
          cases hT : fitTransform A o ⟨some L.k, none, 0, it, none⟩ V rnd true with
          | mk s' T =>
            rcases T with e | T
            · simp only [hT, Except.map] at h
              cases h
            · simp only [hT, Except.map] at h
              cases h
              exact ⟨V, s', T, rfl, hT, rfl⟩
      · cases h
  · intro orig dest data it rnd R h
    unfold Learner.modalitiesToModalities Learner.reconstructInternalMulti Learner.reconstructModalities fitCoefficients dotPy at h
    cases h1 : (orig.zip data).mapM L.checkDim with
    | error e => rw [h1] at h; cases h
    | ok u =>
      cases h2 : L.getStackedDicos orig with
      | error e => rw [h1, h2] at h; cases h
      | ok E =>
        cases h3 : L.stackData A orig data with
        | error e => rw [h1, h2, h3] at h; cases h
        | ok V =>
          rw [h1, h2, h3] at h
          simp only [bind, Except.bind] at h
          cases hT : transform A o ⟨some E.r, none, 0, it, some E⟩ V rnd with
          | mk s' T =>
            rcases T with e | T
            · simp only [hT, Except.map] at h
              cases h
            · simp only [hT, Except.map] at h
              cases h4 : L.getStackedDicos dest with
              | error e => rw [h4] at h; cases h
              | ok F =>
                rw [h4] at h
                simp only at h
                split_ifs at h with h5
                cases h
                exact ⟨V, E, F, s', T, rfl, rfl, rfl, hT, h5, rfl⟩

/-- **C238.** When the product of a number of the data by the coefficient of its modality is not finite (an overflow, or data or a
coefficient which are not finite), and is no zero of sparse data, training raises `ValueError` and the learner does not change. -/
theorem C238_overflow (L : Learner M) (hnd : L.mod.Nodup) (hl : L.mod.length = L.coef.length) (n : ℕ) (data : List Data)
    (hdim : data.map (fun X => X.mat.c) = L.dim) (hr : ∀ X ∈ data, X.mat.r = n) (hm : L.mod.length = data.length) (p : ℕ) (X : Data)
    (c : Num) (hX : data[p]? = some X) (hc : L.coef[p]? = some c) (i j : ℕ) (hi : i < n) (hj : j < X.mat.c)
    (hinf : times A c (X.mat.e i j) = none) (hst : ¬ (X.sparse = true ∧ X.mat.e i j = some 0)) (it : ℕ) (rnd : ℕ → ℕ → ℚ) :
    L.train A o data it rnd = (L, .error .valueError) := by
  have hcoefs : L.mod.mapM L.getCoef = .ok L.coef := by
    refine mapM_py_ok.2 (List.forall₂_iff_get.2 ⟨hl, fun q h1 h2 => ?_⟩)
    unfold Learner.getCoef
    simp only [List.get_eq_getElem]
    rw [index_dble hnd (List.getElem?_eq_getElem h1)]
    exact pyGet_dble (List.getElem?_eq_getElem h2)
  have hpd : p < data.length := (List.getElem?_eq_some_iff.1 hX).1
  have hblocks : ((data.zip L.coef).map fun p => smul A p.2 p.1).map Data.mat ≠ [] := by
    intro h0
    have := congrArg List.length h0
    simp only [List.length_map, List.length_zip, List.length_nil] at this
    omega
  obtain ⟨W, w1, w2, w3, -⟩ := hstack_spec n (fun _ _ => True) _ hblocks (by
    intro B hB
    obtain ⟨Y, hY, rfl⟩ := List.mem_map.1 hB
    obtain ⟨⟨Z, d⟩, hZ, rfl⟩ := List.mem_map.1 hY
    exact hr Z (List.of_mem_zip hZ).1)
  have hstack' : L.stackData A L.mod data = .ok ⟨((data.zip L.coef).map fun p => smul A p.2 p.1).any Data.sparse, W⟩ := by
    unfold Learner.stackData
    rw [hcoefs]
    show safeHstack _ = _
    unfold safeHstack
    rw [w1]
    rfl
  have hw : W.c = L.dim.sum := by
    rw [w3, List.map_map, List.map_map]
    have h3 : (data.zip L.coef).map ((Mat.c ∘ Data.mat) ∘ fun p => smul A p.2 p.1) =
        ((data.zip L.coef).map Prod.fst).map fun Y => Y.mat.c := by
      rw [List.map_map]
      rfl
    rw [h3, List.map_fst_zip (by omega), hdim]
  have hentry := (C238_stacked (A := A) L hnd L.mod data _ hstack' p p (L.mod[p]'(by omega)) X c (List.getElem?_eq_getElem _) hX
    (List.getElem?_eq_getElem _) hc i j hj).1
  have hlt : ((data.take p).map fun Y => Y.mat.c).sum + j < W.c := by
    have := sum_take_le L.dim p X.mat.c (by rw [← hdim, List.getElem?_map, hX]; rfl)
    rw [← hdim, ← List.map_take] at this
    rw [hw, ← hdim]
    omega
  rcases data with _ | ⟨first, rest⟩
  · simp at hpd
  · unfold Learner.train
    have hcheck : ((first :: rest).zip L.dim).all (fun p => p.1.mat.r == first.mat.r && p.1.mat.c == p.2) = true := by
      rw [List.all_eq_true]
      rintro ⟨Y, d⟩ hp
      obtain ⟨q, hq⟩ := List.mem_iff_getElem?.1 hp
      obtain ⟨q1, q2⟩ := List.getElem?_zip_eq_some.1 hq
      rw [← hdim, List.getElem?_map, q1] at q2
      have hY := hr Y (List.mem_of_getElem? q1)
      have hF := hr first List.mem_cons_self
      simp only [Option.map_some, Option.some.injEq] at q2
      simp [hY, hF, q2]
    simp only [hcheck, if_true, hstack']
    unfold fit fitTransform
    rw [if_pos ⟨i, by rw [w2]; exact hi, _, hlt, by rw [hentry, if_neg hst, hinf]; rfl⟩]
    rfl

theorem mapM_first_error {α β : Type} (g : α → Py β) (e : PyErr) : ∀ (l : List α) (p : ℕ) (a : α), l[p]? = some a →
    (∀ q < p, ∀ b, l[q]? = some b → ∃ c, g b = .ok c) → g a = .error e → l.mapM g = .error e
  | [], p, a, h, _, _ => by cases h
  | x :: l, 0, a, h, _, he => by
    cases h
    rw [List.mapM_cons, he]
    rfl
  | x :: l, p + 1, a, h, hq, he => by
    obtain ⟨c, hc⟩ := hq 0 (Nat.succ_pos p) x rfl
    rw [List.mapM_cons, hc, mapM_first_error g e l p a h (fun q h1 b h2 => hq (q + 1) (by omega) b h2) he]
    rfl

theorem checkDim_dble {L : Learner M} (hnd : L.mod.Nodup) {m : M} {d : ℕ} (h : HasDim L m d) (X : Data) :
    L.checkDim (m, X) = if X.mat.c = d then .ok () else .error .assertionError := by
  obtain ⟨i, i1, i2⟩ := h
  unfold Learner.checkDim
  rw [index_dble hnd i1]
  simp only [bind, Except.bind]
  rw [pyGet_dble i2]
  rfl

/-- **C238.** Errors of training: without data `IndexError`, with data of another number of samples or another dimension
`AssertionError`; the learner does not change. -/
theorem C238_train_errors (L : Learner M) (it : ℕ) (rnd : ℕ → ℕ → ℚ) :
    L.train A o [] it rnd = (L, .error .indexError) ∧
    ∀ (first : Data) (rest : List Data) (p d : ℕ) (X : Data), (first :: rest)[p]? = some X → L.dim[p]? = some d →
      (X.mat.r ≠ first.mat.r ∨ X.mat.c ≠ d) → L.train A o (first :: rest) it rnd = (L, .error .assertionError) := by
  refine ⟨rfl, fun first rest p d X hX hd hne => ?_⟩
  unfold Learner.train
  have : ¬ ((first :: rest).zip L.dim).all (fun p => p.1.mat.r == first.mat.r && p.1.mat.c == p.2) = true := by
    intro h
    rw [List.all_eq_true] at h
    have := h (X, d) (List.mem_of_getElem? (List.getElem?_zip_eq_some.2 ⟨hX, hd⟩))
    simp only [Bool.and_eq_true, beq_iff_eq] at this
    rcases hne with h1 | h1
    · exact h1 this.1
    · exact h1 this.2
  simp only [if_neg this]

/-- **C238.** Errors of reconstructions: the first given modality which is not known or whose data have another dimension raises
`ValueError` or `AssertionError`; then a learner which was not trained raises `TypeError`; without given modalities, or when one
asked for is not known, or without any, it is `ValueError`. -/
theorem C238_reconstruct_errors (L : Learner M) (hnd : L.mod.Nodup) (hl : L.mod.length = L.dim.length) (orig dest : List M)
    (data : List Data) (it : ℕ) (rnd : ℕ → ℕ → ℚ) :
    (∀ (p : ℕ) (m : M) (X : Data), orig[p]? = some m → data[p]? = some X →
      (∀ q < p, ∀ m' X', orig[q]? = some m' → data[q]? = some X' → HasDim L m' X'.mat.c) →
      (m ∉ L.mod → L.modalitiesToModalities A o orig dest data it rnd = .error .valueError) ∧
      ∀ d, HasDim L m d → X.mat.c ≠ d → L.modalitiesToModalities A o orig dest data it rnd = .error .assertionError) ∧
    (orig ≠ [] → L.dico = none → List.Forall₂ (fun m X => HasDim L m X.mat.c) orig data →
      L.modalitiesToModalities A o orig dest data it rnd = .error .typeError) ∧
    (orig = [] → L.modalitiesToModalities A o orig dest data it rnd = .error .valueError) ∧
    ∀ W D, L.reconstructInternalMulti A o orig data it rnd = .ok W → L.dico = some D → (dest = [] ∨ ∃ m ∈ dest, m ∉ L.mod) →
      L.modalitiesToModalities A o orig dest data it rnd = .error .valueError := by
  have known : ∀ m ∈ L.mod, ∃ d, HasDim L m d := by
    intro m hm
    obtain ⟨i, hi⟩ := List.mem_iff_getElem?.1 hm
    have hlt : i < L.dim.length := hl ▸ (List.getElem?_eq_some_iff.1 hi).1
    exact ⟨_, i, hi, List.getElem?_eq_getElem hlt⟩
  have fails : ∀ e, (orig.zip data).mapM L.checkDim = .error e →
      L.modalitiesToModalities A o orig dest data it rnd = .error e := by
    intro e he
    unfold Learner.modalitiesToModalities Learner.reconstructInternalMulti
    rw [he]
    rfl
  refine ⟨fun p m X hm hX hq => ?_, fun hne hD h => ?_, fun h0 => ?_, fun W D hW hD hdest => ?_⟩
  · have hz : (orig.zip data)[p]? = some (m, X) := List.getElem?_zip_eq_some.2 ⟨hm, hX⟩
    have hq' : ∀ q < p, ∀ b, (orig.zip data)[q]? = some b → ∃ c, L.checkDim b = .ok c := by
      rintro q h1 ⟨m', X'⟩ h2
      obtain ⟨h3, h4⟩ := List.getElem?_zip_eq_some.1 h2
      exact ⟨(), by rw [checkDim_dble hnd (hq q h1 m' X' h3 h4), if_pos rfl]⟩
    refine ⟨fun hnot => fails _ (mapM_first_error _ _ _ p _ hz hq' ?_), fun d hd hdiff =>
      fails _ (mapM_first_error _ _ _ p _ hz hq' ?_)⟩
    · unfold Learner.checkDim Learner.getIndex
      rw [if_neg hnot]
      rfl
    · rw [checkDim_dble hnd hd, if_neg hdiff]
  · have hcheck : ∃ u, (orig.zip data).mapM L.checkDim = .ok u := by
      clear hne fails
      induction h with
      | nil => exact ⟨[], rfl⟩
      | @cons m X ms data h1 _ ih =>
        obtain ⟨u, hu⟩ := ih
        refine ⟨() :: u, ?_⟩
        rw [List.zip_cons_cons, List.mapM_cons, checkDim_dble hnd h1, if_pos rfl, hu]
        rfl
    obtain ⟨u, hu⟩ := hcheck
    unfold Learner.modalitiesToModalities Learner.reconstructInternalMulti Learner.getStackedDicos
    rw [hu]
    cases h with
    | nil => exact absurd rfl hne
    | @cons m X ms data h1 _ =>
      obtain ⟨i, i1, i2⟩ := h1
      have : L.getDico m = .error .typeError := by
        unfold Learner.getDico Learner.getAxisRange
        rw [index_dble hnd i1]
        simp only [bind, Except.bind]
        rw [pyGet_dble i2]
        simp only [hD]
        rfl
      rw [List.mapM_cons, this]
      rfl
  · subst h0
    rfl
  · unfold Learner.modalitiesToModalities
    rw [hW]
    show L.reconstructModalities A o dest W = _
    unfold Learner.reconstructModalities Learner.getStackedDicos
    rcases hdest with rfl | hbad
    · rfl
    · have : dest.mapM L.getDico = .error .valueError := by
        clear fails
        induction dest with
        | nil => simp at hbad
        | cons m ms ih =>
          by_cases hm : m ∈ L.mod
          · obtain ⟨d, i, i1, i2⟩ := known m hm
            have hg : ∃ E, L.getDico m = .ok E := by
              unfold Learner.getDico Learner.getAxisRange
              rw [index_dble hnd i1]
              simp only [bind, Except.bind]
              rw [pyGet_dble i2]
              simp only [hD]
              exact ⟨_, rfl⟩
            obtain ⟨E, hE⟩ := hg
            have hbad' : ∃ m ∈ ms, m ∉ L.mod := by
              obtain ⟨m', h1, h2⟩ := hbad
              rcases List.mem_cons.1 h1 with rfl | h1
              · exact absurd hm h2
              · exact ⟨m', h1, h2⟩
            rw [List.mapM_cons, hE, ih hbad']
            rfl
          · have : L.getDico m = .error .valueError := by
              unfold Learner.getDico Learner.getAxisRange Learner.getIndex
              rw [if_neg hm]
              rfl
            rw [List.mapM_cons, this]
            rfl
      rw [this]
      rfl

/-! ### Examples -/

/-- Two modalities, of one and two dimensions, and one component. -/
def two (D : Option Mat) : Learner ℕ := ⟨[7, 8], [1, 2], [some 1, some 1], 1, D⟩

theorem two_fits (D : Option Mat) : FitsMods (two D) 1 0 [7, 8] [⟨false, row [1]⟩, ⟨true, row [1, 0]⟩] := by
  refine .cons ⟨⟨0, rfl, rfl⟩, rfl, row_within fun x hx => ?_⟩ (.cons ⟨⟨1, rfl, rfl⟩, rfl, row_within fun x hx => ?_⟩ .nil)
  · rw [List.mem_singleton.1 hx]
    exact ⟨double_one, by norm_num, by norm_num⟩
  · obtain ⟨h1, h2, h3⟩ := small_row x hx
    exact ⟨h1, h2, by simpa using h3⟩

theorem two_coefs (D : Option Mat) : ∀ c ∈ (two D).coef, Nn c (2 ^ 0) := by
  intro c hc
  have : c = some 1 := by simpa [two] using hc
  rw [this]
  exact ⟨1, rfl, double_one, by norm_num, by norm_num⟩

example : ∃ D, (two none).train doubles seqOrder [⟨false, row [1]⟩, ⟨true, row [1, 0]⟩] 5 (fun _ _ => 0) =
    (two (some D), .ok ()) ∧ D.r = 1 ∧ D.c = 3 ∧ Within D 1 :=
  C238_train doubles_ok seqOrder_ok (two none) (by decide) rfl (by decide) 1 0 0 (by norm_num) (two_coefs _) _ rfl (two_fits _)
    (by norm_num) (by norm_num [two]) (by norm_num [two]) (by norm_num [two]) (by norm_num [two]) 5 (by norm_num) _
    fun _ _ => ⟨double_zero, le_rfl, by norm_num⟩

example : ∃ R, ((two none).train doubles seqOrder [⟨false, row [1]⟩, ⟨true, row [1, 0]⟩] 5
    (fun _ _ => 0)).1.modalitiesToModalities doubles seqOrder [7, 8] [8] [⟨false, row [1]⟩, ⟨true, row [1, 0]⟩] 3 (fun _ _ => 0) =
      .ok R ∧ R.r = 1 ∧ R.c = 2 ∧ Within R (2 ^ 512) := by
  obtain ⟨R, h1, h2, h3, h4, -⟩ := (C238_trained doubles_ok seqOrder_ok (two none) (by decide) rfl (by decide) 1 0 0 (by norm_num)
    (two_coefs _) _ rfl (two_fits _) (by norm_num) (by norm_num [two]) (by norm_num [two]) (by norm_num [two])
    (by norm_num [two]) 5 (by norm_num) (fun _ _ => 0) fun _ _ => ⟨double_zero, le_rfl, by norm_num⟩).2 [7, 8] [8] [2] _ 1 3
    (fun _ _ => 0) (by decide) (by decide) (.cons ⟨1, rfl, rfl⟩ .nil) (two_fits _) (by norm_num) (by norm_num [row])
    (by norm_num [row]) (by norm_num)
  exact ⟨R, h1, h2, h3, h4⟩

/-- A coefficient which is not finite. -/
example : (⟨[7, 8], [1, 2], [some 1, none], 1, none⟩ : Learner ℕ).train doubles seqOrder
    [⟨false, row [1]⟩, ⟨true, row [1, 0]⟩] 5 (fun _ _ => 0) = (⟨[7, 8], [1, 2], [some 1, none], 1, none⟩, .error .valueError) :=
  C238_overflow (⟨[7, 8], [1, 2], [some 1, none], 1, none⟩ : Learner ℕ) (by decide) rfl 1 [⟨false, row [1]⟩, ⟨true, row [1, 0]⟩] rfl
    (by simp [row]) rfl 1 ⟨true, row [1, 0]⟩ none rfl rfl 0 0 (by norm_num)
    (by norm_num [row]) rfl (by simp [row]) 5 _

theorem times_overflow {x y : ℚ} (h : 2 ^ 1024 ≤ x * y) : times doubles (some x) (some y) = none := by
  show finite (x * y) = none
  unfold finite
  rw [if_neg (not_lt.2 ((le_dbl (double_pow 1024) h).trans (le_abs_self _)))]

/-- A product which overflows: a coefficient of `2 ^ 600` and a number of `2 ^ 500`. -/
example : (⟨[7, 8], [1, 2], [some 1, some (2 ^ 600)], 1, none⟩ : Learner ℕ).train doubles seqOrder
    [⟨false, row [1]⟩, ⟨true, row [2 ^ 500, 0]⟩] 5 (fun _ _ => 0) =
      (⟨[7, 8], [1, 2], [some 1, some (2 ^ 600)], 1, none⟩, .error .valueError) :=
  C238_overflow (⟨[7, 8], [1, 2], [some 1, some (2 ^ 600)], 1, none⟩ : Learner ℕ) (by decide) rfl 1
    [⟨false, row [1]⟩, ⟨true, row [2 ^ 500, 0]⟩] rfl (by simp [row]) rfl 1 ⟨true, row [2 ^ 500, 0]⟩ (some (2 ^ 600)) rfl rfl 0 0
    (by norm_num) (by norm_num [row]) (times_overflow (by rw [← pow_add]; exact pow_le_pow_right₀ (by norm_num) (by norm_num)))
    (by simp [row]) 5 _

theorem three_within : Within (row [1, 0, 1]) 1 := by
  refine row_within fun x hx => ?_
  rcases List.mem_cons.1 hx with rfl | hx
  · exact ⟨double_one, by norm_num, le_rfl⟩
  · rcases List.mem_cons.1 hx with rfl | hx
    · exact ⟨double_zero, le_rfl, by norm_num⟩
    · rw [List.mem_singleton.1 hx]
      exact ⟨double_one, by norm_num, le_rfl⟩

/-- The first modality from the second one. -/
example : ∃ R, (two (some (row [1, 0, 1]))).modalitiesToModalities doubles seqOrder [8] [7] [⟨true, row [1, 0]⟩] 5 (fun _ _ => 0) =
    .ok R ∧ R.r = 1 ∧ R.c = 1 ∧ Within R (2 ^ 512) := by
  obtain ⟨R, h1, h2, h3, h4, -⟩ := C238_reconstruct doubles_ok seqOrder_ok (two (some (row [1, 0, 1]))) (by decide) rfl 1 0 0
    (by norm_num) (two_coefs _) _ rfl rfl three_within (by norm_num [row]) (by norm_num [row]) [8] [7] (by decide) (by decide) [1]
    (.cons ⟨0, rfl, rfl⟩ .nil) [⟨true, row [1, 0]⟩]
    (.cons (by cases two_fits (some (row [1, 0, 1])) with | cons _ h => cases h with | cons h _ => exact h) .nil) (by norm_num)
    (by norm_num [row]) (by norm_num [row]) 5 (by norm_num) (fun _ _ => 0)
  exact ⟨R, h1, h2, h3, h4⟩

example (V : Data) (h : (two none).stackData doubles [8, 7] [⟨true, row [1, 0]⟩, ⟨false, row [1]⟩] = .ok V) :
    V.mat.e 0 2 = times doubles (some 1) (some 1) ∧ V.sparse = true := by
  obtain ⟨h1, h2⟩ := C238_stacked (two none) (by decide) _ _ V h 1 0 7 ⟨false, row [1]⟩ (some 1) rfl rfl rfl rfl 0 0
    (by norm_num [row])
  rw [if_neg (by simp)] at h1
  exact ⟨h1, h2.2 ⟨0, _, rfl, by norm_num, rfl⟩⟩

example (E : Mat) (h : (two (some (row [1, 0, 1]))).getStackedDicos [8, 7] = .ok E) : E.e 0 1 = some 1 :=
  C238_dictionaries (two (some (row [1, 0, 1]))) (by decide) _ rfl rfl [8, 7] [2, 1]
    (.cons ⟨1, rfl, rfl⟩ (.cons ⟨0, rfl, rfl⟩ .nil)) E h 0 1 8 2 rfl rfl rfl 0 1 (by norm_num)

/-- A sample of the wrong dimension, after a right one. -/
example : (two none).modalitiesToModalities doubles seqOrder [7, 8] [7] [⟨false, row [1]⟩, ⟨true, row [1]⟩] 5 (fun _ _ => 0) =
    .error .assertionError :=
  ((C238_reconstruct_errors (two none) (by decide) rfl [7, 8] [7] [⟨false, row [1]⟩, ⟨true, row [1]⟩] 5 _).1 1 8
    ⟨true, row [1]⟩ rfl rfl (fun q hq m' X' h1 h2 => by
      obtain rfl : q = 0 := by omega
      cases h1
      cases h2
      exact ⟨0, rfl, rfl⟩)).2 2 ⟨1, rfl, rfl⟩ (by norm_num [row])

/-- A learner which was not trained. -/
example : (two none).modalitiesToModalities doubles seqOrder [8] [7] [⟨true, row [1, 0]⟩] 5 (fun _ _ => 0) = .error .typeError :=
  (C238_reconstruct_errors (two none) (by decide) rfl [8] [7] [⟨true, row [1, 0]⟩] 5 _).2.1 (by decide) rfl
    (.cons ⟨1, rfl, rfl⟩ .nil)

example : (two none).train doubles seqOrder [⟨false, row [1]⟩, ⟨true, row [1]⟩] 5 (fun _ _ => 0) =
    (two none, .error .assertionError) :=
  (C238_train_errors (two none) 5 _).2 ⟨false, row [1]⟩ [⟨true, row [1]⟩] 1 2 ⟨true, row [1]⟩ rfl rfl (Or.inr (by norm_num [row]))

end Verif.Learner.D
