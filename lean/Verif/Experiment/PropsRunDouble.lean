import Verif.Experiment.RunDouble
import Verif.Experiment.PropsCoefsDouble

/-!
# Property C240: one run of an experiment with doubles
-/

namespace Verif.Learner.D

open Verif.NMF.D Verif.Window
open Verif.Objects (mapM_py_ok)

variable {M : Type} [DecidableEq M] {A : Arith} {o : Order}

theorem pick_within {X : Data} {B : ℚ} (h : Within X.mat B) {idx : List ℕ} (hi : ∀ q ∈ idx, q < X.mat.r) :
    Within (pick X idx).mat B := by
  intro i hi' j hj
  change i < idx.length at hi'
  refine h (idx.getD i 0) (hi _ ?_) j hj
  rw [List.getD_eq_getElem _ _ hi']
  exact List.getElem_mem hi'

/-- The coefficients found for samples, with a dictionary as made by training. -/
theorem internals_dble (hA : IsDouble A) (ho : o.Ok) (L : Learner M) (hnd : L.mod.Nodup) (hl : L.mod.length = L.coef.length)
    (n e f : ℕ) (hef : e + f ≤ 400) (hcoef : ∀ c ∈ L.coef, Nn c (2 ^ f)) (D : Mat) (hD : L.dico = some D)
    (hDc : D.c = L.dim.sum) (hD1 : Within D 1) (hk : D.r ≤ 2 ^ 53) (hk0 : D.r ≠ 0) (m : M) (X : Data)
    (hm : HasDim L m X.mat.c) (hr : X.mat.r = n) (hX : Within X.mat (2 ^ e)) (hn : n ≤ 2 ^ 53) (hc : X.mat.c ≤ 2 ^ 53)
    (hs : n * X.mat.c ≤ 2 ^ 53) (it : ℕ) (hit : 0 < it) (rnd : ℕ → ℕ → ℚ) :
    ∃ W, L.reconstructInternalMulti A o [m] [X] it rnd = .ok W ∧ W.r = n ∧ W.c = D.r ∧ Within W (2 ^ 459) := by
  have h : FitsMods L n e [m] [X] := .cons ⟨hm, hr, hX⟩ .nil
  obtain ⟨V, v1, v2, v3, v4, -⟩ := stack_dble hA.fin hnd hl.le hef hcoef h (by simp)
  obtain ⟨E, e1, e2, e3, e4⟩ := stackedDicos_dble hnd hD hDc (.cons hm .nil) (by simp) hD1
  simp only [List.map_cons, List.map_nil, List.sum_cons, List.sum_nil, add_zero] at v3 e3
  have hset : setComponents (some E.r) V.mat.c = E.r := if_neg (e2 ▸ hk0)
  have hFits : Fits V E.r := ⟨v4, v2 ▸ hn, v3 ▸ hc, by rw [v2, v3]; exact hs, e2 ▸ hk⟩
  obtain ⟨s', R, r1, -, r2, r3, r4, -⟩ := C197_transform hA ho ⟨some E.r, none, 0, it, some E⟩ V rnd E hFits hit rfl hset.symm
    (e3.trans v3.symm) e4
  refine ⟨R.W, ?_, r2.trans v2, r3.trans e2, r4⟩
  have hcheck : L.checkDim (m, X) = .ok () := by
    rw [checkDim_dble hnd hm, if_pos rfl]
  unfold Learner.reconstructInternalMulti
  rw [show [m].zip [X] = [(m, X)] from rfl, List.mapM_cons, hcheck, List.mapM_nil]
  simp only [bind, Except.bind, pure, Except.pure, e1, v1]
  unfold fitCoefficients
  rw [r1]
  rfl

/-- **C240.** With default coefficients, raw data between zero and `2 ^ e` and in each modality a number which is at least `2 ^ -g`,
`e + g ≤ 347`, a run of an experiment does not overflow, whatever the pairing, the examples and the split: training succeeds with a
dictionary between zero and one, and for each modality the coefficients of test samples are finite doubles, not negative. -/
theorem C240_run (hA : IsDouble A) (ho : o.Ok) (mods : List M) (hnd : mods.Nodup) (hm : mods ≠ []) (raw : List Data)
    (hl : mods.length = raw.length) (e g : ℕ) (heg : e + (53 + g) ≤ 400)
    (hraw : ∀ X ∈ raw, Within X.mat (2 ^ e) ∧ X.mat.r ≤ 2 ^ 53 ∧ X.mat.c ≤ 2 ^ 53 ∧
      ∃ i < X.mat.r, ∃ j < X.mat.c, ∃ x, X.mat.e i j = some x ∧ 1 / 2 ^ g ≤ x)
    (assoc : List (List ℕ)) (others train test : List ℕ)
    (hassoc : ∀ t ∈ assoc, ∀ (i : ℕ) (X : Data), raw[i]? = some X → t.getD i 0 < X.mat.r)
    (hothers : ∀ q ∈ others, q < assoc.length) (htrain : ∀ q ∈ train, q < others.length) (htest : ∀ q ∈ test, q < others.length)
    (k : ℕ) (hk : k ≤ 2 ^ 53) (hk0 : k ≠ 0) (d : ℕ) (hd : d = (raw.map fun X => X.mat.c).sum) (hd' : d ≤ 2 ^ 53)
    (hn : train.length ≤ 2 ^ 53) (hn' : test.length ≤ 2 ^ 53) (hnd1 : train.length * d ≤ 2 ^ 53) (hnd2 : test.length * d ≤ 2 ^ 53)
    (it it' : ℕ) (hit : 0 < it) (hit' : 0 < it') (rnd : ℕ → ℕ → ℚ) (rnd' : M → ℕ → ℕ → ℚ)
    (hr : ∀ i j, Double (rnd i j) ∧ 0 ≤ rnd i j ∧ rnd i j ≤ 1) :
    ∃ L D Ws, oneRun A o mods none k it it' raw assoc others train test rnd rnd' = .ok (L, Ws) ∧ L.dico = some D ∧ D.r = k ∧
      D.c = d ∧ Within D 1 ∧ Ws.length = mods.length ∧
      ∀ W ∈ Ws, W.r = test.length ∧ W.c = k ∧ Within W (2 ^ 459) := by
  set data := preparedData raw assoc others with hdata
  have hlen : data.length = raw.length := by simp [hdata, preparedData]
  have hget : ∀ (i : ℕ) (h : i < data.length), data[i] =
      pick (pick (raw[i]'(hlen ▸ h)) (assoc.map fun t => t.getD i 0)) others := by
    intro i h
    simp [hdata, preparedData]
  have hcols : data.map (fun X => X.mat.c) = raw.map fun X => X.mat.c := by
    refine List.ext_getElem (by simp [hlen]) fun i h1 h2 => ?_
    rw [List.getElem_map, List.getElem_map, hget]
    rfl
  have hdataW : ∀ X ∈ data, X.mat.r = others.length ∧ Within X.mat (2 ^ e) := by
    intro X hX
    obtain ⟨i, hi⟩ := List.mem_iff_getElem?.1 hX
    obtain ⟨hlt, rfl⟩ := List.getElem?_eq_some_iff.1 hi
    rw [hget i hlt]
    refine ⟨rfl, pick_within (pick_within (hraw _ (List.getElem_mem _)).1 fun q hq => ?_) fun q hq => ?_⟩
    · obtain ⟨t, ht, rfl⟩ := List.mem_map.1 hq
      exact hassoc t ht i _ (List.getElem?_eq_getElem _)
    · show q < (assoc.map _).length
      rw [List.length_map]
      exact hothers q hq
  set L0 : Learner M := newLearner mods (setCoefs A o none raw) k data with hL0
  have hdimL : L0.dim.sum = d := by
    show (data.map fun X => X.mat.c).sum = d
    rw [hcols, hd]
  have hfit : ∀ idx : List ℕ, (∀ q ∈ idx, q < others.length) →
      FitsMods L0 idx.length e mods (data.map fun X => pick X idx) := by
    intro idx hidx
    refine List.forall₂_iff_get.2 ⟨by simp [hlen, hl], fun i h1 h2 => ?_⟩
    have h3 : i < data.length := by simpa using h2
    simp only [List.get_eq_getElem, List.getElem_map]
    obtain ⟨x1, x2⟩ := hdataW data[i] (List.getElem_mem h3)
    refine ⟨⟨i, List.getElem?_eq_getElem h1, ?_⟩, rfl, pick_within x2 fun q hq => x1 ▸ hidx q hq⟩
    show (data.map fun X => X.mat.c)[i]? = _
    rw [List.getElem?_map, List.getElem?_eq_getElem h3]
    rfl
  have hcoef : ∀ c ∈ L0.coef, Nn c (2 ^ (53 + g)) := by
    intro c hc
    obtain ⟨X, hX, rfl⟩ := List.mem_map.1 (show c ∈ raw.map (defaultCoef A o) from hc)
    obtain ⟨x1, x2, x3, i, hi, j, hj, x, hx, hpos⟩ := hraw X hX
    obtain ⟨c, c1, c2, c3, c4⟩ := C239_range hA.fin ho X e g x1 x2 x3 (by omega) (by omega) i j hi hj x hx hpos
    exact ⟨c, c1, c2, le_trans (by positivity) c3, c4⟩
  have hcl : L0.mod.length = L0.coef.length := by
    show mods.length = (raw.map (defaultCoef A o)).length
    rw [List.length_map, hl]
  obtain ⟨D, t1, t2, t3, t4⟩ := C238_train hA ho L0 hnd hcl hm train.length e (53 + g) heg hcoef (data.map fun X => pick X train)
    (by rw [List.map_map]; rfl) (hfit train htrain) hn (hdimL ▸ hd') (hdimL ▸ hnd1) hk hk0 it hit rnd hr
  set L1 : Learner M := { L0 with dico := some D } with hL1
  have hint : ∀ p ∈ mods.zip (data.map fun X => pick X test), ∃ W,
      L1.reconstructInternalMulti A o [p.1] [p.2] it' (rnd' p.1) = .ok W ∧ W.r = test.length ∧ W.c = k ∧ Within W (2 ^ 459) := by
    rintro ⟨m, X⟩ hp
    obtain ⟨i, hi⟩ := List.mem_iff_getElem?.1 hp
    obtain ⟨i1, i2⟩ := List.getElem?_zip_eq_some.1 hi
    have h2 := List.forall₂_iff_get.1 (hfit test htest)
    obtain ⟨j1, rfl⟩ := List.getElem?_eq_some_iff.1 i1
    obtain ⟨j2, rfl⟩ := List.getElem?_eq_some_iff.1 i2
    obtain ⟨a1, a2, a3⟩ := h2.2 i j1 j2
    simp only [List.get_eq_getElem] at a1 a2 a3
    have hle : ((data.map fun X => pick X test)[i]).mat.c ≤ d := by
      obtain ⟨q, -, q2⟩ := a1
      rw [← hdimL]
      exact List.le_sum_of_mem (List.mem_of_getElem? q2)
    obtain ⟨W, w1, w2, w3, w4⟩ := internals_dble hA ho L1 hnd hcl test.length e (53 + g) heg hcoef D rfl t3 t4 (t2 ▸ hk) (t2 ▸ hk0)
      _ _ a1 a2 a3 hn' (hle.trans hd') ((Nat.mul_le_mul_left _ hle).trans hnd2) it' hit' (rnd' _)
    exact ⟨W, w1, w2, w3.trans t2, w4⟩
  have hall : ∃ Ws, (mods.zip (data.map fun X => pick X test)).mapM (fun p =>
      L1.reconstructInternalMulti A o [p.1] [p.2] it' (rnd' p.1)) = .ok Ws ∧
      Ws.length = (mods.zip (data.map fun X => pick X test)).length ∧
      ∀ W ∈ Ws, W.r = test.length ∧ W.c = k ∧ Within W (2 ^ 459) := by
    generalize mods.zip (data.map fun X => pick X test) = l at hint
    induction l with
    | nil => exact ⟨[], rfl, rfl, fun W hW => (by cases hW)⟩
    | cons p l ih =>
      obtain ⟨W, w1, w2⟩ := hint p List.mem_cons_self
      obtain ⟨Ws, a1, a2, a3⟩ := ih fun q hq => hint q (List.mem_cons_of_mem _ hq)
      refine ⟨W :: Ws, ?_, by simp [a2], fun V hV => ?_⟩
      · rw [List.mapM_cons, w1, a1]
        rfl
      · rcases List.mem_cons.1 hV with rfl | hV
        · exact w2
        · exact a3 V hV
  obtain ⟨Ws, a1, a2, a3⟩ := hall
  refine ⟨L1, D, Ws, ?_, rfl, t2, t3.trans hdimL, t4, ?_, a3⟩
  · unfold oneRun
    simp only [← hdata, ← hL0, t1, ← hL1, bind, Except.bind]
    rw [a1]
    rfl
  · rw [a2, List.length_zip, List.length_map, hlen, hl, min_self]

/-- **C240.** The data of a modality after preparation: sample `q` has the numbers of the raw sample of that modality in the pair with the
number of the `q`th sample which is no example. -/
theorem C240_samples (raw : List Data) (assoc : List (List ℕ)) (others : List ℕ) (p q a : ℕ) (X : Data) (t : List ℕ) (r : ℕ)
    (hX : raw[p]? = some X) (hq : others[q]? = some a) (ht : assoc[a]? = some t) (hr : t[p]? = some r) :
    ∃ Y, (preparedData raw assoc others)[p]? = some Y ∧ Y.sparse = X.sparse ∧ Y.mat.r = others.length ∧ Y.mat.c = X.mat.c ∧
      ∀ j, Y.mat.e q j = X.mat.e r j := by
  refine ⟨pick (pick X (assoc.map fun t => t.getD p 0)) others, ?_, rfl, rfl, rfl, fun j => ?_⟩
  · unfold preparedData
    rw [List.getElem?_mapIdx, hX]
    rfl
  · show X.mat.e ((assoc.map fun t => t.getD p 0).getD (others.getD q 0) 0) j = _
    have h1 : others.getD q 0 = a := by rw [List.getD_eq_getElem?_getD, hq]; rfl
    have h2 : (assoc.map fun t => t.getD p 0).getD a 0 = r := by
      rw [List.getD_eq_getElem?_getD, List.getElem?_map, ht]
      show t.getD p 0 = r
      rw [List.getD_eq_getElem?_getD, hr]
      rfl
    rw [h1, h2]

/-- **C240.** What a run computes: a new learner of the modalities, with the dimensions of the data, is trained with the samples of the
training set, and the coefficients of each modality are found by it for the samples of the test set in that modality alone. -/
theorem C240_steps (mods : List M) (coefs : Option (List Num)) (k it it' : ℕ) (raw : List Data) (assoc : List (List ℕ))
    (others train test : List ℕ) (rnd : ℕ → ℕ → ℚ) (rnd' : M → ℕ → ℕ → ℚ) (L : Learner M) (Ws : List Mat)
    (h : oneRun A o mods coefs k it it' raw assoc others train test rnd rnd' = .ok (L, Ws)) :
    (⟨mods, (preparedData raw assoc others).map fun X => X.mat.c, setCoefs A o coefs raw, k, none⟩ : Learner M).train A o
      ((preparedData raw assoc others).map fun X =>
        ⟨X.sparse, train.length, X.mat.c, fun i j => X.mat.e (train.getD i 0) j⟩) it rnd = (L, .ok ()) ∧
    Ws.length = min mods.length raw.length ∧
    ∀ (p : ℕ) (m : M) (X : Data) (W : Mat), mods[p]? = some m → (preparedData raw assoc others)[p]? = some X → Ws[p]? = some W →
      L.reconstructInternalMulti A o [m] [⟨X.sparse, test.length, X.mat.c, fun i j => X.mat.e (test.getD i 0) j⟩] it' (rnd' m) =
        .ok W := by
  unfold oneRun at h
  simp only [bind, Except.bind] at h
  rcases hT : (newLearner mods (setCoefs A o coefs raw) k (preparedData raw assoc others)).train A o
    ((preparedData raw assoc others).map fun X => pick X train) it rnd with ⟨L', e | u⟩
  · rw [hT] at h
    cases h
  · rw [hT] at h
    dsimp only at h
    cases hI : (mods.zip ((preparedData raw assoc others).map fun X => pick X test)).mapM fun p =>
        L'.reconstructInternalMulti A o [p.1] [p.2] it' (rnd' p.1) with
    | error e => rw [hI] at h; cases h
    | ok Vs =>
      rw [hI] at h
      cases h
      have hf := mapM_py_ok.1 hI
      refine ⟨hT, ?_, fun p m X W hm hX hW => ?_⟩
      · rw [← hf.length_eq]
        simp [preparedData]
      · have h2 := List.forall₂_iff_get.1 hf
        obtain ⟨w1, rfl⟩ := List.getElem?_eq_some_iff.1 hW
        have hz : (mods.zip ((preparedData raw assoc others).map fun X => pick X test))[p]? = some (m, pick X test) :=
          List.getElem?_zip_eq_some.2 ⟨hm, by rw [List.getElem?_map, hX]; rfl⟩
        obtain ⟨z1, z2⟩ := List.getElem?_eq_some_iff.1 hz
        have := h2.2 p z1 w1
        simp only [List.get_eq_getElem, z2] at this
        exact this

/-! ### Examples -/

/-- Two modalities with one sample, which is paired, kept, and used for training and test. -/
theorem run_two : ∃ L D Ws, oneRun (M := ℕ) doubles seqOrder [7, 8] none 1 5 3 [⟨false, row [1]⟩, ⟨true, row [1, 0]⟩] [[0, 0]] [0] [0] [0]
    (fun _ _ => 0) (fun _ _ _ => 0) = .ok (L, Ws) ∧ L.dico = some D ∧ D.r = 1 ∧ D.c = 3 ∧ Within D 1 ∧ Ws.length = 2 ∧
      ∀ W ∈ Ws, W.r = 1 ∧ W.c = 1 ∧ Within W (2 ^ 459) := by
  refine C240_run (M := ℕ) doubles_ok seqOrder_ok [7, 8] (by decide) (by decide) [⟨false, row [1]⟩, ⟨true, row [1, 0]⟩] rfl 0 0 (by norm_num) ?_
    [[0, 0]] [0] [0] [0] ?_ (by simp) (by simp) (by simp) 1 (by norm_num) (by norm_num) 3 rfl (by norm_num) (by norm_num) (by norm_num) (by norm_num) (by norm_num) 5 3
    (by norm_num) (by norm_num) _ _ fun _ _ => ⟨double_zero, le_rfl, by norm_num⟩
  · intro X hX
    have h1 : Within (row [1]) (2 ^ 0) := row_within fun x hx => by
      rw [List.mem_singleton.1 hx]
      exact ⟨double_one, by norm_num, by norm_num⟩
    rcases List.mem_cons.1 hX with rfl | hX
    · exact ⟨h1, by norm_num [row], by norm_num [row], 0, by norm_num [row], 0, by norm_num [row], 1, rfl, by norm_num⟩
    · rw [List.mem_singleton.1 hX]
      exact ⟨by simpa using row_within small_row, by norm_num [row], by norm_num [row], 0, by norm_num [row], 0, by norm_num [row], 1,
        rfl, by norm_num⟩
  · intro t ht i X hX
    rw [List.mem_singleton.1 ht]
    rcases i with _ | _ | i
    · cases hX
      norm_num [row]
    · cases hX
      norm_num [row]
    · cases hX

/-- The run above: the coefficients of the second modality are found from its only sample. -/
example : ∃ L W, (⟨[7, 8], [1, 2], setCoefs doubles seqOrder none [⟨false, row [1]⟩, ⟨true, row [1, 0]⟩], 1, none⟩ : Learner ℕ).train
      doubles seqOrder ((preparedData [⟨false, row [1]⟩, ⟨true, row [1, 0]⟩] [[0, 0]] [0]).map fun X =>
        ⟨X.sparse, 1, X.mat.c, fun i j => X.mat.e (([0] : List ℕ).getD i 0) j⟩) 5 (fun _ _ => 0) = (L, .ok ()) ∧
    L.reconstructInternalMulti doubles seqOrder [8]
      [⟨true, 1, 2, fun i j => (row [1, 0]).e ([0].getD ([0].getD (([0] : List ℕ).getD i 0) 0) 0) j⟩] 3 (fun _ _ => 0) = .ok W := by
  obtain ⟨L, D, Ws, h, -, -, -, -, hlen, -⟩ := run_two
  obtain ⟨h1, -, h3⟩ := C240_steps _ _ _ _ _ _ _ _ _ _ _ _ _ _ h
  have hlt : 1 < Ws.length := by rw [hlen]; decide
  exact ⟨L, Ws[1], h1, h3 1 8 _ _ rfl rfl (List.getElem?_eq_getElem hlt)⟩

example : ∃ Y, (preparedData [⟨false, row [1]⟩, ⟨true, row [1, 0]⟩] [[0, 0]] [0])[1]? = some Y ∧ Y.sparse = true ∧ Y.mat.r = 1 ∧
    Y.mat.c = 2 ∧ ∀ j, Y.mat.e 0 j = (row [1, 0]).e 0 j :=
  C240_samples _ _ _ 1 0 0 ⟨true, row [1, 0]⟩ [0, 0] 0 rfl rfl rfl rfl

end Verif.Learner.D
