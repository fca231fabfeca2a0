import Verif.Learner.Props

/-!
# Property C234: a learner trained several times

`nmf_train`, which `train` replaces before fitting (`/repo/multimodal/learner.py:39`) and which no
method reads, is not part of the model of the learner.
-/

namespace Verif.Learner

open Verif.NMF
open Verif.Objects (mapM_py_ok)

variable {M : Type} [DecidableEq M]

/-- The arguments of a call of `train`, and the random numbers it draws. -/
structure Training where
  data : List Data
  iterations : ℕ
  rnd : ℕ → ℕ → ℝ

/-- The learner and the outcome of a training. -/
noncomputable def Training.run (L : Learner M) (t : Training) : Learner M × Py Unit :=
  L.train t.data t.iterations t.rnd

/-- The learner after several trainings, each of which may have raised. -/
noncomputable def afterAll (L : Learner M) (ts : List Training) : Learner M :=
  ts.foldl (fun L t => (t.run L).1) L

theorem stackData_dico (L : Learner M) (d : Option Mat) (ms : List M) (data : List Data) :
    ({ L with dico := d } : Learner M).stackData ms data = L.stackData ms data := rfl

/-- **C234.** A training which raises leaves the learner as it was. -/
theorem C234_failed (L : Learner M) (t : Training) (e : PyErr) (h : (t.run L).2 = .error e) :
    (t.run L).1 = L := by
  obtain ⟨data, n, rnd⟩ := t
  unfold Training.run Learner.train at h ⊢
  cases data with
  | nil => rfl
  | cons first rest =>
    simp only [] at h ⊢
    split at h <;> rename_i hc
    · rw [if_pos hc]
      cases hs : L.stackData L.mod (first :: rest) with
      | error e => rfl
      | ok V =>
        rw [hs] at h
        simp only [] at h ⊢
        split at h <;> rename_i hsp
        · rw [if_pos hsp]
        · rw [if_neg hsp]
          generalize NMF.fit ⟨some L.k, none, 0, n, none⟩ V rnd 1 true = q at h ⊢
          obtain ⟨s, o⟩ := q
          cases o with
          | error e => rfl
          | ok u => cases h
    · rw [if_neg hc]

/-- **C234.** The outcome of a training does not depend on the current dictionary, nor does the learner
after it when it succeeds: it is a new training, not more iterations of the previous one. -/
theorem C234_restart (L : Learner M) (d : Option Mat) (t : Training) :
    (t.run { L with dico := d }).2 = (t.run L).2 ∧
    ((t.run L).2 = .ok () → (t.run { L with dico := d }).1 = (t.run L).1) := by
  obtain ⟨data, n, rnd⟩ := t
  unfold Training.run Learner.train
  cases data with
  | nil => exact ⟨rfl, fun h => by cases h⟩
  | cons first rest =>
    simp only [stackData_dico]
    split
    · cases L.stackData L.mod (first :: rest) with
      | error e => exact ⟨rfl, fun h => by cases h⟩
      | ok V =>
        simp only []
        split
        · exact ⟨rfl, fun h => by cases h⟩
        · generalize NMF.fit ⟨some L.k, none, 0, n, none⟩ V rnd 1 true = q
          obtain ⟨s, o⟩ := q
          cases o with
          | error e => exact ⟨rfl, fun h => by cases h⟩
          | ok u => exact ⟨rfl, fun _ => rfl⟩
    · exact ⟨rfl, fun h => by cases h⟩

/-- **C234.** A training changes nothing but the dictionary. -/
theorem C234_frame (L : Learner M) (t : Training) : ∃ d, (t.run L).1 = { L with dico := d } := by
  obtain ⟨data, n, rnd⟩ := t
  unfold Training.run Learner.train
  cases data with
  | nil => exact ⟨L.dico, rfl⟩
  | cons first rest =>
    simp only []
    split
    · cases L.stackData L.mod (first :: rest) with
      | error e => exact ⟨L.dico, rfl⟩
      | ok V =>
        simp only []
        split
        · exact ⟨L.dico, rfl⟩
        · generalize NMF.fit ⟨some L.k, none, 0, n, none⟩ V rnd 1 true = q
          obtain ⟨s, o⟩ := q
          cases o with
          | error e => exact ⟨L.dico, rfl⟩
          | ok u => exact ⟨_, rfl⟩
    · exact ⟨L.dico, rfl⟩

theorem afterAll_frame (L : Learner M) (ts : List Training) :
    ∃ d, afterAll L ts = { L with dico := d } := by
  induction ts generalizing L with
  | nil => exact ⟨L.dico, rfl⟩
  | cons t ts ih =>
    obtain ⟨d, hd⟩ := C234_frame L t
    obtain ⟨d', hd'⟩ := ih (t.run L).1
    refine ⟨d', ?_⟩
    show afterAll (t.run L).1 ts = _
    rw [hd', hd]

/-- **C234.** After any trainings which all raise on this learner, it is as it was. -/
theorem C234_all_failed (L : Learner M) (ts : List Training) (h : ∀ t ∈ ts, (t.run L).2 ≠ .ok ()) :
    afterAll L ts = L := by
  induction ts with
  | nil => rfl
  | cons t ts ih =>
    have ht : (t.run L).1 = L := by
      cases ho : (t.run L).2 with
      | error e => exact C234_failed L t e ho
      | ok u => exact absurd ho (h t (List.mem_cons_self ..))
    show afterAll (t.run L).1 ts = L
    rw [ht]
    exact ih fun t' h' => h t' (List.mem_cons_of_mem _ h')

/-- **C234.** After any sequence of trainings, the learner is the one given by the last which succeeds,
on its own: neither those before nor the failures after it count. -/
theorem C234_last (L : Learner M) (before after : List Training) (t : Training)
    (ht : (t.run L).2 = .ok ()) (ha : ∀ u ∈ after, (u.run L).2 ≠ .ok ()) :
    afterAll L (before ++ t :: after) = (t.run L).1 := by
  unfold afterAll
  rw [List.foldl_append, List.foldl_cons]
  change afterAll (t.run (afterAll L before)).1 after = _
  obtain ⟨d, hd⟩ := afterAll_frame L before
  obtain ⟨_, hs⟩ := C234_restart L d t
  rw [hd, hs ht]
  apply C234_all_failed
  intro u hu
  obtain ⟨d', hd'⟩ := C234_frame L t
  rw [hd', (C234_restart L d' u).1]
  exact ha u hu

/-- **C234.** A learner never trained with success has no dictionary, and every reconstruction from it
which names a modality raises; whatever was attempted before. -/
theorem C234_untrained (L : Learner M) (h0 : L.dico = none) (ts : List Training)
    (h : ∀ t ∈ ts, (t.run L).2 ≠ .ok ()) (m : M) (hm : m ∈ L.mod) (hdim : L.mod.length ≤ L.dim.length)
    (internal : Mat) :
    (afterAll L ts).dico = none ∧ (afterAll L ts).getDico m = .error .typeError ∧
    (afterAll L ts).reconstructModality m internal = .error .typeError := by
  rw [C234_all_failed L ts h]
  have hi := List.idxOf_lt_length_iff.2 hm
  have hg : L.getDico m = .error .typeError := by
    unfold Learner.getDico Learner.getAxisRange Learner.getIndex
    rw [if_pos hm]
    have hp : pyGet L.dim ((L.mod.idxOf m : ℕ) : ℤ) = .ok (L.dim[L.mod.idxOf m]'(by omega)) := by
      rw [pyGet_ok]
      exact List.getElem?_eq_getElem (by omega)
    simp only [bind, Except.bind, hp, h0, pure, Except.pure]
  refine ⟨h0, hg, ?_⟩
  unfold Learner.reconstructModality
  rw [hg]
  rfl

/-- **C234.** Reconstructions draw no random number: asked twice, the same learner gives the same. -/
theorem C234_reconstruct (L : Learner M) (orig dest : List M) (data : List Data) (n : ℕ)
    (r r' : ℕ → ℕ → ℝ) :
    L.reconstructInternalMulti orig data n r = L.reconstructInternalMulti orig data n r' ∧
    L.modalitiesToModalities orig dest data n r = L.modalitiesToModalities orig dest data n r' := by
  have hf : ∀ (X : Data) (D : Mat), fitCoefficients X D n r = fitCoefficients X D n r' := by
    intro X D
    unfold fitCoefficients NMF.transform NMF.fitTransform NMF.init
    rfl
  have h1 : L.reconstructInternalMulti orig data n r = L.reconstructInternalMulti orig data n r' := by
    unfold Learner.reconstructInternalMulti
    simp only [hf]
  refine ⟨h1, ?_⟩
  unfold Learner.modalitiesToModalities
  rw [h1]

/-- **C234.** Matrices given beyond the modalities are ignored. -/
theorem C234_extra (L : Learner M) (first : Data) (rest extra : List Data) (n : ℕ) (rnd : ℕ → ℕ → ℝ)
    (hd : L.dim.length ≤ (first :: rest).length) (hm : L.mod.length ≤ (first :: rest).length) :
    L.train (first :: rest ++ extra) n rnd = L.train (first :: rest) n rnd := by
  have hz : ∀ {β : Type} (l : List Data) (y : List β), y.length ≤ l.length →
      (l ++ extra).zip y = l.zip y := by
    intro β l
    induction l with
    | nil =>
      intro y hy
      have : y = [] := List.length_eq_zero_iff.1 (by simpa using hy)
      subst this
      simp
    | cons a l ih =>
      intro y hy
      cases y with
      | nil => rfl
      | cons b y =>
        simp only [List.cons_append, List.zip_cons_cons]
        rw [ih y (by simpa using hy)]
  have hs : L.stackData L.mod (first :: rest ++ extra) = L.stackData L.mod (first :: rest) := by
    unfold Learner.stackData
    cases hc : L.mod.mapM L.getCoef with
    | error e => rfl
    | ok cs =>
      have hl : cs.length = L.mod.length := (mapM_py_ok.1 hc).length_eq.symm
      simp only [bind, Except.bind]
      rw [hz _ _ (by omega)]
  have e : first :: rest ++ extra = first :: (rest ++ extra) := rfl
  unfold Learner.train
  simp only [e]
  rw [← e, hs, hz _ _ hd]

/-- The learner with the first `p` of its modalities only. -/
def Learner.firsts (L : Learner M) (p : ℕ) : Learner M :=
  { L with mod := L.mod.take p, dim := L.dim.take p, coef := L.coef.take p }

theorem zip_firsts {α β : Type} (l : List α) (y : List β) : l.zip (y.take l.length) = l.zip y := by
  induction l generalizing y with
  | nil => simp
  | cons a l ih =>
    cases y with
    | nil => rfl
    | cons b y => simp [ih]

theorem mapM_getCoef {L : Learner M} (hnd : L.mod.Nodup) (hcl : L.mod.length = L.coef.length) :
    L.mod.mapM L.getCoef = .ok L.coef := by
  have : L.mod.mapM L.getCoef = .ok (L.mod.map fun m => L.coef.getD (L.mod.idxOf m) 0) := by
    apply mapM_ok
    intro m hm
    have hi := List.idxOf_lt_length_iff.2 hm
    have : L.mod[L.mod.idxOf m]? = some m := by
      rw [List.getElem?_eq_getElem hi, List.getElem_idxOf]
    rw [getCoef_ok hnd this, List.getElem?_eq_getElem (by omega)]
    simp [List.getD, List.getElem?_eq_getElem (show L.mod.idxOf m < L.coef.length by omega)]
  rw [this]
  congr 1
  apply List.ext_getElem?
  intro i
  by_cases hi : i < L.mod.length
  · rw [List.getElem?_map, List.getElem?_eq_getElem hi, List.getElem?_eq_getElem (by omega)]
    simp [hnd.idxOf_getElem, List.getD, List.getElem?_eq_getElem (show i < L.coef.length by omega)]
  · rw [List.getElem?_eq_none (by simpa using hi), List.getElem?_eq_none (by omega)]

/-- **C234.** With fewer matrices than modalities, training is not refused: it is the training of a learner
which has only the first modalities, and the dictionaries of the others are left without columns. -/
theorem C234_missing (L : Learner M) (t : Training) (hnd : L.mod.Nodup)
    (hlen : L.mod.length = L.dim.length) (hcl : L.mod.length = L.coef.length)
    (hdl : t.data.length ≤ L.mod.length) :
    (t.run L).2 = (t.run (L.firsts t.data.length)).2 ∧
    ((t.run L).2 = .ok () →
      (t.run L).1.dico = (t.run (L.firsts t.data.length)).1.dico ∧
      (∃ D, (t.run L).1.dico = some D ∧ D.c = (L.dim.take t.data.length).sum) ∧
      ∀ (i : ℕ) (m : M), t.data.length ≤ i → L.mod[i]? = some m →
        ∃ D, (t.run L).1.getDico m = .ok D ∧ D.c = 0) := by
  have hfn : (L.firsts t.data.length).mod.Nodup := hnd.sublist (List.take_sublist _ _)
  have hfl : (L.firsts t.data.length).mod.length = (L.firsts t.data.length).coef.length := by
    simp [Learner.firsts, hcl]
  have hs : L.stackData L.mod t.data =
      (L.firsts t.data.length).stackData (L.firsts t.data.length).mod t.data := by
    unfold Learner.stackData
    rw [mapM_getCoef hnd hcl, mapM_getCoef hfn hfl]
    simp only [bind, Except.bind]
    rw [show (L.firsts t.data.length).coef = L.coef.take t.data.length from rfl, zip_firsts]
  have key : (t.run L).2 = (t.run (L.firsts t.data.length)).2 ∧
      ((t.run L).2 = .ok () → (t.run L).1.dico = (t.run (L.firsts t.data.length)).1.dico) := by
    have hz : t.data.zip (L.firsts t.data.length).dim = t.data.zip L.dim := zip_firsts _ _
    have hsp : (L.firsts t.data.length).sparseness = L.sparseness := rfl
    have hk : (L.firsts t.data.length).k = L.k := rfl
    unfold Training.run Learner.train
    rw [hz, ← hs, hsp, hk]
    generalize L.firsts t.data.length = L'
    cases hd : t.data with
    | nil => exact ⟨rfl, fun h => by cases h⟩
    | cons first rest =>
      simp only []
      split
      · cases L.stackData L.mod (first :: rest) with
        | error e => exact ⟨rfl, fun h => by cases h⟩
        | ok V =>
          simp only []
          split
          · exact ⟨rfl, fun h => by cases h⟩
          · generalize NMF.fit ⟨some L.k, none, 0, t.iterations, none⟩ V t.rnd 1 true = q
            obtain ⟨s, o⟩ := q
            cases o with
            | error e => exact ⟨rfl, fun h => by cases h⟩
            | ok u => exact ⟨rfl, fun _ => rfl⟩
      · exact ⟨rfl, fun h => by cases h⟩
  refine ⟨key.1, fun h => ⟨key.2 h, ?_⟩⟩
  have hD : ∃ D, (t.run L).1.dico = some D ∧ D.c = (L.dim.take t.data.length).sum := by
    obtain ⟨V, s, D, _, _, hd, hc, _⟩ := C53_trained (L.firsts t.data.length)
      (t.run (L.firsts t.data.length)).1 t.data t.iterations t.rnd hfn
      (by simp [Learner.firsts, hlen]) (by simp [Learner.firsts, hdl])
      (Prod.ext rfl (key.1.symm.trans h))
    exact ⟨D, (key.2 h).trans hd, hc⟩
  refine ⟨hD, ?_⟩
  intro i m hi hm
  obtain ⟨D, hd, hc⟩ := hD
  obtain ⟨d, he⟩ := C234_frame L t
  have hil : i < L.mod.length := by
    by_contra hn
    rw [List.getElem?_eq_none (by omega)] at hm
    cases hm
  have hmem : m ∈ L.mod := List.mem_of_getElem? hm
  have hidx : L.mod.idxOf m = i := by
    rw [List.getElem?_eq_getElem hil] at hm
    obtain rfl := Option.some.inj hm
    exact hnd.idxOf_getElem i hil
  rw [he] at hd ⊢
  simp only [] at hd
  refine ⟨cols D (L.dim.take i).sum ((L.dim.take i).sum + L.dim[i]'(by omega)), ?_, ?_⟩
  · unfold Learner.getDico Learner.getAxisRange Learner.getIndex
    simp only []
    rw [if_pos hmem, hidx]
    have hp : pyGet L.dim ((i : ℕ) : ℤ) = .ok (L.dim[i]'(by omega)) := by
      rw [pyGet_ok]
      exact List.getElem?_eq_getElem (by omega)
    simp only [bind, Except.bind, hp, hd, pure, Except.pure]
  · have hle : (L.dim.take t.data.length).sum ≤ (L.dim.take i).sum := by
      have e : L.dim.take t.data.length = (L.dim.take i).take t.data.length := by
        rw [List.take_take, Nat.min_eq_left hi]
      rw [e]
      exact take_sum_le _ _
    show min _ D.c - min _ D.c = 0
    rw [hc]
    omega

/-- One matrix for a learner of two modalities. -/
def exOne : Training := ⟨[⟨false, ⟨1, 2, fun _ _ => 1⟩⟩], 3, fun _ _ => 0⟩

theorem exOne_ok : (exOne.run (exLearner none)).2 = .ok () := by
  rw [(C234_missing (exLearner none) exOne (by decide) rfl rfl (by decide)).1]
  obtain ⟨L', h⟩ := C104_train ((exLearner none).firsts 1) ⟨false, ⟨1, 2, fun _ _ => 1⟩⟩ [] 3
    (fun _ _ => 0) (by decide) rfl rfl rfl rfl (by
      intro i X hX
      match i with
      | 0 => obtain rfl := Option.some.inj hX; exact ⟨rfl, rfl⟩
      | i + 1 => simp at hX) (by
      intro X hX
      simp only [List.mem_cons, List.not_mem_nil, or_false] at hX
      subst hX
      exact fun _ _ _ _ => by norm_num) (by
      intro c hc
      simp only [exLearner, Learner.firsts, List.take_succ_cons, List.take_zero, List.mem_cons, List.not_mem_nil,
        or_false] at hc
      subst hc
      norm_num) (by norm_num)
  exact congrArg Prod.snd h

example : ∃ D, (exOne.run (exLearner none)).1.getDico true = .ok D ∧ D.c = 0 :=
  ((C234_missing (exLearner none) exOne (by decide) rfl rfl (by decide)).2 exOne_ok).2.2 1 true
    (by decide) rfl

/-- A failure, a success, a failure. -/
example : afterAll (exLearner none) ([⟨[], 3, fun _ _ => 0⟩] ++ exOne :: [⟨[], 3, fun _ _ => 0⟩]) =
    (exOne.run (exLearner none)).1 :=
  C234_last _ _ _ _ exOne_ok (by
    intro u hu
    simp only [List.mem_cons, List.not_mem_nil, or_false] at hu
    subst hu
    exact fun h => by cases h)

example (z : Mat) : (afterAll (exLearner none) [⟨[], 3, fun _ _ => 0⟩]).reconstructModality true z =
    .error .typeError :=
  (C234_untrained _ rfl _ (by
    intro u hu
    simp only [List.mem_cons, List.not_mem_nil, or_false] at hu
    subst hu
    exact fun h => by cases h) true (by decide) (by decide) z).2.2

end Verif.Learner
