import Verif.Loaders.Model
import Verif.Objects.Props

/-!
# Property C86: loaders return aligned data and labels
-/

namespace Verif.Loaders

open Verif.Objects (mapM_py_ok)

variable {R S : Type} [DecidableEq S]

/-! ### Objects -/

/-- Frame `i` of the database has name `n`. -/
def FrameName (d : ObjDB R S) (i : ℕ) (n : S) : Prop :=
  ∃ (f : ℤ) (names : List S), d.frames[i]? = some f ∧ d.objectNames = some names ∧
    pyGet names f = .ok n

/-- `idx` lists, in increasing order, the frames whose name is kept. -/
def KeptFrames (d : ObjDB R S) (labels : List S) (idx : List ℕ) : Prop :=
  idx.Pairwise (· < ·) ∧ ∀ i, i ∈ idx ↔ ∃ n ∈ labels, FrameName d i n

/-- The row of frame `i`: the rows of all features, joined. -/
def FrameRow (cat : List R → R) (d : ObjDB R S) (features : List S) (i : ℕ) (row : R) : Prop :=
  ∃ rows : List R, row = cat rows ∧
    List.Forall₂ (fun f r => ∃ m, dictGet? d.histosByFrame f = some m ∧ m[i]? = some r) features rows

/-- What a successful call returns: for each frame of `idx`, its row or its name, which is kept. -/
def Aligned (cat : List R → R) (features labels : List S) (d : ObjDB R S) (idx : List ℕ) :
    Out R S → Prop
  | .data (.ok x) => List.Forall₂ (FrameRow cat d features) idx x
  | .labels (.ok l) => List.Forall₂ (fun i n => FrameName d i n ∧ n ∈ labels) idx l
  | _ => True

/-- The call failed. -/
def Failed : Out R S → Prop
  | .data (.error _) => True
  | .labels (.error _) => True
  | _ => False

omit [DecidableEq S] in
theorem name_ok (d : ObjDB R S) (f : ℤ) (n : S) :
    d.name f = .ok n ↔ ∃ names, d.objectNames = some names ∧ pyGet names f = .ok n := by
  unfold ObjDB.name
  cases d.objectNames with
  | none => simp
  | some l => simp

theorem keepFrom_spec (d : ObjDB R S) (labels : List S) : ∀ (fs : List ℤ) (i : ℕ) (k : List ℕ),
    keepFrom d labels i fs = .ok k →
    k.Pairwise (· < ·) ∧ (∀ j ∈ k, i ≤ j) ∧
    ∀ j, j ∈ k ↔ i ≤ j ∧ ∃ f n, fs[j - i]? = some f ∧ d.name f = .ok n ∧ n ∈ labels := by
  intro fs
  induction fs with
  | nil =>
    intro i k h
    unfold keepFrom at h
    obtain rfl := Except.ok.inj h
    simp
  | cons f fs ih =>
    intro i k h
    unfold keepFrom at h
    cases hn : d.name f with
    | error e => rw [hn] at h; cases h
    | ok n =>
      cases hr : keepFrom d labels (i + 1) fs with
      | error e => rw [hn, hr] at h; cases h
      | ok rest =>
        rw [hn, hr] at h
        simp only [bind, Except.bind, pure, Except.pure] at h
        obtain rfl := Except.ok.inj h
        obtain ⟨h1, h2, h3⟩ := ih _ _ hr
        have key : ∀ j, (∃ f' n, (f :: fs)[j - i]? = some f' ∧ d.name f' = .ok n ∧ n ∈ labels) ∧ i < j ↔
            j ∈ rest := by
          intro j
          rw [h3 j]
          constructor
          · rintro ⟨⟨f', n', ha, hb⟩, hj⟩
            refine ⟨hj, f', n', ?_, hb⟩
            rw [show j - i = (j - (i + 1)) + 1 by omega, List.getElem?_cons_succ] at ha
            exact ha
          · rintro ⟨hj, f', n', ha, hb⟩
            refine ⟨⟨f', n', ?_, hb⟩, hj⟩
            rw [show j - i = (j - (i + 1)) + 1 by omega, List.getElem?_cons_succ]
            exact ha
        have head : (∃ f' n, (f :: fs)[i - i]? = some f' ∧ d.name f' = .ok n ∧ n ∈ labels)
            ↔ n ∈ labels := by
          rw [Nat.sub_self]
          constructor
          · rintro ⟨f', n', ha, hb, hc⟩
            rw [List.getElem?_cons_zero] at ha
            obtain rfl := Option.some.inj ha
            rw [hn] at hb
            obtain rfl := Except.ok.inj hb
            exact hc
          · intro hm
            exact ⟨f, n, rfl, hn, hm⟩
        by_cases hm : n ∈ labels
        · rw [if_pos hm]
          refine ⟨List.pairwise_cons.2 ⟨fun j hj => by have := h2 j hj; omega, h1⟩, ?_, ?_⟩
          · intro j hj
            rcases List.mem_cons.1 hj with rfl | hj
            · exact le_refl _
            · have := h2 j hj; omega
          · intro j
            rw [List.mem_cons, ← key j]
            constructor
            · rintro (rfl | ⟨ha, hb⟩)
              · exact ⟨le_refl _, head.2 hm⟩
              · exact ⟨hb.le, ha⟩
            · rintro ⟨ha, hb⟩
              rcases Nat.eq_or_lt_of_le ha with rfl | hlt
              · exact Or.inl rfl
              · exact Or.inr ⟨hb, hlt⟩
        · rw [if_neg hm]
          refine ⟨h1, fun j hj => by have := h2 j hj; omega, ?_⟩
          intro j
          rw [← key j]
          constructor
          · rintro ⟨ha, hb⟩
            exact ⟨hb.le, ha⟩
          · rintro ⟨ha, hb⟩
            rcases Nat.eq_or_lt_of_le ha with rfl | hlt
            · exact absurd (head.1 hb) hm
            · exact ⟨hb, hlt⟩

theorem keepFrom_kept (d : ObjDB R S) (labels : List S) (k : List ℕ)
    (h : keepFrom d labels 0 d.frames = .ok k) : KeptFrames d labels k := by
  obtain ⟨h1, _, h3⟩ := keepFrom_spec d labels _ _ _ h
  refine ⟨h1, ?_⟩
  intro i
  rw [h3 i]
  constructor
  · rintro ⟨_, f, n, ha, hb, hc⟩
    obtain ⟨names, h4, h5⟩ := (name_ok d f n).1 hb
    exact ⟨n, hc, f, names, by simpa using ha, h4, h5⟩
  · rintro ⟨n, hc, f, names, ha, h4, h5⟩
    exact ⟨Nat.zero_le _, f, n, by simpa using ha, (name_ok d f n).2 ⟨names, h4, h5⟩, hc⟩

/-- The loader has loaded the database `d`. -/
def Loaded (features labels : List S) (d : ObjDB R S) (s : ObjLoader R S) : Prop :=
  s.featureList = features ∧ s.labelsToKeep = labels ∧ s.db = some d ∧
  ∀ k, s.keepIdx = some k → keepFrom d labels 0 d.frames = .ok k

/-- The loader has not loaded any database. -/
def Unloaded (features labels : List S) (s : ObjLoader R S) : Prop :=
  s.featureList = features ∧ s.labelsToKeep = labels ∧ s.db = none ∧ s.keepIdx = none

omit [DecidableEq S] in
theorem getDb_loaded {s : ObjLoader R S} {d : ObjDB R S} (h : s.db = some d)
    (src : Py (ObjDB R S)) : s.getDb src = (s, .ok d) := by
  unfold ObjLoader.getDb
  rw [h]

theorem getKeepIdx_loaded {features labels : List S} {d : ObjDB R S} {s : ObjLoader R S}
    (h : Loaded features labels d s) (src : Py (ObjDB R S)) :
    (s.getKeepIdx src).2 = keepFrom d labels 0 d.frames ∧
    Loaded features labels d (s.getKeepIdx src).1 := by
  obtain ⟨h1, h2, h3, h4⟩ := h
  unfold ObjLoader.getKeepIdx
  cases hk : s.keepIdx with
  | some k =>
    simp only []
    exact ⟨(h4 k hk).symm, h1, h2, h3, h4⟩
  | none =>
    simp only []
    rw [getDb_loaded h3]
    simp only [h2]
    cases hf : keepFrom d labels 0 d.frames with
    | error e => simp only []; exact ⟨trivial, h1, h2, h3, h4⟩
    | ok k => exact ⟨rfl, h1, rfl, h3, fun k' hk' => by
        rw [hf]; exact congrArg _ (Option.some.inj hk')⟩

theorem pyGet_ok {α : Type} (l : List α) (i : ℕ) (a : α) :
    pyGet l (i : ℤ) = .ok a ↔ l[i]? = some a := by
  unfold pyGet
  rw [if_neg (by omega), Int.toNat_natCast]
  cases l[i]? <;> simp

theorem hstack_ok (cat : List R → R) (bs : List (List R)) (x : List R) (h : hstack cat bs = .ok x)
    (i : ℕ) (r : R) (hi : x[i]? = some r) :
    ∃ rows, r = cat rows ∧ List.Forall₂ (fun b r => b[i]? = some r) bs rows := by
  cases bs with
  | nil => cases h
  | cons b bs =>
    simp only [hstack] at h
    split at h
    · rename_i hall
      obtain rfl := Except.ok.inj h
      have hlen : ∀ c ∈ b :: bs, c.length = b.length := by
        intro c hc
        rcases List.mem_cons.1 hc with rfl | hc
        · rfl
        · simpa using List.all_eq_true.1 hall c hc
      rw [List.getElem?_map] at hi
      obtain ⟨j, hj, hr⟩ := Option.map_eq_some_iff.1 hi
      have hlt : j < b.length := by
        have := List.mem_of_getElem? hj
        simpa using this
      rw [List.getElem?_range (by
        by_contra hc
        rw [List.getElem?_eq_none (by simpa using hc)] at hj
        cases hj)] at hj
      obtain rfl := Option.some.inj hj
      refine ⟨_, hr.symm, ?_⟩
      clear hi hr hall h
      generalize b :: bs = l at hlen
      induction l with
      | nil => exact List.Forall₂.nil
      | cons c cs ih =>
        have hc : i < c.length := by rw [hlen c List.mem_cons_self]; exact hlt
        rw [List.filterMap_cons, List.getElem?_eq_getElem hc]
        exact List.Forall₂.cons (List.getElem?_eq_getElem hc)
          (ih fun c' hc' => hlen c' (List.mem_cons_of_mem _ hc'))
    · cases h

theorem histos_rows (d : ObjDB R S) (i : ℕ) {features : List S} {bs : List (List R)}
    (hb : List.Forall₂ (fun f b => d.histos f = .ok b) features bs) :
    ∀ rows : List R, List.Forall₂ (fun b r => b[i]? = some r) bs rows →
    List.Forall₂ (fun f r => ∃ m, dictGet? d.histosByFrame f = some m ∧ m[i]? = some r)
      features rows := by
  induction hb with
  | nil => intro rows h4; cases h4; exact List.Forall₂.nil
  | @cons f m fs ms hfm _ ih =>
    intro rows h4
    cases h4 with
    | cons ha hb =>
      refine List.Forall₂.cons ⟨m, ?_, ha⟩ (ih _ hb)
      unfold ObjDB.histos at hfm
      cases hg : dictGet? d.histosByFrame f with
      | none => rw [hg] at hfm; cases hfm
      | some m' => rw [hg] at hfm; exact congrArg _ (Except.ok.inj hfm)

theorem getData_loaded (cat : List R → R) {features labels : List S} {d : ObjDB R S}
    {s : ObjLoader R S} (h : Loaded features labels d s) (src : Py (ObjDB R S)) :
    Loaded features labels d (s.getData cat src).1 ∧
    ∀ x, (s.getData cat src).2 = .ok x → ∃ k, keepFrom d labels 0 d.frames = .ok k ∧
      List.Forall₂ (FrameRow cat d features) k x := by
  unfold ObjLoader.getData
  by_cases hf : s.featureList = []
  · rw [if_pos hf]
    exact ⟨h, fun x hx => by cases hx⟩
  · rw [if_neg hf, getDb_loaded h.2.2.1]
    simp only []
    cases hx : s.featureList.mapM d.histos >>= hstack cat with
    | error e => exact ⟨h, fun x hx => by cases hx⟩
    | ok x =>
      simp only []
      obtain ⟨h1, h2⟩ := getKeepIdx_loaded h src
      rcases hk : s.getKeepIdx src with ⟨s', r⟩
      rw [hk] at h1 h2
      simp only [] at h1 h2 ⊢
      cases r with
      | error e => exact ⟨h2, fun x hx => by cases hx⟩
      | ok k =>
        simp only []
        cases ht : takeRows x k with
        | error e => exact ⟨h2, fun x hx => by cases hx⟩
        | ok y =>
          simp only []
          refine ⟨⟨h2.1, h2.2.1, h2.2.2.1, h2.2.2.2⟩, ?_⟩
          intro z hz
          have hyz : y = z := by
            cases hc : (checkN s'.nSamples y.length).2 with
            | error e => rw [hc] at hz; cases hz
            | ok u => rw [hc] at hz; exact Except.ok.inj hz
          subst hyz
          refine ⟨k, h1.symm, ?_⟩
          unfold takeRows at ht
          rw [mapM_py_ok] at ht
          cases hb : s.featureList.mapM d.histos with
          | error e => rw [hb] at hx; cases hx
          | ok bs =>
            rw [hb] at hx
            have hx : hstack cat bs = .ok x := hx
            rw [mapM_py_ok, h.1] at hb
            refine ht.imp ?_
            intro i r hr
            rw [pyGet_ok] at hr
            obtain ⟨rows, h3, h4⟩ := hstack_ok cat bs x hx i r hr
            refine ⟨rows, h3, ?_⟩
            exact histos_rows d i hb rows h4

theorem getLabels_loaded {features labels : List S} {d : ObjDB R S}
    {s : ObjLoader R S} (h : Loaded features labels d s) (src : Py (ObjDB R S)) :
    Loaded features labels d (s.getLabels src).1 ∧
    ∀ l, (s.getLabels src).2 = .ok l → ∃ k, keepFrom d labels 0 d.frames = .ok k ∧
      List.Forall₂ (fun i n => FrameName d i n ∧ n ∈ labels) k l := by
  unfold ObjLoader.getLabels
  obtain ⟨h1, h2⟩ := getKeepIdx_loaded h src
  rcases hk : s.getKeepIdx src with ⟨s', r⟩
  rw [hk] at h1 h2
  simp only [] at h1 h2 ⊢
  cases r with
  | error e => exact ⟨h2, fun x hx => by cases hx⟩
  | ok k =>
    simp only []
    rw [getDb_loaded h2.2.2.1]
    simp only []
    cases hl : k.mapM (fun i : ℕ => do
        let f ← pyGet d.frames (i : ℤ)
        d.name f) with
    | error e => exact ⟨h2, fun x hx => by cases hx⟩
    | ok l =>
      simp only []
      refine ⟨⟨h2.1, h2.2.1, h2.2.2.1, h2.2.2.2⟩, ?_⟩
      intro z hz
      have hyz : l = z := by
        cases hc : (checkN s'.nSamples l.length).2 with
        | error e => rw [hc] at hz; cases hz
        | ok u => rw [hc] at hz; exact Except.ok.inj hz
      subst hyz
      refine ⟨k, h1.symm, ?_⟩
      have hkept := keepFrom_kept d labels k h1.symm
      rw [mapM_py_ok, List.forall₂_iff_get] at hl
      rw [List.forall₂_iff_get]
      refine ⟨hl.1, ?_⟩
      intro i hi1 hi2
      have := hl.2 i hi1 hi2
      cases hf : pyGet d.frames ((k.get ⟨i, hi1⟩ : ℕ) : ℤ) with
      | error e => rw [hf] at this; cases this
      | ok f =>
        rw [hf] at this
        have hn : d.name f = .ok (l.get ⟨i, hi2⟩) := this
        obtain ⟨names, h4, h5⟩ := (name_ok d f _).1 hn
        have hname : FrameName d (k.get ⟨i, hi1⟩) (l.get ⟨i, hi2⟩) :=
          ⟨f, names, (pyGet_ok _ _ _).1 hf, h4, h5⟩
        refine ⟨hname, ?_⟩
        obtain ⟨n', hn', f', names', h6, h7, h8⟩ := (hkept.2 (k.get ⟨i, hi1⟩)).1 (List.get_mem _ _)
        rw [(pyGet_ok _ _ _).1 hf] at h6
        obtain rfl := Option.some.inj h6
        rw [h4] at h7
        obtain rfl := Option.some.inj h7
        rw [h5] at h8
        obtain e := Except.ok.inj h8
        rw [e]; exact hn'

theorem run_loaded (cat : List R → R) {features labels : List S} {d : ObjDB R S}
    (calls : List (Bool × Py (ObjDB R S))) : ∀ {s : ObjLoader R S}, Loaded features labels d s →
    ∀ o ∈ s.run cat calls, Failed o ∨ ∃ k, keepFrom d labels 0 d.frames = .ok k ∧
      Aligned cat features labels d k o := by
  induction calls with
  | nil => intro s _ o ho; cases ho
  | cons c cs ih =>
    intro s h o ho
    obtain ⟨b, src⟩ := c
    unfold ObjLoader.run at ho
    cases b with
    | true =>
      rw [if_pos rfl] at ho
      obtain ⟨h1, h2⟩ := getData_loaded cat h src
      rcases List.mem_cons.1 ho with rfl | ho
      · cases hr : (s.getData cat src).2 with
        | error e => exact Or.inl trivial
        | ok x => exact Or.inr (h2 x hr)
      · exact ih h1 o ho
    | false =>
      rw [if_neg (by decide)] at ho
      obtain ⟨h1, h2⟩ := getLabels_loaded h src
      rcases List.mem_cons.1 ho with rfl | ho
      · cases hr : (s.getLabels src).2 with
        | error e => exact Or.inl trivial
        | ok x => exact Or.inr (h2 x hr)
      · exact ih h1 o ho

omit [DecidableEq S] in
theorem getDb_unloaded_error {s : ObjLoader R S} (h : s.db = none) (e : PyErr) :
    s.getDb (.error e) = (s, .error e) := by
  unfold ObjLoader.getDb
  rw [h]

omit [DecidableEq S] in
theorem getDb_unloaded_ok {s : ObjLoader R S} (h : s.db = none) (d : ObjDB R S) :
    s.getDb (.ok d) = (⟨s.featureList, s.labelsToKeep, s.nSamples, some d, s.keepIdx⟩, .ok d) := by
  unfold ObjLoader.getDb
  rw [h]

theorem run_unloaded (cat : List R → R) {features labels : List S}
    (calls : List (Bool × Py (ObjDB R S))) : ∀ {s : ObjLoader R S}, Unloaded features labels s →
    (∀ o ∈ s.run cat calls, Failed o) ∨
    ∃ d k, (∃ b, (b, .ok d) ∈ calls) ∧ keepFrom d labels 0 d.frames = .ok k ∧
      ∀ o ∈ s.run cat calls, Aligned cat features labels d k o := by
  induction calls with
  | nil => intro s _; exact Or.inl fun o ho => by cases ho
  | cons c cs ih =>
    intro s h
    obtain ⟨b, src⟩ := c
    obtain ⟨h1, h2, h3, h4⟩ := h
    have main : ∀ d, src = .ok d → s.run cat ((b, src) :: cs) =
        (⟨s.featureList, s.labelsToKeep, s.nSamples, some d, s.keepIdx⟩ : ObjLoader R S).run cat
          ((b, src) :: cs) ∨ (b = true ∧ s.featureList = []) := by
      rintro d rfl
      by_cases hf : b = true ∧ s.featureList = []
      · exact Or.inr hf
      · left
        unfold ObjLoader.run
        cases b with
        | true =>
          have hf : s.featureList ≠ [] := fun e => hf ⟨rfl, e⟩
          have e : s.getData cat (.ok d) = (⟨s.featureList, s.labelsToKeep, s.nSamples, some d,
              s.keepIdx⟩ : ObjLoader R S).getData cat (.ok d) := by
            unfold ObjLoader.getData
            rw [if_neg hf, if_neg hf, getDb_unloaded_ok h3, getDb_loaded rfl]
          rw [if_pos rfl, if_pos rfl, e]
        | false =>
          have e : s.getLabels (.ok d) = (⟨s.featureList, s.labelsToKeep, s.nSamples, some d,
              s.keepIdx⟩ : ObjLoader R S).getLabels (.ok d) := by
            unfold ObjLoader.getLabels ObjLoader.getKeepIdx
            rw [h4]
            simp only []
            rw [getDb_unloaded_ok h3, getDb_loaded rfl, h4]
          rw [if_neg (by decide), if_neg (by decide), e]
    have stay : (s.run cat ((b, src) :: cs) = (if b then Out.data (.error .valueError)
        else .labels (.error .valueError)) :: s.run cat cs ∨ ∃ e,
        s.run cat ((b, src) :: cs) = (if b then Out.data (.error e) else .labels (.error e)) ::
          s.run cat cs) →
        (∀ o ∈ s.run cat ((b, src) :: cs), Failed o) ∨
        ∃ d k, (∃ b', (b', Except.ok d) ∈ (b, src) :: cs) ∧ keepFrom d labels 0 d.frames = .ok k ∧
          ∀ o ∈ s.run cat ((b, src) :: cs), Aligned cat features labels d k o := by
      intro hrun
      have hrun : ∃ e, s.run cat ((b, src) :: cs) =
          (if b then Out.data (.error e) else .labels (.error e)) :: s.run cat cs := by
        rcases hrun with hrun | hrun
        · exact ⟨_, hrun⟩
        · exact hrun
      obtain ⟨e, hrun⟩ := hrun
      rw [hrun]
      rcases ih (s := s) ⟨h1, h2, h3, h4⟩ with hall | ⟨d, k, ⟨b', hb'⟩, hk, hall⟩
      · left
        intro o ho
        rcases List.mem_cons.1 ho with rfl | ho
        · cases b <;> trivial
        · exact hall o ho
      · right
        refine ⟨d, k, ⟨b', List.mem_cons_of_mem _ hb'⟩, hk, ?_⟩
        intro o ho
        rcases List.mem_cons.1 ho with rfl | ho
        · cases b <;> trivial
        · exact hall o ho
    by_cases hf : b = true ∧ s.featureList = []
    · apply stay
      left
      obtain ⟨rfl, hf⟩ := hf
      show (if true = true then _ else _) = _
      have e : s.getData cat src = (s, .error .valueError) := by
        unfold ObjLoader.getData
        rw [if_pos hf]
      rw [if_pos rfl, e]
      rfl
    · cases src with
      | error e =>
        apply stay
        right
        refine ⟨e, ?_⟩
        show (if b = true then _ else _) = _
        cases b with
        | true =>
          have hf : s.featureList ≠ [] := fun e => hf ⟨rfl, e⟩
          have e : s.getData cat (.error e) = (s, .error e) := by
            unfold ObjLoader.getData
            rw [if_neg hf, getDb_unloaded_error h3]
          rw [if_pos rfl, e]
          rfl
        | false =>
          have e : s.getLabels (.error e) = (s, .error e) := by
            unfold ObjLoader.getLabels ObjLoader.getKeepIdx
            rw [h4]
            simp only []
            rw [getDb_unloaded_error h3]
          rw [if_neg (by decide), e]
          rfl
      | ok d =>
        rcases main d rfl with hm | hm
        · rw [hm]
          have hl : Loaded features labels d (⟨s.featureList, s.labelsToKeep, s.nSamples, some d,
              s.keepIdx⟩ : ObjLoader R S) :=
            ⟨h1, h2, rfl, fun k hk => by rw [h4] at hk; cases hk⟩
          have := run_loaded cat ((b, .ok d) :: cs) hl
          cases hk : keepFrom d labels 0 d.frames with
          | error e =>
            left
            intro o ho
            rcases this o ho with h | ⟨k, h, _⟩
            · exact h
            · rw [hk] at h; cases h
          | ok k =>
            right
            refine ⟨d, k, ⟨b, List.mem_cons_self⟩, hk, ?_⟩
            intro o ho
            rcases this o ho with h | ⟨k', h, h'⟩
            · cases o with
              | data x => cases x with
                | error e => trivial
                | ok x => exact absurd h id
              | labels x => cases x with
                | error e => trivial
                | ok x => exact absurd h id
            · rw [hk] at h
              obtain rfl := Except.ok.inj h
              exact h'
        · exact absurd hm hf

/-- **C86.** In any sequence of calls of `get_data` and `get_labels` on an `ObjectsLoader`, whatever
the database file holds at each call, either all calls fail or there is one database, read by one of
the calls, for which every successful call returns one row or one label for each frame with a kept
name, in order. -/
theorem C86_objects (cat : List R → R) (features labels : List S)
    (calls : List (Bool × Py (ObjDB R S))) :
    (∀ o ∈ (ObjLoader.new features labels).run cat calls, Failed o) ∨
    ∃ d idx, (∃ b, (b, .ok d) ∈ calls) ∧ KeptFrames d labels idx ∧
      ∀ o ∈ (ObjLoader.new features labels).run cat calls, Aligned cat features labels d idx o := by
  rcases run_unloaded cat calls (s := ObjLoader.new features labels) ⟨rfl, rfl, rfl, rfl⟩ with
    h | ⟨d, k, h1, h2, h3⟩
  · exact Or.inl h
  · exact Or.inr ⟨d, k, h1, keepFrom_kept d labels k h2, h3⟩

/-- Example database: three frames, of which two have a kept name. -/
def exObj : ObjDB (List ℕ) ℕ := ⟨[0, 1, 0], some [7, 8], [(3, [[1], [2], [3]]), (4, [[4], [5], [6]])]⟩

/-- **C86.** The calls do succeed: on a database in which every frame has a name and every asked
feature a row for each frame, any sequence of calls is without failure. -/
theorem C86_objects_success (cat : List R → R) (features labels : List S) (d : ObjDB R S)
    (hne : features ≠ [])
    (hnames : ∀ f ∈ d.frames, ∃ n, d.name f = .ok n)
    (hfeat : ∀ f ∈ features, ∃ m, dictGet? d.histosByFrame f = some m ∧
      m.length = d.frames.length) (calls : List Bool) :
    ∀ o ∈ (ObjLoader.new features labels).run cat (calls.map fun b => (b, .ok d)), ¬ Failed o := by
  have hkeep : ∀ (fs : List ℤ) (i : ℕ), (∀ f ∈ fs, ∃ n, d.name f = .ok n) →
      ∃ k, keepFrom d labels i fs = .ok k := by
    intro fs
    induction fs with
    | nil => intro i _; exact ⟨_, rfl⟩
    | cons f fs ih =>
      intro i h
      obtain ⟨n, hn⟩ := h f List.mem_cons_self
      obtain ⟨k, hk⟩ := ih (i + 1) fun g hg => h g (List.mem_cons_of_mem _ hg)
      unfold keepFrom
      rw [hn, hk]
      exact ⟨_, rfl⟩
  obtain ⟨k, hk⟩ := hkeep d.frames 0 hnames
  have hkept := keepFrom_kept d labels k hk
  have hklt : ∀ i ∈ k, i < d.frames.length := by
    intro i hi
    obtain ⟨n, _, f, names, h1, _⟩ := (hkept.2 i).1 hi
    by_contra hc
    rw [List.getElem?_eq_none (by omega)] at h1
    cases h1
  -- the blocks
  have hblocks : ∃ bs, features.mapM d.histos = .ok bs ∧ ∀ b ∈ bs, b.length = d.frames.length := by
    clear hne
    induction features with
    | nil => exact ⟨[], rfl, by simp⟩
    | cons f fs ih =>
      obtain ⟨m, h1, h2⟩ := hfeat f List.mem_cons_self
      obtain ⟨bs, h3, h4⟩ := ih fun g hg => hfeat g (List.mem_cons_of_mem _ hg)
      refine ⟨m :: bs, ?_, ?_⟩
      · rw [List.mapM_cons, h3]
        unfold ObjDB.histos
        rw [h1]
        rfl
      · intro b hb
        rcases List.mem_cons.1 hb with rfl | hb
        · exact h2
        · exact h4 b hb
  obtain ⟨bs, hbs, hlen⟩ := hblocks
  have hstackok : ∃ x, hstack cat bs = .ok x ∧ x.length = d.frames.length := by
    cases bs with
    | nil =>
      rw [mapM_py_ok] at hbs
      cases hbs
      exact absurd rfl hne
    | cons b bs =>
      simp only [hstack]
      rw [if_pos]
      · exact ⟨_, rfl, by simp [hlen b List.mem_cons_self]⟩
      · rw [List.all_eq_true]
        intro c hc
        rw [decide_eq_true_eq, hlen c (List.mem_cons_of_mem _ hc), hlen b List.mem_cons_self]
  obtain ⟨x, hx, hxlen⟩ := hstackok
  have htake : ∃ y, takeRows x k = .ok y ∧ y.length = k.length := by
    refine ⟨k.pmap (fun i hi => x[i]'(by rw [hxlen]; exact hi)) hklt, ?_, by simp⟩
    unfold takeRows
    rw [mapM_py_ok, List.forall₂_iff_get]
    refine ⟨by simp, ?_⟩
    intro i h1 h2
    rw [pyGet_ok]
    simp only [List.get_eq_getElem, List.getElem_pmap]
    exact List.getElem?_eq_getElem _
  obtain ⟨y, hy, hylen⟩ := htake
  have hlab : ∃ l, k.mapM (fun i : ℕ => do
        let f ← pyGet d.frames (i : ℤ)
        d.name f) = .ok l ∧ l.length = k.length := by
    have : ∀ k' : List ℕ, (∀ i ∈ k', i < d.frames.length) → ∃ l, k'.mapM (fun i : ℕ => do
        let f ← pyGet d.frames (i : ℤ)
        d.name f) = .ok l ∧ l.length = k'.length := by
      intro k'
      induction k' with
      | nil => intro _; exact ⟨[], rfl, rfl⟩
      | cons i is ih =>
        intro h
        obtain ⟨l, h1, h2⟩ := ih fun j hj => h j (List.mem_cons_of_mem _ hj)
        have hi := h i List.mem_cons_self
        obtain ⟨n, hn⟩ := hnames d.frames[i] (List.getElem_mem hi)
        have hg : pyGet d.frames (i : ℤ) = .ok d.frames[i] :=
          (pyGet_ok _ _ _).2 (List.getElem?_eq_getElem hi)
        refine ⟨n :: l, ?_, by simp [h2]⟩
        rw [List.mapM_cons, h1, hg]
        show (d.name d.frames[i] >>= fun a => _) = _
        rw [hn]
        rfl
    exact this k hklt
  obtain ⟨l, hl, hllen⟩ := hlab
  -- states
  have hstate : ∀ (calls : List Bool) (s : ObjLoader R S), s.featureList = features →
      s.labelsToKeep = labels → (s.db = none ∨ s.db = some d) →
      (s.keepIdx = none ∨ s.keepIdx = some k) →
      (s.nSamples = none ∨ s.nSamples = some k.length) →
      ∀ o ∈ s.run cat (calls.map fun b => (b, .ok d)), ¬ Failed o := by
    intro calls
    induction calls with
    | nil => intro s _ _ _ _ _ o ho; cases ho
    | cons b bs' ih =>
      intro s h1 h2 h3 h4 h5 o ho
      have hdb : s.getDb (.ok d) = (⟨s.featureList, s.labelsToKeep, s.nSamples, some d, s.keepIdx⟩,
          .ok d) := by
        rcases h3 with h3 | h3
        · exact getDb_unloaded_ok h3 d
        · rw [getDb_loaded h3, ← h3]
      have hki : ∀ s : ObjLoader R S, s.featureList = features → s.labelsToKeep = labels →
          (s.db = none ∨ s.db = some d) → (s.keepIdx = none ∨ s.keepIdx = some k) →
          ∃ db, s.getKeepIdx (.ok d) = (⟨features, labels, s.nSamples, db, some k⟩, .ok k) ∧
            (db = none ∨ db = some d) := by
        intro s h1 h2 h3 h4
        unfold ObjLoader.getKeepIdx
        rcases h4 with h4 | h4
        · rw [h4]
          simp only []
          have hdb : s.getDb (.ok d) = (⟨s.featureList, s.labelsToKeep, s.nSamples, some d,
              s.keepIdx⟩, .ok d) := by
            rcases h3 with h3 | h3
            · exact getDb_unloaded_ok h3 d
            · rw [getDb_loaded h3, ← h3]
          rw [hdb]
          simp only [h2]
          rw [hk, h1]
          exact ⟨_, rfl, Or.inr rfl⟩
        · refine ⟨s.db, ?_, h3⟩
          rw [h4, ← h1, ← h2]
          simp only [← h4]
      have hcheck : ∀ nS : Option ℕ, (nS = none ∨ nS = some k.length) →
          checkN nS k.length = (some k.length, .ok ()) := by
        rintro nS (rfl | rfl)
        · rfl
        · simp [checkN]
      rw [List.map_cons] at ho
      unfold ObjLoader.run at ho
      cases b with
      | true =>
        rw [if_pos rfl] at ho
        have hd : ∃ db, s.getData cat (.ok d) =
            (⟨features, labels, some k.length, db, some k⟩, .ok y) ∧ (db = none ∨ db = some d) := by
          unfold ObjLoader.getData
          rw [if_neg (by rw [h1]; exact hne), hdb]
          simp only [h1]
          rw [hbs]
          have : ((Except.ok bs : Py (List (List R))) >>= hstack cat) = .ok x := hx
          rw [this]
          simp only []
          obtain ⟨db, h6, h7⟩ := hki ⟨features, s.labelsToKeep, s.nSamples, some d, s.keepIdx⟩ rfl h2
            (Or.inr rfl) h4
          rw [h6]
          simp only []
          rw [hy]
          simp only []
          rw [hylen, hcheck _ h5]
          exact ⟨db, rfl, h7⟩
        obtain ⟨db, hd, hdb'⟩ := hd
        rw [hd] at ho
        rcases List.mem_cons.1 ho with rfl | ho
        · exact id
        · exact ih _ rfl rfl hdb' (Or.inr rfl) (Or.inr rfl) o ho
      | false =>
        rw [if_neg (by decide)] at ho
        have hd : s.getLabels (.ok d) =
            (⟨features, labels, some k.length, some d, some k⟩, .ok l) := by
          unfold ObjLoader.getLabels
          obtain ⟨db, h6, h7⟩ := hki s h1 h2 h3 h4
          rw [h6]
          simp only []
          have hdb2 : (⟨features, labels, s.nSamples, db, some k⟩ : ObjLoader R S).getDb (.ok d) =
              (⟨features, labels, s.nSamples, some d, some k⟩, .ok d) := by
            rcases h7 with rfl | rfl
            · exact getDb_unloaded_ok rfl d
            · exact getDb_loaded rfl _
          rw [hdb2]
          simp only []
          rw [hl]
          simp only []
          rw [hllen, hcheck _ h5]
          rfl
        rw [hd] at ho
        rcases List.mem_cons.1 ho with rfl | ho
        · exact id
        · exact ih _ rfl rfl (Or.inr rfl) (Or.inr rfl) (Or.inr rfl) o ho
  exact hstate calls _ rfl rfl (Or.inl rfl) (Or.inl rfl) (Or.inl rfl)

example : ((ObjLoader.new [3, 4] [7]).getData List.flatten (.ok exObj)).2 = .ok [[1, 4], [3, 6]] ∧
    ((ObjLoader.new [3, 4] [7]).getLabels (.ok exObj)).2 = .ok [7, 7] := ⟨rfl, rfl⟩

example : (∀ f ∈ exObj.frames, ∃ n, exObj.name f = .ok n) ∧ ∀ f ∈ [3, 4], ∃ m,
    dictGet? exObj.histosByFrame f = some m ∧ m.length = exObj.frames.length := by
  constructor
  · intro f hf
    simp only [exObj, List.mem_cons, List.not_mem_nil, or_false] at hf
    rcases hf with rfl | rfl | rfl
    · exact ⟨7, rfl⟩
    · exact ⟨8, rfl⟩
    · exact ⟨7, rfl⟩
  · intro f hf
    simp only [List.mem_cons, List.not_mem_nil, or_false] at hf
    rcases hf with rfl | rfl
    · exact ⟨_, rfl, rfl⟩
    · exact ⟨_, rfl, rfl⟩

end Verif.Loaders
