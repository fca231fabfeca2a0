import Verif.Logger.Failures
import Verif.Logger.PropsCrash

/-!
# Saves which are interrupted or fail (C217)
-/

namespace Verif.Logger

open Verif

variable {P A : Type}

/-! ## Specification -/

/-- A log holds an array. -/
def HasArray (l : Logger P A) : Prop := ∃ d ∈ l.glob :: l.exps, ∃ k a, (k, Val.arr a) ∈ d

/-- All plain values of a log can be written in JSON. -/
def Writable (ser : P → Bool) (l : Logger P A) : Prop :=
  ∀ d ∈ l.glob :: l.exps, ∀ k p, (k, Val.plain p) ∈ d → ser p = true

/-- `d` has the arrays of `new`, which may not exist, and the plain values of `old` for other keys. -/
def Mixed (d old : Dict Key (Val P A)) (new : Option (Dict Key (Val P A))) : Prop :=
  ∀ k, dictGet? d k = match new.bind fun e => dictGet? e k with
    | some (.arr a) => some (.arr a)
    | _ => match dictGet? old k with
      | some (.plain p) => some (.plain p)
      | _ => none

/-- The files when `Logger.save` is interrupted after some of its writes. -/
def interrupted (ser : P → Bool) (fs : FS P A) (new : Logger P A) (j : ℕ) : FS P A :=
  fs.writes ((saveSteps ser new).1.take j)

/-! ## Lemmas -/

theorem arrays_nil_iff (d : Dict Key (Val P A)) : arrays d = [] ↔ ∀ k a, (k, Val.arr a) ∉ d := by
  unfold arrays
  rw [List.filterMap_eq_nil_iff]
  constructor
  · intro h k a hm
    have := h _ hm
    simp [arr?] at this
  · intro h kv hkv
    obtain ⟨k, v⟩ := kv
    cases v with
    | plain p => rfl
    | arr a => exact absurd hkv (h k a)

theorem taggedRuns_nil (es : List (Dict Key (Val P A))) : ∀ (n : ℕ), (∀ d ∈ es, arrays d = []) →
    taggedRuns n es = [] := by
  induction es with
  | nil => intro n _; rfl
  | cons e es ih =>
    intro n hh
    unfold taggedRuns tagged
    rw [hh e List.mem_cons_self, ih _ (fun d hd => hh d (List.mem_cons_of_mem _ hd))]
    rfl

theorem hasArray_iff (l : Logger P A) (h : WF l) : 0 < (saveDicts l).2.2.length ↔ HasArray l := by
  rw [saveDicts_eq l h]
  simp only [encAll, List.length_map]
  constructor
  · intro h0
    by_contra hno
    have hnil : ∀ d ∈ l.glob :: l.exps, arrays d = [] := by
      intro d hd
      rw [arrays_nil_iff]
      intro k a hm
      exact hno ⟨d, hd, k, a, hm⟩
    have : allTagged l = [] := by
      unfold allTagged tagged
      rw [hnil l.glob List.mem_cons_self, taggedRuns_nil l.exps 0 (fun d hd => hnil d (List.mem_cons_of_mem _ hd))]
      rfl
    rw [this] at h0
    simp at h0
  · rintro ⟨d, hd, k, a, hm⟩
    unfold allTagged
    rw [List.length_append]
    rcases List.mem_cons.1 hd with rfl | hd
    · have : ((none, k), a) ∈ tagged none l.glob := by
        unfold tagged arrays
        rw [List.mem_map]
        exact ⟨(k, a), List.mem_filterMap.2 ⟨_, hm, rfl⟩, rfl⟩
      have := List.length_pos_of_mem this
      omega
    · obtain ⟨i, hi⟩ := List.mem_iff_getElem?.1 hd
      have := List.length_pos_of_mem (mem_taggedRuns_of (n := 0) hi hm)
      omega

theorem all_plains (ser : P → Bool) (d : Dict Key (Val P A)) :
    (plains d).all (fun kv => ser kv.2) = true ↔ ∀ k p, (k, Val.plain p) ∈ d → ser p = true := by
  rw [List.all_eq_true]
  unfold plains
  constructor
  · intro h k p hm
    exact h (k, p) (List.mem_filterMap.2 ⟨_, hm, rfl⟩)
  · intro h kv hkv
    obtain ⟨⟨k, v⟩, hm, e⟩ := List.mem_filterMap.1 hkv
    cases v with
    | plain p =>
      simp only [plain?, Option.map_some, Option.some.injEq] at e
      subst e
      exact h k p hm
    | arr a => simp [plain?] at e

theorem serializable_iff (ser : P → Bool) (l : Logger P A) (h : WF l) (ek rk : List Key) (b : Bool) :
    (⟨(saveDicts l).1, (saveDicts l).2.1, ek, rk, b⟩ : Doc P).serializable ser = true ↔ Writable ser l := by
  rw [saveDicts_eq l h]
  unfold Doc.serializable Writable
  simp only [Bool.and_eq_true]
  rw [all_plains, List.all_eq_true]
  constructor
  · rintro ⟨h1, h2⟩ d hd
    rcases List.mem_cons.1 hd with rfl | hd
    · exact h1
    · exact (all_plains ser d).1 (h2 _ (List.mem_map.2 ⟨d, hd, rfl⟩))
  · intro hh
    refine ⟨hh _ List.mem_cons_self, fun d' hd' => ?_⟩
    obtain ⟨d, hd, rfl⟩ := List.mem_map.1 hd'
    exact (all_plains ser d).2 (hh d (List.mem_cons_of_mem _ hd))

theorem write_write (fs : FS P A) (k : Key) (a b : File P A) : (fs.write k a).write k b = fs.write k b := by
  funext x
  unfold FS.write
  split_ifs <;> rfl

/-- Setting the arrays of runs which may be more, or fewer. -/
def mergeRuns : List (Dict Key (Val P A)) → List (Dict Key (Val P A)) → List (Dict Key (Val P A))
  | [], _ => []
  | cur, [] => cur
  | c :: cur, e :: es => mergeArr c e :: mergeRuns cur es

theorem mergeRuns_length (cur : List (Dict Key (Val P A))) : ∀ es, (mergeRuns cur es).length = cur.length := by
  induction cur with
  | nil => intro es; rfl
  | cons c cur ih =>
    intro es
    cases es with
    | nil => rfl
    | cons e es => simp [mergeRuns, ih]

theorem mergeRuns_getElem? (cur : List (Dict Key (Val P A))) : ∀ (es : List (Dict Key (Val P A))) (i : ℕ),
    (mergeRuns cur es)[i]? = cur[i]?.map fun c => match es[i]? with
      | some e => mergeArr c e
      | none => c := by
  induction cur with
  | nil => intro es i; simp [mergeRuns]
  | cons c cur ih =>
    intro es i
    cases es with
    | nil =>
      simp only [mergeRuns, List.getElem?_nil]
      exact Option.map_id'.symm
    | cons e es =>
      cases i with
      | zero => rfl
      | succ i =>
        simp only [mergeRuns, List.getElem?_cons_succ]
        exact ih es i

theorem loadRuns_any (es : List (Dict Key (Val P A))) : ∀ (l : Logger P A)
    (pre cur : List (Dict Key (Val P A))), l.exps = pre ++ cur →
    (∀ i e, cur.length ≤ i → es[i]? = some e → arrays e = []) →
    (encAll (taggedRuns pre.length es)).foldlM loadStep l =
      .ok { l with exps := pre ++ mergeRuns cur es } := by
  induction es with
  | nil =>
    intro l pre cur h _
    have : mergeRuns cur [] = cur := by cases cur <;> rfl
    rw [this, ← h]
    rfl
  | cons e es ih =>
    intro l pre cur h hno
    cases cur with
    | nil =>
      have hnil : taggedRuns pre.length (e :: es) = [] := by
        apply taggedRuns_nil
        intro d hd
        obtain ⟨i, hi⟩ := List.mem_iff_getElem?.1 hd
        exact hno i d (Nat.zero_le _) hi
      rw [hnil]
      simp only [mergeRuns]
      rw [← h]
      rfl
    | cons c cur =>
      unfold taggedRuns
      rw [encAll_append, List.foldlM_append, loadRun e _ l (by rw [h]; simp)]
      have hmod : (l.exps.modify pre.length fun d => mergeArr d e) = (pre ++ [mergeArr c e]) ++ cur := by
        rw [h, modify_length_append]
        simp
      have := ih { l with exps := l.exps.modify pre.length fun d => mergeArr d e }
        (pre ++ [mergeArr c e]) cur hmod (by
          intro i d hi hd
          exact hno (i + 1) d (by simpa using hi) (by simpa using hd))
      rw [List.length_append, List.length_singleton] at this
      simp only [bind, Except.bind]
      rw [this]
      simp [mergeRuns]

theorem mixed_merge (old new : Dict Key (Val P A)) (h1 : DictOK old) (h2 : DictOK new) :
    Mixed (mergeArr (plainDict (plains old)) new) old (some new) := by
  intro k
  unfold mergeArr
  rw [dictGet?_foldl_set]
  · have e1 : dictGet? ((arrays new).map fun kv => (kv.1, (Val.arr kv.2 : Val P A))) k =
        (dictGet? new k).bind fun v => (arr? v).map Val.arr := by
      rw [← dictGet?_filterMap _ new k h2]
      unfold arrays
      rw [List.map_filterMap]
      congr 1
      apply List.filterMap_congr
      intro x _
      cases arr? x.2 <;> rfl
    rw [e1, dictGet?_plainPart old h1]
    simp only [Option.bind_some]
    cases dictGet? new k with
    | none =>
      cases dictGet? old k with
      | none => rfl
      | some v => cases v <;> rfl
    | some w =>
      cases w with
      | arr a => rfl
      | plain p =>
        cases dictGet? old k with
        | none => rfl
        | some v => cases v <;> rfl
  · have : dictKeys ((arrays new).map fun kv => (kv.1, (Val.arr kv.2 : Val P A))) = dictKeys (arrays new) := by
      unfold dictKeys; rw [List.map_map]; rfl
    rw [this]
    exact h2.sublist (dictKeys_filterMap_sublist arr? new)

theorem mixed_plain (old : Dict Key (Val P A)) (h1 : DictOK old) :
    Mixed (plainDict (plains old)) old none := by
  intro k
  rw [dictGet?_plainPart old h1]
  cases dictGet? old k with
  | none => rfl
  | some v => cases v <;> rfl

theorem load_truncated (g : FS P A) (f : Key) (setF np : Bool) :
    load (g.write (f ++ ".json".toList) .truncated) f setF np = .error .valueError := by
  unfold load FS.write
  rw [if_pos rfl]

/-- The files which a save leaves. -/
theorem saved_json (fs0 fs : FS P A) (old : Logger P A) (f : Key) (hf : old.filename = some f)
    (h : old.save fs0 = .ok fs) (hwf : WF old) :
    fs (f ++ ".json".toList) = some (.json ⟨plains old.glob, old.exps.map plains, old.expKeys, old.resultKeys,
      decide (0 < (saveDicts old).2.2.length)⟩) := by
  rw [save_ok fs0 old f hf] at h
  obtain rfl := Except.ok.inj h
  rw [saveDicts_eq old hwf]
  show FS.write _ _ _ _ = _
  unfold FS.write
  rw [if_pos rfl]

/-! ## C217 -/

/-- **C217**: a save whose values can be written is the one of C72; otherwise it raises `TypeError`, and no log can
be loaded any more, neither the new one nor the one which the file held before. -/
theorem C217_outcome (ser : P → Bool) (fs : FS P A) (l : Logger P A) (f : Key) (hf : l.filename = some f)
    (hwf : WF l) :
    (Writable ser l → (l.saveF ser fs).2 = .ok () ∧ l.save fs = .ok (l.saveF ser fs).1) ∧
    (¬ Writable ser l → (l.saveF ser fs).2 = .error .typeError ∧
      ∀ setF np, load (l.saveF ser fs).1 f setF np = .error .valueError) := by
  constructor
  · intro hw
    have hs := (serializable_iff ser l hwf l.expKeys l.resultKeys (decide (0 < (saveDicts l).2.2.length))).2 hw
    unfold Logger.saveF saveSteps
    rw [hf]
    simp only [hs, if_true]
    refine ⟨trivial, ?_⟩
    rw [save_ok fs l f hf]
    congr 1
    by_cases h0 : 0 < (saveDicts l).2.2.length
    · simp only [if_pos h0]
      show _ = ((((fs.write _ _).write _ _).write _ _).write _ _)
      rw [write_write fs (npzPath f)]
    · simp only [if_neg h0]
      rfl
  · intro hw
    have hs : ¬ ((⟨(saveDicts l).1, (saveDicts l).2.1, l.expKeys, l.resultKeys,
        decide (0 < (saveDicts l).2.2.length)⟩ : Doc P).serializable ser = true) := fun h =>
      hw ((serializable_iff ser l hwf _ _ _).1 h)
    unfold Logger.saveF saveSteps
    rw [hf]
    simp only [hs]
    refine ⟨rfl, fun setF np => ?_⟩
    by_cases h0 : 0 < (saveDicts l).2.2.length
    · simp only [if_pos h0]
      exact load_truncated _ f setF np
    · simp only [if_neg h0]
      exact load_truncated _ f setF np

/-- **C217**: without file name nothing is written. -/
theorem C217_no_file (ser : P → Bool) (fs : FS P A) (l : Logger P A) (hf : l.filename = none) :
    l.saveF ser fs = (fs, .error .noFileError) := by
  unfold Logger.saveF saveSteps
  rw [hf]
  rfl

/-- **C217**: interruptions of the save of a log without array: the old log, then nothing can be loaded, then the
new log. -/
theorem C217_without_arrays (ser : P → Bool) (fs : FS P A) (new : Logger P A) (f : Key)
    (hf : new.filename = some f) (hwf : WF new) (hno : ¬ HasArray new) (j : ℕ) :
    interrupted ser fs new 0 = fs ∧
    (∀ setF np, load (interrupted ser fs new 1) f setF np = .error .valueError) ∧
    (2 ≤ j → interrupted ser fs new j = (new.saveF ser fs).1) := by
  have h0 : ¬ 0 < (saveDicts new).2.2.length := fun h => hno ((hasArray_iff new hwf).1 h)
  refine ⟨rfl, fun setF np => ?_, fun hj => ?_⟩
  · unfold interrupted saveSteps
    rw [hf]
    simp only [if_neg h0]
    split_ifs
    · exact load_truncated _ f setF np
    · exact load_truncated _ f setF np
  · unfold interrupted Logger.saveF
    rw [List.take_of_length_le]
    unfold saveSteps
    rw [hf]
    simp only [if_neg h0]
    split_ifs <;> simp <;> omega

/-- **C217**: interruptions of the save of a log with arrays, over the files of a log which was saved. While the
archive is incomplete, loading raises if the old log has arrays; when it is complete, loading gives a log with the
runs of the old one, its plain values and the arrays of the new one, or raises `IndexError` exactly when the new
one has an array in a further run. If the old log has no array, or if arrays are not loaded, the old log is loaded
until the JSON file is open. Then nothing can be loaded until it is complete. -/
theorem C217_with_arrays (ser : P → Bool) (fs0 fs : FS P A) (old new : Logger P A) (f : Key) (setF : Bool)
    (hfo : old.filename = some f) (hf : new.filename = some f) (hwo : WF old) (hwf : WF new)
    (hname : ¬ (".npz".toList <:+ f)) (hsaved : old.save fs0 = .ok fs) (hnew : HasArray new) :
    interrupted ser fs new 0 = fs ∧
    (HasArray old → ∃ e, load (interrupted ser fs new 1) f setF true = .error e) ∧
    (HasArray old → (∃ i d k a, old.exps.length ≤ i ∧ new.exps[i]? = some d ∧ (k, Val.arr a) ∈ d) →
      load (interrupted ser fs new 2) f setF true = .error .indexError) ∧
    (HasArray old → (¬ ∃ i d k a, old.exps.length ≤ i ∧ new.exps[i]? = some d ∧ (k, Val.arr a) ∈ d) →
      ∃ l', load (interrupted ser fs new 2) f setF true = .ok l' ∧ Mixed l'.glob old.glob (some new.glob) ∧
        l'.exps.length = old.exps.length ∧ l'.expKeys = old.expKeys ∧
        ∀ (i : ℕ) d o, l'.exps[i]? = some d → old.exps[i]? = some o → Mixed d o new.exps[i]?) ∧
    (¬ HasArray old → load (interrupted ser fs new 1) f setF true = load fs f setF true ∧
      load (interrupted ser fs new 2) f setF true = load fs f setF true) ∧
    load (interrupted ser fs new 1) f setF false = load fs f setF false ∧
    load (interrupted ser fs new 2) f setF false = load fs f setF false ∧
    (∀ np, load (interrupted ser fs new 3) f setF np = .error .valueError) ∧
    ∀ j, 4 ≤ j → interrupted ser fs new j = (new.saveF ser fs).1 := by
  have h0 : 0 < (saveDicts new).2.2.length := (hasArray_iff new hwf).2 hnew
  have hnpz : npzPath f = f ++ ".npz".toList := by unfold npzPath; rw [if_neg hname]
  have hjson := saved_json fs0 fs old f hfo hsaved hwo
  have hne : f ++ ".json".toList ≠ f ++ ".npz".toList := json_ne_npz f
  have i1 : interrupted ser fs new 1 = fs.write (f ++ ".npz".toList) .truncated := by
    unfold interrupted saveSteps
    rw [hf]
    simp only [if_pos h0, hnpz]
    split_ifs <;> rfl
  have i2 : interrupted ser fs new 2 = fs.write (f ++ ".npz".toList) (.npz (encAll (allTagged new))) := by
    unfold interrupted saveSteps
    rw [hf]
    simp only [if_pos h0, hnpz]
    have : (saveDicts new).2.2 = encAll (allTagged new) := by rw [saveDicts_eq new hwf]
    rw [this, ← write_write fs (f ++ ".npz".toList) .truncated]
    split_ifs <;> rfl
  have hj : ∀ c : File P A, (fs.write (f ++ ".npz".toList) c) (f ++ ".json".toList) = fs (f ++ ".json".toList) := by
    intro c
    show (if _ then _ else _) = _
    rw [if_neg hne]
  have hz : ∀ c : File P A, (fs.write (f ++ ".npz".toList) c) (f ++ ".npz".toList) = some c := by
    intro c
    show (if _ then _ else _) = _
    rw [if_pos rfl]
  -- what does not read the archive
  have hsame : ∀ (c : File P A) (np : Bool), ¬ HasArray old ∨ np = false →
      load (fs.write (f ++ ".npz".toList) c) f setF np = load fs f setF np := by
    intro c np hcase
    unfold load
    rw [hj, hjson]
    simp only []
    have : (decide (0 < (saveDicts old).2.2.length) && np) = false := by
      rcases hcase with h | h
      · have : ¬ 0 < (saveDicts old).2.2.length := fun h' => h ((hasArray_iff old hwo).1 h')
        simp [this]
      · simp [h]
    rw [this]
    rfl
  refine ⟨rfl, ?_, ?_, ?_, ?_, ?_, ?_, ?_, ?_⟩
  · intro hold
    have h1 := (hasArray_iff old hwo).2 hold
    refine ⟨.ioError, ?_⟩
    rw [i1]
    unfold load
    rw [hj, hjson]
    simp only [h1, decide_true, Bool.and_self, if_true]
    rw [hz]
    rfl
  · rintro hold ⟨i, d, k, a, hi, hd, hm⟩
    have h1 := (hasArray_iff old hwo).2 hold
    rw [i2]
    unfold load
    rw [hj, hjson]
    simp only [h1, decide_true, Bool.and_self, if_true]
    rw [hz]
    simp only []
    rw [foldlM_loadStep_error]
    · rfl
    · refine ⟨((some i, k), a), ?_, i, rfl, by simpa using hi⟩
      unfold allTagged
      have := mem_taggedRuns_of (n := 0) hd hm
      rw [Nat.zero_add] at this
      exact List.mem_append_right _ this
  · intro hold hno
    have h1 := (hasArray_iff old hwo).2 hold
    have hfold : (encAll (allTagged new)).foldlM loadStep
        (⟨plainDict (plains old.glob), (old.exps.map plains).map plainDict, old.expKeys, [], none⟩ : Logger P A)
        = .ok ⟨mergeArr (plainDict (plains old.glob)) new.glob,
          mergeRuns ((old.exps.map plains).map plainDict) new.exps, old.expKeys, [], none⟩ := by
      unfold allTagged
      rw [encAll_append, List.foldlM_append, loadGlob]
      simp only [bind, Except.bind]
      have := loadRuns_any new.exps (⟨mergeArr (plainDict (plains old.glob)) new.glob,
        (old.exps.map plains).map plainDict, old.expKeys, [], none⟩ : Logger P A) []
        ((old.exps.map plains).map plainDict) rfl (by
          intro i e hi he
          rw [arrays_nil_iff]
          intro k a hm
          exact hno ⟨i, e, k, a, by simpa using hi, he, hm⟩)
      rw [List.length_nil] at this
      rw [this]
      rfl
    refine ⟨⟨mergeArr (plainDict (plains old.glob)) new.glob,
      mergeRuns ((old.exps.map plains).map plainDict) new.exps, old.expKeys, [],
      if setF then some f else none⟩, ?_, mixed_merge _ _ hwo.1 hwf.1, by simp [mergeRuns_length], rfl, ?_⟩
    · rw [i2]
      unfold load
      rw [hj, hjson]
      simp only [h1, decide_true, Bool.and_self, if_true]
      rw [hz]
      simp only []
      rw [hfold]
      rfl
    · intro i d o hd ho
      simp only [mergeRuns_getElem?, List.getElem?_map, ho, Option.map_some, Option.some.injEq] at hd
      subst hd
      have hok := hwo.2 o (List.mem_iff_getElem?.2 ⟨i, ho⟩)
      cases he : new.exps[i]? with
      | none => exact mixed_plain o hok
      | some e => exact mixed_merge o e hok (hwf.2 e (List.mem_iff_getElem?.2 ⟨i, he⟩))
  · intro hold
    rw [i1, i2]
    exact ⟨hsame _ _ (Or.inl hold), hsame _ _ (Or.inl hold)⟩
  · rw [i1]; exact hsame _ _ (Or.inr rfl)
  · rw [i2]; exact hsame _ _ (Or.inr rfl)
  · intro np
    unfold interrupted saveSteps
    rw [hf]
    simp only [if_pos h0]
    split_ifs
    · exact load_truncated _ f setF np
    · exact load_truncated _ f setF np
  · intro j hj'
    unfold interrupted Logger.saveF
    rw [List.take_of_length_le]
    unfold saveSteps
    rw [hf]
    simp only [if_pos h0]
    split_ifs <;> simp <;> omega

/-- **C217**: whatever happened before, a complete save can be loaded. -/
theorem C217_saved_again (ser : P → Bool) (fs : FS P A) (new later : Logger P A) (j : ℕ) (f : Key) (setF : Bool)
    (hf : later.filename = some f) (hwf : WF later) (hname : ¬ (".npz".toList <:+ f)) (hw : Writable ser later) :
    ∃ l', load (later.saveF ser (interrupted ser fs new j)).1 f setF true = .ok l' ∧
      SameDict l'.glob later.glob ∧ List.Forall₂ SameDict l'.exps later.exps ∧ l'.expKeys = later.expKeys := by
  obtain ⟨-, h2⟩ := (C217_outcome ser (interrupted ser fs new j) later f hf hwf).1 hw
  obtain ⟨fs', l', e1, e2, e3, e4, e5, -⟩ := C72_save_load (interrupted ser fs new j) later f setF hwf hf (Or.inl hname)
  rw [h2] at e1
  obtain rfl := Except.ok.inj e1
  exact ⟨l', e2, e3, e4, e5⟩

/-! ## Examples -/

/-- The old log of the examples: an array and a number in one run. -/
def oldLog : Logger ℕ ℕ :=
  ⟨[("g".toList, .arr 1)], [[("n".toList, .plain 1), ("a".toList, .arr 1)]], ["n".toList, "a".toList], [], some "f".toList⟩

/-- The new log of the examples: two runs, of which the second has no array. -/
def newLog : Logger ℕ ℕ :=
  ⟨[("h".toList, .arr 2)], [[("n".toList, .plain 2), ("b".toList, .arr 2)], [("n".toList, .plain 7)]],
    ["n".toList, "b".toList], [], some "f".toList⟩

example : WF oldLog ∧ WF newLog ∧ HasArray oldLog ∧ HasArray newLog ∧ Writable (fun p => p < 9) newLog ∧
    ¬ Writable (fun p => p < 5) newLog := by
  refine ⟨⟨by unfold DictOK; decide, ?_⟩, ⟨by unfold DictOK; decide, ?_⟩,
    ⟨[("g".toList, .arr 1)], by decide, "g".toList, 1, by decide⟩,
    ⟨[("h".toList, .arr 2)], by decide, "h".toList, 2, by decide⟩, ?_, ?_⟩
  · intro e he
    simp only [oldLog, List.mem_cons, List.not_mem_nil, or_false] at he
    subst he
    unfold DictOK
    decide
  · intro e he
    simp only [newLog, List.mem_cons, List.not_mem_nil, or_false] at he
    rcases he with rfl | rfl <;> unfold DictOK <;> decide
  · intro d hd k p hm
    simp only [newLog, List.mem_cons, List.not_mem_nil, or_false] at hd
    rcases hd with rfl | rfl | rfl <;> simp at hm <;> simp [hm]
  · intro h
    have := h [("n".toList, .plain 7)] (by decide) "n".toList 7 (by decide)
    simp at this

/-- **C217**: one run with the number of the old log and the array of the new one, while arrays of the old one are
lost. -/
theorem C217_mixture : ∃ fs, oldLog.save (fun _ => none) = .ok fs ∧
    load (interrupted (fun _ => true) fs newLog 2) "f".toList true true =
      .ok ⟨[("h".toList, .arr 2)], [[("n".toList, .plain 1), ("b".toList, .arr 2)]], ["n".toList, "a".toList], [],
        some "f".toList⟩ := ⟨_, rfl, by decide +kernel⟩

end Verif.Logger
