import Verif.Logger.Lemmas

/-!
# Properties C70 to C75 of `multimodal/lib/logger.py`
-/

namespace Verif.Logger

variable {P A : Type}

/-! ### C70: storing values -/

/-- **C70.** `store` raises `IndexError` exactly when there is no run, `ValueError` exactly when the
key has a value in the last run. -/
theorem C70_store_errors (l : Logger P A) (k : Key) (v : Val P A) :
    (l.store k v = .error .indexError ↔ l.exps = []) ∧
    (l.store k v = .error .valueError ↔ ∃ last, l.exps.getLast? = some last ∧
      k ∈ last.map Prod.fst) := by
  unfold Logger.store
  cases h : l.exps.getLast? with
  | none => simp [List.getLast?_eq_none_iff.1 h]
  | some last =>
    have hne : l.exps ≠ [] := by intro hc; rw [hc] at h; cases h
    have hk := dictGet?_isSome last k
    unfold dictKeys at hk
    by_cases hs : (dictGet? last k).isSome = true
    · simp only [hs, if_true]
      constructor
      · simp [hne]
      · exact ⟨fun _ => ⟨last, rfl, hk.1 hs⟩, fun _ => trivial⟩
    · simp only [hs]
      constructor
      · simp [hne]
      · constructor
        · intro hc; simp at hc
        · rintro ⟨x, hx, hkx⟩
          obtain rfl := Option.some.inj hx
          exact absurd (hk.2 hkx) hs

/-- **C70.** When it succeeds, `store` adds the value to the last run and changes no other value:
earlier runs, other keys of the last run, global values, result keys and file name are unchanged. -/
theorem C70_store_adds (l l' : Logger P A) (k : Key) (v : Val P A) (h : l.store k v = .ok l') :
    l'.exps.length = l.exps.length ∧ 0 < l.exps.length ∧
    (∀ (i : ℕ) (d : Dict Key (Val P A)), i + 1 < l.exps.length → l.exps[i]? = some d →
      l'.exps[i]? = some d) ∧
    (l.getValues k).getLast? = some none ∧
    (∀ k', (l'.getValues k').getLast? =
      if k' = k then some (some v) else (l.getValues k').getLast?) ∧
    l'.getLastValue k = .ok v ∧
    l'.glob = l.glob ∧ l'.resultKeys = l.resultKeys ∧ l'.filename = l.filename ∧
    ∀ k', k' ∈ l'.expKeys ↔ k' = k ∨ k' ∈ l.expKeys := by
  unfold Logger.store at h
  cases hl : l.exps.getLast? with
  | none => rw [hl] at h; cases h
  | some last =>
    rw [hl] at h
    simp only [] at h
    by_cases hs : (dictGet? last k).isSome = true
    · rw [if_pos hs] at h; cases h
    · rw [if_neg hs] at h
      obtain rfl := Except.ok.inj h
      have hne : l.exps ≠ [] := by intro hc; rw [hc] at hl; cases hl
      have hpos := List.length_pos_iff.2 hne
      refine ⟨?_, hpos, ?_, ?_, ?_, ?_, rfl, rfl, rfl, ?_⟩
      · simp only [List.length_append, List.length_dropLast, List.length_singleton]; omega
      · intro i d hi hd
        simp only []
        rw [List.getElem?_append_left (by rw [List.length_dropLast]; omega), List.getElem?_dropLast,
          if_pos (by omega)]
        exact hd
      · unfold Logger.getValues
        rw [List.getLast?_map, hl]
        simpa using hs
      · intro k'
        unfold Logger.getValues
        rw [List.getLast?_map, List.getLast?_map, hl]
        simp only [List.getLast?_append, List.getLast?_singleton, Option.some_or, Option.map_some]
        rw [dictGet?_set]
        by_cases hk : k' = k
        · rw [if_pos hk, if_pos hk.symm]
        · rw [if_neg hk, if_neg (fun e => hk e.symm)]
      · unfold Logger.getLastValue
        simp only [List.getLast?_append, List.getLast?_singleton, Option.some_or]
        rw [dictGet?_set, if_pos rfl]
      · intro k'
        simp only []
        unfold setAdd
        split
        · rename_i hin
          constructor
          · exact Or.inr
          · rintro (rfl | h')
            · exact hin
            · exact h'
        · rw [List.mem_append, List.mem_singleton]
          tauto

/-- **C70.** `store_result` fails exactly as `store` does, and otherwise differs from it only by
recording the key as a result. -/
theorem C70_store_result (l : Logger P A) (k : Key) (v : Val P A) :
    (∀ e, l.storeResult k v = .error e ↔ l.store k v = .error e) ∧
    (∀ l', l.store k v = .ok l' → ∃ l'', l.storeResult k v = .ok l'' ∧ l''.exps = l'.exps ∧
      l''.expKeys = l'.expKeys ∧ l''.glob = l'.glob ∧ l''.filename = l'.filename ∧
      ∀ k', k' ∈ l''.resultKeys ↔ k' = k ∨ k' ∈ l'.resultKeys) := by
  unfold Logger.storeResult
  cases h : l.store k v with
  | error e => simp [bind, Except.bind]
  | ok l' =>
    simp only [bind, Except.bind, pure, Except.pure]
    refine ⟨by simp, ?_⟩
    intro l1 h1
    obtain rfl := Except.ok.inj h1
    refine ⟨_, rfl, rfl, rfl, rfl, rfl, ?_⟩
    intro k'
    simp only []
    unfold setAdd
    split
    · rename_i hin
      constructor
      · exact Or.inr
      · rintro (rfl | h')
        · exact hin
        · exact h'
    · rw [List.mem_append, List.mem_singleton]
      tauto

/-! ### C71: bookkeeping along histories -/

/-- Loggers obtained by any sequence of operations, including the addition of the runs of another
such logger. -/
inductive Reach : Logger P A → Prop
  | new (f : Option Key) : Reach (Logger.new f)
  | newRun {l} : Reach l → Reach l.newRun
  | storeGlobal {l} (k v) : Reach l → Reach (l.storeGlobal k v)
  | store {l l'} (k v) : Reach l → l.store k v = .ok l' → Reach l'
  | storeResult {l l'} (k v) : Reach l → l.storeResult k v = .ok l' → Reach l'
  | append {l o l'} : Reach l → Reach o → l.append o = .ok l' → Reach l'

theorem mem_getLast {l : List (Dict Key (Val P A))} {last} (h : l.getLast? = some last) :
    l = l.dropLast ++ [last] := by
  have hne : l ≠ [] := by intro hc; rw [hc] at h; cases h
  rw [List.getLast?_eq_some_getLast hne] at h
  rw [← Option.some.inj h, List.dropLast_append_getLast]

theorem dictKeys_set_nodup {d : Dict Key (Val P A)} {k : Key} {v : Val P A} (h : DictOK d) :
    DictOK (dictSet d k v) := by
  unfold DictOK at h ⊢
  rw [dictKeys_set]
  split
  · exact h
  · exact List.Nodup.append h (by simp) (by simpa [List.disjoint_singleton])

/-- The bookkeeping invariant. -/
structure Inv (l : Logger P A) : Prop where
  keys : ∀ k, k ∈ l.expKeys ↔ ∃ d ∈ l.exps, k ∈ dictKeys d
  results : ∀ k ∈ l.resultKeys, k ∈ l.expKeys
  wf : WF l

theorem store_inv {l l' : Logger P A} {k v} (h : Inv l) (hs : l.store k v = .ok l') : Inv l' := by
  have hadd := C70_store_adds l l' k v hs
  unfold Logger.store at hs
  cases hl : l.exps.getLast? with
  | none => rw [hl] at hs; cases hs
  | some last =>
    rw [hl] at hs
    simp only [] at hs
    split at hs
    · cases hs
    · obtain rfl := Except.ok.inj hs
      have hdec := mem_getLast hl
      have hlast : last ∈ l.exps := List.mem_of_getLast? hl
      refine ⟨?_, ?_, h.wf.1, ?_⟩
      · intro k'
        rw [hadd.2.2.2.2.2.2.2.2.2 k', h.keys k']
        simp only [List.mem_append, List.mem_singleton]
        constructor
        · rintro (rfl | ⟨d, hd, hk⟩)
          · refine ⟨_, Or.inr rfl, ?_⟩
            rw [dictKeys_set]; split
            · assumption
            · simp
          · rw [hdec, List.mem_append, List.mem_singleton] at hd
            rcases hd with hd | rfl
            · exact ⟨d, Or.inl hd, hk⟩
            · refine ⟨_, Or.inr rfl, ?_⟩
              rw [dictKeys_set]; split
              · exact hk
              · exact List.mem_append_left _ hk
        · rintro ⟨d, hd | rfl, hk⟩
          · exact Or.inr ⟨d, List.mem_of_mem_dropLast hd, hk⟩
          · rw [dictKeys_set] at hk
            split at hk
            · exact Or.inr ⟨last, hlast, hk⟩
            · rcases List.mem_append.1 hk with hk | hk
              · exact Or.inr ⟨last, hlast, hk⟩
              · exact Or.inl (List.mem_singleton.1 hk)
      · intro k' hk'
        rw [hadd.2.2.2.2.2.2.2.2.2 k']
        exact Or.inr (h.results k' hk')
      · intro d hd
        simp only [List.mem_append, List.mem_singleton] at hd
        rcases hd with hd | rfl
        · exact h.wf.2 d (List.mem_of_mem_dropLast hd)
        · exact dictKeys_set_nodup (h.wf.2 last hlast)

theorem Reach.inv {l : Logger P A} (h : Reach l) : Inv l := by
  induction h with
  | new f =>
    refine ⟨?_, ?_, List.nodup_nil, ?_⟩
    · intro k; simp [Logger.new]
    · intro k hk; simp [Logger.new] at hk
    · intro d hd; simp [Logger.new] at hd
  | @newRun l h ih =>
    refine ⟨?_, ih.results, ih.wf.1, ?_⟩
    · intro k
      show k ∈ l.expKeys ↔ ∃ d ∈ l.exps ++ [[]], k ∈ dictKeys d
      rw [ih.keys k]
      constructor
      · rintro ⟨d, hd, hk⟩; exact ⟨d, List.mem_append_left _ hd, hk⟩
      · rintro ⟨d, hd, hk⟩
        rcases List.mem_append.1 hd with hd | hd
        · exact ⟨d, hd, hk⟩
        · rw [List.mem_singleton] at hd; subst hd; cases hk
    · intro d hd
      have hd : d ∈ l.exps ++ [[]] := hd
      rcases List.mem_append.1 hd with hd | hd
      · exact ih.wf.2 d hd
      · rw [List.mem_singleton] at hd; subst hd; exact List.nodup_nil
  | storeGlobal k v h ih =>
    exact ⟨ih.keys, ih.results, dictKeys_set_nodup ih.wf.1, ih.wf.2⟩
  | store k v h hs ih => exact store_inv ih hs
  | @storeResult l l' k v h hs ih =>
    cases hst : l.store k v with
    | error e => rw [((C70_store_result l k v).1 e).2 hst] at hs; cases hs
    | ok l1 =>
      have hadd := C70_store_adds l l1 k v hst
      obtain ⟨l2, h2, h3, h4, h5, h6, h7⟩ := (C70_store_result l k v).2 l1 hst
      rw [hs] at h2
      obtain rfl := Except.ok.inj h2
      have hinv := store_inv ih hst
      refine ⟨?_, ?_, ?_, ?_⟩
      · rw [h3, h4]; exact hinv.keys
      · intro k' hk'
        rw [h4]
        rcases (h7 k').1 hk' with rfl | hk'
        · exact (hadd.2.2.2.2.2.2.2.2.2 k').2 (Or.inl rfl)
        · exact hinv.results k' hk'
      · rw [h5]; exact hinv.wf.1
      · rw [h3]; exact hinv.wf.2
  | @append l o l' h ho ha ih iho =>
    unfold Logger.append at ha
    split at ha
    · rename_i hk
      obtain rfl := Except.ok.inj ha
      refine ⟨?_, ih.results, ih.wf.1, ?_⟩
      · intro k
        show k ∈ l.expKeys ↔ ∃ d ∈ l.exps ++ o.exps, k ∈ dictKeys d
        constructor
        · intro hkm
          obtain ⟨d, hd, hkd⟩ := (ih.keys k).1 hkm
          exact ⟨d, List.mem_append_left _ hd, hkd⟩
        · rintro ⟨d, hd, hkd⟩
          rcases List.mem_append.1 hd with hd | hd
          · exact (ih.keys k).2 ⟨d, hd, hkd⟩
          · exact hk.2 k ((iho.keys k).2 ⟨d, hd, hkd⟩)
      · intro d hd
        have hd : d ∈ l.exps ++ o.exps := hd
        rcases List.mem_append.1 hd with hd | hd
        · exact ih.wf.2 d hd
        · exact iho.wf.2 d hd
    · cases ha

/-- **C71.** After any history, `exp_keys` is the set of keys stored in some run, `result_keys` is a
subset of it, and `get_values(k)` has one entry per run: the value stored in that run, or `None`. -/
theorem C71_bookkeeping (l : Logger P A) (h : Reach l) :
    (∀ k, k ∈ l.expKeys ↔ ∃ d ∈ l.exps, k ∈ d.map Prod.fst) ∧
    (∀ k ∈ l.resultKeys, k ∈ l.expKeys) ∧
    ∀ k, (l.getValues k).length = l.exps.length ∧
      ∀ (i : ℕ) (d : Dict Key (Val P A)), l.exps[i]? = some d →
        (∀ v, (l.getValues k)[i]? = some (some v) ↔ (k, v) ∈ d) ∧
        ((l.getValues k)[i]? = some none ↔ k ∉ d.map Prod.fst) := by
  have hi := h.inv
  refine ⟨hi.keys, hi.results, ?_⟩
  intro k
  refine ⟨by unfold Logger.getValues; simp, ?_⟩
  intro i d hd
  have hnd : (dictKeys d).Nodup := hi.wf.2 d (List.mem_of_getElem? hd)
  have hget : (l.getValues k)[i]? = some (dictGet? d k) := by
    unfold Logger.getValues
    rw [List.getElem?_map, hd]; rfl
  rw [hget]
  constructor
  · intro v
    have := dictGet?_foldl_set d k [] hnd
    have h2 := dictGet?_dictOf d hnd k v
    unfold dictOf at h2
    rw [this] at h2
    simp only [dictGet?_nil, Option.or_none] at h2
    rw [← h2]
    simp
  · have := dictGet?_isSome d k
    unfold dictKeys at this
    rw [← this]
    simp

/-! ### C72, C73: saving and loading -/

/-- Two dictionaries with the same content, whatever the order. -/
def SameDict (d e : Dict Key (Val P A)) : Prop := ∀ k, dictGet? d k = dictGet? e k

/-- The plain part of `e`, whatever the order. -/
def PlainOf (d e : Dict Key (Val P A)) : Prop :=
  ∀ k v, dictGet? d k = some v ↔ dictGet? e k = some v ∧ ∃ p, v = .plain p

theorem json_ne_npz (f : Key) : f ++ ".json".toList ≠ f ++ ".npz".toList := by
  intro h
  exact absurd (List.append_cancel_left h) (by decide)

theorem json_ne_npzPath (f : Key) : f ++ ".json".toList ≠ npzPath f := by
  unfold npzPath
  split
  · intro h
    have := congrArg List.length h
    simp at this
  · exact json_ne_npz f

theorem save_ok (fs : FS P A) (l : Logger P A) (f : Key) (hf : l.filename = some f) :
    l.save fs = .ok ((if 0 < (saveDicts l).2.2.length then
        fs.write (npzPath f) (.npz (saveDicts l).2.2) else fs).write (f ++ ".json".toList) .truncated
        |>.write (f ++ ".json".toList) (.json ⟨(saveDicts l).1, (saveDicts l).2.1, l.expKeys, l.resultKeys,
          decide (0 < (saveDicts l).2.2.length)⟩)) := by
  unfold Logger.save saveWrites
  rw [hf]
  simp only [bind, Except.bind, pure, Except.pure]
  congr 1
  unfold FS.writes
  by_cases h : 0 < (saveDicts l).2.2.length
  · rw [if_pos h, if_pos h]; rfl
  · rw [if_neg h, if_neg h]; rfl

theorem plainOf_plains (e : Dict Key (Val P A)) (h : DictOK e) : PlainOf (plainDict (plains e)) e := by
  intro k v
  rw [dictGet?_plainPart e h]
  cases he : dictGet? e k with
  | none => simp
  | some w =>
    cases w with
    | plain p =>
      constructor
      · intro hh
        have hh : some (Val.plain p) = some v := hh
        exact ⟨hh, p, (Option.some.inj hh).symm⟩
      · rintro ⟨hh, _⟩
        exact hh
    | arr a =>
      constructor
      · intro hh; cases hh
      · rintro ⟨hh, p, rfl⟩
        cases hh

theorem mergeArr_ok (e : Dict Key (Val P A)) (h : DictOK e) : DictOK (mergeArr (plainDict (plains e)) e) := by
  have hf : ∀ (l : List (Key × Val P A)) (d : Dict Key (Val P A)), DictOK d →
      DictOK (l.foldl (fun d p => dictSet d p.1 p.2) d) := by
    intro l
    induction l with
    | nil => intro d hd; exact hd
    | cons p l ih => intro d hd; exact ih _ (dictKeys_set_nodup hd)
  apply hf
  unfold DictOK dictKeys plainDict plains
  rw [List.map_map]
  refine List.Nodup.sublist ?_ h
  unfold dictKeys
  clear h hf
  induction e with
  | nil => exact .slnil
  | cons kv e ih =>
    rw [List.filterMap_cons]
    cases h : plain? kv.2 with
    | none => exact ih.cons _
    | some p => exact ih.cons_cons _

/-- **C72.** Saving a logger then loading it restores the global values, the runs and the run keys,
for all keys and any mix of arrays and plain values, provided that the file name does not end with
`.npz` when there are arrays (see `C72_npz_file_name`). -/
theorem C72_save_load (fs : FS P A) (l : Logger P A) (f : Key) (setF : Bool)
    (hwf : WF l) (hf : l.filename = some f)
    (hname : ¬ (".npz".toList <:+ f) ∨ ∀ d ∈ l.glob :: l.exps, ∀ kv ∈ d, ∃ p, kv.2 = .plain p) :
    ∃ fs' l', l.save fs = .ok fs' ∧ load fs' f setF true = .ok l' ∧
      SameDict l'.glob l.glob ∧ List.Forall₂ SameDict l'.exps l.exps ∧ l'.expKeys = l.expKeys ∧
      (l'.filename = if setF then some f else none) ∧ WF l' := by
  refine ⟨_, ⟨mergeArr (plainDict (plains l.glob)) l.glob,
    l.exps.map fun e => mergeArr (plainDict (plains e)) e, l.expKeys, [],
    if setF then some f else none⟩, save_ok fs l f hf, ?_, ?_, ?_, rfl, rfl, mergeArr_ok l.glob hwf.1, ?_⟩
  rotate_right
  · intro e he
    obtain ⟨e', he', rfl⟩ := List.mem_map.1 he
    exact mergeArr_ok e' (hwf.2 e' he')
  · rw [saveDicts_eq l hwf]
    simp only []
    unfold load
    have hjson : ∀ (x : FS P A) (c : File P A), (x.write (f ++ ".json".toList) c) (f ++ ".json".toList)
        = some c := by intro x c; unfold FS.write; rw [if_pos rfl]
    rw [hjson]
    simp only []
    -- the fold over all archive entries
    have hfold : (encAll (allTagged l)).foldlM loadStep
        (⟨plainDict (plains l.glob), (l.exps.map plains).map plainDict, l.expKeys, [], none⟩ : Logger P A)
        = .ok ⟨mergeArr (plainDict (plains l.glob)) l.glob,
          l.exps.map fun e => mergeArr (plainDict (plains e)) e, l.expKeys, [], none⟩ := by
      unfold allTagged
      rw [encAll_append, List.foldlM_append, loadGlob]
      simp only [bind, Except.bind]
      have := loadRuns l.exps (⟨mergeArr (plainDict (plains l.glob)) l.glob,
        (l.exps.map plains).map plainDict, l.expKeys, [], none⟩ : Logger P A) []
        ((l.exps.map plains).map plainDict) rfl (by simp)
      rw [List.length_nil] at this
      rw [this]
      simp only [List.nil_append]
      congr 2
      rw [List.map_map, List.zipWith_map_left]
      induction l.exps with
      | nil => rfl
      | cons e es ih => rw [List.zipWith_cons_cons, ih]; rfl
    by_cases h0 : 0 < (encAll (allTagged l)).length
    · have hsuf : ¬ (".npz".toList <:+ f) := by
        rcases hname with h | h
        · exact h
        · exfalso
          have hnil : ∀ d ∈ l.glob :: l.exps, arrays d = [] := by
            intro d hd
            unfold arrays
            rw [List.filterMap_eq_nil_iff]
            intro kv hkv
            obtain ⟨p, hp⟩ := h d hd kv hkv
            rw [hp]; rfl
          have hr : ∀ (es : List (Dict Key (Val P A))) (n : ℕ), (∀ d ∈ es, arrays d = []) →
              taggedRuns n es = [] := by
            intro es
            induction es with
            | nil => intro n _; rfl
            | cons e es ih =>
              intro n hh
              unfold taggedRuns tagged
              rw [hh e List.mem_cons_self, ih _ (fun d hd => hh d (List.mem_cons_of_mem _ hd))]
              rfl
          have : allTagged l = [] := by
            unfold allTagged tagged
            rw [hnil l.glob List.mem_cons_self, hr l.exps 0 (fun d hd => hnil d (List.mem_cons_of_mem _ hd))]
            rfl
          rw [this] at h0
          simp [encAll] at h0
      have hnpz : ∀ (x : FS P A) (c c' : File P A), (((x.write (npzPath f) c).write
          (f ++ ".json".toList) .truncated).write (f ++ ".json".toList) c') (f ++ ".npz".toList) = some c := by
        intro x c c'
        unfold FS.write
        rw [if_neg (fun e => json_ne_npz f e.symm), if_neg (fun e => json_ne_npz f e.symm)]
        unfold npzPath
        rw [if_neg hsuf, if_pos rfl]
      simp only [h0, decide_true, Bool.true_and, if_true]
      rw [hnpz]
      simp only []
      rw [hfold]
      rfl
    · have hnil : encAll (allTagged l) = [] := List.length_eq_zero_iff.1 (by omega)
      rw [hnil] at hfold
      simp only [h0, decide_false, Bool.false_and]
      have := Except.ok.inj hfold
      simp only [Bool.false_eq_true, if_false, bind, Except.bind, pure, Except.pure]
      exact congrArg (fun l : Logger P A => (Except.ok { l with
        filename := if setF then some f else none } : Py (Logger P A))) this
  · intro k
    exact dictGet?_merge l.glob hwf.1 k
  · have key : ∀ es : List (Dict Key (Val P A)), (∀ e ∈ es, DictOK e) →
        List.Forall₂ SameDict (es.map fun e => mergeArr (plainDict (plains e)) e) es := by
      intro es
      induction es with
      | nil => intro _; exact List.Forall₂.nil
      | cons e es ih =>
        intro hall
        exact List.Forall₂.cons (fun k => dictGet?_merge e (hall e List.mem_cons_self) k)
          (ih fun d hd => hall d (List.mem_cons_of_mem _ hd))
    exact key l.exps hwf.2

/-- **C72.** Loading without arrays drops exactly the array values. -/
theorem C72_load_without_arrays (fs : FS P A) (l : Logger P A) (f : Key) (setF : Bool)
    (hwf : WF l) (hf : l.filename = some f) :
    ∃ fs' l', l.save fs = .ok fs' ∧ load fs' f setF false = .ok l' ∧
      PlainOf l'.glob l.glob ∧ List.Forall₂ PlainOf l'.exps l.exps ∧ l'.expKeys = l.expKeys := by
  refine ⟨_, ⟨plainDict (plains l.glob), (l.exps.map plains).map plainDict, l.expKeys, [],
    if setF then some f else none⟩, save_ok fs l f hf, ?_, ?_, ?_, rfl⟩
  · rw [saveDicts_eq l hwf]
    simp only []
    unfold load
    have hjson : ∀ (x : FS P A) (c : File P A), (x.write (f ++ ".json".toList) c) (f ++ ".json".toList)
        = some c := by intro x c; unfold FS.write; rw [if_pos rfl]
    rw [hjson]
    simp [bind, Except.bind, pure, Except.pure]
  · exact plainOf_plains l.glob hwf.1
  · have key : ∀ es : List (Dict Key (Val P A)), (∀ e ∈ es, DictOK e) →
        List.Forall₂ PlainOf ((es.map plains).map plainDict) es := by
      intro es
      induction es with
      | nil => intro _; exact List.Forall₂.nil
      | cons e es ih =>
        intro hall
        exact List.Forall₂.cons (plainOf_plains e (hall e List.mem_cons_self))
          (ih fun d hd => hall d (List.mem_cons_of_mem _ hd))
    exact key l.exps hwf.2

/-- **C72.** Every history gives a logger to which the two theorems above apply. -/
theorem C72_reachable_wf (l : Logger P A) (h : Reach l) : WF l := h.inv.wf

/-- **C72.** With a file name ending with `.npz`, a logger holding an array cannot be loaded back:
`np.savez` does not add the suffix that `load` expects. -/
theorem C72_npz_file_name (fs : FS P A) (l : Logger P A) (f : Key) (setF : Bool) (hwf : WF l)
    (hf : l.filename = some f) (hsuf : ".npz".toList <:+ f) (hfs : fs (f ++ ".npz".toList) = none)
    (harr : ∃ k a, dictGet? l.glob k = some (.arr a)) :
    ∃ fs', l.save fs = .ok fs' ∧ load fs' f setF true = .error .ioError := by
  refine ⟨_, save_ok fs l f hf, ?_⟩
  rw [saveDicts_eq l hwf]
  have h0 : 0 < (encAll (allTagged l)).length := by
    obtain ⟨k, a, hk⟩ := harr
    have : (k, a) ∈ arrays l.glob := by
      unfold arrays
      rw [List.mem_filterMap]
      unfold dictGet? at hk
      rw [Option.map_eq_some_iff] at hk
      obtain ⟨p, hp, hpa⟩ := hk
      refine ⟨p, List.mem_of_find?_eq_some hp, ?_⟩
      have := List.find?_some hp
      simp only [decide_eq_true_eq] at this
      rw [hpa, this]; rfl
    unfold encAll allTagged tagged
    rw [List.length_map, List.length_append, List.length_map]
    have := List.length_pos_of_mem this
    omega
  simp only [decide_true, h0]
  unfold load
  have hjson : ∀ (x : FS P A) (c : File P A), (x.write (f ++ ".json".toList) c) (f ++ ".json".toList)
      = some c := by intro x c; unfold FS.write; rw [if_pos rfl]
  rw [hjson]
  have hnpz : ∀ (c c' : File P A), (((fs.write (npzPath f) c).write
      (f ++ ".json".toList) .truncated).write (f ++ ".json".toList) c') (f ++ ".npz".toList) = none := by
    intro c c'
    unfold FS.write
    rw [if_neg (fun e => json_ne_npz f e.symm), if_neg (fun e => json_ne_npz f e.symm)]
    unfold npzPath
    rw [if_pos hsuf, if_neg, hfs]
    intro e
    have := congrArg List.length e
    simp at this
  simp only [Bool.true_and, if_true]
  rw [hnpz]
  rfl

/-- **C72.** Without a file name, `save` raises `NoFileError` and writes nothing. -/
theorem C72_no_file (fs : FS P A) (l : Logger P A) (hf : l.filename = none) :
    l.save fs = .error .noFileError := by
  unfold Logger.save saveWrites
  rw [hf]; rfl

/-- **C73 (partial).** The result keys are *not* recovered: a loaded logger never has any, so they
survive only when there was none.  Missing: the claim itself, which is false of the code
(`C73_result_keys_lost`). -/
theorem C73_result_keys_partial (fs : FS P A) (f : Key) (setF loadNp : Bool) (l' : Logger P A)
    (h : load fs f setF loadNp = .ok l') : l'.resultKeys = [] := by
  have hstep : ∀ (l1 l2 : Logger P A) (kv : Key × A), loadStep l1 kv = .ok l2 →
      l2.resultKeys = l1.resultKeys := by
    intro l1 l2 kv hk
    unfold loadStep at hk
    split at hk
    · cases hk
    · split at hk
      · obtain rfl := Except.ok.inj hk; rfl
      · split at hk
        · split at hk
          · cases hk
          · rename_i num name _
            cases hp : parseNat num with
            | error e => rw [hp] at hk; cases hk
            | ok i =>
              rw [hp] at hk
              simp only [bind, Except.bind, pure, Except.pure] at hk
              split at hk
              · obtain rfl := Except.ok.inj hk; rfl
              · cases hk
        · obtain rfl := Except.ok.inj hk; rfl
  have hfold : ∀ (xs : Dict Key A) (l1 l2 : Logger P A), xs.foldlM loadStep l1 = .ok l2 →
      l2.resultKeys = l1.resultKeys := by
    intro xs
    induction xs with
    | nil => intro l1 l2 hh; obtain rfl := Except.ok.inj hh; rfl
    | cons x xs ih =>
      intro l1 l2 hh
      rw [List.foldlM_cons] at hh
      cases hx : loadStep l1 x with
      | error e => rw [hx] at hh; cases hh
      | ok l3 =>
        rw [hx] at hh
        rw [ih l3 l2 hh, hstep l1 l3 x hx]
  unfold load at h
  split at h
  · cases h
  · cases h
  · cases h
  · rename_i d _
    simp only [bind, Except.bind, pure, Except.pure] at h
    by_cases hb : (d.hasNp && loadNp) = true
    · rw [if_pos hb] at h
      split at h
      · rename_i arrs _
        cases hfo : arrs.foldlM loadStep
          (⟨plainDict d.glob, d.exps.map plainDict, d.expKeys, [], none⟩ : Logger P A) with
        | error e => rw [hfo] at h; cases h
        | ok l2 =>
          rw [hfo] at h
          obtain rfl := Except.ok.inj h
          exact hfold _ _ _ hfo
      · cases h
    · rw [if_neg hb] at h
      obtain rfl := Except.ok.inj h
      rfl

/-- A logger with one result, saved in `f`. -/
def exResult : Logger ℕ ℕ :=
  ⟨[], [[("score".toList, .plain 1)]], ["score".toList], ["score".toList], some "f".toList⟩

/-- **C73.** Witness that the result keys are lost: this logger, obtained by `new_run` and
`store_result`, is loaded back without its result key. -/
theorem C73_result_keys_lost : Reach exResult ∧ exResult.resultKeys = ["score".toList] ∧
    ∃ fs' l', exResult.save (fun _ => none) = .ok fs' ∧ load fs' "f".toList true true = .ok l' ∧
      l'.resultKeys = [] := by
  have h1 : Reach (P := ℕ) (A := ℕ) (Logger.new (some "f".toList)).newRun := .newRun (.new _)
  have hr : Reach exResult := .storeResult "score".toList (.plain 1) h1 rfl
  obtain ⟨fs', l', h2, h3, _⟩ := C72_save_load (fun _ => none) exResult "f".toList true
    hr.inv.wf rfl (Or.inl (by decide))
  exact ⟨hr, rfl, fs', l', h2, h3, C73_result_keys_partial _ _ _ _ _ h3⟩

/-! ### C74: crash while saving -/

/-- **C74.** Witness that an interrupted save may leave a mixture of two logs: after the archive of
the new log is written and before its JSON file is, loading gives the plain values of the old log
with the arrays of the new one. -/
theorem C74_crash_mixed :
    ∃ (old new : Logger ℕ ℕ) (fs : FS ℕ ℕ) (ws : List (Key × File ℕ ℕ)) (l' : Logger ℕ ℕ),
      Reach old ∧ Reach new ∧ old.filename = new.filename ∧ old.save (fun _ => none) = .ok fs ∧
      saveWrites new = .ok ws ∧ load (fs.writes (ws.take 1)) "f".toList true true = .ok l' ∧
      ¬ SameDict l'.glob old.glob ∧ ¬ SameDict l'.glob new.glob := by
  refine ⟨⟨[("n".toList, .plain 1), ("a".toList, .arr 1)], [], [], [], some "f".toList⟩,
    ⟨[("n".toList, .plain 2), ("a".toList, .arr 2)], [], [], [], some "f".toList⟩, _, _,
    ⟨[("n".toList, .plain 1), ("a".toList, .arr 2)], [], [], [], some "f".toList⟩,
    .storeGlobal "a".toList (.arr 1) (.storeGlobal "n".toList (.plain 1) (.new _)),
    .storeGlobal "a".toList (.arr 2) (.storeGlobal "n".toList (.plain 2) (.new _)),
    rfl, rfl, rfl, rfl, ?_, ?_⟩
  · intro h
    exact absurd (h "a".toList) (by decide)
  · intro h
    exact absurd (h "n".toList) (by decide)

/-- The files seen after a crash: the writes of the save up to some point. -/
def CrashState (fs : FS P A) (new : Logger P A) (fs' : FS P A) : Prop :=
  ∃ ws j, saveWrites new = .ok ws ∧ fs' = fs.writes (ws.take j)

/-- **C74 (partial).** An interrupted save leaves the old or the new log when the old JSON file
declares no array or the new log holds none, except between the truncation and the end of the
writing of the JSON file, where loading raises `ValueError`.  Missing: the other logs, for which
the claim is false of the code (`C74_crash_mixed`). -/
theorem C74_crash_partial (fs fs' : FS P A) (new : Logger P A) (f : Key) (old : Doc P) (setF np : Bool)
    (hf : new.filename = some f) (hwf : WF new)
    (hold : fs (f ++ ".json".toList) = some (.json old))
    (hsafe : old.hasNp = false ∨ ∀ d ∈ new.glob :: new.exps, ∀ kv ∈ d, ∃ p, kv.2 = .plain p)
    (hc : CrashState fs new fs') :
    load fs' f setF np = load fs f setF np ∨ load fs' f setF np = .error .valueError ∨
      ∃ fs1, new.save fs = .ok fs1 ∧ load fs' f setF np = load fs1 f setF np := by
  obtain ⟨ws, j, hws, rfl⟩ := hc
  have hws' := hws
  unfold saveWrites at hws
  rw [hf] at hws
  simp only [] at hws
  have hsave : new.save fs = .ok (fs.writes ws) := by
    unfold Logger.save; rw [hws']; rfl
  obtain rfl := Except.ok.inj hws
  have hload : ∀ g : FS P A, g (f ++ ".json".toList) = fs (f ++ ".json".toList) →
      (old.hasNp = false ∨ g (f ++ ".npz".toList) = fs (f ++ ".npz".toList)) →
      load g f setF np = load fs f setF np := by
    intro g h1 h2
    unfold load
    rw [h1, hold]
    simp only []
    rcases h2 with h2 | h2
    · rw [h2]; rfl
    · rw [h2]
  have htrunc : ∀ g : FS P A, load (g.write (f ++ ".json".toList) .truncated) f setF np
      = .error .valueError := by
    intro g
    unfold load FS.write
    rw [if_pos rfl]
  by_cases h0 : 0 < (saveDicts new).2.2.length
  · have hh : old.hasNp = false := by
      rcases hsafe with h | hp
      · exact h
      · exfalso
        have h : ∀ d ∈ new.glob :: new.exps, arrays d = [] := by
          intro d hd
          unfold arrays
          rw [List.filterMap_eq_nil_iff]
          intro kv hkv
          obtain ⟨p, hp⟩ := hp d hd kv hkv
          rw [hp]; rfl
        rw [saveDicts_eq new hwf] at h0
        have hr : ∀ (es : List (Dict Key (Val P A))) (n : ℕ), (∀ d ∈ es, arrays d = []) →
            taggedRuns n es = [] := by
          intro es
          induction es with
          | nil => intro n _; rfl
          | cons e es ih =>
            intro n hh
            unfold taggedRuns tagged
            rw [hh e List.mem_cons_self, ih _ (fun d hd => hh d (List.mem_cons_of_mem _ hd))]
            rfl
        have : allTagged new = [] := by
          unfold allTagged tagged
          rw [h new.glob List.mem_cons_self, hr new.exps 0 (fun d hd => h d (List.mem_cons_of_mem _ hd))]
          rfl
        rw [this] at h0
        simp [encAll] at h0
    simp only [if_pos h0] at hsave ⊢
    match j with
    | 0 => exact Or.inl rfl
    | 1 =>
      left
      apply hload _ _ (Or.inl hh)
      show FS.write fs _ _ _ = _
      unfold FS.write
      rw [if_neg (json_ne_npzPath f)]
    | 2 => right; left; exact htrunc _
    | j + 3 =>
      right; right
      exact ⟨_, hsave, by rw [List.take_of_length_le (by simp)]⟩
  · simp only [if_neg h0] at hsave ⊢
    match j with
    | 0 => exact Or.inl rfl
    | 1 => right; left; exact htrunc _
    | j + 2 =>
      right; right
      exact ⟨_, hsave, by rw [List.take_of_length_le (by simp)]⟩

/-- **C74.** For every log and every previous content, there is a crash point after which loading
raises `ValueError`: just after the JSON file was opened. -/
theorem C74_crash_truncated (fs : FS P A) (new : Logger P A) (f : Key) (setF np : Bool)
    (hf : new.filename = some f) :
    ∃ fs', CrashState fs new fs' ∧ load fs' f setF np = .error .valueError := by
  have htrunc : ∀ g : FS P A, load (g.write (f ++ ".json".toList) .truncated) f setF np
      = .error .valueError := by
    intro g
    unfold load FS.write
    rw [if_pos rfl]
  by_cases h0 : 0 < (saveDicts new).2.2.length
  · refine ⟨_, ⟨_, 2, by unfold saveWrites; rw [hf], rfl⟩, ?_⟩
    simp only [if_pos h0]
    exact htrunc _
  · refine ⟨_, ⟨_, 1, by unfold saveWrites; rw [hf], rfl⟩, ?_⟩
    simp only [if_neg h0]
    exact htrunc _

/-! ### C75: merging -/

/-- Equality of sets given as lists. -/
def SameSet (a b : List Key) : Prop := ∀ k, k ∈ a ↔ k ∈ b

/-- **C75.** Merging loggers with equal run keys returns the first one with the runs of all of them
in order, everything else being that of the first. -/
theorem C75_merge (l0 : Logger P A) (ls : List (Logger P A))
    (h : ∀ l ∈ ls, SameSet l.expKeys l0.expKeys) :
    mergeExperiments (l0 :: ls) = .ok { l0 with exps := ((l0 :: ls).map Logger.exps).flatten } := by
  show ls.foldlM Logger.append l0 = _
  induction ls generalizing l0 with
  | nil => simp [pure, Except.pure]
  | cons l ls ih =>
    have hl := h l List.mem_cons_self
    have happ : l0.append l = .ok { l0 with exps := l0.exps ++ l.exps } := by
      unfold Logger.append
      rw [if_pos ⟨fun k hk => (hl k).2 hk, fun k hk => (hl k).1 hk⟩]
    rw [List.foldlM_cons, happ]
    simp only [bind, Except.bind]
    rw [ih { l0 with exps := l0.exps ++ l.exps } (fun x hx => h x (List.mem_cons_of_mem _ hx))]
    simp

/-- **C75.** An empty list raises `ValueError`; different run keys raise `AssertionError`. -/
theorem C75_merge_errors :
    mergeExperiments ([] : List (Logger P A)) = .error .valueError ∧
    ∀ (l0 : Logger P A) (ls : List (Logger P A)), (∃ l ∈ ls, ¬ SameSet l.expKeys l0.expKeys) →
      mergeExperiments (l0 :: ls) = .error .assertionError := by
  refine ⟨rfl, ?_⟩
  intro l0 ls h
  show ls.foldlM Logger.append l0 = _
  induction ls generalizing l0 with
  | nil => obtain ⟨l, hl, _⟩ := h; cases hl
  | cons l ls ih =>
    rw [List.foldlM_cons]
    unfold Logger.append
    by_cases hl : SameSet l.expKeys l0.expKeys
    · rw [if_pos ⟨fun k hk => (hl k).2 hk, fun k hk => (hl k).1 hk⟩]
      simp only [bind, Except.bind]
      apply ih
      obtain ⟨x, hx, hne⟩ := h
      rcases List.mem_cons.1 hx with rfl | hx
      · exact absurd hl hne
      · exact ⟨x, hx, hne⟩
    · rw [if_neg]
      · rfl
      · rintro ⟨h1, h2⟩
        exact hl fun k => ⟨fun hk => h2 k hk, fun hk => h1 k hk⟩

/-! ### Examples -/

/-- A logger with underscores in its keys, arrays and plain values. -/
def exLog : Logger ℕ ℕ :=
  ⟨[("a_b".toList, .arr 1), ("c".toList, .plain 2)],
    [[("x_1_y".toList, .arr 3)], [("p".toList, .plain 5), ("q_".toList, .arr 6)]],
    ["x_1_y".toList, "p".toList, "q_".toList], [], some "f".toList⟩

example : WF exLog ∧ exLog.filename = some "f".toList ∧ ¬ (".npz".toList <:+ "f".toList) := by
  refine ⟨⟨by unfold DictOK; decide, ?_⟩, rfl, by decide⟩
  intro e he
  simp only [exLog, List.mem_cons, List.not_mem_nil, or_false] at he
  rcases he with rfl | rfl <;> unfold DictOK <;> decide

example : exLog.store "p".toList (.plain 7) = .error .valueError := by decide

example : ∃ l', exLog.store "new".toList (.plain 7) = .ok l' ∧
    l'.getValues "new".toList = [none, some (.plain 7)] := ⟨_, rfl, by decide⟩

end Verif.Logger
