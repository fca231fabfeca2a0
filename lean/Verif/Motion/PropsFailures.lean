import Verif.Motion.Failures
import Verif.Motion.Props

/-!
# Property C231: what remains when an export of a motion database fails or is interrupted
-/

namespace Verif.Motion

open Verif.Logger (Key decStr decStr_inj)
open Verif.Objects (mapM_py_ok)

variable {D : Type}

/-! ### Records read from an archive -/

theorem mapM_key {α β : Type} (f : α → Py β) (l : List α) (h : ∀ a ∈ l, (∃ b, f a = .ok b) ∨ f a = .error .keyError)
    (h1 : ∃ a ∈ l, f a = .error .keyError) : l.mapM f = .error .keyError := by
  induction l with
  | nil => obtain ⟨a, ha, _⟩ := h1; cases ha
  | cons a l ih =>
    rw [List.mapM_cons]
    rcases h a List.mem_cons_self with ⟨b, hb⟩ | hb
    · rw [hb]
      have h2 : ∃ x ∈ l, f x = .error .keyError := by
        obtain ⟨x, hx, h2⟩ := h1
        rcases List.mem_cons.1 hx with rfl | hx
        · rw [hb] at h2; cases h2
        · exact ⟨x, hx, h2⟩
      show (do let bs ← l.mapM f; pure (b :: bs)) = _
      rw [ih (fun x hx => h x (List.mem_cons_of_mem _ hx)) h2]
      rfl
    · rw [hb]; rfl

theorem npzData_none (db : DB D) (i : ℕ) (h : db.records.length ≤ i) : dictGet? db.npzData (decStr i) = none := by
  cases hg : dictGet? db.npzData (decStr i) with
  | none => rfl
  | some d =>
    unfold DB.npzData at hg
    rw [dictGet?_dictOf _ (zipIdx_keys_nodup db.records 0), List.mem_map] at hg
    obtain ⟨⟨r, k⟩, hm, he⟩ := hg
    simp only [Prod.mk.injEq] at he
    have hk : k = i := decStr_inj he.1
    subst hk
    rw [List.mem_iff_getElem?] at hm
    obtain ⟨j, hj⟩ := hm
    rw [List.getElem?_zipIdx] at hj
    cases hr : db.records[j]? with
    | none => rw [hr] at hj; cases hj
    | some r' =>
      rw [hr] at hj
      simp only [Option.map_some, Option.some.injEq, Prod.mk.injEq, Nat.zero_add] at hj
      have := (List.getElem?_eq_some_iff.1 hr).1
      omega

theorem fetch_mixed (old new : DB D) (f : Key) :
    (new.records.length ≤ old.records.length →
      (new.getMeta f).records.mapM (fetchRecord old.npzData) = (.ok (old.data.zip new.labels) : Py (List (D × List Label)))) ∧
    (old.records.length < new.records.length →
      (new.getMeta f).records.mapM (fetchRecord old.npzData) = (.error .keyError : Py (List (D × List Label)))) := by
  constructor
  · intro h
    rw [mapM_py_ok]
    unfold DB.getMeta DB.labels DB.data
    rw [List.forall₂_iff_get]
    refine ⟨by simp [h], ?_⟩
    intro i h1 h2
    simp only [List.get_eq_getElem, List.getElem_map, List.getElem_zipIdx, List.getElem_zip]
    have hi' : i < old.records.length := by simp at h2; omega
    have hi : old.records[i]? = some old.records[i] := List.getElem?_eq_getElem hi'
    unfold fetchRecord
    rw [Nat.zero_add, npzData_get old i _ hi]
  · intro h
    apply mapM_key
    · intro r _
      unfold fetchRecord
      cases dictGet? old.npzData (decStr r.1) with
      | none => exact .inr rfl
      | some d => exact .inl ⟨_, rfl⟩
    · refine ⟨(old.records.length, (new.records[old.records.length]).2), ?_, ?_⟩
      · unfold DB.getMeta DB.labels
        simp only [List.mem_map]
        refine ⟨((new.records[old.records.length]).2, old.records.length), ?_, rfl⟩
        rw [List.mem_iff_getElem?]
        refine ⟨old.records.length, ?_⟩
        rw [List.getElem?_zipIdx, List.getElem?_map, List.getElem?_eq_getElem h]
        simp
      · unfold fetchRecord
        rw [npzData_none old _ le_rfl]

theorem load_parts {fs : Files D} {location : Key} {m : Meta} {arrays : Dict Key D} (h1 : fs location = some (some (.json m)))
    (h2 : fs m.dataFile = some (some (.npz arrays))) :
    loadFiles fs location = (do
      let rs ← m.records.mapM (fetchRecord arrays)
      return ⟨m.name, m.markerNames, rs, m.desc⟩) := by
  unfold loadFiles
  rw [h1]
  simp only [h2]

theorem load_mixed {fs : Files D} {new old : DB D} {f : Key}
    (h1 : fs (f ++ ".json".toList) = some (some (.json { new.getMeta f with desc := jsonDesc new.desc })))
    (h2 : fs (f ++ ".npz".toList) = some (some (.npz old.npzData))) :
    loadFiles fs (f ++ ".json".toList) = if new.records.length ≤ old.records.length then
      .ok ⟨new.name, new.markerNames, old.data.zip new.labels, jsonDesc new.desc⟩ else .error .keyError := by
  rw [load_parts h1 h2]
  split_ifs with h
  · show (do
      let rs ← (new.getMeta f).records.mapM (fetchRecord old.npzData)
      return (⟨new.name, new.markerNames, rs, jsonDesc new.desc⟩ : DB D)) = _
    rw [(fetch_mixed old new f).1 h]
    rfl
  · show (do
      let rs ← (new.getMeta f).records.mapM (fetchRecord old.npzData)
      return (⟨new.name, new.markerNames, rs, jsonDesc new.desc⟩ : DB D)) = _
    rw [(fetch_mixed old new f).2 (by omega)]
    rfl

theorem zip_self (db : DB D) : db.data.zip db.labels = db.records := by
  unfold DB.data DB.labels
  induction db.records with
  | nil => rfl
  | cons r l ih => simp only [List.map_cons, List.zip_cons_cons, ih]

theorem steps_ok (ser : Label → Bool) (db : DB D) (filename : Option Key)
    (hs : ∀ r ∈ db.records, ∀ l ∈ r.2, ser l = true) :
    db.exportSteps ser filename = ([(filename.getD db.name ++ ".json".toList, none),
      (filename.getD db.name ++ ".json".toList,
        some (.json { db.getMeta (filename.getD db.name) with desc := jsonDesc db.desc })),
      (filename.getD db.name ++ ".npz".toList, none),
      (filename.getD db.name ++ ".npz".toList, some (.npz db.npzData))], .ok ()) := by
  unfold DB.exportSteps
  have : ((db.getMeta (filename.getD db.name)).records.all fun r => r.2.all ser) = true := by
    rw [List.all_eq_true]
    intro r hr
    unfold DB.getMeta DB.labels at hr
    simp only [List.mem_map] at hr
    obtain ⟨⟨l, k⟩, hm, rfl⟩ := hr
    have hl : l ∈ db.records.map Prod.snd := by
      have := List.fst_mem_of_mem_zipIdx hm
      simpa using this
    obtain ⟨r, hr, rfl⟩ := List.mem_map.1 hl
    exact List.all_eq_true.2 (hs r hr)
  rw [if_pos this]
  rfl

theorem steps_fail (ser : Label → Bool) (db : DB D) (filename : Option Key)
    (hs : ∃ r ∈ db.records, ∃ l ∈ r.2, ser l = false) :
    db.exportSteps ser filename = ([(filename.getD db.name ++ ".json".toList, none)], .error .typeError) := by
  unfold DB.exportSteps
  have : ¬ ((db.getMeta (filename.getD db.name)).records.all fun r => r.2.all ser) = true := by
    rw [List.all_eq_true]
    intro h
    obtain ⟨r, hr, l, hl, he⟩ := hs
    obtain ⟨i, hi⟩ := List.mem_iff_getElem?.1 hr
    have := h (i, r.2) (by
      unfold DB.getMeta DB.labels
      refine List.mem_map.2 ⟨(r.2, i), ?_, rfl⟩
      rw [List.mem_iff_getElem?]
      refine ⟨i, ?_⟩
      rw [List.getElem?_zipIdx, List.getElem?_map, hi]
      simp)
    have := List.all_eq_true.1 this l hl
    rw [he] at this
    cases this
  rw [if_neg this]

/-- **C231.** A complete export can be loaded, whatever the files were (even incomplete); other files do not change. -/
theorem C231_complete (ser : Label → Bool) (db : DB D) (filename : Option Key) (fs : Files D)
    (hs : ∀ r ∈ db.records, ∀ l ∈ r.2, ser l = true) :
    (db.exportSteps ser filename).2 = .ok () ∧ (db.exportSteps ser filename).1.length = 4 ∧
      loadFiles (fs.writes (db.exportSteps ser filename).1) (filename.getD db.name ++ ".json".toList) =
        .ok ⟨db.name, db.markerNames, db.records, jsonDesc db.desc⟩ := by
  rw [steps_ok ser db filename hs]
  refine ⟨rfl, rfl, ?_⟩
  rw [load_mixed (new := db) (old := db) (f := filename.getD db.name), if_pos le_rfl, zip_self]
  · simp [Files.writes, Files.write]
  · simp [Files.writes, Files.write]

/-- **C231.** Whatever happens, an export changes no other file than the two it names. -/
theorem C231_others (ser : Label → Bool) (db : DB D) (filename : Option Key) (fs : Files D) (k : ℕ) (q : Key)
    (h1 : q ≠ filename.getD db.name ++ ".json".toList) (h2 : q ≠ filename.getD db.name ++ ".npz".toList) :
    fs.writes ((db.exportSteps ser filename).1.take k) q = fs q := by
  have key : ∀ ws : List (Key × Option (File D)), (∀ w ∈ ws, q ≠ w.1) → ∀ fs : Files D, fs.writes ws q = fs q := by
    intro ws
    induction ws with
    | nil => intros; rfl
    | cons w ws ih =>
      intro h fs
      show (fs.write w).writes ws q = _
      rw [ih (fun w hw => h w (List.mem_cons_of_mem _ hw))]
      exact if_neg (h w List.mem_cons_self)
  refine key _ (fun w hw => ?_) fs
  have hw := List.mem_of_mem_take hw
  by_cases hs : ∀ r ∈ db.records, ∀ l ∈ r.2, ser l = true
  · rw [steps_ok ser db filename hs] at hw
    simp only [List.mem_cons, List.not_mem_nil, or_false] at hw
    rcases hw with rfl | rfl | rfl | rfl <;> assumption
  · push Not at hs
    obtain ⟨r, hr, l, hl, he⟩ := hs
    rw [steps_fail ser db filename ⟨r, hr, l, hl, by simpa using he⟩] at hw
    simp only [List.mem_cons, List.not_mem_nil, or_false] at hw
    rw [hw]
    exact h1

/-- **C231.** An export over an older one, interrupted after `k` of its writes: the older database remains only if nothing
has been written.  Between the meta data and the data, loading raises nothing when the new database has no more records than
the old one: it gives the new labels with the *old* arrays; it raises `KeyError` otherwise.  While a file is being written,
loading raises. -/
theorem C231_interrupted (ser : Label → Bool) (old new : DB D) (f : Key) (fs : Files D)
    (ho : ∀ r ∈ old.records, ∀ l ∈ r.2, ser l = true) (hn : ∀ r ∈ new.records, ∀ l ∈ r.2, ser l = true) (k : ℕ) :
    loadFiles ((fs.writes (old.exportSteps ser (some f)).1).writes ((new.exportSteps ser (some f)).1.take k))
        (f ++ ".json".toList) =
      if k = 0 then .ok ⟨old.name, old.markerNames, old.records, jsonDesc old.desc⟩
      else if k = 1 ∨ k = 3 then .error .valueError
      else if k = 2 then
        if new.records.length ≤ old.records.length then
          .ok ⟨new.name, new.markerNames, (old.records.map Prod.fst).zip (new.records.map Prod.snd), jsonDesc new.desc⟩
        else .error .keyError
      else .ok ⟨new.name, new.markerNames, new.records, jsonDesc new.desc⟩ := by
  match k with
  | 0 => exact (C231_complete ser old (some f) fs ho).2.2
  | 1 =>
    rw [steps_ok ser new (some f) hn]
    unfold loadFiles
    simp [Files.writes, Files.write]
  | 2 =>
    rw [steps_ok ser new (some f) hn, steps_ok ser old (some f) ho]
    have h := load_mixed (new := new) (old := old) (f := f) (fs := (fs.writes
      [(f ++ ".json".toList, none), (f ++ ".json".toList, some (.json { old.getMeta f with desc := jsonDesc old.desc })),
      (f ++ ".npz".toList, none), (f ++ ".npz".toList, some (.npz old.npzData))]).writes
      [(f ++ ".json".toList, none), (f ++ ".json".toList, some (.json { new.getMeta f with desc := jsonDesc new.desc }))])
      (by simp [Files.writes, Files.write])
      (by simp [Files.writes, Files.write, (json_ne_npz f).symm])
    exact h
  | 3 =>
    rw [steps_ok ser new (some f) hn]
    unfold loadFiles
    have e : ((fs.writes (old.exportSteps ser (some f)).1).writes
        (([(f ++ ".json".toList, none),
          (f ++ ".json".toList, some (.json { new.getMeta f with desc := jsonDesc new.desc })),
          (f ++ ".npz".toList, none), (f ++ ".npz".toList, some (.npz new.npzData))] :
            List (Key × Option (File D))).take 3)) (f ++ ".json".toList) =
        some (some (.json { new.getMeta f with desc := jsonDesc new.desc })) := by
      simp [Files.writes, Files.write, json_ne_npz]
    have e2 : ((fs.writes (old.exportSteps ser (some f)).1).writes
        (([(f ++ ".json".toList, none),
          (f ++ ".json".toList, some (.json { new.getMeta f with desc := jsonDesc new.desc })),
          (f ++ ".npz".toList, none), (f ++ ".npz".toList, some (.npz new.npzData))] :
            List (Key × Option (File D))).take 3)) (f ++ ".npz".toList) = some none := by
      simp [Files.writes, Files.write]
    simp only [Option.getD_some]
    rw [e]
    show (match ((fs.writes (old.exportSteps ser (some f)).1).writes _) (f ++ ".npz".toList) with
      | some (some (.npz arrays)) => _ | some _ => _ | none => _) = _
    rw [e2]
    simp
  | k + 4 =>
    have h := C231_complete ser new (some f) (fs.writes (old.exportSteps ser (some f)).1) hn
    rw [List.take_of_length_le (by rw [h.2.1]; omega)]
    rw [if_neg (by omega), if_neg (by omega), if_neg (by omega)]
    exact h.2.2

/-- **C231.** With a label which JSON does not write, an export raises `TypeError`, after it has spoilt the meta data of an
older export: loading raises, though the older archive is kept. -/
theorem C231_unserialisable (ser : Label → Bool) (old new : DB D) (f : Key) (fs : Files D)
    (ho : ∀ r ∈ old.records, ∀ l ∈ r.2, ser l = true) (hn : ∃ r ∈ new.records, ∃ l ∈ r.2, ser l = false) :
    (new.exportSteps ser (some f)).2 = .error .typeError ∧
    loadFiles ((fs.writes (old.exportSteps ser (some f)).1).writes (new.exportSteps ser (some f)).1)
      (f ++ ".json".toList) = .error .valueError ∧
    ((fs.writes (old.exportSteps ser (some f)).1).writes (new.exportSteps ser (some f)).1) (f ++ ".npz".toList) =
      some (some (.npz old.npzData)) := by
  rw [steps_fail ser new (some f) hn, steps_ok ser old (some f) ho]
  refine ⟨rfl, ?_, ?_⟩
  · unfold loadFiles
    simp [Files.writes, Files.write]
  · simp [Files.writes, Files.write, (json_ne_npz f).symm]

/-- Two databases with one record each, the arrays 1 and 2 and the labels 1 and 2: an export of the second over the first
interrupted between the two files gives the array 1 with the label 2. -/
example : loadFiles ((Files.writes (fun _ => none)
      ((⟨"d".toList, [], [((1 : ℕ), [.int 1])], .none⟩ : DB ℕ).exportSteps (fun _ => true) (some "f".toList)).1).writes
    (((⟨"d".toList, [], [(2, [.int 2])], .none⟩ : DB ℕ).exportSteps (fun _ => true) (some "f".toList)).1.take 2))
    ("f".toList ++ ".json".toList) = .ok ⟨"d".toList, [], [(1, [.int 2])], .none⟩ := by
  rw [C231_interrupted _ _ _ _ _ (by simp) (by simp)]
  rfl

end Verif.Motion
