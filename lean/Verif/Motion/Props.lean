import Verif.Motion.Model
import Verif.Logger.Lemmas
import Verif.Objects.Props

/-!
# Properties C84, C85 and C100 of `multimodal/db/models/kinect_motion.py`
-/

namespace Verif.Motion

open Verif.Logger (Key decStr decStr_inj decStr_digits)
open Verif.Objects (mapM_py_ok)

variable {D : Type}

/-! ### C84 -/

theorem zipIdx_keys_nodup (l : List (D × List Label)) : ∀ n : ℕ,
    (((l.zipIdx n).map fun p => (decStr p.2, p.1.1)).map Prod.fst).Nodup := by
  intro n
  have h : (((l.zipIdx n).map fun p => (decStr p.2, p.1.1)).map Prod.fst)
      = (List.range' n l.length).map decStr := by
    rw [List.map_map]
    have : (Prod.fst ∘ fun p : (D × List Label) × ℕ => (decStr p.2, p.1.1))
        = decStr ∘ Prod.snd := rfl
    rw [this, ← List.map_map, List.zipIdx_map_snd]
  rw [h]
  exact List.Nodup.map (fun a b => decStr_inj) List.nodup_range'

theorem npzData_get (db : DB D) (i : ℕ) (r : D × List Label) (h : db.records[i]? = some r) :
    dictGet? db.npzData (decStr i) = some r.1 := by
  unfold DB.npzData
  rw [dictGet?_dictOf _ (zipIdx_keys_nodup db.records 0), List.mem_map]
  refine ⟨(r, i), ?_, rfl⟩
  rw [List.mem_iff_getElem?]
  exact ⟨i, by rw [List.getElem?_zipIdx, h]; simp⟩

theorem json_ne_npz (f : Key) : f ++ ".json".toList ≠ f ++ ".npz".toList := by
  intro h
  have := List.append_cancel_left h
  revert this; decide

/-- **C84.** Exporting any database and loading the files gives a database with the same name, marker
names and records (data and labels, in order); the descriptions are those which JSON gives back. -/
theorem C84_records (db : DB D) (fs : FS D) (filename : Option Key) :
    ∃ fs', db.export fs filename "npz".toList = .ok fs' ∧
      load fs' (filename.getD db.name ++ ".json".toList)
        = .ok ⟨db.name, db.markerNames, db.records, jsonDesc db.desc⟩ := by
  refine ⟨_, by unfold DB.export; rw [if_pos rfl], ?_⟩
  generalize filename.getD db.name = f
  unfold load FS.write
  rw [if_neg (by unfold DB.getMeta; exact json_ne_npz f), if_pos rfl]
  simp only []
  rw [if_pos trivial]
  simp only []
  have hrec : (db.getMeta f).records.mapM (fetchRecord db.npzData) = (.ok db.records : Py (List (D × List Label))) := by
    rw [mapM_py_ok]
    unfold DB.getMeta DB.labels
    simp only []
    rw [List.forall₂_iff_get]
    refine ⟨by simp, ?_⟩
    intro i h1 h2
    simp only [List.get_eq_getElem, List.getElem_map, List.getElem_zipIdx]
    have hi : db.records[i]? = some db.records[i] := List.getElem?_eq_getElem h2
    unfold fetchRecord
    rw [Nat.zero_add, npzData_get db i _ hi]
  rw [hrec]
  rfl

/-- Descriptions whose keys are strings. -/
def StrKeys : Desc → Prop
  | .dict d => (dictKeys d).Nodup ∧ ∀ k ∈ dictKeys d, ∃ s, k = .str s
  | _ => True

theorem jsonDesc_of_strKeys (d : Desc) (h : StrKeys d) : jsonDesc d = d := by
  cases d with
  | none => rfl
  | list l => rfl
  | dict d =>
    show Desc.dict (dictOf (d.map fun kv => (jsonKey kv.1, kv.2))) = _
    have : (d.map fun kv => (jsonKey kv.1, kv.2)) = d := by
      conv_rhs => rw [← List.map_id d]
      apply List.map_congr_left
      intro kv hkv
      obtain ⟨s, hs⟩ := h.2 kv.1 (List.mem_map.2 ⟨kv, hkv, rfl⟩)
      show (jsonKey kv.1, kv.2) = kv
      rw [hs]
      show (Label.str s, kv.2) = kv
      rw [← hs]
    rw [this]
    unfold dictOf
    rw [foldl_dictSet_fresh _ _ (by simpa using h.1)]
    rfl

/-- **C84 (part which holds).** The same database is loaded back when the descriptions are `None`, a
list, or a dictionary with string keys.  What is missing: dictionaries with integer keys, for which
the claim is false of the code (`C84_int_keys_lost`). -/
theorem C84_round_trip_partial (db : DB D) (fs : FS D) (filename : Option Key)
    (h : StrKeys db.desc) :
    ∃ fs', db.export fs filename "npz".toList = .ok fs' ∧
      load fs' (filename.getD db.name ++ ".json".toList) = .ok db := by
  obtain ⟨fs', h1, h2⟩ := C84_records db fs filename
  exact ⟨fs', h1, by rw [h2, jsonDesc_of_strKeys _ h]⟩

/-- **C84, negation.** With descriptions given by a dictionary, no integer label has a description
after loading, whatever its description was. -/
theorem C84_int_keys_lost (db : DB D) (d : Dict Label Key) (hd : db.desc = .dict d) (fs : FS D)
    (filename : Option Key) (i : ℤ) :
    ∃ fs' db', db.export fs filename "npz".toList = .ok fs' ∧
      load fs' (filename.getD db.name ++ ".json".toList) = .ok db' ∧
      db'.desc.get (.int i) = .error .keyError ∧ db'.descriptionSafe (.int i) = .ok [] := by
  obtain ⟨fs', h1, h2⟩ := C84_records db fs filename
  have hget : (jsonDesc db.desc).get (.int i) = .error .keyError := by
    rw [hd]
    unfold jsonDesc Desc.get
    simp only []
    have : dictGet? (dictOf (d.map fun kv => (jsonKey kv.1, kv.2))) (Label.int i) = none := by
      unfold dictOf
      rw [dictGet?_foldl]
      · rfl
      · rw [List.map_map]
        intro hm
        obtain ⟨kv, _, hk⟩ := List.mem_map.1 hm
        have : jsonKey kv.1 = .int i := hk
        cases hkv : kv.1 <;> rw [hkv] at this <;> cases this
    rw [this]
  refine ⟨fs', _, h1, h2, hget, ?_⟩
  unfold DB.descriptionSafe
  simp only []
  rw [hget]
  split <;> rfl

/-- **C84.** An unknown type raises `ValueError`. -/
theorem C84_wrong_type (db : DB D) (fs : FS D) (filename : Option Key) (t : Key)
    (h : t ∉ ["npz".toList, "txt".toList, "mat".toList]) : db.export fs filename t = .error .valueError := by
  have hne : t ≠ "npz".toList := by
    rintro rfl
    exact h List.mem_cons_self
  unfold DB.export
  rw [if_neg hne]

/-- Example: two records and list descriptions. -/
def exDB : DB ℕ := ⟨"db".toList, ["m".toList], [(5, [.int 1]), (6, [.int 0, .int 1])],
  .list ["a".toList, "b".toList]⟩

example : ∃ fs', exDB.export (fun _ => none) none "npz".toList = .ok fs' ∧
    load fs' "db.json".toList = .ok exDB :=
  C84_round_trip_partial exDB _ none trivial

/-! ### C85 -/

/-- `order` lists the labels which occur in one of the databases, once each. -/
def Enumerates (order : List Label) (db other : DB D) : Prop :=
  order.Nodup ∧ ∀ l, l ∈ order ↔ (∃ r ∈ db.records, l ∈ r.2) ∨ ∃ r ∈ other.records, l ∈ r.2

theorem mapM_eqs (a b : Desc) (order : List Label) (eqs : List Bool)
    (h : (order.mapM fun l => do
      let x ← a.get l
      let y ← b.get l
      return decide (x = y)) = .ok eqs) :
    (∀ l ∈ order, ∃ x y, a.get l = .ok x ∧ b.get l = .ok y) ∧
    (eqs.all id = true ↔ ∀ l ∈ order, a.get l = b.get l) := by
  rw [mapM_py_ok] at h
  induction h with
  | nil => simp
  | @cons l e ls es hl _ ih =>
    cases hx : a.get l with
    | error e => rw [hx] at hl; cases hl
    | ok x =>
      cases hy : b.get l with
      | error e => rw [hx, hy] at hl; cases hl
      | ok y =>
        rw [hx, hy] at hl
        simp only [bind, Except.bind, pure, Except.pure] at hl
        obtain rfl := Except.ok.inj hl
        constructor
        · intro l' hl'
          rcases List.mem_cons.1 hl' with rfl | hl'
          · exact ⟨x, y, hx, hy⟩
          · exact ih.1 l' hl'
        · rw [List.all_cons, Bool.and_eq_true, ih.2, List.forall_mem_cons, hx, hy]
          simp

/-- **C85.** `extend` appends all records of the other database and changes nothing else when it
succeeds, which happens exactly when marker names are equal and all labels occurring in one of the
databases have equal descriptions in both. -/
theorem C85_extend (db other : DB D) (order : List Label) (ho : Enumerates order db other) :
    (∀ db', db.extend other order = .ok db' →
      db' = ⟨db.name, db.markerNames, db.records ++ other.records, db.desc⟩) ∧
    ((∃ db', db.extend other order = .ok db') ↔ db.markerNames = other.markerNames ∧
      ∀ l, (∃ r ∈ db.records ++ other.records, l ∈ r.2) →
        ∃ x, db.desc.get l = .ok x ∧ other.desc.get l = .ok x) := by
  have hocc : ∀ l, l ∈ order ↔ ∃ r ∈ db.records ++ other.records, l ∈ r.2 := by
    intro l
    rw [ho.2 l]
    constructor
    · rintro (⟨r, h1, h2⟩ | ⟨r, h1, h2⟩)
      · exact ⟨r, List.mem_append_left _ h1, h2⟩
      · exact ⟨r, List.mem_append_right _ h1, h2⟩
    · rintro ⟨r, h1, h2⟩
      rcases List.mem_append.1 h1 with h1 | h1
      · exact Or.inl ⟨r, h1, h2⟩
      · exact Or.inr ⟨r, h1, h2⟩
  unfold DB.extend
  by_cases hm : db.markerNames = other.markerNames
  · rw [if_neg (by simpa using hm)]
    cases he : order.mapM (fun l => do
        let x ← db.desc.get l
        let y ← other.desc.get l
        return decide (x = y)) with
    | error e =>
      constructor
      · intro db' h; cases h
      · constructor
        · rintro ⟨db', h⟩; cases h
        · rintro ⟨_, h⟩
          exfalso
          have : order.mapM (fun l => do
              let x ← db.desc.get l
              let y ← other.desc.get l
              return decide (x = y)) = .ok (order.map fun _ => true) := by
            apply mapM_ok
            intro l hl
            obtain ⟨x, h1, h2⟩ := h l ((hocc l).1 hl)
            rw [h1, h2]
            simp [bind, Except.bind, pure, Except.pure]
          rw [this] at he
          cases he
    | ok eqs =>
      obtain ⟨h1, h2⟩ := mapM_eqs _ _ _ _ he
      simp only [bind, Except.bind]
      by_cases hall : eqs.all id = true
      · rw [hall]
        simp only [Bool.not_true, Bool.false_eq_true, if_false, pure, Except.pure]
        constructor
        · intro db' h; exact (Except.ok.inj h).symm
        · refine ⟨fun _ => ⟨hm, ?_⟩, fun _ => ⟨_, rfl⟩⟩
          intro l hl
          have hl' := (hocc l).2 hl
          obtain ⟨x, y, hx, hy⟩ := h1 l hl'
          have := h2.1 hall l hl'
          exact ⟨x, hx, by rw [← this, hx]⟩
      · rw [Bool.not_eq_true] at hall
        rw [hall]
        simp only [Bool.not_false, if_true]
        constructor
        · intro db' h; cases h
        · constructor
          · rintro ⟨db', h⟩; cases h
          · rintro ⟨_, h⟩
            exfalso
            have : eqs.all id = true := by
              rw [h2]
              intro l hl
              obtain ⟨x, hx, hy⟩ := h l ((hocc l).1 hl)
              rw [hx, hy]
            rw [this] at hall
            cases hall
  · rw [if_pos (by simpa using hm)]
    constructor
    · intro db' h; cases h
    · constructor
      · rintro ⟨db', h⟩; cases h
      · rintro ⟨h, _⟩; exact absurd h hm

/-- **C85.** Different marker names raise `ValueError`; so do different descriptions of an occurring
label, provided all occurring labels have descriptions in both databases. -/
theorem C85_errors (db other : DB D) (order : List Label) (ho : Enumerates order db other) :
    (db.markerNames ≠ other.markerNames → db.extend other order = .error .valueError) ∧
    ((∀ l, (∃ r ∈ db.records ++ other.records, l ∈ r.2) →
        ∃ x y, db.desc.get l = .ok x ∧ other.desc.get l = .ok y) →
      (∃ l r, r ∈ db.records ++ other.records ∧ l ∈ r.2 ∧ db.desc.get l ≠ other.desc.get l) →
      db.extend other order = .error .valueError) := by
  have hocc : ∀ l, l ∈ order ↔ ∃ r ∈ db.records ++ other.records, l ∈ r.2 := by
    intro l
    rw [ho.2 l]
    constructor
    · rintro (⟨r, h1, h2⟩ | ⟨r, h1, h2⟩)
      · exact ⟨r, List.mem_append_left _ h1, h2⟩
      · exact ⟨r, List.mem_append_right _ h1, h2⟩
    · rintro ⟨r, h1, h2⟩
      rcases List.mem_append.1 h1 with h1 | h1
      · exact Or.inl ⟨r, h1, h2⟩
      · exact Or.inr ⟨r, h1, h2⟩
  unfold DB.extend
  constructor
  · intro h
    rw [if_pos h]
  · intro hall ⟨l, r, hr, hl, hne⟩
    split
    · rfl
    · cases he : order.mapM (fun l => do
          let x ← db.desc.get l
          let y ← other.desc.get l
          return decide (x = y)) with
      | error e =>
        exfalso
        have : ∃ eqs, order.mapM (fun l => do
            let x ← db.desc.get l
            let y ← other.desc.get l
            return decide (x = y)) = .ok eqs := by
          refine ⟨order.map fun l => decide (db.desc.get l = other.desc.get l), ?_⟩
          apply mapM_ok
          intro l hl
          obtain ⟨x, y, h1, h2⟩ := hall l ((hocc l).1 hl)
          rw [h1, h2]
          simp [bind, Except.bind, pure, Except.pure]
        obtain ⟨eqs, h⟩ := this
        rw [h] at he
        cases he
      | ok eqs =>
        obtain ⟨_, h2⟩ := mapM_eqs _ _ _ _ he
        simp only [bind, Except.bind]
        have : eqs.all id = false := by
          rw [← Bool.not_eq_true, h2]
          intro h
          exact hne (h l ((hocc l).2 ⟨r, hr, hl⟩))
        rw [this]
        rfl

/-- **C85.** Databases without descriptions cannot be merged as soon as a label occurs: `TypeError`. -/
theorem C85_no_description (db other : DB D) (order : List Label) (ho : Enumerates order db other)
    (hm : db.markerNames = other.markerNames) (hd : db.desc = .none)
    (hl : ∃ r ∈ db.records ++ other.records, r.2 ≠ []) :
    db.extend other order = .error .typeError := by
  have hne : order ≠ [] := by
    rintro rfl
    obtain ⟨r, hr, hrl⟩ := hl
    obtain ⟨l, hl⟩ := List.exists_mem_of_ne_nil _ hrl
    have := (ho.2 l).2 (by
      rcases List.mem_append.1 hr with h | h
      · exact Or.inl ⟨r, h, hl⟩
      · exact Or.inr ⟨r, h, hl⟩)
    cases this
  unfold DB.extend
  rw [if_neg (by simpa using hm), hd]
  cases order with
  | nil => exact absurd rfl hne
  | cons l ls =>
    rw [List.mapM_cons]
    rfl

example : ∃ db', exDB.extend exDB [.int 1, .int 0] = .ok db' ∧ db'.records.length = 4 :=
  ⟨_, rfl, rfl⟩

example : Enumerates [.int 1, .int 0] exDB exDB := by
  refine ⟨by decide, ?_⟩
  intro l
  simp only [exDB, List.mem_cons, List.not_mem_nil, or_false, exists_eq_or_imp, exists_eq_left]
  tauto

/-! ### C100 -/

/-- **C100.** The text export succeeds exactly when all arrays have two dimensions, or at least two
if flattening is asked for; it then writes one file per record, named after its rank, with the
array, flattened when it has more than two dimensions. -/
theorem C100_text_export (ndim : D → ℕ) (flat : D → D) (force : Bool) (ds : List D) :
    ((saveTxt ndim flat force 0 ds).2 = .ok () ↔
      ∀ d ∈ ds, ndim d = 2 ∨ (force = true ∧ 2 < ndim d)) ∧
    ((saveTxt ndim flat force 0 ds).2 = .ok () → (saveTxt ndim flat force 0 ds).1 =
      ds.zipIdx.map fun p => (decStr p.2 ++ ".txt".toList,
        if ndim p.1 = 2 then p.1 else flat p.1)) := by
  suffices h : ∀ n : ℕ, ((saveTxt ndim flat force n ds).2 = .ok () ↔
      ∀ d ∈ ds, ndim d = 2 ∨ (force = true ∧ 2 < ndim d)) ∧
    ((saveTxt ndim flat force n ds).2 = .ok () → (saveTxt ndim flat force n ds).1 =
      (ds.zipIdx n).map fun p => (decStr p.2 ++ ".txt".toList,
        if ndim p.1 = 2 then p.1 else flat p.1)) from h 0
  induction ds with
  | nil => intro n; simp [saveTxt]
  | cons d ds ih =>
    intro n
    obtain ⟨ih1, ih2⟩ := ih (n + 1)
    unfold saveTxt
    rw [List.zipIdx_cons, List.map_cons]
    by_cases h2 : ndim d = 2
    · rw [if_neg (by simpa using h2)]
      simp only []
      constructor
      · rw [ih1]; simp [h2]
      · intro h; rw [ih2 h]; simp [h2]
    · rw [if_pos h2]
      by_cases hf : force = true ∧ 2 < ndim d
      · rw [if_pos hf]
        simp only []
        constructor
        · rw [ih1, List.forall_mem_cons]
          exact ⟨fun h => ⟨Or.inr hf, h⟩, fun h => h.2⟩
        · intro h; rw [ih2 h]; simp [h2]
      · rw [if_neg hf]
        constructor
        · constructor
          · intro h; cases h
          · intro h
            rcases h d List.mem_cons_self with h | h
            · exact absurd h h2
            · exact absurd h hf
        · intro h; cases h

/-- **C100.** When it fails, with `ValueError`, the files of the records before the first array of
wrong dimension have been written. -/
theorem C100_text_export_failure (ndim : D → ℕ) (flat : D → D) (force : Bool) (ds₁ : List D) (d : D)
    (ds₂ : List D) (h1 : ∀ x ∈ ds₁, ndim x = 2 ∨ (force = true ∧ 2 < ndim x))
    (h2 : ndim d ≠ 2) (h3 : ¬ (force = true ∧ 2 < ndim d)) :
    (saveTxt ndim flat force 0 (ds₁ ++ d :: ds₂)).2 = .error .valueError ∧
    (saveTxt ndim flat force 0 (ds₁ ++ d :: ds₂)).1.length = ds₁.length := by
  suffices h : ∀ n : ℕ, (saveTxt ndim flat force n (ds₁ ++ d :: ds₂)).2 = .error .valueError ∧
    (saveTxt ndim flat force n (ds₁ ++ d :: ds₂)).1.length = ds₁.length from h 0
  induction ds₁ with
  | nil =>
    intro n
    rw [List.nil_append]
    unfold saveTxt
    rw [if_pos h2, if_neg h3]
    exact ⟨rfl, rfl⟩
  | cons x xs ih =>
    intro n
    have ih := ih (fun y hy => h1 y (List.mem_cons_of_mem _ hy)) (n + 1)
    rw [List.cons_append]
    unfold saveTxt
    rcases h1 x List.mem_cons_self with hx | hx
    · rw [if_neg (by simpa using hx)]
      exact ⟨ih.1, by simp [ih.2]⟩
    · rw [if_pos (by omega), if_pos hx]
      exact ⟨ih.1, by simp [ih.2]⟩

example : (saveTxt id (fun _ => 2) true 0 [2, 3, 2]).2 = .ok () ∧
    (saveTxt id (fun _ => 2) false 0 [2, 3, 2]).2 = .error .valueError := ⟨rfl, rfl⟩

end Verif.Motion
