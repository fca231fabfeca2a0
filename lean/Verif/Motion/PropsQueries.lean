import Verif.Motion.Props
import Verif.Motion.Export

/-!
# Property C236: labels and descriptions of motion databases
-/

namespace Verif.Motion

open Verif.Logger (Key)

variable {D : Type}

/-- **C236.** The labels which occur are those of any record; those of an extended database are those of both, and adding a
record adds its labels. -/
theorem C236_occuring (db : DB D) :
    (∀ l, l ∈ db.occuring ↔ ∃ r ∈ db.records, l ∈ r.2) ∧
    (∀ d ls l, l ∈ (db.add d ls).occuring ↔ l ∈ db.occuring ∨ l ∈ ls) ∧
    (∀ other order db', db.extend other order = .ok db' →
      ∀ l, l ∈ db'.occuring ↔ l ∈ db.occuring ∨ l ∈ other.occuring) := by
  refine ⟨fun l => List.mem_flatMap, fun d ls l => ?_, fun other order db' h l => ?_⟩
  · simp [DB.occuring, DB.add, List.flatMap_append]
  · unfold DB.extend at h
    split_ifs at h
    simp only [bind, Except.bind] at h
    split at h
    · cases h
    · split_ifs at h
      obtain rfl := Except.ok.inj h
      simp [DB.occuring, List.flatMap_append]

theorem safe_list {db : DB D} {l : List Key} (h : db.desc = .list l) (i : ℤ) :
    (∀ v, pyGet l i = .ok v → db.descriptionSafe (.int i) = .ok v) ∧
    (pyGet l i = .error .indexError → db.descriptionSafe (.int i) = .ok []) := by
  have hn : db.desc ≠ .none := by rw [h]; simp
  unfold DB.descriptionSafe
  rw [if_pos hn, h]
  constructor
  · intro v hv
    simp only [Desc.get, hv]
  · intro hv
    simp only [Desc.get, hv]

/-- **C236.** The safe description is empty without descriptions, and for a label which has none: one which is not a key, or
an index out of range.  Negative indices count from the end; a string raises `TypeError` when descriptions are a
list. -/
theorem C236_description (db : DB D) :
    (db.desc = .none → ∀ x, db.descriptionSafe x = .ok []) ∧
    (∀ d, db.desc = .dict d → ∀ x, db.descriptionSafe x = .ok ((dictGet? d x).getD [])) ∧
    (∀ l, db.desc = .list l →
      (∀ i : ℕ, db.descriptionSafe (.int i) = .ok (l[i]?.getD [])) ∧
      (∀ i : ℕ, 1 ≤ i → db.descriptionSafe (.int (-i)) = .ok (l.reverse[i - 1]?.getD [])) ∧
      ∀ s, db.descriptionSafe (.str s) = .error .typeError) := by
  refine ⟨fun h x => ?_, fun d h x => ?_, fun l h => ⟨fun i => ?_, fun i hi => ?_, fun s => ?_⟩⟩
  · unfold DB.descriptionSafe
    rw [h]
    rfl
  · unfold DB.descriptionSafe
    rw [h]
    simp only [Desc.get]
    rcases dictGet? d x with _ | v <;> rfl
  · have hp : pyGet l (i : ℤ) = match l[i]? with | some x => .ok x | none => .error .indexError := by
      unfold pyGet
      rw [if_neg (by omega), Int.toNat_natCast]
      rcases l[i]? with _ | v <;> rfl
    rcases hx : l[i]? with _ | v
    · rw [hx] at hp
      exact (safe_list h _).2 hp
    · rw [hx] at hp
      exact (safe_list h _).1 v hp
  · by_cases hl : i ≤ l.length
    · have e : (-(i : ℤ) + (l.length : ℤ)).toNat = l.length - i := by omega
      have e' : l.reverse[i - 1]? = l[l.length - i]? := by
        rw [List.getElem?_reverse (by omega)]
        congr 1
        omega
      have hp : pyGet l (-(i : ℤ)) = match l[l.length - i]? with | some x => .ok x | none => .error .indexError := by
        unfold pyGet
        rw [if_pos (by omega), if_neg (by omega), e]
        rcases l[l.length - i]? with _ | v <;> rfl
      rw [e']
      rcases hx : l[l.length - i]? with _ | v
      · rw [hx] at hp
        exact (safe_list h _).2 hp
      · rw [hx] at hp
        exact (safe_list h _).1 v hp
    · rw [List.getElem?_eq_none (l := l.reverse) (by rw [List.length_reverse]; omega)]
      refine (safe_list h _).2 ?_
      unfold pyGet
      rw [if_pos (by omega), if_pos (by omega)]
  · unfold DB.descriptionSafe
    rw [h]
    rfl

/-- **C236.** After a database was extended, the descriptions of the labels of its records are those which both databases
gave them. -/
theorem C236_extended (db other : DB D) (order : List Label) (ho : Enumerates order db other) (db' : DB D)
    (h : db.extend other order = .ok db') :
    ∀ l ∈ db'.occuring, ∃ s, db'.descriptionSafe l = .ok s ∧ db.descriptionSafe l = .ok s ∧ other.descriptionSafe l = .ok s := by
  intro l hl
  obtain ⟨h1, h2⟩ := C85_extend db other order ho
  have hdb := h1 db' h
  obtain ⟨-, h3⟩ := h2.1 ⟨db', h⟩
  have hl' : ∃ r ∈ db.records ++ other.records, l ∈ r.2 := by
    rw [(C236_occuring db').1, hdb] at hl
    exact hl
  obtain ⟨s, e1, e2⟩ := h3 l hl'
  have key : ∀ b : DB D, b.desc.get l = .ok s → b.descriptionSafe l = .ok s := by
    intro b hb
    unfold DB.descriptionSafe
    rw [hb]
    split_ifs with hn
    · rfl
    · rw [not_not] at hn
      rw [hn] at hb
      cases hb
  refine ⟨s, key db' ?_, key db e1, key other e2⟩
  rw [hdb]
  exact e1

/-- List descriptions, with an index from the end, one out of range and a string. -/
example : exDB.descriptionSafe (.int 1) = .ok "b".toList ∧ exDB.descriptionSafe (.int (-2)) = .ok "a".toList ∧
    exDB.descriptionSafe (.int 2) = .ok [] ∧ exDB.descriptionSafe (.int (-3)) = .ok [] ∧
    exDB.descriptionSafe (.str "a".toList) = .error .typeError := by decide +kernel

example : ∃ db', exDB.extend exDB [.int 1, .int 0] = .ok db' ∧ ∃ s, db'.descriptionSafe (.int 0) = .ok s := by
  refine ⟨⟨exDB.name, exDB.markerNames, exDB.records ++ exDB.records, exDB.desc⟩, by decide +kernel, "a".toList, by decide +kernel⟩

end Verif.Motion
