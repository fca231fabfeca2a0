import Verif.Logger.PropsHeap

/-! # Cases of property C209 -/

namespace Verif.Logger.H

open Verif Heap

/-- Two logs: the first one with one run and the second one with two, all with a value for "a", and a third one with a run
with a value for "b". -/
def ex : Heap ℕ ℕ :=
  let h : Heap ℕ ℕ := ⟨fun _ => [], 0, fun _ => ⟨[], [], [], [], none⟩, 0⟩
  let h := (h.new none).1
  let h := (h.new none).1
  let h := (h.new none).1
  let h := ((h.newRun 0).store 0 ['a'] (.plain 1)).1
  let h := ((h.newRun 1).store 1 ['a'] (.plain 2)).1
  let h := ((h.newRun 1).storeResult 1 ['a'] (.plain 3)).1
  ((h.newRun 2).store 2 ['b'] (.arr 4)).1

theorem ex_reach : Reach ex :=
  .store (.newRun (.storeResult (.newRun (.store (.newRun (.store (.newRun (.new (.new (.new .empty _) _) _)
    (by decide)) _ _ _) (by decide)) _ _ _) (by decide)) _ _ _) (by decide)) _ _ _

theorem ex_same : ∀ l ∈ [1], SameKeys ex 0 l := by
  intro l hl
  rw [List.mem_singleton.1 hl]
  exact fun k => Iff.rfl

-- C209_merge: the runs of both logs.
example : ∃ h', ex.merge [0, 1] = (h', .ok 0) ∧ (h'.logs 0).exps = [0, 1, 2] := by
  obtain ⟨h', e, _, _, e3, _⟩ := C209_merge ex 0 [1] ex_same (by decide)
  exact ⟨h', e, e3.trans (by decide +kernel)⟩

-- C209_merge_fails: the third log has other keys, the first one has kept the runs of the second one.
example : ∃ h', ex.merge [0, 1, 2] = (h', .error .assertionError) ∧ (h'.logs 0).exps = [0, 1, 2] := by
  obtain ⟨h', e, _, _, e3⟩ := C209_merge_fails ex 0 [1] 2 [] ex_same (fun h => absurd ((h ['b']).1 (by decide +kernel))
    (by decide +kernel)) (by decide)
  exact ⟨h', e, e3.trans (by decide +kernel)⟩

-- C209_merge_itself and C209_merge_again.
example : ∃ h', ex.merge [0, 0, 0] = (h', .ok 0) ∧ (h'.logs 0).exps = [0, 0, 0, 0] := by
  obtain ⟨h', e, e3⟩ := C209_merge_itself ex 0 2
  exact ⟨h', e, e3.trans (by decide +kernel)⟩

example : ∃ h', ((ex.merge [0, 1]).1.merge [0, 1]) = (h', .ok 0) ∧ (h'.logs 0).exps = [0, 1, 2, 1, 2] := by
  obtain ⟨h', e, e3⟩ := C209_merge_again ex 0 [1] ex_same (by decide)
  exact ⟨h', e, e3.trans (by decide +kernel)⟩

-- C209_shared: a value for "c" stored in the merged log is in the second log, without its key.
example : ∃ h', ex.merge [0, 1] = (h', .ok 0) ∧
    ((h'.store 0 ['c'] (.plain 9)).1.value 1).getLastValue ['c'] = .ok (.plain 9) ∧
    ¬ Inv ((h'.store 0 ['c'] (.plain 9)).1.value 1) := by
  obtain ⟨h', e, e1, _⟩ := C209_shared ex 0 [] 1 ex_same (by decide) 2 (by decide +kernel) ['c'] (.plain 9) (by decide +kernel)
  exact ⟨h', e, e1.2.2.1, e1.2.2.2 (by decide +kernel)⟩

-- C209_store: without run, with a key which is present, and with a new key.
example : (ex.new none).1.store 3 ['a'] (.plain 9) = ((ex.new none).1, .error .indexError) :=
  (C209_store _ 3 _ _).1 (by decide +kernel)

example : ex.store 1 ['a'] (.plain 9) = (ex, .error .valueError) :=
  ((C209_store ex 1 ['a'] (.plain 9)).2 2 (by decide +kernel)).1 (by decide +kernel)

-- C209_store_distinct and C209_store_result after a program without merges.
example : (ex.value 1).storeResult ['c'] (.plain 9) = .ok ((ex.storeResult 1 ['c'] (.plain 9)).1.value 1) :=
  ((C209_store_result ex 1 ['c'] (.plain 9)).2 rfl).2.2.2.2.2.2 (C209_reach ex_reach)

example : (ex.store 1 ['c'] (.plain 9)).1.value 0 = ex.value 0 :=
  (C209_store_distinct ex (C209_reach ex_reach) 1 _ _).2.1 0 (by decide)

-- C209_new_run and C209_new.
example : (ex.newRun 1).value 1 = (ex.value 1).newRun := (C209_new_run ex (C209_reach ex_reach).old 1).1

example : (ex.new none).1.value 1 = ex.value 1 := (C209_new ex none).2 1 (by decide)

end Verif.Logger.H
