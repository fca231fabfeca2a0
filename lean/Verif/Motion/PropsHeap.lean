import Verif.Motion.Heap
import Verif.Motion.Export

/-!
# Property C235: motion databases share their records
-/

namespace Verif.Motion.H

open Verif.Logger (Key)

variable {D : Type}

/-- **C235.** `add` adds a record at the end of one database, and changes no other. -/
theorem C235_add (h : Heap D) (x a l : ℕ) :
    (h.add x a l).value x = (h.value x).add (h.arrays a) (h.tags l) ∧
    ∀ z, z ≠ x → (h.add x a l).value z = h.value z := by
  constructor
  · simp [Heap.value, Heap.add, DB.add]
  · intro z hz
    simp [Heap.value, Heap.add, Function.update_of_ne hz]

/-- **C235.** `extend` has the result which C85 gives for the values of both databases, also when they are the
same one; a failure changes nothing, and a success no other database, not even the second one. -/
theorem C235_extend (h : Heap D) (x y : ℕ) (enum : List Label → List Label) :
    match (h.value x).extend (h.value y) (enum ((h.value x).occuring ++ (h.value y).occuring)) with
    | .error e => h.extend x y enum = (h, .error e)
    | .ok v => (h.extend x y enum).2 = .ok () ∧ (h.extend x y enum).1.value x = v ∧
        ∀ z, z ≠ x → (h.extend x y enum).1.value z = h.value z := by
  unfold DB.extend Heap.extend
  by_cases hm : (h.value x).markerNames ≠ (h.value y).markerNames
  · simp only [if_pos hm]
  · simp only [if_neg hm]
    generalize List.mapM (m := Except PyErr) (β := Bool) _ (enum ((h.value x).occuring ++ (h.value y).occuring)) = q
    cases q with
    | error e => rfl
    | ok eqs =>
      simp only [bind, Except.bind]
      by_cases he : (!(eqs.all id)) = true
      · simp only [if_pos he]
      · simp only [if_neg he, pure, Except.pure]
        refine ⟨trivial, ?_, ?_⟩
        · simp [Heap.value]
        · intro z hz
          simp [Heap.value, Function.update_of_ne hz]

/-- **C235.** Extending a database with itself repeats its records. -/
theorem C235_self (h : Heap D) (x : ℕ) (enum : List Label → List Label)
    (hs : (h.extend x x enum).2 = .ok ()) :
    ((h.extend x x enum).1.value x).records = (h.value x).records ++ (h.value x).records := by
  have := C235_extend h x x enum
  revert this
  cases hv : (h.value x).extend (h.value x) (enum ((h.value x).occuring ++ (h.value x).occuring)) with
  | error e =>
    intro hh
    simp only [] at hh
    rw [hh] at hs
    cases hs
  | ok v =>
    intro hh
    simp only [] at hh
    rw [hh.2.1]
    unfold DB.extend at hv
    rw [if_neg (by simp)] at hv
    simp only [bind, Except.bind] at hv
    split at hv
    · cases hv
    · split at hv
      · cases hv
      · simp only [pure, Except.pure] at hv
        obtain rfl := Except.ok.inj hv
        rfl

/-- **C235.** Arrays and labels are not copied: an array changed in place is changed in every record which was
given it, in every database, and nothing else is. -/
theorem C235_set (h : Heap D) (a : ℕ) (d : D) (l : List Label) (z : ℕ) :
    (h.setArray a d).value z = { h.value z with
      records := (h.dbs z).records.map fun r => (if r.1 = a then d else h.arrays r.1, h.tags r.2) } ∧
    (h.setTags a l).value z = { h.value z with
      records := (h.dbs z).records.map fun r => (h.arrays r.1, if r.2 = a then l else h.tags r.2) } := by
  constructor <;> simp [Heap.value, Heap.setArray, Heap.setTags, Function.update_apply]

theorem run_grows (h : Heap D) (op : Op D) (x : ℕ) (hx : x < h.next) :
    (∃ s, ((op.run h).dbs x).records = (h.dbs x).records ++ s) ∧ x < (op.run h).next := by
  cases op with
  | new n m d =>
    refine ⟨⟨[], ?_⟩, ?_⟩
    · simp [Op.run, Heap.new, Function.update_of_ne (show x ≠ h.next by omega)]
    · simp only [Op.run, Heap.new]; omega
  | add y a l =>
    refine ⟨?_, hx⟩
    by_cases hy : x = y
    · subst hy
      exact ⟨[(a, l)], by simp [Op.run, Heap.add]⟩
    · exact ⟨[], by simp [Op.run, Heap.add, Function.update_of_ne hy]⟩
  | extend y z e =>
    simp only [Op.run, Heap.extend]
    split
    · exact ⟨⟨[], by simp⟩, hx⟩
    · split
      · exact ⟨⟨[], by simp⟩, hx⟩
      · split
        · exact ⟨⟨[], by simp⟩, hx⟩
        · refine ⟨?_, hx⟩
          by_cases hy : x = y
          · subst hy
            exact ⟨(h.dbs z).records, by simp⟩
          · exact ⟨[], by simp [Function.update_of_ne hy]⟩
  | setArray a d => exact ⟨⟨[], by simp [Op.run, Heap.setArray]⟩, hx⟩
  | setTags a l => exact ⟨⟨[], by simp [Op.run, Heap.setTags]⟩, hx⟩

theorem runAll_grows (ops : List (Op D)) (h : Heap D) (x : ℕ) (hx : x < h.next) :
    ∃ s, ((runAll h ops).dbs x).records = (h.dbs x).records ++ s := by
  induction ops generalizing h with
  | nil => exact ⟨[], by simp [runAll]⟩
  | cons op ops ih =>
    obtain ⟨⟨s, hs⟩, hx'⟩ := run_grows h op x hx
    obtain ⟨t, ht⟩ := ih (op.run h) hx'
    refine ⟨s ++ t, ?_⟩
    show ((runAll (op.run h) ops).dbs x).records = _
    rw [ht, hs, List.append_assoc]

/-- **C235.** After `x.extend(y)`, whatever is done next, the records which `x` got from `y` remain equal to
those of `y`, even if arrays or labels of either are changed. -/
theorem C235_shared (h : Heap D) (x y : ℕ) (hxy : x ≠ y) (hx : x < h.next) (hy : y < h.next)
    (enum : List Label → List Label) (hs : (h.extend x y enum).2 = .ok ()) (ops : List (Op D)) :
    let h' := runAll (h.extend x y enum).1 ops
    (((h'.value x).records.drop (h.value x).records.length).take (h.value y).records.length =
      (h'.value y).records.take (h.value y).records.length) := by
  intro h'
  have hr : (((h.extend x y enum).1.dbs x).records = (h.dbs x).records ++ (h.dbs y).records) ∧
      ((h.extend x y enum).1.dbs y).records = (h.dbs y).records ∧ (h.extend x y enum).1.next = h.next := by
    unfold Heap.extend at hs ⊢
    simp only [] at hs ⊢
    split at hs
    · cases hs
    · split at hs
      · cases hs
      · split at hs
        · cases hs
        · rename_i h1 _ _ _ h3
          simp only [if_neg h1, if_neg h3]
          exact ⟨by simp, by simp [Function.update_of_ne (Ne.symm hxy)], trivial⟩
  obtain ⟨r1, r2, r3⟩ := hr
  obtain ⟨s, hs1⟩ := runAll_grows ops (h.extend x y enum).1 x (by omega)
  obtain ⟨t, ht1⟩ := runAll_grows ops (h.extend x y enum).1 y (by omega)
  have e1 : (h'.dbs x).records = (h.dbs x).records ++ (h.dbs y).records ++ s := by rw [← r1]; exact hs1
  have e2 : (h'.dbs y).records = (h.dbs y).records ++ t := by rw [← r2]; exact ht1
  simp only [Heap.value, e1, e2, List.length_map, List.map_append, List.append_assoc]
  rw [List.drop_left' (by simp), List.take_left' (by simp), List.take_left' (by simp)]

/-- The step changes no array and no list of labels. -/
def Op.Pure : Op D → Prop
  | .setArray _ _ => False
  | .setTags _ _ => False
  | _ => True

/-- **C235.** A program in which no array or list of labels is changed in place changes a database only by the
calls of its own methods. -/
theorem C235_frame (ops : List (Op D)) (h : Heap D) (x : ℕ) (hx : x < h.next)
    (ho : ∀ op ∈ ops, op.Pure ∧ ∀ a l, op ≠ .add x a l ∧ ∀ y e, op ≠ .extend x y e) :
    (runAll h ops).value x = h.value x := by
  induction ops generalizing h with
  | nil => rfl
  | cons op ops ih =>
    have hop := ho op (List.mem_cons_self ..)
    have hv : (op.run h).value x = h.value x := by
      cases op with
      | new n m d => simp [Op.run, Heap.new, Heap.value, Function.update_of_ne (show x ≠ h.next by omega)]
      | add y a l =>
        have hne : x ≠ y := fun e => (hop.2 a l).1 (by rw [e])
        exact (C235_add h y a l).2 x hne
      | extend y z e =>
        have hne : x ≠ y := fun e' => (hop.2 0 0).2 z e (by rw [e'])
        have := C235_extend h y z e
        revert this
        cases (h.value y).extend (h.value z) (e ((h.value y).occuring ++ (h.value z).occuring)) with
        | error er => intro hh; simp only [] at hh; simp only [Op.run, hh]
        | ok v => intro hh; simp only [] at hh; exact hh.2.2 x hne
      | setArray a d => exact absurd hop.1 (by simp [Op.Pure])
      | setTags a l => exact absurd hop.1 (by simp [Op.Pure])
    show (runAll (op.run h) ops).value x = _
    rw [ih (op.run h) (run_grows h op x hx).2 fun o hm => ho o (List.mem_cons_of_mem _ hm), hv]

/-- **C235.** A new database has no record, and remains so, with its name, markers and descriptions, whatever is done by
other calls than those of its own methods, the creation of further databases included; earlier databases are
unchanged. -/
theorem C235_new (h : Heap D) (name : Key) (markers : List Key) (desc : Desc) (ops : List (Op D))
    (ho : ∀ op ∈ ops, ∀ a l, op ≠ .add h.next a l ∧ ∀ y e, op ≠ .extend h.next y e) :
    (runAll (h.new name markers desc) ops).value h.next = ⟨name, markers, [], desc⟩ ∧
    ∀ z, z < h.next → (h.new name markers desc).value z = h.value z := by
  refine ⟨?_, fun z hz => by simp [Heap.new, Heap.value, Function.update_of_ne (show z ≠ h.next by omega)]⟩
  have key : ∀ (ops : List (Op D)) (g : Heap D), h.next < g.next → g.dbs h.next = ⟨name, markers, [], desc⟩ →
      (∀ op ∈ ops, ∀ a l, op ≠ .add h.next a l ∧ ∀ y e, op ≠ .extend h.next y e) →
      (runAll g ops).dbs h.next = ⟨name, markers, [], desc⟩ := by
    intro ops
    induction ops with
    | nil => exact fun g _ hg _ => hg
    | cons op ops ih =>
      intro g hlt hg hop
      have hop' := hop op (List.mem_cons_self ..)
      refine ih (op.run g) (run_grows g op _ hlt).2 ?_ fun o hm => hop o (List.mem_cons_of_mem _ hm)
      cases op with
      | new n m d =>
        show Function.update g.dbs g.next _ h.next = _
        rw [Function.update_of_ne (by omega), hg]
      | add y a l =>
        have hne : h.next ≠ y := fun e => (hop' a l).1 (by rw [e])
        show Function.update g.dbs y _ h.next = _
        rw [Function.update_of_ne hne, hg]
      | extend y z e =>
        have hne : h.next ≠ y := fun e' => (hop' 0 0).2 z e (by rw [e'])
        show (g.extend y z e).1.dbs h.next = _
        unfold Heap.extend
        simp only []
        split_ifs
        · exact hg
        · split
          · exact hg
          · split_ifs
            · exact hg
            · show Function.update g.dbs y _ h.next = _
              rw [Function.update_of_ne hne, hg]
      | setArray a d => exact hg
      | setTags a l => exact hg
  have hd := key ops (h.new name markers desc) (by show h.next < h.next + 1; omega) (by simp [Heap.new]) ho
  unfold Heap.value
  rw [hd]
  rfl

/-- Two databases with one record each. -/
def exHeap : Heap ℕ :=
  ⟨fun a => a + 10, fun _ => [.int 0], fun x => ⟨[], [], [(x, x)], .list [[]]⟩, 2⟩

example : (exHeap.extend 0 1 id).2 = .ok () := by decide +kernel

/-- Two databases are created, and a record is added to the second one. -/
example : (((exHeap.new [] [] .none).new [] [] .none).add 3 5 5).value 2 = ⟨[], [], [], .none⟩ :=
  (C235_new exHeap [] [] .none [.new [] [] .none, .add 3 5 5] (by
    intro op hop a l
    simp only [List.mem_cons, List.not_mem_nil, or_false] at hop
    rcases hop with rfl | rfl
    · exact ⟨by simp, by simp⟩
    · exact ⟨by simp [exHeap], by simp⟩)).1

/-- The array of the second database is changed after the first was extended. -/
example : ((runAll (exHeap.extend 0 1 id).1 [.setArray 1 7]).value 0).records = [(10, [.int 0]), (7, [.int 0])] := by
  decide +kernel

example : ((exHeap.extend 0 0 id).1.value 0).records = [(10, [.int 0]), (10, [.int 0])] := by decide +kernel

end Verif.Motion.H
