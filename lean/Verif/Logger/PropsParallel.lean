import Verif.Logger.Props

/-!
# Property C190: logs saved at the same time

Processes which save their logs on the same disk write files in an order which the scheduler chooses.  A state of the
disk is given by the writes made so far, in order, each with the log it belongs to.
-/

namespace Verif.Logger

variable {P A ι : Type} [DecidableEq ι]

/-! ### Specification -/

/-- The writes of a log, in order. -/
def writesOf (sched : List (ι × Key × File P A)) (i : ι) : List (Key × File P A) :=
  (sched.filter fun x => x.1 = i).map Prod.snd

/-- Saves at the same time, at any moment: the writes of each log are the first ones of its save. -/
def AtTheSameTime (logs : ι → Logger P A) (sched : List (ι × Key × File P A)) : Prop :=
  ∀ i, ∃ ws, saveWrites (logs i) = .ok ws ∧ writesOf sched i <+: ws

/-- The log has been saved. -/
def Finished (logs : ι → Logger P A) (sched : List (ι × Key × File P A)) (i : ι) : Prop :=
  saveWrites (logs i) = .ok (writesOf sched i)

/-! ### Files of a log -/

theorem load_congr {fs fs' : FS P A} {f : Key} {setF np : Bool} (h1 : fs (f ++ ".json".toList) = fs' (f ++ ".json".toList))
    (h2 : np = false ∨ fs (f ++ ".npz".toList) = fs' (f ++ ".npz".toList)) : load fs f setF np = load fs' f setF np := by
  unfold load
  rw [h1]
  rcases fs' (f ++ ".json".toList) with _ | (d | _ | _) <;> try rfl
  rcases h2 with rfl | h2
  · simp only [Bool.and_false, Bool.false_eq_true, if_false]
  · rw [h2]

theorem writes_other (p : Key) (i : ι) (sched : List (ι × Key × File P A))
    (h : ∀ x ∈ sched, x.1 ≠ i → x.2.1 ≠ p) (fs fs' : FS P A) (hfs : fs p = fs' p) :
    fs.writes (sched.map Prod.snd) p = fs'.writes (writesOf sched i) p := by
  induction sched generalizing fs fs' with
  | nil => exact hfs
  | cons x sched ih =>
    have hx := h x List.mem_cons_self
    have ih := ih fun y hy => h y (List.mem_cons_of_mem _ hy)
    unfold writesOf at ih ⊢
    by_cases hi : x.1 = i
    · rw [List.filter_cons_of_pos (by simpa using hi)]
      refine ih _ _ ?_
      show (if p = x.2.1 then some x.2.2 else fs p) = if p = x.2.1 then some x.2.2 else fs' p
      rw [hfs]
    · rw [List.filter_cons_of_neg (by simpa using hi)]
      refine ih _ _ ?_
      show (if p = x.2.1 then some x.2.2 else fs p) = fs' p
      rw [if_neg (fun e => hx hi e.symm)]
      exact hfs

theorem npz_ne_json (f g : Key) : npzPath f ≠ g ++ ".json".toList := by
  intro h
  have h1 : ".npz".toList <:+ npzPath f := by
    unfold npzPath
    split_ifs with hs
    · exact hs
    · exact List.suffix_append _ _
  rw [h] at h1
  obtain ⟨t, ht⟩ := h1
  have := congrArg List.getLast? ht
  rw [show ".npz".toList = ['.', 'n', 'p'] ++ ['z'] from rfl, show ".json".toList = ['.', 'j', 's', 'o'] ++ ['n'] from rfl,
    ← List.append_assoc, ← List.append_assoc, List.getLast?_concat, List.getLast?_concat] at this
  exact absurd this (by decide)

theorem write_paths {l : Logger P A} {f : Key} (hf : l.filename = some f) {ws : List (Key × File P A)}
    (h : saveWrites l = .ok ws) {w : Key × File P A} (hw : w ∈ ws) : w.1 = npzPath f ∨ w.1 = f ++ ".json".toList := by
  unfold saveWrites at h
  rw [hf] at h
  simp only [] at h
  obtain rfl := Except.ok.inj h
  rcases List.mem_append.1 hw with hw | hw
  · split_ifs at hw with h0
    · rw [List.mem_singleton] at hw
      rw [hw]
      exact Or.inl rfl
    · cases hw
  · right
    rcases List.mem_cons.1 hw with rfl | hw
    · rfl
    · rw [List.mem_singleton] at hw
      rw [hw]

/-! ### Theorems -/

/-- **C190.** What is loaded from a file does not depend on what other logs write, at any moment, if their names are
different.  When arrays are loaded, no name must end with `.npz` (`C190_npz_name`). -/
theorem C190_alone (logs : ι → Logger P A) (f : ι → Key) (hf : ∀ i, (logs i).filename = some (f i))
    (hinj : ∀ i j, f i = f j → i = j) (np : Bool) (hnpz : np = false ∨ ∀ i, ¬ (".npz".toList <:+ f i)) (fs : FS P A)
    (sched : List (ι × Key × File P A)) (hs : AtTheSameTime logs sched) (i : ι) (setF : Bool) :
    load (fs.writes (sched.map Prod.snd)) (f i) setF np = load (fs.writes (writesOf sched i)) (f i) setF np := by
  have hpath : ∀ x ∈ sched, x.2.1 = npzPath (f x.1) ∨ x.2.1 = f x.1 ++ ".json".toList := by
    intro x hx
    obtain ⟨ws, h1, h2⟩ := hs x.1
    refine write_paths (hf x.1) h1 (h2.subset ?_)
    unfold writesOf
    exact List.mem_map_of_mem (List.mem_filter.2 ⟨hx, by simp⟩)
  refine load_congr (writes_other _ i sched ?_ _ _ rfl) ?_
  · intro x hx hne he
    rcases hpath x hx with h | h
    · rw [h] at he
      exact npz_ne_json _ _ he
    · rw [h] at he
      exact hne (hinj _ _ (List.append_cancel_right he))
  · rcases hnpz with h | h
    · exact Or.inl h
    · right
      refine writes_other _ i sched ?_ _ _ rfl
      intro x hx hne he
      rcases hpath x hx with h' | h'
      · rw [h'] at he
        unfold npzPath at he
        rw [if_neg (h _)] at he
        exact hne (hinj _ _ (List.append_cancel_right he))
      · rw [h'] at he
        refine npz_ne_json (f i) (f x.1) ?_
        unfold npzPath
        rw [if_neg (h _), he]

/-- **C190.** Once a log has been saved, it can be loaded, whatever others are saved at the same time. -/
theorem C190_finished (logs : ι → Logger P A) (f : ι → Key) (hf : ∀ i, (logs i).filename = some (f i))
    (hinj : ∀ i j, f i = f j → i = j) (hnpz : ∀ i, ¬ (".npz".toList <:+ f i)) (fs : FS P A)
    (sched : List (ι × Key × File P A)) (hs : AtTheSameTime logs sched) (i : ι) (hfin : Finished logs sched i)
    (hwf : WF (logs i)) (setF : Bool) :
    ∃ l', load (fs.writes (sched.map Prod.snd)) (f i) setF true = .ok l' ∧
      SameDict l'.glob (logs i).glob ∧ List.Forall₂ SameDict l'.exps (logs i).exps ∧ l'.expKeys = (logs i).expKeys ∧
      (l'.filename = if setF then some (f i) else none) := by
  obtain ⟨fs', l', h1, h2, h3, h4, h5, h6, -⟩ := C72_save_load fs (logs i) (f i) setF hwf (hf i) (Or.inl (hnpz i))
  unfold Logger.save at h1
  rw [show saveWrites (logs i) = _ from hfin] at h1
  obtain rfl := Except.ok.inj h1
  exact ⟨l', (C190_alone logs f hf hinj true (Or.inr hnpz) fs sched hs i setF).trans h2, h3, h4, h5, h6⟩

/-- **C190.** Without arrays, names may be any different ones. -/
theorem C190_finished_plain (logs : ι → Logger P A) (f : ι → Key) (hf : ∀ i, (logs i).filename = some (f i))
    (hinj : ∀ i j, f i = f j → i = j) (fs : FS P A)
    (sched : List (ι × Key × File P A)) (hs : AtTheSameTime logs sched) (i : ι) (hfin : Finished logs sched i)
    (hwf : WF (logs i)) (setF : Bool) :
    ∃ l', load (fs.writes (sched.map Prod.snd)) (f i) setF false = .ok l' ∧
      PlainOf l'.glob (logs i).glob ∧ List.Forall₂ PlainOf l'.exps (logs i).exps ∧ l'.expKeys = (logs i).expKeys := by
  obtain ⟨fs', l', h1, h2, h3, h4, h5⟩ := C72_load_without_arrays fs (logs i) (f i) setF hwf (hf i)
  unfold Logger.save at h1
  rw [show saveWrites (logs i) = _ from hfin] at h1
  obtain rfl := Except.ok.inj h1
  exact ⟨l', (C190_alone logs f hf hinj false (Or.inl rfl) fs sched hs i setF).trans h2, h3, h4, h5⟩

/-- **C190.** A file which no log writes yet is loaded as before. -/
theorem C190_waiting (logs : ι → Logger P A) (f : ι → Key) (hf : ∀ i, (logs i).filename = some (f i))
    (hinj : ∀ i j, f i = f j → i = j) (hnpz : ∀ i, ¬ (".npz".toList <:+ f i)) (fs : FS P A)
    (sched : List (ι × Key × File P A)) (hs : AtTheSameTime logs sched) (i : ι) (hw : ∀ x ∈ sched, x.1 ≠ i)
    (setF np : Bool) : load (fs.writes (sched.map Prod.snd)) (f i) setF np = load fs (f i) setF np := by
  rw [C190_alone logs f hf hinj np (Or.inr hnpz) fs sched hs i setF]
  have : writesOf sched i = [] := by
    unfold writesOf
    rw [List.map_eq_nil_iff, List.filter_eq_nil_iff]
    intro x hx
    simpa using hw x hx
  rw [this]
  rfl

/-- **C190.** The condition on names is needed: after the saves, one after another, of a log named `a` and of a log named
`a.npz`, loading the first one gives the array of the second. -/
theorem C190_npz_name :
    ∃ (a b : Logger ℕ ℕ) (fs fs' : FS ℕ ℕ) (l : Logger ℕ ℕ), Reach a ∧ Reach b ∧ a.filename = some "a".toList ∧
      b.filename = some "a.npz".toList ∧ a.save (fun _ => none) = .ok fs ∧ b.save fs = .ok fs' ∧
      dictGet? a.glob "x".toList = some (.arr 1) ∧ load fs' "a".toList true true = .ok l ∧
      dictGet? l.glob "x".toList = some (.arr 2) :=
  ⟨⟨[("x".toList, .arr 1)], [], [], [], some "a".toList⟩, ⟨[("x".toList, .arr 2)], [], [], [], some "a.npz".toList⟩,
    _, _, ⟨[("x".toList, .arr 2)], [], [], [], some "a".toList⟩, .storeGlobal "x".toList (.arr 1) (.new _),
    .storeGlobal "x".toList (.arr 2) (.new _), rfl, rfl, rfl, rfl, rfl, rfl, rfl⟩

/-- **C190.** So are different names: when two logs with the same name are saved at the same time, what is loaded
afterwards may be neither of them. -/
theorem C190_same_name :
    ∃ (logs : Bool → Logger ℕ ℕ) (sched : List (Bool × Key × File ℕ ℕ)) (l : Logger ℕ ℕ),
      (∀ i, Reach (logs i) ∧ (logs i).filename = some "a".toList) ∧ AtTheSameTime logs sched ∧
      (∀ i, Finished logs sched i) ∧
      load (FS.writes (fun _ => none) (sched.map Prod.snd)) "a".toList true true = .ok l ∧
      ∀ i, ¬ SameDict l.glob (logs i).glob := by
  let log : ℕ → Logger ℕ ℕ := fun n =>
    ⟨[("n".toList, .plain n), ("x".toList, .arr n)], [], [], [], some "a".toList⟩
  let doc : ℕ → Doc ℕ := fun n => ⟨[("n".toList, n)], [], [], [], true⟩
  let json := "a.json".toList
  let npz : ℕ → Key × File ℕ ℕ := fun n => ("a.npz".toList, .npz [("glob_x".toList, n)])
  have hfin : ∀ i, Finished (fun b : Bool => log (if b then 1 else 0))
      [(true, npz 1), (false, npz 0), (false, json, .truncated), (false, json, .json (doc 0)), (true, json, .truncated),
        (true, json, .json (doc 1))] i := by
    rintro (_ | _) <;> rfl
  refine ⟨_, _, ⟨[("n".toList, .plain 1), ("x".toList, .arr 0)], [], [], [], some "a".toList⟩, ?_, ?_, hfin, rfl, ?_⟩
  · intro i
    exact ⟨.storeGlobal "x".toList (.arr _) (.storeGlobal "n".toList (.plain _) (.new _)), rfl⟩
  · exact fun i => ⟨_, hfin i, List.prefix_refl _⟩
  · rintro (_ | _) h
    · exact absurd (h "n".toList) (by decide)
    · exact absurd (h "x".toList) (by decide)

end Verif.Logger
