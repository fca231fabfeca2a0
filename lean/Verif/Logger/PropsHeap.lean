import Verif.Logger.Heap
import Verif.Logger.Props

/-!
# Property C209: logs which share runs
-/

namespace Verif.Logger.H

open Verif Heap

variable {P A : Type}

/-- The keys of runs of two logs are the same. -/
def SameKeys (h : Heap P A) (l m : ℕ) : Prop := SameSet (h.logs m).expKeys (h.logs l).expKeys

theorem append_same {h : Heap P A} {l m : ℕ} (hk : SameKeys h l m) :
    h.append l m = (h.setLog l { h.logs l with exps := (h.logs l).exps ++ (h.logs m).exps }, .ok ()) := by
  unfold Heap.append
  rw [if_pos ⟨fun k hk' => (hk k).2 hk', fun k hk' => (hk k).1 hk'⟩]

theorem append_other {h : Heap P A} {l m : ℕ} (hk : ¬ SameKeys h l m) : h.append l m = (h, .error .assertionError) := by
  unfold Heap.append
  rw [if_neg]
  rintro ⟨h1, h2⟩
  exact hk fun k => ⟨fun a => h2 k a, fun a => h1 k a⟩

/-- The runs of `l0` after those of the logs `ls` were added one after another: runs which are added again and again
when `l0` is among them. -/
def merged (exps : ℕ → List ℕ) (l0 : ℕ) : List ℕ → List ℕ → List ℕ
  | acc, [] => acc
  | acc, l :: ls => merged exps l0 (acc ++ if l = l0 then acc else exps l) ls

theorem merged_ne (exps : ℕ → List ℕ) (l0 : ℕ) (acc ls : List ℕ) (h : l0 ∉ ls) :
    merged exps l0 acc ls = acc ++ (ls.map exps).flatten := by
  induction ls generalizing acc with
  | nil => simp [merged]
  | cons l ls ih =>
    rw [List.mem_cons, not_or] at h
    unfold merged
    rw [if_neg (Ne.symm h.1), ih _ h.2]
    simp

theorem mergeLoop_ok (h : Heap P A) (l0 : ℕ) (pre : List ℕ) (hk : ∀ l ∈ pre, SameKeys h l0 l) (post : List ℕ) :
    h.mergeLoop l0 (pre ++ post) =
      (h.setLog l0 { h.logs l0 with exps := merged (fun l => (h.logs l).exps) l0 (h.logs l0).exps pre }).mergeLoop l0 post := by
  induction pre generalizing h with
  | nil =>
    have : h.setLog l0 { h.logs l0 with exps := merged (fun l => (h.logs l).exps) l0 (h.logs l0).exps [] } = h := by
      unfold Heap.setLog merged
      simp
    rw [this]
    rfl
  | cons l pre ih =>
    rw [List.cons_append, Heap.mergeLoop, append_same (hk l List.mem_cons_self)]
    simp only []
    have hlogs : ∀ o m, (h.setLog l0 o).logs m = if m = l0 then o else h.logs m := by
      intro o m
      change Function.update h.logs l0 o m = _
      rw [Function.update_apply]
    rw [ih]
    · congr 1
      unfold Heap.setLog
      simp only [Function.update_idem, Function.update_self]
      congr 2
      have hm : ∀ (e e' : ℕ → List ℕ) (acc ls : List ℕ), (∀ x, x ≠ l0 → e x = e' x) →
          merged e l0 acc ls = merged e' l0 acc ls := by
        intro e e' acc ls he
        induction ls generalizing acc with
        | nil => rfl
        | cons x ls ih =>
          unfold merged
          by_cases hx : x = l0
          · rw [if_pos hx, if_pos hx, ih]
          · rw [if_neg hx, if_neg hx, he x hx, ih]
      rw [hm _ (fun l => (h.logs l).exps) _ _ fun x hx => by simp [Function.update_of_ne hx]]
      conv_rhs => unfold merged
      congr 2
      split_ifs with hl
      · rw [hl]
      · rfl
    · intro x hx k
      have hkx := hk x (List.mem_cons_of_mem _ hx) k
      rw [hlogs, hlogs, if_pos rfl]
      split_ifs with e
      · exact Iff.rfl
      · exact hkx

theorem merge_ok (h : Heap P A) (l0 : ℕ) (ls : List ℕ) (hk : ∀ l ∈ ls, SameKeys h l0 l) :
    h.merge (l0 :: ls) =
      (h.setLog l0 { h.logs l0 with exps := merged (fun l => (h.logs l).exps) l0 (h.logs l0).exps ls }, .ok l0) := by
  have e := mergeLoop_ok h l0 ls hk []
  rw [List.append_nil] at e
  rw [Heap.merge, e]
  rfl

/-- **C209.** Merging logs with equal run keys, the first of which is not given again: the first log itself is
returned, with the dictionaries of the runs of all of them in order.  No dictionary and no other log is changed. -/
theorem C209_merge (h : Heap P A) (l0 : ℕ) (ls : List ℕ) (hk : ∀ l ∈ ls, SameKeys h l0 l) (hne : l0 ∉ ls) :
    ∃ h', h.merge (l0 :: ls) = (h', .ok l0) ∧ h'.runs = h.runs ∧ (∀ m, m ≠ l0 → h'.logs m = h.logs m) ∧
      (h'.logs l0).exps = ((l0 :: ls).map fun l => (h.logs l).exps).flatten ∧
      mergeExperiments ((l0 :: ls).map h.value) = .ok (h'.value l0) := by
  have hexps := merged_ne (fun l => (h.logs l).exps) l0 (h.logs l0).exps ls hne
  refine ⟨_, merge_ok h l0 ls hk, rfl, fun m hm => Function.update_of_ne hm _ _, ?_, ?_⟩
  · change (Function.update h.logs l0 _ l0).exps = _
    rw [Function.update_self, List.map_cons, List.flatten_cons]
    exact hexps
  · rw [List.map_cons, C75_merge]
    · unfold Heap.value Heap.setLog
      simp only [Function.update_self]
      congr 2
      rw [hexps]
      simp only [List.map_cons, List.flatten_cons, List.map_append, List.map_flatten, List.map_map]
      rfl
    · intro l hl
      obtain ⟨x, hx, rfl⟩ := List.mem_map.1 hl
      exact hk x hx

/-- **C209.** Merging no logs raises ValueError and changes nothing. -/
theorem C209_merge_empty (h : Heap P A) : h.merge [] = (h, .error .valueError) := rfl

/-- **C209.** When the log at some place has other run keys, `AssertionError` is raised, and the first log has kept
the runs of the logs before that place. -/
theorem C209_merge_fails (h : Heap P A) (l0 : ℕ) (pre : List ℕ) (bad : ℕ) (post : List ℕ)
    (hk : ∀ l ∈ pre, SameKeys h l0 l) (hbad : ¬ SameKeys h l0 bad) (hne : l0 ∉ pre) :
    ∃ h', h.merge (l0 :: (pre ++ bad :: post)) = (h', .error .assertionError) ∧ h'.runs = h.runs ∧
      (∀ m, m ≠ l0 → h'.logs m = h.logs m) ∧
      (h'.logs l0).exps = ((l0 :: pre).map fun l => (h.logs l).exps).flatten := by
  have e := mergeLoop_ok h l0 pre hk (bad :: post)
  have hexps := merged_ne (fun l => (h.logs l).exps) l0 (h.logs l0).exps pre hne
  generalize hh : h.setLog l0 { h.logs l0 with exps := merged (fun l => (h.logs l).exps) l0 (h.logs l0).exps pre } = h' at e
  have hlogs : ∀ m, m ≠ l0 → h'.logs m = h.logs m := fun m hm => by rw [← hh]; exact Function.update_of_ne hm _ _
  have hl0 : h'.logs l0 = { h.logs l0 with exps := merged (fun l => (h.logs l).exps) l0 (h.logs l0).exps pre } := by
    rw [← hh]; exact Function.update_self ..
  have hb : ¬ SameKeys h' l0 bad := by
    unfold SameKeys at hbad ⊢
    have hne' : bad ≠ l0 := by rintro rfl; exact hbad fun k => Iff.rfl
    rw [hlogs bad hne', hl0]
    exact hbad
  refine ⟨h', ?_, by rw [← hh]; rfl, hlogs, ?_⟩
  · rw [Heap.merge, e, Heap.mergeLoop, append_other hb]
  · rw [hl0, List.map_cons, List.flatten_cons]
    exact hexps

/-- **C209.** Merging a log with itself `n` times gives its runs `2 ^ n` times. -/
theorem C209_merge_itself (h : Heap P A) (l0 n : ℕ) :
    ∃ h', h.merge (l0 :: List.replicate n l0) = (h', .ok l0) ∧
      (h'.logs l0).exps = (List.replicate (2 ^ n) (h.logs l0).exps).flatten := by
  refine ⟨_, merge_ok h l0 (List.replicate n l0) (fun l hl => by
    rw [List.eq_of_mem_replicate hl]; exact fun k => Iff.rfl), ?_⟩
  change (Function.update h.logs l0 _ l0).exps = _
  rw [Function.update_self]
  have hm : ∀ (n m : ℕ) (r : List ℕ), merged (fun l => (h.logs l).exps) l0 (List.replicate m r).flatten (List.replicate n l0)
      = (List.replicate (m * 2 ^ n) r).flatten := by
    intro n
    induction n with
    | zero => intro m r; simp [merged]
    | succ n ih =>
      intro m r
      rw [List.replicate_succ]
      unfold merged
      rw [if_pos rfl, ← List.flatten_append, ← List.replicate_add, ih]
      congr 2
      ring
  have := hm n 1 (h.logs l0).exps
  simp only [List.replicate_one, List.flatten_singleton, one_mul] at this
  exact this

/-- **C209.** Merging the same logs again adds the runs of all but the first one a second time. -/
theorem C209_merge_again (h : Heap P A) (l0 : ℕ) (ls : List ℕ) (hk : ∀ l ∈ ls, SameKeys h l0 l) (hne : l0 ∉ ls) :
    ∃ h', ((h.merge (l0 :: ls)).1.merge (l0 :: ls)) = (h', .ok l0) ∧
      (h'.logs l0).exps = (h.logs l0).exps ++ (ls.map fun l => (h.logs l).exps).flatten ++
        (ls.map fun l => (h.logs l).exps).flatten := by
  obtain ⟨h1, e1, _, e2, e3, _⟩ := C209_merge h l0 ls hk hne
  have hkeys : ∀ m, (h1.logs m).expKeys = (h.logs m).expKeys := by
    intro m
    by_cases hm : m = l0
    · subst hm
      have : h1 = h.setLog m { h.logs m with exps := merged (fun l => (h.logs l).exps) m (h.logs m).exps ls } := by
        rw [merge_ok h m ls hk] at e1
        exact (Prod.mk.inj e1).1.symm
      rw [this]
      change (Function.update h.logs m _ m).expKeys = _
      rw [Function.update_self]
    · rw [e2 m hm]
  obtain ⟨h2, f1, _, _, f3, _⟩ := C209_merge h1 l0 ls (fun l hl k => by
    rw [hkeys, hkeys]; exact hk l hl k) hne
  rw [e1]
  refine ⟨h2, f1, ?_⟩
  rw [f3, List.map_cons, List.flatten_cons, e3, List.map_cons, List.flatten_cons]
  congr 2
  exact List.map_congr_left fun l hl => by rw [e2 l (by rintro rfl; exact hne hl)]

/-! ### Values stored -/

/-- **C209.** `store` raises IndexError without run and ValueError when the last run has the key, nothing being
changed.  Otherwise the dictionary of the last run has the new value in all logs which have this run, other
dictionaries are the same, and the set of keys of this log only is changed. -/
theorem C209_store (h : Heap P A) (l : ℕ) (k : Key) (v : Val P A) :
    ((h.logs l).exps = [] → h.store l k v = (h, .error .indexError)) ∧
    ∀ r, (h.logs l).exps.getLast? = some r →
      ((dictGet? (h.runs r) k).isSome → h.store l k v = (h, .error .valueError)) ∧
      (dictGet? (h.runs r) k = none → ∃ h', h.store l k v = (h', .ok ()) ∧
        (∀ q, h'.runs q = if q = r then dictSet (h.runs r) k v else h.runs q) ∧
        (∀ m, (h'.logs m).exps = (h.logs m).exps ∧ (h'.logs m).glob = (h.logs m).glob ∧
          (h'.logs m).resultKeys = (h.logs m).resultKeys ∧ (h'.logs m).filename = (h.logs m).filename) ∧
        (∀ m, m ≠ l → (h'.logs m).expKeys = (h.logs m).expKeys) ∧
        (∀ k', k' ∈ (h'.logs l).expKeys ↔ k' = k ∨ k' ∈ (h.logs l).expKeys)) := by
  unfold Heap.store
  refine ⟨fun he => by rw [he]; rfl, fun r hr => ?_⟩
  rw [hr]
  simp only []
  refine ⟨fun hs => by rw [if_pos hs], fun hn => ?_⟩
  rw [if_neg (by rw [hn]; simp)]
  refine ⟨_, rfl, fun q => by simp [Function.update_apply], fun m => ?_, fun m hm => ?_, fun k' => ?_⟩
  · simp only [Heap.setLog, Function.update_apply]
    split_ifs with e
    · subst e; simp
    · simp
  · simp [Heap.setLog, Function.update_of_ne hm]
  · simp only [Heap.setLog, Function.update_self]
    unfold setAdd
    split_ifs with hk
    · constructor
      · exact .inr
      · rintro (rfl | h)
        · exact hk
        · exact h
    · simp [or_comm]

/-- Runs of a log are not those of another one, nor twice in the same one. -/
structure Distinct (h : Heap P A) : Prop where
  old : ∀ l, ∀ r ∈ (h.logs l).exps, r < h.nextRun
  once : ∀ l, (h.logs l).exps.Nodup
  apart : ∀ l m, l ≠ m → ∀ r ∈ (h.logs l).exps, r ∉ (h.logs m).exps

/-- **C209.** While no runs are shared, `store` has the effect of the model on values, on this log only. -/
theorem C209_store_distinct (h : Heap P A) (hd : Distinct h) (l : ℕ) (k : Key) (v : Val P A) :
    Distinct (h.store l k v).1 ∧ (∀ m, m ≠ l → (h.store l k v).1.value m = h.value m) ∧
    (∀ e, (h.store l k v).2 = .error e → (h.value l).store k v = .error e ∧ (h.store l k v).1 = h) ∧
    ((h.store l k v).2 = .ok () → (h.value l).store k v = .ok ((h.store l k v).1.value l)) := by
  have hlast : (h.value l).exps.getLast? = (h.logs l).exps.getLast?.map h.runs := by
    unfold Heap.value
    rw [List.getLast?_map]
  unfold Logger.store
  rw [hlast]
  unfold Heap.store
  cases hr : (h.logs l).exps.getLast? with
  | none =>
    refine ⟨hd, fun _ _ => rfl, fun e he => ⟨?_, rfl⟩, by simp⟩
    exact (Except.error.inj he) ▸ rfl
  | some r =>
    simp only [Option.map_some]
    split_ifs with hs
    · refine ⟨hd, fun _ _ => rfl, fun e he => ⟨?_, rfl⟩, by simp⟩
      exact (Except.error.inj he) ▸ rfl
    · have hmem : r ∈ (h.logs l).exps := List.mem_of_getLast? hr
      have hexps : ∀ m, (Function.update h.logs l { h.logs l with expKeys := setAdd (h.logs l).expKeys k } m).exps
          = (h.logs m).exps := by
        intro m
        by_cases e : m = l
        · subst e; rw [Function.update_self]
        · rw [Function.update_of_ne e]
      refine ⟨⟨fun m => ?_, fun m => ?_, fun m m' hm => ?_⟩, fun m hm => ?_, by simp, fun _ => ?_⟩
      · change ∀ r ∈ (Function.update h.logs l _ m).exps, _
        rw [hexps]; exact hd.old m
      · change (Function.update h.logs l _ m).exps.Nodup
        rw [hexps]; exact hd.once m
      · change ∀ r ∈ (Function.update h.logs l _ m).exps, r ∉ (Function.update h.logs l _ m').exps
        rw [hexps, hexps]; exact hd.apart m m' hm
      · unfold Heap.value Heap.setLog
        simp only [Function.update_of_ne hm]
        congr 1
        refine List.map_congr_left fun q hq => ?_
        rw [Function.update_of_ne]
        rintro rfl
        exact hd.apart m l hm q hq hmem
      · unfold Heap.value Heap.setLog
        simp only [Function.update_self]
        have hsplit : (h.logs l).exps = (h.logs l).exps.dropLast ++ [r] := by
          have hne : (h.logs l).exps ≠ [] := by intro hc; rw [hc] at hr; cases hr
          rw [List.getLast?_eq_some_getLast hne] at hr
          rw [← Option.some.inj hr, List.dropLast_append_getLast]
        congr 2
        conv_rhs => rw [hsplit]
        rw [List.map_append, List.map_cons, List.map_nil, Function.update_self, ← List.map_dropLast]
        congr 1
        refine List.map_congr_left fun q hq => ?_
        rw [Function.update_of_ne]
        rintro rfl
        have := hd.once l
        rw [hsplit, List.nodup_append] at this
        exact this.2.2 q hq q (by simp) rfl

/-- **C209.** `new_run` has the effect of the model on values and shares nothing. -/
theorem C209_new_run (h : Heap P A) (hold : ∀ l, ∀ r ∈ (h.logs l).exps, r < h.nextRun) (l : ℕ) :
    (h.newRun l).value l = (h.value l).newRun ∧ (∀ m, m ≠ l → (h.newRun l).value m = h.value m) ∧
    (Distinct h → Distinct (h.newRun l)) := by
  have hruns : ∀ m, (h.logs m).exps.map (Function.update h.runs h.nextRun []) = (h.logs m).exps.map h.runs := fun m =>
    List.map_congr_left fun q hq => Function.update_of_ne (hold m q hq).ne _ _
  refine ⟨?_, fun m hm => ?_, fun hd => ?_⟩
  · unfold Heap.value Heap.newRun Heap.setLog Logger.newRun
    simp only [Function.update_self, List.map_append, List.map_cons, List.map_nil]
    rw [hruns]
  · unfold Heap.value Heap.newRun Heap.setLog
    simp only [Function.update_of_ne hm]
    rw [hruns]
  · have hexps : ∀ m, ((h.newRun l).logs m).exps = if m = l then (h.logs l).exps ++ [h.nextRun] else (h.logs m).exps := by
      intro m
      unfold Heap.newRun Heap.setLog
      simp only [Function.update_apply]
      split_ifs <;> rfl
    have hfresh : ∀ m, h.nextRun ∉ (h.logs m).exps := fun m hm => absurd (hold m _ hm) (lt_irrefl _)
    refine ⟨fun m r hr => ?_, fun m => ?_, fun m m' hm r hr hr' => ?_⟩
    · change r < h.nextRun + 1
      rw [hexps] at hr
      split_ifs at hr with e
      · rcases List.mem_append.1 hr with hr | hr
        · exact (hold l r hr).trans (Nat.lt_succ_self _)
        · rw [List.mem_singleton.1 hr]; exact Nat.lt_succ_self _
      · exact (hold m r hr).trans (Nat.lt_succ_self _)
    · rw [hexps]
      split_ifs with e
      · rw [List.nodup_append]
        refine ⟨hd.once l, by simp, fun a ha b hb => ?_⟩
        rw [List.mem_singleton.1 hb]
        exact (hold l a ha).ne
      · exact hd.once m
    · rw [hexps] at hr hr'
      split_ifs at hr hr' with e e'
      · exact hm (e.trans e'.symm)
      · rcases List.mem_append.1 hr with hr | hr
        · exact hd.apart l m' (by rintro rfl; exact e' rfl) r hr hr'
        · rw [List.mem_singleton.1 hr] at hr'; exact hfresh m' hr'
      · rcases List.mem_append.1 hr' with hr' | hr'
        · exact hd.apart m l e r hr hr'
        · rw [List.mem_singleton.1 hr'] at hr; exact hfresh m hr
      · exact hd.apart m m' hm r hr hr'

/-- **C209.** `store_result` fails as `store` does, and otherwise adds the key to the result keys of this log only. -/
theorem C209_store_result (h : Heap P A) (l : ℕ) (k : Key) (v : Val P A) :
    (∀ e, (h.store l k v).2 = .error e → h.storeResult l k v = (h, .error e)) ∧
    ((h.store l k v).2 = .ok () → (h.storeResult l k v).2 = .ok () ∧
      (h.storeResult l k v).1.runs = (h.store l k v).1.runs ∧
      (∀ m, m ≠ l → (h.storeResult l k v).1.logs m = (h.store l k v).1.logs m) ∧
      (∀ k', k' ∈ ((h.storeResult l k v).1.logs l).resultKeys ↔ k' = k ∨ k' ∈ (h.logs l).resultKeys) ∧
      ((h.storeResult l k v).1.logs l).exps = (h.logs l).exps ∧
      ((h.storeResult l k v).1.logs l).expKeys = ((h.store l k v).1.logs l).expKeys ∧
      (Distinct h → (h.value l).storeResult k v = .ok ((h.storeResult l k v).1.value l))) := by
  have hs := C209_store h l k v
  have hv := fun hd => (C209_store_distinct h hd l k v).2.2.2
  unfold Heap.storeResult
  rcases hr : (h.logs l).exps.getLast? with _ | r
  · rw [hs.1 (List.getLast?_eq_none_iff.1 hr)]
    exact ⟨fun e he => by rw [Except.error.inj he], fun h => by cases h⟩
  · rcases hd : dictGet? (h.runs r) k with _ | w
    · obtain ⟨h', e, _, f3, _, _⟩ := (hs.2 r hr).2 hd
      rw [e] at hv ⊢
      refine ⟨fun e he => (by cases he), fun _ => ⟨rfl, rfl, fun m hm => Function.update_of_ne hm _ _, fun k' => ?_, ?_, ?_, fun hd' => ?_⟩⟩
      · change k' ∈ (Function.update h'.logs l _ l).resultKeys ↔ _
        rw [Function.update_self]
        change k' ∈ setAdd (h'.logs l).resultKeys k ↔ _
        rw [(f3 l).2.2.1]
        unfold setAdd
        split_ifs with hk
        · exact ⟨.inr, fun h => h.elim (fun e => e ▸ hk) id⟩
        · simp [or_comm]
      · change (Function.update h'.logs l _ l).exps = _
        rw [Function.update_self]
        exact (f3 l).1
      · change (Function.update h'.logs l _ l).expKeys = _
        rw [Function.update_self]
      · unfold Logger.storeResult
        rw [hv hd' rfl]
        unfold Heap.value Heap.setLog
        simp only [Function.update_self]
        rfl
    · rw [(hs.2 r hr).1 (by rw [hd]; rfl)]
      exact ⟨fun e he => by rw [Except.error.inj he], fun h => by cases h⟩

/-- **C209.** `store_global` changes the dictionary of this log only. -/
theorem C209_store_global (h : Heap P A) (l : ℕ) (k : Key) (v : Val P A) :
    (h.storeGlobal l k v).value l = (h.value l).storeGlobal k v ∧
    (∀ m, m ≠ l → (h.storeGlobal l k v).value m = h.value m) ∧ (h.storeGlobal l k v).runs = h.runs := by
  refine ⟨?_, fun m hm => ?_, rfl⟩
  · unfold Heap.storeGlobal Heap.value Heap.setLog Logger.storeGlobal
    simp only [Function.update_self]
  · unfold Heap.storeGlobal Heap.value Heap.setLog
    simp only [Function.update_of_ne hm]

/-- States of programs which make logs and runs and store values, but merge no logs. -/
inductive Reach : Heap P A → Prop
  | empty : Reach ⟨fun _ => [], 0, fun _ => ⟨[], [], [], [], none⟩, 0⟩
  | new {h : Heap P A} (r : Reach h) (f : Option Key) : Reach (h.new f).1
  | newRun {h : Heap P A} (r : Reach h) {l : ℕ} (hl : l < h.nextLog) : Reach (h.newRun l)
  | storeGlobal {h : Heap P A} (r : Reach h) (l : ℕ) (k : Key) (v : Val P A) : Reach (h.storeGlobal l k v)
  | store {h : Heap P A} (r : Reach h) (l : ℕ) (k : Key) (v : Val P A) : Reach (h.store l k v).1
  | storeResult {h : Heap P A} (r : Reach h) (l : ℕ) (k : Key) (v : Val P A) : Reach (h.storeResult l k v).1

theorem Distinct.of_exps {h h' : Heap P A} (hd : Distinct h) (hn : h'.nextRun = h.nextRun)
    (he : ∀ m, (h'.logs m).exps = (h.logs m).exps ∨ (h'.logs m).exps = []) : Distinct h' := by
  have hm : ∀ m r, r ∈ (h'.logs m).exps → r ∈ (h.logs m).exps := by
    intro m r hr
    rcases he m with e | e
    · rwa [e] at hr
    · rw [e] at hr; cases hr
  refine ⟨fun m r hr => hn ▸ hd.old m r (hm m r hr), fun m => ?_, fun m m' hne r hr hr' =>
    hd.apart m m' hne r (hm m r hr) (hm m' r hr')⟩
  rcases he m with e | e
  · rw [e]; exact hd.once m
  · rw [e]; exact List.nodup_nil

/-- **C209.** Without merges no runs are shared: all of these programs have the effects of the model on values. -/
theorem C209_reach {h : Heap P A} (r : Reach h) : Distinct h := by
  induction r with
  | empty => exact ⟨fun _ _ h => (by cases h), fun _ => List.nodup_nil, fun _ _ _ _ h => (by cases h)⟩
  | @new h _ f ih =>
    refine ih.of_exps rfl fun m => ?_
    by_cases e : m = h.nextLog
    · right
      change (Function.update h.logs h.nextLog _ m).exps = _
      rw [e, Function.update_self]
    · left
      change (Function.update h.logs h.nextLog _ m).exps = _
      rw [Function.update_of_ne e]
  | newRun _ _ ih => exact (C209_new_run _ ih.old _).2.2 ih
  | @storeGlobal h _ l k v ih =>
    refine ih.of_exps rfl fun m => .inl ?_
    change (Function.update h.logs l _ m).exps = _
    by_cases e : m = l
    · rw [e, Function.update_self]
    · rw [Function.update_of_ne e]
  | store _ l k v ih => exact (C209_store_distinct _ ih l k v).1
  | @storeResult h _ l k v ih =>
    have hd := (C209_store_distinct _ ih l k v).1
    unfold Heap.storeResult
    rcases hs : h.store l k v with ⟨h', e | u⟩
    · rw [hs] at hd; exact hd
    · rw [hs] at hd
      refine hd.of_exps rfl fun m => .inl ?_
      change (Function.update h'.logs l _ m).exps = _
      by_cases e : m = l
      · rw [e, Function.update_self]
      · rw [Function.update_of_ne e]

/-- **C209.** A new log is empty; the others are the same. -/
theorem C209_new (h : Heap P A) (f : Option Key) :
    (h.new f).1.value (h.new f).2 = Logger.new f ∧ ∀ m, m < h.nextLog → (h.new f).1.value m = h.value m := by
  refine ⟨?_, fun m hm => ?_⟩
  · unfold Heap.value Heap.new Logger.new
    simp only [Function.update_self, List.map_nil]
  · unfold Heap.value Heap.new
    simp only [Function.update_of_ne hm.ne]

/-- **C209.** After a merge, a value stored with a new key in the last run of the merged log is in the last run of the
last log as well, but its key is not in the keys of that log; and a value stored in the last log is in the merged
one. -/
theorem C209_shared (h : Heap P A) (l0 : ℕ) (pre : List ℕ) (l : ℕ) (hk : ∀ x ∈ pre ++ [l], SameKeys h l0 x)
    (hne : l0 ∉ pre ++ [l]) (r : ℕ) (hr : (h.logs l).exps.getLast? = some r) (k : Key) (v : Val P A)
    (hn : dictGet? (h.runs r) k = none) :
    ∃ h', h.merge (l0 :: (pre ++ [l])) = (h', .ok l0) ∧
      ((h'.store l0 k v).2 = .ok () ∧ ((h'.store l0 k v).1.value l0).getLastValue k = .ok v ∧
        ((h'.store l0 k v).1.value l).getLastValue k = .ok v ∧
        (k ∉ (h.logs l).expKeys → ¬ Inv ((h'.store l0 k v).1.value l))) ∧
      ((h'.store l k v).2 = .ok () ∧ ((h'.store l k v).1.value l).getLastValue k = .ok v ∧
        ((h'.store l k v).1.value l0).getLastValue k = .ok v ∧
        (k ∉ (h.logs l0).expKeys → ¬ Inv ((h'.store l k v).1.value l0))) := by
  obtain ⟨h', e1, e2, e3, e4, _⟩ := C209_merge h l0 (pre ++ [l]) hk hne
  have hll : l ≠ l0 := by
    rintro rfl
    exact hne (by simp)
  have hkeys0 : (h'.logs l0).expKeys = (h.logs l0).expKeys := by
    rw [merge_ok h l0 (pre ++ [l]) hk] at e1
    rw [← (Prod.mk.inj e1).1]
    change (Function.update h.logs l0 _ l0).expKeys = _
    rw [Function.update_self]
  have hr1 : (h'.logs l).exps.getLast? = some r := by rw [e3 l hll]; exact hr
  have hr0 : (h'.logs l0).exps.getLast? = some r := by
    rw [e4, List.map_cons, List.map_append, List.flatten_cons, List.flatten_append]
    simp only [List.map_cons, List.map_nil, List.flatten_cons, List.flatten_nil, List.append_nil]
    have hx : (h.logs l).exps ≠ [] := by rintro hx; rw [hx] at hr; cases hr
    rw [List.getLast?_append_of_ne_nil _ (by simp [hx]), List.getLast?_append_of_ne_nil _ hx, hr]
  have hn' : dictGet? (h'.runs r) k = none := by rw [e2]; exact hn
  have key : ∀ x y, x ≠ y → (h'.logs x).exps.getLast? = some r → (h'.logs y).exps.getLast? = some r →
      (h'.store x k v).2 = .ok () ∧ ((h'.store x k v).1.value x).getLastValue k = .ok v ∧
        ((h'.store x k v).1.value y).getLastValue k = .ok v ∧
        (k ∉ (h'.logs y).expKeys → ¬ Inv ((h'.store x k v).1.value y)) := by
    intro x y hxy hx hy
    obtain ⟨h2, f1, f2, f3, f4, f5⟩ := ((C209_store h' x k v).2 r hx).2 hn'
    have hget : ∀ m, (h'.logs m).exps.getLast? = some r → (h2.value m).getLastValue k = .ok v := by
      intro m hm
      unfold Logger.getLastValue Heap.value
      simp only [(f3 m).1]
      rw [List.getLast?_map, hm]
      simp only [Option.map_some, f2, if_true]
      rw [dictGet?_set, if_pos rfl]
    rw [f1]
    refine ⟨rfl, hget x hx, hget y hy, fun hky hi => ?_⟩
    refine hky (f4 y (Ne.symm hxy) ▸ (hi.keys k).2 ⟨h2.runs r, ?_, ?_⟩)
    · change h2.runs r ∈ (h2.logs y).exps.map h2.runs
      rw [(f3 y).1]
      exact List.mem_map_of_mem (List.mem_of_getLast? hy)
    · rw [f2, if_pos rfl, ← dictGet?_isSome, dictGet?_set, if_pos rfl]
      rfl
  refine ⟨h', e1, ?_, ?_⟩
  · have := key l0 l (Ne.symm hll) hr0 hr1
    rw [e3 l hll] at this
    exact this
  · have := key l l0 hll hr1 hr0
    rw [hkeys0] at this
    exact this

end Verif.Logger.H
