import Verif.Logger.Props

/-!
# C74, continued: a crash between the two files of a log with more runs
-/

namespace Verif.Logger

variable {P A : Type}

theorem loadStep_length (l : Logger P A) (t : Option ℕ) (k : Key) (a : A) :
    (∃ l', loadStep l (enc (t, k), a) = .ok l' ∧ l'.exps.length = l.exps.length ∧
      ∀ i, t = some i → i < l.exps.length) ∨
    (loadStep l (enc (t, k), a) = .error .indexError ∧ ∃ i, t = some i ∧ l.exps.length ≤ i) := by
  cases t with
  | none =>
    left
    refine ⟨l.storeGlobal k (.arr a), ?_, rfl, fun i h => by cases h⟩
    unfold loadStep
    simp only [splitFirst_glob]
    rw [if_pos trivial]
  | some i =>
    have hne : ¬ "exp".toList = "glob".toList := by decide
    by_cases hi : i < l.exps.length
    · left
      refine ⟨{ l with exps := l.exps.modify i fun d => dictSet d k (.arr a) }, ?_,
        List.length_modify .., fun j hj => by cases hj; exact hi⟩
      unfold loadStep
      simp only [splitFirst_exp, splitFirst_num, parseNat_decStr]
      rw [if_neg hne, if_pos trivial]
      simp only [bind, Except.bind]
      rw [if_pos hi]
      rfl
    · right
      refine ⟨?_, i, rfl, by omega⟩
      unfold loadStep
      simp only [splitFirst_exp, splitFirst_num, parseNat_decStr]
      rw [if_neg hne, if_pos trivial]
      simp only [bind, Except.bind]
      rw [if_neg hi]

theorem foldlM_loadStep_error (xs : List ((Option ℕ × Key) × A)) : ∀ l : Logger P A,
    (∃ x ∈ xs, ∃ i, x.1.1 = some i ∧ l.exps.length ≤ i) →
    (encAll xs).foldlM loadStep l = .error .indexError := by
  induction xs with
  | nil => rintro l ⟨x, hx, _⟩; cases hx
  | cons y ys ih =>
    rintro l ⟨x, hx, i, hxi, hi⟩
    have hcons : encAll (y :: ys) = (enc (y.1.1, y.1.2), y.2) :: encAll ys := rfl
    rw [hcons, List.foldlM_cons]
    rcases loadStep_length l y.1.1 y.1.2 y.2 with ⟨l', h1, h2, h3⟩ | ⟨h1, _⟩
    · rw [h1]
      simp only [bind, Except.bind]
      apply ih
      rcases List.mem_cons.1 hx with rfl | hx
      · exact absurd (h3 i hxi) (by omega)
      · exact ⟨x, hx, i, hxi, by omega⟩
    · rw [h1]; rfl

theorem mem_taggedRuns_of {es : List (Dict Key (Val P A))} : ∀ {n i : ℕ} {d : Dict Key (Val P A)}
    {k : Key} {a : A}, es[i]? = some d → (k, Val.arr a) ∈ d →
    ((some (n + i), k), a) ∈ taggedRuns n es := by
  induction es with
  | nil => intro n i d k a h; cases h
  | cons e es ih =>
    intro n i d k a h hk
    unfold taggedRuns
    rw [List.mem_append]
    cases i with
    | zero =>
      obtain rfl := Option.some.inj h
      left
      unfold tagged arrays
      rw [List.mem_map]
      exact ⟨(k, a), List.mem_filterMap.2 ⟨_, hk, rfl⟩, rfl⟩
    | succ i =>
      right
      have := ih (n := n + 1) (i := i) (by simpa using h) hk
      rwa [show n + 1 + i = n + (i + 1) by omega] at this

/-- **C74.** When the new log has an array in a run which the old JSON document, which declares
arrays, does not have, there is a crash point (between the two files) after which loading raises
`IndexError`: neither the old nor the new log can be read. -/
theorem C74_crash_more_runs (fs : FS P A) (new : Logger P A) (f : Key) (old : Doc P) (setF : Bool)
    (hf : new.filename = some f) (hwf : WF new) (hname : ¬ (".npz".toList <:+ f))
    (hold : fs (f ++ ".json".toList) = some (.json old)) (hnp : old.hasNp = true)
    (i : ℕ) (d : Dict Key (Val P A)) (k : Key) (a : A) (hi : old.exps.length ≤ i)
    (hd : new.exps[i]? = some d) (hk : (k, Val.arr a) ∈ d) :
    ∃ fs', CrashState fs new fs' ∧ load fs' f setF true = .error .indexError := by
  have hmem : ((some i, k), a) ∈ allTagged new := by
    unfold allTagged
    have := mem_taggedRuns_of (n := 0) hd hk
    rw [Nat.zero_add] at this
    exact List.mem_append_right _ this
  have h0 : 0 < (saveDicts new).2.2.length := by
    rw [saveDicts_eq new hwf]
    simp only [encAll, List.length_map]
    exact List.length_pos_of_mem hmem
  refine ⟨fs.write (npzPath f) (.npz (saveDicts new).2.2),
    ⟨_, 1, by unfold saveWrites; rw [hf], ?_⟩, ?_⟩
  · simp only [if_pos h0]
    rfl
  · unfold load
    have h1 : (fs.write (npzPath f) (.npz (saveDicts new).2.2)) (f ++ ".json".toList)
        = some (.json old) := by
      unfold FS.write
      rw [if_neg (json_ne_npzPath f), hold]
    have h2 : (fs.write (npzPath f) (.npz (saveDicts new).2.2)) (f ++ ".npz".toList)
        = some (.npz (saveDicts new).2.2) := by
      unfold FS.write npzPath
      rw [if_neg hname, if_pos rfl]
    rw [h1]
    simp only []
    rw [h2, hnp, saveDicts_eq new hwf]
    simp only [Bool.and_self, if_true]
    rw [foldlM_loadStep_error]
    · rfl
    · exact ⟨_, hmem, i, rfl, by simpa using hi⟩

/-- The hypotheses are met by a log of two runs with arrays saved over a log of one run. -/
example : ∃ fs', CrashState (fun q => if q = "f.json".toList then
      some (.json (⟨[], [[]], [], [], true⟩ : Doc ℕ)) else none)
      (⟨[], [[], [("x".toList, .arr 3)]], [], [], some "f".toList⟩ : Logger ℕ ℕ) fs' ∧
    load fs' "f".toList true true = .error .indexError :=
  C74_crash_more_runs _ _ _ ⟨[], [[]], [], [], true⟩ true rfl
    ⟨by simp [DictOK, dictKeys], by simp [DictOK, dictKeys]⟩ (by decide) (if_pos (by decide)) rfl 1
    [("x".toList, .arr 3)] "x".toList 3 (by decide) rfl (by simp)

end Verif.Logger
