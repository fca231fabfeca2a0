import Verif.Samples.PropsActions

/-!
# Properties of the command line of the launcher (C181)
-/

namespace Verif.Samples

open Verif.Logger (Key decStr)

/-! ### Actions -/

/-- **C181.** Only `run` starts the pool, once.  The status is printed until the end by `run` with processes or
`--watch` and by `status` with `--watch`, once by `status` otherwise.  Without option the launcher is the one of
processes exactly when there is no `qsub`.  `resume` does nothing. -/
theorem C181_actions (a : Action) (given : Option Bool) (qsub watch : Bool) :
    (∀ p, (effects a p watch).Nodup ∧
      (.start ∈ effects a p watch ↔ a = .run) ∧
      (.watch ∈ effects a p watch ↔ (a = .run ∧ (p = true ∨ watch = true)) ∨ (a = .status ∧ watch = true)) ∧
      (.stats ∈ effects a p watch ↔ a = .status ∧ watch = false) ∧
      (.configs ∈ effects a p watch ↔ a = .prepare) ∧ (.figures ∈ effects a p watch ↔ a = .plot) ∧
      (effects a p watch = [] ↔ a = .resume) ∧ (.start ∈ effects a p watch → (effects a p watch).head? = some .start)) ∧
    (launcherOf given qsub = true ↔ given = some true ∨ (given = none ∧ qsub = false)) := by
  constructor
  · intro p
    cases a <;> cases p <;> cases watch <;> decide
  · cases given with
    | none => cases qsub <;> decide
    | some b => cases b <;> cases qsub <;> decide

/-! ### Files of figures -/

/-- **C181.** Without `--save` no figure is written; with it, four are, in different files of the chosen directory
(or the default one), named after the figure and the format. -/
theorem C181_saved (order : List Key → List Key) (ho : (order FIGURE_NAMES).Perm FIGURE_NAMES) (dest : Option Key)
    (dflt format : Key) :
    savedFiles order false dest dflt format = [] ∧
    ∀ dir, (dest = some dir ∨ (dest = none ∧ dflt = dir)) →
      (savedFiles order true dest dflt format).Nodup ∧ (savedFiles order true dest dflt format).length = 4 ∧
      ∀ f, f ∈ savedFiles order true dest dflt format ↔ ∃ n ∈ ["one_to_one_all_k".toList, "one_to_one_all".toList,
        "image_feats".toList, "three_modalities".toList],
        f = Corpus.pathJoin dir (n ++ ".".toList ++ format) := by
  refine ⟨rfl, ?_⟩
  intro dir hdir
  have hd : dest.getD dflt = dir := by
    rcases hdir with rfl | ⟨rfl, rfl⟩ <;> rfl
  have hhead : ∀ n ∈ FIGURE_NAMES, (n ++ '.' :: format).head? ≠ some '/' := by
    intro n hn
    simp only [FIGURE_NAMES, List.mem_cons, List.not_mem_nil, or_false] at hn
    rcases hn with rfl | rfl | rfl | rfl
    · exact (by decide : some 'o' ≠ some '/')
    · exact (by decide : some 'o' ≠ some '/')
    · exact (by decide : some 'i' ≠ some '/')
    · exact (by decide : some 't' ≠ some '/')
  unfold savedFiles
  rw [if_pos rfl, hd]
  refine ⟨?_, ?_, ?_⟩
  · rw [(ho.map _).nodup_iff]
    refine List.Nodup.map_on ?_ (by decide)
    intro x hx y hy hxy
    have h := pathJoin_inj (hhead x hx) (hhead y hy) hxy
    exact List.append_cancel_right h
  · rw [List.length_map, ho.length_eq]
    rfl
  · intro f
    rw [List.mem_map]
    constructor
    · rintro ⟨n, hn, rfl⟩
      exact ⟨n, ho.mem_iff.1 hn, by rw [List.append_assoc]; rfl⟩
    · rintro ⟨n, hn, rfl⟩
      exact ⟨n, ho.mem_iff.2 hn, by rw [List.append_assoc]; rfl⟩

/-! ### Watching a pool -/

/-- A line of the status of a pool: its status as first read, and its counts as read next. -/
def statusLine (name : Key) (counts : List (Key × ℕ)) : Key :=
  name ++ " (".toList ++ (", ".toList).intercalate (counts.map fun x => x.1 ++ ": ".toList ++ decStr x.2) ++
    ")".toList

theorem refreshed_iff (failed : ℕ) (o : ℕ → Obs) (lines : List Key) : ∀ fuel t,
    refreshed failed o fuel t = some lines ↔ ∃ n < fuel, failed ≤ (o (t + 3 * n)).status ∧
      (∀ i < n, (o (t + 3 * i)).status < failed) ∧
      lines = (List.range (n + 1)).map fun i => getStats o (t + 3 * i + 1) := by
  intro fuel
  induction fuel generalizing lines with
  | zero =>
    intro t
    simp [refreshed]
  | succ fuel ih =>
    intro t
    unfold refreshed
    by_cases h : (o t).status < failed
    · rw [if_pos h, Option.map_eq_some_iff]
      constructor
      · rintro ⟨ls, hls, rfl⟩
        obtain ⟨n, hn, h1, h2, rfl⟩ := (ih ls (t + 3)).1 hls
        refine ⟨n + 1, by omega, by rw [show t + 3 * (n + 1) = t + 3 + 3 * n by ring]; exact h1, ?_, ?_⟩
        · intro i hi
          cases i with
          | zero => exact h
          | succ i => rw [show t + 3 * (i + 1) = t + 3 + 3 * i by ring]; exact h2 i (by omega)
        · rw [List.range_succ_eq_map (n := n + 1), List.map_cons, List.map_map]
          congr 1
          apply List.map_congr_left
          intro i _
          show getStats o (t + 3 + 3 * i + 1) = getStats o (t + 3 * (i + 1) + 1)
          congr 1
          ring
      · rintro ⟨n, hn, h1, h2, rfl⟩
        cases n with
        | zero => exact absurd h (not_lt.2 h1)
        | succ n =>
          refine ⟨_, (ih _ (t + 3)).2 ⟨n, by omega,
            by rw [show t + 3 + 3 * n = t + 3 * (n + 1) by ring]; exact h1, ?_, rfl⟩, ?_⟩
          · intro i hi
            rw [show t + 3 + 3 * i = t + 3 * (i + 1) by ring]
            exact h2 (i + 1) (by omega)
          · rw [List.range_succ_eq_map (n := n + 1), List.map_cons, List.map_map]
            congr 1
            apply List.map_congr_left
            intro i _
            show getStats o (t + 3 + 3 * i + 1) = getStats o (t + 3 * (i + 1) + 1)
            congr 1
            ring
    · rw [if_neg h]
      constructor
      · intro hs
        cases hs
        exact ⟨0, by omega, not_lt.1 h, by simp, by simp⟩
      · rintro ⟨n, hn, h1, h2, rfl⟩
        cases n with
        | zero => simp
        | succ n => exact absurd (h2 0 (by omega)) h

/-- **C181.** Watching a pool prints a line by turn, with what is then read of the pool, until the first turn which
finds that the pool is at the end, whose line is the last one; it never stops when no turn does. -/
theorem C181_watch (failed : ℕ) (o : ℕ → Obs) :
    (∀ n, failed ≤ (o (3 * n)).status → (∀ i < n, (o (3 * i)).status < failed) → ∀ fuel, n < fuel →
      refreshed failed o fuel 0 =
        some ((List.range (n + 1)).map fun i => statusLine (o (3 * i + 1)).name (o (3 * i + 2)).counts)) ∧
    ((∀ n, (o (3 * n)).status < failed) → ∀ fuel, refreshed failed o fuel 0 = none) := by
  constructor
  · intro n h1 h2 fuel hf
    refine (refreshed_iff failed o _ fuel 0).2 ⟨n, hf, by simpa using h1, by simpa using h2, ?_⟩
    apply List.map_congr_left
    intro i _
    unfold statusLine getStats
    rw [Plots.joinComma_eq, Nat.zero_add]
  · intro h fuel
    rcases hr : refreshed failed o fuel 0 with _ | lines
    · rfl
    · obtain ⟨n, _, h1, _⟩ := (refreshed_iff failed o lines fuel 0).1 hr
      exact absurd (h n) (not_lt.2 (by simpa using h1))

/-- **C181.** Once the pool stays at the end, watching stops and its last line is about the pool at the end. -/
theorem C181_watch_ends (failed T s : ℕ) (o : ℕ → Obs) (name : Key) (counts : List (Key × ℕ))
    (hs : failed ≤ s) (h : ∀ t, T ≤ t → o t = ⟨s, name, counts⟩) (hb : ∀ t, failed ≤ (o t).status → T ≤ t) :
    ∃ lines, (∀ fuel, T < fuel → refreshed failed o fuel 0 = some lines) ∧
      lines.getLast? = some (statusLine name counts) ∧ T ≤ 3 * (lines.length - 1) ∧ 3 * (lines.length - 1) < T + 3 := by
  have hT : failed ≤ (o (3 * ((T + 2) / 3))).status := by
    rw [h _ (by omega)]
    exact hs
  refine ⟨_, fun fuel hf => (C181_watch failed o).1 ((T + 2) / 3) hT ?_ fuel (by omega), ?_, ?_, ?_⟩
  · intro i hi
    by_contra hc
    have := hb _ (not_lt.1 hc)
    omega
  · rw [List.range_succ, List.map_append, List.getLast?_append]
    show some (statusLine (o (3 * ((T + 2) / 3) + 1)).name (o (3 * ((T + 2) / 3) + 2)).counts) = _
    rw [h (3 * ((T + 2) / 3) + 1) (by omega), h (3 * ((T + 2) / 3) + 2) (by omega)]
  · rw [List.length_map, List.length_range]
    omega
  · rw [List.length_map, List.length_range]
    omega

end Verif.Samples
