import Verif.Experiment.PropsRuns
import Verif.Experiment.PropsTotal
import Verif.Experiment.PropsJson

/-!
# Properties of run modes which are other strings
-/

namespace Verif.Experiment

open Verif.Logger

variable {L Λ : Type}

theorem prepared_generator [DecidableEq L] {R : Rand L} {e : Exp} {rawLabels : Py (List (List L))}
    {rawData : Py (List Mx)} {w w1 : World L} {p : Prepared L} (hp : prepare R e rawLabels rawData w = (w1, .ok p))
    {s : {s : Key // s ≠ "leave-one-out".toList ∧ s ≠ "single".toList}} (hm : e.runMode = .other s) :
    p.generator = randomSplitStr p.labels.length s.1 := by
  obtain ⟨_, _, _, _, _, _, _, _, _, _, _, _, h5, _⟩ := prepare_ok hp
  obtain ⟨_, _, _, _, _, _, _, _, _, _, hgen, _⟩ := splitExamples_ok h5
  rw [hm] at hgen
  simp only [getGenerator, Except.ok.injEq] at hgen
  exact hgen.symm

/-- **C220** (other strings).  With a run mode which is a string other than `leave-one-out` and `single`, a `run` which is
prepared raises `ValueError` or `TypeError` without any run, and nothing is saved: files and runs of the log are those of
before. -/
theorem C220_other [DecidableEq L] (X : Ext Λ) (R : Rand L) (e : Exp) (rawLabels : Py (List (List L)))
    (rawData : Py (List Mx)) (evaluate : Prepared L → Evaluate L Λ) (start stop : Key) (w w1 : World L) (p : Prepared L)
    {s : {s : Key // s ≠ "leave-one-out".toList ∧ s ≠ "single".toList}} (hm : e.runMode = .other s)
    (hp : prepare R e rawLabels rawData w = (w1, .ok p)) :
    ∃ w' x, run X R e rawLabels rawData evaluate start stop w = (w', .error x) ∧ (x = .valueError ∨ x = .typeError) ∧
      w'.log.exps = w.log.exps ∧ w'.fs = w.fs := by
  obtain ⟨x, hx, hx'⟩ : ∃ x, p.generator = .error x ∧ (x = .valueError ∨ x = .typeError) := by
    rw [prepared_generator hp hm]
    unfold randomSplitStr
    split_ifs
    · exact ⟨_, rfl, Or.inr rfl⟩
    · exact ⟨_, rfl, Or.inl rfl⟩
  obtain ⟨w', h1, h2, h3⟩ := (C88_no_run X R e rawLabels rawData evaluate start stop w w1).2 p x hp hx
  exact ⟨w', x, h1, hx', h2, h3⟩

theorem isIntLiteral_false {s : Key} {c : Char} (hc : c ∈ s) (h : c.isDigit = false)
    (hs : c ≠ '+' ∧ c ≠ '-' ∧ c ≠ ' ' ∧ c ≠ '\t' ∧ c ≠ '\n' ∧ c ≠ '\r') : isIntLiteral s = false := by
  have hdrop : ∀ (l : Key) (f : Char → Bool), c ∈ l → f c = false → c ∈ l.dropWhile f := by
    intro l f hl hf
    induction l with
    | nil => exact hl
    | cons d l ih =>
      rw [List.dropWhile_cons]
      split_ifs with hd
      · rcases List.mem_cons.1 hl with rfl | hl
        · rw [hf] at hd
          cases hd
        · exact ih hl
      · exact hl
  unfold isIntLiteral
  simp only []
  have hws : (c = ' ' || c = '\t' || c = '\n' || c = '\r') = false := by simp [hs]
  have h1 := hdrop _ (fun c => c = ' ' || c = '\t' || c = '\n' || c = '\r') (List.mem_reverse.2
    (hdrop s (fun c => c = ' ' || c = '\t' || c = '\n' || c = '\r') hc hws)) hws
  have h2 := List.mem_reverse.2 h1
  generalize ((s.dropWhile fun c => c = ' ' || c = '\t' || c = '\n' || c = '\r').reverse.dropWhile
    fun c => c = ' ' || c = '\t' || c = '\n' || c = '\r').reverse = t at h2
  rw [Bool.and_eq_false_iff]
  right
  rw [List.all_eq_false]
  refine ⟨c, ?_, by simp [h]⟩
  split
  · rcases List.mem_cons.1 h2 with h | h
    · exact absurd h hs.1
    · exact h
  · rcases List.mem_cons.1 h2 with h | h
    · exact absurd h hs.2.1
    · exact h
  · exact h2

theorem isIntLiteral_nil : isIntLiteral [] = false := by decide

/-- **C220** (letters).  It is `ValueError` for strings with a character which is neither a digit, a sign nor a space,
as `single-run` which the comment of the code has among run modes. -/
theorem C220_letters [DecidableEq L] (X : Ext Λ) (R : Rand L) (e : Exp) (rawLabels : Py (List (List L)))
    (rawData : Py (List Mx)) (evaluate : Prepared L → Evaluate L Λ) (start stop : Key) (w w1 : World L) (p : Prepared L)
    {s : {s : Key // s ≠ "leave-one-out".toList ∧ s ≠ "single".toList}} (hm : e.runMode = .other s)
    (hp : prepare R e rawLabels rawData w = (w1, .ok p)) {c : Char} (hc : c ∈ s.1) (h : c.isDigit = false)
    (hs : c ≠ '+' ∧ c ≠ '-' ∧ c ≠ ' ' ∧ c ≠ '\t' ∧ c ≠ '\n' ∧ c ≠ '\r') :
    ∃ w', run X R e rawLabels rawData evaluate start stop w = (w', .error .valueError) ∧ w'.fs = w.fs := by
  have hx : p.generator = .error .valueError := by
    rw [prepared_generator hp hm]
    unfold randomSplitStr
    rw [if_neg]
    rw [Bool.not_eq_true]
    rcases Nat.eq_zero_or_pos p.labels.length with h0 | h0
    · rw [h0]
      exact isIntLiteral_nil
    · refine isIntLiteral_false (c := c) ?_ h hs
      rw [List.mem_flatten]
      exact ⟨s.1, List.mem_replicate.2 ⟨by omega, rfl⟩, hc⟩
  obtain ⟨w', h1, _, h3⟩ := (C88_no_run X R e rawLabels rawData evaluate start stop w w1).2 p _ hp hx
  exact ⟨w', h1, h3⟩

/-- **C220** (digits).  It is `TypeError` for strings of digits, when there is at least a sample besides the examples. -/
theorem C220_digits [DecidableEq L] (X : Ext Λ) (R : Rand L) (e : Exp) (rawLabels : Py (List (List L)))
    (rawData : Py (List Mx)) (evaluate : Prepared L → Evaluate L Λ) (start stop : Key) (w w1 : World L) (p : Prepared L)
    {s : {s : Key // s ≠ "leave-one-out".toList ∧ s ≠ "single".toList}} (hm : e.runMode = .other s)
    (hp : prepare R e rawLabels rawData w = (w1, .ok p)) (hn : p.labels ≠ []) (h0 : s.1 ≠ [])
    (h : ∀ c ∈ s.1, c.isDigit = true) :
    ∃ w', run X R e rawLabels rawData evaluate start stop w = (w', .error .typeError) ∧ w'.fs = w.fs := by
  have hl : ∀ t : Key, t ≠ [] → (∀ c ∈ t, c.isDigit = true) → isIntLiteral t = true := by
    intro t ht hd
    have hws : ∀ c ∈ t, (c = ' ' || c = '\t' || c = '\n' || c = '\r') = false := by
      intro c hc
      have := hd c hc
      by_contra hne
      simp only [Bool.not_eq_false, Bool.or_eq_true, decide_eq_true_eq] at hne
      rcases hne with ((rfl | rfl) | rfl) | rfl <;> exact absurd this (by decide)
    have hdw : ∀ l : Key, (∀ c ∈ l, (c = ' ' || c = '\t' || c = '\n' || c = '\r') = false) →
        l.dropWhile (fun c => c = ' ' || c = '\t' || c = '\n' || c = '\r') = l := by
      intro l hl
      cases l with
      | nil => rfl
      | cons c l => rw [List.dropWhile_cons_of_neg (by rw [hl c (by simp)]; decide)]
    unfold isIntLiteral
    simp only []
    rw [hdw t hws, hdw t.reverse (fun c hc => hws c (List.mem_reverse.1 hc)), List.reverse_reverse]
    cases t with
    | nil => exact absurd rfl ht
    | cons c t =>
      have hc := hd c (by simp)
      split
      · exact absurd hc (by rename_i heq; cases heq; decide)
      · exact absurd hc (by rename_i heq; cases heq; decide)
      · simp only [List.isEmpty_cons, Bool.not_false, Bool.true_and]
        rw [List.all_eq_true]
        exact hd
  have hx : p.generator = .error .typeError := by
    rw [prepared_generator hp hm]
    unfold randomSplitStr
    rw [if_pos]
    have hpos : 0 < p.labels.length := List.length_pos_iff.2 hn
    apply hl
    · obtain ⟨m, hm⟩ := Nat.exists_eq_succ_of_ne_zero hpos.ne'
      rw [hm, List.replicate_succ, List.flatten_cons]
      exact fun h => h0 (List.append_eq_nil_iff.1 h).1
    · intro c hc
      rw [List.mem_flatten] at hc
      obtain ⟨t, ht, hc⟩ := hc
      rw [(List.mem_replicate.1 ht).2] at hc
      exact h c hc
  obtain ⟨w', h1, _, h3⟩ := (C88_no_run X R e rawLabels rawData evaluate start stop w w1).2 p _ hp hx
  exact ⟨w', h1, h3⟩

/-- **C220** (files of parameters).  The string is kept by files of parameters. -/
theorem C220_parameters (m : RunMode) : m.toJson.asMode = .ok m := by
  cases m with
  | other s =>
    show (if h1 : s.1 = _ then _ else if h2 : s.1 = _ then _ else _) = _
    rw [dif_neg s.2.1, dif_neg s.2.2]
  | _ => rfl

/-- The mode of the comment. -/
def singleRun : {s : Key // s ≠ "leave-one-out".toList ∧ s ≠ "single".toList} := ⟨"single-run".toList, by decide, by decide⟩

/-- `C220_letters` for `single-run`, with any number of samples. -/
example : randomSplitStr 0 singleRun.1 = .error .valueError ∧ randomSplitStr 3 singleRun.1 = .error .valueError := by
  decide +kernel

/-- `C220_digits`. -/
example : randomSplitStr 2 "1".toList = .error .typeError := by decide +kernel

end Verif.Experiment
