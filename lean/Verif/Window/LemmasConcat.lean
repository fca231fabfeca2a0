import Verif.Window.PropsSampled
import Mathlib.Data.List.Chain
import Mathlib.Tactic.Ring
import Mathlib.Tactic.Linarith

/-! # Helper lemmas on concatenated windows -/

namespace Verif.Window

open Verif

theorem foldl_max_le_iff (l : List ℚ) (b t : ℚ) :
    l.foldl max b ≤ t ↔ b ≤ t ∧ ∀ x ∈ l, x ≤ t := by
  induction l generalizing b with
  | nil => simp
  | cons x xs ih =>
    rw [List.foldl_cons, ih]
    simp only [max_le_iff, List.mem_cons, forall_eq_or_imp]
    tauto

/-- Specification of "no gap or overlap larger than the tolerance". -/
def Consecutive {α β : Type} (ws : List (Win α β)) : Prop :=
  ws.IsChain (fun w v => |w.stop - v.start| ≤ TOL)

/-- Specification of "each window starts exactly where its predecessor ends". -/
def Aligned {α β : Type} (ws : List (Win α β)) : Prop :=
  ws.IsChain (fun w v => v.start = w.stop)

theorem Aligned.consecutive {α β : Type} {ws : List (Win α β)} (h : Aligned ws) :
    Consecutive ws := by
  refine List.IsChain.imp ?_ h
  intro w v hwv
  rw [hwv, sub_self, abs_zero]
  exact TOL_pos.le

theorem gaps_iff {α β : Type} (ws : List (Win α β)) :
    (∀ x ∈ (List.zip (Concat.ends ws).dropLast ((ws.drop 1).map Win.start)).map
      (fun p => |p.1 - p.2|), x ≤ TOL) ↔ Consecutive ws := by
  unfold Consecutive
  induction ws with
  | nil => simp [Concat.ends]
  | cons w ws ih =>
    cases ws with
    | nil => simp [Concat.ends]
    | cons v ws =>
      rw [List.isChain_cons_cons, ← ih]
      simp [Concat.ends]

theorem Concat.init_ok {α β : Type} {ws : List (Win α β)} (h : ws ≠ []) (hc : Consecutive ws) :
    Concat.init ws = .ok ⟨ws⟩ := by
  unfold Concat.init
  have hl : ¬ ws.length < 1 := by
    have := List.length_pos_iff.mpr h
    omega
  rw [if_neg hl]
  simp only []
  rw [if_neg]
  rw [not_lt, foldl_max_le_iff]
  refine ⟨TOL_pos.le, ?_⟩
  intro x hx
  rw [List.mem_append] at hx
  rcases hx with hx | hx
  · exact (gaps_iff ws).2 hc x hx
  · rw [List.mem_singleton] at hx
    exact hx ▸ TOL_pos.le

theorem Concat.init_err {α β : Type} {ws : List (Win α β)} (h : ws = [] ∨ ¬ Consecutive ws) :
    Concat.init ws = .error .valueError := by
  unfold Concat.init
  by_cases hl : ws.length < 1
  · rw [if_pos hl]
  · rw [if_neg hl]
    have hne : ws ≠ [] := by
      rintro rfl
      simp at hl
    rcases h with h | h
    · exact absurd h hne
    · simp only []
      rw [if_pos]
      by_contra hn
      rw [not_lt, foldl_max_le_iff] at hn
      exact h ((gaps_iff ws).1 fun x hx => hn.2 x (List.mem_append_left _ hx))

/-! ## Binary search -/

theorem bisectLeftAux_spec (a : List ℚ) (x : ℚ) (hs : a.Pairwise (· ≤ ·)) (k lo hi : ℕ)
    (hk : hi - lo ≤ k) (hlh : lo ≤ hi) (hh : hi ≤ a.length)
    (h1 : ∀ i (_ : i < a.length), i < lo → a[i] < x)
    (h2 : ∀ i (_ : i < a.length), hi ≤ i → x ≤ a[i]) :
    bisectLeftAux a x k lo hi ≤ a.length ∧
    (∀ i (_ : i < a.length), i < bisectLeftAux a x k lo hi → a[i] < x) ∧
    (∀ i (_ : i < a.length), bisectLeftAux a x k lo hi ≤ i → x ≤ a[i]) := by
  induction k generalizing lo hi with
  | zero =>
    unfold bisectLeftAux
    refine ⟨by omega, h1, ?_⟩
    intro i hi' hle
    exact h2 i hi' (by omega)
  | succ k ih =>
    unfold bisectLeftAux
    by_cases hlt : lo < hi
    · rw [if_pos hlt]
      simp only []
      have hml : (lo + hi) / 2 < a.length := by omega
      rw [List.getD_eq_getElem?_getD, List.getElem?_eq_getElem hml, Option.getD_some]
      by_cases hmv : a[(lo + hi) / 2] < x
      · rw [if_pos hmv]
        refine ih _ _ (by omega) (by omega) hh ?_ h2
        intro i hi' hlt'
        rcases Nat.lt_or_ge i ((lo + hi) / 2) with h | h
        · exact lt_of_le_of_lt (List.pairwise_iff_getElem.mp hs i _ hi' hml h) hmv
        · have : i = (lo + hi) / 2 := by omega
          subst this
          exact hmv
      · rw [if_neg hmv]
        rw [not_lt] at hmv
        refine ih _ _ (by omega) (by omega) (by omega) h1 ?_
        intro i hi' hle
        rcases Nat.lt_or_ge ((lo + hi) / 2) i with h | h
        · exact le_trans hmv (List.pairwise_iff_getElem.mp hs _ i hml hi' h)
        · have : i = (lo + hi) / 2 := by omega
          subst this
          exact hmv
    · rw [if_neg hlt]
      refine ⟨by omega, h1, ?_⟩
      intro i hi' hle
      exact h2 i hi' (by omega)

theorem bisectLeft_spec (a : List ℚ) (x : ℚ) (hs : a.Pairwise (· ≤ ·)) :
    bisectLeft a x ≤ a.length ∧
    (∀ i (hi : i < a.length), i < bisectLeft a x → a[i] < x) ∧
    (∀ i (hi' : i < a.length), bisectLeft a x ≤ i → x ≤ a[i]) :=
  bisectLeftAux_spec a x hs _ 0 a.length (by omega) (Nat.zero_le _) le_rfl (fun _ _ h => absurd h (Nat.not_lt_zero _))
    (fun i hi hle => absurd hi (by omega))

/-! ## Aligned windows of non-negative durations -/

theorem Aligned.pairwise {α β : Type} {ws : List (Win α β)} (h : Aligned ws)
    (hd : ∀ w ∈ ws, w.start ≤ w.stop) :
    ws.Pairwise (fun w v => w.stop ≤ v.start) := by
  induction ws with
  | nil => exact List.Pairwise.nil
  | cons w ws ih =>
    have hws : Aligned ws := by
      cases ws with
      | nil => exact List.IsChain.nil
      | cons v ws => exact (List.isChain_cons_cons.mp h).2
    have ih' := ih hws (fun v hv => hd v (List.mem_cons_of_mem _ hv))
    refine List.Pairwise.cons ?_ ih'
    intro v hv
    cases ws with
    | nil => cases hv
    | cons u us =>
      have hu : u.start = w.stop := (List.isChain_cons_cons.mp h).1
      rcases List.mem_cons.mp hv with rfl | hv'
      · exact hu.ge
      · have h1 := (List.pairwise_cons.mp ih').1 v hv'
        have h2 := hd u (List.mem_cons_of_mem _ List.mem_cons_self)
        linarith

theorem Aligned.ends_sorted {α β : Type} {ws : List (Win α β)} (h : Aligned ws)
    (hd : ∀ w ∈ ws, w.start ≤ w.stop) : (Concat.ends ws).Pairwise (· ≤ ·) := by
  unfold Concat.ends
  rw [List.pairwise_map]
  refine List.Pairwise.imp_of_mem ?_ (h.pairwise hd)
  intro w v _ hv hwv
  have := hd v hv
  linarith

theorem Aligned.append {α β : Type} {us vs : List (Win α β)} (h : Aligned (us ++ vs)) :
    Aligned us ∧ Aligned vs := by
  unfold Aligned at *
  rw [List.isChain_append] at h
  exact ⟨h.1, h.2.1⟩

/-- Splitting the list of windows at a time: the lookup index is the number of windows which end
before the time. -/
theorem Concat.fileIndex_ok {α β : Type} (c : Concat α β) (s e t : ℚ) (h : Aligned c.windows)
    (hd : ∀ w ∈ c.windows, w.start ≤ w.stop) (hs : c.start = .ok s) (he : c.stop = .ok e)
    (h1 : s ≤ t) (h2 : t ≤ e) :
    ∃ pre w post, c.windows = pre ++ w :: post ∧ c.fileIndex t = .ok pre.length ∧
      (∀ v ∈ pre, v.stop < t) ∧ w.start ≤ t ∧ t ≤ w.stop := by
  obtain ⟨b1, b2, b3⟩ := bisectLeft_spec (Concat.ends c.windows) t (h.ends_sorted hd)
  set i := bisectLeft (Concat.ends c.windows) t with hi
  have hlen : (Concat.ends c.windows).length = c.windows.length := by simp [Concat.ends]
  rw [hlen] at b1
  -- the last window ends at or after t
  have hlt : i < c.windows.length := by
    by_contra hn
    unfold Concat.stop at he
    cases hl : c.windows.getLast? with
    | none => rw [hl] at he; cases he
    | some w =>
      rw [hl] at he
      simp only [Except.ok.injEq] at he
      rw [List.getLast?_eq_getElem?, List.getElem?_eq_some_iff] at hl
      obtain ⟨hl1, hl2⟩ := hl
      have := b2 (c.windows.length - 1) (by rw [hlen]; exact hl1) (by omega)
      simp only [Concat.ends, List.getElem_map] at this
      rw [hl2] at this
      linarith
  refine ⟨c.windows.take i, c.windows[i], c.windows.drop (i + 1), ?_, ?_, ?_, ?_, ?_⟩
  · rw [List.getElem_cons_drop, List.take_append_drop]
  · unfold Concat.fileIndex
    rw [hs, he]
    simp only [bind, Except.bind, checkTime_ok h1 h2, pure, Except.pure, Except.ok.injEq]
    rw [List.length_take, ← hi]
    omega
  · intro v hv
    obtain ⟨j, hj, rfl⟩ := List.getElem_of_mem hv
    rw [List.length_take] at hj
    have := b2 j (by rw [hlen]; omega) (by omega)
    simpa [Concat.ends] using this
  · rcases Nat.eq_zero_or_pos i with h0 | h0
    · have hs' : s = c.windows[i].start := by
        unfold Concat.start at hs
        rw [List.head?_eq_getElem?, List.getElem?_eq_getElem (by omega)] at hs
        simp only [Except.ok.injEq] at hs
        rw [← hs]
        congr 2
        exact h0.symm
      rw [← hs']
      exact h1
    · have := b2 (i - 1) (by rw [hlen]; omega) (by omega)
      simp only [Concat.ends, List.getElem_map] at this
      have hch := List.isChain_iff_getElem.mp h (i - 1) (by omega)
      have e : i - 1 + 1 = i := by omega
      simp only [e] at hch
      rw [hch]
      exact this.le
  · have := b3 i (by rw [hlen]; omega) le_rfl
    simpa [Concat.ends] using this

theorem Concat.start_cons {α β : Type} (w : Win α β) (ws : List (Win α β)) :
    Concat.start ⟨w :: ws⟩ = .ok w.start := rfl

theorem Concat.stop_append {α β : Type} (w : Win α β) (ws : List (Win α β)) :
    Concat.stop ⟨ws ++ [w]⟩ = .ok w.stop := by
  unfold Concat.stop
  simp

end Verif.Window
