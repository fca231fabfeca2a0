import Verif.KDE.Props2

/-!
# Two dimensional binning of samples which are not in bounds (C69)
-/

namespace Verif.KDE

variable {K : Type} [Field K] [LinearOrder K] [IsStrictOrderedRing K] [FloorRing K]

/-- Only `IndexError` may be raised. -/
def OnlyIndex {α : Type} (r : Py α) : Prop := ∀ e, r = .error e → e = .indexError

theorem OnlyIndex.bind {α β : Type} {x : Py α} {f : α → Py β} (hx : OnlyIndex x)
    (hf : ∀ a, OnlyIndex (f a)) : OnlyIndex (x >>= f) := by
  cases x with
  | error e =>
    intro e' h
    obtain rfl := Except.error.inj h
    exact hx e rfl
  | ok a => exact hf a

theorem onlyIndex_ok {α : Type} (a : α) : OnlyIndex (.ok a : Py α) := fun e h => by cases h

theorem onlyIndex_pyGet (l : List K) (i : ℤ) : OnlyIndex (pyGet l i) := by
  intro e h
  unfold pyGet at h
  split_ifs at h
  · exact (Except.error.inj h).symm
  · split at h
    · cases h
    · exact (Except.error.inj h).symm
  · split at h
    · cases h
    · exact (Except.error.inj h).symm

theorem onlyIndex_addAt (l : List K) (i : ℤ) (w : K) : OnlyIndex (addAt l i w) := by
  intro e h
  unfold addAt at h
  split at h
  · cases h
  · exact (Except.error.inj h).symm

theorem onlyIndex_addAt2 (l : List (List K)) (i j : ℤ) (w : K) : OnlyIndex (addAt2 l i j w) := by
  unfold addAt2
  split
  · split
    · exact OnlyIndex.bind (onlyIndex_addAt _ _ _) fun _ => onlyIndex_ok _
    · exact fun e h => (Except.error.inj h).symm
  · exact fun e h => (Except.error.inj h).symm

theorem onlyIndex_spread2 (xGrid yGrid : List K) (dx dy weight : K) (bins : List (List K)) (s : K × K)
    (xb yb : ℤ) : OnlyIndex (spread2 xGrid yGrid dx dy weight bins s xb yb) := by
  unfold spread2
  refine OnlyIndex.bind (onlyIndex_pyGet _ _) fun _ => ?_
  refine OnlyIndex.bind (onlyIndex_pyGet _ _) fun _ => ?_
  refine OnlyIndex.bind (onlyIndex_pyGet _ _) fun _ => ?_
  refine OnlyIndex.bind (onlyIndex_pyGet _ _) fun _ => ?_
  refine OnlyIndex.bind (onlyIndex_addAt2 _ _ _ _) fun _ => ?_
  refine OnlyIndex.bind (onlyIndex_addAt2 _ _ _ _) fun _ => ?_
  refine OnlyIndex.bind (onlyIndex_addAt2 _ _ _ _) fun _ => ?_
  exact onlyIndex_addAt2 _ _ _ _

theorem pyGet_grid_above (lo delta : K) (nb : ℕ) (i : ℤ) (h : (nb : ℤ) < i) :
    pyGet (grid lo delta nb) i = .error .indexError := by
  unfold pyGet
  rw [if_neg (by omega), List.getElem?_eq_none]
  simp [grid]
  omega

theorem foldlM_fails {α β : Type} (f : β → α → Py β) (hf : ∀ b a, OnlyIndex (f b a)) (l : List α) (a : α)
    (ha : a ∈ l) (hbad : ∀ b, f b a = .error .indexError) (b : β) :
    l.foldlM f b = .error .indexError := by
  induction l generalizing b with
  | nil => simp at ha
  | cons x l ih =>
    rw [List.foldlM_cons]
    rcases List.mem_cons.1 ha with rfl | h
    · rw [hbad]; rfl
    · cases hx : f b x with
      | error e =>
        rw [hf b x e hx]
        rfl
      | ok b' => exact ih h b'

theorem floor_above (s lo hi : K) (nb : ℕ) (hnb : 2 ≤ nb) (hlt : lo < hi)
    (hs : hi + (hi - lo) / ((nb : K) - 1) ≤ s) :
    (nb : ℤ) < ⌊(s - lo) / ((hi - lo) / ((nb : K) - 1))⌋ + 1 := by
  obtain ⟨hd, e⟩ := steps_pos lo hi nb hnb hlt
  have : ((nb : ℤ) : K) ≤ (s - lo) / ((hi - lo) / ((nb : K) - 1)) := by
    rw [le_div_iff₀ hd]
    push_cast
    have : (nb : K) * ((hi - lo) / ((nb : K) - 1)) =
        ((nb : K) - 1) * ((hi - lo) / ((nb : K) - 1)) + (hi - lo) / ((nb : K) - 1) := by ring
    linarith
  have := Int.le_floor.2 this
  omega

/-- **C69**: bounds are not checked; a coordinate at a step or more above the upper bound raises
`IndexError`. -/
theorem C69_above (samples : List (K × K)) (nb : ℕ) (hnb : 2 ≤ nb) (lx ly hx hy : K) (hltx : lx < hx)
    (hlty : ly < hy) (s : K × K) (hs : s ∈ samples)
    (hout : hx + (hx - lx) / ((nb : K) - 1) ≤ s.1 ∨ hy + (hy - ly) / ((nb : K) - 1) ≤ s.2) :
    getBins2 samples nb (some ((lx, ly), (hx, hy))) = .error .indexError := by
  obtain ⟨hdx, -⟩ := steps_pos lx hx nb hnb hltx
  obtain ⟨hdy, -⟩ := steps_pos ly hy nb hnb hlty
  have hfull : fullBins2 samples (lx, ly) (hx, hy) nb = .error .indexError := by
    unfold fullBins2
    simp only []
    rw [if_neg (by rintro ⟨h | h, -⟩ <;> [exact hdx.ne' h; exact hdy.ne' h])]
    refine foldlM_fails _ (fun b a => onlyIndex_spread2 _ _ _ _ _ _ _ _ _) samples s hs (fun b => ?_) _
    unfold spread2
    rcases hout with h | h
    · rw [pyGet_grid_above _ _ _ _ (floor_above s.1 lx hx nb hnb hltx h)]
      rfl
    · rw [pyGet_grid_above _ _ _ _ (floor_above s.2 ly hy nb hnb hlty h)]
      simp only [bind, Except.bind]
      cases hg : pyGet (grid lx ((hx - lx) / ((nb : K) - 1)) nb)
        (⌊(s.1 - lx) / ((hx - lx) / ((nb : K) - 1))⌋ + 1) with
      | ok v => rfl
      | error e => rw [onlyIndex_pyGet _ _ e hg]
  unfold getBins2
  rw [if_neg (by omega)]
  simp only [bounds2, Int.toNat_natCast, bind, Except.bind, hfull]

/-- **C69**: coordinates closer than a step above the upper bound lose mass without an error, and
coordinates below the lower bound are counted at the other end, with a negative weight. -/
theorem C69_unchecked :
    (getBins2 ([(0, 0), (5 / 2, 1)] : List (ℚ × ℚ)) 3 (some ((0, 0), (2, 2))) =
      .ok ([0, 1, 2], [0, 1, 2], [[1 / 2, 0, 0], [0, 0, 0], [0, 1 / 4, 0]])) ∧
    getBins2 ([(0, 0), (-1 / 2, 1)] : List (ℚ × ℚ)) 3 (some ((0, 0), (2, 2))) =
      .ok ([0, 1, 2], [0, 1, 2], [[1 / 2, -7 / 4, 0], [0, 0, 0], [0, 0, 0]]) := by
  constructor <;> decide +kernel

end Verif.KDE
