import Verif.KDE.PropsRounded2d

/-!
# Linear binning in two dimensions with doubles: cases
-/

namespace Verif.KDE

open Verif.Window

/-- **C222**: a bin can be negative: of the samples (-0.1, 0), (-0.6, 1) and (0.9, 2) in four bins along each axis, one
is about -5.6e-17, though it gets no negative weight without rounding (see C69). -/
theorem C222_negative : ∃ gx gy b,
    getBins2R dbl [(dbl (-1 / 10), 0), (dbl (-6 / 10), 1), (dbl (9 / 10), 2)] 4 none = .ok (gx, gy, b) ∧
    get2 b 2 0 < 0 := by
  have h : ((getBins2R dbl [(dbl (-1 / 10), 0), (dbl (-6 / 10), 1), (dbl (9 / 10), 2)] 4 none).toOption.map fun p =>
      decide (get2 p.2.2 2 0 < 0)) = some true := by decide +kernel
  cases e : getBins2R dbl [(dbl (-1 / 10), 0), (dbl (-6 / 10), 1), (dbl (9 / 10), 2)] 4 none with
  | error e' => rw [e] at h; cases h
  | ok p =>
    rw [e] at h
    exact ⟨p.1, p.2.1, p.2.2, rfl, by simpa [Except.toOption] using h⟩

/-- **C222**: bins which are removed are not always null: of (0.1, 0) and (-0.2, 1) in two bins along each axis. -/
theorem C222_dropped : ∃ full,
    fullBins2R dbl [(dbl (1 / 10), 0), (dbl (-2 / 10), 1)] (dbl (-2 / 10), 0) (dbl (1 / 10), 1) 2 = .ok full ∧
    get2 full 2 0 < 0 := by
  have h : ((fullBins2R dbl [(dbl (1 / 10), 0), (dbl (-2 / 10), 1)] (dbl (-2 / 10), 0)
      (dbl (1 / 10), 1) 2).toOption.map fun p => decide (get2 p 2 0 < 0)) = some true := by decide +kernel
  cases e : fullBins2R dbl [(dbl (1 / 10), 0), (dbl (-2 / 10), 1)] (dbl (-2 / 10), 0) (dbl (1 / 10), 1) 2 with
  | error e' => rw [e] at h; cases h
  | ok p =>
    rw [e] at h
    exact ⟨p, rfl, by simpa [Except.toOption] using h⟩

/-- Hypotheses of C222 for three samples in four bins along each axis. -/
example : Bounds2 none ([(-1 / 8, 0), (-5 / 8, 3), (7 / 8, 2)] : List (ℚ × ℚ)) (-5 / 8) 0 (7 / 8) 3 ∧
    (1 / 2 : ℚ) = (7 / 8 - -5 / 8) / ((4 : ℕ) - 1) ∧ (1 : ℚ) = (3 - 0) / ((4 : ℕ) - 1) ∧
    |(-5 / 8 : ℚ)| ≤ 7 / 8 ∧ |(7 / 8 : ℚ)| ≤ 7 / 8 ∧ (7 / 8 : ℚ) ≤ 2 ^ 40 * (1 / 2) ∧
    |(0 : ℚ)| ≤ 3 ∧ |(3 : ℚ)| ≤ 3 ∧ (3 : ℚ) ≤ 2 ^ 40 * 1 := by
  refine ⟨⟨⟨⟨by simp, ?_⟩, by simp, ?_⟩, ⟨by simp, ?_⟩, by simp, ?_⟩, by norm_num, by norm_num, by norm_num [abs_le],
    by norm_num [abs_le], by norm_num, by norm_num, by norm_num, by norm_num⟩ <;> intro s hs <;> simp at hs <;>
    rcases hs with rfl | rfl | rfl <;> norm_num

example : getBins2R dbl [(-1 / 8, 0), (-5 / 8, 1)] 2 none = .ok ([-5 / 8, -1 / 8], [0, 1], [[0, 1], [1, 0]]) := by
  decide +kernel

/-- A null range along the second axis. -/
example : deltaR dbl 1 1 2 = 0 ∧ getBins2R dbl [(0, 1), (3, 1)] 2 none = .error .indexError := by
  constructor <;> decide +kernel

end Verif.KDE
