import Verif.KDE.PropsRounded

/-!
# Linear binning with doubles: cases
-/

namespace Verif.KDE

open Verif.Window

/-- **C211**: a bin can be negative: of -0.1, -0.6 and 0.9 in four bins, the third one is about -3.7e-17, though it
gets no negative weight without rounding (see C68). -/
theorem C211_negative : ∃ g b, getBins1R dbl [dbl (-1 / 10), dbl (-6 / 10), dbl (9 / 10)] 4 none = .ok (g, b) ∧
    b.length = 4 ∧ b.getD 2 0 < 0 := by
  have h : ((getBins1R dbl [dbl (-1 / 10), dbl (-6 / 10), dbl (9 / 10)] 4 none).toOption.map fun p =>
      decide (p.2.length = 4 ∧ p.2.getD 2 0 < 0)) = some true := by decide +kernel
  cases e : getBins1R dbl [dbl (-1 / 10), dbl (-6 / 10), dbl (9 / 10)] 4 none with
  | error e' => rw [e] at h; cases h
  | ok p =>
    rw [e] at h
    obtain ⟨h1, h2⟩ : p.2.length = 4 ∧ p.2.getD 2 0 < 0 := by simpa [Except.toOption] using h
    exact ⟨p.1, p.2, rfl, h1, h2⟩

/-- **C211**: the bin which is removed is not always null: of 0.1 and -0.2 in two bins. -/
theorem C211_dropped : ∃ full, fullBins1R dbl [dbl (1 / 10), dbl (-2 / 10)] (dbl (-2 / 10)) (dbl (1 / 10)) 2 = .ok full ∧
    full.getD 2 0 < 0 := by
  have h : ((fullBins1R dbl [dbl (1 / 10), dbl (-2 / 10)] (dbl (-2 / 10)) (dbl (1 / 10)) 2).toOption.map fun p =>
      decide (p.getD 2 0 < 0)) = some true := by decide +kernel
  cases e : fullBins1R dbl [dbl (1 / 10), dbl (-2 / 10)] (dbl (-2 / 10)) (dbl (1 / 10)) 2 with
  | error e' => rw [e] at h; cases h
  | ok p =>
    rw [e] at h
    exact ⟨p, rfl, by simpa [Except.toOption] using h⟩

/-- **C212**: both sizes occur with doubles: 0 and 1 in three bins give four values; 0.3 and 0.4 give five. -/
theorem C212_both : gaussianSizes1R dbl [0, 1] 3 none = .ok (3, 4) ∧
    gaussianSizes1R dbl [dbl (3 / 10), dbl (4 / 10)] 3 none = .ok (3, 5) := by
  constructor <;> decide +kernel

/-- Hypotheses of C211 and C212 for three samples in four bins. -/
example : Bounds none ([-1 / 8, -5 / 8, 7 / 8] : List ℚ) (-5 / 8) (7 / 8) ∧
    (1 / 2 : ℚ) = (7 / 8 - -5 / 8) / ((4 : ℕ) - 1) ∧ |(-5 / 8 : ℚ)| ≤ 7 / 8 ∧ |(7 / 8 : ℚ)| ≤ 7 / 8 ∧
    (7 / 8 : ℚ) ≤ 2 ^ 40 * (1 / 2) ∧ ((4 : ℕ) : ℚ) * (7 / 8 / (1 / 2)) ≤ 2 ^ 43 := by
  refine ⟨⟨⟨by simp, ?_⟩, by simp, ?_⟩, by norm_num, by norm_num [abs_le], by norm_num [abs_le], by norm_num,
    by norm_num⟩ <;> intro s hs <;> simp at hs <;> rcases hs with rfl | rfl | rfl <;> norm_num

example : getBins1R dbl [-1 / 8, -5 / 8, 7 / 8] 4 none = .ok ([-5 / 8, -1 / 8, 3 / 8, 7 / 8],
    [6004799503160661 / 9007199254740992, 6004799503160661 / 9007199254740992, 0,
      6004799503160661 / 9007199254740992]) := by
  decide +kernel

/-- A null range. -/
example : deltaR dbl 1 1 2 = 0 ∧ getBins1R dbl [1, 1] 2 none = .error .indexError := by
  constructor <;> decide +kernel

end Verif.KDE
