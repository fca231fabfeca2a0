import Verif.Window.PropsSteps

/-! # Cases of property C210 -/

namespace Verif.Window

open Verif

-- C210_zero.
example : arangePy 0 1 0 true TOL = .error .zeroDivisionError :=
  (C210_zero (α := ℕ) (γ := ℕ) 0 1 0 0 TOL true []).1.1

example : (concatOfFramesPy 0 1 4 : Py (Concat ℕ (Option ℕ))) = concatOfFrames 0 1 4 :=
  ((C210_zero (α := ℕ) (γ := ℕ) 0 1 0 4 TOL true []).2 (by norm_num)).2.2.1

-- C210_negative: from 1 to 0 by steps of 0.3 downwards, the last interval is of 0.4.
example : arange 1 0 (-3 / 10) true TOL = [1, 7 / 10, 4 / 10, 0] := by decide +kernel

example : arange 0 1 (-3 / 10) true TOL = [] :=
  (C210_negative 0 1 (-3 / 10) TOL true (by decide +kernel) (by norm_num)).1 (by norm_num)

example : ∃ n : ℕ, arange 1 0 (-3 / 10) true TOL = points 1 (-3 / 10) n ++ [0] := by
  obtain ⟨n, e, _⟩ := (C210_negative 1 0 (-3 / 10) TOL true (by decide +kernel) (by norm_num)).2 (by norm_num)
  exact ⟨n, e⟩

-- C210_small: a tolerance of 0.2 and steps of 0.3.
example : arange 0 1 (3 / 10) true (2 / 10) = [0, 3 / 10, 6 / 10, 1] := by decide +kernel

example : ∃ n : ℕ, arange 0 1 (3 / 10) true (2 / 10) = points 0 (3 / 10) n ++ [1] := by
  obtain ⟨n, e, _⟩ := (C210_small 0 1 (3 / 10) (2 / 10) true (by norm_num) (by norm_num)).2 (by norm_num) (by norm_num)
  exact ⟨n, e⟩

-- C210_slider_negative: windows of 0.5 from 1.2 downwards, in an interval which ends at 1.
example : slider (12 / 10) 1 (1 / 2) (-3 / 10) false TOL = [(12 / 10, 1), (9 / 10, 1), (1 / 2, 1)] := by decide +kernel

example : ∀ p ∈ slider (12 / 10) 1 (1 / 2) (-3 / 10) false TOL, p.2 = 1 := fun p hp =>
  (((C210_slider_negative (12 / 10) 1 (1 / 2) (-3 / 10) TOL (by decide +kernel) (by norm_num)).2 (by norm_num)).2 p hp).1

-- C210_slider_partials_negative.
example : slider 2 1 (1 / 2) (-3 / 10) true TOL = [(2, 1), (17 / 10, 1), (14 / 10, 1)] := by decide +kernel

example : slider 0 1 (1 / 2) (-3 / 10) true TOL = [] :=
  (C210_slider_partials_negative 0 1 (1 / 2) (-3 / 10) TOL (by decide +kernel) (by norm_num) (by norm_num)).1 (by norm_num)

-- C210_slider_small.
example : (slider 0 1 (1 / 2) (1 / 10) false (1 / 10)).getLast? = some (1 - 1 / 2, 1) :=
  ((C210_slider_small 0 1 (1 / 2) (1 / 10) (1 / 10) (by norm_num) (by norm_num)).2 (by norm_num) (by norm_num)).1

-- C210_frames_negative.
example : (concatOfFrames 2 (1 / 2) (-1) : Py (Concat ℕ (Option ℕ))) = .ok ⟨[.basic ⟨2, 1 / 2, none⟩]⟩ :=
  (C210_frames_negative 2 (1 / 2) (-1) (by norm_num) (by unfold TOL; norm_num)).2 (by norm_num) (by norm_num)

example : (concatOfFrames 4 (1 / 2) (-1) : Py (Concat ℕ (Option ℕ))) = .error .valueError :=
  (C210_frames_negative 4 (1 / 2) (-1) (by norm_num) (by unfold TOL; norm_num)).1 (.inr (by norm_num))

-- C210_negative_rate.
example : (ArrayWin.init [1, 2, 3] 0 (-2)).getSub (-1) 0 = .error .timeOutOfBound :=
  C210_negative_rate _ 0 (-2) _ _ (by simp) (by norm_num)

end Verif.Window
