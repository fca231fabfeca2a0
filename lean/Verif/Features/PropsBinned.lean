import Verif.Features.PropsHisto
import Verif.KDE.PropsValues

/-!
# Histograms of angles and velocities smoothed by a Gaussian kernel (C164)
-/

namespace Verif.Features

open Verif

/-- A pair of rationals as reals. -/
noncomputable def real2 (p : ℚ × ℚ) : ℝ × ℝ := (p.1, p.2)

/-- The estimator of `db_to_binned_hist_matrix`
(`/repo/multimodal/features/angle_histograms.py:141-149, 153`): `x[2].flatten()` for `x` given by
`gaussian_kde_2d`. -/
noncomputable def flatKde (s : List (ℚ × ℚ)) (h hVel : ℚ) (n : ℕ) (bounds : (ℚ × ℚ) × (ℚ × ℚ)) (fft : Bool) :
    Py (List ℝ) := do
  let k ← KDE.gaussian2 (s.map real2) h hVel n fft (some (real2 bounds.1, real2 bounds.2))
  return k.2.2.flatten

theorem flatten_length {n m : ℕ} {l : List (List ℝ)} (h : KDE.Shape n m l) : l.flatten.length = n * m := by
  obtain ⟨h1, h2⟩ := h
  rw [List.length_flatten, List.map_congr_left (g := fun _ => m) h2, List.map_const', List.sum_replicate, h1]
  rfl

/-- Values cut to bounds are in the bounds. -/
theorem cut_mem (bounds : Option (ℚ × ℚ)) (S : Set ℚ) (b : ℚ × ℚ) (h : Bounds bounds S b) (hlt : b.1 < b.2)
    (x : ℚ) (hx : x ∈ S) : b.1 ≤ cut bounds x ∧ cut bounds x ≤ b.2 := by
  cases bounds with
  | none => exact ⟨h.1.2 hx, h.2.2 hx⟩
  | some b' =>
    obtain rfl : b = b' := h
    exact ⟨le_max_right _ _, max_le (min_le_right _ _) hlt.le⟩

theorem estimator_bounds {d : ℕ} (angles : List (List (Fin d → ℚ))) (hne : ∀ a ∈ angles, a ≠ [])
    (bounds velBounds : Option (ℚ × ℚ)) (b vb : ℚ × ℚ)
    (hb : Bounds bounds {x | ∃ a ∈ angles, ∃ r ∈ a, ∃ j, r j = x} b)
    (hvb : Bounds velBounds {x | ∃ a ∈ angles, ∃ t < a.length, ∃ j, vel a t j = x} vb)
    (hlt : b.1 < b.2) (hvlt : vb.1 < vb.2) (a : List (Fin d → ℚ)) (ha : a ∈ angles) (j : Fin d) :
    KDE.Bounds2 (some (real2 (b.1, vb.1), real2 (b.2, vb.2)))
      (((List.range a.length).map fun t =>
        (cut bounds (a.getD t 0 j), cut velBounds (vel a t j))).map real2)
      (b.1 : ℝ) (vb.1 : ℝ) (b.2 : ℝ) (vb.2 : ℝ) := by
  refine ⟨rfl, ?_, ?_⟩
  · simpa using hne a ha
  · intro s hs
    obtain ⟨p, hp, rfl⟩ := List.mem_map.1 hs
    obtain ⟨t, ht, rfl⟩ := List.mem_map.1 hp
    rw [List.mem_range] at ht
    have h1 := cut_mem bounds _ b hb hlt (a.getD t 0 j) ⟨a, ha, a[t], List.getElem_mem ht, j, by
      rw [List.getD_eq_getElem?_getD, List.getElem?_eq_getElem ht, Option.getD_some]⟩
    have h2 := cut_mem velBounds _ vb hvb hvlt (vel a t j) ⟨a, ha, t, ht, j, rfl⟩
    simp only [real2]
    exact ⟨⟨by exact_mod_cast h1.1, by exact_mod_cast h1.2⟩, by exact_mod_cast h2.1, by exact_mod_cast h2.2⟩

/-- **C164**: `db_to_binned_hist_matrix` gives a line for each record, and in it for each degree of freedom
the density estimate of the pairs of angles and velocities, with `s * s` values for `s` the integer part of
the square root of the number of bins, in the order of lines (angles) then columns (velocities).  Values are
not negative, and their sum times the area of a cell is positive and at most 1. -/
theorem C164_features {d : ℕ} (hd : 0 < d) (angles : List (List (Fin d → ℚ))) (ha : angles ≠ [])
    (hne : ∀ a ∈ angles, a ≠ []) (vd : ℤ) (vp : String) (nbBins : ℕ) (hnb : 4 ≤ nbBins)
    (bounds velBounds : Option (ℚ × ℚ)) (relH : ℚ) (hrel : relH ≠ 0) (fft : Bool) (b vb : ℚ × ℚ)
    (hb : Bounds bounds {x | ∃ a ∈ angles, ∃ r ∈ a, ∃ j, r j = x} b)
    (hvb : Bounds velBounds {x | ∃ a ∈ angles, ∃ t < a.length, ∃ j, vel a t j = x} vb)
    (hlt : b.1 < b.2) (hvlt : vb.1 < vb.2) (s : ℕ) (hs : s * s ≤ nbBins ∧ nbBins < (s + 1) * (s + 1)) :
    ∃ K : List (Fin d → ℚ) → Fin d → List (List ℝ),
      dbToBinnedHistMatrix flatKde angles vd vp nbBins bounds velBounds relH fft =
        .ok (angles.map fun a => (List.finRange d).flatMap fun j => (K a j).flatten) ∧
      ∀ a ∈ angles, ∀ j, KDE.Shape s s (K a j) ∧ (∀ row ∈ K a j, ∀ v ∈ row, 0 ≤ v) ∧
        (∃ gx gy, KDE.gaussian2 ((List.range a.length).map fun t =>
            ((cut bounds (a.getD t 0 j) : ℝ), (cut velBounds (vel a t j) : ℝ)))
          ((relH : ℝ) * (b.2 - b.1)) ((relH : ℝ) * (vb.2 - vb.1)) s fft
          (some ((b.1, vb.1), (b.2, vb.2))) = .ok (gx, gy, K a j)) ∧
        0 < ((K a j).map List.sum).sum *
          ((((b.2 : ℝ) - b.1) / ((s : ℝ) - 1)) * (((vb.2 : ℝ) - vb.1) / ((s : ℝ) - 1))) ∧
        ((K a j).map List.sum).sum *
          ((((b.2 : ℝ) - b.1) / ((s : ℝ) - 1)) * (((vb.2 : ℝ) - vb.1) / ((s : ℝ) - 1))) ≤ 1 := by
  have hsq : Nat.sqrt nbBins = s := by
    apply le_antisymm
    · rw [← Nat.lt_succ_iff, Nat.sqrt_lt]
      exact hs.2
    · rw [Nat.le_sqrt]
      exact hs.1
  have hs2 : 2 ≤ s := by
    rw [← hsq, Nat.le_sqrt]
    exact hnb
  have hltR : (b.1 : ℝ) < b.2 := by exact_mod_cast hlt
  have hvltR : (vb.1 : ℝ) < vb.2 := by exact_mod_cast hvlt
  have hh1 : ((relH * (b.2 - b.1) : ℚ) : ℝ) ≠ 0 := by
    have : relH * (b.2 - b.1) ≠ 0 := mul_ne_zero hrel (sub_pos.2 hlt).ne'
    exact_mod_cast this
  have hh2 : ((relH * (vb.2 - vb.1) : ℚ) : ℝ) ≠ 0 := by
    have : relH * (vb.2 - vb.1) ≠ 0 := mul_ne_zero hrel (sub_pos.2 hvlt).ne'
    exact_mod_cast this
  have hE := fun (a : List (Fin d → ℚ)) (ha : a ∈ angles) (j : Fin d) =>
    KDE.C107_mass _ _ _ hh1 hh2 s hs2 fft _ _ _ _ _
      (estimator_bounds angles hne bounds velBounds b vb hb hvb hlt hvlt a ha j) hltR hvltR
  classical
  choose! gx gy K hK1 hK2 hK3 hK4 hK5 hK6 hK7 using hE
  refine ⟨K, ?_, ?_⟩
  · refine binned_eq hd flatKde (fun a j => (K a j).flatten) angles ha vd vp nbBins bounds velBounds relH fft b
      vb hb hvb fun a ha j => ?_
    unfold flatKde
    rw [hsq, hK1 a ha j]
    rfl
  · intro a ha j
    refine ⟨hK4 a ha j, hK5 a ha j, ⟨gx a j, gy a j, ?_⟩, hK6 a ha j, hK7 a ha j⟩
    rw [← hK1 a ha j, List.map_map]
    congr 1 <;> push_cast <;> rfl

/-- **C164**: so lines have as many values as degrees of freedom times the square of `s`. -/
theorem C164_lengths {d : ℕ} (hd : 0 < d) (angles : List (List (Fin d → ℚ))) (ha : angles ≠ [])
    (hne : ∀ a ∈ angles, a ≠ []) (vd : ℤ) (vp : String) (nbBins : ℕ) (hnb : 4 ≤ nbBins)
    (bounds velBounds : Option (ℚ × ℚ)) (relH : ℚ) (hrel : relH ≠ 0) (fft : Bool) (b vb : ℚ × ℚ)
    (hb : Bounds bounds {x | ∃ a ∈ angles, ∃ r ∈ a, ∃ j, r j = x} b)
    (hvb : Bounds velBounds {x | ∃ a ∈ angles, ∃ t < a.length, ∃ j, vel a t j = x} vb)
    (hlt : b.1 < b.2) (hvlt : vb.1 < vb.2) (s : ℕ) (hs : s * s ≤ nbBins ∧ nbBins < (s + 1) * (s + 1)) :
    ∃ rows, dbToBinnedHistMatrix flatKde angles vd vp nbBins bounds velBounds relH fft = .ok rows ∧
      rows.length = angles.length ∧ ∀ row ∈ rows, row.length = d * (s * s) ∧ ∀ v ∈ row, 0 ≤ v := by
  obtain ⟨K, e, hK⟩ := C164_features hd angles ha hne vd vp nbBins hnb bounds velBounds relH hrel fft b vb
    hb hvb hlt hvlt s hs
  refine ⟨_, e, by simp, ?_⟩
  intro row hr
  obtain ⟨a, ha, rfl⟩ := List.mem_map.1 hr
  refine ⟨?_, ?_⟩
  · rw [List.length_flatMap, List.map_congr_left (g := fun _ => s * s)
      (fun j _ => flatten_length (hK a ha j).1), List.map_const', List.sum_replicate, List.length_finRange]
    rfl
  · intro v hv
    obtain ⟨j, -, hv⟩ := List.mem_flatMap.1 hv
    obtain ⟨row, h1, h2⟩ := List.mem_flatten.1 hv
    exact (hK a ha j).2.1 row h1 v h2

theorem binned_error {d : ℕ} {R : Type} (hd : 0 < d)
    (kde : List (ℚ × ℚ) → ℚ → ℚ → ℕ → (ℚ × ℚ) × (ℚ × ℚ) → Bool → Py (List R)) (e : PyErr)
    (angles : List (List (Fin d → ℚ))) (ha : angles ≠ []) (hne : ∀ a ∈ angles, a ≠ [])
    (vd : ℤ) (vp : String) (nbBins : ℕ)
    (bounds velBounds : Option (ℚ × ℚ)) (relH : ℚ) (fft : Bool) (b vb : ℚ × ℚ)
    (hb : Bounds bounds {x | ∃ a ∈ angles, ∃ r ∈ a, ∃ j, r j = x} b)
    (hvb : Bounds velBounds {x | ∃ a ∈ angles, ∃ t < a.length, ∃ j, vel a t j = x} vb)
    (hK : ∀ samples, samples ≠ [] → (∀ p ∈ samples, (∃ x ∈ {x | ∃ a ∈ angles, ∃ r ∈ a, ∃ j, r j = x},
          p.1 = cut bounds x) ∧ ∃ x ∈ {x | ∃ a ∈ angles, ∃ t < a.length, ∃ j, vel a t j = x},
          p.2 = cut velBounds x) →
      kde samples (relH * (b.2 - b.1)) (relH * (vb.2 - vb.1)) (Nat.sqrt nbBins)
        ((b.1, vb.1), (b.2, vb.2)) fft = .error e) :
    dbToBinnedHistMatrix kde angles vd vp nbBins bounds velBounds relH fft = .error e := by
  have hv := mapM_ok (fun a : List (Fin d → ℚ) => Utils.delayedVelocities 1 a "zeros")
    (fun a => (List.range a.length).map fun t => vel a t) angles fun a _ => vels_eq a
  have hav : dbToAnglesAndVels angles 1 "zeros" =
      .ok (angles, angles.map fun a => (List.range a.length).map fun t => vel a t) := by
    unfold dbToAnglesAndVels
    rw [hv]
    rfl
  have hvb' : Bounds velBounds {x | ∃ a ∈ angles.map fun a : List (Fin d → ℚ) =>
      (List.range a.length).map fun t => vel a t, ∃ r ∈ a, ∃ j, r j = x} vb := by
    have e : {x | ∃ a ∈ angles.map fun a : List (Fin d → ℚ) =>
        (List.range a.length).map fun t => vel a t, ∃ r ∈ a, ∃ j, r j = x} =
        {x | ∃ a ∈ angles, ∃ t < a.length, ∃ j, vel a t j = x} := by
      ext x
      simp
    rw [e]
    exact hvb
  unfold dbToBinnedHistMatrix
  rw [hav]
  simp only [bind, Except.bind]
  rw [boundsAndData_eq bounds angles b hb]
  simp only []
  rw [boundsAndData_eq velBounds _ vb hvb']
  simp only [List.map_map]
  rw [List.zip_map', List.mapM_map]
  simp only [Function.comp_def]
  obtain ⟨a, l, rfl⟩ := List.exists_cons_of_ne_nil ha
  obtain ⟨n, rfl⟩ : ∃ n, d = n + 1 := ⟨d - 1, by omega⟩
  rw [List.mapM_cons, List.finRange_succ, List.mapM_cons]
  have hane := hne a List.mem_cons_self
  rw [hK]
  · rfl
  · intro e
    have := congrArg List.length e
    simp at this
    exact hane this
  · intro p hp
    rw [List.mem_iff_getElem] at hp
    obtain ⟨t, ht, rfl⟩ := hp
    simp only [List.length_zipWith, List.length_map, List.length_range, min_self] at ht
    simp only [List.getElem_zipWith, List.getElem_map, List.getElem_range]
    exact ⟨⟨_, ⟨a, List.mem_cons_self, a[t], List.getElem_mem ht, 0, rfl⟩, rfl⟩,
      ⟨_, ⟨a, List.mem_cons_self, t, ht, 0, rfl⟩, rfl⟩⟩

/-- **C164**: errors: fewer than four bins, then a null range of angles or velocities, then a null relative
width. -/
theorem C164_errors {d : ℕ} (hd : 0 < d) (angles : List (List (Fin d → ℚ))) (ha : angles ≠ [])
    (hne : ∀ a ∈ angles, a ≠ []) (vd : ℤ) (vp : String) (nbBins : ℕ)
    (bounds velBounds : Option (ℚ × ℚ)) (relH : ℚ) (fft : Bool) (b vb : ℚ × ℚ)
    (hb : Bounds bounds {x | ∃ a ∈ angles, ∃ r ∈ a, ∃ j, r j = x} b)
    (hvb : Bounds velBounds {x | ∃ a ∈ angles, ∃ t < a.length, ∃ j, vel a t j = x} vb) :
    (nbBins < 4 →
      dbToBinnedHistMatrix flatKde angles vd vp nbBins bounds velBounds relH fft = .error .valueError) ∧
    (4 ≤ nbBins → b.1 = b.2 ∨ vb.1 = vb.2 →
      dbToBinnedHistMatrix flatKde angles vd vp nbBins bounds velBounds relH fft = .error .indexError) ∧
    (4 ≤ nbBins → b.1 < b.2 → vb.1 < vb.2 → relH = 0 →
      dbToBinnedHistMatrix flatKde angles vd vp nbBins bounds velBounds relH fft =
        .error .zeroDivisionError) := by
  refine ⟨fun h => ?_, fun h h0 => ?_, fun h h1 h2 h0 => ?_⟩ <;>
    refine binned_error hd flatKde _ angles ha hne vd vp nbBins bounds velBounds relH fft b vb hb hvb
      fun samples hs hin => ?_
  · unfold flatKde KDE.gaussian2 KDE.getBins2
    have : Nat.sqrt nbBins < 2 := by
      rw [Nat.sqrt_lt]
      exact h
    rw [if_pos (by omega)]
    rfl
  · have h2 : 2 ≤ Nat.sqrt nbBins := by
      rw [Nat.le_sqrt]
      exact h
    unfold flatKde
    rw [(KDE.C107_errors _ _ _ _ fft _).1 .indexError]
    · rfl
    · unfold KDE.getBins2
      rw [if_neg (by omega)]
      simp only [KDE.bounds2, bind, Except.bind]
      unfold KDE.fullBins2
      simp only []
      rw [if_pos]
      refine ⟨?_, by simpa using hs⟩
      rcases h0 with h0 | h0
      · left
        simp [real2, h0]
      · right
        simp [real2, h0]
  · have h3 : 2 ≤ Nat.sqrt nbBins := by
      rw [Nat.le_sqrt]
      exact h
    unfold flatKde
    rw [(KDE.C107_errors _ _ _ _ fft _).2 (b.1 : ℝ) (vb.1 : ℝ) (b.2 : ℝ) (vb.2 : ℝ) (by omega) ?_
      (by exact_mod_cast h1) (by exact_mod_cast h2) (Or.inl (by simp [h0]))]
    · rfl
    · refine ⟨rfl, by simpa using hs, ?_⟩
      intro s hs'
      obtain ⟨p, hp, rfl⟩ := List.mem_map.1 hs'
      obtain ⟨⟨x, hx, e1⟩, y, hy, e2⟩ := hin p hp
      have c1 := cut_mem bounds _ b hb h1 x hx
      have c2 := cut_mem velBounds _ vb hvb h2 y hy
      rw [← e1] at c1
      rw [← e2] at c2
      simp only [real2]
      exact ⟨⟨by exact_mod_cast c1.1, by exact_mod_cast c1.2⟩, by exact_mod_cast c2.1,
        by exact_mod_cast c2.2⟩

example : ∃ b vb : ℚ × ℚ, Bounds none {x | ∃ a ∈ [[(fun _ => 1 : Fin 1 → ℚ), fun _ => 3]], ∃ r ∈ a, ∃ j,
    r j = x} b ∧ Bounds (some (0, 1)) {x | ∃ a ∈ [[(fun _ => 1 : Fin 1 → ℚ), fun _ => 3]], ∃ t < a.length, ∃ j,
      vel a t j = x} vb ∧ b.1 < b.2 ∧ vb.1 < vb.2 := by
  refine ⟨(1, 3), (0, 1), ⟨⟨⟨_, List.mem_singleton_self _, fun _ => 1, by simp, 0, rfl⟩, ?_⟩,
    ⟨_, List.mem_singleton_self _, fun _ => 3, by simp, 0, rfl⟩, ?_⟩, rfl, by norm_num, by norm_num⟩
  · rintro x ⟨a, ha, r, hr, j, rfl⟩
    rw [List.mem_singleton] at ha
    subst ha
    simp only [List.mem_cons, List.not_mem_nil, or_false] at hr
    rcases hr with rfl | rfl <;> norm_num
  · rintro x ⟨a, ha, r, hr, j, rfl⟩
    rw [List.mem_singleton] at ha
    subst ha
    simp only [List.mem_cons, List.not_mem_nil, or_false] at hr
    rcases hr with rfl | rfl <;> norm_num

end Verif.Features
