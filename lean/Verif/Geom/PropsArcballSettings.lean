import Verif.Geom.PropsArcball

/-!
# Property C151: settings of the trackball
-/

namespace Verif.Geom

open Verif Real Matrix

theorem call_center (b : Ball) (x : Call) (h : ∀ c r, x ≠ .place c r) :
    (ballCall b x).1.center = b.center ∧ (ballCall b x).1.radius = b.radius := by
  cases x with
  | place c r => exact absurd rfl (h c r)
  | setaxes a => exact ⟨rfl, rfl⟩
  | setconstrain k => exact ⟨rfl, rfl⟩
  | down p =>
    simp only [ballCall, ballDown]
    split
    · exact ⟨rfl, rfl⟩
    · split
      · unfold ballPick
        split <;> exact ⟨rfl, rfl⟩
      · exact ⟨rfl, rfl⟩
  | drag p =>
    simp only [ballCall, ballDrag]
    split <;> exact ⟨rfl, rfl⟩
  | next a =>
    simp only [ballCall, ballNext]
    split <;> exact ⟨rfl, rfl⟩

theorem call_constrain (b : Ball) (x : Call) (h : ∀ k, x ≠ .setconstrain k) : (ballCall b x).1.constrain = b.constrain := by
  cases x with
  | place c r => rfl
  | setaxes a => rfl
  | setconstrain k => exact absurd rfl (h k)
  | down p =>
    simp only [ballCall, ballDown]
    split
    · rfl
    · split
      · unfold ballPick
        split <;> rfl
      · rfl
  | drag p =>
    simp only [ballCall, ballDrag]
    split <;> rfl
  | next a =>
    simp only [ballCall, ballNext]
    split <;> rfl

theorem call_axes (b : Ball) (x : Call) (h : ∀ l, x ≠ .setaxes l) : (ballCall b x).1.axes = b.axes := by
  cases x with
  | place c r => rfl
  | setaxes a => exact absurd rfl (h a)
  | setconstrain k => rfl
  | down p =>
    simp only [ballCall, ballDown]
    split
    · rfl
    · split
      · unfold ballPick
        split <;> rfl
      · rfl
  | drag p =>
    simp only [ballCall, ballDrag]
    split <;> rfl
  | next a =>
    simp only [ballCall, ballNext]
    split <;> rfl

theorem after_keeps {α : Type} (f : Ball → α) (P : Call → Prop) (h : ∀ b x, P x → f (ballCall b x).1 = f b) (post : List Call)
    (hp : ∀ x ∈ post, P x) (b : Ball) : f (ballAfter b post) = f b := by
  induction post generalizing b with
  | nil => rfl
  | cons x post ih =>
    show f (ballAfter (ballCall b x).1 post) = f b
    rw [ih (fun y hy => hp y (List.mem_cons_of_mem _ hy)), h b x (hp x List.mem_cons_self)]

theorem after_split (b : Ball) (pre post : List Call) (x : Call) :
    ballAfter b (pre ++ x :: post) = ballAfter (ballCall (ballAfter b pre) x).1 post := by
  simp [ballAfter, List.foldl_append]

/-- **C151.** The centre and the radius are those given by the last call of `place`, whatever calls follow; the constraint is
that of the last call of `setconstrain` and the axes are those of the last call of `setaxes`, made unit vectors. -/
theorem C151_settings (b : Ball) (pre post : List Call) :
    (∀ c r, (∀ x ∈ post, ∀ c' r', x ≠ .place c' r') →
      (ballAfter b (pre ++ .place c r :: post)).center = c ∧ (ballAfter b (pre ++ .place c r :: post)).radius = r) ∧
    (∀ k, (∀ x ∈ post, ∀ k', x ≠ .setconstrain k') → (ballAfter b (pre ++ .setconstrain k :: post)).constrain = k) ∧
    (∀ axes, (∀ x ∈ post, ∀ l, x ≠ .setaxes l) → ∃ us, (ballAfter b (pre ++ .setaxes axes :: post)).axes = some us ∧
      List.Forall₂ (fun a u => a ≠ 0 → ∃ v, u = some v ∧ dot3 v v = 1 ∧ ∃ s : ℝ, 0 < s ∧ a = s • v) axes us) := by
  refine ⟨fun c r h => ?_, fun k h => ?_, fun axes h => ?_⟩
  · rw [after_split]
    have h1 := after_keeps Ball.center (fun x => ∀ c r, x ≠ .place c r) (fun b x hx => (call_center b x hx).1) post h
    have h2 := after_keeps Ball.radius (fun x => ∀ c r, x ≠ .place c r) (fun b x hx => (call_center b x hx).2) post h
    rw [h1, h2]
    exact ⟨rfl, rfl⟩
  · rw [after_split, after_keeps Ball.constrain (fun x => ∀ k, x ≠ .setconstrain k) call_constrain post h]
    rfl
  · rw [after_split, after_keeps Ball.axes (fun x => ∀ l, x ≠ .setaxes l) call_axes post h]
    refine ⟨axes.map unit3, rfl, ?_⟩
    rw [List.forall₂_map_right_iff, List.forall₂_same]
    intro a _ ha
    obtain ⟨u, hu, h1, s, hs, hsu, -⟩ := (unit3_spec a).2 ha
    exact ⟨u, hu, h1, s, hs, hsu⟩

/-- **C151.** These calls show the same rotation. -/
theorem C151_settings_matrix (b : Ball) (c : ℝ × ℝ) (r : ℝ) (axes : List P3) (k : Bool) :
    ballMatrix (ballCall b (.place c r)).1 = ballMatrix b ∧ ballMatrix (ballCall b (.setaxes axes)).1 = ballMatrix b ∧
      ballMatrix (ballCall b (.setconstrain k)).1 = ballMatrix b := ⟨rfl, rfl, rfl⟩

/-- Two calls of `place`, then a press. -/
example (b : Ball) : (ballAfter b [.place (0, 0) 1, .place (1, 2) 3, .down (4, 4)]).radius = 3 :=
  ((C151_settings b [.place (0, 0) 1] [.down (4, 4)]).1 (1, 2) 3 (by simp)).2

end Verif.Geom
