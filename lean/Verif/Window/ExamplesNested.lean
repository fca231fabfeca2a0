import Verif.Window.PropsNested

/-! # Concrete cases of nested concatenations -/

namespace Verif.Window

open Verif

namespace NestedExamples

/-- No file. -/
def noFiles : WavFiles ℕ := fun _ => (1, [])

/-- A concatenation, as an element. -/
def node {n : ℕ} (cs : List (Nest ℕ ℕ n)) : Nest ℕ ℕ (n + 1) := Sum.inr cs

/-- A window of a basic class, as an element. -/
def leaf {n : ℕ} (w : Win ℕ ℕ) : Nest ℕ ℕ (n + 1) := Sum.inl w

theorem two {A : Type} {P : A → Prop} {a b : A} (ha : P a) (hb : P b) : ∀ c ∈ [a, b], P c := by
  intro c hc
  rcases List.mem_cons.mp hc with rfl | hc
  · exact ha
  · rw [List.mem_singleton.mp hc]; exact hb

/-- Labels on `[s, e]`. -/
def lab (s e : ℚ) (n : ℕ) : Nest ℕ ℕ 0 := Win.basic ⟨s, e, n⟩

/-- Samples at rate 2 from `s`. -/
def arr (s : ℚ) (l : List ℕ) : Win ℕ ℕ := .array (ArrayWin.init l s 2)

/-- A tree with two levels: `[[0, 1] [1, 3]] [3, 5]`. -/
def tree : List (Nest ℕ ℕ 1) :=
  [node [lab 0 1 7, lab 1 3 8], leaf (Win.basic ⟨3, 5, 9⟩)]

theorem tree_filled : ∀ c ∈ tree, Filled 1 c :=
  two ⟨by simp, fun _ _ => trivial⟩ trivial

theorem tree_cover : Cover noFiles (tree.flatMap (leaves 1)) := by
  have e : tree.flatMap (leaves 1) =
      [.basic ⟨0, 1, 7⟩, .basic ⟨1, 3, 8⟩, .basic ⟨3, 5, 9⟩] := rfl
  rw [e]
  refine ⟨by simp, by simp [Aligned, Win.start, Win.stop], ?_, ?_⟩
  · intro w hw
    simp only [List.mem_cons, List.not_mem_nil, or_false] at hw
    rcases hw with rfl | rfl | rfl <;> norm_num [Win.Good]
  · intro w hw
    simp only [List.tail_cons, List.mem_cons, List.not_mem_nil, or_false] at hw
    rcases hw with rfl | rfl <;> norm_num [Win.start, Win.stop]

-- The crop to `[1/2, 4]` cuts windows of both elements.
example : (nestGetSub (nestOps noFiles 1) tree (1 / 2) 4).map (fun r => r.flatMap (leaves 1)) =
    .ok [.basic ⟨1 / 2, 1, 7⟩, .basic ⟨1, 3, 8⟩, .basic ⟨3, 4, 9⟩] := by decide +kernel

example : (nestGetSub (nestOps noFiles 1) tree (1 / 2) 4).map (fun r => r.flatMap (leaves 1)) =
    (Concat.getSub ⟨tree.flatMap (leaves 1)⟩ (1 / 2) 4).map (fun c => c.windows) :=
  C213_crop noFiles 1 tree (by simp [tree]) tree_filled tree_cover _ _ (by norm_num)

example : nestStart (nestOps noFiles 1) tree = .ok 0 ∧ nestStop (nestOps noFiles 1) tree = .ok 5 :=
  C213_bounds noFiles 1 tree (by simp [tree]) tree_filled

example : ∃ r, nestCopy (nestOps noFiles 1) tree = .ok r ∧ r ≠ [] ∧ (∀ c ∈ r, Filled 1 c) ∧
    r.flatMap (leaves 1) = tree.flatMap (leaves 1) :=
  C213_copy noFiles 1 tree (by simp [tree]) tree_filled tree_cover

example : ∃ c w, nestGetSubAt (nestOps noFiles 1) tree (3 / 2) = .ok c ∧ c ∈ tree ∧
    Concat.getSubAt ⟨tree.flatMap (leaves 1)⟩ (3 / 2) = .ok w ∧ w ∈ leaves 1 c ∧
    w.start ≤ 3 / 2 ∧ 3 / 2 ≤ w.stop :=
  C213_lookup noFiles 1 tree (by simp [tree]) tree_filled tree_cover _
    (by show (0 : ℚ) ≤ 3 / 2; norm_num) (by show (3 / 2 : ℚ) ≤ 5; norm_num)

example : ((concatOps (nestOps noFiles 1)).move tree 2).flatMap (leaves 1) =
    [.basic ⟨2, 3, 7⟩, .basic ⟨3, 5, 8⟩, .basic ⟨5, 7, 9⟩] := by
  rw [C213_move noFiles 1 tree (by simp [tree]) tree_filled]
  decide +kernel

-- The tree is accepted by constructors, and rejected with a gap inside its first element.
example : Built noFiles 2 (node tree) :=
  (C213_built noFiles 2 _).mpr ⟨⟨by simp [tree], tree_filled⟩, tree_cover.aligned.consecutive⟩

example : ¬ Built noFiles 2 (node [node [lab 0 1 7, lab 2 3 8]]) := by
  rw [C213_built]
  rintro ⟨_, h⟩
  have e : leaves 2 (node [node [lab 0 1 7, lab 2 3 8]]) =
    [.basic ⟨0, 1, 7⟩, .basic ⟨2, 3, 8⟩] := rfl
  rw [e] at h
  norm_num [Consecutive, Win.start, Win.stop, TOL] at h

/-- Samples of a tree. -/
def sampled : List (Nest ℕ ℕ 1) := [node [arr 0 [1, 2], arr 1 [3, 4]], leaf (arr 2 [5])]

example : nestToArray (nestOps noFiles 1) sampled =
    .ok (ArrayWin.init [1, 2, 3, 4, 5] 0 2) := by
  refine (C213_samples noFiles 1 sampled (by simp [sampled]) ?_ _).mpr (by decide +kernel)
  exact two ⟨by simp, fun _ _ => trivial⟩ trivial

-- Aligning two elements at 10.
example : ∃ r, nestAlignFrom (nestOps noFiles 1) 10
    [node [lab 0 1 7, lab 1 3 8], leaf (Win.basic ⟨100, 102, 9⟩)] = .ok r ∧
    (∀ c ∈ r, Filled 1 c) ∧ r.flatMap (leaves 1) =
      [.basic ⟨10, 11, 7⟩, .basic ⟨11, 13, 8⟩, .basic ⟨13, 15, 9⟩] := by
  have h := C213_align noFiles 1 [node [lab 0 1 7, lab 1 3 8], leaf (Win.basic ⟨100, 102, 9⟩)]
    (two ⟨by simp, fun _ _ => trivial⟩ trivial)
    (two (by
      have e : leaves 1 (node [lab 0 1 7, lab 1 3 8]) =
        [.basic ⟨0, 1, 7⟩, .basic ⟨1, 3, 8⟩] := rfl
      rw [e]
      simp [Aligned, Win.start, Win.stop]) (List.IsChain.singleton _)) 10
  have e : Concat.alignFrom 10 (([node [lab 0 1 7, lab 1 3 8],
      leaf (Win.basic ⟨100, 102, 9⟩)] : List (Nest ℕ ℕ 1)).flatMap (leaves 1)) =
      [.basic ⟨10, 11, 7⟩, .basic ⟨11, 13, 8⟩, .basic ⟨13, 15, 9⟩] := by decide +kernel
  rw [e] at h
  exact h

end NestedExamples

open NestedExamples

/-- **C213.** Windows of null duration inside a tree may disappear: the crop of an element to its
own end stops at the first window which ends there. -/
theorem C213_null_duration :
    (nestGetSub (nestOps noFiles 1) [node [lab 0 1 7, lab 1 1 8], leaf (Win.basic ⟨1, 2, 9⟩)]
      (1 / 2) (3 / 2)).map (fun r => r.flatMap (leaves 1)) =
      .ok [.basic ⟨1 / 2, 1, 7⟩, .basic ⟨1, 3 / 2, 9⟩] ∧
    (Concat.getSub (α := ℕ) ⟨[.basic ⟨0, 1, 7⟩, .basic ⟨1, 1, 8⟩, .basic ⟨1, 2, 9⟩]⟩
      (1 / 2) (3 / 2)).map (fun c => c.windows) =
      .ok [.basic ⟨1 / 2, 1, 7⟩, .basic ⟨1, 1, 8⟩, .basic ⟨1, 3 / 2, 9⟩] := by
  decide +kernel

/-- **C213.** Bounds in the wrong order raise another exception in a tree. -/
theorem C213_reversed :
    (nestGetSub (nestOps noFiles 1) [node [lab 0 1 7, lab 1 3 8]] 2 (1 / 2)).map
      (fun r => r.flatMap (leaves 1)) = .error .timeOutOfBound ∧
    (Concat.getSub (α := ℕ) ⟨[.basic ⟨0, 1, 7⟩, .basic ⟨1, 3, 8⟩]⟩ 2 (1 / 2)).map
      (fun c => c.windows) = .error .indexError := by
  decide +kernel

/-- **C213.** Windows without samples may raise another exception in a tree. -/
theorem C213_samples_error :
    nestToArray (nestOps noFiles 1)
      [node [arr 0 [1, 2], (.array (ArrayWin.init [3] 1 1) : Win ℕ ℕ)], leaf (Win.basic ⟨2, 3, 9⟩)] =
      .error .valueError ∧
    Concat.toArray noFiles ⟨[arr 0 [1, 2], .array (ArrayWin.init [3] 1 1), .basic ⟨2, 3, 9⟩]⟩ =
      .error .attributeError := by
  decide +kernel

/-- **C213.** `align` does not close a gap inside an element, which constructors allow when it
is below the tolerance. -/
theorem C213_align_gap :
    (nestAlignFrom (nestOps noFiles 1) 0
      [node [lab 0 1 7, lab (1 + TOL) 3 8], leaf (Win.basic ⟨5, 6, 9⟩)]).map
        (fun r => r.flatMap (leaves 1)) =
      .ok [.basic ⟨0, 1, 7⟩, .basic ⟨1 + TOL, 3, 8⟩, .basic ⟨3, 4, 9⟩] ∧
    Concat.alignFrom (α := ℕ) 0 [.basic ⟨0, 1, 7⟩, .basic ⟨1 + TOL, 3, 8⟩, .basic ⟨5, 6, 9⟩] =
      [.basic ⟨0, 1, 7⟩, .basic ⟨1, 3 - TOL, 8⟩, .basic ⟨3 - TOL, 4 - TOL, 9⟩] ∧
    (nestInit (nestOps noFiles 0) [lab 0 1 7, lab (1 + TOL) 3 8]).isOk = true := by
  decide +kernel

end Verif.Window
