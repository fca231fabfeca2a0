import Verif.Features.PropsMfcc
import Verif.Datasets.PropsCodebooks

/-!
# Property C185: what codebooks are made of
-/

namespace Verif.Features

open Verif.Logger (Key)

variable {A : Type}

/-- The MFCC of a file. -/
def mfccOf (T : MelTools A) (read : Key → Py (ℚ × A)) (kw : Kw) (w : Key) : Py (List (List ℝ)) := do
  let p ← read w
  T.mfcc p.2 p.1 (completeMfccParams MFCC_PARAMS kw).2

theorem mfccs_mapM (T : MelTools A) (read : Key → Py (ℚ × A)) (kw : Kw) (wavs : List Key) :
    (T.mfccs read kw MFCC_PARAMS wavs).2 = wavs.mapM (mfccOf T read kw) := by
  induction wavs with
  | nil => rfl
  | cons w wavs ih =>
    rw [List.mapM_cons, ← ih]
    clear ih
    rw [MelTools.mfccs, mfccOf]
    rcases read w with e | ⟨sr, data⟩
    · rfl
    · simp only [bind, Except.bind]
      have hg : (completeMfccParams MFCC_PARAMS kw).1 = MFCC_PARAMS := rfl
      rw [hg]
      rcases T.mfcc data sr (completeMfccParams MFCC_PARAMS kw).2 with e | m
      · rfl
      · simp only []
        rcases h : T.mfccs read kw MFCC_PARAMS wavs with ⟨g, e | ms⟩
        · rfl
        · rfl

/-- **C185.** Building codebooks succeeds exactly when the MFCC of all sounds can be computed, with the arguments given,
there is a sound and there are three sizes, and the quantisations succeed; codebook `j` is then made, with size
number `j`, of the frames number `j` (MFCC, first and second derivatives) of all sounds in order. -/
theorem C185_codebooks (T : MelTools A) (read : Key → Py (ℚ × A)) (book : List (List ℝ) → ℕ → Py (List (List ℝ)))
    (wavs : List Key) (ks : List ℕ) (kw : Kw) (cbs : List (List (List ℝ))) :
    T.codebooks read book MFCC_PARAMS wavs ks kw = (MFCC_PARAMS, .ok cbs) ↔
      ∃ ms, List.Forall₂ (fun w m => ∃ sr data, read w = .ok (sr, data) ∧
          T.mfcc data sr (completeMfccParams MFCC_PARAMS kw).2 = .ok m) wavs ms ∧
        wavs ≠ [] ∧ 3 ≤ ks.length ∧ cbs.length = 3 ∧
        ∀ j < 3, ∃ k c, ks[j]? = some k ∧ cbs[j]? = some c ∧
          book (ms.flatMap fun m => if j = 0 then m else T.delta m j) k = .ok c := by
  have h1 : (T.codebooks read book MFCC_PARAMS wavs ks kw).2 =
      Datasets.codebooksFromWavs (mfccOf T read kw) id T.delta id book wavs ks := by
    have hm := mfccs_mapM T read kw wavs
    unfold MelTools.codebooks Datasets.codebooksFromWavs
    have hid : (fun w => (mfccOf T read kw w).map id) = mfccOf T read kw := by
      funext w
      rcases mfccOf T read kw w with e | m <;> rfl
    rw [hid, ← hm]
    rcases h : T.mfccs read kw MFCC_PARAMS wavs with ⟨g, e | ms⟩
    · rfl
    · simp only [bind, Except.bind]
      unfold MelTools.books
      simp only [bind, Except.bind, List.map_id, id]
  have h2 : (T.codebooks read book MFCC_PARAMS wavs ks kw).1 = MFCC_PARAMS := by
    have := mfccs_state T read kw wavs MFCC_PARAMS
    unfold MelTools.codebooks
    rcases h : T.mfccs read kw MFCC_PARAMS wavs with ⟨g', e | ms⟩
    · rw [h] at this
      exact this
    · rw [h] at this
      exact this
  have h3 : T.codebooks read book MFCC_PARAMS wavs ks kw = (MFCC_PARAMS, .ok cbs) ↔
      (T.codebooks read book MFCC_PARAMS wavs ks kw).2 = .ok cbs := by
    constructor
    · intro h; rw [h]
    · intro h; exact Prod.ext h2 h
  rw [h3, h1, Datasets.C171_codebooks]
  have h4 : ∀ w m, mfccOf T read kw w = .ok m ↔ ∃ sr data, read w = .ok (sr, data) ∧
      T.mfcc data sr (completeMfccParams MFCC_PARAMS kw).2 = .ok m := by
    intro w m
    unfold mfccOf
    rcases read w with e | ⟨sr, data⟩
    · simp [bind, Except.bind]
    · simp [bind, Except.bind]
  simp only [h4, id]

/-- Codebooks of two sounds, with sizes 2, 2 and 3. -/
example : ∃ cbs, exMel.codebooks (fun _ => .ok (16000, 7)) exBook MFCC_PARAMS ["a".toList, "b".toList] [2, 2, 3] [] =
      (MFCC_PARAMS, .ok cbs) ∧ ∃ (ms : List (List (List ℝ))) (c : List (List ℝ)), ms.length = 2 ∧ cbs[2]? = some c ∧
        exBook (ms.flatMap fun m => exMel.delta m 2) 3 = .ok c := by
  obtain ⟨cbs, hc⟩ : ∃ cbs, exMel.codebooks (fun _ => .ok (16000, 7)) exBook MFCC_PARAMS ["a".toList, "b".toList] [2, 2, 3] [] =
      (MFCC_PARAMS, .ok cbs) := ⟨_, rfl⟩
  obtain ⟨ms, h1, -, -, -, h2⟩ := (C185_codebooks _ _ _ _ _ _ _).1 hc
  obtain ⟨k, c, hk, hcb, hb⟩ := h2 2 (by decide)
  obtain rfl : 3 = k := Option.some.inj hk
  exact ⟨cbs, hc, ms, c, h1.length_eq.symm, hcb, hb⟩

end Verif.Features
