import Verif.Features.Model
import Verif.Datasets.Codebooks

/-!
# Model of the parameters of MFCC in `multimodal/features/hac.py`

Keyword arguments go through `**mfcc_params`.  The routines of librosa and `vq` are parameters; streams are lists of
frames (transposed matrices).  The dictionary `MFCC_PARAMS` is a global variable: functions return it with their result.
-/

namespace Verif.Features

open Verif.Logger (Key)

/-- Values of keyword arguments: integers and others. -/
inductive Arg
  | int (n : ℤ)
  | other (s : Key)
  deriving DecidableEq

/-- Keyword arguments. -/
abbrev Kw := Dict Key Arg

/-- A spectrogram: its number of bands (`S.shape[0]`) and its frames. -/
structure Spec where
  bands : ℕ
  frames : List (List ℝ)

/-- What `hac.py` imports: `melspectrogram(y=…, sr=…, **kw)`, `logamplitude`, `dct`, `delta` and `vq`. -/
structure MelTools (A : Type) where
  mel : A → ℚ → Kw → Py Spec
  logamplitude : Spec → Spec
  dct : Arg → ℕ → Py (List (List ℝ))
  delta : List (List ℝ) → ℕ → List (List ℝ)
  vq : List (List ℝ) → List (List ℝ) → Py (List ℕ)

variable {A : Type}

/-- `MFCC_PARAMS` (`/repo/multimodal/features/hac.py:30-35`). -/
def MFCC_PARAMS : Kw := [("n_mfcc".toList, .int 13)]

/-- `d.update(values)`. -/
def dictUpdate (d values : Kw) : Kw := values.foldl (fun d p => dictSet d p.1 p.2) d

/-- `complete_mfcc_params` (`/repo/multimodal/features/hac.py:38-41`): the global dictionary and the result. -/
def completeMfccParams (g values : Kw) : Kw × Kw := (g, dictUpdate g values)

/-- Product of a line and a frame. -/
def dotList (r x : List ℝ) : ℝ := (List.zipWith (· * ·) r x).sum

/-- The body of `mfcc` (`/repo/multimodal/features/hac.py:64-65`): an argument `y` among others is given twice. -/
def MelTools.mfccBody (T : MelTools A) (data : A) (sr : ℚ) (n : Arg) (kwargs : Kw) : Py (List (List ℝ)) :=
  if "y".toList ∈ dictKeys kwargs then .error .typeError
  else do
    let s := T.logamplitude (← T.mel data sr kwargs)
    let d ← T.dct n s.bands
    return s.frames.map fun x => d.map fun r => dotList r x

/-- `mfcc(data, sr=sr, **params)` (`/repo/multimodal/features/hac.py:44-65`): `data` and `sr` would be given twice;
`n_mfcc` is taken out of keyword arguments. -/
def MelTools.mfcc (T : MelTools A) (data : A) (sr : ℚ) (params : Kw) : Py (List (List ℝ)) :=
  if "data".toList ∈ dictKeys params ∨ "sr".toList ∈ dictKeys params then .error .typeError
  else T.mfccBody data sr ((dictGet? params "n_mfcc".toList).getD (.int 20)) (params.filter fun p => p.1 ≠ "n_mfcc".toList)

/-- `compute_coocurrences` (`/repo/multimodal/features/hac.py:172-175`). -/
def MelTools.cooc (T : MelTools A) (lags : List ℤ) (p : List (List ℝ) × List (List ℝ)) : Py (List ℕ) := do
  let q ← T.vq p.1 p.2
  let coocs ← lags.mapM (coocurrences q p.2.length)
  hstack1 coocs

/-- `hac(data, sr, codebooks, lags, **kw)` (`/repo/multimodal/features/hac.py:178-196`). -/
def MelTools.hac (T : MelTools A) (g : Kw) (data : A) (sr : ℚ) (codebooks : List (List (List ℝ))) (lags : List ℤ) (kw : Kw) :
    Kw × Py (List ℕ) :=
  let c := completeMfccParams g kw
  (c.1, do
    let m ← T.mfcc data sr c.2
    let streams := [m, T.delta m 1, T.delta m 2]
    let blocks ← (streams.zip codebooks).mapM (T.cooc lags)
    hstack1 blocks)

/-- `wav2hac(path, codebooks, lags, **kw)` (`/repo/multimodal/features/hac.py:199-201`): arguments `data` and `sr` would be
given twice to `hac`. -/
def MelTools.wav2hac (T : MelTools A) (read : Key → Py (ℚ × A)) (g : Kw) (path : Key) (codebooks : List (List (List ℝ)))
    (lags : List ℤ) (kw : Kw) : Kw × Py (List ℕ) :=
  match read path with
  | .error e => (g, .error e)
  | .ok (sr, data) =>
    if "data".toList ∈ dictKeys kw ∨ "sr".toList ∈ dictKeys kw then (g, .error .typeError)
    else T.hac g data sr codebooks lags kw

/-- The MFCC of files (`/repo/multimodal/features/hac.py:126-131`). -/
def MelTools.mfccs (T : MelTools A) (read : Key → Py (ℚ × A)) (kw : Kw) : Kw → List Key → Kw × Py (List (List (List ℝ)))
  | g, [] => (g, .ok [])
  | g, w :: wavs =>
    match read w with
    | .error e => (g, .error e)
    | .ok (sr, data) =>
      let c := completeMfccParams g kw
      match T.mfcc data sr c.2 with
      | .error e => (c.1, .error e)
      | .ok m =>
        match T.mfccs read kw c.1 wavs with
        | (g, .error e) => (g, .error e)
        | (g, .ok ms) => (g, .ok (m :: ms))

/-- The codebooks of streams (`/repo/multimodal/features/hac.py:137-149`); `book` is `build_codebook` with a mode. -/
def MelTools.books (T : MelTools A) (book : List (List ℝ) → ℕ → Py (List (List ℝ))) (ms : List (List (List ℝ)))
    (ks : List ℕ) : Py (List (List (List ℝ))) := do
  let x0 ← Datasets.vstackAll ms
  let k0 ← pyGet ks 0
  let c0 ← book x0 k0
  let x1 ← Datasets.vstackAll (ms.map fun m => T.delta m 1)
  let k1 ← pyGet ks 1
  let c1 ← book x1 k1
  let x2 ← Datasets.vstackAll (ms.map fun m => T.delta m 2)
  let k2 ← pyGet ks 2
  let c2 ← book x2 k2
  return [c0, c1, c2]

/-- `build_codebooks_from_list_of_wav(wavs, ks, mode, **kw)` (`/repo/multimodal/features/hac.py:110-149`). -/
def MelTools.codebooks (T : MelTools A) (read : Key → Py (ℚ × A)) (book : List (List ℝ) → ℕ → Py (List (List ℝ)))
    (g : Kw) (wavs : List Key) (ks : List ℕ) (kw : Kw) : Kw × Py (List (List (List ℝ))) :=
  match T.mfccs read kw g wavs with
  | (g, .error e) => (g, .error e)
  | (g, .ok ms) => (g, T.books book ms ks)

end Verif.Features
