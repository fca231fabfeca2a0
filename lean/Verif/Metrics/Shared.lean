import Verif.Metrics.Model

/-!
# Model of `kl_div(normalize=True)` on arrays which share memory, and on arrays of integers

`kl_div` in `Verif/Metrics/Model.lean` modifies two arrays of floats which are distinct.  Here arrays are views of one
memory, and arrays of integers are divided as the version of python does.
-/

namespace Verif.Metrics

variable {κ ι : Type} [Fintype ι]

/-- The values at all positions of a memory. -/
abbrev Memory := ℕ → ℝ

/-- An array with lines `κ` along the axis and values `ι` in each line: the position of each value.  Arrays which are
modified do not have the same position twice (numpy makes other ones read-only). -/
structure View (κ ι : Type) where
  pos : κ → ι → ℕ
  inj : ∀ k i k' i', pos k i = pos k' i' → k = k' ∧ i = i'

/-- The values of a line of an array. -/
def View.read (μ : Memory) (v : View κ ι) (k : κ) : ι → ℝ := fun i => μ (v.pos k i)

/-- `a /= np.expand_dims(a.sum(axis=axis), axis)` (`/repo/multimodal/lib/metrics.py:60-61`): sums are computed first, in a
new array, then each position of `a` is overwritten. -/
noncomputable def View.normalize (v : View κ ι) (μ : Memory) : Memory :=
  let sums : κ → ℝ := fun k => ∑ i, v.read μ k i
  Function.extend (fun x : κ × ι => v.pos x.1 x.2) (fun x => v.read μ x.1 x.2 / sums x.1) μ

/-- `kl_div(a, b, normalize=True)` (`/repo/multimodal/lib/metrics.py:58-62`): the values for each line, and the memory after
the call. -/
noncomputable def klShared (a b : View κ ι) (μ : Memory) : (κ → ℝ) × Memory :=
  let μ := a.normalize μ
  let μ := b.normalize μ
  (fun k => generalizedKL (a.read μ k) (b.read μ k) EPSILON, μ)

/-- `rev_kl_div(a, b, normalize=True)` (`/repo/multimodal/lib/metrics.py:65-66`). -/
noncomputable def revKlShared (a b : View κ ι) (μ : Memory) : (κ → ℝ) × Memory := klShared b a μ

/-- `sym_kl_div(a, b, normalize=True)` (`/repo/multimodal/lib/metrics.py:69-70`). -/
noncomputable def symKlShared (a b : View κ ι) (μ : Memory) : (κ → ℝ) × Memory :=
  let r := klShared a b μ
  let r' := revKlShared a b r.2
  (fun k => 1 / 2 * (r.1 k + r'.1 k), r'.2)

/-- `a /= s` for arrays of integers: in python 3 the quotients are floats, which cannot be stored in `a` (`TypeError`, a
subclass of it since numpy 1.10); in python 2 the quotients are rounded down, and those by zero are 0 (a warning).  -/
def divideInts (py3 : Bool) (a : κ → ι → ℤ) (s : κ → ℤ) : Py (κ → ι → ℤ) :=
  if py3 then .error .typeError else .ok fun k i => Int.fdiv (a k i) (s k)

/-- `kl_div(a, b, normalize=True)` (`/repo/multimodal/lib/metrics.py:58-62`) for two arrays of integers with distinct
memories: the arrays after the call, and the values for each line. -/
noncomputable def klInts (py3 : Bool) (a b : κ → ι → ℤ) : (κ → ι → ℤ) × (κ → ι → ℤ) × Py (κ → ℝ) :=
  match divideInts py3 a fun k => ∑ i, a k i with
  | .error e => (a, b, .error e)
  | .ok a =>
    match divideInts py3 b fun k => ∑ i, b k i with
    | .error e => (a, b, .error e)
    | .ok b => (a, b, .ok fun k => generalizedKL (fun i => (a k i : ℝ)) (fun i => (b k i : ℝ)) EPSILON)

end Verif.Metrics
