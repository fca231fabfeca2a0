import Verif.Py
import Mathlib.Data.Rat.Floor

/-!
# Python vocabulary: integers, ranges, dictionaries, `zip(*l)`

They model the language and its standard library, not code of `/repo`.
-/

namespace Verif

/-- `int(q)`: truncation towards zero. -/
def pyInt (q : ℚ) : ℤ := if q < 0 then ⌈q⌉ else ⌊q⌋

/-- `list(range(start, stop, step))`; a null step raises `ValueError`. -/
def pyRange (start stop step : ℤ) : Py (List ℤ) :=
  if step = 0 then .error .valueError
  else
    let count : ℤ := if 0 < step then (stop - start + step - 1) / step
      else (start - stop + (-step) - 1) / (-step)
    .ok ((List.range count.toNat).map fun (i : ℕ) => start + (i : ℤ) * step)

/-- Position denoted by the index `i` in a sequence of length `n`, if any: negative indices count
from the end. -/
def pyIndex (n : ℕ) (i : ℤ) : Option ℕ :=
  if 0 ≤ i then (if i < n then some i.toNat else none)
  else (if 0 ≤ i + n then some (i + n).toNat else none)

/-- A dictionary, in insertion order. -/
abbrev Dict (K V : Type*) := List (K × V)

/-- `d.get(k)`. -/
def dictGet? {K V : Type*} [DecidableEq K] (d : Dict K V) (k : K) : Option V :=
  (d.find? (fun p => decide (p.1 = k))).map Prod.snd

/-- `d[k] = v`: replaces the value of an existing key, else adds the key at the end. -/
def dictSet {K V : Type*} [DecidableEq K] : Dict K V → K → V → Dict K V
  | [], k, v => [(k, v)]
  | p :: d, k, v => if p.1 = k then (k, v) :: d else p :: dictSet d k v

/-- `dict(pairs)`. -/
def dictOf {K V : Type*} [DecidableEq K] (pairs : List (K × V)) : Dict K V :=
  pairs.foldl (fun d p => dictSet d p.1 p.2) []

/-- Length of the shortest list of a list of lists (0 if there is none). -/
def minLength {α : Type*} : List (List α) → ℕ
  | [] => 0
  | [l] => l.length
  | l :: l' :: ls => min l.length (minLength (l' :: ls))

/-- `list(zip(*ls))`, each tuple being a list. -/
def pyZipStar {α : Type*} (ls : List (List α)) : List (List α) :=
  (List.range (minLength ls)).map fun i => ls.filterMap fun l => l[i]?

theorem dictGet?_set {K V : Type*} [DecidableEq K] (d : Dict K V) (k k' : K) (v : V) :
    dictGet? (dictSet d k v) k' = if k = k' then some v else dictGet? d k' := by
  induction d with
  | nil =>
    unfold dictSet dictGet?
    by_cases h : k = k' <;> simp [List.find?, h]
  | cons p d ih =>
    unfold dictSet
    by_cases hp : p.1 = k
    · rw [if_pos hp]
      unfold dictGet?
      by_cases h : k = k'
      · simp [List.find?, h]
      · have h2 : ¬ p.1 = k' := fun e => h (hp.symm.trans e)
        simp [List.find?, h, h2]
    · rw [if_neg hp]
      unfold dictGet? at ih ⊢
      by_cases h2 : p.1 = k'
      · have h3 : ¬ k = k' := fun e => hp (h2.trans e.symm)
        simp [List.find?, h2, h3]
      · simp only [List.find?, h2, decide_false]
        exact ih

theorem dictGet?_nil {K V : Type*} [DecidableEq K] (k : K) :
    dictGet? ([] : Dict K V) k = none := rfl

/-- The keys of a dictionary, in order. -/
def dictKeys {K V : Type*} (d : Dict K V) : List K := d.map Prod.fst

theorem dictKeys_set {K V : Type*} [DecidableEq K] (d : Dict K V) (k : K) (v : V) :
    dictKeys (dictSet d k v) = if k ∈ dictKeys d then dictKeys d else dictKeys d ++ [k] := by
  unfold dictKeys
  induction d with
  | nil => simp [dictSet]
  | cons p d ih =>
    unfold dictSet
    by_cases hp : p.1 = k
    · rw [if_pos hp]; simp [hp]
    · rw [if_neg hp, List.map_cons, ih]
      have hne : ¬ k = p.1 := fun e => hp e.symm
      by_cases hk : k ∈ d.map Prod.fst
      · rw [if_pos hk, if_pos (by simp only [List.map_cons, List.mem_cons]; exact Or.inr hk)]
        rfl
      · rw [if_neg hk, if_neg (by
          simp only [List.map_cons, List.mem_cons, not_or]; exact ⟨hne, hk⟩)]
        rfl

theorem dictGet?_isSome {K V : Type*} [DecidableEq K] (d : Dict K V) (k : K) :
    (dictGet? d k).isSome ↔ k ∈ dictKeys d := by
  unfold dictGet? dictKeys
  rw [Option.isSome_map, List.find?_isSome]
  simp

theorem dictGet?_foldl {K V : Type*} [DecidableEq K] (pairs : List (K × V)) (d : Dict K V) (k : K)
    (h : k ∉ pairs.map Prod.fst) :
    dictGet? (pairs.foldl (fun d p => dictSet d p.1 p.2) d) k = dictGet? d k := by
  induction pairs generalizing d with
  | nil => rfl
  | cons p ps ih =>
    simp only [List.map_cons, List.mem_cons, not_or] at h
    rw [List.foldl_cons, ih _ h.2, dictGet?_set, if_neg (fun e => h.1 e.symm)]

/-- With distinct keys, `dict(pairs)` maps each key to its value. -/
theorem dictGet?_dictOf {K V : Type*} [DecidableEq K] (pairs : List (K × V))
    (hn : (pairs.map Prod.fst).Nodup) (k : K) (v : V) :
    dictGet? (dictOf pairs) k = some v ↔ (k, v) ∈ pairs := by
  have key : ∀ (pairs : List (K × V)) (d : Dict K V), (pairs.map Prod.fst).Nodup →
      (dictGet? (pairs.foldl (fun d p => dictSet d p.1 p.2) d) k = some v ↔
        (k, v) ∈ pairs ∨ (k ∉ pairs.map Prod.fst ∧ dictGet? d k = some v)) := by
    intro pairs
    induction pairs with
    | nil => intro d _; simp
    | cons p ps ih =>
      intro d hn
      rw [List.map_cons, List.nodup_cons] at hn
      rw [List.foldl_cons, ih _ hn.2, dictGet?_set]
      by_cases hpk : p.1 = k
      · subst hpk
        simp only [hn.1, not_false_eq_true, if_true, Option.some.injEq, true_and, List.mem_cons,
          List.map_cons, not_true_eq_false, false_and, or_false]
        have hnot : (p.1, v) ∉ ps := fun hm => hn.1 (List.mem_map.mpr ⟨_, hm, rfl⟩)
        constructor
        · rintro (h | h)
          · exact absurd h hnot
          · left; rw [← h]
        · rintro (h | h)
          · right; rw [← h]
          · exact absurd h hnot
      · rw [if_neg hpk]
        have h1 : ¬ (k, v) = p := fun e => hpk (by rw [← e])
        have h2 : ¬ k = p.1 := fun e => hpk e.symm
        simp [h1, h2]
  unfold dictOf
  rw [key pairs [] hn, dictGet?_nil]
  simp

theorem mapM_ok {α β : Type*} (f : α → Py β) (g : α → β) (l : List α)
    (h : ∀ x ∈ l, f x = .ok (g x)) : l.mapM f = .ok (l.map g) := by
  induction l with
  | nil => rfl
  | cons a l ih =>
    rw [List.mapM_cons, h a List.mem_cons_self, ih fun x hx => h x (List.mem_cons_of_mem _ hx)]
    rfl

theorem lt_minLength_iff {α : Type*} (ls : List (List α)) (i : ℕ) :
    i < minLength ls ↔ ls ≠ [] ∧ ∀ l ∈ ls, i < l.length := by
  induction ls with
  | nil => simp [minLength]
  | cons l ls ih =>
    cases ls with
    | nil => simp [minLength]
    | cons l' ls =>
      rw [minLength, lt_min_iff, ih]
      simp

theorem minLength_le {α : Type*} {ls : List (List α)} {l : List α} (h : l ∈ ls) :
    minLength ls ≤ l.length := by
  by_contra hlt
  push Not at hlt
  exact lt_irrefl _ (((lt_minLength_iff ls _).1 hlt).2 l h)

theorem exists_minLength {α : Type*} {ls : List (List α)} (h : ls ≠ []) :
    ∃ l ∈ ls, l.length = minLength ls := by
  by_contra hno
  push Not at hno
  have : minLength ls < minLength ls := by
    rw [lt_minLength_iff]
    refine ⟨h, fun l hl => ?_⟩
    exact lt_of_le_of_ne (minLength_le hl) (fun e => hno l hl e.symm)
  exact lt_irrefl _ this

theorem length_pyZipStar {α : Type*} (ls : List (List α)) :
    (pyZipStar ls).length = minLength ls := by simp [pyZipStar]

/-- The `i`-th tuple of `zip(*ls)` is made of the `i`-th elements. -/
theorem pyZipStar_getElem? {α : Type*} {ls : List (List α)} {i : ℕ} {t : List α}
    (h : (pyZipStar ls)[i]? = some t) :
    i < minLength ls ∧ t.length = ls.length ∧
      ∀ (m : ℕ) (l : List α), ls[m]? = some l → ∃ x, t[m]? = some x ∧ l[i]? = some x := by
  unfold pyZipStar at h
  rw [List.getElem?_map, Option.map_eq_some_iff] at h
  obtain ⟨j, hj, rfl⟩ := h
  rw [List.getElem?_eq_some_iff] at hj
  obtain ⟨hlt, hj⟩ := hj
  rw [List.getElem_range] at hj
  subst hj
  rw [List.length_range] at hlt
  refine ⟨hlt, ?_⟩
  have hall := ((lt_minLength_iff ls _).1 hlt).2
  clear hlt
  induction ls with
  | nil => simp
  | cons l ls ih =>
    have hl : i < l.length := hall l List.mem_cons_self
    obtain ⟨ih1, ih2⟩ := ih fun l hl => hall l (List.mem_cons_of_mem _ hl)
    have hs : l[i]? = some l[i] := List.getElem?_eq_getElem hl
    rw [List.filterMap_cons, hs]
    simp only []
    refine ⟨by rw [List.length_cons, List.length_cons, ih1], ?_⟩
    intro m l' hm
    cases m with
    | zero =>
      rw [List.getElem?_cons_zero, Option.some.injEq] at hm
      subst hm
      exact ⟨l[i], rfl, hs⟩
    | succ m =>
      rw [List.getElem?_cons_succ] at hm
      exact ih2 m l' hm

end Verif
