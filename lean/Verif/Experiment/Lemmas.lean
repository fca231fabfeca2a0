import Verif.Experiment.Model
import Verif.Logger.Props
import Verif.Pairing.Props
import Verif.Evaluation.Props
import Verif.Utils.Props
import Verif.Objects.Props

/-!
# Lemmas about experiments
-/

namespace Verif.Experiment

open Verif Verif.Logger

variable {σ α β L Λ : Type}

/-! ### State and exceptions -/

theorem bind_ok {m : M σ α} {f : α → M σ β} {s s' : σ} {a : α} (h : m s = (s', .ok a)) :
    (m >>= f) s = f a s' := by
  show (match m s with | (s', .ok a) => f a s' | (s', .error e) => (s', .error e)) = _
  rw [h]

theorem bind_error {m : M σ α} {f : α → M σ β} {s s' : σ} {e : PyErr} (h : m s = (s', .error e)) :
    (m >>= f) s = (s', .error e) := by
  show (match m s with | (s', .ok a) => f a s' | (s', .error e) => (s', .error e)) = _
  rw [h]

theorem bind_eq_ok {m : M σ α} {f : α → M σ β} {s s'' : σ} {b : β} :
    (m >>= f) s = (s'', .ok b) ↔ ∃ s' a, m s = (s', .ok a) ∧ f a s' = (s'', .ok b) := by
  constructor
  · intro h
    rcases hm : m s with ⟨s', a | a⟩
    · rw [bind_error hm] at h
      cases h
    · rw [bind_ok hm] at h
      exact ⟨s', a, rfl, h⟩
  · rintro ⟨s', a, h1, h2⟩
    rw [bind_ok h1, h2]

theorem lift_ok {x : Py α} {a : α} (h : x = .ok a) (f : α → M σ β) (s : σ) :
    (lift x >>= f) s = f a s := by
  subst h; rfl

theorem lift_error {x : Py α} {e : PyErr} (h : x = .error e) (f : α → M σ β) (s : σ) :
    (lift x >>= f) s = (s, .error e) := by
  subst h; rfl

theorem pyBind_eq_ok {x : Py α} {f : α → Py β} {b : β} :
    (x >>= f) = .ok b ↔ ∃ a, x = .ok a ∧ f a = .ok b := by
  rcases x with e | a
  · constructor
    · intro h; cases h
    · rintro ⟨a, h, _⟩; cases h
  · constructor
    · intro h; exact ⟨a, rfl, h⟩
    · rintro ⟨a', h1, h2⟩; cases h1; exact h2

/-- The elements of `out` are those of `src` at the positions `idx`, in order. -/
def Picks (src : List α) (idx : List ℕ) (out : List α) : Prop :=
  out.map some = idx.map fun i => src[i]?

theorem pyGet_some (l : List α) (i : ℕ) (x : α) : pyGet l (i : ℤ) = .ok x ↔ l[i]? = some x := by
  unfold pyGet
  rw [if_neg (by omega), Int.toNat_natCast]
  rcases l[i]? with _ | y
  · simp
  · simp

theorem pyGet_none (l : List α) (i : ℕ) : pyGet l (i : ℤ) = .error .indexError ↔ l[i]? = none := by
  unfold pyGet
  rw [if_neg (by omega), Int.toNat_natCast]
  rcases l[i]? with _ | y
  · simp
  · simp

theorem mapM_pyGet (src : List α) (idx : List ℕ) (out : List α) :
    (idx.mapM fun (i : ℕ) => pyGet src (i : ℤ)) = .ok out ↔ Picks src idx out := by
  rw [Objects.mapM_py_ok]
  unfold Picks
  induction idx generalizing out with
  | nil => cases out <;> simp
  | cons i idx ih =>
    cases out with
    | nil => simp
    | cons y out =>
      rw [List.forall₂_cons, ih, pyGet_some]
      simp only [List.map_cons, List.cons.injEq]
      tauto

theorem Picks.length {src : List α} {idx : List ℕ} {out : List α} (h : Picks src idx out) :
    out.length = idx.length := by
  have := congrArg List.length h
  simpa using this

theorem Picks.get {src : List α} {idx : List ℕ} {out : List α} (h : Picks src idx out) {j i : ℕ}
    (hj : idx[j]? = some i) : ∃ x, out[j]? = some x ∧ src[i]? = some x := by
  have := congrArg (fun l => l[j]?) h
  simp only [List.getElem?_map, hj, Option.map_some] at this
  rw [Option.map_eq_some_iff] at this
  obtain ⟨x, h1, h2⟩ := this
  exact ⟨x, h1, h2.symm⟩

theorem picks_of_lt (src : List α) (idx : List ℕ) (h : ∀ i ∈ idx, i < src.length) :
    ∃ out, Picks src idx out := by
  induction idx with
  | nil => exact ⟨[], rfl⟩
  | cons i idx ih =>
    obtain ⟨out, ho⟩ := ih fun j hj => h j (List.mem_cons_of_mem _ hj)
    refine ⟨src[i]'(h i List.mem_cons_self) :: out, ?_⟩
    unfold Picks at ho ⊢
    simp [ho, List.getElem?_eq_getElem (h i List.mem_cons_self)]

theorem Picks.map {β : Type} {src : List α} {idx : List ℕ} {out : List α} (h : Picks src idx out)
    (f : α → β) : Picks (src.map f) idx (out.map f) := by
  unfold Picks at h ⊢
  have := congrArg (List.map (Option.map f)) h
  simpa [Function.comp_def] using this

/-- Picking twice. -/
theorem Picks.trans {src mid out : List α} {idx jdx kdx : List ℕ} (h : Picks src idx mid)
    (h' : Picks mid jdx out) (hk : Picks idx jdx kdx) : Picks src kdx out := by
  apply List.ext_getElem?
  intro j
  have hl := h'.length
  have hl2 := hk.length
  by_cases hj : j < jdx.length
  · have hj' : jdx[j]? = some jdx[j] := List.getElem?_eq_getElem hj
    obtain ⟨x, hx1, hx2⟩ := h'.get hj'
    obtain ⟨i, hi1, hi2⟩ := hk.get hj'
    obtain ⟨y, hy1, hy2⟩ := h.get hi2
    rw [hx2] at hy1
    cases hy1
    simp [List.getElem?_map, hx1, hi1, hy2]
  · simp [List.getElem?_map, List.getElem?_eq_none_iff.2 (by omega : out.length ≤ j),
      List.getElem?_eq_none_iff.2 (by omega : kdx.length ≤ j)]

theorem takeRows_ok (x y : Mx) (idx : List ℕ) :
    takeRows x idx = .ok y ↔ y.cols = x.cols ∧ Picks x.rows idx y.rows := by
  unfold takeRows
  rw [pyBind_eq_ok]
  constructor
  · rintro ⟨rows, h1, h2⟩
    rw [mapM_pyGet] at h1
    cases h2
    exact ⟨rfl, h1⟩
  · rintro ⟨h1, h2⟩
    refine ⟨y.rows, (mapM_pyGet _ _ _).2 h2, ?_⟩
    rw [← h1]
    rfl

theorem pyAssert_ok (c : Bool) : pyAssert c = .ok () ↔ c = true := by
  cases c <;> simp [pyAssert]

/-! ### Global logs -/

theorem each_storeGlobal (d : Dict Key (LogVal L)) (w : World L) :
    each d (fun kv => storeGlobal kv.1 kv.2) w =
      ({ w with log := d.foldl (fun l kv => l.storeGlobal kv.1 (.plain kv.2)) w.log }, .ok ()) := by
  induction d generalizing w with
  | nil => rfl
  | cons kv d ih =>
    unfold each
    rw [bind_ok (by rfl : storeGlobal kv.1 kv.2 w = (_, .ok ())), ih]
    rfl

theorem foldl_storeGlobal (d : Dict Key (LogVal L)) (l : Log L) :
    (d.foldl (fun l kv => l.storeGlobal kv.1 (.plain kv.2)) l) =
      { l with glob := (d.foldl (fun l kv => l.storeGlobal kv.1 (.plain kv.2)) l).glob } := by
  induction d generalizing l with
  | nil => rfl
  | cons kv d ih =>
    rw [List.foldl_cons, ih]
    rfl

theorem foldl_storeGlobal_glob (d : Dict Key (LogVal L)) (l : Log L) :
    (d.foldl (fun l kv => l.storeGlobal kv.1 (.plain kv.2)) l).glob =
      (d.map fun kv => (kv.1, (Val.plain kv.2 : Val (LogVal L) Mx))).foldl
        (fun d p => dictSet d p.1 p.2) l.glob := by
  induction d generalizing l with
  | nil => rfl
  | cons kv d ih =>
    rw [List.foldl_cons, ih]
    rfl

end Verif.Experiment
