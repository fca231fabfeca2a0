import Verif.NDArray.Measures
import Verif.NDArray.Props

/-!
# Properties of measures on arrays and of tables of distances
-/

namespace Verif.NDArray

variable {α : Type} [Inhabited α]

/-- The index which is used in a dimension of length `p`. -/
def red (p i : ℕ) : ℕ := if p = 1 then 0 else i

/-- `A` has, for each pair, the values of `B`; its two first dimensions are those of pairs, or have length 1. -/
structure Rel (n m p q : ℕ) (s : List ℕ) (A : ND α) (B : ℕ → ℕ → ND α) : Prop where
  hp : p = n ∨ p = 1
  hq : q = m ∨ q = 1
  shape : A.shape = p :: q :: s
  shapes : ∀ i j, (B i j).shape = s
  wf : A.WF
  wfs : ∀ i j, i < n → j < m → (B i j).WF
  values : ∀ i j, i < n → j < m → ∀ idx, Valid s idx → A.get (red p i :: red q j :: idx) = (B i j).get idx

/-- Shapes of at most one dimension which can be broadcast. -/
inductive Compat : List ℕ → List ℕ → List ℕ → Prop
  | nil : Compat [] [] []
  | one {d e r : ℕ} (h : bcDim d e = some r) : Compat [d] [e] [r]

theorem bcDim_eq {n m k : ℕ} : bcDim n m = some k ↔ (m = 1 ∧ k = n) ∨ (n = 1 ∧ k = m) ∨ (n = m ∧ k = n) := by
  unfold bcDim
  split_ifs with h1 h2 h3
  · simp only [Option.some.injEq]
    omega
  · simp only [Option.some.injEq]
    omega
  · simp only [Option.some.injEq]
    omega
  · simp only [reduceCtorEq, false_iff]
    omega

theorem bcDim_none {n m : ℕ} : bcDim n m = none ↔ n ≠ m ∧ n ≠ 1 ∧ m ≠ 1 := by
  unfold bcDim
  split_ifs with h1 h2 h3
  · simp [h1]
  · simp [h2]
  · simp [h3]
  · simp only [true_iff]
    exact ⟨h3, h2, h1⟩

theorem bcDim_one_right (n : ℕ) : bcDim n 1 = some n := bcDim_eq.2 (by omega)

theorem bcDim_one_left (n : ℕ) : bcDim 1 n = some n := bcDim_eq.2 (by omega)

theorem bcDim_self (n : ℕ) : bcDim n n = some n := bcDim_eq.2 (by omega)

theorem bcDim_left {d e r : ℕ} (h : bcDim d e = some r) : bcDim d r = some r := by
  rw [bcDim_eq] at *
  omega

theorem bcDim_right {d e r : ℕ} (h : bcDim d e = some r) : bcDim r e = some r := by
  rw [bcDim_eq] at *
  omega

theorem bcDim_left' {d e r : ℕ} (h : bcDim d e = some r) : bcDim r d = some r := by
  rw [bcDim_eq] at *
  omega

theorem bcDim_symm {d e r : ℕ} (h : bcDim d e = some r) : bcDim e d = some r := by
  rw [bcDim_eq] at *
  omega

theorem red_red {p1 p2 p : ℕ} (h : bcDim p1 p2 = some p) (i : ℕ) : red p1 (red p i) = red p1 i := by
  rw [bcDim_eq] at h
  unfold red
  split_ifs <;> omega

theorem red_lt_of {p1 p2 p k : ℕ} (h : bcDim p1 p2 = some p) (hk : k < p) : red p1 k < p1 := by
  rw [bcDim_eq] at h
  unfold red
  split_ifs <;> omega

theorem red_lt {p n i : ℕ} (h : p = n ∨ p = 1) (hi : i < n) : red p i < p := by
  unfold red
  split_ifs with h1 <;> omega

theorem Compat.symm {s t r : List ℕ} (h : Compat s t r) : Compat t s r := by
  cases h with
  | nil => exact .nil
  | one h => exact .one (bcDim_symm h)

theorem Compat.shape {s t r : List ℕ} (h : Compat s t r) : bcastShape s t = some r := by
  cases h with
  | nil => simp [bcastShape, bcastRev]
  | one h => simp [bcastShape, bcastRev, h]

theorem Compat.reduce {s t r idx : List ℕ} (h : Compat s t r) (hv : Valid r idx) (p q i j : ℕ) :
    reduceIndex (p :: q :: s) (i :: j :: idx) = red p i :: red q j :: reduceIndex s idx ∧ Valid s (reduceIndex s idx) := by
  cases h with
  | nil =>
    cases hv
    exact ⟨by simp [reduceIndex, red], by simp [reduceIndex, Valid]⟩
  | one h =>
    cases hv with
    | cons hk hv =>
      cases hv
      refine ⟨by simp [reduceIndex, red], ?_⟩
      have := red_lt_of h hk
      unfold red at this
      simpa [reduceIndex, Valid] using this

/-- The result of an operation. -/
def entries (f : α → α → α) (t : List ℕ) (a b : ND α) : ND α :=
  ofIndices t fun idx => f ((a.get (reduceIndex a.shape idx)).getD default) ((b.get (reduceIndex b.shape idx)).getD default)

theorem bop_ok {f : α → α → α} {a b : ND α} {t : List ℕ} (h : bcastShape a.shape b.shape = some t) :
    bop f a b = .ok (entries f t a b) := by
  simp only [bop, h]
  rfl

/-- Operations on related arrays. -/
theorem Rel.bop {n m p1 q1 p2 q2 p q : ℕ} {s1 s2 s : List ℕ} {A1 A2 : ND α} {B1 B2 : ℕ → ℕ → ND α} (f : α → α → α)
    (h1 : Rel n m p1 q1 s1 A1 B1) (h2 : Rel n m p2 q2 s2 A2 B2) (hp : bcDim p1 p2 = some p) (hq : bcDim q1 q2 = some q)
    (hs : Compat s1 s2 s) :
    ∃ A B, bop f A1 A2 = .ok A ∧ (∀ i j, bop f (B1 i j) (B2 i j) = .ok (B i j)) ∧ Rel n m p q s A B := by
  have hp' : p = n ∨ p = 1 := by
    have a := h1.hp
    have b := h2.hp
    rw [bcDim_eq] at hp
    omega
  have hq' : q = m ∨ q = 1 := by
    have a := h1.hq
    have b := h2.hq
    rw [bcDim_eq] at hq
    omega
  have e1 : bcastShape (p1 :: q1 :: s1) (p2 :: q2 :: s2) = some (p :: q :: s) := by
    cases hs with
    | nil => simp [bcastShape, bcastRev, hp, hq]
    | one h => simp [bcastShape, bcastRev, hp, hq, h]
  refine ⟨entries f (p :: q :: s) A1 A2, fun i j => entries f s (B1 i j) (B2 i j), bop_ok (by rw [h1.shape, h2.shape, e1]),
    fun i j => bop_ok (by rw [h1.shapes, h2.shapes, hs.shape]), hp', hq', rfl, fun i j => rfl, wf_ofIndices _ _,
    fun i j _ _ => wf_ofIndices _ _, fun i j hi hj idx hv => ?_⟩
  unfold entries
  rw [get_ofIndices _ hv, get_ofIndices _ (List.Forall₂.cons (red_lt hp' hi) (List.Forall₂.cons (red_lt hq' hj) hv))]
  obtain ⟨r1, v1⟩ := hs.reduce hv p1 q1 (red p i) (red q j)
  obtain ⟨r2, v2⟩ := hs.symm.reduce hv p2 q2 (red p i) (red q j)
  rw [h1.shape, h2.shape, r1, r2, red_red hp, red_red hq, red_red (bcDim_symm hp), red_red (bcDim_symm hq),
    h1.values i j hi hj _ v1, h2.values i j hi hj _ v2, h1.shapes, h2.shapes]

theorem Rel.map {n m p q : ℕ} {s : List ℕ} {A : ND α} {B : ℕ → ℕ → ND α} (f : α → α) (h : Rel n m p q s A B) :
    Rel n m p q s (A.map f) fun i j => (B i j).map f :=
  ⟨h.hp, h.hq, h.shape, h.shapes, wf_map f h.wf, fun i j hi hj => wf_map f (h.wfs i j hi hj),
    fun i j hi hj idx hv => by rw [get_map, get_map, h.values i j hi hj idx hv]⟩

/-- Sums along the last axis of related arrays. -/
theorem Rel.sum (R : Arith α) {n m p q d : ℕ} {A : ND α} {B : ℕ → ℕ → ND α} (h : Rel n m p q [d] A B) :
    ∃ A' B', sumAxis R A (some (-1)) = .ok A' ∧ (∀ i j, sumAxis R (B i j) (some (-1)) = .ok (B' i j)) ∧
      Rel n m p q [] A' B' := by
  refine ⟨ofIndices [p, q] fun idx => R.sum ((List.range d).map fun k => (A.get (idx.insertIdx 2 k)).getD default),
    fun i j => ofIndices [] fun idx => R.sum ((List.range d).map fun k => ((B i j).get (idx.insertIdx 0 k)).getD default),
    ?_, fun i j => ?_, h.hp, h.hq, rfl, fun i j => rfl, wf_ofIndices _ _, fun i j _ _ => wf_ofIndices _ _, fun i j hi hj idx hv => ?_⟩
  · simp only [sumAxis, h.shape]
    rfl
  · simp only [sumAxis, h.shapes]
    rfl
  · cases hv
    rw [get_ofIndices _ List.Forall₂.nil,
      get_ofIndices _ (List.Forall₂.cons (red_lt h.hp hi) (List.Forall₂.cons (red_lt h.hq hj) List.Forall₂.nil))]
    congr 2
    apply List.map_congr_left
    intro k hk
    have := h.values i j hi hj [k] (List.Forall₂.cons (List.mem_range.1 hk) List.Forall₂.nil)
    simp only [List.insertIdx_succ_cons, List.insertIdx_zero]
    rw [this]

/-- The measure of related arrays is related to measures of their parts. -/
def Good (f : ND α → ND α → ℤ → Py (ND α)) : Prop :=
  ∀ {n m d e r : ℕ} {x y : ND α} {B C : ℕ → ℕ → ND α}, bcDim d e = some r → Rel n m n 1 [d] x B → Rel n m 1 m [e] y C →
    ∃ A D, f x y (-1) = .ok A ∧ (∀ i j, f (B i j) (C i j) (-1) = .ok (D i j)) ∧ Rel n m n m [] A D

theorem good_kl (R : Arith α) : Good (klDiv R) := by
  intro n m d e r x y B C hd hx hy
  obtain ⟨A1, D1, a1, b1, r1⟩ := (hx.map fun v => R.add v R.eps).bop R.div (hy.map fun v => R.add v R.eps)
    (bcDim_one_right n) (bcDim_one_left m) (.one hd)
  obtain ⟨A2, D2, a2, b2, r2⟩ := hx.bop R.mul (r1.map R.log) (bcDim_self n) (bcDim_one_left m) (.one (bcDim_left hd))
  obtain ⟨A3, D3, a3, b3, r3⟩ := r2.bop R.sub hx (bcDim_self n) (bcDim_one_right m) (.one (bcDim_left' hd))
  obtain ⟨A4, D4, a4, b4, r4⟩ := r3.bop R.add hy (bcDim_one_right n) (bcDim_self m) (.one (bcDim_right hd))
  obtain ⟨A5, D5, a5, b5, r5⟩ := r4.sum R
  refine ⟨A5, D5, ?_, fun i j => ?_, r5⟩
  · simp only [klDiv, generalizedKL, a1, a2, a3, a4, bind, Except.bind, a5]
  · simp only [klDiv, generalizedKL, b1, b2, b3, b4, bind, Except.bind, b5]

theorem good_revKl (R : Arith α) : Good (revKlDiv R) := by
  intro n m d e r x y B C hd hx hy
  obtain ⟨A1, D1, a1, b1, r1⟩ := (hy.map fun v => R.add v R.eps).bop R.div (hx.map fun v => R.add v R.eps)
    (bcDim_one_left n) (bcDim_one_right m) (.one (bcDim_symm hd))
  obtain ⟨A2, D2, a2, b2, r2⟩ := hy.bop R.mul (r1.map R.log) (bcDim_one_left n) (bcDim_self m)
    (.one (bcDim_left (bcDim_symm hd)))
  obtain ⟨A3, D3, a3, b3, r3⟩ := r2.bop R.sub hy (bcDim_one_right n) (bcDim_self m) (.one (bcDim_right hd))
  obtain ⟨A4, D4, a4, b4, r4⟩ := r3.bop R.add hx (bcDim_self n) (bcDim_one_right m) (.one (bcDim_left' hd))
  obtain ⟨A5, D5, a5, b5, r5⟩ := r4.sum R
  refine ⟨A5, D5, ?_, fun i j => ?_, r5⟩
  · simp only [revKlDiv, klDiv, generalizedKL, a1, a2, a3, a4, bind, Except.bind, a5]
  · simp only [revKlDiv, klDiv, generalizedKL, b1, b2, b3, b4, bind, Except.bind, b5]

theorem good_symKl (R : Arith α) : Good (symKlDiv R) := by
  intro n m d e r x y B C hd hx hy
  obtain ⟨A1, D1, a1, b1, r1⟩ := good_kl R hd hx hy
  obtain ⟨A2, D2, a2, b2, r2⟩ := good_revKl R hd hx hy
  obtain ⟨A3, D3, a3, b3, r3⟩ := r1.bop R.add r2 (bcDim_self n) (bcDim_self m) .nil
  refine ⟨_, _, ?_, fun i j => ?_, r3.map fun v => R.mul R.half v⟩
  · simp only [symKlDiv, a1, a2, a3, bind, Except.bind]
    rfl
  · simp only [symKlDiv, b1, b2, b3, bind, Except.bind]
    rfl

theorem good_frob (R : Arith α) : Good (frobenius R) := by
  intro n m d e r x y B C hd hx hy
  obtain ⟨A1, D1, a1, b1, r1⟩ := hx.bop R.sub hy (bcDim_one_right n) (bcDim_one_left m) (.one hd)
  obtain ⟨A2, D2, a2, b2, r2⟩ := (r1.map fun v => R.mul v v).sum R
  refine ⟨_, _, ?_, fun i j => ?_, r2.map R.sqrt⟩
  · simp only [frobenius, square, a1, a2, bind, Except.bind]
    rfl
  · simp only [frobenius, square, b1, b2, bind, Except.bind]
    rfl

theorem good_cos (R : Arith α) : Good (cosineSimilarity R) := by
  intro n m d e r x y B C hd hx hy
  obtain ⟨A1, D1, a1, b1, r1⟩ := hx.bop R.mul hy (bcDim_one_right n) (bcDim_one_left m) (.one hd)
  obtain ⟨A2, D2, a2, b2, r2⟩ := r1.sum R
  obtain ⟨A3, D3, a3, b3, r3⟩ := (hx.map fun v => R.mul v v).sum R
  obtain ⟨A4, D4, a4, b4, r4⟩ := (hy.map fun v => R.mul v v).sum R
  obtain ⟨A5, D5, a5, b5, r5⟩ := r3.bop R.mul r4 (bcDim_one_right n) (bcDim_one_left m) .nil
  obtain ⟨A6, D6, a6, b6, r6⟩ := (r5.map R.sqrt).bop R.add (r2.map R.isZero) (bcDim_self n) (bcDim_self m) .nil
  obtain ⟨A7, D7, a7, b7, r7⟩ := r2.bop R.div r6 (bcDim_self n) (bcDim_self m) .nil
  refine ⟨_, _, ?_, fun i j => ?_, r7⟩
  · simp only [cosineSimilarity, square, a1, a2, a3, a4, a5, a6, bind, Except.bind, a7]
  · simp only [cosineSimilarity, square, b1, b2, b3, b4, b5, b6, bind, Except.bind, b7]

theorem good_cosDiff (R : Arith α) : Good (cosineDiff R) := by
  intro n m d e r x y B C hd hx hy
  obtain ⟨A1, D1, a1, b1, r1⟩ := good_cos R hd hx hy
  refine ⟨_, _, ?_, fun i j => ?_, r1.map R.neg⟩
  · simp only [cosineDiff, a1, bind, Except.bind]
    rfl
  · simp only [cosineDiff, b1, bind, Except.bind]
    rfl

theorem good (R : Arith α) (μ : Measure) : Good (μ.run R) := by
  cases μ
  · exact good_kl R
  · exact good_revKl R
  · exact good_symKl R
  · exact good_frob R
  · exact good_cos R
  · exact good_cosDiff R

theorem red_self {n i : ℕ} (h : i < n) : red n i = i := by
  unfold red
  split_ifs <;> omega

theorem row_eq {x : ND α} {n d : ℕ} (h : x.shape = [n, d]) (i : ℕ) : row x i = ⟨[d], (x.data.drop (i * d)).take d⟩ := by
  simp [row, h]

theorem row_wf {x : ND α} {n d i : ℕ} (h : x.shape = [n, d]) (hx : x.WF) (hi : i < n) : (row x i).WF := by
  rw [row_eq h]
  unfold ND.WF at *
  rw [h] at hx
  simp only [List.prod_cons, List.prod_nil, mul_one] at hx
  simp only [List.length_take, List.length_drop, List.prod_cons, List.prod_nil, mul_one, hx]
  have : (i + 1) * d ≤ n * d := Nat.mul_le_mul_right _ hi
  rw [Nat.succ_mul] at this
  omega

/-- The values of a row are those of the array. -/
theorem row_get {x : ND α} {n d i k : ℕ} (h : x.shape = [n, d]) (hk : k < d) : (row x i).get [k] = x.get [i, k] := by
  rw [row_eq h]
  simp [ND.get, position, h, List.getElem?_take, hk, List.getElem?_drop]

/-- The value of an array without dimension. -/
theorem scalar {a : ND α} (h : a.shape = []) (hw : a.WF) : ∃ v, a = ⟨[], [v]⟩ := by
  obtain ⟨s, l⟩ := a
  obtain rfl : s = [] := h
  obtain ⟨v, rfl⟩ := List.length_eq_one_iff.1 (show l.length = 1 by simpa [ND.WF] using hw)
  exact ⟨v, rfl⟩

/-- **C218** (pairs of rows).  The distance between sample `i` and example `j` in the result of `all_distances` is the
measure of these two rows, for any numbers of rows and of columns: numbers of columns are the same, or one of them is 1. -/
theorem C218_all_distances (R : Arith α) (μ : Measure) {n m d e : ℕ} {reco ex : ND α} (hr : reco.shape = [n, d])
    (he : ex.shape = [m, e]) (wr : reco.WF) (we : ex.WF) (hd : d = e ∨ d = 1 ∨ e = 1) :
    ∃ A, allDistances reco ex (μ.run R) = .ok A ∧ A.shape = [n, m] ∧ A.WF ∧
      ∀ i j, i < n → j < m → ∃ v, μ.run R (row reco i) (row ex j) (-1) = .ok ⟨[], [v]⟩ ∧ A.get [i, j] = some v := by
  obtain ⟨r, hr'⟩ : ∃ r, bcDim d e = some r := by
    cases h : bcDim d e with
    | some r => exact ⟨r, rfl⟩
    | none => rw [bcDim_none] at h; omega
  have hx : Rel n m n 1 [d] (⟨[n, 1, d], reco.data⟩ : ND α) fun i _ => row reco i := by
    refine ⟨Or.inl rfl, Or.inr rfl, rfl, fun i j => by rw [row_eq hr], ?_, fun i j hi _ => row_wf hr wr hi,
      fun i j hi hj idx hv => ?_⟩
    · simpa [ND.WF, hr] using wr
    · rcases hv with _ | ⟨hk, hv⟩
      cases hv
      rw [row_get hr hk, red_self hi]
      simp [ND.get, position, hr, red]
  have hy : Rel n m 1 m [e] (⟨[1, m, e], ex.data⟩ : ND α) fun _ j => row ex j := by
    refine ⟨Or.inr rfl, Or.inl rfl, rfl, fun i j => by rw [row_eq he], ?_, fun i j _ hj => row_wf he we hj,
      fun i j hi hj idx hv => ?_⟩
    · simpa [ND.WF, he] using we
    · rcases hv with _ | ⟨hk, hv⟩
      cases hv
      rw [row_get he hk, red_self hj]
      simp [ND.get, position, he, red]
  obtain ⟨A, D, a, b, h⟩ := good R μ hr' hx hy
  refine ⟨A, ?_, h.shape, h.wf, fun i j hi hj => ?_⟩
  · simp only [allDistances, newaxisSecond, newaxisFirst, hr, he, bind, Except.bind, a]
  · obtain ⟨v, hv⟩ := scalar (h.shapes i j) (h.wfs i j hi hj)
    refine ⟨v, by rw [b, hv], ?_⟩
    have := h.values i j hi hj [] List.Forall₂.nil
    rw [red_self hi, red_self hj] at this
    rw [this, hv]
    rfl

/-- **C218** (other numbers of columns).  Otherwise `ValueError` is raised, even without rows. -/
theorem C218_columns (R : Arith α) (μ : Measure) {n m d e : ℕ} {reco ex : ND α} (hr : reco.shape = [n, d])
    (he : ex.shape = [m, e]) (hd : d ≠ e ∧ d ≠ 1 ∧ e ≠ 1) :
    allDistances reco ex (μ.run R) = .error .valueError := by
  have h1 : bcDim d e = none := bcDim_none.2 hd
  have h2 : bcDim e d = none := bcDim_none.2 ⟨hd.1.symm, hd.2.2, hd.2.1⟩
  cases μ <;>
  simp [allDistances, newaxisSecond, newaxisFirst, hr, he, bind, Except.bind, Measure.run, klDiv, revKlDiv, symKlDiv,
    generalizedKL, frobenius, cosineSimilarity, cosineDiff, bop, ND.map, bcastShape, bcastRev, h1, h2]

/-- **C218** (dimensions).  Arrays with less than two dimensions raise `IndexError`, whatever the measure. -/
theorem C218_dimensions (measure : ND α → ND α → ℤ → Py (ND α)) (reco ex : ND α)
    (h : reco.shape.length < 2 ∨ ex.shape.length < 2) : allDistances reco ex measure = .error .indexError := by
  obtain ⟨s, x⟩ := reco
  obtain ⟨t, y⟩ := ex
  rcases s with _ | ⟨a, _ | ⟨b, s⟩⟩ <;> rcases t with _ | ⟨a', _ | ⟨b', t⟩⟩ <;>
    simp_all [allDistances, newaxisSecond, newaxisFirst, bind, Except.bind]

/-! ### A matrix and a vector -/

/-- `A` has a first dimension of length `n`, or not, and has the values of `B`. -/
structure VRel (n : ℕ) (lead : Bool) (s : List ℕ) (A : ND α) (B : ℕ → ND α) : Prop where
  shape : A.shape = (if lead then [n] else []) ++ s
  shapes : ∀ i, (B i).shape = s
  wf : A.WF
  wfs : ∀ i, i < n → (B i).WF
  values : ∀ i, i < n → ∀ idx, Valid s idx → A.get ((if lead then [i] else []) ++ idx) = (B i).get idx

theorem Compat.length {s t r : List ℕ} (h : Compat s t r) : s.length = r.length := by
  cases h <;> rfl

theorem VRel.at {n : ℕ} {lead : Bool} {s t r : List ℕ} {A : ND α} {B : ℕ → ND α} (h : VRel n lead s A B)
    (hs : Compat s t r) {i : ℕ} (hi : i < n) {idx : List ℕ} (hv : Valid r idx) :
    A.get (reduceIndex A.shape (i :: idx)) = (B i).get (reduceIndex (B i).shape idx) := by
  obtain ⟨-, hv2⟩ := hs.reduce hv 0 0 0 0
  have hl : idx.length = s.length := by rw [hv.length, hs.length]
  rw [h.shapes, ← h.values i hi _ hv2, h.shape]
  congr 1
  cases lead with
  | false =>
    simp only [Bool.false_eq_true, if_false, List.nil_append, reduceIndex, List.length_cons, hl]
    have : s.length + 1 - s.length = 0 + 1 := by omega
    rw [this, List.drop_succ_cons, Nat.sub_self]
  | true =>
    simp only [if_true, List.cons_append, List.nil_append, reduceIndex, List.length_cons, hl, Nat.sub_self, List.drop_zero,
      List.zipWith_cons_cons]
    congr 1
    split_ifs <;> omega

theorem VRel.bop {n : ℕ} {l1 l2 : Bool} {s1 s2 s : List ℕ} {A1 A2 : ND α} {B1 B2 : ℕ → ND α} (f : α → α → α)
    (h1 : VRel n l1 s1 A1 B1) (h2 : VRel n l2 s2 A2 B2) (hs : Compat s1 s2 s) (hl : (l1 || l2) = true) :
    ∃ A B, bop f A1 A2 = .ok A ∧ (∀ i, bop f (B1 i) (B2 i) = .ok (B i)) ∧ VRel n true s A B := by
  have e1 : bcastShape A1.shape A2.shape = some (n :: s) := by
    rw [h1.shape, h2.shape]
    cases hs with
    | nil => cases l1 <;> cases l2 <;> simp_all [bcastShape, bcastRev, bcDim_self]
    | one h => cases l1 <;> cases l2 <;> simp_all [bcastShape, bcastRev, bcDim_self]
  refine ⟨entries f (n :: s) A1 A2, fun i => entries f s (B1 i) (B2 i), bop_ok e1,
    fun i => bop_ok (by rw [h1.shapes, h2.shapes, hs.shape]), rfl, fun i => rfl, wf_ofIndices _ _,
    fun i _ => wf_ofIndices _ _, fun i hi idx hv => ?_⟩
  unfold entries
  rw [get_ofIndices _ hv]
  show ND.get _ (i :: idx) = _
  rw [get_ofIndices _ (List.Forall₂.cons hi hv), h1.at hs hi hv, h2.at hs.symm hi hv]

theorem VRel.map {n : ℕ} {l : Bool} {s : List ℕ} {A : ND α} {B : ℕ → ND α} (f : α → α) (h : VRel n l s A B) :
    VRel n l s (A.map f) fun i => (B i).map f :=
  ⟨h.shape, h.shapes, wf_map f h.wf, fun i hi => wf_map f (h.wfs i hi),
    fun i hi idx hv => by rw [get_map, get_map, h.values i hi idx hv]⟩

theorem VRel.sum (R : Arith α) {n d : ℕ} {l : Bool} {A : ND α} {B : ℕ → ND α} (h : VRel n l [d] A B) :
    ∃ A' B', sumAxis R A (some (-1)) = .ok A' ∧ (∀ i, sumAxis R (B i) (some (-1)) = .ok (B' i)) ∧
      VRel n l [] A' B' := by
  refine ⟨ofIndices (if l then [n] else []) fun idx => R.sum ((List.range d).map fun k =>
      (A.get (idx.insertIdx (if l then 1 else 0) k)).getD default),
    fun i => ofIndices [] fun idx => R.sum ((List.range d).map fun k => ((B i).get (idx.insertIdx 0 k)).getD default),
    ?_, fun i => ?_, by cases l <;> rfl, fun i => rfl, wf_ofIndices _ _, fun i _ => wf_ofIndices _ _, fun i hi idx hv => ?_⟩
  · simp only [sumAxis, h.shape]
    cases l <;> rfl
  · simp only [sumAxis, h.shapes]
    rfl
  · cases hv
    rw [get_ofIndices _ List.Forall₂.nil]
    have hv : Valid (if l then [n] else []) ((if l then [i] else []) ++ []) := by
      cases l with
      | false => exact List.Forall₂.nil
      | true => exact List.Forall₂.cons hi List.Forall₂.nil
    rw [get_ofIndices _ hv]
    congr 2
    apply List.map_congr_left
    intro k hk
    have := h.values i hi [k] (List.Forall₂.cons (List.mem_range.1 hk) List.Forall₂.nil)
    have e : ((if l then [i] else []) ++ []).insertIdx (if l then 1 else 0) k = (if l then [i] else []) ++ [k] := by
      cases l <;> rfl
    rw [e, this]
    rfl

/-- The measure of a matrix and a vector is related to measures of rows and the vector. -/
def GoodVec (f : ND α → ND α → ℤ → Py (ND α)) : Prop :=
  ∀ {n d e r : ℕ} {l1 l2 : Bool} {x y : ND α} {B C : ℕ → ND α}, bcDim d e = some r → (l1 || l2) = true →
    VRel n l1 [d] x B → VRel n l2 [e] y C →
    ∃ A D, f x y (-1) = .ok A ∧ (∀ i, f (B i) (C i) (-1) = .ok (D i)) ∧ VRel n true [] A D

theorem goodVec_kl (R : Arith α) : GoodVec (klDiv R) := by
  intro n d e r l1 l2 x y B C hd hl hx hy
  obtain ⟨A1, D1, a1, b1, r1⟩ := (hx.map fun v => R.add v R.eps).bop R.div (hy.map fun v => R.add v R.eps) (.one hd) hl
  obtain ⟨A2, D2, a2, b2, r2⟩ := hx.bop R.mul (r1.map R.log) (.one (bcDim_left hd)) (by simp)
  obtain ⟨A3, D3, a3, b3, r3⟩ := r2.bop R.sub hx (.one (bcDim_left' hd)) (by simp)
  obtain ⟨A4, D4, a4, b4, r4⟩ := r3.bop R.add hy (.one (bcDim_right hd)) (by simp)
  obtain ⟨A5, D5, a5, b5, r5⟩ := r4.sum R
  refine ⟨A5, D5, ?_, fun i => ?_, r5⟩
  · simp only [klDiv, generalizedKL, a1, a2, a3, a4, bind, Except.bind, a5]
  · simp only [klDiv, generalizedKL, b1, b2, b3, b4, bind, Except.bind, b5]

theorem goodVec_revKl (R : Arith α) : GoodVec (revKlDiv R) := fun hd hl hx hy =>
  goodVec_kl R (bcDim_symm hd) (by rw [Bool.or_comm]; exact hl) hy hx

theorem goodVec_symKl (R : Arith α) : GoodVec (symKlDiv R) := by
  intro n d e r l1 l2 x y B C hd hl hx hy
  obtain ⟨A1, D1, a1, b1, r1⟩ := goodVec_kl R hd hl hx hy
  obtain ⟨A2, D2, a2, b2, r2⟩ := goodVec_revKl R hd hl hx hy
  obtain ⟨A3, D3, a3, b3, r3⟩ := r1.bop R.add r2 .nil rfl
  refine ⟨_, _, ?_, fun i => ?_, r3.map fun v => R.mul R.half v⟩
  · simp only [symKlDiv, a1, a2, a3, bind, Except.bind]
    rfl
  · simp only [symKlDiv, b1, b2, b3, bind, Except.bind]
    rfl

theorem goodVec_frob (R : Arith α) : GoodVec (frobenius R) := by
  intro n d e r l1 l2 x y B C hd hl hx hy
  obtain ⟨A1, D1, a1, b1, r1⟩ := hx.bop R.sub hy (.one hd) hl
  obtain ⟨A2, D2, a2, b2, r2⟩ := (r1.map fun v => R.mul v v).sum R
  refine ⟨_, _, ?_, fun i => ?_, r2.map R.sqrt⟩
  · simp only [frobenius, square, a1, a2, bind, Except.bind]
    rfl
  · simp only [frobenius, square, b1, b2, bind, Except.bind]
    rfl

theorem goodVec_cos (R : Arith α) : GoodVec (cosineSimilarity R) := by
  intro n d e r l1 l2 x y B C hd hl hx hy
  obtain ⟨A1, D1, a1, b1, r1⟩ := hx.bop R.mul hy (.one hd) hl
  obtain ⟨A2, D2, a2, b2, r2⟩ := r1.sum R
  obtain ⟨A3, D3, a3, b3, r3⟩ := (hx.map fun v => R.mul v v).sum R
  obtain ⟨A4, D4, a4, b4, r4⟩ := (hy.map fun v => R.mul v v).sum R
  obtain ⟨A5, D5, a5, b5, r5⟩ := r3.bop R.mul r4 .nil hl
  obtain ⟨A6, D6, a6, b6, r6⟩ := (r5.map R.sqrt).bop R.add (r2.map R.isZero) .nil rfl
  obtain ⟨A7, D7, a7, b7, r7⟩ := r2.bop R.div r6 .nil rfl
  refine ⟨_, _, ?_, fun i => ?_, r7⟩
  · simp only [cosineSimilarity, square, a1, a2, a3, a4, a5, a6, bind, Except.bind, a7]
  · simp only [cosineSimilarity, square, b1, b2, b3, b4, b5, b6, bind, Except.bind, b7]

theorem goodVec_cosDiff (R : Arith α) : GoodVec (cosineDiff R) := by
  intro n d e r l1 l2 x y B C hd hl hx hy
  obtain ⟨A1, D1, a1, b1, r1⟩ := goodVec_cos R hd hl hx hy
  refine ⟨_, _, ?_, fun i => ?_, r1.map R.neg⟩
  · simp only [cosineDiff, a1, bind, Except.bind]
    rfl
  · simp only [cosineDiff, b1, bind, Except.bind]
    rfl

theorem goodVec (R : Arith α) (μ : Measure) : GoodVec (μ.run R) := by
  cases μ
  · exact goodVec_kl R
  · exact goodVec_revKl R
  · exact goodVec_symKl R
  · exact goodVec_frob R
  · exact goodVec_cos R
  · exact goodVec_cosDiff R

/-- **C218** (a matrix and a vector).  The measure of a matrix with `n` rows and a vector has `n` values, which are the
measures of the rows and the vector; and so in the other order. -/
theorem C218_vector (R : Arith α) (μ : Measure) {n d e : ℕ} {x y : ND α} (hx : x.shape = [n, d]) (hy : y.shape = [e])
    (wx : x.WF) (wy : y.WF) (hd : d = e ∨ d = 1 ∨ e = 1) :
    (∃ A, μ.run R x y (-1) = .ok A ∧ A.shape = [n] ∧ A.WF ∧
      ∀ i, i < n → ∃ v, μ.run R (row x i) y (-1) = .ok ⟨[], [v]⟩ ∧ A.get [i] = some v) ∧
    ∃ A, μ.run R y x (-1) = .ok A ∧ A.shape = [n] ∧ A.WF ∧
      ∀ i, i < n → ∃ v, μ.run R y (row x i) (-1) = .ok ⟨[], [v]⟩ ∧ A.get [i] = some v := by
  obtain ⟨r, hr⟩ : ∃ r, bcDim d e = some r := by
    cases h : bcDim d e with
    | some r => exact ⟨r, rfl⟩
    | none => rw [bcDim_none] at h; omega
  have h1 : VRel n true [d] x (row x) := by
    refine ⟨hx, fun i => by rw [row_eq hx], wx, fun i hi => row_wf hx wx hi, fun i hi idx hv => ?_⟩
    rcases hv with _ | ⟨hk, hv⟩
    cases hv
    rw [row_get hx hk]
    rfl
  have h2 : VRel n false [e] y fun _ => y := ⟨hy, fun _ => hy, wy, fun _ _ => wy, fun _ _ _ _ => rfl⟩
  have fin : ∀ {A : ND α} {D : ℕ → ND α}, VRel n true [] A D → A.shape = [n] ∧ A.WF ∧
      ∀ i, i < n → ∃ v, D i = ⟨[], [v]⟩ ∧ A.get [i] = some v := by
    intro A D h
    refine ⟨h.shape, h.wf, fun i hi => ?_⟩
    obtain ⟨v, hv⟩ := scalar (h.shapes i) (h.wfs i hi)
    refine ⟨v, hv, ?_⟩
    have := h.values i hi [] List.Forall₂.nil
    rw [hv] at this
    exact this
  constructor
  · obtain ⟨A, D, a, b, h⟩ := goodVec R μ hr rfl h1 h2
    obtain ⟨f1, f2, f3⟩ := fin h
    exact ⟨A, a, f1, f2, fun i hi => by obtain ⟨v, hv, hv'⟩ := f3 i hi; exact ⟨v, by rw [b, hv], hv'⟩⟩
  · obtain ⟨A, D, a, b, h⟩ := goodVec R μ (bcDim_symm hr) rfl h2 h1
    obtain ⟨f1, f2, f3⟩ := fin h
    exact ⟨A, a, f1, f2, fun i hi => by obtain ⟨v, hv, hv'⟩ := f3 i hi; exact ⟨v, by rw [b, hv], hv'⟩⟩

/-! ### Lines along an axis -/

/-- The values along an axis: `idx` has the other indices. -/
def line (a : ND α) (k : ℕ) (idx : List ℕ) : ND α :=
  ⟨[a.shape.getD k 0], (List.range (a.shape.getD k 0)).map fun j => (a.get (idx.insertIdx k j)).getD default⟩

theorem bcastRev_self (s : List ℕ) : bcastRev s s = some s := by
  induction s with
  | nil => rfl
  | cons n s ih => simp [bcastRev, bcDim_self, ih]

theorem bcastShape_self (s : List ℕ) : bcastShape s s = some s := by
  simp [bcastShape, bcastRev_self]

theorem indices_one (d : ℕ) : indices [d] = (List.range d).map fun j => [j] := by
  simp only [indices, List.map_cons, List.map_nil, List.flatMap_def]
  induction d with
  | zero => rfl
  | succ d ih => simp [List.range_succ, ih]

/-- `A` has a value for each index, which is that of an array without dimension. -/
structure PRel (s : List ℕ) (A : ND α) (B : List ℕ → ND α) : Prop where
  shape : A.shape = s
  wf : A.WF
  values : ∀ idx, Valid s idx → ∃ v, B idx = ⟨[], [v]⟩ ∧ A.get idx = some v

omit [Inhabited α] in
theorem PRel.map {s : List ℕ} {A : ND α} {B : List ℕ → ND α} (f : α → α) (h : PRel s A B) :
    PRel s (A.map f) fun idx => (B idx).map f :=
  ⟨h.shape, wf_map f h.wf, fun idx hv => by
    obtain ⟨v, h1, h2⟩ := h.values idx hv
    exact ⟨f v, by rw [h1]; rfl, by rw [get_map, h2]; rfl⟩⟩

theorem PRel.bop {s : List ℕ} {A1 A2 : ND α} {B1 B2 : List ℕ → ND α} (f : α → α → α) (h1 : PRel s A1 B1)
    (h2 : PRel s A2 B2) :
    ∃ A B, bop f A1 A2 = .ok A ∧ (∀ idx, Valid s idx → bop f (B1 idx) (B2 idx) = .ok (B idx)) ∧ PRel s A B := by
  refine ⟨entries f s A1 A2, fun idx => entries f [] (B1 idx) (B2 idx),
    bop_ok (by rw [h1.shape, h2.shape, bcastShape_self]), fun idx hv => ?_, rfl, wf_ofIndices _ _, fun idx hv => ?_⟩
  · obtain ⟨v, a, _⟩ := h1.values idx hv
    obtain ⟨w, b, _⟩ := h2.values idx hv
    exact bop_ok (by rw [a, b]; rfl)
  · obtain ⟨v, a, c⟩ := h1.values idx hv
    obtain ⟨w, b, d⟩ := h2.values idx hv
    refine ⟨f v w, by rw [a, b]; rfl, ?_⟩
    unfold entries
    rw [get_ofIndices _ hv, h1.shape, h2.shape, reduceIndex_self hv, c, d]
    rfl

/-- `A` has the lines of `B` along axis `k`. -/
structure LRel (s : List ℕ) (k : ℕ) (A : ND α) (B : List ℕ → ND α) : Prop where
  shape : A.shape = s
  wf : A.WF
  lines : ∀ idx, Valid (s.eraseIdx k) idx → B idx = line A k idx

theorem line_get (a : ND α) (k : ℕ) (idx : List ℕ) {j : ℕ} (hj : j < a.shape.getD k 0) :
    (line a k idx).get [j] = some ((a.get (idx.insertIdx k j)).getD default) := by
  have : j < (List.range (a.shape.getD k 0)).length := by simpa using hj
  simp only [line, ND.get, position, List.prod_nil, mul_one, add_zero, List.getElem?_map]
  rw [List.getElem?_eq_getElem this]
  simp

theorem LRel.map {s : List ℕ} {k : ℕ} {A : ND α} {B : List ℕ → ND α} (hk : k < s.length) (f : α → α)
    (h : LRel s k A B) : LRel s k (A.map f) fun idx => (B idx).map f := by
  refine ⟨h.shape, wf_map f h.wf, fun idx hv => ?_⟩
  rw [h.lines idx hv]
  unfold line ND.map
  congr 1
  rw [List.map_map]
  apply List.map_congr_left
  intro j hj
  have hj' : j < s.getD k 0 := by rw [← h.shape]; exact List.mem_range.1 hj
  obtain ⟨v, hv'⟩ := get_some h.wf (idx := idx.insertIdx k j) (by rw [h.shape]; exact valid_insert hk hv hj')
  have h2 : ({ shape := A.shape, data := A.data.map f } : ND α).get (idx.insertIdx k j) = some (f v) := by
    have := get_map f A (idx.insertIdx k j)
    rw [hv'] at this
    exact this
  simp only [Function.comp_apply, hv', h2, Option.getD_some]

theorem LRel.bop {s : List ℕ} {k : ℕ} {A1 A2 : ND α} {B1 B2 : List ℕ → ND α} (hk : k < s.length) (f : α → α → α)
    (h1 : LRel s k A1 B1) (h2 : LRel s k A2 B2) :
    ∃ A B, bop f A1 A2 = .ok A ∧ (∀ idx, Valid (s.eraseIdx k) idx → bop f (B1 idx) (B2 idx) = .ok (B idx)) ∧
      LRel s k A B := by
  refine ⟨entries f s A1 A2, fun idx => entries f [s.getD k 0] (B1 idx) (B2 idx),
    bop_ok (by rw [h1.shape, h2.shape, bcastShape_self]), fun idx hv => bop_ok ?_, rfl, wf_ofIndices _ _, fun idx hv => ?_⟩
  · rw [h1.lines idx hv, h2.lines idx hv]
    simp only [line, h1.shape, h2.shape, bcastShape_self]
  · rw [h1.lines idx hv, h2.lines idx hv]
    have e0 : ∀ x y : ND α, entries f [s.getD k 0] x y = ⟨[s.getD k 0], (List.range (s.getD k 0)).map fun j =>
        f ((x.get (reduceIndex x.shape [j])).getD default) ((y.get (reduceIndex y.shape [j])).getD default)⟩ := by
      intro x y
      unfold entries ofIndices
      rw [indices_one, List.map_map]
      rfl
    rw [e0]
    show _ = ND.mk [s.getD k 0] ((List.range (s.getD k 0)).map fun j =>
      ((entries f s A1 A2).get (idx.insertIdx k j)).getD default)
    congr 1
    apply List.map_congr_left
    intro j hj
    have hj := List.mem_range.1 hj
    have hv1 : Valid [s.getD k 0] [j] := List.Forall₂.cons hj List.Forall₂.nil
    have hv2 := valid_insert hk hv hj
    have e1 : (line A1 k idx).shape = [s.getD k 0] := by simp only [line, h1.shape]
    have e2 : (line A2 k idx).shape = [s.getD k 0] := by simp only [line, h2.shape]
    unfold entries
    rw [get_ofIndices _ hv2, e1, e2, reduceIndex_self hv1, h1.shape, h2.shape, reduceIndex_self hv2,
      line_get A1 k idx (by rw [h1.shape]; exact hj), line_get A2 k idx (by rw [h2.shape]; exact hj)]
    rfl

theorem LRel.sum (R : Arith α) {s : List ℕ} {axis : ℤ} {k : ℕ} {A : ND α} {B : List ℕ → ND α}
    (hk : IsAxis s.length axis k) (h : LRel s k A B) :
    ∃ A' B', sumAxis R A (some axis) = .ok A' ∧
      (∀ idx, Valid (s.eraseIdx k) idx → sumAxis R (B idx) (some (-1)) = .ok (B' idx)) ∧ PRel (s.eraseIdx k) A' B' := by
  refine ⟨ofIndices (s.eraseIdx k) fun idx => R.sum ((List.range (s.getD k 0)).map fun j =>
      (A.get (idx.insertIdx k j)).getD default),
    fun idx => ⟨[], [R.sum (line A k idx).data]⟩, ?_, fun idx hv => ?_, rfl, wf_ofIndices _ _, fun idx hv => ?_⟩
  · have hne : s ≠ [] := by
      intro h0
      have := hk.1
      simp [h0] at this
    simp only [sumAxis, h.shape, hne, false_and, if_false, checkAxis_ok hk]
    rfl
  · rw [h.lines idx hv]
    have e : ((List.range ((line A k idx).shape.getD 0 0)).map fun j => ((line A k idx).get [j]).getD default) =
        (line A k idx).data := by
      have : (line A k idx).shape.getD 0 0 = A.shape.getD k 0 := rfl
      rw [this]
      unfold line
      apply List.map_congr_left
      intro j hj
      have := line_get A k idx (List.mem_range.1 hj)
      unfold line at this
      rw [this]
      rfl
    have e' : (line A k idx).shape.length = 1 := rfl
    have e'' : (line A k idx).shape ≠ [] := by simp [line]
    simp only [sumAxis, e'', false_and, if_false, e', checkAxis_ok (show IsAxis 1 (-1) 0 from ⟨by decide, Or.inr (by norm_num)⟩)]
    show Except.ok _ = Except.ok _
    congr 1
    have e3 : (line A k idx).shape.eraseIdx 0 = [] := rfl
    rw [e3]
    show ND.mk [] [_] = _
    congr 2
    simpa using congrArg R.sum e
  · refine ⟨_, rfl, ?_⟩
    rw [get_ofIndices _ hv]
    simp only [line, h.shape]

/-- Measures of arrays of the same shape are those of their lines. -/
def GoodAxis (f : ND α → ND α → ℤ → Py (ND α)) : Prop :=
  ∀ {s : List ℕ} {axis : ℤ} {k : ℕ} {x y : ND α} {B C : List ℕ → ND α}, IsAxis s.length axis k → LRel s k x B →
    LRel s k y C →
    ∃ A D, f x y axis = .ok A ∧ (∀ idx, Valid (s.eraseIdx k) idx → f (B idx) (C idx) (-1) = .ok (D idx)) ∧
      PRel (s.eraseIdx k) A D

theorem goodAxis_kl (R : Arith α) : GoodAxis (klDiv R) := by
  intro s axis k x y B C hk hx hy
  obtain ⟨A1, D1, a1, b1, r1⟩ := (hx.map hk.1 fun v => R.add v R.eps).bop hk.1 R.div (hy.map hk.1 fun v => R.add v R.eps)
  obtain ⟨A2, D2, a2, b2, r2⟩ := hx.bop hk.1 R.mul (r1.map hk.1 R.log)
  obtain ⟨A3, D3, a3, b3, r3⟩ := r2.bop hk.1 R.sub hx
  obtain ⟨A4, D4, a4, b4, r4⟩ := r3.bop hk.1 R.add hy
  obtain ⟨A5, D5, a5, b5, r5⟩ := r4.sum R hk
  refine ⟨A5, D5, ?_, fun idx hv => ?_, r5⟩
  · simp only [klDiv, generalizedKL, a1, a2, a3, a4, bind, Except.bind, a5]
  · simp only [klDiv, generalizedKL, b1 idx hv, b2 idx hv, b3 idx hv, b4 idx hv, bind, Except.bind, b5 idx hv]

theorem goodAxis_revKl (R : Arith α) : GoodAxis (revKlDiv R) := fun hk hx hy => goodAxis_kl R hk hy hx

theorem goodAxis_symKl (R : Arith α) : GoodAxis (symKlDiv R) := by
  intro s axis k x y B C hk hx hy
  obtain ⟨A1, D1, a1, b1, r1⟩ := goodAxis_kl R hk hx hy
  obtain ⟨A2, D2, a2, b2, r2⟩ := goodAxis_revKl R hk hx hy
  obtain ⟨A3, D3, a3, b3, r3⟩ := r1.bop R.add r2
  refine ⟨_, _, ?_, fun idx hv => ?_, r3.map fun v => R.mul R.half v⟩
  · simp only [symKlDiv, a1, a2, a3, bind, Except.bind]
    rfl
  · simp only [symKlDiv, b1 idx hv, b2 idx hv, b3 idx hv, bind, Except.bind]
    rfl

theorem goodAxis_frob (R : Arith α) : GoodAxis (frobenius R) := by
  intro s axis k x y B C hk hx hy
  obtain ⟨A1, D1, a1, b1, r1⟩ := hx.bop hk.1 R.sub hy
  obtain ⟨A2, D2, a2, b2, r2⟩ := (r1.map hk.1 fun v => R.mul v v).sum R hk
  refine ⟨_, _, ?_, fun idx hv => ?_, r2.map R.sqrt⟩
  · simp only [frobenius, square, a1, a2, bind, Except.bind]
    rfl
  · simp only [frobenius, square, b1 idx hv, b2 idx hv, bind, Except.bind]
    rfl

theorem goodAxis_cos (R : Arith α) : GoodAxis (cosineSimilarity R) := by
  intro s axis k x y B C hk hx hy
  obtain ⟨A1, D1, a1, b1, r1⟩ := hx.bop hk.1 R.mul hy
  obtain ⟨A2, D2, a2, b2, r2⟩ := r1.sum R hk
  obtain ⟨A3, D3, a3, b3, r3⟩ := (hx.map hk.1 fun v => R.mul v v).sum R hk
  obtain ⟨A4, D4, a4, b4, r4⟩ := (hy.map hk.1 fun v => R.mul v v).sum R hk
  obtain ⟨A5, D5, a5, b5, r5⟩ := r3.bop R.mul r4
  obtain ⟨A6, D6, a6, b6, r6⟩ := (r5.map R.sqrt).bop R.add (r2.map R.isZero)
  obtain ⟨A7, D7, a7, b7, r7⟩ := r2.bop R.div r6
  refine ⟨_, _, ?_, fun idx hv => ?_, r7⟩
  · simp only [cosineSimilarity, square, a1, a2, a3, a4, a5, a6, bind, Except.bind, a7]
  · simp only [cosineSimilarity, square, b1 idx hv, b2 idx hv, b3 idx hv, b4 idx hv, b5 idx hv, b6 idx hv, bind, Except.bind,
      b7 idx hv]

theorem goodAxis_cosDiff (R : Arith α) : GoodAxis (cosineDiff R) := by
  intro s axis k x y B C hk hx hy
  obtain ⟨A1, D1, a1, b1, r1⟩ := goodAxis_cos R hk hx hy
  refine ⟨_, _, ?_, fun idx hv => ?_, r1.map R.neg⟩
  · simp only [cosineDiff, a1, bind, Except.bind]
    rfl
  · simp only [cosineDiff, b1 idx hv, bind, Except.bind]
    rfl

/-- **C218** (axes).  On arrays of the same shape, of any number of dimensions, the measure along an axis has the
dimensions of the arrays without that one, and its values are the measures of the lines along that axis. -/
theorem C218_axis (R : Arith α) (μ : Measure) {a b : ND α} {axis : ℤ} {k : ℕ} (hs : b.shape = a.shape) (wa : a.WF)
    (wb : b.WF) (hk : IsAxis a.shape.length axis k) :
    ∃ A, μ.run R a b axis = .ok A ∧ A.shape = a.shape.eraseIdx k ∧ A.WF ∧
      ∀ idx, Valid (a.shape.eraseIdx k) idx →
        ∃ v, μ.run R (line a k idx) (line b k idx) (-1) = .ok ⟨[], [v]⟩ ∧ A.get idx = some v := by
  have hx : LRel a.shape k a (line a k) := ⟨rfl, wa, fun _ _ => rfl⟩
  have hy : LRel a.shape k b (line b k) := ⟨hs, wb, fun _ _ => rfl⟩
  have hμ : GoodAxis (μ.run R) := by
    cases μ
    · exact goodAxis_kl R
    · exact goodAxis_revKl R
    · exact goodAxis_symKl R
    · exact goodAxis_frob R
    · exact goodAxis_cos R
    · exact goodAxis_cosDiff R
  obtain ⟨A, D, h1, h2, h3⟩ := hμ hk hx hy
  refine ⟨A, h1, h3.shape, h3.wf, fun idx hv => ?_⟩
  obtain ⟨v, e1, e2⟩ := h3.values idx hv
  exact ⟨v, by rw [h2 idx hv, e1], e2⟩

/-! ### Real numbers -/

/-- A vector. -/
def vec {d : ℕ} (x : Fin d → α) : ND α := ⟨[d], List.ofFn x⟩

theorem vec_get {d : ℕ} (x : Fin d → α) {k : ℕ} (hk : k < d) : (vec x).get [k] = some (x ⟨k, hk⟩) := by
  simp [vec, ND.get, position, hk]

theorem vec_map {d : ℕ} (x : Fin d → α) (f : α → α) : (vec x).map f = vec fun k => f (x k) := by
  simp [vec, ND.map, List.map_ofFn, Function.comp_def]

theorem range_map_eq {d : ℕ} (g : ℕ → α) (x : Fin d → α) (h : ∀ k (hk : k < d), g k = x ⟨k, hk⟩) :
    (List.range d).map g = List.ofFn x := by
  apply List.ext_getElem
  · simp
  · intro k h1 h2
    simp only [List.length_map, List.length_range] at h1
    simp [h k h1]

theorem bop_vec {d : ℕ} (f : α → α → α) (x y : Fin d → α) : bop f (vec x) (vec y) = .ok (vec fun k => f (x k) (y k)) := by
  rw [bop_ok (show bcastShape (vec x).shape (vec y).shape = some [d] from bcastShape_self [d])]
  congr 1
  unfold entries ofIndices
  rw [indices_one, List.map_map]
  show ND.mk [d] _ = ND.mk [d] _
  congr 1
  apply range_map_eq
  intro k hk
  have hv : Valid [d] [k] := List.Forall₂.cons hk List.Forall₂.nil
  have e1 : (vec x).shape = [d] := rfl
  have e2 : (vec y).shape = [d] := rfl
  simp only [Function.comp_apply]
  rw [e1, e2, reduceIndex_self hv, vec_get x hk, vec_get y hk]
  rfl

theorem sum_vec (R : Arith α) {d : ℕ} (x : Fin d → α) : sumAxis R (vec x) (some (-1)) = .ok ⟨[], [R.sum (List.ofFn x)]⟩ := by
  have e : (List.range d).map (fun j => ((vec x).get [j]).getD default) = List.ofFn x :=
    range_map_eq _ _ fun k hk => by rw [vec_get x hk]; rfl
  rw [← e]
  have e'' : (vec x).shape ≠ [] := by simp [vec]
  have e' : (vec x).shape.length = 1 := rfl
  simp only [sumAxis, e'', false_and, if_false, e', checkAxis_ok (show IsAxis 1 (-1) 0 from ⟨by decide, Or.inr (by norm_num)⟩)]
  rfl

theorem bop_scalar (f : α → α → α) (v w : α) : bop f ⟨[], [v]⟩ ⟨[], [w]⟩ = .ok ⟨[], [f v w]⟩ := rfl

theorem map_scalar (f : α → α) (v : α) : (ND.mk [] [v]).map f = ⟨[], [f v]⟩ := rfl

/-- The value of a measure of two vectors of real numbers, with the definitions of `Verif/Metrics/Model.lean`. -/
noncomputable def Measure.value {d : ℕ} (x y : Fin d → ℝ) : Measure → ℝ
  | .kl => (Metrics.klDiv x y Metrics.EPSILON false).1
  | .revKl => (Metrics.revKlDiv x y Metrics.EPSILON false).1
  | .symKl => (Metrics.symKlDiv x y Metrics.EPSILON false).1
  | .frob => Metrics.frobenius x y
  | .cos => Metrics.cosineSimilarity x y
  | .cosDiff => Metrics.cosineDiff x y

theorem real_kl {d : ℕ} (x y : Fin d → ℝ) :
    klDiv realArith (vec x) (vec y) (-1) = .ok ⟨[], [Metrics.generalizedKL x y Metrics.EPSILON]⟩ := by
  simp only [klDiv, generalizedKL, vec_map, bop_vec, bind, Except.bind, sum_vec]
  congr 3
  simp [realArith, Metrics.generalizedKL, List.sum_ofFn]

theorem real_cos {d : ℕ} (x y : Fin d → ℝ) :
    cosineSimilarity realArith (vec x) (vec y) (-1) = .ok ⟨[], [Metrics.cosineSimilarity x y]⟩ := by
  simp only [cosineSimilarity, square, vec_map, bop_vec, bind, Except.bind, sum_vec, map_scalar, bop_scalar]
  congr 3
  simp [realArith, Metrics.cosineSimilarity, Metrics.ind, List.sum_ofFn, sq]

/-- **C218** (real numbers).  The measures of two vectors are those of `Verif/Metrics/Model.lean`. -/
theorem C218_real (μ : Measure) {d : ℕ} (x y : Fin d → ℝ) :
    μ.run realArith (vec x) (vec y) (-1) = .ok ⟨[], [μ.value x y]⟩ := by
  cases μ
  · exact real_kl x y
  · exact real_kl y x
  · show symKlDiv realArith (vec x) (vec y) (-1) = _
    simp only [symKlDiv, revKlDiv, real_kl, bind, Except.bind, bop_scalar]
    rfl
  · show frobenius realArith (vec x) (vec y) (-1) = _
    simp only [frobenius, square, vec_map, bop_vec, bind, Except.bind, sum_vec]
    show Except.ok (ND.mk [] [_]) = _
    congr 3
    simp [realArith, Measure.value, Metrics.frobenius, List.sum_ofFn, sq]
  · exact real_cos x y
  · show cosineDiff realArith (vec x) (vec y) (-1) = _
    simp only [cosineDiff, real_cos, bind, Except.bind]
    rfl

/-- A matrix. -/
def mat {n d : ℕ} (x : Fin n → Fin d → α) : ND α := ⟨[n, d], (List.ofFn fun i => List.ofFn (x i)).flatten⟩

theorem flatten_get {n d : ℕ} (x : Fin n → Fin d → α) {i k : ℕ} (hi : i < n) (hk : k < d) :
    ((List.ofFn fun i => List.ofFn (x i)).flatten)[i * d + k]? = some (x ⟨i, hi⟩ ⟨k, hk⟩) := by
  induction n generalizing i with
  | zero => omega
  | succ n ih =>
    rw [List.ofFn_succ, List.flatten_cons]
    cases i with
    | zero =>
      rw [List.getElem?_append_left (by simpa using hk)]
      simp [hk]
    | succ i =>
      have hl : (List.ofFn (x 0)).length = d := by simp
      rw [List.getElem?_append_right (by rw [hl, Nat.succ_mul]; omega), hl]
      have : (i + 1) * d + k - d = i * d + k := by rw [Nat.succ_mul]; omega
      rw [this, ih (fun i => x i.succ) (by omega)]
      rfl

theorem mat_wf {n d : ℕ} (x : Fin n → Fin d → α) : (mat x).WF := by
  simp [ND.WF, mat, List.length_flatten, Function.comp_def, List.map_ofFn, List.sum_ofFn]

theorem mat_get {n d : ℕ} (x : Fin n → Fin d → α) {i k : ℕ} (hi : i < n) (hk : k < d) :
    (mat x).get [i, k] = some (x ⟨i, hi⟩ ⟨k, hk⟩) := by
  simpa [mat, ND.get, position] using flatten_get x hi hk

theorem row_mat {n d : ℕ} (x : Fin n → Fin d → α) {i : ℕ} (hi : i < n) : row (mat x) i = vec (x ⟨i, hi⟩) := by
  have hl := row_wf (x := mat x) rfl (mat_wf x) hi
  rw [row_eq (x := mat x) rfl] at *
  simp only [vec]
  congr 1
  apply List.ext_getElem
  · simpa [ND.WF] using hl
  · intro k h1 h2
    have hk : k < d := by simpa using h2
    have := flatten_get x hi hk
    simp only [mat, List.getElem_take, List.getElem_drop, List.getElem_ofFn]
    rw [List.getElem?_eq_some_iff] at this
    exact this.2

/-- **C218** (tables).  With real numbers and as many columns, `all_distances` is the table of the measures of all pairs of
rows. -/
theorem C218_table (μ : Measure) {n m d : ℕ} (x : Fin n → Fin d → ℝ) (y : Fin m → Fin d → ℝ) :
    allDistances (mat x) (mat y) (μ.run realArith) = .ok (mat fun i j => μ.value (x i) (y j)) := by
  obtain ⟨A, h1, h2, h3, h4⟩ := C218_all_distances realArith μ (reco := mat x) (ex := mat y) rfl rfl (mat_wf x) (mat_wf y)
    (Or.inl rfl)
  rw [h1]
  congr 1
  have hg : ∀ i j (hi : i < n) (hj : j < m), A.get [i, j] = (mat fun i j => μ.value (x i) (y j)).get [i, j] := by
    intro i j hi hj
    obtain ⟨v, e1, e2⟩ := h4 i j hi hj
    rw [row_mat x hi, row_mat y hj, C218_real] at e1
    rw [e2, mat_get _ hi hj]
    injection e1 with e1
    injection e1 with _ e1
    injection e1 with e1
    rw [← e1]
  obtain ⟨s, l⟩ := A
  obtain rfl : s = [n, m] := h2
  have hl : l.length = n * m := by simpa [ND.WF] using h3
  have hl' : (List.ofFn fun i => List.ofFn fun j => μ.value (x i) (y j)).flatten.length = n * m := by
    simpa [ND.WF, mat] using mat_wf fun i j => μ.value (x i) (y j)
  unfold mat
  congr 1
  apply List.ext_getElem?
  intro k
  by_cases hk : k < n * m
  · have hm : 0 < m := by
      rcases Nat.eq_zero_or_pos m with rfl | h
      · simp at hk
      · exact h
    have := hg (k / m) (k % m) (Nat.div_lt_of_lt_mul (by rwa [Nat.mul_comm])) (Nat.mod_lt _ hm)
    have e : k / m * m + k % m = k := by rw [Nat.mul_comm]; exact Nat.div_add_mod k m
    simpa [ND.get, mat, position, e] using this
  · rw [List.getElem?_eq_none (by omega), List.getElem?_eq_none (by rw [hl']; omega)]

/-! ### Examples -/

deriving instance DecidableEq for ND

/-- Operations on integers, for examples. -/
def intArith : Arith ℤ := ⟨(· + ·), (· - ·), (· * ·), (· / ·), (- ·), id, id, fun x => if x = 0 then 1 else 0, 1, 1, List.sum⟩

/-- Two samples and three examples (`C218_all_distances`). -/
example : allDistances (⟨[2, 2], [1, 2, 3, 4]⟩ : ND ℤ) ⟨[3, 2], [1, 2, 0, 0, 5, 6]⟩ (Measure.frob.run intArith) =
    .ok ⟨[2, 3], [0, 5, 32, 8, 25, 8]⟩ := by decide +kernel

/-- The only column of samples is compared with all columns of examples. -/
example : allDistances (⟨[2, 1], [1, 3]⟩ : ND ℤ) ⟨[2, 2], [1, 2, 3, 3]⟩ (Measure.frob.run intArith) =
    .ok ⟨[2, 2], [1, 8, 5, 0]⟩ := by decide +kernel

/-- `C218_columns`. -/
example : allDistances (⟨[0, 2], []⟩ : ND ℤ) ⟨[1, 3], [1, 2, 3]⟩ (Measure.cos.run intArith) = .error .valueError := by
  decide +kernel

/-- `C218_dimensions`. -/
example : allDistances (⟨[2], [1, 2]⟩ : ND ℤ) ⟨[1, 2], [1, 2]⟩ (Measure.kl.run intArith) = .error .indexError := by
  decide +kernel

/-- `C218_vector`. -/
example : Measure.frob.run intArith (⟨[3, 2], [1, 2, 3, 4, 5, 6]⟩ : ND ℤ) ⟨[2], [1, 0]⟩ (-1) = .ok ⟨[3], [4, 20, 52]⟩ := by
  decide +kernel

/-- `C218_axis`: lines along the first axis. -/
example : Measure.frob.run intArith (⟨[2, 2], [1, 2, 3, 4]⟩ : ND ℤ) ⟨[2, 2], [0, 0, 1, 1]⟩ 0 = .ok ⟨[2], [5, 13]⟩ ∧
    Measure.frob.run intArith (line (⟨[2, 2], [1, 2, 3, 4]⟩ : ND ℤ) 0 [1]) (line ⟨[2, 2], [0, 0, 1, 1]⟩ 0 [1]) (-1) =
      .ok ⟨[], [13]⟩ := by decide +kernel

end Verif.NDArray
