import Verif.Munkres.Props
import Mathlib.Data.Nat.Factorial.Basic

/-!
# Property C32 of `multimodal/lib/munkres.py`: enumeration of permutations and brute force
-/

namespace Verif.Munkres

theorem insert_perm {α : Type*} (a : α) (p : List α) (i : ℕ) :
    (p.take i ++ [a] ++ p.drop i).Perm (a :: p) := by
  rw [List.append_assoc, List.singleton_append]
  refine List.perm_middle.trans ?_
  rw [List.take_append_drop]

/-- **C32.** `all_perms(l)` yields exactly the permutations of `l`. -/
theorem C32_all_perms {α : Type*} (l : List α) : ∀ p : List α, p ∈ allPerms l ↔ p.Perm l := by
  induction l using allPerms.induct with
  | case1 => intro p; simp [allPerms]
  | case2 a => intro p; simp [allPerms]
  | case3 a b l ih =>
    intro p
    unfold allPerms
    rw [List.mem_flatMap]
    constructor
    · rintro ⟨q, hq, hp⟩
      obtain ⟨i, _, rfl⟩ := List.mem_map.1 hp
      exact (insert_perm a q i).trans (((ih q).1 hq).cons a)
    · intro hp
      have ha : a ∈ p := hp.mem_iff.2 List.mem_cons_self
      obtain ⟨p1, p2, rfl⟩ := List.append_of_mem ha
      have hq : (p1 ++ p2).Perm (b :: l) :=
        (List.perm_cons a).1 (List.perm_middle.symm.trans hp)
      refine ⟨p1 ++ p2, (ih _).2 hq, List.mem_map.2 ⟨p1.length, ?_, ?_⟩⟩
      · rw [List.mem_range]
        have := hq.length_eq
        simp only [List.length_append, List.length_cons] at this
        omega
      · rw [List.take_left, List.drop_left, List.append_assoc, List.singleton_append]

/-- **C32.** `all_perms(l)` yields `len(l)!` lists. -/
theorem C32_all_perms_length {α : Type*} (l : List α) :
    (allPerms l).length = l.length.factorial := by
  induction l using allPerms.induct with
  | case1 => rfl
  | case2 a => rfl
  | case3 a b l ih =>
    unfold allPerms
    rw [List.length_flatMap]
    simp only [List.length_map, List.length_range]
    rw [List.map_const', List.sum_replicate, ih]
    simp only [List.length_cons]
    rw [Nat.factorial_succ (l.length + 1), smul_eq_mul, Nat.mul_comm]

theorem insert_inj {α : Type*} {a : α} {p q : List α} {i j : ℕ} (hp : a ∉ p) (hq : a ∉ q)
    (hi : i ≤ p.length) (hj : j ≤ q.length)
    (h : p.take i ++ [a] ++ p.drop i = q.take j ++ [a] ++ q.drop j) : p = q ∧ i = j := by
  rw [List.append_assoc, List.append_assoc, List.singleton_append, List.singleton_append] at h
  have h1 : a ∉ p.take i := fun hc => hp (List.mem_of_mem_take hc)
  have h2 : a ∉ q.take j := fun hc => hq (List.mem_of_mem_take hc)
  have h3 : p.take i = q.take j := by
    have key : ∀ (x y x' y' : List α), a ∉ x → a ∉ y → x ++ a :: x' = y ++ a :: y' → x = y := by
      intro x
      induction x with
      | nil =>
        intro y x' y' _ hy he
        cases y with
        | nil => rfl
        | cons c y =>
          simp only [List.nil_append, List.cons_append, List.cons.injEq] at he
          rw [he.1] at hy
          exact absurd List.mem_cons_self hy
      | cons c x ih =>
        intro y x' y' hx hy he
        cases y with
        | nil =>
          simp only [List.nil_append, List.cons_append, List.cons.injEq] at he
          rw [he.1] at hx
          exact absurd List.mem_cons_self hx
        | cons d y =>
          simp only [List.cons_append, List.cons.injEq] at he
          rw [he.1, ih y x' y' (fun hc => hx (List.mem_cons_of_mem _ hc))
            (fun hc => hy (List.mem_cons_of_mem _ hc)) he.2]
    exact key _ _ _ _ h1 h2 h
  rw [h3] at h
  have h4 : p.drop i = q.drop j := by simpa using h
  constructor
  · rw [← List.take_append_drop i p, ← List.take_append_drop j q, h3, h4]
  · have := congrArg List.length h3
    rw [List.length_take, List.length_take] at this
    omega

/-- **C32.** Each permutation is yielded exactly once when the elements are distinct. -/
theorem C32_all_perms_nodup {α : Type*} (l : List α) (h : l.Nodup) : (allPerms l).Nodup := by
  induction l using allPerms.induct with
  | case1 => simp [allPerms]
  | case2 a => simp [allPerms]
  | case3 a b l ih =>
    obtain ⟨ha, hl⟩ := List.nodup_cons.1 h
    unfold allPerms
    have hq : ∀ q ∈ allPerms (b :: l), a ∉ q ∧ q.length = l.length + 1 := by
      intro q hq
      have := (C32_all_perms _ q).1 hq
      exact ⟨fun hc => ha (this.mem_iff.1 hc), by rw [this.length_eq, List.length_cons]⟩
    rw [List.nodup_flatMap]
    constructor
    · intro q hqm
      obtain ⟨h1, h2⟩ := hq q hqm
      apply List.Nodup.map_on _ List.nodup_range
      intro i hi j hj hij
      have hi := List.mem_range.1 hi
      have hj := List.mem_range.1 hj
      exact (insert_inj h1 h1 (by omega) (by omega) hij).2
    · refine List.Pairwise.imp_of_mem ?_ (ih hl)
      intro p q hp hq' hne x hx hx'
      obtain ⟨i, hi, rfl⟩ := List.mem_map.1 hx
      obtain ⟨j, hj, hij⟩ := List.mem_map.1 hx'
      have hi := List.mem_range.1 hi
      have hj := List.mem_range.1 hj
      have h1 := hq p hp
      have h2 := hq q hq'
      exact hne (insert_inj h2.1 h1.1 (by omega) (by omega) hij).1.symm

theorem sum_range_ite (f : ℕ → ℚ) (n j : ℕ) (h : j < n) :
    ((List.range n).map fun k => f k * if some j = some k then 1 else 0).sum = f j := by
  have : ((List.range n).map fun k => f k * if some j = some k then 1 else 0).sum =
      ∑ k ∈ Finset.range n, f k * if some j = some k then 1 else 0 := by
    rw [Finset.sum_range, ← List.sum_ofFn]
    congr 1
    apply List.ext_getElem
    · simp
    · intro i h1 h2; simp
  rw [this]
  simp only [Option.some.injEq, mul_ite, mul_one, mul_zero]
  rw [Finset.sum_ite_eq, if_pos (Finset.mem_range.2 h)]

/-- **C32.** `weight(perm, w)` is the sum of the weights `w[i, perm[i]]`. -/
theorem C32_weight (w : Mat) (hsq : w.n1 = w.n2) (p : List ℕ) (hp : p.Perm (List.range w.n1)) :
    weight p w = .ok (cost w.e p) := by
  have hlen : p.length = w.n1 := by rw [hp.length_eq, List.length_range]
  have hlt : ∀ j ∈ p, j < w.n1 := fun j hj => List.mem_range.1 (hp.mem_iff.1 hj)
  have hall : p.all (· < p.length) = true := by
    rw [List.all_eq_true]; intro j hj; rw [hlen]; simpa using hlt j hj
  unfold weight permutationMatrix
  rw [if_pos hall]
  show (if w.n1 = p.length ∧ w.n2 = p.length then _ else _) = _
  rw [if_pos ⟨hlen.symm, hsq ▸ hlen.symm⟩]
  congr 1
  unfold Mat.entries cost
  simp only []
  rw [List.flatMap, List.sum_flatten, List.map_map]
  congr 1
  apply List.ext_getElem
  · simp [hlen]
  · intro i h1 h2
    have hi : i < p.length := by simpa using h2
    simp only [List.getElem_map, List.getElem_range, Function.comp, List.getElem_mapIdx]
    rw [List.getElem?_eq_getElem hi]
    rw [← hsq]
    exact sum_range_ite (fun k => w.e i k) w.n1 p[i] (hlt _ (List.getElem_mem hi))

theorem bruteFold_spec (w : Mat) (hsq : w.n1 = w.n2) (ps : List (List ℕ)) :
    ∀ q : List ℕ, q.Perm (List.range w.n1) → (∀ p ∈ ps, p.Perm (List.range w.n1)) →
    ∃ r : List ℕ, ps.foldlM (fun (acc : ℚ × List ℕ) perm => do
        let c ← weight perm w
        return if c < acc.1 then (c, perm) else acc) (cost w.e q, q) = (.ok (cost w.e r, r) : Py _) ∧
      r.Perm (List.range w.n1) ∧ cost w.e r ≤ cost w.e q ∧ ∀ p ∈ ps, cost w.e r ≤ cost w.e p := by
  induction ps with
  | nil => intro q hq _; exact ⟨q, rfl, hq, le_rfl, fun p hp => by cases hp⟩
  | cons p ps ih =>
    intro q hq hps
    have hp := hps p List.mem_cons_self
    have hps' := fun x hx => hps x (List.mem_cons_of_mem p hx)
    by_cases hc : cost w.e p < cost w.e q
    · obtain ⟨r, h1, h2, h3, h4⟩ := ih p hp hps'
      refine ⟨r, ?_, h2, le_trans h3 hc.le, ?_⟩
      · rw [List.foldlM_cons, C32_weight w hsq p hp]
        simp only [bind, Except.bind, pure, Except.pure] at h1 ⊢
        rw [if_pos hc]
        exact h1
      · intro x hx
        rcases List.mem_cons.1 hx with rfl | hx
        · exact h3
        · exact h4 x hx
    · obtain ⟨r, h1, h2, h3, h4⟩ := ih q hq hps'
      refine ⟨r, ?_, h2, h3, ?_⟩
      · rw [List.foldlM_cons, C32_weight w hsq p hp]
        simp only [bind, Except.bind, pure, Except.pure] at h1 ⊢
        rw [if_neg hc]
        exact h1
      · intro x hx
        rcases List.mem_cons.1 hx with rfl | hx
        · exact le_trans h3 (not_lt.1 hc)
        · exact h4 x hx

/-- **C32.** `min_weight_perm_brute_force(w)` returns a permutation of minimal weight. -/
theorem C32_brute_force (w : Mat) (hsq : w.n1 = w.n2) :
    ∃ s : List ℕ, bruteForce w = .ok s ∧ s.Perm (List.range w.n1) ∧
      ∀ p : List ℕ, p.Perm (List.range w.n1) → cost w.e s ≤ cost w.e p := by
  obtain ⟨r, h1, h2, _, h4⟩ := bruteFold_spec w hsq (allPerms (List.range w.n1))
    (List.range w.n1) (List.Perm.refl _) (fun p hp => (C32_all_perms _ p).1 hp)
  refine ⟨r, ?_, h2, fun p hp => h4 p ((C32_all_perms _ p).2 hp)⟩
  have hdiag : ((List.range w.n1).map fun i => w.e i i).sum = cost w.e (List.range w.n1) := by
    unfold cost
    congr 1
    apply List.ext_getElem
    · simp
    · intro i _ _; simp
  unfold bruteForce
  simp only []
  rw [hdiag, h1]
  rfl

/-- **C32.** The brute force and the Hungarian method find the same weight, which is the value of
`min_weight(w)`. -/
theorem C32_min_weight (fuel : ℕ) (w : Mat) (hsq : w.n1 = w.n2) (hpos : 0 < w.n1)
    (hf : 2 * w.n1 + 1 ≤ fuel) :
    ∃ s b : List ℕ, minWeightPerm fuel w = some (.ok (s.map some)) ∧ bruteForce w = .ok b ∧
      weight s w = weight b w ∧ minWeight fuel w = some (weight b w) ∧
      ∀ p : List ℕ, p.Perm (List.range w.n1) →
        ∃ c c', weight b w = .ok c ∧ weight p w = .ok c' ∧ c ≤ c' := by
  obtain ⟨s, h1, h2, h3⟩ := C29_min_weight_perm_square fuel w hsq hpos hf
  obtain ⟨b, k1, k2, k3⟩ := C32_brute_force w hsq
  have heq : weight s w = weight b w := by
    rw [C32_weight w hsq s h2, C32_weight w hsq b k2, le_antisymm (h3 b k2) (k3 s h2)]
  refine ⟨s, b, h1, k1, heq, ?_, ?_⟩
  · unfold minWeight
    rw [h1]
    simp only [Option.map_some, Except.bind, asIndices_map_some]
    have : (s.map fun (j : ℕ) => (j : ℤ)).map Int.toNat = s := by
      rw [List.map_map]
      have : (Int.toNat ∘ fun (j : ℕ) => (j : ℤ)) = id := by funext j; simp
      rw [this, List.map_id]
    rw [this, heq]
  · intro p hp
    exact ⟨_, _, C32_weight w hsq b k2, C32_weight w hsq p hp, k3 p hp⟩

example : allPerms [0, 1, 2] =
    [[0, 1, 2], [1, 0, 2], [1, 2, 0], [0, 2, 1], [2, 0, 1], [2, 1, 0]] := by decide

example : bruteForce ex3 = .ok [1, 0, 2] := by decide +kernel

example : minWeight 7 ex3 = some (.ok 5) := by decide +kernel

end Verif.Munkres
