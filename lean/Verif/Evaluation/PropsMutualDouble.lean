import Verif.Evaluation.PropsInfoDouble

/-!
# Mutual information with doubles (C207)
-/

namespace Verif.Evaluation.D

open Verif Verif.Window
open Verif.NMF.D (double_mul double_pow double_one double_zero dbl_le le_dbl abs_dbl_le)

variable {L : Lib}

/-! ### Specification -/

/-- One term of the exact mutual information. -/
noncomputable def info (n m : ℕ) (x : ℕ → ℕ → ℚ) (i j : ℕ) : ℝ :=
  (x i j : ℝ) * Real.log ((x i j : ℝ) / (colTotal n x j * rowTotal m x i))

/-- The exact mutual information. -/
noncomputable def mutualInfo (n m : ℕ) (x : ℕ → ℕ → ℚ) : ℝ := ∑ i ∈ Finset.range n, ∑ j ∈ Finset.range m, info n m x i j

/-- The sum of the absolute values of its terms. -/
noncomputable def infoMass (n m : ℕ) (x : ℕ → ℕ → ℚ) : ℝ := ∑ i ∈ Finset.range n, ∑ j ∈ Finset.range m, |info n m x i j|

/-- The bound of the error. -/
noncomputable def infoBound (n m : ℕ) (x : ℕ → ℕ → ℚ) : ℝ :=
  ((n * m : ℕ) + 16) / 2 ^ 52 * infoMass n m x + (n + m + 1) / 2 ^ 48 * total n m x + (n * m : ℕ) / 2 ^ 1074

/-! ### Lemmas -/

/-- A product of numbers close to one. -/
theorem prod_ge {a b u : ℝ} (ha : 0 ≤ a) (hb : 0 ≤ b) (hu : 0 ≤ u) (hu1 : 0 ≤ 1 - u) :
    1 - a - b - u ≤ (1 - a) * (1 - b) * (1 - u) := by
  have h1 := mul_nonneg (mul_nonneg ha hb) hu1
  have h2 := mul_nonneg ha hu
  have h3 := mul_nonneg hb hu
  linarith only [h1, h2, h3]

/-- Quotients of perturbed numbers. -/
theorem quot_perturb {X C R c r p q a b u : ℝ} (hX : 0 < X) (hC : 0 < C) (hR : 0 < R) (ha : 0 ≤ a) (hb : 0 ≤ b) (hu : 0 ≤ u)
    (hs : a + b + u ≤ 1 / 2) (hc : |c - C| ≤ a * C) (hr : |r - R| ≤ b * R) (hp : |p - c * r| ≤ c * r * u)
    (hq : |q - X / p| ≤ X / p * u) : |q - X / (C * R)| ≤ X / (C * R) * (2 * (a + b + 2 * u)) := by
  rw [abs_le] at hc hr hp hq
  have c1 : (1 - a) * C ≤ c := by linarith only [hc.1]
  have c2 : c ≤ (1 + a) * C := by linarith only [hc.2]
  have r1 : (1 - b) * R ≤ r := by linarith only [hr.1]
  have r2 : r ≤ (1 + b) * R := by linarith only [hr.2]
  have a1 : 0 < 1 - a := by linarith
  have b1 : 0 < 1 - b := by linarith
  have u1 : 0 < 1 - u := by linarith
  have hc0 : 0 < c := lt_of_lt_of_le (mul_pos a1 hC) c1
  have hr0 : 0 < r := lt_of_lt_of_le (mul_pos b1 hR) r1
  have hcr : 0 < c * r := mul_pos hc0 hr0
  have p1 : (1 - u) * (c * r) ≤ p := by linarith only [hp.1]
  have p2 : p ≤ (1 + u) * (c * r) := by linarith only [hp.2]
  have hp0 : 0 < p := lt_of_lt_of_le (mul_pos u1 hcr) p1
  have hCR : 0 < C * R := mul_pos hC hR
  have cr1 : (1 - a) * (1 - b) * (C * R) ≤ c * r := by
    calc (1 - a) * (1 - b) * (C * R) = ((1 - a) * C) * ((1 - b) * R) := by ring
      _ ≤ c * r := mul_le_mul c1 r1 (mul_pos b1 hR).le hc0.le
  have cr2 : c * r ≤ (1 + a) * (1 + b) * (C * R) := by
    calc c * r ≤ ((1 + a) * C) * ((1 + b) * R) := mul_le_mul c2 r2 hr0.le (by positivity)
      _ = _ := by ring
  set σ := a + b + u with hσ
  have pl : (1 - σ) * (C * R) ≤ p := by
    refine le_trans ?_ (le_trans (mul_le_mul_of_nonneg_left cr1 u1.le) p1)
    rw [← mul_assoc (1 - u)]
    apply mul_le_mul_of_nonneg_right _ hCR.le
    rw [hσ]
    linarith only [prod_ge ha hb hu u1.le]
  have pu : p * ((1 - a) * (1 - b) * (1 - u)) ≤ C * R := by
    have h1 : p ≤ (1 + u) * ((1 + a) * (1 + b) * (C * R)) := p2.trans (mul_le_mul_of_nonneg_left cr2 (by positivity))
    have h2 : 0 ≤ (1 - a) * (1 - b) * (1 - u) := by positivity
    have ha2 : (1 + a) * (1 - a) ≤ 1 := by linarith only [mul_self_nonneg a]
    have hb2 : (1 + b) * (1 - b) ≤ 1 := by linarith only [mul_self_nonneg b]
    have hu2 : (1 + u) * (1 - u) ≤ 1 := by linarith only [mul_self_nonneg u]
    have hab : (1 + a) * (1 - a) * ((1 + b) * (1 - b)) ≤ 1 * 1 := mul_le_mul ha2 hb2 (by positivity) (by norm_num)
    have habu : (1 + a) * (1 - a) * ((1 + b) * (1 - b)) * ((1 + u) * (1 - u)) ≤ (1 * 1) * 1 :=
      mul_le_mul hab hu2 (by positivity) (by norm_num)
    calc p * ((1 - a) * (1 - b) * (1 - u)) ≤ (1 + u) * ((1 + a) * (1 + b) * (C * R)) * ((1 - a) * (1 - b) * (1 - u)) :=
          mul_le_mul_of_nonneg_right h1 h2
      _ = (1 + a) * (1 - a) * ((1 + b) * (1 - b)) * ((1 + u) * (1 - u)) * (C * R) := by ring
      _ ≤ (1 * 1) * 1 * (C * R) := mul_le_mul_of_nonneg_right habu hCR.le
      _ = C * R := by ring
  set Q := X / (C * R) with hQ
  have hQ0 : 0 < Q := div_pos hX hCR
  have hXQ : X = Q * (C * R) := by rw [hQ]; field_simp
  have hσ0 : 0 ≤ σ := by positivity
  have xu : X / p * (1 + u) ≤ Q * (1 + 2 * (σ + u)) := by
    have h1 : X * (1 + u) ≤ Q * (1 + 2 * (σ + u)) * p := by
      calc X * (1 + u) = Q * (1 + u) * (C * R) := by rw [hXQ]; ring
        _ ≤ Q * ((1 + 2 * (σ + u)) * (1 - σ)) * (C * R) := by
          apply mul_le_mul_of_nonneg_right _ hCR.le
          apply mul_le_mul_of_nonneg_left _ hQ0.le
          have k1 : 0 ≤ (σ + u) * (1 / 2 - σ) := mul_nonneg (by positivity) (by linarith only [hs])
          linarith only [k1]
        _ = Q * (1 + 2 * (σ + u)) * ((1 - σ) * (C * R)) := by ring
        _ ≤ _ := mul_le_mul_of_nonneg_left pl (by positivity)
    rw [div_mul_eq_mul_div X p, div_le_iff₀ hp0]
    exact h1
  have xl : Q * (1 - (σ + u)) ≤ X / p * (1 - u) := by
    rw [div_mul_eq_mul_div X p, le_div_iff₀ hp0]
    have h1 : 1 - (σ + u) ≤ ((1 - a) * (1 - b) * (1 - u)) * (1 - u) := by
      have k3 := mul_le_mul_of_nonneg_right (prod_ge ha hb hu u1.le) u1.le
      have k4 : 0 ≤ (a + b + u) * u := by positivity
      rw [hσ]
      linarith only [k3, k4]
    calc Q * (1 - (σ + u)) * p ≤ Q * (((1 - a) * (1 - b) * (1 - u)) * (1 - u)) * p :=
          mul_le_mul_of_nonneg_right (mul_le_mul_of_nonneg_left h1 hQ0.le) hp0.le
      _ = Q * (1 - u) * (p * ((1 - a) * (1 - b) * (1 - u))) := by ring
      _ ≤ Q * (1 - u) * (C * R) := mul_le_mul_of_nonneg_left pu (by positivity)
      _ = X * (1 - u) := by rw [hXQ]; ring
  have e : 2 * (a + b + 2 * u) = 2 * (σ + u) := by rw [hσ]; ring
  rw [e, abs_le]
  have hpos : 0 ≤ Q * (σ + u) := by positivity
  constructor
  · linarith only [hq.1, xl, hpos]
  · linarith only [hq.2, xu]

/-- The term of an entry which is zero. -/
theorem infoTerm_zero {o : Orders} {h : ℕ → ℕ → Flt} {i j : ℕ} (h0 : h i j = .fin 0) {c r : ℚ}
    (hc : o.colSum h j = .fin c) (hr : o.rowSum h i = .fin r) (c0 : 0 ≤ c) (r0 : 0 ≤ r) (cb : c ≤ 2 ^ 400) (rb : r ≤ 2 ^ 400) :
    infoTerm L o h i j = .fin 0 := by
  have e1 : isZero (.fin 0) = .fin 1 := by decide +kernel
  have b1 : c * r ≤ 2 ^ 800 := by
    rw [show (800 : ℕ) = 400 + 400 by norm_num, pow_add]
    exact mul_le_mul cb rb r0 (by positivity)
  have m0 : 0 ≤ c * r := mul_nonneg c0 r0
  have e2 : mul (.fin c) (.fin r) = .fin (dbl (c * r)) :=
    round_of_le (double_pow 800) (by rw [abs_of_nonneg m0]; exact b1) (pow_lt_pow_right₀ (by norm_num) (by norm_num))
  have p0 : 0 ≤ dbl (c * r) := dbl_nonneg m0
  have pb : dbl (c * r) ≤ 2 ^ 800 := dbl_le (double_pow 800) b1
  set p := dbl (c * r)
  have b2 : p + 1 ≤ 2 ^ 801 := by
    rw [pow_succ, mul_two]
    exact add_le_add pb (one_le_pow₀ (by norm_num))
  have e3 : add (.fin p) (.fin 1) = .fin (dbl (p + 1)) :=
    round_of_le (double_pow 801) (by rw [abs_of_nonneg (by linarith only [p0])]; exact b2)
      (pow_lt_pow_right₀ (by norm_num) (by norm_num))
  have q1 : 1 ≤ dbl (p + 1) := le_dbl double_one (by linarith only [p0])
  have qb : dbl (p + 1) ≤ 2 ^ 801 := dbl_le (double_pow 801) b2
  set q := dbl (p + 1)
  have q0 : 0 < q := lt_of_lt_of_le one_pos q1
  have l1 : (2 : ℚ) ^ (-801 : ℤ) ≤ 1 / q := by
    rw [le_div_iff₀ q0]
    calc (2 : ℚ) ^ (-801 : ℤ) * q ≤ 2 ^ (-801 : ℤ) * 2 ^ 801 := mul_le_mul_of_nonneg_left qb (two_zpow_pos _).le
      _ = 1 := by
        rw [zpow_neg, ← zpow_natCast (2 : ℚ) 801]
        exact inv_mul_cancel₀ (two_zpow_pos _).ne'
  have l2 : 1 / q ≤ 1 := by rw [div_le_one q0]; exact q1
  have e4 : div (.fin 1) (.fin q) = .fin (dbl (1 / q)) := by
    show (if q = 0 then _ else round (1 / q)) = _
    rw [if_neg q0.ne']
    exact round_of_le double_one (by rw [abs_of_pos (by positivity)]; exact l2) (one_lt_pow₀ (by norm_num) (by norm_num))
  have w0 : 0 < dbl (1 / q) :=
    lt_of_lt_of_le (two_zpow_pos (-801)) (le_dbl ⟨1, -801, by norm_num, by norm_num, by norm_num⟩ l1)
  have e5 : add (.fin 0) (.fin 1) = .fin 1 := by decide +kernel
  show mul (h i j) (log L (div (add (h i j) (isZero (h i j))) (add (mul (o.colSum h j) (o.rowSum h i)) (isZero (h i j))))) = _
  rw [h0, hc, hr, e1, e2, e3, e5, e4]
  simp only [log, w0, if_true]
  show round (0 * _) = _
  rw [zero_mul, round_dbl dbl_zero']

/-- The computed term of an entry which is neither zero nor tiny. -/
theorem infoTerm_err (hL : IsLog L.lg) {n m : ℕ} (hnm : n + m ≤ 2 ^ 36) {o : Orders} {h : ℕ → ℕ → Flt} {i j : ℕ}
    {x C R c r : ℚ} (hx : h i j = .fin x) (dx : Dbl x) (lx : 2 ^ (-500 : ℤ) ≤ x) (ux : x ≤ 2)
    (hc : o.colSum h j = .fin c) (hr : o.rowSum h i = .fin r) (xc : x ≤ c) (xr : x ≤ r) (uc : c ≤ 4) (ur : r ≤ 4)
    (hC : 0 < C) (hR : 0 < R) (ec : |c - C| ≤ n / 2 ^ 52 * C) (er : |r - R| ≤ m / 2 ^ 52 * R) :
    ∃ z, infoTerm L o h i j = .fin z ∧ Double z ∧ |z| ≤ 2 ^ 412 ∧
      |(z : ℝ) - x * Real.log (x / (C * R))| ≤
        |(x : ℝ) * Real.log (x / (C * R))| / 2 ^ 49 + (n + m + 1) / 2 ^ 49 * x + 1 / 2 ^ 1075 := by
  have hp500 := two_zpow_pos (-500)
  have x0 : 0 < x := lt_of_lt_of_le hp500 lx
  have c0 : 0 < c := lt_of_lt_of_le x0 xc
  have r0 : 0 < r := lt_of_lt_of_le x0 xr
  have e1 : isZero (.fin x) = .fin 0 := by simp [isZero, x0.ne']
  -- the product
  have cr0 : 0 < c * r := mul_pos c0 r0
  have crl : (2 : ℚ) ^ (-1000 : ℤ) ≤ c * r := by
    rw [show (-1000 : ℤ) = -500 + -500 by norm_num, zpow_add₀ (by norm_num)]
    exact mul_le_mul (lx.trans xc) (lx.trans xr) hp500.le c0.le
  have cru : c * r ≤ 2 ^ 4 := by
    calc c * r ≤ 4 * 4 := mul_le_mul uc ur r0.le (by norm_num)
      _ = 2 ^ 4 := by norm_num
  have e2 : mul (.fin c) (.fin r) = .fin (dbl (c * r)) :=
    round_of_le (double_pow 4) (by rw [abs_of_pos cr0]; exact cru) (pow_lt_pow_right₀ (by norm_num) (by norm_num))
  have rp : |dbl (c * r) - c * r| ≤ c * r / 2 ^ 53 := by
    have := dbl_rel_ge (x := c * r) (by
      rw [abs_of_pos cr0]
      exact le_trans (zpow_le_zpow_right₀ (by norm_num) (by norm_num)) crl)
    rwa [abs_of_pos cr0] at this
  have pl : (2 : ℚ) ^ (-1000 : ℤ) ≤ dbl (c * r) := le_dbl ⟨1, -1000, by norm_num, by norm_num, by norm_num⟩ crl
  have pu : dbl (c * r) ≤ 2 ^ 4 := dbl_le (double_pow 4) cru
  have dp : Double (dbl (c * r)) := dbl_double _
  set p := dbl (c * r)
  have p0 : 0 < p := lt_of_lt_of_le (two_zpow_pos _) pl
  have e3 : add (.fin p) (.fin 0) = .fin p := by
    show round (p + 0) = _
    rw [add_zero, round_dbl ⟨dp, by
      rw [abs_of_pos p0]
      exact lt_of_le_of_lt pu (pow_lt_pow_right₀ (by norm_num) (by norm_num))⟩]
  have e4 : add (.fin x) (.fin 0) = .fin x := by
    show round (x + 0) = _
    rw [add_zero, round_dbl dx]
  -- the quotient
  have ql : (2 : ℚ) ^ (-504 : ℤ) ≤ x / p := by
    rw [le_div_iff₀ p0]
    calc (2 : ℚ) ^ (-504 : ℤ) * p ≤ 2 ^ (-504 : ℤ) * 2 ^ 4 := mul_le_mul_of_nonneg_left pu (two_zpow_pos _).le
      _ = 2 ^ (-500 : ℤ) := by
        rw [show (-504 : ℤ) = -500 + -4 by norm_num, zpow_add₀ (by norm_num), mul_assoc]
        norm_num
      _ ≤ x := lx
  have qu : x / p ≤ 2 ^ 1001 := by
    rw [div_le_iff₀ p0]
    calc x ≤ 2 := ux
      _ = 2 ^ 1001 * 2 ^ (-1000 : ℤ) := by
        rw [pow_succ, ← zpow_natCast (2 : ℚ) 1000, mul_right_comm, ← zpow_add₀ (by norm_num)]
        norm_num
      _ ≤ 2 ^ 1001 * p := mul_le_mul_of_nonneg_left pl (by positivity)
  have xp0 : 0 < x / p := div_pos x0 p0
  have e5 : div (.fin x) (.fin p) = .fin (dbl (x / p)) := by
    show (if p = 0 then _ else round (x / p)) = _
    rw [if_neg p0.ne']
    exact round_of_le (double_pow 1001) (by rw [abs_of_pos xp0]; exact qu) (pow_lt_pow_right₀ (by norm_num) (by norm_num))
  have rq : |dbl (x / p) - x / p| ≤ x / p / 2 ^ 53 := by
    have := dbl_rel_ge (x := x / p) (by
      rw [abs_of_pos xp0]
      exact le_trans (zpow_le_zpow_right₀ (by norm_num) (by norm_num)) ql)
    rwa [abs_of_pos xp0] at this
  have ql' : (2 : ℚ) ^ (-504 : ℤ) ≤ dbl (x / p) := le_dbl ⟨1, -504, by norm_num, by norm_num, by norm_num⟩ ql
  have qu' : dbl (x / p) ≤ 2 ^ 1001 := dbl_le (double_pow 1001) qu
  have dq : Double (dbl (x / p)) := dbl_double _
  set q := dbl (x / p)
  have q0 : 0 < q := lt_of_lt_of_le (two_zpow_pos _) ql'
  -- the logarithm
  obtain ⟨dl, el⟩ := hL q q0 dq
  have e6 : log L (.fin q) = .fin (L.lg q) := by simp [log, q0]
  have hqr : (0 : ℝ) < q := by exact_mod_cast q0
  have lb : |Real.log (q : ℝ)| ≤ 1001 := by
    have hu' : (q : ℝ) ≤ 2 ^ 1001 := by
      have := (Rat.cast_le (K := ℝ)).2 qu'
      push_cast at this
      exact this
    have hl' : ((2 : ℝ) ^ (-504 : ℤ)) ≤ q := by
      have := (Rat.cast_le (K := ℝ)).2 ql'
      push_cast at this
      exact this
    have a := Real.log_le_log hqr hu'
    have b := Real.log_le_log (by positivity) hl'
    rw [Real.log_pow] at a
    rw [Real.log_zpow] at b
    have l2 := log_two_le
    have l3 : 0 ≤ Real.log 2 := Real.log_nonneg (by norm_num)
    push_cast at a b
    rw [abs_le]
    constructor <;> linarith only [a, b, l2, l3]
  have lgb : |L.lg q| ≤ 2 ^ 11 := by
    have h4 : |(L.lg q : ℝ)| ≤ 2 * 1001 := by
      have h5 := abs_sub_abs_le_abs_sub (L.lg q : ℝ) (Real.log (q : ℝ))
      have h6 : |Real.log (q : ℝ)| / 2 ^ 50 ≤ |Real.log (q : ℝ)| := div_le_self (abs_nonneg _) (by norm_num)
      linarith only [h5, h6, lb, el]
    have h7 : |(L.lg q : ℝ)| ≤ ((2 ^ 11 : ℚ) : ℝ) := h4.trans (by norm_num)
    exact_mod_cast h7
  have b7 : |x * L.lg q| ≤ 2 ^ 12 := by
    rw [abs_mul, abs_of_pos x0]
    calc x * |L.lg q| ≤ 2 * 2 ^ 11 := mul_le_mul ux lgb (abs_nonneg _) (by norm_num)
      _ = 2 ^ 12 := by norm_num
  have e7 : mul (.fin x) (.fin (L.lg q)) = .fin (dbl (x * L.lg q)) :=
    round_of_le (double_pow 12) b7 (pow_lt_pow_right₀ (by norm_num) (by norm_num))
  refine ⟨dbl (x * L.lg q), ?_, dbl_double _, ?_, ?_⟩
  · show mul (h i j) (log L (div (add (h i j) (isZero (h i j))) (add (mul (o.colSum h j) (o.rowSum h i)) (isZero (h i j))))) = _
    rw [hx, hc, hr, e1, e2, e3, e4, e5, e6, e7]
  · exact (abs_dbl_le (double_pow 12) b7).trans (pow_le_pow_right₀ (by norm_num) (by norm_num))
  -- the error
  have r3 := (Rat.cast_le (K := ℝ)).2 (dbl_near (x * L.lg q))
  push_cast at r3
  have hxr : (0 : ℝ) < x := by exact_mod_cast x0
  have hCr : (0 : ℝ) < C := by exact_mod_cast hC
  have hRr : (0 : ℝ) < R := by exact_mod_cast hR
  have ecr := (Rat.cast_le (K := ℝ)).2 ec
  have err := (Rat.cast_le (K := ℝ)).2 er
  have rpr := (Rat.cast_le (K := ℝ)).2 rp
  have rqr := (Rat.cast_le (K := ℝ)).2 rq
  push_cast at ecr err rpr rqr
  have hnmr : (n : ℝ) + m ≤ 2 ^ 36 := by exact_mod_cast hnm
  have hn0 : (0 : ℝ) ≤ n := Nat.cast_nonneg n
  have hm0 : (0 : ℝ) ≤ m := Nat.cast_nonneg m
  have hs : (n : ℝ) / 2 ^ 52 + m / 2 ^ 52 + 1 / 2 ^ 53 ≤ 1 / 2 := by
    norm_num at hnmr ⊢
    linarith only [hnmr]
  have hq := quot_perturb hxr hCr hRr (a := n / 2 ^ 52) (b := m / 2 ^ 52) (u := 1 / 2 ^ 53) (by positivity) (by positivity)
    (by positivity) hs ecr err (by rw [mul_one_div]; exact rpr) (by rw [mul_one_div]; exact rqr)
  set δ : ℝ := 2 * ((n : ℝ) / 2 ^ 52 + m / 2 ^ 52 + 2 * (1 / 2 ^ 53)) with hδ
  have hδe : δ = (n + m + 1) / 2 ^ 51 := by rw [hδ]; ring
  have hδ0 : 0 ≤ δ := by rw [hδe]; positivity
  have hδ1 : δ ≤ 1 / 2 := by
    rw [hδe]
    norm_num at hnmr ⊢
    linarith only [hnmr]
  obtain ⟨_, hl⟩ := log_perturb' (div_pos hxr (mul_pos hCr hRr)) hδ1 hq
  have hδ4 : ((n : ℝ) + m + 1) / 2 ^ 49 = 4 * δ := by rw [hδe]; ring
  rw [hδ4]
  clear b7 lgb qu qu' ql ql' pl pu crl cru lx lb
  generalize (1 : ℝ) / 2 ^ 1075 = η at r3 ⊢
  generalize ((dbl (x * L.lg q) : ℚ) : ℝ) = Z at *
  generalize ((L.lg q : ℚ) : ℝ) = Λ at *
  generalize Real.log ((q : ℚ) : ℝ) = ℓ at *
  generalize Real.log ((x : ℝ) / (C * R)) = ρ at *
  generalize (x : ℝ) = X at *
  clear_value δ
  have s0 : |Λ - ρ| ≤ |ρ| / 2 ^ 50 + 3 * δ := by
    have t1 : |Λ - ρ| ≤ |Λ - ℓ| + |ℓ - ρ| := by
      calc |Λ - ρ| = |(Λ - ℓ) + (ℓ - ρ)| := by congr 1; ring
        _ ≤ _ := abs_add_le _ _
    have t2 := abs_sub_abs_le_abs_sub ℓ ρ
    norm_num at *
    linarith only [t1, t2, el, hl, hδ0]
  have s1 : |X * Λ - X * ρ| ≤ |X * ρ| / 2 ^ 50 + 3 * (δ * X) := by
    rw [← mul_sub, abs_mul, abs_mul, abs_of_pos hxr]
    calc X * |Λ - ρ| ≤ X * (|ρ| / 2 ^ 50 + 3 * δ) := mul_le_mul_of_nonneg_left s0 hxr.le
      _ = _ := by ring
  have s2 := abs_sub_abs_le_abs_sub (X * Λ) (X * ρ)
  have s3 : |Z - X * ρ| ≤ |Z - X * Λ| + |X * Λ - X * ρ| := by
    calc |Z - X * ρ| = |(Z - X * Λ) + (X * Λ - X * ρ)| := by congr 1; ring
      _ ≤ _ := abs_add_le _ _
  have s4 := abs_nonneg (X * ρ)
  have s5 : 0 ≤ δ * X := mul_nonneg hδ0 hxr.le
  rw [mul_assoc 4 δ X]
  generalize δ * X = ω at *
  norm_num at *
  linarith only [s1, s2, s3, s4, s5, r3]

/-! ### Theorems -/

/-- **C207.** The computed mutual information is finite when no positive entry is tiny, and its error. -/
theorem C207_mutual (hL : IsLog L.lg) {n m : ℕ} (hnm : n + m ≤ 2 ^ 36) (hN : n * m ≤ 2 ^ 34) {o : Orders}
    (ho : o.Fits n m) {h : ℕ → ℕ → Flt} {x : ℕ → ℕ → ℚ} (hx : Table n m h x) (hT : |total n m x - 1| ≤ 1 / 2 ^ 19)
    (hlow : ∀ i < n, ∀ j < m, x i j = 0 ∨ 2 ^ (-500 : ℤ) ≤ x i j) :
    ∃ d : ℚ, mutualInformation L m o h = .ok (.fin d) ∧ |(d : ℝ) - mutualInfo n m x| ≤ infoBound n m x := by
  have hT2 : total n m x ≤ 2 := by
    rw [abs_le] at hT
    norm_num at hT
    linarith
  have h400 : (2 : ℚ) ≤ 2 ^ 400 := le_self_pow₀ (by norm_num) (by norm_num)
  have h400' : (4 : ℚ) ≤ 2 ^ 400 := le_trans (by norm_num) (pow_le_pow_right₀ (by norm_num) (show 2 ≤ 400 by norm_num))
  have hle2 : ∀ i < n, ∀ j < m, x i j ≤ 2 := fun i hi j hj => (hx.le_total hi hj).trans hT2
  have hle : ∀ i < n, ∀ j < m, x i j ≤ 2 ^ 400 := fun i hi j hj => (hle2 i hi j hj).trans h400
  have hclose := (C207_assertion (L := L) hN ho .zero hx hle).1 hT
  have small : ∀ {q : ℕ} {s S : ℚ}, q ≤ 2 ^ 36 → S ≤ 2 → 0 ≤ S → |s - S| ≤ q / 2 ^ 52 * S → s ≤ 4 := by
    intro q s S hq hS hS0 hs
    have h1 : (q : ℚ) / 2 ^ 52 ≤ 1 / 2 ^ 16 := by
      have : (q : ℚ) ≤ 2 ^ 36 := by exact_mod_cast hq
      rw [div_le_div_iff₀ (by norm_num) (by norm_num)]
      linarith
    have h2 : (q : ℚ) / 2 ^ 52 * S ≤ 1 / 2 ^ 16 * S := mul_le_mul_of_nonneg_right h1 hS0
    have h3 := (abs_le.1 hs).2
    norm_num at h2
    linarith only [h2, h3, hS, hS0]
  have hz : ∀ k, ∃ z, k < n * m → flat m (infoTerm L o h) k = .fin z ∧ Double z ∧ |z| ≤ 2 ^ 412 ∧
      |(z : ℝ) - info n m x (k / m) (k % m)| ≤
        |info n m x (k / m) (k % m)| / 2 ^ 49 + (n + m + 1) / 2 ^ 49 * (x (k / m) (k % m) : ℝ) + 1 / 2 ^ 1075 := by
    intro k
    by_cases hk : k < n * m
    · obtain ⟨hi, hj⟩ := flat_lt hk
      unfold flat
      set i := k / m
      set j := k % m
      obtain ⟨c, c1, c2, c3, c4, c5⟩ := sum_pos_err (n := n) (by omega) (ho.2.1 j hj) (f := fun i => h i j)
          (x := fun i => x i j) (fun i hi => ⟨(hx i hi j hj).1, (hx i hi j hj).2.1⟩) (fun i hi => (hx i hi j hj).2.2)
          fun i hi => hle i hi j hj
      obtain ⟨r, r1, r2, r3, r4, r5⟩ := sum_pos_err (n := m) (by omega) (ho.2.2 i hi) (f := fun j => h i j) (x := x i)
          (fun j hj => ⟨(hx i hi j hj).1, (hx i hi j hj).2.1⟩) (fun j hj => (hx i hi j hj).2.2) (hle i hi)
      have hC0 : 0 ≤ colTotal n x j := hx.transpose.rowTotal_nonneg hj
      have hR0 : 0 ≤ rowTotal m x i := hx.rowTotal_nonneg hi
      have hC2 : colTotal n x j ≤ 2 := by
        have := hx.transpose.row_le hj
        rw [total_transpose] at this
        exact le_trans this hT2
      have hR2 : rowTotal m x i ≤ 2 := (hx.row_le hi).trans hT2
      have uc := small (q := n) (by omega) hC2 hC0 c5
      have ur := small (q := m) (by omega) hR2 hR0 r5
      rcases hlow i hi j hj with h0 | h0
      · refine ⟨0, fun _ => ⟨infoTerm_zero (by rw [(hx i hi j hj).1, h0]) c1 r1 c3 r3 (uc.trans h400') (ur.trans h400'),
          double_zero, by rw [abs_zero]; positivity, ?_⟩⟩
        unfold info
        rw [h0]
        simp only [Rat.cast_zero, zero_mul, sub_zero, abs_zero, zero_div, mul_zero, zero_add]
        exact one_div_nonneg.2 (pow_nonneg (by norm_num) _)
      · have x0 : 0 < x i j := lt_of_lt_of_le (two_zpow_pos _) h0
        obtain ⟨z, hz⟩ := infoTerm_err hL (n := n) (m := m) hnm (hx i hi j hj).1 (hx i hi j hj).2.1 h0 (hle2 i hi j hj) c1 r1
          (c4 i hi) (r4 j hj) uc ur (lt_of_lt_of_le x0 (hx.transpose.le_row hj hi)) (lt_of_lt_of_le x0 (hx.le_row hi hj)) c5 r5
        exact ⟨z, fun _ => hz⟩
    · exact ⟨0, fun h => absurd h hk⟩
  choose z hz using hz
  obtain ⟨s, hs, _, _, es⟩ := sum_total (by omega) ho.1 (f := flat m (infoTerm L o h)) hz
  refine ⟨s, ?_, ?_⟩
  · unfold mutualInformation
    rw [if_pos hclose, hs]
  rw [sum_flat n m (info n m x), sum_flat n m fun i j => |info n m x i j|] at es
  have hE : ∑ k ∈ Finset.range (n * m), (|info n m x (k / m) (k % m)| / 2 ^ 49 +
      (n + m + 1) / 2 ^ 49 * (x (k / m) (k % m) : ℝ) + 1 / 2 ^ 1075) =
      infoMass n m x / 2 ^ 49 + (n + m + 1) / 2 ^ 49 * total n m x + (n * m : ℕ) * (1 / 2 ^ 1075) := by
    rw [Finset.sum_add_distrib, Finset.sum_add_distrib, Finset.sum_const, Finset.card_range, nsmul_eq_mul, ← Finset.sum_div,
      ← Finset.mul_sum, sum_flat n m fun i j => |info n m x i j|, sum_flat n m fun i j => (x i j : ℝ)]
    unfold infoMass total
    push_cast
    rfl
  rw [hE] at es
  unfold mutualInfo infoBound
  change |(s : ℝ) - _| ≤ _ + _ * (infoMass n m x + _) at es
  refine es.trans ?_
  have hS0 : 0 ≤ infoMass n m x := Finset.sum_nonneg fun i _ => Finset.sum_nonneg fun j _ => abs_nonneg _
  have hT0 : (0 : ℝ) ≤ total n m x := by
    have : 0 ≤ total n m x := Finset.sum_nonneg fun i hi => hx.rowTotal_nonneg (Finset.mem_range.1 hi)
    exact_mod_cast this
  set S := infoMass n m x
  set T : ℝ := ((total n m x : ℚ) : ℝ)
  have hη : ((n * m : ℕ) : ℝ) / 2 ^ 1074 = 2 * ((n * m : ℕ) * (1 / 2 ^ 1075)) := by
    rw [show (1075 : ℕ) = 1074 + 1 by norm_num, pow_succ]
    field_simp
  have hη0 : (0 : ℝ) ≤ (n * m : ℕ) * (1 / 2 ^ 1075) :=
    mul_nonneg (Nat.cast_nonneg _) (one_div_nonneg.2 (pow_nonneg (by norm_num) _))
  rw [hη]
  generalize ((n * m : ℕ) : ℝ) * (1 / 2 ^ 1075) = η at *
  have hNr : ((n * m : ℕ) : ℝ) ≤ 2 ^ 34 := by exact_mod_cast hN
  have hN0 : (0 : ℝ) ≤ ((n * m : ℕ) : ℝ) := Nat.cast_nonneg _
  have h1 : ((n * m : ℕ) : ℝ) / 2 ^ 52 ≤ 1 / 2 ^ 4 := by
    rw [div_le_div_iff₀ (by norm_num) (by norm_num)]
    linarith only [hNr]
  have hω : ((n : ℝ) + m + 1) / 2 ^ 48 * T = 2 * ((n + m + 1) / 2 ^ 49 * T) := by ring
  have hω0 : 0 ≤ ((n : ℝ) + m + 1) / 2 ^ 49 * T := mul_nonneg (by positivity) hT0
  rw [hω]
  generalize ((n : ℝ) + m + 1) / 2 ^ 49 * T = ω at *
  have h5 : (((n * m : ℕ) : ℝ) + 16) / 2 ^ 52 * S = ((n * m : ℕ) : ℝ) / 2 ^ 52 * S + 2 * (S / 2 ^ 49) := by ring
  have h4 : S / 2 ^ 49 + ω + η + ((n * m : ℕ) : ℝ) / 2 ^ 52 * (S + (S / 2 ^ 49 + ω + η)) =
      S / 2 ^ 49 + ω + η + ((n * m : ℕ) : ℝ) / 2 ^ 52 * S + ((n * m : ℕ) : ℝ) / 2 ^ 52 * (S / 2 ^ 49 + ω + η) := by ring
  have h6 : 0 ≤ S / 2 ^ 49 := div_nonneg hS0 (by norm_num)
  have h7 : ((n * m : ℕ) : ℝ) / 2 ^ 52 * (S / 2 ^ 49 + ω + η) ≤ 1 / 2 ^ 4 * (S / 2 ^ 49 + ω + η) :=
    mul_le_mul_of_nonneg_right h1 (by linarith only [h6, hω0, hη0])
  rw [h4, h5]
  generalize S / 2 ^ 49 = U at *
  generalize ((n * m : ℕ) : ℝ) / 2 ^ 52 * (U + ω + η) = V at *
  norm_num at h7
  linarith only [h6, h7, hω0, hη0]

theorem mutualInfo_eq {n m : ℕ} {h : ℕ → ℕ → Flt} {x : ℕ → ℕ → ℚ} (hx : Table n m h x) (hT : total n m x = 1) :
    Metrics.mutualInformation (fun (i : Fin n) (j : Fin m) => (x i j : ℝ)) = .ok (mutualInfo n m x) := by
  rw [Metrics.mutualInformation_eq _ (isJoint hx hT)]
  congr 1
  unfold mutualInfo
  rw [Finset.sum_range]
  refine Finset.sum_congr rfl fun i _ => ?_
  rw [Finset.sum_range]
  refine Finset.sum_congr rfl fun j _ => ?_
  have ec : ∑ i' : Fin n, (x i' j : ℝ) = (colTotal n x j : ℝ) := by
    rw [← Finset.sum_range (fun i' => (x i' j : ℝ))]
    unfold colTotal
    push_cast
    rfl
  have er : ∑ j' : Fin m, (x i j' : ℝ) = (rowTotal m x i : ℝ) := by
    rw [← Finset.sum_range (fun j' => (x i j' : ℝ))]
    unfold rowTotal
    push_cast
    rfl
  rw [ec, er]
  unfold info
  rcases (hx i i.2 j j.2).2.2.eq_or_lt with h0 | h0
  · rw [← h0]
    simp
  · have h1 : (0 : ℝ) < x i j := by exact_mod_cast h0
    have h2 : (0 : ℝ) < colTotal n x j := by exact_mod_cast lt_of_lt_of_le h0 (hx.transpose.le_row j.2 i.2)
    have h3 : (0 : ℝ) < rowTotal m x i := by exact_mod_cast lt_of_lt_of_le h0 (hx.le_row i.2 j.2)
    rw [Real.log_div h1.ne' (mul_pos h2 h3).ne', Real.log_mul h2.ne' h3.ne']
    ring

/-- The terms are bounded below. -/
theorem info_ge {n m : ℕ} {h : ℕ → ℕ → Flt} {x : ℕ → ℕ → ℚ} (hx : Table n m h x) {i j : ℕ} (hi : i < n) (hj : j < m) :
    |info n m x i j| ≤ info n m x i j + 2 * ((colTotal n x j : ℝ) * rowTotal m x i) := by
  unfold info
  have c0 : (0 : ℝ) ≤ colTotal n x j := by exact_mod_cast hx.transpose.rowTotal_nonneg hj
  have r0 : (0 : ℝ) ≤ rowTotal m x i := by exact_mod_cast hx.rowTotal_nonneg hi
  have cr := mul_nonneg c0 r0
  rcases (hx i hi j hj).2.2.eq_or_lt with h0 | h0
  · rw [← h0]
    simp only [Rat.cast_zero, zero_mul, abs_zero, zero_add]
    linarith
  · have h1 : (0 : ℝ) < x i j := by exact_mod_cast h0
    have h2 : (0 : ℝ) < colTotal n x j := by exact_mod_cast lt_of_lt_of_le h0 (hx.transpose.le_row hj hi)
    have h3 : (0 : ℝ) < rowTotal m x i := by exact_mod_cast lt_of_lt_of_le h0 (hx.le_row hi hj)
    have h4 := mul_pos h2 h3
    generalize (colTotal n x j : ℝ) * rowTotal m x i = p at *
    have h5 := Real.one_sub_inv_le_log_of_pos (div_pos h1 h4)
    rw [inv_div] at h5
    have h6 := mul_le_mul_of_nonneg_left h5 h1.le
    have h7 : (x i j : ℝ) * (1 - p / x i j) = x i j - p := by field_simp
    rw [h7] at h6
    rw [abs_le]
    constructor <;> linarith

/-- The bound of the error depends on the size only. -/
theorem infoBound_le {n m : ℕ} (hn : 0 < n) (hm : 0 < m) {h : ℕ → ℕ → Flt} {x : ℕ → ℕ → ℚ} (hx : Table n m h x)
    (hT : total n m x = 1) :
    0 ≤ mutualInfo n m x ∧ mutualInfo n m x ≤ ent n (rowTotal m x) ∧ mutualInfo n m x ≤ ent m (colTotal n x) ∧
    infoBound n m x ≤ ((n * m : ℕ) + 16) / 2 ^ 52 * (Real.log n + 2) + (n + m + 1) / 2 ^ 48 + (n * m : ℕ) / 2 ^ 1074 := by
  have hj := isJoint hx hT
  have hI := mutualInfo_eq hx hT
  obtain ⟨I, i1, i2, _⟩ := Metrics.C37_nonneg _ hj
  rw [hI] at i1
  have i3 := Except.ok.inj i1
  rw [← i3] at i2
  have i4 := Metrics.C37_entropies _ hj
  rw [hI] at i4
  have i5 := Except.ok.inj i4
  rw [← ent_rowTotal, ← ent_colTotal, ← ent_flatten] at i5
  have a1 := Metrics.entropy_marginal_le _ hj
  rw [← ent_rowTotal, ← ent_flatten] at a1
  have a2 := Metrics.entropy_marginal_le _ hj.transpose
  have a3 : Metrics.entropy (fun p : Fin m × Fin n => (x p.2 p.1 : ℝ)) = ent (n * m) (flatten m x) := by
    rw [ent_flatten, Metrics.entropy_eq, Metrics.entropy_eq, Fintype.sum_prod_type, Fintype.sum_prod_type, Finset.sum_comm]
  rw [a3, ← ent_rowTotal m n fun j i => x i j] at a2
  change ent m (colTotal n x) ≤ _ at a2
  have b1 : mutualInfo n m x ≤ ent n (rowTotal m x) := by linarith only [i5, a2]
  have b2 : mutualInfo n m x ≤ ent m (colTotal n x) := by linarith only [i5, a1]
  refine ⟨i2, b1, b2, ?_⟩
  have b3 : ent n (rowTotal m x) ≤ Real.log n := ent_le_log (fun k hk => hx.rowTotal_nonneg hk) hT
  have b4 : infoMass n m x ≤ mutualInfo n m x + 2 := by
    have t1 : infoMass n m x ≤ ∑ i ∈ Finset.range n, ∑ j ∈ Finset.range m,
        (info n m x i j + 2 * ((colTotal n x j : ℝ) * rowTotal m x i)) :=
      Finset.sum_le_sum fun i hi => Finset.sum_le_sum fun j hj => info_ge hx (Finset.mem_range.1 hi) (Finset.mem_range.1 hj)
    have t2 : ∑ j ∈ Finset.range m, (colTotal n x j : ℝ) = 1 := by
      have : ∑ j ∈ Finset.range m, colTotal n x j = 1 := by
        rw [← hT, ← total_transpose n m x]
        rfl
      exact_mod_cast this
    have t3 : ∑ i ∈ Finset.range n, (rowTotal m x i : ℝ) = 1 := by
      have : ∑ i ∈ Finset.range n, rowTotal m x i = 1 := hT
      exact_mod_cast this
    have t4 : ∑ i ∈ Finset.range n, ∑ j ∈ Finset.range m, (info n m x i j + 2 * ((colTotal n x j : ℝ) * rowTotal m x i)) =
        mutualInfo n m x + 2 := by
      simp only [Finset.sum_add_distrib, ← Finset.mul_sum, ← Finset.sum_mul, t2, t3]
      unfold mutualInfo
      ring
    rw [t4] at t1
    exact t1
  unfold infoBound
  rw [hT]
  have b5 : ((n * m : ℕ) + 16) / 2 ^ 52 * infoMass n m x ≤ ((n * m : ℕ) + 16) / 2 ^ 52 * (Real.log n + 2) :=
    mul_le_mul_of_nonneg_left (by linarith only [b1, b3, b4]) (by positivity)
  push_cast at b5 ⊢
  linarith only [b5]

/-- **C207.** The computed mutual information of exact joint probabilities is not negative nor above the entropies of rows
and columns, up to an error which is bounded by the size of the matrix. -/
theorem C207_mutual_range (hL : IsLog L.lg) {n m : ℕ} (hn : 0 < n) (hm : 0 < m) (hnm : n + m ≤ 2 ^ 36) (hN : n * m ≤ 2 ^ 34)
    {o : Orders} (ho : o.Fits n m) {h : ℕ → ℕ → Flt} {x : ℕ → ℕ → ℚ} (hx : Table n m h x) (hT : total n m x = 1)
    (hlow : ∀ i < n, ∀ j < m, x i j = 0 ∨ 2 ^ (-500 : ℤ) ≤ x i j) :
    ∃ d : ℚ, mutualInformation L m o h = .ok (.fin d) ∧
      -(((n * m : ℕ) + 16) / 2 ^ 52 * (Real.log n + 2) + (n + m + 1) / 2 ^ 48 + (n * m : ℕ) / 2 ^ 1074) ≤ (d : ℝ) ∧
      (d : ℝ) ≤ min (ent n (rowTotal m x)) (ent m (colTotal n x)) +
        (((n * m : ℕ) + 16) / 2 ^ 52 * (Real.log n + 2) + (n + m + 1) / 2 ^ 48 + (n * m : ℕ) / 2 ^ 1074) := by
  obtain ⟨d, e1, e2⟩ := C207_mutual hL hnm hN ho hx (by rw [hT]; norm_num) hlow
  obtain ⟨h1, h2, h3, h4⟩ := infoBound_le hn hm hx hT
  refine ⟨d, e1, ?_⟩
  rw [abs_le] at e2
  have h5 := le_min h2 h3
  generalize min (ent n (rowTotal m x)) (ent m (colTotal n x)) = M at *
  generalize ((n * m : ℕ) + 16) / 2 ^ 52 * (Real.log n + 2) + (n + m + 1) / 2 ^ 48 + (n * m : ℕ) / 2 ^ 1074 = B at *
  constructor <;> linarith only [e2.1, e2.2, h1, h4, h5]

/-! ### Tiny entries -/

/-- Sums of numbers among which some are infinite. -/
theorem sum_inf {f : ℕ → Flt} : ∀ t : Tree, t.leaves.length ≤ 2 ^ 53 →
    (∀ k ∈ t.leaves, f k = .inf false ∨ ∃ z, f k = .fin z ∧ Double z ∧ |z| ≤ 2 ^ 412) →
    ((∃ k ∈ t.leaves, f k = .inf false) → t.sum f = .inf false) ∧
    ((∀ k ∈ t.leaves, f k ≠ .inf false) → ∃ s, t.sum f = .fin s)
  | .zero, _, _ => ⟨by simp [Tree.leaves], fun _ => ⟨0, rfl⟩⟩
  | .leaf k, _, h => by
    refine ⟨by simp [Tree.leaves, Tree.sum], fun hk => ?_⟩
    rcases h k (by simp [Tree.leaves]) with e | ⟨z, e, _⟩
    · exact absurd e (hk k (by simp [Tree.leaves]))
    · exact ⟨z, e⟩
  | .plus p q, hl, h => by
    have hlen : (Tree.plus p q).leaves.length = p.leaves.length + q.leaves.length := by simp [Tree.leaves]
    obtain ⟨p1, p2⟩ := sum_inf p (by omega) fun k hk => h k (by simp [Tree.leaves, hk])
    obtain ⟨q1, q2⟩ := sum_inf q (by omega) fun k hk => h k (by simp [Tree.leaves, hk])
    constructor
    · rintro ⟨k, hk, e⟩
      show add (p.sum f) (q.sum f) = _
      by_cases hp : ∃ k ∈ p.leaves, f k = .inf false
      · rw [p1 hp]
        by_cases hq : ∃ k ∈ q.leaves, f k = .inf false
        · rw [q1 hq]
          rfl
        · push Not at hq
          obtain ⟨s, e⟩ := q2 hq
          rw [e]
          rfl
      · have hq : ∃ k ∈ q.leaves, f k = .inf false := by
          rcases List.mem_append.1 hk with hk | hk
          · exact absurd ⟨k, hk, e⟩ hp
          · exact ⟨k, hk, e⟩
        push Not at hp
        obtain ⟨s, e⟩ := p2 hp
        rw [e, q1 hq]
        rfl
    · intro hf
      have hz : ∀ k, ∃ z, k ∈ (Tree.plus p q).leaves → f k = .fin z ∧ Double z ∧ |z| ≤ 2 ^ 412 := by
        intro k
        by_cases hk : k ∈ (Tree.plus p q).leaves
        · rcases h k hk with e | ⟨z, e⟩
          · exact absurd e (hf k hk)
          · exact ⟨z, fun _ => e⟩
        · exact ⟨0, fun h => absurd h hk⟩
      choose z hz using hz
      obtain ⟨s, hs, _⟩ := sum_bd (w := z) (p := 412) (by norm_num) (.plus p q) hl fun k hk => (hz k hk).2
      exact ⟨s, by rw [sum_congr _ fun k hk => (hz k hk).1]; exact hs⟩

/-- Numbers which are rounded to zero. -/
theorem dbl_underflow {y : ℚ} (h0 : 0 ≤ y) (h1 : y ≤ 1 / 2 ^ 1076) : dbl y = 0 := by
  have h2 := (abs_le.1 (dbl_near y)).2
  rw [abs_of_nonneg h0] at h2
  have h3 := dbl_nonneg h0
  obtain ⟨k, e, _, he, hk⟩ := dbl_double y
  by_contra hne
  have hE : (0 : ℚ) < 1 / 2 ^ 1076 := one_div_pos.2 (pow_pos (by norm_num) _)
  have h4 : (1 : ℚ) / 2 ^ 1075 = 2 * (1 / 2 ^ 1076) := by
    rw [show (1076 : ℕ) = 1075 + 1 by norm_num, pow_succ]
    field_simp
  have h5 : (2 : ℚ) ^ (-1074 : ℤ) = 4 * (1 / 2 ^ 1076) := by
    rw [zpow_neg, show (1076 : ℕ) = 1074 + 2 by norm_num, pow_add, ← zpow_natCast (2 : ℚ) 1074, one_div, mul_inv]
    push_cast
    generalize ((2 : ℚ) ^ (1074 : ℤ))⁻¹ = w
    ring
  have h6 : (2 : ℚ) ^ (-1074 : ℤ) ≤ dbl y := by
    have hp := two_zpow_pos e
    have k0 : 0 < k := by
      by_contra hk0
      push Not at hk0
      have : (k : ℚ) ≤ 0 := by exact_mod_cast hk0
      have := mul_nonpos_of_nonpos_of_nonneg this hp.le
      exact hne (le_antisymm (by rw [hk]; exact this) h3)
    have k1 : (1 : ℚ) ≤ k := by exact_mod_cast k0
    calc (2 : ℚ) ^ (-1074 : ℤ) ≤ 2 ^ e := zpow_le_zpow_right₀ (by norm_num) he
      _ = 1 * 2 ^ e := (one_mul _).symm
      _ ≤ k * 2 ^ e := mul_le_mul_of_nonneg_right k1 hp.le
      _ = dbl y := hk.symm
  rw [h4] at h2
  rw [h5] at h6
  generalize (1 : ℚ) / 2 ^ 1076 = η at *
  have h7 : y / 2 ^ 53 ≤ y / 2 := div_le_div_of_nonneg_left h0 (by norm_num) (by norm_num)
  linarith only [h1, h2, h6, h7, hE]

/-- The term of a tiny entry. -/
theorem infoTerm_tiny {o : Orders} {h : ℕ → ℕ → Flt} {i j : ℕ} {x c r : ℚ} (hx : h i j = .fin x) (dx : Dbl x) (x0 : 0 < x)
    (hc : o.colSum h j = .fin c) (hr : o.rowSum h i = .fin r) (c0 : 0 ≤ c) (r0 : 0 ≤ r) (uc : c ≤ 1 / 2 ^ 538)
    (ur : r ≤ 1 / 2 ^ 538) : infoTerm L o h i j = .inf false := by
  have e1 : isZero (.fin x) = .fin 0 := by simp [isZero, x0.ne']
  have u : c * r ≤ 1 / 2 ^ 1076 := by
    calc c * r ≤ 1 / 2 ^ 538 * (1 / 2 ^ 538) := mul_le_mul uc ur r0 (one_div_nonneg.2 (pow_nonneg (by norm_num) _))
      _ = 1 / 2 ^ 1076 := by rw [div_mul_div_comm, one_mul, ← pow_add]
  have d0 := dbl_underflow (mul_nonneg c0 r0) u
  have e2 : mul (.fin c) (.fin r) = .fin 0 := by
    show round (c * r) = _
    unfold Evaluation.D.round
    rw [d0, abs_zero, if_pos (pow_pos (by norm_num) _)]
  have e3 : add (.fin 0) (.fin 0) = .fin 0 := by decide +kernel
  have e4 : add (.fin x) (.fin 0) = .fin x := by
    show round (x + 0) = _
    rw [add_zero, round_dbl dx]
  show mul (h i j) (log L (div (add (h i j) (isZero (h i j))) (add (mul (o.colSum h j) (o.rowSum h i)) (isZero (h i j))))) = _
  rw [hx, hc, hr, e1, e2, e3, e4]
  simp [div, log, mul, x0.ne', not_lt.2 x0.le]

/-- **C207.** The product of the sums of a row and of a column which are tiny is zero: if they have an entry in common which is
positive, the computed mutual information is infinite. -/
theorem C207_underflow (hL : IsLog L.lg) {n m : ℕ} (hnm : n + m ≤ 2 ^ 36) (hN : n * m ≤ 2 ^ 34) {o : Orders}
    (ho : o.Fits n m) {h : ℕ → ℕ → Flt} {x : ℕ → ℕ → ℚ} (hx : Table n m h x) (hT : |total n m x - 1| ≤ 1 / 2 ^ 19)
    (hlow : ∀ i < n, ∀ j < m, x i j = 0 ∨ 2 ^ (-500 : ℤ) ≤ x i j ∨
      0 < x i j ∧ colTotal n x j ≤ 1 / 2 ^ 539 ∧ rowTotal m x i ≤ 1 / 2 ^ 539)
    {i₀ j₀ : ℕ} (hi₀ : i₀ < n) (hj₀ : j₀ < m) (hpos : 0 < x i₀ j₀) (hcol : colTotal n x j₀ ≤ 1 / 2 ^ 539)
    (hrow : rowTotal m x i₀ ≤ 1 / 2 ^ 539) : mutualInformation L m o h = .ok (.inf false) := by
  have hT2 : total n m x ≤ 2 := by
    rw [abs_le] at hT
    norm_num at hT
    linarith
  have h400 : (2 : ℚ) ≤ 2 ^ 400 := le_self_pow₀ (by norm_num) (by norm_num)
  have h400' : (4 : ℚ) ≤ 2 ^ 400 := le_trans (by norm_num) (pow_le_pow_right₀ (by norm_num) (show 2 ≤ 400 by norm_num))
  have hle2 : ∀ i < n, ∀ j < m, x i j ≤ 2 := fun i hi j hj => (hx.le_total hi hj).trans hT2
  have hle : ∀ i < n, ∀ j < m, x i j ≤ 2 ^ 400 := fun i hi j hj => (hle2 i hi j hj).trans h400
  have hclose := (C207_assertion (L := L) hN ho .zero hx hle).1 hT
  have small : ∀ {q : ℕ} {s S B : ℚ}, q ≤ 2 ^ 36 → S ≤ B → 0 ≤ S → |s - S| ≤ q / 2 ^ 52 * S → s ≤ 2 * B := by
    intro q s S B hq hS hS0 hs
    have h1 : (q : ℚ) / 2 ^ 52 ≤ 1 / 2 ^ 16 := by
      have : (q : ℚ) ≤ 2 ^ 36 := by exact_mod_cast hq
      rw [div_le_div_iff₀ (by norm_num) (by norm_num)]
      linarith
    have h2 : (q : ℚ) / 2 ^ 52 * S ≤ 1 / 2 ^ 16 * S := mul_le_mul_of_nonneg_right h1 hS0
    have h3 := (abs_le.1 hs).2
    norm_num at h2
    linarith only [h2, h3, hS, hS0]
  have hhalf : 2 * ((1 : ℚ) / 2 ^ 539) = 1 / 2 ^ 538 := by
    rw [show (539 : ℕ) = 538 + 1 by norm_num, pow_succ]
    field_simp
  have sums : ∀ i < n, ∀ j < m, ∃ c r, o.colSum h j = .fin c ∧ o.rowSum h i = .fin r ∧ 0 ≤ c ∧ 0 ≤ r ∧ x i j ≤ c ∧ x i j ≤ r ∧
      |c - colTotal n x j| ≤ n / 2 ^ 52 * colTotal n x j ∧ |r - rowTotal m x i| ≤ m / 2 ^ 52 * rowTotal m x i ∧
      0 ≤ colTotal n x j ∧ 0 ≤ rowTotal m x i ∧ c ≤ 4 ∧ r ≤ 4 := by
    intro i hi j hj
    obtain ⟨c, c1, c2, c3, c4, c5⟩ := sum_pos_err (n := n) (by omega) (ho.2.1 j hj) (f := fun i => h i j)
        (x := fun i => x i j) (fun i hi => ⟨(hx i hi j hj).1, (hx i hi j hj).2.1⟩) (fun i hi => (hx i hi j hj).2.2)
        fun i hi => hle i hi j hj
    obtain ⟨r, r1, r2, r3, r4, r5⟩ := sum_pos_err (n := m) (by omega) (ho.2.2 i hi) (f := fun j => h i j) (x := x i)
        (fun j hj => ⟨(hx i hi j hj).1, (hx i hi j hj).2.1⟩) (fun j hj => (hx i hi j hj).2.2) (hle i hi)
    have hC0 : 0 ≤ colTotal n x j := hx.transpose.rowTotal_nonneg hj
    have hR0 : 0 ≤ rowTotal m x i := hx.rowTotal_nonneg hi
    have hC2 : colTotal n x j ≤ 2 := by
      have := hx.transpose.row_le hj
      rw [total_transpose] at this
      exact le_trans this hT2
    have hR2 : rowTotal m x i ≤ 2 := (hx.row_le hi).trans hT2
    have uc := small (q := n) (by omega) hC2 hC0 c5
    have ur := small (q := m) (by omega) hR2 hR0 r5
    exact ⟨c, r, c1, r1, c3, r3, c4 i hi, r4 j hj, c5, r5, hC0, hR0, by linarith only [uc], by linarith only [ur]⟩
  have tiny : ∀ i < n, ∀ j < m, 0 < x i j → colTotal n x j ≤ 1 / 2 ^ 539 → rowTotal m x i ≤ 1 / 2 ^ 539 →
      infoTerm L o h i j = .inf false := by
    intro i hi j hj h0 hc hr
    obtain ⟨c, r, c1, r1, c3, r3, c4, r4, c5, r5, hC0, hR0, _, _⟩ := sums i hi j hj
    have uc := small (q := n) (by omega) hc hC0 c5
    have ur := small (q := m) (by omega) hr hR0 r5
    rw [hhalf] at uc ur
    exact infoTerm_tiny (hx i hi j hj).1 (hx i hi j hj).2.1 h0 c1 r1 c3 r3 uc ur
  have hterms : ∀ k ∈ o.all.leaves, flat m (infoTerm L o h) k = .inf false ∨
      ∃ z, flat m (infoTerm L o h) k = .fin z ∧ Double z ∧ |z| ≤ 2 ^ 412 := by
    intro k hk
    obtain ⟨hi, hj⟩ := flat_lt (ho.1.lt hk)
    unfold flat
    set i := k / m
    set j := k % m
    obtain ⟨c, r, c1, r1, c3, r3, c4, r4, c5, r5, hC0, hR0, uc, ur⟩ := sums i hi j hj
    rcases hlow i hi j hj with h0 | h0 | ⟨h0, h1, h2⟩
    · exact .inr ⟨0, infoTerm_zero (by rw [(hx i hi j hj).1, h0]) c1 r1 c3 r3 (uc.trans h400') (ur.trans h400'),
        double_zero, by rw [abs_zero]; positivity⟩
    · have x0 : 0 < x i j := lt_of_lt_of_le (two_zpow_pos _) h0
      obtain ⟨z, z1, z2, z3, _⟩ := infoTerm_err hL (n := n) (m := m) hnm (hx i hi j hj).1 (hx i hi j hj).2.1 h0
        (hle2 i hi j hj) c1 r1 c4 r4 uc ur (lt_of_lt_of_le x0 (hx.transpose.le_row hj hi))
        (lt_of_lt_of_le x0 (hx.le_row hi hj)) c5 r5
      exact .inr ⟨z, z1, z2, z3⟩
    · exact .inl (tiny i hi j hj h0 h1 h2)
  have hk₀ : i₀ * m + j₀ ∈ o.all.leaves := by
    rw [ho.1.mem_iff, List.mem_range]
    calc i₀ * m + j₀ < i₀ * m + m := by omega
      _ = (i₀ + 1) * m := by ring
      _ ≤ n * m := Nat.mul_le_mul_right m hi₀
  have hm : 0 < m := by omega
  have ek : flat m (infoTerm L o h) (i₀ * m + j₀) = .inf false := by
    unfold flat
    rw [show (i₀ * m + j₀) / m = i₀ by
        rw [mul_comm, Nat.mul_add_div hm, Nat.div_eq_of_lt hj₀, add_zero],
      show (i₀ * m + j₀) % m = j₀ by rw [mul_comm, Nat.mul_add_mod, Nat.mod_eq_of_lt hj₀]]
    exact tiny i₀ hi₀ j₀ hj₀ hpos hcol hrow
  unfold mutualInformation
  rw [if_pos hclose, (sum_inf o.all (by rw [ho.1.length]; omega) hterms).1 ⟨_, hk₀, ek⟩]

end Verif.Evaluation.D
