import Verif.Model.Chebyshev
import Mathlib.RingTheory.Polynomial.Chebyshev
import Mathlib.Analysis.SpecialFunctions.Trigonometric.Chebyshev.ChebyshevGauss
import Mathlib.LinearAlgebra.Lagrange
import Mathlib.LinearAlgebra.Matrix.NonsingularInverse
import Mathlib.Tactic.FieldSimp
import Mathlib.Tactic.LinearCombination

set_option linter.unusedSectionVars false

/-!
# Chebyshev polynomials: values, Clenshaw, monomial coefficients, discrete orthogonality
-/

namespace MU
open Finset Polynomial

variable {K : Type} [Field K] [DecidableEq K]

theorem chebT_eq : ∀ (n : Nat) (x : K), chebT n x = (Chebyshev.T K n).eval x
  | 0, x => by simp [chebT]
  | 1, x => by simp [chebT]
  | n + 2, x => by
    rw [chebT, chebT_eq (n + 1) x, chebT_eq n x]
    have := Chebyshev.T_add_two K (n : ℤ)
    push_cast
    rw [this]
    simp

theorem chebU_eq : ∀ (n : Nat) (x : K), chebU n x = (Chebyshev.U K n).eval x
  | 0, x => by simp [chebU]
  | 1, x => by simp [chebU]
  | n + 2, x => by
    rw [chebU, chebU_eq (n + 1) x, chebU_eq n x]
    have := Chebyshev.U_add_two K (n : ℤ)
    push_cast
    rw [this]
    simp

theorem chebTPrime_eq (n : Nat) (x : K) : chebTPrime n x = (derivative (Chebyshev.T K n)).eval x := by
  cases n with
  | zero => simp [chebTPrime]
  | succ n =>
    rw [Chebyshev.T_derivative_eq_U, chebTPrime, chebU_eq]
    simp

/-! ## Clenshaw -/

theorem clenshaw_fold (x : K) (l : List K) (j : Nat) :
    let b := l.foldr (clenshawStep x) (0, 0)
    ∑ i ∈ range l.length, l.getD i 0 * chebT (j + 1 + i) x = b.1 * chebT (j + 1) x - b.2 * chebT j x := by
  induction l generalizing j with
  | nil => simp
  | cons c l ih =>
    have := ih (j + 1)
    simp only [List.length_cons, sum_range_succ', List.getD_cons_succ, List.foldr_cons, clenshawStep, List.getD_cons_zero] at *
    rw [show (∑ i ∈ range l.length, l.getD i 0 * chebT (j + 1 + (i + 1)) x) =
      ∑ i ∈ range l.length, l.getD i 0 * chebT (j + 1 + 1 + i) x from sum_congr rfl (fun i _ => by congr 2; omega), this]
    have hT : chebT (j + 1 + 1) x = 2 * x * chebT (j + 1) x - chebT j x := rfl
    rw [hT]
    simp only [Nat.add_zero]
    ring

theorem clenshaw_cons (c0 : K) (l : List K) (x : K) :
    clenshaw (c0 :: l) x = ∑ i ∈ range l.length, l.getD i 0 * chebT (i + 1) x + c0 / 2 := by
  cases l with
  | nil => simp [clenshaw]
  | cons c l =>
    have := clenshaw_fold x (c :: l) 0
    simp only [chebT, Nat.zero_add] at this
    show x * (List.foldr (clenshawStep x) (0, 0) (c :: l)).1 - (List.foldr (clenshawStep x) (0, 0) (c :: l)).2 + c0 / 2 = _
    rw [sum_congr rfl (fun i _ => by rw [Nat.add_comm i 1])]
    rw [this]
    ring

theorem clenshaw_double [NeZero (2 : K)] {l : List K} (h : l ≠ []) (x : K) :
    ∃ l', doubleHead l = .ok l' ∧ clenshaw l' x = ∑ i ∈ range l.length, l.getD i 0 * chebT i x := by
  cases l with
  | nil => exact absurd rfl h
  | cons c l =>
    refine ⟨_, rfl, ?_⟩
    rw [clenshaw_cons, List.length_cons, sum_range_succ']
    simp [chebT, NeZero.ne (2 : K)]

theorem clenshaw_map [NeZero (2 : K)] (n : Nat) (g : Nat → K) (x : K) :
    (doubleHead ((List.range (n + 1)).map g) >>= fun l => (pure (clenshaw l x) : Res K)) =
      .ok (∑ i ∈ range (n + 1), g i * chebT i x) := by
  obtain ⟨l', h1, h2⟩ := clenshaw_double (l := (List.range (n + 1)).map g) (by simp) x
  rw [h1, Res.ok_bind, Res.pure_eq, h2]
  congr 1
  rw [List.length_map, List.length_range]
  refine sum_congr rfl (fun i hi => ?_)
  have hi := mem_range.mp hi
  simp [List.getD, hi]

/-! ## Monomial coefficients -/

section lambda
variable [CharZero K]

theorem lambda_odd {l k : Nat} (h : (l + k) % 2 = 1) : (transformationCoefficient l k : K) = 0 := by
  unfold transformationCoefficient
  simp only []
  rw [if_neg (by omega), if_pos h]

theorem lambda_even (k m : Nat) (h : k + 2 * m ≠ 0) :
    (transformationCoefficient (k + 2 * m) k : K) =
      (-1) ^ m * (2 ^ k / 2) * ((k + 2 * m : Nat) : K) * (((k + m - 1).factorial : K) / ((m.factorial : K) * (k.factorial : K))) := by
  unfold transformationCoefficient
  simp only []
  rw [if_neg (by omega), if_neg (by omega)]
  rw [show (k + 2 * m + k) / 2 = k + m by omega, show (k + 2 * m - k) / 2 = m by omega]
  rfl

theorem lambda_diag (n : Nat) : (transformationCoefficient (n + 1) (n + 1) : K) = 2 ^ n := by
  have := lambda_even (K := K) (n + 1) 0 (by omega)
  simp only [Nat.mul_zero, Nat.add_zero] at this
  rw [this]
  simp only [pow_zero, Nat.factorial_zero, Nat.cast_one, Nat.add_sub_cancel]
  have h1 : ((n + 1).factorial : K) = ((n + 1 : Nat) : K) * (n.factorial : K) := by
    rw [Nat.factorial_succ]; push_cast; ring
  have h2 : (n.factorial : K) ≠ 0 := by exact_mod_cast Nat.factorial_ne_zero n
  have h3 : ((n + 1 : Nat) : K) ≠ 0 := by exact_mod_cast Nat.succ_ne_zero n
  have h4 : (2 : K) ≠ 0 := two_ne_zero
  rw [h1]
  field_simp
  ring

theorem lambda_zero (m : Nat) : (transformationCoefficient (2 * m) 0 : K) = (-1) ^ m := by
  cases m with
  | zero => simp [transformationCoefficient]
  | succ m =>
    have := lambda_even (K := K) 0 (m + 1) (by omega)
    rw [Nat.zero_add] at this
    rw [this]
    have h1 : ((m + 1).factorial : K) = ((m + 1 : Nat) : K) * (m.factorial : K) := by
      rw [Nat.factorial_succ]; push_cast; ring
    have h2 : (m.factorial : K) ≠ 0 := by exact_mod_cast Nat.factorial_ne_zero m
    have h3 : ((m + 1 : Nat) : K) ≠ 0 := by exact_mod_cast Nat.succ_ne_zero m
    have h4 : (2 : K) ≠ 0 := two_ne_zero
    rw [show 0 + (m + 1) - 1 = m by omega, h1]
    push_cast at *
    simp only [Nat.factorial_zero, Nat.cast_one, pow_zero]
    field_simp
    try ring

/-- The recurrence of the coefficients of the monomials. -/
theorem lambda_rec (n k : Nat) (hk : k ≤ n + 1) :
    (transformationCoefficient (n + 2) (k + 1) : K) =
      2 * transformationCoefficient (n + 1) k - (if k + 1 ≤ n then transformationCoefficient n (k + 1) else 0) := by
  by_cases hodd : (n + k) % 2 = 1
  swap
  · rw [lambda_odd (by omega), lambda_odd (by omega)]
    split_ifs with h
    · rw [lambda_odd (by omega)]; ring
    · ring
  obtain ⟨m, hm⟩ : ∃ m, n + 1 = k + 2 * m := ⟨(n + 1 - k) / 2, by omega⟩
  cases m with
  | zero =>
    obtain rfl : k = n + 1 := by omega
    rw [if_neg (by omega), lambda_diag (n + 1), lambda_diag n]
    ring
  | succ m =>
    obtain rfl : n = k + 1 + 2 * m := by omega
    rw [if_pos (by omega), lambda_even (k + 1) m (by omega)]
    have e1 := lambda_even (K := K) (k + 1) (m + 1) (by omega)
    rw [show k + 1 + 2 * (m + 1) = k + 1 + 2 * m + 2 by omega] at e1
    have e2 := lambda_even (K := K) k (m + 1) (by omega)
    rw [show k + 2 * (m + 1) = k + 1 + 2 * m + 1 by omega] at e2
    rw [e1, e2, show k + 1 + (m + 1) - 1 = (k + m) + 1 by omega, show k + (m + 1) - 1 = k + m by omega,
      show k + 1 + m - 1 = k + m by omega]
    have h1 : ∀ j : Nat, ((j + 1).factorial : K) = ((j : K) + 1) * (j.factorial : K) := by
      intro j; rw [Nat.factorial_succ]; push_cast; ring
    have h2 : ∀ j : Nat, (j.factorial : K) ≠ 0 := fun j => by exact_mod_cast Nat.factorial_ne_zero j
    have h3 : ∀ j : Nat, ((j : K) + 1) ≠ 0 := fun j => by exact_mod_cast Nat.succ_ne_zero j
    have h4 : (2 : K) ≠ 0 := two_ne_zero
    rw [h1 (k + m), h1 m, h1 k]
    have := h2 (k + m); have := h2 m; have := h2 k; have := h3 m; have := h3 k
    push_cast
    field_simp
    ring

theorem lambda_rec_zero (n : Nat) : (transformationCoefficient (n + 2) 0 : K) = - transformationCoefficient n 0 := by
  by_cases hodd : n % 2 = 1
  · rw [lambda_odd (by omega), lambda_odd (by omega), neg_zero]
  · obtain ⟨m, rfl⟩ : ∃ m, n = 2 * m := ⟨n / 2, by omega⟩
    rw [show 2 * m + 2 = 2 * (m + 1) by ring, lambda_zero, lambda_zero, pow_succ]
    ring

/-- The transformation coefficients are the coefficients of the Chebyshev polynomials. -/
theorem chebT_monomials : ∀ (n : Nat) (u : K), ∑ k ∈ range (n + 1), transformationCoefficient n k * u ^ k = chebT n u
  | 0, u => by simp [chebT, transformationCoefficient]
  | 1, u => by
    have := lambda_diag (K := K) 0
    have h0 := lambda_odd (K := K) (l := 1) (k := 0) rfl
    simp only [Nat.zero_add, pow_zero] at this
    simp [sum_range_succ, chebT, this, h0]
  | n + 2, u => by
    rw [chebT, ← chebT_monomials (n + 1) u, ← chebT_monomials n u, sum_range_succ']
    rw [sum_congr rfl (fun k hk => by rw [lambda_rec n k (by have := mem_range.mp hk; omega)])]
    simp only [sub_mul, sum_sub_distrib, lambda_rec_zero]
    have e1 : ∑ k ∈ range (n + 2), 2 * (transformationCoefficient (n + 1) k : K) * u ^ (k + 1) =
        2 * u * ∑ k ∈ range (n + 1 + 1), transformationCoefficient (n + 1) k * u ^ k := by
      rw [mul_sum]
      exact sum_congr rfl (fun k _ => by ring)
    have e2 : ∑ k ∈ range (n + 2), (if k + 1 ≤ n then (transformationCoefficient n (k + 1) : K) else 0) * u ^ (k + 1) =
        ∑ k ∈ range n, (transformationCoefficient n (k + 1) : K) * u ^ (k + 1) := by
      rw [sum_range_succ, sum_range_succ, if_neg (by omega), if_neg (by omega)]
      simp only [zero_mul, add_zero]
      exact sum_congr rfl (fun k hk => by rw [if_pos (by have := mem_range.mp hk; omega)])
    rw [e1, e2, sum_range_succ' (fun k => (transformationCoefficient n k : K) * u ^ k) n]
    ring

end lambda

/-! ## Discrete orthogonality -/

/-- The factor of the coefficient `i` in `Compute_ai`. -/
noncomputable def chebWeight (n i : Nat) : ℝ := if i = 0 then 1 / ((n : ℝ) + 1) else 2 / ((n : ℝ) + 1)

theorem sum_nodes_T (n : Nat) (k : ℤ) :
    ∑ r ∈ range (n + 1), (Chebyshev.T ℝ k).eval (chebNode n r) = ((n : ℝ) + 1) / Real.pi * Chebyshev.sumZeroes (n + 1) (Chebyshev.T ℝ k) := by
  have hpi := Real.pi_ne_zero
  have hn : ((n : ℝ) + 1) ≠ 0 := by positivity
  unfold Chebyshev.sumZeroes chebNode
  push_cast
  rw [← mul_assoc, show ((n : ℝ) + 1) / Real.pi * (Real.pi / ((n : ℝ) + 1)) = 1 by field_simp, one_mul]
  refine sum_congr rfl (fun r _ => ?_)
  congr 2
  field_simp

theorem cheb_orthogonal (n : Nat) {i j : Nat} (hi : i ≤ n) (hj : j ≤ n) :
    ∑ r ∈ range (n + 1), chebT i (chebNode n r) * chebT j (chebNode n r) * chebWeight n i = if i = j then 1 else 0 := by
  have hpi := Real.pi_ne_zero
  have hn : ((n : ℝ) + 1) ≠ 0 := by positivity
  have key : ∑ r ∈ range (n + 1), chebT i (chebNode n r) * chebT j (chebNode n r) =
      1 / 2 * (∑ r ∈ range (n + 1), (Chebyshev.T ℝ ((i : ℤ) + j)).eval (chebNode n r)
        + ∑ r ∈ range (n + 1), (Chebyshev.T ℝ ((i : ℤ) - j)).eval (chebNode n r)) := by
    rw [← sum_add_distrib, mul_sum]
    refine sum_congr rfl (fun r _ => ?_)
    have := congrArg (Polynomial.eval (chebNode n r)) (Chebyshev.T_mul_T ℝ (i : ℤ) (j : ℤ))
    simp only [eval_mul, eval_add, eval_ofNat] at this
    rw [chebT_eq, chebT_eq, ← this]
    ring
  rw [← sum_mul, key, sum_nodes_T, sum_nodes_T]
  have hnd : ∀ k : ℤ, k ≠ 0 → |k| < 2 * ((n : ℤ) + 1) → ¬ (2 * ((n + 1 : Nat) : ℤ)) ∣ k := by
    intro k hk hlt hd
    have := Int.le_of_dvd (abs_pos.mpr hk) ((dvd_abs _ _).mpr hd)
    push_cast at this
    omega
  by_cases hij : i = j
  · subst hij
    rw [if_pos rfl, sub_self, Chebyshev.sumZeroes_T_zero (Nat.succ_ne_zero n)]
    by_cases h0 : i = 0
    · subst h0
      simp only [Nat.cast_zero, add_zero]
      rw [Chebyshev.sumZeroes_T_zero (Nat.succ_ne_zero n), chebWeight, if_pos rfl]
      field_simp
      ring
    · rw [Chebyshev.sumZeroes_T_of_not_dvd (hnd _ (by omega) (by rw [abs_of_nonneg (by omega)]; omega)), chebWeight, if_neg h0]
      field_simp
      ring
  · rw [if_neg hij, Chebyshev.sumZeroes_T_of_not_dvd (hnd _ (by omega) (by rw [abs_of_nonneg (by omega)]; omega)),
      Chebyshev.sumZeroes_T_of_not_dvd (hnd _ (by omega) (by rw [abs_lt]; omega))]
    ring

/-- The dual orthogonality relation, between nodes. -/
theorem cheb_dual (n : Nat) {r q : Nat} (hr : r ≤ n) (hq : q ≤ n) :
    ∑ i ∈ range (n + 1), chebT i (chebNode n r) * chebWeight n i * chebT i (chebNode n q) = if r = q then 1 else 0 := by
  let A : Matrix (Fin (n + 1)) (Fin (n + 1)) ℝ := fun i r => chebT i.1 (chebNode n r.1) * chebWeight n i.1
  let C : Matrix (Fin (n + 1)) (Fin (n + 1)) ℝ := fun r i => chebT i.1 (chebNode n r.1)
  have hAC : A * C = 1 := by
    ext i j
    rw [Matrix.mul_apply, Matrix.one_apply]
    have := cheb_orthogonal n (i := i.1) (j := j.1) (by omega) (by omega)
    rw [← Fin.sum_univ_eq_sum_range (fun r => chebT i.1 (chebNode n r) * chebT j.1 (chebNode n r) * chebWeight n i.1) (n + 1)] at this
    simp only [Fin.ext_iff]
    rw [← this]
    exact sum_congr rfl (fun r _ => by simp only [A, C]; ring)
  have hCA : C * A = 1 := mul_eq_one_comm.mp hAC
  have := congrFun (congrFun hCA ⟨q, by omega⟩) ⟨r, by omega⟩
  rw [Matrix.mul_apply, Matrix.one_apply] at this
  simp only [A, C, Fin.mk.injEq] at this
  rw [← Fin.sum_univ_eq_sum_range (fun i => chebT i (chebNode n r) * chebWeight n i * chebT i (chebNode n q)) (n + 1)]
  rw [show (if r = q then (1 : ℝ) else 0) = if q = r then 1 else 0 by simp only [eq_comm], ← this]
  exact sum_congr rfl (fun i _ => by ring)

/-- The series with the coefficients computed from the values `g` at the nodes. -/
noncomputable def chebInterp (n : Nat) (g : Nat → ℝ) (u : ℝ) : ℝ :=
  ∑ i ∈ range (n + 1), (∑ r ∈ range (n + 1), g r * chebT i (chebNode n r)) * chebWeight n i * chebT i u

theorem chebInterp_node (n : Nat) (g : Nat → ℝ) {q : Nat} (hq : q ≤ n) : chebInterp n g (chebNode n q) = g q := by
  unfold chebInterp
  have : ∀ i, (∑ r ∈ range (n + 1), g r * chebT i (chebNode n r)) * chebWeight n i * chebT i (chebNode n q) =
      ∑ r ∈ range (n + 1), g r * (chebT i (chebNode n r) * chebWeight n i * chebT i (chebNode n q)) := by
    intro i; rw [sum_mul, sum_mul]; exact sum_congr rfl (fun r _ => by ring)
  rw [sum_congr rfl (fun i _ => this i), sum_comm]
  rw [sum_congr rfl (fun r hr => by
    rw [← mul_sum, cheb_dual n (by have := mem_range.mp hr; omega) hq])]
  rw [sum_eq_single q]
  · simp
  · intro r _ h; rw [if_neg h, mul_zero]
  · intro h; exact absurd (mem_range.mpr (by omega)) h

theorem chebInterp_congr (n : Nat) {g g' : Nat → ℝ} (h : ∀ r, r ≤ n → g r = g' r) (u : ℝ) : chebInterp n g u = chebInterp n g' u := by
  unfold chebInterp
  refine sum_congr rfl (fun i _ => ?_)
  rw [sum_congr rfl (fun r hr => by rw [h r (by have := mem_range.mp hr; omega)])]

/-! ## The nodes -/

theorem chebNode_angle {n r : Nat} (hr : r ≤ n) :
    0 < Real.pi / 2 * (2 * (r : ℝ) + 1) / ((n : ℝ) + 1) ∧ Real.pi / 2 * (2 * (r : ℝ) + 1) / ((n : ℝ) + 1) < Real.pi := by
  have hpi := Real.pi_pos
  have hn : (0 : ℝ) < (n : ℝ) + 1 := by positivity
  have hr' : (r : ℝ) ≤ n := by exact_mod_cast hr
  refine ⟨by positivity, ?_⟩
  rw [div_lt_iff₀ hn]
  nlinarith

theorem chebNode_lt_one {n r : Nat} (hr : r ≤ n) : chebNode n r < 1 := by
  obtain ⟨h1, h2⟩ := chebNode_angle hr
  unfold chebNode
  have := Real.cos_lt_cos_of_nonneg_of_le_pi (le_refl _) h2.le h1
  rwa [Real.cos_zero] at this

theorem neg_one_lt_chebNode {n r : Nat} (hr : r ≤ n) : -1 < chebNode n r := by
  obtain ⟨h1, h2⟩ := chebNode_angle hr
  unfold chebNode
  rw [← Real.cos_pi]
  exact Real.cos_lt_cos_of_nonneg_of_le_pi h1.le (le_refl _) h2

theorem chebNode_inj {n r q : Nat} (hr : r ≤ n) (hq : q ≤ n) (h : chebNode n r = chebNode n q) : r = q := by
  obtain ⟨h1, h2⟩ := chebNode_angle hr
  obtain ⟨h3, h4⟩ := chebNode_angle hq
  have hpi := Real.pi_ne_zero
  have hn : ((n : ℝ) + 1) ≠ 0 := by positivity
  have := Real.injOn_cos ⟨h1.le, h2.le⟩ ⟨h3.le, h4.le⟩ h
  field_simp at this
  have : (r : ℝ) = q := by linarith
  exact_mod_cast this

/-- The interpolating series reproduces the polynomials of degree at most `n`. -/
theorem chebInterp_poly (n : Nat) (p : ℝ[X]) (hp : p.natDegree ≤ n) (u : ℝ) : chebInterp n (fun r => p.eval (chebNode n r)) u = p.eval u := by
  set a : Nat → ℝ := fun i => (∑ r ∈ range (n + 1), p.eval (chebNode n r) * chebT i (chebNode n r)) * chebWeight n i with ha
  set q : ℝ[X] := ∑ i ∈ range (n + 1), C (a i) * Chebyshev.T ℝ i with hq
  have hqe : ∀ v, q.eval v = chebInterp n (fun r => p.eval (chebNode n r)) v := by
    intro v
    rw [hq, eval_finsetSum]
    unfold chebInterp
    exact sum_congr rfl (fun i _ => by rw [eval_mul, eval_C, chebT_eq])
  have hqd : q.degree < ((n + 1 : Nat) : WithBot ℕ) := by
    rw [hq]
    refine lt_of_le_of_lt (degree_sum_le _ _) ?_
    rw [Finset.sup_lt_iff (by exact WithBot.bot_lt_coe _)]
    intro i hi
    have hi := mem_range.mp hi
    refine lt_of_le_of_lt (degree_mul_le _ _) ?_
    rw [Chebyshev.degree_T]
    refine lt_of_le_of_lt (add_le_add_left degree_C_le _) ?_
    rw [zero_add, Int.natAbs_natCast]
    exact_mod_cast hi
  have hpd : p.degree < ((n + 1 : Nat) : WithBot ℕ) := by
    refine lt_of_le_of_lt degree_le_natDegree ?_
    exact_mod_cast Nat.lt_succ_of_le hp
  have : q = p := by
    refine Polynomial.eq_of_degrees_lt_of_eval_index_eq (range (n + 1)) (v := chebNode n) ?_ (by rw [card_range]; exact hqd)
      (by rw [card_range]; exact hpd) ?_
    · intro r hr s hs h
      exact chebNode_inj (by have := mem_range.mp hr; omega) (by have := mem_range.mp hs; omega) h
    · intro r hr
      rw [hqe, chebInterp_node n _ (by have := mem_range.mp hr; omega)]
  rw [← hqe, this]

end MU
