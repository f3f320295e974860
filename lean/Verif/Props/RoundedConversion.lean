import Verif.Model.RoundedConversion
import Verif.Props.RoundedPowerSeries
import Verif.Props.RoundedChebyshevCompute

set_option linter.unusedSectionVars false

/-!
# From a Chebyshev series to a power series in double arithmetic

C160.
-/

namespace MU.Spec

/-- What a conversion to a power series of degree `n` and the evaluation of that series lose, for `k` roundings in the coefficients and a domain of condition
`κ`, relative to the sum of the magnitudes of the Chebyshev coefficients weighted by `(1 + √2)^r`. -/
noncomputable def convErr (k : Nat) (E : ℝ) : ℝ := (1 + k / 2 ^ 53) * (1 + E) - 1

end MU.Spec

namespace MU
open Spec Finset Polynomial

variable {rnd : ℝ → ℝ}

/-! ## The transformation coefficients -/

theorem fact_double (hr : ToNearest rnd) {n : Nat} (hn : n ≤ 18) : rnd (fact n : ℝ) = fact n := by
  refine toNearest_double hr (double_nat ?_)
  have : n.factorial ≤ Nat.factorial 18 := Nat.factorial_le hn
  exact lt_of_le_of_lt this (by decide)

theorem pow_half_double (hr : ToNearest rnd) (k : Nat) : rnd (2 ^ k / 2 : ℝ) = 2 ^ k / 2 := by
  refine toNearest_double hr ⟨1, (k : ℤ) - 1, by norm_num, ?_⟩
  rw [zpow_sub₀ two_ne_zero]
  simp

theorem sign_pow_half_double (hr : ToNearest rnd) (f k : Nat) : rnd ((-1) ^ f * (2 ^ k / 2 : ℝ)) = (-1) ^ f * (2 ^ k / 2) := by
  refine toNearest_double hr ⟨(-1) ^ f, (k : ℤ) - 1, ?_, ?_⟩
  · rw [abs_pow]; norm_num
  · rw [zpow_sub₀ two_ne_zero]
    simp

theorem lambda_near (hr : ToNearest rnd) {l k : Nat} (hk : k ≤ l) (hl : l ≤ 18) :
    Near 5 |(transformationCoefficient l k : ℝ)| (transformationCoefficient l k) (transformationCoefficientR rnd l k) := by
  unfold transformationCoefficient transformationCoefficientR
  dsimp only
  split_ifs with h1 h2
  · exact (Near.exact 1).upto (by omega)
  · exact (Near.exact 0).upto (by omega)
  · rw [pow_half_double hr, sign_pow_half_double hr, fact_double hr (by omega), fact_double hr (by omega), fact_double hr (by omega)]
    have e1 : Near 1 _ _ _ := (Near.exact ((-1) ^ ((l - k) / 2) * (2 ^ k / 2) * (l : ℝ))).round hr
    have e2 := (((Near.exact (fact ((l + k) / 2 - 1) : ℝ)).mul (Near.inv_round hr (d := fact ((l - k) / 2) * fact k))).round hr)
    have e3 := ((e1.mul e2).round hr)
    rw [← abs_mul, ← abs_mul, ← div_eq_mul_inv, ← div_eq_mul_inv] at e3
    exact e3

theorem coeff_T_zero (k : Nat) : |(Chebyshev.T ℝ (0 : ℕ)).coeff k| = if k = 0 then 1 else 0 := by
  rw [Nat.cast_zero, Chebyshev.T_zero, coeff_one]
  split_ifs <;> simp_all

/-- The sum of the magnitudes of the coefficients of a Chebyshev polynomial. -/
theorem sum_coeff_T : ∀ (r N : Nat), ∑ k ∈ range N, |(Chebyshev.T ℝ r).coeff k| ≤ (1 + √2) ^ r
  | 0, N => by
    simp only [coeff_T_zero, pow_zero]
    rw [sum_ite_eq']
    split_ifs <;> norm_num
  | 1, N => by
    have h : ∀ k, |(Chebyshev.T ℝ (1 : ℕ)).coeff k| = if k = 1 then 1 else 0 := fun k => by
      rw [Nat.cast_one, Chebyshev.T_one, coeff_X]
      split_ifs with h1 h2 h2 <;> first | omega | simp
    simp only [h, pow_one]
    rw [sum_ite_eq']
    have := Real.sqrt_nonneg 2
    split_ifs <;> linarith
  | r + 2, N => by
    have h0 := Real.sqrt_nonneg 2
    have h2 : √2 * √2 = 2 := Real.mul_self_sqrt (by norm_num)
    have hT : Chebyshev.T ℝ ((r + 2 : ℕ) : ℤ) = 2 * X * Chebyshev.T ℝ ((r + 1 : ℕ) : ℤ) - Chebyshev.T ℝ (r : ℤ) := by
      have := Chebyshev.T_add_two ℝ (r : ℤ)
      push_cast
      exact this
    have hN : N ≤ N + 1 := by omega
    refine (sum_le_sum_of_subset_of_nonneg (range_mono hN) (fun _ _ _ => abs_nonneg _)).trans ?_
    have e1 := sum_coeff_T (r + 1) N
    have e2 := sum_coeff_T r (N + 1)
    rw [sum_range_succ'] at e2 ⊢
    have h3 : ∀ k ∈ range N, |(Chebyshev.T ℝ ((r + 2 : ℕ) : ℤ)).coeff (k + 1)| ≤
        2 * |(Chebyshev.T ℝ ((r + 1 : ℕ) : ℤ)).coeff k| + |(Chebyshev.T ℝ (r : ℤ)).coeff (k + 1)| := fun k _ => by
      have : (2 * X * Chebyshev.T ℝ ((r + 1 : ℕ) : ℤ)).coeff (k + 1) = 2 * (Chebyshev.T ℝ ((r + 1 : ℕ) : ℤ)).coeff k := by
        rw [mul_assoc, show (2 : ℝ[X]) = C 2 from rfl, coeff_C_mul, coeff_X_mul]
      rw [hT, coeff_sub, this]
      refine (abs_sub _ _).trans ?_
      rw [abs_mul, abs_of_pos (by norm_num : (0 : ℝ) < 2)]
    have h4 : |(Chebyshev.T ℝ ((r + 2 : ℕ) : ℤ)).coeff 0| = |(Chebyshev.T ℝ (r : ℤ)).coeff 0| := by
      rw [hT, coeff_sub, mul_assoc, show (2 : ℝ[X]) = C 2 from rfl, coeff_C_mul, coeff_X_mul_zero, mul_zero, zero_sub, abs_neg]
    have h5 := sum_le_sum h3
    rw [sum_add_distrib, ← mul_sum] at h5
    have h6 : (1 + √2) ^ (r + 2) = 2 * (1 + √2) ^ (r + 1) + (1 + √2) ^ r := by
      rw [pow_succ, pow_succ, mul_assoc, show (1 + √2) * (1 + √2) = 2 * (1 + √2) + 1 by nlinarith]
      ring
    rw [h4, h6]
    linarith

theorem coeff_T_high {r k : Nat} (h : r < k) : (Chebyshev.T ℝ r).coeff k = 0 := by
  refine coeff_eq_zero_of_natDegree_lt ?_
  have := Chebyshev.natDegree_T ℝ (r : ℤ)
  simpa [this] using h

/-- A sum over `r` from `i`, with the coefficients of the Chebyshev polynomials. -/
theorem sum_Ico_coeff (n i : Nat) (φ : ℝ → ℝ) (hφ : φ 0 = 0) (A : Nat → ℝ) :
    ∑ r ∈ Ico i (n + 1), A r * φ (transformationCoefficient r i) = ∑ r ∈ range (n + 1), A r * φ ((Chebyshev.T ℝ r).coeff i) := by
  rw [range_eq_Ico]
  refine (sum_congr rfl fun r hr => ?_).trans (sum_subset (Ico_subset_Ico_left (Nat.zero_le i)) fun r _ hr => ?_)
  · rw [C36_coefficients r i (mem_Ico.1 hr).1]
  · have : r < i := by
      by_contra hc
      simp only [mem_Ico, not_and, not_lt] at *
      omega
    rw [coeff_T_high this, hφ, mul_zero]

theorem sum_weights (n N : Nat) {A : Nat → ℝ} (hA : ∀ r, 0 ≤ A r) :
    ∑ i ∈ range N, ∑ r ∈ range (n + 1), A r * |(Chebyshev.T ℝ r).coeff i| ≤ ∑ r ∈ range (n + 1), A r * (1 + √2) ^ r := by
  rw [sum_comm]
  refine sum_le_sum fun r _ => ?_
  rw [← mul_sum]
  exact mul_le_mul_of_nonneg_left (sum_coeff_T r N) (hA r)

/-! ## The loops -/

/-- The sum of `g lo`, ..., `g (hi - 1)` in this order, rounded after each addition. -/
noncomputable def loopSum (rnd : ℝ → ℝ) (lo hi : Nat) (g : Nat → ℝ) (a : ℝ) : ℝ := accR rnd (fun k => g (lo + k)) a (hi - lo)

theorem accR_near_lt (hr : ToNearest rnd) {g p Q : Nat → ℝ} {k₀ : ℕ} : ∀ k, (∀ r, r < k → Near k₀ (Q r) (p r) (g r)) →
    Near (k + k₀) (∑ r ∈ range k, Q r) (∑ r ∈ range k, p r) (accR rnd g 0 k)
  | 0, _ => ⟨by simp [accR], by simp⟩
  | k + 1, h => by
    rw [sum_range_succ, sum_range_succ, accR]
    have := ((accR_near_lt hr k (fun r hr => h r (by omega))).add ((h k (by omega)).upto (show k₀ ≤ k + k₀ by omega))).round hr
    rwa [show k + k₀ + 1 = k + 1 + k₀ by omega] at this

theorem loopSum_near (hr : ToNearest rnd) {g p Q : Nat → ℝ} {k₀ lo hi : ℕ} (h : ∀ r, lo ≤ r → r < hi → Near k₀ (Q r) (p r) (g r)) :
    Near (hi + k₀) (∑ r ∈ Ico lo hi, Q r) (∑ r ∈ Ico lo hi, p r) (loopSum rnd lo hi g 0) := by
  rw [sum_Ico_eq_sum_range, sum_Ico_eq_sum_range]
  exact (accR_near_lt hr (hi - lo) (fun r hr => h (lo + r) (by omega) (by omega))).upto (by omega)

theorem loopSum_succ (lo k : Nat) (hk : lo ≤ k) (g : Nat → ℝ) (a : ℝ) : loopSum rnd lo (k + 1) g a = rnd (loopSum rnd lo k g a + g k) := by
  unfold loopSum
  rw [show k + 1 - lo = (k - lo) + 1 by omega, accR, show lo + (k - lo) = k by omega]

theorem loopSum_self (lo : Nat) (g : Nat → ℝ) (a : ℝ) : loopSum rnd lo lo g a = a := by
  simp [loopSum, accR]

theorem loopSum_loop {lo hi : Nat} (hle : lo ≤ hi) {body : Nat → ℝ → Res ℝ} (g : Nat → ℝ)
    (h : ∀ i, lo ≤ i → i < hi → ∀ acc, body i acc = .ok (rnd (acc + g i))) (a : ℝ) :
    forRange lo hi body a = .ok (loopSum rnd lo hi g a) := by
  have := forRange_ok hle (f := body) (fun k => loopSum rnd lo k g a) (by
    intro i h1 h2
    rw [h i h1 h2, loopSum_succ lo i h1])
  rwa [loopSum_self] at this

theorem accum_loopSum {σ ι : Type} [DecidableEq ι] (S : Store σ ι ℝ) {p : ι} {lo hi : Nat} (hle : lo ≤ hi) {body : Nat → σ → Res σ} (g : Nat → ℝ)
    (h : ∀ i, lo ≤ i → i < hi → ∀ e, body i (S.rep e) = .ok (S.rep (Function.update e p (rnd (e p + g i))))) (e : ι → ℝ) :
    forRange lo hi body (S.rep e) = .ok (S.rep (Function.update e p (loopSum rnd lo hi g (e p)))) := by
  have := forRange_ok hle (f := body) (fun k => S.rep (Function.update e p (loopSum rnd lo k g (e p)))) (by
    intro i h1 h2
    rw [h i h1 h2, Function.update_idem, Function.update_self, loopSum_succ lo i h1])
  simpa [loopSum_self] using this

/-! ## One variable -/

/-- The coefficient `i` of the power series, as computed. -/
noncomputable def powR (rnd : ℝ → ℝ) (n : Nat) (a : Nat → ℝ) (i : Nat) (v : ℝ) : ℝ :=
  loopSum rnd i (n + 1) (fun r => rnd (a r * transformationCoefficientR rnd r i)) v

theorem powR_near (hr : ToNearest rnd) {n : Nat} (hn : n ≤ 18) {k : ℕ} {a A Q : Nat → ℝ} (h : ∀ r, r < n + 1 → Near k (Q r) (A r) (a r)) (i : Nat) :
    Near (n + 7 + k) (∑ r ∈ range (n + 1), Q r * |(Chebyshev.T ℝ r).coeff i|) (∑ r ∈ range (n + 1), A r * (Chebyshev.T ℝ r).coeff i)
      (powR rnd n a i 0) := by
  rw [← sum_Ico_coeff n i (fun x => |x|) abs_zero, ← sum_Ico_coeff n i (fun x => x) rfl]
  have := loopSum_near hr (lo := i) (hi := n + 1) (g := fun r => rnd (a r * transformationCoefficientR rnd r i))
    (fun r h1 h2 => ((h r h2).mul (lambda_near hr h1 (by omega))).round hr)
  exact this.upto (by omega)

theorem CS1.computeBiR_ok (B : Build) {F : ℝ → ℝ} {n : Nat} {s : CS1 ℝ} {sx : Seg ℝ} {a : Nat → ℝ} (h : s.Holds F n sx a) (hn : n ≤ 18) :
    s.computeBiR rnd B = .ok ((List.range (n + 1)).map (fun i => powR rnd n a i 0)) := by
  obtain ⟨rfl, rfl, rfl, ha⟩ := h
  unfold computeBiR
  rw [if_neg (by omega)]
  let S := vecStore ℝ B (s.m_order_x + 1)
  have hz : List.replicate (s.m_order_x + 1) (0 : ℝ) = S.rep (fun _ => 0) := by simp [S, vecStore]
  rw [hz]
  refine (S.sweep (fun i p => p = i) (powR rnd s.m_order_x a) (by intro i j p h1 h2; omega) (fun i hi e => ?_) _).trans ?_
  · refine (accum_loopSum (rnd := rnd) S (p := i) (by omega) (fun r => rnd (a r * transformationCoefficientR rnd r i)) (fun r h1 hr e => ?_) e).trans ?_
    · rw [ha]
      simp only [eAt_map B a hr, Res.ok_bind]
      exact S.modify hi e (fun b => rnd (b + rnd (a r * transformationCoefficientR rnd r i)))
    · rw [Store.update_eq_if i (powR rnd s.m_order_x a) e]
      rfl
  · congr 1
    refine List.map_congr_left (fun i hi => ?_)
    rw [pick_pos ⟨i, by simpa using hi, rfl⟩]

/-! ## Several variables -/

/-- The coefficient `(i, j)`, as computed. -/
noncomputable def powR2 (rnd : ℝ → ℝ) (n m : Nat) (a : Nat → Nat → ℝ) (p : Nat × Nat) (v : ℝ) : ℝ :=
  powR rnd n (fun r => powR rnd m (a r) p.2 0) p.1 v

theorem CS2.computeBijR_ok (B : Build) {s : CS2 ℝ} {n m : Nat} {e : Nat → Nat → ℝ} (hx : s.m_order_x = n) (hy : s.m_order_y = m)
    (he : s.m_aij = ⟨n + 1, m + 1, e⟩) (hn : n ≤ 18) (hm : m ≤ 18) :
    ∃ b : Mat ℝ, s.computeBijR rnd B = .ok b ∧ b.rows = n + 1 ∧ b.cols = m + 1 ∧ ∀ i j, i < n + 1 → j < m + 1 → b.entry i j = powR2 rnd n m e (i, j) 0 := by
  unfold computeBijR
  rw [hx, hy, if_neg (by omega), he]
  let S := matStore ℝ B (n + 1) (m + 1)
  let f := powR2 rnd n m e
  refine ⟨_, S.sweep (fun i p => ∃ j, j < m + 1 ∧ p = (i, j)) f
    (by rintro i j p ⟨_, _, rfl⟩ ⟨_, _, h⟩; exact congrArg Prod.fst h)
    (fun i hi e' => S.sweep (fun j p => p = (i, j)) f (by intro i j p h1 h2; rw [h1] at h2; exact congrArg Prod.snd h2)
      (fun j hj e' => ?_) e') (fun _ => 0), rfl, rfl, ?_⟩
  · have hv : S.valid (i, j) := ⟨hi, hj⟩
    refine (accum_loopSum (rnd := rnd) S (p := (i, j)) (by omega) (fun r => rnd (powR rnd m (e r) j 0 * transformationCoefficientR rnd r i)) (fun r h1 hr e' => ?_) e').trans ?_
    · refine (Res.bind_of_eq (loopSum_loop (rnd := rnd) (by omega) (fun t => rnd (e r t * transformationCoefficientR rnd t j)) (fun t _ ht acc => ?_) 0)).trans ?_
      · rw [Mat.at_lt hr ht, Res.ok_bind, Res.pure_eq]
      · exact S.modify hv e' (fun b => rnd (b + rnd (powR rnd m (e r) j 0 * transformationCoefficientR rnd r i)))
    · rw [Store.update_eq_if (i, j) f e']
      rfl
  · intro i j hi hj
    show pick _ _ _ = _
    rw [pick_pos ⟨i, hi, j, hj, rfl⟩]

/-- The coefficient `(i, j, k)`, as computed. -/
noncomputable def powR3 (rnd : ℝ → ℝ) (n m l : Nat) (a : Nat → Nat → Nat → ℝ) (p : Nat × Nat × Nat) (v : ℝ) : ℝ :=
  powR rnd n (fun r => powR rnd m (fun q => powR rnd l (a r q) p.2.2 0) p.2.1 0) p.1 v

theorem CS3.computeBijkR_ok (B : Build) {s : CS3 ℝ} {n m l : Nat} {e : Nat → Nat → Nat → ℝ} (hx : s.m_order_x = n) (hy : s.m_order_y = m)
    (hz : s.m_order_z = l) (he : Cube s.m_aijk (n + 1) (m + 1) (l + 1) e) (hn : n ≤ 18) (hm : m ≤ 18) (hl : l ≤ 18) :
    ∃ b : List (Mat ℝ), s.computeBijkR rnd B = .ok b ∧ Cube b (n + 1) (m + 1) (l + 1) (fun i j k => powR3 rnd n m l e (i, j, k) 0) := by
  unfold computeBijkR
  rw [hx, hy, hz, if_neg (by omega)]
  let S := cubeStore ℝ B (n + 1) (m + 1) (l + 1)
  have hz : List.replicate (l + 1) (Mat.zero (n + 1) (m + 1)) = S.rep (fun _ => (0 : ℝ)) := by
    simp [S, cubeStore, Mat.zero]
  rw [hz]
  let f := powR3 rnd n m l e
  refine ⟨_, S.sweep (fun i p => ∃ j, j < m + 1 ∧ ∃ k, k < l + 1 ∧ p = (i, j, k)) f
    (by rintro i j p ⟨_, _, _, _, rfl⟩ ⟨_, _, _, _, h⟩; exact congrArg Prod.fst h)
    (fun i hi e' => S.sweep (fun j p => ∃ k, k < l + 1 ∧ p = (i, j, k)) f
      (by rintro i j p ⟨_, _, rfl⟩ ⟨_, _, h⟩; exact congrArg (fun p => p.2.1) h)
      (fun j hj e' => S.sweep (fun k p => p = (i, j, k)) f
        (by intro i j p h1 h2; rw [h1] at h2; exact congrArg (fun p => p.2.2) h2)
        (fun k hk e' => ?_) e') e') (fun _ => 0), ?_⟩
  · have hv : S.valid (i, j, k) := ⟨hi, hj, hk⟩
    refine (accum_loopSum (rnd := rnd) S (p := (i, j, k)) (by omega) (fun r => rnd (powR rnd m (fun q => powR rnd l (e r q) k 0) j 0 *
      transformationCoefficientR rnd r i)) (fun r h1 hr e' => ?_) e').trans ?_
    · refine (Res.bind_of_eq (loopSum_loop (rnd := rnd) (by omega) (fun q => rnd (powR rnd l (e r q) k 0 * transformationCoefficientR rnd q j))
        (fun q _ hq acc => ?_) 0)).trans ?_
      · refine (Res.bind_of_eq (loopSum_loop (rnd := rnd) (by omega) (fun t => rnd (e r q t * transformationCoefficientR rnd t k)) (fun t _ ht acc => ?_) 0)).trans ?_
        · obtain ⟨M, g1, g2, g3, g4⟩ := he.get ht
          rw [cubeGet, g1, Res.ok_bind, Mat.at_lt (by omega) (by omega), Res.ok_bind, Res.pure_eq, g4 r q hr hq]
        · rw [Res.pure_eq]
          rfl
      · exact S.modify hv e' (fun b => rnd (b + rnd (powR rnd m (fun q => powR rnd l (e r q) k 0) j 0 * transformationCoefficientR rnd r i)))
    · rw [Store.update_eq_if (i, j, k) f e']
      rfl
  · refine ⟨by simp [S, cubeStore], ?_, by omega, by omega, by omega⟩
    intro k a' hk
    have hk' : k < l + 1 := by
      by_contra hc
      rw [List.getElem?_eq_none (by simp [S, cubeStore]; omega)] at hk
      cases hk
    simp only [S, cubeStore, List.getElem?_map, List.getElem?_range hk', Option.map_some, Option.some.injEq] at hk
    subst hk
    refine ⟨rfl, rfl, fun i j hi hj => ?_⟩
    show pick _ _ _ = _
    rw [pick_pos ⟨i, hi, j, hj, k, hk', rfl⟩]

/-! ## The property -/

theorem gam_le_nat {k : ℕ} (h : k ≤ 2 ^ 26) : gam k ≤ ((k + 1 : ℕ) : ℝ) / 2 ^ 53 := by
  have := gam_le h
  unfold uround at this
  push_cast
  linarith

theorem CS1.holds_of_length {s : CS1 ℝ} (h : s.m_ai.length = s.m_order_x + 1) :
    s.Holds s.m_function s.m_order_x s.m_x (fun i => s.m_ai.getD i 0) := by
  refine ⟨rfl, rfl, rfl, ?_⟩
  rw [← h]
  apply List.ext_getElem (by simp)
  intro i h1 h2
  simp [List.getD, List.getElem?_eq_getElem h1]

/-- Errors in the coefficients of a power series and in its evaluation. -/
theorem total_error {D v P P' E g SB SD W : ℝ} (hE : 0 ≤ E) (hg : g ≤ D) (h1 : |v - P'| ≤ E * SB) (h2 : |P' - P| ≤ SD) (h3 : SD ≤ g * W) (h4 : SB ≤ W + SD)
    {W' : ℝ} (hW : 0 ≤ W) (hWW : W ≤ W') (hD : 0 ≤ D) : |v - P| ≤ ((1 + D) * (1 + E) - 1) * W' := by
  have h5 := abs_sub_le v P' P
  have h6 : g * W ≤ D * W' := mul_le_mul hg hWW hW hD
  have h7 : E * SB ≤ E * (W' + D * W') := mul_le_mul_of_nonneg_left (by linarith) hE
  nlinarith

theorem sum_abs_le {ι : Type} (t : Finset ι) (b b' Q : ι → ℝ) (hb : ∀ i ∈ t, |b i| ≤ Q i) :
    ∑ i ∈ t, |b' i| ≤ ∑ i ∈ t, Q i + ∑ i ∈ t, |b' i - b i| := by
  rw [← sum_add_distrib]
  refine sum_le_sum fun i hi => ?_
  have := abs_add_le (b' i - b i) (b i)
  rw [sub_add_cancel] at this
  have := hb i hi
  linarith

/-- C160, one variable, the coefficients: each coefficient returned by `Compute_bi` in double is within `(n + 8) / 2^53` of the exact one, relative to the sum of
the magnitudes of its terms. -/
theorem C160_coefficients_1d (hr : ToNearest rnd) (B : Build) {s : CS1 ℝ} (hs : s.m_ai.length = s.m_order_x + 1) (hn : s.m_order_x ≤ 18) :
    ∃ b, s.computeBiR rnd B = .ok b ∧ b.length = s.m_order_x + 1 ∧ ∀ i, i ≤ s.m_order_x →
      |b.getD i 0 - ∑ r ∈ range (s.m_order_x + 1), s.m_ai.getD r 0 * (Chebyshev.T ℝ r).coeff i| ≤
        (s.m_order_x + 8 : ℕ) / 2 ^ 53 * ∑ r ∈ range (s.m_order_x + 1), |s.m_ai.getD r 0| * |(Chebyshev.T ℝ r).coeff i| := by
  refine ⟨_, CS1.computeBiR_ok B (CS1.holds_of_length hs) hn, by simp, fun i hi => ?_⟩
  rw [getD_map_range _ _ (by omega)]
  have h := powR_near hr hn (k := 0) (fun r _ => Near.exact (s.m_ai.getD r 0)) i
  exact h.err.trans (mul_le_mul_of_nonneg_right (gam_le_nat (by omega)) h.nonneg)

/-- C160, one variable: the power series made of the coefficients returned, evaluated in double on the same domain, against the exact sum of the Chebyshev
series. -/
theorem C160_error_1d (hr : ToNearest rnd) (B : Build) {s : CS1 ℝ} (hs : s.m_ai.length = s.m_order_x + 1) (hn : s.m_order_x ≤ 18)
    (hX : s.m_x.dom.Usual) :
    ∃ b, s.computeBiR rnd B = .ok b ∧ ∀ ps, Built1 b ps s.m_x.dom → ∀ x, s.m_x.dom.Mem x → ∃ v, ps.evaluateR rnd B x = .ok v ∧
      |v - cheb1 s.m_order_x (fun i => s.m_ai.getD i 0) (s.m_x.dom.unit x)| ≤
        convErr (s.m_order_x + 8) (powErr s.m_order_x s.m_x.dom.cond) * ∑ r ∈ range (s.m_order_x + 1), |s.m_ai.getD r 0| * (1 + √2) ^ r := by
  refine ⟨_, CS1.computeBiR_ok B (CS1.holds_of_length hs) hn, fun ps hps x hx => ?_⟩
  obtain ⟨v, h1, h2⟩ := C133_error_1d hr B (n := s.m_order_x) (by simp) hps hX hx
  refine ⟨v, h1, ?_⟩
  have hu := unit_le hX hx
  have hnear := fun i => powR_near hr hn (k := 0) (fun r _ => Near.exact (s.m_ai.getD r 0)) i
  rw [← cheb_to_power]
  refine total_error (powErr_nonneg _ (Domain.cond_ge hX)) (gam_le_nat (k := s.m_order_x + 7) (by omega)) h2 (poly1_sub_le hu _ _ _) (W := ∑ i ∈ range (s.m_order_x + 1),
    ∑ r ∈ range (s.m_order_x + 1), |s.m_ai.getD r 0| * |(Chebyshev.T ℝ r).coeff i|) ?_ (sum_abs_le _ _ _ _ fun i hi => ?_)
    (sum_nonneg fun i _ => (hnear i).nonneg) (sum_weights _ _ fun r => abs_nonneg _) (by positivity)
  · rw [mul_sum]
    refine sum_le_sum fun i hi => ?_
    rw [getD_map_range _ _ (mem_range.1 hi), sum_Ico_coeff _ i (fun x => x) rfl]
    exact (hnear i).err
  · rw [sum_Ico_coeff _ i (fun x => x) rfl]
    exact (hnear i).size

theorem poly2_sub_le {t u : ℝ} (ht : |t| ≤ 1) (hu : |u| ≤ 1) (n m : Nat) (a a' : Nat → Nat → ℝ) :
    |poly2 n m a' t u - poly2 n m a t u| ≤ ∑ i ∈ range n, ∑ j ∈ range m, |a' i j - a i j| := by
  rw [← poly2_eq, ← poly2_eq]
  exact (poly1_sub_le ht _ _ _).trans (sum_le_sum fun i _ => poly1_sub_le hu _ _ _)

theorem poly3_sub_le {t u w : ℝ} (ht : |t| ≤ 1) (hu : |u| ≤ 1) (hw : |w| ≤ 1) (n m l : Nat) (a a' : Nat → Nat → Nat → ℝ) :
    |poly3 n m l a' t u w - poly3 n m l a t u w| ≤ ∑ i ∈ range n, ∑ j ∈ range m, ∑ k ∈ range l, |a' i j k - a i j k| := by
  rw [← poly3_eq, ← poly3_eq]
  refine (poly1_sub_le hw _ _ _).trans ?_
  have : ∑ i ∈ range n, ∑ j ∈ range m, ∑ k ∈ range l, |a' i j k - a i j k| = ∑ k ∈ range l, ∑ i ∈ range n, ∑ j ∈ range m, |a' i j k - a i j k| := by
    symm
    rw [sum_comm]
    exact sum_congr rfl fun i _ => sum_comm
  rw [this]
  exact sum_le_sum fun k _ => (poly1_sub_le ht _ _ _).trans (sum_le_sum fun i _ => poly1_sub_le hu _ _ _)

theorem powR2_near (hr : ToNearest rnd) {n m : Nat} (hn : n ≤ 18) (hm : m ≤ 18) (a : Nat → Nat → ℝ) (i j : Nat) :
    Near (n + m + 14) (∑ r ∈ range (n + 1), (∑ t ∈ range (m + 1), |a r t| * |(Chebyshev.T ℝ t).coeff j|) * |(Chebyshev.T ℝ r).coeff i|)
      (∑ r ∈ range (n + 1), (∑ t ∈ range (m + 1), a r t * (Chebyshev.T ℝ t).coeff j) * (Chebyshev.T ℝ r).coeff i) (powR2 rnd n m a (i, j) 0) :=
  (powR_near hr hn (fun r _ => powR_near hr hm (k := 0) (fun t _ => Near.exact (a r t)) j) i).upto (by omega)

theorem powR3_near (hr : ToNearest rnd) {n m l : Nat} (hn : n ≤ 18) (hm : m ≤ 18) (hl : l ≤ 18) (a : Nat → Nat → Nat → ℝ) (i j k : Nat) :
    Near (n + m + l + 21)
      (∑ r ∈ range (n + 1), (∑ q ∈ range (m + 1), (∑ t ∈ range (l + 1), |a r q t| * |(Chebyshev.T ℝ t).coeff k|) * |(Chebyshev.T ℝ q).coeff j|) *
        |(Chebyshev.T ℝ r).coeff i|)
      (∑ r ∈ range (n + 1), (∑ q ∈ range (m + 1), (∑ t ∈ range (l + 1), a r q t * (Chebyshev.T ℝ t).coeff k) * (Chebyshev.T ℝ q).coeff j) *
        (Chebyshev.T ℝ r).coeff i) (powR3 rnd n m l a (i, j, k) 0) :=
  (powR_near hr hn (fun r _ => powR_near hr hm (fun q _ => powR_near hr hl (k := 0) (fun t _ => Near.exact (a r q t)) k) j) i).upto (by omega)

theorem sum_weights2 (n m N M : Nat) (a : Nat → Nat → ℝ) :
    ∑ i ∈ range N, ∑ j ∈ range M, ∑ r ∈ range (n + 1), (∑ t ∈ range (m + 1), |a r t| * |(Chebyshev.T ℝ t).coeff j|) * |(Chebyshev.T ℝ r).coeff i| ≤
      ∑ r ∈ range (n + 1), ∑ t ∈ range (m + 1), |a r t| * (1 + √2) ^ t * (1 + √2) ^ r := by
  have h : ∀ i, ∑ j ∈ range M, ∑ r ∈ range (n + 1), (∑ t ∈ range (m + 1), |a r t| * |(Chebyshev.T ℝ t).coeff j|) * |(Chebyshev.T ℝ r).coeff i| =
      ∑ r ∈ range (n + 1), (∑ j ∈ range M, ∑ t ∈ range (m + 1), |a r t| * |(Chebyshev.T ℝ t).coeff j|) * |(Chebyshev.T ℝ r).coeff i| := fun i => by
    rw [sum_comm]
    exact sum_congr rfl fun r _ => (sum_mul _ _ _).symm
  simp only [h]
  refine (sum_weights n N fun r => sum_nonneg fun j _ => sum_nonneg fun t _ => by positivity).trans (sum_le_sum fun r _ => ?_)
  rw [← sum_mul]
  exact mul_le_mul_of_nonneg_right (sum_weights m M fun t => abs_nonneg _) (by positivity)

theorem sum_swap (s t u : Finset Nat) (f : Nat → Nat → Nat → ℝ) (c : Nat → ℝ) :
    ∑ j ∈ s, ∑ k ∈ t, ∑ r ∈ u, f j k r * c r = ∑ r ∈ u, (∑ j ∈ s, ∑ k ∈ t, f j k r) * c r := by
  have h : ∀ j ∈ s, ∑ k ∈ t, ∑ r ∈ u, f j k r * c r = ∑ r ∈ u, (∑ k ∈ t, f j k r) * c r := fun j _ => by
    rw [sum_comm]
    exact sum_congr rfl fun r _ => (sum_mul _ _ _).symm
  rw [sum_congr rfl h, sum_comm]
  exact sum_congr rfl fun r _ => (sum_mul _ _ _).symm

theorem sum_weights3 (n m l N M L : Nat) (a : Nat → Nat → Nat → ℝ) :
    ∑ i ∈ range N, ∑ j ∈ range M, ∑ k ∈ range L, ∑ r ∈ range (n + 1), (∑ q ∈ range (m + 1), (∑ t ∈ range (l + 1),
        |a r q t| * |(Chebyshev.T ℝ t).coeff k|) * |(Chebyshev.T ℝ q).coeff j|) * |(Chebyshev.T ℝ r).coeff i| ≤
      ∑ r ∈ range (n + 1), ∑ q ∈ range (m + 1), ∑ t ∈ range (l + 1), |a r q t| * (1 + √2) ^ t * (1 + √2) ^ q * (1 + √2) ^ r := by
  have h : ∀ i, ∑ j ∈ range M, ∑ k ∈ range L, ∑ r ∈ range (n + 1), (∑ q ∈ range (m + 1), (∑ t ∈ range (l + 1),
        |a r q t| * |(Chebyshev.T ℝ t).coeff k|) * |(Chebyshev.T ℝ q).coeff j|) * |(Chebyshev.T ℝ r).coeff i| =
      ∑ r ∈ range (n + 1), (∑ j ∈ range M, ∑ k ∈ range L, ∑ q ∈ range (m + 1), (∑ t ∈ range (l + 1),
        |a r q t| * |(Chebyshev.T ℝ t).coeff k|) * |(Chebyshev.T ℝ q).coeff j|) * |(Chebyshev.T ℝ r).coeff i| := fun i => sum_swap _ _ _ _ _
  simp only [h]
  refine (sum_weights n N fun r => sum_nonneg fun j _ => sum_nonneg fun k _ => sum_nonneg fun q _ => by positivity).trans
    (sum_le_sum fun r _ => ?_)
  simp only [← sum_mul]
  refine mul_le_mul_of_nonneg_right ?_ (by positivity)
  have := sum_weights2 m l M L (a r)
  simpa only [sum_mul] using this

/-- C160, two variables, the coefficients. -/
theorem C160_coefficients_2d (hr : ToNearest rnd) (B : Build) {s : CS2 ℝ} (hx : s.m_aij.rows = s.m_order_x + 1) (hy : s.m_aij.cols = s.m_order_y + 1)
    (hn : s.m_order_x ≤ 18) (hm : s.m_order_y ≤ 18) :
    ∃ b, s.computeBijR rnd B = .ok b ∧ b.rows = s.m_order_x + 1 ∧ b.cols = s.m_order_y + 1 ∧ ∀ i j, i ≤ s.m_order_x → j ≤ s.m_order_y →
      |b.entry i j - ∑ r ∈ range (s.m_order_x + 1), (∑ t ∈ range (s.m_order_y + 1), s.m_aij.entry r t * (Chebyshev.T ℝ t).coeff j) *
          (Chebyshev.T ℝ r).coeff i| ≤
        (s.m_order_x + s.m_order_y + 15 : ℕ) / 2 ^ 53 * ∑ r ∈ range (s.m_order_x + 1), (∑ t ∈ range (s.m_order_y + 1),
          |s.m_aij.entry r t| * |(Chebyshev.T ℝ t).coeff j|) * |(Chebyshev.T ℝ r).coeff i| := by
  obtain ⟨b, h1, h2, h3, h4⟩ := CS2.computeBijR_ok (rnd := rnd) B (s := s) (e := s.m_aij.entry) rfl rfl (by rw [← hx, ← hy]) hn hm
  refine ⟨b, h1, h2, h3, fun i j hi hj => ?_⟩
  rw [h4 i j (by omega) (by omega)]
  have h := powR2_near hr hn hm s.m_aij.entry i j
  exact h.err.trans (mul_le_mul_of_nonneg_right (gam_le_nat (by omega)) h.nonneg)

/-- C160, two variables. -/
theorem C160_error_2d (hr : ToNearest rnd) (B : Build) {s : CS2 ℝ} (hx : s.m_aij.rows = s.m_order_x + 1) (hy : s.m_aij.cols = s.m_order_y + 1)
    (hn : s.m_order_x ≤ 18) (hm : s.m_order_y ≤ 18) (hX : s.m_x.dom.Usual) (hY : s.m_y.dom.Usual) :
    ∃ b, s.computeBijR rnd B = .ok b ∧ ∀ ps, Built2 b ps s.m_x.dom s.m_y.dom → ∀ x y, s.m_x.dom.Mem x → s.m_y.dom.Mem y →
      ∃ v, ps.evaluateR rnd B x y = .ok v ∧
        |v - cheb2 s.m_order_x s.m_order_y s.m_aij.entry (s.m_x.dom.unit x) (s.m_y.dom.unit y)| ≤
          convErr (s.m_order_x + s.m_order_y + 15)
              ((1 + powErr s.m_order_x s.m_x.dom.cond) * (1 + powErr s.m_order_y s.m_y.dom.cond) - 1) *
            ∑ r ∈ range (s.m_order_x + 1), ∑ t ∈ range (s.m_order_y + 1), |s.m_aij.entry r t| * (1 + √2) ^ t * (1 + √2) ^ r := by
  obtain ⟨b, h1, h2, h3, h4⟩ := CS2.computeBijR_ok (rnd := rnd) B (s := s) (e := s.m_aij.entry) rfl rfl (by rw [← hx, ← hy]) hn hm
  refine ⟨b, h1, fun ps hps x y hx' hy' => ?_⟩
  obtain ⟨v, v1, v2⟩ := C133_error_2d hr B h2 h3 hps hX hY hx' hy'
  refine ⟨v, v1, ?_⟩
  have hu := unit_le hX hx'
  have hw := unit_le hY hy'
  have ex := powErr_nonneg s.m_order_x (Domain.cond_ge hX)
  have ey := powErr_nonneg s.m_order_y (Domain.cond_ge hY)
  have hnear := fun i j => powR2_near hr hn hm s.m_aij.entry i j
  have hc : ∀ i j, ∑ r ∈ Ico i (s.m_order_x + 1), (∑ t ∈ Ico j (s.m_order_y + 1), s.m_aij.entry r t * transformationCoefficient t j) *
      transformationCoefficient r i = ∑ r ∈ range (s.m_order_x + 1), (∑ t ∈ range (s.m_order_y + 1), s.m_aij.entry r t * (Chebyshev.T ℝ t).coeff j) *
        (Chebyshev.T ℝ r).coeff i := fun i j => by
    simp only [sum_Ico_coeff _ _ (fun x => x) rfl]
  rw [← cheb_to_power2 s.m_order_x s.m_order_y (fun p => s.m_aij.entry p.1 p.2)]
  refine total_error (by nlinarith) (gam_le_nat (k := s.m_order_x + s.m_order_y + 14) (by omega)) v2 (poly2_sub_le hu hw _ _ _ _)
    (W := ∑ i ∈ range (s.m_order_x + 1), ∑ j ∈ range (s.m_order_y + 1), ∑ r ∈ range (s.m_order_x + 1), (∑ t ∈ range (s.m_order_y + 1),
      |s.m_aij.entry r t| * |(Chebyshev.T ℝ t).coeff j|) * |(Chebyshev.T ℝ r).coeff i|) ?_ ?_
    (sum_nonneg fun i _ => sum_nonneg fun j _ => (hnear i j).nonneg) (sum_weights2 _ _ _ _ _) (by positivity)
  · rw [mul_sum]
    refine sum_le_sum fun i hi => ?_
    rw [mul_sum]
    refine sum_le_sum fun j hj => ?_
    rw [h4 i j (mem_range.1 hi) (mem_range.1 hj), hc]
    exact (hnear i j).err
  · rw [← sum_add_distrib]
    refine sum_le_sum fun i hi => sum_abs_le _ _ _ _ fun j hj => ?_
    rw [hc]
    exact (hnear i j).size

/-- C160, three variables, the coefficients. -/
theorem C160_coefficients_3d (hr : ToNearest rnd) (B : Build) {s : CS3 ℝ} {a : Nat → Nat → Nat → ℝ}
    (ha : Cube s.m_aijk (s.m_order_x + 1) (s.m_order_y + 1) (s.m_order_z + 1) a) (hn : s.m_order_x ≤ 18) (hm : s.m_order_y ≤ 18) (hl : s.m_order_z ≤ 18) :
    ∃ b e, s.computeBijkR rnd B = .ok b ∧ Cube b (s.m_order_x + 1) (s.m_order_y + 1) (s.m_order_z + 1) e ∧ ∀ i j k : Nat,
      |e i j k - ∑ r ∈ range (s.m_order_x + 1), (∑ q ∈ range (s.m_order_y + 1), (∑ t ∈ range (s.m_order_z + 1), a r q t * (Chebyshev.T ℝ t).coeff k) *
          (Chebyshev.T ℝ q).coeff j) * (Chebyshev.T ℝ r).coeff i| ≤
        (s.m_order_x + s.m_order_y + s.m_order_z + 22 : ℕ) / 2 ^ 53 * ∑ r ∈ range (s.m_order_x + 1), (∑ q ∈ range (s.m_order_y + 1),
          (∑ t ∈ range (s.m_order_z + 1), |a r q t| * |(Chebyshev.T ℝ t).coeff k|) * |(Chebyshev.T ℝ q).coeff j|) * |(Chebyshev.T ℝ r).coeff i| := by
  obtain ⟨b, h1, h2⟩ := CS3.computeBijkR_ok (rnd := rnd) B rfl rfl rfl ha hn hm hl
  refine ⟨b, _, h1, h2, fun i j k => ?_⟩
  have h := powR3_near hr hn hm hl a i j k
  exact h.err.trans (mul_le_mul_of_nonneg_right (gam_le_nat (by omega)) h.nonneg)

/-- C160, three variables. -/
theorem C160_error_3d (hr : ToNearest rnd) (B : Build) {s : CS3 ℝ} {a : Nat → Nat → Nat → ℝ}
    (ha : Cube s.m_aijk (s.m_order_x + 1) (s.m_order_y + 1) (s.m_order_z + 1) a) (hn : s.m_order_x ≤ 18) (hm : s.m_order_y ≤ 18) (hl : s.m_order_z ≤ 18)
    (hX : s.m_x.dom.Usual) (hY : s.m_y.dom.Usual) (hZ : s.m_z.dom.Usual) :
    ∃ b, s.computeBijkR rnd B = .ok b ∧ ∀ ps, Built3 b ps s.m_x.dom s.m_y.dom s.m_z.dom → ∀ x y z, s.m_x.dom.Mem x → s.m_y.dom.Mem y → s.m_z.dom.Mem z →
      ∃ v, ps.evaluateR rnd B x y z = .ok v ∧
        |v - cheb3 s.m_order_x s.m_order_y s.m_order_z a (s.m_x.dom.unit x) (s.m_y.dom.unit y) (s.m_z.dom.unit z)| ≤
          convErr (s.m_order_x + s.m_order_y + s.m_order_z + 22)
              ((1 + powErr s.m_order_x s.m_x.dom.cond) * (1 + powErr s.m_order_y s.m_y.dom.cond) * (1 + powErr s.m_order_z s.m_z.dom.cond) - 1) *
            ∑ r ∈ range (s.m_order_x + 1), ∑ q ∈ range (s.m_order_y + 1), ∑ t ∈ range (s.m_order_z + 1),
              |a r q t| * (1 + √2) ^ t * (1 + √2) ^ q * (1 + √2) ^ r := by
  obtain ⟨b, h1, h2⟩ := CS3.computeBijkR_ok (rnd := rnd) B rfl rfl rfl ha hn hm hl
  refine ⟨b, h1, fun ps hps x y z hx' hy' hz' => ?_⟩
  obtain ⟨v, v1, v2⟩ := C133_error_3d hr B h2 hps hX hY hZ hx' hy' hz'
  refine ⟨v, v1, ?_⟩
  have hu := unit_le hX hx'
  have hv := unit_le hY hy'
  have hw := unit_le hZ hz'
  have ex := powErr_nonneg s.m_order_x (Domain.cond_ge hX)
  have ey := powErr_nonneg s.m_order_y (Domain.cond_ge hY)
  have ez := powErr_nonneg s.m_order_z (Domain.cond_ge hZ)
  have hnear := fun i j k => powR3_near hr hn hm hl a i j k
  have hc : ∀ i j k, ∑ r ∈ Ico i (s.m_order_x + 1), (∑ q ∈ Ico j (s.m_order_y + 1), (∑ t ∈ Ico k (s.m_order_z + 1),
      a r q t * transformationCoefficient t k) * transformationCoefficient q j) * transformationCoefficient r i =
      ∑ r ∈ range (s.m_order_x + 1), (∑ q ∈ range (s.m_order_y + 1), (∑ t ∈ range (s.m_order_z + 1), a r q t * (Chebyshev.T ℝ t).coeff k) *
          (Chebyshev.T ℝ q).coeff j) * (Chebyshev.T ℝ r).coeff i := fun i j k => by
    simp only [sum_Ico_coeff _ _ (fun x => x) rfl]
  rw [← cheb_to_power3 s.m_order_x s.m_order_y s.m_order_z (fun p => a p.1 p.2.1 p.2.2)]
  refine total_error ?_ (gam_le_nat (k := s.m_order_x + s.m_order_y + s.m_order_z + 21) (by omega)) v2 (poly3_sub_le hu hv hw _ _ _ _ _)
    (W := ∑ i ∈ range (s.m_order_x + 1), ∑ j ∈ range (s.m_order_y + 1), ∑ k ∈ range (s.m_order_z + 1), ∑ r ∈ range (s.m_order_x + 1),
      (∑ q ∈ range (s.m_order_y + 1), (∑ t ∈ range (s.m_order_z + 1), |a r q t| * |(Chebyshev.T ℝ t).coeff k|) * |(Chebyshev.T ℝ q).coeff j|) *
        |(Chebyshev.T ℝ r).coeff i|) ?_ ?_
    (sum_nonneg fun i _ => sum_nonneg fun j _ => sum_nonneg fun k _ => (hnear i j k).nonneg) (sum_weights3 _ _ _ _ _ _ _) (by positivity)
  · have h5 : 1 ≤ (1 + powErr s.m_order_x s.m_x.dom.cond) * (1 + powErr s.m_order_y s.m_y.dom.cond) := by nlinarith
    nlinarith
  · rw [mul_sum]
    refine sum_le_sum fun i hi => ?_
    rw [mul_sum]
    refine sum_le_sum fun j hj => ?_
    rw [mul_sum]
    refine sum_le_sum fun k hk => ?_
    rw [hc]
    exact (hnear i j k).err
  · rw [← sum_add_distrib]
    refine sum_le_sum fun i hi => ?_
    rw [← sum_add_distrib]
    refine sum_le_sum fun j hj => sum_abs_le _ _ _ _ fun k hk => ?_
    rw [hc]
    exact (hnear i j k).size

/-- C160, the guard in double: above order 18 the conversion stops the process with exit status 0. -/
theorem C160_order_guard (B : Build) (s1 : CS1 ℝ) (s2 : CS2 ℝ) (s3 : CS3 ℝ) :
    (18 < s1.m_order_x → s1.computeBiR rnd B = .exits 0) ∧ (18 < s2.m_order_x ∨ 18 < s2.m_order_y → s2.computeBijR rnd B = .exits 0) ∧
    (18 < s3.m_order_x ∨ 18 < s3.m_order_y ∨ 18 < s3.m_order_z → s3.computeBijkR rnd B = .exits 0) :=
  ⟨fun h => if_pos h, fun h => if_pos h, fun h => if_pos h⟩

variable {cosR : ℝ → ℝ} {TR : Nat → ℝ → ℝ}

/-- C160, the whole chain in one variable: `Compute_ai`, `Compute_bi` and `Evaluate` of the power series, all in double, against the function. -/
theorem C160_accuracy_1d (hr : ToNearest rnd) (hc : CosClose cosR) (B : Build) {F G : ℝ → ℝ} {n : Nat} {s : CS1 ℝ} {X : Domain ℝ} (hs : Fresh1 F n s X)
    (hn18 : n ≤ 18) (hX : X.Usual) (hn : X.cond * ((n : ℝ) + 1) ^ 2 ≤ 2 ^ 40) {ε φ L M D : ℝ} (hT : PolyClose ε n TR) (hε : ε ≤ 1)
    (hF : Computes1 F G X φ L M) (hG : DerivBoundOn (n + 1) G X D) :
    ∃ s' b, s.computeAiR rnd cosR TR B = .ok s' ∧ s'.computeBiR rnd B = .ok b ∧ ∀ ps, Built1 b ps X → ∀ x, X.Mem x →
      ∃ v, ps.evaluateR rnd B x = .ok v ∧ |v - G x| ≤ D / (2 ^ n * (n + 1).factorial) + (n + 1) * coeffErr n X.cond ε φ L M +
        convErr (n + 8) (powErr n X.cond) * ∑ r ∈ range (n + 1), (2 * M + coeffErr n X.cond ε φ L M) * (1 + √2) ^ r := by
  obtain ⟨sx, rfl, h⟩ := hs.holds
  obtain ⟨t, x, hx, hx'⟩ := abscissaeR_ok hr hc hX hn
  obtain ⟨s', h1, h2⟩ := CS1.computeAiR_ok (TR := TR) B h hx
  obtain ⟨b1, b2, b3, b4⟩ := h2
  obtain ⟨b, c1, c2⟩ := C160_error_1d hr B (s := s') (by rw [b4, b2]; simp) (by omega) (by rw [b3]; exact hX)
  refine ⟨s', b, h1, c1, fun ps hps y hy => ?_⟩
  obtain ⟨v, v1, v2⟩ := c2 ps (by rw [b3]; exact hps) y (by rw [b3]; exact hy)
  refine ⟨v, v1, ?_⟩
  rw [b2, b3] at v2
  have hco : ∀ i ∈ range (n + 1), |s'.m_ai.getD i 0 - CS1.next G n sx.dom i 0| ≤ coeffErr n sx.dom.cond ε φ L M := fun i hi => by
    have hi' := mem_range.1 hi
    rw [b4, getD_map_range _ _ hi']
    exact coeff_close hr hX hn hT hε hF hx' (by omega)
  have hu := unit_le hX hy
  have hd : |cheb1 n (fun i => s'.m_ai.getD i 0) (sx.dom.unit y) - cheb1 n (fun i => CS1.next G n sx.dom i 0) (sx.dom.unit y)| ≤
      (n + 1) * coeffErr n sx.dom.cond ε φ L M := by
    refine (cheb1_sub_le hu _ _ _).trans ?_
    have := sum_le_sum hco
    simpa using this
  have hE : 0 ≤ convErr (n + 8) (powErr n sx.dom.cond) := by
    have h5 := powErr_nonneg n (Domain.cond_ge hX)
    have h6 : (0 : ℝ) ≤ ((n + 8 : ℕ) : ℝ) / 2 ^ 53 := by positivity
    unfold convErr
    nlinarith
  have hsum : ∑ r ∈ range (n + 1), |s'.m_ai.getD r 0| * (1 + √2) ^ r ≤
      ∑ r ∈ range (n + 1), (2 * M + coeffErr n sx.dom.cond ε φ L M) * (1 + √2) ^ r := by
    refine sum_le_sum fun i hi => mul_le_mul_of_nonneg_right ?_ (by positivity)
    have e1 := hco i hi
    have e2 := abs_next_le hX (n := n) hF.bound i
    have := abs_add_le (s'.m_ai.getD i 0 - CS1.next G n sx.dom i 0) (CS1.next G n sx.dom i 0)
    rw [sub_add_cancel] at this
    linarith
  have hv := v2.trans (mul_le_mul_of_nonneg_left hsum hE)
  have h7 := domain_interp_error hX hG hy
  rw [← cheb1_next] at h7
  have e1 := abs_sub_le v (cheb1 n (fun i => s'.m_ai.getD i 0) (sx.dom.unit y)) (G y)
  have e2 := abs_sub_le (cheb1 n (fun i => s'.m_ai.getD i 0) (sx.dom.unit y)) (cheb1 n (fun i => CS1.next G n sx.dom i 0) (sx.dom.unit y)) (G y)
  linarith

/-- The sine on `[0, 2]` at order 6: nodes, coefficients, conversion and value in double. -/
example (B : Build) : ∃ s' b, (CS1.closed (fun x => roundNearest (Real.sin x)) 0 2 6).computeAiR roundNearest (fun t => roundNearest (Real.cos t))
    (fun i t => roundNearest ((Chebyshev.T ℝ i).eval t)) B = .ok s' ∧ s'.computeBiR roundNearest B = .ok b ∧
      ∀ ps, Built1 b ps (.segment 0 2) → ∀ x, (Domain.segment (0 : ℝ) 2).Mem x → ∃ v, ps.evaluateR roundNearest B x = .ok v := by
  obtain ⟨s', b, h1, h2, h3⟩ := C160_accuracy_1d roundNearest_toNearest cosClose_round B (.closed 0 2) (n := 6) (by norm_num)
    (X := .segment 0 2) (by norm_num [Domain.Usual]) (by norm_num [Domain.cond]) (polyClose_round 6) (by norm_num) sin_computes (sin_derivs 7)
  refine ⟨s', b, h1, h2, fun ps hps x hx => ?_⟩
  obtain ⟨v, hv, -⟩ := h3 ps hps x hx
  exact ⟨v, hv⟩

/-- `T_4 - T_2 / 2`: two coefficients of the power series in double, `8` for `u^4` and `1 + 1/2` for `1`, both with a relative bound. -/
example (B : Build) : ∃ b, (CS1.mk (fun _ => 0) 4 (.closed 0 2) [0, 0, -1 / 2, 0, 1] : CS1 ℝ).computeBiR roundNearest B = .ok b ∧ b.length = 5 := by
  obtain ⟨b, h1, h2, -⟩ := C160_coefficients_1d roundNearest_toNearest B (s := CS1.mk (fun _ => 0) 4 (.closed 0 2) [0, 0, -1 / 2, 0, 1]) rfl (by norm_num)
  exact ⟨b, h1, h2⟩

end MU
