import Verif.Props.RoundedChebyshevDerivative

set_option linter.unusedSectionVars false

/-!
# The derivatives of the Chebyshev series computed and evaluated in double arithmetic

C137, continued: from the function to the derivative returned.
-/

namespace MU.Spec

/-- The relative error of the derivative of a series of order `n` in one variable, evaluated in double. -/
noncomputable def primeErr (n : Nat) (κ ε : ℝ) : ℝ := polyFactor n κ ε * (1 + 1 / 2 ^ 53) ^ (n + 7) - 1

/-- The same for two variables, the derivative being in the variable of order `n`. -/
noncomputable def primeErr2 (n m : Nat) (κ κ' ε : ℝ) : ℝ := polyFactor n κ ε * (1 + chebErr m κ') * (1 + 1 / 2 ^ 53) ^ (n + 7) - 1

/-- The same for three variables. -/
noncomputable def primeErr3 (n m l : Nat) (κx κy κz ε : ℝ) : ℝ :=
  polyFactor n κx ε * polyFactor m κy ε * polyFactor l κz ε * (1 + 1 / 2 ^ 53) ^ ((n + 1) * (m + 1) * (l + 1) + 8) - 1

end MU.Spec

namespace MU
open Spec Finset Polynomial

variable {rnd cosR : ℝ → ℝ} {TR TpR : Nat → ℝ → ℝ}

/-- From the error of the coefficients to the error of the derivative. -/
theorem deriv_total {ι : Type} (I : Finset ι) {w T a' a : ι → ℝ} {sl D A e v W : ℝ} (hsl : 0 ≤ sl) (hD : 0 ≤ D) (he : 0 ≤ e) (hA : 0 ≤ A)
    (hT : ∀ i ∈ I, |T i| ≤ w i) (hco : ∀ i ∈ I, |a' i - a i| ≤ e) (ha : ∀ i ∈ I, |a i| ≤ A)
    (hv : |v - (∑ i ∈ I, a' i * T i) * sl| ≤ D * (sl * ∑ i ∈ I, w i * |a' i|)) (hW : ∑ i ∈ I, w i ≤ W) :
    |v - (∑ i ∈ I, a i * T i) * sl| ≤ W * ((1 + D) * e + A * D) * sl := by
  have hw : ∀ i ∈ I, 0 ≤ w i := fun i hi => (abs_nonneg _).trans (hT i hi)
  have h1 : ∑ i ∈ I, w i * |a' i| ≤ (∑ i ∈ I, w i) * (A + e) := by
    rw [sum_mul]
    refine sum_le_sum fun i hi => mul_le_mul_of_nonneg_left ?_ (hw i hi)
    have := abs_add_le (a' i - a i) (a i)
    rw [sub_add_cancel] at this
    linarith [hco i hi, ha i hi]
  have h2 : |∑ i ∈ I, a' i * T i - ∑ i ∈ I, a i * T i| ≤ (∑ i ∈ I, w i) * e := by
    rw [← sum_sub_distrib, sum_mul]
    refine (abs_sum_le_sum_abs _ _).trans (sum_le_sum fun i hi => ?_)
    rw [← sub_mul, abs_mul, mul_comm]
    exact mul_le_mul (hT i hi) (hco i hi) (abs_nonneg _) (hw i hi)
  have h3 : |v - (∑ i ∈ I, a i * T i) * sl| ≤ |v - (∑ i ∈ I, a' i * T i) * sl| + |∑ i ∈ I, a' i * T i - ∑ i ∈ I, a i * T i| * sl := by
    rw [← abs_of_nonneg hsl, ← abs_mul, abs_of_nonneg hsl, sub_mul]
    exact abs_sub_le _ _ _
  have h4 := mul_le_mul_of_nonneg_left (mul_le_mul_of_nonneg_left h1 hsl) hD
  have h5 := mul_le_mul_of_nonneg_right h2 hsl
  have h6 : (∑ i ∈ I, w i) * ((1 + D) * e + A * D) * sl ≤ W * ((1 + D) * e + A * D) * sl :=
    mul_le_mul_of_nonneg_right (mul_le_mul_of_nonneg_right hW (by positivity)) hsl
  linarith

theorem sum_sq_le (n : Nat) : ∑ i ∈ range (n + 1), (i : ℝ) ^ 2 ≤ (n + 1) * (n : ℝ) ^ 2 :=
  sum_range_le_const fun i hi => by
    have : (i : ℝ) ≤ n := by exact_mod_cast hi
    gcongr

theorem tprime_le {u : ℝ} (hu : |u| ≤ 1) (i : Nat) : |(derivative (Chebyshev.T ℝ i)).eval u| ≤ (i : ℝ) ^ 2 := by
  rw [← chebTPrime_eq]
  exact abs_chebTPrime_le i hu

theorem cond_sq {n : Nat} {κ : ℝ} (hκ : 2 ≤ κ) (h : κ * ((n : ℝ) + 1) ^ 2 ≤ 2 ^ 40) : κ * (n : ℝ) ^ 2 ≤ 2 ^ 50 := by
  have : κ * (n : ℝ) ^ 2 ≤ κ * ((n : ℝ) + 1) ^ 2 := by
    gcongr
    linarith
  linarith

theorem one_le_upow (k : ℕ) : (1 : ℝ) ≤ (1 + 1 / 2 ^ 53) ^ k := one_le_pow₀ (by norm_num)

theorem primeErr_nonneg (n : Nat) {κ ε : ℝ} (hκ : 2 ≤ κ) (hε : 0 ≤ ε) : 0 ≤ primeErr n κ ε := by
  have h1 := polyFactor_one (n := n) hκ hε
  have h2 := one_le_upow (n + 7)
  unfold primeErr
  nlinarith

theorem primeErr2_nonneg (n m : Nat) {κ κ' ε : ℝ} (hκ : 2 ≤ κ) (hκ' : 2 ≤ κ') (hε : 0 ≤ ε) : 0 ≤ primeErr2 n m κ κ' ε := by
  have h1 := polyFactor_one (n := n) hκ hε
  have h2 := one_le_upow (n + 7)
  have h3 := chebErr_nonneg m hκ'
  have h4 : 1 ≤ polyFactor n κ ε * (1 + chebErr m κ') := by nlinarith
  unfold primeErr2
  nlinarith

theorem primeErr3_nonneg (n m l : Nat) {κ κ' κ'' ε : ℝ} (hκ : 2 ≤ κ) (hκ' : 2 ≤ κ') (hκ'' : 2 ≤ κ'') (hε : 0 ≤ ε) :
    0 ≤ primeErr3 n m l κ κ' κ'' ε := by
  have h1 := polyFactor_one (n := n) hκ hε
  have h2 := polyFactor_one (n := m) hκ' hε
  have h3 := polyFactor_one (n := l) hκ'' hε
  have h4 := one_le_upow ((n + 1) * (m + 1) * (l + 1) + 8)
  have h5 : 1 ≤ polyFactor n κ ε * polyFactor m κ' ε := by nlinarith
  have h6 : 1 ≤ polyFactor n κ ε * polyFactor m κ' ε * polyFactor l κ'' ε := by nlinarith
  unfold primeErr3
  nlinarith

theorem outside_nonneg {κ : ℝ} (hκ : 2 ≤ κ) : 0 ≤ outside κ := by
  unfold outside
  positivity

theorem Spec.PolyNear.close {ε δ : ℝ} {n : Nat} (h : PolyNear ε δ n TR) (hδ : 0 ≤ δ) : PolyClose ε n TR :=
  fun i hi t ht => h i hi t (by linarith)

theorem Spec.PolyNear.sub {ε δ δ' : ℝ} {n n' : Nat} (h : PolyNear ε δ n TR) (hδ : δ' ≤ δ) (hn : n' ≤ n) : PolyNear ε δ' n' TR :=
  fun i hi t ht => h i (hi.trans hn) t (by linarith)

theorem Spec.PrimeNear.sub {ε δ δ' : ℝ} {n n' : Nat} (h : PrimeNear ε δ n TpR) (hδ : δ' ≤ δ) (hn : n' ≤ n) : PrimeNear ε δ' n' TpR :=
  fun i hi t ht => h i (hi.trans hn) t (by linarith)

theorem PolyClose.nonneg {ε : ℝ} {n : Nat} (h : PolyClose ε n TR) : 0 ≤ ε := (abs_nonneg _).trans (h 0 (Nat.zero_le n) 0 (by norm_num))

/-! ## One variable -/

/-- C137, one variable, from the function to the derivative returned: the coefficients are computed in double for a program `F` of `G`, and the
derivative is evaluated in double. -/
theorem C137_total_1d (hr : ToNearest rnd) (hc : CosClose cosR) (B : Build) {F G : ℝ → ℝ} {n : Nat} {s : CS1 ℝ} {X : Domain ℝ} (hs : Fresh1 F n s X)
    (hX : X.Usual) (hn : X.cond * ((n : ℝ) + 1) ^ 2 ≤ 2 ^ 40) {ε φ L M : ℝ} (hT : PolyClose ε n TR) (hε : ε ≤ 1)
    (hT' : PrimeNear ε (outside X.cond) n TpR) (hF : Computes1 F G X φ L M)
    {a : ℕ → ℝ} (hG : Expansion1 a G X) (ha : Summable (fun k : ℕ => |(k : ℝ) ^ 2 * a k|)) :
    ∃ s', s.computeAiR rnd cosR TR B = .ok s' ∧ ∀ x, X.Mem x → ∃ v d, s'.evaluateDerivativeXR rnd TpR B x = .ok v ∧
      HasDerivWithinAt (fun t => G t) d {t | X.Mem t} x ∧
      |v - d| ≤ (2 * ∑' k : ℕ, if k ≤ n then 0 else |(k : ℝ) ^ 2 * a k|) * X.unitSlope x +
        (n + 1) * (n : ℝ) ^ 2 * ((1 + primeErr n X.cond ε) * coeffErr n X.cond ε φ L M + 2 * M * primeErr n X.cond ε) * X.unitSlope x := by
  have hε0 := PolyClose.nonneg hT
  obtain ⟨s₀, hs₀⟩ := hs.other G
  obtain ⟨s₀', g1, g2⟩ := C136_error_1d B hs₀ hX hG ha
  obtain ⟨sx₀, ex₀, h₀⟩ := hs₀.holds
  obtain ⟨s₁, g3, g4⟩ := CS1.computeAi_ok B h₀
  rw [g1] at g3
  injection g3 with g3
  subst g3
  obtain ⟨sx, rfl, h⟩ := hs.holds
  obtain ⟨t, x, hx, hx'⟩ := abscissaeR_ok hr hc hX hn
  obtain ⟨s', h1, h2⟩ := CS1.computeAiR_ok (TR := TR) B h hx
  refine ⟨s', h1, fun p hp => ?_⟩
  obtain ⟨-, b2, b3, b4⟩ := h2
  have hκ := Domain.cond_ge hX
  obtain ⟨v, d', v1, v2, v3⟩ := C137_error_1d hr B (s := s') (by rw [b4, b2]; simp) (by rw [b3]; exact hX) (by rw [b2, b3]; exact cond_sq hκ hn)
    hε0 (by rw [b2, b3]; exact hT') (x := p) (by rw [b3]; exact hp)
  obtain ⟨v₀, d, w1, w2, w3⟩ := g2 p hp
  refine ⟨v, d, v1, w2, ?_⟩
  rw [b2, b3] at v2 v3
  rw [CS1.derivX_ok B g4 (by rw [ex₀]; exact (Domain.mem_unit hX hp).1), ← dom_unitSlope, ex₀] at w1
  injection w1 with w1
  have hu := unit_le hX hp
  have hsl := (Domain.unitSlope_pos hX hp).le
  have hM : 0 ≤ M := (abs_nonneg _).trans (hF.bound _ hp)
  have hco : ∀ i ∈ range (n + 1), |s'.m_ai.getD i 0 - CS1.next G n sx.dom i 0| ≤ coeffErr n sx.dom.cond ε φ L M := fun i hi => by
    have hi' := mem_range.1 hi
    have hget : s'.m_ai.getD i 0 = CS1.nextR rnd TR F n t x i 0 := by
      rw [b4]
      simp [List.getD, hi']
    rw [hget]
    exact coeff_close hr hX hn hT hε hF hx' (by omega)
  have hd : d' = (∑ i ∈ range (n + 1), s'.m_ai.getD i 0 * (derivative (Chebyshev.T ℝ i)).eval (sx.dom.unit p)) * sx.dom.unitSlope p := by
    refine v2.unique (HasDerivAt.comp p (h₂ := fun u => cheb1 n (fun i => s'.m_ai.getD i 0) u) ?_ (Domain.hasDerivAt_unit hX hp))
    exact HasDerivAt.fun_sum fun i _ => ((Chebyshev.T ℝ i).hasDerivAt _).const_mul _
  rw [hd] at v3
  have key := deriv_total (range (n + 1)) hsl (primeErr_nonneg n hκ hε0) ((abs_nonneg _).trans (hco 0 (by simp))) (by positivity : 0 ≤ 2 * M)
    (fun i _ => tprime_le hu i) hco (fun i _ => abs_next_le hX (n := n) hF.bound i) v3 (sum_sq_le n)
  rw [mul_comm _ (sx.dom.unitSlope p), w1] at key
  have := abs_sub_le v v₀ d
  linarith

/-! ## Two variables -/

/-- C137, two variables, derivative in `x`, from the function to the derivative returned. -/
theorem C137_total_2d_x (hr : ToNearest rnd) (hc : CosClose cosR) (B : Build) {F G : ℝ → ℝ → ℝ} {n m : Nat} {s : CS2 ℝ} {X Y : Domain ℝ}
    (hs : Fresh2 F n m s X Y) (hX : X.Usual) (hY : Y.Usual) (hn : X.cond * ((n : ℝ) + 1) ^ 2 ≤ 2 ^ 40) (hm : Y.cond * ((m : ℝ) + 1) ^ 2 ≤ 2 ^ 40)
    (hnm : (n + 1) * (m + 1) ≤ 2 ^ 25) {ε φ Lx Ly M : ℝ} (hT : PolyClose ε (max n m) TR) (hε : ε ≤ 1)
    (hT' : PrimeNear ε (outside X.cond) n TpR) (hF : Computes2 F G X Y φ Lx Ly M)
    {a : ℕ × ℕ → ℝ} (hG : Expansion2 a G X Y) (ha : Summable (fun k : ℕ × ℕ => |(k.1 : ℝ) ^ 2 * a k|)) :
    ∃ s', s.computeAijR rnd cosR TR B = .ok s' ∧ ∀ x y, X.Mem x → Y.Mem y → ∃ v d, s'.evaluateDerivativeXR rnd TpR B x y = .ok v ∧
      HasDerivWithinAt (fun t => G t y) d {t | X.Mem t} x ∧
      |v - d| ≤ (2 * ∑' k : ℕ × ℕ, if k.1 ≤ n ∧ k.2 ≤ m then 0 else |(k.1 : ℝ) ^ 2 * a k|) * X.unitSlope x +
        (n + 1) * (m + 1) * (n : ℝ) ^ 2 * ((1 + primeErr2 n m X.cond Y.cond ε) * coeffErr2 n m (X.cond * Lx + Y.cond * Ly) ε φ M +
          4 * M * primeErr2 n m X.cond Y.cond ε) * X.unitSlope x := by
  have hε0 := PolyClose.nonneg hT
  obtain ⟨s₀, hs₀⟩ := hs.other G
  obtain ⟨s₀', g1, g2⟩ := C136_error_2d_x B hs₀ hX hY hG ha
  obtain ⟨sx₀, sy₀, ex₀, ey₀, h₀⟩ := hs₀.holds
  obtain ⟨s₁, g3, g4⟩ := CS2.computeAij_ok B h₀
  rw [g1] at g3
  injection g3 with g3
  subst g3
  obtain ⟨sx, sy, rfl, rfl, h⟩ := hs.holds
  obtain ⟨t, x, hx, hx'⟩ := abscissaeR_ok hr hc hX hn
  obtain ⟨u, y, hy, hy'⟩ := abscissaeR_ok hr hc hY hm
  obtain ⟨s', h1, h2⟩ := CS2.computeAijR_ok (TR := TR) B h hx hy
  refine ⟨s', h1, fun p q hp hq => ?_⟩
  obtain ⟨-, b2, b3, b4, b5, e0, b6, b7⟩ := h2
  have hκx := Domain.cond_ge hX
  have hκy := Domain.cond_ge hY
  obtain ⟨v, d', v1, v2, v3⟩ := C137_error_2d_x hr B (s := s') (by rw [b6, b2]) (by rw [b6, b3]) (by rw [b4]; exact hX) (by rw [b5]; exact hY)
    (by rw [b2, b4]; exact cond_sq hκx hn) hε0 (by rw [b2, b4]; exact hT') (x := p) (y := q) (by rw [b4]; exact hp) (by rw [b5]; exact hq)
  obtain ⟨v₀, d, w1, w2, w3⟩ := g2 p q hp hq
  refine ⟨v, d, v1, w2, ?_⟩
  rw [b2, b3, b4, b5] at v2 v3
  rw [CS2.derivX_ok B g4 (by rw [ex₀]; exact (Domain.mem_unit hX hp).1) (by rw [ey₀]; exact (Domain.mem_unit hY hq).1), ← dom_unitSlope, ex₀, ey₀] at w1
  injection w1 with w1
  have hux := unit_le hX hp
  have huy := unit_le hY hq
  have hsl := (Domain.unitSlope_pos hX hp).le
  have hM : 0 ≤ M := (abs_nonneg _).trans (hF.bound _ _ hp hq)
  have hco : ∀ i ∈ range (n + 1) ×ˢ range (m + 1), |s'.m_aij.entry i.1 i.2 - CS2.next G n m sx.dom sy.dom i 0| ≤
      coeffErr2 n m (sx.dom.cond * Lx + sy.dom.cond * Ly) ε φ M := fun i hi => by
    obtain ⟨hi1, hi2⟩ := mem_product.1 hi
    rw [mem_range] at hi1 hi2
    rw [b6]
    show |e0 (i.1, i.2) - _| ≤ _
    rw [b7 i.1 i.2 hi1 hi2]
    exact coeff_close_2d hr hX hY hnm hT hε hF hx' hy' (by omega) (by omega)
  have hd : d' = (∑ i ∈ range (n + 1) ×ˢ range (m + 1), s'.m_aij.entry i.1 i.2 * ((derivative (Chebyshev.T ℝ i.1)).eval (sx.dom.unit p) * (Chebyshev.T ℝ i.2).eval (sy.dom.unit q))) * sx.dom.unitSlope p := by
    refine v2.unique (HasDerivAt.comp p (h₂ := fun u => cheb2 n m s'.m_aij.entry u (sy.dom.unit q)) ?_ (Domain.hasDerivAt_unit hX hp))
    rw [sum_product]
    refine HasDerivAt.fun_sum fun i _ => HasDerivAt.fun_sum fun j _ => ?_
    rw [← mul_assoc]
    exact (((Chebyshev.T ℝ i).hasDerivAt _).const_mul _).mul_const _
  have hS : ∑ i ∈ range (n + 1), ∑ j ∈ range (m + 1), (i : ℝ) ^ 2 * |s'.m_aij.entry i j| =
      ∑ i ∈ range (n + 1) ×ˢ range (m + 1), ((i.1 : ℕ) : ℝ) ^ 2 * |s'.m_aij.entry i.1 i.2| := by rw [sum_product]
  rw [hd, hS] at v3
  have hW : ∑ i ∈ range (n + 1) ×ˢ range (m + 1), ((i.1 : ℕ) : ℝ) ^ 2 ≤ (n + 1) * (m + 1) * (n : ℝ) ^ 2 := by
    rw [sum_product, mul_assoc]
    refine sum_range_le_const fun i hi => sum_range_le_const fun j hj => ?_
    have : (i : ℝ) ≤ n := by exact_mod_cast hi
    show (i : ℝ) ^ 2 ≤ _
    gcongr
  have key := deriv_total _ hsl (primeErr2_nonneg n m hκx hκy hε0) ((abs_nonneg _).trans (hco (0, 0) (by simp))) (by positivity : 0 ≤ 4 * M)
    (fun i _ => by
      rw [abs_mul]
      exact (mul_le_mul (tprime_le hux i.1) (Chebyshev.abs_eval_T_real_le_one i.2 huy) (abs_nonneg _) (by positivity)).trans (by simp)) hco
    (fun i _ => abs_next_le_2d hX hY (n := n) (m := m) hF.bound i.1 i.2) v3 hW
  have hv₀ : (∑ i ∈ range (n + 1) ×ˢ range (m + 1), CS2.next G n m sx.dom sy.dom i 0 * ((derivative (Chebyshev.T ℝ i.1)).eval (sx.dom.unit p) * (Chebyshev.T ℝ i.2).eval (sy.dom.unit q))) * sx.dom.unitSlope p = v₀ := by
    rw [← w1, mul_comm, sum_product]
    congr 1
    exact sum_congr rfl fun i _ => sum_congr rfl fun j _ => (mul_assoc _ _ _).symm
  rw [hv₀] at key
  have := abs_sub_le v v₀ d
  linarith

/-- C137, two variables, derivative in `y`, from the function to the derivative returned. -/
theorem C137_total_2d_y (hr : ToNearest rnd) (hc : CosClose cosR) (B : Build) {F G : ℝ → ℝ → ℝ} {n m : Nat} {s : CS2 ℝ} {X Y : Domain ℝ}
    (hs : Fresh2 F n m s X Y) (hX : X.Usual) (hY : Y.Usual) (hn : X.cond * ((n : ℝ) + 1) ^ 2 ≤ 2 ^ 40) (hm : Y.cond * ((m : ℝ) + 1) ^ 2 ≤ 2 ^ 40)
    (hnm : (n + 1) * (m + 1) ≤ 2 ^ 25) {ε φ Lx Ly M : ℝ} (hT : PolyClose ε (max n m) TR) (hε : ε ≤ 1)
    (hT' : PrimeNear ε (outside Y.cond) m TpR) (hF : Computes2 F G X Y φ Lx Ly M)
    {a : ℕ × ℕ → ℝ} (hG : Expansion2 a G X Y) (ha : Summable (fun k : ℕ × ℕ => |(k.2 : ℝ) ^ 2 * a k|)) :
    ∃ s', s.computeAijR rnd cosR TR B = .ok s' ∧ ∀ x y, X.Mem x → Y.Mem y → ∃ v d, s'.evaluateDerivativeYR rnd TpR B x y = .ok v ∧
      HasDerivWithinAt (fun t => G x t) d {t | Y.Mem t} y ∧
      |v - d| ≤ (2 * ∑' k : ℕ × ℕ, if k.1 ≤ n ∧ k.2 ≤ m then 0 else |(k.2 : ℝ) ^ 2 * a k|) * Y.unitSlope y +
        (n + 1) * (m + 1) * (m : ℝ) ^ 2 * ((1 + primeErr2 m n Y.cond X.cond ε) * coeffErr2 n m (X.cond * Lx + Y.cond * Ly) ε φ M +
          4 * M * primeErr2 m n Y.cond X.cond ε) * Y.unitSlope y := by
  have hε0 := PolyClose.nonneg hT
  obtain ⟨s₀, hs₀⟩ := hs.other G
  obtain ⟨s₀', g1, g2⟩ := C136_error_2d_y B hs₀ hX hY hG ha
  obtain ⟨sx₀, sy₀, ex₀, ey₀, h₀⟩ := hs₀.holds
  obtain ⟨s₁, g3, g4⟩ := CS2.computeAij_ok B h₀
  rw [g1] at g3
  injection g3 with g3
  subst g3
  obtain ⟨sx, sy, rfl, rfl, h⟩ := hs.holds
  obtain ⟨t, x, hx, hx'⟩ := abscissaeR_ok hr hc hX hn
  obtain ⟨u, y, hy, hy'⟩ := abscissaeR_ok hr hc hY hm
  obtain ⟨s', h1, h2⟩ := CS2.computeAijR_ok (TR := TR) B h hx hy
  refine ⟨s', h1, fun p q hp hq => ?_⟩
  obtain ⟨-, b2, b3, b4, b5, e0, b6, b7⟩ := h2
  have hκx := Domain.cond_ge hX
  have hκy := Domain.cond_ge hY
  obtain ⟨v, d', v1, v2, v3⟩ := C137_error_2d_y hr B (s := s') (by rw [b6, b2]) (by rw [b6, b3]) (by rw [b4]; exact hX) (by rw [b5]; exact hY)
    (by rw [b3, b5]; exact cond_sq hκy hm) hε0 (by rw [b3, b5]; exact hT') (x := p) (y := q) (by rw [b4]; exact hp) (by rw [b5]; exact hq)
  obtain ⟨v₀, d, w1, w2, w3⟩ := g2 p q hp hq
  refine ⟨v, d, v1, w2, ?_⟩
  rw [b2, b3, b4, b5] at v2 v3
  rw [CS2.derivY_ok B g4 (by rw [ex₀]; exact (Domain.mem_unit hX hp).1) (by rw [ey₀]; exact (Domain.mem_unit hY hq).1), ← dom_unitSlope, ex₀, ey₀] at w1
  injection w1 with w1
  have hux := unit_le hX hp
  have huy := unit_le hY hq
  have hsl := (Domain.unitSlope_pos hY hq).le
  have hM : 0 ≤ M := (abs_nonneg _).trans (hF.bound _ _ hp hq)
  have hco : ∀ i ∈ range (n + 1) ×ˢ range (m + 1), |s'.m_aij.entry i.1 i.2 - CS2.next G n m sx.dom sy.dom i 0| ≤
      coeffErr2 n m (sx.dom.cond * Lx + sy.dom.cond * Ly) ε φ M := fun i hi => by
    obtain ⟨hi1, hi2⟩ := mem_product.1 hi
    rw [mem_range] at hi1 hi2
    rw [b6]
    show |e0 (i.1, i.2) - _| ≤ _
    rw [b7 i.1 i.2 hi1 hi2]
    exact coeff_close_2d hr hX hY hnm hT hε hF hx' hy' (by omega) (by omega)
  have hd : d' = (∑ i ∈ range (n + 1) ×ˢ range (m + 1), s'.m_aij.entry i.1 i.2 * ((Chebyshev.T ℝ i.1).eval (sx.dom.unit p) * (derivative (Chebyshev.T ℝ i.2)).eval (sy.dom.unit q))) * sy.dom.unitSlope q := by
    refine v2.unique (HasDerivAt.comp q (h₂ := fun u => cheb2 n m s'.m_aij.entry (sx.dom.unit p) u) ?_ (Domain.hasDerivAt_unit hY hq))
    rw [sum_product]
    refine HasDerivAt.fun_sum fun i _ => HasDerivAt.fun_sum fun j _ => ?_
    rw [← mul_assoc]
    exact ((Chebyshev.T ℝ j).hasDerivAt _).const_mul _
  have hS : ∑ i ∈ range (n + 1), ∑ j ∈ range (m + 1), (j : ℝ) ^ 2 * |s'.m_aij.entry i j| =
      ∑ i ∈ range (n + 1) ×ˢ range (m + 1), ((i.2 : ℕ) : ℝ) ^ 2 * |s'.m_aij.entry i.1 i.2| := by rw [sum_product]
  rw [hd, hS] at v3
  have hW : ∑ i ∈ range (n + 1) ×ˢ range (m + 1), ((i.2 : ℕ) : ℝ) ^ 2 ≤ (n + 1) * (m + 1) * (m : ℝ) ^ 2 := by
    rw [sum_product, mul_assoc]
    refine sum_range_le_const fun i hi => sum_range_le_const fun j hj => ?_
    have : (j : ℝ) ≤ m := by exact_mod_cast hj
    show (j : ℝ) ^ 2 ≤ _
    gcongr
  have key := deriv_total _ hsl (primeErr2_nonneg m n hκy hκx hε0) ((abs_nonneg _).trans (hco (0, 0) (by simp))) (by positivity : 0 ≤ 4 * M)
    (fun i _ => by
      rw [abs_mul]
      exact (mul_le_mul (Chebyshev.abs_eval_T_real_le_one i.1 hux) (tprime_le huy i.2) (abs_nonneg _) (by positivity)).trans (by simp)) hco
    (fun i _ => abs_next_le_2d hX hY (n := n) (m := m) hF.bound i.1 i.2) v3 hW
  have hv₀ : (∑ i ∈ range (n + 1) ×ˢ range (m + 1), CS2.next G n m sx.dom sy.dom i 0 * ((Chebyshev.T ℝ i.1).eval (sx.dom.unit p) * (derivative (Chebyshev.T ℝ i.2)).eval (sy.dom.unit q))) * sy.dom.unitSlope q = v₀ := by
    rw [← w1, mul_comm, sum_product]
    congr 1
    exact sum_congr rfl fun i _ => sum_congr rfl fun j _ => (mul_assoc _ _ _).symm
  rw [hv₀] at key
  have := abs_sub_le v v₀ d
  linarith

/-! ## Three variables -/

/-- C137, three variables, derivative in `x`, from the function to the derivative returned. -/
theorem C137_total_3d_x (hr : ToNearest rnd) (hc : CosClose cosR) (B : Build) {F G : ℝ → ℝ → ℝ → ℝ} {n m l : Nat} {s : CS3 ℝ} {X Y Z : Domain ℝ}
    (hs : Fresh3 F n m l s X Y Z) (hX : X.Usual) (hY : Y.Usual) (hZ : Z.Usual) (hn : X.cond * ((n : ℝ) + 1) ^ 2 ≤ 2 ^ 40)
    (hm : Y.cond * ((m : ℝ) + 1) ^ 2 ≤ 2 ^ 40) (hl : Z.cond * ((l : ℝ) + 1) ^ 2 ≤ 2 ^ 40) (hnm : (n + 1) * (m + 1) * (l + 1) ≤ 2 ^ 25)
    {ε δ φ Lx Ly Lz M : ℝ} (hδx : outside X.cond ≤ δ) (hδy : outside Y.cond ≤ δ) (hδz : outside Z.cond ≤ δ)
    (hT : PolyNear ε δ (max n (max m l)) TR) (hε : ε ≤ 1) (hT' : PrimeNear ε δ (max n (max m l)) TpR) (hF : Computes3 F G X Y Z φ Lx Ly Lz M)
    {a : ℕ × ℕ × ℕ → ℝ} (hG : Expansion3 a G X Y Z) (ha : Summable (fun k : ℕ × ℕ × ℕ => |(k.1 : ℝ) ^ 2 * a k|)) :
    ∃ s', s.computeAijkR rnd cosR TR B = .ok s' ∧ ∀ x y z, X.Mem x → Y.Mem y → Z.Mem z →
      ∃ v d, s'.evaluateDerivativeXR rnd TR TpR B x y z = .ok v ∧ HasDerivWithinAt (fun t => G t y z) d {t | X.Mem t} x ∧
        |v - d| ≤ (2 * ∑' k : ℕ × ℕ × ℕ, if k.1 ≤ n ∧ k.2.1 ≤ m ∧ k.2.2 ≤ l then 0 else |(k.1 : ℝ) ^ 2 * a k|) * X.unitSlope x +
          (n + 1) * (m + 1) * (l + 1) * (n : ℝ) ^ 2 * ((1 + primeErr3 n m l X.cond Y.cond Z.cond ε) *
            coeffErr3 n m l (X.cond * Lx + Y.cond * Ly + Z.cond * Lz) ε φ M + 8 * M * primeErr3 n m l X.cond Y.cond Z.cond ε) * X.unitSlope x := by
  have hκx := Domain.cond_ge hX
  have hκy := Domain.cond_ge hY
  have hκz := Domain.cond_ge hZ
  have hTc := hT.close ((outside_nonneg hκx).trans hδx)
  have hε0 := PolyClose.nonneg hTc
  obtain ⟨s₀, hs₀⟩ := hs.other G
  obtain ⟨s₀', g1, g2⟩ := C136_error_3d_x B hs₀ hX hY hZ hG ha
  obtain ⟨sx₀, sy₀, sz₀, ex₀, ey₀, ez₀, h₀⟩ := hs₀.holds
  obtain ⟨s₁, g3, g4⟩ := CS3.computeAijk_ok B h₀
  rw [g1] at g3
  injection g3 with g3
  subst g3
  obtain ⟨sx, sy, sz, rfl, rfl, rfl, h⟩ := hs.holds
  obtain ⟨t, x, hx, hx'⟩ := abscissaeR_ok hr hc hX hn
  obtain ⟨u, y, hy, hy'⟩ := abscissaeR_ok hr hc hY hm
  obtain ⟨w, z, hz, hz'⟩ := abscissaeR_ok hr hc hZ hl
  obtain ⟨s', h1, h2⟩ := CS3.computeAijkR_ok (TR := TR) B h hx hy hz
  refine ⟨s', h1, fun p q o hp hq ho => ?_⟩
  obtain ⟨-, b2, b3, b4, b5, b6, b7, e0, b8, b9⟩ := h2
  obtain ⟨v, d', v1, v2, v3⟩ := C137_error_3d_x hr B (s := s') (by rw [b8, b4]; simp) (fun A hA => by
      rw [b8] at hA
      obtain ⟨c, -, rfl⟩ := List.mem_map.1 hA
      exact ⟨by rw [b2], by rw [b3]⟩) (by rw [b5]; exact hX) (by rw [b6]; exact hY) (by rw [b7]; exact hZ)
    (by rw [b2, b5]; exact cond_sq hκx hn) (by rw [b3, b6]; exact cond_sq hκy hm) (by rw [b4, b7]; exact cond_sq hκz hl)
    hε0 (by rw [b2, b5]; exact hT'.sub hδx (by omega)) (by rw [b3, b6]; exact hT.sub hδy (by omega)) (by rw [b4, b7]; exact hT.sub hδz (by omega))
    (x := p) (y := q) (z := o) (by rw [b5]; exact hp) (by rw [b6]; exact hq) (by rw [b7]; exact ho)
  obtain ⟨v₀, d, w1, w2, w3⟩ := g2 p q o hp hq ho
  refine ⟨v, d, v1, w2, ?_⟩
  rw [b2, b3, b4, b5, b6, b7] at v2 v3
  rw [CS3.derivX_ok B g4 (by rw [ex₀]; exact (Domain.mem_unit hX hp).1) (by rw [ey₀]; exact (Domain.mem_unit hY hq).1)
    (by rw [ez₀]; exact (Domain.mem_unit hZ ho).1), ← dom_unitSlope, ex₀, ey₀, ez₀] at w1
  injection w1 with w1
  have hux := unit_le hX hp
  have huy := unit_le hY hq
  have huz := unit_le hZ ho
  have hsl := (Domain.unitSlope_pos hX hp).le
  have hM : 0 ≤ M := (abs_nonneg _).trans (hF.bound _ _ _ hp hq ho)
  set b : Nat → Nat → Nat → ℝ := fun i j k => (s'.m_aijk[k]?.getD (Mat.zero 0 0)).entry i j with hb
  have hco : ∀ i ∈ range (n + 1) ×ˢ range (m + 1) ×ˢ range (l + 1), |b i.1 i.2.1 i.2.2 - CS3.next G n m l sx.dom sy.dom sz.dom i 0| ≤
      coeffErr3 n m l (sx.dom.cond * Lx + sy.dom.cond * Ly + sz.dom.cond * Lz) ε φ M := fun i hi => by
    obtain ⟨hi1, hi⟩ := mem_product.1 hi
    obtain ⟨hi2, hi3⟩ := mem_product.1 hi
    rw [mem_range] at hi1 hi2 hi3
    have hget : b i.1 i.2.1 i.2.2 = e0 (i.1, i.2.1, i.2.2) := by
      simp only [hb]
      rw [b8, List.getElem?_map, List.getElem?_range (by omega)]
      rfl
    rw [hget, b9 i.1 i.2.1 i.2.2 hi1 hi2 hi3]
    exact coeff_close_3d hr hX hY hZ hnm hTc hε hF hx' hy' hz' (by omega) (by omega) (by omega)
  have hd : d' = (∑ i ∈ range (n + 1) ×ˢ range (m + 1) ×ˢ range (l + 1), b i.1 i.2.1 i.2.2 * ((derivative (Chebyshev.T ℝ i.1)).eval (sx.dom.unit p) * (Chebyshev.T ℝ i.2.1).eval (sy.dom.unit q) * (Chebyshev.T ℝ i.2.2).eval (sz.dom.unit o))) * sx.dom.unitSlope p := by
    refine v2.unique (HasDerivAt.comp p (h₂ := fun u => cheb3 n m l b u (sy.dom.unit q) (sz.dom.unit o)) ?_ (Domain.hasDerivAt_unit hX hp))
    simp only [sum_product]
    refine HasDerivAt.fun_sum fun i _ => HasDerivAt.fun_sum fun j _ => HasDerivAt.fun_sum fun k _ => ?_
    rw [← mul_assoc, ← mul_assoc]
    exact ((((Chebyshev.T ℝ i).hasDerivAt _).const_mul _).mul_const _).mul_const _
  have hS : ∑ i ∈ range (n + 1), ∑ j ∈ range (m + 1), ∑ k ∈ range (l + 1), (i : ℝ) ^ 2 * |b i j k| =
      ∑ i ∈ range (n + 1) ×ˢ range (m + 1) ×ˢ range (l + 1), ((i.1 : ℕ) : ℝ) ^ 2 * |b i.1 i.2.1 i.2.2| := by simp only [sum_product]
  rw [hd, hS] at v3
  have hW : ∑ i ∈ range (n + 1) ×ˢ range (m + 1) ×ˢ range (l + 1), ((i.1 : ℕ) : ℝ) ^ 2 ≤ (n + 1) * (m + 1) * (l + 1) * (n : ℝ) ^ 2 := by
    rw [sum_product, mul_assoc, mul_assoc]
    refine sum_range_le_const fun i hi => ?_
    rw [sum_product]
    refine sum_range_le_const fun j hj => sum_range_le_const fun k hk => ?_
    have : (i : ℝ) ≤ n := by exact_mod_cast hi
    show (i : ℝ) ^ 2 ≤ _
    gcongr
  have key := deriv_total _ hsl (primeErr3_nonneg n m l hκx hκy hκz hε0) ((abs_nonneg _).trans (hco (0, 0, 0) (by simp))) (by positivity : 0 ≤ 8 * M)
    (fun i _ => by
      rw [abs_mul, abs_mul]
      exact (mul_le_mul (mul_le_mul (tprime_le hux i.1) (Chebyshev.abs_eval_T_real_le_one i.2.1 huy) (abs_nonneg _) (by positivity)) (Chebyshev.abs_eval_T_real_le_one i.2.2 huz) (abs_nonneg _) (by positivity)).trans (by simp)) hco
    (fun i _ => abs_next_le_3d hX hY hZ (n := n) (m := m) (l := l) hF.bound i.1 i.2.1 i.2.2) v3 hW
  have hv₀ : (∑ i ∈ range (n + 1) ×ˢ range (m + 1) ×ˢ range (l + 1), CS3.next G n m l sx.dom sy.dom sz.dom i 0 * ((derivative (Chebyshev.T ℝ i.1)).eval (sx.dom.unit p) * (Chebyshev.T ℝ i.2.1).eval (sy.dom.unit q) * (Chebyshev.T ℝ i.2.2).eval (sz.dom.unit o))) * sx.dom.unitSlope p = v₀ := by
    rw [← w1, mul_comm]
    congr 1
    simp only [sum_product]
    exact sum_congr rfl fun i _ => sum_congr rfl fun j _ => sum_congr rfl fun k _ => by ring
  rw [hv₀] at key
  have := abs_sub_le v v₀ d
  linarith

/-- C137, three variables, derivative in `y`, from the function to the derivative returned. -/
theorem C137_total_3d_y (hr : ToNearest rnd) (hc : CosClose cosR) (B : Build) {F G : ℝ → ℝ → ℝ → ℝ} {n m l : Nat} {s : CS3 ℝ} {X Y Z : Domain ℝ}
    (hs : Fresh3 F n m l s X Y Z) (hX : X.Usual) (hY : Y.Usual) (hZ : Z.Usual) (hn : X.cond * ((n : ℝ) + 1) ^ 2 ≤ 2 ^ 40)
    (hm : Y.cond * ((m : ℝ) + 1) ^ 2 ≤ 2 ^ 40) (hl : Z.cond * ((l : ℝ) + 1) ^ 2 ≤ 2 ^ 40) (hnm : (n + 1) * (m + 1) * (l + 1) ≤ 2 ^ 25)
    {ε δ φ Lx Ly Lz M : ℝ} (hδx : outside X.cond ≤ δ) (hδy : outside Y.cond ≤ δ) (hδz : outside Z.cond ≤ δ)
    (hT : PolyNear ε δ (max n (max m l)) TR) (hε : ε ≤ 1) (hT' : PrimeNear ε δ (max n (max m l)) TpR) (hF : Computes3 F G X Y Z φ Lx Ly Lz M)
    {a : ℕ × ℕ × ℕ → ℝ} (hG : Expansion3 a G X Y Z) (ha : Summable (fun k : ℕ × ℕ × ℕ => |(k.2.1 : ℝ) ^ 2 * a k|)) :
    ∃ s', s.computeAijkR rnd cosR TR B = .ok s' ∧ ∀ x y z, X.Mem x → Y.Mem y → Z.Mem z →
      ∃ v d, s'.evaluateDerivativeYR rnd TR TpR B x y z = .ok v ∧ HasDerivWithinAt (fun t => G x t z) d {t | Y.Mem t} y ∧
        |v - d| ≤ (2 * ∑' k : ℕ × ℕ × ℕ, if k.1 ≤ n ∧ k.2.1 ≤ m ∧ k.2.2 ≤ l then 0 else |(k.2.1 : ℝ) ^ 2 * a k|) * Y.unitSlope y +
          (n + 1) * (m + 1) * (l + 1) * (m : ℝ) ^ 2 * ((1 + primeErr3 n m l X.cond Y.cond Z.cond ε) *
            coeffErr3 n m l (X.cond * Lx + Y.cond * Ly + Z.cond * Lz) ε φ M + 8 * M * primeErr3 n m l X.cond Y.cond Z.cond ε) * Y.unitSlope y := by
  have hκx := Domain.cond_ge hX
  have hκy := Domain.cond_ge hY
  have hκz := Domain.cond_ge hZ
  have hTc := hT.close ((outside_nonneg hκx).trans hδx)
  have hε0 := PolyClose.nonneg hTc
  obtain ⟨s₀, hs₀⟩ := hs.other G
  obtain ⟨s₀', g1, g2⟩ := C136_error_3d_y B hs₀ hX hY hZ hG ha
  obtain ⟨sx₀, sy₀, sz₀, ex₀, ey₀, ez₀, h₀⟩ := hs₀.holds
  obtain ⟨s₁, g3, g4⟩ := CS3.computeAijk_ok B h₀
  rw [g1] at g3
  injection g3 with g3
  subst g3
  obtain ⟨sx, sy, sz, rfl, rfl, rfl, h⟩ := hs.holds
  obtain ⟨t, x, hx, hx'⟩ := abscissaeR_ok hr hc hX hn
  obtain ⟨u, y, hy, hy'⟩ := abscissaeR_ok hr hc hY hm
  obtain ⟨w, z, hz, hz'⟩ := abscissaeR_ok hr hc hZ hl
  obtain ⟨s', h1, h2⟩ := CS3.computeAijkR_ok (TR := TR) B h hx hy hz
  refine ⟨s', h1, fun p q o hp hq ho => ?_⟩
  obtain ⟨-, b2, b3, b4, b5, b6, b7, e0, b8, b9⟩ := h2
  obtain ⟨v, d', v1, v2, v3⟩ := C137_error_3d_y hr B (s := s') (by rw [b8, b4]; simp) (fun A hA => by
      rw [b8] at hA
      obtain ⟨c, -, rfl⟩ := List.mem_map.1 hA
      exact ⟨by rw [b2], by rw [b3]⟩) (by rw [b5]; exact hX) (by rw [b6]; exact hY) (by rw [b7]; exact hZ)
    (by rw [b2, b5]; exact cond_sq hκx hn) (by rw [b3, b6]; exact cond_sq hκy hm) (by rw [b4, b7]; exact cond_sq hκz hl)
    hε0 (by rw [b3, b6]; exact hT'.sub hδy (by omega)) (by rw [b2, b5]; exact hT.sub hδx (by omega)) (by rw [b4, b7]; exact hT.sub hδz (by omega))
    (x := p) (y := q) (z := o) (by rw [b5]; exact hp) (by rw [b6]; exact hq) (by rw [b7]; exact ho)
  obtain ⟨v₀, d, w1, w2, w3⟩ := g2 p q o hp hq ho
  refine ⟨v, d, v1, w2, ?_⟩
  rw [b2, b3, b4, b5, b6, b7] at v2 v3
  rw [CS3.derivY_ok B g4 (by rw [ex₀]; exact (Domain.mem_unit hX hp).1) (by rw [ey₀]; exact (Domain.mem_unit hY hq).1)
    (by rw [ez₀]; exact (Domain.mem_unit hZ ho).1), ← dom_unitSlope, ex₀, ey₀, ez₀] at w1
  injection w1 with w1
  have hux := unit_le hX hp
  have huy := unit_le hY hq
  have huz := unit_le hZ ho
  have hsl := (Domain.unitSlope_pos hY hq).le
  have hM : 0 ≤ M := (abs_nonneg _).trans (hF.bound _ _ _ hp hq ho)
  set b : Nat → Nat → Nat → ℝ := fun i j k => (s'.m_aijk[k]?.getD (Mat.zero 0 0)).entry i j with hb
  have hco : ∀ i ∈ range (n + 1) ×ˢ range (m + 1) ×ˢ range (l + 1), |b i.1 i.2.1 i.2.2 - CS3.next G n m l sx.dom sy.dom sz.dom i 0| ≤
      coeffErr3 n m l (sx.dom.cond * Lx + sy.dom.cond * Ly + sz.dom.cond * Lz) ε φ M := fun i hi => by
    obtain ⟨hi1, hi⟩ := mem_product.1 hi
    obtain ⟨hi2, hi3⟩ := mem_product.1 hi
    rw [mem_range] at hi1 hi2 hi3
    have hget : b i.1 i.2.1 i.2.2 = e0 (i.1, i.2.1, i.2.2) := by
      simp only [hb]
      rw [b8, List.getElem?_map, List.getElem?_range (by omega)]
      rfl
    rw [hget, b9 i.1 i.2.1 i.2.2 hi1 hi2 hi3]
    exact coeff_close_3d hr hX hY hZ hnm hTc hε hF hx' hy' hz' (by omega) (by omega) (by omega)
  have hd : d' = (∑ i ∈ range (n + 1) ×ˢ range (m + 1) ×ˢ range (l + 1), b i.1 i.2.1 i.2.2 * ((Chebyshev.T ℝ i.1).eval (sx.dom.unit p) * (derivative (Chebyshev.T ℝ i.2.1)).eval (sy.dom.unit q) * (Chebyshev.T ℝ i.2.2).eval (sz.dom.unit o))) * sy.dom.unitSlope q := by
    refine v2.unique (HasDerivAt.comp q (h₂ := fun u => cheb3 n m l b (sx.dom.unit p) u (sz.dom.unit o)) ?_ (Domain.hasDerivAt_unit hY hq))
    simp only [sum_product]
    refine HasDerivAt.fun_sum fun i _ => HasDerivAt.fun_sum fun j _ => HasDerivAt.fun_sum fun k _ => ?_
    rw [← mul_assoc, ← mul_assoc]
    exact (((Chebyshev.T ℝ j).hasDerivAt _).const_mul _).mul_const _
  have hS : ∑ i ∈ range (n + 1), ∑ j ∈ range (m + 1), ∑ k ∈ range (l + 1), (j : ℝ) ^ 2 * |b i j k| =
      ∑ i ∈ range (n + 1) ×ˢ range (m + 1) ×ˢ range (l + 1), ((i.2.1 : ℕ) : ℝ) ^ 2 * |b i.1 i.2.1 i.2.2| := by simp only [sum_product]
  rw [hd, hS] at v3
  have hW : ∑ i ∈ range (n + 1) ×ˢ range (m + 1) ×ˢ range (l + 1), ((i.2.1 : ℕ) : ℝ) ^ 2 ≤ (n + 1) * (m + 1) * (l + 1) * (m : ℝ) ^ 2 := by
    rw [sum_product, mul_assoc, mul_assoc]
    refine sum_range_le_const fun i hi => ?_
    rw [sum_product]
    refine sum_range_le_const fun j hj => sum_range_le_const fun k hk => ?_
    have : (j : ℝ) ≤ m := by exact_mod_cast hj
    show (j : ℝ) ^ 2 ≤ _
    gcongr
  have key := deriv_total _ hsl (primeErr3_nonneg n m l hκx hκy hκz hε0) ((abs_nonneg _).trans (hco (0, 0, 0) (by simp))) (by positivity : 0 ≤ 8 * M)
    (fun i _ => by
      rw [abs_mul, abs_mul]
      exact (mul_le_mul (mul_le_mul (Chebyshev.abs_eval_T_real_le_one i.1 hux) (tprime_le huy i.2.1) (abs_nonneg _) (by positivity)) (Chebyshev.abs_eval_T_real_le_one i.2.2 huz) (abs_nonneg _) (by positivity)).trans (by simp)) hco
    (fun i _ => abs_next_le_3d hX hY hZ (n := n) (m := m) (l := l) hF.bound i.1 i.2.1 i.2.2) v3 hW
  have hv₀ : (∑ i ∈ range (n + 1) ×ˢ range (m + 1) ×ˢ range (l + 1), CS3.next G n m l sx.dom sy.dom sz.dom i 0 * ((Chebyshev.T ℝ i.1).eval (sx.dom.unit p) * (derivative (Chebyshev.T ℝ i.2.1)).eval (sy.dom.unit q) * (Chebyshev.T ℝ i.2.2).eval (sz.dom.unit o))) * sy.dom.unitSlope q = v₀ := by
    rw [← w1, mul_comm]
    congr 1
    simp only [sum_product]
    exact sum_congr rfl fun i _ => sum_congr rfl fun j _ => sum_congr rfl fun k _ => by ring
  rw [hv₀] at key
  have := abs_sub_le v v₀ d
  linarith

/-- C137, three variables, derivative in `z`, from the function to the derivative returned. -/
theorem C137_total_3d_z (hr : ToNearest rnd) (hc : CosClose cosR) (B : Build) {F G : ℝ → ℝ → ℝ → ℝ} {n m l : Nat} {s : CS3 ℝ} {X Y Z : Domain ℝ}
    (hs : Fresh3 F n m l s X Y Z) (hX : X.Usual) (hY : Y.Usual) (hZ : Z.Usual) (hn : X.cond * ((n : ℝ) + 1) ^ 2 ≤ 2 ^ 40)
    (hm : Y.cond * ((m : ℝ) + 1) ^ 2 ≤ 2 ^ 40) (hl : Z.cond * ((l : ℝ) + 1) ^ 2 ≤ 2 ^ 40) (hnm : (n + 1) * (m + 1) * (l + 1) ≤ 2 ^ 25)
    {ε δ φ Lx Ly Lz M : ℝ} (hδx : outside X.cond ≤ δ) (hδy : outside Y.cond ≤ δ) (hδz : outside Z.cond ≤ δ)
    (hT : PolyNear ε δ (max n (max m l)) TR) (hε : ε ≤ 1) (hT' : PrimeNear ε δ (max n (max m l)) TpR) (hF : Computes3 F G X Y Z φ Lx Ly Lz M)
    {a : ℕ × ℕ × ℕ → ℝ} (hG : Expansion3 a G X Y Z) (ha : Summable (fun k : ℕ × ℕ × ℕ => |(k.2.2 : ℝ) ^ 2 * a k|)) :
    ∃ s', s.computeAijkR rnd cosR TR B = .ok s' ∧ ∀ x y z, X.Mem x → Y.Mem y → Z.Mem z →
      ∃ v d, s'.evaluateDerivativeZR rnd TR TpR B x y z = .ok v ∧ HasDerivWithinAt (fun t => G x y t) d {t | Z.Mem t} z ∧
        |v - d| ≤ (2 * ∑' k : ℕ × ℕ × ℕ, if k.1 ≤ n ∧ k.2.1 ≤ m ∧ k.2.2 ≤ l then 0 else |(k.2.2 : ℝ) ^ 2 * a k|) * Z.unitSlope z +
          (n + 1) * (m + 1) * (l + 1) * (l : ℝ) ^ 2 * ((1 + primeErr3 n m l X.cond Y.cond Z.cond ε) *
            coeffErr3 n m l (X.cond * Lx + Y.cond * Ly + Z.cond * Lz) ε φ M + 8 * M * primeErr3 n m l X.cond Y.cond Z.cond ε) * Z.unitSlope z := by
  have hκx := Domain.cond_ge hX
  have hκy := Domain.cond_ge hY
  have hκz := Domain.cond_ge hZ
  have hTc := hT.close ((outside_nonneg hκx).trans hδx)
  have hε0 := PolyClose.nonneg hTc
  obtain ⟨s₀, hs₀⟩ := hs.other G
  obtain ⟨s₀', g1, g2⟩ := C136_error_3d_z B hs₀ hX hY hZ hG ha
  obtain ⟨sx₀, sy₀, sz₀, ex₀, ey₀, ez₀, h₀⟩ := hs₀.holds
  obtain ⟨s₁, g3, g4⟩ := CS3.computeAijk_ok B h₀
  rw [g1] at g3
  injection g3 with g3
  subst g3
  obtain ⟨sx, sy, sz, rfl, rfl, rfl, h⟩ := hs.holds
  obtain ⟨t, x, hx, hx'⟩ := abscissaeR_ok hr hc hX hn
  obtain ⟨u, y, hy, hy'⟩ := abscissaeR_ok hr hc hY hm
  obtain ⟨w, z, hz, hz'⟩ := abscissaeR_ok hr hc hZ hl
  obtain ⟨s', h1, h2⟩ := CS3.computeAijkR_ok (TR := TR) B h hx hy hz
  refine ⟨s', h1, fun p q o hp hq ho => ?_⟩
  obtain ⟨-, b2, b3, b4, b5, b6, b7, e0, b8, b9⟩ := h2
  obtain ⟨v, d', v1, v2, v3⟩ := C137_error_3d_z hr B (s := s') (by rw [b8, b4]; simp) (fun A hA => by
      rw [b8] at hA
      obtain ⟨c, -, rfl⟩ := List.mem_map.1 hA
      exact ⟨by rw [b2], by rw [b3]⟩) (by rw [b5]; exact hX) (by rw [b6]; exact hY) (by rw [b7]; exact hZ)
    (by rw [b2, b5]; exact cond_sq hκx hn) (by rw [b3, b6]; exact cond_sq hκy hm) (by rw [b4, b7]; exact cond_sq hκz hl)
    hε0 (by rw [b4, b7]; exact hT'.sub hδz (by omega)) (by rw [b2, b5]; exact hT.sub hδx (by omega)) (by rw [b3, b6]; exact hT.sub hδy (by omega))
    (x := p) (y := q) (z := o) (by rw [b5]; exact hp) (by rw [b6]; exact hq) (by rw [b7]; exact ho)
  obtain ⟨v₀, d, w1, w2, w3⟩ := g2 p q o hp hq ho
  refine ⟨v, d, v1, w2, ?_⟩
  rw [b2, b3, b4, b5, b6, b7] at v2 v3
  rw [CS3.derivZ_ok B g4 (by rw [ex₀]; exact (Domain.mem_unit hX hp).1) (by rw [ey₀]; exact (Domain.mem_unit hY hq).1)
    (by rw [ez₀]; exact (Domain.mem_unit hZ ho).1), ← dom_unitSlope, ex₀, ey₀, ez₀] at w1
  injection w1 with w1
  have hux := unit_le hX hp
  have huy := unit_le hY hq
  have huz := unit_le hZ ho
  have hsl := (Domain.unitSlope_pos hZ ho).le
  have hM : 0 ≤ M := (abs_nonneg _).trans (hF.bound _ _ _ hp hq ho)
  set b : Nat → Nat → Nat → ℝ := fun i j k => (s'.m_aijk[k]?.getD (Mat.zero 0 0)).entry i j with hb
  have hco : ∀ i ∈ range (n + 1) ×ˢ range (m + 1) ×ˢ range (l + 1), |b i.1 i.2.1 i.2.2 - CS3.next G n m l sx.dom sy.dom sz.dom i 0| ≤
      coeffErr3 n m l (sx.dom.cond * Lx + sy.dom.cond * Ly + sz.dom.cond * Lz) ε φ M := fun i hi => by
    obtain ⟨hi1, hi⟩ := mem_product.1 hi
    obtain ⟨hi2, hi3⟩ := mem_product.1 hi
    rw [mem_range] at hi1 hi2 hi3
    have hget : b i.1 i.2.1 i.2.2 = e0 (i.1, i.2.1, i.2.2) := by
      simp only [hb]
      rw [b8, List.getElem?_map, List.getElem?_range (by omega)]
      rfl
    rw [hget, b9 i.1 i.2.1 i.2.2 hi1 hi2 hi3]
    exact coeff_close_3d hr hX hY hZ hnm hTc hε hF hx' hy' hz' (by omega) (by omega) (by omega)
  have hd : d' = (∑ i ∈ range (n + 1) ×ˢ range (m + 1) ×ˢ range (l + 1), b i.1 i.2.1 i.2.2 * ((Chebyshev.T ℝ i.1).eval (sx.dom.unit p) * (Chebyshev.T ℝ i.2.1).eval (sy.dom.unit q) * (derivative (Chebyshev.T ℝ i.2.2)).eval (sz.dom.unit o))) * sz.dom.unitSlope o := by
    refine v2.unique (HasDerivAt.comp o (h₂ := fun u => cheb3 n m l b (sx.dom.unit p) (sy.dom.unit q) u) ?_ (Domain.hasDerivAt_unit hZ ho))
    simp only [sum_product]
    refine HasDerivAt.fun_sum fun i _ => HasDerivAt.fun_sum fun j _ => HasDerivAt.fun_sum fun k _ => ?_
    rw [← mul_assoc, ← mul_assoc]
    exact ((Chebyshev.T ℝ k).hasDerivAt _).const_mul _
  have hS : ∑ i ∈ range (n + 1), ∑ j ∈ range (m + 1), ∑ k ∈ range (l + 1), (k : ℝ) ^ 2 * |b i j k| =
      ∑ i ∈ range (n + 1) ×ˢ range (m + 1) ×ˢ range (l + 1), ((i.2.2 : ℕ) : ℝ) ^ 2 * |b i.1 i.2.1 i.2.2| := by simp only [sum_product]
  rw [hd, hS] at v3
  have hW : ∑ i ∈ range (n + 1) ×ˢ range (m + 1) ×ˢ range (l + 1), ((i.2.2 : ℕ) : ℝ) ^ 2 ≤ (n + 1) * (m + 1) * (l + 1) * (l : ℝ) ^ 2 := by
    rw [sum_product, mul_assoc, mul_assoc]
    refine sum_range_le_const fun i hi => ?_
    rw [sum_product]
    refine sum_range_le_const fun j hj => sum_range_le_const fun k hk => ?_
    have : (k : ℝ) ≤ l := by exact_mod_cast hk
    show (k : ℝ) ^ 2 ≤ _
    gcongr
  have key := deriv_total _ hsl (primeErr3_nonneg n m l hκx hκy hκz hε0) ((abs_nonneg _).trans (hco (0, 0, 0) (by simp))) (by positivity : 0 ≤ 8 * M)
    (fun i _ => by
      rw [abs_mul, abs_mul]
      exact (mul_le_mul (mul_le_mul (Chebyshev.abs_eval_T_real_le_one i.1 hux) (Chebyshev.abs_eval_T_real_le_one i.2.1 huy) (abs_nonneg _) (by positivity)) (tprime_le huz i.2.2) (abs_nonneg _) (by positivity)).trans (by simp)) hco
    (fun i _ => abs_next_le_3d hX hY hZ (n := n) (m := m) (l := l) hF.bound i.1 i.2.1 i.2.2) v3 hW
  have hv₀ : (∑ i ∈ range (n + 1) ×ˢ range (m + 1) ×ˢ range (l + 1), CS3.next G n m l sx.dom sy.dom sz.dom i 0 * ((Chebyshev.T ℝ i.1).eval (sx.dom.unit p) * (Chebyshev.T ℝ i.2.1).eval (sy.dom.unit q) * (derivative (Chebyshev.T ℝ i.2.2)).eval (sz.dom.unit o))) * sz.dom.unitSlope o = v₀ := by
    rw [← w1, mul_comm]
    congr 1
    simp only [sum_product]
    exact sum_congr rfl fun i _ => sum_congr rfl fun j _ => sum_congr rfl fun k _ => by ring
  rw [hv₀] at key
  have := abs_sub_le v v₀ d
  linarith

/-! ## Concrete cases -/

theorem clamp_near {t δ : ℝ} (hδ : 0 ≤ δ) (ht : |t| ≤ 1 + δ) : ∃ u : ℝ, |u| ≤ 1 ∧ |t - u| ≤ δ := by
  obtain ⟨h1, h2⟩ := abs_le.1 ht
  rcases le_total t 1 with h | h
  · rcases le_total (-1) t with h' | h'
    · exact ⟨t, abs_le.2 ⟨h', h⟩, by simpa using hδ⟩
    · exact ⟨-1, by norm_num, abs_le.2 ⟨by linarith, by linarith⟩⟩
  · exact ⟨1, by norm_num, abs_le.2 ⟨by linarith, by linarith⟩⟩

theorem roundNearest_near {y q : ℝ} (hy : |y| ≤ q) : |roundNearest y - y| ≤ q / 2 ^ 53 := by
  have := toNearest_err roundNearest_toNearest y
  rw [abs_sub_comm]
  refine this.trans ?_
  gcongr

/-- Polynomials rounded to the nearest double. -/
theorem polyNear_round {δ : ℝ} (hδ : 0 ≤ δ) (n : Nat) (hn : δ * n ^ 2 ≤ 1) :
    PolyNear (3 / 2 ^ 53) δ n (fun i t => roundNearest ((Chebyshev.T ℝ i).eval t)) := fun i hi t ht => by
  obtain ⟨u, hu, htu⟩ := clamp_near hδ ht
  refine roundNearest_near ?_
  have hi' : (i : ℝ) ≤ n := by exact_mod_cast hi
  have h0 : δ * (i : ℝ) ^ 2 ≤ 1 := (mul_le_mul_of_nonneg_left (by gcongr) hδ).trans hn
  have h1 := chebT_near hu htu i h0
  have h2 := Chebyshev.abs_eval_T_real_le_one i hu
  rw [← chebT_eq] at h2 ⊢
  have h3 := abs_add_le (chebT i t - chebT i u) (chebT i u)
  rw [sub_add_cancel] at h3
  nlinarith

/-- Derivatives of the polynomials rounded to the nearest double. -/
theorem primeNear_round {δ : ℝ} (hδ : 0 ≤ δ) (n : Nat) (hn : δ * n ^ 2 ≤ 1) :
    PrimeNear (3 / 2 ^ 53) δ n (fun i t => roundNearest ((derivative (Chebyshev.T ℝ i)).eval t)) := fun i hi t ht => by
  obtain ⟨u, hu, htu⟩ := clamp_near hδ ht
  have hi' : (i : ℝ) ≤ n := by exact_mod_cast hi
  have h0 : δ * (i : ℝ) ^ 2 ≤ 1 := (mul_le_mul_of_nonneg_left (by gcongr) hδ).trans hn
  have h1 := abs_chebTPrime_near hu htu i h0
  rw [chebTPrime_eq] at h1
  refine (roundNearest_near h1).trans ?_
  have : (0 : ℝ) ≤ (i : ℝ) ^ 2 := by positivity
  rw [div_mul_eq_mul_div]
  gcongr
  norm_num

theorem cond_pm : (Domain.segment (-1 : ℝ) 1).cond = 2 := by norm_num [Domain.cond]

theorem slope_pm (x : ℝ) : (Domain.segment (-1 : ℝ) 1).unitSlope x = 1 := by norm_num [Domain.unitSlope]

theorem outside_two : outside 2 = 16 / 2 ^ 53 := by norm_num [outside]

/-- The series `1 + 2 T_1 - T_2` on `[-1, 3]`, at the end `3`: the derivative is `-1`. -/
example (B : Build) (F : ℝ → ℝ) : ∃ v, (⟨F, 2, .closed (-1) 3, [1, 2, -1]⟩ : CS1 ℝ).evaluateDerivativeXR roundNearest
    (fun i t => roundNearest ((derivative (Chebyshev.T ℝ i)).eval t)) B 3 = .ok v ∧ |v - (-1)| ≤ 1 / 10 ^ 11 := by
  have hκ : (Domain.segment (-1 : ℝ) 3).cond = 3 := by norm_num [Domain.cond]
  have ho : outside 3 = 24 / 2 ^ 53 := by norm_num [outside]
  have hX : (Domain.segment (-1 : ℝ) 3).Usual := show (-1 : ℝ) < 3 by norm_num
  have hx : (Domain.segment (-1 : ℝ) 3).Mem 3 := ⟨by norm_num, le_rfl⟩
  obtain ⟨v, d, h1, h2, h3⟩ := C137_error_1d roundNearest_toNearest B (s := ⟨F, 2, .closed (-1) 3, [1, 2, -1]⟩) rfl hX
    (show (Domain.segment (-1 : ℝ) 3).cond * ((2 : ℕ) : ℝ) ^ 2 ≤ 2 ^ 50 by rw [hκ]; norm_num) (ε := 3 / 2 ^ 53) (by norm_num)
    (show PrimeNear _ (outside (Domain.segment (-1 : ℝ) 3).cond) 2 _ by
      rw [hκ]
      exact primeNear_round (by rw [ho]; norm_num) 2 (by rw [ho]; norm_num)) (x := 3) hx
  refine ⟨v, h1, ?_⟩
  have hd : d = -1 := by
    have h4 : HasDerivAt (fun u : ℝ => 2 * u ^ 2 - 1) (2 * (2 * (1 : ℝ))) 1 := by
      simpa using (((hasDerivAt_pow 2 (1 : ℝ)).const_mul 2).sub_const 1)
    have hu : (Domain.segment (-1 : ℝ) 3).unit 3 = 1 := by norm_num [Domain.unit]
    have h5 : HasDerivAt (fun u : ℝ => cheb1 2 (fun i => [1, 2, -1].getD i 0) u) (-2) ((Domain.segment (-1 : ℝ) 3).unit 3) := by
      rw [hu]
      have : (fun u : ℝ => cheb1 2 (fun i => [1, 2, -1].getD i 0) u) = fun u => 1 + 2 * u - (2 * u ^ 2 - 1) := by
        funext u
        simp [cheb1, sum_range_succ, Chebyshev.T_two]
        ring
      rw [this]
      have := (((hasDerivAt_id (1 : ℝ)).const_mul 2).const_add 1).sub h4
      norm_num at this
      exact this
    have h6 := h2.unique (h5.comp 3 (Domain.hasDerivAt_unit hX hx))
    rw [h6]
    norm_num [Domain.unitSlope]
  rw [hd] at h3
  refine h3.trans ?_
  show (polyFactor 2 (Domain.segment (-1 : ℝ) 3).cond _ * _ - 1) * ((Domain.segment (-1 : ℝ) 3).unitSlope 3 * _) ≤ _
  rw [hκ]
  norm_num [polyFactor, Domain.unitSlope, sum_range_succ]

/-- The coefficients of the square: `x^2 = (T_0 + T_2) / 2`. -/
noncomputable def sqCoef (k : ℕ) : ℝ := if k = 0 ∨ k = 2 then 1 / 2 else 0

theorem sqCoef_zero {k : ℕ} (hk : k ∉ range 3) : sqCoef k = 0 := by
  rw [mem_range] at hk
  exact if_neg (by omega)

theorem sqCoef_sum (u : ℝ) : ∑ k ∈ range 3, sqCoef k * (Chebyshev.T ℝ k).eval u = u ^ 2 := by
  simp [sum_range_succ, sqCoef, Chebyshev.T_two]
  ring

theorem unit_pm (x : ℝ) : (Domain.segment (-1 : ℝ) 1).unit x = x := by
  simp only [Domain.unit]
  ring

theorem sq_expansion_1d : Expansion1 sqCoef (fun x => x ^ 2) (.segment (-1) 1) := by
  refine ⟨summable_of_ne_finset_zero (s := range 3) fun k hk => by rw [sqCoef_zero hk, abs_zero], fun x _ => ?_⟩
  show HasSum _ (x ^ 2)
  rw [unit_pm, ← sqCoef_sum x]
  exact hasSum_sum_of_ne_finset_zero fun k hk => by rw [sqCoef_zero hk, zero_mul]

theorem sqCoef_zero2 {k : ℕ × ℕ} (hk : k ∉ range 3 ×ˢ range 3) : sqCoef k.1 * sqCoef k.2 = 0 := by
  rw [mem_product, not_and_or] at hk
  rcases hk with hk | hk <;> simp [sqCoef_zero hk]

theorem sqCoef_zero3 {k : ℕ × ℕ × ℕ} (hk : k ∉ range 3 ×ˢ range 3 ×ˢ range 3) : sqCoef k.1 * (sqCoef k.2.1 * sqCoef k.2.2) = 0 := by
  rw [mem_product, not_and_or] at hk
  rcases hk with hk | hk
  · simp [sqCoef_zero hk]
  · rw [sqCoef_zero2 hk, mul_zero]

theorem sq_expansion_2d : Expansion2 (fun k => sqCoef k.1 * sqCoef k.2) (fun x y => x ^ 2 * y ^ 2) (.segment (-1) 1) (.segment (-1) 1) := by
  refine ⟨summable_of_ne_finset_zero (s := range 3 ×ˢ range 3) fun k hk => by simp only [sqCoef_zero2 hk, abs_zero], fun x y _ _ => ?_⟩
  have e : x ^ 2 * y ^ 2 = ∑ k ∈ range 3 ×ˢ range 3, sqCoef k.1 * sqCoef k.2 * (Chebyshev.T ℝ k.1).eval x * (Chebyshev.T ℝ k.2).eval y := by
    rw [← sqCoef_sum x, ← sqCoef_sum y, sum_mul_sum, sum_product]
    exact sum_congr rfl fun i _ => sum_congr rfl fun j _ => by ring
  show HasSum _ (x ^ 2 * y ^ 2)
  rw [unit_pm, unit_pm, e]
  exact hasSum_sum_of_ne_finset_zero fun k hk => by simp only [sqCoef_zero2 hk, zero_mul]

theorem sq_expansion_3d : Expansion3 (fun k => sqCoef k.1 * (sqCoef k.2.1 * sqCoef k.2.2)) (fun x y z => x ^ 2 * (y ^ 2 * z ^ 2))
    (.segment (-1) 1) (.segment (-1) 1) (.segment (-1) 1) := by
  refine ⟨summable_of_ne_finset_zero (s := range 3 ×ˢ range 3 ×ˢ range 3) fun k hk => by simp only [sqCoef_zero3 hk, abs_zero], fun x y z _ _ _ => ?_⟩
  have e : x ^ 2 * (y ^ 2 * z ^ 2) = ∑ k ∈ range 3 ×ˢ range 3 ×ˢ range 3, sqCoef k.1 * (sqCoef k.2.1 * sqCoef k.2.2) * (Chebyshev.T ℝ k.1).eval x *
      (Chebyshev.T ℝ k.2.1).eval y * (Chebyshev.T ℝ k.2.2).eval z := by
    rw [← sqCoef_sum x, ← sqCoef_sum y, ← sqCoef_sum z, sum_mul_sum, sum_mul_sum]
    simp only [sum_product, mul_sum]
    exact sum_congr rfl fun i _ => sum_congr rfl fun j _ => sum_congr rfl fun k _ => by ring
  show HasSum _ (x ^ 2 * (y ^ 2 * z ^ 2))
  rw [unit_pm, unit_pm, unit_pm, e]
  exact hasSum_sum_of_ne_finset_zero fun k hk => by simp only [sqCoef_zero3 hk, zero_mul]

theorem sq_mem {x : ℝ} (hx : (Domain.segment (-1 : ℝ) 1).Mem x) : 0 ≤ x ^ 2 ∧ x ^ 2 ≤ 1 := ⟨sq_nonneg x, (sq_le_one_iff_abs_le_one x).2 (abs_le.2 hx)⟩

theorem sq_lip {x y : ℝ} (hx : (Domain.segment (-1 : ℝ) 1).Mem x) (hy : (Domain.segment (-1 : ℝ) 1).Mem y) : |x ^ 2 - y ^ 2| ≤ 2 * |x - y| := by
  have h1 : |x + y| ≤ 2 := abs_le.2 ⟨by linarith [hx.1, hy.1], by linarith [hx.2, hy.2]⟩
  rw [show x ^ 2 - y ^ 2 = (x + y) * (x - y) by ring, abs_mul]
  exact mul_le_mul_of_nonneg_right h1 (abs_nonneg _)

theorem sq_computes_1d : Computes1 (fun x => roundNearest (x ^ 2)) (fun x => x ^ 2) (.segment (-1) 1) (1 / 2 ^ 53) 2 1 where
  rate := zero_le_two
  close x hx := roundNearest_close (abs_le.2 ⟨by linarith [sq_mem hx], (sq_mem hx).2⟩)
  lipschitz x y hx hy := by
    rw [unit_pm, unit_pm]
    exact sq_lip hx hy
  bound x hx := abs_le.2 ⟨by linarith [sq_mem hx], (sq_mem hx).2⟩

theorem prod_lip {a a' b b' α β : ℝ} (ha : |a - a'| ≤ α) (hb : |b - b'| ≤ β) (h1 : 0 ≤ b ∧ b ≤ 1) (h2 : 0 ≤ a' ∧ a' ≤ 1) : |a * b - a' * b'| ≤ α + β := by
  rw [show a * b - a' * b' = (a - a') * b + a' * (b - b') by ring]
  refine (abs_add_le _ _).trans (add_le_add ?_ ?_)
  · rw [abs_mul, abs_of_nonneg h1.1]
    exact (mul_le_of_le_one_right (abs_nonneg _) h1.2).trans ha
  · rw [abs_mul, abs_of_nonneg h2.1]
    exact (mul_le_of_le_one_left (abs_nonneg _) h2.2).trans hb

theorem prod_unit {a b : ℝ} (ha : 0 ≤ a ∧ a ≤ 1) (hb : 0 ≤ b ∧ b ≤ 1) : 0 ≤ a * b ∧ a * b ≤ 1 :=
  ⟨mul_nonneg ha.1 hb.1, mul_le_one₀ ha.2 hb.1 hb.2⟩

theorem sq_computes_2d : Computes2 (fun x y => roundNearest (x ^ 2 * y ^ 2)) (fun x y => x ^ 2 * y ^ 2) (.segment (-1) 1) (.segment (-1) 1)
    (1 / 2 ^ 53) 2 2 1 where
  rate := ⟨zero_le_two, zero_le_two⟩
  close x y hx hy := by
    have := prod_unit (sq_mem hx) (sq_mem hy)
    exact roundNearest_close (abs_le.2 ⟨by linarith, this.2⟩)
  lipschitz x x' y y' hx hx' hy hy' := by
    simp only [unit_pm]
    exact prod_lip (sq_lip hx hx') (sq_lip hy hy') (sq_mem hy) (sq_mem hx')
  bound x y hx hy := by
    have := prod_unit (sq_mem hx) (sq_mem hy)
    exact abs_le.2 ⟨by linarith, this.2⟩

theorem sq_computes_3d : Computes3 (fun x y z => roundNearest (x ^ 2 * (y ^ 2 * z ^ 2))) (fun x y z => x ^ 2 * (y ^ 2 * z ^ 2)) (.segment (-1) 1)
    (.segment (-1) 1) (.segment (-1) 1) (1 / 2 ^ 53) 2 2 2 1 where
  rate := ⟨zero_le_two, zero_le_two, zero_le_two⟩
  close x y z hx hy hz := by
    have := prod_unit (sq_mem hx) (prod_unit (sq_mem hy) (sq_mem hz))
    exact roundNearest_close (abs_le.2 ⟨by linarith, this.2⟩)
  lipschitz x x' y y' z z' hx hx' hy hy' hz hz' := by
    simp only [unit_pm]
    have := prod_lip (sq_lip hx hx') (prod_lip (sq_lip hy hy') (sq_lip hz hz') (sq_mem hz) (sq_mem hy')) (prod_unit (sq_mem hy) (sq_mem hz)) (sq_mem hx')
    linarith
  bound x y z hx hy hz := by
    have := prod_unit (sq_mem hx) (prod_unit (sq_mem hy) (sq_mem hz))
    exact abs_le.2 ⟨by linarith, this.2⟩

theorem deriv_pm {g : ℝ → ℝ} {d d' x : ℝ} (hx : (Domain.segment (-1 : ℝ) 1).Mem x) (h : HasDerivWithinAt g d {t | (Domain.segment (-1 : ℝ) 1).Mem t} x)
    (h' : HasDerivAt g d' x) : d = d' :=
  (uniqueDiffOn_Icc (show (-1 : ℝ) < 1 by norm_num) x ⟨hx.1, hx.2⟩).eq_deriv _ h h'.hasDerivWithinAt

theorem usual_pm : (Domain.segment (-1 : ℝ) 1).Usual := show (-1 : ℝ) < 1 by norm_num

/-- The derivative of `x^2` computed in double with a series of order 2, on the whole of `[-1, 1]`. -/
example (B : Build) : ∃ s', (CS1.closed (fun x => roundNearest (x ^ 2)) (-1) 1 2).computeAiR roundNearest (fun t => roundNearest (Real.cos t))
      (fun i t => roundNearest ((Chebyshev.T ℝ i).eval t)) B = .ok s' ∧ ∀ x, -1 ≤ x ∧ x ≤ 1 →
      ∃ v, s'.evaluateDerivativeXR roundNearest (fun i t => roundNearest ((derivative (Chebyshev.T ℝ i)).eval t)) B x = .ok v ∧
        |v - 2 * x| ≤ 1 / 10 ^ 11 := by
  obtain ⟨s', h1, h2⟩ := C137_total_1d roundNearest_toNearest cosClose_round B (Fresh1.closed (n := 2) (-1) 1) usual_pm (by rw [cond_pm]; norm_num)
    ((polyNear_round (δ := outside 2) (by rw [outside_two]; norm_num) 2 (by rw [outside_two]; norm_num)).close (by rw [outside_two]; norm_num))
    (by norm_num) (by rw [cond_pm]; exact primeNear_round (by rw [outside_two]; norm_num) 2 (by rw [outside_two]; norm_num)) sq_computes_1d
    sq_expansion_1d (summable_of_ne_finset_zero (s := range 3) fun k hk => by rw [sqCoef_zero hk, mul_zero, abs_zero])
  refine ⟨s', h1, fun x hx => ?_⟩
  obtain ⟨v, d, h3, h4, h5⟩ := h2 x hx
  refine ⟨v, h3, ?_⟩
  have hd : d = 2 * x := deriv_pm hx h4 (by simpa using hasDerivAt_pow 2 x)
  have ht : (∑' k : ℕ, if k ≤ 2 then 0 else |(k : ℝ) ^ 2 * sqCoef k|) = 0 := by
    refine (tsum_congr fun k => ?_).trans tsum_zero
    split
    · rfl
    · rw [sqCoef_zero (by rw [mem_range]; omega), mul_zero, abs_zero]
  rw [hd, ht, slope_pm, cond_pm] at h5
  refine h5.trans ?_
  norm_num [primeErr, polyFactor, coeffErr]

/-- The derivative of `x^2 y^2` in `y`. -/
example (B : Build) : ∃ s', (CS2.closed (fun x y => roundNearest (x ^ 2 * y ^ 2)) (-1) 1 (-1) 1 2 2).computeAijR roundNearest
      (fun t => roundNearest (Real.cos t)) (fun i t => roundNearest ((Chebyshev.T ℝ i).eval t)) B = .ok s' ∧ ∀ x y, -1 ≤ x ∧ x ≤ 1 → -1 ≤ y ∧ y ≤ 1 →
      ∃ v, s'.evaluateDerivativeYR roundNearest (fun i t => roundNearest ((derivative (Chebyshev.T ℝ i)).eval t)) B x y = .ok v ∧
        |v - x ^ 2 * (2 * y)| ≤ 1 / 10 ^ 10 := by
  obtain ⟨s', h1, h2⟩ := C137_total_2d_y roundNearest_toNearest cosClose_round B (Fresh2.closed (n := 2) (m := 2) (-1) 1 (-1) 1) usual_pm usual_pm
    (by rw [cond_pm]; norm_num) (by rw [cond_pm]; norm_num) (by norm_num)
    ((polyNear_round (δ := outside 2) (by rw [outside_two]; norm_num) 2 (by rw [outside_two]; norm_num)).close (by rw [outside_two]; norm_num))
    (by norm_num) (by rw [cond_pm]; exact primeNear_round (by rw [outside_two]; norm_num) 2 (by rw [outside_two]; norm_num)) sq_computes_2d
    sq_expansion_2d (summable_of_ne_finset_zero (s := range 3 ×ˢ range 3) fun k hk => by rw [sqCoef_zero2 hk, mul_zero, abs_zero])
  refine ⟨s', h1, fun x y hx hy => ?_⟩
  obtain ⟨v, d, h3, h4, h5⟩ := h2 x y hx hy
  refine ⟨v, h3, ?_⟩
  have hd : d = x ^ 2 * (2 * y) := deriv_pm hy h4 (by simpa using (hasDerivAt_pow 2 y).const_mul (x ^ 2))
  have ht : (∑' k : ℕ × ℕ, if k.1 ≤ 2 ∧ k.2 ≤ 2 then 0 else |(k.2 : ℝ) ^ 2 * (sqCoef k.1 * sqCoef k.2)|) = 0 := by
    refine (tsum_congr fun k => ?_).trans tsum_zero
    split
    · rfl
    · rw [sqCoef_zero2 (by rw [mem_product, mem_range, mem_range]; omega), mul_zero, abs_zero]
  rw [hd, ht, slope_pm, cond_pm] at h5
  refine h5.trans ?_
  norm_num [primeErr2, polyFactor, coeffErr2, chebErr]

/-- The derivative of `x^2 y^2 z^2` in `x`. -/
example (B : Build) : ∃ s', (CS3.closed (fun x y z => roundNearest (x ^ 2 * (y ^ 2 * z ^ 2))) (-1) 1 (-1) 1 (-1) 1 2 2 2).computeAijkR roundNearest
      (fun t => roundNearest (Real.cos t)) (fun i t => roundNearest ((Chebyshev.T ℝ i).eval t)) B = .ok s' ∧ ∀ x y z, -1 ≤ x ∧ x ≤ 1 → -1 ≤ y ∧ y ≤ 1 →
      -1 ≤ z ∧ z ≤ 1 → ∃ v, s'.evaluateDerivativeXR roundNearest (fun i t => roundNearest ((Chebyshev.T ℝ i).eval t))
        (fun i t => roundNearest ((derivative (Chebyshev.T ℝ i)).eval t)) B x y z = .ok v ∧ |v - 2 * x * (y ^ 2 * z ^ 2)| ≤ 1 / 10 ^ 9 := by
  obtain ⟨s', h1, h2⟩ := C137_total_3d_x roundNearest_toNearest cosClose_round B (Fresh3.closed (n := 2) (m := 2) (l := 2) (-1) 1 (-1) 1 (-1) 1) usual_pm
    usual_pm usual_pm (by rw [cond_pm]; norm_num) (by rw [cond_pm]; norm_num) (by rw [cond_pm]; norm_num) (by norm_num)
    (δ := outside 2) (by rw [cond_pm]) (by rw [cond_pm]) (by rw [cond_pm])
    (polyNear_round (by rw [outside_two]; norm_num) 2 (by rw [outside_two]; norm_num)) (by norm_num)
    (primeNear_round (by rw [outside_two]; norm_num) 2 (by rw [outside_two]; norm_num)) sq_computes_3d
    sq_expansion_3d (summable_of_ne_finset_zero (s := range 3 ×ˢ range 3 ×ˢ range 3) fun k hk => by rw [sqCoef_zero3 hk, mul_zero, abs_zero])
  refine ⟨s', h1, fun x y z hx hy hz => ?_⟩
  obtain ⟨v, d, h3, h4, h5⟩ := h2 x y z hx hy hz
  refine ⟨v, h3, ?_⟩
  have hd : d = 2 * x * (y ^ 2 * z ^ 2) := deriv_pm hx h4 (by simpa using (hasDerivAt_pow 2 x).mul_const (y ^ 2 * z ^ 2))
  have ht : (∑' k : ℕ × ℕ × ℕ, if k.1 ≤ 2 ∧ k.2.1 ≤ 2 ∧ k.2.2 ≤ 2 then 0 else |(k.1 : ℝ) ^ 2 * (sqCoef k.1 * (sqCoef k.2.1 * sqCoef k.2.2))|) = 0 := by
    refine (tsum_congr fun k => ?_).trans tsum_zero
    split
    · rfl
    · rw [sqCoef_zero3 (by simp only [mem_product, mem_range]; omega), mul_zero, abs_zero]
  rw [hd, ht, slope_pm, cond_pm] at h5
  refine h5.trans ?_
  norm_num [primeErr3, polyFactor, coeffErr3]

end MU
