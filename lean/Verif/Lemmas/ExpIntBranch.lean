import Verif.Lemmas.ExpInt
import Verif.Lemmas.PolyCheck
import Mathlib.Analysis.SpecialFunctions.Log.Deriv
import Mathlib.Analysis.Complex.Exponential

/-!
# Rational approximations of the exponential integrals

When `e^-x N/M` satisfies the differential equation of `E1` up to a small residual, it is close to `E1`; the same for `Ei`. The residual is bounded by
the check of a polynomial inequality.
-/

namespace MU.ExpInt
open Filter Topology Set Spec PolyCheck

/-- The value of a rational function. -/
noncomputable def rat (N M : List ℤ) (x : ℝ) : ℝ := pev N x / pev M x

/-- `N' M - N M'`. -/
def wronsk (N M : List ℤ) : List ℤ := psub (pmul (pderiv N) M) (pmul N (pderiv M))

theorem pev_wronsk (N M : List ℤ) (x : ℝ) : pev (wronsk N M) x = pev (pderiv N) x * pev M x - pev N x * pev (pderiv M) x := by
  rw [wronsk, pev_psub, pev_pmul, pev_pmul]

theorem hasDerivAt_rat {N M : List ℤ} {x : ℝ} (h : pev M x ≠ 0) : HasDerivAt (rat N M) (pev (wronsk N M) x / pev M x ^ 2) x := by
  refine ((hasDerivAt_pev N x).div (hasDerivAt_pev M x) h).congr_deriv ?_
  rw [pev_wronsk]

/-- `x (N' M - N M' - N M) + M^2`. -/
def resE1 (N M : List ℤ) : List ℤ := padd (0 :: psub (wronsk N M) (pmul N M)) (pmul M M)

/-- `x (N' M - N M' + N M) - M^2`. -/
def resEi (N M : List ℤ) : List ℤ := psub (0 :: padd (wronsk N M) (pmul N M)) (pmul M M)

/-- `|R| ≤ en/ed * S` on `[a/c, b/c]`. -/
def certOn (en ed : ℤ) (R S : List ℤ) (c a : ℤ) (l : List ℤ) (b : ℤ) : Bool :=
  decide (0 < ed) && decide (0 < c) && decide (a < b) &&
  checkOn (padd (pscale en S) (pscale ed R)) c a l b && checkOn (psub (pscale en S) (pscale ed R)) c a l b

/-- `|R| ≤ en/ed * S` on `[a/c, ∞)`. -/
def certFrom (en ed : ℤ) (R S : List ℤ) (c a : ℤ) (l : List ℤ) : Bool :=
  decide (0 < ed) && decide (0 < c) &&
  checkFrom (padd (pscale en S) (pscale ed R)) c a l && checkFrom (psub (pscale en S) (pscale ed R)) c a l

theorem abs_of_two {en ed : ℤ} {R S : List ℤ} {x : ℝ} (hed : 0 < ed) (h1 : 0 ≤ pev (padd (pscale en S) (pscale ed R)) x)
    (h2 : 0 ≤ pev (psub (pscale en S) (pscale ed R)) x) : |pev R x| ≤ en / ed * pev S x := by
  rw [pev_padd, pev_pscale, pev_pscale] at h1
  rw [pev_psub, pev_pscale, pev_pscale] at h2
  have h0 : (0 : ℝ) < ed := by exact_mod_cast hed
  rw [div_mul_eq_mul_div, le_div_iff₀ h0, ← abs_of_pos h0, ← abs_mul, abs_le]
  constructor <;> linarith

theorem certOn_sound {en ed : ℤ} {R S : List ℤ} {c a : ℤ} {l : List ℤ} {b : ℤ} (h : certOn en ed R S c a l b = true) {x : ℝ}
    (hx : (a : ℝ) / c ≤ x) (hx' : x ≤ (b : ℝ) / c) : |pev R x| ≤ en / ed * pev S x := by
  simp only [certOn, Bool.and_eq_true, decide_eq_true_eq] at h
  obtain ⟨⟨⟨⟨h1, h2⟩, h3⟩, h4⟩, h5⟩ := h
  exact abs_of_two h1 (checkOn_sound_closed h2 l h3 h4 hx hx') (checkOn_sound_closed h2 l h3 h5 hx hx')

theorem certFrom_sound {en ed : ℤ} {R S : List ℤ} {c a : ℤ} {l : List ℤ} (h : certFrom en ed R S c a l = true) {x : ℝ}
    (hx : (a : ℝ) / c ≤ x) : |pev R x| ≤ en / ed * pev S x := by
  simp only [certFrom, Bool.and_eq_true, decide_eq_true_eq] at h
  obtain ⟨⟨⟨h1, h2⟩, h4⟩, h5⟩ := h
  exact abs_of_two h1 (checkFrom_sound h2 l h4 hx) (checkFrom_sound h2 l h5 hx)

/-- `M ≥ 1` on `[a/c, b/c]`. -/
theorem posOn_sound {M : List ℤ} {c a : ℤ} {l : List ℤ} {b : ℤ} (h : (decide (0 < c) && decide (a < b) && checkOn (psub M [1]) c a l b) = true) {x : ℝ}
    (hx : (a : ℝ) / c ≤ x) (hx' : x ≤ (b : ℝ) / c) : 0 < pev M x := by
  simp only [Bool.and_eq_true, decide_eq_true_eq] at h
  have := checkOn_sound_closed h.1.1 l h.1.2 h.2 hx hx'
  rw [pev_psub] at this
  simp [pev] at this
  linarith

theorem posFrom_sound {M : List ℤ} {c a : ℤ} {l : List ℤ} (h : (decide (0 < c) && checkFrom (psub M [1]) c a l) = true) {x : ℝ}
    (hx : (a : ℝ) / c ≤ x) : 0 < pev M x := by
  simp only [Bool.and_eq_true, decide_eq_true_eq] at h
  have := checkFrom_sound h.1 l h.2 hx
  rw [pev_psub] at this
  simp [pev] at this
  linarith

/-! ## Steps -/

theorem hasDerivAt_E1_error {N M : List ℤ} {x : ℝ} (hx : 0 < x) (h : pev M x ≠ 0) :
    HasDerivAt (fun x => Real.exp (-x) * rat N M x - E1 x) (Real.exp (-x) / x * (pev (resE1 N M) x / pev M x ^ 2)) x := by
  have h1 : HasDerivAt (fun x : ℝ => Real.exp (-x)) (Real.exp (-x) * (-1)) x := (hasDerivAt_neg x).exp
  refine ((h1.mul (hasDerivAt_rat h)).sub (hasDerivAt_E1 hx)).congr_deriv ?_
  have hx' := hx.ne'
  rw [resE1, pev_padd, pev_pmul, pev, pev_psub, pev_pmul, rat]
  push_cast
  field_simp
  ring

theorem hasDerivAt_Ei_error {N M : List ℤ} {x : ℝ} (hx : 0 < x) (h : pev M x ≠ 0) :
    HasDerivAt (fun x => Real.exp x * rat N M x - eiF x) (Real.exp x / x * (pev (resEi N M) x / pev M x ^ 2)) x := by
  refine (((Real.hasDerivAt_exp x).mul (hasDerivAt_rat h)).sub (hasDerivAt_eiF hx)).congr_deriv ?_
  have hx' := hx.ne'
  rw [resEi, pev_psub, pev_pmul, pev, pev_padd, pev_pmul, rat]
  push_cast
  field_simp
  ring

theorem res_bound {R ε m s : ℝ} (hm : m ≠ 0) (h : |R| ≤ ε * (m * m)) (hs : 0 ≤ s) : |s * (R / m ^ 2)| ≤ ε * s := by
  have hm2 : 0 < m ^ 2 := by positivity
  rw [abs_mul, abs_of_nonneg hs, abs_div, abs_of_pos hm2, mul_comm ε]
  refine mul_le_mul_of_nonneg_left ?_ hs
  rw [div_le_iff₀ hm2]
  linarith [h, sq m]

/-- `E1` on an interval: the error varies by at most `ε` times the variation of `E1`. -/
theorem E1_step {N M : List ℤ} {a b ε : ℝ} (ha : 0 < a) (hab : a ≤ b) (hM : ∀ x, a ≤ x → x ≤ b → pev M x ≠ 0)
    (hR : ∀ x, a ≤ x → x ≤ b → |pev (resE1 N M) x| ≤ ε * pev (pmul M M) x) :
    |(Real.exp (-b) * rat N M b - E1 b) - (Real.exp (-a) * rat N M a - E1 a)| ≤ ε * (E1 a - E1 b) := by
  have := cmp (f := fun x => Real.exp (-x) * rat N M x - E1 x) (g := fun x => -ε * E1 x)
    (f' := fun x => Real.exp (-x) / x * (pev (resE1 N M) x / pev M x ^ 2)) (g' := fun x => -ε * -(Real.exp (-x) / x)) hab
    (fun x hx => hasDerivAt_E1_error (ha.trans_le hx.1) (hM x hx.1 hx.2))
    (fun x hx => (hasDerivAt_E1 (ha.trans_le hx.1)).const_mul _) (fun x hx => by
      have h0 : 0 < x := ha.trans hx.1
      have := hR x hx.1.le hx.2.le
      rw [pev_pmul] at this
      have := res_bound (hM x hx.1.le hx.2.le) this (s := Real.exp (-x) / x) (by positivity)
      linarith)
  linarith

/-- `Ei` on an interval. -/
theorem Ei_step {N M : List ℤ} {a b ε : ℝ} (ha : 0 < a) (hab : a ≤ b) (hM : ∀ x, a ≤ x → x ≤ b → pev M x ≠ 0)
    (hR : ∀ x, a ≤ x → x ≤ b → |pev (resEi N M) x| ≤ ε * pev (pmul M M) x) :
    |(Real.exp b * rat N M b - eiF b) - (Real.exp a * rat N M a - eiF a)| ≤ ε * (eiF b - eiF a) := by
  have := cmp (f := fun x => Real.exp x * rat N M x - eiF x) (g := fun x => ε * eiF x)
    (f' := fun x => Real.exp x / x * (pev (resEi N M) x / pev M x ^ 2)) (g' := fun x => ε * (Real.exp x / x)) hab
    (fun x hx => hasDerivAt_Ei_error (ha.trans_le hx.1) (hM x hx.1 hx.2))
    (fun x hx => (hasDerivAt_eiF (ha.trans_le hx.1)).const_mul _) (fun x hx => by
      have h0 : 0 < x := ha.trans hx.1
      have := hR x hx.1.le hx.2.le
      rw [pev_pmul] at this
      exact res_bound (hM x hx.1.le hx.2.le) this (s := Real.exp x / x) (by positivity))
  linarith

/-- `E1` up to infinity. -/
theorem E1_tail {N M : List ℤ} {a ε : ℝ} (ha : 0 < a) (hM : ∀ x, a ≤ x → pev M x ≠ 0)
    (hR : ∀ x, a ≤ x → |pev (resE1 N M) x| ≤ ε * pev (pmul M M) x)
    (hlim : Tendsto (fun x => Real.exp (-x) * rat N M x) atTop (𝓝 0)) {x : ℝ} (hx : a ≤ x) :
    |Real.exp (-x) * rat N M x - E1 x| ≤ ε * E1 x := by
  have h1 : ∀ᶠ b in atTop, |(Real.exp (-b) * rat N M b - E1 b) - (Real.exp (-x) * rat N M x - E1 x)| ≤ ε * (E1 x - E1 b) := by
    filter_upwards [eventually_ge_atTop x] with b hb
    exact E1_step (ha.trans_le hx) hb (fun y h _ => hM y (hx.trans h)) (fun y h _ => hR y (hx.trans h))
  have h2 : Tendsto (fun b => |(Real.exp (-b) * rat N M b - E1 b) - (Real.exp (-x) * rat N M x - E1 x)|) atTop
      (𝓝 |(0 - 0) - (Real.exp (-x) * rat N M x - E1 x)|) := ((hlim.sub tendsto_E1).sub_const _).abs
  have h3 : Tendsto (fun b => ε * (E1 x - E1 b)) atTop (𝓝 (ε * (E1 x - 0))) := (tendsto_E1.const_sub _).const_mul _
  have := le_of_tendsto_of_tendsto h2 h3 h1
  rw [sub_zero, zero_sub, abs_neg, sub_zero] at this
  exact this

/-- Going from one bound to the next. -/
theorem join {D D' κ ε e e' : ℝ} (h : |D' - D| ≤ ε * (e' - e)) (hD : |D| ≤ κ * e) (hκ : κ ≤ ε) (he : 0 ≤ e) : |D'| ≤ ε * e' := by
  have h1 : |D'| ≤ |D' - D| + |D| := by
    have := abs_add_le (D' - D) D
    rwa [sub_add_cancel] at this
  have h2 : κ * e ≤ ε * e := mul_le_mul_of_nonneg_right hκ he
  linarith

/-! ## The exponential series -/

theorem exp_taylor {x : ℝ} {n : Nat} (h : |x| / (n + 1) ≤ 1 / 2) :
    |Real.exp x - ∑ m ∈ Finset.range n, x ^ m / m.factorial| ≤ |x| ^ n / n.factorial * 2 := by
  have h1 := Complex.exp_bound' (x := (x : ℂ)) (n := n) (by
    rw [Complex.norm_real, Real.norm_eq_abs]
    push_cast
    exact h)
  rw [Complex.norm_real, Real.norm_eq_abs] at h1
  have e : Complex.exp (x : ℂ) - ∑ m ∈ Finset.range n, (x : ℂ) ^ m / m.factorial =
      ((Real.exp x - ∑ m ∈ Finset.range n, x ^ m / m.factorial : ℝ) : ℂ) := by push_cast; rfl
  rw [e, Complex.norm_real, Real.norm_eq_abs] at h1
  exact h1

theorem pev_map (n : Nat) (f : Nat → ℤ) (x : ℝ) : pev ((List.range n).map f) x = ∑ i ∈ Finset.range n, (f i : ℝ) * x ^ i := by
  induction n generalizing f with
  | zero => simp [pev]
  | succ n ih =>
    rw [List.range_succ_eq_map, List.map_cons, List.map_map, pev, Finset.sum_range_succ', ih, Finset.mul_sum, add_comm]
    congr 1
    · refine Finset.sum_congr rfl fun i _ => ?_
      simp only [Function.comp]
      ring
    · simp

/-- `n!` times the coefficients of the series of `(e^x - 1) / x` up to the degree `n - 1`. -/
def expm1 (n : Nat) : List ℤ := (List.range n).map fun i => ((n.factorial / (i + 1).factorial : Nat) : ℤ)

theorem expm1_ok {x : ℝ} {n : Nat} (hx : x ≠ 0) (h : |x| / (n + 2) ≤ 1 / 2) :
    |(Real.exp x - 1) / x - pev (expm1 n) x / n.factorial| ≤ |x| ^ n / (n + 1).factorial * 2 := by
  have h1 := exp_taylor (x := x) (n := n + 1) (by push_cast; rw [add_assoc]; norm_num; exact h)
  have hf : (n.factorial : ℝ) ≠ 0 := by positivity
  have e : pev (expm1 n) x / n.factorial = ∑ i ∈ Finset.range n, x ^ i / (i + 1).factorial := by
    rw [expm1, pev_map, Finset.sum_div]
    refine Finset.sum_congr rfl fun i hi => ?_
    have hd : (i + 1).factorial ∣ n.factorial := Nat.factorial_dvd_factorial (Finset.mem_range.1 hi)
    have hi0 : ((i + 1).factorial : ℝ) ≠ 0 := by positivity
    rw [Int.cast_natCast, Nat.cast_div hd hi0]
    field_simp
  have e2 : Real.exp x - ∑ m ∈ Finset.range (n + 1), x ^ m / m.factorial = x * ((Real.exp x - 1) / x - pev (expm1 n) x / n.factorial) := by
    rw [e, Finset.sum_range_succ', mul_sub, Finset.mul_sum, mul_div_cancel₀ _ hx]
    simp only [pow_zero, Nat.factorial_zero, Nat.cast_one, div_one]
    have : ∑ k ∈ Finset.range n, x ^ (k + 1) / ((k + 1).factorial : ℝ) = ∑ i ∈ Finset.range n, x * (x ^ i / (i + 1).factorial) :=
      Finset.sum_congr rfl fun i _ => by rw [pow_succ]; ring
    rw [this]
    ring
  rw [e2, abs_mul, pow_succ] at h1
  have hx' : 0 < |x| := abs_pos.2 hx
  have : |x| * |(Real.exp x - 1) / x - pev (expm1 n) x / n.factorial| ≤ |x| * (|x| ^ n / (n + 1).factorial * 2) := by
    refine h1.trans (le_of_eq ?_)
    ring
  exact le_of_mul_le_mul_left this hx'

/-- The coefficients of `p(-x)`. -/
def palt : List ℤ → List ℤ
  | [] => []
  | a :: l => a :: pscale (-1) (palt l)

theorem pev_palt (l : List ℤ) (x : ℝ) : pev (palt l) x = pev l (-x) := by
  induction l with
  | nil => rfl
  | cons a l ih =>
    rw [palt, pev, pev, pev_pscale, ih]
    push_cast
    ring

/-! ## Near zero -/

/-- `n! (U' V - U V') - T V^2`. -/
def resZero (n : Nat) (T U V : List ℤ) : List ℤ := psub (pscale n.factorial (wronsk U V)) (pmul T (pmul V V))

/-- `- log x + P/Q` against `E1`. -/
theorem E1_zero_step {P Q : List ℤ} {a b ε η : ℝ} {n : Nat} (ha : 0 < a) (hab : a ≤ b) (hn : b / (n + 2) ≤ 1 / 2)
    (hη : b ^ n / (n + 1).factorial * 2 ≤ η) (hQ : ∀ x, a ≤ x → x ≤ b → pev Q x ≠ 0)
    (hR : ∀ x, a ≤ x → x ≤ b → |pev (resZero n (palt (expm1 n)) P Q) x| ≤ ε * pev (pscale n.factorial (pmul Q Q)) x) :
    |(-Real.log b + rat P Q b - E1 b) - (-Real.log a + rat P Q a - E1 a)| ≤ (ε + η) * (b - a) := by
  have := cmp (f := fun x => -Real.log x + rat P Q x - E1 x) (g := fun x => (ε + η) * x)
    (f' := fun x => -x⁻¹ + pev (wronsk P Q) x / pev Q x ^ 2 - -(Real.exp (-x) / x)) (g' := fun x => (ε + η) * 1) hab
    (fun x hx => ((Real.hasDerivAt_log (ha.trans_le hx.1).ne').neg.add (hasDerivAt_rat (hQ x hx.1 hx.2))).sub (hasDerivAt_E1 (ha.trans_le hx.1)))
    (fun x hx => (hasDerivAt_id x).const_mul _) (fun x hx => by
      have h0 : 0 < x := ha.trans hx.1
      have hq := hQ x hx.1.le hx.2.le
      have h1 := hR x hx.1.le hx.2.le
      have hf : (0 : ℝ) < n.factorial := by positivity
      rw [resZero, pev_psub, pev_pscale, pev_pmul, pev_pmul, pev_pscale, pev_pmul, pev_palt, Int.cast_natCast] at h1
      have h2 := expm1_ok (x := -x) (n := n) (by simpa using h0.ne') (by
        rw [abs_neg, abs_of_pos h0]
        exact (div_le_div_of_nonneg_right hx.2.le (by positivity)).trans hn)
      rw [abs_neg, abs_of_pos h0] at h2
      have h3 : x ^ n / (n + 1).factorial * 2 ≤ η := le_trans (by
        have : x ^ n ≤ b ^ n := pow_le_pow_left₀ h0.le hx.2.le n
        gcongr) hη
      set T := pev (expm1 n) (-x)
      set w := pev (wronsk P Q) x
      set q := pev Q x
      have hq2 : 0 < q * q := mul_self_pos.2 hq
      have h4 : |w / q ^ 2 - T / n.factorial| ≤ ε := by
        have e : w / q ^ 2 - T / n.factorial = (n.factorial * w - T * (q * q)) / (n.factorial * (q * q)) := by
          field_simp
        rw [e, abs_div, abs_of_pos (by positivity : (0 : ℝ) < n.factorial * (q * q)), div_le_iff₀ (by positivity)]
        exact h1
      have e : -x⁻¹ + w / q ^ 2 - -(Real.exp (-x) / x) = (w / q ^ 2 - T / n.factorial) - ((Real.exp (-x) - 1) / -x - T / n.factorial) := by
        field_simp
        ring
      simp only [mul_one]
      rw [e]
      refine (abs_sub _ _).trans ?_
      linarith [h2.trans h3])
  linarith

/-- `log (x / x0) + U/V` against `Ei`. -/
theorem Ei_zero_step {U V : List ℤ} {x0 a b ε η : ℝ} {n : Nat} (hx0 : 0 < x0) (ha : 0 < a) (hab : a ≤ b) (hn : b / (n + 2) ≤ 1 / 2)
    (hη : b ^ n / (n + 1).factorial * 2 ≤ η) (hQ : ∀ x, a ≤ x → x ≤ b → pev V x ≠ 0)
    (hR : ∀ x, a ≤ x → x ≤ b → |pev (resZero n (expm1 n) U V) x| ≤ ε * pev (pscale n.factorial (pmul V V)) x) :
    |(Real.log (b / x0) + rat U V b - eiF b) - (Real.log (a / x0) + rat U V a - eiF a)| ≤ (ε + η) * (b - a) := by
  have := cmp (f := fun x => Real.log (x / x0) + rat U V x - eiF x) (g := fun x => (ε + η) * x)
    (f' := fun x => x⁻¹ + pev (wronsk U V) x / pev V x ^ 2 - Real.exp x / x) (g' := fun x => (ε + η) * 1) hab
    (fun x hx => by
      have h0 : 0 < x := ha.trans_le hx.1
      have hl : HasDerivAt (fun x => Real.log (x / x0)) x⁻¹ x := by
        have := ((hasDerivAt_id x).div_const x0).log (by simpa using (div_pos h0 hx0).ne')
        refine this.congr_deriv ?_
        simp only [id]
        field_simp
      exact (hl.add (hasDerivAt_rat (hQ x hx.1 hx.2))).sub (hasDerivAt_eiF h0))
    (fun x hx => (hasDerivAt_id x).const_mul _) (fun x hx => by
      have h0 : 0 < x := ha.trans hx.1
      have hq := hQ x hx.1.le hx.2.le
      have h1 := hR x hx.1.le hx.2.le
      have hf : (0 : ℝ) < n.factorial := by positivity
      rw [resZero, pev_psub, pev_pscale, pev_pmul, pev_pmul, pev_pscale, pev_pmul, Int.cast_natCast] at h1
      have h2 := expm1_ok (x := x) (n := n) h0.ne' (by
        rw [abs_of_pos h0]
        exact (div_le_div_of_nonneg_right hx.2.le (by positivity)).trans hn)
      rw [abs_of_pos h0] at h2
      have h3 : x ^ n / (n + 1).factorial * 2 ≤ η := le_trans (by
        have : x ^ n ≤ b ^ n := pow_le_pow_left₀ h0.le hx.2.le n
        gcongr) hη
      set T := pev (expm1 n) x
      set w := pev (wronsk U V) x
      set q := pev V x
      have hq2 : 0 < q * q := mul_self_pos.2 hq
      have h4 : |w / q ^ 2 - T / n.factorial| ≤ ε := by
        have e : w / q ^ 2 - T / n.factorial = (n.factorial * w - T * (q * q)) / (n.factorial * (q * q)) := by
          field_simp
        rw [e, abs_div, abs_of_pos (by positivity : (0 : ℝ) < n.factorial * (q * q)), div_le_iff₀ (by positivity)]
        exact h1
      have e : x⁻¹ + w / q ^ 2 - Real.exp x / x = (w / q ^ 2 - T / n.factorial) - ((Real.exp x - 1) / x - T / n.factorial) := by
        field_simp
        ring
      simp only [mul_one]
      rw [e]
      refine (abs_sub _ _).trans ?_
      linarith [h2.trans h3])
  linarith

end MU.ExpInt
