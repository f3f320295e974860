import Verif.Lemmas.Struve
import Verif.Lemmas.Bessel
import Verif.Lemmas.ExpInt
import Mathlib.Analysis.SpecialFunctions.Trigonometric.Series
import Mathlib.Analysis.SpecialFunctions.Integrals.Basic
import Mathlib.Analysis.SpecialFunctions.Trigonometric.DerivHyp
import Mathlib.Analysis.SpecialFunctions.Sqrt
import Mathlib.MeasureTheory.Integral.DominatedConvergence

/-!
# Struve functions above 3

The integral of the order zero, the differences with the Bessel functions of the second kind, and the solutions of Bessel's equation with a source that
vanish at infinity.
-/

namespace MU.Struve
open Filter Topology Set MeasureTheory Spec Bessel

theorem sine_powers (k : Nat) : (∫ θ in (0 : ℝ)..Real.pi, Real.sin θ ^ (2 * k + 1)) / (2 * k + 1).factorial = 2 / den 0 k := by
  rw [integral_sin_pow_odd]
  have h : ∀ k : Nat, (∏ i ∈ Finset.range k, (2 * (i : ℝ) + 2) / (2 * i + 3)) * den 0 k = (2 * k + 1).factorial := by
    intro k
    induction k with
    | zero => simp [den]
    | succ k ih =>
      rw [Finset.prod_range_succ, den_succ, show 2 * (k + 1) + 1 = (2 * k + 1 + 1) + 1 by ring, Nat.factorial_succ, Nat.factorial_succ]
      push_cast
      rw [← ih]
      have : (2 * (k : ℝ) + 3) ≠ 0 := by positivity
      field_simp
      ring
  have hd := (den_pos 0 k).ne'
  have hf : ((2 * k + 1).factorial : ℝ) ≠ 0 := by positivity
  rw [div_eq_div_iff hf hd, mul_assoc, h]

theorem sinInt_zero (x : ℝ) : HasSum (fun k : ℕ => 2 * ((-1) ^ k * (x ^ (2 * k + 1) / den 0 k))) (sinInt 0 x) := by
  have h := intervalIntegral.hasSum_integral_of_dominated_convergence (μ := volume) (a := 0) (b := Real.pi)
    (F := fun (k : ℕ) θ => (-1) ^ k * (x * Real.sin θ) ^ (2 * k + 1) / (2 * k + 1).factorial) (f := fun θ => Real.sin (x * Real.sin θ - 0 * θ))
    (bound := fun k _ => |x| ^ (2 * k + 1) / (2 * k + 1).factorial) (fun k => by
      have : Continuous fun θ : ℝ => (-1) ^ k * (x * Real.sin θ) ^ (2 * k + 1) / ((2 * k + 1).factorial : ℝ) := by fun_prop
      exact this.aestronglyMeasurable)
    (fun k => Eventually.of_forall fun θ _ => by
      rw [norm_div, norm_mul, norm_pow, norm_neg, norm_one, one_pow, one_mul, norm_pow, norm_mul, Real.norm_eq_abs, Real.norm_eq_abs, Real.norm_natCast]
      have h1 : |x| * |Real.sin θ| ≤ |x| := mul_le_of_le_one_right (abs_nonneg _) (Real.abs_sin_le_one _)
      gcongr)
    (Eventually.of_forall fun θ _ => by
      have := Real.summable_pow_div_factorial |x|
      exact this.comp_injective (i := fun k : ℕ => 2 * k + 1) (fun a b h => by simpa using h))
    intervalIntegrable_const
    (Eventually.of_forall fun θ _ => by
      have := Real.hasSum_sin (x * Real.sin θ - 0 * θ)
      simpa using this)
  have e : ∀ k : ℕ, (∫ θ in (0 : ℝ)..Real.pi, (-1) ^ k * (x * Real.sin θ) ^ (2 * k + 1) / ((2 * k + 1).factorial : ℝ)) =
      2 * ((-1) ^ k * (x ^ (2 * k + 1) / den 0 k)) := by
    intro k
    have h1 : (fun θ : ℝ => (-1) ^ k * (x * Real.sin θ) ^ (2 * k + 1) / ((2 * k + 1).factorial : ℝ)) =
        fun θ => (-1) ^ k * x ^ (2 * k + 1) / ((2 * k + 1).factorial : ℝ) * Real.sin θ ^ (2 * k + 1) := by
      funext θ
      rw [mul_pow]
      ring
    rw [h1, intervalIntegral.integral_const_mul]
    have h2 := sine_powers k
    calc (-1) ^ k * x ^ (2 * k + 1) / ((2 * k + 1).factorial : ℝ) * ∫ θ in (0 : ℝ)..Real.pi, Real.sin θ ^ (2 * k + 1)
        = (-1) ^ k * x ^ (2 * k + 1) * ((∫ θ in (0 : ℝ)..Real.pi, Real.sin θ ^ (2 * k + 1)) / (2 * k + 1).factorial) := by ring
      _ = _ := by rw [h2]; ring
  simp only [e] at h
  exact h

/-- The order zero as an integral. -/
theorem struve_zero_integral (x : ℝ) : struve 0 x = 1 / Real.pi * sinInt 0 x := by
  rw [struve_zero, ← (sinInt_zero x).tsum_eq, ← tsum_mul_left, ← tsum_mul_left, ← tsum_mul_left]
  refine tsum_congr fun k => ?_
  rw [term, ← pow_mul, pow_succ]
  ring

theorem struve_one_integral {x : ℝ} (hx : x ≠ 0) : struve 1 x = 2 / Real.pi + 1 / Real.pi * sinInt 1 x := by
  have h1 := hasDerivAt_struve_zero x
  have e : struve 0 = fun x => 1 / Real.pi * sinInt 0 x := funext struve_zero_integral
  rw [e] at h1
  have h2 := h1.unique ((hasDerivAt_sinInt 0 x).const_mul (1 / Real.pi))
  have h3 := sinInt_parts 0 x
  rw [zero_mul, zero_mul, Real.cos_zero, sub_self, zero_add, zero_sub] at h3
  rw [zero_add, zero_sub] at h2
  have h4 : x * (sinInt 1 x + sinInt (-1) x) = 0 := by linarith
  have h5 := (mul_eq_zero.1 h4).resolve_left hx
  have h6 : sinInt (-1) x = -sinInt 1 x := by linarith
  rw [h6] at h2
  linarith

/-- The integral of `exp(-x sinh t)`. -/
noncomputable def sf (x : ℝ) : ℝ := lap (-1) 0 x
/-- Its derivative. -/
noncomputable def sf1 (x : ℝ) : ℝ := -(lap (-1) 1 x - lap (-1) (-1) x) / 2

theorem struve_zero_sub {x : ℝ} (hx : 0 < x) : struve 0 x = besselY 0 x + 2 / Real.pi * sf x := by
  rw [struve_zero_integral, besselY_eq _ hx, zero_mul, Real.cos_zero, neg_zero, sf]
  ring

theorem struve_one_sub {x : ℝ} (hx : 0 < x) : struve 1 x = besselY 1 x + 2 / Real.pi * (1 - sf1 x) := by
  rw [struve_one_integral hx.ne', besselY_eq _ hx, one_mul, Real.cos_pi, sf1]
  ring

theorem hasDerivAt_sf {x : ℝ} (hx : 0 < x) : HasDerivAt sf (sf1 x) x := by
  refine (hasDerivAt_lap (le_refl (-1)) (by norm_num) 0 hx).congr_deriv ?_
  rw [zero_add, zero_sub, sf1]
  ring

theorem hasDerivAt_sf1 {x : ℝ} (hx : 0 < x) : HasDerivAt sf1 (1 / x - sf x - sf1 x / x) x := by
  have h1 := hasDerivAt_lap (le_refl (-1)) (by norm_num) 1 hx
  have h2 := hasDerivAt_lap (le_refl (-1)) (by norm_num) (-1) hx
  have p1 := lap_parts (le_refl (-1)) 1 hx
  have p2 := lap_parts (le_refl (-1)) (-1) hx
  rw [show -(x * (1 + -1) / 2) = 0 by ring, Real.exp_zero] at p1 p2
  refine ((h1.sub h2).neg.div_const 2).congr_deriv ?_
  rw [show (1 : ℝ) - 1 = 0 by ring] at p1 ⊢
  rw [show (-1 : ℝ) + 1 = 0 by ring] at p2 ⊢
  rw [sf, sf1]
  field_simp
  linear_combination (-2) * p1 - 2 * p2

theorem sf_nonneg (x : ℝ) : 0 ≤ sf x := integral_nonneg fun t => (ker_pos _ _ _ _).le

theorem sf_le {x : ℝ} (hx : 0 < x) : sf x ≤ 1 / x := by
  have h := setIntegral_mono_on (μ := volume) (s := Ioi (0 : ℝ)) (f := ker (-1) 0 x) (g := fun t => Real.exp (-x * t)) (ker_integrable (le_refl _) hx)
    (integrableOn_exp_mul_Ioi (by linarith) 0) measurableSet_Ioi fun t ht => by
      have ht : 0 < t := ht
      rw [Bessel.ker, hyp_sinh, zero_mul, zero_sub]
      refine Real.exp_le_exp.2 ?_
      have := mul_le_mul_of_nonneg_left (Real.self_le_sinh_iff.2 ht.le) hx.le
      linarith
  rw [integral_exp_mul_Ioi (by linarith), mul_zero, Real.exp_zero] at h
  rw [sf, lap]
  refine h.trans (le_of_eq ?_)
  rw [div_neg, neg_div, neg_neg]

theorem sf1_eq {x : ℝ} (hx : 0 < x) : sf1 x = -∫ t in Ioi (0 : ℝ), hyp (-1) t * ker (-1) 0 x t := by
  have i1 := ker_integrable (σ := -1) (a := 0 + 1) (le_refl _) hx
  have i2 := (ker_integrable (σ := -1) (a := 0 - 1) (le_refl _) hx).const_mul (-1)
  simp only [hyp_mul_ker]
  rw [integral_div, integral_add i1 i2, integral_const_mul, zero_add, zero_sub, sf1, lap, lap]
  ring

theorem sf1_nonpos {x : ℝ} (hx : 0 < x) : sf1 x ≤ 0 := by
  rw [sf1_eq hx, neg_nonpos]
  exact setIntegral_nonneg measurableSet_Ioi fun t ht => mul_nonneg (hyp_nonneg (le_refl _) (le_of_lt ht)) (ker_pos _ _ _ _).le

theorem sf1_ge {x : ℝ} (hx : 0 < x) : -(4 / x ^ 2) ≤ sf1 x := by
  have i1 := ker_integrable (σ := -1) (a := 0 + 1) (le_refl _) hx
  have i2 := (ker_integrable (σ := -1) (a := 0 - 1) (le_refl _) hx).const_mul (-1)
  have i3 := (ker_integrable (σ := -1) (a := 0) (le_refl _) (half_pos hx)).const_mul (2 / x)
  have h := setIntegral_mono_on (μ := volume) (s := Ioi (0 : ℝ)) (f := fun t => hyp (-1) t * ker (-1) 0 x t) (g := fun t => 2 / x * ker (-1) 0 (x / 2) t)
    (by
      simp only [hyp_mul_ker]
      exact (i1.add i2).div_const 2) i3 measurableSet_Ioi fun t ht => by
      have hu := hyp_nonneg (le_refl (-1)) (le_of_lt ht)
      rw [Bessel.ker, Bessel.ker]
      generalize hyp (-1) t = u at hu ⊢
      have h1 : x * u / 2 ≤ Real.exp (x * u / 2) := (by linarith : x * u / 2 ≤ x * u / 2 + 1).trans (Real.add_one_le_exp _)
      have h2 : Real.exp (0 * t - x / 2 * u) = Real.exp (x * u / 2) * Real.exp (0 * t - x * u) := by
        rw [← Real.exp_add]
        congr 1
        ring
      rw [h2, ← mul_assoc]
      refine mul_le_mul_of_nonneg_right ?_ (Real.exp_pos _).le
      rw [div_mul_eq_mul_div, le_div_iff₀ hx]
      linarith
  rw [integral_const_mul] at h
  have h2 := sf_le (half_pos hx)
  rw [sf1_eq hx]
  have h3 : 2 / x * sf (x / 2) ≤ 2 / x * (1 / (x / 2)) := mul_le_mul_of_nonneg_left h2 (by positivity)
  have h4 : 2 / x * (1 / (x / 2)) = 4 / x ^ 2 := by field_simp; norm_num
  rw [sf, lap] at h3
  linarith

/-! ## Bessel's equation with a source -/

section Tail
variable {e e1 s : ℝ → ℝ} {C K : ℝ}

/-- `√x e`. -/
noncomputable def lw (e : ℝ → ℝ) (x : ℝ) : ℝ := Real.sqrt x * e x
/-- Its derivative. -/
noncomputable def lw1 (e e1 : ℝ → ℝ) (x : ℝ) : ℝ := Real.sqrt x * (e1 x + e x / (2 * x))

theorem sqrt_deriv {x : ℝ} (hx : 0 < x) : HasDerivAt Real.sqrt (Real.sqrt x / (2 * x)) x := by
  refine (Real.hasDerivAt_sqrt hx.ne').congr_deriv ?_
  have h := Real.sqrt_pos.2 hx
  have h2 := Real.mul_self_sqrt hx.le
  rw [div_eq_div_iff (by positivity) (by positivity)]
  linear_combination (-2) * h2

theorem hasDerivAt_lw {x : ℝ} (hx : 0 < x) (hd : HasDerivAt e (e1 x) x) : HasDerivAt (lw e) (lw1 e e1 x) x := by
  refine ((sqrt_deriv hx).mul hd).congr_deriv ?_
  rw [lw1]
  field_simp
  ring

theorem hasDerivAt_lw1 {x : ℝ} (hx : 0 < x) (hd : HasDerivAt e (e1 x) x) (hd1 : HasDerivAt e1 (s x - e x - e1 x / x) x) :
    HasDerivAt (lw1 e e1) (-lw e x + Real.sqrt x * (s x - e x / (4 * x ^ 2))) x := by
  have h1 : HasDerivAt (fun x => e x / (2 * x)) ((e1 x * (2 * x) - e x * (2 * 1)) / (2 * x) ^ 2) x :=
    hd.div ((hasDerivAt_id x).const_mul 2) (by positivity)
  refine ((sqrt_deriv hx).mul (hd1.add h1)).congr_deriv ?_
  rw [lw]
  simp only [Pi.add_apply]
  field_simp
  ring

theorem hasDerivAt_inv_sqrt {x : ℝ} (hx : 0 < x) : HasDerivAt (fun x => (Real.sqrt x)⁻¹) (-(1 / (2 * x * Real.sqrt x))) x := by
  have h := Real.sqrt_pos.2 hx
  refine ((sqrt_deriv hx).inv h.ne').congr_deriv ?_
  field_simp

/-- One step: a bound `M / x` of the error gives the bound `(2 C + M / 6) / x`. -/
theorem tail_step (hd : ∀ x, 3 ≤ x → HasDerivAt e (e1 x) x) (hd1 : ∀ x, 3 ≤ x → HasDerivAt e1 (s x - e x - e1 x / x) x)
    (hs : ∀ x, 3 ≤ x → |s x| ≤ C / x ^ 2) (hK : ∀ x, 3 ≤ x → |e x| ≤ K / x) (hK1 : ∀ x, 3 ≤ x → |e1 x| ≤ K / x) {M : ℝ} (hM : ∀ x, 3 ≤ x → |e x| ≤ M / x)
    {a : ℝ} (ha : 3 ≤ a) : |lw e a| ≤ (2 * C + M / 6) / Real.sqrt a ∧ |lw1 e e1 a| ≤ (2 * C + M / 6) / Real.sqrt a := by
  have h0 : 0 < a := by linarith
  have hM0 : 0 ≤ M := by
    have := (abs_nonneg _).trans (hM 3 (le_refl _))
    linarith
  -- the source
  have hq : ∀ x, 3 ≤ x → |Real.sqrt x * (s x - e x / (4 * x ^ 2))| ≤ (C + M / 12) / (x * Real.sqrt x) := by
    intro x hx
    have hx0 : 0 < x := by linarith
    have hr := Real.sqrt_pos.2 hx0
    have h1 := hs x hx
    have h2 := hM x hx
    have h3 : |e x / (4 * x ^ 2)| ≤ M / 12 / x ^ 2 := by
      rw [abs_div, abs_of_pos (by positivity : 0 < 4 * x ^ 2), div_le_div_iff₀ (by positivity) (by positivity)]
      have h4 : |e x| ≤ M / 3 := h2.trans (div_le_div_of_nonneg_left hM0 (by norm_num) hx)
      have := mul_le_mul_of_nonneg_right h4 (sq_nonneg x)
      linarith
    have h5 : |s x - e x / (4 * x ^ 2)| ≤ (C + M / 12) / x ^ 2 := by
      refine (abs_sub _ _).trans ?_
      rw [add_div]
      exact add_le_add h1 h3
    rw [abs_mul, abs_of_pos hr]
    refine (mul_le_mul_of_nonneg_left h5 hr.le).trans (le_of_eq ?_)
    rw [mul_div_assoc', div_eq_div_iff (by positivity) (by positivity)]
    have := Real.mul_self_sqrt hx0.le
    linear_combination ((C + M / 12) * x) * this
  have hg : ∀ x, 3 ≤ x → HasDerivAt (fun x => -(2 * (C + M / 12)) * (Real.sqrt x)⁻¹) ((C + M / 12) / (x * Real.sqrt x)) x := by
    intro x hx
    have hx0 : 0 < x := by linarith
    have hr := Real.sqrt_pos.2 hx0
    refine ((hasDerivAt_inv_sqrt hx0).const_mul _).congr_deriv ?_
    field_simp
  have ht : HasDerivAt (fun x : ℝ => x - a) 1 a := (hasDerivAt_id a).sub_const a
  have htr : ∀ x : ℝ, HasDerivAt (fun x : ℝ => x - a) 1 x := fun x => (hasDerivAt_id x).sub_const a
  have lim : Tendsto (fun b : ℝ => 3 * K * (Real.sqrt b)⁻¹) atTop (𝓝 0) := by
    have := (tendsto_inv_atTop_zero.comp Real.tendsto_sqrt_atTop).const_mul (3 * K)
    rwa [mul_zero] at this
  have small : ∀ b, 3 ≤ b → |lw e b| + |lw1 e e1 b| ≤ 3 * K * (Real.sqrt b)⁻¹ := by
    intro b hb
    have hb0 : 0 < b := by linarith
    have hr := Real.sqrt_pos.2 hb0
    have hm := Real.mul_self_sqrt hb0.le
    have hK0 : 0 ≤ K := by
      have h := (abs_nonneg _).trans (hK b hb)
      by_contra hneg
      have := div_neg_of_neg_of_pos (not_le.1 hneg) hb0
      linarith
    have h1 := hK b hb
    have h2 := hK1 b hb
    have h3 : |e1 b + e b / (2 * b)| ≤ 2 * (K / b) := by
      refine (abs_add_le _ _).trans ?_
      have h4 : |e b / (2 * b)| ≤ K / b := by
        rw [abs_div, abs_of_pos (by positivity : 0 < 2 * b)]
        refine (div_le_self (abs_nonneg _) (by linarith)).trans h1
      linarith
    rw [lw, lw1, abs_mul, abs_mul, abs_of_pos hr, ← mul_add]
    calc Real.sqrt b * (|e b| + |e1 b + e b / (2 * b)|) ≤ Real.sqrt b * (K / b + 2 * (K / b)) :=
          mul_le_mul_of_nonneg_left (add_le_add h1 h3) hr.le
      _ = 3 * K * (Real.sqrt b)⁻¹ := by
          rw [← div_eq_mul_inv, eq_div_iff hr.ne']
          have : Real.sqrt b * (K / b + 2 * (K / b)) * Real.sqrt b = 3 * K * (Real.sqrt b * Real.sqrt b) / b := by ring
          rw [this, hm, mul_div_assoc, div_self hb0.ne', mul_one]
  have fin : ∀ (A : ℝ → ℝ) (A' : ℝ → ℝ), (∀ x, 3 ≤ x → HasDerivAt A (A' x) x) → (∀ x, 3 ≤ x → |A' x| ≤ (C + M / 12) / (x * Real.sqrt x)) →
      (∀ x, |A x| ≤ |lw e x| + |lw1 e e1 x|) → |A a| ≤ (2 * C + M / 6) / Real.sqrt a := by
    intro A A' hA hA' hsm
    have hstep : ∀ b, a ≤ b → |A a| ≤ (2 * C + M / 6) / Real.sqrt a + (3 * K * (Real.sqrt b)⁻¹ - 2 * (C + M / 12) * (Real.sqrt b)⁻¹) := by
      intro b hb
      have h1 := ExpInt.cmp hb (fun x hx => hA x (ha.trans hx.1)) (fun x hx => hg x (ha.trans hx.1)) (fun x hx => hA' x (ha.trans hx.1.le))
      have h2 := (hsm b).trans (small b (ha.trans hb))
      have h3 : |A a| ≤ |A b| + |A b - A a| := by
        have := abs_sub (A b) (A b - A a)
        rwa [sub_sub_cancel] at this
      rw [div_eq_mul_inv]
      linarith
    have l2 : Tendsto (fun b : ℝ => 2 * (C + M / 12) * (Real.sqrt b)⁻¹) atTop (𝓝 0) := by
      have := (tendsto_inv_atTop_zero.comp Real.tendsto_sqrt_atTop).const_mul (2 * (C + M / 12))
      rwa [mul_zero] at this
    have l3 := (lim.sub l2).const_add ((2 * C + M / 6) / Real.sqrt a)
    rw [sub_zero, add_zero] at l3
    exact ge_of_tendsto l3 (by filter_upwards [eventually_ge_atTop a] with b hb using hstep b hb)
  constructor
  · have := fin (fun x => lw e x * Real.cos (x - a) - lw1 e e1 x * Real.sin (x - a))
      (fun x => -(Real.sqrt x * (s x - e x / (4 * x ^ 2)) * Real.sin (x - a))) (fun x hx => by
        have hx0 : 0 < x := by linarith
        refine (((hasDerivAt_lw hx0 (hd x hx)).mul (htr x).cos).sub ((hasDerivAt_lw1 hx0 (hd x hx) (hd1 x hx)).mul (htr x).sin)).congr_deriv ?_
        ring) (fun x hx => by
        rw [abs_neg, abs_mul]
        exact (mul_le_of_le_one_right (abs_nonneg _) (Real.abs_sin_le_one _)).trans (hq x hx)) (fun x => by
        refine (abs_sub _ _).trans ?_
        rw [abs_mul, abs_mul]
        exact add_le_add (mul_le_of_le_one_right (abs_nonneg _) (Real.abs_cos_le_one _)) (mul_le_of_le_one_right (abs_nonneg _) (Real.abs_sin_le_one _)))
    simpa using this
  · have := fin (fun x => lw e x * Real.sin (x - a) + lw1 e e1 x * Real.cos (x - a))
      (fun x => Real.sqrt x * (s x - e x / (4 * x ^ 2)) * Real.cos (x - a)) (fun x hx => by
        have hx0 : 0 < x := by linarith
        refine (((hasDerivAt_lw hx0 (hd x hx)).mul (htr x).sin).add ((hasDerivAt_lw1 hx0 (hd x hx) (hd1 x hx)).mul (htr x).cos)).congr_deriv ?_
        ring) (fun x hx => by
        rw [abs_mul]
        exact (mul_le_of_le_one_right (abs_nonneg _) (Real.abs_cos_le_one _)).trans (hq x hx)) (fun x => by
        refine (abs_add_le _ _).trans ?_
        rw [abs_mul, abs_mul]
        exact add_le_add (mul_le_of_le_one_right (abs_nonneg _) (Real.abs_sin_le_one _)) (mul_le_of_le_one_right (abs_nonneg _) (Real.abs_cos_le_one _)))
    simpa using this

theorem lw_bound {a B : ℝ} (ha : 3 ≤ a) (h : |lw e a| ≤ B / Real.sqrt a) : |e a| ≤ B / a := by
  have h0 : 0 < a := by linarith
  have hr := Real.sqrt_pos.2 h0
  have hm := Real.mul_self_sqrt h0.le
  rw [lw, abs_mul, abs_of_pos hr, le_div_iff₀ hr] at h
  rw [le_div_iff₀ h0]
  calc |e a| * a = Real.sqrt a * |e a| * Real.sqrt a := by linear_combination (-|e a|) * hm
    _ ≤ B := h

/-- The error and its derivative, from the source. -/
theorem tail_bound (hd : ∀ x, 3 ≤ x → HasDerivAt e (e1 x) x) (hd1 : ∀ x, 3 ≤ x → HasDerivAt e1 (s x - e x - e1 x / x) x)
    (hs : ∀ x, 3 ≤ x → |s x| ≤ C / x ^ 2) (hK : ∀ x, 3 ≤ x → |e x| ≤ K / x) (hK1 : ∀ x, 3 ≤ x → |e1 x| ≤ K / x) (hC : 0 ≤ C) {a : ℝ} (ha : 3 ≤ a) :
    |e a| ≤ 2.4 * C / a ∧ |e1 a| ≤ 2.4 * C / a + 1.2 * C / a ^ 2 := by
  have it : ∀ n : Nat, ∀ x, 3 ≤ x → |e x| ≤ (2.4 * C + |K| / 6 ^ n) / x := by
    intro n
    induction n with
    | zero =>
      intro x hx
      have hx0 : 0 < x := by linarith
      refine (hK x hx).trans (div_le_div_of_nonneg_right ?_ hx0.le)
      have := le_abs_self K
      rw [pow_zero, div_one]
      linarith
    | succ n ih =>
      intro x hx
      have := (tail_step hd hd1 hs hK hK1 ih hx).1
      refine lw_bound hx (this.trans (le_of_eq ?_))
      rw [pow_succ]
      ring
  have l : Tendsto (fun n : Nat => |K| / 6 ^ n) atTop (𝓝 0) := by
    have := (tendsto_pow_atTop_nhds_zero_of_lt_one (r := (1 / 6 : ℝ)) (by norm_num) (by norm_num)).const_mul |K|
    rw [mul_zero] at this
    refine this.congr fun n => ?_
    rw [one_div, inv_pow, div_eq_mul_inv]
  have hM : ∀ x, 3 ≤ x → |e x| ≤ 2.4 * C / x := by
    intro x hx
    have := ((l.const_add (2.4 * C)).div_const x)
    rw [add_zero] at this
    exact ge_of_tendsto this (Eventually.of_forall fun n => it n x hx)
  refine ⟨hM a ha, ?_⟩
  have h := (tail_step hd hd1 hs hK hK1 hM ha).2
  have h0 : 0 < a := by linarith
  have hr := Real.sqrt_pos.2 h0
  have hm := Real.mul_self_sqrt h0.le
  have h1 : |e1 a + e a / (2 * a)| ≤ 2.4 * C / a := by
    rw [lw1, abs_mul, abs_of_pos hr, le_div_iff₀ hr] at h
    rw [le_div_iff₀ h0]
    calc |e1 a + e a / (2 * a)| * a = Real.sqrt a * |e1 a + e a / (2 * a)| * Real.sqrt a := by linear_combination (-|e1 a + e a / (2 * a)|) * hm
      _ ≤ 2 * C + 2.4 * C / 6 := h
      _ = 2.4 * C := by ring
  have h2 : |e a / (2 * a)| ≤ 1.2 * C / a ^ 2 := by
    rw [abs_div, abs_of_pos (by positivity : 0 < 2 * a), div_le_div_iff₀ (by positivity) (by positivity)]
    have := hM a ha
    rw [le_div_iff₀ h0] at this
    norm_num at this ⊢
    nlinarith
  have h3 : |e1 a| ≤ |e1 a + e a / (2 * a)| + |e a / (2 * a)| := by
    have := abs_sub (e1 a + e a / (2 * a)) (e a / (2 * a))
    rwa [add_sub_cancel_right] at this
  linarith

end Tail

end MU.Struve
