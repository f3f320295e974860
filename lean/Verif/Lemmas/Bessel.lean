import Verif.Spec.Bessel
import Mathlib.Analysis.Calculus.ParametricIntegral
import Mathlib.Analysis.Calculus.ParametricIntervalIntegral
import Mathlib.MeasureTheory.Integral.IntegralEqImproper
import Mathlib.Analysis.SpecialFunctions.Integrals.Basic

/-!
# Derivatives and recurrences of the Bessel functions

Differentiation under the integral sign, and one integration by parts for each integral.
-/

namespace MU.Bessel
open Filter Topology Set MeasureTheory Spec

/-! ## The integrals over a half line -/

/-- `sinh` for `σ = -1`, `cosh` for `σ = 1`. -/
noncomputable def hyp (σ t : ℝ) : ℝ := (Real.exp t + σ * Real.exp (-t)) / 2

theorem hyp_sinh (t : ℝ) : hyp (-1) t = Real.sinh t := by rw [hyp, Real.sinh_eq]; ring
theorem hyp_cosh (t : ℝ) : hyp 1 t = Real.cosh t := by rw [hyp, Real.cosh_eq]; ring

theorem hyp_le {σ t : ℝ} (hσ : σ ≤ 1) (ht : 0 ≤ t) : hyp σ t ≤ Real.exp t := by
  have h1 : Real.exp (-t) ≤ Real.exp t := Real.exp_le_exp.2 (by linarith)
  have h2 := Real.exp_pos (-t)
  rw [hyp]
  nlinarith

theorem hyp_nonneg {σ t : ℝ} (hσ : -1 ≤ σ) (ht : 0 ≤ t) : 0 ≤ hyp σ t := by
  have h1 : Real.exp (-t) ≤ Real.exp t := Real.exp_le_exp.2 (by linarith)
  have h2 := Real.exp_pos (-t)
  rw [hyp]
  nlinarith

theorem hyp_ge {σ t : ℝ} (hσ : -1 ≤ σ) (ht : 0 ≤ t) : t ^ 2 / 4 ≤ hyp σ t := by
  have h1 : Real.exp (-t) ≤ 1 := Real.exp_le_one_iff.2 (by linarith)
  have h2 := Real.exp_pos (-t)
  have h3 := Real.quadratic_le_exp_of_nonneg ht
  rw [hyp]
  nlinarith

/-- The integrand. -/
noncomputable def ker (σ a x t : ℝ) : ℝ := Real.exp (a * t - x * hyp σ t)

/-- The integral. -/
noncomputable def lap (σ a x : ℝ) : ℝ := ∫ t in Ioi (0 : ℝ), ker σ a x t

theorem ker_pos (σ a x t : ℝ) : 0 < ker σ a x t := Real.exp_pos _

theorem ker_continuous (σ a x : ℝ) : Continuous (ker σ a x) := by
  unfold ker hyp
  fun_prop

theorem ker_le {σ a x t : ℝ} (hσ : -1 ≤ σ) (hx : 0 < x) (ht : 0 ≤ t) : ker σ a x t ≤ Real.exp ((a + 1) ^ 2 / x) * Real.exp (-t) := by
  rw [ker, ← Real.exp_add]
  refine Real.exp_le_exp.2 ?_
  have h := mul_le_mul_of_nonneg_left (hyp_ge hσ ht) hx.le
  have h2 : (a + 1) * t ≤ x * (t ^ 2 / 4) + (a + 1) ^ 2 / x := by
    have : 0 ≤ (x * t / 2 - (a + 1)) ^ 2 / x := by positivity
    have e : (x * t / 2 - (a + 1)) ^ 2 / x = x * (t ^ 2 / 4) + (a + 1) ^ 2 / x - (a + 1) * t := by
      field_simp
      ring
    linarith
  linarith

theorem ker_integrable {σ a x : ℝ} (hσ : -1 ≤ σ) (hx : 0 < x) : IntegrableOn (ker σ a x) (Ioi 0) := by
  refine Integrable.mono' ((integrableOn_exp_neg_Ioi 0).const_mul (Real.exp ((a + 1) ^ 2 / x))) (ker_continuous σ a x).aestronglyMeasurable ?_
  refine (ae_restrict_iff' measurableSet_Ioi).2 (Eventually.of_forall fun t ht => ?_)
  rw [Real.norm_eq_abs, abs_of_pos (ker_pos _ _ _ _)]
  exact ker_le hσ hx (le_of_lt ht)

theorem ker_tendsto {σ a x : ℝ} (hσ : -1 ≤ σ) (hx : 0 < x) : Tendsto (ker σ a x) atTop (𝓝 0) := by
  have h : Tendsto (fun t : ℝ => Real.exp ((a + 1) ^ 2 / x) * Real.exp (-t)) atTop (𝓝 (Real.exp ((a + 1) ^ 2 / x) * 0)) :=
    (Real.tendsto_exp_neg_atTop_nhds_zero).const_mul _
  rw [mul_zero] at h
  refine tendsto_of_tendsto_of_tendsto_of_le_of_le' tendsto_const_nhds h (Eventually.of_forall fun t => (Real.exp_pos _).le) ?_
  filter_upwards [eventually_ge_atTop 0] with t ht
  exact ker_le hσ hx ht

theorem ker_mul (σ a x t b : ℝ) : Real.exp (b * t) * ker σ a x t = ker σ (a + b) x t := by
  rw [ker, ker, ← Real.exp_add]
  congr 1
  ring

theorem hyp_mul_ker (σ a x t : ℝ) : hyp σ t * ker σ a x t = (ker σ (a + 1) x t + σ * ker σ (a - 1) x t) / 2 := by
  have h1 := ker_mul σ a x t 1
  have h2 := ker_mul σ a x t (-1)
  rw [one_mul] at h1
  rw [neg_one_mul, ← sub_eq_add_neg] at h2
  rw [← h1, ← h2, hyp]
  ring

theorem hasDerivAt_lap {σ : ℝ} (hσ : -1 ≤ σ) (hσ1 : σ ≤ 1) (a : ℝ) {x : ℝ} (hx : 0 < x) :
    HasDerivAt (lap σ a) (-(lap σ (a + 1) x + σ * lap σ (a - 1) x) / 2) x := by
  have h := (hasDerivAt_integral_of_dominated_loc_of_deriv_le (μ := volume.restrict (Ioi (0 : ℝ))) (F := fun y t => ker σ a y t)
    (F' := fun y t => -(hyp σ t * ker σ a y t)) (bound := fun t => ker σ (a + 1) (x / 2) t) (s := Ioi (x / 2)) (x₀ := x) (Ioi_mem_nhds (by linarith))
    (Eventually.of_forall fun y => (ker_continuous σ a y).aestronglyMeasurable) (ker_integrable hσ hx)
    (by
      have : Continuous fun t => -(hyp σ t * ker σ a x t) := by
        have := ker_continuous σ a x
        unfold hyp
        fun_prop
      exact this.aestronglyMeasurable)
    ((ae_restrict_iff' measurableSet_Ioi).2 (Eventually.of_forall fun t ht y hy => by
      have ht : 0 < t := ht
      have hy : x / 2 < y := hy
      rw [norm_neg, norm_mul, Real.norm_eq_abs, Real.norm_eq_abs, abs_of_nonneg (hyp_nonneg hσ ht.le), abs_of_pos (ker_pos σ a y t),
        ← ker_mul σ a (x / 2) t 1, one_mul]
      refine mul_le_mul (hyp_le hσ1 ht.le) (Real.exp_le_exp.2 ?_) (Real.exp_pos _).le (Real.exp_pos _).le
      have := mul_le_mul_of_nonneg_right hy.le (hyp_nonneg hσ ht.le)
      linarith))
    (ker_integrable hσ (by linarith))
    (Eventually.of_forall fun t y _ => by
      have h1 : HasDerivAt (fun y : ℝ => a * t - y * hyp σ t) (-(1 * hyp σ t)) y := by
        simpa using ((hasDerivAt_id y).mul_const (hyp σ t)).const_sub (a * t)
      refine h1.exp.congr_deriv ?_
      rw [ker]
      ring)).2
  refine h.congr_deriv ?_
  rw [integral_neg, neg_div]
  congr 1
  simp only [hyp_mul_ker]
  rw [integral_div, integral_add (ker_integrable hσ hx) ((ker_integrable hσ hx).const_mul σ), integral_const_mul]
  rfl

theorem lap_parts {σ : ℝ} (hσ : -1 ≤ σ) (a : ℝ) {x : ℝ} (hx : 0 < x) :
    a * lap σ a x - x * (lap σ (a + 1) x - σ * lap σ (a - 1) x) / 2 = -Real.exp (-(x * (1 + σ) / 2)) := by
  have hd : ∀ t, HasDerivAt (ker σ a x) (a * ker σ a x t - x / 2 * (ker σ (a + 1) x t - σ * ker σ (a - 1) x t)) t := by
    intro t
    have h1 : HasDerivAt (hyp σ) ((Real.exp t - σ * Real.exp (-t)) / 2) t := by
      have := ((Real.hasDerivAt_exp t).add (((hasDerivAt_neg t).exp).const_mul σ)).div_const 2
      refine this.congr_deriv ?_
      ring
    have h2 : HasDerivAt (fun t => a * t - x * hyp σ t) (a * 1 - x * ((Real.exp t - σ * Real.exp (-t)) / 2)) t :=
      ((hasDerivAt_id t).const_mul a).sub (h1.const_mul x)
    refine h2.exp.congr_deriv ?_
    have e1 := ker_mul σ a x t 1
    have e2 := ker_mul σ a x t (-1)
    rw [one_mul] at e1
    rw [neg_one_mul, ← sub_eq_add_neg] at e2
    rw [← e1, ← e2, ker]
    ring
  have i0 := ker_integrable (a := a) hσ hx
  have i1 := ker_integrable (a := a + 1) hσ hx
  have i2 := ker_integrable (a := a - 1) hσ hx
  have h := integral_Ioi_of_hasDerivAt_of_tendsto' (a := 0) (fun t _ => hd t) ((i0.const_mul a).sub ((i1.sub (i2.const_mul σ)).const_mul (x / 2)))
    (ker_tendsto hσ hx)
  have e0 : ker σ a x 0 = Real.exp (-(x * (1 + σ) / 2)) := by
    rw [ker, hyp]
    congr 1
    simp
    ring
  have i3 : Integrable (fun t => σ * ker σ (a - 1) x t) (volume.restrict (Ioi 0)) := i2.const_mul σ
  have i4 : Integrable (fun t => ker σ (a + 1) x t - σ * ker σ (a - 1) x t) (volume.restrict (Ioi 0)) := i1.sub i3
  rw [integral_sub (i0.const_mul a) (i4.const_mul (x / 2)), integral_const_mul, integral_const_mul, integral_sub i1 i3, integral_const_mul, e0] at h
  rw [zero_sub] at h
  rw [← h]
  simp only [lap]
  ring

/-! ## The trigonometric integrals -/

noncomputable def cosInt (ν x : ℝ) : ℝ := ∫ θ in (0 : ℝ)..Real.pi, Real.cos (ν * θ - x * Real.sin θ)
noncomputable def sinInt (ν x : ℝ) : ℝ := ∫ θ in (0 : ℝ)..Real.pi, Real.sin (x * Real.sin θ - ν * θ)
noncomputable def expInt (ν x : ℝ) : ℝ := ∫ θ in (0 : ℝ)..Real.pi, Real.exp (x * Real.cos θ) * Real.cos (ν * θ)

theorem cosInt_ii (ν x : ℝ) : IntervalIntegrable (fun θ => Real.cos (ν * θ - x * Real.sin θ)) volume 0 Real.pi :=
  Continuous.intervalIntegrable (by fun_prop) _ _
theorem sinInt_ii (ν x : ℝ) : IntervalIntegrable (fun θ => Real.sin (x * Real.sin θ - ν * θ)) volume 0 Real.pi :=
  Continuous.intervalIntegrable (by fun_prop) _ _
theorem expInt_ii (ν x : ℝ) : IntervalIntegrable (fun θ => Real.exp (x * Real.cos θ) * Real.cos (ν * θ)) volume 0 Real.pi :=
  Continuous.intervalIntegrable (by fun_prop) _ _

theorem hasDerivAt_param {F F' : ℝ → ℝ → ℝ} {x C : ℝ} (hF : ∀ y, Continuous (F y)) (hF' : Continuous (F' x))
    (hb : ∀ θ, ∀ y ∈ Metric.ball x 1, ‖F' y θ‖ ≤ C) (hd : ∀ θ y, HasDerivAt (fun y => F y θ) (F' y θ) y) :
    HasDerivAt (fun y => ∫ θ in (0 : ℝ)..Real.pi, F y θ) (∫ θ in (0 : ℝ)..Real.pi, F' x θ) x :=
  (intervalIntegral.hasDerivAt_integral_of_dominated_loc_of_deriv_le (bound := fun _ => C) (Metric.ball_mem_nhds x one_pos)
    (Eventually.of_forall fun y => (hF y).aestronglyMeasurable) ((hF x).intervalIntegrable _ _) hF'.aestronglyMeasurable
    (Eventually.of_forall fun θ _ y hy => hb θ y hy) intervalIntegrable_const (Eventually.of_forall fun θ _ y _ => hd θ y)).2

theorem hasDerivAt_cosInt (ν x : ℝ) : HasDerivAt (cosInt ν) ((cosInt (ν - 1) x - cosInt (ν + 1) x) / 2) x := by
  have h := hasDerivAt_param (x := x) (C := 1) (F := fun y θ => Real.cos (ν * θ - y * Real.sin θ))
    (F' := fun y θ => Real.sin θ * Real.sin (ν * θ - y * Real.sin θ)) (fun y => by fun_prop) (by fun_prop)
    (fun θ y _ => by
      rw [norm_mul, ← one_mul (1 : ℝ)]
      exact mul_le_mul (Real.abs_sin_le_one _) (Real.abs_sin_le_one _) (abs_nonneg _) zero_le_one)
    (fun θ y => by
      have h1 : HasDerivAt (fun y : ℝ => ν * θ - y * Real.sin θ) (-(1 * Real.sin θ)) y := by
        simpa using ((hasDerivAt_id y).mul_const (Real.sin θ)).const_sub (ν * θ)
      refine h1.cos.congr_deriv ?_
      ring)
  refine h.congr_deriv ?_
  rw [cosInt, cosInt, ← intervalIntegral.integral_sub (cosInt_ii _ _) (cosInt_ii _ _), ← intervalIntegral.integral_div]
  refine intervalIntegral.integral_congr fun θ _ => ?_
  have e1 : (ν - 1) * θ - x * Real.sin θ = (ν * θ - x * Real.sin θ) - θ := by ring
  have e2 : (ν + 1) * θ - x * Real.sin θ = (ν * θ - x * Real.sin θ) + θ := by ring
  simp only [e1, e2]
  rw [Real.cos_sub, Real.cos_add]
  ring

theorem hasDerivAt_sinInt (ν x : ℝ) : HasDerivAt (sinInt ν) ((sinInt (ν - 1) x - sinInt (ν + 1) x) / 2) x := by
  have h := hasDerivAt_param (x := x) (C := 1) (F := fun y θ => Real.sin (y * Real.sin θ - ν * θ))
    (F' := fun y θ => Real.sin θ * Real.cos (y * Real.sin θ - ν * θ)) (fun y => by fun_prop) (by fun_prop)
    (fun θ y _ => by
      rw [norm_mul, ← one_mul (1 : ℝ)]
      exact mul_le_mul (Real.abs_sin_le_one _) (Real.abs_cos_le_one _) (abs_nonneg _) zero_le_one)
    (fun θ y => by
      have h1 : HasDerivAt (fun y : ℝ => y * Real.sin θ - ν * θ) (1 * Real.sin θ) y := by
        simpa using ((hasDerivAt_id y).mul_const (Real.sin θ)).sub_const (ν * θ)
      refine h1.sin.congr_deriv ?_
      ring)
  refine h.congr_deriv ?_
  rw [sinInt, sinInt, ← intervalIntegral.integral_sub (sinInt_ii _ _) (sinInt_ii _ _), ← intervalIntegral.integral_div]
  refine intervalIntegral.integral_congr fun θ _ => ?_
  have e1 : x * Real.sin θ - (ν - 1) * θ = (x * Real.sin θ - ν * θ) + θ := by ring
  have e2 : x * Real.sin θ - (ν + 1) * θ = (x * Real.sin θ - ν * θ) - θ := by ring
  simp only [e1, e2]
  rw [Real.sin_sub, Real.sin_add]
  ring

theorem hasDerivAt_expInt (ν x : ℝ) : HasDerivAt (expInt ν) ((expInt (ν - 1) x + expInt (ν + 1) x) / 2) x := by
  have h := hasDerivAt_param (x := x) (C := Real.exp (|x| + 1)) (F := fun y θ => Real.exp (y * Real.cos θ) * Real.cos (ν * θ))
    (F' := fun y θ => Real.cos θ * Real.exp (y * Real.cos θ) * Real.cos (ν * θ)) (fun y => by fun_prop) (by fun_prop)
    (fun θ y hy => by
      have hy' : |y - x| < 1 := by simpa [Real.dist_eq] using hy
      rw [norm_mul, norm_mul, Real.norm_eq_abs, Real.norm_eq_abs, Real.norm_eq_abs, Real.abs_exp]
      have h1 : Real.exp (y * Real.cos θ) ≤ Real.exp (|x| + 1) := by
        refine Real.exp_le_exp.2 ?_
        have h2 : y * Real.cos θ ≤ |y| * 1 := (le_abs_self _).trans (by rw [abs_mul]; exact mul_le_mul_of_nonneg_left (Real.abs_cos_le_one _) (abs_nonneg _))
        have h3 : |y| ≤ |x| + |y - x| := by
          have := abs_add_le x (y - x)
          rwa [add_sub_cancel] at this
        linarith
      have h4 := mul_le_mul (Real.abs_cos_le_one θ) h1 (Real.exp_pos _).le zero_le_one
      have h5 := mul_le_mul h4 (Real.abs_cos_le_one (ν * θ)) (abs_nonneg _) (by positivity)
      linarith)
    (fun θ y => by
      have h1 : HasDerivAt (fun y : ℝ => y * Real.cos θ) (1 * Real.cos θ) y := (hasDerivAt_id y).mul_const _
      refine (h1.exp.mul_const _).congr_deriv ?_
      ring)
  refine h.congr_deriv ?_
  rw [expInt, expInt, ← intervalIntegral.integral_add (expInt_ii _ _) (expInt_ii _ _), ← intervalIntegral.integral_div]
  refine intervalIntegral.integral_congr fun θ _ => ?_
  have e1 : (ν - 1) * θ = ν * θ - θ := by ring
  have e2 : (ν + 1) * θ = ν * θ + θ := by ring
  simp only [e1, e2]
  rw [Real.cos_sub, Real.cos_add]
  ring

theorem cosInt_parts (ν x : ℝ) : ν * cosInt ν x - x * (cosInt (ν + 1) x + cosInt (ν - 1) x) / 2 = Real.sin (ν * Real.pi) := by
  have hd : ∀ θ, HasDerivAt (fun θ => Real.sin (ν * θ - x * Real.sin θ)) (ν * Real.cos (ν * θ - x * Real.sin θ) -
      x / 2 * (Real.cos ((ν + 1) * θ - x * Real.sin θ) + Real.cos ((ν - 1) * θ - x * Real.sin θ))) θ := by
    intro θ
    have h1 : HasDerivAt (fun θ => ν * θ - x * Real.sin θ) (ν * 1 - x * Real.cos θ) θ :=
      ((hasDerivAt_id θ).const_mul ν).sub ((Real.hasDerivAt_sin θ).const_mul x)
    refine h1.sin.congr_deriv ?_
    have e1 : (ν - 1) * θ - x * Real.sin θ = (ν * θ - x * Real.sin θ) - θ := by ring
    have e2 : (ν + 1) * θ - x * Real.sin θ = (ν * θ - x * Real.sin θ) + θ := by ring
    rw [e1, e2]
    generalize ν * θ - x * Real.sin θ = A
    rw [Real.cos_sub, Real.cos_add]
    ring
  have h := intervalIntegral.integral_eq_sub_of_hasDerivAt (a := 0) (b := Real.pi) (fun θ _ => hd θ) (Continuous.intervalIntegrable (by fun_prop) _ _)
  rw [intervalIntegral.integral_sub ((cosInt_ii _ _).const_mul _) (((cosInt_ii _ _).add (cosInt_ii _ _)).const_mul _),
    intervalIntegral.integral_const_mul, intervalIntegral.integral_const_mul, intervalIntegral.integral_add (cosInt_ii _ _) (cosInt_ii _ _)] at h
  simp only [Real.sin_pi, mul_zero, sub_zero, Real.sin_zero] at h
  rw [← h]
  simp only [cosInt]
  ring

theorem sinInt_parts (ν x : ℝ) : ν * sinInt ν x - x * (sinInt (ν + 1) x + sinInt (ν - 1) x) / 2 = Real.cos (ν * Real.pi) - 1 := by
  have hd : ∀ θ, HasDerivAt (fun θ => Real.cos (x * Real.sin θ - ν * θ)) (ν * Real.sin (x * Real.sin θ - ν * θ) -
      x / 2 * (Real.sin (x * Real.sin θ - (ν + 1) * θ) + Real.sin (x * Real.sin θ - (ν - 1) * θ))) θ := by
    intro θ
    have h1 : HasDerivAt (fun θ => x * Real.sin θ - ν * θ) (x * Real.cos θ - ν * 1) θ :=
      ((Real.hasDerivAt_sin θ).const_mul x).sub ((hasDerivAt_id θ).const_mul ν)
    refine h1.cos.congr_deriv ?_
    have e1 : x * Real.sin θ - (ν - 1) * θ = (x * Real.sin θ - ν * θ) + θ := by ring
    have e2 : x * Real.sin θ - (ν + 1) * θ = (x * Real.sin θ - ν * θ) - θ := by ring
    rw [e1, e2]
    generalize x * Real.sin θ - ν * θ = A
    rw [Real.sin_sub, Real.sin_add]
    ring
  have h := intervalIntegral.integral_eq_sub_of_hasDerivAt (a := 0) (b := Real.pi) (fun θ _ => hd θ) (Continuous.intervalIntegrable (by fun_prop) _ _)
  rw [intervalIntegral.integral_sub ((sinInt_ii _ _).const_mul _) (((sinInt_ii _ _).add (sinInt_ii _ _)).const_mul _),
    intervalIntegral.integral_const_mul, intervalIntegral.integral_const_mul, intervalIntegral.integral_add (sinInt_ii _ _) (sinInt_ii _ _)] at h
  simp only [Real.sin_pi, mul_zero, zero_sub, Real.sin_zero, Real.cos_neg, neg_zero, Real.cos_zero] at h
  rw [← h]
  simp only [sinInt]
  ring

theorem expInt_parts (ν x : ℝ) : ν * expInt ν x + x * (expInt (ν + 1) x - expInt (ν - 1) x) / 2 = Real.exp (-x) * Real.sin (ν * Real.pi) := by
  have hd : ∀ θ, HasDerivAt (fun θ => Real.exp (x * Real.cos θ) * Real.sin (ν * θ)) (ν * (Real.exp (x * Real.cos θ) * Real.cos (ν * θ)) +
      x / 2 * (Real.exp (x * Real.cos θ) * Real.cos ((ν + 1) * θ) - Real.exp (x * Real.cos θ) * Real.cos ((ν - 1) * θ))) θ := by
    intro θ
    have h1 : HasDerivAt (fun θ => ν * θ) (ν * 1) θ := (hasDerivAt_id θ).const_mul ν
    refine ((((Real.hasDerivAt_cos θ).const_mul x).exp).mul h1.sin).congr_deriv ?_
    have e1 : (ν - 1) * θ = ν * θ - θ := by ring
    have e2 : (ν + 1) * θ = ν * θ + θ := by ring
    rw [e1, e2, Real.cos_sub, Real.cos_add]
    ring
  have h := intervalIntegral.integral_eq_sub_of_hasDerivAt (a := 0) (b := Real.pi) (fun θ _ => hd θ) (Continuous.intervalIntegrable (by fun_prop) _ _)
  rw [intervalIntegral.integral_add ((expInt_ii _ _).const_mul _) (((expInt_ii _ _).sub (expInt_ii _ _)).const_mul _),
    intervalIntegral.integral_const_mul, intervalIntegral.integral_const_mul, intervalIntegral.integral_sub (expInt_ii _ _) (expInt_ii _ _)] at h
  simp only [Real.cos_pi, mul_neg, mul_one, mul_zero, Real.sin_zero, sub_zero] at h
  rw [← h]
  simp only [expInt]
  ring

/-! ## The four functions -/

theorem sin_shift (ν : ℝ) : Real.sin ((ν + 1) * Real.pi) = -Real.sin (ν * Real.pi) ∧ Real.sin ((ν - 1) * Real.pi) = -Real.sin (ν * Real.pi) := by
  rw [add_mul, sub_mul, one_mul, Real.sin_add_pi, Real.sin_sub_pi]
  exact ⟨rfl, rfl⟩

theorem cos_shift (ν : ℝ) : Real.cos ((ν + 1) * Real.pi) = -Real.cos (ν * Real.pi) ∧ Real.cos ((ν - 1) * Real.pi) = -Real.cos (ν * Real.pi) := by
  rw [add_mul, sub_mul, one_mul, Real.cos_add_pi, Real.cos_sub_pi]
  exact ⟨rfl, rfl⟩

theorem besselJ_eq (ν x : ℝ) : besselJ ν x = 1 / Real.pi * cosInt ν x - Real.sin (ν * Real.pi) / Real.pi * lap (-1) (-ν) x := by
  rw [besselJ, cosInt, lap]
  simp only [ker, hyp_sinh]
  congr 3
  funext t
  congr 1
  ring

theorem besselI_eq (ν x : ℝ) : besselI ν x = 1 / Real.pi * expInt ν x - Real.sin (ν * Real.pi) / Real.pi * lap 1 (-ν) x := by
  rw [besselI, expInt, lap]
  simp only [ker, hyp_cosh]
  congr 3
  funext t
  congr 1
  ring

theorem besselK_eq (ν : ℝ) {x : ℝ} (hx : 0 < x) : besselK ν x = (lap 1 ν x + lap 1 (-ν) x) / 2 := by
  rw [besselK, lap, lap, ← integral_add (ker_integrable (by norm_num) hx) (ker_integrable (by norm_num) hx), ← integral_div]
  congr 1
  funext t
  rw [ker, ker, hyp_cosh, Real.cosh_eq (ν * t), sub_eq_add_neg, sub_eq_add_neg, Real.exp_add, Real.exp_add, neg_mul, neg_mul]
  ring

theorem besselY_eq (ν : ℝ) {x : ℝ} (hx : 0 < x) :
    besselY ν x = 1 / Real.pi * sinInt ν x - 1 / Real.pi * (lap (-1) ν x + Real.cos (ν * Real.pi) * lap (-1) (-ν) x) := by
  have i := (ker_integrable (a := -ν) (le_refl (-1)) hx).const_mul (Real.cos (ν * Real.pi))
  rw [besselY, sinInt, lap, lap, ← integral_const_mul (Real.cos (ν * Real.pi)), ← integral_add (ker_integrable (le_refl _) hx) i]
  congr 3
  funext t
  rw [ker, ker, hyp_sinh, sub_eq_add_neg, sub_eq_add_neg, Real.exp_add, Real.exp_add, neg_mul x]
  ring

theorem hasDerivAt_besselJ (ν : ℝ) {x : ℝ} (h : 0 < x ∨ ∃ n : ℤ, ν = n) : HasDerivAt (besselJ ν) ((besselJ (ν - 1) x - besselJ (ν + 1) x) / 2) x := by
  have e : besselJ ν = fun x => 1 / Real.pi * cosInt ν x - Real.sin (ν * Real.pi) / Real.pi * lap (-1) (-ν) x := funext (besselJ_eq ν)
  rw [besselJ_eq, besselJ_eq, e, (sin_shift ν).1, (sin_shift ν).2]
  rcases h with hx | ⟨n, rfl⟩
  · refine (((hasDerivAt_cosInt ν x).const_mul (1 / Real.pi)).sub
      ((hasDerivAt_lap (le_refl _) (by norm_num) (-ν) hx).const_mul (Real.sin (ν * Real.pi) / Real.pi))).congr_deriv ?_
    rw [show -ν + 1 = -(ν - 1) by ring, show -ν - 1 = -(ν + 1) by ring]
    ring
  · rw [Real.sin_int_mul_pi]
    simp only [zero_div, zero_mul, sub_zero, neg_zero]
    refine ((hasDerivAt_cosInt _ x).const_mul (1 / Real.pi)).congr_deriv ?_
    ring

theorem besselJ_rec (ν : ℝ) {x : ℝ} (h : 0 < x ∨ ∃ n : ℤ, ν = n) : ν * besselJ ν x = x * (besselJ (ν - 1) x + besselJ (ν + 1) x) / 2 := by
  rw [besselJ_eq, besselJ_eq, besselJ_eq, (sin_shift ν).1, (sin_shift ν).2]
  have h1 := cosInt_parts ν x
  have hp := Real.pi_pos.ne'
  rcases h with hx | ⟨n, rfl⟩
  · have h2 := lap_parts (σ := -1) (le_refl _) (-ν) hx
    rw [show -ν + 1 = -(ν - 1) by ring, show -ν - 1 = -(ν + 1) by ring, show -(x * (1 + -1) / 2) = 0 by ring, Real.exp_zero] at h2
    linear_combination (1 / Real.pi) * h1 + Real.sin (ν * Real.pi) / Real.pi * h2
  · rw [Real.sin_int_mul_pi] at h1 ⊢
    linear_combination (1 / Real.pi) * h1

theorem hasDerivAt_besselY (ν : ℝ) {x : ℝ} (hx : 0 < x) : HasDerivAt (besselY ν) ((besselY (ν - 1) x - besselY (ν + 1) x) / 2) x := by
  rw [besselY_eq _ hx, besselY_eq _ hx, (cos_shift ν).1, (cos_shift ν).2]
  have h1 := hasDerivAt_lap (σ := -1) (le_refl _) (by norm_num) ν hx
  have h2 := (hasDerivAt_lap (σ := -1) (le_refl _) (by norm_num) (-ν) hx).const_mul (Real.cos (ν * Real.pi))
  have h := ((hasDerivAt_sinInt ν x).const_mul (1 / Real.pi)).sub ((h1.add h2).const_mul (1 / Real.pi))
  refine (h.congr_of_eventuallyEq ?_).congr_deriv ?_
  · filter_upwards [Ioi_mem_nhds hx] with y hy
    exact besselY_eq ν hy
  · rw [show -ν + 1 = -(ν - 1) by ring, show -ν - 1 = -(ν + 1) by ring]
    ring

theorem besselY_rec (ν : ℝ) {x : ℝ} (hx : 0 < x) : ν * besselY ν x = x * (besselY (ν - 1) x + besselY (ν + 1) x) / 2 := by
  rw [besselY_eq _ hx, besselY_eq _ hx, besselY_eq _ hx, (cos_shift ν).1, (cos_shift ν).2]
  have h1 := sinInt_parts ν x
  have h2 := lap_parts (σ := -1) (le_refl _) (-ν) hx
  have h3 := lap_parts (σ := -1) (le_refl _) ν hx
  rw [show -ν + 1 = -(ν - 1) by ring, show -ν - 1 = -(ν + 1) by ring, show -(x * (1 + -1) / 2) = 0 by ring, Real.exp_zero] at h2
  rw [show -(x * (1 + -1) / 2) = 0 by ring, Real.exp_zero] at h3
  linear_combination (1 / Real.pi) * h1 + Real.cos (ν * Real.pi) / Real.pi * h2 - 1 / Real.pi * h3

theorem hasDerivAt_besselI (ν : ℝ) {x : ℝ} (h : 0 < x ∨ ∃ n : ℤ, ν = n) : HasDerivAt (besselI ν) ((besselI (ν - 1) x + besselI (ν + 1) x) / 2) x := by
  have e : besselI ν = fun x => 1 / Real.pi * expInt ν x - Real.sin (ν * Real.pi) / Real.pi * lap 1 (-ν) x := funext (besselI_eq ν)
  rw [besselI_eq, besselI_eq, e, (sin_shift ν).1, (sin_shift ν).2]
  rcases h with hx | ⟨n, rfl⟩
  · refine (((hasDerivAt_expInt ν x).const_mul (1 / Real.pi)).sub
      ((hasDerivAt_lap (by norm_num) (le_refl _) (-ν) hx).const_mul (Real.sin (ν * Real.pi) / Real.pi))).congr_deriv ?_
    rw [show -ν + 1 = -(ν - 1) by ring, show -ν - 1 = -(ν + 1) by ring]
    ring
  · rw [Real.sin_int_mul_pi]
    simp only [zero_div, zero_mul, sub_zero, neg_zero]
    refine ((hasDerivAt_expInt _ x).const_mul (1 / Real.pi)).congr_deriv ?_
    ring

theorem besselI_rec (ν : ℝ) {x : ℝ} (h : 0 < x ∨ ∃ n : ℤ, ν = n) : ν * besselI ν x = x * (besselI (ν - 1) x - besselI (ν + 1) x) / 2 := by
  rw [besselI_eq, besselI_eq, besselI_eq, (sin_shift ν).1, (sin_shift ν).2]
  have h1 := expInt_parts ν x
  have hp := Real.pi_pos.ne'
  rcases h with hx | ⟨n, rfl⟩
  · have h2 := lap_parts (σ := 1) (by norm_num) (-ν) hx
    rw [show -ν + 1 = -(ν - 1) by ring, show -ν - 1 = -(ν + 1) by ring, show -(x * (1 + 1) / 2) = -x by ring] at h2
    linear_combination (1 / Real.pi) * h1 + Real.sin (ν * Real.pi) / Real.pi * h2
  · rw [Real.sin_int_mul_pi] at h1 ⊢
    linear_combination (1 / Real.pi) * h1

theorem hasDerivAt_besselK (ν : ℝ) {x : ℝ} (hx : 0 < x) : HasDerivAt (besselK ν) (-(besselK (ν - 1) x + besselK (ν + 1) x) / 2) x := by
  rw [besselK_eq _ hx, besselK_eq _ hx]
  have h1 := hasDerivAt_lap (σ := 1) (by norm_num) (le_refl _) ν hx
  have h2 := hasDerivAt_lap (σ := 1) (by norm_num) (le_refl _) (-ν) hx
  refine (((h1.add h2).div_const 2).congr_of_eventuallyEq ?_).congr_deriv ?_
  · filter_upwards [Ioi_mem_nhds hx] with y hy
    exact besselK_eq ν hy
  · rw [show -ν + 1 = -(ν - 1) by ring, show -ν - 1 = -(ν + 1) by ring]
    ring

theorem besselK_rec (ν : ℝ) {x : ℝ} (hx : 0 < x) : ν * besselK ν x = x * (besselK (ν + 1) x - besselK (ν - 1) x) / 2 := by
  rw [besselK_eq _ hx, besselK_eq _ hx, besselK_eq _ hx]
  have h2 := lap_parts (σ := 1) (by norm_num) (-ν) hx
  have h3 := lap_parts (σ := 1) (by norm_num) ν hx
  rw [show -ν + 1 = -(ν - 1) by ring, show -ν - 1 = -(ν + 1) by ring] at h2
  linear_combination (1 / 2) * h3 - 1 / 2 * h2

/-! ## Opposite orders -/

theorem besselJ_neg_one (x : ℝ) : besselJ (-1) x = -besselJ 1 x := by
  have h := besselJ_rec 0 (x := x) (Or.inr ⟨0, by simp⟩)
  rcases eq_or_ne x 0 with rfl | hx
  · have h1 := besselJ_rec 1 (x := 0) (Or.inr ⟨1, by simp⟩)
    have h2 := besselJ_rec (-1) (x := 0) (Or.inr ⟨-1, by simp⟩)
    linarith
  · have : x * (besselJ (-1) x + besselJ 1 x) = 0 := by rw [zero_sub, zero_add] at h; linarith
    have := (mul_eq_zero.1 this).resolve_left hx
    linarith

theorem besselI_neg_one (x : ℝ) : besselI (-1) x = besselI 1 x := by
  have h := besselI_rec 0 (x := x) (Or.inr ⟨0, by simp⟩)
  rcases eq_or_ne x 0 with rfl | hx
  · have h1 := besselI_rec 1 (x := 0) (Or.inr ⟨1, by simp⟩)
    have h2 := besselI_rec (-1) (x := 0) (Or.inr ⟨-1, by simp⟩)
    linarith
  · have : x * (besselI (-1) x - besselI 1 x) = 0 := by rw [zero_sub, zero_add] at h; linarith
    have := (mul_eq_zero.1 this).resolve_left hx
    linarith

theorem besselY_neg_one {x : ℝ} (hx : 0 < x) : besselY (-1) x = -besselY 1 x := by
  have h := besselY_rec 0 hx
  have : x * (besselY (-1) x + besselY 1 x) = 0 := by rw [zero_sub, zero_add] at h; linarith
  have := (mul_eq_zero.1 this).resolve_left hx.ne'
  linarith

theorem besselK_neg_one {x : ℝ} (hx : 0 < x) : besselK (-1) x = besselK 1 x := by
  rw [besselK_eq _ hx, besselK_eq _ hx, neg_neg]
  ring

end MU.Bessel
