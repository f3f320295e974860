import Verif.Lemmas.ExpInt
import Mathlib.NumberTheory.Harmonic.GammaDeriv

/-!
# The exponential integrals near zero

`E1(x) + ln x` and `ln x - Ei(x)` tend to minus the constant of Euler and Mascheroni.
-/

set_option linter.unusedSectionVars false

namespace MU.ExpInt
open Filter Topology Set Spec MeasureTheory

/-- The constant of Euler and Mascheroni as an integral: minus the derivative of the gamma function at 1. -/
theorem integral_log_exp : ∫ t in Ioi (0 : ℝ), Real.log t * Real.exp (-t) = -Real.eulerMascheroniConstant := by
  have h1 := Complex.hasDerivAt_GammaIntegral (s := 1) (by simp)
  have h2 : HasDerivAt Complex.GammaIntegral (-Real.eulerMascheroniConstant : ℂ) 1 := by
    refine Complex.hasDerivAt_Gamma_one.congr_of_eventuallyEq ?_
    have : IsOpen {s : ℂ | 0 < s.re} := Complex.continuous_re.isOpen_preimage _ isOpen_Ioi
    filter_upwards [this.mem_nhds (by simp : (0 : ℝ) < (1 : ℂ).re)] with a ha
    exact (Complex.Gamma_eq_integral ha).symm
  have h3 := h1.unique h2
  have h4 : ∫ t in Ioi (0 : ℝ), ((t : ℂ) ^ ((1 : ℂ) - 1) * ((Real.log t : ℂ) * (Real.exp (-t) : ℂ))) =
      ((∫ t in Ioi (0 : ℝ), Real.log t * Real.exp (-t) : ℝ) : ℂ) := by
    refine Eq.trans ?_ (integral_ofReal (𝕜 := ℂ))
    refine setIntegral_congr_fun measurableSet_Ioi fun t _ => ?_
    simp
  rw [h4] at h3
  exact_mod_cast h3

theorem integrable_log_exp : IntegrableOn (fun t => Real.log t * Real.exp (-t)) (Ioi 0) := by
  by_contra h
  have h1 := integral_undef h
  rw [integral_log_exp] at h1
  have := Real.one_half_lt_eulerMascheroniConstant
  linarith

theorem E1_parts {x : ℝ} (hx : 0 < x) : E1 x = (∫ t in Ioi x, Real.log t * Real.exp (-t)) - Real.log x * Real.exp (-x) := by
  have hi : IntegrableOn (fun t => Real.log t * Real.exp (-t)) (Ioi x) := integrable_log_exp.mono_set (Ioi_subset_Ioi hx.le)
  have hd : ∀ t ∈ Ici x, HasDerivAt (fun t => -(Real.log t * Real.exp (-t))) (Real.log t * Real.exp (-t) - Real.exp (-t) / t) t := by
    intro t ht
    have ht0 : t ≠ 0 := (lt_of_lt_of_le hx ht).ne'
    have h1 := ((Real.hasDerivAt_log ht0).mul ((hasDerivAt_neg t).exp)).neg
    refine h1.congr_deriv ?_
    field_simp
    ring
  have ht : Tendsto (fun t : ℝ => -(Real.log t * Real.exp (-t))) atTop (𝓝 0) := by
    rw [← neg_zero]
    refine Tendsto.neg ?_
    have h1 : Tendsto (fun t : ℝ => t * Real.exp (-t)) atTop (𝓝 0) := by simpa using Real.tendsto_pow_mul_exp_neg_atTop_nhds_zero 1
    refine squeeze_zero' (g := fun t => t * Real.exp (-t)) ?_ ?_ h1
    · filter_upwards [eventually_ge_atTop 1] with t ht
      exact mul_nonneg (Real.log_nonneg ht) (Real.exp_pos _).le
    · filter_upwards [eventually_ge_atTop 1] with t ht
      exact mul_le_mul_of_nonneg_right (by linarith [Real.log_le_sub_one_of_pos (by linarith : 0 < t)]) (Real.exp_pos _).le
  have h := integral_Ioi_of_hasDerivAt_of_tendsto' hd (hi.sub (E1_integrable hx)) ht
  rw [integral_sub hi (E1_integrable hx)] at h
  rw [E1]
  linarith

/-- `E1(x) + ln x` tends to `-γ`. -/
theorem tendsto_E1_log : Tendsto (fun x => E1 x + Real.log x) (𝓝[>] 0) (𝓝 (-Real.eulerMascheroniConstant)) := by
  have h1 : Tendsto (fun x : ℝ => ∫ t in Ioi x, Real.log t * Real.exp (-t)) (𝓝[>] 0) (𝓝 (-Real.eulerMascheroniConstant)) := by
    have h2 : ∀ x : ℝ, 0 < x → ∫ t in Ioi x, Real.log t * Real.exp (-t) = -Real.eulerMascheroniConstant - ∫ t in (0 : ℝ)..x, Real.log t * Real.exp (-t) := by
      intro x hx
      rw [← integral_log_exp, ← intervalIntegral.integral_Ioi_sub_Ioi integrable_log_exp hx.le]
      ring
    have h3 : Tendsto (fun x : ℝ => ∫ t in (0 : ℝ)..x, Real.log t * Real.exp (-t)) (𝓝[>] 0) (𝓝 0) := by
      have hii : IntervalIntegrable (fun t => Real.log t * Real.exp (-t)) volume 0 1 := by
        rw [intervalIntegrable_iff_integrableOn_Ioc_of_le zero_le_one]
        exact integrable_log_exp.mono_set Ioc_subset_Ioi_self
      have hc := intervalIntegral.continuousOn_primitive_interval' hii left_mem_uIcc
      have := (hc 0 left_mem_uIcc).tendsto
      rw [intervalIntegral.integral_same, uIcc_of_le zero_le_one] at this
      exact this.mono_left (nhdsWithin_le_of_mem (Icc_mem_nhdsGT zero_lt_one))
    have h4 := (tendsto_const_nhds (x := -Real.eulerMascheroniConstant)).sub h3
    rw [sub_zero] at h4
    refine h4.congr' ?_
    filter_upwards [self_mem_nhdsWithin] with x hx
    exact (h2 x hx).symm
  have h5 : Tendsto (fun x : ℝ => Real.log x * (1 - Real.exp (-x))) (𝓝[>] 0) (𝓝 0) := by
    have h6 : Tendsto (fun x : ℝ => Real.log x * x) (𝓝[>] 0) (𝓝 0) := by simpa using tendsto_log_mul_rpow_nhdsGT_zero (r := 1) one_pos
    have h7 : Tendsto (fun x : ℝ => (1 - Real.exp (-x)) / x) (𝓝[>] 0) (𝓝 1) := by
      have h8 : HasDerivAt (fun x : ℝ => -Real.exp (-x)) 1 0 := by
        have := ((hasDerivAt_neg (0 : ℝ)).exp).fun_neg
        refine this.congr_deriv ?_
        simp
      have h9 := h8.tendsto_slope_zero_right
      refine h9.congr' ?_
      filter_upwards [self_mem_nhdsWithin] with x hx
      simp
      ring
    have h10 := h6.mul h7
    rw [zero_mul] at h10
    refine h10.congr' ?_
    filter_upwards [self_mem_nhdsWithin] with x hx
    have : x ≠ 0 := (mem_Ioi.1 hx).ne'
    field_simp
  have h11 := h1.add h5
  rw [add_zero] at h11
  refine h11.congr' ?_
  filter_upwards [self_mem_nhdsWithin] with x hx
  rw [E1_parts hx]
  ring

/-- A function whose derivative is between `0` and `c`, from its limit at zero. -/
theorem from_limit {f f' : ℝ → ℝ} {l b c x : ℝ} (hf : ∀ t, 0 < t → HasDerivAt f (f' t) t) (h0 : ∀ t, 0 < t → t ≤ b → 0 ≤ f' t)
    (hc : ∀ t, 0 < t → t ≤ b → f' t ≤ c) (hl : Tendsto f (𝓝[>] 0) (𝓝 l)) (hx : 0 < x) (hx' : x ≤ b) : l ≤ f x ∧ f x ≤ l + c * x := by
  have key : ∀ a, 0 < a → a ≤ x → 0 ≤ f x - f a ∧ f x - f a ≤ c * (x - a) := by
    intro a ha hax
    have hcont : ContinuousOn f (Icc a x) := fun t ht => (hf t (lt_of_lt_of_le ha ht.1)).continuousAt.continuousWithinAt
    have hdiff : DifferentiableOn ℝ f (interior (Icc a x)) := fun t ht =>
      (hf t (lt_of_lt_of_le ha (interior_subset ht).1)).differentiableAt.differentiableWithinAt
    constructor
    · have := (convex_Icc a x).mul_sub_le_image_sub_of_le_deriv hcont hdiff (C := 0) (fun t ht => by
        have ht' := interior_subset ht
        rw [(hf t (lt_of_lt_of_le ha ht'.1)).deriv]
        exact h0 t (lt_of_lt_of_le ha ht'.1) (ht'.2.trans hx')) a ⟨le_rfl, hax⟩ x ⟨hax, le_rfl⟩ hax
      linarith
    · exact (convex_Icc a x).image_sub_le_mul_sub_of_deriv_le hcont hdiff (C := c) (fun t ht => by
        have ht' := interior_subset ht
        rw [(hf t (lt_of_lt_of_le ha ht'.1)).deriv]
        exact hc t (lt_of_lt_of_le ha ht'.1) (ht'.2.trans hx')) a ⟨le_rfl, hax⟩ x ⟨hax, le_rfl⟩ hax
  have hev : ∀ᶠ a in 𝓝[>] (0 : ℝ), 0 < a ∧ a ≤ x := by
    filter_upwards [self_mem_nhdsWithin, Ioo_mem_nhdsGT hx] with a ha ha'
    exact ⟨ha, ha'.2.le⟩
  constructor
  · exact le_of_tendsto hl (hev.mono fun a ha => by linarith [(key a ha.1 ha.2).1])
  · have h2 : Tendsto (fun a => f a + c * (x - a)) (𝓝[>] 0) (𝓝 (l + c * (x - 0))) :=
      hl.add (tendsto_const_nhds.mul (tendsto_const_nhds.sub (tendsto_nhdsWithin_of_tendsto_nhds tendsto_id)))
    rw [sub_zero] at h2
    exact ge_of_tendsto h2 (hev.mono fun a ha => by linarith [(key a ha.1 ha.2).2])

/-- `E1` near zero. -/
theorem E1_near_zero {x : ℝ} (hx : 0 < x) : -Real.log x - Real.eulerMascheroniConstant ≤ E1 x ∧ E1 x ≤ -Real.log x - Real.eulerMascheroniConstant + x := by
  have h := from_limit (f := fun x => E1 x + Real.log x) (f' := fun x => -(Real.exp (-x) / x) + x⁻¹) (c := 1) (b := x)
    (fun t ht => (hasDerivAt_E1 ht).add (Real.hasDerivAt_log ht.ne')) (fun t ht _ => by
      have h1 : Real.exp (-t) ≤ 1 := Real.exp_le_one_iff.2 (by linarith)
      have : Real.exp (-t) / t ≤ t⁻¹ := by rw [div_eq_mul_inv]; exact mul_le_of_le_one_left (by positivity) h1
      linarith) (fun t ht _ => by
      have h1 : 1 - t ≤ Real.exp (-t) := by linarith [Real.add_one_le_exp (-t)]
      have : (1 - t) / t ≤ Real.exp (-t) / t := div_le_div_of_nonneg_right h1 ht.le
      have e : (1 - t) / t = t⁻¹ - 1 := by field_simp
      linarith) tendsto_E1_log hx le_rfl
  constructor <;> linarith [h.1, h.2]

/-- `Ei` near zero. -/
theorem eiF_near_zero {x : ℝ} (hx : 0 < x) (hx' : x ≤ 1) :
    Real.log x + Real.eulerMascheroniConstant ≤ eiF x ∧ eiF x ≤ Real.log x + Real.eulerMascheroniConstant + 1.72 * x := by
  have hl : Tendsto (fun x => eiF x - Real.log x) (𝓝[>] 0) (𝓝 Real.eulerMascheroniConstant) := by
    have := tendsto_eiF_add_E1.sub tendsto_E1_log
    rw [zero_sub, neg_neg] at this
    refine this.congr fun x => ?_
    ring
  have h := from_limit (f := fun x => eiF x - Real.log x) (f' := fun x => Real.exp x / x - x⁻¹) (c := 1.72) (b := 1)
    (fun t ht => (hasDerivAt_eiF ht).sub (Real.hasDerivAt_log ht.ne')) (fun t ht _ => by
      have h1 : 1 ≤ Real.exp t := Real.one_le_exp ht.le
      have : t⁻¹ ≤ Real.exp t / t := by rw [div_eq_mul_inv]; exact le_mul_of_one_le_left (by positivity) h1
      linarith) (fun t ht ht1 => by
      have h1 : Real.exp t ≤ 1 + 1.72 * t := by
        have hcv := convexOn_exp.2 (mem_univ (0 : ℝ)) (mem_univ (1 : ℝ)) (by linarith : 0 ≤ 1 - t) ht.le (by ring)
        simp at hcv
        have := Real.exp_one_lt_d9
        norm_num at this ⊢
        nlinarith
      have : Real.exp t / t ≤ (1 + 1.72 * t) / t := div_le_div_of_nonneg_right h1 ht.le
      have e : (1 + 1.72 * t) / t = t⁻¹ + 1.72 := by field_simp
      linarith) hl hx hx'
  constructor <;> linarith [h.1, h.2]

end MU.ExpInt
