import Verif.Spec.SpecialFunctions
import Mathlib.Analysis.Calculus.DSlope
import Mathlib.Analysis.Calculus.MeanValue
import Mathlib.Analysis.SpecialFunctions.ExpDeriv
import Mathlib.MeasureTheory.Integral.IntervalIntegral.FundThmCalculus
import Mathlib.MeasureTheory.Measure.Lebesgue.Integral
import Mathlib.Tactic.Ring
import Mathlib.Tactic.Linarith
import Mathlib.Tactic.FieldSimp
import Mathlib.Tactic.Positivity

/-!
# The exponential integrals
-/

namespace MU.ExpInt
open Filter Topology MeasureTheory Set Spec

/-- A function whose derivative is bounded by that of another one varies less. -/
theorem cmp {f f' g g' : ℝ → ℝ} {a b : ℝ} (hab : a ≤ b) (hf : ∀ x ∈ Icc a b, HasDerivAt f (f' x) x) (hg : ∀ x ∈ Icc a b, HasDerivAt g (g' x) x)
    (h : ∀ x ∈ Ioo a b, |f' x| ≤ g' x) : |f b - f a| ≤ g b - g a := by
  have h1 : MonotoneOn (fun x => g x - f x) (Icc a b) := by
    refine monotoneOn_of_hasDerivWithinAt_nonneg (f' := fun x => g' x - f' x) (convex_Icc a b)
      (fun y hy => ((hg y hy).sub (hf y hy)).continuousAt.continuousWithinAt)
      (fun y hy => ((hg y (interior_subset hy)).sub (hf y (interior_subset hy))).hasDerivWithinAt) ?_
    intro y hy
    rw [interior_Icc] at hy
    have := (abs_le.1 (h y hy)).2
    linarith
  have h2 : MonotoneOn (fun x => g x + f x) (Icc a b) := by
    refine monotoneOn_of_hasDerivWithinAt_nonneg (f' := fun x => g' x + f' x) (convex_Icc a b)
      (fun y hy => ((hg y hy).add (hf y hy)).continuousAt.continuousWithinAt)
      (fun y hy => ((hg y (interior_subset hy)).add (hf y (interior_subset hy))).hasDerivWithinAt) ?_
    intro y hy
    rw [interior_Icc] at hy
    have := (abs_le.1 (h y hy)).1
    linarith
  have e1 := h1 (left_mem_Icc.2 hab) (right_mem_Icc.2 hab) hab
  have e2 := h2 (left_mem_Icc.2 hab) (right_mem_Icc.2 hab) hab
  simp only at e1 e2
  rw [abs_le]
  constructor <;> linarith

/-! ## E1 -/

theorem E1_integrable {x : ℝ} (hx : 0 < x) : IntegrableOn (fun t => Real.exp (-t) / t) (Ioi x) := by
  refine Integrable.mono' ((integrableOn_exp_neg_Ioi x).div_const x) ?_ ?_
  · refine ContinuousOn.aestronglyMeasurable (fun t ht => ?_) measurableSet_Ioi
    have : t ≠ 0 := (hx.trans ht).ne'
    exact ((Real.continuous_exp.comp continuous_neg).continuousAt.div continuousAt_id this).continuousWithinAt
  · refine (ae_restrict_mem measurableSet_Ioi).mono fun t ht => ?_
    have h0 : 0 < t := hx.trans ht
    rw [Real.norm_eq_abs, abs_of_nonneg (by positivity)]
    exact div_le_div_of_nonneg_left (Real.exp_pos _).le hx (le_of_lt ht)

theorem E1_sub {a b : ℝ} (ha : 0 < a) (hb : 0 < b) : E1 a - E1 b = ∫ t in a..b, Real.exp (-t) / t :=
  intervalIntegral.integral_Ioi_sub_Ioi' (E1_integrable ha) (E1_integrable hb)

theorem continuousAt_expdiv {x : ℝ} (hx : x ≠ 0) : ContinuousAt (fun t => Real.exp (-t) / t) x :=
  (Real.continuous_exp.comp continuous_neg).continuousAt.div continuousAt_id hx

theorem intervalIntegrable_expdiv {a b : ℝ} (ha : 0 < a) (hb : 0 < b) : IntervalIntegrable (fun t => Real.exp (-t) / t) volume a b := by
  refine ContinuousOn.intervalIntegrable fun t ht => ?_
  have : 0 < t := lt_of_lt_of_le (lt_min ha hb) ht.1
  exact (continuousAt_expdiv this.ne').continuousWithinAt

theorem hasDerivAt_E1 {x : ℝ} (hx : 0 < x) : HasDerivAt E1 (-(Real.exp (-x) / x)) x := by
  have h1 : HasDerivAt (fun b => ∫ t in x..b, Real.exp (-t) / t) (Real.exp (-x) / x) x := by
    refine intervalIntegral.integral_hasDerivAt_right (by simp) ?_ (continuousAt_expdiv hx.ne')
    refine ContinuousAt.stronglyMeasurableAtFilter (s := Ioi 0) isOpen_Ioi (fun t ht => continuousAt_expdiv (ne_of_gt ht)) x hx
  have h2 : HasDerivAt (fun b => E1 x - ∫ t in x..b, Real.exp (-t) / t) (-(Real.exp (-x) / x)) x := h1.const_sub _
  refine h2.congr_of_eventuallyEq ?_
  filter_upwards [lt_mem_nhds hx] with b hb
  rw [← E1_sub hx hb]
  ring

theorem E1_nonneg {x : ℝ} (hx : 0 < x) : 0 ≤ E1 x := by
  refine setIntegral_nonneg measurableSet_Ioi fun t ht => ?_
  have h0 : 0 < t := hx.trans ht
  positivity

theorem E1_le {x : ℝ} (hx : 0 < x) : E1 x ≤ Real.exp (-x) / x := by
  have : E1 x ≤ ∫ t in Ioi x, Real.exp (-t) / x := by
    refine setIntegral_mono_on (E1_integrable hx) ((integrableOn_exp_neg_Ioi x).div_const x) measurableSet_Ioi fun t ht => ?_
    exact div_le_div_of_nonneg_left (Real.exp_pos _).le hx (le_of_lt ht)
  rwa [integral_div, integral_exp_neg_Ioi] at this

theorem E1_anti {a b : ℝ} (ha : 0 < a) (hab : a ≤ b) : E1 b ≤ E1 a := by
  have h := E1_sub ha (ha.trans_le hab)
  have : 0 ≤ ∫ t in a..b, Real.exp (-t) / t := by
    refine intervalIntegral.integral_nonneg hab fun t ht => ?_
    have h0 : 0 < t := ha.trans_le ht.1
    positivity
  linarith

theorem tendsto_exp_neg_div : Tendsto (fun x : ℝ => Real.exp (-x) / x) atTop (𝓝 0) := by
  have h1 : Tendsto (fun x : ℝ => Real.exp (-x)) atTop (𝓝 0) := Real.tendsto_exp_neg_atTop_nhds_zero
  have h2 : Tendsto (fun x : ℝ => x⁻¹) atTop (𝓝 0) := tendsto_inv_atTop_zero
  have := h1.mul h2
  simpa [div_eq_mul_inv] using this

theorem tendsto_E1 : Tendsto E1 atTop (𝓝 0) := by
  refine tendsto_of_tendsto_of_tendsto_of_le_of_le' tendsto_const_nhds tendsto_exp_neg_div ?_ ?_
  · filter_upwards [eventually_gt_atTop 0] with x hx using E1_nonneg hx
  · filter_upwards [eventually_gt_atTop 0] with x hx using E1_le hx

/-! ## Ei -/

/-- `(e^t - e^-t) / t`, continued at zero. -/
noncomputable def sinhc (t : ℝ) : ℝ := dslope (fun t => Real.exp t - Real.exp (-t)) 0 t

theorem sinhc_eq {t : ℝ} (ht : t ≠ 0) : sinhc t = Real.exp t / t - Real.exp (-t) / t := by
  rw [sinhc, dslope_of_ne _ ht, slope_def_field]
  simp
  rw [sub_div]

theorem continuous_sinhc : Continuous sinhc := by
  rw [← continuousOn_univ]
  unfold sinhc
  refine (continuousOn_dslope univ_mem).2 ⟨?_, ?_⟩
  · exact (Real.continuous_exp.sub (Real.continuous_exp.comp continuous_neg)).continuousOn
  · exact Real.differentiableAt_exp.sub (differentiableAt_id.neg.exp)

/-- `Ei`, for positive arguments. -/
noncomputable def eiF (x : ℝ) : ℝ := (∫ t in (0 : ℝ)..x, sinhc t) - E1 x

theorem continuousAt_expdiv' {x : ℝ} (hx : x ≠ 0) : ContinuousAt (fun t => Real.exp t / t) x :=
  Real.continuous_exp.continuousAt.div continuousAt_id hx

theorem tendsto_integral_sinhc (x : ℝ) : Tendsto (fun δ => ∫ t in δ..x, sinhc t) (𝓝[>] 0) (𝓝 (∫ t in (0 : ℝ)..x, sinhc t)) := by
  have h : Continuous fun δ => ∫ t in x..δ, sinhc t := intervalIntegral.continuous_primitive (fun a b => continuous_sinhc.intervalIntegrable a b) x
  have h2 : Tendsto (fun δ => -∫ t in x..δ, sinhc t) (𝓝[>] 0) (𝓝 (-∫ t in x..(0 : ℝ), sinhc t)) := (h.neg.tendsto 0).mono_left nhdsWithin_le_nhds
  simpa only [← intervalIntegral.integral_symm] using h2

theorem isEi_eiF {x : ℝ} (hx : 0 < x) : IsEi x (eiF x) := by
  unfold IsEi eiF
  refine Tendsto.congr' ?_ ((tendsto_integral_sinhc x).sub_const (E1 x))
  filter_upwards [self_mem_nhdsWithin] with δ hδ
  have hδ : 0 < δ := hδ
  have h1 : ∫ t in Iic (-δ), Real.exp t / t = -E1 δ := by
    have := integral_comp_neg_Iic (-δ) (fun t => Real.exp (-t) / t)
    simp only [neg_neg] at this
    rw [E1, ← this, ← integral_neg]
    refine setIntegral_congr_fun measurableSet_Iic fun t _ => ?_
    rw [div_neg, neg_neg]
  have h2 : ∫ t in δ..x, sinhc t = (∫ t in δ..x, Real.exp t / t) - ∫ t in δ..x, Real.exp (-t) / t := by
    rw [← intervalIntegral.integral_sub]
    · refine intervalIntegral.integral_congr fun t ht => ?_
      have : 0 < t := lt_of_lt_of_le (lt_min hδ hx) ht.1
      exact sinhc_eq this.ne'
    · refine ContinuousOn.intervalIntegrable fun t ht => ?_
      have : 0 < t := lt_of_lt_of_le (lt_min hδ hx) ht.1
      exact (continuousAt_expdiv' this.ne').continuousWithinAt
    · exact intervalIntegrable_expdiv hδ hx
  rw [h1, h2, ← E1_sub hδ hx]
  ring

theorem isEi_iff {x v : ℝ} (hx : 0 < x) : IsEi x v ↔ v = eiF x :=
  ⟨fun h => tendsto_nhds_unique h (isEi_eiF hx), fun h => h ▸ isEi_eiF hx⟩

theorem hasDerivAt_eiF {x : ℝ} (hx : 0 < x) : HasDerivAt eiF (Real.exp x / x) x := by
  have h1 : HasDerivAt (fun b => ∫ t in (0 : ℝ)..b, sinhc t) (sinhc x) x :=
    intervalIntegral.integral_hasDerivAt_right (continuous_sinhc.intervalIntegrable _ _)
      (continuous_sinhc.stronglyMeasurableAtFilter _ _) continuous_sinhc.continuousAt
  refine (h1.sub (hasDerivAt_E1 hx)).congr_deriv ?_
  rw [sinhc_eq hx.ne']
  ring

theorem tendsto_eiF_add_E1 : Tendsto (fun x => eiF x + E1 x) (𝓝[>] 0) (𝓝 0) := by
  have h : Continuous fun δ => ∫ t in (0 : ℝ)..δ, sinhc t := intervalIntegral.continuous_primitive (fun a b => continuous_sinhc.intervalIntegrable a b) 0
  have h2 : Tendsto (fun δ => ∫ t in (0 : ℝ)..δ, sinhc t) (𝓝[>] 0) (𝓝 0) := by
    have := (h.tendsto 0).mono_left (nhdsWithin_le_nhds (s := Ioi 0))
    simpa using this
  refine h2.congr fun x => ?_
  rw [eiF]
  ring

theorem eiF_mono {a b : ℝ} (ha : 0 < a) (hab : a ≤ b) : eiF a ≤ eiF b := by
  have := cmp (f := fun _ => (0 : ℝ)) (f' := fun _ => 0) (g := eiF) (g' := fun x => Real.exp x / x) hab (fun x _ => hasDerivAt_const x 0)
    (fun x hx => hasDerivAt_eiF (ha.trans_le hx.1)) (fun x hx => by
      have : 0 < x := ha.trans hx.1
      simp only [abs_zero]
      positivity)
  simp at this
  linarith

end MU.ExpInt
