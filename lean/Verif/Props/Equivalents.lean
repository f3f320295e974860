import Verif.Props.Struve
import Verif.Lemmas.StruveRelative
import Verif.Lemmas.EulerGamma
import Mathlib.Analysis.Asymptotics.AsymptoticEquivalent
import Mathlib.Analysis.Real.Pi.Irrational

/-!
# Exponential integrals and Struve functions near zero and at infinity (C180)

The documentation (docs/technical_notes/Source/Theory.rst) gives simpler functions to which the exponential integrals and the Struve functions are
equivalent. `Spec.E1`, `Spec.IsEi`, `Spec.struve`: the functions themselves; `Real.eulerMascheroniConstant`: the constant of Euler and Mascheroni.
-/

set_option linter.unusedSectionVars false

namespace MU
open Struve ExpInt PolyCheck Spec Filter Topology Asymptotics

theorem eiInf_tail_cert : certFrom 11 200 (psub (pscale 20 (cfNum (10 ^ 20) eiInfA eiInfB)) (pscale 21 (cfDen (10 ^ 20) eiInfA eiInfB)))
    (pscale 20 (cfDen (10 ^ 20) eiInfA eiInfB)) 1 24 [] = true := by decide +kernel

theorem e1c_tail_cert : certFrom 17 1 (padd (pscale 100 e1cP.reverse) (pscale 85 e1cQ.reverse)) e1cQ.reverse 1 4 [] = true := by decide +kernel

/-- `N = x D + n`, `M = x^2 D`. -/
theorem rat_tail {D n x : ℝ} (hD : D ≠ 0) (hx : x ≠ 0) : (0 + x * D + n) / (0 + x * (0 + x * D)) = 1 / x * (1 + n / D / x) := by
  field_simp
  ring

theorem eiInf_bounds {x : ℝ} (hx : 24 ≤ x) : 1 / x * (1 + 0.995 / x) ≤ rat eiInfN eiInfM x ∧ rat eiInfN eiInfM x ≤ 1 / x * (1 + 1.105 / x) := by
  have h0 : 0 < x := by linarith
  have hpos := posFrom_sound eiInf_pos (x := x) (by norm_num; exact hx)
  have hc := certFrom_sound eiInf_tail_cert (x := x) (by norm_num; exact hx)
  rw [pev_pscale, eiInfM, pev, pev] at hpos
  rw [pev_psub, pev_pscale, pev_pscale, pev_pscale] at hc
  rw [rat, eiInfN, eiInfM, pev_padd, pev, pev, pev]
  generalize pev (cfDen (10 ^ 20) eiInfA eiInfB) x = D at *
  generalize pev (cfNum (10 ^ 20) eiInfA eiInfB) x = n at *
  have hD : 0 < D := by
    push_cast at hpos
    simp only [zero_add, one_mul] at hpos
    exact pos_of_mul_pos_right (pos_of_mul_pos_right hpos h0.le) h0.le
  push_cast
  rw [rat_tail hD.ne' h0.ne']
  obtain ⟨h1, h2⟩ := abs_le.1 hc
  push_cast at h1 h2
  have b1 : 0.995 ≤ n / D := by rw [le_div_iff₀ hD]; norm_num; linarith
  have b2 : n / D ≤ 1.105 := by rw [div_le_iff₀ hD]; norm_num; linarith
  have hi : 0 ≤ 1 / x := by positivity
  exact ⟨mul_le_mul_of_nonneg_left (by linarith [div_le_div_of_nonneg_right b1 h0.le]) hi,
    mul_le_mul_of_nonneg_left (by linarith [div_le_div_of_nonneg_right b2 h0.le]) hi⟩

theorem e1c_bounds {x : ℝ} (hx : 4 ≤ x) :
    1 / x * (1 - 1.02 / x) ≤ rat (tailN e1cP e1cQ) (tailM e1cQ) x ∧ rat (tailN e1cP e1cQ) (tailM e1cQ) x ≤ 1 / x * (1 - 0.68 / x) := by
  have h0 : 0 < x := by linarith
  have hpos := posFrom_sound e1c_pos_code (x := x) (by norm_num; exact hx)
  have hc := certFrom_sound e1c_tail_cert (x := x) (by norm_num; exact hx)
  rw [tailM, pev, pev] at hpos
  rw [pev_padd, pev_pscale, pev_pscale] at hc
  rw [rat, tailN, tailM, pev_padd, pev, pev, pev]
  generalize pev e1cQ.reverse x = D at *
  generalize pev e1cP.reverse x = n at *
  have hD : 0 < D := by
    push_cast at hpos
    simp only [zero_add] at hpos
    exact pos_of_mul_pos_right (pos_of_mul_pos_right hpos h0.le) h0.le
  push_cast
  rw [rat_tail hD.ne' h0.ne']
  obtain ⟨h1, h2⟩ := abs_le.1 hc
  push_cast at h1 h2
  have b1 : -1.02 ≤ n / D := by rw [le_div_iff₀ hD]; norm_num; linarith
  have b2 : n / D ≤ -0.68 := by rw [div_le_iff₀ hD]; norm_num; linarith
  have hi : 0 ≤ 1 / x := by positivity
  have d1 := div_le_div_of_nonneg_right b1 h0.le
  have d2 := div_le_div_of_nonneg_right b2 h0.le
  rw [neg_div] at d1 d2
  exact ⟨mul_le_mul_of_nonneg_left (by linarith) hi, mul_le_mul_of_nonneg_left (by linarith) hi⟩

/-- Between `(1 + a/x)` and `(1 + b/x)` times `g`: equivalent to `g`. -/
theorem equivalent_of_bounds {f g : ℝ → ℝ} {a b : ℝ} (hg : ∀ᶠ x in atTop, 0 < g x)
    (h : ∀ᶠ x in atTop, g x * (1 + a / x) ≤ f x ∧ f x ≤ g x * (1 + b / x)) : f ~[atTop] g := by
  rw [isEquivalent_iff_tendsto_one (hg.mono fun x hx => hx.ne')]
  have hl : ∀ c : ℝ, Tendsto (fun x : ℝ => 1 + c / x) atTop (𝓝 1) := by
    intro c
    have := (tendsto_const_nhds (x := (1 : ℝ))).add (tendsto_const_nhds (x := c) |>.div_atTop tendsto_id)
    rwa [add_zero] at this
  refine tendsto_of_tendsto_of_tendsto_of_le_of_le' (hl a) (hl b) ?_ ?_
  · filter_upwards [hg, h] with x hx hb
    rw [Pi.div_apply, le_div_iff₀ hx]
    linarith [hb.1]
  · filter_upwards [hg, h] with x hx hb
    rw [Pi.div_apply, div_le_iff₀ hx]
    linarith [hb.2]

/-! ## Exponential integrals at infinity -/

/-- **C180**: from 24 on, `Ei_approximation(x)` is between `e^x / x (1 + 0.995 / x)` and `e^x / x (1 + 1.105 / x)`, and `expEi(x)` the same without `e^x`,
whatever boost's exponential integral is. -/
theorem C180_Ei_infinity (expint : ℝ → Res ℝ) (B : Build) {x : ℝ} (hx : 24 ≤ x) : ∃ v w,
    eiApproximation B x = .ok v ∧ Real.exp x / x * (1 + 0.995 / x) ≤ v ∧ v ≤ Real.exp x / x * (1 + 1.105 / x) ∧
    expEi expint B x = .ok w ∧ 1 / x * (1 + 0.995 / x) ≤ w ∧ w ≤ 1 / x * (1 + 1.105 / x) := by
  obtain ⟨h1, h2⟩ := eiInf_bounds hx
  have he := (Real.exp_pos x).le
  refine ⟨_, _, ei_from_twentyfour B hx, ?_, ?_, expEi_from_twentyfour expint B hx, h1, h2⟩
  · calc Real.exp x / x * (1 + 0.995 / x) = Real.exp x * (1 / x * (1 + 0.995 / x)) := by ring
      _ ≤ _ := mul_le_mul_of_nonneg_left h1 he
  · calc Real.exp x * rat eiInfN eiInfM x ≤ Real.exp x * (1 / x * (1 + 1.105 / x)) := mul_le_mul_of_nonneg_left h2 he
      _ = _ := by ring

/-- **C180**: from 4 on, `E1_approximation(x)` is between `e^-x / x (1 - 1.02 / x)` and `e^-x / x (1 - 0.68 / x)`. -/
theorem C180_E1_infinity (B : Build) {x : ℝ} (hx : 4 ≤ x) : ∃ v,
    e1Approximation B x = .ok v ∧ Real.exp (-x) / x * (1 - 1.02 / x) ≤ v ∧ v ≤ Real.exp (-x) / x * (1 - 0.68 / x) := by
  obtain ⟨h1, h2⟩ := e1c_bounds hx
  have he := (Real.exp_pos (-x)).le
  refine ⟨_, e1_from_four B hx, ?_, ?_⟩
  · calc Real.exp (-x) / x * (1 - 1.02 / x) = Real.exp (-x) * (1 / x * (1 - 1.02 / x)) := by ring
      _ ≤ _ := mul_le_mul_of_nonneg_left h1 he
  · calc Real.exp (-x) * rat (tailN e1cP e1cQ) (tailM e1cQ) x ≤ Real.exp (-x) * (1 / x * (1 - 0.68 / x)) := mul_le_mul_of_nonneg_left h2 he
      _ = _ := by ring

/-- **C180**: whatever `f`, `g`, `h` are, when they are the results of the three functions for large arguments, they are equivalent at infinity to
`e^x / x`, `1 / x` and `e^-x / x`, as documented. -/
theorem C180_equivalent_infinity (expint : ℝ → Res ℝ) (B : Build) {f g h : ℝ → ℝ} (hf : ∀ᶠ x in atTop, eiApproximation B x = .ok (f x))
    (hg : ∀ᶠ x in atTop, expEi expint B x = .ok (g x)) (hh : ∀ᶠ x in atTop, e1Approximation B x = .ok (h x)) :
    f ~[atTop] (fun x => Real.exp x / x) ∧ g ~[atTop] (fun x => 1 / x) ∧ h ~[atTop] (fun x => Real.exp (-x) / x) := by
  refine ⟨equivalent_of_bounds (a := 0.995) (b := 1.105) ?_ ?_, equivalent_of_bounds (a := 0.995) (b := 1.105) ?_ ?_,
    equivalent_of_bounds (a := -1.02) (b := -0.68) ?_ ?_⟩
  · filter_upwards [eventually_gt_atTop 0] with x hx
    positivity
  · filter_upwards [eventually_ge_atTop 24, hf] with x hx h1
    obtain ⟨v, w, e1, b1, b2, -⟩ := C180_Ei_infinity expint B hx
    rw [h1] at e1
    cases e1
    exact ⟨b1, b2⟩
  · filter_upwards [eventually_gt_atTop 0] with x hx
    positivity
  · filter_upwards [eventually_ge_atTop 24, hg] with x hx h1
    obtain ⟨v, w, -, -, -, e1, b1, b2⟩ := C180_Ei_infinity expint B hx
    rw [h1] at e1
    cases e1
    exact ⟨b1, b2⟩
  · filter_upwards [eventually_gt_atTop 0] with x hx
    positivity
  · filter_upwards [eventually_ge_atTop 4, hh] with x hx h1
    obtain ⟨v, e1, b1, b2⟩ := C180_E1_infinity B hx
    rw [h1] at e1
    cases e1
    rw [neg_div, neg_div, ← sub_eq_add_neg, ← sub_eq_add_neg]
    exact ⟨b1, b2⟩

/-- There are such functions. -/
example (expint : ℝ → Res ℝ) (B : Build) : ∃ f g h : ℝ → ℝ, (∀ᶠ x in atTop, eiApproximation B x = .ok (f x)) ∧
    (∀ᶠ x in atTop, expEi expint B x = .ok (g x)) ∧ ∀ᶠ x in atTop, e1Approximation B x = .ok (h x) :=
  ⟨_, _, _, (eventually_ge_atTop 24).mono fun _ hx => ei_from_twentyfour B hx, (eventually_ge_atTop 24).mono fun _ hx => expEi_from_twentyfour expint B hx,
    (eventually_ge_atTop 4).mono fun _ hx => e1_from_four B hx⟩

/-! ## Exponential integrals near zero -/

/-- **C180**: above `1e-8` (below, the two functions end the program) and up to 1, `E1_approximation(x)` is `-ln x - γ` and `Ei_approximation(x)` is
`ln x + γ`, up to a multiple of `x` and `2e-16`. -/
theorem C180_zero (B : Build) {x : ℝ} (hx : 1e-8 < x) (hx' : x < 1) :
    (∃ v, e1Approximation B x = .ok v ∧ |v - (-Real.log x - Real.eulerMascheroniConstant)| ≤ x + 2e-16) ∧
    ∃ v, eiApproximation B x = .ok v ∧ |v - (Real.log x + Real.eulerMascheroniConstant)| ≤ 1.72 * x + 2e-16 := by
  have h0 : 0 < x := lt_trans (by norm_num) hx
  obtain ⟨a1, a2⟩ := abs_le.1 (E1_zero_one h0 hx'.le)
  obtain ⟨b1, b2⟩ := abs_le.1 (Ei_zero_six h0 (by linarith))
  obtain ⟨c1, c2⟩ := E1_near_zero h0
  obtain ⟨d1, d2⟩ := eiF_near_zero h0 hx'.le
  refine ⟨⟨_, e1_below_one B hx hx', ?_⟩, ⟨_, ei_below_six B hx (by linarith), ?_⟩⟩
  · rw [abs_le]
    constructor <;> norm_num at * <;> linarith
  · rw [abs_le]
    constructor <;> norm_num at * <;> linarith

example : (1e-8 : ℝ) < 0.001 ∧ (0.001 : ℝ) < 1 := by norm_num

/-! ## Struve functions near zero -/

/-- **C180**: from 0 to 3 the Struve functions have a relative error of `8.11e-8` and `1.71e-8` at most, also where they are close to zero. -/
theorem C180_struve_relative (neumann : Nat → ℝ → ℝ) {x : ℝ} (h0 : 0 ≤ x) (h3 : x ≤ 3) :
    (∃ v, struveZero neumann x = .ok v ∧ |v - struve 0 x| ≤ 8.11e-8 * struve 0 x) ∧
    ∃ v, struveFirst neumann x = .ok v ∧ |v - struve 1 x| ≤ 1.71e-8 * struve 1 x :=
  ⟨⟨_, by rw [struveZero, if_pos ⟨h0, h3⟩, struveSum_a], poly0_relative h0 h3⟩,
    ⟨_, by rw [struveFirst, if_pos ⟨h0, h3⟩, struveSum_d], poly1_relative h0 h3⟩⟩

/-- **C180**: `Struve_first_order(x)` is `2 / (3 π) x^2`, and `Struve_zero_order_derivative(x)` is `2 / π`, up to the next term of the series and the
relative error. -/
theorem C180_struve_zero (neumann : Nat → ℝ → ℝ) {x : ℝ} (h0 : 0 ≤ x) (h3 : x ≤ 3) :
    (∃ v, struveFirst neumann x = .ok v ∧ |v - 2 / (3 * Real.pi) * x ^ 2| ≤ 2 / (3 * Real.pi) * x ^ 2 * (x ^ 2 / 15 + 1.71e-8)) ∧
    ∃ v, struveZeroDerivative neumann x = .ok v ∧ |v - 2 / Real.pi| ≤ 0.213 * x ^ 2 + 2e-15 := by
  obtain ⟨-, v, hv, hr⟩ := C180_struve_relative neumann h0 h3
  obtain ⟨-, -, k1, k2⟩ := struve_near_zero h0 h3
  have hpi := Real.pi_pos
  have hc0 : 0 ≤ 2 / (3 * Real.pi) * x ^ 2 := by positivity
  have hc1 : 2 / (3 * Real.pi) * x ^ 2 ≤ 0.2123 * x ^ 2 := by
    refine mul_le_mul_of_nonneg_right ?_ (sq_nonneg x)
    rw [div_le_iff₀ (by positivity)]
    have := Real.pi_gt_d20
    norm_num at this ⊢
    linarith
  obtain ⟨r1, r2⟩ := abs_le.1 hr
  refine ⟨⟨v, hv, ?_⟩, ⟨MU_2_PI - v, by rw [struveZeroDerivative, hv]; rfl, ?_⟩⟩
  · generalize 2 / (3 * Real.pi) * x ^ 2 = c at *
    have e1 : c * (1 - x ^ 2 / 15) = c - c * (x ^ 2 / 15) := by ring
    have e2 : c * (x ^ 2 / 15 + 1.71e-8) = c * (x ^ 2 / 15) + 1.71e-8 * c := by ring
    have e3 : 0 ≤ c * (x ^ 2 / 15) := by positivity
    rw [e1] at k1
    rw [e2, abs_le]
    constructor <;> norm_num at * <;> linarith
  · obtain ⟨p1, p2⟩ := abs_le.1 pi_quotient
    have e1 : MU_2_PI = 2 * (1 / M_PI) := by
      rw [MU_2_PI, M_PI]
      norm_num
    have e2 : 2 / Real.pi = 2 * (1 / Real.pi) := by ring
    have hs0 : 0 ≤ struve 1 x := le_trans (mul_nonneg hc0 (by nlinarith)) k1
    rw [e1, e2, abs_le]
    have hx2 := sq_nonneg x
    generalize 1 / M_PI = p at *
    generalize 1 / Real.pi = q at *
    generalize struve 1 x = s at *
    constructor <;> norm_num at * <;> linarith

/-- The equivalence with `2 / (3 π) x^2` is not exact: the quotient of the two tends to a number that is not 1, as the first coefficient of the code is
a decimal. -/
theorem C180_struve_not_exact (neumann : Nat → ℝ → ℝ) {f : ℝ → ℝ} (hf : ∀ᶠ x in 𝓝[>] 0, struveFirst neumann x = .ok (f x)) :
    ¬ f ~[𝓝[>] 0] (fun x => 2 / (3 * Real.pi) * x ^ 2) := by
  intro h
  have hpi := Real.pi_pos
  have hne : ∀ᶠ x in 𝓝[>] (0 : ℝ), 2 / (3 * Real.pi) * x ^ 2 ≠ 0 := by
    filter_upwards [self_mem_nhdsWithin] with x hx
    have : 0 < x := hx
    positivity
  have h1 := (isEquivalent_iff_tendsto_one hne).1 h
  have h2 : Tendsto (fun x : ℝ => 3 * Real.pi / 2 * ((1.909859286 - 1.145914713 * (x / 3) ^ 2 + 0.294656958 * (x / 3) ^ 4 - 0.042070508 * (x / 3) ^ 6 +
      0.003785727 * (x / 3) ^ 8 - 0.000207183 * (x / 3) ^ 10) / 9)) (𝓝[>] 0) (𝓝 (3 * Real.pi / 2 * (1.909859286 / 9))) := by
    have hc : Continuous (fun x : ℝ => 3 * Real.pi / 2 * ((1.909859286 - 1.145914713 * (x / 3) ^ 2 + 0.294656958 * (x / 3) ^ 4 -
      0.042070508 * (x / 3) ^ 6 + 0.003785727 * (x / 3) ^ 8 - 0.000207183 * (x / 3) ^ 10) / 9)) := by fun_prop
    have := (hc.tendsto 0).mono_left (nhdsWithin_le_nhds (s := Set.Ioi 0))
    simpa using this
  have h3 : Tendsto (f / fun x => 2 / (3 * Real.pi) * x ^ 2) (𝓝[>] 0) (𝓝 (3 * Real.pi / 2 * (1.909859286 / 9))) := by
    refine h2.congr' ?_
    filter_upwards [self_mem_nhdsWithin, Ioo_mem_nhdsGT (zero_lt_three (α := ℝ)), hf] with x hx hx3 he
    have hx0 : 0 < x := hx
    rw [struveFirst, if_pos ⟨hx0.le, hx3.2.le⟩, struveSum_d] at he
    have he' : Struve.poly1 x = f x := Res.ok.inj he
    rw [Pi.div_apply, ← he', Struve.poly1]
    field_simp
    ring
  have h4 := tendsto_nhds_unique h1 h3
  have h5 : Real.pi = ((6000000000 / 1909859286 : ℚ) : ℝ) := by
    push_cast
    norm_num at h4 ⊢
    linarith
  exact irrational_pi ⟨_, h5.symm⟩

example (neumann : Nat → ℝ → ℝ) : ∃ f : ℝ → ℝ, ∀ᶠ x in 𝓝[>] 0, struveFirst neumann x = .ok (f x) :=
  ⟨Struve.poly1, by
    filter_upwards [self_mem_nhdsWithin, Ioo_mem_nhdsGT (zero_lt_three (α := ℝ))] with x hx hx3
    rw [struveFirst, if_pos ⟨le_of_lt hx, hx3.2.le⟩, struveSum_d]⟩

end MU
