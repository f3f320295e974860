import Verif.Props.Convergence
import Mathlib.Analysis.SpecialFunctions.Integrals.Basic
import Mathlib.Algebra.Ring.GeomSum

set_option linter.unusedSectionVars false

/-!
# C127: integration of a trigonometric polynomial over its period
-/

namespace MU
open Spec Finset

/-- The trigonometric polynomial `c + Σ_{k=1}^{m} (A k cos (2πkt/T) + B k sin (2πkt/T))` of period `T` and order `m`. -/
noncomputable def Spec.trigPoly (T c : ℝ) (A B : Nat → ℝ) (m : Nat) (t : ℝ) : ℝ :=
  c + ∑ k ∈ Icc 1 m, (A k * Real.cos (2 * Real.pi * k / T * t) + B k * Real.sin (2 * Real.pi * k / T * t))

/-- The sum of the values of one harmonic at the `N` points of a period. -/
theorem sum_harmonic {N k : Nat} (hk : 0 < k) (hkN : k < N) (θ : ℝ) :
    ∑ j ∈ range N, Real.cos (θ + 2 * Real.pi * k * j / N) = 0 ∧ ∑ j ∈ range N, Real.sin (θ + 2 * Real.pi * k * j / N) = 0 := by
  have hN0 : (N : ℂ) ≠ 0 := by exact_mod_cast (by omega : N ≠ 0)
  set ζ : ℂ := Complex.exp (2 * Real.pi * k / N * Complex.I) with hζ
  have hpow : ζ ^ N = 1 := by
    rw [hζ, ← Complex.exp_nat_mul, show (N : ℂ) * (2 * Real.pi * k / N * Complex.I) = (k : ℤ) * (2 * Real.pi * Complex.I) by
      push_cast; field_simp]
    exact Complex.exp_int_mul_two_pi_mul_I k
  have hne : ζ ≠ 1 := by
    rw [hζ, Ne, Complex.exp_eq_one_iff]
    rintro ⟨z, hz⟩
    have h2 : (2 * Real.pi * Complex.I : ℂ) ≠ 0 := Complex.two_pi_I_ne_zero
    have h3 : (k : ℂ) / N = z := by
      have : (2 * Real.pi * Complex.I : ℂ) * (k / N) = (2 * Real.pi * Complex.I) * z := by
        rw [mul_comm _ (z : ℂ), ← hz]; ring
      exact mul_left_cancel₀ h2 this
    rw [div_eq_iff hN0] at h3
    have h4 : (k : ℤ) = z * N := by exact_mod_cast h3
    have hz0 : 0 < z := by
      by_contra h
      have : z * (N : ℤ) ≤ 0 := mul_nonpos_of_nonpos_of_nonneg (by omega) (by omega)
      omega
    nlinarith
  have hsum : ∑ j ∈ range N, ζ ^ j = 0 := by
    rw [geom_sum_eq hne, hpow]
    simp
  have key : ∑ j ∈ range N, Complex.exp ((θ + 2 * Real.pi * k * j / N : ℝ) * Complex.I) = 0 := by
    have : ∀ j ∈ range N, Complex.exp ((θ + 2 * Real.pi * k * j / N : ℝ) * Complex.I) = Complex.exp (θ * Complex.I) * ζ ^ j := by
      intro j _
      rw [hζ, ← Complex.exp_nat_mul, ← Complex.exp_add]
      congr 1
      push_cast
      ring
    rw [sum_congr rfl this, ← mul_sum, hsum, mul_zero]
  constructor
  · have := congrArg Complex.re key
    rw [Complex.re_sum] at this
    simpa only [Complex.exp_ofReal_mul_I_re, Complex.zero_re] using this
  · have := congrArg Complex.im key
    rw [Complex.im_sum] at this
    simpa only [Complex.exp_ofReal_mul_I_im, Complex.zero_im] using this

/-- The integral of one harmonic over a period is zero. -/
theorem integral_harmonic {T : ℝ} (hT : 0 < T) {k : Nat} (hk : 0 < k) (a : ℝ) :
    (∫ t in a..a + T, Real.cos (2 * Real.pi * k / T * t)) = 0 ∧ (∫ t in a..a + T, Real.sin (2 * Real.pi * k / T * t)) = 0 := by
  have hk' : (0 : ℝ) < k := by exact_mod_cast hk
  have hw : 2 * Real.pi * k / T ≠ 0 := by have := Real.pi_pos; positivity
  have e : 2 * Real.pi * k / T * (a + T) = 2 * Real.pi * k / T * a + (k : ℤ) * (2 * Real.pi) := by
    push_cast
    field_simp
  constructor
  · rw [intervalIntegral.integral_comp_mul_left (fun u => Real.cos u) hw, integral_cos, e, Real.sin_add_int_mul_two_pi]
    simp
  · rw [intervalIntegral.integral_comp_mul_left (fun u => Real.sin u) hw, integral_sin, e, Real.cos_add_int_mul_two_pi]
    simp

theorem integral_trigPoly {T : ℝ} (hT : 0 < T) (c : ℝ) (A B : Nat → ℝ) (m : Nat) (a : ℝ) : (∫ t in a..a + T, trigPoly T c A B m t) = c * T := by
  unfold trigPoly
  have hc : ∀ k : Nat, IntervalIntegrable (fun t => A k * Real.cos (2 * Real.pi * k / T * t) + B k * Real.sin (2 * Real.pi * k / T * t))
      MeasureTheory.volume a (a + T) := fun k => Continuous.intervalIntegrable (by fun_prop) _ _
  rw [intervalIntegral.integral_add (by simp) (Continuous.intervalIntegrable (by fun_prop) _ _), intervalIntegral.integral_finset_sum (fun k _ => hc k)]
  rw [sum_eq_zero, intervalIntegral.integral_const, smul_eq_mul]
  · ring
  · intro k hk
    have hk1 : 0 < k := (mem_Icc.1 hk).1
    rw [intervalIntegral.integral_add (Continuous.intervalIntegrable (by fun_prop) _ _) (Continuous.intervalIntegrable (by fun_prop) _ _),
      intervalIntegral.integral_const_mul, intervalIntegral.integral_const_mul, (integral_harmonic hT hk1 a).1, (integral_harmonic hT hk1 a).2]
    simp

/-- The trapezoidal rule on a period is the mean of the values at the points but the last. -/
theorem panels_periodic {h : ℝ} {N : Nat} {x y : Nat → ℝ} (hx : ∀ i, x (i + 1) - x i = h) (hy : y N = y 0) : panels N x y = h * ∑ i ∈ range N, y i := by
  unfold panels
  have e : ∀ i ∈ range N, (x (i + 1) - x i) * (y i + y (i + 1)) / 2 = h / 2 * y i + h / 2 * y (i + 1) := by
    intro i _
    rw [hx]
    ring
  rw [sum_congr rfl e, sum_add_distrib, ← mul_sum, ← mul_sum]
  have h1 := sum_range_succ y N
  have h2 := sum_range_succ' y N
  have : ∑ i ∈ range N, y (i + 1) = ∑ i ∈ range N, y i := by linarith
  rw [this]
  ring

/-- C127: `Integrate1d` with `n` points returns exactly the integral, over one period beginning anywhere, of each trigonometric polynomial of order less
than `n - 1`, after all histories of bounds setters and `Get` calls. -/
theorem C127_exact {T : ℝ} (hT : 0 < T) (c : ℝ) (A B : Nat → ℝ) {m n : Nat} (h2 : 2 ≤ n) (hm : m < n - 1) (h32 : n < 2 ^ 32) (a₀ b₀ : ℝ)
    (h : List (Integrate1d.Op ℝ)) (hh : ∀ m, .setMethod m ∉ h) {a : ℝ} (ha : ((⟨a₀, b₀, .TRAPEZOIDAL⟩ : Settings ℝ).after h).xmin = a)
    (hb : ((⟨a₀, b₀, .TRAPEZOIDAL⟩ : Settings ℝ).after h).xmax = a + T) :
    (Integrate1d.get.run (Integrate1d.after ((Source.function (trigPoly T c A B m)).new a₀ b₀ n) h)).1 = .ok (∫ t in a..a + T, trigPoly T c A B m t) := by
  have hn : ((n - 1 : Nat) : ℝ) = (n : ℝ) - 1 := by rw [Nat.cast_sub (by omega : 1 ≤ n)]; simp
  have hN0 : ((n - 1 : Nat) : ℝ) ≠ 0 := by exact_mod_cast (by omega : n - 1 ≠ 0)
  have hpt : ∀ i, point a (a + T) n i = a + i * (T / ((n - 1 : Nat) : ℝ)) := by
    intro i
    rw [hn]
    unfold point
    rw [add_sub_cancel_left]
  have hs : ∀ i : Nat, point a (a + T) n (i + 1) - point a (a + T) n i = T / ((n - 1 : Nat) : ℝ) := by
    intro i
    rw [hpt, hpt]
    push_cast
    ring
  have harg : ∀ (k : Nat) (i : Nat), 2 * Real.pi * k / T * point a (a + T) n i = 2 * Real.pi * k / T * a + 2 * Real.pi * k * i / ((n - 1 : Nat) : ℝ) := by
    intro k i
    rw [hpt]
    field_simp
  rw [C42_bounds_partial (Source.function (trigPoly T c A B m)) n ⟨h2, h32, trivial⟩ a₀ b₀ h hh, Settings.expected, settings_method h _ hh, ha, hb, integral_trigPoly hT]
  change Res.ok (panels (n - 1) (point a (a + T) n) (fun i => trigPoly T c A B m (point a (a + T) n i))) = .ok (c * T)
  rw [panels_periodic (h := T / ((n - 1 : Nat) : ℝ)) hs]
  · congr 1
    unfold trigPoly
    simp only [harg]
    rw [sum_add_distrib, sum_comm, sum_eq_zero (s := Icc 1 m)]
    · simp only [sum_const, card_range, nsmul_eq_mul, add_zero]
      field_simp
    · intro k hk
      obtain ⟨k1, k2⟩ := mem_Icc.1 hk
      obtain ⟨s1, s2⟩ := sum_harmonic (N := n - 1) (k := k) (by omega) (by omega) (2 * Real.pi * k / T * a)
      rw [sum_add_distrib, ← mul_sum, ← mul_sum, s1, s2]
      simp
  · unfold trigPoly
    simp only [harg]
    congr 1
    refine sum_congr rfl (fun k _ => ?_)
    have e1 : 2 * Real.pi * k * ((n - 1 : Nat) : ℝ) / ((n - 1 : Nat) : ℝ) = (k : ℤ) * (2 * Real.pi) := by
      push_cast
      field_simp
    rw [e1, Real.cos_add_int_mul_two_pi, Real.sin_add_int_mul_two_pi]
    simp

/-- C127, the order is the largest possible: with `n` points the rule gives `T` instead of 0 for the harmonic of order `n - 1`, over the period from 0. -/
theorem C127_sharp {T : ℝ} (hT : 0 < T) {n : Nat} (h2 : 2 ≤ n) (h32 : n < 2 ^ 32) :
    (Integrate1d.get.run ((Source.function (fun t => Real.cos (2 * Real.pi * ((n - 1 : Nat) : ℝ) / T * t))).new 0 T n)).1 = .ok T ∧
      (∫ t in (0 : ℝ)..T, Real.cos (2 * Real.pi * ((n - 1 : Nat) : ℝ) / T * t)) = 0 := by
  have hN0 : ((n - 1 : Nat) : ℝ) ≠ 0 := by exact_mod_cast (by omega : n - 1 ≠ 0)
  have hn : ((n - 1 : Nat) : ℝ) = (n : ℝ) - 1 := by rw [Nat.cast_sub (by omega : 1 ≤ n)]; simp
  constructor
  · have := C42_bounds_partial (Source.function (fun t => Real.cos (2 * Real.pi * ((n - 1 : Nat) : ℝ) / T * t))) n ⟨h2, h32, trivial⟩ 0 T [] (by simp)
    refine this.trans ?_
    change Res.ok (panels (n - 1) (point 0 T n) (fun i => Real.cos (2 * Real.pi * ((n - 1 : Nat) : ℝ) / T * point 0 T n i))) = .ok T
    have hv : ∀ i : Nat, Real.cos (2 * Real.pi * ((n - 1 : Nat) : ℝ) / T * point 0 T n i) = 1 := by
      intro i
      have : 2 * Real.pi * ((n - 1 : Nat) : ℝ) / T * point 0 T n i = (i : ℤ) * (2 * Real.pi) := by
        unfold point
        rw [← hn]
        push_cast
        field_simp
        ring
      rw [this, Real.cos_int_mul_two_pi]
    simp only [hv]
    rw [panels_periodic (h := T / ((n - 1 : Nat) : ℝ)) (N := n - 1) (x := point 0 T n) (y := fun _ => 1) (fun i => by unfold point; rw [← hn]; push_cast; ring) rfl]
    congr 1
    simp only [sum_const, card_range, nsmul_eq_mul, mul_one]
    field_simp
  · have := (integral_harmonic hT (k := n - 1) (by omega) 0).1
    simpa using this

example : (Integrate1d.get.run (Integrate1d.after ((Source.function (trigPoly 3 5 (fun k => k) (fun _ => 7) 2)).new 0 9 4) [.get, .setXmin 1, .setXmax 4])).1 =
    .ok (∫ t in (1 : ℝ)..1 + 3, trigPoly 3 5 (fun k => k) (fun _ => 7) 2 t) :=
  C127_exact (by norm_num) 5 _ _ (by norm_num) (by norm_num) (by norm_num) 0 9 _ (by simp) rfl (by show (4 : ℝ) = 1 + 3; norm_num)

end MU
