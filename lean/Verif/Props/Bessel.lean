import Verif.Model.Bessel
import Verif.Lemmas.Bessel
import Mathlib.Analysis.Complex.RealDeriv

/-!
# Derivatives of the Bessel functions (C93)

`Spec.besselJ`, `Spec.besselY`, `Spec.besselI`, `Spec.besselK`, `Spec.hankel1`: integral representations, of every real order.
-/

set_option linter.unusedSectionVars false

namespace MU
open Spec Bessel

variable {boost : ℝ → ℝ → Res ℝ} {ν x : ℝ}

/-- **C93**, first kind: at a positive argument for every order, and at a negative one for whole orders. At 0 for the order zero only. -/
theorem C93_first_kind_partial (hx : 0 < x ∨ ((x ≠ 0 ∨ ν = 0) ∧ ∃ n : ℤ, ν = n))
    (hb : ∀ μ y : ℝ, (0 < y ∨ ∃ n : ℤ, μ = n) → boost μ y = .ok (besselJ μ y)) :
    ∃ v, cylJDerivative boost ν x = .ok v ∧ HasDerivAt (besselJ ν) v x := by
  have hd : 0 < x ∨ ∃ n : ℤ, ν = n := hx.imp id And.right
  have h := hasDerivAt_besselJ ν hd
  by_cases h0 : ν = 0
  · subst h0
    refine ⟨-besselJ 1 x, ?_, ?_⟩
    · simp [cylJDerivative, hb 1 x (Or.inr ⟨1, by simp⟩)]
    · rw [zero_sub, zero_add, besselJ_neg_one] at h
      exact h.congr_deriv (by ring)
  · have hx0 : x ≠ 0 := by
      rcases hx with hx | ⟨hx | hx, _⟩
      · exact hx.ne'
      · exact hx
      · exact absurd hx h0
    have hd1 : 0 < x ∨ ∃ n : ℤ, ν - 1 = n := hd.imp id fun ⟨n, hn⟩ => ⟨n - 1, by rw [hn]; push_cast; ring⟩
    refine ⟨besselJ (ν - 1) x - ν / x * besselJ ν x, ?_, ?_⟩
    · simp [cylJDerivative, h0, hb _ x hd, hb _ x hd1, rdiv, hx0]
    · refine h.congr_deriv ?_
      have hr := besselJ_rec ν hd
      field_simp
      linarith

/-- **C93**, second kind. -/
theorem C93_second_kind (hx : 0 < x) (hb : ∀ μ y : ℝ, 0 < y → boost μ y = .ok (besselY μ y)) :
    ∃ v, cylYDerivative boost ν x = .ok v ∧ HasDerivAt (besselY ν) v x := by
  have h := hasDerivAt_besselY ν hx
  by_cases h0 : ν = 0
  · subst h0
    refine ⟨-besselY 1 x, ?_, ?_⟩
    · simp [cylYDerivative, hb 1 x hx]
    · rw [zero_sub, zero_add, besselY_neg_one hx] at h
      exact h.congr_deriv (by ring)
  · refine ⟨besselY (ν - 1) x - ν / x * besselY ν x, ?_, ?_⟩
    · simp [cylYDerivative, h0, hb _ x hx, rdiv, hx.ne']
    · refine h.congr_deriv ?_
      have hr := besselY_rec ν hx
      field_simp
      linarith

/-- **C93**, modified, first kind: at a positive argument for every order, and at a negative one for whole orders. At 0 for the order zero only. -/
theorem C93_modified_first_kind_partial (hx : 0 < x ∨ ((x ≠ 0 ∨ ν = 0) ∧ ∃ n : ℤ, ν = n))
    (hb : ∀ μ y : ℝ, (0 < y ∨ ∃ n : ℤ, μ = n) → boost μ y = .ok (besselI μ y)) :
    ∃ v, cylIDerivative boost ν x = .ok v ∧ HasDerivAt (besselI ν) v x := by
  have hd : 0 < x ∨ ∃ n : ℤ, ν = n := hx.imp id And.right
  have h := hasDerivAt_besselI ν hd
  by_cases h0 : ν = 0
  · subst h0
    refine ⟨besselI 1 x, ?_, ?_⟩
    · simp [cylIDerivative, hb 1 x (Or.inr ⟨1, by simp⟩)]
    · rw [zero_sub, zero_add, besselI_neg_one] at h
      exact h.congr_deriv (by ring)
  · have hx0 : x ≠ 0 := by
      rcases hx with hx | ⟨hx | hx, _⟩
      · exact hx.ne'
      · exact hx
      · exact absurd hx h0
    have hd1 : 0 < x ∨ ∃ n : ℤ, ν - 1 = n := hd.imp id fun ⟨n, hn⟩ => ⟨n - 1, by rw [hn]; push_cast; ring⟩
    refine ⟨besselI (ν - 1) x - ν / x * besselI ν x, ?_, ?_⟩
    · simp [cylIDerivative, h0, hb _ x hd, hb _ x hd1, rdiv, hx0]
    · refine h.congr_deriv ?_
      have hr := besselI_rec ν hd
      field_simp
      linarith

/-- **C93**, modified, second kind. -/
theorem C93_modified_second_kind (hx : 0 < x) (hb : ∀ μ y : ℝ, 0 < y → boost μ y = .ok (besselK μ y)) :
    ∃ v, cylKDerivative boost ν x = .ok v ∧ HasDerivAt (besselK ν) v x := by
  have h := hasDerivAt_besselK ν hx
  by_cases h0 : ν = 0
  · subst h0
    refine ⟨-besselK 1 x, ?_, ?_⟩
    · simp [cylKDerivative, hb 1 x hx]
    · rw [zero_sub, zero_add, besselK_neg_one hx] at h
      exact h.congr_deriv (by ring)
  · refine ⟨-besselK (ν - 1) x - ν / x * besselK ν x, ?_, ?_⟩
    · simp [cylKDerivative, h0, hb _ x hx, rdiv, hx.ne']
    · refine h.congr_deriv ?_
      have hr := besselK_rec ν hx
      field_simp
      linarith

/-- **C93**, Hankel function. -/
theorem C93_hankel {hankel : ℝ → ℝ → Res ℂ} (hx : 0 < x) (hb : ∀ μ y : ℝ, 0 < y → hankel μ y = .ok (hankel1 μ y)) :
    ∃ v, cylHDerivative hankel ν x = .ok v ∧ HasDerivAt (hankel1 ν) v x := by
  obtain ⟨j, hj, hj'⟩ := C93_first_kind_partial (ν := ν) (boost := fun μ y => .ok (besselJ μ y)) (Or.inl hx) (fun _ _ _ => rfl)
  obtain ⟨y, hy, hy'⟩ := C93_second_kind (ν := ν) (boost := fun μ y => .ok (besselY μ y)) hx (fun _ _ _ => rfl)
  have hd : HasDerivAt (hankel1 ν) (j + y * Complex.I) x := hj'.ofReal_comp.add (hy'.ofReal_comp.mul_const Complex.I)
  refine ⟨_, ?_, hd⟩
  by_cases h0 : ν = 0
  · subst h0
    simp [cylJDerivative] at hj
    simp [cylYDerivative] at hy
    simp [cylHDerivative, hb _ x hx, hankel1, ← hj, ← hy]
    ring
  · simp [cylJDerivative, h0, rdiv, hx.ne'] at hj
    simp [cylYDerivative, h0, rdiv, hx.ne'] at hy
    simp [cylHDerivative, h0, rdiv, hx.ne', hb _ x hx, hankel1, ← hj, ← hy]
    ring

/-- C93 fails at 0: `J_1'(0)` is one half, but the quotient of the order by 0 is not finite. The same holds of `I_1`. -/
theorem C93_refuted (hb : ∀ μ y : ℝ, boost μ y = .ok (besselJ μ y)) :
    HasDerivAt (besselJ 1) (1 / 2) 0 ∧ cylJDerivative boost 1 0 = .nonfinite := by
  refine ⟨?_, ?_⟩
  · have h := hasDerivAt_besselJ 1 (x := 0) (Or.inr ⟨1, by simp⟩)
    refine h.congr_deriv ?_
    rw [besselJ_eq, besselJ_eq]
    have h2 : Real.sin ((1 + 1) * Real.pi) = 0 := by
      have := Real.sin_int_mul_pi 2
      push_cast at this
      norm_num [this]
    rw [h2]
    have c2 : cosInt (1 + 1) 0 = 0 := by
      have := cosInt_parts (1 + 1) 0
      rw [h2, zero_mul, zero_div] at this
      linarith
    rw [c2]
    simp [cosInt, Real.pi_pos.ne']
  · simp [cylJDerivative, hb, rdiv]

/-- C93 fails at 0 for the modified function too. -/
theorem C93_modified_refuted (hb : ∀ μ y : ℝ, boost μ y = .ok (besselI μ y)) :
    HasDerivAt (besselI 1) (1 / 2) 0 ∧ cylIDerivative boost 1 0 = .nonfinite := by
  refine ⟨?_, ?_⟩
  · have h := hasDerivAt_besselI 1 (x := 0) (Or.inr ⟨1, by simp⟩)
    refine h.congr_deriv ?_
    rw [besselI_eq, besselI_eq]
    have h2 : Real.sin ((1 + 1) * Real.pi) = 0 := by
      have := Real.sin_int_mul_pi 2
      push_cast at this
      norm_num [this]
    rw [h2]
    have c2 : expInt (1 + 1) 0 = 0 := by
      have := expInt_parts (1 + 1) 0
      rw [h2, zero_mul, zero_div] at this
      linarith
    rw [c2]
    simp [expInt, Real.pi_pos.ne']
  · simp [cylIDerivative, hb, rdiv]

/-- Non-vacuity: a function meeting the contracts, half-integer and whole orders, positive and negative arguments. -/
example : (∃ v, cylJDerivative (fun μ y => .ok (besselJ μ y)) (5 / 2) 3 = .ok v ∧ HasDerivAt (besselJ (5 / 2)) v 3) ∧
    (∃ v, cylJDerivative (fun μ y => .ok (besselJ μ y)) 2 (-1) = .ok v ∧ HasDerivAt (besselJ 2) v (-1)) ∧
    ∃ v, cylKDerivative (fun μ y => .ok (besselK μ y)) 1 2 = .ok v ∧ HasDerivAt (besselK 1) v 2 :=
  ⟨C93_first_kind_partial (Or.inl (by norm_num)) (fun _ _ _ => rfl),
   C93_first_kind_partial (Or.inr ⟨Or.inl (by norm_num), 2, by norm_num⟩) (fun _ _ _ => rfl),
   C93_modified_second_kind (by norm_num) (fun _ _ _ => rfl)⟩

end MU
