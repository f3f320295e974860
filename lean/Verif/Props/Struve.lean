import Verif.Lemmas.StruveTail
import Verif.Lemmas.ExpIntModel

/-!
# Struve functions (C92)

`Spec.struve n`: the Struve function of order `n`, by its series. `Spec.besselY`: Bessel function of the second kind.
-/

namespace MU
open Struve PolyCheck Spec

theorem struveSum_a (x : ℝ) : struveSum struve_coef_a (x / 3) 0 = .ok (poly0 x) := by
  simp [struveSum, forRange, forN, vAt, struve_coef_a, poly0]
  ring

theorem struveSum_d (x : ℝ) : struveSum struve_coef_d (x / 3) 1 = .ok (Struve.poly1 x) := by
  simp [struveSum, forRange, forN, vAt, struve_coef_d, Struve.poly1]
  ring

theorem struveFraction_ok (a b c d t : ℝ) : struveFraction [a, b, c, d] t = .ok (a + b * t ^ 2 + c * t ^ 4 + d * t ^ 6) := by
  simp [struveFraction, forRange, forN, vAt]

theorem struveFraction_pos {a b c d : ℝ} (t : ℝ) (ha : 0 < a) (hb : 0 < b) (hc : 0 < c) (hd : 0 < d) :
    0 < a + b * t ^ 2 + c * t ^ 4 + d * t ^ 6 := by positivity

theorem fraction_scaled (a b c d : ℝ) {x : ℝ} (hx : x ≠ 0) (l : List ℤ)
    (hl : pev l x = 10 ^ 8 * (a * x ^ 6 + 9 * b * x ^ 4 + 81 * c * x ^ 2 + 729 * d)) :
    pev l x = 10 ^ 8 * x ^ 6 * (a + b * (3 / x) ^ 2 + c * (3 / x) ^ 4 + d * (3 / x) ^ 6) := by
  rw [hl]
  field_simp
  ring

theorem struve_fractions {x : ℝ} (hx : 0 < x) :
    (∃ n d, struveFraction struve_coef_b (3 / x) = .ok n ∧ struveFraction struve_coef_c (3 / x) = .ok d ∧ 0 < d ∧ 0 < pev cC x ∧
      n / d = pev cB x / pev cC x) ∧
    (∃ n d, struveFraction struve_coef_e (3 / x) = .ok n ∧ struveFraction struve_coef_f (3 / x) = .ok d ∧ 0 < d ∧ 0 < pev cF x ∧
      n / d = pev cE x / pev cF x) := by
  have hp : (0 : ℝ) < 10 ^ 8 * x ^ 6 := by positivity
  have key : ∀ {n d N D : ℝ}, 0 < d → N = 10 ^ 8 * x ^ 6 * n → D = 10 ^ 8 * x ^ 6 * d → 0 < D ∧ n / d = N / D := by
    intro n d N D hd hN hD
    rw [hN, hD]
    exact ⟨mul_pos hp hd, (mul_div_mul_left _ _ hp.ne').symm⟩
  have eB := fraction_scaled 0.99999906 4.77228920 3.85542044 0.32303607 hx.ne' cB (by simp only [cB, pev]; norm_num; ring)
  have eC := fraction_scaled 1.0 4.88331068 4.28957333 0.52120508 hx.ne' cC (by simp only [cC, pev]; norm_num; ring)
  have eE := fraction_scaled 1.00000004 3.92205313 2.64893033 0.27450895 hx.ne' cE (by simp only [cE, pev]; norm_num; ring)
  have eF := fraction_scaled 1.0 3.81095112 2.26216956 0.10885141 hx.ne' cF (by simp only [cF, pev]; norm_num; ring)
  have pC := struveFraction_pos (a := 1.0) (b := 4.88331068) (c := 4.28957333) (d := 0.52120508) (3 / x) (by norm_num) (by norm_num) (by norm_num) (by norm_num)
  have pF := struveFraction_pos (a := 1.0) (b := 3.81095112) (c := 2.26216956) (d := 0.10885141) (3 / x) (by norm_num) (by norm_num) (by norm_num) (by norm_num)
  exact ⟨⟨_, _, struveFraction_ok _ _ _ _ _, struveFraction_ok _ _ _ _ _, pC, key pC eB eC⟩,
    ⟨_, _, struveFraction_ok _ _ _ _ _, struveFraction_ok _ _ _ _ _, pF, key pF eE eF⟩⟩

theorem pi_quotient : |1 / M_PI - 1 / Real.pi| ≤ 1e-15 := by
  have h1 := Real.pi_gt_d20
  have h2 := Real.pi_lt_d20
  rw [M_PI, div_sub_div _ _ (by norm_num) Real.pi_pos.ne', abs_div, abs_of_pos (mul_pos (by norm_num) Real.pi_pos), div_le_iff₀ (mul_pos (by norm_num) Real.pi_pos), abs_le]
  constructor <;> norm_num at h1 h2 ⊢ <;> linarith

theorem pi_quotient_le : 1 / Real.pi ≤ 0.31831 ∧ 0 ≤ 1 / Real.pi := by
  have h1 := Real.pi_gt_d20
  refine ⟨?_, by positivity⟩
  rw [div_le_iff₀ Real.pi_pos]
  norm_num at h1 ⊢
  linarith

theorem fraction_close {q S p p' y δ : ℝ} (hq : |q - S| ≤ δ) (hp : |p - p'| ≤ 1e-15) (hp' : p' ≤ 0.31831) (h0 : 0 ≤ p') (hS : |q| ≤ 10) :
    |(y + 2 * q * p) - (y + 2 * p' * S)| ≤ 0.63662 * δ + 2e-14 := by
  have e : (y + 2 * q * p) - (y + 2 * p' * S) = 2 * p' * (q - S) + 2 * q * (p - p') := by ring
  rw [e]
  refine (abs_add_le _ _).trans ?_
  rw [abs_mul, abs_mul, abs_mul, abs_mul, abs_of_nonneg h0, abs_two]
  have h1 : p' * |q - S| ≤ 0.31831 * δ := mul_le_mul hp' hq (abs_nonneg _) (by norm_num)
  have h2 : |q| * |p - p'| ≤ 10 * 1e-15 := mul_le_mul hS hp (abs_nonneg _) (by norm_num)
  norm_num at h1 h2 ⊢
  linarith

/-- **C92**, order zero: for every argument from 0 on, within `1.28e-8` of the Struve function, when boost's Bessel function of the second kind is exact. -/
theorem C92_zero {neumann : Nat → ℝ → ℝ} (hn : ∀ x, 3 < x → neumann 0 x = besselY 0 x) {x : ℝ} (hx : 0 ≤ x) :
    ∃ v, struveZero neumann x = .ok v ∧ |v - struve 0 x| ≤ 1.28e-8 := by
  by_cases h3 : x ≤ 3
  · exact ⟨poly0 x, by rw [struveZero, if_pos ⟨hx, h3⟩, struveSum_a], poly0_close hx h3⟩
  · have h3 := not_le.1 h3
    have hx0 : 0 < x := by linarith
    obtain ⟨⟨n, d, en, ed, hd, hC, hq⟩, _⟩ := struve_fractions hx0
    have hM : 0 < M_PI := by norm_num [M_PI]
    refine ⟨neumann 0 x + 2 * n / (M_PI * x * d), ?_, ?_⟩
    · rw [struveZero, if_neg (by intro h; linarith [h.2]), if_pos h3, en, Res.ok_bind, ed, Res.ok_bind, rdiv, if_neg (by positivity), Res.ok_bind]
      rfl
    · have hc := code0_close h3.le hC
      have e : 2 * n / (M_PI * x * d) = 2 * (pev cB x / (x * pev cC x)) * (1 / M_PI) := by
        rw [show pev cB x / (x * pev cC x) = n / d / x by rw [hq, div_div, mul_comm]]
        field_simp
      have hs := sf_le hx0
      have hs0 := sf_nonneg x
      have hs1 : sf x ≤ 1 := hs.trans (by rw [div_le_one hx0]; linarith)
      have h10 : |pev cB x / (x * pev cC x)| ≤ 10 := by
        have := abs_le.1 hc
        rw [abs_le]
        constructor <;> norm_num at this ⊢ <;> linarith
      rw [hn x h3, e, struve_zero_sub hx0, show 2 / Real.pi * sf x = 2 * (1 / Real.pi) * sf x by ring]
      refine (fraction_close hc pi_quotient pi_quotient_le.1 pi_quotient_le.2 h10).trans (by norm_num)

/-- **C92**, order one: within `2.6e-8`, and within `2.56e-9` up to 3. -/
theorem C92_one {neumann : Nat → ℝ → ℝ} (hn : ∀ x, 3 < x → neumann 1 x = besselY 1 x) {x : ℝ} (hx : 0 ≤ x) :
    ∃ v, struveFirst neumann x = .ok v ∧ |v - struve 1 x| ≤ 2.6e-8 ∧ (x ≤ 3 → |v - struve 1 x| ≤ 2.56e-9) := by
  by_cases h3 : x ≤ 3
  · have := poly1_close hx h3
    exact ⟨Struve.poly1 x, by rw [struveFirst, if_pos ⟨hx, h3⟩, struveSum_d], this.trans (by norm_num), fun _ => this⟩
  · have h3' := h3
    have h3 := not_le.1 h3
    have hx0 : 0 < x := by linarith
    obtain ⟨_, ⟨n, d, en, ed, hd, hC, hq⟩⟩ := struve_fractions hx0
    have hM : 0 < M_PI := by norm_num [M_PI]
    refine ⟨neumann 1 x + 2 * n / (M_PI * d), ?_, ?_, fun h => absurd h h3'⟩
    · rw [struveFirst, if_neg (by intro h; linarith [h.2]), if_pos h3, en, Res.ok_bind, ed, Res.ok_bind, rdiv, if_neg (by positivity), Res.ok_bind]
      rfl
    · have hc := code1_close h3.le hC
      have e : 2 * n / (M_PI * d) = 2 * (pev cE x / pev cF x) * (1 / M_PI) := by
        rw [← hq]
        field_simp
      have h1 := sf1_nonpos hx0
      have h2 := sf1_ge hx0
      have h4 : 4 / x ^ 2 ≤ 1 := by rw [div_le_one (by positivity)]; nlinarith
      have h10 : |pev cE x / pev cF x| ≤ 10 := by
        have := abs_le.1 hc
        rw [abs_le]
        constructor <;> norm_num at this ⊢ <;> linarith
      rw [hn x h3, e, struve_one_sub hx0, show 2 / Real.pi * (1 - sf1 x) = 2 * (1 / Real.pi) * (1 - sf1 x) by ring]
      refine (fraction_close hc pi_quotient pi_quotient_le.1 pi_quotient_le.2 h10).trans (by norm_num)

/-- **C92**, derivative: `Struve_zero_order_derivative` is within `2.61e-8` of the derivative of the Struve function of order zero. -/
theorem C92_derivative {neumann : Nat → ℝ → ℝ} (hn : ∀ x, 3 < x → neumann 1 x = besselY 1 x) {x : ℝ} (hx : 0 ≤ x) :
    ∃ v d, struveZeroDerivative neumann x = .ok v ∧ HasDerivAt (struve 0) d x ∧ |v - d| ≤ 2.61e-8 := by
  obtain ⟨v, hv, h, _⟩ := C92_one hn hx
  refine ⟨MU_2_PI - v, 2 / Real.pi - struve 1 x, by rw [struveZeroDerivative, hv]; rfl, hasDerivAt_struve_zero x, ?_⟩
  have h1 := pi_quotient
  have e : MU_2_PI = 2 * (1 / M_PI) := by
    rw [MU_2_PI, M_PI]
    norm_num
  have e2 : MU_2_PI - v - (2 / Real.pi - struve 1 x) = 2 * (1 / M_PI - 1 / Real.pi) - (v - struve 1 x) := by rw [e]; ring
  rw [e2]
  refine (abs_sub _ _).trans ?_
  rw [abs_mul, abs_two]
  norm_num at h1 h ⊢
  linarith

/-- **C92**, the guard: a negative argument ends the program. -/
theorem C92_refused (neumann : Nat → ℝ → ℝ) {x : ℝ} (hx : x < 0) :
    struveZero neumann x = .exits 0 ∧ struveFirst neumann x = .exits 0 ∧ struveZeroDerivative neumann x = .exits 0 := by
  have h1 : ¬(0 ≤ x ∧ x ≤ 3) := fun h => by linarith [h.1]
  have h2 : ¬3 < x := by linarith
  have h3 : struveFirst neumann x = .exits 0 := by rw [struveFirst, if_neg h1, if_neg h2]
  exact ⟨by rw [struveZero, if_neg h1, if_neg h2], h3, by rw [struveZeroDerivative, h3]; rfl⟩

/-- Non-vacuity: the exact Bessel function meets the contract; both branches. -/
example : (∃ v, struveZero (fun n x => besselY n x) 2 = .ok v ∧ |v - struve 0 2| ≤ 1.28e-8) ∧
    ∃ v, struveZero (fun n x => besselY n x) 10 = .ok v ∧ |v - struve 0 10| ≤ 1.28e-8 :=
  ⟨C92_zero (by simp) (by norm_num), C92_zero (by simp) (by norm_num)⟩

end MU
