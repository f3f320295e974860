import Verif.Lemmas.Struve

/-!
# Struve functions up to 3: relative error

The polynomials of the code against the partial sums of the series, with certificates for the quotient of the two.
-/

set_option linter.unusedSectionVars false

namespace MU.Struve
open PolyCheck ExpInt Spec

/-- `16000645334599970144100000000000000000000000` times twice the partial sum of the order zero. -/
def struve0S : List ℤ :=
  [0, 32001290669199940288200000000000000000000000, 0, -3555698963244437809800000000000000000000000, 0, 142227958529777512392000000000000000000000, 0, -2902611398566888008000000000000000000000, 0, 35834708624282568000000000000000000000, 0, -296154616729608000000000000000000000, 0, 1752394181832000000000000000000000, 0, -7788418585920000000000000000000, 0, 26949545280000000000000000000, 0, -74652480000000000000000000, 0, 169280000000000000000000, 0, -320000000000000000000]

/-- `48001936003799910432300000000000000000000000` times twice the partial sum of the order one. -/
def struve1S : List ℤ :=
  [0, 0, 32001290669199940288200000000000000000000000, 0, -2133419377946662685880000000000000000000000, 0, 60954839369904648168000000000000000000000, 0, -967537132855629336000000000000000000000, 0, 9773102352077064000000000000000000000, 0, -68343373091448000000000000000000000, 0, 350478836366400000000000000000000, 0, -1374426809280000000000000000000, 0, 4255191360000000000000000000, 0, -10664640000000000000000000, 0, 22080000000000000000000, 0, -38400000000000000000]

theorem struve0_rel : certOn 81 1000000000 struve0R struve0S 32 0 [24, 48, 72, 84, 90, 93] 96 = true := by decide +kernel
theorem struve1_rel : certOn 17 1000000000 struve1R struve1S 32 0 [24, 48, 72, 84, 90, 93] 96 = true := by decide +kernel
theorem struve0_low : checkOn (psub struve0S [0, 4800193600379991043230000000000000000000000]) 1 0 [1, 2] 3 = true := by decide +kernel
theorem struve1_low : checkOn (psub struve1S [0, 0, 4800193600379991043230000000000000000000000]) 1 0 [1, 2] 3 = true := by decide +kernel

/-- From the partial sum `s` and a rational `π` to the series and to `π`. -/
theorem relative_error {p z s ε : ℝ} (hp : |3.14159265358979 * p - 2 * s| ≤ ε * (2 * s)) (hS : |z - s| ≤ 1e-11 * s) (hs : 0 ≤ s) (hε0 : 0 ≤ ε)
    (hε : ε ≤ 1e-7) : |p - 2 / Real.pi * z| ≤ (ε + 1e-10) * (2 / Real.pi * z) := by
  have hpi := abs_le.1 pi_close
  have hpos := Real.pi_pos
  obtain ⟨h1, h2⟩ := abs_le.1 hp
  obtain ⟨h3, h4⟩ := abs_le.1 hS
  have hp0 : 0 ≤ p := by norm_num at h1; nlinarith
  have hp2 : p ≤ s := by norm_num at h2; nlinarith
  have e1 : p - 2 / Real.pi * z = (Real.pi * p - 2 * z) / Real.pi := by field_simp
  have e2 : (ε + 1e-10) * (2 / Real.pi * z) = (ε + 1e-10) * (2 * z) / Real.pi := by field_simp
  rw [e1, e2, abs_div, abs_of_pos hpos]
  refine div_le_div_of_nonneg_right ?_ hpos.le
  have h5 : |(Real.pi - 3.14159265358979) * p| ≤ 1e-14 * s := by
    rw [abs_mul, abs_of_nonneg hp0]
    exact mul_le_mul pi_close hp2 hp0 (by norm_num)
  have e3 : Real.pi * p - 2 * z = (3.14159265358979 * p - 2 * s) + (Real.pi - 3.14159265358979) * p - 2 * (z - s) := by ring
  rw [e3]
  obtain ⟨h6, h7⟩ := abs_le.1 h5
  have h8 : 0 ≤ ε * s := mul_nonneg hε0 hs
  have h9 : ε * s ≤ 1e-7 * s := mul_le_mul_of_nonneg_right hε hs
  have h10 : ε * z - ε * s ≤ ε * (1e-11 * s) := by rw [← mul_sub]; exact mul_le_mul_of_nonneg_left h4 hε0
  have h11 : -(ε * (1e-11 * s)) ≤ ε * z - ε * s := by rw [← mul_sub, ← mul_neg]; exact mul_le_mul_of_nonneg_left (by linarith) hε0
  generalize (Real.pi - 3.14159265358979) * p = u at *
  rw [abs_le]
  constructor <;> norm_num at h1 h2 h3 h4 h6 h7 h9 h10 h11 ⊢ <;> nlinarith

theorem sum_low {n : Nat} {x : ℝ} {s : ℝ} (h0 : 0 ≤ x) (h3 : x ≤ 3) (hl : 0.15 ≤ s) (hs : s = ∑ k ∈ Finset.range 12, (-1) ^ k * term n (x ^ 2) k)
    (hd : den n 12 ≥ 9 ^ 12 * 1e13) : |∑' k : ℕ, (-1) ^ k * term n (x ^ 2) k - s| ≤ 1e-11 * s := by
  obtain ⟨b1, b2⟩ := series_bounds (n := n) (sq_nonneg x) (by nlinarith : x ^ 2 ≤ 9) 6
  have h5 : (9 : ℝ) ^ (2 * 6) / den n (2 * 6) ≤ 1e-13 := by
    rw [div_le_iff₀ (den_pos _ _)]
    norm_num at hd ⊢
    linarith
  rw [show 2 * 6 = 12 from rfl] at b1 b2 h5
  rw [← hs] at b1 b2
  rw [abs_le]
  constructor <;> norm_num at h5 hl ⊢ <;> linarith

theorem poly0_relative {x : ℝ} (h0 : 0 ≤ x) (h3 : x ≤ 3) : |poly0 x - struve 0 x| ≤ 8.11e-8 * struve 0 x := by
  rw [struve_zero]
  set s := ∑ k ∈ Finset.range 12, (-1) ^ k * term 0 (x ^ 2) k with hs
  have eS : pev struve0S x = 16000645334599970144100000000000000000000000 * (2 * (x * s)) := by
    rw [hs]
    simp only [Finset.sum_range_succ, Finset.sum_range_zero, term, den, Finset.prod_range_succ, Finset.prod_range_zero, struve0S, pev]
    norm_num
    ring
  have eR : pev struve0R x = 16000645334599970144100000000000000000000000 * (3.14159265358979 * poly0 x - 2 * (x * s)) := by
    rw [hs]
    simp only [Finset.sum_range_succ, Finset.sum_range_zero, term, den, Finset.prod_range_succ, Finset.prod_range_zero, poly0, struve0R, pev]
    norm_num
    ring
  rcases h0.lt_or_eq with hx | hx
  swap
  · rw [← hx]; simp [poly0]
  have hl : 0.15 ≤ s := by
    have h := checkOn_sound_closed (by norm_num) [1, 2] (by norm_num) struve0_low (x := x) (by norm_num; exact h0) (by norm_num; exact h3)
    rw [pev_psub, eS] at h
    simp only [pev] at h
    norm_num at h
    have h' : x * 0.15 ≤ x * s := by norm_num; linarith
    exact le_of_mul_le_mul_left h' hx
  have hc := certOn_sound struve0_rel (x := x) (by norm_num; exact h0) (by norm_num; exact h3)
  rw [eR, eS, abs_mul] at hc
  have hlow := sum_low h0 h3 hl hs den_twelve.1
  have hs0 : 0 ≤ s := by norm_num at hl; linarith
  have := relative_error (p := poly0 x) (z := x * ∑' k : ℕ, (-1) ^ k * term 0 (x ^ 2) k) (s := x * s) (ε := 8.1e-8) (by
    norm_num [abs_of_pos] at hc ⊢
    linarith) (by
    rw [← mul_sub, abs_mul, abs_of_pos hx]
    calc x * |_| ≤ x * (1e-11 * s) := mul_le_mul_of_nonneg_left hlow h0
      _ = _ := by ring) (mul_nonneg h0 hs0) (by norm_num) (by norm_num)
  exact this.trans (le_of_eq (by norm_num))

theorem poly1_relative {x : ℝ} (h0 : 0 ≤ x) (h3 : x ≤ 3) : |poly1 x - struve 1 x| ≤ 1.71e-8 * struve 1 x := by
  rw [struve_one]
  set s := ∑ k ∈ Finset.range 12, (-1) ^ k * term 1 (x ^ 2) k with hs
  have eS : pev struve1S x = 48001936003799910432300000000000000000000000 * (2 * (x ^ 2 / 3 * s)) := by
    rw [hs]
    simp only [Finset.sum_range_succ, Finset.sum_range_zero, term, den, Finset.prod_range_succ, Finset.prod_range_zero, struve1S, pev]
    norm_num
    ring
  have eR : pev struve1R x = 48001936003799910432300000000000000000000000 * (3.14159265358979 * poly1 x - 2 * (x ^ 2 / 3 * s)) := by
    rw [hs]
    simp only [Finset.sum_range_succ, Finset.sum_range_zero, term, den, Finset.prod_range_succ, Finset.prod_range_zero, poly1, struve1R, pev]
    norm_num
    ring
  rcases h0.lt_or_eq with hx | hx
  swap
  · rw [← hx]; simp [poly1]
  have hx2 : 0 < x ^ 2 / 3 := by positivity
  have hl : 0.15 ≤ s := by
    have h := checkOn_sound_closed (by norm_num) [1, 2] (by norm_num) struve1_low (x := x) (by norm_num; exact h0) (by norm_num; exact h3)
    rw [pev_psub, eS] at h
    simp only [pev] at h
    norm_num at h
    have h' : x ^ 2 / 3 * 0.15 ≤ x ^ 2 / 3 * s := by norm_num; nlinarith
    exact le_of_mul_le_mul_left h' hx2
  have hc := certOn_sound struve1_rel (x := x) (by norm_num; exact h0) (by norm_num; exact h3)
  rw [eR, eS, abs_mul] at hc
  have hlow := sum_low h0 h3 hl hs den_twelve.2
  have hs0 : 0 ≤ s := by norm_num at hl; linarith
  have := relative_error (p := poly1 x) (z := x ^ 2 / 3 * ∑' k : ℕ, (-1) ^ k * term 1 (x ^ 2) k) (s := x ^ 2 / 3 * s) (ε := 1.7e-8) (by
    norm_num [abs_of_pos] at hc ⊢
    linarith) (by
    rw [← mul_sub, abs_mul, abs_of_pos hx2]
    calc x ^ 2 / 3 * |_| ≤ x ^ 2 / 3 * (1e-11 * s) := mul_le_mul_of_nonneg_left hlow hx2.le
      _ = _ := by ring) (mul_nonneg hx2.le hs0) (by norm_num) (by norm_num)
  exact this.trans (le_of_eq (by norm_num))

/-- The Struve functions near zero. -/
theorem struve_near_zero {x : ℝ} (h0 : 0 ≤ x) (h3 : x ≤ 3) :
    2 / Real.pi * x * (1 - x ^ 2 / 9) ≤ struve 0 x ∧ struve 0 x ≤ 2 / Real.pi * x ∧
    2 / (3 * Real.pi) * x ^ 2 * (1 - x ^ 2 / 15) ≤ struve 1 x ∧ struve 1 x ≤ 2 / (3 * Real.pi) * x ^ 2 := by
  have h9 : x ^ 2 ≤ 9 := by nlinarith
  have key : ∀ n, 1 - x ^ 2 / (3 * (2 * n + 3)) ≤ ∑' k : ℕ, (-1) ^ k * term n (x ^ 2) k ∧ ∑' k : ℕ, (-1) ^ k * term n (x ^ 2) k ≤ 1 := by
    intro n
    have ht := (term_summable n (x ^ 2)).tendsto_alternating_series_tsum
    have h1 := (term_antitone (n := n) (sq_nonneg x) h9).alternating_series_le_tendsto ht 1
    have h2 := (term_antitone (n := n) (sq_nonneg x) h9).tendsto_le_alternating_series ht 0
    clear ht
    generalize ∑' k : ℕ, (-1) ^ k * term n (x ^ 2) k = u at *
    simp [Finset.sum_range_succ, term, den] at h1 h2
    refine ⟨?_, h2⟩
    linarith
  have hp : 0 < 2 / Real.pi := by have := Real.pi_pos; positivity
  have e : 2 / (3 * Real.pi) = 2 / Real.pi / 3 := by have := Real.pi_pos.ne'; field_simp
  obtain ⟨k1, k2⟩ := key 0
  obtain ⟨k3, k4⟩ := key 1
  rw [struve_zero, struve_one, e]
  generalize ∑' k : ℕ, (-1) ^ k * term 0 (x ^ 2) k = u at *
  generalize ∑' k : ℕ, (-1) ^ k * term 1 (x ^ 2) k = v at *
  replace k1 : 1 - x ^ 2 / 9 ≤ u := by norm_num at k1; linarith
  replace k3 : 1 - x ^ 2 / 15 ≤ v := by norm_num at k3; linarith
  generalize 2 / Real.pi = c at *
  have hcx : 0 ≤ c * x := mul_nonneg hp.le h0
  have hcx2 : 0 ≤ c * (x ^ 2 / 3) := mul_nonneg hp.le (by positivity)
  refine ⟨?_, ?_, ?_, ?_⟩
  · calc c * x * (1 - x ^ 2 / 9) ≤ c * x * u := mul_le_mul_of_nonneg_left k1 hcx
      _ = _ := by ring
  · calc _ = c * x * u := by ring
      _ ≤ c * x * 1 := mul_le_mul_of_nonneg_left k2 hcx
      _ = _ := by ring
  · calc c / 3 * x ^ 2 * (1 - x ^ 2 / 15) = c * (x ^ 2 / 3) * (1 - x ^ 2 / 15) := by ring
      _ ≤ c * (x ^ 2 / 3) * v := mul_le_mul_of_nonneg_left k3 hcx2
      _ = _ := by ring
  · calc _ = c * (x ^ 2 / 3) * v := by ring
      _ ≤ c * (x ^ 2 / 3) * 1 := mul_le_mul_of_nonneg_left k4 hcx2
      _ = _ := by ring

end MU.Struve
