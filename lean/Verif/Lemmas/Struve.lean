import Verif.Spec.Bessel
import Verif.Model.SpecialFunctions
import Verif.Lemmas.ExpIntBranch
import Mathlib.Analysis.SpecialFunctions.Gaussian.GaussianIntegral
import Mathlib.Analysis.Real.Pi.Bounds
import Mathlib.Analysis.Calculus.SmoothSeries

/-!
# Struve functions

The series of the orders zero and one over the odd double factorials, the bounds of an alternating series, the derivative, and the distance between
the polynomials of the code and the series on [0, 3].
-/

namespace MU.Struve
open Filter Topology Set Spec PolyCheck ExpInt

/-- `(2k + 1)!!^2` for `n = 0`, `(2k + 1)!! (2k + 3)!! / 3` for `n = 1`. -/
noncomputable def den (n k : Nat) : ℝ := ∏ i ∈ Finset.range k, ((2 * i + 3) * (2 * i + 2 * n + 3))

theorem den_pos (n k : Nat) : 0 < den n k := Finset.prod_pos fun i _ => by positivity

theorem den_succ (n k : Nat) : den n (k + 1) = den n k * ((2 * k + 3) * (2 * k + 2 * n + 3)) := Finset.prod_range_succ _ _

theorem factorial_le_den (n k : Nat) : (k.factorial : ℝ) ≤ den n k := by
  induction k with
  | zero => simp [den]
  | succ k ih =>
    rw [den_succ, Nat.factorial_succ]
    push_cast
    have hk : (0 : ℝ) ≤ k := Nat.cast_nonneg k
    have hn : (0 : ℝ) ≤ n := Nat.cast_nonneg n
    have h1 : (k + 1 : ℝ) ≤ (2 * k + 3) * (2 * k + 2 * n + 3) := by nlinarith
    have := mul_le_mul ih h1 (by positivity) (den_pos n k).le
    linarith

theorem gamma_den (n k : Nat) : Real.Gamma (k + 3 / 2) * Real.Gamma (k + n + 3 / 2) * 4 ^ k = Real.Gamma (3 / 2) * Real.Gamma (n + 3 / 2) * den n k := by
  induction k with
  | zero => simp [den]
  | succ k ih =>
    have h1 : Real.Gamma ((k + 1 : Nat) + 3 / 2) = (k + 3 / 2) * Real.Gamma (k + 3 / 2) := by
      rw [← Real.Gamma_add_one (by positivity)]
      push_cast
      congr 1
      ring
    have h2 : Real.Gamma ((k + 1 : Nat) + n + 3 / 2) = (k + n + 3 / 2) * Real.Gamma (k + n + 3 / 2) := by
      rw [← Real.Gamma_add_one (by positivity)]
      push_cast
      congr 1
      ring
    rw [h1, h2, den_succ, pow_succ]
    linear_combination ((2 * k + 3) * (2 * k + 2 * n + 3)) * ih

/-- The terms of the series, without their signs. -/
noncomputable def term (n : Nat) (y : ℝ) (k : Nat) : ℝ := y ^ k / den n k

theorem term_summable (n : Nat) (y : ℝ) : Summable (term n y) := by
  refine Summable.of_norm_bounded (Real.summable_pow_div_factorial |y|) fun k => ?_
  rw [term, norm_div, norm_pow, Real.norm_eq_abs, Real.norm_eq_abs, abs_of_pos (den_pos n k)]
  exact div_le_div_of_nonneg_left (by positivity) (by positivity) (factorial_le_den n k)

theorem term_antitone {n : Nat} {y : ℝ} (h0 : 0 ≤ y) (h9 : y ≤ 9) : Antitone (term n y) := by
  refine antitone_nat_of_succ_le fun k => ?_
  rw [term, term, den_succ, div_le_div_iff₀ (mul_pos (den_pos n k) (by positivity)) (den_pos n k), pow_succ]
  have hk : (0 : ℝ) ≤ k := Nat.cast_nonneg k
  have hn : (0 : ℝ) ≤ n := Nat.cast_nonneg n
  have h1 : y ≤ (2 * k + 3) * (2 * k + 2 * n + 3) := by nlinarith
  have := mul_le_mul_of_nonneg_left h1 (mul_nonneg (pow_nonneg h0 k) (den_pos n k).le)
  nlinarith

theorem struve_eq (n : Nat) (x : ℝ) :
    struve n x = (x / 2) ^ (n + 1) / (Real.Gamma (3 / 2) * Real.Gamma (n + 3 / 2)) * ∑' k : ℕ, (-1) ^ k * term n (x ^ 2) k := by
  rw [struve, div_mul_eq_mul_div, mul_div_assoc]
  congr 1
  rw [← tsum_div_const]
  refine tsum_congr fun k => ?_
  have h := gamma_den n k
  have hg : Real.Gamma (3 / 2) * Real.Gamma (n + 3 / 2) ≠ 0 := by
    have h1 := Real.Gamma_pos_of_pos (s := (3 / 2 : ℝ)) (by norm_num)
    have h2 := Real.Gamma_pos_of_pos (s := (n + 3 / 2 : ℝ)) (by positivity)
    positivity
  have hg' : Real.Gamma (k + 3 / 2) * Real.Gamma (k + n + 3 / 2) ≠ 0 := by
    have h1 := Real.Gamma_pos_of_pos (s := (k + 3 / 2 : ℝ)) (by positivity)
    have h2 := Real.Gamma_pos_of_pos (s := (k + n + 3 / 2 : ℝ)) (by positivity)
    positivity
  have hd := (den_pos n k).ne'
  rw [term, mul_div_assoc', div_div, div_eq_div_iff hg' (mul_ne_zero hd hg), div_pow]
  have e : (x ^ 2) ^ k = x ^ (2 * k) := by rw [pow_mul]
  have e4 : (2 : ℝ) ^ (2 * k) = 4 ^ k := by rw [pow_mul]; norm_num
  rw [e, e4]
  have h4 : (4 : ℝ) ^ k ≠ 0 := by positivity
  rw [mul_div_assoc', div_mul_eq_mul_div, div_eq_iff h4]
  calc (-1) ^ k * x ^ (2 * k) * (den n k * (Real.Gamma (3 / 2) * Real.Gamma (n + 3 / 2)))
      = (-1) ^ k * x ^ (2 * k) * (Real.Gamma (3 / 2) * Real.Gamma (n + 3 / 2) * den n k) := by ring
    _ = _ := by rw [← h]; ring

theorem gamma_three_half : Real.Gamma (3 / 2) = Real.sqrt Real.pi / 2 := by
  have : (3 / 2 : ℝ) = 1 / 2 + 1 := by norm_num
  rw [this, Real.Gamma_add_one (by norm_num), Real.Gamma_one_half_eq]
  ring

theorem struve_zero (x : ℝ) : struve 0 x = 2 / Real.pi * (x * ∑' k : ℕ, (-1) ^ k * term 0 (x ^ 2) k) := by
  rw [struve_eq]
  have h : Real.Gamma (3 / 2) * Real.Gamma ((0 : Nat) + 3 / 2) = Real.pi / 4 := by
    rw [Nat.cast_zero, zero_add, gamma_three_half, div_mul_div_comm, Real.mul_self_sqrt Real.pi_pos.le]
    norm_num
  have hp := Real.pi_pos.ne'
  rw [h]
  field_simp
  ring

theorem struve_one (x : ℝ) : struve 1 x = 2 / Real.pi * (x ^ 2 / 3 * ∑' k : ℕ, (-1) ^ k * term 1 (x ^ 2) k) := by
  rw [struve_eq]
  have h : Real.Gamma (3 / 2) * Real.Gamma ((1 : Nat) + 3 / 2) = 3 * Real.pi / 8 := by
    rw [Nat.cast_one, add_comm, Real.Gamma_add_one (by norm_num), gamma_three_half]
    calc Real.sqrt Real.pi / 2 * (3 / 2 * (Real.sqrt Real.pi / 2)) = 3 / 8 * (Real.sqrt Real.pi * Real.sqrt Real.pi) := by ring
      _ = _ := by rw [Real.mul_self_sqrt Real.pi_pos.le]; ring
  have hp := Real.pi_pos.ne'
  rw [h]
  field_simp
  ring

/-- The series between two partial sums. -/
theorem series_bounds {n : Nat} {y : ℝ} (h0 : 0 ≤ y) (h9 : y ≤ 9) (m : Nat) :
    ∑ k ∈ Finset.range (2 * m), (-1) ^ k * term n y k ≤ ∑' k : ℕ, (-1) ^ k * term n y k ∧
    ∑' k : ℕ, (-1) ^ k * term n y k ≤ ∑ k ∈ Finset.range (2 * m), (-1) ^ k * term n y k + 9 ^ (2 * m) / den n (2 * m) := by
  have ht := (term_summable n y).tendsto_alternating_series_tsum
  refine ⟨(term_antitone h0 h9).alternating_series_le_tendsto ht m, ?_⟩
  refine ((term_antitone h0 h9).tendsto_le_alternating_series ht m).trans ?_
  rw [Finset.sum_range_succ, Even.neg_one_pow (even_two_mul m), one_mul]
  refine add_le_add le_rfl ?_
  exact div_le_div_of_nonneg_right (pow_le_pow_left₀ h0 h9 _) (den_pos _ _).le

/-! ## Derivative of the order zero -/

theorem term_shift (x : ℝ) (k : Nat) : (2 * (k + 1 : ℕ) + 1 : ℝ) * (x ^ (2 * (k + 1)) / den 0 (k + 1)) = x ^ 2 / 3 * term 1 (x ^ 2) k := by
  have e : ∀ k, 3 * den 1 k = (2 * k + 3) * den 0 k := by
    intro k
    induction k with
    | zero => simp [den]
    | succ k ih =>
      rw [den_succ, den_succ]
      push_cast
      linear_combination ((2 * k + 3) * (2 * k + 2 * 1 + 3)) * ih
  have h := e k
  have h0 := (den_pos 0 k).ne'
  have h1 := (den_pos 1 k).ne'
  have h3 : (2 * k + 3 : ℝ) ≠ 0 := by positivity
  rw [term, den_succ, ← pow_mul, show 2 * (k + 1) = 2 * k + 2 by ring, pow_add]
  push_cast
  have hd : den 1 k = (2 * k + 3) * den 0 k / 3 := by linarith
  rw [hd]
  field_simp
  ring

theorem hasDerivAt_struve_zero (x : ℝ) : HasDerivAt (struve 0) (2 / Real.pi - struve 1 x) x := by
  have hs : HasDerivAt (fun z : ℝ => ∑' k : ℕ, (-1) ^ k * (z ^ (2 * k + 1) / den 0 k))
      (∑' k : ℕ, (-1) ^ k * ((2 * k + 1 : ℝ) * (x ^ (2 * k) / den 0 k))) x := by
    set r : ℝ := |x| + 1
    have hr : 1 ≤ r := by have := abs_nonneg x; simp only [r]; linarith
    have hu : Summable fun k : ℕ => (2 * k + 1 : ℝ) * ((r ^ 2) ^ k / den 0 k) := by
      rw [← summable_nat_add_iff 1]
      refine ((term_summable 1 (r ^ 2)).mul_left (r ^ 2 / 3)).congr fun k => ?_
      rw [← term_shift, ← pow_mul]
    refine hasDerivAt_tsum_of_isPreconnected (g := fun k z => (-1) ^ k * (z ^ (2 * k + 1) / den 0 k))
      (g' := fun k z => (-1) ^ k * ((2 * k + 1 : ℝ) * (z ^ (2 * k) / den 0 k))) hu (t := Metric.ball 0 r) Metric.isOpen_ball
      (convex_ball 0 r).isPreconnected (fun k z _ => ?_) (fun k z hz => ?_) (y₀ := 0) (by simp [lt_of_lt_of_le one_pos hr]) ?_ (by simp [r])
    · have h := ((hasDerivAt_pow (2 * k + 1) z).div_const (den 0 k)).const_mul ((-1 : ℝ) ^ k)
      refine h.congr_deriv ?_
      push_cast
      ring
    · have hz' : |z| < r := by simpa using hz
      rw [norm_mul, norm_pow, norm_neg, norm_one, one_pow, one_mul, norm_mul, norm_div, norm_pow, Real.norm_eq_abs, Real.norm_eq_abs, Real.norm_eq_abs,
        abs_of_pos (den_pos 0 k), abs_of_nonneg (by positivity : (0 : ℝ) ≤ 2 * k + 1), ← pow_mul]
      have := pow_le_pow_left₀ (abs_nonneg z) hz'.le (2 * k)
      have hd := (den_pos 0 k).le
      gcongr
    · have : (fun k : ℕ => (-1 : ℝ) ^ k * ((0 : ℝ) ^ (2 * k + 1) / den 0 k)) = fun _ => 0 := by
        funext k
        simp
      rw [this]
      exact summable_zero
  have e0 : struve 0 = fun z : ℝ => 2 / Real.pi * ∑' k : ℕ, (-1) ^ k * (z ^ (2 * k + 1) / den 0 k) := by
    funext z
    rw [struve_zero, ← tsum_mul_left]
    congr 1
    refine tsum_congr fun k => ?_
    rw [term, ← pow_mul, pow_succ]
    ring
  rw [e0]
  refine (hs.const_mul (2 / Real.pi)).congr_deriv ?_
  have hsum : Summable fun k : ℕ => (-1 : ℝ) ^ k * ((2 * k + 1 : ℝ) * (x ^ (2 * k) / den 0 k)) := by
    have : Summable fun k : ℕ => (2 * k + 1 : ℝ) * (x ^ (2 * k) / den 0 k) := by
      rw [← summable_nat_add_iff 1]
      refine ((term_summable 1 (x ^ 2)).mul_left (x ^ 2 / 3)).congr fun k => ?_
      rw [← term_shift]
    exact this.alternating
  rw [hsum.tsum_eq_zero_add, struve_one]
  have e1 : ∀ k : ℕ, (-1 : ℝ) ^ (k + 1) * ((2 * (k + 1 : ℕ) + 1 : ℝ) * (x ^ (2 * (k + 1)) / den 0 (k + 1))) = -(x ^ 2 / 3 * ((-1) ^ k * term 1 (x ^ 2) k)) := by
    intro k
    rw [term_shift, pow_succ]
    ring
  rw [tsum_congr e1, tsum_neg, tsum_mul_left]
  simp [den]
  ring

/-! ## Certificates -/

/-- `16000645334599970144100000000000000000000000` times the residual of the order zero. -/
def struve0R : List ℤ :=
  [0,
   -2565364596784241037486336219531215268,
   0,
   8035545823596311272487414545414391343,
   0,
   -7181666791753169274181291682156642499,
   0,
   2758581952204063356155558426276995371,
   0,
   -517938137264519267042387450636797971,
   0,
   47318993262906079574004703227139834,
   0,
   -1752394181832000000000000000000000,
   0,
   7788418585920000000000000000000,
   0,
   -26949545280000000000000000000,
   0,
   74652480000000000000000000,
   0,
   -169280000000000000000000,
   0,
   320000000000000000000]

/-- `48001936003799910432300000000000000000000000` times the residual of the order one. -/
def struve1R : List ℤ :=
  [0,
   0,
   -521152530125323821387886026861939882,
   0,
   1633250314789180351063499628954584559,
   0,
   -1458569600077183442424379028275116066,
   0,
   559686723823920865776410327483286324,
   0,
   -104908011354734717242801411541026209,
   0,
   9552800909440441733869092011691529,
   0,
   -350478836366400000000000000000000,
   0,
   1374426809280000000000000000000,
   0,
   -4255191360000000000000000000,
   0,
   10664640000000000000000000,
   0,
   -22080000000000000000000,
   0,
   38400000000000000000]

theorem struve0_cert : certOn 4 100000000 struve0R [16000645334599970144100000000000000000000000] 32 0 [24, 48, 72, 84, 90, 93] 96 = true := by decide +kernel
theorem struve1_cert : certOn 8 1000000000 struve1R [48001936003799910432300000000000000000000000] 32 0 [48, 72, 84, 90, 93] 96 = true := by decide +kernel

theorem den_twelve : den 0 12 ≥ 9 ^ 12 * 1e13 ∧ den 1 12 ≥ 9 ^ 12 * 1e13 := by
  constructor <;> norm_num [den, Finset.prod_range_succ]

theorem pi_close : |Real.pi - 3.14159265358979| ≤ 1e-14 := by
  have h1 := Real.pi_gt_d20
  have h2 := Real.pi_lt_d20
  rw [abs_le]
  constructor <;> norm_num at h1 h2 ⊢ <;> linarith

/-- The polynomial of the code below 3, order zero. -/
noncomputable def poly0 (x : ℝ) : ℝ :=
  1.909859164 * (x / 3) - 1.909855001 * (x / 3) ^ 3 + 0.687514637 * (x / 3) ^ 5 - 0.126164557 * (x / 3) ^ 7 + 0.013828813 * (x / 3) ^ 9 -
    0.000876918 * (x / 3) ^ 11

/-- The polynomial of the code below 3, order one. -/
noncomputable def poly1 (x : ℝ) : ℝ :=
  1.909859286 * (x / 3) ^ 2 - 1.145914713 * (x / 3) ^ 4 + 0.294656958 * (x / 3) ^ 6 - 0.042070508 * (x / 3) ^ 8 + 0.003785727 * (x / 3) ^ 10 -
    0.000207183 * (x / 3) ^ 12

theorem residual_to_error {p q S s e δ : ℝ} (hp : |3.14159265358979 * p - 2 * s| ≤ δ) (hS : |q * S - s| ≤ e) (hq : |p| ≤ 10) :
    |p - 2 / Real.pi * (q * S)| ≤ (δ + 2 * e + 1e-13) / 3.14 := by
  have hpi := pi_close
  have h3 : (3.14 : ℝ) ≤ Real.pi := by have := Real.pi_gt_d20; norm_num at this ⊢; linarith
  have e1 : p - 2 / Real.pi * (q * S) = (Real.pi * p - 2 * (q * S)) / Real.pi := by
    have := Real.pi_pos.ne'
    field_simp
  have h1 : |Real.pi * p - 2 * (q * S)| ≤ δ + 2 * e + 1e-13 := by
    have : Real.pi * p - 2 * (q * S) = (3.14159265358979 * p - 2 * s) + ((Real.pi - 3.14159265358979) * p - 2 * (q * S - s)) := by ring
    rw [this]
    refine (abs_add_le _ _).trans ?_
    have h2 := abs_sub ((Real.pi - 3.14159265358979) * p) (2 * (q * S - s))
    rw [abs_mul, abs_mul 2, abs_of_pos (two_pos : (0 : ℝ) < 2)] at h2
    have h4 : |Real.pi - 3.14159265358979| * |p| ≤ 1e-14 * 10 := mul_le_mul hpi hq (abs_nonneg _) (by norm_num)
    norm_num at h4 ⊢
    linarith
  rw [e1, abs_div, abs_of_pos Real.pi_pos]
  have h0 : 0 ≤ δ + 2 * e + 1e-13 := (abs_nonneg _).trans h1
  exact div_le_div₀ h0 h1 (by norm_num) h3

theorem pow_le_one_of {x : ℝ} (h0 : 0 ≤ x) (h3 : x ≤ 3) (k : Nat) : 0 ≤ (x / 3) ^ k ∧ (x / 3) ^ k ≤ 1 :=
  ⟨by positivity, pow_le_one₀ (by positivity) (by linarith)⟩

theorem poly0_close {x : ℝ} (h0 : 0 ≤ x) (h3 : x ≤ 3) : |poly0 x - struve 0 x| ≤ 1.28e-8 := by
  have h9 : x ^ 2 ≤ 9 := by nlinarith
  obtain ⟨b1, b2⟩ := series_bounds (n := 0) (sq_nonneg x) h9 6
  rw [struve_zero]
  refine (residual_to_error (δ := 4e-8) (e := 3e-13) (s := x * ∑ k ∈ Finset.range 12, (-1) ^ k * term 0 (x ^ 2) k) ?_ ?_ ?_).trans (by norm_num)
  · have h := certOn_sound struve0_cert (x := x) (by norm_num; exact h0) (by norm_num; exact h3)
    have e : pev struve0R x = 16000645334599970144100000000000000000000000 * (3.14159265358979 * poly0 x - 2 * (x * ∑ k ∈ Finset.range 12, (-1) ^ k * term 0 (x ^ 2) k)) := by
      simp only [Finset.sum_range_succ, Finset.sum_range_zero, term, den, Finset.prod_range_succ, Finset.prod_range_zero, poly0, struve0R, pev]
      norm_num
      ring
    rw [e, abs_mul] at h
    simp only [pev] at h
    norm_num [abs_of_pos] at h ⊢
    linarith
  · have hd := den_twelve.1
    have h5 : (9 : ℝ) ^ (2 * 6) / den 0 (2 * 6) ≤ 1e-13 := by
      rw [div_le_iff₀ (den_pos _ _)]
      norm_num at hd ⊢
      linarith
    rw [← mul_sub, abs_mul, abs_of_nonneg h0]
    rw [show 2 * 6 = 12 from rfl] at b1 b2 h5
    have h6 : |∑' k : ℕ, (-1) ^ k * term 0 (x ^ 2) k - ∑ k ∈ Finset.range 12, (-1) ^ k * term 0 (x ^ 2) k| ≤ 1e-13 := by
      rw [abs_le]
      constructor <;> norm_num at h5 ⊢ <;> linarith
    calc x * |∑' k : ℕ, (-1) ^ k * term 0 (x ^ 2) k - ∑ k ∈ Finset.range 12, (-1) ^ k * term 0 (x ^ 2) k| ≤ 3 * 1e-13 :=
          mul_le_mul h3 h6 (abs_nonneg _) (by norm_num)
      _ = _ := by norm_num
  · have p1 := pow_le_one_of h0 h3 1
    have p3 := pow_le_one_of h0 h3 3
    have p5 := pow_le_one_of h0 h3 5
    have p7 := pow_le_one_of h0 h3 7
    have p9 := pow_le_one_of h0 h3 9
    have p11 := pow_le_one_of h0 h3 11
    rw [pow_one] at p1
    rw [poly0, abs_le]
    constructor <;> norm_num <;> linarith [p1.1, p1.2, p3.1, p3.2, p5.1, p5.2, p7.1, p7.2, p9.1, p9.2, p11.1, p11.2]

theorem poly1_close {x : ℝ} (h0 : 0 ≤ x) (h3 : x ≤ 3) : |poly1 x - struve 1 x| ≤ 2.56e-9 := by
  have h9 : x ^ 2 ≤ 9 := by nlinarith
  obtain ⟨b1, b2⟩ := series_bounds (n := 1) (sq_nonneg x) h9 6
  rw [struve_one]
  refine (residual_to_error (δ := 8e-9) (e := 3e-13) (s := x ^ 2 / 3 * ∑ k ∈ Finset.range 12, (-1) ^ k * term 1 (x ^ 2) k) ?_ ?_ ?_).trans (by norm_num)
  · have h := certOn_sound struve1_cert (x := x) (by norm_num; exact h0) (by norm_num; exact h3)
    have e : pev struve1R x = 48001936003799910432300000000000000000000000 * (3.14159265358979 * poly1 x - 2 * (x ^ 2 / 3 * ∑ k ∈ Finset.range 12, (-1) ^ k * term 1 (x ^ 2) k)) := by
      simp only [Finset.sum_range_succ, Finset.sum_range_zero, term, den, Finset.prod_range_succ, Finset.prod_range_zero, poly1, struve1R, pev]
      norm_num
      ring
    rw [e, abs_mul] at h
    simp only [pev] at h
    norm_num [abs_of_pos] at h ⊢
    linarith
  · have hd := den_twelve.2
    have h5 : (9 : ℝ) ^ (2 * 6) / den 1 (2 * 6) ≤ 1e-13 := by
      rw [div_le_iff₀ (den_pos _ _)]
      norm_num at hd ⊢
      linarith
    rw [← mul_sub, abs_mul, abs_of_nonneg (by positivity : 0 ≤ x ^ 2 / 3)]
    rw [show 2 * 6 = 12 from rfl] at b1 b2 h5
    have h6 : |∑' k : ℕ, (-1) ^ k * term 1 (x ^ 2) k - ∑ k ∈ Finset.range 12, (-1) ^ k * term 1 (x ^ 2) k| ≤ 1e-13 := by
      rw [abs_le]
      constructor <;> norm_num at h5 ⊢ <;> linarith
    calc x ^ 2 / 3 * |∑' k : ℕ, (-1) ^ k * term 1 (x ^ 2) k - ∑ k ∈ Finset.range 12, (-1) ^ k * term 1 (x ^ 2) k| ≤ 3 * 1e-13 :=
          mul_le_mul (by linarith) h6 (abs_nonneg _) (by norm_num)
      _ = _ := by norm_num
  · have p2 := pow_le_one_of h0 h3 2
    have p4 := pow_le_one_of h0 h3 4
    have p6 := pow_le_one_of h0 h3 6
    have p8 := pow_le_one_of h0 h3 8
    have p10 := pow_le_one_of h0 h3 10
    have p12 := pow_le_one_of h0 h3 12
    rw [poly1, abs_le]
    constructor <;> norm_num <;> linarith [p2.1, p2.2, p4.1, p4.2, p6.1, p6.2, p8.1, p8.2, p10.1, p10.2, p12.1, p12.2]

end MU.Struve
