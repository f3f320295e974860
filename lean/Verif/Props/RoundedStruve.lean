import Verif.Props.Struve
import Verif.Props.RoundedSpecialFunctions

/-!
# Struve functions in double arithmetic (C141)
-/

set_option linter.unusedSectionVars false

namespace MU
open Struve PolyCheck Spec ExpInt

/-- `pow` within one unit in the last place. -/
def PowClose (P : ℝ → Nat → ℝ) : Prop := ∀ t k, |P t k - t ^ k| ≤ |t ^ k| / 2 ^ 52

variable {rnd : ℝ → ℝ} {P : ℝ → Nat → ℝ}

theorem Near.pow {k : ℕ} {Q p r : ℝ} (h : Near k Q p r) (n : ℕ) : Near (k * n) (Q ^ n) (p ^ n) (r ^ n) := by
  induction n with
  | zero => simpa using Near.exact (1 : ℝ)
  | succ n ih =>
    have := ih.mul h
    rwa [← pow_succ, ← pow_succ, ← pow_succ, show k * n + k = k * (n + 1) by ring] at this

/-- A function within one unit in the last place, of an argument known up to some roundings. -/
theorem Near.ulp {k : ℕ} {Q p r w : ℝ} (h : Near k Q p r) (hw : |w - r| ≤ |r| / 2 ^ 52) : Near (k + 2) Q p w := by
  refine ⟨?_, h.size⟩
  have h1 := h.err
  have h2 := h.abs_le
  have h3 := abs_sub_le w r p
  have h4 := gam_two_le
  have h5 : |r| / 2 ^ 52 ≤ gam 2 * ((1 + gam k) * Q) := by
    rw [div_eq_mul_one_div, mul_comm]
    exact mul_le_mul h4 h2 (abs_nonneg _) (gam_nonneg 2)
  rw [gam_add]
  linarith

theorem pow_near (hP : PowClose P) {k : ℕ} {Q p r : ℝ} (h : Near k Q p r) (n : ℕ) : Near (k * n + 2) (Q ^ n) (p ^ n) (P r n) :=
  (h.pow n).ulp (hP r n)

/-- One more term. -/
theorem term_near (hr : ToNearest rnd) (hP : PowClose P) {m n k : ℕ} {S s Q T : ℝ} (hS : Near m Q S s) (c : ℝ) {t r : ℝ} (ht : Near 1 |t| t r)
    (hk : m + 1 ≤ k) (hk' : n + 5 ≤ k) (hT : |c| * |t| ^ n = T) : Near k (Q + T) (S + c * t ^ n) (rnd (s + rnd (rnd c * P r n))) := by
  have h1 := ((Near.literal hr c).mul (pow_near hP ht n)).round hr
  have h2 := (hS.upto (show m ≤ k - 1 by omega)).add (h1.upto (show 1 + (1 * n + 2) + 1 ≤ k - 1 by omega))
  have h3 := h2.round hr
  rw [hT] at h3
  exact h3.upto (by omega)

theorem zero_near : Near 0 0 0 0 := by simpa using Near.exact (0 : ℝ)

theorem struveSum_near (hr : ToNearest rnd) (hP : PowClose P) {a b c d e f : ℝ} {t r : ℝ} (ht : Near 1 |t| t r) (i : Nat) (hi : i ≤ 1) :
    ∃ w, struveSumR rnd P (List.map rnd [a, b, c, d, e, f]) r i = .ok w ∧
      Near 17 (|a| * |t| ^ (1 + i) + |b| * |t| ^ (3 + i) + |c| * |t| ^ (5 + i) + |d| * |t| ^ (7 + i) + |e| * |t| ^ (9 + i) + |f| * |t| ^ (11 + i))
        (a * t ^ (1 + i) + b * t ^ (3 + i) + c * t ^ (5 + i) + d * t ^ (7 + i) + e * t ^ (9 + i) + f * t ^ (11 + i)) w := by
  refine ⟨_, by simp [struveSumR, forRange, forN, vAt]; rfl, ?_⟩
  have h1 := term_near hr hP (k := 7) zero_near a ht (n := 1 + i) (by norm_num) (by omega) rfl
  have h2 := term_near hr hP (k := 9) h1 b ht (n := 3 + i) (by norm_num) (by omega) rfl
  have h3 := term_near hr hP (k := 11) h2 c ht (n := 5 + i) (by norm_num) (by omega) rfl
  have h4 := term_near hr hP (k := 13) h3 d ht (n := 7 + i) (by norm_num) (by omega) rfl
  have h5 := term_near hr hP (k := 15) h4 e ht (n := 9 + i) (by norm_num) (by omega) rfl
  have h6 := term_near hr hP (k := 17) h5 f ht (n := 11 + i) (by norm_num) (by omega) rfl
  simpa using h6

theorem struveFraction_near (hr : ToNearest rnd) (hP : PowClose P) {a b c d : ℝ} (ha : 0 < a) (hb : 0 < b) (hc : 0 < c) (hd : 0 < d) {t r : ℝ}
    (ht : Near 1 |t| t r) : ∃ w, struveFractionR rnd P (List.map rnd [a, b, c, d]) r = .ok w ∧
      Near 11 |a + b * t ^ 2 + c * t ^ 4 + d * t ^ 6| (a + b * t ^ 2 + c * t ^ 4 + d * t ^ 6) w := by
  refine ⟨_, by simp [struveFractionR, forRange, forN, vAt]; rfl, ?_⟩
  have hp := struveFraction_pos t ha hb hc hd
  have h1 := term_near hr hP (k := 5) zero_near a ht (n := 0) (by norm_num) (by omega) rfl
  have h2 := term_near hr hP (k := 7) h1 b ht (n := 2) (by norm_num) (by omega) rfl
  have h3 := term_near hr hP (k := 9) h2 c ht (n := 4) (by norm_num) (by omega) rfl
  have h4 := term_near hr hP (k := 11) h3 d ht (n := 6) (by norm_num) (by omega) rfl
  rw [abs_of_pos ha, abs_of_pos hb, abs_of_pos hc, abs_of_pos hd] at h4
  have e2 : |t| ^ 2 = t ^ 2 := sq_abs t
  have e4 : |t| ^ 4 = t ^ 4 := by rw [show (4 : ℕ) = 2 * 2 from rfl, pow_mul, pow_mul, e2]
  have e6 : |t| ^ 6 = t ^ 6 := by rw [show (6 : ℕ) = 2 * 3 from rfl, pow_mul, pow_mul, e2]
  rw [e2, e4, e6] at h4
  rw [abs_of_pos hp]
  simpa using h4

/-! ## The exact functions are bounded -/

theorem sinInt_le (ν x : ℝ) : |1 / Real.pi * Bessel.sinInt ν x| ≤ 1 := by
  have h : ‖Bessel.sinInt ν x‖ ≤ 1 * |Real.pi - 0| := intervalIntegral.norm_integral_le_of_norm_le_const fun θ _ => by
    rw [Real.norm_eq_abs]
    exact Real.abs_sin_le_one _
  rw [Real.norm_eq_abs, sub_zero, one_mul, abs_of_pos Real.pi_pos] at h
  rw [abs_mul, abs_of_pos (by positivity : (0 : ℝ) < 1 / Real.pi), one_div, inv_mul_le_iff₀ Real.pi_pos, mul_one]
  exact h

theorem struve_zero_le (x : ℝ) : |struve 0 x| ≤ 1 := by
  rw [struve_zero_integral]
  exact sinInt_le 0 x

theorem struve_one_le {x : ℝ} (hx : x ≠ 0) : |struve 1 x| ≤ 1.64 := by
  rw [struve_one_integral hx]
  refine (abs_add_le _ _).trans ?_
  have h1 := sinInt_le 1 x
  have h2 := pi_quotient_le
  rw [abs_of_pos (by positivity : (0 : ℝ) < 2 / Real.pi), show 2 / Real.pi = 2 * (1 / Real.pi) by ring]
  norm_num at h2 ⊢
  norm_num at h1
  linarith

/-- Rounding errors of the last sum. -/
theorem last_sum (hr : ToNearest rnd) {y' y r R δ ε b : ℝ} (hy : |y' - y| ≤ δ) (hR : |r - R| ≤ ε) (hb : |y + R| ≤ b) :
    |rnd (y' + r) - (y + R)| ≤ (1 + 1 / 2 ^ 53) * (δ + ε) + b / 2 ^ 53 := by
  have h1 := toNearest_err hr (y' + r)
  have h2 : |y' + r - (y + R)| ≤ δ + ε := by
    rw [show y' + r - (y + R) = (y' - y) + (r - R) by ring]
    exact (abs_add_le _ _).trans (add_le_add hy hR)
  have h3 := abs_sub_abs_le_abs_sub (y' + r) (y + R)
  have h4 := abs_sub_le (rnd (y' + r)) (y' + r) (y + R)
  have h5 : |y' + r| / 2 ^ 53 ≤ (b + (δ + ε)) / 2 ^ 53 := by
    gcongr
    linarith
  rw [abs_sub_comm] at h1
  have h6 : |rnd (y' + r) - (y' + r)| ≤ |y' + r| / 2 ^ 53 := h1
  linarith [show (b + (δ + ε)) / 2 ^ 53 = b / 2 ^ 53 + 1 / 2 ^ 53 * (δ + ε) by ring]

theorem pi_near (hr : ToNearest rnd) : Near 1 |M_PI| M_PI (MU_PI_R rnd) := Near.literal hr M_PI

theorem arg_near (hr : ToNearest rnd) (a b : ℝ) : Near 1 |a / b| (a / b) (rnd (a / b)) := (Near.exact _).round hr

theorem pow_le_self' {t : ℝ} (h0 : 0 ≤ t) (h1 : t ≤ 1) {c : ℝ} (n : ℕ) (hn : n ≠ 0) : |c| * |t| ^ n ≤ |c| * t := by
  rw [abs_of_nonneg h0]
  exact mul_le_mul_of_nonneg_left (pow_le_of_le_one h0 h1 hn) (abs_nonneg _)

theorem pow_le_sq' {t : ℝ} (h0 : 0 ≤ t) (h1 : t ≤ 1) {c : ℝ} (n : ℕ) (hn : 2 ≤ n) : |c| * |t| ^ n ≤ |c| * t ^ 2 := by
  rw [abs_of_nonneg h0]
  exact mul_le_mul_of_nonneg_left (pow_le_pow_of_le_one h0 h1 hn) (abs_nonneg _)

/-! ## Order zero -/

/-- C141: what `Struve_zero_order` returns in double, and in real arithmetic with the exact Bessel function: 28 roundings of `x` up to 3, then the error of
boost's Bessel function and 8 roundings of 1. -/
theorem C141_zero_rounding (hr : ToNearest rnd) (hP : PowClose P) {neumann : Nat → ℝ → ℝ} {δ : ℝ} (hn : ∀ x, 3 < x → |neumann 0 x - besselY 0 x| ≤ δ)
    {x : ℝ} (hx : 0 ≤ x) : ∃ w v, struveZeroR rnd P neumann x = .ok w ∧ struveZero (fun n x => besselY n x) x = .ok v ∧
      (x ≤ 3 → |w - v| ≤ 28 / 2 ^ 53 * x) ∧ (3 < x → |w - v| ≤ 1.001 * δ + 8 / 2 ^ 53) := by
  by_cases h3 : x ≤ 3
  · obtain ⟨w, hw, hn⟩ := struveSum_near hr hP (a := 1.909859164) (b := -1.909855001) (c := 0.687514637) (d := -0.126164557) (e := 0.013828813)
      (f := -0.000876918) (arg_near hr x 3) 0 (by norm_num)
    refine ⟨w, poly0 x, ?_, ?_, fun _ => ?_, fun h => absurd h3 (not_le.2 h)⟩
    · rw [struveZeroR, if_pos ⟨hx, h3⟩]
      exact hw
    · rw [struveZero, if_pos ⟨hx, h3⟩, struveSum_a]
    have h1 := hn.sum_le (by norm_num)
    have t0 : 0 ≤ x / 3 := by positivity
    have t1 : x / 3 ≤ 1 := by linarith
    have e : (1.909859164 * (x / 3) ^ (1 + 0) + -1.909855001 * (x / 3) ^ (3 + 0) + 0.687514637 * (x / 3) ^ (5 + 0) + -0.126164557 * (x / 3) ^ (7 + 0) +
        0.013828813 * (x / 3) ^ (9 + 0) + -0.000876918 * (x / 3) ^ (11 + 0) : ℝ) = poly0 x := by
      rw [poly0]
      ring
    rw [e] at h1
    refine h1.trans ?_
    have q1 := pow_le_self' t0 t1 (c := (1.909859164 : ℝ)) (1 + 0) (by norm_num)
    have q2 := pow_le_self' t0 t1 (c := (-1.909855001 : ℝ)) (3 + 0) (by norm_num)
    have q3 := pow_le_self' t0 t1 (c := (0.687514637 : ℝ)) (5 + 0) (by norm_num)
    have q4 := pow_le_self' t0 t1 (c := (-0.126164557 : ℝ)) (7 + 0) (by norm_num)
    have q5 := pow_le_self' t0 t1 (c := (0.013828813 : ℝ)) (9 + 0) (by norm_num)
    have q6 := pow_le_self' t0 t1 (c := (-0.000876918 : ℝ)) (11 + 0) (by norm_num)
    have q := add_le_add (add_le_add (add_le_add (add_le_add (add_le_add q1 q2) q3) q4) q5) q6
    refine (mul_le_mul_of_nonneg_left q (by positivity)).trans ?_
    norm_num [abs_of_pos, abs_of_neg]
    linarith
  · have h3 := not_le.1 h3
    have hx0 : 0 < x := by linarith
    obtain ⟨v, hv, hc⟩ := C92_zero (neumann := fun n x => besselY n x) (fun x _ => by simp) hx
    obtain ⟨n, n1, n2⟩ := struveFraction_near hr hP (a := 0.99999906) (b := 4.77228920) (c := 3.85542044) (d := 0.32303607) (by norm_num) (by norm_num)
      (by norm_num) (by norm_num) (arg_near hr 3 x)
    obtain ⟨d, d1, d2⟩ := struveFraction_near hr hP (a := 1.0) (b := 4.88331068) (c := 4.28957333) (d := 0.52120508) (by norm_num) (by norm_num)
      (by norm_num) (by norm_num) (arg_near hr 3 x)
    have pN := struveFraction_pos (a := 0.99999906) (b := 4.77228920) (c := 3.85542044) (d := 0.32303607) (3 / x) (by norm_num) (by norm_num) (by norm_num)
      (by norm_num)
    have pD := struveFraction_pos (a := 1.0) (b := 4.88331068) (c := 4.28957333) (d := 0.52120508) (3 / x) (by norm_num) (by norm_num) (by norm_num)
      (by norm_num)
    have eN := struveFraction_ok 0.99999906 4.77228920 3.85542044 0.32303607 (3 / x)
    have eD := struveFraction_ok 1.0 4.88331068 4.28957333 0.52120508 (3 / x)
    have hle : (0.99999906 + 4.77228920 * (3 / x) ^ 2 + 3.85542044 * (3 / x) ^ 4 + 0.32303607 * (3 / x) ^ 6 : ℝ) ≤
        1.0 + 4.88331068 * (3 / x) ^ 2 + 4.28957333 * (3 / x) ^ 4 + 0.52120508 * (3 / x) ^ 6 := by
      gcongr <;> norm_num
    generalize (0.99999906 + 4.77228920 * (3 / x) ^ 2 + 3.85542044 * (3 / x) ^ 4 + 0.32303607 * (3 / x) ^ 6 : ℝ) = N at *
    generalize (1.0 + 4.88331068 * (3 / x) ^ 2 + 4.28957333 * (3 / x) ^ 4 + 0.52120508 * (3 / x) ^ 6 : ℝ) = D at *
    have a1 := ((Near.exact (2 : ℝ)).mul n2).round hr
    have a2 := ((((pi_near hr).mul (Near.exact x)).round hr).mul d2).round hr
    rw [← abs_mul, ← abs_mul] at a2
    rw [← abs_mul] at a1
    have hM := M_PI_pos
    have hD : 0 < M_PI * x * D := by positivity
    obtain ⟨b1, b2⟩ := div_near hr (by norm_num) a1 a2 hD.ne'
    have b3 := b2.sum_le (by norm_num)
    have hv' : struveZero (fun n x => besselY n x) x = .ok (besselY 0 x + 2 * N / (M_PI * x * D)) := by
      rw [struveZero, if_neg (by intro h; linarith [h.2]), if_pos h3]
      erw [eN, Res.ok_bind, eD, Res.ok_bind]
      rw [rdiv, if_neg hD.ne', Res.ok_bind]
      simp
    rw [hv] at hv'
    injection hv' with hv'
    have hR : |2 * N| / |M_PI * x * D| ≤ 0.2123 := by
      rw [abs_of_pos (by positivity), abs_of_pos hD, div_le_iff₀ hD]
      have : 0.2123 * (M_PI * x * D) ≥ 2 * D := by
        have : 2 ≤ 0.2123 * (M_PI * x) := by
          have := mul_le_mul_of_nonneg_left h3.le hM.le
          have h : (3.1415 : ℝ) ≤ M_PI := by norm_num [M_PI]
          norm_num at *
          linarith
        calc (2 : ℝ) * D ≤ 0.2123 * (M_PI * x) * D := by gcongr
          _ = _ := by ring
      linarith
    have hb : |besselY 0 x + 2 * N / (M_PI * x * D)| ≤ 1.01 := by
      rw [← hv']
      have h1 := abs_sub_abs_le_abs_sub v (struve 0 x)
      have h2 := struve_zero_le x
      norm_num at *
      linarith
    refine ⟨rnd (neumann 0 x + rnd (rnd (2 * n) / rnd (rnd (MU_PI_R rnd * x) * d))), v, ?_, hv, fun h => absurd h (not_le.2 h3), fun _ => ?_⟩
    · rw [struveZeroR, if_neg (by intro h; linarith [h.2]), if_pos h3]
      dsimp only [struve_coef_b, struve_coef_c]
      rw [n1, Res.ok_bind, d1, Res.ok_bind, b1, Res.ok_bind]
      rfl
    · rw [hv']
      refine (last_sum hr (hn x h3) (b3.trans (mul_le_mul_of_nonneg_left hR (by positivity))) hb).trans ?_
      have hδ : 0 ≤ δ := (abs_nonneg _).trans (hn x h3)
      norm_num
      linarith

/-! ## Order one -/

/-- C141: what `Struve_first_order` returns in double, and in real arithmetic with the exact Bessel function: 7 roundings of `x²` up to 3, then the error of
boost's Bessel function and 24 roundings of 1. -/
theorem C141_one_rounding (hr : ToNearest rnd) (hP : PowClose P) {neumann : Nat → ℝ → ℝ} {δ : ℝ} (hn : ∀ x, 3 < x → |neumann 1 x - besselY 1 x| ≤ δ)
    {x : ℝ} (hx : 0 ≤ x) : ∃ w v, struveFirstR rnd P neumann x = .ok w ∧ struveFirst (fun n x => besselY n x) x = .ok v ∧
      (x ≤ 3 → |w - v| ≤ 7 / 2 ^ 53 * x ^ 2) ∧ (3 < x → |w - v| ≤ 1.001 * δ + 24 / 2 ^ 53) := by
  by_cases h3 : x ≤ 3
  · obtain ⟨w, hw, hn⟩ := struveSum_near hr hP (a := 1.909859286) (b := -1.145914713) (c := 0.294656958) (d := -0.042070508) (e := 0.003785727)
      (f := -0.000207183) (arg_near hr x 3) 1 (by norm_num)
    refine ⟨w, Struve.poly1 x, ?_, ?_, fun _ => ?_, fun h => absurd h3 (not_le.2 h)⟩
    · rw [struveFirstR, if_pos ⟨hx, h3⟩]
      exact hw
    · rw [struveFirst, if_pos ⟨hx, h3⟩, struveSum_d]
    have h1 := hn.sum_le (by norm_num)
    have t0 : 0 ≤ x / 3 := by positivity
    have t1 : x / 3 ≤ 1 := by linarith
    have e : (1.909859286 * (x / 3) ^ (1 + 1) + -1.145914713 * (x / 3) ^ (3 + 1) + 0.294656958 * (x / 3) ^ (5 + 1) + -0.042070508 * (x / 3) ^ (7 + 1) +
        0.003785727 * (x / 3) ^ (9 + 1) + -0.000207183 * (x / 3) ^ (11 + 1) : ℝ) = Struve.poly1 x := by
      rw [Struve.poly1]
      ring
    rw [e] at h1
    refine h1.trans ?_
    have q1 := pow_le_sq' t0 t1 (c := (1.909859286 : ℝ)) (1 + 1) (by norm_num)
    have q2 := pow_le_sq' t0 t1 (c := (-1.145914713 : ℝ)) (3 + 1) (by norm_num)
    have q3 := pow_le_sq' t0 t1 (c := (0.294656958 : ℝ)) (5 + 1) (by norm_num)
    have q4 := pow_le_sq' t0 t1 (c := (-0.042070508 : ℝ)) (7 + 1) (by norm_num)
    have q5 := pow_le_sq' t0 t1 (c := (0.003785727 : ℝ)) (9 + 1) (by norm_num)
    have q6 := pow_le_sq' t0 t1 (c := (-0.000207183 : ℝ)) (11 + 1) (by norm_num)
    have q := add_le_add (add_le_add (add_le_add (add_le_add (add_le_add q1 q2) q3) q4) q5) q6
    refine (mul_le_mul_of_nonneg_left q (by positivity)).trans ?_
    have hq : 0 ≤ x ^ 2 := by positivity
    rw [div_pow]
    norm_num [abs_of_pos, abs_of_neg]
    linarith
  · have h3 := not_le.1 h3
    have hx0 : 0 < x := by linarith
    obtain ⟨v, hv, hc, -⟩ := C92_one (neumann := fun n x => besselY n x) (fun x _ => by simp) hx
    obtain ⟨n, n1, n2⟩ := struveFraction_near hr hP (a := 1.00000004) (b := 3.92205313) (c := 2.64893033) (d := 0.27450895) (by norm_num) (by norm_num)
      (by norm_num) (by norm_num) (arg_near hr 3 x)
    obtain ⟨d, d1, d2⟩ := struveFraction_near hr hP (a := 1.0) (b := 3.81095112) (c := 2.26216956) (d := 0.10885141) (by norm_num) (by norm_num)
      (by norm_num) (by norm_num) (arg_near hr 3 x)
    have pN := struveFraction_pos (a := 1.00000004) (b := 3.92205313) (c := 2.64893033) (d := 0.27450895) (3 / x) (by norm_num) (by norm_num) (by norm_num)
      (by norm_num)
    have pD := struveFraction_pos (a := 1.0) (b := 3.81095112) (c := 2.26216956) (d := 0.10885141) (3 / x) (by norm_num) (by norm_num) (by norm_num)
      (by norm_num)
    have eN := struveFraction_ok 1.00000004 3.92205313 2.64893033 0.27450895 (3 / x)
    have eD := struveFraction_ok 1.0 3.81095112 2.26216956 0.10885141 (3 / x)
    have hle : (1.00000004 + 3.92205313 * (3 / x) ^ 2 + 2.64893033 * (3 / x) ^ 4 + 0.27450895 * (3 / x) ^ 6 : ℝ) ≤
        1.2 * (1.0 + 3.81095112 * (3 / x) ^ 2 + 2.26216956 * (3 / x) ^ 4 + 0.10885141 * (3 / x) ^ 6) := by
      have t0 : 0 ≤ (3 / x) ^ 2 := by positivity
      have t1 : (3 / x) ^ 2 ≤ 1 := pow_le_one₀ (by positivity) (by rw [div_le_one hx0]; exact h3.le)
      rw [show (3 / x) ^ 4 = ((3 / x) ^ 2) ^ 2 by ring, show (3 / x) ^ 6 = ((3 / x) ^ 2) ^ 3 by ring]
      generalize (3 / x) ^ 2 = s at *
      have t2 : s ^ 3 ≤ s := pow_le_of_le_one t0 t1 (by norm_num)
      have t3 : 0 ≤ s ^ 2 := by positivity
      norm_num
      linarith
    generalize (1.00000004 + 3.92205313 * (3 / x) ^ 2 + 2.64893033 * (3 / x) ^ 4 + 0.27450895 * (3 / x) ^ 6 : ℝ) = N at *
    generalize (1.0 + 3.81095112 * (3 / x) ^ 2 + 2.26216956 * (3 / x) ^ 4 + 0.10885141 * (3 / x) ^ 6 : ℝ) = D at *
    have a1 := ((Near.exact (2 : ℝ)).mul n2).round hr
    have a2 := ((pi_near hr).mul d2).round hr
    rw [← abs_mul] at a2
    rw [← abs_mul] at a1
    have hM := M_PI_pos
    have hD : 0 < M_PI * D := by positivity
    obtain ⟨b1, b2⟩ := div_near hr (by norm_num) a1 a2 hD.ne'
    have b3 := b2.sum_le (by norm_num)
    have hv' : struveFirst (fun n x => besselY n x) x = .ok (besselY 1 x + 2 * N / (M_PI * D)) := by
      rw [struveFirst, if_neg (by intro h; linarith [h.2]), if_pos h3]
      erw [eN, Res.ok_bind, eD, Res.ok_bind]
      rw [rdiv, if_neg hD.ne', Res.ok_bind]
      simp
    rw [hv] at hv'
    injection hv' with hv'
    have hR : |2 * N| / |M_PI * D| ≤ 0.765 := by
      rw [abs_of_pos (by positivity), abs_of_pos hD, div_le_iff₀ hD]
      have : 0.765 * (M_PI * D) ≥ 2.4 * D := by
        have : 2.4 ≤ 0.765 * M_PI := by norm_num [M_PI]
        calc (2.4 : ℝ) * D ≤ 0.765 * M_PI * D := by gcongr
          _ = _ := by ring
      norm_num at *
      linarith
    have hb : |besselY 1 x + 2 * N / (M_PI * D)| ≤ 1.65 := by
      rw [← hv']
      have h1 := abs_sub_abs_le_abs_sub v (struve 1 x)
      have h2 := struve_one_le hx0.ne'
      norm_num at *
      linarith
    refine ⟨rnd (neumann 1 x + rnd (rnd (2 * n) / rnd (MU_PI_R rnd * d))), v, ?_, hv, fun h => absurd h (not_le.2 h3), fun _ => ?_⟩
    · rw [struveFirstR, if_neg (by intro h; linarith [h.2]), if_pos h3]
      dsimp only [struve_coef_e, struve_coef_f]
      rw [n1, Res.ok_bind, d1, Res.ok_bind, b1, Res.ok_bind]
      rfl
    · rw [hv']
      refine (last_sum hr (hn x h3) (b3.trans (mul_le_mul_of_nonneg_left hR (by positivity))) hb).trans ?_
      have hδ : 0 ≤ δ := (abs_nonneg _).trans (hn x h3)
      norm_num
      linarith

/-! ## Accuracy -/

/-- C141: in double, `Struve_zero_order` is the Struve function of order zero up to `1.281e-8`, plus the error of boost's Bessel function from 3 on. -/
theorem C141_zero_accuracy (hr : ToNearest rnd) (hP : PowClose P) {neumann : Nat → ℝ → ℝ} {δ : ℝ} (hn : ∀ x, 3 < x → |neumann 0 x - besselY 0 x| ≤ δ)
    {x : ℝ} (hx : 0 ≤ x) : ∃ w, struveZeroR rnd P neumann x = .ok w ∧ (x ≤ 3 → |w - struve 0 x| ≤ 1.281e-8) ∧
      (3 < x → |w - struve 0 x| ≤ 1.281e-8 + 1.001 * δ) := by
  obtain ⟨w, v, hw, hv, h1, h2⟩ := C141_zero_rounding hr hP hn hx
  obtain ⟨v', hv', h⟩ := C92_zero (neumann := fun n x => besselY n x) (fun x _ => by simp) hx
  rw [hv] at hv'
  injection hv' with hv'
  subst hv'
  have tri := abs_sub_le w v (struve 0 x)
  refine ⟨w, hw, fun h3 => ?_, fun h3 => ?_⟩
  · have := h1 h3
    norm_num at *
    linarith
  · have := h2 h3
    norm_num at *
    linarith

/-- C141: in double, `Struve_first_order` is the Struve function of order one up to `2.57e-9` up to 3, then `2.601e-8` plus the error of boost's Bessel
function. -/
theorem C141_one_accuracy (hr : ToNearest rnd) (hP : PowClose P) {neumann : Nat → ℝ → ℝ} {δ : ℝ} (hn : ∀ x, 3 < x → |neumann 1 x - besselY 1 x| ≤ δ)
    {x : ℝ} (hx : 0 ≤ x) : ∃ w, struveFirstR rnd P neumann x = .ok w ∧ (x ≤ 3 → |w - struve 1 x| ≤ 2.57e-9) ∧
      (3 < x → |w - struve 1 x| ≤ 2.601e-8 + 1.001 * δ) := by
  obtain ⟨w, v, hw, hv, h1, h2⟩ := C141_one_rounding hr hP hn hx
  obtain ⟨v', hv', h, h'⟩ := C92_one (neumann := fun n x => besselY n x) (fun x _ => by simp) hx
  rw [hv] at hv'
  injection hv' with hv'
  subst hv'
  have tri := abs_sub_le w v (struve 1 x)
  refine ⟨w, hw, fun h3 => ?_, fun h3 => ?_⟩
  · have b1 := h1 h3
    have b2 := h' h3
    have b3 : x ^ 2 ≤ 9 := by nlinarith
    norm_num at *
    linarith
  · have b1 := h2 h3
    norm_num at *
    linarith

theorem two_over_pi_near (hr : ToNearest rnd) : |MU_2_PI_R rnd - 2 / Real.pi| ≤ 1e-14 := by
  have a := ((pi_near hr).mul (Near.exact (0.5 : ℝ))).round hr
  rw [← abs_mul] at a
  have hM := M_PI_pos
  obtain ⟨b1, b2⟩ := div_near hr (by norm_num) (Near.exact (1 : ℝ)) a (by positivity)
  have b3 := b2.sum_le (by norm_num)
  have h1 := pi_quotient
  have e : 1 / (M_PI * 0.5) - 2 / Real.pi = 2 * (1 / M_PI - 1 / Real.pi) := by
    norm_num
    ring
  have h2 : |1 / (M_PI * 0.5) - 2 / Real.pi| ≤ 2e-15 := by
    rw [e, abs_mul, abs_two]
    norm_num at *
    linarith
  have h3 : |(1 : ℝ)| / |M_PI * 0.5| ≤ 1 := by
    rw [abs_one, abs_of_pos (by positivity), div_le_one (by positivity)]
    norm_num [M_PI]
  have h4 := abs_sub_le (MU_2_PI_R rnd) (1 / (M_PI * 0.5)) (2 / Real.pi)
  rw [MU_2_PI_R] at *
  have b4 := b3.trans (mul_le_mul_of_nonneg_left h3 (by positivity))
  norm_num at *
  linarith

/-- C141: in double, `Struve_zero_order_derivative` is the derivative of the Struve function of order zero up to `2.62e-8` and the error of boost's Bessel
function. -/
theorem C141_derivative (hr : ToNearest rnd) (hP : PowClose P) {neumann : Nat → ℝ → ℝ} {δ : ℝ} (hn : ∀ x, 3 < x → |neumann 1 x - besselY 1 x| ≤ δ)
    {x : ℝ} (hx : 0 ≤ x) : ∃ w d, struveZeroDerivativeR rnd P neumann x = .ok w ∧ HasDerivAt (struve 0) d x ∧ (x ≤ 3 → |w - d| ≤ 2.58e-9) ∧
      (3 < x → |w - d| ≤ 2.602e-8 + 1.002 * δ) := by
  obtain ⟨s, hs, h1, h2⟩ := C141_one_accuracy hr hP hn hx
  refine ⟨rnd (MU_2_PI_R rnd - s), _, by rw [struveZeroDerivativeR, hs]; rfl, hasDerivAt_struve_zero x, fun h3 => ?_, fun h3 => ?_⟩
  · have h4 := last_sum hr (ε := 2.57e-9) (y' := MU_2_PI_R rnd) (r := -s) (y := 2 / Real.pi) (R := -struve 1 x) (two_over_pi_near hr)
      (by rw [neg_sub_neg, abs_sub_comm]; exact h1 h3) (b := 3) (by
        rcases eq_or_ne x 0 with h0 | h0
        · have hd := pi_quotient_le
          have := (struve_one 0)
          rw [h0, struve_one, show 2 / Real.pi = 2 * (1 / Real.pi) by ring]
          norm_num at *
          rw [abs_of_pos Real.pi_pos]
          linarith
        · have hd := pi_quotient_le
          have := struve_one_le h0
          refine (abs_add_le _ _).trans ?_
          rw [abs_neg, show 2 / Real.pi = 2 * (1 / Real.pi) by ring, abs_of_nonneg (by linarith [hd.2])]
          norm_num at *
          linarith)
    rw [← sub_eq_add_neg, ← sub_eq_add_neg] at h4
    refine h4.trans ?_
    norm_num
  · have hδ : 0 ≤ δ := (abs_nonneg _).trans (hn x h3)
    have h4 := last_sum hr (ε := 2.601e-8 + 1.001 * δ) (y' := MU_2_PI_R rnd) (r := -s) (y := 2 / Real.pi) (R := -struve 1 x) (two_over_pi_near hr)
      (by rw [neg_sub_neg, abs_sub_comm]; exact h2 h3) (b := 3) (by
        have hd := pi_quotient_le
        have := struve_one_le (show x ≠ 0 by intro h; linarith)
        refine (abs_add_le _ _).trans ?_
        rw [abs_neg, show 2 / Real.pi = 2 * (1 / Real.pi) by ring, abs_of_nonneg (by linarith [hd.2])]
        norm_num at *
        linarith)
    rw [← sub_eq_add_neg, ← sub_eq_add_neg] at h4
    refine h4.trans ?_
    norm_num
    linarith

/-- C141: a negative argument ends the program in double too. -/
theorem C141_refused (rnd : ℝ → ℝ) (P : ℝ → Nat → ℝ) (neumann : Nat → ℝ → ℝ) {x : ℝ} (hx : x < 0) :
    struveZeroR rnd P neumann x = .exits 0 ∧ struveFirstR rnd P neumann x = .exits 0 ∧ struveZeroDerivativeR rnd P neumann x = .exits 0 := by
  have h1 : ¬(0 ≤ x ∧ x ≤ 3) := fun h => by linarith [h.1]
  have h2 : ¬3 < x := by linarith
  have h3 : struveFirstR rnd P neumann x = .exits 0 := by rw [struveFirstR, if_neg h1, if_neg h2]
  exact ⟨by rw [struveZeroR, if_neg h1, if_neg h2], h3, by rw [struveZeroDerivativeR, h3]; rfl⟩

/-- A library that rounds the exact powers and Bessel functions, at 2 and at 10. -/
example : PowClose (fun t k => roundNearest (t ^ k)) ∧
    (∃ w, struveZeroR roundNearest (fun t k => roundNearest (t ^ k)) (fun n x => besselY n x) 2 = .ok w ∧ |w - struve 0 2| ≤ 1.281e-8) ∧
    (∃ w d, struveZeroDerivativeR roundNearest (fun t k => roundNearest (t ^ k)) (fun n x => besselY n x) 10 = .ok w ∧ HasDerivAt (struve 0) d 10 ∧
      |w - d| ≤ 2.602e-8) := by
  have hP : PowClose (fun t k => roundNearest (t ^ k)) := fun t k => by
    have := toNearest_err roundNearest_toNearest (t ^ k)
    rw [abs_sub_comm] at this
    refine this.trans ?_
    gcongr
    · norm_num
    · norm_num
  refine ⟨hP, ?_, ?_⟩
  · obtain ⟨w, h, h1, -⟩ := C141_zero_accuracy roundNearest_toNearest hP (neumann := fun n x => besselY n x) (δ := 0) (fun x _ => by simp) (x := 2) (by norm_num)
    exact ⟨w, h, h1 (by norm_num)⟩
  · obtain ⟨w, d, h, hd, -, h1⟩ := C141_derivative roundNearest_toNearest hP (neumann := fun n x => besselY n x) (δ := 0) (fun x _ => by simp) (x := 10)
      (by norm_num)
    exact ⟨w, d, h, hd, (h1 (by norm_num)).trans (by norm_num)⟩

end MU
