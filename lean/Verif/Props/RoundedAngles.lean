import Verif.Model.RoundedAngles
import Verif.Lemmas.Angles
import Verif.Props.RoundedUnit
import Mathlib.Analysis.Real.Pi.Bounds

/-!
# Angles in radians in double arithmetic: C167

The turn of the code is the double next to `2 * pi`, which is below `2 * pi`.
-/

set_option linter.unusedSectionVars false

namespace MU

open Spec

/-- The double next to `pi`. -/
noncomputable def piD : ℝ := 884279719003555 / 2 ^ 48

theorem piD_bounds : 3.14159265358979311 < piD ∧ piD < 3.14159265358979312 := by
  unfold piD
  constructor <;> norm_num

/-- Doubles that are not small are multiples of a power of two. -/
theorem double_mult (k : ℕ) {y : ℝ} (h : Double y) (hy : (2 : ℝ) ^ 53 ≤ |y| * 2 ^ (k + 1)) : ∃ n : ℤ, y * 2 ^ k = n := by
  obtain ⟨m, e, hm, rfl⟩ := h
  have he : -(k : ℤ) ≤ e := by
    by_contra hc
    have h1 : |(m : ℝ)| < 2 ^ 53 := by exact_mod_cast hm
    have h2 : (2 : ℝ) ^ e ≤ (2 : ℝ) ^ (-((k + 1 : ℕ) : ℤ)) := zpow_le_zpow_right₀ (by norm_num) (by push_cast; omega)
    have h3 : (0 : ℝ) < (2 : ℝ) ^ e := zpow_pos (by norm_num) _
    rw [abs_mul, abs_of_pos h3] at hy
    have h4 : |(m : ℝ)| * (2 : ℝ) ^ e < 2 ^ 53 * (2 : ℝ) ^ (-((k + 1 : ℕ) : ℤ)) := mul_lt_mul h1 h2 h3 (by positivity)
    have h5 : (2 : ℝ) ^ (-((k + 1 : ℕ) : ℤ)) * 2 ^ (k + 1) = 1 := by
      rw [zpow_neg, zpow_natCast]
      exact inv_mul_cancel₀ (by positivity)
    have h6 : |(m : ℝ)| * (2 : ℝ) ^ e * 2 ^ (k + 1) < 2 ^ 53 * (2 : ℝ) ^ (-((k + 1 : ℕ) : ℤ)) * 2 ^ (k + 1) :=
      mul_lt_mul_of_pos_right h4 (by positivity)
    rw [mul_assoc (2 ^ 53 : ℝ), h5, mul_one] at h6
    linarith
  refine ⟨m * 2 ^ (e + k).toNat, ?_⟩
  push_cast
  rw [mul_assoc, ← zpow_natCast (2 : ℝ) k, ← zpow_add₀ (by norm_num), ← zpow_natCast]
  congr 2
  omega

/-- Multiples of a power of two that are not large are doubles. -/
theorem mult_double (k : ℕ) {y : ℝ} (n : ℤ) (h : y * 2 ^ k = n) (hy : |y| * 2 ^ k ≤ 2 ^ 53) : Double y := by
  have e : y = (n : ℝ) * (2 : ℝ) ^ (-(k : ℤ)) := by
    rw [← h, zpow_neg, zpow_natCast, mul_assoc, mul_inv_cancel₀ (by positivity), mul_one]
  rw [e]
  refine double_le ?_
  have h1 : |(n : ℝ)| ≤ 2 ^ 53 := by
    rw [← h, abs_mul, abs_of_pos (by positivity : (0 : ℝ) < 2 ^ k)]
    exact hy
  exact_mod_cast h1

theorem double_piD : Double piD := ⟨884279719003555, -48, by norm_num, by unfold piD; norm_num⟩

section
variable {rnd : ℝ → ℝ}

/-- The constant `M_PI` as a double. -/
theorem MU_PI_R_eq (hr : ToNearest rnd) : MU_PI_R rnd = piD := by
  have d2 : Double 2 := by
    have := double_int 2 (by norm_num)
    exact_mod_cast this
  have h2 : 2 ≤ rnd M_PI := toNearest_ge hr d2 (by unfold M_PI; norm_num)
  obtain ⟨n, hn⟩ := double_mult 51 (hr M_PI).1 (by rw [abs_of_nonneg (by linarith)]; norm_num; linarith)
  have h3 := (hr M_PI).2 piD double_piD
  have h4 : |M_PI - piD| ≤ 0.4 / 2 ^ 51 := by
    unfold M_PI piD
    rw [abs_le]
    constructor <;> norm_num
  have h5 := abs_le.1 (h3.trans h4)
  have e : rnd M_PI = n / 2 ^ 51 := by rw [← hn]; field_simp
  have h6 : (n : ℝ) < 7074237752028441 := by
    have := h5.1
    rw [e] at this
    unfold M_PI at this
    norm_num at this ⊢
    linarith
  have h7 : (7074237752028439 : ℝ) < n := by
    have := h5.2
    rw [e] at this
    unfold M_PI at this
    norm_num at this ⊢
    linarith
  have h8 : n = 7074237752028440 := by
    have h6' : n < 7074237752028441 := by exact_mod_cast h6
    have h7' : 7074237752028439 < n := by exact_mod_cast h7
    omega
  unfold MU_PI_R
  rw [e, h8]
  unfold piD
  norm_num

/-- The turn of the code. -/
theorem MU_2PI_R_eq (hr : ToNearest rnd) : MU_2PI_R rnd = 2 * piD := by
  unfold MU_2PI_R
  rw [MU_PI_R_eq hr]
  refine toNearest_double hr ⟨884279719003555, -47, by norm_num, ?_⟩
  unfold piD
  norm_num

theorem double_2piD : Double (2 * piD) := by
  refine ⟨884279719003555, -47, by norm_num, ?_⟩
  unfold piD
  norm_num

/-- Turns of the code are true turns, up to rounding. -/
theorem true_turns {a b : ℝ} {n : ℤ} (h : |(n : ℝ)| * (2 * piD) ≤ |a| + b) :
    |(n : ℝ) * (2 * piD) - n * (2 * Real.pi)| ≤ (|a| + b) / 2 ^ 54 := by
  rw [← mul_sub, abs_mul]
  have h1 := Real.pi_gt_d20
  have h2 := Real.pi_lt_d20
  have h3 : |2 * piD - 2 * Real.pi| ≤ 2 * piD / 2 ^ 54 := by
    unfold piD
    rw [abs_le]
    norm_num at h1 h2 ⊢
    constructor <;> linarith
  calc |(n : ℝ)| * |2 * piD - 2 * Real.pi| ≤ |(n : ℝ)| * (2 * piD / 2 ^ 54) := mul_le_mul_of_nonneg_left h3 (abs_nonneg _)
    _ = |(n : ℝ)| * (2 * piD) / 2 ^ 54 := by ring
    _ ≤ _ := by gcongr

theorem piD_lt_pi : piD < Real.pi := by
  have h1 := Real.pi_gt_d20
  have := piD_bounds.2
  norm_num at h1 this
  linarith

/-- `fmod` of a small number. -/
theorem fmod_small {x m : ℝ} (hm : 0 < m) (hx : |x| < m) : fmod x m = x := by
  obtain ⟨h1, h2⟩ := abs_lt.1 hx
  unfold fmod
  rcases le_or_gt 0 x with h0 | h0
  · rw [if_pos (div_nonneg h0 hm.le),
      show ⌊x / m⌋ = 0 by
        rw [Int.floor_eq_iff]; push_cast
        exact ⟨div_nonneg h0 hm.le, by rw [div_lt_iff₀ hm]; linarith⟩]
    simp
  · rw [if_neg (by rw [not_le]; exact div_neg_of_neg_of_pos h0 hm),
      show ⌈x / m⌉ = 0 by
        rw [Int.ceil_eq_iff]; push_cast
        exact ⟨by rw [lt_div_iff₀ hm]; linarith, (div_neg_of_neg_of_pos h0 hm).le⟩]
    simp

/-- **C167**: in double arithmetic `Normalize_0_2PI` returns a value of `[0, 2 pi[`, which is the same angle up to the rounding of `a` itself,
and keeps the angles that are between 0 and the largest double of this interval. -/
theorem C167_0_2PI (hr : ToNearest rnd) (a : ℝ) :
    0 ≤ normalize_0_2PIR rnd a ∧ normalize_0_2PIR rnd a < 2 * Real.pi ∧
    (∃ n : ℤ, |normalize_0_2PIR rnd a - (a + n * (2 * Real.pi))| ≤ (|a| + 26) / 2 ^ 54) ∧
    (∀ b, Double b → 0 ≤ a → a < b → b < 2 * Real.pi → normalize_0_2PIR rnd a = a) := by
  have hp := piD_bounds
  have hP : 0 < 2 * piD := by linarith [hp.1]
  have hpi := piD_lt_pi
  obtain ⟨h1, h2, n, hn⟩ := fmod_spec (a := a) hP
  have hab := fmod_abs (a := a) hP
  unfold normalize_0_2PIR modulo2piR
  rw [MU_2PI_R_eq hr]
  refine ⟨?_, ?_, ?_, ?_⟩
  · dsimp only
    split
    · exact toNearest_ge hr double_zero (by linarith [hab.1])
    · linarith
  · refine lt_of_le_of_lt ?_ (show 2 * piD < 2 * Real.pi by linarith)
    dsimp only
    split
    · exact toNearest_le hr double_2piD (by linarith)
    · exact hab.2.le
  · have habs : |fmod a (2 * piD)| ≤ 2 * piD := abs_le.2 ⟨hab.1.le, hab.2.le⟩
    have hkn : |(n : ℝ)| * (2 * piD) ≤ |a| + 2 * piD := by
      rw [← abs_of_pos hP, ← abs_mul, show (n : ℝ) * (2 * piD) = fmod a (2 * piD) - a by linarith]
      rw [abs_of_pos hP]
      have := abs_sub (fmod a (2 * piD)) a
      linarith
    dsimp only
    split
    · rename_i hneg
      refine ⟨n + 1, ?_⟩
      have t := true_turns (a := a) (b := 4 * piD) (n := n + 1) (by
        push_cast
        have : |(n : ℝ) + 1| ≤ |(n : ℝ)| + 1 := by
          have := abs_add_le (n : ℝ) 1
          rwa [abs_one] at this
        nlinarith)
      have e := toNearest_err hr (fmod a (2 * piD) + 2 * piD)
      have e' : |fmod a (2 * piD) + 2 * piD| ≤ 2 * piD := abs_le.2 ⟨by linarith [hab.1], by linarith⟩
      have b1 := abs_le.1 (e.trans (div_le_div_of_nonneg_right e' (by positivity)))
      have b2 := abs_le.1 t
      push_cast at b2 ⊢
      rw [abs_le]
      have := hp.2
      constructor <;> linarith [b1.1, b1.2, b2.1, b2.2]
    · refine ⟨n, ?_⟩
      have b2 := abs_le.1 (true_turns (a := a) (b := 2 * piD) (n := n) hkn)
      rw [hn, abs_le]
      have := hp.2
      constructor <;> linarith [b2.1, b2.2]
  · intro b hb h0 hab' hbp
    have : b ≤ 2 * piD := by
      by_contra hc
      rw [not_le] at hc
      obtain ⟨m, hm⟩ := double_mult 50 hb (by rw [abs_of_pos (by linarith)]; norm_num; linarith [hp.1])
      have e2 : (2 * piD) * 2 ^ 50 = 7074237752028440 := by unfold piD; norm_num
      have l1 : (7074237752028440 : ℝ) < m := by
        rw [← e2, ← hm]
        exact mul_lt_mul_of_pos_right hc (by positivity)
      have l2 : (m : ℝ) < 7074237752028441 := by
        rw [← hm]
        have := Real.pi_lt_d20
        norm_num at this ⊢
        linarith
      have l1' : 7074237752028440 < m := by exact_mod_cast l1
      have l2' : m < 7074237752028441 := by exact_mod_cast l2
      omega
    have e : fmod a (2 * piD) = a := fmod_small hP (by rw [abs_of_nonneg h0]; linarith)
    dsimp only
    rw [e, if_neg (not_lt.2 h0)]

/-- The angle before the last subtraction of `Normalize__PI_PI`. -/
theorem PI_PI_angle (hr : ToNearest rnd) {a : ℝ} (ha : Double a) :
    ∃ y, normalize__PI_PIR rnd a = rnd (y - piD) ∧ Double y ∧ 1 / 2 ^ 51 ≤ y ∧ y ≤ 2 * piD ∧
      (∃ n : ℤ, |y - (a + piD + n * (2 * piD))| ≤ (|a| + 3 * piD) / 2 ^ 53 ∧ (-piD < a → a ≤ piD → n = 0)) := by
  have hp := piD_bounds
  have hP : 0 < 2 * piD := by linarith [hp.1]
  have dlast : Double (1 / 2 ^ 51) := ⟨1, -51, by norm_num, by norm_num⟩
  set x := rnd (a + piD) with hx
  have hm := fmod_spec (a := x) hP
  have hab := fmod_abs (a := x) hP
  have hxd : Double x := (hr (a + piD)).1
  have eP : (2 * piD) * 2 ^ 50 = ((7074237752028440 : ℤ) : ℝ) := by unfold piD; norm_num
  have ep : piD * 2 ^ 51 = ((7074237752028440 : ℤ) : ℝ) := by unfold piD; norm_num
  -- multiples of the last bit
  have bigm : 4 ≤ |x| → ∀ k : ℤ, ∃ m : ℤ, (fmod x (2 * piD) + k * (2 * piD)) * 2 ^ 50 = m := by
    intro hb k
    obtain ⟨m, hm'⟩ := double_mult 50 hxd (by norm_num; linarith)
    obtain ⟨n, hn⟩ := hm.2.2
    refine ⟨m + (n + k) * 7074237752028440, ?_⟩
    rw [hn]
    push_cast at eP ⊢
    rw [← hm', ← eP]
    ring
  have big : 4 ≤ |x| → ∀ k : ℤ, 0 < fmod x (2 * piD) + k * (2 * piD) → 1 / 2 ^ 51 ≤ fmod x (2 * piD) + k * (2 * piD) := by
    intro hb k hpos
    obtain ⟨m, hm'⟩ := bigm hb k
    have l1 : (0 : ℝ) < m := by rw [← hm']; positivity
    have l1' : 0 < m := by exact_mod_cast l1
    have l2 : (1 : ℝ) ≤ m := by exact_mod_cast l1'
    rw [← hm'] at l2
    rw [div_le_iff₀ (by positivity)]
    have : (fmod x (2 * piD) + k * (2 * piD)) * 2 ^ 51 = (fmod x (2 * piD) + k * (2 * piD)) * 2 ^ 50 * 2 := by ring
    rw [this]
    linarith
  have e1 := toNearest_err hr (a + piD)
  rw [← hx] at e1
  have e1' : |a + piD| ≤ |a| + piD := (abs_add_le _ _).trans (by rw [abs_of_pos (by linarith : 0 < piD)])
  have b1 := abs_le.1 (e1.trans (div_le_div_of_nonneg_right e1' (by positivity)))
  obtain ⟨n, hn⟩ := hm.2.2
  -- inside the interval there is no turn
  have hin : -piD < a → a ≤ piD → 1 / 2 ^ 51 ≤ x ∧ x ≤ 2 * piD := by
    intro l1 l2
    refine ⟨?_, toNearest_le hr double_2piD (by linarith)⟩
    refine toNearest_ge hr dlast ?_
    by_contra hc
    rw [not_le] at hc
    have hl : (1 : ℝ) / 2 ^ 51 ≤ 1 := by norm_num
    obtain ⟨m, hm'⟩ := double_mult 51 ha (by rw [abs_of_neg (by linarith)]; norm_num; linarith)
    have e2 : (a + piD) * 2 ^ 51 = ((m + 7074237752028440 : ℤ) : ℝ) := by
      push_cast at ep ⊢
      rw [add_mul, hm', ep]
    have q1 : (0 : ℝ) < ((m + 7074237752028440 : ℤ) : ℝ) := by
      rw [← e2]
      have : 0 < a + piD := by linarith
      positivity
    have q2 : ((m + 7074237752028440 : ℤ) : ℝ) < 1 := by
      rw [← e2]
      rw [lt_div_iff₀ (by positivity)] at hc
      exact hc
    have q1' : (0 : ℤ) < m + 7074237752028440 := by exact_mod_cast q1
    have q2' : m + 7074237752028440 < (1 : ℤ) := by exact_mod_cast q2
    omega
  have hpos51 : (0 : ℝ) < 1 / 2 ^ 51 := by positivity
  unfold normalize__PI_PIR modulo2piR
  rw [MU_2PI_R_eq hr, MU_PI_R_eq hr, ← hx]
  by_cases hneg : fmod x (2 * piD) ≤ 0
  · simp only [if_pos hneg]
    refine ⟨_, rfl, (hr _).1, ?_, toNearest_le hr double_2piD (by linarith), n + 1, ?_, ?_⟩
    · refine toNearest_ge hr dlast ?_
      by_cases hb : 4 ≤ |x|
      · have := big hb 1 (by push_cast; linarith [hab.1])
        push_cast at this
        linarith
      · have e : fmod x (2 * piD) = x := fmod_small hP (by linarith [not_le.1 hb, hp.1])
        rw [e]
        have := (abs_lt.1 (not_le.1 hb)).1
        have hl : (1 : ℝ) / 2 ^ 51 ≤ 1 := by norm_num
        linarith [hp.1]
    · have h2 := toNearest_err hr (fmod x (2 * piD) + 2 * piD)
      have h2' : |fmod x (2 * piD) + 2 * piD| ≤ 2 * piD := abs_le.2 ⟨by linarith [hab.1], by linarith⟩
      have b2 := abs_le.1 (h2.trans (div_le_div_of_nonneg_right h2' (by positivity)))
      rw [abs_le]
      push_cast
      constructor <;> linarith [b1.1, b1.2, b2.1, b2.2]
    · intro l1 l2
      obtain ⟨g1, g2⟩ := hin l1 l2
      have g3 : x = 2 * piD := by
        by_contra hc
        have : x < 2 * piD := lt_of_le_of_ne g2 hc
        rw [fmod_small hP (by rw [abs_of_pos (by linarith)]; exact this)] at hneg
        linarith
      have g4 := (hm.1 (by linarith)).1
      have g5 : fmod x (2 * piD) = 0 := le_antisymm hneg g4
      rw [g5, g3] at hn
      have g6 : ((n + 1 : ℤ) : ℝ) * (2 * piD) = 0 := by push_cast; linarith
      have g7 := (mul_eq_zero.1 g6).resolve_right hP.ne'
      exact_mod_cast g7
  · simp only [if_neg hneg]
    have hpos := not_le.1 hneg
    refine ⟨_, rfl, ?_, ?_, hab.2.le, n, ?_, ?_⟩
    · by_cases hb : 4 ≤ |x|
      · obtain ⟨m, hm'⟩ := bigm hb 0
        simp only [Int.cast_zero, zero_mul, add_zero] at hm'
        refine mult_double 50 m hm' ?_
        rw [abs_of_pos hpos]
        have := hab.2
        norm_num
        linarith [hp.2]
      · rw [fmod_small hP (by linarith [not_le.1 hb, hp.1])]
        exact hxd
    · by_cases hb : 4 ≤ |x|
      · have := big hb 0 (by push_cast; linarith)
        push_cast at this
        linarith
      · have e : fmod x (2 * piD) = x := fmod_small hP (by linarith [not_le.1 hb, hp.1])
        rw [e] at hpos ⊢
        by_contra hc
        have h4 : a ≤ piD := by
          by_contra hcc
          have := toNearest_ge hr double_2piD (show 2 * piD ≤ a + piD by linarith)
          have := (abs_lt.1 (not_le.1 hb)).2
          linarith [hp.1]
        have h5 : -piD < a := by
          by_contra hcc
          exact absurd hpos (not_lt.2 (toNearest_le hr double_zero (by linarith)))
        exact hc (hin h5 h4).1
    · rw [hn, abs_le]
      constructor <;> linarith [b1.1, b1.2, hp.1]
    · intro l1 l2
      obtain ⟨g1, g2⟩ := hin l1 l2
      have g3 : x < 2 * piD := by
        refine lt_of_le_of_ne g2 ?_
        intro hc
        have g4 : fmod x (2 * piD) = 0 := by
          rw [hc]
          unfold fmod
          rw [div_self hP.ne']
          simp
        rw [g4] at hpos
        exact lt_irrefl _ hpos
      rw [fmod_small hP (by rw [abs_of_pos (by linarith)]; exact g3)] at hn
      have g6 : (n : ℝ) * (2 * piD) = 0 := by linarith
      have g7 := (mul_eq_zero.1 g6).resolve_right hP.ne'
      exact_mod_cast g7

/-- **C167**: in double arithmetic `Normalize__PI_PI` returns a value of `]-pi, pi]`, which is the same angle up to rounding, and the angle itself up to rounding
when it is in this interval and is not its smallest double. -/
theorem C167_PI_PI (hr : ToNearest rnd) {a : ℝ} (ha : Double a) :
    -Real.pi < normalize__PI_PIR rnd a ∧ normalize__PI_PIR rnd a ≤ Real.pi ∧
    (∃ n : ℤ, |normalize__PI_PIR rnd a - (a + n * (2 * Real.pi))| ≤ (|a| + 10) / 2 ^ 52) ∧
    (∀ b, Double b → -Real.pi < b → b < a → a ≤ Real.pi → |normalize__PI_PIR rnd a - a| ≤ 1 / 2 ^ 49) := by
  have hp := piD_bounds
  have hpi := piD_lt_pi
  obtain ⟨y, e, dy, y1, y2, n, hn, hn0⟩ := PI_PI_angle hr ha
  have dlow : Double (1 / 2 ^ 51 - piD) := by
    refine ⟨1 - 7074237752028440, -51, by norm_num, ?_⟩
    unfold piD
    norm_num
  have hpos51 : (0 : ℝ) < 1 / 2 ^ 51 := by positivity
  have h3 := toNearest_err hr (y - piD)
  have h3' : |y - piD| ≤ piD := abs_le.2 ⟨by linarith, by linarith⟩
  have b3 := abs_le.1 (h3.trans (div_le_div_of_nonneg_right h3' (by positivity)))
  have b1 := abs_le.1 hn
  have hA := abs_nonneg a
  have hP : 0 < 2 * piD := by linarith [hp.1]
  have hkn : |(n : ℝ)| * (2 * piD) ≤ |a| + (|a| / 2 ^ 53 + 11) := by
    rw [← abs_of_pos hP, ← abs_mul, show (n : ℝ) * (2 * piD) = (y - a - piD) - (y - (a + piD + n * (2 * piD))) by ring]
    refine (abs_sub _ _).trans ?_
    have q1 : |y - a - piD| ≤ |a| + piD := by
      rw [show y - a - piD = (y - piD) + (-a) by ring]
      refine (abs_add_le _ _).trans ?_
      rw [abs_neg]
      linarith
    have : (|a| + 3 * piD) / 2 ^ 53 ≤ |a| / 2 ^ 53 + 1 := by
      have := hp.2
      norm_num
      linarith
    linarith [hp.2]
  have t := abs_le.1 (true_turns hkn)
  rw [e]
  refine ⟨?_, ?_, ⟨n, ?_⟩, ?_⟩
  · have := toNearest_ge hr dlow (show 1 / 2 ^ 51 - piD ≤ y - piD by linarith)
    linarith
  · have := toNearest_le hr double_piD (show y - piD ≤ piD by linarith)
    linarith
  · have := hp.2
    rw [abs_le]
    norm_num at b1 b3 t ⊢
    constructor <;> linarith [b1.1, b1.2, b3.1, b3.2, t.1, t.2]
  · intro b hb l1 l1b l2
    have hlast : ∀ c : ℝ, Double c → 0 < c → c ≤ Real.pi → c ≤ piD := by
      intro c hc h0 h1
      by_contra hcc
      rw [not_le] at hcc
      obtain ⟨m, hm⟩ := double_mult 51 hc (by rw [abs_of_pos h0]; norm_num; linarith [hp.1])
      have e2 : piD * 2 ^ 51 = 7074237752028440 := by unfold piD; norm_num
      have q1 : (7074237752028440 : ℝ) < m := by
        rw [← e2, ← hm]
        exact mul_lt_mul_of_pos_right hcc (by positivity)
      have q2 : (m : ℝ) < 7074237752028441 := by
        rw [← hm]
        have := Real.pi_lt_d20
        norm_num at this ⊢
        linarith
      have q1' : 7074237752028440 < m := by exact_mod_cast q1
      have q2' : m < 7074237752028441 := by exact_mod_cast q2
      omega
    have l2' : a ≤ piD := by
      rcases le_or_gt a 0 with h0 | h0
      · linarith
      · exact hlast a ha h0 l2
    have l1' : -piD < a := by
      refine lt_of_le_of_lt ?_ l1b
      rcases le_or_gt 0 b with h0 | h0
      · linarith
      · have := hlast (-b) (double_neg hb) (by linarith) (by linarith)
        linarith
    have := hn0 l1' l2'
    subst this
    have ha' : |a| ≤ piD := abs_le.2 ⟨l1'.le, l2'⟩
    simp only [Int.cast_zero, zero_mul, add_zero] at b1
    have := hp.2
    rw [abs_le]
    norm_num at b1 b3 ⊢
    constructor <;> linarith [b1.1, b1.2, b3.1, b3.2]

/-- **C167**: normalising twice in double arithmetic is normalising once, bit for bit. -/
theorem C167_PI_PI_idempotent (hr : ToNearest rnd) {a : ℝ} (ha : Double a) :
    normalize__PI_PIR rnd (normalize__PI_PIR rnd a) = normalize__PI_PIR rnd a := by
  have hp := piD_bounds
  have hP : 0 < 2 * piD := by linarith [hp.1]
  obtain ⟨y, e, dy, y1, y2, -⟩ := PI_PI_angle hr ha
  have dlow : Double (1 / 2 ^ 51 - piD) := by
    refine ⟨1 - 7074237752028440, -51, by norm_num, ?_⟩
    unfold piD
    norm_num
  have dhalf : Double (-(piD / 2)) := by
    refine ⟨-884279719003555, -49, by norm_num, ?_⟩
    unfold piD
    norm_num
  have hpos51 : (0 : ℝ) < 1 / 2 ^ 51 := by positivity
  have ep : piD * 2 ^ 52 = ((14148475504056880 : ℤ) : ℝ) := by unfold piD; norm_num
  -- the result plus `piD` is a double of `]0, 2 piD]`
  set r := rnd (y - piD) with hrd
  have key : Double (r + piD) ∧ 0 < r + piD ∧ r + piD ≤ 2 * piD := by
    have l1 := toNearest_ge hr dlow (show 1 / 2 ^ 51 - piD ≤ y - piD by linarith)
    have l2 := toNearest_le hr double_piD (show y - piD ≤ piD by linarith)
    rw [← hrd] at l1 l2
    refine ⟨?_, by linarith, by linarith⟩
    rcases lt_or_ge y (piD / 2) with hy | hy
    · -- the rounded difference is a multiple of `2^-52`
      have l3 := toNearest_le hr dhalf (show y - piD ≤ -(piD / 2) by linarith)
      rw [← hrd] at l3
      obtain ⟨m, hm⟩ := double_mult 52 (hr (y - piD)).1 (by
        rw [← hrd, abs_of_neg (by linarith [hp.1])]
        norm_num
        linarith [hp.1])
      rw [← hrd] at hm
      refine mult_double 52 (m + 14148475504056880) ?_ ?_
      · push_cast at ep ⊢
        rw [add_mul, hm, ep]
      · rw [abs_of_pos (by linarith)]
        norm_num
        linarith [hp.2]
    · -- the difference is exact
      have hex : r = y - piD := by
        refine toNearest_double hr ?_
        rcases lt_or_ge y 4 with h4 | h4
        · obtain ⟨m, hm⟩ := double_mult 52 dy (by
            rw [abs_of_pos (by linarith [hp.1])]
            norm_num
            linarith [hp.1])
          refine mult_double 52 (m - 14148475504056880) ?_ ?_
          · push_cast at ep ⊢
            rw [sub_mul, hm, ep]
          · have : |y - piD| ≤ 2 := abs_le.2 ⟨by linarith [hp.2], by linarith [hp.1]⟩
            norm_num
            linarith
        · obtain ⟨m, hm⟩ := double_mult 50 dy (by
            rw [abs_of_pos (by linarith [hp.1])]
            norm_num
            linarith [hp.1])
          have ep' : piD * 2 ^ 50 = ((3537118876014220 : ℤ) : ℝ) := by unfold piD; norm_num
          refine mult_double 50 (m - 3537118876014220) ?_ ?_
          · push_cast at ep' ⊢
            rw [sub_mul, hm, ep']
          · have : |y - piD| ≤ 4 := abs_le.2 ⟨by linarith [hp.2], by linarith [hp.2]⟩
            norm_num
            linarith
      rw [hex, sub_add_cancel]
      exact dy
  obtain ⟨k1, k2, k3⟩ := key
  have hrr : rnd r = r := toNearest_double hr (hr (y - piD)).1
  rw [e]
  unfold normalize__PI_PIR modulo2piR
  rw [MU_2PI_R_eq hr, MU_PI_R_eq hr, toNearest_double hr k1]
  dsimp only
  rcases lt_or_eq_of_le k3 with h | h
  · rw [fmod_small hP (by rw [abs_of_pos k2]; exact h), if_neg (not_le.2 k2), add_sub_cancel_right, hrr]
  · have h0 : fmod (r + piD) (2 * piD) = 0 := by
      rw [h]
      unfold fmod
      rw [div_self hP.ne']
      simp
    rw [h0, if_pos le_rfl, zero_add, toNearest_double hr double_2piD, ← h, add_sub_cancel_right, hrr]

-- A negative angle of many turns, in the arithmetic of the machine.
example : Double (-1000) ∧ 0 ≤ normalize_0_2PIR roundNearest (-1000) ∧ normalize_0_2PIR roundNearest (-1000) < 2 * Real.pi ∧
    -Real.pi < normalize__PI_PIR roundNearest (-1000) ∧ normalize__PI_PIR roundNearest (-1000) ≤ Real.pi := by
  have d : Double (-1000) := ⟨-1000, 0, by norm_num, by norm_num⟩
  obtain ⟨h1, h2, -⟩ := C167_0_2PI roundNearest_toNearest (-1000)
  obtain ⟨h3, h4, -⟩ := C167_PI_PI roundNearest_toNearest d
  exact ⟨d, h1, h2, h3, h4⟩

end

end MU
