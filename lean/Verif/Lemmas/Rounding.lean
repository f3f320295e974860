import Verif.Lemmas.Angles
import Mathlib.Tactic.Linarith
import Mathlib.Analysis.SpecialFunctions.Exp
import Mathlib.Analysis.Complex.ExponentialBounds
import Mathlib.Tactic.Positivity
import Mathlib.Algebra.BigOperators.Group.Finset.Basic
import Mathlib.Algebra.Order.BigOperators.Ring.Finset

/-!
# Rounding errors

`Near k Q P r`: `r` is `P` computed with at most `k` roundings along every path, where `Q` is the size of the terms.
-/

set_option linter.unusedSectionVars false

namespace MU

open Spec

/-- The unit of rounding of `double`. -/
noncomputable def uround : ℝ := 1 / 2 ^ 53

theorem uround_pos : 0 < uround := by unfold uround; positivity

theorem uround_nonneg : 0 ≤ uround := uround_pos.le

/-- What `k` roundings can amount to, `(1 + u)^k - 1`. -/
noncomputable def gam (k : ℕ) : ℝ := (1 + uround) ^ k - 1

theorem one_add_gam (k : ℕ) : 1 + gam k = (1 + uround) ^ k := by unfold gam; ring

theorem gam_zero : gam 0 = 0 := by simp [gam]

theorem gam_one : gam 1 = uround := by simp [gam]

theorem gam_mono {k l : ℕ} (h : k ≤ l) : gam k ≤ gam l := by
  unfold gam
  have := pow_le_pow_right₀ (show (1 : ℝ) ≤ 1 + uround by linarith [uround_nonneg]) h
  linarith

theorem gam_nonneg (k : ℕ) : 0 ≤ gam k := by
  rw [← gam_zero]
  exact gam_mono (Nat.zero_le k)

theorem gam_add (k l : ℕ) : gam (k + l) = gam k + gam l + gam k * gam l := by
  unfold gam
  rw [pow_add]
  ring

/-- `(1 + u)^k - 1` is about `k u`. -/
theorem gam_le {k : ℕ} (h : k ≤ 2 ^ 26) : gam k ≤ (k + 1) * uround := by
  have hu := uround_pos
  have hk : (k : ℝ) ≤ 2 ^ 26 := by exact_mod_cast h
  have hk0 : (0 : ℝ) ≤ k := Nat.cast_nonneg k
  have hku : (k : ℝ) * (k * uround) ≤ 1 := by
    calc (k : ℝ) * (k * uround) ≤ 2 ^ 26 * (2 ^ 26 * uround) := by gcongr
      _ ≤ 1 := by unfold uround; norm_num
  have hku1 : (k : ℝ) * uround ≤ 1 := by
    calc (k : ℝ) * uround ≤ 2 ^ 26 * uround := by gcongr
      _ ≤ 1 := by unfold uround; norm_num
  have h1 : (1 + uround) ^ k ≤ Real.exp (k * uround) := by
    rw [Real.exp_nat_mul]
    gcongr
    rw [add_comm]
    exact Real.add_one_le_exp _
  have h2 := Real.abs_exp_sub_one_sub_id_le (x := k * uround) (by rw [abs_of_nonneg (by positivity)]; exact hku1)
  have h3 := (abs_le.1 h2).2
  have h4 : (k * uround) ^ 2 ≤ uround := by nlinarith
  unfold gam
  linarith

/-- `r` is `P` up to `k` roundings of terms of total size `Q`. -/
structure Near (k : ℕ) (Q P r : ℝ) : Prop where
  err : |r - P| ≤ gam k * Q
  size : |P| ≤ Q

namespace Near

variable {k l : ℕ} {Q Q' P P' r r' : ℝ}

theorem nonneg (h : Near k Q P r) : 0 ≤ Q := (abs_nonneg _).trans h.size

theorem exact (P : ℝ) : Near 0 |P| P P := ⟨by simp [gam], le_rfl⟩

theorem mono (h : Near k Q P r) (hk : k ≤ l) (hQ : Q ≤ Q') : Near l Q' P r :=
  ⟨h.err.trans (mul_le_mul (gam_mono hk) hQ h.nonneg (gam_nonneg l)), h.size.trans hQ⟩

theorem upto (h : Near k Q P r) (hk : k ≤ l) : Near l Q P r := h.mono hk le_rfl

theorem abs_le (h : Near k Q P r) : |r| ≤ (1 + gam k) * Q := by
  have := abs_add_le (r - P) P
  rw [sub_add_cancel] at this
  have h1 := h.err
  have h2 := h.size
  linarith

theorem neg (h : Near k Q P r) : Near k Q (-P) (-r) := by
  refine ⟨?_, by rw [abs_neg]; exact h.size⟩
  rw [show -r - -P = -(r - P) by ring, abs_neg]
  exact h.err

theorem add (h : Near k Q P r) (h' : Near k Q' P' r') : Near k (Q + Q') (P + P') (r + r') := by
  refine ⟨?_, (abs_add_le _ _).trans (add_le_add h.size h'.size)⟩
  rw [show r + r' - (P + P') = (r - P) + (r' - P') by ring]
  refine (abs_add_le _ _).trans ?_
  have := h.err
  have := h'.err
  linarith

theorem sub (h : Near k Q P r) (h' : Near k Q' P' r') : Near k (Q + Q') (P - P') (r - r') := by
  rw [sub_eq_add_neg, sub_eq_add_neg]
  exact h.add h'.neg

theorem mul (h : Near k Q P r) (h' : Near l Q' P' r') : Near (k + l) (Q * Q') (P * P') (r * r') := by
  refine ⟨?_, by rw [abs_mul]; exact mul_le_mul h.size h'.size (abs_nonneg _) h.nonneg⟩
  rw [show r * r' - P * P' = (r - P) * r' + P * (r' - P') by ring]
  refine (abs_add_le _ _).trans ?_
  rw [abs_mul, abs_mul, gam_add]
  have h1 : |r - P| * |r'| ≤ gam k * Q * ((1 + gam l) * Q') :=
    mul_le_mul h.err h'.abs_le (abs_nonneg _) (mul_nonneg (gam_nonneg k) h.nonneg)
  have h2 : |P| * |r' - P'| ≤ Q * (gam l * Q') := mul_le_mul h.size h'.err (abs_nonneg _) h.nonneg
  nlinarith

variable {rnd : ℝ → ℝ}

/-- One more rounding. -/
theorem round (h : Near k Q P r) (hr : ToNearest rnd) : Near (k + 1) Q P (rnd r) := by
  refine ⟨?_, h.size⟩
  rw [show rnd r - P = (rnd r - r) + (r - P) by ring]
  refine (abs_add_le _ _).trans ?_
  have h1 := toNearest_err hr r
  rw [abs_sub_comm] at h1
  have h2 : |r| / 2 ^ 53 = uround * |r| := by unfold uround; ring
  rw [h2] at h1
  have h3 : uround * |r| ≤ uround * ((1 + gam k) * Q) := mul_le_mul_of_nonneg_left h.abs_le uround_nonneg
  rw [gam_add, gam_one]
  have := h.err
  nlinarith

/-- The inverse of a rounded number. -/
theorem inv_round (hr : ToNearest rnd) {d : ℝ} : Near 2 |d⁻¹| d⁻¹ (rnd d)⁻¹ := by
  refine ⟨?_, le_rfl⟩
  rcases eq_or_ne d 0 with h0 | h0
  · have : rnd d = 0 := by rw [h0]; exact toNearest_double hr double_zero
    rw [this, h0]
    simp
  have h1 := toNearest_err hr d
  have h2 : |d| / 2 ^ 53 = uround * |d| := by unfold uround; ring
  rw [h2] at h1
  have hd : 0 < |d| := abs_pos.2 h0
  have hu := uround_pos
  have hu1 : uround ≤ 1 / 4 := by unfold uround; norm_num
  have h3 : (1 - uround) * |d| ≤ |rnd d| := by
    have := abs_add_le (d - rnd d) (rnd d)
    rw [sub_add_cancel] at this
    linarith
  have h4 : 0 < |rnd d| := lt_of_lt_of_le (by apply mul_pos <;> linarith) h3
  have h5 : rnd d ≠ 0 := abs_pos.1 h4
  rw [show (rnd d)⁻¹ - d⁻¹ = (d - rnd d) * (rnd d)⁻¹ * d⁻¹ by field_simp, abs_mul, abs_mul, abs_inv (rnd d)]
  refine mul_le_mul_of_nonneg_right ?_ (abs_nonneg _)
  rw [← div_eq_mul_inv, div_le_iff₀ h4]
  refine h1.trans ?_
  have h6 : gam 2 = 2 * uround + uround ^ 2 := by unfold gam; ring
  have h7 : gam 2 * ((1 - uround) * |d|) ≤ gam 2 * |rnd d| := mul_le_mul_of_nonneg_left h3 (gam_nonneg 2)
  have h8 : uround ≤ gam 2 * (1 - uround) := by rw [h6]; nlinarith
  nlinarith

end Near

/-- Rounding to nearest is monotone, whatever the rule for ties. -/
theorem toNearest_mono {rnd : ℝ → ℝ} (h : ToNearest rnd) {x y : ℝ} (hxy : x ≤ y) : rnd x ≤ rnd y := by
  rcases eq_or_lt_of_le hxy with rfl | hlt
  · exact le_rfl
  by_contra hc
  push Not at hc
  have h1 := (h x).2 _ (h y).1
  have h2 := (h y).2 _ (h x).1
  have h1 := sq_le_sq.2 h1
  have h2 := sq_le_sq.2 h2
  nlinarith [mul_pos (sub_pos.2 hlt) (sub_pos.2 hc)]

end MU

namespace MU

open Spec

/-- The rounding of `x` is `m 2^e` when that is within half of `2^e` and `m` has 53 bits. -/
theorem toNearest_eq {rnd : ℝ → ℝ} (h : ToNearest rnd) {x : ℝ} (m e : ℤ) (h1 : 2 ^ 52 < |m|) (h2 : |m| < 2 ^ 53)
    (hx : |x - (m : ℝ) * (2 : ℝ) ^ e| < (2 : ℝ) ^ e / 2) : rnd x = (m : ℝ) * (2 : ℝ) ^ e := by
  have hy : Double ((m : ℝ) * (2 : ℝ) ^ e) := ⟨m, e, h2, rfl⟩
  have hp : (0 : ℝ) < (2 : ℝ) ^ e := zpow_pos (by norm_num) _
  have h3 := (h x).2 _ hy
  have h4 : |rnd x - (m : ℝ) * (2 : ℝ) ^ e| < (2 : ℝ) ^ e := by
    have := abs_add_le (rnd x - x) (x - (m : ℝ) * (2 : ℝ) ^ e)
    rw [show rnd x - x + (x - (m : ℝ) * (2 : ℝ) ^ e) = rnd x - (m : ℝ) * (2 : ℝ) ^ e by ring, abs_sub_comm (rnd x) x] at this
    linarith
  obtain ⟨m', e', hm', hr⟩ := (h x).1
  -- the last bit of `rnd x` is not below `2^e`
  have hbig : (2 : ℝ) ^ 52 * (2 : ℝ) ^ e < |rnd x| := by
    have h5 : ((2 : ℝ) ^ 52 + 1) ≤ |(m : ℝ)| := by
      have : (2 ^ 52 + 1 : ℤ) ≤ |m| := h1
      exact_mod_cast this
    have h6 : |(m : ℝ) * (2 : ℝ) ^ e| = |(m : ℝ)| * (2 : ℝ) ^ e := by rw [abs_mul, abs_of_pos hp]
    have h7 := abs_sub_abs_le_abs_sub ((m : ℝ) * (2 : ℝ) ^ e) (rnd x)
    rw [abs_sub_comm] at h7
    rw [h6] at h7
    nlinarith
  have he : e ≤ e' := by
    by_contra hc
    have hc : e' ≤ e - 1 := by omega
    have h8 : (2 : ℝ) ^ e' ≤ (2 : ℝ) ^ (e - 1) := zpow_le_zpow_right₀ (by norm_num) hc
    have h9 : (2 : ℝ) ^ (e - 1) = (2 : ℝ) ^ e / 2 := by rw [zpow_sub₀ (by norm_num)]; simp
    have h10 : |(m' : ℝ)| ≤ 2 ^ 53 := by
      have : |m'| ≤ 2 ^ 53 := hm'.le
      exact_mod_cast this
    rw [hr, abs_mul, abs_of_pos (show (0 : ℝ) < (2 : ℝ) ^ e' from zpow_pos (by norm_num) _)] at hbig
    have : |(m' : ℝ)| * (2 : ℝ) ^ e' ≤ 2 ^ 53 * ((2 : ℝ) ^ e / 2) := mul_le_mul h10 (by linarith) (zpow_pos (by norm_num) _).le (by norm_num)
    nlinarith
  have hr' : rnd x = ((m' * 2 ^ (e' - e).toNat : ℤ) : ℝ) * (2 : ℝ) ^ e := by
    rw [hr]
    push_cast
    rw [mul_assoc, ← zpow_natCast, ← zpow_add₀ (by norm_num)]
    congr 2
    omega
  rw [hr', ← sub_mul, abs_mul, abs_of_pos hp] at h4
  have h11 : |((m' * 2 ^ (e' - e).toNat : ℤ) : ℝ) - (m : ℝ)| < 1 := by
    by_contra hc
    push Not at hc
    nlinarith
  have h12 : |m' * 2 ^ (e' - e).toNat - m| < 1 := by exact_mod_cast h11
  have h13 : m' * 2 ^ (e' - e).toNat = m := by
    have := Int.abs_lt_one_iff.1 h12
    omega
  rw [hr', h13]

end MU

namespace MU

open Spec

/-- Only zero is rounded to zero. -/
theorem toNearest_ne_zero {rnd : ℝ → ℝ} (h : ToNearest rnd) {x : ℝ} (hx : x ≠ 0) : rnd x ≠ 0 := by
  intro h0
  have h1 := toNearest_err h x
  rw [h0, sub_zero, le_div_iff₀ (by norm_num)] at h1
  have := abs_pos.2 hx
  linarith

end MU
