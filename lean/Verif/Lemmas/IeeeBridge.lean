import Verif.Lemmas.Ieee

/-!
# Binary64 without overflow and underflow is the arithmetic of `Spec.ToNearest`

The models with one rounding after each operation (`Model/Rounded.lean` and others) leave out the range of the numbers. When no operation leaves the
range, the model with the range does the same, for a rounding to nearest that depends on the rule for ties only.
-/

namespace MU
open Spec

/-- The numbers that are rounded without overflow or underflow: those of the normal range and the multiples of the smallest positive number. -/
def Spec.InRange (x : ℝ) : Prop := |x| < overflow64 ∧ ((2 : ℝ) ^ (-1022 : ℤ) ≤ |x| ∨ ∃ n : ℤ, x = n * (2 : ℝ) ^ (-1074 : ℤ))

open Classical in
/-- The rounding to nearest that agrees with `fl` in the range. -/
noncomputable def extend (fl : ℝ → Option ℝ) (x : ℝ) : ℝ := if InRange x then (fl x).getD 0 else roundNearest x

variable {fl : ℝ → Option ℝ}

theorem lastBit_of_le {x : ℝ} (h : (2 : ℝ) ^ (-1022 : ℤ) ≤ |x|) : -1074 ≤ lastBit x := by
  by_contra hc
  have h1 := abs_lt_log (x := x)
  have h2 : (2 : ℝ) ^ (lastBit x + 53) ≤ (2 : ℝ) ^ (-1022 : ℤ) := zpow_le_zpow_right₀ (by norm_num) (by omega)
  exact absurd (h.trans_lt h1) (not_lt.2 h2)

theorem extend_nearest (h : Ieee fl) {x : ℝ} (hx : InRange x) :
    ∃ y, fl x = some y ∧ Double64 y ∧ ∀ z, Double z → |x - y| ≤ |x - z| := by
  obtain ⟨y, h1, h2, h3⟩ := (h x).1 hx.1
  refine ⟨y, h1, h2, fun z hz => ?_⟩
  rcases le_or_gt (-1074) (lastBit x) with hl | hl
  · have e : nearest64 x = roundNearest x := by
      unfold nearest64 roundNearest
      rw [show lastBit64 x = lastBit x from max_eq_left hl]
    have h4 := h3 _ (nearest64_double hx.1)
    rw [e] at h4
    exact h4.trans ((roundNearest_toNearest x).2 z hz)
  · have hm : ∃ n : ℤ, x = n * (2 : ℝ) ^ (-1074 : ℤ) := by
      rcases hx.2 with h' | h'
      · exact absurd (lastBit_of_le h') (not_le.2 hl)
      · exact h'
    have hd : Double64 x := by
      obtain ⟨n, rfl⟩ := hm
      refine ⟨n, -1074, ?_, le_rfl, by norm_num, rfl⟩
      have hp : (0 : ℝ) < (2 : ℝ) ^ (-1074 : ℤ) := zpow_pos (by norm_num) _
      have k1 := abs_lt_log (x := (n : ℝ) * (2 : ℝ) ^ (-1074 : ℤ))
      generalize lastBit ((n : ℝ) * (2 : ℝ) ^ (-1074 : ℤ)) = l at k1 hl
      have k2 : (2 : ℝ) ^ (l + 53) ≤ (2 : ℝ) ^ (53 + -1074 : ℤ) := zpow_le_zpow_right₀ (by norm_num) (by omega)
      rw [zpow_add₀ (by norm_num) 53] at k2
      rw [abs_mul, abs_of_pos hp] at k1
      have k3 := lt_of_mul_lt_mul_right (k1.trans_le k2) hp.le
      have k4 : |(n : ℝ)| < 2 ^ 53 := by
        have e : (2 : ℝ) ^ (53 : ℤ) = 2 ^ 53 := zpow_natCast _ _
        rwa [e] at k3
      exact_mod_cast k4
    have := h3 x hd
    rw [sub_self, abs_zero] at this
    exact this.trans (abs_nonneg _)

/-- In the range the two roundings are the same. -/
theorem extend_eq (h : Ieee fl) {x : ℝ} (hx : InRange x) : fl x = some (extend fl x) := by
  obtain ⟨y, h1, -⟩ := extend_nearest h hx
  unfold extend
  rw [if_pos hx, h1]
  rfl

/-- The extension is a rounding to nearest. -/
theorem extend_toNearest (h : Ieee fl) : ToNearest (extend fl) := by
  intro x
  by_cases hx : InRange x
  · obtain ⟨y, h1, h2, h3⟩ := extend_nearest h hx
    have e : extend fl x = y := by
      unfold extend
      rw [if_pos hx, h1]
      rfl
    rw [e]
    exact ⟨double64_double h2, h3⟩
  · unfold extend
    rw [if_neg hx]
    exact roundNearest_toNearest x

theorem extend_double64 (h : Ieee fl) {x : ℝ} (hx : InRange x) : Double64 (extend fl x) := by
  obtain ⟨y, h1, h2, -⟩ := extend_nearest h hx
  rw [extend_eq h hx] at h1
  rwa [Option.some.inj h1]

theorem Spec.InRange.ofReal (h : Ieee fl) {x : ℝ} (hx : InRange x) : Dbl.ofReal fl x = .num (extend fl x) := ofReal_some (extend_eq h hx)

theorem Spec.InRange.zero : InRange 0 := ⟨by simpa using double64_le double64_zero, Or.inr ⟨0, by simp⟩⟩

theorem Spec.InRange.of_double64 {x : ℝ} (hx : Double64 x) : InRange x := ⟨double64_le hx, Or.inr (double64_multiple hx)⟩

/-- Sums and differences of finite numbers do not underflow. -/
theorem Spec.InRange.add {x y : ℝ} (hx : Double64 x) (hy : Double64 y) (h : |x + y| < overflow64) : InRange (x + y) :=
  ⟨h, Or.inr (multiple_add (double64_multiple hx) (double64_multiple hy))⟩

theorem Spec.InRange.sub {x y : ℝ} (hx : Double64 x) (hy : Double64 y) (h : |x - y| < overflow64) : InRange (x - y) :=
  ⟨h, Or.inr (multiple_sub (double64_multiple hx) (double64_multiple hy))⟩

theorem fadd_range (h : Ieee fl) {x y : ℝ} (hx : InRange (x + y)) : Dbl.fadd fl (.num x) (.num y) = .num (extend fl (x + y)) := hx.ofReal h

theorem fsub_range (h : Ieee fl) {x y : ℝ} (hx : InRange (x - y)) : Dbl.fsub fl (.num x) (.num y) = .num (extend fl (x - y)) := by
  rw [← hx.ofReal h, sub_eq_add_neg]
  rfl

theorem fmul_range (h : Ieee fl) {x y : ℝ} (hx : InRange (x * y)) : Dbl.fmul fl (.num x) (.num y) = .num (extend fl (x * y)) := hx.ofReal h

theorem fquot_range (h : Ieee fl) {x d : ℝ} (hd : d ≠ 0) (hx : InRange (x / d)) : Dbl.fquot fl (.num x) (.num d) = .ok (.num (extend fl (x / d))) := by
  rw [div_eq_mul_inv] at hx ⊢
  simp only [Dbl.fquot, if_neg hd, Dbl.mul, Dbl.rounded, hx.ofReal h]

end MU
