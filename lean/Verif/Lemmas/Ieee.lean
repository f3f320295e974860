import Verif.Model.Ieee
import Verif.Spec.Ieee
import Verif.Lemmas.Rounding

/-!
# Rounding in binary64
-/

set_option linter.unusedSectionVars false

namespace MU

open Spec

/-- Half the smallest positive number of binary64. -/
noncomputable def tiny : ℝ := (2 : ℝ) ^ (-1075 : ℤ)

theorem tiny_pos : 0 < tiny := zpow_pos (by norm_num) _

theorem overflow64_eq : overflow64 = (2 ^ 54 - 1) * (2 : ℝ) ^ (970 : ℤ) := by
  unfold overflow64
  rw [show (2 : ℝ) ^ 1024 = 2 ^ 54 * 2 ^ 970 by rw [← pow_add], show (2 : ℝ) ^ (970 : ℤ) = 2 ^ 970 from zpow_natCast _ _]
  ring

theorem double64_double {y : ℝ} (h : Double64 y) : Double y := by
  obtain ⟨m, e, hm, -, -, rfl⟩ := h
  exact ⟨m, e, hm, rfl⟩

theorem double64_neg {y : ℝ} (h : Double64 y) : Double64 (-y) := by
  obtain ⟨m, e, hm, h1, h2, rfl⟩ := h
  exact ⟨-m, e, by rwa [abs_neg], h1, h2, by push_cast; ring⟩

theorem double64_zero : Double64 0 := ⟨0, 0, by norm_num, by norm_num, by norm_num, by norm_num⟩

theorem double64_pow {e : ℤ} (h : -1074 ≤ e) (h' : e ≤ 971) : Double64 ((2 : ℝ) ^ e) := ⟨1, e, by norm_num, h, h', by norm_num⟩

theorem double64_int (n : ℤ) (h : |n| < 2 ^ 53) : Double64 (n : ℝ) := ⟨n, 0, h, by norm_num, by norm_num, by simp⟩

/-- Every finite number is a multiple of the smallest positive one. -/
theorem double64_multiple {y : ℝ} (h : Double64 y) : ∃ n : ℤ, y = n * (2 : ℝ) ^ (-1074 : ℤ) := by
  obtain ⟨m, e, hm, h1, h2, rfl⟩ := h
  refine ⟨m * 2 ^ (e + 1074).toNat, ?_⟩
  push_cast
  rw [mul_assoc, ← zpow_natCast, ← zpow_add₀ (by norm_num)]
  congr 2
  omega

/-- The largest finite number. -/
theorem double64_le {y : ℝ} (h : Double64 y) : |y| < overflow64 := by
  obtain ⟨m, e, hm, h1, h2, rfl⟩ := h
  have hp : (0 : ℝ) < (2 : ℝ) ^ e := zpow_pos (by norm_num) _
  rw [abs_mul, abs_of_pos hp, overflow64_eq]
  have h3 : |(m : ℝ)| ≤ 2 ^ 53 - 1 := by
    have : |m| ≤ 2 ^ 53 - 1 := by omega
    exact_mod_cast this
  have h4 : (2 : ℝ) ^ e ≤ (2 : ℝ) ^ (971 : ℤ) := zpow_le_zpow_right₀ (by norm_num) h2
  have h5 : (2 : ℝ) ^ (971 : ℤ) = 2 * (2 : ℝ) ^ (970 : ℤ) := by rw [show (971 : ℤ) = 1 + 970 by norm_num, zpow_add₀ (by norm_num)]; norm_num
  have h6 : (0 : ℝ) < (2 : ℝ) ^ (970 : ℤ) := zpow_pos (by norm_num) _
  calc |(m : ℝ)| * (2 : ℝ) ^ e ≤ (2 ^ 53 - 1) * (2 * (2 : ℝ) ^ (970 : ℤ)) := by
        rw [← h5]; exact mul_le_mul h3 h4 hp.le (by norm_num)
    _ = (2 ^ 54 - 2) * (2 : ℝ) ^ (970 : ℤ) := by ring
    _ < (2 ^ 54 - 1) * (2 : ℝ) ^ (970 : ℤ) := mul_lt_mul_of_pos_right (by norm_num) h6

/-! ## A rounding exists -/

/-- The last bit of a finite number of the size of `x`. -/
noncomputable def lastBit64 (x : ℝ) : ℤ := max (lastBit x) (-1074)

/-- The nearest multiple of the last bit. -/
noncomputable def nearest64 (x : ℝ) : ℝ := (round (x / (2 : ℝ) ^ lastBit64 x) : ℝ) * (2 : ℝ) ^ lastBit64 x

theorem nearest64_multiple (x : ℝ) (n : ℤ) : |x - nearest64 x| ≤ |x - (n : ℝ) * (2 : ℝ) ^ lastBit64 x| := by
  unfold nearest64
  have hp : (0 : ℝ) < (2 : ℝ) ^ lastBit64 x := zpow_pos (by norm_num) _
  have h := round_le (x / (2 : ℝ) ^ lastBit64 x) n
  have key : ∀ k : ℝ, |x - k * (2 : ℝ) ^ lastBit64 x| = |x / (2 : ℝ) ^ lastBit64 x - k| * (2 : ℝ) ^ lastBit64 x := by
    intro k
    rw [← abs_of_pos hp, ← abs_mul, abs_of_pos hp, sub_mul, div_mul_cancel₀ _ hp.ne']
  rw [key, key]
  exact mul_le_mul_of_nonneg_right h hp.le

theorem lastBit64_abs (x : ℝ) : |x / (2 : ℝ) ^ lastBit64 x| < 2 ^ 53 := by
  have hp : (0 : ℝ) < (2 : ℝ) ^ lastBit64 x := zpow_pos (by norm_num) _
  rw [abs_div, abs_of_pos hp, div_lt_iff₀ hp]
  have h1 := abs_lt_log (x := x)
  have h2 : (2 : ℝ) ^ (lastBit x + 53) ≤ (2 : ℝ) ^ (lastBit64 x + 53) :=
    zpow_le_zpow_right₀ (by norm_num) (by unfold lastBit64; omega)
  rw [zpow_add₀ (by norm_num) (lastBit64 x)] at h2
  rw [mul_comm]
  refine lt_of_lt_of_le h1 (h2.trans (le_of_eq ?_))
  norm_num

theorem lastBit64_le {x : ℝ} (h : |x| < overflow64) : lastBit64 x ≤ 971 := by
  unfold lastBit64
  refine max_le ?_ (by norm_num)
  rcases eq_or_ne x 0 with h0 | h0
  · rw [h0]; simp [lastBit]
  by_contra hc
  have h1 := log_le_abs h0
  have h2 : (2 : ℝ) ^ (1024 : ℤ) ≤ (2 : ℝ) ^ (lastBit x + 52) := zpow_le_zpow_right₀ (by norm_num) (by omega)
  have h3 : overflow64 < (2 : ℝ) ^ (1024 : ℤ) := by
    rw [overflow64_eq, show (1024 : ℤ) = 54 + 970 by norm_num, zpow_add₀ (by norm_num)]
    exact mul_lt_mul_of_pos_right (by norm_num) (zpow_pos (by norm_num) _)
  linarith

theorem nearest64_double {x : ℝ} (h : |x| < overflow64) : Double64 (nearest64 x) := by
  have hb := lastBit64_abs x
  have hle := lastBit64_le h
  have hge : -1074 ≤ lastBit64 x := le_max_right _ _
  have hp : (0 : ℝ) < (2 : ℝ) ^ lastBit64 x := zpow_pos (by norm_num) _
  unfold nearest64
  generalize hn : round (x / (2 : ℝ) ^ lastBit64 x) = n
  have hr := abs_sub_round (x / (2 : ℝ) ^ lastBit64 x)
  rw [hn] at hr
  obtain ⟨r1, r2⟩ := abs_le.1 hr
  obtain ⟨b1, b2⟩ := abs_lt.1 hb
  have hn53 : |n| ≤ 2 ^ 53 := by
    rw [abs_le]
    constructor
    · have : (-(2 ^ 53) - 1 : ℝ) < n := by linarith
      have : (-(2 ^ 53) - 1 : ℤ) < n := by exact_mod_cast this
      omega
    · have : (n : ℝ) < 2 ^ 53 + 1 := by linarith
      have : n < (2 ^ 53 + 1 : ℤ) := by exact_mod_cast this
      omega
  rcases lt_or_eq_of_le hn53 with h1 | h1
  · exact ⟨n, _, h1, hge, hle, rfl⟩
  · -- the next power of two
    have h2 : lastBit64 x + 1 ≤ 971 := by
      by_contra hc
      have he : lastBit64 x = 971 := by omega
      have h971 : (2 : ℝ) ^ (971 : ℤ) = 2 * (2 : ℝ) ^ (970 : ℤ) := by
        rw [show (971 : ℤ) = 1 + 970 by norm_num, zpow_add₀ (by norm_num)]; norm_num
      have h970 : (0 : ℝ) < (2 : ℝ) ^ (970 : ℤ) := zpow_pos (by norm_num) _
      have hx : |x / (2 : ℝ) ^ lastBit64 x| < 2 ^ 53 - 1 / 2 := by
        rw [abs_div, abs_of_pos hp, div_lt_iff₀ hp, he, h971]
        rw [overflow64_eq] at h
        nlinarith
      have h3 : |(n : ℝ)| ≤ |x / (2 : ℝ) ^ lastBit64 x| + 1 / 2 := by
        have := abs_add_le (x / (2 : ℝ) ^ lastBit64 x) (-(x / (2 : ℝ) ^ lastBit64 x - n))
        rw [abs_neg] at this
        have e : x / (2 : ℝ) ^ lastBit64 x + -(x / (2 : ℝ) ^ lastBit64 x - n) = n := by ring
        rw [e] at this
        linarith
      have h4 : |(n : ℝ)| = 2 ^ 53 := by exact_mod_cast h1
      linarith
    rcases le_or_gt 0 n with h0 | h0
    · rw [abs_of_nonneg h0] at h1
      refine ⟨2 ^ 52, lastBit64 x + 1, by norm_num, by omega, h2, ?_⟩
      rw [h1, zpow_add₀ (by norm_num)]
      norm_num
      ring
    · rw [abs_of_neg h0] at h1
      refine ⟨-2 ^ 52, lastBit64 x + 1, by norm_num, by omega, h2, ?_⟩
      rw [show n = -2 ^ 53 by omega, zpow_add₀ (by norm_num)]
      norm_num
      ring

theorem nearest64_le (x : ℝ) {y : ℝ} (hy : Double64 y) : |x - nearest64 x| ≤ |x - y| := by
  obtain ⟨m, e, hm, h1, h2, rfl⟩ := hy
  rcases le_or_gt (lastBit64 x) e with he | he
  · have := nearest64_multiple x (m * 2 ^ (e - lastBit64 x).toNat)
    have e1 : ((m * 2 ^ (e - lastBit64 x).toNat : ℤ) : ℝ) * (2 : ℝ) ^ lastBit64 x = (m : ℝ) * (2 : ℝ) ^ e := by
      push_cast
      rw [mul_assoc, ← zpow_natCast, ← zpow_add₀ (by norm_num)]
      congr 2
      omega
    rwa [e1] at this
  · have hl : lastBit64 x = lastBit x := by unfold lastBit64 at he ⊢; omega
    have hn : nearest64 x = roundNearest x := by unfold nearest64 roundNearest; rw [hl]
    rw [hn]
    exact (roundNearest_toNearest x).2 _ ⟨m, e, hm, rfl⟩

/-- A rounding of binary64. -/
noncomputable def fl64 (x : ℝ) : Option ℝ := if |x| < overflow64 then some (nearest64 x) else none

/-- Rounding to nearest in binary64 exists. -/
theorem fl64_ieee : Ieee fl64 := by
  intro x
  refine ⟨fun h => ⟨_, if_pos h, nearest64_double h, fun z hz => nearest64_le x hz⟩, fun h => if_neg (not_lt.2 h)⟩

/-! ## Errors -/

variable {fl : ℝ → Option ℝ}

theorem ieee_double (h : Ieee fl) {y : ℝ} (hy : Double64 y) : fl y = some y := by
  obtain ⟨z, hz, -, h2⟩ := (h y).1 (double64_le hy)
  have := h2 y hy
  rw [sub_self, abs_zero] at this
  have := abs_nonpos_iff.1 this
  rw [hz]
  congr 1
  linarith

/-- The absolute error of the nearest number. -/
theorem nearest64_err (x : ℝ) : |x - nearest64 x| ≤ (2 : ℝ) ^ lastBit64 x / 2 := by
  have hp : (0 : ℝ) < (2 : ℝ) ^ lastBit64 x := zpow_pos (by norm_num) _
  have h2 := abs_sub_round (x / (2 : ℝ) ^ lastBit64 x)
  have e : |x - nearest64 x| = |x / (2 : ℝ) ^ lastBit64 x - round (x / (2 : ℝ) ^ lastBit64 x)| * (2 : ℝ) ^ lastBit64 x := by
    unfold nearest64
    rw [← abs_of_pos hp, ← abs_mul, abs_of_pos hp, sub_mul, div_mul_cancel₀ _ hp.ne']
  rw [e]
  nlinarith

/-- A number that is not too small: a relative error of one part in `2^53`. -/
theorem ieee_normal (h : Ieee fl) {x : ℝ} (hx : |x| < overflow64) (hl : -1074 ≤ lastBit x) :
    ∃ ε, |ε| ≤ uround ∧ fl x = some (x * (1 + ε)) := by
  rcases eq_or_ne x 0 with rfl | h0
  · exact ⟨0, by simpa using uround_nonneg, by rw [ieee_double h double64_zero]; simp⟩
  obtain ⟨y, hy, hd, hm⟩ := (h x).1 hx
  have hne := hm _ (nearest64_double hx)
  have herr := nearest64_err x
  have hb : lastBit64 x = lastBit x := max_eq_left hl
  rw [hb] at herr
  have h3 := log_le_abs h0
  rw [zpow_add₀ (by norm_num)] at h3
  have h3' : (2 : ℝ) ^ lastBit x * 2 ^ 52 ≤ |x| := by exact_mod_cast h3
  refine ⟨(y - x) / x, ?_, ?_⟩
  · rw [abs_div, abs_sub_comm, div_le_iff₀ (abs_pos.2 h0)]
    unfold uround
    have := hne.trans herr
    nlinarith
  · rw [hy]
    congr 1
    field_simp
    ring

/-- A rounded number: a relative error of one part in `2^53` and an absolute error of half the smallest positive number. -/
theorem ieee_err (h : Ieee fl) {x : ℝ} (hx : |x| < overflow64) :
    ∃ ε η, |ε| ≤ uround ∧ |η| ≤ tiny ∧ fl x = some (x * (1 + ε) + η) := by
  rcases le_or_gt (-1074) (lastBit x) with hl | hl
  · obtain ⟨ε, h1, h2⟩ := ieee_normal h hx hl
    exact ⟨ε, 0, h1, by simpa using tiny_pos.le, by rw [h2, add_zero]⟩
  · obtain ⟨y, hy, hd, hm⟩ := (h x).1 hx
    have hne := hm _ (nearest64_double hx)
    have herr := nearest64_err x
    refine ⟨0, y - x, by simpa using uround_nonneg, ?_, by rw [hy]; congr 1; ring⟩
    have hb : lastBit64 x = -1074 := max_eq_right hl.le
    rw [hb] at herr
    rw [abs_sub_comm]
    refine (hne.trans herr).trans (le_of_eq ?_)
    unfold tiny
    rw [show (-1075 : ℤ) = -1074 - 1 by norm_num, zpow_sub₀ (by norm_num)]
    norm_num

/-- Multiples of the smallest positive number, for instance sums and differences of finite numbers: a relative error only. -/
theorem ieee_err_multiple (h : Ieee fl) {x : ℝ} (hx : |x| < overflow64) (hm : ∃ n : ℤ, x = n * (2 : ℝ) ^ (-1074 : ℤ)) :
    ∃ ε, |ε| ≤ uround ∧ fl x = some (x * (1 + ε)) := by
  rcases le_or_gt (-1074) (lastBit x) with hl | hl
  · exact ieee_normal h hx hl
  · obtain ⟨n, rfl⟩ := hm
    refine ⟨0, by simpa using uround_nonneg, ?_⟩
    rw [ieee_double h ⟨n, -1074, ?_, le_rfl, by norm_num, rfl⟩]
    · simp
    have hp : (0 : ℝ) < (2 : ℝ) ^ (-1074 : ℤ) := zpow_pos (by norm_num) _
    have h1 := abs_lt_log (x := (n : ℝ) * (2 : ℝ) ^ (-1074 : ℤ))
    generalize lastBit ((n : ℝ) * (2 : ℝ) ^ (-1074 : ℤ)) = l at h1 hl
    have h2 : (2 : ℝ) ^ (l + 53) ≤ (2 : ℝ) ^ (53 + -1074 : ℤ) := zpow_le_zpow_right₀ (by norm_num) (by omega)
    rw [zpow_add₀ (by norm_num) 53] at h2
    rw [abs_mul, abs_of_pos hp] at h1
    have h3 := lt_of_mul_lt_mul_right (h1.trans_le h2) hp.le
    have h4 : |(n : ℝ)| < 2 ^ 53 := by
      have e : (2 : ℝ) ^ (53 : ℤ) = 2 ^ 53 := zpow_natCast _ _
      rwa [e] at h3
    exact_mod_cast h4

/-- A number too large in magnitude. -/
theorem ofReal_pinf (h : Ieee fl) {x : ℝ} (hx : overflow64 ≤ x) : Dbl.ofReal fl x = .pinf := by
  have hp : 0 < overflow64 := lt_of_le_of_lt (abs_nonneg _) (double64_le double64_zero)
  unfold Dbl.ofReal
  rw [(h x).2 (by rw [abs_of_pos (hp.trans_le hx)]; exact hx)]
  exact if_pos (hp.trans_le hx)

theorem ofReal_ninf (h : Ieee fl) {x : ℝ} (hx : x ≤ -overflow64) : Dbl.ofReal fl x = .ninf := by
  have hp : 0 < overflow64 := lt_of_le_of_lt (abs_nonneg _) (double64_le double64_zero)
  unfold Dbl.ofReal
  rw [(h x).2 (by rw [abs_of_neg (by linarith)]; linarith)]
  exact if_neg (by linarith)

theorem ofReal_some {x y : ℝ} (hx : fl x = some y) : Dbl.ofReal fl x = .num y := by
  unfold Dbl.ofReal
  rw [hx]

theorem multiple_add {x y : ℝ} (hx : ∃ n : ℤ, x = n * (2 : ℝ) ^ (-1074 : ℤ)) (hy : ∃ n : ℤ, y = n * (2 : ℝ) ^ (-1074 : ℤ)) :
    ∃ n : ℤ, x + y = n * (2 : ℝ) ^ (-1074 : ℤ) := by
  obtain ⟨n, rfl⟩ := hx
  obtain ⟨k, rfl⟩ := hy
  exact ⟨n + k, by push_cast; ring⟩

theorem multiple_sub {x y : ℝ} (hx : ∃ n : ℤ, x = n * (2 : ℝ) ^ (-1074 : ℤ)) (hy : ∃ n : ℤ, y = n * (2 : ℝ) ^ (-1074 : ℤ)) :
    ∃ n : ℤ, x - y = n * (2 : ℝ) ^ (-1074 : ℤ) := by
  obtain ⟨n, rfl⟩ := hx
  obtain ⟨k, rfl⟩ := hy
  exact ⟨n - k, by push_cast; ring⟩

/-- The sum of two finite numbers, when it does not overflow. -/
theorem fadd_ok (h : Ieee fl) {x y : ℝ} (hx : Double64 x) (hy : Double64 y) (ho : |x + y| < overflow64) :
    ∃ ε, |ε| ≤ uround ∧ Double64 ((x + y) * (1 + ε)) ∧ Dbl.fadd fl (.num x) (.num y) = .num ((x + y) * (1 + ε)) := by
  obtain ⟨ε, h1, h2⟩ := ieee_err_multiple h ho (multiple_add (double64_multiple hx) (double64_multiple hy))
  obtain ⟨z, h3, h4, -⟩ := (h _).1 ho
  rw [h2] at h3
  exact ⟨ε, h1, (Option.some.inj h3) ▸ h4, ofReal_some h2⟩

/-- The difference of two finite numbers, when it does not overflow. -/
theorem fsub_ok (h : Ieee fl) {x y : ℝ} (hx : Double64 x) (hy : Double64 y) (ho : |x - y| < overflow64) :
    ∃ ε, |ε| ≤ uround ∧ Double64 ((x - y) * (1 + ε)) ∧ Dbl.fsub fl (.num x) (.num y) = .num ((x - y) * (1 + ε)) := by
  obtain ⟨ε, h1, h2⟩ := ieee_err_multiple h ho (multiple_sub (double64_multiple hx) (double64_multiple hy))
  obtain ⟨z, h3, h4, -⟩ := (h _).1 ho
  rw [h2] at h3
  refine ⟨ε, h1, (Option.some.inj h3) ▸ h4, ?_⟩
  rw [← ofReal_some h2, sub_eq_add_neg]
  rfl

/-- The product of two finite numbers, when it does not overflow. -/
theorem fmul_ok (h : Ieee fl) {x y : ℝ} (ho : |x * y| < overflow64) :
    ∃ ε η, |ε| ≤ uround ∧ |η| ≤ tiny ∧ Double64 (x * y * (1 + ε) + η) ∧ Dbl.fmul fl (.num x) (.num y) = .num (x * y * (1 + ε) + η) := by
  obtain ⟨ε, η, h1, h1', h2⟩ := ieee_err h ho
  obtain ⟨z, h3, h4, -⟩ := (h _).1 ho
  rw [h2] at h3
  exact ⟨ε, η, h1, h1', (Option.some.inj h3) ▸ h4, ofReal_some h2⟩

/-- The quotient of two finite numbers, when it does not overflow. -/
theorem fquot_ok (h : Ieee fl) {x d : ℝ} (hd : d ≠ 0) (ho : |x * d⁻¹| < overflow64) :
    ∃ ε η, |ε| ≤ uround ∧ |η| ≤ tiny ∧ Double64 (x * d⁻¹ * (1 + ε) + η) ∧
      Dbl.fquot fl (.num x) (.num d) = .ok (.num (x * d⁻¹ * (1 + ε) + η)) := by
  obtain ⟨ε, η, h1, h1', h2⟩ := ieee_err h ho
  obtain ⟨z, h3, h4, -⟩ := (h _).1 ho
  rw [h2] at h3
  refine ⟨ε, η, h1, h1', (Option.some.inj h3) ▸ h4, ?_⟩
  simp only [Dbl.fquot, if_neg hd, Dbl.mul, Dbl.rounded, ofReal_some h2]

namespace Near

variable {k : ℕ} {Q P r : ℝ}

/-- One more rounding, given by its relative error. -/
theorem scale (h : Near k Q P r) {ε : ℝ} (hε : |ε| ≤ uround) : Near (k + 1) Q P (r * (1 + ε)) := by
  refine ⟨?_, h.size⟩
  rw [show r * (1 + ε) - P = r * ε + (r - P) by ring]
  refine (abs_add_le _ _).trans ?_
  rw [abs_mul]
  have h3 : |r| * |ε| ≤ ((1 + gam k) * Q) * uround := mul_le_mul h.abs_le hε (abs_nonneg _) ((abs_nonneg _).trans h.abs_le)
  rw [gam_add, gam_one]
  have := h.err
  nlinarith

/-- The inverse of a rounded number, given by its relative error. -/
theorem inv_scale {d ε : ℝ} (hε : |ε| ≤ uround) : Near 2 |d⁻¹| d⁻¹ (d * (1 + ε))⁻¹ := by
  refine ⟨?_, le_rfl⟩
  have hu := uround_pos
  have hu1 : uround ≤ 1 / 4 := by unfold uround; norm_num
  obtain ⟨e1, e2⟩ := _root_.abs_le.1 hε
  have h1 : 0 < 1 + ε := by linarith
  rw [mul_inv, show d⁻¹ * (1 + ε)⁻¹ - d⁻¹ = (-ε / (1 + ε)) * d⁻¹ by field_simp; ring, abs_mul]
  refine mul_le_mul_of_nonneg_right ?_ (abs_nonneg _)
  rw [abs_div, abs_neg, abs_of_pos h1, div_le_iff₀ h1]
  have h6 : gam 2 = 2 * uround + uround ^ 2 := by unfold gam; ring
  rw [h6]
  nlinarith

end Near

end MU
