import Verif.Model.Angles
import Verif.Spec.Angles
import Mathlib.Algebra.Order.Round
import Mathlib.Data.Int.Log
import Mathlib.Tactic.Linarith
import Mathlib.Tactic.Ring
import Mathlib.Tactic.FieldSimp
import Mathlib.Tactic.Positivity
import Mathlib.Tactic.NormNum

/-!
# fmod and rounding to nearest
-/

namespace MU

/-- What `fmod` returns: the sign of `a`, less than `m` in magnitude, the same angle. -/
theorem fmod_spec {a m : ℝ} (hm : 0 < m) :
    (0 ≤ a → 0 ≤ fmod a m ∧ fmod a m < m) ∧ (a < 0 → -m < fmod a m ∧ fmod a m ≤ 0) ∧ Spec.SameAngle m a (fmod a m) := by
  unfold fmod
  have e : m * (a / m) = a := by field_simp
  refine ⟨fun h => ?_, fun h => ?_, ?_⟩
  · have h0 : 0 ≤ a / m := div_nonneg h hm.le
    rw [if_pos h0]
    have h1 := Int.floor_le (a / m)
    have h2 := Int.lt_floor_add_one (a / m)
    constructor <;> nlinarith
  · have h0 : ¬ 0 ≤ a / m := not_le.2 (div_neg_of_neg_of_pos h hm)
    rw [if_neg h0]
    have h1 := Int.le_ceil (a / m)
    have h2 := Int.ceil_lt_add_one (a / m)
    constructor <;> nlinarith
  · split
    · exact ⟨-⌊a / m⌋, by push_cast; ring⟩
    · exact ⟨-⌈a / m⌉, by push_cast; ring⟩

theorem fmod_abs {a m : ℝ} (hm : 0 < m) : -m < fmod a m ∧ fmod a m < m := by
  obtain ⟨h1, h2, -⟩ := fmod_spec (a := a) hm
  rcases le_or_gt 0 a with h | h
  · have := h1 h; constructor <;> linarith
  · have := h2 h; constructor <;> linarith

theorem sameAngle_unique_Ico {turn a r r' lo : ℝ} (ht : 0 < turn) (h : Spec.SameAngle turn a r) (h' : Spec.SameAngle turn a r')
    (hr : lo ≤ r ∧ r < lo + turn) (hr' : lo ≤ r' ∧ r' < lo + turn) : r = r' := by
  obtain ⟨n, hn⟩ := h
  obtain ⟨n', hn'⟩ := h'
  have : n = n' := by
    have h1 : (n : ℝ) - n' < 1 := by
      by_contra hc
      have : turn ≤ ((n : ℝ) - n') * turn := by nlinarith [not_lt.1 hc]
      nlinarith [hr.2, hr'.1]
    have h2 : (n' : ℝ) - n < 1 := by
      by_contra hc
      have : turn ≤ ((n' : ℝ) - n) * turn := by nlinarith [not_lt.1 hc]
      nlinarith [hr.1, hr'.2]
    have h1' : n - n' < 1 := by exact_mod_cast h1
    have h2' : n' - n < 1 := by exact_mod_cast h2
    omega
  rw [hn, hn', this]

theorem sameAngle_unique_Ioc {turn a r r' lo : ℝ} (ht : 0 < turn) (h : Spec.SameAngle turn a r) (h' : Spec.SameAngle turn a r')
    (hr : lo < r ∧ r ≤ lo + turn) (hr' : lo < r' ∧ r' ≤ lo + turn) : r = r' := by
  have e := sameAngle_unique_Ico (turn := turn) (a := -a) (r := -r) (r' := -r') (lo := -lo - turn) ht
    (by obtain ⟨n, hn⟩ := h; exact ⟨-n, by rw [hn]; push_cast; ring⟩)
    (by obtain ⟨n, hn⟩ := h'; exact ⟨-n, by rw [hn]; push_cast; ring⟩)
    (by constructor <;> linarith [hr.1, hr.2]) (by constructor <;> linarith [hr'.1, hr'.2])
  linarith

theorem M_PI_pos : 0 < M_PI := by unfold M_PI; norm_num

/-- The common part of the normalisations to `[0, turn[`. -/
theorem normalize_up {turn a : ℝ} (ht : 0 < turn) :
    let r := if fmod a turn < 0 then fmod a turn + turn else fmod a turn
    0 ≤ r ∧ r < turn ∧ Spec.SameAngle turn a r := by
  obtain ⟨h1, h2⟩ := fmod_abs (a := a) ht
  obtain ⟨n, hn⟩ := (fmod_spec (a := a) ht).2.2
  intro r
  by_cases h : fmod a turn < 0
  · have : r = fmod a turn + turn := if_pos h
    rw [this]
    exact ⟨by linarith, by linarith, n + 1, by push_cast; linarith⟩
  · have : r = fmod a turn := if_neg h
    rw [this]
    exact ⟨not_lt.1 h, h2, n, hn⟩

/-- The common part of the normalisations to `]-turn/2, turn/2]`. -/
theorem normalize_sym {half a : ℝ} (ht : 0 < half) :
    let r := (if fmod (a + half) (2 * half) ≤ 0 then fmod (a + half) (2 * half) + 2 * half else fmod (a + half) (2 * half)) - half
    r ≤ half ∧ -half < r ∧ Spec.SameAngle (2 * half) a r := by
  have ht2 : 0 < 2 * half := by linarith
  obtain ⟨h1, h2⟩ := fmod_abs (a := a + half) ht2
  obtain ⟨n, hn⟩ := (fmod_spec (a := a + half) ht2).2.2
  intro r
  by_cases h : fmod (a + half) (2 * half) ≤ 0
  · have : r = fmod (a + half) (2 * half) + 2 * half - half := by simp only [r, if_pos h]
    rw [this]
    exact ⟨by linarith, by linarith, n + 1, by push_cast; linarith⟩
  · have : r = fmod (a + half) (2 * half) - half := by simp only [r, if_neg h]
    rw [this]
    exact ⟨by linarith, by linarith [not_le.1 h], n, by linarith⟩

/-! ## Rounding to nearest -/

theorem double_zero : Spec.Double 0 := ⟨0, 0, by norm_num, by norm_num⟩

theorem double_int (n : ℤ) (h : |n| < 2 ^ 53) : Spec.Double (n : ℝ) := ⟨n, 0, h, by simp⟩

theorem double_neg {y : ℝ} (h : Spec.Double y) : Spec.Double (-y) := by
  obtain ⟨m, e, hm, rfl⟩ := h
  exact ⟨-m, e, by rwa [abs_neg], by push_cast; ring⟩

/-- A double is its own rounding. -/
theorem toNearest_double {rnd : ℝ → ℝ} (h : Spec.ToNearest rnd) {y : ℝ} (hy : Spec.Double y) : rnd y = y := by
  have := (h y).2 y hy
  rw [sub_self, abs_zero] at this
  have := abs_nonpos_iff.1 this
  linarith

/-- A double below `x` is below the rounding of `x`. -/
theorem toNearest_ge {rnd : ℝ → ℝ} (h : Spec.ToNearest rnd) {x y : ℝ} (hy : Spec.Double y) (hyx : y ≤ x) : y ≤ rnd x := by
  by_contra hc
  have := (h x).2 y hy
  rw [abs_of_nonneg (by linarith), abs_of_nonneg (by linarith)] at this
  linarith

theorem toNearest_le {rnd : ℝ → ℝ} (h : Spec.ToNearest rnd) {x y : ℝ} (hy : Spec.Double y) (hyx : x ≤ y) : rnd x ≤ y := by
  by_contra hc
  have := (h x).2 y hy
  rw [abs_sub_comm, abs_of_nonneg (by linarith), abs_sub_comm, abs_of_nonneg (by linarith)] at this
  linarith

/-- A multiple of `2^e` that is a small enough integer multiple is a double even when the multiple is `2^53`. -/
theorem double_le {m e : ℤ} (h : |m| ≤ 2 ^ 53) : Spec.Double ((m : ℝ) * (2 : ℝ) ^ e) := by
  rcases lt_or_eq_of_le h with h | h
  · exact ⟨m, e, h, rfl⟩
  · rcases le_or_gt 0 m with h0 | h0
    · rw [abs_of_nonneg h0] at h
      refine ⟨2 ^ 52, e + 1, by norm_num, ?_⟩
      rw [h, zpow_add₀ (by norm_num)]
      norm_num
      ring
    · rw [abs_of_neg h0] at h
      refine ⟨-2 ^ 52, e + 1, by norm_num, ?_⟩
      rw [show m = -2 ^ 53 by omega, zpow_add₀ (by norm_num)]
      norm_num
      ring

/-- The exponent of the last bit of `x`. -/
noncomputable def lastBit (x : ℝ) : ℤ := Int.log 2 |x| - 52

/-- One rounding to nearest: the nearest multiple of the last bit. -/
noncomputable def roundNearest (x : ℝ) : ℝ := (round (x / (2 : ℝ) ^ lastBit x) : ℝ) * (2 : ℝ) ^ lastBit x

theorem abs_lt_log {x : ℝ} : |x| < (2 : ℝ) ^ (lastBit x + 53) := by
  have := Int.lt_zpow_succ_log_self (R := ℝ) (b := 2) (by norm_num) |x|
  unfold lastBit
  rw [show Int.log 2 |x| - 52 + 53 = Int.log 2 |x| + 1 by ring]
  exact_mod_cast this

theorem log_le_abs {x : ℝ} (hx : x ≠ 0) : (2 : ℝ) ^ (lastBit x + 52) ≤ |x| := by
  have := Int.zpow_log_le_self (R := ℝ) (b := 2) (by norm_num) (abs_pos.2 hx)
  unfold lastBit
  rw [show Int.log 2 |x| - 52 + 52 = Int.log 2 |x| by ring]
  exact_mod_cast this

/-- Multiples of the last bit are no closer to `x` than `roundNearest x`. -/
theorem round_multiple (x : ℝ) (n : ℤ) : |x - roundNearest x| ≤ |x - (n : ℝ) * (2 : ℝ) ^ lastBit x| := by
  unfold roundNearest
  have hp : (0 : ℝ) < (2 : ℝ) ^ lastBit x := zpow_pos (by norm_num) _
  have h := round_le (x / (2 : ℝ) ^ lastBit x) n
  have key : ∀ k : ℝ, |x - k * (2 : ℝ) ^ lastBit x| = |x / (2 : ℝ) ^ lastBit x - k| * (2 : ℝ) ^ lastBit x := by
    intro k
    rw [← abs_of_pos hp, ← abs_mul, abs_of_pos hp, sub_mul, div_mul_cancel₀ _ hp.ne']
  rw [key, key]
  exact mul_le_mul_of_nonneg_right h hp.le

/-- Rounding to nearest exists. -/
theorem roundNearest_toNearest : Spec.ToNearest roundNearest := by
  intro x
  have hp : (0 : ℝ) < (2 : ℝ) ^ lastBit x := zpow_pos (by norm_num) _
  constructor
  · refine double_le ?_
    have hb : |x / (2 : ℝ) ^ lastBit x| < 2 ^ 53 := by
      rw [abs_div, abs_of_pos hp, div_lt_iff₀ hp]
      have := abs_lt_log (x := x)
      rw [zpow_add₀ (by norm_num)] at this
      rw [mul_comm]
      exact_mod_cast this
    obtain ⟨h1, h2⟩ := abs_lt.1 hb
    rw [round_eq, abs_le]
    constructor
    · rw [Int.le_floor]
      push_cast
      linarith
    · have : ⌊x / (2 : ℝ) ^ lastBit x + 1 / 2⌋ < 2 ^ 53 + 1 := by
        rw [Int.floor_lt]
        push_cast
        linarith
      omega
  · rintro y ⟨m, e, hm, rfl⟩
    rcases le_or_gt (lastBit x) e with he | he
    · have := round_multiple x (m * 2 ^ (e - lastBit x).toNat)
      have e1 : ((m * 2 ^ (e - lastBit x).toNat : ℤ) : ℝ) * (2 : ℝ) ^ lastBit x = (m : ℝ) * (2 : ℝ) ^ e := by
        push_cast
        rw [mul_assoc, ← zpow_natCast, ← zpow_add₀ (by norm_num)]
        congr 2
        omega
      rwa [e1] at this
    · -- `y` is below the power of two below `x`
      rcases eq_or_ne x 0 with h0 | h0
      · have : roundNearest x = 0 := by simp [roundNearest, h0]
        rw [this, h0, sub_self, abs_zero]
        exact abs_nonneg _
      have hy : |(m : ℝ) * (2 : ℝ) ^ e| ≤ (2 : ℝ) ^ (lastBit x + 52) := by
        rw [abs_mul, abs_of_pos (show (0 : ℝ) < (2 : ℝ) ^ e from zpow_pos (by norm_num) _)]
        have h1 : |(m : ℝ)| ≤ 2 ^ 53 := by
          have : (|m| : ℤ) ≤ 2 ^ 53 := hm.le
          exact_mod_cast this
        have h2 : (2 : ℝ) ^ e ≤ (2 : ℝ) ^ (lastBit x - 1) := zpow_le_zpow_right₀ (by norm_num) (by omega)
        calc |(m : ℝ)| * (2 : ℝ) ^ e ≤ 2 ^ 53 * (2 : ℝ) ^ (lastBit x - 1) := mul_le_mul h1 h2 (zpow_pos (by norm_num) _).le (by norm_num)
          _ = (2 : ℝ) ^ (lastBit x + 52) := by
            rw [show (2 : ℝ) ^ 53 = (2 : ℝ) ^ (53 : ℤ) by norm_num, ← zpow_add₀ (by norm_num)]
            congr 1
            ring
      have hx := log_le_abs h0
      obtain ⟨y1, y2⟩ := abs_le.1 hy
      have key : ∀ s : ℤ, (s : ℝ) * (2 : ℝ) ^ (lastBit x + 52) = ((s * 2 ^ 52 : ℤ) : ℝ) * (2 : ℝ) ^ lastBit x := by
        intro s
        rw [zpow_add₀ (by norm_num)]
        push_cast
        norm_num
        ring
      rcases le_or_gt 0 x with hs | hs
      · have := round_multiple x (1 * 2 ^ 52)
        rw [← key] at this
        rw [abs_of_nonneg hs] at hx
        refine this.trans ?_
        rw [Int.cast_one, one_mul, abs_of_nonneg (by linarith), abs_of_nonneg (by linarith)]
        linarith
      · have := round_multiple x ((-1) * 2 ^ 52)
        rw [← key] at this
        rw [abs_of_neg hs] at hx
        refine this.trans ?_
        push_cast
        rw [abs_of_nonpos (by linarith), abs_of_nonpos (by linarith)]
        linarith

end MU

namespace MU

/-- The relative error of rounding to nearest. -/
theorem toNearest_err {rnd : ℝ → ℝ} (h : Spec.ToNearest rnd) (x : ℝ) : |x - rnd x| ≤ |x| / 2 ^ 53 := by
  have h1 := (h x).2 _ (roundNearest_toNearest x).1
  refine h1.trans ?_
  rcases eq_or_ne x 0 with h0 | h0
  · have : roundNearest x = 0 := by simp [roundNearest, h0]
    rw [this, h0]
    simp
  have hp : (0 : ℝ) < (2 : ℝ) ^ lastBit x := zpow_pos (by norm_num) _
  have h2 := abs_sub_round (x / (2 : ℝ) ^ lastBit x)
  have h3 := log_le_abs h0
  rw [zpow_add₀ (by norm_num)] at h3
  have e : |x - roundNearest x| = |x / (2 : ℝ) ^ lastBit x - round (x / (2 : ℝ) ^ lastBit x)| * (2 : ℝ) ^ lastBit x := by
    unfold roundNearest
    rw [← abs_of_pos hp, ← abs_mul, abs_of_pos hp, sub_mul, div_mul_cancel₀ _ hp.ne']
  rw [e, le_div_iff₀ (by positivity)]
  have h3' : (2 : ℝ) ^ lastBit x * 2 ^ 52 ≤ |x| := by exact_mod_cast h3
  nlinarith

/-- The doubles of magnitude at least 128 are multiples of `2^-45`. -/
theorem double_multiple {y : ℝ} (h : Spec.Double y) (hy : 128 ≤ |y|) : ∃ n : ℤ, y * 2 ^ 45 = n := by
  obtain ⟨m, e, hm, rfl⟩ := h
  have he : -45 ≤ e := by
    by_contra hc
    have h1 : |(m : ℝ)| < 2 ^ 53 := by exact_mod_cast hm
    have h2 : (2 : ℝ) ^ e ≤ (2 : ℝ) ^ (-46 : ℤ) := zpow_le_zpow_right₀ (by norm_num) (by omega)
    have h3 : (0 : ℝ) < (2 : ℝ) ^ e := zpow_pos (by norm_num) _
    rw [abs_mul, abs_of_pos h3] at hy
    have : |(m : ℝ)| * (2 : ℝ) ^ e < 2 ^ 53 * (2 : ℝ) ^ (-46 : ℤ) := mul_lt_mul h1 h2 h3 (by positivity)
    norm_num at this
    linarith
  refine ⟨m * 2 ^ (e + 45).toNat, ?_⟩
  push_cast
  rw [mul_assoc, show ((2 : ℝ) ^ 45) = (2 : ℝ) ^ (45 : ℤ) by norm_num, ← zpow_add₀ (by norm_num), ← zpow_natCast]
  congr 2
  omega

end MU
