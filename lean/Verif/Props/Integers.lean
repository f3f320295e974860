import Verif.Model.Integers
import Verif.Spec.Integers
import Verif.Spec.Angles
import Verif.Lemmas.Angles
import Verif.Lemmas.Vectors
import Verif.Lemmas.Rounding
import Mathlib.Data.Nat.Sqrt
import Mathlib.Analysis.Real.Sqrt

/-!
# The scalar functions with integer arguments: C196
-/

set_option linter.unusedSectionVars false

namespace MU
open Spec

variable {rnd : ℝ → ℝ}

theorem signed_ok {w : ℕ} {n : ℤ} (h : Fits w n) : signed w n = .ok n := if_pos h

theorem signed_ub {w : ℕ} {n : ℤ} (h : ¬ Fits w n) : signed w n = .ub := if_neg h

theorem truncZ_int (w : ℕ) (n : ℤ) : truncZ w (n : ℝ) = signed w n := by
  unfold truncZ
  rw [Int.floor_intCast, Int.ceil_intCast, ite_self]

theorem double_of_int {n : ℤ} (h : |n| ≤ 2 ^ 53) : Double (n : ℝ) := by
  have := double_le (m := n) (e := 0) h
  rwa [zpow_zero, mul_one] at this

/-- Large doubles are multiples of a power of two. -/
theorem double_large {y : ℝ} (h : Double y) (k : ℕ) (hy : 2 ^ (52 + k) ≤ |y|) : ∃ n : ℤ, y = n * 2 ^ k := by
  obtain ⟨m, e, hm, rfl⟩ := h
  have he : (k : ℤ) ≤ e := by
    by_contra hc
    have h1 : |(m : ℝ)| < 2 ^ 53 := by exact_mod_cast hm
    have h2 : (2 : ℝ) ^ e ≤ (2 : ℝ) ^ ((k : ℤ) - 1) := zpow_le_zpow_right₀ (by norm_num) (by omega)
    have h3 : (0 : ℝ) < (2 : ℝ) ^ e := zpow_pos (by norm_num) _
    rw [abs_mul, abs_of_pos h3] at hy
    have h4 : |(m : ℝ)| * (2 : ℝ) ^ e < 2 ^ 53 * (2 : ℝ) ^ ((k : ℤ) - 1) := mul_lt_mul h1 h2 h3 (by positivity)
    have h5 : (2 : ℝ) ^ 53 * (2 : ℝ) ^ ((k : ℤ) - 1) = 2 ^ (52 + k) := by
      rw [zpow_sub₀ (by norm_num), zpow_natCast, pow_add]
      ring
    linarith only [hy, h4, h5]
  refine ⟨m * 2 ^ (e - k).toNat, ?_⟩
  push_cast
  rw [mul_assoc, ← pow_add, ← zpow_natCast]
  congr 2
  omega

/-- The largest of `lo` and the least of `v` and `hi`. -/
theorem saturateZ_eq (hr : ToNearest rnd) (w : ℕ) (v lo hi : ℤ) : saturateZ rnd w v lo hi = truncZ w (rnd ((max lo (min v hi) : ℤ) : ℝ)) := by
  have mono : ∀ {a b : ℤ}, a ≤ b → rnd (a : ℝ) ≤ rnd (b : ℝ) := fun h => toNearest_mono hr (by exact_mod_cast h)
  unfold saturateZ
  have e : (if v > hi then hi else v) = min v hi := by
    split
    · omega
    · omega
  simp only [e]
  congr 1
  rcases le_total lo (min v hi) with h | h
  · rw [max_eq_right h, if_neg (not_lt.2 (mono h))]
  · rw [max_eq_left h]
    split
    · rfl
    · rename_i h'
      exact le_antisymm (mono h) (not_lt.1 h')

/-- **C196, part**: `Saturate` of integers that are exact as doubles, in particular of `int`s, is the nearest number of the interval. -/
theorem C196_saturate_partial (hr : ToNearest rnd) {w : ℕ} {v lo hi : ℤ} (hv : |v| ≤ 2 ^ 53) (hlo : |lo| ≤ 2 ^ 53) (hhi : |hi| ≤ 2 ^ 53) (fv : Fits w v) (flo : Fits w lo)
    (fhi : Fits w hi) (h : lo ≤ hi) :
    ∃ r, saturateZ rnd w v lo hi = .ok r ∧ lo ≤ r ∧ r ≤ hi ∧ ∀ z, lo ≤ z → z ≤ hi → |v - r| ≤ |v - z| := by
  have hm : |max lo (min v hi)| ≤ 2 ^ 53 ∧ Fits w (max lo (min v hi)) := by
    rcases max_choice lo (min v hi) with e | e <;> rw [e]
    · exact ⟨hlo, flo⟩
    · rcases min_choice v hi with e | e <;> rw [e]
      · exact ⟨hv, fv⟩
      · exact ⟨hhi, fhi⟩
  refine ⟨max lo (min v hi), ?_, le_max_left _ _, by omega, fun z h1 h2 => ?_⟩
  · rw [saturateZ_eq hr, toNearest_double hr (double_of_int hm.1), truncZ_int, signed_ok hm.2]
  · have p1 := le_abs_self (v - z)
    have p2 := neg_le_abs (v - z)
    have p3 := abs_nonneg (v - z)
    rw [abs_le]
    omega

/-- **C196, part**: `Saturate` of `long`s away from the ends of the type is the saturated value up to a relative error of `2^-53`. -/
theorem C196_saturate_long_partial (hr : ToNearest rnd) {v lo hi : ℤ} (hv : |v| ≤ 2 ^ 63 - 2 ^ 10) (hlo : |lo| ≤ 2 ^ 63 - 2 ^ 10) (hhi : |hi| ≤ 2 ^ 63 - 2 ^ 10) :
    ∃ r, saturateZ rnd 64 v lo hi = .ok r ∧ |(r : ℝ) - (max lo (min v hi) : ℤ)| ≤ |((max lo (min v hi) : ℤ) : ℝ)| / 2 ^ 53 := by
  have hm : |max lo (min v hi)| ≤ 2 ^ 63 - 2 ^ 10 := by
    rcases max_choice lo (min v hi) with e | e <;> rw [e]
    · exact hlo
    · rcases min_choice v hi with e | e <;> rw [e]
      · exact hv
      · exact hhi
  rw [saturateZ_eq hr]
  generalize max lo (min v hi) = c at hm
  have hd : Double (((2 ^ 63 - 2 ^ 10 : ℤ)) : ℝ) := ⟨2 ^ 53 - 1, 10, by norm_num, by norm_num⟩
  have h1 : rnd (c : ℝ) ≤ ((2 ^ 63 - 2 ^ 10 : ℤ) : ℝ) := toNearest_le hr hd (by exact_mod_cast (abs_le.1 hm).2)
  have h2 : -((2 ^ 63 - 2 ^ 10 : ℤ) : ℝ) ≤ rnd (c : ℝ) := toNearest_ge hr (double_neg hd) (by exact_mod_cast (abs_le.1 hm).1)
  have h3 : ∃ n : ℤ, rnd (c : ℝ) = n := by
    rcases le_total (|c|) (2 ^ 53) with h | h
    · exact ⟨c, toNearest_double hr (double_of_int h)⟩
    · have hb : (2 : ℝ) ^ 53 ≤ |rnd (c : ℝ)| := by
        have d53 : Double ((2 : ℝ) ^ 53) := by
          have := double_of_int (n := 2 ^ 53) (by norm_num)
          exact_mod_cast this
        rcases le_abs.1 h with h | h
        · exact (toNearest_ge hr d53 (by exact_mod_cast h)).trans (le_abs_self _)
        · have h' : (c : ℝ) ≤ -2 ^ 53 := by
            have : ((2 ^ 53 : ℤ) : ℝ) ≤ ((-c : ℤ) : ℝ) := by exact_mod_cast h
            push_cast at this
            linarith only [this]
          have := toNearest_le hr (double_neg d53) h'
          exact le_trans (by linarith only [this]) (neg_le_abs _)
      obtain ⟨n, hn⟩ := double_large (hr c).1 1 (by norm_num at hb ⊢; exact hb)
      exact ⟨n * 2, by rw [hn]; push_cast; ring⟩
  obtain ⟨n, hn⟩ := h3
  have e := toNearest_err hr (c : ℝ)
  rw [hn] at h1 h2 e
  have h1' : n ≤ 2 ^ 63 - 2 ^ 10 := by exact_mod_cast h1
  have h2' : -(2 ^ 63 - 2 ^ 10) ≤ n := by exact_mod_cast h2
  refine ⟨n, ?_, by rw [abs_sub_comm]; exact e⟩
  rw [hn, truncZ_int, signed_ok]
  constructor <;> norm_num <;> omega

/-- **C196, refuted**: `Saturate` changes a `long` inside the interval, and is undefined at the end of the type. -/
theorem C196_refuted (hr : ToNearest rnd) : saturateZ rnd 64 (2 ^ 53 + 1) 0 (2 ^ 62) ≠ .ok (2 ^ 53 + 1) ∧ saturateZ rnd 64 (2 ^ 63 - 1) (-2 ^ 63) (2 ^ 63 - 1) = .ub := by
  constructor
  · rw [saturateZ_eq hr, show max 0 (min (2 ^ 53 + 1) (2 ^ 62)) = (2 ^ 53 + 1 : ℤ) by norm_num]
    have d53 : Double ((2 : ℝ) ^ 53) := by
      have := double_of_int (n := 2 ^ 53) (by norm_num)
      exact_mod_cast this
    have h1 := toNearest_ge hr d53 (x := ((2 ^ 53 + 1 : ℤ) : ℝ)) (by push_cast; linarith)
    obtain ⟨n, hn⟩ := double_large (hr ((2 ^ 53 + 1 : ℤ) : ℝ)).1 1 (by
      refine le_trans ?_ (le_abs_self _)
      norm_num at h1 ⊢
      exact h1)
    have e : rnd ((2 ^ 53 + 1 : ℤ) : ℝ) = ((n * 2 : ℤ) : ℝ) := by rw [hn]; push_cast; ring
    rw [e, truncZ_int]
    unfold signed
    split
    · intro h
      injection h with h
      omega
    · intro h
      cases h
  · rw [saturateZ_eq hr, show max (-2 ^ 63) (min (2 ^ 63 - 1) (2 ^ 63 - 1)) = (2 ^ 63 - 1 : ℤ) by norm_num]
    have d62 : Double ((2 : ℝ) ^ 62) := ⟨1, 62, by norm_num, by norm_num⟩
    have d63 : Double ((2 : ℝ) ^ 63) := ⟨1, 63, by norm_num, by norm_num⟩
    have h1 := toNearest_ge hr d62 (x := ((2 ^ 63 - 1 : ℤ) : ℝ)) (by push_cast; norm_num)
    have h2 := (hr ((2 ^ 63 - 1 : ℤ) : ℝ)).2 _ d63
    obtain ⟨n, hn⟩ := double_large (hr ((2 ^ 63 - 1 : ℤ) : ℝ)).1 10 (by
      refine le_trans ?_ (le_abs_self _)
      norm_num at h1 ⊢
      exact h1)
    have e : rnd ((2 ^ 63 - 1 : ℤ) : ℝ) = ((n * 2 ^ 10 : ℤ) : ℝ) := by rw [hn]; push_cast; ring
    rw [e] at h2 ⊢
    have h3 : |(2 ^ 63 - 1 : ℤ) - n * 2 ^ 10| ≤ 1 := by
      have : |(((2 ^ 63 - 1 : ℤ) - n * 2 ^ 10 : ℤ) : ℝ)| ≤ 1 := by
        push_cast at h2 ⊢
        refine h2.trans ?_
        norm_num
      exact_mod_cast this
    rw [abs_le] at h3
    rw [truncZ_int, signed_ub]
    rintro ⟨-, h⟩
    norm_num at h
    omega

/-- **C196**: `sgn` is the sign and `SgnSqrt` of an `int` is its sign times the integer part of the square root of its magnitude. -/
theorem C196_sgnSqrt (hr : ToNearest rnd) {v : ℤ} (hv : Fits 32 v) : sgnZ v = v.sign ∧ sgnSqrtZ rnd v = .ok (v.sign * Nat.sqrt v.natAbs) := by
  have hs : sgnZ v = v.sign := by
    unfold sgnZ boolInt
    rcases lt_trichotomy v 0 with h | rfl | h
    · rw [Int.sign_eq_neg_one_of_neg h]; simp [h, h.le, not_lt.2 h.le]
    · simp
    · rw [Int.sign_eq_one_of_pos h]; simp [h, not_lt.2 h.le]
  refine ⟨hs, ?_⟩
  obtain ⟨b1, b2⟩ := hv
  norm_num at b1 b2
  set n := v.natAbs with hn
  set s := Nat.sqrt n with hsq
  have hn31 : n ≤ 2 ^ 31 := by omega
  have l1 : s * s ≤ n := Nat.sqrt_le n
  have l2 : n + 1 ≤ (s + 1) * (s + 1) := Nat.lt_succ_sqrt n
  have hs16 : s + 1 ≤ 2 ^ 16 := by
    by_contra hc
    have : 2 ^ 16 ≤ s := by omega
    have := Nat.mul_le_mul this this
    omega
  have habs : |(v : ℝ)| = (n : ℝ) := by
    rw [hn, Nat.cast_natAbs]
    push_cast
    rfl
  have l1' : (s : ℝ) * s ≤ n := by exact_mod_cast l1
  have l2' : (n : ℝ) + 1 ≤ (s + 1) * (s + 1) := by exact_mod_cast l2
  have hs' : (s : ℝ) + 1 ≤ 2 ^ 16 := by exact_mod_cast hs16
  have hs0 : (0 : ℝ) ≤ s := Nat.cast_nonneg s
  have q1 : (s : ℝ) ≤ Real.sqrt n := Real.le_sqrt_of_sq_le (by rw [sq]; exact l1')
  have q2 : Real.sqrt n ≤ s + 1 - 1 / 2 ^ 20 := by
    refine Real.sqrt_le_iff.2 ⟨by norm_num; linarith, ?_⟩
    norm_num at hs' ⊢
    nlinarith only [l2', hs', hs0]
  have ds : Double (s : ℝ) := by
    have := double_of_int (n := (s : ℤ)) (by rw [abs_of_nonneg (by omega)]; omega)
    exact_mod_cast this
  have dt : Double ((s : ℝ) + 1 - 1 / 2 ^ 20) := by
    refine ⟨(s + 1) * 2 ^ 20 - 1, -20, ?_, ?_⟩
    · rw [abs_of_nonneg (by omega)]
      omega
    · push_cast
      rw [zpow_neg, show ((2 : ℝ) ^ (20 : ℤ)) = 2 ^ 20 by norm_num]
      norm_num
      ring
  have r1 := toNearest_ge hr ds q1
  have r2 := toNearest_le hr dt q2
  have dR := (hr (Real.sqrt n)).1
  unfold sgnSqrtZ
  rw [habs, hs]
  generalize rnd (Real.sqrt n) = R at r1 r2 dR
  have fl : ⌊R⌋ = (s : ℤ) := by
    rw [Int.floor_eq_iff]
    refine ⟨by exact_mod_cast r1, ?_⟩
    push_cast
    refine lt_of_le_of_lt r2 ?_
    norm_num
  have fit : Fits 32 (s : ℤ) ∧ Fits 32 (-(s : ℤ)) := by
    constructor <;> constructor <;> norm_num <;> omega
  rcases lt_trichotomy v 0 with h | h | h
  · rw [Int.sign_eq_neg_one_of_neg h]
    push_cast
    rw [neg_one_mul, neg_one_mul, toNearest_double hr (double_neg dR)]
    have hn1 : 1 ≤ n := by omega
    have hs1 : 1 ≤ s := Nat.sqrt_pos.2 hn1
    have : (1 : ℝ) ≤ s := by exact_mod_cast hs1
    unfold truncZ
    rw [if_neg (by linarith only [this, r1]), Int.ceil_neg, fl, signed_ok fit.2]
  · rw [h]
    simp only [Int.sign_zero, Int.cast_zero, zero_mul]
    rw [toNearest_double hr double_zero]
    have := truncZ_int 32 0
    rw [Int.cast_zero] at this
    rw [this, signed_ok]
    constructor <;> norm_num
  · rw [Int.sign_eq_one_of_pos h]
    push_cast
    rw [one_mul, one_mul, toNearest_double hr dR]
    unfold truncZ
    rw [if_pos (hs0.trans r1), fl, signed_ok fit.1]

/-- Comparison with a rounded integer. -/
theorem le_rnd_int (hr : ToNearest rnd) {d x : ℤ} (hd : |d| < 2 ^ 52) : (d : ℝ) ≤ rnd (x : ℝ) ↔ d ≤ x := by
  have h1 : |d| ≤ 2 ^ 53 := by omega
  constructor
  · intro h
    by_contra hc
    have h2 : x ≤ d - 1 := by omega
    have := toNearest_le hr (double_of_int (n := d - 1) (by rw [abs_le]; rw [abs_lt] at hd; omega)) (x := (x : ℝ)) (by exact_mod_cast h2)
    push_cast at this
    linarith
  · intro h
    exact toNearest_ge hr (double_of_int h1) (by exact_mod_cast h)

/-- **C196, part**: `IsClose` of `int`s whose difference is an `int` decides the inequality exactly; with the default tolerances it decides equality. -/
theorem C196_isClose_partial (hr : ToNearest rnd) {a b : ℤ} (hab : Fits 32 (a - b)) :
    (∀ rtol atol : ℤ, Fits 32 atol → isCloseZ rnd a b rtol atol = .ok (decide (|a - b| ≤ atol + rtol * |b|))) ∧ isCloseDefaultZ rnd a b = .ok (decide (a = b)) := by
  have main : ∀ rtol atol : ℤ, Fits 32 atol → isCloseZ rnd a b rtol atol = .ok (decide (|a - b| ≤ atol + rtol * |b|)) := by
    intro rtol atol ht
    unfold isCloseZ
    rw [signed_ok hab, Res.ok_bind, Res.pure_eq]
    congr 1
    obtain ⟨b1, b2⟩ := hab
    obtain ⟨t1, t2⟩ := ht
    norm_num at b1 b2 t1 t2
    have hd : |a - b| ≤ 2147483648 := abs_le.2 ⟨by omega, by omega⟩
    have hd0 := abs_nonneg (a - b)
    generalize hdd : |a - b| = d at hd hd0
    have e1 : |((a - b : ℤ) : ℝ)| = (d : ℝ) := by rw [← hdd]; push_cast; rfl
    rw [e1]
    have e2 : (rtol : ℝ) * |(b : ℝ)| = ((rtol * |b| : ℤ) : ℝ) := by push_cast; rfl
    rw [e2]
    generalize rtol * |b| = P
    have k1 : ((d - atol : ℤ) : ℝ) ≤ rnd (P : ℝ) ↔ d - atol ≤ P := le_rnd_int hr (by rw [abs_lt]; omega)
    refine decide_eq_decide.2 ⟨fun h => ?_, fun h => ?_⟩
    · by_contra hc
      have h1 : P ≤ d - atol - 1 := by omega
      have h2 : rnd (P : ℝ) ≤ ((d - atol - 1 : ℤ) : ℝ) := toNearest_le hr (double_of_int (by rw [abs_le]; omega)) (by exact_mod_cast h1)
      have h3 : rnd (atol + rnd (P : ℝ)) ≤ ((d - 1 : ℤ) : ℝ) := toNearest_le hr (double_of_int (by rw [abs_le]; omega)) (by push_cast at h2 ⊢; linarith only [h2])
      push_cast at h3
      linarith
    · have h1 := k1.2 (by omega)
      exact toNearest_ge hr (double_of_int (by rw [abs_le]; omega)) (by push_cast at h1; linarith only [h1])
  refine ⟨main, ?_⟩
  have z : ∀ x : ℝ, 0 ≤ x → x < 1 → truncZ 32 x = .ok 0 := by
    intro x h0 h1
    unfold truncZ
    rw [if_pos h0, Int.floor_eq_zero_iff.2 ⟨h0, h1⟩, signed_ok]
    constructor <;> norm_num
  unfold isCloseDefaultZ
  rw [z _ (by norm_num) (by norm_num), Res.ok_bind, z _ (by norm_num) (by norm_num), Res.ok_bind, main 0 0 (by constructor <;> norm_num)]
  congr 1
  refine decide_eq_decide.2 ?_
  rw [zero_mul, add_zero, abs_nonpos_iff, sub_eq_zero]

/-- **C196, refuted**: `IsClose` of two `int`s far apart is undefined. -/
theorem C196_refuted_isClose : isCloseDefaultZ rnd (2 ^ 31 - 1) (-1) = .ub ∧ Fits 32 (2 ^ 31 - 1) ∧ Fits 32 (-1) := by
  have z : ∀ x : ℝ, 0 ≤ x → x < 1 → truncZ 32 x = .ok 0 := by
    intro x h0 h1
    unfold truncZ
    rw [if_pos h0, Int.floor_eq_zero_iff.2 ⟨h0, h1⟩, signed_ok]
    constructor <;> norm_num
  refine ⟨?_, by constructor <;> norm_num, by constructor <;> norm_num⟩
  unfold isCloseDefaultZ isCloseZ
  rw [z _ (by norm_num) (by norm_num), Res.ok_bind, z _ (by norm_num) (by norm_num), Res.ok_bind, signed_ub]
  · rfl
  · rintro ⟨-, h⟩
    norm_num at h

theorem modulo360Z_ok {a : ℤ} : ∃ r : ℤ, modulo360Z a = .ok r ∧ 360 ∣ r - a ∧ -360 < r ∧ r < 360 := by
  obtain ⟨-, -, k, h3⟩ := fmod_spec (a := (a : ℝ)) (m := 360) (by norm_num)
  obtain ⟨h1, h2⟩ := fmod_abs (a := (a : ℝ)) (m := 360) (by norm_num)
  have e : fmod (a : ℝ) 360 = ((a + k * 360 : ℤ) : ℝ) := by rw [h3]; push_cast; rfl
  rw [e] at h1 h2
  have h1' : -360 < a + k * 360 := by exact_mod_cast h1
  have h2' : a + k * 360 < 360 := by exact_mod_cast h2
  refine ⟨a + k * 360, ?_, ⟨k, by ring⟩, h1', h2'⟩
  unfold modulo360Z
  rw [e, truncZ_int, signed_ok]
  constructor <;> norm_num <;> omega

/-- **C196, part**: the angle normalisations of `int`s in degrees give the representative in the documented interval: `Normalize_0_360` of every `int`, `Normalize__180_180` of every `int` to
which 180 can be added. -/
theorem C196_degrees_partial (a : ℤ) :
    (∃ r, normalize_0_360Z a = .ok r ∧ 0 ≤ r ∧ r < 360 ∧ 360 ∣ r - a) ∧
    (Fits 32 (a + 180) → ∃ r, normalize_180_180Z a = .ok r ∧ -180 < r ∧ r ≤ 180 ∧ 360 ∣ r - a) := by
  constructor
  · obtain ⟨r, h1, h2, h3, h4⟩ := modulo360Z_ok (a := a)
    unfold normalize_0_360Z
    rw [h1, Res.ok_bind]
    split
    · refine ⟨r + 360, signed_ok (by constructor <;> norm_num <;> omega), by omega, by omega, ?_⟩
      omega
    · exact ⟨r, rfl, by omega, h4, h2⟩
  · intro hf
    obtain ⟨r, h1, h2, h3, h4⟩ := modulo360Z_ok (a := a + 180)
    unfold normalize_180_180Z
    rw [signed_ok hf, Res.ok_bind, h1, Res.ok_bind]
    split
    · rw [signed_ok (show Fits 32 (r + 360) by constructor <;> norm_num <;> omega), Res.ok_bind]
      exact ⟨_, signed_ok (by constructor <;> norm_num <;> omega), by omega, by omega, by omega⟩
    · rw [Res.pure_eq, Res.ok_bind]
      exact ⟨_, signed_ok (by constructor <;> norm_num <;> omega), by omega, by omega, by omega⟩

/-- **C196, refuted**: `Normalize__180_180` of the largest `int` is undefined. -/
theorem C196_refuted_degrees : normalize_180_180Z (2 ^ 31 - 1) = .ub := by
  unfold normalize_180_180Z
  rw [signed_ub]
  · rfl
  · rintro ⟨-, h⟩
    norm_num at h

/-- Non-vacuity: the `int`s 7, -3, 5 and the `long`s 2^60, 0, 2^61. -/
example : |(7 : ℤ)| ≤ 2 ^ 53 ∧ Fits 32 7 ∧ Fits 32 (-3) ∧ Fits 32 5 ∧ Fits 32 (7 - 5) ∧ Fits 32 (7 + 180) ∧ |(2 ^ 60 : ℤ)| ≤ 2 ^ 63 - 2 ^ 10 ∧ |(2 ^ 61 : ℤ)| ≤ 2 ^ 63 - 2 ^ 10 := by
  refine ⟨by norm_num, ?_, ?_, ?_, ?_, ?_, by norm_num, by norm_num⟩ <;> constructor <;> norm_num

end MU
