import Verif.Props.Rounded
import Verif.Props.RoundedSignals

/-!
# `arange` in double arithmetic: C194

`rnd` is any rounding to nearest, with any rule for ties.
-/

set_option linter.unusedSectionVars false

namespace MU

open Spec

variable {rnd : ℝ → ℝ}

/-- The rounded quotient of a rounded difference. -/
theorem quotient_rel (hr : ToNearest rnd) {D step : ℝ} (hD : 0 ≤ D) (hp : 0 < step) :
    (1 - 3 / 2 ^ 53) * (D / step) ≤ rnd (rnd D / step) ∧ rnd (rnd D / step) ≤ (1 + 3 / 2 ^ 53) * (D / step) := by
  have h1 := abs_le.1 (rnd_rel hr D)
  rw [abs_of_nonneg hD] at h1
  have h0 : 0 ≤ rnd D := toNearest_ge hr ⟨0, 0, by norm_num, by norm_num⟩ hD
  have h2 := abs_le.1 (rnd_rel hr (rnd D / step))
  rw [abs_of_nonneg (div_nonneg h0 hp.le)] at h2
  have e1 : (1 - 1 / 2 ^ 53) * (D / step) ≤ rnd D / step := by
    rw [← mul_div_assoc]
    exact div_le_div_of_nonneg_right (by linarith [h1.1]) hp.le
  have e2 : rnd D / step ≤ (1 + 1 / 2 ^ 53) * (D / step) := by
    rw [← mul_div_assoc]
    exact div_le_div_of_nonneg_right (by linarith [h1.2]) hp.le
  have hq : 0 ≤ D / step := div_nonneg hD hp.le
  generalize D / step = q at *
  generalize rnd D / step = r at *
  norm_num at *
  constructor <;> linarith [h2.1, h2.2]

/-- **C194**: `arange` in double arithmetic. With `q = (stop - start) / step`, there is a whole number `n` with `(1 - 3u) q - 1 < n ≤ (1 + 3u) q`, the whole part of `q` unless
`q` is within three roundings of a whole number, such that the result is `n` values, the first `start`, the last the double nearest to `n step`, in order and equally spaced up to
rounding. The program stops when `n` is less than two, or the last value would be below `start`, if it checks assertions. From `2^32` values on the conversion is undefined. -/
theorem C194_arange (hr : ToNearest rnd) {start stop step : ℝ} (ha : Double start) (hs : start < stop) (hp : 0 < step) :
    ∃ n : Nat, (1 - 3 / 2 ^ 53) * ((stop - start) / step) < n + 1 ∧ (n : ℝ) ≤ (1 + 3 / 2 ^ 53) * ((stop - start) / step) ∧
      (∀ k : Nat, (k : ℝ) ≤ (1 - 3 / 2 ^ 53) * ((stop - start) / step) → (1 + 3 / 2 ^ 53) * ((stop - start) / step) < k + 1 → n = k) ∧
      ∃ last, Double last ∧ (∀ z, Double z → |n * step - last| ≤ |n * step - z|) ∧
      (∀ B, 2 ≤ n → n < 2 ^ 32 → start ≤ last →
        ∃ l, arangeR rnd B start stop step = .ok l ∧ l.length = n ∧ l.head? = some start ∧ l.getLast? = some last ∧ l.Pairwise (· ≤ ·) ∧
          ∀ (i : Nat) (v : ℝ), l[i]? = some v → |v - (start + i * (last - start) / (n - 1))| ≤ 5 / 2 ^ 53 * (|start| + (last - start))) ∧
      (∀ B : Build, B.checked = true → n < 2 ∨ n < 2 ^ 32 ∧ last < start → arangeR rnd B start stop step = .aborts) ∧
      (∀ B, 2 ^ 32 ≤ n → arangeR rnd B start stop step = .ub) := by
  have hD : 0 ≤ stop - start := by linarith
  obtain ⟨q1, q2⟩ := quotient_rel hr hD hp
  have hq : 0 ≤ (stop - start) / step := div_nonneg hD hp.le
  have hf0 : 0 ≤ ⌊rnd (rnd (stop - start) / step)⌋ := by
    rw [Int.floor_nonneg]
    refine le_trans ?_ q1
    exact mul_nonneg (by norm_num) hq
  obtain ⟨n, hn⟩ := Int.eq_ofNat_of_zero_le hf0
  have f1 := Int.floor_le (rnd (rnd (stop - start) / step))
  have f2 := Int.lt_floor_add_one (rnd (rnd (stop - start) / step))
  rw [hn, Int.cast_natCast] at f1 f2
  have run : ∀ B, arangeR rnd B start stop step =
      if 2 ^ 32 ≤ n then .ub else linspaceR rnd B start (rnd ((n : ℝ) * step)) n := by
    intro B
    unfold arangeR
    rw [cassert_true B _ hs, Res.ok_bind, cassert_true B _ hp, Res.ok_bind, fdiv_ok hp.ne', Res.ok_bind]
    simp only [hn, Int.toNat_natCast, Int.cast_natCast]
    by_cases h : 2 ^ 32 ≤ n
    · rw [if_pos h, if_pos (by omega)]
    · rw [if_neg h, if_neg (by omega)]
  refine ⟨n, lt_of_le_of_lt q1 f2, f1.trans q2, fun k h1 h2 => ?_, rnd (n * step), (hr _).1, (hr _).2, fun B h2 h32 hle => ?_, fun B hB h => ?_, fun B h => ?_⟩
  · have h3 : (n : ℝ) < k + 1 := lt_of_le_of_lt (f1.trans q2) h2
    have h4 : (k : ℝ) < n + 1 := lt_of_le_of_lt (h1.trans q1) f2
    have h3 : n < k + 1 := by exact_mod_cast h3
    have h4 : k < n + 1 := by exact_mod_cast h4
    omega
  · rw [run, if_neg (by omega)]
    obtain ⟨l, h1, h3, h4, h5, h6, -, h7⟩ := C105_linspace hr B ha (hr ((n : ℝ) * step)).1 h2 h32 hle
    exact ⟨l, h1, h3, h4, h5, h6, h7⟩
  · rw [run, if_neg (by omega)]
    obtain rfl : B = ⟨true⟩ := by cases B; exact congrArg _ hB
    unfold linspaceR
    by_cases h2 : 1 < n
    · rcases h with h | ⟨-, h⟩
      · omega
      · rw [cassert_true _ _ h2, Res.ok_bind, cassert_false _ (not_le.2 h)]
        rfl
    · rw [cassert_false _ h2]
      rfl
  · rw [run, if_pos h]

/-- A double of `2^k` or more is a multiple of `2^(k-52)`. -/
theorem double_binade {y : ℝ} (hy : Double y) (k : ℤ) (hk : (2 : ℝ) ^ k ≤ y) : ∃ n : ℤ, y = n * (2 : ℝ) ^ (k - 52) := by
  obtain ⟨m, e, hm, rfl⟩ := hy
  have hm' : (m : ℝ) < 2 ^ 53 := by
    have := (abs_lt.1 hm).2
    exact_mod_cast this
  rcases le_or_gt (k - 52) e with h | h
  · refine ⟨m * 2 ^ (e - (k - 52)).toNat, ?_⟩
    push_cast
    rw [← zpow_natCast, Int.toNat_of_nonneg (by omega), mul_assoc, ← zpow_add₀ (by norm_num)]
    congr 2
    ring
  · exfalso
    have h1 : (2 : ℝ) ^ e ≤ (2 : ℝ) ^ (k - 53) := zpow_le_zpow_right₀ (by norm_num) (by omega)
    have hp : (0 : ℝ) < (2 : ℝ) ^ e := zpow_pos (by norm_num) _
    have h2 : (m : ℝ) * (2 : ℝ) ^ e < 2 ^ 53 * (2 : ℝ) ^ (k - 53) :=
      lt_of_lt_of_le (mul_lt_mul_of_pos_right hm' hp) (mul_le_mul_of_nonneg_left h1 (by norm_num))
    have h3 : (2 : ℝ) ^ 53 * (2 : ℝ) ^ (k - 53) = (2 : ℝ) ^ k := by
      rw [show (2 : ℝ) ^ 53 = (2 : ℝ) ^ (53 : ℤ) from (zpow_natCast _ _).symm, ← zpow_add₀ (by norm_num)]
      congr 1
      ring
    linarith

/-- **C194**, at a whole number: the double nearest to 0.1 is a little larger than 0.1, and ten of it do not fit between 0 and 1; in double arithmetic `arange(0, 1, 0.1)` has ten
values all the same, the last of which is 1. -/
theorem C194_tenth (hr : ToNearest rnd) (B : Build) :
    ⌊(1 - 0 : ℝ) / (3602879701896397 / 2 ^ 55)⌋ = 9 ∧ ∃ l, arangeR rnd B 0 1 (3602879701896397 / 2 ^ 55) = .ok l ∧ l.length = 10 ∧ l.getLast? = some 1 := by
  refine ⟨by rw [Int.floor_eq_iff]; norm_num, ?_⟩
  have d1 : Double (1 : ℝ) := ⟨1, 0, by norm_num, by norm_num⟩
  have r1 : rnd ((1 : ℝ) - 0) = 1 := by rw [sub_zero]; exact toNearest_double hr d1
  have hq : rnd (1 / (3602879701896397 / 2 ^ 55)) = 10 := by
    have h1 := (hr (1 / (3602879701896397 / 2 ^ 55))).2 10 ⟨10, 0, by norm_num, by norm_num⟩
    have hd := (hr (1 / (3602879701896397 / 2 ^ 55))).1
    generalize hy : rnd (1 / (3602879701896397 / 2 ^ 55)) = y at *
    have e : |(1 : ℝ) / (3602879701896397 / 2 ^ 55) - 10| = 2 / 3602879701896397 := by
      rw [abs_of_neg (by norm_num)]
      norm_num
    rw [e, abs_le] at h1
    obtain ⟨n, hn⟩ := double_binade hd 3 (by have := h1.2; norm_num at this ⊢; linarith)
    have e49 : (2 : ℝ) ^ (3 - 52 : ℤ) = 1 / 2 ^ 49 := by norm_num
    rw [e49] at hn
    rw [hn] at h1
    have u1 : (n : ℝ) ≤ 10 * 2 ^ 49 := by have := h1.1; norm_num at this ⊢; linarith
    have u2 : (10 * 2 ^ 49 - 1 : ℝ) < n := by have := h1.2; norm_num at this ⊢; linarith
    have v1 : n ≤ 10 * 2 ^ 49 := by exact_mod_cast u1
    have v2 : 10 * 2 ^ 49 - 1 < n := by exact_mod_cast u2
    have : n = 10 * 2 ^ 49 := by omega
    rw [hn, this]
    norm_num
  have hl : rnd (10 * (3602879701896397 / 2 ^ 55)) = 1 := by
    have h1 := (hr (10 * (3602879701896397 / 2 ^ 55))).2 1 d1
    have hd := (hr (10 * (3602879701896397 / 2 ^ 55))).1
    have hge := toNearest_ge hr (x := 10 * (3602879701896397 / 2 ^ 55)) d1 (by norm_num)
    generalize hy : rnd (10 * (3602879701896397 / 2 ^ 55)) = y at *
    have e : |(10 : ℝ) * (3602879701896397 / 2 ^ 55) - 1| = 1 / 2 ^ 54 := by
      rw [abs_of_pos (by norm_num)]
      norm_num
    rw [e, abs_le] at h1
    obtain ⟨n, hn⟩ := double_binade hd 0 (by simpa using hge)
    have e52 : (2 : ℝ) ^ (0 - 52 : ℤ) = 1 / 2 ^ 52 := by norm_num
    rw [e52] at hn
    rw [hn] at h1 hge
    have u1 : (2 ^ 52 : ℝ) ≤ n := by norm_num at hge ⊢; linarith
    have u2 : (n : ℝ) < 2 ^ 52 + 1 := by have := h1.1; norm_num at this ⊢; linarith
    have v1 : 2 ^ 52 ≤ n := by exact_mod_cast u1
    have v2 : n < 2 ^ 52 + 1 := by exact_mod_cast u2
    have : n = 2 ^ 52 := by omega
    rw [hn, this]
    norm_num
  have run : arangeR rnd B 0 1 (3602879701896397 / 2 ^ 55) = linspaceR rnd B 0 1 10 := by
    unfold arangeR
    rw [cassert_true B _ (by norm_num), Res.ok_bind, cassert_true B _ (by norm_num), Res.ok_bind, r1, fdiv_ok (by norm_num), Res.ok_bind, hq]
    have : ⌊(10 : ℝ)⌋ = 10 := by norm_num
    simp only [this]
    rw [if_neg (by norm_num), show ((10 : ℤ) : ℝ) = 10 by norm_num, hl]
    rfl
  rw [run]
  obtain ⟨l, h1, h2, -, h3, -⟩ := C105_linspace hr B (start := 0) (stop := 1) ⟨0, 0, by norm_num, by norm_num⟩ d1 (num := 10) (by norm_num) (by norm_num) (by norm_num)
  exact ⟨l, h1, h2, h3⟩

/-- Non-vacuity: five values from 2 on. -/
example (hr : ToNearest rnd) (B : Build) : ∃ l, arangeR rnd B 2 (15 / 2) 1 = .ok l ∧ l.length = 5 ∧ l.head? = some 2 ∧ l.getLast? = some 5 := by
  obtain ⟨n, -, -, h1, last, -, h2, h3, -⟩ := C194_arange hr (start := 2) (stop := 15 / 2) (step := 1) ⟨2, 0, by norm_num, by norm_num⟩ (by norm_num) (by norm_num)
  obtain rfl := h1 5 (by norm_num) (by norm_num)
  have h4 := h2 5 ⟨5, 0, by norm_num, by norm_num⟩
  norm_num at h4
  have : last = 5 := by linarith [sub_eq_zero.1 h4]
  subst this
  obtain ⟨l, e1, e2, e3, e4, -⟩ := h3 B (by norm_num) (by norm_num) (by norm_num)
  exact ⟨l, e1, e2, e3, e4⟩

end MU
