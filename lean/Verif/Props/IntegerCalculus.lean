import Verif.Props.Integers
import Verif.Lemmas.Polynomial
import Verif.Lemmas.Loops
import Mathlib.Algebra.BigOperators.Intervals
import Mathlib.Algebra.Order.BigOperators.Group.Finset

/-!
# Polynomials at integers and integrals of integers: C198
-/

set_option linter.unusedSectionVars false

namespace MU
open Spec Finset

variable {rnd : ℝ → ℝ}

theorem getD_ltZ {l : List ℤ} {i : ℕ} (h : i < l.length) : l.getD i 0 = l[i] := by simp [h]

theorem abs_of_fits {n : ℤ} (h : Fits 32 n) : |n| ≤ 2 ^ 53 := by
  obtain ⟨h1, h2⟩ := h
  norm_num at h1 h2
  rw [abs_le]
  omega

theorem tdiv_two (T : ℤ) : (0 ≤ T → T.tdiv 2 = T / 2) ∧ (T < 0 → T.tdiv 2 = -((-T) / 2)) := by
  refine ⟨fun h => Int.tdiv_eq_ediv_of_nonneg h, fun h => ?_⟩
  have := Int.tdiv_eq_ediv_of_nonneg (a := -T) (b := 2) (by omega)
  rw [Int.neg_tdiv] at this
  omega

/-- One step of Horner's rule on integers. -/
theorem horner_stepZ (hr : ToNearest rnd) {r x c n : ℤ} {k : ℕ} (hc : Fits 32 c) (hb : |r| * |x| ^ (k + 1) + |c| * |x| ^ k < 2 ^ 31) (hn : n = r * x + c) :
    signed 32 (r * x) = .ok (r * x) ∧ truncZ 32 (rnd ((r * x : ℤ) + (c : ℝ))) = .ok n ∧ |n| * |x| ^ k ≤ |r| * |x| ^ (k + 1) + |c| * |x| ^ k := by
  have h3 : |n| * |x| ^ k ≤ |r| * |x| ^ (k + 1) + |c| * |x| ^ k := by
    have : |n| ≤ |r| * |x| + |c| := by
      rw [hn, ← abs_mul]
      exact abs_add_le _ _
    calc |n| * |x| ^ k ≤ (|r| * |x| + |c|) * |x| ^ k := mul_le_mul_of_nonneg_right this (by positivity)
      _ = _ := by ring
  have h1 : |r * x| < 2 ^ 31 ∧ Fits 32 n := by
    rcases eq_or_ne x 0 with rfl | hx
    · rw [mul_zero, zero_add] at hn
      rw [hn]
      exact ⟨by norm_num, hc⟩
    · have hx1 : 1 ≤ |x| := Int.one_le_abs hx
      have hk : 1 ≤ |x| ^ k := one_le_pow₀ hx1
      have p0 : 0 ≤ |c| * |x| ^ k := by positivity
      constructor
      · rw [abs_mul]
        have : |r| * |x| ≤ |r| * |x| ^ (k + 1) := by
          rw [pow_succ]
          have : |x| ≤ |x| ^ k * |x| := by nlinarith only [hk, hx1]
          exact mul_le_mul_of_nonneg_left this (abs_nonneg _)
        omega
      · have : |n| ≤ |n| * |x| ^ k := le_mul_of_one_le_right (abs_nonneg _) hk
        have h := abs_lt.1 (lt_of_le_of_lt (this.trans h3) hb)
        constructor <;> norm_num <;> omega
  obtain ⟨h1, h2⟩ := h1
  refine ⟨signed_ok ?_, ?_, h3⟩
  · rw [abs_lt] at h1
    constructor <;> norm_num <;> omega
  · have e : ((r * x : ℤ) : ℝ) + (c : ℝ) = (n : ℝ) := by rw [hn]; push_cast; ring
    rw [e, toNearest_double hr, truncZ_int, signed_ok h2]
    obtain ⟨h, h'⟩ := h2
    norm_num at h h'
    exact double_of_int (abs_le.2 ⟨by omega, by omega⟩)

theorem hornerLoopZ_ok (hr : ToNearest rnd) {cs : List ℤ} {x : ℤ} (hc : ∀ c ∈ cs, Fits 32 c) :
    ∀ (n : ℕ) (r : ℤ), n ≤ cs.length → |r| * |x| ^ n + ∑ i ∈ range n, |cs.getD i 0| * |x| ^ i < 2 ^ 31 →
      hornerLoopZ rnd (cs.map (fun c : ℤ => (c : ℝ))) x n r = .ok (r * x ^ n + ∑ i ∈ range n, cs.getD i 0 * x ^ i) := by
  intro n
  induction n with
  | zero => intro r _ _; simp [hornerLoopZ]
  | succ n ih =>
    intro r hn hb
    rw [sum_range_succ] at hb
    have hs : 0 ≤ ∑ i ∈ range n, |cs.getD i 0| * |x| ^ i := sum_nonneg (fun i _ => by positivity)
    have hcn : Fits 32 (cs.getD n 0) := by
      rw [getD_ltZ (by omega)]
      exact hc _ (List.getElem_mem _)
    obtain ⟨h1, h2, h3⟩ := horner_stepZ hr (r := r) (x := x) (k := n) hcn (by omega) rfl
    have hv : vAt (cs.map (fun c : ℤ => (c : ℝ))) n = .ok ((cs.getD n 0 : ℤ) : ℝ) := by
      rw [vAt_lt (by simpa using hn)]
      rw [List.getElem_map, getD_ltZ (by omega)]
    rw [hornerLoopZ, hv, Res.ok_bind, h1, Res.ok_bind, h2, Res.ok_bind, ih _ (by omega) (by omega), sum_range_succ]
    congr 1
    ring

/-- **C198, part**: `Horner` at an `int` with coefficients that are `int`s is the exact value of the polynomial when the sum of the magnitudes of its terms is an `int`. -/
theorem C198_horner_partial (hr : ToNearest rnd) {cs : List ℤ} (hne : cs ≠ []) {x : ℤ} (hc : ∀ c ∈ cs, Fits 32 c) (hb : ∑ i ∈ range cs.length, |cs.getD i 0| * |x| ^ i < 2 ^ 31) :
    hornerZ rnd (cs.map (fun c : ℤ => (c : ℝ))) x = .ok (∑ i ∈ range cs.length, cs.getD i 0 * x ^ i) := by
  obtain ⟨n, hn⟩ : ∃ n, cs.length = n + 1 := ⟨cs.length - 1, by have := List.length_pos_of_ne_nil hne; omega⟩
  unfold hornerZ vAtInt
  simp only [List.length_map, hn]
  rw [if_neg (by omega), show (((n + 1 : ℕ) : ℤ) - 1).toNat = n by omega]
  have hv : vAt (cs.map (fun c : ℤ => (c : ℝ))) n = .ok ((cs.getD n 0 : ℤ) : ℝ) := by
    rw [vAt_lt (by simp; omega)]
    rw [List.getElem_map, getD_ltZ (by omega)]
  have hcn : Fits 32 (cs.getD n 0) := by
    rw [getD_ltZ (by omega)]
    exact hc _ (List.getElem_mem _)
  rw [hn, sum_range_succ] at hb
  rw [hv, Res.ok_bind, truncZ_int, signed_ok hcn, Res.ok_bind, Nat.add_sub_cancel, hornerLoopZ_ok hr hc n _ (by omega) (by omega), sum_range_succ]
  congr 1
  ring

theorem hornerDerivativeLoopZ_ok (hr : ToNearest rnd) {cs : List ℤ} {x : ℤ} (hc : ∀ i < cs.length, Fits 32 (i * cs.getD i 0)) :
    ∀ (n : ℕ) (r : ℤ), n < cs.length → |r| * |x| ^ n + ∑ i ∈ range n, |((i + 1 : ℕ) : ℤ) * cs.getD (i + 1) 0| * |x| ^ i < 2 ^ 31 →
      hornerDerivativeLoopZ rnd (cs.map (fun c : ℤ => (c : ℝ))) x n r = .ok (r * x ^ n + ∑ i ∈ range n, ((i + 1 : ℕ) : ℤ) * cs.getD (i + 1) 0 * x ^ i) := by
  intro n
  induction n with
  | zero => intro r _ _; simp [hornerDerivativeLoopZ]
  | succ n ih =>
    intro r hn hb
    rw [sum_range_succ] at hb
    have hs : 0 ≤ ∑ i ∈ range n, |((i + 1 : ℕ) : ℤ) * cs.getD (i + 1) 0| * |x| ^ i := sum_nonneg (fun i _ => by positivity)
    have hcn := hc (n + 1) hn
    obtain ⟨h1, h2, h3⟩ := horner_stepZ hr (r := r) (x := x) (k := n) hcn (by omega) rfl
    have hv : vAt (cs.map (fun c : ℤ => (c : ℝ))) (n + 1) = .ok ((cs.getD (n + 1) 0 : ℤ) : ℝ) := by
      rw [vAt_lt (by simpa using hn)]
      rw [List.getElem_map, getD_ltZ (by omega)]
    have e : rnd (((n + 1 : ℕ) : ℝ) * ((cs.getD (n + 1) 0 : ℤ) : ℝ)) = ((((n + 1 : ℕ) : ℤ) * cs.getD (n + 1) 0 : ℤ) : ℝ) := by
      have : ((n + 1 : ℕ) : ℝ) * ((cs.getD (n + 1) 0 : ℤ) : ℝ) = ((((n + 1 : ℕ) : ℤ) * cs.getD (n + 1) 0 : ℤ) : ℝ) := by push_cast; ring
      rw [this]
      exact toNearest_double hr (double_of_int (abs_of_fits hcn))
    rw [hornerDerivativeLoopZ, hv, Res.ok_bind, h1, Res.ok_bind, e, h2, Res.ok_bind, ih _ (by omega) (by omega), sum_range_succ]
    congr 1
    ring

/-- **C198, part**: `Horner_derivative` likewise. -/
theorem C198_derivative_partial (hr : ToNearest rnd) {cs : List ℤ} (hne : cs ≠ []) {x : ℤ} (hc : ∀ i < cs.length, Fits 32 (i * cs.getD i 0))
    (hb : ∑ i ∈ range (cs.length - 1), |((i + 1 : ℕ) : ℤ) * cs.getD (i + 1) 0| * |x| ^ i < 2 ^ 31) :
    hornerDerivativeZ rnd (cs.map (fun c : ℤ => (c : ℝ))) x = .ok (∑ i ∈ range (cs.length - 1), ((i + 1 : ℕ) : ℤ) * cs.getD (i + 1) 0 * x ^ i) := by
  obtain ⟨n, hn⟩ : ∃ n, cs.length = n + 1 := ⟨cs.length - 1, by have := List.length_pos_of_ne_nil hne; omega⟩
  unfold hornerDerivativeZ vAtInt
  simp only [List.length_map, hn]
  rw [if_neg (by omega), show (((n + 1 : ℕ) : ℤ) - 1).toNat = n by omega]
  have hv : vAt (cs.map (fun c : ℤ => (c : ℝ))) n = .ok ((cs.getD n 0 : ℤ) : ℝ) := by
    rw [vAt_lt (by simp; omega)]
    rw [List.getElem_map, getD_ltZ (by omega)]
  have hcn := hc n (by omega)
  have e : rnd (((n + 1 - 1 : ℕ) : ℝ) * ((cs.getD n 0 : ℤ) : ℝ)) = (((n : ℤ) * cs.getD n 0 : ℤ) : ℝ) := by
    have : ((n + 1 - 1 : ℕ) : ℝ) * ((cs.getD n 0 : ℤ) : ℝ) = (((n : ℤ) * cs.getD n 0 : ℤ) : ℝ) := by push_cast [Nat.add_sub_cancel]; ring
    rw [this]
    exact toNearest_double hr (double_of_int (abs_of_fits hcn))
  rw [hv, Res.ok_bind, e, truncZ_int, signed_ok hcn, Res.ok_bind]
  rw [hn, Nat.add_sub_cancel] at hb
  rcases n with _ | n
  · simp [hornerDerivativeLoopZ]
  · rw [sum_range_succ, abs_mul] at hb
    rw [show n + 1 + 1 - 2 = n by omega, hornerDerivativeLoopZ_ok hr hc n _ (by omega) (by rw [abs_mul]; omega), Nat.add_sub_cancel, sum_range_succ]
    congr 1
    ring

/-- **C198, refuted**: `Horner` of `1/2 + x/2` at the `int` 1 is 0, not 1. -/
theorem C198_refuted (hr : ToNearest rnd) : hornerZ rnd [1 / 2, 1 / 2] 1 = .ok 0 := by
  have z : truncZ 32 (1 / 2) = .ok 0 := by
    unfold truncZ
    rw [if_pos (by norm_num), show ⌊(1 / 2 : ℝ)⌋ = 0 by rw [Int.floor_eq_zero_iff]; constructor <;> norm_num, signed_ok]
    constructor <;> norm_num
  have d : Double (1 / 2) := ⟨1, -1, by norm_num, by norm_num⟩
  have s0 : signed 32 (0 * 1) = .ok 0 := rfl
  have v1 : vAtInt ([1 / 2, 1 / 2] : List ℝ) ((([1 / 2, 1 / 2] : List ℝ).length : ℤ) - 1) = .ok (1 / 2) := rfl
  have v0 : vAt ([1 / 2, 1 / 2] : List ℝ) 0 = .ok (1 / 2) := rfl
  unfold hornerZ
  simp only []
  rw [v1, Res.ok_bind, z, Res.ok_bind]
  show hornerLoopZ rnd [1 / 2, 1 / 2] 1 (0 + 1) 0 = .ok 0
  rw [hornerLoopZ, v0, Res.ok_bind, s0, Res.ok_bind, Int.cast_zero, zero_add, toNearest_double hr d, z, Res.ok_bind, hornerLoopZ]

theorem trapz_twice (x y : ℕ → ℤ) (n : ℕ) :
    ∑ i ∈ Ico 1 (n + 1), y i * ((x i - x (i - 1)) + (x (i + 1) - x i)) + y 0 * (x 1 - x 0) + y (n + 1) * (x (n + 1) - x n) = ∑ i ∈ range (n + 1), (x (i + 1) - x i) * (y i + y (i + 1)) := by
  induction n with
  | zero => simp; ring
  | succ n ih =>
    rw [sum_Ico_succ_top (by omega), sum_range_succ, ← ih, Nat.add_sub_cancel]
    ring

/-- **C198**: `Trapz` of `int`s of moderate size is the integral of the piecewise affine function through the points, truncated towards zero. -/
theorem C198_trapz (hr : ToNearest rnd) (B : Build) {x y : List ℤ} (h2 : 2 ≤ y.length) (h64 : y.length < 2 ^ 64) (hl : x.length = y.length) {X Y : ℤ} (hX : ∀ t ∈ x, |t| ≤ X) (hY : ∀ t ∈ y, |t| ≤ Y)
    (hX4 : 4 * X < 2 ^ 31) (hb : 4 * y.length * (X * Y) < 2 ^ 31) :
    trapzZ rnd B x y = .ok ((∑ i ∈ range (y.length - 1), (x.getD (i + 1) 0 - x.getD i 0) * (y.getD i 0 + y.getD (i + 1) 0)).tdiv 2) := by
  obtain ⟨n, hn⟩ : ∃ n, y.length = n + 2 := ⟨y.length - 2, by omega⟩
  have gx : ∀ i < x.length, vIdx x i = .ok (x.getD i 0) ∧ |x.getD i 0| ≤ X := fun i hi => ⟨vIdx_getD hi, by
    rw [getD_ltZ hi]; exact hX _ (List.getElem_mem _)⟩
  have gy : ∀ i < y.length, vIdx y i = .ok (y.getD i 0) ∧ |y.getD i 0| ≤ Y := fun i hi => ⟨vIdx_getD hi, by
    rw [getD_ltZ hi]; exact hY _ (List.getElem_mem _)⟩
  generalize hxf : (fun i => x.getD i 0) = xf at *
  generalize hyf : (fun i => y.getD i 0) = yf at *
  have ex : ∀ i, x.getD i 0 = xf i := fun i => congrFun hxf i
  have ey : ∀ i, y.getD i 0 = yf i := fun i => congrFun hyf i
  simp only [ex, ey] at gx gy ⊢
  have hX0 : 0 ≤ X := (abs_nonneg _).trans (gx 0 (by omega)).2
  have hY0 : 0 ≤ Y := (abs_nonneg _).trans (gy 0 (by omega)).2
  have hXY : 0 ≤ X * Y := mul_nonneg hX0 hY0
  rw [hn] at hb
  push_cast at hb
  have fit : ∀ {t : ℤ}, |t| < 2 ^ 31 → Fits 32 t := by
    intro t ht
    rw [abs_lt] at ht
    constructor <;> norm_num <;> omega
  have bd : ∀ i j, i < x.length → j < x.length → |xf i - xf j| ≤ 2 * X := by
    intro i j hi hj
    have h1 := abs_le.1 (gx i hi).2
    have h2 := abs_le.1 (gx j hj).2
    rw [abs_le]
    omega
  have bp : ∀ i (d k : ℤ), i < y.length → 0 ≤ k → |d| ≤ k * X → |yf i * d| ≤ k * (X * Y) := by
    intro i d k hi hk hd
    rw [abs_mul]
    calc |yf i| * |d| ≤ Y * (k * X) := mul_le_mul (gy i hi).2 hd (abs_nonneg _) hY0
      _ = k * (X * Y) := by ring
  have b2 : ∀ i, 1 ≤ i → i < n + 1 → |(xf i - xf (i - 1)) + (xf (i + 1) - xf i)| ≤ 4 * X := by
    intro i h1 h2
    have a1 := abs_le.1 (bd i (i - 1) (by omega) (by omega))
    have a2 := abs_le.1 (bd (i + 1) i (by omega) (by omega))
    rw [abs_le]
    omega
  have bs : ∀ k, 1 ≤ k → k ≤ n + 1 → |∑ i ∈ Ico 1 k, yf i * ((xf i - xf (i - 1)) + (xf (i + 1) - xf i))| ≤ 4 * n * (X * Y) := by
    intro k h1 hk
    refine (abs_sum_le_sum_abs _ _).trans ?_
    have : ∑ i ∈ Ico 1 k, |yf i * ((xf i - xf (i - 1)) + (xf (i + 1) - xf i))| ≤ (Ico 1 k).card • (4 * (X * Y)) := by
      refine sum_le_card_nsmul _ _ _ (fun i hi => ?_)
      rw [mem_Ico] at hi
      exact bp i _ 4 (by omega) (by norm_num) (b2 i hi.1 (by omega))
    refine this.trans ?_
    rw [Nat.card_Ico, nsmul_eq_mul]
    have h : ((k - 1 : ℕ) : ℤ) ≤ n := by omega
    nlinarith only [h, hXY]
  have hn0 : (0 : ℤ) ≤ n := by omega
  have hnXY : 0 ≤ (n : ℤ) * (X * Y) := mul_nonneg hn0 hXY
  have big : 4 * (n : ℤ) * (X * Y) + 8 * (X * Y) < 2 ^ 31 := by nlinarith only [hb]
  unfold trapzZ
  have hloop := forRange_ok (lo := 1) (hi := n + 1) (by omega) (f := fun i (s : ℤ × ℤ) => do
    let dxi := s.2
    let a ← vIdx x (i + 1)
    let b ← vIdx x i
    let dxii ← signed 32 (a - b)
    let yi ← vIdx y i
    let d ← signed 32 (dxi + dxii)
    let p ← signed 32 (yi * d)
    let sum ← signed 32 (s.1 + p)
    return (sum, dxii))
    (fun k => (∑ i ∈ Ico 1 k, yf i * ((xf i - xf (i - 1)) + (xf (i + 1) - xf i)), xf k - xf (k - 1)))
    (by
      intro i h1 h2
      have c1 := bd (i + 1) i (by omega) (by omega)
      have c2 := b2 i h1 h2
      have c3 := bp i _ 4 (by omega) (by norm_num) c2
      have c4 := bs (i + 1) (by omega) (by omega)
      rw [sum_Ico_succ_top h1] at c4
      simp only [(gx (i + 1) (by omega)).1, (gx i (by omega)).1, (gy i (by omega)).1, Res.ok_bind, Res.pure_eq]
      rw [signed_ok (fit (lt_of_le_of_lt c1 (by omega))), Res.ok_bind, signed_ok (fit (lt_of_le_of_lt c2 (by omega))), Res.ok_bind,
        signed_ok (fit (lt_of_le_of_lt c3 (by linarith only [big, hnXY, hXY]))), Res.ok_bind, signed_ok (fit (lt_of_le_of_lt c4 (by linarith only [big, hXY]))), Res.ok_bind,
        sum_Ico_succ_top h1]
      rfl)
  simp only [usub_of_le (w := 64) (show 1 ≤ y.length by omega) h64, usub_of_le (w := 64) (show 2 ≤ y.length by omega) h64]
  rw [cassert_true B _ (by omega), Res.ok_bind, cassert_true B _ hl, Res.ok_bind]
  simp only [hn, show n + 2 - 1 = n + 1 by omega, show n + 2 - 2 = n by omega]
  simp only [Ico_self, sum_empty, Nat.sub_self] at hloop
  have d1 := bd 1 0 (by omega) (by omega)
  have dn := bd (n + 1) n (by omega) (by omega)
  have c5 := bs (n + 1) (by omega) le_rfl
  have c6 := bp 0 _ 2 (by omega) (by norm_num) d1
  have c7 := bp (n + 1) _ 2 (by omega) (by norm_num) dn
  have tw := trapz_twice xf yf n
  rw [(gx 1 (by omega)).1, Res.ok_bind, (gx 0 (by omega)).1, Res.ok_bind, signed_ok (fit (lt_of_le_of_lt d1 (by omega))), Res.ok_bind, (gx (n + 1) (by omega)).1, Res.ok_bind,
    (gx n (by omega)).1, Res.ok_bind, signed_ok (fit (lt_of_le_of_lt dn (by omega))), Res.ok_bind, hloop, Res.ok_bind, (gy 0 (by omega)).1, Res.ok_bind,
    signed_ok (fit (lt_of_le_of_lt c6 (by linarith only [big, hnXY, hXY]))), Res.ok_bind]
  generalize ∑ i ∈ Ico 1 (n + 1), yf i * ((xf i - xf (i - 1)) + (xf (i + 1) - xf i)) = S at *
  have c8 : |S + yf 0 * (xf 1 - xf 0)| ≤ 4 * n * (X * Y) + 2 * (X * Y) := (abs_add_le _ _).trans (by linarith only [c5, c6])
  have c9 : |S + yf 0 * (xf 1 - xf 0) + yf (n + 1) * (xf (n + 1) - xf n)| ≤ 4 * n * (X * Y) + 4 * (X * Y) := (abs_add_le _ _).trans (by linarith only [c7, c8])
  rw [signed_ok (fit (lt_of_le_of_lt c8 (by linarith only [big, hXY]))), Res.ok_bind, (gy (n + 1) (by omega)).1, Res.ok_bind,
    signed_ok (fit (lt_of_le_of_lt c7 (by linarith only [big, hnXY, hXY]))), Res.ok_bind, signed_ok (fit (lt_of_le_of_lt c9 (by linarith only [big, hXY]))), Res.ok_bind, tw]
  have c10 : |∑ i ∈ range (n + 1), (xf (i + 1) - xf i) * (yf i + yf (i + 1))| < 2 ^ 31 := by
    rw [← tw]
    exact lt_of_le_of_lt c9 (by linarith only [big, hXY])
  generalize ∑ i ∈ range (n + 1), (xf (i + 1) - xf i) * (yf i + yf (i + 1)) = T at c10
  rw [abs_lt] at c10
  have dT : Double (1 / 2 * (T : ℝ)) := ⟨T, -1, by rw [abs_lt]; omega, by norm_num; ring⟩
  rw [toNearest_double hr dT]
  unfold truncZ
  obtain ⟨t1, t2⟩ := tdiv_two T
  have e : (if (0 : ℝ) ≤ 1 / 2 * (T : ℝ) then ⌊1 / 2 * (T : ℝ)⌋ else ⌈1 / 2 * (T : ℝ)⌉) = T.tdiv 2 := by
    rcases le_or_gt 0 T with h | h
    · have : (0 : ℝ) ≤ T := by exact_mod_cast h
      rw [if_pos (by linarith), Int.floor_eq_iff]
      have h1 : 2 * T.tdiv 2 ≤ T ∧ T < 2 * T.tdiv 2 + 2 := by rw [t1 h]; omega
      have h1' : (2 : ℝ) * (T.tdiv 2 : ℤ) ≤ T ∧ (T : ℝ) < 2 * (T.tdiv 2 : ℤ) + 2 := by exact_mod_cast h1
      constructor <;> linarith only [h1'.1, h1'.2]
    · have : (T : ℝ) < 0 := by exact_mod_cast h
      rw [if_neg (by linarith), Int.ceil_eq_iff]
      have h1 : 2 * T.tdiv 2 - 2 < T ∧ T ≤ 2 * T.tdiv 2 := by rw [t2 h]; omega
      have h1' : (2 : ℝ) * (T.tdiv 2 : ℤ) - 2 < T ∧ (T : ℝ) ≤ 2 * (T.tdiv 2 : ℤ) := by exact_mod_cast h1
      constructor <;> linarith only [h1'.1, h1'.2]
  rw [e, signed_ok]
  have : -2 ^ 31 ≤ T.tdiv 2 ∧ T.tdiv 2 < 2 ^ 31 := by
    clear e
    rcases le_or_gt 0 T with h | h
    · rw [t1 h]; omega
    · rw [t2 h]; omega
  exact this

/-- Non-vacuity: `1 - 3 x + 2 x^2` at 5, and three points. -/
example : (∀ c ∈ ([1, -3, 2] : List ℤ), Fits 32 c) ∧ ∑ i ∈ range 3, |([1, -3, 2] : List ℤ).getD i 0| * |(5 : ℤ)| ^ i < 2 ^ 31 ∧
    (∀ i < 3, Fits 32 ((i : ℕ) * ([1, -3, 2] : List ℤ).getD i 0)) ∧ (∀ t ∈ ([0, 1, 4] : List ℤ), |t| ≤ 4) ∧ (∀ t ∈ ([3, -2, 1] : List ℤ), |t| ≤ 3) := by
  refine ⟨?_, by simp [sum_range_succ], ?_, by simp, by simp⟩
  · intro c hc
    simp only [List.mem_cons, List.not_mem_nil, or_false] at hc
    rcases hc with rfl | rfl | rfl <;> constructor <;> norm_num
  · intro i hi
    have : i = 0 ∨ i = 1 ∨ i = 2 := by omega
    rcases this with rfl | rfl | rfl <;> constructor <;> norm_num

end MU
