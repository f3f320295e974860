import Verif.Model.IeeeCheck
import Verif.Props.IeeeUnit

set_option linter.unusedSectionVars false
set_option linter.unusedSimpArgs false

/-!
# C187 Tolerance comparison of any two numbers in binary64
-/

namespace MU
open Spec Dbl

variable {fl : ℝ → Option ℝ}

/-- The tolerance that is computed for a finite number. -/
theorem closeTolerance (h : Ieee fl) {b rtol atol : ℝ} (hb : Double64 b) (ha : Double64 atol) (h1 : 0 ≤ rtol) (h1' : rtol ≤ 1 / 2) (h2 : 0 ≤ atol)
    (h2' : atol ≤ overflow64 / 4) :
    atol + rtol * |b| < 3 / 4 * overflow64 ∧
    ∃ ε η ε', |ε| ≤ uround ∧ |η| ≤ tiny ∧ |ε'| ≤ uround ∧ 0 ≤ (atol + (rtol * |b| * (1 + ε) + η)) * (1 + ε') ∧
      fadd fl (num atol) (fmul fl (num rtol) (fabs (num b))) = num ((atol + (rtol * |b| * (1 + ε) + η)) * (1 + ε')) := by
  have hO := double64_le hb
  have hbn := abs_nonneg b
  have hp : rtol * |b| ≤ 1 / 2 * |b| := mul_le_mul_of_nonneg_right h1' hbn
  have hp0 : 0 ≤ rtol * |b| := mul_nonneg h1 hbn
  have h1O : (1 : ℝ) < overflow64 := by
    have := double64_le (double64_pow (e := 0) (by norm_num) (by norm_num))
    simpa using this
  have hty : tiny ≤ 1 / 32 := by
    unfold tiny
    have : (2 : ℝ) ^ (-1075 : ℤ) ≤ (2 : ℝ) ^ (-5 : ℤ) := zpow_le_zpow_right₀ (by norm_num) (by norm_num)
    exact this.trans (by norm_num)
  have hu : uround ≤ 1 / 32 := by unfold uround; norm_num
  have hu0 := uround_nonneg
  obtain ⟨ε, η, e1, e2, e3, e4⟩ := fmul_ok h (x := rtol) (y := |b|) (by rw [abs_of_nonneg hp0]; linarith)
  have e1' := abs_le.1 e1
  have e2' := abs_le.1 e2
  have q0 : 0 ≤ rtol * |b| * (1 + ε) + η := by
    have := ofReal_mono h (x := 0) (y := rtol * |b|) hp0
    rw [show ofReal fl (rtol * |b|) = fmul fl (num rtol) (num |b|) from rfl, e4, ofReal_some (ieee_double h double64_zero)] at this
    simpa [Dbl.le] using this
  have q1 : rtol * |b| * (1 + ε) + η ≤ 9 / 16 * overflow64 + 1 / 32 := by
    have : rtol * |b| * (1 + ε) ≤ (1 / 2 * overflow64) * (1 + 1 / 32) := by
      apply mul_le_mul (by linarith) (by linarith) (by linarith) (by linarith)
    linarith
  obtain ⟨ε', f1, f2, f3⟩ := fadd_ok h ha e3 (by rw [abs_of_nonneg (by linarith)]; linarith)
  refine ⟨by linarith, ε, η, ε', e1, e2, f1, ?_, ?_⟩
  · have := abs_le.1 f1
    exact mul_nonneg (by linarith) (by linarith)
  · rw [show fabs (num b) = num |b| from rfl, e4, f3]

/-- C187, finite numbers: `IsClose` decides `|a - b| ≤ atol + rtol |b|`, but for a relative margin of four roundings and one smallest positive number, whatever the size of the
numbers, and a number is close to itself. -/
theorem C187_finite_partial (h : Ieee fl) {a b rtol atol : ℝ} (ha : Double64 a) (hb : Double64 b) (ht : Double64 atol) (h1 : 0 ≤ rtol) (h1' : rtol ≤ 1 / 2) (h2 : 0 ≤ atol)
    (h2' : atol ≤ overflow64 / 4) :
    (|a - b| ≤ (1 - 3 / 2 ^ 53) * (atol + rtol * |b|) - (2 : ℝ) ^ (-1074 : ℤ) → isCloseI fl (num a) (num b) (num rtol) (num atol) = true) ∧
    (isCloseI fl (num a) (num b) (num rtol) (num atol) = true → |a - b| ≤ (1 + 4 / 2 ^ 53) * (atol + rtol * |b|) + (2 : ℝ) ^ (-1074 : ℤ)) ∧
    isCloseI fl (num a) (num a) (num rtol) (num atol) = true := by
  have e2 : (2 : ℝ) ^ (-1074 : ℤ) = 2 * tiny := by
    unfold tiny
    rw [show (-1074 : ℤ) = 1 + -1075 by norm_num, zpow_add₀ (by norm_num)]
    norm_num
  rw [e2]
  have hty := tiny_pos
  have hu0 := uround_pos
  have hu : uround ≤ 1 / 32 := by unfold uround; norm_num
  have eu3 : (3 : ℝ) / 2 ^ 53 = 3 * uround := by unfold uround; ring
  have eu4 : (4 : ℝ) / 2 ^ 53 = 4 * uround := by unfold uround; ring
  rw [eu3, eu4]
  have hd := abs_nonneg (a - b)
  have hT0 : 0 ≤ atol + rtol * |b| := by positivity
  obtain ⟨hT, ε, η, ε', r1, r2, r3, r4, r5⟩ := closeTolerance h hb ht h1 h1' h2 h2'
  have r1' := abs_le.1 r1
  have r2' := abs_le.1 r2
  have r3' := abs_le.1 r3
  have hpb : 0 ≤ rtol * |b| := by positivity
  have hOp : 0 < overflow64 := lt_of_le_of_lt (abs_nonneg _) (double64_le ha)
  have hself : isCloseI fl (num a) (num a) (num rtol) (num atol) = true := by
    obtain ⟨-, ε, η, ε', -, -, -, s4, s5⟩ := closeTolerance h ha ht h1 h1' h2 h2'
    unfold isCloseI
    rw [s5, show fsub fl (num a) (num a) = num 0 by
      show rounded fl (num (a + -a)) = _
      rw [add_neg_cancel]
      exact ofReal_some (ieee_double h double64_zero)]
    simpa [fabs, Dbl.le] using s4
  unfold isCloseI at hself ⊢
  rw [r5]
  rcases lt_or_ge |a - b| overflow64 with ho | ho
  · obtain ⟨δ, d1, -, d3⟩ := fsub_ok h ha hb ho
    have d1' := abs_le.1 d1
    rw [d3]
    simp only [fabs, Dbl.le, decide_eq_true_eq]
    rw [abs_mul, abs_of_nonneg (show 0 ≤ 1 + δ by linarith)]
    have x1 : (atol + rtol * |b|) * (1 - uround) - tiny ≤ atol + (rtol * |b| * (1 + ε) + η) := by nlinarith
    have x2 : atol + (rtol * |b| * (1 + ε) + η) ≤ (atol + rtol * |b|) * (1 + uround) + tiny := by nlinarith
    generalize atol + rtol * |b| = T at *
    generalize atol + (rtol * |b| * (1 + ε) + η) = s at *
    generalize |a - b| = D at *
    have s0 : 0 ≤ s := by
      by_contra hc
      rw [not_le] at hc
      have : s * (1 + ε') < 0 := mul_neg_of_neg_of_pos hc (by linarith)
      linarith
    refine ⟨fun hD => ?_, fun hD => ?_, hself⟩
    · have y1 : D * (1 + δ) ≤ D * (1 + uround) := mul_le_mul_of_nonneg_left (by linarith) hd
      have y2 : s * (1 - uround) ≤ s * (1 + ε') := mul_le_mul_of_nonneg_left (by linarith) s0
      have y3 : (T * (1 - uround) - tiny) * (1 - uround) ≤ s * (1 - uround) := mul_le_mul_of_nonneg_right x1 (by linarith)
      have y4 : D * (1 + uround) ≤ ((1 - 3 * uround) * T - 2 * tiny) * (1 + uround) := mul_le_mul_of_nonneg_right hD (by linarith)
      have y5 : 0 ≤ T * uround ^ 2 := by positivity
      have y6 : 0 ≤ tiny * uround := mul_nonneg hty.le hu0.le
      nlinarith
    · have y1 : D * (1 - uround) ≤ D * (1 + δ) := mul_le_mul_of_nonneg_left (by linarith) hd
      have y2 : s * (1 + ε') ≤ s * (1 + uround) := mul_le_mul_of_nonneg_left (by linarith) s0
      have y3 : s * (1 + uround) ≤ (T * (1 + uround) + tiny) * (1 + uround) := mul_le_mul_of_nonneg_right x2 (by linarith)
      have y4 : D * (1 - uround) ≤ ((1 + 4 * uround) * T + 2 * tiny) * (1 - uround) := by
        refine (y1.trans (hD.trans (y2.trans y3))).trans ?_
        have y5 : 0 ≤ T * (uround * (1 - 5 * uround)) := mul_nonneg hT0 (mul_nonneg hu0.le (by linarith))
        have y6 : 0 ≤ tiny * (1 - 3 * uround) := mul_nonneg hty.le (by linarith)
        nlinarith
      exact le_of_mul_le_mul_right y4 (by linarith)
  · have hinf : fabs (fsub fl (num a) (num b)) = pinf := by
      have e : fsub fl (num a) (num b) = ofReal fl (a - b) := by rw [sub_eq_add_neg]; rfl
      rw [e]
      rcases le_abs.1 ho with h' | h'
      · rw [ofReal_pinf h h']; rfl
      · rw [ofReal_ninf h (by linarith)]; rfl
    rw [hinf]
    refine ⟨fun hD => ?_, fun hD => by simp [Dbl.le] at hD, hself⟩
    exfalso
    have : (1 - 3 * uround) * (atol + rtol * |b|) ≤ 1 * (atol + rtol * |b|) := mul_le_mul_of_nonneg_right (by linarith) hT0
    linarith

/-- C187, NaN: it is close to nothing, itself included, whatever the tolerances. -/
theorem C187_nan_partial (x rtol atol : Dbl ℝ) : isCloseI fl nan x rtol atol = false ∧ isCloseI fl x nan rtol atol = false := by
  constructor
  · rfl
  · cases x <;> rfl

/-- C187, a finite number is not close to an infinity when the infinity is the first argument. -/
theorem C187_infinite_first_partial (h : Ieee fl) {b rtol atol : ℝ} (hb : Double64 b) (ht : Double64 atol) (h1 : 0 ≤ rtol) (h1' : rtol ≤ 1 / 2) (h2 : 0 ≤ atol)
    (h2' : atol ≤ overflow64 / 4) :
    isCloseI fl pinf (num b) (num rtol) (num atol) = false ∧ isCloseI fl ninf (num b) (num rtol) (num atol) = false := by
  obtain ⟨-, ε, η, ε', -, -, -, -, r5⟩ := closeTolerance h hb ht h1 h1' h2 h2'
  constructor <;>
  · unfold isCloseI
    rw [r5]
    rfl

/-- C187 fails for an infinite second argument, whatever the tolerances (finite, the relative one positive): every finite number and the opposite infinity are close to it, the
infinity itself is not. -/
theorem C187_infinite_second {rtol atol : ℝ} (h1 : 0 < rtol) (a : ℝ) :
    isCloseI fl (num a) pinf (num rtol) (num atol) = true ∧ isCloseI fl (num a) ninf (num rtol) (num atol) = true ∧
    isCloseI fl ninf pinf (num rtol) (num atol) = true ∧ isCloseI fl pinf ninf (num rtol) (num atol) = true ∧
    isCloseI fl pinf pinf (num rtol) (num atol) = false ∧ isCloseI fl ninf ninf (num rtol) (num atol) = false := by
  have e : fadd fl (num atol) (fmul fl (num rtol) (fabs pinf)) = pinf := by
    simp [fadd, fmul, fabs, Dbl.mul, h1, rounded, Dbl.add]
  have e' : fadd fl (num atol) (fmul fl (num rtol) (fabs ninf)) = pinf := e
  unfold isCloseI
  rw [e, e']
  exact ⟨rfl, rfl, rfl, rfl, rfl, rfl⟩

/-- C187 is refuted with the default tolerances of the code: 0 is close to infinity, and infinity is not close to itself. -/
theorem C187_refuted (h : Ieee fl) : isCloseI fl (num 0) pinf (ofReal fl (1 / 10 ^ 5)) (ofReal fl (1 / 10 ^ 8)) = true ∧
    isCloseI fl pinf pinf (ofReal fl (1 / 10 ^ 5)) (ofReal fl (1 / 10 ^ 8)) = false := by
  have key : ∀ x : ℝ, (2 : ℝ) ^ (-30 : ℤ) ≤ x → x ≤ 1 → ∃ y, ofReal fl x = num y ∧ 0 < y := by
    intro x h1 h2
    have m1 := ofReal_mono h h1
    have m2 := ofReal_mono h h2
    have d1 : Double64 (1 : ℝ) := by simpa using double64_pow (e := 0) (by norm_num) (by norm_num)
    rw [ofReal_some (ieee_double h (double64_pow (by norm_num) (by norm_num)))] at m1
    rw [ofReal_some (ieee_double h d1)] at m2
    rcases hd : ofReal fl x with y | _ | _ | _
    · rw [hd] at m1
      refine ⟨y, rfl, lt_of_lt_of_le (show (0 : ℝ) < (2 : ℝ) ^ (-30 : ℤ) by positivity) (by simpa [Dbl.le] using m1)⟩
    · rw [hd] at m2; cases m2
    · rw [hd] at m1; cases m1
    · rw [hd] at m1; cases m1
  obtain ⟨r, hr, hr0⟩ := key (1 / 10 ^ 5) (by norm_num) (by norm_num)
  obtain ⟨t, ht, -⟩ := key (1 / 10 ^ 8) (by norm_num) (by norm_num)
  rw [hr, ht]
  have := C187_infinite_second (fl := fl) (atol := t) hr0 0
  exact ⟨this.1, this.2.2.2.2.1⟩

theorem isCloseLoopI_ok (a b : List (Dbl ℝ)) (rtol atol : Dbl ℝ) (n i : Nat) (h1 : i + n = a.length) (h2 : a.length ≤ b.length) :
    ∃ c, isCloseLoopI fl a b rtol atol n i = .ok c ∧
      (c = true ↔ ∀ j (hj : j < a.length), i ≤ j → isCloseI fl a[j] (b[j]'(by omega)) rtol atol = true) := by
  induction n generalizing i with
  | zero =>
    refine ⟨true, rfl, ?_⟩
    simp only [true_iff]
    intro j hj hij
    omega
  | succ n ih =>
    obtain ⟨c, hc, hiff⟩ := ih (i + 1) (by omega)
    have hi : i < a.length := by omega
    simp only [isCloseLoopI, vIdx_lt hi, vIdx_lt (show i < b.length by omega), Res.ok_bind]
    by_cases hcl : isCloseI fl a[i] (b[i]'(by omega)) rtol atol = true
    · refine ⟨c, by simp [hcl, hc], hiff.trans ⟨fun h j hj hij => ?_, fun h j hj hij => h j hj (by omega)⟩⟩
      rcases Nat.eq_or_lt_of_le hij with rfl | hlt
      · exact hcl
      · exact h j hj hlt
    · refine ⟨false, by simp [hcl], ?_⟩
      simp only [Bool.false_eq_true, false_iff]
      exact fun h => hcl (h i hi le_rfl)

/-- C187, vectors of the same length: they are close when they are element by element; a NaN anywhere makes them not close. -/
theorem C187_vectors_partial (B : Build) {a b : List (Dbl ℝ)} (hlen : a.length = b.length) (rtol atol : Dbl ℝ) :
    ∃ c, isCloseVecI fl B a b rtol atol = .ok c ∧ (c = true ↔ ∀ j (hj : j < a.length), isCloseI fl a[j] (b[j]'(by omega)) rtol atol = true) ∧
      (nan ∈ a ∨ nan ∈ b → c = false) := by
  obtain ⟨c, hc, h⟩ := isCloseLoopI_ok (fl := fl) a b rtol atol a.length 0 (by omega) (by omega)
  refine ⟨c, ?_, ⟨fun hc' j hj => h.1 hc' j hj (Nat.zero_le _), fun h' => h.2 fun j hj _ => h' j hj⟩, fun hn => ?_⟩
  · unfold isCloseVecI
    rw [cassert_true B _ hlen, Res.ok_bind]
    exact hc
  · rw [← Bool.not_eq_true]
    intro hc'
    rcases hn with hn | hn
    · obtain ⟨j, hj, e⟩ := List.getElem_of_mem hn
      have := h.1 hc' j hj (Nat.zero_le _)
      rw [e, (C187_nan_partial _ _ _).1] at this
      cases this
    · obtain ⟨j, hj, e⟩ := List.getElem_of_mem hn
      have := h.1 hc' j (by omega) (Nat.zero_le _)
      rw [e, (C187_nan_partial _ _ _).2] at this
      cases this

/-- The largest number and its opposite: the difference overflows, and they are not close. The smallest positive number and its double are within the absolute tolerance 1/2. -/
example : isCloseI fl64 (num ((2 ^ 53 - 1) * 2 ^ (971 : ℤ))) (num (-((2 ^ 53 - 1) * 2 ^ (971 : ℤ)))) (num (1 / 4)) (num (1 / 2)) = false ∧
    isCloseI fl64 (num (2 ^ (-1074 : ℤ))) (num (2 ^ (-1073 : ℤ))) (num (1 / 4)) (num (1 / 2)) = true := by
  have hh : Double64 ((1 : ℝ) / 2) := by simpa using double64_pow (e := -1) (by norm_num) (by norm_num)
  have hO : (1 : ℝ) / 2 ≤ overflow64 / 4 := by
    have := double64_le (double64_pow (e := 1) (by norm_num) (by norm_num))
    rw [zpow_one, abs_of_pos (by norm_num)] at this
    linarith
  constructor
  · have hD : Double64 ((2 ^ 53 - 1) * (2 : ℝ) ^ (971 : ℤ)) := ⟨2 ^ 53 - 1, 971, by norm_num, by norm_num, by norm_num, by push_cast; congr 1; norm_num⟩
    have := (C187_finite_partial fl64_ieee hD (double64_neg hD) hh (rtol := 1 / 4) (by norm_num) (by norm_num) (by norm_num) hO).2.1
    rw [← Bool.not_eq_true]
    intro hc
    have := this hc
    have hP : (1 : ℝ) ≤ (2 : ℝ) ^ (971 : ℤ) := one_le_zpow₀ (by norm_num) (by norm_num)
    have hQ : (2 : ℝ) ^ (-1074 : ℤ) ≤ 1 := zpow_le_one_of_nonpos₀ (by norm_num) (by norm_num)
    generalize (2 : ℝ) ^ (971 : ℤ) = P at *
    generalize (2 : ℝ) ^ (-1074 : ℤ) = Q at *
    rw [abs_neg, abs_of_nonneg (show 0 ≤ (2 ^ 53 - 1) * P by nlinarith), abs_of_nonneg (show 0 ≤ (2 ^ 53 - 1) * P - -((2 ^ 53 - 1) * P) by nlinarith)] at this
    norm_num at this
    linarith
  · refine (C187_finite_partial fl64_ieee (double64_pow (by norm_num) (by norm_num)) (double64_pow (by norm_num) (by norm_num)) hh (by norm_num) (by norm_num) (by norm_num) hO).1 ?_
    have e : (2 : ℝ) ^ (-1073 : ℤ) = 2 * (2 : ℝ) ^ (-1074 : ℤ) := by
      rw [show (-1073 : ℤ) = 1 + -1074 by norm_num, zpow_add₀ (by norm_num)]
      norm_num
    have hQ : (2 : ℝ) ^ (-1074 : ℤ) ≤ (2 : ℝ) ^ (-10 : ℤ) := zpow_le_zpow_right₀ (by norm_num) (by norm_num)
    have hQ0 : 0 < (2 : ℝ) ^ (-1074 : ℤ) := zpow_pos (by norm_num) _
    rw [e]
    generalize (2 : ℝ) ^ (-1074 : ℤ) = Q at *
    rw [abs_of_pos (show 0 < 2 * Q by linarith), show Q - 2 * Q = -Q by ring, abs_neg, abs_of_pos hQ0]
    norm_num at hQ ⊢
    linarith

end MU
