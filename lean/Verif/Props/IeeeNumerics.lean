import Verif.Model.IeeeNumerics
import Verif.Lemmas.IeeeNear
import Verif.Props.Rounded
import Verif.Props.Ieee

/-!
# C176, C177: polynomials and trapezoidal sums in binary64
-/

set_option linter.unusedSectionVars false

namespace MU
open Spec Dbl Finset

variable {fl : ℝ → Option ℝ}

/-! ## C176 -/

/-- The rule of Horner on computed terms. -/
noncomputable def hornerFold (fl : ℝ → Option ℝ) (t : ℕ → Dbl ℝ) (x : ℝ) : ℕ → Dbl ℝ → Dbl ℝ
  | 0, d => d
  | n + 1, d => hornerFold fl t x n (fadd fl (fmul fl d (.num x)) (t n))

theorem hornerFold_near (h : Ieee fl) {x : ℝ} (hx : Double64 x) {t : ℕ → Dbl ℝ} {q p : ℕ → ℝ} {a : ℝ} {n : ℕ}
    (ht : ∀ i < n, FNear 1 a (q i) (p i) (t i)) {k : ℕ} {A Q P : ℝ} {d : Dbl ℝ} (hd : FNear k A Q P d)
    (ho : (1 + gam (k + 2 * n)) * ((Q + A) * max 1 |x| ^ n + ∑ i ∈ range n, (q i + a + tiny) * max 1 |x| ^ i) < overflow64) :
    FNear (k + 2 * n) (A * |x| ^ n + ∑ i ∈ range n, (a + tiny) * |x| ^ i) (Q * |x| ^ n + ∑ i ∈ range n, q i * |x| ^ i)
      (P * x ^ n + ∑ i ∈ range n, p i * x ^ i) (hornerFold fl t x n d) := by
  induction n generalizing k A Q P d with
  | zero => simpa [hornerFold] using hd
  | succ n ih =>
    have hM1 : 1 ≤ max 1 |x| := le_max_left _ _
    have hMx : |x| ≤ max 1 |x| := le_max_right _ _
    have hp : ∀ i < n + 1, 0 ≤ q i + a + tiny := by
      intro i hi
      obtain ⟨r, -, -, h1⟩ := ht i hi
      have := h1.nonneg
      have := h1.pos
      have := tiny_pos
      linarith
    have hQA : 0 ≤ Q + A := by
      obtain ⟨r, -, -, h1⟩ := hd
      exact add_nonneg h1.nonneg h1.pos
    generalize max 1 |x| = M at *
    have hMn : 1 ≤ M ^ n := one_le_pow₀ hM1
    have hM0 : 0 ≤ M := zero_le_one.trans hM1
    have hS : 0 ≤ ∑ i ∈ range n, (q i + a + tiny) * M ^ i :=
      sum_nonneg fun i hi => mul_nonneg (hp i (by have := mem_range.1 hi; omega)) (pow_nonneg hM0 i)
    have ho' : (1 + gam (k + 2 * (n + 1))) * ((Q * |x| + q n + (A * |x| + tiny + a)) * M ^ n + ∑ i ∈ range n, (q i + a + tiny) * M ^ i) < overflow64 := by
      refine lt_of_le_of_lt (mul_le_mul_of_nonneg_left ?_ (by have := gam_nonneg (k + 2 * (n + 1)); linarith)) ho
      rw [sum_range_succ, pow_succ]
      have h1 : (Q + A) * |x| * M ^ n ≤ (Q + A) * M * M ^ n := by gcongr
      nlinarith
    have ha : (1 + gam (k + 1)) * (Q * |x| + (A * |x| + tiny) + (q n + a)) < overflow64 := by
      refine lt_of_le_of_lt ?_ ho'
      have h3 := gam_mono (show k + 1 ≤ k + 2 * (n + 1) by omega)
      have h4 := gam_nonneg (k + 1)
      have h5 : 0 ≤ Q * |x| + q n + (A * |x| + tiny + a) := by
        have := hp n (by omega)
        have := mul_nonneg hQA (abs_nonneg x)
        linarith
      refine mul_le_mul (by linarith) ?_ (by linarith) (by linarith)
      nlinarith
    have hm : (1 + gam (k + 0)) * ((Q + A) * (|x| + 0)) < overflow64 := by
      refine lt_of_le_of_lt ?_ ha
      have h3 := gam_mono (show k + 0 ≤ k + 1 by omega)
      have h4 := gam_nonneg (k + 0)
      have h5 := hp n (by omega)
      have h6 := mul_nonneg hQA (abs_nonneg x)
      refine mul_le_mul (by linarith) (by linarith) (by linarith) (by linarith)
    have h1 := FNear.mul h hd (FNear.exact hx) hm
    rw [add_zero, mul_zero, mul_zero, add_zero, add_zero] at h1
    have h2 := FNear.add h h1 ((ht n (by omega)).upto (show 1 ≤ k + 1 by omega)) ha
    have h3 := ih (fun i hi => ht i (by omega)) h2 (by
      rw [show k + 1 + 1 + 2 * n = k + 2 * (n + 1) by ring]
      exact ho')
    rw [show k + 1 + 1 + 2 * n = k + 2 * (n + 1) by ring] at h3
    rw [hornerFold, sum_range_succ, sum_range_succ, sum_range_succ]
    convert h3 using 1 <;> ring

theorem hornerLoopI_eq (cs : List ℝ) (x : ℝ) {n : ℕ} (hn : n ≤ cs.length) (d : Dbl ℝ) :
    hornerLoopI fl cs x n d = .ok (hornerFold fl (fun i => .num (cs.getD i 0)) x n d) := by
  induction n generalizing d with
  | zero => rfl
  | succ n ih => rw [hornerLoopI, vAt_getD (by omega), Res.ok_bind, ih (by omega), hornerFold]

theorem hornerDerivativeLoopI_eq (cs : List ℝ) (x : ℝ) {n : ℕ} (hn : n < cs.length) (d : Dbl ℝ) :
    hornerDerivativeLoopI fl cs x n d =
      .ok (hornerFold fl (fun i => fmul fl (.num ((i + 1 : ℕ) : ℝ)) (.num (cs.getD (i + 1) 0))) x n d) := by
  induction n generalizing d with
  | zero => rfl
  | succ n ih => rw [hornerDerivativeLoopI, vAt_getD (by omega), Res.ok_bind, ih (by omega), hornerFold]

theorem getD_double64 {cs : List ℝ} (h : ∀ c ∈ cs, Double64 c) (i : ℕ) : Double64 (cs.getD i 0) := by
  rcases lt_or_ge i cs.length with hi | hi
  · rw [List.getD_eq_getElem?_getD, List.getElem?_eq_getElem hi]
    exact h _ (List.getElem_mem hi)
  · rw [List.getD_eq_getElem?_getD, List.getElem?_eq_none hi]
    exact double64_zero

/-- Half the threshold is enough for what is at most doubled. -/
theorem lt_overflow64 {k : ℕ} (hk : k ≤ 2 ^ 52) {T : ℝ} (hT : T ≤ 2 ^ 1020) : (1 + gam k) * T < overflow64 := by
  have h1 := gam_le_one hk
  have h2 := gam_nonneg k
  have h3 := overflow64_big
  have h4 : (0 : ℝ) < 2 ^ 1020 := by positivity
  generalize (2 : ℝ) ^ 1020 = N at *
  have h5 : (1 + gam k) * T ≤ (1 + gam k) * N := mul_le_mul_of_nonneg_left hT (by linarith)
  have h6 : (1 + gam k) * N ≤ 2 * N := mul_le_mul_of_nonneg_right (by linarith) h4.le
  linarith

theorem tiny_le_one : tiny ≤ 1 := tiny_le.trans (by norm_num)

/-- C176, what holds for `Horner`: when the sum of the magnitudes is not too large, the result is finite, and within `(1+u)^(2n) - 1` times the sum of the
magnitudes of the terms and one smallest number for each operation of the value. Missing: sums near the largest number. -/
theorem C176_horner_partial (h : Ieee fl) {cs : List ℝ} (hne : cs ≠ []) (hlen : cs.length ≤ 2 ^ 31) (hcs : ∀ c ∈ cs, Double64 c) {x : ℝ} (hx : Double64 x)
    (hM : ∑ i ∈ range cs.length, (1 + |cs.getD i 0|) * max 1 |x| ^ i ≤ 2 ^ 1020) :
    ∃ v, hornerI fl cs x = .ok (.num v) ∧ Double64 v ∧
      |v - ∑ i ∈ range cs.length, cs.getD i 0 * x ^ i|
        ≤ ((1 + 1 / 2 ^ 53) ^ (2 * (cs.length - 1)) - 1) * ∑ i ∈ range cs.length, |cs.getD i 0| * |x| ^ i
          + (2 : ℝ) ^ (-1074 : ℤ) * ∑ i ∈ range (cs.length - 1), |x| ^ i := by
  obtain ⟨n, hn⟩ : ∃ n, cs.length = n + 1 := ⟨cs.length - 1, by have := List.length_pos_of_ne_nil hne; omega⟩
  have hM0 : (0 : ℝ) ≤ max 1 |x| := zero_le_one.trans (le_max_left _ _)
  have hv : hornerI fl cs x = .ok (hornerFold fl (fun i => .num (cs.getD i 0)) x n (.num (cs.getD n 0))) := by
    unfold hornerI vAtInt
    simp only []
    rw [if_neg (by omega), show ((cs.length : Int) - 1).toNat = n by omega, vAt_getD (by omega), Res.ok_bind,
      show cs.length - 1 = n by omega, hornerLoopI_eq cs x (by omega)]
  have hk : 0 + 2 * n ≤ 2 ^ 52 := by omega
  have hN := hornerFold_near h hx (n := n) (fun i _ => (FNear.exact (getD_double64 hcs i)).upto (Nat.zero_le 1))
    (FNear.exact (getD_double64 hcs n)) (lt_overflow64 hk (le_trans ?_ hM))
  · obtain ⟨v, e1, e2, e3⟩ := hN
    refine ⟨v, by rw [hv, e1], e2, ?_⟩
    have h1 := e3.err
    have h2 := gam_le_one hk
    have h3 := gam_nonneg (0 + 2 * n)
    rw [zero_mul, zero_add, zero_add] at h1
    rw [zero_add] at h2 h3
    rw [hn, sum_range_succ, sum_range_succ, Nat.add_sub_cancel]
    rw [add_comm (∑ i ∈ range n, cs.getD i 0 * x ^ i), add_comm (∑ i ∈ range n, |cs.getD i 0| * |x| ^ i)]
    refine h1.trans ?_
    rw [← gam_def]
    have h4 : (1 + gam (2 * n)) * ∑ i ∈ range n, (0 + tiny) * |x| ^ i ≤ (2 : ℝ) ^ (-1074 : ℤ) * ∑ i ∈ range n, |x| ^ i := by
      rw [← mul_sum, ← mul_assoc]
      refine mul_le_mul_of_nonneg_right ?_ (sum_nonneg fun i _ => by positivity)
      have e : (2 : ℝ) ^ (-1074 : ℤ) = 2 * tiny := by
        unfold tiny
        rw [show (-1074 : ℤ) = 1 + (-1075) by norm_num, zpow_add₀ (by norm_num)]
        norm_num
      rw [e, zero_add]
      exact mul_le_mul_of_nonneg_right (by linarith) tiny_pos.le
    linarith
  · rw [hn, sum_range_succ, add_zero]
    have h1 : ∑ i ∈ range n, (|cs.getD i 0| + 0 + tiny) * max 1 |x| ^ i ≤ ∑ i ∈ range n, (1 + |cs.getD i 0|) * max 1 |x| ^ i := by
      refine sum_le_sum fun i _ => mul_le_mul_of_nonneg_right ?_ (by positivity)
      have := tiny_le_one
      linarith
    have h2 : |cs.getD n 0| * max 1 |x| ^ n ≤ (1 + |cs.getD n 0|) * max 1 |x| ^ n := mul_le_mul_of_nonneg_right (by linarith) (by positivity)
    linarith

/-- C176, what holds for `Horner_derivative`. Missing: sums near the largest number. -/
theorem C176_horner_derivative_partial (h : Ieee fl) {cs : List ℝ} (hne : 2 ≤ cs.length) (hlen : cs.length ≤ 2 ^ 31) (hcs : ∀ c ∈ cs, Double64 c) {x : ℝ}
    (hx : Double64 x) (hM : ∑ i ∈ range (cs.length - 1), (1 + (i + 1) * |cs.getD (i + 1) 0|) * max 1 |x| ^ i ≤ 2 ^ 1020) :
    ∃ v, hornerDerivativeI fl cs x = .ok (.num v) ∧ Double64 v ∧
      |v - ∑ i ∈ range (cs.length - 1), (i + 1) * cs.getD (i + 1) 0 * x ^ i|
        ≤ ((1 + 1 / 2 ^ 53) ^ (2 * (cs.length - 2) + 1) - 1) * ∑ i ∈ range (cs.length - 1), (i + 1) * |cs.getD (i + 1) 0| * |x| ^ i
          + (2 : ℝ) ^ (-1073 : ℤ) * ∑ i ∈ range (cs.length - 1), |x| ^ i := by
  obtain ⟨n, hn⟩ : ∃ n, cs.length = n + 2 := ⟨cs.length - 2, by omega⟩
  have hM0 : (0 : ℝ) ≤ max 1 |x| := zero_le_one.trans (le_max_left _ _)
  have hM1 : (1 : ℝ) ≤ max 1 |x| := le_max_left _ _
  rw [hn, show n + 2 - 1 = n + 1 by omega] at hM
  have hterm : ∀ i < n + 1, FNear 1 tiny ((i + 1) * |cs.getD (i + 1) 0|) ((i + 1) * cs.getD (i + 1) 0)
      (fmul fl (.num ((i + 1 : ℕ) : ℝ)) (.num (cs.getD (i + 1) 0))) := by
    intro i hi
    have hD : Double64 ((i + 1 : ℕ) : ℝ) := ⟨(i + 1 : ℕ), 0, by
      rw [abs_of_nonneg (by positivity)]
      have : i + 1 < 2 ^ 53 := by omega
      exact_mod_cast this, by norm_num, by norm_num, by simp⟩
    have h1 : (1 + |cs.getD (i + 1) 0| * (i + 1)) ≤ 2 ^ 1020 := by
      refine le_trans ?_ hM
      have h2 := single_le_sum (f := fun i : ℕ => (1 + (i + 1) * |cs.getD (i + 1) 0|) * max 1 |x| ^ i) (s := range (n + 1))
        (fun j _ => by positivity) (mem_range.2 hi)
      refine le_trans ?_ h2
      have h3 : 1 ≤ max 1 |x| ^ i := one_le_pow₀ hM1
      have h4 : 0 ≤ 1 + (i + 1) * |cs.getD (i + 1) 0| := by positivity
      show _ ≤ (1 + (i + 1) * |cs.getD (i + 1) 0|) * max 1 |x| ^ i
      nlinarith
    have h2 := FNear.mul h (FNear.exact hD) (FNear.exact (getD_double64 hcs (i + 1))) (lt_overflow64 (by norm_num) (by
      rw [abs_of_nonneg (Nat.cast_nonneg (α := ℝ) (i + 1))]
      push_cast
      generalize (2 : ℝ) ^ 1020 = N at *
      linarith))
    rw [abs_of_nonneg (Nat.cast_nonneg (α := ℝ) (i + 1))] at h2
    push_cast at h2 ⊢
    simpa using h2
  have hv : hornerDerivativeI fl cs x = .ok (hornerFold fl (fun i => fmul fl (.num ((i + 1 : ℕ) : ℝ)) (.num (cs.getD (i + 1) 0))) x n
      (fmul fl (.num ((n + 1 : ℕ) : ℝ)) (.num (cs.getD (n + 1) 0)))) := by
    unfold hornerDerivativeI vAtInt
    simp only []
    rw [if_neg (by omega), show ((cs.length : Int) - 1).toNat = n + 1 by omega, vAt_getD (by omega), Res.ok_bind,
      show cs.length - 1 = n + 1 by omega, show cs.length - 2 = n by omega, hornerDerivativeLoopI_eq cs x (by omega)]
  have hk : 1 + 2 * n ≤ 2 ^ 52 := by omega
  have hN := hornerFold_near h hx (n := n) (fun i hi => hterm i (by omega)) (hterm n (by omega)) (lt_overflow64 hk (le_trans ?_ hM))
  · obtain ⟨v, e1, e2, e3⟩ := hN
    refine ⟨v, by rw [hv, e1], e2, ?_⟩
    have h1 := e3.err
    have h2 := gam_le_one hk
    have h3 := gam_nonneg (1 + 2 * n)
    rw [show 1 + 2 * n = 2 * n + 1 by omega] at h1 h2 h3
    rw [hn, show n + 2 - 1 = n + 1 by omega, show n + 2 - 2 = n by omega, sum_range_succ, sum_range_succ]
    rw [add_comm (∑ i ∈ range n, (i + 1 : ℝ) * cs.getD (i + 1) 0 * x ^ i), add_comm (∑ i ∈ range n, (i + 1 : ℝ) * |cs.getD (i + 1) 0| * |x| ^ i)]
    refine h1.trans ?_
    rw [← gam_def]
    have h4 : (1 + gam (2 * n + 1)) * (tiny * |x| ^ n + ∑ i ∈ range n, (tiny + tiny) * |x| ^ i) ≤ (2 : ℝ) ^ (-1073 : ℤ) * ∑ i ∈ range (n + 1), |x| ^ i := by
      have e : (2 : ℝ) ^ (-1073 : ℤ) = 4 * tiny := by
        unfold tiny
        rw [show (-1073 : ℤ) = 2 + (-1075) by norm_num, zpow_add₀ (by norm_num)]
        norm_num
      rw [e, ← mul_sum, sum_range_succ]
      have hS : 0 ≤ ∑ i ∈ range n, |x| ^ i := sum_nonneg fun i _ => by positivity
      have hxn : 0 ≤ |x| ^ n := by positivity
      have ht := tiny_pos
      have h5 : (1 + gam (2 * n + 1)) * (tiny * |x| ^ n + (tiny + tiny) * ∑ i ∈ range n, |x| ^ i) ≤
          2 * (tiny * |x| ^ n + (tiny + tiny) * ∑ i ∈ range n, |x| ^ i) := mul_le_mul_of_nonneg_right (by linarith only [h2])
            (add_nonneg (mul_nonneg ht.le hxn) (mul_nonneg (by linarith only [ht]) hS))
      have h6 := mul_nonneg ht.le hxn
      linarith only [h5, h6]
    push_cast at h4 ⊢
    linarith
  · rw [sum_range_succ]
    have h1 : ∑ i ∈ range n, ((i + 1) * |cs.getD (i + 1) 0| + tiny + tiny) * max 1 |x| ^ i
        ≤ ∑ i ∈ range n, (1 + (i + 1) * |cs.getD (i + 1) 0|) * max 1 |x| ^ i := by
      refine sum_le_sum fun i _ => mul_le_mul_of_nonneg_right ?_ (by positivity)
      have := tiny_le
      linarith
    have h2 : ((n + 1) * |cs.getD (n + 1) 0| + tiny) * max 1 |x| ^ n ≤ (1 + (n + 1) * |cs.getD (n + 1) 0|) * max 1 |x| ^ n :=
      mul_le_mul_of_nonneg_right (by linarith only [tiny_le_one]) (by positivity)
    linarith

/-- C176 is false near the largest number: `3 2^1022 (x + x^2)` at 1/2 is `9 2^1020`, a number of the format, and the result is infinite. -/
theorem C176_refuted (h : Ieee fl) : hornerI fl [0, 3 * 2 ^ 1022, 3 * 2 ^ 1022] (1 / 2) = .ok .pinf ∧
    (0 + (3 * 2 ^ 1022) * (1 / 2) + (3 * 2 ^ 1022) * (1 / 2) ^ 2 = (9 * 2 ^ 1020 : ℝ)) ∧ Double64 (9 * 2 ^ 1020) := by
  have e20 : (2 : ℝ) ^ 1022 = 4 * 2 ^ 1020 := by rw [show 1022 = 2 + 1020 by norm_num, pow_add]; norm_num
  have e21 : (2 : ℝ) ^ 1021 = 2 * 2 ^ 1020 := by rw [show 1021 = 1 + 1020 by norm_num, pow_add]; norm_num
  have e24 : (2 : ℝ) ^ 1024 = 16 * 2 ^ 1020 := by rw [show 1024 = 4 + 1020 by norm_num, pow_add]; norm_num
  have hD : ∀ m : ℤ, |m| < 8 → Double64 (m * (2 : ℝ) ^ 1021) := fun m hm => ⟨m * 2 ^ 50, 971, by
    rw [abs_mul]
    have : |(2 : ℤ) ^ 50| = 2 ^ 50 := by norm_num
    rw [this]
    omega, by norm_num, by norm_num, by
    rw [show (1021 : ℕ) = 50 + 971 by norm_num, pow_add, Int.cast_mul, Int.cast_pow, Int.cast_ofNat]
    rw [show ((2 : ℝ) ^ (971 : ℤ)) = 2 ^ 971 from zpow_natCast _ _]
    ring⟩
  have h1 : fmul fl (.num ((3 : ℝ) * 2 ^ 1022)) (.num (1 / 2)) = .num (3 * 2 ^ 1021) := by
    have : fmul fl (.num ((3 : ℝ) * 2 ^ 1022)) (.num (1 / 2)) = ofReal fl (3 * 2 ^ 1022 * (1 / 2)) := rfl
    rw [this, show (3 : ℝ) * 2 ^ 1022 * (1 / 2) = 3 * 2 ^ 1021 by rw [e20, e21]; ring]
    have h2 := ieee_double h (hD 3 (by norm_num))
    push_cast at h2
    exact ofReal_some h2
  have h2 : fadd fl (.num ((3 : ℝ) * 2 ^ 1021)) (.num (3 * 2 ^ 1022)) = .pinf := by
    have : fadd fl (.num ((3 : ℝ) * 2 ^ 1021)) (.num (3 * 2 ^ 1022)) = ofReal fl (3 * 2 ^ 1021 + 3 * 2 ^ 1022) := rfl
    rw [this]
    refine ofReal_pinf h ?_
    rw [e20, e21]
    unfold overflow64
    rw [e24]
    have hp : (0 : ℝ) < 2 ^ 970 := by positivity
    have hp' : (0 : ℝ) < 2 ^ 1020 := by positivity
    clear e20 e21 e24 this h1 hD
    generalize (2 : ℝ) ^ 970 = t at *
    generalize (2 : ℝ) ^ 1020 = s at *
    linarith
  refine ⟨?_, by rw [e20]; ring, ?_⟩
  · have hv : hornerI fl [0, 3 * 2 ^ 1022, 3 * 2 ^ 1022] (1 / 2) =
        .ok (fadd fl (fmul fl (fadd fl (fmul fl (.num ((3 : ℝ) * 2 ^ 1022)) (.num (1 / 2))) (.num (3 * 2 ^ 1022))) (.num (1 / 2))) (.num 0)) := rfl
    rw [hv, h1, h2]
    simp [fmul, fadd, Dbl.mul, Dbl.add, rounded]
  · refine ⟨9 * 2 ^ 49, 971, by norm_num, by norm_num, by norm_num, ?_⟩
    rw [show (1020 : ℕ) = 49 + 971 by norm_num, pow_add]
    push_cast
    rw [show ((2 : ℝ) ^ (971 : ℤ)) = 2 ^ 971 from zpow_natCast _ _]
    ring

/-- Non-vacuity: `1 - 3 x + 5 x^3` at 1/2 in the arithmetic of the hardware. -/
example : ∃ v, hornerI fl64 [1, -3, 0, 5] (1 / 2) = .ok (.num v) ∧ |v - 1 / 8| < 1 / 2 ^ 48 := by
  have hb : (2 : ℝ) ^ 10 ≤ 2 ^ 1020 := pow_le_pow_right₀ (by norm_num) (by norm_num)
  have hs : (2 : ℝ) ^ (-1074 : ℤ) ≤ (2 : ℝ) ^ (-60 : ℤ) := zpow_le_zpow_right₀ (by norm_num) (by norm_num)
  obtain ⟨v, hv, -, he⟩ := C176_horner_partial fl64_ieee (cs := [1, -3, 0, 5]) (by simp) (by simp)
    (by
      intro c hc
      simp only [List.mem_cons, List.not_mem_nil, or_false] at hc
      rcases hc with rfl | rfl | rfl | rfl
      · exact ⟨1, 0, by norm_num, by norm_num, by norm_num, by norm_num⟩
      · exact ⟨-3, 0, by norm_num, by norm_num, by norm_num, by norm_num⟩
      · exact double64_zero
      · exact ⟨5, 0, by norm_num, by norm_num, by norm_num, by norm_num⟩)
    (x := 1 / 2) ⟨1, -1, by norm_num, by norm_num, by norm_num, by norm_num⟩
    (by
      refine le_trans ?_ hb
      clear hb hs
      simp [sum_range_succ, abs_of_pos]
      norm_num)
  refine ⟨v, hv, ?_⟩
  clear hb
  generalize (2 : ℝ) ^ (-1074 : ℤ) = t at *
  simp [sum_range_succ] at he
  norm_num at he hs ⊢
  linarith

/-! ## C177 -/

theorem sumI_near (h : Ieee fl) {hi : ℕ} (hle : 1 ≤ hi) (k : ℕ) {a : ℝ} {g : ℕ → Dbl ℝ} {w q : ℕ → ℝ} (hg : ∀ i, 1 ≤ i → i < hi → FNear k a (q i) (w i) (g i))
    (S : ℕ → Dbl ℝ) (h1 : S 1 = .num 0) (hS : ∀ i, 1 ≤ i → i < hi → S (i + 1) = fadd fl (S i) (g i))
    (ho : (1 + gam (k + (hi - 1))) * ∑ i ∈ Ico 1 hi, (q i + a) < overflow64) :
    FNear (k + (hi - 1)) (∑ _i ∈ Ico 1 hi, a) (∑ i ∈ Ico 1 hi, q i) (∑ i ∈ Ico 1 hi, w i) (S hi) := by
  induction hi, hle using Nat.le_induction with
  | base =>
    rw [h1]
    exact ⟨0, rfl, double64_zero, ⟨by simp, by simp, by simp⟩⟩
  | succ n hn ih =>
    have hp : ∀ i, 1 ≤ i → i < n + 1 → 0 ≤ q i + a := by
      intro i h1 h2
      obtain ⟨r, -, -, h3⟩ := hg i h1 h2
      exact add_nonneg h3.nonneg h3.pos
    have hs : 0 ≤ ∑ i ∈ Ico 1 n, (q i + a) := sum_nonneg fun i hi => hp i (mem_Ico.1 hi).1 (by have := (mem_Ico.1 hi).2; omega)
    have hg1 := gam_mono (show k + (n - 1) ≤ k + (n + 1 - 1) by omega)
    have hg0 := gam_nonneg (k + (n - 1))
    have hpn := hp n hn (by omega)
    rw [sum_Ico_succ_top hn] at ho
    have h2 := ih (fun i a b => hg i a (by omega)) (fun i a b => hS i a (by omega))
      (lt_of_le_of_lt (mul_le_mul (by linarith) (by linarith) hs (by linarith)) ho)
    have h3 := FNear.add h h2 ((hg n hn (by omega)).upto (l := k + (n - 1)) (by omega)) (by
      refine lt_of_le_of_lt (mul_le_mul (show 1 + gam (k + (n - 1)) ≤ 1 + gam (k + (n + 1 - 1)) by linarith) (le_of_eq ?_) ?_ (by linarith)) ho
      · rw [sum_add_distrib]
      · rw [sum_add_distrib] at hs
        linarith)
    rw [sum_Ico_succ_top hn, sum_Ico_succ_top hn, sum_Ico_succ_top hn, hS n hn (by omega)]
    exact h3.upto (by omega)

theorem two_tiny : (2 : ℝ) ^ (-1074 : ℤ) = 2 * tiny := by
  unfold tiny
  rw [show (-1074 : ℤ) = 1 + (-1075) by norm_num, zpow_add₀ (by norm_num)]
  norm_num

theorem double64_half : Double64 (1 / 2) := ⟨1, -1, by norm_num, by norm_num, by norm_num, by norm_num⟩

/-- C177, what holds for `Trapz(y, dx)`: when the sums are not too large, the result is finite, and within `(1+u)^(N+2) - 1` times the trapezoidal sum of the
magnitudes and some smallest numbers of the trapezoidal sum. Missing: sums near the largest number. -/
theorem C177_uniform_partial (h : Ieee fl) {y : List ℝ} (h2 : 2 ≤ y.length) (hlen : y.length ≤ 2 ^ 51) (hy : ∀ v ∈ y, Double64 v) {dx : ℝ} (hdx : Double64 dx)
    (hM : (1 + |dx|) * (1 + ∑ i ∈ range y.length, |y.getD i 0|) ≤ 2 ^ 1020) :
    ∃ v w, trapzUniformI fl y dx = .ok (.num v) ∧ Double64 v ∧ trapzUniform y dx = .ok w ∧
      |v - w| ≤ ((1 + 1 / 2 ^ 53) ^ (y.length + 2) - 1) * panels (y.length - 1) (fun i => i * |dx|) (fun i => |y.getD i 0|)
        + (2 : ℝ) ^ (-1074 : ℤ) * (1 + |dx|) := by
  obtain ⟨n, hn⟩ : ∃ n, y.length = n + 2 := ⟨y.length - 2, by omega⟩
  have h64 : y.length < 2 ^ 64 := by omega
  let S : ℕ → Dbl ℝ := fun k => Nat.rec (motive := fun _ => Dbl ℝ) (.num 0) (fun j s => fadd fl s (.num (y.getD (j + 1) 0))) (k - 1)
  have hS : ∀ i, 1 ≤ i → i < n + 1 → S (i + 1) = fadd fl (S i) (.num (y.getD i 0)) := by
    intro i h1 _
    obtain ⟨j, rfl⟩ : ∃ j, i = j + 1 := ⟨i - 1, by omega⟩
    rfl
  have hloop : forRange 1 (n + 1) (fun i sum => do
      let yi ← vIdx y i
      return fadd fl sum (.num yi)) (.num 0) = .ok (S (n + 1)) :=
    forRange_ok (lo := 1) (hi := n + 1) (by omega) S (by
      intro i h1 h2
      rw [vIdx_getD (by omega), hS i h1 h2]
      rfl)
  have hval : trapzUniformI fl y dx = .ok (fmul fl (.num dx) (fadd fl (S (n + 1)) (fmul fl (.num (1 / 2)) (fadd fl (.num (y.getD 0 0)) (.num (y.getD (n + 1) 0)))))) := by
    unfold trapzUniformI
    simp only [usub_of_le (w := 64) (show 1 ≤ y.length by omega) h64]
    simp only [hn, show n + 2 - 1 = n + 1 by omega]
    rw [hloop, Res.ok_bind, vIdx_getD (by omega), Res.ok_bind, vIdx_getD (by omega), Res.ok_bind, Res.pure_eq]
  -- the sizes
  have hsplit : ∑ i ∈ range y.length, |y.getD i 0| = ∑ i ∈ Ico 1 (n + 1), |y.getD i 0| + (|y.getD 0 0| + |y.getD (n + 1) 0|) := by
    rw [hn, sum_range_succ, range_eq_Ico, sum_eq_sum_Ico_succ_bot (by omega)]
    ring
  rw [hsplit] at hM
  have hT : 0 ≤ ∑ i ∈ Ico 1 (n + 1), |y.getD i 0| := sum_nonneg fun i _ => abs_nonneg _
  have hE : 0 ≤ |y.getD 0 0| + |y.getD (n + 1) 0| := by positivity
  have hdx0 := abs_nonneg dx
  have ht0 := tiny_pos
  have ht1 := tiny_le_one
  have hsum := sumI_near h (hi := n + 1) (by omega) 0 (a := 0) (g := fun i => .num (y.getD i 0)) (w := fun i => y.getD i 0) (q := fun i => |y.getD i 0|)
    (fun i _ _ => FNear.exact (getD_double64 hy i)) S rfl hS (lt_overflow64 (by omega) (by
      simp only [add_zero]
      generalize (2 : ℝ) ^ 1020 = N at *
      nlinarith))
  have hends := FNear.mul h (FNear.exact double64_half) (FNear.add h (FNear.exact (getD_double64 hy 0)) (FNear.exact (getD_double64 hy (n + 1)))
    (lt_overflow64 (by norm_num) (by
      generalize (2 : ℝ) ^ 1020 = N at *
      nlinarith))) (lt_overflow64 (by norm_num) (by
      rw [abs_half]
      generalize (2 : ℝ) ^ 1020 = N at *
      nlinarith))
  rw [abs_half] at hends
  simp only [sum_const_zero, add_zero, mul_zero, zero_mul, zero_add] at hsum hends
  have hadd := FNear.add h (hsum.upto (show _ ≤ n + 2 by omega)) (hends.upto (show _ ≤ n + 2 by omega)) (lt_overflow64 (by omega) (by
    simp only [add_zero]
    generalize (2 : ℝ) ^ 1020 = N at *
    nlinarith))
  have htot := FNear.mul h (FNear.exact hdx) hadd (lt_overflow64 (by omega) (by
    simp only [add_zero, zero_add]
    generalize (2 : ℝ) ^ 1020 = N at *
    generalize (∑ i ∈ Ico 1 (n + 1), |y.getD i 0|) = T at *
    generalize |y.getD 0 0| + |y.getD (n + 1) 0| = E at *
    refine le_trans ?_ hM
    have h5 : T + 1 / 2 * E + tiny ≤ 1 + (T + E) := by linarith
    exact mul_le_mul (by linarith) h5 (by positivity) (by linarith)))
  obtain ⟨v, e1, e2, e3⟩ := htot
  refine ⟨v, _, by rw [hval, e1], e2, trapzUniform_ok h2 h64 dx, ?_⟩
  rw [hn, show n + 2 - 1 = n + 1 by omega, panels_uniform n _ _ dx (fun i _ => by push_cast; ring),
    panels_uniform n _ _ |dx| (fun i _ => by push_cast; ring)]
  have h1 := e3.err
  rw [show 0 + (n + 2 + 1) + 1 = n + 2 + 2 by omega] at h1
  refine h1.trans ?_
  rw [← gam_def, two_tiny]
  simp only [zero_mul, zero_add]
  have h3 := gam_le_one (k := n + 2 + 2) (by omega)
  have h4 : (1 + gam (n + 2 + 2)) * (|dx| * tiny + tiny) ≤ 2 * (|dx| * tiny + tiny) := mul_le_mul_of_nonneg_right (by linarith only [h3])
    (add_nonneg (mul_nonneg hdx0 ht0.le) ht0.le)
  linarith only [h4]

theorem fsub_near (h : Ieee fl) {a b : ℝ} (ha : Double64 a) (hb : Double64 b) (ho : |a - b| < overflow64) :
    FNear 1 0 |a - b| (a - b) (fsub fl (.num a) (.num b)) := by
  obtain ⟨ε, e1, e2, e3⟩ := fsub_ok h ha hb ho
  refine ⟨_, e3, e2, ?_⟩
  have := (NearA.exact (a - b)).round e1 (η := 0) (t := 0) (by simp)
  rwa [add_zero, add_zero] at this

theorem many_tiny {n : ℕ} (hn : n ≤ 2 ^ 51) : n * tiny ≤ 1 / 8 := by
  have h1 : (n : ℝ) ≤ 2 ^ 51 := by exact_mod_cast hn
  have h2 : tiny ≤ (2 : ℝ) ^ (-54 : ℤ) := zpow_le_zpow_right₀ (by norm_num) (by norm_num)
  have h3 := tiny_pos
  calc n * tiny ≤ 2 ^ 51 * (2 : ℝ) ^ (-54 : ℤ) := mul_le_mul h1 h2 h3.le (by norm_num)
    _ = 1 / 8 := by norm_num

/-- C177, what holds for `Trapz(x, y)`. Missing: sums near the largest number. -/
theorem C177_general_partial (h : Ieee fl) (B : Build) {x y : List ℝ} (h2 : 2 ≤ y.length) (hlen : y.length ≤ 2 ^ 51) (hl : x.length = y.length)
    (hx : ∀ v ∈ x, Double64 v) (hy : ∀ v ∈ y, Double64 v)
    (hM : (1 + ∑ i ∈ range (y.length - 1), |x.getD (i + 1) 0 - x.getD i 0|) * (1 + ∑ i ∈ range y.length, |y.getD i 0|) ≤ 2 ^ 1018) :
    ∃ v w, trapzI fl B x y = .ok (.num v) ∧ Double64 v ∧ trapz B x y = .ok w ∧
      |v - w| ≤ ((1 + 1 / 2 ^ 53) ^ (y.length + 5) - 1)
        * ∑ i ∈ range (y.length - 1), |x.getD (i + 1) 0 - x.getD i 0| * (|y.getD i 0| + |y.getD (i + 1) 0|) / 2
        + (2 : ℝ) ^ (-1074 : ℤ) * y.length := by
  obtain ⟨n, hn⟩ : ∃ n, y.length = n + 2 := ⟨y.length - 2, by omega⟩
  have h64 : y.length < 2 ^ 64 := by omega
  let d : ℕ → Dbl ℝ := fun i => fsub fl (.num (x.getD (i + 1) 0)) (.num (x.getD i 0))
  let D : ℕ → ℝ := fun i => |x.getD (i + 1) 0 - x.getD i 0|
  let g : ℕ → Dbl ℝ := fun i => fmul fl (.num (y.getD i 0)) (fadd fl (d (i - 1)) (d i))
  let S : ℕ → Dbl ℝ := fun k => Nat.rec (motive := fun _ => Dbl ℝ) (.num 0) (fun j s => fadd fl s (g (j + 1))) (k - 1)
  have hS : ∀ i, 1 ≤ i → i < n + 1 → S (i + 1) = fadd fl (S i) (g i) := by
    intro i h1 _
    obtain ⟨j, rfl⟩ : ∃ j, i = j + 1 := ⟨i - 1, by omega⟩
    rfl
  have hb := forRange_ok (lo := 1) (hi := n + 1) (by omega) (f := fun i (s : Dbl ℝ × Dbl ℝ) => do
    let dxi := s.2
    let a ← vIdx x (i + 1)
    let b ← vIdx x i
    let dxii := fsub fl (.num a) (.num b)
    let yi ← vIdx y i
    return (fadd fl s.1 (fmul fl (.num yi) (fadd fl dxi dxii)), dxii))
    (fun k => (S k, d (k - 1)))
    (by
      intro i h1 h2
      simp only [vIdx_getD (show i + 1 < x.length by omega), vIdx_getD (show i < x.length by omega), vIdx_getD (show i < y.length by omega),
        Res.ok_bind, Res.pure_eq, hS i h1 h2]
      rfl)
  have hval : trapzI fl B x y = .ok (fmul fl (.num (1 / 2)) (fadd fl (fadd fl (S (n + 1)) (fmul fl (.num (y.getD 0 0)) (d 0)))
      (fmul fl (.num (y.getD (n + 1) 0)) (d n)))) := by
    unfold trapzI
    simp only [usub_of_le (w := 64) (show 1 ≤ y.length by omega) h64, usub_of_le (w := 64) (show 2 ≤ y.length by omega) h64]
    rw [cassert_true B _ (by omega), Res.ok_bind, cassert_true B _ hl, Res.ok_bind]
    simp only [hn, show n + 2 - 1 = n + 1 by omega, show n + 2 - 2 = n by omega]
    rw [vIdx_getD (by omega), Res.ok_bind, vIdx_getD (by omega), Res.ok_bind, vIdx_getD (by omega), Res.ok_bind, vIdx_getD (by omega),
      Res.ok_bind]
    have hb' : forRange 1 (n + 1) (fun i (s : Dbl ℝ × Dbl ℝ) => do
      let dxi := s.2
      let a ← vIdx x (i + 1)
      let b ← vIdx x i
      let dxii := fsub fl (.num a) (.num b)
      let yi ← vIdx y i
      return (fadd fl s.1 (fmul fl (.num yi) (fadd fl dxi dxii)), dxii)) (.num 0, fsub fl (.num (x.getD 1 0)) (.num (x.getD 0 0))) = .ok (S (n + 1), d n) := hb
    rw [hb', Res.ok_bind, vIdx_getD (by omega), Res.ok_bind, vIdx_getD (by omega), Res.ok_bind, Res.pure_eq]
  -- the sizes
  have hD0 : ∀ i, 0 ≤ D i := fun i => abs_nonneg _
  have hY0 : ∀ i, 0 ≤ |y.getD i 0| := fun i => abs_nonneg _
  have hL0 : 0 ≤ ∑ i ∈ range (n + 1), D i := sum_nonneg fun i _ => hD0 i
  have hT0 : 0 ≤ ∑ i ∈ range (n + 2), |y.getD i 0| := sum_nonneg fun i _ => hY0 i
  have hDL : ∀ i, i < n + 1 → D i ≤ ∑ i ∈ range (n + 1), D i := fun i hi => single_le_sum (fun j _ => hD0 j) (mem_range.2 hi)
  have hYT : ∀ i, i < n + 2 → |y.getD i 0| ≤ ∑ i ∈ range (n + 2), |y.getD i 0| := fun i hi =>
    single_le_sum (f := fun i => |y.getD i 0|) (fun j _ => hY0 j) (mem_range.2 hi)
  have hM' : (1 + ∑ i ∈ range (n + 1), D i) * (1 + ∑ i ∈ range (n + 2), |y.getD i 0|) ≤ 2 ^ 1018 := by
    rw [hn, show n + 2 - 1 = n + 1 by omega] at hM
    exact hM
  have hsplit : ∑ i ∈ range (n + 2), |y.getD i 0| = ∑ i ∈ Ico 1 (n + 1), |y.getD i 0| + (|y.getD 0 0| + |y.getD (n + 1) 0|) := by
    rw [sum_range_succ, range_eq_Ico, sum_eq_sum_Ico_succ_bot (by omega)]
    ring
  have hI0 : 0 ≤ ∑ i ∈ Ico 1 (n + 1), |y.getD i 0| := sum_nonneg fun i _ => hY0 i
  have hp20 : (2 : ℝ) ^ 1020 = 4 * 2 ^ 1018 := by rw [show 1020 = 2 + 1018 by norm_num, pow_add]; norm_num
  have ht0 := tiny_pos
  have ht1 := tiny_le
  have htn := many_tiny (n := n) (by omega)
  clear hM
  generalize hLdef : ∑ i ∈ range (n + 1), D i = L at *
  generalize hTdef : ∑ i ∈ range (n + 2), |y.getD i 0| = T at *
  have hlt : ∀ {k : ℕ} {Z : ℝ}, k ≤ 2 ^ 52 → Z ≤ 4 * ((1 + L) * (1 + T)) → (1 + gam k) * Z < overflow64 := by
    intro k Z hk hZ
    refine lt_overflow64 hk ?_
    rw [hp20]
    clear hp20
    generalize (2 : ℝ) ^ 1018 = N at *
    linarith
  clear hM' hp20
  have hd : ∀ i, i < n + 1 → FNear 1 0 (D i) (x.getD (i + 1) 0 - x.getD i 0) (d i) := fun i hi =>
    fsub_near h (getD_double64 hx _) (getD_double64 hx _) (by
      have h1 := hlt (k := 0) (Z := D i) (by norm_num) (by have := hDL i hi; nlinarith)
      rw [gam_zero, add_zero, one_mul] at h1
      exact h1)
  have hg : ∀ i, 1 ≤ i → i < n + 1 → FNear 3 tiny (|y.getD i 0| * (D (i - 1) + D i))
      (y.getD i 0 * ((x.getD i 0 - x.getD (i - 1) 0) + (x.getD (i + 1) 0 - x.getD i 0))) (g i) := by
    intro i h1 h2
    have e1 := hDL i h2
    have e2 := hDL (i - 1) (by omega)
    have e3 := hYT i (by omega)
    have e4 := hD0 i
    have e5 := hD0 (i - 1)
    have e6 := hY0 i
    have hs := FNear.add h (hd (i - 1) (by omega)) (hd i h2) (hlt (by norm_num) (by nlinarith))
    have hm := FNear.mul h (FNear.exact (getD_double64 hy i)) hs (hlt (by norm_num) (by
      simp only [add_zero]
      have : |y.getD i 0| * (D (i - 1) + D i) ≤ T * (L + L) := mul_le_mul e3 (by linarith) (by linarith) hT0
      nlinarith))
    rw [show i - 1 + 1 = i by omega] at hm
    simp only [mul_zero, zero_mul, zero_add, add_zero] at hm
    exact hm
  have hq : ∑ i ∈ Ico 1 (n + 1), (|y.getD i 0| * (D (i - 1) + D i)) ≤ (T - (|y.getD 0 0| + |y.getD (n + 1) 0|)) * (2 * L) := by
    rw [hsplit, add_sub_cancel_right, sum_mul]
    refine sum_le_sum fun i hi => mul_le_mul_of_nonneg_left ?_ (hY0 i)
    have hi := mem_Ico.1 hi
    have := hDL i hi.2
    have := hDL (i - 1) (by omega)
    linarith
  have hqt : ∑ i ∈ Ico 1 (n + 1), (|y.getD i 0| * (D (i - 1) + D i) + tiny)
      = ∑ i ∈ Ico 1 (n + 1), (|y.getD i 0| * (D (i - 1) + D i)) + n * tiny := by
    rw [sum_add_distrib, sum_const, Nat.card_Ico, nsmul_eq_mul, Nat.add_sub_cancel]
  have hct : ∑ _i ∈ Ico 1 (n + 1), tiny = n * tiny := by rw [sum_const, Nat.card_Ico, nsmul_eq_mul, Nat.add_sub_cancel]
  have hn0 : 0 ≤ n * tiny := mul_nonneg (Nat.cast_nonneg n) ht0.le
  have hy0 := hY0 0
  have hyn := hY0 (n + 1)
  have hyT : |y.getD 0 0| + |y.getD (n + 1) 0| ≤ T := by linarith
  have hd0 := hD0 0
  have hdn := hD0 n
  have hdL0 := hDL 0 (by omega)
  have hdLn := hDL n (by omega)
  have hLT : 0 ≤ L * T := mul_nonneg hL0 hT0
  have hm0 : |y.getD 0 0| * D 0 ≤ |y.getD 0 0| * L := mul_le_mul_of_nonneg_left hdL0 hy0
  have hmn : |y.getD (n + 1) 0| * D n ≤ |y.getD (n + 1) 0| * L := mul_le_mul_of_nonneg_left hdLn hyn
  have hyTL : (|y.getD 0 0| + |y.getD (n + 1) 0|) * L ≤ T * L := mul_le_mul_of_nonneg_right hyT hL0
  have hy0L : 0 ≤ |y.getD 0 0| * L := mul_nonneg hy0 hL0
  have hynL : 0 ≤ |y.getD (n + 1) 0| * L := mul_nonneg hyn hL0
  have hq0 : 0 ≤ ∑ i ∈ Ico 1 (n + 1), (|y.getD i 0| * (D (i - 1) + D i)) :=
    sum_nonneg fun i _ => mul_nonneg (hY0 i) (add_nonneg (hD0 _) (hD0 _))
  have hsum := sumI_near h (hi := n + 1) (by omega) 3 hg S rfl hS (hlt (by omega) (by
    rw [hqt]
    nlinarith only [hq, htn, hLT, hL0, hT0, hy0L, hynL]))
  rw [hct] at hsum
  generalize hQdef : ∑ i ∈ Ico 1 (n + 1), (|y.getD i 0| * (D (i - 1) + D i)) = Q at *
  have h0 := FNear.mul h (FNear.exact (getD_double64 hy 0)) (hd 0 (by omega)) (hlt (by norm_num) (by
    simp only [add_zero]
    nlinarith only [hm0, hyTL, hynL, hLT, hL0, hT0]))
  have h1 := FNear.mul h (FNear.exact (getD_double64 hy (n + 1))) (hd n (by omega)) (hlt (by norm_num) (by
    simp only [add_zero]
    nlinarith only [hmn, hyTL, hy0L, hLT, hL0, hT0]))
  simp only [mul_zero, zero_mul, zero_add, add_zero] at h0 h1
  have hA := FNear.add h (hsum.upto (show _ ≤ n + 3 by omega)) (h0.upto (show _ ≤ n + 3 by omega)) (hlt (by omega) (by
    nlinarith only [hm0, hq, htn, ht1, hLT, hL0, hT0, hy0L, hynL]))
  have hB := FNear.add h hA (h1.upto (show _ ≤ n + 3 + 1 by omega)) (hlt (by omega) (by
    nlinarith only [hm0, hmn, hq, htn, ht1, hLT, hL0, hT0, hy0L, hynL]))
  have htot := FNear.mul h (FNear.exact double64_half) hB (hlt (by omega) (by
    rw [abs_half]
    nlinarith only [hm0, hmn, hq, htn, ht1, hLT, hL0, hT0, hy0L, hynL]))
  rw [abs_half] at htot
  obtain ⟨v, e1, e2, e3⟩ := htot
  refine ⟨v, _, by rw [hval, e1], e2, trapz_ok B h2 h64 hl, ?_⟩
  have hQ : ∑ i ∈ range (n + 1), D i * (|y.getD i 0| + |y.getD (i + 1) 0|) / 2
      = panels (n + 1) (fun k => ∑ j ∈ range k, D j) (fun i => |y.getD i 0|) := by
    unfold panels
    refine sum_congr rfl fun i _ => ?_
    simp only []
    rw [sum_range_succ, add_sub_cancel_left]
  rw [hn, show n + 2 - 1 = n + 1 by omega]
  show _ ≤ _ * ∑ i ∈ range (n + 1), D i * (|y.getD i 0| + |y.getD (i + 1) 0|) / 2 + _
  rw [hQ, panels_general, panels_general]
  have hnn := e3.nonneg
  have hpos := e3.pos
  refine e3.err.trans (add_le_add ?_ ?_)
  · rw [← gam_def]
    refine mul_le_mul (gam_mono (by omega)) (le_of_eq ?_) hnn (gam_nonneg _)
    rw [← hQdef]
    congr 1
    congr 1
    · congr 1
      · refine sum_congr rfl fun i hi => ?_
        obtain ⟨j, rfl⟩ : ∃ j, i = j + 1 := ⟨i - 1, by have := (mem_Ico.1 hi).1; omega⟩
        simp only [show j + 1 - 1 = j by omega]
        rw [sum_range_succ (fun j => D j) (j + 1), sum_range_succ (fun j => D j) j]
        ring
      · simp
    · rw [sum_range_succ (fun j => D j) n]
      ring
  · have h3 := gam_le_one (k := 0 + (n + 3 + 1 + 1) + 1) (by omega)
    rw [two_tiny]
    have h5 := mul_le_mul_of_nonneg_right (show 1 + gam (0 + (n + 3 + 1 + 1) + 1) ≤ 2 by linarith only [h3]) hpos
    refine h5.trans ?_
    push_cast
    nlinarith only [hn0, ht0]

/-- C177 is false near the largest number: two samples of `3 2^1022`. The areas are `3 2^1020` and `3 2^1022`, and the results are infinite, since the samples
are added first. -/
theorem C177_refuted (h : Ieee fl) (B : Build) :
    trapzUniformI fl [3 * 2 ^ 1022, 3 * 2 ^ 1022] (1 / 4) = .ok .pinf ∧
    trapzUniform ([3 * 2 ^ 1022, 3 * 2 ^ 1022] : List ℝ) (1 / 4) = .ok (3 * 2 ^ 1020) ∧
    trapzI fl B [0, 1] [3 * 2 ^ 1022, 3 * 2 ^ 1022] = .ok .pinf ∧
    trapz B [0, 1] ([3 * 2 ^ 1022, 3 * 2 ^ 1022] : List ℝ) = .ok (3 * 2 ^ 1022) := by
  have e20 : (2 : ℝ) ^ 1022 = 4 * 2 ^ 1020 := by rw [show 1022 = 2 + 1020 by norm_num, pow_add]; norm_num
  have hD : Double64 ((3 : ℝ) * 2 ^ 1022) := ⟨3 * 2 ^ 51, 971, by norm_num, by norm_num, by norm_num, by
    rw [show (1022 : ℕ) = 51 + 971 by norm_num, pow_add, Int.cast_mul, Int.cast_pow, Int.cast_ofNat, Int.cast_ofNat]
    rw [show ((2 : ℝ) ^ (971 : ℤ)) = 2 ^ 971 from zpow_natCast _ _]
    ring⟩
  have hadd : fadd fl (.num ((3 : ℝ) * 2 ^ 1022)) (.num (3 * 2 ^ 1022)) = .pinf := by
    have : fadd fl (.num ((3 : ℝ) * 2 ^ 1022)) (.num (3 * 2 ^ 1022)) = ofReal fl (3 * 2 ^ 1022 + 3 * 2 ^ 1022) := rfl
    rw [this]
    refine ofReal_pinf h ?_
    have e24 : (2 : ℝ) ^ 1024 = 4 * 2 ^ 1022 := by rw [show 1024 = 2 + 1022 by norm_num, pow_add]; norm_num
    unfold overflow64
    rw [e24]
    have hp : (0 : ℝ) < 2 ^ 970 := by positivity
    have hp' : (0 : ℝ) < 2 ^ 1022 := by positivity
    clear e20 e24 this hD
    generalize (2 : ℝ) ^ 970 = t at *
    generalize (2 : ℝ) ^ 1022 = s at *
    linarith
  have hsub : fsub fl (.num (1 : ℝ)) (.num 0) = .num 1 := by
    have : fsub fl (.num (1 : ℝ)) (.num 0) = ofReal fl (1 + -0) := rfl
    rw [this, neg_zero, add_zero]
    exact ofReal_some (ieee_double h ⟨1, 0, by norm_num, by norm_num, by norm_num, by norm_num⟩)
  have hmul : fmul fl (.num ((3 : ℝ) * 2 ^ 1022)) (.num 1) = .num (3 * 2 ^ 1022) := by
    have : fmul fl (.num ((3 : ℝ) * 2 ^ 1022)) (.num 1) = ofReal fl (3 * 2 ^ 1022 * 1) := rfl
    rw [this, mul_one]
    exact ofReal_some (ieee_double h hD)
  have hzero : fadd fl (.num 0) (.num ((3 : ℝ) * 2 ^ 1022)) = .num (3 * 2 ^ 1022) := by
    have : fadd fl (.num 0) (.num ((3 : ℝ) * 2 ^ 1022)) = ofReal fl (0 + 3 * 2 ^ 1022) := rfl
    rw [this, zero_add]
    exact ofReal_some (ieee_double h hD)
  refine ⟨?_, ?_, ?_, ?_⟩
  · have hv : trapzUniformI fl [3 * 2 ^ 1022, 3 * 2 ^ 1022] (1 / 4) = .ok (fmul fl (.num (1 / 4)) (fadd fl (.num 0) (fmul fl (.num (1 / 2))
        (fadd fl (.num ((3 : ℝ) * 2 ^ 1022)) (.num (3 * 2 ^ 1022)))))) := rfl
    rw [hv, hadd]
    simp [fmul, fadd, Dbl.mul, Dbl.add, rounded]
  · rw [trapzUniform_ok (by simp) (by simp)]
    congr 1
    rw [e20]
    clear e20 hD hadd hmul hzero
    generalize (2 : ℝ) ^ 1020 = s at *
    simp [panels]
    ring
  · have hv : trapzI fl B [0, 1] [3 * 2 ^ 1022, 3 * 2 ^ 1022] = .ok (fmul fl (.num (1 / 2)) (fadd fl (fadd fl (.num 0)
        (fmul fl (.num ((3 : ℝ) * 2 ^ 1022)) (fsub fl (.num 1) (.num 0)))) (fmul fl (.num (3 * 2 ^ 1022)) (fsub fl (.num 1) (.num 0))))) := by
      cases B with | mk b => cases b <;> rfl
    rw [hv, hsub, hmul, hzero, hadd]
    simp [fmul, Dbl.mul, rounded]
  · rw [trapz_ok B (by simp) (by simp) (by simp)]
    congr 1
    clear e20 hD hadd hmul hzero
    generalize (2 : ℝ) ^ 1022 = s at *
    simp [panels]

/-- Non-vacuity: three samples in the arithmetic of the hardware. -/
example : (∃ v w, trapzUniformI fl64 [1, 2, 4] (1 / 2) = .ok (.num v) ∧ trapzUniform ([1, 2, 4] : List ℝ) (1 / 2) = .ok w ∧ |v - w| ≤ 1 / 2 ^ 48) ∧
    ∃ v w, trapzI fl64 ⟨true⟩ [0, 1, 3] [1, 2, 4] = .ok (.num v) ∧ trapz ⟨true⟩ ([0, 1, 3] : List ℝ) [1, 2, 4] = .ok w ∧ |v - w| ≤ 1 / 2 ^ 44 := by
  have hb : (2 : ℝ) ^ 10 ≤ 2 ^ 1018 := pow_le_pow_right₀ (by norm_num) (by norm_num)
  have hb' : (2 : ℝ) ^ 10 ≤ 2 ^ 1020 := pow_le_pow_right₀ (by norm_num) (by norm_num)
  have hs : (2 : ℝ) ^ (-1074 : ℤ) ≤ (2 : ℝ) ^ (-60 : ℤ) := zpow_le_zpow_right₀ (by norm_num) (by norm_num)
  have hI : ∀ m : ℤ, |m| < 2 ^ 53 → Double64 (m : ℝ) := fun m hm => ⟨m, 0, hm, by norm_num, by norm_num, by simp⟩
  have hy : ∀ v ∈ ([1, 2, 4] : List ℝ), Double64 v := by
    intro c hc
    simp only [List.mem_cons, List.not_mem_nil, or_false] at hc
    rcases hc with rfl | rfl | rfl
    · exact_mod_cast hI 1 (by norm_num)
    · exact_mod_cast hI 2 (by norm_num)
    · exact_mod_cast hI 4 (by norm_num)
  have hx : ∀ v ∈ ([0, 1, 3] : List ℝ), Double64 v := by
    intro c hc
    simp only [List.mem_cons, List.not_mem_nil, or_false] at hc
    rcases hc with rfl | rfl | rfl
    · exact double64_zero
    · exact_mod_cast hI 1 (by norm_num)
    · exact_mod_cast hI 3 (by norm_num)
  constructor
  · obtain ⟨v, w, h1, -, h2, h3⟩ := C177_uniform_partial fl64_ieee (y := [1, 2, 4]) (by simp) (by simp) hy (dx := 1 / 2) double64_half (by
      refine le_trans ?_ hb'
      clear hb hb' hs
      simp [sum_range_succ, abs_of_pos]
      norm_num)
    refine ⟨v, w, h1, h2, h3.trans ?_⟩
    clear h3 hb hb'
    generalize (2 : ℝ) ^ (-1074 : ℤ) = t at *
    norm_num at hs
    simp [panels, sum_range_succ]
    norm_num [abs_of_pos]
    linarith
  · obtain ⟨v, w, h1, -, h2, h3⟩ := C177_general_partial fl64_ieee ⟨true⟩ (x := [0, 1, 3]) (y := [1, 2, 4]) (by simp) (by simp) rfl hx hy (by
      refine le_trans ?_ hb
      clear hb hb' hs
      simp [sum_range_succ, abs_of_pos]
      norm_num)
    refine ⟨v, w, h1, h2, h3.trans ?_⟩
    clear h3 hb hb'
    generalize (2 : ℝ) ^ (-1074 : ℤ) = t at *
    norm_num at hs
    simp [sum_range_succ]
    norm_num [abs_of_pos]
    linarith

end MU
