import Verif.Model.IeeeVectors
import Verif.Props.Ieee
import Verif.Props.RoundedVectors

/-!
# C172: normalised vectors in binary64
-/

set_option linter.unusedSectionVars false

namespace MU

open Spec Dbl

namespace Spec

/-- `sum3` adds three numbers in one of the three possible orders with the sum `add` of two numbers. -/
def AnyOrderI (add : Dbl ℝ → Dbl ℝ → Dbl ℝ) (sum3 : Dbl ℝ → Dbl ℝ → Dbl ℝ → Dbl ℝ) : Prop :=
  ∀ a b c, sum3 a b c = add (add a b) c ∨ sum3 a b c = add a (add b c) ∨ sum3 a b c = add (add a c) b

end Spec

variable {fl : ℝ → Option ℝ} {sum3 : Dbl ℝ → Dbl ℝ → Dbl ℝ → Dbl ℝ}

/-- The sum of three finite numbers in one order. -/
theorem sum3_one (h : Ieee fl) {a b c : ℝ} (ha : Double64 a) (hb : Double64 b) (hc : Double64 c)
    {M : ℝ} (hbig : 15 * M < overflow64) (ho : |a| + |b| + |c| ≤ M) : ∃ z, Double64 z ∧ fadd fl (fadd fl (num a) (num b)) (num c) = num z ∧
      |z - (a + b + c)| ≤ (2 * uround + uround ^ 2) * (|a| + |b| + |c|) := by
  have hu0 := uround_pos
  have hu1 : uround ≤ 1 / 1000 := by unfold uround; norm_num
  have h1 := abs_add_le a b
  have A := abs_nonneg a
  have B := abs_nonneg b
  have C := abs_nonneg c
  obtain ⟨e1, he1, D1, q1⟩ := fadd_ok h ha hb (by linarith)
  have h2 : |(a + b) * (1 + e1)| ≤ 1.001 * (|a| + |b|) := abs_scale h1 he1
  have h3 := abs_add_le ((a + b) * (1 + e1)) c
  obtain ⟨e2, he2, D2, q2⟩ := fadd_ok h D1 hc (by linarith)
  refine ⟨_, D2, by rw [q1, q2], ?_⟩
  have e : ((a + b) * (1 + e1) + c) * (1 + e2) - (a + b + c) = (a + b) * e1 * (1 + e2) + (a + b + c) * e2 := by ring
  rw [e]
  refine (abs_add_le _ _).trans ?_
  rw [abs_mul, abs_mul, abs_mul]
  have h4 : |1 + e2| ≤ 1 + uround := by
    have := abs_add_le 1 e2
    rw [abs_one] at this
    linarith
  have h5 : |a + b + c| ≤ |a| + |b| + |c| := (abs_add_le _ _).trans (by linarith)
  have h6 : |a + b| * |e1| * |1 + e2| ≤ (|a| + |b| + |c|) * uround * (1 + uround) :=
    mul_le_mul (mul_le_mul (by linarith) he1 (abs_nonneg _) (by linarith)) h4 (abs_nonneg _) (by positivity)
  have h7 : |a + b + c| * |e2| ≤ (|a| + |b| + |c|) * uround := mul_le_mul h5 he2 (abs_nonneg _) (by linarith)
  nlinarith

theorem fadd_comm (a b : Dbl ℝ) : fadd fl a b = fadd fl b a := by
  unfold fadd
  congr 1
  cases a <;> cases b <;> simp [Dbl.add, add_comm]

/-- The sum of three finite numbers in any order. -/
theorem sum3_ok (h : Ieee fl) (hs : AnyOrderI (fadd fl) sum3) {a b c : ℝ} (ha : Double64 a) (hb : Double64 b) (hc : Double64 c)
    {M : ℝ} (hbig : 15 * M < overflow64) (ho : |a| + |b| + |c| ≤ M) : ∃ z, Double64 z ∧ sum3 (num a) (num b) (num c) = num z ∧
      |z - (a + b + c)| ≤ (2 * uround + uround ^ 2) * (|a| + |b| + |c|) := by
  rcases hs (num a) (num b) (num c) with e | e | e
  · rw [e]; exact sum3_one h ha hb hc hbig ho
  · rw [e, fadd_comm]
    obtain ⟨z, h1, h2, h3⟩ := sum3_one h hb hc ha hbig (by linarith)
    refine ⟨z, h1, h2, ?_⟩
    rw [show a + b + c = b + c + a by ring, show |a| + |b| + |c| = |b| + |c| + |a| by ring]
    exact h3
  · rw [e]
    obtain ⟨z, h1, h2, h3⟩ := sum3_one h ha hc hb hbig (by linarith)
    refine ⟨z, h1, h2, ?_⟩
    rw [show a + b + c = a + c + b by ring, show |a| + |b| + |c| = |a| + |c| + |b| by ring]
    exact h3

theorem tiny_small : tiny ≤ uround * (2 : ℝ) ^ (-1010 : ℤ) / 1000 := by
  have e : tiny = uround * (2 : ℝ) ^ (-1010 : ℤ) * (2 : ℝ) ^ (-12 : ℤ) := by
    unfold tiny uround
    rw [one_div, ← zpow_natCast, ← zpow_neg, ← zpow_add₀ (by norm_num), ← zpow_add₀ (by norm_num)]
    norm_num
  rw [e, div_eq_mul_inv]
  have : 0 ≤ uround * (2 : ℝ) ^ (-1010 : ℤ) := mul_nonneg uround_nonneg (zpow_pos (by norm_num) _).le
  refine mul_le_mul_of_nonneg_left ?_ this
  norm_num

theorem v3norm_sq (v : V3) : V3.norm v ^ 2 = v 0 ^ 2 + v 1 ^ 2 + v 2 ^ 2 := by
  unfold V3.norm
  rw [Real.sq_sqrt (by positivity)]

set_option maxHeartbeats 1000000 in
/-- The computed norm of a vector that is neither too small nor too large. -/
theorem norm_ok (h : Ieee fl) (hs : AnyOrderI (fadd fl) sum3) {v : V3} (h0 : (2 : ℝ) ^ (-505 : ℤ) ≤ V3.norm v)
    (h1 : V3.norm v ≤ 2 ^ 509) : ∃ z n : ℝ, 0 < z ∧ squaredNormI fl sum3 (fun i => num (v i)) = num z ∧ fsqrt fl (num z) = num n ∧ 0 < n ∧
      Double64 n ∧ |n - V3.norm v| ≤ 5 / 2 ^ 53 * V3.norm v := by
  have hN : 0 < V3.norm v := lt_of_lt_of_le (zpow_pos (by norm_num) _) h0
  have hS := v3norm_sq v
  have hbig := overflow64_big
  have hS0 : (2 : ℝ) ^ (-1010 : ℤ) ≤ V3.norm v ^ 2 := by
    rw [show (-1010 : ℤ) = -505 + -505 by norm_num, zpow_add₀ (by norm_num), pow_two]
    exact mul_le_mul h0 h0 (zpow_pos (by norm_num) _).le hN.le
  have hS1 : V3.norm v ^ 2 ≤ 2 ^ 1018 := by
    rw [show 1018 = 509 * 2 by norm_num, pow_mul]
    exact pow_le_pow_left₀ hN.le h1 2
  have hN1 : V3.norm v ≤ 2 ^ 1018 := h1.trans (pow_le_pow_right₀ (by norm_num) (by norm_num))
  have hM : (2 : ℝ) ^ 1018 * 4 ≤ 2 ^ 1020 := by
    rw [show 1020 = 1018 + 2 by norm_num, pow_add]
    exact mul_le_mul_of_nonneg_left (by norm_num) (by positivity)
  have hM1 : (1 : ℝ) ≤ 2 ^ 1018 := one_le_pow₀ (by norm_num)
  have ht := tiny_small
  have htN : tiny ≤ uround * V3.norm v / 1000 := by
    refine ht.trans ?_
    have : (2 : ℝ) ^ (-1010 : ℤ) ≤ V3.norm v := (zpow_le_zpow_right₀ (by norm_num) (by norm_num)).trans h0
    have := mul_le_mul_of_nonneg_left this uround_nonneg
    linarith
  replace ht : tiny ≤ uround * V3.norm v ^ 2 / 1000 := by
    refine ht.trans ?_
    have := mul_le_mul_of_nonneg_left hS0 uround_nonneg
    linarith
  have ht0 := tiny_pos
  have htl := tiny_le
  have hu0 := uround_pos
  have hu1 : uround ≤ 1 / 1000 := by unfold uround; norm_num
  clear hS0 h0 h1
  obtain ⟨M, hMd⟩ : ∃ M : ℝ, M = 2 ^ 1020 := ⟨_, rfl⟩
  obtain ⟨K, hK⟩ : ∃ K : ℝ, K = 2 ^ 1018 := ⟨_, rfl⟩
  rw [← hMd, ← hK] at hM
  rw [← hK] at hS1 hM1 hN1
  rw [← hMd] at hbig
  clear hK hMd
  generalize V3.norm v = N at *
  have a0 : 0 ≤ v 0 ^ 2 := sq_nonneg _
  have a1 : 0 ≤ v 1 ^ 2 := sq_nonneg _
  have a2 : 0 ≤ v 2 ^ 2 := sq_nonneg _
  have sq : ∀ i, |v i * v i| = v i ^ 2 := fun i => by rw [abs_mul_self, pow_two]
  obtain ⟨e0, t0, he0, ht0', D0, q0⟩ := fmul_ok h (x := v 0) (y := v 0) (by rw [sq]; linarith)
  obtain ⟨e1, t1, he1, ht1', D1, q1⟩ := fmul_ok h (x := v 1) (y := v 1) (by rw [sq]; linarith)
  obtain ⟨e2, t2, he2, ht2', D2, q2⟩ := fmul_ok h (x := v 2) (y := v 2) (by rw [sq]; linarith)
  have key : ∀ (i : Fin 3) {e t : ℝ}, |e| ≤ uround → |t| ≤ tiny → |(v i * v i * (1 + e) + t) - v i ^ 2| ≤ uround * v i ^ 2 + tiny := by
    intro i e t he ht
    rw [show v i * v i * (1 + e) + t - v i ^ 2 = v i ^ 2 * e + t by ring]
    refine (abs_add_le _ _).trans (add_le_add ?_ ht)
    rw [abs_mul, abs_of_nonneg (sq_nonneg (v i)), mul_comm]
    exact mul_le_mul_of_nonneg_right he (sq_nonneg _)
  have k0 := key 0 he0 ht0'
  have k1 := key 1 he1 ht1'
  have k2 := key 2 he2 ht2'
  generalize v 0 * v 0 * (1 + e0) + t0 = p0 at *
  generalize v 1 * v 1 * (1 + e1) + t1 = p1 at *
  generalize v 2 * v 2 * (1 + e2) + t2 = p2 at *
  have b : ∀ {p s : ℝ}, 0 ≤ s → |p - s| ≤ uround * s + tiny → |p| ≤ (1 + uround) * s + tiny := by
    intro p s hs hp
    have := abs_add_le (p - s) s
    rw [sub_add_cancel, abs_of_nonneg hs] at this
    linarith
  have b0 := b a0 k0
  have b1 := b a1 k1
  have b2 := b a2 k2
  have hA : |p0| + |p1| + |p2| ≤ (1 + uround) * N ^ 2 + 3 * tiny := by
    rw [hS]
    linarith
  have hA' : |p0| + |p1| + |p2| ≤ 1.01 * N ^ 2 := by
    have : uround * N ^ 2 ≤ 1 / 1000 * N ^ 2 := mul_le_mul_of_nonneg_right hu1 (sq_nonneg _)
    linarith
  obtain ⟨z, Dz, hz, hze⟩ := sum3_ok h hs D0 D1 D2 hbig (by linarith)
  have hq : squaredNormI fl sum3 (fun i => num (v i)) = num z := by
    simp only [squaredNormI]
    rw [q0, q1, q2, hz]
  have hSp : |p0 + p1 + p2 - N ^ 2| ≤ uround * N ^ 2 + 3 * tiny := by
    rw [hS, show p0 + p1 + p2 - (v 0 ^ 2 + v 1 ^ 2 + v 2 ^ 2) = (p0 - v 0 ^ 2) + (p1 - v 1 ^ 2) + (p2 - v 2 ^ 2) by ring]
    refine (abs_add_le _ _).trans ?_
    have := abs_add_le (p0 - v 0 ^ 2) (p1 - v 1 ^ 2)
    linarith
  have hzS : |z - N ^ 2| ≤ 3.1 * (uround * N ^ 2) := by
    have h1 := abs_add_le (z - (p0 + p1 + p2)) (p0 + p1 + p2 - N ^ 2)
    rw [sub_add_sub_cancel] at h1
    have h2 : (2 * uround + uround ^ 2) * (|p0| + |p1| + |p2|) ≤ (2.001 * uround) * (1.01 * N ^ 2) := by
      refine mul_le_mul ?_ hA' (by positivity) (by positivity)
      nlinarith
    linarith
  have huS : uround * N ^ 2 ≤ 1 / 1000 * N ^ 2 := mul_le_mul_of_nonneg_right hu1 (sq_nonneg _)
  have hN2 : 0 < N ^ 2 := by positivity
  obtain ⟨z1, z2⟩ := abs_le.1 hzS
  have hz0 : 0 < z := by linarith
  have hr0 : 0 < Real.sqrt z := Real.sqrt_pos.2 hz0
  have hrz : Real.sqrt z ^ 2 = z := Real.sq_sqrt hz0.le
  have hrN : |Real.sqrt z - N| ≤ 3.1 * (uround * N) := by
    have e : (Real.sqrt z - N) * (Real.sqrt z + N) = z - N ^ 2 := by
      have e1 : (Real.sqrt z - N) * (Real.sqrt z + N) = Real.sqrt z ^ 2 - N ^ 2 := by ring
      rw [e1, hrz]
    have h1 : |Real.sqrt z - N| * (Real.sqrt z + N) ≤ 3.1 * (uround * N ^ 2) := by
      rw [← abs_of_pos (show 0 < Real.sqrt z + N by linarith), ← abs_mul, e]
      exact hzS
    have h2 : |Real.sqrt z - N| * N ≤ 3.1 * (uround * N) * N := by
      have : |Real.sqrt z - N| * N ≤ |Real.sqrt z - N| * (Real.sqrt z + N) := mul_le_mul_of_nonneg_left (by linarith) (abs_nonneg _)
      nlinarith
    exact le_of_mul_le_mul_right h2 hN
  obtain ⟨r1, r2⟩ := abs_le.1 hrN
  have huN : uround * N ≤ 1 / 1000 * N := mul_le_mul_of_nonneg_right hu1 hN.le
  have hro : |Real.sqrt z| < overflow64 := by rw [abs_of_pos hr0]; linarith
  obtain ⟨es, ts, hes, hts, hfl⟩ := ieee_err h hro
  obtain ⟨y, hy, Dy, -⟩ := (h _).1 hro
  have hyy : y = Real.sqrt z * (1 + es) + ts := Option.some.inj (hy.symm.trans hfl)
  have hn : |y - N| ≤ 5 * (uround * N) := by
    rw [hyy, show Real.sqrt z * (1 + es) + ts - N = (Real.sqrt z - N) + Real.sqrt z * es + ts by ring]
    have h1 := abs_add_le ((Real.sqrt z - N) + Real.sqrt z * es) ts
    have h2 := abs_add_le (Real.sqrt z - N) (Real.sqrt z * es)
    have h3 : |Real.sqrt z * es| ≤ 1.01 * N * uround := by
      rw [abs_mul, abs_of_pos hr0]
      exact mul_le_mul (by linarith) hes (abs_nonneg _) (by linarith)
    linarith
  refine ⟨z, y, hz0, hq, ?_, ?_, Dy, ?_⟩
  · rw [fsqrt, if_neg (not_lt.2 hz0.le), ofReal_some hy]
  · have := (abs_le.1 hn).1
    linarith
  · refine hn.trans (le_of_eq ?_)
    unfold uround
    ring

/-- A component divided by the computed norm. -/
theorem component_ok (h : Ieee fl) {a n N : ℝ} (hN : 0 < N) (hn0 : 0 < n) (haN : |a| ≤ N) (hn : |n - N| ≤ 5 / 2 ^ 53 * N) :
    ∃ w, Double64 w ∧ fquot fl (num a) (num n) = .ok (num w) ∧ |w - a / N| ≤ 7 / 2 ^ 53 * |a / N| + tiny := by
  have hbig := overflow64_big
  have hM : (1 : ℝ) ≤ 2 ^ 1020 := one_le_pow₀ (by norm_num)
  have hov : 15 < overflow64 := by
    generalize (2 : ℝ) ^ 1020 = M at *
    linarith
  clear hbig hM
  have hc1 : |a / N| ≤ 1 := by rw [abs_div, abs_of_pos hN, div_le_one hN]; exact haN
  have hc0 := abs_nonneg (a / N)
  have hq : |a * n⁻¹ - a / N| ≤ 5.001 / 2 ^ 53 * |a / N| := by
    have e : a * n⁻¹ - a / N = (a / N) * ((N - n) / n) := by field_simp
    rw [e, abs_mul, mul_comm]
    refine mul_le_mul_of_nonneg_right ?_ hc0
    rw [abs_div, abs_of_pos hn0, div_le_iff₀ hn0, abs_sub_comm]
    refine hn.trans ?_
    have := (abs_le.1 hn).1
    norm_num at this ⊢
    linarith
  have hb : |a * n⁻¹| ≤ 1.001 * |a / N| := by
    have := abs_add_le (a * n⁻¹ - a / N) (a / N)
    rw [sub_add_cancel] at this
    linarith
  have ho : |a * n⁻¹| < overflow64 := by linarith
  obtain ⟨e, t, he, ht, hD, hv⟩ := fquot_ok h (x := a) hn0.ne' ho
  refine ⟨_, hD, hv, ?_⟩
  rw [show a * n⁻¹ * (1 + e) + t - a / N = (a * n⁻¹ - a / N) + a * n⁻¹ * e + t by ring]
  have h1 := abs_add_le ((a * n⁻¹ - a / N) + a * n⁻¹ * e) t
  have h2 := abs_add_le (a * n⁻¹ - a / N) (a * n⁻¹ * e)
  have h3 : |a * n⁻¹ * e| ≤ 1.001 * |a / N| * uround := by
    rw [abs_mul]
    exact mul_le_mul hb he (abs_nonneg _) (by positivity)
  unfold uround at h3
  linarith

theorem component_le (v : V3) (i : Fin 3) : |v i| ≤ V3.norm v := by
  refine abs_le_of_sq_le_sq ?_ (v3norm_nonneg v)
  rw [v3norm_sq]
  have h0 := sq_nonneg (v 0)
  have h1 := sq_nonneg (v 1)
  have h2 := sq_nonneg (v 2)
  fin_cases i <;> simp <;> linarith

theorem big_pos : 15 < overflow64 := by
  have hbig := overflow64_big
  have hM : (1 : ℝ) ≤ 2 ^ 1020 := one_le_pow₀ (by norm_num)
  generalize (2 : ℝ) ^ 1020 = M at *
  linarith

/-- A literal. -/
theorem literal_ok (h : Ieee fl) {x : ℝ} (h0 : 0 < x) (h1 : x ≤ 1) :
    ∃ y, Double64 y ∧ ofReal fl x = num y ∧ 0.999 * x - tiny ≤ y ∧ y ≤ 1.001 * x + tiny := by
  have ho : |x| < overflow64 := by rw [abs_of_pos h0]; linarith [big_pos]
  obtain ⟨e, t, he, ht, hf⟩ := ieee_err h ho
  obtain ⟨y, hy, Dy, -⟩ := (h _).1 ho
  have hyy : y = x * (1 + e) + t := Option.some.inj (hy.symm.trans hf)
  have hu1 : uround ≤ 1 / 1000 := by unfold uround; norm_num
  obtain ⟨e1, e2⟩ := abs_le.1 he
  obtain ⟨t1, t2⟩ := abs_le.1 ht
  refine ⟨y, Dy, ofReal_some hy, ?_, ?_⟩ <;> rw [hyy] <;> nlinarith

/-- The tolerance of `IsUnit`. -/
theorem tol_ok (h : Ieee fl) : ∃ T, fadd fl (ofReal fl (1 / 10 ^ 8)) (fmul fl (ofReal fl (1 / 10 ^ 5)) (fabs (num 1))) = num T ∧
    1 / 10 ^ 9 ≤ T ∧ T ≤ 1 / 10 ^ 4 := by
  have hov := big_pos
  have ht : tiny ≤ 1 / 2 ^ 60 := by
    unfold tiny
    calc (2 : ℝ) ^ (-1075 : ℤ) ≤ (2 : ℝ) ^ (-60 : ℤ) := zpow_le_zpow_right₀ (by norm_num) (by norm_num)
      _ = _ := by norm_num
  have hu1 : uround ≤ 1 / 1000 := by unfold uround; norm_num
  obtain ⟨A, DA, hA, A1, A2⟩ := literal_ok h (x := 1 / 10 ^ 8) (by norm_num) (by norm_num)
  obtain ⟨R, DR, hR, R1, R2⟩ := literal_ok h (x := 1 / 10 ^ 5) (by norm_num) (by norm_num)
  norm_num at ht A1 A2 R1 R2
  have hR0 : 0 ≤ R := by linarith
  have hP : fmul fl (num R) (fabs (num 1)) = num R := by
    simp only [fmul, fabs, Dbl.mul, abs_one, mul_one, rounded]
    exact ofReal_some (ieee_double h DR)
  obtain ⟨e, he, -, hs⟩ := fadd_ok h DA DR (by rw [abs_of_nonneg (by linarith)]; linarith)
  obtain ⟨e1, e2⟩ := abs_le.1 he
  refine ⟨_, by rw [hA, hR, hP, hs], ?_, ?_⟩
  · norm_num
    nlinarith
  · norm_num
    nlinarith

/-- **C172** (in part: for vectors of norm between `2^-505` and `2^509`): in binary64, whatever the order of the additions, `Normalize` returns a vector of finite
numbers, each component of the unit vector up to 7 roundings and half the smallest positive number; its norm is one up to 8 roundings and it is
recognised by `IsUnit`. Missing: all the vectors that are not null, see `C172_refuted`. -/
theorem C172_unit_partial (h : Ieee fl) (hs : AnyOrderI (fadd fl) sum3) {v : V3} (h0 : (2 : ℝ) ^ (-505 : ℤ) ≤ V3.norm v)
    (h1 : V3.norm v ≤ 2 ^ 509) :
    ∃ w : V3, normalize3I fl sum3 (fun i => num (v i)) = .ok (fun i => num (w i)) ∧
      (∀ i, Double64 (w i) ∧ |w i - v i / V3.norm v| ≤ 7 / 2 ^ 53 * |v i / V3.norm v| + (2 : ℝ) ^ (-1075 : ℤ)) ∧
      |V3.norm w - 1| ≤ 8 / 2 ^ 53 ∧ isUnit3I fl sum3 (fun i => num (w i)) = true := by
  have hN : 0 < V3.norm v := lt_of_lt_of_le (zpow_pos (by norm_num) _) h0
  obtain ⟨z, n, hz, hq, hsq, hn0, -, hn⟩ := norm_ok h hs h0 h1
  have hc := fun i => component_ok h hN hn0 (component_le v i) hn
  choose w hw using hc
  have hnorm : |V3.norm w - 1| ≤ 8 / 2 ^ 53 := by
    have e1 : (v 0 / V3.norm v) ^ 2 + (v 1 / V3.norm v) ^ 2 + (v 2 / V3.norm v) ^ 2 = 1 := by
      have e := v3norm_sq v
      rw [div_pow, div_pow, div_pow, ← add_div, ← add_div, ← e]
      field_simp
    have h1 : V3.norm (fun i => v i / V3.norm v) = 1 := by rw [V3.norm, Real.sqrt_eq_one]; exact e1
    have h2 := v3norm_sub w (fun i => v i / V3.norm v)
    rw [h1] at h2
    refine h2.trans ?_
    have hc1 : ∀ i, |v i / V3.norm v| ≤ 1 := fun i => by
      rw [abs_div, abs_of_pos hN, div_le_one hN]; exact component_le v i
    have ht : tiny ≤ 1 / 2 ^ 60 := by
      unfold tiny
      calc (2 : ℝ) ^ (-1075 : ℤ) ≤ (2 : ℝ) ^ (-60 : ℤ) := zpow_le_zpow_right₀ (by norm_num) (by norm_num)
        _ = _ := by norm_num
    have hc : ∀ i, ((w - fun i => v i / V3.norm v) i) ^ 2 ≤ (7 / 2 ^ 53) ^ 2 * (v i / V3.norm v) ^ 2 + 5 / (2 ^ 53) ^ 2 := fun i => by
      have h3 := (hw i).2.2
      rw [← sq_abs, ← sq_abs (v i / V3.norm v)]
      have h4 : |(w - fun i => v i / V3.norm v) i| ≤ 7 / 2 ^ 53 * |v i / V3.norm v| + 1 / 2 ^ 60 := h3.trans (by linarith)
      have h5 := pow_le_pow_left₀ (abs_nonneg _) h4 2
      have h6 := hc1 i
      have h7 := abs_nonneg (v i / V3.norm v)
      refine h5.trans ?_
      rw [add_sq, mul_pow]
      norm_num
      nlinarith
    have a := hc 0
    have b := hc 1
    have c := hc 2
    rw [V3.norm, Real.sqrt_le_left (by positivity)]
    norm_num at a b c ⊢
    linarith
  refine ⟨w, ?_, fun i => ⟨(hw i).1, (hw i).2.2⟩, hnorm, ?_⟩
  · simp only [normalize3I, hq, Dbl.lt, decide_eq_true hz, if_true, hsq, (hw 0).2.1, (hw 1).2.1, (hw 2).2.1, Res.ok_bind]
    show Res.ok _ = _
    congr 1
    funext i
    fin_cases i <;> rfl
  · obtain ⟨w1, w2⟩ := abs_le.1 hnorm
    have hw0 : (2 : ℝ) ^ (-505 : ℤ) ≤ V3.norm w := by
      calc (2 : ℝ) ^ (-505 : ℤ) ≤ (2 : ℝ) ^ (-1 : ℤ) := zpow_le_zpow_right₀ (by norm_num) (by norm_num)
        _ ≤ _ := by norm_num at w1 ⊢; linarith
    have hw1 : V3.norm w ≤ 2 ^ 509 := by
      calc V3.norm w ≤ 2 ^ 1 := by norm_num at w2 ⊢; linarith
        _ ≤ _ := pow_le_pow_right₀ (by norm_num) (by norm_num)
    obtain ⟨z', n', -, hq', hsq', -, Dn, hn'⟩ := norm_ok h hs hw0 hw1
    obtain ⟨T, hT, T1, -⟩ := tol_ok h
    have hd : |n' - 1| ≤ 20 / 2 ^ 53 := by
      have := abs_add_le (n' - V3.norm w) (V3.norm w - 1)
      rw [sub_add_sub_cancel] at this
      norm_num at *
      linarith
    have d1 : Double64 1 := by simpa using double64_int 1 (by norm_num)
    obtain ⟨e, he, -, hsub⟩ := fsub_ok h Dn d1 (by
      have := big_pos
      norm_num at hd
      linarith)
    have hle := abs_scale hd he
    simp only [isUnit3I, isCloseI, hq', hsq', hsub, hT]
    simp only [fabs, Dbl.le, decide_eq_true_eq]
    norm_num at *
    linarith

theorem ofReal_tiny (h : Ieee fl) {x : ℝ} (hx : |x| < tiny) : ofReal fl x = num 0 := by
  have ht : tiny < overflow64 := by linarith [big_pos, tiny_le]
  obtain ⟨y, hy, Dy, hm⟩ := (h x).1 (hx.trans ht)
  refine ofReal_some ?_
  rw [hy]
  congr 1
  have h1 := hm 0 double64_zero
  rw [sub_zero] at h1
  obtain ⟨n, hn⟩ := double64_multiple Dy
  have h2 : |y| < 2 * tiny := by
    have := abs_sub_abs_le_abs_sub y x
    rw [abs_sub_comm y x] at this
    linarith
  have e : (2 : ℝ) ^ (-1074 : ℤ) = 2 * tiny := by
    unfold tiny
    rw [show (-1074 : ℤ) = 1 + -1075 by norm_num, zpow_add₀ (by norm_num)]
    norm_num
  rw [hn, e, abs_mul, abs_of_pos (show 0 < 2 * tiny by linarith [tiny_pos])] at h2
  have h3 : |(n : ℝ)| < 1 := by
    by_contra hc
    have := mul_le_mul_of_nonneg_right (not_lt.1 hc) (show 0 ≤ 2 * tiny by linarith [tiny_pos])
    linarith
  have h4 : |n| < 1 := by exact_mod_cast h3
  have h5 : n = 0 := Int.abs_lt_one_iff.1 h4
  rw [hn, h5]
  simp

/-- **C172** is false: in binary64 `Normalize` makes the null vector of a vector `(a, 0, 0)` with `2^512 ≤ |a|`, and leaves as it is a vector with `|a| < 2^-538`;
`IsUnit` is false of either result. The bounds are about `1.3e154` and `1.1e-162`. -/
theorem C172_refuted (h : Ieee fl) (hs : AnyOrderI (fadd fl) sum3) (a : ℝ) :
    (2 ^ 512 ≤ |a| → normalize3I fl sum3 ![num a, num 0, num 0] = .ok ![num 0, num 0, num 0] ∧
      isUnit3I fl sum3 ![num 0, num 0, num 0] = false) ∧
    (|a| < (2 : ℝ) ^ (-538 : ℤ) → normalize3I fl sum3 ![num a, num 0, num 0] = .ok ![num a, num 0, num 0] ∧
      isUnit3I fl sum3 ![num a, num 0, num 0] = false) := by
  have r0 : ofReal fl 0 = num 0 := ofReal_some (ieee_double h double64_zero)
  have m0 : fmul fl (num 0) (num 0) = num 0 := by simp only [fmul, Dbl.mul, mul_zero, rounded, r0]
  have s00 : fadd fl (num 0) (num 0) = num 0 := by simp only [fadd, Dbl.add, add_zero, rounded, r0]
  have z0 : sum3 (num 0) (num 0) (num 0) = num 0 := by rcases hs (num 0) (num 0) (num 0) with e | e | e <;> rw [e, s00, s00]
  have hU : ∀ v : Fin 3 → Dbl ℝ, squaredNormI fl sum3 v = num 0 → isUnit3I fl sum3 v = false := by
    intro v hv
    obtain ⟨T, hT, -, T2⟩ := tol_ok h
    have d1 : Double64 (-1) := by have := double64_int (-1) (by norm_num); simpa using this
    have hsub : fsub fl (num 0) (num 1) = num (-1) := by
      simp only [fsub, Dbl.sub, Dbl.neg, Dbl.add, zero_add, rounded]
      exact ofReal_some (ieee_double h d1)
    have hq : fsqrt fl (num 0) = num 0 := by simp only [fsqrt, lt_irrefl, if_false, Real.sqrt_zero, r0]
    simp only [isUnit3I, isCloseI, hv, hq, hsub, hT]
    simp only [fabs, Dbl.le, decide_eq_false_iff_not, abs_neg, abs_one, not_le]
    norm_num at T2 ⊢
    linarith
  have hv0 : squaredNormI fl sum3 ![num 0, num 0, num 0] = num 0 := by
    simp only [squaredNormI, Matrix.cons_val_zero, Matrix.cons_val_one, Matrix.cons_val, m0, z0]
  constructor
  · intro ha
    refine ⟨?_, hU _ hv0⟩
    have haa : overflow64 ≤ a * a := by
      rw [← abs_mul_abs_self a]
      have h1 := mul_le_mul ha ha (by positivity) (abs_nonneg a)
      rw [← pow_add] at h1
      refine le_trans ?_ h1
      unfold overflow64
      have : (0 : ℝ) ≤ 2 ^ 970 := by positivity
      generalize (2 : ℝ) ^ 970 = N at *
      exact sub_le_self _ this
    have ma : fmul fl (num a) (num a) = pinf := by
      simp only [fmul, Dbl.mul, rounded]
      exact ofReal_pinf h haa
    have sp : sum3 pinf (num 0) (num 0) = pinf := by
      rcases hs pinf (num 0) (num 0) with e | e | e <;> rw [e] <;> simp [fadd, Dbl.add, rounded, r0]
    have hq : squaredNormI fl sum3 ![num a, num 0, num 0] = pinf := by
      simp only [squaredNormI, Matrix.cons_val_zero, Matrix.cons_val_one, Matrix.cons_val, m0, ma, sp]
    simp only [normalize3I, hq, Dbl.lt, if_true, fsqrt, Matrix.cons_val_zero, Matrix.cons_val_one, Matrix.cons_val, fquot, Res.ok_bind]
    rfl
  · intro ha
    have haa : |a * a| < tiny := by
      rw [abs_mul]
      have h1 := mul_lt_mul'' ha ha (abs_nonneg _) (abs_nonneg _)
      rw [← zpow_add₀ (by norm_num)] at h1
      refine h1.trans ?_
      unfold tiny
      exact zpow_lt_zpow_right₀ (by norm_num) (by norm_num)
    have ma : fmul fl (num a) (num a) = num 0 := by
      simp only [fmul, Dbl.mul, rounded]
      exact ofReal_tiny h haa
    have hq : squaredNormI fl sum3 ![num a, num 0, num 0] = num 0 := by
      simp only [squaredNormI, Matrix.cons_val_zero, Matrix.cons_val_one, Matrix.cons_val, m0, ma, z0]
    refine ⟨?_, hU _ hq⟩
    simp [normalize3I, hq, Dbl.lt]

/-- C172: the hypotheses are met by a vector with components of very different sizes, and by the numbers of the refutation. -/
example : ∃ fl sum3, Ieee fl ∧ AnyOrderI (fadd fl) sum3 ∧ (2 : ℝ) ^ (-505 : ℤ) ≤ V3.norm ![3, (2 : ℝ) ^ (-600 : ℤ), -4] ∧
    V3.norm ![3, (2 : ℝ) ^ (-600 : ℤ), -4] ≤ 2 ^ 509 ∧ Double64 (2 ^ 512) ∧ Double64 ((2 : ℝ) ^ (-539 : ℤ)) := by
  refine ⟨fl64, fun a b c => fadd fl64 (fadd fl64 a b) c, fl64_ieee, fun a b c => Or.inl rfl, ?_, ?_, ?_, double64_pow (by norm_num) (by norm_num)⟩
  · have h1 := component_le ![3, (2 : ℝ) ^ (-600 : ℤ), -4] 0
    have h2 : (2 : ℝ) ^ (-505 : ℤ) ≤ (2 : ℝ) ^ (0 : ℤ) := zpow_le_zpow_right₀ (by norm_num) (by norm_num)
    simp only [Matrix.cons_val_zero, zpow_zero] at h1 h2
    rw [abs_of_pos (by norm_num)] at h1
    linarith
  · have h3 : (2 : ℝ) ^ (-600 : ℤ) ≤ (2 : ℝ) ^ (0 : ℤ) := zpow_le_zpow_right₀ (by norm_num) (by norm_num)
    have h4 : (0 : ℝ) < (2 : ℝ) ^ (-600 : ℤ) := zpow_pos (by norm_num) _
    have h5 : (2 : ℝ) ^ 4 ≤ 2 ^ 509 := pow_le_pow_right₀ (by norm_num) (by norm_num)
    refine le_trans ?_ h5
    unfold V3.norm
    rw [Real.sqrt_le_left (by norm_num)]
    simp only [Matrix.cons_val_zero, Matrix.cons_val_one, Matrix.cons_val, zpow_zero] at h3 ⊢
    generalize (2 : ℝ) ^ (-600 : ℤ) = t at *
    norm_num
    nlinarith
  · have := double64_pow (e := 512) (by norm_num) (by norm_num)
    rwa [show (2 : ℝ) ^ (512 : ℤ) = 2 ^ 512 from zpow_natCast _ _] at this

end MU
