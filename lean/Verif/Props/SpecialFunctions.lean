import Verif.Lemmas.ExpIntModel

/-!
# Exponential integrals (C67, C89, C90, C91)

`Spec.IsEi x v`: `v` is the exponential integral `Ei(x)`, the Cauchy principal value of the integral of `e^t / t` up to `x`.
`Spec.E1 x`: the integral of `e^-t / t` from `x` to infinity.
-/

namespace MU
open ExpInt PolyCheck

/-! ## C67 -/

/-- C67: from 24 on, `expEi(x)` is `exp(-x)` times `Ei_approximation(x)`, whatever boost's exponential integral is. -/
theorem C67_equal (expint : ℝ → Res ℝ) (B : Build) {x : ℝ} (hx : 24 ≤ x) :
    ∃ v w, expEi expint B x = .ok v ∧ eiApproximation B x = .ok w ∧ v = Real.exp (-x) * w := by
  refine ⟨_, _, expEi_from_twentyfour expint B hx, ei_from_twentyfour B hx, ?_⟩
  rw [← mul_assoc, ← Real.exp_add, neg_add_cancel, Real.exp_zero, one_mul]

theorem cmp_close {N M N' M' : List ℤ} {x ε : ℝ} (s : ℝ) (hs : s = 1 ∨ s = -1) (hM : pev M x ≠ 0) (hM' : pev M' x ≠ 0)
    (hpos : 0 ≤ rat N' M' x) (h : |pev N x * pev M' x - pev N' x * pev M x| ≤ ε * (s * (pev N' x * pev M x))) (hε : 0 ≤ ε) :
    |rat N M x - rat N' M' x| ≤ ε * rat N' M' x := by
  have e : rat N M x - rat N' M' x = (pev N x * pev M' x - pev N' x * pev M x) / (pev M x * pev M' x) := by
    rw [rat, rat]
    field_simp
  have e2 : rat N' M' x = |pev N' x * pev M x| / |pev M x * pev M' x| := by
    rw [← abs_div, ← abs_of_nonneg hpos, rat]
    congr 1
    field_simp
  rw [e, abs_div, e2, ← mul_div_assoc]
  refine div_le_div_of_nonneg_right (h.trans ?_) (abs_nonneg _)
  refine mul_le_mul_of_nonneg_left ?_ hε
  rcases hs with rfl | rfl
  · rw [one_mul]; exact le_abs_self _
  · rw [neg_one_mul]; exact neg_le_abs _

theorem ei12_code {x : ℝ} (hx : 6 ≤ x) (hx' : x < 12) : |Real.exp x * rat ei12N ei12M x - eiF x| ≤ 2.51e-11 * eiF x := by
  have h0 := Ei_six_twelve hx hx'.le
  have hM : pev ei12M x ≠ 0 := by
    have hne := posOn_sound ei12_pos_code (x := x) (by norm_num; exact hx) (by norm_num; exact hx'.le)
    rw [pev_pscale] at hne
    intro h
    rw [h, mul_zero] at hne
    exact lt_irrefl _ hne
  have hp : 0 ≤ rat ei12N' ei12M' x := by
    have h1 := (abs_le.1 h0).1
    have h2 := eiF_nonneg hx
    have h3 : 0 ≤ Real.exp x * rat ei12N' ei12M' x := by norm_num at h1; linarith
    exact nonneg_of_mul_nonneg_right h3 (Real.exp_pos x)
  have hc := certOn_sound ei12_cmp (x := x) (by norm_num; exact hx) (by norm_num; exact hx'.le)
  rw [pev_psub, pev_pmul, pev_pmul, pev_pscale, pev_pmul] at hc
  have := close_mul (s := Real.exp x) (Real.exp_pos x).le (cmp_close (N := ei12N) (M := ei12M) (s := 1) (ε := 2.5e-11) (Or.inl rfl) hM (ei12_ne hx hx'.le) hp
    (by norm_num at hc ⊢; exact hc) (by norm_num)) (by norm_num) h0
  exact this.trans (mul_le_mul_of_nonneg_right (by norm_num) (eiF_nonneg hx))

/-- C67: below 24 `expEi` calls boost's `Ei`. When that returns `Ei(x)`, the two differ by at most `7e-16 exp(-x)` up to 6, by a relative error of
`2.51e-11` up to 12 and of `1.01e-16` up to 24. -/
theorem C67_agree {expint : ℝ → Res ℝ} (hei : ∀ x, 0 < x → ∃ v, expint x = .ok v ∧ Spec.IsEi x v) (B : Build) {x : ℝ} (hx : 1e-8 < x) (hx' : x < 24) :
    ∃ v w, expEi expint B x = .ok v ∧ eiApproximation B x = .ok w ∧
      (x < 6 → |v - Real.exp (-x) * w| ≤ 7e-16 * Real.exp (-x)) ∧ (6 ≤ x → x < 12 → |v - Real.exp (-x) * w| ≤ 2.51e-11 * v) ∧
      (12 ≤ x → |v - Real.exp (-x) * w| ≤ 1.01e-16 * v) := by
  have h0 : (0 : ℝ) < x := lt_trans (by norm_num) hx
  obtain ⟨e, he, hE⟩ := hei x h0
  rw [isEi_iff h0] at hE
  have hv : expEi expint B x = .ok (Real.exp (-x) * eiF x) := by rw [expEi, if_pos hx', he, hE]; rfl
  have key : ∀ w κ c : ℝ, |w - eiF x| ≤ κ * c → |Real.exp (-x) * eiF x - Real.exp (-x) * w| ≤ κ * (Real.exp (-x) * c) := by
    intro w κ c h
    rw [← mul_sub, abs_mul, abs_of_pos (Real.exp_pos _), abs_sub_comm]
    calc Real.exp (-x) * |w - eiF x| ≤ Real.exp (-x) * (κ * c) := mul_le_mul_of_nonneg_left h (Real.exp_pos _).le
      _ = _ := by ring
  rcases lt_or_ge x 6 with h6 | h6
  · refine ⟨_, _, hv, ei_below_six B hx h6, fun _ => ?_, fun h => absurd h (by linarith), fun h => absurd h (by linarith)⟩
    have h1 := Ei_zero_six h0 h6.le
    have := key (Real.log (x / eiX0) + rat ei6N ei6M x) 7e-16 1 (by norm_num at h1 ⊢; linarith)
    rwa [mul_one] at this
  · rcases lt_or_ge x 12 with h12 | h12
    · exact ⟨_, _, hv, ei_six_twelve B h6 h12, fun h => absurd h (by linarith), fun _ _ => key _ _ _ (ei12_code h6 h12), fun h => absurd h (by linarith)⟩
    · exact ⟨_, _, hv, ei_twelve_twentyfour B h12 hx', fun h => absurd h (by linarith), fun _ h => absurd h (by linarith),
        fun _ => key _ _ _ (Ei_twelve_twentyfour h12 hx'.le)⟩

/-- C67: `Ei_approximation` ends the program for every `x ≤ 1e-8`; `expEi` does not: it returns whatever boost's `Ei` returns. -/
theorem C67_refused (expint : ℝ → Res ℝ) (B : Build) {x : ℝ} (hx : x ≤ 1e-8) :
    eiApproximation B x = .exits 0 ∧ ∀ e, expint x = .ok e → expEi expint B x = .ok (Real.exp (-x) * e) := by
  refine ⟨by rw [eiApproximation, if_pos (refused hx)], fun e he => ?_⟩
  rw [expEi, if_pos (by norm_num at hx; linarith), he]
  rfl

/-- The hypothesis of `C67_agree` can be met. -/
example : ∃ expint : ℝ → Res ℝ, ∀ x, 0 < x → ∃ v, expint x = .ok v ∧ Spec.IsEi x v := ⟨fun x => .ok (eiF x), fun x hx => ⟨_, rfl, isEi_eiF hx⟩⟩

/-- Values of `x` in each of the ranges. -/
example : (24 : ℝ) ≤ 30 ∧ (1e-8 : ℝ) < 7 ∧ (7 : ℝ) < 24 ∧ (-1 : ℝ) ≤ 1e-8 := by norm_num

/-! ## C89 -/

/-- C89: `Ei_approximation` returns `Ei(x)` to double precision - an error of at most `7e-16` up to 6, a relative error below `1.1e-16` from 12 on -
except on [6, 12), where the relative error is only bounded by `2.51e-11`. Missing: double precision on [6, 12), see `C89_refuted`. -/
theorem C89_accuracy_partial (B : Build) {x v : ℝ} (hx : 1e-8 < x) (hv : Spec.IsEi x v) :
    ∃ w, eiApproximation B x = .ok w ∧ (x < 6 → |w - v| ≤ 7e-16) ∧ (6 ≤ x → x < 12 → |w - v| ≤ 2.51e-11 * v) ∧ (12 ≤ x → |w - v| ≤ 1.1e-16 * v) := by
  have h0 : (0 : ℝ) < x := lt_trans (by norm_num) hx
  rw [isEi_iff h0] at hv
  subst hv
  rcases lt_or_ge x 6 with h6 | h6
  · refine ⟨_, ei_below_six B hx h6, fun _ => ?_, fun h => absurd h (by linarith), fun h => absurd h (by linarith)⟩
    have h1 := Ei_zero_six h0 h6.le
    norm_num at h1 ⊢
    linarith
  rcases lt_or_ge x 12 with h12 | h12
  · exact ⟨_, ei_six_twelve B h6 h12, fun h => absurd h (by linarith), fun _ _ => ei12_code h6 h12, fun h => absurd h (by linarith)⟩
  rcases lt_or_ge x 24 with h24 | h24
  · refine ⟨_, ei_twelve_twentyfour B h12 h24, fun h => absurd h (by linarith), fun _ h => absurd h (by linarith), fun _ => ?_⟩
    exact (Ei_twelve_twentyfour h12 h24.le).trans (mul_le_mul_of_nonneg_right (by norm_num) (eiF_nonneg h6))
  · refine ⟨_, ei_from_twentyfour B h24, fun h => absurd h (by linarith), fun _ h => absurd h (by linarith), fun _ => ?_⟩
    exact (Ei_from_twentyfour h24).trans (mul_le_mul_of_nonneg_right (by norm_num) (eiF_nonneg h6))

/-- The hypotheses are met by every positive number. -/
example : (1e-8 : ℝ) < 7 ∧ ∃ v, Spec.IsEi 7 v := ⟨by norm_num, _, isEi_eiF (by norm_num)⟩

/-- C89 is false on [6, 12): at 6 the relative error exceeds `2e-11`. The last coefficient of that range is -2.645977... where the published table has
-2.645677...; with the published one the error is at most `1e-16`. -/
theorem C89_refuted (B : Build) : ∃ v w, Spec.IsEi 6 v ∧ 0 < v ∧ eiApproximation B 6 = .ok w ∧ 2e-11 * v < |w - v| := by
  have h0 : (0 : ℝ) < 6 := by norm_num
  refine ⟨_, _, isEi_eiF h0, by linarith [eiF_six], ei_six_twelve B le_rfl (by norm_num), ?_⟩
  have h1 := (abs_le.1 (Ei_six_twelve (x := 6) le_rfl (by norm_num)))
  have h2 := ei12_code_at_6.1
  have h3 := ei12_at_6.2
  have h4 := eiF_six
  have hp := Real.exp_pos 6
  have hle : rat ei12N' ei12M' 6 * (1 + 2.2e-11) ≤ rat ei12N ei12M 6 := by norm_num at h2 h3 ⊢; linarith
  have h5 : Real.exp 6 * (rat ei12N' ei12M' 6 * (1 + 2.2e-11)) ≤ Real.exp 6 * rat ei12N ei12M 6 := mul_le_mul_of_nonneg_left hle hp.le
  refine lt_of_lt_of_le ?_ (le_abs_self _)
  norm_num at h1 h5 ⊢
  linarith [h1.1]

/-! ## C91 -/

/-- C91: `expEi(x)` is `exp(-x) Ei(x)` with a relative error below `1.1e-16` from 24 on, where `Ei(x)` itself may overflow; below 24 it is
`exp(-x)` times boost's result. -/
theorem C91_expEi {expint : ℝ → Res ℝ} (hei : ∀ x, 0 < x → ∃ v, expint x = .ok v ∧ Spec.IsEi x v) (B : Build) {x v : ℝ} (hx : 0 < x) (hv : Spec.IsEi x v) :
    ∃ w, expEi expint B x = .ok w ∧ (x < 24 → w = Real.exp (-x) * v) ∧ (24 ≤ x → |w - Real.exp (-x) * v| ≤ 1.1e-16 * (Real.exp (-x) * v)) := by
  rw [isEi_iff hx] at hv
  subst hv
  rcases lt_or_ge x 24 with h24 | h24
  · obtain ⟨e, he, hE⟩ := hei x hx
    rw [isEi_iff hx] at hE
    refine ⟨Real.exp (-x) * eiF x, by rw [expEi, if_pos h24, he, hE]; rfl, fun _ => rfl, fun h => absurd h (by linarith)⟩
  · refine ⟨_, expEi_from_twentyfour expint B h24, fun h => absurd h (by linarith), fun _ => ?_⟩
    have h := Ei_from_twentyfour h24
    have e : rat eiInfN eiInfM x - Real.exp (-x) * eiF x = Real.exp (-x) * (Real.exp x * rat eiInfN eiInfM x - eiF x) := by
      rw [mul_sub, ← mul_assoc, ← Real.exp_add, neg_add_cancel, Real.exp_zero, one_mul]
    rw [e, abs_mul, abs_of_pos (Real.exp_pos _)]
    calc Real.exp (-x) * |Real.exp x * rat eiInfN eiInfM x - eiF x| ≤ Real.exp (-x) * (1.1e-16 * eiF x) :=
          mul_le_mul_of_nonneg_left (h.trans (mul_le_mul_of_nonneg_right (by norm_num) (eiF_nonneg (by linarith)))) (Real.exp_pos _).le
      _ = _ := by ring

example : (0 : ℝ) < 100 ∧ ∃ v, Spec.IsEi 100 v := ⟨by norm_num, _, isEi_eiF (by norm_num)⟩

/-! ## C90 -/

theorem e1b_code {x : ℝ} (hx : 1 ≤ x) (hx' : x < 4) : |Real.exp (-x) * rat e1bP.reverse e1bQ.reverse x - Spec.E1 x| ≤ 1.51e-9 * Spec.E1 x := by
  have hE := E1_nonneg (x := x) (by linarith)
  have h0 := E1_one_four hx hx'.le
  have hM := e1b_ne hx hx'.le
  have hc := certOn_sound e1b_cmp (x := x) (by norm_num; exact hx) (by norm_num; exact hx'.le)
  rw [pev_psub] at hc
  have h1 : |rat e1bP.reverse e1bQ.reverse x - rat e1bP'.reverse e1bQ.reverse x| ≤ 1.5e-9 * rat e1bP'.reverse e1bQ.reverse x := by
    rw [rat, rat, ← sub_div, abs_div, abs_of_pos hM, ← mul_div_assoc]
    refine div_le_div_of_nonneg_right ?_ hM.le
    norm_num at hc ⊢
    exact hc
  exact (close_mul (Real.exp_pos _).le h1 (by norm_num) h0).trans (mul_le_mul_of_nonneg_right (by norm_num) hE)

theorem e1c_code {x : ℝ} (hx : 4 ≤ x) : |Real.exp (-x) * rat (tailN e1cP e1cQ) (tailM e1cQ) x - Spec.E1 x| ≤ 9.31e-4 * Spec.E1 x := by
  have hE := E1_nonneg (x := x) (by linarith)
  have h0 := E1_from_four hx
  have hM : 0 < pev (tailM e1cQ) x := posFrom_sound e1c_pos_code (by norm_num; exact hx)
  have hc := certFrom_sound e1c_cmp (x := x) (by norm_num; exact hx)
  rw [pev_psub, pev_pmul, pev_pmul] at hc
  have h1 := cmp_close (N := tailN e1cP e1cQ) (M := tailM e1cQ) (N' := tailN e1cP e1cQ') (M' := tailM e1cQ') (x := x) (ε := 9.3e-4) 1 (Or.inl rfl)
    hM.ne' (e1c_ne hx).ne' (e1c_rat hx).1.le (by norm_num at hc ⊢; exact hc) (by norm_num)
  exact (close_mul (Real.exp_pos _).le h1 (by norm_num) h0).trans (mul_le_mul_of_nonneg_right (by norm_num) hE)

/-- C90: `E1_approximation` returns `E1(x)` with a relative error below `1e-16` below 1, but only `1.51e-9` on [1, 4) and `9.31e-4` from 4 on.
Missing: double precision from 1 on, see `C90_refuted`. -/
theorem C90_accuracy_partial (B : Build) {x : ℝ} (hx : 1e-8 < x) :
    ∃ w, e1Approximation B x = .ok w ∧ (x < 1 → |w - Spec.E1 x| ≤ 1e-16 * Spec.E1 x) ∧ (1 ≤ x → x < 4 → |w - Spec.E1 x| ≤ 1.51e-9 * Spec.E1 x) ∧
      (4 ≤ x → |w - Spec.E1 x| ≤ 9.31e-4 * Spec.E1 x) := by
  have h0 : (0 : ℝ) < x := lt_trans (by norm_num) hx
  rcases lt_or_ge x 1 with h1 | h1
  · refine ⟨_, e1_below_one B hx h1, fun _ => ?_, fun h => absurd h (by linarith), fun h => absurd h (by linarith)⟩
    have h2 := E1_zero_one h0 h1.le
    have h3 := E1_anti h0 h1.le
    have h4 := E1_one_bounds.1
    norm_num at h2 h4 ⊢
    linarith
  rcases lt_or_ge x 4 with h4 | h4
  · exact ⟨_, e1_one_four B h1 h4, fun h => absurd h (by linarith), fun _ _ => e1b_code h1 h4, fun h => absurd h (by linarith)⟩
  · exact ⟨_, e1_from_four B h4, fun h => absurd h (by linarith), fun _ h => absurd h (by linarith), fun _ => e1c_code h4⟩

example : (1e-8 : ℝ) < 1 / 2 ∧ (1e-8 : ℝ) < 2 ∧ (1e-8 : ℝ) < 5 := by norm_num

theorem e1b_ratio_at_3 : ((10000000014 : ℤ) : ℝ) / (10 ^ 10 : ℤ) ≤ rat e1bP.reverse e1bP'.reverse 3 ∧
    rat e1bP.reverse e1bP'.reverse 3 ≤ ((10000000015 : ℤ) : ℝ) / (10 ^ 10 : ℤ) := rat_bounds (k := 3) (by norm_num) (by decide +kernel)

/-- C90 is false: at 3 the relative error exceeds `1.3e-9`, at 4 it exceeds `9e-4`. Two coefficients of each table differ from the published ones. -/
theorem C90_refuted (B : Build) : (∃ w, e1Approximation B 3 = .ok w ∧ 0 < Spec.E1 3 ∧ 1.3e-9 * Spec.E1 3 < |w - Spec.E1 3|) ∧
    ∃ w, e1Approximation B 4 = .ok w ∧ 0 < Spec.E1 4 ∧ 9e-4 * Spec.E1 4 < |w - Spec.E1 4| := by
  constructor
  · refine ⟨_, e1_one_four B (by norm_num) (by norm_num), ?_⟩
    have h1 := abs_le.1 (E1_one_four (x := 3) (by norm_num) (by norm_num))
    have h2 := e1b_ratio_at_3.1
    have hM := e1b_ne (x := 3) (by norm_num) (by norm_num)
    have hpos : 0 < pev e1bP'.reverse 3 := by
      have e : (3 : ℝ) = ((3 : ℤ) : ℝ) := by norm_num
      rw [e, pevZ_cast]
      exact_mod_cast (by decide +kernel : 0 < pevZ e1bP'.reverse 3)
    have hr : 0 < rat e1bP'.reverse e1bQ.reverse 3 := div_pos hpos hM
    have hex := mul_pos (Real.exp_pos (-3)) hr
    have hE := E1_nonneg (x := 3) (by norm_num)
    have hle : rat e1bP'.reverse e1bQ.reverse 3 * (1 + 1.4e-9) ≤ rat e1bP.reverse e1bQ.reverse 3 := by
      rw [rat, rat, div_mul_eq_mul_div]
      refine div_le_div_of_nonneg_right ?_ hM.le
      rw [rat, le_div_iff₀ hpos] at h2
      norm_num at h2 ⊢
      linarith
    have h5 := mul_le_mul_of_nonneg_left hle (Real.exp_pos (-3)).le
    have hE' : 0 < Spec.E1 3 := by norm_num at h1; linarith [h1.2]
    refine ⟨hE', lt_of_lt_of_le ?_ (le_abs_self _)⟩
    norm_num at h1 h5 ⊢
    linarith [h1.1]
  · refine ⟨_, e1_from_four B le_rfl, ?_⟩
    have h1 := abs_le.1 (E1_from_four (x := 4) le_rfl)
    have h2 := e1c_code_at_4.1
    have h3 := e1c_at_4.2
    have hr := (e1c_rat (x := 4) le_rfl).1
    have hex := mul_pos (Real.exp_pos (-4)) hr
    have hle : rat (tailN e1cP e1cQ') (tailM e1cQ') 4 * (1 + 9.1e-4) ≤ rat (tailN e1cP e1cQ) (tailM e1cQ) 4 := by norm_num at h2 h3 ⊢; linarith
    have h5 := mul_le_mul_of_nonneg_left hle (Real.exp_pos (-4)).le
    have hE' : 0 < Spec.E1 4 := by norm_num at h1; linarith [h1.2]
    refine ⟨hE', lt_of_lt_of_le ?_ (le_abs_self _)⟩
    norm_num at h1 h5 ⊢
    linarith [h1.1]

/-- C90: unlike `E1`, `E1_approximation` is not decreasing: it jumps up at 4. -/
theorem C90_not_decreasing (B : Build) : ∃ v w, e1Approximation B 3.9995 = .ok v ∧ e1Approximation B 4 = .ok w ∧ v < w ∧ Spec.E1 4 ≤ Spec.E1 3.9995 := by
  refine ⟨_, _, e1_one_four B (by norm_num) (by norm_num), e1_from_four B le_rfl, ?_, E1_anti (by norm_num) (by norm_num)⟩
  have h2 := e1c_code_at_4.1
  have h3 : rat e1bP.reverse e1bQ.reverse 3.9995 ≤ 0.20637 := by
    rw [rat, div_le_iff₀ (e1b_ne (by norm_num) (by norm_num))]
    norm_num [e1bP, e1bQ, pev]
  have e : Real.exp (-3.9995) = Real.exp (-4) * Real.exp 0.0005 := by rw [← Real.exp_add]; norm_num
  have h4 : Real.exp 0.0005 ≤ 1.00051 := by
    have h := exp_taylor (x := 0.0005) (n := 2) (by norm_num [abs_of_pos])
    have := (abs_le.1 h).2
    simp only [Finset.sum_range_succ, Finset.sum_range_zero, Nat.factorial] at this
    norm_num [abs_of_pos] at this ⊢
    linarith
  have h5 : Real.exp 0.0005 * rat e1bP.reverse e1bQ.reverse 3.9995 < rat (tailN e1cP e1cQ) (tailM e1cQ) 4 := by
    have : Real.exp 0.0005 * rat e1bP.reverse e1bQ.reverse 3.9995 ≤ 1.00051 * 0.20637 :=
      (mul_le_mul_of_nonneg_left h3 (Real.exp_pos _).le).trans (mul_le_mul_of_nonneg_right h4 (by norm_num))
    norm_num at this h2 ⊢
    linarith
  rw [e, mul_assoc]
  exact mul_lt_mul_of_pos_left h5 (Real.exp_pos _)

/-- C90: every `x ≤ 1e-8` is refused, by ending the program. -/
theorem C90_refused (B : Build) {x : ℝ} (hx : x ≤ 1e-8) : e1Approximation B x = .exits 0 := by rw [e1Approximation, if_pos (refused hx)]

end MU
