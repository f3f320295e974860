import Verif.Lemmas.ExpIntPoints

/-!
# The published approximations of the exponential integrals are accurate

Range by range: `E1` from infinity down to zero, then `Ei` from zero up to infinity.
-/

namespace MU.ExpInt
open Filter Topology Set Spec PolyCheck

/-! ## `E1` -/

theorem e1c_ne {x : ℝ} (hx : 4 ≤ x) : 0 < pev (tailM e1cQ') x := posFrom_sound e1c_pos (by norm_num; exact hx)

theorem e1c_le : (decide (0 < (1 : ℤ)) && checkFrom (psub (psub (tailM e1cQ') (tailN e1cP e1cQ')) [1]) 1 4 []) = true := by decide +kernel

theorem e1c_rat {x : ℝ} (hx : 4 ≤ x) : 0 < rat (tailN e1cP e1cQ') (tailM e1cQ') x ∧ rat (tailN e1cP e1cQ') (tailM e1cQ') x ≤ 1 := by
  have h1 := e1c_ne hx
  have h2 : 0 < pev (tailN e1cP e1cQ') x := posFrom_sound e1c_posN (by norm_num; exact hx)
  have h3 := posFrom_sound e1c_le (x := x) (by norm_num; exact hx)
  rw [pev_psub] at h3
  refine ⟨div_pos h2 h1, ?_⟩
  rw [rat, div_le_one h1]
  linarith

/-- From 4 on. -/
theorem E1_from_four {x : ℝ} (hx : 4 ≤ x) : |Real.exp (-x) * rat (tailN e1cP e1cQ') (tailM e1cQ') x - E1 x| ≤ 1e-18 * E1 x := by
  have h := E1_tail (N := tailN e1cP e1cQ') (M := tailM e1cQ') (a := 4) (ε := 1e-18) (by norm_num) (fun y hy => (e1c_ne hy).ne')
    (fun y hy => by
      have := certFrom_sound e1c_res (x := y) (by norm_num; exact hy)
      norm_num at this ⊢
      exact this) (by
      refine tendsto_of_tendsto_of_tendsto_of_le_of_le' tendsto_const_nhds Real.tendsto_exp_neg_atTop_nhds_zero ?_ ?_
      · filter_upwards [eventually_ge_atTop 4] with y hy
        exact mul_nonneg (Real.exp_pos _).le (e1c_rat hy).1.le
      · filter_upwards [eventually_ge_atTop 4] with y hy
        exact mul_le_of_le_one_right (Real.exp_pos _).le (e1c_rat hy).2) hx
  exact h

theorem e1b_ne {x : ℝ} (hx : 1 ≤ x) (hx' : x ≤ 4) : 0 < pev e1bQ.reverse x := posOn_sound e1b_pos (by norm_num; exact hx) (by norm_num; exact hx')

/-- Two values in a small relative interval. -/
theorem close_mul {s r r' δ E κ : ℝ} (hs : 0 ≤ s) (hr : |r - r'| ≤ δ * r') (hδ : 0 ≤ δ) (h : |s * r' - E| ≤ κ * E) :
    |s * r - E| ≤ (δ * (1 + κ) + κ) * E := by
  have h1 : |s * r - s * r'| ≤ δ * (s * r') := by
    rw [← mul_sub, abs_mul, abs_of_nonneg hs]
    calc s * |r - r'| ≤ s * (δ * r') := mul_le_mul_of_nonneg_left hr hs
      _ = _ := by ring
  have h2 : s * r' ≤ (1 + κ) * E := by linarith [(abs_le.1 h).2]
  have h3 : |s * r - E| ≤ |s * r - s * r'| + |s * r' - E| := abs_sub_le _ _ _
  have h4 : δ * (s * r') ≤ δ * ((1 + κ) * E) := mul_le_mul_of_nonneg_left h2 hδ
  linarith

/-- On `[1, 4]`. -/
theorem E1_one_four {x : ℝ} (hx : 1 ≤ x) (hx' : x ≤ 4) : |Real.exp (-x) * rat e1bP'.reverse e1bQ.reverse x - E1 x| ≤ 2e-17 * E1 x := by
  have h4 : |Real.exp (-4) * rat e1bP'.reverse e1bQ.reverse 4 - E1 4| ≤ 2e-17 * E1 4 := by
    have := close_mul (s := Real.exp (-4)) (r := rat e1bP'.reverse e1bQ.reverse 4) (δ := 1e-18) (Real.exp_pos _).le (by
      obtain ⟨a1, a2⟩ := e1b_at_4
      obtain ⟨b1, b2⟩ := e1c_at_4
      norm_num at a1 a2 b1 b2
      rw [abs_le]
      constructor <;> norm_num <;> linarith) (by norm_num) (E1_from_four le_rfl)
    refine this.trans (mul_le_mul_of_nonneg_right (by norm_num) (E1_nonneg (by norm_num)))
  have h := E1_step (N := e1bP'.reverse) (M := e1bQ.reverse) (a := x) (b := 4) (ε := 2e-17) (by linarith) hx' (fun y h1 h2 => (e1b_ne (hx.trans h1) h2).ne')
    (fun y h1 h2 => by
      have := certOn_sound e1b_res (x := y) (by norm_num; exact hx.trans h1) (by norm_num; exact h2)
      norm_num at this ⊢
      exact this)
  rw [abs_sub_comm] at h
  have h5 := abs_sub_abs_le_abs_sub (Real.exp (-x) * rat e1bP'.reverse e1bQ.reverse x - E1 x) (Real.exp (-4) * rat e1bP'.reverse e1bQ.reverse 4 - E1 4)
  linarith

theorem e1a_ne {x : ℝ} (hx : 0 ≤ x) (hx' : x ≤ 1) : 0 < pev e1aQ x := posOn_sound e1a_pos (by norm_num; exact hx) (by norm_num; exact hx')

theorem E1_one_bounds : 0.219 ≤ E1 1 ∧ E1 1 ≤ 0.22 := by
  have h := E1_one_four le_rfl (by norm_num)
  obtain ⟨h1, h2⟩ := abs_le.1 h
  obtain ⟨a1, a2⟩ := e1b_at_1
  obtain ⟨c1, c2⟩ := exp_neg_one_bounds
  norm_num at a1 a2
  have l : Real.exp (-1) * rat e1bP'.reverse e1bQ.reverse 1 ≤ 0.2195 :=
    (mul_le_mul c2 a2 (by linarith) (by norm_num)).trans (by norm_num)
  have u : 0.2193 ≤ Real.exp (-1) * rat e1bP'.reverse e1bQ.reverse 1 := by
    refine le_trans ?_ (mul_le_mul c1 a1 (by norm_num) (Real.exp_pos _).le)
    norm_num
  constructor <;> linarith

/-- On `(0, 1]`. -/
theorem E1_zero_one {x : ℝ} (hx : 0 < x) (hx' : x ≤ 1) : |-Real.log x + rat e1aP e1aQ x - E1 x| ≤ 1.6e-17 := by
  have h1 : |-Real.log 1 + rat e1aP e1aQ 1 - E1 1| ≤ 5e-18 := by
    have h := E1_one_four le_rfl (by norm_num)
    obtain ⟨h1, h2⟩ := abs_le.1 h
    obtain ⟨a1, a2⟩ := e1b_at_1
    obtain ⟨b1, b2⟩ := e1a_at_1
    obtain ⟨c1, c2⟩ := exp_neg_one_bounds
    obtain ⟨d1, d2⟩ := E1_one_bounds
    norm_num at a1 a2 b1 b2
    have l := mul_le_mul c2 a2 (by linarith) (by norm_num)
    have u := mul_le_mul c1 a1 (by norm_num) (Real.exp_pos _).le
    norm_num at l u
    rw [Real.log_one, neg_zero, zero_add, abs_le]
    constructor <;> norm_num at h1 h2 d1 d2 ⊢ <;> linarith
  have h := E1_zero_step (P := e1aP) (Q := e1aQ) (a := x) (b := 1) (ε := 1e-17) (η := 1e-20) (n := 21) hx hx' (by norm_num)
    (by norm_num [Nat.factorial]) (fun y h1 h2 => (e1a_ne (hx.le.trans h1) h2).ne') (fun y h1 h2 => by
      have := certOn_sound e1a_res (x := y) (by norm_num; exact hx.le.trans h1) (by norm_num; exact h2)
      norm_num at this ⊢
      exact this)
  rw [abs_sub_comm] at h
  have h5 := abs_sub_abs_le_abs_sub (-Real.log x + rat e1aP e1aQ x - E1 x) (-Real.log 1 + rat e1aP e1aQ 1 - E1 1)
  norm_num at h h1 h5 ⊢
  linarith

/-! ## `Ei` -/

theorem ei6_ne {x : ℝ} (hx : 0 ≤ x) (hx' : x ≤ 6) : pev ei6M x ≠ 0 := by
  have h := posOn_sound ei6_pos (x := x) (by norm_num; exact hx) (by norm_num; exact hx')
  rw [pev_pscale] at h
  intro h0
  rw [h0, mul_zero] at h
  exact lt_irrefl _ h

theorem continuousAt_rat {N M : List ℤ} {x : ℝ} (h : pev M x ≠ 0) : ContinuousAt (rat N M) x := (hasDerivAt_rat h).continuousAt

/-- On `(0, 6]`. -/
theorem Ei_zero_six {x : ℝ} (hx : 0 < x) (hx' : x ≤ 6) : |Real.log (x / eiX0) + rat ei6N ei6M x - eiF x| ≤ 2e-17 + 1.001e-16 * x := by
  have hx0 : (0 : ℝ) < eiX0 := by norm_num [eiX0]
  have key : ∀ᶠ a in 𝓝[>] (0 : ℝ), |Real.log (x / eiX0) + rat ei6N ei6M x - eiF x| ≤
      |rat e1aP e1aQ a + rat ei6N ei6M a - Real.log eiX0 - (eiF a + E1 a)| + 1.6e-17 + 1.001e-16 * (x - a) := by
    have h1 : Iio (min x 1) ∈ 𝓝 (0 : ℝ) := Iio_mem_nhds (lt_min hx one_pos)
    filter_upwards [self_mem_nhdsWithin, mem_nhdsWithin_of_mem_nhds h1] with a ha ha'
    have ha0 : 0 < a := ha
    have hax : a ≤ x := (lt_of_lt_of_le ha' (min_le_left _ _)).le
    have ha1 : a ≤ 1 := (lt_of_lt_of_le ha' (min_le_right _ _)).le
    have h := Ei_zero_step (U := ei6N) (V := ei6M) (x0 := eiX0) (a := a) (b := x) (ε := 1e-16) (η := 1e-19) (n := 45) hx0 ha0 hax (by
        push_cast
        rw [div_le_iff₀ (by norm_num)]
        linarith) (by
        have h6 : x ^ 45 ≤ 6 ^ 45 := pow_le_pow_left₀ hx.le hx' 45
        refine le_trans (b := (6 : ℝ) ^ 45 / ((45 + 1).factorial : ℝ) * 2) (by gcongr) ?_
        norm_num [Nat.factorial]) (fun y h1 h2 => ei6_ne (ha0.le.trans h1) (h2.trans hx')) (fun y h1 h2 => by
        have := certOn_sound ei6_res (x := y) (by norm_num; exact ha0.le.trans h1) (by norm_num; exact h2.trans hx')
        norm_num at this ⊢
        exact this)
    have h2 := E1_zero_one ha0 ha1
    have e : Real.log (a / eiX0) + rat ei6N ei6M a - eiF a =
        (rat e1aP e1aQ a + rat ei6N ei6M a - Real.log eiX0 - (eiF a + E1 a)) - (-Real.log a + rat e1aP e1aQ a - E1 a) := by
      rw [Real.log_div ha0.ne' hx0.ne']
      ring
    have h3 := abs_sub (rat e1aP e1aQ a + rat ei6N ei6M a - Real.log eiX0 - (eiF a + E1 a)) (-Real.log a + rat e1aP e1aQ a - E1 a)
    rw [← e] at h3
    have h4 := abs_sub_abs_le_abs_sub (Real.log (x / eiX0) + rat ei6N ei6M x - eiF x) (Real.log (a / eiX0) + rat ei6N ei6M a - eiF a)
    have h5 : ((1e-16 : ℝ) + 1e-19) * (x - a) = 1.001e-16 * (x - a) := by norm_num
    rw [h5] at h
    linarith
  have lim : Tendsto (fun a => |rat e1aP e1aQ a + rat ei6N ei6M a - Real.log eiX0 - (eiF a + E1 a)| + 1.6e-17 + 1.001e-16 * (x - a)) (𝓝[>] 0)
      (𝓝 (|rat e1aP e1aQ 0 + rat ei6N ei6M 0 - Real.log eiX0 - 0| + 1.6e-17 + 1.001e-16 * (x - 0))) := by
    have c1 : Tendsto (rat e1aP e1aQ) (𝓝[>] 0) (𝓝 (rat e1aP e1aQ 0)) :=
      (continuousAt_rat (e1a_ne le_rfl (by norm_num)).ne').tendsto.mono_left nhdsWithin_le_nhds
    have c2 : Tendsto (rat ei6N ei6M) (𝓝[>] 0) (𝓝 (rat ei6N ei6M 0)) :=
      (continuousAt_rat (ei6_ne le_rfl (by norm_num))).tendsto.mono_left nhdsWithin_le_nhds
    have c3 : Tendsto (fun a : ℝ => a) (𝓝[>] 0) (𝓝 0) := tendsto_id.mono_left nhdsWithin_le_nhds
    exact ((((c1.add c2).sub_const _).sub tendsto_eiF_add_E1).abs.add_const _).add ((c3.const_sub x).const_mul _)
  have h := le_of_tendsto_of_tendsto tendsto_const_nhds lim key
  have h0 : |rat e1aP e1aQ 0 + rat ei6N ei6M 0 - Real.log eiX0 - 0| ≤ 1e-18 := by
    obtain ⟨a1, a2⟩ := e1a_at_0
    obtain ⟨b1, b2⟩ := ei6_at_0
    obtain ⟨c1, c2⟩ := log_two_bounds
    obtain ⟨d1, d2⟩ := log_x0_bounds
    rw [log_eiX0, sub_zero, abs_le]
    norm_num at a1 a2 b1 b2
    constructor <;> norm_num at c1 c2 d1 d2 ⊢ <;> linarith
  norm_num at h h0 ⊢
  linarith

theorem eiF_six : 80 ≤ eiF 6 := by
  have h := Ei_zero_six (x := 6) (by norm_num) le_rfl
  obtain ⟨h1, h2⟩ := abs_le.1 h
  obtain ⟨a1, a2⟩ := ei6_at_6
  obtain ⟨c1, c2⟩ := log_two_bounds
  obtain ⟨d1, d2⟩ := log_r6_bounds
  rw [log_six_eiX0] at h1 h2
  norm_num at a1 a2 h1 h2
  linarith

theorem ei12_ne {x : ℝ} (hx : 6 ≤ x) (hx' : x ≤ 12) : pev ei12M' x ≠ 0 := by
  have h := posOn_sound ei12_pos (x := x) (by norm_num; exact hx) (by norm_num; exact hx')
  rw [pev_pscale] at h
  intro h0
  rw [h0, mul_zero] at h
  exact lt_irrefl _ h

/-- On `[6, 12]`. -/
theorem Ei_six_twelve {x : ℝ} (hx : 6 ≤ x) (hx' : x ≤ 12) : |Real.exp x * rat ei12N' ei12M' x - eiF x| ≤ 1e-16 * eiF x := by
  have h6 : |Real.exp 6 * rat ei12N' ei12M' 6 - eiF 6| ≤ 1e-17 * eiF 6 := by
    have h := Ei_zero_six (x := 6) (by norm_num) le_rfl
    obtain ⟨h1, h2⟩ := abs_le.1 h
    obtain ⟨a1, a2⟩ := ei6_at_6
    obtain ⟨b1, b2⟩ := ei12_at_6
    obtain ⟨c1, c2⟩ := log_two_bounds
    obtain ⟨d1, d2⟩ := log_r6_bounds
    obtain ⟨f1, f2⟩ := exp_six_bounds
    have h8 := eiF_six
    rw [log_six_eiX0] at h1 h2
    norm_num at a1 a2 b1 b2
    have l := mul_le_mul f2 b2 (by linarith) (by norm_num)
    have u := mul_le_mul f1 b1 (by norm_num) (Real.exp_pos _).le
    rw [abs_le]
    norm_num at c1 c2 d1 d2 h1 h2 l u
    constructor <;> norm_num <;> linarith
  refine join (Ei_step (N := ei12N') (M := ei12M') (a := 6) (b := x) (ε := 1e-16) (by norm_num) hx (fun y h1 h2 => ei12_ne h1 (h2.trans hx'))
    (fun y h1 h2 => ?_)) h6 (by norm_num) (by linarith [eiF_six])
  have := certOn_sound ei12_res (x := y) (by norm_num; exact h1) (by norm_num; exact h2.trans hx')
  norm_num at this ⊢
  exact this

theorem eiF_nonneg {x : ℝ} (hx : 6 ≤ x) : 0 ≤ eiF x := by
  have := eiF_mono (a := 6) (b := x) (by norm_num) hx
  linarith [eiF_six]

theorem ei24_ne {x : ℝ} (hx : 12 ≤ x) (hx' : x ≤ 24) : pev ei24M x ≠ 0 := by
  have h := posOn_sound ei24_pos (x := x) (by norm_num; exact hx) (by norm_num; exact hx')
  rw [pev_pscale] at h
  intro h0
  rw [h0, mul_zero] at h
  exact lt_irrefl _ h

/-- On `[12, 24]`. -/
theorem Ei_twelve_twentyfour {x : ℝ} (hx : 12 ≤ x) (hx' : x ≤ 24) : |Real.exp x * rat ei24N ei24M x - eiF x| ≤ 1.01e-16 * eiF x := by
  have h12 : |Real.exp 12 * rat ei24N ei24M 12 - eiF 12| ≤ 1.01e-16 * eiF 12 := by
    have := close_mul (s := Real.exp 12) (r := rat ei24N ei24M 12) (δ := 5e-19) (Real.exp_pos _).le (by
      obtain ⟨a1, a2⟩ := ei24_at_12
      obtain ⟨b1, b2⟩ := ei12_at_12
      norm_num at a1 a2 b1 b2
      rw [abs_le]
      constructor <;> norm_num <;> linarith) (by norm_num) (Ei_six_twelve (x := 12) (by norm_num) le_rfl)
    refine this.trans (mul_le_mul_of_nonneg_right (by norm_num) (eiF_nonneg (by norm_num)))
  have h := Ei_step (N := ei24N) (M := ei24M) (a := 12) (b := x) (ε := 1e-17) (by norm_num) hx (fun y h1 h2 => ei24_ne h1 (h2.trans hx'))
    (fun y h1 h2 => by
      have := certOn_sound ei24_res (x := y) (by norm_num; exact h1) (by norm_num; exact h2.trans hx')
      norm_num at this ⊢
      exact this)
  refine join (h.trans ?_) h12 le_rfl (eiF_nonneg (by norm_num))
  exact mul_le_mul_of_nonneg_right (by norm_num) (by linarith [eiF_mono (a := 12) (b := x) (by norm_num) hx])

theorem eiInf_ne {x : ℝ} (hx : 24 ≤ x) : pev eiInfM x ≠ 0 := by
  have h := posFrom_sound eiInf_pos (x := x) (by norm_num; exact hx)
  rw [pev_pscale] at h
  intro h0
  rw [h0, mul_zero] at h
  exact lt_irrefl _ h

/-- From 24 on. -/
theorem Ei_from_twentyfour {x : ℝ} (hx : 24 ≤ x) : |Real.exp x * rat eiInfN eiInfM x - eiF x| ≤ 1.02e-16 * eiF x := by
  have h24 : |Real.exp 24 * rat eiInfN eiInfM 24 - eiF 24| ≤ 1.02e-16 * eiF 24 := by
    have := close_mul (s := Real.exp 24) (r := rat eiInfN eiInfM 24) (δ := 9e-19) (Real.exp_pos _).le (by
      obtain ⟨a1, a2⟩ := eiInf_at_24
      obtain ⟨b1, b2⟩ := ei24_at_24
      norm_num at a1 a2 b1 b2
      rw [abs_le]
      constructor <;> norm_num <;> linarith) (by norm_num) (Ei_twelve_twentyfour (x := 24) (by norm_num) le_rfl)
    refine this.trans (mul_le_mul_of_nonneg_right (by norm_num) (eiF_nonneg (by norm_num)))
  have h := Ei_step (N := eiInfN) (M := eiInfM) (a := 24) (b := x) (ε := 1e-16) (by norm_num) hx (fun y h1 h2 => eiInf_ne h1)
    (fun y h1 h2 => by
      have := certFrom_sound eiInf_res (x := y) (by norm_num; exact h1)
      norm_num at this ⊢
      exact this)
  refine join (h.trans ?_) h24 le_rfl (eiF_nonneg (by norm_num))
  exact mul_le_mul_of_nonneg_right (by norm_num) (by linarith [eiF_mono (a := 24) (b := x) (by norm_num) hx])

end MU.ExpInt
