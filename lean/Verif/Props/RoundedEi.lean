import Verif.Lemmas.RoundedFractionCert
import Verif.Props.RoundedSpecialFunctions
import Verif.Props.RoundedChebyshevCompute

/-!
# Ei_approximation and expEi in double arithmetic (C140)

`PolyClose ε 9 TR`: boost's Chebyshev polynomials are within `ε` of the exact ones on [-1, 1], up to degree 9.
-/

set_option linter.unusedSectionVars false

namespace MU
open Spec ExpInt PolyCheck

variable {rnd : ℝ → ℝ} {M : ELib} {TR : Nat → ℝ → ℝ}

/-! ## The continued fractions -/

theorem near_of_abs {k : ℕ} {F G : ℝ} (h : |G - F| ≤ k * uround * |F|) : Near k |F| F G := by
  refine ⟨h.trans (mul_le_mul_of_nonneg_right ?_ (abs_nonneg F)), le_rfl⟩
  have := one_add_mul_le_pow (show (-2 : ℝ) ≤ uround by linarith [uround_pos]) k
  unfold gam
  linarith

theorem fraction_near (hr : ToNearest rnd) (B : Build) {al be : List ℝ} {A Bt : List ℤ} {ws : List (ℤ × ℤ)} {c T d m : ℤ} {x ke kc kz r : ℝ} (n : ℕ) (hx : 0 ≤ x)
    (hA : al = A.map fun (a : ℤ) => (a : ℝ) / c) (hB : be = Bt.map fun (a : ℤ) => (a : ℝ) / c) (hc : 0 < c) (hT : 0 < T)
    (h : A.length = 10 ∧ Bt.length = 9 ∧ ∀ b ∈ Bt, b ≠ 0) (hw : ws.length = 9 ∧ ∀ w ∈ ws, 0 ≤ w.1 ∧ 0 ≤ w.2 ∧ T ^ 2 ≤ w.1 * w.2)
    (hden : pev (cfDen c A Bt) x ≠ 0)
    (hE : |pev (cfErr c T A.tail Bt ws) x| ≤ ke * pev (pscale T (pmul (cfPair c A.tail Bt).2 (cfPair c A.tail Bt).2)) x)
    (hC : |pev (cfCrude c A.tail Bt) x| ≤ kc * pev (pmul (cfPair c A.tail Bt).2 (cfPair c A.tail Bt).2) x)
    (hZ : |pev (cfSize c A.tail Bt).2 x| ≤ kz * pev (pscale 1 (cfPair c A.tail Bt).2) x)
    (hV : |pev (psub (pscale d (cfNum c A Bt)) (pscale m (cfDen c A Bt))) x| ≤ r * pev (pscale 1 (cfDen c A Bt)) x)
    (h1 : 0 ≤ ke) (h1' : ke ≤ 1000) (h2 : kc ≤ 3e10) (h3 : kz ≤ 1e6) (h3' : 0 < kz)
    (ha0 : |(A.headD 0 : ℝ) / c| ≤ 1.001) (hd : 0 < d) (v1 : d ≤ m - r) (v2 : m + r ≤ 2 * d) (hn : 1.001 + 1.03 * ke + 0.02 ≤ (n : ℝ) - 1) :
    ∃ F, continuedFractionR rnd B al be x = .ok F ∧ 1 ≤ rat (cfNum c A Bt) (cfDen c A Bt) x ∧
      Near n |rat (cfNum c A Bt) (cfDen c A Bt) x| (rat (cfNum c A Bt) (cfDen c A Bt) x) F := by
  have hc0 : (0 : ℝ) < c := by exact_mod_cast hc
  have hd0 : (0 : ℝ) < d := by exact_mod_cast hd
  have hq0 : 0 ≤ pev (cfPair c A.tail Bt).2 x := by
    have := (abs_nonneg _).trans hZ
    rw [pev_pscale, Int.cast_one, one_mul] at this
    exact nonneg_of_mul_nonneg_right this h3'
  have hq : pev (cfPair c A.tail Bt).2 x ≠ 0 := by
    intro h
    rw [cfDen, pev_pscale, h, mul_zero] at hden
    exact hden rfl
  have hDp : 0 < pev (cfDen c A Bt) x := by
    rw [cfDen, pev_pscale]
    exact mul_pos hc0 (lt_of_le_of_ne hq0 hq.symm)
  rw [pev_pscale, Int.cast_one, one_mul] at hZ
  rw [pev_psub, pev_pscale, pev_pscale, pev_pscale, Int.cast_one, one_mul] at hV
  have hval : |d * rat (cfNum c A Bt) (cfDen c A Bt) x - m| ≤ r := by
    rw [rat, show (d : ℝ) * (pev (cfNum c A Bt) x / pev (cfDen c A Bt) x) - m =
      (d * pev (cfNum c A Bt) x - m * pev (cfDen c A Bt) x) / pev (cfDen c A Bt) x by field_simp, abs_div, abs_of_pos hDp, div_le_iff₀ hDp]
    exact hV
  obtain ⟨hv1, hv2⟩ := abs_le.1 hval
  have f1 : 1 ≤ rat (cfNum c A Bt) (cfDen c A Bt) x := by
    by_contra hlt
    have := mul_lt_mul_of_pos_left (not_le.1 hlt) hd0
    linarith
  have f2 : rat (cfNum c A Bt) (cfDen c A Bt) x ≤ 2 := by
    by_contra hlt
    have := mul_lt_mul_of_pos_left (not_le.1 hlt) hd0
    linarith
  have fa : |rat (cfNum c A Bt) (cfDen c A Bt) x| = rat (cfNum c A Bt) (cfDen c A Bt) x := abs_of_pos (by linarith)
  obtain ⟨F, hF, he⟩ := continuedFractionR_near hr B hx hA hB hc hT h hw hq hE hC (by rw [abs_of_nonneg hq0]; exact hZ) h1 h1' h2 h3 (ha0.trans (by norm_num))
    (by rw [fa]; exact f2)
  refine ⟨F, hF, f1, near_of_abs (he.trans ?_)⟩
  rw [fa]
  generalize rat (cfNum c A Bt) (cfDen c A Bt) x = G at f1
  rw [mul_comm (n : ℝ) uround, mul_assoc]
  refine mul_le_mul_of_nonneg_left ?_ uround_nonneg
  have : ((n : ℝ) - 1) * 1 ≤ ((n : ℝ) - 1) * G := mul_le_mul_of_nonneg_left f1 (by linarith)
  linarith

theorem ei12_fraction (hr : ToNearest rnd) (B : Build) {x : ℝ} (hx : 6 ≤ x) (hx' : x ≤ 12) :
    ∃ F, continuedFractionR rnd B ei12_alphaj ei12_betaj x = .ok F ∧ 1 ≤ rat (cfNum (10 ^ 25) ei12A ei12B) (cfDen (10 ^ 25) ei12A ei12B) x ∧
      Near 30 |rat (cfNum (10 ^ 25) ei12A ei12B) (cfDen (10 ^ 25) ei12A ei12B) x| (rat (cfNum (10 ^ 25) ei12A ei12B) (cfDen (10 ^ 25) ei12A ei12B) x) F := by
  have ha : ei12_alphaj = ei12A.map fun (a : ℤ) => (a : ℝ) / ((10 ^ 25 : ℤ) : ℝ) := by norm_num [ei12_alphaj, ei12A]
  have hb : ei12_betaj = ei12B.map fun (a : ℤ) => (a : ℝ) / ((10 ^ 25 : ℤ) : ℝ) := by norm_num [ei12_betaj, ei12B]
  have l : ((6 : ℤ) : ℝ) / (1 : ℤ) ≤ x := by norm_num; exact hx
  have l' : x ≤ ((12 : ℤ) : ℝ) / (1 : ℤ) := by norm_num; exact hx'
  have hne := posOn_sound ei12_pos_code (x := x) (by norm_num; exact hx) (by norm_num; exact hx')
  have hq : pev (cfDen (10 ^ 25) ei12A ei12B) x ≠ 0 := by
    intro h
    rw [pev_pscale, ei12M, pev, h] at hne
    simp at hne
  exact fraction_near hr B 30 (by linarith) ha hb (by norm_num) (by norm_num) (by decide) (by decide) hq (certOn_sound ei12_err l l') (certOn_sound ei12_crude l l')
    (certOn_sound ei12_size l l') (certOn_sound ei12_value l l') (by norm_num) (by norm_num) (by norm_num) (by norm_num) (by norm_num)
    (by norm_num [ei12A, abs_le]) (by norm_num) (by norm_num) (by norm_num) (by norm_num)

theorem ei24_fraction (hr : ToNearest rnd) (B : Build) {x : ℝ} (hx : 12 ≤ x) (hx' : x ≤ 24) :
    ∃ F, continuedFractionR rnd B ei24_alphaj ei24_betaj x = .ok F ∧ 1 ≤ rat (cfNum (10 ^ 22) ei24A ei24B) (cfDen (10 ^ 22) ei24A ei24B) x ∧
      Near 3 |rat (cfNum (10 ^ 22) ei24A ei24B) (cfDen (10 ^ 22) ei24A ei24B) x| (rat (cfNum (10 ^ 22) ei24A ei24B) (cfDen (10 ^ 22) ei24A ei24B) x) F := by
  have ha : ei24_alphaj = ei24A.map fun (a : ℤ) => (a : ℝ) / ((10 ^ 22 : ℤ) : ℝ) := by norm_num [ei24_alphaj, ei24A]
  have hb : ei24_betaj = ei24B.map fun (a : ℤ) => (a : ℝ) / ((10 ^ 22 : ℤ) : ℝ) := by norm_num [ei24_betaj, ei24B]
  have l : ((12 : ℤ) : ℝ) / (1 : ℤ) ≤ x := by norm_num; exact hx
  have l' : x ≤ ((24 : ℤ) : ℝ) / (1 : ℤ) := by norm_num; exact hx'
  have hne := ei24_ne hx hx'
  have hq : pev (cfDen (10 ^ 22) ei24A ei24B) x ≠ 0 := by
    intro h
    rw [ei24M, pev, h] at hne
    simp at hne
  exact fraction_near hr B 3 (by linarith) ha hb (by norm_num) (by norm_num) (by decide) (by decide) hq (certOn_sound ei24_err l l') (certOn_sound ei24_crude l l')
    (certOn_sound ei24_size l l') (certOn_sound ei24_value l l') (by norm_num) (by norm_num) (by norm_num) (by norm_num) (by norm_num)
    (by norm_num [ei24A, abs_le]) (by norm_num) (by norm_num) (by norm_num) (by norm_num)

theorem eiInf_fraction (hr : ToNearest rnd) (B : Build) {al be : List ℝ} (ha : al = eiInfA.map fun (a : ℤ) => (a : ℝ) / ((10 ^ 20 : ℤ) : ℝ))
    (hb : be = eiInfB.map fun (a : ℤ) => (a : ℝ) / ((10 ^ 20 : ℤ) : ℝ)) {x : ℝ} (hx : 24 ≤ x) :
    ∃ F, continuedFractionR rnd B al be x = .ok F ∧ 1 ≤ rat (cfNum (10 ^ 20) eiInfA eiInfB) (cfDen (10 ^ 20) eiInfA eiInfB) x ∧
      Near 3 |rat (cfNum (10 ^ 20) eiInfA eiInfB) (cfDen (10 ^ 20) eiInfA eiInfB) x| (rat (cfNum (10 ^ 20) eiInfA eiInfB) (cfDen (10 ^ 20) eiInfA eiInfB) x) F := by
  have l : ((24 : ℤ) : ℝ) / (1 : ℤ) ≤ x := by norm_num; exact hx
  exact fraction_near hr B 3 (by linarith) ha hb (by norm_num) (by norm_num) (by decide) (by decide) (eiInf_den hx) (certFrom_sound eiInf_err l)
    (certFrom_sound eiInf_crude l) (certFrom_sound eiInf_size l) (certFrom_sound eiInf_value l) (by norm_num) (by norm_num) (by norm_num) (by norm_num) (by norm_num)
    (by norm_num [eiInfA, abs_le]) (by norm_num) (by norm_num) (by norm_num) (by norm_num)

theorem not_refusedR' (hr : ToNearest rnd) {x : ℝ} (hd : Double x) (hx : 1 ≤ x) : ¬ (isCloseZeroR rnd x ∨ x < 0) := by
  refine not_refusedR hr hd (lt_of_lt_of_le ?_ hx)
  have h1 := toNearest_mono hr (show (1e-8 : ℝ) ≤ 1 / 2 by norm_num)
  rw [toNearest_double hr (show Double (1 / 2) from ⟨1, -1, by norm_num, by norm_num⟩)] at h1
  linarith

/-- `exp(x) / x`, rounded. -/
theorem exp_div_near (hr : ToNearest rnd) (hM : ELib.Close M) {x : ℝ} (h0 : 0 < x) : Near 3 (Real.exp x / x) (Real.exp x / x) (rnd (M.exp x / x)) := by
  have := ((exp_near hM x).mul (Near.exact x⁻¹)).round hr
  rw [abs_of_pos (inv_pos.2 h0), ← div_eq_mul_inv, ← div_eq_mul_inv] at this
  exact this

theorem ei_six_twelve_R (hr : ToNearest rnd) (hM : ELib.Close M) (B : Build) {x : ℝ} (hd : Double x) (hx : 6 ≤ x) (hx' : x < 12) :
    ∃ w v, eiApproximationR rnd M TR B x = .ok w ∧ eiApproximation B x = .ok v ∧ 0 < v ∧ |w - v| ≤ 35 / 2 ^ 53 * v := by
  have h0 : (0 : ℝ) < x := by linarith
  obtain ⟨F, hF, h1, hn⟩ := ei12_fraction hr B hx hx'.le
  have key : Real.exp x * rat ei12N ei12M x = Real.exp x / x * rat (cfNum (10 ^ 25) ei12A ei12B) (cfDen (10 ^ 25) ei12A ei12B) x := by
    rw [rat, rat, ei12N, ei12M, pev]
    have hx0 : x ≠ 0 := h0.ne'
    push_cast
    simp only [zero_add]
    rw [mul_comm x, ← div_div]
    ring
  have hv := ei_six_twelve B hx hx'
  rw [key] at hv
  generalize rat (cfNum (10 ^ 25) ei12A ei12B) (cfDen (10 ^ 25) ei12A ei12B) x = G at *
  have hG : 0 < G := by linarith
  refine ⟨rnd (rnd (M.exp x / x) * F), _, ?_, hv, by positivity, ?_⟩
  · unfold eiApproximationR
    rw [if_neg (not_refusedR' hr hd (by linarith)), if_neg (by rintro ⟨_, h⟩; linarith), if_pos ⟨hx, hx'⟩, hF, Res.ok_bind, Res.pure_eq]
  · have := ((exp_div_near hr hM h0).mul hn).round hr
    rw [abs_of_pos hG] at this
    exact (this.sum_le (by norm_num)).trans (le_of_eq (by norm_num))

theorem ei_twelve_twentyfour_R (hr : ToNearest rnd) (hM : ELib.Close M) (B : Build) {x : ℝ} (hd : Double x) (hx : 12 ≤ x) (hx' : x < 24) :
    ∃ w v, eiApproximationR rnd M TR B x = .ok w ∧ eiApproximation B x = .ok v ∧ 0 < v ∧ |w - v| ≤ 8 / 2 ^ 53 * v := by
  have h0 : (0 : ℝ) < x := by linarith
  obtain ⟨F, hF, h1, hn⟩ := ei24_fraction hr B hx hx'.le
  have key : Real.exp x * rat ei24N ei24M x = Real.exp x / x * rat (cfNum (10 ^ 22) ei24A ei24B) (cfDen (10 ^ 22) ei24A ei24B) x := by
    rw [rat, rat, ei24N, ei24M, pev]
    have hx0 : x ≠ 0 := h0.ne'
    push_cast
    simp only [zero_add]
    rw [mul_comm x, ← div_div]
    ring
  have hv := ei_twelve_twentyfour B hx hx'
  rw [key] at hv
  generalize rat (cfNum (10 ^ 22) ei24A ei24B) (cfDen (10 ^ 22) ei24A ei24B) x = G at *
  have hG : 0 < G := by linarith
  refine ⟨rnd (rnd (M.exp x / x) * F), _, ?_, hv, by positivity, ?_⟩
  · unfold eiApproximationR
    rw [if_neg (not_refusedR' hr hd (by linarith)), if_neg (by rintro ⟨_, h⟩; linarith), if_neg (by rintro ⟨_, h⟩; linarith), if_pos ⟨hx, hx'⟩, hF,
      Res.ok_bind, Res.pure_eq]
  · have := ((exp_div_near hr hM h0).mul hn).round hr
    rw [abs_of_pos hG] at this
    exact (this.sum_le (by norm_num)).trans (le_of_eq (by norm_num))

/-- `1 + (1 / x) f`, rounded. -/
theorem tail_near (hr : ToNearest rnd) {x G F : ℝ} (h0 : 0 < x) (hG : 0 < G) (hn : Near 3 |G| G F) :
    Near 6 (1 + 1 / x * G) (1 + 1 / x * G) (rnd (1 + rnd (rnd (1 / x) * F))) := by
  have h1 := (Near.exact (1 / x)).round hr
  have h2 := (h1.mul hn).round hr
  have h3 := (((Near.exact (1 : ℝ)).upto (Nat.zero_le 5)).add h2).round hr
  rwa [abs_one, abs_of_pos hG, abs_of_pos (one_div_pos.2 h0)] at h3

theorem eiInf_value_eq {x : ℝ} (hx : 24 ≤ x) :
    rat eiInfN eiInfM x = 1 / x * (1 + 1 / x * rat (cfNum (10 ^ 20) eiInfA eiInfB) (cfDen (10 ^ 20) eiInfA eiInfB) x) := by
  have hq := eiInf_den hx
  rw [rat, rat, eiInfN, eiInfM, pev_padd, pev, pev, pev]
  generalize pev (cfDen (10 ^ 20) eiInfA eiInfB) x = d at hq ⊢
  generalize pev (cfNum (10 ^ 20) eiInfA eiInfB) x = n
  have hx0 : x ≠ 0 := by linarith
  push_cast
  simp only [zero_add]
  field_simp

theorem ei_from_twentyfour_R (hr : ToNearest rnd) (hM : ELib.Close M) (B : Build) {x : ℝ} (hd : Double x) (hx : 24 ≤ x) :
    ∃ w v, eiApproximationR rnd M TR B x = .ok w ∧ eiApproximation B x = .ok v ∧ 0 < v ∧ |w - v| ≤ 11 / 2 ^ 53 * v := by
  have h0 : (0 : ℝ) < x := by linarith
  have ha : eiInf_alphaj = eiInfA.map fun (a : ℤ) => (a : ℝ) / ((10 ^ 20 : ℤ) : ℝ) := by norm_num [eiInf_alphaj, eiInfA]
  have hb : eiInf_betaj = eiInfB.map fun (a : ℤ) => (a : ℝ) / ((10 ^ 20 : ℤ) : ℝ) := by norm_num [eiInf_betaj, eiInfB]
  obtain ⟨F, hF, h1, hn⟩ := eiInf_fraction hr B ha hb hx
  have hv := ei_from_twentyfour B hx
  rw [eiInf_value_eq hx, ← mul_assoc, mul_one_div] at hv
  generalize rat (cfNum (10 ^ 20) eiInfA eiInfB) (cfDen (10 ^ 20) eiInfA eiInfB) x = G at *
  have hG : 0 < G := by linarith
  refine ⟨rnd (rnd (M.exp x / x) * rnd (1 + rnd (rnd (1 / x) * F))), _, ?_, hv, by positivity, ?_⟩
  · unfold eiApproximationR
    rw [if_neg (not_refusedR' hr hd (by linarith)), if_neg (by rintro ⟨_, h⟩; linarith), if_neg (by rintro ⟨_, h⟩; linarith),
      if_neg (by rintro ⟨_, h⟩; linarith), hF, Res.ok_bind, Res.pure_eq]
  · have := ((exp_div_near hr hM h0).mul (tail_near hr h0 hG hn)).round hr
    exact (this.sum_le (by norm_num)).trans (le_of_eq (by norm_num))

theorem expEi_from_twentyfour_R (hr : ToNearest rnd) (expint expint' : ℝ → Res ℝ) (B : Build) {x : ℝ} (hx : 24 ≤ x) :
    ∃ w v, expEiR rnd M expint' B x = .ok w ∧ expEi expint B x = .ok v ∧ 0 < v ∧ |w - v| ≤ 9 / 2 ^ 53 * v := by
  have h0 : (0 : ℝ) < x := by linarith
  have ha : expEi_alphaj = eiInfA.map fun (a : ℤ) => (a : ℝ) / ((10 ^ 20 : ℤ) : ℝ) := by norm_num [expEi_alphaj, eiInfA]
  have hb : expEi_betaj = eiInfB.map fun (a : ℤ) => (a : ℝ) / ((10 ^ 20 : ℤ) : ℝ) := by norm_num [expEi_betaj, eiInfB]
  obtain ⟨F, hF, h1, hn⟩ := eiInf_fraction hr B ha hb hx
  have hv := expEi_from_twentyfour expint B hx
  rw [eiInf_value_eq hx] at hv
  generalize rat (cfNum (10 ^ 20) eiInfA eiInfB) (cfDen (10 ^ 20) eiInfA eiInfB) x = G at *
  have hG : 0 < G := by linarith
  refine ⟨rnd (rnd (1 / x) * rnd (1 + rnd (rnd (1 / x) * F))), _, ?_, hv, by positivity, ?_⟩
  · unfold expEiR
    rw [if_neg (by linarith), hF, Res.ok_bind, Res.pure_eq]
  · have := (((Near.exact (1 / x)).round hr).mul (tail_near hr h0 hG hn)).round hr
    rw [abs_of_pos (one_div_pos.2 h0)] at this
    exact (this.sum_le (by norm_num)).trans (le_of_eq (by norm_num))

/-! ## The Chebyshev sums below 6 -/

/-- The partial sums of the loop over the degrees, the polynomials having the values `τ`. -/
noncomputable def chebAcc (rnd : ℝ → ℝ) (l : List ℝ) (τ : Nat → ℝ) : Nat → ℝ
  | 0 => rnd (rnd (0.5 * rnd (l.getD 0 0)) * τ 0)
  | n + 1 => rnd (chebAcc rnd l τ n + rnd (rnd (l.getD (n + 1) 0) * τ (n + 1)))

/-- The coefficients, the first one halved. -/
noncomputable def halved (l : List ℝ) (j : Nat) : ℝ := if j = 0 then 0.5 * l.getD 0 0 else l.getD j 0

theorem chebAcc_near (hr : ToNearest rnd) (l : List ℝ) (τ : Nat → ℝ) (n : Nat) :
    Near (n + 3) (∑ j ∈ Finset.range (n + 1), |halved l j| * |τ j|) (∑ j ∈ Finset.range (n + 1), halved l j * τ j) (chebAcc rnd l τ n) := by
  induction n with
  | zero =>
    have := ((((Near.exact (0.5 : ℝ)).mul (Near.literal hr (l.getD 0 0))).round hr).mul (Near.exact (τ 0))).round hr
    rw [← abs_mul] at this
    simpa [halved, chebAcc] using this
  | succ n ih =>
    have h1 := (((Near.literal hr (l.getD (n + 1) 0)).mul (Near.exact (τ (n + 1)))).round hr).upto (l := n + 3) (by omega)
    have := (ih.add h1).round hr
    rw [Finset.sum_range_succ _ (n + 1), Finset.sum_range_succ _ (n + 1)]
    simpa only [halved, chebAcc, Nat.add_eq_zero_iff, one_ne_zero, and_false, if_false] using this

theorem chebyshevSumR_ok (hr : ToNearest rnd) (TR : Nat → ℝ → ℝ) {l : List ℝ} (hl : l.length = 10) (x : ℝ) :
    chebyshevSumR rnd TR (l.map rnd) x = .ok (chebAcc rnd l (fun j => chebyshevShiftedR rnd TR j (rnd (x / 6))) 9) := by
  unfold chebyshevSumR
  rw [vAt_getD (by rw [List.length_map]; omega), Res.ok_bind, getD_map_rnd hr]
  have := forRange_ok (lo := 1) (hi := 10) (by norm_num) (f := fun j (s : ℝ) => do
      let cj ← vAt (l.map rnd) j
      return rnd (s + rnd (cj * chebyshevShiftedR rnd TR j (rnd (x / 6)))))
    (fun m => chebAcc rnd l (fun j => chebyshevShiftedR rnd TR j (rnd (x / 6))) (m - 1)) (by
      intro i h1 hi
      rw [vAt_getD (by rw [List.length_map]; omega), Res.ok_bind, getD_map_rnd hr]
      obtain ⟨k, rfl⟩ : ∃ k, i = k + 1 := ⟨i - 1, by omega⟩
      rfl)
  exact this

theorem chebyshevSum_halved {l : List ℝ} (hl : l.length = 10) (x : ℝ) :
    chebyshevSum l x = .ok (∑ j ∈ Finset.range 10, halved l j * chebyshevShifted j (x / 6)) := by
  match l, hl with
  | [a0, a1, a2, a3, a4, a5, a6, a7, a8, a9], _ =>
    simp [chebyshevSum, forRange, forN, vAt, Finset.sum_range_succ, halved, Res.ok_bind, Res.pure_eq]

theorem chebyshevT_eq_eval (n : Nat) (t : ℝ) : chebyshevT n t = (Polynomial.Chebyshev.T ℝ n).eval t := by
  rw [← chebT_eq]
  induction n using Nat.strong_induction_on with
  | _ n ih =>
    match n with
    | 0 => rfl
    | 1 => rfl
    | n + 2 => rw [chebyshevT, chebT, ih (n + 1) (by omega), ih n (by omega)]

theorem double_twice {y : ℝ} (h : Double y) : Double (2 * y) := by
  obtain ⟨m, e, hm, rfl⟩ := h
  refine ⟨m, e + 1, hm, ?_⟩
  rw [zpow_add_one₀ (by norm_num)]
  ring

/-- The shifted argument, in double. -/
theorem shifted_close (hr : ToNearest rnd) {x : ℝ} (hx : 0 ≤ x) (hx' : x ≤ 6) :
    |rnd (rnd (2 * rnd (x / 6)) - 1)| ≤ 1 ∧ |rnd (rnd (2 * rnd (x / 6)) - 1) - (2 * (x / 6) - 1)| ≤ 3 * uround := by
  have d0 := toNearest_double hr double_zero
  have d1 : rnd 1 = 1 := toNearest_double hr ⟨1, 0, by norm_num, by norm_num⟩
  have d2 : rnd 2 = 2 := toNearest_double hr ⟨2, 0, by norm_num, by norm_num⟩
  have dm : rnd (-1) = -1 := toNearest_double hr ⟨-1, 0, by norm_num, by norm_num⟩
  have y0 : 0 ≤ rnd (x / 6) := by
    have := toNearest_mono hr (show 0 ≤ x / 6 by positivity)
    rwa [d0] at this
  have y1 : rnd (x / 6) ≤ 1 := by
    have := toNearest_mono hr (show x / 6 ≤ 1 by linarith)
    rwa [d1] at this
  have hz : rnd (2 * rnd (x / 6)) = 2 * rnd (x / 6) := toNearest_double hr (double_twice (hr _).1)
  rw [hz]
  have e1 := toNearest_err hr (x / 6)
  have e2 := toNearest_err hr (2 * rnd (x / 6) - 1)
  have b : |2 * rnd (x / 6) - 1| ≤ 1 := abs_le.2 ⟨by linarith, by linarith⟩
  constructor
  · have u := toNearest_mono hr (show 2 * rnd (x / 6) - 1 ≤ 1 by linarith)
    have v := toNearest_mono hr (show -1 ≤ 2 * rnd (x / 6) - 1 by linarith)
    rw [d1] at u
    rw [dm] at v
    exact abs_le.2 ⟨v, u⟩
  · rw [abs_of_nonneg (show 0 ≤ x / 6 by positivity)] at e1
    have e1' : |x / 6 - rnd (x / 6)| ≤ uround := e1.trans (by unfold uround; gcongr; linarith)
    have e2' : |2 * rnd (x / 6) - 1 - rnd (2 * rnd (x / 6) - 1)| ≤ uround := e2.trans (by unfold uround; gcongr)
    have := abs_le.1 e1'
    have := abs_le.1 e2'
    exact abs_le.2 ⟨by linarith, by linarith⟩

/-- The Chebyshev sums: the computed values. -/
theorem chebyshevSumR_near (hr : ToNearest rnd) {ε : ℝ} (hT : PolyClose ε 9 TR) (hε : ε ≤ 1 / 1000) {l : List ℝ} (hl : l.length = 10) {x : ℝ} (hx : 0 ≤ x) (hx' : x ≤ 6) :
    ∃ s S, chebyshevSumR rnd TR (l.map rnd) x = .ok s ∧ chebyshevSum l x = .ok S ∧
      |s - S| ≤ (ε + 13.1 * uround) * (∑ j ∈ Finset.range 10, |halved l j|) + 3 * uround * ∑ j ∈ Finset.range 10, |halved l j| * (j : ℝ) ^ 2 := by
  refine ⟨_, _, chebyshevSumR_ok hr TR hl x, chebyshevSum_halved hl x, ?_⟩
  obtain ⟨s1, s2⟩ := shifted_close hr hx hx'
  have hn := (chebAcc_near hr l (fun j => chebyshevShiftedR rnd TR j (rnd (x / 6))) 9).err
  have hu := uround_pos
  have h2 : |2 * (x / 6) - 1| ≤ 1 := abs_le.2 ⟨by linarith, by linarith⟩
  have hτ : ∀ j ∈ Finset.range 10, |chebyshevShiftedR rnd TR j (rnd (x / 6))| ≤ 1.001 := by
    intro j hj
    have h1 := hT j (by have := Finset.mem_range.1 hj; omega) _ s1
    have h3 := Polynomial.Chebyshev.abs_eval_T_real_le_one j s1
    have h4 := abs_sub_abs_le_abs_sub (TR j (rnd (rnd (2 * rnd (x / 6)) - 1))) ((Polynomial.Chebyshev.T ℝ j).eval (rnd (rnd (2 * rnd (x / 6)) - 1)))
    unfold chebyshevShiftedR
    norm_num at *
    linarith
  have hd : ∀ j ∈ Finset.range 10, |chebyshevShiftedR rnd TR j (rnd (x / 6)) - chebyshevShifted j (x / 6)| ≤ ε + 3 * uround * (j : ℝ) ^ 2 := by
    intro j hj
    have h1 := hT j (by have := Finset.mem_range.1 hj; omega) _ s1
    have h3 := chebT_lipschitz j s1 h2
    rw [chebT_eq, chebT_eq] at h3
    have h4 := abs_sub_le (TR j (rnd (rnd (2 * rnd (x / 6)) - 1))) ((Polynomial.Chebyshev.T ℝ j).eval (rnd (rnd (2 * rnd (x / 6)) - 1)))
      ((Polynomial.Chebyshev.T ℝ j).eval (2 * (x / 6) - 1))
    have h5 : (j : ℝ) ^ 2 * |rnd (rnd (2 * rnd (x / 6)) - 1) - (2 * (x / 6) - 1)| ≤ (j : ℝ) ^ 2 * (3 * uround) := by gcongr
    rw [chebyshevShifted, chebyshevT_eq_eval]
    unfold chebyshevShiftedR
    linarith
  have g12 : gam 12 ≤ 13 * uround := by
    have := gam_le (k := 12) (by norm_num)
    norm_num at this
    linarith
  have t1 : |chebAcc rnd l (fun j => chebyshevShiftedR rnd TR j (rnd (x / 6))) 9 -
      ∑ j ∈ Finset.range 10, halved l j * chebyshevShiftedR rnd TR j (rnd (x / 6))| ≤ 13.1 * uround * ∑ j ∈ Finset.range 10, |halved l j| := by
    refine hn.trans ?_
    have : ∑ j ∈ Finset.range 10, |halved l j| * |chebyshevShiftedR rnd TR j (rnd (x / 6))| ≤ 1.001 * ∑ j ∈ Finset.range 10, |halved l j| := by
      rw [Finset.mul_sum]
      refine Finset.sum_le_sum fun j hj => ?_
      rw [mul_comm]
      exact mul_le_mul_of_nonneg_right (hτ j hj) (abs_nonneg _)
    have hs : 0 ≤ ∑ j ∈ Finset.range 10, |halved l j| := Finset.sum_nonneg fun j _ => abs_nonneg _
    calc _ ≤ 13 * uround * (1.001 * ∑ j ∈ Finset.range 10, |halved l j|) := by
          gcongr
      _ ≤ _ := by
        have : 0 ≤ uround * ∑ j ∈ Finset.range 10, |halved l j| := by positivity
        norm_num
        linarith
  have t2 : |∑ j ∈ Finset.range 10, halved l j * chebyshevShiftedR rnd TR j (rnd (x / 6)) - ∑ j ∈ Finset.range 10, halved l j * chebyshevShifted j (x / 6)| ≤
      ε * (∑ j ∈ Finset.range 10, |halved l j|) + 3 * uround * ∑ j ∈ Finset.range 10, |halved l j| * (j : ℝ) ^ 2 := by
    rw [← Finset.sum_sub_distrib, Finset.mul_sum, Finset.mul_sum, ← Finset.sum_add_distrib]
    refine (Finset.abs_sum_le_sum_abs _ _).trans (Finset.sum_le_sum fun j hj => ?_)
    rw [← mul_sub, abs_mul]
    refine (mul_le_mul_of_nonneg_left (hd j hj) (abs_nonneg _)).trans (le_of_eq (by ring))
  have t3 := abs_sub_le (chebAcc rnd l (fun j => chebyshevShiftedR rnd TR j (rnd (x / 6))) 9)
    (∑ j ∈ Finset.range 10, halved l j * chebyshevShiftedR rnd TR j (rnd (x / 6))) (∑ j ∈ Finset.range 10, halved l j * chebyshevShifted j (x / 6))
  linarith

/-! ## Below 6 -/

theorem quotient_near {N D n d ν μ : ℝ} (hN : |n - N| ≤ ν * |N|) (hD : |d - D| ≤ μ * |D|) (hD0 : D ≠ 0) (hμ : μ ≤ 0.05) (hν : 0 ≤ ν) (hμ0 : 0 ≤ μ) :
    d ≠ 0 ∧ |n / d - N / D| ≤ 1.06 * (ν + μ) * |N / D| := by
  have h0 := abs_pos.2 hD0
  have h1 : 0.95 * |D| ≤ |d| := by
    have := abs_sub_abs_le_abs_sub D d
    rw [abs_sub_comm] at this
    have : μ * |D| ≤ 0.05 * |D| := by gcongr
    linarith
  have h2 : 0 < |d| := lt_of_lt_of_le (by positivity) h1
  have hd : d ≠ 0 := abs_pos.1 h2
  refine ⟨hd, ?_⟩
  rw [div_sub_div _ _ hd hD0, abs_div, abs_mul, div_le_iff₀ (mul_pos h2 h0), abs_div]
  have h3 : |n * D - d * N| ≤ (ν + μ) * |N| * |D| := by
    rw [show n * D - d * N = (n - N) * D - (d - D) * N by ring]
    refine (abs_sub _ _).trans ?_
    rw [abs_mul, abs_mul]
    have := mul_le_mul_of_nonneg_right hN (abs_nonneg D)
    have := mul_le_mul_of_nonneg_right hD (abs_nonneg N)
    linarith
  refine h3.trans ?_
  have h4 : 1 ≤ 1.06 * (|d| / |D|) := by
    have : 0.95 ≤ |d| / |D| := by rw [le_div_iff₀ h0]; exact h1
    norm_num at *
    linarith
  calc (ν + μ) * |N| * |D| ≤ (ν + μ) * |N| * |D| * (1.06 * (|d| / |D|)) := le_mul_of_one_le_right (by positivity) h4
    _ = _ := by field_simp

theorem below_six_arith {u g R ρ xh r y E L w : ℝ} (hu : 0 < u) (hu' : u ≤ 1e-15) (hx : |xh - g| ≤ 0.38 * u + 1.01 * u * |g|) (hR : 0 < R) (hR' : R ≤ 15)
    (hr : |r - R| ≤ ρ * R) (hρ : 0 ≤ ρ) (hρ' : ρ ≤ 0.02) (hy : |y - xh * r| ≤ u * |xh * r|) (hE : |E - L| ≤ 5.2 * u + 3.2 * u * |L|)
    (hw : |w - (E + y)| ≤ u * |E + y|) (hs : |L + g * R| = |L| + |g * R|) :
    |w - (L + g * R)| ≤ (ρ + 5 * u) * |L + g * R| + 12 * u := by
  have hr1 : |r| ≤ 1.02 * R := by
    have := abs_sub_abs_le_abs_sub r R
    rw [abs_of_pos hR] at this
    have : ρ * R ≤ 0.02 * R := by gcongr
    linarith
  have a1 : |xh * r - g * R| ≤ (0.38 * u + 1.01 * u * |g|) * (1.02 * R) + |g| * (ρ * R) := by
    rw [show xh * r - g * R = (xh - g) * r + g * (r - R) by ring]
    refine (abs_add_le _ _).trans ?_
    rw [abs_mul, abs_mul]
    gcongr
  have hgR : |g * R| = |g| * R := by rw [abs_mul, abs_of_pos hR]
  have a2 : |xh * r - g * R| ≤ 5.82 * u + (ρ + 1.04 * u) * |g * R| := by
    refine a1.trans ?_
    rw [hgR]
    have h1 : u * R ≤ u * 15 := by gcongr
    have h2 : 0 ≤ u * (|g| * R) := by positivity
    norm_num at *
    linarith
  have a3 : |xh * r| ≤ 5.82 * u + (1.02 + 1.04 * u) * |g * R| := by
    have := abs_sub_abs_le_abs_sub (xh * r) (g * R)
    have : ρ * |g * R| ≤ 0.02 * |g * R| := by gcongr
    linarith
  have a4 : |y - g * R| ≤ 5.83 * u + (ρ + 2.07 * u) * |g * R| := by
    have t := abs_sub_le y (xh * r) (g * R)
    have h1 : u * |xh * r| ≤ u * (5.82 * 1e-15 + (1.02 + 1.04 * 1e-15) * |g * R|) := by
      gcongr
      exact a3.trans (by gcongr)
    have h2 : 0 ≤ u * |g * R| := by positivity
    norm_num at *
    linarith
  have a5 : |E + y - (L + g * R)| ≤ 11.03 * u + (ρ + 3.2 * u) * |L + g * R| := by
    rw [hs, show E + y - (L + g * R) = (E - L) + (y - g * R) by ring]
    refine (abs_add_le _ _).trans ?_
    have h1 : 0 ≤ ρ * |L| := by positivity
    have h2 : 0 ≤ u * |g * R| := by positivity
    linarith
  have a6 : |E + y| ≤ 11.03 * u + (1.02 + 3.2 * u) * |L + g * R| := by
    have := abs_sub_abs_le_abs_sub (E + y) (L + g * R)
    have : ρ * |L + g * R| ≤ 0.02 * |L + g * R| := by gcongr
    linarith
  have t := abs_sub_le w (E + y) (L + g * R)
  have h1 : u * |E + y| ≤ u * (11.03 * 1e-15 + (1.02 + 3.2 * 1e-15) * |L + g * R|) := by
    gcongr
    exact a6.trans (by gcongr)
  have h2 : 0 ≤ u * |L + g * R| := by positivity
  norm_num at *
  linarith

theorem shift_arith {u x x0 a b : ℝ} (hu : 0 < u) (hu' : u ≤ 1e-15) (h0 : 0 ≤ x0) (h1 : x0 ≤ 0.3726) (ha : |a - x0| ≤ u * x0) (hb : |b - (x - a)| ≤ u * |x - a|) :
    |b - (x - x0)| ≤ 0.38 * u + 1.01 * u * |x - x0| := by
  have h3 : |x - a - (x - x0)| ≤ u * x0 := by
    rw [show x - a - (x - x0) = -(a - x0) by ring, abs_neg]
    exact ha
  have h4 := abs_sub_abs_le_abs_sub (x - a) (x - x0)
  have h5 := abs_sub_le b (x - a) (x - x0)
  have h8 : u * x0 ≤ u * 0.3726 := by gcongr
  have h6 : u * |x - a| ≤ u * (|x - x0| + 1e-15) := by
    gcongr
    norm_num at h8 hu' ⊢
    linarith
  have h7 : 0 ≤ u * |x - x0| := by positivity
  rw [mul_add] at h6
  have e1 : u * 1e-15 = u * (1 / 10 ^ 15) := by norm_num
  have e2 : u * 0.3726 = u * (3726 / 10000) := by norm_num
  have e3 : (0.38 : ℝ) = 38 / 100 := by norm_num
  have e4 : (1.01 : ℝ) = 101 / 100 := by norm_num
  rw [e3, e4]
  rw [e1] at h6
  rw [e2] at h8
  linarith

theorem ei6_sums : (∑ j ∈ Finset.range 10, |halved ei6_pj j|) ≤ 2.46446e11 ∧ (∑ j ∈ Finset.range 10, |halved ei6_pj j| * (j : ℝ) ^ 2) ≤ 1.21985e11 ∧
    (∑ j ∈ Finset.range 10, |halved ei6_qj j|) ≤ 2.23755e11 ∧ (∑ j ∈ Finset.range 10, |halved ei6_qj j| * (j : ℝ) ^ 2) ≤ 2.76651e11 := by
  refine ⟨?_, ?_, ?_, ?_⟩ <;>
  · simp only [Finset.sum_range_succ, Finset.sum_range_zero, halved, ei6_pj, ei6_qj]
    norm_num [abs_of_pos, abs_of_neg]

/-- The logarithm of `x / x0`. -/
theorem log_ratio (hr : ToNearest rnd) (hM : ELib.Close M) {x x0 : ℝ} (h0 : 0 < x) (hx0 : 0 < x0) :
    |rnd (0 + M.log (rnd (x / rnd x0))) - Real.log (x / x0)| ≤ 5.2 * uround + 3.2 * uround * |Real.log (x / x0)| := by
  have hu := uround_pos
  have hu' : uround ≤ 1e-15 := by unfold uround; norm_num
  have hz : 0 < x / x0 := by positivity
  have hn : Near 3 (x / x0) (x / x0) (rnd (x / rnd x0)) := by
    have := ((Near.exact x).mul (Near.inv_round hr (d := x0))).round hr
    rwa [abs_of_pos h0, abs_of_pos (inv_pos.2 hx0), ← div_eq_mul_inv, ← div_eq_mul_inv, Nat.zero_add] at this
  have h3 := hn.err
  have g3 : gam 3 ≤ 4 * uround := by
    have := gam_le (k := 3) (by norm_num)
    norm_num at this
    linarith
  set z := x / x0
  set xx := rnd (x / rnd x0)
  have h4 : |xx / z - 1| ≤ 4 * uround := by
    rw [div_sub_one hz.ne', abs_div, abs_of_pos hz, div_le_iff₀ hz]
    exact h3.trans (by gcongr)
  obtain ⟨q1, q2⟩ := abs_le.1 h4
  have hq : 0 < xx / z := by norm_num at hu'; linarith
  have hxx : 0 < xx := by
    have := mul_pos hq hz
    rwa [div_mul_cancel₀ _ hz.ne'] at this
  have l1 := Real.log_le_sub_one_of_pos hq
  have l2 := Real.one_sub_inv_le_log_of_pos hq
  have l3 : (xx / z)⁻¹ ≤ 1 + 5 * uround := by
    rw [inv_le_comm₀ hq (by positivity)]
    refine le_trans ?_ (show 1 - 4 * uround ≤ xx / z by linarith)
    rw [inv_le_iff_one_le_mul₀ (by positivity)]
    nlinarith
  have hl : Real.log (xx / z) = Real.log xx - Real.log z := Real.log_div hxx.ne' hz.ne'
  have e1 : |Real.log xx - Real.log z| ≤ 5 * uround := by
    rw [← hl]
    exact abs_le.2 ⟨by linarith, by linarith⟩
  have e2 := hM.2 xx hxx
  have e3 := toNearest_err hr (0 + M.log xx)
  rw [zero_add] at e3 ⊢
  have e2' : |M.log xx - Real.log xx| ≤ 2 * uround * |Real.log xx| := e2.trans (le_of_eq (by unfold uround; ring))
  have e3' : |rnd (M.log xx) - M.log xx| ≤ uround * |M.log xx| := by
    rw [abs_sub_comm]
    exact e3.trans (le_of_eq (by unfold uround; ring))
  set L := Real.log z
  have b1 : |Real.log xx| ≤ |L| + 5 * uround := by
    have := abs_sub_abs_le_abs_sub (Real.log xx) L
    linarith
  have b2 : uround * |Real.log xx| ≤ uround * (|L| + 5 * 1e-15) := by gcongr; exact b1.trans (by gcongr)
  have b3 : |M.log xx| ≤ 1.01 * |L| + 1e-14 := by
    have h1 := abs_sub_abs_le_abs_sub (M.log xx) (Real.log xx)
    have h2 : uround * |L| ≤ 1 / 10 ^ 15 * |L| := by
      gcongr
      exact hu'.trans (by norm_num)
    have := abs_nonneg L
    norm_num at b2 hu' ⊢
    linarith
  have b4 : uround * |M.log xx| ≤ uround * (1.01 * |L| + 1e-14) := by gcongr
  have t1 := abs_sub_le (rnd (M.log xx)) (M.log xx) L
  have t2 := abs_sub_le (M.log xx) (Real.log xx) L
  have : 0 ≤ uround * |L| := by positivity
  norm_num at *
  linarith

theorem ei_below_six_R (hr : ToNearest rnd) (hM : ELib.Close M) {ε : ℝ} (hT : PolyClose ε 9 TR) (hε : ε ≤ 1 / 1000) (B : Build) {x : ℝ} (hd : Double x)
    (hx : rnd 1e-8 < x) (hx' : x < 6) :
    ∃ w v, eiApproximationR rnd M TR B x = .ok w ∧ eiApproximation B x = .ok v ∧ |w - v| ≤ (18 * ε + 310 / 2 ^ 53) * |v| + 12 / 2 ^ 53 := by
  have hxe := above_refused hr hd hx
  have h0 : (0 : ℝ) < x := lt_trans (by norm_num) hxe
  have hu := uround_pos
  have hu' : uround ≤ 1e-15 := by unfold uround; norm_num
  have hε0 : 0 ≤ ε := (abs_nonneg _).trans (hT 0 (by norm_num) 0 (by norm_num))
  obtain ⟨n, N, hn, hN, en⟩ := chebyshevSumR_near hr hT hε (l := ei6_pj) rfl h0.le hx'.le
  obtain ⟨d, D, hdd, hD, ed⟩ := chebyshevSumR_near hr hT hε (l := ei6_qj) rfl h0.le hx'.le
  have l : ((0 : ℤ) : ℝ) / (1 : ℤ) ≤ x := by norm_num; exact h0.le
  have l' : x ≤ ((6 : ℤ) : ℝ) / (1 : ℤ) := by norm_num; exact hx'.le
  have hp : ei6_pj = ei6P.map fun (a : ℤ) => (a : ℝ) / 10 ^ 20 := by norm_num [ei6_pj, ei6P]
  have hq : ei6_qj = ei6Q.map fun (a : ℤ) => (a : ℝ) / 10 ^ 20 := by norm_num [ei6_qj, ei6Q]
  have hN' := hN
  rw [chebyshevSum_ok hp rfl] at hN'
  injection hN' with hN'
  have hD' := hD
  rw [chebyshevSum_ok hq rfl] at hD'
  injection hD' with hD'
  have cN := certOn_sound ei6_num_low (x := x) (by norm_num; exact h0.le) (by norm_num; exact hx'.le)
  have cD := certOn_sound ei6_den_low l l'
  have cR := certOn_sound ei6_ratio l l'
  rw [pev_pscale] at cN cD cR
  have bN : N ≤ -1.82e11 := by
    have := (le_abs_self _).trans cN
    simp only [pev] at this
    rw [← hN', div_le_iff₀ (by norm_num)]
    norm_num at this ⊢
    linarith
  have bD : D ≤ -1.497e10 := by
    have := (le_abs_self _).trans cD
    simp only [pev] at this
    rw [← hD', div_le_iff₀ (by norm_num)]
    norm_num at this ⊢
    linarith
  have bR : -N ≤ 15 * -D := by
    have := (neg_le_abs _).trans cR
    rw [← hN', ← hD']
    rw [show -(pev (chebInt ei6P) x / (2 * 3 ^ 9 * 10 ^ 20)) = -pev (chebInt ei6P) x / (2 * 3 ^ 9 * 10 ^ 20) by ring,
      show 15 * -(pev (chebInt ei6Q) x / (2 * 3 ^ 9 * 10 ^ 20)) = 15 * -pev (chebInt ei6Q) x / (2 * 3 ^ 9 * 10 ^ 20) by ring]
    gcongr
    norm_num at this ⊢
    linarith
  obtain ⟨c1, c2, c3, c4⟩ := ei6_sums
  have aN : |N| = -N := abs_of_nonpos (by norm_num at bN; linarith)
  have aD : |D| = -D := abs_of_nonpos (by norm_num at bD; linarith)
  have en' : |n - N| ≤ (1.36 * ε + 20 * uround) * |N| := by
    refine en.trans ?_
    calc _ ≤ (ε + 13.1 * uround) * 2.46446e11 + 3 * uround * 1.21985e11 := by gcongr
      _ ≤ (1.36 * ε + 20 * uround) * 1.82e11 := by norm_num; linarith
      _ ≤ (1.36 * ε + 20 * uround) * |N| := by
        gcongr
        norm_num at bN ⊢
        linarith
  have ed' : |d - D| ≤ (15 * ε + 255 * uround) * |D| := by
    refine ed.trans ?_
    calc _ ≤ (ε + 13.1 * uround) * 2.23755e11 + 3 * uround * 2.76651e11 := by gcongr
      _ ≤ (15 * ε + 255 * uround) * 1.497e10 := by norm_num; linarith
      _ ≤ (15 * ε + 255 * uround) * |D| := by
        gcongr
        norm_num at bD ⊢
        linarith
  have hD0 : D ≠ 0 := by
    intro h
    rw [h] at bD
    norm_num at bD
  obtain ⟨hd0, hquo⟩ := quotient_near en' ed' hD0 (by norm_num at hu' ⊢; linarith) (by positivity) (by positivity)
  have hRp : 0 < N / D := div_pos_of_neg_of_neg (by norm_num at bN; linarith) (by norm_num at bD; linarith)
  have hR15 : N / D ≤ 15 := by
    rw [div_le_iff_of_neg (by norm_num at bD; linarith)]
    linarith
  rw [abs_of_pos hRp] at hquo
  have er : ∀ y, |rnd y - y| ≤ uround * |y| := fun y => by
    rw [abs_sub_comm]
    exact (toNearest_err hr y).trans (le_of_eq (by unfold uround; ring))
  have hrr : |rnd (n / d) - N / D| ≤ (17.6 * ε + 297 * uround) * (N / D) := by
    have h1 := er (n / d)
    have h2 := abs_sub_le (rnd (n / d)) (n / d) (N / D)
    have h3 : |n / d| ≤ 1.02 * (N / D) := by
      have := abs_sub_abs_le_abs_sub (n / d) (N / D)
      rw [abs_of_pos hRp] at this
      have : 1.06 * (1.36 * ε + 20 * uround + (15 * ε + 255 * uround)) * (N / D) ≤ 0.02 * (N / D) := by
        gcongr
        norm_num at hu' ⊢
        linarith
      linarith
    have h4 : uround * |n / d| ≤ uround * (1.02 * (N / D)) := by gcongr
    have h5 : 0 ≤ uround * (N / D) := by positivity
    have h6 : 0 ≤ ε * (N / D) := by positivity
    norm_num at *
    linarith
  have hx0 : (0 : ℝ) < 0.372507410781366634461991866580 := by norm_num
  set x0 : ℝ := 0.372507410781366634461991866580 with hx0d
  have hx0r : rnd x0 ≠ 0 := toNearest_ne_zero hr hx0.ne'
  have hxh : |rnd (x - rnd x0) - (x - x0)| ≤ 0.38 * uround + 1.01 * uround * |x - x0| := by
    refine shift_arith hu hu' hx0.le ?_ ?_ (er _)
    · rw [hx0d]
      norm_num
    · have := er x0
      rwa [abs_of_pos hx0] at this
  have hs : |Real.log (x / x0) + (x - x0) * (N / D)| = |Real.log (x / x0)| + |(x - x0) * (N / D)| := by
    rcases le_total x0 x with h | h
    · have h1 : 0 ≤ Real.log (x / x0) := Real.log_nonneg (by rwa [le_div_iff₀ hx0, one_mul])
      have h2 : 0 ≤ (x - x0) * (N / D) := mul_nonneg (by linarith) hRp.le
      rw [abs_of_nonneg h1, abs_of_nonneg h2, abs_of_nonneg (add_nonneg h1 h2)]
    · have h1 : Real.log (x / x0) ≤ 0 := Real.log_nonpos (by positivity) (by rwa [div_le_iff₀ hx0, one_mul])
      have h2 : (x - x0) * (N / D) ≤ 0 := mul_nonpos_of_nonpos_of_nonneg (by linarith) hRp.le
      rw [abs_of_nonpos h1, abs_of_nonpos h2, abs_of_nonpos (add_nonpos h1 h2)]
      ring
  have fin := below_six_arith hu hu' hxh hRp hR15 hrr (by positivity) (by norm_num at hu' ⊢; linarith) (er _) (log_ratio hr hM h0 hx0) (er _) hs
  refine ⟨_, _, ?_, ?_, fin.trans ?_⟩
  · unfold eiApproximationR
    rw [if_neg (not_refusedR hr hd hx), if_pos ⟨h0, hx'⟩]
    simp only []
    rw [cassert_true _ _ (by simp [ei6_pj, ei6_qj]), Res.ok_bind, rdivR, rdiv_ok hx0r, Res.ok_bind, Res.pure_eq, Res.ok_bind, hn, Res.ok_bind, hdd, Res.ok_bind,
      rdivR, rdiv_ok hd0, Res.ok_bind, Res.pure_eq, Res.ok_bind, Res.pure_eq]
  · unfold eiApproximation
    rw [if_neg (not_refused hxe), if_pos ⟨h0, hx'⟩, cassert_true _ _ (by simp [ei6_pj, ei6_qj]), Res.ok_bind]
    simp only []
    rw [hN, Res.ok_bind, hD, Res.ok_bind, rdiv_ok hD0, Res.ok_bind, Res.pure_eq]
  · have hV := abs_nonneg (Real.log (x / x0) + (x - x0) * (N / D))
    have : (17.6 * ε + 297 * uround + 5 * uround) * |Real.log (x / x0) + (x - x0) * (N / D)| ≤
        (18 * ε + 310 / 2 ^ 53) * |Real.log (x / x0) + (x - x0) * (N / D)| := by
      refine mul_le_mul_of_nonneg_right ?_ hV
      unfold uround
      norm_num
      linarith
    refine add_le_add this (le_of_eq ?_)
    unfold uround
    ring

/-! ## C140 -/

/-- C140: what `Ei_approximation` returns in double and what it returns in real arithmetic: from 6 on they differ by at most 35 roundings; below 6, where
`Ei` has a zero, by a relative error plus 12 roundings of 1. -/
theorem C140_ei_rounding (hr : ToNearest rnd) (hM : ELib.Close M) {ε : ℝ} (hT : PolyClose ε 9 TR) (hε : ε ≤ 1 / 1000) (B : Build) {x : ℝ} (hd : Double x)
    (hx : rnd 1e-8 < x) : ∃ w v, eiApproximationR rnd M TR B x = .ok w ∧ eiApproximation B x = .ok v ∧
      (x < 6 → |w - v| ≤ (18 * ε + 310 / 2 ^ 53) * |v| + 12 / 2 ^ 53) ∧ (6 ≤ x → 0 < v ∧ |w - v| ≤ 35 / 2 ^ 53 * v) ∧ (12 ≤ x → |w - v| ≤ 11 / 2 ^ 53 * v) := by
  rcases lt_or_ge x 6 with h6 | h6
  · obtain ⟨w, v, h1, h2, h3⟩ := ei_below_six_R hr hM hT hε B hd hx h6
    exact ⟨w, v, h1, h2, fun _ => h3, fun h => absurd h (by linarith), fun h => absurd h (by linarith)⟩
  rcases lt_or_ge x 12 with h12 | h12
  · obtain ⟨w, v, h1, h2, h3, h4⟩ := ei_six_twelve_R (TR := TR) hr hM B hd h6 h12
    exact ⟨w, v, h1, h2, fun h => absurd h (by linarith), fun _ => ⟨h3, h4⟩, fun h => absurd h (by linarith)⟩
  have up : ∀ {a b v y : ℝ}, 0 < v → y ≤ a * v → a ≤ b → y ≤ b * v := fun hv h hab => h.trans (mul_le_mul_of_nonneg_right hab hv.le)
  rcases lt_or_ge x 24 with h24 | h24
  · obtain ⟨w, v, h1, h2, h3, h4⟩ := ei_twelve_twentyfour_R (TR := TR) hr hM B hd h12 h24
    exact ⟨w, v, h1, h2, fun h => absurd h (by linarith), fun _ => ⟨h3, up h3 h4 (by norm_num)⟩, fun _ => up h3 h4 (by norm_num)⟩
  · obtain ⟨w, v, h1, h2, h3, h4⟩ := ei_from_twentyfour_R (TR := TR) hr hM B hd h24
    exact ⟨w, v, h1, h2, fun h => absurd h (by linarith), fun _ => ⟨h3, up h3 h4 (by norm_num)⟩, fun _ => h4⟩

/-- C140: in double, `Ei_approximation` returns `Ei(x)` up to 13 roundings from 12 on, up to the error of its table (C89) on [6, 12), and up to a relative
error and an absolute one of `3e-15` below 6. -/
theorem C140_ei_accuracy (hr : ToNearest rnd) (hM : ELib.Close M) {ε : ℝ} (hT : PolyClose ε 9 TR) (hε : ε ≤ 1 / 1000) (B : Build) {x e : ℝ} (hd : Double x)
    (hx : rnd 1e-8 < x) (he : Spec.IsEi x e) : ∃ w, eiApproximationR rnd M TR B x = .ok w ∧
      (x < 6 → |w - e| ≤ (18 * ε + 310 / 2 ^ 53) * |e| + 3e-15) ∧ (6 ≤ x → x < 12 → |w - e| ≤ 2.52e-11 * e) ∧ (12 ≤ x → |w - e| ≤ 13 / 2 ^ 53 * e) := by
  have hx' := above_refused hr hd hx
  obtain ⟨w, v, hw, hv, h1, h2, h3⟩ := C140_ei_rounding hr hM hT hε B hd hx
  obtain ⟨v', hv', a1, a2, a3⟩ := C89_accuracy_partial B hx' he
  rw [hv] at hv'
  injection hv' with hv'
  subst hv'
  have hε0 : 0 ≤ ε := (abs_nonneg _).trans (hT 0 (by norm_num) 0 (by norm_num))
  have tri := abs_sub_le w v e
  have pos : ∀ {ε : ℝ}, |v - e| ≤ ε * e → v ≤ (1 + ε) * e := fun h => by linarith [(abs_le.1 h).2]
  refine ⟨w, hw, fun h => ?_, fun h h' => ?_, fun h => ?_⟩
  · have b1 := h1 h
    have b2 := a1 h
    have b3 := abs_sub_abs_le_abs_sub v e
    have b4 : (18 * ε + 310 / 2 ^ 53) * |v| ≤ (18 * ε + 310 / 2 ^ 53) * (|e| + 7e-16) := by
      gcongr
      linarith
    have b5 : (18 * ε + 310 / 2 ^ 53) * 7e-16 ≤ 1e-16 := by
      have : 18 * ε + 310 / 2 ^ 53 ≤ 0.02 := by norm_num; linarith
      calc (18 * ε + 310 / 2 ^ 53) * 7e-16 ≤ 0.02 * 7e-16 := by gcongr
        _ ≤ _ := by norm_num
    have b6 : (12 : ℝ) / 2 ^ 53 ≤ 1.4e-15 := by norm_num
    have b7 : (1.4e-15 : ℝ) + 1e-16 + 7e-16 ≤ 3e-15 := by norm_num
    rw [mul_add] at b4
    linarith
  · have b1 := a2 h h'
    have b2 := pos b1
    have b3 := (h2 h).2
    have b4 : 0 ≤ e := by
      have := (h2 h).1
      by_contra hn
      have : (1 + 2.51e-11) * e ≤ 0 := mul_nonpos_of_nonneg_of_nonpos (by norm_num) (by linarith)
      linarith
    norm_num at *
    linarith
  · have b1 := a3 h
    have b2 := pos b1
    have b3 := h3 h
    have b4 : 0 ≤ e := by
      have := (h2 (by linarith)).1
      by_contra hn
      have : (1 + 1.1e-16) * e ≤ 0 := mul_nonpos_of_nonneg_of_nonpos (by norm_num) (by linarith)
      linarith
    norm_num at *
    linarith

/-- C140: in double too, `Ei_approximation` ends the program up to `1e-8` (the double nearest to it). -/
theorem C140_ei_refused (hr : ToNearest rnd) (M : ELib) (TR : Nat → ℝ → ℝ) (B : Build) {x : ℝ} (hd : Double x) (hx : x ≤ rnd 1e-8) :
    eiApproximationR rnd M TR B x = .exits 0 := by
  have : isCloseZeroR rnd x ∨ x < 0 := by
    rcases lt_or_ge x 0 with h | h
    · exact Or.inr h
    · left
      rw [isCloseZeroR_iff hr hd, abs_of_nonneg h]
      exact hx
  rw [eiApproximationR, if_pos this]

/-- C140: in double, `expEi(x)` is `exp(-x) Ei(x)` up to 11 roundings from 24 on; below 24 it has the error `δ` of boost's exponential integral and 5
roundings. -/
theorem C140_expEi (hr : ToNearest rnd) (hM : ELib.Close M) {expint : ℝ → Res ℝ} {δ : ℝ} (hδ : δ ≤ 1 / 100)
    (hei : ∀ x, 0 < x → x < 24 → ∃ v e, expint x = .ok v ∧ Spec.IsEi x e ∧ |v - e| ≤ δ * |e|) (B : Build) {x e : ℝ} (hx : 0 < x) (he : Spec.IsEi x e) :
    ∃ w, expEiR rnd M expint B x = .ok w ∧ (x < 24 → |w - Real.exp (-x) * e| ≤ (δ + 5 / 2 ^ 53) * |Real.exp (-x) * e|) ∧
      (24 ≤ x → |w - Real.exp (-x) * e| ≤ 11 / 2 ^ 53 * (Real.exp (-x) * e)) := by
  rcases lt_or_ge x 24 with h24 | h24
  · obtain ⟨v, e', hv, he', hve⟩ := hei x hx h24
    rw [isEi_iff hx] at he he'
    rw [← he] at he'
    rw [he'] at hve
    refine ⟨rnd (M.exp (-x) * v), by rw [expEiR, if_pos h24, hv]; rfl, fun _ => ?_, fun h => absurd h (by linarith)⟩
    have hn := (((exp_near hM (-x)).mul (Near.exact v)).round hr).sum_le (by norm_num)
    have hE := Real.exp_pos (-x)
    have t := abs_sub_le (rnd (M.exp (-x) * v)) (Real.exp (-x) * v) (Real.exp (-x) * e)
    have t1 : |Real.exp (-x) * v - Real.exp (-x) * e| ≤ δ * (Real.exp (-x) * |e|) := by
      rw [← mul_sub, abs_mul, abs_of_pos hE]
      calc _ ≤ Real.exp (-x) * (δ * |e|) := by gcongr
        _ = _ := by ring
    have t2 : Real.exp (-x) * |v| ≤ 1.01 * (Real.exp (-x) * |e|) := by
      have h1 := abs_sub_abs_le_abs_sub v e
      have h2 : δ * |e| ≤ 1 / 100 * |e| := by gcongr
      have h3 : |v| ≤ 1.01 * |e| := by norm_num at *; linarith
      calc _ ≤ Real.exp (-x) * (1.01 * |e|) := by gcongr
        _ = _ := by ring
    have t3 : 0 ≤ Real.exp (-x) * |e| := by positivity
    rw [abs_mul, abs_of_pos hE, add_mul]
    norm_num at *
    linarith
  · obtain ⟨w, v, h1, h2, h3, h4⟩ := expEi_from_twentyfour_R (M := M) hr (fun x => .ok (eiF x)) expint B h24
    obtain ⟨v', hv', -, a2⟩ := C91_expEi (expint := fun x => .ok (eiF x)) (fun x hx => ⟨_, rfl, isEi_eiF hx⟩) B hx he
    rw [h2] at hv'
    injection hv' with hv'
    subst hv'
    refine ⟨w, h1, fun h => absurd h (by linarith), fun _ => ?_⟩
    have b1 := a2 h24
    have tri := abs_sub_le w v (Real.exp (-x) * e)
    have b2 := (abs_le.1 b1).2
    generalize Real.exp (-x) * e = E at *
    have b4 : 0 ≤ E := by
      by_contra hn
      have : (1 + 1.1e-16) * E ≤ 0 := mul_nonpos_of_nonneg_of_nonpos (by norm_num) (by linarith)
      linarith
    norm_num at *
    linarith

/-! ## Concrete cases -/

/-- Chebyshev polynomials rounded to the nearest. -/
noncomputable def roundCheb (n : Nat) (t : ℝ) : ℝ := roundNearest ((Polynomial.Chebyshev.T ℝ n).eval t)

theorem roundCheb_close : PolyClose (1 / 2 ^ 53) 9 roundCheb := by
  intro i _ t ht
  rw [roundCheb, abs_sub_comm]
  refine (toNearest_err roundNearest_toNearest _).trans ?_
  gcongr
  exact Polynomial.Chebyshev.abs_eval_T_real_le_one i ht

/-- The values at 1, 7, 13 and 30, those of `expEi` at 5 and 30, and 0, which is refused. -/
example : (∃ w e, eiApproximationR roundNearest roundExp roundCheb ⟨true⟩ 1 = .ok w ∧ Spec.IsEi 1 e ∧ |w - e| ≤ 1e-13 * |e| + 3e-15) ∧
    (∃ w e, eiApproximationR roundNearest roundExp roundCheb ⟨true⟩ 7 = .ok w ∧ Spec.IsEi 7 e ∧ |w - e| ≤ 2.52e-11 * e) ∧
    (∃ w e, eiApproximationR roundNearest roundExp roundCheb ⟨false⟩ 30 = .ok w ∧ Spec.IsEi 30 e ∧ |w - e| ≤ 13 / 2 ^ 53 * e) ∧
    (∃ w e, expEiR roundNearest roundExp (fun x => .ok (roundNearest (eiF x))) ⟨true⟩ 5 = .ok w ∧ Spec.IsEi 5 e ∧
      |w - Real.exp (-5) * e| ≤ 6 / 2 ^ 53 * |Real.exp (-5) * e|) ∧
    eiApproximationR roundNearest roundExp roundCheb ⟨true⟩ 0 = .exits 0 := by
  have hr := roundNearest_toNearest
  have b : roundNearest 1e-8 ≤ 1 / 4 := by
    have := toNearest_mono hr (show (1e-8 : ℝ) ≤ 1 / 4 by norm_num)
    rwa [toNearest_double hr (show Double (1 / 4) from ⟨1, -2, by norm_num, by norm_num⟩)] at this
  have n : 0 ≤ roundNearest 1e-8 := by
    have := toNearest_mono hr (show (0 : ℝ) ≤ 1e-8 by norm_num)
    rwa [toNearest_double hr double_zero] at this
  refine ⟨?_, ?_, ?_, ?_, C140_ei_refused hr _ _ _ double_zero n⟩
  · obtain ⟨w, h, h1, -, -⟩ := C140_ei_accuracy hr roundExp_close roundCheb_close (by norm_num) ⟨true⟩ (x := 1) ⟨1, 0, by norm_num, by norm_num⟩ (by linarith)
      (isEi_eiF (by norm_num))
    refine ⟨w, _, h, isEi_eiF (by norm_num), (h1 (by norm_num)).trans ?_⟩
    gcongr
    norm_num
  · obtain ⟨w, h, -, h1, -⟩ := C140_ei_accuracy hr roundExp_close roundCheb_close (by norm_num) ⟨true⟩ (x := 7) ⟨7, 0, by norm_num, by norm_num⟩ (by linarith)
      (isEi_eiF (by norm_num))
    exact ⟨w, _, h, isEi_eiF (by norm_num), h1 (by norm_num) (by norm_num)⟩
  · obtain ⟨w, h, -, -, h1⟩ := C140_ei_accuracy hr roundExp_close roundCheb_close (by norm_num) ⟨false⟩ (x := 30) ⟨30, 0, by norm_num, by norm_num⟩ (by linarith)
      (isEi_eiF (by norm_num))
    exact ⟨w, _, h, isEi_eiF (by norm_num), h1 (by norm_num)⟩
  · obtain ⟨w, h, h1, -⟩ := C140_expEi hr roundExp_close (expint := fun x => .ok (roundNearest (eiF x))) (δ := 1 / 2 ^ 53) (by norm_num) (fun x hx _ =>
      ⟨_, _, rfl, isEi_eiF hx, by
        rw [abs_sub_comm]
        exact (toNearest_err hr _).trans (le_of_eq (by ring))⟩) ⟨true⟩ (x := 5) (by norm_num) (isEi_eiF (by norm_num))
    refine ⟨w, _, h, isEi_eiF (by norm_num), (h1 (by norm_num)).trans ?_⟩
    gcongr
    norm_num

end MU
