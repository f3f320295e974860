import Verif.Lemmas.StruveIntegral

/-!
# Struve functions above 3: certificates

A rational function close to the integral of `exp(-x sinh t)`: its residual in Bessel's equation, and its distance to the rational functions of the code.
-/

namespace MU.Struve
open Filter Topology Set PolyCheck ExpInt

/-- Numerator. -/
def tN : List ℤ := [7620972333009535803, 0, 39818797214540617391, 0, 29648603332073093899, 0, 6589937791834117045, 0, 550034757243282586, 0, 18560659913972407, 0, 244705849551980, 0, 1000000000000]
/-- Denominator. -/
def tD : List ℤ := [0, 16639625663299593112, 0, 53382217589024737321, 0, 33957446740650258870, 0, 7031961872098434530, 0, 566845578187998357, 0, 18797365970661739, 0, 245705849499458, 0, 1000000000000]
/-- Numerator of the derivative, over the square of the denominator. -/
def tW : List ℤ := wronsk tN tD
/-- The square and the cube of the denominator. -/
def tD2 : List ℤ := pmul tD tD
def tD3 : List ℤ := pmul tD tD2
/-- `x^2` times the residual, over the cube of the denominator. -/
def tR : List ℤ :=
  0 :: padd (0 :: psub (pmul (pderiv tW) tD) (pscale 2 (pmul tW (pderiv tD)))) (padd (pmul tW tD) (psub (0 :: pmul tN tD2) tD3))

/-- `coef_b`, `coef_c`, `coef_e` and `coef_f` of the code, times `10^8`, with the powers of 3. -/
def cB : List ℤ := [23549329503, 0, 31228905564, 0, 4295060280, 0, 99999906]
def cC : List ℤ := [37995850332, 0, 34745543973, 0, 4394979612, 0, 100000000]
def cE : List ℤ := [20011702455, 0, 21456335673, 0, 3529847817, 0, 100000004]
def cF : List ℤ := [7935267789, 0, 18323573436, 0, 3429856008, 0, 100000000]

theorem tR_cert : certFrom 87 100000000000 tR tD3 1 3 [6, 12, 24, 48] = true := by decide +kernel
theorem tN_cert : certFrom 2 1 (0 :: tN) tD 1 3 [] = true := by decide +kernel
theorem tW_cert : certFrom 2 1 (0 :: tW) tD2 1 3 [] = true := by decide +kernel
theorem tD_pos : (decide (0 < (1 : ℤ)) && checkFrom (psub tD [1]) 1 3 []) = true := by decide +kernel
theorem c0_cert : certFrom 13 1000000000 (psub (pmul cB tD) (pmul (0 :: cC) tN)) (pmul (0 :: cC) tD) 16 48 [51, 54, 60, 72, 96, 144, 192, 384, 768] = true := by
  decide +kernel
theorem c1_cert : certFrom 4001 100000000000 (padd (pmul (psub cE cF) tD2) (pmul tW cF)) (pmul cF tD2) 8 24 [27, 30, 36, 48, 72, 96] = true := by
  decide +kernel

theorem pev_cons0 (l : List ℤ) (x : ℝ) : pev (0 :: l) x = x * pev l x := by simp [pev]

theorem tD_gt {x : ℝ} (hx : 3 ≤ x) : 0 < pev tD x := posFrom_sound tD_pos (by norm_num; exact hx)

/-- The rational function and its derivative. -/
noncomputable def tg (x : ℝ) : ℝ := pev tN x / pev tD x
noncomputable def tg1 (x : ℝ) : ℝ := pev tW x / pev tD x ^ 2

theorem hasDerivAt_tg {x : ℝ} (hx : 3 ≤ x) : HasDerivAt tg (tg1 x) x := hasDerivAt_rat (tD_gt hx).ne'

theorem hasDerivAt_tg1 {x : ℝ} (hx : 3 ≤ x) :
    HasDerivAt tg1 ((pev (pderiv tW) x * pev tD x - 2 * pev tW x * pev (pderiv tD) x) / pev tD x ^ 3) x := by
  have h := (tD_gt hx).ne'
  refine ((hasDerivAt_pev tW x).div ((hasDerivAt_pev tD x).pow 2) (pow_ne_zero 2 h)).congr_deriv ?_
  simp only [Pi.pow_apply]
  generalize pev (pderiv tW) x = a
  generalize pev (pderiv tD) x = b
  generalize pev tW x = c
  generalize pev tD x = d at h ⊢
  field_simp
  ring

/-- The residual. -/
noncomputable def ts (x : ℝ) : ℝ := -(pev tR x / (x ^ 2 * pev tD x ^ 3))

theorem ts_le {x : ℝ} (hx : 3 ≤ x) : |ts x| ≤ 8.7e-10 / x ^ 2 := by
  have h := certFrom_sound tR_cert (x := x) (by norm_num; exact hx)
  have hx0 : 0 < x := by linarith
  have hd := tD_gt hx
  rw [show pev tD3 x = pev tD x ^ 3 by rw [tD3, tD2, pev_pmul, pev_pmul]; ring] at h
  rw [ts, abs_neg, abs_div, abs_of_pos (by positivity : 0 < x ^ 2 * pev tD x ^ 3), div_le_div_iff₀ (by positivity) (by positivity)]
  have := mul_le_mul_of_nonneg_right h (sq_nonneg x)
  norm_num at this ⊢
  linarith

theorem hasDerivAt_err {x : ℝ} (hx : 3 ≤ x) : HasDerivAt (fun x => sf x - tg x) (sf1 x - tg1 x) x :=
  (hasDerivAt_sf (by linarith)).sub (hasDerivAt_tg hx)

theorem hasDerivAt_err1 {x : ℝ} (hx : 3 ≤ x) :
    HasDerivAt (fun x => sf1 x - tg1 x) (ts x - (sf x - tg x) - (sf1 x - tg1 x) / x) x := by
  have hx0 : 0 < x := by linarith
  refine ((hasDerivAt_sf1 hx0).sub (hasDerivAt_tg1 hx)).congr_deriv ?_
  have h := (tD_gt hx).ne'
  rw [ts, tg, tg1]
  have e : pev tR x = x * (x * (pev (pderiv tW) x * pev tD x - 2 * (pev tW x * pev (pderiv tD) x)) +
      (pev tW x * pev tD x + (x * (pev tN x * (pev tD x * pev tD x)) - pev tD x * (pev tD x * pev tD x)))) := by
    simp only [tR, tD3, tD2, pev_cons0, pev_padd, pev_psub, pev_pmul, pev_pscale]
    push_cast
    ring
  rw [e]
  generalize pev (pderiv tW) x = a
  generalize pev (pderiv tD) x = b
  generalize pev tW x = c
  generalize pev tN x = n
  generalize pev tD x = d at h ⊢
  field_simp
  ring

theorem err_crude {x : ℝ} (hx : 3 ≤ x) : |sf x - tg x| ≤ 4 / x ∧ |sf1 x - tg1 x| ≤ 4 / x := by
  have hx0 : 0 < x := by linarith
  have hd := tD_gt hx
  have h1 := certFrom_sound tN_cert (x := x) (by norm_num; exact hx)
  have h2 := certFrom_sound tW_cert (x := x) (by norm_num; exact hx)
  rw [pev_cons0, abs_mul, abs_of_pos hx0] at h1 h2
  rw [show pev tD2 x = pev tD x ^ 2 by rw [tD2, pev_pmul]; ring] at h2
  have g1 : |tg x| ≤ 2 / x := by
    rw [tg, abs_div, abs_of_pos hd, div_le_div_iff₀ hd hx0]
    norm_num at h1
    linarith
  have g2 : |tg1 x| ≤ 2 / x := by
    rw [tg1, abs_div, abs_of_pos (by positivity : 0 < pev tD x ^ 2), div_le_div_iff₀ (by positivity) hx0]
    norm_num at h2
    linarith
  have f1 : |sf x| ≤ 1 / x := by rw [abs_of_nonneg (sf_nonneg x)]; exact sf_le hx0
  have f2 : |sf1 x| ≤ 2 / x := by
    rw [abs_of_nonpos (sf1_nonpos hx0)]
    have := sf1_ge hx0
    have h3 : 4 / x ^ 2 ≤ 2 / x := by
      rw [div_le_div_iff₀ (by positivity) hx0]
      nlinarith
    linarith
  have e4 : 4 / x = 2 / x + 2 / x := by ring
  have e1 : 1 / x ≤ 2 / x := div_le_div_of_nonneg_right (by norm_num) hx0.le
  exact ⟨(abs_sub _ _).trans (by linarith), (abs_sub _ _).trans (by linarith)⟩

theorem sf_close {x : ℝ} (hx : 3 ≤ x) : |sf x - tg x| ≤ 7e-10 ∧ |sf1 x - tg1 x| ≤ 8.2e-10 := by
  obtain ⟨h1, h2⟩ := tail_bound (C := 8.7e-10) (K := 4) (fun x hx => hasDerivAt_err hx) (fun x hx => hasDerivAt_err1 hx) (fun x hx => ts_le hx)
    (fun x hx => (err_crude hx).1) (fun x hx => (err_crude hx).2) (by norm_num) hx
  have b1 : 2.4 * 8.7e-10 / x ≤ 2.4 * 8.7e-10 / 3 := div_le_div_of_nonneg_left (by norm_num) (by norm_num) hx
  have b2 : 1.2 * 8.7e-10 / x ^ 2 ≤ 1.2 * 8.7e-10 / 3 ^ 2 := div_le_div_of_nonneg_left (by norm_num) (by norm_num) (by nlinarith)
  refine ⟨h1.trans (b1.trans (by norm_num)), h2.trans ((add_le_add b1 b2).trans (by norm_num))⟩

theorem code0_close {x : ℝ} (hx : 3 ≤ x) (hc : 0 < pev cC x) : |pev cB x / (x * pev cC x) - sf x| ≤ 1.37e-8 := by
  have hx0 : 0 < x := by linarith
  have hd := tD_gt hx
  have h := certFrom_sound c0_cert (x := x) (by norm_num; exact hx)
  rw [pev_psub, pev_pmul, pev_pmul, pev_pmul, pev_cons0] at h
  have h1 : |pev cB x / (x * pev cC x) - tg x| ≤ 1.3e-8 := by
    rw [tg, div_sub_div _ _ (by positivity) hd.ne', abs_div, abs_of_pos (by positivity : 0 < x * pev cC x * pev tD x), div_le_iff₀ (by positivity)]
    norm_num at h ⊢
    exact h
  have h2 := (sf_close hx).1
  have h3 := abs_sub_le (pev cB x / (x * pev cC x)) (tg x) (sf x)
  rw [abs_sub_comm (tg x)] at h3
  norm_num at h1 h2 h3 ⊢
  linarith

theorem code1_close {x : ℝ} (hx : 3 ≤ x) (hc : 0 < pev cF x) : |pev cE x / pev cF x - (1 - sf1 x)| ≤ 4.083e-8 := by
  have hd := tD_gt hx
  have h := certFrom_sound c1_cert (x := x) (by norm_num; exact hx)
  rw [pev_padd, pev_pmul, pev_psub, pev_pmul, pev_pmul, show pev tD2 x = pev tD x ^ 2 by rw [tD2, pev_pmul]; ring] at h
  have h1 : |pev cE x / pev cF x - (1 - tg1 x)| ≤ 4.001e-8 := by
    have e : pev cE x / pev cF x - (1 - tg1 x) = ((pev cE x - pev cF x) * pev tD x ^ 2 + pev tW x * pev cF x) / (pev cF x * pev tD x ^ 2) := by
      rw [tg1]
      have := hd.ne'
      have := hc.ne'
      generalize pev cE x = a at *
      generalize pev cF x = b at *
      generalize pev tW x = c at *
      generalize pev tD x = d at *
      field_simp
      ring
    rw [e, abs_div, abs_of_pos (by positivity : 0 < pev cF x * pev tD x ^ 2), div_le_iff₀ (by positivity)]
    norm_num at h ⊢
    exact h
  have h2 := (sf_close hx).2
  have h3 := abs_sub_le (pev cE x / pev cF x) (1 - tg1 x) (1 - sf1 x)
  rw [show 1 - tg1 x - (1 - sf1 x) = sf1 x - tg1 x by ring] at h3
  norm_num at h1 h2 h3 ⊢
  linarith

end MU.Struve
