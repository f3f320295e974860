import Verif.Lemmas.Ieee
import Verif.Props.Rounded

/-!
# C171: linear interpolation of finite data in binary64
-/

set_option linter.unusedSectionVars false

namespace MU

open Spec Dbl

variable {fl : ℝ → Option ℝ}

theorem abs_scale {z c ε : ℝ} (hz : |z| ≤ c) (hε : |ε| ≤ uround) : |z * (1 + ε)| ≤ 1.001 * c := by
  have hu : uround ≤ 1 / 1000 := by unfold uround; norm_num
  have h1 : |1 + ε| ≤ 1.001 := by
    have := abs_add_le 1 ε
    rw [abs_one] at this
    linarith
  rw [abs_mul]
  calc |z| * |1 + ε| ≤ c * 1.001 := mul_le_mul hz h1 (abs_nonneg _) ((abs_nonneg _).trans hz)
    _ = _ := by ring

theorem tiny_le : tiny ≤ 1 / 1000 := by
  unfold tiny
  calc (2 : ℝ) ^ (-1075 : ℤ) ≤ (2 : ℝ) ^ (-10 : ℤ) := zpow_le_zpow_right₀ (by norm_num) (by norm_num)
    _ ≤ 1 / 1000 := by norm_num

theorem overflow64_big : 15 * (2 : ℝ) ^ 1020 < overflow64 := by
  unfold overflow64
  have h1 : (2 : ℝ) ^ 1024 = 16 * 2 ^ 1020 := by rw [show 1024 = 4 + 1020 by norm_num, pow_add]; norm_num
  have h2 : (2 : ℝ) ^ 970 < 2 ^ 1020 := pow_lt_pow_right₀ (by norm_num) (by norm_num)
  rw [h1]
  generalize (2 : ℝ) ^ 1020 = M at *
  generalize (2 : ℝ) ^ 970 = N at *
  linarith

set_option maxHeartbeats 2000000 in
/-- One cell: nothing overflows, and the result is near the line. -/
theorem cell_ok (h : Ieee fl) {x0 x1 y0 y1 x X Y : ℝ} (hx0 : Double64 x0) (hx1 : Double64 x1) (hy0 : Double64 y0) (hy1 : Double64 y1)
    (hd : 0 < x1 - x0) (X0 : |x0| ≤ X) (X1 : |x1| ≤ X) (Xx : |x| ≤ X) (Y0 : |y0| ≤ Y) (Y1 : |y1| ≤ Y)
    (hM : (1 + X) * (1 + Y) * (1 + (x1 - x0)⁻¹) ≤ 2 ^ 1020) :
    ∃ a b v, fquot fl (fsub fl (num y1) (num y0)) (fsub fl (num x1) (num x0)) = .ok a ∧
      fquot fl (fsub fl (fmul fl (num y0) (num x1)) (fmul fl (num x0) (num y1))) (fsub fl (num x1) (num x0)) = .ok b ∧
      fadd fl (fmul fl a (num x)) b = num v ∧
      |v - ((y1 - y0) * (x1 - x0)⁻¹ * x + (y0 * x1 - x0 * y1) * (x1 - x0)⁻¹)| ≤
        gam 6 * ((|y1| + |y0|) * |(x1 - x0)⁻¹| * |x| + (|y0| * |x1| + |x0| * |y1|) * |(x1 - x0)⁻¹|)
          + 4 * tiny * (|x| + (x1 - x0)⁻¹ + 1) := by
  have hbig := overflow64_big
  have hX : 0 ≤ X := (abs_nonneg _).trans X0
  have hY : 0 ≤ Y := (abs_nonneg _).trans Y0
  have ht := tiny_le
  have ht0 := tiny_pos
  have hu : uround ≤ 1 / 1000 := by unfold uround; norm_num
  have hu0 := uround_pos
  set D := x1 - x0 with hD
  have hI : 0 < D⁻¹ := inv_pos.2 hd
  obtain ⟨M, hMd⟩ : ∃ M : ℝ, M = 2 ^ 1020 := ⟨_, rfl⟩
  rw [← hMd] at hM hbig
  clear hMd
  have mXY : 0 ≤ X * Y := mul_nonneg hX hY
  have mXI : 0 ≤ X * D⁻¹ := mul_nonneg hX hI.le
  have mYI : 0 ≤ Y * D⁻¹ := mul_nonneg hY hI.le
  have mXYI : 0 ≤ X * Y * D⁻¹ := mul_nonneg mXY hI.le
  have hMe : 1 + X + Y + X * Y + D⁻¹ + X * D⁻¹ + Y * D⁻¹ + X * Y * D⁻¹ ≤ M := by
    have e : (1 + X) * (1 + Y) * (1 + D⁻¹) = 1 + X + Y + X * Y + D⁻¹ + X * D⁻¹ + Y * D⁻¹ + X * Y * D⁻¹ := by ring
    rwa [e] at hM
  -- the difference of the abscissas
  have bD : |D| ≤ 2 * X := by
    rw [hD]; refine (abs_sub _ _).trans ?_; linarith
  obtain ⟨ed, hed, -, d_eq⟩ := fsub_ok h hx1 hx0 (by rw [← hD]; linarith)
  rw [← hD] at d_eq
  set d := D * (1 + ed) with hdd
  have hed' : 0 < 1 + ed := by have := (abs_le.1 hed).1; linarith
  have hd0 : d ≠ 0 := by rw [hdd]; exact (mul_pos hd hed').ne'
  have nI := Near.inv_scale (d := D) hed
  rw [← hdd] at nI
  have bI : |d⁻¹| ≤ 1.01 * D⁻¹ := by
    have := nI.abs_le
    rw [abs_of_pos hI] at this
    have hg : gam 2 ≤ 0.01 := by
      have := gam_le (k := 2) (by norm_num)
      push_cast at this
      linarith
    nlinarith
  -- the slope
  have bn : |y1 - y0| ≤ 2 * Y := (abs_sub _ _).trans (by linarith)
  obtain ⟨en, hen, -, n_eq⟩ := fsub_ok h hy1 hy0 (by linarith)
  have bn' := abs_scale bn hen
  set n := (y1 - y0) * (1 + en) with hn
  have bq : |n * d⁻¹| ≤ 2.1 * (Y * D⁻¹) := by
    rw [abs_mul]
    calc |n| * |d⁻¹| ≤ (1.001 * (2 * Y)) * (1.01 * D⁻¹) := mul_le_mul bn' bI (abs_nonneg _) (by positivity)
      _ ≤ _ := by linarith
  obtain ⟨ea, ha, hea, hha, -, a_eq⟩ := fquot_ok h hd0 (show |n * d⁻¹| < overflow64 by linarith)
  have ba := abs_scale bq hea
  set a := n * d⁻¹ * (1 + ea) + ha with haa
  have ba' : |a| ≤ 2.2 * (Y * D⁻¹) + tiny := by
    rw [haa]; refine (abs_add_le _ _).trans ?_; linarith
  -- the products
  have bp : |y0 * x1| ≤ X * Y := by
    rw [abs_mul, mul_comm X]; exact mul_le_mul Y0 X1 (abs_nonneg _) hY
  have bq' : |x0 * y1| ≤ X * Y := by
    rw [abs_mul]; exact mul_le_mul X0 Y1 (abs_nonneg _) hX
  obtain ⟨ep, hp, hep, hhp, Dp, p_eq⟩ := fmul_ok h (show |y0 * x1| < overflow64 by linarith)
  obtain ⟨eq, hq, heq, hhq, Dq, q_eq⟩ := fmul_ok h (show |x0 * y1| < overflow64 by linarith)
  have bp' := abs_scale bp hep
  have bq'' := abs_scale bq' heq
  set p := y0 * x1 * (1 + ep) + hp with hpp
  set q := x0 * y1 * (1 + eq) + hq with hqq
  have bp3 : |p| ≤ 1.001 * (X * Y) + tiny := by rw [hpp]; refine (abs_add_le _ _).trans ?_; linarith
  have bq3 : |q| ≤ 1.001 * (X * Y) + tiny := by rw [hqq]; refine (abs_add_le _ _).trans ?_; linarith
  have bpq : |p - q| ≤ 2.002 * (X * Y) + 2 * tiny := (abs_sub _ _).trans (by linarith)
  obtain ⟨er, her, -, r_eq⟩ := fsub_ok h Dp Dq (by linarith)
  have br := abs_scale bpq her
  set r := (p - q) * (1 + er) with hr
  have brd : |r * d⁻¹| ≤ 2.1 * (X * Y * D⁻¹) + 2.1 * (tiny * D⁻¹) := by
    rw [abs_mul]
    have h1 : 0 ≤ tiny * D⁻¹ := by positivity
    calc |r| * |d⁻¹| ≤ (1.001 * (2.002 * (X * Y) + 2 * tiny)) * (1.01 * D⁻¹) := mul_le_mul br bI (abs_nonneg _) (by positivity)
      _ ≤ _ := by linarith
  have htI : tiny * D⁻¹ ≤ 1 / 1000 * D⁻¹ := mul_le_mul_of_nonneg_right ht hI.le
  obtain ⟨eb, hb, heb, hhb, Db, b_eq⟩ := fquot_ok h hd0 (show |r * d⁻¹| < overflow64 by linarith)
  have bb := abs_scale brd heb
  set b := r * d⁻¹ * (1 + eb) + hb with hbb
  have bb' : |b| ≤ 2.3 * (X * Y * D⁻¹) + 2.3 * (tiny * D⁻¹) + tiny := by
    rw [hbb]; refine (abs_add_le _ _).trans ?_
    have h1 : 0 ≤ tiny * D⁻¹ := by positivity
    linarith
  -- the value
  have bs : |a * x| ≤ 2.2 * (X * Y * D⁻¹) + tiny * X := by
    rw [abs_mul]
    calc |a| * |x| ≤ (2.2 * (Y * D⁻¹) + tiny) * X := mul_le_mul ba' Xx (abs_nonneg _) (by positivity)
      _ = _ := by ring
  have htX : tiny * X ≤ 1 / 1000 * X := mul_le_mul_of_nonneg_right ht hX
  obtain ⟨es, hs, hes, hhs, Ds, s_eq⟩ := fmul_ok h (show |a * x| < overflow64 by linarith)
  have bs' := abs_scale bs hes
  set s := a * x * (1 + es) + hs with hss
  have bs3 : |s| ≤ 2.3 * (X * Y * D⁻¹) + 1.001 * (tiny * X) + tiny := by
    rw [hss]; refine (abs_add_le _ _).trans ?_; linarith
  have bsb : |s + b| < overflow64 := by
    refine lt_of_le_of_lt (abs_add_le _ _) ?_
    linarith
  obtain ⟨ev, hev, -, v_eq⟩ := fadd_ok h Ds Db bsb
  refine ⟨num a, num b, (s + b) * (1 + ev), ?_, ?_, ?_, ?_⟩
  · rw [n_eq, d_eq, a_eq]
  · rw [p_eq, q_eq, r_eq, d_eq, b_eq]
  · rw [s_eq, v_eq]
  -- the result without the absolute errors
  set v0 := ((n * d⁻¹ * (1 + ea)) * x * (1 + es) +
    (((y0 * x1 * (1 + ep)) - (x0 * y1 * (1 + eq))) * (1 + er) * d⁻¹ * (1 + eb))) * (1 + ev) with hv0
  have na := ((((((Near.exact y1).sub (Near.exact y0)).scale hen).mul nI).scale hea).mul (Near.exact x)).scale hes
  have nb := (((((((Near.exact y0).mul (Near.exact x1)).scale hep).sub (((Near.exact x0).mul (Near.exact y1)).scale heq)).scale her).mul
    nI).scale heb)
  have nv := ((na.add nb).scale hev).err
  have e1 : (s + b) * (1 + ev) - v0 = ((ha * x) * (1 + es) + hs + (((hp - hq) * (1 + er)) * d⁻¹) * (1 + eb) + hb) * (1 + ev) := by
    simp only [hv0, hss, hbb, haa, hr, hpp, hqq]
    ring
  have hrest : |(s + b) * (1 + ev) - v0| ≤ 4 * tiny * (|x| + D⁻¹ + 1) := by
    rw [e1]
    have h1 : |ha * x| ≤ tiny * |x| := by rw [abs_mul]; exact mul_le_mul_of_nonneg_right hha (abs_nonneg _)
    have h2 := abs_scale h1 hes
    have h3 : |hp - hq| ≤ 2 * tiny := (abs_sub _ _).trans (by linarith)
    have h4 := abs_scale h3 her
    have h5 : |(hp - hq) * (1 + er) * d⁻¹| ≤ 2.1 * (tiny * D⁻¹) := by
      rw [abs_mul]
      have h1 : 0 ≤ tiny * D⁻¹ := by positivity
      calc |(hp - hq) * (1 + er)| * |d⁻¹| ≤ (1.001 * (2 * tiny)) * (1.01 * D⁻¹) := mul_le_mul h4 bI (abs_nonneg _) (by positivity)
        _ ≤ _ := by linarith
    have h6 := abs_scale h5 heb
    have h7 : |ha * x * (1 + es) + hs + (hp - hq) * (1 + er) * d⁻¹ * (1 + eb) + hb| ≤
        1.001 * (tiny * |x|) + tiny + 1.001 * (2.1 * (tiny * D⁻¹)) + tiny := by
      refine (abs_add_le _ _).trans (add_le_add ((abs_add_le _ _).trans (add_le_add ((abs_add_le _ _).trans (add_le_add h2 hhs)) h6)) hhb)
    refine (abs_scale h7 hev).trans ?_
    have q1 : 0 ≤ tiny * |x| := by positivity
    have q2 : 0 ≤ tiny * D⁻¹ := by positivity
    have e2 : 4 * tiny * (|x| + D⁻¹ + 1) = 4 * (tiny * |x|) + 4 * (tiny * D⁻¹) + 4 * tiny := by ring
    rw [e2]
    linarith
  have := abs_add_le ((s + b) * (1 + ev) - v0)
    (v0 - ((y1 - y0) * D⁻¹ * x + (y0 * x1 - x0 * y1) * D⁻¹))
  rw [sub_add_sub_cancel] at this
  linarith

namespace Interp1d

/-- Slope of segment `i`, as computed. -/
noncomputable def slopeI (fl : ℝ → Option ℝ) (xs : List ℝ) (ys : List (Dbl ℝ)) (i : Nat) : Dbl ℝ :=
  match fquot fl (fsub fl (ys.getD (i + 1) nan) (ys.getD i nan)) (fsub fl (num (xs.getD (i + 1) 0)) (num (xs.getD i 0))) with
  | .ok v => v
  | _ => nan

/-- Intercept of segment `i`, as computed. -/
noncomputable def iceptI (fl : ℝ → Option ℝ) (xs : List ℝ) (ys : List (Dbl ℝ)) (i : Nat) : Dbl ℝ :=
  match fquot fl (fsub fl (fmul fl (ys.getD i nan) (num (xs.getD (i + 1) 0))) (fmul fl (num (xs.getD i 0)) (ys.getD (i + 1) nan)))
    (fsub fl (num (xs.getD (i + 1) 0)) (num (xs.getD i 0))) with
  | .ok v => v
  | _ => nan

/-- The object left by `Initialize`. -/
noncomputable def builtI (fl : ℝ → Option ℝ) (xs : List ℝ) (ys : List (Dbl ℝ)) (h : 0 < xs.length) (n : Nat) : Interp1d ℝ (Dbl ℝ) :=
  { xcoord := some xs, yval := some ys, ndata := xs.length, xmin := some xs[0],
    xmax := some (xs[xs.length - 1]'(by omega)),
    a := (List.range n).map (slopeI fl xs ys), b := (List.range n).map (iceptI fl xs ys) }

/-- The difference of two different finite numbers is not zero: the divisions do not fail. -/
theorem fquot_defined (h : Ieee fl) {x0 x1 : ℝ} (h0 : Double64 x0) (h1 : Double64 x1) (hlt : x0 < x1) (y : Dbl ℝ) :
    ∃ v, fquot fl y (fsub fl (num x1) (num x0)) = .ok v := by
  rcases lt_or_ge |x1 - x0| overflow64 with ho | ho
  · obtain ⟨ε, he, -, e⟩ := fsub_ok h h1 h0 ho
    have hu : uround ≤ 1 / 1000 := by unfold uround; norm_num
    have : 0 < 1 + ε := by have := (abs_le.1 he).1; linarith
    rw [e, fquot, if_neg (mul_pos (sub_pos.2 hlt) this).ne']
    exact ⟨_, rfl⟩
  · have : fsub fl (num x1) (num x0) = pinf := by
      rw [abs_of_pos (sub_pos.2 hlt)] at ho
      rw [← ofReal_pinf h ho, sub_eq_add_neg]
      rfl
    rw [this]
    cases y <;> exact ⟨_, rfl⟩

theorem run_initializeStepI (h : Ieee fl) {xs : List ℝ} {ys : List (Dbl ℝ)} (hp : 0 < xs.length) (hs : xs.length = ys.length)
    (hx : xs.Pairwise (· < ·)) (hD : ∀ x ∈ xs, Double64 x) (i : Nat) (hi : 1 ≤ i) (hi2 : i < xs.length) :
    (initializeStepI fl i).run (builtI fl xs ys hp (i - 1)) = (.ok (), builtI fl xs ys hp i) := by
  obtain ⟨i, rfl⟩ : ∃ k, i = k + 1 := ⟨i - 1, by omega⟩
  have e1 : i + 1 < ys.length := by omega
  have e2 : i < ys.length := by omega
  have e3 : i < xs.length := by omega
  have hlt := getElem_lt_of_pairwise hx (Nat.lt_succ_self i) hi2
  have hd := fquot_defined h (hD _ (List.getElem_mem e3)) (hD _ (List.getElem_mem hi2)) hlt
  obtain ⟨ca, ha⟩ := hd (fsub fl ys[i + 1] ys[i])
  obtain ⟨cb, hb⟩ := hd (fsub fl (fmul fl ys[i] (num xs[i + 1])) (fmul fl (num xs[i]) ys[i + 1]))
  simp only [initializeStepI, Act.run_bind, Act.run_get, Act.run_lift, builtI, deref_some, Nat.add_sub_cancel,
    vAt_lt hi2, vAt_lt e3, vAt_lt e2, vAt_lt e1, ha, hb, Act.run_update]
  congr 1
  simp [List.range_succ, slopeI, iceptI, List.getD_eq_getElem?_getD, hi2, e1, e2, e3, ha, hb]

theorem run_initI (h : Ieee fl) (B : Build) {xs : List ℝ} {ys : List (Dbl ℝ)} (hp : 0 < xs.length) (hs : xs.length = ys.length)
    (hx : xs.Pairwise (· < ·)) (hD : ∀ x ∈ xs, Double64 x) :
    (initI fl B (some xs) (some ys)).run (fresh ℝ (Dbl ℝ)) = (.ok (), builtI fl xs ys hp (xs.length - 1)) := by
  have e0 : (initializeBase B (some xs) (some ys)).run (fresh ℝ (Dbl ℝ)) = (.ok (), builtI fl xs ys hp (1 - 1)) := by
    simp only [initializeBase, Act.run_bind, Act.run_lift, deref_some, cassert_true B _ hs, cassert_true B _ (pairwise_lt_le hx), Act.run_update,
      vAt_lt hp, vAt_lt (show xs.length - 1 < xs.length by omega)]
    simp [builtI, fresh]
  rw [initI, Act.run_bind_ok e0, Act.run_bind_ok (Act.run_get _)]
  exact Act.loop_ok (lo := 1) (hi := xs.length) (by omega) (fun i => builtI fl xs ys hp (i - 1))
    (fun i h1 h2 => by simpa using run_initializeStepI h hp hs hx hD i h1 h2)

theorem privEvalBaseI_built {xs : List ℝ} {ys : List (Dbl ℝ)} (h : 0 < xs.length)
    (x : ℝ) (k : Nat) (hk : MU.lowerBound xs x = .ok k) (h2 : k < xs.length) (h3 : 1 < xs.length) :
    privEvalBaseI fl (builtI fl xs ys h (xs.length - 1)) x =
      .ok (fadd fl (fmul fl (slopeI fl xs ys (k - 1)) (num x)) (iceptI fl xs ys (k - 1))) := by
  simp only [privEvalBaseI, builtI, deref_some, Res.ok_bind, hk]
  have e : (if k = 0 then 1 else k) - 1 = k - 1 := by split <;> omega
  rw [e, vAt_lt (by simp; omega), vAt_lt (by simp; omega)]
  simp

theorem evalI_range (kind : Interp1dKind) {xs : List ℝ} {ys : List (Dbl ℝ)} (h : 0 < xs.length) (n : Nat) {x : ℝ}
    (h0 : xs[0] ≤ x) (h1 : x ≤ xs[xs.length - 1]) :
    evalI fl kind (builtI fl xs ys h n) x = privEvalBaseI fl (builtI fl xs ys h n) x := by
  cases kind <;>
    simp [evalI, builtI, not_lt.mpr h0, not_lt.mpr h1]

/-- What is computed at a point of the cell `i`, other than its left end unless it is the first of all. -/
theorem interp1dI_eq (h : Ieee fl) (B : Build) {m : InterpMethod} (hm : m ≠ .BSPLINE) {xs ys : List ℝ} (ht : Table xs ys)
    (hD : ∀ x ∈ xs, Double64 x) {i : Nat} (hi : i + 1 < xs.length) {x : ℝ} (h0 : xs[i] < x ∨ i = 0 ∧ xs[i] = x) (h1 : x ≤ xs[i + 1]) :
    interp1dI fl B m xs ys x =
      .ok (fadd fl (fmul fl (slopeI fl xs (ys.map num) i) (num x)) (iceptI fl xs (ys.map num) i)) := by
  obtain ⟨kind, hk⟩ := make_ok hm
  have h0' : xs[i] ≤ x := by rcases h0 with h | ⟨_, h⟩ <;> linarith
  have hrange := range_of_cell ht.increasing hi h0' h1
  have hpos : 0 < xs.length := by omega
  simp only [interp1dI, hk, Res.ok_bind, run_initI h B hpos (ys := ys.map num) (by simpa using ht.sizes) ht.increasing hD]
  rw [evalI_range kind hpos _ hrange.1 hrange.2]
  obtain ⟨k, hkk, hcase⟩ := lowerBound_cell ht.increasing hi h0' h1
  rw [privEvalBaseI_built hpos x k hkk (by omega) (by omega)]
  rcases hcase with rfl | ⟨rfl, hxi⟩
  · rw [Nat.add_sub_cancel]
  · rcases h0 with h | ⟨h, _⟩
    · linarith
    · rw [h]

end Interp1d

open Interp1d in
/-- C171 (in part: for data that are not too large): linear interpolation in binary64, with the range of the exponent. In the cell `[x0, x1]` with the
ordinates `y0, y1`, when `(1 + X) (1 + Y) (1 + 1/(x1 - x0)) ≤ 2^1020` for a bound `X` of the abscissas and a bound `Y` of the ordinates of the cell, the
result is a finite number. It differs from the straight line by at most the bound of C107 and, for numbers that underflow,
`2^-1073 (|x| + 1/(x1 - x0) + 1)`. The rest of the table may be of any size. Missing: all finite data, see `C171_refuted`. -/
theorem C171_finite_partial (h : Ieee fl) (B : Build) {m : InterpMethod} (hm : m ≠ .BSPLINE) {xs ys : List ℝ} (ht : Table xs ys)
    (hxs : ∀ x ∈ xs, Double64 x) (hys : ∀ y ∈ ys, Double64 y) {i : Nat} (hi : i + 1 < xs.length) (hi' : i + 1 < ys.length) {x : ℝ}
    (h0 : xs[i] < x ∨ i = 0 ∧ xs[i] = x) (h1 : x ≤ xs[i + 1]) {X Y : ℝ} (X0 : |xs[i]| ≤ X) (X1 : |xs[i + 1]| ≤ X) (Y0 : |ys[i]| ≤ Y)
    (Y1 : |ys[i + 1]| ≤ Y) (hM : (1 + X) * (1 + Y) * (1 + 1 / (xs[i + 1] - xs[i])) ≤ 2 ^ 1020) :
    ∃ v, interp1dI fl B m xs ys x = .ok (num v) ∧
      |v - line xs[i] ys[i] xs[i + 1] ys[i + 1] x|
        ≤ 7 / 2 ^ 53 * (((|ys[i]| + |ys[i + 1]|) * |x| + |ys[i] * xs[i + 1]| + |xs[i] * ys[i + 1]|) / (xs[i + 1] - xs[i]))
          + (2 : ℝ) ^ (-1073 : ℤ) * (|x| + 1 / (xs[i + 1] - xs[i]) + 1) := by
  have hd : 0 < xs[i + 1] - xs[i] := sub_pos.2 (getElem_lt_of_pairwise ht.increasing (Nat.lt_succ_self i) hi)
  have h0' : xs[i] ≤ x := by rcases h0 with h | ⟨_, h⟩ <;> linarith
  have Xx : |x| ≤ X := by
    rw [abs_le] at X0 X1 ⊢
    constructor <;> linarith [X0.1, X1.2]
  rw [one_div] at hM ⊢
  obtain ⟨a, b, v, ha, hb, hv, herr⟩ := cell_ok h (hxs _ (List.getElem_mem (show i < xs.length by omega))) (hxs _ (List.getElem_mem hi))
    (hys _ (List.getElem_mem (show i < ys.length by omega))) (hys _ (List.getElem_mem hi')) hd X0 X1 Xx Y0 Y1 hM
  have e1 : xs.getD (i + 1) 0 = xs[i + 1] := by simp [List.getD_eq_getElem?_getD, hi]
  have e2 : xs.getD i 0 = xs[i] := by simp [List.getD_eq_getElem?_getD, show i < xs.length by omega]
  have e3 : (ys.map num).getD (i + 1) nan = num ys[i + 1] := by simp [List.getD_eq_getElem?_getD, hi']
  have e4 : (ys.map num).getD i nan = num ys[i] := by simp [List.getD_eq_getElem?_getD, show i < ys.length by omega]
  refine ⟨v, ?_, ?_⟩
  · rw [interp1dI_eq h B hm ht hxs hi h0 h1]
    simp only [slopeI, iceptI, e1, e2, e3, e4, ha, hb, hv]
  · have e5 : line xs[i] ys[i] xs[i + 1] ys[i + 1] x = (ys[i + 1] - ys[i]) * (xs[i + 1] - xs[i])⁻¹ * x
        + (ys[i] * xs[i + 1] - xs[i] * ys[i + 1]) * (xs[i + 1] - xs[i])⁻¹ := by
      simp only [line, smul_eq_mul]
      field_simp
      ring
    rw [e5]
    refine herr.trans ?_
    have hq : |(xs[i + 1] - xs[i])⁻¹| = (xs[i + 1] - xs[i])⁻¹ := abs_of_pos (inv_pos.2 hd)
    rw [hq]
    have hg : gam 6 ≤ 7 / 2 ^ 53 := by
      have := gam_le (k := 6) (by norm_num)
      unfold uround at this
      norm_num at this ⊢
      linarith
    have e6 : 4 * tiny = (2 : ℝ) ^ (-1073 : ℤ) := by
      unfold tiny
      rw [show (-1073 : ℤ) = 2 + -1075 by norm_num, zpow_add₀ (by norm_num)]
      norm_num
    rw [e6]
    refine add_le_add (mul_le_mul hg (le_of_eq ?_) ?_ (by norm_num)) le_rfl
    · rw [abs_mul, abs_mul, div_eq_mul_inv]
      ring
    · have := inv_pos.2 hd
      positivity

open Interp1d in
/-- C171 is false: of the table of `-2^1023` at 0 and `2^1023` at 1, which are finite numbers, the result is an infinity at every point after 0, where
the straight line has at most `2^1023` in magnitude, and NaN at 0. -/
theorem C171_refuted (h : Ieee fl) (B : Build) {m : InterpMethod} (hm : m ≠ .BSPLINE) {x : ℝ} (h0 : 0 ≤ x) (h1 : x ≤ 1) :
    Double64 (2 ^ 1023) ∧ Double64 (-2 ^ 1023) ∧ |line (0 : ℝ) (-2 ^ 1023 : ℝ) 1 (2 ^ 1023) x| ≤ 2 ^ 1023 ∧
      interp1dI fl B m [0, 1] [-2 ^ 1023, 2 ^ 1023] x = .ok (if x = 0 then nan else pinf) := by
  have d1 : Double64 (2 ^ 1023) := ⟨2 ^ 52, 971, by norm_num, by norm_num, le_rfl, by
    rw [show (2 : ℝ) ^ (971 : ℤ) = 2 ^ 971 from zpow_natCast _ _, Int.cast_pow, Int.cast_ofNat, ← pow_add]⟩
  have d2 := double64_neg d1
  have hov : overflow64 ≤ 2 * 2 ^ 1023 := by
    unfold overflow64
    rw [show (2 : ℝ) ^ 1024 = 2 * 2 ^ 1023 by rw [← pow_succ']]
    have : (0 : ℝ) ≤ 2 ^ 970 := by positivity
    generalize (2 : ℝ) ^ 970 = N at *
    generalize (2 : ℝ) ^ 1023 = M at *
    linarith
  have hpos : (0 : ℝ) < 2 ^ 1023 := by positivity
  generalize (2 : ℝ) ^ 1023 = M at *
  refine ⟨d1, d2, ?_, ?_⟩
  · simp only [line, smul_eq_mul]
    rw [abs_le]
    constructor <;> norm_num <;> nlinarith
  have ht : Table [(0 : ℝ), 1] [-M, M] := ⟨by simp, by simp, rfl⟩
  have d3 : Double64 1 := by have := double64_int 1 (by norm_num); simpa using this
  rw [interp1dI_eq h B hm ht (by simpa using ⟨double64_zero, d3⟩) (i := 0) (by simp) (by
    rcases eq_or_lt_of_le h0 with h | h
    · exact Or.inr ⟨rfl, h⟩
    · exact Or.inl h) (by simpa using h1)]
  have r1 : ofReal fl 1 = num 1 := ofReal_some (ieee_double h d3)
  have r0 : ofReal fl 0 = num 0 := ofReal_some (ieee_double h double64_zero)
  have rM : ofReal fl (-M) = num (-M) := ofReal_some (ieee_double h d2)
  have rP : ofReal fl (M + M) = pinf := ofReal_pinf h (by linarith)
  simp only [slopeI, iceptI, List.map_cons, List.map_nil, List.getD_cons_succ, List.getD_cons_zero, fsub, fmul, fadd, Dbl.sub, Dbl.neg, Dbl.add,
    Dbl.mul, rounded, neg_neg, rP, neg_zero, add_zero, r1, fquot, one_ne_zero, if_false, inv_one, mul_one, zero_mul, r0, rM, zero_lt_one, if_true]
  rcases eq_or_lt_of_le h0 with h | h
  · subst h
    simp
  · simp [h, h.ne']

/-- C171: the hypotheses are met, whatever the size of the numbers of another cell. -/
example {P Q : ℝ} (hP : Double64 P) (h3 : 3 < P) (hQ : Double64 Q) :
    ∃ fl, Ieee fl ∧ ∃ v, interp1dI fl ⟨true⟩ .LINEAR [0, 1, 3, P] [5, 7, 1, Q] 2 = .ok (num v) ∧ |v - 4| < 1 / 2 ^ 45 := by
  refine ⟨_, fl64_ieee, ?_⟩
  have ht : Table ([0, 1, 3, P] : List ℝ) ([5, 7, 1, Q] : List ℝ) :=
    ⟨by simp, by
      simp only [List.pairwise_cons, List.mem_cons, List.not_mem_nil, or_false, forall_eq_or_imp, forall_eq]
      refine ⟨⟨?_, ?_, ?_⟩, ⟨?_, ?_⟩, ?_, by simp, by simp⟩ <;> linarith, rfl⟩
  have dn : ∀ n : ℕ, n < 2 ^ 53 → Double64 (n : ℝ) := fun n hn => by
    have := double64_int n (by rw [abs_of_nonneg (by positivity)]; exact_mod_cast hn)
    simpa using this
  obtain ⟨v, hv, he⟩ := C171_finite_partial fl64_ieee ⟨true⟩ (m := .LINEAR) (by simp) ht
    (by
      intro x hx
      simp only [List.mem_cons, List.not_mem_nil, or_false] at hx
      rcases hx with rfl | rfl | rfl | rfl
      · exact double64_zero
      · simpa using dn 1 (by norm_num)
      · simpa using dn 3 (by norm_num)
      · exact hP)
    (by
      intro x hx
      simp only [List.mem_cons, List.not_mem_nil, or_false] at hx
      rcases hx with rfl | rfl | rfl | rfl
      · simpa using dn 5 (by norm_num)
      · simpa using dn 7 (by norm_num)
      · simpa using dn 1 (by norm_num)
      · exact hQ)
    (i := 1) (x := 2) (by simp) (by simp)
    (Or.inl (by norm_num)) (by norm_num) (X := 3) (Y := 7) (by norm_num) (by norm_num) (by norm_num) (by norm_num)
    (by
      have : (2 : ℝ) ^ 10 ≤ 2 ^ 1020 := pow_le_pow_right₀ (by norm_num) (by norm_num)
      refine le_trans ?_ this
      norm_num)
  refine ⟨v, hv, ?_⟩
  simp only [List.getElem_cons_succ, List.getElem_cons_zero, line] at he
  have ht : (2 : ℝ) ^ (-1073 : ℤ) ≤ (2 : ℝ) ^ (-60 : ℤ) := zpow_le_zpow_right₀ (by norm_num) (by norm_num)
  generalize (2 : ℝ) ^ (-1073 : ℤ) = t at he ht
  norm_num at he ht ⊢
  linarith

end MU
