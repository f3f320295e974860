import Verif.Model.RoundedPowerSeriesD
import Verif.Props.RoundedPowerSeries

set_option linter.unusedSectionVars false

/-!
# The derivatives and the evaluations at a fixed `z` of the power series in double arithmetic

C192.
-/

namespace MU
open Spec Finset

variable {rnd : ℝ → ℝ}

/-- The sum `P` of a series in one variable, computed from its coefficients by `op`; the result `val` has an error of at most `E` times a weighted sum of their magnitudes. -/
structure SummedR (op : List ℝ → Res ℝ) (n : Nat) (E : ℝ) (w : Nat → ℝ) (P val : (Nat → ℝ) → ℝ) : Prop where
  wpos : ∀ i, 0 ≤ w i
  pos : 0 ≤ E
  zero : P (fun _ => 0) = 0
  sub : ∀ a b, |P a - P b| ≤ ∑ i ∈ range (n + 1), w i * |a i - b i|
  eval : ∀ a, op ((List.range (n + 1)).map a) = .ok (val a)
  near : ∀ a, |val a - P a| ≤ E * ∑ i ∈ range (n + 1), w i * |a i|

namespace SummedR

variable {op op' op'' : List ℝ → Res ℝ} {n m l : Nat} {E e f : ℝ} {w w' w'' : Nat → ℝ} {P P' P'' val val' val'' : (Nat → ℝ) → ℝ}

theorem le (h : SummedR op n E w P val) (a : Nat → ℝ) : |P a| ≤ ∑ i ∈ range (n + 1), w i * |a i| := by
  have := h.sub a (fun _ => 0)
  simpa [h.zero] using this

theorem nested (h : SummedR op n E w P val) {r A S : Nat → ℝ} (h1 : ∀ i, i < n + 1 → |r i - A i| ≤ e * S i) (h2 : ∀ i, i < n + 1 → |A i| ≤ S i) :
    |val r - P A| ≤ ((1 + E) * (1 + e) - 1) * ∑ i ∈ range (n + 1), w i * S i := by
  have hE0 := h.pos
  have h5 : ∑ i ∈ range (n + 1), w i * |r i| ≤ (1 + e) * ∑ i ∈ range (n + 1), w i * S i := by
    rw [mul_sum]
    refine sum_le_sum fun i hi => ?_
    have hi := mem_range.1 hi
    have := abs_add_le (r i - A i) (A i)
    rw [sub_add_cancel] at this
    have := mul_le_mul_of_nonneg_left (this.trans (add_le_add (h1 i hi) (h2 i hi))) (h.wpos i)
    linarith
  have h6 : |P r - P A| ≤ e * ∑ i ∈ range (n + 1), w i * S i := by
    refine (h.sub r A).trans ?_
    rw [mul_sum]
    refine sum_le_sum fun i hi => ?_
    have := mul_le_mul_of_nonneg_left (h1 i (mem_range.1 hi)) (h.wpos i)
    linarith
  have h7 := abs_sub_le (val r) (P r) (P A)
  have h8 := mul_le_mul_of_nonneg_left h5 hE0
  have h9 := h.near r
  linarith

theorem two (hx : SummedR op n E w P val) (hy : SummedR op' m e w' P' val') (a : Nat → Nat → ℝ) :
    |val (fun i => val' (a i)) - P (fun i => P' (a i))| ≤ ((1 + E) * (1 + e) - 1) * ∑ i ∈ range (n + 1), w i * ∑ j ∈ range (m + 1), w' j * |a i j| :=
  hx.nested (fun i _ => hy.near (a i)) (fun i _ => hy.le (a i))

theorem two_le (hx : SummedR op n E w P val) (hy : SummedR op' m e w' P' val') (a : Nat → Nat → ℝ) :
    |P (fun i => P' (a i))| ≤ ∑ i ∈ range (n + 1), w i * ∑ j ∈ range (m + 1), w' j * |a i j| :=
  (hx.le _).trans (sum_le_sum fun i _ => mul_le_mul_of_nonneg_left (hy.le (a i)) (hx.wpos i))

theorem three (hx : SummedR op n E w P val) (hy : SummedR op' m e w' P' val') (hz : SummedR op'' l f w'' P'' val'') (a : Nat → Nat → Nat → ℝ) :
    |val (fun i => val' (fun j => val'' (a i j))) - P (fun i => P' (fun j => P'' (a i j)))| ≤
      ((1 + E) * ((1 + e) * (1 + f)) - 1) * ∑ i ∈ range (n + 1), w i * ∑ j ∈ range (m + 1), w' j * ∑ k ∈ range (l + 1), w'' k * |a i j k| := by
  have := hx.nested (e := (1 + e) * (1 + f) - 1) (fun i _ => hy.two hz (a i)) (fun i _ => hy.two_le hz (a i))
  rwa [add_sub_cancel] at this

theorem three_le (hx : SummedR op n E w P val) (hy : SummedR op' m e w' P' val') (hz : SummedR op'' l f w'' P'' val'') (a : Nat → Nat → Nat → ℝ) :
    |P (fun i => P' (fun j => P'' (a i j)))| ≤ ∑ i ∈ range (n + 1), w i * ∑ j ∈ range (m + 1), w' j * ∑ k ∈ range (l + 1), w'' k * |a i j k| :=
  (hx.le _).trans (sum_le_sum fun i _ => mul_le_mul_of_nonneg_left (hy.two_le hz (a i)) (hx.wpos i))

end SummedR

theorem hornerR_summed (hr : ToNearest rnd) {t τ κ : ℝ} (ht : |t| ≤ 1) (hκ : 2 ≤ κ) (hτ : |τ - t| ≤ gam 7 * κ) (n : Nat) :
    ∃ val, SummedR (fun l => hornerR rnd l τ) n (powErr n κ) (fun _ => 1) (fun a => poly1 (n + 1) a t) val := by
  choose val h1 h2 using horner_map_near hr ht hκ hτ n
  exact ⟨val, fun _ => zero_le_one, powErr_nonneg n hκ, by simp [poly1], fun a b => by simpa using poly1_sub_le ht (n + 1) b a, h1, fun a => by simpa using h2 a⟩

theorem dpoly1_shift (n : Nat) (a : Nat → ℝ) (t : ℝ) : dpoly1 (n + 1) a t = ∑ i ∈ range n, ((i : ℝ) + 1) * a (i + 1) * t ^ i := by
  rw [dpoly1, sum_range_succ']
  simp

theorem hornerDerivativeR_summed (hr : ToNearest rnd) {t τ κ : ℝ} (ht : |t| ≤ 1) (hκ : 2 ≤ κ) (hτ : |τ - t| ≤ gam 7 * κ) (n : Nat) :
    ∃ val, SummedR (fun l => hornerDerivativeR rnd l τ) n (powErr n κ) (fun i => (i : ℝ)) (fun a => dpoly1 (n + 1) a t) val := by
  choose val h1 h2 using hornerDerivative_map_near hr ht hκ hτ n
  have hs : ∀ a : Nat → ℝ, ∑ i ∈ range (n + 1), (i : ℝ) * |a i| = ∑ i ∈ range n, ((i : ℝ) + 1) * |a (i + 1)| := by
    intro a
    rw [sum_range_succ']
    simp
  refine ⟨val, fun i => Nat.cast_nonneg i, powErr_nonneg n hκ, by simp [dpoly1], fun a b => ?_, h1, fun a => ?_⟩
  · rw [hs (fun i => a i - b i), dpoly1_shift, dpoly1_shift, ← sum_sub_distrib]
    refine (abs_sum_le_sum_abs _ _).trans (sum_le_sum fun i _ => ?_)
    rw [← sub_mul, ← mul_sub, abs_mul, abs_mul, abs_of_nonneg (show (0 : ℝ) ≤ i + 1 by positivity), abs_pow]
    exact mul_le_of_le_one_right (by positivity) (pow_le_one₀ (abs_nonneg _) ht)
  · rw [hs, dpoly1_shift]
    exact h2 a

/-- The product with the derivative of the map to `[-1, 1]`. -/
theorem coef_mul_near (hr : ToNearest rnd) {c q D h S F : ℝ} (c2 : |c - q| ≤ gam 4 * |q|) (h2 : |h - D| ≤ F * S) (hD1 : |D| ≤ S) (hF : 0 ≤ F) :
    |rnd (c * h) - D * q| ≤ ((1 + 6 / 2 ^ 53) * (1 + F) - 1) * (|q| * S) := by
  have hS0 : 0 ≤ S := (abs_nonneg _).trans hD1
  have hh : |h| ≤ (1 + F) * S := by
    have := abs_add_le (h - D) D
    rw [sub_add_cancel] at this
    linarith
  have hm0 : 0 ≤ |q| := abs_nonneg _
  have g0 := gam_nonneg 4
  have hch : |c * h - D * q| ≤ ((1 + gam 4) * (1 + F) - 1) * (|q| * S) := by
    rw [show c * h - D * q = (c - q) * h + q * (h - D) by ring]
    refine (abs_add_le _ _).trans ?_
    rw [abs_mul, abs_mul]
    have q1 := mul_le_mul c2 hh (abs_nonneg _) (by positivity)
    have q2 := mul_le_mul_of_nonneg_left h2 hm0
    linarith
  have hc : |c| ≤ (1 + gam 4) * |q| := by
    have := abs_add_le (c - q) q
    rw [sub_add_cancel] at this
    linarith
  have hr1 := toNearest_err hr (c * h)
  rw [abs_sub_comm, abs_mul] at hr1
  have q3 : |c| * |h| ≤ (1 + gam 4) * |q| * ((1 + F) * S) := mul_le_mul hc hh (abs_nonneg _) (by positivity)
  have q4 := abs_sub_le (rnd (c * h)) (c * h) (D * q)
  have g4 : (1 + 1 / 2 ^ 53) * (1 + gam 4) ≤ 1 + 6 / 2 ^ 53 := by
    have h5 : (1 + 1 / 2 ^ 53) * (1 + gam 4) = 1 + gam 5 := by unfold gam uround; ring
    have h6 : gam 5 ≤ 6 * uround := (gam_le (by norm_num)).trans (by norm_num)
    have hu : uround = 1 / 2 ^ 53 := by unfold uround; norm_num
    rw [h5]
    rw [hu] at h6
    linarith
  have q5 := mul_le_mul_of_nonneg_right g4 (show 0 ≤ (1 + F) * (|q| * S) by positivity)
  have q6 : |c| * |h| / 2 ^ 53 ≤ (1 + gam 4) * |q| * ((1 + F) * S) / 2 ^ 53 := by gcongr
  linarith

/-- The chain rule with the map to `[-1, 1]`. -/
theorem comp_unit {s : Seg ℝ} (hX : s.dom.Usual) {x : ℝ} (hx : s.dom.Mem x) {P : ℝ → ℝ} {D : ℝ} (hP : HasDerivAt P D (s.dom.unit x)) :
    HasDerivAt (fun t => P (s.dom.unit t)) (D * s.coef x) x ∧ HasDerivAt s.dom.unit (s.coef x) x :=
  have hm : HasDerivAt s.dom.unit (s.coef x) x := Seg.hasDerivAt (Domain.mem_unit hX hx).1
  ⟨hP.comp x hm, hm⟩

theorem prod_powErr_nonneg {a b : ℝ} (ha : 0 ≤ a) (hb : 0 ≤ b) : 0 ≤ (1 + a) * (1 + b) - 1 := by
  have := mul_nonneg ha hb
  linarith

/-! ## Two variables -/

/-- C192, two variables: in double arithmetic the results of `Evaluate_derivative_x` and `Evaluate_derivative_y` differ from the derivatives of the series at the point by at most
the relative errors of the value and of the slope of the map to `[-1, 1]`, times the sum of the magnitudes of the terms. -/
theorem C192_derivative_2d (hr : ToNearest rnd) (B : Build) {b : Mat ℝ} {n m : Nat} (hn : b.rows = n + 1) (hm : b.cols = m + 1) {s : PS2 ℝ} {X Y : Domain ℝ}
    (hs : Built2 b s X Y) (hX : X.Usual) (hY : Y.Usual) {x y : ℝ} (hx : X.Mem x) (hy : Y.Mem y) :
    (∃ v d q, s.evaluateDerivativeXR rnd B x y = .ok v ∧ HasDerivAt (fun t => poly2 (n + 1) (m + 1) b.entry (X.unit t) (Y.unit y)) d x ∧ HasDerivAt X.unit q x ∧
      |v - d| ≤ ((1 + 6 / 2 ^ 53) * ((1 + powErr n X.cond) * (1 + powErr m Y.cond)) - 1) * (|q| * ∑ i ∈ range (n + 1), ∑ j ∈ range (m + 1), i * |b.entry i j|)) ∧
    (∃ v d q, s.evaluateDerivativeYR rnd B x y = .ok v ∧ HasDerivAt (fun t => poly2 (n + 1) (m + 1) b.entry (X.unit x) (Y.unit t)) d y ∧ HasDerivAt Y.unit q y ∧
      |v - d| ≤ ((1 + 6 / 2 ^ 53) * ((1 + powErr n X.cond) * (1 + powErr m Y.cond)) - 1) * (|q| * ∑ i ∈ range (n + 1), ∑ j ∈ range (m + 1), j * |b.entry i j|)) := by
  obtain ⟨sx, sy, rfl, rfl, rfl⟩ := Built2.seg hs
  obtain ⟨τ, t1, t2⟩ := toUnitR_ok hr hX hx
  obtain ⟨σ, u1, u2⟩ := toUnitR_ok hr hY hy
  obtain ⟨cx, cx1, cx2⟩ := coefficientDerivativeR_ok hr hX hx
  obtain ⟨cy, cy1, cy2⟩ := coefficientDerivativeR_ok hr hY hy
  obtain ⟨px, ax⟩ := hornerR_summed hr (unit_le hX hx) (Domain.cond_ge hX) t2 n
  obtain ⟨py, ay⟩ := hornerR_summed hr (unit_le hY hy) (Domain.cond_ge hY) u2 m
  obtain ⟨dx, bx⟩ := hornerDerivativeR_summed hr (unit_le hX hx) (Domain.cond_ge hX) t2 n
  obtain ⟨dy, bY⟩ := hornerDerivativeR_summed hr (unit_le hY hy) (Domain.cond_ge hY) u2 m
  have e0 := prod_powErr_nonneg ax.pos ay.pos
  have row : ∀ i, i < n + 1 → b.row B i = .ok ((List.range (m + 1)).map (b.entry i)) := fun i hi => by rw [Mat.row, if_pos (by omega), hm]
  constructor
  · have hP := hasDerivAt_poly1 (n + 1) (fun i => poly1 (m + 1) (b.entry i) (sy.dom.unit y)) (sx.dom.unit x)
    obtain ⟨k1, k2⟩ := comp_unit hX hx hP
    refine ⟨rnd (cx * dx (fun i => py (b.entry i))), _, _, ?_, by simpa only [poly2_eq] using k1, k2, ?_⟩
    · unfold PS2.evaluateDerivativeXR
      rw [show (PS2.base b sx sy).m_x = sx from rfl, show (PS2.base b sx sy).m_y = sy from rfl, t1, Res.ok_bind, u1, Res.ok_bind]
      simp only [PS2.base, upTo_len, hn]
      rw [collect_ok (fun i => py (b.entry i)) (fun i hi => by rw [row i hi, Res.ok_bind]; exact ay.eval _), Res.ok_bind, cx1, Res.ok_bind, bx.eval]
      rfl
    · have := coef_mul_near hr cx2 (bx.two ay b.entry) (bx.two_le ay b.entry) e0
      rw [add_sub_cancel] at this
      simpa only [one_mul, mul_sum] using this
  · have hP := hasDerivAt_poly1_coef (sx.dom.unit x) (n := n + 1) (fun i _ => hasDerivAt_poly1 (m + 1) (b.entry i) (sy.dom.unit y))
    obtain ⟨k1, k2⟩ := comp_unit hY hy hP
    refine ⟨rnd (cy * px (fun i => dy (b.entry i))), _, _, ?_, by simpa only [poly2_eq] using k1, k2, ?_⟩
    · unfold PS2.evaluateDerivativeYR
      rw [show (PS2.base b sx sy).m_x = sx from rfl, show (PS2.base b sx sy).m_y = sy from rfl, t1, Res.ok_bind, u1, Res.ok_bind]
      simp only [PS2.base, upTo_len, hn]
      rw [collect_ok (fun i => dy (b.entry i)) (fun i hi => by rw [row i hi, Res.ok_bind]; exact bY.eval _), Res.ok_bind, cy1, Res.ok_bind, ax.eval]
      rfl
    · have := coef_mul_near hr cy2 (ax.two bY b.entry) (ax.two_le bY b.entry) e0
      rw [add_sub_cancel] at this
      simpa only [one_mul] using this

/-! ## Three variables -/

theorem wsum3 (n m l : Nat) (wx wy wz : Nat → ℝ) (e : Nat → Nat → Nat → ℝ) :
    ∑ k ∈ range (l + 1), wz k * ∑ i ∈ range (n + 1), wx i * ∑ j ∈ range (m + 1), wy j * |e i j k| =
      ∑ i ∈ range (n + 1), ∑ j ∈ range (m + 1), ∑ k ∈ range (l + 1), wx i * wy j * wz k * |e i j k| := by
  simp only [mul_sum]
  rw [sum_comm]
  refine sum_congr rfl fun i _ => ?_
  rw [sum_comm]
  exact sum_congr rfl fun j _ => sum_congr rfl fun k _ => by ring

theorem wsum3' (n m l : Nat) (wx wy wz : Nat → ℝ) (e : Nat → Nat → Nat → ℝ) :
    ∑ i ∈ range (n + 1), wx i * ∑ j ∈ range (m + 1), wy j * ∑ k ∈ range (l + 1), wz k * |e i j k| =
      ∑ i ∈ range (n + 1), ∑ j ∈ range (m + 1), ∑ k ∈ range (l + 1), wx i * wy j * wz k * |e i j k| := by
  simp only [mul_sum]
  exact sum_congr rfl fun i _ => sum_congr rfl fun j _ => sum_congr rfl fun k _ => by ring

/-- What the loops over a cube return when the sums of one variable are `val`. -/
theorem Cube.rowR {b : List (Mat ℝ)} {n m l : Nat} {e : Nat → Nat → Nat → ℝ} (hb : Cube b (n + 1) (m + 1) (l + 1) e) (B : Build) {op : List ℝ → Res ℝ} {E : ℝ} {w : Nat → ℝ}
    {P val : (Nat → ℝ) → ℝ} (h : SummedR op m E w P val) {k : Nat} (hk : k < l + 1) {i : Nat} (hi : i < n + 1) :
    ∃ M r, vAt b k = .ok M ∧ M.row B i = .ok r ∧ op r = .ok (val (fun j => e i j k)) ∧ r = (List.range (m + 1)).map (fun j => e i j k) := by
  obtain ⟨M, g1, g2, g3, g4⟩ := hb.get hk
  have : (List.range M.cols).map (M.entry i) = (List.range (m + 1)).map (fun j => e i j k) := by
    rw [g3]
    exact List.map_congr_left (fun j hj => g4 i j hi (by simpa using hj))
  refine ⟨M, (List.range (m + 1)).map (fun j => e i j k), g1, ?_, h.eval _, rfl⟩
  rw [Mat.row, if_pos (by omega), this]

/-- The sums in three variables at coordinates `τ`, `σ`, `ω` near `t`, `u`, `v`. -/
structure Sums3 (rnd : ℝ → ℝ) (n m l : Nat) (κx κy κz τ σ ω t u v : ℝ) (px dx py dy pz dz : (Nat → ℝ) → ℝ) : Prop where
  ax : SummedR (fun l => hornerR rnd l τ) n (powErr n κx) (fun _ => 1) (fun a => poly1 (n + 1) a t) px
  bx : SummedR (fun l => hornerDerivativeR rnd l τ) n (powErr n κx) (fun i => (i : ℝ)) (fun a => dpoly1 (n + 1) a t) dx
  ay : SummedR (fun l => hornerR rnd l σ) m (powErr m κy) (fun _ => 1) (fun a => poly1 (m + 1) a u) py
  bY : SummedR (fun l => hornerDerivativeR rnd l σ) m (powErr m κy) (fun i => (i : ℝ)) (fun a => dpoly1 (m + 1) a u) dy
  az : SummedR (fun l => hornerR rnd l ω) l (powErr l κz) (fun _ => 1) (fun a => poly1 (l + 1) a v) pz
  bz : SummedR (fun l => hornerDerivativeR rnd l ω) l (powErr l κz) (fun i => (i : ℝ)) (fun a => dpoly1 (l + 1) a v) dz

theorem sums3 (hr : ToNearest rnd) {n m l : Nat} {κx κy κz τ σ ω t u v : ℝ} (ht : |t| ≤ 1) (hκx : 2 ≤ κx) (hτ : |τ - t| ≤ gam 7 * κx) (hu : |u| ≤ 1) (hκy : 2 ≤ κy)
    (hσ : |σ - u| ≤ gam 7 * κy) (hv : |v| ≤ 1) (hκz : 2 ≤ κz) (hω : |ω - v| ≤ gam 7 * κz) :
    ∃ px dx py dy pz dz, Sums3 rnd n m l κx κy κz τ σ ω t u v px dx py dy pz dz := by
  obtain ⟨px, ax⟩ := hornerR_summed hr ht hκx hτ n
  obtain ⟨py, ay⟩ := hornerR_summed hr hu hκy hσ m
  obtain ⟨pz, az⟩ := hornerR_summed hr hv hκz hω l
  obtain ⟨dx, bx⟩ := hornerDerivativeR_summed hr ht hκx hτ n
  obtain ⟨dy, bY⟩ := hornerDerivativeR_summed hr hu hκy hσ m
  obtain ⟨dz, bz⟩ := hornerDerivativeR_summed hr hv hκz hω l
  exact ⟨px, dx, py, dy, pz, dz, ax, bx, ay, bY, az, bz⟩

section three
variable {b : List (Mat ℝ)} {n m l : Nat} {e : Nat → Nat → Nat → ℝ} {s : PS3 ℝ} {sx sy sz : Seg ℝ} {tn : String} {κx κy κz τ σ ω t u v : ℝ}
  {px dx py dy pz dz : (Nat → ℝ) → ℝ}

/-- What the functions of the unit coordinates return. -/
theorem Sums3.values (H : Sums3 rnd n m l κx κy κz τ σ ω t u v px dx py dy pz dz) (B : Build) (hb : Cube b (n + 1) (m + 1) (l + 1) e)
    (hs : PS3.base b sx sy sz tn = .ok s) {x y z cx cy : ℝ} (hcx : sx.coefficientDerivativeR rnd x = .ok cx) (hcy : sy.coefficientDerivativeR rnd y = .ok cy) :
    s.evaluateUnitR rnd B τ σ ω = .ok (pz (fun k => px (fun i => py (fun j => e i j k)))) ∧
    s.evaluateDerivativeXUnitR rnd B x τ σ ω = .ok (rnd (cx * pz (fun k => dx (fun i => py (fun j => e i j k))))) ∧
    s.evaluateDerivativeYUnitR rnd B y τ σ ω = .ok (rnd (cy * pz (fun k => px (fun i => dy (fun j => e i j k))))) ∧
    (∀ cz, sz.coefficientDerivativeR rnd z = .ok cz →
      s.evaluateDerivativeZUnitR rnd B z τ σ ω = .ok (rnd (cz * dz (fun k => px (fun i => py (fun j => e i j k)))))) ∧
    s.evaluateFDfdxDfdyUnitR rnd B x y τ σ ω = .ok (pz (fun k => px (fun i => py (fun j => e i j k))),
      rnd (cx * pz (fun k => dx (fun i => py (fun j => e i j k)))), rnd (cy * pz (fun k => px (fun i => dy (fun j => e i j k))))) := by
  rw [PS3.base_ok hb] at hs
  injection hs with hs
  subst hs
  have r1 : ∀ k, k < l + 1 → collect (n + 1) (fun i => do
      let M ← vAt b k
      let pj ← M.row B i
      hornerR rnd pj σ) = .ok ((List.range (n + 1)).map (fun i => py (fun j => e i j k))) := by
    intro k hk
    refine collect_ok _ (fun i hi => ?_)
    obtain ⟨M, r, g1, g2, g3, -⟩ := hb.rowR B H.ay hk hi
    rw [g1, Res.ok_bind, g2, Res.ok_bind]
    exact g3
  have r2 : ∀ k, k < l + 1 → collect (n + 1) (fun i => do
      let M ← vAt b k
      let pj ← M.row B i
      hornerDerivativeR rnd pj σ) = .ok ((List.range (n + 1)).map (fun i => dy (fun j => e i j k))) := by
    intro k hk
    refine collect_ok _ (fun i hi => ?_)
    obtain ⟨M, r, g1, g2, g3, -⟩ := hb.rowR B H.bY hk hi
    rw [g1, Res.ok_bind, g2, Res.ok_bind]
    exact g3
  refine ⟨?_, ?_, ?_, fun cz hcz => ?_, ?_⟩
  · simp only [PS3.evaluateUnitR, upTo_len]
    rw [collect_ok (fun k => px (fun i => py (fun j => e i j k))) (fun k hk => by rw [r1 k hk, Res.ok_bind]; exact H.ax.eval _), Res.ok_bind]
    exact H.az.eval _
  · simp only [PS3.evaluateDerivativeXUnitR, upTo_len]
    rw [collect_ok (fun k => dx (fun i => py (fun j => e i j k))) (fun k hk => by rw [r1 k hk, Res.ok_bind]; exact H.bx.eval _), Res.ok_bind, hcx, Res.ok_bind, H.az.eval]
    rfl
  · simp only [PS3.evaluateDerivativeYUnitR, upTo_len]
    rw [collect_ok (fun k => px (fun i => dy (fun j => e i j k))) (fun k hk => by rw [r2 k hk, Res.ok_bind]; exact H.ax.eval _), Res.ok_bind, hcy, Res.ok_bind, H.az.eval]
    rfl
  · simp only [PS3.evaluateDerivativeZUnitR, upTo_len]
    rw [collect_ok (fun k => px (fun i => py (fun j => e i j k))) (fun k hk => by rw [r1 k hk, Res.ok_bind]; exact H.ax.eval _), Res.ok_bind, hcz, Res.ok_bind, H.bz.eval]
    rfl
  · simp only [PS3.evaluateFDfdxDfdyUnitR, upTo_len]
    rw [collect_ok (fun k => (px (fun i => py (fun j => e i j k)), dx (fun i => py (fun j => e i j k)), px (fun i => dy (fun j => e i j k)))) (fun k hk => ?_), Res.ok_bind]
    · simp only [List.map_map, Function.comp_def]
      rw [H.az.eval, Res.ok_bind, hcx, Res.ok_bind, H.az.eval, Res.ok_bind, hcy, Res.ok_bind, H.az.eval]
      rfl
    · rw [collect_ok (fun i => (py (fun j => e i j k), dy (fun j => e i j k))) (fun i hi => ?_), Res.ok_bind]
      · simp only [List.map_map, Function.comp_def]
        rw [H.ax.eval, Res.ok_bind, H.bx.eval, Res.ok_bind, H.ax.eval]
        rfl
      · obtain ⟨M, r, g1, g2, g3, g4⟩ := hb.rowR B H.ay hk hi
        have g5 := H.bY.eval (fun j => e i j k)
        rw [← g4] at g5
        rw [g1, Res.ok_bind, g2, Res.ok_bind, g3, Res.ok_bind, g5]
        rfl

/-- The errors of the values above. -/
theorem Sums3.errors (hr : ToNearest rnd) (H : Sums3 rnd n m l κx κy κz τ σ ω t u v px dx py dy pz dz) (e : Nat → Nat → Nat → ℝ) {cx cy cz qx qy qz : ℝ}
    (hcx : |cx - qx| ≤ gam 4 * |qx|) (hcy : |cy - qy| ≤ gam 4 * |qy|) (hcz : |cz - qz| ≤ gam 4 * |qz|) :
    |pz (fun k => px (fun i => py (fun j => e i j k))) - poly3 (n + 1) (m + 1) (l + 1) e t u v| ≤
      ((1 + powErr n κx) * (1 + powErr m κy) * (1 + powErr l κz) - 1) * ∑ i ∈ range (n + 1), ∑ j ∈ range (m + 1), ∑ k ∈ range (l + 1), |e i j k| ∧
    |rnd (cx * pz (fun k => dx (fun i => py (fun j => e i j k)))) - poly1 (l + 1) (fun k => dpoly1 (n + 1) (fun i => poly1 (m + 1) (fun j => e i j k) u) t) v * qx| ≤
      ((1 + 6 / 2 ^ 53) * ((1 + powErr n κx) * (1 + powErr m κy) * (1 + powErr l κz)) - 1) *
        (|qx| * ∑ i ∈ range (n + 1), ∑ j ∈ range (m + 1), ∑ k ∈ range (l + 1), i * |e i j k|) ∧
    |rnd (cy * pz (fun k => px (fun i => dy (fun j => e i j k)))) - poly1 (l + 1) (fun k => poly1 (n + 1) (fun i => dpoly1 (m + 1) (fun j => e i j k) u) t) v * qy| ≤
      ((1 + 6 / 2 ^ 53) * ((1 + powErr n κx) * (1 + powErr m κy) * (1 + powErr l κz)) - 1) *
        (|qy| * ∑ i ∈ range (n + 1), ∑ j ∈ range (m + 1), ∑ k ∈ range (l + 1), j * |e i j k|) ∧
    |rnd (cz * dz (fun k => px (fun i => py (fun j => e i j k)))) - dpoly1 (l + 1) (fun k => poly1 (n + 1) (fun i => poly1 (m + 1) (fun j => e i j k) u) t) v * qz| ≤
      ((1 + 6 / 2 ^ 53) * ((1 + powErr n κx) * (1 + powErr m κy) * (1 + powErr l κz)) - 1) *
        (|qz| * ∑ i ∈ range (n + 1), ∑ j ∈ range (m + 1), ∑ k ∈ range (l + 1), k * |e i j k|) := by
  have ee : (1 + powErr l κz) * ((1 + powErr n κx) * (1 + powErr m κy)) = (1 + powErr n κx) * (1 + powErr m κy) * (1 + powErr l κz) := by ring
  have e0 : 0 ≤ (1 + powErr n κx) * (1 + powErr m κy) * (1 + powErr l κz) - 1 := by
    have := prod_powErr_nonneg (prod_powErr_nonneg H.ax.pos H.ay.pos) H.az.pos
    rwa [add_sub_cancel] at this
  refine ⟨?_, ?_, ?_, ?_⟩
  · have := H.az.three H.ax H.ay (fun k i j => e i j k)
    rw [ee, wsum3, poly3_eq] at this
    simpa only [one_mul, mul_one] using this
  · have h1 := H.az.three H.bx H.ay (fun k i j => e i j k)
    have h2 := H.az.three_le H.bx H.ay (fun k i j => e i j k)
    rw [ee] at h1
    have := coef_mul_near hr hcx h1 h2 e0
    rw [add_sub_cancel, wsum3] at this
    simpa only [one_mul, mul_one] using this
  · have h1 := H.az.three H.ax H.bY (fun k i j => e i j k)
    have h2 := H.az.three_le H.ax H.bY (fun k i j => e i j k)
    rw [ee] at h1
    have := coef_mul_near hr hcy h1 h2 e0
    rw [add_sub_cancel, wsum3] at this
    simpa only [one_mul, mul_one] using this
  · have h1 := H.bz.three H.ax H.ay (fun k i j => e i j k)
    have h2 := H.bz.three_le H.ax H.ay (fun k i j => e i j k)
    rw [ee] at h1
    have := coef_mul_near hr hcz h1 h2 e0
    rw [add_sub_cancel, wsum3] at this
    simpa only [one_mul, mul_one] using this

end three

/-- The partial derivatives of a series composed with the maps to `[-1, 1]`. -/
theorem poly3_derivs {n m l : Nat} (e : Nat → Nat → Nat → ℝ) {sx sy sz : Seg ℝ} (hX : sx.dom.Usual) (hY : sy.dom.Usual) {x y : ℝ} (hx : sx.dom.Mem x)
    (hy : sy.dom.Mem y) (w : ℝ) :
    HasDerivAt (fun t => poly3 n m l e (sx.dom.unit t) (sy.dom.unit y) w)
      (poly1 l (fun k => dpoly1 n (fun i => poly1 m (fun j => e i j k) (sy.dom.unit y)) (sx.dom.unit x)) w * sx.coef x) x ∧
    HasDerivAt (fun t => poly3 n m l e (sx.dom.unit x) (sy.dom.unit t) w)
      (poly1 l (fun k => poly1 n (fun i => dpoly1 m (fun j => e i j k) (sy.dom.unit y)) (sx.dom.unit x)) w * sy.coef y) y ∧
    ∀ z, sz.dom.Usual → sz.dom.Mem z → HasDerivAt (fun t => poly3 n m l e (sx.dom.unit x) (sy.dom.unit y) (sz.dom.unit t))
      (dpoly1 l (fun k => poly1 n (fun i => poly1 m (fun j => e i j k) (sy.dom.unit y)) (sx.dom.unit x)) (sz.dom.unit z) * sz.coef z) z := by
  refine ⟨?_, ?_, fun z hZ hz => ?_⟩
  · have := (comp_unit hX hx (hasDerivAt_poly1_coef w (n := l)
      (fun k _ => hasDerivAt_poly1 n (fun i => poly1 m (fun j => e i j k) (sy.dom.unit y)) (sx.dom.unit x)))).1
    simpa only [poly3_eq] using this
  · have := (comp_unit hY hy (hasDerivAt_poly1_coef w (n := l) (fun k _ => hasDerivAt_poly1_coef (sx.dom.unit x) (n := n)
      (fun i _ => hasDerivAt_poly1 m (fun j => e i j k) (sy.dom.unit y))))).1
    simpa only [poly3_eq] using this
  · have := (comp_unit hZ hz (hasDerivAt_poly1 l (fun k => poly1 n (fun i => poly1 m (fun j => e i j k) (sy.dom.unit y)) (sx.dom.unit x)) (sz.dom.unit z))).1
    simpa only [poly3_eq] using this

/-- C192, three variables: the results of `Evaluate_derivative_x`, `Evaluate_derivative_y` and `Evaluate_derivative_z` in double arithmetic are near the derivatives of the series. -/
theorem C192_derivative_3d (hr : ToNearest rnd) (B : Build) {b : List (Mat ℝ)} {n m l : Nat} {e : Nat → Nat → Nat → ℝ} (hb : Cube b (n + 1) (m + 1) (l + 1) e)
    {s : PS3 ℝ} {X Y Z : Domain ℝ} (hs : Built3 b s X Y Z) (hX : X.Usual) (hY : Y.Usual) (hZ : Z.Usual) {x y z : ℝ} (hx : X.Mem x) (hy : Y.Mem y) (hz : Z.Mem z) :
    (∃ v d q, s.evaluateDerivativeXR rnd B x y z = .ok v ∧
      HasDerivAt (fun t => poly3 (n + 1) (m + 1) (l + 1) e (X.unit t) (Y.unit y) (Z.unit z)) d x ∧ HasDerivAt X.unit q x ∧
      |v - d| ≤ ((1 + 6 / 2 ^ 53) * ((1 + powErr n X.cond) * (1 + powErr m Y.cond) * (1 + powErr l Z.cond)) - 1) *
        (|q| * ∑ i ∈ range (n + 1), ∑ j ∈ range (m + 1), ∑ k ∈ range (l + 1), i * |e i j k|)) ∧
    (∃ v d q, s.evaluateDerivativeYR rnd B x y z = .ok v ∧
      HasDerivAt (fun t => poly3 (n + 1) (m + 1) (l + 1) e (X.unit x) (Y.unit t) (Z.unit z)) d y ∧ HasDerivAt Y.unit q y ∧
      |v - d| ≤ ((1 + 6 / 2 ^ 53) * ((1 + powErr n X.cond) * (1 + powErr m Y.cond) * (1 + powErr l Z.cond)) - 1) *
        (|q| * ∑ i ∈ range (n + 1), ∑ j ∈ range (m + 1), ∑ k ∈ range (l + 1), j * |e i j k|)) ∧
    (∃ v d q, s.evaluateDerivativeZR rnd B x y z = .ok v ∧
      HasDerivAt (fun t => poly3 (n + 1) (m + 1) (l + 1) e (X.unit x) (Y.unit y) (Z.unit t)) d z ∧ HasDerivAt Z.unit q z ∧
      |v - d| ≤ ((1 + 6 / 2 ^ 53) * ((1 + powErr n X.cond) * (1 + powErr m Y.cond) * (1 + powErr l Z.cond)) - 1) *
        (|q| * ∑ i ∈ range (n + 1), ∑ j ∈ range (m + 1), ∑ k ∈ range (l + 1), k * |e i j k|)) := by
  obtain ⟨sx, sy, sz, tn, rfl, rfl, rfl, h⟩ := Built3.seg hs
  obtain ⟨e1, e2, e3⟩ := PS3.fields hb h
  obtain ⟨τ, t1, t2⟩ := toUnitR_ok hr hX hx
  obtain ⟨σ, u1, u2⟩ := toUnitR_ok hr hY hy
  obtain ⟨ω, w1, w2⟩ := toUnitR_ok hr hZ hz
  obtain ⟨cx, cx1, cx2⟩ := coefficientDerivativeR_ok hr hX hx
  obtain ⟨cy, cy1, cy2⟩ := coefficientDerivativeR_ok hr hY hy
  obtain ⟨cz, cz1, cz2⟩ := coefficientDerivativeR_ok hr hZ hz
  obtain ⟨px, dx, py, dy, pz, dz, H⟩ := sums3 hr (n := n) (m := m) (l := l) (unit_le hX hx) (Domain.cond_ge hX) t2 (unit_le hY hy) (Domain.cond_ge hY) u2 (unit_le hZ hz)
    (Domain.cond_ge hZ) w2
  obtain ⟨-, v2, v3, v4, -⟩ := H.values B hb h (z := z) cx1 cy1
  obtain ⟨-, r2, r3, r4⟩ := H.errors hr e cx2 cy2 cz2
  obtain ⟨d1, d2, d3⟩ := poly3_derivs (n := n + 1) (m := m + 1) (l := l + 1) e (sz := sz) hX hY hx hy (sz.dom.unit z)
  refine ⟨⟨_, _, _, ?_, d1, (comp_unit hX hx (hasDerivAt_id _)).2, r2⟩, ⟨_, _, _, ?_, d2, (comp_unit hY hy (hasDerivAt_id _)).2, r3⟩,
    ⟨_, _, _, ?_, d3 z hZ hz, (comp_unit hZ hz (hasDerivAt_id _)).2, r4⟩⟩
  · unfold PS3.evaluateDerivativeXR
    rw [e1, e2, e3, t1, Res.ok_bind, u1, Res.ok_bind, w1, Res.ok_bind, v2]
  · unfold PS3.evaluateDerivativeYR
    rw [e1, e2, e3, t1, Res.ok_bind, u1, Res.ok_bind, w1, Res.ok_bind, v3]
  · unfold PS3.evaluateDerivativeZR
    rw [e1, e2, e3, t1, Res.ok_bind, u1, Res.ok_bind, w1, Res.ok_bind, v4 cz cz1]

/-- C192: `Evaluate_f_dfdx_dfdy` gives in double arithmetic the very numbers of `Evaluate`, `Evaluate_derivative_x` and `Evaluate_derivative_y`. -/
theorem C192_combined (hr : ToNearest rnd) (B : Build) {b : List (Mat ℝ)} {n m l : Nat} {e : Nat → Nat → Nat → ℝ} (hb : Cube b (n + 1) (m + 1) (l + 1) e)
    {s : PS3 ℝ} {X Y Z : Domain ℝ} (hs : Built3 b s X Y Z) (hX : X.Usual) (hY : Y.Usual) (hZ : Z.Usual) {x y z : ℝ} (hx : X.Mem x) (hy : Y.Mem y) (hz : Z.Mem z) :
    ∃ f fx fy, s.evaluateFDfdxDfdyR rnd B x y z = .ok (f, fx, fy) ∧ s.evaluateR rnd B x y z = .ok f ∧ s.evaluateDerivativeXR rnd B x y z = .ok fx ∧
      s.evaluateDerivativeYR rnd B x y z = .ok fy := by
  obtain ⟨sx, sy, sz, tn, rfl, rfl, rfl, h⟩ := Built3.seg hs
  obtain ⟨e1, e2, e3⟩ := PS3.fields hb h
  obtain ⟨τ, t1, t2⟩ := toUnitR_ok hr hX hx
  obtain ⟨σ, u1, u2⟩ := toUnitR_ok hr hY hy
  obtain ⟨ω, w1, w2⟩ := toUnitR_ok hr hZ hz
  obtain ⟨cx, cx1, cx2⟩ := coefficientDerivativeR_ok hr hX hx
  obtain ⟨cy, cy1, cy2⟩ := coefficientDerivativeR_ok hr hY hy
  obtain ⟨px, dx, py, dy, pz, dz, H⟩ := sums3 hr (n := n) (m := m) (l := l) (unit_le hX hx) (Domain.cond_ge hX) t2 (unit_le hY hy) (Domain.cond_ge hY) u2 (unit_le hZ hz)
    (Domain.cond_ge hZ) w2
  obtain ⟨v1, v2, v3, -, v5⟩ := H.values B hb h (z := z) cx1 cy1
  refine ⟨_, _, _, Eq.trans ?_ v5, Eq.trans ?_ v1, Eq.trans ?_ v2, Eq.trans ?_ v3⟩
  · unfold PS3.evaluateFDfdxDfdyR
    rw [e1, e2, e3, t1, Res.ok_bind, u1, Res.ok_bind, w1, Res.ok_bind]
  · unfold PS3.evaluateR
    rw [e1, e2, e3, t1, Res.ok_bind, u1, Res.ok_bind, w1, Res.ok_bind]
    rfl
  · unfold PS3.evaluateDerivativeXR
    rw [e1, e2, e3, t1, Res.ok_bind, u1, Res.ok_bind, w1, Res.ok_bind]
  · unfold PS3.evaluateDerivativeYR
    rw [e1, e2, e3, t1, Res.ok_bind, u1, Res.ok_bind, w1, Res.ok_bind]

/-! ## `z` tending to infinity -/

theorem poly3_tendsto (n m l : Nat) (e : Nat → Nat → Nat → ℝ) (u v zmin : ℝ) :
    Filter.Tendsto (fun z => poly3 n m l e u v ((Domain.halfLine zmin).unit z)) Filter.atTop (nhds (poly3 n m l e u v 1)) := by
  have hu : Filter.Tendsto (Domain.halfLine zmin).unit Filter.atTop (nhds 1) := by
    have := ((tendsto_inv_atTop_zero (𝕜 := ℝ)).const_mul (2 * zmin)).const_sub 1
    have e : (Domain.halfLine zmin).unit = fun z => 1 - 2 * zmin * z⁻¹ := by
      funext z; simp only [Domain.unit, div_eq_mul_inv]
    rw [e]
    simpa using this
  have hcont : Continuous (fun w => poly3 n m l e u v w) := by
    unfold poly3
    fun_prop
  exact (hcont.tendsto 1).comp hu

/-- C192: the results of `Evaluate_zinf`, `Evaluate_derivative_x_zinf` and `Evaluate_derivative_y_zinf` in double arithmetic are near the limit of the series when `z` tends to
infinity and near the derivatives of this limit. -/
theorem C192_zinf (hr : ToNearest rnd) (B : Build) {b : List (Mat ℝ)} {n m l : Nat} {e : Nat → Nat → Nat → ℝ} (hb : Cube b (n + 1) (m + 1) (l + 1) e)
    {s : PS3 ℝ} {X Y : Domain ℝ} {zmin : ℝ} (hs : Built3 b s X Y (.halfLine zmin)) (hX : X.Usual) (hY : Y.Usual) {x y : ℝ} (hx : X.Mem x) (hy : Y.Mem y) :
    ∃ (L : ℝ → ℝ → ℝ) (f fx fy dx dy qx qy : ℝ),
      (∀ p q, Filter.Tendsto (fun z => poly3 (n + 1) (m + 1) (l + 1) e (X.unit p) (Y.unit q) ((Domain.halfLine zmin).unit z)) Filter.atTop (nhds (L p q))) ∧
      s.evaluateZinfR rnd B x y = .ok f ∧ s.evaluateDerivativeXZinfR rnd B x y = .ok fx ∧ s.evaluateDerivativeYZinfR rnd B x y = .ok fy ∧
      HasDerivAt (fun p => L p y) dx x ∧ HasDerivAt (fun q => L x q) dy y ∧ HasDerivAt X.unit qx x ∧ HasDerivAt Y.unit qy y ∧
      |f - L x y| ≤ ((1 + powErr n X.cond) * (1 + powErr m Y.cond) * (1 + powErr l 2) - 1) *
        ∑ i ∈ range (n + 1), ∑ j ∈ range (m + 1), ∑ k ∈ range (l + 1), |e i j k| ∧
      |fx - dx| ≤ ((1 + 6 / 2 ^ 53) * ((1 + powErr n X.cond) * (1 + powErr m Y.cond) * (1 + powErr l 2)) - 1) *
        (|qx| * ∑ i ∈ range (n + 1), ∑ j ∈ range (m + 1), ∑ k ∈ range (l + 1), i * |e i j k|) ∧
      |fy - dy| ≤ ((1 + 6 / 2 ^ 53) * ((1 + powErr n X.cond) * (1 + powErr m Y.cond) * (1 + powErr l 2)) - 1) *
        (|qy| * ∑ i ∈ range (n + 1), ∑ j ∈ range (m + 1), ∑ k ∈ range (l + 1), j * |e i j k|) := by
  obtain ⟨sx, sy, sz, tn, rfl, rfl, -, h⟩ := Built3.seg hs
  obtain ⟨e1, e2, e3⟩ := PS3.fields hb h
  obtain ⟨τ, t1, t2⟩ := toUnitR_ok hr hX hx
  obtain ⟨σ, u1, u2⟩ := toUnitR_ok hr hY hy
  obtain ⟨cx, cx1, cx2⟩ := coefficientDerivativeR_ok hr hX hx
  obtain ⟨cy, cy1, cy2⟩ := coefficientDerivativeR_ok hr hY hy
  have h11 : |(1 : ℝ) - 1| ≤ gam 7 * 2 := by
    have := gam_nonneg 7
    rw [sub_self, abs_zero]
    linarith
  obtain ⟨px, dx, py, dy, pz, dz, H⟩ := sums3 hr (n := n) (m := m) (l := l) (unit_le hX hx) (Domain.cond_ge hX) t2 (unit_le hY hy) (Domain.cond_ge hY) u2
    (v := 1) (by simp) le_rfl h11
  obtain ⟨v1, v2, v3, -, -⟩ := H.values B hb h (z := 0) cx1 cy1
  obtain ⟨r1, r2, r3, -⟩ := H.errors hr e cx2 cy2 (show |(0 : ℝ) - 0| ≤ gam 4 * |0| by simp)
  obtain ⟨d1, d2, -⟩ := poly3_derivs (n := n + 1) (m := m + 1) (l := l + 1) e (sz := sz) hX hY hx hy 1
  refine ⟨fun p q => poly3 (n + 1) (m + 1) (l + 1) e (sx.dom.unit p) (sy.dom.unit q) 1, _, _, _, _, _, _, _, fun p q => poly3_tendsto _ _ _ _ _ _ _,
    Eq.trans ?_ v1, Eq.trans ?_ v2, Eq.trans ?_ v3, d1, d2, (comp_unit hX hx (hasDerivAt_id _)).2, (comp_unit hY hy (hasDerivAt_id _)).2, r1, r2, r3⟩
  · unfold PS3.evaluateZinfR
    rw [e1, e2, t1, Res.ok_bind, u1, Res.ok_bind]
  · unfold PS3.evaluateDerivativeXZinfR
    rw [e1, e2, t1, Res.ok_bind, u1, Res.ok_bind]
  · unfold PS3.evaluateDerivativeYZinfR
    rw [e1, e2, t1, Res.ok_bind, u1, Res.ok_bind]

/-! ## Fixed `z` -/

/-- The matrix of `Compute_cij`, entry by entry. -/
theorem PS3.cijR_ok {b : List (Mat ℝ)} {n m l : Nat} {e : Nat → Nat → Nat → ℝ} {s : PS3 ℝ} {sx sy sz : Seg ℝ} {t : String} (B : Build) (h : Cube b n m l e)
    (hs : PS3.base b sx sy sz t = .ok s) (w : ℝ) {g : (Nat → ℝ) → ℝ} (hg : ∀ a, hornerR rnd ((List.range l).map a) w = .ok (g a)) :
    ∃ c, PS3.computeCijUnitR rnd B s w = .ok c ∧ c.rows = n ∧ c.cols = m ∧ ∀ i j, i < n → j < m → c.entry i j = g (fun k => e i j k) := by
  rw [PS3.base_ok h] at hs
  cases hs
  simp only [computeCijUnitR, upTo_len]
  have hin : ∀ i, i < n → ∀ c : Mat ℝ, c.rows = n → c.cols = m →
      forRange 0 m (fun j cij => do
        let rk ← collect l (fun k => do
          let a ← vAt b k
          a.at' B i j)
        let r ← hornerR rnd rk w
        cij.set B i j r) c =
      .ok { c with entry := fun i' j' => if i' = i ∧ j' < m then g (fun k => e i j' k) else c.entry i' j' } := by
    intro i hi c hr hc
    have := forRange_ok (lo := 0) (hi := m) (Nat.zero_le _) (f := fun j cij => do
        let rk ← collect l (fun k => do
          let a ← vAt b k
          a.at' B i j)
        let r ← hornerR rnd rk w
        cij.set B i j r)
      (fun p => { c with entry := fun i' j' => if i' = i ∧ j' < p then g (fun k => e i j' k) else c.entry i' j' }) (by
        intro j _ hj
        rw [collect_ok (fun k => e i j k)]
        · simp only [Res.ok_bind, hg, Mat.set]
          rw [if_pos ⟨by simpa [hr] using hi, by simpa [hc] using hj⟩]
          congr 2
          funext i' j'
          by_cases h1 : i' = i ∧ j' = j
          · simp [h1]
          · by_cases h2 : i' = i ∧ j' < j
            · rw [if_neg h1, if_pos h2, if_pos ⟨h2.1, by omega⟩]
            · rw [if_neg h1, if_neg h2, if_neg]
              rintro ⟨e1, e2⟩
              rcases Nat.lt_succ_iff_lt_or_eq.mp e2 with e3 | e3
              · exact h2 ⟨e1, e3⟩
              · exact h1 ⟨e1, e3⟩
        · intro k hk
          obtain ⟨a, ha, h1, h2, h3⟩ := h.get hk
          rw [ha, Res.ok_bind, Mat.at_lt (by omega) (by omega), h3 i j hi hj])
    simp only [Nat.not_lt_zero, and_false, if_false] at this
    exact this
  have hout := forRange_ok (lo := 0) (hi := n) (Nat.zero_le _) (f := fun i cij =>
      forRange 0 m (fun j cij => do
        let rk ← collect l (fun k => do
          let a ← vAt b k
          a.at' B i j)
        let r ← hornerR rnd rk w
        cij.set B i j r) cij)
      (fun p => (⟨n, m, fun i' j' => if i' < p ∧ j' < m then g (fun k => e i' j' k) else 0⟩ : Mat ℝ)) (by
        intro i _ hi
        rw [hin i hi _ rfl rfl]
        congr 2
        funext i' j'
        show (if i' = i ∧ j' < m then _ else if i' < i ∧ j' < m then _ else _) = _
        by_cases h1 : i' = i ∧ j' < m
        · rw [if_pos h1, if_pos ⟨by omega, h1.2⟩, h1.1]
        · rw [if_neg h1]
          by_cases h2 : i' < i ∧ j' < m
          · rw [if_pos h2, if_pos ⟨by omega, h2.2⟩]
          · rw [if_neg h2, if_neg]
            rintro ⟨e1, e2⟩
            rcases Nat.lt_succ_iff_lt_or_eq.mp e1 with e3 | e3
            · exact h2 ⟨e3, e2⟩
            · exact h1 ⟨e3, e2⟩)
  simp only [Nat.not_lt_zero, false_and, if_false] at hout
  refine ⟨_, hout, rfl, rfl, fun i j hi hj => ?_⟩
  simp [hi, hj]

/-- C192: with the coefficients computed by `Compute_cij(z)`, the results of `Evaluate_z_predefined`, `Evaluate_derivative_x_z_predefined` and `Evaluate_f_dfdx_dfdy_z_predefined`
in double arithmetic are near the series and its derivatives, the third function gives the very numbers of the first two, and `Evaluate_derivative_y_z_predefined` gives its third
number when `y` ranges over a segment. -/
theorem C192_z_predefined (hr : ToNearest rnd) (B : Build) {b : List (Mat ℝ)} {n m l : Nat} {e : Nat → Nat → Nat → ℝ} (hb : Cube b (n + 1) (m + 1) (l + 1) e)
    {s : PS3 ℝ} {X Y Z : Domain ℝ} (hs : Built3 b s X Y Z) (hX : X.Usual) (hY : Y.Usual) (hZ : Z.Usual) {x y z : ℝ} (hx : X.Mem x) (hy : Y.Mem y) (hz : Z.Mem z) :
    ∃ (c : Mat ℝ) (f fx fy dx dy qx qy : ℝ), s.computeCijR rnd B z = .ok c ∧ s.evaluateZPredefinedR rnd B x y c = .ok f ∧
      s.evaluateDerivativeXZPredefinedR rnd B x y c = .ok fx ∧ s.evaluateFDfdxDfdyZPredefinedR rnd B x y c = .ok (f, fx, fy) ∧
      (∀ y0 y1, Y = .segment y0 y1 → s.evaluateDerivativeYZPredefinedR rnd B x y c = .ok fy) ∧
      HasDerivAt (fun t => poly3 (n + 1) (m + 1) (l + 1) e (X.unit t) (Y.unit y) (Z.unit z)) dx x ∧
      HasDerivAt (fun t => poly3 (n + 1) (m + 1) (l + 1) e (X.unit x) (Y.unit t) (Z.unit z)) dy y ∧ HasDerivAt X.unit qx x ∧ HasDerivAt Y.unit qy y ∧
      |f - poly3 (n + 1) (m + 1) (l + 1) e (X.unit x) (Y.unit y) (Z.unit z)| ≤ ((1 + powErr n X.cond) * (1 + powErr m Y.cond) * (1 + powErr l Z.cond) - 1) *
        ∑ i ∈ range (n + 1), ∑ j ∈ range (m + 1), ∑ k ∈ range (l + 1), |e i j k| ∧
      |fx - dx| ≤ ((1 + 6 / 2 ^ 53) * ((1 + powErr n X.cond) * (1 + powErr m Y.cond) * (1 + powErr l Z.cond)) - 1) *
        (|qx| * ∑ i ∈ range (n + 1), ∑ j ∈ range (m + 1), ∑ k ∈ range (l + 1), i * |e i j k|) ∧
      |fy - dy| ≤ ((1 + 6 / 2 ^ 53) * ((1 + powErr n X.cond) * (1 + powErr m Y.cond) * (1 + powErr l Z.cond)) - 1) *
        (|qy| * ∑ i ∈ range (n + 1), ∑ j ∈ range (m + 1), ∑ k ∈ range (l + 1), j * |e i j k|) := by
  obtain ⟨sx, sy, sz, tn, rfl, rfl, rfl, h⟩ := Built3.seg hs
  obtain ⟨e1, e2, e3⟩ := PS3.fields hb h
  obtain ⟨τ, t1, t2⟩ := toUnitR_ok hr hX hx
  obtain ⟨σ, u1, u2⟩ := toUnitR_ok hr hY hy
  obtain ⟨ω, w1, w2⟩ := toUnitR_ok hr hZ hz
  obtain ⟨cx, cx1, cx2⟩ := coefficientDerivativeR_ok hr hX hx
  obtain ⟨cy, cy1, cy2⟩ := coefficientDerivativeR_ok hr hY hy
  obtain ⟨px, dx, py, dy, pz, dz, H⟩ := sums3 hr (n := n) (m := m) (l := l) (unit_le hX hx) (Domain.cond_ge hX) t2 (unit_le hY hy) (Domain.cond_ge hY) u2 (unit_le hZ hz)
    (Domain.cond_ge hZ) w2
  obtain ⟨d1, d2, -⟩ := poly3_derivs (n := n + 1) (m := m + 1) (l := l + 1) e (sz := sz) hX hY hx hy (sz.dom.unit z)
  obtain ⟨c, c1, c2, c3, c4⟩ := PS3.cijR_ok (rnd := rnd) B hb h ω H.az.eval
  have e0 : 0 ≤ (1 + powErr n sx.dom.cond) * (1 + powErr m sy.dom.cond) * (1 + powErr l sz.dom.cond) - 1 := by
    have := prod_powErr_nonneg (prod_powErr_nonneg H.ax.pos H.ay.pos) H.az.pos
    rwa [add_sub_cancel] at this
  have ee : (1 + powErr n sx.dom.cond) * ((1 + powErr m sy.dom.cond) * (1 + powErr l sz.dom.cond)) =
      (1 + powErr n sx.dom.cond) * (1 + powErr m sy.dom.cond) * (1 + powErr l sz.dom.cond) := by ring
  have hm : upTo s.m_order_x = n + 1 := by
    rw [PS3.base_ok hb] at h
    injection h with h
    subst h
    simp only [upTo_len]
  have hrow : ∀ i, i < n + 1 → c.row B i = .ok ((List.range (m + 1)).map (fun j => pz (fun k => e i j k))) := by
    intro i hi
    rw [Mat.row, if_pos (by omega), c3]
    exact congrArg _ (List.map_congr_left (fun j hj => c4 i j hi (by simpa using hj)))
  have q1 : collect (n + 1) (fun i => do
      let pj ← c.row B i
      hornerR rnd pj σ) = .ok ((List.range (n + 1)).map (fun i => py (fun j => pz (fun k => e i j k)))) := by
    refine collect_ok _ (fun i hi => ?_)
    rw [hrow i hi, Res.ok_bind]
    exact H.ay.eval _
  have q2 : collect (n + 1) (fun i => do
      let pj ← c.row B i
      hornerDerivativeR rnd pj σ) = .ok ((List.range (n + 1)).map (fun i => dy (fun j => pz (fun k => e i j k)))) := by
    refine collect_ok _ (fun i hi => ?_)
    rw [hrow i hi, Res.ok_bind]
    exact H.bY.eval _
  have q3 : collect (n + 1) (fun i => do
      let pj ← c.row B i
      let q ← hornerR rnd pj σ
      let qd ← hornerDerivativeR rnd pj σ
      return (q, qd)) = .ok ((List.range (n + 1)).map (fun i => (py (fun j => pz (fun k => e i j k)), dy (fun j => pz (fun k => e i j k))))) := by
    refine collect_ok _ (fun i hi => ?_)
    rw [hrow i hi, Res.ok_bind, H.ay.eval, Res.ok_bind, H.bY.eval]
    rfl
  have r1 := H.ax.three H.ay H.az e
  rw [ee, wsum3', sum_poly] at r1
  have a2 := H.bx.three H.ay H.az e
  have b2 := H.bx.three_le H.ay H.az e
  rw [sum_dpoly_x] at a2 b2
  rw [ee] at a2
  have r2 := coef_mul_near hr cx2 a2 b2 e0
  rw [add_sub_cancel, wsum3'] at r2
  have a3 := H.ax.three H.bY H.az e
  have b3 := H.ax.three_le H.bY H.az e
  rw [sum_dpoly_y] at a3 b3
  rw [ee] at a3
  have r3 := coef_mul_near hr cy2 a3 b3 e0
  rw [add_sub_cancel, wsum3'] at r3
  simp only [one_mul, mul_one] at r1 r2 r3
  refine ⟨c, _, _, _, _, _, _, _, ?_, ?_, ?_, ?_, ?_, d1, d2, (comp_unit hX hx (hasDerivAt_id _)).2, (comp_unit hY hy (hasDerivAt_id _)).2, r1, r2, r3⟩
  · unfold PS3.computeCijR
    rw [e3, w1, Res.ok_bind, c1]
  · unfold PS3.evaluateZPredefinedR
    rw [e1, e2, t1, Res.ok_bind, u1, Res.ok_bind, hm, q1, Res.ok_bind, H.ax.eval]
  · unfold PS3.evaluateDerivativeXZPredefinedR
    rw [e1, e2, t1, Res.ok_bind, u1, Res.ok_bind, hm, q1, Res.ok_bind, cx1, Res.ok_bind, H.bx.eval]
    rfl
  · unfold PS3.evaluateFDfdxDfdyZPredefinedR
    rw [e1, e2, t1, Res.ok_bind, u1, Res.ok_bind, hm, q3, Res.ok_bind]
    simp only [List.map_map, Function.comp_def]
    rw [H.ax.eval, Res.ok_bind, cx1, Res.ok_bind, H.bx.eval, Res.ok_bind, cy1, Res.ok_bind, H.ax.eval]
    rfl
  · intro y0 y1 hseg
    have cy1' : sy.coefficientDerivativeR rnd x = .ok cy := by
      cases sy with
      | closed a b => exact cy1
      | opened a => simp [Seg.dom] at hseg
    unfold PS3.evaluateDerivativeYZPredefinedR
    rw [e1, e2, t1, Res.ok_bind, u1, Res.ok_bind, hm, q2, Res.ok_bind, cy1', Res.ok_bind, H.ax.eval]
    rfl

/-- C192: a series and a point that meet the hypotheses. -/
example : ∃ s, Built3 seriesB s (.segment 0 1) (.halfLine 1) (.halfLine 2) ∧ (Domain.segment (0 : ℝ) 1).Usual ∧ (Domain.halfLine (1 : ℝ)).Usual ∧
    (Domain.halfLine (2 : ℝ)).Usual ∧ (Domain.segment (0 : ℝ) 1).Mem (1 / 3) ∧ (Domain.halfLine (1 : ℝ)).Mem 3 ∧ (Domain.halfLine (2 : ℝ)).Mem 7 := by
  obtain ⟨s, hs⟩ := (C29_constructors_3d seriesCube 0 1 1 0 2 0).2.1
  exact ⟨s, hs, by norm_num [Domain.Usual], by norm_num [Domain.Usual], by norm_num [Domain.Usual], by norm_num [Domain.Mem], by norm_num [Domain.Mem],
    by norm_num [Domain.Mem]⟩

/-- C192: the bound of the derivatives of a series of degree 10 in each variable is small. -/
example : (1 + 6 / 2 ^ 53) * ((1 + powErr 10 4) * (1 + powErr 10 3) * (1 + powErr 10 3)) - 1 < 1 / 10 ^ 12 := by norm_num [powErr]

end MU
