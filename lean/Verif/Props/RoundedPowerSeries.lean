import Verif.Model.RoundedPowerSeries
import Verif.Props.PowerSeries
import Verif.Props.Rounded
import Verif.Props.RoundedChebyshev

set_option linter.unusedSectionVars false

/-!
# Power series in double arithmetic

C133.
-/

namespace MU.Spec

/-- The relative error of a power series of degree `n` in one variable in double, for a domain of condition `κ`: about `10 n κ / 2^53`. -/
noncomputable def powErr (n : Nat) (κ : ℝ) : ℝ := (1 + 10 * κ / 2 ^ 53) ^ n - 1

end MU.Spec

namespace MU
open Spec Finset

variable {rnd : ℝ → ℝ}

theorem pow_sub_le {t τ η : ℝ} (ht : |t| ≤ 1) (hτ : |τ - t| ≤ η) (i : Nat) : |τ ^ i - t ^ i| ≤ (1 + η) ^ i - 1 := by
  have hη : 0 ≤ η := (abs_nonneg _).trans hτ
  have hτ1 : |τ| ≤ 1 + η := by
    have := abs_add_le (τ - t) t
    rw [sub_add_cancel] at this
    linarith
  induction i with
  | zero => simp
  | succ i ih =>
    rw [show τ ^ (i + 1) - t ^ (i + 1) = (τ ^ i - t ^ i) * τ + t ^ i * (τ - t) by ring]
    refine (abs_add_le _ _).trans ?_
    rw [abs_mul, abs_mul, abs_pow]
    have h1 : |τ ^ i - t ^ i| * |τ| ≤ ((1 + η) ^ i - 1) * (1 + η) :=
      mul_le_mul ih hτ1 (abs_nonneg _) ((abs_nonneg _).trans ih)
    have h2 : |t| ^ i * |τ - t| ≤ 1 * η := mul_le_mul (pow_le_one₀ (abs_nonneg _) ht) hτ (abs_nonneg _) zero_le_one
    rw [pow_succ]
    linarith

/-- A sum computed at a point near `t` with a relative error `g`. -/
theorem sum_near {t τ η g v : ℝ} (ht : |t| ≤ 1) (hτ : |τ - t| ≤ η) (hg : 0 ≤ g) {n : Nat} {c : Nat → ℝ}
    (h : |v - ∑ i ∈ range (n + 1), c i * τ ^ i| ≤ g * ∑ i ∈ range (n + 1), |c i| * |τ| ^ i) :
    |v - ∑ i ∈ range (n + 1), c i * t ^ i| ≤ ((1 + g) * (1 + η) ^ n - 1) * ∑ i ∈ range (n + 1), |c i| := by
  have hη : 0 ≤ η := (abs_nonneg _).trans hτ
  have hτ1 : |τ| ≤ 1 + η := by
    have := abs_add_le (τ - t) t
    rw [sub_add_cancel] at this
    linarith
  have hpow : ∀ i ∈ range (n + 1), (1 + η) ^ i ≤ (1 + η) ^ n := fun i hi =>
    pow_le_pow_right₀ (by linarith) (by have := mem_range.1 hi; omega)
  have h1 : ∑ i ∈ range (n + 1), |c i| * |τ| ^ i ≤ (1 + η) ^ n * ∑ i ∈ range (n + 1), |c i| := by
    rw [mul_sum]
    refine sum_le_sum fun i hi => ?_
    rw [mul_comm]
    exact mul_le_mul_of_nonneg_right ((pow_le_pow_left₀ (abs_nonneg _) hτ1 i).trans (hpow i hi)) (abs_nonneg _)
  have h2 : |∑ i ∈ range (n + 1), c i * τ ^ i - ∑ i ∈ range (n + 1), c i * t ^ i| ≤ ((1 + η) ^ n - 1) * ∑ i ∈ range (n + 1), |c i| := by
    rw [← sum_sub_distrib, mul_sum]
    refine (abs_sum_le_sum_abs _ _).trans (sum_le_sum fun i hi => ?_)
    rw [← mul_sub, abs_mul, mul_comm]
    refine mul_le_mul_of_nonneg_right ((pow_sub_le ht hτ i).trans ?_) (abs_nonneg _)
    linarith [hpow i hi]
  have h3 := abs_sub_le v (∑ i ∈ range (n + 1), c i * τ ^ i) (∑ i ∈ range (n + 1), c i * t ^ i)
  have h4 := mul_le_mul_of_nonneg_left h1 hg
  linarith

theorem pow_bound (n k : Nat) (hk : k ≤ 2 * n) {κ : ℝ} (hκ : 2 ≤ κ) : (1 + gam k) * (1 + gam 7 * κ) ^ n - 1 ≤ powErr n κ := by
  have h7 : gam 7 ≤ 8 * uround := (gam_le (by norm_num)).trans (by norm_num)
  have h70 := gam_nonneg 7
  have hu : uround = 1 / 2 ^ 53 := by unfold uround; norm_num
  have hu0 := uround_nonneg
  have hη : gam 7 * κ ≤ 8 * uround * κ := mul_le_mul_of_nonneg_right h7 (by linarith)
  have hη0 : 0 ≤ gam 7 * κ := by positivity
  have h1 : 1 + gam k ≤ ((1 + uround) ^ 2) ^ n := by
    rw [← pow_mul]
    have : 1 + gam k = (1 + uround) ^ k := by unfold gam; ring
    rw [this]
    exact pow_le_pow_right₀ (by linarith) hk
  have h2 : (1 + uround) ^ 2 * (1 + gam 7 * κ) ≤ 1 + 10 * κ / 2 ^ 53 := by
    have : (1 + uround) ^ 2 * (1 + gam 7 * κ) ≤ (1 + uround) ^ 2 * (1 + 8 * uround * κ) := by gcongr
    refine this.trans ?_
    rw [hu]
    norm_num
    linarith
  unfold powErr
  have h3 : (1 + gam k) * (1 + gam 7 * κ) ^ n ≤ (1 + 10 * κ / 2 ^ 53) ^ n := by
    calc _ ≤ ((1 + uround) ^ 2) ^ n * (1 + gam 7 * κ) ^ n := by gcongr
      _ = ((1 + uround) ^ 2 * (1 + gam 7 * κ)) ^ n := by rw [mul_pow]
      _ ≤ _ := pow_le_pow_left₀ (by positivity) h2 n
  linarith

theorem powErr_nonneg (n : Nat) {κ : ℝ} (hκ : 2 ≤ κ) : 0 ≤ powErr n κ := by
  have h0 : 0 ≤ 10 * κ / 2 ^ 53 := by positivity
  have : 1 ≤ (1 + 10 * κ / 2 ^ 53) ^ n := one_le_pow₀ (by linarith)
  unfold powErr
  linarith

theorem getD_map_range (n : Nat) (c : Nat → ℝ) {i : Nat} (hi : i < n) : ((List.range n).map c).getD i 0 = c i := by
  simp [List.getD, hi]

theorem horner_map_near (hr : ToNearest rnd) {t τ κ : ℝ} (ht : |t| ≤ 1) (hκ : 2 ≤ κ) (hτ : |τ - t| ≤ gam 7 * κ) (n : Nat) (c : Nat → ℝ) :
    ∃ v, hornerR rnd ((List.range (n + 1)).map c) τ = .ok v ∧ |v - poly1 (n + 1) c t| ≤ powErr n κ * ∑ i ∈ range (n + 1), |c i| := by
  obtain ⟨v, h1, h2⟩ := C104_horner hr (cs := (List.range (n + 1)).map c) (by simp) τ
  refine ⟨v, h1, ?_⟩
  simp only [List.length_map, List.length_range, Nat.add_sub_cancel] at h2
  have e1 : ∑ i ∈ range (n + 1), ((List.range (n + 1)).map c).getD i 0 * τ ^ i = ∑ i ∈ range (n + 1), c i * τ ^ i :=
    sum_congr rfl (fun i hi => by rw [getD_map_range _ _ (mem_range.1 hi)])
  have e2 : ∑ i ∈ range (n + 1), |((List.range (n + 1)).map c).getD i 0| * |τ| ^ i = ∑ i ∈ range (n + 1), |c i| * |τ| ^ i :=
    sum_congr rfl (fun i hi => by rw [getD_map_range _ _ (mem_range.1 hi)])
  rw [e1, e2] at h2
  exact (sum_near ht hτ (gam_nonneg (2 * n)) h2).trans
    (mul_le_mul_of_nonneg_right (pow_bound n (2 * n) le_rfl hκ) (sum_nonneg fun i _ => abs_nonneg _))

theorem poly1_sub_le {t : ℝ} (ht : |t| ≤ 1) (n : Nat) (a a' : Nat → ℝ) : |poly1 n a' t - poly1 n a t| ≤ ∑ i ∈ range n, |a' i - a i| := by
  rw [poly1, poly1, ← sum_sub_distrib]
  refine (abs_sum_le_sum_abs _ _).trans (sum_le_sum fun i _ => ?_)
  rw [← sub_mul, abs_mul, abs_pow]
  exact mul_le_of_le_one_right (abs_nonneg _) (pow_le_one₀ (abs_nonneg _) ht)

theorem poly1_le {t : ℝ} (ht : |t| ≤ 1) (n : Nat) (a : Nat → ℝ) : |poly1 n a t| ≤ ∑ i ∈ range n, |a i| := by
  have := poly1_sub_le ht n (fun _ => 0) a
  simpa [poly1] using this

theorem horner_nested (hr : ToNearest rnd) {t τ κ : ℝ} (ht : |t| ≤ 1) (hκ : 2 ≤ κ) (hτ : |τ - t| ≤ gam 7 * κ) {n : Nat} {r A S : Nat → ℝ} {e : ℝ}
    (h1 : ∀ i, i < n + 1 → |r i - A i| ≤ e * S i) (h2 : ∀ i, i < n + 1 → |A i| ≤ S i) :
    ∃ v : ℝ, hornerR rnd ((List.range (n + 1)).map r) τ = .ok v ∧
      |v - poly1 (n + 1) A t| ≤ ((1 + powErr n κ) * (1 + e) - 1) * ∑ i ∈ range (n + 1), S i := by
  obtain ⟨v, h3, h4⟩ := horner_map_near hr ht hκ hτ n r
  refine ⟨v, h3, ?_⟩
  have hE0 := powErr_nonneg n hκ
  have h5 : ∑ i ∈ range (n + 1), |r i| ≤ (1 + e) * ∑ i ∈ range (n + 1), S i := by
    rw [mul_sum]
    refine sum_le_sum fun i hi => ?_
    have hi := mem_range.1 hi
    have := abs_add_le (r i - A i) (A i)
    rw [sub_add_cancel] at this
    linarith [h1 i hi, h2 i hi]
  have h6 : |poly1 (n + 1) r t - poly1 (n + 1) A t| ≤ e * ∑ i ∈ range (n + 1), S i := by
    refine (poly1_sub_le ht (n + 1) A r).trans ?_
    rw [mul_sum]
    exact sum_le_sum fun i hi => h1 i (mem_range.1 hi)
  have h7 := abs_sub_le v (poly1 (n + 1) r t) (poly1 (n + 1) A t)
  have h8 := mul_le_mul_of_nonneg_left h5 hE0
  linarith

/-- C133, one variable: `Evaluate` in double arithmetic. The error is at most `powErr n κ` times the sum of the magnitudes of the coefficients. -/
theorem C133_error_1d (hr : ToNearest rnd) (B : Build) {b : List ℝ} {n : Nat} (hb : b.length = n + 1) {s : PS1 ℝ} {X : Domain ℝ} (hs : Built1 b s X)
    (hX : X.Usual) {x : ℝ} (hx : X.Mem x) :
    ∃ v, s.evaluateR rnd B x = .ok v ∧
      |v - poly1 (n + 1) (fun i => b.getD i 0) (X.unit x)| ≤ powErr n X.cond * ∑ i ∈ range (n + 1), |b.getD i 0| := by
  obtain ⟨sx, rfl, rfl⟩ := Built1.seg hs
  obtain ⟨τ, t1, t2⟩ := toUnitR_ok hr hX hx
  obtain ⟨v, h1, h2⟩ := horner_map_near hr (unit_le hX hx) (Domain.cond_ge hX) t2 n (fun i => b.getD i 0)
  refine ⟨v, ?_, h2⟩
  unfold PS1.evaluateR
  rw [show (PS1.base b sx).m_x = sx from rfl, t1, Res.ok_bind]
  have hq := PS1.qi B b
  rw [hb] at hq
  simp only [PS1.base, upTo_len, hb, hq, Res.ok_bind]
  exact h1

/-- C133, two variables. -/
theorem C133_error_2d (hr : ToNearest rnd) (B : Build) {b : Mat ℝ} {n m : Nat} (hn : b.rows = n + 1) (hm : b.cols = m + 1) {s : PS2 ℝ} {X Y : Domain ℝ}
    (hs : Built2 b s X Y) (hX : X.Usual) (hY : Y.Usual) {x y : ℝ} (hx : X.Mem x) (hy : Y.Mem y) :
    ∃ v, s.evaluateR rnd B x y = .ok v ∧
      |v - poly2 (n + 1) (m + 1) b.entry (X.unit x) (Y.unit y)| ≤
        ((1 + powErr n X.cond) * (1 + powErr m Y.cond) - 1) * ∑ i ∈ range (n + 1), ∑ j ∈ range (m + 1), |b.entry i j| := by
  obtain ⟨sx, sy, rfl, rfl, rfl⟩ := Built2.seg hs
  obtain ⟨τ, t1, t2⟩ := toUnitR_ok hr hX hx
  obtain ⟨σ, u1, u2⟩ := toUnitR_ok hr hY hy
  have hu := unit_le hX hx
  have hv := unit_le hY hy
  choose r hr1 hr2 using fun i => horner_map_near hr hv (Domain.cond_ge hY) u2 m (b.entry i)
  obtain ⟨v, h1, h2⟩ := horner_nested hr hu (Domain.cond_ge hX) t2 (fun i _ => hr2 i)
    (fun i (_ : i < n + 1) => poly1_le hv (m + 1) (b.entry i))
  refine ⟨v, ?_, by rw [← poly2_eq]; exact h2⟩
  unfold PS2.evaluateR
  rw [show (PS2.base b sx sy).m_x = sx from rfl, show (PS2.base b sx sy).m_y = sy from rfl, t1, Res.ok_bind, u1, Res.ok_bind]
  simp only [PS2.base, upTo_len, hn]
  rw [collect_ok r (fun i hi => ?_), Res.ok_bind]
  · exact h1
  · rw [Mat.row, if_pos (by omega), Res.ok_bind, hm]
    exact hr1 i

/-- C133, three variables. -/
theorem C133_error_3d (hr : ToNearest rnd) (B : Build) {b : List (Mat ℝ)} {n m l : Nat} {e : Nat → Nat → Nat → ℝ} (hb : Cube b (n + 1) (m + 1) (l + 1) e)
    {s : PS3 ℝ} {X Y Z : Domain ℝ} (hs : Built3 b s X Y Z) (hX : X.Usual) (hY : Y.Usual) (hZ : Z.Usual) {x y z : ℝ} (hx : X.Mem x) (hy : Y.Mem y)
    (hz : Z.Mem z) :
    ∃ v, s.evaluateR rnd B x y z = .ok v ∧
      |v - poly3 (n + 1) (m + 1) (l + 1) e (X.unit x) (Y.unit y) (Z.unit z)| ≤
        ((1 + powErr n X.cond) * (1 + powErr m Y.cond) * (1 + powErr l Z.cond) - 1) *
          ∑ i ∈ range (n + 1), ∑ j ∈ range (m + 1), ∑ k ∈ range (l + 1), |e i j k| := by
  obtain ⟨sx, sy, sz, t, rfl, rfl, rfl, h⟩ := Built3.seg hs
  obtain ⟨τ, t1, t2⟩ := toUnitR_ok hr hX hx
  obtain ⟨σ, u1, u2⟩ := toUnitR_ok hr hY hy
  obtain ⟨ω, w1, w2⟩ := toUnitR_ok hr hZ hz
  have hu := unit_le hX hx
  have hv := unit_le hY hy
  have hw := unit_le hZ hz
  choose p hp1 hp2 using fun k i => horner_map_near hr hv (Domain.cond_ge hY) u2 m (fun j => e i j k)
  choose r hr1 hr2 using fun k => horner_nested hr hu (Domain.cond_ge hX) t2 (fun i _ => hp2 k i)
    (fun i (_ : i < n + 1) => poly1_le hv (m + 1) (fun j => e i j k))
  obtain ⟨v, h1, h2⟩ := horner_nested hr hw (Domain.cond_ge hZ) w2 (e := (1 + powErr n sx.dom.cond) * (1 + powErr m sy.dom.cond) - 1)
    (fun k _ => hr2 k) (fun k (_ : k < l + 1) => (poly1_le hu _ _).trans (sum_le_sum fun i _ => poly1_le hv (m + 1) (fun j => e i j k)))
  refine ⟨v, ?_, ?_⟩
  · rw [PS3.base_ok hb] at h
    injection h with h
    subst h
    unfold PS3.evaluateR
    simp only [t1, u1, w1, Res.ok_bind]
    simp only [upTo_len]
    rw [collect_ok r (fun k hk => ?_), Res.ok_bind]
    · exact h1
    · obtain ⟨M, g1, g2, g3, g4⟩ := hb.get hk
      rw [collect_ok (p k) (fun i hi => ?_), Res.ok_bind]
      · exact hr1 k
      · rw [g1, Res.ok_bind, Mat.row, if_pos (by omega), Res.ok_bind, g3]
        rw [← hp1 k i]
        congr 1
        refine List.map_congr_left (fun j hj => ?_)
        exact g4 i j hi (by simpa using hj)
  · rw [← poly3_eq]
    refine h2.trans (le_of_eq ?_)
    have : ∑ k ∈ range (l + 1), ∑ i ∈ range (n + 1), ∑ j ∈ range (m + 1), |e i j k| =
        ∑ i ∈ range (n + 1), ∑ j ∈ range (m + 1), ∑ k ∈ range (l + 1), |e i j k| := by
      rw [sum_comm]
      exact sum_congr rfl fun i _ => sum_comm
    rw [this]
    ring

/-! ## Derivative -/

theorem coefficientDerivativeR_ok (hr : ToNearest rnd) {s : Seg ℝ} (hX : s.dom.Usual) {x : ℝ} (hx : s.dom.Mem x) :
    ∃ c, s.coefficientDerivativeR rnd x = .ok c ∧ |c - s.coef x| ≤ gam 4 * |s.coef x| := by
  cases s with
  | closed a b =>
    have hab : a < b := hX
    have hne : rnd (b - a) ≠ 0 := toNearest_ne_zero hr (by linarith : 0 < b - a).ne'
    refine ⟨_, by rw [Seg.coefficientDerivativeR, fdiv_ok hne, Res.ok_bind, Res.pure_eq], ?_⟩
    have hn := ((Near.exact 2).mul (Near.inv_round hr (d := b - a))).round hr |>.upto (show _ ≤ 4 by norm_num)
    have he := hn.err
    rw [← div_eq_mul_inv, ← div_eq_mul_inv, ← abs_mul, ← div_eq_mul_inv] at he
    exact he
  | opened a =>
    have ha : 0 < a := hX
    have hx : a ≤ x := hx
    have hx0 : 0 < x := by linarith
    have hne : rnd (x * x) ≠ 0 := toNearest_ne_zero hr (by positivity)
    refine ⟨_, by rw [Seg.coefficientDerivativeR, fdiv_ok hne, Res.ok_bind, Res.pure_eq], ?_⟩
    have hn := ((((Near.exact 2).mul (Near.exact a)).round hr).mul (Near.inv_round hr (d := x * x))).round hr |>.upto (show _ ≤ 4 by norm_num)
    have he := hn.err
    rw [← div_eq_mul_inv, ← div_eq_mul_inv, ← abs_mul, ← abs_mul, ← div_eq_mul_inv] at he
    exact he

theorem hornerDerivative_map_near (hr : ToNearest rnd) {t τ κ : ℝ} (ht : |t| ≤ 1) (hκ : 2 ≤ κ) (hτ : |τ - t| ≤ gam 7 * κ) (n : Nat) (c : Nat → ℝ) :
    ∃ v, hornerDerivativeR rnd ((List.range (n + 1)).map c) τ = .ok v ∧
      |v - ∑ i ∈ range n, (i + 1) * c (i + 1) * t ^ i| ≤ powErr n κ * ∑ i ∈ range n, (i + 1) * |c (i + 1)| := by
  cases n with
  | zero =>
    refine ⟨0, ?_, by simp⟩
    have h0 : rnd 0 = 0 := toNearest_double hr double_zero
    simp [hornerDerivativeR, vAtInt, vAt, hornerDerivativeLoopR, Res.ok_bind, h0]
  | succ n =>
    obtain ⟨v, h1, h2⟩ := C104_horner_derivative hr (cs := (List.range (n + 1 + 1)).map c) (by simp) τ
    refine ⟨v, h1, ?_⟩
    simp only [List.length_map, List.length_range, Nat.add_sub_cancel, show n + 1 + 1 - 2 = n by omega] at h2
    have e1 : ∑ i ∈ range (n + 1), ((i : ℝ) + 1) * ((List.range (n + 1 + 1)).map c).getD (i + 1) 0 * τ ^ i =
        ∑ i ∈ range (n + 1), (((i : ℝ) + 1) * c (i + 1)) * τ ^ i :=
      sum_congr rfl (fun i hi => by rw [getD_map_range _ _ (by have := mem_range.1 hi; omega)])
    have e2 : ∑ i ∈ range (n + 1), ((i : ℝ) + 1) * |((List.range (n + 1 + 1)).map c).getD (i + 1) 0| * |τ| ^ i =
        ∑ i ∈ range (n + 1), |((i : ℝ) + 1) * c (i + 1)| * |τ| ^ i :=
      sum_congr rfl (fun i hi => by
        rw [getD_map_range _ _ (by have := mem_range.1 hi; omega), abs_mul, abs_of_nonneg (show (0 : ℝ) ≤ i + 1 by positivity)])
    have e3 : ∑ i ∈ range (n + 1), |((i : ℝ) + 1) * c (i + 1)| = ∑ i ∈ range (n + 1), ((i : ℝ) + 1) * |c (i + 1)| :=
      sum_congr rfl (fun i _ => by rw [abs_mul, abs_of_nonneg (show (0 : ℝ) ≤ i + 1 by positivity)])
    rw [e1, e2] at h2
    have h3 := sum_near (c := fun i => ((i : ℝ) + 1) * c (i + 1)) ht hτ (gam_nonneg (2 * n + 1)) h2
    rw [e3] at h3
    refine h3.trans (mul_le_mul_of_nonneg_right ?_ (sum_nonneg fun i _ => by positivity))
    refine le_trans ?_ (pow_bound (n + 1) (2 * n + 1) (by omega) hκ)
    have hη : 0 ≤ gam 7 * κ := (abs_nonneg _).trans hτ
    have : (1 + gam 7 * κ) ^ n ≤ (1 + gam 7 * κ) ^ (n + 1) := pow_le_pow_right₀ (by linarith) (Nat.le_succ n)
    have := mul_le_mul_of_nonneg_left this (by have := gam_nonneg (2 * n + 1); linarith : 0 ≤ 1 + gam (2 * n + 1))
    linarith

/-- C133, derivative in one variable: in double arithmetic the result of `Evaluate_derivative_x` differs from the derivative of the series at the point
by at most `(1 + 6u) (1 + powErr n κ) - 1` times the slope of the map to `[-1, 1]` times the sum of the `i |b_i|`. -/
theorem C133_derivative_1d (hr : ToNearest rnd) (B : Build) {b : List ℝ} {n : Nat} (hb : b.length = n + 1) {s : PS1 ℝ} {X : Domain ℝ} (hs : Built1 b s X)
    (hX : X.Usual) {x : ℝ} (hx : X.Mem x) :
    ∃ v d m, s.evaluateDerivativeXR rnd B x = .ok v ∧ HasDerivAt (fun t => poly1 (n + 1) (fun i => b.getD i 0) (X.unit t)) d x ∧
      HasDerivAt X.unit m x ∧
      |v - d| ≤ ((1 + 6 / 2 ^ 53) * (1 + powErr n X.cond) - 1) * (|m| * ∑ i ∈ range n, (i + 1) * |b.getD (i + 1) 0|) := by
  obtain ⟨sx, rfl, rfl⟩ := Built1.seg hs
  obtain ⟨τ, t1, t2⟩ := toUnitR_ok hr hX hx
  obtain ⟨c, c1, c2⟩ := coefficientDerivativeR_ok hr hX hx
  have ht := unit_le hX hx
  obtain ⟨h, h1, h2⟩ := hornerDerivative_map_near hr ht (Domain.cond_ge hX) t2 n (fun i => b.getD i 0)
  set D := ∑ i ∈ range n, ((i : ℝ) + 1) * b.getD (i + 1) 0 * (sx.dom.unit x) ^ i with hD
  set S := ∑ i ∈ range n, ((i : ℝ) + 1) * |b.getD (i + 1) 0| with hS
  set E := powErr n sx.dom.cond with hE
  have hE0 : 0 ≤ E := powErr_nonneg n (Domain.cond_ge hX)
  have hS0 : 0 ≤ S := sum_nonneg fun i _ => by positivity
  have hm : HasDerivAt sx.dom.unit (sx.coef x) x := Seg.hasDerivAt (Domain.mem_unit hX hx).1
  have hdd : HasDerivAt (fun t => poly1 (n + 1) (fun i => b.getD i 0) (sx.dom.unit t)) (D * sx.coef x) x := by
    have hp := hasDerivAt_poly1 (n + 1) (fun i => b.getD i 0) (sx.dom.unit x)
    have e : dpoly1 (n + 1) (fun i => b.getD i 0) (sx.dom.unit x) = D := by
      rw [dpoly1, sum_range_succ', hD]
      simp
    rw [e] at hp
    exact hp.comp x hm
  refine ⟨rnd (c * h), D * sx.coef x, sx.coef x, ?_, hdd, hm, ?_⟩
  · unfold PS1.evaluateDerivativeXR
    have hq := PS1.qi B b
    rw [hb] at hq
    rw [show (PS1.base b sx).m_x = sx from rfl, t1, Res.ok_bind]
    simp only [PS1.base, upTo_len, hb, hq, Res.ok_bind, c1, h1, Res.pure_eq]
  · have hD1 : |D| ≤ S := by
      rw [hD]
      refine (abs_sum_le_sum_abs _ _).trans (sum_le_sum fun i _ => ?_)
      rw [abs_mul, abs_mul, abs_of_nonneg (show (0 : ℝ) ≤ i + 1 by positivity), abs_pow]
      exact mul_le_of_le_one_right (by positivity) (pow_le_one₀ (abs_nonneg _) ht)
    have hh : |h| ≤ (1 + E) * S := by
      have := abs_add_le (h - D) D
      rw [sub_add_cancel] at this
      linarith
    set m := |sx.coef x| with hmm
    have hm0 : 0 ≤ m := abs_nonneg _
    have g0 := gam_nonneg 4
    have hch : |c * h - D * sx.coef x| ≤ ((1 + gam 4) * (1 + E) - 1) * (m * S) := by
      rw [show c * h - D * sx.coef x = (c - sx.coef x) * h + sx.coef x * (h - D) by ring]
      refine (abs_add_le _ _).trans ?_
      rw [abs_mul, abs_mul]
      have q1 := mul_le_mul c2 hh (abs_nonneg _) (by positivity)
      have q2 := mul_le_mul_of_nonneg_left h2 hm0
      linarith
    have hc : |c| ≤ (1 + gam 4) * m := by
      have := abs_add_le (c - sx.coef x) (sx.coef x)
      rw [sub_add_cancel] at this
      linarith
    have hr1 := toNearest_err hr (c * h)
    rw [abs_sub_comm, abs_mul] at hr1
    have q3 : |c| * |h| ≤ (1 + gam 4) * m * ((1 + E) * S) := mul_le_mul hc hh (abs_nonneg _) (by positivity)
    have q4 := abs_sub_le (rnd (c * h)) (c * h) (D * sx.coef x)
    have g4 : (1 + 1 / 2 ^ 53) * (1 + gam 4) ≤ 1 + 6 / 2 ^ 53 := by
      have h5 : (1 + 1 / 2 ^ 53) * (1 + gam 4) = 1 + gam 5 := by unfold gam uround; ring
      have h6 : gam 5 ≤ 6 * uround := (gam_le (by norm_num)).trans (by norm_num)
      have hu : uround = 1 / 2 ^ 53 := by unfold uround; norm_num
      rw [h5]
      rw [hu] at h6
      linarith
    have q5 := mul_le_mul_of_nonneg_right g4 (show 0 ≤ (1 + E) * (m * S) by positivity)
    have q6 : |c| * |h| / 2 ^ 53 ≤ (1 + gam 4) * m * ((1 + E) * S) / 2 ^ 53 := by gcongr
    linarith

/-- C133: the hypotheses are met. -/
example : Built1 [1, 2, (-1 : ℝ)] (PS1.closed [1, 2, -1] (-1) 3) (.segment (-1) 3) ∧ (Domain.segment (-1 : ℝ) 3).Usual ∧
    (Domain.segment (-1 : ℝ) 3).Mem 2 ∧ (Domain.segment (-1 : ℝ) 3).cond = 3 := by
  refine ⟨.closed _ _, by norm_num [Domain.Usual], by norm_num [Domain.Mem], ?_⟩
  show 4 * max |(-1 : ℝ)| |3| / (3 - -1) = 3
  norm_num

/-- C133: the bounds are small. -/
example : powErr 20 10 < 1 / 10 ^ 12 := by norm_num [powErr]

end MU
