import Verif.Model.IeeePowerSeries
import Verif.Props.IeeeChebyshev
import Verif.Props.IeeeNumerics
import Verif.Props.RoundedPowerSeries

set_option linter.unusedSectionVars false

/-!
# Power series in binary64

C191.
-/

namespace MU
open Spec Finset Dbl

variable {fl : ℝ → Option ℝ}

/-! ## One variable -/

theorem hornerLoopD_map (cs : List ℝ) (x : ℝ) (i : Nat) (r : Dbl ℝ) : hornerLoopD fl (cs.map num) (num x) i r = hornerLoopI fl cs x i r := by
  induction i generalizing r with
  | zero => rfl
  | succ i ih =>
    unfold hornerLoopD hornerLoopI
    by_cases hi : i < cs.length
    · rw [vAt_lt hi, vAt_lt (by simpa using hi), Res.ok_bind, Res.ok_bind, ih]
      simp
    · simp [vAt, List.getElem?_eq_none (not_lt.1 hi), hi]

theorem hornerD_map (cs : List ℝ) (x : ℝ) : hornerD fl (cs.map num) (num x) = hornerI fl cs x := by
  cases cs with
  | nil => rfl
  | cons c l =>
    unfold hornerD hornerI vAtInt
    simp only [List.length_map]
    rw [if_neg (by simp), if_neg (by simp)]
    have hi : ((((c :: l).length : Nat) : Int) - 1).toNat < (c :: l).length := by simp
    rw [vAt_lt hi, vAt_lt (by simpa using hi), Res.ok_bind, Res.ok_bind, ← hornerLoopD_map, List.getElem_map]

theorem sum_abs_pow_le {t τ η : ℝ} (ht : |t| ≤ 1) (hτ : |τ - t| ≤ η) (n : Nat) {i : Nat} (hi : i ≤ n) : max 1 |τ| ^ i ≤ (1 + η) ^ n := by
  have hη : 0 ≤ η := (abs_nonneg _).trans hτ
  have hτ1 : max 1 |τ| ≤ 1 + η := by
    have := abs_add_le (τ - t) t
    rw [sub_add_cancel] at this
    exact max_le (by linarith) (by linarith)
  exact (pow_le_pow_left₀ (by positivity) hτ1 i).trans (pow_le_pow_right₀ (by linarith) hi)

theorem pow_bound8 (n : Nat) {κ : ℝ} (hκ : 2 ≤ κ) : (1 + gam (2 * n)) * (1 + 8 * uround * κ) ^ n - 1 ≤ powErr n κ := by
  have hu : uround = 1 / 2 ^ 53 := by unfold uround; norm_num
  have hu0 := uround_nonneg
  have h1 : 1 + gam (2 * n) = ((1 + uround) ^ 2) ^ n := by
    rw [← pow_mul]
    unfold gam
    ring
  have h2 : (1 + uround) ^ 2 * (1 + 8 * uround * κ) ≤ 1 + 10 * κ / 2 ^ 53 := by
    rw [hu]
    norm_num
    linarith
  unfold powErr
  have h3 : (1 + gam (2 * n)) * (1 + 8 * uround * κ) ^ n ≤ (1 + 10 * κ / 2 ^ 53) ^ n := by
    rw [h1, ← mul_pow]
    exact pow_le_pow_left₀ (by positivity) h2 n
  linarith

/-- `Horner` at a point near `t`. -/
theorem hornerD_near (hfl : Ieee fl) {t τ κ : ℝ} (ht : |t| ≤ 1) (hκ : 2 ≤ κ) (hτ : |τ - t| ≤ 8 * uround * κ) (dτ : Double64 τ) {n : Nat} (hn : n < 2 ^ 31) {a : Nat → ℝ}
    (da : ∀ i, i < n + 1 → Double64 (a i)) (hsz : (n + 1) * (1 + powErr n κ) * (1 + ∑ i ∈ range (n + 1), |a i|) ≤ 2 ^ 1020) :
    ∃ v, hornerD fl ((List.range (n + 1)).map (fun i => num (a i))) (num τ) = .ok (num v) ∧ Double64 v ∧
      |v - poly1 (n + 1) a t| ≤ powErr n κ * ∑ i ∈ range (n + 1), |a i| + (1 + powErr n κ) * ((n + 1) * (4 * tiny)) := by
  have hE0 := powErr_nonneg n hκ
  have hb := pow_bound8 n hκ
  have hη : 0 ≤ 8 * uround * κ := (abs_nonneg _).trans hτ
  have hg := gam_nonneg (2 * n)
  set E := powErr n κ with hE
  set η := 8 * uround * κ with hη'
  have hS0 : 0 ≤ ∑ i ∈ range (n + 1), |a i| := sum_nonneg fun _ _ => abs_nonneg _
  have h1η : (1 : ℝ) ≤ (1 + η) ^ n := one_le_pow₀ (by linarith)
  have hηE : (1 + η) ^ n ≤ 1 + E := by
    have := mul_nonneg hg (zero_le_one.trans h1η)
    linarith
  have hlen : ((List.range (n + 1)).map a).length = n + 1 := by simp
  have gd : ∀ i, i < n + 1 → ((List.range (n + 1)).map a).getD i 0 = a i := fun i hi => getD_map_range _ _ hi
  have hn1 : (1 : ℝ) ≤ n + 1 := by linarith [(Nat.cast_nonneg n : (0 : ℝ) ≤ n)]
  obtain ⟨v, h1, h2, h3⟩ := C176_horner_partial hfl (cs := (List.range (n + 1)).map a) (by simp) (by rw [hlen]; omega) (by
    intro c hc
    obtain ⟨i, hi, rfl⟩ := List.mem_map.1 hc
    exact da i (List.mem_range.1 hi)) dτ (by
    refine le_trans ?_ hsz
    rw [hlen]
    calc ∑ i ∈ range (n + 1), (1 + |((List.range (n + 1)).map a).getD i 0|) * max 1 |τ| ^ i
        ≤ ∑ i ∈ range (n + 1), (1 + |a i|) * (1 + E) := by
          refine sum_le_sum fun i hi => ?_
          have hi := mem_range.1 hi
          rw [gd i hi]
          have := sum_abs_pow_le ht hτ n (show i ≤ n by omega)
          gcongr
          exact this.trans hηE
      _ = ((n + 1) + ∑ i ∈ range (n + 1), |a i|) * (1 + E) := by
          rw [← sum_mul, sum_add_distrib, sum_const, card_range, nsmul_eq_mul]
          push_cast
          ring
      _ ≤ ((n + 1) * (1 + ∑ i ∈ range (n + 1), |a i|)) * (1 + E) := by
          gcongr
          rw [mul_add, mul_one]
          gcongr
          exact le_mul_of_one_le_left hS0 hn1
      _ = _ := by ring)
  clear hsz
  refine ⟨v, by rw [← h1, ← hornerD_map, List.map_map]; rfl, h2, ?_⟩
  rw [hlen, Nat.add_sub_cancel] at h3
  have e1 : ∑ i ∈ range (n + 1), ((List.range (n + 1)).map a).getD i 0 * τ ^ i = ∑ i ∈ range (n + 1), a i * τ ^ i :=
    sum_congr rfl (fun i hi => by rw [gd _ (mem_range.1 hi)])
  have e2 : ∑ i ∈ range (n + 1), |((List.range (n + 1)).map a).getD i 0| * |τ| ^ i = ∑ i ∈ range (n + 1), |a i| * |τ| ^ i :=
    sum_congr rfl (fun i hi => by rw [gd _ (mem_range.1 hi)])
  have e3 : (1 + 1 / 2 ^ 53 : ℝ) ^ (2 * n) - 1 = gam (2 * n) := by unfold gam uround; norm_num
  have e4 : (2 : ℝ) ^ (-1074 : ℤ) = 2 * tiny := by
    have := four_tiny_pow
    rw [show (-1073 : ℤ) = 1 + -1074 by norm_num, zpow_add₀ (by norm_num)] at this
    linarith
  rw [e1, e2, e3, e4] at h3
  have t0 := tiny_pos.le
  have hp : ∀ i, i ≤ n → |τ| ^ i ≤ (1 + η) ^ n := fun i hi => (pow_le_pow_left₀ (abs_nonneg _) (le_max_right 1 _) i).trans (sum_abs_pow_le ht hτ n hi)
  have k1 : ∑ i ∈ range n, |τ| ^ i ≤ n * (1 + E) := by
    refine (sum_le_card_nsmul _ _ (1 + E) fun i hi => (hp i (mem_range.1 hi).le).trans hηE).trans (le_of_eq ?_)
    rw [card_range, nsmul_eq_mul]
  have k2 : ∑ i ∈ range (n + 1), |a i| * |τ| ^ i ≤ (1 + η) ^ n * ∑ i ∈ range (n + 1), |a i| := by
    rw [mul_sum]
    refine sum_le_sum fun i hi => ?_
    rw [mul_comm]
    exact mul_le_mul_of_nonneg_right (hp i (by have := mem_range.1 hi; omega)) (abs_nonneg _)
  have k3 := sum_near (v := ∑ i ∈ range (n + 1), a i * τ ^ i) (g := 0) ht hτ le_rfl (n := n) (c := a) (by simp)
  have k4 := abs_sub_le v (∑ i ∈ range (n + 1), a i * τ ^ i) (∑ i ∈ range (n + 1), a i * t ^ i)
  have k5 := mul_le_mul_of_nonneg_left k2 hg
  have k6 := mul_le_mul_of_nonneg_left k1 (show 0 ≤ 2 * tiny by linarith)
  have k7 := mul_le_mul_of_nonneg_right hb hS0
  have k8 : 0 ≤ tiny * (1 + E) := mul_nonneg t0 (by linarith)
  have k9 : 0 ≤ (n : ℝ) * (tiny * (1 + E)) := mul_nonneg (Nat.cast_nonneg n) k8
  unfold poly1
  clear e4 hb hE hη'
  linarith

/-- `Horner` sums a power series. -/
theorem hornerD_summed (hfl : Ieee fl) {t τ κ : ℝ} (ht : |t| ≤ 1) (hκ : 2 ≤ κ) (hτ : |τ - t| ≤ 8 * uround * κ) (dτ : Double64 τ) {n : Nat} (hn : n < 2 ^ 31) :
    Summed (fun l => hornerD fl l (num τ)) n (powErr n κ) (fun a => poly1 (n + 1) a t) where
  pos := powErr_nonneg n hκ
  zero := by simp [poly1]
  sub a b := poly1_sub_le ht (n + 1) b a
  near _ da hsz := hornerD_near hfl ht hκ hτ dτ hn da hsz

/-! ## C191 -/

/-- C191, one variable: at a point of the domain `Evaluate` returns a finite number when the domain is not extremely wide or narrow and the coefficients are not extremely large; its
error is that of C133 and one smallest positive number for each coefficient. -/
theorem C191_1d_partial (hfl : Ieee fl) (B : Build) {b : List ℝ} {n : Nat} (hb : b.length = n + 1) (hn : n < 2 ^ 31) (db : ∀ c ∈ b, Double64 c) {s : PS1 ℝ} {X : Domain ℝ}
    (hs : Built1 b s X) (hX : X.Usual) (hF : X.Finite64) (hD : X.Scaled) {x : ℝ} (dx : Double64 x) (hx : X.Mem x)
    (hsz : (n + 1) * (1 + powErr n X.cond) * (1 + ∑ i ∈ range (n + 1), |b.getD i 0|) ≤ 2 ^ 1020) :
    ∃ v, s.evaluateI fl B x = .ok (num v) ∧ Double64 v ∧
      |v - poly1 (n + 1) (fun i => b.getD i 0) (X.unit x)| ≤
        powErr n X.cond * ∑ i ∈ range (n + 1), |b.getD i 0| + (1 + powErr n X.cond) * ((n + 1) * (2 : ℝ) ^ (-1073 : ℤ)) := by
  obtain ⟨sx, rfl, rfl⟩ := Built1.seg hs
  obtain ⟨τ, t1, t2, t3⟩ := toUnitI_ok hfl hX hF hD dx hx
  obtain ⟨v, h1, h2, h3⟩ := hornerD_near hfl (unit_le hX hx) (Domain.cond_ge hX) t3 t2 hn (a := fun i => b.getD i 0) (fun i _ => getD_double64 db i) hsz
  rw [four_tiny_pow] at h3
  refine ⟨v, ?_, h2, h3⟩
  unfold PS1.evaluateI
  rw [show (PS1.base b sx).m_x = sx from rfl, t1, Res.ok_bind]
  simp only [PS1.base, upTo_len, hb]
  rw [collect_ok (fun i => num (b.getD i 0)) (fun i hi => ?_), Res.ok_bind]
  · exact h1
  · rw [eAt_lt (by omega)]
    simp [List.getD, List.getElem?_eq_getElem (show i < b.length by omega)]

/-- C191, two variables. -/
theorem C191_2d_partial (hfl : Ieee fl) (B : Build) {b : Mat ℝ} {n m : Nat} (hn : b.rows = n + 1) (hm : b.cols = m + 1) (hn' : n < 2 ^ 31) (hm' : m < 2 ^ 31)
    (db : ∀ i < n + 1, ∀ j < m + 1, Double64 (b.entry i j)) {s : PS2 ℝ} {X Y : Domain ℝ} (hs : Built2 b s X Y) (hX : X.Usual) (hFX : X.Finite64) (hDX : X.Scaled)
    (hY : Y.Usual) (hFY : Y.Finite64) (hDY : Y.Scaled) {x y : ℝ} (dx : Double64 x) (hx : X.Mem x) (dy : Double64 y) (hy : Y.Mem y)
    (hsz : (n + 1) * (m + 1) * ((1 + powErr n X.cond) * (1 + powErr m Y.cond)) * (1 + ∑ i ∈ range (n + 1), ∑ j ∈ range (m + 1), |b.entry i j|) ≤ 2 ^ 1018) :
    ∃ v, s.evaluateI fl B x y = .ok (num v) ∧ Double64 v ∧
      |v - poly2 (n + 1) (m + 1) b.entry (X.unit x) (Y.unit y)| ≤
        ((1 + powErr n X.cond) * (1 + powErr m Y.cond) - 1) * ∑ i ∈ range (n + 1), ∑ j ∈ range (m + 1), |b.entry i j|
          + (1 + powErr n X.cond) * (1 + powErr m Y.cond) * ((n + 1) * (m + 2) * (2 : ℝ) ^ (-1073 : ℤ)) := by
  obtain ⟨sx, sy, rfl, rfl, rfl⟩ := Built2.seg hs
  obtain ⟨τ, t1, t2, t3⟩ := toUnitI_ok hfl hX hFX hDX dx hx
  obtain ⟨σ, u1, u2, u3⟩ := toUnitI_ok hfl hY hFY hDY dy hy
  obtain ⟨r, v, h0, h1, h2, h3⟩ := (hornerD_summed hfl (unit_le hX hx) (Domain.cond_ge hX) t3 t2 hn').two
    (hornerD_summed hfl (unit_le hY hy) (Domain.cond_ge hY) u3 u2 hm') db hsz
  refine ⟨v, ?_, h2, by rw [← poly2_eq, ← four_tiny_pow]; exact h3⟩
  unfold PS2.evaluateI
  rw [show (PS2.base b sx sy).m_x = sx from rfl, show (PS2.base b sx sy).m_y = sy from rfl, t1, Res.ok_bind, u1, Res.ok_bind]
  simp only [PS2.base, upTo_len, hn]
  rw [collect_ok (fun i => num (r i)) (fun i hi => ?_), Res.ok_bind]
  · exact h1
  · rw [Mat.row, if_pos (by omega), Res.ok_bind, hm, List.map_map]
    exact h0 i hi

/-- C191, three variables. -/
theorem C191_3d_partial (hfl : Ieee fl) (B : Build) {b : List (Mat ℝ)} {n m l : Nat} (hn : n < 2 ^ 31) (hm : m < 2 ^ 31) (hl : l < 2 ^ 31) {e : Nat → Nat → Nat → ℝ}
    (hb : Cube b (n + 1) (m + 1) (l + 1) e) (db : ∀ i < n + 1, ∀ j < m + 1, ∀ k < l + 1, Double64 (e i j k)) {s : PS3 ℝ} {X Y Z : Domain ℝ} (hs : Built3 b s X Y Z)
    (hX : X.Usual) (hFX : X.Finite64) (hDX : X.Scaled) (hY : Y.Usual) (hFY : Y.Finite64) (hDY : Y.Scaled) (hZ : Z.Usual) (hFZ : Z.Finite64) (hDZ : Z.Scaled) {x y z : ℝ}
    (dx : Double64 x) (hx : X.Mem x) (dy : Double64 y) (hy : Y.Mem y) (dz : Double64 z) (hz : Z.Mem z)
    (hsz : (n + 1) * (m + 1) * (l + 1) * ((1 + powErr n X.cond) * (1 + powErr m Y.cond) * (1 + powErr l Z.cond)) *
      (1 + ∑ i ∈ range (n + 1), ∑ j ∈ range (m + 1), ∑ k ∈ range (l + 1), |e i j k|) ≤ 2 ^ 1018) :
    ∃ v, s.evaluateI fl B x y z = .ok (num v) ∧ Double64 v ∧
      |v - poly3 (n + 1) (m + 1) (l + 1) e (X.unit x) (Y.unit y) (Z.unit z)| ≤
        ((1 + powErr n X.cond) * (1 + powErr m Y.cond) * (1 + powErr l Z.cond) - 1) *
            ∑ i ∈ range (n + 1), ∑ j ∈ range (m + 1), ∑ k ∈ range (l + 1), |e i j k|
          + (1 + powErr n X.cond) * (1 + powErr m Y.cond) * (1 + powErr l Z.cond) * ((l + 1) * (n + 1) * (m + 3) * (2 : ℝ) ^ (-1073 : ℤ)) := by
  obtain ⟨sx, sy, sz, t, rfl, rfl, rfl, h⟩ := Built3.seg hs
  obtain ⟨τ, t1, t2, t3⟩ := toUnitI_ok hfl hX hFX hDX dx hx
  obtain ⟨σ, u1, u2, u3⟩ := toUnitI_ok hfl hY hFY hDY dy hy
  obtain ⟨ω, w1, w2, w3⟩ := toUnitI_ok hfl hZ hFZ hDZ dz hz
  have es : ∑ k ∈ range (l + 1), ∑ i ∈ range (n + 1), ∑ j ∈ range (m + 1), |e i j k| =
      ∑ i ∈ range (n + 1), ∑ j ∈ range (m + 1), ∑ k ∈ range (l + 1), |e i j k| := by
    rw [sum_comm]
    exact sum_congr rfl fun i _ => sum_comm
  obtain ⟨p, r, v, h0, h0', h1, h2, h3⟩ := (hornerD_summed hfl (unit_le hZ hz) (Domain.cond_ge hZ) w3 w2 hl).three
    (hornerD_summed hfl (unit_le hX hx) (Domain.cond_ge hX) t3 t2 hn) (hornerD_summed hfl (unit_le hY hy) (Domain.cond_ge hY) u3 u2 hm)
    (a := fun k i j => e i j k) (fun k hk i hi j hj => db i hi j hj k hk) (by
      rw [es]
      refine le_trans (le_of_eq ?_) hsz
      generalize ∑ i ∈ range (n + 1), ∑ j ∈ range (m + 1), ∑ k ∈ range (l + 1), |e i j k| = S
      ring)
  refine ⟨v, ?_, h2, ?_⟩
  · rw [PS3.base_ok hb] at h
    injection h with h
    subst h
    unfold PS3.evaluateI
    simp only [t1, u1, w1, Res.ok_bind]
    simp only [upTo_len]
    rw [collect_ok (fun k => num (r k)) (fun k hk => ?_), Res.ok_bind]
    · exact h1
    · obtain ⟨M, g1, g2, g3, g4⟩ := hb.get hk
      rw [collect_ok (fun i => num (p k i)) (fun i hi => ?_), Res.ok_bind]
      · exact h0' k hk
      · rw [g1, Res.ok_bind, Mat.row, if_pos (by omega), Res.ok_bind, g3]
        rw [← h0 k hk i hi, List.map_map]
        congr 1
        refine List.map_congr_left (fun j hj => ?_)
        show num (M.entry i j) = _
        rw [g4 i j hi (by simpa using hj)]
  · rw [← poly3_eq, ← four_tiny_pow]
    refine h3.trans (le_of_eq ?_)
    rw [es]
    ring

/-- C191: the hypotheses are met. -/
example : ∃ v, (PS1.closed [1, 2, -1] (-1) 3).evaluateI fl64 ⟨true⟩ 3 = .ok (num v) ∧ |v - 2| < 1 / 10 ^ 11 := by
  have hd : ∀ n : ℤ, |n| < 100 → Double64 (n : ℝ) := fun n hn => double64_int n (hn.trans (by norm_num))
  have e1 : (Domain.segment (-1 : ℝ) 3).unit 3 = 1 := by norm_num [Domain.unit]
  have e2 : (Domain.segment (-1 : ℝ) 3).cond = 3 := by
    show 4 * max |(-1 : ℝ)| |3| / (3 - -1) = 3
    norm_num
  have em : max |(-1 : ℝ)| |3| = 3 := by norm_num
  obtain ⟨v, h1, -, h2⟩ := C191_1d_partial fl64_ieee ⟨true⟩ (n := 2) (b := [1, 2, -1]) rfl (by norm_num)
    (by
      intro c hc
      simp only [List.mem_cons, List.not_mem_nil, or_false] at hc
      rcases hc with rfl | rfl | rfl
      · simpa using hd 1 (by norm_num)
      · simpa using hd 2 (by norm_num)
      · simpa using hd (-1) (by norm_num))
    (.closed (-1) 3)
    (show (-1 : ℝ) < 3 by norm_num) (show Double64 (-1) ∧ Double64 3 from ⟨by simpa using hd (-1) (by norm_num), by simpa using hd 3 (by norm_num)⟩)
    (show max |(-1 : ℝ)| |3| ≤ 2 ^ 1000 ∧ 1 ≤ 2 ^ 1000 * (3 - -1 : ℝ) ∧ max |(-1 : ℝ)| |3| ≤ 2 ^ 1000 * (3 - -1 : ℝ) by
      have : (2 : ℝ) ^ 2 ≤ 2 ^ 1000 := pow_le_pow_right₀ (by norm_num) (by norm_num)
      rw [em]
      generalize (2 : ℝ) ^ 1000 = P at *
      refine ⟨?_, ?_, ?_⟩ <;> linarith) (x := 3) (by simpa using hd 3 (by norm_num)) ⟨by norm_num, le_rfl⟩
    (by
      simp only [e2]
      refine le_trans ?_ (pow_le_pow_right₀ (by norm_num : (1 : ℝ) ≤ 2) (show 10 ≤ 1020 by norm_num))
      norm_num [powErr, sum_range_succ])
  refine ⟨v, h1, ?_⟩
  simp only [e1, e2] at h2
  have h3 : (2 : ℝ) ^ (-1073 : ℤ) ≤ (2 : ℝ) ^ (-60 : ℤ) := zpow_le_zpow_right₀ (by norm_num) (by norm_num)
  generalize (2 : ℝ) ^ (-1073 : ℤ) = w at *
  have h4 : (2 : ℝ) ^ (-60 : ℤ) ≤ 1 / 10 ^ 18 := by norm_num
  norm_num [poly1, powErr, sum_range_succ] at h2
  have h5 : |v - 2| = |v - (1 + 2 - 1)| := by norm_num
  rw [h5]
  clear h5
  refine lt_of_le_of_lt (le_trans (le_of_eq ?_) h2) ?_
  · norm_num
  · norm_num at h3 h4 ⊢
    linarith

/-- C191, two variables: the hypotheses are met. -/
example : ∃ v, (PS2.mixed ⟨2, 3, fun i j => (((3 * i : ℤ) - j : ℤ) : ℝ)⟩ (-1) 3 1).evaluateI fl64 ⟨true⟩ 2 5 = .ok (num v) ∧ Double64 v := by
  obtain ⟨⟨u1, u2, u3, u4, u5⟩, ⟨w1, w2, w3, w4, w5⟩, d2, d5⟩ := small_domains
  obtain ⟨v, h1, h2, -⟩ := C191_2d_partial fl64_ieee ⟨true⟩ (b := ⟨2, 3, fun i j => ((3 * i : ℤ) - j : ℤ)⟩) (n := 1) (m := 2) rfl rfl (by norm_num) (by norm_num)
    (by
      intro i hi j hj
      refine small_double64 _ ?_
      interval_cases i <;> interval_cases j <;> norm_num) (.mixed (-1) 3 1) u1 u2 u3 w1 w2 w3 d2 u5 d5 w5
    (by
      simp only [u4, w4]
      refine le_trans ?_ (pow_le_pow_right₀ (by norm_num : (1 : ℝ) ≤ 2) (show 10 ≤ 1018 by norm_num))
      norm_num [powErr, sum_range_succ])
  exact ⟨v, h1, h2⟩

/-- C191, three variables: the hypotheses are met. -/
example : ∃ s v, PS3.zOpenedXYClosed [⟨2, 2, fun i j => (((3 * i : ℤ) - j : ℤ) : ℝ)⟩, ⟨2, 2, fun i j => ((3 * i : ℤ) - j : ℤ)⟩] (-1) 3 (-1) 3 1 = .ok s ∧
    s.evaluateI fl64 ⟨true⟩ 2 2 5 = .ok (num v) ∧ Double64 v := by
  obtain ⟨⟨u1, u2, u3, u4, u5⟩, ⟨w1, w2, w3, w4, w5⟩, d2, d5⟩ := small_domains
  have hc : Cube [⟨2, 2, fun i j => (((3 * i : ℤ) - j : ℤ) : ℝ)⟩, ⟨2, 2, fun i j => ((3 * i : ℤ) - j : ℤ)⟩] 2 2 2 (fun i j _ => ((3 * i : ℤ) - j : ℤ)) := by
    refine ⟨rfl, fun k a hk => ?_, by norm_num, by norm_num, by norm_num⟩
    match k, hk with
    | 0, hk => cases hk; exact ⟨rfl, rfl, fun _ _ _ _ => rfl⟩
    | 1, hk => cases hk; exact ⟨rfl, rfl, fun _ _ _ _ => rfl⟩
  have hs : PS3.zOpenedXYClosed [⟨2, 2, fun i j => (((3 * i : ℤ) - j : ℤ) : ℝ)⟩, ⟨2, 2, fun i j => ((3 * i : ℤ) - j : ℤ)⟩] (-1) 3 (-1) 3 1 = .ok _ := PS3.base_ok hc _ _ _ _
  obtain ⟨v, h1, h2, -⟩ := C191_3d_partial fl64_ieee ⟨true⟩ (n := 1) (m := 1) (l := 1) (by norm_num) (by norm_num) (by norm_num) hc
    (by
      intro i hi j hj k hk
      refine small_double64 _ ?_
      interval_cases i <;> interval_cases j <;> norm_num) (.zOpened (-1) 3 (-1) 3 1 hs) u1 u2 u3 u1 u2 u3 w1 w2 w3 d2 u5 d2 u5 d5 w5
    (by
      simp only [u4, w4]
      refine le_trans ?_ (pow_le_pow_right₀ (by norm_num : (1 : ℝ) ≤ 2) (show 10 ≤ 1018 by norm_num))
      norm_num [powErr, sum_range_succ])
  exact ⟨_, v, hs, h1, h2⟩

/-! ## Where it fails -/

/-- C191 does not hold on every segment: when the width overflows, `Evaluate` returns the same at all points, whatever the coefficients; for the series `t` it is 0 at the upper bound,
not 1. -/
theorem C191_refuted (h : Ieee fl) (B : Build) :
    (∀ (b : List ℝ) x y, Double64 x → Double64 y →
      (PS1.closed b (-(3 * 2 ^ 1022)) (3 * 2 ^ 1022)).evaluateI fl B x = (PS1.closed b (-(3 * 2 ^ 1022)) (3 * 2 ^ 1022)).evaluateI fl B y) ∧
    (PS1.closed [0, 1] (-(3 * 2 ^ 1022)) (3 * 2 ^ 1022)).evaluateI fl B (3 * 2 ^ 1022) = .ok (num 0) ∧
    poly1 2 (fun i => [0, (1 : ℝ)].getD i 0) ((Domain.segment (-(3 * 2 ^ 1022) : ℝ) (3 * 2 ^ 1022)).unit (3 * 2 ^ 1022)) = 1 := by
  refine ⟨fun b x y dx dy => ?_, ?_, ?_⟩
  · unfold PS1.evaluateI
    simp only [PS1.closed, PS1.base, toUnitI_wide h dx, toUnitI_wide h dy]
  · unfold PS1.evaluateI
    simp only [PS1.closed, PS1.base, toUnitI_wide h double64_wide, Res.ok_bind]
    rw [collect_ok (fun i => num ([0, (1 : ℝ)].getD i 0)) (fun i hi => ?_), Res.ok_bind]
    · show Res.ok (fadd fl (fmul fl (num 1) (num 0)) (num 0)) = _
      have z2 : fmul fl (num 1) (num 0) = num 0 := by
        show Dbl.ofReal fl (1 * 0) = num 0
        rw [mul_zero, ofReal_zero h]
      have z4 : fadd fl (num 0) (num 0) = num 0 := by
        show Dbl.ofReal fl (0 + 0) = num 0
        rw [add_zero, ofReal_zero h]
      rw [z2, z4]
    · have hi : i < 2 := hi
      interval_cases i <;> rfl
  · have hp : (0 : ℝ) < 2 ^ 1022 := by positivity
    have : (Domain.segment (-(3 * 2 ^ 1022) : ℝ) (3 * 2 ^ 1022)).unit (3 * 2 ^ 1022) = 1 := by
      show (2 * (3 * 2 ^ 1022) - -(3 * 2 ^ 1022) - 3 * 2 ^ 1022) / (3 * 2 ^ 1022 - -(3 * 2 ^ 1022)) = (1 : ℝ)
      generalize (2 : ℝ) ^ 1022 = a at *
      field_simp
      ring
    rw [this]
    simp [poly1, sum_range_succ]

/-- The upper bound of `[-1, 1]` is mapped to 1. -/
theorem toUnitI_one (h : Ieee fl) : (Seg.closed (-1 : ℝ) 1).toUnitI fl 1 = .ok (num 1) := by
  have hd : ∀ n : ℤ, |n| < 100 → Dbl.ofReal fl (n : ℝ) = num (n : ℝ) := fun n hn => ofReal_some (ieee_double h (double64_int n (hn.trans (by norm_num))))
  have d0 := ofReal_zero h
  have d1 : Dbl.ofReal fl 1 = num 1 := by simpa using hd 1 (by norm_num)
  have d2 : Dbl.ofReal fl 2 = num 2 := by simpa using hd 2 (by norm_num)
  have e1 : fsub fl (num 1) (num (-1)) = num 2 := by
    show Dbl.ofReal fl (1 + -(-1)) = num 2
    rw [show (1 : ℝ) + -(-1) = 2 by norm_num, d2]
  have e2 : fadd fl (num 1) (num (-1)) = num 0 := by
    show Dbl.ofReal fl (1 + -1) = num 0
    rw [add_neg_cancel, d0]
  have e3 : fmul fl (num (1 / 2)) (num 0) = num 0 := by
    show Dbl.ofReal fl (1 / 2 * 0) = num 0
    rw [mul_zero, d0]
  have e4 : fsub fl (num 1) (num 0) = num 1 := by
    show Dbl.ofReal fl (1 + -0) = num 1
    rw [neg_zero, add_zero, d1]
  have e5 : fmul fl (num 1) (num 1) = num 1 := by
    show Dbl.ofReal fl (1 * 1) = num 1
    rw [mul_one, d1]
  have e6 : fquot fl (num 2) (num 2) = .ok (num 1) := by
    show (if (2 : ℝ) = 0 then Res.nonfinite else .ok (Dbl.ofReal fl (2 * 2⁻¹))) = _
    rw [if_neg (by norm_num), show (2 : ℝ) * 2⁻¹ = 1 by norm_num, d1]
  rw [Seg.toUnitI, e1, e2, e3, e4, e6]
  show Res.ok (fmul fl (num 1) (num 1)) = _
  rw [e5]

/-- C191 does not hold for every coefficient: the series `-2^1023 + 2^1023 t + 2^1023 t^2` on `[-1, 1]` is evaluated to an infinity at 1, for the sum of the last two terms overflows;
the value is `2^1023`. -/
theorem C191_refuted_large (h : Ieee fl) (B : Build) :
    (PS1.closed [-2 ^ 1023, 2 ^ 1023, 2 ^ 1023] (-1) 1).evaluateI fl B 1 = .ok pinf ∧ Double64 (2 ^ 1023) ∧
      poly1 3 (fun i => [-(2 : ℝ) ^ 1023, 2 ^ 1023, 2 ^ 1023].getD i 0) ((Domain.segment (-1) 1).unit 1) = 2 ^ 1023 := by
  have dd : Double64 ((2 : ℝ) ^ 1023) := ⟨2 ^ 52, 971, by norm_num, by norm_num, by norm_num, by
      rw [show (1023 : ℕ) = 52 + 971 by norm_num, pow_add, show ((2 : ℝ) ^ (971 : ℤ)) = 2 ^ 971 from zpow_natCast _ _]
      push_cast
      ring⟩
  refine ⟨?_, dd, ?_⟩
  · unfold PS1.evaluateI
    simp only [PS1.closed, PS1.base, toUnitI_one h, Res.ok_bind]
    rw [collect_ok (fun i => num ([-(2 : ℝ) ^ 1023, 2 ^ 1023, 2 ^ 1023].getD i 0)) (fun i hi => ?_), Res.ok_bind]
    · show Res.ok (fadd fl (fmul fl (fadd fl (fmul fl (num (2 ^ 1023)) (num 1)) (num (2 ^ 1023))) (num 1)) (num (-2 ^ 1023))) = _
      have e1 : fmul fl (num (2 ^ 1023)) (num 1) = num (2 ^ 1023) := by
        show Dbl.ofReal fl (2 ^ 1023 * 1) = _
        rw [mul_one, ofReal_some (ieee_double h dd)]
      have e2 : fadd fl (num (2 ^ 1023)) (num (2 ^ 1023)) = pinf := by
        show Dbl.ofReal fl (2 ^ 1023 + 2 ^ 1023) = pinf
        refine ofReal_pinf h ?_
        unfold overflow64
        rw [← mul_two, ← pow_succ]
        have : (0 : ℝ) ≤ 2 ^ 970 := by positivity
        exact sub_le_self _ this
      rw [e1, e2]
      simp [fmul, fadd, Dbl.mul, Dbl.add, Dbl.rounded]
    · have hi : i < 3 := hi
      interval_cases i <;> rfl
  · have : (Domain.segment (-1 : ℝ) 1).unit 1 = 1 := by norm_num [Domain.unit]
    rw [this]
    simp [poly1, sum_range_succ]

end MU
