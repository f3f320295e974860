import Verif.Model.IeeeUnit
import Verif.Props.IeeeAngles
import Verif.Props.RoundedUnit
import Verif.Props.IeeeVectors

/-!
# C184: unit conversions in binary64

The conversions of speeds, frequencies and angles with the range of binary64: finite accurate results for the numbers of ordinary magnitude,
infinities and NaN, and what happens at the ends of the range.
-/

set_option linter.unusedSectionVars false

namespace MU

open Spec

variable {fl : ℝ → Option ℝ}

/-- `x` is zero or has a magnitude between two powers of two. -/
def Mag (a b : ℤ) (x : ℝ) : Prop := x = 0 ∨ ((2 : ℝ) ^ a ≤ |x| ∧ |x| ≤ (2 : ℝ) ^ b)

namespace Mag

variable {a b c d : ℤ} {x y : ℝ}

theorem two_pos' (a : ℤ) : (0 : ℝ) < (2 : ℝ) ^ a := zpow_pos (by norm_num) _

theorem mono (h : Mag a b x) (h1 : c ≤ a) (h2 : b ≤ d) : Mag c d x := by
  rcases h with h | ⟨h3, h4⟩
  · exact Or.inl h
  · exact Or.inr ⟨(zpow_le_zpow_right₀ (by norm_num) h1).trans h3, h4.trans (zpow_le_zpow_right₀ (by norm_num) h2)⟩

theorem mul (h : Mag a b x) (h' : Mag c d y) : Mag (a + c) (b + d) (x * y) := by
  rcases h with rfl | ⟨h1, h2⟩
  · exact Or.inl (by ring)
  · rcases h' with rfl | ⟨h3, h4⟩
    · exact Or.inl (by ring)
    · refine Or.inr ⟨?_, ?_⟩
      · rw [abs_mul, zpow_add₀ (by norm_num)]
        exact mul_le_mul h1 h3 (two_pos' c).le (abs_nonneg _)
      · rw [abs_mul, zpow_add₀ (by norm_num)]
        exact mul_le_mul h2 h4 (abs_nonneg _) (two_pos' b).le

theorem inv (h : Mag a b x) : Mag (-b) (-a) x⁻¹ := by
  rcases h with rfl | ⟨h1, h2⟩
  · exact Or.inl (by simp)
  · have hx : 0 < |x| := (two_pos' a).trans_le h1
    refine Or.inr ⟨?_, ?_⟩
    · rw [abs_inv, zpow_neg]
      exact inv_anti₀ hx h2
    · rw [abs_inv, zpow_neg]
      exact inv_anti₀ (two_pos' a) h1

theorem div (h : Mag a b x) (h' : Mag c d y) : Mag (a - d) (b - c) (x / y) := by
  rw [div_eq_mul_inv, sub_eq_add_neg, sub_eq_add_neg]
  exact h.mul h'.inv

theorem inRange (h : Mag a b x) (ha : -1022 ≤ a) (hb : b ≤ 971) : InRange x := by
  rcases h with rfl | ⟨h1, h2⟩
  · exact InRange.zero
  · refine ⟨h2.trans_lt ?_, Or.inl ((zpow_le_zpow_right₀ (by norm_num) ha).trans h1)⟩
    have := double64_le (double64_pow (e := 971) (by norm_num) le_rfl)
    rw [abs_of_pos (two_pos' _)] at this
    exact (zpow_le_zpow_right₀ (by norm_num) hb).trans_lt this

theorem round (hfl : Ieee fl) (h : Mag a b x) : Mag a b (extend fl x) := by
  have hr := extend_toNearest hfl
  have hd : ∀ e : ℤ, Double ((2 : ℝ) ^ e) := fun e => ⟨1, e, by norm_num, by norm_num⟩
  rcases h with rfl | ⟨h1, h2⟩
  · exact Or.inl (toNearest_double hr double_zero)
  · right
    rcases le_total 0 x with h0 | h0
    · rw [abs_of_nonneg h0] at h1 h2
      have h3 := toNearest_ge hr (hd a) h1
      have h4 := toNearest_le hr (hd b) h2
      rw [abs_of_nonneg ((two_pos' a).le.trans h3)]
      exact ⟨h3, h4⟩
    · rw [abs_of_nonpos h0] at h1 h2
      have h3 := toNearest_le hr (double_neg (hd a)) (show x ≤ -(2 : ℝ) ^ a by linarith)
      have h4 := toNearest_ge hr (double_neg (hd b)) (show -(2 : ℝ) ^ b ≤ x by linarith)
      have := two_pos' a
      rw [abs_of_nonpos (by linarith)]
      exact ⟨by linarith, by linarith⟩

end Mag

/-- A product in range. -/
theorem mag_mul (h : Ieee fl) {a b c d : ℤ} {x y : ℝ} (hx : Mag a b x) (hy : Mag c d y) (h1 : -1022 ≤ a + c) (h2 : b + d ≤ 971) :
    Dbl.fmul fl (.num x) (.num y) = .num (extend fl (x * y)) ∧ Mag (a + c) (b + d) (extend fl (x * y)) ∧ Double64 (extend fl (x * y)) := by
  have hm := hx.mul hy
  have hr := hm.inRange h1 h2
  exact ⟨fmul_range h hr, hm.round h, extend_double64 h hr⟩

/-- A quotient in range. -/
theorem mag_div (h : Ieee fl) {a b c d : ℤ} {x y : ℝ} (hx : Mag a b x) (hy : Mag c d y) (h0 : y ≠ 0) (h1 : -1022 ≤ a - d) (h2 : b - c ≤ 971) :
    Dbl.fquot fl (.num x) (.num y) = .ok (.num (extend fl (x / y))) ∧ Mag (a - d) (b - c) (extend fl (x / y)) ∧ Double64 (extend fl (x / y)) := by
  have hm := hx.div hy
  have hr := hm.inRange h1 h2
  exact ⟨fquot_range h h0 hr, hm.round h, extend_double64 h hr⟩

/-- The constants of Constants.h as doubles are those of arithmetic without a range. -/
theorem const_unit (h : Ieee fl) :
    (MU_KNOT_I fl = MU_KNOT_R (extend fl) ∧ MU_KMH_I fl = MU_KMH_R (extend fl) ∧ MU_PI_180_I fl = MU_PI_180_R (extend fl) ∧
      MU_180_PI_I fl = MU_180_PI_R (extend fl) ∧ MU_2PI_I fl = MU_2PI_R (extend fl) ∧ MU_RPM2RADS_I fl = MU_RPM2RADS_R (extend fl)) ∧
    (Mag (-3) 3 (MU_KNOT_R (extend fl)) ∧ Mag (-3) 3 (MU_KMH_R (extend fl)) ∧ Mag (-7) 7 (MU_PI_180_R (extend fl)) ∧
      Mag (-7) 7 (MU_180_PI_R (extend fl)) ∧ Mag 2 3 (MU_2PI_R (extend fl)) ∧ Mag (-4) (-2) (MU_RPM2RADS_R (extend fl))) := by
  have g : ∀ {a b : ℤ} {x : ℝ}, Mag a b x → -1022 ≤ a → b ≤ 971 → (fl x).getD 0 = extend fl x ∧ Mag a b (extend fl x) := by
    intro a b x hm h1 h2
    rw [extend_eq h (hm.inRange h1 h2), Option.getD_some]
    exact ⟨rfl, hm.round h⟩
  obtain ⟨p1, p2, p3, p4⟩ := const_pi h
  have mp : Mag 1 2 (MU_PI_R (extend fl)) := by
    refine Mag.round h (Or.inr ?_)
    unfold M_PI
    norm_num
  have m60 : Mag 5 6 (60 : ℝ) := Or.inr (by norm_num)
  have m180 : Mag 7 8 (180 : ℝ) := Or.inr (by norm_num)
  have mh : Mag 11 12 (MU_ONE_MINUTE * 60) := Or.inr (by unfold MU_ONE_MINUTE; norm_num)
  have mile : Mag 10 11 MU_ONE_MILE := Or.inr (by unfold MU_ONE_MILE; norm_num)
  have mkm : Mag 9 10 MU_ONE_KM := Or.inr (by unfold MU_ONE_KM; norm_num)
  obtain ⟨e1, n1⟩ := g mh (by norm_num) (by norm_num)
  obtain ⟨e2, n2⟩ := g (mile.div n1) (by norm_num) (by norm_num)
  obtain ⟨e3, n3⟩ := g (mkm.div n1) (by norm_num) (by norm_num)
  obtain ⟨e4, n4⟩ := g (mp.div m180) (by norm_num) (by norm_num)
  obtain ⟨e5, n5⟩ := g (m180.div mp) (by norm_num) (by norm_num)
  have m2 : Mag 2 3 (MU_2PI_R (extend fl)) := by
    have : Mag 1 1 (2 : ℝ) := Or.inr (by norm_num)
    exact (this.mul mp).round h
  obtain ⟨e6, n6⟩ := g (m2.div m60) (by norm_num) (by norm_num)
  have q1 : MU_PI_I fl = MU_PI_R (extend fl) := p1.trans p2.symm
  have q2 : MU_2PI_I fl = MU_2PI_R (extend fl) := p3.trans p4.symm
  refine ⟨⟨?_, ?_, ?_, ?_, q2, ?_⟩, n2.mono (by norm_num) (by norm_num), n3.mono (by norm_num) (by norm_num), n4.mono (by norm_num) (by norm_num),
    n5.mono (by norm_num) (by norm_num), m2, n6.mono (by norm_num) (by norm_num)⟩
  · unfold MU_KNOT_I MU_ONE_HOUR_I
    rw [e1]; exact e2
  · unfold MU_KMH_I MU_ONE_HOUR_I
    rw [e1]; exact e3
  · unfold MU_PI_180_I
    rw [q1]; exact e4
  · unfold MU_180_PI_I
    rw [q1]; exact e5
  · unfold MU_RPM2RADS_I
    rw [q2]; exact e6

theorem const_unit_pos (h : Ieee fl) : 0 < MU_KNOT_I fl ∧ 0 < MU_KMH_I fl ∧ 0 < MU_PI_180_I fl ∧ 0 < MU_180_PI_I fl ∧ 0 < MU_2PI_I fl ∧
    0 < MU_RPM2RADS_I fl := by
  obtain ⟨⟨h1, h2, h3, h4, h5, h6⟩, -⟩ := const_unit h
  have hr := extend_toNearest h
  rw [h1, h2, h3, h4, h5, h6]
  exact ⟨MU_KNOT_R_pos hr, MU_KMH_R_pos hr, MU_PI_180_R_pos hr, MU_180_PI_R_pos hr, MU_2PI_R_pos hr, MU_RPM2RADS_R_pos hr⟩

/-! ## Speeds -/

theorem velocity_bridge (h : Ieee fl) {n : ℤ} (hn : 0 ≤ n) (hn' : n ≤ 960) {x : ℝ} (hx : Mag (-n) n x) (hd : Double64 x) (u v : SpeedUnit) {y : ℝ}
    (hy : convertVelocityR (extend fl) x u v = .ok y) :
    convertVelocityI fl (.num x) u v = .ok (.num y) ∧ Mag (-(n + 6)) (n + 6) y ∧ Double64 y := by
  obtain ⟨⟨c1, c2, -⟩, m1, m2, -⟩ := const_unit h
  have hr := extend_toNearest h
  have k1 := (MU_KNOT_R_pos hr).ne'
  have k2 := (MU_KMH_R_pos hr).ne'
  have hp : ∃ p, Mag (-(n + 3)) (n + 3) p ∧ Double64 p ∧ (∀ w, convertVelocityR (extend fl) x u w = convertVelocityR (extend fl) p .MS w) ∧
      ∀ w, convertVelocityI fl (.num x) u w = convertVelocityI fl (.num p) .MS w := by
    cases u with
    | MS => exact ⟨x, hx.mono (by omega) (by omega), hd, fun w => rfl, fun w => rfl⟩
    | KNOT =>
      obtain ⟨e, m, d⟩ := mag_mul h hx m1 (by omega) (by omega)
      refine ⟨_, m.mono (by omega) (by omega), d, fun w => rfl, fun w => ?_⟩
      simp only [convertVelocityI, c1, e]
    | KMH =>
      obtain ⟨e, m, d⟩ := mag_mul h hx m2 (by omega) (by omega)
      refine ⟨_, m.mono (by omega) (by omega), d, fun w => rfl, fun w => ?_⟩
      simp only [convertVelocityI, c2, e]
  obtain ⟨p, mp, dp, e1, e2⟩ := hp
  rw [e1] at hy
  rw [e2]
  cases v with
  | MS =>
    obtain rfl : p = y := by simpa [convertVelocityR] using hy
    exact ⟨rfl, mp.mono (by omega) (by omega), dp⟩
  | KNOT =>
    obtain ⟨e, m, d⟩ := mag_div h mp m1 k1 (by omega) (by omega)
    have h1 : extend fl (p / MU_KNOT_R (extend fl)) = y := by simpa [convertVelocityR, MS2KNOTR, rdivR_ok k1] using hy
    rw [h1] at e m d
    exact ⟨by simp only [convertVelocityI, c1, e], m.mono (by omega) (by omega), d⟩
  | KMH =>
    obtain ⟨e, m, d⟩ := mag_div h mp m2 k2 (by omega) (by omega)
    have h1 : extend fl (p / MU_KMH_R (extend fl)) = y := by simpa [convertVelocityR, MS2KMHR, rdivR_ok k2] using hy
    rw [h1] at e m d
    exact ⟨by simp only [convertVelocityI, c2, e], m.mono (by omega) (by omega), d⟩

/-- **C184**: a finite speed that is zero or of a magnitude between `2^-900` and `2^900` is converted to a finite number, which has the same meaning in
the new unit up to a relative error of `7u`, `u = 2^-53`; converted back it is what it was up to `13u`. -/
theorem C184_velocity (h : Ieee fl) {x : ℝ} (hd : Double64 x) (hx : x = 0 ∨ ((2 : ℝ) ^ (-900 : ℤ) ≤ |x| ∧ |x| ≤ (2 : ℝ) ^ (900 : ℤ)))
    (u v : SpeedUnit) :
    ∃ y z, convertVelocityI fl (.num x) u v = .ok (.num y) ∧ Double64 y ∧
      (∀ Y, metresPerSecond v Y = metresPerSecond u x → |y - Y| ≤ 7 / 2 ^ 53 * |Y|) ∧
      convertVelocityI fl (.num y) v u = .ok (.num z) ∧ Double64 z ∧ |z - x| ≤ 13 / 2 ^ 53 * |x| := by
  have hr := extend_toNearest h
  obtain ⟨y, h1, h2⟩ := C125_velocity hr x u v
  obtain ⟨y', z, h3, h4, h5⟩ := C125_velocity_round_trip hr x u v
  obtain rfl : y = y' := by
    rw [h1] at h3
    exact Res.ok.inj h3
  obtain ⟨e1, m1, d1⟩ := velocity_bridge h (n := 900) (by norm_num) (by norm_num) hx hd u v h1
  obtain ⟨e2, -, d2⟩ := velocity_bridge h (n := 906) (by norm_num) (by norm_num) m1 d1 v u h4
  exact ⟨y, z, e1, d1, h2, e2, d2, h5⟩

/-! ## Frequencies -/

theorem pivot_bridge (h : Ieee fl) {n : ℤ} (hn : 0 ≤ n) (hn' : n ≤ 930) {x : ℝ} (hx : Mag (-n) n x) (hd : Double64 x) (u : FrequencyUnit) {p : ℝ}
    (h0 : u = .S → x ≠ 0) (hp : frequencyToPivotR (extend fl) x u = .ok p) :
    frequencyToPivotI fl (.num x) u = .ok (.num p) ∧ Mag (-(n + 16)) (n + 16) p ∧ Double64 p := by
  obtain ⟨⟨-, -, c3, -, c5, c6⟩, -, -, m3, -, m5, m6⟩ := const_unit h
  have hr := extend_toNearest h
  have k := (MU_2PI_R_pos hr).ne'
  have m60 : Mag 5 6 (60 : ℝ) := Or.inr (by norm_num)
  have m1 : Mag 0 0 (1 : ℝ) := Or.inr (by norm_num)
  cases u with
  | HERTZ =>
    obtain rfl : x = p := by simpa [frequencyToPivotR] using hp
    exact ⟨rfl, hx.mono (by omega) (by omega), hd⟩
  | RADS =>
    obtain ⟨e, m, d⟩ := mag_div h hx m5 k (by omega) (by omega)
    have h1 : extend fl (x / MU_2PI_R (extend fl)) = p := by simpa [frequencyToPivotR, RADS2HZR, rdivR_ok k] using hp
    rw [h1] at e m d
    exact ⟨by simp only [frequencyToPivotI, c5, e], m.mono (by omega) (by omega), d⟩
  | S =>
    obtain ⟨e, m, d⟩ := mag_div h m1 hx (h0 rfl) (by omega) (by omega)
    have h1 : extend fl (1 / x) = p := by
      simp only [frequencyToPivotR] at hp
      rw [rdivR_ok (h0 rfl)] at hp
      exact Res.ok.inj hp
    rw [h1] at e m d
    exact ⟨by simp only [frequencyToPivotI, e], m.mono (by omega) (by omega), d⟩
  | DEGS =>
    obtain ⟨e, m, d⟩ := mag_mul h hx m3 (by omega) (by omega)
    obtain ⟨e', m', d'⟩ := mag_div h m m5 k (by omega) (by omega)
    have h1 : extend fl (extend fl (x * MU_PI_180_R (extend fl)) / MU_2PI_R (extend fl)) = p := by
      simpa [frequencyToPivotR, RADS2HZR, rdivR_ok k] using hp
    rw [h1] at e' m' d'
    exact ⟨by simp only [frequencyToPivotI, c3, c5, e, e'], m'.mono (by omega) (by omega), d'⟩
  | DEGM =>
    obtain ⟨e, m, d⟩ := mag_mul h hx m3 (by omega) (by omega)
    obtain ⟨e', m', d'⟩ := mag_div h m m60 (by norm_num) (by omega) (by omega)
    obtain ⟨e'', m'', d''⟩ := mag_div h m' m5 k (by omega) (by omega)
    have h1 : extend fl (extend fl (extend fl (x * MU_PI_180_R (extend fl)) / 60) / MU_2PI_R (extend fl)) = p := by
      simpa [frequencyToPivotR, RADS2HZR, rdivR_ok k] using hp
    rw [h1] at e'' m'' d''
    refine ⟨?_, m''.mono (by omega) (by omega), d''⟩
    simp only [frequencyToPivotI, c3, c5, e, e', Res.ok_bind, e'']
  | RPM =>
    obtain ⟨e, m, d⟩ := mag_mul h hx m6 (by omega) (by omega)
    obtain ⟨e', m', d'⟩ := mag_div h m m5 k (by omega) (by omega)
    have h1 : extend fl (extend fl (x * MU_RPM2RADS_R (extend fl)) / MU_2PI_R (extend fl)) = p := by
      simpa [frequencyToPivotR, RADS2HZR, rdivR_ok k] using hp
    rw [h1] at e' m' d'
    exact ⟨by simp only [frequencyToPivotI, c6, c5, e, e'], m'.mono (by omega) (by omega), d'⟩

theorem fromPivot_bridge (h : Ieee fl) {n : ℤ} (hn : 0 ≤ n) (hn' : n ≤ 950) {p : ℝ} (hx : Mag (-n) n p) (hd : Double64 p) (v : FrequencyUnit) {y : ℝ}
    (h0 : v = .S → p ≠ 0) (hy : frequencyFromPivotR (extend fl) p v = .ok y) :
    frequencyFromPivotI fl (.num p) v = .ok (.num y) ∧ Mag (-(n + 16)) (n + 16) y ∧ Double64 y := by
  obtain ⟨⟨-, -, -, c4, c5, c6⟩, -, -, -, m4, m5, m6⟩ := const_unit h
  have hr := extend_toNearest h
  have k := (MU_RPM2RADS_R_pos hr).ne'
  have m60 : Mag 5 6 (60 : ℝ) := Or.inr (by norm_num)
  have m1 : Mag 0 0 (1 : ℝ) := Or.inr (by norm_num)
  obtain ⟨e, m, d⟩ := mag_mul h m5 hx (by omega) (by omega)
  cases v with
  | HERTZ =>
    obtain rfl : p = y := by simpa [frequencyFromPivotR] using hy
    exact ⟨rfl, hx.mono (by omega) (by omega), hd⟩
  | RADS =>
    have h1 : extend fl (MU_2PI_R (extend fl) * p) = y := by simpa [frequencyFromPivotR] using hy
    rw [h1] at e m d
    exact ⟨by simp only [frequencyFromPivotI, c5, e], m.mono (by omega) (by omega), d⟩
  | S =>
    obtain ⟨e, m, d⟩ := mag_div h m1 hx (h0 rfl) (by omega) (by omega)
    have h1 : extend fl (1 / p) = y := by
      simp only [frequencyFromPivotR] at hy
      rw [rdivR_ok (h0 rfl)] at hy
      exact Res.ok.inj hy
    rw [h1] at e m d
    exact ⟨by simp only [frequencyFromPivotI, e], m.mono (by omega) (by omega), d⟩
  | DEGS =>
    obtain ⟨e', m', d'⟩ := mag_mul h m m4 (by omega) (by omega)
    have h1 : extend fl (extend fl (MU_2PI_R (extend fl) * p) * MU_180_PI_R (extend fl)) = y := by simpa [frequencyFromPivotR] using hy
    rw [h1] at e' m' d'
    exact ⟨by simp only [frequencyFromPivotI, c4, c5, e, e'], m'.mono (by omega) (by omega), d'⟩
  | DEGM =>
    obtain ⟨e', m', d'⟩ := mag_mul h m m4 (by omega) (by omega)
    obtain ⟨e'', m'', d''⟩ := mag_mul h m' m60 (by omega) (by omega)
    have h1 : extend fl (extend fl (extend fl (MU_2PI_R (extend fl) * p) * MU_180_PI_R (extend fl)) * 60) = y := by
      simpa [frequencyFromPivotR] using hy
    rw [h1] at e'' m'' d''
    exact ⟨by simp only [frequencyFromPivotI, c4, c5, e, e', e''], m''.mono (by omega) (by omega), d''⟩
  | RPM =>
    obtain ⟨e', m', d'⟩ := mag_div h m m6 k (by omega) (by omega)
    have h1 : extend fl (extend fl (MU_2PI_R (extend fl) * p) / MU_RPM2RADS_R (extend fl)) = y := by
      simpa [frequencyFromPivotR, rdivR_ok k] using hy
    rw [h1] at e' m' d'
    exact ⟨by simp only [frequencyFromPivotI, c6, c5, e, e'], m'.mono (by omega) (by omega), d'⟩

theorem frequency_bridge (h : Ieee fl) {n : ℤ} (hn : 0 ≤ n) (hn' : n ≤ 930) {x : ℝ} (hx : Mag (-n) n x) (hd : Double64 x) (u v : FrequencyUnit)
    (h0 : x ≠ 0 ∨ (u ≠ .S ∧ v ≠ .S)) {y : ℝ} (hy : convertFrequencyR (extend fl) x u v = .ok y) :
    convertFrequencyI fl (.num x) u v = .ok (.num y) ∧ Mag (-(n + 32)) (n + 32) y ∧ Double64 y := by
  unfold convertFrequencyI
  unfold convertFrequencyR at hy
  by_cases huv : u = v
  · rw [if_pos huv] at hy ⊢
    obtain rfl : x = y := Res.ok.inj hy
    exact ⟨rfl, hx.mono (by omega) (by omega), hd⟩
  · rw [if_neg huv] at hy ⊢
    have hr := extend_toNearest h
    obtain ⟨p, h1, -, h3⟩ := pivot_rel hr (Rel.exact x) u (by rintro rfl; simpa using h0)
    rw [h1, Res.ok_bind] at hy
    obtain ⟨e, m, d⟩ := pivot_bridge h hn hn' hx hd u (by rintro rfl; simpa using h0) h1
    obtain ⟨e', m', d'⟩ := fromPivot_bridge h (n := n + 16) (by omega) (by omega) m d v (by rintro rfl; exact h3 (by simpa using h0)) hy
    rw [e, Res.ok_bind, e']
    exact ⟨rfl, m'.mono (by omega) (by omega), d'⟩

/-- **C184**: a finite frequency or period that is zero or of a magnitude between `2^-880` and `2^880` is converted to a finite number, which has the
same meaning in the new unit up to a relative error of `19u`; converted back it is what it was up to `37u`. A zero is excepted when one of the units
is a period. -/
theorem C184_frequency (h : Ieee fl) {x : ℝ} (hd : Double64 x) (hx : x = 0 ∨ ((2 : ℝ) ^ (-880 : ℤ) ≤ |x| ∧ |x| ≤ (2 : ℝ) ^ (880 : ℤ)))
    (u v : FrequencyUnit) (h0 : x ≠ 0 ∨ (u ≠ .S ∧ v ≠ .S)) :
    ∃ y z, convertFrequencyI fl (.num x) u v = .ok (.num y) ∧ Double64 y ∧
      (∀ Y, turns v Y = turns u x → |y - Y| ≤ 19 / 2 ^ 53 * |Y|) ∧
      convertFrequencyI fl (.num y) v u = .ok (.num z) ∧ Double64 z ∧ |z - x| ≤ 37 / 2 ^ 53 * |x| := by
  have hr := extend_toNearest h
  obtain ⟨-, y, h1, h2⟩ := C125_frequency hr x u v h0
  obtain ⟨y', z, h3, h4, h5⟩ := C125_frequency_round_trip hr x u v h0
  obtain rfl : y = y' := by
    rw [h1] at h3
    exact Res.ok.inj h3
  have h0' : y ≠ 0 ∨ (v ≠ .S ∧ u ≠ .S) := by
    obtain ⟨y', g1, -, g3⟩ := frequency_rel hr (Rel.exact x) u v h0
    rw [h1] at g1
    obtain rfl := Res.ok.inj g1
    exact h0.imp g3 (fun h => ⟨h.2, h.1⟩)
  obtain ⟨e1, m1, d1⟩ := frequency_bridge h (n := 880) (by norm_num) (by norm_num) hx hd u v h0 h1
  obtain ⟨e2, -, d2⟩ := frequency_bridge h (n := 912) (by norm_num) (by norm_num) m1 d1 v u h0' h4
  exact ⟨y, z, e1, d1, h2, e2, d2, h5⟩

/-! ## Angles -/

/-- **C184**: the conversions of vectors of angles, on finite numbers that are zero or of a magnitude between `2^-900` and `2^900`: every element is
finite and accurate to `5u`. -/
theorem C184_angles (h : Ieee fl) (v : List ℝ)
    (hv : ∀ x ∈ v, x = 0 ∨ ((2 : ℝ) ^ (-900 : ℤ) ≤ |x| ∧ |x| ≤ (2 : ℝ) ^ (900 : ℤ))) :
    (∃ w, deg2radI fl (v.map .num) = w.map .num ∧ (∀ y ∈ w, Double64 y) ∧
      List.Forall₂ (fun x y => |y - x * Real.pi / 180| ≤ 5 / 2 ^ 53 * |x * Real.pi / 180|) v w) ∧
    ∃ w, rad2degI fl (v.map .num) = w.map .num ∧ (∀ y ∈ w, Double64 y) ∧
      List.Forall₂ (fun x y => |y - x * 180 / Real.pi| ≤ 5 / 2 ^ 53 * |x * 180 / Real.pi|) v w := by
  have hr := extend_toNearest h
  obtain ⟨h1, h2, -⟩ := C125_angles hr v
  obtain ⟨⟨-, -, c3, c4, -⟩, -, -, m3, m4, -⟩ := const_unit h
  have key : ∀ x ∈ v, ∀ {c : ℝ}, Mag (-7) 7 c → Dbl.fmul fl (.num x) (.num c) = .num (extend fl (x * c)) ∧ Double64 (extend fl (x * c)) := by
    intro x hx c hc
    obtain ⟨e, -, d⟩ := mag_mul h (show Mag (-900) 900 x from hv x hx) hc (by norm_num) (by norm_num)
    exact ⟨e, d⟩
  refine ⟨⟨deg2radR (extend fl) v, ?_, ?_, h1⟩, ⟨rad2degR (extend fl) v, ?_, ?_, h2⟩⟩
  · rw [deg2radI, deg2radR, List.map_map, List.map_map, c3]
    exact List.map_congr_left fun x hx => (key x hx m3).1
  · intro y hy
    obtain ⟨x, hx, rfl⟩ := List.mem_map.1 hy
    exact (key x hx m3).2
  · rw [rad2degI, rad2degR, List.map_map, List.map_map, c4]
    exact List.map_congr_left fun x hx => (key x hx m4).1
  · intro y hy
    obtain ⟨x, hx, rfl⟩ := List.mem_map.1 hy
    exact (key x hx m4).2

/-! ## Every double, in order -/

/-- Rounding keeps the order, infinities included. -/
theorem ofReal_mono (h : Ieee fl) {x y : ℝ} (hxy : x ≤ y) : Dbl.le (Dbl.ofReal fl x) (Dbl.ofReal fl y) = true := by
  rcases hxy.eq_or_lt with rfl | hlt
  · rcases hd : Dbl.ofReal fl x with a | _ | _ | _
    · simp [Dbl.le]
    · rfl
    · rfl
    · exfalso
      unfold Dbl.ofReal at hd
      split at hd
      · cases hd
      · split_ifs at hd
  have notnan : ∀ z, Dbl.ofReal fl z ≠ .nan := by
    intro z hz
    unfold Dbl.ofReal at hz
    split at hz
    · cases hz
    · split_ifs at hz
  rcases le_or_gt overflow64 y with hy | hy
  · rw [ofReal_pinf h hy]
    have := notnan x
    revert this
    rcases Dbl.ofReal fl x with a | _ | _ | _ <;> simp [Dbl.le]
  rcases le_or_gt x (-overflow64) with hx | hx
  · rw [ofReal_ninf h hx]
    have := notnan y
    revert this
    rcases Dbl.ofReal fl y with a | _ | _ | _ <;> simp [Dbl.le]
  obtain ⟨a, ha, da, na⟩ := (h x).1 (abs_lt.2 ⟨hx, hlt.trans hy⟩)
  obtain ⟨b, hb, db, nb⟩ := (h y).1 (abs_lt.2 ⟨hx.trans hlt, hy⟩)
  rw [ofReal_some ha, ofReal_some hb]
  simp only [Dbl.le, decide_eq_true_eq]
  by_contra hc
  rw [not_le] at hc
  have h1 := na b db
  have h2 := nb a da
  have g1 : (x - a) ^ 2 ≤ (x - b) ^ 2 := sq_le_sq.2 h1
  have g2 : (y - b) ^ 2 ≤ (y - a) ^ 2 := sq_le_sq.2 h2
  nlinarith

theorem le_self_of_ne_nan {a : Dbl ℝ} (h : a ≠ .nan) : Dbl.le a a = true := by
  rcases a with a | _ | _ | _ <;> simp [Dbl.le] at h ⊢

/-- A product with a positive constant keeps the order. -/
theorem fmul_mono (h : Ieee fl) {a b : Dbl ℝ} {c : ℝ} (hc : 0 < c) (hab : Dbl.le a b = true) :
    Dbl.le (Dbl.fmul fl a (.num c)) (Dbl.fmul fl b (.num c)) = true := by
  have ninf_le : ∀ z, Dbl.le (.ninf) (Dbl.ofReal fl z) = true := by
    intro z
    unfold Dbl.ofReal
    split
    · rfl
    · split_ifs <;> rfl
  have le_pinf : ∀ z, Dbl.le (Dbl.ofReal fl z) (.pinf) = true := by
    intro z
    unfold Dbl.ofReal
    split
    · rfl
    · split_ifs <;> rfl
  rcases a with a | _ | _ | _ <;> rcases b with b | _ | _ | _ <;> simp only [Dbl.le, Bool.false_eq_true] at hab <;>
    simp only [Dbl.fmul, Dbl.mul, if_pos hc, Dbl.rounded]
  · exact ofReal_mono h (mul_le_mul_of_nonneg_right (by simpa using hab) hc.le)
  · exact le_pinf _
  · rfl
  · exact ninf_le _
  · rfl
  · rfl

theorem fmul_comm (a b : Dbl ℝ) : Dbl.fmul fl a b = Dbl.fmul fl b a := by
  rcases a with a | _ | _ | _ <;> rcases b with b | _ | _ | _ <;> simp [Dbl.fmul, Dbl.mul, mul_comm]

/-- A quotient by a positive constant keeps the order. -/
theorem fquot_mono (h : Ieee fl) {a b : Dbl ℝ} {c : ℝ} (hc : 0 < c) (hab : Dbl.le a b = true) :
    ∃ p q, Dbl.fquot fl a (.num c) = .ok p ∧ Dbl.fquot fl b (.num c) = .ok q ∧ Dbl.le p q = true := by
  refine ⟨_, _, if_neg hc.ne', if_neg hc.ne', ?_⟩
  exact fmul_mono h (inv_pos.2 hc) hab

/-- **C184**: the conversion of speeds keeps the order of all doubles that are not NaN, the largest and smallest ones and infinities included. In
particular it always has a result that is not NaN. -/
theorem C184_velocity_order (h : Ieee fl) {a b : Dbl ℝ} (hab : Dbl.le a b = true) (u v : SpeedUnit) :
    ∃ p q, convertVelocityI fl a u v = .ok p ∧ convertVelocityI fl b u v = .ok q ∧ Dbl.le p q = true := by
  obtain ⟨k1, k2, -⟩ := const_unit_pos h
  have hm : ∃ p q, Dbl.le p q = true ∧ (∀ w, convertVelocityI fl a u w = convertVelocityI fl p .MS w) ∧
      ∀ w, convertVelocityI fl b u w = convertVelocityI fl q .MS w := by
    cases u with
    | MS => exact ⟨a, b, hab, fun w => rfl, fun w => rfl⟩
    | KNOT => exact ⟨_, _, fmul_mono h k1 hab, fun w => rfl, fun w => rfl⟩
    | KMH => exact ⟨_, _, fmul_mono h k2 hab, fun w => rfl, fun w => rfl⟩
  obtain ⟨p, q, hpq, e, e'⟩ := hm
  rw [e, e']
  cases v with
  | MS => exact ⟨p, q, rfl, rfl, hpq⟩
  | KNOT => exact fquot_mono h k1 hpq
  | KMH => exact fquot_mono h k2 hpq

/-- **C184**: the conversion of frequencies, periods excepted, keeps the order of all doubles that are not NaN. -/
theorem C184_frequency_order (h : Ieee fl) {a b : Dbl ℝ} (hab : Dbl.le a b = true) {u v : FrequencyUnit} (hu : u ≠ .S) (hv : v ≠ .S) :
    ∃ p q, convertFrequencyI fl a u v = .ok p ∧ convertFrequencyI fl b u v = .ok q ∧ Dbl.le p q = true := by
  obtain ⟨-, -, k3, k4, k5, k6⟩ := const_unit_pos h
  unfold convertFrequencyI
  by_cases huv : u = v
  · rw [if_pos huv, if_pos huv]
    exact ⟨a, b, rfl, rfl, hab⟩
  rw [if_neg huv, if_neg huv]
  have hp : ∃ p q, frequencyToPivotI fl a u = .ok p ∧ frequencyToPivotI fl b u = .ok q ∧ Dbl.le p q = true := by
    cases u with
    | HERTZ => exact ⟨a, b, rfl, rfl, hab⟩
    | RADS => exact fquot_mono h k5 hab
    | DEGS => exact fquot_mono h k5 (fmul_mono h k3 hab)
    | DEGM =>
      obtain ⟨p, q, e, e', hpq⟩ := fquot_mono (c := 60) h (by norm_num) (fmul_mono h k3 hab)
      obtain ⟨p', q', f, f', hpq'⟩ := fquot_mono h k5 hpq
      refine ⟨p', q', ?_, ?_, hpq'⟩
      · simp only [frequencyToPivotI, e, Res.ok_bind, f]
      · simp only [frequencyToPivotI, e', Res.ok_bind, f']
    | S => exact absurd rfl hu
    | RPM => exact fquot_mono h k5 (fmul_mono h k6 hab)
  obtain ⟨p, q, e, e', hpq⟩ := hp
  rw [e, e', Res.ok_bind, Res.ok_bind]
  have hw : Dbl.le (Dbl.fmul fl (.num (MU_2PI_I fl)) p) (Dbl.fmul fl (.num (MU_2PI_I fl)) q) = true := by
    rw [fmul_comm _ p, fmul_comm _ q]
    exact fmul_mono h k5 hpq
  cases v with
  | HERTZ => exact ⟨_, _, rfl, rfl, hpq⟩
  | RADS => exact ⟨_, _, rfl, rfl, hw⟩
  | DEGS => exact ⟨_, _, rfl, rfl, fmul_mono h k4 hw⟩
  | DEGM => exact ⟨_, _, rfl, rfl, fmul_mono h (by norm_num) (fmul_mono h k4 hw)⟩
  | S => exact absurd rfl hv
  | RPM => exact fquot_mono h k6 hw

/-! ## Infinities and NaN -/

/-- **C184**: NaN is converted to NaN. An infinite speed or frequency is converted to the same infinity; an infinite frequency has a zero period, an
infinite period a zero frequency. -/
theorem C184_not_finite (h : Ieee fl) :
    (∀ u v, convertVelocityI fl .nan u v = .ok .nan ∧ convertVelocityI fl .pinf u v = .ok .pinf ∧ convertVelocityI fl .ninf u v = .ok .ninf) ∧
    (∀ u v, convertFrequencyI fl .nan u v = .ok .nan) ∧
    (∀ u v, u ≠ .S → v ≠ .S → convertFrequencyI fl .pinf u v = .ok .pinf ∧ convertFrequencyI fl .ninf u v = .ok .ninf) ∧
    (∀ u, u ≠ .S → ∀ d, d = .pinf ∨ d = .ninf → convertFrequencyI fl d u .S = .ok (.num 0) ∧ convertFrequencyI fl d .S u = .ok (.num 0)) := by
  obtain ⟨k1, k2, k3, k4, k5, k6⟩ := const_unit_pos h
  have h60 : (0 : ℝ) < 60 := by norm_num
  have mn : ∀ c : ℝ, Dbl.fmul fl .nan (.num c) = .nan ∧ Dbl.fmul fl (.num c) .nan = .nan := fun c => ⟨rfl, rfl⟩
  have mp : ∀ {c : ℝ}, 0 < c → Dbl.fmul fl .pinf (.num c) = .pinf ∧ Dbl.fmul fl (.num c) .pinf = .pinf := fun hc => by
    simp [Dbl.fmul, Dbl.mul, hc, Dbl.rounded]
  have mm : ∀ {c : ℝ}, 0 < c → Dbl.fmul fl .ninf (.num c) = .ninf ∧ Dbl.fmul fl (.num c) .ninf = .ninf := fun hc => by
    simp [Dbl.fmul, Dbl.mul, hc, Dbl.rounded]
  have z : Dbl.ofReal fl 0 = .num 0 := ofReal_some (ieee_double h double64_zero)
  have m0 : ∀ c : ℝ, Dbl.fmul fl (.num 0) (.num c) = .num 0 ∧ Dbl.fmul fl (.num c) (.num 0) = .num 0 := fun c => by
    simp [Dbl.fmul, Dbl.mul, Dbl.rounded, z]
  have q : ∀ (a : Dbl ℝ) {c : ℝ}, 0 < c → Dbl.fquot fl a (.num c) = .ok (Dbl.fmul fl a (.num c⁻¹)) := fun a c hc => if_neg hc.ne'
  have qn : ∀ a : Dbl ℝ, Dbl.fquot fl a .nan = .ok .nan := fun a => rfl
  have qp : ∀ a : ℝ, Dbl.fquot fl (.num a) .pinf = .ok (.num 0) ∧ Dbl.fquot fl (.num a) .ninf = .ok (.num 0) := fun a => ⟨rfl, rfl⟩
  refine ⟨fun u v => ?_, fun u v => ?_, fun u v hu hv => ?_, fun u hu d hd => ?_⟩
  · cases u <;> cases v <;>
      simp [convertVelocityI, mn, mp k1, mp k2, mm k1, mm k2, q _ k1, q _ k2, mp (inv_pos.2 k1), mp (inv_pos.2 k2), mm (inv_pos.2 k1),
        mm (inv_pos.2 k2)]
  · unfold convertFrequencyI
    split_ifs
    · rfl
    · cases u <;> cases v <;> simp [frequencyToPivotI, frequencyFromPivotI, mn, q _ k5, q _ k6, q _ h60, qn, Res.ok_bind]
  · unfold convertFrequencyI
    split_ifs
    · exact ⟨rfl, rfl⟩
    · cases u <;> cases v <;> simp [frequencyToPivotI, frequencyFromPivotI, mp k3, mp k4, mp k5, mp k6, mp h60, mm k3, mm k4, mm k5, mm k6, mm h60,
        q _ k5, q _ k6, q _ h60, mp (inv_pos.2 k5), mp (inv_pos.2 k6), mp (inv_pos.2 h60), mm (inv_pos.2 k5), mm (inv_pos.2 k6),
        mm (inv_pos.2 h60), Res.ok_bind] at hu hv ⊢
  · unfold convertFrequencyI
    rw [if_neg hu, if_neg (Ne.symm hu)]
    rcases hd with rfl | rfl <;> cases u <;> simp [frequencyToPivotI, frequencyFromPivotI, mp k3, mp k5, mp k6, mm k3, mm k5, mm k6,
        q _ k5, q _ k6, q _ h60, mp (inv_pos.2 k5), mp (inv_pos.2 h60), mm (inv_pos.2 k5), mm (inv_pos.2 h60), qp, m0, Res.ok_bind] at hu ⊢

/-! ## The ends of the range -/

/-- **C184**: bounds on the magnitude are needed. The finite number `2^1023` Hz is converted to an infinite number of rad/s, and the smallest positive
number of km/h to zero knots, which is zero km/h. -/
theorem C184_ends (h : Ieee fl) :
    (Double64 ((2 : ℝ) ^ (1023 : ℤ)) ∧ convertFrequencyI fl (.num ((2 : ℝ) ^ (1023 : ℤ))) .HERTZ .RADS = .ok .pinf) ∧
    (Double64 ((2 : ℝ) ^ (-1074 : ℤ)) ∧ convertVelocityI fl (.num ((2 : ℝ) ^ (-1074 : ℤ))) .KMH .KNOT = .ok (.num 0) ∧
      convertVelocityI fl (.num 0) .KNOT .KMH = .ok (.num 0)) := by
  obtain ⟨⟨-, c2, -, -, c5, -⟩, -, -, -, -, m5, -⟩ := const_unit h
  obtain ⟨k1, k2, -, -, k5, -⟩ := const_unit_pos h
  have z : Dbl.ofReal fl 0 = .num 0 := ofReal_some (ieee_double h double64_zero)
  have m0 : ∀ c : ℝ, Dbl.fmul fl (.num 0) (.num c) = .num 0 := fun c => by simp [Dbl.fmul, Dbl.mul, Dbl.rounded, z]
  have q : ∀ (a : Dbl ℝ) {c : ℝ}, 0 < c → Dbl.fquot fl a (.num c) = .ok (Dbl.fmul fl a (.num c⁻¹)) := fun a c hc => if_neg hc.ne'
  refine ⟨⟨?_, ?_⟩, double64_pow (by norm_num) (by norm_num), ?_, ?_⟩
  · refine ⟨2 ^ 52, 971, by norm_num, by norm_num, by norm_num, ?_⟩
    rw [show (1023 : ℤ) = 52 + 971 by norm_num, zpow_add₀ (by norm_num)]
    norm_num
  · unfold convertFrequencyI
    rw [if_neg (by decide)]
    simp only [frequencyToPivotI, frequencyFromPivotI, Res.ok_bind]
    congr 1
    refine ofReal_pinf h ?_
    have h4 : (4 : ℝ) ≤ MU_2PI_I fl := by
      rcases m5 with h0 | ⟨h1, -⟩
      · rw [← c5] at h0
        exact absurd h0 k5.ne'
      · rw [← c5, abs_of_pos k5] at h1
        norm_num at h1
        exact h1
    rw [overflow64_eq]
    have e : (2 : ℝ) ^ (1023 : ℤ) = 2 ^ 53 * (2 : ℝ) ^ (970 : ℤ) := by
      rw [show (1023 : ℤ) = 53 + 970 by norm_num, zpow_add₀ (by norm_num)]
      norm_num
    rw [e]
    have hp : (0 : ℝ) < (2 : ℝ) ^ (970 : ℤ) := zpow_pos (by norm_num) _
    generalize (2 : ℝ) ^ (970 : ℤ) = w at hp
    rw [← mul_assoc]
    refine mul_le_mul_of_nonneg_right ?_ hp.le
    linarith
  · have ht : Dbl.fmul fl (.num ((2 : ℝ) ^ (-1074 : ℤ))) (.num (MU_KMH_I fl)) = .num 0 := by
      refine ofReal_tiny h ?_
      have hk : MU_KMH_I fl < 1 / 2 := by
        rw [c2]
        have hb := (rel_kmh (extend_toNearest h)).bound (by norm_num)
        have := (abs_le.1 hb).2
        norm_num at this ⊢
        linarith
      have hp : (0 : ℝ) < (2 : ℝ) ^ (-1075 : ℤ) := zpow_pos (by norm_num) _
      have e : (2 : ℝ) ^ (-1074 : ℤ) = 2 * (2 : ℝ) ^ (-1075 : ℤ) := by
        rw [show (-1074 : ℤ) = 1 + -1075 by norm_num, zpow_add₀ (by norm_num)]
        norm_num
      unfold tiny
      rw [e]
      generalize (2 : ℝ) ^ (-1075 : ℤ) = w at hp
      rw [abs_of_pos (by positivity)]
      nlinarith
    simp only [convertVelocityI, ht, q _ k1, m0]
  · simp only [convertVelocityI, m0, q _ k2]

/-- Ten knots in binary64. -/
example : ∃ y z, convertVelocityI fl64 (.num 10) .KNOT .KMH = .ok (.num y) ∧ |y - 18.52| ≤ 7 / 2 ^ 53 * 18.52 ∧
    convertVelocityI fl64 (.num y) .KMH .KNOT = .ok (.num z) ∧ |z - 10| ≤ 13 / 2 ^ 53 * 10 := by
  have hd : Double64 (10 : ℝ) := by exact_mod_cast double64_int 10 (by norm_num)
  have hx : (2 : ℝ) ^ (-900 : ℤ) ≤ |(10 : ℝ)| ∧ |(10 : ℝ)| ≤ (2 : ℝ) ^ (900 : ℤ) := by
    have h1 : (2 : ℝ) ^ (-900 : ℤ) ≤ 1 := zpow_le_one_of_nonpos₀ (by norm_num) (by norm_num)
    have h2 : (2 : ℝ) ^ (4 : ℤ) ≤ (2 : ℝ) ^ (900 : ℤ) := zpow_le_zpow_right₀ (by norm_num) (by norm_num)
    rw [abs_of_pos (by norm_num : (0 : ℝ) < 10)]
    exact ⟨h1.trans (by norm_num), le_trans (by norm_num) h2⟩
  obtain ⟨y, z, h1, -, h3, h4, -, h6⟩ := C184_velocity fl64_ieee hd (Or.inr hx) .KNOT .KMH
  refine ⟨y, z, h1, ?_, h4, ?_⟩
  · have := h3 18.52 (by norm_num [metresPerSecond])
    rwa [abs_of_pos (by norm_num : (0 : ℝ) < 18.52)] at this
  · rwa [abs_of_pos (by norm_num : (0 : ℝ) < 10)] at h6

/-- A period of half a second in binary64 is 120 turns per minute. -/
example : ∃ y, convertFrequencyI fl64 (.num (1 / 2)) .S .RPM = .ok (.num y) ∧ |y - 120| ≤ 19 / 2 ^ 53 * 120 := by
  have hd : Double64 (1 / 2 : ℝ) := ⟨1, -1, by norm_num, by norm_num, by norm_num, by norm_num⟩
  have hx : (2 : ℝ) ^ (-880 : ℤ) ≤ |(1 / 2 : ℝ)| ∧ |(1 / 2 : ℝ)| ≤ (2 : ℝ) ^ (880 : ℤ) := by
    have h1 : (2 : ℝ) ^ (-880 : ℤ) ≤ (2 : ℝ) ^ (-1 : ℤ) := zpow_le_zpow_right₀ (by norm_num) (by norm_num)
    have h2 : (1 : ℝ) ≤ (2 : ℝ) ^ (880 : ℤ) := one_le_zpow₀ (by norm_num) (by norm_num)
    rw [abs_of_pos (by norm_num : (0 : ℝ) < 1 / 2)]
    refine ⟨?_, le_trans (by norm_num) h2⟩
    calc _ ≤ (2 : ℝ) ^ (-1 : ℤ) := h1
      _ = 1 / 2 := by norm_num
  obtain ⟨y, z, h1, -, h3, -⟩ := C184_frequency fl64_ieee hd (Or.inr hx) .S .RPM (Or.inl (by norm_num))
  refine ⟨y, h1, ?_⟩
  have := h3 120 (by norm_num [turns])
  rwa [abs_of_pos (by norm_num : (0 : ℝ) < 120)] at this

end MU
