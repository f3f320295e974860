import Verif.Model.IeeeAngles
import Verif.Lemmas.IeeeBridge
import Verif.Props.RoundedAngles
import Verif.Props.Angles

/-!
# C183: Angles of every size in binary64

The normalisations of angles for every `double`, with the range of binary64: from the smallest positive number to the largest one, infinities and NaN.
-/

set_option linter.unusedSectionVars false

namespace MU

open Spec

variable {fl : ℝ → Option ℝ}

theorem fmod_le_abs {a m : ℝ} (hm : 0 < m) : |fmod a m| ≤ |a| := by
  obtain ⟨h1, h2, -⟩ := fmod_spec (a := a) hm
  rcases le_or_gt 0 a with h | h
  · have h3 : (0 : ℝ) ≤ (⌊a / m⌋ : ℝ) := by exact_mod_cast Int.floor_nonneg.2 (div_nonneg h hm.le)
    rw [abs_of_nonneg (h1 h).1, abs_of_nonneg h]
    unfold fmod
    rw [if_pos (div_nonneg h hm.le)]
    have := mul_nonneg hm.le h3
    linarith
  · have h0 : a / m < 0 := div_neg_of_neg_of_pos h hm
    have h3 : (⌈a / m⌉ : ℝ) ≤ 0 := by exact_mod_cast Int.ceil_le.2 (by simpa using h0.le)
    rw [abs_of_nonpos (h2 h).2, abs_of_neg h]
    unfold fmod
    rw [if_neg (not_le.2 h0)]
    have := mul_nonneg hm.le (neg_nonneg.2 h3)
    linarith

/-- The value of `fmod` on two numbers of binary64 is a number of binary64. -/
theorem double64_fmod {a m : ℝ} (ha : Double64 a) (hm : Double64 m) (h : 0 < m) : Double64 (fmod a m) := by
  obtain ⟨-, -, k, hk⟩ := fmod_spec (a := a) h
  have hlt := fmod_abs (a := a) h
  have hle := fmod_le_abs (a := a) h
  obtain ⟨p, e, hp, he1, he2, rfl⟩ := ha
  obtain ⟨q, f, hq, hf1, hf2, rfl⟩ := hm
  have pos : ∀ e : ℤ, (0 : ℝ) < (2 : ℝ) ^ e := fun e => zpow_pos (by norm_num) _
  have fin : ∀ (N g : ℤ), -1074 ≤ g → g ≤ 971 → fmod ((p : ℝ) * 2 ^ e) ((q : ℝ) * 2 ^ f) = (N : ℝ) * (2 : ℝ) ^ g →
      |fmod ((p : ℝ) * 2 ^ e) ((q : ℝ) * 2 ^ f)| < 2 ^ 53 * (2 : ℝ) ^ g → Double64 (fmod ((p : ℝ) * 2 ^ e) ((q : ℝ) * 2 ^ f)) := by
    intro N g g1 g2 hN hb
    refine ⟨N, g, ?_, g1, g2, hN⟩
    rw [hN, abs_mul, abs_of_pos (pos g)] at hb
    have := lt_of_mul_lt_mul_right hb (pos g).le
    exact_mod_cast this
  rcases le_total f e with hef | hef
  · refine fin (p * 2 ^ (e - f).toNat + k * q) f hf1 hf2 ?_ ?_
    · rw [hk]
      push_cast
      have : (2 : ℝ) ^ e = 2 ^ (e - f).toNat * 2 ^ f := by
        rw [← zpow_natCast, ← zpow_add₀ (by norm_num)]
        congr 1
        omega
      rw [this]
      ring
    · refine (abs_lt.2 hlt).trans_le (mul_le_mul_of_nonneg_right ?_ (pos f).le)
      have : q ≤ 2 ^ 53 := (le_abs_self q).trans hq.le
      exact_mod_cast this
  · refine fin (p + k * (q * 2 ^ (f - e).toNat)) e he1 he2 ?_ ?_
    · rw [hk]
      push_cast
      have : (2 : ℝ) ^ f = 2 ^ (f - e).toNat * 2 ^ e := by
        rw [← zpow_natCast, ← zpow_add₀ (by norm_num)]
        congr 1
        omega
      rw [this]
      ring
    · refine hle.trans_lt ?_
      rw [abs_mul, abs_of_pos (pos e)]
      refine mul_lt_mul_of_pos_right ?_ (pos e)
      exact_mod_cast hp

/-- A finite number and a small one can be added without overflow. -/
theorem double64_add_small {x y : ℝ} (hx : Double64 x) (hy : |y| ≤ 1000) : |x + y| < overflow64 := by
  refine (abs_add_le _ _).trans_lt ?_
  obtain ⟨m, e, hm, h1, h2, rfl⟩ := hx
  have hp : (0 : ℝ) < (2 : ℝ) ^ e := zpow_pos (by norm_num) _
  rw [abs_mul, abs_of_pos hp, overflow64_eq]
  have h3 : |(m : ℝ)| ≤ 2 ^ 53 - 1 := by
    have : |m| ≤ 2 ^ 53 - 1 := by omega
    exact_mod_cast this
  have h4 : (2 : ℝ) ^ e ≤ (2 : ℝ) ^ (971 : ℤ) := zpow_le_zpow_right₀ (by norm_num) h2
  have h5 : (2 : ℝ) ^ (971 : ℤ) = 2 * (2 : ℝ) ^ (970 : ℤ) := by rw [show (971 : ℤ) = 1 + 970 by norm_num, zpow_add₀ (by norm_num)]; norm_num
  have h6 : (1024 : ℝ) ≤ (2 : ℝ) ^ (970 : ℤ) := by
    calc (1024 : ℝ) = (2 : ℝ) ^ (10 : ℤ) := by norm_num
      _ ≤ _ := zpow_le_zpow_right₀ (by norm_num) (by norm_num)
  have h7 : |(m : ℝ)| * (2 : ℝ) ^ e ≤ (2 ^ 53 - 1) * (2 * (2 : ℝ) ^ (970 : ℤ)) := by
    rw [← h5]; exact mul_le_mul h3 h4 hp.le (by norm_num)
  generalize (2 : ℝ) ^ (970 : ℤ) = z at *
  generalize (2 : ℝ) ^ (971 : ℤ) = w at *
  generalize |(m : ℝ)| * (2 : ℝ) ^ e = v at *
  linarith only [h6, h7, hy]

theorem range_add_small {x y : ℝ} (hx : Double64 x) (hy : Double64 y) (h : |y| ≤ 1000) : InRange (x + y) :=
  InRange.add hx hy (double64_add_small hx h)

theorem double64_360 : Double64 360 := by exact_mod_cast double64_int 360 (by norm_num)
theorem double64_180 : Double64 180 := by exact_mod_cast double64_int 180 (by norm_num)
theorem double64_piD : Double64 piD := ⟨884279719003555, -48, by norm_num, by norm_num, by norm_num, by unfold piD; norm_num⟩
theorem double64_2piD : Double64 (2 * piD) := ⟨884279719003555, -47, by norm_num, by norm_num, by norm_num, by unfold piD; norm_num⟩

/-- A reduction modulo `m` followed by one conditional addition. -/
theorem reduce_bridge (h : Ieee fl) {a m : ℝ} (ha : Double64 a) (hm : Double64 m) (h0 : 0 < m) (h1 : m ≤ 1000) :
    (Dbl.fadd fl (.num (fmod a m)) (.num m) = .num (extend fl (fmod a m + m))) ∧ Double64 (extend fl (fmod a m + m)) := by
  have hd := double64_fmod ha hm h0
  have hr := range_add_small hd hm (by rwa [abs_of_pos h0])
  exact ⟨fadd_range h hr, extend_double64 h hr⟩

theorem const_pi (h : Ieee fl) : MU_PI_I fl = piD ∧ MU_PI_R (extend fl) = piD ∧ MU_2PI_I fl = 2 * piD ∧ MU_2PI_R (extend fl) = 2 * piD := by
  have hr := extend_toNearest h
  have e1 := MU_PI_R_eq hr
  have hin : InRange M_PI := by
    refine ⟨?_, Or.inl ?_⟩
    · have := double64_le double64_360
      refine lt_trans ?_ this
      rw [abs_of_pos (by unfold M_PI; norm_num), abs_of_pos (by norm_num)]
      unfold M_PI
      norm_num
    · have : (2 : ℝ) ^ (-1022 : ℤ) ≤ 1 := zpow_le_one_of_nonpos₀ (by norm_num) (by norm_num)
      refine this.trans ?_
      rw [abs_of_pos (by unfold M_PI; norm_num)]
      unfold M_PI
      norm_num
  have e2 : MU_PI_I fl = piD := by
    unfold MU_PI_I
    rw [extend_eq h hin, Option.getD_some]
    exact e1
  refine ⟨e2, e1, ?_, MU_2PI_R_eq hr⟩
  unfold MU_2PI_I
  rw [e2, ieee_double h double64_2piD, Option.getD_some]

theorem bridge_0_360 (h : Ieee fl) {a : ℝ} (ha : Double64 a) :
    normalize_0_360I fl (.num a) = .num (normalize_0_360 (extend fl) a) ∧ Double64 (normalize_0_360 (extend fl) a) := by
  obtain ⟨e1, e2⟩ := reduce_bridge h ha double64_360 (by norm_num) (by norm_num)
  have hd := double64_fmod ha double64_360 (by norm_num)
  unfold normalize_0_360I normalize_0_360 modulo360I modulo360 fmodI
  by_cases hlt : fmod a 360 < 0
  · simp only [Dbl.lt, hlt, decide_true, if_true]
    exact ⟨e1, e2⟩
  · simp only [Dbl.lt, hlt, decide_false, if_false, Bool.false_eq_true]
    exact ⟨trivial, hd⟩

theorem bridge_0_2PI (h : Ieee fl) {a : ℝ} (ha : Double64 a) :
    normalize_0_2PII fl (.num a) = .num (normalize_0_2PIR (extend fl) a) ∧ Double64 (normalize_0_2PIR (extend fl) a) := by
  obtain ⟨-, -, c3, c4⟩ := const_pi h
  have hp := piD_bounds
  have h0 : 0 < 2 * piD := by linarith [hp.1]
  obtain ⟨e1, e2⟩ := reduce_bridge h ha double64_2piD h0 (by linarith [hp.2])
  have hd := double64_fmod ha double64_2piD h0
  unfold normalize_0_2PII normalize_0_2PIR modulo2piI modulo2piR fmodI
  by_cases hlt : fmod a (2 * piD) < 0
  · simp only [Dbl.lt, c3, c4, hlt, decide_true, if_true]
    exact ⟨e1, e2⟩
  · simp only [Dbl.lt, c3, c4, hlt, decide_false, if_false, Bool.false_eq_true]
    exact ⟨trivial, hd⟩

/-- A shift, a reduction, a conditional addition and the shift back. -/
theorem shift_bridge (h : Ieee fl) {a m s : ℝ} (ha : Double64 a) (hm : Double64 m) (hs : Double64 s) (h0 : 0 < m) (h1 : m ≤ 1000) (h2 : |s| ≤ 1000) :
    ∃ b c, Dbl.fadd fl (.num a) (.num s) = .num b ∧ b = extend fl (a + s) ∧ Double64 b ∧ Double64 c ∧
      c = (if fmod b m ≤ 0 then extend fl (fmod b m + m) else fmod b m) ∧
      (if Dbl.le (.num (fmod b m)) (.num 0) then Dbl.fadd fl (.num (fmod b m)) (.num m) else .num (fmod b m)) = .num c ∧
      Dbl.fsub fl (.num c) (.num s) = .num (extend fl (c - s)) ∧ Double64 (extend fl (c - s)) := by
  have hb := range_add_small ha hs h2
  have db := extend_double64 h hb
  obtain ⟨e1, e2⟩ := reduce_bridge h db hm h0 h1
  have hd := double64_fmod db hm h0
  have dc : Double64 (if fmod (extend fl (a + s)) m ≤ 0 then extend fl (fmod (extend fl (a + s)) m + m) else fmod (extend fl (a + s)) m) := by
    split_ifs
    · exact e2
    · exact hd
  have hc : InRange ((if fmod (extend fl (a + s)) m ≤ 0 then extend fl (fmod (extend fl (a + s)) m + m) else fmod (extend fl (a + s)) m) - s) := by
    rw [sub_eq_add_neg]
    exact range_add_small dc (double64_neg hs) (by rwa [abs_neg])
  refine ⟨_, _, fadd_range h hb, rfl, db, dc, rfl, ?_, fsub_range h hc, extend_double64 h hc⟩
  simp only [Dbl.le, decide_eq_true_eq]
  split_ifs
  · exact e1
  · rfl

theorem bridge_180_180 (h : Ieee fl) {a : ℝ} (ha : Double64 a) :
    normalize__180_180I fl (.num a) = .num (normalize__180_180 (extend fl) a) ∧ Double64 (normalize__180_180 (extend fl) a) := by
  obtain ⟨b, c, e1, e2, -, -, e5, e6, e7, e8⟩ := shift_bridge h ha double64_360 double64_180 (by norm_num) (by norm_num) (by norm_num)
  have hc : c = (if modulo360 (extend fl (a + 180)) ≤ 0 then extend fl (modulo360 (extend fl (a + 180)) + 360) else modulo360 (extend fl (a + 180))) := by
    rw [e5, e2]; rfl
  have hv : normalize__180_180 (extend fl) a = extend fl (c - 180) := by rw [hc]; rfl
  rw [hv]
  refine ⟨?_, e8⟩
  unfold normalize__180_180I modulo360I
  rw [e1]
  exact (congrArg (fun d => Dbl.fsub fl d (.num 180)) e6).trans e7

theorem bridge_PI_PI (h : Ieee fl) {a : ℝ} (ha : Double64 a) :
    normalize__PI_PII fl (.num a) = .num (normalize__PI_PIR (extend fl) a) ∧ Double64 (normalize__PI_PIR (extend fl) a) := by
  obtain ⟨c1, c2, c3, c4⟩ := const_pi h
  have hp := piD_bounds
  have h0 : 0 < 2 * piD := by linarith [hp.1]
  obtain ⟨b, c, e1, e2, -, -, e5, e6, e7, e8⟩ := shift_bridge h ha double64_2piD double64_piD h0 (by linarith [hp.2])
    (by rw [abs_of_pos (by linarith)]; linarith [hp.2])
  have hv : normalize__PI_PIR (extend fl) a = extend fl (c - piD) := by
    simp only [normalize__PI_PIR, modulo2piR, c2, c4]
    rw [e5, e2]
  rw [hv]
  refine ⟨?_, e8⟩
  unfold normalize__PI_PII modulo2piI
  rw [c1, c3, e1]
  exact (congrArg (fun d => Dbl.fsub fl d (.num piD)) e6).trans e7

/-- C183: `modulo360` and `modulo2pi` are exact for every finite number: the result is a number of binary64 of the sign of the argument, smaller than
the modulus, and differs from the argument by a whole number of moduli. -/
theorem C183_modulo (h : Ieee fl) {a : ℝ} (ha : Double64 a) :
    (∃ r, modulo360I (.num a) = .num r ∧ Double64 r ∧ |r| < 360 ∧ 0 ≤ r * a ∧ ∃ n : ℤ, r = a + n * 360) ∧
    ∃ r, modulo2piI fl (.num a) = .num r ∧ Double64 r ∧ |r| < 2 * piD ∧ 0 ≤ r * a ∧ ∃ n : ℤ, r = a + n * (2 * piD) := by
  have key : ∀ m : ℝ, Double64 m → 0 < m → ∃ r, fmodI (.num a) m = .num r ∧ Double64 r ∧ |r| < m ∧ 0 ≤ r * a ∧ ∃ n : ℤ, r = a + n * m := by
    intro m hm h0
    obtain ⟨h1, h2, n, hn⟩ := fmod_spec (a := a) h0
    refine ⟨_, rfl, double64_fmod ha hm h0, abs_lt.2 (fmod_abs h0), ?_, n, hn⟩
    rcases le_or_gt 0 a with h | h
    · exact mul_nonneg (h1 h).1 h
    · exact mul_nonneg_of_nonpos_of_nonpos (h2 h).2 h.le
  obtain ⟨-, -, c3, -⟩ := const_pi h
  have hp := piD_bounds
  refine ⟨key 360 double64_360 (by norm_num), ?_⟩
  unfold modulo2piI
  rw [c3]
  exact key _ double64_2piD (by linarith [hp.1])

/-- C183: `Normalize_0_360` and `Normalize__180_180` of every finite number. -/
theorem C183_degrees (h : Ieee fl) {a : ℝ} (ha : Double64 a) :
    (∃ r, normalize_0_360I fl (.num a) = .num r ∧ Double64 r ∧ 0 ≤ r ∧ r ≤ 360 ∧ (0 ≤ a → r < 360) ∧ ∃ n : ℤ, |r - (a + n * 360)| ≤ 360 / 2 ^ 53) ∧
    ∃ r, normalize__180_180I fl (.num a) = .num r ∧ Double64 r ∧ -180 < r ∧ r ≤ 180 ∧ ∃ n : ℤ, |r - (a + n * 360)| ≤ (|a| + 720) / 2 ^ 53 := by
  have hr := extend_toNearest h
  obtain ⟨e1, d1⟩ := bridge_0_360 h ha
  obtain ⟨e2, d2⟩ := bridge_180_180 h ha
  obtain ⟨p1, p2, p3, p4⟩ := C73_0_360_partial hr a
  obtain ⟨q1, q2⟩ := C73_180_180 hr (double64_double ha)
  exact ⟨⟨_, e1, d1, p1, p2, p3, p4⟩, _, e2, d2, q1, q2, C73_180_180_same hr a⟩

/-- C183: `Normalize_0_2PI` and `Normalize__PI_PI` of every finite number. -/
theorem C183_radians (h : Ieee fl) {a : ℝ} (ha : Double64 a) :
    (∃ r, normalize_0_2PII fl (.num a) = .num r ∧ Double64 r ∧ 0 ≤ r ∧ r < 2 * Real.pi ∧
      ∃ n : ℤ, |r - (a + n * (2 * Real.pi))| ≤ (|a| + 26) / 2 ^ 54) ∧
    ∃ r, normalize__PI_PII fl (.num a) = .num r ∧ Double64 r ∧ -Real.pi < r ∧ r ≤ Real.pi ∧
      (∃ n : ℤ, |r - (a + n * (2 * Real.pi))| ≤ (|a| + 10) / 2 ^ 52) ∧ normalize__PI_PII fl (.num r) = .num r := by
  have hr := extend_toNearest h
  obtain ⟨e1, d1⟩ := bridge_0_2PI h ha
  obtain ⟨e2, d2⟩ := bridge_PI_PI h ha
  obtain ⟨p1, p2, p3, -⟩ := C167_0_2PI hr a
  obtain ⟨q1, q2, q3, -⟩ := C167_PI_PI hr (double64_double ha)
  refine ⟨⟨_, e1, d1, p1, p2, p3⟩, _, e2, d2, q1, q2, q3, ?_⟩
  rw [(bridge_PI_PI h d2).1, C167_PI_PI_idempotent hr (double64_double ha)]

/-- C183: infinities and NaN give NaN. -/
theorem C183_not_finite (fl : ℝ → Option ℝ) {a : Dbl ℝ} (ha : ∀ x, a ≠ .num x) : modulo360I a = .nan ∧ modulo2piI fl a = .nan ∧
    normalize_0_360I fl a = .nan ∧ normalize__180_180I fl a = .nan ∧ normalize_0_2PII fl a = .nan ∧ normalize__PI_PII fl a = .nan := by
  cases a with
  | num x => exact absurd rfl (ha x)
  | pinf => exact ⟨rfl, rfl, rfl, rfl, rfl, rfl⟩
  | ninf => exact ⟨rfl, rfl, rfl, rfl, rfl, rfl⟩
  | nan => exact ⟨rfl, rfl, rfl, rfl, rfl, rfl⟩

/-- Concrete cases: the largest finite number and the negative number nearest to zero. -/
example : ∃ fl, Ieee fl ∧ Double64 (9007199254740991 * 2 ^ (971 : ℤ)) ∧ Double64 (-(2 : ℝ) ^ (-1074 : ℤ)) ∧
    (∃ r, normalize__180_180I fl (.num (9007199254740991 * 2 ^ (971 : ℤ))) = .num r ∧ -180 < r ∧ r ≤ 180) ∧
    ∃ r, normalize_0_2PII fl (.num (-(2 : ℝ) ^ (-1074 : ℤ))) = .num r ∧ 0 ≤ r ∧ r < 2 * Real.pi := by
  have d1 : Double64 (9007199254740991 * 2 ^ (971 : ℤ)) := ⟨9007199254740991, 971, by norm_num, by norm_num, by norm_num, by push_cast; rfl⟩
  have d2 : Double64 (-(2 : ℝ) ^ (-1074 : ℤ)) := double64_neg (double64_pow le_rfl (by norm_num))
  obtain ⟨-, r, e1, -, e2, e3, -⟩ := C183_degrees fl64_ieee d1
  obtain ⟨⟨s, f1, -, f2, f3, -⟩, -⟩ := C183_radians fl64_ieee d2
  exact ⟨fl64, fl64_ieee, d1, d2, ⟨r, e1, e2, e3⟩, s, f1, f2, f3⟩

end MU
