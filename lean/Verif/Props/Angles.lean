import Verif.Lemmas.Angles
import Mathlib.Analysis.Real.Pi.Bounds

/-!
# Angles: C47, C48, C73

C47 and C48 are about exact arithmetic (`rnd = id`), C73 about the arithmetic of doubles.
-/

namespace MU

/-- **C47**: `Normalize_0_360` returns the only value of `[0, 360[` that is the same angle, and is idempotent. -/
theorem C47_0_360 (a : ℝ) :
    0 ≤ normalize_0_360 id a ∧ normalize_0_360 id a < 360 ∧ Spec.SameAngle 360 a (normalize_0_360 id a) ∧
    (∀ r, 0 ≤ r → r < 360 → Spec.SameAngle 360 a r → r = normalize_0_360 id a) ∧
    normalize_0_360 id (normalize_0_360 id a) = normalize_0_360 id a := by
  have h : ∀ a, 0 ≤ normalize_0_360 id a ∧ normalize_0_360 id a < 360 ∧ Spec.SameAngle 360 a (normalize_0_360 id a) :=
    fun a => normalize_up (turn := 360) (a := a) (by norm_num)
  have hu : ∀ a r, 0 ≤ r → r < 360 → Spec.SameAngle 360 a r → r = normalize_0_360 id a := fun a r h0 h1 hs =>
    sameAngle_unique_Ico (lo := 0) (by norm_num) hs (h a).2.2 ⟨h0, by linarith⟩ ⟨(h a).1, by linarith [(h a).2.1]⟩
  exact ⟨(h a).1, (h a).2.1, (h a).2.2, hu a, (hu _ _ (h a).1 (h a).2.1 ⟨0, by simp⟩).symm⟩

/-- **C47**: `Normalize_0_2PI`, whose turn is the constant `MU_2PI`. -/
theorem C47_0_2PI (a : ℝ) :
    0 ≤ normalize_0_2PI id a ∧ normalize_0_2PI id a < MU_2PI ∧ Spec.SameAngle MU_2PI a (normalize_0_2PI id a) ∧
    (∀ r, 0 ≤ r → r < MU_2PI → Spec.SameAngle MU_2PI a r → r = normalize_0_2PI id a) ∧
    normalize_0_2PI id (normalize_0_2PI id a) = normalize_0_2PI id a := by
  have hp : 0 < MU_2PI := by unfold MU_2PI; linarith [M_PI_pos]
  have h : ∀ a, 0 ≤ normalize_0_2PI id a ∧ normalize_0_2PI id a < MU_2PI ∧ Spec.SameAngle MU_2PI a (normalize_0_2PI id a) :=
    fun a => normalize_up (turn := MU_2PI) (a := a) hp
  have hu : ∀ a r, 0 ≤ r → r < MU_2PI → Spec.SameAngle MU_2PI a r → r = normalize_0_2PI id a := fun a r h0 h1 hs =>
    sameAngle_unique_Ico (lo := 0) hp hs (h a).2.2 ⟨h0, by linarith⟩ ⟨(h a).1, by linarith [(h a).2.1]⟩
  exact ⟨(h a).1, (h a).2.1, (h a).2.2, hu a, (hu _ _ (h a).1 (h a).2.1 ⟨0, by simp⟩).symm⟩

/-- **C47**: `Normalize__180_180` returns the only value of `]-180, 180]` that is the same angle, and is idempotent. -/
theorem C47_180_180 (a : ℝ) :
    -180 < normalize__180_180 id a ∧ normalize__180_180 id a ≤ 180 ∧ Spec.SameAngle 360 a (normalize__180_180 id a) ∧
    (∀ r, -180 < r → r ≤ 180 → Spec.SameAngle 360 a r → r = normalize__180_180 id a) ∧
    normalize__180_180 id (normalize__180_180 id a) = normalize__180_180 id a := by
  have h : ∀ a, -180 < normalize__180_180 id a ∧ normalize__180_180 id a ≤ 180 ∧ Spec.SameAngle 360 a (normalize__180_180 id a) := by
    intro a
    have := normalize_sym (half := 180) (a := a) (by norm_num)
    rw [show (2 : ℝ) * 180 = 360 by norm_num] at this
    exact ⟨this.2.1, this.1, this.2.2⟩
  have hu : ∀ a r, -180 < r → r ≤ 180 → Spec.SameAngle 360 a r → r = normalize__180_180 id a := fun a r h0 h1 hs =>
    sameAngle_unique_Ioc (lo := -180) (by norm_num) hs (h a).2.2 ⟨h0, by linarith⟩ ⟨(h a).1, by linarith [(h a).2.1]⟩
  exact ⟨(h a).1, (h a).2.1, (h a).2.2, hu a, (hu _ _ (h a).1 (h a).2.1 ⟨0, by simp⟩).symm⟩

/-- **C47**: `Normalize__PI_PI`, whose half turn is the constant `M_PI`. -/
theorem C47_PI_PI (a : ℝ) :
    -M_PI < normalize__PI_PI id a ∧ normalize__PI_PI id a ≤ M_PI ∧ Spec.SameAngle MU_2PI a (normalize__PI_PI id a) ∧
    (∀ r, -M_PI < r → r ≤ M_PI → Spec.SameAngle MU_2PI a r → r = normalize__PI_PI id a) ∧
    normalize__PI_PI id (normalize__PI_PI id a) = normalize__PI_PI id a := by
  have hp := M_PI_pos
  have hp2 : 0 < MU_2PI := by unfold MU_2PI; linarith [M_PI_pos]
  have h : ∀ a, -M_PI < normalize__PI_PI id a ∧ normalize__PI_PI id a ≤ M_PI ∧ Spec.SameAngle MU_2PI a (normalize__PI_PI id a) := by
    intro a
    have := normalize_sym (half := M_PI) (a := a) hp
    exact ⟨this.2.1, this.1, this.2.2⟩
  have hu : ∀ a r, -M_PI < r → r ≤ M_PI → Spec.SameAngle MU_2PI a r → r = normalize__PI_PI id a := fun a r h0 h1 hs =>
    sameAngle_unique_Ioc (lo := -M_PI) hp2 hs (h a).2.2 ⟨h0, by unfold MU_2PI; linarith⟩ ⟨(h a).1, by unfold MU_2PI; linarith [(h a).2.1]⟩
  exact ⟨(h a).1, (h a).2.1, (h a).2.2, hu a, (hu _ _ (h a).1 (h a).2.1 ⟨0, by simp⟩).symm⟩

/-- **C47**: the constant `M_PI` is `π` within `1e-20`, so `n` of its turns are `n` true turns within `2e-20 * |n|`. -/
theorem C47_true_turn {a r : ℝ} (h : Spec.SameAngle MU_2PI a r) : ∃ n : ℤ, |r - (a + n * (2 * Real.pi))| ≤ 2 / 10 ^ 20 * |(n : ℝ)| := by
  obtain ⟨n, rfl⟩ := h
  refine ⟨n, ?_⟩
  have h1 := Real.pi_gt_d20
  have h2 := Real.pi_lt_d20
  rw [show a + n * MU_2PI - (a + n * (2 * Real.pi)) = (MU_2PI - 2 * Real.pi) * n by ring, abs_mul]
  refine mul_le_mul_of_nonneg_right ?_ (abs_nonneg _)
  unfold MU_2PI M_PI
  rw [abs_le]
  constructor <;> linarith

-- An angle of 1.5 turns backwards.
example : normalize_0_360 id (-540) = 180 := by
  refine ((C47_0_360 (-540)).2.2.2.1 180 (by norm_num) (by norm_num) ⟨2, by norm_num⟩).symm

/-- **C48** fails: `modulo360(-90)` is `-90`, not in `[0, 360[`; `modulo2pi(-1)` is `-1`. -/
theorem C48_refuted : (¬ 0 ≤ modulo360 (-90)) ∧ ¬ 0 ≤ modulo2pi (-1) := by
  constructor
  · unfold modulo360 fmod
    rw [if_neg (by norm_num), show ⌈(-90 : ℝ) / 360⌉ = 0 by rw [Int.ceil_eq_iff]; norm_num]
    norm_num
  · unfold modulo2pi fmod
    have : MU_2PI = 6.28318530717958647692 := by unfold MU_2PI M_PI; norm_num
    rw [this, if_neg (by norm_num), show ⌈(-1 : ℝ) / 6.28318530717958647692⌉ = 0 by rw [Int.ceil_eq_iff]; norm_num]
    norm_num

/-- **C48**, what holds: the results are the same angle, in `[0, turn[` for a non-negative angle and in `]-turn, 0]` for a negative one. -/
theorem C48_sign_partial (a : ℝ) :
    (Spec.SameAngle 360 a (modulo360 a) ∧ (0 ≤ a → 0 ≤ modulo360 a ∧ modulo360 a < 360) ∧ (a < 0 → -360 < modulo360 a ∧ modulo360 a ≤ 0)) ∧
    (Spec.SameAngle MU_2PI a (modulo2pi a) ∧ (0 ≤ a → 0 ≤ modulo2pi a ∧ modulo2pi a < MU_2PI) ∧ (a < 0 → -MU_2PI < modulo2pi a ∧ modulo2pi a ≤ 0)) := by
  have hp : 0 < MU_2PI := by unfold MU_2PI; linarith [M_PI_pos]
  have h1 := fmod_spec (a := a) (m := 360) (by norm_num)
  have h2 := fmod_spec (a := a) hp
  exact ⟨⟨h1.2.2, h1.1, h1.2.1⟩, h2.2.2, h2.1, h2.2.1⟩

/-- **C48**, exactly: the result lies in the documented interval for the non-negative angles and the multiples of a turn, and for no other angle. -/
theorem C48_iff_partial (a : ℝ) : ((0 ≤ modulo360 a ∧ modulo360 a < 360) ↔ (0 ≤ a ∨ ∃ n : ℤ, a = n * 360)) ∧
    ((0 ≤ modulo2pi a ∧ modulo2pi a < MU_2PI) ↔ (0 ≤ a ∨ ∃ n : ℤ, a = n * MU_2PI)) := by
  have key : ∀ m : ℝ, 0 < m → ((0 ≤ fmod a m ∧ fmod a m < m) ↔ (0 ≤ a ∨ ∃ n : ℤ, a = n * m)) := by
    intro m hm
    obtain ⟨h1, h2, k, hk⟩ := fmod_spec (a := a) hm
    constructor
    · rintro ⟨h3, -⟩
      by_cases h0 : 0 ≤ a
      · exact .inl h0
      · have := (h2 (not_le.1 h0)).2
        exact .inr ⟨-k, by push_cast; linarith⟩
    · rintro (h0 | ⟨n, rfl⟩)
      · exact h1 h0
      · by_cases h0 : 0 ≤ (n : ℝ) * m
        · exact h1 h0
        · obtain ⟨h3, h4⟩ := h2 (not_le.1 h0)
          have e : fmod (n * m) m = ((n + k : ℤ) : ℝ) * m := by rw [hk]; push_cast; ring
          have h5 : n + k = 0 := by
            rw [e] at h3 h4
            have h6 : (-1 : ℝ) < ((n + k : ℤ) : ℝ) := by
              by_contra hc
              nlinarith
            have h7 : ((n + k : ℤ) : ℝ) ≤ 0 := by
              by_contra hc
              nlinarith
            have h6' : -1 < n + k := by exact_mod_cast h6
            have h7' : n + k ≤ 0 := by exact_mod_cast h7
            omega
          rw [e, h5]
          constructor <;> simp [hm]
  exact ⟨key 360 (by norm_num), key MU_2PI (by unfold MU_2PI; linarith [M_PI_pos])⟩

/-- **C73** fails for `Normalize_0_360`: however ties are broken, in double arithmetic the angle `-2^-60` is normalised to `360`. -/
theorem C73_refuted {rnd : ℝ → ℝ} (h : Spec.ToNearest rnd) : Spec.Double (-(1 / 2 ^ 60)) ∧ normalize_0_360 rnd (-(1 / 2 ^ 60)) = 360 := by
  constructor
  · exact ⟨-1, -60, by norm_num, by norm_num⟩
  have hm : modulo360 (-(1 / 2 ^ 60)) = -(1 / 2 ^ 60) := by
    unfold modulo360 fmod
    rw [if_neg (by norm_num), show ⌈(-(1 / 2 ^ 60) : ℝ) / 360⌉ = 0 by rw [Int.ceil_eq_iff]; norm_num]
    norm_num
  unfold normalize_0_360
  simp only [hm]
  rw [if_pos (by norm_num)]
  obtain ⟨hd, hn⟩ := h (-(1 / 2 ^ 60) + 360)
  have h360 : Spec.Double 360 := by
    have := double_int 360 (by norm_num)
    exact_mod_cast this
  have hb := hn 360 h360
  rw [show (-(1 / 2 ^ 60) + 360 - 360 : ℝ) = -(1 / 2 ^ 60) by ring, abs_neg, abs_of_pos (show (0 : ℝ) < 1 / 2 ^ 60 by norm_num)] at hb
  obtain ⟨b1, b2⟩ := abs_le.1 hb
  have hlarge : 128 ≤ |rnd (-(1 / 2 ^ 60) + 360)| := by
    refine le_trans ?_ (le_abs_self _)
    norm_num at b2 ⊢
    linarith
  obtain ⟨n, hn'⟩ := double_multiple hd hlarge
  have hn1 : n = 360 * 2 ^ 45 := by
    have l1 : ((360 * 2 ^ 45 - 1 : ℤ) : ℝ) < n := by
      rw [← hn']
      push_cast
      norm_num at b2 ⊢
      linarith
    have l2 : (n : ℝ) < ((360 * 2 ^ 45 + 1 : ℤ) : ℝ) := by
      rw [← hn']
      push_cast
      norm_num at b1 ⊢
      linarith
    have l1' : 360 * 2 ^ 45 - 1 < n := by exact_mod_cast l1
    have l2' : n < 360 * 2 ^ 45 + 1 := by exact_mod_cast l2
    omega
  rw [hn1] at hn'
  push_cast at hn'
  have : (2 : ℝ) ^ 45 ≠ 0 := by positivity
  exact mul_right_cancel₀ this (hn'.trans (by norm_num))

-- Rounding to nearest exists.
example : ∃ rnd, Spec.ToNearest rnd := ⟨_, roundNearest_toNearest⟩

/-- **C73**, what holds for `Normalize_0_360`: the closed interval, and the same angle up to a relative rounding of one turn. The half-open interval
holds for the non-negative angles. -/
theorem C73_0_360_partial {rnd : ℝ → ℝ} (h : Spec.ToNearest rnd) (a : ℝ) :
    0 ≤ normalize_0_360 rnd a ∧ normalize_0_360 rnd a ≤ 360 ∧ (0 ≤ a → normalize_0_360 rnd a < 360) ∧
    ∃ n : ℤ, |normalize_0_360 rnd a - (a + n * 360)| ≤ 360 / 2 ^ 53 := by
  have hm := fmod_spec (a := a) (m := 360) (by norm_num)
  obtain ⟨n, hn⟩ := hm.2.2
  have hab := fmod_abs (a := a) (m := 360) (by norm_num)
  have h360 : Spec.Double 360 := by
    have := double_int 360 (by norm_num)
    exact_mod_cast this
  unfold normalize_0_360 modulo360
  by_cases hneg : fmod a 360 < 0
  · simp only [if_pos hneg]
    refine ⟨toNearest_ge h double_zero (by linarith), toNearest_le h h360 (by linarith), fun h0 => absurd (hm.1 h0).1 (not_le.2 hneg), n + 1, ?_⟩
    have he := toNearest_err h (fmod a 360 + 360)
    rw [abs_sub_comm]
    have e : a + ((n + 1 : ℤ) : ℝ) * 360 = fmod a 360 + 360 := by
      rw [hn]; push_cast; ring
    rw [e]
    refine he.trans (div_le_div_of_nonneg_right ?_ (by positivity))
    rw [abs_of_nonneg (by linarith)]
    linarith
  · simp only [if_neg hneg]
    refine ⟨not_lt.1 hneg, hab.2.le, fun _ => hab.2, n, ?_⟩
    rw [hn, sub_self, abs_zero]
    positivity

/-- The doubles of magnitude at least 256 are multiples of `2^-44`. -/
theorem double_multiple256 {y : ℝ} (h : Spec.Double y) (hy : 256 ≤ |y|) : ∃ n : ℤ, y * 2 ^ 44 = n := by
  obtain ⟨m, e, hm, rfl⟩ := h
  obtain ⟨n, hn⟩ := double_multiple (y := m * (2 : ℝ) ^ (e - 1)) ⟨m, e - 1, hm, rfl⟩ (by
    rw [zpow_sub_one₀ (by norm_num), ← mul_assoc, abs_mul, abs_of_pos (show (0 : ℝ) < 2⁻¹ by norm_num)]
    linarith)
  refine ⟨n, ?_⟩
  rw [← hn, zpow_sub_one₀ (by norm_num)]
  ring

/-- **C73**, exactly when `Normalize_0_360` leaves the half-open interval: for the negative angles less than `2^-45` below a multiple of 360 it returns 360,
and it does so for no other angle, but possibly those at exactly `2^-45` below, which depend on how ties are broken. -/
theorem C73_0_360_iff_partial {rnd : ℝ → ℝ} (h : Spec.ToNearest rnd) (a : ℝ) :
    ((∃ n : ℤ, n ≤ 0 ∧ n * 360 - 1 / 2 ^ 45 < a ∧ a < n * 360) → normalize_0_360 rnd a = 360) ∧
    (normalize_0_360 rnd a = 360 → ∃ n : ℤ, n ≤ 0 ∧ n * 360 - 1 / 2 ^ 45 ≤ a ∧ a < n * 360) := by
  have h360 : Spec.Double 360 := by
    have := double_int 360 (by norm_num)
    exact_mod_cast this
  obtain ⟨h1, h2, k, hk⟩ := fmod_spec (a := a) (m := 360) (by norm_num)
  have hab := fmod_abs (a := a) (m := 360) (by norm_num)
  constructor
  · rintro ⟨n, hn, hlo, hhi⟩
    have ha : a < 0 := by
      have : (n : ℝ) ≤ 0 := by exact_mod_cast hn
      linarith
    obtain ⟨h3, h4⟩ := h2 ha
    have hnk : n = -k := by
      have e1 : (-1 : ℝ) < ((n + k : ℤ) : ℝ) := by
        push_cast
        by_contra hc
        norm_num at hlo
        linarith
      have e2 : ((n + k : ℤ) : ℝ) < 1 := by
        push_cast
        by_contra hc
        norm_num at hlo
        linarith
      have e1' : -1 < n + k := by exact_mod_cast e1
      have e2' : n + k < 1 := by exact_mod_cast e2
      omega
    have hkn : (k : ℝ) = -(n : ℝ) := by rw [hnk]; push_cast; ring
    have hr : fmod a 360 = a - n * 360 := by rw [hk, hkn]; ring
    unfold normalize_0_360 modulo360
    simp only [hr]
    rw [if_pos (by linarith)]
    obtain ⟨hd, hn⟩ := h (a - n * 360 + 360)
    have hb := hn 360 h360
    have e0 : |a - n * 360 + 360 - 360| < 1 / 2 ^ 45 := by
      rw [abs_lt]
      constructor <;> linarith
    obtain ⟨b1, b2⟩ := abs_lt.1 (lt_of_le_of_lt hb e0)
    have hlarge : 256 ≤ |rnd (a - n * 360 + 360)| := by
      refine le_trans ?_ (le_abs_self _)
      norm_num at b2 hlo ⊢
      linarith
    have hle : rnd (a - n * 360 + 360) ≤ 360 := toNearest_le h h360 (by linarith)
    obtain ⟨q, hq⟩ := double_multiple256 hd hlarge
    have hq1 : q = 360 * 2 ^ 44 := by
      have l1 : ((360 * 2 ^ 44 - 1 : ℤ) : ℝ) < q := by
        rw [← hq]
        push_cast
        norm_num at b2 hlo ⊢
        linarith
      have l2 : (q : ℝ) < ((360 * 2 ^ 44 + 1 : ℤ) : ℝ) := by
        rw [← hq]
        push_cast
        norm_num
        linarith
      have l1' : 360 * 2 ^ 44 - 1 < q := by exact_mod_cast l1
      have l2' : q < 360 * 2 ^ 44 + 1 := by exact_mod_cast l2
      omega
    rw [hq1] at hq
    push_cast at hq
    have : (2 : ℝ) ^ 44 ≠ 0 := by positivity
    exact mul_right_cancel₀ this (hq.trans (by norm_num))
  · intro he
    unfold normalize_0_360 modulo360 at he
    by_cases hneg : fmod a 360 < 0
    · simp only [if_pos hneg] at he
      have ha : a < 0 := by
        by_contra hc
        exact absurd (h1 (not_lt.1 hc)).1 (not_le.2 hneg)
      refine ⟨-k, ?_, ?_, ?_⟩
      · by_contra hc
        have : (1 : ℝ) ≤ ((-k : ℤ) : ℝ) := by exact_mod_cast (by omega : (1 : ℤ) ≤ -k)
        push_cast at this
        have := hab.1
        linarith
      · have hd : Spec.Double (360 - 1 / 2 ^ 44) := ⟨360 * 2 ^ 44 - 1, -44, by norm_num, by norm_num⟩
        have hb := (h (fmod a 360 + 360)).2 _ hd
        rw [he] at hb
        push_cast
        by_contra hc
        have hlt : fmod a 360 < -(1 / 2 ^ 45) := by
          rw [hk]
          linarith
        rw [show fmod a 360 + 360 - 360 = fmod a 360 by ring, abs_of_neg hneg, le_abs] at hb
        rcases hb with hb | hb
        · norm_num at hb hlt
          linarith
        · norm_num at hb hlt
          linarith
      · push_cast
        rw [hk] at hneg
        linarith
    · simp only [if_neg hneg] at he
      have := hab.2
      linarith

/-- **C73** for `Normalize__180_180`: the result is the same angle, up to the roundings of the two additions and of the subtraction. -/
theorem C73_180_180_same {rnd : ℝ → ℝ} (h : Spec.ToNearest rnd) (a : ℝ) :
    ∃ n : ℤ, |normalize__180_180 rnd a - (a + n * 360)| ≤ (|a| + 720) / 2 ^ 53 := by
  set x := rnd (a + 180) with hx
  obtain ⟨n, hn⟩ := (fmod_spec (a := x) (m := 360) (by norm_num)).2.2
  have hab := fmod_abs (a := x) (m := 360) (by norm_num)
  have e1 := toNearest_err h (a + 180)
  rw [← hx] at e1
  have e1' : |a + 180| ≤ |a| + 180 := (abs_add_le _ _).trans (by norm_num)
  have last : ∀ y : ℝ, 0 ≤ y → y ≤ 360 → |y - 180 - rnd (y - 180)| ≤ 180 / 2 ^ 53 := by
    intro y h1 h2
    refine (toNearest_err h (y - 180)).trans ?_
    have : |y - 180| ≤ 180 := abs_le.2 ⟨by linarith, by linarith⟩
    gcongr
  have d360 : Spec.Double 360 := by
    have := double_int 360 (by norm_num)
    exact_mod_cast this
  unfold normalize__180_180 modulo360
  rw [← hx]
  have b1 := abs_le.1 e1
  by_cases hneg : fmod x 360 ≤ 0
  · simp only [if_pos hneg]
    have h2 := toNearest_err h (fmod x 360 + 360)
    have h2' : |fmod x 360 + 360| ≤ 360 := abs_le.2 ⟨by linarith [hab.1], by linarith⟩
    have h3 := last (rnd (fmod x 360 + 360)) (toNearest_ge h double_zero (by linarith [hab.1])) (toNearest_le h d360 (by linarith))
    refine ⟨n + 1, ?_⟩
    have b2 := abs_le.1 (h2.trans (div_le_div_of_nonneg_right h2' (by positivity)))
    have b3 := abs_le.1 h3
    have b4 : |a + 180| / 2 ^ 53 ≤ (|a| + 180) / 2 ^ 53 := div_le_div_of_nonneg_right e1' (by positivity)
    rw [abs_le]
    push_cast
    constructor <;> linarith [b1.1, b1.2, b2.1, b2.2, b3.1, b3.2]
  · simp only [if_neg hneg]
    have h3 := last (fmod x 360) (not_le.1 hneg).le hab.2.le
    refine ⟨n, ?_⟩
    have b3 := abs_le.1 h3
    have b4 : |a + 180| / 2 ^ 53 ≤ (|a| + 180) / 2 ^ 53 := div_le_div_of_nonneg_right e1' (by positivity)
    rw [abs_le]
    have := abs_nonneg a
    constructor <;> linarith [b1.1, b1.2, b3.1, b3.2]

example : ∃ n : ℤ, |normalize__180_180 roundNearest 1000 - (1000 + n * 360)| ≤ 1720 / 2 ^ 53 := by
  obtain ⟨n, hn⟩ := C73_180_180_same roundNearest_toNearest 1000
  exact ⟨n, hn.trans (by norm_num)⟩

/-- **C73** holds for `Normalize__180_180`: in double arithmetic its result is in `]-180, 180]` for every double. -/
theorem C73_180_180 {rnd : ℝ → ℝ} (h : Spec.ToNearest rnd) {a : ℝ} (ha : Spec.Double a) :
    -180 < normalize__180_180 rnd a ∧ normalize__180_180 rnd a ≤ 180 := by
  have d360 : Spec.Double 360 := by
    have := double_int 360 (by norm_num)
    exact_mod_cast this
  have d180 : Spec.Double 180 := by
    have := double_int 180 (by norm_num)
    exact_mod_cast this
  have dlast : Spec.Double (1 / 2 ^ 45) := ⟨1, -45, by norm_num, by norm_num⟩
  have dlow : Spec.Double (1 / 2 ^ 45 - 180) := ⟨1 - 180 * 2 ^ 45, -45, by norm_num, by norm_num⟩
  set x := rnd (a + 180) with hx
  have hm := fmod_spec (a := x) (m := 360) (by norm_num)
  have hab := fmod_abs (a := x) (m := 360) (by norm_num)
  -- the last step
  have last : ∀ y : ℝ, 1 / 2 ^ 45 ≤ y → y ≤ 360 → -180 < rnd (y - 180) ∧ rnd (y - 180) ≤ 180 := by
    intro y h1 h2
    refine ⟨lt_of_lt_of_le ?_ (toNearest_ge h dlow (by linarith)), toNearest_le h d180 (by linarith)⟩
    norm_num
  -- multiples of the last bit
  have big : 128 ≤ |x| → ∀ k : ℤ, 0 < fmod x 360 + k * 360 → 1 / 2 ^ 45 ≤ fmod x 360 + k * 360 := by
    intro hb k hpos
    obtain ⟨m, hm'⟩ := double_multiple (h (a + 180)).1 hb
    obtain ⟨n, hn⟩ := hm.2.2
    have e : (fmod x 360 + k * 360) * 2 ^ 45 = ((m + (n + k) * 360 * 2 ^ 45 : ℤ) : ℝ) := by
      rw [hn]
      push_cast
      rw [← hm']
      ring
    have : (0 : ℝ) < ((m + (n + k) * 360 * 2 ^ 45 : ℤ) : ℝ) := by
      rw [← e]
      positivity
    have h1 : 1 ≤ m + (n + k) * 360 * 2 ^ 45 := by
      have : (0 : ℤ) < m + (n + k) * 360 * 2 ^ 45 := by exact_mod_cast this
      omega
    have h2 : (1 : ℝ) ≤ ((m + (n + k) * 360 * 2 ^ 45 : ℤ) : ℝ) := by exact_mod_cast h1
    rw [← e] at h2
    rw [div_le_iff₀ (by positivity)]
    exact h2
  unfold normalize__180_180 modulo360
  rw [← hx]
  by_cases hneg : fmod x 360 ≤ 0
  · simp only [if_pos hneg]
    refine last _ ?_ (toNearest_le h d360 (by linarith))
    refine toNearest_ge h dlast ?_
    by_cases hb : 128 ≤ |x|
    · have := big hb 1 (by push_cast; linarith)
      push_cast at this
      linarith
    · obtain ⟨b1, b2⟩ := abs_lt.1 (not_le.1 hb)
      rcases le_or_gt 0 x with h0 | h0
      · have := (hm.1 h0).1
        have : (1 : ℝ) / 2 ^ 45 ≤ 1 := by norm_num
        linarith
      · have e : fmod x 360 = x := by
          unfold fmod
          rw [if_neg (by rw [not_le]; exact div_neg_of_neg_of_pos h0 (by norm_num)),
            show ⌈x / 360⌉ = 0 by rw [Int.ceil_eq_iff]; push_cast; constructor <;> linarith]
          simp
        rw [e]
        have : (1 : ℝ) / 2 ^ 45 ≤ 1 := by norm_num
        linarith
  · simp only [if_neg hneg]
    refine last _ ?_ hab.2.le
    have hpos := not_le.1 hneg
    by_cases hb : 128 ≤ |x|
    · have := big hb 0 (by push_cast; linarith)
      push_cast at this
      linarith
    · obtain ⟨b1, b2⟩ := abs_lt.1 (not_le.1 hb)
      have h0 : 0 ≤ x := by
        by_contra hc
        exact absurd (hm.2.1 (not_le.1 hc)).2 hneg
      have e : fmod x 360 = x := by
        unfold fmod
        rw [if_pos (div_nonneg h0 (by norm_num)),
          show ⌊x / 360⌋ = 0 by rw [Int.floor_eq_iff]; push_cast; constructor <;> [positivity; linarith]]
        simp
      rw [e] at hpos ⊢
      -- `a + 180` is at least one unit of the last bit of `a`
      by_contra hc
      have hup : a + 180 < 1 / 2 ^ 45 := by
        by_contra hcc
        exact hc (toNearest_ge h dlast (not_lt.1 hcc))
      have hlo : 0 < a + 180 := by
        by_contra hcc
        exact absurd hpos (not_lt.2 (toNearest_le h double_zero (not_lt.1 hcc)))
      have hl : (1 : ℝ) / 2 ^ 45 ≤ 1 := by norm_num
      obtain ⟨m, hm'⟩ := double_multiple ha (by rw [abs_of_neg (by linarith)]; linarith)
      have e1 : (a + 180) * 2 ^ 45 = ((m + 180 * 2 ^ 45 : ℤ) : ℝ) := by
        push_cast
        rw [← hm']
        ring
      have l1 : (0 : ℝ) < ((m + 180 * 2 ^ 45 : ℤ) : ℝ) := by
        rw [← e1]
        positivity
      have l2 : ((m + 180 * 2 ^ 45 : ℤ) : ℝ) < 1 := by
        rw [← e1]
        rw [lt_div_iff₀ (by positivity)] at hup
        exact hup
      have l1' : (0 : ℤ) < m + 180 * 2 ^ 45 := by exact_mod_cast l1
      have l2' : m + 180 * 2 ^ 45 < (1 : ℤ) := by exact_mod_cast l2
      omega

example : Spec.Double (-540.5) := ⟨-1081, -1, by norm_num, by norm_num⟩

/-- **C47**: the two names of units are accepted, every other string ends the process. -/
theorem C47_unit_names (s : String) :
    (s = "DEG" → string2angle s = .ok .DEG) ∧ (s = "RAD" → string2angle s = .ok .RAD) ∧
    (s ≠ "DEG" → s ≠ "RAD" → string2angle s = .exits 1) := by
  refine ⟨?_, ?_, ?_⟩
  · rintro rfl; rfl
  · rintro rfl; rfl
  · intro h1 h2
    simp [string2angle, h1, h2]

end MU
