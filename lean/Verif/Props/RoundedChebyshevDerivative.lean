import Verif.Model.RoundedChebyshevDerivative
import Verif.Props.RoundedPowerSeries
import Verif.Props.RoundedChebyshevCompute2
import Verif.Props.SpectralDerivatives

set_option linter.unusedSectionVars false

/-!
# The derivatives of the Chebyshev series in double arithmetic

C137.
-/

namespace MU.Spec
open Polynomial

/-- Chebyshev polynomials within `ε` of the exact ones on `[-1 - δ, 1 + δ]`, up to the order `n`. -/
def PolyNear (ε δ : ℝ) (n : Nat) (TR : Nat → ℝ → ℝ) : Prop := ∀ i, i ≤ n → ∀ t, |t| ≤ 1 + δ → |TR i t - (Chebyshev.T ℝ i).eval t| ≤ ε

/-- Derivatives of Chebyshev polynomials within `ε i^2` of the exact ones on `[-1 - δ, 1 + δ]`, up to the order `n`. The derivative of `T_i` at the
ends of `[-1, 1]` is `i^2` in magnitude. -/
def PrimeNear (ε δ : ℝ) (n : Nat) (TpR : Nat → ℝ → ℝ) : Prop :=
  ∀ i, i ≤ n → ∀ t, |t| ≤ 1 + δ → |TpR i t - (derivative (Chebyshev.T ℝ i)).eval t| ≤ ε * (i : ℝ) ^ 2

/-- How far outside `[-1, 1]` rounding may carry the variable, for a domain of condition `κ`. -/
noncomputable def outside (κ : ℝ) : ℝ := 8 * κ / 2 ^ 53

/-- One plus the error of the Chebyshev polynomials and of their derivatives of order `n` evaluated in double, for a domain of condition `κ` and
programs of the polynomials with the error `ε`. -/
noncomputable def polyFactor (n : Nat) (κ ε : ℝ) : ℝ := 1 + ε + 16 * κ * n ^ 2 / 2 ^ 53

end MU.Spec

namespace MU
open Spec Finset Polynomial

variable {rnd : ℝ → ℝ}

/-! ## Values with a relative error `ρ - 1` -/

/-- `r` is `P`, of size at most `Q`, up to `(ρ - 1) Q`. -/
structure Apx (ρ Q P r : ℝ) : Prop where
  one : 1 ≤ ρ
  err : |r - P| ≤ (ρ - 1) * Q
  size : |P| ≤ Q

namespace Apx

variable {ρ ρ' Q Q' P P' r r' : ℝ}

theorem nonneg (h : Apx ρ Q P r) : 0 ≤ Q := (abs_nonneg _).trans h.size

theorem exact (P : ℝ) : Apx 1 |P| P P := ⟨le_rfl, by simp, le_rfl⟩

theorem mono (h : Apx ρ Q P r) (hρ : ρ ≤ ρ') : Apx ρ' Q P r :=
  ⟨h.one.trans hρ, h.err.trans (mul_le_mul_of_nonneg_right (by linarith) h.nonneg), h.size⟩

theorem abs_le (h : Apx ρ Q P r) : |r| ≤ ρ * Q := by
  have := abs_add_le (r - P) P
  rw [sub_add_cancel] at this
  have h1 := h.err
  have h2 := h.size
  linarith

theorem add (h : Apx ρ Q P r) (h' : Apx ρ Q' P' r') : Apx ρ (Q + Q') (P + P') (r + r') := by
  refine ⟨h.one, ?_, (abs_add_le _ _).trans (add_le_add h.size h'.size)⟩
  rw [show r + r' - (P + P') = (r - P) + (r' - P') by ring]
  refine (abs_add_le _ _).trans ?_
  have := h.err
  have := h'.err
  linarith

theorem mul (h : Apx ρ Q P r) (h' : Apx ρ' Q' P' r') : Apx (ρ * ρ') (Q * Q') (P * P') (r * r') := by
  have o := h.one
  have o' := h'.one
  refine ⟨by nlinarith, ?_, by rw [abs_mul]; exact mul_le_mul h.size h'.size (abs_nonneg _) h.nonneg⟩
  rw [show r * r' - P * P' = (r - P) * r' + P * (r' - P') by ring]
  refine (abs_add_le _ _).trans ?_
  rw [abs_mul, abs_mul]
  have h1 : |r - P| * |r'| ≤ (ρ - 1) * Q * (ρ' * Q') :=
    mul_le_mul h.err h'.abs_le (abs_nonneg _) (mul_nonneg (by linarith) h.nonneg)
  have h2 : |P| * |r' - P'| ≤ Q * ((ρ' - 1) * Q') := mul_le_mul h.size h'.err (abs_nonneg _) h.nonneg
  nlinarith

theorem round (h : Apx ρ Q P r) (hr : ToNearest rnd) : Apx (ρ * (1 + uround)) Q P (rnd r) := by
  have o := h.one
  have hu := uround_nonneg
  refine ⟨by nlinarith, ?_, h.size⟩
  rw [show rnd r - P = (rnd r - r) + (r - P) by ring]
  refine (abs_add_le _ _).trans ?_
  have h1 := toNearest_err hr r
  rw [abs_sub_comm, show |r| / 2 ^ 53 = uround * |r| by unfold uround; ring] at h1
  have h3 : uround * |r| ≤ uround * (ρ * Q) := mul_le_mul_of_nonneg_left h.abs_le uround_nonneg
  have := h.err
  nlinarith

end Apx

/-- A program which adds to its argument terms of sum `p` and of total size `Q`, with an error `ρ - 1`, by `d` roundings. -/
def AddsX (ρ : ℝ) (d : ℕ) (f : ℝ → ℝ) (Q p : ℝ) : Prop :=
  ∀ (k : ℕ) (Q₀ P₀ a : ℝ), Apx (ρ * (1 + uround) ^ k) Q₀ P₀ a → Apx (ρ * (1 + uround) ^ (k + d)) (Q₀ + Q) (P₀ + p) (f a)

theorem addsX_one (hr : ToNearest rnd) {ρ Q p g : ℝ} (h : Apx ρ Q p g) : AddsX ρ 1 (fun a => rnd (a + g)) Q p := by
  intro k Q₀ P₀ a ha
  have hu := uround_nonneg
  have : ρ ≤ ρ * (1 + uround) ^ k := le_mul_of_one_le_right (zero_le_one.trans h.one) (one_le_pow₀ (by linarith))
  have := (ha.add (h.mono this)).round hr
  rwa [mul_assoc, ← pow_succ] at this

theorem addsX_loop {ρ : ℝ} {d N : ℕ} {f : Nat → ℝ → ℝ} {Q p : Nat → ℝ} (h : ∀ i, i < N → AddsX ρ d (f i) (Q i) (p i)) :
    AddsX ρ (N * d) (fun a => accN f a N) (∑ i ∈ range N, Q i) (∑ i ∈ range N, p i) := by
  intro k Q₀ P₀ a ha
  induction N with
  | zero => simpa [accN] using ha
  | succ N ih =>
    have := h N (Nat.lt_succ_self N) (k + N * d) _ _ _ (ih fun i hi => h i (Nat.lt_succ_of_lt hi))
    rw [sum_range_succ, sum_range_succ, ← add_assoc, ← add_assoc, show k + (N + 1) * d = k + N * d + d by ring]
    exact this

theorem AddsX.start {ρ : ℝ} (hρ : 1 ≤ ρ) {d : ℕ} {f : ℝ → ℝ} {Q p : ℝ} (h : AddsX ρ d f Q p) : Apx (ρ * (1 + uround) ^ d) Q p (f 0) := by
  have := h 0 0 0 0 ⟨by simpa using hρ, by simp, by simp⟩
  simpa using this

theorem forRange_accN {N : ℕ} {f : Nat → ℝ → Res ℝ} (g : Nat → ℝ → ℝ) (h : ∀ i, i < N → ∀ a, f i a = .ok (g i a)) (a : ℝ) :
    forRange 0 N f a = .ok (accN g a N) :=
  forRange_ok (Nat.zero_le N) (fun k => accN g a k) (fun i _ hi => h i hi _)

/-- The end of the three methods: the sum times the coefficient of the change of variable. -/
theorem finish_coef (hr : ToNearest rnd) {s : Seg ℝ} (hX : s.dom.Usual) {x : ℝ} (hx : s.dom.Mem x) {ρ Q P r : ℝ} (h : Apx ρ Q P r) :
    ∃ v, (s.coefficientDerivativeR rnd x >>= fun c => (pure (rnd (r * c)) : Res ℝ)) = .ok v ∧
      |v - P * s.dom.unitSlope x| ≤ (ρ * (1 + uround) ^ 5 - 1) * (s.dom.unitSlope x * Q) := by
  obtain ⟨c, c1, c2⟩ := coefficientDerivativeR_ok hr hX hx
  have hp := Domain.unitSlope_pos hX hx
  rw [dom_unitSlope] at hp ⊢
  have hc : Apx ((1 + uround) ^ 4) (s.coef x) (s.coef x) c :=
    ⟨one_le_pow₀ (by linarith [uround_nonneg]), by rw [abs_of_pos hp] at c2; exact c2, (abs_of_pos hp).le⟩
  refine ⟨_, by rw [c1, Res.ok_bind, Res.pure_eq], ?_⟩
  have := ((h.mul hc).round hr).err
  refine this.trans (le_of_eq ?_)
  ring

/-! ## The polynomials at a point near the exact one -/

theorem chebU_sub (t u : ℝ) : ∀ n : Nat, chebU n t - chebU n u = 2 * (t - u) * ∑ j ∈ range n, chebU j t * chebU (n - 1 - j) u
  | 0 => by simp [chebU]
  | 1 => by simp [chebU]; ring
  | n + 2 => by
    have h1 := chebU_sub t u (n + 1)
    have h0 := chebU_sub t u n
    have e : ∑ j ∈ range (n + 2), chebU j t * chebU (n + 2 - 1 - j) u =
        chebU (n + 1) t + 2 * u * ∑ j ∈ range (n + 1), chebU j t * chebU (n - j) u - ∑ j ∈ range n, chebU j t * chebU (n - 1 - j) u := by
      have e1 : ∀ j ∈ range n, chebU j t * chebU (n + 2 - 1 - j) u = 2 * u * (chebU j t * chebU (n - j) u) - chebU j t * chebU (n - 1 - j) u := by
        intro j hj
        have hj := mem_range.1 hj
        obtain ⟨k, rfl⟩ : ∃ k, n = j + 1 + k := ⟨n - (j + 1), by omega⟩
        rw [show j + 1 + k + 2 - 1 - j = k + 2 by omega, show j + 1 + k - j = k + 1 by omega, show j + 1 + k - 1 - j = k by omega]
        rw [show chebU (k + 2) u = 2 * u * chebU (k + 1) u - chebU k u from rfl]
        ring
      rw [sum_range_succ, sum_range_succ, sum_congr rfl e1, sum_sub_distrib, ← mul_sum, sum_range_succ (fun j => chebU j t * chebU (n - j) u)]
      rw [show n + 2 - 1 - n = 1 by omega, show n + 2 - 1 - (n + 1) = 0 by omega, Nat.sub_self]
      simp only [chebU]
      ring
    rw [e, show chebU (n + 2) t = 2 * t * chebU (n + 1) t - chebU n t from rfl,
      show chebU (n + 2) u = 2 * u * chebU (n + 1) u - chebU n u from rfl]
    simp only [Nat.add_sub_cancel] at h1
    linear_combination 2 * u * h1 - h0

theorem sum_tri (n : ℕ) : ∑ j ∈ range n, ((j : ℝ) + 1) * (n - j) = n * (n + 1) * (n + 2) / 6 := by
  have h1 : ∀ n : ℕ, ∑ j ∈ range n, ((j : ℝ) + 1) = n * (n + 1) / 2 := by
    intro n
    induction n with
    | zero => simp
    | succ n ih => rw [sum_range_succ, ih]; push_cast; ring
  induction n with
  | zero => simp
  | succ n ih =>
    have : ∑ j ∈ range (n + 1), ((j : ℝ) + 1) * ((n + 1 : ℕ) - j) = ∑ j ∈ range (n + 1), ((j : ℝ) + 1) * (n - j) + ∑ j ∈ range (n + 1), ((j : ℝ) + 1) := by
      rw [← sum_add_distrib]
      refine sum_congr rfl fun j _ => ?_
      push_cast
      ring
    rw [this, h1, sum_range_succ, ih]
    push_cast
    ring

theorem chebU_near {t u η : ℝ} (hu : |u| ≤ 1) (ht : |t - u| ≤ η) : ∀ n : Nat, η * (n + 1) ^ 2 ≤ 1 → |chebU n t - chebU n u| ≤ 2 / 3 * η * (n + 1) ^ 3 := by
  have hη : 0 ≤ η := (abs_nonneg _).trans ht
  intro n
  induction n using Nat.strong_induction_on with
  | _ n ih =>
    intro hn
    rw [chebU_sub, abs_mul, abs_mul, abs_two]
    have h1 : |∑ j ∈ range n, chebU j t * chebU (n - 1 - j) u| ≤ ∑ j ∈ range n, 2 * (((j : ℝ) + 1) * (n - j)) := by
      refine (abs_sum_le_sum_abs _ _).trans (sum_le_sum fun j hj => ?_)
      have hj := mem_range.1 hj
      have hjn : (j : ℝ) ≤ n := by exact_mod_cast hj.le
      have hj1 : η * ((j : ℝ) + 1) ^ 2 ≤ 1 := by
        refine le_trans ?_ hn
        gcongr
      have h2 := ih j hj hj1
      have h3 : |chebU j t| ≤ 2 * ((j : ℝ) + 1) := by
        have h4 := abs_add_le (chebU j t - chebU j u) (chebU j u)
        rw [sub_add_cancel] at h4
        have h5 := abs_chebU_le hu j
        have h6 : 2 / 3 * η * ((j : ℝ) + 1) ^ 3 ≤ (j : ℝ) + 1 := by
          have : 2 / 3 * η * ((j : ℝ) + 1) ^ 3 = 2 / 3 * (η * ((j : ℝ) + 1) ^ 2) * ((j : ℝ) + 1) := by ring
          rw [this]
          have h0 : (0 : ℝ) ≤ (j : ℝ) + 1 := by positivity
          nlinarith
        linarith
      have h4 : |chebU (n - 1 - j) u| ≤ (n : ℝ) - j := by
        refine (abs_chebU_le hu _).trans (le_of_eq ?_)
        rw [Nat.cast_sub (by omega), Nat.cast_sub (by omega)]
        push_cast
        ring
      rw [abs_mul, ← mul_assoc]
      exact mul_le_mul h3 h4 (abs_nonneg _) (by positivity)
    rw [← mul_sum, sum_tri] at h1
    have h2 : 2 * |t - u| * |∑ j ∈ range n, chebU j t * chebU (n - 1 - j) u| ≤ 2 * η * (2 * ((n : ℝ) * (n + 1) * (n + 2) / 6)) :=
      mul_le_mul (by linarith) h1 (abs_nonneg _) (by positivity)
    refine h2.trans ?_
    have h3 : (n : ℝ) * (n + 1) * (n + 2) ≤ (n + 1) ^ 3 := by
      have : (0 : ℝ) ≤ n := Nat.cast_nonneg n
      nlinarith
    nlinarith

theorem chebU_near_le {t u η : ℝ} (hu : |u| ≤ 1) (ht : |t - u| ≤ η) (n : Nat) (hn : η * (n + 1) ^ 2 ≤ 1) : |chebU n t| ≤ 2 * (n + 1) := by
  have hη : 0 ≤ η := (abs_nonneg _).trans ht
  have h4 := abs_add_le (chebU n t - chebU n u) (chebU n u)
  rw [sub_add_cancel] at h4
  have h5 := abs_chebU_le hu n
  have h2 := chebU_near hu ht n hn
  have h6 : 2 / 3 * η * ((n : ℝ) + 1) ^ 3 ≤ (n : ℝ) + 1 := by
    rw [show 2 / 3 * η * ((n : ℝ) + 1) ^ 3 = 2 / 3 * (η * ((n : ℝ) + 1) ^ 2) * ((n : ℝ) + 1) by ring]
    have h0 : (0 : ℝ) ≤ (n : ℝ) + 1 := by positivity
    nlinarith
  linarith

theorem chebTPrime_near {t u η : ℝ} (hu : |u| ≤ 1) (ht : |t - u| ≤ η) (n : Nat) (hn : η * n ^ 2 ≤ 1) :
    |chebTPrime n t - chebTPrime n u| ≤ 2 / 3 * η * n ^ 2 * n ^ 2 := by
  cases n with
  | zero => simp [chebTPrime]
  | succ n =>
    rw [chebTPrime, chebTPrime, ← mul_sub, abs_mul, abs_of_nonneg (Nat.cast_nonneg _)]
    push_cast at hn ⊢
    have := mul_le_mul_of_nonneg_left (chebU_near hu ht n hn) (by positivity : (0 : ℝ) ≤ (n : ℝ) + 1)
    refine this.trans (le_of_eq ?_)
    ring

theorem abs_chebTPrime_near {t u η : ℝ} (hu : |u| ≤ 1) (ht : |t - u| ≤ η) (n : Nat) (hn : η * n ^ 2 ≤ 1) : |chebTPrime n t| ≤ 2 * n ^ 2 := by
  cases n with
  | zero => simp [chebTPrime]
  | succ n =>
    rw [chebTPrime, abs_mul, abs_of_nonneg (Nat.cast_nonneg _)]
    push_cast at hn ⊢
    have := mul_le_mul_of_nonneg_left (chebU_near_le hu ht n hn) (by positivity : (0 : ℝ) ≤ (n : ℝ) + 1)
    refine this.trans (le_of_eq ?_)
    ring

theorem chebT_near {t u η : ℝ} (hu : |u| ≤ 1) (ht : |t - u| ≤ η) (n : Nat) (hn : η * n ^ 2 ≤ 1) : |chebT n t - chebT n u| ≤ 2 * n ^ 2 * η := by
  have h := (convex_uIcc u t).norm_image_sub_le_of_norm_hasDerivWithin_le (f := fun s => chebT n s) (f' := fun s => chebTPrime n s) (C := 2 * (n : ℝ) ^ 2)
    (fun s _ => by
      have := ((Chebyshev.T ℝ n).hasDerivAt s).hasDerivWithinAt (s := Set.uIcc u t)
      rw [← chebTPrime_eq] at this
      refine this.congr_of_eventuallyEq ?_ (chebT_eq n s)
      exact Filter.Eventually.of_forall fun z => chebT_eq n z)
    (fun s hs => by
      refine abs_chebTPrime_near hu ((Set.abs_sub_left_of_mem_uIcc hs).trans ?_) n hn
      exact ht) Set.left_mem_uIcc Set.right_mem_uIcc
  refine h.trans ?_
  rw [Real.norm_eq_abs]
  exact mul_le_mul_of_nonneg_left ht (by positivity)

theorem gam7_le {κ : ℝ} (hκ : 2 ≤ κ) : gam 7 * κ ≤ outside κ := by
  have h7 : gam 7 ≤ 8 * uround := (gam_le (by norm_num)).trans (by norm_num)
  unfold outside
  have hu : uround = 1 / 2 ^ 53 := by unfold uround; norm_num
  have := mul_le_mul_of_nonneg_right h7 (by linarith : 0 ≤ κ)
  rw [hu] at this
  linarith

theorem outside_sq {n i : Nat} (hi : i ≤ n) {κ : ℝ} (hκ : 2 ≤ κ) (hn : κ * n ^ 2 ≤ 2 ^ 50) : outside κ * i ^ 2 ≤ 1 := by
  have : (i : ℝ) ≤ n := by exact_mod_cast hi
  unfold outside
  have h1 : κ * (i : ℝ) ^ 2 ≤ 2 ^ 50 := by
    refine le_trans ?_ hn
    gcongr
  rw [show 8 * κ / 2 ^ 53 * (i : ℝ) ^ 2 = 8 / 2 ^ 53 * (κ * (i : ℝ) ^ 2) by ring]
  calc (8 / 2 ^ 53 : ℝ) * (κ * (i : ℝ) ^ 2) ≤ 8 / 2 ^ 53 * 2 ^ 50 := by gcongr
    _ = 1 := by norm_num

theorem abs_le_outside {t u κ : ℝ} (hu : |u| ≤ 1) (hκ : 2 ≤ κ) (ht : |t - u| ≤ gam 7 * κ) : |t| ≤ 1 + outside κ := by
  have h := abs_add_le (t - u) u
  rw [sub_add_cancel] at h
  have := gam7_le hκ
  linarith

theorem polyFactor_one {n : Nat} {κ ε : ℝ} (hκ : 2 ≤ κ) (hε : 0 ≤ ε) : 1 ≤ polyFactor n κ ε := by
  have : 0 ≤ 16 * κ * (n : ℝ) ^ 2 / 2 ^ 53 := by positivity
  unfold polyFactor
  linarith

theorem poly_apx {t u κ ε : ℝ} (hu : |u| ≤ 1) (hκ : 2 ≤ κ) (ht : |t - u| ≤ gam 7 * κ) {n : Nat} (hn : κ * n ^ 2 ≤ 2 ^ 50) (hε : 0 ≤ ε)
    {TR : Nat → ℝ → ℝ} (hT : PolyNear ε (outside κ) n TR) {i : Nat} (hi : i ≤ n) :
    Apx (polyFactor n κ ε) 1 ((Chebyshev.T ℝ i).eval u) (TR i t) := by
  refine ⟨polyFactor_one hκ hε, ?_, Chebyshev.abs_eval_T_real_le_one i hu⟩
  have h1 := hT i hi t (abs_le_outside hu hκ ht)
  have h2 := chebT_near hu (ht.trans (gam7_le hκ)) i (outside_sq hi hκ hn)
  rw [chebT_eq, chebT_eq] at h2
  have h3 := abs_sub_le (TR i t) ((Chebyshev.T ℝ i).eval t) ((Chebyshev.T ℝ i).eval u)
  have h4 : 2 * (i : ℝ) ^ 2 * outside κ ≤ 16 * κ * n ^ 2 / 2 ^ 53 := by
    have : (i : ℝ) ≤ n := by exact_mod_cast hi
    have h5 : (i : ℝ) ^ 2 ≤ n ^ 2 := by gcongr
    unfold outside
    rw [show 2 * (i : ℝ) ^ 2 * (8 * κ / 2 ^ 53) = 16 * κ * (i : ℝ) ^ 2 / 2 ^ 53 by ring]
    gcongr
  unfold polyFactor
  linarith

theorem prime_apx {t u κ ε : ℝ} (hu : |u| ≤ 1) (hκ : 2 ≤ κ) (ht : |t - u| ≤ gam 7 * κ) {n : Nat} (hn : κ * n ^ 2 ≤ 2 ^ 50) (hε : 0 ≤ ε)
    {TpR : Nat → ℝ → ℝ} (hT : PrimeNear ε (outside κ) n TpR) {i : Nat} (hi : i ≤ n) :
    Apx (polyFactor n κ ε) ((i : ℝ) ^ 2) ((derivative (Chebyshev.T ℝ i)).eval u) (TpR i t) := by
  refine ⟨polyFactor_one hκ hε, ?_, ?_⟩
  · have h1 := hT i hi t (abs_le_outside hu hκ ht)
    have h2 := chebTPrime_near hu (ht.trans (gam7_le hκ)) i (outside_sq hi hκ hn)
    rw [chebTPrime_eq, chebTPrime_eq] at h2
    have h3 := abs_sub_le (TpR i t) ((derivative (Chebyshev.T ℝ i)).eval t) ((derivative (Chebyshev.T ℝ i)).eval u)
    have h4 : 2 / 3 * outside κ * (i : ℝ) ^ 2 ≤ 16 * κ * n ^ 2 / 2 ^ 53 := by
      have : (i : ℝ) ≤ n := by exact_mod_cast hi
      have h5 : (i : ℝ) ^ 2 ≤ n ^ 2 := by gcongr
      have h6 : κ * (i : ℝ) ^ 2 ≤ κ * n ^ 2 := by gcongr
      have h7 : 0 ≤ κ * (i : ℝ) ^ 2 := by positivity
      unfold outside
      rw [show 2 / 3 * (8 * κ / 2 ^ 53) * (i : ℝ) ^ 2 = 16 / 3 * (κ * (i : ℝ) ^ 2) / 2 ^ 53 by ring, mul_assoc 16]
      gcongr
      linarith
    have h5 := mul_le_mul_of_nonneg_right h4 (by positivity : 0 ≤ (i : ℝ) ^ 2)
    unfold polyFactor
    linarith
  · have := abs_chebTPrime_le i hu
    rwa [chebTPrime_eq] at this

/-! ## One variable -/

/-- C137, one variable: in double arithmetic, whatever the coefficients held, the result of `Evaluate_derivative_x` differs from the derivative of the
series at the point by at most `polyFactor n κ ε (1 + u)^(n + 7) - 1` times the slope of the map to `[-1, 1]` times the sum of the `i^2 |a_i|`. -/
theorem C137_error_1d (hr : ToNearest rnd) (B : Build) {s : CS1 ℝ} (hn : s.m_ai.length = s.m_order_x + 1) (hX : s.m_x.dom.Usual)
    (hc : s.m_x.dom.cond * s.m_order_x ^ 2 ≤ 2 ^ 50) {TpR : Nat → ℝ → ℝ} {ε : ℝ} (hε : 0 ≤ ε)
    (hT : PrimeNear ε (outside s.m_x.dom.cond) s.m_order_x TpR) {x : ℝ} (hx : s.m_x.dom.Mem x) :
    ∃ v d, s.evaluateDerivativeXR rnd TpR B x = .ok v ∧
      HasDerivAt (fun t => cheb1 s.m_order_x (fun i => s.m_ai.getD i 0) (s.m_x.dom.unit t)) d x ∧
      |v - d| ≤ (polyFactor s.m_order_x s.m_x.dom.cond ε * (1 + 1 / 2 ^ 53) ^ (s.m_order_x + 7) - 1) *
        (s.m_x.dom.unitSlope x * ∑ i ∈ range (s.m_order_x + 1), (i : ℝ) ^ 2 * |s.m_ai.getD i 0|) := by
  obtain ⟨τ, t1, t2⟩ := toUnitR_ok hr hX hx
  have hu := unit_le hX hx
  have hκ := Domain.cond_ge hX
  set n := s.m_order_x with hnn
  set a : Nat → ℝ := fun i => s.m_ai.getD i 0 with ha
  have hterm : ∀ i, i < n + 1 → Apx (polyFactor n s.m_x.dom.cond ε * (1 + uround)) ((i : ℝ) ^ 2 * |a i|)
      ((derivative (Chebyshev.T ℝ i)).eval (s.m_x.dom.unit x) * a i) (rnd (TpR i τ * a i)) := fun i hi => by
    have := ((prime_apx hu hκ t2 hc hε hT (Nat.lt_succ_iff.1 hi)).mul (Apx.exact (a i))).round hr
    rwa [mul_one] at this
  have hsum := (addsX_loop fun i hi => addsX_one hr (hterm i hi)).start (hterm 0 (by omega)).one
  obtain ⟨v, v1, v2⟩ := finish_coef hr hX hx hsum
  refine ⟨v, _, ?_, ?_, v2.trans (le_of_eq ?_)⟩
  · unfold CS1.evaluateDerivativeXR
    rw [t1, Res.ok_bind, forRange_accN (fun i r => rnd (r + rnd (TpR i τ * a i))) (fun i hi r => ?_), Res.ok_bind]
    · exact v1
    · rw [eAt_lt (by omega), Res.ok_bind, Res.pure_eq]
      simp [a, List.getD, List.getElem?_eq_getElem (show i < s.m_ai.length by omega)]
  · refine HasDerivAt.comp x (h₂ := fun u => cheb1 n a u) ?_ (Domain.hasDerivAt_unit hX hx)
    refine HasDerivAt.fun_sum fun i _ => ?_
    rw [mul_comm]
    exact ((Chebyshev.T ℝ i).hasDerivAt _).const_mul _
  · rw [show 1 + 1 / 2 ^ 53 = 1 + uround by unfold uround; rfl]
    ring

/-! ## Two variables -/

theorem cheb2_swap (n m : Nat) (a : Nat → Nat → ℝ) (u v : ℝ) : cheb2 n m a u v = cheb1 m (fun j => cheb1 n (fun i => a i j) u) v := by
  unfold cheb2 cheb1
  rw [sum_comm]
  refine sum_congr rfl fun j _ => ?_
  rw [sum_mul]

/-- C137, two variables, derivative in `x`. -/
theorem C137_error_2d_x (hr : ToNearest rnd) (B : Build) {s : CS2 ℝ} (hn : s.m_aij.rows = s.m_order_x + 1) (hm : s.m_aij.cols = s.m_order_y + 1)
    (hX : s.m_x.dom.Usual) (hY : s.m_y.dom.Usual) (hc : s.m_x.dom.cond * s.m_order_x ^ 2 ≤ 2 ^ 50) {TpR : Nat → ℝ → ℝ} {ε : ℝ} (hε : 0 ≤ ε)
    (hT : PrimeNear ε (outside s.m_x.dom.cond) s.m_order_x TpR) {x y : ℝ} (hx : s.m_x.dom.Mem x) (hy : s.m_y.dom.Mem y) :
    ∃ v d, s.evaluateDerivativeXR rnd TpR B x y = .ok v ∧
      HasDerivAt (fun t => cheb2 s.m_order_x s.m_order_y s.m_aij.entry (s.m_x.dom.unit t) (s.m_y.dom.unit y)) d x ∧
      |v - d| ≤ (polyFactor s.m_order_x s.m_x.dom.cond ε * (1 + chebErr s.m_order_y s.m_y.dom.cond) *
          (1 + 1 / 2 ^ 53) ^ (s.m_order_x + 7) - 1) *
        (s.m_x.dom.unitSlope x * ∑ i ∈ range (s.m_order_x + 1), ∑ j ∈ range (s.m_order_y + 1), (i : ℝ) ^ 2 * |s.m_aij.entry i j|) := by
  obtain ⟨τ, t1, t2⟩ := toUnitR_ok hr hX hx
  obtain ⟨σ, u1, u2⟩ := toUnitR_ok hr hY hy
  have hux := unit_le hX hx
  have huy := unit_le hY hy
  have hκx := Domain.cond_ge hX
  have hκy := Domain.cond_ge hY
  choose r hr1 hr2 using fun i => clenshaw_map_near hr huy u2 s.m_order_y (s.m_aij.entry i)
  have hterm : ∀ i, i < s.m_order_x + 1 → Apx (polyFactor s.m_order_x s.m_x.dom.cond ε * (1 + chebErr s.m_order_y s.m_y.dom.cond) * (1 + uround))
      ((i : ℝ) ^ 2 * ∑ j ∈ range (s.m_order_y + 1), |s.m_aij.entry i j|)
      ((derivative (Chebyshev.T ℝ i)).eval (s.m_x.dom.unit x) * cheb1 s.m_order_y (s.m_aij.entry i) (s.m_y.dom.unit y))
      (rnd (TpR i τ * r i)) := fun i hi => by
    refine ((prime_apx hux hκx t2 hc hε hT (Nat.lt_succ_iff.1 hi)).mul ⟨?_, ?_, ?_⟩).round hr
    · linarith [chebErr_nonneg s.m_order_y hκy]
    · refine (hr2 i).trans ?_
      rw [add_sub_cancel_left]
      exact mul_le_mul_of_nonneg_right (growth_le s.m_order_y hκy) (sum_nonneg fun _ _ => abs_nonneg _)
    · exact cheb1_le huy _ _
  have hsum := (addsX_loop fun i hi => addsX_one hr (hterm i hi)).start (hterm 0 (by omega)).one
  obtain ⟨v, v1, v2⟩ := finish_coef hr hX hx hsum
  refine ⟨v, _, ?_, ?_, v2.trans (le_of_eq ?_)⟩
  · unfold CS2.evaluateDerivativeXR
    rw [t1, Res.ok_bind, u1, Res.ok_bind, forRange_accN (fun i q => rnd (q + rnd (TpR i τ * r i))) (fun i hi q => ?_), Res.ok_bind]
    · exact v1
    · have h3 := hr1 i
      rw [Mat.row_lt (by omega), Res.ok_bind, hm]
      cases h4 : doubleHeadR rnd ((List.range (s.m_order_y + 1)).map (s.m_aij.entry i)) with
      | ok l =>
        rw [h4, Res.ok_bind, Res.pure_eq] at h3
        injection h3 with h3
        rw [Res.ok_bind, Res.pure_eq, h3]
      | _ => rw [h4] at h3; cases h3
  · refine HasDerivAt.comp x (h₂ := fun u => cheb2 s.m_order_x s.m_order_y s.m_aij.entry u (s.m_y.dom.unit y)) ?_ (Domain.hasDerivAt_unit hX hx)
    simp only [cheb2_nested]
    refine HasDerivAt.fun_sum fun i _ => ?_
    rw [mul_comm]
    exact ((Chebyshev.T ℝ i).hasDerivAt _).const_mul _
  · rw [show 1 + 1 / 2 ^ 53 = 1 + uround by unfold uround; rfl]
    simp only [mul_sum]
    refine sum_congr rfl fun i _ => sum_congr rfl fun j _ => ?_
    ring

/-- C137, two variables, derivative in `y`. -/
theorem C137_error_2d_y (hr : ToNearest rnd) (B : Build) {s : CS2 ℝ} (hn : s.m_aij.rows = s.m_order_x + 1) (hm : s.m_aij.cols = s.m_order_y + 1)
    (hX : s.m_x.dom.Usual) (hY : s.m_y.dom.Usual) (hc : s.m_y.dom.cond * s.m_order_y ^ 2 ≤ 2 ^ 50) {TpR : Nat → ℝ → ℝ} {ε : ℝ} (hε : 0 ≤ ε)
    (hT : PrimeNear ε (outside s.m_y.dom.cond) s.m_order_y TpR) {x y : ℝ} (hx : s.m_x.dom.Mem x) (hy : s.m_y.dom.Mem y) :
    ∃ v d, s.evaluateDerivativeYR rnd TpR B x y = .ok v ∧
      HasDerivAt (fun t => cheb2 s.m_order_x s.m_order_y s.m_aij.entry (s.m_x.dom.unit x) (s.m_y.dom.unit t)) d y ∧
      |v - d| ≤ (polyFactor s.m_order_y s.m_y.dom.cond ε * (1 + chebErr s.m_order_x s.m_x.dom.cond) *
          (1 + 1 / 2 ^ 53) ^ (s.m_order_y + 7) - 1) *
        (s.m_y.dom.unitSlope y * ∑ i ∈ range (s.m_order_x + 1), ∑ j ∈ range (s.m_order_y + 1), (j : ℝ) ^ 2 * |s.m_aij.entry i j|) := by
  obtain ⟨τ, t1, t2⟩ := toUnitR_ok hr hX hx
  obtain ⟨σ, u1, u2⟩ := toUnitR_ok hr hY hy
  have hux := unit_le hX hx
  have huy := unit_le hY hy
  have hκx := Domain.cond_ge hX
  have hκy := Domain.cond_ge hY
  choose r hr1 hr2 using fun j => clenshaw_map_near hr hux t2 s.m_order_x (fun i => s.m_aij.entry i j)
  have hterm : ∀ j, j < s.m_order_y + 1 → Apx (polyFactor s.m_order_y s.m_y.dom.cond ε * (1 + chebErr s.m_order_x s.m_x.dom.cond) * (1 + uround))
      ((j : ℝ) ^ 2 * ∑ i ∈ range (s.m_order_x + 1), |s.m_aij.entry i j|)
      ((derivative (Chebyshev.T ℝ j)).eval (s.m_y.dom.unit y) * cheb1 s.m_order_x (fun i => s.m_aij.entry i j) (s.m_x.dom.unit x))
      (rnd (TpR j σ * r j)) := fun j hi => by
    refine ((prime_apx huy hκy u2 hc hε hT (Nat.lt_succ_iff.1 hi)).mul ⟨?_, ?_, ?_⟩).round hr
    · linarith [chebErr_nonneg s.m_order_x hκx]
    · refine (hr2 j).trans ?_
      rw [add_sub_cancel_left]
      exact mul_le_mul_of_nonneg_right (growth_le s.m_order_x hκx) (sum_nonneg fun _ _ => abs_nonneg _)
    · exact cheb1_le hux _ _
  have hsum := (addsX_loop fun j hi => addsX_one hr (hterm j hi)).start (hterm 0 (by omega)).one
  obtain ⟨v, v1, v2⟩ := finish_coef hr hY hy hsum
  refine ⟨v, _, ?_, ?_, v2.trans (le_of_eq ?_)⟩
  · unfold CS2.evaluateDerivativeYR
    rw [t1, Res.ok_bind, u1, Res.ok_bind, forRange_accN (fun j q => rnd (q + rnd (TpR j σ * r j))) (fun j hi q => ?_), Res.ok_bind]
    · exact v1
    · have h3 := hr1 j
      rw [Mat.col_lt (by omega), Res.ok_bind, hn]
      cases h4 : doubleHeadR rnd ((List.range (s.m_order_x + 1)).map (fun i => s.m_aij.entry i j)) with
      | ok l =>
        rw [h4, Res.ok_bind, Res.pure_eq] at h3
        injection h3 with h3
        rw [Res.ok_bind, Res.pure_eq, h3]
      | _ => rw [h4] at h3; cases h3
  · refine HasDerivAt.comp y (h₂ := fun u => cheb2 s.m_order_x s.m_order_y s.m_aij.entry (s.m_x.dom.unit x) u) ?_ (Domain.hasDerivAt_unit hY hy)
    simp only [cheb2_swap]
    refine HasDerivAt.fun_sum fun i _ => ?_
    rw [mul_comm]
    exact ((Chebyshev.T ℝ i).hasDerivAt _).const_mul _
  · rw [show 1 + 1 / 2 ^ 53 = 1 + uround by unfold uround; rfl]
    rw [sum_comm (s := range (s.m_order_x + 1))]
    simp only [mul_sum]
    refine sum_congr rfl fun i _ => sum_congr rfl fun j _ => ?_
    ring

/-! ## Three variables -/

/-- The nested loops. -/
theorem sumLoopR_apx (hr : ToNearest rnd) (B : Build) {s : CS3 ℝ} {n m l : Nat} (hnx : s.m_order_x = n) (hny : s.m_order_y = m) (hnz : s.m_order_z = l)
    (hl : s.m_aijk.length = l + 1) (hn : ∀ M ∈ s.m_aijk, M.rows = n + 1 ∧ M.cols = m + 1) {tx ty tz Tx Ty Tz Qx Qy Qz : Nat → ℝ} {ρx ρy ρz : ℝ}
    (hx : ∀ i, i < n + 1 → Apx ρx (Qx i) (Tx i) (tx i)) (hy : ∀ j, j < m + 1 → Apx ρy (Qy j) (Ty j) (ty j))
    (hz : ∀ k, k < l + 1 → Apx ρz (Qz k) (Tz k) (tz k)) :
    let a : Nat → Nat → Nat → ℝ := fun i j k => (s.m_aijk[k]?.getD (Mat.zero 0 0)).entry i j
    ∃ r, s.sumLoopR rnd B tx ty tz = .ok r ∧ Apx (ρx * ρy * ρz * (1 + uround) ^ ((n + 1) * (m + 1) * (l + 1) + 3))
      (∑ i ∈ range (n + 1), ∑ j ∈ range (m + 1), ∑ k ∈ range (l + 1), |a i j k| * Qx i * Qy j * Qz k)
      (∑ i ∈ range (n + 1), ∑ j ∈ range (m + 1), ∑ k ∈ range (l + 1), a i j k * Tx i * Ty j * Tz k) r := by
  intro a
  subst hnx hny hnz
  have hterm : ∀ i, i < s.m_order_x + 1 → ∀ j, j < s.m_order_y + 1 → ∀ k, k < s.m_order_z + 1 →
      Apx (ρx * ρy * ρz * (1 + uround) ^ 3) (|a i j k| * Qx i * Qy j * Qz k) (a i j k * Tx i * Ty j * Tz k)
        (rnd (rnd (rnd (a i j k * tx i) * ty j) * tz k)) := fun i hi j hj k hk => by
    have := ((((((Apx.exact (a i j k)).mul (hx i hi)).round hr).mul (hy j hj)).round hr).mul (hz k hk)).round hr
    convert this using 1
    ring
  have hsum := (addsX_loop fun i hi => addsX_loop fun j hj => addsX_loop fun k hk => addsX_one hr (hterm i hi j hj k hk)).start
    (hterm 0 (by omega) 0 (by omega) 0 (by omega)).one
  have eρ : ρx * ρy * ρz * (1 + uround) ^ 3 * (1 + uround) ^ ((s.m_order_x + 1) * ((s.m_order_y + 1) * ((s.m_order_z + 1) * 1))) =
      ρx * ρy * ρz * (1 + uround) ^ ((s.m_order_x + 1) * (s.m_order_y + 1) * (s.m_order_z + 1) + 3) := by ring
  rw [eρ] at hsum
  refine ⟨_, ?_, hsum⟩
  · unfold CS3.sumLoopR
    refine forRange_accN _ (fun i hi r => forRange_accN _ (fun j hj r => forRange_accN _ (fun k hk r => ?_) r) r) 0
    have hk' : k < s.m_aijk.length := by omega
    obtain ⟨g1, g2⟩ := hn _ (List.getElem_mem hk')
    rw [cubeGet, vAt_lt hk', Res.ok_bind, Mat.at', if_pos ⟨by omega, by omega⟩, Res.ok_bind, Res.pure_eq]
    simp [a, List.getElem?_eq_getElem hk']

/-- C137, three variables, derivative in `x`. -/
theorem C137_error_3d_x (hr : ToNearest rnd) (B : Build) {s : CS3 ℝ} (hl : s.m_aijk.length = s.m_order_z + 1)
    (hn : ∀ M ∈ s.m_aijk, M.rows = s.m_order_x + 1 ∧ M.cols = s.m_order_y + 1)
    (hX : s.m_x.dom.Usual) (hY : s.m_y.dom.Usual) (hZ : s.m_z.dom.Usual) (hcx : s.m_x.dom.cond * s.m_order_x ^ 2 ≤ 2 ^ 50)
    (hcy : s.m_y.dom.cond * s.m_order_y ^ 2 ≤ 2 ^ 50)
    (hcz : s.m_z.dom.cond * s.m_order_z ^ 2 ≤ 2 ^ 50)
    {TR TpR : Nat → ℝ → ℝ} {ε : ℝ} (hε : 0 ≤ ε) (hT : PrimeNear ε (outside s.m_x.dom.cond) s.m_order_x TpR)
    (hTy : PolyNear ε (outside s.m_y.dom.cond) s.m_order_y TR) (hTz : PolyNear ε (outside s.m_z.dom.cond) s.m_order_z TR)
    {x y z : ℝ} (hx : s.m_x.dom.Mem x) (hy : s.m_y.dom.Mem y) (hz : s.m_z.dom.Mem z) :
    let a : Nat → Nat → Nat → ℝ := fun i j k => (s.m_aijk[k]?.getD (Mat.zero 0 0)).entry i j
    ∃ v d, s.evaluateDerivativeXR rnd TR TpR B x y z = .ok v ∧
      HasDerivAt (fun t => cheb3 s.m_order_x s.m_order_y s.m_order_z a (s.m_x.dom.unit t) (s.m_y.dom.unit y) (s.m_z.dom.unit z)) d x ∧
      |v - d| ≤ (polyFactor s.m_order_x s.m_x.dom.cond ε * polyFactor s.m_order_y s.m_y.dom.cond ε * polyFactor s.m_order_z s.m_z.dom.cond ε *
          (1 + 1 / 2 ^ 53) ^ ((s.m_order_x + 1) * (s.m_order_y + 1) * (s.m_order_z + 1) + 8) - 1) *
        (s.m_x.dom.unitSlope x * ∑ i ∈ range (s.m_order_x + 1), ∑ j ∈ range (s.m_order_y + 1), ∑ k ∈ range (s.m_order_z + 1),
          (i : ℝ) ^ 2 * |a i j k|) := by
  intro a
  obtain ⟨τ, t1, t2⟩ := toUnitR_ok hr hX hx
  obtain ⟨σ, u1, u2⟩ := toUnitR_ok hr hY hy
  obtain ⟨ω, w1, w2⟩ := toUnitR_ok hr hZ hz
  have hux := unit_le hX hx
  have huy := unit_le hY hy
  have huz := unit_le hZ hz
  have hκx := Domain.cond_ge hX
  have hκy := Domain.cond_ge hY
  have hκz := Domain.cond_ge hZ
  obtain ⟨r, r1, r2⟩ := sumLoopR_apx hr B rfl rfl rfl hl hn (fun i hi => prime_apx hux hκx t2 hcx hε hT (Nat.lt_succ_iff.1 hi)) (fun i hi => poly_apx huy hκy u2 hcy hε hTy (Nat.lt_succ_iff.1 hi)) (fun i hi => poly_apx huz hκz w2 hcz hε hTz (Nat.lt_succ_iff.1 hi))
  obtain ⟨v, v1, v2⟩ := finish_coef hr hX hx r2
  refine ⟨v, _, ?_, ?_, v2.trans (le_of_eq ?_)⟩
  · unfold CS3.evaluateDerivativeXR
    rw [t1, Res.ok_bind, u1, Res.ok_bind, w1, Res.ok_bind, r1, Res.ok_bind]
    exact v1
  · refine HasDerivAt.comp x (h₂ := fun u => cheb3 s.m_order_x s.m_order_y s.m_order_z a u (s.m_y.dom.unit y) (s.m_z.dom.unit z)) ?_ (Domain.hasDerivAt_unit hX hx)
    exact HasDerivAt.fun_sum fun i _ => HasDerivAt.fun_sum fun j _ => HasDerivAt.fun_sum fun k _ => ((((Chebyshev.T ℝ i).hasDerivAt _).const_mul _).mul_const _).mul_const _
  · rw [show 1 + 1 / 2 ^ 53 = 1 + uround by unfold uround; rfl]
    congr 1
    · ring
    · congr 1
      refine sum_congr rfl fun i _ => sum_congr rfl fun j _ => sum_congr rfl fun k _ => ?_
      ring

/-- C137, three variables, derivative in `y`. -/
theorem C137_error_3d_y (hr : ToNearest rnd) (B : Build) {s : CS3 ℝ} (hl : s.m_aijk.length = s.m_order_z + 1)
    (hn : ∀ M ∈ s.m_aijk, M.rows = s.m_order_x + 1 ∧ M.cols = s.m_order_y + 1)
    (hX : s.m_x.dom.Usual) (hY : s.m_y.dom.Usual) (hZ : s.m_z.dom.Usual) (hcx : s.m_x.dom.cond * s.m_order_x ^ 2 ≤ 2 ^ 50)
    (hcy : s.m_y.dom.cond * s.m_order_y ^ 2 ≤ 2 ^ 50)
    (hcz : s.m_z.dom.cond * s.m_order_z ^ 2 ≤ 2 ^ 50)
    {TR TpR : Nat → ℝ → ℝ} {ε : ℝ} (hε : 0 ≤ ε) (hT : PrimeNear ε (outside s.m_y.dom.cond) s.m_order_y TpR)
    (hTx : PolyNear ε (outside s.m_x.dom.cond) s.m_order_x TR) (hTz : PolyNear ε (outside s.m_z.dom.cond) s.m_order_z TR)
    {x y z : ℝ} (hx : s.m_x.dom.Mem x) (hy : s.m_y.dom.Mem y) (hz : s.m_z.dom.Mem z) :
    let a : Nat → Nat → Nat → ℝ := fun i j k => (s.m_aijk[k]?.getD (Mat.zero 0 0)).entry i j
    ∃ v d, s.evaluateDerivativeYR rnd TR TpR B x y z = .ok v ∧
      HasDerivAt (fun t => cheb3 s.m_order_x s.m_order_y s.m_order_z a (s.m_x.dom.unit x) (s.m_y.dom.unit t) (s.m_z.dom.unit z)) d y ∧
      |v - d| ≤ (polyFactor s.m_order_x s.m_x.dom.cond ε * polyFactor s.m_order_y s.m_y.dom.cond ε * polyFactor s.m_order_z s.m_z.dom.cond ε *
          (1 + 1 / 2 ^ 53) ^ ((s.m_order_x + 1) * (s.m_order_y + 1) * (s.m_order_z + 1) + 8) - 1) *
        (s.m_y.dom.unitSlope y * ∑ i ∈ range (s.m_order_x + 1), ∑ j ∈ range (s.m_order_y + 1), ∑ k ∈ range (s.m_order_z + 1),
          (j : ℝ) ^ 2 * |a i j k|) := by
  intro a
  obtain ⟨τ, t1, t2⟩ := toUnitR_ok hr hX hx
  obtain ⟨σ, u1, u2⟩ := toUnitR_ok hr hY hy
  obtain ⟨ω, w1, w2⟩ := toUnitR_ok hr hZ hz
  have hux := unit_le hX hx
  have huy := unit_le hY hy
  have huz := unit_le hZ hz
  have hκx := Domain.cond_ge hX
  have hκy := Domain.cond_ge hY
  have hκz := Domain.cond_ge hZ
  obtain ⟨r, r1, r2⟩ := sumLoopR_apx hr B rfl rfl rfl hl hn (fun i hi => poly_apx hux hκx t2 hcx hε hTx (Nat.lt_succ_iff.1 hi)) (fun i hi => prime_apx huy hκy u2 hcy hε hT (Nat.lt_succ_iff.1 hi)) (fun i hi => poly_apx huz hκz w2 hcz hε hTz (Nat.lt_succ_iff.1 hi))
  obtain ⟨v, v1, v2⟩ := finish_coef hr hY hy r2
  refine ⟨v, _, ?_, ?_, v2.trans (le_of_eq ?_)⟩
  · unfold CS3.evaluateDerivativeYR
    rw [t1, Res.ok_bind, u1, Res.ok_bind, w1, Res.ok_bind, r1, Res.ok_bind]
    exact v1
  · refine HasDerivAt.comp y (h₂ := fun u => cheb3 s.m_order_x s.m_order_y s.m_order_z a (s.m_x.dom.unit x) u (s.m_z.dom.unit z)) ?_ (Domain.hasDerivAt_unit hY hy)
    exact HasDerivAt.fun_sum fun i _ => HasDerivAt.fun_sum fun j _ => HasDerivAt.fun_sum fun k _ => (((Chebyshev.T ℝ j).hasDerivAt _).const_mul _).mul_const _
  · rw [show 1 + 1 / 2 ^ 53 = 1 + uround by unfold uround; rfl]
    congr 1
    · ring
    · congr 1
      refine sum_congr rfl fun i _ => sum_congr rfl fun j _ => sum_congr rfl fun k _ => ?_
      ring

/-- C137, three variables, derivative in `z`. -/
theorem C137_error_3d_z (hr : ToNearest rnd) (B : Build) {s : CS3 ℝ} (hl : s.m_aijk.length = s.m_order_z + 1)
    (hn : ∀ M ∈ s.m_aijk, M.rows = s.m_order_x + 1 ∧ M.cols = s.m_order_y + 1)
    (hX : s.m_x.dom.Usual) (hY : s.m_y.dom.Usual) (hZ : s.m_z.dom.Usual) (hcx : s.m_x.dom.cond * s.m_order_x ^ 2 ≤ 2 ^ 50)
    (hcy : s.m_y.dom.cond * s.m_order_y ^ 2 ≤ 2 ^ 50)
    (hcz : s.m_z.dom.cond * s.m_order_z ^ 2 ≤ 2 ^ 50)
    {TR TpR : Nat → ℝ → ℝ} {ε : ℝ} (hε : 0 ≤ ε) (hT : PrimeNear ε (outside s.m_z.dom.cond) s.m_order_z TpR)
    (hTx : PolyNear ε (outside s.m_x.dom.cond) s.m_order_x TR) (hTy : PolyNear ε (outside s.m_y.dom.cond) s.m_order_y TR)
    {x y z : ℝ} (hx : s.m_x.dom.Mem x) (hy : s.m_y.dom.Mem y) (hz : s.m_z.dom.Mem z) :
    let a : Nat → Nat → Nat → ℝ := fun i j k => (s.m_aijk[k]?.getD (Mat.zero 0 0)).entry i j
    ∃ v d, s.evaluateDerivativeZR rnd TR TpR B x y z = .ok v ∧
      HasDerivAt (fun t => cheb3 s.m_order_x s.m_order_y s.m_order_z a (s.m_x.dom.unit x) (s.m_y.dom.unit y) (s.m_z.dom.unit t)) d z ∧
      |v - d| ≤ (polyFactor s.m_order_x s.m_x.dom.cond ε * polyFactor s.m_order_y s.m_y.dom.cond ε * polyFactor s.m_order_z s.m_z.dom.cond ε *
          (1 + 1 / 2 ^ 53) ^ ((s.m_order_x + 1) * (s.m_order_y + 1) * (s.m_order_z + 1) + 8) - 1) *
        (s.m_z.dom.unitSlope z * ∑ i ∈ range (s.m_order_x + 1), ∑ j ∈ range (s.m_order_y + 1), ∑ k ∈ range (s.m_order_z + 1),
          (k : ℝ) ^ 2 * |a i j k|) := by
  intro a
  obtain ⟨τ, t1, t2⟩ := toUnitR_ok hr hX hx
  obtain ⟨σ, u1, u2⟩ := toUnitR_ok hr hY hy
  obtain ⟨ω, w1, w2⟩ := toUnitR_ok hr hZ hz
  have hux := unit_le hX hx
  have huy := unit_le hY hy
  have huz := unit_le hZ hz
  have hκx := Domain.cond_ge hX
  have hκy := Domain.cond_ge hY
  have hκz := Domain.cond_ge hZ
  obtain ⟨r, r1, r2⟩ := sumLoopR_apx hr B rfl rfl rfl hl hn (fun i hi => poly_apx hux hκx t2 hcx hε hTx (Nat.lt_succ_iff.1 hi)) (fun i hi => poly_apx huy hκy u2 hcy hε hTy (Nat.lt_succ_iff.1 hi)) (fun i hi => prime_apx huz hκz w2 hcz hε hT (Nat.lt_succ_iff.1 hi))
  obtain ⟨v, v1, v2⟩ := finish_coef hr hZ hz r2
  refine ⟨v, _, ?_, ?_, v2.trans (le_of_eq ?_)⟩
  · unfold CS3.evaluateDerivativeZR
    rw [t1, Res.ok_bind, u1, Res.ok_bind, w1, Res.ok_bind, r1, Res.ok_bind]
    exact v1
  · refine HasDerivAt.comp z (h₂ := fun u => cheb3 s.m_order_x s.m_order_y s.m_order_z a (s.m_x.dom.unit x) (s.m_y.dom.unit y) u) ?_ (Domain.hasDerivAt_unit hZ hz)
    exact HasDerivAt.fun_sum fun i _ => HasDerivAt.fun_sum fun j _ => HasDerivAt.fun_sum fun k _ => ((Chebyshev.T ℝ k).hasDerivAt _).const_mul _
  · rw [show 1 + 1 / 2 ^ 53 = 1 + uround by unfold uround; rfl]
    congr 1
    · ring
    · congr 1
      refine sum_congr rfl fun i _ => sum_congr rfl fun j _ => sum_congr rfl fun k _ => ?_
      ring

end MU
