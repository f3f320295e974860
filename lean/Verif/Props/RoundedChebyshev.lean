import Verif.Model.RoundedChebyshev
import Verif.Props.AccuracyChebyshev
import Verif.Lemmas.Rounding
import Verif.Spec.Chebyshev
import Mathlib.Analysis.SpecialFunctions.Trigonometric.Chebyshev.RootsExtrema

set_option linter.unusedSectionVars false

/-!
# Chebyshev series in double arithmetic

C132.
-/

namespace MU.Spec

/-- How much a coordinate of the domain is amplified by the map to `[-1, 1]`: `4 max(|a|, |b|) / (b - a)` for `[a, b]`, `3` for a half line. -/
noncomputable def Domain.cond : Domain ℝ → ℝ
  | .segment a b => 4 * max |a| |b| / (b - a)
  | .halfLine _ => 3

/-- The relative error of a Chebyshev sum of order `n` in double, for a domain of condition `κ`: about `25 (n + 1)^2 κ / 2^53`. -/
noncomputable def chebErr (n : Nat) (κ : ℝ) : ℝ := (1 + 25 * (n + 1) * κ / 2 ^ 53) ^ (n + 1) - 1

end MU.Spec

namespace MU
open Spec Finset Polynomial

variable {rnd : ℝ → ℝ}

/-! ## Exact recurrences -/

theorem abs_chebT_le (n : Nat) {t : ℝ} (ht : |t| ≤ 1) : |chebT n t| ≤ 1 := by
  rw [chebT_eq]
  exact Chebyshev.abs_eval_T_real_le_one n ht

theorem chebU_eq_T (n : Nat) (t : ℝ) : chebU (n + 2) t = 2 * chebT (n + 2) t + chebU n t := by
  have := congrArg (eval t) (Chebyshev.U_eq_two_mul_T_add_U ℝ n)
  rw [chebU_eq, chebT_eq, chebU_eq]
  simpa using this

theorem abs_chebU_le {t : ℝ} (ht : |t| ≤ 1) : ∀ n : Nat, |chebU n t| ≤ n + 1
  | 0 => by simp [chebU]
  | 1 => by rw [chebU, abs_mul, abs_two]; push_cast; linarith
  | n + 2 => by
    rw [chebU_eq_T]
    refine (abs_add_le _ _).trans ?_
    have h1 := abs_chebT_le (n + 2) ht
    have h2 := abs_chebU_le ht n
    rw [abs_mul, abs_two]
    push_cast
    linarith

/-- The loop in exact arithmetic. -/
theorem fold_U (t : ℝ) (l : List ℝ) :
    let b := l.foldr (clenshawStep t) (0, 0)
    b.1 = ∑ i ∈ range l.length, l.getD i 0 * chebU i t ∧ ∑ i ∈ range l.length, l.getD i 0 * chebU (i + 1) t = 2 * t * b.1 - b.2 := by
  induction l with
  | nil => simp
  | cons c l ih =>
    obtain ⟨h1, h2⟩ := ih
    simp only [List.length_cons, sum_range_succ', List.getD_cons_succ, List.getD_cons_zero, List.foldr_cons, clenshawStep]
    constructor
    · rw [h2]
      simp [chebU]
    · have : ∀ i, chebU (i + 1 + 1) t = 2 * t * chebU (i + 1) t - chebU i t := fun i => rfl
      simp only [this, mul_sub, sum_sub_distrib, mul_left_comm _ (2 * t), ← mul_sum, h2, ← h1]
      simp only [chebU]
      ring

/-- The sum of the magnitudes. -/
noncomputable def absSum (l : List ℝ) : ℝ := ∑ i ∈ range l.length, |l.getD i 0|

theorem absSum_nonneg (l : List ℝ) : 0 ≤ absSum l := sum_nonneg fun _ _ => abs_nonneg _

theorem absSum_cons (c : ℝ) (l : List ℝ) : absSum (c :: l) = absSum l + |c| := by
  simp [absSum, sum_range_succ']

theorem fold_fst_le {t : ℝ} (ht : |t| ≤ 1) (l : List ℝ) : |(l.foldr (clenshawStep t) (0, 0)).1| ≤ l.length * absSum l := by
  rw [(fold_U t l).1, absSum, mul_sum]
  refine (abs_sum_le_sum_abs _ _).trans (sum_le_sum fun i hi => ?_)
  have hi := mem_range.1 hi
  rw [abs_mul, mul_comm]
  refine mul_le_mul_of_nonneg_right ((abs_chebU_le ht i).trans ?_) (abs_nonneg _)
  exact_mod_cast hi

theorem fold_snd_le {t : ℝ} (ht : |t| ≤ 1) (l : List ℝ) : |(l.foldr (clenshawStep t) (0, 0)).2| ≤ l.length * absSum l := by
  cases l with
  | nil => simp [absSum]
  | cons c l =>
    refine (fold_fst_le ht l).trans ?_
    rw [absSum_cons, List.length_cons]
    push_cast
    nlinarith [absSum_nonneg l, abs_nonneg c, (Nat.cast_nonneg l.length : (0 : ℝ) ≤ l.length)]

/-! ## The loop in double: exact for other coefficients -/

/-- The distance between two lists of coefficients. -/
noncomputable def distSum (l l' : List ℝ) : ℝ := ∑ i ∈ range l.length, |l'.getD i 0 - l.getD i 0|

theorem distSum_cons (c c' : ℝ) (l l' : List ℝ) : distSum (c :: l) (c' :: l') = distSum l l' + |c' - c| := by
  simp [distSum, sum_range_succ']

theorem absSum_le (l l' : List ℝ) (h : l'.length = l.length) : absSum l' ≤ absSum l + distSum l l' := by
  rw [absSum, absSum, distSum, h, ← sum_add_distrib]
  refine sum_le_sum fun i _ => ?_
  have := abs_add_le (l.getD i 0) (l'.getD i 0 - l.getD i 0)
  rwa [add_sub_cancel] at this

/-- The error of one step, relative to the coefficients. -/
noncomputable def stepErr (η : ℝ) : ℝ := gam 4 * (3 + 2 * η) + 2 * η

theorem gam_le_stepErr {η : ℝ} (hη : 0 ≤ η) : gam 4 ≤ stepErr η := by
  have := gam_nonneg 4
  unfold stepErr
  nlinarith

theorem stepErr_nonneg {η : ℝ} (hη : 0 ≤ η) : 0 ≤ stepErr η := (gam_nonneg 4).trans (gam_le_stepErr hη)

theorem step_near (hr : ToNearest rnd) {t τ η : ℝ} (ht : |t| ≤ 1) (hτ : |τ - t| ≤ η) {b1 b2 c M : ℝ} (h1 : |b1| ≤ M) (h2 : |b2| ≤ M) :
    |rnd (rnd (rnd (rnd (2 * τ) * b1) - b2) + c) - (2 * t * b1 - b2 + c)| ≤ stepErr η * M + gam 4 * |c| := by
  have hn := (((((((Near.exact 2).mul (Near.exact τ)).round hr).mul (Near.exact b1)).round hr).sub ((Near.exact b2).upto (Nat.zero_le 2))).round hr).add
    ((Near.exact c).upto (Nat.zero_le 3)) |>.round hr
  have he := hn.err
  have hM : 0 ≤ M := (abs_nonneg _).trans h1
  have hη : 0 ≤ η := (abs_nonneg _).trans hτ
  have hτ1 : |τ| ≤ 1 + η := by
    have := abs_add_le (τ - t) t
    rw [sub_add_cancel] at this
    linarith
  have e1 : |2 * τ * b1 - b2 + c - (2 * t * b1 - b2 + c)| ≤ 2 * η * M := by
    rw [show 2 * τ * b1 - b2 + c - (2 * t * b1 - b2 + c) = 2 * (τ - t) * b1 by ring, abs_mul, abs_mul, abs_two]
    have := mul_le_mul hτ h1 (abs_nonneg _) hη
    linarith
  have e2 := abs_sub_le (rnd (rnd (rnd (rnd (2 * τ) * b1) - b2) + c)) (2 * τ * b1 - b2 + c) (2 * t * b1 - b2 + c)
  have e3 : |(2 : ℝ)| * |τ| * |b1| ≤ 2 * (1 + η) * M := by
    rw [abs_two]
    have := mul_le_mul hτ1 h1 (abs_nonneg _) (by linarith)
    linarith
  have e4 : gam (0 + 0 + 1 + 0 + 1 + 1 + 1) * (|(2 : ℝ)| * |τ| * |b1| + |b2| + |c|) ≤ gam 4 * (2 * (1 + η) * M + M + |c|) :=
    mul_le_mul_of_nonneg_left (by linarith) (gam_nonneg 4)
  unfold stepErr
  linarith

/-- The loop in double is the exact loop for coefficients close to those given. -/
theorem loop_near (hr : ToNearest rnd) {t τ η : ℝ} (ht : |t| ≤ 1) (hτ : |τ - t| ≤ η) {N : ℕ} : ∀ l : List ℝ, l.length ≤ N →
    ∃ l' : List ℝ, l'.length = l.length ∧ clenshawLoopR rnd τ l = l'.foldr (clenshawStep t) (0, 0) ∧
      distSum l l' ≤ ((1 + N * stepErr η) ^ l.length - 1) * absSum l
  | [], _ => ⟨[], rfl, rfl, by simp [distSum]⟩
  | [c], h => by
    refine ⟨[c], rfl, by simp [clenshawLoopR, clenshawStep], ?_⟩
    have hη : 0 ≤ η := (abs_nonneg _).trans hτ
    have : distSum [c] [c] = 0 := by simp [distSum]
    rw [this]
    have := stepErr_nonneg hη
    have := absSum_nonneg [c]
    simp only [List.length_singleton, pow_one, add_sub_cancel_left]
    positivity
  | c :: d :: rest, h => by
    have hη : 0 ≤ η := (abs_nonneg _).trans hτ
    obtain ⟨l', h1, h2, h3⟩ := loop_near hr ht hτ (N := N) (d :: rest) (by simp only [List.length_cons] at h ⊢; omega)
    set l := d :: rest with hl
    set b := l'.foldr (clenshawStep t) (0, 0) with hb
    set c' := rnd (rnd (rnd (rnd (2 * τ) * b.1) - b.2) + c) - (2 * t * b.1 - b.2) with hc
    refine ⟨c' :: l', by rw [List.length_cons, h1]; rfl, ?_, ?_⟩
    · rw [clenshawLoopR, ← hl, h2, List.foldr_cons, ← hb, clenshawStep, hc]
      simp
    · rw [distSum_cons, absSum_cons, List.length_cons]
      have hρ := stepErr_nonneg hη
      have hS := absSum_nonneg l
      have hS' : absSum l' ≤ (1 + N * stepErr η) ^ l.length * absSum l := by
        have := absSum_le l l' h1
        linarith
      have hlen : (l'.length : ℝ) ≤ N := by
        rw [h1]
        exact_mod_cast (by simp only [List.length_cons] at h ⊢; omega : l.length ≤ N)
      have hM : (l'.length : ℝ) * absSum l' ≤ N * ((1 + N * stepErr η) ^ l.length * absSum l) :=
        mul_le_mul hlen hS' (absSum_nonneg _) (by positivity)
      have hs := step_near hr ht hτ (c := c) ((fold_fst_le ht l').trans hM) ((fold_snd_le ht l').trans hM)
      have hs' : |c' - c| ≤ stepErr η * (N * ((1 + N * stepErr η) ^ l.length * absSum l)) + gam 4 * |c| := by
        rw [show c' - c = rnd (rnd (rnd (rnd (2 * τ) * b.1) - b.2) + c) - (2 * t * b.1 - b.2 + c) by rw [hc]; ring]
        exact hs
      have hN : (1 : ℝ) ≤ N := by
        exact_mod_cast (by simp only [List.length_cons] at h; omega : 1 ≤ N)
      have hg : gam 4 ≤ N * stepErr η := by
        have := gam_le_stepErr hη
        nlinarith
      have h1p : 1 ≤ (1 + N * stepErr η) ^ l.length := one_le_pow₀ (by nlinarith)
      have hgc : gam 4 * |c| ≤ ((1 + N * stepErr η) ^ (l.length + 1) - 1) * |c| := by
        refine mul_le_mul_of_nonneg_right ?_ (abs_nonneg _)
        rw [pow_succ]
        have : 0 ≤ N * stepErr η := by positivity
        nlinarith
      rw [pow_succ] at hgc ⊢
      linarith

/-- The last line in double. -/
theorem last_near (hr : ToNearest rnd) {t τ η : ℝ} (ht : |t| ≤ 1) (hτ : |τ - t| ≤ η) {b1 b2 a M : ℝ} (h1 : |b1| ≤ M) (h2 : |b2| ≤ M) :
    |rnd (rnd (rnd (τ * b1) - b2) + rnd (1 / 2 * rnd (a * 2))) - (t * b1 - b2 + a)| ≤ stepErr η * M + gam 4 * |a| := by
  have hn := (((((Near.exact τ).mul (Near.exact b1)).round hr).sub ((Near.exact b2).upto (Nat.zero_le 1))).round hr).add
    (((Near.exact (1 / 2)).mul (((Near.exact a).mul (Near.exact 2)).round hr)).round hr) |>.round hr |>.upto (show _ ≤ 4 by norm_num)
  have he := hn.err
  rw [show τ * b1 - b2 + 1 / 2 * (a * 2) = τ * b1 - b2 + a by ring, show |(1 / 2 : ℝ)| * (|a| * |(2 : ℝ)|) = |a| by norm_num; ring] at he
  have hM : 0 ≤ M := (abs_nonneg _).trans h1
  have hη : 0 ≤ η := (abs_nonneg _).trans hτ
  have hτ1 : |τ| ≤ 1 + η := by
    have := abs_add_le (τ - t) t
    rw [sub_add_cancel] at this
    linarith
  have e1 : |τ * b1 - b2 + a - (t * b1 - b2 + a)| ≤ η * M := by
    rw [show τ * b1 - b2 + a - (t * b1 - b2 + a) = (τ - t) * b1 by ring, abs_mul]
    exact mul_le_mul hτ h1 (abs_nonneg _) hη
  have e2 := abs_sub_le (rnd (rnd (rnd (τ * b1) - b2) + rnd (1 / 2 * rnd (a * 2)))) (τ * b1 - b2 + a) (t * b1 - b2 + a)
  have e3 : |τ| * |b1| ≤ (1 + η) * M := mul_le_mul hτ1 h1 (abs_nonneg _) (by linarith)
  have e4 : gam 4 * (|τ| * |b1| + |b2| + |a|) ≤ gam 4 * ((1 + η) * M + M + |a|) :=
    mul_le_mul_of_nonneg_left (by linarith) (gam_nonneg 4)
  have h5 := mul_nonneg hη hM
  have h6 := mul_nonneg (gam_nonneg 4) hM
  have h7 := mul_nonneg (gam_nonneg 4) h5
  unfold stepErr
  linarith

/-- `chebyshev_clenshaw_recurrence` in double is the exact sum for coefficients close to those given. -/
theorem clenshaw_backward (hr : ToNearest rnd) {t τ η : ℝ} (ht : |t| ≤ 1) (hτ : |τ - t| ≤ η) (a : ℝ) (l : List ℝ) :
    ∃ l' : List ℝ, l'.length = l.length + 1 ∧ clenshawR rnd (rnd (a * 2) :: l) τ = ∑ i ∈ range (l.length + 1), l'.getD i 0 * chebT i t ∧
      distSum (a :: l) l' ≤ ((1 + (l.length + 1 : ℕ) * stepErr η) ^ (l.length + 1) - 1) * absSum (a :: l) := by
  have hη : 0 ≤ η := (abs_nonneg _).trans hτ
  have hρ := stepErr_nonneg hη
  cases l with
  | nil =>
    refine ⟨[rnd (rnd (a * 2) / 2)], rfl, by simp [clenshawR, chebT], ?_⟩
    have hn := ((((Near.exact a).mul (Near.exact 2)).round hr).mul (Near.exact (1 / 2))).round hr |>.upto (show _ ≤ 4 by norm_num)
    have he := hn.err
    rw [show a * 2 * (1 / 2) = a by ring, show |a| * |(2 : ℝ)| * |(1 / 2 : ℝ)| = |a| by norm_num; ring, mul_one_div] at he
    have := gam_le_stepErr hη
    simp only [distSum, absSum, List.length_cons, List.length_nil, zero_add, sum_range_one, List.getD_cons_zero, pow_one, Nat.cast_one, one_mul,
      add_sub_cancel_left]
    exact he.trans (mul_le_mul_of_nonneg_right this (abs_nonneg _))
  | cons d rest =>
    set l := d :: rest with hl
    obtain ⟨l', h1, h2, h3⟩ := loop_near hr ht hτ (N := l.length + 1) l (Nat.le_succ _)
    set b := l'.foldr (clenshawStep t) (0, 0) with hb
    set r := rnd (rnd (rnd (τ * b.1) - b.2) + rnd (1 / 2 * rnd (a * 2))) with hr'
    refine ⟨(r - (t * b.1 - b.2)) :: l', by rw [List.length_cons, h1], ?_, ?_⟩
    · have := clenshaw_fold t l' 0
      simp only [chebT, Nat.zero_add, ← hb, h1] at this
      rw [sum_range_succ', List.getD_cons_zero]
      simp only [List.getD_cons_succ, chebT]
      rw [sum_congr rfl (fun i _ => by rw [Nat.add_comm i 1]), this, clenshawR, ← hl, h2]
      simp only [← hr']
      ring
    · rw [distSum_cons, absSum_cons]
      set N : ℕ := l.length + 1 with hN
      have hS := absSum_nonneg l
      have hS' : absSum l' ≤ (1 + N * stepErr η) ^ l.length * absSum l := by
        have := absSum_le l l' h1
        linarith
      have hlen : (l'.length : ℝ) ≤ N := by
        rw [h1]
        exact_mod_cast Nat.le_succ _
      have hM : (l'.length : ℝ) * absSum l' ≤ N * ((1 + N * stepErr η) ^ l.length * absSum l) :=
        mul_le_mul hlen hS' (absSum_nonneg _) (by positivity)
      have hs := last_near hr ht hτ (a := a) ((fold_fst_le ht l').trans hM) ((fold_snd_le ht l').trans hM)
      have hs' : |r - (t * b.1 - b.2) - a| ≤ stepErr η * (N * ((1 + N * stepErr η) ^ l.length * absSum l)) + gam 4 * |a| := by
        rw [show r - (t * b.1 - b.2) - a = r - (t * b.1 - b.2 + a) by ring]
        exact hs
      have hN1 : (1 : ℝ) ≤ N := by exact_mod_cast (by omega : 1 ≤ N)
      have hg : gam 4 ≤ N * stepErr η := by
        have := gam_le_stepErr hη
        nlinarith
      have h1p : 1 ≤ (1 + N * stepErr η) ^ l.length := one_le_pow₀ (by nlinarith)
      have hgc : gam 4 * |a| ≤ ((1 + N * stepErr η) ^ N - 1) * |a| := by
        refine mul_le_mul_of_nonneg_right ?_ (abs_nonneg _)
        rw [hN, pow_succ, ← hN]
        have : 0 ≤ N * stepErr η := by positivity
        nlinarith
      rw [hN, pow_succ, ← hN] at hgc ⊢
      linarith

/-- The growth of the error of a sum of `N` terms with the coordinate known up to `η`. -/
noncomputable def growth (N : ℕ) (η : ℝ) : ℝ := (1 + N * stepErr η) ^ N - 1

theorem growth_nonneg (N : ℕ) {η : ℝ} (hη : 0 ≤ η) : 0 ≤ growth N η := by
  have : 1 ≤ (1 + N * stepErr η) ^ N := one_le_pow₀ (by have := stepErr_nonneg hη; nlinarith [(Nat.cast_nonneg N : (0 : ℝ) ≤ N), mul_nonneg (Nat.cast_nonneg N : (0 : ℝ) ≤ N) this])
  unfold growth
  linarith

/-- The same for a list given by a function. -/
theorem clenshaw_map_backward (hr : ToNearest rnd) {t τ η : ℝ} (ht : |t| ≤ 1) (hτ : |τ - t| ≤ η) (n : Nat) (a : Nat → ℝ) :
    ∃ (v : ℝ) (a' : Nat → ℝ), (doubleHeadR rnd ((List.range (n + 1)).map a) >>= fun l => (pure (clenshawR rnd l τ) : Res ℝ)) = .ok v ∧
      v = cheb1 n a' t ∧ ∑ i ∈ range (n + 1), |a' i - a i| ≤ growth (n + 1) η * ∑ i ∈ range (n + 1), |a i| := by
  obtain ⟨l', h1, h2, h3⟩ := clenshaw_backward hr ht hτ (a 0) ((List.range n).map (fun i => a (i + 1)))
  have hc : a 0 :: (List.range n).map (fun i => a (i + 1)) = (List.range (n + 1)).map a := by
    rw [List.range_succ_eq_map]
    simp [Function.comp_def]
  have hg : ∀ i ∈ range (n + 1), ((List.range (n + 1)).map a).getD i 0 = a i := fun i hi => by
    simp [List.getD, mem_range.mp hi]
  rw [hc] at h3
  refine ⟨clenshawR rnd (rnd (a 0 * 2) :: (List.range n).map (fun i => a (i + 1))) τ, fun i => l'.getD i 0, ?_, ?_, ?_⟩
  · rw [← hc]
    rfl
  · rw [h2]
    simp only [cheb1, chebT_eq, List.length_map, List.length_range]
  · simp only [distSum, absSum, List.length_map, List.length_range] at h3
    have e1 : ∑ i ∈ range (n + 1), |l'.getD i 0 - a i| = ∑ i ∈ range (n + 1), |l'.getD i 0 - ((List.range (n + 1)).map a).getD i 0| :=
      sum_congr rfl (fun i hi => by rw [hg i hi])
    have e2 : ∑ i ∈ range (n + 1), |a i| = ∑ i ∈ range (n + 1), |((List.range (n + 1)).map a).getD i 0| :=
      sum_congr rfl (fun i hi => by rw [hg i hi])
    rw [e1, e2]
    exact h3

theorem cheb1_sub_le {t : ℝ} (ht : |t| ≤ 1) (n : Nat) (a a' : Nat → ℝ) : |cheb1 n a' t - cheb1 n a t| ≤ ∑ i ∈ range (n + 1), |a' i - a i| := by
  rw [cheb1, cheb1, ← sum_sub_distrib]
  refine (abs_sum_le_sum_abs _ _).trans (sum_le_sum fun i _ => ?_)
  rw [← sub_mul, abs_mul]
  exact mul_le_of_le_one_right (abs_nonneg _) (Chebyshev.abs_eval_T_real_le_one i ht)

theorem cheb1_le {t : ℝ} (ht : |t| ≤ 1) (n : Nat) (a : Nat → ℝ) : |cheb1 n a t| ≤ ∑ i ∈ range (n + 1), |a i| := by
  have := cheb1_sub_le ht n (fun _ => 0) a
  simpa [cheb1] using this

theorem clenshaw_map_near (hr : ToNearest rnd) {t τ η : ℝ} (ht : |t| ≤ 1) (hτ : |τ - t| ≤ η) (n : Nat) (a : Nat → ℝ) :
    ∃ v : ℝ, (doubleHeadR rnd ((List.range (n + 1)).map a) >>= fun l => (pure (clenshawR rnd l τ) : Res ℝ)) = .ok v ∧
      |v - cheb1 n a t| ≤ growth (n + 1) η * ∑ i ∈ range (n + 1), |a i| := by
  obtain ⟨v, a', h1, h2, h3⟩ := clenshaw_map_backward hr ht hτ n a
  exact ⟨v, h1, h2 ▸ (cheb1_sub_le ht n a a').trans h3⟩

/-! ## The coordinate -/

theorem Domain.cond_ge {X : Domain ℝ} (hX : X.Usual) : 2 ≤ X.cond := by
  cases X with
  | segment a b =>
    have hab : a < b := hX
    rw [Domain.cond, le_div_iff₀ (by linarith)]
    have h1 := le_max_left |a| |b|
    have h2 := le_max_right |a| |b|
    have h3 := neg_abs_le a
    have h4 := le_abs_self b
    linarith
  | halfLine a => norm_num [Domain.cond]

theorem toUnitR_ok (hr : ToNearest rnd) {s : Seg ℝ} (hX : s.dom.Usual) {x : ℝ} (hx : s.dom.Mem x) :
    ∃ τ, s.toUnitR rnd x = .ok τ ∧ |τ - s.dom.unit x| ≤ gam 7 * s.dom.cond := by
  cases s with
  | closed a b =>
    have hab : a < b := hX
    obtain ⟨h1, h2⟩ : a ≤ x ∧ x ≤ b := hx
    have hd : 0 < b - a := by linarith
    have hne : rnd (b - a) ≠ 0 := toNearest_ne_zero hr hd.ne'
    refine ⟨_, by rw [Seg.toUnitR, fdiv_ok hne, Res.ok_bind, Res.pure_eq], ?_⟩
    have hn := (((((Near.exact 2).mul (Near.inv_round hr (d := b - a))).round hr).mul
      ((((Near.exact x).upto (Nat.zero_le 2)).sub
        ((((Near.exact (1 / 2)).mul ((((Near.exact b).add (Near.exact a))).round hr)).round hr))).round hr)).round hr)
    have he := hn.err
    rw [← div_eq_mul_inv] at he
    have e1 : 2 * (b - a)⁻¹ * (x - 1 / 2 * (b + a)) = (Seg.closed a b).dom.unit x := by
      show _ = (2 * x - a - b) / (b - a)
      field_simp
      ring
    rw [e1] at he
    refine he.trans (mul_le_mul (gam_mono (by norm_num)) ?_ ?_ (gam_nonneg _))
    · show _ ≤ 4 * max |a| |b| / (b - a)
      rw [abs_of_pos (inv_pos.2 hd), abs_two, show |(1 / 2 : ℝ)| = 1 / 2 by norm_num]
      have m1 := le_max_left |a| |b|
      have m2 := le_max_right |a| |b|
      have hxa : |x| ≤ max |a| |b| := abs_le_max_abs_abs h1 h2
      have : |x| + 1 / 2 * (|b| + |a|) ≤ 2 * max |a| |b| := by linarith
      calc 2 * (b - a)⁻¹ * (|x| + 1 / 2 * (|b| + |a|)) ≤ 2 * (b - a)⁻¹ * (2 * max |a| |b|) := by gcongr
        _ = _ := by field_simp; ring
    · have := hn.nonneg
      exact this
  | opened a =>
    have ha : 0 < a := hX
    have hx : a ≤ x := hx
    have hx0 : 0 < x := by linarith
    refine ⟨_, by rw [Seg.toUnitR, fdiv_ok hx0.ne', Res.ok_bind, Res.pure_eq], ?_⟩
    have hn := (((Near.exact 1).upto (Nat.zero_le 2)).sub (((Near.exact 2).mul ((Near.exact (a / x)).round hr)).round hr)).round hr
    have he := hn.err
    have e1 : 1 - 2 * (a / x) = (Seg.opened a).dom.unit x := by
      show _ = 1 - 2 * a / x
      ring
    rw [e1] at he
    refine he.trans (mul_le_mul (gam_mono (by norm_num)) ?_ hn.nonneg (gam_nonneg _))
    show _ ≤ (3 : ℝ)
    rw [abs_one, abs_two, abs_of_pos (div_pos ha hx0)]
    have : a / x ≤ 1 := (div_le_one hx0).2 hx
    linarith

theorem growth_le (n : Nat) {κ : ℝ} (hκ : 2 ≤ κ) : growth (n + 1) (gam 7 * κ) ≤ chebErr n κ := by
  have h4 : gam 4 ≤ 5 * uround := (gam_le (by norm_num)).trans (by norm_num)
  have h7 : gam 7 ≤ 8 * uround := (gam_le (by norm_num)).trans (by norm_num)
  have h40 := gam_nonneg 4
  have h70 := gam_nonneg 7
  have hu : uround = 1 / 2 ^ 53 := by unfold uround; norm_num
  have hη : gam 7 * κ ≤ 8 * uround * κ := mul_le_mul_of_nonneg_right h7 (by linarith)
  have hη0 : 0 ≤ gam 7 * κ := by positivity
  have hs : stepErr (gam 7 * κ) ≤ 25 * κ / 2 ^ 53 := by
    have h1 : gam 4 * (3 + 2 * (gam 7 * κ)) ≤ 5 * uround * (3 + 2 * (8 * uround * κ)) :=
      mul_le_mul h4 (by linarith) (by linarith) (by have := uround_nonneg; linarith)
    unfold stepErr
    rw [hu] at h1 hη
    linarith
  unfold growth chebErr
  have hs0 := stepErr_nonneg hη0
  have : (1 + ((n + 1 : ℕ) : ℝ) * stepErr (gam 7 * κ)) ≤ 1 + 25 * (n + 1) * κ / 2 ^ 53 := by
    push_cast
    have := mul_le_mul_of_nonneg_left hs (by positivity : (0 : ℝ) ≤ n + 1)
    rw [show 25 * ((n : ℝ) + 1) * κ / 2 ^ 53 = (n + 1) * (25 * κ / 2 ^ 53) by ring]
    linarith
  have h0 : 0 ≤ 1 + ((n + 1 : ℕ) : ℝ) * stepErr (gam 7 * κ) := by positivity
  have := pow_le_pow_left₀ h0 this (n + 1)
  linarith

theorem chebErr_nonneg (n : Nat) {κ : ℝ} (hκ : 2 ≤ κ) : 0 ≤ chebErr n κ :=
  (growth_nonneg _ (mul_nonneg (gam_nonneg 7) (by linarith))).trans (growth_le n hκ)

theorem unit_le {X : Domain ℝ} (hX : X.Usual) {x : ℝ} (hx : X.Mem x) : |X.unit x| ≤ 1 :=
  abs_le.2 (Domain.unitSet_subset _ (Domain.mem_unit hX hx).2)

/-- C132, one variable: in double arithmetic, whatever the coefficients held, `Evaluate` returns at each point of the domain the exact value, at this
point, of a Chebyshev series with coefficients within `chebErr n κ` of those held; so its error is at most `chebErr n κ` times the sum of their
magnitudes. -/
theorem C132_error_1d (hr : ToNearest rnd) (B : Build) {s : CS1 ℝ} (hn : s.m_ai.length = s.m_order_x + 1) (hX : s.m_x.dom.Usual) {x : ℝ}
    (hx : s.m_x.dom.Mem x) :
    ∃ v, s.evaluateR rnd B x = .ok v ∧
      (∃ a' : Nat → ℝ, v = cheb1 s.m_order_x a' (s.m_x.dom.unit x) ∧ ∑ i ∈ range (s.m_order_x + 1), |a' i - s.m_ai.getD i 0| ≤
        chebErr s.m_order_x s.m_x.dom.cond * ∑ i ∈ range (s.m_order_x + 1), |s.m_ai.getD i 0|) ∧
      |v - cheb1 s.m_order_x (fun i => s.m_ai.getD i 0) (s.m_x.dom.unit x)| ≤
        chebErr s.m_order_x s.m_x.dom.cond * ∑ i ∈ range (s.m_order_x + 1), |s.m_ai.getD i 0| := by
  obtain ⟨τ, t1, t2⟩ := toUnitR_ok hr hX hx
  have hu := unit_le hX hx
  obtain ⟨v, a', h1, h2, h3⟩ := clenshaw_map_backward hr hu t2 s.m_order_x (fun i => s.m_ai.getD i 0)
  have h4 := h3.trans (mul_le_mul_of_nonneg_right (growth_le s.m_order_x (Domain.cond_ge hX)) (sum_nonneg fun i _ => abs_nonneg _))
  refine ⟨v, ?_, ⟨a', h2, h4⟩, h2 ▸ (cheb1_sub_le hu _ _ a').trans h4⟩
  unfold CS1.evaluateR
  rw [t1, Res.ok_bind, collect_ok (fun i => s.m_ai.getD i 0) (fun i hi => ?_), Res.ok_bind]
  · exact h1
  · rw [eAt_lt (by omega)]
    simp [List.getD, List.getElem?_eq_getElem (show i < s.m_ai.length by omega)]

/-- One more variable. -/
theorem clenshaw_nested (hr : ToNearest rnd) {t τ η : ℝ} (ht : |t| ≤ 1) (hτ : |τ - t| ≤ η) {n : Nat} {r A S : Nat → ℝ} {e E : ℝ} (he : 0 ≤ e)
    (hE : growth (n + 1) η ≤ E) (h1 : ∀ i, i < n + 1 → |r i - A i| ≤ e * S i) (h2 : ∀ i, i < n + 1 → |A i| ≤ S i) :
    ∃ v : ℝ, (doubleHeadR rnd ((List.range (n + 1)).map r) >>= fun l => (pure (clenshawR rnd l τ) : Res ℝ)) = .ok v ∧
      |v - cheb1 n A t| ≤ ((1 + E) * (1 + e) - 1) * ∑ i ∈ range (n + 1), S i := by
  have hη : 0 ≤ η := (abs_nonneg _).trans hτ
  obtain ⟨v, h3, h4⟩ := clenshaw_map_near hr ht hτ n r
  refine ⟨v, h3, ?_⟩
  have hE0 := (growth_nonneg (n + 1) hη).trans hE
  have h5 : ∑ i ∈ range (n + 1), |r i| ≤ (1 + e) * ∑ i ∈ range (n + 1), S i := by
    rw [mul_sum]
    refine sum_le_sum fun i hi => ?_
    have hi := mem_range.1 hi
    have := abs_add_le (r i - A i) (A i)
    rw [sub_add_cancel] at this
    linarith [h1 i hi, h2 i hi]
  have h6 : |cheb1 n r t - cheb1 n A t| ≤ e * ∑ i ∈ range (n + 1), S i := by
    refine (cheb1_sub_le ht n A r).trans ?_
    rw [mul_sum]
    exact sum_le_sum fun i hi => h1 i (mem_range.1 hi)
  have h7 := abs_sub_le v (cheb1 n r t) (cheb1 n A t)
  have h8 : growth (n + 1) η * ∑ i ∈ range (n + 1), |r i| ≤ E * ((1 + e) * ∑ i ∈ range (n + 1), S i) :=
    mul_le_mul hE h5 (sum_nonneg fun i _ => abs_nonneg _) hE0
  linarith

theorem cheb2_nested (n m : Nat) (a : Nat → Nat → ℝ) (u v : ℝ) : cheb2 n m a u v = cheb1 n (fun i => cheb1 m (a i) v) u := by
  unfold cheb2 cheb1
  refine sum_congr rfl fun i _ => ?_
  rw [sum_mul]
  exact sum_congr rfl fun j _ => by ring

theorem cheb3_nested (n m l : Nat) (a : Nat → Nat → Nat → ℝ) (u v w : ℝ) :
    cheb3 n m l a u v w = cheb1 n (fun i => cheb1 m (fun j => cheb1 l (a i j) w) v) u := by
  unfold cheb3 cheb1
  refine sum_congr rfl fun i _ => ?_
  rw [sum_mul]
  refine sum_congr rfl fun j _ => ?_
  rw [sum_mul, sum_mul]
  exact sum_congr rfl fun k _ => by ring

/-- C132, two variables: the error is at most `(1 + e_x) (1 + e_y) - 1` times the sum of the magnitudes of the coefficients held, whatever they are. -/
theorem C132_error_2d (hr : ToNearest rnd) (B : Build) {s : CS2 ℝ} (hn : s.m_aij.rows = s.m_order_x + 1) (hm : s.m_aij.cols = s.m_order_y + 1)
    (hX : s.m_x.dom.Usual) (hY : s.m_y.dom.Usual) {x y : ℝ} (hx : s.m_x.dom.Mem x) (hy : s.m_y.dom.Mem y) :
    ∃ v, s.evaluateR rnd B x y = .ok v ∧
      |v - cheb2 s.m_order_x s.m_order_y s.m_aij.entry (s.m_x.dom.unit x) (s.m_y.dom.unit y)| ≤
        ((1 + chebErr s.m_order_x s.m_x.dom.cond) * (1 + chebErr s.m_order_y s.m_y.dom.cond) - 1) *
          ∑ i ∈ range (s.m_order_x + 1), ∑ j ∈ range (s.m_order_y + 1), |s.m_aij.entry i j| := by
  obtain ⟨τ, t1, t2⟩ := toUnitR_ok hr hX hx
  obtain ⟨σ, u1, u2⟩ := toUnitR_ok hr hY hy
  have hu := unit_le hX hx
  have hv := unit_le hY hy
  choose r hr1 hr2 using fun i => clenshaw_map_near hr hv u2 s.m_order_y (s.m_aij.entry i)
  obtain ⟨v, h1, h2⟩ := clenshaw_nested hr hu t2 (chebErr_nonneg s.m_order_y (Domain.cond_ge hY)) (growth_le s.m_order_x (Domain.cond_ge hX))
    (r := r) (A := fun i => cheb1 s.m_order_y (s.m_aij.entry i) (s.m_y.dom.unit y)) (S := fun i => ∑ j ∈ range (s.m_order_y + 1), |s.m_aij.entry i j|)
    (fun i _ => (hr2 i).trans (mul_le_mul_of_nonneg_right (growth_le s.m_order_y (Domain.cond_ge hY)) (sum_nonneg fun j _ => abs_nonneg _)))
    (fun i _ => cheb1_le hv _ _)
  refine ⟨v, ?_, by rw [cheb2_nested]; exact h2⟩
  unfold CS2.evaluateR
  rw [t1, Res.ok_bind, u1, Res.ok_bind, collect_ok r (fun i hi => ?_), Res.ok_bind]
  · exact h1
  · rw [Mat.row, if_pos (by omega), Res.ok_bind, hm]
    exact hr1 i

/-- C132, three variables. -/
theorem C132_error_3d (hr : ToNearest rnd) (B : Build) {s : CS3 ℝ} (hl : s.m_aijk.length = s.m_order_z + 1)
    (hn : ∀ M ∈ s.m_aijk, M.rows = s.m_order_x + 1 ∧ M.cols = s.m_order_y + 1)
    (hX : s.m_x.dom.Usual) (hY : s.m_y.dom.Usual) (hZ : s.m_z.dom.Usual) {x y z : ℝ} (hx : s.m_x.dom.Mem x) (hy : s.m_y.dom.Mem y)
    (hz : s.m_z.dom.Mem z) :
    let a : Nat → Nat → Nat → ℝ := fun i j k => (s.m_aijk[k]?.getD (Mat.zero 0 0)).entry i j
    ∃ v, s.evaluateR rnd B x y z = .ok v ∧
      |v - cheb3 s.m_order_x s.m_order_y s.m_order_z a (s.m_x.dom.unit x) (s.m_y.dom.unit y) (s.m_z.dom.unit z)| ≤
        ((1 + chebErr s.m_order_x s.m_x.dom.cond) * (1 + chebErr s.m_order_y s.m_y.dom.cond) * (1 + chebErr s.m_order_z s.m_z.dom.cond) - 1) *
          ∑ i ∈ range (s.m_order_x + 1), ∑ j ∈ range (s.m_order_y + 1), ∑ k ∈ range (s.m_order_z + 1), |a i j k| := by
  intro a
  obtain ⟨τ, t1, t2⟩ := toUnitR_ok hr hX hx
  obtain ⟨σ, u1, u2⟩ := toUnitR_ok hr hY hy
  obtain ⟨ω, w1, w2⟩ := toUnitR_ok hr hZ hz
  have hu := unit_le hX hx
  have hv := unit_le hY hy
  have hw := unit_le hZ hz
  have ex := chebErr_nonneg s.m_order_x (Domain.cond_ge hX)
  have ey := chebErr_nonneg s.m_order_y (Domain.cond_ge hY)
  have ez := chebErr_nonneg s.m_order_z (Domain.cond_ge hZ)
  choose p hp1 hp2 using fun i j => clenshaw_map_near hr hw w2 s.m_order_z (a i j)
  choose r hr1 hr2 using fun i => clenshaw_nested hr hv u2 ez (growth_le s.m_order_y (Domain.cond_ge hY)) (r := p i)
    (A := fun j => cheb1 s.m_order_z (a i j) (s.m_z.dom.unit z)) (S := fun j => ∑ k ∈ range (s.m_order_z + 1), |a i j k|)
    (fun j _ => (hp2 i j).trans (mul_le_mul_of_nonneg_right (growth_le s.m_order_z (Domain.cond_ge hZ)) (sum_nonneg fun k _ => abs_nonneg _)))
    (fun j _ => cheb1_le hw _ _)
  obtain ⟨v, h1, h2⟩ := clenshaw_nested hr hu t2 (e := (1 + chebErr s.m_order_y s.m_y.dom.cond) * (1 + chebErr s.m_order_z s.m_z.dom.cond) - 1)
    (by nlinarith) (growth_le s.m_order_x (Domain.cond_ge hX)) (r := r)
    (A := fun i => cheb1 s.m_order_y (fun j => cheb1 s.m_order_z (a i j) (s.m_z.dom.unit z)) (s.m_y.dom.unit y))
    (S := fun i => ∑ j ∈ range (s.m_order_y + 1), ∑ k ∈ range (s.m_order_z + 1), |a i j k|) (fun i _ => hr2 i)
    (fun i _ => (cheb1_le hv _ _).trans (sum_le_sum fun j _ => cheb1_le hw _ _))
  refine ⟨v, ?_, ?_⟩
  · unfold CS3.evaluateR
    rw [t1, Res.ok_bind, u1, Res.ok_bind, w1, Res.ok_bind, collect_ok r (fun i hi => ?_), Res.ok_bind]
    · exact h1
    · rw [collect_ok (p i) (fun j hj => ?_), Res.ok_bind]
      · exact hr1 i
      · rw [collect_ok (a i j) (fun k hk => ?_), Res.ok_bind]
        · exact hp1 i j
        · have hk' : k < s.m_aijk.length := by omega
          obtain ⟨g1, g2⟩ := hn _ (List.getElem_mem hk')
          rw [cubeGet, vAt_lt hk', Res.ok_bind, Mat.at', if_pos ⟨by omega, by omega⟩]
          simp [a, List.getElem?_eq_getElem hk']
  · rw [cheb3_nested]
    refine h2.trans (le_of_eq ?_)
    ring

/-- C132: the hypotheses are met, with coefficients that `Compute_ai` need not give. -/
example : ∃ rnd, ToNearest rnd ∧ ∃ v, CS1.evaluateR rnd ⟨true⟩ ⟨fun _ => 0, 2, .closed (-1) 3, [1, 2, -1]⟩ 3 = .ok v ∧ |v - 2| < 1 / 10 ^ 11 := by
  refine ⟨_, roundNearest_toNearest, ?_⟩
  obtain ⟨v, h1, -, h2⟩ := C132_error_1d roundNearest_toNearest ⟨true⟩ (s := ⟨fun _ => 0, 2, .closed (-1) 3, [1, 2, -1]⟩) rfl
    (show (-1 : ℝ) < 3 by norm_num) (x := 3) ⟨by norm_num, le_rfl⟩
  refine ⟨v, h1, ?_⟩
  have e1 : (Seg.closed (-1 : ℝ) 3).dom.unit 3 = 1 := by norm_num [Seg.dom, Domain.unit]
  have e2 : (Seg.closed (-1 : ℝ) 3).dom.cond = 3 := by
    show 4 * max |(-1 : ℝ)| |3| / (3 - -1) = 3
    norm_num
  simp only [e1, e2] at h2
  norm_num [cheb1, chebErr, sum_range_succ] at h2
  refine lt_of_le_of_lt (le_trans (le_of_eq ?_) h2) (by norm_num)
  norm_num

/-- In two variables, for a half line. -/
example : (Domain.halfLine (2 : ℝ)).Usual ∧ (Domain.halfLine (2 : ℝ)).Mem 7 ∧ (Domain.halfLine (2 : ℝ)).cond = 3 ∧
    (CS2.opened (fun x y => x + y) 2 (1 : ℝ) 3 4).m_aij.rows = 3 + 1 := ⟨by norm_num [Domain.Usual], by norm_num [Domain.Mem], rfl, rfl⟩

end MU
