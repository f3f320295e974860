import Verif.Model.Triangle
import Verif.Spec.Triangle
import Verif.Lemmas.Loops
import Mathlib.MeasureTheory.Integral.IntervalIntegral.FundThmCalculus
import Mathlib.Analysis.Calculus.Deriv.Pow
import Mathlib.Data.Nat.Factorial.Basic
import Mathlib.Tactic.FieldSimp
import Mathlib.Tactic.Linarith
import Mathlib.Tactic.Ring
import Mathlib.Tactic.IntervalCases
import Mathlib.Analysis.SpecialFunctions.Integrals.Basic
import Mathlib.Analysis.InnerProductSpace.PiL2

set_option linter.unusedSectionVars false

/-!
# The triangle quadrature: its tables and its closed form
-/

namespace MU
open Finset

/-- The table of an order. -/
def tableOf : Nat → QTable
  | 1 => table1 | 2 => table2 | 3 => table3 | 4 => table4 | 5 => table5 | 6 => table6 | 7 => table7 | _ => table8

theorem tables_read {k : Nat} (h1 : 1 ≤ k) (h8 : k ≤ 8) :
    triangleTables.alpha k = .ok (tableOf k).alpha ∧ triangleTables.beta k = .ok (tableOf k).beta ∧
    triangleTables.weight k = .ok (tableOf k).weight ∧ (tableOf k).alpha.length = (tableOf k).weight.length ∧
    (tableOf k).beta.length = (tableOf k).weight.length ∧ 0 < (tableOf k).weight.length := by
  interval_cases k <;> exact ⟨rfl, rfl, rfl, rfl, rfl, by decide⟩

theorem tables_size : triangleTables.size = 8 := rfl

/-- The quadrature over the standard triangle as a sum. -/
noncomputable def qsum {T : Type} [AddCommGroup T] [Module ℝ T] (t : QTable) (G : ℝ → ℝ → T) : T :=
  ∑ i ∈ range t.weight.length, ((t.weight.getD i 0 : ℚ) : ℝ) • G ((t.alpha.getD i 0 : ℚ) : ℝ) ((t.beta.getD i 0 : ℚ) : ℝ)

theorem triVAt {K : Type} [Zero K] {l : List K} {i : Nat} (h : i < l.length) : vAt l i = .ok (l.getD i 0) := by
  rw [vAt_lt h]
  simp [List.getD, List.getElem?_eq_getElem h]

theorem point_eq (v1 v2 v3 : V3) (a b : ℝ) : (1 - a - b) • v1 + a • v2 + b • v3 = Spec.barPoint v1 v2 v3 a b := by
  funext j
  simp [Spec.barPoint]

theorem standard_ok {T : Type} [AddCommGroup T] [Module ℝ T] (F : V3 → T) {k : Nat} (h1 : 1 ≤ k) (h8 : k ≤ 8) (v1 v2 v3 : V3) :
    Integration2dTriangle.computeOverStandardTriangle ⟨F, k, triangleTables⟩ v1 v2 v3
      = .ok ((1 / 2 : ℝ) • qsum (tableOf k) (fun a b => F (Spec.barPoint v1 v2 v3 a b))) := by
  obtain ⟨ha, hb, hw, hla, hlb, hpos⟩ := tables_read h1 h8
  unfold Integration2dTriangle.computeOverStandardTriangle
  simp only [ha, hb, hw, Res.ok_bind]
  set t := tableOf k with ht
  set G : ℝ → ℝ → T := fun a b => F (Spec.barPoint v1 v2 v3 a b) with hG
  set g : Nat → T := fun i => ((t.weight.getD i 0 : ℚ) : ℝ) • G ((t.alpha.getD i 0 : ℚ) : ℝ) ((t.beta.getD i 0 : ℚ) : ℝ) with hg
  have hloop := forRange_ok (Nat.zero_le t.weight.length)
    (f := fun i result => (do
      let a ← vAt t.alpha i
      let b ← vAt t.beta i
      let x : V3 := (1 - (a : ℝ) - (b : ℝ)) • v1 + (a : ℝ) • v2 + (b : ℝ) • v3
      let w ← vAt t.weight i
      if i = 0 then return some ((w : ℝ) • F x)
      else do
        let r ← readVar result
        return some (r + (w : ℝ) • F x) : Res (Option T)))
    (fun i => if i = 0 then none else some (∑ j ∈ range i, g j)) (by
      intro i _ hi
      simp only [triVAt (show i < t.alpha.length by omega), triVAt (show i < t.beta.length by omega), triVAt hi, Res.ok_bind, point_eq]
      by_cases h0 : i = 0
      · subst h0
        simp [hg, hG]
      · simp only [h0, if_false, readVar, Res.ok_bind, Nat.succ_ne_zero, sum_range_succ]
        rfl)
  simp only [if_true] at hloop
  rw [hloop]
  simp only [show t.weight.length ≠ 0 by omega, if_false, readVar, Res.ok_bind]
  rfl

theorem gram_cross (v1 v2 v3 : V3) : 1 / 2 * V3.norm (V3.cross (v1 - v3) (v2 - v3)) = Spec.area v1 v2 v3 := by
  unfold V3.norm Spec.area V3.cross Spec.dot3
  congr 2
  simp [Fin.sum_univ_three]
  ring

theorem compute_ok {T : Type} [AddCommGroup T] [Module ℝ T] (F : V3 → T) {k : Nat} (h1 : 1 ≤ k) (h8 : k ≤ 8) (v1 v2 v3 : V3) :
    Integration2dTriangle.compute ⟨F, k, triangleTables⟩ v1 v2 v3
      = .ok (Spec.area v1 v2 v3 • qsum (tableOf k) (fun a b => F (Spec.barPoint v1 v2 v3 a b))) := by
  unfold Integration2dTriangle.compute
  rw [standard_ok F h1 h8]
  simp only [Res.ok_bind, gram_cross, smul_smul]
  congr 1
  congr 1
  ring

theorem new_ok {T : Type} (F : V3 → T) {k : Nat} (h1 : 1 ≤ k) (h8 : k ≤ 8) :
    Integration2dTriangle.new F k = .ok ⟨F, k, triangleTables⟩ := by
  unfold Integration2dTriangle.new
  have h := tables_size
  rw [if_neg (by omega), if_neg (by omega)]

/-! ## Exact moments of the standard triangle -/

theorem beta_int (n p : Nat) : ∫ a in (0 : ℝ)..1, a ^ p * (1 - a) ^ n = (p.factorial * n.factorial : ℝ) / (p + n + 1).factorial := by
  induction n generalizing p with
  | zero =>
    simp only [pow_zero, mul_one, integral_pow, Nat.factorial_zero, Nat.cast_one, add_zero]
    rw [Nat.factorial_succ]
    push_cast
    have : (p.factorial : ℝ) ≠ 0 := by positivity
    have : (p + 1 : ℝ) ≠ 0 := by positivity
    field_simp
    simp
  | succ n ih =>
    have key : ∫ a in (0 : ℝ)..1, ((p + 1 : ℝ) * (a ^ p * (1 - a) ^ (n + 1)) - (n + 1 : ℝ) * (a ^ (p + 1) * (1 - a) ^ n)) = 0 := by
      have hd : ∀ a ∈ Set.uIcc (0 : ℝ) 1, HasDerivAt (fun a : ℝ => a ^ (p + 1) * (1 - a) ^ (n + 1))
          ((p + 1 : ℝ) * (a ^ p * (1 - a) ^ (n + 1)) - (n + 1 : ℝ) * (a ^ (p + 1) * (1 - a) ^ n)) a := by
        intro a _
        have h1 : HasDerivAt (fun a : ℝ => a ^ (p + 1)) ((p + 1 : ℝ) * a ^ p) a := by
          simpa using hasDerivAt_pow (p + 1) a
        have h2 : HasDerivAt (fun a : ℝ => (1 - a) ^ (n + 1)) ((n + 1 : ℝ) * (1 - a) ^ n * (-1)) a := by
          have := ((hasDerivAt_id a).const_sub 1).pow (n + 1)
          refine (this.congr_deriv ?_)
          simp
        have := h1.mul h2
        refine this.congr_deriv ?_
        ring
      rw [intervalIntegral.integral_eq_sub_of_hasDerivAt hd (Continuous.intervalIntegrable (by fun_prop) _ _)]
      simp
    rw [intervalIntegral.integral_sub (Continuous.intervalIntegrable (by fun_prop) _ _) (Continuous.intervalIntegrable (by fun_prop) _ _),
      intervalIntegral.integral_const_mul, intervalIntegral.integral_const_mul, ih (p + 1)] at key
    have hp : (p + 1 : ℝ) ≠ 0 := by positivity
    have e : ∫ a in (0 : ℝ)..1, a ^ p * (1 - a) ^ (n + 1)
        = (n + 1 : ℝ) * (((p + 1).factorial * n.factorial : ℝ) / (p + 1 + n + 1).factorial) / (p + 1 : ℝ) := by
      rw [eq_div_iff hp]
      linarith
    rw [e, show p + 1 + n + 1 = p + (n + 1) + 1 by ring, Nat.factorial_succ p, Nat.factorial_succ n]
    have : ((p + (n + 1) + 1).factorial : ℝ) ≠ 0 := by positivity
    push_cast
    field_simp

theorem moment (p q : Nat) :
    ∫ a in (0 : ℝ)..1, ∫ b in (0 : ℝ)..(1 - a), a ^ p * b ^ q = (p.factorial * q.factorial : ℝ) / (p + q + 2).factorial := by
  have : ∀ a : ℝ, ∫ b in (0 : ℝ)..(1 - a), a ^ p * b ^ q = (1 / (q + 1 : ℝ)) * (a ^ p * (1 - a) ^ (q + 1)) := by
    intro a
    rw [intervalIntegral.integral_const_mul, integral_pow]
    simp
    ring
  simp only [this]
  rw [intervalIntegral.integral_const_mul, beta_int, Nat.factorial_succ q, show p + (q + 1) + 1 = p + q + 2 by ring]
  have : ((p + q + 2).factorial : ℝ) ≠ 0 := by positivity
  have : (q + 1 : ℝ) ≠ 0 := by positivity
  push_cast
  field_simp

/-! ## The moments of the tables -/

/-- The moment of a table. -/
def qmoment (t : QTable) (p q : Nat) : ℚ :=
  ∑ i ∈ range t.weight.length, t.weight.getD i 0 * (t.alpha.getD i 0 ^ p * t.beta.getD i 0 ^ q)

/-- The same by structural recursion, for the kernel. -/
def lmoment : List ℚ → List ℚ → List ℚ → Nat → Nat → ℚ
  | w :: ws, a :: as, b :: bs, p, q => w * (a ^ p * b ^ q) + lmoment ws as bs p q
  | _, _, _, _, _ => 0

theorem lmoment_eq (ws as bs : List ℚ) (ha : as.length = ws.length) (hb : bs.length = ws.length) (p q : Nat) :
    lmoment ws as bs p q = ∑ i ∈ range ws.length, ws.getD i 0 * (as.getD i 0 ^ p * bs.getD i 0 ^ q) := by
  induction ws generalizing as bs with
  | nil => simp [lmoment]
  | cons w ws ih =>
    obtain _ | ⟨a, as⟩ := as
    · simp at ha
    obtain _ | ⟨b, bs⟩ := bs
    · simp at hb
    simp only [lmoment, List.length_cons, sum_range_succ', List.getD_cons_succ, List.getD_cons_zero]
    rw [ih as bs (by simpa using ha) (by simpa using hb)]
    ring

theorem moment_check : ∀ k ∈ [1, 2, 3, 4, 5, 6, 7, 8], ∀ p ∈ List.range (k + 1), ∀ q ∈ List.range (k + 1 - p),
    (lmoment (tableOf k).weight (tableOf k).alpha (tableOf k).beta p q - 2 * ((p.factorial * q.factorial : ℚ) / (p + q + 2).factorial) ≤ 3 / 10 ^ 14 ∧
     2 * ((p.factorial * q.factorial : ℚ) / (p + q + 2).factorial) - lmoment (tableOf k).weight (tableOf k).alpha (tableOf k).beta p q ≤ 3 / 10 ^ 14) := by
  decide +kernel

theorem moment_error {k p q : Nat} (h1 : 1 ≤ k) (h8 : k ≤ 8) (hpq : p + q ≤ k) :
    |qmoment (tableOf k) p q - 2 * ((p.factorial * q.factorial : ℚ) / (p + q + 2).factorial)| ≤ 3 / 10 ^ 14 := by
  obtain ⟨-, -, -, hla, hlb, -⟩ := tables_read h1 h8
  have := moment_check k (by interval_cases k <;> simp) p (by simp; omega) q (by simp; omega)
  rw [lmoment_eq _ _ _ hla hlb] at this
  rw [abs_le]
  unfold qmoment
  constructor <;> linarith [this.1, this.2]

/-! ## Polynomials -/

theorem qsum_poly (t : QTable) (k : Nat) (c : Nat → Nat → ℝ) :
    qsum t (Spec.triPoly k c) = ∑ p ∈ range (k + 1), ∑ q ∈ range (k + 1 - p), c p q * ((qmoment t p q : ℚ) : ℝ) := by
  unfold qsum Spec.triPoly qmoment
  simp only [smul_eq_mul, mul_sum, Rat.cast_sum, Rat.cast_mul, Rat.cast_pow]
  rw [sum_comm]
  refine sum_congr rfl (fun p _ => ?_)
  rw [sum_comm]
  refine sum_congr rfl (fun q _ => ?_)
  refine sum_congr rfl (fun i _ => ?_)
  ring

theorem integral_poly (k : Nat) (c : Nat → Nat → ℝ) :
    ∫ a in (0 : ℝ)..1, ∫ b in (0 : ℝ)..(1 - a), Spec.triPoly k c a b
      = ∑ p ∈ range (k + 1), ∑ q ∈ range (k + 1 - p), c p q * ((p.factorial * q.factorial : ℝ) / (p + q + 2).factorial) := by
  unfold Spec.triPoly
  have inner : ∀ a : ℝ, ∫ b in (0 : ℝ)..(1 - a), ∑ p ∈ range (k + 1), ∑ q ∈ range (k + 1 - p), c p q * a ^ p * b ^ q
      = ∑ p ∈ range (k + 1), ∑ q ∈ range (k + 1 - p), c p q * ((1 / (q + 1 : ℝ)) * (a ^ p * (1 - a) ^ (q + 1))) := by
    intro a
    rw [intervalIntegral.integral_finset_sum (fun p _ => Continuous.intervalIntegrable (by fun_prop) _ _)]
    refine sum_congr rfl (fun p _ => ?_)
    rw [intervalIntegral.integral_finset_sum (fun q _ => Continuous.intervalIntegrable (by fun_prop) _ _)]
    refine sum_congr rfl (fun q _ => ?_)
    rw [intervalIntegral.integral_const_mul, integral_pow]
    simp
    ring
  simp only [inner]
  rw [intervalIntegral.integral_finset_sum (fun p _ => Continuous.intervalIntegrable (by fun_prop) _ _)]
  refine sum_congr rfl (fun p _ => ?_)
  rw [intervalIntegral.integral_finset_sum (fun q _ => Continuous.intervalIntegrable (by fun_prop) _ _)]
  refine sum_congr rfl (fun q _ => ?_)
  rw [intervalIntegral.integral_const_mul, intervalIntegral.integral_const_mul, beta_int, Nat.factorial_succ q,
    show p + (q + 1) + 1 = p + q + 2 by ring]
  have : ((p + q + 2).factorial : ℝ) ≠ 0 := by positivity
  have : (q + 1 : ℝ) ≠ 0 := by positivity
  push_cast
  field_simp

theorem poly_error {k : Nat} (h1 : 1 ≤ k) (h8 : k ≤ 8) (c : Nat → Nat → ℝ) :
    |qsum (tableOf k) (Spec.triPoly k c) - 2 * ∫ a in (0 : ℝ)..1, ∫ b in (0 : ℝ)..(1 - a), Spec.triPoly k c a b|
      ≤ 3 / 10 ^ 14 * Spec.coefSum k c := by
  rw [qsum_poly, integral_poly, mul_sum, ← sum_sub_distrib]
  unfold Spec.coefSum
  rw [mul_sum]
  refine (abs_sum_le_sum_abs _ _).trans (sum_le_sum (fun p hp => ?_))
  rw [mul_sum, ← sum_sub_distrib, mul_sum]
  refine (abs_sum_le_sum_abs _ _).trans (sum_le_sum (fun q hq => ?_))
  have hm := moment_error h1 h8 (p := p) (q := q) (by simp at hp hq; omega)
  have hm' : |((qmoment (tableOf k) p q : ℚ) : ℝ) - 2 * ((p.factorial * q.factorial : ℝ) / (p + q + 2).factorial)| ≤ 3 / 10 ^ 14 := by
    have := (Rat.cast_le (K := ℝ)).2 hm
    push_cast at this
    exact this
  rw [show c p q * ((qmoment (tableOf k) p q : ℚ) : ℝ) - 2 * (c p q * ((p.factorial * q.factorial : ℝ) / (p + q + 2).factorial))
    = (((qmoment (tableOf k) p q : ℚ) : ℝ) - 2 * ((p.factorial * q.factorial : ℝ) / (p + q + 2).factorial)) * c p q by ring, abs_mul]
  exact mul_le_mul_of_nonneg_right hm' (abs_nonneg _)

/-! ## Renaming the vertices -/

/-- The Gauss point where the second and the third coordinates are exchanged. -/
def swap23 : Nat → List Nat
  | 1 => [0]
  | 2 => [0, 2, 1]
  | 3 => [0, 1, 3, 2]
  | 4 => [0, 2, 1, 3, 5, 4]
  | 5 => [0, 1, 3, 2, 4, 6, 5]
  | 6 => [0, 2, 1, 3, 5, 4, 9, 11, 10, 6, 8, 7]
  | 7 => [0, 1, 3, 2, 4, 6, 5, 10, 12, 11, 7, 9, 8]
  | _ => [0, 1, 3, 2, 4, 6, 5, 7, 9, 8, 13, 15, 14, 10, 12, 11]

/-- The Gauss point where the first and the second coordinates are exchanged. -/
def swap12 : Nat → List Nat
  | 1 => [0]
  | 2 => [2, 1, 0]
  | 3 => [0, 3, 2, 1]
  | 4 => [2, 1, 0, 5, 4, 3]
  | 5 => [0, 3, 2, 1, 6, 5, 4]
  | 6 => [2, 1, 0, 5, 4, 3, 11, 10, 9, 8, 7, 6]
  | 7 => [0, 3, 2, 1, 6, 5, 4, 12, 11, 10, 9, 8, 7]
  | _ => [0, 3, 2, 1, 6, 5, 4, 9, 8, 7, 15, 14, 13, 12, 11, 10]

theorem swap23_check : ∀ k ∈ [1, 2, 3, 4, 5, 6, 7, 8], ∀ i ∈ List.range (tableOf k).weight.length,
    let j := (swap23 k).getD i 0
    j < (tableOf k).weight.length ∧ (swap23 k).getD j 0 = i ∧ (tableOf k).weight.getD j 0 = (tableOf k).weight.getD i 0 ∧
    (tableOf k).alpha.getD j 0 = (tableOf k).beta.getD i 0 ∧ (tableOf k).beta.getD j 0 = (tableOf k).alpha.getD i 0 := by
  decide +kernel

theorem swap12_check : ∀ k ∈ [1, 2, 3, 4, 5, 6, 7, 8], ∀ i ∈ List.range (tableOf k).weight.length,
    let j := (swap12 k).getD i 0
    j < (tableOf k).weight.length ∧ (swap12 k).getD j 0 = i ∧ (tableOf k).weight.getD j 0 = (tableOf k).weight.getD i 0 ∧
    ((tableOf k).alpha.getD j 0 - (1 - (tableOf k).alpha.getD i 0 - (tableOf k).beta.getD i 0) ≤ 1 / 10 ^ 14 ∧
     (1 - (tableOf k).alpha.getD i 0 - (tableOf k).beta.getD i 0) - (tableOf k).alpha.getD j 0 ≤ 1 / 10 ^ 14) ∧
    ((tableOf k).beta.getD j 0 - (tableOf k).beta.getD i 0 ≤ 1 / 10 ^ 14 ∧
     (tableOf k).beta.getD i 0 - (tableOf k).beta.getD j 0 ≤ 1 / 10 ^ 14) := by
  decide +kernel

/-- The sum of the magnitudes of the weights. -/
def labs : List ℚ → ℚ
  | [] => 0
  | w :: ws => (if w < 0 then -w else w) + labs ws

theorem labs_eq (ws : List ℚ) : labs ws = ∑ i ∈ range ws.length, |ws.getD i 0| := by
  induction ws with
  | nil => simp [labs]
  | cons w ws ih =>
    simp only [labs, List.length_cons, sum_range_succ', List.getD_cons_succ, List.getD_cons_zero, ih]
    split
    · rw [abs_of_neg ‹_›]; ring
    · rw [abs_of_nonneg (not_lt.1 ‹_›)]; ring

theorem labs_check : ∀ k ∈ [1, 2, 3, 4, 5, 6, 7, 8], labs (tableOf k).weight ≤ 5 / 2 := by decide +kernel

theorem mem8 {k : Nat} (h1 : 1 ≤ k) (h8 : k ≤ 8) : k ∈ [1, 2, 3, 4, 5, 6, 7, 8] := by interval_cases k <;> simp

theorem qsum_swap23 {T : Type} [AddCommGroup T] [Module ℝ T] {k : Nat} (h1 : 1 ≤ k) (h8 : k ≤ 8) (G : ℝ → ℝ → T) :
    qsum (tableOf k) (fun a b => G b a) = qsum (tableOf k) G := by
  unfold qsum
  have hc := swap23_check k (mem8 h1 h8)
  refine sum_nbij' (fun i => (swap23 k).getD i 0) (fun i => (swap23 k).getD i 0) ?_ ?_ ?_ ?_ ?_
  · intro i hi
    simpa using (hc i (by simpa using hi)).1
  · intro i hi
    simpa using (hc i (by simpa using hi)).1
  · intro i hi
    exact (hc i (by simpa using hi)).2.1
  · intro i hi
    exact (hc i (by simpa using hi)).2.1
  · intro i hi
    obtain ⟨-, -, hw, ha, hb⟩ := hc i (by simpa using hi)
    simp only [hw, ha, hb]

theorem qsum_swap12 {T : Type} [NormedAddCommGroup T] [NormedSpace ℝ T] {k : Nat} (h1 : 1 ≤ k) (h8 : k ≤ 8) (G : ℝ → ℝ → T) {M : ℝ}
    (hM : 0 ≤ M) (hG : ∀ a b a' b', |a - a'| ≤ 1 / 10 ^ 14 → |b - b'| ≤ 1 / 10 ^ 14 → ‖G a b - G a' b'‖ ≤ M) :
    ‖qsum (tableOf k) (fun a b => G (1 - a - b) b) - qsum (tableOf k) G‖ ≤ 5 / 2 * M := by
  have hc := swap12_check k (mem8 h1 h8)
  have e : qsum (tableOf k) G = ∑ i ∈ range (tableOf k).weight.length, (((tableOf k).weight.getD i 0 : ℚ) : ℝ) •
      G (((tableOf k).alpha.getD ((swap12 k).getD i 0) 0 : ℚ) : ℝ) (((tableOf k).beta.getD ((swap12 k).getD i 0) 0 : ℚ) : ℝ) := by
    unfold qsum
    refine sum_nbij' (fun i => (swap12 k).getD i 0) (fun i => (swap12 k).getD i 0) ?_ ?_ ?_ ?_ ?_
    · intro i hi
      simpa using (hc i (by simpa using hi)).1
    · intro i hi
      simpa using (hc i (by simpa using hi)).1
    · intro i hi
      exact (hc i (by simpa using hi)).2.1
    · intro i hi
      exact (hc i (by simpa using hi)).2.1
    · intro i hi
      obtain ⟨-, hj, hw, -⟩ := hc i (by simpa using hi)
      simp only [hw, hj]
  rw [e]
  unfold qsum
  rw [← sum_sub_distrib]
  have hl : ∑ i ∈ range (tableOf k).weight.length, |(((tableOf k).weight.getD i 0 : ℚ) : ℝ)| ≤ 5 / 2 := by
    have := labs_check k (mem8 h1 h8)
    rw [labs_eq] at this
    have := (Rat.cast_le (K := ℝ)).2 this
    push_cast at this
    exact this
  refine (norm_sum_le _ _).trans (le_trans (sum_le_sum (g := fun i => |(((tableOf k).weight.getD i 0 : ℚ) : ℝ)| * M) ?_) ?_)
  · intro i hi
    obtain ⟨-, -, -, ⟨ha1, ha2⟩, hb1, hb2⟩ := hc i (by simpa using hi)
    rw [← smul_sub, norm_smul, Real.norm_eq_abs]
    refine mul_le_mul_of_nonneg_left (hG _ _ _ _ ?_ ?_) (abs_nonneg _)
    · rw [abs_le]
      constructor
      · have := (Rat.cast_le (K := ℝ)).2 ha1
        push_cast at this
        linarith
      · have := (Rat.cast_le (K := ℝ)).2 ha2
        push_cast at this
        linarith
    · rw [abs_le]
      constructor
      · have := (Rat.cast_le (K := ℝ)).2 hb1
        push_cast at this
        linarith
      · have := (Rat.cast_le (K := ℝ)).2 hb2
        push_cast at this
        linarith
  · rw [← sum_mul]
    exact mul_le_mul_of_nonneg_right hl hM

theorem area_swap23 (v1 v2 v3 : V3) : Spec.area v1 v3 v2 = Spec.area v1 v2 v3 := by
  unfold Spec.area Spec.dot3
  congr 2
  simp [Fin.sum_univ_three]
  ring

theorem area_swap12 (v1 v2 v3 : V3) : Spec.area v2 v1 v3 = Spec.area v1 v2 v3 := by
  unfold Spec.area Spec.dot3
  congr 2
  simp [Fin.sum_univ_three]
  ring

theorem point_swap23 (v1 v2 v3 : V3) (a b : ℝ) : Spec.barPoint v1 v3 v2 a b = Spec.barPoint v1 v2 v3 b a := by
  funext j
  simp [Spec.barPoint]
  ring

theorem point_swap12 (v1 v2 v3 : V3) (a b : ℝ) : Spec.barPoint v2 v1 v3 a b = Spec.barPoint v1 v2 v3 (1 - a - b) b := by
  funext j
  simp [Spec.barPoint]
  ring

theorem dist3_eq (x y : V3) : Spec.dist3 x y = ‖WithLp.toLp 2 (x - y)‖ := by
  rw [EuclideanSpace.norm_eq]
  simp [Spec.dist3, Fin.sum_univ_three, sq_abs]

theorem point_dist (v1 v2 v3 : V3) (a b a' b' : ℝ) :
    Spec.dist3 (Spec.barPoint v1 v2 v3 a b) (Spec.barPoint v1 v2 v3 a' b') ≤ |a - a'| * Spec.dist3 v2 v1 + |b - b'| * Spec.dist3 v3 v1 := by
  rw [dist3_eq, dist3_eq, dist3_eq]
  have : WithLp.toLp 2 (Spec.barPoint v1 v2 v3 a b - Spec.barPoint v1 v2 v3 a' b')
      = (a - a') • WithLp.toLp 2 (v2 - v1) + (b - b') • WithLp.toLp 2 (v3 - v1) := by
    ext j
    simp [Spec.barPoint]
    ring
  rw [this]
  refine (norm_add_le _ _).trans ?_
  rw [norm_smul, norm_smul, Real.norm_eq_abs, Real.norm_eq_abs]

end MU
