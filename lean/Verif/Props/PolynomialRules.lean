import Verif.Props.PowerSeries
import Mathlib.Algebra.Polynomial.Roots
import Mathlib.Algebra.Polynomial.BigOperators
import Mathlib.Analysis.Complex.Basic
import Mathlib.Data.List.GetD

/-!
# C219: rules of polynomials given by their coefficients
-/

set_option linter.unusedSectionVars false

namespace MU

open Finset

section algebra
variable {K A : Type} [Field K] [Field A] [Algebra K A]

/-- The value of the polynomial, by the places of the coefficients. -/
theorem horner_val {c : List K} {n : Nat} (hn : c.length = n) (h0 : 0 < n) (x : A) :
    horner c x = .ok (∑ i ∈ range n, algebraMap K A (c.getD i 0) * x ^ i) := by
  rw [(C27_horner c x).1 (by intro e; rw [e] at hn; simp at hn; omega), hn]

/-- **C219**: the polynomial of a combination of coefficients is the combination of the polynomials. -/
theorem C219_linear (k : K) {a b : List K} (ha : a ≠ []) (hab : b.length = a.length) (x : A) :
    ∃ u v, horner a x = .ok u ∧ horner b x = .ok v ∧ horner (List.zipWith (fun s t => k * s + t) a b) x = .ok (algebraMap K A k * u + v) := by
  have h0 : 0 < a.length := List.length_pos_of_ne_nil ha
  refine ⟨_, _, horner_val rfl h0 x, horner_val hab h0 x, ?_⟩
  rw [horner_val (n := a.length) (by simp [hab]) h0 x, Finset.mul_sum, ← Finset.sum_add_distrib]
  congr 1
  refine Finset.sum_congr rfl (fun i hi => ?_)
  have hi' := Finset.mem_range.1 hi
  have e : (List.zipWith (fun s t => k * s + t) a b).getD i 0 = k * a.getD i 0 + b.getD i 0 := by
    simp [List.getD_eq_getElem?_getD, List.getElem?_zipWith, hi', hab]
  rw [e, map_add, map_mul]
  ring

/-- **C219**: coefficients put one after the other: the second polynomial is multiplied by the power of the point. -/
theorem C219_joined {a b : List K} (ha : a ≠ []) (hb : b ≠ []) (x : A) :
    ∃ u v, horner a x = .ok u ∧ horner b x = .ok v ∧ horner (a ++ b) x = .ok (u + x ^ a.length * v) := by
  have h0 : 0 < a.length := List.length_pos_of_ne_nil ha
  refine ⟨_, _, horner_val rfl h0 x, horner_val rfl (List.length_pos_of_ne_nil hb) x, ?_⟩
  rw [horner_val (n := a.length + b.length) (by simp) (by omega) x, Finset.sum_range_add, Finset.mul_sum]
  congr 2
  · refine Finset.sum_congr rfl (fun i hi => ?_)
    rw [List.getD_append _ _ _ _ (Finset.mem_range.1 hi)]
  · refine Finset.sum_congr rfl (fun i hi => ?_)
    rw [List.getD_append_right _ _ _ _ (by omega), Nat.add_sub_cancel_left, pow_add]
    ring

/-- **C219**: zeros put after the coefficients change nothing. -/
theorem C219_padded {a : List K} (ha : a ≠ []) (n : Nat) (x : A) : horner (a ++ List.replicate n 0) x = horner a x := by
  have h0 : 0 < a.length := List.length_pos_of_ne_nil ha
  rw [horner_val (n := a.length + n) (by simp) (by omega) x, horner_val rfl h0 x, Finset.sum_range_add]
  congr 1
  rw [Finset.sum_eq_zero (s := range n), add_zero]
  · refine Finset.sum_congr rfl (fun i hi => ?_)
    rw [List.getD_append _ _ _ _ (Finset.mem_range.1 hi)]
  · intro i hi
    rw [List.getD_append_right _ _ _ _ (by omega), Nat.add_sub_cancel_left]
    simp [List.getD_eq_getElem?_getD, Finset.mem_range.1 hi]

/-- **C219**: coefficients multiplied by the powers of a number give the polynomial in other units. -/
theorem C219_units (k : K) {c : List K} (hc : c ≠ []) (x : A) : horner (c.mapIdx (fun i a => k ^ i * a)) x = horner c (algebraMap K A k * x) := by
  have h0 : 0 < c.length := List.length_pos_of_ne_nil hc
  rw [horner_val (n := c.length) (by simp) h0 x, horner_val rfl h0]
  congr 1
  refine Finset.sum_congr rfl (fun i hi => ?_)
  have e : (c.mapIdx (fun i a => k ^ i * a)).getD i 0 = k ^ i * c.getD i 0 := by
    simp [List.getD_eq_getElem?_getD, List.getElem?_mapIdx, Finset.mem_range.1 hi]
  rw [e, map_mul, map_pow, mul_pow]
  ring

/-- **C219**: coefficients in the other order give the polynomial at the inverse, times a power of the point. -/
theorem C219_reversed {c : List K} (hc : c ≠ []) {x : A} (hx : x ≠ 0) : ∃ v, horner c x⁻¹ = .ok v ∧ horner c.reverse x = .ok (x ^ (c.length - 1) * v) := by
  have h0 : 0 < c.length := List.length_pos_of_ne_nil hc
  refine ⟨_, horner_val rfl h0 _, ?_⟩
  rw [horner_val (n := c.length) (by simp) h0, Finset.mul_sum]
  congr 1
  rw [← Finset.sum_range_reflect]
  refine Finset.sum_congr rfl (fun i hi => ?_)
  have hi' := Finset.mem_range.1 hi
  have e : c.reverse.getD (c.length - 1 - i) 0 = c.getD i 0 := by
    rw [List.getD_eq_getElem?_getD, List.getElem?_reverse (by omega), List.getD_eq_getElem?_getD]
    congr 2
    omega
  rw [e, show c.length - 1 = (c.length - 1 - i) + i by omega, pow_add, Nat.add_sub_cancel]
  have := inv_pow x i
  rw [this]
  field_simp

/-- **C219**: the derivative is the polynomial whose coefficients are those after the first, multiplied by their degrees. -/
theorem C219_derivative {a : K} {c : List K} (hc : c ≠ []) (x : K) : hornerDerivative (a :: c) x = horner (c.mapIdx (fun i b => ((i + 1 : ℕ) : K) * b)) x := by
  have h0 : 0 < c.length := List.length_pos_of_ne_nil hc
  rw [horner_val (n := c.length) (by simp) h0 x, hornerDerivative_ok (by simp) x]
  congr 1
  rw [List.length_cons, Finset.sum_range_succ', Nat.cast_zero, zero_mul, map_zero, zero_mul, add_zero]
  refine Finset.sum_congr rfl (fun i hi => ?_)
  have e : (c.mapIdx (fun i b => ((i + 1 : ℕ) : K) * b)).getD i 0 = ((i + 1 : ℕ) : K) * c.getD i 0 := by
    simp [List.getD_eq_getElem?_getD, List.getElem?_mapIdx, Finset.mem_range.1 hi]
  rw [e]
  simp

/-- **C219**: coefficients that are the sums of products of the coefficients of two polynomials, as in their product, give the product of the values. -/
theorem C219_product {a b : List K} (ha : a ≠ []) (hb : b ≠ []) (x : A) :
    ∃ u v, horner a x = .ok u ∧ horner b x = .ok v ∧
      horner ((List.range (a.length + b.length - 1)).map (fun n => ∑ i ∈ range (n + 1), a.getD i 0 * b.getD (n - i) 0)) x = .ok (u * v) := by
  have h0 : 0 < a.length := List.length_pos_of_ne_nil ha
  have h1 : 0 < b.length := List.length_pos_of_ne_nil hb
  refine ⟨_, _, horner_val rfl h0 x, horner_val rfl h1 x, ?_⟩
  rw [horner_val (n := a.length + b.length - 1) (by simp) (by omega) x]
  congr 1
  have zero : ∀ (l : List K) (i : Nat), l.length ≤ i → l.getD i 0 = 0 := fun l i h => by simp [List.getD_eq_getElem?_getD, List.getElem?_eq_none h]
  have e1 : ∀ n ∈ range (a.length + b.length - 1),
      algebraMap K A (((List.range (a.length + b.length - 1)).map (fun n => ∑ i ∈ range (n + 1), a.getD i 0 * b.getD (n - i) 0)).getD n 0) * x ^ n =
        ∑ p ∈ antidiagonal n, (algebraMap K A (a.getD p.1 0) * x ^ p.1) * (algebraMap K A (b.getD p.2 0) * x ^ p.2) := by
    intro n hn
    have hn' := Finset.mem_range.1 hn
    have e : ((List.range (a.length + b.length - 1)).map (fun n => ∑ i ∈ range (n + 1), a.getD i 0 * b.getD (n - i) 0)).getD n 0 =
        ∑ i ∈ range (n + 1), a.getD i 0 * b.getD (n - i) 0 := by
      simp [List.getD_eq_getElem?_getD, hn']
    rw [e, map_sum, Finset.sum_mul, Finset.Nat.sum_antidiagonal_eq_sum_range_succ (fun i j => (algebraMap K A (a.getD i 0) * x ^ i) * (algebraMap K A (b.getD j 0) * x ^ j))]
    refine Finset.sum_congr rfl (fun i hi => ?_)
    have hi' := Finset.mem_range.1 hi
    rw [map_mul, show x ^ n = x ^ i * x ^ (n - i) by rw [← pow_add]; congr 1; omega]
    ring
  rw [Finset.sum_congr rfl e1, Finset.sum_mul_sum, ← Finset.sum_product', Finset.sum_sigma']
  refine Finset.sum_bij_ne_zero (fun p _ _ => p.2) ?_ ?_ ?_ ?_
  · rintro ⟨n, i, j⟩ hp hne
    simp only [Finset.mem_product, Finset.mem_range]
    refine ⟨by by_contra h; exact hne (by show algebraMap K A (a.getD i 0) * x ^ i * _ = 0; rw [zero a i (by omega), map_zero, zero_mul, zero_mul]), by by_contra h; exact hne (by show _ * (algebraMap K A (b.getD j 0) * x ^ j) = 0; rw [zero b j (by omega), map_zero, zero_mul, mul_zero])⟩
  · rintro ⟨n, i, j⟩ hp - ⟨n', i', j'⟩ hp' - e
    simp only [Finset.mem_sigma, mem_antidiagonal, Prod.mk.injEq] at hp hp' e
    obtain ⟨e1, e2⟩ := e
    subst e1 e2
    obtain rfl : n = n' := by rw [← hp.2, ← hp'.2]
    rfl
  · rintro ⟨i, j⟩ hp hne
    simp only [Finset.mem_product, Finset.mem_range] at hp
    exact ⟨⟨i + j, i, j⟩, by simp only [Finset.mem_sigma, mem_antidiagonal, Finset.mem_range]; exact ⟨by omega, trivial⟩, hne, rfl⟩
  · rintro ⟨n, i, j⟩ hp hne
    rfl

/-- The coefficients as a polynomial. -/
theorem horner_eval {c : List K} (hc : c ≠ []) (x : K) :
    horner c x = .ok ((∑ i ∈ range c.length, Polynomial.C (c.getD i 0) * Polynomial.X ^ i).eval x) := by
  rw [horner_val rfl (List.length_pos_of_ne_nil hc) x, Polynomial.eval_finset_sum]
  simp

/-- **C219**: coefficients that are not all zero give a polynomial with fewer zeros than coefficients. -/
theorem C219_zeros {c : List K} (hc : ∃ a ∈ c, a ≠ 0) {S : Finset K} (hS : ∀ x ∈ S, horner c x = .ok 0) : S.card < c.length := by
  obtain ⟨a, ha, hne⟩ := hc
  have hcn : c ≠ [] := List.ne_nil_of_mem ha
  set p : Polynomial K := ∑ i ∈ range c.length, Polynomial.C (c.getD i 0) * Polynomial.X ^ i with hp
  have hcoef : ∀ i < c.length, p.coeff i = c.getD i 0 := by
    intro i hi
    rw [hp, Polynomial.finset_sum_coeff]
    simp [Polynomial.coeff_X_pow, Finset.mem_range, hi]
  have hp0 : p ≠ 0 := by
    intro h
    obtain ⟨i, hi, e⟩ := List.getElem_of_mem ha
    have := hcoef i hi
    rw [h, Polynomial.coeff_zero, List.getD_eq_getElem _ _ hi, e] at this
    exact hne this.symm
  have hdeg : p.natDegree < c.length := by
    have h0 : 0 < c.length := List.length_pos_of_ne_nil hcn
    have : p.natDegree ≤ c.length - 1 := by
      refine Polynomial.natDegree_sum_le_of_forall_le _ _ (fun i hi => ?_)
      exact (Polynomial.natDegree_C_mul_X_pow_le _ _).trans (by have := Finset.mem_range.1 hi; omega)
    omega
  refine lt_of_le_of_lt ?_ hdeg
  refine Polynomial.card_le_degree_of_subset_roots (fun x hx => ?_)
  rw [Polynomial.mem_roots hp0, Polynomial.IsRoot]
  have := hS x (by simpa using hx)
  rw [horner_eval hcn] at this
  exact Res.ok.inj this

/-- **C219**: as many values as coefficients determine the coefficients. -/
theorem C219_determined {a b : List K} (ha : a ≠ []) (hab : b.length = a.length) {S : Finset K} (hS : a.length ≤ S.card) (h : ∀ x ∈ S, horner a x = horner b x) : a = b := by
  by_contra hne
  have hz : ∃ d ∈ List.zipWith (fun s t => -1 * s + t) a b, d ≠ 0 := by
    by_contra hall
    push Not at hall
    apply hne
    refine List.ext_getElem hab.symm (fun i h1 h2 => ?_)
    have := hall _ (List.getElem_mem (l := List.zipWith (fun s t => -1 * s + t) a b) (n := i) (by simp [hab]; exact h1))
    rw [List.getElem_zipWith] at this
    linear_combination -this
  have := C219_zeros hz (S := S) (fun x hx => by
    obtain ⟨u, v, hu, hv, e⟩ := C219_linear (-1) ha hab x
    rw [e]
    have h2 := h x hx
    rw [hu, hv] at h2
    rw [Res.ok.inj h2]
    simp)
  simp [hab] at this
  omega

end algebra

/-- **C219**: with coefficients that are not negative the values increase from zero on. -/
theorem C219_increasing {K : Type} [Field K] [LinearOrder K] [IsStrictOrderedRing K] {c : List K} (hc : c ≠ []) (h : ∀ a ∈ c, 0 ≤ a) {x y : K} (hx : 0 ≤ x) (hxy : x ≤ y) :
    ∃ u v, horner c x = .ok u ∧ horner c y = .ok v ∧ 0 ≤ u ∧ u ≤ v := by
  have h0 : 0 < c.length := List.length_pos_of_ne_nil hc
  have hn : ∀ i, 0 ≤ c.getD i 0 := by
    intro i
    by_cases hi : i < c.length
    · rw [List.getD_eq_getElem _ _ hi]
      exact h _ (List.getElem_mem hi)
    · simp [List.getD_eq_getElem?_getD, List.getElem?_eq_none (by omega : c.length ≤ i)]
  refine ⟨_, _, horner_val rfl h0 x, horner_val rfl h0 y, ?_, ?_⟩
  · exact Finset.sum_nonneg (fun i _ => mul_nonneg (hn i) (pow_nonneg hx i))
  · exact Finset.sum_le_sum (fun i _ => mul_le_mul_of_nonneg_left (pow_le_pow_left₀ hx hxy i) (hn i))

/-- **C219**: at the conjugate of a complex point the value is the conjugate. -/
theorem C219_conjugate {c : List ℝ} (hc : c ≠ []) (z : ℂ) : ∃ v, horner c z = .ok v ∧ horner c ((starRingEnd ℂ) z) = .ok ((starRingEnd ℂ) v) := by
  have h0 : 0 < c.length := List.length_pos_of_ne_nil hc
  refine ⟨_, horner_val rfl h0 z, ?_⟩
  rw [horner_val rfl h0, map_sum]
  congr 1
  refine Finset.sum_congr rfl (fun i _ => ?_)
  simp

example := C219_linear (A := ℚ) (2 : ℚ) (a := [1, 2, 3]) (b := [0, -1, 5]) (by simp) rfl 7
example := C219_joined (A := ℚ) (a := [(1 : ℚ), 2]) (b := [0, -1, 5]) (by simp) (by simp) 7
example := C219_padded (A := ℚ) (a := [(1 : ℚ), 2]) (by simp) 3 7
example := C219_units (A := ℚ) (3 : ℚ) (c := [1, 2, 5]) (by simp) 7
example := C219_reversed (A := ℚ) (c := [(1 : ℚ), 2, 5]) (by simp) (x := 7) (by norm_num)
example := C219_derivative (a := (4 : ℚ)) (c := [1, 2, 5]) (by simp) 7
example := C219_product (A := ℚ) (a := [(1 : ℚ), 2]) (b := [0, -1, 5]) (by simp) (by simp) 7
example : horner [(6 : ℚ), -5, 1] (2 : ℚ) = .ok 0 ∧ horner [(6 : ℚ), -5, 1] (3 : ℚ) = .ok 0 ∧ ({2, 3} : Finset ℚ).card = 2 := by decide +kernel
example := C219_determined (a := [(1 : ℚ), 2]) (b := [1, 2]) (by simp) rfl (S := {2, 3}) (by decide) (fun _ _ => rfl)
example := C219_increasing (c := [(1 : ℚ), 2]) (by simp) (by simp) (x := 3) (y := 5) (by norm_num) (by norm_num)
example := C219_conjugate (c := [1, 2]) (by simp) ⟨1, 4⟩

end MU
