import Verif.Props.Interp1d
import Verif.Props.Interp2d
import Verif.Spec.DocumentedInterp

/-!
# C182: The formulas of the technical notes for linear and bilinear interpolation

The formula of one variable is the function computed. Of the four coefficients of the formula in two variables, two are misprinted: with the
printed `a_1`, or the printed `a_3`, the formula is not the function computed, nor an interpolation.
-/

set_option linter.unusedSectionVars false

namespace MU

open Spec

variable {K : Type} [Field K] [LinearOrder K] [IsStrictOrderedRing K]

/-- C182: the documented formula in one variable is the function computed. -/
theorem C182_linear (B : Build) {m : InterpMethod} (hm : m ≠ .BSPLINE) {xs ys : List K} (ht : Table xs ys)
    {i : Nat} (hi : i + 1 < xs.length) (hi' : i + 1 < ys.length) {x : K} (h0 : xs[i] ≤ x) (h1 : x ≤ xs[i + 1]) :
    interp1d B m xs ys x = .ok (docLinear xs[i] xs[i + 1] ys[i] ys[i + 1] x) := by
  rw [C01_piecewise_affine B hm ht hi hi' h0 h1]
  have h : xs[i + 1] - xs[i] ≠ 0 := sub_ne_zero.2 (ne_of_gt (getElem_lt_of_pairwise ht.increasing (Nat.lt_succ_self i) hi))
  congr 1
  simp only [line, docLinear, smul_eq_mul]
  field_simp
  ring

example : interp1d ⟨true⟩ .LINEAR ([0, 1, 3] : List ℚ) ([5, 7, 1] : List ℚ) 2 = .ok (docLinear 1 3 7 1 2) :=
  C182_linear ⟨true⟩ (by decide) sampleTable (i := 1) (by simp) (by simp) (by norm_num) (by norm_num)

/-- C182: the function of two variables computed has the documented form, with the documented coefficients of `x` and of `xy`; in the coefficient of
`1` the second value has to be the one at `(x_1, y_2)` and in the coefficient of `y` the values at `(x_1, y_2)` and `(x_2, y_1)` have to be exchanged. -/
theorem C182_bilinear_partial (B : Build) {xs ys data : List K} (g : Grid xs ys data)
    {i j : Nat} (hi : i + 1 < xs.length) (hj : j + 1 < ys.length) {x y : K}
    (hx0 : xs[i] ≤ x) (hx1 : x ≤ xs[i + 1]) (hy0 : ys[j] ≤ y) (hy1 : y ≤ ys[j + 1]) {f11 f12 f21 f22 : K}
    (h11 : f11 = g.at i j (by omega) (by omega)) (h12 : f12 = g.at i (j + 1) (by omega) hj) (h21 : f21 = g.at (i + 1) j hi (by omega))
    (h22 : f22 = g.at (i + 1) (j + 1) hi hj) :
    interp2d B .LINEAR xs ys data x y = .ok (mendedA1 xs[i] xs[i + 1] ys[j] ys[j + 1] f11 f12 f21 f22 +
      docA2 xs[i] xs[i + 1] ys[j] ys[j + 1] f11 f12 f21 f22 * x + mendedA3 xs[i] xs[i + 1] ys[j] ys[j + 1] f11 f12 f21 f22 * y +
      docA4 xs[i] xs[i + 1] ys[j] ys[j + 1] f11 f12 f21 f22 * (x * y)) := by
  rw [C08_bilinear B g hi hj hx0 hx1 hy0 hy1, ← h11, ← h12, ← h21, ← h22]
  have hx : xs[i + 1] - xs[i] ≠ 0 := sub_ne_zero.2 (ne_of_gt (getElem_lt_of_pairwise g.incx (Nat.lt_succ_self i) hi))
  have hy : ys[j + 1] - ys[j] ≠ 0 := sub_ne_zero.2 (ne_of_gt (getElem_lt_of_pairwise g.incy (Nat.lt_succ_self j) hj))
  congr 1
  simp only [bilinear, line, mendedA1, docA2, mendedA3, docA3, docA4, smul_eq_mul]
  field_simp
  ring

example : interp2d ⟨true⟩ .LINEAR ([0, 1, 3] : List ℚ) ([0, 2] : List ℚ) ([1, 2, 3, 4, 5, 10] : List ℚ) 2 1 =
    .ok (mendedA1 1 3 0 2 3 4 5 10 + docA2 1 3 0 2 3 4 5 10 * 2 + mendedA3 1 3 0 2 3 4 5 10 * 1 + docA4 1 3 0 2 3 4 5 10 * (2 * 1)) :=
  C182_bilinear_partial ⟨true⟩ sampleGrid (i := 1) (j := 0) (by simp) (by simp) (by norm_num) (by norm_num) (by norm_num) (by norm_num)
    rfl rfl rfl rfl

/-- The documented formula in two variables, in a single cell, with `A1` and `A3` for the coefficients of `1` and `y`. -/
def DocBilinear (A1 A3 : ℚ → ℚ → ℚ → ℚ → ℚ → ℚ → ℚ → ℚ → ℚ) : Prop :=
  ∀ x1 x2 y1 y2 f11 f12 f21 f22 x y : ℚ, x1 < x2 → y1 < y2 → x1 ≤ x → x ≤ x2 → y1 ≤ y → y ≤ y2 →
    interp2d ⟨true⟩ .LINEAR [x1, x2] [y1, y2] [f11, f12, f21, f22] x y = .ok (A1 x1 x2 y1 y2 f11 f12 f21 f22 +
      docA2 x1 x2 y1 y2 f11 f12 f21 f22 * x + A3 x1 x2 y1 y2 f11 f12 f21 f22 * y + docA4 x1 x2 y1 y2 f11 f12 f21 f22 * (x * y))

/-- C182: the mended formula in one cell, to be compared with the next theorem. -/
theorem C182_mended : DocBilinear mendedA1 mendedA3 := fun _ _ _ _ _ _ _ _ _ _ hx hy h1 h2 h3 h4 =>
  C182_bilinear_partial ⟨true⟩ ⟨le_refl 2, le_refl 2, by simpa using hx, by simpa using hy, rfl⟩ (i := 0) (j := 0) (by simp) (by simp) h1 h2 h3 h4
    rfl rfl rfl rfl

/-- C182 does not hold as documented: neither the printed `a_1` nor the printed `a_3` nor both give the function computed. -/
theorem C182_refuted : ¬ DocBilinear docA1 docA3 ∧ ¬ DocBilinear docA1 mendedA3 ∧ ¬ DocBilinear mendedA1 docA3 := by
  have key : ∀ A1 A3, DocBilinear A1 A3 → ∀ y : ℚ, 1 ≤ y → y ≤ 2 →
      A1 1 2 1 2 0 1 0 0 + docA2 1 2 1 2 0 1 0 0 * 1 + A3 1 2 1 2 0 1 0 0 * y + docA4 1 2 1 2 0 1 0 0 * (1 * y) =
        mendedA1 1 2 1 2 0 1 0 0 + docA2 1 2 1 2 0 1 0 0 * 1 + mendedA3 1 2 1 2 0 1 0 0 * y + docA4 1 2 1 2 0 1 0 0 * (1 * y) := by
    intro A1 A3 h y h1 h2
    have e1 := h 1 2 1 2 0 1 0 0 1 y (by norm_num) (by norm_num) (by norm_num) (by norm_num) h1 h2
    have e2 := C182_mended 1 2 1 2 0 1 0 0 1 y (by norm_num) (by norm_num) (by norm_num) (by norm_num) h1 h2
    rw [e2] at e1
    exact (Res.ok.inj e1).symm
  refine ⟨fun h => ?_, fun h => ?_, fun h => ?_⟩
  · have := key _ _ h 1 (by norm_num) (by norm_num)
    norm_num [mendedA1, mendedA3, docA1, docA2, docA3, docA4] at this
  · have := key _ _ h 2 (by norm_num) (by norm_num)
    norm_num [mendedA1, mendedA3, docA1, docA2, docA3, docA4] at this
  · have := key _ _ h 2 (by norm_num) (by norm_num)
    norm_num [mendedA1, mendedA3, docA1, docA2, docA3, docA4] at this

end MU
