import Verif.Lemmas.Spline
import Mathlib.Analysis.Calculus.ContDiff.Deriv
import Mathlib.Analysis.Calculus.Deriv.Comp
import Mathlib.Analysis.Calculus.ContDiff.Operations

/-!
The function that a smooth piecewise polynomial is, and its derivatives. Pure mathematics, for /repo/src/MathUtils/Spline.h.
-/

set_option linter.unusedSectionVars false

namespace MU
namespace SW

open Polynomial

/-- `w` belongs to piece `j`, the first and the last piece being continued to infinity. -/
def Ext (ξ : ℕ → ℝ) (m j : ℕ) (w : ℝ) : Prop := (j = 0 ∨ ξ j ≤ w) ∧ (j + 1 = m ∨ w ≤ ξ (j + 1))

variable {ξ : ℕ → ℝ} {m : ℕ} {Q Q' : ℕ → ℝ[X]} {g g' : ℝ → ℝ}

theorem Located.ext (hξ : ∀ j < m, ξ j < ξ (j + 1)) {j : ℕ} {u : ℝ} (hj : j < m) (h : Located ξ m j u) : Ext ξ m j u := by
  rcases h with h | ⟨h1, h2⟩ | ⟨h1, h2⟩
  · exact ⟨Or.inr h.1, Or.inr h.2⟩
  · subst h2
    exact ⟨Or.inl rfl, Or.inr (h1.le.trans (hξ 0 hj).le)⟩
  · refine ⟨Or.inr ?_, Or.inl h2⟩
    have := hξ j hj
    rw [h2] at this
    linarith

theorem Ext.unique (hξ : ∀ j < m, ξ j < ξ (j + 1)) (hQ : Joined ξ m Q) {k k' : ℕ} {w : ℝ} (hk : k < m) (hk' : k' < m)
    (h : Ext ξ m k w) (h' : Ext ξ m k' w) : (Q k).eval w = (Q k').eval w := by
  wlog hle : k ≤ k' generalizing k k'
  · exact (this hk' hk h' h (by omega)).symm
  rcases Nat.lt_or_eq_of_le hle with hlt | heq
  · have h1 : w ≤ ξ (k + 1) := h.2.resolve_left (by omega)
    have h2 : ξ k' ≤ w := h'.1.resolve_left (by omega)
    have : k' = k + 1 := by
      by_contra hc
      have h1 := xi_lt hξ (i := k + 1) (j := k') (by omega) hk'.le
      linarith
    subst this
    rw [le_antisymm h1 h2]
    exact hQ k hk'
  · rw [heq]

/-- `g` is the function with the pieces `Q`. -/
def Glue (ξ : ℕ → ℝ) (m : ℕ) (Q : ℕ → ℝ[X]) (g : ℝ → ℝ) : Prop := ∀ u, ∃ j < m, Ext ξ m j u ∧ g u = (Q j).eval u

theorem Glue.eq (hg : Glue ξ m Q g) (hξ : ∀ j < m, ξ j < ξ (j + 1)) (hQ : Joined ξ m Q) {j : ℕ} {w : ℝ} (hj : j < m)
    (h : Ext ξ m j w) : g w = (Q j).eval w := by
  obtain ⟨k, k1, k2, k3⟩ := hg w
  rw [k3]
  exact Ext.unique hξ hQ k1 hj k2 h

/-- To the right of a point one piece goes on for a while. -/
theorem ext_right (hm : 0 < m) (u : ℝ) : ∃ j < m, ∃ v, u < v ∧ ∀ w, u ≤ w → w < v → Ext ξ m j w := by
  have key : ∀ d j, j + d + 1 = m → (j = 0 ∨ ξ j ≤ u) → ∃ j < m, ∃ v, u < v ∧ ∀ w, u ≤ w → w < v → Ext ξ m j w := by
    intro d
    induction d with
    | zero =>
      intro j hj h
      exact ⟨j, by omega, u + 1, by linarith, fun w h1 h2 => ⟨h.imp_right (fun h => h.trans h1), Or.inl (by omega)⟩⟩
    | succ d ih =>
      intro j hj h
      rcases le_or_gt (ξ (j + 1)) u with h1 | h1
      · exact ih (j + 1) (by omega) (Or.inr h1)
      · exact ⟨j, by omega, ξ (j + 1), h1, fun w h2 h3 => ⟨h.imp_right (fun h => h.trans h2), Or.inr h3.le⟩⟩
  exact key (m - 1) 0 (by omega) (Or.inl rfl)

/-- To the left too. -/
theorem ext_left (hm : 0 < m) (u : ℝ) : ∃ j < m, ∃ v, v < u ∧ ∀ w, v < w → w ≤ u → Ext ξ m j w := by
  have key : ∀ j, j < m → (j + 1 = m ∨ u ≤ ξ (j + 1)) → ∃ j < m, ∃ v, v < u ∧ ∀ w, v < w → w ≤ u → Ext ξ m j w := by
    intro j
    induction j with
    | zero =>
      intro hj h
      exact ⟨0, hj, u - 1, by linarith, fun w h1 h2 => ⟨Or.inl rfl, h.imp_right (fun h => h2.trans h)⟩⟩
    | succ j ih =>
      intro hj h
      rcases le_or_gt u (ξ (j + 1)) with h1 | h1
      · exact ih (by omega) (Or.inr h1)
      · exact ⟨j + 1, hj, ξ (j + 1), h1, fun w h2 h3 => ⟨Or.inr h2.le, h.imp_right (fun h => h3.trans h)⟩⟩
  exact key (m - 1) (by omega) (Or.inl (by omega))

theorem Glue.continuous (hg : Glue ξ m Q g) (hm : 0 < m) (hξ : ∀ j < m, ξ j < ξ (j + 1)) (hQ : Joined ξ m Q) : Continuous g := by
  rw [continuous_iff_continuousAt]
  intro u
  rw [continuousAt_iff_continuous_left_right]
  constructor
  · obtain ⟨j, hj, v, hv, h⟩ := ext_left (ξ := ξ) hm u
    have : ContinuousWithinAt (fun w => (Q j).eval w) (Set.Iic u) u := (Q j).differentiable.continuous.continuousWithinAt
    refine this.congr_of_eventuallyEq ?_ (hg.eq hξ hQ hj (h u hv le_rfl))
    filter_upwards [inter_mem_nhdsWithin (Set.Iic u) (Ioi_mem_nhds hv)] with w hw
    exact hg.eq hξ hQ hj (h w hw.2 hw.1)
  · obtain ⟨j, hj, v, hv, h⟩ := ext_right (ξ := ξ) hm u
    have : ContinuousWithinAt (fun w => (Q j).eval w) (Set.Ici u) u := (Q j).differentiable.continuous.continuousWithinAt
    refine this.congr_of_eventuallyEq ?_ (hg.eq hξ hQ hj (h u le_rfl hv))
    filter_upwards [inter_mem_nhdsWithin (Set.Ici u) (Iio_mem_nhds hv)] with w hw
    exact hg.eq hξ hQ hj (h w hw.1 hw.2)

theorem Glue.hasDerivAt (hg : Glue ξ m Q g) (hg' : Glue ξ m (fun j => derivative (Q j)) g') (hm : 0 < m)
    (hξ : ∀ j < m, ξ j < ξ (j + 1)) (hQ : Joined ξ m Q) (hQ' : Joined ξ m (fun j => derivative (Q j))) (u : ℝ) :
    HasDerivAt g (g' u) u := by
  have hl : HasDerivWithinAt g (g' u) (Set.Iic u) u := by
    obtain ⟨j, hj, v, hv, h⟩ := ext_left (ξ := ξ) hm u
    rw [hg'.eq hξ hQ' hj (h u hv le_rfl)]
    have : HasDerivWithinAt (fun w => (Q j).eval w) ((derivative (Q j)).eval u) (Set.Iic u) u := ((Q j).hasDerivAt u).hasDerivWithinAt
    refine this.congr_of_eventuallyEq ?_ (hg.eq hξ hQ hj (h u hv le_rfl))
    filter_upwards [inter_mem_nhdsWithin (Set.Iic u) (Ioi_mem_nhds hv)] with w hw
    exact hg.eq hξ hQ hj (h w hw.2 hw.1)
  have hr : HasDerivWithinAt g (g' u) (Set.Ici u) u := by
    obtain ⟨j, hj, v, hv, h⟩ := ext_right (ξ := ξ) hm u
    rw [hg'.eq hξ hQ' hj (h u le_rfl hv)]
    have : HasDerivWithinAt (fun w => (Q j).eval w) ((derivative (Q j)).eval u) (Set.Ici u) u := ((Q j).hasDerivAt u).hasDerivWithinAt
    refine this.congr_of_eventuallyEq ?_ (hg.eq hξ hQ hj (h u le_rfl hv))
    filter_upwards [inter_mem_nhdsWithin (Set.Ici u) (Iio_mem_nhds hv)] with w hw
    exact hg.eq hξ hQ hj (h w hw.1 hw.2)
  have := hl.union hr
  rw [Set.Iic_union_Ici, hasDerivWithinAt_univ] at this
  exact this

theorem exists_glue (hm : 0 < m) (Q : ℕ → ℝ[X]) : ∃ g, Glue ξ m Q g := by
  have : ∀ u, ∃ j < m, Ext ξ m j u := by
    intro u
    obtain ⟨j, hj, v, hv, h⟩ := ext_right (ξ := ξ) hm u
    exact ⟨j, hj, h u le_rfl hv⟩
  choose j h1 h2 using this
  exact ⟨fun u => (Q (j u)).eval u, fun u => ⟨j u, h1 u, h2 u, rfl⟩⟩

/-- A smooth piecewise polynomial of degree `p` is `p - 1` times continuously differentiable. -/
theorem Glue.contDiff {p : ℕ} {P : ℕ → ℝ[X]} (hm : 0 < m) (hξ : ∀ j < m, ξ j < ξ (j + 1)) (hP : Smooth ξ m p P) :
    ∀ (d r : ℕ) (g : ℝ → ℝ), r + d < p → Glue ξ m (fun j => derivative^[r] (P j)) g → ContDiff ℝ d g := by
  intro d
  induction d with
  | zero =>
    intro r g hr hg
    rw [Nat.cast_zero, contDiff_zero]
    exact hg.continuous hm hξ (hP.joined r (by omega))
  | succ d ih =>
    intro r g hr hg
    obtain ⟨g', hg'⟩ := exists_glue (ξ := ξ) hm (fun j => derivative (derivative^[r] (P j)))
    have hs : ∀ j, derivative (derivative^[r] (P j)) = derivative^[r + 1] (P j) := fun j =>
      (Function.iterate_succ_apply' _ _ _).symm
    have hj' : Joined ξ m (fun j => derivative (derivative^[r] (P j))) := by
      simp only [hs]; exact hP.joined (r + 1) (by omega)
    have hd := hg.hasDerivAt hg' hm hξ (hP.joined r (by omega)) hj'
    have hder : deriv g = g' := funext (fun u => (hd u).deriv)
    rw [show ((d + 1 : ℕ) : WithTop ℕ∞) = (d : WithTop ℕ∞) + 1 by push_cast; rfl, contDiff_succ_iff_deriv]
    refine ⟨fun u => (hd u).differentiableAt, fun h => absurd h (by simp), ?_⟩
    rw [hder]
    simp only [hs] at hg'
    exact ih (r + 1) g' (by omega) hg'

/-! Linear combinations. -/

theorem iterate_derivative_comb (r : ℕ) (α β : ℝ) (P R : ℝ[X]) :
    derivative^[r] (C α * P + C β * R) = C α * derivative^[r] P + C β * derivative^[r] R := by
  rw [iterate_map_add, iterate_derivative_C_mul, iterate_derivative_C_mul]

theorem Smooth.comb {p : ℕ} {P R : ℕ → ℝ[X]} (hP : Smooth ξ m p P) (hR : Smooth ξ m p R) (α β : ℝ) :
    Smooth ξ m p (fun j => C α * P j + C β * R j) where
  degree j hj := by
    refine (natDegree_add_le _ _).trans (max_le ?_ ?_)
    · exact (natDegree_C_mul_le _ _).trans (hP.degree j hj)
    · exact (natDegree_C_mul_le _ _).trans (hR.degree j hj)
  joined r hr := by
    intro j hj
    have h1 := hP.joined r hr j hj
    have h2 := hR.joined r hr j hj
    simp only at h1 h2
    simp only [iterate_derivative_comb, eval_add, eval_mul, eval_C, h1, h2]

theorem Smooth.const {p : ℕ} {q : ℝ[X]} (hq : q.natDegree ≤ p) : Smooth ξ m p (fun _ => q) where
  degree _ _ := hq
  joined _ _ := fun _ _ => rfl

end SW
end MU
