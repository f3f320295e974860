import Verif.Props.Triangle
import Mathlib.Data.Matrix.Mul

/-!
# C201: integrals over triangles that are moved, turned, reflected, enlarged or deformed
-/

set_option linter.unusedSectionVars false

namespace MU
open Finset

namespace Spec

/-- The affine map `x ↦ M x + t` of the space. -/
def affineMap3 (M : Fin 3 → Fin 3 → ℝ) (t : Fin 3 → ℝ) (x : Fin 3 → ℝ) : Fin 3 → ℝ := fun i => ∑ j, M i j * x j + t i

/-- The map multiplies all distances by `c`: for `c = 1` a translation, a rotation, a reflection or a combination of them. -/
def Similarity (c : ℝ) (φ : (Fin 3 → ℝ) → Fin 3 → ℝ) : Prop := ∀ x y, dist3 (φ x) (φ y) = c * dist3 x y

end Spec

open Spec

theorem affine_barPoint (M : Fin 3 → Fin 3 → ℝ) (t v1 v2 v3 : V3) (a b : ℝ) :
    barPoint (affineMap3 M t v1) (affineMap3 M t v2) (affineMap3 M t v3) a b = affineMap3 M t (barPoint v1 v2 v3 a b) := by
  funext i
  simp only [barPoint, affineMap3, Fin.sum_univ_three]
  ring

/-- C201: for every affine map `φ`, the integral of `F` over the image of a triangle and that of `F ∘ φ` over the triangle are in the ratio of the
areas. -/
theorem C201_affine {T : Type} [AddCommGroup T] [Module ℝ T] {k : Nat} (h1 : 1 ≤ k) (h8 : k ≤ 8) (F : V3 → T) (M : Fin 3 → Fin 3 → ℝ) (t v1 v2 v3 : V3) :
    ∃ s s' r r', Integration2dTriangle.new F k = .ok s ∧ Integration2dTriangle.new (fun x => F (affineMap3 M t x)) k = .ok s' ∧
      s.compute (affineMap3 M t v1) (affineMap3 M t v2) (affineMap3 M t v3) = .ok r ∧ s'.compute v1 v2 v3 = .ok r' ∧
      area v1 v2 v3 • r = area (affineMap3 M t v1) (affineMap3 M t v2) (affineMap3 M t v3) • r' := by
  refine ⟨_, _, _, _, new_ok F h1 h8, new_ok _ h1 h8, compute_ok F h1 h8 _ _ _, compute_ok _ h1 h8 v1 v2 v3, ?_⟩
  simp only [affine_barPoint, smul_smul]
  rw [mul_comm]

theorem dot_polar (x y z : V3) : dot3 (x - z) (y - z) = (dist3 x z ^ 2 + dist3 y z ^ 2 - dist3 x y ^ 2) / 2 := by
  unfold dist3
  rw [Real.sq_sqrt (sum_nonneg fun i _ => sq_nonneg _), Real.sq_sqrt (sum_nonneg fun i _ => sq_nonneg _),
    Real.sq_sqrt (sum_nonneg fun i _ => sq_nonneg _)]
  simp only [dot3, Fin.sum_univ_three, Pi.sub_apply]
  ring

/-- The area of the image of a triangle. -/
theorem area_similar {c : ℝ} {φ : V3 → V3} (hφ : Similarity c φ) (v1 v2 v3 : V3) : area (φ v1) (φ v2) (φ v3) = c ^ 2 * area v1 v2 v3 := by
  have hd : ∀ x y z, dot3 (φ x - φ z) (φ y - φ z) = c ^ 2 * dot3 (x - z) (y - z) := by
    intro x y z
    rw [dot_polar, dot_polar, hφ, hφ, hφ]
    ring
  unfold area
  rw [hd, hd, hd, show c ^ 2 * dot3 (v2 - v1) (v2 - v1) * (c ^ 2 * dot3 (v3 - v1) (v3 - v1)) - (c ^ 2 * dot3 (v2 - v1) (v3 - v1)) ^ 2
      = (c ^ 2) ^ 2 * (dot3 (v2 - v1) (v2 - v1) * dot3 (v3 - v1) (v3 - v1) - dot3 (v2 - v1) (v3 - v1) ^ 2) by ring,
    Real.sqrt_mul (by positivity), Real.sqrt_sq (by positivity)]
  ring

/-- C201: an integral over a triangle that is moved, turned, reflected and enlarged `c` times is `c²` times the integral over the first triangle of the
integrand carried back. -/
theorem C201_similarity {T : Type} [AddCommGroup T] [Module ℝ T] {k : Nat} (h1 : 1 ≤ k) (h8 : k ≤ 8) (F : V3 → T) (c : ℝ) (M : Fin 3 → Fin 3 → ℝ) (t : V3)
    (hM : Similarity c (affineMap3 M t)) (v1 v2 v3 : V3) :
    ∃ s s' r', Integration2dTriangle.new F k = .ok s ∧ Integration2dTriangle.new (fun x => F (affineMap3 M t x)) k = .ok s' ∧
      s'.compute v1 v2 v3 = .ok r' ∧ s.compute (affineMap3 M t v1) (affineMap3 M t v2) (affineMap3 M t v3) = .ok (c ^ 2 • r') := by
  refine ⟨_, _, _, new_ok F h1 h8, new_ok _ h1 h8, compute_ok _ h1 h8 v1 v2 v3, ?_⟩
  rw [compute_ok F h1 h8, area_similar hM]
  simp only [affine_barPoint, smul_smul]

/-- A quarter of a turn, an enlargement by 3 and a translation. -/
example : Similarity 3 (affineMap3 ![![0, -3, 0], ![3, 0, 0], ![0, 0, 3]] ![5, 6, 7]) := by
  intro x y
  unfold dist3
  rw [show (3 : ℝ) = Real.sqrt (3 ^ 2) by rw [Real.sqrt_sq (by norm_num)], ← Real.sqrt_mul (by positivity)]
  congr 1
  simp [affineMap3, Fin.sum_univ_three]
  ring

/-- C201: integrals over a triangle do not depend on where the origin is. -/
theorem C201_translation {T : Type} [AddCommGroup T] [Module ℝ T] {k : Nat} (h1 : 1 ≤ k) (h8 : k ≤ 8) (F : V3 → T) (t v1 v2 v3 : V3) :
    ∃ s s' r, Integration2dTriangle.new F k = .ok s ∧ Integration2dTriangle.new (fun x => F (x - t)) k = .ok s' ∧
      s.compute v1 v2 v3 = .ok r ∧ s'.compute (v1 + t) (v2 + t) (v3 + t) = .ok r := by
  have e : ∀ v : V3, v + t = affineMap3 (fun i j => if i = j then 1 else 0) t v := by
    intro v
    funext i
    simp [affineMap3]
  have hs : Similarity 1 (affineMap3 (fun i j => if i = j then 1 else 0) t) := by
    intro x y
    rw [← e, ← e]
    simp [dist3]
  obtain ⟨s, s', r', a1, a2, a3, a4⟩ := C201_similarity h1 h8 (fun x => F (x - t)) 1 _ t hs v1 v2 v3
  simp only [← e, add_sub_cancel_right] at a2 a4
  refine ⟨s', s, r', a2, a1, a3, ?_⟩
  rw [a4]
  simp

end MU
