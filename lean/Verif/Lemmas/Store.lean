import Verif.Model.Chebyshev
import Verif.Lemmas.Loops
import Mathlib.Algebra.BigOperators.Intervals
import Mathlib.Algebra.BigOperators.Group.Finset.Basic

set_option linter.unusedSectionVars false

/-!
# Loops that read and write the cells of a container
-/

namespace MU
open Finset

/-- A container: `rep e` holds the value `e p` in each cell `p`. -/
structure Store (σ ι K : Type) [DecidableEq ι] where
  rep : (ι → K) → σ
  valid : ι → Prop
  get : σ → ι → Res K
  set : σ → ι → K → Res σ
  get_ok : ∀ e p, valid p → get (rep e) p = .ok (e p)
  set_ok : ∀ e p a, valid p → set (rep e) p a = .ok (rep (Function.update e p a))

open Classical in
/-- `a` if `P`, else `b`. -/
noncomputable def pick {K : Type} (P : Prop) (a b : K) : K := if P then a else b

theorem pick_pos {K : Type} {P : Prop} (h : P) (a b : K) : pick P a b = a := if_pos h
theorem pick_neg {K : Type} {P : Prop} (h : ¬ P) (a b : K) : pick P a b = b := if_neg h

namespace Store

variable {σ ι K : Type} [DecidableEq ι] (S : Store σ ι K)

theorem modify {p : ι} (hp : S.valid p) (e : ι → K) (f : K → K) :
    (do let a ← S.get (S.rep e) p; S.set (S.rep e) p (f a)) = .ok (S.rep (Function.update e p (f (e p)))) := by
  rw [S.get_ok e p hp, Res.ok_bind, S.set_ok e p _ hp]

theorem accum [AddCommMonoid K] {p : ι} {lo hi : Nat} (hle : lo ≤ hi) {body : Nat → σ → Res σ} (g : Nat → K)
    (h : ∀ i, lo ≤ i → i < hi → ∀ e, body i (S.rep e) = .ok (S.rep (Function.update e p (e p + g i)))) (e : ι → K) :
    forRange lo hi body (S.rep e) = .ok (S.rep (Function.update e p (e p + ∑ i ∈ Ico lo hi, g i))) := by
  have := forRange_ok hle (f := body) (fun k => S.rep (Function.update e p (e p + ∑ i ∈ Ico lo k, g i))) (by
    intro i h1 h2
    rw [h i h1 h2, Function.update_idem, Function.update_self, sum_Ico_succ_top h1, add_assoc])
  simpa using this

theorem sweep {n : Nat} {body : Nat → σ → Res σ} (P : Nat → ι → Prop) (f : ι → K → K)
    (hdisj : ∀ i j p, P i p → P j p → i = j)
    (h : ∀ i, i < n → ∀ e, body i (S.rep e) = .ok (S.rep (fun p => pick (P i p) (f p (e p)) (e p)))) (e : ι → K) :
    forRange 0 n body (S.rep e) = .ok (S.rep (fun p => pick (∃ i, i < n ∧ P i p) (f p (e p)) (e p))) := by
  have := forRange_ok (lo := 0) (hi := n) (Nat.zero_le n) (f := body)
    (fun k => S.rep (fun p => pick (∃ i, i < k ∧ P i p) (f p (e p)) (e p))) (by
      intro i _ h2
      rw [h i h2]
      congr 2
      funext p
      by_cases hp : P i p
      · have h1 : ¬ ∃ j, j < i ∧ P j p := by
          rintro ⟨j, hj, hjp⟩
          have := hdisj i j p hp hjp
          omega
        have h2 : ∃ j, j < i + 1 ∧ P j p := ⟨i, by omega, hp⟩
        rw [pick_pos hp, pick_neg h1, pick_pos h2]
      · rw [pick_neg hp]
        have : (∃ j, j < i ∧ P j p) ↔ ∃ j, j < i + 1 ∧ P j p := by
          constructor
          · rintro ⟨j, hj, hjp⟩; exact ⟨j, by omega, hjp⟩
          · rintro ⟨j, hj, hjp⟩
            refine ⟨j, ?_, hjp⟩
            rcases Nat.lt_succ_iff_lt_or_eq.mp hj with h | rfl
            · exact h
            · exact absurd hjp hp
        simp only [this])
  simpa [pick_neg] using this

theorem update_eq_if (p : ι) (f : ι → K → K) (e : ι → K) :
    (fun q => pick (q = p) (f q (e q)) (e q)) = Function.update e p (f p (e p)) := by
  funext q
  rw [Function.update_apply]
  split_ifs with h
  · rw [pick_pos h, h]
  · rw [pick_neg h]

end Store

variable {K : Type}

theorem eAt_map (B : Build) {n i : Nat} (g : Nat → K) (h : i < n) : eAt B ((List.range n).map g) i = .ok (g i) := by
  rw [eAt_lt (by simpa using h)]; simp

/-- `VectorN` of `n` elements. -/
def vecStore (K : Type) (B : Build) (n : Nat) : Store (List K) Nat K where
  rep e := (List.range n).map e
  valid p := p < n
  get v p := eAt B v p
  set v p a := eSet B v p a
  get_ok e p h := eAt_map B e h
  set_ok e p a h := by
    unfold eSet
    rw [if_pos (by simpa using h)]
    congr 1
    apply List.ext_getElem (by simp)
    intro i h1 h2
    simp only [List.getElem_set, List.getElem_map, List.getElem_range, Function.update_apply]
    simp only [eq_comm]

/-- `MatrixMN` of `n` rows and `m` columns. -/
def matStore (K : Type) (B : Build) (n m : Nat) : Store (Mat K) (Nat × Nat) K where
  rep e := ⟨n, m, fun i j => e (i, j)⟩
  valid p := p.1 < n ∧ p.2 < m
  get v p := v.at' B p.1 p.2
  set v p a := v.set B p.1 p.2 a
  get_ok e p h := Mat.at_lt h.1 h.2
  set_ok e p a h := by
    unfold Mat.set
    rw [if_pos h]
    congr 2
    funext i j
    simp only [Function.update_apply, Prod.ext_iff]

theorem vAt_map {α : Type} {n i : Nat} (g : Nat → α) (h : i < n) : vAt ((List.range n).map g) i = .ok (g i) := by
  rw [vAt_lt (by simpa using h)]; simp

/-- `std::vector<MatrixMN>` of `l` matrices of `n` rows and `m` columns; the cell `(i, j, k)` is `v.at(k)(i, j)`. -/
def cubeStore (K : Type) (B : Build) (n m l : Nat) : Store (List (Mat K)) (Nat × Nat × Nat) K where
  rep e := (List.range l).map (fun k => ⟨n, m, fun i j => e (i, j, k)⟩)
  valid p := p.1 < n ∧ p.2.1 < m ∧ p.2.2 < l
  get v p := cubeGet B v p.1 p.2.1 p.2.2
  set v p a := cubeSet B v p.1 p.2.1 p.2.2 a
  get_ok e p h := by
    unfold cubeGet
    rw [vAt_map _ h.2.2, Res.ok_bind, Mat.at_lt h.1 h.2.1]
  set_ok e p a h := by
    unfold cubeSet
    rw [vAt_map _ h.2.2, Res.ok_bind]
    unfold Mat.set
    rw [if_pos ⟨h.1, h.2.1⟩, Res.ok_bind, Res.pure_eq]
    congr 1
    apply List.ext_getElem (by simp)
    intro k h1 h2
    simp only [List.getElem_set, List.getElem_map, List.getElem_range, Function.update_apply, Prod.ext_iff]
    by_cases hk : p.2.2 = k
    · subst hk
      simp
    · rw [if_neg hk]
      have hk' : ¬ k = p.2.2 := fun h => hk h.symm
      simp [hk']

end MU
